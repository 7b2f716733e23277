import Verif.Proofs.RoundTrip
import Verif.Spec.Cycle
/-
Helper lemmas for C83: `setFlat` on a new element, given pairs that agree per key with the leaves of any `e`.
-/
namespace Flatland
open Spec

theorem survives_eq_false {p : Bool} {e : Elem} (sep : PStr) : survives p e = false ↔ rel sep p e = [] := by
  simp only [survives, rel, List.map_eq_nil_iff, List.filter_eq_nil_iff, List.any_eq_false]

theorem survives_iff {p : Bool} {e : Elem} (sep : PStr) : survives p e = true ↔ rel sep p e ≠ [] := by
  rw [ne_eq, ← survives_eq_false sep, Bool.not_eq_false]

theorem survives_mono {p q : Bool} {e : Elem} (h : survives p e = false) : survives (p || q) e = false := by
  simp only [survives, List.any_eq_false, dropped] at h ⊢
  intro l hl
  have := h l hl
  cases p <;> cases q <;> simp_all

theorem survives_absent {p : Bool} : survives p .absent = false := rfl

theorem survives_dict {p : Bool} {n : Option PStr} {ks : List Elem} : survives p (.dict n ks) = ks.any (survives p) := by
  rw [Bool.eq_iff_iff, survives_iff [], rel_dict, List.any_eq_true, ne_eq, List.map_eq_nil_iff, relKids, List.flatMap_eq_nil_iff]
  simp only [survives_iff [], ne_eq, Classical.not_forall, exists_prop]

theorem survives_array {p : Bool} {n : Option PStr} {ks : List Elem} : survives p (.array n ks) = ks.any (survives p) := by
  rw [Bool.eq_iff_iff, survives_iff [], rel_array, List.any_eq_true, ne_eq, List.map_eq_nil_iff, relKids, List.flatMap_eq_nil_iff]
  simp only [survives_iff [], ne_eq, Classical.not_forall, exists_prop]

theorem survives_list {p : Bool} {n : Option PStr} {ks : List Elem} : survives p (.list n ks) = ks.any (survives p) := by
  have h : ∀ (ks : List Elem) i, relSlots [] p i ks = [] ↔ ∀ k ∈ ks, rel [] p k = [] := by
    intro ks
    induction ks with
    | nil => simp [relSlots]
    | cons k ks ih => intro i; simp [relSlots, ih]
  rw [Bool.eq_iff_iff, survives_iff [], rel_list, List.any_eq_true, ne_eq, List.map_eq_nil_iff, h]
  simp only [survives_iff [], ne_eq, Classical.not_forall, exists_prop]

theorem survives_scalar {p : Bool} {n : Option PStr} {st : ScalarState} : survives p (.scalar n st) = !(p && st.u == []) := by
  rw [Bool.eq_iff_iff, survives_iff [], rel_scalar]
  cases (p && st.u == []) <;> simp

/-! ### lists -/

theorem upToLast_nil {α} (q : α → Bool) {l : List α} (h : ∀ x ∈ l, q x = false) : upToLast q l = [] := by
  simp only [upToLast, List.reverse_eq_nil_iff]
  have h' : ∀ x ∈ l.reverse, q x = false := fun x hx => h x (List.mem_reverse.1 hx)
  generalize l.reverse = r at h'
  induction r with
  | nil => rfl
  | cons a r ih => rw [List.dropWhile_cons, if_pos (by simp [h' a (by simp)]), ih (fun x hx => h' x (by simp [hx]))]

/-- up to the last one: the first `i + 1`, if `i` is the last index at which `q` holds -/
theorem upToLast_take {α} (q : α → Bool) (l : List α) (i : Nat) (x : α) (hi : l[i]? = some x) (hx : q x = true)
    (h : ∀ (j : Nat) y, l[j]? = some y → q y = true → j ≤ i) : upToLast q l = l.take (i + 1) := by
  have hlt : i < l.length := (List.getElem?_eq_some_iff.1 hi).1
  have hsplit : l = l.take (i + 1) ++ l.drop (i + 1) := (List.take_append_drop _ _).symm
  have htail : ∀ y ∈ l.drop (i + 1), q y = false := by
    intro y hy
    obtain ⟨j, hj⟩ := List.mem_iff_getElem?.1 hy
    rw [List.getElem?_drop] at hj
    cases hq : q y with
    | false => rfl
    | true => have := h _ y hj hq; omega
  have hlast : l.take (i + 1) = l.take i ++ [x] := by
    rw [List.take_add_one, hi]; rfl
  unfold upToLast
  rw [hsplit, List.reverse_append, List.dropWhile_append_of_pos]
  · rw [← hsplit, hlast]
    simp [hx]
  · intro y hy
    simp [htail y (List.mem_reverse.1 hy)]

theorem upToLast_prefix {α} (q : α → Bool) (l : List α) : upToLast q l <+: l := by
  have := List.dropWhile_suffix (fun x => !q x) (l := l.reverse)
  have := List.reverse_prefix.2 this
  simpa [upToLast] using this

theorem upToLast_any {α} (q : α → Bool) (l : List α) : (upToLast q l).any q = l.any q := by
  rw [Bool.eq_iff_iff, List.any_eq_true, List.any_eq_true]
  constructor
  · rintro ⟨x, hx, hq⟩; exact ⟨x, (upToLast_prefix q l).subset hx, hq⟩
  · rintro ⟨x, hx, hq⟩
    refine ⟨x, ?_, hq⟩
    simp only [upToLast, List.mem_reverse]
    have hx' := List.mem_reverse.2 hx
    generalize l.reverse = r at hx'
    clear hx
    induction r with
    | nil => simp at hx'
    | cons y r ih =>
      rw [List.dropWhile_cons]
      split
      · rename_i hy
        rcases List.mem_cons.1 hx' with rfl | h
        · simp [hq] at hy
        · exact ih h
      · exact hx'

theorem upToLast_idem {α β} (q : α → Bool) (r : β → Bool) (g : α → β) (l : List α) (h : ∀ x ∈ l, r (g x) = q x) :
    upToLast r ((upToLast q l).map g) = (upToLast q l).map g := by
  unfold upToLast
  rw [List.map_reverse, List.reverse_reverse]
  congr 1
  have h' : ∀ x ∈ l.reverse, r (g x) = q x := fun x hx => h x (List.mem_reverse.1 hx)
  generalize l.reverse = l at h'
  induction l with
  | nil => rfl
  | cons a l ih =>
    rw [List.dropWhile_cons]
    split
    · exact ih fun x hx => h' x (by simp [hx])
    · rename_i ha
      rw [List.map_cons, List.dropWhile_cons, if_neg]
      rw [h' a (by simp)]; exact ha

theorem any_false {α} {q : α → Bool} {l : List α} (h : l.any q = false) : ∀ x ∈ l, q x = false :=
  fun x hx => Bool.not_eq_true _ ▸ List.any_eq_false.1 h x hx

/-- members picked by index -/
theorem mapM_pick {ε α β} (ks : List α) (f : Nat → Except ε β) (g : α → β) (L : List Nat)
    (h : ∀ i ∈ L, ∃ k, ks[i]? = some k ∧ f i = .ok (g k)) :
    L.mapM f = .ok ((L.filterMap (ks[·]?)).map g) := by
  induction L with
  | nil => rfl
  | cons i L ih =>
    obtain ⟨k, hk, hf⟩ := h i (by simp)
    rw [List.mapM_cons, hf, ih (fun j hj => h j (by simp [hj]))]
    simp [hk, bind, Except.bind, pure, Except.pure]

theorem pick_range {α} (ks : List α) (n : Nat) (h : n ≤ ks.length) : (List.range n).filterMap (ks[·]?) = ks.take n := by
  induction n with
  | zero => rfl
  | succ n ih =>
    rw [List.range_succ, List.filterMap_append, ih (by omega), List.take_add_one]
    simp only [List.filterMap_cons, List.filterMap_nil, List.getElem?_eq_getElem (show n < ks.length by omega)]
    rfl

theorem pick_filter {α} (q : α → Bool) (ks : List α) :
    ((List.range ks.length).filter fun i => (ks[i]?.map q).getD false).filterMap (ks[·]?) = ks.filter q := by
  have key : ∀ (n : Nat), n ≤ ks.length →
      ((List.range n).filter fun i => (ks[i]?.map q).getD false).filterMap (ks[·]?) = (ks.take n).filter q := by
    intro n
    induction n with
    | zero => intro _; simp
    | succ n ih =>
      intro hn
      have hg := List.getElem?_eq_getElem (show n < ks.length by omega)
      rw [List.range_succ, List.filter_append, List.filterMap_append, ih (by omega), List.take_add_one, List.filter_append, hg]
      congr 1
      by_cases hq : q ks[n] = true
      · simp [hg, hq]
      · simp [hg, hq]
  have := key ks.length (Nat.le_refl _)
  rwa [List.take_length] at this

theorem pick_take {α} (ks : List α) (L : List Nat) (n : Nat) (h : ∀ i ∈ L, i < ks.length) :
    (L.take n).filterMap (ks[·]?) = (L.filterMap (ks[·]?)).take n := by
  induction L generalizing n with
  | nil => simp
  | cons i L ih =>
    cases n with
    | zero => simp
    | succ n =>
      have hg := List.getElem?_eq_getElem (h i (by simp))
      simp only [List.take_succ_cons, List.filterMap_cons, hg]
      rw [ih n (fun j hj => h j (by simp [hj]))]

/-! ### nothing comes back of an element no scalar of which gets through -/

variable [Runtime]

mutual
theorem broughtBack_lost (p : Bool) : ∀ (s : Schema) (e : Elem) {sep : PStr}, WellNamed sep s → Conforms s e → survives p e = false →
    broughtBack p s e = fresh s
  | .scalar h t, .scalar n st, _, _, hc, hr => by
    simp only [Conforms] at hc; subst hc
    rw [survives_scalar] at hr
    simp only [broughtBack, fresh]
    rw [if_pos (by simpa using hr)]
  | .dict h mode po fs, .dict n ks, _, hw, hc, hr => by
    simp only [Conforms, WellNamed] at hc hw
    rw [survives_dict] at hr
    simp only [broughtBack, fresh, hc.1, broughtBackAll_lost p mode fs ks hc.2 (any_false hr)]
  | .list h true max m, .list n ks, _, hw, hc, hr => by
    simp only [Conforms] at hc
    rw [survives_list] at hr
    have hr := any_false hr
    have : ks.filter (survives true) = [] := by
      rw [List.filter_eq_nil_iff]
      intro k hk
      have := survives_mono (q := true) (hr k hk)
      simpa using this
    simp [broughtBack, fresh, hc.1, this]
  | .list h false max m, .list n ks, _, hw, hc, hr => by
    simp only [Conforms] at hc
    rw [survives_list] at hr
    simp [broughtBack, fresh, hc.1, upToLast_nil _ (any_false hr)]
  | .array h prune m, .array n ks, _, hw, hc, hr => by
    simp only [Conforms, WellNamed] at hc hw
    rw [survives_array] at hr
    have hr := any_false hr
    have : ks.filter (fun k => !(arrayDrops p prune h.name m.name && k.state.u == [])) = [] := by
      rw [List.filter_eq_nil_iff]
      intro k hk
      have hck := hc.2 k hk
      have hr := hr k hk
      cases m <;> simp [isContainer] at hw
      cases k <;> simp only [Conforms] at hck
      rw [survives_scalar] at hr
      simp only [Bool.not_eq_false', Bool.and_eq_true] at hr
      simp [arrayDrops, hr, Elem.state]
    simp only [broughtBack, fresh, hc.1, this, List.map_nil]
  | .scalar .., .dict .., _, _, hc, _ | .scalar .., .list .., _, _, hc, _ | .scalar .., .array .., _, _, hc, _ | .scalar .., .absent, _, _, hc, _
  | .dict .., .scalar .., _, _, hc, _ | .dict .., .list .., _, _, hc, _ | .dict .., .array .., _, _, hc, _ | .dict .., .absent, _, _, hc, _
  | .list .., .dict .., _, _, hc, _ | .list .., .scalar .., _, _, hc, _ | .list .., .array .., _, _, hc, _ | .list .., .absent, _, _, hc, _
  | .array .., .dict .., _, _, hc, _ | .array .., .list .., _, _, hc, _ | .array .., .scalar .., _, _, hc, _ | .array .., .absent, _, _, hc, _ => by
    simp [Conforms] at hc
theorem broughtBackAll_lost (p : Bool) (mode : DictMode) : ∀ (fs : List Schema) (ks : List Elem), ConformsAll mode fs ks →
    (∀ k ∈ ks, survives p k = false) → broughtBackAll p mode fs ks = freshFields mode fs
  | [], [], _, _ => by simp [broughtBackAll, freshFields]
  | f :: fs, k :: ks, hc, hr => by
    simp only [ConformsAll] at hc
    simp only [broughtBackAll, freshFields, hr k (by simp), broughtBackAll_lost p mode fs ks hc.2 (fun x hx => hr x (by simp [hx]))]
    simp
  | [], _ :: _, hc, _ | _ :: _, [], hc, _ => by simp [ConformsAll] at hc
end

end Flatland
