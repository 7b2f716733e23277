import Verif.Proofs.RichTree
import Verif.Proofs.Submissions
/-! Helper lemmas for C86: `set_flat` of any element with Compounds and JoinedStrings in it does what it does to a plain element standing for it. -/
namespace Flatland
open Spec

/-! ### members of a JoinedString kept in the value of a scalar -/

/-- a member as a Python value -/
def encState (st : ScalarState) : PyVal :=
  .list [st.value, .str st.u, .list (match st.raw with | some v => [v] | none => [])]

/-- and back -/
def decState : PyVal → ScalarState
  | .list [v, .str u, .list l] => ⟨v, u, l.head?⟩
  | _ => .fresh

theorem dec_enc (st : ScalarState) : decState (encState st) = st := by
  obtain ⟨v, u, r⟩ := st
  cases r <;> rfl

/-- the members kept -/
def decMembers : PyVal → List ScalarState
  | .list l => l.map decState
  | _ => []

theorem decMembers_enc (ms : List ScalarState) : decMembers (.list (ms.map encState)) = ms := by
  simp [decMembers, Function.comp_def, dec_enc]

section
variable [Runtime]

/-- what a JoinedString has as members when its stand-in is in the given state -/
def keptMembers (c : JoinedCfg) (st : ScalarState) : List ScalarState :=
  match st.value with
  | .str s => (joinedSet c [] (.str s)).1
  | v => decMembers v

mutual
/-- from a plain element to the one it stands for -/
def raise : RSchema → Elem → RElem
  | _, .absent => .plain .absent
  | .plain _, e => .plain e
  | .joined h c m, e => .joined h.name c m (keptMembers c e.state)
  | .compound h compose _, e => .compound h.name compose e.kids
  | .dict h _ _ fs, e => .dict h.name (raiseAll fs e.kids)
  | .list h _ _ m, e => .list h.name (e.kids.map (raise m))
/-- see `raise` -/
def raiseAll : List RSchema → List Elem → List RElem
  | f :: fs, k :: ks => raise f k :: raiseAll fs ks
  | _, _ => []
end

omit [Runtime] in
mutual
/-- the plain element standing for an element -/
def lower : RElem → Elem
  | .plain e => e
  | .joined n c _ ms => .scalar n ⟨.list (ms.map encState), joinedText c ms, none⟩
  | .compound n _ ks => .dict n ks
  | .dict n ks => .dict n (lowerAll ks)
  | .list n ks => .list n (lowerAll ks)
/-- see `lower` -/
def lowerAll : List RElem → List Elem
  | [] => []
  | k :: ks => lower k :: lowerAll ks
end

omit [Runtime] in
theorem lowerAll_eq (ks : List RElem) : lowerAll ks = ks.map lower := by
  induction ks with
  | nil => rfl
  | cons k ks ih => simp [lowerAll, ih]

theorem raise_absent (s : RSchema) : raise s .absent = .plain .absent := by
  cases s <;> simp [raise]

theorem raise_present (s : RSchema) (e : Elem) : (raise s e).present = e.present := by
  cases e <;> cases s <;> simp [raise, RElem.present, Elem.present]

mutual
theorem raise_fresh : ∀ (s : RSchema), raise s (fresh (plainS s)) = rFresh s
  | .plain s => by
    simp only [plainS, rFresh]
    cases h : fresh s <;> simp [raise]
  | .joined h c m => by simp [plainS, rFresh, raise, fresh, Elem.state, ScalarState.fresh, keptMembers, decMembers]
  | .compound h compose fs => by simp [plainS, rFresh, raise, fresh, Elem.kids]
  | .dict h mode po fs => by
    simp only [plainS, rFresh, fresh, raise, Elem.kids, raise_freshFields mode fs]
  | .list h prune max m => by simp [plainS, rFresh, raise, fresh, Elem.kids]
theorem raise_freshFields (mode : DictMode) : ∀ (fs : List RSchema), raiseAll fs (freshFields mode (plainAll fs)) = rFreshFields mode fs
  | [] => by simp [raiseAll, rFreshFields]
  | f :: fs => by
    simp only [plainAll, freshFields, raiseAll, rFreshFields, raise_freshFields mode fs, autoField_plainS]
    cases h : rAutoField mode f with
    | true => rw [if_pos rfl, if_pos rfl, raise_fresh f]
    | false => rw [if_neg (by simp), if_neg (by simp), raise_absent]
end

mutual
theorem raise_lower : ∀ (s : RSchema) (e : RElem), RConforms s e → raise s (lower e) = e
  | .plain s, .plain e, h => by
    simp only [lower]
    cases e <;> simp [raise]
  | .joined hd c m, .joined n c' m' ms, h => by
    simp only [RConforms] at h
    obtain ⟨rfl, rfl, rfl⟩ := h
    simp [lower, raise, Elem.state, keptMembers, decMembers_enc]
  | .compound hd co fs, .compound n co' ks, h => by
    simp only [RConforms] at h
    obtain ⟨rfl, rfl, _⟩ := h
    simp [lower, raise, Elem.kids]
  | .dict hd mode po fs, .dict n ks, h => by
    simp only [RConforms] at h
    obtain ⟨rfl, h⟩ := h
    simp only [lower, raise, Elem.kids, raise_lowerAll mode fs ks h]
  | .list hd pr ma m, .list n ks, h => by
    simp only [RConforms] at h
    obtain ⟨rfl, h⟩ := h
    simp only [lower, raise, Elem.kids, lowerAll_eq, List.map_map]
    have : ks.map (raise m ∘ lower) = ks := by
      conv => rhs; rw [← List.map_id ks]
      exact List.map_congr_left fun k hk => raise_lower m k (h k hk)
    rw [this]
  | .plain _, .joined .., h | .plain _, .compound .., h | .plain _, .dict .., h | .plain _, .list .., h
  | .joined .., .plain _, h | .joined .., .compound .., h | .joined .., .dict .., h | .joined .., .list .., h
  | .compound .., .plain _, h | .compound .., .joined .., h | .compound .., .dict .., h | .compound .., .list .., h
  | .dict .., .plain _, h | .dict .., .joined .., h | .dict .., .compound .., h | .dict .., .list .., h
  | .list .., .plain _, h | .list .., .joined .., h | .list .., .compound .., h | .list .., .dict .., h => by
    simp [RConforms] at h
theorem raise_lowerAll (mode : DictMode) : ∀ (fs : List RSchema) (ks : List RElem), RConformsAll mode fs ks → raiseAll fs (lowerAll ks) = ks
  | [], [], _ => by simp [lowerAll, raiseAll]
  | f :: fs, k :: ks, h => by
    simp only [RConformsAll] at h
    simp only [lowerAll, raiseAll, raise_lowerAll mode fs ks h.2]
    rcases h.1 with ⟨rfl, _⟩ | h
    · simp [lower, raise_absent]
    · rw [raise_lower f k h]
  | [], _ :: _, h | _ :: _, [], h => by simp [RConformsAll] at h
end

mutual
theorem conforms_lower : ∀ (s : RSchema) (e : RElem), RConforms s e → Conforms (plainS s) (lower e)
  | .plain s, .plain e, h => by simpa [RConforms, plainS, lower] using h
  | .joined hd c m, .joined n c' m' ms, h => by simp only [RConforms] at h; simp [plainS, lower, Conforms, h.1]
  | .compound hd co fs, .compound n co' ks, h => by
    simp only [RConforms] at h
    simp only [plainS, lower, Conforms]; exact ⟨h.1, h.2.2⟩
  | .dict hd mode po fs, .dict n ks, h => by
    simp only [RConforms] at h
    simp only [plainS, lower, Conforms]; exact ⟨h.1, conformsAll_lower mode fs ks h.2⟩
  | .list hd pr ma m, .list n ks, h => by
    simp only [RConforms] at h
    simp only [plainS, lower, Conforms, lowerAll_eq]
    refine ⟨h.1, fun k hk => ?_⟩
    obtain ⟨k', hk', rfl⟩ := List.mem_map.1 hk
    exact conforms_lower m k' (h.2 k' hk')
  | .plain _, .joined .., h | .plain _, .compound .., h | .plain _, .dict .., h | .plain _, .list .., h
  | .joined .., .plain _, h | .joined .., .compound .., h | .joined .., .dict .., h | .joined .., .list .., h
  | .compound .., .plain _, h | .compound .., .joined .., h | .compound .., .dict .., h | .compound .., .list .., h
  | .dict .., .plain _, h | .dict .., .joined .., h | .dict .., .compound .., h | .dict .., .list .., h
  | .list .., .plain _, h | .list .., .joined .., h | .list .., .compound .., h | .list .., .dict .., h => by
    simp [RConforms] at h
theorem conformsAll_lower (mode : DictMode) : ∀ (fs : List RSchema) (ks : List RElem), RConformsAll mode fs ks → ConformsAll mode (plainAll fs) (lowerAll ks)
  | [], [], _ => by simp [plainAll, lowerAll, ConformsAll]
  | f :: fs, k :: ks, h => by
    simp only [RConformsAll] at h
    simp only [plainAll, lowerAll, ConformsAll]
    refine ⟨?_, conformsAll_lower mode fs ks h.2⟩
    rcases h.1 with ⟨rfl, h1⟩ | h1
    · exact .inl ⟨rfl, by rw [autoField_plainS]; exact h1⟩
    · exact .inr (conforms_lower f k h1)
  | [], _ :: _, h | _ :: _, [], h => by simp [RConformsAll] at h
end

mutual
theorem conforms_raise : ∀ (s : RSchema) (e : Elem), Conforms (plainS s) e → RConforms s (raise s e)
  | .plain s, e, h => by
    simp only [plainS] at h
    cases e <;> first | (simpa [raise, RConforms] using h)
  | .joined hd c m, e, h => by
    cases e <;> simp [plainS, Conforms] at h
    simp [raise, RConforms]
  | .compound hd co fs, e, h => by
    cases e <;> simp [plainS, Conforms] at h
    simp only [raise, RConforms, Elem.kids]
    exact ⟨trivial, trivial, h.2⟩
  | .dict hd mode po fs, e, h => by
    cases e <;> simp [plainS, Conforms] at h
    simp only [raise, RConforms, Elem.kids]
    exact ⟨trivial, conformsAll_raise mode fs _ h.2⟩
  | .list hd pr ma m, e, h => by
    cases e <;> simp [plainS, Conforms] at h
    simp only [raise, RConforms, Elem.kids]
    refine ⟨trivial, fun k hk => ?_⟩
    obtain ⟨k', hk', rfl⟩ := List.mem_map.1 hk
    exact conforms_raise m k' (h.2 k' hk')
theorem conformsAll_raise (mode : DictMode) : ∀ (fs : List RSchema) (ks : List Elem), ConformsAll mode (plainAll fs) ks → RConformsAll mode fs (raiseAll fs ks)
  | [], [], _ => by simp [raiseAll, RConformsAll]
  | f :: fs, k :: ks, h => by
    simp only [plainAll, ConformsAll] at h
    simp only [raiseAll, RConformsAll]
    refine ⟨?_, conformsAll_raise mode fs ks h.2⟩
    rcases h.1 with ⟨rfl, h1⟩ | h1
    · exact .inl ⟨raise_absent f, by rw [← autoField_plainS]; exact h1⟩
    · exact .inr (conforms_raise f k h1)
  | [], _ :: _, h | _ :: _, [], h => by simp [plainAll, ConformsAll] at h
end

omit [Runtime] in
theorem conforms_ne_absent {s : Schema} {e : Elem} (h : Conforms s e) : e ≠ .absent := by
  rintro rfl
  cases s <;> simp [Conforms] at h

theorem setFlat_not_absent {sep : PStr} {s : Schema} {e : Elem} {ps : List FPair} {e' : Elem} (he : e ≠ .absent)
    (h : setFlat sep s e ps = .ok e') : e' ≠ .absent := by
  cases s with
  | scalar hd t =>
    simp only [setFlat, scalarSetFlat] at h
    split at h
    · cases h; simp
    · split at h
      · cases h; simp
      · cases h
  | dict hd mo po fs =>
    simp only [setFlat] at h
    split at h
    · cases h
    · split at h
      · cases h; exact he
      · split at h
        · cases h
        · cases h; simp
  | list hd pr ma m =>
    simp only [setFlat] at h
    split at h
    · cases h
    · split at h
      · cases h
      · cases h; simp
  | array hd pr m =>
    cases m with
    | scalar hm t =>
      simp only [setFlat] at h
      split at h
      · cases h
      · cases h; simp
    | _ => simp [setFlat] at h

omit [Runtime] in
theorem joinedSet_members [Runtime] (c : JoinedCfg) (ms : List ScalarState) (s : PStr) :
    (joinedSet c ms (.str s)).2 = (joinedSet c [] (.str s)).2 ∧
    (∀ b, (joinedSet c [] (.str s)).2 = .ok b → (joinedSet c ms (.str s)).1 = (joinedSet c [] (.str s)).1) := by
  unfold joinedSet
  cases joinedValues c (.str s) with
  | error er => exact ⟨rfl, fun b h => by cases h⟩
  | ok vs => exact ⟨rfl, fun _ _ => rfl⟩

mutual
/-- `set_flat` does to any element what it does to the plain element standing for it -/
theorem rSetFlat_raise (sep : PStr) : ∀ (s : RSchema) (e : Elem) (ps : List FPair), Conforms (plainS s) e →
    rSetFlat sep s (raise s e) ps = (setFlat sep (plainS s) e ps).map (raise s)
  | .plain s, e, ps, hc => by
    have hr : raise (.plain s) e = .plain e := by cases e <;> simp [raise]
    have hne := conforms_ne_absent hc
    rw [hr]
    simp only [rSetFlat, plainS, RElem.asPlain]
    cases h : setFlat sep s e ps with
    | error er => rfl
    | ok e' =>
      have := setFlat_not_absent hne h
      simp only [Except.map, Except.ok.injEq]
      cases e' <;> simp_all [raise]
  | .joined h c m, e, ps, hc => by
    cases e <;> simp [plainS, Conforms] at hc
    rename_i n st
    simp only [raise, rSetFlat, plainS, RElem.members, rJoinedSetFlat, setFlat, scalarSetFlat, Elem.state]
    cases hf : ps.find? fun p => p.1 == h.name with
    | none =>
      simp only [Except.map, raise, Elem.state, keptMembers]
    | some p =>
      simp only
      obtain ⟨hj2, hj1⟩ := joinedSet_members c (keptMembers c st) p.2
      rcases joined_simulates c p.2 { st with raw := none } with ⟨ms, b, h1, h2⟩ | ⟨ms, er, h1, h2⟩
      · rw [h1] at hj2 hj1
        have hj1 := hj1 b rfl
        have : joinedSet c (keptMembers c st) (.str p.2) = (ms, .ok b) := Prod.ext hj1 hj2
        rw [this, h2]
        simp [Except.map, raise, Elem.state, keptMembers, h1]
      · rw [h1] at hj2
        rcases hs : scalarSet (joinedType c) { st with raw := none } (.str p.2) with ⟨st', r⟩
        rw [hs] at h2
        simp only at h2
        rcases hjj : joinedSet c (keptMembers c st) (.str p.2) with ⟨ms', r'⟩
        rw [hjj] at hj2
        simp only at hj2
        rw [h2, hj2]
        rfl
  | .compound h compose fs, e, ps, hc => by
    cases e <;> simp [plainS, Conforms] at hc
    rename_i n ks
    obtain ⟨rfl, hc⟩ := hc
    simp only [raise, rSetFlat, plainS, RElem.fields, Elem.kids]
    cases hs : setFlat sep (.dict h .full .subset fs) (.dict h.name ks) ps with
    | error er => rfl
    | ok e' =>
      have := setFlat_not_absent (by simp) hs
      simp only [Except.map, Except.ok.injEq]
      cases e' <;> first | exact absurd rfl this | simp [raise, Elem.kids]
  | .dict h mode po fs, e, ps, hc => by
    cases e <;> simp [plainS, Conforms] at hc
    rename_i n ks
    obtain ⟨rfl, hc⟩ := hc
    simp only [raise, rSetFlat, plainS, setFlat, RElem.kids, Elem.kids]
    cases dictPossibles sep h.name ps with
    | error er => rfl
    | ok poss =>
      simp only
      by_cases he : poss.isEmpty = true
      · rw [if_pos he, if_pos he]
        simp [Except.map, raise, Elem.kids]
      · rw [if_neg he, if_neg he]
        rw [rSetFlatFields_raise sep mode fs ks poss hc]
        cases setFlatFields sep (plainAll fs) ks poss with
        | error er => rfl
        | ok ks => simp [Except.map, raise, Elem.kids]
  | .list h prune max m, e, ps, hc => by
    have : ∀ e₀, rSetFlat sep (.list h prune max m) e₀ ps = rSetFlat sep (.list h prune max m) (rFresh (.list h prune max m)) ps := fun e₀ => by
      simp only [rSetFlat]
    rw [this]
    simp only [rSetFlat, plainS, setFlat]
    cases listMatches sep h.name prune ps with
    | error er => rfl
    | ok ms =>
      simp only
      have : ∀ i : Nat, (if (subPairs ms i).isEmpty then Except.ok (rFresh m) else rSetFlat sep m (rFresh m) (subPairs ms i)) =
          (if (subPairs ms i).isEmpty then Except.ok (fresh (plainS m)) else setFlat sep (plainS m) (fresh (plainS m)) (subPairs ms i)).map (raise m) := by
        intro i
        split
        · simp [Except.map, raise_fresh]
        · rw [← raise_fresh]
          exact rSetFlat_raise sep m _ _ (fresh_conforms _)
      simp only [this, mapM_lift]
      cases (List.mapM (m := Except PyErr) _ _) with
      | error er => rfl
      | ok ks => simp [Except.map, raise, Elem.kids]
theorem rSetFlatFields_raise (sep : PStr) (mode : DictMode) : ∀ (fs : List RSchema) (ks : List Elem) (ps : List FPair), ConformsAll mode (plainAll fs) ks →
    rSetFlatFields sep fs (raiseAll fs ks) ps = (setFlatFields sep (plainAll fs) ks ps).map (raiseAll fs)
  | [], ks, ps, _ => by simp [rSetFlatFields, plainAll, setFlatFields, Except.map, raiseAll]
  | f :: fs, [], ps, hn => by simp [plainAll, ConformsAll] at hn
  | f :: fs, k :: ks, ps, hn => by
    simp only [plainAll, ConformsAll] at hn
    simp only [rSetFlatFields, plainAll, setFlatFields, plainS_name, raiseAll, List.headD_cons, List.tail_cons]
    rw [rSetFlatFields_raise sep mode fs ks ps hn.2]
    cases accumField f.name ps with
    | error er => rfl
    | ok acc =>
      simp only
      have : (if acc.isEmpty then Except.ok (raise f k) else rSetFlat sep f (rOrFresh f (raise f k)) acc) =
          (if acc.isEmpty then Except.ok k else setFlat sep (plainS f) (orFresh (plainS f) k) acc).map (raise f) := by
        split
        · rfl
        · unfold rOrFresh
          rw [raise_present]
          rcases hn.1 with ⟨rfl, _⟩ | hk
          · rw [← raise_fresh]
            exact rSetFlat_raise sep f _ acc (fresh_conforms _)
          · have hne := conforms_ne_absent hk
            have hp : k.present = true := by cases k <;> simp_all [Elem.present]
            have ho : orFresh (plainS f) k = k := by cases k <;> simp_all [orFresh]
            rw [hp, if_pos rfl, ho]
            exact rSetFlat_raise sep f k acc hk
      rw [this]
      generalize (if acc.isEmpty then Except.ok k else setFlat sep (plainS f) (orFresh (plainS f) k) acc) = r
      cases r with
      | error er => rfl
      | ok k =>
        simp only [Except.map]
        cases setFlatFields sep (plainAll fs) ks ps with
        | error er => rfl
        | ok rest => simp [raiseAll]
end

end

end Flatland
