import Verif.Spec.Genshi
import Verif.Proofs.Submit
import Verif.Proofs.Context
/-
Lemmas for C70.
-/
namespace Flatland
open Spec

/-! ### attributes in -/

theorem joinPieces_ok {ps : List APart} {s : PStr} : joinPieces ps = .ok s ↔ partsText ps = some s := by
  induction ps generalizing s with
  | nil => simp [joinPieces, partsText]
  | cons p r ih =>
    cases p with
    | text t =>
      simp only [joinPieces, partsText]
      cases hj : joinPieces r with
      | ok x => simp [Except.map, (ih (s := x)).1 hj]
      | error e =>
        have : partsText r = .none := by
          cases hp : partsText r with
          | none => rfl
          | some x => rw [ih.2 hp] at hj; cases hj
        simp [Except.map, this]
    | shown t =>
      simp only [joinPieces, partsText]
      cases hj : joinPieces r with
      | ok x => simp [Except.map, (ih (s := x)).1 hj]
      | error e =>
        have : partsText r = .none := by
          cases hp : partsText r with
          | none => rfl
          | some x => rw [ih.2 hp] at hj; cases hj
        simp [Except.map, this]
    | raises e => simp [joinPieces, partsText]

theorem toContext_eq (n : PStr) : toContext n = switchKey n := by
  unfold toContext
  split
  · rename_i h
    simp only [List.mem_cons, List.not_mem_nil, or_false] at h
    rcases h with h | h | h | h | h | h | h <;> subst h <;> decide
  · rename_i h
    simp only [List.mem_cons, List.not_mem_nil, or_false, not_or] at h
    unfold switchKey
    rw [if_neg h.1, if_neg h.2.1, if_neg h.2.2.1, if_neg h.2.2.2.1, if_neg h.2.2.2.2.1, if_neg h.2.2.2.2.2.1, if_neg h.2.2.2.2.2.2]

theorem switchValue_cons (d : Dir) (r : List Dir) (k : PStr) : switchValue (d :: r) k = (switchValue r k).or (dirValue k d) := by
  unfold switchValue
  rw [List.reverse_cons, List.findSome?_append]
  congr 1
  simp only [List.findSome?_cons, List.findSome?_nil]
  cases dirValue k d <;> rfl

theorem inject_spec {ds : List Dir} {m m' : Attrs} (h : inject m ds = .ok m') (hd : DictLike m) :
    DictLike m' ∧ (∀ k, dictGet m' k = (switchValue ds k).or (dictGet m k)) ∧ ∀ d ∈ ds, ∃ n ps, d = .control n ps := by
  induction ds generalizing m with
  | nil =>
    simp only [inject, Except.ok.injEq] at h
    subst h
    exact ⟨hd, fun k => rfl, by simp⟩
  | cons d r ih =>
    cases d with
    | control name ps =>
      simp only [inject] at h
      cases hj : joinPieces ps with
      | error e => rw [hj] at h; cases h
      | ok s =>
        rw [hj] at h
        obtain ⟨h1, h2, h3⟩ := ih h (nodup_dictKeys_put hd _ _)
        refine ⟨h1, ?_, ?_⟩
        · intro k
          rw [h2, switchValue_cons, dictGet_put, toContext_eq]
          simp only [dirValue, joinPieces_ok.1 hj]
          cases switchValue r k with
          | some v => rfl
          | none =>
            by_cases hk : k = switchKey name
            · rw [if_pos hk, if_pos hk.symm]; rfl
            · rw [if_neg hk, if_neg (fun e => hk e.symm)]; rfl
        · intro d hm
          rcases List.mem_cons.1 hm with rfl | hm
          · exact ⟨_, _, rfl⟩
          · exact h3 d hm
    | bind b => simp [inject] at h
    | withOpts a => simp [inject] at h
    | setOpts a => simp [inject] at h
    | foreign n => simp [inject] at h

/-- an attribute without the value if it is a plain one -/
def blank (p : QN × GVal) : QN × Option GVal := (p.1, if p.1.ns = .none then .none else some p.2)

theorem attrsPut_blank {a : GAttrs} {q : QN} (v : GVal) (hq : q.ns = .none) (hm : q ∈ a.map (·.1)) : (attrsPut a q v).map blank = a.map blank := by
  have : (a.any fun p => p.1 == q) = true := by
    obtain ⟨p, hp, he⟩ := List.mem_map.1 hm
    exact List.any_eq_true.2 ⟨p, hp, by simp [he]⟩
  unfold attrsPut
  rw [if_pos this, List.map_map]
  apply List.map_congr_left
  intro p _
  show blank (if p.1 = q then (q, v) else p) = blank p
  split
  · rename_i h
    unfold blank
    simp [h, hq]
  · rfl

theorem attrsPut_names {a : GAttrs} {q : QN} (v : GVal) (hm : q ∈ a.map (·.1)) : (attrsPut a q v).map (·.1) = a.map (·.1) := by
  have : (a.any fun p => p.1 == q) = true := by
    obtain ⟨p, hp, he⟩ := List.mem_map.1 hm
    exact List.any_eq_true.2 ⟨p, hp, by simp [he]⟩
  unfold attrsPut
  rw [if_pos this, List.map_map]
  apply List.map_congr_left
  intro p _
  show (if p.1 = q then (q, v) else p).1 = p.1
  split
  · rename_i h; exact h.symm
  · rfl

theorem attrOf_cons (p : QN × GVal) (r : GAttrs) (q : QN) : attrOf (p :: r) q = if p.1 = q then some p.2 else attrOf r q := by
  unfold attrOf
  rw [List.find?_cons]
  by_cases h : p.1 = q <;> simp [h]

theorem attrOf_none {a : GAttrs} {q : QN} : attrOf a q = .none ↔ q ∉ a.map (·.1) := by
  induction a with
  | nil => simp [attrOf]
  | cons p r ih =>
    rw [attrOf_cons]
    by_cases h : p.1 = q
    · simp [h]
    · rw [if_neg h, ih]
      have : ¬ q = p.1 := fun e => h e.symm
      simp [this]

theorem plainAttrs_spec {r cur cur' : GAttrs} {m m' : Attrs} (h : plainAttrs cur m r = .ok (cur', m')) (hd : DictLike m)
    (hn : DistinctNames r) (hs : ∀ p ∈ r, p.1 ∈ cur.map (·.1)) :
    DictLike m' ∧ cur'.map blank = cur.map blank ∧ (∀ k, dictGet m' k = match attrOf r (plain k) with
      | some v => attrValue v
      | .none => dictGet m k) ∧ ∀ p ∈ r, p.1.ns = .none → (attrValue p.2).isSome := by
  induction r generalizing cur m with
  | nil =>
    simp only [plainAttrs, Except.ok.injEq, Prod.mk.injEq] at h
    obtain ⟨rfl, rfl⟩ := h
    exact ⟨hd, rfl, fun k => rfl, by simp⟩
  | cons p r ih =>
    obtain ⟨q, v⟩ := p
    have hn' : DistinctNames r := (List.nodup_cons.1 hn).2
    have hq : q ∉ r.map (·.1) := (List.nodup_cons.1 hn).1
    have hs' : ∀ p ∈ r, p.1 ∈ cur.map (·.1) := fun p hp => hs p (List.mem_cons_of_mem _ hp)
    -- one plain attribute
    have step : ∀ (cur₁ : GAttrs) (w : HtmlVal), q.ns = .none → attrValue v = some w → cur₁.map blank = cur.map blank →
        cur₁.map (·.1) = cur.map (·.1) → plainAttrs cur₁ (dictPut m q.loc w) r = .ok (cur', m') →
        DictLike m' ∧ cur'.map blank = cur.map blank ∧ (∀ k, dictGet m' k = match attrOf ((q, v) :: r) (plain k) with
          | some v => attrValue v
          | .none => dictGet m k) ∧ ∀ p ∈ (q, v) :: r, p.1.ns = .none → (attrValue p.2).isSome := by
      intro cur₁ w hq0 hw hb hnm hp
      obtain ⟨h1, h2, h3, h4⟩ := ih hp (nodup_dictKeys_put hd _ _) hn' (fun p hp => by rw [hnm]; exact hs' p hp)
      refine ⟨h1, h2.trans hb, ?_, ?_⟩
      · intro k
        rw [h3, attrOf_cons]
        by_cases hk : q = plain k
        · have hr : attrOf r (plain k) = .none := attrOf_none.2 (hk ▸ hq)
          have hk' : k = q.loc := by rw [hk]; rfl
          simp only [hr, if_pos hk, dictGet_put, if_pos hk', hw]
        · have hk' : ¬ k = q.loc := by
            rintro rfl
            apply hk
            cases q
            simp only at hq0
            subst hq0
            rfl
          simp only [if_neg hk, dictGet_put, if_neg hk']
      · intro p hm hns
        rcases List.mem_cons.1 hm with rfl | hm
        · rw [hw]; rfl
        · exact h4 p hm hns
    simp only [plainAttrs] at h
    by_cases hq0 : q.ns = .none
    · rw [if_pos hq0] at h
      cases v with
      | val w =>
        cases w with
        | text s => exact step cur _ hq0 rfl rfl rfl h
        | markup s => exact step cur _ hq0 rfl rfl rfl h
        | none => cases h
        | bool b => cases h
        | maybe => cases h
        | int i => cases h
        | obj n => cases h
      | parts ps =>
        simp only at h
        cases hj : joinPieces ps with
        | error e => rw [hj] at h; cases h
        | ok s =>
          rw [hj] at h
          have hm : q ∈ cur.map (·.1) := hs _ (List.mem_cons_self ..)
          exact step _ (.text s) hq0 (by simp [attrValue, joinPieces_ok.1 hj]) (attrsPut_blank _ hq0 hm) (attrsPut_names _ hm) h
    · rw [if_neg hq0] at h
      obtain ⟨h1, h2, h3, h4⟩ := ih h hd hn' hs'
      refine ⟨h1, h2, ?_, ?_⟩
      · intro k
        rw [h3, attrOf_cons, if_neg]
        intro e
        exact hq0 (by rw [show q = plain k from e]; rfl)
      · intro p hm hns
        rcases List.mem_cons.1 hm with rfl | hm
        · exact absurd hns hq0
        · exact h4 p hm hns

/-! ### attributes out -/

/-- a plain attribute with its new value, if it has one -/
def refresh (l : Attrs) (p : QN × GVal) : QN × GVal :=
  if p.1.ns = .none then match dictGet l p.1.loc with
    | some v => (p.1, .val v)
    | .none => p
  else p

theorem refresh_fst (l : Attrs) (p : QN × GVal) : (refresh l p).1 = p.1 := by
  unfold refresh
  split
  · split <;> rfl
  · rfl

theorem plain_eta {q : QN} (h : q.ns = .none) : plain q.loc = q := by
  cases q
  simp only at h
  subst h
  rfl

theorem refresh_cons_ne {k : PStr} {v : HtmlVal} {l : Attrs} {p : QN × GVal} (h : p.1 ≠ plain k) : refresh ((k, v) :: l) p = refresh l p := by
  unfold refresh
  split
  · rename_i hns
    have : ¬ k = p.1.loc := by
      rintro rfl
      exact h (plain_eta hns).symm
    simp [dictGet, this]
  · rfl

theorem put_all (l : Attrs) (cur : GAttrs) (hl : DictLike l) :
    l.foldl (fun a p => attrsPut a ⟨.none, p.1⟩ (.val p.2)) cur =
      cur.map (refresh l) ++ (l.filter fun p => decide (plain p.1 ∉ cur.map (·.1))).map fun p => (plain p.1, .val p.2) := by
  induction l generalizing cur with
  | nil =>
    have : ∀ p : QN × GVal, refresh [] p = p := by intro p; unfold refresh; split <;> rfl
    have h2 : cur.map (refresh []) = cur := by
      conv => rhs; rw [← List.map_id cur]
      exact List.map_congr_left (fun p _ => this p)
    simp [h2]
  | cons x l ih =>
    obtain ⟨k, v⟩ := x
    have hk : k ∉ dictKeys l := (List.nodup_cons.1 hl).1
    have hl' : DictLike l := (List.nodup_cons.1 hl).2
    have hne : ∀ p ∈ l, p.1 ≠ k := by
      rintro p hp rfl
      exact hk (List.mem_map.2 ⟨p, hp, rfl⟩)
    have hg : dictGet l k = .none := dictGet_none.2 hk
    rw [List.foldl_cons, ih _ hl']
    by_cases hm : plain k ∈ cur.map (·.1)
    · have hm' : (⟨.none, k⟩ : QN) ∈ cur.map (·.1) := hm
      rw [attrsPut_names _ hm', List.filter_cons_of_neg (by simpa using hm)]
      congr 1
      have : (cur.any fun p => p.1 == (⟨.none, k⟩ : QN)) = true := by
        obtain ⟨p, hp, he⟩ := List.mem_map.1 hm'
        exact List.any_eq_true.2 ⟨p, hp, by simp [he]⟩
      unfold attrsPut
      rw [if_pos this, List.map_map]
      apply List.map_congr_left
      intro p _
      show refresh l (if p.1 = ⟨.none, k⟩ then (⟨.none, k⟩, .val v) else p) = refresh ((k, v) :: l) p
      split
      · rename_i he
        unfold refresh
        simp [he, dictGet, hg]
      · rename_i he
        rw [refresh_cons_ne he]
    · have : ¬ (cur.any fun p => p.1 == (⟨.none, k⟩ : QN)) = true := by
        intro h
        obtain ⟨p, hp, he⟩ := List.any_eq_true.1 h
        exact hm (List.mem_map.2 ⟨p, hp, eq_of_beq he⟩)
      unfold attrsPut
      rw [if_neg this, List.filter_cons_of_pos (by simpa using hm), List.map_append, List.map_cons, List.map_append, List.map_cons, List.map_cons]
      have h1 : cur.map (refresh l) = cur.map (refresh ((k, v) :: l)) := by
        apply List.map_congr_left
        intro p hp
        rw [refresh_cons_ne]
        intro he
        exact hm (List.mem_map.2 ⟨p, hp, he⟩)
      have h2 : refresh l ((⟨.none, k⟩ : QN), GVal.val v) = (plain k, .val v) := by
        unfold refresh
        simp [hg, plain]
      have h3 : (l.filter fun p => decide (plain p.1 ∉ cur.map (·.1) ++ ((⟨.none, k⟩ : QN), GVal.val v).1 :: List.map (·.1) ([] : GAttrs))) =
          l.filter fun p => decide (plain p.1 ∉ cur.map (·.1)) := by
        apply List.filter_congr
        intro p hp
        have : plain p.1 ≠ (⟨.none, k⟩ : QN) := by
          intro e
          exact hne p hp (by simpa [plain] using e)
        simp [this]
      rw [h1, h2, h3]
      simp

theorem del_all (L a : GAttrs) : L.foldl (fun a p => attrsDel a p.1) a = a.filter fun p => decide (p.1 ∉ L.map (·.1)) := by
  induction L generalizing a with
  | nil =>
    have : a.filter (fun p => decide (p.1 ∉ List.map (·.1) ([] : GAttrs))) = a := List.filter_eq_self.2 (by simp)
    rw [List.foldl_nil, this]
  | cons x L ih =>
    rw [List.foldl_cons, ih]
    unfold attrsDel
    rw [List.filter_filter]
    apply List.filter_congr
    intro p _
    by_cases h : p.1 = x.1 <;> simp [h]

theorem filter_map_filterMap {α β : Type} (f : α → β) (g : β → Bool) (h : α → Option β) (l : List α)
    (H : ∀ p ∈ l, (if g (f p) then some (f p) else .none) = h p) : (l.map f).filter g = l.filterMap h := by
  induction l with
  | nil => rfl
  | cons x l ih =>
    have hx := H x (List.mem_cons_self ..)
    have := ih (fun p hp => H p (List.mem_cons_of_mem _ hp))
    rw [List.map_cons, List.filter_cons, List.filterMap_cons, ← hx]
    by_cases hg : g (f x) = true
    · simp [hg, this]
    · simp [hg, this]

/-- where the plain attributes of a tag go -/
def keep (m : Attrs) (p : QN × GVal) : Option (QN × GVal) :=
  if p.1.ns = .none then (dictGet m p.1.loc).map (fun v => (p.1, .val v)) else some p

theorem mem_get {m : Attrs} (hm : DictLike m) {k : PStr} {v : HtmlVal} : (k, v) ∈ m ↔ dictGet m k = some v := by
  induction m with
  | nil => simp [dictGet]
  | cons p r ih =>
    obtain ⟨k', v'⟩ := p
    have hk : k' ∉ dictKeys r := (List.nodup_cons.1 hm).1
    have hr : DictLike r := (List.nodup_cons.1 hm).2
    rw [List.mem_cons, ih hr]
    simp only [dictGet, Prod.mk.injEq]
    by_cases he : k' = k
    · subst he
      have := dictGet_none.2 hk
      simp [this, eq_comm]
    · have he' : ¬ k = k' := fun e => he e.symm
      simp [he, he']

theorem mergeAttrs_spec {cur : GAttrs} {m : Attrs} (hm : DictLike m) :
    ∃ new : Attrs, (∀ k v, (k, v) ∈ new ↔ dictGet m k = some v ∧ attrOf cur (plain k) = .none) ∧ AttrSorted new ∧
      mergeAttrs cur m = cur.filterMap (keep m) ++ new.map fun p => (plain p.1, .val p.2) := by
  have hperm := sortAttrs_perm m
  have hl : DictLike (sortAttrs m) := by
    have := hperm.map (fun p : PStr × HtmlVal => p.1)
    exact this.nodup_iff.2 hm
  have hget : ∀ k, dictGet (sortAttrs m) k = dictGet m k := get_perm hl hperm
  refine ⟨(sortAttrs m).filter fun p => decide (plain p.1 ∉ cur.map (·.1)), ?_, ?_, ?_⟩
  · intro k v
    rw [List.mem_filter, mem_get hl, hget, attrOf_none]
    simp
  · exact List.Pairwise.filter _ (sortAttrs_sorted m hm)
  · unfold mergeAttrs
    simp only
    rw [put_all _ _ hl, del_all, List.filter_append]
    congr 1
    · apply filter_map_filterMap
      intro p hp
      rw [refresh_fst]
      have hgone : p.1 ∈ (cur.filter fun p => decide (p.1.ns = .none) && (dictGet m p.1.loc).isNone).map (·.1) ↔
          p.1.ns = .none ∧ dictGet m p.1.loc = .none := by
        rw [List.mem_map]
        constructor
        · rintro ⟨p', hp', he⟩
          have := (List.mem_filter.1 hp').2
          rw [he] at this
          simpa using this
        · intro h
          exact ⟨p, List.mem_filter.2 ⟨hp, by simp [h.1, h.2]⟩, rfl⟩
      unfold refresh keep
      rw [hget]
      by_cases hns : p.1.ns = .none
      · cases hv : dictGet m p.1.loc with
        | none => rw [if_neg (by simpa using hgone.2 ⟨hns, hv⟩), if_pos hns]; rfl
        | some v =>
          rw [if_pos (decide_eq_true (p := ¬ _) fun h => absurd (hgone.1 h).2 (by simp [hv])), if_pos hns, if_pos hns]; rfl
      · rw [if_pos (decide_eq_true (p := ¬ _) fun h => absurd (hgone.1 h).1 hns), if_neg hns, if_neg hns]
    · apply List.filter_eq_self.2
      intro p hp
      obtain ⟨x, hx, rfl⟩ := List.mem_map.1 hp
      have hx2 := (List.mem_filter.1 hx).2
      simp only [decide_not, Bool.not_eq_eq_eq_not, Bool.not_true, decide_eq_false_iff_not] at hx2 ⊢
      intro hc
      apply hx2
      obtain ⟨y, hy, he⟩ := List.mem_map.1 hc
      exact List.mem_map.2 ⟨y, (List.mem_filter.1 hy).1, he⟩

theorem keep_blank (m : Attrs) {p p' : QN × GVal} (h : blank p = blank p') : keep m p = keep m p' := by
  obtain ⟨q, v⟩ := p
  obtain ⟨q', v'⟩ := p'
  unfold blank at h
  simp only [Prod.mk.injEq] at h
  obtain ⟨rfl, h⟩ := h
  unfold keep
  by_cases hq : q.ns = .none
  · simp [hq]
  · simp only [hq, ↓reduceIte, Option.some.injEq] at h ⊢
    rw [h]

theorem filterMap_keep (m : Attrs) : ∀ {a cur : GAttrs}, cur.map blank = a.map blank → cur.filterMap (keep m) = a.filterMap (keep m)
  | [], [], _ => rfl
  | [], _ :: _, h => by simp at h
  | _ :: _, [], h => by simp at h
  | p :: a, p' :: cur, h => by
    simp only [List.map_cons, List.cons.injEq] at h
    rw [List.filterMap_cons, List.filterMap_cons, keep_blank m h.1, filterMap_keep m h.2]

theorem names_blank {a cur : GAttrs} (h : cur.map blank = a.map blank) : cur.map (·.1) = a.map (·.1) := by
  have : ∀ l : GAttrs, l.map (·.1) = (l.map blank).map (·.1) := by
    intro l
    rw [List.map_map]
    rfl
  rw [this, h, ← this]

theorem merged_of {a cur : GAttrs} {m : Attrs} (hb : cur.map blank = a.map blank) (hm : DictLike m) : Merged a m (mergeAttrs cur m) := by
  obtain ⟨new, h1, h2, h3⟩ := mergeAttrs_spec (cur := cur) hm
  refine ⟨new, ?_, h2, ?_⟩
  · intro k v
    rw [h1, attrOf_none, attrOf_none, names_blank hb]
  · rw [h3, filterMap_keep m hb]
    rfl

/-! ### contents -/

/-- the result without the bound on its size -/
def simpleOf {n : Nat} (r : Except PyErr { r : Simple // r.size ≤ n }) : Except PyErr Simple :=
  match r with
  | .ok x => .ok x.1
  | .error e => .error e

theorem simplifyLoop_text {evs : List Ev} {t : PStr} (h : deepTexts evs = some t) (done : List Ev) (p : Option PStr) :
    simpleOf (simplifyLoop done evs p) = match p with
      | some s => .ok (.text (s ++ t))
      | .none => .error .type := by
  suffices main : ∀ (n : Nat) (evs : List Ev), sizes evs = n → ∀ (t : PStr), deepTexts evs = some t → ∀ (done : List Ev) (p : Option PStr),
      simpleOf (simplifyLoop done evs p) = match p with
      | some s => .ok (.text (s ++ t))
      | .none => .error .type from main _ evs rfl t h done p
  intro n
  induction n using Nat.strongRecOn with
  | ind n ih =>
    intro evs hn t h done p
    subst hn
    cases evs with
    | nil =>
      simp only [deepTexts, Option.some.injEq] at h
      subst h
      cases p <;> simp [simplifyLoop, simpleOf]
    | cons e r =>
      have key : ∀ (o tail : Option PStr), (match o, tail with
          | some s, some t => some (s ++ t)
          | _, _ => .none) = some t → ∃ s u, o = some s ∧ tail = some u ∧ t = s ++ u := by
        intro o tail hh
        cases o with
        | none => cases hh
        | some s =>
          cases tail with
          | none => cases hh
          | some u => exact ⟨s, u, rfl, rfl, by simpa using hh.symm⟩
      rw [deepTexts] at h
      obtain ⟨s, u, he, hu, rfl⟩ := key _ _ h
      have hpos := Ev.size_pos e
      cases e with
      | text s' b =>
        simp only [deepText, Option.some.injEq] at he
        subst he
        have := ih (sizes r) (by simp only [sizes]; omega) r rfl _ hu (done ++ [.text s' b]) (p.map (· ++ s'))
        rw [simplifyLoop]
        cases hh : simplifyLoop (done ++ [.text s' b]) r (p.map (· ++ s')) with
        | error e => rw [hh] at this; cases p <;> simp [simpleOf] at this ⊢; exact this
        | ok x => rw [hh] at this; cases p <;> simp [simpleOf] at this ⊢; exact this
      | shown s' b =>
        simp only [deepText, Option.some.injEq] at he
        subst he
        have := ih (sizes r) (by simp only [sizes]; omega) r rfl _ hu (done ++ [.shown s' b]) (p.map (· ++ s'))
        rw [simplifyLoop]
        cases hh : simplifyLoop (done ++ [.shown s' b]) r (p.map (· ++ s')) with
        | error e => rw [hh] at this; cases p <;> simp [simpleOf] at this ⊢; exact this
        | ok x => rw [hh] at this; cases p <;> simp [simpleOf] at this ⊢; exact this
      | stream l =>
        simp only [deepText] at he
        have h1 := ih (sizes l) (by simp only [sizes, Ev.size]; omega) l rfl _ he [] (some [])
        have h2 := ih (sizes r) (by simp only [sizes]; omega) r rfl _ hu (done ++ [.text s false]) (p.map (· ++ s))
        rw [simplifyLoop]
        simp only [List.nil_append] at h1
        cases hl : simplifyLoop [] l (some []) with
        | error e => rw [hl] at h1; cases h1
        | ok x =>
          rw [hl] at h1
          obtain ⟨x, hx⟩ := x
          simp only [simpleOf, Except.ok.injEq] at h1
          subst h1
          simp only []
          cases hh : simplifyLoop (done ++ [.text s false]) r (p.map (· ++ s)) with
          | error e => rw [hh] at h2; cases p <;> simp [simpleOf] at h2 ⊢; exact h2
          | ok x => rw [hh] at h2; cases p <;> simp [simpleOf] at h2 ⊢; exact h2
      | start t a => simp [deepText] at he
      | stop t => simp [deepText] at he
      | raises e => simp [deepText] at he
      | sub ds l => simp [deepText] at he
      | other n => simp [deepText] at he

theorem simplifyLoop_tags {pre post : List Ev} {e : Ev} {t : PStr} (h : allText pre = some t) (he : isHard e = true) (done : List Ev) (p : Option PStr) :
    simpleOf (simplifyLoop done (pre ++ e :: post) p) = .ok (.events (done ++ (pre ++ e :: post))) := by
  induction pre generalizing done p t with
  | nil =>
    cases e <;> first | (simp [isHard] at he; done) | (rw [List.nil_append, simplifyLoop]; rfl)
  | cons x r ih =>
    have key : ∀ (s : PStr) (tail : Option PStr), (match some s, tail with
        | some s, some t => some (s ++ t)
        | _, _ => .none) = some t → ∃ u, tail = some u ∧ t = s ++ u := by
      intro s tail hh
      cases tail with
      | none => cases hh
      | some u => exact ⟨u, rfl, by simpa using hh.symm⟩
    cases x with
    | text s b =>
      obtain ⟨u, hu, rfl⟩ := key s (allText r) h
      have := ih hu (done ++ [.text s b]) (p.map (· ++ s))
      rw [List.cons_append, simplifyLoop]
      cases hh : simplifyLoop (done ++ [.text s b]) (r ++ e :: post) (p.map (· ++ s)) with
      | error e => rw [hh] at this; simp [simpleOf] at this
      | ok x => rw [hh] at this; simp [simpleOf] at this ⊢; exact this
    | shown s b =>
      obtain ⟨u, hu, rfl⟩ := key s (allText r) h
      have := ih hu (done ++ [.shown s b]) (p.map (· ++ s))
      rw [List.cons_append, simplifyLoop]
      cases hh : simplifyLoop (done ++ [.shown s b]) (r ++ e :: post) (p.map (· ++ s)) with
      | error e => rw [hh] at this; simp [simpleOf] at this
      | ok x => rw [hh] at this; simp [simpleOf] at this ⊢; exact this
    | start t a => simp [allText, evText] at h
    | stop t => simp [allText, evText] at h
    | raises e => simp [allText, evText] at h
    | stream l => simp [allText, evText] at h
    | sub ds l => simp [allText, evText] at h
    | other n => simp [allText, evText] at h

theorem simplify_eq (evs : List Ev) : simplify evs = simpleOf (simplifyLoop [] evs (some [])) := by
  unfold simplify simpleOf
  split <;> simp_all

theorem simplify_text {evs : List Ev} {t : PStr} (h : deepTexts evs = some t) : simplify evs = .ok (.text t) := by
  rw [simplify_eq, simplifyLoop_text h]
  rfl

theorem simplify_tags {evs : List Ev} (h : HasTags evs) : simplify evs = .ok (.events evs) := by
  obtain ⟨pre, e, post, rfl, hp, he⟩ := h
  obtain ⟨t, ht⟩ := Option.isSome_iff_exists.1 hp
  rw [simplify_eq, simplifyLoop_tags ht he]
  rfl

/-! ### binding what is not bound -/

mutual
theorem takeTag_node (q : QN) (n : Nat) (r : List Ev) : ∀ x : GNode, x.wf = true →
    takeTag q (n + 1) (x.events ++ r) = (takeTag q (n + 1) r).map fun p => (x.events ++ p.1, p.2)
  | .leaf e, h => by
    simp only [GNode.wf] at h
    simp only [GNode.events, List.cons_append, List.nil_append]
    rw [takeTag.eq_def]
    cases e <;> first | (simp [isLeaf] at h; done) | rfl
  | .sub ds kids, _ => by
    simp only [GNode.events, List.cons_append, List.nil_append]
    rw [takeTag.eq_def]
  | .el t a kids, h => by
    simp only [GNode.wf] at h
    simp only [GNode.events, List.cons_append]
    rw [takeTag.eq_def]
    simp only
    by_cases ht : t = q
    · rw [if_pos ht, List.append_assoc, takeTag_nodes q (n + 1) _ kids h]
      simp only [List.cons_append, List.nil_append]
      conv => lhs; rw [takeTag.eq_def]
      simp only [if_pos ht]
      rw [Option.map_map, Option.map_map]
      congr 1
      funext p
      simp
    · rw [if_neg ht, List.append_assoc, takeTag_nodes q n _ kids h]
      simp only [List.cons_append, List.nil_append]
      conv => lhs; rw [takeTag.eq_def]
      simp only [if_neg ht]
      rw [Option.map_map, Option.map_map]
      congr 1
      funext p
      simp
theorem takeTag_nodes (q : QN) (n : Nat) (r : List Ev) : ∀ xs : List GNode, wfNodes xs = true →
    takeTag q (n + 1) (nodeEvents xs ++ r) = (takeTag q (n + 1) r).map fun p => (nodeEvents xs ++ p.1, p.2)
  | [], _ => by
    simp only [nodeEvents, List.nil_append]
    cases takeTag q (n + 1) r <;> rfl
  | x :: xs, h => by
    simp only [wfNodes, Bool.and_eq_true] at h
    simp only [nodeEvents, List.append_assoc]
    rw [takeTag_node q n _ x h.1, takeTag_nodes q n r xs h.2, Option.map_map]
    congr 1
end

theorem attrOf_any {a : GAttrs} {q : QN} : (a.any fun p => p.1 == q) = true ↔ attrOf a q ≠ .none := by
  rw [Ne, attrOf_none, List.any_eq_true]
  simp

theorem any_isBind {ds : List Dir} : ds.any Dir.isBind = true ↔ ∃ d ∈ ds, d.isBind = true := List.any_eq_true

mutual
theorem bindUnbound_node (q : QN) (b : Bind) (r r' : List Ev) (hr : bindUnbound q b r = .ok r') : ∀ x : GNode, x.wf = true →
    bindUnbound q b (x.events ++ r) = .ok ((x.bound q b).events ++ r')
  | .leaf e, h => by
    simp only [GNode.wf] at h
    simp only [GNode.events, GNode.bound, List.cons_append, List.nil_append]
    cases e <;> first | (simp [isLeaf] at h; done) | (rw [bindUnbound, hr]; rfl)
  | .sub ds kids, h => by
    simp only [GNode.wf] at h
    simp only [GNode.events, GNode.bound, List.cons_append, List.nil_append]
    rw [bindUnbound]
    by_cases hb : ∃ d ∈ ds, d.isBind = true
    · rw [if_pos (any_isBind.2 hb), if_pos hb, hr]; rfl
    · have := bindUnbound_nodes q b [] [] (by rw [bindUnbound]) kids h
      rw [List.append_nil, List.append_nil] at this
      rw [if_neg (fun h => hb (any_isBind.1 h)), if_neg hb, this, hr]
      rfl
  | .el t a kids, h => by
    simp only [GNode.wf] at h
    simp only [GNode.events, GNode.bound, List.cons_append]
    have hstop : ∀ r r', bindUnbound q b r = .ok r' → bindUnbound q b (.stop t :: r) = .ok (.stop t :: r') := by
      intro r r' hr
      rw [bindUnbound, hr]; rfl
    by_cases ht : t = q ∧ attrOf a q = .none
    · rw [bindUnbound, if_neg (by
        rintro (h1 | h1)
        · exact h1 ht.1
        · exact attrOf_any.1 h1 ht.2), if_pos ht]
      have htake : takeTag q 1 (nodeEvents kids ++ [.stop t] ++ r) = some (nodeEvents kids ++ [.stop t], r) := by
        rw [List.append_assoc, takeTag_nodes q 0 _ kids h]
        simp only [List.cons_append, List.nil_append]
        rw [takeTag.eq_def]
        simp [ht.1, takeTag]
      have hin : bindUnbound q b (nodeEvents kids ++ [.stop t]) = .ok (nodeEvents (boundNodes q b kids) ++ [.stop t]) :=
        bindUnbound_nodes q b [.stop t] [.stop t] (hstop [] [] (by rw [bindUnbound])) kids h
      split
      · rename_i he
        rw [htake] at he
        cases he
      · rename_i inner rest he
        rw [htake] at he
        simp only [Option.some.injEq, Prod.mk.injEq] at he
        obtain ⟨rfl, rfl⟩ := he
        rw [hin, hr]
        simp [GNode.events, nodeEvents, Except.map]
    · rw [bindUnbound, if_pos (by
        by_cases h1 : t = q
        · exact .inr (attrOf_any.2 fun h2 => ht ⟨h1, h2⟩)
        · exact .inl h1), if_neg ht, List.append_assoc,
        bindUnbound_nodes q b _ _ (by simpa using hstop r r' hr) kids h]
      simp [GNode.events, Except.map]
theorem bindUnbound_nodes (q : QN) (b : Bind) (r r' : List Ev) (hr : bindUnbound q b r = .ok r') : ∀ xs : List GNode, wfNodes xs = true →
    bindUnbound q b (nodeEvents xs ++ r) = .ok (nodeEvents (boundNodes q b xs) ++ r')
  | [], _ => by simpa [nodeEvents, boundNodes] using hr
  | x :: xs, h => by
    simp only [wfNodes, Bool.and_eq_true] at h
    simp only [nodeEvents, boundNodes, List.append_assoc]
    exact bindUnbound_node q b _ _ (bindUnbound_nodes q b r r' hr xs h.2) x h.1
end

theorem bindUnbound_ok (q : QN) (b : Bind) (xs : List GNode) (h : wfNodes xs = true) :
    bindUnbound q b (nodeEvents xs) = .ok (nodeEvents (boundNodes q b xs)) := by
  have := bindUnbound_nodes q b [] [] (by rw [bindUnbound]) xs h
  simpa using this

mutual
theorem bound_wf (q : QN) (b : Bind) : ∀ x : GNode, (x.bound q b).wf = x.wf
  | .leaf e => rfl
  | .el t a kids => by
    simp only [GNode.bound]
    split <;> simp [GNode.wf, wfNodes, boundNodes_wf q b kids]
  | .sub ds kids => by
    simp only [GNode.bound]
    split <;> simp [GNode.wf, boundNodes_wf q b kids]
theorem boundNodes_wf (q : QN) (b : Bind) : ∀ xs : List GNode, wfNodes (boundNodes q b xs) = wfNodes xs
  | [] => rfl
  | x :: xs => by simp [boundNodes, wfNodes, bound_wf q b x, boundNodes_wf q b xs]
end

mutual
theorem bound_again (q : QN) (b b' : Bind) : ∀ x : GNode, (x.bound q b).bound q b' = x.bound q b
  | .leaf e => rfl
  | .el t a kids => by
    simp only [GNode.bound]
    split
    · simp [GNode.bound, Dir.isBind]
    · rename_i h
      simp only [GNode.bound]
      rw [if_neg h, boundNodes_again q b b' kids]
  | .sub ds kids => by
    simp only [GNode.bound]
    split
    · rename_i h
      simp only [GNode.bound]
      rw [if_pos h]
    · rename_i h
      simp only [GNode.bound]
      rw [if_neg h, boundNodes_again q b b' kids]
theorem boundNodes_again (q : QN) (b b' : Bind) : ∀ xs : List GNode, boundNodes q b' (boundNodes q b xs) = boundNodes q b xs
  | [] => rfl
  | x :: xs => by simp [boundNodes, bound_again q b b' x, boundNodes_again q b b' xs]
end

theorem bindUnbound_nonempty {q : QN} {b : Bind} {l l' : List Ev} (h : bindUnbound q b l = .ok l') (hl : l ≠ []) : l' ≠ [] := by
  have key : ∀ {x : Except PyErr (List Ev)} {e : Ev}, x.map (e :: ·) = .ok l' → l' ≠ [] := by
    intro x e h
    cases x with
    | error e => cases h
    | ok y => simp only [Except.map, Except.ok.injEq] at h; rw [← h]; simp
  cases l with
  | nil => exact absurd rfl hl
  | cons e r =>
    cases e with
    | sub ds evs =>
      rw [bindUnbound] at h
      split at h
      · exact key h
      · split at h
        · cases h
        · exact key h
    | start t a =>
      rw [bindUnbound] at h
      split at h
      · exact key h
      · split at h
        · cases h
        · split at h
          · cases h
          · exact key h
    | stop t => rw [bindUnbound] at h; exact key h
    | text s f => rw [bindUnbound] at h; exact key h
    | shown s f => rw [bindUnbound] at h; exact key h
    | raises e => rw [bindUnbound] at h; exact key h
    | stream evs => rw [bindUnbound] at h; exact key h
    | other n => rw [bindUnbound] at h; exact key h

/-! ### the directives succeed -/

theorem inject_total {ds : List Dir} (h : ∀ d ∈ ds, ∃ n ps t, d = .control n ps ∧ partsText ps = some t) (m : Attrs) : ∃ m', inject m ds = .ok m' := by
  induction ds generalizing m with
  | nil => exact ⟨m, rfl⟩
  | cons d r ih =>
    obtain ⟨n, ps, t, rfl, ht⟩ := h d (List.mem_cons_self ..)
    obtain ⟨m', hm'⟩ := ih (fun d hd => h d (List.mem_cons_of_mem _ hd)) (dictPut m (toContext n) (.text t))
    exact ⟨m', by simp only [inject, joinPieces_ok.2 ht]; exact hm'⟩

theorem plainAttrs_total {r : GAttrs} (h : ∀ p ∈ r, p.1.ns = .none → (attrValue p.2).isSome) (cur : GAttrs) (m : Attrs) :
    ∃ cur' m', plainAttrs cur m r = .ok (cur', m') := by
  induction r generalizing cur m with
  | nil => exact ⟨cur, m, rfl⟩
  | cons p r ih =>
    obtain ⟨q, v⟩ := p
    have ih := ih (fun p hp => h p (List.mem_cons_of_mem _ hp))
    have hv := h (q, v) (List.mem_cons_self ..)
    simp only [plainAttrs]
    by_cases hq : q.ns = .none
    · rw [if_pos hq]
      have hv := hv hq
      cases v with
      | val w => cases w <;> first | exact ih _ _ | (simp [attrValue] at hv)
      | parts ps =>
        simp only
        cases hp : partsText ps with
        | none => simp [attrValue, hp] at hv
        | some t => rw [joinPieces_ok.2 hp]; exact ih _ _
    · rw [if_neg hq]
      exact ih _ _

theorem inner_contents {inner : List Ev} {c : HtmlVal} (hi : Inner inner c) (last : Ev) :
    ∃ l, tagContents (inner ++ [last]) = .ok (c, l) ∧ (c = .obj 0 → l = inner) := by
  unfold tagContents
  cases hi with
  | empty => exact ⟨[], by simp, fun h => by cases h⟩
  | text _ t hne ht =>
    rw [if_neg (by simpa using hne), List.dropLast_concat, simplify_text ht]
    exact ⟨[], rfl, fun h => by cases h⟩
  | tags _ ht =>
    have : inner ≠ [] := by
      obtain ⟨pre, e, post, rfl, _⟩ := ht
      simp
    rw [if_neg (by simpa using this), List.dropLast_concat, simplify_tags ht]
    exact ⟨inner, rfl, fun _ => rfl⟩

/-! ### the attributes that go out -/

theorem merged_names {a : GAttrs} {m : Attrs} {out : GAttrs} (hn : DistinctNames a) (h : Merged a m out) : DistinctNames out := by
  obtain ⟨new, h1, h2, rfl⟩ := h
  unfold DistinctNames
  rw [List.map_append, List.nodup_append]
  have sub : ((a.filterMap (keep m)).map (·.1)).Sublist (a.map (·.1)) := by
    clear h1 hn
    induction a with
    | nil => exact .slnil
    | cons p a ih =>
      rw [List.filterMap_cons]
      unfold keep
      split
      · rename_i he
        exact (ih).cons _
      · rename_i x he
        have hx : x.1 = p.1 := by
          split at he
          · cases hg : dictGet m p.1.loc with
            | none => rw [hg] at he; cases he
            | some v => rw [hg] at he; cases he; rfl
          · cases he; rfl
        rw [List.map_cons, List.map_cons, hx]
        exact ih.cons_cons _
  refine ⟨sub.nodup hn, ?_, ?_⟩
  · rw [List.map_map]
    unfold List.Nodup
    rw [List.pairwise_map]
    refine h2.imp ?_
    intro p q hpq he
    have : p.1 = q.1 := by simpa [plain] using he
    rw [this, attrBefore_irrefl] at hpq
    cases hpq
  · intro x hx y hy he
    subst he
    have hx := sub.mem hx
    obtain ⟨z, hz, rfl⟩ := List.mem_map.1 hy
    obtain ⟨p, hp, rfl⟩ := List.mem_map.1 hz
    exact attrOf_none.1 ((h1 p.1 p.2).1 hp).2 hx

theorem attrOf_append (a b : GAttrs) (q : QN) : attrOf (a ++ b) q = (attrOf a q).or (attrOf b q) := by
  unfold attrOf
  rw [List.find?_append]
  cases a.find? (fun p => decide (p.1 = q)) <;> rfl

theorem attrOf_mem {a : GAttrs} (hn : DistinctNames a) {q : QN} {v : GVal} : attrOf a q = some v ↔ (q, v) ∈ a := by
  induction a with
  | nil => simp [attrOf]
  | cons p r ih =>
    obtain ⟨q', v'⟩ := p
    rw [attrOf_cons, List.mem_cons]
    have hq : q' ∉ r.map (·.1) := (List.nodup_cons.1 hn).1
    by_cases h : q' = q
    · subst h
      have : (q', v) ∉ r := fun hm => hq (List.mem_map.2 ⟨_, hm, rfl⟩)
      simp [this, eq_comm]
    · have h' : ¬ q = q' := fun e => h e.symm
      rw [if_neg h, ih (List.nodup_cons.1 hn).2]
      simp [h']

/-- what can be looked up in the tag that goes out -/
theorem merged_get {a : GAttrs} {m : Attrs} {out : GAttrs} (hn : DistinctNames a) (h : Merged a m out) (q : QN) :
    attrOf out q = if q.ns = .none then (dictGet m q.loc).map .val else attrOf a q := by
  have hout := merged_names hn h
  obtain ⟨new, h1, h2, rfl⟩ := h
  ext v
  rw [attrOf_mem hout, List.mem_append]
  have hin : (q, v) ∈ a.filterMap (keep m) ↔ (q ∈ a.map (·.1) ∧ q.ns = .none ∧ ∃ w, dictGet m q.loc = some w ∧ v = .val w) ∨
      (q.ns ≠ .none ∧ (q, v) ∈ a) := by
    rw [List.mem_filterMap]
    constructor
    · rintro ⟨p, hp, he⟩
      unfold keep at he
      split at he
      · rename_i hns
        obtain ⟨w, hw, he⟩ := Option.map_eq_some_iff.1 he
        simp only [Prod.mk.injEq] at he
        obtain ⟨rfl, rfl⟩ := he
        exact .inl ⟨List.mem_map.2 ⟨p, hp, rfl⟩, hns, w, hw, rfl⟩
      · rename_i hns
        cases he
        exact .inr ⟨hns, hp⟩
    · rintro (⟨hm, hns, w, hw, rfl⟩ | ⟨hns, hm⟩)
      · obtain ⟨p, hp, rfl⟩ := List.mem_map.1 hm
        exact ⟨p, hp, by unfold keep; rw [if_pos hns, hw]; rfl⟩
      · exact ⟨_, hm, by unfold keep; rw [if_neg hns]⟩
  have hnew : (q, v) ∈ new.map (fun p => (plain p.1, GVal.val p.2)) ↔ q ∉ a.map (·.1) ∧ q.ns = .none ∧ ∃ w, dictGet m q.loc = some w ∧ v = .val w := by
    rw [List.mem_map]
    constructor
    · rintro ⟨⟨k, w⟩, hp, he⟩
      simp only [Prod.mk.injEq] at he
      obtain ⟨rfl, rfl⟩ := he
      have := (h1 k w).1 hp
      exact ⟨attrOf_none.1 this.2, rfl, w, this.1, rfl⟩
    · rintro ⟨hm, hns, w, hw, rfl⟩
      refine ⟨(q.loc, w), (h1 _ _).2 ⟨hw, ?_⟩, by simp [plain_eta hns]⟩
      rw [plain_eta hns]
      exact attrOf_none.2 hm
  change (q, v) ∈ a.filterMap (keep m) ∨ _ ↔ _
  rw [hin, hnew]
  by_cases hns : q.ns = .none
  · rw [if_pos hns, Option.map_eq_some_iff]
    constructor
    · rintro ((⟨_, _, w, hw, rfl⟩ | ⟨h, _⟩) | ⟨_, _, w, hw, rfl⟩)
      · exact ⟨w, hw, rfl⟩
      · exact absurd hns h
      · exact ⟨w, hw, rfl⟩
    · rintro ⟨w, hw, rfl⟩
      by_cases hm : q ∈ a.map (·.1)
      · exact .inl (.inl ⟨hm, hns, w, hw, rfl⟩)
      · exact .inr ⟨hm, hns, w, hw, rfl⟩
  · rw [if_neg hns, attrOf_mem hn]
    constructor
    · rintro ((⟨_, h, _⟩ | ⟨_, h⟩) | ⟨_, h, _⟩)
      · exact absurd h hns
      · exact h
      · exact absurd h hns
    · exact fun h => .inl (.inr ⟨hns, h⟩)

theorem plainPair_some {p : QN × GVal} {k : PStr} {v : HtmlVal} : plainPair p = some (k, v) ↔ p = (plain k, .val v) := by
  obtain ⟨⟨ns, l⟩, g⟩ := p
  cases ns <;> cases g <;> simp [plainPair, plain]

theorem plainOf_dict {a : GAttrs} (hn : DistinctNames a) : DictLike (plainOf a) := by
  induction a with
  | nil => exact List.nodup_nil
  | cons p a ih =>
    have ih := ih (List.nodup_cons.1 hn).2
    have hp : p.1 ∉ a.map (·.1) := (List.nodup_cons.1 hn).1
    unfold plainOf at *
    rw [List.filterMap_cons]
    split
    · exact ih
    · rename_i x hx
      refine List.nodup_cons.2 ⟨?_, ih⟩
      intro hm
      obtain ⟨y, hy, he⟩ := List.mem_map.1 hm
      obtain ⟨z, hz, hzy⟩ := List.mem_filterMap.1 hy
      have h1 := plainPair_some (k := x.1) (v := x.2).1 hx
      have h2 := plainPair_some (k := y.1) (v := y.2).1 hzy
      apply hp
      rw [h1]
      simp only
      rw [← he]
      exact List.mem_map.2 ⟨z, hz, by rw [h2]⟩

theorem plainOf_get {a : GAttrs} (hn : DistinctNames a) (k : PStr) (v : HtmlVal) :
    dictGet (plainOf a) k = some v ↔ attrOf a (plain k) = some (.val v) := by
  rw [← mem_get (plainOf_dict hn), attrOf_mem hn]
  unfold plainOf
  rw [List.mem_filterMap]
  constructor
  · rintro ⟨p, hp, he⟩
    rw [plainPair_some.1 he] at hp
    exact hp
  · intro h
    exact ⟨_, h, plainPair_some.2 rfl⟩

/-! ### rendering -/

section
variable [Runtime] [Casing]

theorem transform_contents {tag : PStr} {bd : Option Bind} {s s' : TagState} (hd : DictLike s.attrs) (hf : FullFrame s.frame)
    (h : transformTag [] tag bd s = .ok s') :
    s'.contents = s.contents ∨ (tag = "textarea".toList ∧ ∃ b, bd = some b ∧ s'.contents = .markup (markupEscape b.u)) := by
  obtain ⟨s1, s2, s3, s4, s5, st⟩ := stages_of_ok hd hf h
  obtain ⟨h1, h2⟩ := st.value hd hf
  by_cases hb : ∃ b, bd = some b ∧ ValueOn s.attrs s.frame tag
  · obtain ⟨b, rfl, hon⟩ := hb
    have hv := h1 b rfl hon
    by_cases hc : controlOf tag s.attrs = .area
    · have ht : tag = "textarea".toList := by
        unfold controlOf at hc
        split at hc
        · cases hc
        · split at hc
          · assumption
          · split at hc
            · split at hc
              · cases hc
              · split at hc <;> cases hc
            · cases hc
      by_cases hx : s.contents = .none ∨ Forced s.attrs kAutoValue
      · exact .inr ⟨ht, b, rfl, (hv.area hc).1 hx⟩
      · exact .inl ((hv.area hc).2 hx)
    · exact .inl (hv.contents_kept hc)
  · exact .inl (h2 hb).2

/-- the attributes given to the transforms, and the rest of the rewriting -/
theorem rewrite_steps {ds : List Dir} {bound : Option Bind} {frame : OptFrame} {tag : QN} {attrs : GAttrs} {inner : List Ev} {last : Ev}
    {c : HtmlVal} (hi : Inner inner c) {m cur m'} (e0 : inject [] ds = .ok m) (e1 : plainAttrs attrs m attrs = .ok (cur, m')) :
    ∃ l, (c = .obj 0 → l = inner) ∧ rewriteStream [] ds bound frame (.start tag attrs :: (inner ++ [last])) =
      (transformTag [] tag.loc bound ⟨m', c, frame⟩ >>= fun s => newContents s.contents l >>= fun new => bindOptions tag bound new >>= fun new =>
        .ok (s.frame, if new = [] then .start tag (mergeAttrs cur s.attrs) :: (inner ++ [last]) else .start tag (mergeAttrs cur s.attrs) :: new ++ [last])) := by
  obtain ⟨l, hl, hl'⟩ := inner_contents hi last
  refine ⟨l, hl', ?_⟩
  unfold rewriteStream
  rw [e0, ok_bind]
  simp only
  rw [hl, ok_bind]
  simp only
  rw [e1, ok_bind]
  simp

omit [Runtime] [Casing] in
theorem rewrite_offered {ds : List Dir} {attrs : GAttrs} (hn : DistinctNames attrs) {m cur m'} (e0 : inject [] ds = .ok m)
    (e1 : plainAttrs attrs m attrs = .ok (cur, m')) : Offered ds attrs m' ∧ cur.map blank = attrs.map blank := by
  obtain ⟨h1, h2, _⟩ := inject_spec e0 List.nodup_nil
  obtain ⟨h3, h4, h5, _⟩ := plainAttrs_spec e1 h1 hn (fun p hp => List.mem_map.2 ⟨p, hp, rfl⟩)
  refine ⟨⟨h3, ?_⟩, h4⟩
  intro k
  rw [h5]
  cases attrOf attrs (plain k) with
  | some v => rfl
  | none =>
    show dictGet m k = switchValue ds k
    rw [h2]
    cases switchValue ds k <;> rfl

omit [Runtime] [Casing] in
/-- what the contents become -/
theorem rewrite_contents {tag : QN} {bound : Option Bind} {c : HtmlVal} {inner l new new' : List Ev} {t : PStr} (hi : Inner inner c) (hl : c = .obj 0 → l = inner) {c' : HtmlVal}
    (hc : c' = c ∨ c' = .markup t) (e2 : newContents c' l = .ok new) (e3 : bindOptions tag bound new = .ok new') :
    ∃ inner', After inner c' inner' ∧ OptionsBound tag bound inner' (if new' = [] then inner else new') := by
  have ha : ∃ inner', After inner c' inner' ∧ (new = inner' ∨ (new = [] ∧ inner' = [] ∧ inner = [])) ∧ (new = [] → inner = []) := by
    rcases hc with rfl | rfl
    · cases hi with
      | empty => simp only [newContents, Except.ok.injEq] at e2; subst e2; exact ⟨[], .nothing, .inl rfl, fun _ => rfl⟩
      | text _ t hne ht => simp only [newContents, Except.ok.injEq] at e2; subst e2; exact ⟨_, .text t, .inl rfl, by simp⟩
      | tags _ ht =>
        simp only [newContents, Except.ok.injEq] at e2
        rw [hl rfl] at e2
        subst e2
        exact ⟨_, .stream, .inl rfl, id⟩
    · simp only [newContents, Except.ok.injEq] at e2
      subst e2
      exact ⟨_, .markup t, .inl rfl, by simp⟩
  obtain ⟨inner', h1, h2, h3⟩ := ha
  refine ⟨inner', h1, ?_⟩
  have h2 : new = inner' := by
    rcases h2 with h2 | ⟨h2, h2', _⟩
    · exact h2
    · rw [h2, h2']
  subst h2
  have same : ∀ x : List Ev, x = new → (if x = [] then inner else x) = new := by
    rintro x rfl
    split
    · rename_i h
      rw [h, h3 h]
    · rfl
  unfold bindOptions at e3
  unfold OptionsBound
  cases bound with
  | none =>
    simp only [Except.ok.injEq] at e3
    exact same _ e3.symm
  | some b =>
    simp only at e3 ⊢
    by_cases ht : tag.loc = "select".toList
    · rw [if_pos ht]
      intro ns hw hns
      by_cases hne : new = []
      · rw [if_neg (by simp [hne])] at e3
        cases e3
        have hb : bindUnbound ⟨tag.ns, "option".toList⟩ b new = .ok (nodeEvents (boundNodes ⟨tag.ns, "option".toList⟩ b ns)) := by
          rw [hns]; exact bindUnbound_ok _ b ns hw
        rw [hne, bindUnbound] at hb
        simp only [Except.ok.injEq] at hb
        rw [if_pos hne, h3 hne, ← hb]
      · rw [if_pos ⟨hne, ht⟩] at e3
        have hx := bindUnbound_nonempty e3 hne
        rw [if_neg hx]
        have hb : bindUnbound ⟨tag.ns, "option".toList⟩ b new = .ok (nodeEvents (boundNodes ⟨tag.ns, "option".toList⟩ b ns)) := by
          rw [hns]; exact bindUnbound_ok _ b ns hw
        rw [e3] at hb
        cases hb
        rfl
    · rw [if_neg ht]
      rw [if_neg (fun h => ht h.2)] at e3
      simp only [Except.ok.injEq] at e3
      exact same _ e3.symm

omit [Runtime] [Casing] in
theorem evaluatedLast_none {d : Dir} {ds : List Dir} : evaluatedLast d ds = .none ↔ ∀ x ∈ ds, x.isLocal = true := by
  unfold evaluatedLast
  simp only
  split
  · rename_i h
    rw [List.filter_eq_nil_iff] at h
    simpa using h
  · rename_i h
    rw [List.filter_eq_nil_iff] at h
    simpa using h

theorem renders_foreign {fs : List TagFilter} {evs : List Ev} {ds ds' : List Dir}
    (h : ∀ c c' r, Renders fs c (.apply ds evs) c' r → Renders fs c (.apply ds' evs) c' r) (n : Nat) (c c' : Ctx) (r : Except PyErr (List Ev))
    (hr : Renders fs c (.apply (.foreign n :: ds) evs) c' r) : Renders fs c (.apply (.foreign n :: ds') evs) c' r := by
  induction n generalizing c c' r with
  | zero =>
    cases hr with
    | never => exact .never ..
    | later _ _ _ _ _ _ _ hl => simp [Dir.isLocal] at hl
  | succ n ih =>
    cases hr with
    | again _ _ _ _ _ _ _ _ h1 h2 => exact .again _ _ _ _ _ _ _ _ (h _ _ _ h1) (ih _ _ _ h2)
    | againRaises _ _ _ _ _ _ h1 => exact .againRaises _ _ _ _ _ _ (h _ _ _ h1)
    | later _ _ _ _ _ _ _ hl => simp [Dir.isLocal] at hl

theorem renders_local {fs : List TagFilter} {evs : List Ev} {d : Dir} {ds ds' : List Dir} (hd : d.isLocal = true)
    (he : evaluatedLast d ds = some ds') (c c' : Ctx) (r : Except PyErr (List Ev)) :
    Renders fs c (.apply (d :: ds) evs) c' r ↔ Renders fs c (.apply ds' evs) c' r := by
  constructor
  · intro h
    cases h with
    | never => simp [Dir.isLocal] at hd
    | again => simp [Dir.isLocal] at hd
    | againRaises => simp [Dir.isLocal] at hd
    | later _ _ _ _ _ _ _ _ he' h' => rw [he] at he'; cases he'; exact h'
    | bind _ _ _ _ _ _ _ _ h1 => rw [he] at h1; cases h1
    | bindRaises _ _ _ _ _ h1 => rw [he] at h1; cases h1
    | control _ _ _ _ _ _ _ _ _ h1 => rw [he] at h1; cases h1
    | controlRaises _ _ _ _ _ _ h1 => rw [he] at h1; cases h1
    | withOpts => simp [evaluatedLast] at he
    | withRaises => simp [evaluatedLast] at he
    | withRefused _ _ _ _ _ _ h1 => rw [he] at h1; cases h1
    | withMore _ _ _ _ _ _ h1 => rw [he] at h1; cases h1
    | setOpts => simp [evaluatedLast] at he
    | setRefused _ _ _ _ _ _ h1 => rw [he] at h1; cases h1
    | setMore _ _ _ _ _ _ h1 => rw [he] at h1; cases h1
  · exact fun h => .later _ _ _ _ _ _ _ hd he h

omit [Runtime] [Casing] in
theorem dirOrder_local {d : Dir} (ds : List Dir) (hd : d.isLocal = true) :
    dirOrder (d :: ds) = ds.filter (fun d => !d.isLocal) ++ d :: ds.filter Dir.isLocal := by
  unfold dirOrder
  simp [hd]

theorem renders_order {fs : List TagFilter} (evs : List Ev) (ds : List Dir) (c c' : Ctx) (r : Except PyErr (List Ev)) :
    Renders fs c (.apply ds evs) c' r ↔ Renders fs c (.apply (dirOrder ds) evs) c' r := by
  induction ds generalizing c c' r with
  | nil => exact Iff.rfl
  | cons d ds ih =>
    cases hd : d.isLocal with
    | true =>
      rw [dirOrder_local ds hd]
      cases he : evaluatedLast d ds with
      | none =>
        have hl := evaluatedLast_none.1 he
        have h1 : ds.filter (fun d => !d.isLocal) = [] := List.filter_eq_nil_iff.2 (by simpa using hl)
        have h2 : ds.filter Dir.isLocal = ds := List.filter_eq_self.2 hl
        rw [h1, h2]
        exact Iff.rfl
      | some ds' =>
        rw [renders_local hd he]
        unfold evaluatedLast at he
        simp only at he
        split at he
        · cases he
        · cases he
          exact Iff.rfl
    | false =>
      cases d with
      | foreign n =>
        have : dirOrder (.foreign n :: ds) = .foreign n :: dirOrder ds := by
          unfold dirOrder
          simp [Dir.isLocal]
        rw [this]
        exact ⟨renders_foreign (fun c c' r => (ih c c' r).1) n c c' r, renders_foreign (fun c c' r => (ih c c' r).2) n c c' r⟩
      | bind b => simp [Dir.isLocal] at hd
      | control a b => simp [Dir.isLocal] at hd
      | withOpts a => simp [Dir.isLocal] at hd
      | setOpts a => simp [Dir.isLocal] at hd

/-- what is behind the current frame only ever grows, and is as it was unless something was raised -/
theorem renders_below {fs : List TagFilter} {c c' : Ctx} {j : Job} {r : Except PyErr (List Ev)} (h : Renders fs c j c' r) :
    (∃ l, c'.below = l ++ c.below) ∧ ∀ o, r = .ok o → c'.below = c.below := by
  have upd : ∀ (c : Ctx) (ps : List (PStr × HtmlVal)), (c.update ps).1.below = c.below := fun c ps => (update_spec ps c).1
  have app : ∀ {a b d : Ctx}, (∃ l, b.below = l ++ a.below) → (∃ l, d.below = l ++ b.below) → ∃ l, d.below = l ++ a.below := by
    rintro a b d ⟨l, hl⟩ ⟨k, hk⟩
    exact ⟨k ++ l, by rw [hk, hl, List.append_assoc]⟩
  have mapok : ∀ {r : Except PyErr (List Ev)} {f : List Ev → List Ev} {o}, r.map f = .ok o → ∃ o', r = .ok o' := by
    intro r f o h
    cases r with
    | ok x => exact ⟨x, rfl⟩
    | error e => cases h
  induction h with
  | nil => exact ⟨⟨[], rfl⟩, fun _ _ => rfl⟩
  | text _ _ _ _ _ _ _ ih => exact ⟨ih.1, fun o ho => let ⟨x, hx⟩ := mapok ho; ih.2 x hx⟩
  | stop _ _ _ _ _ _ ih => exact ⟨ih.1, fun o ho => let ⟨x, hx⟩ := mapok ho; ih.2 x hx⟩
  | other _ _ _ _ _ _ ih => exact ⟨ih.1, fun o ho => let ⟨x, hx⟩ := mapok ho; ih.2 x hx⟩
  | shown _ _ _ _ _ _ _ ih => exact ⟨ih.1, fun o ho => let ⟨x, hx⟩ := mapok ho; ih.2 x hx⟩
  | raises => exact ⟨⟨[], rfl⟩, by simp⟩
  | stream _ _ _ _ _ _ ih => exact ih
  | start _ _ _ _ _ _ _ _ _ ih => exact ⟨ih.1, fun o ho => let ⟨x, hx⟩ := mapok ho; ih.2 x hx⟩
  | startRaises => exact ⟨⟨[], rfl⟩, by simp⟩
  | sub _ _ _ _ _ _ _ _ _ _ ih1 ih2 => exact ⟨app ih1.1 ih2.1, fun o ho => let ⟨x, hx⟩ := mapok ho; (ih2.2 x hx).trans (ih1.2 _ rfl)⟩
  | subRaises _ _ _ _ _ _ _ ih => exact ⟨ih.1, by simp⟩
  | applied _ _ _ _ _ ih => exact ih
  | never => exact ⟨⟨[], rfl⟩, fun _ _ => rfl⟩
  | again _ _ _ _ _ _ _ _ _ _ ih1 ih2 => exact ⟨app ih1.1 ih2.1, fun o ho => let ⟨x, hx⟩ := mapok ho; (ih2.2 x hx).trans (ih1.2 _ rfl)⟩
  | againRaises _ _ _ _ _ _ _ ih => exact ⟨ih.1, by simp⟩
  | later _ _ _ _ _ _ _ _ _ _ ih => exact ih
  | bind _ _ _ _ _ _ _ _ _ _ _ ih => exact ih
  | bindRaises => exact ⟨⟨[], rfl⟩, by simp⟩
  | control _ _ _ _ _ _ _ _ _ _ _ _ ih => exact ih
  | controlRaises => exact ⟨⟨[], rfl⟩, by simp⟩
  | withOpts c c₁ c₂ attrs evs o hu _ hp ih =>
    have h1 := upd (Ctx.mk c.top (c.top :: c.below)) attrs
    rw [hu] at h1
    have h2 : c₂.below = c.top :: c.below := (ih.2 _ rfl).trans h1
    have h3 : c₂.pop.1.below = c.below := by unfold Ctx.pop; rw [h2]
    exact ⟨⟨[], h3⟩, fun _ _ => h3⟩
  | withRaises c c₁ c₂ attrs evs e hu _ ih =>
    have h1 := upd (Ctx.mk c.top (c.top :: c.below)) attrs
    rw [hu] at h1
    obtain ⟨l, hl⟩ := ih.1
    exact ⟨⟨l ++ [c.top], by rw [hl, show c₁.below = _ from h1]; simp⟩, by simp⟩
  | withRefused c c₁ attrs ds evs e _ hu =>
    have h1 := upd (Ctx.mk c.top (c.top :: c.below)) attrs
    rw [hu] at h1
    exact ⟨⟨[c.top], h1⟩, by simp⟩
  | withMore c c₁ attrs d ds evs _ hu =>
    have h1 := upd (Ctx.mk c.top (c.top :: c.below)) attrs
    rw [hu] at h1
    exact ⟨⟨[c.top], h1⟩, by simp⟩
  | setOpts c c₁ c' attrs evs res hu _ ih =>
    have h1 := upd c attrs
    rw [hu] at h1
    simp only at h1
    rw [← h1]
    exact ih
  | setRefused c c₁ attrs ds evs e _ hu =>
    have h1 := upd c attrs
    rw [hu] at h1
    exact ⟨⟨[], h1⟩, by simp⟩
  | setMore c c₁ attrs d ds evs _ hu =>
    have h1 := upd c attrs
    rw [hu] at h1
    exact ⟨⟨[], h1⟩, by simp⟩

/-- a template is rendered in one way only -/
theorem renders_unique {fs : List TagFilter} {c c' : Ctx} {j : Job} {r : Except PyErr (List Ev)} (h : Renders fs c j c' r) :
    ∀ {c'' r'}, Renders fs c j c'' r' → c' = c'' ∧ r = r' := by
  induction h with
  | nil => intro _ _ h; cases h; exact ⟨rfl, rfl⟩
  | text _ _ _ _ _ _ _ ih => intro _ _ h; cases h; rename_i h; obtain ⟨rfl, rfl⟩ := ih h; exact ⟨rfl, rfl⟩
  | stop _ _ _ _ _ _ ih => intro _ _ h; cases h; rename_i h; obtain ⟨rfl, rfl⟩ := ih h; exact ⟨rfl, rfl⟩
  | other _ _ _ _ _ _ ih => intro _ _ h; cases h; rename_i h; obtain ⟨rfl, rfl⟩ := ih h; exact ⟨rfl, rfl⟩
  | shown _ _ _ _ _ _ _ ih => intro _ _ h; cases h; rename_i h; obtain ⟨rfl, rfl⟩ := ih h; exact ⟨rfl, rfl⟩
  | raises => intro _ _ h; cases h; exact ⟨rfl, rfl⟩
  | stream _ _ _ _ _ _ ih => intro _ _ h; cases h; rename_i h; exact ih h
  | start _ _ _ _ _ _ _ ha _ ih =>
    intro _ _ h
    cases h with
    | start _ _ _ _ _ _ _ ha' h => rw [ha] at ha'; cases ha'; obtain ⟨rfl, rfl⟩ := ih h; exact ⟨rfl, rfl⟩
    | startRaises _ _ _ _ _ ha' => rw [ha] at ha'; cases ha'
  | startRaises _ _ _ _ _ ha =>
    intro _ _ h
    cases h with
    | start _ _ _ _ _ _ _ ha' h => rw [ha] at ha'; cases ha'
    | startRaises _ _ _ _ _ ha' => rw [ha] at ha'; cases ha'; exact ⟨rfl, rfl⟩
  | sub _ _ _ _ _ _ _ _ _ _ ih1 ih2 =>
    intro _ _ h
    cases h with
    | sub _ _ _ _ _ _ _ _ h1 h2 =>
      obtain ⟨rfl, he⟩ := ih1 h1
      cases he
      obtain ⟨rfl, rfl⟩ := ih2 h2
      exact ⟨rfl, rfl⟩
    | subRaises _ _ _ _ _ _ h1 => obtain ⟨_, he⟩ := ih1 h1; cases he
  | subRaises _ _ _ _ _ _ _ ih =>
    intro _ _ h
    cases h with
    | sub _ _ _ _ _ _ _ _ h1 h2 => obtain ⟨_, he⟩ := ih h1; cases he
    | subRaises _ _ _ _ _ _ h1 => obtain ⟨rfl, he⟩ := ih h1; cases he; exact ⟨rfl, rfl⟩
  | applied _ _ _ _ _ ih => intro _ _ h; cases h; rename_i h; exact ih h
  | never =>
    intro _ _ h
    cases h with
    | never => exact ⟨rfl, rfl⟩
    | later _ _ _ _ _ _ _ hl => simp [Dir.isLocal] at hl
  | again _ _ _ _ _ _ _ _ _ _ ih1 ih2 =>
    intro _ _ h
    cases h with
    | again _ _ _ _ _ _ _ _ h1 h2 =>
      obtain ⟨rfl, he⟩ := ih1 h1
      cases he
      obtain ⟨rfl, rfl⟩ := ih2 h2
      exact ⟨rfl, rfl⟩
    | againRaises _ _ _ _ _ _ h1 => obtain ⟨_, he⟩ := ih1 h1; cases he
    | later _ _ _ _ _ _ _ hl => simp [Dir.isLocal] at hl
  | againRaises _ _ _ _ _ _ _ ih =>
    intro _ _ h
    cases h with
    | again _ _ _ _ _ _ _ _ h1 h2 => obtain ⟨_, he⟩ := ih h1; cases he
    | againRaises _ _ _ _ _ _ h1 => obtain ⟨rfl, he⟩ := ih h1; cases he; exact ⟨rfl, rfl⟩
    | later _ _ _ _ _ _ _ hl => simp [Dir.isLocal] at hl
  | later _ _ _ _ _ _ _ hl he _ ih => intro _ _ h; exact ih ((renders_local hl he _ _ _).1 h)
  | bind _ _ _ _ _ _ _ _ hl hw _ ih =>
    intro _ _ h
    cases h with
    | later _ _ _ _ _ _ _ _ he => rw [hl] at he; cases he
    | bind _ _ _ _ _ _ _ _ _ hw' h => rw [hw] at hw'; cases hw'; exact ih h
    | bindRaises _ _ _ _ _ _ hw' => rw [hw] at hw'; cases hw'
  | bindRaises _ _ _ _ _ hl hw =>
    intro _ _ h
    cases h with
    | later _ _ _ _ _ _ _ _ he => rw [hl] at he; cases he
    | bind _ _ _ _ _ _ _ _ _ hw' h => rw [hw] at hw'; cases hw'
    | bindRaises _ _ _ _ _ _ hw' => rw [hw] at hw'; cases hw'; exact ⟨rfl, rfl⟩
  | control _ _ _ _ _ _ _ _ _ hl hw _ ih =>
    intro _ _ h
    cases h with
    | later _ _ _ _ _ _ _ _ he => rw [hl] at he; cases he
    | control _ _ _ _ _ _ _ _ _ _ hw' h => rw [hw] at hw'; cases hw'; exact ih h
    | controlRaises _ _ _ _ _ _ _ hw' => rw [hw] at hw'; cases hw'
  | controlRaises _ _ _ _ _ _ hl hw =>
    intro _ _ h
    cases h with
    | later _ _ _ _ _ _ _ _ he => rw [hl] at he; cases he
    | control _ _ _ _ _ _ _ _ _ _ hw' h => rw [hw] at hw'; cases hw'
    | controlRaises _ _ _ _ _ _ _ hw' => rw [hw] at hw'; cases hw'; exact ⟨rfl, rfl⟩
  | withOpts _ _ _ _ _ _ hu _ hp ih =>
    intro _ _ h
    cases h with
    | later _ _ _ _ _ _ _ _ he => simp [evaluatedLast] at he
    | withOpts _ _ _ _ _ _ hu' h => rw [hu] at hu'; cases hu'; obtain ⟨rfl, he⟩ := ih h; cases he; exact ⟨rfl, rfl⟩
    | withRaises _ _ _ _ _ _ hu' h => rw [hu] at hu'; cases hu'; obtain ⟨_, he⟩ := ih h; cases he
    | withRefused _ _ _ _ _ _ _ hu' => rw [hu] at hu'; cases hu'
  | withRaises _ _ _ _ _ _ hu _ ih =>
    intro _ _ h
    cases h with
    | later _ _ _ _ _ _ _ _ he => simp [evaluatedLast] at he
    | withOpts _ _ _ _ _ _ hu' h => rw [hu] at hu'; cases hu'; obtain ⟨_, he⟩ := ih h; cases he
    | withRaises _ _ _ _ _ _ hu' h => rw [hu] at hu'; cases hu'; obtain ⟨rfl, he⟩ := ih h; cases he; exact ⟨rfl, rfl⟩
    | withRefused _ _ _ _ _ _ _ hu' => rw [hu] at hu'; cases hu'
  | withRefused _ _ _ _ _ _ hl hu =>
    intro _ _ h
    cases h with
    | later _ _ _ _ _ _ _ _ he => rw [hl] at he; cases he
    | withOpts _ _ _ _ _ _ hu' h => rw [hu] at hu'; cases hu'
    | withRaises _ _ _ _ _ _ hu' h => rw [hu] at hu'; cases hu'
    | withRefused _ _ _ _ _ _ _ hu' => rw [hu] at hu'; cases hu'; exact ⟨rfl, rfl⟩
    | withMore _ _ _ _ _ _ _ hu' => rw [hu] at hu'; cases hu'
  | withMore _ _ _ _ _ _ hl hu =>
    intro _ _ h
    cases h with
    | later _ _ _ _ _ _ _ _ he => rw [hl] at he; cases he
    | withRefused _ _ _ _ _ _ _ hu' => rw [hu] at hu'; cases hu'
    | withMore _ _ _ _ _ _ _ hu' => rw [hu] at hu'; cases hu'; exact ⟨rfl, rfl⟩
  | setOpts _ _ _ _ _ _ hu _ ih =>
    intro _ _ h
    cases h with
    | later _ _ _ _ _ _ _ _ he => simp [evaluatedLast] at he
    | setOpts _ _ _ _ _ _ hu' h => rw [hu] at hu'; cases hu'; exact ih h
    | setRefused _ _ _ _ _ _ _ hu' => rw [hu] at hu'; cases hu'
  | setRefused _ _ _ _ _ _ hl hu =>
    intro _ _ h
    cases h with
    | later _ _ _ _ _ _ _ _ he => rw [hl] at he; cases he
    | setOpts _ _ _ _ _ _ hu' h => rw [hu] at hu'; cases hu'
    | setRefused _ _ _ _ _ _ _ hu' => rw [hu] at hu'; cases hu'; exact ⟨rfl, rfl⟩
    | setMore _ _ _ _ _ _ _ hu' => rw [hu] at hu'; cases hu'
  | setMore _ _ _ _ _ _ hl hu =>
    intro _ _ h
    cases h with
    | later _ _ _ _ _ _ _ _ he => rw [hl] at he; cases he
    | setRefused _ _ _ _ _ _ _ hu' => rw [hu] at hu'; cases hu'
    | setMore _ _ _ _ _ _ _ hu' => rw [hu] at hu'; cases hu'; exact ⟨rfl, rfl⟩

end

theorem find_mapped (f : PStr → PStr) (k : PStr) : ∀ l : List PStr,
    (((l.map fun x => (x, f x)).find? fun p => p.1 = k).map (·.2)).getD k = if k ∈ l then f k else k
  | [] => rfl
  | x :: l => by
    by_cases h : x = k
    · subst h; simp
    · have ih := find_mapped f k l
      simp only [List.map_cons, List.find?_cons, decide_eq_false h, ih, List.mem_cons, Ne.symm h, false_or]

theorem underscored_eq (k : PStr) : underscored k = toContext k := by
  unfold toContext
  rw [← find_mapped (fun k => k.map fun c => if c = '-' then '_' else c)]
  unfold underscored
  congr 3

theorem hyphens_tabindex : ∀ k ∈ ["auto-name".toList, "auto-value".toList, "auto-domid".toList, "auto-for".toList, "auto-tabindex".toList,
    "auto-filter".toList, "domid-format".toList], k.map (fun c => if c = '-' then '_' else c) ≠ kTabindex ∧ k ≠ kTabindex := by decide +kernel

theorem toContext_tabindex (k : PStr) : toContext k = kTabindex ↔ k = kTabindex := by
  unfold toContext
  split
  · rename_i h
    exact ⟨fun e => absurd e (hyphens_tabindex k h).1, fun e => absurd e (hyphens_tabindex k h).2⟩
  · exact Iff.rfl

end Flatland
