import Verif.Proofs.RichSubmissions2
import Verif.Proofs.RichBfs
import Verif.Proofs.Cycle3
import Verif.Spec.RichCycle
import Verif.Proofs.Slices
import Verif.Proofs.Compounds
/-! Helper lemmas for C87: forms with Compounds and JoinedStrings sent back. -/
namespace Flatland
open Spec

section
variable [Runtime]

omit [Runtime] in
theorem rSurvives_drop (p : Bool) (e : RElem) : rSurvives p e = survives p (dropR e) := by
  unfold rSurvives survives
  rw [rTexts_drop, List.any_map]
  rfl

omit [Runtime] in
theorem upToLast_map {α β} (q : β → Bool) (g : α → β) (l : List α) : upToLast q (l.map g) = (upToLast (fun x => q (g x)) l).map g := by
  unfold upToLast
  rw [← List.map_reverse]
  have : ∀ l : List α, (l.map g).dropWhile (fun x => !q x) = (l.dropWhile fun x => !q (g x)).map g := by
    intro l
    induction l with
    | nil => rfl
    | cons a l ih =>
      simp only [List.map_cons, List.dropWhile_cons]
      split
      · exact ih
      · rfl
  rw [this, List.map_reverse]

mutual
theorem lift_broughtBack : ∀ (s : RSchema) (p : Bool) (e : RElem), RConforms s e → lift s (broughtBack p (plainS s) (dropR e)) = rBroughtBack p s e
  | .plain s, p, .plain e, h => by
    simp only [RConforms] at h
    simp only [plainS, dropR, rBroughtBack]
    cases s with
    | list hd pr ma m => cases pr <;> cases e <;> simp [Conforms] at h <;> simp [broughtBack, lift]
    | _ => cases e <;> simp [Conforms] at h <;> simp [broughtBack, lift]
  | .joined hd c m, p, .joined n c' m' ms, h => by
    simp only [RConforms] at h
    obtain ⟨rfl, rfl, rfl⟩ := h
    simp only [plainS, dropR, broughtBack, lift, rBroughtBack, Elem.state]
    by_cases hb : (p && joinedText c' ms == []) = true
    · rw [if_pos hb, if_pos hb]; rfl
    · rw [if_neg hb, if_neg hb, scalarSet_raw_some]
  | .compound hd co fs, p, .compound n co' ks, h => by
    simp only [RConforms] at h
    obtain ⟨rfl, rfl, _⟩ := h
    simp [plainS, dropR, broughtBack, lift, rBroughtBack, Elem.kids]
  | .dict hd mode po fs, p, .dict n ks, h => by
    simp only [RConforms] at h
    simp only [plainS, dropR, broughtBack, lift, rBroughtBack, Elem.kids]
    rw [h.1, liftAll_broughtBack fs p mode ks h.2]
  | .list hd true max m, p, .list n ks, h => by
    simp only [RConforms] at h
    simp only [plainS, dropR, broughtBack, lift, rBroughtBack, Elem.kids, dropAll_eq]
    rw [h.1, List.filter_map, ← List.map_take, List.map_map, List.map_map]
    congr 1
    have : (survives true ∘ dropR) = rSurvives true := by funext k; simp [rSurvives_drop]
    rw [this]
    apply List.map_congr_left
    intro k hk
    exact lift_broughtBack m true k (h.2 k (List.mem_filter.1 (List.mem_of_mem_take hk)).1)
  | .list hd false max m, p, .list n ks, h => by
    simp only [RConforms] at h
    simp only [plainS, dropR, broughtBack, lift, rBroughtBack, Elem.kids, dropAll_eq]
    rw [h.1, upToLast_map, ← List.map_take, List.map_map, List.map_map]
    congr 1
    have : (fun k => survives p (dropR k)) = rSurvives p := by funext k; simp [rSurvives_drop]
    rw [this]
    apply List.map_congr_left
    intro k hk
    exact lift_broughtBack m p k (h.2 k ((upToLast_prefix _ _).subset (List.mem_of_mem_take hk)))
  | .plain _, _, .joined .., h | .plain _, _, .compound .., h | .plain _, _, .dict .., h | .plain _, _, .list .., h => by simp [RConforms] at h
  | .joined .., _, .plain _, h | .joined .., _, .compound .., h | .joined .., _, .dict .., h | .joined .., _, .list .., h => by simp [RConforms] at h
  | .compound .., _, .plain _, h | .compound .., _, .joined .., h | .compound .., _, .dict .., h | .compound .., _, .list .., h => by simp [RConforms] at h
  | .dict .., _, .plain _, h | .dict .., _, .joined .., h | .dict .., _, .compound .., h | .dict .., _, .list .., h => by simp [RConforms] at h
  | .list .., _, .plain _, h | .list .., _, .joined .., h | .list .., _, .compound .., h | .list .., _, .dict .., h => by simp [RConforms] at h
theorem liftAll_broughtBack : ∀ (fs : List RSchema) (p : Bool) (mode : DictMode) (ks : List RElem), RConformsAll mode fs ks →
    liftAll fs (broughtBackAll p mode (plainAll fs) (dropAll ks)) = rBroughtBackAll p mode fs ks
  | [], _, _, [], _ => by simp [plainAll, dropAll, liftAll, rBroughtBackAll]
  | f :: fs, p, mode, k :: ks, h => by
    simp only [RConformsAll] at h
    simp only [plainAll, dropAll, broughtBackAll, liftAll, rBroughtBackAll, liftAll_broughtBack fs p mode ks h.2, ← rSurvives_drop, autoField_plainS]
    congr 1
    cases hs : rSurvives p k with
    | true =>
      rw [if_pos rfl, if_pos rfl]
      rcases h.1 with ⟨rfl, _⟩ | h1
      · simp [rSurvives, rTexts, leaves] at hs
      · exact lift_broughtBack f p k h1
    | false =>
      simp only [Bool.false_eq_true, if_false]
      split
      · exact lift_fresh f
      · exact lift_absent f
  | [], _, _, _ :: _, h | _ :: _, _, _, [], h => by simp [RConformsAll] at h
end

/-- predicates on scalars carried over to the plain element -/
def plainEach (P : Bool → ScalarType → ScalarState → Prop) (J : Bool → JoinedCfg → PStr → Prop) (Q : Bool → ScalarType → ScalarState → Prop) : Prop :=
  (∀ p t st, P p t st → Q p t st) ∧ ∀ p c u, J p c u → Q p (joinedType c) ⟨.none, u, none⟩

mutual
theorem each_drop {P : Bool → ScalarType → ScalarState → Prop} {J : Bool → JoinedCfg → PStr → Prop} {Q : Bool → ScalarType → ScalarState → Prop}
    (hPJ : plainEach P J Q) : ∀ (s : RSchema) (p : Bool) (e : RElem), RConforms s e → REach P J p s e → EachScalar Q p (plainS s) (dropR e)
  | .plain s, p, .plain e, _, h => by
    simp only [REach] at h
    simp only [plainS, dropR]
    exact each_imp hPJ.1 s p e h
  | .joined hd c m, p, .joined n c' m' ms, hc, h => by
    simp only [RConforms] at hc
    obtain ⟨rfl, rfl, rfl⟩ := hc
    simp only [REach] at h
    simp only [plainS, dropR, EachScalar]
    exact hPJ.2 _ _ _ h
  | .compound hd co fs, p, .compound n co' ks, _, h => by
    simp only [REach] at h
    simp only [plainS, dropR, EachScalar]
    have := each_imp hPJ.1 (.dict hd .full .subset fs) p (.dict n ks)
    simp only [EachScalar] at this
    exact this h
  | .dict hd mode po fs, p, .dict n ks, hc, h => by
    simp only [RConforms] at hc
    simp only [REach] at h
    simp only [plainS, dropR, EachScalar]
    exact eachAll_drop hPJ fs p mode ks hc.2 h
  | .list hd prune max m, p, .list n ks, hc, h => by
    simp only [RConforms] at hc
    simp only [REach] at h
    simp only [plainS, dropR, EachScalar, dropAll_eq]
    intro k hk
    obtain ⟨k', hk', rfl⟩ := List.mem_map.1 hk
    exact each_drop hPJ m _ k' (hc.2 k' hk') (h k' hk')
  | .plain _, _, .joined .., h, _ | .plain _, _, .compound .., h, _ | .plain _, _, .dict .., h, _ | .plain _, _, .list .., h, _ => by simp [RConforms] at h
  | .joined .., _, .plain _, h, _ | .joined .., _, .compound .., h, _ | .joined .., _, .dict .., h, _ | .joined .., _, .list .., h, _ => by simp [RConforms] at h
  | .compound .., _, .plain _, h, _ | .compound .., _, .joined .., h, _ | .compound .., _, .dict .., h, _ | .compound .., _, .list .., h, _ => by simp [RConforms] at h
  | .dict .., _, .plain _, h, _ | .dict .., _, .joined .., h, _ | .dict .., _, .compound .., h, _ | .dict .., _, .list .., h, _ => by simp [RConforms] at h
  | .list .., _, .plain _, h, _ | .list .., _, .joined .., h, _ | .list .., _, .compound .., h, _ | .list .., _, .dict .., h, _ => by simp [RConforms] at h
theorem eachAll_drop {P : Bool → ScalarType → ScalarState → Prop} {J : Bool → JoinedCfg → PStr → Prop} {Q : Bool → ScalarType → ScalarState → Prop}
    (hPJ : plainEach P J Q) : ∀ (fs : List RSchema) (p : Bool) (mode : DictMode) (ks : List RElem), RConformsAll mode fs ks → REachAll P J p fs ks →
    EachScalarAll Q p (plainAll fs) (dropAll ks)
  | [], _, _, [], _, _ => by simp [plainAll, dropAll, EachScalarAll]
  | f :: fs, p, mode, k :: ks, hc, h => by
    simp only [RConformsAll] at hc
    simp only [REachAll] at h
    simp only [plainAll, dropAll, EachScalarAll]
    refine ⟨?_, eachAll_drop hPJ fs p mode ks hc.2 h.2⟩
    rcases hc.1 with ⟨rfl, _⟩ | h1
    · simp only [dropR]; exact eachScalar_absent
    · exact each_drop hPJ f p k h1 h.1
  | [], _, _, _ :: _, h, _ | _ :: _, _, _, [], h, _ => by simp [RConformsAll] at h
end

/-- a JoinedString, as a scalar: what becomes of it when it is set from a text -/
theorem joinedType_set (c : JoinedCfg) (u : PStr) : 
    ((∃ b, (joinedSet c [] (.str u)).2 = .ok b) → (∃ b, (scalarSet (joinedType c) .fresh (.str u)).2 = .ok b) ∧
      (scalarSet (joinedType c) .fresh (.str u)).1.u = joinedAfter c u) := by
  rintro ⟨b, hb⟩
  rcases joined_simulates c u .fresh with ⟨ms, b', h1, h2⟩ | ⟨ms, er, h1, h2⟩
  · rw [h2]
    exact ⟨⟨true, rfl⟩, by simp [joinedAfter, h1]⟩
  · rw [h1] at hb; cases hb

theorem plain_takes : plainEach TakesItsText JoinedTakes TakesItsText := by
  refine ⟨fun _ _ _ h => h, fun p c u h => ?_⟩
  rcases h with h | h
  · exact .inl h
  · exact .inr (joinedType_set c u h).1

theorem plain_steady : plainEach Steady JoinedSteady Steady := by
  refine ⟨fun _ _ _ h => h, fun p c u h => ⟨plain_takes.2 p c u h.1, ?_⟩⟩
  unfold ReadsBack SameText
  simp only []
  rcases h.1 with h1 | h1
  · rw [if_pos h1]
    simp only [Bool.and_eq_true, beq_iff_eq] at h1
    exact h1.2
  · by_cases hp : (p && u == []) = true
    · rw [if_pos hp]
      simp only [Bool.and_eq_true, beq_iff_eq] at hp
      exact hp.2
    · rw [if_neg hp, (joinedType_set c u h1).2]
      rcases h.2 with h2 | h2
      · exact absurd h2 hp
      · exact h2.symm

theorem rBroughtBack_plain {sep : PStr} (hs : GoodSep sep) (s : RSchema) (e : RElem) (hk : RKeyed s) (hw : RWellNamed sep s) (hc : RConforms s e)
    (ht : REach TakesItsText JoinedTakes false s e) (qs : List FPair) (hqs : SameKeys qs (asPairs (flatten sep (dropR e)))) :
    rSetFlat sep s (rFresh s) qs = .ok (rBroughtBack false s e) := by
  have h1 : setFlat sep (plainS s) (fresh (plainS s)) qs = .ok (broughtBack false (plainS s) (dropR e)) :=
    setFlat_any hs (plainS s) false (dropR e) _ (wellNamed_plain s hw) (conforms_drop s e hc) (each_drop plain_takes s false e hc ht)
      fun k _ => (hqs k trivial).trans (flatten_agree hs (keyed_plain hk) (wellNamed_plain s hw) (conforms_drop s e hc) k trivial)
  rw [rSetFlat_lift, h1]
  simp only [Except.map, lift_broughtBack s false e hc]

theorem rBroughtBack_any {sep : PStr} (hs : GoodSep sep) (s : RSchema) (e : RElem) (hk : RKeyed s) (hw : RWellNamed sep s) (hc : RConforms s e)
    (ht : REach TakesItsText JoinedTakes false s e) (hb : CompoundsBacked false s e) (ps : List (PStr × PStr))
    (hps : ∀ k, valuesFor k ps = valuesFor k (rFlatten sep e)) : rFromFlat sep s ps = .ok (rBroughtBack false s e) := by
  obtain ⟨qs, hqs, h2⟩ := remove_extras_any hs s e hk hw hc hb (asPairs ps) (agree_of_valuesFor hps)
  have h1 := rBroughtBack_plain hs s e hk hw hc ht qs hqs
  unfold rFromFlat
  unfold asPairs at h2
  rw [rSetFlat_lift] at h1 ⊢
  rw [h2, h1]

theorem rBroughtBack_sent {sep : PStr} (hs : GoodSep sep) (s : RSchema) (e : RElem) (hk : RKeyed s) (hw : RWellNamed sep s) (hc : RConforms s e)
    (ht : REach TakesItsText JoinedTakes false s e) (hb : CompoundsBacked false s e) :
    rFromFlat sep s (rFlatten sep e) = .ok (rBroughtBack false s e) :=
  rBroughtBack_any hs s e hk hw hc ht hb _ fun _ => rfl

omit [Runtime] in
mutual
theorem carrying_leaves (sep : PStr) : ∀ (e : RElem) (pre : NamePath),
    carrying sep pre e = (leaves (dropR e)).map fun l => (flatName sep (pre ++ l.names), l.st.u)
  | .plain e, pre => by simp [carrying, dropR]
  | .joined n c m ms, pre => by simp [carrying, dropR, leaves]
  | .compound n co ks, pre => by simp [carrying, dropR, leaves, Function.comp_def]
  | .dict n ks, pre => by
    simp only [carrying, dropR, leaves, List.map_map, carryingAll_leaves sep ks (pre ++ [n]) 0, Function.comp_def, List.append_assoc, List.singleton_append]
  | .list n ks, pre => by
    simp only [carrying, dropR, leaves, List.map_map, carryingSlots_leaves sep ks (pre ++ [n]) 0, Function.comp_def, List.append_assoc, List.singleton_append]
theorem carryingAll_leaves (sep : PStr) : ∀ (ks : List RElem) (pre : NamePath) (i : Nat),
    carryingAll sep pre ks = (leavesKids i (dropAll ks)).map fun l => (flatName sep (pre ++ l.names), l.st.u)
  | [], _, _ => by simp [carryingAll, dropAll, leavesKids]
  | k :: ks, pre, i => by
    simp only [carryingAll, dropAll, leavesKids, List.map_append, List.map_map, carrying_leaves sep k pre, carryingAll_leaves sep ks pre (i + 1), Function.comp_def]
theorem carryingSlots_leaves (sep : PStr) : ∀ (ks : List RElem) (pre : NamePath) (i : Nat),
    carryingSlots sep pre i ks = (leavesSlots i (dropAll ks)).map fun l => (flatName sep (pre ++ l.names), l.st.u)
  | [], _, _ => by simp [carryingSlots, dropAll, leavesSlots]
  | k :: ks, pre, i => by
    simp only [carryingSlots, dropAll, leavesSlots, List.map_append, List.map_map, carrying_leaves sep k (pre ++ [some (decimal i)]), carryingSlots_leaves sep ks pre (i + 1),
      Function.comp_def, List.append_assoc, List.singleton_append]
end

/-- the pairs that carry something agree key by key with the flattened plain form -/
theorem carrying_same {sep : PStr} (hs : GoodSep sep) (s : RSchema) (e : RElem) (hk : RKeyed s) (hw : RWellNamed sep s) (hc : RConforms s e) :
    SameKeys (asPairs (carrying sep [] e)) (asPairs (flatten sep (dropR e))) := by
  intro k _
  have h := flatten_agree hs (keyed_plain hk) (wellNamed_plain s hw) (conforms_drop s e hc) k trivial
  unfold asPairs
  rw [h, carrying_leaves, List.map_map]
  congr 1
  have hf : (leaves (dropR e)).filter (fun l => !dropped false l) = leaves (dropR e) := List.filter_eq_self.2 (by simp [dropped])
  rw [rel, hf]
  refine List.map_congr_left fun l hl => ?_
  have := flatName_leaf (keyed_plain hk) (wellNamed_plain s hw) (conforms_drop s e hc) hl
  simp [LeafAt.pair, this]

theorem rBroughtBack_carrying {sep : PStr} (hs : GoodSep sep) (s : RSchema) (e : RElem) (hk : RKeyed s) (hw : RWellNamed sep s) (hc : RConforms s e)
    (ht : REach TakesItsText JoinedTakes false s e) (ps : List (PStr × PStr))
    (hps : ∀ k, valuesFor k ps = valuesFor k (carrying sep [] e)) : rFromFlat sep s ps = .ok (rBroughtBack false s e) :=
  rBroughtBack_plain hs s e hk hw hc ht _ fun k _ => (agree_of_valuesFor hps k trivial).trans (carrying_same hs s e hk hw hc k trivial)

/-! ### forms that have come back -/

mutual
theorem conforms_lift : ∀ (s : RSchema) (x : Elem), Conforms (plainS s) x → RConforms s (lift s x)
  | .plain s, x, h => by
    simp only [plainS] at h
    cases x <;> simp only [lift, RConforms] <;> exact h
  | .joined hd c m, x, h => by cases x <;> simp [plainS, Conforms] at h; simp [lift, RConforms]
  | .compound hd co fs, x, h => by
    cases x <;> simp only [plainS, Conforms] at h
    simp only [lift, RConforms, Elem.kids]
    exact ⟨trivial, trivial, h.2⟩
  | .dict hd mode po fs, x, h => by
    cases x <;> simp only [plainS, Conforms] at h
    simp only [lift, RConforms, Elem.kids]
    exact ⟨trivial, conformsAll_lift mode fs _ h.2⟩
  | .list hd pr ma m, x, h => by
    cases x <;> simp only [plainS, Conforms] at h
    simp only [lift, RConforms, Elem.kids]
    refine ⟨trivial, fun k hk => ?_⟩
    obtain ⟨k', hk', rfl⟩ := List.mem_map.1 hk
    exact conforms_lift m k' (h.2 k' hk')
theorem conformsAll_lift (mode : DictMode) : ∀ (fs : List RSchema) (ks : List Elem), ConformsAll mode (plainAll fs) ks → RConformsAll mode fs (liftAll fs ks)
  | [], ks, h => by cases ks <;> simp [plainAll, ConformsAll] at h; simp [liftAll, RConformsAll]
  | f :: fs, [], h => by simp [plainAll, ConformsAll] at h
  | f :: fs, k :: ks, h => by
    simp only [plainAll, ConformsAll] at h
    simp only [liftAll, RConformsAll]
    refine ⟨?_, conformsAll_lift mode fs ks h.2⟩
    rcases h.1 with ⟨rfl, ha⟩ | h1
    · exact .inl ⟨lift_absent f, by rw [← autoField_plainS]; exact ha⟩
    · exact .inr (conforms_lift f k h1)
end

mutual
/-- JoinedStrings, as scalars: the text is that of the members the last input gave -/
def Coherent : RSchema → Elem → Prop
  | _, .absent => True
  | .plain _, _ => True
  | .joined _ c _, e => e.state.u = joinedText c (match e.state.raw with | some v => (joinedSet c [] v).1 | none => [])
  | .compound .., _ => True
  | .dict _ _ _ fs, e => CoherentAll fs e.kids
  | .list _ _ _ m, e => ∀ k ∈ e.kids, Coherent m k
/-- see `Coherent` -/
def CoherentAll : List RSchema → List Elem → Prop
  | f :: fs, k :: ks => Coherent f k ∧ CoherentAll fs ks
  | _, _ => True
end

mutual
theorem coherent_fresh : ∀ (s : RSchema), Coherent s (fresh (plainS s))
  | .plain s => by cases h : fresh (plainS (.plain s)) <;> simp [Coherent]
  | .joined hd c m => by simp [plainS, fresh, Coherent, Elem.state, ScalarState.fresh, joinedText, pyJoin]
  | .compound hd co fs => by simp [plainS, fresh, Coherent]
  | .dict hd mode po fs => by simp only [plainS, fresh, Coherent, Elem.kids]; exact coherent_freshFields mode fs
  | .list hd pr ma m => by simp [plainS, fresh, Coherent, Elem.kids]
theorem coherent_freshFields (mode : DictMode) : ∀ (fs : List RSchema), CoherentAll fs (freshFields mode (plainAll fs))
  | [] => by simp [plainAll, freshFields, CoherentAll]
  | f :: fs => by
    simp only [plainAll, freshFields, CoherentAll]
    refine ⟨?_, coherent_freshFields mode fs⟩
    split
    · exact coherent_fresh f
    · cases f <;> simp [Coherent]
end

mutual
theorem coherent_back : ∀ (s : RSchema) (p : Bool) (x : Elem), Conforms (plainS s) x → EachScalar TakesItsText p (plainS s) x →
    Coherent s (broughtBack p (plainS s) x)
  | .plain s, p, x, _, _ => by cases h : broughtBack p (plainS (.plain s)) x <;> simp [Coherent]
  | .joined hd c m, p, x, hc, ht => by
    cases x <;> simp only [plainS, Conforms] at hc
    rename_i n st
    simp only [plainS, EachScalar] at ht
    simp only [plainS, broughtBack, Coherent, Elem.state]
    by_cases hp : (p && st.u == []) = true
    · rw [if_pos hp]; simp [ScalarState.fresh, joinedText, pyJoin]
    · rw [if_neg hp, scalarSet_raw_some]
      simp only
      rcases ht with h | ⟨b, hb⟩
      · exact absurd h hp
      · rcases joined_simulates c st.u .fresh with ⟨ms, b', h1, h2⟩ | ⟨ms, er, h1, h2⟩
        · rw [h2, h1]
        · rw [h2] at hb; cases hb
  | .compound hd co fs, p, x, hc, _ => by
    cases x <;> simp only [plainS, Conforms] at hc
    simp [plainS, broughtBack, Coherent]
  | .dict hd mode po fs, p, x, hc, ht => by
    cases x <;> simp only [plainS, Conforms] at hc
    simp only [plainS, EachScalar] at ht
    simp only [plainS, broughtBack, Coherent, Elem.kids]
    exact coherentAll_back fs p mode _ hc.2 ht
  | .list hd true ma m, p, x, hc, ht => by
    cases x <;> simp only [plainS, Conforms] at hc
    simp only [plainS, EachScalar, Bool.or_true] at ht
    simp only [plainS, broughtBack, Coherent, Elem.kids]
    intro k hk
    obtain ⟨k', hk', rfl⟩ := List.mem_map.1 hk
    have hm := (List.mem_filter.1 (List.mem_of_mem_take hk')).1
    exact coherent_back m true k' (hc.2 k' hm) (ht k' hm)
  | .list hd false ma m, p, x, hc, ht => by
    cases x <;> simp only [plainS, Conforms] at hc
    simp only [plainS, EachScalar, Bool.or_false] at ht
    simp only [plainS, broughtBack, Coherent, Elem.kids]
    intro k hk
    obtain ⟨k', hk', rfl⟩ := List.mem_map.1 hk
    have hm := (upToLast_prefix _ _).subset (List.mem_of_mem_take hk')
    exact coherent_back m p k' (hc.2 k' hm) (ht k' hm)
theorem coherentAll_back : ∀ (fs : List RSchema) (p : Bool) (mode : DictMode) (ks : List Elem), ConformsAll mode (plainAll fs) ks →
    EachScalarAll TakesItsText p (plainAll fs) ks → CoherentAll fs (broughtBackAll p mode (plainAll fs) ks)
  | [], _, _, [], _, _ => by simp [plainAll, broughtBackAll, CoherentAll]
  | [], _, _, _ :: _, h, _ => by simp [plainAll, ConformsAll] at h
  | f :: fs, _, _, [], h, _ => by simp [plainAll, ConformsAll] at h
  | f :: fs, p, mode, k :: ks, hc, ht => by
    simp only [plainAll, ConformsAll] at hc
    simp only [plainAll, EachScalarAll] at ht
    simp only [plainAll, broughtBackAll, CoherentAll]
    refine ⟨?_, coherentAll_back fs p mode ks hc.2 ht.2⟩
    split
    · rename_i hs
      rcases hc.1 with ⟨rfl, _⟩ | h1
      · simp [survives_absent] at hs
      · exact coherent_back f p k h1 ht.1
    · split
      · exact coherent_fresh f
      · cases f <;> simp [Coherent]
end

mutual
theorem leaves_text_drop_lift : ∀ (s : RSchema) (x : Elem), Conforms (plainS s) x → Coherent s x → ∀ p, survives p (dropR (lift s x)) = survives p x
  | .plain s, x, h, _, p => by cases x <;> simp [lift, dropR]
  | .joined hd c m, x, h, hco, p => by
    cases x <;> simp only [plainS, Conforms] at h
    rename_i n st
    simp only [Coherent, Elem.state] at hco
    simp only [lift, dropR, Elem.state, survives_scalar]
    cases hr : st.raw <;> rw [hr] at hco <;> simp only at hco ⊢ <;> rw [← hco]
  | .compound hd co fs, x, h, _, p => by
    cases x <;> simp only [plainS, Conforms] at h
    simp only [lift, dropR, Elem.kids, survives_dict]
  | .dict hd mode po fs, x, h, hco, p => by
    cases x <;> simp only [plainS, Conforms] at h
    simp only [Coherent, Elem.kids] at hco
    simp only [lift, dropR, Elem.kids, survives_dict]
    exact leaves_text_drop_liftAll mode fs _ h.2 hco p
  | .list hd pr ma m, x, h, hco, p => by
    cases x <;> simp only [plainS, Conforms] at h
    rename_i n ks
    simp only [Coherent, Elem.kids] at hco
    simp only [lift, dropR, Elem.kids, survives_list, dropAll_eq, List.any_map]
    apply any_congr_mem
    intro k hk
    exact leaves_text_drop_lift m k (h.2 k hk) (hco k hk) p
theorem leaves_text_drop_liftAll (mode : DictMode) : ∀ (fs : List RSchema) (ks : List Elem), ConformsAll mode (plainAll fs) ks → CoherentAll fs ks → ∀ p,
    (dropAll (liftAll fs ks)).any (survives p) = ks.any (survives p)
  | [], [], _, _, p => by simp [liftAll, dropAll]
  | [], _ :: _, h, _, _ => by simp [plainAll, ConformsAll] at h
  | f :: fs, [], h, _, _ => by simp [plainAll, ConformsAll] at h
  | f :: fs, k :: ks, h, hco, p => by
    simp only [plainAll, ConformsAll] at h
    simp only [CoherentAll] at hco
    simp only [liftAll, dropAll, List.any_cons, leaves_text_drop_liftAll mode fs ks h.2 hco.2 p]
    congr 1
    rcases h.1 with ⟨rfl, _⟩ | h1
    · rw [lift_absent, dropR]
    · exact leaves_text_drop_lift f k h1 hco.1 p
end

mutual
/-- sending back looks at texts only, so a coherent element may be replaced by the one with JoinedStrings -/
theorem back_drop_lift : ∀ (s : RSchema) (p : Bool) (x : Elem), Conforms (plainS s) x → Coherent s x →
    broughtBack p (plainS s) (dropR (lift s x)) = broughtBack p (plainS s) x
  | .plain s, p, x, h, _ => by cases x <;> simp [lift, dropR]
  | .joined hd c m, p, x, h, hco => by
    cases x <;> simp only [plainS, Conforms] at h
    rename_i n st
    simp only [Coherent, Elem.state] at hco
    simp only [plainS, lift, dropR, Elem.state, broughtBack]
    cases hr : st.raw <;> rw [hr] at hco <;> simp only at hco ⊢ <;> rw [← hco, h]
  | .compound hd co fs, p, x, h, _ => by
    cases x <;> simp only [plainS, Conforms] at h
    simp only [lift, dropR, Elem.kids, h.1]
  | .dict hd mode po fs, p, x, h, hco => by
    cases x <;> simp only [plainS, Conforms] at h
    simp only [Coherent, Elem.kids] at hco
    simp only [plainS, lift, dropR, Elem.kids, broughtBack, h.1]
    rw [backAll_drop_lift fs p mode _ h.2 hco]
  | .list hd true ma m, p, x, h, hco => by
    cases x <;> simp only [plainS, Conforms] at h
    rename_i n ks
    simp only [Coherent, Elem.kids] at hco
    simp only [plainS, lift, dropR, Elem.kids, broughtBack, h.1, dropAll_eq, List.map_map]
    rw [List.filter_map, ← List.map_take, List.map_map]
    have : ks.filter (survives true ∘ dropR ∘ lift m) = ks.filter (survives true) :=
      List.filter_congr fun k hk => leaves_text_drop_lift m k (h.2 k hk) (hco k hk) true
    rw [this]
    congr 1
    apply List.map_congr_left
    intro k hk
    have hm := (List.mem_filter.1 (List.mem_of_mem_take hk)).1
    exact back_drop_lift m true k (h.2 k hm) (hco k hm)
  | .list hd false ma m, p, x, h, hco => by
    cases x <;> simp only [plainS, Conforms] at h
    rename_i n ks
    simp only [Coherent, Elem.kids] at hco
    simp only [plainS, lift, dropR, Elem.kids, broughtBack, h.1, dropAll_eq, List.map_map]
    rw [upToLast_map, ← List.map_take, List.map_map]
    have : upToLast (fun k => survives p ((dropR ∘ lift m) k)) ks = upToLast (survives p) ks := by
      unfold upToLast
      congr 1
      have aux : ∀ l : List Elem, (∀ k ∈ l, k ∈ ks) → l.dropWhile (fun k => !survives p ((dropR ∘ lift m) k)) = l.dropWhile fun k => !survives p k := by
        intro l
        induction l with
        | nil => intro _; rfl
        | cons a l ih =>
          intro hl
          have ha := hl a (by simp)
          have e : survives p ((dropR ∘ lift m) a) = survives p a := leaves_text_drop_lift m a (h.2 a ha) (hco a ha) p
          simp only [List.dropWhile_cons, e, ih fun k hk => hl k (by simp [hk])]
      exact aux _ (by simp)
    rw [this]
    congr 1
    apply List.map_congr_left
    intro k hk
    have hm := (upToLast_prefix _ _).subset (List.mem_of_mem_take hk)
    exact back_drop_lift m p k (h.2 k hm) (hco k hm)
theorem backAll_drop_lift : ∀ (fs : List RSchema) (p : Bool) (mode : DictMode) (ks : List Elem), ConformsAll mode (plainAll fs) ks → CoherentAll fs ks →
    broughtBackAll p mode (plainAll fs) (dropAll (liftAll fs ks)) = broughtBackAll p mode (plainAll fs) ks
  | [], _, _, [], _, _ => by simp [plainAll, liftAll, dropAll]
  | [], _, _, _ :: _, h, _ => by simp [plainAll, ConformsAll] at h
  | f :: fs, _, _, [], h, _ => by simp [plainAll, ConformsAll] at h
  | f :: fs, p, mode, k :: ks, h, hco => by
    simp only [plainAll, ConformsAll] at h
    simp only [CoherentAll] at hco
    simp only [plainAll, liftAll, dropAll, broughtBackAll, backAll_drop_lift fs p mode ks h.2 hco.2]
    congr 1
    rcases h.1 with ⟨rfl, _⟩ | h1
    · rw [lift_absent, dropR]
    · rw [leaves_text_drop_lift f k h1 hco.1 p, back_drop_lift f p k h1 hco.1]
end


/-- the predicate looks at the text only -/
def TextOnly (Q : Bool → ScalarType → ScalarState → Prop) : Prop := ∀ p t st st', st.u = st'.u → Q p t st → Q p t st'

theorem textOnly_takes : TextOnly TakesItsText := by
  intro p t st st' h hq
  unfold TakesItsText at *
  rw [← h]; exact hq

omit [Runtime] in
theorem each_true (p : Bool) (s : Schema) (e : Elem) : EachScalar (fun _ _ _ => True) p s e := by
  have : ∀ s, AllTypes (fun _ => True) s := by
    intro s
    induction s using Schema.rec (motive_2 := fun fs => AllTypesIn (fun _ => True) fs) with
    | scalar h t => trivial
    | dict h mode po fs ih => exact ih
    | list h prune max m ih => exact ih
    | array h prune m ih => exact ih
    | nil => trivial
    | cons f fs ihf ihfs => exact ⟨ihf, ihfs⟩
  exact each_of_types (P := fun _ => True) (fun _ _ _ h => h) s p e (this s)

omit [Runtime] in
/-- the place of a scalar does not matter to a predicate that does not look at it -/
theorem each_place {A : ScalarType → ScalarState → Prop} (s : Schema) : ∀ (p q : Bool) (e : Elem), EachScalar (fun _ => A) p s e → EachScalar (fun _ => A) q s e := by
  induction s using Schema.rec (motive_2 := fun fs => ∀ (p q : Bool) (ks : List Elem), EachScalarAll (fun _ => A) p fs ks → EachScalarAll (fun _ => A) q fs ks) with
  | scalar h t => intro p q e ht; cases e <;> simp only [EachScalar] at ht ⊢; exact ht
  | dict h mode po fs ih => intro p q e ht; cases e <;> simp only [EachScalar] at ht ⊢; exact ih p q _ ht
  | list h prune max m ih => intro p q e ht; cases e <;> simp only [EachScalar] at ht ⊢; exact fun k hk => ih _ _ k (ht k hk)
  | array h prune m ih => intro p q e ht; cases e <;> simp only [EachScalar] at ht ⊢; exact fun k hk => ih _ _ k (ht k hk)
  | nil p q ks _ => cases ks <;> simp [EachScalarAll]
  | cons f fs ihf ihfs p q ks ht =>
    cases ks with
    | nil => simp [EachScalarAll]
    | cons k ks => simp only [EachScalarAll] at ht ⊢; exact ⟨ihf p q k ht.1, ihfs p q ks ht.2⟩

theorem back_asSent {sep : PStr} (s : Schema) (p : Bool) (e : Elem) (hw : WellNamed sep s) (hc : Conforms s e) :
    EachScalar (fun _ => AsSent) p s (broughtBack p s e) := by
  refine each_back (P := fun _ _ _ => True) ?_ s p e hw hc (each_true p s e)
  intro p t st _
  split
  · exact .inl rfl
  · exact .inr ⟨_, rfl⟩

mutual
theorem each_drop_lift {Q : Bool → ScalarType → ScalarState → Prop} (hQ : TextOnly Q) : ∀ (s : RSchema) (p : Bool) (x : Elem), Conforms (plainS s) x → Coherent s x →
    EachScalar Q p (plainS s) x → EachScalar Q p (plainS s) (dropR (lift s x))
  | .plain s, p, x, h, _, he => by cases x <;> simpa [lift, dropR] using he
  | .joined hd c m, p, x, h, hco, he => by
    cases x <;> simp only [plainS, Conforms] at h
    rename_i n st
    simp only [Coherent, Elem.state] at hco
    simp only [plainS, lift, dropR, Elem.state, EachScalar] at he ⊢
    refine hQ p _ st _ ?_ he
    cases hr : st.raw <;> rw [hr] at hco <;> simp only at hco ⊢ <;> rw [← hco]
  | .compound hd co fs, p, x, h, _, he => by
    cases x <;> simp only [plainS, Conforms] at h
    simpa [plainS, lift, dropR, Elem.kids, EachScalar] using he
  | .dict hd mode po fs, p, x, h, hco, he => by
    cases x <;> simp only [plainS, Conforms] at h
    simp only [Coherent, Elem.kids] at hco
    simp only [plainS, lift, dropR, Elem.kids, EachScalar] at he ⊢
    exact eachAll_drop_lift hQ fs p mode _ h.2 hco he
  | .list hd pr ma m, p, x, h, hco, he => by
    cases x <;> simp only [plainS, Conforms] at h
    rename_i n ks
    simp only [Coherent, Elem.kids] at hco
    simp only [plainS, lift, dropR, Elem.kids, EachScalar, dropAll_eq, List.map_map] at he ⊢
    intro k hk
    obtain ⟨k', hk', rfl⟩ := List.mem_map.1 hk
    exact each_drop_lift hQ m _ k' (h.2 k' hk') (hco k' hk') (he k' hk')
theorem eachAll_drop_lift {Q : Bool → ScalarType → ScalarState → Prop} (hQ : TextOnly Q) : ∀ (fs : List RSchema) (p : Bool) (mode : DictMode) (ks : List Elem),
    ConformsAll mode (plainAll fs) ks → CoherentAll fs ks → EachScalarAll Q p (plainAll fs) ks → EachScalarAll Q p (plainAll fs) (dropAll (liftAll fs ks))
  | [], _, _, [], _, _, _ => by simp [plainAll, liftAll, dropAll, EachScalarAll]
  | [], _, _, _ :: _, h, _, _ => by simp [plainAll, ConformsAll] at h
  | f :: fs, _, _, [], h, _, _ => by simp [plainAll, ConformsAll] at h
  | f :: fs, p, mode, k :: ks, h, hco, he => by
    simp only [plainAll, ConformsAll] at h
    simp only [CoherentAll] at hco
    simp only [plainAll, liftAll, dropAll, EachScalarAll] at he ⊢
    refine ⟨?_, eachAll_drop_lift hQ fs p mode ks h.2 hco.2 he.2⟩
    rcases h.1 with ⟨rfl, _⟩ | h1
    · rw [lift_absent, dropR]; exact eachScalar_absent
    · exact each_drop_lift hQ f p k h1 hco.1 he.1
end

/-! ### Compounds that show nothing when their fields show nothing -/

omit [Runtime] in
theorem rTextsAll_eq (ks : List RElem) : rTextsAll ks = ks.flatMap rTexts := by
  induction ks with
  | nil => rfl
  | cons k ks ih => simp [rTextsAll, ih]

mutual
theorem backed_lift : ∀ (s : RSchema) (p : Bool) (x : Elem), BlankCompounds s → Conforms (plainS s) x → EachScalar (fun _ => AsSent) false (plainS s) x →
    Backed p (lift s x)
  | .plain s, p, x, _, _, _ => by cases x <;> (rintro ⟨t, ht, _⟩; simp [lift, compoundTexts] at ht)
  | .joined hd c m, p, x, _, h, _ => by
    cases x <;> simp only [plainS, Conforms] at h
    rintro ⟨t, ht, _⟩
    simp [lift, compoundTexts] at ht
  | .compound hd co fs, p, x, hb, h, he => by
    cases x <;> simp only [plainS, Conforms] at h
    rename_i n ks
    simp only [plainS, EachScalar] at he
    simp only [BlankCompounds] at hb
    obtain ⟨hne, hbl⟩ := hb ks h.2 he
    rintro ⟨t, ht, hp⟩
    simp only [lift, compoundTexts, Elem.kids, List.mem_singleton] at ht
    subst ht
    have htx : ∀ l ∈ leavesKids 0 ks, l.st.u ∈ rTexts (lift (.compound hd co fs) (.dict n ks)) := by
      intro l hl
      simp only [lift, Elem.kids, rTexts]
      exact List.mem_map.2 ⟨l, hl, rfl⟩
    cases p with
    | false =>
      obtain ⟨l, hl⟩ := List.exists_mem_of_ne_nil _ hne
      exact ⟨_, htx l hl, rfl⟩
    | true =>
      simp only [Bool.true_and, beq_eq_false_iff_ne] at hp
      obtain ⟨l, hl, hu⟩ : ∃ l ∈ leavesKids 0 ks, l.st.u ≠ [] := by
        apply Classical.byContradiction
        intro hcon
        exact hp (hbl fun l hl => Classical.byContradiction fun hu => hcon ⟨l, hl, hu⟩)
      exact ⟨_, htx l hl, by simpa using hu⟩
  | .dict hd mode po fs, p, x, hb, h, he => by
    cases x <;> simp only [plainS, Conforms] at h
    rename_i n ks
    simp only [plainS, EachScalar] at he
    simp only [BlankCompounds] at hb
    rintro ⟨t, ht, hp⟩
    simp only [lift, compoundTexts, Elem.kids] at ht
    obtain ⟨t', ht', hp'⟩ := backedAll_lift mode fs p ks hb h.2 he t ht hp
    exact ⟨t', by simpa [lift, Elem.kids, rTexts] using ht', hp'⟩
  | .list hd pr ma m, p, x, hb, h, he => by
    cases x <;> simp only [plainS, Conforms] at h
    rename_i n ks
    simp only [plainS, EachScalar] at he
    simp only [BlankCompounds] at hb
    rintro ⟨t, ht, hp⟩
    simp only [lift, compoundTexts, Elem.kids] at ht
    obtain ⟨k, hk, htk⟩ := mem_compoundTextsAll.1 ht
    obtain ⟨k', hk', rfl⟩ := List.mem_map.1 hk
    obtain ⟨t', ht', hp'⟩ := backed_lift m p k' hb (h.2 k' hk') (each_place _ _ _ _ (he k' hk')) ⟨t, htk, hp⟩
    refine ⟨t', ?_, hp'⟩
    simp only [lift, Elem.kids, rTexts]
    exact mem_rTextsAll.2 ⟨_, hk, ht'⟩
theorem backedAll_lift (mode : DictMode) : ∀ (fs : List RSchema) (p : Bool) (ks : List Elem), BlankCompoundsAll fs → ConformsAll mode (plainAll fs) ks →
    EachScalarAll (fun _ => AsSent) false (plainAll fs) ks → ∀ t ∈ compoundTextsAll (liftAll fs ks), (p && t == []) = false →
    ∃ t' ∈ rTextsAll (liftAll fs ks), (p && t' == []) = false
  | [], _, [], _, _, _, t, ht, _ => by simp [liftAll, compoundTextsAll] at ht
  | [], _, _ :: _, _, h, _, _, _, _ => by simp [plainAll, ConformsAll] at h
  | f :: fs, _, [], _, h, _, _, _, _ => by simp [plainAll, ConformsAll] at h
  | f :: fs, p, k :: ks, hb, h, he, t, ht, hp => by
    simp only [plainAll, ConformsAll] at h
    simp only [plainAll, EachScalarAll] at he
    simp only [BlankCompoundsAll] at hb
    simp only [liftAll, compoundTextsAll, rTextsAll, List.mem_append] at ht ⊢
    rcases ht with ht | ht
    · rcases h.1 with ⟨rfl, _⟩ | h1
      · rw [lift_absent] at ht; simp [compoundTexts] at ht
      · obtain ⟨t', ht', hp'⟩ := backed_lift f p k hb.1 h1 he.1 ⟨t, ht, hp⟩
        exact ⟨t', .inl ht', hp'⟩
    · obtain ⟨t', ht', hp'⟩ := backedAll_lift mode fs p ks hb.2 h.2 he.2 t ht hp
      exact ⟨t', .inr ht', hp'⟩
end

mutual
theorem optional_of_blank : ∀ (s : RSchema), BlankCompounds s → OptionalCompoundsBlank s
  | .plain _, _ | .joined .., _ | .compound .., _ => by simp [OptionalCompoundsBlank]
  | .dict hd mode po fs, h => by
    simp only [BlankCompounds] at h
    simp only [OptionalCompoundsBlank]
    exact optionalAll_of_blank mode fs h
  | .list hd pr ma m, h => by simpa [BlankCompounds, OptionalCompoundsBlank] using h
theorem optionalAll_of_blank (mode : DictMode) : ∀ (fs : List RSchema), BlankCompoundsAll fs → OptionalCompoundsBlankAll mode fs
  | [], _ => by simp [OptionalCompoundsBlankAll]
  | f :: fs, h => by
    simp only [BlankCompoundsAll] at h
    simp only [OptionalCompoundsBlankAll]
    refine ⟨?_, optionalAll_of_blank mode fs h.2⟩
    split
    · exact optional_of_blank f h.1
    · exact h.1
end

mutual
theorem compoundsBacked_lift : ∀ (s : RSchema) (p : Bool) (x : Elem), OptionalCompoundsBlank s → Conforms (plainS s) x → EachScalar (fun _ => AsSent) false (plainS s) x →
    CompoundsBacked p s (lift s x)
  | .plain s, p, x, _, _, _ => by simp [CompoundsBacked]
  | .joined hd c m, p, x, _, _, _ => by simp [CompoundsBacked]
  | .compound hd co fs, p, x, _, _, _ => by simp [CompoundsBacked]
  | .dict hd mode po fs, p, x, hb, h, he => by
    cases x <;> simp only [plainS, Conforms] at h
    simp only [plainS, EachScalar] at he
    simp only [OptionalCompoundsBlank] at hb
    simp only [lift, CompoundsBacked, Elem.kids]
    exact compoundsBackedAll_lift mode fs p _ hb h.2 he
  | .list hd pr ma m, p, x, hb, h, he => by
    cases x <;> simp only [plainS, Conforms] at h
    simp only [plainS, EachScalar] at he
    simp only [OptionalCompoundsBlank] at hb
    simp only [lift, CompoundsBacked, Elem.kids]
    intro k hk
    obtain ⟨k', hk', rfl⟩ := List.mem_map.1 hk
    have he' := each_place (A := AsSent) _ _ false _ (he k' hk')
    exact ⟨compoundsBacked_lift m _ k' (optional_of_blank m hb) (h.2 k' hk') he', backed_lift m _ k' hb (h.2 k' hk') he'⟩
theorem compoundsBackedAll_lift (mode : DictMode) : ∀ (fs : List RSchema) (p : Bool) (ks : List Elem), OptionalCompoundsBlankAll mode fs → ConformsAll mode (plainAll fs) ks →
    EachScalarAll (fun _ => AsSent) false (plainAll fs) ks → CompoundsBackedAll p mode fs (liftAll fs ks)
  | [], _, _, _, _, _ => by simp [CompoundsBackedAll]
  | f :: fs, _, [], _, h, _ => by simp [plainAll, ConformsAll] at h
  | f :: fs, p, k :: ks, hb, h, he => by
    simp only [plainAll, ConformsAll] at h
    simp only [plainAll, EachScalarAll] at he
    simp only [OptionalCompoundsBlankAll] at hb
    simp only [liftAll, CompoundsBackedAll]
    refine ⟨?_, fun ha => ?_, compoundsBackedAll_lift mode fs p ks hb.2 h.2 he.2⟩
    · rcases h.1 with ⟨rfl, _⟩ | h1
      · rw [lift_absent]; cases f <;> simp [CompoundsBacked]
      · refine compoundsBacked_lift f p k ?_ h1 he.1
        have := hb.1
        split at this
        · exact this
        · exact optional_of_blank f this
    · rcases h.1 with ⟨rfl, _⟩ | h1
      · rw [lift_absent]; rintro ⟨t, ht, _⟩; simp [compoundTexts] at ht
      · have := hb.1
        rw [if_neg (by simp [ha])] at this
        exact backed_lift f p k this h1 he.1
end

/-! ### one round, and rounds -/

/-- a form that has come back comes back as the plain one does -/
theorem rich_round {sep : PStr} (hs : GoodSep sep) (s : RSchema) (hk : RKeyed s) (hw : RWellNamed sep s) (x : Elem) (hc : Conforms (plainS s) x) (hco : Coherent s x)
    (ht : EachScalar TakesItsText false (plainS s) x) (hb : CompoundsBacked false s (lift s x)) :
    rFromFlat sep s (rFlatten sep (lift s x)) = .ok (lift s (broughtBack false (plainS s) x)) := by
  have hcl := conforms_lift s x hc
  obtain ⟨qs, hqs, h2⟩ := remove_extras_any hs s (lift s x) hk hw hcl hb _ (fun _ _ => rfl)
  have h1 : setFlat sep (plainS s) (fresh (plainS s)) qs = .ok (broughtBack false (plainS s) (dropR (lift s x))) :=
    setFlat_any hs (plainS s) false _ _ (wellNamed_plain s hw) (conforms_drop s _ hcl) (each_drop_lift textOnly_takes s false x hc hco ht)
      fun k _ => (hqs k trivial).trans (flatten_agree hs (keyed_plain hk) (wellNamed_plain s hw) (conforms_drop s _ hcl) k trivial)
  unfold asPairs at h2
  unfold rFromFlat
  rw [rSetFlat_lift, h2, h1, back_drop_lift s false x hc hco]
  rfl

/-- from a steady form that has come back on, nothing changes after one more round -/
theorem rich_settles {sep : PStr} (hs : GoodSep sep) (s : RSchema) (hk : RKeyed s) (hw : RWellNamed sep s) (hbl : OptionalCompoundsBlank s) (x : Elem)
    (hc : Conforms (plainS s) x) (hco : Coherent s x) (ha : EachScalar (fun _ => AsSent) false (plainS s) x) (ht : EachScalar Steady false (plainS s) x)
    (hm : WithinMax (plainS s) x) (hnb : NoBlanks false (plainS s) x) : ∃ e', ∀ n, rSentBack sep s (n + 1) (lift s x) = .ok e' := by
  have hwp := wellNamed_plain s hw
  have h1 := rich_round hs s hk hw x hc hco (takes_of_steady ht) (compoundsBacked_lift s false x hbl hc ha)
  have hc1 := broughtBack_conforms false (plainS s) x hwp hc
  have ht1 := each_back steady_step (plainS s) false x hwp hc ht
  have h2 := rich_round hs s hk hw _ hc1 (coherent_back s false x hc (takes_of_steady ht)) (takes_of_steady ht1)
    (compoundsBacked_lift s false _ hbl hc1 (back_asSent (plainS s) false x hwp hc))
  rw [back_again (plainS s) false x hwp hc ht hm hnb] at h2
  refine ⟨lift s (broughtBack false (plainS s) x), fun n => ?_⟩
  rw [rSentBack, h1]
  simp only []
  induction n with
  | zero => rfl
  | succ n ih => rw [rSentBack, h2]; exact ih

mutual
theorem withinMax_drop : ∀ (s : RSchema) (e : RElem), RConforms s e → RWithinMax s e → WithinMax (plainS s) (dropR e)
  | .plain s, .plain e, _, h => by simpa [RWithinMax, plainS, dropR] using h
  | .joined .., .joined .., _, _ => by simp [plainS, dropR, WithinMax]
  | .compound hd co fs, .compound n co' ks, _, h => by simpa [RWithinMax, plainS, dropR, WithinMax] using h
  | .dict hd mode po fs, .dict n ks, hc, h => by
    simp only [RConforms] at hc
    simp only [RWithinMax] at h
    simp only [plainS, dropR, WithinMax]
    exact withinMaxAll_drop mode fs ks hc.2 h
  | .list hd pr ma m, .list n ks, hc, h => by
    simp only [RConforms] at hc
    simp only [RWithinMax] at h
    simp only [plainS, dropR, WithinMax, dropAll_eq, List.length_map]
    refine ⟨h.1, fun k hk => ?_⟩
    obtain ⟨k', hk', rfl⟩ := List.mem_map.1 hk
    exact withinMax_drop m k' (hc.2 k' hk') (h.2 k' hk')
  | .plain _, .joined .., h, _ | .plain _, .compound .., h, _ | .plain _, .dict .., h, _ | .plain _, .list .., h, _ => by simp [RConforms] at h
  | .joined .., .plain _, h, _ | .joined .., .compound .., h, _ | .joined .., .dict .., h, _ | .joined .., .list .., h, _ => by simp [RConforms] at h
  | .compound .., .plain _, h, _ | .compound .., .joined .., h, _ | .compound .., .dict .., h, _ | .compound .., .list .., h, _ => by simp [RConforms] at h
  | .dict .., .plain _, h, _ | .dict .., .joined .., h, _ | .dict .., .compound .., h, _ | .dict .., .list .., h, _ => by simp [RConforms] at h
  | .list .., .plain _, h, _ | .list .., .joined .., h, _ | .list .., .compound .., h, _ | .list .., .dict .., h, _ => by simp [RConforms] at h
theorem withinMaxAll_drop (mode : DictMode) : ∀ (fs : List RSchema) (ks : List RElem), RConformsAll mode fs ks → RWithinMaxAll fs ks → WithinMaxAll (plainAll fs) (dropAll ks)
  | [], [], _, _ => by simp [plainAll, WithinMaxAll]
  | f :: fs, k :: ks, hc, h => by
    simp only [RConformsAll] at hc
    simp only [RWithinMaxAll] at h
    simp only [plainAll, dropAll, WithinMaxAll]
    refine ⟨?_, withinMaxAll_drop mode fs ks hc.2 h.2⟩
    rcases hc.1 with ⟨rfl, _⟩ | h1
    · simp only [dropR]; exact withinMax_absent
    · exact withinMax_drop f k h1 h.1
  | [], _ :: _, h, _ | _ :: _, [], h, _ => by simp [RConformsAll] at h
end

mutual
theorem withinMax_lift : ∀ (s : RSchema) (x : Elem), Conforms (plainS s) x → WithinMax (plainS s) x → RWithinMax s (lift s x)
  | .plain s, x, _, hm => by cases x <;> simpa [lift, RWithinMax, plainS] using hm
  | .joined hd c m, x, h, _ => by simp [lift, RWithinMax]
  | .compound hd co fs, x, h, hm => by
    cases x <;> simp only [plainS, Conforms] at h
    simpa [lift, RWithinMax, plainS, WithinMax, Elem.kids] using hm
  | .dict hd mode po fs, x, h, hm => by
    cases x <;> simp only [plainS, Conforms] at h
    simp only [plainS, WithinMax] at hm
    simp only [lift, RWithinMax, Elem.kids]
    exact withinMaxAll_lift mode fs _ h.2 hm
  | .list hd pr ma m, x, h, hm => by
    cases x <;> simp only [plainS, Conforms] at h
    simp only [plainS, WithinMax] at hm
    simp only [lift, RWithinMax, Elem.kids, List.length_map]
    refine ⟨hm.1, fun k hk => ?_⟩
    obtain ⟨k', hk', rfl⟩ := List.mem_map.1 hk
    exact withinMax_lift m k' (h.2 k' hk') (hm.2 k' hk')
theorem withinMaxAll_lift (mode : DictMode) : ∀ (fs : List RSchema) (ks : List Elem), ConformsAll mode (plainAll fs) ks → WithinMaxAll (plainAll fs) ks →
    RWithinMaxAll fs (liftAll fs ks)
  | [], ks, _, _ => by simp [RWithinMaxAll]
  | f :: fs, [], h, _ => by simp [plainAll, ConformsAll] at h
  | f :: fs, k :: ks, h, hm => by
    simp only [plainAll, ConformsAll] at h
    simp only [plainAll, WithinMaxAll] at hm
    simp only [liftAll, RWithinMaxAll]
    refine ⟨?_, withinMaxAll_lift mode fs ks h.2 hm.2⟩
    rcases h.1 with ⟨rfl, _⟩ | h1
    · rw [lift_absent]; cases f <;> simp [RWithinMax, withinMax_absent]
    · exact withinMax_lift f k h1 hm.1
end

/-! ### what classes settle -/

theorem settling_joinedType (c : JoinedCfg) (h : SettlingJoined c) : Settling (joinedType c) := by
  have key : ∀ u, textAfter (joinedType c) u = joinedAfter c u := fun u => (joinedType_set c u (h.1 u)).2
  refine ⟨(textSafe_joined c).2 h.1, fun u => ?_⟩
  simp only [key]
  exact h.2 u

mutual
theorem allTypes_plain : ∀ (s : RSchema), RAllTypes Settling SettlingJoined s → AllTypes Settling (plainS s)
  | .plain s, h => by simpa [RAllTypes, plainS] using h
  | .joined _ c _, h => by simp only [plainS, AllTypes, RAllTypes] at *; exact settling_joinedType c h
  | .compound _ _ fs, h => by simpa [RAllTypes, plainS, AllTypes] using h
  | .dict _ _ _ fs, h => by simp only [RAllTypes, plainS, AllTypes] at *; exact allTypesIn_plain fs h
  | .list _ _ _ m, h => by simp only [RAllTypes, plainS, AllTypes] at *; exact allTypes_plain m h
theorem allTypesIn_plain : ∀ (fs : List RSchema), RAllTypesIn Settling SettlingJoined fs → AllTypesIn Settling (plainAll fs)
  | [], _ => trivial
  | f :: fs, h => ⟨allTypes_plain f h.1, allTypesIn_plain fs h.2⟩
end

/-- a class that settles, whose scalar has been set from a text it showed (or was blank and dropped) -/
def Shown (p : Bool) (t : ScalarType) (st : ScalarState) : Prop := Settling t ∧ ((p = true ∧ st.u = []) ∨ ∃ u, st.u = textAfter t u)

theorem settling_shown (p : Bool) (t : ScalarType) (st : ScalarState) (h : Settling t) :
    Shown p t (if p && st.u == [] then .fresh else (scalarSet t .fresh (.str st.u)).1) := by
  refine ⟨h, ?_⟩
  split
  · rename_i hp
    simp only [Bool.and_eq_true] at hp
    exact .inl ⟨hp.1, rfl⟩
  · exact .inr ⟨st.u, rfl⟩

theorem shown_steady (p : Bool) (t : ScalarType) (st : ScalarState) (h : Shown p t st) :
    Steady p t (if p && st.u == [] then .fresh else (scalarSet t .fresh (.str st.u)).1) := by
  have blank : ∀ st : ScalarState, p = true → st.u = [] → Steady p t st := by
    intro st hp hu
    refine ⟨.inl (by simp [hp, hu]), ?_⟩
    simp [ReadsBack, SameText, hp, hu, ScalarState.fresh]
  split
  · rename_i hp
    simp only [Bool.and_eq_true] at hp
    exact blank _ hp.1 rfl
  · rename_i hp
    rcases h.2 with ⟨h1, h2⟩ | ⟨u, hu⟩
    · simp [h1, h2] at hp
    · by_cases hb : p = true ∧ (scalarSet t .fresh (.str st.u)).1.u = []
      · exact blank _ hb.1 hb.2
      · refine ⟨.inr (h.1.1 _ _), ?_⟩
        simp only [ReadsBack, SameText]
        rw [if_neg (by simpa using hb)]
        have := h.1.2 u
        rw [← hu] at this
        exact this.symm

theorem takes_of_types (s : Schema) (p : Bool) (e : Elem) (h : AllTypes Settling s) : EachScalar TakesItsText p s e :=
  each_of_types (P := Settling) (fun _ _ _ h => .inr (h.1 _ _)) s p e h

/-! ### the first form may come of a submission -/

mutual
theorem fresh_asSent : ∀ (s : Schema), EachScalar (fun _ => AsSent) false s (fresh s)
  | .scalar h t => by simp only [fresh, EachScalar]; exact .inl rfl
  | .dict h mode po fs => by simp only [fresh, EachScalar]; exact freshFields_asSent mode fs
  | .list h pr ma m => by simp [fresh, EachScalar]
  | .array h pr m => by simp [fresh, EachScalar]
theorem freshFields_asSent (mode : DictMode) : ∀ (fs : List Schema), EachScalarAll (fun _ => AsSent) false fs (freshFields mode fs)
  | [] => by simp [EachScalarAll]
  | f :: fs => by
    simp only [freshFields, EachScalarAll]
    refine ⟨?_, freshFields_asSent mode fs⟩
    split
    · exact fresh_asSent f
    · exact eachScalar_absent
end

theorem scalarSetFlat_asSent {h : Hdr} {t : ScalarType} {ps : List FPair} {e' : Elem} (hr : scalarSetFlat h.name t .fresh ps = .ok e') :
    EachScalar (fun _ => AsSent) false (.scalar h t) e' := by
  have hf : ({ ScalarState.fresh with raw := none } : ScalarState) = .fresh := rfl
  simp only [scalarSetFlat, hf] at hr
  split at hr
  · cases hr; simp only [EachScalar]; exact .inl rfl
  · rename_i v _
    split at hr
    · rename_i st _ hst
      cases hr
      simp only [EachScalar]
      exact .inr ⟨v.2, by rw [show scalarSet t .fresh (.str v.2) = _ from hst]⟩
    · cases hr

theorem arrayMembers_asSent {sep : PStr} {name : Option PStr} {prune : Bool} {hm : Hdr} {t : ScalarType} : ∀ {ps : List FPair} {kids : List Elem},
    arrayMembers sep name prune hm t ps = .ok kids → ∀ k ∈ kids, EachScalar (fun _ => AsSent) false (.scalar hm t) k
  | [], kids, h => by cases h; simp
  | p :: rest, kids, h => by
    simp only [arrayMembers] at h
    cases hp : arrayPick sep name hm.name prune p with
    | error er => rw [hp] at h; cases h
    | ok o =>
      rw [hp] at h
      cases o with
      | none => exact arrayMembers_asSent (ps := rest) h
      | some v =>
        simp only [bind, Except.bind] at h
        cases hs : scalarSetFlat hm.name t .fresh [(v, p.2)] with
        | error er => rw [hs] at h; cases h
        | ok m =>
          rw [hs] at h
          simp only at h
          cases hr : arrayMembers sep name prune hm t rest with
          | error er => rw [hr] at h; cases h
          | ok ks =>
            rw [hr] at h
            cases h
            intro k hk
            rcases List.mem_cons.1 hk with rfl | hk
            · exact scalarSetFlat_asSent hs
            · exact arrayMembers_asSent hr k hk

mutual
theorem setFlat_asSent (sep : PStr) : ∀ (s : Schema) (e' : Elem) (ps : List FPair), setFlat sep s (fresh s) ps = .ok e' → EachScalar (fun _ => AsSent) false s e'
  | .scalar h t, e', ps, hr => by
    simp only [setFlat, fresh, Elem.state] at hr
    exact scalarSetFlat_asSent hr
  | .dict h mode po fs, e', ps, hr => by
    simp only [setFlat] at hr
    split at hr
    · cases hr
    · split at hr
      · cases hr
        exact fresh_asSent (.dict h mode po fs)
      · split at hr
        · cases hr
        · rename_i kids hk
          cases hr
          simp only [EachScalar]
          simp only [fresh, Elem.kids] at hk
          exact setFlatFields_asSent sep mode fs _ _ hk
  | .list h prune max m, e', ps, hr => by
    simp only [setFlat] at hr
    split at hr
    · cases hr
    · rename_i ms _
      split at hr
      · cases hr
      · rename_i kids hk
        cases hr
        simp only [EachScalar]
        obtain ⟨hlen, hall⟩ := mapM_ok hk
        intro k hkm
        obtain ⟨j, hj⟩ := List.mem_iff_getElem?.1 hkm
        have hjl : j < kids.length := (List.getElem?_eq_some_iff.1 hj).1
        rw [hlen] at hjl
        have := hall j _ k (List.getElem?_eq_getElem hjl) hj
        generalize (subPairs ms _) = l at this
        by_cases hl : l.isEmpty = true
        · rw [if_pos hl] at this
          cases this; exact each_place _ _ _ _ (fresh_asSent m)
        · rw [if_neg hl] at this
          exact each_place _ _ _ _ (setFlat_asSent sep m k _ this)
  | .array h prune m, e', ps, hr => by
    cases m with
    | scalar hm t =>
      simp only [setFlat] at hr
      split at hr
      · cases hr
      · rename_i kids hk
        cases hr
        simp only [EachScalar]
        exact fun k hkm => each_place (A := AsSent) (.scalar hm t) false _ k (arrayMembers_asSent hk k hkm)
    | _ => simp [setFlat] at hr
theorem setFlatFields_asSent (sep : PStr) (mode : DictMode) : ∀ (fs : List Schema) (ks' : List Elem) (ps : List FPair),
    setFlatFields sep fs (freshFields mode fs) ps = .ok ks' → EachScalarAll (fun _ => AsSent) false fs ks'
  | [], ks', ps, hr => by simp [EachScalarAll]
  | f :: fs, ks', ps, hr => by
    simp only [setFlatFields, freshFields] at hr
    split at hr
    · cases hr
    · split at hr
      · cases hr
      · rename_i kid' hkid
        split at hr
        · cases hr
        · rename_i rest hrest
          cases hr
          simp only [EachScalarAll]
          refine ⟨?_, setFlatFields_asSent sep mode fs _ _ hrest⟩
          simp only [List.headD_cons] at hkid
          have ho : orFresh f (if autoField mode f = true then fresh f else .absent) = fresh f := by
            split
            · cases f <;> rfl
            · rfl
          rw [ho] at hkid
          split at hkid
          · cases hkid
            split
            · exact fresh_asSent f
            · exact eachScalar_absent
          · exact setFlat_asSent sep f _ _ hkid
end

omit [Runtime] in
mutual
theorem rEach_imp {P Q : Bool → ScalarType → ScalarState → Prop} {J K : Bool → JoinedCfg → PStr → Prop} (h1 : ∀ p t st, P p t st → Q p t st)
    (h2 : ∀ p c u, J p c u → K p c u) : ∀ (s : RSchema) (p : Bool) (e : RElem), REach P J p s e → REach Q K p s e
  | .plain s, p, e, h => by
    cases e <;> simp only [REach] at h ⊢
    exact each_imp h1 s p _ h
  | .joined .., p, e, h => by
    cases e <;> simp only [REach] at h ⊢
    exact h2 _ _ _ h
  | .compound hd co fs, p, e, h => by
    cases e <;> simp only [REach] at h ⊢
    rename_i n _ ks
    have := each_imp h1 (.dict hd .full .subset fs) p (.dict n ks)
    simp only [EachScalar] at this
    exact this h
  | .dict hd mode po fs, p, e, h => by
    cases e <;> simp only [REach] at h ⊢
    exact rEachAll_imp h1 h2 fs p _ h
  | .list hd pr ma m, p, e, h => by
    cases e <;> simp only [REach] at h ⊢
    exact fun k hk => rEach_imp h1 h2 m _ k (h k hk)
theorem rEachAll_imp {P Q : Bool → ScalarType → ScalarState → Prop} {J K : Bool → JoinedCfg → PStr → Prop} (h1 : ∀ p t st, P p t st → Q p t st)
    (h2 : ∀ p c u, J p c u → K p c u) : ∀ (fs : List RSchema) (p : Bool) (ks : List RElem), REachAll P J p fs ks → REachAll Q K p fs ks
  | [], _, _, _ => by simp [REachAll]
  | _ :: _, _, [], _ => by simp [REachAll]
  | f :: fs, p, k :: ks, h => by
    simp only [REachAll] at h ⊢
    exact ⟨rEach_imp h1 h2 f p k h.1, rEachAll_imp h1 h2 fs p ks h.2⟩
end

mutual
theorem takes_of_rTypes : ∀ (s : RSchema) (p : Bool) (e : RElem), RAllTypes Settling SettlingJoined s → REach TakesItsText JoinedTakes p s e
  | .plain s, p, e, h => by
    cases e <;> simp only [REach]
    exact takes_of_types s p _ h
  | .joined _ c _, p, e, h => by
    cases e <;> simp only [REach]
    exact .inr (h.1 _)
  | .compound hd co fs, p, e, h => by
    cases e <;> simp only [REach]
    rename_i n _ ks
    have := takes_of_types (.dict hd .full .subset fs) p (.dict n ks) h
    simpa only [EachScalar] using this
  | .dict hd mode po fs, p, e, h => by
    cases e <;> simp only [REach]
    exact takes_of_rTypesIn fs p _ h
  | .list hd pr ma m, p, e, h => by
    cases e <;> simp only [REach]
    exact fun k hk => takes_of_rTypes m _ k h
theorem takes_of_rTypesIn : ∀ (fs : List RSchema) (p : Bool) (ks : List RElem), RAllTypesIn Settling SettlingJoined fs → REachAll TakesItsText JoinedTakes p fs ks
  | [], _, _, _ => by simp [REachAll]
  | _ :: _, _, [], _ => by simp [REachAll]
  | f :: fs, p, k :: ks, h => by
    simp only [REachAll]
    exact ⟨takes_of_rTypes f p k h.1, takes_of_rTypesIn fs p ks h.2⟩
end

/-! ### JoinedStrings split at a single character -/

omit [Runtime] in
theorem splitGo_char (ch : Char) : ∀ (s acc : PStr), ch ∉ acc → (∀ x ∈ splitGo [ch] 0 s acc, ch ∉ x) ∧ splitGo [ch] 0 s acc ≠ []
  | [], acc, h => by simp [splitGo, h]
  | c :: s, acc, h => by
    simp only [splitGo]
    split
    · have := splitGo_char ch s [] (by simp)
      refine ⟨?_, by simp⟩
      intro x hx
      rcases List.mem_cons.1 hx with rfl | hx
      · simpa using h
      · exact this.1 x hx
    · rename_i hc
      have hne : ch ≠ c := by
        rintro rfl
        simp [startsWith] at hc
      exact splitGo_char ch s (c :: acc) (by simp [hne, h])

theorem joinedAfter_eq (c : JoinedCfg) (ch : Char) (hr : c.regex = none) (hsep : c.separator = [ch]) (ht : TextSafe c.member) (u : PStr) :
    joinedAfter c u = pyJoin [ch] ((if c.prune then (pySplit [ch] u).filter (· != []) else pySplit [ch] u).map (textAfter c.member)) := by
  unfold joinedAfter joinedSet joinedValues joinedText
  rw [hr, hsep]
  simp only [List.cons_ne_nil, if_false]
  congr 1
  cases hp : c.prune with
  | false =>
    rw [(joinedLoop_texts c _ (fun s => ht .fresh s) (by simp [hp])).1]
    simp [textAfter]
  | true =>
    rw [joinedLoop_prune c _ hp, List.filter_map]
    have : (truthy ∘ PyVal.str) = fun s : PStr => s != [] := by
      funext s; cases s <;> simp [truthy]
    rw [this, (joinedLoop_texts c _ (fun s => ht .fresh s) (fun _ s hs => by simpa using (List.mem_filter.1 hs).2)).1]
    simp [textAfter]

theorem joinedAfter_parts (c : JoinedCfg) (ch : Char) (hr : c.regex = none) (hsep : c.separator = [ch]) (ht : TextSafe c.member) (u : PStr) :
    ∃ ts : List PStr, (c.prune = false → ts ≠ []) ∧ (∀ t ∈ ts, ch ∉ t) ∧ joinedAfter c u = pyJoin [ch] (ts.map (textAfter c.member)) := by
  refine ⟨_, ?_, ?_, joinedAfter_eq c ch hr hsep ht u⟩
  · intro hp
    rw [hp, if_neg (by simp)]
    exact (splitGo_char ch u [] (by simp)).2
  · intro t htm
    split at htm
    · exact (splitGo_char ch u [] (by simp)).1 t (List.mem_filter.1 htm).1
    · exact (splitGo_char ch u [] (by simp)).1 t htm

theorem joinedAfter_of_parts (c : JoinedCfg) (ch : Char) (hr : c.regex = none) (hsep : c.separator = [ch]) (ht : TextSafe c.member) (us : List PStr)
    (h : ∀ x ∈ us, ch ∉ x ∧ textAfter c.member x = x) (h0 : c.prune = false → us ≠ []) :
    joinedAfter c (pyJoin [ch] us) = pyJoin [ch] (if c.prune then us.filter (· != []) else us) := by
  rw [joinedAfter_eq c ch hr hsep ht]
  have fix : ∀ l : List PStr, (∀ x ∈ l, x ∈ us) → l.map (textAfter c.member) = l := by
    intro l hl
    conv => rhs; rw [← List.map_id l]
    exact List.map_congr_left fun x hx => (h x (hl x hx)).2
  by_cases hne : us = []
  · subst hne
    cases hp : c.prune with
    | false => exact absurd rfl (h0 hp)
    | true => simp [pyJoin, pySplit, splitGo]
  · rw [pySplit_pyJoin ch [] us hne fun p hp => (h p hp).1]
    congr 1
    split
    · exact fix _ fun x hx => (List.mem_filter.1 hx).1
    · exact fix _ fun x hx => hx

omit [Runtime] in
theorem padInt_ne_nil (w : Nat) (i : Int) : padInt w i ≠ [] := by
  cases i with
  | ofNat n =>
    simp only [padInt, padNat]
    intro h
    exact decimal_ne_nil n (List.append_eq_nil_iff.1 h).2
  | negSucc n => simp [padInt]

/-- an Integer set from a text and showing nothing has no value -/
theorem int_blank {w : Nat} {st : ScalarState} (h : AsSent (integerType true w) st) (hu : st.u = []) : st.value = .none := by
  rcases h with rfl | ⟨x, rfl⟩
  · rfl
  · cases hp : pyInt (strip x) with
    | none => simp [scalarSet, integerType, intOf, hp, numberCatches]
    | some i =>
      simp [scalarSet, integerType, intOf, hp] at hu
      exact absurd hu (padInt_ne_nil w i)

end

end Flatland
