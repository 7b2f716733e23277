import Verif.Proofs.RichEdits
import Verif.Proofs.ValueSet
/-! Helper lemmas for C95: the elements as Model/RichValues.lean has them. -/
namespace Flatland
open Flatland.Spec

section
variable [Runtime]

/-! ### the same element in both descriptions -/

omit [Runtime] in
theorem asRich_absent (s : VSchema) : asRich s .absent = .plain .absent := by cases s <;> rfl

omit [Runtime] in
theorem partElems_states : ∀ (fs : List (Hdr × ScalarType)) (sts : List ScalarState), sts.length = fs.length → (partElems fs sts).map Elem.state = sts
  | [], [], _ => rfl
  | [], _ :: _, h => by simp at h
  | _ :: _, [], h => by simp at h
  | f :: fs, st :: sts, h => by
    rw [partElems, List.map_cons, partElems_states fs sts (by simpa using h)]
    rfl

omit [Runtime] in
theorem memberElems_states (sts : List ScalarState) : (memberElems sts).map Elem.state = sts := by
  simp [memberElems, Function.comp_def, Elem.state]

omit [Runtime] in
mutual
theorem asRich_fresh : ∀ s : VSchema, asRich s (fresh (under s)) = vFresh s
  | .plain s => by simp [asRich, under, vFresh]
  | .joined h c => by simp [asRich, under, vFresh, fresh]
  | .date h st fs => by
    rw [under, fresh, asRich, vFresh]
    congr 1
    induction fs with
    | nil => rfl
    | cons f fs ih =>
      rw [List.map_cons, freshFields, List.map_cons, ih]
      rfl
  | .dict h mode po fs => by rw [under, fresh, asRich, vFresh, asRichAll_fresh mode fs]
  | .list h _ _ m => by simp [asRich, under, vFresh, fresh]
  | .array h _ m => by simp [asRich, under, vFresh, fresh]
theorem asRichAll_fresh (mode : DictMode) : ∀ fs : List VSchema, asRichAll fs (freshFields mode (unders fs)) = vFreshFields mode fs
  | [] => rfl
  | f :: fs => by
    have h1 : autoField mode (under f) = vAutoField mode f := by cases mode <;> simp [autoField, vAutoField, under_hdr]
    rw [unders, freshFields, asRichAll, vFreshFields, asRichAll_fresh mode fs, h1]
    split
    · rw [asRich_fresh f]
    · rw [asRich_absent]
end

omit [Runtime] in
theorem asRichAll_set : ∀ (fs : List VSchema) (ks : List Elem) (i : Nat) (f : VSchema) (k : Elem), fs[i]? = some f →
    asRichAll fs (ks.set i k) = (asRichAll fs ks).set i (asRich f k)
  | [], _, _, _, _, h => by simp at h
  | g :: fs, [], i, f, k, h => by simp [asRichAll]
  | g :: fs, k' :: ks, 0, f, k, h => by
    simp only [List.getElem?_cons_zero, Option.some.injEq] at h
    subst h
    simp [asRichAll]
  | g :: fs, k' :: ks, i + 1, f, k, h => by
    simp only [List.getElem?_cons_succ] at h
    simp [asRichAll, asRichAll_set fs ks i f k h]

omit [Runtime] in
mutual
theorem asRich_conforms : ∀ (s : VSchema) (e : Elem), IsOf s e → VConforms s (asRich s e)
  | .plain s, e, h => by simpa [asRich, VConforms, IsOf] using h
  | .joined h c, e, hc => by cases e <;> simp_all [IsOf, asRich, VConforms]
  | .date h st fs, e, hc => by
    cases e <;> simp only [IsOf] at hc
    obtain ⟨h1, sts, h2, h3⟩ := hc
    simp [asRich, VConforms, h3, h2]
  | .dict h mode po fs, e, hc => by
    cases e <;> simp only [IsOf] at hc
    rw [asRich, VConforms]
    exact ⟨hc.1 ▸ rfl, asRichAll_conforms mode fs _ hc.2⟩
  | .list h _ _ m, e, hc => by
    cases e <;> simp only [IsOf] at hc
    rw [asRich, VConforms]
    refine ⟨hc.1, fun k hk => ?_⟩
    obtain ⟨k', hk', rfl⟩ := List.mem_map.1 hk
    exact asRich_conforms m k' (hc.2 k' hk')
  | .array h _ m, e, hc => by
    cases e <;> simp only [IsOf] at hc
    rw [asRich, VConforms]
    refine ⟨hc.1, fun k hk => ?_⟩
    obtain ⟨k', hk', rfl⟩ := List.mem_map.1 hk
    exact asRich_conforms m k' (hc.2 k' hk')
theorem asRichAll_conforms (mode : DictMode) : ∀ (fs : List VSchema) (ks : List Elem), IsOfAll mode fs ks → VConformsAll mode fs (asRichAll fs ks)
  | [], [], _ => by simp [asRichAll, VConformsAll]
  | [], _ :: _, h => by simp [IsOfAll] at h
  | _ :: _, [], h => by simp [IsOfAll] at h
  | f :: fs, k :: ks, h => by
    rw [IsOfAll] at h
    rw [asRichAll, VConformsAll]
    refine ⟨?_, asRichAll_conforms mode fs ks h.2⟩
    rcases h.1 with ⟨rfl, h1⟩ | h1
    · exact .inl ⟨asRich_absent f, h1⟩
    · exact .inr (asRich_conforms f k h1)
end

/-! ### set -/

/-- the outcome of a `set`, the element as Model/RichValues.lean has it -/
def richOutcome (s : VSchema) (r : Ended Elem Bool) : Except PyErr (VElem × Bool) := r.2.map fun b => (asRich s r.1, b)

theorem membersRun_rich (m : VSchema) (run : PyVal → Ended Elem Bool) : ∀ vs : List PyVal, (∀ v ∈ vs, richOutcome m (run v) = vSet m v) →
    (membersRun run vs).map (fun r => (r.1.map (asRich m), r.2)) = memberSetLoop (vSet m) vs
  | [], _ => rfl
  | v :: vs, h => by
    have ih := membersRun_rich m run vs fun w hw => h w (by simp [hw])
    unfold membersRun memberSetLoop
    rw [← h v (by simp), ← ih]
    generalize run v = r
    obtain ⟨a, x | x⟩ := r
    · rfl
    · simp only [richOutcome, Except.map]
      cases membersRun run vs <;> rfl

theorem seqSetRun_rich (m : VSchema) (run : PyVal → Ended Elem Bool) (v : PyVal) (h : ∀ vs, itemsOf v = some vs → ∀ w ∈ vs, richOutcome m (run w) = vSet m w) :
    ((seqSetRun run v).2.map fun b => ((seqSetRun run v).1.map (asRich m), b)) = seqSetVal (vSet m) v := by
  unfold seqSetRun seqSetVal
  rw [pyIter_items]
  cases hv : itemsOf v with
  | none => rfl
  | some vs =>
    simp only
    rw [← membersRun_rich m run vs (h vs hv)]
    cases membersRun run vs with
    | error er => cases er <;> rfl
    | ok r => rfl

theorem joinedSet_indep (c : JoinedCfg) (old old' : List ScalarState) (v : PyVal) :
    (joinedSet c old v = joinedSet c old' v) ∨ ∃ er, (joinedSet c old v).2 = .error er ∧ (joinedSet c old' v).2 = .error er := by
  unfold joinedSet
  cases joinedValues c v with
  | error er => exact .inr ⟨er, rfl, rfl⟩
  | ok vs => exact .inl rfl

theorem joined_rich (h : Hdr) (c : JoinedCfg) (e : Elem) (v : PyVal) : richOutcome (.joined h c) (richSet (.joined h c) e v) = vSet (.joined h c) v := by
  unfold richSet vSet richOutcome
  rcases joinedSet_indep c (kidStates e) [] v with h1 | ⟨er, h1, h2⟩
  · rw [h1]
    generalize joinedSet c [] v = r
    obtain ⟨ms, x | x⟩ := r
    · rfl
    · simp only [Except.map, asRich, memberElems_states]
  · revert h1 h2
    generalize joinedSet c (kidStates e) v = r
    generalize joinedSet c [] v = r'
    obtain ⟨ms, x⟩ := r
    obtain ⟨ms', x'⟩ := r'
    rintro rfl rfl
    rfl

omit [Runtime] in
theorem freshDate_states (h : Hdr) (st : Bool) (fs : List (Hdr × ScalarType)) : kidStates (fresh (under (.date h st fs))) = fs.map fun _ => .fresh := by
  have := asRich_fresh (.date h st fs)
  rw [under, fresh, asRich, vFresh] at this
  rw [under, fresh]
  simp only [VElem.date.injEq, true_and] at this
  exact this

/-- what a date that is new, or is not set from None, becomes -/
theorem date_rich (h : Hdr) (st : Bool) (fs : List (Hdr × ScalarType)) (v : PyVal) :
    richOutcome (.date h st fs) (richSet (.date h st fs) (fresh (under (.date h st fs))) v) = vSet (.date h st fs) v := by
  unfold richSet vSet richOutcome
  rw [freshDate_states]
  have hl := dateSet_len st (fs.map Prod.snd) (fs.map fun _ => ScalarState.fresh) v
  generalize dateSet st (fs.map Prod.snd) (fs.map fun _ => .fresh) v = r at hl
  obtain ⟨sts, x | x⟩ := r
  · rfl
  · simp only [Except.map, dateElem, asRich]
    rw [partElems_states fs sts (by simpa using hl)]

omit [Runtime] in
theorem orFresh_field (mode : DictMode) (f : Schema) : orFresh f (if autoField mode f then fresh f else .absent) = fresh f := by
  split
  · cases f <;> rfl
  · rfl

omit [Runtime] in
theorem freshFields_at (mode : DictMode) : ∀ (fs : List VSchema) (i : Nat) (f : VSchema), fs[i]? = some f →
    (freshFields mode (unders fs))[i]? = some (if autoField mode (under f) then fresh (under f) else .absent)
  | [], _, _, h => by simp at h
  | g :: fs, 0, f, h => by
    simp only [List.getElem?_cons_zero, Option.some.injEq] at h
    subst h
    rw [unders, freshFields, List.getElem?_cons_zero]
  | g :: fs, i + 1, f, h => by
    simp only [List.getElem?_cons_succ] at h
    rw [unders, freshFields, List.getElem?_cons_succ, freshFields_at mode fs i f h]

theorem richRunners_at : ∀ (fs : List VSchema) (i : Nat), (richRunners fs)[i]? = fs[i]?.map fun f => fun k v => richSet f (orFresh (under f) k) v
  | [], i => by simp [richRunners]
  | f :: fs, 0 => by simp [richRunners]
  | f :: fs, i + 1 => by simp [richRunners, richRunners_at fs i]

omit [Runtime] in
theorem namesOnceAll_at : ∀ {fs : List VSchema} {l : List Entry} {i : Nat} {f : VSchema}, NamesOnceAll fs l → fs[i]? = some f →
    l.Pairwise (fun x y => ∀ v w, VSupplies f x v → ¬ VSupplies f y w) ∧ ∀ x ∈ l, ∀ v, VSupplies f x v → NamesOnce f v
  | [], _, _, _, _, h => by simp at h
  | g :: fs, l, 0, f, hl, h => by
    simp only [List.getElem?_cons_zero, Option.some.injEq] at h
    subst h
    rw [NamesOnceAll] at hl
    exact ⟨hl.1, hl.2.1⟩
  | g :: fs, l, i + 1, f, hl, h => by
    simp only [List.getElem?_cons_succ] at h
    rw [NamesOnceAll] at hl
    exact namesOnceAll_at hl.2.2 h

/-- the loop of `Dict.set` in both descriptions, while the fields still to be set are new -/
theorem dictLoop_rich (pol : Policy) (fs : List VSchema) (hn : (fs.map VSchema.name).Nodup) : ∀ (l : List Entry)
    (_ : ∀ (i : Nat) (f : VSchema), fs[i]? = some f → l.Pairwise (fun x y => ∀ v w, VSupplies f x v → ¬ VSupplies f y w))
    (_ : ∀ (i : Nat) (f : VSchema), fs[i]? = some f → ∀ x ∈ l, ∀ v, VSupplies f x v → richOutcome f (richSet f (fresh (under f)) v) = vSet f v)
    (kids : List Elem) (seen : List Nat) (c : Bool) (_ : kids.length = fs.length)
    (_ : ∀ (i : Nat) (f : VSchema), fs[i]? = some f → (∃ x ∈ l, ∃ v, VSupplies f x v) → orFresh (under f) (kids[i]?.getD .absent) = fresh (under f)),
    ((dictSetLoopRun pol (fs.map VSchema.name) (richRunners fs) kids seen c (l.map Entry.asPair)).2.map fun p =>
      (asRichAll fs (dictSetLoopRun pol (fs.map VSchema.name) (richRunners fs) kids seen c (l.map Entry.asPair)).1, p)) =
      dictSetLoop pol (fs.map VSchema.name) (vSetters fs) (asRichAll fs kids) seen c (l.map Entry.asPair)
  | [], _, _, kids, seen, c, _, _ => rfl
  | .bad er :: l, _, _, kids, seen, c, _, _ => rfl
  | .pair k v :: l, hone, hset, kids, seen, c, hk, hb => by
    have hone' : ∀ (i : Nat) (f : VSchema), fs[i]? = some f → l.Pairwise (fun x y => ∀ v w, VSupplies f x v → ¬ VSupplies f y w) :=
      fun i f hi => (List.pairwise_cons.1 (hone i f hi)).2
    have hset' : ∀ (i : Nat) (f : VSchema), fs[i]? = some f → ∀ x ∈ l, ∀ v, VSupplies f x v → richOutcome f (richSet f (fresh (under f)) v) = vSet f v :=
      fun i f hi x hx => hset i f hi x (by simp [hx])
    have hb' : ∀ (i : Nat) (f : VSchema), fs[i]? = some f → (∃ x ∈ l, ∃ v, VSupplies f x v) → orFresh (under f) (kids[i]?.getD .absent) = fresh (under f) := by
      rintro i f hi ⟨x, hx, h⟩
      exact hb i f hi ⟨x, by simp [hx], h⟩
    rw [List.map_cons, Entry.asPair, dictSetLoopRun, dictSetLoop]
    rcases vFieldPos_spec fs hn k with ⟨hu, hp⟩ | ⟨hu, hkk, hp⟩ | ⟨i, f, n, hu, rfl, hi, hfn, hp⟩
    · rw [hp]; rfl
    · rw [hp]
      simp only
      by_cases hd : pol = .duck
      · rw [if_pos hd, if_pos hd]
        exact dictLoop_rich pol fs hn l hone' hset' kids seen c hk hb'
      · rw [if_neg hd, if_neg hd]
        rfl
    · rw [hp]
      have hsup : VSupplies f (.pair (.str n) v) v := ⟨n, hfn, rfl⟩
      have h1 := hset i f hi _ (by simp) v hsup
      have h2 := hb i f hi ⟨_, by simp, v, hsup⟩
      simp only [richRunners_at, hi, Option.map_some, vSetters_eq, List.getElem?_map]
      rw [h2, ← h1]
      generalize hr : richSet f (fresh (under f)) v = r
      obtain ⟨e, x | x⟩ := r
      · rfl
      · simp only [richOutcome, Except.map]
        rw [← vSetters_eq, ← asRichAll_set fs kids i f e hi]
        refine dictLoop_rich pol fs hn l hone' hset' (kids.set i e) (i :: seen) (c && x) (by simpa using hk) ?_
        rintro j g hj ⟨y, hy, w, hw⟩
        have hij : j ≠ i := by
          rintro rfl
          rw [hi] at hj
          cases hj
          exact (List.pairwise_cons.1 (hone j f hi)).1 y hy v w hsup hw
        rw [List.getElem?_set_ne (Ne.symm hij)]
        exact hb' j g hj ⟨y, hy, w, hw⟩

omit [Runtime] in
theorem freshFields_len (mode : DictMode) : ∀ fs : List Schema, (freshFields mode fs).length = fs.length
  | [] => rfl
  | f :: fs => by rw [freshFields, List.length_cons, List.length_cons, freshFields_len mode fs]

omit [Runtime] in
theorem unders_len (fs : List VSchema) : (unders fs).length = fs.length := by rw [unders_map, List.length_map]

theorem dict_rich (h : Hdr) (mode : DictMode) (pol : Policy) (fs : List VSchema) (hn : (fs.map VSchema.name).Nodup) (e : Elem) (v : PyVal)
    (hone : ∀ l, entriesOf v = some l → NamesOnceAll fs l)
    (hset : ∀ f ∈ fs, ∀ w, NamesOnce f w → richOutcome f (richSet f (fresh (under f)) w) = vSet f w) :
    richOutcome (.dict h mode pol fs) (richSet (.dict h mode pol fs) e v) = vSet (.dict h mode pol fs) v := by
  unfold richSet vSet dictSetRun vDictSet richOutcome
  rw [valuePairs_entries]
  cases hv : entriesOf v with
  | none => rfl
  | some l =>
    simp only
    have hl := hone l hv
    rw [← asRichAll_fresh, ← dictLoop_rich pol fs hn l (fun i f hi => (namesOnceAll_at hl hi).1)
      (fun i f hi x hx w hw => hset f (List.mem_of_getElem? hi) w ((namesOnceAll_at hl hi).2 x hx w hw))
      (freshFields mode (unders fs)) [] true (by rw [freshFields_len, unders_len])
      (fun i f hi _ => by rw [freshFields_at mode fs i f hi]; exact orFresh_field mode (under f))]
    generalize dictSetLoopRun pol (fs.map VSchema.name) (richRunners fs) (freshFields mode (unders fs)) [] true (l.map Entry.asPair) = r
    obtain ⟨ks, x | ⟨seen, c⟩⟩ := r
    · rfl
    · simp only [Except.map, asRich]
      by_cases hx : pol = .strict ∧ ¬ (List.range (fs.map VSchema.name).length).all (fun i => seen.contains i)
      · rw [if_pos hx, if_pos hx]
      · rw [if_neg hx, if_neg hx]

mutual
theorem richSet_new : ∀ (s : VSchema) (_ : NamedParts s) (v : PyVal), NamesOnce s v → richOutcome s (richSet s (fresh (under s)) v) = vSet s v
  | .plain s, _, v, _ => by
    unfold richSet vSet richOutcome
    rw [← setRun_both s (fresh (under (.plain s))) v]
    generalize setRun s (fresh (under (.plain s))) v = r
    obtain ⟨a, x | x⟩ := r <;> rfl
  | .joined h c, _, v, _ => joined_rich h c _ v
  | .date h st fs, _, v, _ => date_rich h st fs v
  | .dict h mode pol fs, hn, v, ho => by
    rw [NamedParts] at hn
    rw [NamesOnce] at ho
    exact dict_rich h mode pol fs hn.2.1 _ v ho (richSet_new_all fs hn.2.2)
  | .list h prune max m, hn, v, ho => by
    rw [NamedParts] at hn
    rw [NamesOnce] at ho
    unfold richSet vSet richOutcome
    rw [← seqSetRun_rich m (richSet m (fresh (under m))) v (fun vs hv w hw => richSet_new m hn w (ho vs hv w hw))]
    generalize seqSetRun (richSet m (fresh (under m))) v = r
    obtain ⟨a, x | x⟩ := r <;> simp [Except.map, asRich]
  | .array h prune m, hn, v, ho => by
    rw [NamedParts] at hn
    rw [NamesOnce] at ho
    unfold richSet vSet richOutcome
    rw [← seqSetRun_rich m (richSet m (fresh (under m))) v (fun vs hv w hw => richSet_new m hn w (ho vs hv w hw))]
    generalize seqSetRun (richSet m (fresh (under m))) v = r
    obtain ⟨a, x | x⟩ := r <;> simp [Except.map, asRich]
theorem richSet_new_all : ∀ (fs : List VSchema) (_ : NamedPartsAll fs), ∀ f ∈ fs, ∀ w, NamesOnce f w → richOutcome f (richSet f (fresh (under f)) w) = vSet f w
  | [], _, f, hf => by simp at hf
  | g :: fs, hn, f, hf => by
    rw [NamedPartsAll] at hn
    rcases List.mem_cons.1 hf with h | hf
    · rw [h]
      exact fun w hw => richSet_new g hn.1 w hw
    · exact richSet_new_all fs hn.2 f hf
end

/-- apart from dates, what an element held before makes no difference -/
theorem richSet_indep (s : VSchema) (hd : ¬ IsDateClass s) (e e' : Elem) (v : PyVal) : richOutcome s (richSet s e v) = richOutcome s (richSet s e' v) := by
  cases s with
  | plain s =>
    have h : ∀ e, richOutcome (.plain s) (richSet (.plain s) e v) = (setVal s v).map fun r => (.plain r.1, r.2) := by
      intro e
      unfold richSet richOutcome
      rw [← setRun_both s e v]
      generalize setRun s e v = r
      obtain ⟨a, x | x⟩ := r <;> rfl
    rw [h, h]
  | joined h c => rw [joined_rich, joined_rich]
  | date => exact absurd trivial hd
  | dict h mode pol fs =>
    unfold richSet dictSetRun richOutcome
    cases valuePairs v <;> rfl
  | list => rfl
  | array => rfl

end
end Flatland
