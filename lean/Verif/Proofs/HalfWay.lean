import Verif.Model.HalfWay
import Verif.Proofs.Submissions
/-! Lemmas about operations that may stop half way. -/
namespace Flatland
open Spec

/-- the outcome, with the element in it when the call returned -/
def Ended.outcome {α β : Type} (r : Ended α β) : Except PyErr α := r.2.map fun _ => r.1

/-- the outcome, with the element and the result in it when the call returned -/
def Ended.both {α β : Type} (r : Ended α β) : Except PyErr (α × β) := r.2.map fun b => (r.1, b)

theorem outcome_mk {α β : Type} (a : α) (x : Except PyErr β) : Ended.outcome (a, x) = x.map fun _ => a := rfl
theorem both_mk {α β : Type} (a : α) (x : Except PyErr β) : Ended.both (a, x) = x.map fun b => (a, b) := rfl
theorem outcome_ok {α β : Type} {r : Ended α β} {b : β} (h : r.2 = .ok b) : r.outcome = .ok r.1 := by simp [Ended.outcome, h, Except.map]
theorem outcome_error {α β : Type} {r : Ended α β} {er : PyErr} (h : r.2 = .error er) : r.outcome = .error er := by simp [Ended.outcome, h, Except.map]
theorem both_ok {α β : Type} {r : Ended α β} {b : β} (h : r.2 = .ok b) : r.both = .ok (r.1, b) := by simp [Ended.both, h, Except.map]
theorem both_error {α β : Type} {r : Ended α β} {er : PyErr} (h : r.2 = .error er) : r.both = .error er := by simp [Ended.both, h, Except.map]

section
variable [Runtime]

/-! ### the outcome is that of the models of Model/Tree.lean and Model/Values.lean -/

theorem scalarSetFlatRun_outcome (name : Option PStr) (t : ScalarType) (st : ScalarState) (ps : List FPair) :
    (scalarSetFlatRun name t st ps).outcome = scalarSetFlat name t st ps := by
  unfold scalarSetFlatRun scalarSetFlat
  cases ps.find? fun p => p.1 == name with
  | none => rfl
  | some p =>
    cases h : scalarSet t { st with raw := .none } (.str p.2) with
    | mk a b => cases b <;> simp [h, outcome_mk, Except.map]

theorem arrayMembersRun_outcome (sep : PStr) (name : Option PStr) (prune : Bool) (hm : Hdr) (t : ScalarType) : ∀ ps : List FPair,
    (arrayMembersRun sep name prune hm t ps).outcome = arrayMembers sep name prune hm t ps
  | [] => rfl
  | p :: rest => by
    have ih := arrayMembersRun_outcome sep name prune hm t rest
    unfold arrayMembersRun arrayMembers
    cases arrayPick sep name hm.name prune p with
    | error er => rfl
    | ok o => cases o with
      | none => exact ih
      | some key =>
        have hs := scalarSetFlatRun_outcome hm.name t .fresh [(key, p.2)]
        rw [← ih]
        simp only [bind, Except.bind]
        rw [← hs]
        generalize scalarSetFlatRun hm.name t .fresh [(key, p.2)] = q
        generalize arrayMembersRun sep name prune hm t rest = r
        rcases q with ⟨b, y | y⟩ <;> rcases r with ⟨a, x | x⟩ <;> rfl

omit [Runtime] in
theorem slotsRun_outcome (blank : Elem) (step : Elem → List FPair → Ended Elem Unit) (f : Elem → List FPair → Except PyErr Elem)
    (hf : ∀ ps, (step blank ps).outcome = f blank ps) (ms : List (Nat × FPair)) : ∀ is : List Nat,
    (slotsRun blank step ms is).outcome = is.mapM fun i => if (subPairs ms i).isEmpty then .ok blank else f blank (subPairs ms i)
  | [] => rfl
  | i :: is => by
    have ih := slotsRun_outcome blank step f hf ms is
    rw [List.mapM_cons, ← ih, slotsRun]
    by_cases he : (subPairs ms i).isEmpty = true
    · simp only [he, if_true]
      generalize slotsRun blank step ms is = r
      rcases r with ⟨a, x | x⟩ <;> rfl
    · simp only [he, if_false, Bool.false_eq_true, ← hf]
      generalize step blank (subPairs ms i) = q
      generalize slotsRun blank step ms is = r
      rcases q with ⟨b, y | y⟩ <;> rcases r with ⟨a, x | x⟩ <;> rfl

mutual
theorem setFlatRun_outcome (sep : PStr) : ∀ (s : Schema) (e : Elem) (ps : List FPair), (setFlatRun sep s e ps).outcome = setFlat sep s e ps
  | .scalar h t, e, ps => by unfold setFlatRun setFlat; exact scalarSetFlatRun_outcome h.name t e.state ps
  | .dict h mode po fields, e, ps => by
    unfold setFlatRun setFlat
    cases dictPossibles sep h.name ps with
    | error er => rfl
    | ok poss =>
      by_cases he : poss.isEmpty = true
      · simp only [he, if_true]; rfl
      · simp only [he, if_false, Bool.false_eq_true]
        rw [← fieldsRun_outcome sep fields e.kids poss]
        generalize fieldsRun sep fields e.kids poss = r
        rcases r with ⟨a, x | x⟩ <;> rfl
  | .list h prune max m, e, ps => by
    unfold setFlatRun setFlat
    cases listMatches sep h.name prune ps with
    | error er => rfl
    | ok ms =>
      simp only
      rw [← slotsRun_outcome (fresh m) (setFlatRun sep m) (setFlat sep m) (fun ps => setFlatRun_outcome sep m (fresh m) ps)]
      generalize (if ms.isEmpty then [] else if prune then (sortedIdx ms).take max else List.range (min (maxIdx ms + 1) max)) = idxs
      generalize slotsRun (fresh m) (setFlatRun sep m) ms idxs = r
      rcases r with ⟨a, x | x⟩ <;> rfl
  | .array h prune m, e, ps => by
    cases m with
    | scalar hm t =>
      unfold setFlatRun setFlat
      rw [← arrayMembersRun_outcome]
      generalize arrayMembersRun sep h.name prune hm t ps = r
      rcases r with ⟨a, x | x⟩ <;> rfl
    | dict => rfl
    | list => rfl
    | array => rfl
theorem fieldsRun_outcome (sep : PStr) : ∀ (fs : List Schema) (ks : List Elem) (ps : List FPair),
    (fieldsRun sep fs ks ps).outcome = setFlatFields sep fs ks ps
  | [], _, _ => rfl
  | f :: fs, ks, ps => by
    have ih := fieldsRun_outcome sep fs ks.tail ps
    unfold fieldsRun setFlatFields
    cases accumField f.name ps with
    | error er => rfl
    | ok accum =>
      by_cases he : accum.isEmpty = true
      · simp only [he, if_true, ← ih]
        generalize fieldsRun sep fs ks.tail ps = r
        rcases r with ⟨a, x | x⟩ <;> rfl
      · simp only [he, if_false, Bool.false_eq_true, ← ih]
        rw [← setFlatRun_outcome sep f (orFresh f (ks.headD .absent)) accum]
        generalize setFlatRun sep f (orFresh f (ks.headD .absent)) accum = q
        generalize fieldsRun sep fs ks.tail ps = r
        rcases q with ⟨b, y | y⟩ <;> rcases r with ⟨a, x | x⟩ <;> rfl
end

theorem scalarSet_both_indep (t : ScalarType) (st st' : ScalarState) (v : PyVal) :
    Ended.both (scalarSet t st v) = Ended.both (scalarSet t st' v) := by
  unfold scalarSet
  cases t.adapt v with
  | error er => cases er <;> rfl
  | ok w => cases w <;> first | rfl | (simp only; split <;> rfl)

omit [Runtime] in
theorem dictSetLoopRun_both (policy : Policy) (names : List (Option PStr)) (runners : List SetRunner) (setters : List Setter)
    (hl : runners.length = setters.length)
    (hr : ∀ (i : Nat) (r : SetRunner) (s : Setter), runners[i]? = some r → setters[i]? = some s → ∀ (k : Elem) (v : PyVal), (r k v).both = s v) :
    ∀ (pairs : List (Except PyErr (PyVal × PyVal))) (kids : List Elem) (seen : List Nat) (c : Bool),
    (dictSetLoopRun policy names runners kids seen c pairs).both = dictSetLoop policy names setters kids seen c pairs
  | [], kids, seen, c => rfl
  | .error er :: _, kids, seen, c => rfl
  | .ok (k, v) :: rest, kids, seen, c => by
    unfold dictSetLoopRun dictSetLoop
    cases fieldPos names k with
    | error er => rfl
    | ok o => cases o with
      | none =>
        by_cases hp : policy = .duck
        · simp only [hp, if_true]; rw [← hp]; exact dictSetLoopRun_both policy names runners setters hl hr rest kids seen c
        · simp only [hp, if_false]; rfl
      | some i =>
        cases hi : runners[i]? with
        | none =>
          have : setters[i]? = none := by rw [List.getElem?_eq_none_iff] at hi ⊢; omega
          simp only [this, hi]; rfl
        | some run =>
          have hs : ∃ s, setters[i]? = some s := by
            have := (List.getElem?_eq_some_iff.1 hi).1
            exact ⟨setters[i]'(by omega), List.getElem?_eq_getElem _⟩
          obtain ⟨s, hs⟩ := hs
          simp only [hs, hi]
          have hb := hr i run s hi hs (kids[i]?.getD .absent) v
          rw [← hb]
          generalize run (kids[i]?.getD .absent) v = r
          rcases r with ⟨a, x | x⟩
          · rfl
          · exact dictSetLoopRun_both policy names runners setters hl hr rest _ _ _

omit [Runtime] in
theorem membersRun_eq (run : PyVal → Ended Elem Bool) (setter : Setter) (h : ∀ v, (run v).both = setter v) : ∀ vs : List PyVal,
    membersRun run vs = memberSetLoop setter vs
  | [] => rfl
  | v :: vs => by
    unfold membersRun memberSetLoop
    rw [← h v, membersRun_eq run setter h vs]
    generalize run v = r
    rcases r with ⟨a, x | x⟩
    · rfl
    · simp only [Ended.both, Except.map]
      cases memberSetLoop setter vs <;> rfl

omit [Runtime] in
theorem seqSetRun_both (run : PyVal → Ended Elem Bool) (setter : Setter) (h : ∀ v, (run v).both = setter v) (v : PyVal) :
    (seqSetRun run v).both = seqSetVal setter v := by
  unfold seqSetRun seqSetVal
  cases pyIter v with
  | error er => rfl
  | ok vs =>
    simp only [membersRun_eq run setter h vs]
    cases memberSetLoop setter vs with
    | error er => cases er <;> rfl
    | ok r => rfl

theorem fieldRunners_length : ∀ fs : List Schema, (fieldRunners fs).length = (fieldSetters fs).length
  | [] => rfl
  | _ :: fs => by unfold fieldRunners fieldSetters; simp [fieldRunners_length fs]

mutual
theorem setRun_both : ∀ (s : Schema) (e : Elem) (v : PyVal), (setRun s e v).both = setVal s v
  | .scalar h t, e, v => by
    unfold setRun setVal
    have hi := scalarSet_both_indep t e.state .fresh v
    cases h1 : scalarSet t e.state v with
    | mk a b =>
      cases h2 : scalarSet t .fresh v with
      | mk a' b' =>
        rw [h1, h2] at hi
        cases b <;> cases b' <;> simp_all [both_mk, Except.map]
  | .dict h mode policy fields, e, v => by
    unfold setRun setVal dictSetRun dictSet
    cases valuePairs v with
    | error er => rfl
    | ok pairs =>
      simp only
      rw [← dictSetLoopRun_both policy (fields.map Schema.name) (fieldRunners fields) (fieldSetters fields) (fieldRunners_length fields)
        (fieldRunners_both fields)]
      generalize dictSetLoopRun policy (fields.map Schema.name) (fieldRunners fields) (freshFields mode fields) [] true pairs = r
      obtain ⟨ks, x⟩ := r
      cases x with
      | error er => rfl
      | ok p =>
        obtain ⟨seen, c⟩ := p
        by_cases hx : policy = .strict ∧ ¬ (List.range (fields.map Schema.name).length).all (fun i => seen.contains i)
        · simp only [both_mk, Except.map, if_pos hx]
        · simp only [both_mk, Except.map, if_neg hx]
  | .list h prune max m, e, v => by
    unfold setRun setVal
    rw [← seqSetRun_both (setRun m (fresh m)) (setVal m) (fun v => setRun_both m (fresh m) v) v]
    generalize seqSetRun (setRun m (fresh m)) v = r
    obtain ⟨ks, x⟩ := r
    cases x <;> rfl
  | .array h prune m, e, v => by
    unfold setRun setVal
    rw [← seqSetRun_both (setRun m (fresh m)) (setVal m) (fun v => setRun_both m (fresh m) v) v]
    generalize seqSetRun (setRun m (fresh m)) v = r
    obtain ⟨ks, x⟩ := r
    cases x <;> rfl
theorem fieldRunners_both : ∀ (fs : List Schema) (i : Nat) (r : SetRunner) (s : Setter), (fieldRunners fs)[i]? = some r → (fieldSetters fs)[i]? = some s →
    ∀ k v, (r k v).both = s v
  | [], i, r, s, h, _ => by simp [fieldRunners] at h
  | f :: fs, 0, r, s, h, h' => by
    simp only [fieldRunners, fieldSetters, List.getElem?_cons_zero, Option.some.injEq] at h h'
    subst h; subst h'
    intro k v
    exact setRun_both f (orFresh f k) v
  | f :: fs, i + 1, r, s, h, h' => by
    simp only [fieldRunners, fieldSetters, List.getElem?_cons_succ] at h h'
    exact fieldRunners_both fs i r s h h'
end

omit [Runtime] in
theorem forget_outcome (r : Ended Elem Bool) : (forget r).outcome = dropResult r.both := by
  obtain ⟨a, x⟩ := r
  cases x <;> rfl

omit [Runtime] in
theorem repeatRun_outcome (m : Ended Elem Unit) : ∀ n : Nat, (repeatRun m n).outcome = repeatMember m.outcome n
  | 0 => rfl
  | n + 1 => by
    have ih := repeatRun_outcome m n
    rcases m with ⟨b, y | y⟩
    · rfl
    · have hr : repeatMember (Ended.outcome (b, .ok y)) (n + 1) = (repeatMember (Ended.outcome (b, .ok y)) n).map fun es => b :: es := by
        show repeatMember (.ok b) (n + 1) = (repeatMember (.ok b) n).map fun es => b :: es
        simp only [repeatMember]
        cases repeatMember (.ok b) n <;> rfl
      rw [hr, ← ih]
      show Ended.outcome ((b :: (repeatRun (b, .ok y) n).1, (repeatRun (b, .ok y) n).2) : Ended (List Elem) Unit) = _
      generalize repeatRun (b, Except.ok y) n = r
      rcases r with ⟨a, x | x⟩ <;> rfl

omit [Runtime] in
theorem extendRun_outcome (run : PyVal → Ended Elem Bool) (setter : Setter) (h : ∀ v, (run v).both = setter v) : ∀ vs : List PyVal,
    (extendRun run vs).outcome = (memberSetLoop setter vs).map Prod.fst
  | [] => rfl
  | v :: vs => by
    unfold extendRun memberSetLoop
    have ih := extendRun_outcome run setter h vs
    rw [← h v]
    generalize run v = q
    rcases q with ⟨b, y | y⟩
    · rfl
    · generalize extendRun run vs = r at ih
      rcases r with ⟨a, x | x⟩ <;> cases hm : memberSetLoop setter vs <;>
        simp_all [Ended.outcome, Ended.both, Except.map]

mutual
theorem setDefaultRun_outcome : ∀ (s : Schema) (e : Elem), Conforms s e → (setDefaultRun s e).outcome = setDefault s e
  | .scalar h t, e, _ => by
    unfold setDefaultRun setDefault
    cases h.dflt with
    | none => rfl
    | some d =>
      cases h1 : scalarSet t e.state d with
      | mk a b => cases b <;> simp [h1, outcome_mk, Except.map]
  | .dict h mode policy fields, e, hc => by
    have hs : ∀ d, (forget (setRun (.dict h mode policy fields) e d)).outcome = dropResult (setVal (.dict h mode policy fields) d) := by
      intro d; rw [forget_outcome, setRun_both]
    unfold setDefaultRun setDefault
    cases mode with
    | full =>
      cases e with
      | dict n ks =>
        have hn := defaultKidsRun_outcome fields ks (by simpa [Conforms] using hc.2)
        simp only [Elem.kids]
        rw [← hn]
        generalize defaultKidsRun fields ks = r
        cases hd : h.dflt with
        | none => rcases r with ⟨a, x | x⟩ <;> rfl
        | some d => cases d <;> first | exact hs _ | (rcases r with ⟨a, x | x⟩ <;> rfl)
      | scalar => exact hc.elim
      | list => exact hc.elim
      | array => exact hc.elim
      | absent => exact hc.elim
    | sparse =>
      cases hd : h.dflt with
      | none => rfl
      | some d => cases d <;> first | exact hs _ | rfl
    | sparseRequired =>
      have hn := defaultRequiredKidsRun_outcome fields
      rw [← hn]
      generalize defaultRequiredKidsRun fields = r
      cases hd : h.dflt with
      | none => rcases r with ⟨a, x | x⟩ <;> rfl
      | some d => cases d <;> first | exact hs _ | (rcases r with ⟨a, x | x⟩ <;> rfl)
  | .list h prune max m, e, hc => by
    unfold setDefaultRun setDefault
    cases hd : h.dflt with
    | none => rfl
    | some d =>
      have hx : Ended.outcome (match defaultCount d with
          | some n => let r := repeatRun (setDefaultRun m (fresh m)) n
            (Elem.list h.name r.1, r.2)
          | .none => forget (setRun (.list h prune max m) (.list h.name []) d)) =
          (match defaultCount d with
          | some n => match repeatMember (setDefault m (fresh m)) n with
            | .error er => Except.error er
            | .ok ks => .ok (.list h.name ks)
          | .none => dropResult (setVal (.list h prune max m) d)) := by
        cases defaultCount d with
        | none => simp only; rw [forget_outcome, setRun_both]
        | some n =>
          simp only
          rw [← setDefaultRun_outcome m (fresh m) (fresh_conforms m), ← repeatRun_outcome]
          generalize repeatRun (setDefaultRun m (fresh m)) n = r
          rcases r with ⟨a, x | x⟩ <;> rfl
      cases d <;> first | rfl | exact hx
  | .array h prune m, e, hc => by
    unfold setDefaultRun setDefault
    cases hd : h.dflt with
    | none => rfl
    | some d =>
      have hx : Ended.outcome (match pyIter d with
          | .error er => (Elem.array h.name [], .error er)
          | .ok vs => let r := extendRun (setRun m (fresh m)) vs
            (.array h.name r.1, r.2)) =
          (match pyIter d with
          | .error er => Except.error er
          | .ok vs => match memberSetLoop (setVal m) vs with
            | .error er => .error er
            | .ok (es, _) => .ok (.array h.name es)) := by
        cases pyIter d with
        | error er => rfl
        | ok vs =>
          have hh := extendRun_outcome (setRun m (fresh m)) (setVal m) (fun v => setRun_both m (fresh m) v) vs
          simp only
          generalize extendRun (setRun m (fresh m)) vs = r at hh
          rcases r with ⟨a, x | x⟩ <;> cases hm : memberSetLoop (setVal m) vs <;>
            simp_all [Ended.outcome, Except.map]
      cases d <;> first | rfl | exact hx
theorem defaultKidsRun_outcome : ∀ (fs : List Schema) (ks : List Elem), ConformsAll .full fs ks →
    (defaultKidsRun fs ks).outcome = defaultKids fs ks
  | [], [], _ => rfl
  | [], _ :: _, h => by simp [ConformsAll] at h
  | _ :: _, [], h => by simp [ConformsAll] at h
  | f :: fs, k :: ks, h => by
    unfold ConformsAll at h
    have hk : Conforms f k := by
      rcases h.1 with h1 | h1
      · simp [autoField] at h1
      · exact h1
    unfold defaultKidsRun defaultKids
    rw [← setDefaultRun_outcome f k hk, ← defaultKidsRun_outcome fs ks h.2]
    generalize setDefaultRun f k = q
    generalize defaultKidsRun fs ks = r
    rcases q with ⟨b, y | y⟩ <;> rcases r with ⟨a, x | x⟩ <;> rfl
theorem defaultRequiredKidsRun_outcome : ∀ fs : List Schema, (defaultRequiredKidsRun fs).outcome = defaultRequiredKids fs
  | [] => rfl
  | f :: fs => by
    unfold defaultRequiredKidsRun defaultRequiredKids
    rw [← defaultRequiredKidsRun_outcome fs]
    by_cases ho : f.hdr.optional = true
    · simp only [ho, if_true]
      generalize defaultRequiredKidsRun fs = r
      rcases r with ⟨a, x | x⟩ <;> rfl
    · simp only [ho, if_false, Bool.false_eq_true]
      rw [← setDefaultRun_outcome f (fresh f) (fresh_conforms f)]
      generalize setDefaultRun f (fresh f) = q
      generalize defaultRequiredKidsRun fs = r
      rcases q with ⟨b, y | y⟩ <;> rcases r with ⟨a, x | x⟩ <;> rfl
end

/-! ### whatever happens, the element stays an instance of its class -/

theorem arrayMembersRun_conforms (sep : PStr) (name : Option PStr) (prune : Bool) (hm : Hdr) (t : ScalarType) : ∀ ps : List FPair,
    ∀ k ∈ (arrayMembersRun sep name prune hm t ps).1, Conforms (.scalar hm t) k
  | [] => by simp [arrayMembersRun]
  | p :: rest => by
    have ih := arrayMembersRun_conforms sep name prune hm t rest
    unfold arrayMembersRun
    cases arrayPick sep name hm.name prune p with
    | error er => simp
    | ok o => cases o with
      | none => exact ih
      | some key =>
        have hs : Conforms (.scalar hm t) (scalarSetFlatRun hm.name t .fresh [(key, p.2)]).1 := by
          unfold scalarSetFlatRun; split <;> rfl
        simp only
        split
        · simp
        · intro k hk
          rcases List.mem_cons.1 hk with rfl | hk
          · exact hs
          · exact ih k hk

omit [Runtime] in
theorem slotsRun_conforms (m : Schema) (blank : Elem) (hb : Conforms m blank) (step : Elem → List FPair → Ended Elem Unit)
    (hf : ∀ ps, Conforms m (step blank ps).1) (ms : List (Nat × FPair)) : ∀ is : List Nat, ∀ k ∈ (slotsRun blank step ms is).1, Conforms m k
  | [] => by simp [slotsRun]
  | i :: is => by
    have ih := slotsRun_conforms m blank hb step hf ms is
    have h1 : Conforms m (if (subPairs ms i).isEmpty then (blank, .ok ()) else step blank (subPairs ms i)).1 := by
      split
      · exact hb
      · exact hf _
    unfold slotsRun
    simp only
    generalize (if (subPairs ms i).isEmpty then (blank, .ok ()) else step blank (subPairs ms i)) = q at h1
    rcases q with ⟨b, y | y⟩
    · intro k hk; rw [List.mem_singleton.1 hk]; exact h1
    · intro k hk
      rcases List.mem_cons.1 hk with rfl | hk
      · exact h1
      · exact ih k hk

omit [Runtime] in
theorem slotsRun_length (blank : Elem) (step : Elem → List FPair → Ended Elem Unit) (ms : List (Nat × FPair)) : ∀ is : List Nat,
    (slotsRun blank step ms is).1.length ≤ is.length
  | [] => by simp [slotsRun]
  | i :: is => by
    have ih := slotsRun_length blank step ms is
    unfold slotsRun
    simp only
    generalize (if (subPairs ms i).isEmpty then (blank, .ok ()) else step blank (subPairs ms i)) = q
    rcases q with ⟨b, y | y⟩ <;> simp; omega

omit [Runtime] in
theorem orFresh_conforms {mode : DictMode} {f : Schema} {k : Elem} (h : (k = .absent ∧ autoField mode f = false) ∨ Conforms f k) :
    Conforms f (orFresh f k) := by
  rcases h with ⟨h, _⟩ | h
  · subst h; exact fresh_conforms f
  · unfold orFresh
    cases k with
    | absent => exact (conforms_not_absent h rfl).elim
    | scalar => exact h
    | dict => exact h
    | list => exact h
    | array => exact h

mutual
theorem setFlatRun_conforms (sep : PStr) : ∀ (s : Schema) (e : Elem) (ps : List FPair), Conforms s e → Conforms s (setFlatRun sep s e ps).1
  | .scalar h t, e, ps, _ => by
    unfold setFlatRun scalarSetFlatRun
    split <;> rfl
  | .dict h mode po fields, e, ps, hc => by
    unfold setFlatRun
    split
    · exact hc
    · split
      · exact hc
      · cases e with
        | dict n ks => exact ⟨rfl, fieldsRun_conforms sep mode fields ks _ hc.2⟩
        | scalar => exact hc.elim
        | list => exact hc.elim
        | array => exact hc.elim
        | absent => exact hc.elim
  | .list h prune max m, e, ps, _ => by
    unfold setFlatRun
    split
    · exact ⟨rfl, by simp⟩
    · exact ⟨rfl, slotsRun_conforms m (fresh m) (fresh_conforms m) _ (fun ps => setFlatRun_conforms sep m (fresh m) ps (fresh_conforms m)) _ _⟩
  | .array h prune m, e, ps, _ => by
    cases m with
    | scalar hm t => unfold setFlatRun; exact ⟨rfl, arrayMembersRun_conforms sep h.name prune hm t ps⟩
    | dict => exact ⟨rfl, by simp⟩
    | list => exact ⟨rfl, by simp⟩
    | array => exact ⟨rfl, by simp⟩
theorem fieldsRun_conforms (sep : PStr) (mode : DictMode) : ∀ (fs : List Schema) (ks : List Elem) (ps : List FPair), ConformsAll mode fs ks →
    ConformsAll mode fs (fieldsRun sep fs ks ps).1
  | [], ks, _, _ => by simp [fieldsRun, ConformsAll]
  | f :: fs, [], ps, h => by simp [ConformsAll] at h
  | f :: fs, k :: ks, ps, h => by
    have h' := h
    unfold ConformsAll at h'
    have ih := fieldsRun_conforms sep mode fs ks ps h'.2
    unfold fieldsRun
    split
    · exact h
    · rename_i accum _
      have h1 : (let q := if accum.isEmpty then (k, .ok ()) else setFlatRun sep f (orFresh f k) accum
          (q.1 = .absent ∧ autoField mode f = false) ∨ Conforms f q.1) := by
        by_cases he : accum.isEmpty = true
        · simp only [he, if_true]; exact h'.1
        · simp only [he, if_false, Bool.false_eq_true]
          exact .inr (setFlatRun_conforms sep f _ accum (orFresh_conforms h'.1))
      simp only [List.headD_cons, List.tail_cons]
      simp only at h1
      generalize (if accum.isEmpty then (k, .ok ()) else setFlatRun sep f (orFresh f k) accum) = q at h1
      rcases q with ⟨b, y | y⟩
      · exact ⟨h1, h'.2⟩
      · exact ⟨h1, ih⟩
end

omit [Runtime] in
theorem conformsAll_set {mode : DictMode} : ∀ {fs : List Schema} {ks : List Elem} {i : Nat} {f : Schema} {e : Elem}, ConformsAll mode fs ks →
    fs[i]? = some f → Conforms f e → ConformsAll mode fs (ks.set i e)
  | [], _, i, _, _, _, h, _ => by simp at h
  | _ :: _, [], _, _, _, h, _, _ => by simp [ConformsAll] at h
  | f :: fs, k :: ks, 0, g, e, h, hf, he => by
    simp only [List.getElem?_cons_zero, Option.some.injEq] at hf
    subst hf
    unfold ConformsAll at h
    exact ⟨.inr he, h.2⟩
  | f :: fs, k :: ks, i + 1, g, e, h, hf, he => by
    simp only [List.getElem?_cons_succ] at hf
    unfold ConformsAll at h
    exact ⟨h.1, conformsAll_set h.2 hf he⟩

omit [Runtime] in
theorem conformsAll_kid {mode : DictMode} : ∀ {fs : List Schema} {ks : List Elem} {i : Nat} {f : Schema}, ConformsAll mode fs ks → fs[i]? = some f →
    Conforms f (orFresh f (ks[i]?.getD .absent))
  | [], _, i, _, _, h => by simp at h
  | _ :: _, [], _, _, h, _ => by simp [ConformsAll] at h
  | f :: fs, k :: ks, 0, g, h, hf => by
    simp only [List.getElem?_cons_zero, Option.some.injEq] at hf
    subst hf
    unfold ConformsAll at h
    exact orFresh_conforms h.1
  | f :: fs, k :: ks, i + 1, g, h, hf => by
    simp only [List.getElem?_cons_succ] at hf ⊢
    unfold ConformsAll at h
    exact conformsAll_kid h.2 hf

omit [Runtime] in
theorem dictSetLoopRun_conforms {mode : DictMode} (fs : List Schema) (policy : Policy) (names : List (Option PStr)) (runners : List SetRunner)
    (hr : ∀ (i : Nat) (r : SetRunner), runners[i]? = some r → ∃ f, fs[i]? = some f ∧ ∀ k v, Conforms f (orFresh f k) → Conforms f (r k v).1) :
    ∀ (pairs : List (Except PyErr (PyVal × PyVal))) (kids : List Elem) (seen : List Nat) (c : Bool), ConformsAll mode fs kids →
    ConformsAll mode fs (dictSetLoopRun policy names runners kids seen c pairs).1
  | [], kids, seen, c, h => h
  | .error er :: _, kids, seen, c, h => h
  | .ok (k, v) :: rest, kids, seen, c, h => by
    unfold dictSetLoopRun
    cases fieldPos names k with
    | error er => exact h
    | ok o => cases o with
      | none =>
        by_cases hp : policy = .duck
        · simp only [hp, if_true]; rw [← hp]; exact dictSetLoopRun_conforms fs policy names runners hr rest kids seen c h
        · simp only [hp, if_false]; exact h
      | some i =>
        cases hi : runners[i]? with
        | none => simp only [hi]; exact h
        | some run =>
          obtain ⟨f, hf, hrun⟩ := hr i run hi
          have h1 := hrun (kids[i]?.getD .absent) v (conformsAll_kid h hf)
          simp only [hi]
          generalize run (kids[i]?.getD .absent) v = q at h1
          rcases q with ⟨b, y | y⟩
          · exact conformsAll_set h hf h1
          · exact dictSetLoopRun_conforms fs policy names runners hr rest _ _ _ (conformsAll_set h hf h1)

omit [Runtime] in
theorem membersRun_conforms (m : Schema) (run : PyVal → Ended Elem Bool) (h : ∀ v, Conforms m (run v).1) : ∀ (vs : List PyVal) (es : List Elem) (b : Bool),
    membersRun run vs = .ok (es, b) → ∀ k ∈ es, Conforms m k
  | [], es, b, hm => by simp only [membersRun, Except.ok.injEq, Prod.mk.injEq] at hm; rw [← hm.1]; simp
  | v :: vs, es, b, hm => by
    have h1 := h v
    unfold membersRun at hm
    simp only at hm
    generalize run v = q at h1 hm
    rcases q with ⟨a, y | y⟩
    · simp at hm
    · simp only at hm
      cases hr : membersRun run vs with
      | error er => rw [hr] at hm; simp at hm
      | ok p =>
        rw [hr] at hm
        obtain ⟨es', b'⟩ := p
        simp only [Except.ok.injEq, Prod.mk.injEq] at hm
        rw [← hm.1]
        intro k hk
        rcases List.mem_cons.1 hk with rfl | hk
        · exact h1
        · exact membersRun_conforms m run h vs es' b' hr k hk

omit [Runtime] in
theorem seqSetRun_conforms (m : Schema) (run : PyVal → Ended Elem Bool) (h : ∀ v, Conforms m (run v).1) (v : PyVal) :
    ∀ k ∈ (seqSetRun run v).1, Conforms m k := by
  unfold seqSetRun
  split
  · simp
  · split
    · simp
    · simp
    · rename_i hm; exact membersRun_conforms m run h _ _ _ hm

omit [Runtime] in
theorem extendRun_conforms (m : Schema) (run : PyVal → Ended Elem Bool) (h : ∀ v, Conforms m (run v).1) : ∀ vs : List PyVal,
    ∀ k ∈ (extendRun run vs).1, Conforms m k
  | [] => by simp [extendRun]
  | v :: vs => by
    have ih := extendRun_conforms m run h vs
    have h1 := h v
    unfold extendRun
    simp only
    generalize run v = q at h1
    rcases q with ⟨a, y | y⟩
    · simp
    · intro k hk
      rcases List.mem_cons.1 hk with rfl | hk
      · exact h1
      · exact ih k hk

omit [Runtime] in
theorem repeatRun_conforms (s : Schema) (m : Ended Elem Unit) (h : Conforms s m.1) : ∀ n : Nat, ∀ k ∈ (repeatRun m n).1, Conforms s k
  | 0 => by simp [repeatRun]
  | n + 1 => by
    have ih := repeatRun_conforms s m h n
    unfold repeatRun
    split
    · intro k hk; rw [List.mem_singleton.1 hk]; exact h
    · intro k hk
      rcases List.mem_cons.1 hk with rfl | hk
      · exact h
      · exact ih k hk

mutual
theorem setRun_conforms : ∀ (s : Schema) (e : Elem) (v : PyVal), Conforms s e → Conforms s (setRun s e v).1
  | .scalar h t, e, v, _ => by unfold setRun; rfl
  | .dict h mode policy fields, e, v, hc => by
    unfold setRun dictSetRun
    split
    · exact hc
    · exact ⟨rfl, dictSetLoopRun_conforms fields policy _ _ (fieldRunners_conforms fields) _ _ _ _ (freshFields_conforms mode fields)⟩
  | .list h prune max m, e, v, _ => by
    unfold setRun
    exact ⟨rfl, seqSetRun_conforms m _ (fun v => setRun_conforms m (fresh m) v (fresh_conforms m)) v⟩
  | .array h prune m, e, v, _ => by
    unfold setRun
    exact ⟨rfl, seqSetRun_conforms m _ (fun v => setRun_conforms m (fresh m) v (fresh_conforms m)) v⟩
theorem fieldRunners_conforms : ∀ (fs : List Schema) (i : Nat) (r : SetRunner), (fieldRunners fs)[i]? = some r →
    ∃ f, fs[i]? = some f ∧ ∀ k v, Conforms f (orFresh f k) → Conforms f (r k v).1
  | [], i, r, h => by simp [fieldRunners] at h
  | f :: fs, 0, r, h => by
    simp only [fieldRunners, List.getElem?_cons_zero, Option.some.injEq] at h
    subst h
    exact ⟨f, rfl, fun k v hk => setRun_conforms f (orFresh f k) v hk⟩
  | f :: fs, i + 1, r, h => by
    simp only [fieldRunners, List.getElem?_cons_succ] at h ⊢
    exact fieldRunners_conforms fs i r h
end

mutual
theorem setDefaultRun_conforms : ∀ (s : Schema) (e : Elem), Conforms s e → Conforms s (setDefaultRun s e).1
  | .scalar h t, e, hc => by
    unfold setDefaultRun
    split
    · exact hc
    · rfl
  | .dict h mode policy fields, e, hc => by
    have hs : ∀ d, Conforms (.dict h mode policy fields) (forget (setRun (.dict h mode policy fields) e d)).1 :=
      fun d => setRun_conforms (.dict h mode policy fields) e d hc
    unfold setDefaultRun
    cases mode with
    | full =>
      cases e with
      | dict n ks =>
        have hn := defaultKidsRun_conforms fields ks (by simpa [Conforms] using hc.2)
        cases hd : h.dflt with
        | none => exact ⟨rfl, hn⟩
        | some d => cases d <;> first | exact hs _ | exact ⟨rfl, hn⟩
      | scalar => exact hc.elim
      | list => exact hc.elim
      | array => exact hc.elim
      | absent => exact hc.elim
    | sparse =>
      have hn := freshFields_conforms .sparse fields
      cases hd : h.dflt with
      | none => exact ⟨rfl, hn⟩
      | some d => cases d <;> first | exact hs _ | exact ⟨rfl, hn⟩
    | sparseRequired =>
      have hn := defaultRequiredKidsRun_conforms fields
      cases hd : h.dflt with
      | none => exact ⟨rfl, hn⟩
      | some d => cases d <;> first | exact hs _ | exact ⟨rfl, hn⟩
  | .list h prune max m, e, hc => by
    have hs : ∀ d, Conforms (.list h prune max m) (forget (setRun (.list h prune max m) (.list h.name []) d)).1 :=
      fun d => setRun_conforms (.list h prune max m) (.list h.name []) d ⟨rfl, by simp⟩
    have hr := repeatRun_conforms m _ (setDefaultRun_conforms m (fresh m) (fresh_conforms m))
    unfold setDefaultRun
    split
    · exact hc
    · exact hc
    · split
      · exact ⟨rfl, hr _⟩
      · exact hs _
  | .array h prune m, e, hc => by
    have hr := extendRun_conforms m _ (fun v => setRun_conforms m (fresh m) v (fresh_conforms m))
    unfold setDefaultRun
    split
    · exact hc
    · exact hc
    · split
      · exact ⟨rfl, by simp⟩
      · exact ⟨rfl, hr _⟩
theorem defaultKidsRun_conforms : ∀ (fs : List Schema) (ks : List Elem), ConformsAll .full fs ks → ConformsAll .full fs (defaultKidsRun fs ks).1
  | [], ks, h => by unfold defaultKidsRun; exact h
  | _ :: _, [], h => by simp [ConformsAll] at h
  | f :: fs, k :: ks, h => by
    unfold ConformsAll at h
    have hk : Conforms f k := by
      rcases h.1 with h1 | h1
      · simp [autoField] at h1
      · exact h1
    have h1 := setDefaultRun_conforms f k hk
    unfold defaultKidsRun
    simp only
    split
    · exact ⟨.inr h1, h.2⟩
    · exact ⟨.inr h1, defaultKidsRun_conforms fs ks h.2⟩
theorem defaultRequiredKidsRun_conforms : ∀ fs : List Schema, ConformsAll .sparseRequired fs (defaultRequiredKidsRun fs).1
  | [] => by simp [defaultRequiredKidsRun, ConformsAll]
  | f :: fs => by
    have ih := defaultRequiredKidsRun_conforms fs
    unfold defaultRequiredKidsRun
    by_cases ho : f.hdr.optional = true
    · simp only [ho, if_true]
      exact ⟨.inl ⟨rfl, by simp [autoField, ho]⟩, ih⟩
    · simp only [ho, if_false, Bool.false_eq_true]
      split
      · exact ⟨.inr (fresh_conforms f), freshFields_conforms .sparseRequired fs⟩
      · exact ⟨.inr (setDefaultRun_conforms f (fresh f) (fresh_conforms f)), ih⟩
end

theorem fillStep_conforms (sep : PStr) (s : Schema) (e : Elem) (h : Conforms s e) : ∀ op : FillOp, Conforms s (fillStep sep s e op)
  | .set v => setRun_conforms s e v h
  | .setFlat _ => setFlatRun_conforms sep s e _ h
  | .setDefault => setDefaultRun_conforms s e h

theorem fillRun_conforms (sep : PStr) (s : Schema) : ∀ (ops : List FillOp) (e : Elem), Conforms s e → Conforms s (fillRun sep s e ops)
  | [], _, h => h
  | op :: ops, e, h => fillRun_conforms sep s ops _ (fillStep_conforms sep s e h op)

/-! ### where a call stopped -/

theorem fieldsRun_stopped (sep : PStr) : ∀ (fs : List Schema) (ks ks' : List Elem) (ps : List FPair) (er : PyErr), ks.length = fs.length →
    fieldsRun sep fs ks ps = (ks', .error er) →
    ∃ j, j < fs.length ∧ ks'.length = ks.length ∧ ks'.drop (j + 1) = ks.drop (j + 1) ∧
      fieldsRun sep (fs.take j) (ks.take j) ps = (ks'.take j, .ok ()) ∧
      ∃ f k k', fs[j]? = some f ∧ ks[j]? = some k ∧ ks'[j]? = some k' ∧
        ((k' = k ∧ accumField f.name ps = .error er) ∨ ∃ qs, accumField f.name ps = .ok qs ∧ setFlatRun sep f (orFresh f k) qs = (k', .error er))
  | [], ks, ks', ps, er, _, h => by simp [fieldsRun] at h
  | f :: fs, [], ks', ps, er, hl, h => by simp at hl
  | f :: fs, k :: ks, ks', ps, er, hl, h => by
    unfold fieldsRun at h
    cases ha : accumField f.name ps with
    | error er' =>
      rw [ha] at h
      simp only [Prod.mk.injEq] at h
      rw [← h.1]
      cases h.2
      exact ⟨0, by simp, rfl, rfl, rfl, f, k, k, rfl, rfl, rfl, .inl ⟨rfl, ha⟩⟩
    | ok accum =>
      rw [ha] at h
      simp only [List.headD_cons, List.tail_cons] at h
      cases hq : (if accum.isEmpty then (k, .ok ()) else setFlatRun sep f (orFresh f k) accum) with
      | mk b y =>
        rw [hq] at h
        cases y with
        | error er' =>
          simp only [Prod.mk.injEq] at h
          rw [← h.1]
          cases h.2
          refine ⟨0, by simp, by simp, rfl, rfl, f, k, b, rfl, rfl, rfl, .inr ⟨accum, ha, ?_⟩⟩
          split at hq
          · cases hq
          · exact hq
        | ok u =>
          simp only [Prod.mk.injEq] at h
          obtain ⟨j, hj, hlen, hd, ht, g, l, l', g1, g2, g3, g4⟩ := fieldsRun_stopped sep fs ks (fieldsRun sep fs ks ps).1 ps er (by simpa using hl) (Prod.ext rfl h.2)
          rw [← h.1]
          refine ⟨j + 1, by simp; omega, by simp [hlen], by simpa using hd, ?_, g, l, l', by simpa using g1, by simpa using g2, by simpa using g3, g4⟩
          simp only [List.take_succ_cons]
          conv => lhs; unfold fieldsRun
          rw [ha]
          simp only [List.headD_cons, List.tail_cons, hq, ht]

omit [Runtime] in
theorem slotsRun_stopped (blank : Elem) (step : Elem → List FPair → Ended Elem Unit) (ms : List (Nat × FPair)) : ∀ (is : List Nat) (ks : List Elem)
    (er : PyErr), slotsRun blank step ms is = (ks, .error er) →
    ∃ n, ks.length = n + 1 ∧ n < is.length ∧ slotsRun blank step ms (is.take n) = (ks.dropLast, .ok ()) ∧
      ∃ k qs, ks.getLast? = some k ∧ step blank qs = (k, .error er)
  | [], ks, er, h => by simp [slotsRun] at h
  | i :: is, ks, er, h => by
    unfold slotsRun at h
    simp only at h
    cases hq : (if (subPairs ms i).isEmpty then (blank, .ok ()) else step blank (subPairs ms i)) with
    | mk b y =>
      rw [hq] at h
      cases y with
      | error er' =>
        simp only [Prod.mk.injEq] at h
        rw [← h.1]
        cases h.2
        refine ⟨0, by simp, by simp, rfl, b, subPairs ms i, rfl, ?_⟩
        split at hq
        · cases hq
        · exact hq
      | ok u =>
        simp only [Prod.mk.injEq] at h
        obtain ⟨n, hn, hlt, ht, k, qs, g1, g2⟩ := slotsRun_stopped blank step ms is (slotsRun blank step ms is).1 er (Prod.ext rfl h.2)
        rw [← h.1]
        refine ⟨n + 1, by simp [hn], by simp; omega, ?_, k, qs, by rw [List.getLast?_cons, g1]; rfl, g2⟩
        rw [List.take_succ_cons, slotsRun]
        simp only [hq, ht]
        cases hk : (slotsRun blank step ms is).1 with
        | nil => rw [hk] at hn; simp at hn
        | cons a l => simp

end

section
variable [Runtime]

theorem fieldRunners_eq : ∀ fs : List Schema, fieldRunners fs = fs.map fun f k v => setRun f (orFresh f k) v
  | [] => by simp [fieldRunners]
  | f :: fs => by rw [fieldRunners, fieldRunners_eq fs]; rfl

omit [Runtime] in
theorem extendRun_stopped {run : PyVal → Ended Elem Bool} (setter : Setter) (h : ∀ v, (run v).both = setter v) : ∀ (vs : List PyVal) (ks : List Elem) (er : PyErr),
    extendRun run vs = (ks, .error er) →
    ∃ j x k er' b, vs[j]? = some x ∧ run x = (k, .error er') ∧ memberSetLoop setter (vs.take j) = .ok (ks, b)
  | [], ks, er, hr => by simp [extendRun] at hr
  | v :: vs, ks, er, hr => by
    unfold extendRun at hr
    simp only at hr
    have hv := h v
    cases hq : run v with
    | mk b y =>
      rw [hq] at hr hv
      cases y with
      | error er' =>
        simp only [Prod.mk.injEq] at hr
        rw [← hr.1]
        exact ⟨0, v, b, er', true, rfl, hq, rfl⟩
      | ok u =>
        simp only [Prod.mk.injEq] at hr
        obtain ⟨j, x, k, er', c, h1, h2, h3⟩ := extendRun_stopped setter h vs (extendRun run vs).1 er (Prod.ext rfl hr.2)
        rw [← hr.1]
        refine ⟨j + 1, x, k, er', u && c, by simpa using h1, h2, ?_⟩
        have hv' : setter v = .ok (b, u) := hv.symm
        rw [List.take_succ_cons, memberSetLoop, hv']
        simp only [h3]

theorem defaultKidsRun_stopped : ∀ (fs : List Schema) (ks ks' : List Elem) (er : PyErr), ConformsAll .full fs ks →
    defaultKidsRun fs ks = (ks', .error er) →
    ∃ j, j < fs.length ∧ ks'.length = ks.length ∧ ks'.drop (j + 1) = ks.drop (j + 1) ∧
      defaultKids (fs.take j) (ks.take j) = .ok (ks'.take j) ∧
      ∃ f k k', fs[j]? = some f ∧ ks[j]? = some k ∧ ks'[j]? = some k' ∧ ∃ er, setDefaultRun f k = (k', .error er)
  | [], ks, ks', er, _, h => by simp [defaultKidsRun] at h
  | f :: fs, [], ks', er, hc, h => by simp [ConformsAll] at hc
  | f :: fs, k :: ks, ks', er, hc, h => by
    rw [ConformsAll] at hc
    have hk : Conforms f k := by
      rcases hc.1 with ⟨_, h⟩ | h
      · simp [autoField] at h
      · exact h
    have ho := setDefaultRun_outcome f k hk
    unfold defaultKidsRun at h
    simp only at h
    cases hq : setDefaultRun f k with
    | mk b y =>
      rw [hq] at h ho
      cases y with
      | error er' =>
        simp only [Prod.mk.injEq] at h
        rw [← h.1]
        exact ⟨0, by simp, by simp, rfl, rfl, f, k, b, rfl, rfl, rfl, er', hq⟩
      | ok u =>
        simp only [Prod.mk.injEq] at h
        obtain ⟨j, hj, hlen, hd, ht, g, l, l', g1, g2, g3, g4⟩ := defaultKidsRun_stopped fs ks (defaultKidsRun fs ks).1 er hc.2 (Prod.ext rfl h.2)
        rw [← h.1]
        refine ⟨j + 1, by simp; omega, by simp [hlen], by simpa using hd, ?_, g, l, l', by simpa using g1, by simpa using g2, by simpa using g3, g4⟩
        have ho' : setDefault f k = .ok b := ho.symm
        rw [List.take_succ_cons, List.take_succ_cons, List.take_succ_cons, defaultKids, ho']
        simp only [ht]

theorem defaultRequiredKidsRun_stopped : ∀ (fs : List Schema) (ks' : List Elem) (er : PyErr), defaultRequiredKidsRun fs = (ks', .error er) →
    ∃ j f, fs[j]? = some f ∧ f.hdr.optional = false ∧ (∃ k er, setDefaultRun f (fresh f) = (k, .error er)) ∧
      freshFields .sparseRequired (fs.drop j) = ks'.drop j ∧ defaultRequiredKids (fs.take j) = .ok (ks'.take j)
  | [], ks', er, h => by simp [defaultRequiredKidsRun] at h
  | f :: fs, ks', er, h => by
    unfold defaultRequiredKidsRun at h
    by_cases hopt : f.hdr.optional = true
    · simp only [hopt, if_true, Prod.mk.injEq] at h
      obtain ⟨j, g, h1, h2, h3, h4, h5⟩ := defaultRequiredKidsRun_stopped fs (defaultRequiredKidsRun fs).1 er (Prod.ext rfl h.2)
      rw [← h.1]
      refine ⟨j + 1, g, by simpa using h1, h2, h3, by simpa using h4, ?_⟩
      rw [List.take_succ_cons, List.take_succ_cons, defaultRequiredKids]
      simp only [hopt, if_true, h5]
    · simp only [hopt, if_false, Bool.false_eq_true] at h
      have ho := setDefaultRun_outcome f (fresh f) (fresh_conforms f)
      cases hq : setDefaultRun f (fresh f) with
      | mk b y =>
        rw [hq] at h ho
        cases y with
        | error er' =>
          simp only [Prod.mk.injEq] at h
          rw [← h.1]
          refine ⟨0, f, rfl, by simpa using hopt, ⟨b, er', hq⟩, ?_, rfl⟩
          rw [List.drop_zero, List.drop_zero, freshFields]
          simp [autoField, hopt]
        | ok u =>
          simp only [Prod.mk.injEq] at h
          obtain ⟨j, g, h1, h2, h3, h4, h5⟩ := defaultRequiredKidsRun_stopped fs (defaultRequiredKidsRun fs).1 er (Prod.ext rfl h.2)
          rw [← h.1]
          refine ⟨j + 1, g, by simpa using h1, h2, h3, by simpa using h4, ?_⟩
          have ho' : setDefault f (fresh f) = .ok b := ho.symm
          rw [List.take_succ_cons, List.take_succ_cons, defaultRequiredKids]
          simp only [hopt, if_false, ho', Bool.false_eq_true, h5]

/-- `Array._set_flat` stops before the pair that raises -/
theorem arrayMembersRun_before (sep : PStr) (name : Option PStr) (prune : Bool) (hm : Hdr) (t : ScalarType) : ∀ {ps : List FPair} {ks : List Elem} {er : PyErr},
    arrayMembersRun sep name prune hm t ps = (ks, .error er) →
    ∃ j, j < ps.length ∧ arrayMembersRun sep name prune hm t (ps.take j) = (ks, .ok ())
  | [], ks, er, h => by simp [arrayMembersRun] at h
  | p :: ps, ks, er, h => by
    unfold arrayMembersRun at h
    cases hp : arrayPick sep name hm.name prune p with
    | error er' =>
      rw [hp] at h
      simp only [Prod.mk.injEq] at h
      exact ⟨0, by simp, by rw [← h.1]; rfl⟩
    | ok o =>
      rw [hp] at h
      cases o with
      | none =>
        obtain ⟨j, h1, h2⟩ := arrayMembersRun_before sep name prune hm t h
        exact ⟨j + 1, by simp; omega, by rw [List.take_succ_cons, arrayMembersRun, hp]; exact h2⟩
      | some key =>
        simp only at h
        cases hq : scalarSetFlatRun hm.name t .fresh [(key, p.2)] with
        | mk b y =>
          rw [hq] at h
          cases y with
          | error er' =>
            simp only [Prod.mk.injEq] at h
            exact ⟨0, by simp, by rw [← h.1]; rfl⟩
          | ok u =>
            simp only [Prod.mk.injEq] at h
            obtain ⟨j, h1, h2⟩ := arrayMembersRun_before sep name prune hm t (ps := ps) (ks := (arrayMembersRun sep name prune hm t ps).1) (er := er) (Prod.ext rfl h.2)
            refine ⟨j + 1, by simp; omega, ?_⟩
            rw [List.take_succ_cons, arrayMembersRun, hp]
            simp only [hq, h2, ← h.1]

end

theorem dictSetLoopRun_stopped (policy : Policy) (names : List (Option PStr)) (runners : List SetRunner) :
    ∀ (pairs : List (Except PyErr (PyVal × PyVal))) (kids kids' : List Elem) (seen : List Nat) (c : Bool) (er : PyErr),
    dictSetLoopRun policy names runners kids seen c pairs = (kids', .error er) →
    ∃ n ks seen' c', n < pairs.length ∧ dictSetLoopRun policy names runners kids seen c (pairs.take n) = (ks, .ok (seen', c')) ∧
      ∃ x, pairs[n]? = some x ∧
      ((kids' = ks ∧ ∀ k v i, x = .ok (k, v) → fieldPos names k = .ok (some i) → runners[i]? = .none) ∨
        ∃ k v i run b, x = .ok (k, v) ∧ fieldPos names k = .ok (some i) ∧ runners[i]? = some run ∧ run (ks[i]?.getD .absent) v = (b, .error er) ∧ kids' = ks.set i b)
  | [], kids, kids', seen, c, er, h => by simp [dictSetLoopRun] at h
  | .error er' :: rest, kids, kids', seen, c, er, h => by
    simp only [dictSetLoopRun, Prod.mk.injEq] at h
    exact ⟨0, kids, seen, c, by simp, rfl, _, rfl, .inl ⟨h.1.symm, by simp⟩⟩
  | .ok (k, v) :: rest, kids, kids', seen, c, er, h => by
    rw [dictSetLoopRun] at h
    cases hp : fieldPos names k with
    | error er' =>
      rw [hp] at h
      simp only [Prod.mk.injEq] at h
      exact ⟨0, kids, seen, c, by simp, rfl, _, rfl, .inl ⟨h.1.symm, by rintro k' v' i he hf; cases he; rw [hp] at hf; cases hf⟩⟩
    | ok o => cases o with
      | none =>
        rw [hp] at h
        by_cases hd : policy = .duck
        · simp only [if_pos hd] at h
          obtain ⟨n, ks, seen', c', hn, ht, x, hx, hk⟩ := dictSetLoopRun_stopped policy names runners rest kids kids' seen c er h
          refine ⟨n + 1, ks, seen', c', by simp; omega, ?_, x, by simpa using hx, hk⟩
          rw [List.take_succ_cons, dictSetLoopRun]
          simp only [hp, if_pos hd]
          exact ht
        · simp only [if_neg hd, Prod.mk.injEq] at h
          exact ⟨0, kids, seen, c, by simp, rfl, _, rfl, .inl ⟨h.1.symm, by rintro k' v' i he hf; cases he; rw [hp] at hf; cases hf⟩⟩
      | some i =>
        rw [hp] at h
        cases hi : runners[i]? with
        | none =>
          simp only [hi, Prod.mk.injEq] at h
          exact ⟨0, kids, seen, c, by simp, rfl, _, rfl, .inl ⟨h.1.symm, by rintro k' v' j he hf; cases he; rw [hp] at hf; cases hf; exact hi⟩⟩
        | some run =>
          simp only [hi] at h
          cases hq : run (kids[i]?.getD .absent) v with
          | mk b y =>
            rw [hq] at h
            cases y with
            | error er' =>
              simp only [Prod.mk.injEq] at h
              cases h.2
              exact ⟨0, kids, seen, c, by simp, rfl, _, rfl, .inr ⟨k, v, i, run, b, rfl, hp, hi, hq, h.1.symm⟩⟩
            | ok ok =>
              simp only at h
              obtain ⟨n, ks, seen', c', hn, ht, x, hx, hk⟩ := dictSetLoopRun_stopped policy names runners rest _ kids' _ _ er h
              refine ⟨n + 1, ks, seen', c', by simp; omega, ?_, x, by simpa using hx, hk⟩
              rw [List.take_succ_cons, dictSetLoopRun]
              simp only [hp, hi, hq]
              exact ht
end Flatland
