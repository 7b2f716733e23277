import Verif.Proofs.Equality
import Verif.Proofs.Properties
/-
Properties C46 and C47: class and instance properties.
-/
namespace Flatland
open Spec

section
variable {C D I K V : Type} [DecidableEq C] [DecidableEq D] [DecidableEq I] [DecidableEq K]

/-! ### C46 -/

/-- **C46.** Whatever was written, deleted, cleared, popped or updated before, through whichever classes and instances, every
operation gives the result, and every place then shows the values, of the specification: a class shows what the most derived class
that said something about the key said last (deleted: nothing), an instance what it said itself, else what its class shows. -/
theorem C46_history (w : PropWorld C D I K V) (hw : SelfFirst w) (ho : OwnDeclarations w) (ps : List (PropStep C I K V)) (hp : ∀ p ∈ ps, Regular p) :
    (propRun w (propStart w) ps).2 = (specRun w (startMarks w) ps).2 ∧
    ∀ t k, propGet w (propRun w (propStart w) ps).1 t k = sees w (specRun w (startMarks w) ps).1 t k := by
  have := run_agrees hw ho ps hp (start_agrees w hw)
  exact ⟨this.1, fun t k => propGet_sees hw ho this.2 t k⟩

/-- **C46.** After any history at all: `items()` lists every readable key once, with the value that indexing gives, and `keys()`,
`values()`, `in`, `copy()` and truth go with it. -/
theorem C46_views_agree (w : PropWorld C D I K V) (ps : List (PropStep C I K V)) (t : PropTarget C I) :
    let s := (propRun w (propStart w) ps).1
    (propKeys w s t).Nodup ∧
    (∀ k v, (k, v) ∈ propItems w s t ↔ propGet w s t k = some v) ∧
    (∀ k, k ∈ propKeys w s t ↔ ∃ v, propGet w s t k = some v) ∧
    (∀ v, v ∈ propValues w s t ↔ ∃ k, propGet w s t k = some v) ∧
    (∀ k, propHas w s t k = (propGet w s t k).isSome) ∧
    (∀ k, dictGet (propCopy w s t) k = propGet w s t k) ∧
    (propBool w s t = true ↔ ∃ k v, propGet w s t k = some v) := by
  intro s
  have hs : LocalsOk s := run_ok w (start_ok w) ps
  have key : (propKeys w s t).Nodup ∧ ∀ k v, (k, v) ∈ propItems w s t ↔ propGet w s t k = some v := by
    cases t with
    | cls c =>
      simp only [propKeys, propItems, propGet]
      cases descriptorOf w c with
      | none => simp
      | some d => exact ⟨frameItems_nodup _ _, fun k v => by
        have := frameItems_mem [] (typeFrames w s d (w.mro c)) k v
        simp only [List.not_mem_nil, not_false_eq_true, true_and] at this
        exact this⟩
    | inst i =>
      simp only [propKeys, propItems, propGet]
      cases descriptorOf w (w.classOf i) with
      | none => simp
      | some d =>
        have hi := hs i
        cases hl : s.locals i with
        | overlay f => rw [hl] at hi; exact overlayItems_spec w s d _ f hi
        | replaced e => rw [hl] at hi; exact ⟨hi, fun k v => dictGet_mem hi k v⟩
  obtain ⟨h1, h2⟩ := key
  have hk : ∀ k, k ∈ propKeys w s t ↔ ∃ v, propGet w s t k = some v := fun k => by
    constructor
    · intro h
      obtain ⟨⟨k', v⟩, hm, rfl⟩ := List.mem_map.1 h
      exact ⟨v, (h2 _ _).1 hm⟩
    · rintro ⟨v, h⟩
      exact List.mem_map.2 ⟨(k, v), (h2 _ _).2 h, rfl⟩
  have hc : ∀ k, dictGet (propCopy w s t) k = propGet w s t k := fun k => by
    have hu : dictUpdate [] (propItems w s t) = propCopy w s t := rfl
    rw [← hu, update_get _ _ h1]
    simp only [dictGet, Option.or_none]
    cases hg : propGet w s t k with
    | some v => exact (dictGet_mem h1 k v).1 ((h2 k v).2 hg)
    | none =>
      apply dictGet_none.2
      intro h
      obtain ⟨v, hv⟩ := (hk k).1 h
      simp [hg] at hv
  refine ⟨h1, h2, hk, fun v => ?_, fun k => ?_, hc, ?_⟩
  · constructor
    · intro h
      obtain ⟨⟨k, v'⟩, hm, rfl⟩ := List.mem_map.1 h
      exact ⟨k, (h2 _ _).1 hm⟩
    · rintro ⟨k, h⟩
      exact List.mem_map.2 ⟨(k, v), (h2 _ _).2 h, rfl⟩
  · rw [propHas, Bool.eq_iff_iff, decide_eq_true_iff, hk, Option.isSome_iff_exists]
  · rw [propBool]
    constructor
    · intro h
      cases hcp : propCopy w s t with
      | nil => simp [hcp] at h
      | cons p e =>
        obtain ⟨k, v⟩ := p
        refine ⟨k, v, ?_⟩
        rw [← hc, hcp]; simp [dictGet]
    · rintro ⟨k, v, h⟩
      rw [← hc] at h
      cases hcp : propCopy w s t with
      | nil => simp [hcp, dictGet] at h
      | cons => simp

theorem dictEqBy_iff [DecidableEq V] {a b : PyDict K V} (ha : (dictKeys a).Nodup) (hb : (dictKeys b).Nodup) :
    dictEqBy (fun x y => decide (x = y)) a b = true ↔ ∀ k, dictGet a k = dictGet b k := by
  have hn : ∀ {d : PyDict K V}, (dictKeys d).Nodup → d.Nodup := fun {d} h => by
    have : (d.map Prod.fst).Nodup := h
    rw [List.nodup_iff_pairwise_ne, List.pairwise_map] at this
    rw [List.nodup_iff_pairwise_ne]
    exact this.imp fun {_ _} h e => h (congrArg Prod.fst e)
  simp only [dictEqBy, Bool.and_eq_true, beq_iff_eq, List.all_eq_true]
  constructor
  · rintro ⟨hl, h⟩ k
    have hsub : ∀ p ∈ a, p ∈ b := by
      rintro ⟨x, v⟩ hp
      have := h _ hp
      simp only at this
      cases hg : dictGet b x with
      | none => rw [hg] at this; cases this
      | some y =>
        rw [hg] at this
        simp only [decide_eq_true_eq] at this
        subst this
        exact (dictGet_mem hb x v).2 hg
    have hsub' := subset_of_nodup a b (hn ha) hsub (by omega)
    apply Option.ext
    intro v
    rw [← dictGet_mem ha, ← dictGet_mem hb]
    exact ⟨hsub _, hsub' _⟩
  · intro h
    have hm : ∀ p, p ∈ a ↔ p ∈ b := fun p => by rw [dictGet_mem ha, dictGet_mem hb, h]
    refine ⟨((List.perm_ext_iff_of_nodup (hn ha) (hn hb)).2 hm).length_eq, ?_⟩
    rintro ⟨x, v⟩ hp
    rw [(dictGet_mem hb x v).1 ((hm _).1 hp)]
    simp

/-- **C46.** After any history: properties equal a dict exactly if they have the same keys with the same values, and `!=` is the opposite; the
properties of two classes or elements are equal exactly if they read the same. -/
theorem C46_equality [DecidableEq V] (w : PropWorld C D I K V) (ps : List (PropStep C I K V)) (t t' : PropTarget C I) (other : PyDict K V)
    (ho : (dictKeys other).Nodup) :
    let s := (propRun w (propStart w) ps).1
    (propEqDict (fun x y => decide (x = y)) w s t other = true ↔ ∀ k, propGet w s t k = dictGet other k) ∧
    propNeDict (fun x y => decide (x = y)) w s t other = !propEqDict (fun x y => decide (x = y)) w s t other ∧
    (propEqProps (fun x y => decide (x = y)) w s t t' = true ↔ ∀ k, propGet w s t k = propGet w s t' k) := by
  intro s
  have hc := fun t => (C46_views_agree w ps t).2.2.2.2.2.1
  have hn : ∀ t, (dictKeys (propCopy w s t)).Nodup := fun t => dictOf_nodup _
  refine ⟨?_, rfl, ?_⟩
  · rw [propEqDict, dictEqBy_iff (hn t) ho]
    exact forall_congr' fun k => by rw [hc t k]
  · rw [propEqProps, propEqDict, dictEqBy_iff (hn t') (hn t)]
    exact forall_congr' fun k => by rw [hc t k, hc t' k]; exact eq_comm

/-- **C46.** A value written through a class is what the class shows; a key deleted through it is gone (KeyError), until written
again.  The same for an instance. -/
theorem C46_read_after_write (w : PropWorld C D I K V) (hw : SelfFirst w) (s : PropState C D I K V) (t : PropTarget C I) (k : K) (v : V)
    (ht : match t with | .cls c => descriptorOf w c ≠ none | .inst i => descriptorOf w (w.classOf i) ≠ none) :
    let step := fun op => match t with | .cls c => propStep w s (.cls c op) | .inst i => propStep w s (.inst i op)
    propGet w (step (.set k v)).1 t k = some v ∧
    ((step (.del k)).2 = .done → (∀ i e, t = .inst i → s.locals i = .replaced e → (dictKeys e).Nodup) → propGet w (step (.del k)).1 t k = none) := by
  intro step
  have hbase : ∀ c d x, descriptorOf w c = some d → typeGet w (putBase w s d c (dictPut (baseFrame w s d c) k x)) d c k = x := by
    intro c d x hd
    obtain ⟨cs, hcs⟩ := hw c
    simp only [typeGet, hcs, typeFrames, putBase]
    by_cases hm : w.member c = some d
    · simp only [if_pos hm, if_true, frameGet, dictGet_put]
    · simp only [if_neg hm, and_self, if_true, frameGet, dictGet_put]
  cases t with
  | cls c =>
    simp only [ne_eq] at ht
    obtain ⟨d, hd⟩ := Option.ne_none_iff_exists'.1 ht
    constructor
    · simp only [step, propStep, hd, typeOp, propGet]
      exact hbase c d _ hd
    · simp only [step, propStep, hd, typeOp]
      intro h _
      cases hg : typeGet w s d c k with
      | none => simp [hg] at h
      | some x =>
        simp only [propGet, hd]
        exact hbase c d none hd
  | inst i =>
    simp only [ne_eq] at ht
    obtain ⟨d, hd⟩ := Option.ne_none_iff_exists'.1 ht
    cases hl : s.locals i with
    | overlay f =>
      constructor
      · simp [step, propStep, hd, instanceOp, hl, overlayOp, propGet, putLocal, overlayGet, dictGet_put]
      · simp only [step, propStep, hd, instanceOp, hl, overlayOp]
        intro h _
        cases hg : overlayGet w s d (w.classOf i) f k with
        | none => simp [hg] at h
        | some x => simp [propGet, hd, putLocal, overlayGet, dictGet_put]
    | replaced e =>
      constructor
      · simp [step, propStep, hd, instanceOp, hl, plainOp, propGet, putLocal, dictGet_put]
      · simp only [step, propStep, hd, instanceOp, hl, plainOp]
        intro h hn
        cases hg : dictGet e k with
        | none => simp [hg] at h
        | some x => simp [propGet, hd, putLocal, dictGet_del _ _ _ (hn i e rfl hl)]

omit [DecidableEq I] in
/-- **C46.** `setdefault` on a class, which the history theorem leaves out, looks at the class's own entries only: with none, the
default is written and returned, whatever the class inherits; with a deleted one, the internal `Deleted` mark is returned. -/
theorem C46_class_setdefault (w : PropWorld C D I K V) (s : PropState C D I K V) (d : D) (c : C) (k : K) (v : V) :
    typeOp w s d c (.setdefault k v) = match dictGet (baseFrame w s d c) k with
      | none => ((typeOp w s d c (.set k v)).1, .value (some v))
      | some x => (s, .value x) := by
  simp only [typeOp]
  cases dictGet (baseFrame w s d c) k <;> rfl

/-! ### C47 -/

/-- **C47.** No operation through a class changes what is seen at a class that does not inherit from it - its superclasses,
unrelated classes - or at instances of such classes. -/
theorem C47_class_isolated (w : PropWorld C D I K V) (ho : OwnDeclarations w) (s : PropState C D I K V) (c : C) (op : PropOp K V) :
    (∀ c', c ∉ w.mro c' → ∀ k, propGet w (propStep w s (.cls c op)).1 (.cls c') k = propGet w s (.cls c') k ∧
      propItems w (propStep w s (.cls c op)).1 (.cls c') = propItems w s (.cls c')) ∧
    (∀ i, c ∉ w.mro (w.classOf i) → ∀ k, propGet w (propStep w s (.cls c op)).1 (.inst i) k = propGet w s (.inst i) k ∧
      propItems w (propStep w s (.cls c op)).1 (.inst i) = propItems w s (.inst i)) := by
  simp only [propStep]
  cases hd : descriptorOf w c with
  | none => simp
  | some d =>
    obtain ⟨h1, h2⟩ := typeOp_frames ho s d c op
    constructor
    · intro c' hc k
      simp only [propGet, propItems, typeGet, typeItems, h2 _ _ hc, and_self]
    · intro i hc k
      simp only [propGet, propItems, h1, overlayGet, overlayItems, typeGet, typeItems, h2 _ _ hc, and_self]

omit [DecidableEq D] in
theorem specRun_append (w : PropWorld C D I K V) (ps qs : List (PropStep C I K V)) (m : Marks C I K V) :
    (specRun w m (ps ++ qs)).1 = (specRun w (specRun w m ps).1 qs).1 := by
  induction ps generalizing m with
  | nil => rfl
  | cons p ps ih => exact ih _

/-- **C47.** What is set through a class is seen at every class inheriting from it that has nothing closer said about the key.  (With
`C47_class_isolated`: exactly there.) -/
theorem C47_class_inherited (w : PropWorld C D I K V) (hw : SelfFirst w) (ho : OwnDeclarations w) (ps : List (PropStep C I K V)) (hp : ∀ p ∈ ps, Regular p)
    (c c' : C) (k : K) (v : V) (before after : List C) (hd : declarer w c' ≠ none) (hscope : scope w c' = before ++ c :: after)
    (hb : ∀ a ∈ before, a ≠ c ∧ (specRun w (startMarks w) ps).1.cls a k = none) :
    propGet w (propRun w (propStart w) (ps ++ [.cls c (.set k v)])).1 (.cls c') k = some v := by
  rw [(C46_history w hw ho _ (by intro p hm; rcases List.mem_append.1 hm with h | h; exact hp p h; simp at h; subst h; trivial)).2, specRun_append]
  have hc : declarer w c = declarer w c' := by
    have : c ∈ scope w c' := by rw [hscope]; simp
    simpa using (List.mem_filter.1 this).2
  generalize (specRun w (startMarks w) ps).1 = m at hb
  have hs : (declarer w c').isSome := by
    cases h : declarer w c' with
    | none => exact absurd h hd
    | some o => rfl
  have hnone : (before.findSome? fun a => (markClass m c k (some (some v))).cls a k) = none := by
    rw [List.findSome?_eq_none_iff]
    intro a ha
    simp [markClass, hb a ha]
  simp only [specRun, specStep, hc, hs, if_true, specOp, mark, sees, classSees, classMark, hscope, List.findSome?_append, hnone]
  simp [markClass]

/-- **C47.** No operation through an instance but `pop` changes what is seen at any class or at any other instance; nor does assigning
`instance.properties`. -/
theorem C47_instance_isolated (w : PropWorld C D I K V) (s : PropState C D I K V) (i : I) (p : PropStep C I K V)
    (hp : (∃ op, p = .inst i op ∧ ∀ k x, op ≠ .pop k x) ∨ ∃ pairs, p = .assign i pairs) :
    (∀ c k, propGet w (propStep w s p).1 (.cls c) k = propGet w s (.cls c) k ∧ propItems w (propStep w s p).1 (.cls c) = propItems w s (.cls c)) ∧
    (∀ j, j ≠ i → ∀ k, propGet w (propStep w s p).1 (.inst j) k = propGet w s (.inst j) k ∧ propItems w (propStep w s p).1 (.inst j) = propItems w s (.inst j)) := by
  have key : (propStep w s p).1 = s ∨ ∃ l, (propStep w s p).1 = putLocal s i l := by
    rcases hp with ⟨op, rfl, hop⟩ | ⟨pairs, rfl⟩
    · simp only [propStep]
      cases descriptorOf w (w.classOf i) with
      | none => exact .inl rfl
      | some d =>
        simp only [instanceOp]
        cases s.locals i with
        | overlay f =>
          cases op with
          | get k => exact .inl rfl
          | set k v => exact .inr ⟨_, rfl⟩
          | del k => simp only [overlayOp]; split <;> first | exact .inl rfl | exact .inr ⟨_, rfl⟩
          | clear => exact .inr ⟨_, rfl⟩
          | pop k x => exact absurd rfl (hop k x)
          | setdefault k v =>
            simp only [overlayOp]
            split
            · exact .inl rfl
            · split <;> first | exact .inl rfl | exact .inr ⟨_, rfl⟩
          | update pairs => exact .inr ⟨_, rfl⟩
        | replaced e =>
          cases op with
          | get k => exact .inl rfl
          | set k v => exact .inr ⟨_, rfl⟩
          | del k => simp only [plainOp]; split <;> first | exact .inl rfl | exact .inr ⟨_, rfl⟩
          | clear => exact .inr ⟨_, rfl⟩
          | pop k x => exact absurd rfl (hop k x)
          | setdefault k v => simp only [plainOp]; split <;> first | exact .inl rfl | exact .inr ⟨_, rfl⟩
          | update pairs => exact .inr ⟨_, rfl⟩
    · exact .inr ⟨_, rfl⟩
  rcases key with h | ⟨l, h⟩
  · simp [h]
  · rw [h]
    constructor
    · intro c k
      simp only [propGet, propItems, typeGet, typeItems, putLocal_frames, and_self]
    · intro j hj k
      have : (putLocal s i l).locals j = s.locals j := by simp [putLocal, hj]
      simp only [propGet, propItems, this, overlayGet, overlayItems, typeGet, typeItems, putLocal_frames, and_self]

end

/-! ### examples and counterexamples -/

section

/-- classes 0 (declares `properties`), 1 (a subclass of 0), 2 (a subclass of 1), 3 (another subclass of 0); the instance `true` is of
class 2, `false` of class 3.  The declaration starts with key 7 at 70. -/
def exampleWorld : PropWorld Nat Nat Bool Nat Nat where
  mro c := if c = 2 then [2, 1, 0] else if c = 1 then [1, 0] else if c = 3 then [3, 0] else [c]
  member c := if c = 0 then some 100 else none
  initial _ := [(7, 70)]
  classOf i := if i then 2 else 3

example : SelfFirst exampleWorld := by
  intro c
  simp only [exampleWorld]
  split
  · exact ⟨_, by simp_all; rfl⟩
  · split
    · exact ⟨_, by simp_all; rfl⟩
    · split
      · exact ⟨_, by simp_all; rfl⟩
      · exact ⟨_, rfl⟩

example : OwnDeclarations exampleWorld := by
  intro a b d h1 h2
  simp only [exampleWorld] at h1 h2
  split at h1 <;> split at h2 <;> simp_all

/-- writes and deletes at several levels -/
def exampleSteps : List (PropStep Nat Bool Nat Nat) :=
  [.cls 1 (.set 7 71), .cls 0 (.set 8 80), .inst true (.set 8 81), .cls 2 (.del 7), .cls 3 (.get 7), .inst true (.get 7), .cls 1 (.clear), .cls 0 (.update [(9, 90)])]

example : ∀ p ∈ exampleSteps, Regular p := by simp [exampleSteps, Regular]
example : (propRun exampleWorld (propStart exampleWorld) exampleSteps).2 =
    [.done, .done, .done, .done, .value (some 70), .keyError, .done, .done] := by decide
example : let s := (propRun exampleWorld (propStart exampleWorld) exampleSteps).1
    propItems exampleWorld s (.inst true) = [(8, 81), (9, 90)] ∧ propItems exampleWorld s (.cls 1) = [(9, 90)] ∧
    propItems exampleWorld s (.cls 3) = [(7, 70), (8, 80), (9, 90)] := by decide

/-- equality does not look at the order, but at values and at missing keys -/
example : let s := (propRun exampleWorld (propStart exampleWorld) exampleSteps).1
    propEqDict (fun x y => decide (x = y)) exampleWorld s (.inst true) [(9, 90), (8, 81)] = true ∧
    propEqDict (fun x y => decide (x = y)) exampleWorld s (.inst true) [(9, 90)] = false ∧
    propEqDict (fun x y => decide (x = y)) exampleWorld s (.inst true) [(9, 90), (8, 80)] = false := by decide

/-- **C46**, not so for `setdefault` on a class: an inherited value is hidden by the default; after a deletion, the internal mark comes
out. -/
theorem C46_setdefault_hides_inherited :
    (propRun exampleWorld (propStart exampleWorld) [.cls 1 (.setdefault 7 5), .cls 1 (.get 7), .cls 1 (.del 7), .cls 1 (.setdefault 7 6), .cls 1 (.get 7)]).2 =
      [.value (some 5), .value (some 5), .done, .value none, .keyError] := by decide

/-- **C46**, not so for `setdefault` on an instance after a deletion: nothing is set, the internal mark comes out. -/
theorem C46_instance_setdefault_after_delete :
    (propRun exampleWorld (propStart exampleWorld) [.inst true (.del 7), .inst true (.setdefault 7 6), .inst true (.get 7)]).2 =
      [.done, .value none, .keyError] := by decide

/-- **C47**, not so for `pop` on an instance: a key the instance has not written is deleted from its class, for all other instances too;
one that it deleted comes back. -/
theorem C47_instance_pop_reaches_class :
    (propRun exampleWorld (propStart exampleWorld) [.inst true (.pop 7 none), .cls 2 (.get 7)]).2 = [.value (some 70), .keyError] ∧
    (propRun exampleWorld (propStart exampleWorld) [.inst true (.del 7), .inst true (.pop 7 none), .inst true (.get 7)]).2 =
      [.done, .value none, .value (some 70)] := by decide

/-- classes 0 and 1, unrelated, given the same `Properties` object -/
def sharedWorld : PropWorld Nat Nat Bool Nat Nat where
  mro c := [c]
  member _ := some 100
  initial _ := []
  classOf _ := 0

/-- **C47**: a `Properties` object given to two classes (`using(properties=p)`) is shared: writes to one are seen at the other. -/
theorem C47_shared_declaration_leaks :
    (propRun sharedWorld (propStart sharedWorld) [.cls 0 (.set 7 1), .cls 1 (.get 7)]).2 = [.done, .value (some 1)] := by decide

/-- classes 0 (declares), 1 (a subclass, declares anew), 2 (another subclass of 0), 3 (a subclass of 2 and 1) -/
def diamondWorld : PropWorld Nat Nat Bool Nat Nat where
  mro c := if c = 3 then [3, 2, 1, 0] else if c = 2 then [2, 0] else if c = 1 then [1, 0] else [c]
  member c := if c = 0 then some 100 else if c = 1 then some 101 else none
  initial _ := []
  classOf _ := 3

/-- **C46**: only classes that use the same declaration count.  A value set through a base class that uses another declaration is not
seen, though it comes earlier in the MRO. -/
theorem C46_other_declaration_not_seen :
    (propRun diamondWorld (propStart diamondWorld) [.cls 2 (.set 7 1), .cls 3 (.get 7), .cls 1 (.set 7 2), .cls 3 (.get 7)]).2 =
      [.done, .keyError, .done, .value (some 2)] := by decide

end

end Flatland
