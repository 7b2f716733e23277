import Verif.Spec.ValueSet
import Verif.Proofs.Values
/-! Lemmas about `set` on whole element trees. -/
namespace Flatland
open Spec

theorem pyIter_items (v : PyVal) : pyIter v = match itemsOf v with | some xs => .ok xs | .none => .error .type := by
  cases v <;> rfl

/-- an entry as the model has it -/
def Spec.Entry.asPair : Entry → Except PyErr (PyVal × PyVal)
  | .pair k v => .ok (k, v)
  | .bad er => .error er

theorem unpackPair_entry (x : PyVal) : unpackPair x = (entryOf x).asPair := by
  unfold unpackPair entryOf
  rw [pyIter_items]
  cases itemsOf x with
  | none => rfl
  | some xs =>
    match xs with
    | [] => rfl
    | [_] => rfl
    | [_, _] => rfl
    | _ :: _ :: _ :: _ => rfl

theorem valuePairs_entries (v : PyVal) :
    valuePairs v = match entriesOf v with | some l => .ok (l.map Entry.asPair) | .none => .error .type := by
  cases v with
  | dict kvs => simp [valuePairs, entriesOf, Entry.asPair, Function.comp_def]
  | list xs => simp [valuePairs, entriesOf, itemsOf, pyIter, Function.comp_def, ← unpackPair_entry]
  | str t => simp [valuePairs, entriesOf, itemsOf, pyIter, Function.comp_def, ← unpackPair_entry]
  | _ => rfl

section
variable [Runtime]

/-- one entry: nothing, or the element and result for a field -/
def stepEntry (pol : Policy) (fs : List Schema) (x : Entry) : Except PyErr (Option (Nat × Elem × Bool)) :=
  match x with
  | .bad er => .error er
  | .pair k v => match fieldPos (fs.map Schema.name) k with
    | .error er => .error er
    | .ok .none => if pol = .duck then .ok .none else .error .key
    | .ok (some i) => match fs[i]? with
      | .none => .error .key
      | some f => match setVal f v with
        | .error er => .error er
        | .ok (e, b) => .ok (some (i, e, b))

theorem dictSetLoop_cons (pol : Policy) (fs : List Schema) (kids : List Elem) (seen : List Nat) (c : Bool) (x : Entry) (l : List Entry) :
    dictSetLoop pol (fs.map Schema.name) (fieldSetters fs) kids seen c ((x :: l).map Entry.asPair) =
      match stepEntry pol fs x with
      | .error er => .error er
      | .ok .none => dictSetLoop pol (fs.map Schema.name) (fieldSetters fs) kids seen c (l.map Entry.asPair)
      | .ok (some (i, e, b)) => dictSetLoop pol (fs.map Schema.name) (fieldSetters fs) (kids.set i e) (i :: seen) (c && b) (l.map Entry.asPair) := by
  cases x with
  | bad er => rfl
  | pair k v =>
    rw [List.map_cons, Entry.asPair, dictSetLoop, stepEntry]
    cases hp : fieldPos (fs.map Schema.name) k with
    | error er => rfl
    | ok o =>
      cases o with
      | none => simp only []; split <;> simp_all
      | some i =>
        simp only [fieldSetters_eq, List.getElem?_map]
        cases fs[i]? with
        | none => rfl
        | some f =>
          simp only [Option.map_some]
          cases setVal f v with
          | error er => rfl
          | ok r => rfl

omit [Runtime] in
theorem fieldPos_spec (fs : List Schema) (hn : (fs.map Schema.name).Nodup) (k : PyVal) :
    (Unhashable k ∧ fieldPos (fs.map Schema.name) k = .error .type) ∨
    (¬ Unhashable k ∧ Unknown fs k ∧ fieldPos (fs.map Schema.name) k = .ok .none) ∨
    (∃ i f n, ¬ Unhashable k ∧ k = .str n ∧ fs[i]? = some f ∧ f.name = some n ∧ fieldPos (fs.map Schema.name) k = .ok (some i)) := by
  cases k with
  | list => exact .inl ⟨trivial, rfl⟩
  | dict => exact .inl ⟨trivial, rfl⟩
  | str n =>
    by_cases h : some n ∈ fs.map Schema.name
    · refine .inr (.inr ?_)
      obtain ⟨f, hf, hfn⟩ := List.mem_map.1 h
      obtain ⟨fs₁, fs₂, rfl⟩ := List.append_of_mem hf
      refine ⟨fs₁.length, f, n, id, rfl, by simp, hfn, ?_⟩
      exact fieldPos_at fs₁ f fs₂ hn n hfn
    · refine .inr (.inl ⟨id, ?_, ?_⟩)
      · intro f hf m hm e
        cases e
        exact h (List.mem_map.2 ⟨f, hf, hm⟩)
      · simp only [fieldPos, Except.ok.injEq]
        rw [List.findIdx?_eq_none_iff]
        intro x hx
        rw [beq_eq_false_iff_ne]
        rintro rfl
        exact h hx
  | _ => exact .inr (.inl ⟨id, by intro _ _ _ _; simp, rfl⟩)

omit [Runtime] in
theorem same_field {fs : List Schema} (hn : (fs.map Schema.name).Nodup) {i j : Nat} {f g : Schema} (hi : fs[i]? = some f) (hj : fs[j]? = some g)
    (h : f.name = g.name) : i = j := by
  have h1 : (fs.map Schema.name)[i]? = some f.name := by simp [hi]
  have h2 : (fs.map Schema.name)[j]? = some f.name := by simp [hj, h]
  have hl : i < (fs.map Schema.name).length := by
    have := (List.getElem?_eq_some_iff.1 h1).1; exact this
  exact (List.getElem?_inj hl hn).1 (h1.trans h2.symm)

/-- the three things that can happen at an entry -/
theorem stepEntry_spec (pol : Policy) (fs : List Schema) (hn : (fs.map Schema.name).Nodup) (x : Entry) :
    (∃ er, StopsAt pol fs x er ∧ (∀ er', StopsAt pol fs x er' → er' = er) ∧ stepEntry pol fs x = .error er) ∨
    ((∀ er, ¬ StopsAt pol fs x er) ∧ (∀ f ∈ fs, ∀ v, ¬ Supplies f x v) ∧ stepEntry pol fs x = .ok .none) ∨
    (∃ i f v e b, (∀ er, ¬ StopsAt pol fs x er) ∧ fs[i]? = some f ∧ Supplies f x v ∧ setVal f v = .ok (e, b) ∧
      stepEntry pol fs x = .ok (some (i, e, b))) := by
  cases x with
  | bad er =>
    refine .inl ⟨er, .bad er, fun er' h => ?_, rfl⟩
    cases h with
    | bad => rfl
    | field _ h _ => obtain ⟨_, _, h⟩ := h; cases h
  | pair k v =>
    rcases fieldPos_spec fs hn k with ⟨hu, hp⟩ | ⟨hu, hk, hp⟩ | ⟨i, f, n, hu, rfl, hi, hfn, hp⟩
    · refine .inl ⟨.type, .unhashable hu, fun er' h => ?_, by simp [stepEntry, hp]⟩
      cases h with
      | unhashable => rfl
      | unknown h => exact absurd hu h
      | field _ h _ => obtain ⟨_, _, h⟩ := h; cases h; exact hu.elim
    · have nosup : ∀ f ∈ fs, ∀ w, ¬ Supplies f (.pair k v) w := by
        rintro f hf w ⟨n, hn', e⟩
        cases e
        exact hk f hf n hn' rfl
      by_cases hd : pol = .duck
      · refine .inr (.inl ⟨fun er h => ?_, nosup, by simp [stepEntry, hp, hd]⟩)
        cases h with
        | unhashable h => exact hu h
        | unknown _ _ h => exact h hd
        | field hf h _ => exact nosup _ hf _ h
      · refine .inl ⟨.key, .unknown hu hk hd, fun er' h => ?_, by simp [stepEntry, hp, hd]⟩
        cases h with
        | unhashable h => exact absurd h hu
        | unknown => rfl
        | field hf h _ => exact (nosup _ hf _ h).elim
    · have uniq : ∀ g ∈ fs, ∀ w, Supplies g (.pair (.str n) v) w → g = f ∧ w = v := by
        rintro g hg w ⟨m, hm, e⟩
        cases e
        obtain ⟨j, hj⟩ := List.getElem?_of_mem hg
        have := same_field hn hi hj (hfn.trans hm.symm)
        subst this
        rw [hi] at hj
        exact ⟨(Option.some.inj hj).symm, rfl⟩
      have hfm : f ∈ fs := List.mem_of_getElem? hi
      have only : ∀ er', StopsAt pol fs (.pair (.str n) v) er' → setVal f v = .error er' := by
        intro er' h
        cases h with
        | unhashable h => exact hu.elim h
        | unknown _ h _ => exact (h f hfm n hfn rfl).elim
        | field hg hs he => obtain ⟨rfl, rfl⟩ := uniq _ hg _ hs; exact he
      cases hs : setVal f v with
      | error er =>
        refine .inl ⟨er, .field hfm ⟨n, hfn, rfl⟩ hs, fun er' h => ?_, by simp [stepEntry, hp, hi, hs]⟩
        have := only er' h
        rw [hs] at this
        exact (Except.error.inj this).symm
      | ok r =>
        obtain ⟨e, b⟩ := r
        refine .inr (.inr ⟨i, f, v, e, b, fun er h => ?_, hi, ⟨n, hfn, rfl⟩, hs, by simp [stepEntry, hp, hi, hs]⟩)
        have := only er h
        rw [hs] at this
        cases this

/-- the loop of `Dict.set` stops at the first entry that stops it -/
theorem dictSetLoop_stops (pol : Policy) (fs : List Schema) (hn : (fs.map Schema.name).Nodup) (pre : List Entry) (x : Entry) (post : List Entry)
    (er : PyErr) (hpre : ∀ y ∈ pre, ∀ er', ¬ StopsAt pol fs y er') (hx : StopsAt pol fs x er) (kids : List Elem) (seen : List Nat) (c : Bool) :
    dictSetLoop pol (fs.map Schema.name) (fieldSetters fs) kids seen c ((pre ++ x :: post).map Entry.asPair) = .error er := by
  induction pre generalizing kids seen c with
  | nil =>
    rw [List.nil_append, dictSetLoop_cons]
    rcases stepEntry_spec pol fs hn x with ⟨er', h1, h2, h3⟩ | ⟨h1, _⟩ | ⟨_, _, _, _, _, h1, _⟩
    · rw [h3, h2 er hx]
    · exact (h1 er hx).elim
    · exact (h1 er hx).elim
  | cons y pre ih =>
    rw [List.cons_append, dictSetLoop_cons]
    rcases stepEntry_spec pol fs hn y with ⟨er', h1, _⟩ | ⟨_, _, h3⟩ | ⟨_, _, _, _, _, _, _, _, _, h3⟩
    · exact (hpre y (by simp) er' h1).elim
    · rw [h3]; exact ih (fun z hz => hpre z (by simp [hz])) ..
    · rw [h3]; exact ih (fun z hz => hpre z (by simp [hz])) ..

/-- what is at a field afterwards: the last value supplied, or what was there -/
def LeftFrom (f : Schema) (l : List Entry) (old kid : Elem) : Prop :=
  (Unsupplied f l ∧ kid = old) ∨
  ∃ pre x post v b, l = pre ++ x :: post ∧ Supplies f x v ∧ Unsupplied f post ∧ setVal f v = .ok (kid, b)

theorem leftFrom_cons_none {f : Schema} {x : Entry} {l : List Entry} {old kid : Elem} (hx : ∀ v, ¬ Supplies f x v) (h : LeftFrom f l old kid) :
    LeftFrom f (x :: l) old kid := by
  rcases h with ⟨h1, h2⟩ | ⟨pre, y, post, v, b, rfl, h1⟩
  · exact .inl ⟨fun y hy => by rcases List.mem_cons.1 hy with rfl | hy; exact hx; exact h1 y hy, h2⟩
  · exact .inr ⟨x :: pre, y, post, v, b, rfl, h1⟩

theorem leftFrom_cons_some {f : Schema} {x : Entry} {l : List Entry} {old kid e : Elem} {v : PyVal} {b : Bool} (hx : Supplies f x v)
    (he : setVal f v = .ok (e, b)) (h : LeftFrom f l e kid) : LeftFrom f (x :: l) old kid := by
  rcases h with ⟨h1, rfl⟩ | ⟨pre, y, post, v, b, rfl, h1⟩
  · exact .inr ⟨[], x, l, v, b, rfl, hx, h1, he⟩
  · exact .inr ⟨x :: pre, y, post, v, b, rfl, h1⟩

theorem dictSetLoop_runs (pol : Policy) (fs : List Schema) (hn : (fs.map Schema.name).Nodup) (l : List Entry)
    (hl : ∀ y ∈ l, ∀ er', ¬ StopsAt pol fs y er') (kids : List Elem) (seen : List Nat) (c : Bool) (hk : kids.length = fs.length) :
    ∃ kids' seen' c', dictSetLoop pol (fs.map Schema.name) (fieldSetters fs) kids seen c (l.map Entry.asPair) = .ok (kids', seen', c') ∧
      kids'.length = fs.length ∧
      (∀ (i : Nat) (f : Schema) (old : Elem), fs[i]? = some f → kids[i]? = some old → ∃ kid, kids'[i]? = some kid ∧ LeftFrom f l old kid) ∧
      (∀ i : Nat, i ∈ seen' ↔ i ∈ seen ∨ ∃ f x v, fs[i]? = some f ∧ x ∈ l ∧ Supplies f x v) ∧
      (c' = true ↔ c = true ∧ ∀ x ∈ l, ∀ f ∈ fs, ∀ v e b, Supplies f x v → setVal f v = .ok (e, b) → b = true) := by
  induction l generalizing kids seen c with
  | nil =>
    refine ⟨kids, seen, c, rfl, hk, fun i f old hi ho => ⟨old, ho, .inl ⟨by simp [Unsupplied], rfl⟩⟩, by simp, by simp⟩
  | cons x l ih =>
    rw [dictSetLoop_cons]
    have hl' : ∀ y ∈ l, ∀ er', ¬ StopsAt pol fs y er' := fun y hy => hl y (by simp [hy])
    rcases stepEntry_spec pol fs hn x with ⟨er', h1, _⟩ | ⟨_, h2, h3⟩ | ⟨i, f, v, e, b, _, hi, hs, he, h3⟩
    · exact (hl x (by simp) er' h1).elim
    · rw [h3]
      obtain ⟨kids', seen', c', g1, g2, g3, g4, g5⟩ := ih hl' kids seen c hk
      refine ⟨kids', seen', c', g1, g2, ?_, ?_, ?_⟩
      · intro i f old hi ho
        obtain ⟨kid, k1, k2⟩ := g3 i f old hi ho
        exact ⟨kid, k1, leftFrom_cons_none (h2 f (List.mem_of_getElem? hi)) k2⟩
      · intro i
        rw [g4]
        constructor
        · rintro (h | ⟨f, y, v, a, b, d⟩)
          · exact .inl h
          · exact .inr ⟨f, y, v, a, by simp [b], d⟩
        · rintro (h | ⟨f, y, v, a, b, d⟩)
          · exact .inl h
          · rcases List.mem_cons.1 b with rfl | b
            · exact (h2 f (List.mem_of_getElem? a) v d).elim
            · exact .inr ⟨f, y, v, a, b, d⟩
      · rw [g5]
        constructor
        · rintro ⟨a, b⟩
          refine ⟨a, fun y hy f hf v e b' s => ?_⟩
          rcases List.mem_cons.1 hy with rfl | hy
          · exact (h2 f hf v s).elim
          · exact b y hy f hf v e b' s
        · rintro ⟨a, b⟩
          exact ⟨a, fun y hy => b y (by simp [hy])⟩
    · rw [h3]
      have hfm : f ∈ fs := List.mem_of_getElem? hi
      have uniq : ∀ (j : Nat) g w, fs[j]? = some g → Supplies g x w → j = i ∧ g = f ∧ w = v := by
        rintro j g w hj ⟨n, gn, rfl⟩
        obtain ⟨m, fm, e⟩ := hs
        cases e
        have := same_field hn hj hi (gn.trans fm.symm)
        subst this
        rw [hi] at hj
        exact ⟨rfl, (Option.some.inj hj).symm, rfl⟩
      obtain ⟨kids', seen', c', g1, g2, g3, g4, g5⟩ := ih hl' (kids.set i e) (i :: seen) (c && b) (by simp [hk])
      refine ⟨kids', seen', c', g1, g2, ?_, ?_, ?_⟩
      · intro j g old hj ho
        by_cases hij : j = i
        · subst hij
          rw [hi] at hj
          cases hj
          obtain ⟨kid, k1, k2⟩ := g3 j f e hi (by
            rw [List.getElem?_set_self]
            exact (List.getElem?_eq_some_iff.1 ho).1)
          exact ⟨kid, k1, leftFrom_cons_some hs he k2⟩
        · obtain ⟨kid, k1, k2⟩ := g3 j g old hj (by rw [List.getElem?_set_ne (Ne.symm hij)]; exact ho)
          exact ⟨kid, k1, leftFrom_cons_none (fun w hw => hij (uniq j g w hj hw).1) k2⟩
      · intro j
        rw [g4]
        constructor
        · rintro (h | ⟨g, y, w, a, b, d⟩)
          · rcases List.mem_cons.1 h with rfl | h
            · exact .inr ⟨f, x, v, hi, by simp, hs⟩
            · exact .inl h
          · exact .inr ⟨g, y, w, a, by simp [b], d⟩
        · rintro (h | ⟨g, y, w, a, b, d⟩)
          · exact .inl (by simp [h])
          · rcases List.mem_cons.1 b with rfl | b
            · exact .inl (by simp [(uniq j g w a d).1])
            · exact .inr ⟨g, y, w, a, b, d⟩
      · rw [g5]
        constructor
        · rintro ⟨a, b'⟩
          rw [Bool.and_eq_true] at a
          refine ⟨a.1, fun y hy g hg w e' b'' s se => ?_⟩
          rcases List.mem_cons.1 hy with rfl | hy
          · obtain ⟨j, hj⟩ := List.getElem?_of_mem hg
            obtain ⟨_, rfl, rfl⟩ := uniq j g w hj s
            rw [he] at se
            cases se
            exact a.2
          · exact b' y hy g hg w e' b'' s se
        · rintro ⟨a, b'⟩
          refine ⟨?_, fun y hy => b' y (by simp [hy])⟩
          rw [a, b' x (by simp) f hfm v e b hs he]
          rfl

omit [Runtime] in
theorem freshFields_map (mode : DictMode) (fs : List Schema) : freshFields mode fs = fs.map (unsuppliedField mode) := by
  induction fs with
  | nil => rfl
  | cons f fs ih =>
    rw [freshFields, ih, List.map_cons]
    congr 1
    unfold autoField unsuppliedField
    cases mode <;> simp <;> grind

omit [Runtime] in
/-- the first entry that stops, if there is one -/
theorem first_stop (P : Entry → Prop) : ∀ l : List Entry, (∀ y ∈ l, ¬ P y) ∨ ∃ pre x post, l = pre ++ x :: post ∧ (∀ y ∈ pre, ¬ P y) ∧ P x
  | [] => .inl (by simp)
  | x :: l => by
    by_cases h : P x
    · exact .inr ⟨[], x, l, rfl, by simp, h⟩
    · rcases first_stop P l with h' | ⟨pre, y, post, rfl, h1, h2⟩
      · exact .inl (by simpa [h] using h')
      · exact .inr ⟨x :: pre, y, post, rfl, by simpa [h] using h1, h2⟩

/-! ### sequences -/

omit [Runtime] in
theorem memberSetLoop_ok {E : Type} (s : SetterOf E) (vs : List PyVal) (r : List (E × Bool)) (h : vs.map s = r.map .ok) :
    memberSetLoop s vs = .ok (r.map Prod.fst, r.all Prod.snd) := by
  induction vs generalizing r with
  | nil => cases r with
    | nil => rfl
    | cons => simp at h
  | cons v vs ih =>
    cases r with
    | nil => simp at h
    | cons x r =>
      simp only [List.map_cons, List.cons.injEq] at h
      obtain ⟨e, b⟩ := x
      rw [memberSetLoop, h.1]
      simp only
      rw [ih r h.2]
      rfl

omit [Runtime] in
theorem memberSetLoop_error {E : Type} (s : SetterOf E) (pre : List PyVal) (w : PyVal) (post : List PyVal) (er : PyErr) (hp : ∀ x ∈ pre, ∃ y, s x = .ok y)
    (hw : s w = .error er) : memberSetLoop s (pre ++ w :: post) = .error er := by
  induction pre with
  | nil => rw [List.nil_append, memberSetLoop, hw]
  | cons x pre ih =>
    obtain ⟨⟨e, b⟩, hy⟩ := hp x (by simp)
    rw [List.cons_append, memberSetLoop, hy]
    simp only
    rw [ih (fun z hz => hp z (by simp [hz]))]

end
end Flatland
