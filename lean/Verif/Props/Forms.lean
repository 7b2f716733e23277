import Verif.Proofs.Forms
/-
Property C48: fields of declarative schemas.
-/
namespace Flatland
open Spec

section
variable {N F A : Type} [DecidableEq N] [DecidableEq F]

/-- **C48.** A Form class has at most one field of each name, and the field it has is: the attribute of that name in the class body,
else the one in the class body's `field_schema`, else that of the earliest base which has one.  It has no other fields. -/
theorem C48_fields (fc : FieldClass N F) (hr : Renames fc) (bases : List (List F)) (own : List F) (members : List (N × Member F A))
    (hm : (members.map Prod.fst).Nodup) :
    ((formFields fc bases own members).map fc.name).Nodup ∧
    ∀ f, f ∈ formFields fc bases own members ↔ resolve fc bases own members (fc.name f) = some f := by
  have h := formFields_ok hr bases own members hm
  exact ⟨h.1, fun f => by rw [mem_firstNamed h.1, h.2]⟩

/-- **C48.** Every name declared anywhere has a field. -/
theorem C48_no_name_lost (fc : FieldClass N F) (hr : Renames fc) (bases : List (List F)) (own : List F) (members : List (N × Member F A))
    (hm : (members.map Prod.fst).Nodup) (n : N) :
    (∃ f ∈ formFields fc bases own members, fc.name f = n) ↔
      ((∃ b ∈ bases, ∃ f ∈ b, fc.name f = n) ∨ (∃ f ∈ own, fc.name f = n) ∨ ∃ f, (n, Member.field f) ∈ members) := by
  have h := C48_fields fc hr bases own members hm
  have hres : (∃ f ∈ formFields fc bases own members, fc.name f = n) ↔ (resolve fc bases own members n).isSome := by
    rw [Option.isSome_iff_exists]
    constructor
    · rintro ⟨f, hf, rfl⟩; exact ⟨f, (h.2 f).1 hf⟩
    · rintro ⟨f, hf⟩
      have hn : fc.name f = n := resolve_name hr hf
      exact ⟨f, (h.2 f).2 (by rw [hn]; exact hf), hn⟩
  rw [hres]
  simp only [resolve, Option.isSome_or, Bool.or_eq_true, attributeField_isSome, lastNamed_isSome, firstNamed_isSome, List.mem_flatten]
  constructor
  · rintro (h | h | ⟨f, ⟨b, hb, hf⟩, hn⟩)
    · exact .inr (.inr h)
    · exact .inr (.inl h)
    · exact .inl ⟨b, hb, f, hf, hn⟩
  · rintro (⟨b, hb, f, hf, hn⟩ | h | h)
    · exact .inr (.inr ⟨f, ⟨b, hb, hf⟩, hn⟩)
    · exact .inr (.inl h)
    · exact .inl h

omit [DecidableEq N] [DecidableEq F] in
/-- **C48.** The declared fields are no longer attributes of the class; all other attributes are. -/
theorem C48_attributes_left (members : List (N × Member F A)) (n : N) (a : A) :
    (n, a) ∈ remainingMembers members ↔ (n, Member.other a) ∈ members := by
  induction members with
  | nil => simp [remainingMembers]
  | cons p ms ih =>
    obtain ⟨m, x⟩ := p
    cases x <;> simp [remainingMembers, ih]

/-- **C48.** With single inheritance this is ordinary attribute inheritance: the field of a name is the one declared by the most
derived class that declares it. -/
theorem C48_single_inheritance (fc : FieldClass N F) (hr : Renames fc) (root : List F) (hroot : (root.map fc.name).Nodup)
    (chain : List (List F × List (N × Member F A))) (hm : ∀ d ∈ chain, (d.2.map Prod.fst).Nodup) (n : N) (f : F) :
    let fields := chain.foldl (fun base d => formFields fc [base] d.1 d.2) root
    (f ∈ fields ∧ fc.name f = n) ↔ (chain.reverse.findSome? fun d => declares fc d.1 d.2 n).or (root.find? fun g => decide (fc.name g = n)) = some f := by
  have key : ∀ (chain : List (List F × List (N × Member F A))) (root : List F), (root.map fc.name).Nodup → (∀ d ∈ chain, (d.2.map Prod.fst).Nodup) →
      ((chain.foldl (fun base d => formFields fc [base] d.1 d.2) root).map fc.name).Nodup ∧
      firstNamed fc n (chain.foldl (fun base d => formFields fc [base] d.1 d.2) root) =
        (chain.reverse.findSome? fun d => declares fc d.1 d.2 n).or (firstNamed fc n root) := by
    intro chain
    induction chain with
    | nil => intro root hroot _; exact ⟨hroot, by simp⟩
    | cons d ds ih =>
      intro root hroot hm
      have h := formFields_ok hr [root] d.1 d.2 (hm d (by simp))
      obtain ⟨i1, i2⟩ := ih _ h.1 (fun d' h' => hm d' (by simp [h']))
      refine ⟨i1, ?_⟩
      rw [List.foldl_cons, i2, h.2]
      simp only [List.reverse_cons, List.findSome?_append, resolve, declares, List.flatten_cons, List.flatten_nil, List.append_nil, List.findSome?_cons,
        List.findSome?_nil, Option.or_assoc]
      congr 1
      cases attributeField fc n d.2 <;> cases lastNamed fc n d.1 <;> simp
  obtain ⟨h1, h2⟩ := key chain root hroot hm
  have h3 : (root.find? fun g => decide (fc.name g = n)) = firstNamed fc n root := rfl
  show (f ∈ chain.foldl (fun base d => formFields fc [base] d.1 d.2) root ∧ fc.name f = n) ↔ _
  rw [h3, ← h2]
  constructor
  · rintro ⟨hf, rfl⟩; exact (mem_firstNamed h1 f).1 hf
  · intro h
    have hn : fc.name f = n := by simpa using List.find?_some h
    subst hn
    exact ⟨(mem_firstNamed h1 f).2 h, rfl⟩

/-- **C48.** In a whole program, whatever its inheritance graph, no class has two fields of one name. -/
theorem C48_program_one_per_name (fc : FieldClass N F) (hr : Renames fc) (decls : List (FormDecl N F A))
    (hm : ∀ d ∈ decls, (d.members.map Prod.fst).Nodup) : ∀ fields ∈ formProgram fc [] decls, (fields.map fc.name).Nodup := by
  suffices H : ∀ done : List (List F), (∀ fs ∈ done, (fs.map fc.name).Nodup) → ∀ fields ∈ formProgram fc done decls, (fields.map fc.name).Nodup from
    H [] (by simp)
  induction decls with
  | nil => exact fun done h => h
  | cons d ds ih =>
    intro done h
    rw [formProgram]
    refine ih (fun d' h' => hm d' (by simp [h'])) _ ?_
    intro fs hfs
    rcases List.mem_append.1 hfs with hfs | hfs
    · exact h fs hfs
    · simp only [List.mem_singleton] at hfs
      subst hfs
      exact (formFields_ok hr _ _ _ (hm d (by simp))).1
end

/-! Examples: a field is its name and its type. -/
section
def formExampleFields : FieldClass String (String × Nat) := ⟨Prod.fst, fun f n => (n, f.2)⟩

example : Renames formExampleFields := fun _ _ => rfl

/-- base one has `a` and `b`, base two `b` and `c`; `field_schema` gives `c`, the body `a` (an unnamed type) and something else -/
example : formFields formExampleFields [[("a", 1), ("b", 1)], [("b", 2), ("c", 2)]] [("c", 3), ("d", 3)] [("a", .field ("", 4)), ("x", .other ())]
    = [("b", 1), ("c", 3), ("d", 3), ("a", 4)] := by decide

/-- A(x = 1), B(A), C(A, x = 2), D(B, C) -/
def formDiamond : List (FormDecl String (String × Nat) Unit) :=
  [⟨[], [], [("x", .field ("x", 1))]⟩, ⟨[0], [], []⟩, ⟨[0], [], [("x", .field ("x", 2))]⟩, ⟨[1, 2], [], []⟩]

/-- **C48, the limit.** With a diamond the fields do not follow "normal Python class property inheritance semantics": Python's
resolution order for D is D, B, C, A, so an attribute `x` would come from C; the field comes from A, through B. -/
theorem C48_diamond_differs :
    (formProgram formExampleFields [] formDiamond)[3]? = some [("x", 1)] ∧ lookupAlong formExampleFields formDiamond "x" [3, 1, 2, 0] = some ("x", 2) := by decide
end

end Flatland
