import Verif.Proofs.Submissions
import Verif.Props.FormValidation

/-! ## C76 – submitted forms -/

namespace Flatland
open Spec

section
variable [Runtime]

/-- **C76.** What a submission does to a field that is reached through Dicts (and is there): the first value submitted under the field's
key – the names on the way to it, joined – is set; without one the field keeps value and text.  No other pair matters to it. -/
theorem C76_field (sep : PStr) (s : Schema) (p : Pos) (key : PStr) (h : Hdr) (t : ScalarType) (hf : FieldOf sep s p key h t)
    (e : Elem) (hc : Conforms s e) (n : Option PStr) (st : ScalarState) (he : elemAt e p = some (.scalar n st))
    (ps : List (PStr × PStr)) (e' : Elem) (hset : setFlat sep s e (texts ps) = .ok e') :
    ∃ st', elemAt e' p = some (.scalar h.name st') ∧ st'.value = (afterSubmission t st (submitted key ps)).value ∧
      st'.u = (afterSubmission t st (submitted key ps)).u :=
  field_after hf e hc n st he ps e' hset

/-- **C76 (missing fields).** A field that is required and not named by the submission makes the form invalid – if it has no validators, or if
one of them rejects it blank – whatever else is submitted, whatever validators the other elements have. -/
theorem C76_missing (sep : PStr) (s : Schema) (p : Pos) (key : PStr) (h : Hdr) (t : ScalarType) (hf : FieldOf sep s p key h t)
    (hthere : (elemAt (fresh s) p).isSome) (ps : List (PStr × PStr)) (hno : ∀ kv ∈ ps, kv.1 ≠ key) (e : Elem) (hset : fromFlat sep s ps = .ok e)
    (rules : Pos → FieldRules) (hreq : (rules p).optional = false)
    (hrej : (rules p).validators = [] ∨ ∃ r ∈ (rules p).validators, ¬ Passes e p r)
    (ha : ∀ p k, elemAt e p = some k → Answers e p (rules p).validators ∧ (containerElem k = true → Answers e p (rules p).descent))
    (st : VState Pos (Pos → List PStr)) :
    ∃ r n, (∀ m, n ≤ m → validateForm e rules m st = some r) ∧ r.result = .ok false ∧ r.state.flag p = .no := by
  obtain ⟨k, hk⟩ := Option.isSome_iff_exists.1 hthere
  obtain ⟨st0, rfl⟩ := fieldOf_elem hf (fresh s) (fresh_conforms s) k hk
  obtain ⟨st', he, hv, hu⟩ := field_after hf (fresh s) (fresh_conforms s) _ st0 hk ps e hset
  rw [submitted_none hno] at hv hu
  have hfr := fieldOf_fresh hf _ hk
  cases hfr
  have hne : e ≠ .absent := by rintro rfl; simp [elemAt] at he
  have hobey : ¬ Obeys e rules p (.scalar h.name st') := by
    rintro (⟨ho, _⟩ | ⟨h1, h2, _⟩)
    · rw [hreq] at ho; cases ho
    · rcases hrej with hr | ⟨r, hr, hr'⟩
      · refine h2 hr ?_
        simp only [IsBlank, hv, hu, afterSubmission, ScalarState.fresh, FalseValue]
        simp
      · exact hr' (h1 r hr)
  obtain ⟨r, b, n, hr1, hr2, hr3, hr4, _⟩ := C74_validate e hne rules ha st
  refine ⟨r, n, hr1, ?_, (hr4 p _ he).2.1 hobey⟩
  cases b with
  | false => exact hr2
  | true => exact absurd (hr3.1 rfl p _ he) hobey

/-- **C76 (unreadable text).** A text that the field's type cannot read makes the form invalid if Converted is among the field's validators,
be the field optional or not (blank texts excepted if it is), and the field keeps the text to show it again. -/
theorem C76_unreadable (repr : PStr → PStr) (noter : Elem → Pos → Noter) (sep : PStr) (s : Schema) (p : Pos) (key : PStr) (h : Hdr) (t : ScalarType)
    (hf : FieldOf sep s p key h t) (hthere : (elemAt (fresh s) p).isSome) (ps : List (PStr × PStr)) (v : PStr) (hsub : submitted key ps = some v)
    (hbad : t.adapt (.str v) = .error .adaptation) (e : Elem) (hset : fromFlat sep s ps = .ok e) (rules : Pos → FieldRules)
    (hreq : (rules p).optional = false ∨ v ≠ []) (hrej : checkRule repr .converted noter ∈ (rules p).validators)
    (ha : ∀ p k, elemAt e p = some k → Answers e p (rules p).validators ∧ (containerElem k = true → Answers e p (rules p).descent))
    (st : VState Pos (Pos → List PStr)) :
    ∃ r n, (∀ m, n ≤ m → validateForm e rules m st = some r) ∧ r.result = .ok false ∧ r.state.flag p = .no ∧
      ∃ st', elemAt e p = some (.scalar h.name st') ∧ st'.value = .none ∧ st'.u = v := by
  obtain ⟨k, hk⟩ := Option.isSome_iff_exists.1 hthere
  obtain ⟨st0, rfl⟩ := fieldOf_elem hf (fresh s) (fresh_conforms s) k hk
  obtain ⟨st', he, hv, hu⟩ := field_after hf (fresh s) (fresh_conforms s) _ st0 hk ps e hset
  rw [hsub] at hv hu
  simp only [afterSubmission, scalarSet, hbad] at hv hu
  have hne : e ≠ .absent := by rintro rfl; simp [elemAt] at he
  have hobey : ¬ Obeys e rules p (.scalar h.name st') := by
    rintro (⟨ho, hb⟩ | ⟨h1, _, _⟩)
    · rcases hreq with hr | hr
      · rw [hr] at ho; cases ho
      · exact hr (hu ▸ hb.1)
    · have := h1 _ hrej
      have hc := (C40_exact (checked repr (.scalar h.name st')) .converted trivial).2 (by simp [Meets, checked, elemValue, hv])
      simp only [Passes, checkRule, he] at this
      have h' : runValidator (checked repr (.scalar h.name st')) .converted = .ok .none := this
      rw [hc] at h'
      cases h'
  obtain ⟨r, b, n, hr1, hr2, hr3, hr4, _⟩ := C74_validate e hne rules ha st
  refine ⟨r, n, hr1, ?_, (hr4 p _ he).2.1 hobey, st', he, hv, hu⟩
  cases b with
  | false => exact hr2
  | true => exact absurd (hr3.1 rfl p _ he) hobey

/-- **C76 (exactly).** A form of fields in Dicts, filled from a submission and validated with the validators of the package, is valid
iff for every field what was submitted for it meets the field's requirements: it is blank and the field optional, or all the
requirements are met – or, if there are none, it is not blank.  So pairs that no field is named by never matter. -/
theorem C76_valid (repr : PStr → PStr) (sep : PStr) (s : Schema) (hs : PlainForm s) (ps : List (PStr × PStr)) (e : Elem) (hset : fromFlat sep s ps = .ok e)
    (rules : Pos → FieldRules) (checks : Pos → List Check) (noter : Elem → Pos → Noter)
    (hv : ∀ p, (rules p).validators = (checks p).map fun c => checkRule repr c noter) (hd : ∀ p, (rules p).descent = [])
    (hdict : ∀ p, (∀ key h t, ¬ FieldOf sep s p key h t) → checks p = [] ∧ (rules p).sparse = false)
    (ha : ∀ p key h t, FieldOf sep s p key h t → ∀ c ∈ checks p, Applies (checked repr (submittedField h t (submitted key ps))) c)
    (hm : ∀ p, ∀ c ∈ checks p, ∃ m text, (noter e p).attr (failureKey c).toList = .ok m ∧ ¬ Silent m ∧
      expandMessage (noter e p).env m = .ok text) (st : VState Pos (Pos → List PStr)) :
    ∃ r b n, (∀ m, n ≤ m → validateForm e rules m st = some r) ∧ r.result = .ok b ∧
      (b = true ↔ ∀ p key h t, FieldOf sep s p key h t →
        let k := submittedField h t (submitted key ps)
        Excused (rules p) k ∨ ((∀ c ∈ checks p, Meets (checked repr k) c) ∧ (checks p = [] → ¬ IsBlank (rules p) k))) := by
  have hfc := fresh_conforms s
  have hec := plain_setFlat hs (fresh s) hfc ps e hset
  have hne : e ≠ .absent := by rintro rfl; cases s <;> simp [Conforms] at hec
  -- the fields of the filled form look like the submitted ones
  have hfield : ∀ p key h t, FieldOf sep s p key h t → ∃ st', elemAt e p = some (.scalar h.name st') ∧
      checked repr (.scalar h.name st') = checked repr (submittedField h t (submitted key ps)) ∧
      (IsBlank (rules p) (.scalar h.name st') ↔ IsBlank (rules p) (submittedField h t (submitted key ps))) := by
    intro p key h t hf
    obtain ⟨st0, hk⟩ := plain_field_there hf hs (fresh s) hfc
    have hfr := fieldOf_fresh hf _ hk
    cases hfr
    obtain ⟨st', he, h1, h2⟩ := field_after hf (fresh s) hfc _ _ hk ps e hset
    refine ⟨st', he, ?_, ?_⟩
    · simp only [checked, submittedField, elemValue, elemU, h1, h2]
    · simp only [IsBlank, submittedField, h1, h2]
  obtain ⟨r, b, n, h1, h2, h3, _⟩ := C74_checks repr e hne rules checks noter hv hd
    (by
      intro p k hk c hcc
      rcases plain_elem hs e hec p k hk with ⟨key, h, t, st', hf, rfl⟩ | ⟨nm, ks, rfl⟩
      · obtain ⟨st'', he, hch, _⟩ := hfield p key h t hf
        rw [he] at hk
        cases hk
        rw [hch]
        exact ha p key h t hf c hcc
      · rw [(hdict p fun key h t hf => by
          obtain ⟨st'', he, _⟩ := hfield p key h t hf
          rw [he] at hk; cases hk).1] at hcc
        cases hcc)
    (fun p k _ => hm p) st
  refine ⟨r, b, n, h1, h2, h3.trans ?_⟩
  constructor
  · intro hall p key h t hf
    obtain ⟨st', he, hch, hbl⟩ := hfield p key h t hf
    have := hall p _ he
    simp only [Excused, hch, hbl] at this ⊢
    exact this
  · intro hall p k hk
    rcases plain_elem (sep := sep) hs e hec p k hk with ⟨key, h, t, st', hf, rfl⟩ | ⟨nm, ks, rfl⟩
    · obtain ⟨st'', he, hch, hbl⟩ := hfield p key h t hf
      rw [he] at hk
      cases hk
      have := hall p key h t hf
      simp only [Excused, hch, hbl] at this ⊢
      exact this
    · have := hdict p fun key h t hf => by
        obtain ⟨st'', he, _⟩ := hfield p key h t hf
        rw [he] at hk; cases hk
      refine .inr ⟨?_, fun _ hb => ?_⟩
      · rw [this.1]; intro c hcc; cases hcc
      · simp only [IsBlank, this.2] at hb
        exact absurd hb.1 (by simp)

end

/-! ### an example: a form with a name, and an address with a number -/
section examples
attribute [local instance] Runtime.ascii

def exSubmitSchema : Schema :=
  .dict ⟨.none, false, some .none⟩ .full .subset
    [.scalar ⟨some ['n'], false, some .none⟩ (stringType true),
     .dict ⟨some ['a'], false, some .none⟩ .full .subset [.scalar ⟨some ['z'], false, some .none⟩ (integerType true 0)]]

theorem exSubmitSchema_plain : PlainForm exSubmitSchema := by
  refine .dict _ _ _ (by simp [Schema.name, Schema.hdr]) ?_
  intro f hf
  simp only [List.mem_cons, List.not_mem_nil, or_false] at hf
  rcases hf with rfl | rfl
  · exact .scalar _ _ (by simp)
  · refine .dict _ _ _ (by simp [Schema.name, Schema.hdr]) ?_
    intro f hf
    simp only [List.mem_cons, List.not_mem_nil, or_false] at hf
    subst hf
    exact .scalar _ _ (by simp)

/-- the key of the inner field -/
example : FieldOf ['_'] exSubmitSchema [1, 0] "a_z".toList ⟨some ['z'], false, some .none⟩ (integerType true 0) :=
  .unnamed rfl (i := 1) rfl (by simp [Schema.name, Schema.hdr]) (.named (n := ['a']) (key := ['z']) rfl (i := 0) rfl (by simp [Schema.name, Schema.hdr]) (.here rfl))

def exSubmission : List (PStr × PStr) := [("a_z".toList, "7x".toList), ("n".toList, "Bo".toList), ("a_zz".toList, "9".toList), ("a_z".toList, "8".toList)]

example : submitted "a_z".toList exSubmission = some "7x".toList := by decide
example : (integerType true 0).adapt (.str "7x".toList) = .error .adaptation := by rfl
example : (elemAt (fresh exSubmitSchema) [1, 0]).isSome = true := by decide

example : ((fromFlat ['_'] exSubmitSchema exSubmission).toOption.bind fun e => elemAt e [1, 0]).map (fun k => k.state.u) = some "7x".toList := by decide

/-- C76 (limit): a SparseDict does not have the required fields that were not submitted, and what is not there is not validated: the
form is valid without them. -/
theorem C76_sparse_not_required :
    let s : Schema := .dict ⟨.none, false, some .none⟩ .sparse .subset
      [.scalar ⟨some ['n'], false, some .none⟩ (stringType true), .scalar ⟨some ['m'], false, some .none⟩ (stringType true)]
    ((fromFlat ['_'] s [(['n'], ['x'])]).toOption.bind fun e =>
      (validateForm e (fun _ => {}) 9 ⟨fun _ => .unevaluated, fun _ => []⟩).map fun r => (r.result, r.state.flag [0], r.state.flag [1])) =
    some (.ok true, .yes, .unevaluated) := by decide +kernel

end examples
end Flatland
