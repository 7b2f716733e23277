import Verif.Proofs.Hostile
import Verif.Proofs.TreeProps
import Verif.Props.Floats
/-!
C12 and C85: which submissions make a form raise an exception if some of its scalar classes do so for some texts, and that those are
the Decimal classes.
-/
namespace Flatland
open Spec
section
variable [Runtime]

/-- C12, without presupposing that scalar classes accept or refuse every text: if each either does so or raises an exception for some
text, then no submission makes `set_flat` raise exactly if the schema is one of `NeverRaises` and every scalar class that a submission
can get at accepts or refuses every text. -/
theorem C12_raises_iff {sep : PStr} (hs : GoodSep sep) (s : Schema) (hd : FieldsDeclared s) (hT : AllTypes (fun t => TextSafe t ∨ Breaks t) s) :
    (∀ (e : Elem) (ps : List (PStr × PStr)), ∃ e', setFlat sep s e (texts ps) = .ok e') ↔
      NeverRaises s ∧ ∀ t, Reached s t → TextSafe t := by
  constructor
  · intro h
    have hn : NeverRaises s := by
      apply Classical.byContradiction
      intro hn
      obtain ⟨key, _, hk⟩ := raising_key (sep := sep) (by obtain ⟨_, _, h, _⟩ := hs; rw [h]; simp) s hd hn
      obtain ⟨er, her⟩ := hk (fresh s)
      obtain ⟨e', he'⟩ := h (fresh s) [(key, ['x'])]
      rw [her] at he'
      simp at he'
    refine ⟨hn, fun t ht => ?_⟩
    rcases reached_type ht hT with h1 | ⟨x, hx, h1⟩
    · exact h1
    · obtain ⟨key, _, hk⟩ := reached_loud hs hx ht h1 hn
      obtain ⟨er, her⟩ := hk (fresh s)
      obtain ⟨e', he'⟩ := h (fresh s) [(key, x)]
      rw [her] at he'
      simp at he'
  · exact fun h e ps => quiet_ok s h.1 h.2 e ps

variable [NumberRuntime]

/-- C85.  A Float takes or refuses any text. -/
theorem C85_float_text_safe (signed : Bool) (places : ℕ) : TextSafe (floatType signed places) := by
  intro st x
  obtain ⟨b, _, _, h, _⟩ := C85_float_settles signed places st x
  exact ⟨b, by rw [h]⟩

/-- C85.  A Decimal field raises an exception exactly for the texts that are a signaling NaN, and if it is unsigned also for those that are a NaN. -/
theorem C85_decimal_raises_iff (signed : Bool) (places : ℕ) (st : ScalarState) (s : PStr) :
    (∃ er, (scalarSet (decimalType signed places) st (.str s)).2 = .error er) ↔
      DecMeans (strip s) (.nan true) ∨ (signed = false ∧ DecMeans (strip s) (.nan false)) := by
  rcases C85_decimal_set (signed := signed) (places := places) (st := st) (v := .str s) .text with ⟨d, hd, hset⟩ | ⟨hno, hset⟩
  · have hm : DecMeans (strip s) d := by cases hd with | text h => exact h
    have hu : ∀ b, DecMeans (strip s) (.nan b) → d = .nan b := by
      intro b hb
      have := C85_decimal_unique (DecOf.text hb) hd
      cases this
      rfl
    constructor
    · rintro ⟨er, her⟩
      generalize scalarSet (decimalType signed places) st (.str s) = r at *
      cases hset with
      | shown => simp at her
      | negative => simp at her
      | @notComparable b hsg =>
        cases b with
        | true => exact .inl hm
        | false => exact .inr ⟨hsg, hm⟩
      | notShowable => exact .inl hm
    · intro h
      generalize scalarSet (decimalType signed places) st (.str s) = r at *
      have hd' : (d = .nan true) ∨ (signed = false ∧ d = .nan false) := h.imp (hu _) fun h => ⟨h.1, hu _ h.2⟩
      cases hset with
      | @shown d x u h1 h2 h3 =>
        exfalso
        rcases hd' with rfl | ⟨h0, rfl⟩
        · cases h2
        · rcases h1 with h1 | h1
          · rw [h0] at h1; simp at h1
          · exact h1.1 _ rfl
      | negative _ h2 =>
        exfalso
        rcases hd' with rfl | ⟨h0, rfl⟩ <;> simp [DecBelowZero] at h2
      | notComparable => exact ⟨_, rfl⟩
      | notShowable => exact ⟨_, rfl⟩
  · rw [hset]
    constructor
    · rintro ⟨er, her⟩; simp at her
    · rintro (h | ⟨_, h⟩) <;> exact absurd (DecOf.text h) (hno _)

theorem decimal_breaks (signed : Bool) (places : ℕ) : Breaks (decimalType signed places) := by
  refine ⟨"sNaN".toList, by decide, fun st => (C85_decimal_raises_iff signed places st _).mpr (.inl ?_)⟩
  have : strip "sNaN".toList = "sNaN".toList := by
    refine strip_of_no_space fun c hc => NumberRuntime.letter_not_space c ?_
    revert c
    decide
  rw [this]
  exact .snan (s := "sNaN".toList) (ds := []) (.intro (sg := []) .nothing (by decide)) (by simp [AllDigits])

/-- C12 for all the scalar classes of the library.  No submission makes `set_flat` raise an exception exactly if the schema is one of
`NeverRaises` and has no Decimal that a submission can get at. -/
theorem C12_library_iff {sep : PStr} (hs : GoodSep sep) (s : Schema) (hd : FieldsDeclared s)
    (hT : AllTypes (fun t => (∃ b : Builtin, t = b.type) ∨ IsFloatType t ∨ IsDecimalType t) s) :
    (∀ (e : Elem) (ps : List (PStr × PStr)), ∃ e', setFlat sep s e (texts ps) = .ok e') ↔
      NeverRaises s ∧ ∀ t, Reached s t → ¬ IsDecimalType t := by
  have h1 : ∀ t, ((∃ b : Builtin, t = b.type) ∨ IsFloatType t ∨ IsDecimalType t) → TextSafe t ∨ IsDecimalType t := by
    rintro t (⟨b, rfl⟩ | ⟨sg, k, rfl⟩ | h)
    · exact .inl fun st x => builtin_text_ok b st x
    · exact .inl (C85_float_text_safe sg k)
    · exact .inr h
  have h2 : ∀ t, IsDecimalType t → Breaks t := by
    rintro t ⟨sg, k, rfl⟩; exact decimal_breaks sg k
  rw [C12_raises_iff hs s hd (allTypes_mono (fun t h => (h1 t h).imp_right (h2 t)) s hT)]
  refine and_congr_right fun _ => forall_congr' fun t => ⟨fun h hr hdec => ?_, fun h hr => ?_⟩
  · obtain ⟨x, _, hx⟩ := h2 t hdec
    obtain ⟨er, her⟩ := hx .fresh
    obtain ⟨ok, hok⟩ := h hr .fresh x
    rw [her] at hok
    simp at hok
  · exact (h1 t (reached_type hr hT)).resolve_right (h hr)

/-- C12, the part of the claim that is false: a form with an unsigned Decimal field raises an exception if `NaN` is submitted for it. -/
theorem C12_decimal_nan_raises (sep n : PStr) (places : ℕ) (o : Bool) (d : Option PyVal) (mode : DictMode) (po : Policy) (dh : Hdr) (hn : dh.name = none) (e : Elem) :
    setFlat sep (.dict dh mode po [.scalar ⟨some n, o, d⟩ (decimalType false places)]) e (texts [(n, "NaN".toList)]) = .error .arithmetic := by
  have hstrip : strip "NaN".toList = "NaN".toList := by
    refine strip_of_no_space fun c hc => NumberRuntime.letter_not_space c ?_
    revert c
    decide
  have hm : DecMeans (strip "NaN".toList) (.nan false) := by
    rw [hstrip]
    exact .nan (s := "NaN".toList) (ds := []) (.intro (sg := []) .nothing (by decide)) (by simp [AllDigits])
  have key : ∀ st, ∃ st', scalarSet (decimalType false places) st (.str "NaN".toList) = (st', .error .arithmetic) := by
    intro st
    rcases C85_decimal_set (signed := false) (places := places) (st := st) (v := .str "NaN".toList) .text with ⟨d, hd, hset⟩ | ⟨hno, _⟩
    · have := C85_decimal_unique (DecOf.text hm) hd
      cases this
      generalize scalarSet (decimalType false places) st (.str "NaN".toList) = r at *
      cases hset with
      | shown h1 => rcases h1 with h1 | h1
                    · simp at h1
                    · exact absurd rfl (h1.1 _)
      | negative _ h2 => simp [DecBelowZero] at h2
      | notComparable => exact ⟨_, rfl⟩
    · exact absurd (DecOf.text hm) (hno _)
  rw [setFlat, hn]
  obtain ⟨st', hst⟩ := key { (orFresh (.scalar ⟨some n, o, d⟩ (decimalType false places)) (e.kids.headD .absent)).state with raw := none }
  have hp : accumField (some n) (texts [(n, "NaN".toList)]) = .ok (texts [(n, "NaN".toList)]) := by
    rw [accumField_texts]; simp
  have hsf : scalarSetFlat (some n) (decimalType false places)
      (orFresh (.scalar ⟨some n, o, d⟩ (decimalType false places)) (e.kids.headD .absent)).state (texts [(n, "NaN".toList)]) = .error .arithmetic := by
    unfold scalarSetFlat
    simp only [texts, List.map_cons, List.map_nil, List.find?_cons, beq_self_eq_true, hst]
  have h2 : (texts [(n, "NaN".toList)]).isEmpty = false := rfl
  have h3 : setFlatFields sep [.scalar ⟨some n, o, d⟩ (decimalType false places)] e.kids (texts [(n, "NaN".toList)]) = .error .arithmetic := by
    rw [setFlatFields]
    simp only [Schema.name, Schema.hdr, hp, h2, Bool.false_eq_true, if_false]
    rw [setFlat]
    simp only [hsf]
  have h4 : dictPossibles sep none (texts [(n, "NaN".toList)]) = .ok (texts [(n, "NaN".toList)]) := by
    rw [dictPossibles_texts]; simp [fieldPrefix]
  rw [h4]
  simp only [h2, Bool.false_eq_true, if_false, h3]

end

/-! ## Non-vacuity -/
section examples
attribute [local instance] Runtime.ascii exampleNumbers

/-- a form with a Float, a Decimal and a List of Floats -/
def priceForm : Schema :=
  .dict ⟨none, false, none⟩ .full .subset [.scalar ⟨some "price".toList, false, none⟩ (decimalType false 6),
    .scalar ⟨some "weight".toList, false, none⟩ (floatType true 6),
    .list ⟨some "sizes".toList, false, none⟩ true 8 (.scalar ⟨none, false, none⟩ (floatType true 6))]

example : FieldsDeclared priceForm ∧ AllTypes (fun t => (∃ b : Builtin, t = b.type) ∨ IsFloatType t ∨ IsDecimalType t) priceForm ∧
    NeverRaises priceForm ∧ Reached priceForm (decimalType false 6) ∧ IsDecimalType (decimalType false 6) := by
  refine ⟨by simp [priceForm, FieldsDeclared, FieldsDeclaredAll], ?_, by simp [priceForm, NeverRaises, NeverRaisesAll, BareMember, Schema.name, Schema.hdr],
    .field (List.mem_cons_self ..) (.scalar (by simp)), _, _, rfl⟩
  simp only [priceForm, AllTypes, AllTypesIn]
  exact ⟨.inr (.inr ⟨_, _, rfl⟩), .inr (.inl ⟨_, _, rfl⟩), .inr (.inl ⟨_, _, rfl⟩), trivial⟩

/-- and without the Decimal every submission is taken -/
example : ∀ (e : Elem) (ps : List (PStr × PStr)), ∃ e', setFlat "_".toList (.dict ⟨none, false, none⟩ .full .subset
    [.scalar ⟨some "weight".toList, false, none⟩ (floatType true 6), .list ⟨some "sizes".toList, false, none⟩ true 8
      (.scalar ⟨none, false, none⟩ (floatType true 6))]) e (texts ps) = .ok e' := by
  refine (C12_raises_iff ⟨'_', [], rfl, by decide⟩ _ (by simp [FieldsDeclared, FieldsDeclaredAll]) ?_).mpr ⟨?_, ?_⟩
  · simp only [AllTypes, AllTypesIn]
    exact ⟨.inl (C85_float_text_safe _ _), .inl (C85_float_text_safe _ _), trivial⟩
  · simp [NeverRaises, NeverRaisesAll, BareMember, Schema.name, Schema.hdr]
  · intro t ht
    refine reached_type (P := TextSafe) ht ?_
    simp only [AllTypes, AllTypesIn]
    exact ⟨C85_float_text_safe _ _, C85_float_text_safe _ _, trivial⟩

end examples
end Flatland
