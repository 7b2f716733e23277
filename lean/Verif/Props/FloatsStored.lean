import Verif.Props.Floats
import Verif.Props.Stored
/-! C85: values of Float and Decimal fields set again. -/
namespace Flatland
open Spec

section
variable [Runtime] [NumberRuntime]

/-- **C85.** A Float that took what it was set to – a text, an int, a bool, a float, a Decimal or None – takes its own value again, and has the same value and
text, to the last digit. -/
theorem C85_float_value {signed : Bool} {places : ℕ} {st st' : ScalarState} {v : PyVal} (hv : NumberInput v ∨ v = .none)
    (h : scalarSet (floatType signed places) st v = (st', .ok true)) : ReAdapts (floatType signed places) st' := by
  rcases hv with hv | rfl
  · by_cases hx : ∃ x, FloatOf v x ∧ (signed = true ∨ ¬ BelowZero x)
    · obtain ⟨x, hx, hs⟩ := hx
      rw [float_set_ok hx hs] at h
      obtain rfl := (Prod.mk.inj h).1
      exact ⟨_, float_set_ok (.float (floatOf_isFloat hx)) hs, rfl, rfl⟩
    · rw [float_set_refused hv fun x hf => ?_] at h
      · simp at h
      · have hs : ¬ (signed = true ∨ ¬ BelowZero x) := fun hs => hx ⟨x, hf, hs⟩
        rw [not_or, not_not] at hs
        exact ⟨by simpa using hs.1, hs.2⟩
  · rw [(C85_none signed places st).1] at h
    obtain rfl := (Prod.mk.inj h).1
    exact ⟨_, (C85_none signed places .fresh).1, rfl, rfl⟩

/-- **C85.** So does a Decimal, although its text may not show all of the value (C85_decimal_lost). -/
theorem C85_decimal_value {signed : Bool} {places : ℕ} {st st' : ScalarState} {v : PyVal} (hv : NumberInput v ∨ v = .none)
    (h : scalarSet (decimalType signed places) st v = (st', .ok true)) : ReAdapts (decimalType signed places) st' := by
  rcases hv with hv | rfl
  · rcases C85_decimal_set (signed := signed) (places := places) (st := st) hv with ⟨d, _, hd⟩ | ⟨_, hn⟩
    · rw [h] at hd
      cases hd with
      | shown hs hf hu =>
        have hnew : decNew (decVal d) = .ok d := by simp [decNew, decVal, NumberRuntime.floatAt_dec, NumberRuntime.decAt_id]
        have hset := dec_set (signed := signed) (k := places) (st := .fresh) (input_ne_none (.dec (d := d))) hnew hs
        rw [(floatOfDec_iff d _).mpr hf] at hset
        exact ⟨_, hset, showsFloat_unique hu (showsFloat_floatText places (decAsFloat_isFloat hf)), rfl⟩
    · rw [h] at hn; simp at hn
  · rw [(C85_none signed places st).2] at h
    obtain rfl := (Prod.mk.inj h).1
    exact ⟨_, (C85_none signed places .fresh).2, rfl, rfl⟩

/-- **C85.** A form of the scalar classes of the library, Float and Decimal among them, that took everything submitted for it: storing its value and setting a new
form to it gives the same values and texts, pairs and verdicts. -/
theorem C85_stored {sep : PStr} (repr : PStr → PStr) (s : Schema) (hn : NamedFields s)
    (ht : AllTypes (fun t => IsBuiltin t ∨ IsFloatType t ∨ IsDecimalType t) s) (e : Elem) (hc : Conforms s e)
    (hm : Complete s e) (ha : EachScalar (fun _ => Accepted) false s e) :
    ∃ e', setVal s (elemValue e) = .ok (e', true) ∧ SameBy SameData e e' ∧ elemValue e' = elemValue e ∧ elemU repr e' = elemU repr e ∧
      flatten sep e' = flatten sep e ∧
      ∀ (rules : Pos → FieldRules), RulesLookAtContent rules → ∀ n st, validateForm e' rules n st = validateForm e rules n st := by
  have hb := each_and (each_of_types (Q := fun _ t _ => IsBuiltin t ∨ IsFloatType t ∨ IsDecimalType t) (fun _ _ _ h => h) s false e ht) ha
  have hre : EachScalar (fun _ t st => ReAdapts t st) false s e := by
    refine each_mono ?_ s false e hb
    rintro p t st ⟨⟨bt, _, rfl⟩ | ⟨signed, places, rfl⟩ | ⟨signed, places, rfl⟩, ⟨rfl, h⟩ | ⟨x, h⟩⟩
    · exact C33_unset_readapts bt h
    · have := C33_builtin_readapts bt .fresh (.str x) (by rw [h])
      rwa [h] at this
    · exact ⟨_, (C85_none signed places .fresh).1, rfl, rfl⟩
    · exact C85_float_value (.inl .text) h
    · exact ⟨_, (C85_none signed places .fresh).2, rfl, rfl⟩
    · exact C85_decimal_value (.inl .text) h
  obtain ⟨e', h1, h2, h3, h4⟩ := C33_reproduces repr s e hn hc hm hre
  exact ⟨e', h1, h2, h3, h4, flatten_sameText sep (sameBy_mono (fun _ _ h => h.1) _ _ h2), fun rules hr n st => C79_content h2 rules hr n st⟩

end

section examples
attribute [local instance] Runtime.ascii exampleNumbers

/-- the hypotheses of `C85_float_value`: `' -1.5e1 '` is taken -/
theorem floatStored_set : scalarSet (floatType true 2) .fresh (.str " -1.5e1 ".toList) =
    (⟨floatVal (.fin true 15), floatText 2 (.fin true 15), some (.str " -1.5e1 ".toList)⟩, .ok true) :=
  float_set_ok example_float (.inl rfl)

example : ReAdapts (floatType true 2) ⟨floatVal (.fin true 15), floatText 2 (.fin true 15), some (.str " -1.5e1 ".toList)⟩ :=
  C85_float_value (.inl .text) floatStored_set

/-- `'12.50'` is taken by an unsigned Decimal with six places -/
theorem decStored_set : ∃ st, scalarSet (decimalType false 6) .fresh (.str "12.50".toList) = (st, .ok true) := by
  have h1 : numText true (strip "12.50".toList) = some (.num false 1250 (-2)) := by decide +kernel
  have hnew : decNew (.str "12.50".toList) = .ok (.fin false 1250 (-2)) := by simp only [decNew, decOfText, h1]
  have hset := dec_set (signed := false) (k := 6) (st := .fresh) (v := .str "12.50".toList) (by simp) hnew (.inr (by simp [DecBelowZero]))
  simp only [floatOfDec] at hset
  exact ⟨_, hset⟩

example : ∃ st, scalarSet (decimalType false 6) .fresh (.str "12.50".toList) = (st, .ok true) ∧ ReAdapts (decimalType false 6) st := by
  obtain ⟨st, h⟩ := decStored_set
  exact ⟨st, h, C85_decimal_value (.inl .text) h⟩

/-- the hypotheses of `C85_stored`: a Float and a Decimal that were set, and a String that was not -/
def floatStored (st : ScalarState) : Elem :=
  .dict (some "f".toList)
    [.scalar (some "x".toList) ⟨floatVal (.fin true 15), floatText 2 (.fin true 15), some (.str " -1.5e1 ".toList)⟩,
     .scalar (some "y".toList) st, .scalar (some "z".toList) .fresh]

example : ∃ st e', setVal floatSchema (elemValue (floatStored st)) = .ok (e', true) ∧ SameBy SameData (floatStored st) e' := by
  obtain ⟨st, h⟩ := decStored_set
  obtain ⟨e', h1, h2, _⟩ := C85_stored (sep := "_".toList) id floatSchema
    (by simp [floatSchema, NamedFields, NamedFieldsAll, Schema.name, Schema.hdr]) floatSchema_types (floatStored st)
    (by simp [floatSchema, floatStored, Conforms, ConformsAll])
    (by simp [floatSchema, floatStored, Complete, CompleteAll])
    (by
      simp only [floatSchema, floatStored, EachScalar, EachScalarAll, and_true]
      exact ⟨.inr ⟨_, floatStored_set⟩, .inr ⟨_, h⟩, .inl ⟨rfl, rfl⟩⟩)
  exact ⟨st, e', h1, h2⟩

end examples
end Flatland
