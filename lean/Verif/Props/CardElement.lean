import Verif.Model.CardElement
import Verif.Spec.CardElement
import Verif.Props.CreditCard
import Verif.Props.Luhn
/-! Property theorems C71: a card number field (flatland/ext/creditcard.py:18-77). -/
namespace Flatland
open Spec
section
variable [Runtime]

/-- the three templates with the label in them -/
theorem card_texts (label : PStr) :
    expandMessage (cardMsgEnv label) (.fixed (.single "%(label)s may not be blank.".toList)) = .ok (faultText label .blank) ∧
    expandMessage (cardMsgEnv label) (.fixed (.single "%(label)s is not correct.".toList)) = .ok (faultText label .unread) ∧
    expandMessage (cardMsgEnv label) (.fixed (.single "The %(label)s was not entered correctly.".toList)) = .ok (faultText label .checkDigit) := by
  have hl : mapGetItem .none (cardMsgEnv label).targets "label".toList = .ok (.str label) := by
    simp [mapGetItem, mapGet, targetGet, cardMsgEnv, itemMissing]
  refine ⟨?_, ?_, ?_⟩ <;>
  · simp only [expandMessage, chooseTemplate, formatMessage]
    show formatGo (mapGetItem .none (cardMsgEnv label).targets) .text _ = _
    generalize hk : mapGetItem .none (cardMsgEnv label).targets = look at hl
    simp at hl
    simp [formatGo, hl, faultText, pyText, Except.map]

/-- noting one of the three -/
theorem note_fixed {env : MsgEnv} {errors : List PStr} {attr : PStr → Except PyErr MsgAttr} {key t m : PStr}
    (ha : attr key = .ok (.fixed (.single t))) (ht : t ≠ []) (hm : expandMessage env (.fixed (.single t)) = .ok m) :
    runCheck ⟨env, attr⟩ errors (.ok (some key)) = (withMessage errors m, .ok false) := by
  have : (MsgAttr.fixed (.single t)).truth = true := by cases t <;> simp_all [MsgAttr.truth]
  simp [runCheck, noteMessage, ha, hm, this, withMessage, show MsgAttr.none.truth = false from rfl]

/-- a validator that passes -/
theorem card_pass {fuel : Nat} {label : PStr} {accepted : List CardType} {st : ScalarState} {errors : List PStr} {c : CardCheck} {cs : List CardCheck}
    (h : cardStep fuel accepted st c = some (.ok .none)) :
    cardLoop fuel label accepted st errors (c :: cs) = cardLoop fuel label accepted st errors cs := by
  simp only [cardLoop, h, runCheck]

omit [Runtime] in
/-- the text shown is never empty -/
theorem pretty_ne {n : Int} (h : decimalInt n ≠ []) : ccPretty n ≠ [] := by
  unfold ccPretty
  generalize decimalInt n = s at h
  simp only []
  split
  · simp
  · split
    · simp
    · split
      · simp
      · exact h

/-- the steps of the four validators -/
theorem step_present (fuel : Nat) (accepted : List CardType) (st : ScalarState) :
    cardStep fuel accepted st .present = some (.ok (if st.u = [] then some "missing".toList else .none)) := rfl
/-- the same for Converted -/
theorem step_converted (fuel : Nat) (accepted : List CardType) (st : ScalarState) :
    cardStep fuel accepted st .converted = some (.ok (if isNone st.value then some "incorrect".toList else .none)) := rfl
/-- the same for Luhn10 -/
theorem step_luhn {fuel n : Nat} (accepted : List CardType) {st : ScalarState} (hv : st.value = .int n) (hf : n < fuel) :
    (LuhnOK n → cardStep fuel accepted st .luhn = some (.ok .none)) ∧
    (¬ LuhnOK n → cardStep fuel accepted st .luhn = some (.ok (some "invalid".toList))) := by
  obtain ⟨b, hb, hb'⟩ := C45_luhn_correct_partial n fuel hf
  constructor <;> intro hl
  · have : b = true := hb'.2 hl
    subst this
    simp only [cardStep, luhnValidate, hv, hb, Option.map_some, ↓reduceIte]
  · have : b = false := by cases b with
      | false => rfl
      | true => exact absurd (hb'.1 rfl) hl
    subst this
    simp only [cardStep, luhnValidate, hv, hb, Option.map_some, Bool.false_eq_true, ↓reduceIte]
/-- the same for AcceptedType -/
theorem step_accepted {fuel n : Nat} {accepted : List CardType} {st : ScalarState} (hv : st.value = .int n) :
    (OfClass accepted n → cardStep fuel accepted st .acceptedType = some (.ok .none)) ∧
    (¬ OfClass accepted n → cardStep fuel accepted st .acceptedType = some (.ok (some "not_accepted".toList))) := by
  constructor <;> intro hl
  · have ha : acceptedType accepted n = true := (C08_accepted_iff accepted n).2 hl
    simp only [cardStep, acceptedTypeValidate, hv, ha, ↓reduceIte]
  · have ha : acceptedType accepted n = false := by
      cases h : acceptedType accepted n with
      | false => rfl
      | true => exact absurd ((C08_accepted_iff accepted n).1 h) hl
    simp only [cardStep, acceptedTypeValidate, hv, ha, Bool.false_eq_true, ↓reduceIte]

/-- a validator that notes one of the three -/
theorem card_fail {fuel : Nat} {label : PStr} {accepted : List CardType} {st : ScalarState} {errors : List PStr} {c : CardCheck} {cs : List CardCheck}
    {key t m : PStr} (h : cardStep fuel accepted st c = some (.ok (some key))) (ha : cardMessage accepted c key = .ok (.fixed (.single t))) (ht : t ≠ [])
    (hm : expandMessage (cardMsgEnv label) (.fixed (.single t)) = .ok m) :
    cardLoop fuel label accepted st errors (c :: cs) = some (withMessage errors m, .ok false) := by
  simp only [cardLoop, h, note_fixed (errors := errors) ha ht hm]

/-- the loop over the four validators -/
theorem card_loop (fuel : Nat) (label : PStr) (accepted : List CardType) (st : ScalarState) (errors : List PStr)
    (fault : Option CardFault) (hf : ∀ n : Nat, st.value = .int n → n < fuel) (hr : fault ≠ some .refused) (h : Judged accepted st.u st.value fault) :
    cardLoop fuel label accepted st errors cardDefaults = some (cardReport label errors fault) := by
  obtain ⟨t1, t2, t3⟩ := card_texts label
  unfold cardDefaults
  generalize hu' : st.u = u at h
  generalize hv' : st.value = v at h
  have pass : u ≠ [] → cardStep fuel accepted st .present = some (.ok .none) := by
    intro hu; rw [step_present, hu', if_neg hu]
  have conv : ∀ n : Int, v = .int n → cardStep fuel accepted st .converted = some (.ok .none) := by
    intro n hn; rw [step_converted, hv', hn]; rfl
  cases h with
  | blank => exact card_fail (by rw [step_present, hu', if_pos rfl]) (by simp only [cardMessage, ↓reduceIte]) (by simp) t1
  | unread hu =>
    rw [card_pass (pass hu)]
    exact card_fail (by rw [step_converted, hv']; rfl) (by simp only [cardMessage, ↓reduceIte]) (by simp) t2
  | @checkDigit _ n hu hl =>
    rw [card_pass (pass hu), card_pass (conv n rfl)]
    exact card_fail ((step_luhn accepted hv' (hf n hv')).2 hl) (by simp only [cardMessage, ↓reduceIte]) (by simp) t3
  | refused => exact absurd rfl hr
  | @good _ n hu hl hc =>
    rw [card_pass (pass hu), card_pass (conv n rfl), card_pass ((step_luhn accepted hv' (hf n hv')).1 hl), card_pass ((step_accepted hv').1 hc)]
    rfl

/-- **C71.** For every text, value, list of accepted classes and label: a field whose number is present, read, passes the check digit and is of an
accepted class is valid and no message is added; a field that is blank, not read or fails the check digit is not valid, and one message that
says so is added. (Partial: for a number of a class that is not accepted see `C71_refused_raises`; for negative numbers `C71_negative`.) -/
theorem C71_validate_partial (fuel : Nat) (label : PStr) (accepted : List CardType) (optional : Bool) (st : ScalarState) (errors : List PStr)
    (fault : Option CardFault) (hf : ∀ n : Nat, st.value = .int n → n < fuel) (hr : fault ≠ some .refused)
    (ho : optional = false ∨ st.u ≠ [] ∨ isNone st.value = false) (h : Judged accepted st.u st.value fault) :
    cardValidate fuel label accepted optional st errors cardDefaults = some (cardReport label errors fault) := by
  have key := card_loop fuel label accepted st errors fault hf hr h
  have he : (isNone st.value && st.u == [] && optional) = false := by
    rcases ho with h | h | h
    · simp [h]
    · simp [h]
    · simp [h]
  simp only [cardValidate, he, Bool.false_eq_true, ↓reduceIte]
  exact key

/-- **C71 (disagreement).** A number of a class that is not accepted is not refused with a message: `validate` raises TypeError and no message is added. -/
theorem C71_refused_raises (fuel : Nat) (label : PStr) (accepted : List CardType) (optional : Bool) (st : ScalarState) (errors : List PStr)
    (hf : ∀ n : Nat, st.value = .int n → n < fuel) (h : Judged accepted st.u st.value (some .refused)) :
    cardValidate fuel label accepted optional st errors cardDefaults = some (errors, .error .type) := by
  obtain ⟨value, u, raw⟩ := st
  simp only at h hf
  cases h with
  | @refused _ n hu hl hc =>
    have h1 : cardStep fuel accepted ⟨.int n, u, raw⟩ .present = some (.ok .none) := by rw [step_present]; exact congrArg (fun x => some (Except.ok x)) (if_neg hu)
    have h2 : cardStep fuel accepted ⟨.int n, u, raw⟩ .converted = some (.ok .none) := rfl
    have h3 := (step_luhn (st := ⟨.int n, u, raw⟩) accepted rfl (hf n rfl)).1 hl
    have h4 := (step_accepted (fuel := fuel) (st := ⟨.int n, u, raw⟩) rfl).2 hc
    have h5 : runCheck ⟨cardMsgEnv label, cardMessage accepted .acceptedType⟩ errors (.ok (some "not_accepted".toList)) = (errors, .error .type) := by
      have hk : cardMessage accepted .acceptedType "not_accepted".toList = .ok (notAcceptedAttr accepted) := by simp only [cardMessage, ↓reduceIte]
      simp only [runCheck, noteMessage, hk, show MsgAttr.none.truth = false from rfl, Bool.false_eq_true, ↓reduceIte,
        show (notAcceptedAttr accepted).truth = true from rfl]
      rfl
    have key : cardLoop fuel label accepted ⟨.int n, u, raw⟩ errors cardDefaults = some (errors, .error .type) := by
      simp only [cardDefaults]
      rw [card_pass h1, card_pass h2, card_pass h3]
      simp only [cardLoop, h4, h5]
    simp only [cardValidate, isNone, Bool.false_and, Bool.false_eq_true, ↓reduceIte]
    exact key

omit [Runtime] in
/-- **C71 (verdicts).** There is exactly one verdict about every field that is blank, not read, or holds a number that is not negative. -/
theorem C71_one_verdict (accepted : List CardType) (u : PStr) (v : PyVal) (hv : v = .none ∨ ∃ n : Nat, v = .int n) :
    ∃ f, Judged accepted u v f ∧ ∀ g, Judged accepted u v g → g = f := by
  by_cases hu : u = []
  · subst hu
    refine ⟨_, .blank, fun g hg => ?_⟩
    cases hg <;> first | rfl | simp_all
  · rcases hv with rfl | ⟨n, rfl⟩
    · refine ⟨_, .unread hu, fun g hg => ?_⟩
      cases hg <;> first | rfl | simp_all
    · have inj : ∀ {m k : Nat}, PyVal.int m = PyVal.int k → m = k := fun h => by injection h; omega
      by_cases hl : LuhnOK n
      · by_cases hc : OfClass accepted n
        · refine ⟨_, .good hu hl hc, fun g hg => ?_⟩
          generalize hw : PyVal.int n = w at hg
          cases hg <;> first | rfl | (try have := inj hw); simp_all
        · refine ⟨_, .refused hu hl hc, fun g hg => ?_⟩
          generalize hw : PyVal.int n = w at hg
          cases hg <;> first | rfl | (try have := inj hw); simp_all
      · refine ⟨_, .checkDigit hu hl, fun g hg => ?_⟩
        generalize hw : PyVal.int n = w at hg
        cases hg <;> first | rfl | (try have := inj hw); simp_all

/-- **C71 (disagreement).** A negative number, which `set` takes, makes `validate` run for ever. -/
theorem C71_negative (fuel : Nat) (label : PStr) (accepted : List CardType) (optional : Bool) (errors : List PStr) (st : ScalarState) (n : Int) (hn : n < 0) :
    ∃ st', scalarSet creditCardType st (.int n) = (st', .ok true) ∧ cardValidate fuel label accepted optional st' errors cardDefaults = none := by
  have hne : ccPretty n ≠ [] := pretty_ne (by
    cases n with
    | ofNat k => exact absurd hn (by simp)
    | negSucc k => simp [decimalInt])
  refine ⟨⟨.int n, ccPretty n, some (.int n)⟩, by simp [scalarSet, creditCardType], ?_⟩
  have := C45_negative_diverges n hn fuel
  simp [cardValidate, cardDefaults, cardLoop, hne, runCheck, cardStep, luhnValidate, this, runValidator, isNone]

/-- **C71 (typed numbers).** What a user types is valid exactly if it is fifteen or more digits, spaces and dashes whose digits form a number that
passes the check digit and is of an accepted class. -/
theorem C71_typed (fuel : Nat) (label : PStr) (accepted : List CardType) (st st' : ScalarState) (errors : List PStr) (s : PStr) (b : Bool)
    (hs : scalarSet creditCardType st (.str s) = (st', .ok b)) (hf : ∀ n : Nat, TypedNumber s n → n < fuel) :
    cardValidate fuel label accepted false st' errors cardDefaults = some (errors, .ok true) ↔
      ∃ n : Nat, TypedNumber s n ∧ LuhnOK n ∧ OfClass accepted n := by
  have hne : ∀ n : Nat, ccPretty n ≠ [] := by
    intro n
    have hl : 0 < (decimal n).length := by
      obtain ⟨ds, h1, _, _, d, ds', h4, _⟩ := decimal_digits n
      rw [h1, h4]; simp
    exact pretty_ne (fun h => by rw [show decimalInt (n : Int) = decimal n from rfl] at h; rw [h] at hl; simp at hl)
  unfold scalarSet at hs
  cases ha : creditCardType.adapt (.str s) with
  | error e =>
    rw [ha] at hs
    have hno : ∀ n : Nat, ¬ TypedNumber s n := by
      intro n hn
      have := (C07_adapt_text_iff s (.int n)).2 ⟨hn.1, hn.2.1, n, hn.2.2, rfl⟩
      rw [ha] at this; cases this
    have hst : st'.value = .none := by
      cases e <;> simp at hs <;> rw [← hs.1]
    constructor
    · intro hv
      exfalso
      obtain ⟨f, hj, hu⟩ := C71_one_verdict accepted st'.u st'.value (.inl hst)
      have hnr : f ≠ some .refused := by
        rw [hst] at hj; generalize st'.u = u' at hj; cases hj <;> simp
      have hng : f ≠ none := by
        rw [hst] at hj; generalize st'.u = u' at hj; cases hj <;> simp
      rw [C71_validate_partial fuel label accepted false st' errors f (by simp [hst]) hnr (.inl rfl) hj] at hv
      cases f with
      | none => exact hng rfl
      | some f => simp [cardReport] at hv
    · rintro ⟨n, hn, _⟩
      exact absurd hn (hno n)
  | ok v =>
    rw [ha] at hs
    obtain ⟨h15, hch, n, hd, rfl⟩ := (C07_adapt_text_iff s v).1 ha
    have hst : st' = ⟨.int n, ccPretty n, some (.str s)⟩ := by
      simp [creditCardType] at hs; exact hs.1.symm
    have hn : TypedNumber s n := ⟨h15, hch, hd⟩
    have uniq : ∀ m : Nat, TypedNumber s m → m = n := by
      intro m hm
      have := (C07_adapt_text_iff s (.int m)).2 ⟨hm.1, hm.2.1, m, hm.2.2, rfl⟩
      rw [ha] at this; injection this with h; injection h with h; omega
    subst hst
    have hfu : ∀ m : Nat, (⟨.int n, ccPretty n, some (.str s)⟩ : ScalarState).value = .int m → m < fuel := by
      intro m hm; injection hm with hm; have : n = m := by omega
      subst this; exact hf n hn
    constructor
    · intro hv
      by_cases hl : LuhnOK n
      · by_cases hc : OfClass accepted n
        · exact ⟨n, hn, hl, hc⟩
        · rw [C71_refused_raises fuel label accepted false _ errors hfu (.refused (hne n) hl hc)] at hv
          simp at hv
      · rw [C71_validate_partial fuel label accepted false _ errors _ hfu (by simp) (.inl rfl) (.checkDigit (hne n) hl)] at hv
        simp [cardReport] at hv
    · rintro ⟨m, hm, hl, hc⟩
      obtain rfl := uniq m hm
      rw [C71_validate_partial fuel label accepted false _ errors _ hfu (by simp) (.inl rfl) (.good (hne m) hl hc)]
      rfl

/-- **C71 (optional).** An optional field that was left empty is valid whatever its validators, and nothing is added. -/
theorem C71_optional (fuel : Nat) (label : PStr) (accepted : List CardType) (raw : Option PyVal) (errors : List PStr) (cs : List CardCheck) :
    cardValidate fuel label accepted true ⟨.none, [], raw⟩ errors cs = some (errors, .ok true) := by
  simp [cardValidate, isNone]
end

/-- **C71 (disagreement).** Validators given to the class, with `using` or `including_validators`, have no effect on a card number field, although they
do on any other: an element has those given when it is made, or the four. -/
theorem C71_class_validators_ignored {V : Type} (defaults ofClass given : List V) :
    cardValidators defaults ofClass none = defaults ∧ cardValidators defaults ofClass (some given) = given ∧
      elementValidators ofClass none = ofClass ∧ elementValidators ofClass (some given) = given := ⟨rfl, rfl, rfl, rfl⟩

theorem label_cardName : ∀ t : CardType, t.label = cardName t := by intro t; cases t <;> rfl

/-- **C71 (disagreement).** The text made for a refused number, if it were called as meant, names the last of three or more classes twice. -/
theorem C71_text_repeats_last (accepted : List CardType) (last : CardType) (h : 2 ≤ accepted.length) :
    acceptedFormatter (accepted ++ [last]) =
      .ok ("We accept ".toList ++ pyJoin ", ".toList (accepted.map cardName) ++ ", ".toList ++ cardName last ++ ", and ".toList ++ cardName last) := by
  have hj : ∀ (l : List CardType), l ≠ [] → pyJoin ", ".toList (l.map cardName ++ [cardName last]) =
      pyJoin ", ".toList (l.map cardName) ++ (", ".toList ++ cardName last) := by
    intro l hl
    induction l with
    | nil => exact absurd rfl hl
    | cons a l ih => cases l with
      | nil => simp [pyJoin]
      | cons b l => simp only [List.map_cons, List.cons_append, pyJoin] at ih ⊢; rw [ih (by simp)]; simp
  have hne : accepted ≠ [] := by intro h'; simp [h'] at h
  unfold acceptedFormatter
  simp only [List.length_append, List.length_singleton, label_cardName, funext label_cardName]
  rw [if_pos (by omega)]
  simp only [List.getLast?_append, List.getLast?_singleton, Option.some_or, List.map_append, List.map_cons, List.map_nil, hj accepted hne]
  simp

/-- **C71.** With one or two classes that text would name each once; with none there is nothing to name. -/
theorem C71_text_few (a b : CardType) :
    acceptedFormatter [a] = .ok ("We accept ".toList ++ cardName a) ∧
    acceptedFormatter [a, b] = .ok ("We accept ".toList ++ cardName a ++ " and ".toList ++ cardName b) ∧
    acceptedFormatter [] = .error .index := by
  cases a <;> cases b <;> exact ⟨rfl, rfl, rfl⟩

/-- **C71.** Unless told otherwise, a field accepts all classes but Discover. -/
theorem C71_accepted_by_default (t : CardType) : t ∈ cardAccepted ↔ t ≠ .discover := by cases t <;> simp [cardAccepted]

section
attribute [local instance] Runtime.ascii

/-- Non-vacuity: a number that passes, one with a wrong digit, and a Discover number, which is not accepted by default. -/
example : Judged cardAccepted "4111-1111-1111-1111".toList (.int (4111111111111111 : Nat)) none ∧
    Judged cardAccepted "4111-1111-1111-1121".toList (.int (4111111111111121 : Nat)) (some .checkDigit) ∧
    Judged cardAccepted "6011-1111-1111-1117".toList (.int (6011111111111117 : Nat)) (some .refused) := by
  refine ⟨.good (by simp) ?_ ⟨.visa, by simp [cardAccepted], ?_⟩, .checkDigit (by simp) ?_, .refused (by simp) ?_ ?_⟩
  · simp [LuhnOK, luhnSum, digitsLSB, luhnWeight]
  · simp only [IsCard, HasPrefix]; omega
  · simp [LuhnOK, luhnSum, digitsLSB, luhnWeight]
  · simp [LuhnOK, luhnSum, digitsLSB, luhnWeight]
  · rintro ⟨t, ht, hc, _⟩
    have := C08_exclusive _ t .discover hc (by simp only [IsCard, HasPrefix]; omega)
    subst this
    simp [cardAccepted] at ht

/-- Non-vacuity: a number typed with dashes. -/
example : TypedNumber "4111-1111-1111-1111".toList 4111111111111111 := by
  refine ⟨by decide, by decide +kernel, by decide, [4, 1, 1, 1, 1, 1, 1, 1, 1, 1, 1, 1, 1, 1, 1, 1], by decide +kernel, by decide⟩
end
end Flatland
