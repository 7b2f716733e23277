import Verif.Proofs.ValidateRaises
import Verif.Props.Rejected
import Verif.Props.Scalars
import Verif.Props.Lists
import Verif.Props.Validators
import Verif.Props.Validate
/-!
Property theorems that complete C02, C03, C06, C25, C34 and C40: what `set` itself does with a text, arguments of list operations that
raise half way, and which false results make `validate()` raise.
-/
namespace Flatland
open Spec

section Scalars
variable [Runtime]

/-- **C02 (None that is rejected).** A constrained Boolean that does not accept False rejects None: it has no value then and the text '',
and setting it from that text is rejected as well and changes nothing – if '' is not one of the texts for True. -/
theorem C02_rejected_none (b : Builtin) (c : BoolCfg) (hb : b.base = .boolean c) (hl : ¬ ([] = c.true_ ∨ [] ∈ c.trueSyn)) (st : ScalarState)
    (hrej : (scalarSet b.type st .none).2 = .ok false) :
    let r₁ := scalarSet b.type st .none
    let r₂ := scalarSet b.type r₁.1 (.str r₁.1.u)
    r₁.1.u = [] ∧ r₂.1.u = [] ∧ r₁.1.value = .none ∧ r₂.1.value = .none ∧ r₂.2 = .ok false := by
  intro r₁ r₂
  have hadapt : ∀ (b : Builtin), b.base = .boolean c →
      (b.type.adapt .none = .ok (.bool false) ∨ b.type.adapt .none = .error .adaptation) ∧
      (b.type.adapt (.str []) = b.type.adapt .none ∨ b.type.adapt (.str []) = .error .adaptation) := by
    intro b
    induction b with
    | boolean c' =>
      intro h
      cases h
      refine ⟨.inl rfl, ?_⟩
      rw [not_or] at hl
      simp only [Builtin.type, booleanType]
      have h1 : (([] : PStr) == c.true_) = false := by simpa using hl.1
      have h2 : c.trueSyn.contains [] = false := by simpa using hl.2
      rw [h1, h2]
      simp only [Bool.or_self, Bool.false_eq_true, if_false]
      split
      · exact .inl rfl
      · exact .inr rfl
    | enum b' vs ih =>
      intro h
      obtain ⟨h1, h2⟩ := ih h
      simp only [Builtin.type, enumType, constrainedType]
      rcases h1 with h1 | h1 <;> rcases h2 with h2 | h2
      · rw [h2, h1]
        simp only [bind, Except.bind]
        split <;> simp
      · rw [h2, h1]
        simp only [bind, Except.bind]
        split <;> simp
      · rw [h2, h1]; exact ⟨.inr rfl, .inr rfl⟩
      · rw [h2, h1]; exact ⟨.inr rfl, .inr rfl⟩
    | _ => intro h; cases h
  obtain ⟨h1, h2⟩ := hadapt b hb
  have ha : b.type.adapt .none = .error .adaptation := by
    rcases h1 with h1 | h1
    · unfold scalarSet at hrej
      rw [h1] at hrej
      simp only at hrej
      split at hrej <;> cases hrej
    · exact h1
  have h3 : r₁.1 = ⟨.none, [], some .none⟩ := by
    show (scalarSet b.type st .none).1 = _
    unfold scalarSet; rw [ha]
  have h4 : b.type.adapt (.str []) = .error .adaptation := by
    rcases h2 with h2 | h2
    · rw [h2, ha]
    · exact h2
  have h5 : r₂ = (⟨.none, [], some (.str [])⟩, .ok false) := by
    show scalarSet b.type r₁.1 (.str r₁.1.u) = _
    rw [h3]; exact scalarSet_text_err h4
  rw [h3, h5]
  exact ⟨rfl, rfl, rfl, rfl, rfl⟩

/-- **C03 (set of a text).** Whatever a Date held before: a text that is a real date is taken, with that date as its value and its form as its
text; any other text is refused with False and kept as it is, with no value. `set` of a text never raises. -/
theorem C03_set_date (b : Bool) (st : ScalarState) (s : PStr) :
    let r := scalarSet (dateType b) st (.str s)
    (∀ core y m d, Around b s core → DateText core y m d → RealDate y m d → r.2 = .ok true ∧ r.1.value = .date y m d ∧ DateText r.1.u y m d) ∧
    ((¬ ∃ core y m d, Around b s core ∧ DateText core y m d ∧ RealDate y m d) → r.2 = .ok false ∧ r.1.value = .none ∧ r.1.u = s) := by
  refine ⟨fun core y m d h1 h2 h3 => ?_, fun hn => ?_⟩
  · have ha := (C03_date_iff b s (.date y m d)).2 ⟨core, y, m, d, h1, h2, h3, rfl⟩
    have : scalarSet (dateType b) st (.str s) = (⟨.date y m d, fmtDate y m d, some (.str s)⟩, .ok true) := by
      unfold scalarSet; rw [ha]; rfl
    rw [this]
    exact ⟨rfl, rfl, fmtDate_text h3⟩
  · have ha : (dateType b).adapt (.str s) = .error .adaptation := by
      refine date_err fun v hv => hn ?_
      obtain ⟨core, y, m, d, h1, h2, h3, _⟩ := (C03_date_iff b s v).1 hv
      exact ⟨core, y, m, d, h1, h2, h3⟩
    rw [scalarSet_text_err ha]
    exact ⟨rfl, rfl, rfl⟩

/-- **C03 (set of a text).** The same for a Time. -/
theorem C03_set_time (b : Bool) (st : ScalarState) (s : PStr) :
    let r := scalarSet (timeType b) st (.str s)
    (∀ core h mi sec, Around b s core → TimeText core h mi sec → RealTime h mi sec →
      r.2 = .ok true ∧ r.1.value = .time h mi sec 0 ∧ TimeText r.1.u h mi sec) ∧
    ((¬ ∃ core h mi sec, Around b s core ∧ TimeText core h mi sec ∧ RealTime h mi sec) → r.2 = .ok false ∧ r.1.value = .none ∧ r.1.u = s) := by
  refine ⟨fun core y m d h1 h2 h3 => ?_, fun hn => ?_⟩
  · have ha := (C03_time_iff b s (.time y m d 0)).2 ⟨core, y, m, d, h1, h2, h3, rfl⟩
    have : scalarSet (timeType b) st (.str s) = (⟨.time y m d 0, fmtTime y m d, some (.str s)⟩, .ok true) := by
      unfold scalarSet; rw [ha]; rfl
    rw [this]
    exact ⟨rfl, rfl, fmtTime_text h3⟩
  · have ha : (timeType b).adapt (.str s) = .error .adaptation := by
      refine time_err fun v hv => hn ?_
      obtain ⟨core, y, m, d, h1, h2, h3, _⟩ := (C03_time_iff b s v).1 hv
      exact ⟨core, y, m, d, h1, h2, h3⟩
    rw [scalarSet_text_err ha]
    exact ⟨rfl, rfl, rfl⟩

/-- **C03 (set of a text).** The same for a DateTime. -/
theorem C03_set_dateTime (b : Bool) (st : ScalarState) (s : PStr) :
    let r := scalarSet (dateTimeType b) st (.str s)
    (∀ dt tt y m d h mi sec, Around b s (dt ++ ' ' :: tt) → DateText dt y m d → TimeText tt h mi sec → RealDate y m d → RealTime h mi sec →
      r.2 = .ok true ∧ r.1.value = .datetime y m d h mi sec 0 ∧ ∃ dt' tt', r.1.u = dt' ++ ' ' :: tt' ∧ DateText dt' y m d ∧ TimeText tt' h mi sec) ∧
    ((¬ ∃ dt tt y m d h mi sec, Around b s (dt ++ ' ' :: tt) ∧ DateText dt y m d ∧ TimeText tt h mi sec ∧ RealDate y m d ∧ RealTime h mi sec) →
      r.2 = .ok false ∧ r.1.value = .none ∧ r.1.u = s) := by
  refine ⟨fun dt tt y m d h mi sec h1 h2 h3 h4 h5 => ?_, fun hn => ?_⟩
  · have ha := (C03_dateTime_iff b s (.datetime y m d h mi sec 0)).2 ⟨dt, tt, y, m, d, h, mi, sec, h1, h2, h3, h4, h5, rfl⟩
    have : scalarSet (dateTimeType b) st (.str s) =
        (⟨.datetime y m d h mi sec 0, fmtDate y m d ++ ' ' :: fmtTime h mi sec, some (.str s)⟩, .ok true) := by
      unfold scalarSet; rw [ha]; rfl
    rw [this]
    exact ⟨rfl, rfl, _, _, rfl, fmtDate_text h4, fmtTime_text h5⟩
  · have ha : (dateTimeType b).adapt (.str s) = .error .adaptation := by
      refine dateTime_err fun v hv => hn ?_
      obtain ⟨dt, tt, y, m, d, h, mi, sec, h1, h2, h3, h4, h5, _⟩ := (C03_dateTime_iff b s v).1 hv
      exact ⟨dt, tt, y, m, d, h, mi, sec, h1, h2, h3, h4, h5⟩
    rw [scalarSet_text_err ha]
    exact ⟨rfl, rfl, rfl⟩

/-- **C06 (set of a text).** A Boolean set from a text is True, with the literal of True as its text, for the literal and synonyms of True; else
False, with its literal, for those of False; any other text is refused with False and kept, with no value. -/
theorem C06_set_text (c : BoolCfg) (st : ScalarState) (s : PStr) :
    let r := scalarSet (booleanType c) st (.str s)
    ((s = c.true_ ∨ s ∈ c.trueSyn) → r.2 = .ok true ∧ r.1.value = .bool true ∧ r.1.u = c.true_) ∧
    (¬ (s = c.true_ ∨ s ∈ c.trueSyn) → (s = c.false_ ∨ s ∈ c.falseSyn) → r.2 = .ok true ∧ r.1.value = .bool false ∧ r.1.u = c.false_) ∧
    (¬ (s = c.true_ ∨ s ∈ c.trueSyn) → ¬ (s = c.false_ ∨ s ∈ c.falseSyn) → r.2 = .ok false ∧ r.1.value = .none ∧ r.1.u = s) := by
  obtain ⟨h1, h2, h3⟩ := C06_boolean_text c s
  refine ⟨fun ht => ?_, fun hn hf => ?_, fun hn hf => ?_⟩
  · have : scalarSet (booleanType c) st (.str s) = (⟨.bool true, c.true_, some (.str s)⟩, .ok true) := by
      unfold scalarSet; rw [h1.2 ht]; rfl
    rw [this]; exact ⟨rfl, rfl, rfl⟩
  · have : scalarSet (booleanType c) st (.str s) = (⟨.bool false, c.false_, some (.str s)⟩, .ok true) := by
      unfold scalarSet; rw [h2.2 ⟨hn, hf⟩]; rfl
    rw [this]; exact ⟨rfl, rfl, rfl⟩
  · rw [scalarSet_text_err (h3.2 ⟨hn, hf⟩)]
    exact ⟨rfl, rfl, rfl⟩

open Classical in
/-- C40. ValueBetween looks at the lower bound first: a value that cannot be compared with it raises TypeError; one that misses it is noted
without looking at the upper bound; otherwise a value that cannot be compared with the upper bound raises TypeError. -/
theorem C40_between_incomparable (e : Checked) (lo hi : PyVal) (inclusive : Bool) :
    (¬ Comparable lo e.value → runValidator e (.valueBetween lo hi inclusive) = .error .type) ∧
    (Comparable lo e.value → ¬ (Less lo e.value ∨ inclusive = true ∧ Same lo e.value) →
      runValidator e (.valueBetween lo hi inclusive) = .ok (some (failureKey (.valueBetween lo hi inclusive)).toList)) ∧
    ((Less lo e.value ∨ inclusive = true ∧ Same lo e.value) → ¬ Comparable e.value hi →
      runValidator e (.valueBetween lo hi inclusive) = .error .type) := by
  refine ⟨fun h => ?_, fun hc hn => ?_, fun h h' => ?_⟩
  · cases inclusive <;> simp [runValidator, pyLt, pyLe, incomparable h, Except.map, failUnless, andThen]
  · obtain ⟨h1, h2, _⟩ := comparisons hc
    rw [not_or] at hn
    cases inclusive
    · rw [decide_eq_false hn.1] at h1
      simp [runValidator, h1, failUnless, andThen, failureKey]
    · have hno : ¬ AtMost lo e.value := fun hh => hh.elim hn.1 (fun hh => hn.2 ⟨rfl, hh⟩)
      rw [decide_eq_false hno] at h2
      simp [runValidator, h2, failUnless, andThen, failureKey]
  · have hc : Comparable lo e.value := h.elim .inl (fun h => .inr (.inl h.2))
    obtain ⟨h1, h2, _⟩ := comparisons hc
    have h3 : pyLt e.value hi = .error .type := by simp [pyLt, incomparable h', Except.map]
    have h4 : pyLe e.value hi = .error .type := by simp [pyLe, incomparable h', Except.map]
    cases inclusive
    · rw [decide_eq_true (h.resolve_right (fun h => by cases h.1))] at h1
      simp [runValidator, h1, h3, failUnless, andThen]
    · rw [decide_eq_true (h.elim .inl (fun h => .inr h.2))] at h2
      simp [runValidator, h2, h4, failUnless, andThen]

end Scalars

/-! ### C25: arguments that raise -/

section Lists
variable {V E : Type}

/-- **C25 (arguments that raise).** When no member can be made of the argument, `insert` and `remove` of a List, and `append`, `insert`, item
assignment and `remove` of an Array, raise that exception and change nothing. -/
theorem C25_bad_argument (c : MemberClass V E) (a : Arg V E) (er : PyErr) (h : asElement c a = .error er) (i : Int) :
    (∀ st : Slots E, listInsert c st i a = (st, .error er) ∧ listRemove c st a = (st, .error er)) ∧
    (∀ st : List E, seqAppend c st a = (st, .error er) ∧ seqInsert c st i a = (st, .error er) ∧ seqSetItem c st i a = (st, .error er) ∧
      seqRemove c st a = (st, .error er)) := by
  constructor
  · intro st; simp [listInsert, listRemove, h]
  · intro st; simp [seqAppend, seqInsert, seqSetItem, seqRemove, h]

/-- **C25 (iterables that raise).** When an item of an iterable makes no member, or the iterable raises after some items, `extend` keeps the
members made before and raises that exception – as Python's own `extend` does with an iterator that raises – and slice assignment
changes nothing. -/
theorem C25_bad_iterable (c : MemberClass V E) (as : List (Arg V E)) (es : List E) (h : Becomes c as es) (it : Iter V E) (er : PyErr)
    (hit : it = ⟨as, some er⟩ ∨ ∃ a more f, it = ⟨as ++ a :: more, f⟩ ∧ asElement c a = .error er) (a b s : Option Int) :
    (∀ st : Slots E, members (listExtend c st it).1 = members st ++ es ∧ (listExtend c st it).2 = .error er ∧
      listSetSlice c st a b s it = (st, .error er)) ∧
    (∀ st : List E, seqExtend c st it = (st ++ es, .error er) ∧ seqSetSlice c st a b s it = (st, .error er)) := by
  have hiter : iterElements c it = .error er := by
    unfold iterElements
    rcases hit with rfl | ⟨x, more, f, rfl, hx⟩
    · rw [asElements_becomes.1 h]
    · have : ∀ (l : List (Arg V E)) es, Becomes c l es → asElements c (l ++ x :: more) = .error er := by
        intro l
        induction l with
        | nil => intro es _; simp [asElements, hx]
        | cons y l ih =>
          intro es he
          rw [asElements_becomes] at he
          simp only [asElements] at he
          split at he
          · cases he
          · rename_i e hy
            split at he
            · cases he
            · rename_i es' hl
              have := ih es' (asElements_becomes.2 hl)
              simp [asElements, hy, this]
      rw [this as es h]
  have hlist : ∀ (l : List (Arg V E)) (es : List E), Becomes c l es → ∀ (st : Slots E) (tail : List (Arg V E)),
      ∃ st', members st' = members st ++ es ∧ listExtendLoop c st (l ++ tail) = listExtendLoop c st' tail := by
    intro l
    induction l with
    | nil =>
      intro es he st tail
      cases es with
      | nil => exact ⟨st, by simp, rfl⟩
      | cons e es => exact he.elim
    | cons y l ih =>
      intro es he st tail
      rw [asElements_becomes] at he
      simp only [asElements] at he
      split at he
      · cases he
      · rename_i e hy
        split at he
        · cases he
        · rename_i es' hl
          cases he
          obtain ⟨st', h1, h2⟩ := ih es' (asElements_becomes.2 hl) (st ++ [newSlot st e]) tail
          refine ⟨st', by rw [h1]; simp [members, newSlot], ?_⟩
          rw [List.cons_append, listExtendLoop]
          simp only [listAppend, hy]
          exact h2
  have hseq : ∀ (l : List (Arg V E)) (es : List E), Becomes c l es → ∀ (st : List E) (tail : List (Arg V E)),
      seqExtendLoop c st (l ++ tail) = seqExtendLoop c (st ++ es) tail := by
    intro l
    induction l with
    | nil =>
      intro es he st tail
      cases es with
      | nil => simp
      | cons e es => exact he.elim
    | cons y l ih =>
      intro es he st tail
      rw [asElements_becomes] at he
      simp only [asElements] at he
      split at he
      · cases he
      · rename_i e hy
        split at he
        · cases he
        · rename_i es' hl
          cases he
          rw [List.cons_append, seqExtendLoop]
          simp only [seqAppend, hy]
          rw [ih es' (asElements_becomes.2 hl)]
          simp
  constructor
  · intro st
    refine ⟨?_, ?_, by simp [listSetSlice, hiter]⟩ <;>
    · rcases hit with rfl | ⟨x, more, f, rfl, hx⟩
      · obtain ⟨st', h1, h2⟩ := hlist as es h st []
        rw [List.append_nil] at h2
        simp [listExtend, h2, listExtendLoop, h1]
      · obtain ⟨st', h1, h2⟩ := hlist as es h st (x :: more)
        simp [listExtend, h2, listExtendLoop, listAppend, hx, h1]
  · intro st
    refine ⟨?_, by simp [seqSetSlice, hiter]⟩
    rcases hit with rfl | ⟨x, more, f, rfl, hx⟩
    · have := hseq as es h st []
      rw [List.append_nil] at this
      simp [seqExtend, this, seqExtendLoop]
    · simp [seqExtend, hseq as es h st (x :: more), seqExtendLoop, seqAppend, hx]

end Lists

/-! ### C34: results that make validate() raise -/

section Validate
variable {I D : Type} [DecidableEq I]

/-- C34. A result that is false but no int (such as '') makes `validate()` raise TypeError exactly if no result before it was false – then it is
the last element looked at; after another false result it counts as false like any other. -/
theorem C34_false_object (env : VEnv I D) (hf : FlagsUntouched env) (fuel : Nat) (root : I) (st : VState I D) (r : VRun I D)
    (h : validateTree env fuel root st = some r) (pre post : List (I × Verdict)) (i : I) (hr : r.downs ++ r.ups = pre ++ (i, .noObj) :: post)
    (hp : ∀ p ∈ pre, Good p.2) : r.result = .error .type ∧ post = [] := by
  simp only [good_iff] at hp
  rcases validateTree_outcome hf h with ⟨h1, _⟩ | ⟨h1, j, rest, h2, h3⟩
  · obtain ⟨p, hpm, hpt⟩ := h1 pre i post hr
    rw [hp p hpm] at hpt
    cases hpt
  · refine ⟨h1, ?_⟩
    rw [h2] at hr
    rcases List.append_eq_append_iff.1 hr with ⟨as, e1, e2⟩ | ⟨bs, e1, e2⟩
    · cases as with
      | nil => simp only [List.nil_append, List.cons.injEq] at e2; exact e2.2.symm
      | cons x xs => simp at e2
    · cases bs with
      | nil => simp only [List.nil_append, List.cons.injEq] at e2; exact e2.2
      | cons x xs =>
        simp only [List.cons_append, List.cons.injEq] at e2
        have := h3 (i, .noObj) (by rw [e1, ← e2.1]; simp)
        cases this

/-- C34. And nothing else makes it raise but what validators raise themselves: if none of them does and the first false result, if any, is an
int or None, `validate()` returns. -/
theorem C34_returns (env : VEnv I D) (hf : FlagsUntouched env) (fuel : Nat) (root : I) (st : VState I D) (r : VRun I D)
    (h : validateTree env fuel root st = some r) (hno : ∀ i s er, (env.down i s).2 ≠ .error er ∧ (env.up i s).2 ≠ .error er)
    (hfirst : ∀ pre i post, r.downs ++ r.ups = pre ++ (i, .noObj) :: post → ∃ p ∈ pre, ¬ Good p.2) : ∃ b, r.result = .ok b := by
  simp only [good_iff, Bool.not_eq_true] at hfirst
  rcases validateTree_outcome hf h with ⟨_, h2⟩ | ⟨_, j, rest, h2, h3⟩
  · rcases h2 with h2 | ⟨er, i, s, s', _, hd | hd⟩
    · exact h2
    · exact absurd (by rw [hd]) (hno i s er).1
    · exact absurd (by rw [hd]) (hno i s er).2
  · obtain ⟨p, hp, ht⟩ := hfirst rest j [] h2
    rw [h3 p hp] at ht
    cases ht

end Validate

/-! ### Concrete cases meeting the hypotheses -/

section Examples
attribute [local instance] Runtime.ascii

-- an Enum of True only rejects None
example : (scalarSet (Builtin.enum (.boolean {}) [.bool true]).type .fresh .none).2 = .ok false ∧
    (Builtin.enum (.boolean {}) [.bool true]).base = .boolean {} ∧
    ¬ (([] : PStr) = ({} : BoolCfg).true_ ∨ [] ∈ ({} : BoolCfg).trueSyn) := by
  refine ⟨rfl, rfl, ?_⟩
  decide

-- a bound of the wrong type: 5 lies above 1 and cannot be compared with 'x'
example : Less (.int 1) (.int 5) ∧ ¬ Comparable (.int 5) (.str ['x']) := by
  refine ⟨.number rfl rfl (by decide), ?_⟩
  intro h
  exact (C40_none_incomparable .none ['x'] 5).2 (h.elim (fun h => .inr (.inr h)) (fun h => h.elim (fun h => .inr (.inl ((same_comm _ _).1 h))) .inl))

-- members made of numbers that are not negative: -1 makes no member, and an iterable may end with an exception of its own
private def exClass : MemberClass Int Int where
  blank := 0
  make v := if v < 0 then .error .value else .ok v
  set e _ := (e, .ok true)
  eq a b := a == b
example : asElement exClass (.val (-1)) = .error .value ∧ Becomes exClass [.val 3, .val 4] [3, 4] ∧
    seqExtend exClass [1, 2] ⟨[.val 3, .val 4, .val (-1), .val 5], none⟩ = ([1, 2, 3, 4], .error .value) ∧
    seqExtend exClass [1, 2] ⟨[.val 3], some .key⟩ = ([1, 2, 3], .error .key) :=
  ⟨rfl, ⟨rfl, rfl, trivial⟩, rfl, rfl⟩

-- a false object: the second element's, after a true result, raises; the first one's False comes first in the other run
example : (validateTree (exEnv (fun i => if i = 2 then .noObj else .yes) (fun _ => .yes)) 20 0 exStart).map
    (fun r => (r.downs.map Prod.snd, r.ups.map Prod.snd, r.result)) = some ([.yes, .yes, .noObj], [], .error .type) := by rfl
example : (validateTree (exEnv (fun i => if i = 2 then .noObj else .no) (fun _ => .yes)) 20 0 exStart).map (fun r => r.result) =
    some (.ok false) := by rfl

end Examples

end Flatland
