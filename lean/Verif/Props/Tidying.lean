import Verif.Proofs.Tidying6
/-!
# C84 Validators that tidy up their element

NANPphone sets its element to the number in the usual notation, NANPnxx assigns its text and URLCanonicalizer its value.  Here a whole form is
validated with such validators.
-/
namespace Flatland
open Flatland.Spec

section
variable [Runtime]

/-- **C84.** Validation that returns changes the data of scalars and nothing else of the form.  Each scalar is judged by its validators, one
after the other, each seeing what those before it have done, and what was done to the elements before it: those nearer to the root, and those on the
same level to the left.  Each container is judged by its own validators in the form as it is in the end.  `valid` and the messages are what comes of this,
and validation returns True iff all elements pass. -/
theorem C84_validate {e : Elem} (he : e ≠ .absent) {rules : Pos → ActRules} {n : Nat} {flag : Pos → Flag} {errors : Pos → List PStr} {r : TidyRun} {b : Bool}
    (h : validateActing e rules n flag errors = some r) (hb : r.result = .ok b) :
    OtherData e r.form ∧ ∃ (ok : Pos → Bool) (down up : Pos → Option PStr),
      (∀ p k, elemAt e p = some k → Treated rules e r.form p k (ok p) (down p) (up p) ∧
        r.flag p = (if ok p then .yes else .no) ∧ r.errors p = plusMessage (plusMessage (errors p) (down p)) (up p)) ∧
      (b = true ↔ ∀ p k, elemAt e p = some k → ok p = true) ∧
      ∀ p, elemAt e p = none → r.flag p = flag p ∧ r.errors p = errors p := acting_summary he h hb

/-- **C84.** It ends, whatever the validators do to their elements. -/
theorem C84_ends (e : Elem) (he : e ≠ .absent) (rules : Pos → ActRules) (flag : Pos → Flag) (errors : Pos → List PStr) :
    ∃ r n, ∀ m, n ≤ m → validateActing e rules m flag errors = some r := by
  obtain ⟨r, n, h⟩ := C34_terminates (actEnv e rules) (childPositions e) (fun _ _ => rfl) [] (childPositions_finite e he)
    { flag := flag, data := cellsOf e errors }
  exact ⟨_, n, fun m hm => by unfold validateActing; rw [h m hm]; rfl⟩

/-- **C84.** If the validators answer in all forms of some kind, and leave the form one of that kind, then validation returns, and the form
is one of that kind afterwards. -/
theorem C84_answers {Inv : Elem → Prop} {e : Elem} (he : e ≠ .absent) (hi : Inv e) {rules : Pos → ActRules}
    (ha : ∀ p k, elemAt e p = some k → AnswersIn Inv e p (rules p).validators ∧ (containerElem k = true → AnswersIn Inv e p (rules p).descent))
    {n : Nat} {flag : Pos → Flag} {errors : Pos → List PStr} {r : TidyRun} (h : validateActing e rules n flag errors = some r) :
    (∃ b, r.result = .ok b) ∧ Inv r.form := acting_answers he hi ha h

/-- **C84.** With validators that change nothing it is the validation of C74, and the form stays as it is. -/
theorem C84_reading (e : Elem) (rules : Pos → FieldRules) (n : Nat) (flag : Pos → Flag) (errors : Pos → List PStr) :
    validateActing e (actingRules rules) n flag errors =
      (validateForm e rules n { flag := flag, data := errors }).map fun r =>
        { form := e, flag := r.state.flag, errors := r.state.data, result := r.result } := validateActing_acting e rules n flag errors

/-- **C84.** A scalar whose validators look at its own data only: what it becomes, and if it is valid, does not depend on the rest of the form. -/
theorem C84_own {e : Elem} (he : e ≠ .absent) {rules : Pos → ActRules} {n : Nat} {flag : Pos → Flag} {errors : Pos → List PStr} {r : TidyRun} {b : Bool}
    (h : validateActing e rules n flag errors = some r) (hb : r.result = .ok b) {p : Pos} {name : Option PStr} {st : ScalarState}
    (hp : elemAt e p = some (.scalar name st)) {fs : List (ScalarState → ScalarState × Except PyErr Answer)} (hw : WorkOn (rules p).validators fs) :
    ∃ ok st', elemAt r.form p = some (.scalar name st') ∧ OwnJudged (rules p) fs st st' ok ∧ r.flag p = if ok then .yes else .no := by
  obtain ⟨hf, ok, down, up, h1, _⟩ := acting_summary he h hb
  exact ⟨ok p, stateAt r.form p, sameFrame_get hf hp, treated_own (h1 p _ hp).1 hp hw, (h1 p _ hp).2.1⟩

/-- **C84.** Validating again: if the validators of each scalar look at its own data only and settle it, then a second validation, if it returns,
gives the same result, changes no element, and neither the flags, nor the messages of containers and of valid elements. -/
theorem C84_again {e : Elem} (he : e ≠ .absent) {rules : Pos → ActRules} (hd : ∀ p, (rules p).descent = [])
    (hs : ∀ p n st, elemAt e p = some (.scalar n st) → ∃ fs, WorkOn (rules p).validators fs ∧ Settles (rules p) fs)
    {n m : Nat} {flag : Pos → Flag} {errors : Pos → List PStr} {r r' : TidyRun} {b b' : Bool}
    (h : validateActing e rules n flag errors = some r) (hb : r.result = .ok b)
    (h' : validateActing r.form rules m r.flag r.errors = some r') (hb' : r'.result = .ok b') :
    r'.form = r.form ∧ b' = b ∧ r'.flag = r.flag ∧
      ∀ p k, elemAt e p = some k → containerElem k = true ∨ r.flag p = .yes → r'.errors p = r.errors p := again he hd hs h hb h' hb'

/-- **C84.** The package's validators that do not change the element, with NANPphone of a String or NANPnxx at most before them, are of that kind. -/
theorem C84_settles (repr : PStr → PStr) (c : ActRules) (checks : List (Check × (Elem → Pos → Noter))) (ext : PhoneExt) (doStrip : Bool)
    (noter : Elem → Pos → Noter) (first : List ActRule)
    (hf : first = [] ∨ first = [phoneRule ext (stringType doStrip) noter] ∨ first = [nxxRule noter]) :
    ∃ fs, WorkOn (first ++ checks.map fun x => (checkRule repr x.1 x.2).acting) fs ∧ Settles c fs := by
  have hw : WorkOn (checks.map fun x => (checkRule repr x.1 x.2).acting)
      (checks.map fun x => fun (st : ScalarState) => (st, (runValidator ⟨st.value, st.u, false⟩ x.1).map answerOf)) := by
    induction checks with
    | nil => exact .nil
    | cons x xs ih => exact .cons (checkRule_works repr x.1 x.2) ih
  have hr : ∀ f ∈ checks.map (fun x => fun (st : ScalarState) => (st, (runValidator ⟨st.value, st.u, false⟩ x.1).map answerOf)), ∀ st, (f st).1 = st := by
    intro f hf st
    obtain ⟨x, _, rfl⟩ := List.mem_map.1 hf
    rfl
  rcases hf with rfl | rfl | rfl
  · exact ⟨_, hw, settles_reads hr⟩
  · exact ⟨_, .cons (scalarAct_works _ _) hw, settles_tidy (phone_tidies ext doStrip c.textual) hr⟩
  · exact ⟨_, .cons (scalarAct_works _ _) hw, settles_tidy (nxx_tidies c.textual) hr⟩

/-- **C84.** A String in a valid form, with NANPphone followed by validators that change nothing, not blank and optional, holding a text whose digits
are ASCII: there are at least ten of them, and it now holds the number in the usual notation, as value, as text and as raw input. -/
theorem C84_phone {e : Elem} (he : e ≠ .absent) {rules : Pos → ActRules} {n : Nat} {flag : Pos → Flag} {errors : Pos → List PStr} {r : TidyRun} {b : Bool}
    (h : validateActing e rules n flag errors = some r) (hb : r.result = .ok b) {p : Pos} {name : Option PStr} {st : ScalarState}
    (hp : elemAt e p = some (.scalar name st)) (hfl : r.flag p = .yes) {ext : PhoneExt} {doStrip : Bool} {noter : Elem → Pos → Noter} {rest : List FormRule}
    (hr : (rules p).validators = phoneRule ext (stringType doStrip) noter :: rest.map FormRule.acting)
    (hx : ¬ Excused (rules p).field (.scalar name st)) {s : PStr} (hv : st.value = .str s ∨ (st.value = .none ∧ st.u = s)) (hs : PlainDigits s) :
    10 ≤ (digitsOf s).length ∧
      elemAt r.form p = some (.scalar name { value := .str (phoneText (digitsOf s)), u := phoneText (digitsOf s), raw := some (.str (phoneText (digitsOf s))) }) := by
  obtain ⟨hf, ok, down, up, h1, _⟩ := acting_summary he h hb
  obtain ⟨t1, t2, _⟩ := h1 p _ hp
  rw [hfl] at t2
  have hok : ok p = true := flag_ofBool_inj (b := true) t2.symm
  rw [hok] at t1
  obtain ⟨_, t, j, hst⟩ := treated_scalar t1
  have hseen : elemAt (seenFrom e r.form p) p = some (.scalar name st) := seenFrom_here hp
  rw [hr] at j
  generalize down p = dn at j
  cases j with
  | excused g1 g2 => rw [hseen] at g1; cases g1; exact absurd g2 hx
  | given g1 g2 g3 => cases g3
  | inTurn g1 g2 g3 g4 =>
    cases g4 with
    | @next _ _ _ s1 _ _ _ ha g5 =>
      have hact := (scalarAct_works (fun st => ((nanpPhoneValidate ext (stringType doStrip) st).1,
        (nanpPhoneValidate ext (stringType doStrip) st).2.map answerOf)) noter) _ _ _ _ hseen
      have ha' : (scalarAct (fun st => ((nanpPhoneValidate ext (stringType doStrip) st).1,
        (nanpPhoneValidate ext (stringType doStrip) st).2.map answerOf)) noter).act (seenFrom e r.form p) p = (s1, .ok .yes) := ha
      rw [ha'] at hact
      simp only at hact
      have hsame := changedAt_same hseen s1
      have hrest : elemAt t p = some (.scalar name (s1.getD st)) := by
        have key : ∀ (rest : List FormRule) (a : Elem), elemAt a p = some (.scalar name (s1.getD st)) →
            InTurn p a (rest.map FormRule.acting) t true dn → elemAt t p = some (.scalar name (s1.getD st)) := by
          intro rest
          induction rest with
          | nil => intro a ha hi; cases hi; exact ha
          | cons x rest ih =>
            intro a ha hi
            rw [List.map_cons] at hi
            cases hi with
            | next k1 k2 =>
              simp only [FormRule.acting, Prod.mk.injEq] at k1
              obtain ⟨rfl, _⟩ := k1
              exact ih _ ha k2
        exact key rest _ hsame g5
      rw [hact.1] at hrest
      have hfin : elemAt r.form p = some (.scalar name (nanpPhoneValidate ext (stringType doStrip) st).1) := by
        rw [sameFrame_get hf hp, hst, stateAt_scalar hrest]
      rcases C66_phone_element ext doStrip st s hv with ⟨_, k2⟩ | ⟨t', k1, k2, _⟩
      · exfalso
        apply k2
        cases hres : (nanpPhoneValidate ext (stringType doStrip) st).2 with
        | error er => rw [hres] at hact; cases hact.2
        | ok o =>
          cases o with
          | none => rfl
          | some key => rw [hres] at hact; cases hact.2
      · rw [k2] at hfin
        obtain ⟨p1, p2, p3, p4, p5⟩ := C66_phone ext s hs
        have hlen : ¬ (digitsOf s).length < 10 := by
          intro hlt; rw [p1 hlt] at k1; cases k1
        have ht : t' = phoneText (digitsOf s) := by
          by_cases h10 : (digitsOf s).length = 10
          · rw [p2 h10] at k1; cases k1; rfl
          · have hgt : 10 < (digitsOf s).length := by omega
            cases hext : ext with
            | refuse => rw [p3 hgt hext] at k1; cases k1
            | strip => rw [p4 hgt hext] at k1; cases k1; rfl
            | keep => rw [p5 hgt hext] at k1; cases k1
        subst ht
        exact ⟨by omega, hfin⟩

/-- **C84.** What the later validators have checked holds of the data in the end: if an element is valid, and not blank and optional in the end, it
passes each of the package's checks that come after all validators that change it. -/
theorem C84_checked_after (repr : PStr → PStr) {e : Elem} (he : e ≠ .absent) {rules : Pos → ActRules} {n : Nat} {flag : Pos → Flag} {errors : Pos → List PStr}
    {r : TidyRun} {b : Bool} (h : validateActing e rules n flag errors = some r) (hb : r.result = .ok b) {p : Pos} {k : Elem}
    (hp : elemAt r.form p = some k) (hfl : r.flag p = .yes) {pre : List ActRule} {checks : List Check} {noter : Elem → Pos → Noter}
    (hr : (rules p).validators = pre ++ (checks.map fun c => checkRule repr c noter).map FormRule.acting)
    (hx : ¬ Excused (rules p).field k) {c : Check} (hc : c ∈ checks) (ha : Applies (checked repr k) c) : Meets (checked repr k) c := by
  obtain ⟨hf, ok, down, up, h1, _⟩ := acting_summary he h hb
  obtain ⟨k0, hk0, hcont, _⟩ := sameFrame_at' hf hp
  obtain ⟨t1, t2, _⟩ := h1 p _ hk0
  rw [hfl] at t2
  have hok : ok p = true := flag_ofBool_inj (b := true) t2.symm
  rw [hok] at t1
  have hpass : ∃ t, elemAt t p = some k ∧ Passes t p (checkRule repr c noter) := by
    by_cases hck : containerElem k0 = true
    · unfold Treated at t1
      rw [if_pos hck] at t1
      obtain ⟨okDown, okUp, g1, g2, _⟩ := t1
      have g1' : okDown = true ∧ okUp = true := by simpa using g1.symm
      obtain ⟨rfl, rfl⟩ := g1'
      rw [hr] at g2
      exact ⟨_, hp, judgedBy_checks g2 hp hx _ (List.mem_map.2 ⟨c, hc, rfl⟩)⟩
    · obtain ⟨nm, s, rfl⟩ := scalar_of_not (elemAt_some_ne hk0) (by simpa using hck)
      obtain ⟨_, t, j, hst⟩ := treated_scalar t1
      have ht : elemAt t p = some k := by
        rw [sameFrame_get (judgedBy_frame j) (seenFrom_here hk0), ← hst, ← sameFrame_get hf hk0, hp]
      rw [hr] at j
      exact ⟨t, ht, judgedBy_checks j ht hx _ (List.mem_map.2 ⟨c, hc, rfl⟩)⟩
  obtain ⟨t, ht, hps⟩ := hpass
  have hdec : (checkRule repr c noter).decide t p = runValidator (checked repr k) c := by
    simp only [checkRule, ht, checked]
    cases k <;> rfl
  rw [Passes, hdec] at hps
  rcases Classical.em (Meets (checked repr k) c) with hm | hm
  · exact hm
  · rw [(C40_exact (checked repr k) c ha).2 hm] at hps; cases hps

/-- **C84.** NotDuplicated after validators that tidy up: in a valid form the members of a container – of a sequence of scalars, say – are all
different in the end, except for those that are blank and optional.  So numbers written differently count as duplicates if they are the same in the usual notation. -/
theorem C84_all_different (op : Elem → Elem → Bool) (noter : Elem → Pos → Noter) {e : Elem} (he : e ≠ .absent) {rules : Pos → ActRules} {n : Nat}
    {flag : Pos → Flag} {errors : Pos → List PStr} {r : TidyRun} (h : validateActing e rules n flag errors = some r) (hb : r.result = .ok true)
    {p : Pos} {k : Elem} (hk : elemAt r.form p = some k) {i j : Nat} (hij : j < i) {c d : Elem} (hi : k.kids[i]? = some c) (hj : k.kids[j]? = some d)
    (hcp : c ≠ .absent) (hdp : d ≠ .absent) (hsc : containerElem c = true ∨ containerElem d = false)
    {pre : List ActRule} {post : List FormRule} (hr : (rules (p ++ [i])).validators = pre ++ post.map FormRule.acting)
    (hnd : notDuplicatedRule (fun a b => .ok (op a b)) noter ∈ post) (hx : ¬ Excused (rules (p ++ [i])).field c) : op c d = false := by
  obtain ⟨hf, ok, down, up, h1, h2, _⟩ := acting_summary he h hb
  have hci := elemAt_child hk hi hcp
  have hdj := elemAt_child hk hj hdp
  obtain ⟨c0, hc0, hcc, _⟩ := sameFrame_at' hf hci
  obtain ⟨d0, hd0, hdc, _⟩ := sameFrame_at' hf hdj
  have hok := h2.1 rfl _ _ hc0
  have t1 := (h1 _ _ hc0).1
  rw [hok] at t1
  have kidOf : ∀ (t k x : Elem) (i : Nat), elemAt t p = some k → elemAt t (p ++ [i]) = some x → k.kids[i]? = some x := by
    intro t k x i hk hx
    rw [elemAt_snoc t p i hk] at hx
    cases hki : k.kids[i]? with
    | none => rw [hki] at hx; cases hx
    | some y =>
      rw [hki] at hx
      simp only [Option.bind_some] at hx
      by_cases hy : y = .absent
      · subst hy; simp [elemAt_absent] at hx
      · rw [elemAt_nil y hy] at hx; exact hx
  have hpass : ∃ t kt, elemAt t p = some kt ∧ kt.kids[i]? = some c ∧ kt.kids[j]? = some d ∧
      Passes t (p ++ [i]) (notDuplicatedRule (fun a b => .ok (op a b)) noter) := by
    by_cases hck : containerElem c0 = true
    · unfold Treated at t1
      rw [if_pos hck] at t1
      obtain ⟨okDown, okUp, g1, g2, _⟩ := t1
      have g1' : okDown = true ∧ okUp = true := by simpa using g1.symm
      obtain ⟨rfl, rfl⟩ := g1'
      rw [hr] at g2
      exact ⟨_, k, hk, hi, hj, judgedBy_checks g2 hci hx _ hnd⟩
    · have hds : containerElem d0 = false := by
        rcases hsc with hsc | hsc
        · rw [hcc] at hsc; exact absurd hsc hck
        · rw [← hdc]; exact hsc
      obtain ⟨nm, s, rfl⟩ := scalar_of_not (elemAt_some_ne hc0) (by simpa using hck)
      obtain ⟨nm', s', rfl⟩ := scalar_of_not (elemAt_some_ne hd0) hds
      obtain ⟨_, t, jd, hst⟩ := treated_scalar t1
      have htc : elemAt t (p ++ [i]) = some c := by
        rw [sameFrame_get (judgedBy_frame jd) (seenFrom_here hc0), ← hst, ← sameFrame_get hf hc0, hci]
      have hne : p ++ [j] ≠ p ++ [i] := by
        intro heq; have := List.append_cancel_left heq; simp at this; omega
      have hearl : Earlier (p ++ [j]) (p ++ [i]) := .inr ⟨by simp, lt_snoc_same p hij⟩
      have hseen : elemAt (seenFrom e r.form (p ++ [i])) (p ++ [j]) = some d := by
        rw [seenFrom_earlier hearl hd0, ← sameFrame_get hf hd0, hdj]
      have htd : elemAt t (p ++ [j]) = some d := by
        have hdd := hseen
        obtain ⟨nd, sd, rfl⟩ := scalar_of_not hdp (by rw [hdc]; exact hds)
        generalize down (p ++ [i]) = dn at jd
        cases jd with
        | excused => exact hdd
        | given => exact hdd
        | inTurn _ _ _ hin => exact inTurn_other hin hne hdd
      obtain ⟨k0, hk0, _⟩ := sameFrame_at' hf hk
      obtain ⟨kt, hkt, _⟩ := sameFrame_at (sameFrame_trans (seenFrom_frame e r.form (p ++ [i])) (judgedBy_frame jd)) hk0
      rw [hr] at jd
      exact ⟨t, kt, hkt, kidOf t kt c i hkt htc, kidOf t kt d j hkt htd, judgedBy_checks jd htc hx _ hnd⟩
  obtain ⟨t, kt, hkt, hki, hkj, hps⟩ := hpass
  rw [← Bool.not_eq_true]
  intro ho
  rw [Passes, (C79_not_duplicated op noter t p kt hkt i c hki hcp).1 ⟨j, d, hij, hkj, hdp, ho⟩] at hps
  cases hps

/-- **C84.** If no validator changes the text of its scalar, the form is shown and sent just as before, whatever happened to the values. -/
theorem C84_text_stays (sep : PStr) {e : Elem} (he : e ≠ .absent) {rules : Pos → ActRules} {n : Nat} {flag : Pos → Flag} {errors : Pos → List PStr}
    {r : TidyRun} {b : Bool} (h : validateActing e rules n flag errors = some r) (hb : r.result = .ok b)
    (hr : ∀ p name st, elemAt e p = some (.scalar name st) → ∀ x ∈ (rules p).validators, ∀ t n' st' s, elemAt t p = some (.scalar n' st') →
      (x.act t p).1 = some s → s.u = st'.u) : flatten sep r.form = flatten sep e := by
  obtain ⟨hf, ok, down, up, h1, _⟩ := acting_summary he h hb
  apply flatten_texts sep hf
  intro p name st hp
  obtain ⟨_, t, j, hst⟩ := treated_scalar (h1 p _ hp).1
  rw [hst]
  exact judgedBy_text j (hr p name st hp) (seenFrom_here hp)

omit [Runtime] in
/-- **C84 (disagreement).** URLCanonicalizer is such a validator: it assigns the value and leaves the text, so that the form continues to show
and to send the URL as it was entered. -/
theorem C84_canonical_text (discard : List PStr) (parse : PyVal → Except PyErr (List (Option PStr))) (unparse : List (Option PStr) → Except PyErr PyVal)
    (noter : Elem → Pos → Noter) (t : Elem) (p : Pos) (n : Option PStr) (st s : ScalarState) (hp : elemAt t p = some (.scalar n st))
    (h : ((canonicalRule discard parse unparse noter).act t p).1 = some s) : s.u = st.u ∧ s.raw = st.raw := by
  simp only [canonicalRule, scalarAct, hp, Option.some.injEq] at h
  subst h
  cases urlCanonicalize discard parse unparse st.value with
  | error er => exact ⟨rfl, rfl⟩
  | ok x =>
    obtain ⟨v, o⟩ := x
    cases o <;> exact ⟨rfl, rfl⟩

end

/-! ### examples: a form with a list of phone numbers, an exchange code and a URL -/
namespace TidyingExample
attribute [local instance] Runtime.ascii

def theNoter : Elem → Pos → Noter := fun _ _ => ⟨⟨[], .ok .none, .ok .none⟩, fun k => .ok (.fixed (.single k))⟩

def text (n v : String) : Elem := .scalar (some n.toList) ⟨.str v.toList, v.toList, some (.str v.toList)⟩

def code (n : Int) (u : String) : Elem := .scalar (some "nxx".toList) ⟨.int n, u.toList, some (.str u.toList)⟩

def form (one two : String) : Elem :=
  .dict .none [.list (some "phones".toList) [text "t" one, text "t" two], code 503 "0503", text "url" "http://x/y"]

/-- takes a URL apart into a scheme and the rest, badly -/
def parseUrl : PyVal → Except PyErr (List (Option PStr))
  | .str s => .ok [some (s.take 4), some (s.drop 4), .none, .none, .none, .none]
  | _ => .error .type

def unparseUrl : List (Option PStr) → Except PyErr PyVal
  | a :: b :: _ => .ok (.str (a.getD [] ++ b.getD []))
  | _ => .error .value

def theRules : Pos → ActRules
  | [0, _] => { textual := true, validators := phoneRule .refuse (stringType true) theNoter :: [notDuplicatedRule (fun a b => .ok (a.state.u == b.state.u)) theNoter].map FormRule.acting }
  | [1] => { validators := [nxxRule theNoter] ++ [(Check.valueLessThan (.int 600), theNoter)].map fun x => (checkRule id x.1 x.2).acting }
  | [2] => { textual := true, validators := [canonicalRule ["scheme".toList] parseUrl unparseUrl theNoter] }
  | _ => {}

/-- the result, the texts, the values and the messages of the scalars -/
def outcome (e : Elem) : Option (Except PyErr Bool × List (PStr × List PStr)) :=
  (validateActing e theRules 20 (fun _ => .unevaluated) (fun _ => [])).map fun r =>
    (r.result, [[0, 0], [0, 1], [1], [2]].map fun p => ((stateAt r.form p).u, r.errors p))

/-- all well: the numbers are in the usual notation now, the code is decimal, and the URL is shown as entered -/
example : outcome (form "503.555.0123" "1-2-3 456 7890") =
    some (.ok true, [("(503) 555-0123".toList, []), ("(123) 456-7890".toList, []), ("503".toList, []), ("http://x/y".toList, [])]) := by decide +kernel

/-- though its value is another -/
example : ((validateActing (form "503.555.0123" "1-2-3 456 7890") theRules 20 (fun _ => .unevaluated) (fun _ => [])).map
    fun r => (stateAt r.form [2]).value) = some (.str "://x/y".toList) := by decide +kernel

/-- the same number twice, written differently -/
example : outcome (form "503.555.0123" "(503) 555 0123") =
    some (.ok false, [("(503) 555-0123".toList, []), ("(503) 555-0123".toList, ["failure".toList]), ("503".toList, []), ("http://x/y".toList, [])]) := by decide +kernel

/-- the elements of the form are what the theorems speak of -/
example : ∃ st, elemAt (form "503.555.0123" "5") [0, 0] = some (.scalar (some "t".toList) st) ∧ st.value = .str "503.555.0123".toList ∧
    ¬ Excused (theRules [0, 0]).field (.scalar (some "t".toList) st) ∧ PlainDigits "503.555.0123".toList := by
  refine ⟨_, rfl, rfl, ?_, ?_⟩
  · rintro ⟨h, _⟩; cases h
  · unfold PlainDigits; decide +kernel

/-- each scalar with validators of its own data settles -/
example : ∃ fs, WorkOn (theRules [1]).validators fs ∧ Settles (theRules [1]) fs :=
  C84_settles id _ [(Check.valueLessThan (.int 600), theNoter)] .refuse true theNoter [nxxRule theNoter] (.inr (.inr rfl))

/-- NANPnxx answers in all forms with a number there, and keeps them so -/
example (e : Elem) (p : Pos) (n : Option PStr) (st : ScalarState) (hp : elemAt e p = some (.scalar n st)) :
    AnswersIn (fun t => ∃ i, (stateAt t p).value = .int i) e p [nxxRule theNoter] := by
  intro t ht ⟨i, hi⟩ r hr
  simp only [List.mem_singleton] at hr
  subst hr
  have htp := sameFrame_get ht hp
  simp only [nxxRule, scalarAct, htp]
  obtain ⟨h1, h2, h3, h4⟩ := C66_nxx (stateAt t p) i hi
  rcases Classical.em (ExchangeCode i) with hx | hx
  · refine ⟨_, .yes, by rw [h1.2 hx]; rfl, ⟨i, ?_⟩, by simp⟩
    rw [stateAt_scalar (changedAt_same htp _), h3 hx]
    exact hi
  · refine ⟨_, .no, by rw [h2.2 hx]; rfl, ⟨i, ?_⟩, by simp⟩
    rw [stateAt_scalar (changedAt_same htp _), h4 hx]
    exact hi

end TidyingExample
end Flatland
