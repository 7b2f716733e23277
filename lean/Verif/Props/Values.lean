import Verif.Proofs.Values
import Verif.Proofs.Scalars
import Verif.Model.ListOps
import Verif.Spec.TreeExample
/-
Properties C32, C33 and C62: defaults, `set(el.value)`, equality of elements.
-/
namespace Flatland
open Spec

section
variable [Runtime]

/-! ### C32 -/

/-- **C32.** When `set_default` finishes, the element holds its declared default, as spelled out by `HoldsDefault`: a scalar is as
after `set(default)` on a new scalar; a Dict with a default is as after `set(default)` on a new one; without one its children hold
their defaults (a SparseDict is emptied, or has just the required fields, new and with their defaults); a List with a number has that
many new members with their defaults. -/
theorem C32_holds_default (s : Schema) (e e' : Elem) (h : setDefault s e = .ok e') : HoldsDefault s e e' := setDefault_holds s e e' h

/-- **C32.** If everything reached has a default of its own, the previous content plays no role, neither for the result nor for the
exception raised. -/
theorem C32_independent (s : Schema) (h : DefaultsGiven s) (e₁ e₂ : Elem) (h₁ : Conforms s e₁) (h₂ : Conforms s e₂) :
    setDefault s e₁ = setDefault s e₂ := setDefault_indep s e₁ e₂ h h₁ h₂

/-- **C32.** The condition is needed: a List or Array whose default is None (as it is unless declared) keeps its content, and so does
anything with the default Unspecified, save a Dict. -/
theorem C32_undeclared_keeps (e : Elem) (h : Hdr) :
    (∀ t, h.dflt = .none → setDefault (.scalar h t) e = .ok e) ∧
    (∀ prune max m, h.dflt = .none ∨ h.dflt = some .none → setDefault (.list h prune max m) e = .ok e) ∧
    (∀ prune m, h.dflt = .none ∨ h.dflt = some .none → setDefault (.array h prune m) e = .ok e) := by
  refine ⟨fun t hd => ?_, fun prune max m hd => ?_, fun prune m hd => ?_⟩
  · rw [setDefault, hd]
  · rw [setDefault]; rcases hd with hd | hd <;> rw [hd]
  · rw [setDefault]; rcases hd with hd | hd <;> rw [hd]

/-- **C32.** `from_defaults()` is a new element after `set_default()`; with `C32_independent`, any element of the class becomes the same
by `set_default()`. -/
theorem C32_from_defaults (s : Schema) (h : DefaultsGiven s) (e : Elem) (hc : Conforms s e) (hf : Conforms s (fresh s)) :
    setDefault s e = fromDefaults s := setDefault_indep s e _ h hc hf

/-! ### C33 -/

/-- **C33.** Setting a new element of the same class to `el.value` succeeds and gives the same tree: the same names and structure, and
at every scalar the same value and text.  So the whole has the same value and the same text, and equals the original. -/
theorem C33_reproduces (repr : PStr → PStr) (s : Schema) (e : Elem) (hn : NamedFields s) (hc : Conforms s e) (hm : Complete s e)
    (hs : EachScalar (fun _ t st => ReAdapts t st) false s e) :
    ∃ e', setVal s (elemValue e) = .ok (e', true) ∧ SameBy SameData e e' ∧ elemValue e' = elemValue e ∧ elemU repr e' = elemU repr e := by
  obtain ⟨e', h1, h2⟩ := setVal_value s false e hn hc hm hs
  have := sameData_value repr e e' h2
  exact ⟨e', h1, h2, this.1.symm, this.2.symm⟩

/-- adapting an adapted value changes nothing -/
theorem adapt_adapted (b : Builtin) {x v : PyVal} (h : b.type.adapt x = .ok v) : b.type.adapt v = .ok v := by
  induction b generalizing v with
  | string st =>
    cases x <;> simp only [Builtin.type, stringType, Except.ok.injEq] at h <;> subst h <;>
      cases st <;> simp [Builtin.type, stringType, pyText, strip_strip]
  | integer sg w =>
    cases x <;> simp only [Builtin.type, integerType] at h
    case none => cases h; rfl
    all_goals
      split at h
      · cases h
      · rename_i i hi
        split at h
        · cases h
        · rename_i hneg
          cases h
          simp only [Builtin.type, integerType, intOf]
          rw [if_neg hneg]
  | boolean c =>
    have : ∃ b', v = .bool b' := by
      cases x <;> simp only [Builtin.type, booleanType, Except.ok.injEq] at h
      case str s => split at h <;> (try split at h) <;> cases h <;> exact ⟨_, rfl⟩
      all_goals exact ⟨_, h.symm⟩
    obtain ⟨b', rfl⟩ := this
    simp [Builtin.type, booleanType, truthy]
  | date st =>
    cases x <;> simp only [Builtin.type, dateType, Except.ok.injEq] at h
    case str s =>
      obtain ⟨ns, hns⟩ := temporalText_mk h
      obtain ⟨y, m, d, rfl, _⟩ := mkDate_some hns
      rfl
    all_goals first | (subst h; rfl) | cases h
  | time st =>
    cases x <;> simp only [Builtin.type, timeType, Except.ok.injEq] at h
    case str s =>
      obtain ⟨ns, hns⟩ := temporalText_mk h
      obtain ⟨y, m, d, rfl, _⟩ := mkTime_some hns
      rfl
    all_goals first | (subst h; rfl) | cases h
  | dateTime st =>
    cases x <;> simp only [Builtin.type, dateTimeType, Except.ok.injEq] at h
    case str s =>
      obtain ⟨ns, hns⟩ := temporalText_mk h
      obtain ⟨y, m, d, _, _, _, rfl, _⟩ := mkDateTime_some hns
      rfl
    all_goals first | (subst h; rfl) | cases h
  | enum c vs ih =>
    simp only [Builtin.type, enumType, constrainedType, bind, Except.bind] at h ⊢
    split at h
    · cases h
    · rename_i w hw
      split at h
      · rename_i hv
        cases h
        rw [ih hw]
        simp only [hv, if_true]
      · cases h

/-- **C33.** What the theorem asks of a scalar holds for every built-in scalar (and Enums of them) after any successful `set`. -/
theorem C33_builtin_readapts (b : Builtin) (st : ScalarState) (x : PyVal) (h : (scalarSet b.type st x).2 = .ok true) :
    ReAdapts b.type (scalarSet b.type st x).1 := by
  cases ha : b.type.adapt x with
  | error er => unfold scalarSet at h; rw [ha] at h; cases er <;> simp at h
  | ok v =>
    have hv := adapt_adapted b ha
    by_cases hn : v = .none
    · subst hn
      refine ⟨⟨.none, [], some .none⟩, ?_, ?_⟩
      · have : (scalarSet b.type st x).1.value = .none := by unfold scalarSet; rw [ha]
        rw [this]; unfold scalarSet; rw [hv]
      · unfold scalarSet; rw [ha]; exact ⟨rfl, rfl⟩
    · obtain ⟨u, hu⟩ := builtin_serialize_ok b v
      rw [scalarSet_ok ha hn hu]
      exact ⟨_, scalarSet_ok hv hn hu, rfl, rfl⟩

/-- **C33.** A scalar that has not been set re-adapts as well, unless it is a Boolean (None becomes False) or an Enum without None. -/
theorem C33_unset_readapts (b : Builtin) (h : b.type.adapt .none = .ok .none) : ReAdapts b.type .fresh :=
  ⟨⟨.none, [], some .none⟩, by unfold scalarSet; rw [show ScalarState.fresh.value = .none from rfl, h], rfl, rfl⟩

/-- **C33.** The condition is needed: a scalar that refused its text keeps the text but has the value None, and the text is lost. -/
theorem C33_refused_text_is_lost (t : ScalarType) (x : PStr) (h : t.adapt (.str x) = .error .adaptation) (hn : t.adapt .none = .ok .none) :
    (scalarSet t .fresh (.str x)).1.u = x ∧ (scalarSet t .fresh (scalarSet t .fresh (.str x)).1.value).1.u = [] := by
  have : scalarSet t .fresh (.str x) = (⟨.none, x, some (.str x)⟩, .ok false) := by unfold scalarSet; rw [h]
  rw [this]
  refine ⟨rfl, ?_⟩
  unfold scalarSet; rw [hn]

/-- **C33.** An unset Boolean does not come back as unset. -/
theorem C33_unset_boolean (c : BoolCfg) : (scalarSet (booleanType c) .fresh .none).1.value = .bool false := by
  simp [scalarSet, booleanType, truthy]

end

/-! ### C62 -/

section
variable (repr : PStr → PStr)

/-- **C62.** What is compared, and what `set(el.value)` is given: the value of a Dict holds the values of the fields it has, by name, the value of a List
or Array those of its members, in order; the text is written likewise, with names and the texts of scalars quoted.  Nothing else is their value and
text. -/
theorem C62_value_and_text (e : Elem) (v : PyVal) (t : PStr) : (elemValue e = v ∧ elemU repr e = t) ↔ Shows repr e v t := by
  rw [shows_iff]; grind

/-- **C62.** `==` compares `value` and `u` only. -/
theorem C62_value_and_u (a b : Elem) : elemEq repr a b = true ↔ pyEq (elemValue a) (elemValue b) = true ∧ elemU repr a = elemU repr b := by
  simp [elemEq]

/-- **C62.** The name, the class and the raw input play no role. -/
theorem C62_only_value_and_u (a a' b b' : Elem) (h1 : elemValue a = elemValue a') (h2 : elemU repr a = elemU repr a')
    (h3 : elemValue b = elemValue b') (h4 : elemU repr b = elemU repr b') : elemEq repr a b = elemEq repr a' b' := by
  simp [elemEq, h1, h2, h3, h4]

/-- **C62.** Every element equals itself. -/
theorem C62_refl (s : Schema) (a : Elem) (hn : NamedFields s) (hc : Conforms s a) (hw : WfScalars s a) : elemEq repr a a = true := by
  have := pyEq_refl (sizeOf (elemValue a) + 1) (elemValue a) (by omega) (elemValue_wf s false a hn hc hw)
  simp [elemEq, this]

/-- **C62.** `==` is symmetric, also between elements of different classes. -/
theorem C62_symm (s s' : Schema) (a b : Elem) (hn : NamedFields s) (hc : Conforms s a) (hw : WfScalars s a)
    (hn' : NamedFields s') (hc' : Conforms s' b) (hw' : WfScalars s' b) : elemEq repr a b = elemEq repr b a := by
  have ha := elemValue_wf s false a hn hc hw
  have hb := elemValue_wf s' false b hn' hc' hw'
  have h : pyEq (elemValue a) (elemValue b) = pyEq (elemValue b) (elemValue a) := by
    have h1 := pyEq_symm (sizeOf (elemValue a) + 1) (elemValue a) (elemValue b) (by omega) ha hb
    have h2 := pyEq_symm (sizeOf (elemValue b) + 1) (elemValue b) (elemValue a) (by omega) hb ha
    rw [Bool.eq_iff_iff]
    exact ⟨h1, h2⟩
  have h' : (elemU repr a == elemU repr b) = (elemU repr b == elemU repr a) := by
    rw [Bool.eq_iff_iff, beq_iff_eq, beq_iff_eq]; exact eq_comm
  simp [elemEq, h, h']

/-- **C62.** `==` is transitive, also across classes. -/
theorem C62_trans (s s' s'' : Schema) (a b c : Elem) (hn : NamedFields s) (hc : Conforms s a) (hw : WfScalars s a)
    (hn' : NamedFields s') (hc' : Conforms s' b) (hw' : WfScalars s' b) (hn'' : NamedFields s'') (hc'' : Conforms s'' c) (hw'' : WfScalars s'' c)
    (h1 : elemEq repr a b = true) (h2 : elemEq repr b c = true) : elemEq repr a c = true := by
  have ha := elemValue_wf s false a hn hc hw
  have hb := elemValue_wf s' false b hn' hc' hw'
  have hcw := elemValue_wf s'' false c hn'' hc'' hw''
  rw [C62_value_and_u] at h1 h2 ⊢
  exact ⟨pyEq_trans (sizeOf (elemValue a) + 1) _ _ _ (by omega) ha hb hcw h1.1 h2.1, h1.2.trans h2.2⟩

/-- **C62.** Comparing with any other object: equal exactly when it has an equal `value` and the same `u`; an object without them is
not equal (no AttributeError comes out). -/
theorem C62_other_objects (e : Elem) (o : AnyObj) :
    elemEqAny repr e o = true ↔ ∃ v, o.value = some v ∧ pyEq (elemValue e) v = true ∧ o.u = some (elemU repr e) := by
  obtain ⟨v, u⟩ := o
  cases v with
  | none => simp [elemEqAny]
  | some v =>
    cases u with
    | none => simp [elemEqAny]
    | some u =>
      simp only [elemEqAny, Option.some.injEq, exists_eq_left']
      by_cases h : pyEq (elemValue e) v = true
      · simp only [h, if_true, beq_iff_eq, true_and]; exact eq_comm
      · simp [h]

/-- **C62.** With another element that is the `==` of elements. -/
theorem C62_other_element (a b : Elem) : elemEqAny repr a (b.asObj repr) = elemEq repr a b := by
  rw [Bool.eq_iff_iff, C62_other_objects, C62_value_and_u]
  simp only [Elem.asObj, Option.some.injEq, exists_eq_left']
  exact and_congr_right fun _ => eq_comm

variable {V E : Type}

/-- **C62.** For an element, and for a raw value once a member could be made of it: `in`, `count` and `index` agree with `==`, and `index`
is the first position. -/
theorem C62_sequence_lookup (c : MemberClass V E) (st : List E) (a : Arg V E) (e : E) (h : asElement c a = .ok e) :
    seqContains c st a = .ok (decide (∃ m ∈ st, c.eq m e = true)) ∧
    seqCount c st a = .ok (st.filter fun m => c.eq m e).length ∧
    (seqContains c st a = .ok true ↔ ∃ n, 0 < n ∧ seqCount c st a = .ok n) ∧
    (∀ i, seqIndexOf c st a = .ok i ↔ ∃ hi : i < st.length, c.eq st[i] e = true ∧ ∀ j (hj : j < i), c.eq st[j] e = false) ∧
    (seqIndexOf c st a = .error .value ↔ ∀ m ∈ st, c.eq m e = false) := by
  have hc : st.any (fun m => c.eq m e) = decide (∃ m ∈ st, c.eq m e = true) := by rw [Bool.eq_iff_iff]; simp
  refine ⟨by simp only [seqContains, h, hc], by simp only [seqCount, h, List.countP_eq_length_filter], ?_, fun i => ?_, ?_⟩
  · simp only [seqContains, seqCount, h, Except.ok.injEq, List.any_eq_true]
    constructor
    · intro hm
      exact ⟨_, List.countP_pos_iff.2 hm, rfl⟩
    · rintro ⟨n, hn, rfl⟩
      exact List.countP_pos_iff.1 hn
  · simp only [seqIndexOf, h]
    cases hf : st.findIdx? (fun m => c.eq m e) with
    | none =>
      rw [List.findIdx?_eq_none_iff] at hf
      simp only [reduceCtorEq, false_iff, not_exists]
      intro hi hh
      simp [hf _ (List.getElem_mem hi)] at hh
    | some k =>
      rw [List.findIdx?_eq_some_iff_getElem] at hf
      obtain ⟨hk, h1, h2⟩ := hf
      simp only [Except.ok.injEq]
      constructor
      · rintro rfl
        exact ⟨hk, h1, fun j hj => by simpa using h2 j hj⟩
      · rintro ⟨hi, h3, h4⟩
        rcases Nat.lt_trichotomy k i with hlt | rfl | hlt
        · simp [h4 k hlt] at h1
        · rfl
        · have := h2 i hlt; simp [h3] at this
  · simp only [seqIndexOf, h]
    cases hf : st.findIdx? (fun m => c.eq m e) with
    | none => rw [List.findIdx?_eq_none_iff] at hf; simpa using hf
    | some k =>
      rw [List.findIdx?_eq_some_iff_getElem] at hf
      obtain ⟨hk, h1, _⟩ := hf
      simp only [reduceCtorEq, false_iff]
      intro hh
      simp [hh _ (List.getElem_mem hk)] at h1

/-- **C62.** `remove` deletes the member at the position `index` gives, and raises ValueError when `index` does. -/
theorem C62_sequence_remove (c : MemberClass V E) (st : List E) (a : Arg V E) :
    seqRemove c st a = match seqIndexOf c st a with
      | .ok i => (st.eraseIdx i, .ok ())
      | .error er => (st, .error er) := by
  unfold seqRemove seqIndexOf
  cases asElement c a with
  | error er => rfl
  | ok e =>
    simp only
    have key : ∀ st : List E, pyRemove (fun m => c.eq m e) st = (st.findIdx? (fun m => c.eq m e)).map st.eraseIdx := by
      intro st
      induction st with
      | nil => rfl
      | cons m st ih =>
        rw [pyRemove, List.findIdx?_cons]
        by_cases hm : c.eq m e = true
        · simp [hm]
        · simp only [hm, if_false, ih, Option.map_map, Bool.false_eq_true]
          cases st.findIdx? (fun m => c.eq m e) <;> simp
    rw [key]
    cases st.findIdx? (fun m => c.eq m e) <;> rfl

/-- **C62.** A raw value is looked up as the member made of it; if none can be made, that error comes out of all four. -/
theorem C62_raw_value (c : MemberClass V E) (st : List E) (v : V) :
    (∀ e, c.make v = .ok e → seqContains c st (.val v) = seqContains c st (.el e) ∧ seqCount c st (.val v) = seqCount c st (.el e) ∧
      seqIndexOf c st (.val v) = seqIndexOf c st (.el e) ∧ seqRemove c st (.val v) = seqRemove c st (.el e)) ∧
    (∀ er, c.make v = .error er → seqContains c st (.val v) = .error er ∧ seqCount c st (.val v) = .error er ∧
      seqIndexOf c st (.val v) = .error er ∧ seqRemove c st (.val v) = (st, .error er)) := by
  constructor <;> intro e h <;> simp [seqContains, seqCount, seqIndexOf, seqRemove, asElement, h]

end

/-- **C62.** For a sequence of scalars: a text or other value is compared as a new member set to it, and members are equal to it iff they have an equal
value and the same text.  `in`, `count` and `index` say so, and `remove` takes out the first of them or raises ValueError. -/
theorem C62_scalars_in_sequences [Runtime] (t : ScalarType) (asObj : ScalarState → PyVal) (st : List ScalarState) (v : PyVal) (x : ScalarState) (b : Bool)
    (h : scalarSet t .fresh v = (x, .ok b)) :
    let c := scalarMember t asObj
    let same : ScalarState → Prop := fun m => pyEq m.value x.value = true ∧ m.u = x.u
    (seqContains c st (.val v) = .ok true ↔ ∃ m ∈ st, same m) ∧
    (∀ n, seqCount c st (.val v) = .ok n → (0 < n ↔ ∃ m ∈ st, same m)) ∧
    (∀ i, seqIndexOf c st (.val v) = .ok i ↔ (∃ m, st[i]? = some m ∧ same m) ∧ ∀ (j : Nat) m, j < i → st[j]? = some m → ¬ same m) ∧
    (∀ i, seqIndexOf c st (.val v) = .ok i → seqRemove c st (.val v) = (st.eraseIdx i, .ok ())) ∧
    ((∀ m ∈ st, ¬ same m) → seqRemove c st (.val v) = (st, .error .value)) := by
  intro c same
  have hm : asElement c (.val v) = .ok x := by simp [asElement, c, scalarMember, h]
  have he : ∀ m, c.eq m x = true ↔ same m := by intro m; simp [c, scalarMember, same]
  have he' : ∀ m, c.eq m x = false ↔ ¬ same m := by intro m; rw [← he]; simp
  obtain ⟨h1, h2, h3, h4, h5⟩ := C62_sequence_lookup c st (.val v) x hm
  refine ⟨by rw [h1]; simp [he], ?_, ?_, ?_, ?_⟩
  · intro n hn
    have : seqContains c st (.val v) = .ok true ↔ 0 < n := by
      rw [h3]
      constructor
      · rintro ⟨k, hk, hc⟩; rw [hn] at hc; cases hc; exact hk
      · exact fun hk => ⟨n, hk, hn⟩
    rw [← this, h1]
    simp [he]
  · intro i
    rw [h4]
    constructor
    · rintro ⟨hi, h6, h7⟩
      refine ⟨⟨st[i], List.getElem?_eq_getElem hi, (he _).1 h6⟩, fun j m hj hjm => ?_⟩
      have := h7 j hj
      obtain ⟨hl, rfl⟩ := List.getElem?_eq_some_iff.1 hjm
      exact (he' _).1 this
    · rintro ⟨⟨m, him, h6⟩, h7⟩
      obtain ⟨hi, rfl⟩ := List.getElem?_eq_some_iff.1 him
      exact ⟨hi, (he _).2 h6, fun j hj => (he' _).2 (h7 j _ hj (List.getElem?_eq_getElem (by omega)))⟩
  · intro i hi
    rw [C62_sequence_remove, hi]
  · intro hno
    rw [C62_sequence_remove, h5.2 fun m hm => (he' m).2 (hno m hm)]

/-! ### examples -/

section
attribute [local instance] Runtime.ascii
open TreeExample

/-- a Dict with a String (default '3'), a List of two Strings (default text 'x') and a SparseDict with a required field -/
def defaultsSchema : Schema :=
  .dict ⟨some ['o'], false, some .none⟩ .full .subset
    [.scalar ⟨some ['i'], false, some (.str ['3'])⟩ (stringType true),
     .list ⟨some ['l'], false, some (.int 2)⟩ true 1024 (.scalar ⟨.none, false, some (.str ['x'])⟩ (stringType true)),
     .array ⟨some ['t'], false, some (.list [.str ['u'], .str ['v']])⟩ true (.scalar ⟨.none, false, some .none⟩ (stringType true)),
     .dict ⟨some ['z'], false, some .none⟩ .sparseRequired .subset
       [.scalar ⟨some ['q'], false, some (.str ['y'])⟩ (stringType true), .scalar ⟨some ['r'], true, some .none⟩ (stringType true)]]

/-- an element of it with other content -/
def defaultsElem : Elem :=
  .dict (some ['o'])
    [.scalar (some ['i']) (str "7"), .list (some ['l']) [.scalar .none (str "a")], .array (some ['t']) [],
     .dict (some ['z']) [.scalar (some ['q']) (str "b"), .scalar (some ['r']) (str "c")]]

/-- `'07'` is compared as the number 7 with the text `'7'`; a member with that text and no value is not equal to it -/
example : (seqContains (scalarMember (integerType true 0) fun st => .str st.u) [⟨.int 7, ['7'], none⟩, ⟨.int 7, ['0', '7'], none⟩] (.val (.str ['0', '7']))).toOption =
    some true ∧ (seqIndexOf (scalarMember (integerType true 0) fun st => .str st.u) [⟨.none, ['7'], none⟩, ⟨.int 7, ['7'], none⟩] (.val (.int 7))).toOption =
    some 1 := by decide +kernel

example : DefaultsGiven defaultsSchema := by simp [defaultsSchema, DefaultsGiven, DefaultsGivenAll]
example : Conforms defaultsSchema defaultsElem := by simp [defaultsSchema, defaultsElem, Conforms, ConformsAll, Schema.name, Schema.hdr]
example : (setDefault defaultsSchema defaultsElem).map elemValue =
    .ok (.dict [(['i'], .str ['3']), (['l'], .list [.str ['x'], .str ['x']]), (['t'], .list [.str ['u'], .str ['v']]), (['z'], .dict [(['q'], .str ['y'])])]) := by
  simp [setDefault, defaultKids, defaultRequiredKids, defaultsSchema, defaultsElem, defaultCount, repeatMember, fresh, Elem.kids, Elem.state, scalarSet,
    stringType, pyText, pyIter, memberSetLoop, setVal, Except.map, elemValue, kidItems, kidValues, Elem.present, Elem.name, Schema.hdr, strip]
  decide

/-- value and text of a Dict that holds a scalar, a List with one Dict in it and a field that is not there -/
example : Shows (fun t => '"' :: t ++ ['"'])
    (.dict (some ['o']) [.scalar (some ['x']) (str "1"), .list (some ['l']) [.dict .none [.scalar (some ['y']) (str "2")]], .absent])
    (.dict [(['x'], .str ['1']), (['l'], .list [.dict [(['y'], .str ['2'])]])]) "{\"x\": \"1\", \"l\": [{\"y\": \"2\"}]}".toList := by
  rw [← C62_value_and_text]
  exact ⟨rfl, by decide +kernel⟩

/-- C62 (limit). The text of a mapping follows the order in which its dictionary is gone through: two sparse forms with the same fields and
values, filled in a different order, have equal values and are nevertheless not equal. -/
theorem C62_filling_order :
    let repr : PStr → PStr := fun t => '\'' :: t ++ ['\'']
    let x : Elem := .scalar (some ['x']) (str "1")
    let y : Elem := .scalar (some ['y']) (str "2")
    let a : Elem := .dict (some ['o']) [x, y]
    let b : Elem := .dict (some ['o']) [y, x]
    elemEq repr a b = false ∧ pyEq (elemValue a) (elemValue b) = true ∧ elemU repr a = "{'x': '1', 'y': '2'}".toList ∧
    elemU repr b = "{'y': '2', 'x': '1'}".toList := by
  have hv : ∀ (p q : PStr × PyVal), p = (['x'], .str ['1']) → q = (['y'], .str ['2']) → pyEq (.dict [p, q]) (.dict [q, p]) = true := by
    rintro _ _ rfl rfl
    decide +kernel
  intro repr x y a b
  have h1 : pyEq (elemValue a) (elemValue b) = true := by
    simp only [a, b, x, y, elemValue, kidItems, Elem.present, Elem.name, Option.getD_some, if_true, str]
    exact hv _ _ rfl rfl
  have h2 : elemU repr a = "{'x': '1', 'y': '2'}".toList := by decide +kernel
  have h3 : elemU repr b = "{'y': '2', 'x': '1'}".toList := by decide +kernel
  refine ⟨?_, h1, h2, h3⟩
  unfold elemEq
  rw [h1, h2, h3]
  decide

example : NamedFields schema := by simp [schema, NamedFields, NamedFieldsAll, Schema.name, Schema.hdr]
example : Complete schema elem := by simp [schema, elem, Complete, CompleteAll]
example : Conforms schema elem := by simp [schema, elem, Conforms, ConformsAll, Schema.name, Schema.hdr, autoField]
example : EachScalar (fun _ t st => ReAdapts t st) false schema elem := by
  have hs : ∀ x : String, strip x.toList = x.toList → ReAdapts (stringType true) (str x) := fun x hx =>
    ⟨str x, by simp [scalarSet, str, stringType, pyText, hx], rfl, rfl⟩
  have hi : ∀ (i : Int) (x : String), padInt 0 i = x.toList → ReAdapts (integerType true 0) (int i x) := fun i x hx =>
    ⟨int i x, by simp [scalarSet, int, integerType, intOf, hx], rfl, rfl⟩
  have h7 : padInt 0 7 = "7".toList := by simp [padInt, padNat, decimal]; rfl
  have h8 : padInt 0 8 = "8".toList := by simp [padInt, padNat, decimal]; rfl
  simp only [schema, elem, EachScalar, EachScalarAll, List.mem_cons, List.not_mem_nil, or_false, forall_eq_or_imp, forall_eq, and_true]
  exact ⟨hs _ (by decide), ⟨hi _ _ h7, hi _ _ h8⟩, hs _ (by decide), hs _ (by decide)⟩
example : WfScalars schema elem := by
  simp [WfScalars, schema, elem, EachScalar, EachScalarAll, WfVal, str, int]


end

end Flatland
