import Verif.Proofs.Stored
import Verif.Proofs.Stored2
import Verif.Props.Values
import Verif.Props.TreeRules
/-
Property C89: storing the value of a form and setting a new form to it.
-/
namespace Flatland
open Spec

section
variable [Runtime]

/-- what the built-in classes make of None -/
theorem builtin_none (b : Builtin) : b.type.adapt .none = .ok .none ∨ b.type.adapt .none = .ok (.bool false) ∨ b.type.adapt .none = .error .adaptation := by
  induction b with
  | boolean c => exact .inr (.inl rfl)
  | enum c vs ih =>
    simp only [Builtin.type, enumType, constrainedType]
    rcases ih with h | h | h <;> rw [h]
    · by_cases hv : enumValid vs .none = true <;> simp [bind, Except.bind, hv]
    · by_cases hv : enumValid vs (.bool false) = true <;> simp [bind, Except.bind, hv]
    · exact .inr (.inr rfl)
  | _ => exact .inl rfl

/-- a scalar that was set has no value, or an adapted one and its text -/
theorem wasSet_cases {t : ScalarType} {st : ScalarState} (h : WasSet t st) :
    st.value = .none ∨ (st.value ≠ .none ∧ (∃ x, t.adapt x = .ok st.value) ∧ t.serialize st.value = .ok st.u) := by
  rcases h with rfl | ⟨old, x, b, h⟩
  · exact .inl rfl
  · unfold scalarSet at h
    split at h
    · cases h; exact .inl rfl
    · cases h
    · cases h; exact .inl rfl
    · rename_i w hw ha
      split at h
      · rename_i u hu
        cases h
        exact .inr ⟨fun h0 => hw h0, ⟨x, ha⟩, hu⟩
      · cases h

/-- what becomes of a scalar of a built-in class that was set, when it is set to its own value -/
theorem builtin_reload (b : Builtin) {st : ScalarState} (h : WasSet b.type st) :
    let st1 := (scalarSet b.type .fresh st.value).1
    TakesItsValue b.type st ∧ Kept st st1 ∧ (scalarSet b.type .fresh st1.value).1.value = st1.value ∧ SameData st1 (scalarSet b.type .fresh st1.value).1 := by
  intro st1
  rcases wasSet_cases h with hv | ⟨hv, ⟨x, hx⟩, hu⟩
  · rcases builtin_none b with h0 | h0 | h0
    · have hs : scalarSet b.type .fresh .none = (⟨.none, [], some .none⟩, .ok true) := by unfold scalarSet; rw [h0]
      have h1 : st1 = ⟨.none, [], some .none⟩ := by simp only [st1, hv, hs]
      rw [h1]
      simp only [hs]
      refine ⟨⟨true, by rw [hv, hs]⟩, .inr ⟨hv, .inl ⟨rfl, rfl⟩⟩, trivial, rfl, rfl⟩
    · obtain ⟨u, hu⟩ := builtin_serialize_ok b (.bool false)
      have hs : scalarSet b.type .fresh .none = (⟨.bool false, u, some .none⟩, .ok true) := scalarSet_ok h0 (by simp) hu
      have hs2 : scalarSet b.type .fresh (.bool false) = (⟨.bool false, u, some (.bool false)⟩, .ok true) := scalarSet_ok (adapt_adapted b h0) (by simp) hu
      have h1 : st1 = ⟨.bool false, u, some .none⟩ := by simp only [st1, hv, hs]
      rw [h1]
      simp only [hs2]
      refine ⟨⟨true, by rw [hv, hs]⟩, .inr ⟨hv, .inr rfl⟩, trivial, rfl, rfl⟩
    · have hs : scalarSet b.type .fresh .none = (⟨.none, [], some .none⟩, .ok false) := by unfold scalarSet; rw [h0]
      have h1 : st1 = ⟨.none, [], some .none⟩ := by simp only [st1, hv, hs]
      rw [h1]
      simp only [hs]
      refine ⟨⟨false, by rw [hv, hs]⟩, .inr ⟨hv, .inl ⟨rfl, rfl⟩⟩, trivial, rfl, rfl⟩
  · have hs : scalarSet b.type .fresh st.value = (⟨st.value, st.u, some st.value⟩, .ok true) := scalarSet_ok (adapt_adapted b hx) hv hu
    have h1 : st1 = ⟨st.value, st.u, some st.value⟩ := by simp only [st1, hs]
    rw [h1]
    simp only [hs]
    exact ⟨⟨true, by rw [hs]⟩, .inl ⟨rfl, rfl⟩, trivial, rfl, rfl⟩

/-- **C89.** Whatever a form holds: a new form of the same class set to its value is exactly what `reloaded` says – all its Dicts, Lists and Arrays are
there again, and each scalar is set to its own value – and `set` returns True exactly if all scalars take their values.  Assumed is only that no scalar
raises an exception on its own value, and that no field of a strict SparseDict is missing. -/
theorem C89_reloaded (s : Schema) (e : Elem) (hn : NamedFields s) (hc : Conforms s e) (hm : Complete s e)
    (ht : EachScalar (fun _ => TakesItsValue) false s e) :
    ∃ b, setVal s (elemValue e) = .ok (reloaded s e, b) ∧ (b = true ↔ EachScalar (fun _ => TakesItsValueWell) false s e) :=
  setVal_reload s false e hn hc hm ht

/-- **C89.** With the scalar classes that come with the library, and scalars that are new or that `set` has returned on, nothing is assumed of what they
hold.  No value changes then – except that a Boolean without a value becomes False –, and only texts that were refused are lost. -/
theorem C89_builtin (s : Schema) (e : Elem) (hn : NamedFields s) (hc : Conforms s e) (hm : Complete s e) (ht : AllTypes IsBuiltin s)
    (hw : EachScalar (fun _ => WasSet) false s e) :
    ∃ b, setVal s (elemValue e) = .ok (reloaded s e, b) ∧ (b = true ↔ EachScalar (fun _ => TakesItsValueWell) false s e) ∧
      SameBy Kept e (reloaded s e) := by
  have hb := each_and (each_of_types (Q := fun _ t _ => IsBuiltin t) (fun _ _ _ h => h) s false e ht) hw
  obtain ⟨b, h1, h2⟩ := C89_reloaded s e hn hc hm (each_mono (by rintro p t st ⟨⟨bt, _, rfl⟩, h⟩; exact (builtin_reload bt h).1) s false e hb)
  exact ⟨b, h1, h2, reloaded_same (P := fun t st => IsBuiltin t ∧ WasSet t st) (by rintro t st ⟨⟨bt, _, rfl⟩, h⟩; exact (builtin_reload bt h).2.1) s false e hc hb⟩

/-- **C89.** Storing and setting again settles: the second time no value and no text changes any more, and from then on nothing at all does. -/
theorem C89_settles (s : Schema) (e : Elem) (hn : NamedFields s) (hc : Conforms s e) (hm : Complete s e) (ht : AllTypes IsBuiltin s)
    (hw : EachScalar (fun _ => WasSet) false s e) :
    ∃ e₁ e₂, reloads s 1 e = .ok e₁ ∧ SameBy SameData e₁ e₂ ∧ ∀ n, reloads s (n + 2) e = .ok e₂ := by
  have hb := each_and (each_of_types (Q := fun _ t _ => IsBuiltin t) (fun _ _ _ h => h) s false e ht) hw
  obtain ⟨b0, h0, _⟩ := C89_builtin s e hn hc hm ht hw
  have w1 : EachScalar (fun _ t st => IsBuiltin t ∧ WasSet t st) false s (reloaded s e) :=
    reloaded_each (P := fun t st => IsBuiltin t ∧ WasSet t st) (Q := fun t st => IsBuiltin t ∧ WasSet t st)
      (by
        rintro t st ⟨⟨bt, hbt, rfl⟩, h⟩
        obtain ⟨r, hr⟩ := (builtin_reload bt h).1
        exact ⟨⟨bt, hbt, rfl⟩, .inr ⟨.fresh, st.value, r, Prod.ext rfl hr⟩⟩) s false e hb
  have s1 : EachScalar (fun _ t st => SameData st (scalarSet t .fresh st.value).1) false s (reloaded s e) :=
    reloaded_each (P := fun t st => IsBuiltin t ∧ WasSet t st) (by rintro t st ⟨⟨bt, _, rfl⟩, h⟩; exact (builtin_reload bt h).2.2.2) s false e hb
  have hc1 := reloaded_conforms s e hc
  have hm1 := reloaded_complete s e hm
  obtain ⟨b1, h1, _⟩ := C89_builtin s (reloaded s e) hn hc1 hm1 ht (each_mono (fun _ _ _ h => h.2) s false _ w1)
  have w2 : EachScalar (fun _ t st => IsBuiltin t ∧ WasSet t st) false s (reloaded s (reloaded s e)) :=
    reloaded_each (P := fun t st => IsBuiltin t ∧ WasSet t st) (Q := fun t st => IsBuiltin t ∧ WasSet t st)
      (by
        rintro t st ⟨⟨bt, hbt, rfl⟩, h⟩
        obtain ⟨r, hr⟩ := (builtin_reload bt h).1
        exact ⟨⟨bt, hbt, rfl⟩, .inr ⟨.fresh, st.value, r, Prod.ext rfl hr⟩⟩) s false _ w1
  have s2 : EachScalar (fun _ t st => (scalarSet t .fresh st.value).1 = st) false s (reloaded s (reloaded s e)) :=
    reloaded_each (P := fun t st => SameData st (scalarSet t .fresh st.value).1) (by
      rintro t st h
      rw [← h.2]) s false _ s1
  have hc2 := reloaded_conforms s _ hc1
  have hm2 := reloaded_complete s _ hm1
  obtain ⟨b2, h2, _⟩ := C89_builtin s (reloaded s (reloaded s e)) hn hc2 hm2 ht (each_mono (fun _ _ _ h => h.2) s false _ w2)
  have hfix : reloaded s (reloaded s (reloaded s e)) = reloaded s (reloaded s e) :=
    (sameBy_eq _ _ (reloaded_same (R := fun a b => a = b) (P := fun t st => (scalarSet t .fresh st.value).1 = st) (fun t st h => h.symm) s false _ hc2 s2)).symm
  refine ⟨reloaded s e, reloaded s (reloaded s e), by simp only [reloads, h0],
    reloaded_same (P := fun t st => SameData st (scalarSet t .fresh st.value).1) (fun _ _ h => h) s false _ hc1 s1, ?_⟩
  have hloop : ∀ n, reloads s n (reloaded s (reloaded s e)) = .ok (reloaded s (reloaded s e)) := by
    intro n
    induction n with
    | zero => rfl
    | succ n ih => rw [reloads, h2]; simp only [hfix]; exact ih
  intro n
  rw [reloads, h0]
  simp only
  rw [reloads, h1]
  exact hloop n

/-- **C89.** In particular for a form that came of a submission: storing its value and setting a new form to it changes no value (but that of a Boolean without
one), and storing and setting it again and again settles. -/
theorem C89_submitted {sep : PStr} (s : Schema) (hn : NamedFields s) (ht : AllTypes IsBuiltin s) (ps : List (PStr × PStr)) (e : Elem)
    (hr : fromFlat sep s ps = .ok e) (hm : Complete s e) :
    (∃ b, setVal s (elemValue e) = .ok (reloaded s e, b) ∧ SameBy Kept e (reloaded s e)) ∧
    ∃ e₁ e₂, reloads s 1 e = .ok e₁ ∧ SameBy SameData e₁ e₂ ∧ ∀ n, reloads s (n + 2) e = .ok e₂ := by
  have hc := fromFlat_conforms hr
  have hw : EachScalar (fun _ => WasSet) false s e := by
    have hb := each_and (each_of_types (Q := fun _ t _ => IsBuiltin t) (fun _ _ _ h => h) s false e ht) (setFlat_asSent sep s e _ hr)
    refine each_mono ?_ s false e hb
    rintro p t st ⟨⟨bt, _, rfl⟩, rfl | ⟨x, rfl⟩⟩
    · exact .inl rfl
    · obtain ⟨r, hr⟩ := builtin_text_ok bt .fresh x
      exact .inr ⟨.fresh, .str x, r, Prod.ext rfl hr⟩
  obtain ⟨b, h1, _, h2⟩ := C89_builtin s e hn hc hm ht hw
  exact ⟨⟨b, h1, h2⟩, C89_settles s e hn hc hm ht hw⟩

/-- **C89.** If the form took everything that was submitted for it – every scalar took its text, or none was submitted and its class takes None –, the new form is
as the old one: `set` returns True, all values and texts are the same, so are the pairs that a page with it sends, and it is validated like the old one. -/
theorem C89_accepted {sep : PStr} (repr : PStr → PStr) (s : Schema) (hn : NamedFields s) (ht : AllTypes IsBuiltin s) (e : Elem) (hc : Conforms s e)
    (hm : Complete s e) (ha : EachScalar (fun _ => Accepted) false s e) :
    ∃ e', setVal s (elemValue e) = .ok (e', true) ∧ SameBy SameData e e' ∧ elemValue e' = elemValue e ∧ elemU repr e' = elemU repr e ∧
      flatten sep e' = flatten sep e ∧
      ∀ (rules : Pos → FieldRules), RulesLookAtContent rules → ∀ n st, validateForm e' rules n st = validateForm e rules n st := by
  have hb := each_and (each_of_types (Q := fun _ t _ => IsBuiltin t) (fun _ _ _ h => h) s false e ht) ha
  have hre : EachScalar (fun _ t st => ReAdapts t st) false s e := by
    refine each_mono ?_ s false e hb
    rintro p t st ⟨⟨bt, _, rfl⟩, ⟨rfl, h⟩ | ⟨x, h⟩⟩
    · exact C33_unset_readapts bt h
    · have := C33_builtin_readapts bt .fresh (.str x) (by rw [h])
      rwa [h] at this
  obtain ⟨e', h1, h2, h3, h4⟩ := C33_reproduces repr s e hn hc hm hre
  exact ⟨e', h1, h2, h3, h4, flatten_sameText sep (sameBy_mono (fun _ _ h => h.1) _ _ h2), fun rules hr n st => C79_content h2 rules hr n st⟩

/-- **C89.** `set` raises only TypeError, and exactly if a strict SparseDict lacks a field and no List or Array is around it. -/
theorem C89_refused (s : Schema) (e : Elem) (hn : NamedFields s) (hc : Conforms s e) (ht : EachScalar (fun _ => TakesItsValue) false s e) (er : PyErr) :
    setVal s (elemValue e) = .error er ↔ er = .type ∧ Refuses s e :=
  ⟨fun h => ⟨setVal_typeOnly s false e er hn hc ht h, setVal_error_refuses s false e er hn hc ht h⟩, fun ⟨h, hr⟩ => h ▸ setVal_refuses s false e hn hc ht hr⟩

/-- **C89.** If one is around it, nobody hears of it but by the False of `set`, and the whole List is lost: it is empty, whatever else it had. -/
theorem C89_list_lost (h : Hdr) (prune : Bool) (max : Nat) (m : Schema) (n : Option PStr) (ks : List Elem) (hn : NamedFields m) (hc : ∀ k ∈ ks, Conforms m k)
    (ht : ∀ k ∈ ks, EachScalar (fun _ => TakesItsValue) false m k) (hr : ∃ k ∈ ks, Refuses m k) :
    setVal (.list h prune max m) (elemValue (.list n ks)) = .ok (.list h.name [], false) ∧
    setVal (.array h prune m) (elemValue (.array n ks)) = .ok (.array h.name [], false) := by
  have hto : ∀ k ∈ ks, ∀ er, setVal m (elemValue k) = .error er → er = .type := fun k hk er => setVal_typeOnly m false k er hn (hc k hk) (ht k hk)
  obtain ⟨k, hk, hr⟩ := hr
  have h1 := memberLoop_error hto ⟨k, hk, setVal_refuses m false k hn (hc k hk) (ht k hk) hr⟩
  constructor <;> rw [setVal, elemValue, seqSetVal, pyIter] <;> simp only [h1]

end
/-! ### examples -/

section
attribute [local instance] Runtime.ascii
open TreeExample

/-- an Integer and a List of strict SparseDicts with a String and a Boolean -/
def storedRow : Schema :=
  .dict ⟨none, false, some .none⟩ .sparse .strict [.scalar ⟨some ['a'], false, some .none⟩ (stringType true), .scalar ⟨some ['b'], false, some .none⟩ (booleanType {})]

/-- see `storedRow` -/
def storedSchema : Schema :=
  .dict ⟨some ['o'], false, some .none⟩ .full .subset [.scalar ⟨some ['i'], false, some .none⟩ (integerType true 0), .list ⟨some ['l'], false, some .none⟩ false 9 storedRow]

/-- 'x' was submitted for the Integer; the Boolean of the row is new -/
def storedElem : Elem :=
  .dict (some ['o']) [.scalar (some ['i']) ⟨.none, ['x'], some (.str ['x'])⟩, .list (some ['l']) [.dict none [.scalar (some ['a']) (str "p"), .scalar (some ['b']) .fresh]]]

/-- the same without the Boolean -/
def storedShort : Elem :=
  .dict (some ['o']) [.scalar (some ['i']) ⟨.none, ['x'], some (.str ['x'])⟩, .list (some ['l']) [.dict none [.scalar (some ['a']) (str "p"), .absent]]]

example : NamedFields storedSchema := by simp [storedSchema, storedRow, NamedFields, NamedFieldsAll, Schema.name, Schema.hdr]
example : Conforms storedSchema storedElem := by simp [storedSchema, storedRow, storedElem, Conforms, ConformsAll, Schema.name, Schema.hdr]
example : Conforms storedSchema storedShort := by simp [storedSchema, storedRow, storedShort, Conforms, ConformsAll, autoField, Schema.name, Schema.hdr]
example : Complete storedSchema storedElem := by simp [storedSchema, storedRow, storedElem, Complete, CompleteAll, Elem.present]
example : AllTypes IsBuiltin storedSchema := by
  have h1 : IsBuiltin (integerType true 0) := ⟨.integer true 0, trivial, rfl⟩
  have h2 : IsBuiltin (stringType true) := ⟨.string true, trivial, rfl⟩
  have h3 : IsBuiltin (booleanType {}) := ⟨.boolean {}, by simp [Builtin.Consistent], rfl⟩
  simp only [storedSchema, storedRow, AllTypes, AllTypesIn]
  exact ⟨h1, ⟨h2, h3, trivial⟩, trivial⟩
example : EachScalar (fun _ => WasSet) false storedSchema storedElem := by
  simp only [storedSchema, storedRow, storedElem, EachScalar, EachScalarAll, List.mem_cons, List.not_mem_nil, or_false, forall_eq, and_true]
  exact ⟨.inr ⟨.fresh, .str ['x'], false, rfl⟩, .inr ⟨.fresh, .str ['p'], true, rfl⟩, .inl rfl⟩
/-- the text that was refused is lost, and the Boolean is False -/
example : setVal storedSchema (elemValue storedElem) = .ok (.dict (some ['o']) [.scalar (some ['i']) ⟨.none, [], some .none⟩,
    .list (some ['l']) [.dict none [.scalar (some ['a']) (str "p"), .scalar (some ['b']) ⟨.bool false, [], some .none⟩]]], true) := by
  rfl
/-- without the Boolean, the row is lost -/
example : setVal storedSchema (elemValue storedShort) = .ok (.dict (some ['o']) [.scalar (some ['i']) ⟨.none, [], some .none⟩, .list (some ['l']) []], false) := by
  rfl
example : Refuses storedRow (.dict none [.scalar (some ['a']) (str "p"), .absent]) := by simp [storedRow, Refuses, Elem.present]
example : setVal storedRow (elemValue (.dict none [.scalar (some ['a']) (str "p"), .absent])) = .error .type := by rfl
/-- everything was accepted -/
example : EachScalar (fun _ => Accepted) false storedRow (.dict none [.scalar (some ['a']) (str "p"), .scalar (some ['b']) ⟨.bool true, ['1'], some (.str ['1'])⟩]) := by
  simp only [storedRow, EachScalar, EachScalarAll, and_true]
  exact ⟨.inr ⟨['p'], rfl⟩, .inr ⟨['1'], rfl⟩⟩
/-- submitted -/
example : fromFlat ['_'] storedSchema [("o_i".toList, ['x']), ("o_l_0_a".toList, ['p']), ("o_l_0_b".toList, [])] = .ok
    (.dict (some ['o']) [.scalar (some ['i']) ⟨.none, ['x'], some (.str ['x'])⟩,
      .list (some ['l']) [.dict none [.scalar (some ['a']) (str "p"), .scalar (some ['b']) ⟨.bool false, [], some (.str [])⟩]]]) := by rfl

end

end Flatland
