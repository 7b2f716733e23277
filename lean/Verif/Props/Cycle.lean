import Verif.Proofs.Cycle3
import Verif.Proofs.HalfWay
import Verif.Props.Submit
/-
C83: what is left of any form after its page has been sent back, and that sending it back again and again changes nothing more.
-/
namespace Flatland
open Spec

section
variable [Runtime]

/-- Whatever a form holds, flattening it and feeding the pairs to a new element of the same class gives exactly what
`broughtBack` says.  Nothing is assumed but that no scalar raises an exception on its own text. -/
theorem C83_brought_back {sep : PStr} (hs : GoodSep sep) (s : Schema) (e : Elem) (hk : Keyed s) (hw : WellNamed sep s)
    (hc : Conforms s e) (ht : EachScalar TakesItsText false s e) :
    fromFlat sep s (flatten sep e) = .ok (broughtBack false s e) :=
  setFlat_any hs s false e _ hw hc ht fun k _ => flatten_agree hs hk hw hc k trivial

/-- The same for pairs in any other order, as long as the values of one key keep theirs. -/
theorem C83_any_order {sep : PStr} (hs : GoodSep sep) (s : Schema) (e : Elem) (hk : Keyed s) (hw : WellNamed sep s)
    (hc : Conforms s e) (ht : EachScalar TakesItsText false s e) (ps : List (PStr × PStr))
    (hps : ∀ k, valuesFor k ps = valuesFor k (flatten sep e)) : fromFlat sep s ps = .ok (broughtBack false s e) := by
  refine setFlat_any hs s false e _ hw hc ht fun k _ => ?_
  exact (agree_of_valuesFor hps k trivial).trans (flatten_agree hs hk hw hc k trivial)

/-- With the scalar classes that come with the library, nothing at all is assumed of the form. -/
theorem C83_builtin {sep : PStr} (hs : GoodSep sep) (s : Schema) (e : Elem) (hk : Keyed s) (hw : WellNamed sep s)
    (hc : Conforms s e) (ht : AllTypes IsBuiltin s) : fromFlat sep s (flatten sep e) = .ok (broughtBack false s e) := by
  refine C83_brought_back hs s e hk hw hc (each_of_types (P := IsBuiltin) ?_ s false e ht)
  rintro p t st ⟨b, -, rfl⟩
  exact .inr (builtin_text_ok b _ _)

/-- The form that comes back is a form of the class again, with Lists no longer than allowed. -/
theorem C83_proper {sep : PStr} (hs : GoodSep sep) (s : Schema) (e : Elem) (hk : Keyed s) (hw : WellNamed sep s)
    (hc : Conforms s e) (ht : EachScalar TakesItsText false s e) :
    ∃ e', fromFlat sep s (flatten sep e) = .ok e' ∧ Conforms s e' ∧ WithinMax s e' :=
  ⟨_, C83_brought_back hs s e hk hw hc ht, broughtBack_conforms false s e hw hc, within_back s false e hw hc⟩

/-- If no scalar's text changes when it is set again, no List is too long, and pruning Lists and Arrays hold nothing blank,
then sending the form back a second time changes nothing. -/
theorem C83_settles_at_once {sep : PStr} (hs : GoodSep sep) (s : Schema) (e : Elem) (hk : Keyed s) (hw : WellNamed sep s)
    (hc : Conforms s e) (ht : EachScalar Steady false s e) (hm : WithinMax s e) (hb : NoBlanks false s e) :
    ∃ e', ∀ n, sentBack sep s (n + 1) e = .ok e' := by
  have h1 := C83_brought_back hs s e hk hw hc (takes_of_steady ht)
  have hc1 := broughtBack_conforms false s e hw hc
  have ht1 := each_back steady_step s false e hw hc ht
  have h2 := C83_brought_back hs s _ hk hw hc1 (takes_of_steady ht1)
  rw [back_again s false e hw hc ht hm hb] at h2
  refine ⟨broughtBack false s e, fun n => ?_⟩
  rw [sentBack, h1]
  simp only []
  induction n with
  | zero => rfl
  | succ n ih => rw [sentBack, h2]; exact ih

/-- If no scalar's text changes when it is set again and no List is too long, sending the form back a third time changes nothing. -/
theorem C83_settles {sep : PStr} (hs : GoodSep sep) (s : Schema) (e : Elem) (hk : Keyed s) (hw : WellNamed sep s)
    (hc : Conforms s e) (ht : EachScalar Steady false s e) (hm : WithinMax s e) :
    ∃ e', ∀ n, sentBack sep s (n + 2) e = .ok e' := by
  have h1 := C83_brought_back hs s e hk hw hc (takes_of_steady ht)
  obtain ⟨e', h⟩ := C83_settles_at_once hs s _ hk hw (broughtBack_conforms false s e hw hc) (each_back steady_step s false e hw hc ht)
    (within_back s false e hw hc) (noBlanks_back s false e hw hc ht hm)
  refine ⟨e', fun n => ?_⟩
  rw [sentBack, h1]
  exact h n

/-- A form of the classes that come with the library, whatever it holds, no longer changes after it has been sent back
three times.  No exception is raised on the way. -/
theorem C83_settles_builtin {sep : PStr} (hs : GoodSep sep) (s : Schema) (e : Elem) (hk : Keyed s) (hw : WellNamed sep s)
    (hc : Conforms s e) (ht : AllTypes IsBuiltin s) : ∃ e', ∀ n, sentBack sep s (n + 3) e = .ok e' := by
  have h1 := C83_builtin hs s e hk hw hc ht
  have hst : EachScalar Steady false s (broughtBack false s e) := by
    refine each_back (P := fun _ t _ => IsBuiltin t) ?_ s false e hw hc (each_of_types (fun _ _ _ h => h) s false e ht)
    rintro p t st ⟨b, hb, rfl⟩
    have hf := C09_builtin_reads_back b hb .fresh st.u
    split
    · rename_i hp
      refine ⟨.inl ?_, ?_⟩
      · simp only [Bool.and_eq_true] at hp
        simp [hp.1, ScalarState.fresh]
      · simp only [Bool.and_eq_true] at hp
        simp [ReadsBack, SameText, hp.1, ScalarState.fresh]
    · refine ⟨.inr hf.1, ?_⟩
      have h2 := hf.2
      simp only [ReadsBack, SameData, Bool.false_and, Bool.false_eq_true, if_false] at h2
      simp only [ReadsBack, SameText]
      split
      · rename_i hp
        simp only [Bool.and_eq_true, beq_iff_eq] at hp
        rw [hp.2]; rfl
      · exact h2.1
  obtain ⟨e', h⟩ := C83_settles hs s _ hk hw (broughtBack_conforms false s e hw hc) hst (within_back s false e hw hc)
  refine ⟨e', fun n => ?_⟩
  rw [sentBack, h1]
  exact h n

/-- In particular, whatever was submitted at first: if a form comes of it, sending the form back from then on settles. -/
theorem C83_submission {sep : PStr} (hs : GoodSep sep) (s : Schema) (hk : Keyed s) (hw : WellNamed sep s) (ht : AllTypes IsBuiltin s)
    (ps : List (PStr × PStr)) (e : Elem) (h : fromFlat sep s ps = .ok e) : ∃ e', ∀ n, sentBack sep s (n + 3) e = .ok e' := by
  refine C83_settles_builtin hs s e hk hw ?_ ht
  have h1 := setFlatRun_outcome sep s (fresh s) (ps.map fun p => (some p.1, p.2))
  have h2 := setFlatRun_conforms sep s (fresh s) (ps.map fun p => (some p.1, p.2)) (fresh_conforms s)
  rw [show setFlat sep s (fresh s) (ps.map fun p => (some p.1, p.2)) = .ok e from h] at h1
  rcases hr : setFlatRun sep s (fresh s) (ps.map fun p => (some p.1, p.2)) with ⟨a, x⟩
  rw [hr] at h1 h2
  cases x <;> simp [Ended.outcome, Except.map] at h1
  exact h1 ▸ h2

/-- The page generated for any form, when submitted, gives what `broughtBack` says. -/
theorem C83_page [Casing] {sep : PStr} (hs : GoodSep sep) (s : Schema) (e : Elem) (hk : Keyed s) (hw : WellNamed sep s)
    (hc : Conforms s e) (ht : EachScalar TakesItsText false s e) {page : List PageCall} {ps : List (PStr × PStr)} (hp : PageShows page ps)
    (hps : ∀ k, valuesFor k ps = valuesFor k (flatten sep e)) {f : OptFrame} (hf : FullFrame f) (hon : FillsIn f)
    {outs : List PStr} (h : (renderPage page f).2 = .ok outs) :
    fromFlat sep s (outs.filterMap submits) = .ok (broughtBack false s e) := by
  rw [C65_page hp hf hon h]
  exact C83_any_order hs s e hk hw hc ht ps hps

end

/-! ## Non-vacuity -/

section examples
attribute [local instance] Runtime.ascii

def cycleHdr (n : Option String) : Hdr := ⟨n.map String.toList, false, some .none⟩

/-- `Dict.named('o').of(List.named('l').using(prune_empty=False, maximum_set_flat_members=2).of(List.of(String)),
SparseDict.named('z').of(Boolean.named('b'), Array.named('t').of(String)))` -/
def cycleSchema : Schema :=
  .dict (cycleHdr "o") .full .subset
    [.list (cycleHdr "l") false 2 (.list (cycleHdr none) true 1024 (.scalar (cycleHdr none) (stringType true))),
     .dict (cycleHdr "z") .sparse .subset
       [.scalar ⟨some "b".toList, true, some .none⟩ (stringType true),
        .array ⟨some "t".toList, true, some .none⟩ true (.scalar (cycleHdr none) (stringType true))]]

/-- a String state -/
def cycleStr (s : String) : ScalarState := ⟨.str s.toList, s.toList, some (.str s.toList)⟩

/-- a form with blanks, an empty list and more rows than allowed -/
def cycleElem : Elem :=
  .dict (some "o".toList)
    [.list (some "l".toList)
      [.list none [.scalar none (cycleStr ""), .scalar none (cycleStr " x ")], .list none [], .list none [.scalar none (cycleStr "y")]],
     .dict (some "z".toList) [.absent, .array (some "t".toList) [.scalar none (cycleStr ""), .scalar none (cycleStr "u")]]]

theorem cycle_wellNamed : WellNamed "_".toList cycleSchema := by
  simp [WellNamed, WellNamedAll, cycleSchema, cycleHdr, GoodName, isContainer, Compatible, Schema.name, Schema.hdr]
theorem cycle_conforms : Conforms cycleSchema cycleElem := by
  simp [Conforms, ConformsAll, cycleSchema, cycleElem, autoField, cycleHdr]
theorem cycle_builtin : AllTypes IsBuiltin cycleSchema := by
  have h : IsBuiltin (stringType true) := ⟨.string true, trivial, rfl⟩
  simp [AllTypes, AllTypesIn, cycleSchema, h]
theorem cycle_sep : GoodSep "_".toList := ⟨'_', [], rfl, by decide⟩

/-- the blank string and the third row are gone, and the spaces around `x` -/
example : fromFlat "_".toList cycleSchema (flatten "_".toList cycleElem) = .ok (.dict (some "o".toList)
    [.list (some "l".toList) [.list none [.scalar none ⟨.str "x".toList, "x".toList, some (.str " x ".toList)⟩], .list none []],
     .dict (some "z".toList) [.absent, .array (some "t".toList) [.scalar none (cycleStr "u")]]]) :=
  C83_builtin cycle_sep _ _ trivial cycle_wellNamed cycle_conforms cycle_builtin
example : ∃ e', ∀ n, sentBack "_".toList cycleSchema (n + 3) cycleElem = .ok e' :=
  C83_settles_builtin cycle_sep _ _ trivial cycle_wellNamed cycle_conforms cycle_builtin

/-- the same form, settled -/
def cycleSettled : Elem :=
  .dict (some "o".toList)
    [.list (some "l".toList) [.list none [.scalar none (cycleStr "x")]],
     .dict (some "z".toList) [.absent, .array (some "t".toList) [.scalar none (cycleStr "u")]]]
example : Conforms cycleSchema cycleSettled ∧ EachScalar Steady false cycleSchema cycleSettled ∧ WithinMax cycleSchema cycleSettled ∧
    NoBlanks false cycleSchema cycleSettled := by
  have h : ∀ p (c : Char), c ∈ ['x', 'u'] → Steady p (stringType true) ⟨.str [c], [c], some (.str [c])⟩ := by
    intro p c hc
    simp only [List.mem_cons, List.not_mem_nil, or_false] at hc
    rcases hc with rfl | rfl <;> exact ⟨.inr ⟨true, rfl⟩, by cases p <;> rfl⟩
  refine ⟨by simp [Conforms, ConformsAll, cycleSchema, cycleSettled, autoField, cycleHdr], ?_, ?_, ?_⟩
  · simp [EachScalar, EachScalarAll, cycleSchema, cycleSettled]
    exact ⟨h _ 'x' (by simp), h _ 'u' (by simp)⟩
  · simp [WithinMax, WithinMaxAll, cycleSchema, cycleSettled]
  · simp [NoBlanks, NoBlanksAll, cycleSchema, cycleSettled]
    decide

/-- **Why more than one round.**  Spaces submitted for a String in a pruning List make a member (the text is not empty), which
then is blank.  Sent back, the List has no members; and the row that held it is gone the time after. -/
theorem C83_rounds_needed :
    fromFlat "_".toList cycleSchema [("o_l_0_0".toList, " ".toList)] = .ok (.dict (some "o".toList)
      [.list (some "l".toList) [.list none [.scalar none ⟨.str [], [], some (.str " ".toList)⟩]], .dict (some "z".toList) [.absent, .absent]]) ∧
    fromFlat "_".toList cycleSchema (flatten "_".toList (.dict (some "o".toList)
      [.list (some "l".toList) [.list none [.scalar none ⟨.str [], [], some (.str " ".toList)⟩]], .dict (some "z".toList) [.absent, .absent]])) =
      .ok (.dict (some "o".toList) [.list (some "l".toList) [.list none []], .dict (some "z".toList) [.absent, .absent]]) ∧
    fromFlat "_".toList cycleSchema (flatten "_".toList (.dict (some "o".toList)
      [.list (some "l".toList) [.list none []], .dict (some "z".toList) [.absent, .absent]])) =
      .ok (.dict (some "o".toList) [.list (some "l".toList) [], .dict (some "z".toList) [.absent, .absent]]) := by
  refine ⟨rfl, ?_, ?_⟩
  · exact C83_builtin cycle_sep _ _ trivial cycle_wellNamed (by simp [Conforms, ConformsAll, cycleSchema, autoField, cycleHdr]) cycle_builtin
  · exact C83_builtin cycle_sep _ _ trivial cycle_wellNamed (by simp [Conforms, ConformsAll, cycleSchema, autoField, cycleHdr]) cycle_builtin

/-- **An exception to pruning.**  An Array drops blank members by default, but not if it is the member of a List (without
pruning) and neither it nor its own members have names. -/
theorem C83_unnamed_array_keeps_blanks :
    fromFlat "_".toList (.list (cycleHdr "l") false 2 (.array (cycleHdr none) true (.scalar (cycleHdr none) (stringType true))))
      [("l_0".toList, [])] = .ok (.list (some "l".toList) [.array none [.scalar none (cycleStr "")]]) ∧
    fromFlat "_".toList (.list (cycleHdr "l") false 2 (.array (cycleHdr "t") true (.scalar (cycleHdr none) (stringType true))))
      [("l_0_t".toList, [])] = .ok (.list (some "l".toList) [.array (some "t".toList) []]) := ⟨rfl, rfl⟩

end examples

end Flatland
