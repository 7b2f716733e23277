import Verif.Proofs.RichCycle
import Verif.Props.RichSubmissions
import Verif.Props.Cycle
import Verif.Props.Compounds
/-!
C87.  What is left of any form with Compounds and JoinedStrings in it after its page has been sent back, and that sending it back again and again
changes nothing more.
-/
namespace Flatland
open Spec

section
variable [Runtime]

/-- C87.  Whatever the form holds, flattening it and feeding the pairs to a new element of the same class gives exactly what `rBroughtBack` says.
Assumed are only that nothing raises an exception on its own text, and that no member of a List and no optional field is sent by nothing but
the composed text of a Compound in it. -/
theorem C87_brought_back {sep : PStr} (hs : GoodSep sep) (s : RSchema) (e : RElem) (hk : RKeyed s) (hw : RWellNamed sep s) (hc : RConforms s e)
    (ht : REach TakesItsText JoinedTakes false s e) (hb : CompoundsBacked false s e) :
    rFromFlat sep s (rFlatten sep e) = .ok (rBroughtBack false s e) :=
  rBroughtBack_sent hs s e hk hw hc ht hb

/-- C87.  The same for pairs in any other order, as long as the values of one key keep theirs. -/
theorem C87_any_order {sep : PStr} (hs : GoodSep sep) (s : RSchema) (e : RElem) (hk : RKeyed s) (hw : RWellNamed sep s) (hc : RConforms s e)
    (ht : REach TakesItsText JoinedTakes false s e) (hb : CompoundsBacked false s e) (ps : List (PStr × PStr))
    (hps : ∀ k, valuesFor k ps = valuesFor k (rFlatten sep e)) : rFromFlat sep s ps = .ok (rBroughtBack false s e) :=
  rBroughtBack_any hs s e hk hw hc ht hb ps hps

/-- C87.  And the same for a page that sends only the scalars and the JoinedStrings, in any order: leaving out the texts of Compounds and the members of
JoinedStrings makes no difference, and what Compounds show does not matter then. -/
theorem C87_page {sep : PStr} (hs : GoodSep sep) (s : RSchema) (e : RElem) (hk : RKeyed s) (hw : RWellNamed sep s) (hc : RConforms s e)
    (ht : REach TakesItsText JoinedTakes false s e) (ps : List (PStr × PStr)) (hps : ∀ k, valuesFor k ps = valuesFor k (carrying sep [] e)) :
    rFromFlat sep s ps = .ok (rBroughtBack false s e) :=
  rBroughtBack_carrying hs s e hk hw hc ht ps hps

/-- C87.  The form that comes back is a form of the class again, with Lists no longer than allowed. -/
theorem C87_proper {sep : PStr} (hs : GoodSep sep) (s : RSchema) (e : RElem) (hk : RKeyed s) (hw : RWellNamed sep s) (hc : RConforms s e)
    (ht : REach TakesItsText JoinedTakes false s e) (hb : CompoundsBacked false s e) :
    ∃ e', rFromFlat sep s (rFlatten sep e) = .ok e' ∧ RConforms s e' ∧ RWithinMax s e' := by
  have hcx := broughtBack_conforms false (plainS s) (dropR e) (wellNamed_plain s hw) (conforms_drop s e hc)
  refine ⟨_, C87_brought_back hs s e hk hw hc ht hb, ?_, ?_⟩
  · rw [← lift_broughtBack s false e hc]
    exact conforms_lift s _ hcx
  · rw [← lift_broughtBack s false e hc]
    exact withinMax_lift s _ hcx (within_back (plainS s) false _ (wellNamed_plain s hw) (conforms_drop s e hc))

/-- C87.  If no text of a scalar or JoinedString changes when it is set again and no List is too long, sending the form back a third time changes nothing. -/
theorem C87_settles {sep : PStr} (hs : GoodSep sep) (s : RSchema) (e : RElem) (hk : RKeyed s) (hw : RWellNamed sep s) (hc : RConforms s e)
    (ht : REach Steady JoinedSteady false s e) (hm : RWithinMax s e) (hb : CompoundsBacked false s e) (hbl : OptionalCompoundsBlank s) :
    ∃ e', ∀ n, rSentBack sep s (n + 2) e = .ok e' := by
  have hwp := wellNamed_plain s hw
  have hcd := conforms_drop s e hc
  have hst := each_drop plain_steady s false e hc ht
  have ht' : REach TakesItsText JoinedTakes false s e := rEach_imp (fun _ _ _ h => h.1) (fun _ _ _ h => h.1) s false e ht
  have h1 := C87_brought_back hs s e hk hw hc ht' hb
  rw [← lift_broughtBack s false e hc] at h1
  obtain ⟨e', h⟩ := rich_settles hs s hk hw hbl _ (broughtBack_conforms false _ _ hwp hcd) (coherent_back s false _ hcd (takes_of_steady hst))
    (back_asSent _ false _ hwp hcd) (each_back steady_step _ false _ hwp hcd hst) (within_back _ false _ hwp hcd)
    (noBlanks_back _ false _ hwp hcd hst (withinMax_drop s e hc hm))
  refine ⟨e', fun n => ?_⟩
  rw [rSentBack, h1]
  exact h n

/-- C87.  A form of classes that settle – they show the same from the second time on that they are set from what they show – no longer changes after
it has been sent back four times, whatever it holds.  No exception is raised on the way. -/
theorem C87_settles_classes {sep : PStr} (hs : GoodSep sep) (s : RSchema) (e : RElem) (hk : RKeyed s) (hw : RWellNamed sep s) (hc : RConforms s e)
    (ht : RAllTypes Settling SettlingJoined s) (hb : CompoundsBacked false s e) (hbl : OptionalCompoundsBlank s) :
    ∃ e', ∀ n, rSentBack sep s (n + 4) e = .ok e' := by
  have hwp := wellNamed_plain s hw
  have hcd := conforms_drop s e hc
  have htp := allTypes_plain s ht
  have h1 := C87_brought_back hs s e hk hw hc (takes_of_rTypes s false e ht) hb
  rw [← lift_broughtBack s false e hc] at h1
  -- the first form that comes back
  have hc1 := broughtBack_conforms false _ _ hwp hcd
  have ha1 := back_asSent (plainS s) false (dropR e) hwp hcd
  have hco1 := coherent_back s false (dropR e) hcd (takes_of_types _ _ _ htp)
  have hs1 : EachScalar Shown false (plainS s) (broughtBack false (plainS s) (dropR e)) :=
    each_back (P := fun _ t _ => Settling t) (fun p t st h => settling_shown p t st h) _ false _ hwp hcd (each_of_types (fun _ _ _ h => h) _ false _ htp)
  have h2 := rich_round hs s hk hw _ hc1 hco1 (takes_of_types _ _ _ htp) (compoundsBacked_lift s false _ hbl hc1 ha1)
  -- the second
  have hc2 := broughtBack_conforms false _ _ hwp hc1
  have ha2 := back_asSent (plainS s) false _ hwp hc1
  have hco2 := coherent_back s false _ hc1 (takes_of_types _ _ _ htp)
  have hs2 := each_back shown_steady _ false _ hwp hc1 hs1
  have h3 := rich_round hs s hk hw _ hc2 hco2 (takes_of_types _ _ _ htp) (compoundsBacked_lift s false _ hbl hc2 ha2)
  -- the third, from which on one more round is enough
  obtain ⟨e', h⟩ := rich_settles hs s hk hw hbl _ (broughtBack_conforms false _ _ hwp hc2) (coherent_back s false _ hc2 (takes_of_types _ _ _ htp))
    (back_asSent _ false _ hwp hc2) (each_back steady_step _ false _ hwp hc2 hs2) (within_back _ false _ hwp hc2)
    (noBlanks_back _ false _ hwp hc2 hs2 (within_back _ false _ hwp hc1))
  refine ⟨e', fun n => ?_⟩
  rw [rSentBack, h1]
  simp only []
  rw [rSentBack, h2]
  simp only []
  rw [rSentBack, h3]
  exact h n

/-- C87.  In particular, whatever was submitted at first: if a form comes of it, sending the form back from then on settles. -/
theorem C87_submission {sep : PStr} (hs : GoodSep sep) (s : RSchema) (hk : RKeyed s) (hw : RWellNamed sep s)
    (ht : RAllTypes Settling SettlingJoined s) (hbl : OptionalCompoundsBlank s) (ps : List (PStr × PStr)) (e : RElem)
    (h : rFromFlat sep s ps = .ok e) : ∃ e', ∀ n, rSentBack sep s (n + 4) e = .ok e' := by
  unfold rFromFlat at h
  rw [rSetFlat_lift] at h
  cases hx : setFlat sep (plainS s) (fresh (plainS s)) (ps.map fun p => (some p.1, p.2)) with
  | error er => rw [hx] at h; cases h
  | ok x =>
    rw [hx] at h
    cases h
    have hcx := setFlat_conforms (fresh_conforms _) hx
    exact C87_settles_classes hs s _ hk hw (conforms_lift s x hcx) ht (compoundsBacked_lift s false x hbl hcx (setFlat_asSent sep _ _ _ hx)) hbl

/-! ### classes that settle -/

/-- C87.  The scalar classes that come with the library settle. -/
theorem C87_builtin_settle (t : ScalarType) (h : IsBuiltin t) : Settling t ∧ ∀ u, textAfter t (textAfter t u) = textAfter t u := by
  obtain ⟨b, hb, rfl⟩ := h
  have once : ∀ u, textAfter b.type (textAfter b.type u) = textAfter b.type u := by
    intro u
    have h2 := (C09_builtin_reads_back b hb .fresh u).2
    simp only [ReadsBack, SameData, Bool.false_and, Bool.false_eq_true, if_false] at h2
    exact h2.1.symm
  exact ⟨⟨fun st x => builtin_text_ok b st x, fun u => once _⟩, once⟩

/-- C87.  JoinedStrings settle if they are split at a single character, the text of a member never changes when it is set again, and the member class does not
put that character into a text. -/
theorem C87_joined_settle (c : JoinedCfg) (ch : Char) (hr : c.regex = none) (hsep : c.separator = [ch]) (ht : TextSafe c.member)
    (honce : ∀ u, textAfter c.member (textAfter c.member u) = textAfter c.member u) (hfree : ∀ u, ch ∉ u → ch ∉ textAfter c.member u) : SettlingJoined c := by
  refine ⟨C86_joined_safe c (.inl (by simp [hsep])) ht, fun u => ?_⟩
  obtain ⟨ts, hts, hall, hu⟩ := joinedAfter_parts c ch hr hsep ht u
  have hA : ∀ x ∈ ts.map (textAfter c.member), ch ∉ x ∧ textAfter c.member x = x := by
    intro x hx
    obtain ⟨t, htm, rfl⟩ := List.mem_map.1 hx
    exact ⟨hfree t (hall t htm), honce t⟩
  rw [hu]
  have h2 := joinedAfter_of_parts c ch hr hsep ht _ hA (fun h => by simpa using hts h)
  rw [h2]
  refine (joinedAfter_of_parts c ch hr hsep ht _ ?_ ?_).trans ?_
  · intro x hx
    split at hx
    · exact hA x (List.mem_filter.1 hx).1
    · exact hA x hx
  · intro h
    rw [if_neg (by simp [h])]
    simpa using hts h
  · congr 1
    split
    · simp [List.filter_filter]
    · rfl

/-- C87.  JoinedStrings of Strings, split at any single character, settle. -/
theorem C87_joined_strings_settle (c : JoinedCfg) (ch : Char) (hr : c.regex = none) (hsep : c.separator = [ch]) (doStrip : Bool)
    (hm : c.member = stringType doStrip) : SettlingJoined c := by
  have hb := C87_builtin_settle (stringType doStrip) ⟨.string doStrip, trivial, rfl⟩
  refine C87_joined_settle c ch hr hsep (hm ▸ hb.1.1) (hm ▸ hb.2) ?_
  intro u hu
  rw [hm]
  have hmem : ∀ l : PStr, ch ∈ strip l → ch ∈ l := fun l h => by
    unfold strip at h
    have h' := (List.dropWhile_suffix _).subset (List.mem_reverse.1 h)
    exact (List.dropWhile_suffix _).subset (List.mem_reverse.1 h')
  cases doStrip <;> simp only [textAfter, scalarSet, stringType, pyText, Bool.false_eq_true, if_false, if_true]
  · exact hu
  · exact fun h => hu (hmem _ (hmem _ h))

/-- C87.  A DateYYYYMMDD of three Integers shows nothing when they show nothing. -/
theorem C87_date_blank (h hy hm hd : Hdr) (w1 w2 w3 : Nat) :
    BlankCompounds (.compound h dateText [.scalar hy (integerType true w1), .scalar hm (integerType true w2), .scalar hd (integerType true w3)]) := by
  simp only [BlankCompounds]
  intro ks hc he
  obtain ⟨a, b, c, rfl⟩ : ∃ a b c, ks = [.scalar hy.name a, .scalar hm.name b, .scalar hd.name c] := by
    rcases ks with _ | ⟨k1, _ | ⟨k2, _ | ⟨k3, _ | ⟨k4, ks⟩⟩⟩⟩ <;> simp [ConformsAll, autoField] at hc
    obtain ⟨h1, h2, h3⟩ := hc
    cases k1 <;> simp [Conforms] at h1
    cases k2 <;> simp [Conforms] at h2
    cases k3 <;> simp [Conforms] at h3
    subst h1 h2 h3
    exact ⟨_, _, _, rfl⟩
  simp only [EachScalarAll, EachScalar] at he
  refine ⟨by simp [leavesKids, leaves], fun hl => ?_⟩
  have hu : a.u = [] := hl ⟨[0], [hy.name], a⟩ (by simp [leavesKids, leaves])
  have hv : a.value = .none := int_blank he.1 hu
  simp [dateText, dateView, Elem.state, composeDate, formatYMD, hv, numberOf, ymdCatches]

end

/-! ### the hypotheses can be met, and what can go wrong -/

section Examples
attribute [local instance] Runtime.ascii
open RichExample

example : rFromFlat sep schema (rFlatten sep elem) = .ok (rBroughtBack false schema elem) :=
  C87_brought_back ex_good _ _ ex_keyed ex_named ex_instance
    (by
      have hj : ∀ p u, JoinedTakes p cfg u := fun p u => .inr (C86_joined_safe cfg (.inl (by decide)) (fun _ _ => ⟨true, rfl⟩) u)
      have hp : ∀ p st, TakesItsText p (stringType false) st := fun p st => .inr ⟨true, rfl⟩
      simp [REach, REachAll, schema, elem, tags, when_, part, EachScalarAll, EachScalar, hj, hp])
    (backed_of_carried _ _ _ ex_carries)

/-- a page that sends the rows first, without those of the date and of the members of `tags` -/
example : rFromFlat sep schema [("rows_0".toList, "p,q".toList), ("who".toList, "x".toList), ("tags".toList, "a,b".toList), ("when_y".toList, "2010".toList), ("when_m".toList, "1".toList)] =
    .ok (rBroughtBack false schema elem) := by
  refine C87_page ex_good _ _ ex_keyed ex_named ex_instance
    (by
      have hj : ∀ p u, JoinedTakes p cfg u := fun p u => .inr (C86_joined_safe cfg (.inl (by decide)) (fun _ _ => ⟨true, rfl⟩) u)
      have hp : ∀ p st, TakesItsText p (stringType false) st := fun p st => .inr ⟨true, rfl⟩
      simp [REach, REachAll, schema, elem, tags, when_, part, EachScalarAll, EachScalar, hj, hp]) _ ?_
  have h0 : decimal 0 = ['0'] := by unfold decimal; rfl
  have hc : carrying sep [] elem = [("who".toList, "x".toList), ("tags".toList, "a,b".toList), ("when_y".toList, "2010".toList), ("when_m".toList, "1".toList), ("rows_0".toList, "p,q".toList)] := by
    simp only [carrying, carryingAll, carryingSlots, elem, leaves, leavesKids, h0]
    rfl
  intro k
  rw [hc]
  have hB : ∀ B : List (PStr × PStr), (∀ x ∈ B, x.1 ≠ "rows_0".toList) →
      valuesFor k (("rows_0".toList, "p,q".toList) :: B) = valuesFor k (B ++ [("rows_0".toList, "p,q".toList)]) := by
    intro B h
    simp only [valuesFor, List.filter_cons, List.filter_append, List.filter_nil]
    split
    · rename_i hk
      rw [List.filter_eq_nil_iff.2 fun x hx => by rw [← beq_iff_eq.1 hk]; simpa using h x hx]
      rfl
    · simp
  exact hB _ (by decide)

example : ∃ e', ∀ n, rSentBack sep schema (n + 2) elem = .ok e' := by
  have hj : ∀ p u, joinedAfter cfg u = u → JoinedSteady p cfg u :=
    fun p u h => ⟨.inr (C86_joined_safe cfg (.inl (by decide)) (fun _ _ => ⟨true, rfl⟩) u), .inr h⟩
  have hp : ∀ p x, Steady p (stringType false) (st x) := fun p x => by
    refine ⟨.inr ⟨true, rfl⟩, ?_⟩
    simp only [ReadsBack, SameText]
    split
    · rename_i h; simp only [Bool.and_eq_true, beq_iff_eq] at h; exact h.2
    · rfl
  refine C87_settles ex_good schema elem ex_keyed ex_named ex_instance ?_ ?_ (backed_of_carried _ _ _ ex_carries) ?_
  · simp only [REach, REachAll, schema, elem, tags, when_, part, EachScalarAll, EachScalar, hp, true_and, and_true, List.mem_singleton, forall_eq]
    exact ⟨hj _ _ rfl, hj _ _ rfl⟩
  · simp [RWithinMax, RWithinMaxAll, schema, elem, tags, when_, part, WithinMaxAll, WithinMax]
  · simp [OptionalCompoundsBlank, OptionalCompoundsBlankAll, schema, tags, when_, rAutoField, BlankCompounds]

/-- a row with tags and a date -/
private def row : RSchema := .dict (nm "row") .sparse .subset
  [tags, .compound (nm "on") dateText [.scalar (nm "year") (integerType true 4), .scalar (nm "month") (integerType true 2), .scalar (nm "day") (integerType true 2)]]
/-- rows, as many as there are -/
private def rowsForm : RSchema := .dict (nm "f") .full .subset [.list (nm "rows") true 128 row]

private theorem rows_named : RWellNamed sep rowsForm := by
  simp [RWellNamed, RWellNamedAll, rowsForm, row, sep, tags, nm, WellNamed, WellNamedAll, GoodName, RCompatible, Compatible, RSchema.name, RSchema.hdr, spreads, isContainer,
    Schema.name, Schema.hdr, NamelessCompound]
private theorem rows_blank : OptionalCompoundsBlank rowsForm := by
  simp only [OptionalCompoundsBlank, OptionalCompoundsBlankAll, rowsForm, row, BlankCompounds, BlankCompoundsAll, rAutoField, if_true, and_true, tags, true_and]
  have := C87_date_blank (nm "on") (nm "year") (nm "month") (nm "day") 4 2 2
  simp only [BlankCompounds] at this
  exact this
private theorem rows_settle : RAllTypes Settling SettlingJoined rowsForm := by
  have hi : ∀ w, Settling (integerType true w) := fun w => (C87_builtin_settle _ ⟨.integer true w, trivial, rfl⟩).1
  have hj : SettlingJoined cfg := C87_joined_strings_settle cfg ',' rfl rfl false rfl
  simp [RAllTypes, RAllTypesIn, rowsForm, row, tags, hi, hj, AllTypesIn, AllTypes]

/-- whatever is submitted to the rows -/
example (ps : List (PStr × PStr)) (e : RElem) (h : rFromFlat sep rowsForm ps = .ok e) : ∃ e', ∀ n, rSentBack sep rowsForm (n + 4) e = .ok e' :=
  C87_submission ex_good rowsForm trivial rows_named rows_settle rows_blank ps e h

example : ∃ e, rFromFlat sep rowsForm [("f_rows_3_row_tags".toList, "a,,b".toList), ("f_rows_3_row_on_year".toList, "x".toList)] = .ok e ∧
    rTexts e = ["a,b".toList, "x".toList, [], []] := ⟨_, rfl, by decide +kernel⟩

/-- a JoinedString may need two rounds: the first one strips a member, the second drops it -/
example : joinedAfter { member := stringType true } "a, ,b".toList = "a,,b".toList ∧ joinedAfter { member := stringType true } "a,,b".toList = "a,b".toList := ⟨rfl, rfl⟩

/-- rows of dates that show a dash when their parts are blank -/
def dashRows : RSchema := .list (nm "l") true 128 (.dict (nm "r") .full .subset [when_])
/-- one blank row -/
def blankRow : RElem := .list (some "l".toList) [.dict (some "r".toList)
  [.compound (some "when".toList) compose [.scalar (some "y".toList) .fresh, .scalar (some "m".toList) .fresh]]]

/-- C87.  The condition on Compounds is needed: this blank row of a pruning List comes back because of the text its Compound shows, although all its
scalars are blank. -/
theorem C87_compounds_matter : RWellNamed sep dashRows ∧ RConforms dashRows blankRow ∧ ¬ CompoundsBacked false dashRows blankRow ∧
    rFromFlat sep dashRows (rFlatten sep blankRow) = .ok blankRow ∧ rBroughtBack false dashRows blankRow = .list (some "l".toList) [] := by
  have hfl : rFlatten sep blankRow = [("l_0_r_when".toList, "-".toList), ("l_0_r_when_y".toList, []), ("l_0_r_when_m".toList, [])] := by
    have h0 : decimal 0 = ['0'] := by unfold decimal; rfl
    let comp : RElem := .compound (some "when".toList) compose [.scalar (some "y".toList) .fresh, .scalar (some "m".toList) .fresh]
    let r : NamePath := [some "l".toList, some "0".toList, some "r".toList]
    have h1 : rChildrenOf ([some "l".toList], blankRow) = [(r, .dict (some "r".toList) [comp])] := by
      simp only [rChildrenOf, blankRow, rSlotKids, h0]
      rfl
    have h2 : rChildrenOf (r, .dict (some "r".toList) [comp]) = [(r ++ [some "when".toList], comp)] := rfl
    have h3 : rChildrenOf (r ++ [some "when".toList], comp) = [(r ++ [some "when".toList] ++ [some "y".toList], .plain (.scalar (some "y".toList) .fresh)),
      (r ++ [some "when".toList] ++ [some "m".toList], .plain (.scalar (some "m".toList) .fresh))] := rfl
    have h4 : ∀ p n, rChildrenOf (p, .plain (.scalar n .fresh)) = [] := fun _ _ => rfl
    have hn : blankRow.name = some "l".toList := rfl
    unfold rFlatten rFlattenAt
    rw [hn, h1, rBfs, List.nil_append, h2, rBfs, List.nil_append, h3, rBfs, h4, List.append_nil, rBfs, h4, List.append_nil, rBfs]
    rfl
  refine ⟨?_, ?_, ?_, ?_, ?_⟩
  · simp [RWellNamed, RWellNamedAll, dashRows, when_, part, sep, nm, WellNamed, WellNamedAll, GoodName, RCompatible, Compatible, RSchema.name, RSchema.hdr, spreads, isContainer,
      Schema.name, Schema.hdr, NamelessCompound]
  · simp [RConforms, RConformsAll, dashRows, blankRow, when_, part, nm, Conforms, ConformsAll]
  · simp only [CompoundsBacked, dashRows, blankRow, List.mem_singleton, forall_eq, Backed]
    intro h
    obtain ⟨t, ht, hp⟩ := h.2 ⟨"-".toList, by decide, by decide⟩
    simp [rTexts, rTextsAll, leavesKids, leaves, ScalarState.fresh] at ht
    subst ht
    cases hp
  · rw [hfl]; rfl
  · rfl

end Examples

end Flatland
