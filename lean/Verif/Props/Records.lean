import Verif.Proofs.Records
import Verif.Props.RichValues
import Verif.Props.Tree
/-
Property C90: a record that is kept as the value of a form, loaded, shown on a page, and made again of what the page sends.
-/
namespace Flatland
open Spec

section
variable [Runtime]

/-- what is made of the page of a form -/
theorem page_trip {sep : PStr} (hs : GoodSep sep) (mn : Option PStr) {page : RElem → List (PStr × PStr)} (hp : SendsForm sep page) (s : VSchema) (e : VElem)
    (ha : NoRichArrays s) (hk : RKeyed (pageClass mn s)) (hw : RWellNamed sep (pageClass mn s)) (hc : VConforms s e)
    (hcar : RCarried false (pageClass mn s) (pageForm mn s e)) :
    rFromFlat sep (pageClass mn s) (page (pageForm mn s e)) = .ok (pageForm mn s (vRestored false s e)) := by
  have hr := pageForm_conforms mn s e ha hc
  rw [← rRestored_form mn s false e ha hc]
  rcases hp (pageForm mn s e) with h | h
  · exact C78_any_order hs _ _ hk hw hr hcar _ h
  · exact rRestored_carrying hs _ _ hk hw hr hcar _ h

/-- **C90.** A form with dates and joined strings, shown on a page that sends what the form shows, comes back with the same texts and values everywhere, and the
same `value` and `u`.  Assumed of what it holds: scalars and joined strings are the same after being set from their own text, and flat data can carry the
form. -/
theorem C90_unchanged {sep : PStr} (hs : GoodSep sep) (mn : Option PStr) (page : RElem → List (PStr × PStr)) (hp : SendsForm sep page) (repr : PStr → PStr)
    (s : VSchema) (e : VElem) (ha : NoRichArrays s) (hk : RKeyed (pageClass mn s)) (hw : RWellNamed sep (pageClass mn s)) (hc : VConforms s e)
    (hcar : RCarried false (pageClass mn s) (pageForm mn s e)) (ht : TextsRead false s e) :
    ∃ r, rFromFlat sep (pageClass mn s) (page (pageForm mn s e)) = .ok r ∧ VConforms s (formOfPage s r) ∧ r = pageForm mn s (formOfPage s r) ∧
      VSame e (formOfPage s r) ∧ vValue (formOfPage s r) = vValue e ∧ vText repr (formOfPage s r) = vText repr e := by
  have hsame := vRestored_same s false e ha hc ht
  have hc' := vConforms_same s _ _ hsame hc
  have hv := vSame_value repr _ _ hsame
  refine ⟨_, page_trip hs mn hp s e ha hk hw hc hcar, ?_⟩
  rw [formOfPage_form mn s _ ha hc']
  exact ⟨hc', rfl, hsame, hv.1.symm, hv.2.symm⟩

/-- **C90.** A record is kept as the value of a form.  Any number of times a new form is set to that value, shown, and the value of the form made of what the page
sends is kept instead: nothing raises, and neither the record nor any text or value of the form ever changes.  Assumed of what the form holds at the beginning is,
besides the above, that scalars, joined strings and dates come back from their values. -/
theorem C90_edited {sep : PStr} (hs : GoodSep sep) (mn : Option PStr) (page : RElem → List (PStr × PStr)) (hp : SendsForm sep page) (repr : PStr → PStr)
    (s : VSchema) (ha : NoRichArrays s) (hn : VNamed s) (hk : RKeyed (pageClass mn s)) (hw : RWellNamed sep (pageClass mn s)) (n : Nat) (e : VElem)
    (hc : VConforms s e) (hm : VComplete s e) (hv : VEach PlainKeeps JoinedKeeps DateKeeps s e)
    (hcar : RCarried false (pageClass mn s) (pageForm mn s e)) (ht : TextsRead false s e) :
    ∃ v e', vValue e = .ok v ∧ editedFor sep mn page s n e = .ok e' ∧ VSame e e' ∧ vValue e' = .ok v ∧ vText repr e' = vText repr e := by
  induction n generalizing e with
  | zero =>
    obtain ⟨v, _, _, h1, _⟩ := C88_reproduces repr s e hn hc hm hv
    exact ⟨v, e, h1, rfl, vSame_refl e, h1, rfl⟩
  | succ n ih =>
    obtain ⟨v, e₁, b, h1, h2, h3, h4, h5, _⟩ := C88_reproduces repr s e hn hc hm hv
    have hc₁ := vConforms_same s _ _ h3 hc
    have hcar₁ := rCarried_same mn s false _ _ ha hc h3 hcar
    have ht₁ := textsRead_same s false _ _ hc h3 ht
    obtain ⟨r, g1, g2, _, g4, g5, g6⟩ := C90_unchanged hs mn page hp repr s e₁ ha hk hw hc₁ hcar₁ ht₁
    have h6 := vSame_trans h3 g4
    obtain ⟨v', e', k1, k2, k3, k4, k5⟩ := ih (formOfPage s r) g2 (vComplete_same s _ _ h6 hm) (vKeeps_same s _ _ h6 hv)
      (rCarried_same mn s false _ _ ha hc h6 hcar) (textsRead_same s false _ _ hc h6 ht)
    have hvv : v' = v := by
      rw [g5, h4] at k1
      exact (Except.ok.inj k1).symm
    refine ⟨v, e', h1, ?_, vSame_trans h6 k3, hvv ▸ k4, k5.trans (g6.trans h5)⟩
    rw [editedFor, h1]
    simp only [h2, g1]
    exact k2

/-- **C90.** What is assumed of scalars holds of every scalar of a built-in class that has accepted a text (inside a pruning List: unless its text is empty although it has a
value, as that of a String may be). -/
theorem C90_scalar (b : Builtin) (hb : b.Consistent) (old : ScalarState) (x : PStr) (h : (scalarSet b.type old (.str x)).2 = .ok true) :
    ReAdapts b.type (scalarSet b.type old (.str x)).1 ∧ ReadsBack SameData false b.type (scalarSet b.type old (.str x)).1 ∧
    (((scalarSet b.type old (.str x)).1.u = [] → (scalarSet b.type old (.str x)).1.value = .none) →
      ReadsBack SameData true b.type (scalarSet b.type old (.str x)).1) := by
  have h1 := C33_builtin_readapts b old (.str x) h
  have h2 := (C09_builtin_reads_back b hb old x).2
  refine ⟨h1, h2, fun hu => ?_⟩
  generalize (scalarSet b.type old (.str x)).1 = st at *
  unfold ReadsBack at *
  by_cases h0 : st.u = []
  · simp only [Bool.true_and, h0, beq_self_eq_true, if_true]
    exact ⟨h0, hu h0⟩
  · simpa [h0] using h2

/-- **C90.** What is assumed of dates holds of those whose children are the year, month and day of a date, as the texts that `set` makes of them, and of those whose children are
all empty. -/
theorem C90_date (p doStrip : Bool) (fs : List (Hdr × ScalarType)) (hf : fs.map Prod.snd = ymdTypes) (sts : List ScalarState)
    (h : (∃ y m d, RealDate y m d ∧ dataOf sts = [(padNat 4 y, .int y), (padNat 2 m, .int m), (padNat 2 d, .int d)]) ∨
      dataOf sts = [([], .none), ([], .none), ([], .none)]) :
    DateKeeps doStrip (fs.map Prod.snd) sts ∧ ∀ x ∈ fs.zip sts, ReadsBack SameData p x.1.2 x.2 := by
  constructor
  · rw [hf]
    rcases h with ⟨y, m, d, hr, hd⟩ | hd
    · exact ((C88_date_keeps doStrip sts).1 y m d hr hd).1
    · exact ((C88_date_keeps doStrip sts).2 hd).1
  · obtain ⟨a, b, c, rfl⟩ : ∃ a b c, sts = [a, b, c] := by
      have hl : sts.length = 3 := by
        have : (dataOf sts).length = 3 := by rcases h with ⟨y, m, d, _, hd⟩ | hd <;> rw [hd] <;> rfl
        simpa [dataOf] using this
      match sts, hl with
      | [a, b, c], _ => exact ⟨a, b, c, rfl⟩
    have hl : fs.length = 3 := by simpa [ymdTypes] using congrArg List.length hf
    match fs, hl, hf with
    | [f1, f2, f3], _, hf =>
      simp only [List.map_cons, List.map_nil, ymdTypes, List.cons.injEq, and_true] at hf
      simp only [dataOf, List.map_cons, List.map_nil, List.cons.injEq, and_true] at h
      simp only [List.zip_cons_cons, List.zip_nil_right, List.mem_cons, List.not_mem_nil, or_false, forall_eq_or_imp, forall_eq, hf]
      rcases h with ⟨y, m, d, _, h1, h2, h3⟩ | ⟨h1, h2, h3⟩
      · exact ⟨part_reads p 4 a (.inl ⟨y, h1⟩), part_reads p 2 b (.inl ⟨m, h2⟩), part_reads p 2 c (.inl ⟨d, h3⟩)⟩
      · exact ⟨part_reads p 4 a (.inr h1), part_reads p 2 b (.inr h2), part_reads p 2 c (.inr h3)⟩

/-- **C90.** What is assumed of joined strings holds of those that come back from their texts (see C88); inside a pruning List, one whose text is empty must have no members. -/
theorem C90_joined (p : Bool) (h : Hdr) (c : JoinedCfg) (n : Option PStr) (ms : List ScalarState) (hk : JoinedKeeps c ms)
    (he : p = true → joinedText c ms = [] → ms = []) : TextsRead p (.joined h c) (.joined n c ms) := by
  obtain ⟨ms', b, h1, h2⟩ := hk
  simp only [TextsRead]
  by_cases hp : (p && joinedText c ms == []) = true
  · rw [if_pos hp]
    simp only [Bool.and_eq_true, beq_iff_eq] at hp
    rw [he hp.1 hp.2]
  · rw [if_neg hp, h1]
    exact h2

end

/-! ### a concrete case -/
namespace RecordExample
attribute [local instance] Runtime.ascii

def sep : PStr := ['_']
/-- the children of a date: year, month, day -/
def ymd : List (Hdr × ScalarType) :=
  [(⟨some ['y'], false, some .none⟩, integerType true 4), (⟨some ['m'], false, some .none⟩, integerType true 2), (⟨some ['d'], false, some .none⟩, integerType true 2)]
def tags : JoinedCfg := ⟨[','], .none, true, stringType true⟩

/-- a form with a title, tags, a day and a List of further days -/
def schema : VSchema :=
  .dict ⟨some ['f'], false, some .none⟩ .full .strict
    [.plain (.scalar ⟨some ['t'], false, some .none⟩ (stringType true)), .joined ⟨some ['g'], false, some .none⟩ tags,
     .date ⟨some ['w'], false, some .none⟩ true ymd,
     .list ⟨some ['l'], false, some .none⟩ true 1024 (.date ⟨some ['x'], false, some .none⟩ true ymd)]

/-- a String's state -/
def text (x : String) : ScalarState := ⟨.str x.toList, x.toList, .none⟩
/-- the children of a date -/
def day (y m d : Nat) : List ScalarState := [⟨.int y, padNat 4 y, .none⟩, ⟨.int m, padNat 2 m, .none⟩, ⟨.int d, padNat 2 d, .none⟩]

/-- such a form, filled in -/
def form : VElem :=
  .dict (some ['f'])
    [.plain (.scalar (some ['t']) (text "hi")), .joined (some ['g']) tags [text "a", text "b"], .date (some ['w']) true (day 2000 2 29),
     .list (some ['l']) [.date (some ['x']) true (day 1999 12 31), .date (some ['x']) true (day 2001 1 1)]]

theorem tags_take : joinedSet tags [] (.str (joinedText tags [text "a", text "b"])) =
    ([⟨.str ['a'], ['a'], some (.str ['a'])⟩, ⟨.str ['b'], ['b'], some (.str ['b'])⟩], .ok true) := by rfl

theorem real (y m d : Nat) (h : validDate y m d = true) : ∀ p, DateKeeps true (ymd.map Prod.snd) (day y m d) ∧ ∀ x ∈ ymd.zip (day y m d), ReadsBack SameData p x.1.2 x.2 :=
  fun p => C90_date p true ymd rfl _ (.inl ⟨y, m, d, (validDate_iff _ _ _).1 h, rfl⟩)

-- pages that send all of `flatten()`, or only the scalars and joined strings
example : SendsForm sep (rFlatten sep) := fun _ => .inl fun _ => rfl
example : SendsForm sep (carrying sep []) := fun _ => .inr fun _ => rfl

example (page : RElem → List (PStr × PStr)) (hp : SendsForm sep page) (n : Nat) :
    ∃ v e', vValue form = .ok v ∧ editedFor sep .none page schema n form = .ok e' ∧ VSame form e' ∧ vValue e' = .ok v ∧ vText id e' = vText id form := by
  have h1 := real 2000 2 29 (by decide)
  have h2 := real 1999 12 31 (by decide)
  have h3 := real 2001 1 1 (by decide)
  refine C90_edited ⟨'_', [], rfl, by decide⟩ .none page hp id schema ?_ ?_ ?_ ?_ n form ?_ ?_ ?_ ?_ ?_
  · simp [schema, NoRichArrays, NoRichArraysAll]
  · simp [schema, VNamed, VNamedAll, NamedFields, VSchema.name, VSchema.hdr, Schema.hdr]
  · simp [schema, pageClass, RKeyed]
  · simp [schema, pageClass, pageClasses, RWellNamed, RWellNamedAll, ymd, WellNamed, WellNamedAll, GoodName, RCompatible, Compatible, RSchema.name, RSchema.hdr,
      spreads, isContainer, Schema.name, Schema.hdr, NamelessCompound]
  · simp [schema, form, VConforms, VConformsAll, Conforms, ymd, day]
  · simp [schema, form, VComplete, VCompleteAll, Complete, VElem.present, Elem.present]
  · simp only [schema, form, VEach, VEachAll, List.mem_cons, List.not_mem_nil, or_false, forall_eq_or_imp, forall_eq, and_true]
    refine ⟨fun _ => ?_, ⟨_, true, tags_take, rfl⟩, (h1 false).1, (h2 false).1, (h3 false).1⟩
    exact ⟨⟨.str "hi".toList, "hi".toList, some (.str "hi".toList)⟩, rfl, rfl, rfl⟩
  · have hi : ∀ w u, ∃ b, (scalarSet (integerType true w) .fresh (.str u)).2 = .ok b := fun w u => builtin_text_ok (.integer true w) .fresh u
    have hn : ∀ w n, padNat w n ≠ [] := padNat_ne_nil
    simp [schema, form, pageClass, pageClasses, pageForm, pageForms, RCarried, RCarriedAll, Carried, CarriedAll, ymd, day, text, rAutoField, autoField, Survives,
      rTexts, leavesKids, leaves, hi, hn]
    exact ⟨.inr rfl, .inr rfl⟩
  · simp only [schema, form, TextsRead, TextsReadAll, List.mem_cons, List.not_mem_nil, or_false, forall_eq_or_imp, forall_eq, and_true, EachScalar]
    exact ⟨⟨rfl, rfl⟩, rfl, (h1 false).2, (h2 true).2, (h3 true).2⟩

end RecordExample
end Flatland
