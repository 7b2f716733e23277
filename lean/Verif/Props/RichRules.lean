import Verif.Proofs.RichRules2
import Verif.Proofs.RichRules3
import Verif.Props.RichValidation
import Verif.Props.Records
import Verif.Props.TreeRules
/-! # C99: validation looks at the content of a form with dates and joined strings -/
namespace Flatland
open Flatland.Spec

section
variable [Runtime]

/-- **C99.** Forms with the same content – names, structure, text and value of every scalar, Compound and JoinedString – are validated alike: the same result,
flags and messages, whatever the raw input was. -/
theorem C99_content {e e' : NElem} (h : SameRich e e') (rules : Pos → RichField) (hr : RichContentRules rules) (n : Nat) (st : VState Pos (Pos → List PStr)) :
    validateRich e' rules n st = validateRich e rules n st := by
  simp only [validateRich, sameRich_env h hr]

/-- **C99.** All validators of the package that do not change the element look at the content only. -/
theorem C99_package_rules {repr : PStr → PStr} {r : RichRule} (hr : RichPackageRule repr r) : RichContentRule r := richPackage_content hr

/-- **C99.** A form that is shown on a page and sent back unchanged is as valid as before, with the same messages. -/
theorem C99_sent_back {sep : PStr} (hs : GoodSep sep) (mn : Option PStr) (page : RElem → List (PStr × PStr)) (hp : SendsForm sep page)
    (s : VSchema) (e : VElem) (ha : NoRichArrays s) (hk : RKeyed (pageClass mn s)) (hw : RWellNamed sep (pageClass mn s)) (hc : VConforms s e)
    (hcar : RCarried false (pageClass mn s) (pageForm mn s e)) (ht : TextsRead false s e) (rules : Pos → RichField) (hr : RichContentRules rules) :
    ∃ r, rFromFlat sep (pageClass mn s) (page (pageForm mn s e)) = .ok r ∧
      ∀ n st, validateRich (nodesOf r) rules n st = validateRich (nodesOf (pageForm mn s e)) rules n st := by
  obtain ⟨r, h1, _, h3, h4, _⟩ := C90_unchanged hs mn page hp id s e ha hk hw hc hcar ht
  refine ⟨r, h1, fun n st => ?_⟩
  rw [h3]
  exact C99_content (sameRich_page mn s _ _ h4) rules hr n st

/-- **C99.** So is a new form set to the value of the first. -/
theorem C99_value (mn : Option PStr) (s : VSchema) (e : VElem) (hn : VNamed s) (hc : VConforms s e) (hm : VComplete s e)
    (hs : VEach PlainKeeps JoinedKeeps DateKeeps s e) (rules : Pos → RichField) (hr : RichContentRules rules) :
    ∃ v e' b, vValue e = .ok v ∧ vSet s v = .ok (e', b) ∧
      ∀ n st, validateRich (nodesOf (pageForm mn s e')) rules n st = validateRich (nodesOf (pageForm mn s e)) rules n st := by
  obtain ⟨v, e', b, h1, h2, h3, _⟩ := C88_reproduces id s e hn hc hm hs
  exact ⟨v, e', b, h1, h2, fun n st => C99_content (sameRich_page mn s _ _ h3) rules hr n st⟩

/-- **C99.** And a record that was loaded, shown and kept again any number of times. -/
theorem C99_edited {sep : PStr} (hs : GoodSep sep) (mn : Option PStr) (page : RElem → List (PStr × PStr)) (hp : SendsForm sep page)
    (s : VSchema) (ha : NoRichArrays s) (hn : VNamed s) (hk : RKeyed (pageClass mn s)) (hw : RWellNamed sep (pageClass mn s)) (times : Nat) (e : VElem)
    (hc : VConforms s e) (hm : VComplete s e) (hv : VEach PlainKeeps JoinedKeeps DateKeeps s e)
    (hcar : RCarried false (pageClass mn s) (pageForm mn s e)) (ht : TextsRead false s e) (rules : Pos → RichField) (hr : RichContentRules rules) :
    ∃ e', editedFor sep mn page s times e = .ok e' ∧
      ∀ n st, validateRich (nodesOf (pageForm mn s e')) rules n st = validateRich (nodesOf (pageForm mn s e)) rules n st := by
  obtain ⟨_, e', _, h2, h3, _⟩ := C90_edited hs mn page hp id s ha hn hk hw times e hc hm hv hcar ht
  exact ⟨e', h2, fun n st => C99_content (sameRich_page mn s _ _ h3) rules hr n st⟩

/-- **C99.** What validators see of a form is its value and its text. -/
theorem C99_seen (repr : PStr → PStr) (mn : Option PStr) (s : VSchema) (e : VElem) (ha : NoRichArrays s) (hc : VConforms s e) :
    (∀ v, vValue e = .ok v → nValue (nodesOf (pageForm mn s e)) = v) ∧ (∀ t, vText repr e = .ok t → nText repr (nodesOf (pageForm mn s e)) = t) :=
  ⟨(page_reads repr mn s e ha (.inl hc)).1, (page_reads repr mn s e ha (.inl hc)).2.1⟩

/-- **C99.** So a date is judged by the day its parts make, whichever way it strips, and a joined string by its pieces with the separator between them. -/
theorem C99_seen_fields (repr : PStr → PStr) (mn : Option PStr) :
    (∀ h st fs sts, sts.length = fs.length → ∀ y m d, HoldsDay sts y m d →
      nValue (nodesOf (pageForm mn (.date h st fs) (.date h.name st sts))) = .date y m d ∧
      nText repr (nodesOf (pageForm mn (.date h st fs) (.date h.name st sts))) = fmtDate y m d) ∧
    (∀ h c ms, nValue (nodesOf (pageForm mn (.joined h c) (.joined h.name c ms))) = .str (c.separator.intercalate (ms.map ScalarState.u)) ∧
      nText repr (nodesOf (pageForm mn (.joined h c) (.joined h.name c ms))) = c.separator.intercalate (ms.map ScalarState.u)) := by
  refine ⟨fun h st fs sts hl y m d hd => ?_, fun h c ms => ?_⟩
  · obtain ⟨hv, ht⟩ := C99_seen repr mn (.date h st fs) (.date h.name st sts) trivial ⟨rfl, rfl, hl⟩
    have hview : dateView st sts = .ok (fmtDate y m d, .date y m d) := by
      rw [dateView, hd.2]; exact composeDate_ok st ⟨rfl, rfl, rfl, hd.1⟩
    exact ⟨hv _ (by rw [vValue, hview]; rfl), ht _ (by rw [vText, hview]; rfl)⟩
  · simp only [pageForm, nodesOf, nValue, nText, joinedText, pyJoin_intercalate, and_self]

omit [Runtime] in
/-- **C99.** A validator that counts sees all members of a List or Array, all parts of a date and pieces of a joined string, and those fields of a Dict that are
there. -/
theorem C99_counts (repr : PStr → PStr) (f : PyVal → PStr → Nat → Except PyErr (Option PStr)) (noter : NElem → Pos → Noter) (e : NElem) (p : Pos) (k : NElem)
    (hk : At e p k) :
    (∃ n, (richReadingRule repr f noter).decide e p = f (nValue k) (nText repr k) n ∧ n = k.kids.countP NElem.present) ∧
    ((∀ c ∈ k.kids, c ≠ .absent) → (richReadingRule repr f noter).decide e p = f (nValue k) (nText repr k) k.kids.length) := by
  have h : (richReadingRule repr f noter).decide e p = f (nValue k) (nText repr k) (k.kids.filter NElem.present).length := by
    simp only [richReadingRule, hk.1]
  refine ⟨⟨_, h, List.countP_eq_length_filter.symm⟩, fun ha => ?_⟩
  rw [h, List.filter_eq_self.2 fun c hc => ?_]
  have := ha c hc
  cases c <;> simp_all [NElem.present]

/-! ### looking around -/

/-- **C99.** `find` always ends, with the elements the path leads to (blank Compounds and JoinedStrings being passed over by `..`, see C92), in order, if no branch
of it fails. -/
theorem C99_find (e : NElem) (n : Node) (path : PStr) (ops : List Op) (ht : tokenize path = .ok ops) (strict : Bool) :
    Evaluates (richGraph e) strict ops n (richFind e strict n path) ∧
    ((∀ er, .error er ∉ branches (withoutFalseParents (richGraph e)) ops n) →
      richFind e strict n path = .ok (reached (branches (withoutFalseParents (richGraph e)) ops n))) := by
  have h1 : Evaluates (richGraph e) strict ops n (richFind e strict n path) := by
    obtain ⟨r, hr⟩ := richFind_enough e strict n ops
    have : richFind e strict n path = r := by
      simp only [richFind, ht, hr _ (Nat.le_refl _), Option.getD_some]
    exact ⟨_, this ▸ hr⟩
  refine ⟨h1, fun hb => ?_⟩
  exact C18_result_unique _ _ _ _ _ _ h1 (C92_find_branches _ strict ops n fun er he => absurd he (hb er))

/-- the path leads from the element at `p` to this one element -/
theorem richFindOne_leads {e : NElem} {p : Pos} {q : PStr} {x : Node}
    (h : ∃ ops, tokenize q = .ok ops ∧ branches (withoutFalseParents (richGraph e)) ops ⟨p, false⟩ = [.ok x]) : richFindOne e ⟨p, false⟩ q = .ok (some x) := by
  obtain ⟨ops, ht, hb⟩ := h
  have := (C99_find e ⟨p, false⟩ q ops ht true).2 (by rw [hb]; intro er he; simp at he)
  rw [hb] at this
  simp [richFindOne, this, reached, findSingle]

/-- **C99.** ValuesEqual: if each path leads to one element, and these have labels, it passes iff the values of these elements – dates, joined strings or
others – are equal to each other, and else notes `unequal`. -/
theorem C99_values_equal (e : NElem) (p : Pos) (paths : List PStr) (hne : paths ≠ []) (at' : PStr → Node)
    (hf : ∀ q ∈ paths, ∃ ops, tokenize q = .ok ops ∧ branches (withoutFalseParents (richGraph e)) ops ⟨p, false⟩ = [.ok (at' q)])
    (label : NElem → Node → Option PStr) (hl : ∀ q ∈ paths, label e (at' q) ≠ .none)
    (hw : ∀ q ∈ paths, WfVal (nValue ((nElemAt e (at' q).pos).getD .absent))) (noter : NElem → Pos → Noter) :
    let r := (richValuesEqual paths label noter).decide e p
    let equal := ∀ q ∈ paths, ∀ q' ∈ paths, pyEq (nValue ((nElemAt e (at' q).pos).getD .absent)) (nValue ((nElemAt e (at' q').pos).getD .absent)) = true
    (equal → r = .ok .none) ∧ (¬ equal → r = .ok (some "unequal".toList)) := by
  have hfind : ∀ q ∈ paths, richFindOne e ⟨p, false⟩ q = .ok (some (at' q)) := fun q hq => richFindOne_leads (hf q hq)
  have hv := C42_values_equal paths hne (fun q => some (at' q)) (richFindOne e ⟨p, false⟩) hfind
    (fun o => nValue ((nElemAt e (o.getD ⟨[], false⟩).pos).getD .absent)) (by simpa using hw)
  simp only [Option.getD_some] at hv
  simp only [richValuesEqual, richFieldsEqual_found nValue pyEq paths hne label e p at' hfind hl]
  exact ⟨hv.1.2, hv.2.2⟩

/-- **C99.** UnisEqual likewise, with the texts. -/
theorem C99_unis_equal (repr : PStr → PStr) (e : NElem) (p : Pos) (paths : List PStr) (hne : paths ≠ []) (at' : PStr → Node)
    (hf : ∀ q ∈ paths, ∃ ops, tokenize q = .ok ops ∧ branches (withoutFalseParents (richGraph e)) ops ⟨p, false⟩ = [.ok (at' q)])
    (label : NElem → Node → Option PStr) (hl : ∀ q ∈ paths, label e (at' q) ≠ .none) (noter : NElem → Pos → Noter) :
    let r := (richUnisEqual repr paths label noter).decide e p
    let equal := ∀ q ∈ paths, ∀ q' ∈ paths, nText repr ((nElemAt e (at' q).pos).getD .absent) = nText repr ((nElemAt e (at' q').pos).getD .absent)
    (equal → r = .ok .none) ∧ (¬ equal → r = .ok (some "unequal".toList)) := by
  have hfind : ∀ q ∈ paths, richFindOne e ⟨p, false⟩ q = .ok (some (at' q)) := fun q hq => richFindOne_leads (hf q hq)
  have hv := C42_unis_equal paths hne (fun q => some (at' q)) (richFindOne e ⟨p, false⟩) hfind
    (fun o => nText repr ((nElemAt e (o.getD ⟨[], false⟩).pos).getD .absent))
  simp only [Option.getD_some] at hv
  simp only [richUnisEqual, richFieldsEqual_found (nText repr) (· == ·) paths hne label e p at' hfind hl]
  exact ⟨hv.1.2, hv.2.2⟩

/-- **C99.** If a branch of the path fails, a strict `find` raises – LookupError, if all that fails is the lookup of children. -/
theorem C99_find_raises (e : NElem) (n : Node) (path : PStr) (ops : List Op) (ht : tokenize path = .ok ops)
    (h : ∃ er, .error er ∈ branches (withoutFalseParents (richGraph e)) ops n) :
    ∃ er, richFind e true n path = .error er ∧
      ((∀ er', .error er' ∈ branches (withoutFalseParents (richGraph e)) ops n → ChildMissing er') → er = .lookup) := by
  obtain ⟨er, he⟩ := h
  obtain ⟨er', h1, _, m, hm⟩ := evalLoop_raises _ (cut_parentsTruthy (richGraph e)) true ops.length ops (Nat.le_refl _) [n] [] ⟨er, by simpa using he, .inl rfl⟩
  have hev : Evaluates (richGraph e) true ops n (.error (reported er')) := (C92_false_parents _ _ _ _ _).2 ⟨m, fun k hk => by simpa using hm k hk⟩
  refine ⟨_, C18_result_unique _ _ _ _ _ _ (C99_find e n path ops ht true).1 hev, fun hall => ?_⟩
  simp [reported, (childMissing_iff _).1 (hall er' (by simpa using h1))]

/-- **C99.** If a path leads nowhere, because a child is missing, or to several elements, ValuesEqual and UnisEqual raise LookupError. -/
theorem C99_unclear_path (repr : PStr → PStr) (e : NElem) (p : Pos) (pre post : List PStr) (q : PStr) (at' : PStr → Node)
    (hpre : ∀ x ∈ pre, ∃ ops, tokenize x = .ok ops ∧ branches (withoutFalseParents (richGraph e)) ops ⟨p, false⟩ = [.ok (at' x)])
    (ops : List Op) (ht : tokenize q = .ok ops)
    (hq : ((∃ er, .error er ∈ branches (withoutFalseParents (richGraph e)) ops ⟨p, false⟩) ∧
        ∀ er, .error er ∈ branches (withoutFalseParents (richGraph e)) ops ⟨p, false⟩ → ChildMissing er) ∨
      ∃ x y more, branches (withoutFalseParents (richGraph e)) ops ⟨p, false⟩ = .ok x :: .ok y :: more ∧ ∀ er, .error er ∉ more)
    (label : NElem → Node → Option PStr) (noter : NElem → Pos → Noter) :
    (richValuesEqual (pre ++ q :: post) label noter).decide e p = .error .lookup ∧
    (richUnisEqual repr (pre ++ q :: post) label noter).decide e p = .error .lookup := by
  have hfind : ∀ x ∈ pre, richFindOne e ⟨p, false⟩ x = .ok (some (at' x)) := fun x hx => richFindOne_leads (hpre x hx)
  have hbad : richFindOne e ⟨p, false⟩ q = .error .lookup := by
    rcases hq with ⟨hex, hall⟩ | ⟨x, y, more, hb, hmore⟩
    · obtain ⟨er, h1, h2⟩ := C99_find_raises e ⟨p, false⟩ q ops ht hex
      simp [richFindOne, h1, h2 hall]
    · have := (C99_find e ⟨p, false⟩ q ops ht true).2 (by rw [hb]; intro er he; simp at he; exact hmore er he)
      rw [hb] at this
      simp [richFindOne, this, reached, findSingle]
  simp only [richValuesEqual, richUnisEqual, richFieldsEqual, mapExcept_first_error _ _ pre post q _ hfind hbad, and_self]

/-- **C99.** And if a path leads to no element, although nothing is missing – a slice of an empty list – they raise AttributeError: there is no element to
compare. -/
theorem C99_empty_slice (repr : PStr → PStr) (e : NElem) (p : Pos) (paths : List PStr) (at' : PStr → Option Node)
    (hf : ∀ q ∈ paths, ∃ ops, tokenize q = .ok ops ∧ branches (withoutFalseParents (richGraph e)) ops ⟨p, false⟩ = (at' q).toList.map .ok)
    (label : NElem → Node → Option PStr) (hl : ∀ q ∈ paths, ∀ n, at' q = some n → label e n ≠ .none) (noter : NElem → Pos → Noter)
    (hnone : ∃ q ∈ paths, at' q = .none) :
    (richValuesEqual paths label noter).decide e p = .error .attribute ∧ (richUnisEqual repr paths label noter).decide e p = .error .attribute := by
  have hfind : ∀ q ∈ paths, richFindOne e ⟨p, false⟩ q = .ok (at' q) := by
    intro q hq
    obtain ⟨ops, ht, hb⟩ := hf q hq
    cases hx : at' q with
    | some x => exact richFindOne_leads ⟨ops, ht, by rw [hb, hx]; rfl⟩
    | none =>
      rw [hx] at hb
      have := (C99_find e ⟨p, false⟩ q ops ht true).2 (by rw [hb]; intro er he; simp at he)
      rw [hb] at this
      simp [richFindOne, this, reached, findSingle]
  exact ⟨richFieldsEqual_none _ _ paths label e p at' hfind hl hnone, richFieldsEqual_none _ _ paths label e p at' hfind hl hnone⟩

omit [Runtime] in
/-- **C99.** NotDuplicated on a child of any container – a List of dates, the parts of a date, the pieces of a joined string – passes iff no earlier child of it
equals this one, in value and text, and else notes `failure`. -/
theorem C99_not_duplicated (repr : PStr → PStr) (noter : NElem → Pos → Noter) (e : NElem) (p : Pos) (k : NElem) (hk : At e p k)
    (i : Nat) (c : NElem) (hi : k.kids[i]? = some c) (hc : c ≠ .absent) :
    let r := (richNotDuplicated repr noter).decide e (p ++ [i])
    let repeated := ∃ (j : Nat) (d : NElem), j < i ∧ k.kids[j]? = some d ∧ d ≠ .absent ∧ pyEq (nValue c) (nValue d) = true ∧ nText repr c = nText repr d
    (repeated → r = .ok (some "failure".toList)) ∧ (¬ repeated → r = .ok .none) := by
  have hsh : ∀ x : NElem, shape x = .absent ↔ x = .absent := fun x => by cases x <;> simp [shape]
  obtain ⟨pre, post, hsplit, hnot, hpre⟩ := siblings_split (shape e) p (shape k) (at_shape hk) i (shape c)
    (by rw [shape_kids, shapes_getElem?, hi]; rfl) (fun h => hc ((hsh c).1 h))
  simp only [richNotDuplicated, hsplit, notDuplicated,
    dupLoop_eq (fun a b => nEq repr ((nElemAt e a.pos).getD .absent) ((nElemAt e b.pos).getD .absent)) _ pre post hnot]
  have hany : (pre.any fun b => nEq repr ((nElemAt e (p ++ [i])).getD .absent) ((nElemAt e b.pos).getD .absent)) = true ↔
      ∃ (j : Nat) (d : NElem), j < i ∧ k.kids[j]? = some d ∧ d ≠ .absent ∧ pyEq (nValue c) (nValue d) = true ∧ nText repr c = nText repr d := by
    rw [List.any_eq_true, (at_child hk hi hc).1]
    constructor
    · rintro ⟨b, hb, ho⟩
      obtain ⟨j, d, hj, hjd, hd, rfl⟩ := (hpre b).1 hb
      rw [shape_kids, shapes_getElem?, Option.map_eq_some_iff] at hjd
      obtain ⟨d, hjd, rfl⟩ := hjd
      have hd' : d ≠ .absent := fun h => hd ((hsh d).2 h)
      rw [(at_child hk hjd hd').1] at ho
      simp only [Option.getD_some, nEq, Bool.and_eq_true, beq_iff_eq] at ho
      exact ⟨j, d, hj, hjd, hd', ho⟩
    · rintro ⟨j, d, hj, hjd, hd, ho⟩
      refine ⟨⟨p ++ [j], false⟩, (hpre _).2 ⟨j, shape d, hj, by rw [shape_kids, shapes_getElem?, hjd]; rfl, fun h => hd ((hsh d).1 h), rfl⟩, ?_⟩
      rw [(at_child hk hjd hd).1]
      simpa [nEq] using ho
  refine ⟨fun hrep => ?_, fun hrep => ?_⟩
  · simp [hany.2 hrep]
  · have : (pre.any fun b => nEq repr ((nElemAt e (p ++ [i])).getD .absent) ((nElemAt e b.pos).getD .absent)) = false := by
      rw [← Bool.not_eq_true]; exact fun hh => hrep (hany.1 hh)
    simp [this]

/-- **C99.** So in a valid form the children of a container that are validated with NotDuplicated are all different, but for those that are blank and optional. -/
theorem C99_all_different (repr : PStr → PStr) (noter : NElem → Pos → Noter) (e : NElem) (he : e ≠ .absent) (rules : Pos → RichField)
    (h : ∀ p k, At e p k → Decides e p (rules p).validators ∧ (containerN k = true → Decides e p (rules p).descent))
    (st : VState Pos (Pos → List PStr)) :
    ∃ n r, validateRich e rules n st = some r ∧ (r.result = .ok true → ∀ (p : Pos) (k : NElem), At e p k →
      (∀ i, richNotDuplicated repr noter ∈ (rules (p ++ [i])).validators) →
      ∀ (i j : Nat) (c d : NElem), j < i → k.kids[i]? = some c → k.kids[j]? = some d → c ≠ .absent → d ≠ .absent → ¬ LetOff rules (p ++ [i]) c →
        ¬ (pyEq (nValue c) (nValue d) = true ∧ nText repr c = nText repr d)) := by
  obtain ⟨r, b, m, hrun, hb, hiff, _⟩ := C93_validate e he rules h st
  refine ⟨m, r, hrun m (Nat.le_refl _), fun hok p k hk hd i j c d hij hi hj hcp hdp hne ho => ?_⟩
  rw [hb] at hok
  have hob := hiff.1 (Except.ok.inj hok) (p ++ [i]) c (at_child hk hi hcp)
  rcases hob with hx | ⟨hx, _⟩
  · exact absurd hx hne
  · have hp := hx _ (hd i)
    rw [Accepts, (C99_not_duplicated repr noter e p k hk i c hi hcp).1 ⟨j, d, hij, hj, hdp, ho⟩] at hp
    cases hp

end

/-! ### a concrete case: the record of C90, with a day that must be the first of the further days, which must differ -/
namespace RichRulesExample
open RecordExample
attribute [local instance] Runtime.ascii

def sayer : NElem → Pos → Noter := fun _ _ => ⟨⟨[], .ok .none, .ok .none⟩, fun k => .ok (.fixed (.single k))⟩
def labels : NElem → Node → Option PStr := fun _ n => some (decimal n.pos.length)
/-- the paths of the two days -/
def days : List PStr := [['w'], ['l', '/', '0']]

def theRules : Pos → RichField
  | [] => { validators := [richValuesEqual days labels sayer] }
  | [3, _] => { validators := [richNotDuplicated id sayer] }
  | [1] => { validators := [richReadingRule id (fun _ u n => .ok (if u.length ≤ 3 ∧ n = 2 then .none else some "failure".toList)) sayer] }
  | _ => {}

theorem theRules_content : RichContentRules theRules := by
  intro p r hr
  have hn : ∀ e e', SameRich e e' → ∀ p, sayer e p = sayer e' p := fun _ _ _ _ => rfl
  have hl : ∀ e e', SameRich e e' → ∀ n, labels e n = labels e' n := fun _ _ _ _ => rfl
  unfold theRules at hr
  split at hr
  · simp at hr; subst hr; exact C99_package_rules (repr := id) (.valuesEqual hn hl)
  · simp at hr; subst hr; exact C99_package_rules (.notDuplicated hn)
  · simp at hr; subst hr; exact C99_package_rules (.reading hn)
  · simp at hr

/-- the record with other further days -/
def formWith (a b : List ScalarState) : VElem :=
  .dict (some ['f'])
    [.plain (.scalar (some ['t']) (text "hi")), .joined (some ['g']) tags [text "a", text "b"], .date (some ['w']) true (day 2000 2 29),
     .list (some ['l']) [.date (some ['x']) true a, .date (some ['x']) true b]]

def shown (v : VElem) : NElem := nodesOf (pageForm .none schema v)

def verdict (v : VElem) : Option (Option Bool × List PStr × List PStr) :=
  (validateRich (shown v) theRules 40 ⟨fun _ => .unevaluated, fun _ => []⟩).map fun r => (r.result.toOption, r.state.data [], r.state.data [3, 1])

-- all well; the wrong day; the same day twice
example : verdict (formWith (day 2000 2 29) (day 2001 1 1)) = some (some true, [], []) := by decide +kernel
example : verdict form = some (some false, ["unequal".toList], []) := by decide +kernel
example : verdict (formWith (day 2000 2 29) (day 2000 2 29)) = some (some false, [], ["failure".toList]) := by decide +kernel

-- the paths lead to the two days, whose values are dates
def where' (q : PStr) : Node := if q = ['w'] then ⟨[2], false⟩ else ⟨[3, 0], false⟩
example : ∀ q ∈ days, ∃ ops, tokenize q = .ok ops ∧ branches (withoutFalseParents (richGraph (shown form))) ops ⟨[], false⟩ = [.ok (where' q)] := by
  intro q hq
  simp only [days, List.mem_cons, List.not_mem_nil, or_false] at hq
  rcases hq with rfl | rfl
  · exact ⟨[.name (some ['w'])], by decide, by decide +kernel⟩
  · exact ⟨[.name (some ['l']), .name (some ['0'])], by decide, by decide +kernel⟩
-- paths that lead nowhere, to several elements, and to none although nothing is missing
def branchesFrom (q : List Op) : List (Except PyErr Node) := branches (withoutFalseParents (richGraph (shown form))) q ⟨[], false⟩
example : (branchesFrom [.name (some ['z'])]).all (fun r => r.toOption.isNone) = true ∧ branchesFrom [.name (some ['z'])] ≠ [] := by decide +kernel
example : (branchesFrom [.name (some ['l']), .slice .none .none .none]).map Except.toOption = [some ⟨[3, 0], false⟩, some ⟨[3, 1], false⟩] := by decide +kernel
example : branchesFrom [.name (some ['l']), .slice (some 2) .none .none] = [] := by decide +kernel
example : ((richValuesEqual [['w'], ['z']] labels sayer).decide (shown form) [] matches .error .lookup) = true := by decide +kernel

def isDate : PyVal → Bool
  | .date _ _ _ => true
  | _ => false
example : ∀ q ∈ days, WfVal (nValue ((nElemAt (shown form) (where' q).pos).getD .absent)) := by
  have h : ∀ v, isDate v = true → WfVal v := fun v hv => by cases v <;> simp_all [isDate, WfVal]
  have hq : days.all (fun q => isDate (nValue ((nElemAt (shown form) (where' q).pos).getD .absent))) = true := by decide +kernel
  exact fun q hm => h _ (List.all_eq_true.1 hq q hm)

-- what is seen
example : nText id (shown form) = "{t: hi, g: a,b, w: 2000-02-29, l: [1999-12-31, 2001-01-01]}".toList := by decide +kernel
example : HoldsDay (day 2000 2 29) 2000 2 29 := ⟨(validDate_iff _ _ _).1 (by decide), rfl⟩

-- raw input does not matter
example : SameRich (shown form) (shown (formWith (day 1999 12 31) ((day 2001 1 1).map fun st => { st with raw := some (.int 5) }))) :=
  sameRich_page _ _ _ _ ⟨rfl, ⟨rfl, rfl, rfl⟩, ⟨rfl, rfl, rfl⟩, ⟨rfl, rfl, rfl⟩, ⟨rfl, ⟨rfl, rfl, rfl⟩, ⟨rfl, rfl, rfl⟩, trivial⟩, trivial⟩

-- the record, loaded, shown and kept again, is validated as before: the day is still wrong
example (page : RElem → List (PStr × PStr)) (hp : SendsForm sep page) (n : Nat) :
    ∃ e', editedFor sep .none page schema n form = .ok e' ∧
      ∀ n st, validateRich (shown e') theRules n st = validateRich (shown form) theRules n st := by
  have h1 := real 2000 2 29 (by decide)
  have h2 := real 1999 12 31 (by decide)
  have h3 := real 2001 1 1 (by decide)
  refine C99_edited ⟨'_', [], rfl, by decide⟩ .none page hp schema ?_ ?_ ?_ ?_ n form ?_ ?_ ?_ ?_ ?_ theRules theRules_content
  · simp [schema, NoRichArrays, NoRichArraysAll]
  · simp [schema, VNamed, VNamedAll, NamedFields, VSchema.name, VSchema.hdr, Schema.hdr]
  · simp [schema, pageClass, RKeyed]
  · simp [schema, pageClass, pageClasses, RWellNamed, RWellNamedAll, ymd, WellNamed, WellNamedAll, GoodName, RCompatible, Compatible, RSchema.name, RSchema.hdr,
      spreads, isContainer, Schema.name, Schema.hdr, NamelessCompound]
  · simp [schema, form, VConforms, VConformsAll, Conforms, ymd, day]
  · simp [schema, form, VComplete, VCompleteAll, Complete, VElem.present, Elem.present]
  · simp only [schema, form, VEach, VEachAll, List.mem_cons, List.not_mem_nil, or_false, forall_eq_or_imp, forall_eq, and_true]
    refine ⟨fun _ => ?_, ⟨_, true, tags_take, rfl⟩, (h1 false).1, (h2 false).1, (h3 false).1⟩
    exact ⟨⟨.str "hi".toList, "hi".toList, some (.str "hi".toList)⟩, rfl, rfl, rfl⟩
  · have hi : ∀ w u, ∃ b, (scalarSet (integerType true w) .fresh (.str u)).2 = .ok b := fun w u => builtin_text_ok (.integer true w) .fresh u
    have hn : ∀ w n, padNat w n ≠ [] := padNat_ne_nil
    simp [schema, form, pageClass, pageClasses, pageForm, pageForms, RCarried, RCarriedAll, Carried, CarriedAll, ymd, day, text, rAutoField, autoField, Survives,
      rTexts, leavesKids, leaves, hi, hn]
    exact ⟨.inr rfl, .inr rfl⟩
  · simp only [schema, form, TextsRead, TextsReadAll, List.mem_cons, List.not_mem_nil, or_false, forall_eq_or_imp, forall_eq, and_true, EachScalar]
    exact ⟨⟨rfl, rfl⟩, rfl, (h1 false).2, (h2 true).2, (h3 true).2⟩

-- a form whose further days must differ: NotDuplicated decides on every one of them
def differing : Pos → RichField
  | [3, _] => { validators := [richNotDuplicated id sayer] }
  | _ => {}
example : ∀ p k, At (shown form) p k →
    Decides (shown form) p (differing p).validators ∧ (containerN k = true → Decides (shown form) p (differing p).descent) := by
  intro p k hk
  unfold differing
  split
  · rename_i i
    refine ⟨fun r hr => ?_, fun _ r hr => by cases hr⟩
    obtain rfl := List.mem_singleton.1 hr
    obtain ⟨l, h3, hl⟩ : ∃ l, At (shown form) [3] l ∧ ∀ i, nElemAt (shown form) [3, i] = l.kids[i]? := by
      refine ⟨_, ⟨rfl, nofun⟩, fun i => ?_⟩
      rcases i with _ | _ | i <;> rfl
    have hi : l.kids[i]? = some k := hl i ▸ hk.1
    obtain ⟨h1, h2⟩ := C99_not_duplicated id sayer (shown form) [3] _ h3 i k hi hk.2
    rcases Classical.em _ with hrep | hrep
    · exact .inr ⟨some "failure".toList, "failure".toList, .fixed (.single "failure".toList), h1 hrep, rfl, (msg_says _).1 rfl, rfl⟩
    · exact .inl (h2 hrep)
  · exact ⟨fun r hr => (by cases hr), fun _ r hr => (by cases hr)⟩

end RichRulesExample
end Flatland
