import Verif.Proofs.TreeRules2
import Verif.Proofs.Nodes
import Verif.Props.FormValidation
import Verif.Props.Paths
import Verif.Props.Submit
import Verif.Props.Values
/-! C79: validation depends on the content of a form only; validators that look around in the form. -/
namespace Flatland
open Flatland.Spec

section
variable [Runtime]

/-! ### same content, same validation -/

/-- **C79.** Two forms with the same content – they may differ in the raw input – are validated alike by validators that look at the content
only: same result, same flags, same messages, whatever the flags and messages before. -/
theorem C79_content {e e' : Elem} (h : SameContent e e') (rules : Pos → FieldRules) (hr : RulesLookAtContent rules) (n : Nat)
    (st : VState Pos (Pos → List PStr)) : validateForm e' rules n st = validateForm e rules n st := by
  simp only [validateForm, same_formEnv h hr]

/-- **C79.** All validators of the package that do not change the element look at the content only. -/
theorem C79_package_rules {repr : PStr → PStr} {r : FormRule} (hr : PackageRule repr r) : LooksAtContent r := package_looksAtContent hr

/-- **C79.** Flattening a form and building it again from the pairs gives a form that is validated like the first. -/
theorem C79_flattened {sep : PStr} (hs : GoodSep sep) (s : Schema) (e : Elem) (hk : Keyed s) (hw : WellNamed sep s)
    (hc : Conforms s e) (hcar : Carried false s e) (hR : EachScalar (ReadsBack SameData) false s e)
    (rules : Pos → FieldRules) (hr : RulesLookAtContent rules) :
    ∃ e', fromFlat sep s (flatten sep e) = .ok e' ∧ ∀ n st, validateForm e' rules n st = validateForm e rules n st := by
  obtain ⟨e', h1, h2⟩ := C09_same_element hs s e hk hw hc hcar SameData hR
  exact ⟨e', h1, fun n st => C79_content h2 rules hr n st⟩

/-- **C79.** The same for what a page that shows the form submits: a form that is shown and sent back unchanged is as valid as before, with
the same messages. -/
theorem C79_sent_back [Casing] {sep : PStr} (hs : GoodSep sep) (s : Schema) (e : Elem) (hk : Keyed s) (hw : WellNamed sep s)
    (hc : Conforms s e) (hcar : Carried false s e) (hR : EachScalar (ReadsBack SameData) false s e)
    {page : List PageCall} {ps : List (PStr × PStr)} (hp : PageShows page ps)
    (hps : ∀ k, valuesFor k ps = valuesFor k (flatten sep e)) {f : OptFrame} (hf : FullFrame f) (hon : FillsIn f)
    {outs : List PStr} (h : (renderPage page f).2 = .ok outs) (rules : Pos → FieldRules) (hr : RulesLookAtContent rules) :
    ∃ e', fromFlat sep s (outs.filterMap submits) = .ok e' ∧ ∀ n st, validateForm e' rules n st = validateForm e rules n st := by
  obtain ⟨e', h1, h2⟩ := C65_same_element hs s e hk hw hc hcar hR hp hps hf hon h
  exact ⟨e', h1, fun n st => C79_content h2 rules hr n st⟩

/-- **C79.** And for a new form set to the value of the first. -/
theorem C79_value (repr : PStr → PStr) (s : Schema) (e : Elem) (hn : NamedFields s) (hc : Conforms s e) (hm : Complete s e)
    (hs : EachScalar (fun _ t st => ReAdapts t st) false s e) (rules : Pos → FieldRules) (hr : RulesLookAtContent rules) :
    ∃ e', setVal s (elemValue e) = .ok (e', true) ∧ ∀ n st, validateForm e' rules n st = validateForm e rules n st := by
  obtain ⟨e', h1, h2, _⟩ := C33_reproduces repr s e hn hc hm hs
  exact ⟨e', h1, fun n st => C79_content h2 rules hr n st⟩

/-! ### looking around -/

/-- **C79.** `find` always ends on a tree: with the elements the path reaches, in order, if no branch of it fails; and if one fails, a
strict `find` raises – LookupError, if all that fails is the lookup of children. -/
theorem C79_find (e : Elem) (n : Node) (path : PStr) (ops : List Op) (ht : tokenize path = .ok ops) :
    (∀ strict, Evaluates (treeGraph e) strict ops n (findNodes e strict n path)) ∧
    ((∀ er, .error er ∉ branches (treeGraph e) ops n) → ∀ strict, findNodes e strict n path = .ok (reached (branches (treeGraph e) ops n))) ∧
    ((∃ er, .error er ∈ branches (treeGraph e) ops n) → ∃ er, findNodes e true n path = .error er ∧
      ((∀ er', .error er' ∈ branches (treeGraph e) ops n → ChildMissing er') → er = .lookup)) := by
  have h1 : ∀ strict, Evaluates (treeGraph e) strict ops n (findNodes e strict n path) := by
    intro strict
    obtain ⟨r, hr⟩ := find_enough e strict n ops
    have : findNodes e strict n path = r := by
      simp only [findNodes, ht, hr _ (Nat.le_refl _), Option.getD_some]
    exact ⟨_, this ▸ hr⟩
  refine ⟨h1, fun hb strict => ?_, fun h => ?_⟩
  · exact C18_result_unique _ _ _ _ _ _ (h1 strict)
      (C18_find_branches _ (tree_parentsTruthy e) strict ops n fun er he => absurd he (hb er))
  · obtain ⟨er, h2, h3⟩ := findNodes_fails e n path ops ht h
    exact ⟨_, h3, fun hall => by simp [reported, (childMissing_iff _).1 (hall er h2)]⟩

/-- what a path must be like for the two theorems below: it leads to one element -/
theorem findOne_leads {e : Elem} {p : Pos} {q : PStr} {x : Node}
    (h : ∃ ops, tokenize q = .ok ops ∧ branches (treeGraph e) ops ⟨p, false⟩ = [.ok x]) : findOne e ⟨p, false⟩ q = .ok (some x) := by
  obtain ⟨ops, ht, hb⟩ := h
  have := (C79_find e ⟨p, false⟩ q ops ht).2.1 (by rw [hb]; intro er he; simp at he) true
  rw [hb] at this
  simp [findOne, this, reached, findSingle]

/-- **C79.** ValuesEqual in a form: if each path leads to one element, and these have labels, it passes iff the values of these
elements are equal to each other, and else notes `unequal`. -/
theorem C79_values_equal (e : Elem) (p : Pos) (paths : List PStr) (hne : paths ≠ []) (at' : PStr → Node)
    (hf : ∀ q ∈ paths, ∃ ops, tokenize q = .ok ops ∧ branches (treeGraph e) ops ⟨p, false⟩ = [.ok (at' q)])
    (label : Elem → Node → Option PStr) (hl : ∀ q ∈ paths, label e (at' q) ≠ .none)
    (hw : ∀ q ∈ paths, WfVal (elemValue ((elemAt e (at' q).pos).getD .absent))) (noter : Elem → Pos → Noter) :
    let r := (valuesEqualRule paths label noter).decide e p
    let equal := ∀ q ∈ paths, ∀ q' ∈ paths,
      pyEq (elemValue ((elemAt e (at' q).pos).getD .absent)) (elemValue ((elemAt e (at' q').pos).getD .absent)) = true
    (equal → r = .ok .none) ∧ (¬ equal → r = .ok (some "unequal".toList)) := by
  have hfind : ∀ q ∈ paths, findOne e ⟨p, false⟩ q = .ok (some (at' q)) := fun q hq => findOne_leads (hf q hq)
  have hv := C42_values_equal paths hne (fun q => some (at' q)) (findOne e ⟨p, false⟩) hfind
    (fun o => elemValue ((elemAt e (o.getD ⟨[], false⟩).pos).getD .absent)) (by simpa using hw)
  simp only [Option.getD_some] at hv
  simp only [valuesEqualRule, fieldsEqual_found elemValue pyEq paths hne label e p at' hfind hl]
  exact ⟨hv.1.2, hv.2.2⟩

/-- **C79.** UnisEqual likewise, with the texts. -/
theorem C79_unis_equal (repr : PStr → PStr) (e : Elem) (p : Pos) (paths : List PStr) (hne : paths ≠ []) (at' : PStr → Node)
    (hf : ∀ q ∈ paths, ∃ ops, tokenize q = .ok ops ∧ branches (treeGraph e) ops ⟨p, false⟩ = [.ok (at' q)])
    (label : Elem → Node → Option PStr) (hl : ∀ q ∈ paths, label e (at' q) ≠ .none) (noter : Elem → Pos → Noter) :
    let r := (unisEqualRule repr paths label noter).decide e p
    let equal := ∀ q ∈ paths, ∀ q' ∈ paths,
      elemU repr ((elemAt e (at' q).pos).getD .absent) = elemU repr ((elemAt e (at' q').pos).getD .absent)
    (equal → r = .ok .none) ∧ (¬ equal → r = .ok (some "unequal".toList)) := by
  have hfind : ∀ q ∈ paths, findOne e ⟨p, false⟩ q = .ok (some (at' q)) := fun q hq => findOne_leads (hf q hq)
  have hv := C42_unis_equal paths hne (fun q => some (at' q)) (findOne e ⟨p, false⟩) hfind
    (fun o => elemU repr ((elemAt e (o.getD ⟨[], false⟩).pos).getD .absent))
  simp only [Option.getD_some] at hv
  simp only [unisEqualRule, fieldsEqual_found (elemU repr) (· == ·) paths hne label e p at' hfind hl]
  exact ⟨hv.1.2, hv.2.2⟩

/-- **C79.** If a path leads nowhere, because a child is missing, or to several elements, the validation raises LookupError. -/
theorem C79_unclear_path (repr : PStr → PStr) (e : Elem) (p : Pos) (pre post : List PStr) (q : PStr) (at' : PStr → Node)
    (hpre : ∀ x ∈ pre, ∃ ops, tokenize x = .ok ops ∧ branches (treeGraph e) ops ⟨p, false⟩ = [.ok (at' x)])
    (ops : List Op) (ht : tokenize q = .ok ops)
    (hq : ((∃ er, .error er ∈ branches (treeGraph e) ops ⟨p, false⟩) ∧
        ∀ er, .error er ∈ branches (treeGraph e) ops ⟨p, false⟩ → ChildMissing er) ∨
      ∃ x y more, branches (treeGraph e) ops ⟨p, false⟩ = .ok x :: .ok y :: more ∧ ∀ er, .error er ∉ more)
    (label : Elem → Node → Option PStr) (noter : Elem → Pos → Noter) :
    (valuesEqualRule (pre ++ q :: post) label noter).decide e p = .error .lookup ∧
    (unisEqualRule repr (pre ++ q :: post) label noter).decide e p = .error .lookup := by
  have hfind : ∀ x ∈ pre, findOne e ⟨p, false⟩ x = .ok (some (at' x)) := fun x hx => findOne_leads (hpre x hx)
  have hbad : findOne e ⟨p, false⟩ q = .error .lookup := by
    rcases hq with ⟨hex, hall⟩ | ⟨x, y, more, hb, hmore⟩
    · obtain ⟨er, h1, h2⟩ := (C79_find e ⟨p, false⟩ q ops ht).2.2 hex
      simp [findOne, h1, h2 hall]
    · have := (C79_find e ⟨p, false⟩ q ops ht).2.1 (by rw [hb]; intro er he; simp at he; exact hmore er he) true
      rw [hb] at this
      simp [findOne, this, reached, findSingle]
  simp only [valuesEqualRule, unisEqualRule, fieldsEqual, mapExcept_first_error _ _ pre post q _ hfind hbad, and_self]

/-- **C79.** And if a path leads to no element, although nothing is missing – a slice of an empty list – it raises AttributeError: there
is no element to compare. -/
theorem C79_empty_slice (repr : PStr → PStr) (e : Elem) (p : Pos) (paths : List PStr) (at' : PStr → Option Node)
    (hf : ∀ q ∈ paths, ∃ ops, tokenize q = .ok ops ∧ branches (treeGraph e) ops ⟨p, false⟩ = (at' q).toList.map .ok)
    (label : Elem → Node → Option PStr) (hl : ∀ q ∈ paths, ∀ n, at' q = some n → label e n ≠ .none) (noter : Elem → Pos → Noter)
    (hnone : ∃ q ∈ paths, at' q = .none) :
    (valuesEqualRule paths label noter).decide e p = .error .attribute ∧ (unisEqualRule repr paths label noter).decide e p = .error .attribute := by
  have hfind : ∀ q ∈ paths, findOne e ⟨p, false⟩ q = .ok (at' q) := by
    intro q hq
    obtain ⟨ops, ht, hb⟩ := hf q hq
    cases hx : at' q with
    | some x => exact findOne_leads ⟨ops, ht, by rw [hb, hx]; rfl⟩
    | none =>
      rw [hx] at hb
      have := (C79_find e ⟨p, false⟩ q ops ht).2.1 (by rw [hb]; intro er he; simp at he) true
      rw [hb] at this
      simp [findOne, this, reached, findSingle]
  exact ⟨fieldsEqual_none _ _ paths label e p at' hfind hl hnone, fieldsEqual_none _ _ paths label e p at' hfind hl hnone⟩

omit [Runtime] in
/-- **C79.** NotDuplicated in a form: on a child of a container anywhere in the form it passes iff no earlier child of that container
equals it, and else notes `failure`. -/
theorem C79_not_duplicated (op : Elem → Elem → Bool) (noter : Elem → Pos → Noter) (e : Elem) (p : Pos) (k : Elem) (hk : elemAt e p = some k)
    (i : Nat) (c : Elem) (hi : k.kids[i]? = some c) (hc : c ≠ .absent) :
    let r := (notDuplicatedRule (fun a b => .ok (op a b)) noter).decide e (p ++ [i])
    let repeated := ∃ (j : Nat) (d : Elem), j < i ∧ k.kids[j]? = some d ∧ d ≠ .absent ∧ op c d = true
    (repeated → r = .ok (some "failure".toList)) ∧ (¬ repeated → r = .ok .none) := by
  obtain ⟨pre, post, hsplit, hnot, hpre⟩ := siblings_split e p k hk i c hi hc
  simp only [notDuplicatedRule, hsplit, notDuplicated, dupLoop_eq (fun a b => op ((elemAt e a.pos).getD .absent) ((elemAt e b.pos).getD .absent)) _ pre post hnot]
  have hat : elemAt e (p ++ [i]) = some c := elemAt_child hk hi hc
  have hany : (pre.any fun b => op ((elemAt e (p ++ [i])).getD .absent) ((elemAt e b.pos).getD .absent)) = true ↔
      ∃ (j : Nat) (d : Elem), j < i ∧ k.kids[j]? = some d ∧ d ≠ .absent ∧ op c d = true := by
    rw [List.any_eq_true, hat]
    constructor
    · rintro ⟨b, hb, ho⟩
      obtain ⟨j, d, hj, hjd, hd, rfl⟩ := (hpre b).1 hb
      rw [elemAt_child hk hjd hd] at ho
      exact ⟨j, d, hj, hjd, hd, ho⟩
    · rintro ⟨j, d, hj, hjd, hd, ho⟩
      refine ⟨⟨p ++ [j], false⟩, (hpre _).2 ⟨j, d, hj, hjd, hd, rfl⟩, ?_⟩
      rw [elemAt_child hk hjd hd]
      exact ho
  refine ⟨fun hrep => ?_, fun hrep => ?_⟩
  · simp [hany.2 hrep]
  · have : (pre.any fun b => op ((elemAt e (p ++ [i])).getD .absent) ((elemAt e b.pos).getD .absent)) = false := by
      rw [← Bool.not_eq_true]; exact fun hh => hrep (hany.1 hh)
    simp [this]

omit [Runtime] in
/-- **C79.** On the form itself, which is in no container, NotDuplicated raises TypeError. -/
theorem C79_no_container (comparator : Elem → Elem → Except PyErr Bool) (noter : Elem → Pos → Noter) (e : Elem) :
    (notDuplicatedRule comparator noter).decide e [] = .error .type := by
  simp [notDuplicatedRule, siblingNodes, parentNode, notDuplicated]

/-- **C79.** So in a valid form the members of a container that are validated with NotDuplicated are all different – except that blank
optional members are not looked at. -/
theorem C79_all_different (op : Elem → Elem → Bool) (noter : Elem → Pos → Noter) (e : Elem) (he : e ≠ .absent) (rules : Pos → FieldRules)
    (h : ∀ p k, elemAt e p = some k → Answers e p (rules p).validators ∧ (containerElem k = true → Answers e p (rules p).descent))
    (st : VState Pos (Pos → List PStr)) (n : Nat) (r : VRun Pos (Pos → List PStr)) (hv : validateForm e rules n st = some r) (hok : r.result = .ok true)
    (p : Pos) (k : Elem) (hk : elemAt e p = some k)
    (hd : ∀ i, notDuplicatedRule (fun a b => .ok (op a b)) noter ∈ (rules (p ++ [i])).validators)
    (i j : Nat) (hij : j < i) (c d : Elem) (hi : k.kids[i]? = some c) (hj : k.kids[j]? = some d) (hcp : c ≠ .absent) (hdp : d ≠ .absent)
    (hne : ¬ Excused (rules (p ++ [i])) c) : op c d = false := by
  obtain ⟨r', b, m, hrun, hb, hiff, _⟩ := C74_validate e he rules h st
  have hsame : r' = r := by
    have h1 := hrun (max n m) (by omega)
    rw [validateForm_mono hv (show n ≤ max n m by omega)] at h1
    exact (Option.some.inj h1).symm
  subst hsame
  rw [hb] at hok
  have hob := hiff.1 (Except.ok.inj hok) (p ++ [i]) c (elemAt_child hk hi hcp)
  rcases hob with hx | ⟨hx, _⟩
  · exact absurd hx hne
  · have hp := hx _ (hd i)
    rw [← Bool.not_eq_true]
    intro ho
    rw [Passes, (C79_not_duplicated op noter e p k hk i c hi hcp).1 ⟨j, d, hij, hj, hdp, ho⟩] at hp
    cases hp

end

/-! ### examples: a form with two fields that must be equal and a list whose members must differ -/
namespace TreeRulesExample
attribute [local instance] Runtime.ascii

def text (n v : String) : Elem := .scalar (some n.toList) ⟨.str v.toList, v.toList, some (.str v.toList)⟩

def form (again third : String) : Elem :=
  .dict .none [text "p" "x", text "q" again, .list (some "tags".toList) [text "t" "a", text "t" "b", text "t" third]]

def theNoter : Elem → Pos → Noter := fun _ _ => ⟨⟨[], .ok .none, .ok .none⟩, fun k => .ok (.fixed (.single k))⟩

def theLabel : Elem → Node → Option PStr := fun _ n => some (decimal n.pos.length)

def theRules : Pos → FieldRules
  | [] => { validators := [valuesEqualRule ["p".toList, "q".toList] theLabel theNoter] }
  | [2, _] => { validators := [notDuplicatedRule (sameElement id) theNoter] }
  | _ => {}

/-- the validators are of the kind the theorems speak of -/
theorem theRules_content : RulesLookAtContent theRules := by
  intro p r hr
  have hn : ∀ e e', SameContent e e' → ∀ p, theNoter e p = theNoter e' p := fun _ _ _ _ => rfl
  have hl : ∀ e e', SameContent e e' → ∀ n, theLabel e n = theLabel e' n := fun _ _ _ _ => rfl
  unfold theRules at hr
  split at hr
  · simp at hr; subst hr; exact C79_package_rules (repr := id) (.valuesEqual hn hl)
  · simp at hr; subst hr; exact C79_package_rules (.notDuplicated hn)
  · simp at hr

/-- the paths lead to the fields -/
example : ∀ q ∈ ["p".toList, "q".toList], ∃ ops, tokenize q = .ok ops ∧
    branches (treeGraph (form "x" "c")) ops ⟨[], false⟩ = [.ok ⟨[if q = "p".toList then 0 else 1], false⟩] := by
  intro q hq
  simp only [List.mem_cons, List.not_mem_nil, or_false] at hq
  rcases hq with rfl | rfl
  · exact ⟨[.name (some "p".toList)], by decide, by decide +kernel⟩
  · exact ⟨[.name (some "q".toList)], by decide, by decide +kernel⟩

example : elemAt (form "x" "c") [2] = some (.list (some "tags".toList) [text "t" "a", text "t" "b", text "t" "c"]) := rfl

/-- a field that is missing, and a slice of an empty list -/
example : (valuesEqualRule ["p".toList, "z".toList] theLabel theNoter).decide (form "x" "c") [] = .error .lookup := by decide +kernel
example : (valuesEqualRule ["p".toList, "tags[:]".toList] theLabel theNoter).decide (form "x" "c") [] = .error .lookup := by decide +kernel
example : (valuesEqualRule ["p".toList, "tags[5:]".toList] theLabel theNoter).decide (form "x" "c") [] = .error .attribute := by decide +kernel

/-- all well; two different fields and a repeated member; and the same form with other raw input -/
example : (validateForm (form "x" "c") theRules 20 ⟨fun _ => .unevaluated, fun _ => []⟩).map (fun r => r.result) = some (.ok true) := by decide +kernel
example : (validateForm (form "y" "a") theRules 20 ⟨fun _ => .unevaluated, fun _ => []⟩).map
      (fun r => (r.result, r.state.data [], r.state.data [2, 1], r.state.data [2, 2])) =
    some (.ok false, ["unequal".toList], [], ["failure".toList]) := by decide +kernel
example : SameContent (.scalar (some ['p']) ⟨.int 3, ['3'], some (.str [' ', '3'])⟩) (.scalar (some ['p']) ⟨.int 3, ['3'], some (.int 3)⟩) := by
  simp [SameBy, SameData]

end TreeRulesExample
end Flatland
