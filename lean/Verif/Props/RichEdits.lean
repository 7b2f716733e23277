import Verif.Proofs.RichEdits3
import Verif.Props.Compounds
import Verif.Props.Edits
/-!
Property C95: calls on the elements anywhere in a form with DateYYYYMMDDs and JoinedStrings.
-/
namespace Flatland
open Flatland.Spec

section
variable [Runtime] {κ : Type}

/-- **C95.** Whatever is called on whatever elements of a form with dates and joined strings, in whatever order, with calls that raise among them: the
form stays a proper form of its class, every element under its own name, Dicts with their fields and no others, dates with their three parts, joined
strings with scalars as members; and so it is a form as C88 has it. -/
theorem C95_well_formed (o : RichObjects) (sep : PStr) (s : VSchema) (hn : NamedParts s) (cs : List (List Nat × RichOp κ))
    (hf : ∀ c ∈ cs, RichFitsAt o s c) (e : Elem) (hc : IsOf s e) :
    IsOf s (richRun o sep s e cs) ∧ VConforms s (asRich s (richRun o sep s e cs)) := by
  have h := (isOf_proper _ _).2 (richRun_is o sep ((namedParts_proper s).1 hn) cs hf ((isOf_proper _ _).1 hc))
  exact ⟨h, asRich_conforms s _ h⟩

/-- **C95.** A call on an element changes that element as it would change it on its own, as an element of the class at that position. -/
theorem C95_here (o : RichObjects) (sep : PStr) (s : VSchema) (hn : NamedParts s) (e : Elem) (hc : IsOf s e) (p : Pos) (op : RichOp κ)
    (hf : RichFitsAt o s (p, op)) (x : Elem) (hx : elemAt e p = some x) :
    ∃ s', richClassAt s p = some s' ∧ IsOf s' x ∧ elemAt (richAt o sep s e p op) p = some (richHere o sep s' x op) := by
  obtain ⟨s', h1, h2, _, h3, h4, _⟩ := richAt_all o sep ((namedParts_proper s).1 hn) ((isOf_proper _ _).1 hc) hx op hf
  exact ⟨s', h1, (isOf_proper _ _).2 h2, by rw [h3]; exact changeAt_here _ hx (proper_present h4)⟩

/-- **C95.** No other element changes: what is neither above nor below stays as it is, the elements above keep their kind, their name and the
number of their children, and all of them, above and aside, their names on the way from the root. -/
theorem C95_elsewhere (o : RichObjects) (sep : PStr) (s : VSchema) (e : Elem) (p : Pos) (op : RichOp κ) (x : Elem) (hx : elemAt e p = some x) :
    (∀ q, Apart p q → elemAt (richAt o sep s e p op) q = elemAt e q) ∧
    (∀ q, q <+: p → q ≠ p → ∃ y y', elemAt e q = some y ∧ elemAt (richAt o sep s e p op) q = some y' ∧ SameFrame y y') ∧
    (∀ q, ¬ p <+: q → namesAt (richAt o sep s e p op) q = namesAt e q) := by
  unfold richAt
  cases richClassAt s p with
  | some c => exact ⟨fun _ h => changeAt_apart _ hx h, fun _ h hne => changeAt_above _ hx h hne, fun _ h => changeAt_names _ hx h⟩
  | none =>
    refine ⟨fun _ _ => rfl, fun q h hne => ?_, fun _ _ => rfl⟩
    obtain ⟨y, y', h1, h2, h3⟩ := changeAt_above (fun x => x) hx h hne
    have : elemAt e q = some y := h1
    exact ⟨y, y, h1, h1, by cases y <;> simp [SameFrame]⟩

/-- **C95.** A call on an element that is not there changes nothing. -/
theorem C95_nowhere (o : RichObjects) (sep : PStr) (s : VSchema) (e : Elem) (p : Pos) (op : RichOp κ) (hx : elemAt e p = none) :
    richAt o sep s e p op = e :=
  richAt_nowhere o sep hx op

/-- **C95.** What becomes of a part of a form is decided by the calls made in that part: calls elsewhere in the form, however they are mixed
with them, make no difference.  (Calls on the elements above are calls on this part, too, and are left out.) -/
theorem C95_independent (o : RichObjects) (sep : PStr) (s : VSchema) (hn : NamedParts s) (e : Elem) (hc : IsOf s e) (p : Pos) (x : Elem)
    (hx : elemAt e p = some x) (cs : List (List Nat × RichOp κ)) (hf : ∀ c ∈ cs, RichFitsAt o s c) (ha : ∀ c ∈ cs, p <+: c.1 ∨ Apart c.1 p) :
    ∃ s', richClassAt s p = some s' ∧ elemAt (richRun o sep s e cs) p = some (richRun o sep s' x (richCallsIn p cs)) := by
  rw [namedParts_proper] at hn
  rw [isOf_proper] at hc
  obtain ⟨s', h1, hcls, -, -, -⟩ := class_at hc hx
  refine ⟨s', h1, ?_⟩
  induction cs generalizing e x with
  | nil => exact hx
  | cons c cs ih =>
    obtain ⟨q, op⟩ := c
    have hc' := richAt_is o sep hn hc op (hf (q, op) (by simp))
    have hf' : ∀ c ∈ cs, RichFitsAt o s c := fun c h => hf c (by simp [h])
    have ha' : ∀ c ∈ cs, p <+: c.1 ∨ Apart c.1 p := fun c h => ha c (by simp [h])
    rw [richRun]
    rcases ha (q, op) (by simp) with hpq | hap
    · obtain ⟨r, rfl⟩ := hpq
      have hcalls : richCallsIn p ((p ++ r, op) :: cs) = (r, op) :: richCallsIn p cs := by
        simp [richCallsIn, List.isPrefixOf_iff_prefix.2 (List.prefix_append p r)]
      rw [hcalls, richRun]
      refine ih _ hc' _ ?_ hf' ha'
      obtain ⟨s'', h1', _, hx', hn', _⟩ := class_at hc hx
      rw [h1] at h1'
      cases h1'
      have hfit : RichFitsAt o s' (r, op) := ⟨(hf (p ++ r, op) (by simp)).1, fun t ht => (hf (p ++ r, op) (by simp)).2 t (by rw [hcls]; exact ht)⟩
      have hok := proper_present (richAt_is o sep (hn' hn) hx' op hfit)
      unfold richAt at hok ⊢
      rw [hcls]
      cases hr : richClassAt s' r with
      | some t =>
        rw [hr] at hok
        exact changeAt_below _ r hx hok
      | none => exact hx
    · have hstay : elemAt (richAt o sep s e q op) p = elemAt e p := by
        cases hq : elemAt e q with
        | none => rw [richAt_nowhere o sep hq]
        | some y => exact (C95_elsewhere o sep s e q op y hq).1 p hap
      have hcalls : richCallsIn p ((q, op) :: cs) = richCallsIn p cs := by
        simp only [richCallsIn, List.filter_cons]
        rw [if_neg]
        simp only [List.isPrefixOf_iff_prefix]
        exact hap.2
      rw [hcalls]
      exact ih _ hc' x (by rw [hstay]; exact hx) hf' ha'

/-! ### dates -/

omit [Runtime] in
/-- a date in a form and its parts -/
theorem date_at {s : VSchema} {e : Elem} (hc : IsOf s e) {p : Pos} {x : Elem} (hx : elemAt e p = some x) {h : Hdr} {st : Bool} {fs : List (Hdr × ScalarType)}
    (hp : richClassAt s p = some (.date h st fs)) : ∃ sts, sts.length = fs.length ∧ x = dateElem h fs sts ∧ kidStates x = sts := by
  obtain ⟨s', h1, _, h2, _⟩ := class_at ((isOf_proper _ _).1 hc) hx
  rw [hp] at h1
  cases h1
  exact date_kids h2

omit [Runtime] in
theorem partElems_at : ∀ {fs : List (Hdr × ScalarType)} {sts : List ScalarState} {i : Nat} {f : Hdr × ScalarType} {st : ScalarState}, fs[i]? = some f → sts[i]? = some st →
    (partElems fs sts)[i]? = some (.scalar f.1.name st)
  | [], _, _, _, _, h, _ => by simp at h
  | _ :: _, [], _, _, _, _, h => by simp at h
  | g :: fs, s :: sts, 0, f, st, h1, h2 => by
    simp only [List.getElem?_cons_zero, Option.some.injEq] at h1 h2
    subst h1 h2
    rfl
  | g :: fs, s :: sts, i + 1, f, st, h1, h2 => by
    simp only [List.getElem?_cons_succ] at h1 h2
    rw [partElems, List.getElem?_cons_succ]
    exact partElems_at h1 h2

omit [Runtime] in
theorem part_at {e : Elem} {p : Pos} {h : Hdr} {fs : List (Hdr × ScalarType)} {sts : List ScalarState} (hx : elemAt e p = some (dateElem h fs sts)) {i : Nat}
    {f : Hdr × ScalarType} {st : ScalarState} (h1 : fs[i]? = some f) (h2 : sts[i]? = some st) : elemAt e (p ++ [i]) = some (.scalar f.1.name st) := by
  rw [elemAt_append, hx]
  show elemAt (dateElem h fs sts) [i] = _
  rw [elemAt_kidAt]
  show (match (partElems fs sts)[i]? with | some k => elemAt k [] | none => none) = _
  rw [partElems_at h1 h2]
  rfl

/-- **C95.** After any calls anywhere in the form: a date in it is what its three parts say.  If they hold the numbers of a calendar day, its value is
that date and its text that date in ISO format; if they hold numbers or None but no calendar day, its value is None and its text ''. -/
theorem C95_date_of_parts (o : RichObjects) (sep : PStr) (s : VSchema) (hn : NamedParts s) (cs : List (List Nat × RichOp κ))
    (hf : ∀ c ∈ cs, RichFitsAt o s c) (e : Elem) (hc : IsOf s e) (p : Pos) (x : Elem) (hx : elemAt (richRun o sep s e cs) p = some x) (h : Hdr) (st : Bool)
    (fy fm fd : Hdr × ScalarType) (hp : richClassAt s p = some (.date h st [fy, fm, fd])) :
    ∃ a b c, elemAt (richRun o sep s e cs) (p ++ [0]) = some (.scalar fy.1.name a) ∧ elemAt (richRun o sep s e cs) (p ++ [1]) = some (.scalar fm.1.name b) ∧
      elemAt (richRun o sep s e cs) (p ++ [2]) = some (.scalar fd.1.name c) ∧
      (∀ y m d, RealDate y m d → a.value = .int y → b.value = .int m → c.value = .int d →
        vValue (asRich (.date h st [fy, fm, fd]) x) = .ok (.date y m d) ∧
        ∀ repr, vText repr (asRich (.date h st [fy, fm, fd]) x) = .ok (padNat 4 y ++ "-".toList ++ padNat 2 m ++ "-".toList ++ padNat 2 d)) ∧
      ((∀ w ∈ [a, b, c], w.value = .none ∨ ∃ i, w.value = .int i) →
        (¬ ∃ y m d : Nat, RealDate y m d ∧ a.value = .int y ∧ b.value = .int m ∧ c.value = .int d) →
        vValue (asRich (.date h st [fy, fm, fd]) x) = .ok .none ∧ ∀ repr, vText repr (asRich (.date h st [fy, fm, fd]) x) = .ok []) := by
  have hc' := (C95_well_formed o sep s hn cs hf e hc).1
  obtain ⟨sts, h1, h2, _⟩ := date_at hc' hx hp
  obtain ⟨a, b, c, rfl⟩ : ∃ a b c, sts = [a, b, c] := by
    match sts, h1 with
    | [a, b, c], _ => exact ⟨a, b, c, rfl⟩
  subst h2
  have hview : asRich (.date h st [fy, fm, fd]) (dateElem h [fy, fm, fd] [a, b, c]) = .date h.name st [a, b, c] := rfl
  refine ⟨a, b, c, part_at hx rfl rfl, part_at hx rfl rfl, part_at hx rfl rfl, ?_, ?_⟩
  · intro y m d hr ha hb hcc
    have hv : dateView st [a, b, c] = .ok (fmtDate y m d, .date y m d) := by
      simp only [dateView, List.map_cons, List.map_nil, ha, hb, hcc]
      exact (C51_from_children st y m d).1 y m d ⟨rfl, rfl, rfl, hr⟩
    rw [hview]
    refine ⟨by rw [vValue, hv]; rfl, fun repr => by rw [vText, hv]; simp [Except.map, fmtDate]⟩
  · intro hnum hno
    have hv : dateView st [a, b, c] = .ok ([], .none) := by
      rcases dateView_numbers st [a, b, c] rfl hnum with ⟨y, m, d, hh, _⟩ | ⟨_, hv⟩
      · refine absurd ⟨y, m, d, hh.1, ?_⟩ hno
        have := hh.2
        simpa using this
      · exact hv
    rw [hview]
    exact ⟨by rw [vValue, hv]; rfl, fun repr => by rw [vText, hv]; rfl⟩

/-- **C95.** Setting a part of a date in the form (by `set`, with any value) changes that part, as `set` changes a scalar, and no other part of the date
and nothing beside it. -/
theorem C95_set_part (o : RichObjects) (sep : PStr) (s : VSchema) (e : Elem) (hc : IsOf s e) (p : Pos) (x : Elem) (hx : elemAt e p = some x)
    (h : Hdr) (st : Bool) (fs : List (Hdr × ScalarType)) (hp : richClassAt s p = some (.date h st fs)) (i : Nat) (f : Hdr × ScalarType) (hi : fs[i]? = some f)
    (v : PyVal) :
    ∃ old, elemAt e (p ++ [i]) = some (.scalar f.1.name old) ∧
      elemAt (richAt (κ := κ) o sep s e (p ++ [i]) (.call (.fill (.set v)))) (p ++ [i]) = some (.scalar f.1.name (scalarSet f.2 old v).1) ∧
      (∀ j, j ≠ i → elemAt (richAt (κ := κ) o sep s e (p ++ [i]) (.call (.fill (.set v)))) (p ++ [j]) = elemAt e (p ++ [j])) ∧
      ∀ q, Apart p q → elemAt (richAt (κ := κ) o sep s e (p ++ [i]) (.call (.fill (.set v)))) q = elemAt e q := by
  obtain ⟨sts, h1, h2, _⟩ := date_at hc hx hp
  subst h2
  have hlt := (List.getElem?_eq_some_iff.1 hi).1
  obtain ⟨old, ho⟩ : ∃ old, sts[i]? = some old := ⟨sts[i]'(by omega), List.getElem?_eq_getElem _⟩
  have hpart := part_at hx hi ho
  obtain ⟨s', h3, hcls, _, _, _⟩ := class_at ((isOf_proper _ _).1 hc) hx
  rw [hp] at h3
  cases h3
  have hk : richClassAt s (p ++ [i]) = some (.plain (.scalar f.1 f.2)) := by
    rw [hcls]
    simp [richClassAt, kidClass, hi]
  have helse := C95_elsewhere (κ := κ) o sep s e (p ++ [i]) (.call (.fill (.set v))) _ hpart
  refine ⟨old, hpart, ?_, ?_, ?_⟩
  · unfold richAt
    rw [hk]
    simp only
    rw [changeAt_here _ hpart]
    · rfl
    · simp [richHere, richFill, richSet, setRun]
  · intro j hj
    refine helse.1 _ ⟨fun hpre => ?_, fun hpre => ?_⟩
    · have := (List.prefix_append_right_inj p).1 hpre
      simp at this
      exact hj this.symm
    · have := (List.prefix_append_right_inj p).1 hpre
      simp at this
      exact hj this
  · rintro q ⟨hq1, hq2⟩
    refine helse.1 q ⟨fun hpre => hq1 ((List.prefix_append p [i]).trans hpre), fun hpre => ?_⟩
    rcases List.prefix_concat_iff.1 hpre with rfl | h'
    · exact hq1 (List.prefix_append p [i])
    · exact hq2 h'

/-- **C95.** Setting a date in the form, or assigning to its `value`, sets its three parts: of a date (or datetime) they hold year, month and day, with
leading zeros in their texts; of None they stay as they were. -/
theorem C95_set_date (o : RichObjects) (sep : PStr) (s : VSchema) (e : Elem) (hc : IsOf s e) (p : Pos) (x : Elem) (hx : elemAt e p = some x) (h : Hdr) (st : Bool)
    (fy fm fd : Hdr) (hp : richClassAt s p = some (.date h st [(fy, integerType true 4), (fm, integerType true 2), (fd, integerType true 2)])) (v : PyVal) (op : RichOp κ)
    (hop : op = .call (.fill (.set v)) ∨ op = .assignDate v) :
    (∀ y m d, RealDate y m d → (v = .date y m d ∨ ∃ hh mi ss us, v = .datetime y m d hh mi ss us) →
      ∃ a b c, elemAt (richAt o sep s e p op) (p ++ [0]) = some (.scalar fy.name a) ∧ elemAt (richAt o sep s e p op) (p ++ [1]) = some (.scalar fm.name b) ∧
        elemAt (richAt o sep s e p op) (p ++ [2]) = some (.scalar fd.name c) ∧
        [a, b, c].map ScalarState.value = [.int y, .int m, .int d] ∧ [a, b, c].map ScalarState.u = [padNat 4 y, padNat 2 m, padNat 2 d]) ∧
    (v = .none → richAt o sep s e p op = e) := by
  obtain ⟨sts, h1, h2, h3⟩ := date_at hc hx hp
  obtain ⟨a, b, c, rfl⟩ : ∃ a b c, sts = [a, b, c] := by
    match sts, h1 with
    | [a, b, c], _ => exact ⟨a, b, c, rfl⟩
  have hhere : richHere o sep (.date h st [(fy, integerType true 4), (fm, integerType true 2), (fd, integerType true 2)]) x op =
      dateElem h [(fy, integerType true 4), (fm, integerType true 2), (fd, integerType true 2)] (dateSet st ymdTypes [a, b, c] v).1 := by
    have hex : ∀ ts sts, (dateSet st ts sts v).1 = (explodeDate st ts sts v).1 := by
      intro ts sts
      unfold dateSet
      split <;> simp_all
    rcases hop with rfl | rfl
    · simp only [richHere, richFill, richSet, h3]
      rfl
    · simp only [richHere, h3, hex]
      rfl
  have hat : richAt o sep s e p op = changeAt (fun x => richHere o sep (.date h st [(fy, integerType true 4), (fm, integerType true 2), (fd, integerType true 2)]) x op) e p := by
    rw [richAt, hp]
  constructor
  · intro y m d hr hv
    obtain ⟨sts', g1, g2, g3, _⟩ := C51_set_date st [a, b, c] rfl y m d hr v hv
    obtain ⟨a', b', c', rfl⟩ : ∃ a' b' c', sts' = [a', b', c'] := by
      match sts', g2 with
      | [a, b, c], _ => exact ⟨a, b, c, rfl⟩
    rw [g1] at hhere
    have hx' : elemAt (richAt o sep s e p op) p = some (dateElem h [(fy, integerType true 4), (fm, integerType true 2), (fd, integerType true 2)] [a', b', c']) := by
      rw [hat, changeAt_here _ hx, hhere]
      rw [hhere]
      simp [dateElem]
    exact ⟨a', b', c', part_at (i := 0) (f := (fy, integerType true 4)) hx' rfl rfl, part_at (i := 1) (f := (fm, integerType true 2)) hx' rfl rfl,
      part_at (i := 2) (f := (fd, integerType true 2)) hx' rfl rfl, g2, g3⟩
  · rintro rfl
    rw [(C51_set_other st [a, b, c] rfl).2.1] at hhere
    rw [hat]
    refine changeAt_same _ hx ?_
    rw [hhere, h2]

/-! ### joined strings -/

/-- **C95.** After any calls anywhere in the form: a joined string in it is its members' texts with the separator between them, as value and as text. -/
theorem C95_joined_of_members (o : RichObjects) (sep : PStr) (s : VSchema) (hn : NamedParts s) (cs : List (List Nat × RichOp κ))
    (hf : ∀ c ∈ cs, RichFitsAt o s c) (e : Elem) (hc : IsOf s e) (p : Pos) (x : Elem) (hx : elemAt (richRun o sep s e cs) p = some x) (h : Hdr) (c : JoinedCfg)
    (hp : richClassAt s p = some (.joined h c)) :
    ∃ ms : List ScalarState, (∀ i, elemAt (richRun o sep s e cs) (p ++ [i]) = ms[i]?.map fun m => .scalar none m) ∧
      vValue (asRich (.joined h c) x) = .ok (.str (List.intercalate c.separator (ms.map ScalarState.u))) ∧
      ∀ repr, vText repr (asRich (.joined h c) x) = .ok (List.intercalate c.separator (ms.map ScalarState.u)) := by
  have hc' := (C95_well_formed o sep s hn cs hf e hc).1
  obtain ⟨s', h1, -, h2, -⟩ := class_at ((isOf_proper _ _).1 hc') hx
  rw [hp] at h1
  cases h1
  have h3 := (isOf_proper _ _).2 h2
  cases x <;> simp only [IsOf] at h3
  rename_i n ks
  have hks : ks = (ks.map Elem.state).map fun m => .scalar none m := by
    rw [List.map_map]
    refine List.ext_getElem? fun i => ?_
    rw [List.getElem?_map]
    cases hi : ks[i]? with
    | none => rfl
    | some k =>
      obtain ⟨st, rfl⟩ := h3.2 k (List.mem_of_getElem? hi)
      rfl
  refine ⟨ks.map Elem.state, ?_, ?_, ?_⟩
  · intro i
    rw [elemAt_append, hx]
    show elemAt (.array n ks) [i] = _
    rw [elemAt_kidAt]
    show (match ks[i]? with | some k => elemAt k [] | none => none) = _
    conv_lhs => rw [hks]
    rw [List.getElem?_map]
    cases (ks.map Elem.state)[i]? <;> rfl
  · rw [asRich, vValue, joinedText, pyJoin_intercalate]
  · intro repr
    rw [asRich, vText, joinedText, pyJoin_intercalate]

/-! ### set, set_default and set_flat -/

/-- **C95.** `set` on an element that may hold anything already: for everything but a date itself, it ends as on a new element (C88), leaving what it would
leave there, as long as a value does not supply a field twice. -/
theorem C95_set (s : VSchema) (hn : NamedParts s) (hd : ¬ IsDateClass s) (e : Elem) (v : PyVal) (ho : NamesOnce s v) :
    ((richSet s e v).2.map fun ok => (asRich s (richSet s e v).1, ok)) = vSet s v :=
  (richSet_indep s hd e (fresh (under s)) v).trans (richSet_new s hn v ho)

/-- **C95.** For a date so does anything but None; None is refused with False and changes nothing. -/
theorem C95_date_set (h : Hdr) (st : Bool) (hy hm hd : Hdr) (e : Elem)
    (hc : IsOf (.date h st [(hy, integerType true 4), (hm, integerType true 2), (hd, integerType true 2)]) e) (v : PyVal) :
    (v ≠ .none → ((richSet (.date h st [(hy, integerType true 4), (hm, integerType true 2), (hd, integerType true 2)]) e v).2.map fun ok =>
      (asRich (.date h st [(hy, integerType true 4), (hm, integerType true 2), (hd, integerType true 2)]) (richSet (.date h st [(hy, integerType true 4), (hm, integerType true 2), (hd, integerType true 2)]) e v).1, ok)) =
        vSet (.date h st [(hy, integerType true 4), (hm, integerType true 2), (hd, integerType true 2)]) v) ∧
    (v = .none → richSet (.date h st [(hy, integerType true 4), (hm, integerType true 2), (hd, integerType true 2)]) e v = (e, .ok false)) := by
  obtain ⟨sts, h1, h2, h3⟩ := date_kids ((isOf_proper _ _).1 hc)
  have h1' : sts.length = 3 := h1
  constructor
  · intro hv
    have hind : dateSet st ymdTypes sts v = dateSet st ymdTypes [.fresh, .fresh, .fresh] v := by
      rcases dateSet_cases st sts h1' v with ⟨y, m, d, ha, hs⟩ | ⟨h, _⟩ | ⟨⟨er, ha⟩, hs⟩
      · rcases dateSet_cases st [.fresh, .fresh, .fresh] rfl v with ⟨y', m', d', ha', hs'⟩ | ⟨h, _⟩ | ⟨⟨er', ha'⟩, hs'⟩
        · rw [hs, hs']
          rcases ha with ha | ⟨_, _, _, _, ha⟩ <;> rcases ha' with ha' | ⟨_, _, _, _, ha'⟩ <;> rw [ha] at ha' <;> cases ha' <;> rfl
        · exact absurd h hv
        · rcases ha with ha | ⟨_, _, _, _, ha⟩ <;> rw [ha] at ha' <;> cases ha'
      · exact absurd h hv
      · rcases dateSet_cases st [.fresh, .fresh, .fresh] rfl v with ⟨y', m', d', ha', hs'⟩ | ⟨h, _⟩ | ⟨_, hs'⟩
        · rcases ha' with ha' | ⟨_, _, _, _, ha'⟩ <;> rw [ha] at ha' <;> cases ha'
        · exact absurd h hv
        · rw [hs, hs']
    have hnew := date_rich h st [(hy, integerType true 4), (hm, integerType true 2), (hd, integerType true 2)] v
    rw [← hnew]
    unfold richOutcome
    have heq : richSet (.date h st [(hy, integerType true 4), (hm, integerType true 2), (hd, integerType true 2)]) e v =
        richSet (.date h st [(hy, integerType true 4), (hm, integerType true 2), (hd, integerType true 2)]) (fresh (under (.date h st [(hy, integerType true 4), (hm, integerType true 2), (hd, integerType true 2)]))) v := by
      unfold richSet
      rw [h3, freshDate_states]
      show (dateElem _ _ (dateSet st ymdTypes sts v).1, (dateSet st ymdTypes sts v).2) = _
      rw [hind]
      rfl
    rw [heq]
  · rintro rfl
    unfold richSet
    rw [h3]
    show (dateElem _ _ (dateSet st ymdTypes sts .none).1, (dateSet st ymdTypes sts .none).2) = _
    rw [(C51_set_other st sts h1').2.1, ← h2]

/-- **C95.** `set_default` on any element ends as in C88, leaving what it leaves there. -/
theorem C95_set_default (s : VSchema) (hn : NamedParts s) (hd : DefaultsNameOnce s) (e : Elem) (hc : IsOf s e) :
    ((richDefault s e).2.map fun _ => asRich s (richDefault s e).1) = vSetDefault s (asRich s e) :=
  richDefault_rich s hn hd e hc

/-- **C95.** `set_flat` on any element ends as in Model/RichTree.lean, which C79 and its relatives are about, leaving what it leaves there. -/
theorem C95_set_flat (sep : PStr) (mn : Option PStr) (s : VSchema) (ha : NoRichArrays s) (e : Elem) (hc : IsOf s e) (ps : List FPair) :
    ((richSetFlat sep s e ps).2.map fun _ => pageForm mn s (asRich s (richSetFlat sep s e ps).1)) =
      rSetFlat sep (pageClass mn s) (pageForm mn s (asRich s e)) ps :=
  richSetFlat_rich sep mn s ha e hc ps

/-! ### lists and joined strings as lists -/

/-- **C95.** A List of dates, of joined strings, or of Dicts with them, follows a list of slots (C25, C26) through any history of list operations. -/
theorem C95_list (o : RichObjects) (sep : PStr) (h : Hdr) (prune : Bool) (max : Nat) (m : VSchema) (n : Option PStr) (ks : List Elem)
    (ops : List (ListOp PyVal Elem κ)) (hop : ∀ op ∈ ops, Compares op) :
    richRun o sep (.list h prune max m) (.list n ks) (ops.map fun op => ([], .call (.list op))) =
      .list n (members (listHistory (richMember o m) (slotsFrom 0 ks) ops)) := by
  have key : ∀ (ops : List (ListOp PyVal Elem κ)), (∀ op ∈ ops, Compares op) → ∀ st : Slots Elem, Numbered st →
      richRun o sep (.list h prune max m) (.list n (members st)) (ops.map fun op => ([], .call (.list op))) =
        .list n (members (listHistory (richMember o m) st ops)) := by
    intro ops
    induction ops with
    | nil => intro _ st _; rfl
    | cons op ops ih =>
      intro hop st hst
      have hnum := listStep_numbered (richMember o m) hst op (hop op (by simp))
      have := ih (fun op' h' => hop op' (by simp [h'])) _ hnum
      have hroot : richAt (κ := κ) o sep (.list h prune max m) (.list n (members st)) [] (.call (.list op)) =
          .list n (members (listStep (richMember o m) st op)) := by
        simp only [richAt, richClassAt, changeAt, Elem.present, if_true, richHere]
        rw [slotsFrom_members st 0 (by simpa [Numbered] using hst)]
      simp only [List.map_cons, richRun, listHistory, List.foldl_cons, hroot] at this ⊢
      exact this
  have := key ops hop (slotsFrom 0 ks) (fun j sl hj => by rw [slotsFrom_numbered ks 0 j sl hj]; congr 1; omega)
  rwa [members_slotsFrom] at this

/-- **C95.** `append` on a List of such elements puts at its end what a new member set to the value is (C88); if setting it raises, the List is left alone. -/
theorem C95_list_append (o : RichObjects) (sep : PStr) (h : Hdr) (prune : Bool) (max : Nat) (m : VSchema) (hn : NamedParts m) (n : Option PStr) (ks : List Elem) (v : PyVal)
    (ho : NamesOnce m v) :
    (∀ x ok, vSet m v = .ok (x, ok) →
      ∃ k, richAt (κ := κ) o sep (.list h prune max m) (.list n ks) [] (.call (.list (.append (.val v)))) = .list n (ks ++ [k]) ∧ asRich m k = x) ∧
    (∀ er, vSet m v = .error er → richAt (κ := κ) o sep (.list h prune max m) (.list n ks) [] (.call (.list (.append (.val v)))) = .list n ks) := by
  have hroot : richAt (κ := κ) o sep (.list h prune max m) (.list n ks) [] (.call (.list (.append (.val v)))) =
      .list n (members (listAppend (richMember o m) (slotsFrom 0 ks) (.val v)).1) := by
    simp only [richAt, richClassAt, changeAt, Elem.present, if_true, richHere]
    rfl
  have hnew := richSet_new m hn v ho
  unfold richOutcome at hnew
  rw [hroot, ← hnew]
  cases hr : richSet m (fresh (under m)) v with
  | mk k r =>
    cases r with
    | ok b =>
      refine ⟨fun x ok hx => ⟨k, ?_, ?_⟩, fun er he => by cases he⟩
      · simp [listAppend, asElement, richMember, hr, members, newSlot]
        have := members_slotsFrom ks 0
        simpa [members] using this
      · simp only [Except.map, Except.ok.injEq, Prod.mk.injEq] at hx
        exact hx.1
    | error er =>
      refine ⟨fun x ok hx => (by cases hx), fun er' he => ?_⟩
      simp [listAppend, asElement, richMember, hr]
      exact members_slotsFrom ks 0

/-- **C95.** An Array of such elements and a joined string follow a sequence (C25) through any history of operations. -/
theorem C95_sequences (o : RichObjects) (sep : PStr) (h : Hdr) (prune : Bool) (m : VSchema) (c : JoinedCfg) (n : Option PStr) (ops : List (SeqOp PyVal Elem κ)) :
    ∀ ks : List Elem,
    richRun o sep (.array h prune m) (.array n ks) (ops.map fun op => ([], .call (.seq op))) = .array n (ops.foldl (seqStep (richMember o m)) ks) ∧
    richRun o sep (.joined h c) (.array n ks) (ops.map fun op => ([], .call (.seq op))) = .array n (ops.foldl (seqStep (memberClass o.plain (joinedMember c))) ks) := by
  induction ops with
  | nil => intro ks; exact ⟨rfl, rfl⟩
  | cons op ops ih =>
    intro ks
    simp only [List.map_cons, richRun, List.foldl_cons]
    exact ⟨(ih _).1, (ih _).2⟩

/-! ### Dicts -/

theorem richField_for {o : RichObjects} {mode : DictMode} {po : Policy} : ∀ {fs : List VSchema}, (fs.map VSchema.name).Nodup → ∀ {f : VSchema}, f ∈ fs →
    fieldFor (richMap o mode po fs) f.name = some (richField o f) := by
  intro fs hn f hf
  cases hr : fieldFor (richMap o mode po fs) f.name with
  | none =>
    rw [fieldFor_none] at hr
    exact absurd (List.mem_map.2 ⟨richField o f, List.mem_map.2 ⟨f, hf, rfl⟩, rfl⟩) hr
  | some g =>
    obtain ⟨h1, h2⟩ := fieldFor_some hr
    obtain ⟨g', hg', rfl⟩ := List.mem_map.1 h1
    have : g' = f := under_unique hn hg' hf h2
    rw [this]

/-- **C95.** A Dict or SparseDict in such a form follows a mapping (C27–C29) with each operation: it then has under each key what the mapping has. -/
theorem C95_dict (o : RichObjects) (sep : PStr) (h : Hdr) (mode : DictMode) (po : Policy) (fs : List VSchema) (hn : NamedParts (.dict h mode po fs))
    (n : Option PStr) (ks : List Elem) (hc : IsOf (.dict h mode po fs) (.dict n ks)) (op : MapOp (Option PStr) PyVal Elem)
    (hf : RichFits (κ := κ) o (.dict h mode po fs) (.call (.map op))) :
    ∃ ks', richHere (κ := κ) o sep (.dict h mode po fs) (.dict n ks) (.call (.map op)) = .dict n ks' ∧
      ∀ k, dictGet (dictOfKids (unders fs) ks') k = dictGet (mapStep (richMap o mode po fs) (dictOfKids (unders fs) ks) op) k := by
  refine ⟨_, rfl, ?_⟩
  have hp := (isOf_proper _ _).1 hc
  unfold Proper under at hp
  rw [Conforms] at hp
  rw [NamedParts] at hn
  have hnu : ((unders fs).map Schema.name).Nodup := by rw [unders_names]; exact hn.2.1
  have hok : KidsOk (KidOf (unders fs)) (mapStep (richMap o mode po fs) (dictOfKids (unders fs) ks) op) := by
    refine kidsOk_step (richFields_closed o hn.2.1) op ?_ hf.2 _ (fun k e h => dictOfKids_mem hp.2 h)
    intro p hpm f hff hname hi
    obtain ⟨s, hs, rfl⟩ := List.mem_map.1 hff
    exact kidOf_unders.2 ⟨s, hs, hname, (isOf_proper _ _).1 (hf.1 p hpm s hs hname hi)⟩
  intro k
  rw [dictOfKids_kidsOfDict k ?_ (unders fs) hnu]
  · split
    · rfl
    · rename_i hk
      cases hd : dictGet (mapStep (richMap o mode po fs) (dictOfKids (unders fs) ks) op) k with
      | none => rfl
      | some e =>
        obtain ⟨f, hfm, hname, _⟩ := hok _ _ (mem_of_dictGet hd)
        exact absurd (List.mem_map.2 ⟨f, hfm, hname⟩) hk
  · intro e he
    obtain ⟨f, _, _, hcf⟩ := hok _ _ (mem_of_dictGet he)
    exact conforms_present hcf

/-- **C95.** `form['when'] = v`: the child there is set to `v` as by its own `set`; in a SparseDict that lacks it, a new one is, and put there unless setting
it raises.  The other fields stay as they are, and all do for a key of no field. -/
theorem C95_setitem (o : RichObjects) (sep : PStr) (h : Hdr) (mode : DictMode) (po : Policy) (fs : List VSchema) (hn : NamedParts (.dict h mode po fs))
    (n : Option PStr) (ks : List Elem) (hc : IsOf (.dict h mode po fs) (.dict n ks)) (v : PyVal) :
    (∀ (i : Nat) (f : VSchema) (x : Elem), fs[i]? = some f → ks[i]? = some x →
      richHere (κ := κ) o sep (.dict h mode po fs) (.dict n ks) (.call (.map (.setItem f.name (.val v)))) =
        .dict n (ks.set i (if x.present then (richSet f x v).1 else
          if (richSet f (fresh (under f)) v).2.toBool then (richSet f (fresh (under f)) v).1 else .absent))) ∧
    (∀ k, (∀ f ∈ fs, f.name ≠ k) →
      richHere (κ := κ) o sep (.dict h mode po fs) (.dict n ks) (.call (.map (.setItem k (.val v)))) = .dict n ks) := by
  have hp := (isOf_proper _ _).1 hc
  unfold Proper under at hp
  rw [Conforms] at hp
  rw [NamedParts] at hn
  have hnu : ((unders fs).map Schema.name).Nodup := by rw [unders_names]; exact hn.2.1
  have hsame := kidsOfDict_dictOfKids hnu hp.2
  have hpres := allPresent_kids hp.2
  have hpos : ∀ (j : Nat) (g : VSchema), fs[j]? = some g → ks[j]? = some ((dictGet (dictOfKids (unders fs) ks) g.name).getD .absent) := by
    intro j g hg
    conv_lhs => rw [← hsame]
    rw [kidsOfDict, List.getElem?_map, unders_map, List.getElem?_map, hg]
    simp [under_name, ← unders_map]
  have hput : ∀ (i : Nat) (f : VSchema) (y : Elem), fs[i]? = some f → ks[i]?.isSome →
      kidsOfDict (unders fs) (dictPut (dictOfKids (unders fs) ks) f.name y) = ks.set i y := by
    intro i f y hf hi
    refine List.ext_getElem? fun j => ?_
    rw [kidsOfDict, List.getElem?_map, unders_map, List.getElem?_map, List.getElem?_set]
    cases hg : fs[j]? with
    | none =>
      have hlen : ks.length = fs.length := by
        have := congrArg List.length hsame
        simp [kidsOfDict, unders_map] at this
        omega
      have : ks[j]? = none := by
        rw [List.getElem?_eq_none_iff] at hg ⊢
        omega
      simp only [Option.map_none]
      split
      · subst_vars
        rw [hf] at hg
        cases hg
      · exact this.symm
    | some g =>
      simp only [Option.map_some, under_name, dictGet_put]
      by_cases hij : i = j
      · subst hij
        rw [hf] at hg
        cases hg
        have := List.getElem?_eq_some_iff.1 (Option.some_get hi).symm
        simp [this.1]
      · have hne : g.name ≠ f.name := by
          intro he
          refine hij ((List.getElem?_inj (l := fs.map VSchema.name) ?_ hn.2.1).1 ?_)
          · simpa using (List.getElem?_eq_some_iff.1 hf).1
          · simp [hf, hg, he]
        rw [if_neg hne, if_neg hij, ← unders_map]
        exact (hpos j g hg).symm
  constructor
  · intro i f x hf hx
    have hfm := List.mem_of_getElem? hf
    have hff := richField_for (o := o) (mode := mode) (po := po) hn.2.1 hfm
    have hd := hpos i f hf
    rw [hx] at hd
    simp only [Option.some.injEq] at hd
    have hi : ks[i]?.isSome := by simp [hx]
    have hsetself : ks.set i x = ks := set_getElem?_self hx
    simp only [richHere, mapStep, mapSetItem, hff]
    cases hg : dictGet (dictOfKids (unders fs) ks) f.name with
    | some y =>
      rw [hg] at hd
      have hxy : x = y := by simpa using hd
      subst hxy
      have hxp := hpres _ _ hg
      rw [if_pos hxp]
      cases mode <;> simp only [richMap, mapModeOf, setChild, richField, richMember] <;> rw [hput i f _ hf hi]
    | none =>
      rw [hg] at hd
      have hxa : x = .absent := by simpa using hd
      subst hxa
      rw [if_neg (by simp [Elem.present])]
      have hfull : mode ≠ .full := by
        rintro rfl
        have := dictOfKids_full hp.2
        rw [dictGet_none, this, unders_names] at hg
        exact hg (List.mem_map.2 ⟨f, hfm, rfl⟩)
      cases hr : richSet f (fresh (under f)) v with
      | mk k r =>
        cases r with
        | ok b =>
          simp only [Except.toBool, if_true]
          cases mode with
          | full => exact absurd rfl hfull
          | _ => simp only [richMap, mapModeOf, richField, richMember, hr]; rw [hput i f _ hf hi]
        | error er =>
          simp only [Except.toBool, Bool.false_eq_true, if_false]
          rw [hsetself]
          cases mode with
          | full => exact absurd rfl hfull
          | _ => simp only [richMap, mapModeOf, richField, richMember, hr]; rw [hsame]
  · intro k hk
    have hff : fieldFor (richMap o mode po fs) k = none := by
      rw [fieldFor_none]
      intro hm
      obtain ⟨g, hg, hgk⟩ := List.mem_map.1 hm
      obtain ⟨s, hs, rfl⟩ := List.mem_map.1 hg
      exact hk s hs hgk
    simp only [richHere, mapStep, mapSetItem, hff]
    cases mode <;> simp only [richMap, mapModeOf] <;> rw [hsame]

/-- **C95.** `append` on a joined string in a form adds the text of the new member to its end, after a separator unless it was empty. -/
theorem C95_joined_append (o : RichObjects) (sep : PStr) (h : Hdr) (c : JoinedCfg) (e : Elem) (hc : IsOf (.joined h c) e) (v : PyVal) (st : ScalarState) (ok : Bool)
    (hv : scalarSet c.member .fresh v = (st, .ok ok)) :
    ∀ t, vValue (asRich (.joined h c) e) = .ok (.str t) →
      vValue (asRich (.joined h c) (richAt (κ := κ) o sep (.joined h c) e [] (.call (.seq (.append (.val v)))))) =
        .ok (.str (if e.kids = [] then st.u else t ++ c.separator ++ st.u)) := by
  intro t ht
  cases e <;> simp only [IsOf] at hc
  rename_i n ks
  have hs : setRun (joinedMember c) (fresh (joinedMember c)) v = (.scalar none st, .ok ok) := by
    show (Elem.scalar none (scalarSet c.member .fresh v).1, (scalarSet c.member .fresh v).2) = _
    rw [hv]
  have hat : richAt (κ := κ) o sep (.joined h c) (.array n ks) [] (.call (.seq (.append (.val v)))) = .array n (ks ++ [.scalar none st]) := by
    simp only [richAt, richClassAt, changeAt, Elem.present, if_true, richHere, seqStep, seqAppend, asElement, memberClass]
    rw [hs]
  rw [asRich, vValue, joinedText, pyJoin_intercalate] at ht
  injection ht with ht
  injection ht with ht
  subst ht
  rw [hat, asRich, vValue, joinedText, pyJoin_intercalate]
  simp only [Elem.kids]
  cases ks with
  | nil => simp [Elem.state, List.intercalate]
  | cons k ks =>
    have hst : (Elem.scalar none st).state.u = st.u := rfl
    simp only [List.map_append, List.map_cons, List.map_nil, hst, reduceCtorEq, if_false]
    congr 2
    generalize k.state.u = a
    generalize (ks.map Elem.state).map ScalarState.u = l
    induction l generalizing a with
    | nil => simp [List.intercalate, List.intersperse]
    | cons b l ih =>
      have := ih b
      simp only [List.intercalate, List.cons_append, List.intersperse, List.flatten_cons, List.append_assoc] at this ⊢
      rw [this]

end

/-! ### examples -/

section
attribute [local instance] Runtime.ascii

/-- what the examples need to know about elements -/
def richObjects : RichObjects where
  plain := exObjects
  isInstance _ _ := true
  isEmpty _ e := e.kids.isEmpty && e.state.u.isEmpty
  eq _ a b := a.state.u == b.state.u

def dayClass (n : PStr) : VSchema :=
  .date ⟨some n, false, .none⟩ true [(⟨some ['y', 'e', 'a', 'r'], false, .none⟩, integerType true 4), (⟨some ['m', 'o', 'n', 't', 'h'], false, .none⟩, integerType true 2),
    (⟨some ['d', 'a', 'y'], false, .none⟩, integerType true 2)]

def tagsCfg : JoinedCfg := { separator := [','], regex := none, prune := true, member := stringType true }

/-- a form with a date, tags and a list of dates -/
def tripForm : VSchema :=
  .dict ⟨none, false, .none⟩ .full .subset
    [dayClass ['w', 'h', 'e', 'n'], .joined ⟨some ['t', 'a', 'g', 's'], false, .none⟩ tagsCfg, .list ⟨some ['s', 't', 'o', 'p', 's'], false, .none⟩ true 99 (dayClass ['s', 't', 'o', 'p'])]

/-- the date is set and then one of its parts is, tags are added, one is changed, stops are added, one of them is set from text, the list is turned around,
a part that is not there is set, a key the date does not have is used, None is set -/
def tripCalls : List (List Nat × RichOp Nat) :=
  [([0], .call (.fill (.set (.date 2011 3 4)))), ([0, 2], .call (.fill (.set (.str ['3', '1'])))),
   ([1], .call (.seq (.append (.val (.str ['a']))))), ([1], .call (.seq (.append (.val (.str ['b']))))), ([1, 0], .call (.fill (.set (.str ['x'])))),
   ([2], .call (.list (.append (.val (.date 1999 12 31))))), ([2], .call (.list (.append (.val (.str ['2', '0', '0', '0', '-', '0', '2', '-', '2', '9']))))),
   ([2], .call (.list .reverse)), ([2, 1, 0], .call (.fill (.set (.int 2001)))), ([2, 7], .call (.fill .setDefault)), ([0], .call (.map (.delItem (some ['d', 'a', 'y'])))),
   ([0], .assignDate .none)]

/-- what becomes of it -/
example : let e := richRun richObjects ['_'] tripForm (fresh (under tripForm)) tripCalls
    (vValue (asRich tripForm e)).toOption = some (.dict [(['w', 'h', 'e', 'n'], .date 2011 3 31), (['t', 'a', 'g', 's'], .str ['x', ',', 'b']),
      (['s', 't', 'o', 'p', 's'], .list [.date 2000 2 29, .date 2001 12 31])]) := by decide +kernel

theorem tripForm_named : NamedParts tripForm := by
  simp [tripForm, dayClass, NamedParts, NamedPartsAll, VSchema.name, VSchema.hdr]

theorem fits_fill (o : RichObjects) (s : VSchema) (p : Pos) (op : FillOp) : RichFitsAt (κ := Nat) o s (p, .call (.fill op)) := by
  refine ⟨trivial, fun s' _ => ?_⟩
  cases s' with
  | plain s => cases s <;> simp [RichFits, Fits]
  | _ => simp [RichFits]

theorem fits_append (o : RichObjects) (s : VSchema) (p : Pos) (v : PyVal) :
    RichFitsAt (κ := Nat) o s (p, .call (.seq (.append (.val v)))) ∧ RichFitsAt (κ := Nat) o s (p, .call (.list (.append (.val v)))) := by
  refine ⟨⟨trivial, fun s' _ => ?_⟩, ⟨trivial, fun s' _ => ?_⟩⟩
  all_goals
    cases s' with
    | plain s => cases s <;> simp [RichFits, Fits, seqPuts, listPuts, argElem]
    | _ => simp [RichFits, seqPuts, listPuts, argElem]

theorem fits_others (o : RichObjects) (s : VSchema) (p : Pos) (k : PStr) (v : PyVal) :
    RichFitsAt (κ := Nat) o s (p, .call (.list .reverse)) ∧ RichFitsAt (κ := Nat) o s (p, .call (.map (.delItem (some k)))) ∧
      RichFitsAt (κ := Nat) o s (p, .assignDate v) := by
  refine ⟨⟨trivial, fun s' _ => ?_⟩, ⟨trivial, fun s' _ => ?_⟩, ⟨trivial, fun s' _ => ?_⟩⟩
  all_goals
    cases s' with
    | plain s => cases s <;> simp [RichFits, Fits, mapPuts, listPuts]
    | _ => simp [RichFits, mapPuts, listPuts]

theorem tripCalls_fit : ∀ c ∈ tripCalls, RichFitsAt richObjects tripForm c := by
  simp only [tripCalls, List.forall_mem_cons]
  exact ⟨fits_fill _ _ _ _, fits_fill _ _ _ _, (fits_append _ _ _ _).1, (fits_append _ _ _ _).1, fits_fill _ _ _ _, (fits_append _ _ _ _).2, (fits_append _ _ _ _).2,
    (fits_others _ _ _ [] .none).1, fits_fill _ _ _ _, fits_fill _ _ _ _, (fits_others _ _ _ _ .none).2.1, (fits_others _ _ _ [] _).2.2, fun c hc => nomatch hc⟩

theorem tripForm_new : IsOf tripForm (fresh (under tripForm)) := (isOf_proper _ _).2 (fresh_conforms _)

/-- so the hypotheses of the theorems on histories are met -/
example : IsOf tripForm (richRun richObjects ['_'] tripForm (fresh (under tripForm)) tripCalls) := by
  have h := C95_well_formed richObjects ['_'] tripForm tripForm_named tripCalls tripCalls_fit _ tripForm_new
  exact h.1

example : ∀ c ∈ tripCalls, [2] <+: c.1 ∨ Apart c.1 [2] := by unfold Apart; decide

example : (richClassAt tripForm [2, 1]).isSome ∧ (elemAt (richRun richObjects ['_'] tripForm (fresh (under tripForm)) tripCalls) [2, 1]).isSome := by
  constructor <;> decide +kernel

/-- `form['when'] = …` and `form['tags'] = …` (C95_setitem, C95_dict) -/
example : let call k v := richHere (κ := Nat) richObjects ['_'] tripForm (fresh (under tripForm)) (.call (.map (.setItem (some k) (.val v))))
    (vValue (asRich tripForm (call ['w', 'h', 'e', 'n'] (.date 2011 3 4)))).toOption =
      some (.dict [(['w', 'h', 'e', 'n'], .date 2011 3 4), (['t', 'a', 'g', 's'], .str []), (['s', 't', 'o', 'p', 's'], .list [])]) ∧
    (vValue (asRich tripForm (call ['t', 'a', 'g', 's'] (.str ['a', ',', 'b'])))).toOption =
      some (.dict [(['w', 'h', 'e', 'n'], .none), (['t', 'a', 'g', 's'], .str ['a', ',', 'b']), (['s', 't', 'o', 'p', 's'], .list [])]) := by
  decide +kernel

/-- the values of C95_set supply no field twice -/
example : NamesOnce tripForm (.dict [(['w', 'h', 'e', 'n'], .date 2011 3 4), (['t', 'a', 'g', 's'], .str ['a', ',', ' ', 'b'])]) ∧ ¬ IsDateClass tripForm := by
  constructor
  · simp [tripForm, dayClass, NamesOnce, NamesOnceAll, entriesOf, itemsOf, VSupplies, VSchema.name, VSchema.hdr]
  · simp [tripForm, IsDateClass]

example : DefaultsNameOnce tripForm ∧ NoRichArrays tripForm := by
  simp [tripForm, dayClass, DefaultsNameOnce, DefaultsNameOnceAll, NoRichArrays, NoRichArraysAll]

/-- **C95.** Without that, `set` need not end as if each field was set from its last value: a list of pairs that names a date twice, the second time with
None, leaves the first value there, and `set` returns False. -/
theorem C95_repeated_none : ∃ (s : VSchema) (l : List (PStr × PyVal)), NamedParts s ∧ ¬ IsDateClass s ∧
    ¬ NamesOnce s (.list (l.map fun p => .list [.str p.1, p.2])) ∧
    let r := richSet s (fresh (under s)) (.list (l.map fun p => .list [.str p.1, p.2]))
    r.2.toOption = some false ∧ l.getLast?.map Prod.snd = some .none ∧ (vValue (asRich s r.1)).toOption = some (.dict [(['w', 'h', 'e', 'n'], .date 2011 3 4)]) := by
  refine ⟨.dict ⟨none, false, .none⟩ .full .subset [dayClass ['w', 'h', 'e', 'n']], [(['w', 'h', 'e', 'n'], .date 2011 3 4), (['w', 'h', 'e', 'n'], .none)], ?_, ?_, ?_, ?_, rfl, ?_⟩
  · simp [dayClass, NamedParts, NamedPartsAll, VSchema.name, VSchema.hdr]
  · simp [IsDateClass]
  · simp [dayClass, NamesOnce, NamesOnceAll, entriesOf, itemsOf, VSupplies, VSchema.name, VSchema.hdr]
    exact ⟨⟨_, rfl⟩, ⟨_, rfl⟩⟩
  · decide +kernel
  · decide +kernel

end
end Flatland
