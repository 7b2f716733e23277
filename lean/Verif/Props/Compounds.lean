import Verif.Proofs.Compounds
import Verif.Props.Scalars
/-!
C51: the compound date.  C52: joined strings.  (flatland/schema/compound.py)
-/
namespace Flatland
open Spec

section
variable [Runtime]

/-! ## C51 -/

/-- **C51 (children to whole).** For children holding numbers, the compound is the date they form and its ISO text, if they form one,
and otherwise None and ''. -/
theorem C51_from_children (doStrip : Bool) (y m d : Int) :
    (∀ Y M D, DateNumbers y m d Y M D → composeDate doStrip [.int y, .int m, .int d] = .ok (fmtDate Y M D, .date Y M D)) ∧
    ((¬ ∃ Y M D, DateNumbers y m d Y M D) → composeDate doStrip [.int y, .int m, .int d] = .ok ([], .none)) :=
  ⟨fun _ _ _ h => composeDate_ok doStrip h, composeDate_bad doStrip⟩

/-- For children of other classes: True counts as 1 and False as 0, and anything else that is no number gives None and ''. -/
theorem C51_any_children (doStrip : Bool) (a b c : PyVal) (h : ∀ n, a ≠ .obj n ∧ b ≠ .obj n ∧ c ≠ .obj n) :
    (∀ y m d Y M D, CountsAs a y → CountsAs b m → CountsAs c d → DateNumbers y m d Y M D →
      composeDate doStrip [a, b, c] = .ok (fmtDate Y M D, .date Y M D)) ∧
    ((¬ ∃ y m d Y M D, CountsAs a y ∧ CountsAs b m ∧ CountsAs c d ∧ DateNumbers y m d Y M D) →
      composeDate doStrip [a, b, c] = .ok ([], .none)) := by
  have ha := fun n => (h n).1
  have hb := fun n => (h n).2.1
  have hc := fun n => (h n).2.2
  constructor
  · intro y m d Y M D h1 h2 h3 h4
    rw [composeDate_counts doStrip ((numberOf_iff ha y).2 h1) ((numberOf_iff hb m).2 h2) ((numberOf_iff hc d).2 h3)]
    exact composeDate_ok doStrip h4
  · intro hno
    by_cases h1 : (∃ i, CountsAs a i) ∧ (∃ i, CountsAs b i) ∧ ∃ i, CountsAs c i
    · obtain ⟨⟨y, hy⟩, ⟨m, hm⟩, ⟨d, hd⟩⟩ := h1
      rw [composeDate_counts doStrip ((numberOf_iff ha y).2 hy) ((numberOf_iff hb m).2 hm) ((numberOf_iff hc d).2 hd)]
      exact composeDate_bad doStrip fun ⟨Y, M, D, hn⟩ => hno ⟨y, m, d, Y, M, D, hy, hm, hd, hn⟩
    · exact composeDate_no_number doStrip ha hb hc h1

example : CountsAs (.bool true) 1 ∧ DateNumbers 2000 1 31 2000 1 31 ∧ ¬ ∃ i, CountsAs (.str ['1']) i :=
  ⟨.inr (.inl ⟨rfl, rfl⟩), ⟨rfl, rfl, rfl, (validDate_iff _ _ _).1 (by decide)⟩, by simp [CountsAs]⟩

/-- **C51 (children of other classes).** A date is set into children of any classes one after the other.  If none raises, they are as their
own `set` leaves them and the call returns True.  If one raises, those after it are left alone; an AdaptationError or TypeError makes all of
them be set to None then, NotImplementedError escapes, and any other exception gives False. -/
theorem C51_any_classes (doStrip : Bool) (t1 t2 t3 : ScalarType) (a b c : ScalarState) (y m d : Nat) (v : PyVal)
    (hv : v = .date y m d ∨ ∃ hh mi s us, v = .datetime y m d hh mi s us) :
    (∀ ok1 ok2 ok3, (scalarSet t1 a (.int y)).2 = .ok ok1 → (scalarSet t2 b (.int m)).2 = .ok ok2 → (scalarSet t3 c (.int d)).2 = .ok ok3 →
      dateSet doStrip [t1, t2, t3] [a, b, c] v =
        ([(scalarSet t1 a (.int y)).1, (scalarSet t2 b (.int m)).1, (scalarSet t3 c (.int d)).1], .ok true)) ∧
    (∀ er new, SetUpTo [scalarSet t1 a (.int y), scalarSet t2 b (.int m), scalarSet t3 c (.int d)] [a, b, c] new er →
      (er ≠ .adaptation → er ≠ .type →
        dateSet doStrip [t1, t2, t3] [a, b, c] v = (new, if er = .notImplemented then .error .notImplemented else .ok false)) ∧
      (er = .adaptation ∨ er = .type → ∀ a' b' c' ok1 ok2 ok3, new = [a', b', c'] → (scalarSet t1 a' .none).2 = .ok ok1 →
        (scalarSet t2 b' .none).2 = .ok ok2 → (scalarSet t3 c' .none).2 = .ok ok3 →
        dateSet doStrip [t1, t2, t3] [a, b, c] v =
          ([(scalarSet t1 a' .none).1, (scalarSet t2 b' .none).1, (scalarSet t3 c' .none).1], .ok true))) := by
  have hp : ∃ w, (dateType doStrip).adapt v = .ok w ∧ dateParts w = .ok [.int y, .int m, .int d] := by
    rcases hv with rfl | ⟨hh, mi, s, us, rfl⟩ <;> exact ⟨_, rfl, rfl⟩
  obtain ⟨w, hw, hp⟩ := hp
  constructor
  · intro ok1 ok2 ok3 h1 h2 h3
    simp only [dateSet, explodeDate, hw, hp, setKids_all h1 h2 h3]
  · intro er new hs
    constructor
    · intro h1 h2
      have hc : ymdCatches er = false := by cases er <;> simp_all [ymdCatches]
      simp only [dateSet, explodeDate, hw, hp, setKids_upTo hs, hc]
      cases er <;> rfl
    · rintro h a' b' c' ok1 ok2 ok3 rfl h1 h2 h3
      have hc : ymdCatches er = true := by rcases h with rfl | rfl <;> rfl
      simp only [dateSet, explodeDate, hw, hp, setKids_upTo hs, hc, if_true, setKids_all h1 h2 h3]

-- the month is of a class that takes no number at all
example (t : ScalarType) (a b c : ScalarState) (ok : Bool) (h : (scalarSet t a (.int 2000)).2 = .ok ok) :
    SetUpTo [scalarSet t a (.int 2000), scalarSet ⟨fun _ => .error .value, baseSerialize⟩ b (.int 2), scalarSet t c (.int 29)] [a, b, c]
      [(scalarSet t a (.int 2000)).1, { b with raw := some (.int 2) }, c] .value := by
  refine ⟨1, _, rfl, rfl, ?_, rfl⟩
  intro i x hi hx
  have : i = 0 := by omega
  subst this
  simp only [List.getElem?_cons_zero, Option.some.injEq] at hx
  subst hx
  exact ⟨ok, h⟩

/-- The text of a compound that holds a date is YYYY-MM-DD. -/
theorem C51_iso_text (y m d : Nat) (h : RealDate y m d) : DateText (fmtDate y m d) y m d := fmtDate_text h

/-- **C51 (whole to children).** Setting a date puts year, month and day into the children, whatever they held; the compound then is that
date.  A datetime counts as its date. -/
theorem C51_set_date (doStrip : Bool) (sts : List ScalarState) (hl : sts.length = 3) (y m d : Nat) (h : RealDate y m d) (v : PyVal)
    (hv : v = .date y m d ∨ ∃ hh mi s us, v = .datetime y m d hh mi s us) :
    ∃ sts', dateSet doStrip ymdTypes sts v = (sts', .ok true) ∧
      sts'.map ScalarState.value = [.int y, .int m, .int d] ∧
      sts'.map ScalarState.u = [padNat 4 y, padNat 2 m, padNat 2 d] ∧
      dateView doStrip sts' = .ok (fmtDate y m d, .date y m d) := by
  match sts, hl with
  | [a, b, c], _ =>
  have hc := composeDate_ok doStrip (y := y) (m := m) (d := d) ⟨rfl, rfl, rfl, h⟩
  rcases hv with rfl | ⟨hh, mi, s, us, rfl⟩ <;> exact ⟨_, rfl, rfl, rfl, hc⟩

/-- **C51 (text).** Setting a text: if it is a date (with white space around it when stripping) the children get its parts, otherwise they
are all emptied.  Both ways the call returns True. -/
theorem C51_set_text (doStrip : Bool) (sts : List ScalarState) (hl : sts.length = 3) (s : PStr) :
    ∃ sts', dateSet doStrip ymdTypes sts (.str s) = (sts', .ok true) ∧
      (∀ core y m d, Around doStrip s core → DateText core y m d → RealDate y m d →
        sts'.map ScalarState.value = [.int y, .int m, .int d] ∧ dateView doStrip sts' = .ok (fmtDate y m d, .date y m d)) ∧
      ((¬ ∃ core y m d, Around doStrip s core ∧ DateText core y m d ∧ RealDate y m d) →
        sts'.map ScalarState.value = [.none, .none, .none] ∧ dateView doStrip sts' = .ok ([], .none)) := by
  rcases dateSet_cases doStrip sts hl (.str s) with ⟨y, m, d, ha, hs⟩ | ⟨hn, _⟩ | ⟨⟨er, ha⟩, hs⟩
  · have ha' : (dateType doStrip).adapt (.str s) = .ok (.date y m d) := by
      rcases ha with ha | ⟨h, mi, sec, us, ha⟩
      · exact ha
      · obtain ⟨_, _, _, _, _, _, _, hv⟩ := (C03_date_iff doStrip s _).1 ha
        cases hv
    refine ⟨_, hs, ?_, ?_⟩
    · intro core y' m' d' h1 h2 h3
      have := (C03_date_iff doStrip s _).2 ⟨core, y', m', d', h1, h2, h3, rfl⟩
      rw [ha'] at this
      simp only [Except.ok.injEq, PyVal.date.injEq] at this
      obtain ⟨rfl, rfl, rfl⟩ := this
      exact ⟨rfl, composeDate_ok doStrip ⟨rfl, rfl, rfl, h3⟩⟩
    · intro hno
      obtain ⟨core, y', m', d', h1, h2, h3, _⟩ := (C03_date_iff doStrip s _).1 ha'
      exact absurd ⟨core, y', m', d', h1, h2, h3⟩ hno
  · cases hn
  · refine ⟨_, hs, ?_, fun _ => ⟨rfl, rfl⟩⟩
    intro core y' m' d' h1 h2 h3
    have := (C03_date_iff doStrip s _).2 ⟨core, y', m', d', h1, h2, h3, rfl⟩
    rw [ha] at this
    cases this

/-- **C51 (anything else).** Setting a value that is neither a text, a date nor None empties the children; None changes nothing and is
reported as a failure; `set` never raises. -/
theorem C51_set_other (doStrip : Bool) (sts : List ScalarState) (hl : sts.length = 3) :
    (∀ v, (∃ b, v = .bool b) ∨ (∃ i, v = .int i) ∨ (∃ h m s u, v = .time h m s u) ∨ (∃ xs, v = .list xs) ∨ (∃ kvs, v = .dict kvs) ∨ (∃ n, v = .obj n) →
      ∃ sts', dateSet doStrip ymdTypes sts v = (sts', .ok true) ∧ sts'.map ScalarState.value = [.none, .none, .none] ∧ dateView doStrip sts' = .ok ([], .none)) ∧
    dateSet doStrip ymdTypes sts .none = (sts, .ok false) ∧
    ∀ v, ∃ sts' ok, dateSet doStrip ymdTypes sts v = (sts', .ok ok) ∧ sts'.length = 3 := by
  refine ⟨?_, rfl, ?_⟩
  · match sts, hl with
    | [a, b, c], _ =>
    rintro v (⟨b, rfl⟩ | ⟨i, rfl⟩ | ⟨h, m, s, u, rfl⟩ | ⟨xs, rfl⟩ | ⟨kvs, rfl⟩ | ⟨n, rfl⟩) <;> exact ⟨_, rfl, rfl, rfl⟩
  · intro v
    rcases dateSet_cases doStrip sts hl v with ⟨_, _, _, _, hs⟩ | ⟨_, hs⟩ | ⟨_, hs⟩
    · exact ⟨_, _, hs, rfl⟩
    · exact ⟨_, _, hs, hl⟩
    · exact ⟨_, _, hs, rfl⟩

/-- **C51 (history).** After any sequence of settings of the children and of the whole, to anything, the compound is the date its children
form, or else None and ''. -/
theorem C51_history (doStrip : Bool) (ops : List YmdOp) :
    ∃ a b c, ymdRun doStrip [.fresh, .fresh, .fresh] ops = [a, b, c] ∧
      ((∃ y m d, RealDate y m d ∧ a.value = .int y ∧ b.value = .int m ∧ c.value = .int d ∧
          dateView doStrip [a, b, c] = .ok (fmtDate y m d, .date y m d)) ∨
       ((¬ ∃ y m d : Nat, RealDate y m d ∧ a.value = .int y ∧ b.value = .int m ∧ c.value = .int d) ∧
          dateView doStrip [a, b, c] = .ok ([], .none))) := by
  have inv : ∀ (ops : List YmdOp) (sts : List ScalarState), sts.length = 3 → (∀ st ∈ sts, st.value = .none ∨ ∃ i, st.value = .int i) →
      (ymdRun doStrip sts ops).length = 3 ∧ ∀ st ∈ ymdRun doStrip sts ops, st.value = .none ∨ ∃ i, st.value = .int i := by
    intro ops
    induction ops with
    | nil => intro sts hl hv; exact ⟨hl, hv⟩
    | cons op ops ih =>
      intro sts hl hv
      cases op with
      | child i x =>
        unfold ymdRun
        rw [List.foldl_cons]
        refine ih _ ?_ ?_
        · show (match ymdTypes[i]?, sts[i]? with | some t, some st => sts.set i (scalarSet t st x).1 | _, _ => sts).length = 3
          split
          · simpa using hl
          · exact hl
        · show ∀ st' ∈ (match ymdTypes[i]?, sts[i]? with | some t, some st => sts.set i (scalarSet t st x).1 | _, _ => sts), _
          split
          · rename_i t st ht hst
            have hint : ∃ w, t = integerType true w := by
              have : t ∈ ymdTypes := List.mem_of_getElem? ht
              simp only [ymdTypes, List.mem_cons, List.not_mem_nil, or_false] at this
              rcases this with rfl | rfl | rfl
              · exact ⟨4, rfl⟩
              · exact ⟨2, rfl⟩
              · exact ⟨2, rfl⟩
            obtain ⟨w, rfl⟩ := hint
            intro st' hst'
            rcases List.mem_or_eq_of_mem_set hst' with h | rfl
            · exact hv st' h
            · exact int_values w st x (hv st (List.mem_of_getElem? hst))
          · exact hv
      | whole x =>
        unfold ymdRun
        rw [List.foldl_cons]
        rcases dateSet_cases doStrip sts hl x with ⟨y, m, d, _, hs⟩ | ⟨_, hs⟩ | ⟨_, hs⟩
        · refine ih _ (by simp only [hs]; rfl) (by simp only [hs]; simp)
        · refine ih _ (by simp only [hs]; exact hl) (by simp only [hs]; exact hv)
        · refine ih _ (by simp only [hs]; rfl) (by simp only [hs]; simp)
  obtain ⟨hl, hv⟩ := inv ops [.fresh, .fresh, .fresh] rfl (by simp [ScalarState.fresh])
  generalize ymdRun doStrip [.fresh, .fresh, .fresh] ops = sts at hl hv
  match sts, hl with
  | [a, b, c], _ =>
  refine ⟨a, b, c, rfl, ?_⟩
  by_cases hd : ∃ y m d : Nat, RealDate y m d ∧ a.value = .int y ∧ b.value = .int m ∧ c.value = .int d
  · left
    obtain ⟨y, m, d, hr, ha, hb, hc⟩ := hd
    refine ⟨y, m, d, hr, ha, hb, hc, ?_⟩
    unfold dateView
    simp only [List.map_cons, List.map_nil, ha, hb, hc]
    exact composeDate_ok doStrip ⟨rfl, rfl, rfl, hr⟩
  · right
    refine ⟨hd, ?_⟩
    unfold dateView
    simp only [List.map_cons, List.map_nil]
    have h3 : ∀ x ∈ [a.value, b.value, c.value], x = .none ∨ ∃ i, x = .int i := by
      intro x hx
      simp only [List.mem_cons, List.not_mem_nil, or_false] at hx
      rcases hx with rfl | rfl | rfl
      · exact hv a (by simp)
      · exact hv b (by simp)
      · exact hv c (by simp)
    by_cases hn : PyVal.none ∈ [a.value, b.value, c.value]
    · exact composeDate_notNumber doStrip _ _ _ h3 hn
    · have hne : ∀ x ∈ [a.value, b.value, c.value], ∃ i, x = .int i := by
        intro x hx
        rcases h3 x hx with rfl | h
        · exact absurd hx hn
        · exact h
      obtain ⟨y, hy⟩ := hne a.value (by simp)
      obtain ⟨m, hm⟩ := hne b.value (by simp)
      obtain ⟨d, hd'⟩ := hne c.value (by simp)
      rw [hy, hm, hd']
      apply composeDate_bad
      rintro ⟨Y, M, D, rfl, rfl, rfl, hr⟩
      exact hd ⟨Y, M, D, hr, hy, hm, hd'⟩

/-! ## C52 -/

/-- **C52 (text in, text out).** With unstripped String members and nothing pruned, a joined string set from a text is that text, whatever
the separator. -/
theorem C52_text_kept (sep : PStr) (hsep : sep ≠ []) (old : List ScalarState) (s : PStr) :
    (joinedSet ⟨sep, .none, false, stringType false⟩ old (.str s)).2 = .ok true ∧
    joinedText ⟨sep, .none, false, stringType false⟩ (joinedSet ⟨sep, .none, false, stringType false⟩ old (.str s)).1 = s := by
  unfold joinedSet joinedValues
  simp only [if_neg hsep]
  have hset : ∀ t, scalarSet (stringType false) .fresh (.str t) = (⟨.str t, t, some (.str t)⟩, .ok true) := fun t => rfl
  obtain ⟨h1, h2⟩ := joinedLoop_texts ⟨sep, .none, false, stringType false⟩ (pySplit sep s) (fun t => ⟨true, by rw [hset]⟩) (by simp)
  refine ⟨?_, ?_⟩
  · rw [h2]
    congr 1
    rw [List.all_eq_true]
    intro t _
    simp [hset]
  · unfold joinedText
    rw [h1, List.map_map]
    have : (ScalarState.u ∘ fun t => (scalarSet (stringType false) .fresh (.str t)).1) = id := by
      funext t; simp [hset]
    rw [this, List.map_id]
    exact pyJoin_pySplit hsep s

/-- **C52 (members).** A joined string set from a list of texts has one member for each of them (for each that is not empty, when pruning),
in order, each set from its text; the result says whether all were accepted. -/
theorem C52_members (c : JoinedCfg) (hm : ∀ s, ∃ ok, (scalarSet c.member .fresh (.str s)).2 = .ok ok) (old : List ScalarState) (ts : List PStr) :
    (joinedSet c old (.list (ts.map .str))).1 =
      (if c.prune then ts.filter (fun s => !s.isEmpty) else ts).map (fun s => (scalarSet c.member .fresh (.str s)).1) ∧
    (joinedSet c old (.list (ts.map .str))).2 =
      .ok ((if c.prune then ts.filter (fun s => !s.isEmpty) else ts).all fun s => decide ((scalarSet c.member .fresh (.str s)).2 = .ok true)) := by
  show (joinedLoop c (ts.map .str)).1 = _ ∧ (joinedLoop c (ts.map .str)).2 = _
  cases hp : c.prune with
  | false => exact joinedLoop_texts c ts hm (by simp [hp])
  | true =>
    rw [joinedLoop_prune c _ hp]
    have hf : (ts.map PyVal.str).filter truthy = (ts.filter fun s => !s.isEmpty).map .str := by
      rw [List.filter_map]
      congr 1
    rw [hf]
    exact joinedLoop_texts c _ hm (fun _ s hs => by
      have := (List.mem_filter.1 hs).2
      intro he; subst he; simp at this)

/-- **C52 (round trip).** Let the members of a joined string have been set from texts, with any built-in class of members, and let the
separator not begin within the text of a member.  Then setting the string from its own text gives the same members: the same texts,
values and result.  (When pruning, no member's text may be empty; when not, there must be a member.) -/
theorem C52_roundtrip (b : Builtin) (hb : b.Consistent) (hd : Disciplined b.type) (sep : PStr) (hsep : sep ≠ []) (prune : Bool) (old : List ScalarState)
    (ts : List PStr) (r : List ScalarState × Except PyErr Bool) (hr : joinedSet ⟨sep, .none, prune, b.type⟩ old (.list (ts.map .str)) = r)
    (hfree : ∀ m ∈ r.1, SepFree sep m.u) (hempty : prune = true → ∀ m ∈ r.1, m.u ≠ []) (hsome : prune = false → ts ≠ []) :
    (joinedSet ⟨sep, .none, prune, b.type⟩ r.1 (.str (joinedText ⟨sep, .none, prune, b.type⟩ r.1))).1.map (fun m => (m.u, m.value)) =
      r.1.map (fun m => (m.u, m.value)) ∧
    (joinedSet ⟨sep, .none, prune, b.type⟩ r.1 (.str (joinedText ⟨sep, .none, prune, b.type⟩ r.1))).2 = r.2 ∧
    joinedText ⟨sep, .none, prune, b.type⟩ (joinedSet ⟨sep, .none, prune, b.type⟩ r.1 (.str (joinedText ⟨sep, .none, prune, b.type⟩ r.1))).1 =
      joinedText ⟨sep, .none, prune, b.type⟩ r.1 := by
  generalize hc : (⟨sep, .none, prune, b.type⟩ : JoinedCfg) = c at *
  have hcs : c.separator = sep := by rw [← hc]
  have hcr : c.regex = .none := by rw [← hc]
  have hcp : c.prune = prune := by rw [← hc]
  have hcm : c.member = b.type := by rw [← hc]
  have hm : ∀ s, ∃ ok, (scalarSet c.member .fresh (.str s)).2 = .ok ok := by
    intro s
    obtain ⟨st, ok, he, _⟩ := C01_set_tandem c.member (hcm ▸ hd) .fresh (.str s)
    exact ⟨ok, by rw [he]⟩
  obtain ⟨h1, h2⟩ := C52_members c hm old ts
  rw [hr] at h1 h2
  generalize hks : (if c.prune then ts.filter (fun s => !s.isEmpty) else ts) = ks at h1 h2
  have key : (joinedSet c r.1 (.str (joinedText c r.1))).1 = (r.1.map ScalarState.u).map (fun s => (scalarSet c.member .fresh (.str s)).1) ∧
      (joinedSet c r.1 (.str (joinedText c r.1))).2 = .ok ((r.1.map ScalarState.u).all fun s => decide ((scalarSet c.member .fresh (.str s)).2 = .ok true)) := by
    have hvals : joinedValues c (.str (joinedText c r.1)) = .ok ((pySplit sep (joinedText c r.1)).map .str) := by
      unfold joinedValues
      simp only [hcr, hcs, if_neg hsep]
    unfold joinedSet
    rw [hvals]
    simp only []
    by_cases hnil : r.1 = []
    · have hpr : prune = true := by
        cases hp : prune with
        | true => rfl
        | false =>
          exfalso
          rw [hcp, hp] at hks
          simp only [Bool.false_eq_true, if_false] at hks
          rw [h1] at hnil
          simp only [List.map_eq_nil_iff] at hnil
          exact hsome hp (hks.trans hnil)
      rw [hnil]
      have : joinedText c [] = [] := rfl
      rw [this, show pySplit sep [] = [[]] from rfl]
      simp only [List.map_cons, List.map_nil, joinedLoop, hcp, hpr]
      exact ⟨rfl, rfl⟩
    · have : pySplit sep (joinedText c r.1) = r.1.map ScalarState.u := by
        unfold joinedText
        rw [hcs]
        refine pySplit_pyJoin_free hsep _ (by simpa using hnil) ?_
        intro p hp
        obtain ⟨m, hm', rfl⟩ := List.mem_map.1 hp
        exact hfree m hm'
      rw [this]
      refine joinedLoop_texts c _ hm ?_
      intro hp s hs
      obtain ⟨m, hm', rfl⟩ := List.mem_map.1 hs
      exact hempty (hcp ▸ hp) m hm'
  have hrt : ∀ s, (scalarSet c.member .fresh (.str (scalarSet c.member .fresh (.str s)).1.u)).1.u = (scalarSet c.member .fresh (.str s)).1.u ∧
      (scalarSet c.member .fresh (.str (scalarSet c.member .fresh (.str s)).1.u)).1.value = (scalarSet c.member .fresh (.str s)).1.value ∧
      (scalarSet c.member .fresh (.str (scalarSet c.member .fresh (.str s)).1.u)).2 = (scalarSet c.member .fresh (.str s)).2 := by
    intro s
    rw [hcm]
    have := C02_text_roundtrip b hb .fresh s
    simp only at this
    have hst : ∀ st, scalarSet b.type st (.str (scalarSet b.type .fresh (.str s)).1.u) = scalarSet b.type .fresh (.str (scalarSet b.type .fresh (.str s)).1.u) := by
      intro st
      generalize (scalarSet b.type .fresh (.str s)).1.u = u
      unfold scalarSet
      cases ha : b.type.adapt (.str u) with
      | error e => have := hd.adapt_err _ e ha; subst this; rfl
      | ok v =>
        by_cases hv : v = .none
        · subst hv; rfl
        · obtain ⟨s', hs'⟩ := hd.ser_ok _ v ha hv
          cases v <;> simp_all
    rw [hst] at this
    exact this
  have hmap : (joinedSet c r.1 (.str (joinedText c r.1))).1.map (fun m => (m.u, m.value)) = r.1.map (fun m => (m.u, m.value)) := by
    rw [key.1, h1]
    simp only [List.map_map]
    apply List.map_congr_left
    intro s _
    simp only [Function.comp]
    rw [(hrt s).1, (hrt s).2.1]
  refine ⟨hmap, ?_, ?_⟩
  · rw [key.2, h2, h1]
    congr 1
    rw [List.map_map, List.all_map]
    congr 1
    funext s
    simp only [Function.comp]
    simp only [(hrt s).2.2]
  · unfold joinedText
    have : ∀ l l' : List ScalarState, l.map (fun m => (m.u, m.value)) = l'.map (fun m => (m.u, m.value)) → l.map ScalarState.u = l'.map ScalarState.u := by
      intro l l' h
      have := congrArg (List.map Prod.fst) h
      simpa [List.map_map, Function.comp_def] using this
    have := this _ _ hmap
    unfold joinedText at this
    rw [this]

/-- **C52 (flat form).** Flattening gives the joined text under the element's own name only, and setting a joined string from flat pairs
uses the first pair of its name. -/
theorem C52_flat (c : JoinedCfg) (name : PStr) (old members : List ScalarState) (pre post : List (PStr × PStr)) (hpre : ∀ p ∈ pre, p.1 ≠ name) :
    joinedFlatten c name members = [(name, joinedText c members)] ∧
    joinedSetFlat c name old (pre ++ joinedFlatten c name members ++ post) = joinedSet c old (.str (joinedText c members)) := by
  refine ⟨rfl, ?_⟩
  induction pre with
  | nil => simp [joinedSetFlat, joinedFlatten]
  | cons p pre ih =>
    obtain ⟨k, v⟩ := p
    have hk : k ≠ name := hpre (k, v) (by simp)
    simp only [List.cons_append, joinedSetFlat, if_neg hk]
    exact ih fun q hq => hpre q (by simp [hq])

end

/-- For a separator of one character, it does not begin within a text exactly when the text does not contain it. -/
theorem C52_single (c : Char) (p : PStr) : SepFree [c] p ↔ c ∉ p := by
  constructor
  · intro h hc
    obtain ⟨a, b, rfl⟩ := List.append_of_mem hc
    exact h a (c :: b) rfl (by simp) (by simp)
  · intro h a b hp hb hpre
    cases b with
    | nil => contradiction
    | cons x b =>
      simp only [List.cons_append, List.cons_prefix_cons] at hpre
      exact h (by rw [hp, hpre.1]; simp)

/-! ### cases -/

section
attribute [local instance] Runtime.ascii

/-- a date and back -/
example : (dateSet true ymdTypes [.fresh, .fresh, .fresh] (.date 2000 2 29)).1.map ScalarState.value = [.int 2000, .int 2, .int 29] := by decide
example : RealDate 2000 2 29 := (validDate_iff _ _ _).1 (by decide)
/-- numbers that form no date -/
example : ¬ ∃ Y M D, DateNumbers 2001 2 29 Y M D := by
  rintro ⟨Y, M, D, h1, h2, h3, hr⟩
  obtain rfl : Y = 2001 := by omega
  obtain rfl : M = 2 := by omega
  obtain rfl : D = 29 := by omega
  exact absurd ((validDate_iff _ _ _).2 hr) (by decide)

/-- members with surrounding spaces, an empty one dropped -/
example : joinedText ⟨[','], .none, true, stringType true⟩
    (joinedSet ⟨[','], .none, true, stringType true⟩ [] (.list [.str "a ".toList, .str [], .str "b".toList])).1 = "a,b".toList := by decide

/-- **C52 (limits).** Pruning also drops values like 0 that are not texts: an Integer 0 given in a list is lost. -/
theorem C52_zero_pruned : (joinedSet ⟨[','], .none, true, integerType true 0⟩ [] (.list [.int 0, .int 1])).1.map ScalarState.value = [.int 1] := by decide

/-- Without pruning, a joined string without members becomes one with an empty member. -/
theorem C52_empty_unpruned : joinedText ⟨[','], .none, false, stringType true⟩ [] = [] ∧
    ((joinedSet ⟨[','], .none, false, stringType true⟩ [] (.str [])).1.map ScalarState.u) = [[]] := by decide

/-- With an empty separator and no regular expression, a text raises a ValueError and changes nothing; a list is as good as ever. -/
theorem C52_empty_separator [Runtime] (c : JoinedCfg) (hr : c.regex = .none) (hs : c.separator = []) (members : List ScalarState) (s : PStr) :
    joinedSet c members (.str s) = (members, .error .value) ∧
    ∀ xs, joinedSet c members (.list xs) = joinedSet { c with separator := [','] } members (.list xs) := by
  refine ⟨by simp [joinedSet, joinedValues, hr, hs], fun xs => ?_⟩
  simp only [joinedSet, joinedValues]
  have h : ∀ vs, joinedLoop c vs = joinedLoop { c with separator := [','] } vs := by
    intro vs
    induction vs with
    | nil => rfl
    | cons v vs ih => simp only [joinedLoop, ih]
  exact h xs

/-- A value that cannot be iterated, such as None, raises a TypeError. -/
theorem C52_none_raises (members : List ScalarState) : joinedSet ⟨[','], .none, true, stringType true⟩ members .none = (members, .error .type) := rfl

end

end Flatland
