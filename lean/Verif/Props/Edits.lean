import Verif.Proofs.Edits3
import Verif.Props.Tree
import Verif.Props.Lists
/-!
Property C82: calls on the elements anywhere in a form.
-/
namespace Flatland
open Flatland.Spec

section
variable [Runtime] {κ : Type}

/-- **C82.** Whatever is called on whatever elements of a form, in whatever order, with calls that raise among them: the form stays a proper
form of its class, every element under its own name, Dicts with their fields and no others. -/
theorem C82_well_formed (o : Objects) (sep : PStr) (s : Schema) (hn : NamedFields s) (cs : List (List Nat × EditOp κ)) (hf : ∀ c ∈ cs, FitsAt o s c)
    (e : Elem) (hc : Conforms s e) : Conforms s (editRun o sep s e cs) :=
  editRun_conforms o sep s hn cs hf e hc

/-- **C82.** A call on an element changes that element as it would change it on its own, as an element of the class at that position. -/
theorem C82_here (o : Objects) (sep : PStr) (s : Schema) (hn : NamedFields s) (e : Elem) (hc : Conforms s e) (p : Pos) (op : EditOp κ)
    (hf : FitsAt o s (p, op)) (x : Elem) (hx : elemAt e p = some x) :
    ∃ s', classAt s p = some s' ∧ Conforms s' x ∧ elemAt (editAt o sep s e p op) p = some (editHere o sep s' x op) := by
  obtain ⟨s', h1, h2, _, h4⟩ := editAt_here o sep hc hn hx op hf
  exact ⟨s', h1, h2, h4⟩

/-- **C82.** No other element changes: what is neither above nor below stays as it is, the elements above keep their kind, their name and the
number of their children, and all of them, above and aside, their names on the way from the root. -/
theorem C82_elsewhere (o : Objects) (sep : PStr) (s : Schema) (e : Elem) (hc : Conforms s e) (p : Pos) (op : EditOp κ) (x : Elem)
    (hx : elemAt e p = some x) :
    (∀ q, Apart p q → elemAt (editAt o sep s e p op) q = elemAt e q) ∧
    (∀ q, q <+: p → q ≠ p → ∃ y y', elemAt e q = some y ∧ elemAt (editAt o sep s e p op) q = some y' ∧ SameFrame y y') ∧
    (∀ q, ¬ p <+: q → namesAt (editAt o sep s e p op) q = namesAt e q) :=
  ⟨fun _ h => editAt_apart o sep hc hx op h, fun _ h hne => editAt_above o sep hc hx op h hne, fun _ h => editAt_names o sep hc hx op h⟩

omit [Runtime] in
/-- a scalar has nothing below it -/
theorem below_scalar {e : Elem} {q p : Pos} {n : Option PStr} {st : ScalarState} {x : Elem} (hq : elemAt e q = some (.scalar n st))
    (hx : elemAt e p = some x) (h : q <+: p) : p = q := by
  obtain ⟨r, rfl⟩ := h
  cases r with
  | nil => simp
  | cons i r =>
    rw [elemAt_append, hq] at hx
    simp [elemAt_kidAt, Elem.kids] at hx

omit [Runtime] in
theorem filter_outside_eq {e e' : Elem} {p : Pos} {ps ps' : List Pos} (h : ScalarsInOrder e ps) (h' : ScalarsInOrder e' ps')
    (hs : ∀ q, outside p q = true → ((∃ n st, elemAt e q = some (.scalar n st)) ↔ ∃ n st, elemAt e' q = some (.scalar n st))) :
    ps.filter (outside p) = ps'.filter (outside p) := by
  refine List.Perm.eq_of_pairwise (le := fun a b : Pos => a.length < b.length ∨ (a.length = b.length ∧ a < b)) ?_ (h.2.2.filter _) (h'.2.2.filter _) ?_
  · intro a b _ _ hab hba
    exfalso
    rcases hab with hab | ⟨_, hab⟩ <;> rcases hba with hba | ⟨_, hba⟩ <;> first | omega | exact List.lt_asymm hab hba
  · rw [List.perm_ext_iff_of_nodup (h.1.filter _) (h'.1.filter _)]
    intro q
    simp only [List.mem_filter, h.2.1, h'.2.1]
    constructor
    · rintro ⟨h1, h2⟩; exact ⟨(hs q h2).1 h1, h2⟩
    · rintro ⟨h1, h2⟩; exact ⟨(hs q h2).2 h1, h2⟩

/-- **C82.** In what `flatten` gives, the pairs of the scalars that are not at or below the element stay, in their order. -/
theorem C82_flatten (o : Objects) (sep : PStr) (s : Schema) (hn : NamedFields s) (e : Elem) (hc : Conforms s e) (p : Pos) (op : EditOp κ)
    (hf : FitsAt o s (p, op)) (x : Elem) (hx : elemAt e p = some x) :
    ∃ ps ps', ScalarsInOrder e ps ∧ ScalarsInOrder (editAt o sep s e p op) ps' ∧
      flatten sep e = ps.map (pairAt sep e) ∧
      flatten sep (editAt o sep s e p op) = ps'.map (pairAt sep (editAt o sep s e p op)) ∧
      (ps.filter (outside p)).map (pairAt sep e) = (ps'.filter (outside p)).map (pairAt sep (editAt o sep s e p op)) := by
  obtain ⟨ps, h1, h2, h3, h4⟩ := C14_flatten_names sep s e hc
  obtain ⟨ps', h1', h2', h3', h4'⟩ := C14_flatten_names sep s _ (editAt_conforms o sep p s hn e hc op hf)
  refine ⟨ps, ps', ⟨h1, h2, h3⟩, ⟨h1', h2', h3'⟩, h4, h4', ?_⟩
  obtain ⟨s', _, _, hx'⟩ := C82_here o sep s hn e hc p op hf x hx
  have hout : ∀ q, outside p q = true → ¬ p <+: q := by
    intro q hq hp
    simp only [outside, Bool.not_eq_true', ← Bool.not_eq_true, List.isPrefixOf_iff_prefix] at hq
    exact hq hp
  have hap : ∀ q, outside p q = true → ∀ n st, elemAt e q = some (.scalar n st) → elemAt (editAt o sep s e p op) q = elemAt e q := by
    intro q hq n st h
    refine editAt_apart o sep hc hx op ⟨hout q hq, fun hqp => hout q hq ?_⟩
    rw [below_scalar h hx hqp]
    exact List.prefix_refl _
  have hap' : ∀ q, outside p q = true → ∀ n st, elemAt (editAt o sep s e p op) q = some (.scalar n st) →
      elemAt (editAt o sep s e p op) q = elemAt e q := by
    intro q hq n st h
    refine editAt_apart o sep hc hx op ⟨hout q hq, fun hqp => hout q hq ?_⟩
    rw [below_scalar h hx' hqp]
    exact List.prefix_refl _
  rw [filter_outside_eq ⟨h1, h2, h3⟩ ⟨h1', h2', h3'⟩ (p := p)]
  · refine List.map_congr_left fun q hq => ?_
    obtain ⟨hq1, hq2⟩ := List.mem_filter.1 hq
    obtain ⟨n, st, hq1⟩ := (h2' q).1 hq1
    have hel := hap' q hq2 n st hq1
    simp only [pairAt, textAt, hel, editAt_names o sep hc hx op (hout q hq2)]
  · intro q hq
    constructor
    · rintro ⟨n, st, h⟩; exact ⟨n, st, by rw [hap q hq n st h, h]⟩
    · rintro ⟨n, st, h⟩; exact ⟨n, st, by rw [← hap' q hq n st h, h]⟩

/-- **C82.** A call on an element that is not there changes nothing. -/
theorem C82_nowhere (o : Objects) (sep : PStr) (s : Schema) (e : Elem) (hc : Conforms s e) (p : Pos) (op : EditOp κ) (hx : elemAt e p = none) :
    editAt o sep s e p op = e :=
  editAt_nowhere o sep hc hx op

theorem editAt_below (o : Objects) (sep : PStr) : ∀ {p : Pos} {s : Schema} {e x : Elem}, Conforms s e → NamedFields s → elemAt e p = some x → ∀ (r : Pos) (op : EditOp κ),
    FitsAt o s (p ++ r, op) → ∃ s', classAt s p = some s' ∧ Conforms s' x ∧ NamedFields s' ∧ FitsAt o s' (r, op) ∧
      elemAt (editAt o sep s e (p ++ r) op) p = some (editAt o sep s' x r op)
  | [], s, e, x, hc, hn, hx, r, op, hf => by
    rw [conforms_elemAt_nil hc] at hx
    cases hx
    refine ⟨s, classAt_root s, hc, hn, hf, ?_⟩
    exact conforms_elemAt_nil (editAt_conforms o sep r s hn e hc op hf)
  | i :: p, s, e, x, hc, hn, hx, r, op, hf => by
    cases hr : elemAt e (i :: (p ++ r)) with
    | some y =>
      obtain ⟨f, k, hcls, hk, hcf, hyk, hnf, he⟩ := editAt_kid o sep hc hr op
      rw [elemAt_kidAt, hk] at hx
      obtain ⟨s', h1, h2, h3, h4, h5⟩ := editAt_below o sep hcf (hnf hn) hx r op
        ⟨hf.1, fun s' hs' => hf.2 s' (by simp only [List.cons_append]; rw [hcls]; exact hs')⟩
      refine ⟨s', by rw [hcls]; exact h1, h2, h3, h4, ?_⟩
      simp only [List.cons_append]
      rw [he, elemAt_setKid e hk, h5]
    | none =>
      obtain ⟨f, k, hcls, hk, hcf, hyk, hnf, _⟩ := editAt_kid o sep hc hx op
      rw [elemAt_kidAt, hk] at hr
      obtain ⟨s', h1, h2, h3, h4, h5⟩ := editAt_below o sep hcf (hnf hn) hyk r op
        ⟨hf.1, fun s' hs' => hf.2 s' (by simp only [List.cons_append]; rw [hcls]; exact hs')⟩
      refine ⟨s', by rw [hcls]; exact h1, h2, h3, h4, ?_⟩
      rw [editAt_nowhere o sep hcf hr] at h5
      simp only [List.cons_append]
      rw [editAt_nowhere o sep hc (by rw [elemAt_kidAt, hk]; exact hr), elemAt_kidAt, hk]
      exact h5

/-- **C82.** What becomes of a part of a form is decided by the calls made in that part: calls elsewhere in the form, however they are mixed
with them, make no difference.  (Calls on the elements above are calls on this part, too, and are left out.) -/
theorem C82_independent (o : Objects) (sep : PStr) (s : Schema) (hn : NamedFields s) (e : Elem) (hc : Conforms s e) (p : Pos) (x : Elem)
    (hx : elemAt e p = some x) (cs : List (List Nat × EditOp κ)) (hf : ∀ c ∈ cs, FitsAt o s c) (ha : ∀ c ∈ cs, p <+: c.1 ∨ Apart c.1 p) :
    ∃ s', classAt s p = some s' ∧ elemAt (editRun o sep s e cs) p = some (editRun o sep s' x (callsIn p cs)) := by
  induction cs generalizing e x with
  | nil =>
    obtain ⟨s', h1, _⟩ := editAt_below o sep hc hn hx [] (EditOp.fill (κ := κ) .setDefault) ⟨trivial, fun s' _ => by cases s' <;> trivial⟩
    exact ⟨s', h1, hx⟩
  | cons c cs ih =>
    obtain ⟨q, op⟩ := c
    have hc' := editAt_conforms o sep q s hn e hc op (hf (q, op) (by simp))
    have hf' : ∀ c ∈ cs, FitsAt o s c := fun c h => hf c (by simp [h])
    have ha' : ∀ c ∈ cs, p <+: c.1 ∨ Apart c.1 p := fun c h => ha c (by simp [h])
    rw [editRun]
    rcases ha (q, op) (by simp) with hpq | hap
    · obtain ⟨r, rfl⟩ := hpq
      obtain ⟨s', h1, h2, h3, h4, h5⟩ := editAt_below o sep hc hn hx r op (hf _ (by simp))
      obtain ⟨s'', h1', h6⟩ := ih _ hc' _ h5 hf' ha'
      rw [h1] at h1'
      cases h1'
      refine ⟨s', h1, ?_⟩
      rw [h6]
      have : callsIn p ((p ++ r, op) :: cs) = (r, op) :: callsIn p cs := by
        simp [callsIn, List.isPrefixOf_iff_prefix.2 (List.prefix_append p r)]
      rw [this, editRun]
    · have hstay : elemAt (editAt o sep s e q op) p = elemAt e p := by
        cases hq : elemAt e q with
        | none => rw [editAt_nowhere o sep hc hq]
        | some y => exact editAt_apart o sep hc hq op hap
      obtain ⟨s', h1, h6⟩ := ih _ hc' x (by rw [hstay]; exact hx) hf' ha'
      refine ⟨s', h1, ?_⟩
      rw [h6]
      have : callsIn p ((q, op) :: cs) = callsIn p cs := by
        simp only [callsIn, List.filter_cons]
        rw [if_neg]
        simp only [List.isPrefixOf_iff_prefix]
        exact hap.2
      rw [this]

omit [Runtime] in
/-- slots that are numbered are what their members are numbered as -/
theorem slotsFrom_members : ∀ (st : Slots Elem) (i : Nat), (∀ j sl, st[j]? = some sl → sl.name = decimal (i + j)) → slotsFrom i (members st) = st
  | [], _, _ => rfl
  | sl :: st, i, h => by
    have h0 := h 0 sl rfl
    have := slotsFrom_members st (i + 1) (fun j sl' hj => by rw [h (j + 1) sl' (by simpa using hj)]; congr 1; omega)
    simp only [members] at this
    simp only [members, List.map_cons, slotsFrom, this]
    cases sl
    simp_all

omit [Runtime] in
theorem slotsFrom_numbered : ∀ (ks : List Elem) (i : Nat), ∀ j sl, (slotsFrom i ks)[j]? = some sl → sl.name = decimal (i + j)
  | [], _, j, sl, h => by simp [slotsFrom] at h
  | k :: ks, i, 0, sl, h => by
    simp only [slotsFrom, List.getElem?_cons_zero, Option.some.injEq] at h
    rw [← h]; rfl
  | k :: ks, i, j + 1, sl, h => by
    simp only [slotsFrom, List.getElem?_cons_succ] at h
    rw [slotsFrom_numbered ks (i + 1) j sl h]
    congr 1; omega

/-- **C82.** A history of operations on a List of a form leaves the members that the same history leaves in the List as a Python list of
slots (C24, C25, C27); so what is said there holds inside forms. -/
theorem C82_list (o : Objects) (sep : PStr) (h : Hdr) (prune : Bool) (max : Nat) (m : Schema) (n : Option PStr) (ks : List Elem)
    (ops : List (ListOp PyVal Elem κ)) (hop : ∀ op ∈ ops, Compares op) :
    editRun o sep (.list h prune max m) (.list n ks) (onRoot ops) =
      .list n (members (listHistory (memberClass o m) (slotsFrom 0 ks) ops)) := by
  have key : ∀ (ops : List (ListOp PyVal Elem κ)), (∀ op ∈ ops, Compares op) → ∀ st : Slots Elem, Numbered st →
      editRun o sep (.list h prune max m) (.list n (members st)) (onRoot ops) = .list n (members (listHistory (memberClass o m) st ops)) := by
    intro ops
    induction ops with
    | nil => intro _ st _; rfl
    | cons op ops ih =>
      intro hop st hst
      have hnum := listStep_numbered (memberClass o m) hst op (hop op (by simp))
      have := ih (fun op' h' => hop op' (by simp [h'])) _ hnum
      simp only [onRoot, List.map_cons, editRun, editAt_root, editHere, listHistory, List.foldl_cons] at this ⊢
      rw [slotsFrom_members st 0 (by simpa [Numbered] using hst)]
      exact this
  have := key ops hop (slotsFrom 0 ks) (fun j sl hj => by rw [slotsFrom_numbered ks 0 j sl hj]; congr 1; omega)
  rwa [members_slotsFrom] at this

omit [Runtime] in
theorem extendLoop_like_list {V E : Type} (c : MemberClass V E) : ∀ (as : List (Arg V E)) (st : Slots E),
    members (listExtendLoop c st as).1 = (seqExtendLoop c (members st) as).1 ∧ (listExtendLoop c st as).2 = (seqExtendLoop c (members st) as).2
  | [], _ => ⟨rfl, rfl⟩
  | a :: as, st => by
    simp only [listExtendLoop, seqExtendLoop, listAppend, seqAppend]
    cases asElement c a with
    | error er => exact ⟨rfl, rfl⟩
    | ok e =>
      have := extendLoop_like_list c as (st ++ [newSlot st e])
      rw [members_append] at this
      exact this

omit [Runtime] in
/-- **C82.** An Array inside a form behaves like a List (C25): an operation that both have leaves the same members in both. -/
theorem C82_array {V E : Type} (c : MemberClass V E) (st : Slots E) (op : SeqOp V E κ) (lop : ListOp V E κ) (h : listOpOf op = some lop) :
    seqStep c (members st) op = members (listStep c st lop) := by
  cases op with
  | setItem i a => cases h
  | append a =>
    cases h
    simp only [seqStep, listStep, seqAppend, listAppend]
    cases asElement c a <;> simp [members, newSlot]
  | extend it =>
    cases h
    obtain ⟨h1, h2⟩ := extendLoop_like_list c it.items st
    simp only [seqStep, listStep, seqExtend, listExtend]
    cases hl : listExtendLoop c st it.items with
    | mk st1 r1 =>
      cases hs : seqExtendLoop c (members st) it.items with
      | mk st2 r2 =>
        rw [hl, hs] at h1 h2
        simp only at h1 h2
        subst h1; subst h2
        cases r1 with
        | error er => rfl
        | ok u => cases it.fails <;> rfl
  | insert i a =>
    cases h
    simp only [seqStep, listStep, seqInsert, listInsert]
    cases asElement c a with
    | error er => rfl
    | ok e => simp [members_renumber, members_pyInsert, newSlot]
  | setSlice a b s it =>
    cases h
    simp only [seqStep, listStep, seqSetSlice, listSetSlice]
    cases iterElements c it with
    | error er => rfl
    | ok es =>
      have hm : members (es.map (newSlot st)) = es := by simp [members, newSlot, Function.comp_def]
      have hk := members_pySetSlice st a b s (es.map (newSlot st))
      rw [hm] at hk
      simp only
      rw [← hk]
      cases pySetSlice st a b s (es.map (newSlot st)) with
      | error er => rfl
      | ok st' => simp [Except.map, members_renumber]
  | remove a =>
    cases h
    simp only [seqStep, listStep, seqRemove, listRemove]
    cases asElement c a with
    | error er => rfl
    | ok e =>
      have hk := members_pyRemove (fun m => c.eq m e) st
      simp only
      rw [← hk]
      cases pyRemove (fun s => c.eq s.elem e) st with
      | none => rfl
      | some st' => simp [members_renumber]
  | delItem i =>
    cases h
    simp only [seqStep, listStep, listDelItem, length_members]
    cases pyIndex st.length i with
    | none => rfl
    | some j => simp [members_renumber, members_eraseIdx]
  | pop i =>
    cases h
    simp only [seqStep, listStep, listPop, length_members]
    cases hi : pyIndex st.length i with
    | none => rfl
    | some j =>
      simp only
      cases hj : st[j]? with
      | none =>
        have : st.length ≤ j := by simpa using hj
        simp only
        rw [List.eraseIdx_of_length_le (by rw [length_members]; exact this)]
      | some sl => simp [members_renumber, members_eraseIdx]
  | delSlice a b s =>
    cases h
    obtain ⟨h1, h2⟩ := C25_delslice st a b s
    simp only [seqStep, listStep]
    cases hd : pyDelSlice (members st) a b s with
    | error er => rw [h2 er hd]
    | ok ms => rw [(h1 ms hd).1]
  | reverse =>
    cases h
    simp only [seqStep, listStep, C25_reverse]
  | sort r =>
    cases r with
    | done lt key rev =>
      cases h
      simp only [seqStep, listStep, C25_sort]
    | keyFails er => cases h; rfl
    | compareFails er left => cases h

theorem mapStep_kidsOk (o : Objects) {mode : DictMode} {po : Policy} {fs : List Schema} (hn : (fs.map Schema.name).Nodup) {ks : List Elem}
    (hc : ConformsAll mode fs ks) (op : MapOp (Option PStr) PyVal Elem)
    (hp : ∀ p ∈ mapPuts op, ∀ f ∈ fs, f.name = p.1 → o.isInstance f p.2 = true → Conforms f p.2) (hf : ∀ eff, op ≠ .setFlat eff) :
    KidsOk (KidOf fs) (mapStep (mapClassOf o mode po fs) (dictOfKids fs ks) op) := by
  refine kidsOk_step (fieldsClosed_of o hn) op ?_ hf _ (fun k e h => dictOfKids_mem hc h)
  intro p hpm f hff hname hi
  obtain ⟨s, hs, rfl⟩ := List.mem_map.1 hff
  exact ⟨s, hs, hname, hp p hpm s hs hname hi⟩

omit [Runtime] in
theorem dictOfKids_kidsOfDict {d : PyDict (Option PStr) Elem} (k : Option PStr) (hp : ∀ e, dictGet d k = some e → e.present = true) :
    ∀ (fs : List Schema), (fs.map Schema.name).Nodup → dictGet (dictOfKids fs (kidsOfDict fs d)) k = if k ∈ fs.map Schema.name then dictGet d k else none
  | [], _ => by simp [kidsOfDict, dictOfKids, dictGet]
  | f :: fs, hn => by
    rw [List.map_cons, List.nodup_cons] at hn
    have hrec := dictOfKids_kidsOfDict k hp fs hn.2
    simp only [kidsOfDict] at hrec
    simp only [kidsOfDict, List.map_cons, dictOfKids]
    by_cases hk : f.name = k
    · subst hk
      cases hd : dictGet d f.name with
      | none =>
        rw [if_neg hn.1] at hrec
        simp [Elem.present, hrec, dictGet]
      | some e =>
        simp [hp e hd, dictGet]
    · have hk' : ¬ k = f.name := fun h => hk h.symm
      split
      · simp only [dictGet, if_neg hk, List.mem_cons, hk', false_or]
        exact hrec
      · simp only [List.mem_cons, hk', false_or]
        exact hrec

/-- **C82.** An operation on a Dict of a form leaves at every key the child that it leaves in the Dict as a Python dict (C28, C29, C81). -/
theorem C82_dict (o : Objects) (sep : PStr) (h : Hdr) (mode : DictMode) (po : Policy) (fs : List Schema) (hn : NamedFields (.dict h mode po fs))
    (n : Option PStr) (ks : List Elem) (hc : Conforms (.dict h mode po fs) (.dict n ks)) (op : MapOp (Option PStr) PyVal Elem)
    (hf : Fits (κ := κ) o (.dict h mode po fs) (.map op)) :
    ∃ ks', editHere (κ := κ) o sep (.dict h mode po fs) (.dict n ks) (.map op) = .dict n ks' ∧
      ∀ k, dictGet (dictOfKids fs ks') k = dictGet (mapStep (mapClassOf o mode po fs) (dictOfKids fs ks) op) k := by
  refine ⟨_, rfl, ?_⟩
  rw [NamedFields] at hn
  rw [Conforms] at hc
  have hok := mapStep_kidsOk (po := po) o hn.2.1 hc.2 op hf.1 hf.2
  intro k
  rw [dictOfKids_kidsOfDict k ?_ fs hn.2.1]
  · split
    · rfl
    · rename_i hk
      cases hd : dictGet (mapStep (mapClassOf o mode po fs) (dictOfKids fs ks) op) k with
      | none => rfl
      | some e =>
        obtain ⟨f, hfm, hname, _⟩ := hok _ _ (mem_of_dictGet hd)
        exact absurd (List.mem_map.2 ⟨f, hfm, hname⟩) hk
  · intro e he
    obtain ⟨f, _, _, hcf⟩ := hok _ _ (mem_of_dictGet he)
    exact conforms_present hcf

omit [Runtime] in
theorem no_none {fs : List Schema} (h : ∀ f ∈ fs, f.name ≠ none) : none ∉ fs.map Schema.name := by
  intro hm
  obtain ⟨f, hf, hn⟩ := List.mem_map.1 hm
  exact h f hf hn

/-- **C82.** `set` on a Dict of a form is `set` on the Dict as a mapping (C28, C29): the same children and the same result or exception. -/
theorem C82_dict_set (o : Objects) (h : Hdr) (mode : DictMode) (po : Policy) (fs : List Schema) (hn : NamedFields (.dict h mode po fs))
    (n : Option PStr) (ks : List Elem) (hc : Conforms (.dict h mode po fs) (.dict n ks)) (v : PyVal) :
    setRun (.dict h mode po fs) (.dict n ks) v =
      (.dict n (kidsOfDict fs (mapSet (mapClassOf o mode po fs) (dictOfKids fs ks) (pairsOf v) (mapPolicyOf po)).1),
       (mapSet (mapClassOf o mode po fs) (dictOfKids fs ks) (pairsOf v) (mapPolicyOf po)).2) := by
  rw [NamedFields] at hn
  exact setRun_mapSet o hn.2.1 (no_none hn.1) hc v

/-- **C82.** `set_default` on a Dict of a form, if the Dict has no default of its own, likewise. -/
theorem C82_dict_default (o : Objects) (h : Hdr) (hd : h.dflt = .none) (mode : DictMode) (po : Policy) (fs : List Schema)
    (hn : NamedFields (.dict h mode po fs)) (n : Option PStr) (ks : List Elem) (hc : Conforms (.dict h mode po fs) (.dict n ks)) :
    setDefaultRun (.dict h mode po fs) (.dict n ks) =
      (.dict n (kidsOfDict fs (mapSetDefault (mapClassOf o mode po fs) (dictOfKids fs ks)).1),
       (mapSetDefault (mapClassOf o mode po fs) (dictOfKids fs ks)).2) := by
  rw [NamedFields] at hn
  exact setDefaultRun_mapSetDefault o hd hn.2.1 hc

/-- **C82.** `set_flat` on a Dict of a form likewise, each field getting the pairs that concern it. -/
theorem C82_dict_flat (o : Objects) (sep : PStr) (h : Hdr) (mode : DictMode) (po : Policy) (fs : List Schema) (hn : NamedFields (.dict h mode po fs))
    (n : Option PStr) (ks : List Elem) (hc : Conforms (.dict h mode po fs) (.dict n ks)) (ps poss : List FPair)
    (hposs : dictPossibles sep h.name ps = .ok poss) :
    setFlatRun sep (.dict h mode po fs) (.dict n ks) ps =
      (.dict n (kidsOfDict fs (mapSetFlat (mapClassOf o mode po fs) (dictOfKids fs ks) (flatEffect sep fs poss)).1),
       (mapSetFlat (mapClassOf o mode po fs) (dictOfKids fs ks) (flatEffect sep fs poss)).2) := by
  rw [NamedFields] at hn
  exact setFlatRun_mapSetFlat o sep hn.2.1 hc ps poss hposs

/-- **C82.** `set` on a List of a form is `set` on the List as a list of slots (C26), whatever it held before. -/
theorem C82_list_set (o : Objects) (h : Hdr) (prune : Bool) (max : Nat) (m : Schema) (n : Option PStr) (ks : List Elem)
    (hc : Conforms (.list h prune max m) (.list n ks)) (st : Slots Elem) (v : PyVal) :
    setRun (.list h prune max m) (.list n ks) v =
      (.list n (members (listSet (memberClass o m) st (iterOf v)).1), (listSet (memberClass o m) st (iterOf v)).2) := by
  rw [Conforms] at hc
  simp only [setRun, seqSetRun_list o m st v, hc.1]

/-- **C82.** … and on an Array as on a sequence. -/
theorem C82_array_set (o : Objects) (h : Hdr) (prune : Bool) (m : Schema) (n : Option PStr) (ks : List Elem)
    (hc : Conforms (.array h prune m) (.array n ks)) (v : PyVal) :
    setRun (.array h prune m) (.array n ks) v =
      (.array n (seqSet (memberClass o m) ks (iterOf v)).1, (seqSet (memberClass o m) ks (iterOf v)).2) := by
  rw [Conforms] at hc
  simp only [setRun, seqSetRun_seq o m ks v, hc.1]

/-- **C82.** After any such calls the form still goes through `flatten` and `from_flat` and comes back (C09). -/
theorem C82_round_trip (o : Objects) {sep : PStr} (hs : GoodSep sep) (s : Schema) (hn : NamedFields s) (hk : Keyed s) (hw : WellNamed sep s)
    (cs : List (List Nat × EditOp κ)) (hf : ∀ c ∈ cs, FitsAt o s c) (hcar : Carried false s (editRun o sep s (fresh s) cs)) :
    fromFlat sep s (flatten sep (editRun o sep s (fresh s) cs)) = .ok (restored false s (editRun o sep s (fresh s) cs)) :=
  C09_roundtrip hs s _ hk hw (editRun_conforms o sep s hn cs hf _ (fresh_conforms s)) hcar

end

/-! ### Examples -/
section
attribute [local instance] Runtime.ascii

/-- an order: a title, lines with an article and notes, and a SparseDict of extras of which `x` is required -/
def orderForm [Runtime] : Schema :=
  .dict ⟨some ['o'], true, .none⟩ .full .subset
    [.scalar ⟨some ['t'], true, .none⟩ (stringType true),
     .list ⟨some ['l'], true, .none⟩ true 10 (.dict ⟨.none, true, .none⟩ .full .subset
       [.scalar ⟨some ['a'], true, .none⟩ (stringType true), .array ⟨some ['n'], true, .none⟩ true (.scalar ⟨some ['n'], true, .none⟩ (stringType true))]),
     .dict ⟨some ['e'], true, .none⟩ .sparseRequired .subset
       [.scalar ⟨some ['x'], false, .none⟩ (stringType true), .scalar ⟨some ['y'], true, .none⟩ (stringType true)]]

/-- everything is an instance, texts are their own values -/
def exObjects : Objects where
  isInstance _ _ := true
  asValue e := .str e.state.u
  isEmpty _ e := e.state.u.isEmpty
  repr t := t

/-- two lines are appended, one gets an article and two notes, an extra is added, then the required one is to go (which raises), an unknown
key is used (which raises), the lines are turned around, and the title is assigned to -/
def orderCalls : List (List Nat × EditOp Nat) :=
  [([1], .list (.append (.val (.dict [])))), ([1], .list (.append (.val (.dict [(['a'], .str ['p'])])))),
   ([1, 0, 0], .fill (.set (.str ['q']))), ([1, 0, 1], .seq (.append (.val (.str ['1'])))), ([1, 0, 1], .seq (.append (.val (.str ['2'])))),
   ([2], .map (.setItem (some ['y']) (.val (.str ['z'])))), ([2], .map (.delItem (some ['x']))), ([2], .map (.setItem (some ['w']) (.val (.str ['z'])))),
   ([1], .list .reverse), ([0], .assign ⟨.str ['T'], ['T'], .none⟩), ([1, 1, 1], .seq (.delItem 0)), ([1, 5], .fill .setDefault)]

example : let e := editRun exObjects ['_'] orderForm (fresh orderForm) orderCalls
    [[0], [1, 0, 0], [1, 0, 1, 0], [1, 1, 0], [1, 1, 1, 0], [1, 1, 1, 1], [2, 0], [2, 1]].map (fun q => (elemAt e q).map fun x => x.state.u) =
      [some ['T'], some ['p'], none, some ['q'], some ['2'], none, some [], some ['z']] := by decide +kernel

theorem orderForm_named : NamedFields orderForm := by
  simp [orderForm, NamedFields, NamedFieldsAll, Schema.name, Schema.hdr]

/-- the hypotheses of C82_well_formed and C82_independent: the calls fit, and those not on the lines are apart from the lines -/
theorem orderCalls_fit : ∀ c ∈ orderCalls, FitsAt exObjects orderForm c := by
  intro c hc
  simp only [orderCalls, List.mem_cons, List.not_mem_nil, or_false] at hc
  rcases hc with rfl | rfl | rfl | rfl | rfl | rfl | rfl | rfl | rfl | rfl | rfl | rfl <;>
    refine ⟨trivial, fun s' hs' => ?_⟩ <;> simp [orderForm, classAt] at hs' <;> subst hs' <;>
    simp [Fits, listPuts, seqPuts, mapPuts, argElem]

example : Conforms orderForm (editRun exObjects ['_'] orderForm (fresh orderForm) orderCalls) :=
  C82_well_formed _ _ _ orderForm_named _ orderCalls_fit _ (fresh_conforms _)

example : ∀ c ∈ orderCalls, [1] <+: c.1 ∨ Apart c.1 [1] := by
  unfold Apart; decide

/-- what the lines are after their calls alone -/
example : (callsIn [1] orderCalls).map Prod.fst = [[], [], [0, 0], [0, 1], [0, 1], [], [1, 1], [5]] := by decide

/-- the article of the first line and the extras are apart -/
example : Apart [1, 0, 0] [2, 0] ∧ elemAt (fresh orderForm) [2, 0] ≠ none ∧ elemAt (fresh orderForm) [2, 1] = none :=
  ⟨by unfold Apart; decide, by simp [orderForm, fresh, freshFields, elemAt, Elem.kids, autoField, Schema.hdr], by
    simp [orderForm, fresh, freshFields, elemAt, Elem.kids, autoField, Schema.hdr]⟩

/-- C82_dict_set and its relatives: the extras of the form, set from a dict with an unknown key, and from one that has all fields -/
example : let fs : List Schema := [.scalar ⟨some ['x'], false, .none⟩ (stringType true), .scalar ⟨some ['y'], true, .none⟩ (stringType true)]
    let c := mapClassOf exObjects .sparseRequired .subset fs
    let r1 := mapSet c (mapNew c) (pairsOf (.dict [(['y'], .str ['1']), (['w'], .str ['2']), (['x'], .str ['3'])])) .subset
    let r2 := mapSet c (mapNew c) (pairsOf (.dict [(['y'], .str ['1']), (['x'], .str ['3'])])) .subset
    r1.1.map (fun p => (p.1, p.2.state.u)) = [(some ['x'], []), (some ['y'], ['1'])] ∧ r1.2.toOption = none ∧
    r2.1.map (fun p => (p.1, p.2.state.u)) = [(some ['x'], ['3']), (some ['y'], ['1'])] ∧ r2.2.toOption = some true := by decide +kernel

/-- what C82_array is about: taking the first member out of an Array and out of a List -/
example : listOpOf (SeqOp.pop 0 : SeqOp PyVal Elem Nat) = some (.pop 0) ∧
    (seqStep (memberClass exObjects (.scalar ⟨some ['n'], true, .none⟩ (stringType true))) [.scalar .none ⟨.str ['1'], ['1'], .none⟩, .scalar .none ⟨.str ['2'], ['2'], .none⟩]
      (SeqOp.pop (κ := Nat) 0)).map (fun x => x.state.u) = [['2']] := ⟨rfl, by decide +kernel⟩

end

end Flatland
