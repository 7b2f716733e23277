import Verif.Proofs.SubmittedRows
import Verif.Props.SubmittedDates
import Verif.Props.Choices
/-! # C97: when a submitted form with dates and joined strings in rows is valid -/
namespace Flatland
open Flatland.Spec

section
variable [Runtime]

/-- A scalar in a row is set from the first value submitted for it. -/
theorem C97_scalar {sep : PStr} (hs : GoodSep sep) (hnl : sep ≠ ['\n']) (s : RSchema) (ps : List (PStr × PStr)) (e : RElem) (hset : rFromFlat sep s ps = .ok e)
    {way : List Step} {h : Hdr} {t : ScalarType} {ps' : List FPair} {pos : Pos} (hp : RPartOf sep s (texts ps) way (.plain (.scalar h t)) ps' pos) :
    ∃ v st, GivenTo h ps' v ∧ At (nodesOf e) pos (.scalar h.name st) ∧
      st.value = (afterSubmission t .fresh v).value ∧ st.u = (afterSubmission t .fresh v).u := by
  obtain ⟨e0, hfill, rfl⟩ := rFromFlat_lifted hset
  obtain ⟨k, hf, hat⟩ := rPart_filled hs hnl hp e0 hfill
  obtain ⟨st', rfl, e1, e2⟩ := filled_scalar hf
  exact ⟨_, st', given_first h ps', ⟨by rw [hat]; simp [lift, nodesOf, plainNodes], by simp⟩, e1, e2⟩

/-- A JoinedString in a row has the members made of the first value submitted for it, and their joined texts. -/
theorem C97_joined {sep : PStr} (hs : GoodSep sep) (hnl : sep ≠ ['\n']) (s : RSchema) (ps : List (PStr × PStr)) (e : RElem) (hset : rFromFlat sep s ps = .ok e)
    {way : List Step} {h : Hdr} {c : JoinedCfg} {m : Option PStr} {ps' : List FPair} {pos : Pos} (hp : RPartOf sep s (texts ps) way (.joined h c m) ps' pos) :
    ∃ v, GivenTo h ps' v ∧
      At (nodesOf e) pos (.joined h.name (pyJoin c.separator ((membersAfter c v).map ScalarState.u)) ((membersAfter c v).map (.scalar m))) := by
  obtain ⟨e0, hfill, rfl⟩ := rFromFlat_lifted hset
  obtain ⟨k, hf, hat⟩ := rPart_filled hs hnl hp e0 hfill
  rw [filled_joined hf] at hat
  exact ⟨_, given_first h ps', ⟨by rw [hat]; simp [nodesOf, joinedText], by simp⟩⟩

/-- The parts of a date in a row are set from the first values submitted for them, and the date shows the date they make. -/
theorem C97_date {sep : PStr} (hs : GoodSep sep) (hnl : sep ≠ ['\n']) (s : RSchema) (ps : List (PStr × PStr)) (e : RElem) (hset : rFromFlat sep s ps = .ok e)
    {way : List Step} {h hy hm hd : Hdr} {wy wm wd : Nat} {ps' : List FPair} {pos : Pos}
    (hp : RPartOf sep s (texts ps) way (.compound h dateText [.scalar hy (integerType true wy), .scalar hm (integerType true wm), .scalar hd (integerType true wd)]) ps' pos) :
    ∃ vy vm vd a b c u v,
      GivenToPart sep (.compound h dateText [.scalar hy (integerType true wy), .scalar hm (integerType true wm), .scalar hd (integerType true wd)]) 0 hy ps' vy ∧ GivenToPart sep (.compound h dateText [.scalar hy (integerType true wy), .scalar hm (integerType true wm), .scalar hd (integerType true wd)]) 1 hm ps' vm ∧
      GivenToPart sep (.compound h dateText [.scalar hy (integerType true wy), .scalar hm (integerType true wm), .scalar hd (integerType true wd)]) 2 hd ps' vd ∧
      At (nodesOf e) pos (.compound h.name u v [.scalar hy.name a, .scalar hm.name b, .scalar hd.name c]) ∧
      DateShows (afterSubmission (integerType true wy) .fresh vy) (afterSubmission (integerType true wm) .fresh vm)
        (afterSubmission (integerType true wd) .fresh vd) v u ∧
      (a.value = (afterSubmission (integerType true wy) .fresh vy).value ∧ a.u = (afterSubmission (integerType true wy) .fresh vy).u) ∧
      (b.value = (afterSubmission (integerType true wm) .fresh vm).value ∧ b.u = (afterSubmission (integerType true wm) .fresh vm).u) ∧
      c.value = (afterSubmission (integerType true wd) .fresh vd).value ∧ c.u = (afterSubmission (integerType true wd) .fresh vd).u := by
  obtain ⟨e0, hfill, rfl⟩ := rFromFlat_lifted hset
  obtain ⟨k, hf, hat⟩ := rPart_filled hs hnl hp e0 hfill
  obtain ⟨a, b, c, vy, vm, vd, rfl, ⟨a1, a2, a3⟩, ⟨b1, b2, b3⟩, c1, c2, c3⟩ := filled_date hs hnl hf
  refine ⟨vy, vm, vd, a, b, c, dateText [.scalar hy.name a, .scalar hm.name b, .scalar hd.name c],
    dateValueOf [.scalar hy.name a, .scalar hm.name b, .scalar hd.name c], a1, b1, c1,
    ⟨hat.trans (by simp only [lift, nodesOf, plainNodes, plainNodesAll, Elem.kids]), by simp⟩, ?_, ⟨a2, a3⟩, ⟨b2, b3⟩, c2, c3⟩
  rw [← dateShows_congr a2 b2 c2]
  refine date_shows ?_ ?_ ?_
  · rw [a2]; exact part_values _ _
  · rw [b2]; exact part_values _ _
  · rw [c2]; exact part_values _ _

/-- An Array in a row has the choices that the pairs leading to it make, in their order. -/
theorem C97_array {sep : PStr} (hs : GoodSep sep) (hnl : sep ≠ ['\n']) (s : RSchema) (hform : DateRows s) (ps : List (PStr × PStr)) (e : RElem)
    (hset : rFromFlat sep s ps = .ok e) {way : List Step} {h hm : Hdr} {prune : Bool} {t : ScalarType} {ps' : List FPair} {pos : Pos}
    (hp : RPartOf sep s (texts ps) way (.plain (.array h prune (.scalar hm t))) ps' pos) :
    ∃ qs, ps' = texts qs ∧
      At (nodesOf e) pos (.array h.name ((choices sep h prune hm qs).map fun v => .scalar hm.name (afterSubmission t .fresh v))) := by
  obtain ⟨e0, hfill, rfl⟩ := rFromFlat_lifted hset
  obtain ⟨k, hf, hat⟩ := rPart_filled hs hnl hp e0 hfill
  obtain ⟨hr, htx⟩ := dateRows_texts hp hform fun _ _ _ _ => ⟨ps, rfl⟩
  obtain ⟨qs, rfl⟩ := htx _ _ _ rfl
  refine ⟨qs, rfl, ?_, by simp⟩
  have hk : k = choiceArray h hm t (choices sep h prune hm qs) := by
    cases hr with
    | plain hcf =>
    cases hcf with
    | array _ _ _ _ hn hc ht =>
    have hsep : sep ≠ [] := by obtain ⟨c, cs, rfl, _⟩ := hs; simp
    have hsf := C15_array_members sep hsep hnl h prune hm t hn hc ht (fresh (.array h prune (.scalar hm t))) qs
    rw [choice_members] at hsf
    by_cases h0 : texts qs = []
    · have : qs = [] := by simpa [texts] using h0
      rw [hf.1 h0, this]
      rfl
    · have := hf.2 h0
      simp only [plainS] at this
      rw [hsf] at this
      cases this
      rfl
  have hn : ∀ ks : List Elem, plainNodesAll ks = ks.map plainNodes := fun ks => by
    induction ks with
    | nil => rfl
    | cons k ks ih => simp [plainNodesAll, ih]
  rw [hat, hk]
  simp [lift, choiceArray, nodesOf, plainNodes, hn, submittedField]

/-- Nothing else is in the form: every element is a part that the submission makes, or a member of a JoinedString or of an Array that is one. -/
theorem C97_nothing_else {sep : PStr} (hs : GoodSep sep) (hnl : sep ≠ ['\n']) (s : RSchema) (hform : DateRows s) (ps : List (PStr × PStr)) (e : RElem)
    (hset : rFromFlat sep s ps = .ok e) (pos : Pos) (k : NElem) (hk : At (nodesOf e) pos k) :
    (∃ way r ps', RPartOf sep s (texts ps) way r ps' pos ∧ DateRows r) ∨
    (∃ way h c m ps' pos' j, RPartOf sep s (texts ps) way (.joined h c m) ps' pos' ∧ pos = pos' ++ [j]) ∨
    (∃ way h prune hm t ps' pos' j, RPartOf sep s (texts ps) way (.plain (.array h prune (.scalar hm t))) ps' pos' ∧ pos = pos' ++ [j]) := by
  obtain ⟨e0, hfill, rfl⟩ := rFromFlat_lifted hset
  exact node_is_part hs hnl pos s (texts ps) e0 k hform hfill hk

/-- A form of scalars, JoinedStrings, DateYYYYMMDDs and Arrays in Dicts, SparseDicts and Lists, of any nesting, filled from a submission and validated by
tests of the values and texts of fields and dates and the values of Arrays, is valid iff
* every scalar and JoinedString of every row the submission makes is fine with what was submitted for it: blank and optional, or all tests pass – or, if
  there are none, it is not blank; so are the members of JoinedStrings;
* every date is, with the date its three parts make, if they make one;
* every Array is, with the choices submitted for it, and each of these;
* every List that is not optional has a row;
* and SparseDicts that are not optional have a field. -/
theorem C97_valid {sep : PStr} (hs : GoodSep sep) (hnl : sep ≠ ['\n']) (s : RSchema) (hform : DateRows s) (ps : List (PStr × PStr)) (e : RElem)
    (hset : rFromFlat sep s ps = .ok e) (rules : Pos → RichField) (tests : Pos → List (PyVal → PStr → Bool)) (noter : NElem → Pos → Noter)
    (hv : ∀ p, (rules p).validators = (tests p).map fun t => ownRule t noter) (hd : ∀ p, (rules p).descent = [])
    (hc : ∀ way r ps' pos, RPartOf sep s (texts ps) way r ps' pos → MereContainer r → tests pos = [])
    (har : ∀ way h prune hm t qs pos, RPartOf sep s (texts ps) way (.plain (.array h prune (.scalar hm t))) (texts qs) pos →
      ∀ x ∈ tests pos, ∀ v u u', x v u = x v u')
    (hm : ∀ p, ∃ m text, (noter (nodesOf e) p).attr "incorrect".toList = .ok m ∧ ¬ Silent m ∧ expandMessage (noter (nodesOf e) p).env m = .ok text)
    (st : VState Pos (Pos → List PStr)) :
    ∃ r b n, (∀ m, n ≤ m → validateRich (nodesOf e) rules m st = some r) ∧ r.result = .ok b ∧
      (b = true ↔
        (∀ way h t ps' pos v, RPartOf sep s (texts ps) way (.plain (.scalar h t)) ps' pos → GivenTo h ps' v → FineLeaf rules tests pos v (.scalar t)) ∧
        (∀ way h c m ps' pos v, RPartOf sep s (texts ps) way (.joined h c m) ps' pos → GivenTo h ps' v → FineLeaf rules tests pos v (.joined c m)) ∧
        (∀ way h hy hm hd wy wm wd ps' pos vy vm vd,
          let date : RSchema := .compound h dateText [.scalar hy (integerType true wy), .scalar hm (integerType true wm), .scalar hd (integerType true wd)]
          RPartOf sep s (texts ps) way date ps' pos →
          GivenToPart sep date 0 hy ps' vy → GivenToPart sep date 1 hm ps' vm → GivenToPart sep date 2 hd ps' vd →
          FineDate rules tests pos (afterSubmission (integerType true wy) .fresh vy) (afterSubmission (integerType true wm) .fresh vm)
            (afterSubmission (integerType true wd) .fresh vd)) ∧
        (∀ way h prune hm t qs pos, RPartOf sep s (texts ps) way (.plain (.array h prune (.scalar hm t))) (texts qs) pos →
          FineChoices rules tests pos t (choices sep h prune hm qs)) ∧
        (∀ way r ps' pos h prune max m, RPartOf sep s (texts ps) way r ps' pos → outline r = .list h prune max m → (rules pos).optional = false →
          0 < max ∧ ∃ i, RowMade sep (outline r) prune ps' i) ∧
        (∀ way r ps' pos h mode po fs, RPartOf sep s (texts ps) way r ps' pos → MereContainer r → outline r = .dict h mode po fs →
          (rules pos).optional = false → (rules pos).sparse = true → ∃ a j, PartThere sep ps' (outline r) a j)) := by
  obtain ⟨e0, hfill, rfl⟩ := rFromFlat_lifted hset
  have hne : nodesOf (lift s e0) ≠ .absent := fun h => filled_present hfill ((nodesOf_lift_absent s e0).1 h)
  obtain ⟨r, b, n, h1, h2, h3, _⟩ := C93_validate (nodesOf (lift s e0)) hne rules (by
    intro p k hk
    rw [hv, hd]
    exact ⟨own_decides hk (hm p) _, fun _ r hr => absurd hr (by simp)⟩) st
  refine ⟨r, b, n, h1, h2, h3.trans ?_⟩
  have own : ∀ {p k}, At (nodesOf (lift s e0)) p k →
      (Complies (nodesOf (lift s e0)) rules p k ↔ FineField (rules p).optional (NothingIn rules p k) (tests p) (valueN k) (textN k)) :=
    fun hk => complies_own (hv _) (hd _) hk
  -- what is at the place of a part
  have hlist : ∀ way r ps' pos h prune max m, RPartOf sep s (texts ps) way r ps' pos → outline r = .list h prune max m → tests pos = [] ∧ ∃ k,
      At (nodesOf (lift s e0)) pos k ∧ (NothingIn rules pos k ↔ ¬ (0 < max ∧ ∃ i, RowMade sep (outline r) prune ps' i)) := by
    intro way r ps' pos h prune max m hp ho
    have hmc : MereContainer r := by
      cases r with
      | plain x => simp only [outline] at ho; subst ho; trivial
      | list => trivial
      | _ => simp [outline] at ho
    refine ⟨hc way r ps' pos hp hmc, ?_⟩
    obtain ⟨k, hf, hat⟩ := rPart_filled hs hnl hp e0 hfill
    cases r with
    | plain x =>
      simp only [outline] at ho; subst ho
      obtain ⟨ks, rfl, hks⟩ := filled_rows_some hs hnl hf
      refine ⟨_, ⟨hat, by simp [lift, nodesOf, plainNodes]⟩, ?_⟩
      simp only [lift, nodesOf, plainNodes, NothingIn, outline]
      rw [← hks]
      cases ks <;> simp [plainNodesAll]
    | list h' prune' max' m' =>
      have ho' := ho
      simp only [outline, Schema.list.injEq] at ho'
      obtain ⟨rfl, rfl, rfl, _⟩ := ho'
      obtain ⟨ks, rfl, hks⟩ := filled_rows_some hs hnl hf
      refine ⟨_, ⟨hat, by simp [lift, nodesOf]⟩, ?_⟩
      have hr := rowMade_congr (leadsInto_outline' sep (.list h' prune' max' m')) prune' ps'
      rw [hr]
      simp only [lift, nodesOf, NothingIn, Elem.kids]
      rw [show plainS (.list h' prune' max' m') = .list h' prune' max' (plainS m') from rfl, ← hks]
      cases ks <;> simp [nodesOfAll]
    | _ => simp [outline] at ho
  have hdict : ∀ way r ps' pos h mode po fs, RPartOf sep s (texts ps) way r ps' pos → MereContainer r → outline r = .dict h mode po fs → tests pos = [] ∧ ∃ k,
      At (nodesOf (lift s e0)) pos k ∧ (NothingIn rules pos k ↔ (rules pos).sparse = true ∧ ¬ ∃ a j, PartThere sep ps' (outline r) a j) := by
    intro way r ps' pos h mode po fs hp hmc ho
    refine ⟨hc way r ps' pos hp hmc, ?_⟩
    obtain ⟨k, hf, hat⟩ := rPart_filled hs hnl hp e0 hfill
    cases r with
    | plain x =>
      simp only [outline] at ho; subst ho
      obtain ⟨ks, rfl, _, hks⟩ := filled_fields_some hs hnl hf
      refine ⟨_, ⟨hat, by simp [lift, nodesOf, plainNodes]⟩, ?_⟩
      simp only [lift, nodesOf, plainNodes, NothingIn, outline]
      rw [← hks, plainNodesAll_absent]
    | dict h' mode' po' fs' =>
      obtain ⟨ks, rfl, hl, hks⟩ := filled_fields_some hs hnl hf
      refine ⟨_, ⟨hat, by simp [lift, nodesOf]⟩, ?_⟩
      simp only [partThere_outline, lift, nodesOf, NothingIn, Elem.kids]
      rw [show plainS (.dict h' mode' po' fs') = .dict h' mode' po' (plainAll fs') from rfl, ← hks, nodesOfAll_absent]
      rw [hl, plainAll_eq, List.length_map]
    | compound => exact hmc.elim
    | _ => simp [outline] at ho
  have member : ∀ q h t m (ms : List ScalarState) (j : Nat), At (nodesOf (lift s e0)) q (.joined h t (ms.map (.scalar m))) →
      nElemAt (nodesOf (lift s e0)) (q ++ [j]) = (ms[j]?).map (NElem.scalar m) := by
    intro q h t m ms j hq
    rw [nElemAt_append, hq.1]
    simp only [Option.bind_some, nElemAt, NElem.kids, List.getElem?_map]
    cases ms[j]? <;> rfl
  have chosen : ∀ q h hm t (cs : List (Option PStr)) (j : Nat),
      At (nodesOf (lift s e0)) q (.array h (cs.map fun v => .scalar hm (afterSubmission t .fresh v))) →
      nElemAt (nodesOf (lift s e0)) (q ++ [j]) = (cs[j]?).map fun v => .scalar hm (afterSubmission t .fresh v) := by
    intro q h hm t cs j hq
    rw [nElemAt_append, hq.1]
    simp only [Option.bind_some, nElemAt, NElem.kids, List.getElem?_map]
    cases cs[j]? <;> rfl
  constructor
  · intro hall
    refine ⟨?_, ?_, ?_, ?_, ?_, ?_⟩
    · intro way h t ps' pos v hp hg
      obtain ⟨w, st', hw, hk, e1, e2⟩ := C97_scalar hs hnl s ps _ hset hp
      cases firstValue_unique hg hw
      have hcc := (own hk).1 (hall pos _ hk)
      simp only [NothingIn, valueN, textN, e1, e2] at hcc
      exact hcc
    · intro way h c m ps' pos v hp hg
      obtain ⟨w, hw, hk⟩ := C97_joined hs hnl s ps _ hset hp
      cases firstValue_unique hg hw
      have hcc := (own hk).1 (hall pos _ hk)
      refine ⟨by simpa only [NothingIn, valueN, textN, List.map_eq_nil_iff] using hcc, ?_⟩
      intro j st' hj
      have hkm : At (nodesOf (lift s e0)) (pos ++ [j]) (.scalar m st') := ⟨by rw [member pos _ _ m _ j hk, hj]; rfl, by simp⟩
      exact (own hkm).1 (hall _ _ hkm)
    · intro way h hy hm hd wy wm wd ps' pos vy vm vd date hp gy gm gd
      obtain ⟨vy', vm', vd', a, b, c, u, v, gy', gm', gd', hk, hsh, ha, hb, hc'⟩ := C97_date hs hnl s ps _ hset hp
      cases firstValue_unique gy gy'
      cases firstValue_unique gm gm'
      cases firstValue_unique gd gd'
      have hcc := (own hk).1 (hall pos _ hk)
      refine ⟨v, u, hsh, ?_⟩
      simpa only [NothingIn, NothingInAll, valueN, textN, and_true, ha.1, ha.2, hb.1, hb.2, hc'.1, hc'.2, BlankField, Nat.zero_add, Nat.reduceAdd] using hcc
    · intro way h prune hm t qs pos hp
      obtain ⟨qs', hq, hk⟩ := C97_array hs hnl s hform ps _ hset hp
      obtain rfl := texts_inj hq
      have hcc := (own hk).1 (hall pos _ hk)
      refine ⟨fun text => ?_, fun j v hj => ?_⟩
      · simp only [NothingIn, valueN, textN, List.map_eq_nil_iff, List.map_map] at hcc
        rcases hcc with hcc | ⟨hcc, hcb⟩
        · exact .inl hcc
        · exact .inr ⟨fun x hx => (har way h prune hm t qs pos hp x hx _ _ _).trans (hcc x hx), hcb⟩
      · have hkm : At (nodesOf (lift s e0)) (pos ++ [j]) (.scalar hm.name (afterSubmission t .fresh v)) :=
          ⟨by rw [chosen pos _ hm.name t _ j hk, hj]; rfl, by simp⟩
        exact (own hkm).1 (hall _ _ hkm)
    · intro way r ps' pos h prune max m hp ho hopt
      obtain ⟨ht, k, hk, hb⟩ := hlist way r ps' pos h prune max m hp ho
      rcases (own hk).1 (hall pos _ hk) with hx | hx
      · rw [hopt] at hx; exact absurd hx.1 (by simp)
      · exact Classical.not_not.1 fun hno => hx.2 ht (hb.2 hno)
    · intro way r ps' pos h mode po fs hp hmc ho hopt hsp
      obtain ⟨ht, k, hk, hb⟩ := hdict way r ps' pos h mode po fs hp hmc ho
      rcases (own hk).1 (hall pos _ hk) with hx | hx
      · rw [hopt] at hx; exact absurd hx.1 (by simp)
      · exact Classical.not_not.1 fun hno => hx.2 ht (hb.2 ⟨hsp, hno⟩)
  · rintro ⟨hfs, hjs, hds, has, hls, hms⟩ pos k hk
    have cont : ∀ k', At (nodesOf (lift s e0)) pos k' → tests pos = [] → ((rules pos).optional = false → ¬ NothingIn rules pos k') →
        Complies (nodesOf (lift s e0)) rules pos k := by
      intro k' hk' ht hb
      obtain rfl := Option.some.inj (hk.1.symm.trans hk'.1)
      rw [own hk]
      by_cases hn : NothingIn rules pos k
      · refine .inl ⟨?_, hn⟩
        cases ho : (rules pos).optional
        · exact absurd hn (hb ho)
        · rfl
      · exact .inr ⟨by simp [ht], fun _ => hn⟩
    rcases node_is_part hs hnl pos s (texts ps) e0 k hform hfill hk with ⟨way, r, ps', hp, hr⟩ |
      ⟨way, h, c, m, ps', q, j, hp, rfl⟩ | ⟨way, h, prune, hm, t, ps', q, j, hp, rfl⟩
    · have dictCase : ∀ h mode po fs, MereContainer r → outline r = .dict h mode po fs → Complies (nodesOf (lift s e0)) rules pos k := by
        intro h mode po fs hmc ho
        obtain ⟨ht, k', hk', hb⟩ := hdict way r ps' pos h mode po fs hp hmc ho
        refine cont k' hk' ht fun hopt hn => ?_
        obtain ⟨hsp, hno⟩ := hb.1 hn
        exact hno (hms way r ps' pos h mode po fs hp hmc ho hopt hsp)
      have listCase : ∀ h prune max m, outline r = .list h prune max m → Complies (nodesOf (lift s e0)) rules pos k := by
        intro h prune max m ho
        obtain ⟨ht, k', hk', hb⟩ := hlist way r ps' pos h prune max m hp ho
        exact cont k' hk' ht fun hopt hn => hb.1 hn (hls way r ps' pos h prune max m hp ho hopt)
      cases hr with
      | plain hrow =>
        cases hrow with
        | scalar h t =>
          obtain ⟨v, st', hg, hk', e1, e2⟩ := C97_scalar hs hnl s ps _ hset hp
          obtain rfl := Option.some.inj (hk.1.symm.trans hk'.1)
          rw [own hk]
          have := hfs way h t ps' pos v hp hg
          simp only [NothingIn, valueN, textN, e1, e2]
          exact this
        | array h prune hm t =>
          obtain ⟨qs, rfl, hk'⟩ := C97_array hs hnl s hform ps _ hset hp
          obtain rfl := Option.some.inj (hk.1.symm.trans hk'.1)
          rw [own hk]
          have := (has way h prune hm t qs pos hp).1 []
          simp only [NothingIn, valueN, textN, List.map_eq_nil_iff, List.map_map]
          exact this
        | dict h mode po fs => exact dictCase h mode po fs trivial rfl
        | list h prune max m => exact listCase h prune max m rfl
      | @joined h c m =>
        obtain ⟨v, hg, hk'⟩ := C97_joined hs hnl s ps _ hset hp
        obtain rfl := Option.some.inj (hk.1.symm.trans hk'.1)
        rw [own hk]
        have := hjs way h c m ps' pos v hp hg
        simpa only [NothingIn, valueN, textN, List.map_eq_nil_iff] using this.1
      | @date h hy hm hd wy wm wd =>
        obtain ⟨vy, vm, vd, a, b, c, u, v, gy, gm, gd, hk', hsh, ha, hb, hc'⟩ := C97_date hs hnl s ps _ hset hp
        obtain rfl := Option.some.inj (hk.1.symm.trans hk'.1)
        rw [own hk]
        obtain ⟨v', u', hsh', hfine⟩ := hds way h hy hm hd wy wm wd ps' pos vy vm vd hp gy gm gd
        obtain ⟨rfl, rfl⟩ := dateShows_unique hsh hsh'
        simpa only [NothingIn, NothingInAll, valueN, textN, and_true, ha.1, ha.2, hb.1, hb.2, hc'.1, hc'.2, BlankField, Nat.zero_add, Nat.reduceAdd] using hfine
      | dict => exact dictCase _ _ _ _ trivial rfl
      | list => exact listCase _ _ _ _ rfl
    · obtain ⟨v, hg, hk'⟩ := C97_joined hs hnl s ps _ hset hp
      have hkj := hk.1
      rw [member q _ _ m _ j hk', Option.map_eq_some_iff] at hkj
      obtain ⟨st', hj, rfl⟩ := hkj
      rw [own hk]
      exact (hjs way h c m ps' q v hp hg).2 j st' hj
    · obtain ⟨qs, rfl, hk'⟩ := C97_array hs hnl s hform ps _ hset hp
      have hkj := hk.1
      rw [chosen q _ hm.name t _ j hk', Option.map_eq_some_iff] at hkj
      obtain ⟨v, hj, rfl⟩ := hkj
      rw [own hk]
      exact (has way h prune hm t qs q hp).2 j v hj

/-- A date in a row with the test that it has a value, and parts without tests that are as optional as it is, is valid with its parts iff the three texts
submitted are numerals of a real date, or it is optional and nothing, or only empty texts, was submitted for the parts. -/
theorem C97_real_date (rules : Pos → RichField) (tests : Pos → List (PyVal → PStr → Bool)) (p : Pos) (wy wm wd : Nat) (vy vm vd : Option PStr)
    (ht : tests p = [fun v _ => !isNone v])
    (hp : ∀ i < 3, tests (p ++ [i]) = [] ∧ (rules (p ++ [i])).optional = (rules p).optional ∧ (rules (p ++ [i])).textual = false) :
    (FineDate rules tests p (afterSubmission (integerType true wy) .fresh vy) (afterSubmission (integerType true wm) .fresh vm)
        (afterSubmission (integerType true wd) .fresh vd) ∧
      FineLeaf rules tests (p ++ [0]) vy (.scalar (integerType true wy)) ∧ FineLeaf rules tests (p ++ [1]) vm (.scalar (integerType true wm)) ∧
      FineLeaf rules tests (p ++ [2]) vd (.scalar (integerType true wd))) ↔
    (∃ Y M D : Nat, RealDate Y M D ∧ (∃ t, vy = some t ∧ IntText t Y) ∧ (∃ t, vm = some t ∧ IntText t M) ∧ ∃ t, vd = some t ∧ IntText t D) ∨
    ((rules p).optional = true ∧ ∀ v ∈ [vy, vm, vd], v = none ∨ v = some []) := by
  obtain ⟨y1, y2, y3⟩ := hp 0 (by omega)
  obtain ⟨m1, m2, m3⟩ := hp 1 (by omega)
  obtain ⟨d1, d2, d3⟩ := hp 2 (by omega)
  have blank : ∀ w v, ((afterSubmission (integerType true w) .fresh v).u = [] ∧ (afterSubmission (integerType true w) .fresh v).value = .none) ↔
      (v = none ∨ v = some []) := fun w v => part_blank _ _
  have num : ∀ w v (i : Int), (afterSubmission (integerType true w) .fresh v).value = .int i ↔ ∃ t, v = some t ∧ IntText t i :=
    fun w v i => part_int _ _ i
  simp only [FineLeaf, FineDate, FineScalar, FineField, BlankField, y1, y2, y3, m1, m2, m3, d1, d2, d3, ht, Bool.false_eq_true, if_false, List.not_mem_nil,
    false_implies, implies_true, true_and, true_implies, forall_eq, List.cons_ne_nil, and_true, blank, List.mem_cons, forall_eq_or_imp, or_false]
  simp only [← num wy vy, ← num wm vm, ← num wd vd]
  constructor
  · rintro ⟨⟨v, u, hsh, hf⟩, hy, hm, hd⟩
    rcases hsh with ⟨Y, M, D, hr, h1, h2, h3, rfl, rfl⟩ | ⟨hno, rfl, rfl⟩
    · exact .inl ⟨Y, M, D, hr, h1, h2, h3⟩
    · rcases hf with ⟨ho, hb⟩ | hf
      · exact .inr ⟨ho, hb⟩
      · simp [isNone] at hf
  · rintro (⟨Y, M, D, hr, h1, h2, h3⟩ | ⟨ho, hb⟩)
    · have nb : ∀ w v (i : Int), (afterSubmission (integerType true w) .fresh v).value = .int i → ¬ (v = none ∨ v = some []) := by
        intro w v i hx hb
        have := ((blank w v).2 hb).2
        rw [hx] at this
        cases this
      exact ⟨⟨_, _, .inl ⟨Y, M, D, hr, h1, h2, h3, rfl, rfl⟩, .inr (by simp [isNone])⟩, .inr (nb _ _ _ h1), .inr (nb _ _ _ h2), .inr (nb _ _ _ h3)⟩
    · refine ⟨⟨.none, [], .inr ⟨?_, rfl, rfl⟩, .inl ⟨ho, hb⟩⟩, .inl ⟨ho, hb.1⟩, .inl ⟨ho, hb.2.1⟩, .inl ⟨ho, hb.2.2⟩⟩
      rintro ⟨Y, M, D, _, h1, _, _⟩
      have := ((blank wy vy).2 hb.1).2
      rw [h1] at this
      cases this

end

section examples
attribute [local instance] Runtime.ascii

/-- a List of visits – a date and tags each –, without empty rows, and a SparseDict with notes and any of some colours -/
def exVisits : RSchema :=
  .dict ⟨none, false, some .none⟩ .full .subset [
    .list ⟨some ['v'], false, some .none⟩ true 5 (.dict ⟨none, false, some .none⟩ .full .subset [
      .compound ⟨some ['d'], false, some .none⟩ dateText [.scalar ⟨some ['y'], false, some .none⟩ (integerType true 4),
        .scalar ⟨some ['m'], false, some .none⟩ (integerType true 2), .scalar ⟨some ['a'], false, some .none⟩ (integerType true 2)],
      .joined ⟨some ['t'], false, some .none⟩ { member := stringType true } none]),
    .dict ⟨some ['n'], false, some .none⟩ .sparse .subset [.joined ⟨some ['w'], false, some .none⟩ { member := stringType true } none,
      .plain (.array ⟨some ['c'], false, some .none⟩ true (.scalar ⟨none, false, some .none⟩ (stringType true)))]]

theorem exVisits_rows : DateRows exVisits := by
  refine .dict ?_
  intro f hf
  simp only [List.mem_cons, List.not_mem_nil, or_false] at hf
  rcases hf with rfl | rfl
  · refine .list (.dict ?_) (by simp)
    intro f hf
    simp only [List.mem_cons, List.not_mem_nil, or_false] at hf
    rcases hf with rfl | rfl
    · exact .date
    · exact .joined
  · refine .dict ?_
    intro f hf
    simp only [List.mem_cons, List.not_mem_nil, or_false] at hf
    rcases hf with rfl | rfl
    · exact .joined
    · exact .plain (.array _ _ _ _ (by intro t h; cases h; decide) (by intro t h; cases h) fun st x => builtin_text_ok (.string true) st x)

/-- two members at least -/
def atLeastTwo : PyVal → Bool
  | .list xs => decide (2 ≤ xs.length)
  | _ => false

/-- dates have to have a value, and of the colours two have to be chosen -/
def exVisitsTests : Pos → List (PyVal → PStr → Bool)
  | [0, _, 0] => [fun v _ => !isNone v]
  | [1, 1] => [fun v _ => atLeastTwo v]
  | _ => []

def exVisitsRules : Pos → RichField := fun p =>
  { optional := false, sparse := p == [1], validators := (exVisitsTests p).map fun t => ownRule t exSaying }

/-- the verdict on a submission -/
def exVisitsValid (ps : List (String × String)) : Option (Option Bool) :=
  (rFromFlat ['_'] exVisits (ps.map fun p => (p.1.toList, p.2.toList))).toOption.bind fun e =>
    (validateRich (nodesOf e) exVisitsRules 60 ⟨fun _ => .unevaluated, fun _ => []⟩).map fun r => r.result.toOption

def exRow (i a t : String) : List (String × String) :=
  [("v_" ++ i ++ "_t", t), ("v_" ++ i ++ "_d_y", "2012"), ("v_" ++ i ++ "_d_a", a), ("v_" ++ i ++ "_d_m", "2")]

def exTwoRows : List (PStr × PStr) := (exRow "7" "29" "x,y" ++ exRow "3" "1" "z").map fun p => (p.1.toList, p.2.toList)

/-- is it a date? -/
def isDateNode : NElem → Bool
  | .compound .. => true
  | _ => false

/-- is it a Dict? -/
def isDictNode : NElem → Bool
  | .dict .. => true
  | _ => false

-- two visits, numbered 7 and 3, and a note; a day that is none; no tags; no visits; no notes; two colours; one colour
example : exVisitsValid (exRow "7" "29" "x,y" ++ exRow "3" "1" "z" ++ [("n_w", "a")]) = some (some true) := by decide +kernel
example : exVisitsValid (exRow "7" "29" "x,y" ++ exRow "3" "30" "z" ++ [("n_w", "a")]) = some (some false) := by decide +kernel
example : exVisitsValid (exRow "7" "29" "x,y" ++ exRow "3" "1" "," ++ [("n_w", "a")]) = some (some false) := by decide +kernel
example : exVisitsValid [("n_w", "a")] = some (some false) := by decide +kernel
example : exVisitsValid (exRow "7" "29" "x,y") = some (some false) := by decide +kernel
example : exVisitsValid (exRow "7" "29" "x,y" ++ [("n_c", "r"), ("n_c", ""), ("n_c", "g")]) = some (some true) := by decide +kernel
example : exVisitsValid (exRow "7" "29" "x,y" ++ [("n_c", "r")]) = some (some false) := by decide +kernel

/-- the date of row 7 is in the second row: the hypotheses of the theorems about parts are met -/
example : ∃ e, rFromFlat ['_'] exVisits exTwoRows = .ok e ∧ ∃ way r ps', RPartOf ['_'] exVisits (texts exTwoRows) way r ps' [0, 1, 0] := by
  cases hr : rFromFlat ['_'] exVisits exTwoRows with
  | error er =>
    have : (rFromFlat ['_'] exVisits exTwoRows).toOption.isSome = true := by decide +kernel
    rw [hr] at this; cases this
  | ok e =>
    have h1 : ((rFromFlat ['_'] exVisits exTwoRows).toOption.bind fun e => (nElemAt (nodesOf e) [0, 1, 0]).map isDateNode) = some true := by decide +kernel
    rw [hr] at h1
    have h1 : (nElemAt (nodesOf e) [0, 1, 0]).map isDateNode = some true := h1
    obtain ⟨k, hk, hkd⟩ := Option.map_eq_some_iff.1 h1
    refine ⟨e, rfl, ?_⟩
    have hat : At (nodesOf e) [0, 1, 0] k := ⟨hk, by rintro rfl; cases hkd⟩
    have h2 : ((rFromFlat ['_'] exVisits exTwoRows).toOption.bind fun e => (nElemAt (nodesOf e) [0, 1]).map isDictNode) = some true := by decide +kernel
    rw [hr] at h2
    have h2 : (nElemAt (nodesOf e) [0, 1]).map isDictNode = some true := h2
    rcases C97_nothing_else (⟨'_', [], rfl, by decide⟩ : GoodSep ['_']) (by decide) exVisits exVisits_rows exTwoRows e hr [0, 1, 0] k hat with ⟨way, r, ps', hp, _⟩ |
      ⟨way, h, c, m, ps', pos', j, hp, hpos⟩ | ⟨way, h, prune, hm, t, ps', pos', j, hp, hpos⟩
    · exact ⟨way, r, ps', hp⟩
    · exfalso
      obtain ⟨hq, _⟩ := List.append_inj' (show [0, 1] ++ [0] = pos' ++ [j] from hpos) rfl
      obtain ⟨v, _, hj⟩ := C97_joined (⟨'_', [], rfl, by decide⟩ : GoodSep ['_']) (by decide) exVisits exTwoRows e hr hp
      rw [hq, hj.1] at h2
      cases h2
    · exfalso
      obtain ⟨hq, _⟩ := List.append_inj' (show [0, 1] ++ [0] = pos' ++ [j] from hpos) rfl
      obtain ⟨qs, _, hj⟩ := C97_array (⟨'_', [], rfl, by decide⟩ : GoodSep ['_']) (by decide) exVisits exVisits_rows exTwoRows e hr hp
      rw [hq, hj.1] at h2
      cases h2

theorem exVisitsTests_places {p : Pos} {t : PyVal → PStr → Bool} (h : t ∈ exVisitsTests p) :
    (∃ i, p = [0, i, 0]) ∨ (p = [1, 1] ∧ t = fun v _ => atLeastTwo v) := by
  unfold exVisitsTests at h
  split at h
  · exact .inl ⟨_, rfl⟩
  · exact .inr ⟨rfl, by simpa using h⟩
  · cases h

/-- what can be at the places of tests -/
theorem exVisits_there {sep : PStr} {ps ps' : List FPair} {way : List Step} {r : RSchema} {p : Pos} (hp : RPartOf sep exVisits ps way r ps' p) :
    ((∃ i, p = [0, i, 0]) → ∃ h co fs, r = .compound h co fs) ∧ (p = [1, 1] → ∃ h prune m, r = .plain (.array h prune m)) := by
  constructor
  · rintro ⟨i, rfl⟩
    cases hp with | @down _ _ a _ _ _ _ _ _ _ h1 h2 _ h3 =>
    cases a with
    | row => simp [exVisits, rPartSchema] at h1
    | field a =>
    obtain ⟨rfl, -⟩ := h2
    cases h1
    cases h3 with | @down _ _ b _ _ _ _ _ _ _ h1 _ _ h3 =>
    cases b with
    | field => simp [rPartSchema] at h1
    | row b =>
    cases h1
    cases h3 with | @down _ _ c _ _ _ _ _ _ _ h1 h2 _ h3 =>
    cases c with
    | row => simp [rPartSchema] at h1
    | field c =>
    obtain ⟨rfl, -⟩ := h2
    cases h1
    cases h3
    exact ⟨_, _, _, rfl⟩
  · rintro rfl
    cases hp with | @down _ _ a _ _ _ _ _ _ _ h1 h2 _ h3 =>
    cases a with
    | row => simp [exVisits, rPartSchema] at h1
    | field a =>
    obtain ⟨rfl, -⟩ := h2
    cases h1
    cases h3 with | @down _ _ b _ _ _ _ _ _ _ h1 h2 _ h3 =>
    cases b with
    | row => simp [rPartSchema] at h1
    | field b =>
    obtain ⟨rfl, -⟩ := h2
    cases h1
    cases h3
    exact ⟨_, _, _, rfl⟩

/-- the hypotheses of `C97_valid` are met -/
example (ps : List (PStr × PStr)) (e : RElem) (hr : rFromFlat ['_'] exVisits ps = .ok e) (st : VState Pos (Pos → List PStr)) :=
  C97_valid ⟨'_', [], rfl, by decide⟩ (by decide) exVisits exVisits_rows ps e hr exVisitsRules exVisitsTests exSaying (fun _ => rfl) (fun _ => rfl)
    (by
      intro way r ps' pos hp hmc
      refine List.eq_nil_iff_forall_not_mem.2 fun t ht => ?_
      rcases exVisitsTests_places ht with hpos | ⟨hpos, -⟩
      · obtain ⟨h, co, fs, rfl⟩ := (exVisits_there hp).1 hpos
        exact hmc
      · obtain ⟨h, prune, m, rfl⟩ := (exVisits_there hp).2 hpos
        exact hmc)
    (by
      intro way h prune hm t qs pos hp x hx v u u'
      rcases exVisitsTests_places hx with hpos | ⟨-, rfl⟩
      · obtain ⟨h, co, fs, he⟩ := (exVisits_there hp).1 hpos
        cases he
      · rfl)
    (fun _ => ⟨_, _, rfl, by simp [Silent], rfl⟩) st

/-- the hypotheses of `C97_real_date` are met in every row -/
example (i : Nat) : exVisitsTests [0, i, 0] = [fun v _ => !isNone v] ∧ ∀ j < 3, exVisitsTests ([0, i, 0] ++ [j]) = [] ∧
    (exVisitsRules ([0, i, 0] ++ [j])).optional = (exVisitsRules [0, i, 0]).optional ∧ (exVisitsRules ([0, i, 0] ++ [j])).textual = false :=
  ⟨rfl, fun _ _ => ⟨rfl, rfl, rfl⟩⟩

end examples
end Flatland
