import Verif.Proofs.Choices
import Verif.Props.Parts
/-! # C98: submitted forms with multiple choices -/
namespace Flatland
open Flatland.Spec

section
variable [Runtime]

/-- The members of an Array in a submitted form, in whatever row, are the choices that the pairs leading to it make, in their order (each pair
with the rest of its key). -/
theorem C98_members {sep : PStr} (hs : GoodSep sep) (hnl : sep ≠ ['\n']) (s : Schema) (hform : ChoiceForm s) (ps : List (PStr × PStr)) (e : Elem)
    (hr : fromFlat sep s ps = .ok e) {way : List Step} {h : Hdr} {prune : Bool} {hm : Hdr} {t : ScalarType} {ps' : List FPair} {pos : Pos}
    (hp : PartOf sep s (texts ps) way (.array h prune (.scalar hm t)) ps' pos) :
    ∃ qs, ps' = texts qs ∧ Handed (Leads sep s way) (texts ps) (texts qs) ∧ elemAt e pos = some (choiceArray h hm t (choices sep h prune hm qs)) := by
  obtain ⟨hcf, htx⟩ := choiceForm_part hp hform fun _ _ _ _ => ⟨ps, rfl⟩
  obtain ⟨qs, rfl⟩ := htx _ _ _ rfl
  cases hcf with
  | array _ _ _ _ hn hc ht =>
    refine ⟨qs, rfl, part_handed hs hnl hp, ?_⟩
    rw [C80_array hs hnl s ps e hr way h prune hm t qs pos hp hn hc ht, choice_members]
    rfl

/-- A form of fields and multiple choices in Dicts and rows of Lists, filled from a submission and validated with the validators of the package on its
fields, choices and Arrays, is valid iff
* for every field of every row that the submission makes, what was submitted for it is fine: blank and the field optional, or all its
  requirements are met – or, if it has none, it is not blank;
* every Array, with the choices submitted for it, is fine in the same way, and so is each of these choices;
* every List that is not optional has a row;
* and SparseDicts that are not optional have a field. -/
theorem C98_valid (repr : PStr → PStr) {sep : PStr} (hs : GoodSep sep) (hnl : sep ≠ ['\n']) (s : Schema) (hform : ChoiceForm s)
    (ps : List (PStr × PStr)) (e : Elem) (hr : fromFlat sep s ps = .ok e)
    (rules : Pos → FieldRules) (checks : Pos → List Check) (noter : Elem → Pos → Noter)
    (hv : ∀ p, (rules p).validators = (checks p).map fun c => checkRule repr c noter) (hd : ∀ p, (rules p).descent = [])
    (hc : ∀ way s' ps' pos, PartOf sep s (texts ps) way s' ps' pos → (∃ h mode po fs, s' = .dict h mode po fs) ∨ (∃ h prune max m, s' = .list h prune max m) →
      checks pos = [])
    (ha : ∀ way h t ps' pos v, PartOf sep s (texts ps) way (.scalar h t) ps' pos → SubmittedAt sep s ps way h v →
      ∀ c ∈ checks pos, Applies (checked repr (submittedField h t v)) c)
    (hac : ∀ way h prune hm t qs pos, PartOf sep s (texts ps) way (.array h prune (.scalar hm t)) (texts qs) pos →
      (∀ c ∈ checks pos, Applies (checked repr (choiceArray h hm t (choices sep h prune hm qs))) c) ∧
      ∀ (j : Nat) v, (choices sep h prune hm qs)[j]? = some v → ∀ c ∈ checks (pos ++ [j]), Applies (checked repr (submittedField hm t v)) c)
    (hm : ∀ p, ∀ c ∈ checks p, ∃ m text, (noter e p).attr (failureKey c).toList = .ok m ∧ ¬ Silent m ∧
      expandMessage (noter e p).env m = .ok text) (st : VState Pos (Pos → List PStr)) :
    ∃ r b n, (∀ m, n ≤ m → validateForm e rules m st = some r) ∧ r.result = .ok b ∧
      (b = true ↔
        (∀ way h t ps' pos v, PartOf sep s (texts ps) way (.scalar h t) ps' pos → SubmittedAt sep s ps way h v →
          FineElem repr (rules pos) (checks pos) (submittedField h t v)) ∧
        (∀ way h prune hm t qs pos, PartOf sep s (texts ps) way (.array h prune (.scalar hm t)) (texts qs) pos →
          FineElem repr (rules pos) (checks pos) (choiceArray h hm t (choices sep h prune hm qs)) ∧
          ∀ (j : Nat) v, (choices sep h prune hm qs)[j]? = some v → FineElem repr (rules (pos ++ [j])) (checks (pos ++ [j])) (submittedField hm t v)) ∧
        (∀ way h prune max m ps' pos, PartOf sep s (texts ps) way (.list h prune max m) ps' pos → (rules pos).optional = false →
          0 < max ∧ ∃ i, RowMade sep (.list h prune max m) prune ps' i) ∧
        (∀ way h mode po fs ps' pos, PartOf sep s (texts ps) way (.dict h mode po fs) ps' pos → (rules pos).optional = false →
          (rules pos).sparse = true → ∃ a j, PartThere sep ps' (.dict h mode po fs) a j)) := by
  have hfill := setFlat_filled hr
  have hne := setFlat_present hr
  have hfield : ∀ way h t ps' pos, PartOf sep s (texts ps) way (.scalar h t) ps' pos → ∃ v st', SubmittedAt sep s ps way h v ∧
      elemAt e pos = some (.scalar h.name st') ∧ checked repr (.scalar h.name st') = checked repr (submittedField h t v) ∧
      (IsBlank (rules pos) (.scalar h.name st') ↔ IsBlank (rules pos) (submittedField h t v)) := by
    intro way h t ps' pos hp
    obtain ⟨v, st', h1, h2, h3, h4⟩ := submitted_part hs hnl s ps e hr way h t ps' pos hp
    refine ⟨v, st', h1, h2, ?_, ?_⟩
    · simp only [checked, submittedField, elemValue, elemU, h3, h4]
    · simp only [IsBlank, submittedField, h3, h4]
  have hmember : ∀ h hm t (cs : List (Option PStr)) pos j k, elemAt e pos = some (choiceArray h hm t cs) → elemAt e (pos ++ [j]) = some k →
      ∃ v, cs[j]? = some v ∧ k = submittedField hm t v := by
    intro h hm t cs pos j k hk hj
    rw [elemAt_append, hk] at hj
    simp only [Option.bind_some, choiceArray, elemAt, Elem.kids, List.getElem?_map] at hj
    cases hcs : cs[j]? with
    | none => rw [hcs] at hj; simp at hj
    | some v =>
      rw [hcs] at hj
      simp only [Option.map_some, submittedField, elemAt, Option.some.injEq] at hj
      exact ⟨v, rfl, hj.symm⟩
  have hmember' : ∀ h hm t (cs : List (Option PStr)) pos j v, elemAt e pos = some (choiceArray h hm t cs) → cs[j]? = some v →
      elemAt e (pos ++ [j]) = some (submittedField hm t v) := by
    intro h hm t cs pos j v hk hj
    rw [elemAt_append, hk]
    simp [choiceArray, elemAt, Elem.kids, hj, submittedField]
  have hpart : ∀ pos k, elemAt e pos = some k →
      (∃ way s' ps', PartOf sep s (texts ps) way s' ps' pos ∧ FilledFrom sep s' ps' k ∧ ChoiceForm s') ∨
      (∃ way h prune hm t qs pos' j v, PartOf sep s (texts ps) way (.array h prune (.scalar hm t)) (texts qs) pos' ∧ pos = pos' ++ [j] ∧
        (choices sep h prune hm qs)[j]? = some v ∧ k = submittedField hm t v) := by
    intro pos k hk
    rcases elem_is_part hs hnl pos s (texts ps) e k hfill hk with ⟨way, s', ps', hp⟩ | ⟨way, h, prune, m, ps', pos', j, hp, rfl, _⟩
    · obtain ⟨k', hk', hf⟩ := part_filled hs hnl hp e hfill
      rw [hk] at hk'
      cases hk'
      exact .inl ⟨way, s', ps', hp, hf, (choiceForm_part hp hform fun _ _ _ _ => ⟨ps, rfl⟩).1⟩
    · have := (choiceForm_part hp hform fun _ _ _ _ => ⟨ps, rfl⟩).1
      cases this with
      | array _ _ hm t =>
        obtain ⟨qs, rfl, -, hat⟩ := C98_members hs hnl s hform ps e hr hp
        obtain ⟨v, hv1, hv2⟩ := hmember h hm t _ pos' j k hat hk
        exact .inr ⟨way, h, prune, hm, t, qs, pos', j, v, hp, rfl, hv1, hv2⟩
  obtain ⟨r, b, n, h1, h2, h3, _⟩ := C74_checks repr e hne rules checks noter hv hd
    (by
      intro p k hk c hcc
      rcases hpart p k hk with ⟨way, s', ps', hp, hf, hrow⟩ | ⟨way, h, prune, hm, t, qs, pos', j, v, hp, rfl, hj, rfl⟩
      · cases hrow with
        | scalar h t =>
          obtain ⟨v, st', hv', he, hch, _⟩ := hfield way h t ps' p hp
          rw [he] at hk
          cases hk
          rw [hch]
          exact ha way h t ps' p v hp hv' c hcc
        | array h prune hm t =>
          obtain ⟨qs, rfl, -, hat⟩ := C98_members hs hnl s hform ps e hr hp
          rw [hk] at hat
          cases hat
          exact (hac way h prune hm t qs p hp).1 c hcc
        | dict => rw [hc way _ ps' p hp (.inl ⟨_, _, _, _, rfl⟩)] at hcc; cases hcc
        | list => rw [hc way _ ps' p hp (.inr ⟨_, _, _, _, rfl⟩)] at hcc; cases hcc
      · exact (hac way h prune hm t qs pos' hp).2 j v hj c hcc)
    (fun p k _ => hm p) st
  refine ⟨r, b, n, h1, h2, h3.trans ?_⟩
  constructor
  · intro hall
    refine ⟨?_, ?_, ?_, ?_⟩
    · intro way h t ps' pos v hp hv'
      obtain ⟨w, st', hw, he, hch, hbl⟩ := hfield way h t ps' pos hp
      cases firstValue_unique hv' hw
      have := hall pos _ he
      simp only [FineElem, Excused, hch, hbl] at this ⊢
      exact this
    · intro way h prune hm t qs pos hp
      obtain ⟨qs', hq, -, hat⟩ := C98_members hs hnl s hform ps e hr hp
      obtain rfl := texts_inj hq
      exact ⟨hall pos _ hat, fun j v hj => hall _ _ (hmember' h hm t _ pos j v hat hj)⟩
    · intro way h prune max m ps' pos hp hopt
      obtain ⟨k, hk, hf⟩ := part_filled hs hnl hp e hfill
      have hnb : ¬ IsBlank (rules pos) k := by
        rcases hall pos k hk with hex | ⟨_, hb⟩
        · exact absurd hex.1 (by rw [hopt]; simp)
        · exact hb (hc way _ ps' pos hp (.inr ⟨_, _, _, _, rfl⟩))
      rw [filled_list_blank hs hnl hf] at hnb
      exact Classical.not_not.1 hnb
    · intro way h mode po fs ps' pos hp hopt hsp
      obtain ⟨k, hk, hf⟩ := part_filled hs hnl hp e hfill
      have hnb : ¬ IsBlank (rules pos) k := by
        rcases hall pos k hk with hex | ⟨_, hb⟩
        · exact absurd hex.1 (by rw [hopt]; simp)
        · exact hb (hc way _ ps' pos hp (.inl ⟨_, _, _, _, rfl⟩))
      rw [filled_dict_blank hs hnl hf] at hnb
      exact Classical.not_not.1 fun hno => hnb ⟨hsp, hno⟩
  · rintro ⟨hfs, has, hls, hds⟩ pos k hk
    rcases hpart pos k hk with ⟨way, s', ps', hp, hf, hrow⟩ | ⟨way, h, prune, hm, t, qs, pos', j, v, hp, rfl, hj, rfl⟩
    · cases hrow with
      | scalar h t =>
        obtain ⟨v, st', hv', he, hch, hbl⟩ := hfield way h t ps' pos hp
        rw [he] at hk
        cases hk
        have := hfs way h t ps' pos v hp hv'
        simp only [FineElem, Excused, hch, hbl] at this ⊢
        exact this
      | array h prune hm t =>
        obtain ⟨qs, rfl, -, hat⟩ := C98_members hs hnl s hform ps e hr hp
        rw [hk] at hat
        cases hat
        exact (has way h prune hm t qs pos hp).1
      | list h prune max m =>
        have hck := hc way _ ps' pos hp (.inr ⟨_, _, _, _, rfl⟩)
        by_cases hb : IsBlank (rules pos) k
        · refine .inl ⟨?_, hb⟩
          cases hopt : (rules pos).optional
          · exact absurd (hls way h prune max m ps' pos hp hopt) ((filled_list_blank hs hnl hf _).1 hb)
          · rfl
        · exact .inr ⟨by rw [hck]; simp, fun _ => hb⟩
      | dict h mode po fs =>
        have hck := hc way _ ps' pos hp (.inl ⟨_, _, _, _, rfl⟩)
        by_cases hb : IsBlank (rules pos) k
        · refine .inl ⟨?_, hb⟩
          have hbb := (filled_dict_blank hs hnl hf _).1 hb
          cases hopt : (rules pos).optional
          · exact absurd (hds way h mode po fs ps' pos hp hopt hbb.1) hbb.2
          · rfl
        · exact .inr ⟨by rw [hck]; simp, fun _ => hb⟩
    · exact (has way h prune hm t qs pos' hp).2 j v hj

omit [Runtime] in
/-- For a named Array that prunes, of unnamed members, the choices are the values that are not empty submitted under its name – alone, or with
the separator after it. -/
theorem C98_checkboxes (sep : PStr) (n : PStr) (h hm : Hdr) (hn : h.name = some n) (hnm : hm.name = none) (ps : List (PStr × PStr)) (c : Option PStr) :
    c ∈ choices sep h true hm ps ↔ ∃ k v, (k, v) ∈ ps ∧ (k = n ∨ k = n ++ sep) ∧ v ≠ [] ∧ c = some v := by
  simp only [choices, List.mem_filterMap, hn, hnm, takenFrom, takeValue, Prod.exists, true_and]
  constructor
  · rintro ⟨k, v, hmem, hc⟩
    split at hc
    · split at hc
      · cases hc
      · rename_i hk hv
        simp only [Taken.choice, Option.some.injEq] at hc
        exact ⟨k, v, hmem, hk, hv, hc.symm⟩
    · cases hc
  · rintro ⟨k, v, hmem, hk, hv, rfl⟩
    exact ⟨k, v, hmem, by rw [if_pos hk, if_neg hv]; rfl⟩

/-- What can be required of an Array: it is blank iff nothing was chosen, and the counting validators count the choices. -/
theorem C98_counts (repr : PStr → PStr) (rules : FieldRules) (h hm : Hdr) (t : ScalarType) (cs : List (Option PStr)) (a b : Int) :
    (IsBlank rules (choiceArray h hm t cs) ↔ cs = []) ∧
    (Meets (checked repr (choiceArray h hm t cs)) (.hasAtLeast a) ↔ a ≤ cs.length) ∧
    (Meets (checked repr (choiceArray h hm t cs)) (.hasAtMost a) ↔ cs.length ≤ a) ∧
    (Meets (checked repr (choiceArray h hm t cs)) (.hasBetween a b) ↔ a ≤ cs.length ∧ cs.length ≤ b) := by
  have hh : ∀ l, Holds (checked repr (choiceArray h hm t cs)) l ↔ l = cs.length := by
    intro l
    have hv : (checked repr (choiceArray h hm t cs)).value = .list (kidValues (cs.map (submittedField hm t))) := by
      simp [checked, choiceArray, elemValue]
    have hl : ∀ ks : List Elem, (kidValues ks).length = ks.length := fun ks => by
      induction ks with
      | nil => simp [kidValues]
      | cons k ks ih => simp [kidValues, ih]
    simp only [Holds, hv]
    constructor
    · rintro ⟨-, xs, hx, rfl⟩
      cases hx
      simp [hl]
    · rintro rfl
      exact ⟨rfl, _, rfl, by simp [hl]⟩
  refine ⟨by simp [IsBlank, choiceArray], ?_, ?_, ?_⟩
  all_goals simp only [Meets, hh]
  · exact ⟨by rintro ⟨l, rfl, h⟩; exact h, fun h => ⟨_, rfl, h⟩⟩
  · exact ⟨by rintro ⟨l, rfl, h⟩; exact h, fun h => ⟨_, rfl, h⟩⟩
  · exact ⟨by rintro ⟨l, rfl, h⟩; exact h, fun h => ⟨_, rfl, h⟩⟩

end

/-! ### an example: guests, each with a name and any of some dishes, of which at least two must be chosen -/
namespace ChoicesExample
attribute [local instance] Runtime.ascii

def guest : Schema :=
  .dict ⟨.none, false, some .none⟩ .full .subset
    [.scalar ⟨some ['n'], false, some .none⟩ (stringType true),
     .array ⟨some ['d'], false, some .none⟩ true (.scalar ⟨.none, false, some .none⟩ (integerType true 0))]

def guests : Schema :=
  .dict ⟨.none, false, some .none⟩ .full .subset [.list ⟨some ['g'], false, some .none⟩ true 1024 guest]

def submitted : List (PStr × PStr) :=
  [("g_4_n".toList, "Bo".toList), ("g_4_d".toList, ['3']), ("g_4_d".toList, []), ("g_9_d".toList, ['7']), ("g_4_d".toList, ['5']), ("g_9_n".toList, "Al".toList)]

/-- two dishes for the first guest, one for the second -/
example : (fromFlat ['_'] guests submitted).toOption.map elemValue =
    some (.dict [(['g'], .list [.dict [(['n'], .str "Bo".toList), (['d'], .list [.int 3, .int 5])],
      .dict [(['n'], .str "Al".toList), (['d'], .list [.int 7])]])]) := by
  decide +kernel

theorem guests_form : ChoiceForm guests := by
  refine .dict _ _ _ _ fun f hf => ?_
  simp only [List.mem_cons, List.not_mem_nil, or_false] at hf
  subst hf
  refine .list _ _ _ _ (.dict _ _ _ _ fun f hf => ?_) (by simp [guest])
  simp only [List.mem_cons, List.not_mem_nil, or_false] at hf
  rcases hf with rfl | rfl
  · exact .scalar ..
  · exact .array _ _ _ _ (by intro t h; cases h; decide) (by intro t h; cases h) fun st x => builtin_text_ok (.integer true 0) st x

/-- what can be at the place of the dishes -/
theorem dishes_there {sep : PStr} {ps ps' : List FPair} {way : List Step} {s' : Schema} {i : Nat}
    (hp : PartOf sep guests ps way s' ps' [0, i, 1]) : ∃ h prune hm t, s' = .array h prune (.scalar hm t) := by
  cases hp with | @down _ _ a _ _ _ _ _ _ _ h1 h2 _ h3 =>
  cases a with
  | row => simp [guests, partSchema] at h1
  | field a =>
  obtain ⟨rfl, -⟩ := h2
  cases h1
  cases h3 with | @down _ _ b _ _ _ _ _ _ _ h1 _ _ h3 =>
  cases b with
  | field => simp [partSchema] at h1
  | row b =>
  cases h1
  cases h3 with | @down _ _ c _ _ _ _ _ _ _ h1 h2 _ h3 =>
  cases c with
  | row => simp [guest, partSchema] at h1
  | field c =>
  obtain ⟨rfl, -⟩ := h2
  cases h1
  cases h3
  exact ⟨_, _, _, _, rfl⟩

def dishChecks : Pos → List Check
  | [0, _, 1] => [.hasAtLeast 2]
  | _ => []

theorem dishChecks_place {p : Pos} {c : Check} (h : c ∈ dishChecks p) : c = .hasAtLeast 2 ∧ ∃ i, p = [0, i, 1] := by
  unfold dishChecks at h
  split at h
  · exact ⟨by simpa using h, _, rfl⟩
  · cases h

def dishRules (p : Pos) : FieldRules := { validators := (dishChecks p).map fun c => checkRule id c exNoter }

/-- the hypotheses of `C98_valid` are met -/
example (ps : List (PStr × PStr)) (e : Elem) (hr : fromFlat ['_'] guests ps = .ok e) (st : VState Pos (Pos → List PStr)) :=
  C98_valid id ⟨'_', [], rfl, by decide⟩ (by decide) guests guests_form ps e hr dishRules dishChecks exNoter (fun _ => rfl) (fun _ => rfl)
    (by
      intro way s' ps' pos hp hs'
      refine List.eq_nil_iff_forall_not_mem.2 fun c hc => ?_
      obtain ⟨-, i, rfl⟩ := dishChecks_place hc
      obtain ⟨h, prune, hm, t, rfl⟩ := dishes_there hp
      simp at hs')
    (by
      intro way h t ps' pos v hp _ c hc
      obtain ⟨-, i, rfl⟩ := dishChecks_place hc
      obtain ⟨h, prune, hm, t, he⟩ := dishes_there hp
      cases he)
    (by
      intro way h prune hm t qs pos hp
      refine ⟨fun c hc => ?_, fun j v hj c hc => ?_⟩
      · obtain ⟨rfl, i, rfl⟩ := dishChecks_place hc
        exact ⟨by decide, _, rfl, _, by simp [checked, choiceArray, elemValue]; rfl, rfl⟩
      · exact absurd hc (by
          intro hc
          obtain ⟨-, i, hpos⟩ := dishChecks_place hc
          have hp0 : pos = [0, i] := by
            have := congrArg List.dropLast hpos
            simpa using this
          subst hp0
          cases hp with | @down _ _ a _ _ _ _ _ _ _ h1 _ _ h3 =>
          cases a with
          | row => simp [guests, partSchema] at h1
          | field a =>
          rename_i hth
          obtain ⟨rfl, -⟩ := hth
          cases h1
          cases h3 with | @down _ _ b _ _ _ _ _ _ _ h1 _ _ h3 =>
          cases b with
          | field => simp [partSchema] at h1
          | row b =>
          cases h1
          cases h3))
    (by
      intro p c hc
      obtain ⟨rfl, -⟩ := dishChecks_place hc
      exact ⟨_, _, rfl, (msg_says _).1 rfl, rfl⟩) st

def dishesValid (ps : List (String × String)) : Option (Option Bool) :=
  (fromFlat ['_'] guests (ps.map fun p => (p.1.toList, p.2.toList))).toOption.bind fun e =>
    (validateForm e dishRules 40 ⟨fun _ => .unevaluated, fun _ => []⟩).map fun r => r.result.toOption

/-- two dishes for each guest: valid; one only: invalid; a dish that is no number, without a validator that says so: valid -/
example : dishesValid [("g_4_n", "Bo"), ("g_4_d", "3"), ("g_4_d", ""), ("g_9_d", "7"), ("g_9_d", "1"), ("g_4_d", "5"), ("g_9_n", "Al")] = some (some true) := by
  decide +kernel
example : dishesValid [("g_4_n", "Bo"), ("g_4_d", "3"), ("g_4_d", ""), ("g_4_d", "5"), ("g_9_d", "1"), ("g_9_n", "Al")] = some (some false) := by
  decide +kernel
example : dishesValid [("g_4_n", "Bo"), ("g_4_d", "3"), ("g_4_d", "x")] = some (some true) := by decide +kernel

end ChoicesExample
end Flatland
