import Verif.Proofs.Parts2
import Verif.Props.Submissions
import Verif.Props.ArrayFlat
/-! C80: what a submitted form contains, with rows in Lists and fields in Dicts of any nesting. -/
namespace Flatland
open Flatland.Spec

section
variable [Runtime]

/-- **C80.** Every part of a form – a field, a row, a row in a row – that the submission names, or that a new form has, is there afterwards, at its
position; and it is what it would be if it was a form of its own and only the pairs that lead to it were submitted to it. -/
theorem C80_parts {sep : PStr} (hs : GoodSep sep) (hnl : sep ≠ ['\n']) (s : Schema) (ps : List (PStr × PStr)) (e : Elem)
    (hr : fromFlat sep s ps = .ok e) (way : List Step) (s' : Schema) (ps' : List FPair) (pos : Pos)
    (hp : PartOf sep s (texts ps) way s' ps' pos) :
    ∃ k, elemAt e pos = some k ∧ (ps' = [] → k = fresh s') ∧ (ps' ≠ [] → setFlat sep s' (fresh s') ps' = .ok k) := by
  obtain ⟨k, h1, h2⟩ := part_filled hs hnl hp e (setFlat_filled hr)
  exact ⟨k, h1, h2.1, h2.2⟩

/-- **C80.** And there is nothing else in the form: every element of it is such a part, or a member of an Array that is one. -/
theorem C80_nothing_else {sep : PStr} (hs : GoodSep sep) (hnl : sep ≠ ['\n']) (s : Schema) (ps : List (PStr × PStr)) (e : Elem)
    (hr : fromFlat sep s ps = .ok e) (pos : Pos) (k : Elem) (hk : elemAt e pos = some k) :
    (∃ way s' ps', PartOf sep s (texts ps) way s' ps' pos) ∨
    (∃ way h prune m ps' pos' j, PartOf sep s (texts ps) way (.array h prune m) ps' pos' ∧ pos = pos' ++ [j] ∧ ∃ n st, k = .scalar n st) :=
  elem_is_part hs hnl pos s (texts ps) e k (setFlat_filled hr) hk

/-- **C80.** Different ways end at different elements, and a way ends at one. -/
theorem C80_unique {sep : PStr} (hs : GoodSep sep) (hnl : sep ≠ ['\n']) (s : Schema) (ps : List FPair) {way₁ way₂ : List Step} {s₁ s₂ : Schema}
    {ps₁ ps₂ : List FPair} {pos₁ pos₂ : Pos} (h₁ : PartOf sep s ps way₁ s₁ ps₁ pos₁) (h₂ : PartOf sep s ps way₂ s₂ ps₂ pos₂) :
    (way₁ = way₂ ↔ pos₁ = pos₂) ∧ (way₁ = way₂ → s₁ = s₂ ∧ ps₁ = ps₂) := by
  refine ⟨⟨?_, ?_⟩, ?_⟩
  · rintro rfl; exact (part_way hs hnl h₁ h₂).2.2
  · rintro rfl; exact part_pos hs hnl h₁ h₂
  · rintro rfl; exact ⟨(part_way hs hnl h₁ h₂).1, (part_way hs hnl h₁ h₂).2.1⟩

/-- **C80.** What is submitted for a part are, in their order, the pairs of the whole submission whose keys lead down the way to it. -/
theorem C80_handed {sep : PStr} (hs : GoodSep sep) (hnl : sep ≠ ['\n']) (s : Schema) (ps : List FPair) {way : List Step} {s' : Schema}
    {ps' : List FPair} {pos : Pos} (h : PartOf sep s ps way s' ps' pos) : Handed (Leads sep s way) ps ps' := part_handed hs hnl h

theorem submitted_part {sep : PStr} (hs : GoodSep sep) (hnl : sep ≠ ['\n']) (s : Schema) (ps : List (PStr × PStr)) (e : Elem)
    (hr : fromFlat sep s ps = .ok e) (way : List Step) (h : Hdr) (t : ScalarType) (ps' : List FPair) (pos : Pos)
    (hp : PartOf sep s (texts ps) way (.scalar h t) ps' pos) :
    ∃ v st, SubmittedAt sep s ps way h v ∧ elemAt e pos = some (.scalar h.name st) ∧ st.value = (afterSubmission t .fresh v).value ∧
      st.u = (afterSubmission t .fresh v).u := by
  obtain ⟨k, h1, h2⟩ := part_filled hs hnl hp e (setFlat_filled hr)
  obtain ⟨st, rfl, h3, h4⟩ := filled_scalar h2
  exact ⟨_, st, handed_first (leads_functional hs hnl s) h.name (part_handed hs hnl hp), h1, h3, h4⟩

/-- **C80 (fields).** A field anywhere in the form is set to the first value whose key leads to it, in the row and the row's row it is in; without
one it is a new field. -/
theorem C80_field {sep : PStr} (hs : GoodSep sep) (hnl : sep ≠ ['\n']) (s : Schema) (ps : List (PStr × PStr)) (e : Elem)
    (hr : fromFlat sep s ps = .ok e) (way : List Step) (h : Hdr) (t : ScalarType) (ps' : List FPair) (pos : Pos)
    (hp : PartOf sep s (texts ps) way (.scalar h t) ps' pos) (v : Option PStr) (hv : SubmittedAt sep s ps way h v) :
    ∃ st, elemAt e pos = some (.scalar h.name st) ∧ st.value = (afterSubmission t .fresh v).value ∧ st.u = (afterSubmission t .fresh v).u := by
  obtain ⟨w, st, h1, h2⟩ := submitted_part hs hnl s ps e hr way h t ps' pos hp
  rw [firstValue_unique hv h1]
  exact ⟨st, h2⟩

/-- **C80 (Arrays).** An Array in a Dict, in whatever row: its members are what the pairs that lead to it give, in their order. -/
theorem C80_array {sep : PStr} (hs : GoodSep sep) (hnl : sep ≠ ['\n']) (s : Schema) (ps : List (PStr × PStr)) (e : Elem)
    (hr : fromFlat sep s ps = .ok e) (way : List Step) (h : Hdr) (prune : Bool) (hm : Hdr) (t : ScalarType) (qs : List (PStr × PStr)) (pos : Pos)
    (hp : PartOf sep s (texts ps) way (.array h prune (.scalar hm t)) (texts qs) pos)
    (hn : GoodName h.name) (hc : GoodName hm.name) (ht : TextSafe t) :
    elemAt e pos = some (.array h.name (qs.filterMap fun p => memberOf hm t (takenFrom sep h.name hm.name prune p.1 p.2))) := by
  obtain ⟨k, h1, h2⟩ := part_filled hs hnl hp e (setFlat_filled hr)
  have hsep : sep ≠ [] := by obtain ⟨c, cs, rfl, _⟩ := hs; simp
  have hset := C15_array_members sep hsep hnl h prune hm t hn hc ht (fresh (.array h prune (.scalar hm t))) qs
  by_cases h0 : texts qs = []
  · rw [h1, h2.1 h0]
    have : qs = [] := by simpa [texts] using h0
    rw [this]
    rfl
  · have := h2.2 h0
    rw [hset] at this
    cases this
    exact h1

omit [Runtime] in
theorem keyOf_starts {sep : PStr} {s s' : Schema} {way : List Step} {key : Option PStr} (h : KeyOf sep s way s' key) :
    ∀ n, s.name = some n → ∃ k, key = some k ∧ n <+: k := by
  cases h with
  | here => intro n hn; exact ⟨n, hn, List.prefix_rfl⟩
  | @field h mode po fs i f _ way key _ _ _ =>
    intro n hn
    have hn' : h.name = some n := hn
    exact ⟨_, rfl, by rw [hn', fieldPrefix, List.append_assoc]; exact List.prefix_append ..⟩
  | @member h prune max m _ i way _ =>
    intro n hn
    have hn' : h.name = some n := hn
    refine ⟨_, rfl, ?_⟩
    rw [hn']
    cases n with
    | nil => simp
    | cons c cs => rw [childPrefix, List.append_assoc]; exact List.prefix_append ..
  | @row h prune max m _ i way key _ _ =>
    intro n hn
    have hn' : h.name = some n := hn
    refine ⟨_, rfl, ?_⟩
    rw [hn']
    cases n with
    | nil => simp
    | cons c cs => rw [childPrefix, List.append_assoc, List.append_assoc]; exact List.prefix_append ..

/-- **C80 (keys).** The usual key of a part – names and row numbers, joined – leads to it, if the value is not empty. -/
theorem C80_key {sep : PStr} {s s' : Schema} {way : List Step} {key : Option PStr} (hk : KeyOf sep s way s' key) (v : PStr) (hv : v ≠ []) :
    Leads sep s way key v s'.name := by
  induction hk with
  | here => exact .here
  | @field h mode po fs i f s' way key hf hn hk ih =>
    obtain ⟨fn, hfn⟩ := Option.ne_none_iff_exists'.1 hn
    obtain ⟨k, hk1, hk2⟩ := keyOf_starts hk fn hfn
    cases hk1
    exact .down (s' := f) hf ⟨f, fn, key, hf, hfn, hk2, rfl, rfl⟩ ih
  | @member h prune max m s' i way hk ih =>
    refine .down (s' := m) rfl ⟨fun _ => hv, _, rfl, decimal i, [], by simp, ?_, .inl ⟨rfl, rfl⟩⟩ ih
    rw [digitText_iff]; exact parseDigits_decimal i
  | @row h prune max m s' i way key hne hk ih =>
    refine .down (s' := m) rfl ⟨fun _ => hv, _, rfl, decimal i, sep ++ key, by simp, ?_, .inr (.inr (.inl ⟨key, hne, rfl, rfl⟩))⟩ ih
    rw [digitText_iff]; exact parseDigits_decimal i

/-! ### validation -/

/-- **C80 (exactly).** A form of fields in Dicts and rows of Lists, filled from a submission and validated with the validators of the package on its
fields, is valid iff
* for every field of every row that the submission makes, what was submitted for it is fine: blank and the field optional, or all its
  requirements are met – or, if it has none, it is not blank;
* every List that is not optional has a row;
* and SparseDicts that are not optional have a field. -/
theorem C80_valid (repr : PStr → PStr) {sep : PStr} (hs : GoodSep sep) (hnl : sep ≠ ['\n']) (s : Schema) (hform : RowForm s)
    (ps : List (PStr × PStr)) (e : Elem) (hr : fromFlat sep s ps = .ok e)
    (rules : Pos → FieldRules) (checks : Pos → List Check) (noter : Elem → Pos → Noter)
    (hv : ∀ p, (rules p).validators = (checks p).map fun c => checkRule repr c noter) (hd : ∀ p, (rules p).descent = [])
    (hc : ∀ way s' ps' pos, PartOf sep s (texts ps) way s' ps' pos → (∀ h t, s' ≠ .scalar h t) → checks pos = [])
    (ha : ∀ way h t ps' pos v, PartOf sep s (texts ps) way (.scalar h t) ps' pos → SubmittedAt sep s ps way h v →
      ∀ c ∈ checks pos, Applies (checked repr (submittedField h t v)) c)
    (hm : ∀ p, ∀ c ∈ checks p, ∃ m text, (noter e p).attr (failureKey c).toList = .ok m ∧ ¬ Silent m ∧
      expandMessage (noter e p).env m = .ok text) (st : VState Pos (Pos → List PStr)) :
    ∃ r b n, (∀ m, n ≤ m → validateForm e rules m st = some r) ∧ r.result = .ok b ∧
      (b = true ↔
        (∀ way h t ps' pos v, PartOf sep s (texts ps) way (.scalar h t) ps' pos → SubmittedAt sep s ps way h v →
          let k := submittedField h t v
          Excused (rules pos) k ∨ ((∀ c ∈ checks pos, Meets (checked repr k) c) ∧ (checks pos = [] → ¬ IsBlank (rules pos) k))) ∧
        (∀ way h prune max m ps' pos, PartOf sep s (texts ps) way (.list h prune max m) ps' pos → (rules pos).optional = false →
          0 < max ∧ ∃ i, RowMade sep (.list h prune max m) prune ps' i) ∧
        (∀ way h mode po fs ps' pos, PartOf sep s (texts ps) way (.dict h mode po fs) ps' pos → (rules pos).optional = false →
          (rules pos).sparse = true → ∃ a j, PartThere sep ps' (.dict h mode po fs) a j)) := by
  have hfill := setFlat_filled hr
  have hne := setFlat_present hr
  -- the fields of the filled form look like the submitted ones
  have hfield : ∀ way h t ps' pos, PartOf sep s (texts ps) way (.scalar h t) ps' pos → ∃ v st', SubmittedAt sep s ps way h v ∧
      elemAt e pos = some (.scalar h.name st') ∧ checked repr (.scalar h.name st') = checked repr (submittedField h t v) ∧
      (IsBlank (rules pos) (.scalar h.name st') ↔ IsBlank (rules pos) (submittedField h t v)) := by
    intro way h t ps' pos hp
    obtain ⟨v, st', h1, h2, h3, h4⟩ := submitted_part hs hnl s ps e hr way h t ps' pos hp
    refine ⟨v, st', h1, h2, ?_, ?_⟩
    · simp only [checked, submittedField, elemValue, elemU, h3, h4]
    · simp only [IsBlank, submittedField, h3, h4]
  have hpart : ∀ pos k, elemAt e pos = some k → ∃ way s' ps', PartOf sep s (texts ps) way s' ps' pos ∧ FilledFrom sep s' ps' k ∧ RowForm s' := by
    intro pos k hk
    rcases elem_is_part hs hnl pos s (texts ps) e k hfill hk with ⟨way, s', ps', hp⟩ | ⟨way, h, prune, m, ps', pos', j, hp, _, _⟩
    · obtain ⟨k', hk', hf⟩ := part_filled hs hnl hp e hfill
      rw [hk] at hk'
      cases hk'
      exact ⟨way, s', ps', hp, hf, rowForm_part hp hform⟩
    · have := rowForm_part hp hform
      cases this
  obtain ⟨r, b, n, h1, h2, h3, _⟩ := C74_checks repr e hne rules checks noter hv hd
    (by
      intro p k hk c hcc
      obtain ⟨way, s', ps', hp, hf, hrow⟩ := hpart p k hk
      cases s' with
      | scalar h t =>
        obtain ⟨v, st', hv', he, hch, _⟩ := hfield way h t ps' p hp
        rw [he] at hk
        cases hk
        rw [hch]
        exact ha way h t ps' p v hp hv' c hcc
      | _ => rw [hc way _ ps' p hp (by intros; simp)] at hcc; cases hcc)
    (fun p k _ => hm p) st
  refine ⟨r, b, n, h1, h2, h3.trans ?_⟩
  constructor
  · intro hall
    refine ⟨?_, ?_, ?_⟩
    · intro way h t ps' pos v hp hv'
      obtain ⟨w, st', hw, he, hch, hbl⟩ := hfield way h t ps' pos hp
      cases firstValue_unique hv' hw
      have := hall pos _ he
      simp only [Excused, hch, hbl] at this ⊢
      exact this
    · intro way h prune max m ps' pos hp hopt
      obtain ⟨k, hk, hf⟩ := part_filled hs hnl hp e hfill
      have hnb : ¬ IsBlank (rules pos) k := by
        rcases hall pos k hk with hex | ⟨_, hb⟩
        · exact absurd hex.1 (by rw [hopt]; simp)
        · exact hb (hc way _ ps' pos hp (by intros; simp))
      rw [filled_list_blank hs hnl hf] at hnb
      exact Classical.not_not.1 hnb
    · intro way h mode po fs ps' pos hp hopt hsp
      obtain ⟨k, hk, hf⟩ := part_filled hs hnl hp e hfill
      have hnb : ¬ IsBlank (rules pos) k := by
        rcases hall pos k hk with hex | ⟨_, hb⟩
        · exact absurd hex.1 (by rw [hopt]; simp)
        · exact hb (hc way _ ps' pos hp (by intros; simp))
      rw [filled_dict_blank hs hnl hf] at hnb
      exact Classical.not_not.1 fun hno => hnb ⟨hsp, hno⟩
  · rintro ⟨hfs, hls, hds⟩ pos k hk
    obtain ⟨way, s', ps', hp, hf, hrow⟩ := hpart pos k hk
    cases s' with
    | scalar h t =>
      obtain ⟨v, st', hv', he, hch, hbl⟩ := hfield way h t ps' pos hp
      rw [he] at hk
      cases hk
      have := hfs way h t ps' pos v hp hv'
      simp only [Excused, hch, hbl] at this ⊢
      exact this
    | list h prune max m =>
      have hck := hc way _ ps' pos hp (by intros; simp)
      by_cases hb : IsBlank (rules pos) k
      · refine .inl ⟨?_, hb⟩
        cases hopt : (rules pos).optional
        · exact absurd (hls way h prune max m ps' pos hp hopt) ((filled_list_blank hs hnl hf _).1 hb)
        · rfl
      · exact .inr ⟨by rw [hck]; simp, fun _ => hb⟩
    | dict h mode po fs =>
      have hck := hc way _ ps' pos hp (by intros; simp)
      by_cases hb : IsBlank (rules pos) k
      · refine .inl ⟨?_, hb⟩
        have hbb := (filled_dict_blank hs hnl hf _).1 hb
        cases hopt : (rules pos).optional
        · exact absurd (hds way h mode po fs ps' pos hp hopt hbb.1) hbb.2
        · rfl
      · exact .inr ⟨by rw [hck]; simp, fun _ => hb⟩
    | array h prune m => cases hrow

end

/-! ### an example: an order with a name and rows of a number and a text -/
namespace PartsExample
attribute [local instance] Runtime.ascii

def row : Schema :=
  .dict ⟨.none, false, some .none⟩ .full .subset
    [.scalar ⟨some ['q'], false, some .none⟩ (integerType true 0), .scalar ⟨some ['t'], true, some .none⟩ (stringType true)]

def schema : Schema :=
  .dict ⟨.none, false, some .none⟩ .full .subset
    [.scalar ⟨some ['n'], false, some .none⟩ (stringType true), .list ⟨some ['r'], false, some .none⟩ true 1024 row]

def pairs : List (PStr × PStr) :=
  [("n".toList, "Bo".toList), ("r_7_q".toList, "3".toList), ("r_2_t".toList, "x".toList), ("r_07_q".toList, "4".toList), ("r_2_q".toList, [])]

theorem schema_rows : RowForm schema := by
  refine .dict _ _ _ _ fun f hf => ?_
  simp only [List.mem_cons, List.not_mem_nil, or_false] at hf
  rcases hf with rfl | rfl
  · exact .scalar ..
  · refine .list _ _ _ _ (.dict _ _ _ _ fun f hf => ?_)
    simp only [List.mem_cons, List.not_mem_nil, or_false] at hf
    rcases hf with rfl | rfl <;> exact .scalar ..

theorem goodSep : GoodSep ['_'] := ⟨'_', [], rfl, by decide⟩

/-- the rows 2 and 7 become the first and the second; the first number submitted for row 7 is taken, none for row 2 -/
example : (fromFlat ['_'] schema (pairs)).toOption.map elemValue =
    some (.dict [(['n'], .str "Bo".toList), (['r'], .list
      [.dict [(['q'], .none), (['t'], .str ['x'])], .dict [(['q'], .int 3), (['t'], .none)]])]) := by
  decide +kernel

/-- the key of the number in row 7 -/
theorem key7 : KeyOf ['_'] schema [.field 1, .row 7, .field 0] (.scalar ⟨some ['q'], false, some .none⟩ (integerType true 0))
    (some ['r', '_', '7', '_', 'q']) := by
  have h : KeyOf ['_'] schema [.field 1, .row 7, .field 0] (.scalar ⟨some ['q'], false, some .none⟩ (integerType true 0))
      (some (fieldPrefix ['_'] none ++ (childPrefix ['_'] (some ['r']) ++ decimal 7 ++ (['_'] ++ (fieldPrefix ['_'] none ++ ['q']))))) :=
    .field (i := 1) (f := .list ⟨some ['r'], false, some .none⟩ true 1024 row) rfl (by simp [Schema.name, Schema.hdr])
      (.row (by simp [fieldPrefix]) (.field (i := 0) (f := .scalar ⟨some ['q'], false, some .none⟩ (integerType true 0)) rfl
        (by simp [Schema.name, Schema.hdr]) .here))
  have hd : decimal 7 = ['7'] := by rw [decimal]; rfl
  rw [hd] at h
  exact h

/-- so a non-empty value with this key leads there -/
example : Leads ['_'] schema [.field 1, .row 7, .field 0] (some ['r', '_', '7', '_', 'q']) ['3'] (some ['q']) := C80_key key7 _ (by decide)

/-- the number of the second row is a part of the form: the hypotheses of the theorems about parts are met -/
example : ∃ e, fromFlat ['_'] schema pairs = .ok e ∧ ∃ way s' ps', PartOf ['_'] schema (texts pairs) way s' ps' [1, 1, 0] := by
  cases hr : fromFlat ['_'] schema pairs with
  | error er =>
    have : (fromFlat ['_'] schema pairs).toOption.isSome = true := by decide +kernel
    rw [hr] at this; cases this
  | ok e =>
    have h1 : ((fromFlat ['_'] schema pairs).toOption.bind fun e => elemAt e [1, 1, 0]).isSome = true := by decide +kernel
    rw [hr] at h1
    obtain ⟨k, hk⟩ := Option.isSome_iff_exists.1 (show (elemAt e [1, 1, 0]).isSome = true from h1)
    refine ⟨e, rfl, ?_⟩
    rcases C80_nothing_else goodSep (by decide) schema pairs e hr [1, 1, 0] k hk with h | ⟨way, h, prune, m, ps', pos', j, hp, hpos, _⟩
    · exact h
    · exact absurd (rowForm_part hp schema_rows) (by intro h; cases h)

/-- the hypotheses of `C80_valid` are met: no validators, every field required.  The number of row 2 is missing, so the order is invalid. -/
example (e : Elem) (hr : fromFlat ['_'] schema pairs = .ok e) (noter : Elem → Pos → Noter) (st : VState Pos (Pos → List PStr)) :=
  C80_valid (fun x => x) goodSep (by decide) schema schema_rows pairs e hr (fun _ => {}) (fun _ => []) noter (fun _ => rfl) (fun _ => rfl)
    (fun _ _ _ _ _ _ => rfl) (fun _ _ _ _ _ _ _ _ c hc => by cases hc) (fun _ c hc => by cases hc) st

example : ((fromFlat ['_'] schema pairs).toOption.bind fun e =>
    (validateForm e (fun _ => {}) 19 ⟨fun _ => .unevaluated, fun _ => []⟩).map fun r => (r.result, r.state.flag [1, 0, 0], r.state.flag [1, 1, 0])) =
    some (.ok false, .no, .yes) := by decide +kernel

end PartsExample
end Flatland
