import Verif.Spec.Markup
import Verif.Proofs.Escape
import Verif.Proofs.Mappings
import Verif.Proofs.Properties
/-
Lemmas for C54 and C56–C59.
-/
namespace Flatland
open Spec

section
variable [Runtime] [Casing]

theorem parseTrool_cases (v : HtmlVal) : parseTrool v = .bool true ∨ parseTrool v = .bool false ∨ parseTrool v = .maybe := by
  have hw : ∀ s : PStr, (if s ∈ troolYes then HtmlVal.bool true else if s ∈ troolNo then .bool false else .maybe) = .bool true ∨
      (if s ∈ troolYes then HtmlVal.bool true else if s ∈ troolNo then .bool false else .maybe) = .bool false ∨
      (if s ∈ troolYes then HtmlVal.bool true else if s ∈ troolNo then .bool false else .maybe) = .maybe := by
    intro s
    split
    · simp
    · split <;> simp
  cases v with
  | bool b => cases b <;> simp [parseTrool]
  | maybe => simp [parseTrool]
  | _ => exact hw _

omit [Runtime] [Casing] in
theorem autoKeys_default : ∀ k ∈ autoKeys, k ∈ documentedOptions := by decide

omit [Runtime] [Casing] in
theorem documented_default (k : PStr) : k ∈ documentedOptions ↔ k ∈ dictKeys defaultFrame := by
  have h1 : ∀ k ∈ documentedOptions, k ∈ dictKeys defaultFrame := by decide
  have h2 : ∀ k ∈ dictKeys defaultFrame, k ∈ documentedOptions := by decide
  exact ⟨h1 k, h2 k⟩

omit [Runtime] [Casing] in
theorem default_on : ∀ k ∈ autoKeys, (isOn ((dictGet defaultFrame k).getD .none) = true ↔ DefaultOn k) := by
  intro k hk
  simp only [autoKeys, List.mem_cons, List.not_mem_nil, or_false] at hk
  unfold DefaultOn
  rcases hk with rfl | rfl | rfl | rfl | rfl | rfl <;> decide

theorem popToggle_ok {key : PStr} (hk : key ∈ autoKeys) {s : TagState} (hf : FullFrame s.frame) :
    ∃ p f, popToggle key s = .ok (p, f, s.del key) ∧ (p = true ↔ SwitchedOn s.attrs s.frame key) ∧ (f = true ↔ Forced s.attrs key) := by
  unfold popToggle SwitchedOn Forced given option
  generalize hv : parseTrool ((dictGet s.attrs key).getD .maybe) = v
  have hc := parseTrool_cases ((dictGet s.attrs key).getD .maybe)
  rw [hv] at hc
  obtain ⟨c, hcc⟩ := Option.isSome_iff_exists.1 (hf key (autoKeys_default key hk))
  have hcc' : dictGet (s.del key).frame key = some c := hcc
  have hd := default_on key hk
  rcases hc with rfl | rfl | rfl
  · exact ⟨true, true, by simp [isOn], by simp, by simp⟩
  · exact ⟨false, false, by simp [isOn], by simp, by simp⟩
  · simp only [if_true, hcc', hcc, Option.getD_some]
    rcases parseTrool_cases c with h | h | h
    · exact ⟨true, false, by simp [h, isOn], by simp [h], by simp⟩
    · exact ⟨false, false, by simp [h, isOn], by simp [h], by simp⟩
    · exact ⟨_, false, by rw [h, if_pos rfl]; rfl, by rw [hd]; simp [h], by simp⟩

end

/-- what a transform does to the attributes besides its decision -/
structure Stage (auto : PStr) (W : List PStr) (s s' : TagState) : Prop where
  dict : DictLike s'.attrs
  gone : dictGet s'.attrs auto = .none
  same : ∀ k, k ≠ auto → k ∉ W → dictGet s'.attrs k = dictGet s.attrs k

theorem stage_del (auto : PStr) (W : List PStr) {s : TagState} (h : DictLike s.attrs) : Stage auto W s (s.del auto) where
  dict := nodup_dictKeys_del h auto
  gone := by show dictGet (dictDel s.attrs auto) auto = .none; rw [dictGet_del _ _ _ h, if_pos rfl]
  same k hk _ := by show dictGet (dictDel s.attrs auto) k = _; rw [dictGet_del _ _ _ h, if_neg hk]

theorem stage_put {auto : PStr} {W : List PStr} {s s' : TagState} (h : Stage auto W s s') {k : PStr} (hk : k ≠ auto) (hw : k ∈ W) (v : HtmlVal) :
    Stage auto W s (s'.put k v) where
  dict := nodup_dictKeys_put h.dict k v
  gone := by show dictGet (dictPut s'.attrs k v) auto = .none; rw [dictGet_put, if_neg (Ne.symm hk)]; exact h.gone
  same k' h1 h2 := by
    show dictGet (dictPut s'.attrs k v) k' = _
    rw [dictGet_put, if_neg (by rintro rfl; exact h2 hw)]; exact h.same k' h1 h2

theorem stage_rem {auto : PStr} {W : List PStr} {s s' : TagState} (h : Stage auto W s s') {k : PStr} (hk : k ≠ auto) (hw : k ∈ W) :
    Stage auto W s (s'.del k) where
  dict := nodup_dictKeys_del h.dict k
  gone := by show dictGet (dictDel s'.attrs k) auto = .none; rw [dictGet_del _ _ _ h.dict, if_neg (Ne.symm hk)]; exact h.gone
  same k' h1 h2 := by
    show dictGet (dictDel s'.attrs k) k' = _
    rw [dictGet_del _ _ _ h.dict, if_neg (by rintro rfl; exact h2 hw)]; exact h.same k' h1 h2

theorem attrGet_del {s : TagState} (h : DictLike s.attrs) {k k' : PStr} (hk : k' ≠ k) : attrGet (s.del k).attrs k' = attrGet s.attrs k' := by
  show (dictGet (dictDel s.attrs k) k').getD .none = _
  rw [dictGet_del _ _ _ h, if_neg hk]; rfl

theorem get_put (s : TagState) (k : PStr) (v : HtmlVal) : dictGet (s.put k v).attrs k = some v := by
  show dictGet (dictPut s.attrs k v) k = _
  rw [dictGet_put, if_pos rfl]

theorem get_put_ne (s : TagState) {k k' : PStr} (v : HtmlVal) (h : k' ≠ k) : dictGet (s.put k v).attrs k' = dictGet s.attrs k' := by
  show dictGet (dictPut s.attrs k v) k' = _
  rw [dictGet_put, if_neg h]

theorem get_del {s : TagState} (hn : DictLike s.attrs) (k k' : PStr) : dictGet (s.del k).attrs k' = if k' = k then .none else dictGet s.attrs k' :=
  dictGet_del _ _ _ hn

section
variable [Runtime] [Casing]

omit [Runtime] [Casing] in
theorem ok_bind {α β : Type} (a : α) (f : α → Except PyErr β) : (Except.ok a >>= f) = f a := rfl
omit [Runtime] [Casing] in
theorem error_bind {α β : Type} (e : PyErr) (f : α → Except PyErr β) : (Except.error e >>= f) = .error e := rfl

/-! ### name -/

theorem transformName_spec (tag : PStr) (bd : Option Bind) {s : TagState} (hd : DictLike s.attrs) (hf : FullFrame s.frame) :
    ∃ s', transformName tag bd s = .ok s' ∧ Stage kAutoName [kName] s s' ∧ s'.contents = s.contents ∧ s'.frame = s.frame ∧
      (∀ b, bd = some b → b.name ≠ [] → Generated s.attrs s.frame kAutoName kName nameTags tag → dictGet s'.attrs kName = some (.text b.name)) ∧
      ((¬ ∃ b, bd = some b ∧ b.name ≠ [] ∧ Generated s.attrs s.frame kAutoName kName nameTags tag) → dictGet s'.attrs kName = dictGet s.attrs kName) := by
  obtain ⟨p, f, hp, h1, h2⟩ := popToggle_ok (key := kAutoName) (by decide) hf
  have hst := stage_del kAutoName [kName] hd
  have hsame := hst.same kName (by decide)
  have hnm : dictGet (s.del kAutoName).attrs kName = dictGet s.attrs kName := by
    rw [get_del hd, if_neg (by decide)]
  have hag : attrGet (s.del kAutoName).attrs kName = attrGet s.attrs kName := attrGet_del hd (by decide)
  unfold transformName
  rw [hp]
  rw [ok_bind]
  simp only []
  cases bd with
  | none => exact ⟨_, rfl, hst, rfl, rfl, by simp, fun _ => hnm⟩
  | some b =>
    simp only
    by_cases hpp : p = true
    · rw [hpp]
      by_cases hb : b.name = []
      · simp only [Bool.not_true, Bool.false_eq_true, if_false, if_pos hb]
        exact ⟨_, rfl, hst, rfl, rfl, by simp [hb], fun _ => hnm⟩
      · simp only [Bool.not_true, Bool.false_eq_true, if_false, if_neg hb, hag]
        by_cases hg : f = true ∨ (attrGet s.attrs kName = .none ∧ tag ∈ nameTags)
        · rw [if_pos (by simpa using hg)]
          refine ⟨_, rfl, stage_put hst (by decide) (by simp) _, rfl, rfl, ?_, ?_⟩
          · intro b' hb' _ _
            cases hb'
            exact get_put _ _ _
          · intro hno
            exact absurd ⟨b, rfl, hb, h1.1 hpp, by rw [h2] at hg; exact hg⟩ hno
        · rw [if_neg (by simpa using hg)]
          refine ⟨_, rfl, hst, rfl, rfl, ?_, fun _ => hnm⟩
          intro _ _ _ hgen
          exact absurd (by rw [h2]; exact hgen.2) hg
    · have : p = false := by simpa using hpp
      simp only [this, Bool.not_false, if_true]
      exact ⟨_, rfl, hst, rfl, rfl, fun _ _ _ hgen => absurd (h1.2 hgen.1) hpp, fun _ => hnm⟩

/-! ### value -/

omit [Runtime] [Casing] in
theorem eqText_iff (v : HtmlVal) (t : PStr) : v.eqText t = true ↔ IsText v t := by
  cases v <;> simp [HtmlVal.eqText, IsText]

omit [Casing] in
theorem bindMatches_ok {b : Bind} {v : HtmlVal} {on : Bool} (h : bindMatches b v = .ok on) : on = true ↔ ShowsValue b v := by
  unfold bindMatches at h
  unfold ShowsValue
  cases hk : b.kind with
  | array t ms =>
    rw [hk] at h
    simp only [arrayHas] at h
    generalize hr : scalarSet t .fresh v.toPy = r at h
    obtain ⟨e, x⟩ := r
    cases x with
    | error er => cases h
    | ok _ =>
      simp only [Except.ok.injEq] at h
      subst h
      simp only [List.any_eq_true, Bool.and_eq_true, beq_iff_eq, hr]
  | boolean t => rw [hk] at h; simp only [Except.ok.injEq] at h; rw [← h]; exact eqText_iff _ _
  | plain => rw [hk] at h; simp only [Except.ok.injEq] at h; rw [← h]; exact eqText_iff _ _

/-- the outcome of transform_value for a bound tag where it is on -/
structure ValueDone (tag : PStr) (b : Bind) (s s' : TagState) : Prop where
  box : controlOf tag s.attrs = .box →
    (ShowsValue b (boxStands b s.attrs) → dictGet s'.attrs kChecked = some (.text kChecked)) ∧
    (¬ ShowsValue b (boxStands b s.attrs) → dictGet s'.attrs kChecked = .none) ∧
    (∀ t, b.kind = .boolean t → IsText (attrGet s.attrs kType) "checkbox".toList → attrGet s.attrs kValue = .none → dictGet s'.attrs kValue = some (.text t)) ∧
    ((¬ ∃ t, b.kind = .boolean t ∧ IsText (attrGet s.attrs kType) "checkbox".toList ∧ attrGet s.attrs kValue = .none) →
      dictGet s'.attrs kValue = dictGet s.attrs kValue)
  choice : controlOf tag s.attrs = .choice →
    (ShowsValue b (choiceStands s.attrs s.contents) → dictGet s'.attrs kSelected = some (.text kSelected)) ∧
    (¬ ShowsValue b (choiceStands s.attrs s.contents) → dictGet s'.attrs kSelected = .none)
  secret : controlOf tag s.attrs = .secret →
    (Forced s.attrs kAutoValue → dictGet s'.attrs kValue = some (.text b.u)) ∧
    (¬ Forced s.attrs kAutoValue → dictGet s'.attrs kValue = dictGet s.attrs kValue)
  area : controlOf tag s.attrs = .area →
    (s.contents = .none ∨ Forced s.attrs kAutoValue → s'.contents = .markup (markupEscape b.u)) ∧
    (¬ (s.contents = .none ∨ Forced s.attrs kAutoValue) → s'.contents = s.contents)
  field : controlOf tag s.attrs = .field →
    (attrGet s.attrs kValue = .none ∨ Forced s.attrs kAutoValue → dictGet s'.attrs kValue = some (.text b.u)) ∧
    (¬ (attrGet s.attrs kValue = .none ∨ Forced s.attrs kAutoValue) → dictGet s'.attrs kValue = dictGet s.attrs kValue)
  value_kept : controlOf tag s.attrs = .choice ∨ controlOf tag s.attrs = .area → dictGet s'.attrs kValue = dictGet s.attrs kValue
  checked_kept : controlOf tag s.attrs ≠ .box → dictGet s'.attrs kChecked = dictGet s.attrs kChecked
  selected_kept : controlOf tag s.attrs ≠ .choice → dictGet s'.attrs kSelected = dictGet s.attrs kSelected
  contents_kept : controlOf tag s.attrs ≠ .area → s'.contents = s.contents

section
variable {tag : PStr} {b : Bind} {s s' : TagState}

theorem done_box (hc : controlOf tag s.attrs = .box)
    (h : (ShowsValue b (boxStands b s.attrs) → dictGet s'.attrs kChecked = some (.text kChecked)) ∧
      (¬ ShowsValue b (boxStands b s.attrs) → dictGet s'.attrs kChecked = .none) ∧
      (∀ t, b.kind = .boolean t → IsText (attrGet s.attrs kType) "checkbox".toList → attrGet s.attrs kValue = .none → dictGet s'.attrs kValue = some (.text t)) ∧
      ((¬ ∃ t, b.kind = .boolean t ∧ IsText (attrGet s.attrs kType) "checkbox".toList ∧ attrGet s.attrs kValue = .none) →
        dictGet s'.attrs kValue = dictGet s.attrs kValue))
    (hsel : dictGet s'.attrs kSelected = dictGet s.attrs kSelected) (hcon : s'.contents = s.contents) : ValueDone tag b s s' where
  box _ := h
  choice h := absurd (hc.symm.trans h) (by decide)
  secret h := absurd (hc.symm.trans h) (by decide)
  area h := absurd (hc.symm.trans h) (by decide)
  field h := absurd (hc.symm.trans h) (by decide)
  value_kept h := by rw [hc] at h; exact absurd h (by decide)
  checked_kept h := absurd hc h
  selected_kept _ := hsel
  contents_kept _ := hcon

theorem done_choice (hc : controlOf tag s.attrs = .choice)
    (h : (ShowsValue b (choiceStands s.attrs s.contents) → dictGet s'.attrs kSelected = some (.text kSelected)) ∧
      (¬ ShowsValue b (choiceStands s.attrs s.contents) → dictGet s'.attrs kSelected = .none))
    (hval : dictGet s'.attrs kValue = dictGet s.attrs kValue)
    (hchk : dictGet s'.attrs kChecked = dictGet s.attrs kChecked) (hcon : s'.contents = s.contents) : ValueDone tag b s s' where
  box h := absurd (hc.symm.trans h) (by decide)
  choice _ := h
  secret h := absurd (hc.symm.trans h) (by decide)
  area h := absurd (hc.symm.trans h) (by decide)
  field h := absurd (hc.symm.trans h) (by decide)
  value_kept _ := hval
  checked_kept _ := hchk
  selected_kept h := absurd hc h
  contents_kept _ := hcon

theorem done_secret (hc : controlOf tag s.attrs = .secret)
    (h : (Forced s.attrs kAutoValue → dictGet s'.attrs kValue = some (.text b.u)) ∧
      (¬ Forced s.attrs kAutoValue → dictGet s'.attrs kValue = dictGet s.attrs kValue))
    (hchk : dictGet s'.attrs kChecked = dictGet s.attrs kChecked)
    (hsel : dictGet s'.attrs kSelected = dictGet s.attrs kSelected) (hcon : s'.contents = s.contents) : ValueDone tag b s s' where
  box h := absurd (hc.symm.trans h) (by decide)
  choice h := absurd (hc.symm.trans h) (by decide)
  secret _ := h
  area h := absurd (hc.symm.trans h) (by decide)
  field h := absurd (hc.symm.trans h) (by decide)
  value_kept h := by rw [hc] at h; exact absurd h (by decide)
  checked_kept _ := hchk
  selected_kept _ := hsel
  contents_kept _ := hcon

theorem done_area (hc : controlOf tag s.attrs = .area)
    (h : (s.contents = .none ∨ Forced s.attrs kAutoValue → s'.contents = .markup (markupEscape b.u)) ∧
      (¬ (s.contents = .none ∨ Forced s.attrs kAutoValue) → s'.contents = s.contents))
    (hval : dictGet s'.attrs kValue = dictGet s.attrs kValue)
    (hchk : dictGet s'.attrs kChecked = dictGet s.attrs kChecked)
    (hsel : dictGet s'.attrs kSelected = dictGet s.attrs kSelected) : ValueDone tag b s s' where
  box h := absurd (hc.symm.trans h) (by decide)
  choice h := absurd (hc.symm.trans h) (by decide)
  secret h := absurd (hc.symm.trans h) (by decide)
  area _ := h
  field h := absurd (hc.symm.trans h) (by decide)
  value_kept _ := hval
  checked_kept _ := hchk
  selected_kept _ := hsel
  contents_kept h := absurd hc h

theorem done_field (hc : controlOf tag s.attrs = .field)
    (h : (attrGet s.attrs kValue = .none ∨ Forced s.attrs kAutoValue → dictGet s'.attrs kValue = some (.text b.u)) ∧
      (¬ (attrGet s.attrs kValue = .none ∨ Forced s.attrs kAutoValue) → dictGet s'.attrs kValue = dictGet s.attrs kValue))
    (hchk : dictGet s'.attrs kChecked = dictGet s.attrs kChecked)
    (hsel : dictGet s'.attrs kSelected = dictGet s.attrs kSelected) (hcon : s'.contents = s.contents) : ValueDone tag b s s' where
  box h := absurd (hc.symm.trans h) (by decide)
  choice h := absurd (hc.symm.trans h) (by decide)
  secret h := absurd (hc.symm.trans h) (by decide)
  area h := absurd (hc.symm.trans h) (by decide)
  field _ := h
  value_kept h := by rw [hc] at h; exact absurd h (by decide)
  checked_kept _ := hchk
  selected_kept _ := hsel
  contents_kept _ := hcon
end

/-- nothing shown -/
structure ValueOff (s s' : TagState) : Prop where
  same : ∀ k, k ≠ kAutoValue → dictGet s'.attrs k = dictGet s.attrs k
  contents : s'.contents = s.contents

omit [Runtime] [Casing] in
theorem boxStands_eq (b : Bind) (s : TagState) (cb : Bool) (h : cb = true ↔ IsText (attrGet s.attrs kType) "checkbox".toList) :
    (boxValue b cb s).1 = boxStands b s.attrs ∧
    ((boxValue b cb s).2 = s ∧ (¬ ∃ t, b.kind = .boolean t ∧ IsText (attrGet s.attrs kType) "checkbox".toList ∧ attrGet s.attrs kValue = .none) ∨
     ∃ t, b.kind = .boolean t ∧ IsText (attrGet s.attrs kType) "checkbox".toList ∧ attrGet s.attrs kValue = .none ∧ (boxValue b cb s).2 = s.put kValue (.text t)) := by
  unfold boxValue boxStands
  by_cases hc : IsText (attrGet s.attrs kType) "checkbox".toList
  · have : cb = true := h.2 hc
    subst this
    simp only [if_true, if_pos hc]
    cases hv : attrGet s.attrs kValue with
    | none =>
      cases hk : b.kind with
      | boolean t => exact ⟨rfl, .inr ⟨t, rfl, hc, rfl, rfl⟩⟩
      | array t ms => exact ⟨rfl, .inl ⟨rfl, by simp⟩⟩
      | plain => exact ⟨rfl, .inl ⟨rfl, by simp⟩⟩
    | _ => exact ⟨rfl, .inl ⟨rfl, by simp⟩⟩
  · have : cb = false := by
      cases cb with
      | false => rfl
      | true => exact absurd (h.1 rfl) hc
    subst this
    simp only [Bool.false_eq_true, if_false, if_neg hc]
    exact ⟨trivial, .inl ⟨trivial, fun ⟨_, _, h2, _⟩ => hc h2⟩⟩

theorem transformValue_spec (tag : PStr) (bd : Option Bind) {s s' : TagState} (hd : DictLike s.attrs) (hf : FullFrame s.frame)
    (h : transformValue tag bd s = .ok s') :
    Stage kAutoValue [kValue, kChecked, kSelected] s s' ∧ s'.frame = s.frame ∧
      (∀ b, bd = some b → ValueOn s.attrs s.frame tag → ValueDone tag b s s') ∧
      ((¬ ∃ b, bd = some b ∧ ValueOn s.attrs s.frame tag) → ValueOff s s') := by
  obtain ⟨p, f, hp, h1, h2⟩ := popToggle_ok (key := kAutoValue) (by decide) hf
  have hst := stage_del kAutoValue [kValue, kChecked, kSelected] hd
  have hoff : ValueOff s (s.del kAutoValue) := ⟨fun k hk => by rw [get_del hd, if_neg hk], rfl⟩
  unfold transformValue at h
  rw [hp, ok_bind] at h
  simp only [] at h
  cases bd with
  | none =>
    simp only [Except.ok.injEq] at h
    subst h
    exact ⟨hst, rfl, by simp, fun _ => hoff⟩
  | some b =>
    simp only [] at h
    by_cases hpp : p = true
    case neg =>
      have : p = false := by simpa using hpp
      simp only [this, Bool.not_false, if_true, Except.ok.injEq] at h
      subst h
      exact ⟨hst, rfl, fun _ _ hon => absurd (h1.2 hon.1) hpp, fun _ => hoff⟩
    rw [hpp] at h
    simp only [Bool.not_true, Bool.false_eq_true, if_false] at h
    by_cases hft : f = true ∨ tag ∈ valueTags
    case neg =>
      rw [if_pos (by simpa using hft)] at h
      simp only [Except.ok.injEq] at h
      subst h
      exact ⟨hst, rfl, fun _ _ hon => absurd (by rw [h2]; exact hon.2) hft, fun _ => hoff⟩
    have hcond : ¬ (!f && !decide (tag ∈ valueTags)) = true := by
      rcases hft with hh | hh
      · simp [hh]
      · simp [hh]
    rw [if_neg hcond] at h
    have hon : ValueOn s.attrs s.frame tag := ⟨h1.1 hpp, by rw [h2] at hft; exact hft⟩
    have hno : ∀ P : Prop, (¬ ∃ b', some b = some b' ∧ ValueOn s.attrs s.frame tag) → P := fun P hn => absurd ⟨b, rfl, hon⟩ hn
    -- lookups after the switch is gone
    have hval : dictGet (s.del kAutoValue).attrs kValue = dictGet s.attrs kValue := by rw [get_del hd, if_neg (by decide)]
    have hchk : dictGet (s.del kAutoValue).attrs kChecked = dictGet s.attrs kChecked := by rw [get_del hd, if_neg (by decide)]
    have hsel : dictGet (s.del kAutoValue).attrs kSelected = dictGet s.attrs kSelected := by rw [get_del hd, if_neg (by decide)]
    have hagv : attrGet (s.del kAutoValue).attrs kValue = attrGet s.attrs kValue := attrGet_del hd (by decide)
    have hagt : attrGet (s.del kAutoValue).attrs kType = attrGet s.attrs kType := attrGet_del hd (by decide)
    have hsub : ∀ t : PStr, t ≠ [] → (((dictGet (s.del kAutoValue).attrs kType).getD (.text [])).eqText t = true ↔ IsText (attrGet s.attrs kType) t) := by
      intro t ht
      rw [eqText_iff, ← hagt]
      unfold attrGet
      cases dictGet (s.del kAutoValue).attrs kType with
      | none => simp [IsText, Ne.symm ht]
      | some v => simp
    have hbs : boxStands b (s.del kAutoValue).attrs = boxStands b s.attrs := by
      unfold boxStands; rw [hagt, hagv, hval]
    have hcs : choiceStands (s.del kAutoValue).attrs (s.del kAutoValue).contents = choiceStands s.attrs s.contents := by
      unfold choiceStands; rw [hagv]; rfl
    -- the field case, for two branches
    have fieldDone : controlOf tag s.attrs = .field → (.ok (fillValue b f (s.del kAutoValue)) : Except PyErr TagState) = .ok s' →
        Stage kAutoValue [kValue, kChecked, kSelected] s s' ∧ s'.frame = s.frame ∧
        (∀ b', some b = some b' → ValueOn s.attrs s.frame tag → ValueDone tag b' s s') ∧
        ((¬ ∃ b', some b = some b' ∧ ValueOn s.attrs s.frame tag) → ValueOff s s') := by
      intro hc h
      simp only [Except.ok.injEq] at h
      subst h
      unfold fillValue
      rw [hagv]
      by_cases hg : attrGet s.attrs kValue = .none ∨ f = true
      · rw [if_pos (by simpa using hg)]
        refine ⟨stage_put hst (by decide) (by decide) _, rfl, ?_, hno _⟩
        intro b' hb' _
        cases hb'
        rw [h2] at hg
        refine done_field hc ?_ ?_ ?_ ?_
        · exact ⟨fun _ => get_put _ _ _, fun hn => absurd hg hn⟩
        · rw [get_put_ne _ _ (by decide)]; exact hchk
        · rw [get_put_ne _ _ (by decide)]; exact hsel
        · rfl
      · rw [if_neg (by simpa using hg)]
        refine ⟨hst, rfl, ?_, hno _⟩
        intro b' hb' _
        cases hb'
        rw [h2] at hg
        refine done_field hc ?_ ?_ ?_ ?_
        · exact ⟨fun hn => absurd hn hg, fun _ => hval⟩
        · exact hchk
        · exact hsel
        · rfl
    by_cases htag : tag = "input".toList
    · rw [if_pos htag] at h
      have hco : controlOf tag s.attrs = (if IsText (attrGet s.attrs kType) "radio".toList ∨ IsText (attrGet s.attrs kType) "checkbox".toList then .box
          else if IsText (attrGet s.attrs kType) "password".toList ∨ IsText (attrGet s.attrs kType) "file".toList ∨ IsText (attrGet s.attrs kType) "image".toList then .secret
          else .field) := by
        unfold controlOf
        rw [htag, if_neg (by decide), if_neg (by decide), if_pos rfl]
      by_cases hbox : IsText (attrGet s.attrs kType) "radio".toList ∨ IsText (attrGet s.attrs kType) "checkbox".toList
      · rw [if_pos hbox] at hco
        rw [if_pos (by rw [Bool.or_eq_true, hsub _ (by decide), hsub _ (by decide)]; exact hbox)] at h
        obtain ⟨e1, e2⟩ := boxStands_eq b (s.del kAutoValue) (((dictGet (s.del kAutoValue).attrs kType).getD (.text [])).eqText "checkbox".toList)
          (by rw [hsub _ (by decide), hagt])
        generalize boxValue b (((dictGet (s.del kAutoValue).attrs kType).getD (.text [])).eqText "checkbox".toList) (s.del kAutoValue) = bv at h e1 e2
        obtain ⟨cur, s1⟩ := bv
        simp only [] at h e1 e2
        rw [hbs] at e1
        subst e1
        cases hm : bindMatches b (boxStands b s.attrs) with
        | error e => rw [hm, error_bind] at h; cases h
        | ok on =>
          rw [hm, ok_bind] at h
          simp only [Except.ok.injEq] at h
          have hon' := bindMatches_ok hm
          rw [hagt, hagv] at e2
          -- the state after the value was seen to
          have hs1 : Stage kAutoValue [kValue, kChecked, kSelected] s s1 ∧ s1.frame = s.frame ∧ s1.contents = s.contents ∧
              dictGet s1.attrs kChecked = dictGet s.attrs kChecked ∧ dictGet s1.attrs kSelected = dictGet s.attrs kSelected ∧
              (∀ t, b.kind = .boolean t → IsText (attrGet s.attrs kType) "checkbox".toList → attrGet s.attrs kValue = .none → dictGet s1.attrs kValue = some (.text t)) ∧
              ((¬ ∃ t, b.kind = .boolean t ∧ IsText (attrGet s.attrs kType) "checkbox".toList ∧ attrGet s.attrs kValue = .none) →
                dictGet s1.attrs kValue = dictGet s.attrs kValue) := by
            rcases e2 with ⟨rfl, hnb⟩ | ⟨t, hk, hck, hvn, rfl⟩
            · exact ⟨hst, rfl, rfl, hchk, hsel, fun t a1 a2 a3 => absurd ⟨t, a1, a2, a3⟩ hnb, fun _ => hval⟩
            · refine ⟨stage_put hst (by decide) (by decide) _, rfl, rfl, ?_, ?_, ?_, ?_⟩
              · rw [get_put_ne _ _ (by decide)]; exact hchk
              · rw [get_put_ne _ _ (by decide)]; exact hsel
              · intro t' ht' _ _
                rw [hk] at ht'
                cases ht'
                exact get_put _ _ _
              · intro hnb
                exact absurd ⟨t, hk, hck, hvn⟩ hnb
          obtain ⟨g1, g2, g3, g4, g5, g6, g7⟩ := hs1
          subst h
          unfold markAs
          cases on with
          | true =>
            simp only [if_true]
            refine ⟨stage_put g1 (by decide) (by decide) _, g2, ?_, hno _⟩
            intro b' hb' _
            cases hb'
            have hh := hon'.1 rfl
            refine done_box hco ?_ ?_ ?_
            · refine ⟨fun _ => get_put _ _ _, fun hn => absurd hh hn, ?_, ?_⟩
              · intro t a1 a2 a3; rw [get_put_ne _ _ (by decide)]; exact g6 t a1 a2 a3
              · intro hnb; rw [get_put_ne _ _ (by decide)]; exact g7 hnb
            · rw [get_put_ne _ _ (by decide)]; exact g5
            · exact g3
          | false =>
            simp only [Bool.false_eq_true, if_false]
            refine ⟨stage_rem g1 (by decide) (by decide), g2, ?_, hno _⟩
            intro b' hb' _
            cases hb'
            have hh : ¬ ShowsValue b (boxStands b s.attrs) := fun hh => absurd (hon'.2 hh) (by decide)
            refine done_box hco ?_ ?_ ?_
            · refine ⟨fun hn => absurd hn hh, fun _ => ?_, ?_, ?_⟩
              · rw [get_del g1.dict, if_pos rfl]
              · intro t a1 a2 a3; rw [get_del g1.dict, if_neg (by decide)]; exact g6 t a1 a2 a3
              · intro hnb; rw [get_del g1.dict, if_neg (by decide)]; exact g7 hnb
            · rw [get_del g1.dict, if_neg (by decide)]; exact g5
            · exact g3
      · rw [if_neg hbox] at hco
        rw [if_neg (by rw [Bool.or_eq_true, hsub _ (by decide), hsub _ (by decide)]; exact hbox)] at h
        by_cases hsec : IsText (attrGet s.attrs kType) "password".toList ∨ IsText (attrGet s.attrs kType) "file".toList ∨ IsText (attrGet s.attrs kType) "image".toList
        · rw [if_pos hsec] at hco
          rw [if_pos (by rw [Bool.or_eq_true, Bool.or_eq_true, hsub _ (by decide), hsub _ (by decide), hsub _ (by decide), or_assoc]; exact hsec)] at h
          simp only [Except.ok.injEq] at h
          subst h
          by_cases hff : f = true
          · rw [if_pos hff]
            refine ⟨stage_put hst (by decide) (by decide) _, rfl, ?_, hno _⟩
            intro b' hb' _
            cases hb'
            have hF := h2.1 hff
            refine done_secret hco ?_ ?_ ?_ ?_
            · exact ⟨fun _ => get_put _ _ _, fun hn => absurd hF hn⟩
            · rw [get_put_ne _ _ (by decide)]; exact hchk
            · rw [get_put_ne _ _ (by decide)]; exact hsel
            · rfl
          · rw [if_neg hff]
            refine ⟨hst, rfl, ?_, hno _⟩
            intro b' hb' _
            cases hb'
            have hF : ¬ Forced s.attrs kAutoValue := fun hF => hff (h2.2 hF)
            refine done_secret hco ?_ ?_ ?_ ?_
            · exact ⟨fun hn => absurd hn hF, fun _ => hval⟩
            · exact hchk
            · exact hsel
            · rfl
        · rw [if_neg hsec] at hco
          rw [if_neg (by rw [Bool.or_eq_true, Bool.or_eq_true, hsub _ (by decide), hsub _ (by decide), hsub _ (by decide), or_assoc]; exact hsec)] at h
          exact fieldDone hco h
    · rw [if_neg htag] at h
      by_cases hopt : tag = "option".toList
      · rw [if_pos hopt] at h
        have hco : controlOf tag s.attrs = .choice := by unfold controlOf; rw [if_pos hopt]
        have hov : optionValue (s.del kAutoValue) = choiceStands s.attrs s.contents := by rw [← hcs]; rfl
        rw [hov] at h
        cases hm : bindMatches b (choiceStands s.attrs s.contents) with
        | error e => rw [hm, error_bind] at h; cases h
        | ok on =>
          rw [hm, ok_bind] at h
          simp only [Except.ok.injEq] at h
          have hon' := bindMatches_ok hm
          subst h
          unfold markAs
          cases on with
          | true =>
            simp only [if_true]
            refine ⟨stage_put hst (by decide) (by decide) _, rfl, ?_, hno _⟩
            intro b' hb' _
            cases hb'
            have hh := hon'.1 rfl
            refine done_choice hco ?_ ?_ ?_ ?_
            · exact ⟨fun _ => get_put _ _ _, fun hn => absurd hh hn⟩
            · rw [get_put_ne _ _ (by decide)]; exact hval
            · rw [get_put_ne _ _ (by decide)]; exact hchk
            · rfl
          | false =>
            simp only [Bool.false_eq_true, if_false]
            refine ⟨stage_rem hst (by decide) (by decide), rfl, ?_, hno _⟩
            intro b' hb' _
            cases hb'
            have hh : ¬ ShowsValue b (choiceStands s.attrs s.contents) := fun hh => absurd (hon'.2 hh) (by decide)
            refine done_choice hco ?_ ?_ ?_ ?_
            · exact ⟨fun hn => absurd hn hh, fun _ => by rw [get_del hst.dict, if_pos rfl]⟩
            · rw [get_del hst.dict, if_neg (by decide)]; exact hval
            · rw [get_del hst.dict, if_neg (by decide)]; exact hchk
            · rfl
      · rw [if_neg hopt] at h
        by_cases har : tag = "textarea".toList
        · rw [if_pos har] at h
          have hco : controlOf tag s.attrs = .area := by unfold controlOf; rw [if_neg hopt, if_pos har]
          simp only [Except.ok.injEq] at h
          subst h
          by_cases hg : (s.del kAutoValue).contents = .none ∨ f = true
          · rw [if_pos (by simpa using hg)]
            refine ⟨⟨hst.dict, hst.gone, hst.same⟩, rfl, ?_, hno _⟩
            intro b' hb' _
            cases hb'
            rw [h2] at hg
            refine done_area hco ?_ ?_ ?_ ?_
            · exact ⟨fun _ => rfl, fun hn => absurd hg hn⟩
            · exact hval
            · exact hchk
            · exact hsel
          · rw [if_neg (by simpa using hg)]
            refine ⟨hst, rfl, ?_, hno _⟩
            intro b' hb' _
            cases hb'
            rw [h2] at hg
            refine done_area hco ?_ ?_ ?_ ?_
            · exact ⟨fun hn => absurd hn hg, fun _ => rfl⟩
            · exact hval
            · exact hchk
            · exact hsel
        · rw [if_neg har] at h
          exact fieldDone (by unfold controlOf; rw [if_neg hopt, if_neg har, if_neg htag]) h

/-! ### id and for -/

omit [Casing] in
theorem rawDomid_congr (tag : PStr) {a a' : Attrs} (bd : Option Bind) (h1 : dictGet a kName = dictGet a' kName) (h2 : dictGet a kType = dictGet a' kType)
    (h3 : dictGet a kValue = dictGet a' kValue) : rawDomid tag a bd = rawDomid tag a' bd := by
  have hb : rawBasis a bd = rawBasis a' bd := by
    unfold rawBasis attrGet
    rw [h1]
  have ht : basisIsText a bd = basisIsText a' bd := by
    unfold basisIsText attrGet
    rw [h1]
  unfold rawDomid attrGet
  rw [hb, h2, h3, ht]

theorem transformDomid_spec (tag : PStr) (bd : Option Bind) {s s' : TagState} (hd : DictLike s.attrs) (hf : FullFrame s.frame)
    (h : transformDomid tag bd s = .ok s') :
    Stage kAutoDomid [kId] s s' ∧ s'.frame = s.frame ∧ s'.contents = s.contents ∧
      (¬ Generated s.attrs s.frame kAutoDomid kId idTags tag → dictGet s'.attrs kId = dictGet s.attrs kId) ∧
      (Generated s.attrs s.frame kAutoDomid kId idTags tag → ∃ raw, rawDomid tag s.attrs bd = .ok raw ∧
        (raw = [] → dictGet s'.attrs kId = dictGet s.attrs kId) ∧
        (raw ≠ [] → ∃ x, formatDomid s.frame raw = .ok x ∧ dictGet s'.attrs kId = some (.text x))) := by
  obtain ⟨p, f, hp, h1, h2⟩ := popToggle_ok (key := kAutoDomid) (by decide) hf
  have hst := stage_del kAutoDomid [kId] hd
  have hid : dictGet (s.del kAutoDomid).attrs kId = dictGet s.attrs kId := by rw [get_del hd, if_neg (by decide)]
  have hagi : attrGet (s.del kAutoDomid).attrs kId = attrGet s.attrs kId := attrGet_del hd (by decide)
  have hraw : rawDomid tag (s.del kAutoDomid).attrs bd = rawDomid tag s.attrs bd :=
    rawDomid_congr tag bd (by rw [get_del hd, if_neg (by decide)]) (by rw [get_del hd, if_neg (by decide)]) (by rw [get_del hd, if_neg (by decide)])
  unfold transformDomid at h
  rw [hp, ok_bind] at h
  simp only [hagi, hraw] at h
  by_cases hpp : p = true
  case neg =>
    have : p = false := by simpa using hpp
    simp only [this, Bool.not_false, if_true, Except.ok.injEq] at h
    subst h
    exact ⟨hst, rfl, rfl, fun _ => hid, fun hg => absurd (h1.2 hg.1) hpp⟩
  rw [hpp] at h
  simp only [Bool.not_true, Bool.false_eq_true, if_false] at h
  by_cases hg : f = true ∨ (attrGet s.attrs kId = .none ∧ tag ∈ idTags)
  case neg =>
    rw [if_neg (by simpa using hg)] at h
    simp only [Except.ok.injEq] at h
    subst h
    exact ⟨hst, rfl, rfl, fun _ => hid, fun hgen => absurd (by rw [h2]; exact hgen.2) hg⟩
  rw [if_pos (by simpa using hg)] at h
  have hgen : Generated s.attrs s.frame kAutoDomid kId idTags tag := ⟨h1.1 hpp, by rw [h2] at hg; exact hg⟩
  cases hr : rawDomid tag s.attrs bd with
  | error e => rw [hr, error_bind] at h; cases h
  | ok raw =>
    rw [hr, ok_bind] at h
    by_cases hz : raw = []
    · rw [if_pos hz] at h
      simp only [Except.ok.injEq] at h
      subst h
      exact ⟨hst, rfl, rfl, fun hn => absurd hgen hn, fun _ => ⟨raw, rfl, fun _ => hid, fun hn => absurd hz hn⟩⟩
    · rw [if_neg hz] at h
      have hfr : formatDomid (s.del kAutoDomid).frame raw = formatDomid s.frame raw := rfl
      cases hx : formatDomid s.frame raw with
      | error e => rw [hfr, hx, error_bind] at h; cases h
      | ok x =>
        rw [hfr, hx, ok_bind] at h
        simp only [Except.ok.injEq] at h
        subst h
        exact ⟨stage_put hst (by decide) (by decide) _, rfl, rfl, fun hn => absurd hgen hn,
          fun _ => ⟨raw, rfl, fun hn => absurd hn hz, fun _ => ⟨x, hx, get_put _ _ _⟩⟩⟩

theorem transformFor_spec (tag : PStr) (bd : Option Bind) {s s' : TagState} (hd : DictLike s.attrs) (hf : FullFrame s.frame)
    (h : transformFor tag bd s = .ok s') :
    Stage kAutoFor [kFor] s s' ∧ s'.frame = s.frame ∧ s'.contents = s.contents ∧
      ((bd = .none ∨ ¬ Generated s.attrs s.frame kAutoFor kFor forTags tag) → dictGet s'.attrs kFor = dictGet s.attrs kFor) ∧
      (∀ b, bd = some b → Generated s.attrs s.frame kAutoFor kFor forTags tag → ∃ raw, rawDomid tag s.attrs bd = .ok raw ∧
        (raw = [] → dictGet s'.attrs kFor = dictGet s.attrs kFor) ∧
        (raw ≠ [] → ∃ x, formatDomid s.frame raw = .ok x ∧ dictGet s'.attrs kFor = some (.text x))) := by
  obtain ⟨p, f, hp, h1, h2⟩ := popToggle_ok (key := kAutoFor) (by decide) hf
  have hst := stage_del kAutoFor [kFor] hd
  have hid : dictGet (s.del kAutoFor).attrs kFor = dictGet s.attrs kFor := by rw [get_del hd, if_neg (by decide)]
  have hagi : attrGet (s.del kAutoFor).attrs kFor = attrGet s.attrs kFor := attrGet_del hd (by decide)
  have hraw : ∀ bd, rawDomid tag (s.del kAutoFor).attrs bd = rawDomid tag s.attrs bd := fun bd =>
    rawDomid_congr tag bd (by rw [get_del hd, if_neg (by decide)]) (by rw [get_del hd, if_neg (by decide)]) (by rw [get_del hd, if_neg (by decide)])
  unfold transformFor at h
  rw [hp, ok_bind] at h
  simp only [hagi, hraw] at h
  cases bd with
  | none =>
    simp only [Except.ok.injEq] at h
    subst h
    exact ⟨hst, rfl, rfl, fun _ => hid, by simp⟩
  | some b =>
  simp only [] at h
  by_cases hpp : p = true
  case neg =>
    have : p = false := by simpa using hpp
    simp only [this, Bool.not_false, if_true, Except.ok.injEq] at h
    subst h
    exact ⟨hst, rfl, rfl, fun _ => hid, fun _ _ hg => absurd (h1.2 hg.1) hpp⟩
  rw [hpp] at h
  simp only [Bool.not_true, Bool.false_eq_true, if_false] at h
  by_cases hg : f = true ∨ (attrGet s.attrs kFor = .none ∧ tag ∈ forTags)
  case neg =>
    rw [if_neg (by simpa using hg)] at h
    simp only [Except.ok.injEq] at h
    subst h
    exact ⟨hst, rfl, rfl, fun _ => hid, fun _ _ hgen => absurd (by rw [h2]; exact hgen.2) hg⟩
  rw [if_pos (by simpa using hg)] at h
  have hgen : Generated s.attrs s.frame kAutoFor kFor forTags tag := ⟨h1.1 hpp, by rw [h2] at hg; exact hg⟩
  have hno : ¬ (some b = .none ∨ ¬ Generated s.attrs s.frame kAutoFor kFor forTags tag) := by simp [hgen]
  cases hr : rawDomid tag s.attrs (some b) with
  | error e => rw [hr, error_bind] at h; cases h
  | ok raw =>
    rw [hr, ok_bind] at h
    by_cases hz : raw = []
    · rw [if_pos hz] at h
      simp only [Except.ok.injEq] at h
      subst h
      exact ⟨hst, rfl, rfl, fun hn => absurd hn hno, fun _ _ _ => ⟨raw, rfl, fun _ => hid, fun hn => absurd hz hn⟩⟩
    · rw [if_neg hz] at h
      have hfr : formatDomid (s.del kAutoFor).frame raw = formatDomid s.frame raw := rfl
      cases hx : formatDomid s.frame raw with
      | error e => rw [hfr, hx, error_bind] at h; cases h
      | ok x =>
        rw [hfr, hx, ok_bind] at h
        simp only [Except.ok.injEq] at h
        subst h
        exact ⟨stage_put hst (by decide) (by decide) _, rfl, rfl, fun hn => absurd hn hno,
          fun _ _ _ => ⟨raw, rfl, fun hn => absurd hn hz, fun _ => ⟨x, hx, get_put _ _ _⟩⟩⟩

/-! ### tabindex -/

theorem transformTabindex_spec (tag : PStr) {s s' : TagState} (hd : DictLike s.attrs) (hf : FullFrame s.frame)
    (h : transformTabindex tag s = .ok s') :
    Stage kAutoTabindex [kTabindex] s s' ∧ s'.contents = s.contents ∧
      (¬ Generated s.attrs s.frame kAutoTabindex kTabindex tabindexTags tag → s'.frame = s.frame ∧ dictGet s'.attrs kTabindex = dictGet s.attrs kTabindex) ∧
      (∀ n : Int, dictGet s.frame kTabindex = some (.int n) → Generated s.attrs s.frame kAutoTabindex kTabindex tabindexTags tag →
        (n = 0 → s'.frame = s.frame ∧ dictGet s'.attrs kTabindex = dictGet s.attrs kTabindex) ∧
        (n < 0 → s'.frame = s.frame ∧ dictGet s'.attrs kTabindex = some (.text (decimalInt n))) ∧
        (n > 0 → s'.frame = dictPut s.frame kTabindex (.int (n + 1)) ∧ dictGet s'.attrs kTabindex = some (.text (decimalInt n)))) ∧
      (s'.frame = s.frame ∨ ∃ n : Int, s'.frame = dictPut s.frame kTabindex (.int n)) := by
  obtain ⟨p, f, hp, h1, h2⟩ := popToggle_ok (key := kAutoTabindex) (by decide) hf
  have hst := stage_del kAutoTabindex [kTabindex] hd
  have hid : dictGet (s.del kAutoTabindex).attrs kTabindex = dictGet s.attrs kTabindex := by rw [get_del hd, if_neg (by decide)]
  have hagi : attrGet (s.del kAutoTabindex).attrs kTabindex = attrGet s.attrs kTabindex := attrGet_del hd (by decide)
  have hfr : (s.del kAutoTabindex).frame = s.frame := rfl
  unfold transformTabindex at h
  rw [hp, ok_bind] at h
  simp only [hagi, hfr] at h
  by_cases hpp : p = true
  case neg =>
    have : p = false := by simpa using hpp
    simp only [this, Bool.not_false, if_true, Except.ok.injEq] at h
    subst h
    exact ⟨hst, rfl, fun _ => ⟨rfl, hid⟩, fun _ _ hg => absurd (h1.2 hg.1) hpp, .inl rfl⟩
  rw [hpp] at h
  simp only [Bool.not_true, Bool.false_eq_true, if_false] at h
  cases hn : dictGet s.frame kTabindex with
  | none => rw [hn] at h; cases h
  | some v =>
    rw [hn] at h
    cases v with
    | int n =>
      simp only [] at h
      by_cases hz : n = 0
      · rw [if_pos hz] at h
        simp only [Except.ok.injEq] at h
        subst h
        refine ⟨hst, rfl, fun _ => ⟨rfl, hid⟩, ?_, .inl rfl⟩
        intro m hm _
        cases hm
        exact ⟨fun _ => ⟨rfl, hid⟩, fun hl => by omega, fun hl => by omega⟩
      rw [if_neg hz] at h
      by_cases hg : f = true ∨ (attrGet s.attrs kTabindex = .none ∧ tag ∈ tabindexTags)
      case neg =>
        rw [if_neg (by simpa using hg)] at h
        simp only [Except.ok.injEq] at h
        subst h
        exact ⟨hst, rfl, fun _ => ⟨rfl, hid⟩, fun _ _ hgen => absurd (by rw [h2]; exact hgen.2) hg, .inl rfl⟩
      rw [if_pos (by simpa using hg)] at h
      have hgen : Generated s.attrs s.frame kAutoTabindex kTabindex tabindexTags tag := ⟨h1.1 hpp, by rw [h2] at hg; exact hg⟩
      have hput := stage_put hst (k := kTabindex) (by decide) (by decide) (.text (decimalInt n))
      by_cases hpos : n > 0
      · rw [if_pos hpos] at h
        simp only [Except.ok.injEq] at h
        subst h
        refine ⟨⟨hput.dict, hput.gone, hput.same⟩, rfl, fun hn' => absurd hgen hn', ?_, .inr ⟨n + 1, rfl⟩⟩
        intro m hm _
        cases hm
        exact ⟨fun hl => by omega, fun hl => by omega, fun _ => ⟨rfl, get_put _ _ _⟩⟩
      · rw [if_neg hpos] at h
        simp only [Except.ok.injEq] at h
        subst h
        refine ⟨hput, rfl, fun hn' => absurd hgen hn', ?_, .inl rfl⟩
        intro m hm _
        cases hm
        exact ⟨fun hl => by omega, fun _ => ⟨rfl, get_put _ _ _⟩, fun hl => by omega⟩
    | _ => cases h

/-! ### filters and the whole -/

theorem transformFilters_spec (fs : List TagFilter) (tag : PStr) {s : TagState} (hf : FullFrame s.frame) :
    (¬ SwitchedOn s.attrs s.frame kAutoFilter → transformFilters fs tag s = .ok (s.del kAutoFilter)) ∧
    (SwitchedOn s.attrs s.frame kAutoFilter →
      transformFilters fs tag s = .ok (fs.foldl (fun s f => if f.tags = [] ∨ tag ∈ f.tags then f.run tag s else s) (s.del kAutoFilter))) := by
  obtain ⟨p, f, hp, h1, h2⟩ := popToggle_ok (key := kAutoFilter) (by decide) hf
  unfold transformFilters
  rw [hp, ok_bind]
  simp only []
  constructor
  · intro hn
    have : p = false := by
      cases p with
      | false => rfl
      | true => exact absurd (h1.1 rfl) hn
    simp [this]
  · intro hy
    simp [h1.2 hy]

theorem transformFilters_nil (tag : PStr) {s : TagState} (hf : FullFrame s.frame) : transformFilters [] tag s = .ok (s.del kAutoFilter) := by
  by_cases h : SwitchedOn s.attrs s.frame kAutoFilter
  · exact (transformFilters_spec [] tag hf).2 h
  · exact (transformFilters_spec [] tag hf).1 h

omit [Runtime] [Casing] in
theorem bind_ok {α β : Type} {x : Except PyErr α} {f : α → Except PyErr β} {y : β} (h : (x >>= f) = .ok y) : ∃ a, x = .ok a ∧ f a = .ok y := by
  cases x with
  | error e => cases h
  | ok a => exact ⟨a, rfl, h⟩

/-- the stages of a transform without filters -/
structure Stages (tag : PStr) (bd : Option Bind) (s s1 s2 s3 s4 s5 s6 : TagState) : Prop where
  e1 : transformName tag bd s = .ok s1
  e2 : transformValue tag bd s1 = .ok s2
  e3 : transformDomid tag bd s2 = .ok s3
  e4 : transformFor tag bd s3 = .ok s4
  e5 : transformTabindex tag s4 = .ok s5
  e6 : s6 = s5.del kAutoFilter
  t1 : Stage kAutoName [kName] s s1
  t2 : Stage kAutoValue [kValue, kChecked, kSelected] s1 s2
  t3 : Stage kAutoDomid [kId] s2 s3
  t4 : Stage kAutoFor [kFor] s3 s4
  t5 : Stage kAutoTabindex [kTabindex] s4 s5
  t6 : Stage kAutoFilter [] s5 s6
  f1 : s1.frame = s.frame
  f2 : s2.frame = s.frame
  f3 : s3.frame = s.frame
  f4 : s4.frame = s.frame
  f6 : s6.frame = s5.frame

omit [Runtime] [Casing] in
theorem full_put {f : OptFrame} (h : FullFrame f) (k : PStr) (v : HtmlVal) : FullFrame (dictPut f k v) := by
  intro k' hk'
  rw [dictGet_put]
  split
  · rfl
  · exact h k' hk'

theorem stages_of_ok {tag : PStr} {bd : Option Bind} {s s' : TagState} (hd : DictLike s.attrs) (hf : FullFrame s.frame)
    (h : transformTag [] tag bd s = .ok s') : ∃ s1 s2 s3 s4 s5, Stages tag bd s s1 s2 s3 s4 s5 s' := by
  unfold transformTag at h
  obtain ⟨s1, e1, h⟩ := bind_ok h
  obtain ⟨s2, e2, h⟩ := bind_ok h
  obtain ⟨s3, e3, h⟩ := bind_ok h
  obtain ⟨s4, e4, h⟩ := bind_ok h
  obtain ⟨s5, e5, h⟩ := bind_ok h
  obtain ⟨s1', e1', t1, _, f1, _⟩ := transformName_spec tag bd hd hf
  rw [e1] at e1'
  cases e1'
  obtain ⟨t2, f2, _⟩ := transformValue_spec tag bd t1.dict (by rw [f1]; exact hf) e2
  obtain ⟨t3, f3, _⟩ := transformDomid_spec tag bd t2.dict (by rw [f2, f1]; exact hf) e3
  obtain ⟨t4, f4, _⟩ := transformFor_spec tag bd t3.dict (by rw [f3, f2, f1]; exact hf) e4
  have hf4 : FullFrame s4.frame := by rw [f4, f3, f2, f1]; exact hf
  obtain ⟨t5, _, _, _, f5⟩ := transformTabindex_spec tag t4.dict hf4 e5
  have hf5 : FullFrame s5.frame := by
    rcases f5 with f5 | ⟨n, f5⟩
    · rw [f5]; exact hf4
    · rw [f5]; exact full_put hf4 _ _
  rw [transformFilters_nil tag hf5] at h
  cases h
  exact ⟨s1, s2, s3, s4, s5, e1, e2, e3, e4, e5, rfl, t1, t2, t3, t4, t5, stage_del _ _ t5.dict, f1, by rw [f2, f1], by rw [f3, f2, f1],
    by rw [f4, f3, f2, f1], rfl⟩

/-- attributes seen unchanged up to a stage -/
theorem given_congr {a a' : Attrs} {k : PStr} (h : dictGet a' k = dictGet a k) : given a' k = given a k := by unfold given; rw [h]

theorem generated_congr {a a' : Attrs} {f f' : OptFrame} {key attr : PStr} {tags : List PStr} {tag : PStr} (h1 : dictGet a' key = dictGet a key)
    (h2 : dictGet a' attr = dictGet a attr) (hf : f' = f) : Generated a' f' key attr tags tag ↔ Generated a f key attr tags tag := by
  unfold Generated SwitchedOn Forced attrGet
  rw [given_congr h1, h2, hf]

end

end Flatland
