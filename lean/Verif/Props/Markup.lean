import Verif.Proofs.MarkupIds
/-
C56 – C59: the attribute transforms of the markup generator.

Filters are arbitrary functions a user installs; `C56_filters` reduces every call to a call without filters followed by them.
-/
namespace Flatland
open Spec

section
variable [Runtime] [Casing] {tag : PStr} {bd : Option Bind} {s s' : TagState}

/-! ## C56 -/

/-- Filters only run when auto_filter is on, after everything else, in order, each on the tags it asked for. -/
theorem C56_filters (fs : List TagFilter) (hd : DictLike s.attrs) (hf : FullFrame s.frame) :
    (¬ SwitchedOn s.attrs s.frame kAutoFilter → transformTag fs tag bd s = transformTag [] tag bd s) ∧
    (SwitchedOn s.attrs s.frame kAutoFilter → transformTag fs tag bd s =
      (transformTag [] tag bd s).map (fun s' => fs.foldl (fun s f => if f.tags = [] ∨ tag ∈ f.tags then f.run tag s else s) s')) :=
  transformTag_filters fs tag bd hd hf

/-- No switch is left among the attributes. -/
theorem C56_no_leak (hd : DictLike s.attrs) (hf : FullFrame s.frame) (h : transformTag [] tag bd s = .ok s') :
    ∀ key ∈ autoKeys, dictGet s'.attrs key = .none := by
  obtain ⟨_, _, _, _, _, st⟩ := stages_of_ok hd hf h
  exact st.gone

/-- Attributes other than the generated ones are as they were given. -/
theorem C56_others (hd : DictLike s.attrs) (hf : FullFrame s.frame) (h : transformTag [] tag bd s = .ok s') {k : PStr} (h1 : k ∉ autoKeys)
    (h2 : k ∉ generatedKeys) : dictGet s'.attrs k = dictGet s.attrs k := by
  obtain ⟨_, _, _, _, _, st⟩ := stages_of_ok hd hf h
  exact st.others h1 h2

/-- The name is generated exactly when it should be. -/
theorem C56_name (hd : DictLike s.attrs) (hf : FullFrame s.frame) (h : transformTag [] tag bd s = .ok s') :
    (∀ b, bd = some b → b.name ≠ [] → Generated s.attrs s.frame kAutoName kName tagsWithName tag → dictGet s'.attrs kName = some (.text b.name)) ∧
    ((¬ ∃ b, bd = some b ∧ b.name ≠ [] ∧ Generated s.attrs s.frame kAutoName kName tagsWithName tag) → dictGet s'.attrs kName = dictGet s.attrs kName) := by
  obtain ⟨_, _, _, _, _, st⟩ := stages_of_ok hd hf h
  exact st.name hd hf

/-- A switch that is off leaves what it governs alone. -/
theorem C56_off (hd : DictLike s.attrs) (hf : FullFrame s.frame) (h : transformTag [] tag bd s = .ok s') :
    (¬ SwitchedOn s.attrs s.frame kAutoName → dictGet s'.attrs kName = dictGet s.attrs kName) ∧
    (¬ SwitchedOn s.attrs s.frame kAutoValue → (∀ k ∈ [kValue, kChecked, kSelected], dictGet s'.attrs k = dictGet s.attrs k) ∧ s'.contents = s.contents) ∧
    (¬ SwitchedOn s.attrs s.frame kAutoDomid → dictGet s'.attrs kId = dictGet s.attrs kId) ∧
    (¬ SwitchedOn s.attrs s.frame kAutoFor → dictGet s'.attrs kFor = dictGet s.attrs kFor) ∧
    (¬ SwitchedOn s.attrs s.frame kAutoTabindex → dictGet s'.attrs kTabindex = dictGet s.attrs kTabindex ∧ s'.frame = s.frame) := by
  obtain ⟨_, _, _, _, _, st⟩ := stages_of_ok hd hf h
  refine ⟨fun hn => (st.name hd hf).2 (fun ⟨_, _, _, hg⟩ => hn hg.1), fun hn => (st.value hd hf).2 (fun ⟨_, _, hg⟩ => hn hg.1),
    fun hn => (st.domid hf).1 (fun hg => hn hg.1), fun hn => (st.forr hf).1 (.inr fun hg => hn hg.1), fun hn => ?_⟩
  have := (st.tabindex hf).1 (fun hg => hn hg.1)
  exact ⟨this.2, this.1⟩

/-- Unless asked for explicitly, nothing that was given is replaced. -/
theorem C56_keeps (hd : DictLike s.attrs) (hf : FullFrame s.frame) (h : transformTag [] tag bd s = .ok s') :
    (¬ Forced s.attrs kAutoName → attrGet s.attrs kName ≠ .none → dictGet s'.attrs kName = dictGet s.attrs kName) ∧
    (¬ Forced s.attrs kAutoValue → attrGet s.attrs kValue ≠ .none → dictGet s'.attrs kValue = dictGet s.attrs kValue) ∧
    (¬ Forced s.attrs kAutoValue → s.contents ≠ .none → s'.contents = s.contents) ∧
    (¬ Forced s.attrs kAutoDomid → attrGet s.attrs kId ≠ .none → dictGet s'.attrs kId = dictGet s.attrs kId) ∧
    (¬ Forced s.attrs kAutoFor → attrGet s.attrs kFor ≠ .none → dictGet s'.attrs kFor = dictGet s.attrs kFor) ∧
    (¬ Forced s.attrs kAutoTabindex → attrGet s.attrs kTabindex ≠ .none → dictGet s'.attrs kTabindex = dictGet s.attrs kTabindex) := by
  obtain ⟨_, _, _, _, _, st⟩ := stages_of_ok hd hf h
  have ng : ∀ {key attr tags}, ¬ Forced s.attrs key → attrGet s.attrs attr ≠ .none → ¬ Generated s.attrs s.frame key attr tags tag :=
    fun h1 h2 hg => hg.2.elim h1 (fun h => h2 h.1)
  obtain ⟨v1, v2⟩ := st.value hd hf
  refine ⟨fun h1 h2 => (st.name hd hf).2 (fun ⟨_, _, _, hg⟩ => ng h1 h2 hg), fun h1 h2 => ?_, fun h1 h2 => ?_,
    fun h1 h2 => (st.domid hf).1 (ng h1 h2), fun h1 h2 => (st.forr hf).1 (.inr (ng h1 h2)), fun h1 h2 => ((st.tabindex hf).1 (ng h1 h2)).2⟩
  · by_cases hv : ∃ b, bd = some b ∧ ValueOn s.attrs s.frame tag
    · obtain ⟨b, hb, hon⟩ := hv
      have d := v1 b hb hon
      cases hc : controlOf tag s.attrs with
      | box => exact (d.box hc).2.2.2 (fun ⟨_, _, _, hn⟩ => h2 hn)
      | secret => exact (d.secret hc).2 h1
      | choice => exact d.value_kept (.inl hc)
      | area => exact d.value_kept (.inr hc)
      | field => exact (d.field hc).2 (fun hh => hh.elim h2 h1)
    · exact (v2 hv).1 kValue (by decide)
  · by_cases hv : ∃ b, bd = some b ∧ ValueOn s.attrs s.frame tag
    · obtain ⟨b, hb, hon⟩ := hv
      have d := v1 b hb hon
      by_cases hc : controlOf tag s.attrs = .area
      · exact (d.area hc).2 (fun hh => hh.elim h2 h1)
      · exact d.contents_kept hc
    · exact (v2 hv).2

/-- Where the value is shown: text inputs, buttons and the like get it as their value, a textarea as its contents; password, file and
image inputs only when asked for explicitly. -/
theorem C56_value (hd : DictLike s.attrs) (hf : FullFrame s.frame) {b : Bind} (h : transformTag [] tag (some b) s = .ok s')
    (hon : ValueOn s.attrs s.frame tag) :
    (controlOf tag s.attrs = .field → (attrGet s.attrs kValue = .none ∨ Forced s.attrs kAutoValue) → dictGet s'.attrs kValue = some (.text b.u)) ∧
    (controlOf tag s.attrs = .area → (s.contents = .none ∨ Forced s.attrs kAutoValue) → s'.contents = .markup (markupEscape b.u)) ∧
    (controlOf tag s.attrs = .secret → Forced s.attrs kAutoValue → dictGet s'.attrs kValue = some (.text b.u)) ∧
    (controlOf tag s.attrs = .secret → ¬ Forced s.attrs kAutoValue → dictGet s'.attrs kValue = dictGet s.attrs kValue) := by
  obtain ⟨_, _, _, _, _, st⟩ := stages_of_ok hd hf h
  have d := (st.value hd hf).1 b rfl hon
  exact ⟨fun hc => (d.field hc).1, fun hc => (d.area hc).1, fun hc => (d.secret hc).1, fun hc => (d.secret hc).2⟩

/-- The contents of a tag that is not a textarea for an element are what was given. In particular nothing is filled in for a label, although
the documentation of `generator.label` says so. -/
theorem C56_contents (hd : DictLike s.attrs) (hf : FullFrame s.frame) (h : transformTag [] tag bd s = .ok s')
    (hc : bd = .none ∨ tag ≠ "textarea".toList) : s'.contents = s.contents := by
  obtain ⟨_, _, _, _, _, st⟩ := stages_of_ok hd hf h
  obtain ⟨v1, v2⟩ := st.value hd hf
  by_cases hv : ∃ b, bd = some b ∧ ValueOn s.attrs s.frame tag
  · obtain ⟨b, hb, hon⟩ := hv
    refine (v1 b hb hon).contents_kept ?_
    rcases hc with hc | hc
    · rw [hc] at hb; cases hb
    · unfold controlOf
      by_cases h1 : tag = "option".toList
      · rw [if_pos h1]; nofun
      · rw [if_neg h1, if_neg hc]
        by_cases h2 : tag = "input".toList
        · rw [if_pos h2]
          by_cases h3 : IsText (attrGet s.attrs kType) "radio".toList ∨ IsText (attrGet s.attrs kType) "checkbox".toList
          · rw [if_pos h3]; nofun
          · rw [if_neg h3]
            split <;> nofun
        · rw [if_neg h2]; nofun
  · exact (v2 hv).2

/-- Giving 'auto' is the same as giving nothing: it leaves the decision to the option in scope. -/
theorem C56_auto (a : Attrs) (key : PStr) :
    given (dictPut a key (.text "auto".toList)) key = .maybe ∧ (dictGet a key = .none → given a key = .maybe) := by
  constructor
  · unfold given
    rw [dictGet_put, if_pos rfl]
    have : Casing.lower "auto".toList = "auto".toList := by
      rw [Casing.ascii _ (by decide)]
      decide
    simp only [Option.getD_some, parseTrool, HtmlVal.pyStr, this]
    decide
  · intro h
    unfold given
    rw [h]
    rfl

/-! ## C57 -/

/-- From a positive start the automatic tab indexes are consecutive, whatever other tags, failing tags and explicit tab indexes come in
between, and the counter ends up behind the last one. -/
theorem C57_consecutive (f : OptFrame) (n : Int) (hn : n > 0) (hf : FullFrame f) (ht : dictGet f kTabindex = some (.int n)) (calls : List TagUse)
    (hd : ∀ c ∈ calls, DictLike c.attrs) :
    ∃ m : Nat, tabbed f calls (transformSeq calls f).1 = (List.range m).map (fun i => HtmlVal.text (decimalInt (n + Int.ofNat i))) ∧
      dictGet (transformSeq calls f).2 kTabindex = some (.int (n + m)) ∧
      (∀ k, k ≠ kTabindex → dictGet (transformSeq calls f).2 k = dictGet f k) :=
  ⟨_, seq_positive f calls hd f n hn hf rfl ht⟩

/-- Tags that do not take one keep the tab index they were given. -/
theorem C57_others (f : OptFrame) (hf : FullFrame f) (calls : List TagUse) (hd : ∀ c ∈ calls, DictLike c.attrs) (i : Nat) (c : TagUse)
    (t : TagState) (hc : calls[i]? = some c) (hs : (transformSeq calls f).1[i]? = some (some t)) (hno : ¬ TakesTab f c) :
    dictGet t.attrs kTabindex = dictGet c.attrs kTabindex := by
  obtain ⟨f', hf', hk, h⟩ := seq_each calls f hf hd i c t hc hs
  obtain ⟨_, _, _, _, _, st⟩ := stages_of_ok (s := ⟨c.attrs, c.contents, f'⟩) (hd c (List.mem_of_getElem? hc)) hf' h
  exact ((st.tabindex hf').1 (fun hg => hno ((takes_congr (hk _ (by decide)) c).1 hg))).2

/-- A tab index of 0 hands out none, a negative one is handed out as it is; neither changes. -/
theorem C57_steady (f : OptFrame) (n : Int) (hn : n ≤ 0) (hf : FullFrame f) (ht : dictGet f kTabindex = some (.int n)) (calls : List TagUse)
    (hd : ∀ c ∈ calls, DictLike c.attrs) :
    (transformSeq calls f).2 = f ∧ (n < 0 → ∀ v ∈ tabbed f calls (transformSeq calls f).1, v = .text (decimalInt n)) ∧
    (n = 0 → ∀ (i : Nat) (c : TagUse) (t : TagState), calls[i]? = some c → (transformSeq calls f).1[i]? = some (some t) →
      dictGet t.attrs kTabindex = dictGet c.attrs kTabindex) := by
  refine ⟨(seq_steady f n hn hf ht calls hd).1, (seq_steady f n hn hf ht calls hd).2, ?_⟩
  rintro rfl
  have key : ∀ (calls : List TagUse), (∀ c ∈ calls, DictLike c.attrs) → ∀ (i : Nat) (c : TagUse) (t : TagState), calls[i]? = some c →
      (transformSeq calls f).1[i]? = some (some t) → dictGet t.attrs kTabindex = dictGet c.attrs kTabindex := by
    intro calls
    induction calls with
    | nil => intro _ i c t h; simp at h
    | cons c0 r ih =>
      intro hd i c t hc hs
      have ih := ih (fun c hc => hd c (by simp [hc]))
      rw [transformSeq] at hs
      cases hr : transformTag [] c0.tag c0.bound ⟨c0.attrs, c0.contents, f⟩ with
      | error e =>
        rw [hr] at hs
        cases i with
        | zero => simp at hs
        | succ j => exact ih j c t (by simpa using hc) (by simpa using hs)
      | ok s0 =>
        rw [hr] at hs
        obtain ⟨_, _, _, _, _, st⟩ := stages_of_ok (s := ⟨c0.attrs, c0.contents, f⟩) (hd c0 (by simp)) hf hr
        have h0 : s0.frame = f ∧ dictGet s0.attrs kTabindex = dictGet c0.attrs kTabindex := by
          by_cases hg : Generated c0.attrs f kAutoTabindex kTabindex tagsWithTabindex c0.tag
          · exact ((st.tabindex hf).2 0 ht hg).1 rfl
          · exact (st.tabindex hf).1 hg
        cases i with
        | zero =>
          simp only [List.getElem?_cons_zero, Option.some.injEq] at hc hs
          subst hc hs
          exact h0.2
        | succ j =>
          simp only [h0.1] at hs
          exact ih j c t (by simpa using hc) (by simpa using hs)
  exact key calls hd

/-! ## C58 -/

/-- A checkbox or radio button of a bound element is checked exactly when the element has the value it stands for, whatever was given. -/
theorem C58_checked (hd : DictLike s.attrs) (hf : FullFrame s.frame) {b : Bind} (h : transformTag [] tag (some b) s = .ok s')
    (hon : ValueOn s.attrs s.frame tag) (hc : controlOf tag s.attrs = .box) :
    (ShowsValue b (boxStands b s.attrs) → dictGet s'.attrs kChecked = some (.text kChecked)) ∧
    (¬ ShowsValue b (boxStands b s.attrs) → dictGet s'.attrs kChecked = .none) := by
  obtain ⟨_, _, _, _, _, st⟩ := stages_of_ok hd hf h
  have d := ((st.value hd hf).1 b rfl hon).box hc
  exact ⟨d.1, d.2.1⟩

/-- The same for options of a select. -/
theorem C58_selected (hd : DictLike s.attrs) (hf : FullFrame s.frame) {b : Bind} (h : transformTag [] tag (some b) s = .ok s')
    (hon : ValueOn s.attrs s.frame tag) (hc : controlOf tag s.attrs = .choice) :
    (ShowsValue b (choiceStands s.attrs s.contents) → dictGet s'.attrs kSelected = some (.text kSelected)) ∧
    (¬ ShowsValue b (choiceStands s.attrs s.contents) → dictGet s'.attrs kSelected = .none) := by
  obtain ⟨_, _, _, _, _, st⟩ := stages_of_ok hd hf h
  exact ((st.value hd hf).1 b rfl hon).choice hc

/-- A checkbox of a Boolean without a value gets the text of True as its value, so that it is checked exactly when the Boolean is true. -/
theorem C58_boolean (hd : DictLike s.attrs) (hf : FullFrame s.frame) {b : Bind} {t : PStr} (hk : b.kind = .boolean t)
    (h : transformTag [] "input".toList (some b) s = .ok s') (hon : ValueOn s.attrs s.frame "input".toList)
    (hc : IsText (attrGet s.attrs kType) "checkbox".toList) (hv : attrGet s.attrs kValue = .none) :
    dictGet s'.attrs kValue = some (.text t) ∧ (dictGet s'.attrs kChecked = some (.text kChecked) ↔ b.u = t) := by
  obtain ⟨_, _, _, _, _, st⟩ := stages_of_ok hd hf h
  have hbox : controlOf "input".toList s.attrs = .box := (controlOf_box _ _).2 ⟨rfl, .inl hc⟩
  have d := ((st.value hd hf).1 b rfl hon).box hbox
  refine ⟨d.2.2.1 t hk hc hv, ?_⟩
  have hb : boxStands b s.attrs = .text t := by
    unfold boxStands
    rw [if_pos hc, hv, hk]
  have hh : ShowsValue b (boxStands b s.attrs) ↔ b.u = t := by
    rw [hb]
    unfold ShowsValue IsText
    rw [hk]
    simp [eq_comm]
  constructor
  · intro hch
    by_cases hs : ShowsValue b (boxStands b s.attrs)
    · exact hh.1 hs
    · rw [d.2.1 hs] at hch
      cases hch
  · intro hu
    exact d.1 (hh.2 hu)

/-- Other tags, tags without an element and tags where the switch is off keep the marks they were given. -/
theorem C58_others (hd : DictLike s.attrs) (hf : FullFrame s.frame) (h : transformTag [] tag bd s = .ok s') :
    ((bd = .none ∨ ¬ ValueOn s.attrs s.frame tag ∨ controlOf tag s.attrs ≠ .box) → dictGet s'.attrs kChecked = dictGet s.attrs kChecked) ∧
    ((bd = .none ∨ ¬ ValueOn s.attrs s.frame tag ∨ controlOf tag s.attrs ≠ .choice) → dictGet s'.attrs kSelected = dictGet s.attrs kSelected) := by
  obtain ⟨_, _, _, _, _, st⟩ := stages_of_ok hd hf h
  obtain ⟨v1, v2⟩ := st.value hd hf
  by_cases hv : ∃ b, bd = some b ∧ ValueOn s.attrs s.frame tag
  · obtain ⟨b, rfl, hon⟩ := hv
    have d := v1 b rfl hon
    constructor
    · rintro (hc | hc | hc)
      · cases hc
      · exact absurd hon hc
      · exact d.checked_kept hc
    · rintro (hc | hc | hc)
      · cases hc
      · exact absurd hon hc
      · exact d.selected_kept hc
  · exact ⟨fun _ => (v2 hv).1 _ (by decide), fun _ => (v2 hv).1 _ (by decide)⟩

/-! ## C59 -/

/-- The id of a bound control is made of the element's name and, for checkboxes and radio buttons, of the value they end up with. -/
theorem C59_id (hd : DictLike s.attrs) (hf : FullFrame s.frame) {b : Bind} (h : transformTag [] tag (some b) s = .ok s') (hb : b.name ≠ [])
    (hg : Generated s.attrs s.frame kAutoDomid kId tagsWithId tag) {p q : PStr} (hF : IdFormat s.frame p q) :
    dictGet s'.attrs kId = some (.text (p ++ domId tag s'.attrs b.name ++ q)) := by
  obtain ⟨_, _, _, _, _, st⟩ := stages_of_ok hd hf h
  obtain ⟨raw, h1, _, h3⟩ := (st.domid hf).2 hg
  obtain ⟨basis, hb1, hb2⟩ := rawDomid_ok h1
  simp only [rawBasis, Except.ok.injEq] at hb1
  subst hb1
  rw [if_neg hb] at hb2
  subst hb2
  obtain ⟨x, hx, hid⟩ := h3 (domId_ne hb)
  rw [formatDomid_ok hF] at hx
  simp only [Except.ok.injEq] at hx
  rw [hid, hx]

/-- An id can only be made with a format that has `%s` just once, and no other conversion: with another one the call raises. -/
theorem C59_format (hd : DictLike s.attrs) (hf : FullFrame s.frame) {b : Bind} (h : transformTag [] tag (some b) s = .ok s') (hb : b.name ≠ [])
    (hg : Generated s.attrs s.frame kAutoDomid kId tagsWithId tag) :
    ∃ p q, IsText (attrGet s.frame kDomidFormat) (inFormat p ++ '%' :: 's' :: inFormat q) := by
  obtain ⟨_, _, _, _, _, st⟩ := stages_of_ok hd hf h
  obtain ⟨raw, h1, _, h3⟩ := (st.domid hf).2 hg
  obtain ⟨basis, hb1, hb2⟩ := rawDomid_ok h1
  simp only [rawBasis, Except.ok.injEq] at hb1
  subst hb1
  rw [if_neg hb] at hb2
  subst hb2
  obtain ⟨x, hx, -⟩ := h3 (domId_ne hb)
  exact formatDomid_inv hx

/-- Without an element the id is made of the name attribute, which may be a number; without a name no id is made. -/
theorem C59_id_unbound (hd : DictLike s.attrs) (hf : FullFrame s.frame) (h : transformTag [] tag .none s = .ok s')
    (hg : Generated s.attrs s.frame kAutoDomid kId tagsWithId tag) {p q : PStr} (hF : IdFormat s.frame p q) :
    (textOf (attrGet s.attrs kName) ≠ [] → dictGet s'.attrs kId = some (.text (p ++ domId tag s.attrs (textOf (attrGet s.attrs kName)) ++ q))) ∧
    (∀ n : Int, n ≠ 0 → attrGet s.attrs kName = .int n → controlOf tag s.attrs ≠ .box → dictGet s'.attrs kId = some (.text (p ++ decimalInt n ++ q))) ∧
    (NoName (attrGet s.attrs kName) → dictGet s'.attrs kId = dictGet s.attrs kId) := by
  obtain ⟨_, _, _, _, _, st⟩ := stages_of_ok hd hf h
  obtain ⟨raw, h1, h2, h3⟩ := (st.domid hf).2 hg
  obtain ⟨basis, hb1, hb2⟩ := rawDomid_ok h1
  have hn : dictGet s'.attrs kName = dictGet s.attrs kName := (st.name hd hf).2 (by simp)
  have hv : dictGet s'.attrs kValue = dictGet s.attrs kValue := ((st.value hd hf).2 (by simp)).1 _ (by decide)
  have hdm : ∀ x, domId tag s'.attrs x = domId tag s.attrs x := by
    intro x
    unfold domId idSuffix
    rw [controlOf_congr st.type]
    unfold attrGet
    rw [hv]
  have hag : attrGet s'.attrs kName = attrGet s.attrs kName := by unfold attrGet; rw [hn]
  simp only [rawBasis, hag] at hb1
  rw [hdm] at hb2
  have made : basis ≠ [] → dictGet s'.attrs kId = some (.text (p ++ domId tag s.attrs basis ++ q)) := by
    intro hz
    rw [if_neg hz] at hb2
    subst hb2
    obtain ⟨x, hx, hid⟩ := h3 (domId_ne hz)
    rw [formatDomid_ok hF] at hx
    simp only [Except.ok.injEq] at hx
    rw [hid, hx]
  refine ⟨fun hz => ?_, fun n hn hv hc => ?_, fun hz => ?_⟩
  · have hbs : basis = textOf (attrGet s.attrs kName) := by
      cases hv : attrGet s.attrs kName <;> rw [hv] at hb1 hz <;> simp [textOf] at hz
      all_goals
        rw [HtmlVal.truth, bne_iff_ne.2 hz] at hb1
        simpa [HtmlVal.pyStr, textOf, eq_comm] using hb1
    rw [← hbs] at hz ⊢
    exact made hz
  · rw [hv] at hb1
    simp [HtmlVal.truth, hn, HtmlVal.pyStr] at hb1
    subst hb1
    rw [made (decimalInt_nonempty n)]
    unfold domId
    rw [if_neg (fun h => hc h.1)]
  · have hbs : basis = [] := by
      rcases hz with hz | (hz | hz) | hz | hz <;> rw [hz] at hb1 <;> simp [HtmlVal.truth] at hb1 <;> exact hb1
    rw [if_pos hbs] at hb2
    exact h2 hb2

omit [Runtime] [Casing] in
/-- The value part only has allowed characters, and they are those of the value, in order. -/
theorem C59_suffix (tag : PStr) (a : Attrs) (basis : PStr) :
    domId tag a basis = basis ∨ ∃ suffix, domId tag a basis = basis ++ '_' :: suffix ∧ (∀ c ∈ suffix, c ∈ idAllowed) ∧
      suffix.Sublist (textOf (attrGet a kValue)) := by
  unfold domId
  by_cases h : controlOf tag a = .box ∧ idSuffix a ≠ []
  · rw [if_pos h]
    refine .inr ⟨idSuffix a, rfl, ?_, List.filter_sublist⟩
    intro c hc
    have := (List.mem_filter.1 hc).2
    simpa using this
  · rw [if_neg h]
    exact .inl rfl

/-- With the default format and a name of allowed characters, the whole id has only allowed characters and starts with a letter. -/
theorem C59_default_valid (hd : DictLike s.attrs) (hf : FullFrame s.frame) {b : Bind} (h : transformTag [] tag (some b) s = .ok s') (hb : b.name ≠ [])
    (hg : Generated s.attrs s.frame kAutoDomid kId tagsWithId tag) (hF : dictGet s.frame kDomidFormat = dictGet defaultFrame kDomidFormat)
    (hn : ∀ c ∈ b.name, c ∈ idAllowed) :
    ∃ x, dictGet s'.attrs kId = some (.text ('f' :: x)) ∧ ∀ c ∈ x, c ∈ idAllowed := by
  have hfmt : IdFormat s.frame "f_".toList [] := by unfold IdFormat; rw [hF]; decide
  refine ⟨'_' :: domId tag s'.attrs b.name, ?_, ?_⟩
  · rw [C59_id hd hf h hb hg hfmt]
    simp
  · intro c hc
    simp only [List.mem_cons] at hc
    rcases hc with rfl | hc
    · decide
    · rcases C59_suffix tag s'.attrs b.name with e | ⟨suf, e, hs, _⟩
      · rw [e] at hc
        exact hn c hc
      · rw [e] at hc
        simp only [List.mem_append, List.mem_cons] at hc
        rcases hc with hc | rfl | hc
        · exact hn c hc
        · decide
        · exact hs c hc

/-- A label for an element refers to the id of the plain control of that element. -/
theorem C59_for (hd : DictLike s.attrs) (hf : FullFrame s.frame) {b : Bind} (h : transformTag [] tag (some b) s = .ok s') (hb : b.name ≠ [])
    (hg : Generated s.attrs s.frame kAutoFor kFor tagsWithFor tag) {p q : PStr} (hF : IdFormat s.frame p q) :
    dictGet s'.attrs kFor = some (.text (p ++ domId tag s'.attrs b.name ++ q)) := by
  obtain ⟨_, _, _, _, _, st⟩ := stages_of_ok hd hf h
  obtain ⟨raw, h1, _, h3⟩ := (st.forr hf).2 b rfl hg
  obtain ⟨basis, hb1, hb2⟩ := rawDomid_ok h1
  simp only [rawBasis, Except.ok.injEq] at hb1
  subst hb1
  rw [if_neg hb] at hb2
  subst hb2
  obtain ⟨x, hx, hid⟩ := h3 (domId_ne hb)
  rw [formatDomid_ok hF] at hx
  simp only [Except.ok.injEq] at hx
  rw [hid, hx]

/-- The automatic `for` of a label is the automatic id of any control of the same element that is not a checkbox or radio button, wherever
both are, as long as the format is the same. -/
theorem C59_pair {ltag : PStr} {l l' : TagState} (hd : DictLike s.attrs) (hf : FullFrame s.frame) (hdl : DictLike l.attrs) (hfl : FullFrame l.frame)
    {b : Bind} (h : transformTag [] tag (some b) s = .ok s') (hl : transformTag [] ltag (some b) l = .ok l') (hb : b.name ≠ [])
    (hg : Generated s.attrs s.frame kAutoDomid kId tagsWithId tag) (hgl : Generated l.attrs l.frame kAutoFor kFor tagsWithFor ltag)
    {p q : PStr} (hF : IdFormat s.frame p q) (hFl : IdFormat l.frame p q) (hc : controlOf tag s.attrs ≠ .box) (hcl : controlOf ltag l.attrs ≠ .box) :
    dictGet l'.attrs kFor = dictGet s'.attrs kId ∧ dictGet s'.attrs kId = some (.text (p ++ b.name ++ q)) := by
  rw [C59_for hdl hfl hl hb hgl hFl, C59_id hd hf h hb hg hF]
  obtain ⟨_, _, _, _, _, st⟩ := stages_of_ok hd hf h
  obtain ⟨_, _, _, _, _, stl⟩ := stages_of_ok hdl hfl hl
  have e1 : controlOf tag s'.attrs ≠ .box := by rw [controlOf_congr st.type]; exact hc
  have e2 : controlOf ltag l'.attrs ≠ .box := by rw [controlOf_congr stl.type]; exact hcl
  unfold domId
  simp [e1, e2]

omit [Runtime] [Casing] in
/-- Checkboxes of one element whose values have different allowed characters have different ids. -/
theorem C59_distinct (tag : PStr) (a a' : Attrs) (basis : PStr) (h : controlOf tag a = .box) (h' : controlOf tag a' = .box)
    (hne : idSuffix a ≠ idSuffix a') : domId tag a basis ≠ domId tag a' basis := by
  unfold domId
  intro he
  by_cases h1 : idSuffix a = [] <;> by_cases h2 : idSuffix a' = [] <;> simp [h, h', h1, h2] at he hne
  exact hne he

end

/-! ## Non-vacuity, and the limits of C59 -/

section examples
attribute [local instance] Runtime.ascii Spec.asciiCasing

/-- a frame with ids and for switched on -/
def idFrame : OptFrame := dictPut (dictPut defaultFrame kAutoDomid (.bool true)) kAutoFor (.bool true)

def colour : Bind := ⟨"colour".toList, "red".toList, .plain⟩

/-- a text input of the element "colour" -/
def textUse : TagState := ⟨[(kType, .text "text".toList)], .none, idFrame⟩
/-- a radio button for "red" -/
def radioUse (v : String) : TagState := ⟨[(kType, .text "radio".toList), (kValue, .text v.toList)], .none, idFrame⟩
def labelUse : TagState := ⟨[], .none, idFrame⟩

example : FullFrame idFrame ∧ DictLike textUse.attrs ∧ IdFormat idFrame "f_".toList [] := by
  refine ⟨by unfold FullFrame; decide, by unfold DictLike; decide, by unfold IdFormat; decide⟩

example : (transformTag [] "input".toList (some colour) textUse).map (fun s => s.attrs) =
    .ok [(kType, .text "text".toList), (kName, .text "colour".toList), (kValue, .text "red".toList), (kId, .text "f_colour".toList)] := by decide +kernel

example : (transformTag [] "input".toList (some colour) (radioUse "red")).map (fun s => s.attrs) =
    .ok [(kType, .text "radio".toList), (kValue, .text "red".toList), (kName, .text "colour".toList), (kChecked, .text "checked".toList),
      (kId, .text "f_colour_red".toList)] := by decide +kernel

/-- without an element: a name that is False, one that is True; a radio button named True raises -/
example : (transformTag [] "input".toList .none ⟨[(kName, .bool false)], .none, idFrame⟩).map (fun s => s.attrs) = .ok [(kName, .bool false)] ∧
    (transformTag [] "input".toList .none ⟨[(kName, .bool true)], .none, idFrame⟩).map (fun s => s.attrs) =
      .ok [(kName, .bool true), (kId, .text "f_True".toList)] ∧
    ((transformTag [] "input".toList .none ⟨[(kName, .bool true), (kType, .text "radio".toList), (kValue, .text "a".toList)], .none, idFrame⟩).map
      fun s => s.attrs) = .error .type := by decide +kernel

example : Generated textUse.attrs idFrame kAutoDomid kId tagsWithId "input".toList ∧ Generated labelUse.attrs idFrame kAutoFor kFor tagsWithFor "label".toList ∧
    ValueOn (radioUse "red").attrs idFrame "input".toList ∧ controlOf "input".toList (radioUse "red").attrs = .box ∧
    ShowsValue colour (boxStands colour (radioUse "red").attrs) ∧ ¬ ShowsValue colour (boxStands colour (radioUse "blue").attrs) := by
  refine ⟨⟨.inr ⟨by decide, .inl (by decide)⟩, .inr (by decide)⟩, ⟨.inr ⟨by decide, .inl (by decide)⟩, .inr (by decide)⟩,
    ⟨.inr ⟨by decide, .inl (by decide)⟩, .inr (by decide)⟩, by decide, ?_, ?_⟩
  · exact .inl (by decide)
  · rintro (h | h) <;> revert h <;> decide

/-- A label does not refer to the radio buttons of its element: their ids have the value in them. -/
theorem C59_box_label : ∃ s' l', transformTag [] "input".toList (some colour) (radioUse "red") = .ok s' ∧
    transformTag [] "label".toList (some colour) labelUse = .ok l' ∧
    dictGet s'.attrs kId = some (.text "f_colour_red".toList) ∧ dictGet l'.attrs kFor = some (.text "f_colour".toList) := by
  refine ⟨_, _, rfl, rfl, ?_, ?_⟩ <;> decide +kernel

/-- Two radio buttons with different values may get the same id, since characters are dropped. -/
theorem C59_collision : ∃ s1 s2, transformTag [] "input".toList (some colour) (radioUse "a b") = .ok s1 ∧
    transformTag [] "input".toList (some colour) (radioUse "ab") = .ok s2 ∧ dictGet s1.attrs kId = dictGet s2.attrs kId ∧
    dictGet s1.attrs kValue ≠ dictGet s2.attrs kValue := by
  refine ⟨_, _, rfl, rfl, ?_, ?_⟩ <;> decide +kernel

/-- The name of the element goes into the id as it is, whatever characters it has. -/
theorem C59_name_raw : ∃ s', transformTag [] "input".toList (some ⟨"a b".toList, [], .plain⟩) textUse = .ok s' ∧
    dictGet s'.attrs kId = some (.text "f_a b".toList) := by
  refine ⟨_, rfl, ?_⟩
  decide +kernel

/-- a frame that hands out tab indexes from 7 -/
def tabFrame : OptFrame := dictPut (dictPut defaultFrame kAutoTabindex (.bool true)) kTabindex (.int 7)

example : FullFrame tabFrame ∧ dictGet tabFrame kTabindex = some (.int 7) ∧ TakesTab tabFrame ⟨"input".toList, .none, [], .none⟩ ∧
    ¬ TakesTab tabFrame ⟨"p".toList, .none, [], .none⟩ ∧ ¬ TakesTab tabFrame ⟨"input".toList, .none, [(kTabindex, .text "1".toList)], .none⟩ := by
  refine ⟨by unfold FullFrame; decide, by decide, ⟨.inr ⟨by decide, .inl (by decide)⟩, .inr (by decide)⟩, ?_, ?_⟩
  · rintro ⟨_, h | h⟩ <;> revert h
    · unfold Forced; decide
    · decide
  · rintro ⟨_, h | h⟩ <;> revert h
    · unfold Forced; decide
    · decide

end examples

end Flatland
