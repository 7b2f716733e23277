import Verif.Proofs.MarkupOrder
import Verif.Props.Rendering
import Verif.Spec.Submit
/-
Lemmas for C65.
-/
namespace Flatland
open Spec

/-! ### values of attributes are texts or were given -/

/-- every attribute is as before or a text -/
def TextOrKept (s s' : TagState) : Prop := ∀ k v, dictGet s'.attrs k = some v → dictGet s.attrs k = some v ∨ ∃ t, v = .text t

theorem tok_refl (s : TagState) : TextOrKept s s := fun _ _ h => .inl h

theorem tok_trans {a b c : TagState} (h1 : TextOrKept a b) (h2 : TextOrKept b c) : TextOrKept a c := by
  intro k v h
  rcases h2 k v h with h | h
  · exact h1 k v h
  · exact .inr h

theorem tok_put (s : TagState) (k : PStr) (t : PStr) : TextOrKept s (s.put k (.text t)) := by
  intro k' v h
  unfold TagState.put at h
  rw [dictGet_put] at h
  split at h
  · exact .inr ⟨t, (Option.some.inj h).symm⟩
  · exact .inl h

theorem tok_del {s : TagState} (hd : DictLike s.attrs) (k : PStr) : TextOrKept s (s.del k) := by
  intro k' v h
  rw [get_del hd] at h
  split at h
  · cases h
  · exact .inl h

theorem tok_attrs {s s' s'' : TagState} (h : s'.attrs = s''.attrs) (h1 : TextOrKept s s') : TextOrKept s s'' := by
  intro k v hk
  exact h1 k v (by rw [h]; exact hk)

theorem dict_del {s : TagState} (hd : DictLike s.attrs) (k : PStr) : DictLike (s.del k).attrs := nodup_dictKeys_del hd _
theorem dict_put {s : TagState} (hd : DictLike s.attrs) (k : PStr) (v : HtmlVal) : DictLike (s.put k v).attrs := nodup_dictKeys_put hd _ _

section
variable [Runtime] [Casing]

theorem tok_name {tag : PStr} {bd : Option Bind} {s s' : TagState} (hd : DictLike s.attrs) (hf : FullFrame s.frame)
    (h : transformName tag bd s = .ok s') : TextOrKept s s' := by
  obtain ⟨p, f, hp, -, -⟩ := popToggle_ok (key := kAutoName) (by decide) hf
  unfold transformName at h
  rw [hp, ok_bind] at h
  simp only [] at h
  have hdel := tok_del hd kAutoName
  cases bd with
  | none => cases h; exact hdel
  | some b =>
    simp only [] at h
    split at h
    · cases h; exact hdel
    · split at h
      · cases h; exact hdel
      · split at h
        · cases h; exact tok_trans hdel (tok_put _ _ _)
        · cases h; exact hdel

omit [Runtime] [Casing] in
theorem tok_mark {s : TagState} (hd : DictLike s.attrs) (k : PStr) (on : Bool) : TextOrKept s (markAs k on s) := by
  unfold markAs
  split
  · exact tok_put _ _ _
  · exact tok_del hd _

omit [Runtime] [Casing] in
theorem tok_box {s : TagState} (b : Bind) (cb : Bool) (hd : DictLike s.attrs) :
    TextOrKept s (boxValue b cb s).2 ∧ DictLike (boxValue b cb s).2.attrs := by
  unfold boxValue
  split
  · split
    · exact ⟨tok_put _ _ _, dict_put hd _ _⟩
    · exact ⟨tok_refl _, hd⟩
  · exact ⟨tok_refl _, hd⟩

theorem tok_value {tag : PStr} {bd : Option Bind} {s s' : TagState} (hd : DictLike s.attrs) (hf : FullFrame s.frame)
    (h : transformValue tag bd s = .ok s') : TextOrKept s s' := by
  obtain ⟨p, f, hp, -, -⟩ := popToggle_ok (key := kAutoValue) (by decide) hf
  unfold transformValue at h
  rw [hp, ok_bind] at h
  simp only [] at h
  have hdel := tok_del hd kAutoValue
  have hfill : ∀ b, TextOrKept s (fillValue b f (s.del kAutoValue)) := by
    intro b
    unfold fillValue
    split
    · exact tok_trans hdel (tok_put _ _ _)
    · exact hdel
  cases bd with
  | none => cases h; exact hdel
  | some b =>
    simp only [] at h
    split at h
    · cases h; exact hdel
    split at h
    · cases h; exact hdel
    split at h
    · split at h
      · obtain ⟨on, _, h⟩ := bind_ok h
        simp only [Except.ok.injEq] at h
        subst h
        have hb := tok_box b (((dictGet (s.del kAutoValue).attrs kType).getD (.text [])).eqText "checkbox".toList) (dict_del hd kAutoValue)
        exact tok_trans hdel (tok_trans hb.1 (tok_mark hb.2 _ _))
      · split at h
        · cases h
          split
          · exact tok_trans hdel (tok_put _ _ _)
          · exact hdel
        · cases h; exact hfill b
    · split at h
      · obtain ⟨on, _, h⟩ := bind_ok h
        cases h
        exact tok_trans hdel (tok_mark (dict_del hd _) _ _)
      · split at h
        · cases h
          split
          · exact tok_attrs (s' := s.del kAutoValue) rfl hdel
          · exact hdel
        · cases h; exact hfill b

theorem tok_domid {tag : PStr} {bd : Option Bind} {s s' : TagState} (hd : DictLike s.attrs) (hf : FullFrame s.frame)
    (h : transformDomid tag bd s = .ok s') : TextOrKept s s' := by
  obtain ⟨p, f, hp, -, -⟩ := popToggle_ok (key := kAutoDomid) (by decide) hf
  unfold transformDomid at h
  rw [hp, ok_bind] at h
  simp only [] at h
  have hdel := tok_del hd kAutoDomid
  split at h
  · cases h; exact hdel
  split at h
  · obtain ⟨raw, _, h⟩ := bind_ok h
    split at h
    · cases h; exact hdel
    · obtain ⟨x, _, h⟩ := bind_ok h
      cases h
      exact tok_trans hdel (tok_put _ _ _)
  · cases h; exact hdel

theorem tok_for {tag : PStr} {bd : Option Bind} {s s' : TagState} (hd : DictLike s.attrs) (hf : FullFrame s.frame)
    (h : transformFor tag bd s = .ok s') : TextOrKept s s' := by
  obtain ⟨p, f, hp, -, -⟩ := popToggle_ok (key := kAutoFor) (by decide) hf
  unfold transformFor at h
  rw [hp, ok_bind] at h
  simp only [] at h
  have hdel := tok_del hd kAutoFor
  cases bd with
  | none => cases h; exact hdel
  | some b =>
    simp only [] at h
    split at h
    · cases h; exact hdel
    split at h
    · obtain ⟨raw, _, h⟩ := bind_ok h
      split at h
      · cases h; exact hdel
      · obtain ⟨x, _, h⟩ := bind_ok h
        cases h
        exact tok_trans hdel (tok_put _ _ _)
    · cases h; exact hdel

theorem tok_tabindex {tag : PStr} {s s' : TagState} (hd : DictLike s.attrs) (hf : FullFrame s.frame)
    (h : transformTabindex tag s = .ok s') : TextOrKept s s' := by
  obtain ⟨p, f, hp, -, -⟩ := popToggle_ok (key := kAutoTabindex) (by decide) hf
  unfold transformTabindex at h
  rw [hp, ok_bind] at h
  simp only [] at h
  have hdel := tok_del hd kAutoTabindex
  split at h
  · cases h; exact hdel
  split at h
  · cases h
  · split at h
    · cases h; exact hdel
    split at h
    · split at h
      · cases h
        exact tok_attrs (s' := (s.del kAutoTabindex).put kTabindex (.text (decimalInt _))) rfl (tok_trans hdel (tok_put _ _ _))
      · cases h; exact tok_trans hdel (tok_put _ _ _)
    · cases h; exact hdel
  · cases h

theorem tok_transform {tag : PStr} {bd : Option Bind} {s s' : TagState} (hd : DictLike s.attrs) (hf : FullFrame s.frame)
    (h : transformTag [] tag bd s = .ok s') : TextOrKept s s' := by
  obtain ⟨s1, s2, s3, s4, s5, st⟩ := stages_of_ok hd hf h
  have k1 := tok_name hd hf st.e1
  have k2 := tok_value st.t1.dict (by rw [st.f1]; exact hf) st.e2
  have k3 := tok_domid st.t2.dict (by rw [st.f2]; exact hf) st.e3
  have k4 := tok_for st.t3.dict (by rw [st.f3]; exact hf) st.e4
  have k5 := tok_tabindex st.t4.dict (by rw [st.f4]; exact hf) st.e5
  have k6 : TextOrKept s5 s' := by rw [st.e6]; exact tok_del st.t5.dict _
  exact tok_trans k1 (tok_trans k2 (tok_trans k3 (tok_trans k4 (tok_trans k5 k6))))

theorem stages_dict {tag : PStr} {bd : Option Bind} {s s' : TagState} (hd : DictLike s.attrs) (hf : FullFrame s.frame)
    (h : transformTag [] tag bd s = .ok s') : DictLike s'.attrs := by
  obtain ⟨s1, s2, s3, s4, s5, st⟩ := stages_of_ok hd hf h
  exact st.t6.dict

/-! ### what is given -/

omit [Runtime] [Casing] in
theorem input_get {kw : Attrs} {f : OptFrame} {k : PStr} {v : HtmlVal} (h : dictGet (tagInput kw f).attrs k = some v) :
    ∃ p ∈ kw, stripKey p.1 = k ∧ p.2 = v := by
  unfold tagInput unicodeKeyed at h
  rw [dictOf_get] at h
  obtain ⟨l, r, h, _⟩ := h
  have : (k, v) ∈ (dictDel kw "contents".toList).map (fun p => (stripKey p.1, p.2)) := by
    show (k, v) ∈ (dictDel kw "contents".toList).map fun p => ((p.1.reverse.dropWhile (· = '_')).reverse, p.2)
    rw [h]; simp
  obtain ⟨p, hp, he⟩ := List.mem_map.1 this
  simp only [Prod.mk.injEq] at he
  exact ⟨p, (dictDel_sublist kw _).mem hp, he.1, he.2⟩

omit [Runtime] [Casing] in
theorem input_none {kw : Attrs} {f : OptFrame} {k : PStr} (h : NotGiven kw k) : dictGet (tagInput kw f).attrs k = .none := by
  cases hg : dictGet (tagInput kw f).attrs k with
  | none => rfl
  | some v =>
    obtain ⟨p, hp, he, _⟩ := input_get hg
    exact absurd he (h p hp)

omit [Runtime] [Casing] in
theorem dictOf_some {ps : List (PStr × HtmlVal)} {k : PStr} (h : ∃ p ∈ ps, p.1 = k) : (dictGet (dictOf ps) k).isSome := by
  generalize hl : ps.length = n
  induction n generalizing ps with
  | zero => cases List.length_eq_zero_iff.1 hl; obtain ⟨p, hp, _⟩ := h; cases hp
  | succ n ih =>
    rcases eq_nil_or_snoc ps with rfl | ⟨ps, q, rfl⟩
    · simp at hl
    · rw [dictOf_get_append]
      split
      · rfl
      · rename_i hne
        obtain ⟨p, hp, hk⟩ := h
        rcases List.mem_append.1 hp with hp | hp
        · exact ih ⟨p, hp, hk⟩ (by simpa using hl)
        · simp only [List.mem_cons, List.not_mem_nil, or_false] at hp
          subst hp
          exact absurd hk.symm hne

omit [Runtime] [Casing] in
theorem mem_dictDel_ne {kw : Attrs} {k : PStr} {p : PStr × HtmlVal} (h : p ∈ kw) (hk : p.1 ≠ k) : p ∈ dictDel kw k := by
  induction kw with
  | nil => cases h
  | cons q kw ih =>
    simp only [dictDel]
    rcases List.mem_cons.1 h with rfl | h
    · rw [if_neg hk]; simp
    · split
      · exact h
      · exact List.mem_cons_of_mem _ (ih h)

omit [Runtime] [Casing] in
theorem input_given {kw : Attrs} {f : OptFrame} {k : PStr} {v : HtmlVal} (hk : k ≠ "contents".toList) (h : IsGiven kw k v) :
    dictGet (tagInput kw f).attrs k = some v := by
  obtain ⟨⟨p, hp, he⟩, hall⟩ := h
  have hs : (dictGet (tagInput kw f).attrs k).isSome := by
    unfold tagInput unicodeKeyed
    refine dictOf_some ⟨(stripKey p.1, p.2), List.mem_map.2 ⟨p, mem_dictDel_ne hp ?_, rfl⟩, he⟩
    intro hc
    rw [hc] at he
    exact hk (he.symm.trans (by decide))
  obtain ⟨x, hx⟩ := Option.isSome_iff_exists.1 hs
  obtain ⟨q, hq, hqe, hqv⟩ := input_get hx
  rw [hx, ← hqv, hall q hq hqe]

omit [Runtime] [Casing] in
theorem input_contents {kw : Attrs} {f : OptFrame} (h : NotGiven kw "contents".toList) : (tagInput kw f).contents = .none := by
  unfold tagInput
  simp only []
  cases hg : dictGet kw "contents".toList with
  | none => rfl
  | some v =>
    have hmem : ("contents".toList, v) ∈ kw := by
      clear h
      induction kw with
      | nil => cases hg
      | cons p kw ih =>
        obtain ⟨k, x⟩ := p
        simp only [dictGet] at hg
        split at hg
        · rename_i e
          cases hg
          subst e
          simp
        · exact List.mem_cons_of_mem _ (ih hg)
    exact absurd (by show stripKey "contents".toList = _; decide) (h _ hmem)

omit [Runtime] [Casing] in
theorem stripKey_sub {k : PStr} : ∀ x ∈ stripKey k, x ∈ k := by
  intro x hx
  unfold stripKey at hx
  have := (List.dropWhile_sublist (· = '_') (l := k.reverse)).mem (List.mem_reverse.1 hx)
  simpa using this

omit [Runtime] [Casing] in
theorem generated_names : ∀ k ∈ generatedKeys, ∀ x ∈ k, nameChar x = true := by decide

/-- the attributes of a text control can be read -/
theorem control_attrs {c : PageCall} {b : Bind} (hc : PlainTag c b) {f : OptFrame} (hf : FullFrame f) {s : TagState}
    (hs : transformTag [] c.tag c.bound (tagInput c.kw f) = .ok s) :
    (∀ p ∈ s.attrs, ∀ x ∈ p.1, nameChar x = true) ∧ ∀ p ∈ s.attrs, ∃ t, p.2 = .text t := by
  have hd : DictLike (tagInput c.kw f).attrs := unicodeKeyed_dict _
  have hd' := stages_dict hd hf hs
  have hkey : ∀ p ∈ s.attrs, dictGet s.attrs p.1 = some p.2 ∧ p.1 ∉ autoKeys := by
    rintro ⟨k, v⟩ hp
    have hg := (dictGet_mem hd' k v).1 hp
    refine ⟨hg, fun ha => ?_⟩
    have := C56_no_leak hd hf hs k ha
    simp only [hg] at this
    cases this
  constructor
  · intro p hp x hx
    obtain ⟨hg, ha⟩ := hkey p hp
    by_cases hgen : p.1 ∈ generatedKeys
    · exact generated_names _ hgen x hx
    · rw [C56_others hd hf hs ha hgen] at hg
      obtain ⟨q, hq, he, _⟩ := input_get hg
      exact hc.keys q hq x (stripKey_sub x (by rw [he]; exact hx))
  · intro p hp
    obtain ⟨hg, ha⟩ := hkey p hp
    rcases tok_transform hd hf hs _ _ hg with h | h
    · obtain ⟨q, hq, he, hv⟩ := input_get h
      obtain ⟨t, ht⟩ := hc.texts q hq (by rw [he]; exact ha)
      exact ⟨t, by rw [← hv, ht]⟩
    · exact h

omit [Runtime] [Casing] in
theorem readValue_perm {as : List (PStr × PStr)} {l : Attrs} [Runtime] (hd : DictLike l) (hp : as.Perm (l.map fun p => (p.1, (shownText p.2).getD [])))
    {k t : PStr} (h : dictGet l k = some (.text t)) : readValue as k = some t := by
  have hmem : (k, t) ∈ as := by
    rw [hp.mem_iff]
    exact List.mem_map.2 ⟨(k, .text t), (dictGet_mem hd _ _).2 h, by simp [shownText]⟩
  have hnd : (as.map (·.1)).Nodup := by
    rw [(hp.map _).nodup_iff, List.map_map]
    exact hd
  clear h hp
  unfold readValue
  induction as with
  | nil => cases hmem
  | cons q as ih =>
    rw [List.find?_cons]
    simp only [List.map_cons, List.nodup_cons] at hnd
    by_cases hq : q.1 = k
    · simp only [hq, decide_true, Option.map_some]
      rcases List.mem_cons.1 hmem with h | h
      · rw [← h]
      · exact absurd (List.mem_map_of_mem (f := (·.1)) h) (by rw [← hq]; exact hnd.1)
    · simp only [hq, decide_false]
      refine ih ?_ hnd.2
      rcases List.mem_cons.1 hmem with h | h
      · exact absurd (by rw [← h]) hq
      · exact h

omit [Runtime] [Casing] in
theorem readValue_none {as : List (PStr × PStr)} {l : Attrs} [Runtime] (hp : as.Perm (l.map fun p => (p.1, (shownText p.2).getD [])))
    {k : PStr} (h : dictGet l k = .none) : readValue as k = .none := by
  unfold readValue
  rw [Option.map_eq_none_iff, List.find?_eq_none]
  intro q hq
  rw [hp.mem_iff] at hq
  obtain ⟨p, hpm, rfl⟩ := List.mem_map.1 hq
  have hn := dictGet_none.1 h
  simp only [decide_eq_true_eq]
  rintro rfl
  exact hn (List.mem_map_of_mem (f := (·.1)) hpm)

omit [Runtime] [Casing] in
theorem markupEscape_no_open {s : PStr} : ∀ c ∈ markupEscape s, c ≠ '<' := by
  intro c hc
  rintro rfl
  unfold markupEscape replaceChar at hc
  simp only [List.mem_flatMap] at hc
  grind

omit [Runtime] [Casing] in
theorem takeWhile_open {c tag : PStr} (h : ∀ x ∈ c, x ≠ '<') : (c ++ "</".toList ++ tag ++ ['>']).takeWhile (· ≠ '<') = c := by
  induction c with
  | nil => rfl
  | cons x c ih =>
    have := h x (by simp)
    simp only [List.cons_append, List.takeWhile_cons, this, ne_eq, not_false_eq_true, decide_true, if_true]
    simp only [List.cons.injEq, true_and]
    simpa using ih (fun y hy => h y (by simp [hy]))

/-! ### one control -/

theorem given_none {a : Attrs} {k : PStr} (h : dictGet a k = .none) : given a k = .maybe := by
  unfold given
  rw [h]
  rfl

theorem switched_of_nil {a : Attrs} {f : OptFrame} {k : PStr} (h : dictGet a k = .none) (hon : SwitchedOn [] f k) : SwitchedOn a f k := by
  unfold SwitchedOn at *
  rw [given_none h]
  rw [given_none (a := []) rfl] at hon
  exact hon

omit [Runtime] [Casing] in
theorem control_type {c : PageCall} {b : Bind} (hc : TextControl c b) (f : OptFrame) (htag : c.tag = "input".toList) :
    dictGet (tagInput c.kw f).attrs kType = .none ∨ ∃ t ∈ textTypes, dictGet (tagInput c.kw f).attrs kType = some (.text t) := by
  rcases hc.tag with ⟨_, h | ⟨t, ht, h⟩⟩ | h
  · exact .inl (input_none h)
  · exact .inr ⟨t, ht, input_given (by decide) h⟩
  · rw [htag] at h; exact absurd h (by decide)

omit [Runtime] [Casing] in
theorem not_special {a : Attrs} (h : dictGet a kType = .none ∨ ∃ t ∈ textTypes, dictGet a kType = some (.text t)) {x : PStr}
    (hx : x ∈ ["radio".toList, "checkbox".toList, "password".toList, "file".toList, "image".toList]) : ¬ IsText (attrGet a kType) x := by
  intro hi
  unfold attrGet at hi
  rcases h with h | ⟨t, ht, h⟩
  · rw [h] at hi
    rcases hi with hi | hi <;> cases hi
  · rw [h] at hi
    rcases hi with hi | hi
    · simp only [Option.getD_some, HtmlVal.text.injEq] at hi
      rw [hi] at ht
      revert ht
      clear hi h
      simp only [List.mem_cons, List.not_mem_nil, or_false] at hx
      rcases hx with rfl | rfl | rfl | rfl | rfl <;> decide
    · cases hi

omit [Runtime] [Casing] in
theorem controlOf_input {c : PageCall} {b : Bind} (hc : TextControl c b) (f : OptFrame) (h : c.tag = "input".toList) :
    controlOf c.tag (tagInput c.kw f).attrs = .field := by
  have ht := control_type hc f h
  unfold controlOf
  rw [h, if_neg (by decide), if_neg (by decide), if_pos rfl, if_neg, if_neg]
  · rintro (h | h | h) <;> exact not_special ht (by simp) h
  · rintro (h | h) <;> exact not_special ht (by simp) h

theorem ok_transform {fs : List TagFilter} {style : TagStyle} {tag : PStr} {bd : Option Bind} {kw : Attrs} {f : OptFrame} {out : PStr}
    (h : (tagCall fs style tag bd kw f).2 = .ok out) : ∃ s, transformTag fs tag bd (tagInput kw f) = .ok s ∧ (tagCall fs style tag bd kw f).1 = s.frame := by
  unfold tagCall tagOpen at h ⊢
  cases ht : transformTag fs tag bd (tagInput kw f) with
  | error e => rw [ht] at h; cases h
  | ok s =>
    refine ⟨s, rfl, ?_⟩
    simp only []
    split <;> rename_i heq <;> exact (congrArg Prod.fst heq).symm

/-- what is read of a plain tag -/
theorem plain_read {c : PageCall} {b : Bind} (hc : PlainTag c b) (htg : c.tag = "input".toList ∨ c.tag = "textarea".toList) {f : OptFrame} (hf : FullFrame f)
    (hon : FillsIn f) {out : PStr} (h : (tagCall [] c.style c.tag c.bound c.kw f).2 = .ok out) :
    ∃ s as rest cc, transformTag [] c.tag c.bound (tagInput c.kw f) = .ok s ∧ readTag out = some (c.tag, as, rest) ∧
      as.Perm (s.attrs.map fun p => (p.1, (shownText p.2).getD [])) ∧ DictLike s.attrs ∧ renderContents s.contents = .ok cc ∧
      ((rest = [] ∧ cc = [] ∧ c.style.paired = false) ∨ rest = cc ++ "</".toList ++ c.tag ++ ['>']) ∧
      readValue as kName = some b.name ∧ ValueOn (tagInput c.kw f).attrs f c.tag := by
  obtain ⟨s, hs, _⟩ := ok_transform h
  obtain ⟨hk, ht⟩ := control_attrs hc hf hs
  have hm : ∀ p ∈ s.attrs, ∀ t, p.2 ≠ .markup t := by
    intro p hp t he
    obtain ⟨x, hx⟩ := ht p hp
    rw [hx] at he
    cases he
  have hd : DictLike (tagInput c.kw f).attrs := unicodeKeyed_dict _
  have hd' := stages_dict hd hf hs
  have htag : ∀ x ∈ c.tag, nameChar x = true := by
    rcases htg with h | h <;> rw [h] <;> decide
  obtain ⟨as, rest, cc, h1, h2, h3, h4⟩ := C54_call [] c.style c.tag c.bound c.kw f h hs htag hk hm
  have hn : ∀ k ∈ [kName, kAutoName, kAutoValue, "contents".toList], dictGet (tagInput c.kw f).attrs k = .none :=
    fun k hk => input_none (hc.free k hk)
  have hname : dictGet s.attrs kName = some (.text b.name) := by
    refine (C56_name hd hf hs).1 b hc.bound hc.named ⟨switched_of_nil (hn _ (by simp)) (hon _ (by simp)), .inr ⟨?_, ?_⟩⟩
    · unfold attrGet
      rw [hn _ (by simp)]
      rfl
    · rcases htg with h | h <;> rw [h] <;> decide
  have hvon : ValueOn (tagInput c.kw f).attrs f c.tag := by
    refine ⟨switched_of_nil (hn _ (by simp)) (hon _ (by simp)), .inr ?_⟩
    rcases htg with h | h <;> rw [h] <;> decide
  exact ⟨s, as, rest, cc, hs, h1, h2, hd', contents_text.1 h3, h4, readValue_perm hd' h2 hname, hvon⟩

theorem control_submits {c : PageCall} {b : Bind} (hc : TextControl c b) {f : OptFrame} (hf : FullFrame f) (hon : FillsIn f) {out : PStr}
    (h : (tagCall [] c.style c.tag c.bound c.kw f).2 = .ok out) : submits out = some (b.name, b.u) := by
  have htg : c.tag = "input".toList ∨ c.tag = "textarea".toList := hc.tag.imp And.left id
  obtain ⟨s, as, rest, cc, hs, h1, h2, hd', h3, h4, hname, hvon⟩ := plain_read hc.plain htg hf hon h
  have hd : DictLike (tagInput c.kw f).attrs := unicodeKeyed_dict _
  have hs0 := hs
  rw [hc.plain.bound] at hs
  have hval := C56_value hd hf hs hvon
  unfold submits
  rw [h1]
  simp only [hname]
  rcases htg with htg | htg
  · rw [htg, if_pos rfl]
    have hv := hval.1 (controlOf_input hc f htg) (.inl (by unfold attrGet; rw [input_none hc.free]; rfl))
    have hty := C56_others hd hf hs0 (k := kType) (by decide) (by decide)
    have : (readValue as kType).getD "text".toList ∈ textTypes := by
      rcases control_type hc f htg with ht | ⟨t, htt, ht⟩
      · rw [readValue_none h2 (by rw [hty, ht])]; decide
      · rw [readValue_perm hd' h2 (by rw [hty, ht])]; exact htt
    unfold submitsInput
    rw [if_pos this, readValue_perm hd' h2 hv]
    rfl
  · rw [htg, if_neg (by decide), if_pos rfl]
    have hcont := hval.2.1 (by rw [htg]; rfl) (.inl (input_contents (hc.plain.free _ (by simp))))
    rw [hcont] at h3
    simp only [renderContents, Except.ok.injEq] at h3
    subst h3
    have : rest.takeWhile (· ≠ '<') = markupEscape b.u := by
      rcases h4 with ⟨r1, r2, _⟩ | r
      · rw [r1, r2]; rfl
      · rw [r]; exact takeWhile_open markupEscape_no_open
    rw [this]
    simp only [Option.map_eq_some_iff]
    exact ⟨b.u, read_markupEscape _, rfl⟩

theorem box_submits {c : PageCall} {b : Bind} {v : PStr} (hc : BoxControl c b v) {f : OptFrame} (hf : FullFrame f) (hon : FillsIn f) {out : PStr}
    (h : (tagCall [] c.style c.tag c.bound c.kw f).2 = .ok out) :
    (ShowsValue b (.text v) → submits out = some (b.name, v)) ∧ (¬ ShowsValue b (.text v) → submits out = .none) := by
  obtain ⟨s, as, rest, cc, hs, h1, h2, hd', h3, h4, hname, hvon⟩ := plain_read hc.plain (.inl hc.tag) hf hon h
  have hd : DictLike (tagInput c.kw f).attrs := unicodeKeyed_dict _
  have hs0 := hs
  rw [hc.plain.bound] at hs
  obtain ⟨t, htt, hty⟩ : ∃ t ∈ boxTypes, dictGet (tagInput c.kw f).attrs kType = some (.text t) := by
    rcases hc.type with ⟨t, ht, h1, _⟩ | ⟨h1, _⟩
    · exact ⟨t, ht, input_given (by decide) h1⟩
    · exact ⟨_, by decide, input_given (by decide) h1⟩
  have hag : attrGet (tagInput c.kw f).attrs kType = .text t := by unfold attrGet; rw [hty]; rfl
  have hbox : controlOf c.tag (tagInput c.kw f).attrs = .box := by
    rw [hc.tag]
    refine (controlOf_box _ _).2 ⟨rfl, ?_⟩
    rw [hag]
    simp only [boxTypes, List.mem_cons, List.not_mem_nil, or_false] at htt
    rcases htt with rfl | rfl
    · exact .inl (.inl rfl)
    · exact .inr (.inl rfl)
  have hch := C58_checked hd hf hs hvon hbox
  obtain ⟨_, _, _, _, _, st⟩ := stages_of_ok hd hf hs
  have d := ((st.value hd hf).1 b rfl hvon).box hbox
  have hstand : boxStands b (tagInput c.kw f).attrs = .text v ∧ dictGet s.attrs kValue = some (.text v) := by
    rcases hc.type with ⟨_, _, _, hv⟩ | ⟨hct, hv, hk⟩
    · have hg : dictGet (tagInput c.kw f).attrs kValue = some (.text v) := input_given (by decide) hv
      refine ⟨?_, ?_⟩
      · unfold boxStands attrGet
        rw [hg]
        split <;> rfl
      · rw [d.2.2.2, hg]
        rintro ⟨_, _, _, hn⟩
        unfold attrGet at hn
        rw [hg] at hn
        cases hn
    · have hg : dictGet (tagInput c.kw f).attrs kValue = .none := input_none hv
      have hcb : IsText (attrGet (tagInput c.kw f).attrs kType) "checkbox".toList := by
        unfold attrGet
        rw [input_given (by decide) hct]
        exact .inl rfl
      refine ⟨?_, ?_⟩
      · unfold boxStands
        rw [if_pos hcb, hk]
        unfold attrGet
        rw [hg]
        rfl
      · exact d.2.2.1 v hk hcb (by unfold attrGet; rw [hg]; rfl)
  rw [hstand.1] at hch
  have hty' := C56_others hd hf hs0 (k := kType) (by decide) (by decide)
  have rty : readValue as kType = some t := readValue_perm hd' h2 (by rw [hty', hty])
  have hnt : t ∉ textTypes := by
    simp only [boxTypes, List.mem_cons, List.not_mem_nil, or_false] at htt
    rcases htt with rfl | rfl <;> decide
  unfold submits
  rw [h1]
  simp only [hname]
  rw [hc.tag, if_pos rfl]
  unfold submitsInput
  rw [rty]
  simp only [Option.getD_some]
  rw [if_neg hnt, if_pos htt]
  constructor
  · intro hsv
    rw [readValue_perm hd' h2 (hch.1 hsv), readValue_perm hd' h2 hstand.2]
    rfl
  · intro hsv
    rw [readValue_none h2 (hch.2 hsv)]
    rfl

/-! ### other tags -/

omit [Casing] in
theorem renderAttrs_start {l : Attrs} {g : PStr} (h : renderAttrs l = .ok g) : g = [] ∨ ∃ r, g = ' ' :: r := by
  cases l with
  | nil => cases h; exact .inl rfl
  | cons p l =>
    obtain ⟨k, v⟩ := p
    simp only [renderAttrs] at h
    obtain ⟨e, _, h⟩ := bind_ok h
    obtain ⟨r, _, h⟩ := bind_ok h
    cases h
    exact .inr ⟨_, rfl⟩

theorem call_shape {style : TagStyle} {tag : PStr} {bd : Option Bind} {kw : Attrs} {f : OptFrame} {out : PStr}
    (h : (tagCall [] style tag bd kw f).2 = .ok out) : ∃ x r, out = '<' :: tag ++ x :: r ∧ nameChar x = false := by
  obtain ⟨s, hs, _⟩ := ok_transform h
  unfold tagCall at h
  cases ht : (tagOpen [] tag bd kw f).2 with
  | error e =>
    generalize hto : tagOpen [] tag bd kw f = r at h ht
    obtain ⟨f', x⟩ := r
    simp only [] at ht
    subst ht
    cases h
  | ok hc =>
    obtain ⟨header, c⟩ := hc
    have hh : ∃ g, header = '<' :: tag ++ g ∧ (g = [] ∨ ∃ r, g = ' ' :: r) := by
      unfold tagOpen at ht
      rw [hs] at ht
      simp only [] at ht
      obtain ⟨c', _, ht⟩ := bind_ok ht
      cases ho : dictGet s.frame kOrdered with
      | none => rw [ho] at ht; cases ht
      | some v =>
        rw [ho] at ht
        simp only [] at ht
        obtain ⟨bb, _, ht⟩ := bind_ok ht
        obtain ⟨g, hg, ht⟩ := bind_ok ht
        cases ht
        exact ⟨g, rfl, renderAttrs_start hg⟩
    obtain ⟨g, rfl, hg⟩ := hh
    generalize hto : tagOpen [] tag bd kw f = r at h ht
    obtain ⟨f', x⟩ := r
    simp only [] at ht
    subst ht
    simp only [Except.ok.injEq] at h
    have key : ∀ fin : PStr, (∃ x r, fin = x :: r ∧ nameChar x = false) → ∃ x r, '<' :: tag ++ g ++ fin = '<' :: tag ++ x :: r ∧ nameChar x = false := by
      rintro fin ⟨x, r, rfl, hx⟩
      rcases hg with rfl | ⟨r', rfl⟩
      · exact ⟨x, r, by simp, hx⟩
      · exact ⟨' ', r' ++ x :: r, by simp, by decide⟩
    split at h
    · rw [← h]; exact key _ ⟨' ', _, rfl, by decide⟩
    · split at h
      · rw [← h]; exact key _ ⟨'>', _, rfl, by decide⟩
      · rw [← h]
        simp only [List.append_assoc]
        simpa using key ('>' :: (c ++ "</".toList ++ tag ++ ['>'])) ⟨'>', _, rfl, by decide⟩

omit [Runtime] [Casing] in
theorem takeWhile_name {tag r : PStr} {x : Char} (h : ∀ c ∈ tag, nameChar c = true) (hx : nameChar x = false) :
    (tag ++ x :: r).takeWhile nameChar = tag := by
  induction tag with
  | nil => simp [hx]
  | cons c tag ih =>
    simp only [List.cons_append, List.takeWhile_cons, h c (by simp), if_true]
    rw [ih (fun y hy => h y (by simp [hy]))]

theorem other_submits {c : PageCall} (hc : OtherTag c) {f : OptFrame} {out : PStr}
    (h : (tagCall [] c.style c.tag c.bound c.kw f).2 = .ok out) : submits out = .none := by
  obtain ⟨x, r, rfl, hx⟩ := call_shape h
  unfold submits
  have : ∀ t as rest, readTag ('<' :: c.tag ++ x :: r) = some (t, as, rest) → t = c.tag := by
    intro t as rest hr
    simp only [readTag, List.cons_append, takeWhile_name hc.2.2 hx] at hr
    obtain ⟨p, _, hp⟩ := Option.map_eq_some_iff.1 hr
    cases hp
    rfl
  cases hr : readTag ('<' :: c.tag ++ x :: r) with
  | none => rfl
  | some p =>
    obtain ⟨t, as, rest⟩ := p
    have := this t as rest hr
    subst this
    simp only []
    cases readValue as kName with
    | none => rfl
    | some n => simp only [if_neg hc.1, if_neg hc.2.1]

/-! ### the scope stays as it is, but for the tab index -/

theorem call_frame {style : TagStyle} {tag : PStr} {bd : Option Bind} {kw : Attrs} {f : OptFrame} (hf : FullFrame f) {out : PStr}
    (h : (tagCall [] style tag bd kw f).2 = .ok out) :
    (tagCall [] style tag bd kw f).1 = f ∨ ∃ n : Int, (tagCall [] style tag bd kw f).1 = dictPut f kTabindex (.int n) := by
  obtain ⟨s, hs, he⟩ := ok_transform h
  rw [he]
  have hd : DictLike (tagInput kw f).attrs := unicodeKeyed_dict _
  obtain ⟨s1, s2, s3, s4, s5, st⟩ := stages_of_ok hd hf hs
  obtain ⟨_, _, _, _, f5⟩ := transformTabindex_spec tag st.t4.dict (by rw [st.f4]; exact hf) st.e5
  rw [st.f4] at f5
  rw [st.f6]
  exact f5

theorem fills_put {f : OptFrame} (h : FillsIn f) (v : HtmlVal) : FillsIn (dictPut f kTabindex v) := by
  intro k hk
  have := h k hk
  unfold SwitchedOn option at *
  rw [dictGet_put, if_neg]
  · exact this
  · simp only [List.mem_cons, List.not_mem_nil, or_false] at hk
    rcases hk with rfl | rfl <;> decide

theorem page_cons {c : PageCall} {r : List PageCall} {f : OptFrame} {outs : List PStr} (hf : FullFrame f) (hon : FillsIn f)
    (h : (renderPage (c :: r) f).2 = .ok outs) : ∃ f' out os, (tagCall [] c.style c.tag c.bound c.kw f).2 = .ok out ∧ (renderPage r f').2 = .ok os ∧
      outs = out :: os ∧ FullFrame f' ∧ FillsIn f' := by
  rcases hcall : tagCall [] c.style c.tag c.bound c.kw f with ⟨f', e' | out⟩
  · simp only [renderPage, hcall] at h; cases h
  · simp only [renderPage, hcall] at h
    cases hr : (renderPage r f').2 with
    | error e => rw [hr] at h; cases h
    | ok os =>
      rw [hr] at h
      cases h
      have hfr := call_frame (style := c.style) (tag := c.tag) (bd := c.bound) (kw := c.kw) hf (out := out) (by rw [hcall])
      rw [hcall] at hfr
      simp only [] at hfr
      refine ⟨f', out, os, rfl, hr, rfl, ?_, ?_⟩
      · rcases hfr with rfl | ⟨n, rfl⟩
        · exact hf
        · exact full_put hf _ _
      · rcases hfr with rfl | ⟨n, rfl⟩
        · exact hon
        · exact fills_put hon _

theorem page_submits {page : List PageCall} {ps : List (PStr × PStr)} (hp : PageShows page ps) : ∀ {f : OptFrame} {outs : List PStr}, FullFrame f → FillsIn f →
    (renderPage page f).2 = .ok outs → outs.filterMap submits = ps := by
  induction hp with
  | nil => intro f outs _ _ h; cases h; rfl
  | text hc _ ih =>
    intro f outs hf hon h
    obtain ⟨f', out, os, h1, h2, rfl, h3, h4⟩ := page_cons hf hon h
    rw [List.filterMap_cons, control_submits hc hf hon h1]
    simp only [ih h3 h4 h2]
  | boxOn hc hv _ ih =>
    intro f outs hf hon h
    obtain ⟨f', out, os, h1, h2, rfl, h3, h4⟩ := page_cons hf hon h
    rw [List.filterMap_cons, (box_submits hc hf hon h1).1 hv]
    simp only [ih h3 h4 h2]
  | boxOff hc hv _ ih =>
    intro f outs hf hon h
    obtain ⟨f', out, os, h1, h2, rfl, h3, h4⟩ := page_cons hf hon h
    rw [List.filterMap_cons, (box_submits hc hf hon h1).2 hv]
    simp only [ih h3 h4 h2]
  | other hc _ ih =>
    intro f outs hf hon h
    obtain ⟨f', out, os, h1, h2, rfl, h3, h4⟩ := page_cons hf hon h
    rw [List.filterMap_cons, other_submits hc h1]
    simp only [ih h3 h4 h2]

/-! ### rendering a page of text controls does not fail -/

omit [Runtime] [Casing] in
theorem sound_put {f : OptFrame} (h : SoundFrame f) (n : Int) : SoundFrame (dictPut f kTabindex (.int n)) where
  full := full_put h.full _ _
  format := by
    obtain ⟨a, b, h1⟩ := h.format
    exact ⟨a, b, by unfold IdFormat; rw [dictGet_put, if_neg (by decide)]; exact h1⟩
  tab := ⟨n, by rw [dictGet_put, if_pos rfl]⟩
  ordered := by
    obtain ⟨b, hb⟩ := h.ordered
    exact ⟨b, by rw [dictGet_put, if_neg (by decide)]; exact hb⟩

omit [Runtime] [Casing] in
theorem formatDomid_total {f : OptFrame} (h : SoundFrame f) (raw : PStr) : ∃ x, formatDomid f raw = .ok x := by
  obtain ⟨pre, post, h1⟩ := h.format
  exact ⟨_, formatDomid_ok h1 raw⟩

omit [Casing] in
theorem rawDomid_total {tag : PStr} {a : Attrs} {b : Bind}
    (h : tag = "input".toList → (attrGet a kType).eqText "checkbox".toList = false ∧ (attrGet a kType).eqText "radio".toList = false) :
    rawDomid tag a (some b) = .ok b.name := by
  unfold rawDomid rawBasis
  rw [ok_bind]
  split
  · rename_i e; rw [e]
  · split
    · rename_i hh
      simp only [Bool.and_eq_true, decide_eq_true_eq, Bool.or_eq_true] at hh
      have := h hh.1
      rw [this.1, this.2] at hh
      simp at hh
    · rfl

theorem value_total {tag : PStr} {b : Bind} {s : TagState} (hd : DictLike s.attrs) (hf : FullFrame s.frame) (htag : tag = "input".toList ∨ tag = "textarea".toList)
    (hc : tag = "input".toList → dictGet s.attrs kType = .none ∨ ∃ t ∈ textTypes, dictGet s.attrs kType = some (.text t)) :
    ∃ s', transformValue tag (some b) s = .ok s' := by
  obtain ⟨p, f, hp, -, -⟩ := popToggle_ok (key := kAutoValue) (by decide) hf
  unfold transformValue
  rw [hp, ok_bind]
  simp only []
  split
  · exact ⟨_, rfl⟩
  split
  · exact ⟨_, rfl⟩
  rcases htag with rfl | rfl
  · rw [if_pos rfl]
    have ht : ∀ t ∈ ["radio", "checkbox"], ((dictGet (s.del kAutoValue).attrs kType).getD (.text [])).eqText t.toList = false := by
      intro t ht
      rw [get_del hd, if_neg (by decide), Bool.eq_false_iff]
      intro he
      rw [eqText_iff] at he
      cases hg : dictGet s.attrs kType with
      | none =>
        rw [hg] at he
        simp only [List.mem_cons, List.not_mem_nil, or_false] at ht
        rcases ht with rfl | rfl <;> rcases he with he | he <;> cases he
      | some v =>
        refine not_special (hc rfl) (x := t.toList) (by simp only [List.mem_cons, List.not_mem_nil, or_false] at ht; rcases ht with rfl | rfl <;> decide) ?_
        unfold attrGet
        rw [hg] at he ⊢
        exact he
    rw [ht "radio" (by simp), ht "checkbox" (by simp)]
    simp only [Bool.or_self, Bool.false_eq_true, if_false]
    split <;> exact ⟨_, rfl⟩
  · rw [if_neg (by decide), if_neg (by decide), if_pos rfl]
    exact ⟨_, rfl⟩

theorem domid_total {tag : PStr} {b : Bind} {s : TagState} (hd : DictLike s.attrs) (hf : SoundFrame s.frame)
    (h : tag = "input".toList → (attrGet s.attrs kType).eqText "checkbox".toList = false ∧ (attrGet s.attrs kType).eqText "radio".toList = false) :
    ∃ s', transformDomid tag (some b) s = .ok s' := by
  obtain ⟨p, f, hp, -, -⟩ := popToggle_ok (key := kAutoDomid) (by decide) hf.full
  unfold transformDomid
  rw [hp, ok_bind]
  simp only []
  split
  · exact ⟨_, rfl⟩
  split
  · rw [rawDomid_total (by rw [attrGet_del hd (by decide)]; exact h), ok_bind]
    split
    · exact ⟨_, rfl⟩
    · obtain ⟨x, hx⟩ := formatDomid_total hf b.name
      rw [show formatDomid (s.del kAutoDomid).frame b.name = .ok x from hx, ok_bind]
      exact ⟨_, rfl⟩
  · exact ⟨_, rfl⟩

theorem for_total {tag : PStr} {b : Bind} {s : TagState} (hd : DictLike s.attrs) (hf : SoundFrame s.frame)
    (h : tag = "input".toList → (attrGet s.attrs kType).eqText "checkbox".toList = false ∧ (attrGet s.attrs kType).eqText "radio".toList = false) :
    ∃ s', transformFor tag (some b) s = .ok s' := by
  obtain ⟨p, f, hp, -, -⟩ := popToggle_ok (key := kAutoFor) (by decide) hf.full
  unfold transformFor
  rw [hp, ok_bind]
  simp only []
  split
  · exact ⟨_, rfl⟩
  split
  · rw [rawDomid_total (by rw [attrGet_del hd (by decide)]; exact h), ok_bind]
    split
    · exact ⟨_, rfl⟩
    · obtain ⟨x, hx⟩ := formatDomid_total hf b.name
      rw [show formatDomid (s.del kAutoFor).frame b.name = .ok x from hx, ok_bind]
      exact ⟨_, rfl⟩
  · exact ⟨_, rfl⟩

theorem tabindex_total {tag : PStr} {s : TagState} (hf : SoundFrame s.frame) : ∃ s', transformTabindex tag s = .ok s' := by
  obtain ⟨p, f, hp, -, -⟩ := popToggle_ok (key := kAutoTabindex) (by decide) hf.full
  obtain ⟨n, hn⟩ := hf.tab
  unfold transformTabindex
  rw [hp, ok_bind]
  simp only []
  split
  · exact ⟨_, rfl⟩
  rw [show dictGet (s.del kAutoTabindex).frame kTabindex = some (.int n) from hn]
  simp only []
  split
  · exact ⟨_, rfl⟩
  split
  · split <;> exact ⟨_, rfl⟩
  · exact ⟨_, rfl⟩

theorem transform_total {c : PageCall} {b : Bind} (hc : TextControl c b) {f : OptFrame} (hf : SoundFrame f) :
    ∃ s, transformTag [] c.tag c.bound (tagInput c.kw f) = .ok s := by
  have hd : DictLike (tagInput c.kw f).attrs := unicodeKeyed_dict _
  rw [hc.plain.bound]
  have htype := control_type hc f
  have htg : c.tag = "input".toList ∨ c.tag = "textarea".toList := hc.tag.imp And.left id
  unfold transformTag
  obtain ⟨s1, e1, t1, _, f1, _⟩ := transformName_spec c.tag (some b) hd hf.full
  rw [show (tagInput c.kw f).frame = f from rfl] at f1
  have ty1 : dictGet s1.attrs kType = dictGet (tagInput c.kw f).attrs kType := t1.same kType (by decide) (by decide)
  have hf1 : SoundFrame s1.frame := by rw [f1]; exact hf
  rw [e1, ok_bind]
  obtain ⟨s2, e2⟩ := value_total (tag := c.tag) (b := b) t1.dict hf1.full htg (by rw [ty1]; exact htype)
  obtain ⟨t2, f2, _⟩ := transformValue_spec c.tag (some b) t1.dict hf1.full e2
  have ty2 : dictGet s2.attrs kType = dictGet (tagInput c.kw f).attrs kType := by rw [t2.same kType (by decide) (by decide), ty1]
  have hf2 : SoundFrame s2.frame := by rw [f2]; exact hf1
  have hbox : ∀ s : TagState, dictGet s.attrs kType = dictGet (tagInput c.kw f).attrs kType → c.tag = "input".toList →
      (attrGet s.attrs kType).eqText "checkbox".toList = false ∧ (attrGet s.attrs kType).eqText "radio".toList = false := by
    intro s hs hi
    have ht := htype hi
    rw [← hs] at ht
    constructor
    · rw [Bool.eq_false_iff]
      intro he
      exact not_special ht (by simp) ((eqText_iff _ _).1 he)
    · rw [Bool.eq_false_iff]
      intro he
      exact not_special ht (by simp) ((eqText_iff _ _).1 he)
  rw [e2, ok_bind]
  obtain ⟨s3, e3⟩ := domid_total (tag := c.tag) (b := b) t2.dict hf2 (hbox s2 ty2)
  obtain ⟨t3, f3, _⟩ := transformDomid_spec c.tag (some b) t2.dict hf2.full e3
  have ty3 : dictGet s3.attrs kType = dictGet (tagInput c.kw f).attrs kType := by rw [t3.same kType (by decide) (by decide), ty2]
  have hf3 : SoundFrame s3.frame := by rw [f3]; exact hf2
  rw [e3, ok_bind]
  obtain ⟨s4, e4⟩ := for_total (tag := c.tag) (b := b) t3.dict hf3 (hbox s3 ty3)
  obtain ⟨t4, f4, _⟩ := transformFor_spec c.tag (some b) t3.dict hf3.full e4
  have hf4 : SoundFrame s4.frame := by rw [f4]; exact hf3
  rw [e4, ok_bind]
  obtain ⟨s5, e5⟩ := tabindex_total (tag := c.tag) hf4
  obtain ⟨_, _, _, _, f5⟩ := transformTabindex_spec c.tag t4.dict hf4.full e5
  rw [e5, ok_bind]
  have hf5 : FullFrame s5.frame := by
    rcases f5 with f5 | ⟨n, f5⟩
    · rw [f5]; exact hf4.full
    · rw [f5]; exact full_put hf4.full _ _
  exact ⟨_, transformFilters_nil c.tag hf5⟩

omit [Casing] in
theorem renderAttrs_total {l : Attrs} (h : ∀ p ∈ l, ∃ t, p.2 = .text t) : ∃ g, renderAttrs l = .ok g := by
  induction l with
  | nil => exact ⟨_, rfl⟩
  | cons p l ih =>
    obtain ⟨k, v⟩ := p
    obtain ⟨t, ht⟩ := h (k, v) (by simp)
    simp only [] at ht
    subst ht
    obtain ⟨g, hg⟩ := ih (fun p hp => h p (by simp [hp]))
    simp only [renderAttrs, attributeEscape, ok_bind, hg]
    exact ⟨_, rfl⟩

theorem control_total {c : PageCall} {b : Bind} (hc : TextControl c b) {f : OptFrame} (hf : SoundFrame f) :
    ∃ out, (tagCall [] c.style c.tag c.bound c.kw f).2 = .ok out ∧ SoundFrame (tagCall [] c.style c.tag c.bound c.kw f).1 := by
  obtain ⟨s, hs⟩ := transform_total hc hf
  have hcont : ∃ x, renderContents s.contents = .ok x := by
    have hd : DictLike (tagInput c.kw f).attrs := unicodeKeyed_dict _
    have hcn := input_contents (f := f) (hc.plain.free _ (by simp))
    rw [hc.plain.bound] at hs
    obtain ⟨s1, s2, s3, s4, s5, st⟩ := stages_of_ok hd hf.full hs
    obtain ⟨v1, v2⟩ := st.value hd hf.full
    by_cases hv : ∃ b', some b = some b' ∧ ValueOn (tagInput c.kw f).attrs (tagInput c.kw f).frame c.tag
    · obtain ⟨b', hb, hon⟩ := hv
      have d := v1 b' hb hon
      by_cases hca : controlOf c.tag (tagInput c.kw f).attrs = .area
      · rw [(d.area hca).1 (.inl hcn)]
        exact ⟨_, rfl⟩
      · rw [d.contents_kept hca, hcn]
        exact ⟨_, rfl⟩
    · rw [(v2 hv).2, hcn]
      exact ⟨_, rfl⟩
  obtain ⟨x, hx⟩ := hcont
  have hopen : ∃ h, (tagOpen [] c.tag c.bound c.kw f).2 = .ok (h, x) := by
    unfold tagOpen
    rw [hs]
    simp only []
    rw [hx, ok_bind]
    have hfr : ∃ bb : Bool, dictGet s.frame kOrdered = some (.bool bb) := by
      have hd : DictLike (tagInput c.kw f).attrs := unicodeKeyed_dict _
      obtain ⟨s1, s2, s3, s4, s5, st⟩ := stages_of_ok hd hf.full hs
      obtain ⟨_, _, _, _, f5⟩ := transformTabindex_spec c.tag st.t4.dict (by rw [st.f4]; exact hf.full) st.e5
      rw [st.f4] at f5
      rw [st.f6]
      obtain ⟨bb, hbb⟩ := hf.ordered
      refine ⟨bb, ?_⟩
      rcases f5 with f5 | ⟨n, f5⟩
      · rw [f5]; exact hbb
      · rw [f5, dictGet_put, if_neg (by decide)]; exact hbb
    obtain ⟨bb, hbb⟩ := hfr
    rw [hbb]
    have hattrs := (control_attrs hc.plain hf.full hs).2
    obtain ⟨g, hg⟩ := renderAttrs_total (l := if bb then sortAttrs s.attrs else s.attrs) (by
      intro p hp
      refine hattrs p ?_
      split at hp
      · exact (sortAttrs_perm _).mem_iff.1 hp
      · exact hp)
    refine ⟨'<' :: c.tag ++ g, ?_⟩
    show ((HtmlVal.truth (.bool bb)) >>= _) = _
    rw [show HtmlVal.truth (.bool bb) = .ok bb from rfl, ok_bind, hg, ok_bind]
  obtain ⟨hh, hop⟩ := hopen
  have hout : ∃ out, (tagCall [] c.style c.tag c.bound c.kw f).2 = .ok out := by
    unfold tagCall
    generalize hto : tagOpen [] c.tag c.bound c.kw f = r at hop
    obtain ⟨f', y⟩ := r
    simp only [] at hop
    subst hop
    exact ⟨_, rfl⟩
  obtain ⟨out, hout⟩ := hout
  refine ⟨out, hout, ?_⟩
  rcases call_frame hf.full hout with e | ⟨n, e⟩
  · rw [e]; exact hf
  · rw [e]; exact sound_put hf n

theorem page_total {page : List PageCall} (hp : ∀ c ∈ page, ∃ b, TextControl c b) : ∀ {f : OptFrame}, SoundFrame f →
    ∃ outs, (renderPage page f).2 = .ok outs ∧ outs.length = page.length := by
  induction page with
  | nil => intro f _; exact ⟨[], rfl, rfl⟩
  | cons c r ih =>
    intro f hf
    obtain ⟨b, hb⟩ := hp c (by simp)
    obtain ⟨out, ho, hfr⟩ := control_total hb hf
    rcases hcall : tagCall [] c.style c.tag c.bound c.kw f with ⟨f', x⟩
    rw [hcall] at ho hfr
    simp only [] at ho hfr
    subst ho
    obtain ⟨os, h1, h2⟩ := ih (fun c hc => hp c (by simp [hc])) hfr
    simp only [renderPage, hcall, h1]
    exact ⟨out :: os, rfl, by simp [h2]⟩

end

end Flatland
