import Verif.Spec.TagTemplate
import Verif.Proofs.TagStack
/-
Lemmas for C67: what templates output.
-/
namespace Flatland
open Spec

section
variable [Runtime] [Casing]

/-- the contents are as given, or the escaped text of the element -/
theorem contents_value {tag : PStr} {bd : Option Bind} {s s' : TagState} (hf : FullFrame s.frame)
    (h : transformValue tag bd s = .ok s') : s'.contents = s.contents ∨ ∃ t, s'.contents = .markup (markupEscape t) := by
  obtain ⟨p, f, hp, -, -⟩ := popToggle_ok (key := kAutoValue) (by decide) hf
  unfold transformValue at h
  rw [hp, ok_bind] at h
  simp only [] at h
  have hfill : ∀ b, (fillValue b f (s.del kAutoValue)).contents = s.contents := by
    intro b
    unfold fillValue
    split <;> rfl
  have hmark : ∀ k on (x : TagState), (markAs k on x).contents = x.contents := by
    intro k on x
    unfold markAs
    split <;> rfl
  have hbox : ∀ b cb (x : TagState), (boxValue b cb x).2.contents = x.contents := by
    intro b cb x
    unfold boxValue
    split
    · split <;> rfl
    · rfl
  cases bd with
  | none => cases h; exact .inl rfl
  | some b =>
    simp only [] at h
    split at h
    · cases h; exact .inl rfl
    split at h
    · cases h; exact .inl rfl
    split at h
    · split at h
      · obtain ⟨on, _, h⟩ := bind_ok h
        simp only [Except.ok.injEq] at h
        subst h
        exact .inl (by rw [hmark, hbox]; rfl)
      · split at h
        · cases h
          split <;> exact .inl rfl
        · cases h; exact .inl (hfill b)
    · split at h
      · obtain ⟨on, _, h⟩ := bind_ok h
        cases h
        exact .inl (by rw [hmark]; rfl)
      · split at h
        · cases h
          split
          · exact .inr ⟨_, rfl⟩
          · exact .inl rfl
        · cases h; exact .inl (hfill b)

theorem contents_transform {tag : PStr} {bd : Option Bind} {s s' : TagState} (hd : DictLike s.attrs) (hf : FullFrame s.frame)
    (h : transformTag [] tag bd s = .ok s') : s'.contents = s.contents ∨ ∃ t, s'.contents = .markup (markupEscape t) := by
  obtain ⟨s1, s2, s3, s4, s5, st⟩ := stages_of_ok hd hf h
  obtain ⟨c1, c2⟩ := st.contents hd hf
  rcases contents_value (by rw [st.f1]; exact hf) st.e2 with e | ⟨t, e⟩
  · exact .inl (by rw [c1, e, c2])
  · exact .inr ⟨t, by rw [c1, e]⟩

omit [Runtime] [Casing] in
theorem input_get_key {kw : Attrs} (hd : DictLike kw) {f : OptFrame} {k : PStr} {v : HtmlVal} (h : dictGet (tagInput kw f).attrs k = some v) :
    ∃ p ∈ kw, p.1 ≠ "contents".toList ∧ p.2 = v := by
  unfold tagInput unicodeKeyed at h
  rw [dictOf_get] at h
  obtain ⟨l, r, h, _⟩ := h
  have : (k, v) ∈ (dictDel kw "contents".toList).map (fun p => (stripKey p.1, p.2)) := by
    show (k, v) ∈ (dictDel kw "contents".toList).map fun p => ((p.1.reverse.dropWhile (· = '_')).reverse, p.2)
    rw [h]; simp
  obtain ⟨p, hp, he⟩ := List.mem_map.1 this
  simp only [Prod.mk.injEq] at he
  refine ⟨p, (dictDel_sublist kw _).mem hp, ?_, he.2⟩
  intro hc
  have h1 : dictGet (dictDel kw "contents".toList) p.1 = some p.2 := (dictGet_mem (nodup_dictKeys_del hd _) _ _).1 hp
  rw [dictGet_del _ _ _ hd, if_pos hc] at h1
  cases h1

/-- the attributes of a readable tag can be read -/
theorem readable_attrs {xml : Bool} {tag : PStr} {bd : Option Bind} {kw : Attrs} (hk : ReadableKw xml kw) {f : OptFrame} (hf : FullFrame f) {s : TagState}
    (hs : transformTag [] tag bd (tagInput kw f) = .ok s) :
    (∀ p ∈ s.attrs, ∀ x ∈ p.1, nameChar x = true) ∧ ∀ p ∈ s.attrs, ∀ t, p.2 ≠ .markup t := by
  have hd : DictLike (tagInput kw f).attrs := unicodeKeyed_dict _
  have hd' := stages_dict hd hf hs
  have hkey : ∀ p ∈ s.attrs, dictGet s.attrs p.1 = some p.2 ∧ p.1 ∉ autoKeys := by
    rintro ⟨k, v⟩ hp
    have hg := (dictGet_mem hd' k v).1 hp
    refine ⟨hg, fun ha => ?_⟩
    have := C56_no_leak hd hf hs k ha
    simp only [hg] at this
    cases this
  constructor
  · intro p hp x hx
    obtain ⟨hg, ha⟩ := hkey p hp
    by_cases hgen : p.1 ∈ generatedKeys
    · exact generated_names _ hgen x hx
    · rw [C56_others hd hf hs ha hgen] at hg
      obtain ⟨q, hq, he, _⟩ := input_get hg
      exact hk.keys q hq x (stripKey_sub x (by rw [he]; exact hx))
  · intro p hp t ht
    obtain ⟨hg, ha⟩ := hkey p hp
    rcases tok_transform hd hf hs _ _ hg with h | ⟨t', h⟩
    · obtain ⟨q, hq, he, hv⟩ := input_get_key hk.dict h
      exact hk.values q hq he t (by rw [hv, ht])
    · rw [ht] at h; cases h

/-- the header and the contents of a readable tag -/
theorem open_readable {xml : Bool} {tag : PStr} {bd : Option Bind} {kw : Attrs} (ht : ∀ x ∈ tag, nameChar x = true) (hk : ReadableKw xml kw) {f : OptFrame}
    (hf : FullFrame f) {header c : PStr} (h : (tagOpen [] tag bd kw f).2 = .ok (header, c)) : IsHead tag header ∧ Nested xml c := by
  cases hs : transformTag [] tag bd (tagInput kw f) with
  | error e => unfold tagOpen at h; rw [hs] at h; cases h
  | ok s =>
    obtain ⟨ha, hm⟩ := readable_attrs hk hf hs
    constructor
    · intro fin hfin rest
      simp only [List.mem_cons, List.not_mem_nil, or_false] at hfin
      obtain ⟨-, as, h1, -⟩ := tagOpen_read [] tag bd kw f hfin rest h hs ht ha hm
      exact ⟨as, h1⟩
    · have hc := (tagOpen_read [] tag bd kw f (.inl rfl) [] h hs ht ha hm).1
      rcases contents_transform (unicodeKeyed_dict _) hf hs with e | ⟨t, e⟩
      · rw [e] at hc
        unfold tagInput at hc
        simp only [] at hc
        cases hg : dictGet kw "contents".toList with
        | none => rw [hg] at hc; cases hc; exact .nil
        | some v => rw [hg] at hc; exact hk.contents v c hg (contents_text.2 hc)
      · rw [e] at hc
        cases hc
        have := Nested.text (xml := xml) (t := markupEscape t) (r := []) (fun hm => markupEscape_no_open _ hm rfl) .nil
        rw [List.append_nil] at this
        exact this

theorem open_frame (tag : PStr) (bd : Option Bind) (kw : Attrs) {f : OptFrame} (hf : FullFrame f) : FullFrame (tagOpen [] tag bd kw f).1 := by
  unfold tagOpen
  cases hs : transformTag [] tag bd (tagInput kw f) with
  | error e => exact hf
  | ok s =>
    simp only []
    have hd : DictLike (tagInput kw f).attrs := unicodeKeyed_dict _
    obtain ⟨s1, s2, s3, s4, s5, st⟩ := stages_of_ok hd hf hs
    obtain ⟨_, _, _, _, f5⟩ := transformTabindex_spec tag st.t4.dict (by rw [st.f4]; exact hf) st.e5
    rw [st.f4] at f5
    rw [st.f6]
    rcases f5 with e | ⟨n, e⟩
    · rw [e]; exact hf
    · rw [e]; exact full_put hf _ _

omit [Runtime] [Casing] in
theorem nested_append {xml : Bool} {a b : PStr} (ha : Nested xml a) (hb : Nested xml b) : Nested xml (a ++ b) := by
  induction ha with
  | nil => exact hb
  | text h _ ih => rw [List.append_assoc]; exact .text h ih
  | empty h _ hx ih => rw [List.append_assoc]; exact .empty h ih hx
  | void h _ hx ih => rw [List.append_assoc]; exact .void h ih hx
  | element h h1 _ _ ih => rw [List.append_assoc]; exact .element h h1 ih

/-- a complete readable tag -/
theorem call_nested {xml d p : Bool} {tag : PStr} {bd : Option Bind} {kw : Attrs} (ht : ReadableTag tag d) (hk : ReadableKw xml kw) {f : OptFrame}
    (hf : FullFrame f) {out : PStr} (h : (tagCall [] ⟨xml, d, p⟩ tag bd kw f).2 = .ok out) : Nested xml out := by
  unfold tagCall at h
  rcases ho : tagOpen [] tag bd kw f with ⟨f', e | ⟨header, c⟩⟩
  · rw [ho] at h; cases h
  · rw [ho] at h
    obtain ⟨h1, h2⟩ := open_readable ht.readable hk hf (show (tagOpen [] tag bd kw f).2 = .ok (header, c) by rw [ho])
    simp only [Except.ok.injEq] at h
    subst h
    split
    · rename_i hx
      have := Nested.empty (xml := xml) h1 .nil hx.2.2
      rw [List.append_nil] at this
      exact this
    · rename_i hx
      split
      · rename_i hy
        have hxml : xml = false := by
          cases xml
          · rfl
          · exact absurd ⟨hy.1, hy.2.1, rfl⟩ hx
        have hn := ht.open_ended hy.2.2
        subst hn
        have := Nested.void (xml := xml) h1 .nil hxml
        rw [List.append_nil] at this
        exact this
      · have := Nested.element (xml := xml) h1 h2 .nil
        rw [List.append_nil] at this
        exact this

/-- what stays true of a generator while a readable template is output -/
structure GenOk (xml : Bool) (g : TagGen) : Prop where
  style : g.xml = xml
  frame : FullFrame g.frame
  tags : ∀ (i : Nat) (o : TagObj), g.objs[i]? = some o → ReadableTag o.name o.dangle
  stacks : ∀ n, ∀ i ∈ g.stackOf n, ∃ o, g.objs[i]? = some o ∧ o.name = n

omit [Runtime] [Casing] in
/-- asking for a tag -/
theorem get_ok {xml : Bool} {g : TagGen} (hg : GenOk xml g) {n : PStr} {d : Bool} (p : Bool) (ht : ReadableTag n d) :
    GenOk xml (g.getTag n d p).2 ∧ ∃ o, (g.getTag n d p).2.objs[(g.getTag n d p).1]? = some o ∧ o.name = n := by
  unfold TagGen.getTag
  cases hl : (g.stackOf n).getLast? with
  | some i => exact ⟨hg, hg.stacks n i (List.mem_of_getLast? hl)⟩
  | none =>
    simp only []
    refine ⟨⟨hg.style, hg.frame, ?_, ?_⟩, ⟨_, by rw [List.getElem?_append_right (Nat.le_refl _)]; simp; rfl, rfl⟩⟩
    · intro i o ho
      simp only [] at ho
      by_cases hi : i < g.objs.length
      · rw [List.getElem?_append_left hi] at ho
        exact hg.tags i o ho
      · rw [List.getElem?_append_right (by omega)] at ho
        have hmem := List.mem_of_getElem? ho
        simp at hmem
        subst hmem
        exact ht
    · intro m i hi
      obtain ⟨o, h1, h2⟩ := hg.stacks m i hi
      have hl : i < g.objs.length := by
        rw [List.getElem?_eq_some_iff] at h1
        exact h1.1
      exact ⟨o, by simp only []; rw [List.getElem?_append_left hl]; exact h1, h2⟩

omit [Runtime] [Casing] in
theorem with_ok {α : Type} {xml : Bool} {g : TagGen} (hg : GenOk xml g) {n : PStr} {d : Bool} (p : Bool) (ht : ReadableTag n d) (k : TagGen → Nat → TagObj → α)
    (bad : α) : ∃ g' i o, GenOk xml g' ∧ g'.objs[i]? = some o ∧ o.name = n ∧ g.withTag n d p k bad = k g' i o := by
  obtain ⟨h1, o, h2, h3⟩ := get_ok hg p ht
  exact ⟨_, _, o, h1, h2, h3, by unfold TagGen.withTag; rw [h2]⟩

theorem opening_ok {xml : Bool} {g : TagGen} (hg : GenOk xml g) {i : Nat} {o : TagObj} (ho : g.objs[i]? = some o) (bd : Option Bind) (kw : Attrs) :
    GenOk xml (g.opening i o bd kw) := by
  refine ⟨hg.style, open_frame o.name bd kw hg.frame, ?_, ?_⟩
  · intro j x hx
    unfold TagGen.opening at hx
    simp only [] at hx
    rw [List.getElem?_set] at hx
    split at hx
    · split at hx
      · cases hx
        exact hg.tags i o ho
      · cases hx
    · exact hg.tags j x hx
  · intro n j hj
    exact (opening_named ho bd kw n j).2 (hg.stacks n j hj)

omit [Runtime] [Casing] in
theorem push_ok {xml : Bool} {g : TagGen} (hg : GenOk xml g) {i : Nat} {o : TagObj} (ho : g.objs[i]? = some o) :
    GenOk xml (if i ∈ g.stackOf o.name then g else { g with stacks := dictPut g.stacks o.name (g.stackOf o.name ++ [i]) }) := by
  split
  · exact hg
  · refine ⟨hg.style, hg.frame, hg.tags, ?_⟩
    intro n j hj
    rw [stackOf_put] at hj
    split at hj
    · rename_i h
      rcases List.mem_append.1 hj with h' | h'
      · rw [h]; exact hg.stacks _ j h'
      · simp at h'
        exact ⟨o, by rw [h']; exact ho, h.symm⟩
    · exact hg.stacks n j hj

omit [Runtime] [Casing] in
theorem close_ok {xml : Bool} {g : TagGen} (hg : GenOk xml g) (i : Nat) (o : TagObj) : GenOk xml (g.closeTag i o).1 := by
  refine ⟨hg.style, hg.frame, hg.tags, ?_⟩
  intro n j hj
  unfold TagGen.closeTag at hj
  rw [stackOf_put] at hj
  split at hj
  · rename_i h
    rw [h]
    exact hg.stacks _ j (List.erase_subset hj)
  · exact hg.stacks n j hj

mutual
theorem template_nested {xml : Bool} : ∀ (t : Template) {g g' : TagGen} {out : PStr}, GenOk xml g → ReadableTemplate xml t →
    renderTemplate g t = (g', .ok out) → GenOk xml g' ∧ Nested xml out
  | .text t, g, g', out, hg, ht, h => by
    simp only [renderTemplate, Prod.mk.injEq, Except.ok.injEq] at h
    obtain ⟨rfl, rfl⟩ := h
    simp only [ReadableTemplate] at ht
    have := Nested.text (xml := xml) ht .nil
    rw [List.append_nil] at this
    exact ⟨hg, this⟩
  | .tag n d p bd kw, g, g', out, hg, ht, h => by
    simp only [ReadableTemplate] at ht
    simp only [renderTemplate] at h
    obtain ⟨g1, i, o, hg1, ho, hn, e⟩ := with_ok hg p ht.1 (fun g i o => g.callTag i o bd kw) (g, .error .index)
    rw [e] at h
    unfold TagGen.callTag at h
    simp only [Prod.mk.injEq] at h
    obtain ⟨rfl, h⟩ := h
    refine ⟨opening_ok hg1 ho bd kw, ?_⟩
    rw [hg1.style] at h
    exact call_nested (hg1.tags i o ho) ht.2 hg1.frame h
  | .block n d p bd kw body, g, g', out, hg, ht, h => by
    simp only [ReadableTemplate] at ht
    obtain ⟨ht, hk, hb⟩ := ht
    simp only [renderTemplate] at h
    obtain ⟨g1, i, o, hg1, ho, hn, e⟩ := with_ok hg p ht (fun g i o => g.openTag i o bd kw) (g, .error .index)
    rw [e] at h
    have hp := push_ok hg1 ho
    have ho' : (if i ∈ g1.stackOf o.name then g1 else { g1 with stacks := dictPut g1.stacks o.name (g1.stackOf o.name ++ [i]) }).objs[i]? = some o := by
      split <;> exact ho
    unfold TagGen.openTag at h
    simp only [] at h
    generalize (if i ∈ g1.stackOf o.name then g1 else { g1 with stacks := dictPut g1.stacks o.name (g1.stackOf o.name ++ [i]) }) = g2 at h hp ho'
    rcases hto : (tagOpen [] o.name bd kw g2.frame).2 with e' | ⟨header, c⟩
    · rw [hto] at h; cases h
    · rw [hto] at h
      have h1 := (open_readable (hp.tags i o ho').readable hk hp.frame hto).1
      simp only [Except.map] at h
      have hg3 := opening_ok hp ho' bd kw
      rcases hr : renderTemplates (g2.opening i o bd kw) body with ⟨g4, e' | b⟩
      · rw [hr] at h; cases h
      · rw [hr] at h
        simp only [] at h
        obtain ⟨hg4, h2⟩ := templates_nested body hg3 hb hr
        obtain ⟨g5, i', o', hg5, ho5, hn', e5⟩ := with_ok hg4 p ht
          (fun g i o => ((g.closeTag i o).1, (.ok (header ++ ['>'] ++ b ++ (g.closeTag i o).2) : Except PyErr PStr))) (g4, .error .index)
        rw [e5] at h
        simp only [Prod.mk.injEq, Except.ok.injEq] at h
        obtain ⟨rfl, rfl⟩ := h
        refine ⟨close_ok hg5 i' o', ?_⟩
        rw [hn] at h1
        have := Nested.element (xml := xml) h1 h2 .nil
        rw [List.append_nil] at this
        unfold TagGen.closeTag
        simp only []
        rw [hn']
        simpa using this
theorem templates_nested {xml : Bool} : ∀ (ts : List Template) {g g' : TagGen} {out : PStr}, GenOk xml g → ReadableTemplates xml ts →
    renderTemplates g ts = (g', .ok out) → GenOk xml g' ∧ Nested xml out
  | [], g, g', out, hg, _, h => by
    simp only [renderTemplates, Prod.mk.injEq, Except.ok.injEq] at h
    obtain ⟨rfl, rfl⟩ := h
    exact ⟨hg, .nil⟩
  | t :: r, g, g', out, hg, ht, h => by
    simp only [ReadableTemplates] at ht
    simp only [renderTemplates] at h
    rcases hr : renderTemplate g t with ⟨g1, e | a⟩
    · rw [hr] at h; cases h
    · rw [hr] at h
      simp only [] at h
      obtain ⟨hg1, h1⟩ := template_nested t hg ht.1 hr
      rcases hr2 : renderTemplates g1 r with ⟨g2, e | b⟩
      · rw [hr2] at h; cases h
      · rw [hr2] at h
        simp only [Except.map, Prod.mk.injEq, Except.ok.injEq] at h
        obtain ⟨rfl, rfl⟩ := h
        obtain ⟨hg2, h2⟩ := templates_nested r hg1 ht.2 hr2
        exact ⟨hg2, nested_append h1 h2⟩
end

/-! ### what stays open -/

omit [Runtime] [Casing] in
theorem get_stacks (g : TagGen) (n : PStr) (d p : Bool) (m : PStr) : (g.getTag n d p).2.stackOf m = g.stackOf m := by
  unfold TagGen.getTag
  split <;> rfl

omit [Runtime] [Casing] in
theorem get_top (g : TagGen) (n : PStr) (d p : Bool) : (∃ r, g.stackOf n = r ++ [(g.getTag n d p).1]) ∨ g.stackOf n = [] := by
  unfold TagGen.getTag
  cases hl : (g.stackOf n).getLast? with
  | some i =>
    rcases eq_nil_or_snoc (g.stackOf n) with h | ⟨r, x, h⟩
    · exact .inr h
    · rw [h] at hl
      simp at hl
      subst hl
      exact .inl ⟨r, h⟩
  | none => exact .inr (by simpa using hl)

omit [Runtime] [Casing] in
theorem erase_last {r : List Nat} {i : Nat} (h : (r ++ [i]).Nodup) : (r ++ [i]).erase i = r := by
  have hn : i ∉ r := by
    rw [List.nodup_append] at h
    intro hi
    exact h.2.2 i hi i (by simp) rfl
  rw [List.erase_append_right _ hn]
  simp

/-- no stack has a tag twice -/
def OnceEach (g : TagGen) : Prop := ∀ n, (g.stackOf n).Nodup

mutual
theorem template_left {xml : Bool} : ∀ (t : Template) {g g' : TagGen} {out : PStr}, GenOk xml g → OnceEach g → ReadableTemplate xml t →
    renderTemplate g t = (g', .ok out) → ∀ n, g'.stackOf n <+: g.stackOf n
  | .text t, g, g', out, hg, hu, ht, h => by
    simp only [renderTemplate, Prod.mk.injEq, Except.ok.injEq] at h
    obtain ⟨rfl, rfl⟩ := h
    intro n
    exact List.prefix_refl _
  | .tag n d p bd kw, g, g', out, hg, hu, ht, h => by
    simp only [ReadableTemplate] at ht
    simp only [renderTemplate] at h
    obtain ⟨h1, o, ho, hn⟩ := get_ok hg p ht.1
    unfold TagGen.withTag at h
    rw [ho] at h
    unfold TagGen.callTag at h
    simp only [Prod.mk.injEq] at h
    obtain ⟨rfl, h⟩ := h
    intro m
    have : ((g.getTag n d p).2.opening (g.getTag n d p).1 o bd kw).stackOf m = g.stackOf m := get_stacks g n d p m
    rw [this]
    exact List.prefix_refl _
  | .block n d p bd kw body, g, g', out, hg, hu, ht, h => by
    simp only [ReadableTemplate] at ht
    obtain ⟨ht, hk, hb⟩ := ht
    simp only [renderTemplate] at h
    obtain ⟨hg1, o, ho, hn⟩ := get_ok hg p ht
    unfold TagGen.withTag at h
    rw [ho] at h
    have hst := get_stacks g n d p
    have htop := get_top g n d p
    rw [← hst n] at htop
    have hu1 : OnceEach (g.getTag n d p).2 := fun m => by rw [hst]; exact hu m
    generalize (g.getTag n d p).2 = g1 at *
    generalize (g.getTag n d p).1 = i at *
    have hp := push_ok hg1 ho
    have ho' : (if i ∈ g1.stackOf o.name then g1 else { g1 with stacks := dictPut g1.stacks o.name (g1.stackOf o.name ++ [i]) }).objs[i]? = some o := by
      split <;> exact ho
    -- the stacks after opening
    have hpush : ∀ m, (if i ∈ g1.stackOf o.name then g1 else { g1 with stacks := dictPut g1.stacks o.name (g1.stackOf o.name ++ [i]) }).stackOf m =
        if m = n then (if g1.stackOf n = [] then [i] else g1.stackOf n) else g1.stackOf m := by
      intro m
      rw [hn]
      rcases htop with ⟨r, hr⟩ | hr
      · have hne : g1.stackOf n ≠ [] := by rw [hr]; simp
        rw [if_pos (by rw [hr]; simp)]
        simp only [if_neg hne]
        split
        · rename_i hm; rw [hm]
        · rfl
      · rw [if_neg (by rw [hr]; simp), stackOf_put, if_pos hr, hr]
        rfl
    unfold TagGen.openTag at h
    simp only [] at h
    generalize (if i ∈ g1.stackOf o.name then g1 else { g1 with stacks := dictPut g1.stacks o.name (g1.stackOf o.name ++ [i]) }) = g2 at h hp ho' hpush
    rcases hto : (tagOpen [] o.name bd kw g2.frame).2 with e' | ⟨header, c⟩
    · rw [hto] at h; cases h
    · rw [hto] at h
      simp only [Except.map] at h
      have hg3 := opening_ok hp ho' bd kw
      have hu3 : OnceEach (g2.opening i o bd kw) := by
        intro m
        show (g2.stackOf m).Nodup
        rw [hpush]
        split
        · split
          · simp
          · exact hu1 n
        · exact hu1 m
      rcases hr : renderTemplates (g2.opening i o bd kw) body with ⟨g4, e' | b⟩
      · rw [hr] at h; cases h
      · rw [hr] at h
        simp only [] at h
        have hg4 := (templates_nested body hg3 hb hr).1
        have hleft := templates_left body hg3 hu3 hb hr
        obtain ⟨hg5, o', ho5, hn'⟩ := get_ok hg4 p ht
        rw [ho5] at h
        simp only [Prod.mk.injEq, Except.ok.injEq] at h
        obtain ⟨rfl, -⟩ := h
        intro m
        unfold TagGen.closeTag
        simp only []
        rw [stackOf_put, hn', get_stacks, get_stacks, ← hst m]
        have hl : ∀ m, g4.stackOf m <+: g2.stackOf m := hleft
        split
        · rename_i hm
          subst hm
          have h4 := hl m
          rw [hpush, if_pos rfl] at h4
          have hnd : (g4.stackOf m).Nodup := by
            have h3 := hu3 m
            exact (hleft m).sublist.nodup h3
          rcases get_top g4 m d p with ⟨r, hr4⟩ | hr4
          · rw [hr4] at hnd h4 ⊢
            rw [erase_last hnd]
            split at h4
            · rename_i he
              rw [he]
              have := h4.length_le
              have hz : r.length = 0 := by simpa using this
              cases List.length_eq_zero_iff.1 hz
              exact List.prefix_refl _
            · exact (List.prefix_append r _).trans h4
          · rw [hr4]
            simp
        · rename_i hm
          have h4 := hl m
          rw [hpush, if_neg hm] at h4
          exact h4
theorem templates_left {xml : Bool} : ∀ (ts : List Template) {g g' : TagGen} {out : PStr}, GenOk xml g → OnceEach g → ReadableTemplates xml ts →
    renderTemplates g ts = (g', .ok out) → ∀ n, g'.stackOf n <+: g.stackOf n
  | [], g, g', out, hg, _, _, h => by
    simp only [renderTemplates, Prod.mk.injEq, Except.ok.injEq] at h
    obtain ⟨rfl, rfl⟩ := h
    intro n
    exact List.prefix_refl _
  | t :: r, g, g', out, hg, hu, ht, h => by
    simp only [ReadableTemplates] at ht
    simp only [renderTemplates] at h
    rcases hr : renderTemplate g t with ⟨g1, e | a⟩
    · rw [hr] at h; cases h
    · rw [hr] at h
      simp only [] at h
      obtain ⟨hg1, -⟩ := template_nested t hg ht.1 hr
      have h1 := template_left t hg hu ht.1 hr
      rcases hr2 : renderTemplates g1 r with ⟨g2, e | b⟩
      · rw [hr2] at h; cases h
      · rw [hr2] at h
        simp only [Except.map, Prod.mk.injEq, Except.ok.injEq] at h
        obtain ⟨rfl, rfl⟩ := h
        intro n
        exact (templates_left r hg1 (fun m => (h1 m).sublist.nodup (hu m)) ht.2 hr2 n).trans (h1 n)
end

end

end Flatland
