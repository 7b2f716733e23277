import Verif.Proofs.Genshi
/-
C70: the Genshi directives do to a template what the generator does to its tags.
-/
namespace Flatland
open Spec

section
variable [Runtime] [Casing]

/-- Whatever order directives are written in, those of others (`py:if`, `py:for`, ...) take effect first, then flatland's, each in their order. -/
theorem C70_order {fs : List TagFilter} (ds : List Dir) (evs : List Ev) (c c' : Ctx) (r : Except PyErr (List Ev)) :
    Renders fs c (.apply ds evs) c' r ↔ Renders fs c (.apply (dirOrder ds) evs) c' r := renders_order evs ds c c' r

/-- A template with its data is rendered in one way only. -/
theorem C70_unique {fs : List TagFilter} {c c₁ c₂ : Ctx} {j : Job} {r₁ r₂ : Except PyErr (List Ev)} (h₁ : Renders fs c j c₁ r₁)
    (h₂ : Renders fs c j c₂ r₂) : c₁ = c₂ ∧ r₁ = r₂ := renders_unique h₁ h₂

/-- A tag that is bound, or has switches, goes out with the same name and end; its plain attributes, with the switches, and its contents are
given to the transforms, and what these made of them is what goes out. -/
theorem C70_rewrite {ds : List Dir} {bound : Option Bind} {frame frame' : OptFrame} {tag : QN} {attrs : GAttrs} {inner out : List Ev} {last : Ev}
    {c : HtmlVal} (hf : FullFrame frame) (hn : DistinctNames attrs) (hi : Inner inner c)
    (h : rewriteStream [] ds bound frame (.start tag attrs :: (inner ++ [last])) = .ok (frame', out)) :
    ∃ m s attrs' inner₁ inner₂, Offered ds attrs m ∧ transformTag [] tag.loc bound ⟨m, c, frame⟩ = .ok s ∧ frame' = s.frame ∧
      Merged attrs s.attrs attrs' ∧ After inner s.contents inner₁ ∧ OptionsBound tag bound inner₁ inner₂ ∧
      out = .start tag attrs' :: (inner₂ ++ [last]) := by
  cases e0 : inject [] ds with
  | error e => unfold rewriteStream at h; rw [e0] at h; cases h
  | ok m =>
  cases e1 : plainAttrs attrs m attrs with
  | error e =>
    obtain ⟨l, hl, _⟩ := inner_contents hi last
    unfold rewriteStream at h
    rw [e0, ok_bind] at h
    simp only at h
    rw [hl, ok_bind] at h
    simp only at h
    rw [e1] at h
    cases h
  | ok x =>
  obtain ⟨cur, m'⟩ := x
  obtain ⟨l, hl, hr⟩ := rewrite_steps (bound := bound) (frame := frame) (tag := tag) (last := last) hi e0 e1
  rw [hr] at h
  obtain ⟨s, e2, h⟩ := bind_ok h
  obtain ⟨new, e3, h⟩ := bind_ok h
  obtain ⟨new', e4, h⟩ := bind_ok h
  obtain ⟨ho, hb⟩ := rewrite_offered hn e0 e1
  have hc : ∃ t, s.contents = c ∨ s.contents = .markup t := by
    rcases transform_contents (s := ⟨m', c, frame⟩) ho.1 hf e2 with hc | ⟨_, b, _, hc⟩
    · exact ⟨[], .inl hc⟩
    · exact ⟨_, .inr hc⟩
  obtain ⟨t, hc⟩ := hc
  obtain ⟨inner₁, ha, hob⟩ := rewrite_contents hi hl hc e3 e4
  simp only [Except.ok.injEq, Prod.mk.injEq] at h
  refine ⟨m', s, _, inner₁, _, ho, e2, h.1.symm, merged_of hb (stages_dict (s := ⟨m', c, frame⟩) ho.1 hf e2), ha, hob, ?_⟩
  rw [← h.2]
  split <;> rfl

/-- With a well-formed tag whose attributes and switches can be evaluated, the directives raise only what the transforms raise. -/
theorem C70_rewrite_raises {ds : List Dir} {bound : Option Bind} {frame : OptFrame} {tag : QN} {attrs : GAttrs} {ns : List GNode} {last : Ev}
    {c : HtmlVal} (hf : FullFrame frame) (hn : DistinctNames attrs) (hds : ∀ d ∈ ds, ∃ n ps t, d = .control n ps ∧ partsText ps = some t)
    (hat : ∀ p ∈ attrs, p.1.ns = .none → (attrValue p.2).isSome) (hw : wfNodes ns = true) (hi : Inner (nodeEvents ns) c) :
    ∃ m, Offered ds attrs m ∧
      (∀ s, transformTag [] tag.loc bound ⟨m, c, frame⟩ = .ok s →
        ∃ out, rewriteStream [] ds bound frame (.start tag attrs :: (nodeEvents ns ++ [last])) = .ok (s.frame, out)) ∧
      ∀ e, transformTag [] tag.loc bound ⟨m, c, frame⟩ = .error e →
        rewriteStream [] ds bound frame (.start tag attrs :: (nodeEvents ns ++ [last])) = .error e := by
  obtain ⟨m, e0⟩ := inject_total hds []
  obtain ⟨cur, m', e1⟩ := plainAttrs_total hat attrs m
  obtain ⟨l, hl, hr⟩ := rewrite_steps (bound := bound) (frame := frame) (tag := tag) (last := last) hi e0 e1
  obtain ⟨ho, hb⟩ := rewrite_offered hn e0 e1
  refine ⟨m', ho, ?_, ?_⟩
  · intro s e2
    rw [hr, e2, ok_bind]
    have hnew : ∃ new, newContents s.contents l = .ok new ∧ ∃ new', bindOptions tag bound new = .ok new' := by
      have hbo : ∀ x : List GNode, wfNodes x = true → ∃ new', bindOptions tag bound (nodeEvents x) = .ok new' := by
        intro x hx
        unfold bindOptions
        cases bound with
        | none => exact ⟨_, rfl⟩
        | some b =>
          simp only
          split
          · exact ⟨_, bindUnbound_ok _ b x hx⟩
          · exact ⟨_, rfl⟩
      have hleaf : ∀ t f, ∃ new', bindOptions tag bound [.text t f] = .ok new' := by
        intro t f
        have := hbo [.leaf (.text t f)] rfl
        simpa [nodeEvents, GNode.events] using this
      rcases transform_contents (s := ⟨m', c, frame⟩) ho.1 hf e2 with hc | ⟨_, b, _, hc⟩
      · rw [hc]
        have hns := hbo ns hw
        revert hi hl hns
        clear hr
        generalize nodeEvents ns = inner
        intro hi hl hns
        cases hi with
        | empty => exact ⟨[], rfl, by simpa [nodeEvents] using hbo [] rfl⟩
        | text _ t _ _ => exact ⟨_, rfl, hleaf t false⟩
        | tags _ _ => rw [hl rfl]; exact ⟨_, rfl, hns⟩
      · rw [hc]
        exact ⟨_, rfl, hleaf _ true⟩
    obtain ⟨new, h1, new', h2⟩ := hnew
    rw [h1, ok_bind, h2, ok_bind]
    exact ⟨_, rfl⟩
  · intro e e2
    rw [hr, e2]
    rfl

omit [Runtime] [Casing] in
/-- Looking up an attribute in the tag that goes out: one with a namespace is the one of the template, a plain one the one the transforms left. -/
theorem C70_attributes {attrs attrs' : GAttrs} {m : Attrs} (hn : DistinctNames attrs) (h : Merged attrs m attrs') :
    DistinctNames attrs' ∧ (∀ q, q.ns ≠ .none → attrOf attrs' q = attrOf attrs q) ∧ ∀ k, attrOf attrs' (plain k) = (dictGet m k).map .val := by
  refine ⟨merged_names hn h, ?_, ?_⟩
  · intro q hq
    rw [merged_get hn h, if_neg hq]
  · intro k
    rw [merged_get hn h]
    rfl

/-- A template tag written with the attributes a generator tag is called with gets the attributes the generator gives it. -/
theorem C70_generator {t : PStr} {bound : Option Bind} {kw : Attrs} {f f' : OptFrame} {header cs : PStr} (hf : FullFrame f) (ho : OrderedAttrs f)
    (hd : DictLike kw) (hk : ∀ p ∈ kw, stripKey p.1 = p.1 ∧ p.1 ≠ "contents".toList ∧ ∃ s, p.2 = .text s)
    (h : tagOpen [] t bound kw f = (f', .ok (header, cs))) :
    ∃ attrs' inner guts, rewriteStream [] [] bound f [.start (plain t) (kw.map fun p => (plain p.1, .val p.2)), .stop (plain t)] =
        .ok (f', .start (plain t) attrs' :: (inner ++ [.stop (plain t)])) ∧
      (∀ p ∈ attrs', ∃ k v, p = (plain k, .val v)) ∧ renderAttrs (sortAttrs (plainOf attrs')) = .ok guts ∧ header = '<' :: t ++ guts := by
  let attrs : GAttrs := kw.map fun p => (plain p.1, .val p.2)
  have hn : DistinctNames attrs := by
    show ((kw.map fun p => (plain p.1, GVal.val p.2)).map (·.1)).Nodup
    unfold DictLike dictKeys List.Nodup at hd
    rw [List.map_map]
    unfold List.Nodup
    rw [List.pairwise_map] at hd ⊢
    exact hd.imp (fun {p q} hpq he => hpq (by simpa [plain] using he))
  have hattr : ∀ k, attrOf attrs (plain k) = (dictGet kw k).map .val := by
    intro k
    ext v
    rw [attrOf_mem hn, Option.map_eq_some_iff]
    show (plain k, v) ∈ kw.map (fun p => (plain p.1, GVal.val p.2)) ↔ _
    rw [List.mem_map]
    constructor
    · rintro ⟨p, hp, he⟩
      simp only [Prod.mk.injEq, plain, QN.mk.injEq, true_and] at he
      obtain ⟨rfl, rfl⟩ := he
      exact ⟨p.2, (mem_get hd).1 hp, rfl⟩
    · rintro ⟨w, hw, rfl⟩
      exact ⟨(k, w), (mem_get hd).2 hw, rfl⟩
  have hval : ∀ p ∈ attrs, p.1.ns = .none → (attrValue p.2).isSome := by
    intro p hp _
    obtain ⟨x, hx, rfl⟩ := List.mem_map.1 hp
    obtain ⟨_, _, s, hs⟩ := hk x hx
    simp [hs, attrValue]
  obtain ⟨m, hm, hok, _⟩ := C70_rewrite_raises (ds := []) (bound := bound) (tag := plain t) (ns := []) (last := .stop (plain t)) hf hn (by simp) hval rfl .empty
  -- the same is given to the transforms
  have hsame : SameAttrs (tagInput kw f) ⟨m, .none, f⟩ := by
    refine ⟨unicodeKeyed_dict _, hm.1, ?_, ?_, rfl⟩
    · intro k
      rw [hm.2 k, hattr]
      cases hg : dictGet kw k with
      | none =>
        show _ = switchValue [] k
        rw [show switchValue [] k = .none from rfl]
        refine input_none ?_
        intro p hp he
        rw [(hk p hp).1] at he
        subst he
        have := (mem_get hd).1 hp
        rw [hg] at this
        cases this
      | some v =>
        have hmem := (mem_get hd).2 hg
        obtain ⟨h1, h2, s, hs⟩ := hk _ hmem
        simp only at hs h2 h1
        subst hs
        show _ = some (HtmlVal.text s)
        refine input_given h2 ⟨⟨_, hmem, h1⟩, ?_⟩
        intro p hp he
        rw [(hk p hp).1] at he
        have := (mem_get hd).1 hp
        rw [he, hg] at this
        exact (Option.some.inj this).symm
    · refine input_contents ?_
      intro p hp he
      rw [(hk p hp).1] at he
      exact (hk p hp).2.1 he
  unfold tagOpen at h
  rcases transformTag_same t bound hsame with ⟨s, s', e1, e2, hst⟩ | ⟨e, e1, e2⟩
  · rw [e1] at h
    simp only [Prod.mk.injEq] at h
    obtain ⟨hfr, h⟩ := h
    obtain ⟨cc, _, h⟩ := bind_ok h
    have hfr' : dictGet s.frame kOrdered = dictGet f kOrdered := by
      obtain ⟨_, _, _, _, s5, st⟩ := stages_of_ok (s := tagInput kw f) hsame.left hf e1
      obtain ⟨_, _, _, _, f5⟩ := transformTabindex_spec t st.t4.dict (st.full5 hf) st.e5
      rw [st.f6]
      rcases f5 with f5 | ⟨n, f5⟩
      · rw [f5, st.f4]; rfl
      · rw [f5, dictGet_put, if_neg (by decide), st.f4]; rfl
    obtain ⟨v, hv, htr⟩ := ho
    rw [hfr', hv] at h
    simp only [htr, ok_bind, if_true] at h
    obtain ⟨guts, hg, h⟩ := bind_ok h
    simp only [Except.ok.injEq, Prod.mk.injEq] at h
    obtain ⟨out, hout⟩ := hok s' e2
    have hout' : rewriteStream [] [] bound f (.start (plain t) attrs :: ([] ++ [.stop (plain t)])) = .ok (s'.frame, out) := hout
    obtain ⟨m2, s2, attrs', inner₁, inner₂, hm2, e3, hf2, hmer, _, _, rfl⟩ := C70_rewrite hf hn .empty hout'
    have hsame2 : SameAttrs ⟨m, .none, f⟩ ⟨m2, .none, f⟩ := ⟨hm.1, hm2.1, fun k => by rw [hm.2, hm2.2], rfl, rfl⟩
    obtain ⟨hdist, hns, hpl⟩ := C70_attributes hn hmer
    rcases transformTag_same t bound hsame2 with ⟨x, y, e4, e5, hxy⟩ | ⟨e, e4, _⟩
    · rw [e2] at e4
      cases e4
      have e3' : transformTag [] t bound ⟨m2, .none, f⟩ = .ok s2 := e3
      rw [e3'] at e5
      cases e5
      refine ⟨attrs', inner₂, guts, ?_, ?_, ?_, ?_⟩
      · rw [← hfr, hst.frame]
        exact hout
      · rintro ⟨q, v⟩ hp
        have hq : q.ns = .none := by
          by_cases hq : q.ns = .none
          · exact hq
          · have := hns q hq
            rw [(attrOf_mem hdist).2 hp] at this
            have := (attrOf_mem hn).1 this.symm
            obtain ⟨z, _, hz⟩ := List.mem_map.1 this
            simp only [Prod.mk.injEq] at hz
            exact absurd (by rw [← hz.1]; rfl) hq
        have := hpl q.loc
        rw [plain_eta hq, (attrOf_mem hdist).2 hp] at this
        obtain ⟨w, _, hw⟩ := Option.map_eq_some_iff.1 this.symm
        exact ⟨q.loc, w, by rw [plain_eta hq, hw]⟩
      · rw [← hg]
        congr 1
        have hpd := plainOf_dict hdist
        refine sortAttrs_congr hpd (perm_of_get hpd hst.left ?_)
        intro k
        rw [hst.get, hxy.get]
        ext v
        rw [plainOf_get hdist, hpl]
        simp
      · exact h.1.symm
    · rw [e2] at e4
      cases e4
  · rw [e1] at h
    simp at h

/-! ### contents -/

/-- Contents that are all text, also by way of expressions that give text or streams of it, go out as one text (unless the tag is a textarea, where the value of the element may go). -/
theorem C70_text_contents {ds : List Dir} {bound : Option Bind} {frame frame' : OptFrame} {tag : QN} {attrs : GAttrs} {inner out : List Ev} {last : Ev}
    {t : PStr} (hf : FullFrame frame) (hn : DistinctNames attrs) (hne : inner ≠ []) (ht : deepTexts inner = some t) (htag : tag.loc ≠ "textarea".toList)
    (h : rewriteStream [] ds bound frame (.start tag attrs :: (inner ++ [last])) = .ok (frame', out)) :
    ∃ attrs', out = [.start tag attrs', .text t false, last] := by
  obtain ⟨m, s, attrs', i₁, i₂, hm, e, rfl, _, ha, ho, rfl⟩ := C70_rewrite hf hn (.text inner t hne ht) h
  refine ⟨attrs', ?_⟩
  have hc : s.contents = .text t := by
    rcases transform_contents (s := ⟨m, .text t, frame⟩) hm.1 hf e with hc | ⟨h1, _⟩
    · exact hc
    · exact absurd h1 htag
  rw [hc] at ha
  cases ha
  have : i₂ = [.text t false] := by
    unfold OptionsBound at ho
    cases bound with
    | none => exact ho
    | some b =>
      simp only at ho
      split at ho
      · have := ho [.leaf (.text t false)] rfl (by simp [nodeEvents, GNode.events])
        simpa [nodeEvents, boundNodes, GNode.bound, GNode.events] using this
      · exact ho
  rw [this]
  rfl

/-- Contents with tags in them are left alone, except in a textarea and in a select. -/
theorem C70_other_contents {ds : List Dir} {bound : Option Bind} {frame frame' : OptFrame} {tag : QN} {attrs : GAttrs} {inner out : List Ev} {last : Ev}
    (hf : FullFrame frame) (hn : DistinctNames attrs) (hin : HasTags inner) (htag : tag.loc ≠ "textarea".toList) (hsel : bound = .none ∨ tag.loc ≠ "select".toList)
    (h : rewriteStream [] ds bound frame (.start tag attrs :: (inner ++ [last])) = .ok (frame', out)) :
    ∃ attrs', out = .start tag attrs' :: (inner ++ [last]) := by
  obtain ⟨m, s, attrs', i₁, i₂, hm, e, rfl, _, ha, ho, rfl⟩ := C70_rewrite hf hn (.tags inner hin) h
  refine ⟨attrs', ?_⟩
  have hc : s.contents = .obj 0 := by
    rcases transform_contents (s := ⟨m, .obj 0, frame⟩) hm.1 hf e with hc | ⟨h1, _⟩
    · exact hc
    · exact absurd h1 htag
  rw [hc] at ha
  cases ha
  have : i₂ = inner := by
    unfold OptionsBound at ho
    rcases hsel with rfl | hsel
    · exact ho
    · cases bound with
      | none => exact ho
      | some b => simp only [if_neg hsel] at ho; exact ho
  rw [this]

/-- In a select bound to an element, each option below that is not inside of another binding is bound to the same element. -/
theorem C70_select {ds : List Dir} {b : Bind} {frame frame' : OptFrame} {tag : QN} {attrs : GAttrs} {ns : List GNode} {out : List Ev} {last : Ev}
    (hf : FullFrame frame) (hn : DistinctNames attrs) (hw : wfNodes ns = true) (hin : HasTags (nodeEvents ns)) (htag : tag.loc = "select".toList)
    (h : rewriteStream [] ds (some b) frame (.start tag attrs :: (nodeEvents ns ++ [last])) = .ok (frame', out)) :
    ∃ attrs', out = .start tag attrs' :: (nodeEvents (boundNodes ⟨tag.ns, "option".toList⟩ b ns) ++ [last]) := by
  obtain ⟨m, s, attrs', i₁, i₂, hm, e, rfl, _, ha, ho, rfl⟩ := C70_rewrite hf hn (.tags _ hin) h
  refine ⟨attrs', ?_⟩
  have hc : s.contents = .obj 0 := by
    rcases transform_contents (s := ⟨m, .obj 0, frame⟩) hm.1 hf e with hc | ⟨h1, _⟩
    · exact hc
    · rw [htag] at h1
      exact absurd h1 (by decide)
  rw [hc] at ha
  cases ha
  unfold OptionsBound at ho
  simp only [if_pos htag] at ho
  rw [ho ns hw rfl]

omit [Runtime] [Casing] in
/-- The options of a select are bound once: going over it again with another element changes nothing. -/
theorem C70_bound_once (q : QN) (b b' : Bind) (ns : List GNode) (hw : wfNodes ns = true) :
    bindUnbound q b (nodeEvents ns) = .ok (nodeEvents (boundNodes q b ns)) ∧
    bindUnbound q b' (nodeEvents (boundNodes q b ns)) = .ok (nodeEvents (boundNodes q b ns)) := by
  refine ⟨bindUnbound_ok q b ns hw, ?_⟩
  rw [bindUnbound_ok q b' _ (by rw [boundNodes_wf]; exact hw), boundNodes_again]

/-! ### options -/

omit [Runtime] [Casing] in
/-- The attributes of `form:with` and `form:set` become options in order: hyphens become underscores in the documented names, the tab index is
read as a number and the rest stays text.  A tab index that is no number is a ValueError. -/
theorem C70_options (int : PStr → Option Int) (attrs : List (PStr × PStr)) :
    ((∀ p ∈ attrs, p.1 = kTabindex → (int p.2).isSome) →
      contextOptions int attrs = .ok (attrs.map fun p => (underscored p.1, if p.1 = kTabindex then .int ((int p.2).getD 0) else .text p.2))) ∧
    ((∃ p ∈ attrs, p.1 = kTabindex ∧ int p.2 = .none) → contextOptions int attrs = .error .value) := by
  induction attrs with
  | nil => exact ⟨fun _ => rfl, fun ⟨_, h, _⟩ => absurd h List.not_mem_nil⟩
  | cons p r ih =>
    obtain ⟨k, v⟩ := p
    have hk := toContext_tabindex k
    rw [contextOptions, ← underscored_eq k]
    rw [← underscored_eq k] at hk
    by_cases ht : k = kTabindex
    · rw [if_pos (hk.2 ht)]
      cases hv : int v with
      | none =>
        refine ⟨fun h => ?_, fun _ => rfl⟩
        have := h (k, v) (by simp) ht
        simp [hv] at this
      | some i =>
        refine ⟨fun h => ?_, ?_⟩
        · rw [ih.1 fun p hp => h p (by simp [hp])]
          simp only [List.map_cons, if_pos ht, hv, Option.getD_some, hk.2 ht]
          rfl
        · rintro ⟨p, hp, h1, h2⟩
          rcases List.mem_cons.1 hp with rfl | hp
          · rw [hv] at h2; cases h2
          · simp only [ih.2 ⟨p, hp, h1, h2⟩]; rfl
    · rw [if_neg (fun h => ht (hk.1 h))]
      refine ⟨fun h => ?_, ?_⟩
      · rw [ih.1 fun p hp => h p (by simp [hp])]
        simp only [List.map_cons, if_neg ht]
        rfl
      · rintro ⟨p, hp, h1, h2⟩
        rcases List.mem_cons.1 hp with rfl | hp
        · exact absurd h1 ht
        · rw [ih.2 ⟨p, hp, h1, h2⟩]; rfl

/-- an option with a hyphen, a tab index and an unknown one; a tab index that is no number -/
example : contextOptions (fun s => if s = ['7'] then some 7 else .none)
      [("auto-domid".toList, ['o', 'n']), ("tabindex".toList, ['7']), ("no-such".toList, [])] =
    .ok [("auto_domid".toList, .text ['o', 'n']), ("tabindex".toList, .int 7), ("no-such".toList, .text [])] ∧
    contextOptions (fun s => if s = ['7'] then some 7 else .none) [("tabindex".toList, ['x'])] = .error .value := by
  constructor <;> rfl

/-- A `form:with` that is rendered to its end leaves all the options as they were before it. -/
theorem C70_with {fs : List TagFilter} {c c' : Ctx} {attrs : List (PStr × HtmlVal)} {evs o : List Ev}
    (h : Renders fs c (.apply [.withOpts attrs] evs) c' (.ok o)) : c' = c := by
  cases h with
  | later _ _ _ _ _ _ _ _ he => simp [evaluatedLast] at he
  | withOpts _ c₁ c₂ _ _ _ hu hr hp =>
    have h1 := (update_spec attrs (Ctx.mk c.top (c.top :: c.below))).1
    rw [hu] at h1
    have h2 : c₂.below = c.top :: c.below := ((renders_below hr).2 _ rfl).trans h1
    unfold Ctx.pop
    rw [h2]

/-- Inside of it the options are those given, for the rest those outside. -/
theorem C70_with_inside {fs : List TagFilter} {c c' : Ctx} {attrs : List (PStr × HtmlVal)} {evs o : List Ev} :
    Renders fs c (.apply [.withOpts attrs] evs) c' (.ok o) ↔ c' = c ∧ ∃ c₁ c₂, Renders fs c₁ (.flat evs) c₂ (.ok o) ∧
      (∀ p ∈ attrs, (inEffect c p.1).isSome) ∧ c₁ = ⟨attrs.foldl (fun d p => dictPut d p.1 p.2) c.top, c.top :: c.below⟩ ∧
      ∀ k, inEffect c₁ k = (settingOf attrs k).or (inEffect c k) := by
  have hspec := update_spec attrs (Ctx.mk c.top (c.top :: c.below))
  have hget : ∀ k, inEffect ⟨attrs.foldl (fun d p => dictPut d p.1 p.2) c.top, c.top :: c.below⟩ k = (settingOf attrs k).or (inEffect c k) := by
    intro k
    show dictGet _ k = _
    rw [update_get_last]
    cases settingOf attrs k <;> rfl
  constructor
  · intro h
    refine ⟨C70_with h, ?_⟩
    cases h with
    | later _ _ _ _ _ _ _ _ he => simp [evaluatedLast] at he
    | withOpts _ c₁ c₂ _ _ _ hu hr hp =>
      rw [hu] at hspec
      have hc₁ : c₁ = ⟨attrs.foldl (fun d p => dictPut d p.1 p.2) c.top, c.top :: c.below⟩ := by
        have h1 := hspec.1
        have h2 := hspec.2.2.2.2 rfl
        cases c₁
        simp only at h1 h2
        rw [h1, h2]
      exact ⟨c₁, c₂, hr, hspec.2.2.2.1.1 rfl, hc₁, by rw [hc₁]; exact hget⟩
  · rintro ⟨rfl, c₁, c₂, hr, hs, rfl, _⟩
    have hu2 : ((Ctx.mk c'.top (c'.top :: c'.below)).update attrs).2 = .none := hspec.2.2.2.1.2 hs
    have hu : (Ctx.mk c'.top (c'.top :: c'.below)).update attrs = (⟨attrs.foldl (fun d p => dictPut d p.1 p.2) c'.top, c'.top :: c'.below⟩, .none) := by
      have h1 := hspec.1
      have h2 := hspec.2.2.2.2 hu2
      revert h1 h2 hu2
      generalize (Ctx.mk c'.top (c'.top :: c'.below)).update attrs = u
      obtain ⟨⟨ut, ub⟩, ue⟩ := u
      simp only
      rintro rfl rfl rfl
      rfl
    have hbelow := (renders_below hr).2 _ rfl
    have hp : c₂.pop = (c', .none) := by
      unfold Ctx.pop
      rw [hbelow]
    have := Renders.withOpts c' _ c₂ attrs evs o hu hr (by rw [hp])
    rw [hp] at this
    exact this

/-- After a `form:set` the options given are in effect for what follows, until the next tag that changes them. -/
theorem C70_set {fs : List TagFilter} {c c' : Ctx} {attrs : List (PStr × HtmlVal)} {o : List Ev}
    (h : Renders fs c (.apply [.setOpts attrs] []) c' (.ok o)) :
    o = [] ∧ c'.below = c.below ∧ ∀ k, inEffect c' k = (settingOf attrs k).or (inEffect c k) := by
  have hspec := update_spec attrs c
  cases h with
  | later _ _ _ _ _ _ _ _ he => simp [evaluatedLast] at he
  | setOpts _ c₁ _ _ _ _ hu hr =>
    rw [hu] at hspec
    cases hr
    refine ⟨rfl, hspec.1, ?_⟩
    intro k
    show dictGet c'.top k = _
    rw [hspec.2.2.2.2 rfl, update_get_last]
    cases settingOf attrs k <;> rfl

/-- Whatever is rendered to its end leaves the enclosing scopes alone. -/
theorem C70_scopes {fs : List TagFilter} {c c' : Ctx} {j : Job} {o : List Ev} (h : Renders fs c j c' (.ok o)) : c'.below = c.below :=
  (renders_below h).2 o rfl

/-- Options that are not known are refused, by `form:with` and by `form:set`. -/
theorem C70_unknown_option {fs : List TagFilter} {c : Ctx} {attrs : List (PStr × HtmlVal)} {evs : List Ev} {k : PStr} {v : HtmlVal}
    (hm : (k, v) ∈ attrs) (hk : inEffect c k = .none) :
    (∃ c', Renders fs c (.apply [.withOpts attrs] evs) c' (.error .key)) ∧ ∃ c', Renders fs c (.apply [.setOpts attrs] evs) c' (.error .key) := by
  have key : ∀ d : Ctx, inEffect d k = .none → ∃ d', d.update attrs = (d', some .key) := by
    intro d hd
    obtain ⟨_, _, h3, h4, _⟩ := update_spec attrs d
    rcases h3 with h3 | h3
    · have := h4.1 h3 _ hm
      unfold inEffect at hd
      rw [hd] at this
      cases this
    · exact ⟨_, Prod.ext rfl h3⟩
  obtain ⟨c₁, h1⟩ := key ⟨c.top, c.top :: c.below⟩ hk
  obtain ⟨c₂, h2⟩ := key c hk
  exact ⟨⟨c₁, .withRefused _ _ _ _ _ _ (by simp [evaluatedLast]) h1⟩, ⟨c₂, .setRefused _ _ _ _ _ _ (by simp [evaluatedLast]) h2⟩⟩

/-! ### where the code falls short -/

/-- A `form:with` in which something raises leaves its options in effect: the frame it pushed stays. -/
theorem C70_with_leaks {fs : List TagFilter} (c : Ctx) {attrs : List (PStr × HtmlVal)} {evs : List Ev} {e : PyErr}
    {c' : Ctx} (h : Renders fs c (.apply [.withOpts attrs] evs) c' (.error e)) : c.depth < c'.depth := by
  have hspec := (update_spec attrs (Ctx.mk c.top (c.top :: c.below))).1
  cases h with
  | later _ _ _ _ _ _ _ _ he => simp [evaluatedLast] at he
  | withRaises _ c₁ _ _ _ _ hu hr =>
    rw [hu] at hspec
    obtain ⟨l, hl⟩ := (renders_below hr).1
    simp only at hspec
    unfold Ctx.depth
    rw [hl, hspec]
    simp
    omega
  | withRefused _ _ _ _ _ _ _ hu =>
    rw [hu] at hspec
    simp only at hspec
    unfold Ctx.depth
    rw [hspec]
    simp

/-- An option of a bound select that has switches of its own but no binding cannot be rendered: ValueError. -/
theorem C70_switched_option (b : Bind) (q : QN) (name t : PStr) (attrs : GAttrs) (kids : List GNode) (hq : attrOf attrs q = .none) (c : Ctx) :
    let option := GNode.sub [.control name [.text t]] [.el q attrs kids]
    Renders [] c (.flat (nodeEvents (boundNodes q b [option]))) c (.error .value) := by
  simp only [boundNodes, GNode.bound, nodeEvents, GNode.events, List.append_nil]
  rw [if_neg (by simp [Dir.isBind])]
  simp only [GNode.events, nodeEvents, List.append_nil]
  rw [if_pos ⟨trivial, hq⟩]
  refine .subRaises _ _ _ _ _ _ (.controlRaises _ _ _ _ _ _ (by simp [evaluatedLast]) ?_)
  rfl

end

/-- Text that is marked as safe (Markup) inside of a bound tag goes out as plain text, to be escaped. -/
theorem C70_safe_text_lost : ∃ (inner : List Ev) (t : PStr), inner = [.shown t true] ∧ deepTexts inner = some t ∧ ∀ (_ : Runtime) (_ : Casing) (ds : List Dir)
    (bound : Option Bind) (frame frame' : OptFrame) (tag : QN) (attrs : GAttrs) (last : Ev) (out : List Ev), FullFrame frame → DistinctNames attrs →
    tag.loc ≠ "textarea".toList → rewriteStream [] ds bound frame (.start tag attrs :: (inner ++ [last])) = .ok (frame', out) →
    ∃ attrs', out = [.start tag attrs', .text t false, last] :=
  ⟨[.shown "<b>".toList true], "<b>".toList, rfl, rfl, fun _ _ _ _ _ _ _ _ _ _ hf hn ht h => C70_text_contents hf hn (by simp) rfl ht h⟩

/-- An expression that gives a stream with nothing but a tag's start in front of text cannot be the contents of a bound tag: TypeError. -/
theorem C70_stream_contents (q : QN) (a : GAttrs) (t : PStr) (safe : Bool) : simplify [.stream [.start q a, .text t safe]] = .error .type := by
  have h1 : simplifyLoop [] [.start q a, .text t safe] (some []) = .ok ⟨.events [.start q a, .text t safe], by simp [Simple.size]⟩ := by
    rw [simplifyLoop]
    rfl
  rw [simplify_eq, simplifyLoop]
  simp only [h1]
  have h2 : simpleOf (simplifyLoop ([] ++ [.start q a]) ([.text t safe] ++ []) .none) = .error .type := simplifyLoop_text (t := t ++ []) rfl _ .none
  revert h2
  cases simplifyLoop ([] ++ [.start q a]) ([.text t safe] ++ []) .none with
  | ok x => intro h2; cases h2
  | error e => intro h2; exact h2

/-! ## Non-vacuity -/

section examples
attribute [local instance] Runtime.ascii Spec.asciiCasing

def genshiFrame : OptFrame := dictPut defaultFrame kOrdered (.bool true)

theorem genshiFrame_full : FullFrame genshiFrame := by unfold FullFrame; decide

def tagQ (s : String) : QN := ⟨some "http://www.w3.org/1999/xhtml".toList, s.toList⟩

def boundA : Bind := ⟨"o_a".toList, "x".toList, .plain⟩

/-- `<input type="text" xml:lang="en" class="${...}" form:bind="..." form:auto-domid="on"/>` -/
def exampleAttrs : GAttrs :=
  [(plain kType, .val (.text "text".toList)), (⟨some "xml".toList, "lang".toList⟩, .val (.text "en".toList)),
   (plain "class".toList, .parts [.text "a".toList, .shown "1".toList])]

example : rewriteStream [] [.control "auto-domid".toList [.text "on".toList]] (some boundA) genshiFrame [.start (tagQ "input") exampleAttrs, .stop (tagQ "input")] =
    .ok (genshiFrame, [.start (tagQ "input")
      [(plain kType, .val (.text "text".toList)), (⟨some "xml".toList, "lang".toList⟩, .val (.text "en".toList)),
       (plain "class".toList, .val (.text "a1".toList)), (plain kName, .val (.text "o_a".toList)), (plain kValue, .val (.text "x".toList)),
       (plain kId, .val (.text "f_o_a".toList))], .stop (tagQ "input")]) := by rfl

example : DistinctNames exampleAttrs := by unfold DistinctNames; decide

-- the hypotheses of C70_generator
example : DictLike [(kType, HtmlVal.text "text".toList), (kAutoDomid, .text "on".toList)] ∧ OrderedAttrs genshiFrame ∧
    ∃ header cs, tagOpen [] "input".toList (some boundA) [(kType, .text "text".toList), (kAutoDomid, .text "on".toList)] genshiFrame = (genshiFrame, .ok (header, cs)) :=
  ⟨by unfold DictLike; decide, ⟨.bool true, by decide, rfl⟩, "<input type=\"text\" name=\"o_a\" value=\"x\" id=\"f_o_a\"".toList, [], by rfl⟩

/-- `<option>1</option>`, an option in a `py:if`, and one with a binding of its own -/
def exampleOptions : List GNode :=
  [.el (tagQ "option") [] [.leaf (.text "1".toList false)], .leaf (.text " ".toList false),
   .sub [.foreign 1] [.el (tagQ "option") [] [.leaf (.shown "2".toList false)]],
   .sub [.bind .none] [.el (tagQ "option") [] []]]

example : wfNodes exampleOptions = true ∧ HasTags (nodeEvents exampleOptions) := ⟨by decide, [], _, _, rfl, rfl, rfl⟩

example : ∃ frame' out, rewriteStream [] [] (some boundA) genshiFrame (.start (tagQ "select") [] :: (nodeEvents exampleOptions ++ [.stop (tagQ "select")])) = .ok (frame', out) := by
  obtain ⟨m, _, h, _⟩ := C70_rewrite_raises (ds := []) (bound := some boundA) (tag := tagQ "select") (attrs := []) (ns := exampleOptions)
    (last := .stop (tagQ "select")) (c := .obj 0) genshiFrame_full (by simp [DistinctNames]) (by simp) (by simp) (by decide)
    (.tags _ ⟨[], _, _, rfl, rfl, rfl⟩)
  have hm : ∃ s, transformTag [] (tagQ "select").loc (some boundA) ⟨m, .obj 0, genshiFrame⟩ = .ok s := by
    have hoff : Offered [] [] m := by assumption
    have h0 : m = [] := by
      cases m with
      | nil => rfl
      | cons p r =>
        have := hoff.2 p.1
        simp [dictGet, attrOf, switchValue] at this
    subst h0
    exact ⟨_, rfl⟩
  obtain ⟨s, hs⟩ := hm
  obtain ⟨out, ho⟩ := h s hs
  exact ⟨_, _, ho⟩

example : boundNodes (tagQ "option") boundA exampleOptions =
  [.sub [.bind (some boundA)] [.el (tagQ "option") [] [.leaf (.text "1".toList false)]], .leaf (.text " ".toList false),
   .sub [.foreign 1] [.sub [.bind (some boundA)] [.el (tagQ "option") [] [.leaf (.shown "2".toList false)]]],
   .sub [.bind .none] [.el (tagQ "option") [] []]] := by
  simp [exampleOptions, boundNodes, GNode.bound, Dir.isBind, attrOf]

-- a directive of others behind a binding
example : dirOrder [.bind .none, .foreign 2, .control "auto-name".toList []] = [.foreign 2, .bind .none, .control "auto-name".toList []] := rfl

-- a form:with that is rendered
example : ∃ c' o, Renders [] ⟨genshiFrame, []⟩ (.apply [.withOpts [(kTabindex, .int 5)]] [.text "a".toList false]) c' (.ok o) :=
  ⟨_, _, .withOpts _ _ _ _ _ _ rfl (.text _ _ _ _ _ (.ok []) (.nil _)) rfl⟩

-- one that raises, and one with an unknown option
example : ∃ c', Renders [] ⟨genshiFrame, []⟩ (.apply [.withOpts [(kTabindex, .int 5)]] [.raises .value]) c' (.error .value) :=
  ⟨_, .withRaises _ _ _ _ _ _ rfl (.raises _ _ _)⟩
example : inEffect ⟨genshiFrame, []⟩ "auto-name".toList = .none := by decide

-- form:set
example : ∃ c', Renders [] ⟨genshiFrame, []⟩ (.apply [.setOpts [(kTabindex, .int 5)]] []) c' (.ok []) := ⟨_, .setOpts _ _ _ _ _ _ rfl (.nil _)⟩

end examples

end Flatland
