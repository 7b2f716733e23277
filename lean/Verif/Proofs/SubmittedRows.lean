import Verif.Spec.SubmittedRows
import Verif.Proofs.Parts2
import Verif.Proofs.Choices
import Verif.Proofs.SubmittedDates
/-! Lemmas about submitted forms with dates and joined strings in rows (C97). -/
namespace Flatland
open Flatland.Spec

section
variable [Runtime]

theorem stub_hdr (f : RSchema) : (stub f).hdr = f.hdr := rfl

theorem leadsInto_outline (sep : PStr) (s : RSchema) (a : Step) (k : Option PStr) (v : PStr) (r : Option PStr) :
    LeadsInto sep (outline s) a k v r ↔ LeadsInto sep (plainS s) a k v r := by
  cases s with
  | plain s => exact Iff.rfl
  | joined h c m => cases a <;> exact Iff.rfl
  | compound h co fs => exact Iff.rfl
  | list h prune max m => cases a <;> exact Iff.rfl
  | dict h mode po fs =>
    cases a with
    | row => exact Iff.rfl
    | field i =>
      simp only [outline, plainS, LeadsInto, plainAll_get, List.getElem?_map]
      cases fs[i]? with
      | none => simp
      | some f => simp [Schema.name, stub_hdr, plainS_hdr]

theorem leadsInto_outline' (sep : PStr) (s : RSchema) (a : Step) : LeadsInto sep (outline s) a = LeadsInto sep (plainS s) a := by
  funext k v r; exact propext (leadsInto_outline sep s a k v r)

theorem rowMade_congr {sep : PStr} {s s' : Schema} (h : ∀ a, LeadsInto sep s a = LeadsInto sep s' a) (prune : Bool) (ps : List FPair) :
    RowMade sep s prune ps = RowMade sep s' prune ps := by
  funext i; simp only [RowMade, h]

theorem partThere_outline (sep : PStr) (ps : List FPair) (s : RSchema) (a : Step) (j : Nat) :
    PartThere sep ps (outline s) a j ↔ PartThere sep ps (plainS s) a j := by
  cases s with
  | plain s => exact Iff.rfl
  | joined h c m => cases a <;> exact Iff.rfl
  | compound h co fs => exact Iff.rfl
  | list h prune max m =>
    cases a with
    | field => exact Iff.rfl
    | row i =>
      have := rowMade_congr (leadsInto_outline' sep (.list h prune max m)) prune ps
      simp only [outline, plainS] at this
      simp only [outline, plainS, PartThere, this]
  | dict h mode po fs =>
    cases a with
    | row => exact Iff.rfl
    | field i =>
      have hl := leadsInto_outline' sep (.dict h mode po fs) (.field i)
      simp only [outline, plainS] at hl
      simp only [outline, plainS, PartThere, plainAll_get, List.getElem?_map, hl]
      cases fs[i]? with
      | none => simp
      | some f =>
        have : autoField mode (stub f) = autoField mode (plainS f) := by cases mode <;> simp [autoField, stub_hdr, plainS_hdr]
        simp [this]

theorem rPartSchema_plain {s s' : RSchema} {a : Step} (h : rPartSchema s a = some s') : partSchema (plainS s) a = some (plainS s') := by
  cases s with
  | plain s =>
    simp only [rPartSchema, Option.map_eq_some_iff] at h
    obtain ⟨x, hx, rfl⟩ := h
    exact hx
  | joined => simp [rPartSchema] at h
  | compound h' co fs =>
    cases a with
    | row => simp [rPartSchema] at h
    | field i =>
      simp only [rPartSchema, Option.map_eq_some_iff] at h
      obtain ⟨x, hx, rfl⟩ := h
      exact hx
  | dict h' mode po fs =>
    cases a with
    | row => simp [rPartSchema] at h
    | field i =>
      simp only [rPartSchema] at h
      simp only [plainS, partSchema, plainAll_get, h, Option.map_some]
  | list h' prune max m =>
    cases a with
    | field => simp [rPartSchema] at h
    | row i =>
      simp only [rPartSchema, Option.some.injEq] at h
      simp only [plainS, partSchema, h]

theorem plain_rPartSchema {s : RSchema} {a : Step} {x : Schema} (h : partSchema (plainS s) a = some x) : ∃ s', rPartSchema s a = some s' ∧ plainS s' = x := by
  cases s with
  | plain s => exact ⟨.plain x, by simpa [rPartSchema, plainS] using h, rfl⟩
  | joined => cases a <;> simp [plainS, partSchema] at h
  | compound h' co fs =>
    cases a with
    | row => simp [plainS, partSchema] at h
    | field i => exact ⟨.plain x, by simpa [rPartSchema, plainS, partSchema] using h, rfl⟩
  | dict h' mode po fs =>
    cases a with
    | row => simp [plainS, partSchema] at h
    | field i =>
      simp only [plainS, partSchema, plainAll_get, Option.map_eq_some_iff] at h
      obtain ⟨f, hf, rfl⟩ := h
      exact ⟨f, hf, rfl⟩
  | list h' prune max m =>
    cases a with
    | field => simp [plainS, partSchema] at h
    | row i =>
      simp only [plainS, partSchema, Option.some.injEq] at h
      exact ⟨m, rfl, h⟩

theorem liftAll_get : ∀ (fs : List RSchema) (ks : List Elem) (i : Nat) (f : RSchema) (k : Elem), fs[i]? = some f → ks[i]? = some k →
    (liftAll fs ks)[i]? = some (lift f k)
  | f :: fs, k :: ks, 0, f', k', h, h' => by simp_all [liftAll]
  | f :: fs, k :: ks, i + 1, f', k', h, h' => by
    simp only [liftAll, List.getElem?_cons_succ] at h h' ⊢
    exact liftAll_get fs ks i f' k' h h'
  | [], _, _, _, _, h, _ => by simp at h
  | _ :: _, [], _, _, _, _, h => by simp at h

theorem nodes_kid {s s' : RSchema} {a : Step} {j : Nat} {sep : PStr} {ps : List FPair} {e k : Elem} (hp : rPartSchema s a = some s')
    (ht : PartThere sep ps (outline s) a j) (he : e ≠ .absent) (hk : e.kids[j]? = some k) :
    (nodesOf (lift s e)).kids[j]? = some (nodesOf (lift s' k)) := by
  cases s with
  | plain s =>
    simp only [rPartSchema, Option.map_eq_some_iff] at hp
    obtain ⟨x, hx, rfl⟩ := hp
    have h1 : ∀ x (e : Elem), lift (.plain x) e = .plain e := by intro x e; cases e <;> simp [lift]
    simp only [h1, nodesOf, plainNodes_kids, plainNodesAll_get, hk, Option.map_some]
  | joined => simp [rPartSchema] at hp
  | compound h' co fs =>
    cases a with
    | row => simp [rPartSchema] at hp
    | field i =>
      simp only [rPartSchema, Option.map_eq_some_iff] at hp
      obtain ⟨x, hx, rfl⟩ := hp
      have h1 : ∀ x (e : Elem), lift (.plain x) e = .plain e := by intro x e; cases e <;> simp [lift]
      have h2 : lift (.compound h' co fs) e = .compound h'.name co e.kids := by cases e <;> simp_all [lift]
      simp only [h1, h2, nodesOf, NElem.kids, plainNodesAll_get, hk, Option.map_some]
  | dict h' mode po fs =>
    cases a with
    | row => simp [rPartSchema] at hp
    | field i =>
      have h2 : lift (.dict h' mode po fs) e = .dict h'.name (liftAll fs e.kids) := by cases e <;> simp_all [lift]
      obtain ⟨rfl, _⟩ := ht
      simp only [rPartSchema] at hp
      simp only [h2, nodesOf, NElem.kids, nodesOfAll_get, liftAll_get fs e.kids j s' k hp hk, Option.map_some]
  | list h' prune max m =>
    cases a with
    | field => simp [rPartSchema] at hp
    | row i =>
      have h2 : lift (.list h' prune max m) e = .list h'.name (e.kids.map (lift m)) := by cases e <;> simp_all [lift]
      simp only [rPartSchema, Option.some.injEq] at hp
      subst hp
      simp only [h2, nodesOf, NElem.kids, nodesOfAll_get, List.getElem?_map, hk, Option.map_some]

/-- a part is there, and filled from what is handed to it -/
theorem rPart_filled {sep : PStr} (hs : GoodSep sep) (hnl : sep ≠ ['\n']) {s r : RSchema} {ps ps' : List FPair} {way : List Step} {pos : Pos}
    (hp : RPartOf sep s ps way r ps' pos) : ∀ e, FilledFrom sep (plainS s) ps e →
    ∃ k, FilledFrom sep (plainS r) ps' k ∧ nElemAt (nodesOf (lift s e)) pos = some (nodesOf (lift r k)) := by
  induction hp with
  | here => intro e hf; exact ⟨e, hf, rfl⟩
  | @down s ps a s' ps' j way s'' ps'' pos h1 h2 h3 _ ih =>
    intro e hf
    obtain ⟨k, hk, hfk⟩ := filled_down hs hnl hf (rPartSchema_plain h1) ((partThere_outline sep ps s a j).1 h2) (leadsInto_outline' sep s a ▸ h3)
    obtain ⟨k', hf', hat⟩ := ih k hfk
    refine ⟨k', hf', ?_⟩
    simp only [nElemAt, nodes_kid h1 h2 (filled_present hf) hk, hat]

theorem nodesOf_lift_absent (s : RSchema) (e : Elem) : nodesOf (lift s e) = .absent ↔ e = .absent := by
  cases e with
  | absent => simp [lift_absent, nodesOf, plainNodes]
  | _ => cases s <;> simp [lift, nodesOf, plainNodes]

theorem nodesOf_kid_back {s : RSchema} {e : Elem} {j : Nat} {k : NElem} (hnj : ∀ h c m, s ≠ .joined h c m)
    (hk : (nodesOf (lift s e)).kids[j]? = some k) : ∃ x, e.kids[j]? = some x ∧ (k ≠ .absent → x ≠ .absent) := by
  by_cases he : e = .absent
  · subst he; simp [lift_absent, nodesOf, plainNodes, NElem.kids] at hk
  cases s with
  | plain s =>
    have h1 : lift (.plain s) e = .plain e := by cases e <;> simp [lift]
    simp only [h1, nodesOf, plainNodes_kids, plainNodesAll_get, Option.map_eq_some_iff] at hk
    obtain ⟨x, hx, rfl⟩ := hk
    exact ⟨x, hx, fun h hx => h ((plainNodes_present x).2 hx)⟩
  | joined h c m => exact absurd rfl (hnj h c m)
  | compound h' co fs =>
    have h2 : lift (.compound h' co fs) e = .compound h'.name co e.kids := by cases e <;> simp_all [lift]
    simp only [h2, nodesOf, NElem.kids, plainNodesAll_get, Option.map_eq_some_iff] at hk
    obtain ⟨x, hx, rfl⟩ := hk
    exact ⟨x, hx, fun h hx => h ((plainNodes_present x).2 hx)⟩
  | dict h' mode po fs =>
    have h2 : lift (.dict h' mode po fs) e = .dict h'.name (liftAll fs e.kids) := by cases e <;> simp_all [lift]
    simp only [h2, nodesOf, NElem.kids, nodesOfAll_get, Option.map_eq_some_iff] at hk
    obtain ⟨y, hy, rfl⟩ := hk
    generalize hks : e.kids = ks at hy
    clear h2 hks he hnj
    induction fs generalizing ks j with
    | nil => simp [liftAll] at hy
    | cons f fs ih =>
      cases ks with
      | nil => simp [liftAll] at hy
      | cons x ks =>
        cases j with
        | zero =>
          simp only [liftAll, List.getElem?_cons_zero, Option.some.injEq] at hy ⊢
          subst hy
          exact ⟨x, rfl, fun h hx => h ((nodesOf_lift_absent f x).2 hx)⟩
        | succ j =>
          simp only [liftAll, List.getElem?_cons_succ] at hy ⊢
          exact ih ks hy
  | list h' prune max m =>
    have h2 : lift (.list h' prune max m) e = .list h'.name (e.kids.map (lift m)) := by cases e <;> simp_all [lift]
    simp only [h2, nodesOf, NElem.kids, nodesOfAll_get, List.getElem?_map, Option.map_map, Option.map_eq_some_iff] at hk
    obtain ⟨x, hx, rfl⟩ := hk
    exact ⟨x, hx, fun h hx => h ((nodesOf_lift_absent m x).2 hx)⟩

theorem dateRows_part {s s' : RSchema} {a : Step} (hs : DateRows s) (h : rPartSchema s a = some s') : DateRows s' := by
  cases hs with
  | plain hr =>
    simp only [rPartSchema, Option.map_eq_some_iff] at h
    obtain ⟨x, hx, rfl⟩ := h
    refine .plain ?_
    cases hr with
    | scalar => cases a <;> simp [partSchema] at hx
    | array => cases a <;> simp [partSchema] at hx
    | dict h mode po fs hall =>
      cases a with
      | row => simp [partSchema] at hx
      | field i => exact hall _ (List.mem_of_getElem? hx)
    | list h prune max m hm =>
      cases a with
      | field => simp [partSchema] at hx
      | row i => simp only [partSchema, Option.some.injEq] at hx; exact hx ▸ hm
  | joined => simp [rPartSchema] at h
  | date =>
    cases a with
    | row => simp [rPartSchema] at h
    | field i =>
      simp only [rPartSchema, Option.map_eq_some_iff] at h
      obtain ⟨x, hx, rfl⟩ := h
      have := List.mem_of_getElem? hx
      simp only [List.mem_cons, List.not_mem_nil, or_false] at this
      rcases this with rfl | rfl | rfl <;> exact .plain (.scalar _ _)
  | dict hall =>
    cases a with
    | row => simp [rPartSchema] at h
    | field i => exact hall _ (List.mem_of_getElem? h)
  | list hm =>
    cases a with
    | field => simp [rPartSchema] at h
    | row i => simp only [rPartSchema, Option.some.injEq] at h; exact h ▸ hm

/-- what is handed to an Array are pairs with keys -/
theorem dateRows_texts {sep : PStr} {s r : RSchema} {ps ps' : List FPair} {way : List Step} {pos : Pos} (hp : RPartOf sep s ps way r ps' pos) :
    DateRows s → (∀ h prune m, s = .plain (.array h prune m) → ∃ qs, ps = texts qs) →
    DateRows r ∧ ∀ h prune m, r = .plain (.array h prune m) → ∃ qs, ps' = texts qs := by
  induction hp with
  | here => exact fun h1 h2 => ⟨h1, h2⟩
  | @down s ps a s' ps' _ _ _ _ _ h1 _ h3 _ ih =>
    intro hs _
    refine ih (dateRows_part hs h1) ?_
    rintro h prune m rfl
    cases hs with
    | plain hr =>
      simp only [rPartSchema, Option.map_eq_some_iff] at h1
      obtain ⟨x, hx, he⟩ := h1
      cases he
      cases hr with
      | scalar => cases a <;> simp [partSchema] at hx
      | array => cases a <;> simp [partSchema] at hx
      | dict h mode po fs hall =>
        cases a with
        | row => simp [partSchema] at hx
        | field i => exact field_texts h3
      | list h prune max m hm hna =>
        cases a with
        | field => simp [partSchema] at hx
        | row i => simp only [partSchema, Option.some.injEq] at hx; exact absurd hx (hna _ _ _)
    | joined => simp [rPartSchema] at h1
    | date =>
      cases a with
      | row => simp [rPartSchema] at h1
      | field i => exact field_texts h3
    | dict hall =>
      cases a with
      | row => simp [rPartSchema] at h1
      | field i => exact field_texts h3
    | list hm hna =>
      cases a with
      | field => simp [rPartSchema] at h1
      | row i => simp only [rPartSchema, Option.some.injEq] at h1; exact absurd h1 (hna _ _ _)

theorem dateRows_array {s : RSchema} (hs : DateRows s) {h : Hdr} {prune : Bool} {m : Schema} (he : plainS s = .array h prune m) :
    ∃ hm t, s = .plain (.array h prune (.scalar hm t)) ∧ m = .scalar hm t := by
  cases hs with
  | plain hr =>
    cases hr with
    | array _ _ hm t =>
      simp only [plainS, Schema.array.injEq] at he
      obtain ⟨rfl, rfl, rfl⟩ := he
      exact ⟨hm, t, rfl, rfl⟩
    | _ => simp [plainS] at he
  | _ => simp [plainS] at he

/-- every element that is there is such a part, or a member of a JoinedString or Array -/
theorem node_is_part {sep : PStr} (hs : GoodSep sep) (hnl : sep ≠ ['\n']) : ∀ (pos : Pos) (s : RSchema) (ps : List FPair) (e : Elem) (k : NElem),
    DateRows s → FilledFrom sep (plainS s) ps e → At (nodesOf (lift s e)) pos k →
    (∃ way r ps', RPartOf sep s ps way r ps' pos ∧ DateRows r) ∨
    (∃ way h c m ps' pos' j, RPartOf sep s ps way (.joined h c m) ps' pos' ∧ pos = pos' ++ [j]) ∨
    (∃ way h prune hm t ps' pos' j, RPartOf sep s ps way (.plain (.array h prune (.scalar hm t))) ps' pos' ∧ pos = pos' ++ [j])
  | [], s, ps, e, k, hr, _, _ => .inl ⟨[], s, ps, .here, hr⟩
  | j :: pos, s, ps, e, k, hr, hf, hk => by
    by_cases hj : ∃ h c m, s = .joined h c m
    · obtain ⟨h, c, m, rfl⟩ := hj
      have he := filled_present hf
      cases pos with
      | nil => exact .inr (.inl ⟨[], h, c, m, ps, [], j, .here, rfl⟩)
      | cons i pos =>
        exfalso
        have hl : ∃ ms, lift (.joined h c m) e = .joined h.name c m ms := by cases e <;> simp_all [lift]
        obtain ⟨ms, hl⟩ := hl
        simp only [At, hl, nodesOf, nElemAt, NElem.kids, List.getElem?_map] at hk
        cases hm : ms[j]? <;> simp [hm] at hk
    · by_cases harr : ∃ h prune m, plainS s = .array h prune m
      · obtain ⟨h, prune, m, he⟩ := harr
        obtain ⟨hm, t, rfl, rfl⟩ := dateRows_array hr he
        obtain ⟨kids, rfl, hall⟩ := array_kids hf
        cases pos with
        | nil => exact .inr (.inr ⟨[], h, prune, hm, t, ps, [], j, .here, rfl⟩)
        | cons i pos =>
          exfalso
          simp only [At, lift, nodesOf, plainNodes, nElemAt, NElem.kids, plainNodesAll_get] at hk
          cases hkj : kids[j]? with
          | none => simp [hkj] at hk
          | some x =>
            obtain ⟨n, st, rfl⟩ := hall x (List.mem_of_getElem? hkj)
            simp [hkj, plainNodes] at hk
      have hkid : ∃ c, (nodesOf (lift s e)).kids[j]? = some c ∧ At c pos k := by
        simp only [At, nElemAt] at hk ⊢
        cases hc : (nodesOf (lift s e)).kids[j]? with
        | none => simp [hc] at hk
        | some c => simp only [hc] at hk; exact ⟨c, rfl, hk⟩
      obtain ⟨c, hc, hck⟩ := hkid
      have hcne : c ≠ .absent := by
        rintro rfl
        cases pos with
        | nil => simp only [At, nElemAt, Option.some.injEq] at hck; exact hck.2 hck.1.symm
        | cons => simp [At, nElemAt, NElem.kids] at hck
      obtain ⟨x, hx, hxne⟩ := nodesOf_kid_back (fun h c m he => hj ⟨h, c, m, he⟩) hc
      obtain ⟨a, x', ps', h1, h2, h3⟩ := filled_child hs hnl hf hx (hxne hcne) (fun h prune m he => harr ⟨h, prune, m, he⟩)
      obtain ⟨x'', hx'', hfx⟩ := filled_down hs hnl hf h1 h2 h3
      rw [hx] at hx''
      cases hx''
      obtain ⟨s', h1', rfl⟩ := plain_rPartSchema h1
      have h2' := (partThere_outline sep ps s a j).2 h2
      have h3' : Handed (LeadsInto sep (outline s) a) ps ps' := leadsInto_outline' sep s a ▸ h3
      have hn := nodes_kid h1' h2' (filled_present hf) hx
      rw [hc] at hn
      cases hn
      rcases node_is_part hs hnl pos s' ps' x k (dateRows_part hr h1') hfx hck with ⟨way, r, ps'', hp, hr'⟩ |
        ⟨way, h, c, m, ps'', pos', j', hp, rfl⟩ | ⟨way, h, prune, hm, t, ps'', pos', j', hp, rfl⟩
      · exact .inl ⟨a :: way, r, ps'', .down h1' h2' h3' hp, hr'⟩
      · exact .inr (.inl ⟨a :: way, h, c, m, ps'', j :: pos', j', .down h1' h2' h3' hp, rfl⟩)
      · exact .inr (.inr ⟨a :: way, h, prune, hm, t, ps'', j :: pos', j', .down h1' h2' h3' hp, rfl⟩)

omit [Runtime] in
theorem given_first (h : Hdr) (ps : List FPair) : GivenTo h ps ((ps.find? fun p => p.1 == h.name).map Prod.snd) := by
  have := handed_first (R := fun k _ r => r = k) (by rintro k v r r' rfl rfl; rfl) h.name (handed_all _ (by simp) ps)
  simpa only [GivenTo, eq_comm] using this

theorem filled_joined {sep : PStr} {h : Hdr} {c : JoinedCfg} {m : Option PStr} {ps : List FPair} {e : Elem}
    (hf : FilledFrom sep (plainS (.joined h c m)) ps e) :
    lift (.joined h c m) e = .joined h.name c m (membersAfter c ((ps.find? fun p => p.1 == h.name).map Prod.snd)) := by
  by_cases h0 : ps = []
  · subst h0
    rw [hf.1 rfl, lift_fresh]
    simp [rFresh, membersAfter]
  · have := hf.2 h0
    simp only [plainS] at this
    rw [setFlat, scalarSetFlat] at this
    cases hp : ps.find? fun p => p.1 == h.name with
    | none =>
      rw [hp] at this
      cases this
      simp [lift, membersAfter, Elem.state]
    | some p =>
      rw [hp] at this
      simp only at this
      rcases joined_simulates c p.2 { (fresh (.scalar h (joinedType c))).state with raw := none } with ⟨ms, b, h1, h2⟩ | ⟨ms, er, h1, h2⟩
      · rw [h2] at this
        cases this
        simp [lift, membersAfter, Elem.state]
      · split at this
        · rename_i hst
          rw [hst] at h2
          cases h2
        · cases this

/-- the parts of a date -/
theorem filled_date {sep : PStr} (hs : GoodSep sep) (hnl : sep ≠ ['\n']) {h hy hm hd : Hdr} {wy wm wd : Nat} {ps : List FPair} {e : Elem}
    (hf : FilledFrom sep (.dict h .full .subset [.scalar hy (integerType true wy), .scalar hm (integerType true wm), .scalar hd (integerType true wd)]) ps e) :
    ∃ a b c vy vm vd, e = .dict h.name [.scalar hy.name a, .scalar hm.name b, .scalar hd.name c] ∧
      (FirstValue (fun k v => LeadsInto sep (.dict h .full .subset [.scalar hy (integerType true wy), .scalar hm (integerType true wm),
        .scalar hd (integerType true wd)]) (.field 0) k v hy.name) ps vy ∧ a.value = (afterSubmission (integerType true wy) .fresh vy).value ∧
        a.u = (afterSubmission (integerType true wy) .fresh vy).u) ∧
      (FirstValue (fun k v => LeadsInto sep (.dict h .full .subset [.scalar hy (integerType true wy), .scalar hm (integerType true wm),
        .scalar hd (integerType true wd)]) (.field 1) k v hm.name) ps vm ∧ b.value = (afterSubmission (integerType true wm) .fresh vm).value ∧
        b.u = (afterSubmission (integerType true wm) .fresh vm).u) ∧
      FirstValue (fun k v => LeadsInto sep (.dict h .full .subset [.scalar hy (integerType true wy), .scalar hm (integerType true wm),
        .scalar hd (integerType true wd)]) (.field 2) k v hd.name) ps vd ∧ c.value = (afterSubmission (integerType true wd) .fresh vd).value ∧
        c.u = (afterSubmission (integerType true wd) .fresh vd).u := by
  obtain ⟨kids, rfl, hl, hall⟩ := filled_fields hf
  simp only [List.length_cons, List.length_nil, Nat.zero_add, Nat.reduceAdd] at hl
  match kids, hl with
  | [x, y, z], _ =>
    have part : ∀ (i : Nat) (hi : Hdr) (w : Nat) (k : Elem),
        [Schema.scalar hy (integerType true wy), .scalar hm (integerType true wm), .scalar hd (integerType true wd)][i]? = some (.scalar hi (integerType true w)) →
        [x, y, z][i]? = some k → ∃ st v, k = .scalar hi.name st ∧
          FirstValue (fun k v => LeadsInto sep (.dict h .full .subset [.scalar hy (integerType true wy), .scalar hm (integerType true wm),
            .scalar hd (integerType true wd)]) (.field i) k v hi.name) ps v ∧ st.value = (afterSubmission (integerType true w) .fresh v).value ∧
          st.u = (afterSubmission (integerType true w) .fresh v).u := by
      intro i hi w k h1 h2
      obtain ⟨accum, ha, hk⟩ := hall i _ k h1 h2
      have hfk : FilledFrom sep (.scalar hi (integerType true w)) accum k := by
        by_cases h0 : accum = []
        · subst h0
          simp only [List.isEmpty_nil, if_true, autoField, Except.ok.injEq] at hk
          exact ⟨fun _ => hk.symm, fun h => absurd rfl h⟩
        · rw [if_neg (by simpa using h0)] at hk
          exact ⟨fun h => absurd h h0, fun _ => hk⟩
      obtain ⟨st, rfl, h3, h4⟩ := filled_scalar hfk
      exact ⟨st, _, rfl, handed_first (leadsInto_functional hs hnl _ _) hi.name ha, h3, h4⟩
    obtain ⟨a, vy, rfl, ha⟩ := part 0 hy wy x rfl rfl
    obtain ⟨b, vm, rfl, hb⟩ := part 1 hm wm y rfl rfl
    obtain ⟨c, vd, rfl, hc⟩ := part 2 hd wd z rfl rfl
    exact ⟨a, b, c, vy, vm, vd, rfl, ha, hb, hc⟩

theorem filled_rows_some {sep : PStr} (hs : GoodSep sep) (hnl : sep ≠ ['\n']) {h : Hdr} {prune : Bool} {max : Nat} {m : Schema} {ps : List FPair} {e : Elem}
    (hf : FilledFrom sep (.list h prune max m) ps e) : ∃ ks, e = .list h.name ks ∧ (ks = [] ↔ ¬ (0 < max ∧ ∃ i, RowMade sep (.list h prune max m) prune ps i)) := by
  have hb := filled_list_blank hs hnl hf {}
  obtain ⟨ms, kids, hm, rfl, hk⟩ := filled_rows hf
  exact ⟨kids, rfl, hb⟩

theorem filled_fields_some {sep : PStr} (hs : GoodSep sep) (hnl : sep ≠ ['\n']) {h : Hdr} {mode : DictMode} {po : Policy} {fs : List Schema} {ps : List FPair}
    {e : Elem} (hf : FilledFrom sep (.dict h mode po fs) ps e) :
    ∃ ks, e = .dict h.name ks ∧ ks.length = fs.length ∧ ((∀ k ∈ ks, k = .absent) ↔ ¬ ∃ a j, PartThere sep ps (.dict h mode po fs) a j) := by
  have hb := filled_dict_blank hs hnl hf { sparse := true }
  obtain ⟨kids, rfl, hl, _⟩ := filled_fields hf
  simp only [IsBlank, true_and] at hb
  exact ⟨kids, rfl, hl, hb⟩

theorem rFromFlat_lifted {sep : PStr} {s : RSchema} {ps : List (PStr × PStr)} {e : RElem} (hset : rFromFlat sep s ps = .ok e) :
    ∃ e0, FilledFrom sep (plainS s) (texts ps) e0 ∧ e = lift s e0 := by
  have h1 : rSetFlat sep s (rFresh s) (texts ps) = .ok e := hset
  rw [rSetFlat_lift] at h1
  cases h2 : setFlat sep (plainS s) (fresh (plainS s)) (texts ps) with
  | error er => rw [h2] at h1; cases h1
  | ok e0 => rw [h2] at h1; cases h1; exact ⟨e0, setFlat_filled h2, rfl⟩

omit [Runtime] in
theorem plainNodesAll_absent (ks : List Elem) : (∀ k ∈ plainNodesAll ks, k = .absent) ↔ ∀ k ∈ ks, k = .absent := by
  induction ks with
  | nil => simp [plainNodesAll]
  | cons k ks ih => simp [plainNodesAll, plainNodes_present, ih]

theorem nodesOfAll_absent : ∀ (fs : List RSchema) (ks : List Elem), ks.length = fs.length →
    ((∀ k ∈ nodesOfAll (liftAll fs ks), k = .absent) ↔ ∀ k ∈ ks, k = .absent)
  | [], [], _ => by simp [liftAll, nodesOfAll]
  | f :: fs, k :: ks, h => by
    have := nodesOfAll_absent fs ks (by simpa using h)
    simp [liftAll, nodesOfAll, nodesOf_lift_absent, this]
  | [], _ :: _, h | _ :: _, [], h => by simp at h

end
end Flatland
