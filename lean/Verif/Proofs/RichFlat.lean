import Verif.Proofs.Noise
/-! Helper lemmas for C78: the pairs of Compounds and of members of JoinedStrings do not disturb `set_flat`. -/
namespace Flatland
open Spec

section
variable [Runtime]

theorem noiseFields_of {sep : PStr} {mode : DictMode} {b a : List FPair} {x : FPair} : ∀ {fs : List Schema},
    (∀ f ∈ fs, ∀ n, f.name = some n → handed n x = true →
      (autoField mode f = true ∨ ∃ y ∈ b ++ a, handed n y = true) ∧ Noise sep f (b.filter (handed n)) x (a.filter (handed n))) →
    NoiseFields sep mode fs b x a
  | [], _ => by simp [NoiseFields]
  | f :: fs, h => by
    simp only [NoiseFields]
    exact ⟨h f (by simp), noiseFields_of fun g hg => h g (by simp [hg])⟩

/-- a key that a named element does not own -/
theorem noise_of_not_owned {sep : PStr} {s : Schema} {n : PStr} (hw : WellNamed sep s) (hn : s.name = some n) {b a : List FPair} {k v : PStr}
    (h : ¬ owns sep s (some k)) : Noise sep s b (some k, v) a := by
  have hg := goodName_of_wellNamed hw
  rw [hn] at hg
  cases s with
  | scalar hd t => simp only [Noise]; exact .inl h
  | dict hd mo po fs =>
    have hn' : hd.name = some n := hn
    simp only [owns, hn', ownsUnder] at h
    simp only [Noise, hn']
    refine ⟨by simp, ?_⟩
    intro x' hx'
    simp only [below] at hx'
    split at hx'
    · rename_i hs
      obtain ⟨r, hr⟩ := List.isPrefixOf_iff_prefix.1 hs
      exact absurd (.inr ⟨r, by rw [← hr]⟩) h
    · cases hx'
  | list hd pr ma m =>
    have hn' : hd.name = some n := hn
    simp only [owns] at h
    simp only [Noise]
    intro _
    refine ⟨by simp, ?_⟩
    intro i x' hx'
    exfalso
    simp only [slotHit, Option.bind_some] at hx'
    cases hi : idxMatch sep hd.name k with
    | none => rw [hi] at hx'; simp at hx'
    | some r => exact h (idxMatch_owned (by rw [hn']; exact hg) hi)
  | array hd pr m =>
    have hn' : hd.name = some n := hn
    simp only [owns, hn', ownsArray] at h
    simp only [Noise, hn']
    exact arrayPick_not_owned hg h

/-- a plain schema of the same name that spreads as much -/
def standIn (s : RSchema) : Schema := if spreads s then .list s.hdr true 0 (.scalar ⟨none, false, none⟩ ⟨fun _ => .error .type, fun _ => .error .type⟩)
  else .scalar s.hdr ⟨fun _ => .error .type, fun _ => .error .type⟩

omit [Runtime] in
theorem standIn_name (s : RSchema) : (standIn s).name = s.name := by
  unfold standIn
  split <;> rfl

omit [Runtime] in
theorem standIn_container (s : RSchema) : isContainer (standIn s) = spreads s := by
  unfold standIn
  cases spreads s <;> rfl

theorem compatible_standIn {sep : PStr} {mode : DictMode} {f g : RSchema} (h : RCompatible sep mode f g) : Compatible sep mode (plainS f) (standIn g) := by
  intro fn gn hf hg
  rw [plainS_name] at hf
  rw [standIn_name] at hg
  obtain ⟨h1, h2, h3, h4⟩ := h fn gn hf hg
  exact ⟨h1, fun hc => h2 (spreads_isContainer hc), fun hc => h3 (by rwa [standIn_container] at hc), h4⟩

omit [Runtime] in
theorem rCompatible_symm {sep : PStr} {mode : DictMode} {f g : RSchema} (h : RCompatible sep mode f g) : RCompatible sep mode g f := by
  intro fn gn hf hg
  obtain ⟨h1, h2, h3, h4⟩ := h gn fn hg hf
  exact ⟨fun e => h1 e.symm, h3, h2, fun hm => ⟨(h4 hm).2, (h4 hm).1⟩⟩

omit [Runtime] in
theorem pyJoin_ne_nil {sep : PStr} {l : List PStr} {t : PStr} (ht : t ∈ l) (hn : t ≠ []) : pyJoin sep l ≠ [] := by
  induction l with
  | nil => cases ht
  | cons a l ih =>
    cases l with
    | nil =>
      simp only [List.mem_singleton] at ht
      subst ht
      simpa [pyJoin] using hn
    | cons b l =>
      simp only [pyJoin]
      rcases List.mem_cons.1 ht with rfl | h
      · simp [hn]
      · have := ih h
        simp [this]

omit [Runtime] in
mutual
theorem owner_text : ∀ (e : RElem), ∀ x ∈ extras e, ∀ o, x.owner = some o → x.text ≠ [] → o.2 ≠ []
  | .plain _, x, hx => by simp [extras] at hx
  | .joined n c m ms, x, hx => by
    simp only [extras, List.mem_map] at hx
    obtain ⟨st, hst, rfl⟩ := hx
    intro o ho ht
    cases ho
    exact pyJoin_ne_nil (List.mem_map.2 ⟨st, hst, rfl⟩) ht
  | .compound n co ks, x, hx => by
    simp only [extras, List.mem_singleton] at hx
    subst hx
    intro o ho; cases ho
  | .dict n ks, x, hx => by
    simp only [extras, List.mem_map] at hx
    obtain ⟨y, hy, rfl⟩ := hx
    intro o ho ht
    simp only [Extra.under, Option.map_eq_some_iff] at ho
    obtain ⟨o', ho', rfl⟩ := ho
    exact owner_text_all ks y hy o' ho' ht
  | .list n ks, x, hx => by
    simp only [extras, List.mem_map] at hx
    obtain ⟨y, hy, rfl⟩ := hx
    intro o ho ht
    simp only [Extra.under, Option.map_eq_some_iff] at ho
    obtain ⟨o', ho', rfl⟩ := ho
    exact owner_text_slots ks 0 y hy o' ho' ht
theorem owner_text_all : ∀ (ks : List RElem), ∀ x ∈ extrasAll ks, ∀ o, x.owner = some o → x.text ≠ [] → o.2 ≠ []
  | [], x, hx => by simp [extrasAll] at hx
  | k :: ks, x, hx => by
    simp only [extrasAll, List.mem_append] at hx
    rcases hx with hx | hx
    · exact owner_text k x hx
    · exact owner_text_all ks x hx
theorem owner_text_slots : ∀ (ks : List RElem) (i : Nat), ∀ x ∈ extrasSlots i ks, ∀ o, x.owner = some o → x.text ≠ [] → o.2 ≠ []
  | [], i, x, hx => by simp [extrasSlots] at hx
  | k :: ks, i, x, hx => by
    simp only [extrasSlots, List.mem_append, List.mem_map] at hx
    rcases hx with ⟨y, hy, rfl⟩ | hx
    · intro o ho ht
      simp only [Extra.under, Option.map_eq_some_iff] at ho
      obtain ⟨o', ho', rfl⟩ := ho
      exact owner_text k y hy o' ho' ht
    · exact owner_text_slots ks (i + 1) x hx
end

/-- what a Dict of this name keeps of the pairs -/
def stripFor (sep : PStr) : Option PStr → List FPair → List FPair
  | none, ps => ps
  | some n, ps => ps.filterMap (below (n ++ sep))

omit [Runtime] in
theorem mem_stripFor {sep : PStr} {n : Option PStr} {k v : PStr} {ps : List FPair} (h : (addName sep n (some k), v) ∈ ps) : (some k, v) ∈ stripFor sep n ps := by
  cases n with
  | none => exact h
  | some n =>
    refine List.mem_filterMap.2 ⟨_, h, ?_⟩
    have hs : startsWith (n ++ sep ++ k) (n ++ sep) = true := (startsWith_iff _ _).2 (List.prefix_append ..)
    simp only [addName, below, hs, if_true]
    simp

omit [Runtime] in
theorem handed_under {sep n : PStr} {k : Option PStr} {v : PStr} (h : k = some n ∨ ∃ y, k = some (n ++ sep ++ y)) : handed n (k, v) = true := by
  rcases h with rfl | ⟨y, rfl⟩
  · simp only [handed, Option.map_some, Option.getD_some]
    exact (startsWith_iff _ _).2 (List.prefix_refl _)
  · simp only [handed, Option.map_some, Option.getD_some]
    exact (startsWith_iff _ _).2 (by rw [List.append_assoc]; exact List.prefix_append ..)

/-- pairs of leaves below a named field -/
theorem leaf_under {sep : PStr} {s : RSchema} {e : RElem} {n : PStr} (hw : RWellNamed sep s) (hc : RConforms s e) (hn : s.name = some n) {l : LeafAt}
    (hl : l ∈ leaves (dropR e)) : ∃ k, keyOf sep l.names = some k ∧ ∀ v, handed n (some k, v) = true := by
  have := rel_key_under (wellNamed_plain s hw) (conforms_drop s e hc) (by rw [plainS_name]; exact hn) _ (pair_mem_rel (sep := sep) hl)
  simp only [LeafAt.pair] at this
  rcases this with h | ⟨y, _, h⟩
  · exact ⟨_, h, fun v => handed_under (sep := sep) (.inl rfl)⟩
  · exact ⟨_, h, fun v => handed_under (sep := sep) (.inr ⟨y, rfl⟩)⟩

omit [Runtime] in
theorem mem_rTextsAll {t : PStr} {ks : List RElem} : t ∈ rTextsAll ks ↔ ∃ k ∈ ks, t ∈ rTexts k := by
  induction ks with
  | nil => simp [rTextsAll]
  | cons k ks ih => simp [rTextsAll, ih]

omit [Runtime] in
theorem mem_compoundTextsAll {t : PStr} {ks : List RElem} : t ∈ compoundTextsAll ks ↔ ∃ k ∈ ks, t ∈ compoundTexts k := by
  induction ks with
  | nil => simp [compoundTextsAll]
  | cons k ks ih => simp [compoundTextsAll, ih]

omit [Runtime] in
/-- an extra pair is the text of a Compound, or there is the JoinedString it belongs to -/
theorem extra_source : ∀ (e : RElem), ∀ x ∈ extras e, x.text ∈ compoundTexts e ∨ ∃ t ∈ rTexts e, x.text ≠ [] → t ≠ []
  | .plain _, x, hx => by simp [extras] at hx
  | .joined n c m ms, x, hx => by
    refine .inr ⟨joinedText c ms, by simp [rTexts], fun ht => ?_⟩
    simp only [extras, List.mem_map] at hx
    obtain ⟨st, hst, rfl⟩ := hx
    exact pyJoin_ne_nil (List.mem_map.2 ⟨st, hst, rfl⟩) ht
  | .compound n co ks, x, hx => by
    simp only [extras, List.mem_singleton] at hx
    subst hx
    exact .inl (by simp [compoundTexts])
  | .dict n ks, x, hx => by
    simp only [extras, List.mem_map] at hx
    obtain ⟨y, hy, rfl⟩ := hx
    obtain ⟨j, k, hj, hyk⟩ := mem_extrasAll.1 hy
    have hm := List.mem_of_getElem? hj
    rcases extra_source k y hyk with h | ⟨t, ht, h⟩
    · exact .inl (by simp only [compoundTexts]; exact mem_compoundTextsAll.2 ⟨k, hm, h⟩)
    · exact .inr ⟨t, by simp only [rTexts]; exact mem_rTextsAll.2 ⟨k, hm, ht⟩, h⟩
  | .list n ks, x, hx => by
    simp only [extras, List.mem_map] at hx
    obtain ⟨y, hy, rfl⟩ := hx
    obtain ⟨j, k, z, hj, hzk, rfl⟩ := mem_extrasSlots.1 hy
    have hm := List.mem_of_getElem? hj
    rcases extra_source k z hzk with h | ⟨t, ht, h⟩
    · exact .inl (by simp only [compoundTexts]; exact mem_compoundTextsAll.2 ⟨k, hm, h⟩)
    · exact .inr ⟨t, by simp only [rTexts]; exact mem_rTextsAll.2 ⟨k, hm, ht⟩, h⟩
termination_by e => sizeOf e
decreasing_by
  all_goals (have := List.sizeOf_lt_of_mem hm; simp_wf; omega)

omit [Runtime] in
theorem backed_survives {p : Bool} {e : RElem} (h : Backed p e) {x : Extra} (hx : x ∈ extras e) (hp : p = true → x.text ≠ []) : Survives p e := by
  rcases extra_source e x hx with h' | ⟨t, ht, h'⟩
  · refine h ⟨_, h', ?_⟩
    cases p <;> simp_all
  · refine ⟨t, ht, ?_⟩
    cases p <;> simp_all

omit [Runtime] in
theorem compoundsBackedAll_get {p : Bool} {mode : DictMode} : ∀ {fs : List RSchema} {ks : List RElem}, CompoundsBackedAll p mode fs ks → ∀ {j : Nat} {f : RSchema} {k : RElem},
    fs[j]? = some f → ks[j]? = some k → CompoundsBacked p f k ∧ (rAutoField mode f = false → Backed p k)
  | f :: fs, k' :: ks, h, j, g, k, hf, hj => by
    simp only [CompoundsBackedAll] at h
    cases j with
    | zero => simp at hj hf; subst hj; subst hf; exact ⟨h.1, h.2.1⟩
    | succ j => exact compoundsBackedAll_get h.2.2 (j := j) (by simpa using hf) (by simpa using hj)
  | [], _, _, _, _, _, h, _ => by simp at h
  | _ :: _, [], _, _, _, _, _, h => by simp at h

mutual
theorem backed_of_carried : ∀ (s : RSchema) (p : Bool) (e : RElem), RCarried p s e → CompoundsBacked p s e
  | .dict h mode po fs, p, .dict n ks, hc => by
    simp only [RCarried] at hc
    simp only [CompoundsBacked]
    exact backedAll_of_carried p mode fs ks hc
  | .list h prune max m, p, .list n ks, hc => by
    simp only [RCarried] at hc
    simp only [CompoundsBacked]
    exact fun k hk => ⟨backed_of_carried m _ k (hc.2 k hk).1, fun _ => (hc.2 k hk).2⟩
  | .plain _, _, _, _ | .joined .., _, _, _ | .compound .., _, _, _ => by simp [CompoundsBacked]
  | .dict .., _, .plain _, _ | .dict .., _, .joined .., _ | .dict .., _, .compound .., _ | .dict .., _, .list .., _ => by simp [CompoundsBacked]
  | .list .., _, .plain _, _ | .list .., _, .joined .., _ | .list .., _, .compound .., _ | .list .., _, .dict .., _ => by simp [CompoundsBacked]
theorem backedAll_of_carried (p : Bool) (mode : DictMode) : ∀ (fs : List RSchema) (ks : List RElem), RCarriedAll p mode fs ks → CompoundsBackedAll p mode fs ks
  | f :: fs, k :: ks, h => by
    simp only [RCarriedAll] at h
    simp only [CompoundsBackedAll]
    refine ⟨backed_of_carried f p k h.1, fun ha hx => ?_, backedAll_of_carried p mode fs ks h.2.2⟩
    refine h.2.1 ?_ ha
    obtain ⟨t, ht, _⟩ := hx
    cases k with
    | plain e => simp [compoundTexts] at ht
    | _ => rfl
  | [], _, _ => by simp [CompoundsBackedAll]
  | _ :: _, [], _ => by simp [CompoundsBackedAll]
end

theorem noise_extra {sep : PStr} (hs : GoodSep sep) : ∀ (s : RSchema) (p : Bool) (e : RElem), RWellNamed sep s → RConforms s e → CompoundsBacked p s e →
    ¬ NamelessCompound s → ∀ x ∈ extras e, (p = true → x.text ≠ []) → ∀ (b a : List FPair),
    (∀ l ∈ leaves (dropR e), dropped p l = false → l.pair sep ∈ b ++ a) → (∀ o, x.owner = some o → keyOf sep o.1 = keyOf sep x.names → (keyOf sep o.1, o.2) ∈ b) →
    Noise sep (plainS s) b (keyOf sep x.names, x.text) a
  | .plain s, p, .plain e, _, _, _, _, x, hx, _, _, _, _, _ => by simp [extras] at hx
  | .joined h c m, p, .joined n c' m' ms, hw, hc, _, _, x, hx, _, b, a, _, ho => by
    simp only [RConforms] at hc
    obtain ⟨rfl, rfl, rfl⟩ := hc
    simp only [extras, List.mem_map] at hx
    obtain ⟨st, _, rfl⟩ := hx
    simp only [plainS, Noise]
    have hown : keyOf sep [h.name] = h.name := by
      simp only [keyOf, List.foldr]
      cases h.name <;> rfl
    by_cases he : keyOf sep [h.name, m'] = h.name
    · exact .inr ⟨_, ho _ rfl (by rw [hown, he]), hown⟩
    · exact .inl he
  | .compound h co fs, p, .compound n co' ks, hw, hc, _, hnc, x, hx, _, b, a, _, _ => by
    simp only [RConforms] at hc
    obtain ⟨rfl, _⟩ := hc
    simp only [extras, List.mem_singleton] at hx
    subst hx
    simp only [NamelessCompound] at hnc
    obtain ⟨n, hn⟩ := Option.ne_none_iff_exists'.1 hnc
    have hsep : sep ≠ [] := by obtain ⟨c, cs, rfl, _⟩ := hs; simp
    simp only [plainS, Noise, hn]
    refine ⟨by simp [keyOf, addName], ?_⟩
    intro x' hx'
    exfalso
    simp only [keyOf, List.foldr, addName, below] at hx'
    split at hx'
    · rename_i hst
      have := ((startsWith_iff _ _).1 hst).length_le
      simp only [List.length_append] at this
      have : sep.length = 0 := by omega
      exact hsep (List.eq_nil_of_length_eq_zero this)
    · cases hx'
  | .dict h mode po fs, p, .dict n ks, hw, hc, hcar, _, x, hx, hp, b, a, hl, ho => by
    simp only [RConforms] at hc
    obtain ⟨rfl, hc⟩ := hc
    simp only [RWellNamed] at hw
    simp only [CompoundsBacked] at hcar
    simp only [extras, List.mem_map] at hx
    obtain ⟨y, hy, rfl⟩ := hx
    obtain ⟨j, k, hj, hyk⟩ := mem_extrasAll.1 hy
    obtain ⟨f, hf, hfk⟩ := rConformsAll_get hc hj
    have hck : RConforms f k := by
      rcases hfk with ⟨rfl, _⟩ | h
      · simp [extras] at hyk
      · exact h
    have hfm : f ∈ fs := List.mem_of_getElem? hf
    have hwf := rWellNamedAll_mem hw.2.2.2 f hfm
    obtain ⟨fn, hfn⟩ := Option.ne_none_iff_exists'.1 (hw.2.1 f hfm)
    obtain ⟨hcarf, hsurv⟩ := compoundsBackedAll_get hcar hf hj
    obtain ⟨hgk, hgo⟩ := extras_goodKey f k hwf hck y hyk
    obtain ⟨kk, hkk, hunder⟩ : ∃ kk, keyOf sep y.names = some kk ∧ (some kk = some fn ∨ spreads f = true ∧ ∃ z, z ≠ [] ∧ some kk = some (fn ++ sep ++ z)) := by
      rcases hgk.2 fn hfn with h1 | ⟨h0, z, hz, h1⟩
      · exact ⟨_, h1, .inl rfl⟩
      · exact ⟨_, h1, .inr ⟨h0, z, hz, rfl⟩⟩
    -- the leaves of the field, as the Dict hands them on
    have hleaf : ∀ l ∈ leaves (dropR k), dropped p l = false → l.pair sep ∈ (stripFor sep h.name b).filter (handed fn) ++ (stripFor sep h.name a).filter (handed fn) := by
      intro l hl1 hd
      obtain ⟨lk, hlk, hh⟩ := leaf_under hwf hck hfn hl1
      have hmem : (⟨j :: l.pos, h.name :: l.names, l.st⟩ : LeafAt) ∈ leaves (dropR (.dict h.name ks)) := by
        simp only [dropR, leaves, List.mem_map]
        refine ⟨⟨j :: l.pos, l.names, l.st⟩, ?_, rfl⟩
        refine mem_leavesKids.2 ⟨j, dropR k, l, by rw [dropAll_eq, List.getElem?_map, hj]; rfl, hl1, ?_⟩
        simp
      have := hl _ hmem hd
      simp only [LeafAt.pair, keyOf_cons, hlk] at this
      simp only [LeafAt.pair, hlk]
      rw [List.mem_append] at this ⊢
      rcases this with h' | h'
      · exact .inl (List.mem_filter.2 ⟨mem_stripFor h', hh _⟩)
      · exact .inr (List.mem_filter.2 ⟨mem_stripFor h', hh _⟩)
    have howner : ∀ o, y.owner = some o → keyOf sep o.1 = keyOf sep y.names → (keyOf sep o.1, o.2) ∈ (stripFor sep h.name b).filter (handed fn) := by
      intro o hyo hsame
      have := ho ([h.name] ++ o.1, o.2) (by simp [Extra.under, hyo]) (by simp only [Extra.under, keyOf_append_one, hsame])
      rw [keyOf_append_one] at this
      have hko : ∃ ok, keyOf sep o.1 = some ok ∧ handed fn (some ok, o.2) = true := by
        rcases (hgo o hyo).2 fn hfn with h1 | ⟨_, z, _, h1⟩
        · exact ⟨_, h1, handed_under (sep := sep) (.inl rfl)⟩
        · exact ⟨_, h1, handed_under (sep := sep) (.inr ⟨z, rfl⟩)⟩
      obtain ⟨ok, hok, hh⟩ := hko
      rw [hok] at this ⊢
      exact List.mem_filter.2 ⟨mem_stripFor this, hh⟩
    have hfields : NoiseFields sep mode (plainAll fs) (stripFor sep h.name b) (some kk, y.text) (stripFor sep h.name a) := by
      apply noiseFields_of
      intro g hg gn hgn hh
      rw [plainAll_eq] at hg
      obtain ⟨g', hg', rfl⟩ := List.mem_map.1 hg
      obtain ⟨i, hi⟩ := List.mem_iff_getElem?.1 hg'
      rw [plainS_name] at hgn
      by_cases hij : i = j
      · subst hij
        rw [hf] at hi
        cases hi
        rw [hfn] at hgn
        cases hgn
        have ih := noise_extra hs f p k hwf hck hcarf (by
          intro hnl
          cases f with
          | compound hd co fl => simp only [NamelessCompound] at hnl; simp [RSchema.name, RSchema.hdr, hnl] at hfn
          | _ => simp [NamelessCompound] at hnl) y hyk (by simpa [Extra.under] using hp)
          ((stripFor sep h.name b).filter (handed fn)) ((stripFor sep h.name a).filter (handed fn)) hleaf howner
        rw [hkk] at ih
        refine ⟨?_, ih⟩
        rw [autoField_plainS]
        cases ha : rAutoField mode f with
        | true => exact .inl rfl
        | false =>
          right
          obtain ⟨l, hl1, hd⟩ := survives_drop (backed_survives (hsurv ha) hyk (by simpa [Extra.under] using hp))
          have := hleaf l hl1 hd
          rw [← List.filter_append, List.mem_filter] at this
          exact ⟨_, this.1, this.2⟩
      · have hcomp : RCompatible sep mode g' f := pairwise_get (fun a b h => rCompatible_symm h) hw.2.2.1 hi hf hij
        obtain ⟨hne, h1, h2, h3⟩ := hcomp gn fn hgn hfn
        have hno : ¬ owns sep (plainS g') (some kk) :=
          not_owned_of_sibling (by rw [plainS_name]; exact hgn) (by rw [standIn_name]; exact hfn) (compatible_standIn hcomp)
            ((rGoodName hwf) fn hfn).2 (by rw [standIn_container]; exact hunder)
        refine ⟨?_, noise_of_not_owned (wellNamed_plain g' (rWellNamedAll_mem hw.2.2.2 g' hg')) (by rw [plainS_name]; exact hgn) hno⟩
        by_cases hm : mode = .full
        · subst hm; exact .inl rfl
        · exfalso
          obtain ⟨h4, h5⟩ := h3 hm
          simp only [handed, Option.map_some, Option.getD_some] at hh
          have hpre := (startsWith_iff _ _).1 hh
          rcases hunder with e | ⟨_, z, _, e⟩
          · cases e
            exact h4 (hpre.trans (List.prefix_append ..))
          · cases e
            rcases prefix_total hpre (List.prefix_append (fn ++ sep) z) with h | h
            · exact h4 h
            · exact h5 (((List.prefix_append fn sep).trans h).trans (List.prefix_append ..))
    simp only [plainS, Noise, Extra.under, keyOf_append_one, hkk]
    refine ⟨by cases h.name <;> simp [addName], ?_⟩
    cases hnm : h.name with
    | none => rw [hnm] at hfields; exact hfields
    | some nn =>
      rw [hnm] at hfields
      simp only
      intro x' hx'
      have hst : startsWith (nn ++ sep ++ kk) (nn ++ sep) = true := (startsWith_iff _ _).2 (List.prefix_append ..)
      simp only [addName, below, hst, if_true] at hx'
      cases hx'
      simp only [List.drop_left]
      exact hfields
  | .list h prune max m, p, .list n ks, hw, hc, hcar, _, x, hx, hp, b, a, hl, ho => by
    simp only [RConforms] at hc
    obtain ⟨rfl, hc⟩ := hc
    simp only [RWellNamed] at hw
    simp only [CompoundsBacked] at hcar
    simp only [extras, List.mem_map] at hx
    obtain ⟨x0, hx0, rfl⟩ := hx
    obtain ⟨j, k, y, hj, hyk, rfl⟩ := mem_extrasSlots.1 hx0
    rw [Nat.zero_add] at hx0 ⊢
    have hkm : k ∈ ks := List.mem_of_getElem? hj
    have hck := hc k hkm
    obtain ⟨hgk, hgo⟩ := extras_goodKey m k hw.2.1 hck y hyk
    have hcanon := fun ck hck => idxMatch_canonical hs hw.1 j ck hck
    have hit : ∀ (ck : Option PStr) (v : PStr), ck ≠ some [] →
        slotHit sep h.name j (addName sep h.name (addName sep (some (decimal j)) ck), v) = some (ck, v) := by
      intro ck v hck
      obtain ⟨kk, h1, h2⟩ := hcanon ck hck
      rw [h1]
      simp [slotHit, h2]
    have hleaf : ∀ l ∈ leaves (dropR k), dropped (p || prune) l = false →
        ∃ z : FPair, z ∈ b ++ a ∧ unblank prune z = true ∧ slotHit sep h.name j z = some (l.pair sep) := by
      intro l hl1 hd
      have hmem : (⟨j :: l.pos, h.name :: some (decimal j) :: l.names, l.st⟩ : LeafAt) ∈ leaves (dropR (.list h.name ks)) := by
        simp only [dropR, leaves, List.mem_map]
        refine ⟨⟨j :: l.pos, some (decimal j) :: l.names, l.st⟩, ?_, rfl⟩
        refine mem_leavesSlots.2 ⟨j, dropR k, l, by rw [dropAll_eq, List.getElem?_map, hj]; rfl, hl1, ?_⟩
        simp
      have hd' : dropped p l = false ∧ (prune && l.st.u == []) = false := by
        simp only [dropped] at hd ⊢
        cases p <;> cases prune <;> simp_all
      refine ⟨_, hl _ hmem hd'.1, ?_, ?_⟩
      · simp only [unblank, LeafAt.pair]
        rw [Bool.and_comm, hd'.2]; rfl
      · simp only [LeafAt.pair, keyOf_cons]
        exact hit _ _ (leaf_key_ne_nil (wellNamed_plain m hw.2.1) (conforms_drop m k hck) hl1)
    simp only [plainS, Noise, Extra.under, keyOf_append_one]
    intro hu
    have htext : (p || prune) = true → y.text ≠ [] := by
      intro hpp ht
      cases hpv : p with
      | true => exact hp hpv (by simpa [Extra.under] using ht)
      | false =>
        rw [hpv, Bool.false_or] at hpp
        simp [unblank, ht, hpp] at hu
    obtain ⟨kk, h1, h2⟩ := hcanon _ hgk.1
    refine ⟨by rw [h1]; simp, ?_⟩
    intro i x' hx'
    have hij : i = j ∧ x' = (keyOf sep y.names, y.text) := by
      rw [h1] at hx'
      simp only [slotHit, Option.bind_some, h2] at hx'
      split at hx'
      · rename_i hji
        cases hx'
        exact ⟨hji.symm, rfl⟩
      · cases hx'
    obtain ⟨rfl, rfl⟩ := hij
    refine ⟨?_, ?_⟩
    · obtain ⟨l, hl1, hd⟩ := survives_drop (backed_survives (hcar k hkm).2 hyk htext)
      obtain ⟨z, hz, hzu, hzh⟩ := hleaf l hl1 hd
      exact ⟨z, hz, hzu, by rw [hzh]; rfl⟩
    · refine noise_extra hs m (p || prune) k hw.2.1 hck (hcar k hkm).1 hw.2.2 y hyk htext _ _ ?_ ?_
      · intro l hl1 hd
        obtain ⟨z, hz, hzu, hzh⟩ := hleaf l hl1 hd
        rw [List.mem_append] at hz ⊢
        rcases hz with hz | hz
        · exact .inl (List.mem_filterMap.2 ⟨z, List.mem_filter.2 ⟨hz, hzu⟩, hzh⟩)
        · exact .inr (List.mem_filterMap.2 ⟨z, List.mem_filter.2 ⟨hz, hzu⟩, hzh⟩)
      · intro o hyo hsame
        have := ho ([h.name] ++ ([some (decimal i)] ++ o.1), o.2) (by simp [Extra.under, hyo]) (by simp only [Extra.under, keyOf_append_one, hsame, Nat.zero_add])
        rw [keyOf_append_one, keyOf_append_one] at this
        refine List.mem_filterMap.2 ⟨_, List.mem_filter.2 ⟨this, ?_⟩, hit _ _ (hgo o hyo).1⟩
        cases hpr : prune with
        | false => simp [unblank]
        | true =>
          have := owner_text k y hyk o hyo (htext (by simp [hpr]))
          simp [unblank, this]
  | .plain _, _, .joined .., _, h, _, _, _, _, _, _, _, _, _ | .plain _, _, .compound .., _, h, _, _, _, _, _, _, _, _, _
  | .plain _, _, .dict .., _, h, _, _, _, _, _, _, _, _, _ | .plain _, _, .list .., _, h, _, _, _, _, _, _, _, _, _ => by simp [RConforms] at h
  | .joined .., _, .plain _, _, h, _, _, _, _, _, _, _, _, _ | .joined .., _, .compound .., _, h, _, _, _, _, _, _, _, _, _
  | .joined .., _, .dict .., _, h, _, _, _, _, _, _, _, _, _ | .joined .., _, .list .., _, h, _, _, _, _, _, _, _, _, _ => by simp [RConforms] at h
  | .compound .., _, .plain _, _, h, _, _, _, _, _, _, _, _, _ | .compound .., _, .joined .., _, h, _, _, _, _, _, _, _, _, _
  | .compound .., _, .dict .., _, h, _, _, _, _, _, _, _, _, _ | .compound .., _, .list .., _, h, _, _, _, _, _, _, _, _, _ => by simp [RConforms] at h
  | .dict .., _, .plain _, _, h, _, _, _, _, _, _, _, _, _ | .dict .., _, .joined .., _, h, _, _, _, _, _, _, _, _, _
  | .dict .., _, .compound .., _, h, _, _, _, _, _, _, _, _, _ | .dict .., _, .list .., _, h, _, _, _, _, _, _, _, _, _ => by simp [RConforms] at h
  | .list .., _, .plain _, _, h, _, _, _, _, _, _, _, _, _ | .list .., _, .joined .., _, h, _, _, _, _, _, _, _, _, _
  | .list .., _, .compound .., _, h, _, _, _, _, _, _, _, _, _ | .list .., _, .dict .., _, h, _, _, _, _, _, _, _, _, _ => by simp [RConforms] at h
termination_by s => sizeOf s
decreasing_by
  · have := List.sizeOf_lt_of_mem hfm
    simp_wf; omega
  · simp_wf; omega

end

end Flatland
