import Verif.Proofs.Cycle
/-
Helper lemmas for C83: `setFlat` on a new element, given pairs that agree per key with the leaves of any `e`.
-/
namespace Flatland
open Spec

variable [Runtime]

theorem arrayPick_blank {sep : PStr} (hs : GoodSep sep) {name cn : Option PStr} (hn : GoodName name) (hcn : GoodName cn)
    (h : (name.isSome || cn.isSome) = true) :
    arrayPick sep name cn true (addName sep name cn, []) = .ok none := by
  obtain ⟨c, cs, rfl, hc⟩ := hs
  cases name with
  | none =>
    simp only [arrayPick, truthyName, addName]
    cases cn with
    | none => simp at h
    | some d => simp
  | some n =>
    simp only [arrayPick, truthyName_good hn, truthyName_good hcn]
    cases cn with
    | none =>
      have h1 : startsWith n (n ++ c :: cs) = false := by
        rw [← Bool.not_eq_true, startsWith_iff]
        intro h
        have := h.length_le
        simp at this
        omega
      simp [addName, h1, orNone]
    | some d =>
      have hd := (hcn d rfl).1
      have h1 : startsWith (n ++ (c :: cs) ++ d) (n ++ (c :: cs)) = true := by
        rw [startsWith_iff]; exact List.prefix_append ..
      have h2 : orNone d = some d := by cases d <;> simp_all [orNone]
      simp only [addName, h1, if_true, List.drop_left, h2]
      simp

theorem arrayPick_kept {sep : PStr} (hs : GoodSep sep) {name cn : Option PStr} (hn : GoodName name) (hcn : GoodName cn)
    {prune : Bool} {u : PStr} (hu : (prune && (name.isSome || cn.isSome)) = true → u ≠ []) :
    arrayPick sep name cn prune (addName sep name cn, u) = .ok (some cn) := by
  by_cases h : (name.isSome || cn.isSome) = true
  · exact arrayPick_own hs hn hcn fun hp => hu (by simp [hp, h])
  · cases name <;> cases cn <;> simp at h
    simp [arrayPick, truthyName, addName]

theorem setFlat_array_any {sep : PStr} (hs : GoodSep sep) (p : Bool) (h : Hdr) (prune : Bool) (hm : Hdr) (t : ScalarType)
    (e0 : Elem) (ks : List Elem) (ps : List FPair) (hn : GoodName h.name) (hcn : GoodName hm.name)
    (hc : ∀ k ∈ ks, Conforms (.scalar hm t) k)
    (hca : ∀ k ∈ ks, EachScalar TakesItsText false (.scalar hm t) k)
    (ha : Agree (owns sep (.array h prune (.scalar hm t))) ps (rel sep p (.array h.name ks))) :
    setFlat sep (.array h prune (.scalar hm t)) e0 ps = .ok (broughtBack p (.array h prune (.scalar hm t)) (.array h.name ks)) := by
  have hrel : rel sep p (.array h.name ks) =
      (ks.filter fun k => !(p && k.state.u == [])).map fun k => (addName sep h.name hm.name, k.state.u) := by
    rw [rel_array]
    clear ha
    induction ks with
    | nil => rfl
    | cons k ks ih =>
      simp only [relKids, List.flatMap_cons, List.map_append]
      have ih := ih (fun k hk => hc k (by simp [hk])) (fun k hk => hca k (by simp [hk]))
      simp only [relKids] at ih
      rw [ih]
      have hck := hc k (by simp)
      cases k <;> simp only [Conforms] at hck
      subst hck
      rename_i st
      rw [rel_scalar, List.filter_cons]
      simp only [show (Elem.scalar hm.name st).state = st from rfl]
      by_cases hb : (p && st.u == []) = true
      · rw [if_pos hb, if_neg (by rw [hb]; simp)]; rfl
      · rw [if_neg hb, if_pos (by rw [Bool.not_eq_true] at hb; rw [hb]; rfl)]; rfl
  have hflt : ps.filter (fun x => x.1 == addName sep h.name hm.name) =
      (ks.filter fun k => !(p && k.state.u == [])).map fun k => (addName sep h.name hm.name, k.state.u) := by
    have hO : owns sep (.array h prune (.scalar hm t)) (addName sep h.name hm.name) := by
      simp only [owns]
      cases h.name with
      | none => trivial
      | some n =>
        cases hm.name with
        | none => exact .inr (.inl rfl)
        | some c => exact .inr (.inr (.inr ⟨c, rfl⟩))
    rw [ha _ hO, hrel, List.filter_eq_self.2]
    intro x hx
    simp only [List.mem_map] at hx
    obtain ⟨k, _, rfl⟩ := hx
    simp
  have hmem : arrayMembers sep h.name prune hm t ps =
      .ok ((ks.filter fun k => !(arrayDrops p prune h.name hm.name && k.state.u == [])).map (broughtBack false (.scalar hm t))) := by
    rw [arrayMembers_filter sep h.name prune hm t ps (fun x => x.1 == addName sep h.name hm.name), hflt]
    · clear ha hflt hrel
      induction ks with
      | nil => rfl
      | cons k ks ih =>
        have ih := ih (fun k hk => hc k (by simp [hk])) (fun k hk => hca k (by simp [hk]))
        have hck := hc k (by simp)
        have hset := hca k (by simp)
        cases k <;> simp only [Conforms] at hck
        subst hck
        simp only [EachScalar, TakesItsText, Bool.false_and, Bool.false_eq_true, false_or] at hset
        obtain ⟨b, hset⟩ := hset
        rename_i st
        rw [List.filter_cons, List.filter_cons]
        simp only [show (Elem.scalar hm.name st).state = st from rfl]
        cases hp : (p && st.u == []) with
        | true =>
          have hd : (arrayDrops p prune h.name hm.name && st.u == []) = true := by
            simp only [Bool.and_eq_true] at hp ⊢
            exact ⟨by simp [arrayDrops, hp.1], hp.2⟩
          simp only [hd, Bool.not_true, Bool.false_eq_true, if_false]
          exact ih
        | false =>
          simp only [Bool.not_false, if_true, List.map_cons]
          rw [arrayMembers, show (Elem.scalar hm.name st).state = st from rfl]
          cases hd : (arrayDrops p prune h.name hm.name && st.u == []) with
          | true =>
            simp only [Bool.and_eq_true, beq_iff_eq] at hd
            have hp' : p = false := by
              cases p with
              | false => rfl
              | true => simp [hd.2] at hp
            have hdr := hd.1
            simp only [arrayDrops, hp', Bool.false_or, Bool.and_eq_true] at hdr
            rw [hd.2, hdr.1, arrayPick_blank hs hn hcn hdr.2]
            simp only [bind, Except.bind, Bool.not_true, Bool.false_eq_true, if_false]
            rw [hdr.1] at ih
            exact ih
          | false =>
            have hu : (prune && (h.name.isSome || hm.name.isSome)) = true → st.u ≠ [] := by
              intro h0 h1
              have : arrayDrops p prune h.name hm.name = true := by
                simp only [arrayDrops, h0, Bool.or_true]
              simp [this, h1] at hd
            rw [arrayPick_kept hs hn hcn hu]
            simp only [bind, Except.bind, Bool.not_false, if_true, List.map_cons]
            rw [scalarSetFlat_own (by simp) hset, ih]
            simp [broughtBack]
    · intro x hx hq
      have hnot : ¬ owns sep (.array h prune (.scalar hm t)) x.1 := by
        intro hO
        have := (agree_mem ha hO).1 hx
        rw [hrel] at this
        simp only [List.mem_map] at this
        obtain ⟨k, _, rfl⟩ := this
        simp at hq
      simp only [owns] at hnot
      cases hn' : h.name with
      | none => rw [hn'] at hnot; exact absurd trivial hnot
      | some n =>
        rw [hn'] at hn hnot
        exact arrayPick_not_owned hn hnot
  simp only [setFlat, hmem, broughtBack]
  rfl

omit [Runtime] in
/-- no submitted key starts with the name of a SparseDict field of which nothing gets through -/
theorem fields_lost {sep : PStr} {p : Bool} {mode : DictMode} {fs : List Schema} {ks : List Elem} {ps : List FPair}
    (hn : ∀ f ∈ fs, f.name ≠ none) (hp : fs.Pairwise (Compatible sep mode)) (hw : WellNamedAll sep fs)
    (hc : ConformsAll mode fs ks) (ha : Agree (fun _ => True) ps (relKids sep p ks)) (hmode : mode ≠ .full)
    (i : Nat) (f : Schema) (k : Elem) (fn : PStr) (hf : fs[i]? = some f) (hk : ks[i]? = some k) (hfn : f.name = some fn)
    (hl : rel sep p k = []) : ∀ x ∈ ps, ∀ t, x.1 = some t → ¬ fn <+: t := by
  intro x hx t hxt hpre
  have hx' := (agree_mem ha trivial).1 hx
  simp only [relKids, List.mem_flatMap] at hx'
  obtain ⟨k', hk', hx'⟩ := hx'
  obtain ⟨j, hj⟩ := List.mem_iff_getElem?.1 hk'
  have hji : j ≠ i := by
    rintro rfl
    rw [hk] at hj
    simp only [Option.some.injEq] at hj
    subst hj
    simp [hl] at hx'
  obtain ⟨g, hg, hcase⟩ := conformsAll_get hc hj
  obtain ⟨gn, hgn⟩ := Option.ne_none_iff_exists'.1 (hn g (List.mem_of_getElem? hg))
  have hcomp := pairwise_get (fun _ _ => compatible_symm) hp hf hg (Ne.symm hji)
  obtain ⟨-, -, -, h4⟩ := hcomp fn gn hfn hgn
  obtain ⟨h5, h6⟩ := h4 hmode
  rcases hcase with ⟨rfl, -⟩ | hcg
  · simp [rel_absent] at hx'
  rcases rel_key_container (wellNamedAll_mem hw g (List.mem_of_getElem? hg)) hcg hgn x hx' with h | ⟨_, y, hy, h⟩
  · rw [hxt] at h
    simp only [Option.some.injEq] at h
    subst h
    exact h5 (hpre.trans (List.prefix_append ..))
  · rw [hxt] at h
    simp only [Option.some.injEq] at h
    subst h
    rcases prefix_total hpre (List.prefix_append (gn ++ sep) y) with h | h
    · exact h5 h
    · exact h6 ((List.prefix_append gn sep).trans (h.trans (List.prefix_append ..)))

mutual
theorem setFlat_any {sep : PStr} (hs : GoodSep sep) : ∀ (s : Schema) (p : Bool) (e : Elem) (ps : List FPair), WellNamed sep s → Conforms s e →
    EachScalar TakesItsText p s e → Agree (owns sep s) ps (rel sep p e) → setFlat sep s (fresh s) ps = .ok (broughtBack p s e)
  | .scalar h t, p, .scalar n st, ps, hw, hc, hca, ha => by
    simp only [Conforms] at hc; subst hc
    simp only [EachScalar, TakesItsText] at hca
    have := ha h.name (by simp [owns])
    rw [rel_scalar] at this
    simp only [setFlat, fresh, Elem.state, broughtBack]
    by_cases hp : (p && st.u == []) = true
    · simp only [hp, if_true, List.filter_nil] at this
      have hf : ps.find? (fun p => p.1 == h.name) = none := by
        rw [← List.head?_filter, this]; rfl
      rw [if_pos hp]
      simp only [scalarSetFlat, hf]
      rfl
    · obtain ⟨b, hb⟩ := hca.resolve_left hp
      simp only [hp, if_false, Bool.false_eq_true] at this
      simp only [List.filter_cons_of_pos (p := fun x : FPair => x.1 == h.name) (a := (h.name, st.u)) (l := []) (by simp), List.filter_nil] at this
      rw [scalarSetFlat_own this hb, if_neg hp]
  | .dict h mode po fs, p, .dict n ks, ps, hw, hc, hca, ha => by
    simp only [Conforms, EachScalar, WellNamed] at hc hca hw
    obtain ⟨rfl, hc⟩ := hc
    obtain ⟨hgn, hnames, hpw, hwa⟩ := hw
    have hksome := relKids_key_some (p := p) hnames hwa hc
    have hposs : ∃ poss, dictPossibles sep h.name ps = .ok poss ∧ Agree (fun _ => True) poss (relKids sep p ks) := by
      rw [rel_dict] at ha
      cases hname : h.name with
      | none =>
        refine ⟨ps, rfl, ?_⟩
        intro k hk
        have := ha k (by simp [owns, ownsUnder, hname])
        simpa [hname, addName_none] using this
      | some nm =>
        rw [hname] at ha
        have ha : Agree (ownsUnder sep (some nm)) ps _ := fun k hk => ha k (by simpa only [owns, hname] using hk)
        obtain ⟨hnn, hag⟩ := agree_strip ha hksome
        exact ⟨_, dictPossibles_go_ok _ _ hnn, hag⟩
    obtain ⟨poss, hpo, hag⟩ := hposs
    simp only [setFlat, hpo, broughtBack, fresh]
    by_cases hemp : poss = []
    · subst hemp
      have hk := agree_nil hag
      simp only [List.isEmpty_nil, if_true]
      rw [broughtBackAll_lost p mode fs ks hc fun k hk' => (survives_eq_false sep).2 (List.flatMap_eq_nil_iff.1 hk k hk')]
    · have hie : poss.isEmpty = false := by cases poss <;> simp_all
      simp only [hie]
      have hpn : ∀ x ∈ poss, x.1 ≠ none := fun x hx => hksome x ((agree_mem hag trivial).1 hx)
      have := setFlatFields_any hs fs p mode ks poss hnames hwa hc hca hpn (fieldsOK hnames hpw hwa hc hag)
        (fun hm i f k fn => fields_lost hnames hpw hwa hc hag hm i f k fn)
      simp only [Elem.kids, this]
      rfl
  | .list h prune max m, p, .list n ks, ps, hw, hc, hca, ha => by
    simp only [Conforms, EachScalar, WellNamed] at hc hca hw
    obtain ⟨rfl, hc⟩ := hc
    have hnone : ∀ x ∈ ps, x.1 ≠ none := by
      intro x hx hx0
      have hO : owns sep (.list h prune max m) x.1 := by
        simp only [owns]
        cases h.name with
        | none => trivial
        | some n => exact .inl hx0
      have := (agree_mem ha hO).1 hx
      rw [rel_list] at this
      simp only [List.mem_map] at this
      obtain ⟨y, hy, rfl⟩ := this
      have := relSlots_key_some y hy
      cases hh : h.name <;> simp [hh, addName_some, addName_none] at hx0
      exact this hx0
    have hne : ∀ k ∈ ks, ∀ x ∈ rel sep (p || prune) k, x.1 ≠ some [] :=
      fun k hk => rel_key_ne_nil sep (p || prune) m k hw.2 (hc k hk)
    have ha' := agree_filter ha (fun x => !(x.2 == [] && prune))
    rw [rel_filter_blank] at ha'
    have hsub := list_subPairs hs hw.1 (p || prune) ks hne (ps.filter fun x => !(x.2 == [] && prune)) (by
      intro k hk
      exact ha' k hk)
    simp only [setFlat, listMatches_ok sep h.name prune ps hnone]
    generalize hms : ((ps.filter fun x => !(x.2 == [] && prune)).filterMap fun x =>
      match x.1 with
      | some k => (idxMatch sep h.name k).map fun r => (r.1, (r.2, x.2))
      | none => none) = ms at hsub ⊢
    have hemp : ∀ i, subPairs ms i = [] ↔ ∀ k, ks[i]? = some k → survives (p || prune) k = false := by
      intro i
      have hs' := hsub i
      constructor
      · intro h0 k hk
        rw [hk, h0] at hs'
        simp only [Option.map_some, Option.getD_some] at hs'
        exact (survives_eq_false sep).2 (agree_nil hs')
      · intro h0
        cases hk : ks[i]? with
        | none =>
          rw [hk] at hs'
          simp only [Option.map_none, Option.getD_none] at hs'
          cases hsp : subPairs ms i with
          | nil => rfl
          | cons x xs => exact absurd ((agree_mem hs' (x := x) trivial).1 (by simp [hsp])) (by simp)
        | some k =>
          rw [hk] at hs'
          simp only [Option.map_some, Option.getD_some] at hs'
          rw [(survives_eq_false sep).1 (h0 k hk)] at hs'
          cases hsp : subPairs ms i with
          | nil => rfl
          | cons x xs => exact absurd ((agree_mem hs' (x := x) trivial).1 (by simp [hsp])) (by simp)
    have hidx : ∀ i, (∃ m ∈ ms, m.1 = i) ↔ ∃ k, ks[i]? = some k ∧ survives (p || prune) k = true := by
      intro i
      have h1 : (∃ m ∈ ms, m.1 = i) ↔ subPairs ms i ≠ [] := by
        simp only [subPairs, ne_eq, List.map_eq_nil_iff, List.filter_eq_nil_iff]
        simp
      rw [h1, ne_eq, hemp]
      simp only [Classical.not_forall, exists_prop, Bool.not_eq_false]
    have hlen : ∀ i, (∃ m ∈ ms, m.1 = i) → i < ks.length := by
      intro i hi
      obtain ⟨k, hk, _⟩ := (hidx i).1 hi
      exact (List.getElem?_eq_some_iff.1 hk).1
    have hone : ∀ i k, ks[i]? = some k →
        (if (subPairs ms i).isEmpty then .ok (fresh m) else setFlat sep m (fresh m) (subPairs ms i)) =
          .ok (broughtBack (p || prune) m k) := by
      intro i k hk
      have hmem := List.mem_of_getElem? hk
      have hag := hsub i
      rw [hk] at hag
      cases h0 : (subPairs ms i).isEmpty with
      | true =>
        rw [if_pos rfl, broughtBack_lost (p || prune) m k hw.2 (hc k hmem) ((hemp i).1 (List.isEmpty_iff.1 h0) k hk)]
      | false =>
        rw [if_neg (by simp)]
        exact setFlat_any hs m (p || prune) k (subPairs ms i) hw.2 (hc k hmem) (hca k hmem) (fun key _ => hag key trivial)
    have hpick : ∀ L : List Nat, (∀ i ∈ L, i < ks.length) →
        L.mapM (fun i => if (subPairs ms i).isEmpty then .ok (fresh m) else setFlat sep m (fresh m) (subPairs ms i)) =
          .ok ((L.filterMap (ks[·]?)).map (broughtBack (p || prune) m)) := by
      intro L hL
      refine mapM_pick ks _ _ L fun i hi => ⟨ks[i]'(hL i hi), List.getElem?_eq_getElem (hL i hi), hone i _ (List.getElem?_eq_getElem (hL i hi))⟩
    by_cases hmsn : ms = []
    · subst hmsn
      have hl : ∀ k ∈ ks, survives (p || prune) k = false := by
        intro k hk
        obtain ⟨i, hi⟩ := List.mem_iff_getElem?.1 hk
        exact (hemp i).1 rfl k hi
      have : broughtBack p (.list h prune max m) (.list h.name ks) = .list h.name [] := by
        cases prune with
        | false =>
          simp only [Bool.or_false] at hl
          simp [broughtBack, upToLast_nil _ hl]
        | true =>
          simp only [Bool.or_true] at hl
          have : ks.filter (survives true) = [] := by
            rw [List.filter_eq_nil_iff]; intro k hk; simp [hl k hk]
          simp [broughtBack, this]
      rw [this]
      rfl
    · have hie : ms.isEmpty = false := by cases ms <;> simp_all
      simp only [hie, Bool.false_eq_true, if_false]
      cases prune with
      | true =>
        simp only [if_true]
        have hsorted : sortedIdx ms = (List.range ks.length).filter fun i => (ks[i]?.map (survives true)).getD false := by
          apply sorted_ext (sortedIdx_sorted ms) (List.pairwise_lt_range.filter _)
          intro i
          rw [mem_sortedIdx, hidx, List.mem_filter, List.mem_range, Bool.or_true]
          constructor
          · rintro ⟨k, hk, hsv⟩
            exact ⟨(List.getElem?_eq_some_iff.1 hk).1, by simp [hk, hsv]⟩
          · rintro ⟨hlt, hsv⟩
            rw [List.getElem?_eq_getElem hlt] at hsv ⊢
            exact ⟨_, rfl, by simpa using hsv⟩
        have hin : ∀ i ∈ sortedIdx ms, i < ks.length := fun i hi => hlen i ((mem_sortedIdx ms i).1 hi)
        rw [hpick _ (fun i hi => hin i (List.take_subset _ _ hi)), pick_take ks _ _ hin, hsorted, pick_filter]
        simp only [broughtBack, Bool.or_true]
      | false =>
        simp only [Bool.false_eq_true, if_false]
        obtain ⟨m0, hm0, he⟩ := maxIdx_mem ms hmsn
        have hlt := hlen (maxIdx ms) ⟨m0, hm0, he⟩
        rw [hpick _ (fun i hi => by have := List.mem_range.1 hi; omega), pick_range ks _ (by omega)]
        obtain ⟨k, hk, hsv⟩ := (hidx (maxIdx ms)).1 ⟨m0, hm0, he⟩
        rw [Bool.or_false] at hsv
        have := upToLast_take (survives p) ks (maxIdx ms) k hk hsv (by
          intro j y hj hy
          obtain ⟨m1, hm1, he1⟩ := (hidx j).2 ⟨y, hj, by simpa using hy⟩
          have := le_maxIdx ms m1 hm1
          omega)
        simp only [broughtBack, this, List.take_take, Bool.or_false]
        rw [Nat.min_comm]
  | .array h prune (.scalar hm t), p, .array n ks, ps, hw, hc, hca, ha => by
    simp only [Conforms, EachScalar, WellNamed] at hc hca hw
    obtain ⟨rfl, hc⟩ := hc
    exact setFlat_array_any hs p h prune hm t _ ks ps hw.1 hw.2.2 (by simpa only [Conforms] using hc) hca ha
  | .array _ _ (.dict ..), _, _, _, hw, _, _, _ | .array _ _ (.list ..), _, _, _, hw, _, _, _
  | .array _ _ (.array ..), _, _, _, hw, _, _, _ => by simp [WellNamed, isContainer] at hw
  | .scalar .., _, .dict .., _, _, hc, _, _ | .scalar .., _, .list .., _, _, hc, _, _ | .scalar .., _, .array .., _, _, hc, _, _
  | .scalar .., _, .absent, _, _, hc, _, _
  | .dict .., _, .scalar .., _, _, hc, _, _ | .dict .., _, .list .., _, _, hc, _, _ | .dict .., _, .array .., _, _, hc, _, _
  | .dict .., _, .absent, _, _, hc, _, _
  | .list .., _, .dict .., _, _, hc, _, _ | .list .., _, .scalar .., _, _, hc, _, _ | .list .., _, .array .., _, _, hc, _, _
  | .list .., _, .absent, _, _, hc, _, _
  | .array .., _, .dict .., _, _, hc, _, _ | .array .., _, .list .., _, _, hc, _, _ | .array .., _, .scalar .., _, _, hc, _, _
  | .array .., _, .absent, _, _, hc, _, _ => by
    simp [Conforms] at hc
theorem setFlatFields_any {sep : PStr} (hs : GoodSep sep) : ∀ (fs : List Schema) (p : Bool) (mode : DictMode) (ks : List Elem) (ps : List FPair),
    (∀ f ∈ fs, f.name ≠ none) → WellNamedAll sep fs → ConformsAll mode fs ks → EachScalarAll TakesItsText p fs ks → (∀ x ∈ ps, x.1 ≠ none) →
    FieldsOK sep p fs ks ps →
    (mode ≠ .full → ∀ (i : Nat) f k fn, fs[i]? = some f → ks[i]? = some k → f.name = some fn → rel sep p k = [] →
      ∀ x ∈ ps, ∀ t, x.1 = some t → ¬ fn <+: t) →
    setFlatFields sep fs (freshFields mode fs) ps = .ok (broughtBackAll p mode fs ks)
  | [], _, _, [], _, _, _, _, _, _, _, _ => by simp [setFlatFields, broughtBackAll]
  | f :: fs, p, mode, k :: ks, ps, hn, hw, hc, hca, hps, hok, hlost => by
    simp only [WellNamedAll, ConformsAll, EachScalarAll] at hw hc hca
    obtain ⟨fn, hfn⟩ := Option.ne_none_iff_exists'.1 (hn f (by simp))
    have hrest := setFlatFields_any hs fs p mode ks ps (fun g hg => hn g (by simp [hg])) hw.2 hc.2 hca.2 hps
      (fun i g k' gn hg hk' hgn => hok (i + 1) g k' gn (by simpa using hg) (by simpa using hk') hgn)
      (fun hm i g k' gn hg hk' hgn => hlost hm (i + 1) g k' gn (by simpa using hg) (by simpa using hk') hgn)
    obtain ⟨-, hpres⟩ := hok 0 f k fn rfl rfl hfn
    simp only [setFlatFields, freshFields, List.headD_cons, List.tail_cons, hfn, accumField_ok fn ps hps, broughtBackAll, hrest]
    generalize hacc : (ps.filter fun x => match x.1 with | some k => startsWith k fn | none => false) = acc
    have haccmem : ∀ x, x ∈ acc ↔ x ∈ ps ∧ ∃ t, x.1 = some t ∧ fn <+: t := by
      intro x
      rw [← hacc, List.mem_filter]
      refine and_congr_right fun _ => ?_
      split
      · rename_i t ht; simp [ht, startsWith_iff]
      · rename_i ht; simp [ht]
    have hauto : ∀ b, autoField mode f = b → b = false → mode ≠ .full := by
      rintro b rfl h rfl
      simp [autoField] at h
    -- nothing gets through, and the field is optional
    have hgone : autoField mode f = false → survives p k = false → acc = [] := by
      intro h1 h2
      apply List.eq_nil_iff_forall_not_mem.2
      intro x hx
      obtain ⟨hx1, t, ht, hpre⟩ := (haccmem x).1 hx
      exact hlost (hauto _ rfl h1) 0 f k fn rfl rfl hfn ((survives_eq_false sep).1 h2) x hx1 t ht hpre
    rcases hc.1 with ⟨rfl, hau⟩ | hck
    · rw [hgone hau survives_absent]
      simp [hau, survives_absent]
    · have hkabs : k ≠ .absent := by
        rintro rfl
        cases f <;> simp [Conforms] at hck
      have hag := hpres hkabs
      have howned := rel_owned (p := p) hw.1 hck
      have hagacc : Agree (owns sep f) acc (rel sep p k) := by
        intro key hkey
        rw [← hag key hkey, ← hacc, List.filter_filter]
        apply List.filter_congr
        intro x hx
        cases hxk : (x.1 == key) with
        | false => simp
        | true =>
          simp only [beq_iff_eq] at hxk
          have hxr := (agree_mem hag (x := x) (by rw [hxk]; exact hkey)).1 hx
          rcases rel_key_under hw.1 hck hfn x hxr with h | ⟨y, _, h⟩
          · simp [h, startsWith]
          · simp [h, startsWith_iff]
      have hset := setFlat_any hs f p k acc hw.1 hck hca.1 hagacc
      have hfr : orFresh f (if autoField mode f = true then fresh f else .absent) = fresh f := by
        cases autoField mode f
        · rfl
        · cases f <;> simp [fresh, orFresh]
      cases hsv : survives p k with
      | false =>
        have hbl := broughtBack_lost p f k hw.1 hck hsv
        cases ha : autoField mode f with
        | false =>
          rw [hgone ha hsv]
          simp
        | true =>
          rw [ha] at hfr
          rw [hbl] at hset
          simp only [if_true] at hfr ⊢
          rw [hfr, hset]
          cases acc.isEmpty <;> simp
      | true =>
        have hne : acc.isEmpty = false := by
          cases h0 : acc.isEmpty with
          | false => rfl
          | true =>
            exfalso
            rw [List.isEmpty_iff.1 h0] at hagacc
            apply (survives_iff sep).1 hsv
            apply List.eq_nil_iff_forall_not_mem.2
            intro x hx
            have := (agree_mem hagacc (howned x hx)).2 hx
            simp at this
        simp [hne, hfr, hset]
  | [], _, _, _ :: _, _, _, _, hc, _, _, _, _ | _ :: _, _, _, [], _, _, _, hc, _, _, _, _ => by simp [ConformsAll] at hc
end

end Flatland
