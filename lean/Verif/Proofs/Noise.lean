import Verif.Proofs.RichTree
/-! Helper lemmas for C78: pairs that `set_flat` of a new element does not look at can be left out. -/
namespace Flatland
open Spec

/-- a Dict hands the pair to the field of this name -/
def handed (f : PStr) (x : FPair) : Bool := (x.1.map fun k => startsWith k f).getD false

/-- not dropped by a List -/
def unblank (prune : Bool) (x : FPair) : Bool := !(x.2 == [] && prune)

section
variable [Runtime]

/-- what member `i` of a List gets of the pair -/
def slotHit (sep : PStr) (name : Option PStr) (i : Nat) (x : FPair) : Option FPair :=
  (x.1.bind (idxMatch sep name)).bind fun r => if r.1 = i then some (r.2, x.2) else none

mutual
/-- `x`, between the pairs `b` and `a`, makes no difference to `set_flat` of a new element -/
def Noise (sep : PStr) : Schema → List FPair → FPair → List FPair → Prop
  | .scalar h _, b, x, _ => x.1 ≠ h.name ∨ ∃ y ∈ b, y.1 = h.name
  | .dict h mode _ fs, b, x, a => x.1 ≠ none ∧ match h.name with
    | none => NoiseFields sep mode fs b x a
    | some n => ∀ x', below (n ++ sep) x = some x' → NoiseFields sep mode fs (b.filterMap (below (n ++ sep))) x' (a.filterMap (below (n ++ sep)))
  | .list h prune _ m, b, x, a => unblank prune x = true → x.1 ≠ none ∧ ∀ i x', slotHit sep h.name i x = some x' →
      (∃ y ∈ b ++ a, unblank prune y = true ∧ (slotHit sep h.name i y).isSome = true) ∧
      Noise sep m ((b.filter (unblank prune)).filterMap (slotHit sep h.name i)) x' ((a.filter (unblank prune)).filterMap (slotHit sep h.name i))
  | .array h prune m, _, x, _ => arrayPick sep h.name m.name prune x = .ok none
/-- see `Noise` -/
def NoiseFields (sep : PStr) (mode : DictMode) : List Schema → List FPair → FPair → List FPair → Prop
  | [], _, _, _ => True
  | f :: fs, b, x, a => (∀ n, f.name = some n → handed n x = true →
      (autoField mode f = true ∨ ∃ y ∈ b ++ a, handed n y = true) ∧ Noise sep f (b.filter (handed n)) x (a.filter (handed n))) ∧
      NoiseFields sep mode fs b x a
end

theorem setFlatFields_new_nil (sep : PStr) (mode : DictMode) (fs : List Schema) :
    setFlatFields sep fs (freshFields mode fs) [] = .ok (freshFields mode fs) := by
  induction fs with
  | nil => rfl
  | cons f fs ih =>
    simp only [setFlatFields, freshFields, accumField, List.isEmpty_nil, if_true, List.headD_cons, List.tail_cons, ih]

theorem setFlat_nil {sep : PStr} {s : Schema} (hw : WellNamed sep s) : setFlat sep s (fresh s) [] = .ok (fresh s) := by
  cases s with
  | scalar h t => simp [setFlat, scalarSetFlat, fresh, Elem.state, ScalarState.fresh]
  | dict h mo po fs =>
    have : dictPossibles sep h.name [] = .ok [] := by
      unfold dictPossibles
      split <;> rfl
    simp [setFlat, this]
  | list h pr ma m => simp [setFlat, listMatches, fresh, pure, Except.pure]
  | array h pr m =>
    simp only [WellNamed] at hw
    cases m with
    | scalar hm t => simp [setFlat, arrayMembers, fresh]
    | _ => simp [isContainer] at hw

omit [Runtime] in
theorem hasNone_append (b a : List FPair) : hasNone (b ++ a) = (hasNone b || hasNone a) := by simp [hasNone]

omit [Runtime] in
theorem hasNone_insert {b a : List FPair} {x : FPair} (h : x.1 ≠ none) : hasNone (b ++ x :: a) = hasNone (b ++ a) := by
  have : (x.1 == none) = false := by
    cases hk : x.1 with
    | none => exact absurd hk h
    | some k => rfl
  simp only [hasNone, List.any_append, List.any_cons, this, Bool.false_or]

theorem arrayMembers_skip1 (sep : PStr) (name : Option PStr) (prune : Bool) (hm : Hdr) (t : ScalarType) (b a : List FPair) (x : FPair)
    (h : arrayPick sep name hm.name prune x = .ok none) :
    arrayMembers sep name prune hm t (b ++ x :: a) = arrayMembers sep name prune hm t (b ++ a) := by
  induction b with
  | nil =>
    simp only [List.nil_append]
    rw [arrayMembers, h]
    simp [bind, Except.bind]
  | cons y ys ih => 
    simp only [List.cons_append]
    rw [arrayMembers, arrayMembers, ih]

mutual
theorem remove_noise (sep : PStr) : ∀ (s : Schema), WellNamed sep s → ∀ (b : List FPair) (x : FPair) (a : List FPair), Noise sep s b x a →
    setFlat sep s (fresh s) (b ++ x :: a) = setFlat sep s (fresh s) (b ++ a)
  | .scalar h t, _, b, x, a, hn => by
    simp only [Noise] at hn
    simp only [setFlat, scalarSetFlat]
    have : (b ++ x :: a).find? (fun p => p.1 == h.name) = (b ++ a).find? (fun p => p.1 == h.name) := by
      rw [List.find?_append, List.find?_append]
      rcases hn with hn | ⟨y, hy, e⟩
      · rw [List.find?_cons_of_neg (by simpa using hn)]
      · have : (b.find? fun p => p.1 == h.name).isSome = true := by
          rw [List.find?_isSome]; exact ⟨y, hy, by simpa using e⟩
        obtain ⟨z, hz⟩ := Option.isSome_iff_exists.1 this
        rw [hz]; simp
    rw [this]
  | .dict h mode po fs, hw, b, x, a, hn => by
    simp only [WellNamed] at hw
    simp only [Noise] at hn
    obtain ⟨hx, hn⟩ := hn
    have rest : ∀ (b a : List FPair) (x : FPair), x.1 ≠ none → NoiseFields sep mode fs b x a →
        (if (b ++ x :: a).isEmpty then Except.ok (fresh (.dict h mode po fs)) else match setFlatFields sep fs (fresh (.dict h mode po fs)).kids (b ++ x :: a) with
          | .error er => .error er
          | .ok kids => .ok (.dict h.name kids)) =
        (if (b ++ a).isEmpty then Except.ok (fresh (.dict h mode po fs)) else match setFlatFields sep fs (fresh (.dict h mode po fs)).kids (b ++ a) with
          | .error er => .error er
          | .ok kids => .ok (.dict h.name kids)) := by
      intro b a x hx hnf
      have e : (fresh (.dict h mode po fs)) = .dict h.name (freshFields mode fs) := by simp [fresh]
      rw [if_neg (by simp), e]
      simp only [Elem.kids]
      rw [remove_noise_fields sep mode fs hw.2.1 hw.2.2.2 b x a hx hnf]
      by_cases he : (b ++ a).isEmpty = true
      · rw [if_pos he, List.isEmpty_iff.1 he, setFlatFields_new_nil]
      · rw [if_neg he]
    simp only [setFlat, dictPossibles]
    cases hnm : h.name with
    | none =>
      rw [hnm] at hn
      have := rest b a x hx hn
      rw [hnm] at this
      exact this
    | some n =>
      rw [hnm] at hn
      simp only at hn
      simp only [possibles_go, hasNone_insert hx]
      cases hasNone (b ++ a) with
      | true => rfl
      | false =>
        simp only [Bool.false_eq_true, if_false]
        rw [List.filterMap_append, List.filterMap_append]
        cases hb : below (n ++ sep) x with
        | none => rw [List.filterMap_cons_none hb]
        | some x' =>
          rw [List.filterMap_cons_some hb]
          have hx' : x'.1 ≠ none := by
            obtain ⟨k, v⟩ := x
            cases k with
            | none => simp [below] at hb
            | some k =>
              simp only [below] at hb
              split at hb
              · cases hb; simp
              · cases hb
          have := rest _ _ x' hx' (hn x' hb)
          rw [hnm] at this
          exact this
  | .list h prune max m, hw, b, x, a, hn => by
    simp only [WellNamed] at hw
    simp only [Noise] at hn
    simp only [setFlat, listMatches_eq]
    have hfe : (fun x : FPair => !(x.2 == [] && prune)) = unblank prune := rfl
    rw [hfe, List.filter_append, List.filter_append]
    cases hu : unblank prune x with
    | false => rw [List.filter_cons_of_neg (by simp [hu])]
    | true =>
      obtain ⟨hx, hn⟩ := hn hu
      rw [List.filter_cons_of_pos (by simpa using hu), hasNone_insert hx]
      cases hasNone (b.filter (unblank prune) ++ a.filter (unblank prune)) with
      | true => rfl
      | false =>
        simp only [Bool.false_eq_true, if_false]
        have hsub : ∀ i (l : List FPair), subPairs (l.filterMap fun x => (x.1.bind (idxMatch sep h.name)).map fun r => (r.1, (r.2, x.2))) i =
            l.filterMap (slotHit sep h.name i) := fun i l => subPairs_filterMap sep h.name i l
        cases hi : x.1.bind (idxMatch sep h.name) with
        | none =>
          rw [List.filterMap_append, List.filterMap_append, List.filterMap_cons_none (by simp [hi])]
        | some r =>
          have hhit : slotHit sep h.name r.1 x = some (r.2, x.2) := by simp [slotHit, hi]
          obtain ⟨⟨y, hy, hyu, hyh⟩, hm⟩ := hn r.1 _ hhit
          have hset : ∀ i, (∃ z ∈ (b.filter (unblank prune) ++ x :: a.filter (unblank prune)).filterMap fun x => (x.1.bind (idxMatch sep h.name)).map fun r => (r.1, (r.2, x.2)), z.1 = i) ↔
              ∃ z ∈ (b.filter (unblank prune) ++ a.filter (unblank prune)).filterMap fun x => (x.1.bind (idxMatch sep h.name)).map fun r => (r.1, (r.2, x.2)), z.1 = i := by
            intro i
            constructor
            · rintro ⟨z, hz, rfl⟩
              obtain ⟨w, hw', hwz⟩ := List.mem_filterMap.1 hz
              rw [List.mem_append, List.mem_cons] at hw'
              by_cases hwx : w = x
              · subst hwx
                rw [hi] at hwz
                cases hwz
                obtain ⟨y', hy'⟩ := Option.isSome_iff_exists.1 hyh
                unfold slotHit at hy'
                cases hyi : y.1.bind (idxMatch sep h.name) with
                | none => rw [hyi] at hy'; simp at hy'
                | some q =>
                  rw [hyi] at hy'
                  simp only [Option.bind_some] at hy'
                  split at hy'
                  · rename_i hq
                    refine ⟨(q.1, (q.2, y.2)), List.mem_filterMap.2 ⟨y, ?_, by rw [hyi]; rfl⟩, hq⟩
                    rw [← List.filter_append]
                    exact List.mem_filter.2 ⟨hy, hyu⟩
                  · cases hy'
              · refine ⟨z, List.mem_filterMap.2 ⟨w, ?_, hwz⟩, rfl⟩
                rw [List.mem_append]
                rcases hw' with h | h | h
                · exact .inl h
                · exact absurd h hwx
                · exact .inr h
            · rintro ⟨z, hz, rfl⟩
              obtain ⟨w, hw', hwz⟩ := List.mem_filterMap.1 hz
              refine ⟨z, List.mem_filterMap.2 ⟨w, ?_, hwz⟩, rfl⟩
              rw [List.mem_append] at hw'
              rw [List.mem_append, List.mem_cons]
              rcases hw' with h | h
              · exact .inl h
              · exact .inr (.inr h)
          have hs1 := sortedIdx_congr hset
          have hm1 := maxIdx_congr hset
          have he1 : ((b.filter (unblank prune) ++ x :: a.filter (unblank prune)).filterMap fun x => (x.1.bind (idxMatch sep h.name)).map fun r => (r.1, (r.2, x.2))).isEmpty =
              ((b.filter (unblank prune) ++ a.filter (unblank prune)).filterMap fun x => (x.1.bind (idxMatch sep h.name)).map fun r => (r.1, (r.2, x.2))).isEmpty := by
            rw [Bool.eq_iff_iff, List.isEmpty_iff, List.isEmpty_iff]
            constructor
            · intro e
              apply List.eq_nil_iff_forall_not_mem.2
              intro z hz
              obtain ⟨w, hw', _⟩ := (hset z.1).2 ⟨z, hz, rfl⟩
              rw [e] at hw'; cases hw'
            · intro e
              apply List.eq_nil_iff_forall_not_mem.2
              intro z hz
              obtain ⟨w, hw', _⟩ := (hset z.1).1 ⟨z, hz, rfl⟩
              rw [e] at hw'; cases hw'
          rw [hs1, hm1, he1]
          have hpt : ∀ i, (if (subPairs ((b.filter (unblank prune) ++ x :: a.filter (unblank prune)).filterMap fun x => (x.1.bind (idxMatch sep h.name)).map fun r => (r.1, (r.2, x.2))) i).isEmpty then Except.ok (fresh m)
                else setFlat sep m (fresh m) (subPairs ((b.filter (unblank prune) ++ x :: a.filter (unblank prune)).filterMap fun x => (x.1.bind (idxMatch sep h.name)).map fun r => (r.1, (r.2, x.2))) i)) =
              (if (subPairs ((b.filter (unblank prune) ++ a.filter (unblank prune)).filterMap fun x => (x.1.bind (idxMatch sep h.name)).map fun r => (r.1, (r.2, x.2))) i).isEmpty then Except.ok (fresh m)
                else setFlat sep m (fresh m) (subPairs ((b.filter (unblank prune) ++ a.filter (unblank prune)).filterMap fun x => (x.1.bind (idxMatch sep h.name)).map fun r => (r.1, (r.2, x.2))) i)) := by
            intro i
            rw [hsub, hsub, List.filterMap_append, List.filterMap_append]
            cases hxi : slotHit sep h.name i x with
            | none => rw [List.filterMap_cons_none hxi]
            | some x' =>
              rw [List.filterMap_cons_some hxi, if_neg (by simp), remove_noise sep m hw.2 _ x' _ (hn i x' hxi).2]
              split
              · rename_i he
                rw [List.isEmpty_iff.1 he, setFlat_nil hw.2]
              · rfl
          simp only [hpt]
  | .array h prune m, hw, b, x, a, hn => by
    simp only [WellNamed] at hw
    simp only [Noise] at hn
    cases m with
    | scalar hm t =>
      simp only [setFlat]
      rw [arrayMembers_skip1 sep h.name prune hm t b a x hn]
    | _ => simp [isContainer] at hw
theorem remove_noise_fields (sep : PStr) (mode : DictMode) : ∀ (fs : List Schema), (∀ f ∈ fs, f.name ≠ none) → WellNamedAll sep fs →
    ∀ (b : List FPair) (x : FPair) (a : List FPair), x.1 ≠ none → NoiseFields sep mode fs b x a →
    setFlatFields sep fs (freshFields mode fs) (b ++ x :: a) = setFlatFields sep fs (freshFields mode fs) (b ++ a)
  | [], _, _, _, _, _, _, _ => rfl
  | f :: fs, hnm, hw, b, x, a, hx, hn => by
    simp only [WellNamedAll] at hw
    simp only [NoiseFields] at hn
    obtain ⟨n, hfn⟩ := Option.ne_none_iff_exists'.1 (hnm f (by simp))
    simp only [setFlatFields, freshFields, List.headD_cons, List.tail_cons]
    rw [remove_noise_fields sep mode fs (fun g hg => hnm g (by simp [hg])) hw.2 b x a hx hn.2, hfn, accum_some, accum_some, hasNone_insert hx]
    cases hasNone (b ++ a) with
    | true => rfl
    | false =>
      simp only [Bool.false_eq_true, if_false]
      have hfe : (fun x : FPair => (x.1.map fun k => startsWith k n).getD false) = handed n := rfl
      rw [hfe, List.filter_append, List.filter_append]
      cases hh : handed n x with
      | false => rw [List.filter_cons_of_neg (by simp [hh])]
      | true =>
        obtain ⟨hor, hno⟩ := hn.1 n hfn hh
        rw [List.filter_cons_of_pos (by simpa using hh)]
        have hof : orFresh f (if autoField mode f then fresh f else .absent) = fresh f := by
          apply orFresh_newOrAbsent
          split
          · exact .inr rfl
          · exact .inl rfl
        rw [hof, remove_noise sep f hw.1 _ x _ hno]
        rw [if_neg (by simp)]
        by_cases he : (b.filter (handed n) ++ a.filter (handed n)).isEmpty = true
        · rw [if_pos he]
          rw [List.isEmpty_iff.1 he, setFlat_nil hw.1]
          rcases hor with ha | ⟨y, hy, hyh⟩
          · rw [if_pos ha]
          · exfalso
            rw [← List.filter_append, List.isEmpty_iff] at he
            have : y ∈ (b ++ a).filter (handed n) := List.mem_filter.2 ⟨hy, hyh⟩
            rw [he] at this; cases this
        · rw [if_neg he]
end

/-! ### the pairs of Compounds and of members of JoinedStrings -/

/-- a pair that does not come from a scalar or JoinedString: the names, the text, and for a member of a JoinedString its names and text -/
structure Extra where
  names : NamePath
  text : PStr
  owner : Option (NamePath × PStr)

/-- seen from further up -/
def Extra.under (pre : NamePath) (x : Extra) : Extra := ⟨pre ++ x.names, x.text, x.owner.map fun o => (pre ++ o.1, o.2)⟩

omit [Runtime] in
mutual
/-- all of them in a tree -/
def extras : RElem → List Extra
  | .plain _ => []
  | .joined n c m ms => ms.map fun st => ⟨[n, m], st.u, some ([n], joinedText c ms)⟩
  | .compound n co ks => [⟨[n], co ks, none⟩]
  | .dict n ks => (extrasAll ks).map (Extra.under [n])
  | .list n ks => (extrasSlots 0 ks).map (Extra.under [n])
/-- see `extras` -/
def extrasAll : List RElem → List Extra
  | [] => []
  | k :: ks => extras k ++ extrasAll ks
/-- see `extras` -/
def extrasSlots : Nat → List RElem → List Extra
  | _, [] => []
  | i, k :: ks => (extras k).map (Extra.under [some (decimal i)]) ++ extrasSlots (i + 1) ks
end

omit [Runtime] in
theorem mem_extrasAll {x : Extra} {ks : List RElem} : x ∈ extrasAll ks ↔ ∃ (j : Nat) (k : RElem), ks[j]? = some k ∧ x ∈ extras k := by
  induction ks with
  | nil => simp [extrasAll]
  | cons k ks ih =>
    simp only [extrasAll, List.mem_append, ih]
    constructor
    · rintro (h | ⟨j, k', hj, hx⟩)
      · exact ⟨0, k, rfl, h⟩
      · exact ⟨j + 1, k', by simpa using hj, hx⟩
    · rintro ⟨j, k', hj, hx⟩
      cases j with
      | zero => simp at hj; subst hj; exact .inl hx
      | succ j => exact .inr ⟨j, k', by simpa using hj, hx⟩

omit [Runtime] in
theorem mem_extrasSlots {x : Extra} {ks : List RElem} {i0 : Nat} :
    x ∈ extrasSlots i0 ks ↔ ∃ (j : Nat) (k : RElem) (y : Extra), ks[j]? = some k ∧ y ∈ extras k ∧ x = y.under [some (decimal (i0 + j))] := by
  induction ks generalizing i0 with
  | nil => simp [extrasSlots]
  | cons k ks ih =>
    simp only [extrasSlots, List.mem_append, ih, List.mem_map]
    constructor
    · rintro (⟨y, hy, rfl⟩ | ⟨j, k', y, hj, hx, rfl⟩)
      · exact ⟨0, k, y, rfl, hy, rfl⟩
      · exact ⟨j + 1, k', y, by simpa using hj, hx, by rw [Nat.add_assoc, Nat.add_comm 1 j]⟩
    · rintro ⟨j, k', y, hj, hx, rfl⟩
      cases j with
      | zero => simp at hj; subst hj; exact .inl ⟨y, hx, rfl⟩
      | succ j => exact .inr ⟨j, k', y, by simpa using hj, hx, by rw [Nat.add_assoc, Nat.add_comm 1 j]⟩

omit [Runtime] in
theorem rConformsAll_get {mode : DictMode} : ∀ {fs : List RSchema} {ks : List RElem}, RConformsAll mode fs ks → ∀ {j : Nat} {k : RElem}, ks[j]? = some k →
    ∃ f, fs[j]? = some f ∧ ((k = .plain .absent ∧ rAutoField mode f = false) ∨ RConforms f k)
  | [], [], _, j, k, hj => by simp at hj
  | f :: fs, k' :: ks, h, j, k, hj => by
    simp only [RConformsAll] at h
    cases j with
    | zero => simp at hj; subst hj; exact ⟨f, rfl, h.1⟩
    | succ j =>
      obtain ⟨g, hg, hh⟩ := rConformsAll_get h.2 (j := j) (k := k) (by simpa using hj)
      exact ⟨g, by simpa using hg, hh⟩
  | [], _ :: _, h, _, _, _ | _ :: _, [], h, _, _, _ => by simp [RConformsAll] at h

theorem rCarriedAll_get {p : Bool} {mode : DictMode} : ∀ {fs : List RSchema} {ks : List RElem}, RCarriedAll p mode fs ks → ∀ {j : Nat} {f : RSchema} {k : RElem},
    fs[j]? = some f → ks[j]? = some k → RCarried p f k ∧ (k.present = true → rAutoField mode f = false → Survives p k)
  | f :: fs, k' :: ks, h, j, g, k, hf, hj => by
    simp only [RCarriedAll] at h
    cases j with
    | zero => simp at hj hf; subst hj; subst hf; exact ⟨h.1, h.2.1⟩
    | succ j => exact rCarriedAll_get h.2.2 (j := j) (by simpa using hf) (by simpa using hj)
  | [], _, _, _, _, _, h, _ => by simp at h
  | _ :: _, [], _, _, _, _, _, h => by simp at h

omit [Runtime] in
theorem rWellNamedAll_mem {sep : PStr} : ∀ {fs : List RSchema}, RWellNamedAll sep fs → ∀ f ∈ fs, RWellNamed sep f
  | [], _, _, h => by simp at h
  | f :: fs, h, g, hg => by
    simp only [RWellNamedAll] at h
    rcases List.mem_cons.1 hg with rfl | hg
    · exact h.1
    · exact rWellNamedAll_mem h.2 g hg

theorem rGoodName {sep : PStr} {s : RSchema} (h : RWellNamed sep s) : GoodName s.name := by
  have := goodName_of_wellNamed (wellNamed_plain s h)
  rwa [plainS_name] at this

omit [Runtime] in
theorem keyOf_append_one (sep : PStr) (n : Option PStr) (np : NamePath) : keyOf sep ([n] ++ np) = addName sep n (keyOf sep np) := rfl

omit [Runtime] in
theorem addName_ne_nil {sep : PStr} {n k : Option PStr} (hn : GoodName n) (hk : k ≠ some []) : addName sep n k ≠ some [] := by
  cases n with
  | none => exact hk
  | some n =>
    have := (hn n rfl).1
    cases k <;> simp [addName, this]

/-- names met by keys of extras: never an empty key; below a name, keys start with it -/
def GoodKey (sep : PStr) (s : RSchema) (k : Option PStr) : Prop :=
  k ≠ some [] ∧ ∀ n, s.name = some n → k = some n ∨ spreads s = true ∧ ∃ y, y ≠ [] ∧ k = some (n ++ sep ++ y)

omit [Runtime] in
theorem goodKey_add {sep : PStr} {s : RSchema} {k : Option PStr} (hn : GoodName s.name) (hs : spreads s = true) (hk : k ≠ some []) :
    GoodKey sep s (addName sep s.name k) := by
  refine ⟨addName_ne_nil hn hk, ?_⟩
  intro n h
  rw [h]
  cases k with
  | none => exact .inl rfl
  | some k => exact .inr ⟨hs, k, by simpa using hk, rfl⟩

omit [Runtime] in
mutual
theorem extras_goodKey {sep : PStr} : ∀ (s : RSchema) (e : RElem), RWellNamed sep s → RConforms s e → ∀ x ∈ extras e,
    GoodKey sep s (keyOf sep x.names) ∧ ∀ o, x.owner = some o → GoodKey sep s (keyOf sep o.1)
  | .plain s, .plain e, _, _, x, hx => by simp [extras] at hx
  | .joined h c m, .joined n c' m' ms, hw, hc, x, hx => by
    simp only [RConforms] at hc
    obtain ⟨rfl, rfl, rfl⟩ := hc
    simp only [RWellNamed] at hw
    simp only [extras, List.mem_map] at hx
    obtain ⟨st, _, rfl⟩ := hx
    have own : GoodKey sep (.joined h c' m') (keyOf sep [h.name]) := by
      refine ⟨addName_ne_nil hw.1 (by simp), ?_⟩
      intro n hn
      have hn' : h.name = some n := hn
      rw [hn']; exact .inl rfl
    refine ⟨?_, ?_⟩
    · cases m' with
      | none =>
        have e : keyOf sep [h.name, none] = keyOf sep [h.name] := by cases h.name <;> rfl
        simp only
        rw [e]; exact own
      | some mm =>
        have := (hw.2 mm rfl).1
        exact goodKey_add (s := .joined h c' (some mm)) hw.1 rfl (by simp [keyOf, addName, this])
    · intro o ho
      cases ho
      exact own
  | .compound h co fs, .compound n co' ks, hw, hc, x, hx => by
    simp only [RConforms] at hc
    simp only [RWellNamed] at hw
    simp only [extras, List.mem_singleton] at hx
    subst hx
    obtain ⟨rfl, _⟩ := hc
    exact ⟨goodKey_add (s := .compound h co fs) hw.1 rfl (by simp), by intro o ho; cases ho⟩
  | .dict h mode po fs, .dict n ks, hw, hc, x, hx => by
    simp only [RConforms] at hc
    simp only [RWellNamed] at hw
    obtain ⟨rfl, hc⟩ := hc
    simp only [extras, List.mem_map] at hx
    obtain ⟨y, hy, rfl⟩ := hx
    have ih := extrasAll_goodKey mode fs ks hw.2.2.2 hc y hy
    refine ⟨?_, ?_⟩
    · simp only [Extra.under, keyOf_append_one]
      exact goodKey_add (s := .dict h mode po fs) hw.1 rfl ih.1
    · intro o ho
      simp only [Extra.under, Option.map_eq_some_iff] at ho
      obtain ⟨o', ho', rfl⟩ := ho
      simp only [keyOf_append_one]
      exact goodKey_add (s := .dict h mode po fs) hw.1 rfl (ih.2 o' ho')
  | .list h prune max m, .list n ks, hw, hc, x, hx => by
    simp only [RConforms] at hc
    simp only [RWellNamed] at hw
    obtain ⟨rfl, hc⟩ := hc
    simp only [extras, List.mem_map] at hx
    obtain ⟨y, hy, rfl⟩ := hx
    obtain ⟨j, k, z, hj, hz, rfl⟩ := mem_extrasSlots.1 hy
    have slot : ∀ k : Option PStr, addName sep (some (decimal (0 + j))) k ≠ some [] := by
      intro k
      cases k <;> simp [addName, decimal_ne_nil]
    refine ⟨?_, ?_⟩
    · simp only [Extra.under, keyOf_append_one]
      exact goodKey_add (s := .list h prune max m) hw.1 rfl (slot _)
    · intro o ho
      simp only [Extra.under, Option.map_eq_some_iff] at ho
      obtain ⟨o', ⟨o'', ho'', rfl⟩, rfl⟩ := ho
      simp only [keyOf_append_one]
      exact goodKey_add (s := .list h prune max m) hw.1 rfl (slot _)
  | .plain _, .joined .., _, h, _, _ | .plain _, .compound .., _, h, _, _ | .plain _, .dict .., _, h, _, _ | .plain _, .list .., _, h, _, _ => by simp [RConforms] at h
  | .joined .., .plain _, _, h, _, _ | .joined .., .compound .., _, h, _, _ | .joined .., .dict .., _, h, _, _ | .joined .., .list .., _, h, _, _ => by simp [RConforms] at h
  | .compound .., .plain _, _, h, _, _ | .compound .., .joined .., _, h, _, _ | .compound .., .dict .., _, h, _, _ | .compound .., .list .., _, h, _, _ => by simp [RConforms] at h
  | .dict .., .plain _, _, h, _, _ | .dict .., .joined .., _, h, _, _ | .dict .., .compound .., _, h, _, _ | .dict .., .list .., _, h, _, _ => by simp [RConforms] at h
  | .list .., .plain _, _, h, _, _ | .list .., .joined .., _, h, _, _ | .list .., .compound .., _, h, _, _ | .list .., .dict .., _, h, _, _ => by simp [RConforms] at h
theorem extrasAll_goodKey {sep : PStr} (mode : DictMode) : ∀ (fs : List RSchema) (ks : List RElem), RWellNamedAll sep fs → RConformsAll mode fs ks →
    ∀ x ∈ extrasAll ks, keyOf sep x.names ≠ some [] ∧ ∀ o, x.owner = some o → keyOf sep o.1 ≠ some []
  | [], [], _, _, x, hx => by simp [extrasAll] at hx
  | f :: fs, k :: ks, hw, hc, x, hx => by
    simp only [RWellNamedAll] at hw
    simp only [RConformsAll] at hc
    simp only [extrasAll, List.mem_append] at hx
    rcases hx with hx | hx
    · rcases hc.1 with ⟨rfl, _⟩ | h1
      · simp [extras] at hx
      · have := extras_goodKey f k hw.1 h1 x hx
        exact ⟨this.1.1, fun o ho => (this.2 o ho).1⟩
    · exact extrasAll_goodKey mode fs ks hw.2 hc.2 x hx
  | [], _ :: _, _, h, _, _ | _ :: _, [], _, h, _, _ => by simp [RConformsAll] at h
end

end

end Flatland
