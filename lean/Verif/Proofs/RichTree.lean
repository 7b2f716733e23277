import Verif.Proofs.Order
import Verif.Spec.RichTree
/-! Helper lemmas for C78: trees with Compounds and JoinedStrings behave, in `set_flat`, like plain trees in which a JoinedString is a scalar and a Compound a Dict. -/
namespace Flatland
open Spec

/-! ### the plain schema behind a schema -/

section
variable [Runtime]

/-- a scalar class whose text is that of the JoinedString -/
def joinedType (c : JoinedCfg) : ScalarType where
  adapt v := .ok v
  serialize v := match joinedSet c [] v with
    | (ms, .ok _) => .ok (joinedText c ms)
    | (_, .error er) => .error er

mutual
/-- the schema with JoinedStrings replaced by scalars and Compounds by Dicts -/
def plainS : RSchema → Schema
  | .plain s => s
  | .joined h c _ => .scalar h (joinedType c)
  | .compound h _ fs => .dict h .full .subset fs
  | .dict h mode po fs => .dict h mode po (plainAll fs)
  | .list h prune max m => .list h prune max (plainS m)
/-- see `plainS` -/
def plainAll : List RSchema → List Schema
  | [] => []
  | f :: fs => plainS f :: plainAll fs
end

mutual
/-- from an element of the plain schema to an element of the schema: the members of a JoinedString are those of its last input -/
def lift : RSchema → Elem → RElem
  | _, .absent => .plain .absent
  | .plain _, e => .plain e
  | .joined h c m, e => .joined h.name c m (match e.state.raw with | some v => (joinedSet c [] v).1 | none => [])
  | .compound h compose _, e => .compound h.name compose e.kids
  | .dict h _ _ fs, e => .dict h.name (liftAll fs e.kids)
  | .list h _ _ m, e => .list h.name (e.kids.map (lift m))
/-- see `lift` -/
def liftAll : List RSchema → List Elem → List RElem
  | f :: fs, k :: ks => lift f k :: liftAll fs ks
  | _, _ => []
end

theorem plainS_hdr (s : RSchema) : (plainS s).hdr = s.hdr := by
  cases s <;> simp [plainS, Schema.hdr, RSchema.hdr]

theorem plainS_name (s : RSchema) : (plainS s).name = s.name := by
  simp [Schema.name, RSchema.name, plainS_hdr]

omit [Runtime] in
theorem fresh_ne_absent (s : Schema) : fresh s ≠ .absent := by
  cases s <;> simp [fresh]

theorem lift_absent (s : RSchema) : lift s .absent = .plain .absent := by
  cases s <;> simp [lift]

theorem autoField_plainS (mode : DictMode) (f : RSchema) : autoField mode (plainS f) = rAutoField mode f := by
  cases mode <;> simp [autoField, rAutoField, plainS_hdr]

mutual
theorem lift_fresh : ∀ (s : RSchema), lift s (fresh (plainS s)) = rFresh s
  | .plain s => by
    simp only [plainS, rFresh]
    cases h : fresh s <;> simp [lift]
  | .joined h c m => by simp [plainS, rFresh, lift, fresh, Elem.state, ScalarState.fresh]
  | .compound h compose fs => by simp [plainS, rFresh, lift, fresh, Elem.kids]
  | .dict h mode po fs => by
    simp only [plainS, rFresh, fresh, lift, Elem.kids, lift_freshFields mode fs]
  | .list h prune max m => by simp [plainS, rFresh, lift, fresh, Elem.kids]
theorem lift_freshFields (mode : DictMode) : ∀ (fs : List RSchema), liftAll fs (freshFields mode (plainAll fs)) = rFreshFields mode fs
  | [] => by simp [liftAll, rFreshFields]
  | f :: fs => by
    simp only [plainAll, freshFields, liftAll, rFreshFields, lift_freshFields mode fs, autoField_plainS]
    cases h : rAutoField mode f with
    | true => rw [if_pos rfl, if_pos rfl, lift_fresh f]
    | false => rw [if_neg (by simp), if_neg (by simp), lift_absent]
end

theorem lift_present (s : RSchema) (e : Elem) : (lift s e).present = e.present := by
  cases e <;> cases s <;> simp [lift, RElem.present, Elem.present]

/-- the field is new or not there -/
def NewOrAbsent (f : Schema) (k : Elem) : Prop := k = .absent ∨ k = fresh f

omit [Runtime] in
theorem orFresh_newOrAbsent {f : Schema} {k : Elem} (h : NewOrAbsent f k) : orFresh f k = fresh f := by
  rcases h with rfl | rfl
  · rfl
  · have := fresh_ne_absent f
    cases h : fresh f <;> simp_all [orFresh]

theorem rOrFresh_lift {f : RSchema} {k : Elem} (h : NewOrAbsent (plainS f) k) : rOrFresh f (lift f k) = rFresh f := by
  unfold rOrFresh
  rw [lift_present]
  rcases h with rfl | rfl
  · rfl
  · have := fresh_ne_absent (plainS f)
    have hp : (fresh (plainS f)).present = true := by
      cases h : fresh (plainS f) <;> simp_all [Elem.present]
    rw [if_pos hp, lift_fresh]

omit [Runtime] in
theorem mapM_lift {ε α β γ} (l : List α) (f : α → Except ε β) (g : β → γ) :
    l.mapM (fun a => (f a).map g) = (l.mapM f).map (List.map g) := by
  induction l with
  | nil => rfl
  | cons a l ih =>
    simp only [List.mapM_cons, ih, bind, Except.bind, pure, Except.pure]
    cases f a with
    | error e => rfl
    | ok b =>
      simp only [Except.map]
      cases l.mapM f with
      | error e => rfl
      | ok bs => rfl

/-- every field is new or not there -/
def AllNew : List Schema → List Elem → Prop
  | [], _ => True
  | f :: fs, ks => NewOrAbsent f (ks.headD .absent) ∧ AllNew fs ks.tail

omit [Runtime] in
theorem allNew_freshFields (mode : DictMode) (fs : List Schema) : AllNew fs (freshFields mode fs) := by
  induction fs with
  | nil => trivial
  | cons f fs ih =>
    refine ⟨?_, ih⟩
    simp only [freshFields, List.headD_cons]
    split
    · exact .inr rfl
    · exact .inl rfl

theorem setFlat_ne_absent {sep : PStr} {s : Schema} {ps : List FPair} {e' : Elem} (h : setFlat sep s (fresh s) ps = .ok e') : e' ≠ .absent := by
  cases s with
  | scalar hd t =>
    simp only [setFlat, scalarSetFlat] at h
    split at h
    · cases h; simp
    · split at h
      · cases h; simp
      · cases h
  | dict hd mo po fs =>
    simp only [setFlat] at h
    split at h
    · cases h
    · split at h
      · cases h; simp [fresh]
      · split at h
        · cases h
        · cases h; simp
  | list hd pr ma m =>
    simp only [setFlat] at h
    split at h
    · cases h
    · split at h
      · cases h
      · cases h; simp
  | array hd pr m =>
    cases m with
    | scalar hm t =>
      simp only [setFlat] at h
      split at h
      · cases h
      · cases h; simp
    | _ => simp [setFlat] at h

theorem joined_simulates (c : JoinedCfg) (s : PStr) (st : ScalarState) :
    (∃ ms b, joinedSet c [] (.str s) = (ms, .ok b) ∧ scalarSet (joinedType c) st (.str s) = (⟨.str s, joinedText c ms, some (.str s)⟩, .ok true)) ∨
    (∃ ms er, joinedSet c [] (.str s) = (ms, .error er) ∧ (scalarSet (joinedType c) st (.str s)).2 = .error er) := by
  rcases h : joinedSet c [] (.str s) with ⟨ms, er | b⟩
  · exact .inr ⟨ms, er, rfl, by simp [scalarSet, joinedType, h]⟩
  · exact .inl ⟨ms, b, rfl, by simp [scalarSet, joinedType, h]⟩

mutual
/-- `set_flat` of a new element does what it does for the plain schema -/
theorem rSetFlat_lift (sep : PStr) : ∀ (s : RSchema) (ps : List FPair),
    rSetFlat sep s (rFresh s) ps = (setFlat sep (plainS s) (fresh (plainS s)) ps).map (lift s)
  | .plain s, ps => by
    simp only [rSetFlat, plainS, rFresh, RElem.asPlain]
    cases h : setFlat sep s (fresh s) ps with
    | error er => rfl
    | ok e' =>
      have := setFlat_ne_absent h
      simp only [Except.map, Except.ok.injEq]
      cases e' <;> simp_all [lift]
  | .joined h c m, ps => by
    simp only [rSetFlat, plainS, rFresh, RElem.members, rJoinedSetFlat, setFlat, scalarSetFlat, fresh, Elem.state]
    cases hf : ps.find? fun p => p.1 == h.name with
    | none => simp [Except.map, lift, Elem.state]
    | some p =>
      simp only
      rcases joined_simulates c p.2 { ScalarState.fresh with raw := none } with ⟨ms, b, h1, h2⟩ | ⟨ms, er, h1, h2⟩
      · rw [h1, h2]
        simp [Except.map, lift, Elem.state, h1]
      · rw [h1]
        rcases hs : scalarSet (joinedType c) { ScalarState.fresh with raw := none } (.str p.2) with ⟨st, r⟩
        rw [hs] at h2
        simp only at h2
        rw [h2]
        rfl
  | .compound h compose fs, ps => by
    simp only [rSetFlat, plainS, rFresh, RElem.fields]
    have e : fresh (.dict h .full .subset fs) = .dict h.name (freshFields .full fs) := by simp [fresh]
    rw [← e]
    cases hs : setFlat sep (.dict h .full .subset fs) (fresh (.dict h .full .subset fs)) ps with
    | error er => rfl
    | ok e' =>
      have := setFlat_ne_absent hs
      simp only [Except.map, Except.ok.injEq]
      cases e' <;> simp_all [lift]
  | .dict h mode po fs, ps => by
    simp only [rSetFlat, plainS, setFlat, rFresh, fresh, RElem.kids, Elem.kids]
    cases dictPossibles sep h.name ps with
    | error er => rfl
    | ok poss =>
      simp only
      by_cases he : poss.isEmpty = true
      · rw [if_pos he, if_pos he]
        simp [Except.map, lift, Elem.kids, lift_freshFields]
      · rw [if_neg he, if_neg he]
        rw [← lift_freshFields, rSetFlatFields_lift sep fs _ poss (allNew_freshFields mode _)]
        cases setFlatFields sep (plainAll fs) (freshFields mode (plainAll fs)) poss with
        | error er => rfl
        | ok ks => simp [Except.map, lift, Elem.kids]
  | .list h prune max m, ps => by
    simp only [rSetFlat, plainS, setFlat]
    cases listMatches sep h.name prune ps with
    | error er => rfl
    | ok ms =>
      simp only
      have : ∀ i : Nat, (if (subPairs ms i).isEmpty then Except.ok (rFresh m) else rSetFlat sep m (rFresh m) (subPairs ms i)) =
          (if (subPairs ms i).isEmpty then Except.ok (fresh (plainS m)) else setFlat sep (plainS m) (fresh (plainS m)) (subPairs ms i)).map (lift m) := by
        intro i
        split
        · simp [Except.map, lift_fresh]
        · exact rSetFlat_lift sep m _
      simp only [this, mapM_lift]
      cases (List.mapM (m := Except PyErr) _ _) with
      | error er => rfl
      | ok ks => simp [Except.map, lift, Elem.kids]
theorem rSetFlatFields_lift (sep : PStr) : ∀ (fs : List RSchema) (ks : List Elem) (ps : List FPair), AllNew (plainAll fs) ks →
    rSetFlatFields sep fs (liftAll fs ks) ps = (setFlatFields sep (plainAll fs) ks ps).map (liftAll fs)
  | [], ks, ps, _ => by simp [rSetFlatFields, plainAll, setFlatFields, Except.map, liftAll]
  | f :: fs, ks, ps, hn => by
    simp only [plainAll, AllNew] at hn
    simp only [rSetFlatFields, plainAll, setFlatFields, plainS_name]
    have hhead : (liftAll (f :: fs) ks).headD (.plain .absent) = lift f (ks.headD .absent) := by
      cases ks with
      | nil => simp [liftAll, lift_absent]
      | cons k ks => simp [liftAll]
    have htail : rSetFlatFields sep fs (liftAll (f :: fs) ks).tail ps = (setFlatFields sep (plainAll fs) ks.tail ps).map (liftAll fs) := by
      cases ks with
      | nil =>
        have e : ([] : List RElem) = liftAll fs [] := by cases fs <;> simp [liftAll]
        simp only [liftAll, List.tail_nil] 
        rw [e]
        exact rSetFlatFields_lift sep fs [] ps hn.2
      | cons k ks =>
        simp only [liftAll, List.tail_cons]
        exact rSetFlatFields_lift sep fs ks ps hn.2
    rw [hhead, htail]
    cases accumField f.name ps with
    | error er => rfl
    | ok acc =>
      simp only
      have : (if acc.isEmpty then Except.ok (lift f (ks.headD .absent)) else rSetFlat sep f (rOrFresh f (lift f (ks.headD .absent))) acc) =
          (if acc.isEmpty then Except.ok (ks.headD .absent) else setFlat sep (plainS f) (orFresh (plainS f) (ks.headD .absent)) acc).map (lift f) := by
        split
        · rfl
        · rw [rOrFresh_lift hn.1, orFresh_newOrAbsent hn.1]
          exact rSetFlat_lift sep f acc
      rw [this]
      generalize (if acc.isEmpty then Except.ok (ks.headD .absent) else setFlat sep (plainS f) (orFresh (plainS f) (ks.headD .absent)) acc) = r
      cases r with
      | error er => rfl
      | ok k =>
        simp only [Except.map]
        cases setFlatFields sep (plainAll fs) ks.tail ps with
        | error er => rfl
        | ok rest => simp [liftAll]
end

/-! ### the plain element behind an element -/

omit [Runtime] in
mutual
/-- the element with JoinedStrings replaced by scalars of their text and Compounds by Dicts -/
def dropR : RElem → Elem
  | .plain e => e
  | .joined n c _ ms => .scalar n ⟨.none, joinedText c ms, none⟩
  | .compound n _ ks => .dict n ks
  | .dict n ks => .dict n (dropAll ks)
  | .list n ks => .list n (dropAll ks)
/-- see `dropR` -/
def dropAll : List RElem → List Elem
  | [] => []
  | k :: ks => dropR k :: dropAll ks
end

omit [Runtime] in
theorem dropAll_eq (ks : List RElem) : dropAll ks = ks.map dropR := by
  induction ks with
  | nil => rfl
  | cons k ks ih => simp [dropAll, ih]

theorem plainAll_eq (fs : List RSchema) : plainAll fs = fs.map plainS := by
  induction fs with
  | nil => rfl
  | cons k ks ih => simp [plainAll, ih]

omit [Runtime] in
theorem dropR_name (e : RElem) : (dropR e).name = e.name := by
  cases e <;> simp [dropR, RElem.name, Elem.name]

omit [Runtime] in
theorem dropR_present (e : RElem) : (dropR e).present = e.present := by
  cases e <;> simp [dropR, RElem.present, Elem.present]

mutual
theorem conforms_drop : ∀ (s : RSchema) (e : RElem), RConforms s e → Conforms (plainS s) (dropR e)
  | .plain s, .plain e, h => by simpa [RConforms, plainS, dropR] using h
  | .joined hd c m, .joined n c' m' ms, h => by simp only [RConforms] at h; simp [plainS, dropR, Conforms, h.1]
  | .compound hd co fs, .compound n co' ks, h => by
    simp only [RConforms] at h
    simp only [plainS, dropR, Conforms]; exact ⟨h.1, h.2.2⟩
  | .dict hd mode po fs, .dict n ks, h => by
    simp only [RConforms] at h
    simp only [plainS, dropR, Conforms]; exact ⟨h.1, conformsAll_drop mode fs ks h.2⟩
  | .list hd prune max m, .list n ks, h => by
    simp only [RConforms] at h
    simp only [plainS, dropR, Conforms, dropAll_eq]
    refine ⟨h.1, ?_⟩
    intro k hk
    obtain ⟨k', hk', rfl⟩ := List.mem_map.1 hk
    exact conforms_drop m k' (h.2 k' hk')
  | .plain _, .joined .., h | .plain _, .compound .., h | .plain _, .dict .., h | .plain _, .list .., h => by simp [RConforms] at h
  | .joined .., .plain _, h | .joined .., .compound .., h | .joined .., .dict .., h | .joined .., .list .., h => by simp [RConforms] at h
  | .compound .., .plain _, h | .compound .., .joined .., h | .compound .., .dict .., h | .compound .., .list .., h => by simp [RConforms] at h
  | .dict .., .plain _, h | .dict .., .joined .., h | .dict .., .compound .., h | .dict .., .list .., h => by simp [RConforms] at h
  | .list .., .plain _, h | .list .., .joined .., h | .list .., .compound .., h | .list .., .dict .., h => by simp [RConforms] at h
theorem conformsAll_drop (mode : DictMode) : ∀ (fs : List RSchema) (ks : List RElem), RConformsAll mode fs ks → ConformsAll mode (plainAll fs) (dropAll ks)
  | [], [], _ => by simp [plainAll, dropAll, ConformsAll]
  | f :: fs, k :: ks, h => by
    simp only [RConformsAll] at h
    simp only [plainAll, dropAll, ConformsAll]
    refine ⟨?_, conformsAll_drop mode fs ks h.2⟩
    rcases h.1 with ⟨h1, h2⟩ | h1
    · exact .inl ⟨by rw [h1, dropR], by rw [autoField_plainS]; exact h2⟩
    · exact .inr (conforms_drop f k h1)
  | [], _ :: _, h | _ :: _, [], h => by simp [RConformsAll] at h
end

theorem spreads_isContainer {s : RSchema} (h : isContainer (plainS s) = true) : spreads s = true := by
  cases s <;> simp_all [plainS, isContainer, spreads]

theorem compatible_plain {sep : PStr} {mode : DictMode} {f g : RSchema} (h : RCompatible sep mode f g) : Compatible sep mode (plainS f) (plainS g) := by
  intro fn gn hf hg
  rw [plainS_name] at hf hg
  obtain ⟨h1, h2, h3, h4⟩ := h fn gn hf hg
  exact ⟨h1, fun hc => h2 (spreads_isContainer hc), fun hc => h3 (spreads_isContainer hc), h4⟩

mutual
theorem wellNamed_plain {sep : PStr} : ∀ (s : RSchema), RWellNamed sep s → WellNamed sep (plainS s)
  | .plain s, h => by simpa [RWellNamed, plainS] using h
  | .joined hd c m, h => by simp only [RWellNamed] at h; simpa [plainS, WellNamed] using h.1
  | .compound hd co fs, h => by simp only [RWellNamed] at h; simpa [plainS, WellNamed] using h
  | .dict hd mode po fs, h => by
    simp only [RWellNamed] at h
    simp only [plainS, WellNamed]
    refine ⟨h.1, ?_, ?_, wellNamedAll_plain fs h.2.2.2⟩
    · intro f hf
      rw [plainAll_eq] at hf
      obtain ⟨f', hf', rfl⟩ := List.mem_map.1 hf
      rw [plainS_name]; exact h.2.1 f' hf'
    · rw [plainAll_eq, List.pairwise_map]
      exact h.2.2.1.imp compatible_plain
  | .list hd prune max m, h => by
    simp only [RWellNamed] at h
    simp only [plainS, WellNamed]
    exact ⟨h.1, wellNamed_plain m h.2.1⟩
theorem wellNamedAll_plain {sep : PStr} : ∀ (fs : List RSchema), RWellNamedAll sep fs → WellNamedAll sep (plainAll fs)
  | [], _ => by simp [plainAll, WellNamedAll]
  | f :: fs, h => by
    simp only [RWellNamedAll] at h
    simp only [plainAll, WellNamedAll]
    exact ⟨wellNamed_plain f h.1, wellNamedAll_plain fs h.2⟩
end

theorem keyed_plain {s : RSchema} (h : RKeyed s) : Keyed (plainS s) := by
  cases s <;> simp_all [RKeyed, plainS, Keyed]

omit [Runtime] in
mutual
theorem leavesKids_text (ks : List Elem) : ∀ (i j : Nat), (leavesKids i ks).map (fun l => l.st.u) = (leavesKids j ks).map (fun l => l.st.u) := by
  induction ks with
  | nil => intro i j; rfl
  | cons k ks ih =>
    intro i j
    simp only [leavesKids, List.map_append, List.map_map, Function.comp_def]
    rw [ih (i + 1) (j + 1)]
theorem leavesSlots_text (ks : List Elem) : ∀ (i j : Nat), (leavesSlots i ks).map (fun l => l.st.u) = (leavesKids j ks).map (fun l => l.st.u) := by
  induction ks with
  | nil => intro i j; rfl
  | cons k ks ih =>
    intro i j
    simp only [leavesKids, leavesSlots, List.map_append, List.map_map, Function.comp_def]
    rw [ih (i + 1) (j + 1)]
end

omit [Runtime] in
mutual
theorem rTexts_drop : ∀ (e : RElem), rTexts e = (leaves (dropR e)).map fun l => l.st.u
  | .plain e => by simp [rTexts, dropR]
  | .joined n c m ms => by simp [rTexts, dropR, leaves]
  | .compound n co ks => by simp [rTexts, dropR, leaves, Function.comp_def]
  | .dict n ks => by
    simp only [rTexts, dropR, leaves, List.map_map, Function.comp_def]
    rw [rTextsAll_drop ks]
  | .list n ks => by
    simp only [rTexts, dropR, leaves, List.map_map, Function.comp_def]
    rw [rTextsAll_drop ks, leavesSlots_text _ 0 0]
theorem rTextsAll_drop : ∀ (ks : List RElem), rTextsAll ks = (leavesKids 0 (dropAll ks)).map fun l => l.st.u
  | [] => by simp [rTextsAll, dropAll, leavesKids]
  | k :: ks => by
    simp only [rTextsAll, dropAll, leavesKids, List.map_append, List.map_map, Function.comp_def]
    rw [rTexts_drop k, rTextsAll_drop ks, leavesKids_text _ 0 1]
end

omit [Runtime] in
theorem survives_drop {p : Bool} {e : RElem} (h : Survives p e) : ∃ l ∈ leaves (dropR e), dropped p l = false := by
  obtain ⟨t, ht, hd⟩ := h
  rw [rTexts_drop] at ht
  obtain ⟨l, hl, rfl⟩ := List.mem_map.1 ht
  exact ⟨l, hl, hd⟩

mutual
theorem carried_drop : ∀ (s : RSchema) (p : Bool) (e : RElem), RConforms s e → RCarried p s e → Carried p (plainS s) (dropR e)
  | .plain s, p, .plain e, _, h => by simpa [RCarried, plainS, dropR] using h
  | .joined hd c m, p, .joined n c' m' ms, hc, h => by
    simp only [RConforms] at hc
    obtain ⟨rfl, rfl, rfl⟩ := hc
    simp only [RCarried] at h
    simp only [plainS, dropR, Carried]
    obtain ⟨b, hb⟩ := h
    rcases joined_simulates c' (joinedText c' ms) .fresh with ⟨ms', b', h1, h2⟩ | ⟨ms', er, h1, h2⟩
    · exact ⟨true, by rw [h2]⟩
    · rw [h1] at hb; cases hb
  | .compound hd co fs, p, .compound n co' ks, _, h => by simpa [RCarried, plainS, dropR, Carried] using h
  | .dict hd mode po fs, p, .dict n ks, hc, h => by
    simp only [RConforms] at hc
    simp only [RCarried] at h
    simp only [plainS, dropR, Carried]
    exact carriedAll_drop fs p mode ks hc.2 h
  | .list hd prune max m, p, .list n ks, hc, h => by
    simp only [RConforms] at hc
    simp only [RCarried] at h
    simp only [plainS, dropR, Carried, dropAll_eq, List.length_map]
    refine ⟨h.1, ?_⟩
    intro k hk
    obtain ⟨k', hk', rfl⟩ := List.mem_map.1 hk
    exact ⟨carried_drop m _ k' (hc.2 k' hk') (h.2 k' hk').1, survives_drop (h.2 k' hk').2⟩
  | .plain _, _, .joined .., h, _ | .plain _, _, .compound .., h, _ | .plain _, _, .dict .., h, _ | .plain _, _, .list .., h, _ => by simp [RConforms] at h
  | .joined .., _, .plain _, h, _ | .joined .., _, .compound .., h, _ | .joined .., _, .dict .., h, _ | .joined .., _, .list .., h, _ => by simp [RConforms] at h
  | .compound .., _, .plain _, h, _ | .compound .., _, .joined .., h, _ | .compound .., _, .dict .., h, _ | .compound .., _, .list .., h, _ => by simp [RConforms] at h
  | .dict .., _, .plain _, h, _ | .dict .., _, .joined .., h, _ | .dict .., _, .compound .., h, _ | .dict .., _, .list .., h, _ => by simp [RConforms] at h
  | .list .., _, .plain _, h, _ | .list .., _, .joined .., h, _ | .list .., _, .compound .., h, _ | .list .., _, .dict .., h, _ => by simp [RConforms] at h
theorem carriedAll_drop : ∀ (fs : List RSchema) (p : Bool) (mode : DictMode) (ks : List RElem), RConformsAll mode fs ks → RCarriedAll p mode fs ks →
    CarriedAll p mode (plainAll fs) (dropAll ks)
  | [], _, _, [], _, _ => by simp [plainAll, dropAll, CarriedAll]
  | f :: fs, p, mode, k :: ks, hc, h => by
    simp only [RConformsAll] at hc
    simp only [RCarriedAll] at h
    simp only [plainAll, dropAll, CarriedAll]
    refine ⟨?_, ?_, carriedAll_drop fs p mode ks hc.2 h.2.2⟩
    · rcases hc.1 with ⟨rfl, _⟩ | h1
      · simp only [dropR]; cases plainS f <;> simp [Carried]
      · exact carried_drop f p k h1 h.1
    · intro hp ha
      rw [dropR_present] at hp
      rw [autoField_plainS] at ha
      exact survives_drop (h.2.1 hp ha)
  | [], _, _, _ :: _, h, _ | _ :: _, _, _, [], h, _ => by simp [RConformsAll] at h
end

theorem scalarSet_raw_some (t : ScalarType) (st : ScalarState) (v : PyVal) : (scalarSet t st v).1.raw = some v := by
  unfold scalarSet
  repeat' split
  all_goals rfl

mutual
theorem lift_restored : ∀ (s : RSchema) (p : Bool) (e : RElem), RConforms s e → lift s (restored p (plainS s) (dropR e)) = rRestored p s e
  | .plain s, p, .plain e, h => by
    simp only [RConforms] at h
    simp only [plainS, dropR, rRestored]
    cases s <;> cases e <;> simp [Conforms] at h <;> simp [restored, lift]
  | .joined hd c m, p, .joined n c' m' ms, h => by
    simp only [RConforms] at h
    obtain ⟨rfl, rfl, rfl⟩ := h
    simp only [plainS, dropR, restored, lift, rRestored, Elem.state]
    by_cases hb : (p && joinedText c' ms == []) = true
    · rw [if_pos hb, if_pos hb]; rfl
    · rw [if_neg hb, if_neg hb, scalarSet_raw_some]
  | .compound hd co fs, p, .compound n co' ks, h => by
    simp only [RConforms] at h
    obtain ⟨rfl, rfl, _⟩ := h
    simp [plainS, dropR, restored, lift, rRestored, Elem.kids]
  | .dict hd mode po fs, p, .dict n ks, h => by
    simp only [RConforms] at h
    simp only [plainS, dropR, restored, lift, rRestored, Elem.kids]
    rw [h.1, liftAll_restored fs p mode ks h.2]
  | .list hd prune max m, p, .list n ks, h => by
    simp only [RConforms] at h
    simp only [plainS, dropR, restored, lift, rRestored, Elem.kids, dropAll_eq, List.map_map]
    rw [h.1]
    congr 1
    apply List.map_congr_left
    intro k hk
    exact lift_restored m _ k (h.2 k hk)
  | .plain _, _, .joined .., h | .plain _, _, .compound .., h | .plain _, _, .dict .., h | .plain _, _, .list .., h => by simp [RConforms] at h
  | .joined .., _, .plain _, h | .joined .., _, .compound .., h | .joined .., _, .dict .., h | .joined .., _, .list .., h => by simp [RConforms] at h
  | .compound .., _, .plain _, h | .compound .., _, .joined .., h | .compound .., _, .dict .., h | .compound .., _, .list .., h => by simp [RConforms] at h
  | .dict .., _, .plain _, h | .dict .., _, .joined .., h | .dict .., _, .compound .., h | .dict .., _, .list .., h => by simp [RConforms] at h
  | .list .., _, .plain _, h | .list .., _, .joined .., h | .list .., _, .compound .., h | .list .., _, .dict .., h => by simp [RConforms] at h
theorem liftAll_restored : ∀ (fs : List RSchema) (p : Bool) (mode : DictMode) (ks : List RElem), RConformsAll mode fs ks →
    liftAll fs (restoredAll p (plainAll fs) (dropAll ks)) = rRestoredAll p fs ks
  | [], _, _, [], _ => by simp [plainAll, dropAll, restoredAll, liftAll, rRestoredAll]
  | f :: fs, p, mode, k :: ks, h => by
    simp only [RConformsAll] at h
    simp only [plainAll, dropAll, restoredAll, liftAll, rRestoredAll]
    rw [liftAll_restored fs p mode ks h.2]
    congr 1
    rcases h.1 with ⟨rfl, _⟩ | h1
    · simp only [dropR]
      have e : restored p (plainS f) .absent = .absent := by cases plainS f <;> simp [restored]
      rw [e, lift_absent]
      cases f with
      | plain s => cases s <;> simp [rRestored, restored]
      | _ => simp [rRestored]
    · exact lift_restored f p k h1
  | [], _, _, _ :: _, h | _ :: _, _, _, [], h => by simp [RConformsAll] at h
end

end

end Flatland
