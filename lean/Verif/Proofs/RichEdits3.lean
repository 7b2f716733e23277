import Verif.Proofs.RichEdits2
import Verif.Proofs.Records
/-! Helper lemmas for C95: `set_default` and `set_flat` in the descriptions of Model/RichValues.lean and Model/RichTree.lean. -/
namespace Flatland
open Flatland.Spec

section
variable [Runtime]

/-! ### set_default -/

/-- the outcome of a call, the element as Model/RichValues.lean has it -/
def richAfter (s : VSchema) (r : Ended Elem Unit) : Except PyErr VElem := r.2.map fun _ => asRich s r.1

theorem joinedExtend_run (c : JoinedCfg) : ∀ vs : List PyVal,
    ((extendRun (setRun (joinedMember c) (fresh (joinedMember c))) vs).2.map fun _ =>
      (extendRun (setRun (joinedMember c) (fresh (joinedMember c))) vs).1.map Elem.state) = joinedExtend c vs
  | [] => rfl
  | v :: vs => by
    unfold extendRun joinedExtend
    rw [← joinedExtend_run c vs]
    simp only [joinedMember, setRun, fresh, Elem.state]
    generalize scalarSet c.member .fresh v = r
    obtain ⟨st, x | x⟩ := r
    · rfl
    · simp only
      generalize extendRun _ vs = r
      obtain ⟨a, y | y⟩ := r <;> rfl

theorem dateKidDefaults_run : ∀ (fs : List (Hdr × ScalarType)) (sts : List ScalarState), sts.length = fs.length →
    ((defaultKidsRun (fs.map fun f => .scalar f.1 f.2) (partElems fs sts)).2.map fun _ =>
      (defaultKidsRun (fs.map fun f => .scalar f.1 f.2) (partElems fs sts)).1.map Elem.state) = dateKidDefaults fs sts
  | [], [], _ => rfl
  | [], _ :: _, h => by simp at h
  | _ :: _, [], h => by simp at h
  | (h, t) :: fs, st :: sts, hl => by
    have ih := dateKidDefaults_run fs sts (by simpa using hl)
    rw [List.map_cons, partElems, defaultKidsRun, dateKidDefaults, setDefaultRun]
    cases h.dflt with
    | none =>
      simp only
      rw [← ih]
      generalize defaultKidsRun _ (partElems fs sts) = r
      obtain ⟨a, y | y⟩ := r <;> rfl
    | some d =>
      simp only [Elem.state]
      rw [← ih]
      generalize scalarSet t st d = q
      obtain ⟨st', x | x⟩ := q
      · rfl
      · simp only [Except.map]
        generalize defaultKidsRun _ (partElems fs sts) = r
        obtain ⟨a, y | y⟩ := r <;> rfl

omit [Runtime] in
theorem repeatRun_rich (m : VSchema) (r : Ended Elem Unit) : ∀ n : Nat,
    ((repeatRun r n).2.map fun _ => (repeatRun r n).1.map (asRich m)) = repeatMember (richAfter m r) n
  | 0 => rfl
  | n + 1 => by
    have ih := repeatRun_rich m r n
    unfold repeatRun repeatMember
    rw [← ih]
    obtain ⟨a, x | x⟩ := r
    · rfl
    · simp only [richAfter, Except.map]
      generalize repeatRun _ n = q
      obtain ⟨b, y | y⟩ := q <;> rfl

theorem extendRun_rich (m : VSchema) (run : PyVal → Ended Elem Bool) : ∀ vs : List PyVal, (∀ v ∈ vs, richOutcome m (run v) = vSet m v) →
    ((extendRun run vs).2.map fun _ => (extendRun run vs).1.map (asRich m)) = (memberSetLoop (vSet m) vs).map fun r => r.1
  | [], _ => rfl
  | v :: vs, h => by
    have ih := extendRun_rich m run vs fun w hw => h w (by simp [hw])
    unfold extendRun memberSetLoop
    rw [← h v (by simp)]
    generalize run v = r
    obtain ⟨a, x | x⟩ := r
    · rfl
    · simp only [richOutcome, Except.map] at ih ⊢
      revert ih
      generalize extendRun run vs = q
      obtain ⟨b, y | y⟩ := q <;> cases memberSetLoop (vSet m) vs <;> simp

omit [Runtime] in
theorem forget_rich (s : VSchema) (r : Ended Elem Bool) : richAfter s (forget r) = dropResult (richOutcome s r) := by
  obtain ⟨a, x | x⟩ := r <;> rfl

mutual
theorem richDefault_rich : ∀ (s : VSchema) (_ : NamedParts s) (_ : DefaultsNameOnce s) (e : Elem), IsOf s e →
    richAfter s (richDefault s e) = vSetDefault s (asRich s e)
  | .plain s, _, _, e, hc => by
    unfold richDefault vSetDefault richAfter
    rw [IsOf] at hc
    simp only [asRich]
    rw [VElem.asPlain, ← setDefaultRun_outcome s e hc]
    generalize setDefaultRun s e = r
    obtain ⟨a, x | x⟩ := r <;> rfl
  | .joined h c, _, _, e, hc => by
    cases e <;> simp only [IsOf] at hc
    rename_i n ks
    rw [richDefault, setDefaultRun, vSetDefault]
    have hsome : ∀ d, h.dflt = some d → richAfter (.joined h c) (match pyIter d with
          | .error er => (.array h.name [], .error er)
          | .ok vs => let r := extendRun (setRun (joinedMember c) (fresh (joinedMember c))) vs; (.array h.name r.1, r.2)) =
        (match pyIter d with
          | .error er => .error er
          | .ok vs => (joinedExtend c vs).map fun ms => .joined h.name c ms) := by
      intro d _
      cases pyIter d with
      | error er => rfl
      | ok vs =>
        simp only
        rw [← joinedExtend_run]
        generalize extendRun _ _ = r
        obtain ⟨a, x | x⟩ := r <;> rfl
    rcases hd : h.dflt with _ | d
    · rfl
    · cases d
      case none => rfl
      all_goals exact hsome _ hd
  | .date h st fs, _, _, e, hc => by
    obtain ⟨sts, h1, h2, h3⟩ := date_kids ((isOf_proper _ _).1 hc)
    have h4 : asRich (.date h st fs) e = .date h.name st sts := by rw [h2, dateElem, asRich, partElems_states fs sts h1]
    have h5 : e.kids = partElems fs sts := by rw [h2]; rfl
    rw [richDefault, vSetDefault, h4, h3, h5]
    have hnone : richAfter (.date h st fs)
        (let r := defaultKidsRun (fs.map fun f => .scalar f.1 f.2) (partElems fs sts); (.dict h.name r.1, r.2)) =
        (dateKidDefaults fs (VElem.date h.name st sts).parts).map fun sts => .date h.name st sts := by
      rw [VElem.parts, ← dateKidDefaults_run fs sts h1]
      generalize defaultKidsRun _ (partElems fs sts) = r
      obtain ⟨a, x | x⟩ := r <;> rfl
    have hset : ∀ d, richAfter (.date h st fs)
        (let r := dateSet st (fs.map Prod.snd) sts d; (dateElem h fs r.1, r.2.map fun _ => ())) =
        match dateSet st (fs.map Prod.snd) (VElem.date h.name st sts).parts d with
        | (_, .error er) => .error er
        | (sts, .ok _) => .ok (.date h.name st sts) := by
      intro d
      rw [VElem.parts]
      have hl := dateSet_len st (fs.map Prod.snd) sts d
      revert hl
      generalize dateSet st (fs.map Prod.snd) sts d = r
      obtain ⟨a, x | x⟩ := r
      · intro _; rfl
      · intro hl
        simp only [richAfter, Except.map, dateElem, asRich]
        rw [partElems_states fs a (hl.trans h1)]
    rcases hd : h.dflt with _ | d
    · exact hnone
    · cases d
      case none => exact hnone
      all_goals exact hset _
  | .dict h mode pol fs, hn, hd, e, hc => by
    cases e <;> simp only [IsOf] at hc
    rename_i n ks
    rw [DefaultsNameOnce] at hd
    have hn' := hn
    rw [NamedParts] at hn'
    unfold richDefault vSetDefault
    have hset : ∀ d, h.dflt = some d → richAfter (.dict h mode pol fs) (forget (richSet (.dict h mode pol fs) (.dict n ks) d)) =
        dropResult (vSet (.dict h mode pol fs) d) := by
      intro d hdd
      rw [forget_rich, richSet_indep _ id _ (fresh (under (.dict h mode pol fs))), richSet_new _ hn d (hd.1 d hdd)]
    have hnone : richAfter (.dict h mode pol fs) (match (generalizing := false) mode with
          | .full => let r := richDefaultKids fs (Elem.dict n ks).kids; (.dict h.name r.1, r.2)
          | .sparse => (.dict h.name (freshFields .sparse (unders fs)), .ok ())
          | .sparseRequired => let r := richDefaultRequired fs; (.dict h.name r.1, r.2)) =
        (match (generalizing := false) mode with
          | .full => (vDefaultKids fs (asRich (.dict h mode pol fs) (.dict n ks)).kids).map fun ks => .dict h.name ks
          | .sparse => .ok (.dict h.name (vFreshFields .sparse fs))
          | .sparseRequired => (vDefaultRequired fs).map fun ks => .dict h.name ks) := by
      cases mode with
      | full =>
        simp only [asRich, VElem.kids, Elem.kids]
        rw [← richDefaultKids_rich fs hn'.2.2 hd.2 ks hc.2]
        generalize richDefaultKids fs ks = r
        obtain ⟨a, x | x⟩ := r <;> simp [richAfter, asRich, Except.map]
      | sparse =>
        simp only [richAfter, Except.map, asRich]
        rw [asRichAll_fresh]
      | sparseRequired =>
        simp only
        rw [← richDefaultRequired_rich fs hn'.2.2 hd.2]
        generalize richDefaultRequired fs = r
        obtain ⟨a, x | x⟩ := r <;> simp [richAfter, asRich, Except.map]
    rcases hdd : h.dflt with _ | d
    · exact hnone
    · cases d
      case none => exact hnone
      all_goals exact hset _ hdd
  | .list h prune max m, hn, hd, e, hc => by
    cases e <;> simp only [IsOf] at hc
    rename_i n ks
    rw [DefaultsNameOnce] at hd
    have hn' := hn
    rw [NamedParts] at hn'
    rw [richDefault, vSetDefault]
    have hfresh : IsOf m (fresh (under m)) := (isOf_proper _ _).2 (fresh_conforms (under m))
    have hsome : ∀ d, h.dflt = some d → richAfter (.list h prune max m) (match defaultCount d with
          | some n => let r := repeatRun (richDefault m (fresh (under m))) n; (.list h.name r.1, r.2)
          | .none => forget (richSet (.list h prune max m) (.list h.name []) d)) =
        (match defaultCount d with
          | some n => (repeatMember (vSetDefault m (vFresh m)) n).map fun ks => .list h.name ks
          | .none => dropResult (vSet (.list h prune max m) d)) := by
      intro d hdd
      cases defaultCount d with
      | none =>
        simp only
        rw [forget_rich, richSet_indep _ id _ (fresh (under (.list h prune max m))), richSet_new _ hn d (hd.1 d hdd)]
      | some k =>
        simp only
        rw [← asRich_fresh, ← richDefault_rich m hn' hd.2 _ hfresh, ← repeatRun_rich]
        generalize repeatRun _ k = r
        obtain ⟨a, x | x⟩ := r <;> simp [richAfter, asRich, Except.map]
    rcases hdd : h.dflt with _ | d
    · rfl
    · cases d
      case none => rfl
      all_goals exact hsome _ hdd
  | .array h prune m, hn, hd, e, hc => by
    cases e <;> simp only [IsOf] at hc
    rename_i n ks
    rw [DefaultsNameOnce] at hd
    have hn' := hn
    rw [NamedParts] at hn'
    rw [richDefault, vSetDefault]
    have hsome : ∀ d, h.dflt = some d → richAfter (.array h prune m) (match pyIter d with
          | .error er => (.array h.name [], .error er)
          | .ok vs => let r := extendRun (richSet m (fresh (under m))) vs; (.array h.name r.1, r.2)) =
        (match pyIter d with
          | .error er => .error er
          | .ok vs => (memberSetLoop (vSet m) vs).map fun r => .array h.name r.1) := by
      intro d hdd
      have ho := hd d hdd
      rw [NamesOnce] at ho
      rw [pyIter_items]
      cases hv : itemsOf d with
      | none => rfl
      | some vs =>
        simp only
        have := extendRun_rich m (richSet m (fresh (under m))) vs (fun w hw => richSet_new m hn' w (ho vs hv w hw))
        revert this
        generalize extendRun (richSet m (fresh (under m))) vs = r
        obtain ⟨a, x | x⟩ := r <;> cases memberSetLoop (vSet m) vs <;> simp [richAfter, asRich, Except.map]
    rcases hdd : h.dflt with _ | d
    · rfl
    · cases d
      case none => rfl
      all_goals exact hsome _ hdd
theorem richDefaultKids_rich : ∀ (fs : List VSchema) (_ : NamedPartsAll fs) (_ : DefaultsNameOnceAll fs) (ks : List Elem), IsOfAll .full fs ks →
    ((richDefaultKids fs ks).2.map fun _ => asRichAll fs (richDefaultKids fs ks).1) = vDefaultKids fs (asRichAll fs ks)
  | [], _, _, [], _ => rfl
  | [], _, _, _ :: _, h => by simp [IsOfAll] at h
  | _ :: _, _, _, [], h => by simp [IsOfAll] at h
  | f :: fs, hn, hd, k :: ks, hc => by
    rw [NamedPartsAll] at hn
    rw [DefaultsNameOnceAll] at hd
    rw [IsOfAll] at hc
    have hk : IsOf f k := by
      rcases hc.1 with ⟨_, h⟩ | h
      · rcases h with h | h
        · cases h
        · cases h.1
      · exact h
    rw [asRichAll, richDefaultKids, vDefaultKids, ← richDefaultKids_rich fs hn.2 hd.2 ks hc.2, ← richDefault_rich f hn.1 hd.1 k hk]
    generalize richDefault f k = q
    obtain ⟨b, y | y⟩ := q
    · rfl
    · simp only [richAfter, Except.map]
      generalize richDefaultKids fs ks = r
      obtain ⟨a, x | x⟩ := r <;> simp [asRichAll]
theorem richDefaultRequired_rich : ∀ (fs : List VSchema) (_ : NamedPartsAll fs) (_ : DefaultsNameOnceAll fs),
    ((richDefaultRequired fs).2.map fun _ => asRichAll fs (richDefaultRequired fs).1) = vDefaultRequired fs
  | [], _, _ => rfl
  | f :: fs, hn, hd => by
    rw [NamedPartsAll] at hn
    rw [DefaultsNameOnceAll] at hd
    rw [richDefaultRequired, vDefaultRequired, ← richDefaultRequired_rich fs hn.2 hd.2]
    by_cases ho : f.hdr.optional = true
    · rw [if_pos ho, if_pos ho]
      simp only
      generalize richDefaultRequired fs = r
      obtain ⟨a, x | x⟩ := r <;> simp [asRichAll, Except.map, asRich_absent]
    · rw [if_neg ho, if_neg ho, ← asRich_fresh, ← richDefault_rich f hn.1 hd.1 _ ((isOf_proper _ _).2 (fresh_conforms (under f)))]
      generalize richDefault f (fresh (under f)) = q
      obtain ⟨b, y | y⟩ := q
      · rfl
      · simp only [richAfter, Except.map]
        generalize richDefaultRequired fs = r
        obtain ⟨a, x | x⟩ := r <;> simp [asRichAll]
end

/-! ### set_flat -/

/-- the element as Model/RichTree.lean has it -/
def asPage (mn : Option PStr) (s : VSchema) (e : Elem) : RElem := pageForm mn s (asRich s e)

/-- the outcome of a call, the element as Model/RichTree.lean has it -/
def pageAfter (mn : Option PStr) (s : VSchema) (r : Ended Elem Unit) : Except PyErr RElem := r.2.map fun _ => asPage mn s r.1

theorem asPage_absent (mn : Option PStr) (s : VSchema) : asPage mn s .absent = .plain .absent := by
  rw [asPage, asRich_absent, pageForm_absent]

theorem asPage_date (mn : Option PStr) (h : Hdr) (st : Bool) (fs : List (Hdr × ScalarType)) (sts : List ScalarState) (hl : sts.length = fs.length) :
    asPage mn (.date h st fs) (dateElem h fs sts) = .compound h.name (dateShown st) (partElems fs sts) := by
  rw [asPage, dateElem, asRich, pageForm, partElems_states fs sts hl, partElems_zip]

theorem asPage_present (mn : Option PStr) {s : VSchema} {e : Elem} (ha : NoRichArrays s) (h : IsOf s e) : (asPage mn s e).present = true := by
  cases s <;> cases e <;> simp_all [IsOf, asPage, asRich, pageForm, RElem.present, NoRichArrays, Elem.present]
  all_goals rename_i s
  all_goals cases s <;> simp [Conforms] at h

mutual
theorem asPage_fresh (mn : Option PStr) : ∀ s : VSchema, NoRichArrays s → asPage mn s (fresh (under s)) = rFresh (pageClass mn s)
  | .plain s, _ => by simp [asPage, asRich, under, pageForm, pageClass, rFresh]
  | .joined h c, _ => by simp [asPage, asRich, under, fresh, pageForm, pageClass, rFresh]
  | .date h st fs, _ => by
    obtain ⟨sts, h1, h2, h3⟩ := date_kids (h := h) (d := st) (fs := fs) (e := fresh (under (.date h st fs))) (fresh_conforms _)
    rw [h2, asPage_date mn h st fs sts h1, pageClass, rFresh]
    congr 1
    rw [under, fresh, dateElem] at h2
    simp only [Elem.dict.injEq, true_and] at h2
    exact h2.symm
  | .dict h mode po fs, ha => by
    rw [NoRichArrays] at ha
    rw [asPage, under, fresh, asRich, pageForm, pageClass, rFresh, asPages_fresh mn mode fs ha]
  | .list h _ _ m, _ => by simp [asPage, asRich, under, fresh, pageForm, pageClass, rFresh]
  | .array h _ m, ha => by simp [NoRichArrays] at ha
theorem asPages_fresh (mn : Option PStr) (mode : DictMode) : ∀ fs : List VSchema, NoRichArraysAll fs →
    pageForms mn fs (asRichAll fs (freshFields mode (unders fs))) = rFreshFields mode (pageClasses mn fs)
  | [], _ => rfl
  | f :: fs, ha => by
    rw [NoRichArraysAll] at ha
    have h1 : autoField mode (under f) = rAutoField mode (pageClass mn f) := by cases mode <;> simp [autoField, rAutoField, under_hdr, pageClass_hdr]
    rw [unders, freshFields, asRichAll, pageForms, pageClasses, rFreshFields, asPages_fresh mn mode fs ha.2, h1]
    split
    · rw [← asPage_fresh mn f ha.1, asPage]
    · rw [asRich_absent, pageForm_absent]
end

theorem asPage_orFresh (mn : Option PStr) {mode : DictMode} {f : VSchema} {k : Elem} (ha : NoRichArrays f) (h : (k = .absent ∧ mayLack mode f) ∨ IsOf f k) :
    rOrFresh (pageClass mn f) (asPage mn f k) = asPage mn f (orFresh (under f) k) ∧ IsOf f (orFresh (under f) k) := by
  rcases h with ⟨rfl, _⟩ | h
  · rw [asPage_absent, rOrFresh, orFresh, asPage_fresh mn f ha]
    exact ⟨rfl, (isOf_proper _ _).2 (fresh_conforms _)⟩
  · have h1 : orFresh (under f) k = k := by
      have := proper_present ((isOf_proper _ _).1 h)
      cases k <;> first | rfl | exact absurd rfl this
    rw [rOrFresh, if_pos (asPage_present mn ha h), h1]
    exact ⟨rfl, h⟩

theorem slotsRun_rich (mn : Option PStr) (m : VSchema) (blank : Elem) (step : Elem → List FPair → Ended Elem Unit) (f : RElem → List FPair → Except PyErr RElem)
    (hf : ∀ ps, pageAfter mn m (step blank ps) = f (asPage mn m blank) ps) (ms : List (Nat × FPair)) : ∀ is : List Nat,
    ((slotsRun blank step ms is).2.map fun _ => (slotsRun blank step ms is).1.map (asPage mn m)) =
      is.mapM fun i => if (subPairs ms i).isEmpty then .ok (asPage mn m blank) else f (asPage mn m blank) (subPairs ms i)
  | [] => rfl
  | i :: is => by
    have ih := slotsRun_rich mn m blank step f hf ms is
    rw [List.mapM_cons, ← ih, slotsRun]
    by_cases he : (subPairs ms i).isEmpty = true
    · simp only [he, if_true]
      generalize slotsRun blank step ms is = r
      rcases r with ⟨a, x | x⟩ <;> rfl
    · simp only [he, if_false, Bool.false_eq_true, ← hf]
      generalize step blank (subPairs ms i) = q
      generalize slotsRun blank step ms is = r
      rcases q with ⟨b, y | y⟩ <;> rcases r with ⟨a, x | x⟩ <;> rfl

mutual
theorem richSetFlat_rich (sep : PStr) (mn : Option PStr) : ∀ (s : VSchema) (_ : NoRichArrays s) (e : Elem) (_ : IsOf s e) (ps : List FPair),
    pageAfter mn s (richSetFlat sep s e ps) = rSetFlat sep (pageClass mn s) (asPage mn s e) ps
  | .plain s, _, e, _, ps => by
    rw [richSetFlat, pageClass, rSetFlat]
    have h1 : (asPage mn (.plain s) e).asPlain = e := by simp [asPage, asRich, pageForm, RElem.asPlain]
    rw [h1, ← setFlatRun_outcome]
    generalize setFlatRun sep s e ps = r
    obtain ⟨a, x | x⟩ := r
    · rfl
    · simp [pageAfter, asPage, asRich, pageForm, Except.map, Ended.outcome]
  | .joined h c, _, e, hc, ps => by
    cases e <;> simp only [IsOf] at hc
    rename_i n ks
    rw [richSetFlat, pageClass, rSetFlat, joinedFlatRun, rJoinedSetFlat]
    have h1 : ∀ n' sts, asPage mn (.joined h c) (.array n' (memberElems sts)) = .joined h.name c mn sts := by
      intro n' sts
      rw [asPage, asRich, pageForm, memberElems_states]
    have h2 : asPage mn (.joined h c) (.array n ks) = .joined h.name c mn (ks.map Elem.state) := by rw [asPage, asRich, pageForm]
    rw [h2]
    simp only [RElem.members]
    cases ps.find? fun p => p.1 == h.name with
    | none => simp only [pageAfter, Except.map]; rw [h2]
    | some p =>
      simp only [kidStates, Elem.kids]
      generalize joinedSet c (ks.map Elem.state) (.str p.2) = r
      obtain ⟨a, x | x⟩ := r
      · rfl
      · simp only [pageAfter, Except.map]
        rw [h1]
  | .date h st fs, _, e, hc, ps => by
    have hp := (isOf_proper _ _).1 hc
    obtain ⟨sts, h1, h2, _⟩ := date_kids hp
    rw [richSetFlat, pageClass, rSetFlat, h2, asPage_date mn h st fs sts h1, RElem.fields, ← dateElem, ← setFlatRun_outcome]
    have hp' := setFlatRun_conforms sep _ _ ps hp
    rw [h2] at hp'
    have hp'' : Proper (.date h st fs) (setFlatRun sep (.dict h .full .subset (fs.map fun f => .scalar f.1 f.2)) (dateElem h fs sts) ps).1 := hp'
    revert hp''
    generalize setFlatRun sep (.dict h .full .subset (fs.map fun f => .scalar f.1 f.2)) (dateElem h fs sts) ps = r
    obtain ⟨a, x | x⟩ := r
    · intro _; rfl
    · intro hp''
      obtain ⟨sts', h1', h2', _⟩ := date_kids hp''
      simp only at h2'
      subst h2'
      simp only [pageAfter, Except.map, Ended.outcome]
      rw [asPage_date mn h st fs sts' h1']
      rfl
  | .dict h mode po fs, ha, e, hc, ps => by
    cases e <;> simp only [IsOf] at hc
    rename_i n ks
    rw [NoRichArrays] at ha
    rw [richSetFlat, pageClass, rSetFlat]
    have h1 : ∀ n' ks', asPage mn (.dict h mode po fs) (.dict n' ks') = .dict n' (pageForms mn fs (asRichAll fs ks')) := by
      intro n' ks'
      rw [asPage, asRich, pageForm]
    cases dictPossibles sep h.name ps with
    | error er => rfl
    | ok poss =>
      simp only
      by_cases he : poss.isEmpty = true
      · rw [if_pos he, if_pos he]
        rfl
      · rw [if_neg he, if_neg he, h1]
        simp only [RElem.kids, Elem.kids]
        rw [← richFieldsFlat_rich sep mn mode fs ha ks hc.2 poss]
        generalize richFieldsFlat sep fs ks poss = r
        obtain ⟨a, x | x⟩ := r
        · rfl
        · simp only [pageAfter, Except.map]
          rw [h1]
  | .list h prune max m, ha, e, hc, ps => by
    rw [NoRichArrays] at ha
    rw [richSetFlat, pageClass, rSetFlat]
    cases listMatches sep h.name prune ps with
    | error er => rfl
    | ok ms =>
      simp only
      have hb : IsOf m (fresh (under m)) := (isOf_proper _ _).2 (fresh_conforms _)
      rw [← asPage_fresh mn m ha, ← slotsRun_rich mn m (fresh (under m)) (richSetFlat sep m) (rSetFlat sep (pageClass mn m))
        (fun ps => richSetFlat_rich sep mn m ha _ hb ps)]
      generalize (if ms.isEmpty then [] else if prune then (sortedIdx ms).take max else List.range (min (maxIdx ms + 1) max)) = idxs
      generalize slotsRun (fresh (under m)) (richSetFlat sep m) ms idxs = r
      obtain ⟨a, x | x⟩ := r
      · rfl
      · simp only [pageAfter, Except.map]
        rw [asPage, asRich, pageForm, List.map_map]
        rfl
  | .array h prune m, ha, _, _, _ => by simp [NoRichArrays] at ha
theorem richFieldsFlat_rich (sep : PStr) (mn : Option PStr) (mode : DictMode) : ∀ (fs : List VSchema) (_ : NoRichArraysAll fs) (ks : List Elem)
    (_ : IsOfAll mode fs ks) (ps : List FPair),
    ((richFieldsFlat sep fs ks ps).2.map fun _ => pageForms mn fs (asRichAll fs (richFieldsFlat sep fs ks ps).1)) =
      rSetFlatFields sep (pageClasses mn fs) (pageForms mn fs (asRichAll fs ks)) ps
  | [], _, _, _, _ => rfl
  | f :: fs, _, [], hc, _ => by simp [IsOfAll] at hc
  | f :: fs, ha, k :: ks, hc, ps => by
    rw [NoRichArraysAll] at ha
    rw [IsOfAll] at hc
    have ih := richFieldsFlat_rich sep mn mode fs ha.2 ks hc.2 ps
    have hn : (pageClass mn f).name = f.name := by rw [RSchema.name, pageClass_hdr]; rfl
    obtain ⟨h1, h2⟩ := asPage_orFresh mn ha.1 hc.1
    rw [richFieldsFlat, asRichAll, pageForms, pageClasses, rSetFlatFields, hn]
    simp only [List.headD_cons, List.tail_cons]
    rw [← ih]
    cases accumField f.name ps with
    | error er => rfl
    | ok accum =>
      simp only
      by_cases he : accum.isEmpty = true
      · simp only [he, if_true]
        generalize richFieldsFlat sep fs ks ps = r
        obtain ⟨a, x | x⟩ := r <;> rfl
      · simp only [he, if_false, Bool.false_eq_true]
        have h3 := richSetFlat_rich sep mn f ha.1 _ h2 accum
        rw [← h1, asPage] at h3
        rw [← h3]
        generalize richSetFlat sep f (orFresh (under f) k) accum = q
        generalize richFieldsFlat sep fs ks ps = r
        rcases q with ⟨b, y | y⟩ <;> rcases r with ⟨a, x | x⟩ <;> rfl
end

end
end Flatland
