import Verif.Proofs.TreeProps
import Verif.Spec.SetFlat
/-
Helper lemmas for `set_flat` on arbitrary submissions.
-/
namespace Flatland
open Spec

theorem idxPrefix_eq (sep : PStr) (name : Option PStr) : idxPrefix sep name = childPrefix sep name := by
  cases name with
  | none => rfl
  | some n => cases n <;> rfl

theorem texts_ne_none {ps : List (PStr × PStr)} : ∀ x ∈ texts ps, x.1 ≠ none := by
  intro x hx
  simp only [texts, List.mem_map] at hx
  obtain ⟨y, _, rfl⟩ := hx
  simp

section
variable [Runtime]

theorem digit_newline : digit '\n' = none := Runtime.space_not_digit _ Runtime.newline_is_space

/-- no match can stop in the middle of a run of digits -/
theorem idxTail_mid {sep : PStr} (hs : GoodSep sep) (s : PStr) : ∀ n, n < (s.takeWhile isDigit').length →
    idxTail sep s n = none := by
  intro n
  induction n with
  | zero => intro _; rfl
  | succ n ih =>
    intro hn
    obtain ⟨c, cs, hsep, hc⟩ := hs
    have hd : ∃ d r, s.drop (n + 1) = d :: r ∧ isDigit' d = true := by
      have h1 : s = s.takeWhile isDigit' ++ s.dropWhile isDigit' := (List.takeWhile_append_dropWhile).symm
      have h2 : s.drop (n + 1) = (s.takeWhile isDigit').drop (n + 1) ++ s.dropWhile isDigit' := by
        conv => lhs; rw [h1]
        rw [List.drop_append_of_le_length (by omega)]
      cases h3 : (s.takeWhile isDigit').drop (n + 1) with
      | nil =>
        have := congrArg List.length h3
        simp only [List.length_drop, List.length_nil] at this
        omega
      | cons d r =>
        refine ⟨d, _, by rw [h2, h3]; rfl, ?_⟩
        have : d ∈ s.takeWhile isDigit' := List.mem_of_mem_drop (i := n + 1) (by rw [h3]; simp)
        exact List.all_eq_true.1 (List.all_takeWhile (p := isDigit') (l := s)) d this
    obtain ⟨d, r, hdr, hdig⟩ := hd
    rw [idxTail]
    simp only [hdr]
    have hdc : d ≠ c := by rintro rfl; simp [isDigit', hc] at hdig
    have hdn : d ≠ '\n' := by rintro rfl; simp [isDigit', digit_newline] at hdig
    rw [if_neg, if_neg]
    · exact ih (by omega)
    · simp [hdn]
    · rw [startsWith_iff, hsep]
      intro h
      exact hdc ((List.cons_prefix_cons.1 h).1.symm)

omit [Runtime] in
theorem idxTail_some {sep s ds rest : PStr} : ∀ n, idxTail sep s n = some (ds, rest) →
    ∃ m, m < n ∧ ds = s.take (m + 1) ∧
      ((∃ r, s.drop (m + 1) = sep ++ r ∧ rest = r) ∨ (s.drop (m + 1) = [] ∧ rest = []) ∨
       (s.drop (m + 1) = ['\n'] ∧ rest = ['\n'])) := by
  intro n
  induction n with
  | zero => intro h; simp [idxTail] at h
  | succ n ih =>
    intro h
    rw [idxTail] at h
    split at h
    · rename_i hsw
      rw [startsWith_iff] at hsw
      obtain ⟨t, ht⟩ := hsw
      simp only [Option.some.injEq, Prod.mk.injEq] at h
      refine ⟨n, by omega, h.1.symm, .inl ⟨t, ht.symm, ?_⟩⟩
      rw [← h.2, ← ht]; simp
    · split at h
      · rename_i hr
        simp only [Option.some.injEq, Prod.mk.injEq] at h
        simp only [Bool.or_eq_true, beq_iff_eq] at hr
        refine ⟨n, by omega, h.1.symm, .inr ?_⟩
        rcases hr with hr | hr
        · exact .inl ⟨hr, by rw [← h.2, hr]⟩
        · exact .inr ⟨hr, by rw [← h.2, hr]⟩
      · obtain ⟨m, hm, hx⟩ := ih h
        exact ⟨m, by omega, hx⟩

omit [Runtime] in
theorem orNone_cons {r : PStr} (h : r ≠ []) : orNone r = some r := by cases r <;> simp_all [orNone]

/-- The List regular expression recognises exactly the keys that mention an index. -/
theorem idxMatch_iff {sep : PStr} (hs : GoodSep sep) (hnl : sep ≠ ['\n']) (name : Option PStr) (key : PStr) (i : Nat) (ck : Option PStr) :
    idxMatch sep name key = some (i, ck) ↔ Mentions sep name key i ck := by
  unfold idxMatch Mentions
  rw [idxPrefix_eq]
  constructor
  · intro h
    split at h
    · rename_i hsw
      rw [startsWith_iff] at hsw
      obtain ⟨t, rfl⟩ := hsw
      simp only [List.drop_left] at h
      split at h
      · rename_i ds rest hit
        simp only [Option.map_eq_some_iff, Prod.mk.injEq] at h
        obtain ⟨n, hn, rfl, hck⟩ := h
        obtain ⟨m, hm, hds, hr⟩ := idxTail_some _ hit
        have htl : 0 < t.length := by
          have : (t.takeWhile isDigit').length ≤ t.length := List.Sublist.length_le (List.takeWhile_sublist _)
          omega
        have hdne : ds ≠ [] := by
          rw [hds]
          intro h0
          have := congrArg List.length h0
          simp only [List.length_take, List.length_nil] at this
          omega
        refine ⟨ds, t.drop (m + 1), ?_, ?_, ?_⟩
        · rw [hds, List.append_assoc, List.take_append_drop]
        · rw [digitText_iff, parseDigits, if_neg (by simpa using hdne)]; exact hn
        · rcases hr with ⟨r, h1, rfl⟩ | ⟨h1, rfl⟩ | ⟨h1, rfl⟩
          · cases hr0 : rest with
            | nil => rw [hr0] at h1 hck; exact .inr (.inl ⟨by simpa using h1, hck.symm⟩)
            | cons a b => rw [hr0] at h1 hck; exact .inr (.inr (.inl ⟨a :: b, by simp, h1, hck.symm⟩))
          · exact .inl ⟨h1, hck.symm⟩
          · exact .inr (.inr (.inr ⟨h1, hck.symm⟩))
      · simp at h
    · simp at h
  · rintro ⟨ds, rest, rfl, hd, hr⟩
    rw [if_pos (by rw [startsWith_iff, List.append_assoc]; exact List.prefix_append ..)]
    simp only [List.append_assoc, List.drop_left]
    have hdne : ds ≠ [] := hd.1
    have hdig : ∀ c ∈ ds, isDigit' c = true := by
      intro c hc
      obtain ⟨d, hd⟩ := digitText_mem hd hc
      simp [isDigit', hd]
    have hrest : ∀ c, rest.head? = some c → isDigit' c = false := by
      intro c hc
      obtain ⟨a, as, hsep, ha⟩ := hs
      rcases hr with ⟨rfl, _⟩ | ⟨rfl, _⟩ | ⟨r, _, rfl, _⟩ | ⟨rfl, _⟩
      · simp at hc
      · rw [hsep] at hc; simp at hc; subst hc; simp [isDigit', ha]
      · rw [hsep] at hc; simp at hc; subst hc; simp [isDigit', ha]
      · simp at hc; subst hc; simp [isDigit', digit_newline]
    have htw : (ds ++ rest).takeWhile isDigit' = ds := by
      rw [List.takeWhile_append_of_pos hdig]
      cases rest with
      | nil => simp
      | cons c cs => simp [hrest c rfl]
    have hn : digitsAcc 0 ds = some i := by
      have := (digitText_iff ds i).1 hd
      rw [parseDigits, if_neg (by simpa using hdne)] at this
      exact this
    rw [htw]
    cases hl : ds.length with
    | zero => simp at hl; exact absurd hl hdne
    | succ n =>
      rw [idxTail]
      simp only [← hl, List.drop_left, List.take_left]
      rcases hr with ⟨rfl, rfl⟩ | ⟨rfl, rfl⟩ | ⟨r, hr, rfl, rfl⟩ | ⟨rfl, rfl⟩
      · obtain ⟨a, as, hsep, ha⟩ := hs
        simp [hsep, startsWith, hn, orNone]
      · simp [startsWith, hn, orNone]
      · simp [startsWith, hn, orNone_cons hr]
      · rw [if_neg]
        · simp [hn, orNone]
        · obtain ⟨a, as, hsep, ha⟩ := hs
          rw [startsWith_iff, hsep, List.cons_prefix_cons]
          rintro ⟨rfl, h⟩
          rw [hsep] at hnl
          simp at h
          exact hnl (by rw [h])

theorem mentions_unique {sep : PStr} (hs : GoodSep sep) (hnl : sep ≠ ['\n']) {name : Option PStr} {key : PStr} {i j : Nat}
    {c d : Option PStr} (h1 : Mentions sep name key i c) (h2 : Mentions sep name key j d) : i = j ∧ c = d := by
  rw [← idxMatch_iff hs hnl] at h1 h2
  rw [h1] at h2
  simpa using h2

omit [Runtime] in
theorem mapM_ok {ε α β : Type} {f : α → Except ε β} : ∀ {l : List α} {r : List β}, l.mapM f = .ok r →
    r.length = l.length ∧ ∀ (j : Nat) a b, l[j]? = some a → r[j]? = some b → f a = .ok b
  | [], r, h => by
    simp only [List.mapM_nil, pure, Except.pure, Except.ok.injEq] at h
    subst h; simp
  | a :: l, r, h => by
    rw [List.mapM_cons] at h
    cases hf : f a with
    | error e => rw [hf] at h; simp [bind, Except.bind] at h
    | ok b =>
      rw [hf] at h
      cases hr : l.mapM f with
      | error e => rw [hr] at h; simp [bind, Except.bind] at h
      | ok r' =>
        rw [hr] at h
        simp only [bind, Except.bind, pure, Except.pure, Except.ok.injEq] at h
        subst h
        obtain ⟨h1, h2⟩ := mapM_ok hr
        refine ⟨by simp [h1], ?_⟩
        intro j a' b' ha hb
        cases j with
        | zero => simp at ha hb; subst ha; subst hb; exact hf
        | succ j => exact h2 j a' b' (by simpa using ha) (by simpa using hb)

/-- the matches of a submission -/
def matchesOf (sep : PStr) (name : Option PStr) (prune : Bool) (ps : List (PStr × PStr)) : List (Nat × FPair) :=
  (ps.filter fun x => !(x.2 == [] && prune)).filterMap fun x =>
    (idxMatch sep name x.1).map fun r => (r.1, (r.2, x.2))

theorem listMatches_texts (sep : PStr) (name : Option PStr) (prune : Bool) (ps : List (PStr × PStr)) :
    listMatches sep name prune (texts ps) = .ok (matchesOf sep name prune ps) := by
  rw [listMatches_ok _ _ _ _ texts_ne_none]
  simp only [matchesOf, texts, List.filter_map, List.filterMap_map]
  rfl

theorem mem_matchesOf {sep : PStr} (hs : GoodSep sep) (hnl : sep ≠ ['\n']) {name : Option PStr} {prune : Bool}
    {ps : List (PStr × PStr)} {i : Nat} :
    (∃ m ∈ matchesOf sep name prune ps, m.1 = i) ↔
    ∃ kv ∈ ps, (prune = true → kv.2 ≠ []) ∧ ∃ ck, Mentions sep name kv.1 i ck := by
  simp only [matchesOf, List.mem_filterMap, List.mem_filter, Option.map_eq_some_iff]
  constructor
  · rintro ⟨m, ⟨kv, ⟨h1, h2⟩, r, hr, rfl⟩, rfl⟩
    refine ⟨kv, h1, ?_, r.2, (idxMatch_iff hs hnl _ _ _ _).1 hr⟩
    intro hp; simpa [hp] using h2
  · rintro ⟨kv, h1, h2, ck, hm⟩
    refine ⟨(i, ck, kv.2), ⟨kv, ⟨h1, ?_⟩, (i, ck), (idxMatch_iff hs hnl _ _ _ _).2 hm, rfl⟩, rfl⟩
    cases prune
    · simp
    · simpa using h2 rfl

theorem subPairs_submitted {sep : PStr} (hs : GoodSep sep) (hnl : sep ≠ ['\n']) (name : Option PStr) (prune : Bool)
    (ps : List (PStr × PStr)) (i : Nat) :
    SubmittedFor sep name i (ps.filter fun x => !(x.2 == [] && prune)) (subPairs (matchesOf sep name prune ps) i) := by
  unfold matchesOf
  generalize ps.filter (fun x => !(x.2 == [] && prune)) = qs
  induction qs with
  | nil => exact .nil
  | cons x qs ih =>
    obtain ⟨k, v⟩ := x
    rw [List.filterMap_cons]
    cases hm : idxMatch sep name k with
    | none =>
      simp only [Option.map_none]
      refine .skip (fun ck hck => ?_) ih
      rw [← idxMatch_iff hs hnl, hm] at hck
      simp at hck
    | some r =>
      simp only [Option.map_some]
      have hment := (idxMatch_iff hs hnl name k r.1 r.2).1 (by rw [hm])
      by_cases hi : r.1 = i
      · subst hi
        simp only [subPairs, List.filter_cons, beq_self_eq_true, if_true, List.map_cons]
        exact .take hment ih
      · have : (r.1 == i) = false := by simpa using hi
        simp only [subPairs, List.filter_cons, this]
        refine .skip (fun ck hck => hi (mentions_unique hs hnl hment hck).1) ih

/-- `set_flat` of a List on text keys, unfolded -/
theorem setFlat_list {sep : PStr} {h : Hdr} {prune : Bool} {max : Nat} {m : Schema} {e e' : Elem} {ps : List (PStr × PStr)}
    (hr : setFlat sep (.list h prune max m) e (texts ps) = .ok e') :
    ∃ kids, e' = .list h.name kids ∧
      (if (matchesOf sep h.name prune ps).isEmpty then [] else if prune then (sortedIdx (matchesOf sep h.name prune ps)).take max
        else List.range (min (maxIdx (matchesOf sep h.name prune ps) + 1) max)).mapM (fun i =>
          if (subPairs (matchesOf sep h.name prune ps) i).isEmpty then .ok (fresh m)
          else setFlat sep m (fresh m) (subPairs (matchesOf sep h.name prune ps) i)) = .ok kids := by
  rw [setFlat, listMatches_texts] at hr
  simp only at hr
  split at hr
  · simp at hr
  · rename_i kids hk
    simp only [Except.ok.injEq] at hr
    exact ⟨kids, hr.symm, hk⟩

/-! ### Dicts -/

omit [Runtime] in
theorem dictPossibles_texts (sep : PStr) (name : Option PStr) (ps : List (PStr × PStr)) :
    dictPossibles sep name (texts ps) =
      .ok (texts ((ps.filter fun x => (fieldPrefix sep name).isPrefixOf x.1).map
        fun x => (x.1.drop (fieldPrefix sep name).length, x.2))) := by
  cases name with
  | none =>
    have : ps.filter (fun x => (fieldPrefix sep none).isPrefixOf x.1) = ps := List.filter_eq_self.2 (by simp [fieldPrefix])
    rw [this]
    simp [dictPossibles, fieldPrefix]
  | some n =>
    rw [dictPossibles, dictPossibles_go_ok _ _ texts_ne_none]
    simp only [fieldPrefix, texts, List.filterMap_map, List.map_map]
    congr 1
    induction ps with
    | nil => rfl
    | cons x ps ih =>
      rw [List.filterMap_cons, ih]
      by_cases hp : startsWith x.1 (n ++ sep) = true
      · have hp' : (n ++ sep).isPrefixOf x.1 = true := hp
        simp only [List.filter_cons, hp', Function.comp, hp, if_true, List.map_cons]
      · have hp' : (n ++ sep).isPrefixOf x.1 = false := Bool.eq_false_iff.2 hp
        simp only [List.filter_cons, hp', Function.comp, hp, if_false, Bool.false_eq_true]

omit [Runtime] in
theorem accumField_texts (fn : PStr) (ps : List (PStr × PStr)) :
    accumField (some fn) (texts ps) = .ok (texts (ps.filter fun x => fn.isPrefixOf x.1)) := by
  rw [accumField_ok _ _ texts_ne_none]
  simp only [texts, List.filter_map]
  rfl

omit [Runtime] in
theorem texts_isEmpty (ps : List (PStr × PStr)) : (texts ps).isEmpty = ps.isEmpty := by
  cases ps <;> rfl

theorem setFlatFields_get {sep : PStr} : ∀ (fs : List Schema) (kids kids' : List Elem) (ps : List FPair),
    setFlatFields sep fs kids ps = .ok kids' → kids'.length = fs.length ∧
      ∀ (i : Nat) f k', fs[i]? = some f → kids'[i]? = some k' → ∃ accum, accumField f.name ps = .ok accum ∧
        (if accum.isEmpty then .ok (kids[i]?.getD .absent) else setFlat sep f (orFresh f (kids[i]?.getD .absent)) accum) = .ok k'
  | [], kids, kids', ps, h => by
    simp only [setFlatFields, Except.ok.injEq] at h
    subst h; simp
  | f :: fs, kids, kids', ps, h => by
    rw [setFlatFields] at h
    split at h
    · simp at h
    · rename_i accum hacc
      split at h
      · simp at h
      · rename_i kid' hkid
        split at h
        · simp at h
        · rename_i rest hrest
          simp only [Except.ok.injEq] at h
          subst h
          obtain ⟨h1, h2⟩ := setFlatFields_get fs kids.tail rest ps hrest
          refine ⟨by simp [h1], ?_⟩
          intro i f' k' hf hk
          cases i with
          | zero =>
            simp only [List.getElem?_cons_zero, Option.some.injEq] at hf hk
            subst hf; subst hk
            refine ⟨accum, hacc, ?_⟩
            have : kids[0]?.getD .absent = kids.headD .absent := by cases kids <;> rfl
            rw [this]; exact hkid
          | succ i =>
            obtain ⟨a, ha, hb⟩ := h2 i f' k' (by simpa using hf) (by simpa using hk)
            refine ⟨a, ha, ?_⟩
            have : kids.tail[i]? = kids[i + 1]? := by cases kids <;> simp
            rw [this] at hb; exact hb

/-! ### never raising -/

theorem scalarSetFlat_safe {t : ScalarType} (ht : TextSafe t) (name : Option PStr) (st : ScalarState) (ps : List FPair) :
    ∃ e, scalarSetFlat name t st ps = .ok e := by
  unfold scalarSetFlat
  split
  · exact ⟨_, rfl⟩
  · rename_i p _
    obtain ⟨ok, h⟩ := ht { st with raw := none } p.2
    split
    · exact ⟨_, rfl⟩
    · rename_i er heq; rw [heq] at h; simp at h

theorem arrayMembers_safe {sep : PStr} {name : Option PStr} {prune : Bool} {hm : Hdr} {t : ScalarType} (ht : TextSafe t)
    (ps : List FPair) (h : ∀ x ∈ ps, ∃ r, arrayPick sep name hm.name prune x = .ok r) :
    ∃ es, arrayMembers sep name prune hm t ps = .ok es := by
  induction ps with
  | nil => exact ⟨_, rfl⟩
  | cons x ps ih =>
    obtain ⟨es, hes⟩ := ih fun y hy => h y (by simp [hy])
    obtain ⟨r, hr⟩ := h x (by simp)
    rw [arrayMembers, hr]
    cases r with
    | none => exact ⟨es, by simpa [bind, Except.bind] using hes⟩
    | some key =>
      obtain ⟨m, hm'⟩ := scalarSetFlat_safe ht hm.name .fresh [(key, x.2)]
      exact ⟨m :: es, by simp [bind, Except.bind, hm', hes]⟩

omit [Runtime] in
theorem arrayPick_text (sep : PStr) (name cn : Option PStr) (prune : Bool) (k : PStr) (v : PStr) :
    ∃ r, arrayPick sep name cn prune (some k, v) = .ok r := by
  unfold arrayPick
  simp only
  repeat' split
  all_goals exact ⟨_, rfl⟩

omit [Runtime] in
theorem arrayPick_unnamed (sep : PStr) {name : Option PStr} (hn : name = none ∨ name = some []) (cn : Option PStr) (prune : Bool) (x : FPair) :
    ∃ r, arrayPick sep name cn prune x = .ok r := by
  have : truthyName name = none := by rcases hn with rfl | rfl <;> rfl
  unfold arrayPick
  rw [this]
  simp only
  repeat' split
  all_goals exact ⟨_, rfl⟩

theorem bare_safe {sep : PStr} {m : Schema} (hb : BareMember m) (hd : Declared m) (e : Elem) (ps : List FPair) :
    ∃ e', setFlat sep m e ps = .ok e' := by
  cases m with
  | scalar h t => rw [setFlat]; exact scalarSetFlat_safe hd _ _ _
  | dict => exact absurd hb (by simp [BareMember])
  | list => exact absurd hb (by simp [BareMember])
  | array h prune m =>
    simp only [BareMember] at hb
    cases m with
    | scalar hm t =>
      rw [setFlat]
      simp only [Declared] at hd
      obtain ⟨es, hes⟩ := arrayMembers_safe (sep := sep) (name := h.name) (prune := prune) (hm := hm) hd ps
        fun x _ => arrayPick_unnamed sep hb.1 _ _ _
      rw [hes]; exact ⟨_, rfl⟩
    | _ => simp [isContainer] at hb

omit [Runtime] in
theorem mapM_safe {ε α β : Type} {f : α → Except ε β} : ∀ (l : List α), (∀ a ∈ l, ∃ b, f a = .ok b) → ∃ r, l.mapM f = .ok r
  | [], _ => ⟨[], rfl⟩
  | a :: l, h => by
    obtain ⟨b, hb⟩ := h a (by simp)
    obtain ⟨r, hr⟩ := mapM_safe l fun x hx => h x (by simp [hx])
    exact ⟨b :: r, by rw [List.mapM_cons, hb, hr]; rfl⟩

end

mutual
theorem neverRaises_ok [Runtime] {sep : PStr} : ∀ (s : Schema), Declared s → NeverRaises s → ∀ (e : Elem) (ps : List (PStr × PStr)),
    ∃ e', setFlat sep s e (texts ps) = .ok e'
  | .scalar h t, hd, _, e, ps => by rw [setFlat]; exact scalarSetFlat_safe hd _ _ _
  | .dict h mode po fs, hd, hn, e, ps => by
    simp only [Declared, NeverRaises] at hd hn
    rw [setFlat, dictPossibles_texts]
    simp only
    split
    · exact ⟨_, rfl⟩
    · obtain ⟨r, hr⟩ := neverRaisesAll_ok fs hd.2 hn e.kids ((ps.filter fun x => (fieldPrefix sep h.name).isPrefixOf x.1).map
        fun x => (x.1.drop (fieldPrefix sep h.name).length, x.2))
      rw [hr]; exact ⟨_, rfl⟩
  | .list h prune max m, hd, hn, e, ps => by
    simp only [Declared, NeverRaises] at hd hn
    rw [setFlat, listMatches_texts]
    simp only
    rcases hn with h0 | hb
    · rw [h0]
      generalize matchesOf sep h.name prune ps = ms
      have : (if ms.isEmpty = true then [] else if prune = true then (sortedIdx ms).take 0 else List.range (min (maxIdx ms + 1) 0)) = [] := by
        split
        · rfl
        · split <;> simp
      rw [this]
      exact ⟨.list h.name [], rfl⟩
    · obtain ⟨r, hr⟩ := mapM_safe (f := fun i => if (subPairs (matchesOf sep h.name prune ps) i).isEmpty = true then .ok (fresh m)
          else setFlat sep m (fresh m) (subPairs (matchesOf sep h.name prune ps) i))
        (if (matchesOf sep h.name prune ps).isEmpty then [] else if prune then (sortedIdx (matchesOf sep h.name prune ps)).take max
        else List.range (min (maxIdx (matchesOf sep h.name prune ps) + 1) max)) (by
          intro a _
          split
          · exact ⟨_, rfl⟩
          · exact bare_safe hb hd _ _)
      rw [hr]; exact ⟨_, rfl⟩
  | .array h prune (.scalar hm t), hd, _, e, ps => by
    simp only [Declared] at hd
    rw [setFlat]
    obtain ⟨es, hes⟩ := arrayMembers_safe (sep := sep) (name := h.name) (prune := prune) (hm := hm) hd (texts ps) (by
      intro x hx
      simp only [texts, List.mem_map] at hx
      obtain ⟨y, _, rfl⟩ := hx
      exact arrayPick_text ..)
    rw [hes]; exact ⟨_, rfl⟩
  | .array h prune (.dict ..), _, hn, _, _ | .array h prune (.list ..), _, hn, _, _ | .array h prune (.array ..), _, hn, _, _ => by
    simp [NeverRaises, isContainer] at hn
theorem neverRaisesAll_ok [Runtime] {sep : PStr} : ∀ (fs : List Schema), DeclaredAll fs → NeverRaisesAll fs →
    ∀ (kids : List Elem) (ps : List (PStr × PStr)), ∃ r, setFlatFields sep fs kids (texts ps) = .ok r
  | [], _, _, _, _ => ⟨[], by rw [setFlatFields]⟩
  | f :: fs, hd, hn, kids, ps => by
    simp only [DeclaredAll, NeverRaisesAll] at hd hn
    rw [setFlatFields]
    cases hf : f.name with
    | none => exact absurd hf hn.1
    | some fn =>
      rw [accumField_texts]
      simp only
      obtain ⟨r, hr⟩ := neverRaisesAll_ok fs hd.2 hn.2.2 kids.tail ps
      obtain ⟨k', hk'⟩ : ∃ k', (if (texts (ps.filter fun x => fn.isPrefixOf x.1)).isEmpty then .ok (kids.headD .absent)
          else setFlat sep f (orFresh f (kids.headD .absent)) (texts (ps.filter fun x => fn.isPrefixOf x.1))) = .ok k' := by
        split
        · exact ⟨_, rfl⟩
        · exact neverRaises_ok f hd.1 hn.2.1 _ _
      rw [hk', hr]
      exact ⟨_, rfl⟩
end


/-! ### raising submissions -/

theorem setFlatFields_error [Runtime] {sep : PStr} : ∀ (fs : List Schema) (kids : List Elem) (ps : List FPair) (f : Schema), f ∈ fs →
    ((∃ er, accumField f.name ps = .error er) ∨
     ∃ accum, accumField f.name ps = .ok accum ∧ accum ≠ [] ∧ ∀ e, ∃ er, setFlat sep f e accum = .error er) →
    ∃ er, setFlatFields sep fs kids ps = .error er
  | [], _, _, _, hf, _ => by simp at hf
  | g :: fs, kids, ps, f, hf, h => by
    rw [setFlatFields]
    rcases List.mem_cons.1 hf with hfg | hf
    · rcases h with ⟨er, he⟩ | ⟨accum, ha, hne, hall⟩
      · rw [← hfg, he]; exact ⟨er, rfl⟩
      · rw [← hfg, ha]
        have : accum.isEmpty = false := by cases accum <;> simp at hne ⊢
        obtain ⟨er, her⟩ := hall (orFresh f (kids.headD .absent))
        simp only [this, Bool.false_eq_true, if_false, her]
        exact ⟨er, rfl⟩
    · obtain ⟨er, her⟩ := setFlatFields_error fs kids.tail ps f hf h
      split
      · exact ⟨_, rfl⟩
      · split
        · exact ⟨_, rfl⟩
        · rw [her]; exact ⟨er, rfl⟩

theorem mapM_error {ε α β : Type} {f : α → Except ε β} : ∀ (l : List α) (a : α), a ∈ l → (∃ er, f a = .error er) →
    ∃ er, l.mapM f = .error er
  | [], _, h, _ => by simp at h
  | b :: l, a, h, he => by
    rw [List.mapM_cons]
    cases hb : f b with
    | error e => exact ⟨e, rfl⟩
    | ok c =>
      rcases List.mem_cons.1 h with rfl | h
      · obtain ⟨er, he⟩ := he; rw [he] at hb; simp at hb
      · obtain ⟨er, her⟩ := mapM_error l a h he
        exact ⟨er, by simp [bind, Except.bind, her]⟩

theorem digitsAcc_zero [Runtime] : digitsAcc 0 ['0'] = some 0 := by
  have := Runtime.digit_ascii 0 (by omega)
  have h0 : digit '0' = some 0 := this
  simp [digitsAcc, h0]

theorem idxMatch_zero [Runtime] (sep : PStr) (hs : sep ≠ []) (name : Option PStr) :
    idxMatch sep name (childPrefix sep name ++ ['0']) = some (0, none) := by
  have h0 : digit '0' = some 0 := Runtime.digit_ascii 0 (by omega)
  unfold idxMatch
  rw [idxPrefix_eq, if_pos (by rw [startsWith_iff]; exact List.prefix_append ..)]
  simp only [List.drop_left]
  have : (['0'] : PStr).takeWhile isDigit' = ['0'] := by simp [isDigit', h0]
  rw [this]
  have hf : startsWith [] sep = false := by cases sep <;> simp [startsWith] at hs ⊢
  simp [idxTail, hf, digitsAcc_zero, orNone]

mutual
theorem fieldsDeclared_of [Runtime] : ∀ (s : Schema), Declared s → FieldsDeclared s
  | .scalar .., _ => trivial
  | .dict _ _ _ fs, h => ⟨h.1, fieldsDeclaredAll_of fs h.2⟩
  | .list _ _ _ m, h => fieldsDeclared_of m h
  | .array _ _ m, h => fieldsDeclared_of m h
theorem fieldsDeclaredAll_of [Runtime] : ∀ (fs : List Schema), DeclaredAll fs → FieldsDeclaredAll fs
  | [], _ => trivial
  | f :: fs, h => ⟨fieldsDeclared_of f h.1, fieldsDeclaredAll_of fs h.2⟩
end

/-- a member that is not addressable by a bare index raises when it is -/
theorem notBare_raises [Runtime] {sep : PStr} {m : Schema} (hd : FieldsDeclared m) (hb : ¬ BareMember m) (e : Elem) (v : PStr) (hv : v ≠ []) :
    ∃ er, setFlat sep m e [(none, v)] = .error er := by
  cases m with
  | scalar => exact absurd trivial hb
  | dict h mode po fs =>
    simp only [FieldsDeclared] at hd
    rw [setFlat]
    cases hn : h.name with
    | some n => exact ⟨.attribute, rfl⟩
    | none =>
      cases fs with
      | nil => exact absurd rfl hd.1
      | cons f fs =>
        obtain ⟨er, her⟩ := setFlatFields_error (sep := sep) (f :: fs) e.kids [(none, v)] f (by simp) (.inl ⟨.attribute, by rw [accumField]⟩)
        simp only [dictPossibles, List.isEmpty_cons, Bool.false_eq_true, if_false, her]
        exact ⟨er, rfl⟩
  | list h prune max m =>
    rw [setFlat, listMatches]
    have : (v == []) = false := by simpa using hv
    simp only [this, Bool.false_and, Bool.false_eq_true, if_false]
    exact ⟨_, rfl⟩
  | array h prune m =>
    simp only [BareMember, not_and] at hb
    cases m with
    | scalar hm t =>
      rw [setFlat, arrayMembers, arrayPick]
      cases hn : h.name with
      | none => exact absurd rfl (hb (.inl hn))
      | some n =>
        cases n with
        | nil => exact absurd rfl (hb (.inr hn))
        | cons c cs => exact ⟨.type, rfl⟩
    | dict | list | array => rw [setFlat]; exact ⟨.assertion, rfl⟩; all_goals simp

mutual
theorem raising_key [Runtime] {sep : PStr} (hs : sep ≠ []) : ∀ (s : Schema), FieldsDeclared s → ¬ NeverRaises s →
    ∃ key : PStr, (s.name.getD []) <+: key ∧ ∀ e, ∃ er, setFlat sep s e (texts [(key, ['x'])]) = .error er
  | .scalar .., _, hn => absurd trivial hn
  | .dict h mode po fs, hd, hn => by
    simp only [FieldsDeclared, NeverRaises] at hd hn
    obtain ⟨key, f, hf, hk⟩ := raising_field hs fs hd.2 hn
    refine ⟨fieldPrefix sep h.name ++ key, ?_, ?_⟩
    · simp only [Schema.name, Schema.hdr]
      cases h.name with
      | none => simp
      | some n => simp [fieldPrefix]
    · intro e
      rw [setFlat, dictPossibles_texts]
      have h1 : (([(fieldPrefix sep h.name ++ key, ['x'])] : List (PStr × PStr)).filter fun x => (fieldPrefix sep h.name).isPrefixOf x.1).map
          (fun x => (x.1.drop (fieldPrefix sep h.name).length, x.2)) = [(key, ['x'])] := by
        simp
      rw [h1]
      obtain ⟨er, her⟩ := setFlatFields_error (sep := sep) fs e.kids (texts [(key, ['x'])]) f hf (by
        rcases hk with hk | ⟨fn, hfn, hpre, hall⟩
        · exact .inl ⟨.type, by rw [hk]; rfl⟩
        · refine .inr ⟨texts [(key, ['x'])], ?_, by simp [texts], hall⟩
          rw [hfn, accumField_texts]
          simp [hpre])
      simp only [her]
      exact ⟨er, rfl⟩
  | .list h prune max m, hd, hn => by
    simp only [FieldsDeclared, NeverRaises, not_or] at hd hn
    refine ⟨childPrefix sep h.name ++ ['0'], ?_, ?_⟩
    · simp only [Schema.name, Schema.hdr]
      cases h.name with
      | none => simp
      | some n => cases n <;> simp [childPrefix]
    · intro e
      rw [setFlat, listMatches_texts]
      have hms : matchesOf sep h.name prune [(childPrefix sep h.name ++ ['0'], ['x'])] = [(0, none, ['x'])] := by
        unfold matchesOf
        have : ([(childPrefix sep h.name ++ ['0'], ['x'])] : List (PStr × PStr)).filter (fun x => !(x.2 == [] && prune)) =
          [(childPrefix sep h.name ++ ['0'], ['x'])] := by simp
        rw [this]
        simp only [List.filterMap_cons, idxMatch_zero sep hs, Option.map_some, List.filterMap_nil]
      rw [hms]
      have h0 : (0 : Nat) ∈ (if prune = true then (sortedIdx [(0, none, ['x'])]).take max
          else List.range (min (maxIdx [(0, none, ['x'])] + 1) max)) := by
        have hm1 : 0 < max := Nat.pos_of_ne_zero hn.1
        split
        · cases max with
          | zero => omega
          | succ k => simp [sortedIdx, insertIdx]
        · simp [maxIdx]; omega
      obtain ⟨er, her⟩ := mapM_error (f := fun i => if (subPairs [(0, none, ['x'])] i).isEmpty = true then .ok (fresh m)
          else setFlat sep m (fresh m) (subPairs [(0, none, ['x'])] i)) _ 0 h0 (by
        have : subPairs [(0, none, ['x'])] 0 = [(none, ['x'])] := rfl
        rw [this]
        exact notBare_raises hd hn.2 _ _ (by simp))
      simp only [List.isEmpty_cons, Bool.false_eq_true, if_false]
      rw [her]
      exact ⟨er, rfl⟩
  | .array h prune m, hd, hn => by
    refine ⟨h.name.getD [], by simp [Schema.name, Schema.hdr], ?_⟩
    intro e
    cases m with
    | scalar => simp [NeverRaises, isContainer] at hn
    | dict | list | array => rw [setFlat]; exact ⟨.assertion, rfl⟩; all_goals simp
theorem raising_field [Runtime] {sep : PStr} (hs : sep ≠ []) : ∀ (fs : List Schema), FieldsDeclaredAll fs → ¬ NeverRaisesAll fs →
    ∃ (key : PStr) (f : Schema), f ∈ fs ∧ (f.name = none ∨ ∃ fn, f.name = some fn ∧ fn <+: key ∧
      ∀ e, ∃ er, setFlat sep f e (texts [(key, ['x'])]) = .error er)
  | [], _, hn => absurd trivial hn
  | f :: fs, hd, hn => by
    simp only [FieldsDeclaredAll, NeverRaisesAll] at hd hn
    cases hf : f.name with
    | none => exact ⟨[], f, by simp, .inl hf⟩
    | some fn =>
      by_cases h1 : NeverRaises f
      · have h2 : ¬ NeverRaisesAll fs := fun h => hn ⟨by simp [hf], h1, h⟩
        obtain ⟨key, g, hg, hk⟩ := raising_field hs fs hd.2 h2
        exact ⟨key, g, by simp [hg], hk⟩
      · obtain ⟨key, hpre, hall⟩ := raising_key hs f hd.1 h1
        rw [hf] at hpre
        exact ⟨key, f, by simp, .inr ⟨fn, hf, by simpa using hpre, hall⟩⟩
end


/-! ### unrelated keys -/

section
variable [Runtime]

omit [Runtime] in
theorem texts_filter (ps : List (PStr × PStr)) (f : PStr → Bool) :
    texts (ps.filter fun x => f x.1) = (texts ps).filter fun x => match x.1 with | some k => f k | none => false := by
  simp only [texts, List.filter_map]
  rfl

omit [Runtime] in
theorem find_texts_filter (n : PStr) (f : PStr → Bool) (hf : f n = true) (ps : List (PStr × PStr)) :
    (texts (ps.filter fun x => f x.1)).find? (fun p => p.1 == some n) = (texts ps).find? fun p => p.1 == some n := by
  induction ps with
  | nil => rfl
  | cons x ps ih =>
    obtain ⟨k, v⟩ := x
    by_cases hk : k = n
    · subst hk; simp [texts, hf]
    · by_cases hfk : f k = true
      · simp only [List.filter_cons, hfk, if_true, texts, List.map_cons, List.find?_cons]
        have : (some k == some n) = false := by simpa using hk
        rw [this]; exact ih
      · simp only [List.filter_cons, hfk, texts, List.map_cons, List.find?_cons]
        have : (some k == some n) = false := by simpa using hk
        rw [this]; exact ih

theorem unrelated_ignored (sep n : PStr) (hn : n ≠ []) (s : Schema) (hname : s.name = some n) (e : Elem) (ps : List (PStr × PStr))
    (hnl : NamedMembers s → ∀ kv ∈ ps, kv.1 ≠ n ++ ['\n']) :
    setFlat sep s e (texts ps) = setFlat sep s e (texts (ps.filter fun kv => decide (Concerns sep n kv.1))) := by
  have hcp : childPrefix sep (some n) = n ++ sep := by cases n <;> simp_all [childPrefix]
  have htn : truthyName (some n) = some n := by cases n <;> simp_all [truthyName]
  cases s with
  | scalar h t =>
    simp only [Schema.name, Schema.hdr] at hname
    rw [setFlat, setFlat, scalarSetFlat, scalarSetFlat, hname,
      find_texts_filter n (fun k => decide (Concerns sep n k)) (by simp [Concerns])]
  | dict h mode po fs =>
    simp only [Schema.name, Schema.hdr] at hname
    rw [setFlat, setFlat, dictPossibles_texts, dictPossibles_texts, hname, List.filter_filter]
    have : ps.filter (fun x => (fieldPrefix sep (some n)).isPrefixOf x.1) =
        ps.filter fun x => (fieldPrefix sep (some n)).isPrefixOf x.1 && decide (Concerns sep n x.1) := by
      apply List.filter_congr
      intro x _
      simp only [fieldPrefix, Concerns]
      by_cases hp : n ++ sep <+: x.1 <;> simp [hp]
    rw [← this]
  | list h prune max m =>
    simp only [Schema.name, Schema.hdr] at hname
    rw [setFlat, setFlat, listMatches_texts, listMatches_texts, hname]
    have : matchesOf sep (some n) prune ps = matchesOf sep (some n) prune (ps.filter fun kv => decide (Concerns sep n kv.1)) := by
      unfold matchesOf
      induction ps with
      | nil => rfl
      | cons x ps ih =>
        have ih := ih (by simp [NamedMembers])
        obtain ⟨k, v⟩ := x
        by_cases hc : Concerns sep n k
        · simp only [List.filter_cons, hc, decide_true, if_true]
          split
          · simp only [List.filterMap_cons, ih]
          · exact ih
        · simp only [List.filter_cons, hc, decide_false, Bool.false_eq_true, if_false]
          rw [← ih]
          split
          · have hm : idxMatch sep (some n) k = none := by
              unfold idxMatch
              rw [idxPrefix_eq, hcp, if_neg]
              intro h
              rw [startsWith_iff] at h
              exact hc (.inr h)
            simp only [List.filterMap_cons, hm, Option.map_none]
          · rfl
    rw [this]
  | array h prune m =>
    simp only [Schema.name, Schema.hdr] at hname
    cases m with
    | scalar hm t =>
      have : arrayMembers sep h.name prune hm t (texts ps) =
          arrayMembers sep h.name prune hm t (texts (ps.filter fun kv => decide (Concerns sep n kv.1))) := by
        induction ps with
        | nil => rfl
        | cons x ps ih =>
          have ih := ih (fun h kv hkv => hnl h kv (by simp [hkv]))
          obtain ⟨k, v⟩ := x
          by_cases hc : Concerns sep n k
          · simp only [List.filter_cons, hc, decide_true, if_true]
            simp only [texts, List.map_cons] at ih ⊢
            rw [arrayMembers, arrayMembers, ih]
          · simp only [List.filter_cons, hc, decide_false, Bool.false_eq_true, if_false]
            rw [← ih]
            simp only [texts, List.map_cons]
            rw [arrayMembers]
            have hp : arrayPick sep h.name hm.name prune (some k, v) = .ok none := by
              simp only [Concerns, not_or] at hc
              have h1 : startsWith k (n ++ sep) = false := by
                apply Bool.eq_false_iff.2
                rw [Ne, startsWith_iff]; exact hc.2
              have h2 : (k == n) = false := by simpa using hc.1
              rw [hname, arrayPick, htn]
              simp only [h1, h2, Bool.false_eq_true, if_false, Bool.false_or]
              by_cases h3 : k = n ++ ['\n']
              · have hmn : hm.name = none := by
                  apply Classical.byContradiction
                  intro h0
                  exact hnl h0 (k, v) (by simp) h3
                subst h3
                simp [hmn, truthyName, orNone]
              · have : (k == n ++ ['\n']) = false := by simpa using h3
                simp [this]
            rw [hp]
            rfl
      rw [setFlat, setFlat, this]
    | dict | list | array => rw [setFlat, setFlat]; all_goals simp

omit [Runtime] in
theorem startsAs (f : Schema) (k : Elem) : StartsAs f k (orFresh f k) :=
  ⟨by rintro rfl; rfl, fun hk => by cases k <;> simp_all [orFresh]⟩

theorem dict_fields (sep : PStr) (h : Hdr) (mode : DictMode) (po : Policy) (fs : List Schema) (kids : List Elem)
    (hk : kids.length = fs.length) (ps : List (PStr × PStr)) (e' : Elem)
    (hr : setFlat sep (.dict h mode po fs) (.dict h.name kids) (texts ps) = .ok e') :
    ∃ kids', e' = .dict h.name kids' ∧ kids'.length = fs.length ∧
      ∀ (i : Nat) f fn k k', fs[i]? = some f → f.name = some fn → kids[i]? = some k → kids'[i]? = some k' →
        ((∀ kv ∈ ps, ¬ fieldPrefix sep h.name ++ fn <+: kv.1) → k' = k) ∧
        ((∃ kv ∈ ps, fieldPrefix sep h.name ++ fn <+: kv.1) →
          setFlat sep f (orFresh f k) (texts ((ps.filter fun kv => decide (fieldPrefix sep h.name ++ fn <+: kv.1)).map
            fun kv => (kv.1.drop (fieldPrefix sep h.name).length, kv.2))) = .ok k') := by
  have hfilter : ∀ fn : PStr, ((ps.filter fun x => (fieldPrefix sep h.name).isPrefixOf x.1).map
        fun x => (x.1.drop (fieldPrefix sep h.name).length, x.2)).filter (fun x => fn.isPrefixOf x.1) =
      (ps.filter fun kv => decide (fieldPrefix sep h.name ++ fn <+: kv.1)).map
            fun kv => (kv.1.drop (fieldPrefix sep h.name).length, kv.2) := by
    intro fn
    rw [List.filter_map, List.filter_filter]
    congr 1
    apply List.filter_congr
    intro x _
    rw [Bool.eq_iff_iff]
    simp only [Function.comp, Bool.and_eq_true, List.isPrefixOf_iff_prefix, decide_eq_true_eq]
    constructor
    · rintro ⟨h1, ⟨u, hu⟩⟩
      rw [← hu] at h1
      simp only [List.drop_left] at h1
      obtain ⟨w, hw⟩ := h1
      exact ⟨w, by rw [← hu, ← hw, List.append_assoc]⟩
    · rintro ⟨t, ht⟩
      rw [← ht, List.append_assoc]
      simp only [List.drop_left]
      exact ⟨List.prefix_append .., List.prefix_append ..⟩
  rw [setFlat, dictPossibles_texts] at hr
  simp only [texts_isEmpty, Elem.kids] at hr
  split at hr
  · rename_i h0
    simp only [Except.ok.injEq] at hr
    subst hr
    refine ⟨kids, rfl, hk, ?_⟩
    intro i f fn k k' hf hfn hk1 hk2
    rw [hk1] at hk2
    simp only [Option.some.injEq] at hk2
    refine ⟨fun _ => hk2.symm, ?_⟩
    rintro ⟨kv, hkv, hp⟩
    exfalso
    have := hfilter fn
    rw [List.isEmpty_iff.1 h0] at this
    simp only [List.filter_nil] at this
    have := List.map_eq_nil_iff.1 this.symm
    rw [List.filter_eq_nil_iff] at this
    exact this kv hkv (by simpa using hp)
  · split at hr
    · simp at hr
    · rename_i kids' hkids
      simp only [Except.ok.injEq] at hr
      obtain ⟨hl, hall⟩ := setFlatFields_get _ _ _ _ hkids
      refine ⟨kids', hr.symm, hl, ?_⟩
      intro i f fn k k' hf hfn hk1 hk2
      obtain ⟨accum, ha, hb⟩ := hall i f k' hf hk2
      rw [hfn, accumField_texts, hfilter] at ha
      simp only [Except.ok.injEq] at ha
      rw [hk1] at hb
      simp only [Option.getD_some, ← ha, texts_isEmpty] at hb
      constructor
      · intro hno
        have : (ps.filter fun kv => decide (fieldPrefix sep h.name ++ fn <+: kv.1)) = [] := by
          rw [List.filter_eq_nil_iff]
          intro kv hkv; simpa using hno kv hkv
        rw [this] at hb
        simpa [eq_comm] using hb
      · rintro ⟨kv, hkv, hp⟩
        rw [if_neg] at hb
        · exact hb
        · intro h0
          have := List.map_eq_nil_iff.1 (List.isEmpty_iff.1 h0)
          rw [List.filter_eq_nil_iff] at this
          exact this kv hkv (by simpa using hp)

omit [Runtime] in
theorem freshFields_length (mode : DictMode) (fs : List Schema) : (freshFields mode fs).length = fs.length := by
  induction fs with
  | nil => rfl
  | cons f fs ih => simp [freshFields, ih]

omit [Runtime] in
theorem freshFields_get (mode : DictMode) (fs : List Schema) (i : Nat) (f : Schema) (hf : fs[i]? = some f) :
    (freshFields mode fs)[i]? = some (if autoField mode f then fresh f else .absent) := by
  induction fs generalizing i with
  | nil => simp at hf
  | cons g fs ih =>
    cases i with
    | zero => simp at hf; subst hf; simp [freshFields]
    | succ i => simp at hf; simp [freshFields, ih i hf]

theorem setFlatFields_congr {sep : PStr} : ∀ (fs : List Schema) (kids : List Elem) (ps qs : List FPair),
    (∀ f ∈ fs, accumField f.name ps = accumField f.name qs) → setFlatFields sep fs kids ps = setFlatFields sep fs kids qs
  | [], _, _, _, _ => by rw [setFlatFields, setFlatFields]
  | f :: fs, kids, ps, qs, h => by
    rw [setFlatFields, setFlatFields, h f (by simp), setFlatFields_congr fs kids.tail ps qs fun g hg => h g (by simp [hg])]

theorem setFlatFields_nil {sep : PStr} : ∀ (fs : List Schema) (kids : List Elem), kids.length = fs.length →
    setFlatFields sep fs kids [] = .ok kids
  | [], [], _ => by rw [setFlatFields]
  | f :: fs, k :: kids, h => by
    rw [setFlatFields]
    simp [accumField, setFlatFields_nil fs kids (by simpa using h)]

theorem unnamed_dict_ignored (sep : PStr) (h : Hdr) (hname : h.name = none) (mode : DictMode) (po : Policy) (fs : List Schema)
    (hf : ∀ f ∈ fs, f.name ≠ none) (kids : List Elem) (hk : kids.length = fs.length) (ps : List (PStr × PStr)) :
    setFlat sep (.dict h mode po fs) (.dict none kids) (texts ps) =
    setFlat sep (.dict h mode po fs) (.dict none kids)
      (texts (ps.filter fun kv => decide (∃ f ∈ fs, ∃ fn, f.name = some fn ∧ fn <+: kv.1))) := by
  have key : ∀ qs : List (PStr × PStr), setFlat sep (.dict h mode po fs) (.dict none kids) (texts qs) =
      match setFlatFields sep fs kids (texts qs) with
        | .error er => .error er
        | .ok kids => .ok (.dict none kids) := by
    intro qs
    rw [setFlat, hname, dictPossibles]
    simp only [Elem.kids]
    split
    · rename_i h0
      rw [texts_isEmpty] at h0
      rw [List.isEmpty_iff.1 h0]
      show _ = match setFlatFields sep fs kids [] with | .error er => _ | .ok kids => _
      rw [setFlatFields_nil fs kids hk]
    · rfl
  rw [key, key]
  rw [setFlatFields_congr fs kids (texts ps) _ ?_]
  intro f hfm
  cases hfn : f.name with
  | none => exact absurd hfn (hf f hfm)
  | some fn =>
    rw [accumField_texts, accumField_texts, List.filter_filter]
    congr 2
    apply List.filter_congr
    intro x _
    rw [Bool.eq_iff_iff]
    simp only [Bool.and_eq_true, List.isPrefixOf_iff_prefix, decide_eq_true_eq]
    exact ⟨fun h => ⟨h, f, hfm, fn, hfn, h⟩, fun h => h.1⟩

theorem list_of_dicts_raises (sep : PStr) (hs : sep ≠ []) (n : PStr) (hn : n ≠ []) (hd : Hdr) (hdn : hd.name = none) (mode : DictMode) (po : Policy)
    (f : Schema) (fs : List Schema) (o : Bool) (d : Option PyVal) (prune : Bool) (max : Nat) (hmax : max ≠ 0) (e : Elem) :
    setFlat sep (.list ⟨some n, o, d⟩ prune max (.dict hd mode po (f :: fs))) e
      (texts [(n ++ sep ++ ['0'], ['x'])]) = .error .attribute := by
  have hcp : n ++ sep = childPrefix sep (some n) := by cases n <;> simp_all [childPrefix]
  rw [setFlat, listMatches_texts]
  have hms : matchesOf sep (some n) prune [(n ++ sep ++ ['0'], ['x'])] = [(0, none, ['x'])] := by
    unfold matchesOf
    have : ([(n ++ sep ++ ['0'], ['x'])] : List (PStr × PStr)).filter (fun x => !(x.2 == [] && prune)) =
      [(n ++ sep ++ ['0'], ['x'])] := by simp
    rw [this, hcp]
    simp only [List.filterMap_cons, idxMatch_zero sep hs, Option.map_some, List.filterMap_nil]
  rw [hms]
  have h0 : (if prune = true then (sortedIdx [(0, (none : Option PStr), ['x'])]).take max
      else List.range (min (maxIdx [(0, (none : Option PStr), ['x'])] + 1) max)) = [0] := by
    split
    · cases max with
      | zero => exact absurd rfl hmax
      | succ k => simp [sortedIdx, insertIdx]
    · have : min (maxIdx [(0, (none : Option PStr), ['x'])] + 1) max = 1 := by simp [maxIdx]; omega
      rw [this]; rfl
  simp only [List.isEmpty_cons, Bool.false_eq_true, if_false]
  rw [h0]
  have hsub : subPairs [(0, none, ['x'])] 0 = [(none, ['x'])] := rfl
  have : setFlat sep (.dict hd mode po (f :: fs)) (fresh (.dict hd mode po (f :: fs))) [(none, ['x'])] = .error .attribute := by
    rw [setFlat, hdn, dictPossibles]
    simp [setFlatFields, accumField]
  simp [hsub, this, bind, Except.bind]

end

end Flatland
