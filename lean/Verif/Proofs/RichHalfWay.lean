import Verif.Spec.RichHalfWay
import Verif.Proofs.RichEdits
import Verif.Proofs.HalfWay
/-! Where calls on elements of forms with DateYYYYMMDDs and JoinedStrings stop when they raise. -/
namespace Flatland
open Flatland.Spec

section
variable [Runtime]

theorem richFieldsFlat_stopped (sep : PStr) : ∀ (fs : List VSchema) (ks ks' : List Elem) (ps : List FPair) (er : PyErr), ks.length = fs.length →
    richFieldsFlat sep fs ks ps = (ks', .error er) →
    ∃ j, j < fs.length ∧ ks'.length = ks.length ∧ ks'.drop (j + 1) = ks.drop (j + 1) ∧
      richFieldsFlat sep (fs.take j) (ks.take j) ps = (ks'.take j, .ok ()) ∧
      ∃ f k k', fs[j]? = some f ∧ ks[j]? = some k ∧ ks'[j]? = some k' ∧
        ((k' = k ∧ accumField f.name ps = .error er) ∨
          ∃ qs, accumField f.name ps = .ok qs ∧ richSetFlat sep f (orFresh (under f) k) qs = (k', .error er))
  | [], ks, ks', ps, er, _, h => by simp [richFieldsFlat] at h
  | f :: fs, [], ks', ps, er, hl, h => by simp at hl
  | f :: fs, k :: ks, ks', ps, er, hl, h => by
    unfold richFieldsFlat at h
    cases ha : accumField f.name ps with
    | error er' =>
      rw [ha] at h
      simp only [Prod.mk.injEq] at h
      rw [← h.1]
      cases h.2
      exact ⟨0, by simp, rfl, rfl, rfl, f, k, k, rfl, rfl, rfl, .inl ⟨rfl, ha⟩⟩
    | ok accum =>
      rw [ha] at h
      simp only [List.headD_cons, List.tail_cons] at h
      cases hq : (if accum.isEmpty then (k, .ok ()) else richSetFlat sep f (orFresh (under f) k) accum) with
      | mk b y =>
        rw [hq] at h
        cases y with
        | error er' =>
          simp only [Prod.mk.injEq] at h
          rw [← h.1]
          cases h.2
          refine ⟨0, by simp, by simp, rfl, rfl, f, k, b, rfl, rfl, rfl, .inr ⟨accum, ha, ?_⟩⟩
          split at hq
          · cases hq
          · exact hq
        | ok u =>
          simp only [Prod.mk.injEq] at h
          obtain ⟨j, hj, hlen, hd, ht, g, l, l', g1, g2, g3, g4⟩ :=
            richFieldsFlat_stopped sep fs ks (richFieldsFlat sep fs ks ps).1 ps er (by simpa using hl) (Prod.ext rfl h.2)
          rw [← h.1]
          refine ⟨j + 1, by simp; omega, by simp [hlen], by simpa using hd, ?_, g, l, l', by simpa using g1, by simpa using g2, by simpa using g3, g4⟩
          simp only [List.take_succ_cons]
          conv => lhs; unfold richFieldsFlat
          rw [ha]
          simp only [List.headD_cons, List.tail_cons, hq, ht]

theorem richDefaultKids_stopped : ∀ (fs : List VSchema) (ks ks' : List Elem) (er : PyErr), ks.length = fs.length →
    richDefaultKids fs ks = (ks', .error er) →
    ∃ j, j < fs.length ∧ ks'.length = ks.length ∧ ks'.drop (j + 1) = ks.drop (j + 1) ∧
      richDefaultKids (fs.take j) (ks.take j) = (ks'.take j, .ok ()) ∧
      ∃ f k k', fs[j]? = some f ∧ ks[j]? = some k ∧ ks'[j]? = some k' ∧ ∃ er, richDefault f k = (k', .error er)
  | [], ks, ks', er, _, h => by simp [richDefaultKids] at h
  | f :: fs, [], ks', er, hl, h => by simp at hl
  | f :: fs, k :: ks, ks', er, hl, h => by
    unfold richDefaultKids at h
    simp only at h
    cases hq : richDefault f k with
    | mk b y =>
      rw [hq] at h
      cases y with
      | error er' =>
        simp only [Prod.mk.injEq] at h
        rw [← h.1]
        exact ⟨0, by simp, by simp, rfl, by simp [richDefaultKids], f, k, b, rfl, rfl, rfl, er', hq⟩
      | ok u =>
        simp only [Prod.mk.injEq] at h
        obtain ⟨j, hj, hlen, hd, ht, g, l, l', g1, g2, g3, g4⟩ :=
          richDefaultKids_stopped fs ks (richDefaultKids fs ks).1 er (by simpa using hl) (Prod.ext rfl h.2)
        rw [← h.1]
        refine ⟨j + 1, by simp; omega, by simp [hlen], by simpa using hd, ?_, g, l, l', by simpa using g1, by simpa using g2, by simpa using g3, g4⟩
        simp only [List.take_succ_cons]
        conv => lhs; unfold richDefaultKids
        simp only [hq, ht]

theorem richDefaultRequired_stopped : ∀ (fs : List VSchema) (ks' : List Elem) (er : PyErr), richDefaultRequired fs = (ks', .error er) →
    ∃ j f, fs[j]? = some f ∧ f.hdr.optional = false ∧ (∃ k er, richDefault f (fresh (under f)) = (k, .error er)) ∧
      freshFields .sparseRequired (unders (fs.drop j)) = ks'.drop j ∧ richDefaultRequired (fs.take j) = (ks'.take j, .ok ())
  | [], ks', er, h => by simp [richDefaultRequired] at h
  | f :: fs, ks', er, h => by
    unfold richDefaultRequired at h
    by_cases hopt : f.hdr.optional = true
    · simp only [hopt, if_true, Prod.mk.injEq] at h
      obtain ⟨j, g, h1, h2, h3, h4, h5⟩ := richDefaultRequired_stopped fs (richDefaultRequired fs).1 er (Prod.ext rfl h.2)
      rw [← h.1]
      refine ⟨j + 1, g, by simpa using h1, h2, h3, by simpa using h4, ?_⟩
      rw [List.take_succ_cons, List.take_succ_cons, richDefaultRequired]
      simp only [hopt, if_true, h5]
    · simp only [hopt, if_false, Bool.false_eq_true] at h
      cases hq : richDefault f (fresh (under f)) with
      | mk b y =>
        rw [hq] at h
        cases y with
        | error er' =>
          simp only [Prod.mk.injEq] at h
          rw [← h.1]
          refine ⟨0, f, rfl, by simpa using hopt, ⟨b, er', hq⟩, ?_, by simp [richDefaultRequired]⟩
          rw [List.drop_zero, List.drop_zero, unders, freshFields]
          simp [autoField, hopt, under_hdr]
        | ok u =>
          simp only [Prod.mk.injEq] at h
          obtain ⟨j, g, h1, h2, h3, h4, h5⟩ := richDefaultRequired_stopped fs (richDefaultRequired fs).1 er (Prod.ext rfl h.2)
          rw [← h.1]
          refine ⟨j + 1, g, by simpa using h1, h2, h3, by simpa using h4, ?_⟩
          rw [List.take_succ_cons, List.take_succ_cons, richDefaultRequired]
          simp only [hopt, if_false, hq, Bool.false_eq_true, h5]

theorem richRunners_eq : ∀ fs : List VSchema, richRunners fs = fs.map fun f k v => richSet f (orFresh (under f) k) v
  | [] => by simp [richRunners]
  | f :: fs => by rw [richRunners, richRunners_eq fs]; rfl

omit [Runtime] in
theorem seqSetRun_raised {run : PyVal → Ended Elem Bool} {v : PyVal} {er : PyErr} (h : (seqSetRun run v).2 = .error er) : (seqSetRun run v).1 = [] := by
  unfold seqSetRun at h ⊢
  split
  · rfl
  · split
    · rfl
    · rfl
    · rename_i h1 _ _ _ h2; simp [h1, h2] at h

omit [Runtime] in
/-- `extend` stops before the member that raises -/
theorem extendRun_before {run : PyVal → Ended Elem Bool} : ∀ {vs : List PyVal} {ks : List Elem} {er : PyErr}, extendRun run vs = (ks, .error er) →
    ∃ j x k b, vs[j]? = some x ∧ run x = (k, .error er) ∧ membersRun run (vs.take j) = .ok (ks, b)
  | [], ks, er, h => by simp [extendRun] at h
  | v :: vs, ks, er, h => by
    unfold extendRun at h
    simp only at h
    cases hq : run v with
    | mk b y =>
      rw [hq] at h
      cases y with
      | error er' =>
        simp only [Prod.mk.injEq] at h
        obtain ⟨rfl, h2⟩ := h
        cases h2
        exact ⟨0, v, b, true, rfl, hq, rfl⟩
      | ok u =>
        simp only [Prod.mk.injEq] at h
        obtain ⟨j, x, k, c, h1, h2, h3⟩ := extendRun_before (vs := vs) (ks := (extendRun run vs).1) (er := er) (Prod.ext rfl h.2)
        rw [← h.1]
        refine ⟨j + 1, x, k, u && c, by simpa using h1, h2, ?_⟩
        rw [List.take_succ_cons, membersRun]
        simp only [hq, h3]

/-- the loop of `JoinedString.set` stops before the member that raises -/
theorem joinedLoop_before (c : JoinedCfg) : ∀ {vs : List PyVal} {ms : List ScalarState} {er : PyErr}, joinedLoop c vs = (ms, .error er) →
    ∃ j x st b, vs[j]? = some x ∧ (c.prune = true → truthy x = true) ∧ scalarSet c.member .fresh x = (st, .error er) ∧
      joinedLoop c (vs.take j) = (ms, .ok b)
  | [], ms, er, h => by simp [joinedLoop] at h
  | v :: vs, ms, er, h => by
    unfold joinedLoop at h
    by_cases hp : (c.prune && !truthy v) = true
    · rw [if_pos hp] at h
      obtain ⟨j, x, st, b, h1, h2, h3, h4⟩ := joinedLoop_before c h
      exact ⟨j + 1, x, st, b, by simpa using h1, h2, h3, by rw [List.take_succ_cons, joinedLoop, if_pos hp, h4]⟩
    · rw [if_neg hp] at h
      cases hq : scalarSet c.member .fresh v with
      | mk st y =>
        rw [hq] at h
        cases y with
        | error er' =>
          simp only [Prod.mk.injEq] at h
          obtain ⟨rfl, h2⟩ := h
          cases h2
          refine ⟨0, v, st, true, rfl, fun hc => ?_, hq, rfl⟩
          simpa [hc] using hp
        | ok ok =>
          simp only [Prod.mk.injEq] at h
          cases hr : (joinedLoop c vs).2 with
          | ok b' => rw [hr] at h; simp [Except.map] at h
          | error er' =>
            rw [hr] at h
            have her : er' = er := by simpa [Except.map] using h.2
            subst her
            obtain ⟨j, x, st', b, h1, h2, h3, h4⟩ := joinedLoop_before c (vs := vs) (ms := (joinedLoop c vs).1) (er := er') (Prod.ext rfl hr)
            refine ⟨j + 1, x, st', ok && b, by simpa using h1, h2, h3, ?_⟩
            rw [List.take_succ_cons, joinedLoop, if_neg hp]
            simp only [hq, h4, ← h.1, Except.map]

omit [Runtime] in
theorem joinedValues_pieces (c : JoinedCfg) (v : PyVal) (vs : List PyVal) (h : joinedValues c v = .ok vs) : PiecesOf c v vs := by
  cases v with
  | str s =>
    unfold joinedValues at h
    cases hr : c.regex with
    | some f => rw [hr] at h; cases h; exact .inl ⟨f, hr, rfl⟩
    | none =>
      rw [hr] at h
      by_cases hs : c.separator = []
      · simp [hs] at h
      · simp only [hs, if_false] at h
        cases h
        exact .inr ⟨hr, hs, rfl⟩
  | list xs => simp only [joinedValues, Except.ok.injEq] at h; subst h; rfl
  | _ => all_goals first | (simp only [joinedValues, pyIter, reduceCtorEq] at h; done) | (simp only [joinedValues, pyIter, Except.ok.injEq] at h; subst h; rfl)

omit [Runtime] in
theorem joinedValues_none (c : JoinedCfg) (v : PyVal) (er : PyErr) (h : joinedValues c v = .error er) : NoPieces c v := by
  cases v with
  | str s =>
    unfold joinedValues at h
    cases hr : c.regex with
    | some f => rw [hr] at h; cases h
    | none =>
      rw [hr] at h
      by_cases hs : c.separator = []
      · exact ⟨hr, hs⟩
      · simp [hs] at h
  | list xs => cases h
  | _ => all_goals first | rfl | (simp only [joinedValues, pyIter, reduceCtorEq] at h; done)

/-- a date's parts, set one after the other, up to the one that raises -/
theorem setKids_stopped : ∀ {ts : List ScalarType} {sts sts' : List ScalarState} {vs : List PyVal} {er : PyErr}, setKids ts sts vs = (sts', some er) →
    ∃ i t st v, ts[i]? = some t ∧ sts[i]? = some st ∧ vs[i]? = some v ∧ (scalarSet t st v).2 = .error er ∧ sts'[i]? = some (scalarSet t st v).1 ∧
      sts'.drop (i + 1) = sts.drop (i + 1)
  | [], sts, sts', vs, er, h => by simp [setKids] at h
  | _ :: _, [], sts', vs, er, h => by simp [setKids] at h
  | _ :: _, _ :: _, sts', [], er, h => by simp [setKids] at h
  | t :: ts, st :: sts, sts', v :: vs, er, h => by
    rw [setKids] at h
    cases hq : scalarSet t st v with
    | mk a y =>
      rw [hq] at h
      cases y with
      | error er' =>
        simp only [Prod.mk.injEq, Option.some.injEq] at h
        obtain ⟨rfl, rfl⟩ := h
        exact ⟨0, t, st, v, rfl, rfl, rfl, by rw [hq], by rw [hq]; rfl, rfl⟩
      | ok u =>
        simp only [Prod.mk.injEq] at h
        obtain ⟨i, t', st', v', h1, h2, h3, h4, h5, h6⟩ := setKids_stopped (ts := ts) (sts := sts) (sts' := (setKids ts sts vs).1) (vs := vs) (er := er) (Prod.ext rfl h.2)
        rw [← h.1]
        exact ⟨i + 1, t', st', v', by simpa using h1, by simpa using h2, by simpa using h3, h4, by simpa using h5, by simpa using h6⟩

end
end Flatland
