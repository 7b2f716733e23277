import Verif.Spec.ArrayFlat
import Verif.Proofs.SetFlat
/-
Property C15 for Arrays: exactly which members an Array has after `set_flat`.
-/
namespace Flatland
open Spec

section
variable [Runtime]

omit [Runtime] in
/-- the key that the member class is asked for, and the pair it is given -/
theorem arrayPick_taken {sep : PStr} (hsep : sep ≠ []) (hnl : sep ≠ ['\n']) {name child : Option PStr} (hn : GoodName name) (hc : GoodName child)
    (prune : Bool) (k v : PStr) :
    (takenFrom sep name child prune k v = .nothing ∧ arrayPick sep name child prune (some k, v) = .ok none) ∨
    (takenFrom sep name child prune k v = .blank ∧ ∃ key, key ≠ child ∧ arrayPick sep name child prune (some k, v) = .ok (some key)) ∨
    (takenFrom sep name child prune k v = .value v ∧ arrayPick sep name child prune (some k, v) = .ok (some child)) := by
  have hb : ∀ b : Bool, (prune && v == [] && b) = (decide (prune = true ∧ v = []) && b) := by
    intro b; cases prune <;> cases v <;> rfl
  cases name with
  | none =>
    simp only [arrayPick, truthyName, hb]
    cases child with
    | none =>
      by_cases hk : k = []
      · subst hk
        by_cases hp : prune = true ∧ v = []
        · left; simp [takenFrom, takeValue, hp]
        · right; right; simp [takenFrom, takeValue, hp]
      · right; left; simp [takenFrom, hk]
    | some c =>
      have hc1 := (hc c rfl).1
      have hk0 : ∀ k : PStr, (if (some k == some ([] : PStr)) = true then none else some k) = orNone k := by
        intro k; cases k <;> simp [orNone]
      by_cases hk : k = c
      · subst hk
        by_cases hp : prune = true ∧ v = []
        · left; simp [takenFrom, takeValue, hp]
        · right; right; simp [takenFrom, takeValue, hp, hc1]
      · left
        refine ⟨by simp [takenFrom, hk], ?_⟩
        rw [hk0]
        have : orNone k ≠ some c := by cases k <;> simp_all [orNone]
        simp [this, hk]
        cases c with
        | nil => exact absurd rfl hc1
        | cons => simp
  | some n =>
    simp only [arrayPick, truthyName_good hn, truthyName_good hc, hb]
    have hn1 := (hn n rfl).1
    have hn2 := (hn n rfl).2
    by_cases hs : n ++ sep <+: k
    · obtain ⟨r, rfl⟩ := hs
      have h1 : startsWith (n ++ sep ++ r) (n ++ sep) = true := by rw [startsWith_iff]; exact List.prefix_append ..
      simp only [h1, if_true, List.drop_left]
      cases child with
      | none =>
        by_cases hr : r = []
        · subst hr
          by_cases hp : prune = true ∧ v = []
          · left; simp [takenFrom, takeValue, hp, orNone]
          · right; right; simp [takenFrom, takeValue, hp, orNone]
        · left
          have : orNone r = some r := by cases r <;> simp_all [orNone]
          have h2 : n ++ sep ++ r ≠ n := by
            intro h; have := congrArg List.length h
            simp [hsep] at this
          simp [takenFrom, this, hr, hsep]
      | some c =>
        have hc1 := (hc c rfl).1
        by_cases hr : r = []
        · subst hr
          left
          have h3 : n ++ sep ≠ n ++ ['\n'] := by simpa using hnl
          simp [takenFrom, orNone, h3, hc1]
        · have ho : orNone r = some r := by cases r <;> simp_all [orNone]
          simp only [ho]
          by_cases hrc : r = c
          · subst hrc
            by_cases hp : prune = true ∧ v = []
            · left; simp [takenFrom, takeValue, hp]
            · right; right; simp [takenFrom, takeValue, hp]
          · right; left
            refine ⟨by simp [takenFrom, hrc, hr], some r, by simpa using hrc, ?_⟩
            simp [hrc]
    · have h1 : startsWith k (n ++ sep) = false := by rw [← Bool.not_eq_true, startsWith_iff]; exact hs
      simp only [h1]
      have hns : k ≠ n ++ sep := by rintro rfl; exact hs (List.prefix_refl _)
      by_cases hk : k = n
      · subst hk
        cases child with
        | none =>
          by_cases hp : prune = true ∧ v = []
          · left; simp [takenFrom, takeValue, hp, orNone]
          · right; right; simp [takenFrom, takeValue, hp, orNone]
        | some c =>
          have hc1 := (hc c rfl).1
          left
          simp [takenFrom, orNone, hs, hsep, hc1]
      · by_cases hl : k = n ++ ['\n']
        · subst hl
          cases child with
          | none =>
            left
            simp [takenFrom, hnl.symm, orNone]
          | some c =>
            have hcn : c ≠ ['\n'] := by rintro rfl; exact (hc _ rfl).2 (by simp)
            have h4 : n ++ ['\n'] ≠ n ++ sep ++ c := by
              intro h
              exact hs (h ▸ List.prefix_append ..)
            right; left
            refine ⟨?_, some ['\n'], by simpa using hcn.symm, ?_⟩
            · simp only [takenFrom, h4, if_false]; simp
            · simp [orNone, hcn.symm]
        · left
          have h5 : ∀ c, k ≠ n ++ sep ++ c := fun c h => hs (h ▸ List.prefix_append ..)
          refine ⟨?_, by simp [hk, hl]⟩
          cases child with
          | none => simp [takenFrom, hk, hns]
          | some c => simp only [takenFrom, h5, if_false]; simp [hs, hl]

/-- **C15.** An Array of scalars after `set_flat`: one member for each pair that is taken, in the order of the submission, new, and set
to the submitted value if the key is the right one.  It raises only if setting a member does. -/
theorem C15_array_members (sep : PStr) (hsep : sep ≠ []) (hnl : sep ≠ ['\n']) (h : Hdr) (prune : Bool) (hm : Hdr) (t : ScalarType)
    (hn : GoodName h.name) (hc : GoodName hm.name) (ht : TextSafe t) (e : Elem) (ps : List (PStr × PStr)) :
    setFlat sep (.array h prune (.scalar hm t)) e (texts ps) =
      .ok (.array h.name (ps.filterMap fun p => memberOf hm t (takenFrom sep h.name hm.name prune p.1 p.2))) := by
  have : arrayMembers sep h.name prune hm t (texts ps) =
      .ok (ps.filterMap fun p => memberOf hm t (takenFrom sep h.name hm.name prune p.1 p.2)) := by
    induction ps with
    | nil => rfl
    | cons p ps ih =>
      obtain ⟨k, v⟩ := p
      rw [texts, List.map_cons, arrayMembers, ← texts, ih]
      rcases arrayPick_taken hsep hnl hn hc prune k v with ⟨h1, h2⟩ | ⟨h1, key, hk, h2⟩ | ⟨h1, h2⟩
      · rw [h2]
        simp only [List.filterMap_cons, h1, memberOf]
        rfl
      · rw [h2]
        have hset : scalarSetFlat hm.name t .fresh [(key, v)] = .ok (.scalar hm.name .fresh) := by
          simp [scalarSetFlat, hk, ScalarState.fresh]
        simp only [List.filterMap_cons, h1, memberOf]
        simp only [bind, Except.bind, hset]
      · rw [h2]
        obtain ⟨b, hb⟩ := ht .fresh v
        have hset : scalarSetFlat hm.name t .fresh [(hm.name, v)] = .ok (.scalar hm.name (scalarSet t .fresh (.str v)).1) := by
          have : scalarSet t { ScalarState.fresh with raw := none } (.str v) = ((scalarSet t .fresh (.str v)).1, .ok b) := by
            rw [← hb]; rfl
          simp [scalarSetFlat, this]
        simp only [List.filterMap_cons, h1, memberOf]
        simp only [bind, Except.bind, hset]
  rw [setFlat, this]

end

section
attribute [local instance] Runtime.ascii

example : takenFrom "_".toList (some "t".toList) none true "t".toList "v".toList = .value "v".toList := by decide
example : takenFrom "_".toList (some "t".toList) none true "t".toList [] = .nothing := by decide
example : takenFrom "_".toList (some "t".toList) (some "x".toList) true "t_x".toList "v".toList = .value "v".toList := by decide
example : takenFrom "_".toList (some "t".toList) (some "x".toList) true "t".toList "v".toList = .nothing := by decide
example : takenFrom "_".toList (some "t".toList) (some "x".toList) true "t_y".toList [] = .blank := by decide
example : TextSafe (stringType true) := fun st x => builtin_text_ok (.string true) st x

end
end Flatland
