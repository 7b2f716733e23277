import Verif.Proofs.Paths
/-! Lemmas about splitting text, slice notation and the path cache. -/
namespace Flatland
open Flatland.Spec

/-! ### split -/

theorem splitGo_skip (sep a b acc : PStr) : splitGo sep a.length (a ++ b) acc = splitGo sep 0 b acc := by
  induction a with
  | nil => rfl
  | cons c a ih => simpa [splitGo] using ih

theorem splitGo_plain (c : Char) (cs a acc : PStr) (h : c ∉ a) : splitGo (c :: cs) 0 a acc = [acc.reverse ++ a] := by
  induction a generalizing acc with
  | nil => simp [splitGo]
  | cons x a ih =>
    simp at h
    simp only [splitGo]
    have : startsWith (x :: a) (c :: cs) = false := by
      show (c == x && _) = false
      simp [h.1]
    rw [this]
    simp [ih (x :: acc) h.2]

theorem splitGo_sep (c : Char) (cs a b acc : PStr) (h : c ∉ a) :
    splitGo (c :: cs) 0 (a ++ ((c :: cs) ++ b)) acc = (acc.reverse ++ a) :: splitGo (c :: cs) 0 b [] := by
  induction a generalizing acc with
  | nil =>
    simp only [List.nil_append, List.cons_append, splitGo]
    have : startsWith (c :: (cs ++ b)) (c :: cs) = true := by simp [startsWith]
    rw [this]
    simp [splitGo_skip]
  | cons x a ih =>
    simp at h
    have : startsWith (x :: (a ++ ((c :: cs) ++ b))) (c :: cs) = false := by
      show (c == x && _) = false
      simp [h.1]
    simp only [List.cons_append] at this ⊢
    simp only [splitGo, this]
    have := ih (x :: acc) h.2
    simp at this ⊢
    exact this

/-- splitting at a separator whose first character occurs in none of the parts gives the parts back -/
theorem pySplit_pyJoin (c : Char) (cs : PStr) (ps : List PStr) (h0 : ps ≠ []) (h : ∀ p ∈ ps, c ∉ p) :
    pySplit (c :: cs) (pyJoin (c :: cs) ps) = ps := by
  induction ps with
  | nil => contradiction
  | cons p ps ih =>
    cases ps with
    | nil => simp [pyJoin, pySplit, splitGo_plain c cs p [] (h p (by simp))]
    | cons q qs =>
      have := ih (by simp) (fun x hx => h x (by simp [hx]))
      simp only [pyJoin, pySplit, List.append_assoc] at this ⊢
      rw [splitGo_sep c cs p _ [] (h p (by simp)), this]
      simp

/-! ### spelled integers -/

theorem digits_all [Runtime] {s : PStr} : ∀ {a n : Nat}, digitsAcc a s = some n → ∀ c ∈ s, ∃ d, digit c = some d := by
  induction s with
  | nil => simp
  | cons x s ih =>
    intro a n h c hc
    simp only [digitsAcc] at h
    cases hx : digit x with
    | none => rw [hx] at h; cases h
    | some d =>
      rw [hx] at h
      simp at hc
      rcases hc with rfl | hc
      · exact ⟨d, hx⟩
      · exact ih h c hc

theorem digit_ne [Runtime] {x c : Char} {d : Nat} (h : digit x = some d) (hc : digit c = none) : x ≠ c := by
  intro he; rw [he, hc] at h; cases h

theorem digits_strip [Runtime] {s : PStr} {n : Nat} (h : Digits s n) : strip s = s :=
  strip_of_no_space fun c hc => by
    obtain ⟨d, hd⟩ := digits_all h.2 c hc
    exact digit_not_space hd

theorem parseDigits_digits [Runtime] {s : PStr} {n : Nat} (h : Digits s n) : parseDigits s = some n := by
  unfold parseDigits
  cases hs : s with
  | nil => exact absurd hs h.1
  | cons c cs => simpa [hs] using h.2

theorem pyInt_digits [Runtime] {s : PStr} {n : Nat} (h : Digits s n) : pyInt s = some (n : Int) := by
  unfold pyInt
  rw [digits_strip h]
  have hp := parseDigits_digits h
  cases hs : s with
  | nil => exact absurd hs h.1
  | cons c cs =>
    obtain ⟨d, hd⟩ := digits_all h.2 c (by simp [hs])
    have h1 := digit_ne hd Runtime.minus_not_digit
    have h2 := digit_ne hd Runtime.plus_not_digit
    rw [hs] at hp
    split
    · rename_i he; simp at he; exact absurd he.1 h1
    · rename_i he; simp at he; exact absurd he.1 h2
    · simp [hp]

theorem pyInt_minus [Runtime] {s : PStr} {n : Nat} (h : Digits s n) : pyInt ('-' :: s) = some (-(n : Int)) := by
  have hs : strip ('-' :: s) = '-' :: s := strip_of_no_space fun c hc => by
    simp at hc
    rcases hc with rfl | hc
    · exact Runtime.minus_not_space
    · obtain ⟨d, hd⟩ := digits_all h.2 c hc
      exact digit_not_space hd
  unfold pyInt
  rw [hs]
  simp [parseDigits_digits h]

theorem pyInt_spells [Runtime] {s : PStr} {i : Int} (h : Spells s i) : pyInt s = some i := by
  rcases h with ⟨n, h, rfl⟩ | ⟨ds, n, rfl, h, rfl⟩
  · exact pyInt_digits h
  · exact pyInt_minus h

theorem spells_ne_nil [Runtime] {s : PStr} {i : Int} (h : Spells s i) : s ≠ [] := by
  rcases h with ⟨n, h, rfl⟩ | ⟨ds, n, rfl, h, rfl⟩
  · exact h.1
  · simp

theorem spells_mem [Runtime] {s : PStr} {o : Option Int} (h : SpellsOpt s o) : ∀ c ∈ s, c = '-' ∨ ∃ d, digit c = some d := by
  intro c hc
  cases o with
  | none => rw [h] at hc; simp at hc
  | some i =>
    rcases h with ⟨n, h, rfl⟩ | ⟨ds, n, rfl, h, rfl⟩
    · exact .inr (digits_all h.2 c hc)
    · simp at hc
      rcases hc with rfl | hc
      · exact .inl rfl
      · exact .inr (digits_all h.2 c hc)

theorem spells_not_mem [Runtime] {s : PStr} {o : Option Int} (h : SpellsOpt s o) {c : Char} (h1 : c ≠ '-') (h2 : digit c = none) : c ∉ s := by
  intro hc
  rcases spells_mem h c hc with h | ⟨d, hd⟩
  · exact h1 h
  · rw [h2] at hd; cases hd

/-- text that no integer can run on into -/
def IntStop [Runtime] : PStr → Prop
  | [] => True
  | c :: _ => c ≠ '-' ∧ digit c = none

theorem optInt_stop [Runtime] {r : PStr} (h : IntStop r) : optInt r = r := by
  cases r with
  | nil => rfl
  | cons c r => simp [optInt, optChar, h.1, h.2]

theorem dropWhile_digits [Runtime] {s r : PStr} {n a : Nat} (h : digitsAcc a s = some n) (hr : IntStop r) :
    (s ++ r).dropWhile (fun c => (digit c).isSome) = r := by
  have hall : ∀ c ∈ s, (digit c).isSome = true := by
    intro c hc
    obtain ⟨d, hd⟩ := digits_all h c hc
    simp [hd]
  rw [dropWhile_append_all hall]
  cases r with
  | nil => rfl
  | cons c r => simp [hr.2]

theorem optInt_spells [Runtime] {s r : PStr} {o : Option Int} (h : SpellsOpt s o) (hr : IntStop r) : optInt (s ++ r) = r := by
  cases o with
  | none => rw [show s = [] from h]; exact optInt_stop hr
  | some i =>
    rcases h with ⟨n, h, rfl⟩ | ⟨ds, n, rfl, h, rfl⟩
    · cases hs : s with
      | nil => exact absurd hs h.1
      | cons c cs =>
        obtain ⟨d, hd⟩ := digits_all h.2 c (by simp [hs])
        have h1 := digit_ne hd Runtime.minus_not_digit
        rw [optInt, List.cons_append, optChar, if_neg h1, ← List.cons_append, ← hs]
        exact dropWhile_digits h.2 hr
    · rw [optInt, List.cons_append, optChar, if_pos rfl]
      exact dropWhile_digits h.2 hr

theorem intStop_colon [Runtime] (r : PStr) : IntStop (':' :: r) := ⟨by decide, Runtime.colon_not_digit⟩

theorem sliceSpec_one [Runtime] {a : PStr} {o : Option Int} (h : SpellsOpt a o) : sliceSpec a = true := by
  have h1 : optInt a = [] := by simpa using optInt_spells (r := []) h trivial
  have h2 : optInt [] = [] := rfl
  simp only [sliceSpec, h1, optChar, h2, List.isEmpty_nil]

theorem sliceSpec_two [Runtime] {a b : PStr} {o p : Option Int} (h : SpellsOpt a o) (h' : SpellsOpt b p) :
    sliceSpec (a ++ ':' :: b) = true := by
  have h1 : optInt (a ++ ':' :: b) = ':' :: b := optInt_spells h (intStop_colon b)
  have h2 : optInt b = [] := by simpa using optInt_spells (r := []) h' trivial
  simp [sliceSpec, h1, optChar, h2]
  simp [optInt, optChar]

theorem sliceSpec_three [Runtime] {a b c : PStr} {o p q : Option Int} (h : SpellsOpt a o) (h' : SpellsOpt b p) (h'' : SpellsOpt c q) :
    sliceSpec (a ++ ':' :: (b ++ ':' :: c)) = true := by
  have h1 : optInt (a ++ ':' :: (b ++ ':' :: c)) = ':' :: (b ++ ':' :: c) := optInt_spells h (intStop_colon _)
  have h2 : optInt (b ++ ':' :: c) = ':' :: c := optInt_spells h' (intStop_colon c)
  have h3 : optInt c = [] := by simpa using optInt_spells (r := []) h'' trivial
  simp [sliceSpec, h1, optChar, h2, h3]

theorem takeWhile_all {α} {p : α → Bool} {s r : List α} (h : ∀ c ∈ s, p c = true) (hr : ∀ c, r.head? = some c → p c = false) :
    (s ++ r).takeWhile p = s ∧ (s ++ r).dropWhile p = r := by
  induction s with
  | nil =>
    cases r with
    | nil => simp
    | cons c r => simp [hr c rfl]
  | cons x s ih =>
    have := ih (fun c hc => h c (by simp [hc]))
    simp [h x (by simp), this]

theorem findAll_bracket [Runtime] (s : PStr) (h : ']' ∉ s) (hs : sliceSpec s = true) :
    findAll 0 .none ('[' :: s ++ [']']) = [('[' :: s ++ [']'], s)] := by
  have hn : nameRun ('[' :: s ++ [']']) = [] := nameRun_stop (Or.inr rfl)
  have hb : bracketed (s ++ [']']) = some s := by
    have := takeWhile_all (p := (· != ']')) (s := s) (r := [']']) (fun c hc => by
      simp; rintro rfl; exact h hc) (by simp)
    simp [bracketed, this, bracketEnds]
  simp only [List.cons_append] at hn ⊢
  simp only [findAll, matchAt, hn]
  simp only [ne_eq, not_true_eq_false, if_false, reduceCtorEq, hb, hs, if_true]
  simp only [List.length_cons, List.cons_append, Nat.add_sub_cancel]
  have := findAll_skip (s ++ [']']) [] (some '[')
  rw [List.append_nil] at this
  rw [this]
  simp [findAll]

theorem tokenize_bracket [Runtime] (s : PStr) (h0 : s ≠ []) (h : ']' ∉ s) (hs : sliceSpec s = true) (op : Op)
    (hp : parseSlice s = .ok op) (h1 : op ≠ .here) (h2 : op ≠ .up) : tokenize ('[' :: s ++ [']']) = .ok [op] := by
  have h1' : ¬ Op.here = op := fun h => h1 h.symm
  have h2' : ¬ Op.up = op := fun h => h2 h.symm
  rw [tokenize, findAll_bracket s h hs]
  simp [tokLoop, h0, hp, h1', h2']

/-! ### selections -/

theorem pySlice_zero {α} (xs : List α) (b : Option Int) : pySlice xs (some 0) b none = pySlice xs none b none := by
  have : sliceStart xs.length 1 (some 0) = sliceStart xs.length 1 none := by
    simp [sliceStart]
  simp only [pySlice, Option.getD_none, this]

theorem sliceCount_none {a b : Int} (h : b ≤ a) : sliceCount a b 1 = 0 := by
  have : ¬ a < b := by omega
  simp [sliceCount, this]

theorem sliceCount_one (a : Int) : sliceCount a (a + 1) 1 = 1 := by
  have h1 : a < a + 1 := by omega
  have h2 : a + 1 - a - 1 = 0 := by omega
  simp [sliceCount, h1, h2]

theorem pySlice_last {α} (xs : List α) (n : Nat) (hn : 0 < n) :
    pySlice xs (some (-(n : Int))) (if n = 1 then none else some (-(n : Int) + 1)) none =
      if n ≤ xs.length then xs[xs.length - n]?.toList else [] := by
  have hstart : sliceStart xs.length 1 (some (-(n : Int))) = if n ≤ xs.length then (xs.length : Int) - n else 0 := by
    simp only [sliceStart]
    rw [if_pos (by omega)]
    split
    · rw [if_neg (by omega), if_neg (by omega)]
    · rw [if_pos (by omega)]; omega
  have hstop : sliceStop xs.length 1 (if n = 1 then none else some (-(n : Int) + 1)) =
      if n ≤ xs.length then (xs.length : Int) - n + 1 else 0 := by
    split
    · subst n; simp only [sliceStop]; split <;> (try split) <;> omega
    · simp only [sliceStop]
      rw [if_pos (by omega)]
      split <;> split <;> (try split) <;> omega
  simp only [pySlice, Option.getD_none, hstart, hstop]
  by_cases h : n ≤ xs.length
  · simp only [if_pos h]
    rw [sliceCount_one]
    have : ((xs.length : Int) - n).toNat = xs.length - n := by omega
    simp only [List.range_one, List.filterMap_cons, List.filterMap_nil]
    simp only [Int.ofNat_zero, Int.mul_zero, Int.add_zero, this]
    cases xs[xs.length - n]? <;> rfl
  · simp only [if_neg h]
    rw [sliceCount_none (Int.le_refl _)]
    rfl

/-! ### the cache -/

theorem nodup_subset_length {α} [DecidableEq α] : ∀ {l m : List α}, l.Nodup → (∀ x ∈ l, x ∈ m) → l.length ≤ m.length
  | [], m, _, _ => by simp
  | x :: l, m, hn, hs => by
    have hx : x ∈ m := hs x (by simp)
    have hl : ∀ y ∈ l, y ∈ m.erase x := by
      intro y hy
      have : y ≠ x := by rintro rfl; simp at hn; exact hn.1 hy
      rw [List.mem_erase_of_ne this]
      exact hs y (by simp [hy])
    have := nodup_subset_length (l := l) (m := m.erase x) (by simp at hn; exact hn.2) hl
    rw [List.length_erase_of_mem hx] at this
    have : 0 < m.length := List.length_pos_of_mem hx
    simp; omega

theorem lookup_none_not_mem {α β} [BEq α] [LawfulBEq α] {l : List (α × β)} {t : α} (h : l.lookup t = none) : t ∉ l.map Prod.fst := by
  induction l with
  | nil => simp
  | cons x l ih =>
    obtain ⟨k, v⟩ := x
    simp only [List.lookup_cons] at h
    cases hk : t == k with
    | true => simp [hk] at h
    | false => simp only [hk] at h; have := ih h; simp at hk; simp_all

theorem lookup_mem {α β} [BEq α] [LawfulBEq α] {l : List (α × β)} {t : α} {v : β} (h : l.lookup t = some v) : (t, v) ∈ l := by
  induction l with
  | nil => simp at h
  | cons x l ih =>
    obtain ⟨k, w⟩ := x
    simp only [List.lookup_cons] at h
    cases hk : t == k with
    | true => simp [hk] at h; simp at hk; simp [hk, h]
    | false => simp [hk] at h; simp [ih h]

/-- what the cache holds: distinct paths, each with its own compilation -/
structure CacheOk [Runtime] (l : List PStr) (cache : List (PStr × Compiled)) : Prop where
  nodup : (cache.map Prod.fst).Nodup
  sub : ∀ t ∈ cache.map Prod.fst, t ∈ l
  anew : ∀ t c, (t, c) ∈ cache → compiledAnew t = .ok c

theorem pathexpr_ok [Runtime] {l : List PStr} (hl : l.length ≤ maxCache) {cache} (h : CacheOk l cache) {t : PStr} (ht : t ∈ l) :
    (pathexpr cache t).2 = compiledAnew t ∧ CacheOk l (pathexpr cache t).1 := by
  unfold pathexpr
  cases hc : cache.lookup t with
  | some c => exact ⟨(h.anew t c (lookup_mem hc)).symm, h⟩
  | none =>
    have hnm := lookup_none_not_mem hc
    cases htk : tokenize t with
    | error e => exact ⟨by simp [compiledAnew, htk], h⟩
    | ok ops =>
      have hlt : cache.length < maxCache := by
        have := nodup_subset_length (l := t :: cache.map Prod.fst) (m := l) (by simp [h.nodup]; simpa using hnm) (by
          intro x hx
          simp only [List.mem_cons] at hx
          rcases hx with rfl | hx
          · exact ht
          · exact h.sub x hx)
        simp at this
        omega
      simp only [hlt, if_true]
      refine ⟨by simp [compiledAnew, htk], ?_, ?_, ?_⟩
      · simp [List.nodup_append, h.nodup]
        intro a x ha hat
        exact hnm (by simp; exact ⟨x, hat ▸ ha⟩)
      · intro x hx
        simp at hx
        rcases hx with hx | rfl
        · exact h.sub x (by simpa using hx)
        · exact ht
      · intro x c hx
        simp at hx
        rcases hx with hx | ⟨rfl, rfl⟩
        · exact h.anew x c hx
        · simp [compiledAnew, htk]

end Flatland
