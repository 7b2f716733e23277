import Verif.Proofs.Slices
import Verif.Proofs.Mappings
import Verif.Proofs.CreditCard
import Verif.Spec.Numbers
/-
Lemmas for C66.
-/
namespace Flatland
open Spec

/-- the number with these decimal digits -/
def ofDigits (ds : List Nat) : Nat := ds.foldl (fun a d => a * 10 + d) 0

theorem ofDigits_snoc (ds : List Nat) (d : Nat) : ofDigits (ds ++ [d]) = ofDigits ds * 10 + d := by simp [ofDigits]

theorem ofDigits_zero_cons (ds : List Nat) : ofDigits (0 :: ds) = ofDigits ds := by simp [ofDigits]

theorem ofDigits_pos {d : Nat} {ds : List Nat} (hd : d ≠ 0) : 0 < ofDigits (d :: ds) := by
  generalize hl : ds.length = n
  induction n generalizing ds with
  | zero => cases List.length_eq_zero_iff.1 hl; simp [ofDigits]; omega
  | succ n ih =>
    rcases eq_nil_or_snoc ds with rfl | ⟨ds, e, rfl⟩
    · simp at hl
    · have := ih (ds := ds) (by simpa using hl)
      rw [← List.cons_append, ofDigits_snoc]
      omega

/-- a number is written with its digits, if the first is not 0 -/
theorem decimal_ofDigits {d : Nat} {ds : List Nat} (hd : d ≠ 0) (h : ∀ x ∈ d :: ds, x < 10) : decimal (ofDigits (d :: ds)) = spell (d :: ds) := by
  generalize hl : ds.length = n
  induction n generalizing ds with
  | zero =>
    cases List.length_eq_zero_iff.1 hl
    have hx := h d (by simp)
    have : ofDigits [d] = d := by simp [ofDigits]
    rw [this, decimal_lt hx]
    rfl
  | succ n ih =>
    rcases eq_nil_or_snoc ds with rfl | ⟨ds, e, rfl⟩
    · simp at hl
    · have he := h e (by simp)
      have hp := ofDigits_pos (ds := ds) hd
      have := ih (ds := ds) (fun x hx => h x (by
        rcases List.mem_cons.1 hx with rfl | hx
        · simp
        · simp [hx])) (by simpa using hl)
      rw [← List.cons_append, ofDigits_snoc, decimal_ge (by omega)]
      have e1 : (ofDigits (d :: ds) * 10 + e) / 10 = ofDigits (d :: ds) := by omega
      have e2 : (ofDigits (d :: ds) * 10 + e) % 10 = e := by omega
      rw [e1, e2, this]
      simp [spell]

theorem spell_length (ds : List Nat) : (spell ds).length = ds.length := by simp [spell]

theorem spell_zeros (k : Nat) (ds : List Nat) : spell (List.replicate k 0 ++ ds) = List.replicate k '0' ++ spell ds := by
  simp [spell]
  exact .inr rfl

theorem ofDigits_zeros (k : Nat) (ds : List Nat) : ofDigits (List.replicate k 0 ++ ds) = ofDigits ds := by
  induction k with
  | zero => rfl
  | succ k ih => rw [List.replicate_succ, List.cons_append, ofDigits_zero_cons, ih]

/-- leading zeros apart -/
theorem split_zeros (ds : List Nat) : ∃ k r, ds = List.replicate k 0 ++ r ∧ (r = [] ∨ ∃ d r', r = d :: r' ∧ d ≠ 0) ∧ r = ds.dropWhile (· = 0) := by
  induction ds with
  | nil => exact ⟨0, [], rfl, .inl rfl, rfl⟩
  | cons d ds ih =>
    by_cases hd : d = 0
    · subst hd
      obtain ⟨k, r, h1, h2, h3⟩ := ih
      refine ⟨k + 1, r, by rw [List.replicate_succ, List.cons_append, ← h1], h2, ?_⟩
      rw [h3]; simp
    · exact ⟨0, d :: ds, rfl, .inr ⟨d, ds, rfl, hd⟩, by simp [hd]⟩

/-- padding to the number of digits gives the digits -/
theorem padNat_ofDigits {ds : List Nat} (hn : ds ≠ []) (h : ∀ x ∈ ds, x < 10) : padNat ds.length (ofDigits ds) = spell ds := by
  obtain ⟨k, r, h1, h2, -⟩ := split_zeros ds
  subst h1
  rw [ofDigits_zeros, spell_zeros]
  unfold padNat
  rcases h2 with rfl | ⟨d, r', rfl, hd⟩
  · cases k with
    | zero => simp at hn
    | succ k =>
      have : ofDigits [] = 0 := rfl
      rw [this, decimal_lt (by omega)]
      have e : digitChar 0 = '0' := rfl
      simp only [List.append_nil, List.length_replicate, List.length_cons, List.length_nil, Nat.zero_add, Nat.add_sub_cancel, e, spell, List.map_nil]
      rw [List.replicate_succ']
  · rw [decimal_ofDigits hd (fun x hx => h x (by simp only [List.mem_append]; exact .inr hx)), spell_length]
    congr 2
    simp

section
variable [Runtime]

theorem digitsAcc_spell {ds : List Nat} (h : ∀ x ∈ ds, x < 10) (a : Nat) : digitsAcc a (spell ds) = some (ds.foldl (fun a d => a * 10 + d) a) := by
  induction ds generalizing a with
  | nil => rfl
  | cons d ds ih =>
    have hd := h d (by simp)
    simp only [spell, List.map_cons, digitsAcc, digit_digitChar hd, List.foldl_cons]
    exact ih (fun x hx => h x (by simp [hx])) _

theorem pyInt_of_digitsAcc {s : PStr} {n : Nat} (hs : s ≠ []) (h : digitsAcc 0 s = some n) : pyInt s = some (n : Int) :=
  pyInt_digits (s := s) (n := n) (by
    refine ⟨?_, ?_⟩ <;> assumption)

theorem pyInt_spell {ds : List Nat} (hn : ds ≠ []) (h : ∀ x ∈ ds, x < 10) : pyInt (spell ds) = some ((ofDigits ds : Nat) : Int) := by
  refine pyInt_of_digitsAcc ?_ (digitsAcc_spell h 0)
  intro he
  have := spell_length ds
  rw [he] at this
  exact hn (List.length_eq_zero_iff.1 this.symm)

theorem digitsOf_lt (s : PStr) : ∀ x ∈ digitsOf s, x < 10 := by
  intro x hx
  obtain ⟨c, _, hc⟩ := List.mem_filterMap.1 hx
  exact Runtime.digit_lt c x hc

theorem digitsOf_append (s t : PStr) : digitsOf (s ++ t) = digitsOf s ++ digitsOf t := by simp [digitsOf]

theorem digitsOf_spell {ds : List Nat} (h : ∀ x ∈ ds, x < 10) : digitsOf (spell ds) = ds := by
  induction ds with
  | nil => rfl
  | cons d ds ih =>
    have := ih (fun x hx => h x (by simp [hx]))
    simp only [digitsOf, spell, List.map_cons, List.filterMap_cons, digit_digitChar (h d (by simp))]
    rw [show List.filterMap digit (List.map digitChar ds) = ds from this]

theorem digitsOf_none {c : Char} (h : digit c = .none) (s : PStr) : digitsOf (c :: s) = digitsOf s := by
  simp [digitsOf, h]

theorem digitsOf_phone {ds : List Nat} (h : ∀ x ∈ ds, x < 10) : digitsOf (phoneText ds) = ds.take 10 := by
  unfold phoneText
  have hs : digit ' ' = none := Runtime.space_not_digit _ Runtime.space_is_space
  have ht : ∀ (m n : Nat), ∀ x ∈ (ds.drop m).take n, x < 10 := fun m n x hx => h x (List.mem_of_mem_drop (List.mem_of_mem_take hx))
  have h3 : ∀ x ∈ ds.take 3, x < 10 := ht 0 3
  simp only [List.cons_append]
  rw [digitsOf_none Runtime.open_not_digit, digitsOf_append, digitsOf_append, digitsOf_append, digitsOf_none Runtime.minus_not_digit]
  rw [show ") ".toList = [')', ' '] from rfl, digitsOf_none Runtime.close_not_digit, digitsOf_none hs]
  rw [digitsOf_spell h3, digitsOf_spell (ht 3 3), digitsOf_spell (ht 6 4)]
  have e : digitsOf [] = [] := rfl
  rw [e, List.append_nil]
  have : ds.take 10 = ds.take 3 ++ (ds.drop 3).take 3 ++ (ds.drop 6).take 4 := by
    rw [show (10 : Nat) = 3 + (3 + 4) from rfl, List.take_add, List.take_add, List.drop_drop]
    simp
  rw [this]

theorem clean_digitsOf (s : PStr) : digitsOf (phoneClean s) = digitsOf s := by
  unfold digitsOf phoneClean
  induction s with
  | nil => rfl
  | cons c s ih =>
    rw [List.filter_cons]
    cases hc : digit c with
    | none => simp [isDigit, hc, ih]
    | some d => simp [isDigit, hc, ih]

theorem clean_digit {s : PStr} {c : Char} (h : c ∈ phoneClean s) : ∃ d, digit c = some d := by
  unfold phoneClean at h
  have := (List.mem_filter.1 h).2
  exact Option.isSome_iff_exists.1 this

theorem clean_length (s : PStr) : (phoneClean s).length = (digitsOf s).length := by
  rw [← clean_digitsOf]
  have : ∀ l : PStr, (∀ c ∈ l, ∃ d, digit c = some d) → l.length = (digitsOf l).length := by
    intro l
    induction l with
    | nil => intro _; rfl
    | cons c l ih =>
      intro h
      obtain ⟨d, hd⟩ := h c (by simp)
      have := ih (fun c hc => h c (by simp [hc]))
      simp only [digitsOf, List.filterMap_cons, hd, List.length_cons] at this ⊢
      omega
  exact this _ (fun c hc => clean_digit hc)

omit [Runtime] in
theorem ascii_iff (c : Char) : isAsciiDigit c = true ↔ c ∈ "0123456789".toList := by
  constructor
  · intro h
    simp only [isAsciiDigit, Bool.and_eq_true, decide_eq_true_eq] at h
    have : c = Char.ofNat (48 + (c.toNat - 48)) := by
      rw [show 48 + (c.toNat - 48) = c.toNat by omega]
      simp
    have hk : c.toNat - 48 < 10 := by omega
    generalize c.toNat - 48 = k at this hk
    subst this
    revert k
    decide
  · revert c
    intro c h
    simp only [show "0123456789".toList = ['0','1','2','3','4','5','6','7','8','9'] from rfl, List.mem_cons, List.not_mem_nil, or_false] at h
    rcases h with rfl | rfl | rfl | rfl | rfl | rfl | rfl | rfl | rfl | rfl <;> rfl

omit [Runtime] in
theorem ascii_digit {c : Char} (h : isAsciiDigit c = true) : ∃ d, d < 10 ∧ c = digitChar d := by
  simp only [isAsciiDigit, Bool.and_eq_true, decide_eq_true_eq] at h
  refine ⟨c.toNat - 48, by omega, ?_⟩
  unfold digitChar
  rw [show 48 + (c.toNat - 48) = c.toNat by omega]
  simp

theorem spell_of_ascii {s : PStr} (h : ∀ c ∈ s, isAsciiDigit c = true) : s = spell (digitsOf s) := by
  induction s with
  | nil => rfl
  | cons c s ih =>
    obtain ⟨d, hd, rfl⟩ := ascii_digit (h c (by simp))
    have := ih (fun c hc => h c (by simp [hc]))
    simp only [digitsOf, List.filterMap_cons, digit_digitChar hd, spell, List.map_cons]
    rw [show List.map digitChar (List.filterMap digit s) = s from this.symm]

theorem lowbit_iff (s : PStr) (hn : phoneClean s ≠ []) : lowbit (phoneClean s) = true ↔ PlainDigits s := by
  unfold lowbit PlainDigits
  simp only [Bool.and_eq_true, bne_iff_ne, ne_eq, hn, not_false_eq_true, true_and, List.all_eq_true]
  constructor
  · intro h c hc hd
    refine (ascii_iff c).1 (h c ?_)
    unfold phoneClean
    exact List.mem_filter.2 ⟨hc, by unfold isDigit; cases hx : digit c <;> simp_all⟩
  · intro h c hc
    obtain ⟨d, hd⟩ := clean_digit hc
    exact (ascii_iff c).2 (h c ((List.mem_filter.1 hc).1) (by rw [hd]; simp))

theorem digitsAcc_digitsOf {s : PStr} (h : ∀ c ∈ s, ∃ d, digit c = some d) (a : Nat) :
    digitsAcc a s = some ((digitsOf s).foldl (fun a d => a * 10 + d) a) := by
  induction s generalizing a with
  | nil => rfl
  | cons c s ih =>
    obtain ⟨d, hd⟩ := h c (by simp)
    simp only [digitsAcc, digitsOf, List.filterMap_cons, hd, List.foldl_cons]
    exact ih (fun c hc => h c (by simp [hc])) _

theorem phoneLine_spell {ds : List Nat} (h : ∀ x ∈ ds, x < 10) (hl : 10 ≤ ds.length) : phoneLine (spell ds) = .ok (phoneText ds) := by
  have ht : ∀ (m n : Nat), ∀ x ∈ (ds.drop m).take n, x < 10 := fun m n x hx => h x (List.mem_of_mem_drop (List.mem_of_mem_take hx))
  have hlen : ∀ (m n : Nat), m + n ≤ 10 → ((ds.drop m).take n).length = n := by
    intro m n hmn
    simp only [List.length_take, List.length_drop]
    omega
  have key : ∀ (m n : Nat), m + n ≤ 10 → 0 < n → pyInt (((spell ds).drop m).take n) = some ((ofDigits ((ds.drop m).take n) : Nat) : Int) ∧
      padInt n ((ofDigits ((ds.drop m).take n) : Nat) : Int) = spell ((ds.drop m).take n) := by
    intro m n hmn hn
    have e : ((spell ds).drop m).take n = spell ((ds.drop m).take n) := by simp [spell, List.map_drop, List.map_take]
    have hne : (ds.drop m).take n ≠ [] := by
      intro hz
      have := hlen m n hmn
      rw [hz] at this
      simp at this
      omega
    refine ⟨by rw [e]; exact pyInt_spell hne (ht m n), ?_⟩
    have := padNat_ofDigits hne (ht m n)
    rw [hlen m n hmn] at this
    exact this
  obtain ⟨a1, a2⟩ := key 0 3 (by omega) (by omega)
  obtain ⟨b1, b2⟩ := key 3 3 (by omega) (by omega)
  obtain ⟨c1, c2⟩ := key 6 4 (by omega) (by omega)
  simp only [List.drop_zero] at a1 a2
  unfold phoneLine
  rw [a1, b1, c1]
  simp only []
  rw [a2, b2, c2]
  rfl

theorem outcome_spell (ext : PhoneExt) {ds : List Nat} (h : ∀ x ∈ ds, x < 10) :
    PhoneOutcome ext ds (if (spell ds).length < 10 then .ok (.note "invalid".toList)
      else if (spell ds).length = 10 ∨ ext = .strip then (phoneLine (spell ds)).map .setTo
      else if ext = .refuse then .ok (.note "noext".toList)
      else .error .type) := by
  rw [spell_length]
  refine ⟨fun h1 => by rw [if_pos h1], fun h1 => ?_, fun h1 h2 => ?_, fun h1 h2 => ?_, fun h1 h2 => ?_⟩
  · rw [if_neg (by omega), if_pos (.inl h1), phoneLine_spell h (by omega)]; rfl
  · subst h2
    rw [if_neg (by omega), if_neg (by simp; omega), if_pos rfl]
  · rw [if_neg (by omega), if_pos (.inr h2), phoneLine_spell h (by omega)]; rfl
  · subst h2
    rw [if_neg (by omega), if_neg (by simp; omega), if_neg (by decide)]

theorem phone_plain (ext : PhoneExt) {s : PStr} (h : PlainDigits s) : PhoneOutcome ext (digitsOf s) (nanpPhone ext s) := by
  unfold nanpPhone
  by_cases hc : phoneClean s = []
  · have : (digitsOf s).length = 0 := by rw [← clean_length, hc]; rfl
    simp only [hc, if_true]
    exact ⟨fun _ => rfl, fun h => by omega, fun h => by omega, fun h => by omega, fun h => by omega⟩
  · simp only [if_neg hc]
    have hlow := (lowbit_iff s hc).2 h
    unfold phoneAscii
    rw [if_pos hlow]
    simp only []
    have hsp : phoneClean s = spell (digitsOf s) := by
      rw [← clean_digitsOf]
      refine spell_of_ascii ?_
      unfold lowbit at hlow
      simp only [Bool.and_eq_true, List.all_eq_true] at hlow
      exact hlow.2
    rw [hsp]
    exact outcome_spell ext (digitsOf_lt s)

theorem phone_other (ext : PhoneExt) {s : PStr} (h : ¬ PlainDigits s) : PhoneOutcome ext ((digitsOf s).dropWhile (· = 0)) (nanpPhone ext s) := by
  have hc : phoneClean s ≠ [] := by
    intro hc
    apply h
    intro c hcm hd
    have : c ∈ phoneClean s := List.mem_filter.2 ⟨hcm, by unfold isDigit; cases hx : digit c <;> simp_all⟩
    rw [hc] at this
    cases this
  unfold nanpPhone
  simp only [if_neg hc]
  unfold phoneAscii
  have hnl : ¬ lowbit (phoneClean s) = true := fun hh => h ((lowbit_iff s hc).1 hh)
  rw [if_neg hnl]
  rw [pyInt_of_digitsAcc hc (digitsAcc_digitsOf (fun c => clean_digit) 0), clean_digitsOf]
  simp only []
  change PhoneOutcome ext _ (if (decimal (ofDigits (digitsOf s))).length < 10 then _ else
    if (decimal (ofDigits (digitsOf s))).length = 10 ∨ ext = .strip then (phoneLine (decimal (ofDigits (digitsOf s)))).map .setTo else _)
  obtain ⟨k, r, h1, h2, h3⟩ := split_zeros (digitsOf s)
  rw [← h3]
  have hlt : ∀ x ∈ r, x < 10 := fun x hx => digitsOf_lt s x (by rw [h1]; simp [hx])
  have hof : ofDigits (digitsOf s) = ofDigits r := by rw [h1, ofDigits_zeros]
  rw [hof]
  rcases h2 with rfl | ⟨d, r', rfl, hd⟩
  · have : decimal (ofDigits []) = ['0'] := by
      show decimal 0 = _
      rw [decimal_lt (by omega)]; rfl
    rw [this, if_pos (by decide)]
    refine ⟨fun _ => rfl, fun h => by simp at h, fun h => by simp at h, fun h => by simp at h, fun h => by simp at h⟩
  · rw [decimal_ofDigits hd hlt]
    exact outcome_spell ext hlt

theorem phoneText_plain {ds : List Nat} (h : ∀ x ∈ ds, x < 10) : PlainDigits (phoneText ds) := by
  intro c hc hd
  have hsp : ∀ (l : List Nat), (∀ x ∈ l, x < 10) → c ∈ spell l → c ∈ "0123456789".toList := by
    intro l hl hm
    obtain ⟨d, hdm, rfl⟩ := List.mem_map.1 hm
    exact (ascii_iff _).1 (digitChar_ascii (hl d hdm))
  have ht : ∀ (m n : Nat), ∀ x ∈ (ds.drop m).take n, x < 10 := fun m n x hx => h x (List.mem_of_mem_drop (List.mem_of_mem_take hx))
  unfold phoneText at hc
  simp only [List.mem_append, List.mem_cons, show ") ".toList = [')', ' '] from rfl, List.not_mem_nil, or_false, List.cons_append] at hc
  rcases hc with rfl | ((hc | rfl | rfl) | hc) | rfl | hc
  · exact absurd Runtime.open_not_digit hd
  · exact hsp _ (ht 0 3) hc
  · exact absurd Runtime.close_not_digit hd
  · exact absurd (Runtime.space_not_digit _ Runtime.space_is_space) hd
  · exact hsp _ (ht 3 3) hc
  · exact absurd Runtime.minus_not_digit hd
  · exact hsp _ (ht 6 4) hc

theorem phone_set {ext : PhoneExt} {s t : PStr} (h : nanpPhone ext s = .ok (.setTo t)) :
    ∃ ds, (∀ x ∈ ds, x < 10) ∧ 10 ≤ ds.length ∧ t = phoneText ds := by
  have key : ∀ ds, (∀ x ∈ ds, x < 10) → PhoneOutcome ext ds (nanpPhone ext s) → ∃ ds, (∀ x ∈ ds, x < 10) ∧ 10 ≤ ds.length ∧ t = phoneText ds := by
    intro ds hl ho
    rw [h] at ho
    obtain ⟨o1, o2, o3, o4, o5⟩ := ho
    rcases Nat.lt_trichotomy ds.length 10 with hc | hc | hc
    · cases o1 hc
    · have := o2 hc
      simp only [Except.ok.injEq, PhoneResult.setTo.injEq] at this
      exact ⟨ds, hl, by omega, this⟩
    · cases ext with
      | refuse => cases o3 hc rfl
      | keep => cases o5 hc rfl
      | strip =>
        have := o4 hc rfl
        simp only [Except.ok.injEq, PhoneResult.setTo.injEq] at this
        exact ⟨ds, hl, by omega, this⟩
  by_cases hp : PlainDigits s
  · exact key _ (digitsOf_lt s) (phone_plain ext hp)
  · exact key _ (fun x hx => digitsOf_lt s x ((List.dropWhile_sublist _).mem hx)) (phone_other ext hp)

omit [Runtime] in
theorem phoneText_take (ds : List Nat) : phoneText (ds.take 10) = phoneText ds := by
  unfold phoneText
  simp [List.take_take, List.drop_take]

theorem phone_again {ext : PhoneExt} {s t : PStr} (h : nanpPhone ext s = .ok (.setTo t)) (ext' : PhoneExt) : nanpPhone ext' t = .ok (.setTo t) := by
  obtain ⟨ds, hl, hlen, rfl⟩ := phone_set h
  have := (phone_plain ext' (phoneText_plain hl)).2.1
  rw [digitsOf_phone hl, phoneText_take] at this
  exact this (by simp; omega)

omit [Runtime] in
theorem outcome_unique {ext : PhoneExt} {ds : List Nat} {r r' : Except PyErr PhoneResult} (h : PhoneOutcome ext ds r) (h' : PhoneOutcome ext ds r') : r = r' := by
  obtain ⟨a1, a2, a3, a4, a5⟩ := h
  obtain ⟨b1, b2, b3, b4, b5⟩ := h'
  rcases Nat.lt_trichotomy ds.length 10 with hc | hc | hc
  · rw [a1 hc, b1 hc]
  · rw [a2 hc, b2 hc]
  · cases ext with
    | refuse => rw [a3 hc rfl, b3 hc rfl]
    | strip => rw [a4 hc rfl, b4 hc rfl]
    | keep => rw [a5 hc rfl, b5 hc rfl]

theorem phone_same {ext : PhoneExt} {s t : PStr} (hs : PlainDigits s) (ht : PlainDigits t) (h : digitsOf s = digitsOf t) :
    nanpPhone ext s = nanpPhone ext t := by
  have h1 := phone_plain ext hs
  rw [h] at h1
  exact outcome_unique h1 (phone_plain ext ht)

theorem phoneText_strip {ds : List Nat} (h : ∀ x ∈ ds, x < 10) (hl : 10 ≤ ds.length) : strip (phoneText ds) = phoneText ds := by
  refine strip_eq_self ?_ ?_
  · intro c hc
    simp only [phoneText, List.cons_append, List.head?_cons, Option.some.injEq] at hc
    subst hc
    exact Runtime.open_not_space
  · intro c hc
    have hne : spell ((ds.drop 6).take 4) ≠ [] := by
      intro hz
      have := congrArg List.length hz
      rw [spell_length] at this
      simp at this
      omega
    unfold phoneText at hc
    rw [List.getLast?_append] at hc
    have hm : c ∈ spell ((ds.drop 6).take 4) := by
      rw [List.getLast?_cons] at hc
      cases hg : (spell ((ds.drop 6).take 4)).getLast? with
      | none => exact absurd (List.getLast?_eq_none_iff.1 hg) hne
      | some x =>
        rw [hg] at hc
        simp at hc
        subst hc
        exact List.mem_of_getLast? hg
    obtain ⟨d, hd, rfl⟩ := List.mem_map.1 hm
    have hlt : d < 10 := h d (List.mem_of_mem_drop (List.mem_of_mem_take hd))
    cases hs : space (digitChar d) with
    | false => rfl
    | true =>
      have := Runtime.space_not_digit _ hs
      rw [digit_digitChar hlt] at this
      cases this

theorem scalarSet_string {doStrip : Bool} {st : ScalarState} {t : PStr} (h : strip t = t) :
    scalarSet (stringType doStrip) st (.str t) = ({ value := .str t, u := t, raw := some (.str t) }, .ok true) := by
  cases doStrip <;> simp [scalarSet, stringType, pyText, h]

theorem phone_element (ext : PhoneExt) (doStrip : Bool) {st : ScalarState} {s : PStr}
    (hv : st.value = .str s ∨ (st.value = .none ∧ st.u = s)) :
    (nanpPhoneValidate ext (stringType doStrip) st).1 = st ∧ (nanpPhoneValidate ext (stringType doStrip) st).2 ≠ .ok .none ∨
    ∃ t, nanpPhone ext s = .ok (.setTo t) ∧
      nanpPhoneValidate ext (stringType doStrip) st = ({ value := .str t, u := t, raw := some (.str t) }, .ok .none) ∧
      nanpPhoneValidate ext (stringType doStrip) { value := .str t, u := t, raw := some (.str t) } =
        ({ value := .str t, u := t, raw := some (.str t) }, .ok .none) := by
  have e : (if isNone st.value then PyVal.str st.u else st.value) = .str s := by
    rcases hv with h | ⟨h1, h2⟩
    · rw [h]; rfl
    · rw [h1, h2]; rfl
  have key : ∀ st : ScalarState, (if isNone st.value then PyVal.str st.u else st.value) = .str s → ∀ t, nanpPhone ext s = .ok (.setTo t) →
      nanpPhoneValidate ext (stringType doStrip) st = ({ value := .str t, u := t, raw := some (.str t) }, .ok .none) := by
    intro st e t h
    obtain ⟨ds, hl, hlen, ht⟩ := phone_set h
    unfold nanpPhoneValidate
    rw [e]
    simp only [h]
    rw [scalarSet_string (by rw [ht]; exact phoneText_strip hl hlen)]
  cases h : nanpPhone ext s with
  | error x =>
    left
    unfold nanpPhoneValidate
    rw [e]
    simp [h]
  | ok r =>
    cases r with
    | note k =>
      left
      unfold nanpPhoneValidate
      rw [e]
      simp [h]
    | setTo t =>
      right
      refine ⟨t, rfl, key st e t h, ?_⟩
      have h2 := phone_again h ext
      obtain ⟨ds, hl, hlen, ht⟩ := phone_set h
      unfold nanpPhoneValidate
      simp only [isNone, h2]
      have := scalarSet_string (doStrip := doStrip) (st := { value := .str t, u := t, raw := some (.str t) }) (t := t) (by rw [ht]; exact phoneText_strip hl hlen)
      simp [h2, this]

omit [Runtime] in
theorem refused_iff (n : Int) : (n < 200 ∨ n ∈ nxxRefused) ↔ ¬ ExchangeCode n := by
  unfold ExchangeCode nxxRefused
  simp only [List.mem_cons, List.not_mem_nil, or_false]
  constructor
  · intro h hx
    obtain ⟨h1, h2, h3⟩ := hx
    have := h2 3; have := h2 4; have := h2 5; have := h2 6; have := h2 7; have := h2 8; have := h2 9
    omega
  · intro h
    by_cases hc : n < 200 ∨ n = 311 ∨ n = 411 ∨ n = 511 ∨ n = 611 ∨ n = 711 ∨ n = 811 ∨ n = 911 ∨ n = 555 ∨ n = 990 ∨ n = 959 ∨ n = 958 ∨ n = 950 ∨ n = 700 ∨ n = 976
    · exact hc
    · exfalso
      apply h
      refine ⟨by omega, fun k h1 h2 => by omega, by omega⟩

omit [Runtime] in
theorem nxx_spec {st : ScalarState} {n : Int} (h : st.value = .int n) :
    ((nanpNxx st).2 = .ok true ↔ ExchangeCode n) ∧ ((nanpNxx st).2 = .ok false ↔ ¬ ExchangeCode n) ∧
    (ExchangeCode n → (nanpNxx st).1 = { st with u := decimalInt n }) ∧ (¬ ExchangeCode n → (nanpNxx st).1 = st) := by
  have := refused_iff n
  unfold nanpNxx
  rw [h]
  simp only []
  by_cases hc : n < 200 ∨ n ∈ nxxRefused
  · have hn := this.1 hc
    rw [if_pos hc]
    simp [hn]
  · have hn : ExchangeCode n := Classical.byContradiction fun hx => hc (this.2 hx)
    rw [if_neg hc]
    simp [hn]

omit [Runtime] in
theorem nxx_big {n : Int} (h : 1000 ≤ n) : ExchangeCode n := by
  refine ⟨by omega, fun k h1 h2 => by omega, ?_⟩
  simp only [List.mem_cons, List.not_mem_nil, or_false]
  omega

theorem luhn_other (fuel : Nat) (s : PStr) :
    luhnValidate fuel .none = some (.ok (some "invalid".toList)) ∧ luhnValidate fuel (.str []) = some (.ok .none) ∧
    (s ≠ [] → luhnValidate fuel (.str s) = some (.error .type)) := by
  refine ⟨rfl, rfl, fun h => ?_⟩
  cases s with
  | nil => exact absurd rfl h
  | cons c s => rfl

omit [Runtime] in
theorem npaNxx_never (npa nxx : Except PyErr PyVal) (k : Nat) :
    (∃ e, npaNxxValidate npa nxx = .error e) ∧ (0 < k → npaNxxNew k = .error .type) := by
  refine ⟨?_, fun h => by unfold npaNxxNew; rw [if_neg (by omega)]⟩
  cases npa with
  | error e => exact ⟨e, rfl⟩
  | ok a => cases nxx with
    | error e => exact ⟨e, rfl⟩
    | ok b => exact ⟨_, rfl⟩

end

end Flatland
