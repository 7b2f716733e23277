import Verif.Spec.Validators
import Verif.Proofs.Scalars
import Verif.Proofs.Slices
/-! Lemmas about the validators. -/
namespace Flatland
open Flatland.Spec

theorem lexCompare_self (x : List Int) : lexCompare x x = .eq := by
  induction x with
  | nil => rfl
  | cons a x ih => simp [lexCompare, ih]

theorem lexCompare_swap (x y : List Int) : (lexCompare x y).swap = lexCompare y x := by
  induction x generalizing y with
  | nil => cases y <;> rfl
  | cons a x ih =>
    cases y with
    | nil => rfl
    | cons b y =>
      simp only [lexCompare]
      by_cases h1 : a < b
      · have : ¬ b < a := by omega
        simp [h1, this]
      · by_cases h2 : b < a
        · simp [h1, h2]
        · simp [h1, h2, ih]

theorem lexCompare_eq {x y : List Int} : lexCompare x y = .eq ↔ x = y := by
  constructor
  · intro h
    induction x generalizing y with
    | nil => cases y with
      | nil => rfl
      | cons b y => simp [lexCompare] at h
    | cons a x ih => cases y with
      | nil => simp [lexCompare] at h
      | cons b y =>
        simp only [lexCompare] at h
        split at h
        · simp at h
        · split at h
          · simp at h
          · rw [ih h, show a = b by omega]
  · rintro rfl; exact lexCompare_self x

theorem lexCompare_lt_nat (x y : PStr) : lexCompare (x.map fun c => (c.toNat : Int)) (y.map fun c => (c.toNat : Int)) = .lt ↔
    (∃ c t, y = x ++ c :: t) ∨ ∃ p a b s t, x = p ++ a :: s ∧ y = p ++ b :: t ∧ a.toNat < b.toNat := by
  induction x generalizing y with
  | nil =>
    cases y with
    | nil => simp [lexCompare]
    | cons b y => simp [lexCompare]
  | cons a x ih =>
    cases y with
    | nil => simp [lexCompare]
    | cons b y =>
      simp only [List.map_cons, lexCompare]
      by_cases h1 : (a.toNat : Int) < b.toNat
      · simp only [h1, if_true, true_iff]
        exact .inr ⟨[], a, b, x, y, rfl, rfl, by omega⟩
      · by_cases h2 : (b.toNat : Int) < a.toNat
        · simp only [h1, h2, if_true, if_false]
          constructor
          · simp
          · rintro (⟨c, t, h⟩ | ⟨p, c, d, s, t, hx, hy, hlt⟩)
            · simp only [List.cons_append, List.cons.injEq] at h
              rw [h.1] at h2; omega
            · cases p with
              | nil =>
                simp only [List.nil_append, List.cons.injEq] at hx hy
                rw [hx.1, hy.1] at h2; omega
              | cons q p =>
                simp only [List.cons_append, List.cons.injEq] at hx hy
                rw [hx.1, hy.1] at h2; omega
        · have hab : a = b := by
            have : a.toNat = b.toNat := by omega
            exact Char.toNat_inj.mp this
          subst hab
          simp only [Int.lt_irrefl, if_false, ih]
          constructor
          · rintro (⟨c, t, h⟩ | ⟨p, c, d, s, t, hx, hy, hlt⟩)
            · exact .inl ⟨c, t, by simp [h]⟩
            · exact .inr ⟨a :: p, c, d, s, t, by simp [hx], by simp [hy], hlt⟩
          · rintro (⟨c, t, h⟩ | ⟨p, c, d, s, t, hx, hy, hlt⟩)
            · simp only [List.cons_append, List.cons.injEq] at h
              exact .inl ⟨c, t, h.2⟩
            · cases p with
              | nil =>
                simp only [List.nil_append, List.cons.injEq] at hx hy
                rw [← hx.1, ← hy.1] at hlt; omega
              | cons q p =>
                simp only [List.cons_append, List.cons.injEq] at hx hy
                exact .inr ⟨p, c, d, s, t, hx.2, hy.2, hlt⟩

theorem lex_three (a b c a' b' c' : Nat) : lexCompare [(a : Int), b, c] [(a' : Int), b', c'] = .lt ↔ (a < a' ∨ a = a' ∧ (b < b' ∨ b = b' ∧ c < c')) := by
  simp only [lexCompare]
  grind

theorem lex_four (a b c d a' b' c' d' : Nat) : lexCompare [(a : Int), b, c, d] [(a' : Int), b', c', d'] = .lt ↔
    (a < a' ∨ a = a' ∧ (b < b' ∨ b = b' ∧ (c < c' ∨ c = c' ∧ d < d'))) := by
  simp only [lexCompare]
  grind

theorem lex_append (x y x' y' : List Int) (h : x.length = y.length) :
    lexCompare (x ++ x') (y ++ y') = .lt ↔ lexCompare x y = .lt ∨ x = y ∧ lexCompare x' y' = .lt := by
  induction x generalizing y with
  | nil => cases y with
    | nil => simp [lexCompare]
    | cons b y => simp at h
  | cons a x ih => cases y with
    | nil => simp at h
    | cons b y =>
      simp only [List.length_cons, Nat.add_right_cancel_iff] at h
      simp only [List.cons_append, lexCompare]
      have := ih y h
      by_cases h1 : a < b
      · simp [h1]
      · by_cases h2 : b < a
        · have h3 : a ≠ b := by omega
          simp [h1, h2, h3]
        · have h3 : a = b := by omega
          simp [h3, this]

theorem number_key {v : PyVal} {i : Int} : number? v = some i ↔ orderKey v = some (.number, [i]) := by
  cases v <;> simp [number?, orderKey]
  rename_i b; cases b <;> simp [number?]

theorem less_iff (a b : PyVal) : pyOrder a b = .ok .lt ↔ Less a b := by
  constructor
  · intro h
    unfold pyOrder at h
    cases a <;> cases b <;> simp [orderKey] at h
    case bool.bool x y => refine .number (i := if x then 1 else 0) (j := if y then 1 else 0) ?_ ?_ ?_ <;> cases x <;> cases y <;> simp_all [number?, lexCompare]
    case bool.int x y =>
      refine .number (i := if x then 1 else 0) (j := y) ?_ ?_ ?_ <;> cases x <;> simp_all [number?, lexCompare] <;> grind
    case int.bool x y =>
      refine .number (i := x) (j := if y then 1 else 0) ?_ ?_ ?_ <;> cases y <;> simp_all [number?, lexCompare] <;> grind
    case int.int x y =>
      refine .number (i := x) (j := y) rfl rfl ?_
      simp only [lexCompare] at h
      grind
    case str.str x y =>
      rcases (lexCompare_lt_nat x y).mp h with ⟨c, t, rfl⟩ | ⟨p, a, b, s, t, rfl, rfl, hlt⟩
      · exact .textPrefix
      · exact .text hlt
    case date.date => exact .date ((lex_three ..).mp h)
    case time.time => exact .time ((lex_four ..).mp h)
    case datetime.datetime y m d hh mi s us y' m' d' hh' mi' s' us' =>
      have := (lex_append [(y : Int), m, d] [(y' : Int), m', d'] [(hh : Int), mi, s, us] [(hh' : Int), mi', s', us'] rfl).mp h
      rcases this with h | ⟨he, h⟩
      · exact .datetime (.inl ((lex_three ..).mp h))
      · simp at he
        exact .datetime (.inr ⟨by omega, (lex_four ..).mp h⟩)
  · intro h
    unfold pyOrder
    cases h with
    | number ha hb hlt => rw [number_key.mp ha, number_key.mp hb]; simp [lexCompare, hlt]
    | @textPrefix s c t => simpa [orderKey] using (lexCompare_lt_nat s (s ++ c :: t)).mpr (.inl ⟨c, t, rfl⟩)
    | @text p x y s t hlt => simpa [orderKey] using (lexCompare_lt_nat (p ++ x :: s) (p ++ y :: t)).mpr (.inr ⟨p, x, y, s, t, rfl, rfl, hlt⟩)
    | date h => simpa [orderKey] using (lex_three ..).mpr h
    | time h => simpa [orderKey] using (lex_four ..).mpr h
    | @datetime y m d hh mi s us y' m' d' hh' mi' s' us' h =>
      have := (lex_append [(y : Int), m, d] [(y' : Int), m', d'] [(hh : Int), mi, s, us] [(hh' : Int), mi', s', us'] rfl).mpr (by
        rcases h with h | ⟨⟨rfl, rfl, rfl⟩, h⟩
        · exact .inl ((lex_three ..).mpr h)
        · exact .inr ⟨rfl, (lex_four ..).mpr h⟩)
      simpa [orderKey] using this

theorem pyOrder_swap (a b : PyVal) : pyOrder b a = (pyOrder a b).map Ordering.swap := by
  unfold pyOrder
  cases ha : orderKey a with
  | none => cases orderKey b <;> rfl
  | some x => cases hb : orderKey b with
    | none => rfl
    | some y =>
      obtain ⟨k, x⟩ := x
      obtain ⟨l, y⟩ := y
      by_cases h : k = l
      · simp [h, Except.map, lexCompare_swap]
      · simp [h, Ne.symm h, Except.map]

theorem greater_iff (a b : PyVal) : pyOrder a b = .ok .gt ↔ Less b a := by
  rw [← less_iff, pyOrder_swap a b]
  cases h : pyOrder a b with
  | error er => simp [Except.map]
  | ok o => cases o <;> simp [Except.map]

theorem same_iff (a b : PyVal) : pyOrder a b = .ok .eq ↔ Same a b := by
  constructor
  · intro h
    unfold pyOrder at h
    cases ha : orderKey a with
    | none => simp [ha] at h
    | some x => cases hb : orderKey b with
      | none => simp [ha, hb] at h
      | some y =>
        obtain ⟨k, x⟩ := x
        obtain ⟨l, y⟩ := y
        simp only [ha, hb] at h
        split at h
        · rename_i hk
          have hxy := lexCompare_eq.mp (Except.ok.inj h)
          subst hk hxy
          have hn : ∀ {v i}, orderKey v = some (.number, [i]) → number? v = some i := number_key.mpr
          cases a with
          | bool x' =>
            simp only [orderKey, Option.some.injEq, Prod.mk.injEq] at ha
            rw [← ha.1, ← ha.2] at hb
            exact .number (i := if x' then 1 else 0) (by cases x' <;> rfl) (hn hb)
          | int x' =>
            simp only [orderKey, Option.some.injEq, Prod.mk.injEq] at ha
            rw [← ha.1, ← ha.2] at hb
            exact .number rfl (hn hb)
          | str s =>
            simp only [orderKey, Option.some.injEq, Prod.mk.injEq] at ha
            rw [← ha.1, ← ha.2] at hb
            cases b <;> simp [orderKey] at hb
            rename_i t
            have : t = s := by
              have hinj : Function.Injective fun c : Char => (c.toNat : Int) := by
                intro c d hcd
                exact Char.toNat_inj.mp (by simp only at hcd; omega)
              exact (List.map_inj_right hinj).mp hb
            subst this
            exact .text
          | date =>
            simp only [orderKey, Option.some.injEq, Prod.mk.injEq] at ha
            rw [← ha.1, ← ha.2] at hb
            cases b <;> simp [orderKey] at hb
            rename_i y m d y' m' d'
            obtain ⟨rfl, rfl, rfl⟩ : y = y' ∧ m = m' ∧ d = d' := by omega
            exact .date
          | time =>
            simp only [orderKey, Option.some.injEq, Prod.mk.injEq] at ha
            rw [← ha.1, ← ha.2] at hb
            cases b <;> simp [orderKey] at hb
            rename_i y m d u y' m' d' u'
            obtain ⟨rfl, rfl, rfl, rfl⟩ : y = y' ∧ m = m' ∧ d = d' ∧ u = u' := by omega
            exact .time
          | datetime =>
            simp only [orderKey, Option.some.injEq, Prod.mk.injEq] at ha
            rw [← ha.1, ← ha.2] at hb
            cases b <;> simp [orderKey] at hb
            rename_i y m d h' mi s u y' m' d' h'' mi' s' u'
            obtain ⟨rfl, rfl, rfl, rfl, rfl, rfl, rfl⟩ : y = y' ∧ m = m' ∧ d = d' ∧ h' = h'' ∧ mi = mi' ∧ s = s' ∧ u = u' := by omega
            exact .datetime
          | none => simp [orderKey] at ha
          | list => simp [orderKey] at ha
          | dict => simp [orderKey] at ha
          | obj => simp [orderKey] at ha
        · simp at h
  · intro h
    unfold pyOrder
    cases h with
    | number ha hb => rw [number_key.mp ha, number_key.mp hb]; simp [lexCompare_self]
    | text => simp [orderKey, lexCompare_self]
    | date => simp [orderKey, lexCompare_self]
    | time => simp [orderKey, lexCompare_self]
    | datetime => simp [orderKey, lexCompare_self]

theorem same_comm (a b : PyVal) : Same a b ↔ Same b a := by
  rw [← same_iff, ← same_iff, pyOrder_swap a b]
  cases pyOrder a b with
  | error er => simp [Except.map]
  | ok o => cases o <;> simp [Except.map]

theorem order_cases (a b : PyVal) : (pyOrder a b = .ok .lt ∧ Less a b ∧ ¬ Same a b ∧ ¬ Less b a) ∨ (pyOrder a b = .ok .eq ∧ Same a b ∧ ¬ Less a b ∧ ¬ Less b a) ∨
    (pyOrder a b = .ok .gt ∧ Less b a ∧ ¬ Less a b ∧ ¬ Same a b) ∨ (pyOrder a b = .error .type ∧ ¬ Less a b ∧ ¬ Less b a ∧ ¬ Same a b) := by
  rw [← less_iff a b, ← same_iff, ← greater_iff a b]
  cases h : pyOrder a b with
  | ok o => cases o <;> simp
  | error er =>
    have : er = .type := by
      unfold pyOrder at h
      split at h
      · split at h
        · simp at h
        · exact (Except.error.inj h).symm
      · exact (Except.error.inj h).symm
    simp [this]

open Classical in
theorem comparisons {a b : PyVal} (h : Comparable a b) : pyLt a b = .ok (decide (Less a b)) ∧ pyLe a b = .ok (decide (AtMost a b)) ∧
    pyGt a b = .ok (decide (Less b a)) ∧ pyGe a b = .ok (decide (AtMost b a)) := by
  unfold Comparable at h
  unfold AtMost pyLt pyLe pyGt pyGe
  rw [same_comm b a]
  rcases order_cases a b with ⟨hp, h1, h2, h3⟩ | ⟨hp, h1, h2, h3⟩ | ⟨hp, h1, h2, h3⟩ | ⟨hp, h1, h2, h3⟩
  · simp [hp, h1, h2, h3, Except.map]
  · simp [hp, h1, h2, h3, Except.map]
  · simp [hp, h1, h2, h3, Except.map]
  · simp [h1, h2, h3] at h

theorem incomparable {a b : PyVal} (h : ¬ Comparable a b) : pyOrder a b = .error .type := by
  unfold Comparable at h
  rcases order_cases a b with ⟨hp, h1, h2, h3⟩ | ⟨hp, h1, h2, h3⟩ | ⟨hp, h1, h2, h3⟩ | ⟨hp, h1, h2, h3⟩
  · exact absurd (.inl h1) h
  · exact absurd (.inr (.inl h1)) h
  · exact absurd (.inr (.inr h1)) h
  · exact hp

theorem failUnless_bool (b : Bool) (p : Prop) (key : String) (h : b = true ↔ p) :
    (p → failUnless (.ok b) key = .ok .none) ∧ (¬ p → failUnless (.ok b) key = .ok (some key.toList)) := by
  rw [← h]
  constructor <;> intro h <;> simp [failUnless, h]

open Classical in
theorem andThen_decide (p q : Prop) : andThen (.ok (decide p)) (.ok (decide q)) = .ok (decide (p ∧ q)) := by
  by_cases h : p <;> simp [andThen, h]

/-! ### e-mail -/

def domainAlphabet : List Char := ['a', 'b', 'c', 'd', 'e', 'f', 'g', 'h', 'i', 'j', 'k', 'l', 'm', 'n', 'o', 'p', 'q', 'r', 's', 't', 'u', 'v', 'w', 'x', 'y', 'z', 'A', 'B', 'C', 'D', 'E', 'F', 'G', 'H', 'I', 'J', 'K', 'L', 'M', 'N', 'O', 'P', 'Q', 'R', 'S', 'T', 'U', 'V', 'W', 'X', 'Y', 'Z', '0', '1', '2', '3', '4', '5', '6', '7', '8', '9', '-']

theorem domainChar_iff (c : Char) : domainChar c = true ↔ c ∈ "abcdefghijklmnopqrstuvwxyzABCDEFGHIJKLMNOPQRSTUVWXYZ0123456789-".toList := by
  have h0 : ∀ n : Fin 128, domainChar (Char.ofNat n) = true ↔ Char.ofNat n ∈ "abcdefghijklmnopqrstuvwxyzABCDEFGHIJKLMNOPQRSTUVWXYZ0123456789-".toList := by
    rw [show "abcdefghijklmnopqrstuvwxyzABCDEFGHIJKLMNOPQRSTUVWXYZ0123456789-".toList = domainAlphabet from rfl]
    decide
  have h1 : domainChar c = true → c.toNat < 128 := by
    intro h
    simp only [domainChar, Bool.or_eq_true, Bool.and_eq_true, decide_eq_true_eq, beq_iff_eq, Char.le_def, UInt32.le_iff_toNat_le] at h
    have e : c.toNat = c.val.toNat := rfl
    have ez : ('z' : Char).val.toNat = 122 := rfl
    have eZ : ('Z' : Char).val.toNat = 90 := rfl
    have e9 : ('9' : Char).val.toNat = 57 := rfl
    rcases h with ((⟨_, h⟩ | ⟨_, h⟩) | ⟨_, h⟩) | h
    · omega
    · omega
    · omega
    · subst h; decide
  have h2 : ∀ d ∈ "abcdefghijklmnopqrstuvwxyzABCDEFGHIJKLMNOPQRSTUVWXYZ0123456789-".toList, d.toNat < 128 := by
    rw [show "abcdefghijklmnopqrstuvwxyzABCDEFGHIJKLMNOPQRSTUVWXYZ0123456789-".toList = domainAlphabet from rfl]
    decide
  constructor
  · intro h
    have := h0 ⟨c.toNat, h1 h⟩
    simp only [Char.ofNat_toNat] at this
    exact this.mp h
  · intro h
    have := h0 ⟨c.toNat, h2 c h⟩
    simp only [Char.ofNat_toNat] at this
    exact this.mpr h

theorem domainChar_dot : domainChar '.' = false := by decide
theorem domainChar_newline : domainChar '\n' = false := by decide

theorem domainScan_iff (s : PStr) (started : Bool) (hn : '\n' ∉ s) : domainScan started s = true ↔
    ∃ first rest, s = pyJoin ['.'] (first :: rest) ∧ (started = false → first ≠ []) ∧ (∀ c ∈ first, domainChar c = true) ∧
      ∀ l ∈ rest, l ≠ [] ∧ ∀ c ∈ l, domainChar c = true := by
  induction s generalizing started with
  | nil =>
    constructor
    · intro h
      exact ⟨[], [], rfl, by intro h'; subst h'; simp [domainScan] at h, by simp, by simp⟩
    · rintro ⟨first, rest, hs, h1, h2, h3⟩
      cases rest with
      | nil =>
        simp only [pyJoin] at hs
        cases started with
        | true => rfl
        | false => exact absurd hs.symm (h1 rfl)
      | cons q qs => simp [pyJoin] at hs
  | cons c s ih =>
    have hc : c ≠ '\n' := fun hh => hn (by simp [hh])
    have hn' : '\n' ∉ s := fun hh => hn (by simp [hh])
    by_cases hdot : c = '.'
    · subst hdot
      simp only [domainScan, hc, if_false, if_true, Bool.and_eq_true, ih false hn']
      constructor
      · rintro ⟨hst, first, rest, rfl, h1, h2, h3⟩
        refine ⟨[], first :: rest, ?_, by simp [hst], by simp, ?_⟩
        · simp [pyJoin]
        · intro l hl
          rcases List.mem_cons.mp hl with rfl | hl
          · exact ⟨h1 trivial, h2⟩
          · exact h3 l hl
      · rintro ⟨first, rest, hs, h1, h2, h3⟩
        cases first with
        | cons a first =>
          exfalso
          have ha := h2 a (by simp)
          have : a = '.' := by
            cases rest <;> simp [pyJoin] at hs <;> exact hs.1.symm
          rw [this, domainChar_dot] at ha
          simp at ha
        | nil =>
          cases rest with
          | nil => simp [pyJoin] at hs
          | cons q qs =>
            simp only [pyJoin, List.nil_append, List.cons_append, List.cons.injEq, true_and] at hs
            refine ⟨?_, q, qs, hs, fun _ => (h3 q (by simp)).1, (h3 q (by simp)).2, fun l hl => h3 l (by simp [hl])⟩
            cases started with
            | true => rfl
            | false => exact absurd rfl (h1 rfl)
    · simp only [domainScan, hc, if_false, hdot, Bool.and_eq_true, ih true hn']
      constructor
      · rintro ⟨hch, first, rest, rfl, h1, h2, h3⟩
        refine ⟨c :: first, rest, ?_, by simp, ?_, h3⟩
        · cases rest <;> simp [pyJoin]
        · intro d hd
          rcases List.mem_cons.mp hd with rfl | hd
          · exact hch
          · exact h2 d hd
      · rintro ⟨first, rest, hs, h1, h2, h3⟩
        cases first with
        | nil =>
          exfalso
          cases rest with
          | nil => simp [pyJoin] at hs
          | cons q qs =>
            simp only [pyJoin, List.nil_append, List.cons_append, List.cons.injEq] at hs
            exact hdot hs.1
        | cons a first =>
          have hs' : c = a ∧ s = pyJoin ['.'] (first :: rest) := by
            cases rest <;> simpa [pyJoin] using hs
          obtain ⟨rfl, hs'⟩ := hs'
          exact ⟨h2 c (by simp), first, rest, hs', by simp, fun d hd => h2 d (by simp [hd]), h3⟩

end Flatland
