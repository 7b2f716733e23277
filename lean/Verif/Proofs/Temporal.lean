import Verif.Proofs.Scalars
/-! Helper lemmas for C03: soundness of the temporal regular expressions. -/
namespace Flatland
open Spec
variable [Runtime]

theorem field_of_digitsAcc {w : Nat} {t : PStr} {n : Nat} (hw : 0 < w) (hl : t.length = w)
    (h : digitsAcc 0 t = some n) : Field w t n := by
  refine ⟨(digitText_iff t n).2 ?_, hl⟩
  unfold parseDigits
  cases t with
  | nil => simp at hl; omega
  | cons c cs => simpa using h

theorem rxSpec_nil_inv {s ns} (h : RxSpec [] s ns) : ns = [] ∧ (s = [] ∨ s = ['\n']) := by
  cases h <;> simp

theorem rx_date_sound {s ns} (h : rxMatch dateRx s = some ns) :
    ∃ core y m d, ns = [y, m, d] ∧ DateText core y m d ∧ (s = core ∨ s = core ++ ['\n']) := by
  rw [rxMatch_iff] at h
  cases h with | @digits _ _ Y _ y _ l1 d1 h =>
  cases h with | lit h =>
  cases h with | @digits _ _ M _ m _ l2 d2 h =>
  cases h with | lit h =>
  cases h with | @digits _ _ D _ d _ l3 d3 h =>
  obtain ⟨rfl, h⟩ := rxSpec_nil_inv h
  refine ⟨Y ++ ['-'] ++ M ++ ['-'] ++ D, y, m, d, rfl, ⟨Y, M, D, field_of_digitsAcc (by omega) l1 d1,
    field_of_digitsAcc (by omega) l2 d2, field_of_digitsAcc (by omega) l3 d3, rfl⟩, ?_⟩
  rcases h with rfl | rfl <;> simp

theorem rx_time_sound {s ns} (h : rxMatch timeRx s = some ns) :
    ∃ core y m d, ns = [y, m, d] ∧ TimeText core y m d ∧ (s = core ∨ s = core ++ ['\n']) := by
  rw [rxMatch_iff] at h
  cases h with | @digits _ _ Y _ y _ l1 d1 h =>
  cases h with | lit h =>
  cases h with | @digits _ _ M _ m _ l2 d2 h =>
  cases h with | lit h =>
  cases h with | @digits _ _ D _ d _ l3 d3 h =>
  obtain ⟨rfl, h⟩ := rxSpec_nil_inv h
  refine ⟨Y ++ [':'] ++ M ++ [':'] ++ D, y, m, d, rfl, ⟨Y, M, D, field_of_digitsAcc (by omega) l1 d1,
    field_of_digitsAcc (by omega) l2 d2, field_of_digitsAcc (by omega) l3 d3, rfl⟩, ?_⟩
  rcases h with rfl | rfl <;> simp

theorem rx_dateTime_sound {s ns} (h : rxMatch dateTimeRx s = some ns) :
    ∃ dt tt y m d a b c, ns = [y, m, d, a, b, c] ∧ DateText dt y m d ∧ TimeText tt a b c ∧
      (s = dt ++ ' ' :: tt ∨ s = (dt ++ ' ' :: tt) ++ ['\n']) := by
  rw [rxMatch_iff] at h
  cases h with | @digits _ _ Y _ y _ l1 d1 h =>
  cases h with | lit h =>
  cases h with | @digits _ _ M _ m _ l2 d2 h =>
  cases h with | lit h =>
  cases h with | @digits _ _ D _ d _ l3 d3 h =>
  cases h with | lit h =>
  cases h with | @digits _ _ H _ a _ l4 d4 h =>
  cases h with | lit h =>
  cases h with | @digits _ _ I _ b _ l5 d5 h =>
  cases h with | lit h =>
  cases h with | @digits _ _ S _ c _ l6 d6 h =>
  obtain ⟨rfl, h⟩ := rxSpec_nil_inv h
  refine ⟨Y ++ ['-'] ++ M ++ ['-'] ++ D, H ++ [':'] ++ I ++ [':'] ++ S, y, m, d, a, b, c, rfl,
    ⟨Y, M, D, field_of_digitsAcc (by omega) l1 d1,
    field_of_digitsAcc (by omega) l2 d2, field_of_digitsAcc (by omega) l3 d3, rfl⟩,
    ⟨H, I, S, field_of_digitsAcc (by omega) l4 d4,
    field_of_digitsAcc (by omega) l5 d5, field_of_digitsAcc (by omega) l6 d6, rfl⟩, ?_⟩
  rcases h with rfl | rfl <;> simp

/-- appending a final newline to text that matches still matches (regular expression `$`) -/
theorem rxSpec_newline {rx s ns} (h : RxSpec rx s ns) (hs : s.getLast? ≠ some '\n') : RxSpec rx (s ++ ['\n']) ns := by
  induction h with
  | nil => exact .newline
  | newline => simp at hs
  | @lit c rest s ns h ih =>
    refine .lit (ih ?_)
    intro hl; apply hs
    cases s with
    | nil => simp at hl
    | cons x xs => simpa [List.getLast?_cons_cons] using hl
  | @digits w rest t s n ns hl hd h ih =>
    have := RxSpec.digits hl hd (ih (by
      intro hl; apply hs
      rw [List.getLast?_append, hl]; rfl))
    simpa using this

/-- relation between the outer text and what the regular expression sees -/
theorem around_iff (b : Bool) {core : PStr} (hstrip : strip core = core) (s : PStr) :
    ((if b then strip s else s) = core ∨ (if b then strip s else s) = core ++ ['\n']) ↔ Around b s core := by
  unfold Around
  cases b with
  | false => simp
  | true =>
    simp only [if_true]
    constructor
    · rintro (h | h)
      · obtain ⟨l, r, hs, hl, hr⟩ := strip_decomp s
        rw [h] at hs; exact ⟨l, r, hl, hr, hs⟩
      · exfalso
        have := getLast?_strip s '\n' (by rw [h]; simp)
        rw [Runtime.newline_is_space] at this; cases this
    · rintro ⟨l, r, hl, hr, rfl⟩
      left
      exact strip_of_decomp hl hr (hstrip ▸ head?_strip core) (hstrip ▸ getLast?_strip core)

theorem dateText_ne_nil {s y m d} (h : DateText s y m d) : s ≠ [] := by
  obtain ⟨Y, M, D, hY, _, _, rfl⟩ := h; simp
theorem timeText_ne_nil {s y m d} (h : TimeText s y m d) : s ≠ [] := by
  obtain ⟨Y, M, D, hY, _, _, rfl⟩ := h; simp

theorem not_newline_of_strip {s : PStr} (h : strip s = s) : s.getLast? ≠ some '\n' := by
  intro hl
  have := getLast?_strip s '\n' (by rw [h]; exact hl)
  rw [Runtime.newline_is_space] at this; cases this

theorem rx_complete_around {rx : List RxItem} {core ns} {b : Bool} {s : PStr} (h : rxMatch rx core = some ns)
    (hstrip : strip core = core) (ha : Around b s core) :
    rxMatch rx (if b then strip s else s) = some ns := by
  rcases (around_iff b hstrip s).2 ha with h' | h'
  · rw [h']; exact h
  · rw [h', rxMatch_iff]
    exact rxSpec_newline ((rxMatch_iff _ _ _).1 h) (not_newline_of_strip hstrip)

end Flatland
