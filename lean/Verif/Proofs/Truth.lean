import Verif.Model.Truth
import Verif.Spec.Truth
import Verif.Proofs.Compounds
import Verif.Proofs.RichCycle
/-! Lemmas about truth values of elements (C91). -/
namespace Flatland
open Flatland.Spec
variable [Runtime]

/-- the text of a value that is true is not empty (a Boolean's text for True must not be) -/
theorem serialize_true (b : Builtin) (hb : ShownWhenTrue b) (x v : PyVal) (s : PStr) (ha : b.type.adapt x = .ok v) (hs : b.type.serialize v = .ok s)
    (hv : truthy v = true) : s ≠ [] := by
  induction b generalizing x with
  | enum c vs ih =>
    simp only [Builtin.type, enumType, constrainedType] at ha hs
    cases hc : c.type.adapt x with
    | error e => rw [hc] at ha; cases ha
    | ok w =>
      rw [hc] at ha
      have hw : w = v := by
        by_cases he : enumValid vs w = true
        · simpa [bind, Except.bind, he] using ha
        · simp [bind, Except.bind, he] at ha
      subst hw
      exact ih hb x hc hs
  | string st =>
    cases x with
    | none => simp [Builtin.type, stringType] at ha; subst ha; simp [truthy] at hv
    | _ =>
      simp only [Builtin.type, stringType] at ha hs
      cases ha
      simp only [truthy, Bool.not_eq_true', List.isEmpty_eq_false_iff] at hv
      cases hs
      cases st
      · simpa [pyText] using hv
      · simp only [pyText, if_true] at hv ⊢
        rw [strip_strip]
        exact hv
  | integer sg w =>
    cases v with
    | int i => simp only [Builtin.type, integerType] at hs; cases hs; exact padInt_ne_nil w i
    | _ =>
      exfalso
      revert hv; revert ha
      simp only [Builtin.type, integerType]
      cases x <;> simp [truthy] <;> (repeat' split) <;> simp_all
  | boolean c =>
    simp only [Builtin.type, booleanType, hv, if_true] at hs
    cases hs
    exact hb
  | date st =>
    cases v with
    | date y m d => simp only [Builtin.type, dateType] at hs; cases hs; simp [fmtDate]
    | datetime y m d h mi s us => simp only [Builtin.type, dateType] at hs; cases hs; simp [fmtDate]
    | _ =>
      exfalso
      revert hv; revert ha
      simp only [Builtin.type, dateType]
      cases x with
      | str t =>
        intro ha
        obtain ⟨_, h⟩ := temporalText_mk ha
        obtain ⟨_, _, _, h, _⟩ := mkDate_some h
        cases h
      | _ => simp [truthy]
  | time st =>
    cases v with
    | time h mi s us => simp only [Builtin.type, timeType] at hs; cases hs; simp [fmtTime]
    | _ =>
      exfalso
      revert hv; revert ha
      simp only [Builtin.type, timeType]
      cases x with
      | str t =>
        intro ha
        obtain ⟨_, h⟩ := temporalText_mk ha
        obtain ⟨_, _, _, h, _⟩ := mkTime_some h
        cases h
      | _ => simp [truthy]
  | dateTime st =>
    cases v with
    | datetime y m d h mi s us => simp only [Builtin.type, dateTimeType] at hs; cases hs; simp [fmtDate]
    | _ =>
      exfalso
      revert hv; revert ha
      simp only [Builtin.type, dateTimeType]
      cases x with
      | str t =>
        intro ha
        obtain ⟨_, h⟩ := temporalText_mk ha
        obtain ⟨_, _, _, _, _, _, h, _⟩ := mkDateTime_some h
        cases h
      | _ => simp [truthy]

theorem dateTruthy (doStrip : Bool) (a b c : ScalarState) (ha : ∀ n, a.value ≠ .obj n) (hb : ∀ n, b.value ≠ .obj n) (hc : ∀ n, c.value ≠ .obj n) (name : Option PStr) :
    ∃ t, vTruthy (.date name doStrip [a, b, c]) = .ok t ∧
      (t = true ↔ ∃ y m d Y M D, CountsAs a.value y ∧ CountsAs b.value m ∧ CountsAs c.value d ∧ DateNumbers y m d Y M D) := by
  simp only [vTruthy, dateView, List.map_cons, List.map_nil]
  by_cases h : (∃ i, CountsAs a.value i) ∧ (∃ i, CountsAs b.value i) ∧ ∃ i, CountsAs c.value i
  · obtain ⟨⟨y, hy⟩, ⟨m, hm⟩, d, hd⟩ := h
    have ny := (numberOf_iff ha y).2 hy
    have nm := (numberOf_iff hb m).2 hm
    have nd := (numberOf_iff hc d).2 hd
    rw [composeDate_counts doStrip ny nm nd]
    by_cases hn : ∃ Y M D, DateNumbers y m d Y M D
    · obtain ⟨Y, M, D, hn⟩ := hn
      rw [composeDate_ok doStrip hn]
      exact ⟨true, by simp [fmtDate, truthy], iff_of_true rfl ⟨y, m, d, Y, M, D, hy, hm, hd, hn⟩⟩
    · rw [composeDate_bad doStrip hn]
      refine ⟨false, by simp, ?_⟩
      simp only [Bool.false_eq_true, false_iff]
      rintro ⟨y', m', d', Y, M, D, hy', hm', hd', hn'⟩
      have e1 := (numberOf_iff ha y').2 hy'
      have e2 := (numberOf_iff hb m').2 hm'
      have e3 := (numberOf_iff hc d').2 hd'
      rw [ny] at e1; rw [nm] at e2; rw [nd] at e3
      cases e1; cases e2; cases e3
      exact hn ⟨Y, M, D, hn'⟩
  · rw [composeDate_no_number doStrip ha hb hc h]
    refine ⟨false, by simp, ?_⟩
    simp only [Bool.false_eq_true, false_iff]
    rintro ⟨y', m', d', Y, M, D, hy', hm', hd', _⟩
    exact h ⟨⟨_, hy'⟩, ⟨_, hm'⟩, _, hd'⟩

end Flatland
