import Verif.Model.Truth
import Verif.Spec.Truth
import Verif.Proofs.Truth
import Verif.Props.Compounds
import Verif.Props.Nodes
/-! # C91: what `bool(element)` says -/
namespace Flatland
open Flatland.Spec

section
variable [Runtime]

/-- After a set that returned, a String, Integer, Boolean, Date, Time, DateTime or Enum of these is true if and only if the set succeeded and the value
is true (a Boolean whose text for True is empty excepted). -/
theorem C91_scalar (b : Builtin) (hb : ShownWhenTrue b) (name : Option PStr) (st st' : ScalarState) (x : PyVal) (ok : Bool)
    (h : scalarSet b.type st x = (st', .ok ok)) :
    ∃ t, vTruthy (.plain (.scalar name st')) = .ok t ∧ (t = true ↔ ok = true ∧ ¬ FalseValue st'.value) := by
  refine ⟨_, rfl, ?_⟩
  show scalarBool st' = true ↔ _
  rw [← truthy_iff, Bool.not_eq_false]
  cases ha : b.type.adapt x with
  | error e =>
    cases e <;> simp [scalarSet, ha] at h
    obtain ⟨rfl, rfl⟩ := h
    simp [scalarBool, truthy]
  | ok v =>
    by_cases hn : v = .none
    · subst hn
      simp [scalarSet, ha] at h
      obtain ⟨rfl, rfl⟩ := h
      simp [scalarBool, truthy]
    · obtain ⟨s, hs⟩ := builtin_serialize_ok b v
      rw [scalarSet_ok ha hn hs] at h
      cases h
      simp only [scalarBool, Bool.and_eq_true, true_and]
      refine ⟨fun h => h.2, fun h => ⟨?_, h⟩⟩
      simpa using serialize_true b hb x v s ha hs h

/-- Whatever the class, a scalar is false after a set that returned False. -/
theorem C91_failed (t : ScalarType) (name : Option PStr) (st st' : ScalarState) (x : PyVal) (h : scalarSet t st x = (st', .ok false)) :
    vTruthy (.plain (.scalar name st')) = .ok false := by
  show Except.ok (scalarBool st') = _
  cases ha : t.adapt x with
  | error e =>
    cases e <;> simp [scalarSet, ha] at h
    obtain rfl := h
    simp [scalarBool, truthy]
  | ok v =>
    exfalso
    unfold scalarSet at h
    rw [ha] at h
    cases v <;> simp at h <;> split at h <;> simp at h

/-- and so it is when it was never set -/
theorem C91_fresh (name : Option PStr) : vTruthy (.plain (.scalar name .fresh)) = .ok false := by
  show Except.ok (scalarBool .fresh) = _
  simp [scalarBool, ScalarState.fresh]

/-- A Dict, SparseDict, List or Array is true if and only if there is a field or member in it. -/
theorem C91_container (name : Option PStr) (es : List Elem) (e : Elem) (h : e = .dict name es ∨ e = .list name es ∨ e = .array name es) :
    ∃ t, vTruthy (.plain e) = .ok t ∧ (t = true ↔ ∃ i, elemAt e [i] ≠ none) := by
  refine ⟨_, rfl, ?_⟩
  have key : es.any Elem.present = true ↔ ∃ i : Nat, ∃ k, es[i]? = some k ∧ elemAt k [] ≠ none := by
    simp only [List.any_eq_true, List.mem_iff_getElem?]
    constructor
    · rintro ⟨k, ⟨i, hi⟩, hk⟩
      exact ⟨i, k, hi, by cases k <;> simp_all [elemAt, Elem.present]⟩
    · rintro ⟨i, k, hi, hk⟩
      exact ⟨k, ⟨i, hi⟩, by cases k <;> simp_all [elemAt, Elem.present]⟩
  have key' : es.any Elem.present = true ↔ ∃ i : Nat, (match es[i]? with | some k => elemAt k [] | none => none) ≠ none := by
    rw [key]
    refine exists_congr fun i => ?_
    cases es[i]? <;> simp
  rcases h with rfl | rfl | rfl <;> exact key'

/-- The same of one that has DateYYYYMMDDs and JoinedStrings in it. -/
theorem C91_rich_container (name : Option PStr) (ks : List VElem) :
    (∃ t, vTruthy (.dict name ks) = .ok t ∧ (t = true ↔ ∃ k ∈ ks, k ≠ .plain .absent)) ∧
    (∃ t, vTruthy (.list name ks) = .ok t ∧ (t = true ↔ ks ≠ [])) ∧
    (∃ t, vTruthy (.array name ks) = .ok t ∧ (t = true ↔ ks ≠ [])) := by
  refine ⟨⟨_, rfl, ?_⟩, ⟨_, rfl, by simp⟩, ⟨_, rfl, by simp⟩⟩
  simp only [List.any_eq_true]
  refine exists_congr fun k => and_congr_right fun _ => ?_
  cases k with
  | plain e => cases e <;> simp [VElem.present, Elem.present]
  | _ => simp [VElem.present]

/-- A DateYYYYMMDD is true if and only if its fields make a real date (True counting as 1, False as 0). -/
theorem C91_date (name : Option PStr) (doStrip : Bool) (a b c : ScalarState) (h : ∀ n, a.value ≠ .obj n ∧ b.value ≠ .obj n ∧ c.value ≠ .obj n) :
    ∃ t, vTruthy (.date name doStrip [a, b, c]) = .ok t ∧
      (t = true ↔ ∃ y m d Y M D, CountsAs a.value y ∧ CountsAs b.value m ∧ CountsAs c.value d ∧ DateNumbers y m d Y M D) :=
  dateTruthy doStrip a b c (fun n => (h n).1) (fun n => (h n).2.1) (fun n => (h n).2.2) name

/-- So whatever is done to one with the usual fields, it can always be asked, and is true if and only if the year, month and day are numbers that make a
real date. -/
theorem C91_date_history (name : Option PStr) (doStrip : Bool) (ops : List YmdOp) :
    ∃ a b c t, ymdRun doStrip [.fresh, .fresh, .fresh] ops = [a, b, c] ∧ vTruthy (.date name doStrip [a, b, c]) = .ok t ∧
      (t = true ↔ ∃ Y M D : Nat, a.value = .int Y ∧ b.value = .int M ∧ c.value = .int D ∧ RealDate Y M D) := by
  obtain ⟨a, b, c, hr, hc⟩ := C51_history doStrip ops
  rcases hc with ⟨y, m, d, hd, ha, hb, hc, hv⟩ | ⟨hno, hv⟩
  · exact ⟨a, b, c, true, hr, by simp [vTruthy, hv, fmtDate, truthy], iff_of_true rfl ⟨y, m, d, ha, hb, hc, hd⟩⟩
  · refine ⟨a, b, c, false, hr, by simp [vTruthy, hv], iff_of_false (by simp) ?_⟩
    rintro ⟨y, m, d, ha, hb, hc, hd⟩
    exact hno ⟨y, m, d, hd, ha, hb, hc⟩

/-- A JoinedString is false if and only if all its members have an empty text and there is no separator between them: the separator is empty, or there is
at most one member. -/
theorem C91_joined (name : Option PStr) (c : JoinedCfg) (ms : List ScalarState) :
    ∃ t, vTruthy (.joined name c ms) = .ok t ∧ (t = false ↔ (∀ m ∈ ms, m.u = []) ∧ (c.separator = [] ∨ ms.length ≤ 1)) := by
  refine ⟨_, rfl, ?_⟩
  have h : ∀ ms : List ScalarState, joinedText c ms = [] ↔ (∀ m ∈ ms, m.u = []) ∧ (c.separator = [] ∨ ms.length ≤ 1) := by
    intro ms
    induction ms with
    | nil => simp [joinedText, pyJoin]
    | cons m ms ih =>
      cases ms with
      | nil => simp [joinedText, pyJoin]
      | cons m' ms =>
        simp only [joinedText, List.map_cons, pyJoin, List.append_eq_nil_iff] at ih ⊢
        rw [ih]
        simp
        grind
  rw [← h ms]
  simp [truthy]

/-- `..` from a field of a DateYYYYMMDD goes up to it if the date is complete, and stays at the field if it is not. -/
theorem C91_up {N} (g : Graph N) (strict : Bool) (el p : N) (hp : g.parent el = some p) (name : Option PStr) (doStrip : Bool) (a b c : ScalarState)
    (hn : ∀ n, a.value ≠ .obj n ∧ b.value ≠ .obj n ∧ c.value ≠ .obj n) (hv : vTruthy (.date name doStrip [a, b, c]) = .ok (g.truthy p)) :
    ((∃ y m d Y M D, CountsAs a.value y ∧ CountsAs b.value m ∧ CountsAs c.value d ∧ DateNumbers y m d Y M D) → Evaluates g strict [.up] el (.ok [p])) ∧
    ((¬ ∃ y m d Y M D, CountsAs a.value y ∧ CountsAs b.value m ∧ CountsAs c.value d ∧ DateNumbers y m d Y M D) → Evaluates g strict [.up] el (.ok [el])) := by
  obtain ⟨t, ht, hi⟩ := C91_date name doStrip a b c hn
  rw [hv] at ht
  cases ht
  have ev : ∀ q, runOps g strict [.up] el = .found q → Evaluates g strict [.up] el (.ok [q]) := by
    intro q hq
    refine ⟨2, fun m hm => ?_⟩
    obtain ⟨m, rfl⟩ : ∃ m', m = m' + 2 := ⟨m - 2, by omega⟩
    simp [evalLoop, hq]
  constructor
  · intro h
    exact ev p (by simp [runOps, hp, hi.2 h])
  · intro h
    have : g.truthy p = false := by simpa using fun ht => h (hi.1 ht)
    exact ev el (by simp [runOps, hp, this])

end

section
attribute [local instance] Runtime.ascii

-- the hypotheses are met: " 7 " in an Integer (true), "x" in one (False, false), "0" (succeeds, false)
example : (scalarSet (Builtin.integer true 0).type .fresh (.str " 7 ".toList)).2.toOption = some true ∧
    (vTruthy (.plain (.scalar none (scalarSet (Builtin.integer true 0).type .fresh (.str " 7 ".toList)).1))).toOption = some true := by decide +kernel
example : (scalarSet (Builtin.integer true 0).type .fresh (.str "x".toList)).2.toOption = some false ∧
    (vTruthy (.plain (.scalar none (scalarSet (Builtin.integer true 0).type .fresh (.str "x".toList)).1))).toOption = some false := by decide +kernel
example : (scalarSet (Builtin.integer true 0).type .fresh (.str "0".toList)).2.toOption = some true ∧
    (vTruthy (.plain (.scalar none (scalarSet (Builtin.integer true 0).type .fresh (.str "0".toList)).1))).toOption = some false := by decide +kernel
example : ShownWhenTrue (.enum (.boolean {}) [.bool true]) := by simp [ShownWhenTrue]
-- a SparseDict with one of two fields, and with none
example : vTruthy (.plain (.dict none [.absent, .scalar (some ['a']) .fresh])) = .ok true := rfl
example : vTruthy (.plain (.dict none [.absent, .absent])) = .ok false := rfl
-- a complete and an incomplete date
example : (vTruthy (.date none true [⟨.int 2024, [], none⟩, ⟨.int 2, [], none⟩, ⟨.int 29, [], none⟩])).toOption = some true := by decide +kernel
example : (vTruthy (.date none true [⟨.int 2023, [], none⟩, ⟨.int 2, [], none⟩, ⟨.int 29, [], none⟩])).toOption = some false := by decide +kernel
-- joined strings: '', ',' and 'x'
example : vTruthy (.joined none { member := stringType true } [.fresh]) = .ok false := rfl
example : vTruthy (.joined none { member := stringType true } [.fresh, .fresh]) = .ok true := rfl

/-- a date and its three fields -/
def exDateGraph (complete : Bool) : Graph Nat where
  root _ := 0
  parent n := if n = 0 then none else some 0
  truthy n := if n = 0 then complete else false
  index _ _ := .error .key
  children n := if n = 0 then [1, 2, 3] else []
theorem ok_of_toOption {α ε} {x : Except ε α} {a : α} (h : x.toOption = some a) : x = .ok a := by
  cases x <;> simp_all [Except.toOption]

example : Evaluates (exDateGraph false) true [.up] 2 (.ok [2]) :=
  (C91_up (exDateGraph false) true 2 0 rfl none true ⟨.int 2023, [], none⟩ ⟨.int 2, [], none⟩ ⟨.int 29, [], none⟩ (by simp)
    (ok_of_toOption (by decide +kernel))).2
    (by rintro ⟨y, m, d, Y, M, D, h1, h2, h3, h4, h5, h6, h7⟩
        simp only [CountsAs] at h1 h2 h3
        simp at h1 h2 h3
        have e1 : Y = 2023 := by omega
        have e2 : M = 2 := by omega
        have e3 : D = 29 := by omega
        subst e1 e2 e3
        obtain ⟨_, _, _, _, len, h8, h9⟩ := h7
        have : monthLength 2023 2 = some 28 := by decide +kernel
        rw [this] at h8
        cases h8
        omega)

/-- a Boolean shown as '' when it is True is false with a value of True -/
theorem C91_not_shown : ∃ (c : BoolCfg) (st : ScalarState), scalarSet (booleanType c) .fresh (.bool true) = (st, .ok true) ∧ st.value = .bool true ∧
    vTruthy (.plain (.scalar none st)) = .ok false :=
  ⟨{ true_ := [] }, ⟨.bool true, [], some (.bool true)⟩, rfl, rfl, rfl⟩

end
end Flatland
