import Verif.Proofs.SubmittedDates
import Verif.Props.RichValidation
/-! # C94: when a submitted form with dates and joined strings is valid -/
namespace Flatland
open Flatland.Spec

section
variable [Runtime]

/-- A form of scalars, JoinedStrings and DateYYYYMMDDs in Dicts, filled from a submission and validated by tests of values and texts, is valid iff every
field is: what was submitted for it is blank and the field optional, or all tests pass – or, if there are none, it is not blank.  A JoinedString is tested
with its text, and so are its members; a date with the date its parts make, if they make one.  Pairs that name nothing never matter. -/
theorem C94_valid (sep : PStr) (s : RSchema) (hs : DateForm s) (ps : List (PStr × PStr)) (e : RElem) (hset : rFromFlat sep s ps = .ok e)
    (rules : Pos → RichField) (tests : Pos → List (PyVal → PStr → Bool)) (noter : NElem → Pos → Noter)
    (hv : ∀ p, (rules p).validators = (tests p).map fun t => ownRule t noter) (hd : ∀ p, (rules p).descent = [])
    (hdict : ∀ p n ks, nElemAt (nodesOf e) p = some (.dict n ks) → tests p = [] ∧ (rules p).sparse = false)
    (hm : ∀ p, ∃ m text, (noter (nodesOf e) p).attr "incorrect".toList = .ok m ∧ ¬ Silent m ∧ expandMessage (noter (nodesOf e) p).env m = .ok text)
    (st : VState Pos (Pos → List PStr)) :
    ∃ r b n, (∀ m, n ≤ m → validateRich (nodesOf e) rules m st = some r) ∧ r.result = .ok b ∧
      (b = true ↔ (∀ p key h l, RFieldOf sep s p key h l → FineLeaf rules tests p (submitted key ps) l) ∧
        ∀ p key y m d, DateOf sep s p key y m d →
          FineDate rules tests p (partAfter sep key ps y) (partAfter sep key ps m) (partAfter sep key ps d)) := by
  have hec := rFromFlat_conforms hset
  have hne : nodesOf e ≠ .absent := by
    cases s <;> cases e <;> simp only [RConforms] at hec <;> simp [nodesOf]
    exact fun h => conforms_ne_absent hec ((plainNodes_present _).1 h)
  obtain ⟨r, b, n, h1, h2, h3, _⟩ := C93_validate (nodesOf e) hne rules (by
    intro p k hk
    rw [hv, hd]
    exact ⟨own_decides hk (hm p) _, fun _ r hr => absurd hr (by simp)⟩) st
  refine ⟨r, b, n, h1, h2, h3.trans ?_⟩
  have own : ∀ {p k}, At (nodesOf e) p k →
      (Complies (nodesOf e) rules p k ↔ FineField (rules p).optional (NothingIn rules p k) (tests p) (valueN k) (textN k)) :=
    fun hk => complies_own (hv _) (hd _) hk
  have member : ∀ q h t m (ms : List ScalarState) (j : Nat), At (nodesOf e) q (.joined h t (ms.map (.scalar m))) →
      nElemAt (nodesOf e) (q ++ [j]) = (ms[j]?).map (NElem.scalar m) := by
    intro q h t m ms j hq
    rw [nElemAt_append, hq.1]
    simp only [Option.bind_some, nElemAt, NElem.kids, List.getElem?_map]
    cases ms[j]? <;> rfl
  constructor
  · intro hall
    constructor
    · intro p key h l hf
      obtain ⟨k, hk, hh⟩ := field_now hs hset hf
      have hc := (own hk).1 (hall p k hk)
      cases l with
      | scalar t =>
        obtain ⟨st', rfl, e1, e2⟩ := hh
        simp only [NothingIn, valueN, textN, e1, e2] at hc
        exact hc
      | joined c m =>
        subst hh
        refine ⟨?_, ?_⟩
        · simpa only [NothingIn, valueN, textN, List.map_eq_nil_iff] using hc
        · intro j st' hj
          have hkm : At (nodesOf e) (p ++ [j]) (.scalar m st') := ⟨by rw [member p _ _ m _ j hk, hj]; rfl, by simp⟩
          exact (own hkm).1 (hall _ _ hkm)
    · intro p key y m d hf
      obtain ⟨n, u, v, a, b, c, hk, hsh, ha, hb, hc⟩ := date_now hs hset hf
      have hcc := (own hk).1 (hall p _ hk)
      refine ⟨v, u, hsh, ?_⟩
      simpa only [NothingIn, NothingInAll, valueN, textN, and_true, ha.1, ha.2, hb.1, hb.2, hc.1, hc.2, BlankField, Nat.zero_add, Nat.reduceAdd] using hcc
  · rintro ⟨hfields, hdates⟩ p k hk
    rcases kind_at (sep := sep) hs e hec p k hk with ⟨n, ks, rfl⟩ | ⟨key, h, l, hf⟩ | ⟨q, j, key, h, c, m, rfl, hf⟩ | ⟨key, y, m, d, hf⟩
    · rw [own hk]
      obtain ⟨t1, t2⟩ := hdict p n ks hk.1
      refine .inr ⟨by simp [t1], fun _ hb => ?_⟩
      simp only [NothingIn, t2] at hb
      exact absurd hb.1 (by simp)
    · obtain ⟨k', hk', hh⟩ := field_now hs hset hf
      obtain rfl : k = k' := Option.some.inj (hk.1.symm.trans hk'.1)
      rw [own hk]
      have := hfields p key h l hf
      cases l with
      | scalar t =>
        obtain ⟨st', rfl, e1, e2⟩ := hh
        simp only [NothingIn, valueN, textN, e1, e2]
        exact this
      | joined c m =>
        subst hh
        simpa only [NothingIn, valueN, textN, List.map_eq_nil_iff] using this.1
    · obtain ⟨k', hk', hh⟩ := field_now hs hset hf
      simp only [NowHolds] at hh
      subst hh
      have hkj := hk.1
      rw [member q _ _ m _ j hk', Option.map_eq_some_iff] at hkj
      obtain ⟨st', hj, rfl⟩ := hkj
      rw [own hk]
      exact (hfields q key h _ hf).2 j st' hj
    · obtain ⟨n, u, v, a, b, c, hk', hsh, ha, hb, hc⟩ := date_now hs hset hf
      obtain rfl := Option.some.inj (hk.1.symm.trans hk'.1)
      rw [own hk]
      obtain ⟨v', u', hsh', hfine⟩ := hdates p key y m d hf
      obtain ⟨rfl, rfl⟩ := dateShows_unique hsh hsh'
      simpa only [NothingIn, NothingInAll, valueN, textN, and_true, ha.1, ha.2, hb.1, hb.2, hc.1, hc.2, BlankField, Nat.zero_add, Nat.reduceAdd] using hfine

/-- A date with the test that it has a value, and parts without tests that are as optional as it is, is valid with its parts iff the three texts submitted
are numerals of a real date, or it is optional and nothing, or only empty texts, was submitted for the parts. -/
theorem C94_date (rules : Pos → RichField) (tests : Pos → List (PyVal → PStr → Bool)) (p : Pos) (sep key : PStr) (ps : List (PStr × PStr))
    (y m d : PartClass) (ht : tests p = [fun v _ => !isNone v])
    (hp : ∀ i < 3, tests (p ++ [i]) = [] ∧ (rules (p ++ [i])).optional = (rules p).optional ∧ (rules (p ++ [i])).textual = false) :
    (FineDate rules tests p (partAfter sep key ps y) (partAfter sep key ps m) (partAfter sep key ps d) ∧
      FineScalar (rules (p ++ [0])) (tests (p ++ [0])) (partAfter sep key ps y) ∧ FineScalar (rules (p ++ [1])) (tests (p ++ [1])) (partAfter sep key ps m) ∧
      FineScalar (rules (p ++ [2])) (tests (p ++ [2])) (partAfter sep key ps d)) ↔
    (∃ Y M D : Nat, RealDate Y M D ∧ (∃ t, submitted (key ++ sep ++ y.name) ps = some t ∧ IntText t Y) ∧
      (∃ t, submitted (key ++ sep ++ m.name) ps = some t ∧ IntText t M) ∧ ∃ t, submitted (key ++ sep ++ d.name) ps = some t ∧ IntText t D) ∨
    ((rules p).optional = true ∧ ∀ x ∈ [y, m, d], submitted (key ++ sep ++ x.name) ps = none ∨ submitted (key ++ sep ++ x.name) ps = some []) := by
  obtain ⟨y1, y2, y3⟩ := hp 0 (by omega)
  obtain ⟨m1, m2, m3⟩ := hp 1 (by omega)
  obtain ⟨d1, d2, d3⟩ := hp 2 (by omega)
  have blank : ∀ x, ((partAfter sep key ps x).u = [] ∧ (partAfter sep key ps x).value = .none) ↔
      (submitted (key ++ sep ++ x.name) ps = none ∨ submitted (key ++ sep ++ x.name) ps = some []) := fun x => part_blank _ _
  have num : ∀ x (i : Int), (partAfter sep key ps x).value = .int i ↔ ∃ t, submitted (key ++ sep ++ x.name) ps = some t ∧ IntText t i :=
    fun x i => part_int _ _ i
  simp only [FineDate, FineScalar, FineField, BlankField, y1, y2, y3, m1, m2, m3, d1, d2, d3, ht, Bool.false_eq_true, if_false, List.not_mem_nil, false_implies,
    implies_true, true_and, true_implies, forall_eq, List.cons_ne_nil, and_true, blank, List.mem_cons, forall_eq_or_imp, or_false]
  simp only [← num]
  constructor
  · rintro ⟨⟨v, u, hsh, hf⟩, hy, hm, hd⟩
    rcases hsh with ⟨Y, M, D, hr, h1, h2, h3, rfl, rfl⟩ | ⟨hno, rfl, rfl⟩
    · exact .inl ⟨Y, M, D, hr, h1, h2, h3⟩
    · rcases hf with ⟨ho, hb⟩ | hf
      · exact .inr ⟨ho, hb⟩
      · simp [isNone] at hf
  · rintro (⟨Y, M, D, hr, h1, h2, h3⟩ | ⟨ho, hb⟩)
    · have nb : ∀ x (i : Int), (partAfter sep key ps x).value = .int i →
          ¬ (submitted (key ++ sep ++ x.name) ps = none ∨ submitted (key ++ sep ++ x.name) ps = some []) := by
        intro x i hx hb
        have := ((blank x).2 hb).2
        rw [hx] at this
        cases this
      exact ⟨⟨_, _, .inl ⟨Y, M, D, hr, h1, h2, h3, rfl, rfl⟩, .inr (by simp [isNone])⟩, .inr (nb y _ h1), .inr (nb m _ h2), .inr (nb d _ h3)⟩
    · refine ⟨⟨.none, [], .inr ⟨?_, rfl, rfl⟩, .inl ⟨ho, hb⟩⟩, .inl ⟨ho, hb.1⟩, .inl ⟨ho, hb.2.1⟩, .inl ⟨ho, hb.2.2⟩⟩
      rintro ⟨Y, M, D, _, h1, _, _⟩
      have := ((blank y).2 hb.1).2
      rw [h1] at this
      cases this

end

section examples
attribute [local instance] Runtime.ascii

/-- a required date, tags and an optional name -/
def exVisit : RSchema :=
  .dict ⟨none, false, some .none⟩ .full .subset [
    .compound ⟨some ['d'], false, some .none⟩ dateText [.scalar ⟨some ['y'], false, some .none⟩ (integerType true 4),
      .scalar ⟨some ['m'], false, some .none⟩ (integerType true 2), .scalar ⟨some ['a'], false, some .none⟩ (integerType true 2)],
    .joined ⟨some ['t'], false, some .none⟩ { member := stringType true } none,
    .plain (.scalar ⟨some ['n'], true, some .none⟩ (stringType true))]

example : DateForm exVisit := by
  refine .dict ?_ ?_ <;> intro f hf <;> simp only [List.mem_cons, List.not_mem_nil, or_false] at hf <;> rcases hf with rfl | rfl | rfl
  · simp [RSchema.name, RSchema.hdr]
  · simp [RSchema.name, RSchema.hdr]
  · simp [RSchema.name, RSchema.hdr, Schema.hdr]
  · exact .date (by simp) (by simp) (by simp) (by simp)
  · exact .joined (by simp)
  · exact .plain (.scalar _ _ (by simp))

example : DateOf ['_'] exVisit [0] ['d'] ⟨['y'], ⟨some ['y'], false, some .none⟩, 4⟩ ⟨['m'], ⟨some ['m'], false, some .none⟩, 2⟩
    ⟨['a'], ⟨some ['a'], false, some .none⟩, 2⟩ :=
  .unnamed rfl (i := 0) rfl (by simp [RSchema.name, RSchema.hdr]) (.here (y := ⟨['y'], ⟨some ['y'], false, some .none⟩, 4⟩)
    (m := ⟨['m'], ⟨some ['m'], false, some .none⟩, 2⟩) (d := ⟨['a'], ⟨some ['a'], false, some .none⟩, 2⟩) rfl rfl rfl rfl)

/-- the date has to have a value -/
def exVisitTests : Pos → List (PyVal → PStr → Bool) := fun p => if p = [0] then [fun v _ => !isNone v] else []

def exVisitRules : Pos → RichField := fun p => { optional := p == [2], validators := (exVisitTests p).map fun t => ownRule t exSaying }

example : ∀ p e, ∃ m text, (exSaying e p).attr "incorrect".toList = .ok m ∧ ¬ Silent m ∧ expandMessage (exSaying e p).env m = .ok text :=
  fun _ _ => ⟨_, _, rfl, by simp [Silent], rfl⟩

/-- the verdict on a submission -/
def exVisitValid (ps : List (PStr × PStr)) : Option (Option Bool) :=
  (rFromFlat ['_'] exVisit ps).toOption.bind fun e =>
    (validateRich (nodesOf e) exVisitRules 40 ⟨fun _ => .unevaluated, fun _ => []⟩).map fun r => r.result.toOption

def exVisitFields (a : String) (t : String) : List (PStr × PStr) :=
  [(['t'], t.toList), ("d_y".toList, "2012".toList), ("d_a".toList, a.toList), ("d_m".toList, " 2".toList), ("d_a".toList, "1".toList), ("x".toList, [])]

-- 2012 is a leap year; the first of two values for the day counts; JoinedStrings without members are blank
example : exVisitValid (exVisitFields "29" "x,y") = some (some true) := by decide +kernel
example : exVisitValid (exVisitFields "30" "x,y") = some (some false) := by decide +kernel
example : exVisitValid (exVisitFields "" "x,y") = some (some false) := by decide +kernel
example : exVisitValid (exVisitFields "29" ",") = some (some false) := by decide +kernel

end examples
end Flatland
