import Verif.Spec.SubmittedDates
import Verif.Proofs.RichSubmissions3
import Verif.Proofs.RichValidation
import Verif.Props.Compounds
import Verif.Proofs.Rejected
/-! Lemmas about submitted forms with dates and joined strings (C94). -/
namespace Flatland
open Flatland.Spec

section
variable [Runtime]

theorem dateForm_plain {s : RSchema} (h : DateForm s) : PlainForm (plainS s) := by
  induction h with
  | plain h => exact h
  | joined h => exact .scalar _ _ h
  | date hn hy hm hd =>
    refine .dict _ _ _ ?_ ?_ <;> intro f hf <;> simp only [List.mem_cons, List.not_mem_nil, or_false] at hf <;> rcases hf with rfl | rfl | rfl
    · exact hy
    · exact hm
    · exact hd
    · exact .scalar _ _ hy
    · exact .scalar _ _ hm
    · exact .scalar _ _ hd
  | @dict h po fs hn _ ih =>
    refine .dict _ _ _ ?_ ?_ <;> intro g hg <;> obtain ⟨i, hi⟩ := List.mem_iff_getElem?.1 hg <;> rw [plainAll_get, Option.map_eq_some_iff] at hi <;>
      obtain ⟨f, hf, rfl⟩ := hi
    · rw [plainS_name]; exact hn f (List.mem_of_getElem? hf)
    · exact ih f (List.mem_of_getElem? hf)

omit [Runtime] in
theorem plainNodesAll_get (ks : List Elem) (i : Nat) : (plainNodesAll ks)[i]? = (ks[i]?).map plainNodes := by
  induction ks generalizing i with
  | nil => simp [plainNodesAll]
  | cons k ks ih => cases i <;> simp [plainNodesAll, ih]

theorem nodesOfAll_get (ks : List RElem) (i : Nat) : (nodesOfAll ks)[i]? = (ks[i]?).map nodesOf := by
  induction ks generalizing i with
  | nil => simp [nodesOfAll]
  | cons k ks ih => cases i <;> simp [nodesOfAll, ih]

omit [Runtime] in
theorem plainNodes_kids (e : Elem) : (plainNodes e).kids = plainNodesAll e.kids := by
  cases e <;> simp [plainNodes, NElem.kids, Elem.kids, plainNodesAll]

omit [Runtime] in
theorem plainNodes_present (e : Elem) : plainNodes e = .absent ↔ e = .absent := by cases e <;> simp [plainNodes]

omit [Runtime] in
theorem plainNodes_at (e : Elem) (p : Pos) (k : NElem) : At (plainNodes e) p k ↔ ∃ x, elemAt e p = some x ∧ k = plainNodes x := by
  induction p generalizing e with
  | nil =>
    simp only [At, nElemAt, Option.some.injEq]
    by_cases he : e = .absent
    · subst he; simp [plainNodes, elemAt]; rintro rfl; simp
    · rw [elemAt_nil e he]
      simp only [Option.some.injEq, exists_eq_left']
      constructor
      · rintro ⟨rfl, _⟩; rfl
      · rintro rfl; exact ⟨rfl, fun h => he ((plainNodes_present e).1 h)⟩
  | cons i p ih =>
    by_cases he : e = .absent
    · subst he; simp [At, plainNodes, nElemAt, NElem.kids, elemAt_absent]
    · rw [elemAt_cons _ _ _ he]
      simp only [At, nElemAt, plainNodes_kids, plainNodesAll_get]
      cases hk : e.kids[i]? with
      | none => simp
      | some x => simpa [At] using ih x

theorem nodes_at {e : RElem} {p : Pos} {r : RElem} (h : rAt e p = some r) (hr : r ≠ .plain .absent) : At (nodesOf e) p (nodesOf r) := by
  induction p generalizing e with
  | nil =>
    cases e with
    | plain e =>
      simp only [rAt, Option.map_eq_some_iff] at h
      obtain ⟨x, hx, rfl⟩ := h
      simp only [nodesOf]
      exact (plainNodes_at e [] _).2 ⟨x, hx, rfl⟩
    | _ => simp only [rAt, Option.some.injEq] at h; subst h; simp [At, nElemAt, nodesOf]
  | cons i p ih =>
    cases e with
    | plain e =>
      simp only [rAt, Option.map_eq_some_iff] at h
      obtain ⟨x, hx, rfl⟩ := h
      simp only [nodesOf]
      exact (plainNodes_at e (i :: p) _).2 ⟨x, hx, rfl⟩
    | joined => simp [rAt] at h
    | compound n co ks =>
      simp only [rAt, Option.map_eq_some_iff] at h
      obtain ⟨x, hx, rfl⟩ := h
      have := (plainNodes_at (.dict n ks) (i :: p) _).2 ⟨x, hx, rfl⟩
      simpa only [At, nElemAt, nodesOf, plainNodes, NElem.kids] using this
    | dict n ks | list n ks =>
      simp only [rAt] at h
      simp only [At, nodesOf, nElemAt, NElem.kids, nodesOfAll_get]
      cases hk : ks[i]? with
      | none => rw [hk] at h; cases h
      | some k =>
        rw [hk] at h
        exact ih h

/-- what a field holds after a submission to a new form -/
def NowHolds (h : Hdr) (v : Option PStr) : Leaf → NElem → Prop
  | .scalar t, k => ∃ st, k = .scalar h.name st ∧ st.value = (afterSubmission t .fresh v).value ∧ st.u = (afterSubmission t .fresh v).u
  | .joined c m, k => k = .joined h.name (pyJoin c.separator ((membersAfter c v).map ScalarState.u)) ((membersAfter c v).map (.scalar m))

theorem rFresh_conforms (s : RSchema) : RConforms s (rFresh s) := raise_fresh s ▸ conforms_raise s _ (fresh_conforms (plainS s))

theorem field_now {sep : PStr} {s : RSchema} (hs : DateForm s) {ps : List (PStr × PStr)} {e : RElem} (hset : rFromFlat sep s ps = .ok e)
    {p : Pos} {key : PStr} {h : Hdr} {l : Leaf} (hf : RFieldOf sep s p key h l) :
    ∃ k, At (nodesOf e) p k ∧ NowHolds h (submitted key ps) l k := by
  have hp := fieldOf_plain hf
  obtain ⟨st0, h0⟩ := plain_field_there hp (dateForm_plain hs) (fresh (plainS s)) (fresh_conforms _)
  have hfr := fieldOf_fresh hp _ h0
  rw [hfr] at h0
  have hb := rAt_raise hf _ (fresh_conforms _) _ h0
  rw [raise_fresh] at hb
  obtain ⟨after, ha, hbec⟩ := rField_after hf (rFresh s) (rFresh_conforms s) _ hb ps e hset
  cases l with
  | scalar t =>
    simp only [Leaf.raise] at hbec
    obtain ⟨n, st, st', h1, rfl, h2, h3⟩ := hbec
    cases h1
    exact ⟨_, nodes_at ha (by simp), st', by simp [nodesOf, plainNodes], h2, h3⟩
  | joined c m =>
    have hm : Leaf.raise h (.joined c m) (.scalar h.name .fresh) = .joined h.name c m [] := by
      simp [Leaf.raise, Elem.state, ScalarState.fresh, keptMembers, decMembers]
    rw [hm] at hbec
    cases hsub : submitted key ps with
    | none =>
      rw [hsub] at hbec
      obtain ⟨ms, h1, rfl⟩ := hbec
      exact ⟨_, nodes_at ha (by simp), by simp [NowHolds, membersAfter, nodesOf, joinedText]⟩
    | some v =>
      rw [hsub] at hbec
      obtain ⟨_, rfl⟩ := hbec
      exact ⟨_, nodes_at ha (by simp), by simp [NowHolds, membersAfter, nodesOf, joinedText]⟩

/-- the three parts of a date, with their positions -/
inductive PartAt (y m d : PartClass) : Nat → PartClass → Prop
  | year : PartAt y m d 0 y
  | month : PartAt y m d 1 m
  | day : PartAt y m d 2 d

omit [Runtime] in
theorem rFieldOf_under {sep : PStr} {h : Hdr} {mode : DictMode} {po : Policy} {fs : List RSchema} {i : Nat} {f : RSchema} (hi : fs[i]? = some f)
    (hn : f.name ≠ none) {p : Pos} {key : PStr} {hd : Hdr} {l : Leaf} (hf : RFieldOf sep f p key hd l) :
    ∃ key', RFieldOf sep (.dict h mode po fs) (i :: p) key' hd l := by
  cases hh : h.name with
  | none => exact ⟨_, .unnamed hh hi hn hf⟩
  | some n => exact ⟨_, .named hh hi hn hf⟩

theorem dateOf_part {sep : PStr} {s : RSchema} {p : Pos} {key : PStr} {y m d : PartClass} (hf : DateOf sep s p key y m d) {i : Nat} {x : PartClass}
    (hx : PartAt y m d i x) : RFieldOf sep s (p ++ [i]) (key ++ sep ++ x.name) x.hdr (.scalar (integerType true x.width)) := by
  induction hf with
  | here hn hy hm hd =>
    cases hx
    · exact .compound (.named hn (i := 0) rfl (by simp [Schema.name, Schema.hdr, hy]) (.here hy))
    · exact .compound (.named hn (i := 1) rfl (by simp [Schema.name, Schema.hdr, hm]) (.here hm))
    · exact .compound (.named hn (i := 2) rfl (by simp [Schema.name, Schema.hdr, hd]) (.here hd))
  | unnamed hn hi hfn _ ih => exact .unnamed hn hi hfn (ih hx)
  | @named h mode po fs i f p key y m d n hn hi hfn _ ih =>
    have := RFieldOf.named (mode := mode) (po := po) hn hi hfn (ih hx)
    simpa only [List.append_assoc, List.cons_append] using this

omit [Runtime] in
theorem conforms_scalars {hy hm hd : Hdr} {ty tm td : ScalarType} {ks : List Elem}
    (h : ConformsAll .full [.scalar hy ty, .scalar hm tm, .scalar hd td] ks) :
    ∃ a b c, ks = [.scalar hy.name a, .scalar hm.name b, .scalar hd.name c] := by
  match ks, h with
  | [x, y, z], h =>
    simp only [ConformsAll, autoField, Bool.true_eq_false, and_false, false_or, and_true] at h
    obtain ⟨h1, h2, h3⟩ := h
    cases x <;> simp only [Conforms] at h1
    cases y <;> simp only [Conforms] at h2
    cases z <;> simp only [Conforms] at h3
    subst h1; subst h2; subst h3
    exact ⟨_, _, _, rfl⟩
  | [], h | [_], h | [_, _], h | _ :: _ :: _ :: _ :: _, h => simp [ConformsAll] at h

omit [Runtime] in
theorem rConforms_full : ∀ {fs : List RSchema} {ks : List RElem}, RConformsAll .full fs ks → ∀ {i : Nat} {k : RElem},
    ks[i]? = some k → ∃ f, fs[i]? = some f ∧ RConforms f k
  | [], [], _, i, k, h => by simp at h
  | f :: fs, k₀ :: ks, hc, 0, k, h => by
    simp only [List.getElem?_cons_zero, Option.some.injEq] at h
    subst h
    simp only [RConformsAll, rAutoField, Bool.true_eq_false, and_false, false_or] at hc
    exact ⟨f, rfl, hc.1⟩
  | f :: fs, k₀ :: ks, hc, i + 1, k, h => by
    simp only [RConformsAll] at hc
    simp only [List.getElem?_cons_succ] at h ⊢
    exact rConforms_full hc.2 h
  | [], _ :: _, h, _, _, _ | _ :: _, [], h, _, _, _ => by simp [RConformsAll] at h

omit [Runtime] in
theorem rConforms_full' : ∀ {fs : List RSchema} {ks : List RElem}, RConformsAll .full fs ks → ∀ {i : Nat} {f : RSchema},
    fs[i]? = some f → ∃ k, ks[i]? = some k ∧ RConforms f k
  | [], [], _, i, k, h => by simp at h
  | f₀ :: fs, k :: ks, hc, 0, f, h => by
    simp only [List.getElem?_cons_zero, Option.some.injEq] at h
    subst h
    simp only [RConformsAll, rAutoField, Bool.true_eq_false, and_false, false_or] at hc
    exact ⟨k, rfl, hc.1⟩
  | f₀ :: fs, k :: ks, hc, i + 1, f, h => by
    simp only [RConformsAll] at hc
    simp only [List.getElem?_cons_succ] at h ⊢
    exact rConforms_full' hc.2 h
  | [], _ :: _, h, _, _, _ | _ :: _, [], h, _, _, _ => by simp [RConformsAll] at h

theorem dateOf_elem {sep : PStr} {s : RSchema} {p : Pos} {key : PStr} {y m d : PartClass} (hf : DateOf sep s p key y m d) :
    DateForm s → ∀ e, RConforms s e → ∃ n a b c, rAt e p = some (.compound n dateText [.scalar y.hdr.name a, .scalar m.hdr.name b, .scalar d.hdr.name c]) := by
  induction hf with
  | here hn hy hm hd =>
    intro _ e he
    cases e <;> simp only [RConforms] at he
    obtain ⟨rfl, rfl, hk⟩ := he
    obtain ⟨a, b, c, rfl⟩ := conforms_scalars hk
    exact ⟨_, a, b, c, rfl⟩
  | unnamed hn hi hfn _ ih | named hn hi hfn _ ih =>
    intro hs e he
    cases hs with
    | dict hns hds =>
    cases e <;> simp only [RConforms] at he
    obtain ⟨k, hk, hkc⟩ := rConforms_full' he.2 hi
    obtain ⟨n, a, b, c, h⟩ := ih (hds _ (List.mem_of_getElem? hi)) k hkc
    exact ⟨n, a, b, c, by simp only [rAt, hk]; exact h⟩

theorem part_values (w : Nat) (v : Option PStr) : (afterSubmission (integerType true w) .fresh v).value = .none ∨
    ∃ i, (afterSubmission (integerType true w) .fresh v).value = .int i := by
  cases v with
  | none => exact .inl rfl
  | some x => exact int_values w .fresh (.str x) (.inl rfl)

theorem date_shows {na nb nc : Option PStr} {a b c : ScalarState} (ha : a.value = .none ∨ ∃ i, a.value = .int i)
    (hb : b.value = .none ∨ ∃ i, b.value = .int i) (hc : c.value = .none ∨ ∃ i, c.value = .int i) :
    DateShows a b c (dateValueOf [.scalar na a, .scalar nb b, .scalar nc c]) (dateText [.scalar na a, .scalar nb b, .scalar nc c]) := by
  have noObj : ∀ {x : ScalarState}, (x.value = .none ∨ ∃ i, x.value = .int i) → ∀ n, x.value ≠ .obj n := by
    rintro x (h | ⟨i, h⟩) n <;> simp [h]
  have counts : ∀ {x : ScalarState}, (x.value = .none ∨ ∃ i, x.value = .int i) → ∀ i, CountsAs x.value i → x.value = .int i := by
    rintro x (h | ⟨j, h⟩) i hi <;> simp [h, CountsAs] at hi ⊢
    exact hi
  obtain ⟨h1, h2⟩ := C51_any_children true a.value b.value c.value fun n => ⟨noObj ha n, noObj hb n, noObj hc n⟩
  have hview : dateView true [a, b, c] = composeDate true [a.value, b.value, c.value] := rfl
  by_cases hd : ∃ y m d : Nat, RealDate y m d ∧ a.value = .int y ∧ b.value = .int m ∧ c.value = .int d
  · obtain ⟨y, m, d, hr, hy, hm, hdd⟩ := hd
    have := h1 y m d y m d (.inl hy) (.inl hm) (.inl hdd) ⟨rfl, rfl, rfl, hr⟩
    exact .inl ⟨y, m, d, hr, hy, hm, hdd, by simp [dateValueOf, Elem.state, hview, this], by simp [dateText, Elem.state, hview, this]⟩
  · have := h2 (by
      rintro ⟨y, m, d, Y, M, D, c1, c2, c3, rfl, rfl, rfl, hr⟩
      exact hd ⟨Y, M, D, hr, counts ha _ c1, counts hb _ c2, counts hc _ c3⟩)
    exact .inr ⟨hd, by simp [dateValueOf, Elem.state, hview, this], by simp [dateText, Elem.state, hview, this]⟩

omit [Runtime] in
theorem dateShows_congr {a b c a' b' c' : ScalarState} (ha : a.value = a'.value) (hb : b.value = b'.value) (hc : c.value = c'.value) {v : PyVal} {u : PStr} :
    DateShows a b c v u ↔ DateShows a' b' c' v u := by simp only [DateShows, ha, hb, hc]

omit [Runtime] in
theorem dateShows_unique {a b c : ScalarState} {v v' : PyVal} {u u' : PStr} (h : DateShows a b c v u) (h' : DateShows a b c v' u') : v = v' ∧ u = u' := by
  rcases h with ⟨y, m, d, hr, h1, h2, h3, rfl, rfl⟩ | ⟨hno, rfl, rfl⟩ <;> rcases h' with ⟨y', m', d', hr', h1', h2', h3', rfl, rfl⟩ | ⟨hno', rfl, rfl⟩
  · rw [h1] at h1'; rw [h2] at h2'; rw [h3] at h3'
    simp only [PyVal.int.injEq, Int.ofNat_inj] at h1' h2' h3'
    subst h1'; subst h2'; subst h3'
    exact ⟨rfl, rfl⟩
  · exact absurd ⟨y, m, d, hr, h1, h2, h3⟩ hno'
  · exact absurd ⟨y', m', d', hr', h1', h2', h3'⟩ hno
  · exact ⟨rfl, rfl⟩

theorem rFromFlat_conforms {sep : PStr} {s : RSchema} {ps : List (PStr × PStr)} {e : RElem} (h : rFromFlat sep s ps = .ok e) : RConforms s e := by
  obtain ⟨x, hx, rfl⟩ := rSetFlat_ok (rFresh_conforms s) h
  exact conforms_raise s x (setFlat_conforms (conforms_lower s _ (rFresh_conforms s)) hx)

theorem date_now {sep : PStr} {s : RSchema} (hs : DateForm s) {ps : List (PStr × PStr)} {e : RElem} (hset : rFromFlat sep s ps = .ok e)
    {p : Pos} {key : PStr} {y m d : PartClass} (hf : DateOf sep s p key y m d) :
    ∃ n u v a b c, At (nodesOf e) p (.compound n u v [.scalar y.hdr.name a, .scalar m.hdr.name b, .scalar d.hdr.name c]) ∧
      DateShows (partAfter sep key ps y) (partAfter sep key ps m) (partAfter sep key ps d) v u ∧
      (a.value = (partAfter sep key ps y).value ∧ a.u = (partAfter sep key ps y).u) ∧
      (b.value = (partAfter sep key ps m).value ∧ b.u = (partAfter sep key ps m).u) ∧
      c.value = (partAfter sep key ps d).value ∧ c.u = (partAfter sep key ps d).u := by
  have hec := rFromFlat_conforms hset
  obtain ⟨n, a, b, c, hat⟩ := dateOf_elem hf hs e hec
  have hat := nodes_at hat (by simp)
  simp only [nodesOf, plainNodesAll, plainNodes] at hat
  have part : ∀ i x z, PartAt y m d i x → [NElem.scalar y.hdr.name a, .scalar m.hdr.name b, .scalar d.hdr.name c][i]? = some (.scalar x.hdr.name z) →
      z.value = (partAfter sep key ps x).value ∧ z.u = (partAfter sep key ps x).u := by
    intro i x z hx hz
    obtain ⟨k, hk, st, rfl, h1, h2⟩ := field_now hs hset (dateOf_part hf hx)
    have := hk.1
    rw [nElemAt_append, hat.1] at this
    simp only [Option.bind_some, nElemAt, NElem.kids, hz, Option.some.injEq, NElem.scalar.injEq, true_and] at this
    subst this
    exact ⟨h1, h2⟩
  have h1 := part 0 y a .year rfl
  have h2 := part 1 m b .month rfl
  have h3 := part 2 d c .day rfl
  refine ⟨n, _, _, a, b, c, hat, ?_, h1, h2, h3⟩
  rw [← dateShows_congr h1.1 h2.1 h3.1]
  refine date_shows ?_ ?_ ?_
  · rw [h1.1]; exact part_values _ _
  · rw [h2.1]; exact part_values _ _
  · rw [h3.1]; exact part_values _ _

/-- what there is at a position of such a form -/
def Kind (sep : PStr) (s : RSchema) (p : Pos) (k : NElem) : Prop :=
  (∃ n ks, k = .dict n ks) ∨ (∃ key h l, RFieldOf sep s p key h l) ∨
    (∃ q j key h c m, p = q ++ [j] ∧ RFieldOf sep s q key h (.joined c m)) ∨ (∃ key y m d, DateOf sep s p key y m d)

theorem kind_under {sep : PStr} {h : Hdr} {mode : DictMode} {po : Policy} {fs : List RSchema} {i : Nat} {f : RSchema} (hi : fs[i]? = some f)
    (hn : f.name ≠ none) {p : Pos} {k : NElem} (hk : Kind sep f p k) : Kind sep (.dict h mode po fs) (i :: p) k := by
  rcases hk with hk | ⟨key, hd, l, hf⟩ | ⟨q, j, key, hd, c, m, rfl, hf⟩ | ⟨key, y, m, d, hf⟩
  · exact .inl hk
  · obtain ⟨key', h'⟩ := rFieldOf_under hi hn hf
    exact .inr (.inl ⟨_, _, _, h'⟩)
  · obtain ⟨key', h'⟩ := rFieldOf_under hi hn hf
    exact .inr (.inr (.inl ⟨i :: q, j, _, _, _, _, rfl, h'⟩))
  · cases hh : h.name with
    | none => exact .inr (.inr (.inr ⟨_, _, _, _, .unnamed hh hi hn hf⟩))
    | some n => exact .inr (.inr (.inr ⟨_, _, _, _, .named hh hi hn hf⟩))

theorem kind_at {sep : PStr} {s : RSchema} (hs : DateForm s) : ∀ (e : RElem) (_ : RConforms s e) (p : Pos) (k : NElem) (_ : At (nodesOf e) p k), Kind sep s p k := by
  induction hs with
  | plain hs =>
    intro e he p k hk
    cases e <;> simp only [RConforms] at he
    simp only [nodesOf] at hk
    obtain ⟨x, hx, rfl⟩ := (plainNodes_at _ _ _).1 hk
    rcases plain_elem (sep := sep) hs _ he p x hx with ⟨key, h, t, st, hf, rfl⟩ | ⟨n, ks, rfl⟩
    · exact .inr (.inl ⟨_, _, _, .plain hf⟩)
    · exact .inl ⟨n, plainNodesAll ks, by simp [plainNodes]⟩
  | @joined h c m hn =>
    intro e he p k hk
    obtain ⟨n, hn⟩ := Option.ne_none_iff_exists'.1 hn
    match p with
    | [] => exact .inr (.inl ⟨_, _, _, .joined hn⟩)
    | [j] => exact .inr (.inr (.inl ⟨[], j, _, _, _, _, rfl, .joined hn⟩))
    | j :: i :: p =>
      cases e <;> simp only [RConforms] at he
      rename_i ms
      simp only [At, nodesOf, nElemAt, NElem.kids, List.getElem?_map] at hk
      cases hm : ms[j]? <;> simp [hm] at hk
  | @date h hy hm hd wy wm wd hn hyn hmn hdn =>
    intro e he p k hk
    obtain ⟨n, hn⟩ := Option.ne_none_iff_exists'.1 hn
    obtain ⟨ny, hyn⟩ := Option.ne_none_iff_exists'.1 hyn
    obtain ⟨nm, hmn⟩ := Option.ne_none_iff_exists'.1 hmn
    obtain ⟨nd, hdn⟩ := Option.ne_none_iff_exists'.1 hdn
    have hd0 : DateOf sep (.compound h dateText [.scalar hy (integerType true wy), .scalar hm (integerType true wm), .scalar hd (integerType true wd)]) [] n
        ⟨ny, hy, wy⟩ ⟨nm, hm, wm⟩ ⟨nd, hd, wd⟩ := .here (y := ⟨ny, hy, wy⟩) (m := ⟨nm, hm, wm⟩) (d := ⟨nd, hd, wd⟩) hn hyn hmn hdn
    cases e <;> simp only [RConforms] at he
    obtain ⟨rfl, rfl, hks⟩ := he
    obtain ⟨a, b, c, rfl⟩ := conforms_scalars hks
    match p with
    | [] => exact .inr (.inr (.inr ⟨_, _, _, _, hd0⟩))
    | [0] => exact .inr (.inl ⟨_, _, _, dateOf_part hd0 .year⟩)
    | [1] => exact .inr (.inl ⟨_, _, _, dateOf_part hd0 .month⟩)
    | [2] => exact .inr (.inl ⟨_, _, _, dateOf_part hd0 .day⟩)
    | (i + 3) :: p => simp [At, nodesOf, nElemAt, NElem.kids, plainNodesAll] at hk
    | 0 :: j :: p | 1 :: j :: p | 2 :: j :: p => simp [At, nodesOf, nElemAt, NElem.kids, plainNodesAll, plainNodes] at hk
  | @dict h po fs hn _ ih =>
    intro e he p k hk
    cases e <;> simp only [RConforms] at he
    rename_i n ks
    cases p with
    | nil => simp only [At, nodesOf, nElemAt, Option.some.injEq] at hk; exact .inl ⟨_, _, hk.1.symm⟩
    | cons i p =>
      simp only [At, nodesOf, nElemAt, NElem.kids, nodesOfAll_get] at hk
      cases hx : ks[i]? with
      | none => simp [hx] at hk
      | some x =>
        rw [hx] at hk
        obtain ⟨f, hf, hfc⟩ := rConforms_full he.2 hx
        exact kind_under hf (hn f (List.mem_of_getElem? hf)) (ih f (List.mem_of_getElem? hf) x hfc p k hk)

omit [Runtime] in
theorem fine_congr {o : Bool} {b b' : Prop} (h : b ↔ b') {ts : List (PyVal → PStr → Bool)} {v : PyVal} {u : PStr} : FineField o b ts v u ↔ FineField o b' ts v u := by
  simp only [FineField, h]

/-- an element with tests of value and text, and no descent validators -/
theorem complies_own {e : NElem} {rules : Pos → RichField} {tests : Pos → List (PyVal → PStr → Bool)} {noter : NElem → Pos → Noter} {p : Pos} {k : NElem}
    (hv : (rules p).validators = (tests p).map fun t => ownRule t noter) (hd : (rules p).descent = []) (hk : At e p k) :
    Complies e rules p k ↔ FineField (rules p).optional (NothingIn rules p k) (tests p) (valueN k) (textN k) := by
  have hacc : ∀ t, Accepts e p (ownRule t noter) ↔ t (valueN k) (textN k) = true := by
    intro t
    simp only [Accepts, ownRule, hk.1]
    cases t (valueN k) (textN k) <;> simp
  simp only [Complies, LetOff, FineField, hv, hd, List.mem_map, forall_exists_index, and_imp, forall_apply_eq_imp_iff₂, hacc, List.map_eq_nil_iff,
    List.not_mem_nil, false_implies, implies_true, and_true]

omit [Runtime] in
theorem own_decide {e : NElem} {p : Pos} {k : NElem} {noter : NElem → Pos → Noter} (hk : nElemAt e p = some k) (t : PyVal → PStr → Bool) :
    (ownRule t noter).decide e p = .ok (if t (valueN k) (textN k) then .none else some "incorrect".toList) := by
  simp only [ownRule, hk]

theorem own_decides {e : NElem} {p : Pos} {k : NElem} {noter : NElem → Pos → Noter} (hk : At e p k)
    (hm : ∃ m text, (noter e p).attr "incorrect".toList = .ok m ∧ ¬ Silent m ∧ expandMessage (noter e p).env m = .ok text)
    (ts : List (PyVal → PStr → Bool)) : Decides e p (ts.map fun t => ownRule t noter) := by
  intro r hr
  obtain ⟨t, _, rfl⟩ := List.mem_map.1 hr
  obtain ⟨m, text, h1, h2, h3⟩ := hm
  cases ht : t (valueN k) (textN k) with
  | true => left; exact (own_decide hk.1 t).trans (by rw [ht, if_pos rfl])
  | false => right; exact ⟨some text, _, m, (own_decide hk.1 t).trans (by rw [ht, if_neg (by simp)]), h1, h2, h3⟩

theorem part_after (w : Nat) (s : PStr) :
    (∃ i, IntText s i ∧ (scalarSet (integerType true w) .fresh (.str s)).1.value = .int i) ∨
      ((∀ i, ¬ IntText s i) ∧ (scalarSet (integerType true w) .fresh (.str s)).1.value = .none ∧ (scalarSet (integerType true w) .fresh (.str s)).1.u = s) := by
  by_cases h : ∃ i, IntText s i
  · obtain ⟨i, hi⟩ := h
    have ha := (C05_integer_text_iff true w s (.int i)).2 ⟨i, hi, by simp, rfl⟩
    refine .inl ⟨i, hi, ?_⟩
    simp only [scalarSet, ha]
    cases (integerType true w).serialize (.int i) <;> rfl
  · have h : ∀ i, ¬ IntText s i := fun i hi => h ⟨i, hi⟩
    refine .inr ⟨h, ?_⟩
    simp only [scalarSet, integer_text_err h, and_self]

theorem part_int (w : Nat) (v : Option PStr) (i : Int) :
    (afterSubmission (integerType true w) .fresh v).value = .int i ↔ ∃ s, v = some s ∧ IntText s i := by
  cases v with
  | none => simp [afterSubmission, ScalarState.fresh]
  | some s =>
    simp only [afterSubmission, Option.some.injEq, exists_eq_left']
    rcases part_after w s with ⟨j, hj, hval⟩ | ⟨hno, hval, _⟩
    · have ha := (C05_integer_text_iff true w s (.int j)).2 ⟨j, hj, by simp, rfl⟩
      rw [hval]
      constructor
      · intro h; cases h; exact hj
      · intro hi
        have hb := (C05_integer_text_iff true w s (.int i)).2 ⟨i, hi, by simp, rfl⟩
        rw [ha] at hb
        exact Except.ok.inj hb
    · rw [hval]; simp [hno i]

theorem intText_nil (i : Int) : ¬ IntText [] i := by
  intro h
  have hb := (C05_integer_text_iff true 0 [] (.int i)).2 ⟨i, h, by simp, rfl⟩
  have : (integerType true 0).adapt (.str []) = .error .adaptation := rfl
  rw [this] at hb
  cases hb

theorem part_blank (w : Nat) (v : Option PStr) :
    ((afterSubmission (integerType true w) .fresh v).u = [] ∧ (afterSubmission (integerType true w) .fresh v).value = .none) ↔ v = none ∨ v = some [] := by
  cases v with
  | none => simp [afterSubmission, ScalarState.fresh]
  | some s =>
    simp only [afterSubmission, Option.some.injEq, reduceCtorEq, false_or]
    rcases part_after w s with ⟨j, hj, hval⟩ | ⟨hno, hval, hu⟩
    · rw [hval]
      simp only [reduceCtorEq, and_false, false_iff]
      rintro rfl
      exact intText_nil j hj
    · rw [hval, hu]; simp

end

end Flatland
