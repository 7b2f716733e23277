import Verif.Proofs.TreeProps
import Verif.Proofs.Scalars
import Verif.Props.Scalars
import Verif.Spec.TreeExample
/-
Properties C09, C10, C14, C23: flatten, from_flat / set_flat, flattened names and traversal.
-/
namespace Flatland
open Spec

section
variable [Runtime]

/-- C09.  Flattening an element and feeding the pairs to a new element of the same schema rebuilds the element: the same
tree, with every scalar set from its own text (`restored`).  No exception is raised.
`Carried` says that Lists are within `maximum_set_flat_members` and that nothing is pruned away. -/
theorem C09_roundtrip {sep : PStr} (hs : GoodSep sep) (s : Schema) (e : Elem) (hk : Keyed s) (hw : WellNamed sep s)
    (hc : Conforms s e) (hcar : Carried false s e) :
    fromFlat sep s (flatten sep e) = .ok (restored false s e) :=
  setFlat_rt hs s false e _ hw hc hcar fun k _ => flatten_agree hs hk hw hc k trivial

/-- C09.  The rebuilt element has the same structure, the same names and `R`-related scalars (`R` is `SameText` or `SameData`),
as soon as every scalar on its own is `R`-related to what setting its text gives. -/
theorem C09_same_element {sep : PStr} (hs : GoodSep sep) (s : Schema) (e : Elem) (hk : Keyed s) (hw : WellNamed sep s)
    (hc : Conforms s e) (hcar : Carried false s e) (R : ScalarState → ScalarState → Prop)
    (hR : EachScalar (ReadsBack R) false s e) :
    ∃ e', fromFlat sep s (flatten sep e) = .ok e' ∧ SameBy R e e' :=
  ⟨_, C09_roundtrip hs s e hk hw hc hcar, restored_same R false s e hc hR⟩

/-- C09.  What the two theorems above ask of a scalar holds for every built-in scalar that holds anything set from text:
setting its text again raises nothing and gives back the same text and value. -/
theorem C09_builtin_reads_back (b : Builtin) (hb : b.Consistent) (st : ScalarState) (x : PStr) :
    (∃ ok, (scalarSet b.type .fresh (.str (scalarSet b.type st (.str x)).1.u)).2 = .ok ok) ∧
    ReadsBack SameData false b.type (scalarSet b.type st (.str x)).1 := by
  have := C02_text_roundtrip b hb st x
  simp only at this
  obtain ⟨h1, h2, _⟩ := this
  rw [builtin_text_indep b _ .fresh] at h1 h2
  exact ⟨builtin_text_ok b _ _, h1.symm, h2.symm⟩

/-- C10.  The order of the submitted pairs does not matter: any submission in which every key has the values it has in the
flattened form of `e`, in the same relative order, builds the same element. -/
theorem C10_order_irrelevant {sep : PStr} (hs : GoodSep sep) (s : Schema) (e : Elem) (hk : Keyed s) (hw : WellNamed sep s)
    (hc : Conforms s e) (hcar : Carried false s e) (ps : List (PStr × PStr))
    (hps : ∀ k, valuesFor k ps = valuesFor k (flatten sep e)) :
    fromFlat sep s ps = fromFlat sep s (flatten sep e) := by
  rw [C09_roundtrip hs s e hk hw hc hcar]
  refine setFlat_rt hs s false e _ hw hc hcar fun k _ => ?_
  exact (agree_of_valuesFor hps k trivial).trans (flatten_agree hs hk hw hc k trivial)

/-- C14.  Two scalars of one tree with the same flattened name are the same scalar, or members of the same Array. -/
theorem C14_names_identify {sep : PStr} (hs : GoodSep sep) (s : Schema) (e : Elem) (hw : WellNamed sep s) (hc : Conforms s e)
    (p q : Pos) (n m : Option PStr) (st st' : ScalarState) (hp : elemAt e p = some (.scalar n st))
    (hq : elemAt e q = some (.scalar m st')) (heq : flatName sep (namesAt e p) = flatName sep (namesAt e q)) :
    SameSpot e p q := by
  have h1 := mem_leaves_of p e n st hp
  have h2 := mem_leaves_of q e m st' hq
  by_cases hk : Keyed s
  · refine same_key hs s e hw hc _ h1 _ h2 ?_
    rw [← flatName_leaf hk hw hc h1, ← flatName_leaf hk hw hc h2]
    simpa using heq
  · cases s with
    | scalar h t =>
      cases e <;> simp only [Conforms] at hc
      simp only [leaves, List.mem_singleton, LeafAt.mk.injEq] at h1 h2
      exact .inl (h1.1.trans h2.1.symm)
    | array h prune mem =>
      cases e <;> simp only [Conforms] at hc
      rename_i nm ks
      simp only [WellNamed] at hw
      have key : ∀ (p : Pos) n st, elemAt (.array nm ks) p = some (.scalar n st) → ∃ i, p = [i] := by
        intro p n st hp
        cases p with
        | nil => simp [elemAt] at hp
        | cons i r =>
          rw [elemAt_cons _ _ _ (by simp)] at hp
          simp only [Elem.kids] at hp
          cases hk : ks[i]? with
          | none => rw [hk] at hp; simp at hp
          | some k =>
            rw [hk] at hp
            have hck := hc.2 k (List.mem_of_getElem? hk)
            cases mem <;> simp [isContainer] at hw
            cases k <;> simp only [Conforms] at hck
            cases r with
            | nil => exact ⟨i, rfl⟩
            | cons j r => simp [elemAt, Elem.kids] at hp
      obtain ⟨i, rfl⟩ := key p n st hp
      obtain ⟨j, rfl⟩ := key q m st' hq
      exact .inr ⟨[], i, j, nm, ks, rfl, rfl, rfl⟩
    | dict => simp [Keyed] at hk
    | list => simp [Keyed] at hk

omit [Runtime] in
/-- C23.  `all_children` enumerates the positions below the root, each exactly once, level by level and in document order
within a level (`a < b` is the lexicographic order of positions); it never yields the root itself. -/
theorem C23_all_children (s : Schema) (e : Elem) (hc : Conforms s e) :
    ∃ ps : List Pos, ps.Nodup ∧ (∀ q, q ∈ ps ↔ q ≠ [] ∧ (elemAt e q).isSome) ∧
      ps.Pairwise (fun a b => a.length < b.length ∨ (a.length = b.length ∧ a < b)) ∧
      (allChildren [e.name] e).map (fun x => (x.1, some x.2)) = ps.map fun q => (namesAt e q, elemAt e q) := by
  have hne := conforms_not_absent hc
  have hnh := conforms_noHoles s e hc
  refine ⟨(List.range (queueSize (childrenOf ([e.name], e)))).flatMap fun d => posLev (d + 1) e, ?_, ?_, ?_, ?_⟩
  · exact sorted_nodup (levels_sorted e _)
  · intro q
    simp only [List.mem_flatMap, List.mem_range]
    constructor
    · rintro ⟨d, _, h⟩
      have := (mem_posLev (d + 1) e hne q).1 h
      refine ⟨by rintro rfl; simp at this, this.2⟩
    · rintro ⟨h1, h2⟩
      cases q with
      | nil => exact absurd rfl h1
      | cons i r =>
        refine ⟨r.length, ?_, (mem_posLev _ e hne _).2 ⟨by simp, h2⟩⟩
        apply Classical.byContradiction
        intro hlt
        have hm := (mem_posLev (r.length + 1) e hne (i :: r)).2 ⟨by simp, h2⟩
        have := lev_pos (r.length + 1) [] e hnh hne
        have h0 : lev (r.length + 1) [([] ++ [e.name], e)] = [] := by
          simp only [lev, List.flatMap_cons, List.flatMap_nil, List.append_nil, List.nil_append]
          exact lev_eq_nil _ _ (by omega)
        rw [h0] at this
        simp only [List.map_nil] at this
        have := List.map_eq_nil_iff.1 this.symm
        rw [this] at hm
        simp at hm
  · exact levels_sorted e _
  · rw [allChildren, bfs_eq _ _ (Nat.le_refl _), List.map_flatMap, List.map_flatMap]
    congr 1
    funext d
    have := lev_pos (d + 1) [] e hnh hne
    simp only [lev, List.flatMap_cons, List.flatMap_nil, List.append_nil, List.nil_append] at this
    exact this

omit [Runtime] in
/-- **C14.** `flatten` lists every scalar of the tree exactly once, level by level and in document order within a level, each under its
flattened name and with its text. -/
theorem C14_flatten_names (sep : PStr) (s : Schema) (e : Elem) (hc : Conforms s e) :
    ∃ ps : List Pos, ps.Nodup ∧ (∀ q, q ∈ ps ↔ ∃ n st, elemAt e q = some (.scalar n st)) ∧
      ps.Pairwise (fun a b => a.length < b.length ∨ (a.length = b.length ∧ a < b)) ∧
      flatten sep e = ps.map fun q => (flatName sep (namesAt e q), textAt e q) := by
  obtain ⟨ps, h1, h2, h3, h4⟩ := C23_all_children s e hc
  have hne := conforms_not_absent hc
  have h0 : elemAt e [] = some e := by cases e <;> first | exact absurd rfl hne | rfl
  let P : NamePath × Option Elem → Bool := fun x => match x.2 with
    | some y => y.flattenable
    | none => false
  let H : NamePath × Option Elem → PStr × PStr := fun x => (flatName sep x.1, match x.2 with
    | some (.scalar _ st) => st.u
    | _ => [])
  have hflat : ∀ q, P (namesAt e q, elemAt e q) = true ↔ ∃ n st, elemAt e q = some (.scalar n st) := by
    intro q
    simp only [P]
    cases hq : elemAt e q with
    | none => simp
    | some y => cases y <;> simp [Elem.flattenable]
  have hL : flatten sep e = ((((([e.name], e) :: allChildren [e.name] e).map fun x => (x.1, some x.2)).filter P).map H) := by
    rw [List.filter_map, List.map_map]
    unfold flatten flattenAt
    have hp : (P ∘ fun x : NamePath × Elem => (x.1, some x.2)) = fun x => x.2.flattenable := rfl
    rw [hp]
    have hh : ∀ x ∈ (([e.name], e) :: allChildren [e.name] e).filter (fun x => x.2.flattenable),
        (H ∘ fun x : NamePath × Elem => (x.1, some x.2)) x = (flatName sep x.1, x.2.state.u) := by
      intro x hx
      have := (List.mem_filter.1 hx).2
      obtain ⟨nm, y⟩ := x
      cases y <;> simp [Elem.flattenable] at this ⊢
      simp [H, Elem.state]
    rw [List.map_congr_left hh, List.filter_cons]
    cases e.flattenable <;> simp
  refine ⟨([] :: ps).filter (fun q => P (namesAt e q, elemAt e q)), ?_, ?_, ?_, ?_⟩
  · refine (List.nodup_cons.2 ⟨fun hm => ((h2 []).1 hm).1 rfl, h1⟩).filter _
  · intro q
    rw [List.mem_filter, hflat, List.mem_cons]
    refine ⟨fun h => h.2, fun h => ⟨?_, h⟩⟩
    by_cases hq : q = []
    · exact .inl hq
    · obtain ⟨n, st, he⟩ := h
      exact .inr ((h2 q).2 ⟨hq, by rw [he]; rfl⟩)
  · refine List.Pairwise.filter _ (List.pairwise_cons.2 ⟨fun q hq => .inl ?_, h3⟩)
    have := ((h2 q).1 hq).1
    cases q with
    | nil => exact absurd rfl this
    | cons => simp
  · rw [hL, List.map_cons, h4]
    have e0 : (([e.name], some e) : NamePath × Option Elem) = (namesAt e [], elemAt e []) := by
      rw [h0]
      cases e <;> rfl
    simp only []
    rw [e0, ← List.map_cons (f := fun q => (namesAt e q, elemAt e q)), List.filter_map, List.map_map]
    exact List.map_congr_left fun q _ => rfl

end

/-! ### the hypotheses can be met -/

section
open TreeExample
attribute [local instance] Runtime.ascii

theorem ex_sep : GoodSep TreeExample.sep := ⟨'_', [], rfl, by decide⟩
theorem ex_wellNamed : WellNamed TreeExample.sep TreeExample.schema := by
  simp [WellNamed, WellNamedAll, TreeExample.schema, TreeExample.sep, GoodName, isContainer, Compatible, Schema.name, Schema.hdr]
theorem ex_conforms : Conforms TreeExample.schema TreeExample.elem := by
  simp [Conforms, ConformsAll, TreeExample.schema, TreeExample.elem, autoField]
theorem ex_carried : Carried false TreeExample.schema TreeExample.elem := by
  simp [Carried, CarriedAll, TreeExample.schema, TreeExample.elem, autoField, leaves, leavesKids, leavesSlots, dropped,
    Elem.state, Elem.present, TreeExample.str, TreeExample.int]
  decide

example : fromFlat sep schema (flatten sep elem) = .ok (restored false schema elem) :=
  C09_roundtrip ex_sep _ _ trivial ex_wellNamed ex_conforms ex_carried
theorem ex_readsBack : EachScalar (ReadsBack SameData) false schema elem := by
  have h7 : scalarSet (integerType true 0) .fresh (.str "7".toList) = (⟨.int 7, "7".toList, some (.str "7".toList)⟩, .ok true) :=
    scalarSet_ok (by decide) (by decide) (by show Except.ok (padNat 0 7) = _; unfold padNat; rw [decimal]; rfl)
  have h8 : scalarSet (integerType true 0) .fresh (.str "8".toList) = (⟨.int 8, "8".toList, some (.str "8".toList)⟩, .ok true) :=
    scalarSet_ok (by decide) (by decide) (by show Except.ok (padNat 0 8) = _; unfold padNat; rw [decimal]; rfl)
  simp [EachScalar, EachScalarAll, schema, elem, ReadsBack, SameData]
  rw [show (int 7 "7").u = "7".toList from rfl, show (int 8 "8").u = "8".toList from rfl, h7, h8]
  decide
example : elemAt elem [1, 0, 0] = some (.scalar (some "n".toList) (int 7 "7")) := rfl

end

end Flatland
