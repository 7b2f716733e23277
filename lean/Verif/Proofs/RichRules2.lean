import Verif.Proofs.RichRules
import Verif.Proofs.TreeRules2
import Verif.Proofs.Records
import Verif.Props.RichNodes
import Verif.Model.RichNodesOf
/-! More lemmas for C99. -/
namespace Flatland
open Flatland.Spec

mutual
theorem sameRich_plain : ∀ (e e' : Elem), SameContent e e' → SameRich (plainNodes e) (plainNodes e')
  | .absent, e', h => by cases e' <;> simp_all [SameBy, plainNodes, SameRich]
  | .scalar .., e', h => by cases e' <;> simp_all [SameBy, plainNodes, SameRich]
  | .dict _ ks, e', h => by
    cases e' <;> simp only [SameBy] at h
    exact ⟨h.1, sameRich_plainAll ks _ h.2⟩
  | .list _ ks, e', h => by
    cases e' <;> simp only [SameBy] at h
    exact ⟨h.1, sameRich_plainAll ks _ h.2⟩
  | .array _ ks, e', h => by
    cases e' <;> simp only [SameBy] at h
    exact ⟨h.1, sameRich_plainAll ks _ h.2⟩
theorem sameRich_plainAll : ∀ (ks ks' : List Elem), SameByAll SameData ks ks' → SameRichAll (plainNodesAll ks) (plainNodesAll ks')
  | [], ks', h => by cases ks' <;> simp_all [SameByAll, plainNodesAll, SameRichAll]
  | k :: ks, ks', h => by
    cases ks' with
    | nil => simp [SameByAll] at h
    | cons k' ks' =>
      rw [SameByAll] at h
      exact ⟨sameRich_plain k k' h.1, sameRich_plainAll ks ks' h.2⟩
end

theorem sameRich_members (m : Option PStr) : ∀ (ms ms' : List ScalarState), dataOf ms = dataOf ms' →
    SameRichAll (ms.map (NElem.scalar m)) (ms'.map (NElem.scalar m))
  | [], ms', h => by cases ms' <;> simp_all [dataOf, SameRichAll]
  | a :: ms, ms', h => by
    cases ms' with
    | nil => simp [dataOf] at h
    | cons b ms' =>
      simp only [dataOf, List.map_cons, List.cons.injEq, Prod.mk.injEq] at h
      exact ⟨⟨rfl, h.1.1, h.1.2⟩, sameRich_members m ms ms' h.2⟩

theorem same_parts : ∀ (fs : List (Hdr × ScalarType)) (ms ms' : List ScalarState), dataOf ms = dataOf ms' →
    SameByAll SameData (List.zipWith (fun f s => .scalar f.1.name s) fs ms) (List.zipWith (fun f s => .scalar f.1.name s) fs ms')
  | [], ms, ms', _ => by simp [SameByAll]
  | f :: fs, [], ms', h => by cases ms' <;> simp_all [dataOf, SameByAll]
  | f :: fs, a :: ms, ms', h => by
    cases ms' with
    | nil => simp [dataOf] at h
    | cons b ms' =>
      simp only [dataOf, List.map_cons, List.cons.injEq, Prod.mk.injEq] at h
      exact ⟨⟨rfl, h.1.1, h.1.2⟩, same_parts fs ms ms' h.2⟩

theorem sameAll_values : ∀ (ks ks' : List Elem), SameByAll SameData ks ks' →
    (ks.map Elem.state).map ScalarState.value = (ks'.map Elem.state).map ScalarState.value
  | [], ks', h => by cases ks' <;> simp_all [SameByAll]
  | k :: ks, ks', h => by
    cases ks' with
    | nil => simp [SameByAll] at h
    | cons k' ks' =>
      rw [SameByAll] at h
      have h2 := sameAll_values ks ks' h.2
      simp only [List.map_map] at h2
      have h1 : k.state.value = k'.state.value := by
        have := h.1
        cases k <;> cases k' <;> simp only [SameBy] at this <;> simp_all [Elem.state, SameData]
      simp [h1, h2]

variable [Runtime]

theorem sameAll_dateView (doStrip : Bool) (ks ks' : List Elem) (h : SameByAll SameData ks ks') :
    dateView doStrip (ks.map Elem.state) = dateView doStrip (ks'.map Elem.state) := by
  simp only [dateView, sameAll_values ks ks' h]

mutual
/-- records with the same content make pages with the same content -/
theorem sameRich_page (mn : Option PStr) : ∀ (s : VSchema) (e e' : VElem), VSame e e' →
    SameRich (nodesOf (pageForm mn s e)) (nodesOf (pageForm mn s e'))
  | .plain _, e, e', h => by
    cases e <;> cases e' <;> simp only [VSame] at h <;> simp only [pageForm, nodesOf, plainNodes, SameRich]
    exact sameRich_plain _ _ h
  | .joined .., e, e', h => by
    cases e <;> cases e' <;> simp only [VSame] at h <;> simp only [pageForm, nodesOf, plainNodes, SameRich]
    obtain ⟨rfl, rfl, h3⟩ := h
    refine ⟨rfl, ?_, sameRich_members mn _ _ h3⟩
    have := congrArg (List.map Prod.fst) h3
    simp only [dataOf, List.map_map, Function.comp_def] at this
    simp only [joinedText, this]
  | .date _ st fs, e, e', h => by
    cases e <;> cases e' <;> simp only [VSame] at h <;> simp only [pageForm, nodesOf, plainNodes, SameRich]
    obtain ⟨rfl, rfl, h3⟩ := h
    have hp := same_parts fs _ _ h3
    refine ⟨rfl, ?_, ?_, sameRich_plainAll _ _ hp⟩
    · simp only [dateShown, sameAll_dateView st _ _ hp]
    · simp only [dateValueOf, sameAll_dateView true _ _ hp]
  | .dict _ _ _ fs, e, e', h => by
    cases e <;> cases e' <;> simp only [VSame] at h <;> simp only [pageForm, nodesOf, plainNodes, SameRich]
    exact ⟨h.1, sameRich_pages mn fs _ _ h.2⟩
  | .list _ _ _ m, e, e', h => by
    cases e <;> cases e' <;> simp only [VSame] at h <;> simp only [pageForm, nodesOf, plainNodes, SameRich]
    exact ⟨h.1, sameRich_rows mn m _ _ h.2⟩
  | .array .., e, e', h => by
    cases e <;> cases e' <;> simp only [VSame] at h <;> simp only [pageForm, nodesOf, plainNodes, SameRich]
theorem sameRich_pages (mn : Option PStr) : ∀ (fs : List VSchema) (ks ks' : List VElem), VSameAll ks ks' →
    SameRichAll (nodesOfAll (pageForms mn fs ks)) (nodesOfAll (pageForms mn fs ks'))
  | [], ks, ks', _ => by simp [pageForms, nodesOfAll, SameRichAll]
  | f :: fs, ks, ks', h => by
    cases ks <;> cases ks' <;> simp only [VSameAll] at h
    · simp [pageForms, nodesOfAll, SameRichAll]
    · exact ⟨sameRich_page mn f _ _ h.1, sameRich_pages mn fs _ _ h.2⟩
theorem sameRich_rows (mn : Option PStr) (m : VSchema) : ∀ (ks ks' : List VElem), VSameAll ks ks' →
    SameRichAll (nodesOfAll (ks.map (pageForm mn m))) (nodesOfAll (ks'.map (pageForm mn m)))
  | [], ks', h => by cases ks' <;> simp only [VSameAll] at h; simp [nodesOfAll, SameRichAll]
  | k :: ks, ks', h => by
    cases ks' <;> simp only [VSameAll] at h
    exact ⟨sameRich_page mn m _ _ h.1, sameRich_rows mn m ks _ h.2⟩
end

theorem richFieldsEqual_found {V : Type} (attr : NElem → V) (eq : V → V → Bool) (paths : List PStr) (hne : paths ≠ []) (label : NElem → Node → Option PStr)
    (e : NElem) (p : Pos) (at' : PStr → Node) (hfind : ∀ q ∈ paths, richFindOne e ⟨p, false⟩ q = .ok (some (at' q)))
    (hl : ∀ q ∈ paths, label e (at' q) ≠ .none) :
    richFieldsEqual attr eq paths label e p =
      mapEqual (richFindOne e ⟨p, false⟩) (fun o => .ok (attr ((nElemAt e (o.getD ⟨[], false⟩).pos).getD .absent))) eq paths := by
  have hmap : mapEqual (richFindOne e ⟨p, false⟩) (richAttrOfFound e attr) eq paths =
      mapEqual (richFindOne e ⟨p, false⟩) (fun o => .ok (attr ((nElemAt e (o.getD ⟨[], false⟩).pos).getD .absent))) eq paths := by
    refine mapEqual_congr _ _ _ _ (fun q => some (at' q)) hfind fun q hq => ?_
    simp [richAttrOfFound]
  have hlabels : ∃ r, equalLabels (paths.map fun q => richLabelOfFound label e (some (at' q))) = .ok r := by
    refine equalLabels_ok _ (by simpa using hne) ?_
    intro x hx
    obtain ⟨q, hq, rfl⟩ := List.mem_map.1 hx
    exact hl q hq
  obtain ⟨r, hr⟩ := hlabels
  have hd : ((paths.map fun q => some (at' q)).dropLast.contains .none) = false := by
    rw [Bool.eq_false_iff]
    intro hc
    have := List.dropLast_subset _ (List.contains_iff_mem.1 hc)
    simp at this
  have hg : ¬ (paths.map fun q => some (at' q)).getLast? = some .none := by
    intro hc
    have := List.mem_of_getLast? hc
    simp at this
  simp only [richFieldsEqual, mapExcept_ok _ _ _ hfind, hmap, List.map_map, Function.comp_def, hr, hd, if_neg hg, Bool.false_eq_true, if_false]
  cases mapEqual (richFindOne e ⟨p, false⟩) (fun o => .ok (attr ((nElemAt e (o.getD ⟨[], false⟩).pos).getD .absent))) eq paths with
  | error er => rfl
  | ok o => cases o <;> rfl

omit [Runtime] in
theorem at_shape {e : NElem} {p : Pos} {k : NElem} (h : At e p k) : elemAt (shape e) p = some (shape k) := (at_iff e p _).2 ⟨k, h, rfl⟩

omit [Runtime] in
theorem at_child {e k c : NElem} {p : Pos} {i : Nat} (hk : At e p k) (hi : k.kids[i]? = some c) (hc : c ≠ .absent) : At e (p ++ [i]) c := by
  refine ⟨?_, hc⟩
  have : ∀ (p : Pos) (e : NElem), nElemAt e p = some k → nElemAt e (p ++ [i]) = some c := by
    intro p
    induction p with
    | nil =>
      intro e h
      simp only [nElemAt, Option.some.injEq] at h
      subst h
      simp [nElemAt, hi]
    | cons j p ih =>
      intro e h
      simp only [nElemAt] at h
      simp only [List.cons_append, nElemAt]
      cases hj : e.kids[j]? with
      | none => rw [hj] at h; cases h
      | some x => rw [hj] at h; exact ih x h
  exact this p e hk.1

end Flatland
