import Verif.Proofs.RichRules2
import Verif.Proofs.Compounds
import Verif.Spec.RichValues
/-! Lemmas for C99: what validators read is the value and text of the form. -/
namespace Flatland
open Flatland.Spec

section
variable [Runtime]

theorem composeDate_strip (a b : Bool) (vals : List PyVal) : composeDate a vals = composeDate b vals := by
  match hf : formatYMD vals with
  | .error er => simp only [composeDate, hf]
  | .ok s =>
    match vals, hf with
    | [x, y, z], hf =>
      simp only [formatYMD] at hf
      split at hf
      · cases hf
      · rename_i i hi
        split at hf
        · cases hf
        · rename_i j hj
          split at hf
          · cases hf
          · rename_i k hk
            rw [composeDate_counts a hi hj hk, composeDate_counts b hi hj hk]
            by_cases h : ∃ Y M D, DateNumbers i j k Y M D
            · obtain ⟨Y, M, D, h⟩ := h
              rw [composeDate_ok a h, composeDate_ok b h]
            · rw [composeDate_bad a h, composeDate_bad b h]

omit [Runtime] in
mutual
theorem plainNodes_reads (repr : PStr → PStr) : ∀ e : Elem, nValue (plainNodes e) = elemValue e ∧ nText repr (plainNodes e) = elemU repr e
  | .absent => ⟨rfl, rfl⟩
  | .scalar .. => ⟨rfl, rfl⟩
  | .dict _ ks => by
    obtain ⟨h1, _, h3, _⟩ := plainNodesAll_reads repr ks
    simp only [plainNodes, nValue, nText, elemValue, elemU, h1, h3, and_self]
  | .list _ ks => by
    obtain ⟨_, h2, _, h4⟩ := plainNodesAll_reads repr ks
    simp only [plainNodes, nValue, nText, elemValue, elemU, h2, h4, and_self]
  | .array _ ks => by
    obtain ⟨_, h2, _, h4⟩ := plainNodesAll_reads repr ks
    simp only [plainNodes, nValue, nText, elemValue, elemU, h2, h4, and_self]
theorem plainNodesAll_reads (repr : PStr → PStr) : ∀ ks : List Elem, nItems (plainNodesAll ks) = kidItems ks ∧ nValues (plainNodesAll ks) = kidValues ks ∧
    nPairTexts repr (plainNodesAll ks) = kidPairTexts repr ks ∧ nTexts repr (plainNodesAll ks) = kidTexts repr ks
  | [] => ⟨rfl, rfl, rfl, rfl⟩
  | k :: ks => by
    obtain ⟨h1, h2, h3, h4⟩ := plainNodesAll_reads repr ks
    obtain ⟨hv, ht⟩ := plainNodes_reads repr k
    have hp : (plainNodes k).present = k.present := by cases k <;> rfl
    have hn : nName (plainNodes k) = k.name := by cases k <;> rfl
    simp only [plainNodesAll, nItems, nValues, nPairTexts, nTexts, kidItems, kidValues, kidPairTexts, kidTexts, h1, h2, h3, h4, hv, ht, hp, hn, nQuoted]
    have hc : ∀ u : PStr, (if isContainerN (plainNodes k) = true then u else repr u) = if k.flattenable = true then repr u else u := by
      intro u; cases k <;> simp [plainNodes, isContainerN, Elem.flattenable]
    simp only [hc, and_self]
end

omit [Runtime] in
theorem parts_states (fs : List (Hdr × ScalarType)) (sts : List ScalarState) (h : sts.length = fs.length) :
    (List.zipWith (fun (f : Hdr × ScalarType) s => Elem.scalar f.1.name s) fs sts).map Elem.state = sts := by
  induction fs generalizing sts with
  | nil => cases sts <;> simp_all
  | cons f fs ih => cases sts with
    | nil => simp at h
    | cons s sts => simp only [List.zipWith_cons_cons, List.map_cons, Elem.state, ih sts (by simpa using h)]

theorem absent_reads (repr : PStr → PStr) (mn : Option PStr) (s : VSchema) :
    (∀ v, vValue (.plain .absent) = .ok v → nValue (nodesOf (pageForm mn s (.plain .absent))) = v) ∧
    (∀ t, vText repr (.plain .absent) = .ok t → nText repr (nodesOf (pageForm mn s (.plain .absent))) = t) ∧
    (nodesOf (pageForm mn s (.plain .absent))).present = (VElem.plain .absent).present ∧
    nName (nodesOf (pageForm mn s (.plain .absent))) = (VElem.plain .absent).name ∧
    ∀ u, nQuoted repr (nodesOf (pageForm mn s (.plain .absent))) u = vQuoted repr (.plain .absent) u := by
  have : pageForm mn s (.plain .absent) = .plain .absent := by cases s <;> rfl
  rw [this]
  refine ⟨fun v h => ?_, fun t h => ?_, rfl, rfl, fun u => rfl⟩
  · cases h; rfl
  · cases h; rfl

mutual
theorem page_reads (repr : PStr → PStr) (mn : Option PStr) : ∀ (s : VSchema) (e : VElem), NoRichArrays s → (VConforms s e ∨ e = .plain .absent) →
    (∀ v, vValue e = .ok v → nValue (nodesOf (pageForm mn s e)) = v) ∧ (∀ t, vText repr e = .ok t → nText repr (nodesOf (pageForm mn s e)) = t) ∧
    (nodesOf (pageForm mn s e)).present = e.present ∧ nName (nodesOf (pageForm mn s e)) = e.name ∧
    ∀ u, nQuoted repr (nodesOf (pageForm mn s e)) u = vQuoted repr e u
  | .plain _, e, _, hc => by
    cases e with
    | plain e =>
      obtain ⟨hv, ht⟩ := plainNodes_reads repr e
      simp only [pageForm, nodesOf]
      refine ⟨fun v h => ?_, fun t h => ?_, ?_, ?_, ?_⟩
      · cases h; exact hv
      · cases h; exact ht
      · cases e <;> rfl
      · cases e <;> rfl
      · cases e <;> intro u <;> rfl
    | _ => simp [VConforms] at hc
  | .joined .., e, _, hc => by
    cases e with
    | joined n c ms =>
      refine ⟨fun v h => ?_, fun t h => ?_, rfl, rfl, fun u => rfl⟩
      · cases h; rfl
      · cases h; rfl
    | plain e =>
      rcases hc with hc | hc
      · simp [VConforms] at hc
      · rw [hc]; exact absent_reads repr mn _
    | _ => simp [VConforms] at hc
  | .date _ st fs, e, _, hc => by
    cases e with
    | date n st' sts =>
      rcases hc with ⟨h1, rfl, h3⟩ | hc
      · have hst := parts_states fs sts h3
        refine ⟨fun v h => ?_, fun t h => ?_, rfl, rfl, fun u => rfl⟩
        · simp only [vValue] at h
          simp only [pageForm, nodesOf, nValue, dateValueOf, hst, dateView]
          simp only [dateView] at h
          rw [composeDate_strip true st']
          cases hd : composeDate st' (sts.map ScalarState.value) <;> simp_all [Except.map]
        · simp only [vText] at h
          simp only [pageForm, nodesOf, nText, dateShown, hst]
          cases hd : dateView st' sts <;> simp_all [Except.map]
      · cases hc
    | plain e =>
      rcases hc with hc | hc
      · simp [VConforms] at hc
      · rw [hc]; exact absent_reads repr mn _
    | _ => simp [VConforms] at hc
  | .dict _ mode _ fs, e, ha, hc => by
    cases e with
    | dict n ks =>
      rcases hc with ⟨_, hc⟩ | hc
      · obtain ⟨h1, h2⟩ := pages_read repr mn mode fs ks ha hc
        refine ⟨fun v h => ?_, fun t h => ?_, rfl, rfl, fun u => rfl⟩
        · simp only [vValue] at h
          cases hi : vItems ks with
          | error er => simp [hi, Except.map] at h
          | ok l => simp only [hi, Except.map, Except.ok.injEq] at h; subst h; simp only [pageForm, nodesOf, nValue, h1 l hi]
        · simp only [vText] at h
          cases hi : vPairTexts repr ks with
          | error er => simp [hi, Except.map] at h
          | ok l => simp only [hi, Except.map, Except.ok.injEq] at h; subst h; simp only [pageForm, nodesOf, nText, h2 l hi]
      · cases hc
    | plain e =>
      rcases hc with hc | hc
      · simp [VConforms] at hc
      · rw [hc]; exact absent_reads repr mn _
    | _ => simp [VConforms] at hc
  | .list _ _ _ m, e, ha, hc => by
    cases e with
    | list n ks =>
      rcases hc with ⟨_, hc⟩ | hc
      · obtain ⟨h1, h2⟩ := rows_read repr mn m ks ha hc
        refine ⟨fun v h => ?_, fun t h => ?_, rfl, rfl, fun u => rfl⟩
        · simp only [vValue] at h
          cases hi : vValues ks with
          | error er => simp [hi, Except.map] at h
          | ok l => simp only [hi, Except.map, Except.ok.injEq] at h; subst h; simp only [pageForm, nodesOf, nValue, h1 l hi]
        · simp only [vText] at h
          cases hi : vTexts repr ks with
          | error er => simp [hi, Except.map] at h
          | ok l => simp only [hi, Except.map, Except.ok.injEq] at h; subst h; simp only [pageForm, nodesOf, nText, h2 l hi]
      · cases hc
    | plain e =>
      rcases hc with hc | hc
      · simp [VConforms] at hc
      · rw [hc]; exact absent_reads repr mn _
    | _ => simp [VConforms] at hc
  | .array .., _, ha, _ => by simp [NoRichArrays] at ha
theorem pages_read (repr : PStr → PStr) (mn : Option PStr) (mode : DictMode) : ∀ (fs : List VSchema) (ks : List VElem), NoRichArraysAll fs → VConformsAll mode fs ks →
    (∀ l, vItems ks = .ok l → nItems (nodesOfAll (pageForms mn fs ks)) = l) ∧
    (∀ l, vPairTexts repr ks = .ok l → nPairTexts repr (nodesOfAll (pageForms mn fs ks)) = l)
  | [], [], _, _ => ⟨fun l h => by cases h; rfl, fun l h => by cases h; rfl⟩
  | [], _ :: _, _, h => by simp [VConformsAll] at h
  | _ :: _, [], _, h => by simp [VConformsAll] at h
  | f :: fs, k :: ks, ha, hc => by
    obtain ⟨h1, h2⟩ := pages_read repr mn mode fs ks ha.2 hc.2
    obtain ⟨hv, ht, hp, hn, hq⟩ := page_reads repr mn f k ha.1 (hc.1.elim (fun h => .inr h.1) .inl)
    refine ⟨fun l h => ?_, fun l h => ?_⟩
    · simp only [vItems] at h
      simp only [pageForms, nodesOfAll, nItems, hp, hn]
      split at h
      · rename_i hk
        rw [if_pos hk]
        cases hx : vValue k with
        | error er => simp [hx] at h
        | ok v =>
          cases hy : vItems ks with
          | error er => simp [hx, hy, Except.map] at h
          | ok l' => simp only [hx, hy, Except.map, Except.ok.injEq] at h; rw [hv v hx, h1 l' hy, h]
      · rename_i hk
        rw [if_neg hk]; exact h1 l h
    · simp only [vPairTexts] at h
      simp only [pageForms, nodesOfAll, nPairTexts, hp, hn, hq]
      split at h
      · rename_i hk
        rw [if_pos hk]
        cases hx : vText repr k with
        | error er => simp [hx] at h
        | ok v =>
          cases hy : vPairTexts repr ks with
          | error er => simp [hx, hy, Except.map] at h
          | ok l' => simp only [hx, hy, Except.map, Except.ok.injEq] at h; rw [ht v hx, h2 l' hy, h]
      · rename_i hk
        rw [if_neg hk]; exact h2 l h
theorem rows_read (repr : PStr → PStr) (mn : Option PStr) (m : VSchema) : ∀ (ks : List VElem), NoRichArrays m → (∀ k ∈ ks, VConforms m k) →
    (∀ l, vValues ks = .ok l → nValues (nodesOfAll (ks.map (pageForm mn m))) = l) ∧
    (∀ l, vTexts repr ks = .ok l → nTexts repr (nodesOfAll (ks.map (pageForm mn m))) = l)
  | [], _, _ => ⟨fun l h => by cases h; rfl, fun l h => by cases h; rfl⟩
  | k :: ks, ha, hc => by
    obtain ⟨h1, h2⟩ := rows_read repr mn m ks ha fun x hx => hc x (List.mem_cons_of_mem _ hx)
    obtain ⟨hv, ht, hp, hn, hq⟩ := page_reads repr mn m k ha (.inl (hc k List.mem_cons_self))
    refine ⟨fun l h => ?_, fun l h => ?_⟩
    · simp only [vValues] at h
      simp only [List.map_cons, nodesOfAll, nValues]
      cases hx : vValue k with
      | error er => simp [hx] at h
      | ok v =>
        cases hy : vValues ks with
        | error er => simp [hx, hy, Except.map] at h
        | ok l' => simp only [hx, hy, Except.map, Except.ok.injEq] at h; rw [hv v hx, h1 l' hy, h]
    · simp only [vTexts] at h
      simp only [List.map_cons, nodesOfAll, nTexts, hq]
      cases hx : vText repr k with
      | error er => simp [hx] at h
      | ok v =>
        cases hy : vTexts repr ks with
        | error er => simp [hx, hy, Except.map] at h
        | ok l' => simp only [hx, hy, Except.map, Except.ok.injEq] at h; rw [ht v hx, h2 l' hy, h]
end


omit [Runtime] in
theorem richAllEqual_none {V : Type} (e : NElem) (attr : NElem → V) (eq : V → V → Bool) (s : V) : ∀ (os : List (Option Node)), .none ∈ os →
    allEqual (richAttrOfFound e attr) eq s os = .error .attribute ∨ allEqual (richAttrOfFound e attr) eq s os = .ok false
  | [], h => by simp at h
  | .none :: os, _ => by simp [allEqual, richAttrOfFound]
  | some n :: os, h => by
    simp only [allEqual, richAttrOfFound]
    split
    · exact richAllEqual_none e attr eq s os (by simpa using h)
    · exact .inr rfl

/-- an element that is not found, among others that are -/
theorem richFieldsEqual_none {V : Type} (attr : NElem → V) (eq : V → V → Bool) (paths : List PStr) (label : NElem → Node → Option PStr)
    (e : NElem) (p : Pos) (at' : PStr → Option Node) (hfind : ∀ q ∈ paths, richFindOne e ⟨p, false⟩ q = .ok (at' q))
    (hl : ∀ q ∈ paths, ∀ n, at' q = some n → label e n ≠ .none) (hnone : ∃ q ∈ paths, at' q = .none) :
    richFieldsEqual attr eq paths label e p = .error .attribute := by
  obtain ⟨q, hq, hqn⟩ := hnone
  have hmem : .none ∈ paths.map at' := List.mem_map.2 ⟨q, hq, hqn⟩
  have hm : mapEqual (richFindOne e ⟨p, false⟩) (richAttrOfFound e attr) eq paths = .error .attribute ∨
      mapEqual (richFindOne e ⟨p, false⟩) (richAttrOfFound e attr) eq paths = .ok (some "unequal".toList) := by
    simp only [mapEqual, mapExcept_ok _ _ _ hfind]
    cases hx : paths.map at' with
    | nil => rw [hx] at hmem; simp at hmem
    | cons o os =>
      rw [hx] at hmem
      cases o with
      | none => simp [richAttrOfFound]
      | some n =>
        simp only [richAttrOfFound]
        rcases richAllEqual_none e attr eq (attr ((nElemAt e n.pos).getD .absent)) os (by simpa using hmem) with h | h <;> rw [h] <;> simp [failUnless]
  simp only [richFieldsEqual, mapExcept_ok _ _ _ hfind]
  rcases hm with hm | hm <;> rw [hm]
  simp only
  by_cases hd : (paths.map at').dropLast.contains .none = true
  · rw [if_pos hd]
  · rw [if_neg hd]
    have hne : paths.map at' ≠ [] := by intro hh; rw [hh] at hmem; simp at hmem
    have hlast : (paths.map at').getLast? = some .none := by
      rw [List.getLast?_eq_some_getLast hne]
      rw [← List.dropLast_concat_getLast hne, List.mem_append] at hmem
      rcases hmem with hmem | hmem
      · exact absurd (List.contains_iff_mem.2 hmem) hd
      · simp only [List.mem_singleton] at hmem
        rw [← hmem]
    rw [if_pos hlast]
    have hlab : ∃ r, equalLabels ((paths.map at').map (richLabelOfFound label e)) = .ok r := by
      cases hx : paths.map at' with
      | nil => exact absurd hx hne
      | cons o os =>
        simp only [List.map_cons, equalLabels]
        rw [if_neg]
        · exact ⟨_, rfl⟩
        · rw [List.contains_iff_mem, ← List.map_cons, ← List.map_dropLast, List.mem_map]
          rintro ⟨o', ho', hlo⟩
          cases o' with
          | none => rw [hx] at hd; exact hd (List.contains_iff_mem.2 ho')
          | some n =>
            have : some n ∈ paths.map at' := by rw [hx]; exact List.dropLast_subset _ ho'
            obtain ⟨q', hq', hqn'⟩ := List.mem_map.1 this
            exact hl q' hq' n hqn' hlo
    obtain ⟨r, hr⟩ := hlab
    rw [hr]

end
end Flatland
