import Verif.Proofs.RichFlat
import Verif.Props.Tree
/-! Helper lemmas for C78: what `flatten` lists, and that `set_flat` of the flattened data is `set_flat` of the scalars' and JoinedStrings' pairs. -/
namespace Flatland
open Spec

/-- an element met by `all_children`; for a member of a JoinedString with the path and text of the latter -/
structure FNode where
  path : NamePath
  elem : RElem
  owner : Option (NamePath × PStr)

/-- the children, with owners -/
def fChildren (x : FNode) : List FNode :=
  match x.elem with
  | .joined _ c m ms => ms.map fun st => ⟨x.path ++ [m], .plain (.scalar m st), some (x.path, joinedText c ms)⟩
  | e => (rChildrenOf (x.path, e)).map fun y => ⟨y.1, y.2, none⟩

/-- without the owners -/
def FNode.erase (x : FNode) : NamePath × RElem := (x.path, x.elem)

theorem fChildren_erase (x : FNode) : (fChildren x).map FNode.erase = rChildrenOf x.erase := by
  obtain ⟨p, e, o⟩ := x
  cases e <;> simp [fChildren, FNode.erase, rChildrenOf, Function.comp_def]

/-- `all_children` with owners -/
def fBfs : List FNode → List FNode
  | [] => []
  | x :: q => x :: fBfs (q ++ fChildren x)
termination_by q => rQueueSize (q.map FNode.erase)
decreasing_by
  rw [List.map_append, fChildren_erase, rQueueSize_append]
  have := rQueueSize_children x.erase
  simp only [rQueueSize, List.map_cons, List.sum_cons] at *
  omega

theorem fBfs_erase (q : List FNode) : (fBfs q).map FNode.erase = rBfs (q.map FNode.erase) := by
  induction q using fBfs.induct with
  | case1 => simp [fBfs, rBfs]
  | case2 x q ih => rw [fBfs, List.map_cons, ih, List.map_cons, rBfs, List.map_append, fChildren_erase]

theorem fBfs_inv {P : FNode → Prop} (hP : ∀ x, P x → ∀ y ∈ fChildren x, P y) (q : List FNode) : (∀ x ∈ q, P x) → ∀ x ∈ fBfs q, P x := by
  induction q using fBfs.induct with
  | case1 => intro _ x hx; simp [fBfs] at hx
  | case2 x q ih =>
    intro h y hy
    rw [fBfs] at hy
    rcases List.mem_cons.1 hy with rfl | hy
    · exact h _ (by simp)
    · refine ih ?_ y hy
      intro z hz
      rcases List.mem_append.1 hz with hz | hz
      · exact h z (by simp [hz])
      · exact hP x (h x (by simp)) z hz

/-- the owner is in the list -/
def ownerIn (l : List FNode) (x : FNode) : Prop := ∀ o, x.owner = some o → ∃ y ∈ l, y.path = o.1 ∧ y.elem.text = o.2 ∧ y.elem.flattenable = true

theorem ownerIn_mono {l l' : List FNode} (h : ∀ x ∈ l, x ∈ l') {x : FNode} (hx : ownerIn l x) : ownerIn l' x := by
  intro o ho
  obtain ⟨y, hy, hh⟩ := hx o ho
  exact ⟨y, h y hy, hh⟩

theorem fBfs_owner (q : List FNode) : ∀ (done : List FNode), (∀ x ∈ q, ownerIn done x) → ∀ b x a, fBfs q = b ++ x :: a → ownerIn (done ++ b) x := by
  induction q using fBfs.induct with
  | case1 => intro done _ b x a h; simp [fBfs] at h
  | case2 y q ih =>
    intro done hd b x a h
    rw [fBfs] at h
    cases b with
    | nil =>
      simp only [List.nil_append, List.cons.injEq] at h
      rw [List.append_nil, ← h.1]
      exact hd y (by simp)
    | cons z b =>
      simp only [List.cons_append, List.cons.injEq] at h
      obtain ⟨rfl, h⟩ := h
      have := ih (done ++ [y]) ?_ b x a h
      · simpa using this
      · intro w hw
        rcases List.mem_append.1 hw with hw | hw
        · exact ownerIn_mono (fun v hv => List.mem_append_left _ hv) (hd w (by simp [hw]))
        · intro o ho
          obtain ⟨p, e, o'⟩ := y
          cases e with
          | joined n c m ms =>
            simp only [fChildren, List.mem_map] at hw
            obtain ⟨st, _, rfl⟩ := hw
            cases ho
            exact ⟨⟨p, .joined n c m ms, o'⟩, List.mem_append_right _ (by simp), rfl, rfl, rfl⟩
          | _ =>
            simp only [fChildren, List.mem_map] at hw
            obtain ⟨st, _, rfl⟩ := hw
            cases ho

/-- an element that is neither a Compound nor a member of a JoinedString -/
def FNode.real (x : FNode) : Bool := x.owner.isNone && (dropR x.elem).flattenable

/-- the plain element -/
def FNode.drop (x : FNode) : NamePath × Elem := (x.path, dropR x.elem)

theorem drop_slotKids (p : NamePath) (ks : List RElem) : ∀ i, (rSlotKids p i ks).map (fun y => (y.1, dropR y.2)) = slotKids p i (dropAll ks) := by
  induction ks with
  | nil => intro i; rfl
  | cons k ks ih => intro i; simp [rSlotKids, slotKids, dropAll, dropR_name, ih]

theorem drop_kids (p : NamePath) (ks : List RElem) : ((ks.filter RElem.present).map fun k => (p ++ [k.name], k)).map (fun y => (y.1, dropR y.2)) =
    ((dropAll ks).filter Elem.present).map fun k => (p ++ [k.name], k) := by
  induction ks with
  | nil => rfl
  | cons k ks ih =>
    simp only [dropAll, List.filter_cons, dropR_present]
    split
    · simp only [List.map_cons, ih, dropR_name]
    · exact ih

theorem fChildren_drop (x : FNode) : ((fChildren x).filter fun y => y.owner.isNone).map FNode.drop = childrenOf x.drop := by
  obtain ⟨p, e, o⟩ := x
  have hall : ∀ l : List (NamePath × RElem), ((l.map fun y => (⟨y.1, y.2, none⟩ : FNode)).filter fun y => y.owner.isNone) = l.map fun y => ⟨y.1, y.2, none⟩ := by
    intro l
    apply List.filter_eq_self.2
    intro a ha
    obtain ⟨b, _, rfl⟩ := List.mem_map.1 ha
    rfl
  cases e with
  | joined n c m ms => simp [fChildren, FNode.drop, dropR, childrenOf]
  | plain e => simp only [fChildren, hall]; simp [FNode.drop, dropR, rChildrenOf, Function.comp_def]
  | compound n co ks => simp only [fChildren, hall]; simp [FNode.drop, dropR, rChildrenOf, Function.comp_def]
  | dict n ks =>
    simp only [fChildren, hall]
    have := drop_kids p ks
    simp only [FNode.drop, dropR, rChildrenOf, List.map_map, Function.comp_def, childrenOf] at this ⊢
    exact this
  | list n ks =>
    simp only [fChildren, hall]
    have := drop_slotKids p ks 0
    simp only [FNode.drop, dropR, rChildrenOf, List.map_map, Function.comp_def, childrenOf] at this ⊢
    exact this

/-- members of JoinedStrings have no children -/
def leafOwned (x : FNode) : Prop := x.owner.isSome = true → fChildren x = []

theorem leafOwned_children (x : FNode) : ∀ y ∈ fChildren x, leafOwned y := by
  obtain ⟨p, e, o⟩ := x
  intro y hy
  cases e with
  | joined n c m ms =>
    simp only [fChildren, List.mem_map] at hy
    obtain ⟨st, _, rfl⟩ := hy
    intro _
    simp [fChildren, rChildrenOf, childrenOf]
  | _ =>
    simp only [fChildren, List.mem_map] at hy
    obtain ⟨st, _, rfl⟩ := hy
    intro h; simp at h

theorem fBfs_drop (q : List FNode) : (∀ x ∈ q, leafOwned x) →
    ((fBfs q).filter fun y => y.owner.isNone).map FNode.drop = bfs ((q.filter fun y => y.owner.isNone).map FNode.drop) := by
  induction q using fBfs.induct with
  | case1 => intro _; simp [fBfs, bfs]
  | case2 x q ih =>
    intro h
    have hq : ∀ y ∈ q ++ fChildren x, leafOwned y := by
      intro y hy
      rcases List.mem_append.1 hy with hy | hy
      · exact h y (by simp [hy])
      · exact leafOwned_children x y hy
    have ih := ih hq
    rw [fBfs, List.filter_cons, List.filter_cons]
    cases ho : x.owner with
    | none =>
      simp only [Option.isNone_none, if_true, List.map_cons]
      rw [ih, bfs, List.filter_append, List.map_append, fChildren_drop]
    | some o =>
      simp only [Option.isNone_some, Bool.false_eq_true, if_false]
      rw [ih, h x (by simp) (by simp [ho]), List.append_nil]

theorem real_text {e : RElem} (h : (dropR e).flattenable = true) : (dropR e).state.u = e.text ∧ e.flattenable = true := by
  cases e <;> simp_all [dropR, Elem.flattenable, RElem.text, RElem.flattenable, Elem.state]

/-- the pair of a node -/
def FNode.fpair (sep : PStr) (x : FNode) : FPair := (some (flatName sep x.path), x.elem.text)

/-- the pairs of `flatten` -/
def asPairs (l : List (PStr × PStr)) : List FPair := l.map fun p => (some p.1, p.2)

theorem flatten_nodes (sep : PStr) (e : RElem) (h : e.childrenFlattenable = true) :
    asPairs (rFlatten sep e) = ((fBfs [⟨[e.name], e, none⟩]).filter fun x => x.elem.flattenable).map (FNode.fpair sep) := by
  have h1 : ∀ l : List FNode, (l.filter fun x => x.elem.flattenable).map (FNode.fpair sep) =
      asPairs (((l.map FNode.erase).filter fun x => x.2.flattenable).map fun x => (flatName sep x.1, x.2.text)) := by
    intro l
    simp only [asPairs, List.filter_map, List.map_map]
    rfl
  rw [h1, fBfs_erase]
  congr 1
  simp only [List.map_cons, List.map_nil, FNode.erase, rFlatten, rFlattenAt, h, if_true]
  rw [rBfs, List.nil_append, List.filter_cons]
  cases e.flattenable <;> simp

theorem real_nodes (sep : PStr) (e : RElem) :
    asPairs (flatten sep (dropR e)) = (((fBfs [⟨[e.name], e, none⟩]).filter fun x => x.elem.flattenable).filter FNode.real).map (FNode.fpair sep) := by
  have hd := fBfs_drop [⟨[e.name], e, none⟩] (by intro x hx; simp only [List.mem_singleton] at hx; subst hx; intro h; simp at h)
  simp only [List.filter_cons, List.filter_nil, Option.isNone_none, if_true, List.map_cons, List.map_nil, FNode.drop] at hd
  have h2 : ∀ l : List FNode, ((l.filter fun x => x.elem.flattenable).filter FNode.real).map (FNode.fpair sep) =
      asPairs (((((l.filter fun y => y.owner.isNone).map FNode.drop).filter fun x => x.2.flattenable).map fun x => (flatName sep x.1, x.2.state.u))) := by
    intro l
    induction l with
    | nil => rfl
    | cons x l ih =>
      simp only [List.filter_cons]
      cases ho : x.owner with
      | some o =>
        simp only [Option.isNone_some, Bool.false_eq_true, if_false]
        split
        · rw [List.filter_cons, if_neg (by simp [FNode.real, ho])]; exact ih
        · exact ih
      | none =>
        simp only [Option.isNone_none, if_true, List.map_cons, List.filter_cons]
        cases hf : (dropR x.elem).flattenable with
        | false =>
          rw [if_neg (c := (x.drop.2.flattenable = true)) (by simp [FNode.drop, hf])]
          split
          · rw [List.filter_cons, if_neg (by simp [FNode.real, hf])]; exact ih
          · exact ih
        | true =>
          obtain ⟨ht, hr⟩ := real_text hf
          rw [if_pos (c := (x.drop.2.flattenable = true)) (by simp [FNode.drop, hf]), if_pos hr, List.filter_cons, if_pos (by simp [FNode.real, ho, hf])]
          simp only [List.map_cons, asPairs]
          congr 1
          simp [FNode.fpair, FNode.drop, ht]
  rw [h2, hd, ← dropR_name]
  congr 1
  unfold flatten
  rw [flattenAt_scalarNodes]
  simp [scalarNodes]

/-! ### where the extra pairs come from -/

theorem under_under (p q : NamePath) (x : Extra) : (x.under q).under p = x.under (p ++ q) := by
  simp only [Extra.under, List.append_assoc, Option.map_map]
  congr 1

/-- the extra pairs of the node are among the given ones -/
def Tracked (E : List Extra) (x : FNode) : Prop :=
  match x.owner with
  | some o => (⟨x.path, x.elem.text, some o⟩ : Extra) ∈ E ∧ ∃ m st, x.elem = .plain (.scalar m st)
  | none => ∃ pre, ((∃ e, x.elem = .plain e) ∨ x.path = pre ++ [x.elem.name]) ∧ ∀ y ∈ extras x.elem, y.under pre ∈ E

theorem mem_rSlotKids {p : NamePath} {ks : List RElem} {i0 : Nat} {y : NamePath × RElem} (h : y ∈ rSlotKids p i0 ks) :
    ∃ (j : Nat), ks[j]? = some y.2 ∧ y.1 = p ++ [some (decimal (i0 + j)), y.2.name] := by
  induction ks generalizing i0 with
  | nil => simp [rSlotKids] at h
  | cons k ks ih =>
    simp only [rSlotKids, List.mem_cons] at h
    rcases h with rfl | h
    · exact ⟨0, rfl, rfl⟩
    · obtain ⟨j, h1, h2⟩ := ih h
      exact ⟨j + 1, by simpa using h1, by rw [h2, Nat.add_assoc, Nat.add_comm 1 j]⟩

theorem tracked_children (E : List Extra) (x : FNode) (h : Tracked E x) : ∀ y ∈ fChildren x, Tracked E y := by
  obtain ⟨p, e, o⟩ := x
  intro y hy
  cases o with
  | some o =>
    obtain ⟨_, m, st, he⟩ := h
    simp only at he
    subst he
    simp [fChildren, rChildrenOf, childrenOf] at hy
  | none =>
    obtain ⟨pre, hp, hx⟩ := h
    simp only at hp hx
    cases e with
    | plain e =>
      simp only [fChildren, rChildrenOf, List.mem_map] at hy
      obtain ⟨z, ⟨w, _, rfl⟩, rfl⟩ := hy
      exact ⟨[], .inl ⟨_, rfl⟩, by simp [extras]⟩
    | compound n co ks =>
      simp only [fChildren, rChildrenOf, List.mem_map] at hy
      obtain ⟨z, ⟨w, _, rfl⟩, rfl⟩ := hy
      exact ⟨[], .inl ⟨_, rfl⟩, by simp [extras]⟩
    | joined n c m ms =>
      have hp : p = pre ++ [n] := by
        rcases hp with ⟨_, h⟩ | h
        · cases h
        · exact h
      subst hp
      simp only [fChildren, List.mem_map] at hy
      obtain ⟨st, hst, rfl⟩ := hy
      refine ⟨?_, m, st, rfl⟩
      have := hx ⟨[n, m], st.u, some ([n], joinedText c ms)⟩ (by simp only [extras, List.mem_map]; exact ⟨st, hst, rfl⟩)
      simpa [Extra.under, RElem.text, Elem.state] using this
    | dict n ks =>
      have hp : p = pre ++ [n] := by
        rcases hp with ⟨_, h⟩ | h
        · cases h
        · exact h
      subst hp
      simp only [fChildren, rChildrenOf, List.mem_map, List.mem_filter] at hy
      obtain ⟨z, ⟨k, ⟨hk, _⟩, rfl⟩, rfl⟩ := hy
      refine ⟨pre ++ [n], .inr rfl, ?_⟩
      intro y hy
      obtain ⟨j, hj⟩ := List.mem_iff_getElem?.1 hk
      rw [← under_under]
      exact hx _ (by simp only [extras, List.mem_map]; exact ⟨y, mem_extrasAll.2 ⟨j, k, hj, hy⟩, rfl⟩)
    | list n ks =>
      have hp : p = pre ++ [n] := by
        rcases hp with ⟨_, h⟩ | h
        · cases h
        · exact h
      subst hp
      simp only [fChildren, rChildrenOf, List.mem_map] at hy
      obtain ⟨z, hz, rfl⟩ := hy
      obtain ⟨j, hj, hz1⟩ := mem_rSlotKids hz
      refine ⟨pre ++ [n, some (decimal (0 + j))], .inr (by simp [hz1]), ?_⟩
      intro y hy
      have e : pre ++ [n, some (decimal (0 + j))] = (pre ++ [n]) ++ [some (decimal (0 + j))] := by simp
      rw [e, ← under_under, ← under_under]
      exact hx _ (by simp only [extras, List.mem_map]; exact ⟨_, mem_extrasSlots.2 ⟨j, z.2, y, hj, hy, rfl⟩, rfl⟩)

theorem extra_node {e : RElem} {x : FNode} (hx : x ∈ fBfs [⟨[e.name], e, none⟩]) (hf : x.elem.flattenable = true) (hr : x.real = false) :
    (⟨x.path, x.elem.text, x.owner⟩ : Extra) ∈ extras e := by
  have ht := fBfs_inv (P := Tracked (extras e)) (tracked_children _) [⟨[e.name], e, none⟩] (by
    intro y hy
    simp only [List.mem_singleton] at hy
    subst hy
    refine ⟨[], .inr rfl, ?_⟩
    intro y hy
    have : y.under [] = y := by
      obtain ⟨a, b, c⟩ := y
      cases c <;> simp [Extra.under]
    rwa [this]) x hx
  obtain ⟨p, el, o⟩ := x
  cases o with
  | some o => exact ht.1
  | none =>
    obtain ⟨pre, hp, hy⟩ := ht
    simp only [FNode.real, Option.isNone_none, Bool.true_and] at hr
    simp only at hp hy hf
    cases el with
    | plain e => simp [dropR, RElem.flattenable] at hr hf; simp [hr] at hf
    | joined => simp [dropR, Elem.flattenable] at hr
    | dict | list => simp [RElem.flattenable] at hf
    | compound n co ks =>
      have hp : p = pre ++ [n] := by
        rcases hp with ⟨_, h⟩ | h
        · cases h
        · exact h
      subst hp
      have := hy ⟨[n], co ks, none⟩ (by simp [extras])
      simpa [Extra.under, RElem.text] using this

/-! ### document order -/

/-- the path of an element below the given names -/
def nodeAt (x : NamePath × RElem) : NamePath × RElem := (x.1 ++ [x.2.name], x.2)

/-- members of a plain List, with the names above -/
def slotsBelow (p : NamePath) : Nat → List RElem → List (NamePath × RElem)
  | _, [] => []
  | i, k :: ks => (p ++ [some (decimal i)], k) :: slotsBelow p (i + 1) ks

/-- children with the names above -/
def kidsBelow (x : NamePath × RElem) : List (NamePath × RElem) :=
  match x.2 with
  | .plain (.dict n ks) | .plain (.array n ks) | .compound n _ ks => (ks.filter Elem.present).map fun k => (x.1 ++ [n], .plain k)
  | .plain (.list n ks) => slotsBelow (x.1 ++ [n]) 0 (ks.map .plain)
  | .plain _ => []
  | .joined n _ m ms => ms.map fun st => (x.1 ++ [n], .plain (.scalar m st))
  | .dict n ks => (ks.filter RElem.present).map fun k => (x.1 ++ [n], k)
  | .list n ks => slotsBelow (x.1 ++ [n]) 0 ks

theorem slotsBelow_node (p : NamePath) (ks : List RElem) : ∀ i, (slotsBelow p i ks).map nodeAt = rSlotKids p i ks := by
  induction ks with
  | nil => intro i; rfl
  | cons k ks ih => intro i; simp [slotsBelow, rSlotKids, nodeAt, ih]

theorem slotsBelow_plain (p : NamePath) (ks : List Elem) : ∀ i, (slotsBelow p i (ks.map .plain)).map nodeAt = (slotKids p i ks).map fun y => (y.1, .plain y.2) := by
  induction ks with
  | nil => intro i; rfl
  | cons k ks ih => intro i; simp [slotsBelow, slotKids, nodeAt, ih, RElem.name]

theorem kidsBelow_node (x : NamePath × RElem) : rChildrenOf (nodeAt x) = (kidsBelow x).map nodeAt := by
  obtain ⟨p, e⟩ := x
  cases e with
  | plain e =>
    cases e with
    | list n ks =>
      have := slotsBelow_plain (p ++ [n]) ks 0
      simp [nodeAt, rChildrenOf, kidsBelow, childrenOf, RElem.name, Elem.name, this]
    | _ => simp [nodeAt, rChildrenOf, kidsBelow, childrenOf, RElem.name, Elem.name, Function.comp_def]
  | list n ks => 
    have := slotsBelow_node (p ++ [n]) ks 0
    simp [nodeAt, rChildrenOf, kidsBelow, RElem.name, this]
  | _ => simp [nodeAt, rChildrenOf, kidsBelow, childrenOf, RElem.name, Elem.name, Function.comp_def]

/-- the element's own pair, if any -/
def ownPair (sep : PStr) (x : NamePath × RElem) : List (PStr × PStr) :=
  if x.2.flattenable then [(flatName sep x.1, x.2.text)] else []

theorem listing_kids (sep : PStr) (p : NamePath) (ks : List Elem) : ∀ i,
    ((ks.filter Elem.present).map fun k => ((p, .plain k) : NamePath × RElem)).flatMap (fun y => listing sep y.1 y.2) =
      (leavesKids i ks).map fun l => (flatName sep (p ++ l.names), l.st.u) := by
  induction ks with
  | nil => intro i; rfl
  | cons k ks ih =>
    intro i
    have ih := ih (i + 1)
    simp only [leavesKids, List.map_append, List.map_map, List.filter_cons]
    by_cases hp : k.present = true
    · simp only [hp, if_true, List.map_cons, List.flatMap_cons, ih, listing, Function.comp_def]
    · have : k = .absent := by cases k <;> simp [Elem.present] at hp ⊢
      subst this
      simp only [Elem.present, Bool.false_eq_true, if_false, ih, leaves, List.map_nil, List.nil_append]

theorem listing_slots (sep : PStr) (p : NamePath) (ks : List Elem) : ∀ i,
    (slotsBelow p i (ks.map .plain)).flatMap (fun y => listing sep y.1 y.2) =
      (leavesSlots i ks).map fun l => (flatName sep (p ++ l.names), l.st.u) := by
  induction ks with
  | nil => intro i; rfl
  | cons k ks ih =>
    intro i
    simp [leavesSlots, slotsBelow, listing, ih (i + 1)]

theorem listing_all (sep : PStr) (p : NamePath) (ks : List RElem) :
    ((ks.filter RElem.present).map fun k => (p, k)).flatMap (fun y => listing sep y.1 y.2) = listingAll sep p ks := by
  induction ks with
  | nil => rfl
  | cons k ks ih =>
    simp only [listingAll, List.filter_cons]
    by_cases hp : k.present = true
    · simp only [hp, if_true, List.map_cons, List.flatMap_cons, ih]
    · have : listing sep p k = [] := by
        cases k with
        | plain k => cases k <;> simp [RElem.present, Elem.present] at hp <;> simp [listing, leaves]
        | _ => simp [RElem.present] at hp
      simp [hp, ih, this]

theorem listing_slotsR (sep : PStr) (p : NamePath) (ks : List RElem) : ∀ i,
    (slotsBelow p i ks).flatMap (fun y => listing sep y.1 y.2) = listingSlots sep p i ks := by
  induction ks with
  | nil => intro i; rfl
  | cons k ks ih => intro i; simp [listingSlots, slotsBelow, ih (i + 1)]

theorem listing_step (sep : PStr) (x : NamePath × RElem) :
    listing sep x.1 x.2 = ownPair sep (nodeAt x) ++ (kidsBelow x).flatMap fun y => listing sep y.1 y.2 := by
  obtain ⟨p, e⟩ := x
  cases e with
  | plain e =>
    cases e with
    | scalar n st => simp [listing, leaves, ownPair, nodeAt, RElem.flattenable, Elem.flattenable, RElem.name, Elem.name, RElem.text, Elem.state, kidsBelow]
    | absent => simp [listing, leaves, ownPair, nodeAt, RElem.flattenable, Elem.flattenable, kidsBelow]
    | dict n ks => simp [listing, leaves, ownPair, nodeAt, RElem.flattenable, Elem.flattenable, kidsBelow, listing_kids sep (p ++ [n]) ks 0]
    | array n ks => simp [listing, leaves, ownPair, nodeAt, RElem.flattenable, Elem.flattenable, kidsBelow, listing_kids sep (p ++ [n]) ks 0]
    | list n ks => simp [listing, leaves, ownPair, nodeAt, RElem.flattenable, Elem.flattenable, kidsBelow, listing_slots sep (p ++ [n]) ks 0]
  | joined n c m ms =>
    simp only [listing, ownPair, nodeAt, RElem.flattenable, if_true, RElem.name, RElem.text, kidsBelow, List.singleton_append, List.flatMap_map]
    congr 1
    induction ms with
    | nil => rfl
    | cons a l ih => rw [List.map_cons, List.flatMap_cons, ← ih]; simp [leaves]
  | compound n co ks =>
    simp [listing, ownPair, nodeAt, RElem.flattenable, RElem.name, RElem.text, kidsBelow, listing_kids sep (p ++ [n]) ks 0]
  | dict n ks => simp [listing, ownPair, nodeAt, RElem.flattenable, kidsBelow, listing_all]
  | list n ks => simp [listing, ownPair, nodeAt, RElem.flattenable, kidsBelow, listing_slotsR]

theorem rBfs_listing (sep : PStr) : ∀ (N : Nat) (Q : List (NamePath × RElem)), rQueueSize (Q.map nodeAt) ≤ N →
    (((rBfs (Q.map nodeAt)).flatMap (ownPair sep)).Perm (Q.flatMap fun y => listing sep y.1 y.2))
  | N, [], _ => by simp [rBfs]
  | 0, x :: Q, h => by
    exfalso
    have := rQueueSize_children (nodeAt x)
    simp only [List.map_cons, rQueueSize, List.sum_cons] at h this
    omega
  | N + 1, x :: Q, h => by
    have hlt := rQueueSize_children (nodeAt x)
    have ih := rBfs_listing sep N (Q ++ kidsBelow x) (by
      rw [List.map_append, ← kidsBelow_node, rQueueSize_append]
      simp only [List.map_cons, rQueueSize, List.sum_cons] at h hlt ⊢
      omega)
    rw [List.map_append, ← kidsBelow_node] at ih
    rw [List.map_cons, rBfs, List.flatMap_cons, List.flatMap_cons, listing_step]
    rw [List.append_assoc]
    refine List.Perm.append_left _ (ih.trans ?_)
    rw [List.flatMap_append]
    exact List.perm_append_comm

theorem flatten_listing (sep : PStr) (e : RElem) (h : e.childrenFlattenable = true) : (rFlatten sep e).Perm (listing sep [] e) := by
  have := rBfs_listing sep _ [([], e)] (Nat.le_refl _)
  simp only [List.map_cons, List.map_nil, nodeAt, List.nil_append, List.flatMap_cons, List.flatMap_nil, List.append_nil] at this
  refine List.Perm.trans (List.Perm.of_eq ?_) this
  rw [rBfs, List.nil_append, List.flatMap_cons]
  simp only [rFlatten, rFlattenAt, h, if_true, ownPair]
  congr 1
  generalize rBfs (rChildrenOf ([e.name], e)) = l
  induction l with
  | nil => rfl
  | cons a l ih =>
    rw [List.flatMap_cons, ← ih, List.filter_cons, ownPair]
    cases a.2.flattenable <;> simp

section
variable [Runtime]

omit [Runtime] in
theorem extra_key_some {sep : PStr} {s : RSchema} {e : RElem} (hk : RKeyed s) (hw : RWellNamed sep s) (hc : RConforms s e) (hn : ¬ NamelessCompound s) :
    ∀ x ∈ extras e, keyOf sep x.names ≠ none ∧ ∀ o, x.owner = some o → keyOf sep o.1 ≠ none := by
  intro x hx
  cases hnm : s.name with
  | some n =>
    obtain ⟨h1, h2⟩ := extras_goodKey s e hw hc x hx
    refine ⟨?_, ?_⟩
    · rcases h1.2 n hnm with h | ⟨_, y, _, h⟩ <;> simp [h]
    · intro o ho
      rcases (h2 o ho).2 n hnm with h | ⟨_, y, _, h⟩ <;> simp [h]
  | none =>
    cases s with
    | plain s => cases e <;> simp [RConforms, extras] at hc hx
    | joined h c m => simp only [RKeyed] at hk; exact absurd hnm hk
    | compound h co fs => simp only [NamelessCompound] at hn; exact absurd hnm hn
    | dict h mode po fs =>
      cases e with
      | dict n ks =>
        simp only [RConforms] at hc
        simp only [RWellNamed] at hw
        simp only [extras, List.mem_map] at hx
        obtain ⟨y, hy, rfl⟩ := hx
        obtain ⟨j, k, hj, hyk⟩ := mem_extrasAll.1 hy
        obtain ⟨f, hf, hfk⟩ := rConformsAll_get hc.2 hj
        have hck : RConforms f k := by
          rcases hfk with ⟨rfl, _⟩ | h
          · simp [extras] at hyk
          · exact h
        have hfm : f ∈ fs := List.mem_of_getElem? hf
        obtain ⟨fn, hfn⟩ := Option.ne_none_iff_exists'.1 (hw.2.1 f hfm)
        obtain ⟨h1, h2⟩ := extras_goodKey f k (rWellNamedAll_mem hw.2.2.2 f hfm) hck y hyk
        have h1' : keyOf sep y.names ≠ none := by rcases h1.2 fn hfn with h | ⟨_, y, _, h⟩ <;> simp [h]
        refine ⟨?_, ?_⟩
        · simp only [Extra.under, keyOf_append_one]
          obtain ⟨kk, hkk⟩ := Option.ne_none_iff_exists'.1 h1'
          rw [hkk]
          cases n <;> simp [addName]
        · intro o ho
          simp only [Extra.under, Option.map_eq_some_iff] at ho
          obtain ⟨o', ho', rfl⟩ := ho
          have h2' : keyOf sep o'.1 ≠ none := by rcases (h2 o' ho').2 fn hfn with h | ⟨_, y, _, h⟩ <;> simp [h]
          obtain ⟨kk, hkk⟩ := Option.ne_none_iff_exists'.1 h2'
          simp only [keyOf_append_one, hkk]
          cases n <;> simp [addName]
      | _ => simp [RConforms] at hc
    | list h pr ma m =>
      cases e with
      | list n ks =>
        simp only [extras, List.mem_map] at hx
        obtain ⟨y, hy, rfl⟩ := hx
        obtain ⟨j, k, z, hj, hz, rfl⟩ := mem_extrasSlots.1 hy
        have slot : ∀ k : Option PStr, addName sep n (addName sep (some (decimal (0 + j))) k) ≠ none := by
          intro k
          cases k <;> cases n <;> simp [addName]
        refine ⟨?_, ?_⟩
        · simp only [Extra.under, keyOf_append_one]
          exact slot _
        · intro o ho
          simp only [Extra.under, Option.map_eq_some_iff] at ho
          obtain ⟨o', ⟨o'', ho'', rfl⟩, rfl⟩ := ho
          simp only [keyOf_append_one]
          exact slot _
      | _ => simp [RConforms] at hc

omit [Runtime] in
theorem flatName_some {sep : PStr} {np : NamePath} (h : keyOf sep np ≠ none) : some (flatName sep np) = keyOf sep np := by
  obtain ⟨k, hk⟩ := Option.ne_none_iff_exists'.1 h
  rw [flatName_eq_keyOf, hk]; rfl

/-- leaving out the pairs that make no difference -/
theorem remove_all {sep : PStr} {s : Schema} (hw : WellNamed sep s) {α : Type} (pr : α → FPair) (real : α → Bool) (L : List α)
    (h : ∀ b x a, L = b ++ x :: a → real x = false → Noise sep s (b.map pr) (pr x) ((a.filter real).map pr)) :
    setFlat sep s (fresh s) (L.map pr) = setFlat sep s (fresh s) ((L.filter real).map pr) := by
  have : ∀ a b, L = b ++ a → setFlat sep s (fresh s) (b.map pr ++ a.map pr) = setFlat sep s (fresh s) (b.map pr ++ (a.filter real).map pr) := by
    intro a
    induction a with
    | nil => intro b _; rfl
    | cons x a ih =>
      intro b hL
      have ih := ih (b ++ [x]) (by simp [hL])
      simp only [List.map_append, List.map_cons, List.map_nil, List.append_assoc, List.singleton_append] at ih
      simp only [List.map_cons]
      rw [ih, List.filter_cons]
      cases hr : real x with
      | true => simp
      | false =>
        simp only [Bool.false_eq_true, if_false]
        exact remove_noise sep s hw _ _ _ (h b x a hL hr)
  simpa using this L [] rfl

omit [Runtime] in
/-- Pairs in another order, with the values of each key in theirs, are the pairs of the same things in another order. -/
theorem reorder {α : Type} (pr : α → FPair) : ∀ (ps : List FPair) (L : List α), SameKeys ps (L.map pr) →
    ∃ L' : List α, L'.map pr = ps ∧ ∀ k, L'.filter (fun x => (pr x).1 == k) = L.filter (fun x => (pr x).1 == k)
  | [], L, h => by
    refine ⟨[], rfl, fun k => ?_⟩
    have := h k trivial
    rw [List.filter_map, List.filter_nil] at this
    simpa [Function.comp_def] using this.symm
  | p :: ps, L, h => by
    have h1 := h p.1 trivial
    rw [List.filter_cons, beq_self_eq_true, if_pos rfl, List.filter_map] at h1
    obtain ⟨x, r, hxr, hx, hr⟩ := List.map_eq_cons_iff.1 h1.symm
    obtain ⟨b, a, rfl, hb, hxk, ha⟩ := List.filter_eq_cons_iff.1 hxr
    obtain ⟨L', hL', hk⟩ := reorder pr ps (b ++ a) (by
      intro k _
      have := h k trivial
      by_cases hpk : p.1 = k
      · subst hpk
        rw [List.filter_map, List.filter_append, List.filter_eq_nil_iff.2 hb, List.nil_append, ha]
        exact hr.symm
      · simp only [List.map_append, List.map_cons, List.filter_append, List.filter_cons, hx] at this ⊢
        have hpk' : (p.1 == k) = false := by simpa using hpk
        simpa [hpk'] using this)
    refine ⟨x :: L', by simp [hL', hx], fun k => ?_⟩
    rw [List.filter_cons, hk k]
    simp only [List.filter_append, List.filter_cons]
    by_cases hpk : p.1 = k
    · subst hpk
      have hb' : b.filter (fun y => (pr y).1 == p.1) = [] := List.filter_eq_nil_iff.2 hb
      simp only [hx, beq_self_eq_true, if_true, hb', List.nil_append]
    · have hpk' : (p.1 == k) = false := by simpa using hpk
      simp [hx, hpk']

/-- the pairs of Compounds and of members of JoinedStrings make no difference -/
theorem remove_extras_any {sep : PStr} (hs : GoodSep sep) (s : RSchema) (e : RElem) (hk : RKeyed s) (hw : RWellNamed sep s) (hc : RConforms s e)
    (hcar : CompoundsBacked false s e) (ps : List FPair) (hps : SameKeys ps (asPairs (rFlatten sep e))) :
    ∃ qs, SameKeys qs (asPairs (flatten sep (dropR e))) ∧ setFlat sep (plainS s) (fresh (plainS s)) ps = setFlat sep (plainS s) (fresh (plainS s)) qs := by
  have hwp := wellNamed_plain s hw
  have hkp := keyed_plain hk
  have hcp := conforms_drop s e hc
  cases hcf : e.childrenFlattenable with
  | false =>
    cases e with
    | joined n c m ms =>
      refine ⟨ps, ?_, rfl⟩
      have : asPairs (rFlatten sep (.joined n c m ms)) = asPairs (flatten sep (dropR (.joined n c m ms))) := by
        congr 1
        simp [rFlatten, rFlattenAt, RElem.flattenable, RElem.childrenFlattenable, flatten, flattenAt, dropR, Elem.flattenable, allChildren, childrenOf, bfs,
          RElem.text, Elem.state, RElem.name, Elem.name]
      rwa [this] at hps
    | _ => simp [RElem.childrenFlattenable] at hcf
  | true =>
    rw [flatten_nodes sep e hcf] at hps
    obtain ⟨L', rfl, hkeys⟩ := reorder _ ps _ hps
    have hmem : ∀ x, x ∈ L' ↔ x ∈ (fBfs [⟨[e.name], e, none⟩]).filter fun x => x.elem.flattenable := by
      intro x
      have := congrArg (x ∈ ·) (hkeys (x.fpair sep).1)
      simpa [List.mem_filter] using this
    refine ⟨(L'.filter FNode.real).map (FNode.fpair sep), ?_, ?_⟩
    · intro k _
      rw [real_nodes sep e, List.filter_map, List.filter_map]
      congr 1
      have := congrArg (List.filter FNode.real) (hkeys k)
      generalize (fBfs [⟨[e.name], e, none⟩]).filter (fun x => x.elem.flattenable) = L at this
      rw [List.filter_filter, List.filter_filter] at this
      rw [List.filter_filter, List.filter_filter]
      simpa only [Function.comp_def, Bool.and_comm] using this
    refine remove_all hwp _ _ _ ?_
    intro b x a hL hr
    have hxL : x ∈ (fBfs [⟨[e.name], e, none⟩]).filter fun x => x.elem.flattenable := (hmem x).1 (by rw [hL]; simp)
    obtain ⟨hxB, hxf⟩ := List.mem_filter.1 hxL
    have hex := extra_node hxB hxf hr
    by_cases hnc : NamelessCompound s
    · cases s with
      | compound h co fs =>
        cases e with
        | compound n co' ks =>
          simp only [NamelessCompound] at hnc
          simp only [RConforms] at hc
          simp only [RWellNamed] at hw
          simp only [extras, List.mem_singleton] at hex
          simp only [Extra.mk.injEq] at hex
          simp only [plainS, Noise, hnc, FNode.fpair, hex.1]
          refine ⟨by simp, ?_⟩
          apply noiseFields_of
          intro f hf fn hfn hh
          exfalso
          have hg := goodName_of_wellNamed (wellNamedAll_mem hw.2.2.2 f hf)
          rw [hfn] at hg
          have := (hg fn rfl).1
          rw [hc.1, hnc] at hh
          simp only [handed, Option.map_some, Option.getD_some, flatName, List.filterMap_cons, List.filterMap_nil, id, pyJoin] at hh
          have := List.prefix_nil.1 ((startsWith_iff _ _).1 hh)
          contradiction
        | _ => simp [RConforms] at hc
      | _ => simp [NamelessCompound] at hnc
    · obtain ⟨hks, hko⟩ := extra_key_some (sep := sep) hk hw hc hnc _ hex
      have := noise_extra hs s false e hw hc hcar hnc _ hex (by simp) (b.map (FNode.fpair sep)) ((a.filter FNode.real).map (FNode.fpair sep)) ?_ ?_
      · simpa only [FNode.fpair, flatName_some hks] using this
      · intro l hl _
        have h1 := flatName_leaf hkp hwp hcp hl
        have h2 : l.pair sep ∈ asPairs (flatten sep (dropR e)) :=
          (agree_mem (flatten_agree hs hkp hwp hcp) trivial).2 (pair_mem_rel hl)
        have h3 : l.pair sep ∈ (L'.filter FNode.real).map (FNode.fpair sep) := by
          rw [real_nodes sep e] at h2
          obtain ⟨y, hy, he⟩ := List.mem_map.1 h2
          obtain ⟨hy1, hy2⟩ := List.mem_filter.1 hy
          exact List.mem_map.2 ⟨y, List.mem_filter.2 ⟨(hmem y).2 hy1, hy2⟩, he⟩
        rw [hL, List.filter_append, List.filter_cons, hr, List.map_append, List.mem_append] at h3
        simp only [Bool.false_eq_true, if_false] at h3
        rw [List.mem_append]
        rcases h3 with h2 | h2
        · obtain ⟨y, hy, e⟩ := List.mem_map.1 h2
          exact .inl (List.mem_map.2 ⟨y, (List.mem_filter.1 hy).1, e⟩)
        · exact .inr h2
      · intro o ho hsame
        -- where the node is among those of its key, before any reordering
        have hkx := hkeys (x.fpair sep).1
        rw [hL, List.filter_append, List.filter_cons, beq_self_eq_true, if_pos rfl] at hkx
        obtain ⟨b0, r0, hF0, hb0, hr0⟩ := List.filter_eq_append_iff.1 hkx.symm
        obtain ⟨b3, a3, hr3, hb3, _, _⟩ := List.filter_eq_cons_iff.1 hr0
        obtain ⟨b1, r1, hF, hb, hr1⟩ := List.filter_eq_append_iff.1 (hF0.trans (by rw [hr3, ← List.append_assoc]) :
          (fBfs [⟨[e.name], e, none⟩]).filter (fun x => x.elem.flattenable) = (b0 ++ b3) ++ x :: a3)
        obtain ⟨b2, r2, hr2, hb2, _, _⟩ := List.filter_eq_cons_iff.1 hr1
        subst hr2
        have hown := fBfs_owner [⟨[e.name], e, none⟩] [] (by
          intro y hy
          simp only [List.mem_singleton] at hy
          subst hy
          intro o ho; cases ho) (b1 ++ b2) x r2 (by rw [hF]; simp)
        obtain ⟨y, hy, hy1, hy2, hy3⟩ := hown o ho
        have hyk : ((y.fpair sep).1 == (x.fpair sep).1) = true := by
          simp only [FNode.fpair, hy1, beq_iff_eq]
          rw [flatName_some (hko o ho), flatName_some hks, hsame]
        have hyb : y ∈ b0 ++ b3 := by
          rw [← hb]
          rw [List.nil_append, List.mem_append] at hy
          rcases hy with hy | hy
          · exact List.mem_filter.2 ⟨hy, hy3⟩
          · exact absurd hy3 (hb2 y hy)
        have hyb0 : y ∈ b := by
          rw [List.mem_append] at hyb
          rcases hyb with h | h
          · have : y ∈ b.filter fun z => (z.fpair sep).1 == (x.fpair sep).1 := by
              rw [← hb0]
              exact List.mem_filter.2 ⟨h, hyk⟩
            exact (List.mem_filter.1 this).1
          · exact absurd hyk (hb3 y h)
        refine List.mem_map.2 ⟨y, hyb0, ?_⟩
        simp only [FNode.fpair, hy1, hy2]
        rw [flatName_some (hko o ho)]

end

end Flatland
