import Verif.Spec.Tree
/-! Breadth-first traversal: helper lemmas. -/
namespace Flatland
open Spec

/-- the nodes `d` levels below the given ones, in order -/
def lev : Nat → List (NamePath × Elem) → List (NamePath × Elem)
  | 0, xs => xs
  | d + 1, xs => lev d (xs.flatMap childrenOf)

theorem lev_append (d xs ys) : lev d (xs ++ ys) = lev d xs ++ lev d ys := by
  induction d generalizing xs ys with
  | zero => rfl
  | succ d ih => simp [lev, ih]

theorem lev_nil (d) : lev d [] = [] := by
  induction d with
  | zero => rfl
  | succ d ih => simp [lev, ih]

theorem bfs_append (xs ys) : bfs (xs ++ ys) = xs ++ bfs (ys ++ xs.flatMap childrenOf) := by
  induction xs generalizing ys with
  | nil => simp
  | cons x xs ih =>
    rw [List.cons_append, bfs, List.append_assoc, ih]
    simp

theorem bfs_step (xs) : bfs xs = xs ++ bfs (xs.flatMap childrenOf) := by
  have := bfs_append xs []
  simpa using this

theorem lev_succ' (d xs) : lev (d + 1) xs = (lev d xs).flatMap childrenOf := by
  induction d generalizing xs with
  | zero => rfl
  | succ d ih => rw [lev, ih]; rfl

theorem bfs_levels (n xs) : bfs xs = (List.range n).flatMap (lev · xs) ++ bfs (lev n xs) := by
  induction n with
  | zero => simp [lev]
  | succ n ih =>
    rw [ih, bfs_step (lev n xs), List.range_succ]
    simp [lev_succ']

theorem queueSize_flatMap (xs) : queueSize (xs.flatMap childrenOf) + xs.length ≤ queueSize xs := by
  induction xs with
  | nil => simp [queueSize]
  | cons x xs ih =>
    rw [List.flatMap_cons, queueSize_append]
    have h1 := queueSize_children x
    have h2 : queueSize (x :: xs) = x.2.size + queueSize xs := by simp [queueSize]
    simp only [List.length_cons]
    omega

theorem lev_eq_nil (n xs) (h : queueSize xs ≤ n) : lev n xs = [] := by
  induction n generalizing xs with
  | zero =>
    have := queueSize_flatMap xs
    have : xs.length = 0 := by omega
    simpa [lev] using this
  | succ n ih =>
    by_cases hx : xs = []
    · subst hx; exact lev_nil _
    · rw [lev]; apply ih
      have := queueSize_flatMap xs
      have : xs.length ≠ 0 := by simpa using hx
      omega

theorem bfs_nil : bfs [] = [] := by rw [bfs]

theorem bfs_eq (n xs) (h : queueSize xs ≤ n) : bfs xs = (List.range n).flatMap (lev · xs) := by
  rw [bfs_levels n xs, lev_eq_nil n xs h, bfs_nil, List.append_nil]

/-- scalars among nodes, with path and data -/
def scalarNodes (xs : List (NamePath × Elem)) : List (NamePath × ScalarState) :=
  (xs.filter fun x => x.2.flattenable).map fun x => (x.1, x.2.state)

theorem scalarNodes_append (xs ys) : scalarNodes (xs ++ ys) = scalarNodes xs ++ scalarNodes ys := by
  simp [scalarNodes]

/-- scalars at level `d` are the document-order leaves with a position of length `d` -/
theorem lev_leaves (d : Nat) (q : NamePath) (e : Elem) :
    scalarNodes (lev d [(q ++ [e.name], e)]) =
      ((leaves e).filter fun l => l.pos.length == d).map fun l => (q ++ l.names, l.st) := by
  induction d generalizing q e with
  | zero =>
    have hk : ∀ i ks, (leavesKids i ks).filter (fun l => l.pos.length == 0) = [] := by
      intro i ks
      induction ks generalizing i with
      | nil => rfl
      | cons k ks ih => simp [leavesKids, ih]
    have hs : ∀ i ks, (leavesSlots i ks).filter (fun l => l.pos.length == 0) = [] := by
      intro i ks
      induction ks generalizing i with
      | nil => rfl
      | cons k ks ih => simp [leavesSlots, ih]
    cases e with
    | scalar n st => simp [lev, scalarNodes, Elem.flattenable, leaves, Elem.state, Elem.name]
    | absent => simp [lev, scalarNodes, Elem.flattenable, leaves]
    | dict n ks => simp [lev, scalarNodes, Elem.flattenable, leaves, List.filter_map, Function.comp_def, hk]
    | array n ks => simp [lev, scalarNodes, Elem.flattenable, leaves, List.filter_map, Function.comp_def, hk]
    | list n ks => simp [lev, scalarNodes, Elem.flattenable, leaves, List.filter_map, Function.comp_def, hs]
  | succ d ih =>
    have hk : ∀ p i ks, scalarNodes (lev d ((ks.filter Elem.present).map fun k => (p ++ [k.name], k))) =
        ((leavesKids i ks).filter fun l => l.pos.length == d + 1).map fun l => (p ++ l.names, l.st) := by
      intro p i ks
      induction ks generalizing i with
      | nil => simp [leavesKids, lev_nil, scalarNodes]
      | cons k ks ihk =>
        by_cases hp : k.present = true
        · rw [List.filter_cons_of_pos hp, List.map_cons, ← List.singleton_append, lev_append, scalarNodes_append,
            ihk (i + 1), ih p k]
          simp [leavesKids, List.filter_append, List.filter_map, Function.comp_def]
        · rw [List.filter_cons_of_neg hp, ihk (i + 1)]
          have : k = .absent := by cases k <;> simp [Elem.present] at hp ⊢
          subst this
          simp [leavesKids, leaves]
    have hs : ∀ p i ks, scalarNodes (lev d (slotKids p i ks)) =
        ((leavesSlots i ks).filter fun l => l.pos.length == d + 1).map fun l => (p ++ l.names, l.st) := by
      intro p i ks
      induction ks generalizing i with
      | nil => simp [leavesSlots, slotKids, lev_nil, scalarNodes]
      | cons k ks ihk =>
        rw [slotKids, ← List.singleton_append, lev_append, scalarNodes_append, ihk (i + 1)]
        have := ih (p ++ [some (decimal i)]) k
        simp only [List.append_assoc, List.cons_append, List.nil_append] at this
        rw [this]
        simp [leavesSlots, List.filter_append, List.filter_map, Function.comp_def]
    cases e with
    | scalar n st => simp [lev, childrenOf, lev_nil, scalarNodes, leaves]
    | absent => simp [lev, childrenOf, lev_nil, scalarNodes, leaves]
    | dict n ks =>
      have := hk (q ++ [n]) 0 ks
      simp only [lev, List.flatMap_cons, List.flatMap_nil, List.append_nil, childrenOf, leaves]
      refine this.trans ?_
      simp [List.filter_map, Function.comp_def]
    | array n ks =>
      have := hk (q ++ [n]) 0 ks
      simp only [lev, List.flatMap_cons, List.flatMap_nil, List.append_nil, childrenOf, leaves]
      refine this.trans ?_
      simp [List.filter_map, Function.comp_def]
    | list n ks =>
      have := hs (q ++ [n]) 0 ks
      simp only [lev, List.flatMap_cons, List.flatMap_nil, List.append_nil, childrenOf, leaves]
      refine this.trans ?_
      simp [List.filter_map, Function.comp_def]

theorem flattenAt_scalarNodes (sep p e) :
    flattenAt sep p e = (scalarNodes (bfs [(p, e)])).map fun x => (flatName sep x.1, x.2.u) := by
  rw [bfs_step]
  simp only [flattenAt, allChildren, scalarNodes, List.flatMap_cons, List.flatMap_nil, List.append_nil,
    List.filter_append, List.map_append, List.map_map, Function.comp_def]
  congr 1
  cases e <;> simp [Elem.flattenable]

theorem scalarNodes_flatMap {α} (l : List α) (f) : scalarNodes (l.flatMap f) = l.flatMap fun a => scalarNodes (f a) := by
  induction l with
  | nil => rfl
  | cons a l ih => simp [scalarNodes_append, ih]

/-- `flatten` lists the scalars level by level, each level in document order -/
theorem flatten_levels (sep : PStr) (e : Elem) (n : Nat) (h : e.size ≤ n) :
    flatten sep e = (List.range n).flatMap fun d =>
      ((leaves e).filter fun l => l.pos.length == d).map fun l => (flatName sep l.names, l.st.u) := by
  unfold flatten
  rw [flattenAt_scalarNodes, bfs_eq n _ (by simpa [queueSize] using h), scalarNodes_flatMap, List.map_flatMap]
  congr 1
  funext d
  have := lev_leaves d [] e
  simp only [List.nil_append] at this
  rw [this]
  simp

mutual
theorem leaves_depth : ∀ (e : Elem), ∀ l ∈ leaves e, l.pos.length < e.size
  | .scalar n st => by simp [leaves, Elem.size]
  | .absent => by simp [leaves]
  | .dict n ks => by
    intro l hl
    simp only [leaves, List.mem_map] at hl
    obtain ⟨l', hl', rfl⟩ := hl
    have := leavesKids_depth ks 0 l' hl'
    simp only [Elem.size]; omega
  | .array n ks => by
    intro l hl
    simp only [leaves, List.mem_map] at hl
    obtain ⟨l', hl', rfl⟩ := hl
    have := leavesKids_depth ks 0 l' hl'
    simp only [Elem.size]; omega
  | .list n ks => by
    intro l hl
    simp only [leaves, List.mem_map] at hl
    obtain ⟨l', hl', rfl⟩ := hl
    have := leavesSlots_depth ks 0 l' hl'
    simp only [Elem.size]; omega
theorem leavesKids_depth : ∀ (ks : List Elem) (i : Nat), ∀ l ∈ leavesKids i ks, l.pos.length ≤ sizeList ks
  | [], i => by simp [leavesKids]
  | k :: ks, i => by
    intro l hl
    simp only [leavesKids, List.mem_append, List.mem_map] at hl
    simp only [sizeList]
    rcases hl with ⟨l', hl', rfl⟩ | hl
    · have := leaves_depth k l' hl'
      simp only [List.length_cons]; omega
    · have := leavesKids_depth ks (i + 1) l hl; omega
theorem leavesSlots_depth : ∀ (ks : List Elem) (i : Nat), ∀ l ∈ leavesSlots i ks, l.pos.length ≤ sizeList ks
  | [], i => by simp [leavesSlots]
  | k :: ks, i => by
    intro l hl
    simp only [leavesSlots, List.mem_append, List.mem_map] at hl
    simp only [sizeList]
    rcases hl with ⟨l', hl', rfl⟩ | hl
    · have := leaves_depth k l' hl'
      simp only [List.length_cons]; omega
    · have := leavesSlots_depth ks (i + 1) l hl; omega
end

/-- splitting a list by a bounded measure and concatenating keeps every subsequence with constant measure -/
theorem filter_by_level {α} (xs : List α) (m : α → Nat) (n d : Nat) (q : α → Bool) (hn : ∀ x ∈ xs, m x < n)
    (hq : ∀ x ∈ xs, q x = true → m x = d) :
    ((List.range n).flatMap fun d => xs.filter fun x => m x == d).filter q = xs.filter q := by
  have h1 : ∀ d', (xs.filter fun x => m x == d').filter q = if d' = d then xs.filter q else [] := by
    intro d'
    split
    · rename_i h; subst h
      rw [List.filter_filter]
      apply List.filter_congr
      intro x hx
      cases hqx : q x with
      | false => simp
      | true => simp [hq x hx hqx]
    · rename_i h
      rw [List.filter_eq_nil_iff]
      intro x hx hqx
      have hx' := List.mem_filter.1 hx
      have := hq x hx'.1 hqx
      have h2 : m x = d' := by simpa using hx'.2
      omega
  rw [List.filter_flatMap]
  simp only [h1]
  by_cases hd : d < n
  · have : ∀ k, (List.range k).flatMap (fun d' => if d' = d then xs.filter q else []) = if d < k then xs.filter q else [] := by
      intro k
      induction k with
      | zero => simp
      | succ k ih =>
        rw [List.range_succ, List.flatMap_append, ih]
        simp only [List.flatMap_cons, List.flatMap_nil, List.append_nil]
        by_cases h : d < k
        · have h2 : k ≠ d := by omega
          have h3 : d < k + 1 := by omega
          simp [h, h2, h3]
        · by_cases h2 : k = d
          · subst h2; simp
          · have h3 : ¬ d < k + 1 := by omega
            simp [h, h2, h3]
    rw [this]; simp [hd]
  · have : xs.filter q = [] := by
      rw [List.filter_eq_nil_iff]
      intro x hx hqx
      have := hn x hx; have := hq x hx hqx; omega
    simp [this]

end Flatland
