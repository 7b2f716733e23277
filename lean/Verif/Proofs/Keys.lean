import Verif.Proofs.Text
import Verif.Proofs.Traverse
/-
Helper lemmas about flat keys: what keys the leaves of an element have, which keys a schema owns, why siblings do not
clash, and what the List regular expression recognises.
-/
namespace Flatland
open Spec

/-! ### prefixes -/

theorem startsWith_iff (s p : PStr) : startsWith s p = true ↔ p <+: s := by
  simp [startsWith]

theorem prefix_total {α} {a b c : List α} (h1 : a <+: c) (h2 : b <+: c) : a <+: b ∨ b <+: a :=
  List.prefix_or_prefix_of_prefix h1 h2

/-! ### keys of leaves -/

/-- pairs of the surviving leaves, in document order -/
def rel (sep : PStr) (p : Bool) (e : Elem) : List FPair :=
  ((leaves e).filter fun l => !dropped p l).map (LeafAt.pair sep)

/-- pairs of a list of children -/
def relKids (sep : PStr) (p : Bool) (ks : List Elem) : List FPair := ks.flatMap (rel sep p)

/-- pairs of List members numbered from `i` -/
def relSlots (sep : PStr) (p : Bool) : Nat → List Elem → List FPair
  | _, [] => []
  | i, k :: ks => (rel sep p k).map (fun x => (addName sep (some (decimal i)) x.1, x.2)) ++ relSlots sep p (i + 1) ks

theorem keyOf_cons (sep n np) : keyOf sep (n :: np) = addName sep n (keyOf sep np) := rfl

theorem relKids_leaves (sep p i ks) :
    ((leavesKids i ks).filter fun l => !dropped p l).map (LeafAt.pair sep) = relKids sep p ks := by
  induction ks generalizing i with
  | nil => rfl
  | cons k ks ih =>
    simp only [leavesKids, List.filter_append, List.map_append, ih, relKids, List.flatMap_cons]
    congr 1
    simp [rel, List.filter_map, Function.comp_def, dropped, LeafAt.pair]

theorem relSlots_leaves (sep p i ks) :
    ((leavesSlots i ks).filter fun l => !dropped p l).map (LeafAt.pair sep) = relSlots sep p i ks := by
  induction ks generalizing i with
  | nil => rfl
  | cons k ks ih =>
    simp only [leavesSlots, List.filter_append, List.map_append, ih, relSlots]
    congr 1
    simp [rel, List.filter_map, Function.comp_def, dropped, LeafAt.pair, keyOf_cons]

theorem rel_dict (sep p n ks) :
    rel sep p (.dict n ks) = (relKids sep p ks).map fun x => (addName sep n x.1, x.2) := by
  rw [← relKids_leaves sep p 0 ks]
  simp [rel, leaves, List.filter_map, Function.comp_def, dropped, LeafAt.pair, keyOf_cons]

theorem rel_array (sep p n ks) :
    rel sep p (.array n ks) = (relKids sep p ks).map fun x => (addName sep n x.1, x.2) := by
  rw [← relKids_leaves sep p 0 ks]
  simp [rel, leaves, List.filter_map, Function.comp_def, dropped, LeafAt.pair, keyOf_cons]

theorem rel_list (sep p n ks) :
    rel sep p (.list n ks) = (relSlots sep p 0 ks).map fun x => (addName sep n x.1, x.2) := by
  rw [← relSlots_leaves sep p 0 ks]
  simp [rel, leaves, List.filter_map, Function.comp_def, dropped, LeafAt.pair, keyOf_cons]

theorem rel_scalar (sep p n st) :
    rel sep p (.scalar n st) = if p && st.u == [] then [] else [(n, st.u)] := by
  simp only [rel, leaves, dropped, List.filter_cons, List.filter_nil]
  split <;> split <;> simp_all [LeafAt.pair, keyOf, addName]
  cases n <;> rfl

theorem rel_absent (sep p) : rel sep p .absent = [] := rfl

theorem addName_none (sep k) : addName sep none k = k := rfl

/-- shape of the joined key -/
theorem addName_some (sep n) (k : Option PStr) :
    addName sep (some n) k = some (match k with | none => n | some k => n ++ sep ++ k) := by
  cases k <;> rfl

/-- the key a named part contributes to -/
def KeyUnder (sep n : PStr) (k : Option PStr) : Prop := k = some n ∨ ∃ x, x ≠ [] ∧ k = some (n ++ sep ++ x)

theorem keyUnder_addName {sep n : PStr} {k : Option PStr} (h : k ≠ some []) : KeyUnder sep n (addName sep (some n) k) := by
  cases k with
  | none => exact .inl rfl
  | some k => exact .inr ⟨k, by simpa using h, rfl⟩

mutual
/-- no leaf has an empty text key -/
theorem rel_key_ne_nil (sep : PStr) (p : Bool) : ∀ (s : Schema) (e : Elem), WellNamed sep s → Conforms s e →
    ∀ x ∈ rel sep p e, x.1 ≠ some []
  | .scalar h t, .scalar n st, hw, hc => by
    intro x hx
    rw [rel_scalar] at hx
    simp only [WellNamed, Conforms] at hw hc
    subst hc
    split at hx <;> simp at hx
    subst hx
    intro h0
    exact (hw _ h0).1 rfl
  | .dict h mode po fs, .dict n ks, hw, hc => by
    intro x hx
    simp only [WellNamed, Conforms] at hw hc
    rw [rel_dict] at hx
    simp only [List.mem_map] at hx
    obtain ⟨y, hy, rfl⟩ := hx
    have := relKids_key_ne_nil sep p mode fs ks hw.2.2.2 hc.2 y hy
    obtain ⟨rfl, -⟩ := hc
    cases hn : h.name with
    | none => simpa [addName]
    | some t =>
      rw [addName_some]
      have := (hw.1 t hn).1
      cases y.1 <;> simp [this]
  | .list h prune max m, .list n ks, hw, hc => by
    intro x hx
    simp only [WellNamed, Conforms] at hw hc
    rw [rel_list] at hx
    simp only [List.mem_map] at hx
    obtain ⟨y, hy, rfl⟩ := hx
    have hy1 : y.1 ≠ some [] := by
      have hs : ∀ i ks, y ∈ relSlots sep p i ks → y.1 ≠ some [] := by
        intro i ks
        induction ks generalizing i with
        | nil => simp [relSlots]
        | cons k ks ih =>
          simp only [relSlots, List.mem_append, List.mem_map]
          rintro (⟨z, -, rfl⟩ | h)
          · simp only
            rw [addName_some]
            have := decimal_ne_nil i
            cases z.1 <;> simp [this]
          · exact ih _ h
      exact hs 0 ks hy
    obtain ⟨rfl, -⟩ := hc
    cases hn : h.name with
    | none => simpa [addName]
    | some t =>
      rw [addName_some]
      have := (hw.1 t hn).1
      cases y.1 <;> simp [this]
  | .array h prune m, .array n ks, hw, hc => by
    intro x hx
    simp only [WellNamed, Conforms] at hw hc
    rw [rel_array] at hx
    simp only [List.mem_map, relKids, List.mem_flatMap] at hx
    obtain ⟨y, ⟨k, hk, hy⟩, rfl⟩ := hx
    have := rel_key_ne_nil sep p m k hw.2.2 (hc.2 k hk) y hy
    obtain ⟨rfl, -⟩ := hc
    cases hn : h.name with
    | none => simpa [addName]
    | some t =>
      rw [addName_some]
      have := (hw.1 t hn).1
      cases y.1 <;> simp [this]
  | .scalar .., .dict .., _, hc | .scalar .., .list .., _, hc | .scalar .., .array .., _, hc | .scalar .., .absent, _, hc
  | .dict .., .scalar .., _, hc | .dict .., .list .., _, hc | .dict .., .array .., _, hc | .dict .., .absent, _, hc
  | .list .., .dict .., _, hc | .list .., .scalar .., _, hc | .list .., .array .., _, hc | .list .., .absent, _, hc
  | .array .., .dict .., _, hc | .array .., .list .., _, hc | .array .., .scalar .., _, hc | .array .., .absent, _, hc => by
    simp [Conforms] at hc
theorem relKids_key_ne_nil (sep : PStr) (p : Bool) (mode : DictMode) : ∀ (fs : List Schema) (ks : List Elem),
    WellNamedAll sep fs → ConformsAll mode fs ks → ∀ x ∈ relKids sep p ks, x.1 ≠ some []
  | [], [], _, _ => by simp [relKids]
  | f :: fs, k :: ks, hw, hc => by
    intro x hx
    simp only [WellNamedAll, ConformsAll] at hw hc
    simp only [relKids, List.flatMap_cons, List.mem_append] at hx
    rcases hx with hx | hx
    · rcases hc.1 with ⟨rfl, -⟩ | hc1
      · simp [rel_absent] at hx
      · exact rel_key_ne_nil sep p f k hw.1 hc1 x hx
    · exact relKids_key_ne_nil sep p mode fs ks hw.2 hc.2 x hx
  | [], _ :: _, _, hc | _ :: _, [], _, hc => by simp [ConformsAll] at hc
end

/-- keys emitted by a named element -/
theorem rel_key_under {sep : PStr} {p : Bool} {s : Schema} {e : Elem} {n : PStr} (hw : WellNamed sep s)
    (hc : Conforms s e) (hn : s.name = some n) : ∀ x ∈ rel sep p e, KeyUnder sep n x.1 := by
  intro x hx
  cases s <;> cases e <;> simp only [Conforms] at hc <;> simp only [Schema.name, Schema.hdr] at hn
  · rw [rel_scalar] at hx
    subst hc
    split at hx <;> simp at hx
    subst hx
    exact .inl hn
  · rename_i h mode po fs n' ks
    obtain ⟨rfl, hc⟩ := hc
    rw [rel_dict] at hx
    simp only [List.mem_map] at hx
    obtain ⟨y, hy, rfl⟩ := hx
    simp only [WellNamed] at hw
    rw [hn]
    exact keyUnder_addName (relKids_key_ne_nil sep p mode fs ks hw.2.2.2 hc y hy)
  · rename_i h prune max m n' ks
    obtain ⟨rfl, hc⟩ := hc
    rw [rel_list] at hx
    simp only [List.mem_map] at hx
    obtain ⟨y, hy, rfl⟩ := hx
    have := rel_key_ne_nil sep p (.list { h with name := none } prune max m) (.list none ks)
      (by simp only [WellNamed] at hw ⊢; exact ⟨by simp [GoodName], hw.2⟩) (by simp only [Conforms]; exact ⟨trivial, hc⟩) y
      (by rw [rel_list]; simp only [List.mem_map]; exact ⟨y, hy, rfl⟩)
    rw [hn]
    exact keyUnder_addName this
  · rename_i h prune m n' ks
    obtain ⟨rfl, hc⟩ := hc
    rw [rel_array] at hx
    simp only [List.mem_map] at hx
    obtain ⟨y, hy, rfl⟩ := hx
    have := rel_key_ne_nil sep p (.array { h with name := none } prune m) (.array none ks)
      (by simp only [WellNamed] at hw ⊢; exact ⟨by simp [GoodName], hw.2⟩) (by simp only [Conforms]; exact ⟨trivial, hc⟩) y
      (by rw [rel_array]; simp only [List.mem_map]; exact ⟨y, hy, rfl⟩)
    rw [hn]
    exact keyUnder_addName this

/-! ### owned keys and siblings -/

/-- keys a Dict or List with this name looks at -/
def ownsUnder (sep : PStr) : Option PStr → Option PStr → Prop
  | none, _ => True
  | some n, k => k = none ∨ ∃ x, k = some (n ++ sep ++ x)

/-- keys an Array with this name looks at -/
def ownsArray (sep : PStr) : Option PStr → Option PStr → Prop
  | none, _ => True
  | some n, k => k = none ∨ k = some n ∨ k = some (n ++ ['\n']) ∨ ∃ x, k = some (n ++ sep ++ x)

/-- keys that can influence `setFlat` of a schema in a position where siblings may be around -/
def owns (sep : PStr) : Schema → Option PStr → Prop
  | .scalar h _, k => k = h.name
  | .dict h _ _ _, k | .list h _ _ _, k => ownsUnder sep h.name k
  | .array h _ _, k => ownsArray sep h.name k

theorem prefix_of_append_eq {α} {a b x y : List α} (h : a ++ x = b ++ y) (hl : a.length ≤ b.length) : a <+: b := by
  rcases List.append_eq_append_iff.1 h with ⟨c, rfl, -⟩ | ⟨c, rfl, -⟩
  · exact List.prefix_append ..
  · have : c = [] := by
      simp only [List.length_append] at hl
      exact List.eq_nil_of_length_eq_zero (by omega)
    subst this; simp

/-- a key emitted by a sibling is not owned -/
theorem not_owned_of_sibling {sep : PStr} {mode : DictMode} {f g : Schema} {fn gn : PStr} {k : Option PStr}
    (hf : f.name = some fn) (hg : g.name = some gn) (hcomp : Compatible sep mode f g) (hgn : '\n' ∉ gn)
    (hk : k = some gn ∨ isContainer g = true ∧ ∃ x, x ≠ [] ∧ k = some (gn ++ sep ++ x)) : ¬ owns sep f k := by
  obtain ⟨hne, h1, h2, -⟩ := hcomp fn gn hf hg
  have hs : k ≠ some fn := by
    rcases hk with rfl | ⟨hcg, x, hx, rfl⟩
    · simpa using fun h => hne h.symm
    · intro h
      refine h2 hcg ?_
      simp only [Option.some.injEq] at h
      rw [← h, List.append_assoc]
      simp
  have hd : isContainer f = true → ¬ ∃ x, k = some (fn ++ sep ++ x) := by
    rintro hcf ⟨x, hx⟩
    rcases hk with rfl | ⟨hcg, y, hy, rfl⟩
    · simp only [Option.some.injEq] at hx
      exact h1 hcf ⟨x ++ sep, by rw [hx]; simp⟩
    · simp only [Option.some.injEq] at hx
      rcases Nat.le_total (fn ++ sep).length (gn ++ sep).length with h | h
      · exact h1 hcf (prefix_of_append_eq hx.symm h)
      · exact h2 hcg (prefix_of_append_eq hx h)
  have hkn : k ≠ none := by rcases hk with rfl | ⟨_, x, _, rfl⟩ <;> simp
  have hnl : k ≠ some (fn ++ ['\n']) := by
    rcases hk with rfl | ⟨hcg, x, hx, rfl⟩
    · intro h
      simp only [Option.some.injEq] at h
      apply hgn; rw [h]; simp
    · intro h
      simp only [Option.some.injEq] at h
      refine h2 hcg ?_
      have hlen := congrArg List.length h
      have hx' : 0 < x.length := by cases x <;> simp at hx ⊢
      simp only [List.length_append, List.length_cons, List.length_nil] at hlen
      have : gn ++ sep <+: fn := prefix_of_append_eq (y := ['\n']) (b := fn) h (by simp only [List.length_append]; omega)
      exact this.trans (List.prefix_append ..)
  cases f with
  | scalar h t =>
    simp only [owns]
    simp only [Schema.name, Schema.hdr] at hf
    rw [hf]; exact hs
  | dict h mo po fs =>
    simp only [Schema.name, Schema.hdr] at hf
    simp only [owns, ownsUnder, ownsArray, hf]
    rintro (h | h)
    · exact hkn h
    · exact hd rfl h
  | list h pr ma m =>
    simp only [Schema.name, Schema.hdr] at hf
    simp only [owns, ownsUnder, ownsArray, hf]
    rintro (h | h)
    · exact hkn h
    · exact hd rfl h
  | array h pr m =>
    simp only [Schema.name, Schema.hdr] at hf
    simp only [owns, ownsUnder, ownsArray, hf]
    rintro (h | h | h | h)
    · exact hkn h
    · exact hs h
    · exact hnl h
    · exact hd rfl h

/-- a scalar emits only its own name -/
theorem rel_key_container {sep : PStr} {p : Bool} {s : Schema} {e : Elem} {n : PStr} (hw : WellNamed sep s)
    (hc : Conforms s e) (hn : s.name = some n) : ∀ x ∈ rel sep p e,
    x.1 = some n ∨ isContainer s = true ∧ ∃ y, y ≠ [] ∧ x.1 = some (n ++ sep ++ y) := by
  intro x hx
  cases s with
  | scalar h t =>
    cases e <;> simp only [Conforms] at hc
    rw [rel_scalar] at hx
    subst hc
    split at hx <;> simp at hx
    subst hx
    exact .inl hn
  | dict | list | array =>
    rcases rel_key_under hw hc hn x hx with h | h
    · exact .inl h
    · exact .inr ⟨rfl, h⟩

/-! ### the List regular expression on canonical keys -/

variable [Runtime]

theorem takeWhile_digits_decimal (i : Nat) (r : PStr) (hr : ∀ c, r.head? = some c → digit c = none) :
    (decimal i ++ r).takeWhile isDigit' = decimal i := by
  have h1 : ∀ c ∈ decimal i, isDigit' c = true := by
    intro c hc
    obtain ⟨d, hd, rfl⟩ := decimal_mem hc
    simp [isDigit', digit_digitChar hd]
  rw [List.takeWhile_append_of_pos h1]
  cases r with
  | nil => simp
  | cons c cs =>
    have := hr c rfl
    simp [isDigit', this]

theorem idxTail_decimal_end {sep : PStr} (hs : GoodSep sep) (i : Nat) :
    idxTail sep (decimal i) (decimal i).length = some (decimal i, []) := by
  obtain ⟨c, cs, rfl, hc⟩ := hs
  have h0 := decimal_ne_nil i
  cases hl : (decimal i).length with
  | zero => simp_all
  | succ n =>
    rw [idxTail]
    simp [← hl, startsWith]

omit [Runtime] in
theorem idxTail_decimal_sep {sep : PStr} (i : Nat) (x : PStr) :
    idxTail sep (decimal i ++ (sep ++ x)) (decimal i).length = some (decimal i, x) := by
  have h0 := decimal_ne_nil i
  cases hl : (decimal i).length with
  | zero => simp_all
  | succ n =>
    rw [idxTail]
    simp [← hl, startsWith]

/-- slot part of a canonical key -/
def slotKey (sep : PStr) (i : Nat) (ck : Option PStr) : PStr :=
  match ck with
  | none => decimal i
  | some x => decimal i ++ sep ++ x

omit [Runtime] in
theorem addName_decimal (sep : PStr) (i : Nat) (ck : Option PStr) :
    addName sep (some (decimal i)) ck = some (slotKey sep i ck) := addName_some ..

theorem idxTail_slotKey {sep : PStr} (hs : GoodSep sep) (i : Nat) (ck : Option PStr) :
    idxTail sep (slotKey sep i ck) ((slotKey sep i ck).takeWhile isDigit').length = some (decimal i, ck.getD []) := by
  cases ck with
  | none =>
    simp only [slotKey]
    have := takeWhile_digits_decimal i [] (by simp)
    simp only [List.append_nil] at this
    rw [this]; exact idxTail_decimal_end hs i
  | some x =>
    simp only [slotKey]
    rw [List.append_assoc, takeWhile_digits_decimal i, idxTail_decimal_sep]; rfl
    obtain ⟨c, cs, rfl, hc⟩ := hs
    simp [hc]

theorem idxMatch_canonical {sep : PStr} (hs : GoodSep sep) {name : Option PStr} (hn : GoodName name) (i : Nat)
    (ck : Option PStr) (hck : ck ≠ some []) :
    ∃ k, addName sep name (addName sep (some (decimal i)) ck) = some k ∧ idxMatch sep name k = some (i, ck) := by
  have hor : orNone (ck.getD []) = ck := by
    clear hn
    cases ck with
    | none => rfl
    | some x =>
      cases x with
      | nil => exact absurd rfl hck
      | cons => rfl
  rw [addName_decimal]
  cases name with
  | none =>
    refine ⟨_, rfl, ?_⟩
    simp only [idxMatch, idxPrefix, truthyName, startsWith, List.isPrefixOf_nil_left, if_true, List.length_nil, List.drop_zero,
      idxTail_slotKey hs, digitsAcc_decimal, hor, Option.map_some]
  | some n =>
    refine ⟨n ++ sep ++ slotKey sep i ck, rfl, ?_⟩
    have hnn : truthyName (some n) = some n := by
      have := (hn n rfl).1
      cases n <;> simp_all [truthyName]
    have hsw : startsWith (n ++ sep ++ slotKey sep i ck) (n ++ sep) = true := by
      rw [startsWith_iff]; exact List.prefix_append ..
    simp only [idxMatch, idxPrefix, hnn, hsw, if_true, List.drop_left,
      idxTail_slotKey hs, digitsAcc_decimal, hor, Option.map_some]

theorem idxMatch_owned {sep : PStr} {name : Option PStr} (hn : GoodName name) {k : PStr} {r} (h : idxMatch sep name k = some r) :
    ownsUnder sep name (some k) := by
  cases name with
  | none => trivial
  | some n =>
    have hnn : truthyName (some n) = some n := by
      have := (hn n rfl).1
      cases n <;> simp_all [truthyName]
    simp only [idxMatch, idxPrefix, hnn] at h
    split at h
    · rename_i hs
      rw [startsWith_iff] at hs
      obtain ⟨t, rfl⟩ := hs
      exact .inr ⟨t, rfl⟩
    · simp at h

theorem idxMatch_childKey {sep : PStr} {name : Option PStr} {k : PStr} {r} (h : idxMatch sep name k = some r) :
    r.2 ≠ some [] := by
  simp only [idxMatch] at h
  split at h
  · split at h
    · simp only [Option.map_eq_some_iff] at h
      obtain ⟨n, hn, rfl⟩ := h
      rename_i rest _
      cases rest <;> simp [orNone]
    · simp at h
  · simp at h

end Flatland
