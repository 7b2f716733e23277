import Verif.Proofs.Context
/-
C55: scopes of generator options.
-/
namespace Flatland
open Spec

/-- A new generator has its settings in effect, and the documented defaults for all other options. -/
theorem C55_new (settings : List (PStr × HtmlVal)) (h : (Ctx.generator settings).2 = .none) :
    ∀ p ∈ documentedDefaults, inEffect (Ctx.generator settings).1 p.1 = some ((settingOf settings p.1).getD p.2) := by
  have hspec := (update_spec settings (Ctx.mk (dictPut defaultFrame kOrdered (.bool true)) [dictPut defaultFrame kOrdered (.bool true)])).2.2.2.2 h
  have hbase : ∀ p ∈ documentedDefaults, dictGet (dictPut defaultFrame kOrdered (.bool true)) p.1 = some p.2 := by decide +kernel
  intro p hp
  unfold inEffect Ctx.generator
  rw [hspec, update_get_last, hbase p hp]
  cases settingOf settings p.1 <;> rfl

/-- A begin with an unknown option raises KeyError and changes nothing. -/
theorem C55_begin_fails (c : Ctx) (settings : List (PStr × HtmlVal)) (h : ∃ p ∈ settings, inEffect c p.1 = .none) :
    c.begin settings = (c, some .key) := (push_spec c settings).1 h

/-- A begin with known options succeeds; then its settings are in effect, and everything else is as outside. -/
theorem C55_begin (c : Ctx) (settings : List (PStr × HtmlVal)) (h : ∀ p ∈ settings, (inEffect c p.1).isSome) :
    ∃ c', c.begin settings = (c', .none) ∧ ∀ k, inEffect c' k = (settingOf settings k).or (inEffect c k) := by
  refine ⟨_, (push_spec c settings).2 h, ?_⟩
  intro k
  show dictGet _ k = _
  rw [update_get_last]
  unfold inEffect
  cases settingOf settings k <;> rfl

/-- Push and pop at the level of the context. -/
theorem C55_push_pop (c : Ctx) (settings : List (PStr × HtmlVal)) (h : ∀ p ∈ settings, (inEffect c p.1).isSome) :
    (c.push settings).2 = .none ∧ (c.push settings).1.pop = (c, .none) := by
  rw [(push_spec c settings).2 h]
  exact ⟨rfl, rfl⟩

/-- The base frame cannot be popped. -/
theorem C55_base (top : OptFrame) : (Ctx.mk top []).pop = (Ctx.mk top [], some .runtime) := rfl

section
variable [Casing] [Runtime]

theorem reachable_keys {c : Ctx} (h : ReachableGen c) :
    (∀ f ∈ c.top :: c.below, ∀ k, (dictGet f k).isSome = (dictGet (dictPut defaultFrame kOrdered (.bool true)) k).isSome) := by
  obtain ⟨settings, ops, _, rfl⟩ := h
  have h0 : ∀ f ∈ (Ctx.generator settings).1.top :: (Ctx.generator settings).1.below, ∀ k,
      (dictGet f k).isSome = (dictGet (dictPut defaultFrame kOrdered (.bool true)) k).isSome := by
    have := update_spec settings (Ctx.mk (dictPut defaultFrame kOrdered (.bool true)) [dictPut defaultFrame kOrdered (.bool true)])
    intro f hf k
    simp only [Ctx.generator] at hf
    rw [this.1] at hf
    simp only [List.mem_cons, List.not_mem_nil, or_false] at hf
    rcases hf with rfl | rfl
    · exact this.2.1 k
    · rfl
  have gen : ∀ (ops : List GenOp) (c : Ctx), (∀ f ∈ c.top :: c.below, ∀ k, (dictGet f k).isSome = (dictGet (dictPut defaultFrame kOrdered (.bool true)) k).isSome) →
      ∀ f ∈ (runGen c ops).top :: (runGen c ops).below, ∀ k, (dictGet f k).isSome = (dictGet (dictPut defaultFrame kOrdered (.bool true)) k).isSome := by
    intro ops
    induction ops with
    | nil => intro c h; exact h
    | cons o ops ih => intro c h; exact ih _ (run_keys o c _ h)
  exact gen ops _ h0

theorem reachable_depth {c : Ctx} (h : ReachableGen c) : 2 ≤ c.depth := by
  obtain ⟨settings, ops, _, rfl⟩ := h
  have h0 : (Ctx.generator settings).1.depth = 2 := by
    unfold Ctx.depth Ctx.generator
    simp only [(update_spec settings _).1]
    rfl
  have gen : ∀ (ops : List GenOp) (c : Ctx), 2 ≤ c.depth → 2 ≤ (runGen c ops).depth := by
    intro ops
    induction ops with
    | nil => intro c h; exact h
    | cons o ops ih =>
      intro c h
      refine ih _ ?_
      cases o with
      | «end» =>
        show 2 ≤ c.end.1.depth
        unfold Ctx.end
        by_cases hne : c.depth = 2
        · rw [if_pos hne]; exact h
        · rw [if_neg hne]
          unfold Ctx.pop
          cases hr : c.below with
          | nil => exact h
          | cons f r =>
            unfold Ctx.depth at *
            rw [hr] at h hne
            simp only [List.length_cons] at h hne ⊢
            omega
      | begin ps =>
        rcases run_shape (.begin ps) c with hs | hs | hs
        · unfold Ctx.depth at *; rw [hs]; exact h
        · unfold Ctx.depth at *; rw [hs]; simp
        · exfalso
          have : ((GenOp.run c (.begin ps)).1.below.length) ≥ c.below.length := by
            show ((c.push ps).1.below.length) ≥ c.below.length
            by_cases hu : ∃ p ∈ ps, dictGet c.top p.1 = .none
            · rw [(push_spec c ps).1 hu]; exact Nat.le_refl _
            · rw [(push_spec c ps).2 (by
                intro p hp
                cases he : dictGet c.top p.1 with
                | none => exact absurd ⟨p, hp, he⟩ hu
                | some _ => rfl)]
              simp
          have h2 := congrArg List.length hs
          simp at h2
          omega
      | set ps => show 2 ≤ (c.set ps).1.depth; unfold Ctx.depth at *; rw [(set_spec ps c).1]; exact h
      | update ps => show 2 ≤ (c.update ps).1.depth; unfold Ctx.depth at *; rw [(update_spec ps c).1]; exact h
      | setItem k v => show 2 ≤ (c.setItem k v).1.depth; unfold Ctx.setItem; split <;> exact h
      | tag u => show 2 ≤ (c.tag u).1.depth; unfold Ctx.tag; split <;> exact h
  exact gen ops _ (by omega)

/-- Whatever happens in a scope — nested scopes, changed options, tags that advance the tab index, exceptions — its end brings back exactly
the options from before its begin, in all scopes. -/
theorem C55_restores {c : Ctx} (hr : ReachableGen c) (settings : List (PStr × HtmlVal)) (h : ∀ p ∈ settings, (inEffect c p.1).isSome)
    (body : List GenOp) (hb : StaysInside (c.begin settings).1 body) : (runGen (c.begin settings).1 body).end = (c, .none) := by
  have e : c.begin settings = (⟨settings.foldl (fun d p => dictPut d p.1 p.2) c.top, c.top :: c.below⟩, .none) := (push_spec c settings).2 h
  rw [e] at hb ⊢
  simp only [] at hb ⊢
  obtain ⟨hb1, hb2⟩ := hb
  obtain ⟨l, hl⟩ := inside_below (c.top :: c.below) body _ ⟨[], rfl⟩ hb1
  have hlen : l = [] := by
    unfold Ctx.depth at hb2
    rw [hl] at hb2
    simp at hb2
    exact hb2
  subst hlen
  have hd := reachable_depth hr
  unfold Ctx.end
  rw [if_neg (by rw [hb2]; show c.below.length + 1 + 1 ≠ 2; unfold Ctx.depth at hd; omega)]
  unfold Ctx.pop
  rw [hl]
  rfl

omit [Casing] [Runtime] in
/-- An end without a begin raises RuntimeError and changes nothing. -/
theorem C55_end_unmatched {c : Ctx} (h : c.depth = 2) : c.end = (c, some .runtime) := by
  unfold Ctx.end
  rw [if_pos h]

/-- Any operation but begin and end stays in the current scope: it leaves the options of the outer scopes alone. -/
theorem C55_outer (o : GenOp) (c : Ctx) (h1 : ∀ s, o ≠ .begin s) (h2 : o ≠ .end) : (o.run c).1.below = c.below := by
  cases o with
  | begin s => exact absurd rfl (h1 s)
  | «end» => exact absurd rfl h2
  | set ps => exact (set_spec ps c).1
  | update ps => exact (update_spec ps c).1
  | setItem k v => show (c.setItem k v).1.below = _; unfold Ctx.setItem; split <;> rfl
  | tag u => show (c.tag u).1.below = _; unfold Ctx.tag; split <;> rfl

/-- The set of options never changes: it is the one documented, in every scope, after any history. -/
theorem C55_options {c : Ctx} (h : ReachableGen c) (k : PStr) : (inEffect c k).isSome ↔ k = "ordered_attributes".toList ∨ k ∈ documentedOptions := by
  show _ ↔ k = kOrdered ∨ _
  rw [documented_default]
  unfold inEffect
  rw [reachable_keys h c.top (by simp) k, dictGet_put]
  split
  · rename_i e; simp [e]
  · rename_i hne
    simp only [hne, false_or]
    constructor
    · intro hs
      refine Classical.byContradiction fun hn => ?_
      rw [dictGet_none.2 hn] at hs
      cases hs
    · intro hm
      cases he : dictGet defaultFrame k with
      | none => exact absurd hm (dictGet_none.1 he)
      | some _ => rfl

/-- So the transforms (C54, C56 – C59) always find the options they need. -/
theorem C55_full {c : Ctx} (h : ReachableGen c) : FullFrame c.top := fun k hk => (C55_options h k).2 (.inr hk)

/-- **C55.** `gen[option]` reads what is in effect: it raises a KeyError exactly for what is no option, as `in` tells. -/
theorem C55_read {c : Ctx} (h : ReachableGen c) (k : PStr) :
    (c.contains k = true ↔ k = "ordered_attributes".toList ∨ k ∈ documentedOptions) ∧
    (c.contains k = true → ∃ v, c.getItem k = .ok v ∧ inEffect c k = some v) ∧ (c.contains k = false → c.getItem k = .error .key) := by
  refine ⟨C55_options h k, ?_, ?_⟩ <;> intro hk <;> unfold Ctx.contains at hk <;> unfold Ctx.getItem
  · obtain ⟨v, hv⟩ := Option.isSome_iff_exists.1 hk
    exact ⟨v, by rw [hv], hv⟩
  · rw [Option.isSome_eq_false_iff, Option.isNone_iff_eq_none] at hk
    rw [hk]

omit [Casing] [Runtime] in
/-- **C55.** `gen[option] = value` is read back, and leaves the other options and the outer scopes alone; what is no option is refused with nothing changed. -/
theorem C55_item (c : Ctx) (k : PStr) (v : HtmlVal) :
    (c.contains k = true → (c.setItem k v).2 = .none ∧ (c.setItem k v).1.getItem k = .ok v ∧ (c.setItem k v).1.below = c.below ∧
      ∀ k', k' ≠ k → (c.setItem k v).1.getItem k' = c.getItem k' ∧ (c.setItem k v).1.contains k' = c.contains k') ∧
    (c.contains k = false → c.setItem k v = (c, some .key)) := by
  constructor <;> intro hk
  · unfold Ctx.setItem
    rw [if_pos hk]
    refine ⟨rfl, ?_, rfl, fun k' hne => ?_⟩
    · simp [Ctx.getItem, dictGet_put]
    · simp [Ctx.getItem, Ctx.contains, dictGet_put, hne]
  · unfold Ctx.setItem
    simp [hk]

/-- `set` changes the options of the current scope: switches are read as on, off or auto, other values are taken as they are. -/
theorem C55_set (c : Ctx) (settings : List (PStr × HtmlVal)) (hn : (settings.map Prod.fst).Nodup) (h : ∀ p ∈ settings, (inEffect c p.1).isSome) :
    (c.set settings).2 = .none ∧
    (∀ p ∈ settings, inEffect (c.set settings).1 p.1 = some (if "auto_".toList <+: p.1 then parseTrool p.2 else p.2)) ∧
    (∀ k, (∀ p ∈ settings, p.1 ≠ k) → inEffect (c.set settings).1 k = inEffect c k) := by
  obtain ⟨_, _, _, h4, h5⟩ := set_spec settings c
  have ho := h4.2 h
  have ht := h5 ho
  refine ⟨ho, ?_, ?_⟩
  · intro p hp
    unfold inEffect
    rw [ht, update_get_last]
    have hs : settingOf (settings.map fun p => (p.1, if "auto_".toList.isPrefixOf p.1 then parseTrool p.2 else p.2)) p.1 =
        some (if "auto_".toList <+: p.1 then parseTrool p.2 else p.2) := by
      unfold settingOf
      rw [dictOf_get]
      obtain ⟨l, r, rfl⟩ := List.append_of_mem hp
      refine ⟨l.map (fun p => (p.1, if "auto_".toList.isPrefixOf p.1 then parseTrool p.2 else p.2)),
        r.map (fun p => (p.1, if "auto_".toList.isPrefixOf p.1 then parseTrool p.2 else p.2)), ?_, ?_⟩
      · simp only [List.map_append, List.map_cons, List.isPrefixOf_iff_prefix]
      · intro q hq he
        obtain ⟨q', hq', rfl⟩ := List.mem_map.1 hq
        simp only [List.map_append, List.map_cons, List.nodup_append, List.nodup_cons] at hn
        exact hn.2.1.1 (List.mem_map.2 ⟨q', hq', he⟩)
    rw [hs]
  · intro k hk
    unfold inEffect
    rw [ht, update_get_last]
    have hs : settingOf (settings.map fun p => (p.1, if "auto_".toList.isPrefixOf p.1 then parseTrool p.2 else p.2)) k = .none := by
      cases he : settingOf (settings.map fun p => (p.1, if "auto_".toList.isPrefixOf p.1 then parseTrool p.2 else p.2)) k with
      | none => rfl
      | some v =>
        unfold settingOf at he
        obtain ⟨l, r, hl, _⟩ := (dictOf_get _ _ _).1 he
        have : (k, v) ∈ settings.map fun p => (p.1, if "auto_".toList.isPrefixOf p.1 then parseTrool p.2 else p.2) := by rw [hl]; simp
        obtain ⟨q, hq, hqe⟩ := List.mem_map.1 this
        simp only [Prod.mk.injEq] at hqe
        exact absurd hqe.1 (hk q hq)
    rw [hs]

/-- `set` with an unknown option raises TypeError. -/
theorem C55_set_unknown (c : Ctx) (settings : List (PStr × HtmlVal)) (h : ∃ p ∈ settings, inEffect c p.1 = .none) : (c.set settings).2 = some .type := by
  obtain ⟨_, _, h3, h4, _⟩ := set_spec settings c
  refine h3.resolve_left fun he => ?_
  obtain ⟨p, hp, hn⟩ := h
  have := h4.1 he p hp
  unfold inEffect at hn
  rw [hn] at this
  cases this

end

section examples
attribute [local instance] Runtime.ascii Spec.asciiCasing

def freshGen : Ctx := (Ctx.generator [(kTabindex, .int 1)]).1

example : ReachableGen freshGen := ⟨[(kTabindex, .int 1)], [], by decide +kernel, rfl⟩

/-- a scope with a nested scope, a change, a failing begin and a tag -/
def scopeBody : List GenOp :=
  [.set [(kAutoTabindex, .text "on".toList)], .begin [("nonsense".toList, .none)], .begin [(kAutoName, .bool false)], .setItem kDomidFormat (.text "x%s".toList),
   .end, .tag ⟨"p".toList, .none, [], .none⟩]

example : StaysInside (freshGen.begin [(kAutoDomid, .bool true)]).1 scopeBody := by
  constructor
  · intro n
    match n with
    | 0 | 1 | 2 | 3 | 4 | 5 => decide +kernel
    | n + 6 =>
      have : scopeBody.take (n + 6) = scopeBody := List.take_of_length_le (by simp [scopeBody])
      rw [this]
      decide +kernel
  · decide +kernel

/-- The same operations do change the options until the end. -/
example : inEffect (runGen (freshGen.begin [(kAutoDomid, .bool true)]).1 scopeBody) kAutoTabindex = some (.bool true) ∧
    inEffect (runGen (freshGen.begin [(kAutoDomid, .bool true)]).1 scopeBody) kAutoDomid = some (.bool true) ∧
    inEffect freshGen kAutoTabindex = some (.bool false) := by decide +kernel

/-- Unlike a failing begin, a failing `set` keeps what it changed before it came to the unknown option. -/
theorem C55_set_not_atomic : ∃ settings, (freshGen.set settings).2 = some .type ∧
    inEffect (freshGen.set settings).1 kAutoName = some (.bool false) ∧ inEffect freshGen kAutoName = some (.bool true) :=
  ⟨[(kAutoName, .text "off".toList), ("nonsense".toList, .none)], by decide +kernel⟩

example : freshGen.contains kAutoName = true ∧ freshGen.contains "nonsense".toList = false := by decide +kernel
example : (freshGen.setItem kAutoName (.bool false)).1.getItem kAutoName = .ok (.bool false) :=
  ((C55_item freshGen kAutoName (.bool false)).1 (by decide +kernel)).2.1

end examples

end Flatland
