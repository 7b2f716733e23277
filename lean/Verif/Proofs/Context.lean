import Verif.Spec.Context
import Verif.Proofs.MarkupTags
/-
Lemmas for C55.
-/
namespace Flatland
open Spec

theorem setItem_known {c : Ctx} {k : PStr} (h : (dictGet c.top k).isSome) (v : HtmlVal) : c.setItem k v = ({ c with top := dictPut c.top k v }, .none) := by
  unfold Ctx.setItem Ctx.contains
  rw [if_pos h]

theorem setItem_unknown {c : Ctx} {k : PStr} (h : dictGet c.top k = .none) (v : HtmlVal) : c.setItem k v = (c, some .key) := by
  unfold Ctx.setItem Ctx.contains
  rw [h]
  rfl

theorem put_isSome {f : OptFrame} {k : PStr} (h : (dictGet f k).isSome) (v : HtmlVal) (k' : PStr) : (dictGet (dictPut f k v) k').isSome = (dictGet f k').isSome := by
  rw [dictGet_put]
  split
  · rename_i e; rw [e, h]; rfl
  · rfl

/-- what an update does -/
theorem update_spec (ps : List (PStr × HtmlVal)) : ∀ c : Ctx,
    (c.update ps).1.below = c.below ∧ (∀ k, (dictGet (c.update ps).1.top k).isSome = (dictGet c.top k).isSome) ∧
    ((c.update ps).2 = .none ∨ (c.update ps).2 = some .key) ∧
    ((c.update ps).2 = .none ↔ ∀ p ∈ ps, (dictGet c.top p.1).isSome) ∧
    ((c.update ps).2 = .none → (c.update ps).1.top = ps.foldl (fun d p => dictPut d p.1 p.2) c.top) := by
  induction ps with
  | nil => intro c; simp [Ctx.update]
  | cons p ps ih =>
    intro c
    obtain ⟨k, v⟩ := p
    rw [Ctx.update]
    cases h : dictGet c.top k with
    | none =>
      rw [setItem_unknown h]
      refine ⟨rfl, fun _ => rfl, .inr rfl, ?_, ?_⟩
      · simp [h]
      · simp
    | some x =>
      have hs : (dictGet c.top k).isSome := by rw [h]; rfl
      rw [setItem_known hs]
      obtain ⟨h1, h2, h3, h4, h5⟩ := ih { c with top := dictPut c.top k v }
      refine ⟨h1, fun k' => by rw [h2]; exact put_isSome hs v k', h3, ?_, h5⟩
      rw [h4]
      simp only [List.mem_cons, forall_eq_or_imp, put_isSome hs, hs, true_and]

theorem update_get_last (ps : List (PStr × HtmlVal)) (f : OptFrame) (k : PStr) :
    dictGet (ps.foldl (fun d p => dictPut d p.1 p.2) f) k = match settingOf ps k with | some v => some v | .none => dictGet f k := by
  generalize hn : ps.length = n
  induction n generalizing ps with
  | zero => cases List.length_eq_zero_iff.1 hn; rfl
  | succ n ih =>
    rcases eq_nil_or_snoc ps with rfl | ⟨ps, q, rfl⟩
    · simp at hn
    have ih := ih ps (by simp at hn; exact hn)
    unfold settingOf at *
    rw [dictOf_get_append, List.foldl_append, List.foldl_cons, List.foldl_nil, dictGet_put]
    split
    · rfl
    · exact ih

theorem push_spec (c : Ctx) (ps : List (PStr × HtmlVal)) :
    ((∃ p ∈ ps, dictGet c.top p.1 = .none) → c.push ps = (c, some .key)) ∧
    ((∀ p ∈ ps, (dictGet c.top p.1).isSome) → c.push ps = (⟨ps.foldl (fun d p => dictPut d p.1 p.2) c.top, c.top :: c.below⟩, .none)) := by
  obtain ⟨h1, h2, h3, h4, h5⟩ := update_spec ps (Ctx.mk c.top (c.top :: c.below))
  constructor
  · rintro ⟨p, hp, hn⟩
    have hne : ((Ctx.mk c.top (c.top :: c.below)).update ps).2 ≠ .none := by
      intro he
      have := h4.1 he p hp
      simp only [hn, Option.isSome_none, Bool.false_eq_true] at this
    have hk := h3.resolve_left hne
    unfold Ctx.push
    generalize (Ctx.mk c.top (c.top :: c.below)).update ps = r at *
    obtain ⟨c', e⟩ := r
    simp only [] at hk h1
    subst hk
    simp only []
    unfold Ctx.pop
    rw [h1]
  · intro hall
    have hn := h4.2 hall
    have ht := h5 hn
    unfold Ctx.push
    generalize (Ctx.mk c.top (c.top :: c.below)).update ps = r at *
    obtain ⟨c', e⟩ := r
    simp only [] at hn h1 ht
    subst hn
    simp only []
    cases c'
    simp only [] at h1 ht
    rw [h1, ht]

section
variable [Casing] [Runtime]

theorem set_spec (ps : List (PStr × HtmlVal)) : ∀ c : Ctx,
    (c.set ps).1.below = c.below ∧ (∀ k, (dictGet (c.set ps).1.top k).isSome = (dictGet c.top k).isSome) ∧
    ((c.set ps).2 = .none ∨ (c.set ps).2 = some .type) ∧
    ((c.set ps).2 = .none ↔ ∀ p ∈ ps, (dictGet c.top p.1).isSome) ∧
    ((c.set ps).2 = .none → (c.set ps).1.top =
      (ps.map fun p => (p.1, if "auto_".toList.isPrefixOf p.1 then parseTrool p.2 else p.2)).foldl (fun d p => dictPut d p.1 p.2) c.top) := by
  induction ps with
  | nil => intro c; simp [Ctx.set]
  | cons p ps ih =>
    intro c
    obtain ⟨k, v⟩ := p
    rw [Ctx.set]
    cases h : dictGet c.top k with
    | none =>
      have : c.contains k = false := by unfold Ctx.contains; rw [h]; rfl
      rw [if_neg (by simp [this])]
      refine ⟨rfl, fun _ => rfl, .inr rfl, ?_, ?_⟩
      · simp [h]
      · simp
    | some x =>
      have hs : (dictGet c.top k).isSome := by rw [h]; rfl
      have : c.contains k = true := by unfold Ctx.contains; exact hs
      rw [if_pos this, setItem_known hs]
      simp only [List.map_cons, List.foldl_cons]
      generalize (if "auto_".toList.isPrefixOf k then parseTrool v else v) = w
      obtain ⟨h1, h2, h3, h4, h5⟩ := ih { c with top := dictPut c.top k w }
      refine ⟨h1, fun k' => by rw [h2]; exact put_isSome hs w k', h3, ?_, h5⟩
      rw [h4]
      simp only [List.mem_cons, forall_eq_or_imp, put_isSome hs, hs, true_and]

/-- one operation leaves the outer frames alone, or enters a scope on top of them, or leaves one -/
inductive Shape (c c' : Ctx) : Prop
  | stay (h : c'.below = c.below)
  | enter (h : c'.below = c.top :: c.below)
  | leave (h : c.below = c'.top :: c'.below)

theorem tag_frame {u : TagUse} {c : Ctx} {s : TagState} (h : transformTag [] u.tag u.bound ⟨u.attrs, u.contents, c.top⟩ = .ok s) :
    s.frame = c.top ∨ ((dictGet c.top kTabindex).isSome ∧ ∃ n, s.frame = dictPut c.top kTabindex (.int n)) := by
  unfold transformTag at h
  obtain ⟨s1, e1, h⟩ := bind_ok h
  obtain ⟨s2, e2, h⟩ := bind_ok h
  obtain ⟨s3, e3, h⟩ := bind_ok h
  obtain ⟨s4, e4, h⟩ := bind_ok h
  obtain ⟨s5, e5, h⟩ := bind_ok h
  have pop : ∀ {key : PStr} {s p f s'}, popToggle key s = .ok (p, f, s') → s'.frame = s.frame := by
    intro key s p f s' h
    unfold popToggle at h
    simp only [] at h
    split at h
    · split at h
      · cases h
      · split at h <;> simp only [Except.ok.injEq, Prod.mk.injEq] at h <;> rw [← h.2.2] <;> rfl
    · simp only [Except.ok.injEq, Prod.mk.injEq] at h
      rw [← h.2.2]; rfl
  have f1 : s1.frame = c.top := by
    unfold transformName at e1
    obtain ⟨⟨p, f, t⟩, hp, e1⟩ := bind_ok e1
    have := pop hp
    simp only [] at e1 this
    rw [← this]
    split at e1
    · cases e1; rfl
    · repeat' (split at e1)
      all_goals (cases e1; rfl)
  have f2 : s2.frame = s1.frame := by
    unfold transformValue at e2
    obtain ⟨⟨p, f, t⟩, hp, e2⟩ := bind_ok e2
    have := pop hp
    simp only [] at e2
    rw [← this]
    split at e2
    · cases e2; rfl
    · rename_i b _
      split at e2
      · cases e2; rfl
      · split at e2
        · cases e2; rfl
        · split at e2
          · split at e2
            · have hb : ∀ cb, (boxValue b cb t).2.frame = t.frame := by
                intro cb
                unfold boxValue
                split
                · split <;> rfl
                · rfl
              obtain ⟨on, _, e2⟩ := bind_ok e2
              cases e2
              unfold markAs
              split <;> exact hb _
            · split at e2
              · split at e2 <;> (cases e2; rfl)
              · cases e2; unfold fillValue; split <;> rfl
          · split at e2
            · obtain ⟨on, _, e2⟩ := bind_ok e2
              cases e2
              unfold markAs
              split <;> rfl
            · split at e2
              · split at e2 <;> (cases e2; rfl)
              · cases e2; unfold fillValue; split <;> rfl
  have f3 : s3.frame = s2.frame := by
    unfold transformDomid at e3
    obtain ⟨⟨p, f, t⟩, hp, e3⟩ := bind_ok e3
    have := pop hp
    simp only [] at e3
    rw [← this]
    split at e3
    · cases e3; rfl
    · split at e3
      · obtain ⟨raw, _, e3⟩ := bind_ok e3
        split at e3
        · cases e3; rfl
        · obtain ⟨x, _, e3⟩ := bind_ok e3
          cases e3; rfl
      · cases e3; rfl
  have f4 : s4.frame = s3.frame := by
    unfold transformFor at e4
    obtain ⟨⟨p, f, t⟩, hp, e4⟩ := bind_ok e4
    have := pop hp
    simp only [] at e4
    rw [← this]
    split at e4
    · cases e4; rfl
    · split at e4
      · cases e4; rfl
      · split at e4
        · obtain ⟨raw, _, e4⟩ := bind_ok e4
          split at e4
          · cases e4; rfl
          · obtain ⟨x, _, e4⟩ := bind_ok e4
            cases e4; rfl
        · cases e4; rfl
  have f5 : s5.frame = s4.frame ∨ ((dictGet s4.frame kTabindex).isSome ∧ ∃ n, s5.frame = dictPut s4.frame kTabindex (.int n)) := by
    unfold transformTabindex at e5
    obtain ⟨⟨p, f, t⟩, hp, e5⟩ := bind_ok e5
    have := pop hp
    simp only [] at e5
    rw [← this]
    split at e5
    · cases e5; exact .inl rfl
    · split at e5
      · cases e5
      · rename_i hsome
        split at e5
        · cases e5; exact .inl rfl
        · split at e5
          · split at e5
            · cases e5
              exact .inr ⟨by rw [hsome]; rfl, _, rfl⟩
            · cases e5; exact .inl rfl
          · cases e5; exact .inl rfl
      · cases e5
  have f6 : s.frame = s5.frame := by
    unfold transformFilters at h
    obtain ⟨⟨p, f, t⟩, hp, h⟩ := bind_ok h
    have := pop hp
    simp only [] at h
    rw [← this]
    split at h <;> (cases h; rfl)
  rw [f6]
  rw [f4, f3, f2, f1] at f5
  exact f5

theorem run_shape (o : GenOp) (c : Ctx) : Shape c (o.run c).1 := by
  cases o with
  | begin ps =>
    show Shape c (c.push ps).1
    by_cases h : ∃ p ∈ ps, dictGet c.top p.1 = .none
    · rw [(push_spec c ps).1 h]; exact .stay rfl
    · rw [(push_spec c ps).2 (by
        intro p hp
        cases he : dictGet c.top p.1 with
        | none => exact absurd ⟨p, hp, he⟩ h
        | some _ => rfl)]
      exact .enter rfl
  | «end» =>
    show Shape c c.end.1
    unfold Ctx.end
    split
    · exact .stay rfl
    · unfold Ctx.pop
      split
      · exact .stay rfl
      · rename_i f r h
        exact .leave h
  | set ps => exact .stay (set_spec ps c).1
  | setItem k v =>
    show Shape c (c.setItem k v).1
    unfold Ctx.setItem
    split <;> exact .stay rfl
  | update ps => exact .stay (update_spec ps c).1
  | tag u =>
    show Shape c (c.tag u).1
    unfold Ctx.tag
    split <;> exact .stay rfl

theorem runGen_append (c : Ctx) (a b : List GenOp) : runGen c (a ++ b) = runGen (runGen c a) b := by
  induction a generalizing c with
  | nil => rfl
  | cons o a ih => exact ih _

/-- The frames below some level are not touched by a history that stays above it. -/
theorem inside_below (base : List OptFrame) (ops : List GenOp) : ∀ c : Ctx, (∃ l, c.below = l ++ base) →
    (∀ n, base.length + 1 ≤ (runGen c (ops.take n)).depth) → ∃ l, (runGen c ops).below = l ++ base := by
  induction ops with
  | nil => intro c h _; exact h
  | cons o ops ih =>
    intro c h hd
    have h1 : base.length + 1 ≤ ((o.run c).1).depth := by
      have := hd 1
      simpa [runGen] using this
    have hdep : ∀ n, base.length + 1 ≤ (runGen (o.run c).1 (ops.take n)).depth := by
      intro n
      have := hd (n + 1)
      simpa [runGen] using this
    refine ih (o.run c).1 ?_ hdep
    obtain ⟨l, hl⟩ := h
    rcases run_shape o c with hs | hs | hs
    · exact ⟨l, by rw [hs, hl]⟩
    · exact ⟨c.top :: l, by rw [hs, hl]; rfl⟩
    · rw [hl] at hs
      cases l with
      | nil =>
        have : base.length = ((o.run c).1).below.length + 1 := by
          have := congrArg List.length hs
          simpa using this
        unfold Ctx.depth at h1
        omega
      | cons x l =>
        simp only [List.cons_append, List.cons.injEq] at hs
        exact ⟨l, hs.2.symm⟩

theorem run_keys (o : GenOp) (c : Ctx) (keys : PStr → Bool) (h : ∀ f ∈ c.top :: c.below, ∀ k, (dictGet f k).isSome = keys k) :
    ∀ f ∈ (o.run c).1.top :: (o.run c).1.below, ∀ k, (dictGet f k).isSome = keys k := by
  have htop := h c.top (by simp)
  have hbel : ∀ f ∈ c.below, ∀ k, (dictGet f k).isSome = keys k := fun f hf => h f (by simp [hf])
  have build : ∀ c' : Ctx, c'.below = c.below → (∀ k, (dictGet c'.top k).isSome = keys k) → ∀ f ∈ c'.top :: c'.below, ∀ k, (dictGet f k).isSome = keys k := by
    intro c' hb ht f hf
    simp only [List.mem_cons] at hf
    rcases hf with rfl | hf
    · exact ht
    · rw [hb] at hf; exact hbel f hf
  cases o with
  | begin ps =>
    show ∀ f ∈ (c.push ps).1.top :: (c.push ps).1.below, _
    by_cases hu : ∃ p ∈ ps, dictGet c.top p.1 = .none
    · rw [(push_spec c ps).1 hu]; exact h
    · have hall : ∀ p ∈ ps, (dictGet c.top p.1).isSome := by
        intro p hp
        cases he : dictGet c.top p.1 with
        | none => exact absurd ⟨p, hp, he⟩ hu
        | some _ => rfl
      have hus := (update_spec ps (Ctx.mk c.top (c.top :: c.below)))
      have h5 := hus.2.2.2.2 (hus.2.2.2.1.2 hall)
      rw [(push_spec c ps).2 hall]
      intro f hf k
      simp only [List.mem_cons] at hf
      rcases hf with rfl | rfl | hf
      · have := hus.2.1 k
        rw [h5] at this
        simp only [] at this
        rw [this]
        exact htop k
      · exact htop k
      · exact hbel f hf k
  | «end» =>
    show ∀ f ∈ c.end.1.top :: c.end.1.below, _
    unfold Ctx.end
    split
    · exact h
    · unfold Ctx.pop
      split
      · exact h
      · rename_i f r hr
        intro g hg
        exact hbel g (by rw [hr]; exact hg)
  | set ps => exact build (c.set ps).1 (set_spec ps c).1 (fun k => by rw [(set_spec ps c).2.1 k]; exact htop k)
  | setItem k v =>
    show ∀ f ∈ (c.setItem k v).1.top :: (c.setItem k v).1.below, _
    cases he : dictGet c.top k with
    | none => rw [setItem_unknown he]; exact h
    | some x =>
      have hs : (dictGet c.top k).isSome := by rw [he]; rfl
      rw [setItem_known hs]
      exact build _ rfl (fun k' => by rw [put_isSome hs]; exact htop k')
  | update ps => exact build (c.update ps).1 (update_spec ps c).1 (fun k => by rw [(update_spec ps c).2.1 k]; exact htop k)
  | tag u =>
    show ∀ f ∈ (c.tag u).1.top :: (c.tag u).1.below, _
    unfold Ctx.tag
    cases ht : transformTag [] u.tag u.bound ⟨u.attrs, u.contents, c.top⟩ with
    | error e => exact h
    | ok s =>
      refine build _ rfl ?_
      intro k
      show (dictGet s.frame k).isSome = _
      rcases tag_frame ht with e | ⟨hs, n, e⟩
      · rw [e]; exact htop k
      · rw [e, put_isSome hs]; exact htop k

end

end Flatland
