import Verif.Proofs.CompoundInit
/-!
C50: a Compound class is initialized once, before the first instance.

Threads `T`, classes `C`, what each `__compound_init__` does (`body`), what each thread is to instantiate (`todo`) and the schedule are
arbitrary.  `NoBaseInit`: no `__compound_init__` calls its base class's (see `C50_base_init_early`); `Ranked`: none instantiates its own
class, directly or through others.
-/
namespace Flatland
open Spec

section
variable {T C : Type} [DecidableEq T] [DecidableEq C]

/-- However the threads are interleaved, `__compound_init__` of a class is completed at most once, and is started again only after
it has failed; when an instance has been constructed it has been completed exactly once. -/
theorem C50_once (body : C → List (InitCode C)) (rank : C → Nat) (hn : NoBaseInit body) (hr : Ranked body rank) (todo : T → List C)
    (schedule : List T) (c : C) :
    dones c (crun body (cstart todo) schedule).log ≤ 1 ∧
    starts c (crun body (cstart todo) schedule).log ≤ fails c (crun body (cstart todo) schedule).log + 1 ∧
    ∀ t, CEvent.constructed t c ∈ (crun body (cstart todo) schedule).log →
      dones c (crun body (cstart todo) schedule).log = 1 ∧
      starts c (crun body (cstart todo) schedule).log = fails c (crun body (cstart todo) schedule).log + 1 := by
  have h := crun_inv hn hr (cstart_inv rank todo) schedule
  generalize crun body (cstart todo) schedule = s at *
  refine ⟨?_, ?_, fun t hm => ?_⟩
  · cases hp : s.prepared c with
    | true => rw [(h.prep c hp).1]; exact Nat.le_refl _
    | false =>
      by_cases hno : ∀ t, CIns.setPrepared c ∉ s.code t
      · rw [(h.idle c hp hno).1]; omega
      · obtain ⟨t, ht⟩ := Classical.not_forall.1 hno
        have := (h.busy c hp t (Classical.not_not.1 ht)).2
        rw [this]; split <;> omega
  · cases hp : s.prepared c with
    | true => rw [(h.prep c hp).2.1]; exact Nat.le_refl _
    | false =>
      by_cases hno : ∀ t, CIns.setPrepared c ∉ s.code t
      · rw [(h.idle c hp hno).2]; omega
      · obtain ⟨t, ht⟩ := Classical.not_forall.1 hno
        rw [(h.busy c hp t (Classical.not_not.1 ht)).1]; exact Nat.le_refl _
  · have hp := h.built t c hm
    exact ⟨(h.prep c hp).1, (h.prep c hp).2.1⟩

/-- Whenever an instance is constructed, the initialization of its class has been completed before, and nothing of it happens after. -/
theorem C50_before (body : C → List (InitCode C)) (rank : C → Nat) (hn : NoBaseInit body) (hr : Ranked body rank) (todo : T → List C)
    (schedule : List T) (pre post : List (CEvent T C)) (t : T) (c : C)
    (hlog : (crun body (cstart todo) schedule).log = pre ++ .constructed t c :: post) :
    (∃ t', CEvent.done t' c ∈ pre) ∧ ∀ t', CEvent.started t' c ∉ post ∧ CEvent.done t' c ∉ post := by
  have h := crun_inv hn hr (cstart_inv rank todo) schedule
  obtain ⟨e1, e2, e3⟩ := h.order pre post t c hlog
  constructor
  · have : 0 < dones c pre := by omega
    obtain ⟨e, he, hc⟩ := List.countP_pos_iff.1 this
    cases e with
    | done t' d =>
      have : d = c := by simpa using hc
      exact ⟨t', this ▸ he⟩
    | _ => simp at hc
  · intro t'
    constructor
    · intro hm
      have := List.countP_eq_zero.1 e2 _ hm
      simp at this
    · intro hm
      have := List.countP_eq_zero.1 e3 _ hm
      simp at this

/-- No deadlock: whatever has happened, the threads can be run to their end. -/
theorem C50_no_deadlock (body : C → List (InitCode C)) (rank : C → Nat) (hn : NoBaseInit body) (hr : Ranked body rank) (todo : T → List C)
    (threads : List T) (hout : ∀ t, t ∉ threads → todo t = []) (schedule : List T) :
    ∃ more, Finished (crun body (cstart todo) (schedule ++ more)) := by
  have h := crun_inv hn hr (cstart_inv rank todo) schedule
  obtain ⟨more, hm⟩ := finish hn hr threads _ _ h (Nat.le_refl _) (fun t ht => crun_idle body _ ⟨rfl, hout t ht⟩ schedule)
  exact ⟨more, fun t => by rw [crun_append]; exact hm t⟩

/-- When no `__compound_init__` raises, every thread gets its instances, of classes that were initialized exactly once. -/
theorem C50_served (body : C → List (InitCode C)) (rank : C → Nat) (hn : NoBaseInit body) (hr : Ranked body rank) (hf : NoFail body)
    (todo : T → List C) (schedule : List T) (hfin : Finished (crun body (cstart todo) schedule)) (t : T) (c : C) (hc : c ∈ todo t) :
    CEvent.constructed t c ∈ (crun body (cstart todo) schedule).log ∧ dones c (crun body (cstart todo) schedule).log = 1 := by
  have h := crun_tocome hf (cstart todo) t c (fun t => by simp [cstart]) (.inl hc) schedule
  obtain ⟨e1, e2⟩ := hfin t
  unfold ToCome at h
  rw [e1, e2] at h
  have hm : CEvent.constructed t c ∈ (crun body (cstart todo) schedule).log := by simpa using h
  exact ⟨hm, ((C50_once body rank hn hr todo schedule c).2.2 t hm).1⟩

end

/-! ### cases -/

/-- two classes: the initialization of 1 makes an instance of 0 -/
def twoBody : Fin 2 → List (InitCode (Fin 2)) := fun c => if c = 1 then [.work, .new 0, .work] else [.work]

theorem twoBody_ok : NoBaseInit twoBody ∧ Ranked twoBody Fin.val ∧ NoFail twoBody := by
  refine ⟨fun c h => by unfold twoBody at h; split at h <;> simp at h, ?_, fun c h => by unfold twoBody at h; split at h <;> simp at h⟩
  intro c d h
  unfold twoBody at h
  split at h
  · rename_i hc; subst hc; simp at h; subst h; decide
  · simp at h

/-- two threads, both instantiating class 1, one after the other step by step: one of them initializes, both get instances -/
example : (crun twoBody (cstart fun _ : Bool => [1]) ((List.replicate 30 [true, false]).flatten)).log =
    [.started true 1, .started true 0, .done true 0, .constructed true 0, .done true 1, .constructed true 1, .constructed false 1] := by decide +kernel

example : Finished (crun twoBody (cstart fun _ : Bool => [1]) ((List.replicate 30 [true, false]).flatten)) := by
  intro t; cases t <;> decide +kernel

/-- an initialization that fails in one thread is done again by the other -/
example : (crun (fun _ : Fin 1 => [.work, .fail]) (cstart fun _ : Bool => [0]) ((List.replicate 30 [true, false]).flatten)).log =
    [.started true 0, .failed true 0, .started false 0, .failed false 0] := by decide +kernel

/-- a class whose `__compound_init__` calls that of its base and then goes on -/
def baseBody : Fin 1 → List (InitCode (Fin 1)) := fun _ => [.baseInit, .work, .work]

/-- The call of the base's `__compound_init__` marks the class as prepared: another thread then gets an instance of a class whose
initialization is still going on. -/
theorem C50_base_init_early : ∃ schedule : List Bool, (crun baseBody (cstart fun _ => [0]) schedule).log =
    [.started true 0, .constructed false 0, .done true 0, .constructed true 0] :=
  ⟨[true, true, true, true, true, false, false, false, true, true, true, true, true, true], by decide +kernel⟩

/-- A `__compound_init__` that instantiates its own class calls itself again, without end. -/
theorem C50_self_instantiation (n : Nat) : ∃ schedule : List Unit,
    starts (0 : Fin 1) (crun (fun _ => [.new 0]) (cstart fun _ => [0]) schedule).log = n := by
  have step : ∀ (m : Nat) (k : List (CIns (Fin 1))) (l : Option (Unit × Nat)) (log : List (CEvent Unit (Fin 1))) (todo : Unit → List (Fin 1)),
      (l = none ∨ ∃ d, l = some ((), d)) →
      starts (0 : Fin 1) (crun (fun _ => [.new 0]) ⟨fun _ => false, l, fun _ => .check1 0 :: k, todo, log⟩ (List.replicate (3 * m) ())).log = starts 0 log + m := by
    intro m
    induction m with
    | zero => intro k l log todo hl; rfl
    | succ m ih =>
      intro k l log todo hl
      rw [show 3 * (m + 1) = 3 * m + 1 + 1 + 1 from rfl]
      simp only [List.replicate_succ]
      have e : starts (0 : Fin 1) (log ++ [CEvent.started () 0]) = starts 0 log + 1 := by rw [starts_append]; rfl
      rcases hl with rfl | ⟨d, rfl⟩
      · have := ih (.initDone 0 :: .setPrepared 0 :: .release :: .construct 0 :: k) (some ((), 1)) (log ++ [.started () 0]) todo (.inr ⟨_, rfl⟩)
        rw [e] at this
        rw [show starts 0 log + (m + 1) = starts 0 log + 1 + m by omega, ← this]
        rfl
      · have := ih (.initDone 0 :: .setPrepared 0 :: .release :: .construct 0 :: k) (some ((), d + 1)) (log ++ [.started () 0]) todo (.inr ⟨_, rfl⟩)
        rw [e] at this
        rw [show starts 0 log + (m + 1) = starts 0 log + 1 + m by omega, ← this]
        rfl
  refine ⟨() :: List.replicate (3 * n) (), ?_⟩
  have := step n [] none [] (fun _ => []) (.inl rfl)
  rw [show starts (0 : Fin 1) ([] : List (CEvent Unit (Fin 1))) = 0 from rfl, Nat.zero_add] at this
  refine Eq.trans ?_ this
  congr 2

end Flatland
