import Verif.Model.Shared
import Verif.Proofs.Mappings
/-! Lemmas about the tables that threads share. -/
namespace Flatland

section
variable {T : Type} [DecidableEq T]

/-! ### symbols -/

/-- does the thread hold the lock? -/
def SymPc.inside : SymPc → Prop
  | .idle => False
  | .acquire _ => False
  | _ => True

/-- the right answer, given the table -/
def GoodAnswer (d : PyDict PStr Nat) : SymArg → Except PyErr Nat → Prop
  | .name n, r => ∃ o, r = .ok o ∧ dictGet d n = some o
  | .other, r => r = .error .assertion
  | .unhashable, r => r = .error .type

/-- what is known where a thread is -/
def PcOk (d : PyDict PStr Nat) (objs : List PStr) : SymPc → Prop
  | .make (.name n) => dictGet d n = none
  | .make .unhashable => False
  | .put n o => dictGet d n = none ∧ objs[o]? = some n
  | .release a r => GoodAnswer d a r
  | _ => True

/-- the call a thread is in -/
def SymPc.call : SymPc → List SymArg
  | .idle => []
  | .acquire a => [a]
  | .get a => [a]
  | .make a => [a]
  | .put n _ => [.name n]
  | .release a _ => [a]

structure SymInv (todo : T → List SymArg) (s : SymState T) : Prop where
  held : ∀ t, (s.pc t).inside ↔ s.lock = some t
  table : ∀ n o, dictGet s.symbols n = some o → s.objs[o]? = some n
  pcs : ∀ t, PcOk s.symbols s.objs (s.pc t)
  log : ∀ t a r, (t, a, r) ∈ s.log → GoodAnswer s.symbols a r
  order : ∀ t, ((s.log.filter fun x => decide (x.1 = t)).map fun x => x.2.1) ++ (s.pc t).call ++ s.todo t = todo t

theorem symInv_start (todo : T → List SymArg) : SymInv todo (symStart todo) := by
  refine ⟨?_, ?_, ?_, ?_, ?_⟩ <;> simp [symStart, SymPc.inside, dictGet, PcOk, SymPc.call]

theorem goodAnswer_put {d : PyDict PStr Nat} {n : PStr} {o : Nat} (hn : dictGet d n = none) {a : SymArg} {r : Except PyErr Nat}
    (h : GoodAnswer d a r) : GoodAnswer (dictPut d n o) a r := by
  cases a with
  | name m =>
    obtain ⟨o', rfl, ho⟩ := h
    refine ⟨o', rfl, ?_⟩
    rw [dictGet_put]
    split
    · rename_i e; rw [e, hn] at ho; cases ho
    · exact ho
  | other => exact h
  | unhashable => exact h

/-- a step that only moves one thread -/
theorem symInv_go {todo : T → List SymArg} {s : SymState T} (h : SymInv todo s) (t : T) (pc : SymPc)
    (hin : pc.inside ↔ (s.pc t).inside) (hok : PcOk s.symbols s.objs pc) (hc : pc.call = (s.pc t).call) : SymInv todo (s.go t pc) := by
  refine ⟨?_, h.table, ?_, h.log, ?_⟩
  · intro t'
    simp only [SymState.go]
    split
    · rename_i e; subst e; rw [hin]; exact h.held t'
    · exact h.held t'
  · intro t'
    simp only [SymState.go]
    split
    · exact hok
    · exact h.pcs t'
  · intro t'
    simp only [SymState.go]
    split
    · rename_i e; subst e; rw [hc]; exact h.order t'
    · exact h.order t'

theorem symInv_step {todo : T → List SymArg} {s : SymState T} (h : SymInv todo s) (t : T) : SymInv todo (symStep s t) := by
  unfold symStep
  have hp := h.pcs t
  have hl := h.held t
  have ho := h.order t
  cases hpc : s.pc t with
  | idle =>
    simp only
    cases htd : s.todo t with
    | nil => exact h
    | cons a rest =>
      simp only
      refine ⟨?_, h.table, ?_, h.log, ?_⟩
      · intro t'
        simp only [SymState.go]
        split
        · rename_i e; subst e; rw [hpc] at hl; exact hl
        · exact h.held t'
      · intro t'
        simp only [SymState.go]
        split
        · trivial
        · exact h.pcs t'
      · intro t'
        simp only [SymState.go]
        split
        · rename_i e; subst e
          rw [hpc, htd] at ho
          simpa [SymPc.call] using ho
        · exact h.order t'
  | acquire a =>
    simp only
    cases hlk : s.lock with
    | some o => exact h
    | none =>
      simp only
      refine ⟨?_, h.table, ?_, h.log, ?_⟩
      · intro t'
        simp only [SymState.go, Option.some.injEq]
        split
        · rename_i e; simp [SymPc.inside, e]
        · rename_i e
          have := h.held t'
          rw [hlk] at this
          simp only [reduceCtorEq, iff_false] at this
          exact ⟨fun h => (this h).elim, fun h => (e h.symm).elim⟩
      · intro t'
        simp only [SymState.go]
        split
        · trivial
        · exact h.pcs t'
      · intro t'
        simp only [SymState.go]
        split
        · rename_i e; subst e; rw [hpc] at ho; exact ho
        · exact h.order t'
  | get a =>
    simp only
    cases a with
    | unhashable => exact symInv_go h t _ (by simp [hpc, SymPc.inside]) rfl (by simp [hpc, SymPc.call])
    | other => exact symInv_go h t _ (by simp [hpc, SymPc.inside]) trivial (by simp [hpc, SymPc.call])
    | name n =>
      simp only
      cases hg : dictGet s.symbols n with
      | some o => exact symInv_go h t _ (by simp [hpc, SymPc.inside]) ⟨o, rfl, hg⟩ (by simp [hpc, SymPc.call])
      | none => exact symInv_go h t _ (by simp [hpc, SymPc.inside]) hg (by simp [hpc, SymPc.call])
  | make a =>
    simp only
    rw [hpc] at hp
    cases a with
    | unhashable => exact hp.elim
    | other => exact symInv_go h t _ (by simp [hpc, SymPc.inside]) rfl (by simp [hpc, SymPc.call])
    | name n =>
      simp only
      have mono : ∀ (o : Nat) m, s.objs[o]? = some m → (s.objs ++ [n])[o]? = some m := by
        intro o m hm
        rw [List.getElem?_append_left (List.getElem?_eq_some_iff.1 hm).1]
        exact hm
      refine ⟨?_, fun m o hm => mono o m (h.table m o hm), ?_, h.log, ?_⟩
      · intro t'
        simp only [SymState.go]
        split
        · rename_i e; subst e; rw [hpc] at hl; exact hl
        · exact h.held t'
      · intro t'
        simp only [SymState.go]
        split
        · exact ⟨hp, by simp⟩
        · have := h.pcs t'
          revert this
          cases s.pc t' with
          | put m o => exact fun hh => ⟨hh.1, mono o m hh.2⟩
          | make a => cases a <;> exact id
          | _ => exact id
      · intro t'
        simp only [SymState.go]
        split
        · rename_i e; subst e; rw [hpc] at ho; exact ho
        · exact h.order t'
  | put n o =>
    simp only
    rw [hpc] at hp hl
    have hlk : s.lock = some t := hl.1 trivial
    refine ⟨?_, ?_, ?_, fun t' a r hm => goodAnswer_put hp.1 (h.log t' a r hm), ?_⟩
    · intro t'
      simp only [SymState.go]
      split
      · rename_i e; subst e; exact hl
      · exact h.held t'
    · intro m o' hm
      rw [dictGet_put] at hm
      split at hm
      · rename_i e; subst e; cases hm; exact hp.2
      · exact h.table m o' hm
    · intro t'
      simp only [SymState.go]
      split
      · exact ⟨o, rfl, by simp [dictGet_put]⟩
      · rename_i e
        have hne : ¬ (s.pc t').inside := by
          rw [h.held t', hlk]
          simpa using fun h => e h.symm
        revert hne
        cases s.pc t' <;> simp [SymPc.inside, PcOk]
    · intro t'
      simp only [SymState.go]
      split
      · rename_i e; subst e; rw [hpc] at ho; exact ho
      · exact h.order t'
  | release a r =>
    simp only
    rw [hpc] at hp hl
    have hlk : s.lock = some t := hl.1 trivial
    refine ⟨?_, h.table, ?_, ?_, ?_⟩
    · intro t'
      simp only [SymState.go, reduceCtorEq, iff_false]
      split
      · exact id
      · rename_i e
        rw [h.held t', hlk]
        simpa using fun h => e h.symm
    · intro t'
      simp only [SymState.go]
      split
      · trivial
      · exact h.pcs t'
    · intro t' a' r' hm
      rcases List.mem_append.1 hm with hm | hm
      · exact h.log t' a' r' hm
      · simp only [List.mem_singleton, Prod.mk.injEq] at hm
        obtain ⟨_, rfl, rfl⟩ := hm
        exact hp
    · intro t'
      simp only [SymState.go, List.filter_append, List.map_append]
      split
      · rename_i e; subst e
        rw [hpc] at ho
        simpa [SymPc.call] using ho
      · rename_i e
        have : decide (t = t') = false := by simpa using fun h => e h.symm
        simp only [List.filter_cons, this, List.filter_nil]
        simpa using h.order t'

theorem symInv_run {todo : T → List SymArg} {s : SymState T} (h : SymInv todo s) (ts : List T) : SymInv todo (symRun s ts) := by
  induction ts generalizing s with
  | nil => exact h
  | cons t ts ih => exact ih (symInv_step h t)

theorem symRun_append (s : SymState T) (a b : List T) : symRun s (a ++ b) = symRun (symRun s a) b := by
  induction a generalizing s with
  | nil => rfl
  | cons t a ih => exact ih _

/-- steps left in the call -/
def SymPc.left : SymPc → Nat
  | .idle => 0
  | .acquire _ => 5
  | .get _ => 4
  | .make _ => 3
  | .put _ _ => 2
  | .release _ _ => 1

/-- a step leaves the other threads where they are -/
theorem symStep_other (s : SymState T) {t t' : T} (h : t' ≠ t) : (symStep s t).pc t' = s.pc t' ∧ (symStep s t).todo t' = s.todo t' := by
  unfold symStep
  split <;> (try split) <;> (try split) <;> simp [SymState.go, h]

/-- the thread that holds the lock gets on -/
theorem symStep_inside (s : SymState T) {t : T} (h : (s.pc t).inside) :
    (symStep s t).todo t = s.todo t ∧
    (((symStep s t).pc t).left < (s.pc t).left) ∧ ((symStep s t).lock = none ∨ ((symStep s t).pc t).inside ∧ (symStep s t).lock = s.lock) := by
  unfold symStep
  cases hpc : s.pc t with
  | idle => rw [hpc] at h; exact h.elim
  | acquire => rw [hpc] at h; exact h.elim
  | get a =>
    cases a with
    | name n => simp only; split <;> simp [SymState.go, SymPc.inside, SymPc.left]
    | _ => simp [SymState.go, SymPc.inside, SymPc.left]
  | make a => cases a <;> simp [SymState.go, SymPc.inside, SymPc.left]
  | put => simp [SymState.go, SymPc.inside, SymPc.left]
  | release => simp [SymState.go, SymPc.left]

theorem sym_unlock (k : Nat) (s : SymState T) (o t : T) (hk : (s.pc o).left ≤ k) (ho : (s.pc o).inside) (hne : t ≠ o) :
    ∃ ts, (symRun s ts).lock = none ∧ (symRun s ts).pc t = s.pc t ∧ (symRun s ts).todo t = s.todo t := by
  induction k generalizing s with
  | zero => revert ho; cases hpc : s.pc o <;> simp [hpc, SymPc.left, SymPc.inside] at hk ⊢
  | succ k ih =>
    obtain ⟨_, h2, h3⟩ := symStep_inside s ho
    have h4 := symStep_other s hne
    rcases h3 with h3 | ⟨h3, _⟩
    · exact ⟨[o], h3, h4⟩
    · obtain ⟨ts, g1, g2, g3⟩ := ih (symStep s o) (by omega) h3
      exact ⟨o :: ts, g1, g2.trans h4.1, g3.trans h4.2⟩

/-- what a thread still has to do -/
def symWork (s : SymState T) (t : T) : Nat := (s.pc t).left + 6 * (s.todo t).length

theorem sym_advance {todo : T → List SymArg} {s : SymState T} (h : SymInv todo s) (t : T) (hw : symWork s t ≠ 0) :
    ∃ ts, symWork (symRun s ts) t < symWork s t := by
  by_cases hin : (s.pc t).inside
  · obtain ⟨h1, h2, _⟩ := symStep_inside s hin
    refine ⟨[t], ?_⟩
    simp only [symRun, symWork, h1]
    omega
  · cases hpc : s.pc t with
    | idle =>
      refine ⟨[t], ?_⟩
      cases htd : s.todo t with
      | nil => simp [symWork, hpc, htd, SymPc.left] at hw
      | cons a rest =>
        simp only [symRun, symWork, symStep, hpc, htd]
        simp [SymState.go, SymPc.left]
        omega
    | acquire a =>
      have free : ∀ s' : SymState T, s'.lock = none → s'.pc t = .acquire a → s'.todo t = s.todo t → symWork (symStep s' t) t < symWork s t := by
        intro s' hl hp ht
        simp only [symWork, symStep, hp, hl, hpc]
        simp [SymState.go, SymPc.left, ht]
      cases hlk : s.lock with
      | none => exact ⟨[t], free s hlk hpc rfl⟩
      | some o =>
        have ho := (h.held o).2 hlk
        have hne : t ≠ o := by rintro rfl; exact hin ho
        obtain ⟨ts, g1, g2, g3⟩ := sym_unlock _ s o t (Nat.le_refl _) ho hne
        refine ⟨ts ++ [t], ?_⟩
        rw [symRun_append]
        exact free _ g1 (g2.trans hpc) g3
    | _ => rw [hpc] at hin; exact absurd trivial hin

theorem sym_finish {todo : T → List SymArg} (n : Nat) : ∀ {s : SymState T}, SymInv todo s → (t : T) → symWork s t ≤ n →
    ∃ ts, (symRun s ts).pc t = .idle ∧ (symRun s ts).todo t = [] := by
  have done : ∀ {s : SymState T} {t : T}, symWork s t = 0 → s.pc t = .idle ∧ s.todo t = [] := by
    intro s t h0
    have h1 : (s.pc t).left = 0 := by unfold symWork at h0; omega
    have h2 : (s.todo t).length = 0 := by unfold symWork at h0; omega
    refine ⟨?_, List.length_eq_zero_iff.1 h2⟩
    revert h1
    cases s.pc t <;> simp [SymPc.left]
  induction n with
  | zero => intro s h t hn; exact ⟨[], done (Nat.le_zero.1 hn)⟩
  | succ n ih =>
    intro s h t hn
    by_cases h0 : symWork s t = 0
    · exact ⟨[], done h0⟩
    · obtain ⟨ts, hts⟩ := sym_advance h t h0
      obtain ⟨ts', h'⟩ := ih (symInv_run h ts) t (by omega)
      exact ⟨ts ++ ts', by rw [symRun_append]; exact h'⟩

/-! ### compiled paths -/

variable [Runtime]

/-- what is known where a thread is -/
def PathPcOk (objs : List PStr) : PathPc → Prop
  | .size p o => objs[o]? = some p ∧ ∃ ops, tokenize p = .ok ops
  | .store p o => objs[o]? = some p ∧ ∃ ops, tokenize p = .ok ops
  | _ => True

/-- the right answer, given the cache -/
def GoodPath (d : PyDict PStr Nat) (p : PStr) (r : Except PyErr PathResult) : Prop :=
  (∃ e, tokenize p = .error e ∧ r = .error e) ∨
  (∃ ops, tokenize p = .ok ops ∧ ((∃ o, r = .ok (.expr o) ∧ dictGet d p = some o) ∨ r = .ok .builtin))

/-- the path a thread is looking up -/
def PathPc.call : PathPc → List PStr
  | .idle => []
  | .look p => [p]
  | .compile p => [p]
  | .size p _ => [p]
  | .store p _ => [p]

structure PathInv (todo : T → List PStr) (s : PathState T) : Prop where
  table : ∀ p o, dictGet s.cache p = some o → s.objs[o]? = some p ∧ ∃ ops, tokenize p = .ok ops
  pcs : ∀ t, PathPcOk s.objs (s.pc t)
  log : ∀ t p r, (t, p, r) ∈ s.log → GoodPath s.cache p r
  order : ∀ t, ((s.log.filter fun x => decide (x.1 = t)).map fun x => x.2.1) ++ (s.pc t).call ++ s.todo t = todo t
  nodup : (dictKeys s.cache).Nodup
  keys : ∀ p ∈ dictKeys s.cache, ∃ t, p ∈ todo t

theorem pathInv_start (todo : T → List PStr) : PathInv todo (pathStart todo) := by
  refine ⟨?_, ?_, ?_, ?_, ?_, ?_⟩ <;> simp [pathStart, dictGet, PathPcOk, PathPc.call, dictKeys]

theorem goodPath_put {d : PyDict PStr Nat} {q : PStr} {o : Nat} (hq : dictGet d q = none) {p : PStr} {r : Except PyErr PathResult}
    (h : GoodPath d p r) : GoodPath (dictPut d q o) p r := by
  rcases h with h | ⟨ops, h1, ⟨o', h2, h3⟩ | h2⟩
  · exact .inl h
  · refine .inr ⟨ops, h1, .inl ⟨o', h2, ?_⟩⟩
    rw [dictGet_put]
    split
    · rename_i e; rw [e, hq] at h3; cases h3
    · exact h3
  · exact .inr ⟨ops, h1, .inr h2⟩

theorem pathInv_go {todo : T → List PStr} {s : PathState T} (h : PathInv todo s) (t : T) (pc : PathPc)
    (hok : PathPcOk s.objs pc) (hc : pc.call = (s.pc t).call) : PathInv todo (s.go t pc) := by
  refine ⟨h.table, ?_, h.log, ?_, h.nodup, h.keys⟩
  · intro t'
    simp only [PathState.go]
    split
    · exact hok
    · exact h.pcs t'
  · intro t'
    simp only [PathState.go]
    split
    · rename_i e; subst e; rw [hc]; exact h.order t'
    · exact h.order t'

theorem pathInv_finish {todo : T → List PStr} {s : PathState T} (h : PathInv todo s) (t : T) (p : PStr) (r : Except PyErr PathResult)
    (hc : (s.pc t).call = [p]) (hr : GoodPath s.cache p r) : PathInv todo (s.finish t p r) := by
  refine ⟨h.table, ?_, ?_, ?_, h.nodup, h.keys⟩
  · intro t'
    simp only [PathState.finish, PathState.go]
    split
    · trivial
    · exact h.pcs t'
  · intro t' p' r' hm
    rcases List.mem_append.1 hm with hm | hm
    · exact h.log t' p' r' hm
    · simp only [List.mem_singleton, Prod.mk.injEq] at hm
      obtain ⟨_, rfl, rfl⟩ := hm
      exact hr
  · intro t'
    have ho := h.order t
    simp only [PathState.finish, PathState.go, List.filter_append, List.map_append]
    split
    · rename_i e; subst e
      rw [hc] at ho
      simpa [PathPc.call] using ho
    · rename_i e
      have : decide (t = t') = false := by simpa using fun h => e h.symm
      simp only [List.filter_cons, this, List.filter_nil]
      simpa using h.order t'

theorem pathInv_step {todo : T → List PStr} (max : Nat) {s : PathState T} (h : PathInv todo s) (t : T) : PathInv todo (pathStep max s t) := by
  unfold pathStep
  have hp := h.pcs t
  have ho := h.order t
  cases hpc : s.pc t with
  | idle =>
    simp only
    cases htd : s.todo t with
    | nil => exact h
    | cons p rest =>
      simp only
      refine ⟨h.table, ?_, h.log, ?_, h.nodup, h.keys⟩
      · intro t'
        simp only [PathState.go]
        split
        · trivial
        · exact h.pcs t'
      · intro t'
        simp only [PathState.go]
        split
        · rename_i e; subst e
          rw [hpc, htd] at ho
          simpa [PathPc.call] using ho
        · exact h.order t'
  | look p =>
    simp only
    cases hg : dictGet s.cache p with
    | some o =>
      obtain ⟨_, ops, h2⟩ := h.table p o hg
      exact pathInv_finish h t p _ (by simp [hpc, PathPc.call]) (.inr ⟨ops, h2, .inl ⟨o, rfl, hg⟩⟩)
    | none => exact pathInv_go h t _ trivial (by simp [hpc, PathPc.call])
  | compile p =>
    simp only
    cases htk : tokenize p with
    | error e => exact pathInv_finish h t p _ (by simp [hpc, PathPc.call]) (.inl ⟨e, htk, rfl⟩)
    | ok ops =>
      simp only
      have mono : ∀ (o : Nat) m, s.objs[o]? = some m → (s.objs ++ [p])[o]? = some m := by
        intro o m hm
        rw [List.getElem?_append_left (List.getElem?_eq_some_iff.1 hm).1]
        exact hm
      refine ⟨fun m o hm => ⟨mono o m (h.table m o hm).1, (h.table m o hm).2⟩, ?_, h.log, ?_, h.nodup, h.keys⟩
      · intro t'
        simp only [PathState.go]
        split
        · exact ⟨by simp, ops, htk⟩
        · have := h.pcs t'
          revert this
          cases s.pc t' with
          | size m o => exact fun hh => ⟨mono o m hh.1, hh.2⟩
          | store m o => exact fun hh => ⟨mono o m hh.1, hh.2⟩
          | _ => exact id
      · intro t'
        simp only [PathState.go]
        split
        · rename_i e; subst e; rw [hpc] at ho; exact ho
        · exact h.order t'
  | size p o =>
    simp only
    rw [hpc] at hp
    split
    · exact pathInv_go h t _ hp (by simp [hpc, PathPc.call])
    · obtain ⟨_, ops, h2⟩ := hp
      exact pathInv_finish h t p _ (by simp [hpc, PathPc.call]) (.inr ⟨ops, h2, .inr rfl⟩)
  | store p o =>
    simp only
    rw [hpc] at hp
    obtain ⟨hobj, ops, h2⟩ := hp
    cases hg : dictGet s.cache p with
    | some o' => exact pathInv_finish h t p _ (by simp [hpc, PathPc.call]) (.inr ⟨ops, h2, .inl ⟨o', rfl, hg⟩⟩)
    | none =>
      simp only
      refine ⟨?_, ?_, ?_, ?_, nodup_dictKeys_put h.nodup _ _, ?_⟩
      · intro m o' hm
        change dictGet (dictPut s.cache p o) m = some o' at hm
        rw [dictGet_put] at hm
        split at hm
        · rename_i e; subst e; cases hm; exact ⟨hobj, ops, h2⟩
        · exact h.table m o' hm
      · intro t'
        simp only [PathState.finish, PathState.go]
        split
        · trivial
        · exact h.pcs t'
      · intro t' p' r' hm
        rcases List.mem_append.1 hm with hm | hm
        · exact goodPath_put hg (h.log t' p' r' hm)
        · simp only [List.mem_singleton, Prod.mk.injEq] at hm
          obtain ⟨_, rfl, rfl⟩ := hm
          exact .inr ⟨ops, h2, .inl ⟨o, rfl, by simp [dictGet_put]⟩⟩
      · intro t'
        simp only [PathState.finish, PathState.go, List.filter_append, List.map_append]
        split
        · rename_i e; subst e
          rw [hpc] at ho
          simpa [PathPc.call] using ho
        · rename_i e
          have : decide (t = t') = false := by simpa using fun h => e h.symm
          simp only [List.filter_cons, this, List.filter_nil]
          simpa using h.order t'
      · intro q hq
        rcases mem_dictKeys_put.1 hq with hq | rfl
        · exact h.keys q hq
        · refine ⟨t, ?_⟩
          rw [← ho, hpc]
          simp [PathPc.call]

theorem pathInv_run {todo : T → List PStr} (max : Nat) {s : PathState T} (h : PathInv todo s) (ts : List T) : PathInv todo (pathRun max s ts) := by
  induction ts generalizing s with
  | nil => exact h
  | cons t ts ih => exact ih (pathInv_step max h t)

theorem pathRun_append (max : Nat) (s : PathState T) (a b : List T) : pathRun max s (a ++ b) = pathRun max (pathRun max s a) b := by
  induction a generalizing s with
  | nil => rfl
  | cons t a ih => exact ih _

/-- steps left in the call -/
def PathPc.left : PathPc → Nat
  | .idle => 0
  | .look _ => 4
  | .compile _ => 3
  | .size _ _ => 2
  | .store _ _ => 1

theorem path_advance (max : Nat) (s : PathState T) (t : T) (hw : (s.pc t).left + 5 * (s.todo t).length ≠ 0) :
    ((pathStep max s t).pc t).left + 5 * ((pathStep max s t).todo t).length < (s.pc t).left + 5 * (s.todo t).length := by
  unfold pathStep
  cases hpc : s.pc t with
  | idle =>
    cases htd : s.todo t with
    | nil => simp [hpc, htd, PathPc.left] at hw
    | cons => simp [PathState.go, PathPc.left]; omega
  | look p => simp only; split <;> simp [PathState.finish, PathState.go, PathPc.left]
  | compile p => simp only; split <;> simp [PathState.finish, PathState.go, PathPc.left]
  | size p => simp only; split <;> simp [PathState.finish, PathState.go, PathPc.left]
  | store p => simp only; split <;> simp [PathState.finish, PathState.go, PathPc.left]

theorem path_finish (max : Nat) (n : Nat) : ∀ (s : PathState T) (t : T), (s.pc t).left + 5 * (s.todo t).length ≤ n →
    (pathRun max s (List.replicate n t)).pc t = .idle ∧ (pathRun max s (List.replicate n t)).todo t = [] := by
  induction n with
  | zero =>
    intro s t h0
    have h1 : (s.pc t).left = 0 := by omega
    have h2 : (s.todo t).length = 0 := by omega
    refine ⟨?_, List.length_eq_zero_iff.1 h2⟩
    simp only [List.replicate_zero, pathRun]
    revert h1
    cases s.pc t <;> simp [PathPc.left]
  | succ n ih =>
    intro s t hn
    rw [List.replicate_succ, pathRun]
    by_cases h0 : (s.pc t).left + 5 * (s.todo t).length = 0
    · refine ih _ t ?_
      have h1 : s.pc t = .idle := by
        have : (s.pc t).left = 0 := by omega
        revert this; cases s.pc t <;> simp [PathPc.left]
      have h2 : s.todo t = [] := List.length_eq_zero_iff.1 (by omega)
      have : pathStep max s t = s := by simp [pathStep, h1, h2]
      rw [this]; omega
    · have := path_advance max s t h0
      exact ih _ t (by omega)

end
end Flatland
