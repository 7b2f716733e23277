import Verif.Proofs.Shared
/-!
What threads see of the two tables they share: symbols (C69) and compiled paths (C21).

`ts` is a schedule: which thread takes the next step.  `todo t` is what thread `t` calls, one after the other.  `log` lists the calls
that have ended, with what they returned or raised; `objs` lists the objects that were made, by what they were made for.
-/
namespace Flatland

section
variable {T : Type} [DecidableEq T]

/-- C69: under every schedule a finished call with a name returned a symbol of that name, and a call with anything else raised. -/
theorem C69_answers (todo : T → List SymArg) (ts : List T) :
    (∀ t n r, (t, SymArg.name n, r) ∈ (symRun (symStart todo) ts).log → ∃ o : Nat, r = .ok o ∧ (symRun (symStart todo) ts).objs[o]? = some n) ∧
    (∀ t r, (t, SymArg.other, r) ∈ (symRun (symStart todo) ts).log → r = .error .assertion) ∧
    (∀ t r, (t, SymArg.unhashable, r) ∈ (symRun (symStart todo) ts).log → r = .error .type) := by
  have h := symInv_run (symInv_start todo) ts
  refine ⟨fun t n r hm => ?_, fun t r hm => h.log t _ r hm, fun t r hm => h.log t _ r hm⟩
  obtain ⟨o, h1, h2⟩ := h.log t _ r hm
  exact ⟨o, h1, h.table n o h2⟩

/-- C69: two finished calls, of any two threads, returned the same object exactly if they named the same symbol. -/
theorem C69_singletons (todo : T → List SymArg) (ts : List T) (t t' : T) (n n' : PStr) (o o' : Nat)
    (h : (t, SymArg.name n, .ok o) ∈ (symRun (symStart todo) ts).log) (h' : (t', SymArg.name n', .ok o') ∈ (symRun (symStart todo) ts).log) :
    o = o' ↔ n = n' := by
  have hi := symInv_run (symInv_start todo) ts
  obtain ⟨a, ha, h1⟩ := hi.log _ _ _ h
  obtain ⟨b, hb, h2⟩ := hi.log _ _ _ h'
  cases ha; cases hb
  constructor
  · rintro rfl
    have e1 := hi.table _ _ h1
    have e2 := hi.table _ _ h2
    rw [e1] at e2
    exact Option.some.inj e2
  · rintro rfl
    rw [h1] at h2
    exact Option.some.inj h2

/-- C69: the finished calls of a thread are the first ones it had to make, in that order. -/
theorem C69_call_order (todo : T → List SymArg) (ts : List T) (t : T) :
    ((symRun (symStart todo) ts).log.filter fun x => decide (x.1 = t)).map (fun x => x.2.1) <+: todo t := by
  have := (symInv_run (symInv_start todo) ts).order t
  rw [List.append_assoc] at this
  exact ⟨_, this⟩

/-- C69: no deadlock.  Whatever has happened, every thread can still be run until all its calls have ended; what it then has answers for
is everything it had to call. -/
theorem C69_no_deadlock (todo : T → List SymArg) (ts : List T) (t : T) : ∃ more,
    ((symRun (symStart todo) (ts ++ more)).log.filter fun x => decide (x.1 = t)).map (fun x => x.2.1) = todo t := by
  have h := symInv_run (symInv_start todo) ts
  obtain ⟨more, h1, h2⟩ := sym_finish _ h t (Nat.le_refl _)
  refine ⟨more, ?_⟩
  have ho := (symInv_run (symInv_start todo) (ts ++ more)).order t
  rw [symRun_append] at ho ⊢
  rw [h1, h2] at ho
  simpa [SymPc.call] using ho

/-- C69: the lock is not left behind: when every thread is between calls, also after calls that raised, it is free. -/
theorem C69_lock_released (todo : T → List SymArg) (ts : List T) (h : ∀ t, (symRun (symStart todo) ts).pc t = .idle) :
    (symRun (symStart todo) ts).lock = none := by
  have hi := symInv_run (symInv_start todo) ts
  cases hl : (symRun (symStart todo) ts).lock with
  | none => rfl
  | some t =>
    have := (hi.held t).2 hl
    rw [h t] at this
    exact this.elim

/-! ### compiled paths -/

variable [Runtime]

/-- C21: under every schedule a finished lookup raised exactly if the path does not tokenize, with that error; otherwise it returned an
expression of that path or, the code's slip at a full cache, the builtin `compile`. -/
theorem C21_threads_answers (max : Nat) (todo : T → List PStr) (ts : List T) (t : T) (p : PStr) (r : Except PyErr PathResult)
    (h : (t, p, r) ∈ (pathRun max (pathStart todo) ts).log) :
    (∀ e, tokenize p = .error e → r = .error e) ∧
    (∀ ops, tokenize p = .ok ops → r = .ok .builtin ∨ ∃ o : Nat, r = .ok (.expr o) ∧ (pathRun max (pathStart todo) ts).objs[o]? = some p) := by
  have hi := pathInv_run max (pathInv_start todo) ts
  rcases hi.log t p r h with ⟨e, h1, h2⟩ | ⟨ops, h1, h2⟩
  · refine ⟨fun e' he => ?_, fun ops ho => ?_⟩
    · rw [h1] at he; cases he; exact h2
    · rw [h1] at ho; cases ho
  · refine ⟨fun e' he => ?_, fun ops ho => ?_⟩
    · rw [h1] at he; cases he
    · rcases h2 with ⟨o, h2, h3⟩ | h2
      · exact .inr ⟨o, h2, (hi.table p o h3).1⟩
      · exact .inl h2

/-- C21: two finished lookups, of any two threads, got the same expression exactly if they looked the same path up. -/
theorem C21_threads_same (max : Nat) (todo : T → List PStr) (ts : List T) (t t' : T) (p p' : PStr) (o o' : Nat)
    (h : (t, p, .ok (.expr o)) ∈ (pathRun max (pathStart todo) ts).log)
    (h' : (t', p', .ok (.expr o')) ∈ (pathRun max (pathStart todo) ts).log) : o = o' ↔ p = p' := by
  have hi := pathInv_run max (pathInv_start todo) ts
  have key : ∀ {t p o}, (t, p, .ok (PathResult.expr o)) ∈ (pathRun max (pathStart todo) ts).log →
      dictGet (pathRun max (pathStart todo) ts).cache p = some o := by
    intro t p o hm
    rcases hi.log _ _ _ hm with ⟨e, _, h2⟩ | ⟨ops, _, ⟨o', h2, h3⟩ | h2⟩
    · cases h2
    · cases h2; exact h3
    · cases h2
  have h1 := key h
  have h2 := key h'
  constructor
  · rintro rfl
    have e1 := (hi.table _ _ h1).1
    have e2 := (hi.table _ _ h2).1
    rw [e1] at e2
    exact Option.some.inj e2
  · rintro rfl
    rw [h1] at h2
    exact Option.some.inj h2

/-- C21: as long as the threads look up fewer distinct paths than fit, no lookup gets the builtin. -/
theorem C21_threads_never_builtin (max : Nat) (todo : T → List PStr) (paths : List PStr) (hp : ∀ t, ∀ p ∈ todo t, p ∈ paths)
    (hlen : paths.length < max) (ts : List T) (t : T) (p : PStr) : (t, p, .ok .builtin) ∉ (pathRun max (pathStart todo) ts).log := by
  suffices key : ∀ (ts : List T) (s : PathState T), PathInv todo s → (∀ t p, (t, p, .ok .builtin) ∉ s.log) →
      ∀ t p, (t, p, .ok .builtin) ∉ (pathRun max s ts).log from
    key ts _ (pathInv_start todo) (by simp [pathStart]) t p
  intro ts
  induction ts with
  | nil => exact fun s _ h => h
  | cons u ts ih =>
    intro s hi hb
    refine ih _ (pathInv_step max hi u) ?_
    intro t p hm
    have hc : s.cache.length < max := by
      have hsub : dictKeys s.cache ⊆ paths := fun q hq => by
        obtain ⟨t', ht'⟩ := hi.keys q hq
        exact hp t' q ht'
      have := hi.nodup.length_le_of_subset hsub
      simp only [dictKeys, List.length_map] at this
      omega
    revert hm
    unfold pathStep
    cases hpc : s.pc u with
    | idle => simp only; split <;> exact hb t p
    | look q => simp only; split <;> simp [PathState.finish, PathState.go, hb]
    | compile q => simp only; split <;> simp [PathState.finish, PathState.go, hb]
    | size q o => simp only [hc, if_true]; exact hb t p
    | store q o => simp only; split <;> simp [PathState.finish, PathState.go, hb]

/-- C21: no thread waits for another: run alone it finishes its lookups, whatever the others were doing. -/
theorem C21_threads_no_waiting (max : Nat) (todo : T → List PStr) (ts : List T) (t : T) : ∃ n,
    ((pathRun max (pathStart todo) (ts ++ List.replicate n t)).log.filter fun x => decide (x.1 = t)).map (fun x => x.2.1) = todo t := by
  refine ⟨((pathRun max (pathStart todo) ts).pc t).left + 5 * ((pathRun max (pathStart todo) ts).todo t).length, ?_⟩
  have ho := (pathInv_run max (pathInv_start todo) (ts ++ List.replicate
    (((pathRun max (pathStart todo) ts).pc t).left + 5 * ((pathRun max (pathStart todo) ts).todo t).length) t)).order t
  rw [pathRun_append] at ho ⊢
  have := path_finish max _ (pathRun max (pathStart todo) ts) t (Nat.le_refl _)
  rw [this.1, this.2] at ho
  simpa [PathPc.call] using ho

/-- about to store? -/
def PathPc.storing : PathPc → Bool
  | .store _ _ => true
  | _ => false

omit [Runtime] in
omit [Runtime] in
theorem storing_update (ths : List T) (hn : ths.Nodup) (t : T) (f : T → PathPc) (pc : PathPc) (ht : t ∈ ths) :
    (ths.filter fun x => (if x = t then pc else f x).storing).length + (f t).storing.toNat =
      (ths.filter fun x => (f x).storing).length + pc.storing.toNat := by
  induction ths with
  | nil => cases ht
  | cons u ths ih =>
    obtain ⟨hu, hn⟩ := List.nodup_cons.1 hn
    by_cases e : u = t
    · subst e
      have same : (ths.filter fun x => (if x = u then pc else f x).storing) = ths.filter fun x => (f x).storing := by
        apply List.filter_congr
        intro x hx
        have : x ≠ u := by rintro rfl; exact hu hx
        simp [this]
      simp only [List.filter_cons, same, if_true]
      cases pc.storing <;> cases (f u).storing <;> simp
    · have := ih hn (by rcases List.mem_cons.1 ht with h | h; exact absurd h.symm e; exact h)
      simp only [List.filter_cons, e, if_false]
      cases (f u).storing <;> simp <;> omega

/-- C21: the cache outgrows `max_cache_size` by less than the number of threads (by nothing if there is one). -/
theorem C21_threads_bound (max : Nat) (todo : T → List PStr) (ths : List T) (hn : ths.Nodup) (ts : List T) (hts : ∀ t ∈ ts, t ∈ ths) :
    (pathRun max (pathStart todo) ts).cache.length ≤ max + ths.length - 1 := by
  suffices key : ∀ (ts : List T) (s : PathState T), (∀ t ∈ ts, t ∈ ths) →
      s.cache.length + (ths.filter fun x => (s.pc x).storing).length ≤ max + ths.length - 1 →
      (pathRun max s ts).cache.length ≤ max + ths.length - 1 by
    refine key ts _ hts ?_
    have : (ths.filter fun x => ((pathStart todo).pc x).storing) = [] := by simp [pathStart, PathPc.storing]
    rw [this]
    simp [pathStart]
  intro ts
  induction ts with
  | nil => intro s _ h; simp only [pathRun]; omega
  | cons u ts ih =>
    intro s hts h
    refine ih _ (fun t ht => hts t (List.mem_cons_of_mem _ ht)) ?_
    have hu := hts u (List.mem_cons_self ..)
    have le : ∀ f : T → PathPc, (ths.filter fun x => (f x).storing).length ≤ ths.length := fun f => List.length_filter_le _ _
    have dl : ∀ k v, (dictPut s.cache k v).length ≤ s.cache.length + 1 := by
      intro k v
      induction s.cache with
      | nil => simp [dictPut]
      | cons x d ihd => unfold dictPut; split <;> simp <;> omega
    -- a step that does not lead to storing, and leaves the cache
    have stay : ∀ (pc : PathPc), pc.storing = false → (s.pc u).storing = false →
        s.cache.length + (ths.filter fun x => (if x = u then pc else s.pc x).storing).length ≤ max + ths.length - 1 := by
      intro pc h1 h2
      have := storing_update ths hn u s.pc pc hu
      rw [h1, h2] at this
      simp only [Bool.toNat_false, Nat.add_zero] at this
      omega
    unfold pathStep
    cases hpc : s.pc u with
    | idle =>
      simp only
      split
      · exact h
      · exact stay _ rfl (by rw [hpc]; rfl)
    | look p => simp only; split <;> exact stay _ rfl (by rw [hpc]; rfl)
    | compile p => simp only; split <;> exact stay _ rfl (by rw [hpc]; rfl)
    | size p o =>
      simp only
      split
      · have := le (s.go u (.store p o)).pc
        have hc : (s.go u (.store p o)).cache = s.cache := rfl
        rw [hc]; omega
      · exact stay _ rfl (by rw [hpc]; rfl)
    | store p o =>
      simp only
      have h1 := storing_update ths hn u s.pc .idle hu
      have h2 : (s.pc u).storing = true := by rw [hpc]; rfl
      have h3 : PathPc.idle.storing = false := rfl
      rw [h2, h3] at h1
      simp only [Bool.toNat_false, Bool.toNat_true, Nat.add_zero] at h1
      have h4 := dl p o
      split
      · simp only [PathState.finish, PathState.go]; omega
      · simp only [PathState.finish, PathState.go]; omega

end

/-! ### instances -/

section
attribute [local instance] Runtime.ascii

/-- two threads ask for `a`, the second is held up by the lock and then gets the object of the first; `b` gets another -/
example : (symRun (symStart fun b : Bool => if b then [.name ['a'], .other] else [.name ['a'], .name ['b']])
    [true, true, false, false, true, true, true, false, true, false, false, false, false, false, false, false, false, false, true, true, true, true, true]).log
    = [(true, .name ['a'], .ok 0), (false, .name ['a'], .ok 0), (false, .name ['b'], .ok 1), (true, .other, .error .assertion)] := by rfl

/-- two threads compile the same path at the same time; both get the expression stored first -/
example : (pathRun 2 (pathStart fun _ : Bool => [['a']]) [true, true, false, false, true, false, true, false, false, true]).log
    = [(false, ['a'], .ok (.expr 1)), (true, ['a'], .ok (.expr 1))] := by decide +kernel

/-- C21, the code: the cache can outgrow `max_cache_size`: two threads both find room for one entry -/
theorem C21_threads_outgrow : (pathRun 1 (pathStart fun b : Bool => if b then [['a']] else [['b']])
    [true, false, true, false, true, false, true, false, true, false]).cache.length = 2 := by decide +kernel

/-- C21, the code: a path that is in the cache can still get the builtin: both threads miss, the other fills the last place with it -/
theorem C21_threads_builtin_race : (pathRun 1 (pathStart fun _ : Bool => [['a']])
    [true, true, true, false, false, false, false, false, true]).log = [(false, ['a'], .ok (.expr 1)), (true, ['a'], .ok .builtin)] := by
  decide +kernel

/-- the hypotheses of `C21_threads_never_builtin` and `C21_threads_bound` are met -/
example : (∀ b : Bool, ∀ p ∈ [['a']], p ∈ [['a']]) ∧ [['a']].length < 2 ∧ [true, false].Nodup := by decide

end
end Flatland
