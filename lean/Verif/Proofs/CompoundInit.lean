import Verif.Spec.CompoundInit
import Verif.Proofs.Mappings
/-! The invariant of Compound initialization. -/
namespace Flatland
open Spec

variable {T C : Type} [DecidableEq T] [DecidableEq C]

/-- every initialization under way is of a class of higher rank -/
def Below (rank : C → Nat) (c : C) (k : List (CIns C)) : Prop := ∀ d, CIns.setPrepared d ∈ k → rank c < rank d

/-- an instruction and what follows it -/
def HeadOk (rank : C → Nat) (i : CIns C) (k : List (CIns C)) : Prop :=
  (∀ c, k.head? = some (.setPrepared c) → i = .initDone c) ∧
  match i with
  | .check1 c => Below rank c k
  | .acquire c => Below rank c k
  | .check2 c => Below rank c k ∧ CIns.release ∈ k
  | .initDone c => k.head? = some (.setPrepared c)
  | .setPrepared c => Below rank c k ∧ CIns.release ∈ k
  | _ => True

/-- code as it comes up -/
def GoodCode (rank : C → Nat) : List (CIns C) → Prop
  | [] => True
  | i :: k => HeadOk rank i k ∧ GoodCode rank k

/-- instances are constructed of classes that are prepared by then -/
def ConsOk (p : C → Prop) : List (CIns C) → Prop
  | [] => True
  | .check2 c :: k => ConsOk (fun d => p d ∨ d = c) k
  | .setPrepared c :: k => ConsOk (fun d => p d ∨ d = c) k
  | .construct c :: k => p c ∧ ConsOk p k
  | _ :: k => ConsOk p k

omit [DecidableEq C] in
theorem ConsOk.mono {p q : C → Prop} (hpq : ∀ c, p c → q c) {k : List (CIns C)} (h : ConsOk p k) : ConsOk q k := by
  induction k generalizing p q with
  | nil => trivial
  | cons i k ih =>
    cases i with
    | check2 c => exact ih (fun d hd => hd.imp_left (hpq d)) h
    | setPrepared c => exact ih (fun d hd => hd.imp_left (hpq d)) h
    | construct c => exact ⟨hpq c h.1, ih hpq h.2⟩
    | _ => exact ih hpq h

/-- the lock is held by the thread that has it to release -/
def LockOk (l : Option (T × Nat)) (code : T → List (CIns C)) : Prop :=
  match l with
  | none => ∀ t, CIns.release ∉ code t
  | some (o, n) => 0 < n ∧ (code o).count CIns.release = n ∧ ∀ t, t ≠ o → CIns.release ∉ code t

/-- the invariant -/
structure CInv (rank : C → Nat) (s : CState T C) : Prop where
  lock : LockOk s.lock s.code
  good : ∀ t, GoodCode rank (s.code t)
  cons : ∀ t, ConsOk (fun c => s.prepared c = true) (s.code t)
  prep : ∀ c, s.prepared c = true → dones c s.log = 1 ∧ starts c s.log = fails c s.log + 1 ∧ ∀ t, CIns.setPrepared c ∉ s.code t
  idle : ∀ c, s.prepared c = false → (∀ t, CIns.setPrepared c ∉ s.code t) → dones c s.log = 0 ∧ starts c s.log = fails c s.log
  busy : ∀ c, s.prepared c = false → ∀ t, CIns.setPrepared c ∈ s.code t →
    starts c s.log = fails c s.log + 1 ∧ dones c s.log = (if (s.code t).head? = some (.setPrepared c) then 1 else 0)
  built : ∀ t c, CEvent.constructed t c ∈ s.log → s.prepared c = true
  order : ∀ pre post t c, s.log = pre ++ CEvent.constructed t c :: post → dones c pre = 1 ∧ starts c post = 0 ∧ dones c post = 0

omit [DecidableEq C] in
theorem good_release {rank : C → Nat} {k : List (CIns C)} (hg : GoodCode rank k) {c : C} (h : CIns.setPrepared c ∈ k) : CIns.release ∈ k := by
  induction k with
  | nil => simp at h
  | cons i k ih =>
    rcases List.mem_cons.1 h with rfl | h
    · exact List.mem_cons_of_mem _ hg.1.2.2
    · exact List.mem_cons_of_mem _ (ih hg.2 h)

omit [DecidableEq T] in
theorem lock_unique {l : Option (T × Nat)} {code : T → List (CIns C)} (h : LockOk l code) {t t' : T} (h1 : CIns.release ∈ code t) (h2 : CIns.release ∈ code t') :
    t = t' := by
  unfold LockOk at h
  split at h
  · exact absurd h1 (h t)
  · rename_i o n
    have e1 : t = o := Classical.byContradiction fun hne => h.2.2 t hne h1
    have e2 : t' = o := Classical.byContradiction fun hne => h.2.2 t' hne h2
    rw [e1, e2]

omit [DecidableEq T] in
/-- only one thread at a time initializes anything -/
theorem CInv.pending_unique {rank : C → Nat} {s : CState T C} (h : CInv rank s) {t t' : T} {c d : C} (h1 : CIns.setPrepared c ∈ s.code t)
    (h2 : CIns.setPrepared d ∈ s.code t') : t = t' :=
  lock_unique h.lock (good_release (h.good t) h1) (good_release (h.good t') h2)

omit [DecidableEq T] in
theorem lock_same {l : Option (T × Nat)} {code code' : T → List (CIns C)} (h : LockOk l code) (hc : ∀ t, (code' t).count .release = (code t).count CIns.release) :
    LockOk l code' := by
  have hm : ∀ t, CIns.release ∉ code' t ↔ CIns.release ∉ code t := fun t => by rw [← List.count_eq_zero, hc t, List.count_eq_zero]
  unfold LockOk at h ⊢
  split
  · exact fun t => (hm t).2 (h t)
  · exact ⟨h.1, by rw [hc]; exact h.2.1, fun t ht => (hm t).2 (h.2.2 t ht)⟩

omit [DecidableEq C] in
theorem go_code (s : CState T C) (t t' : T) (k : List (CIns C)) : (s.go t k).code t' = if t' = t then k else s.code t' := rfl

/-- a step that touches neither flags nor log nor initializations under way -/
theorem CInv.move {rank : C → Nat} {s : CState T C} (h : CInv rank s) {t : T} {k : List (CIns C)} (hg : GoodCode rank k)
    (hc : ConsOk (fun c => s.prepared c = true) k) (hp : ∀ c, CIns.setPrepared c ∈ k ↔ CIns.setPrepared c ∈ s.code t)
    (hh : ∀ c, k.head? = some (.setPrepared c) ↔ (s.code t).head? = some (.setPrepared c)) {l : Option (T × Nat)} (hl : LockOk l (s.go t k).code)
    {todo : T → List C} : CInv rank { s.go t k with lock := l, todo := todo } := by
  have hpend : ∀ c t', CIns.setPrepared c ∈ (s.go t k).code t' ↔ CIns.setPrepared c ∈ s.code t' := by
    intro c t'
    rw [go_code]
    split
    · rename_i e; subst e; exact hp c
    · exact Iff.rfl
  refine ⟨hl, ?_, ?_, ?_, ?_, ?_, h.built, h.order⟩
  · intro t'
    show GoodCode rank ((s.go t k).code t')
    rw [go_code]
    split
    · exact hg
    · exact h.good t'
  · intro t'
    show ConsOk _ ((s.go t k).code t')
    rw [go_code]
    split
    · exact hc
    · exact h.cons t'
  · intro c hpc
    obtain ⟨e1, e2, e3⟩ := h.prep c hpc
    exact ⟨e1, e2, fun t' hm => e3 t' ((hpend c t').1 hm)⟩
  · intro c hpc hno
    exact h.idle c hpc fun t' hm => hno t' ((hpend c t').2 hm)
  · intro c hpc t' hm
    obtain ⟨e1, e2⟩ := h.busy c hpc t' ((hpend c t').1 hm)
    refine ⟨e1, ?_⟩
    rw [show (s.go t k).log = s.log from rfl, e2]
    have : ((s.go t k).code t').head? = some (.setPrepared c) ↔ (s.code t').head? = some (.setPrepared c) := by
      rw [go_code]
      split
      · rename_i e; subst e; exact hh c
      · exact Iff.rfl
    by_cases hx : (s.code t').head? = some (.setPrepared c)
    · rw [if_pos hx]; exact (if_pos (this.2 hx)).symm
    · rw [if_neg hx]; exact (if_neg (fun hy => hx (this.1 hy))).symm

/-! ### the code of an initialization -/

omit [DecidableEq C] in
theorem good_init {body : C → List (InitCode C)} {rank : C → Nat} (hn : NoBaseInit body) (hr : Ranked body rank) {c : C} {k : List (CIns C)}
    (hg : GoodCode rank k) (hb : Below rank c k) (hrel : CIns.release ∈ k) (hh : ∀ d, k.head? ≠ some (.setPrepared d)) :
    GoodCode rank (initCode body c ++ k) := by
  have hbody : ∀ l : List (InitCode C), (∀ x ∈ l, x ∈ body c) → GoodCode rank (l.map (initIns c) ++ [.initDone c, .setPrepared c] ++ k) := by
    intro l
    induction l with
    | nil =>
      intro _
      refine ⟨⟨?_, rfl⟩, ⟨?_, hb, hrel⟩, hg⟩
      · intro d hd
        have hd : c = d := by simpa using hd
        rw [hd]
      · intro d hd
        exact absurd hd (hh d)
    | cons x l ih =>
      intro hx
      have ih := ih fun y hy => hx y (by simp [hy])
      have hadj : ∀ d, (l.map (initIns c) ++ [CIns.initDone c, CIns.setPrepared c] ++ k).head? ≠ some (CIns.setPrepared d) := by
        intro d
        cases l with
        | nil => simp
        | cons y l =>
          have hy := hx y (by simp)
          cases y with
          | baseInit => exact absurd hy (hn c)
          | _ => simp [initIns]
      have hl : ∀ y ∈ l, y ∈ body c := fun y hy => hx y (by simp [hy])
      have hx := hx x (by simp)
      refine ⟨⟨fun d hd => absurd hd (hadj d), ?_⟩, ih⟩
      cases x with
      | work => trivial
      | fail => trivial
      | baseInit => exact absurd hx (hn c)
      | new d =>
        show Below rank d _
        intro e he
        have hdc := hr c d hx
        rcases List.mem_append.1 he with he | he
        · rcases List.mem_append.1 he with he | he
          · obtain ⟨y, hy, hye⟩ := List.mem_map.1 he
            cases y with
            | baseInit => exact absurd (hl _ hy) (hn c)
            | _ => simp [initIns] at hye
          · simp at he
            rw [he]; exact hdc
        · have := hb e he; omega
  exact hbody (body c) (fun _ h => h)

theorem init_release (body : C → List (InitCode C)) (c : C) : (initCode body c).count CIns.release = 0 := by
  rw [List.count_eq_zero]
  unfold initCode
  intro h
  rcases List.mem_append.1 h with h | h
  · obtain ⟨x, _, hx⟩ := List.mem_map.1 h
    cases x <;> simp [initIns] at hx
  · simp at h

omit [DecidableEq C] in
theorem init_pending {body : C → List (InitCode C)} (hn : NoBaseInit body) (c d : C) : CIns.setPrepared d ∈ initCode body c ↔ d = c := by
  unfold initCode
  rw [List.mem_append]
  constructor
  · rintro (h | h)
    · obtain ⟨x, hx, hxe⟩ := List.mem_map.1 h
      cases x with
      | baseInit => exact absurd hx (hn c)
      | _ => simp [initIns] at hxe
    · simpa using h
  · rintro rfl; exact .inr (by simp)

omit [DecidableEq C] in
theorem init_head {body : C → List (InitCode C)} (hn : NoBaseInit body) (c d : C) (k : List (CIns C)) : (initCode body c ++ k).head? ≠ some (.setPrepared d) := by
  unfold initCode
  cases hb : body c with
  | nil => simp
  | cons x l =>
    cases x with
    | baseInit => exact absurd (by rw [hb]; simp) (hn c)
    | _ => simp [initIns]

omit [DecidableEq C] in
theorem cons_init (body : C → List (InitCode C)) (c : C) {p : C → Prop} {k : List (CIns C)} (h : ConsOk (fun d => p d ∨ d = c) k) : ConsOk p (initCode body c ++ k) := by
  unfold initCode
  generalize body c = l
  suffices H : ∀ (l : List (InitCode C)) (p q : C → Prop), (∀ d, q d → p d ∨ d = c) → ConsOk q k → ConsOk p (l.map (initIns c) ++ [.initDone c, .setPrepared c] ++ k) from
    H l p _ (fun _ h => h) h
  intro l
  induction l with
  | nil => intro p q hq hk; exact hk.mono hq
  | cons x l ih =>
    intro p q hq hk
    cases x with
    | baseInit => exact ih (fun d => p d ∨ d = c) q (fun d hd => (hq d hd).imp_left .inl) hk
    | _ => exact ih p q hq hk

/-! ### counting -/

omit [DecidableEq T] in
theorem starts_append (c : C) (a b : List (CEvent T C)) : starts c (a ++ b) = starts c a + starts c b := by simp [starts]
omit [DecidableEq T] in
theorem dones_append (c : C) (a b : List (CEvent T C)) : dones c (a ++ b) = dones c a + dones c b := by simp [dones]
omit [DecidableEq T] in
theorem fails_append (c : C) (a b : List (CEvent T C)) : fails c (a ++ b) = fails c a + fails c b := by simp [fails]

omit [DecidableEq T] in
theorem failures_none (t : T) (c : C) (k : List (CIns C)) : starts c (failures t k) = 0 ∧ dones c (failures t k) = 0 ∧ ∀ t', CEvent.constructed t' c ∉ failures t k := by
  induction k with
  | nil => simp [failures, starts, dones]
  | cons i k ih =>
    cases i with
    | setPrepared d =>
      simp only [failures]
      obtain ⟨h1, h2, h3⟩ := ih
      refine ⟨?_, ?_, ?_⟩
      · simpa [starts] using h1
      · simpa [dones] using h2
      · intro t'; simpa using h3 t'
    | _ => exact ih

omit [DecidableEq T] in
theorem failures_count (t : T) (c : C) (k : List (CIns C)) : fails c (failures t k) = k.count (.setPrepared c) := by
  induction k with
  | nil => rfl
  | cons i k ih =>
    cases i with
    | setPrepared d =>
      simp only [failures]
      by_cases h : d = c
      · subst h
        rw [List.count_cons_self, ← ih]
        simp [fails]
      · rw [List.count_cons_of_ne (by simpa using h), ← ih]
        simp [fails, h]
    | _ =>
      simp only [failures]
      rw [ih, List.count_cons_of_ne (by simp)]

theorem pending_once {rank : C → Nat} {k : List (CIns C)} (hg : GoodCode rank k) (c : C) : k.count (.setPrepared c) ≤ 1 := by
  induction k with
  | nil => simp
  | cons i k ih =>
    by_cases h : i = .setPrepared c
    · subst h
      rw [List.count_cons_self]
      have : k.count (.setPrepared c) = 0 := by
        rw [List.count_eq_zero]
        intro hm
        exact Nat.lt_irrefl _ (hg.1.2.1 c hm)
      omega
    · rw [List.count_cons_of_ne (by simpa using h)]
      exact ih hg.2

omit [DecidableEq C] in
theorem good_releases {rank : C → Nat} (k : List (CIns C)) (h : ∀ i ∈ k, i = .release) : GoodCode rank k ∧ ∀ p : C → Prop, ConsOk p k := by
  induction k with
  | nil => exact ⟨trivial, fun _ => trivial⟩
  | cons i k ih =>
    have hi := h i (by simp)
    have hk := ih fun j hj => h j (by simp [hj])
    subst hi
    refine ⟨⟨⟨?_, trivial⟩, hk.1⟩, fun p => hk.2 p⟩
    intro c hc
    cases k with
    | nil => simp at hc
    | cons j k =>
      have := h j (by simp)
      subst this
      simp at hc

omit [DecidableEq T] in
theorem order_snoc {log : List (CEvent T C)} {es : List (CEvent T C)} (hes : ∀ t c, CEvent.constructed t c ∉ es)
    (h : ∀ pre post t c, log = pre ++ CEvent.constructed t c :: post → dones c pre = 1 ∧ starts c post = 0 ∧ dones c post = 0)
    (hno : ∀ t c, CEvent.constructed t c ∈ log → starts c es = 0 ∧ dones c es = 0) :
    ∀ pre post t c, log ++ es = pre ++ CEvent.constructed t c :: post → dones c pre = 1 ∧ starts c post = 0 ∧ dones c post = 0 := by
  intro pre post t c he
  rcases List.append_eq_append_iff.1 he with ⟨a, h1, h2⟩ | ⟨a, h1, h2⟩
  · exact absurd (show CEvent.constructed t c ∈ es by rw [h2]; simp) (hes t c)
  · cases a with
    | nil =>
      simp at h2
      exact absurd (show CEvent.constructed t c ∈ es by rw [← h2]; simp) (hes t c)
    | cons b a =>
      simp only [List.cons_append, List.cons.injEq] at h2
      obtain ⟨rfl, rfl⟩ := h2
      obtain ⟨e1, e2, e3⟩ := h pre a t c h1
      obtain ⟨f1, f2⟩ := hno t c (by rw [h1]; simp)
      exact ⟨e1, by rw [starts_append, e2, f1], by rw [dones_append, e3, f2]⟩

/-! ### the steps -/

omit [DecidableEq C] in
theorem filter_release (k : List (CIns C)) : ∀ i ∈ k.filter CIns.isRelease, i = CIns.release := by
  intro i hi
  have := (List.mem_filter.1 hi).2
  cases i <;> simp [CIns.isRelease] at this
  rfl

theorem filter_count (k : List (CIns C)) : (k.filter CIns.isRelease).count .release = k.count CIns.release := by
  induction k with
  | nil => rfl
  | cons i k ih =>
    cases i with
    | release =>
      rw [List.filter_cons_of_pos (show CIns.isRelease (CIns.release : CIns C) = true from rfl), List.count_cons_self, List.count_cons_self, ih]
    | _ => simp [CIns.isRelease, ih]

omit [DecidableEq C] in
theorem mem_other {s : CState T C} {t t' : T} {k : List (CIns C)} (h : t' ≠ t) : (s.go t k).code t' = s.code t' := by rw [go_code, if_neg h]
omit [DecidableEq C] in
theorem mem_self {s : CState T C} {t : T} {k : List (CIns C)} : (s.go t k).code t = k := by rw [go_code, if_pos rfl]

theorem count_go {s : CState T C} {t : T} {k : List (CIns C)} (h : k.count CIns.release = (s.code t).count CIns.release) :
    ∀ t', ((s.go t k).code t').count .release = (s.code t').count CIns.release := by
  intro t'
  rw [go_code]
  split
  · rename_i e; subst e; exact h
  · rfl

theorem CInv.step_plain {body : C → List (InitCode C)} {rank : C → Nat} {s : CState T C} (h : CInv rank s) {t : T} {i : CIns C} {k k' : List (CIns C)}
    (e : s.code t = i :: k) (hg : GoodCode rank k') (hc : ConsOk (fun c => s.prepared c = true) k')
    (hi : ∀ c, i ≠ .setPrepared c) (hp : ∀ c, CIns.setPrepared c ∈ k' ↔ CIns.setPrepared c ∈ k) (hh : ∀ c, k'.head? ≠ some (.setPrepared c))
    {l : Option (T × Nat)} (hl : LockOk l (s.go t k').code) : CInv rank { s.go t k' with lock := l } := by
  have := h.move (t := t) (k := k') hg hc (fun c => by rw [hp, e]; simp [show CIns.setPrepared c ≠ i from fun h' => hi c (Eq.symm h')])
    (fun c => by rw [e]; simp [hi c, hh c]) hl (todo := s.todo)
  exact this

omit [DecidableEq C] in
theorem adj_head {rank : C → Nat} {i : CIns C} {k : List (CIns C)} (h : HeadOk rank i k) (hi : ∀ c, i ≠ .initDone c) : ∀ c, k.head? ≠ some (.setPrepared c) :=
  fun c hc => hi c (h.1 c hc)

theorem cstep_inv {body : C → List (InitCode C)} {rank : C → Nat} (hn : NoBaseInit body) (hr : Ranked body rank) {s : CState T C} (h : CInv rank s)
    (t : T) : CInv rank (cstep body s t) := by
  have hgt := h.good t
  have hct := h.cons t
  unfold cstep
  split
  · rename_i e
    split
    · exact h
    · rename_i c rest _
      refine h.move (t := t) (k := [.check1 c]) ⟨⟨by simp, ?_⟩, trivial⟩ trivial (fun d => by rw [e]; simp) (fun d => by rw [e]; simp) ?_
      · intro d hd; simp at hd
      · exact lock_same h.lock (count_go (by rw [e]; simp))
  · rename_i c k e
    rw [e] at hgt hct
    have hh := adj_head hgt.1 (by simp)
    split
    · rename_i hp
      refine h.step_plain (body := body) (t := t) (k' := .construct c :: k) e ⟨⟨fun d hd => absurd hd (hh d), trivial⟩, hgt.2⟩ ⟨hp, hct⟩ (by simp) (by simp) (by simp) (lock_same h.lock (count_go ?_))
      rw [e]; simp
    · refine h.step_plain (body := body) (t := t) (k' := .acquire c :: k) e ⟨⟨fun d hd => absurd hd (hh d), hgt.1.2⟩, hgt.2⟩ hct (by simp) (by simp) (by simp) (lock_same h.lock (count_go ?_))
      rw [e]; simp
  · rename_i c k e
    rw [e] at hgt hct
    have hh := adj_head hgt.1 (by simp)
    have hg : GoodCode rank (.check2 c :: .release :: .construct c :: k) := by
      refine ⟨⟨by simp, ?_, by simp⟩, ⟨by simp, trivial⟩, ⟨fun d hd => absurd hd (hh d), trivial⟩, hgt.2⟩
      intro d hd
      exact hgt.1.2 d (by simpa using hd)
    have hc : ConsOk (fun c => s.prepared c = true) (.check2 c :: .release :: .construct c :: k) :=
      ⟨.inr rfl, ConsOk.mono (fun _ => .inl) hct⟩
    have hlk := h.lock
    split
    · rename_i el
      rw [el] at hlk
      refine h.step_plain (body := body) (t := t) e hg hc (by simp) (by simp) (by simp) ?_
      have hk := hlk t
      rw [e] at hk
      refine ⟨by simp, ?_, ?_⟩
      · rw [mem_self]
        have : k.count CIns.release = 0 := List.count_eq_zero.2 (fun hm => hk (by simp [hm]))
        simp [this]
      · intro t' ht'; rw [mem_other ht']; exact hlk t'
    · rename_i o n el
      rw [el] at hlk
      split
      · rename_i ho
        subst ho
        refine h.step_plain (body := body) (t := o) e hg hc (by simp) (by simp) (by simp) ?_
        obtain ⟨h1, h2, h3⟩ := hlk
        rw [e] at h2
        refine ⟨by simp, ?_, ?_⟩
        · rw [mem_self, ← h2]
          simp
        · intro t' ht'; rw [mem_other ht']; exact h3 t' ht'
      · exact h
  · rename_i c k e
    rw [e] at hgt hct
    have hh := adj_head hgt.1 (by simp)
    obtain ⟨hb, hrel⟩ := hgt.1.2
    split
    · rename_i hp
      refine h.step_plain (body := body) (t := t) e hgt.2 (ConsOk.mono ?_ hct) (by simp) (by simp) hh (lock_same h.lock (count_go ?_))
      · rintro d (hd | rfl)
        · exact hd
        · exact hp
      · rw [e]; simp
    · rename_i hp
      have hp : s.prepared c = false := by simpa using hp
      have hcode : ∀ t', t' ≠ t → (s.go t (initCode body c ++ k)).code t' = s.code t' := fun t' ht' => mem_other ht'
      have hmine : ∀ d, CIns.setPrepared d ∈ (s.go t (initCode body c ++ k)).code t ↔ d = c ∨ CIns.setPrepared d ∈ k := by
        intro d; rw [mem_self, List.mem_append, init_pending hn]
      have hck : CIns.setPrepared c ∉ k := fun hm => Nat.lt_irrefl _ (hb c hm)
      have hrt : CIns.release ∈ s.code t := by rw [e]; simp [hrel]
      have hcno : ∀ t', CIns.setPrepared c ∉ s.code t' := by
        intro t' hm
        have : t' = t := lock_unique h.lock (good_release (h.good t') hm) hrt
        subst this
        rw [e] at hm
        exact hck (by simpa using hm)
      obtain ⟨hd0, hs0⟩ := h.idle c hp hcno
      have hst : ∀ d, starts d (s.log ++ [CEvent.started t c]) = starts d s.log + if c = d then 1 else 0 := by
        intro d; rw [starts_append]; simp [starts, List.countP_cons]
      have hdt : ∀ d, dones d (s.log ++ [CEvent.started t c]) = dones d s.log := by
        intro d; rw [dones_append]; simp [dones]
      have hft : ∀ d, fails d (s.log ++ [CEvent.started t c]) = fails d s.log := by
        intro d; rw [fails_append]; simp [fails]
      refine ⟨?_, ?_, ?_, ?_, ?_, ?_, ?_, ?_⟩
      · refine lock_same h.lock (count_go ?_)
        rw [e, List.count_append, init_release]; simp
      · intro t'
        show GoodCode rank ((s.go t _).code t')
        by_cases ht : t' = t
        · subst ht
          rw [mem_self]
          exact good_init hn hr hgt.2 hb hrel hh
        · rw [hcode t' ht]; exact h.good t'
      · intro t'
        show ConsOk _ ((s.go t _).code t')
        by_cases ht : t' = t
        · subst ht
          rw [mem_self]
          exact cons_init body c hct
        · rw [hcode t' ht]; exact h.cons t'
      · intro d hpd
        have hpd : s.prepared d = true := hpd
        have hdc : c ≠ d := by rintro rfl; rw [hp] at hpd; simp at hpd
        obtain ⟨e1, e2, e3⟩ := h.prep d hpd
        refine ⟨(hdt d).trans e1, ?_, ?_⟩
        · show starts d (s.log ++ _) = fails d (s.log ++ _) + 1
          rw [hst, hft, if_neg hdc]; exact e2
        · intro t' hm
          have hm : CIns.setPrepared d ∈ (s.go t (initCode body c ++ k)).code t' := hm
          by_cases ht : t' = t
          · subst ht
            rcases (hmine d).1 hm with e | hm
            · exact hdc e.symm
            · exact e3 t' (by rw [e]; simp [hm])
          · rw [hcode t' ht] at hm; exact e3 t' hm
      · intro d hpd hno
        have hpd : s.prepared d = false := hpd
        have hdc : c ≠ d := by rintro rfl; exact hno t ((hmine c).2 (.inl rfl))
        have hno' : ∀ t', CIns.setPrepared d ∉ s.code t' := by
          intro t' hm
          by_cases ht : t' = t
          · subst ht
            rw [e] at hm
            exact hno t' ((hmine d).2 (.inr (by simpa using hm)))
          · exact hno t' ((by rw [show _ = _ from hcode t' ht]; exact hm : CIns.setPrepared d ∈ (s.go t (initCode body c ++ k)).code t'))
        obtain ⟨e1, e2⟩ := h.idle d hpd hno'
        refine ⟨(hdt d).trans e1, ?_⟩
        show starts d (s.log ++ _) = fails d (s.log ++ _)
        rw [hst, hft, if_neg hdc]; exact e2
      · intro d hpd t' hm
        have hpd : s.prepared d = false := hpd
        have hm : CIns.setPrepared d ∈ (s.go t (initCode body c ++ k)).code t' := hm
        show starts d (s.log ++ _) = fails d (s.log ++ _) + 1 ∧ dones d (s.log ++ _) =
          if ((s.go t (initCode body c ++ k)).code t').head? = some (.setPrepared d) then 1 else 0
        rw [hst, hft, hdt]
        have htt : t' = t := by
          by_cases ht : t' = t
          · exact ht
          · rw [hcode t' ht] at hm
            exact lock_unique h.lock (good_release (h.good t') hm) hrt
        subst htt
        rw [mem_self, if_neg (init_head hn c d k)]
        rcases (hmine d).1 hm with rfl | hm
        · rw [if_pos rfl, hs0]; exact ⟨rfl, hd0⟩
        · have hdc : c ≠ d := by rintro rfl; exact hck hm
          obtain ⟨e1, e2⟩ := h.busy d hpd t' (by rw [e]; simp [hm])
          rw [e] at e2
          simp only [List.head?_cons, Option.some.injEq, reduceCtorEq, if_false] at e2
          rw [if_neg hdc]
          exact ⟨e1, e2⟩
      · intro t' d hm
        have hm : CEvent.constructed t' d ∈ s.log ++ [CEvent.started t c] := hm
        exact h.built t' d (by simpa using hm)
      · refine order_snoc (by simp) h.order ?_
        intro t' d hm
        have hpd := h.built t' d hm
        have hdc : c ≠ d := by rintro rfl; rw [hp] at hpd; simp at hpd
        simp [starts, dones, List.countP_cons, hdc]
  · rename_i k e
    rw [e] at hgt hct
    have hh := adj_head hgt.1 (by simp)
    refine h.step_plain (body := body) (t := t) e hgt.2 hct (by simp) (by simp) hh ?_
    have hlk := h.lock
    have hrt : CIns.release ∈ s.code t := by rw [e]; simp
    split
    · rename_i o n el
      rw [el] at hlk
      obtain ⟨h1, h2, h3⟩ := hlk
      have ho : t = o := Classical.byContradiction fun hne => h3 t hne hrt
      subst ho
      rw [e] at h2
      simp only [List.count_cons_self] at h2
      split
      · intro t'
        by_cases ht : t' = t
        · subst ht; rw [mem_self]; exact List.count_eq_zero.1 (by omega)
        · rw [mem_other ht]; exact h3 t' ht
      · refine ⟨by omega, ?_, ?_⟩
        · rw [mem_self]; omega
        · intro t' ht; rw [mem_other ht]; exact h3 t' ht
    · rename_i el
      rw [el] at hlk
      exact absurd hrt (hlk t)
  · rename_i c k e
    rw [e] at hgt hct
    have hh := adj_head hgt.1 (by simp)
    have hpc : s.prepared c = true := hct.1
    have h' := h.step_plain (body := body) (t := t) (k' := k) e hgt.2 hct.2 (by simp) (by simp) hh (lock_same h.lock (count_go (by rw [e]; simp)))
    have hst : ∀ d, starts d (s.log ++ [CEvent.constructed t c]) = starts d s.log := by intro d; rw [starts_append]; simp [starts]
    have hdt : ∀ d, dones d (s.log ++ [CEvent.constructed t c]) = dones d s.log := by intro d; rw [dones_append]; simp [dones]
    have hft : ∀ d, fails d (s.log ++ [CEvent.constructed t c]) = fails d s.log := by intro d; rw [fails_append]; simp [fails]
    refine ⟨h'.lock, h'.good, h'.cons, ?_, ?_, ?_, ?_, ?_⟩
    · intro d hd
      obtain ⟨e1, e2, e3⟩ := h'.prep d hd
      exact ⟨(hdt d).trans e1, (hst d).trans (e2.trans (congrArg (· + 1) (hft d).symm)), e3⟩
    · intro d hd hno
      obtain ⟨e1, e2⟩ := h'.idle d hd hno
      exact ⟨(hdt d).trans e1, (hst d).trans (e2.trans (hft d).symm)⟩
    · intro d hd t' hm
      obtain ⟨e1, e2⟩ := h'.busy d hd t' hm
      exact ⟨(hst d).trans (e1.trans (congrArg (· + 1) (hft d).symm)), (hdt d).trans e2⟩
    · intro t' d hm
      have hm : CEvent.constructed t' d ∈ s.log ++ [CEvent.constructed t c] := hm
      rcases List.mem_append.1 hm with hm | hm
      · exact h.built t' d hm
      · have hm : t' = t ∧ d = c := by simpa using hm
        show s.prepared d = true
        rw [hm.2]; exact hpc
    · intro pre post t' d he
      have he : s.log ++ [CEvent.constructed t c] = pre ++ CEvent.constructed t' d :: post := he
      rcases eq_nil_or_snoc post with rfl | ⟨post', x, rfl⟩
      · have := List.append_inj' he rfl
        have hd : d = c := by simpa using (congrArg (fun l => l) this.2.symm : [CEvent.constructed t' d] = [CEvent.constructed t c]) |> fun h => (by simpa using h : t' = t ∧ d = c).2
        subst hd
        rw [← this.1]
        exact ⟨(h.prep d hpc).1, rfl, rfl⟩
      · rw [show pre ++ CEvent.constructed t' d :: (post' ++ [x]) = (pre ++ CEvent.constructed t' d :: post') ++ [x] by simp] at he
        have := List.append_inj' he rfl
        obtain ⟨e1, e2, e3⟩ := h.order pre post' t' d this.1
        have hx : x = CEvent.constructed t c := by have := this.2; simp at this; exact this.symm
        subst hx
        exact ⟨e1, by rw [starts_append, e2]; simp [starts], by rw [dones_append, e3]; simp [dones]⟩
  · rename_i k e
    rw [e] at hgt hct
    have hh := adj_head hgt.1 (by simp)
    exact h.step_plain (body := body) (t := t) e hgt.2 hct (by simp) (by simp) hh (lock_same h.lock (count_go (by rw [e]; simp)))
  · rename_i k e
    rw [e] at hgt hct
    have hh := adj_head hgt.1 (by simp)
    have hfr := filter_release k
    have hmine : ∀ d, CIns.setPrepared d ∉ k.filter CIns.isRelease := fun d hd => by have := hfr _ hd; simp at this
    have hst : ∀ d, starts d (s.log ++ failures t k) = starts d s.log := by intro d; rw [starts_append, (failures_none t d k).1]; rfl
    have hdt : ∀ d, dones d (s.log ++ failures t k) = dones d s.log := by intro d; rw [dones_append, (failures_none t d k).2.1]; rfl
    have hft : ∀ d, fails d (s.log ++ failures t k) = fails d s.log + k.count (.setPrepared d) := by intro d; rw [fails_append, failures_count]
    refine ⟨?_, ?_, ?_, ?_, ?_, ?_, ?_, ?_⟩
    · refine lock_same h.lock (count_go ?_)
      rw [e, filter_count]; simp
    · intro t'
      show GoodCode rank ((s.go t _).code t')
      by_cases ht : t' = t
      · subst ht; rw [mem_self]; exact (good_releases _ hfr).1
      · rw [mem_other ht]; exact h.good t'
    · intro t'
      show ConsOk _ ((s.go t _).code t')
      by_cases ht : t' = t
      · subst ht; rw [mem_self]; exact (good_releases (rank := rank) _ hfr).2 _
      · rw [mem_other ht]; exact h.cons t'
    · intro d hd
      obtain ⟨e1, e2, e3⟩ := h.prep d hd
      have h0 : k.count (.setPrepared d) = 0 := List.count_eq_zero.2 fun hm => e3 t (by rw [e]; simp [hm])
      refine ⟨(hdt d).trans e1, ?_, ?_⟩
      · show starts d (s.log ++ _) = fails d (s.log ++ _) + 1
        rw [hst, hft, h0]; exact e2
      · intro t' hm
        have hm : CIns.setPrepared d ∈ (s.go t (k.filter CIns.isRelease)).code t' := hm
        by_cases ht : t' = t
        · subst ht; rw [mem_self] at hm; exact hmine d hm
        · rw [mem_other ht] at hm; exact e3 t' hm
    · intro d hd hno
      have hd : s.prepared d = false := hd
      show dones d (s.log ++ _) = 0 ∧ starts d (s.log ++ _) = fails d (s.log ++ _)
      rw [hst, hdt, hft]
      by_cases hm : CIns.setPrepared d ∈ k
      · obtain ⟨e1, e2⟩ := h.busy d hd t (by rw [e]; simp [hm])
        rw [e] at e2
        have h1 : 0 < k.count (.setPrepared d) := List.count_pos_iff.2 hm
        have h2 := pending_once hgt.2 d
        refine ⟨by simpa using e2, by omega⟩
      · have h0 : k.count (.setPrepared d) = 0 := List.count_eq_zero.2 hm
        rw [h0]
        refine h.idle d hd ?_
        intro t' hm'
        by_cases ht : t' = t
        · subst ht; rw [e] at hm'; exact hm (by simpa using hm')
        · exact hno t' (show CIns.setPrepared d ∈ (s.go t (k.filter CIns.isRelease)).code t' by rw [mem_other ht]; exact hm')
    · intro d hd t' hm
      have hd : s.prepared d = false := hd
      have hm : CIns.setPrepared d ∈ (s.go t (k.filter CIns.isRelease)).code t' := hm
      by_cases ht : t' = t
      · subst ht; rw [mem_self] at hm; exact absurd hm (hmine d)
      · rw [mem_other ht] at hm
        have h0 : k.count (.setPrepared d) = 0 := by
          refine List.count_eq_zero.2 fun hk => ht ?_
          exact h.pending_unique hm (show CIns.setPrepared d ∈ s.code t by rw [e]; simp [hk])
        show starts d (s.log ++ _) = fails d (s.log ++ _) + 1 ∧ dones d (s.log ++ _) =
          if ((s.go t (k.filter CIns.isRelease)).code t').head? = some (.setPrepared d) then 1 else 0
        rw [hst, hdt, hft, h0, mem_other ht]
        exact h.busy d hd t' hm
    · intro t' d hm
      have hm : CEvent.constructed t' d ∈ s.log ++ failures t k := hm
      rcases List.mem_append.1 hm with hm | hm
      · exact h.built t' d hm
      · exact absurd hm ((failures_none t d k).2.2 t')
    · refine order_snoc (fun t' d => (failures_none t d k).2.2 t') h.order ?_
      intro t' d _
      exact ⟨(failures_none t d k).1, (failures_none t d k).2.1⟩
  · rename_i c k e
    rw [e] at hgt hct
    have hk : k.head? = some (.setPrepared c) := hgt.1.2
    have hck : CIns.setPrepared c ∈ k := List.mem_of_head? hk
    have hpc : s.prepared c = false := by
      cases hp : s.prepared c with
      | false => rfl
      | true => exact absurd (show CIns.setPrepared c ∈ s.code t by rw [e]; simp [hck]) ((h.prep c hp).2.2 t)
    have hpend : ∀ d t', CIns.setPrepared d ∈ (s.go t k).code t' ↔ CIns.setPrepared d ∈ s.code t' := by
      intro d t'
      by_cases ht : t' = t
      · subst ht; rw [mem_self, e]; simp
      · rw [mem_other ht]
    have hst : ∀ d, starts d (s.log ++ [CEvent.done t c]) = starts d s.log := by intro d; rw [starts_append]; simp [starts]
    have hdt : ∀ d, dones d (s.log ++ [CEvent.done t c]) = dones d s.log + if c = d then 1 else 0 := by
      intro d; rw [dones_append]; simp [dones, List.countP_cons]
    have hft : ∀ d, fails d (s.log ++ [CEvent.done t c]) = fails d s.log := by intro d; rw [fails_append]; simp [fails]
    refine ⟨lock_same h.lock (count_go (by rw [e]; simp)), ?_, ?_, ?_, ?_, ?_, ?_, ?_⟩
    · intro t'
      show GoodCode rank ((s.go t _).code t')
      by_cases ht : t' = t
      · subst ht; rw [mem_self]; exact hgt.2
      · rw [mem_other ht]; exact h.good t'
    · intro t'
      show ConsOk _ ((s.go t _).code t')
      by_cases ht : t' = t
      · subst ht; rw [mem_self]; exact hct
      · rw [mem_other ht]; exact h.cons t'
    · intro d hd
      have hd : s.prepared d = true := hd
      obtain ⟨e1, e2, e3⟩ := h.prep d hd
      have hdc : c ≠ d := by rintro rfl; rw [hpc] at hd; simp at hd
      refine ⟨?_, (hst d).trans (e2.trans (congrArg (· + 1) (hft d).symm)), fun t' hm => e3 t' ((hpend d t').1 hm)⟩
      show dones d (s.log ++ _) = 1
      rw [hdt, if_neg hdc]; exact e1
    · intro d hd hno
      have hdc : c ≠ d := by rintro rfl; exact hno t (show CIns.setPrepared c ∈ (s.go t k).code t by rw [mem_self]; exact hck)
      obtain ⟨e1, e2⟩ := h.idle d hd fun t' hm => hno t' ((hpend d t').2 hm)
      refine ⟨?_, (hst d).trans (e2.trans (hft d).symm)⟩
      show dones d (s.log ++ _) = 0
      rw [hdt, if_neg hdc]; exact e1
    · intro d hd t' hm
      obtain ⟨e1, e2⟩ := h.busy d hd t' ((hpend d t').1 hm)
      refine ⟨(hst d).trans (e1.trans (congrArg (· + 1) (hft d).symm)), ?_⟩
      show dones d (s.log ++ _) = if ((s.go t k).code t').head? = some (.setPrepared d) then 1 else 0
      have htt : t' = t := h.pending_unique ((hpend d t').1 hm) (show CIns.setPrepared c ∈ s.code t by rw [e]; simp [hck])
      subst htt
      rw [hdt, mem_self, hk, e2, e]
      by_cases hcd : c = d <;> simp [hcd]
    · intro t' d hm
      have hm : CEvent.constructed t' d ∈ s.log ++ [CEvent.done t c] := hm
      exact h.built t' d (by simpa using hm)
    · refine order_snoc (by simp) h.order ?_
      intro t' d hm
      have hpd := h.built t' d hm
      have hdc : c ≠ d := by rintro rfl; rw [hpc] at hpd; simp at hpd
      simp [starts, dones, List.countP_cons, hdc]
  · rename_i c k e
    rw [e] at hgt hct
    have hh := adj_head hgt.1 (by simp)
    obtain ⟨hb, hrel⟩ := hgt.1.2
    have hct0 : CIns.setPrepared c ∈ s.code t := by rw [e]; simp
    have hpc : s.prepared c = false := by
      cases hp : s.prepared c with
      | false => rfl
      | true => exact absurd hct0 ((h.prep c hp).2.2 t)
    obtain ⟨b1, b2⟩ := h.busy c hpc t hct0
    rw [e] at b2
    simp only [List.head?_cons, if_pos] at b2
    have hck : CIns.setPrepared c ∉ k := fun hm => Nat.lt_irrefl _ (hb c hm)
    have hpend : ∀ d t', CIns.setPrepared d ∈ (s.go t k).code t' ↔ d ≠ c ∧ CIns.setPrepared d ∈ s.code t' := by
      intro d t'
      by_cases ht : t' = t
      · subst ht; rw [mem_self, e]
        simp only [List.mem_cons, CIns.setPrepared.injEq]
        constructor
        · intro hm; exact ⟨fun hx => hck (hx ▸ hm), .inr hm⟩
        · rintro ⟨h1, h2 | h2⟩
          · exact absurd h2 h1
          · exact h2
      · rw [mem_other ht]
        constructor
        · intro hm
          exact ⟨fun hx => ht (h.pending_unique hm hct0), hm⟩
        · exact fun hm => hm.2
    refine ⟨lock_same h.lock (count_go (by rw [e]; simp)), ?_, ?_, ?_, ?_, ?_, ?_, h.order⟩
    · intro t'
      show GoodCode rank ((s.go t _).code t')
      by_cases ht : t' = t
      · subst ht; rw [mem_self]; exact hgt.2
      · rw [mem_other ht]; exact h.good t'
    · intro t'
      show ConsOk (fun c' => (if c' = c then true else s.prepared c') = true) ((s.go t _).code t')
      by_cases ht : t' = t
      · subst ht; rw [mem_self]
        refine ConsOk.mono ?_ hct
        rintro d (hd | hd)
        · split
          · rfl
          · exact hd
        · rw [if_pos hd]
      · rw [mem_other ht]
        refine ConsOk.mono ?_ (h.cons t')
        intro d hd
        split
        · rfl
        · exact hd
    · intro d hd
      have hd : (if d = c then true else s.prepared d) = true := hd
      by_cases hdc : d = c
      · subst hdc
        exact ⟨b2, b1, fun t' hm => ((hpend d t').1 hm).1 rfl⟩
      · rw [if_neg hdc] at hd
        obtain ⟨e1, e2, e3⟩ := h.prep d hd
        exact ⟨e1, e2, fun t' hm => e3 t' ((hpend d t').1 hm).2⟩
    · intro d hd hno
      have hd : (if d = c then true else s.prepared d) = false := hd
      by_cases hdc : d = c
      · rw [if_pos hdc] at hd; simp at hd
      · rw [if_neg hdc] at hd
        exact h.idle d hd fun t' hm => hno t' ((hpend d t').2 ⟨hdc, hm⟩)
    · intro d hd t' hm
      have hd : (if d = c then true else s.prepared d) = false := hd
      have hm2 : d ≠ c ∧ CIns.setPrepared d ∈ s.code t' := (hpend d t').1 hm
      rw [if_neg hm2.1] at hd
      obtain ⟨e1, e2⟩ := h.busy d hd t' hm2.2
      refine ⟨e1, ?_⟩
      have htt : t' = t := h.pending_unique hm2.2 hct0
      subst htt
      show dones d s.log = if ((s.go t' k).code t').head? = some (.setPrepared d) then 1 else 0
      rw [mem_self, if_neg (hh d), e2, e]
      simp [show c ≠ d from fun hx => hm2.1 hx.symm]
    · intro t' d hm
      show (if d = c then true else s.prepared d) = true
      split
      · rfl
      · exact h.built t' d hm

omit [DecidableEq T] in
theorem cstart_inv (rank : C → Nat) (todo : T → List C) : CInv rank (cstart todo : CState T C) :=
  ⟨fun t => by simp [cstart], fun t => trivial, fun t => trivial, fun c h => by simp [cstart] at h, fun c _ _ => ⟨rfl, rfl⟩,
    fun c _ t h => by simp [cstart] at h, fun t c h => by simp [cstart] at h, fun pre post t c h => by simp [cstart] at h⟩

theorem crun_inv {body : C → List (InitCode C)} {rank : C → Nat} (hn : NoBaseInit body) (hr : Ranked body rank) {s : CState T C} (h : CInv rank s)
    (ts : List T) : CInv rank (crun body s ts) := by
  induction ts generalizing s with
  | nil => exact h
  | cons t ts ih => exact ih (cstep_inv hn hr h t)

/-! ### running to the end -/

/-- how much code instantiating a class may run, with classes of lower rank within its initialization -/
def cost (body : C → List (InitCode C)) : Nat → C → Nat
  | 0, _ => 0
  | n + 1, c => ((body c).map fun x => match x with | .new d => cost body n d + 5 | _ => 1).sum + 2

omit [DecidableEq C] in
theorem cost_stable {body : C → List (InitCode C)} {rank : C → Nat} (hr : Ranked body rank) (n m : Nat) (c : C) (hn : rank c < n) (hm : rank c < m) :
    cost body n c = cost body m c := by
  induction n generalizing m c with
  | zero => omega
  | succ n ih =>
    cases m with
    | zero => omega
    | succ m =>
      unfold cost
      congr 2
      apply List.map_congr_left
      intro x hx
      cases x with
      | new d =>
        have := hr c d hx
        show cost body n d + 5 = cost body m d + 5
        rw [ih m d (by omega) (by omega)]
      | _ => rfl

/-- the cost of an instruction -/
def insCost (body : C → List (InitCode C)) (rank : C → Nat) : CIns C → Nat
  | .check1 c => cost body (rank c + 1) c + 5
  | .acquire c => cost body (rank c + 1) c + 4
  | .check2 c => cost body (rank c + 1) c + 1
  | _ => 1

def codeCost (body : C → List (InitCode C)) (rank : C → Nat) (k : List (CIns C)) : Nat := (k.map (insCost body rank)).sum

omit [DecidableEq C] in
theorem initCode_cost {body : C → List (InitCode C)} {rank : C → Nat} (hr : Ranked body rank) (c : C) :
    codeCost body rank (initCode body c) = cost body (rank c + 1) c := by
  unfold codeCost initCode cost
  rw [List.map_append, List.sum_append, List.map_map]
  congr 2
  apply List.map_congr_left
  intro x hx
  cases x with
  | new d =>
    have := hr c d hx
    show cost body (rank d + 1) d + 5 = cost body (rank c) d + 5
    rw [cost_stable hr (rank d + 1) (rank c) d (by omega) this]
  | _ => rfl

/-- what a thread may still run -/
def threadCost (body : C → List (InitCode C)) (rank : C → Nat) (s : CState T C) (t : T) : Nat :=
  codeCost body rank (s.code t) + ((s.todo t).map fun c => cost body (rank c + 1) c + 6).sum

omit [DecidableEq C] in
theorem codeCost_cons (body : C → List (InitCode C)) (rank : C → Nat) (i : CIns C) (k : List (CIns C)) :
    codeCost body rank (i :: k) = insCost body rank i + codeCost body rank k := by simp [codeCost]
omit [DecidableEq C] in
theorem codeCost_append (body : C → List (InitCode C)) (rank : C → Nat) (a b : List (CIns C)) :
    codeCost body rank (a ++ b) = codeCost body rank a + codeCost body rank b := by simp [codeCost]

omit [DecidableEq C] in
theorem codeCost_filter (body : C → List (InitCode C)) (rank : C → Nat) (k : List (CIns C)) :
    codeCost body rank (k.filter CIns.isRelease) ≤ codeCost body rank k := by
  induction k with
  | nil => exact Nat.le_refl _
  | cons i k ih =>
    rw [List.filter_cons]
    split
    · rw [codeCost_cons, codeCost_cons]; omega
    · rw [codeCost_cons]; omega

/-- is the thread waiting for the lock of another? -/
def Waiting (s : CState T C) (t : T) : Prop := ∃ c k o n, s.code t = .acquire c :: k ∧ s.lock = some (o, n) ∧ o ≠ t

/-- has it nothing more to do? -/
def Idle (s : CState T C) (t : T) : Prop := s.code t = [] ∧ s.todo t = []

theorem cstep_other (body : C → List (InitCode C)) (s : CState T C) {t t' : T} (h : t' ≠ t) :
    (cstep body s t).code t' = s.code t' ∧ (cstep body s t).todo t' = s.todo t' := by
  unfold cstep
  split
  · split
    · exact ⟨rfl, rfl⟩
    · exact ⟨mem_other h, by simp [h]⟩
  · split <;> exact ⟨mem_other h, rfl⟩
  · split
    · exact ⟨mem_other h, rfl⟩
    · split
      · exact ⟨mem_other h, rfl⟩
      · exact ⟨rfl, rfl⟩
  · split <;> exact ⟨mem_other h, rfl⟩
  all_goals exact ⟨mem_other h, rfl⟩

theorem cstep_cost {body : C → List (InitCode C)} {rank : C → Nat} (hr : Ranked body rank) (s : CState T C) (t : T) (hw : ¬ Waiting s t) (hi : ¬ Idle s t) :
    threadCost body rank (cstep body s t) t < threadCost body rank s t := by
  have key : ∀ (i : CIns C) (k k' : List (CIns C)) (s' : CState T C), s.code t = i :: k → s'.code t = k' → s'.todo t = s.todo t →
      codeCost body rank k' < codeCost body rank (i :: k) → threadCost body rank s' t < threadCost body rank s t := by
    intro i k k' s' e e' et hlt
    unfold threadCost
    rw [e, e', et]; omega
  unfold cstep
  split
  · rename_i e
    split
    · rename_i e'; exact absurd ⟨e, e'⟩ hi
    · rename_i c rest e'
      unfold threadCost
      rw [e, e']
      simp [CState.go, codeCost, insCost]
  · rename_i c k e
    split
    · exact key _ _ _ _ e mem_self rfl (by rw [codeCost_cons, codeCost_cons]; simp [insCost])
    · exact key _ _ _ _ e mem_self rfl (by rw [codeCost_cons, codeCost_cons]; simp [insCost])
  · rename_i c k e
    have hlt : codeCost body rank (.check2 c :: .release :: .construct c :: k) < codeCost body rank (.acquire c :: k) := by
      simp only [codeCost_cons, insCost]; omega
    split
    · exact key _ _ _ _ e mem_self rfl hlt
    · rename_i o n el
      split
      · exact key _ _ _ _ e mem_self rfl hlt
      · rename_i ho; exact absurd ⟨c, k, o, n, e, el, ho⟩ hw
  · rename_i c k e
    split
    · exact key _ _ _ _ e mem_self rfl (by rw [codeCost_cons]; simp [insCost])
    · refine key _ _ (initCode body c ++ k) _ e mem_self rfl ?_
      rw [codeCost_append, initCode_cost hr, codeCost_cons]; simp [insCost]
  · rename_i k e
    exact key _ _ _ _ e mem_self rfl (by rw [codeCost_cons]; simp [insCost])
  · rename_i c k e
    exact key _ _ _ _ e mem_self rfl (by rw [codeCost_cons]; simp [insCost])
  · rename_i k e
    exact key _ _ _ _ e mem_self rfl (by rw [codeCost_cons]; simp [insCost])
  · rename_i k e
    refine key _ _ _ _ e mem_self rfl ?_
    have := codeCost_filter body rank k
    rw [codeCost_cons]; simp only [insCost]; omega
  · rename_i c k e
    exact key _ _ _ _ e mem_self rfl (by rw [codeCost_cons]; simp [insCost])
  · rename_i c k e
    exact key _ _ _ _ e mem_self rfl (by rw [codeCost_cons]; simp [insCost])

omit [DecidableEq T] in
/-- some thread can go on -/
theorem CInv.ready {rank : C → Nat} {s : CState T C} (h : CInv rank s) {t : T} (hi : ¬ Idle s t) : ∃ t', ¬ Idle s t' ∧ ¬ Waiting s t' := by
  by_cases hw : Waiting s t
  · obtain ⟨c, k, o, n, e, el, ho⟩ := hw
    have hlk := h.lock
    rw [el] at hlk
    have hrel : CIns.release ∈ s.code o := List.count_pos_iff.1 (by rw [hlk.2.1]; exact hlk.1)
    refine ⟨o, ?_, ?_⟩
    · rintro ⟨h1, _⟩; rw [h1] at hrel; simp at hrel
    · rintro ⟨c', k', o', n', _, el', ho'⟩
      rw [el] at el'
      have : o = o' := by simp at el'; exact el'.1
      exact ho' this.symm
  · exact ⟨t, hi, hw⟩

theorem crun_append (body : C → List (InitCode C)) (s : CState T C) (a b : List T) : crun body s (a ++ b) = crun body (crun body s a) b := by
  induction a generalizing s with
  | nil => rfl
  | cons t a ih => exact ih _

theorem crun_idle (body : C → List (InitCode C)) (s : CState T C) {t : T} (h : Idle s t) (ts : List T) : Idle (crun body s ts) t := by
  induction ts generalizing s with
  | nil => exact h
  | cons u ts ih =>
    refine ih _ ?_
    by_cases hu : t = u
    · subst hu
      have : cstep body s t = s := by unfold cstep; rw [h.1]; simp only []; rw [h.2]
      rw [this]; exact h
    · obtain ⟨e1, e2⟩ := cstep_other body s hu
      exact ⟨e1.trans h.1, e2.trans h.2⟩

/-- everything can be run to the end -/
theorem finish {body : C → List (InitCode C)} {rank : C → Nat} (hn : NoBaseInit body) (hr : Ranked body rank) (threads : List T) (n : Nat)
    (s : CState T C) (h : CInv rank s) (hc : (threads.map (threadCost body rank s)).sum ≤ n) (hout : ∀ t, t ∉ threads → Idle s t) :
    ∃ more, ∀ t, Idle (crun body s more) t := by
  induction n using Nat.strongRecOn generalizing s with
  | ind n ih =>
    by_cases hall : ∀ t, Idle s t
    · exact ⟨[], hall⟩
    · obtain ⟨t0, ht0⟩ := Classical.not_forall.1 hall
      obtain ⟨t, hti, htw⟩ := h.ready ht0
      have hmem : t ∈ threads := Classical.byContradiction fun hm => hti (hout t hm)
      have hdec := cstep_cost hr s t htw hti
      have hoth : ∀ t', t' ≠ t → threadCost body rank (cstep body s t) t' = threadCost body rank s t' := by
        intro t' ht'
        obtain ⟨e1, e2⟩ := cstep_other body s ht'
        unfold threadCost
        rw [e1, e2]
      have hsum : ∀ l : List T, (l.map (threadCost body rank (cstep body s t))).sum ≤ (l.map (threadCost body rank s)).sum ∧
          (t ∈ l → (l.map (threadCost body rank (cstep body s t))).sum < (l.map (threadCost body rank s)).sum) := by
        intro l
        induction l with
        | nil => simp
        | cons u l ihl =>
          simp only [List.map_cons, List.sum_cons]
          by_cases hu : u = t
          · subst hu; exact ⟨by have := ihl.1; omega, fun _ => by have := ihl.1; omega⟩
          · rw [hoth u hu]
            refine ⟨by have := ihl.1; omega, fun hm => ?_⟩
            have := ihl.2 (by simpa [Ne.symm hu] using hm)
            omega
      have hlt := (hsum threads).2 hmem
      obtain ⟨more, hmore⟩ := ih _ (Nat.lt_of_lt_of_le hlt hc) (cstep body s t) (cstep_inv hn hr h t) (Nat.le_refl _)
        (fun t' ht' => by
          have := crun_idle body s (hout t' ht') [t]
          exact this)
      exact ⟨t :: more, hmore⟩

/-! ### without failures every instantiation gets its instance -/

/-- an instance of `c` is still to come, in thread `t` -/
def ToCome (s : CState T C) (t : T) (c : C) : Prop :=
  c ∈ s.todo t ∨ CIns.check1 c ∈ s.code t ∨ CIns.acquire c ∈ s.code t ∨ CIns.construct c ∈ s.code t ∨ CEvent.constructed t c ∈ s.log

omit [DecidableEq C] in
theorem init_nofail {body : C → List (InitCode C)} (hf : NoFail body) (c : C) : CIns.fail ∉ initCode body c := by
  unfold initCode
  intro h
  rcases List.mem_append.1 h with h | h
  · obtain ⟨x, hx, hxe⟩ := List.mem_map.1 h
    cases x with
    | fail => exact hf c hx
    | _ => simp [initIns] at hxe
  · simp at h

theorem cstep_nofail {body : C → List (InitCode C)} (hf : NoFail body) (s : CState T C) (u : T) (hs : ∀ t, CIns.fail ∉ s.code t) :
    ∀ t, CIns.fail ∉ (cstep body s u).code t := by
  have hgo : ∀ (k' : List (CIns C)), CIns.fail ∉ k' → ∀ t, CIns.fail ∉ (s.go u k').code t := by
    intro k' hk' t
    by_cases ht : t = u
    · subst ht; rw [mem_self]; exact hk'
    · rw [mem_other ht]; exact hs t
  have hk : ∀ i k, s.code u = i :: k → CIns.fail ∉ k := fun i k e hm => hs u (by rw [e]; simp [hm])
  unfold cstep
  split
  · split
    · exact hs
    · exact hgo _ (by simp)
  · rename_i c k e
    split <;> exact hgo _ (by simpa using hk _ _ e)
  · rename_i c k e
    split
    · exact hgo _ (by simpa using hk _ _ e)
    · split
      · exact hgo _ (by simpa using hk _ _ e)
      · exact hs
  · rename_i c k e
    split
    · exact hgo _ (hk _ _ e)
    · refine hgo _ fun hx => ?_
      rcases List.mem_append.1 hx with hx | hx
      · exact init_nofail hf c hx
      · exact hk _ _ e hx
  · rename_i k e; exact hgo _ (hk _ _ e)
  · rename_i c k e; exact hgo _ (hk _ _ e)
  · rename_i k e; exact hgo _ (hk _ _ e)
  · rename_i k e; exact hgo _ fun hx => hk _ _ e (List.mem_filter.1 hx).1
  · rename_i c k e; exact hgo _ (hk _ _ e)
  · rename_i c k e; exact hgo _ (hk _ _ e)

theorem cstep_tocome {body : C → List (InitCode C)} (hf : NoFail body) (s : CState T C) (u t : T) (c : C) (hs : ∀ t, CIns.fail ∉ s.code t)
    (h : ToCome s t c) : ToCome (cstep body s u) t c ∧ ∀ t, CIns.fail ∉ (cstep body s u).code t := by
  have hgo : ∀ (k' : List (CIns C)), CIns.fail ∉ k' → ∀ t, CIns.fail ∉ (s.go u k').code t := by
    intro k' hk' t
    by_cases ht : t = u
    · subst ht; rw [mem_self]; exact hk'
    · rw [mem_other ht]; exact hs t
  have hu := hs u
  by_cases htu : t = u
  · subst htu
    unfold cstep
    unfold ToCome at h
    split
    · rename_i e
      split
      · exact ⟨h, hs⟩
      · rename_i d rest e'
        refine ⟨?_, hgo _ (by simp)⟩
        rw [e, e'] at h
        unfold ToCome
        rcases h with h | h | h | h | h
        · rcases List.mem_cons.1 h with rfl | h
          · right; left; show _ ∈ (s.go t _).code t; rw [mem_self]; simp
          · left; simpa using h
        · simp at h
        · simp at h
        · simp at h
        · simp [h]; exact .inr (.inr (.inr (.inr h)))
    · rename_i d k e
      rw [e] at h hu
      have hk : CIns.fail ∉ k := fun hm => hu (by simp [hm])
      have hm : ∀ k : List (CIns C), (s.go t k).code t = k := fun k => mem_self
      split <;> refine ⟨?_, hgo _ (by simpa using hk)⟩ <;> unfold ToCome <;> rw [hm] <;>
        show c ∈ s.todo t ∨ _ ∨ _ ∨ _ ∨ CEvent.constructed t c ∈ s.log <;> simp only [List.mem_cons, CIns.check1.injEq, CIns.construct.injEq, CIns.acquire.injEq, reduceCtorEq, false_or] at h ⊢ <;> grind
    · rename_i d k e
      rw [e] at h hu
      have hk : CIns.fail ∉ k := fun hm => hu (by simp [hm])
      have hm : ∀ k : List (CIns C), (s.go t k).code t = k := fun k => mem_self
      split
      · refine ⟨?_, hgo _ (by simpa using hk)⟩
        unfold ToCome
        show c ∈ s.todo t ∨ _ ∈ (s.go t _).code t ∨ _ ∈ (s.go t _).code t ∨ _ ∈ (s.go t _).code t ∨ CEvent.constructed t c ∈ s.log
        rw [hm]
        simp only [List.mem_cons, CIns.check1.injEq, CIns.construct.injEq, CIns.acquire.injEq, reduceCtorEq, false_or] at h ⊢
        grind
      · split
        · refine ⟨?_, hgo _ (by simpa using hk)⟩
          unfold ToCome
          show c ∈ s.todo t ∨ _ ∈ (s.go t _).code t ∨ _ ∈ (s.go t _).code t ∨ _ ∈ (s.go t _).code t ∨ CEvent.constructed t c ∈ s.log
          rw [hm]
          simp only [List.mem_cons, CIns.check1.injEq, CIns.construct.injEq, CIns.acquire.injEq, reduceCtorEq, false_or] at h ⊢
          grind
        · exact ⟨by unfold ToCome; rw [e]; exact h, hs⟩
    · rename_i d k e
      rw [e] at h hu
      have hk : CIns.fail ∉ k := fun hm => hu (by simp [hm])
      have hm : ∀ k : List (CIns C), (s.go t k).code t = k := fun k => mem_self
      split
      · refine ⟨?_, hgo _ hk⟩
        unfold ToCome
        rw [hm]
        show c ∈ s.todo t ∨ _ ∨ _ ∨ _ ∨ CEvent.constructed t c ∈ s.log
        simpa using h
      · refine ⟨?_, hgo _ ?_⟩
        · unfold ToCome
          show c ∈ s.todo t ∨ _ ∈ (s.go t _).code t ∨ _ ∈ (s.go t _).code t ∨ _ ∈ (s.go t _).code t ∨ CEvent.constructed t c ∈ s.log ++ _
          rw [hm]
          simp only [List.mem_cons, List.mem_append, reduceCtorEq, false_or] at h ⊢
          grind
        · intro hx
          rcases List.mem_append.1 hx with hx | hx
          · exact init_nofail hf d hx
          · exact hk hx
    · rename_i k e
      rw [e] at h hu
      have hk : CIns.fail ∉ k := fun hm => hu (by simp [hm])
      refine ⟨?_, hgo _ hk⟩
      unfold ToCome
      show c ∈ s.todo t ∨ _ ∈ (s.go t _).code t ∨ _ ∈ (s.go t _).code t ∨ _ ∈ (s.go t _).code t ∨ CEvent.constructed t c ∈ s.log
      rw [mem_self]
      simpa using h
    · rename_i d k e
      rw [e] at h hu
      have hk : CIns.fail ∉ k := fun hm => hu (by simp [hm])
      refine ⟨?_, hgo _ hk⟩
      unfold ToCome
      show c ∈ s.todo t ∨ _ ∈ (s.go t _).code t ∨ _ ∈ (s.go t _).code t ∨ _ ∈ (s.go t _).code t ∨ CEvent.constructed t c ∈ s.log ++ [CEvent.constructed t d]
      rw [mem_self]
      simp only [List.mem_cons, List.mem_append, CIns.construct.injEq, reduceCtorEq, false_or, CEvent.constructed.injEq, true_and, List.not_mem_nil, or_false] at h ⊢
      grind
    · rename_i k e
      rw [e] at h hu
      have hk : CIns.fail ∉ k := fun hm => hu (by simp [hm])
      refine ⟨?_, hgo _ hk⟩
      unfold ToCome
      show c ∈ s.todo t ∨ _ ∈ (s.go t _).code t ∨ _ ∈ (s.go t _).code t ∨ _ ∈ (s.go t _).code t ∨ CEvent.constructed t c ∈ s.log
      rw [mem_self]
      simpa using h
    · rename_i k e
      rw [e] at hu
      exact absurd (by simp) hu
    · rename_i d k e
      rw [e] at h hu
      have hk : CIns.fail ∉ k := fun hm => hu (by simp [hm])
      refine ⟨?_, hgo _ hk⟩
      unfold ToCome
      show c ∈ s.todo t ∨ _ ∈ (s.go t _).code t ∨ _ ∈ (s.go t _).code t ∨ _ ∈ (s.go t _).code t ∨ CEvent.constructed t c ∈ s.log ++ [CEvent.done t d]
      rw [mem_self]
      simpa using h
    · rename_i d k e
      rw [e] at h hu
      have hk : CIns.fail ∉ k := fun hm => hu (by simp [hm])
      refine ⟨?_, hgo _ hk⟩
      unfold ToCome
      show c ∈ s.todo t ∨ _ ∈ (s.go t _).code t ∨ _ ∈ (s.go t _).code t ∨ _ ∈ (s.go t _).code t ∨ CEvent.constructed t c ∈ s.log
      rw [mem_self]
      simpa using h
  · obtain ⟨e1, e2⟩ := cstep_other body s htu
    have hlog : ∃ es, (cstep body s u).log = s.log ++ es := by
      unfold cstep
      split
      · split
        · exact ⟨[], by simp⟩
        · exact ⟨[], by simp [CState.go]⟩
      · split <;> exact ⟨[], by simp [CState.go]⟩
      · split
        · exact ⟨[], by simp [CState.go]⟩
        · split <;> exact ⟨[], by simp [CState.go]⟩
      · split
        · exact ⟨[], by simp [CState.go]⟩
        · exact ⟨_, rfl⟩
      · exact ⟨[], by simp [CState.go]⟩
      · exact ⟨_, rfl⟩
      · exact ⟨[], by simp [CState.go]⟩
      · exact ⟨_, rfl⟩
      · exact ⟨_, rfl⟩
      · exact ⟨[], by simp [CState.go]⟩
    obtain ⟨es, hes⟩ := hlog
    refine ⟨?_, ?_⟩
    · unfold ToCome at h ⊢
      rw [e1, e2, hes]
      rcases h with h | h | h | h | h
      · exact .inl h
      · exact .inr (.inl h)
      · exact .inr (.inr (.inl h))
      · exact .inr (.inr (.inr (.inl h)))
      · exact .inr (.inr (.inr (.inr (by simp [h]))))
    · exact cstep_nofail hf s u hs

theorem crun_tocome {body : C → List (InitCode C)} (hf : NoFail body) (s : CState T C) (t : T) (c : C) (hs : ∀ t, CIns.fail ∉ s.code t)
    (h : ToCome s t c) (ts : List T) : ToCome (crun body s ts) t c := by
  induction ts generalizing s with
  | nil => exact h
  | cons u ts ih => exact ih _ (cstep_tocome hf s u t c hs h).2 (cstep_tocome hf s u t c hs h).1

end Flatland
