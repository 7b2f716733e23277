import Verif.Spec.Paths
import Verif.Proofs.Text
/-! Lemmas about path expressions. -/
namespace Flatland
open Flatland.Spec

/-! ### escaping -/

theorem nameRun_plain {c : Char} {s : PStr} (h : c ≠ '\\') (h1 : c ≠ '/') (h2 : c ≠ '[') : nameRun (c :: s) = c :: nameRun s := by
  rw [nameRun]
  · simp [h1, h2]
  · intro c' s' he; exact absurd he h

theorem nameRun_back {c : Char} {s : PStr} (h1 : c ≠ '/') (h2 : c ≠ '.') (h3 : c ≠ '[') :
    nameRun ('\\' :: c :: s) = '\\' :: nameRun (c :: s) := by
  rw [nameRun]; simp [h1, h2, h3]

theorem nameRun_esc {c : Char} {s : PStr} (h : c = '/' ∨ c = '.' ∨ c = '[') :
    nameRun ('\\' :: c :: s) = '\\' :: c :: nameRun s := by
  rw [nameRun]; simp [h]

theorem nameRun_single : nameRun ['\\'] = ['\\'] := by simp [nameRun]

theorem escape_head (n : PStr) (c : Char) (h : (escape n).head? = some c) : c ≠ '/' ∧ c ≠ '.' ∧ c ≠ '[' ∧ c ≠ ']' := by
  cases n with
  | nil => simp [escape] at h
  | cons x n =>
    rw [escape] at h
    split at h
    · simp at h; subst h; decide
    · rename_i hs
      simp at h; subst h
      simp [special] at hs
      grind

theorem escape_ne_nil {n : PStr} (h : n ≠ []) : escape n ≠ [] := by
  cases n with
  | nil => contradiction
  | cons x n => rw [escape]; split <;> simp

/-- what may follow a name token -/
def NameStop : PStr → Prop
  | [] => True
  | c :: _ => c = '/' ∨ c = '['

theorem nameRun_stop {r : PStr} (h : NameStop r) : nameRun r = [] := by
  cases r with
  | nil => rfl
  | cons c r =>
    rw [nameRun]
    · simp [show c = '/' ∨ c = '[' from h]
    · intro c' s' he
      rcases h with h | h <;> rw [h] at he <;> simp at he

theorem nameRun_escape (n r : PStr) (hr : NameStop r) (hb : r ≠ [] → n.getLast? ≠ some '\\') :
    nameRun (escape n ++ r) = escape n := by
  induction n with
  | nil => simpa [escape] using nameRun_stop hr
  | cons c n ih =>
    have ih' := fun h => ih h
    have hb' : n ≠ [] → (r ≠ [] → n.getLast? ≠ some '\\') := by
      intro hn hr0
      have := hb hr0
      rwa [List.getLast?_cons_of_ne_nil hn] at this
    by_cases hn : n = []
    · subst hn
      rw [escape, escape]
      split
      · rename_i hs
        simp [special] at hs
        rcases hs with ((hs | hs) | hs) | hs <;> subst hs
        · show nameRun ('\\' :: '/' :: r) = _
          rw [nameRun_esc (by simp), nameRun_stop hr]
        · show nameRun ('\\' :: '.' :: r) = _
          rw [nameRun_esc (by simp), nameRun_stop hr]
        · show nameRun ('\\' :: '[' :: r) = _
          rw [nameRun_esc (by simp), nameRun_stop hr]
        · show nameRun ('\\' :: ']' :: r) = _
          rw [nameRun_back (by decide) (by decide) (by decide), nameRun_plain (by decide) (by decide) (by decide), nameRun_stop hr]
      · rename_i hs
        simp [special] at hs
        by_cases hc : c = '\\'
        · subst hc
          have : r = [] := by
            by_cases h0 : r = []
            · exact h0
            · exact absurd rfl (hb h0)
          subst this; exact nameRun_single
        · show nameRun (c :: r) = _
          rw [nameRun_plain hc (by grind) (by grind), nameRun_stop hr]
    · have ih := ih (hb' hn)
      rw [escape]
      split
      · rename_i hs
        simp [special] at hs
        show nameRun ('\\' :: c :: (escape n ++ r)) = _
        rcases hs with ((hs | hs) | hs) | hs
        · rw [nameRun_esc (by simp [hs]), ih]
        · rw [nameRun_esc (by simp [hs]), ih]
        · rw [nameRun_esc (by simp [hs]), ih]
        · rw [nameRun_back (by simp [hs]) (by simp [hs]) (by simp [hs]), nameRun_plain (by simp [hs]) (by simp [hs]) (by simp [hs]), ih]
      · rename_i hs
        simp [special] at hs
        show nameRun (c :: (escape n ++ r)) = _
        by_cases hc : c = '\\'
        · subst hc
          cases he : escape n with
          | nil => exact absurd he (escape_ne_nil hn)
          | cons x xs =>
            have := escape_head n x (by simp [he])
            rw [he] at ih
            show nameRun ('\\' :: x :: (xs ++ r)) = _
            rw [nameRun_back this.1 this.2.1 this.2.2.1]
            exact congrArg _ ih
        · rw [nameRun_plain hc (by grind) (by grind), ih]

theorem unescape_plain {c : Char} {s : PStr} (h : c ≠ '\\') : unescape (c :: s) = c :: unescape s := by
  rw [unescape]
  intro c' s' he; exact absurd he h

theorem unescape_escape (n : PStr) : unescape (escape n) = n := by
  induction n with
  | nil => rfl
  | cons c n ih =>
    rw [escape]
    split
    · rename_i hs
      simp [special] at hs
      rw [unescape]
      rw [if_pos (by grind), ih]
    · by_cases hc : c = '\\'
      · subst hc
        cases he : escape n with
        | nil => rw [he] at ih; rw [← ih]; simp [unescape]
        | cons x xs =>
          have := escape_head n x (by simp [he])
          rw [he] at ih
          rw [unescape, if_neg (by grind), ih]
      · rw [unescape_plain hc, ih]

theorem escape_getLast {n : PStr} (h : n ≠ []) : (escape n).getLast? = n.getLast? := by
  induction n with
  | nil => contradiction
  | cons c n ih =>
    by_cases hn : n = []
    · subst hn; simp only [escape]; split <;> simp
    · have := ih hn
      rw [List.getLast?_cons_of_ne_nil hn, ← this, escape]
      split
      · rw [List.getLast?_cons_of_ne_nil (by simp), List.getLast?_cons_of_ne_nil (escape_ne_nil hn)]
      · rw [List.getLast?_cons_of_ne_nil (escape_ne_nil hn)]

theorem escape_ne_dot (n : PStr) : escape n ≠ ['/'] ∧ escape n ≠ ['.'] ∧ escape n ≠ ['.', '.'] := by
  refine ⟨fun h => ?_, fun h => ?_, fun h => ?_⟩ <;>
    · have := escape_head n _ (by rw [h]; rfl)
      simp at this

theorem findAll_skip [Runtime] (a s : PStr) (prev : Option Char) :
    findAll a.length prev (a ++ s) = findAll 0 (a.getLast?.or prev) s := by
  induction a generalizing prev with
  | nil => simp
  | cons c a ih =>
    simp only [List.cons_append, List.length_cons, findAll]
    rw [ih]
    cases a with
    | nil => simp
    | cons x xs =>
      cases h : (x :: xs).getLast? with
      | none => simp at h
      | some y => simp [List.getLast?_cons_cons, h]

theorem findAll_name [Runtime] (n r : PStr) (prev : Option Char) (hn : n ≠ []) (hr : NameStop r)
    (hb : r ≠ [] → n.getLast? ≠ some '\\') :
    findAll 0 prev (escape n ++ r) = (escape n, []) :: findAll 0 n.getLast? r := by
  have h := nameRun_escape n r hr hb
  cases he : escape n with
  | nil => exact absurd he (escape_ne_nil hn)
  | cons c s =>
    show findAll 0 prev (c :: (s ++ r)) = _
    rw [he] at h
    have h' : nameRun (c :: (s ++ r)) = c :: s := h
    simp only [findAll, matchAt, h']
    simp only [ne_eq, reduceCtorEq, not_false_eq_true, if_true, List.length_cons, Nat.add_sub_cancel]
    rw [findAll_skip, ← escape_getLast hn, he]
    congr 2
    cases s with
    | nil => simp
    | cons x xs => cases h : (x :: xs).getLast? with
      | none => simp at h
      | some y => simp [List.getLast?_cons_cons, h]

theorem findAll_slash [Runtime] (r : PStr) (prev : Option Char) (h : prev ≠ some '\\') :
    findAll 0 prev ('/' :: r) = (['/'], []) :: findAll 0 (some '/') r := by
  have : nameRun ('/' :: r) = [] := nameRun_stop (Or.inl rfl)
  simp [findAll, matchAt, this, h]

/-- tokens of escaped names -/
def nameToks : List PStr → List (PStr × PStr)
  | [] => []
  | [n] => [(escape n, [])]
  | n :: ns => (escape n, []) :: (['/'], []) :: nameToks ns

theorem findAll_slashed [Runtime] (ns : List PStr) (h : Escapable ns) (prev : Option Char) :
    findAll 0 prev (slashed ns) = nameToks ns := by
  induction ns generalizing prev with
  | nil => cases prev <;> rfl
  | cons n ns ih =>
    cases ns with
    | nil =>
      have := findAll_name n [] prev h trivial (by simp)
      simpa [slashed, nameToks, findAll] using this
    | cons m ms =>
      show findAll 0 prev (escape n ++ '/' :: slashed (m :: ms)) = _
      obtain ⟨hn, hl, hr⟩ := h
      rw [findAll_name n _ prev hn (show NameStop ('/' :: _) from Or.inl rfl) (fun _ => hl), findAll_slash _ _ hl, ih hr]
      rfl

theorem tokLoop_names [Runtime] (ns : List PStr) (h : Escapable ns) (ops : List Op) (last : Option PStr) :
    tokLoop (nameToks ns) ops last = .ok (ops ++ ns.map fun n => .name (some n)) := by
  induction ns generalizing ops last with
  | nil => simp [nameToks, tokLoop]
  | cons n ns ih =>
    have hn : n ≠ [] := by cases ns with
      | nil => exact h
      | cons => exact h.1
    have hd := escape_ne_dot n
    have hh : (escape n).head? ≠ some '[' := fun hh => (escape_head n _ hh).2.2.1 rfl
    cases ns with
    | nil =>
      simp [nameToks, tokLoop, hd, hh, unescape_escape]
    | cons m ms =>
      simp only [nameToks, tokLoop, hd.1, hd.2.1, hd.2.2, hh, if_false, false_and, ne_eq, not_true_eq_false, if_true,
        unescape_escape, Option.some.injEq, reduceCtorEq]
      rw [ih h.2.2]
      simp

/-! ### evaluation -/

theorem childMissing_iff (e : PyErr) : ChildMissing e ↔ e.isLookup = true := by
  cases e <;> simp [ChildMissing, PyErr.isLookup]

theorem branches_append {N} (g : Graph N) (a b : List Op) (el : N) :
    branches g (a ++ b) el = (branches g a el).flatMap fun
      | .ok x => branches g b x
      | .error e => [.error e] := by
  induction a generalizing el with
  | nil => simp [branches]
  | cons op a ih =>
    cases op <;> simp only [List.cons_append, branches, ih]
    · split <;> simp
    · rw [List.flatMap_assoc]; congr 1; funext x; exact ih x

/-- what is left after the first slice -/
def afterSlice : List Op → Option (List Op)
  | [] => none
  | .slice .. :: ops => some ops
  | _ :: ops => afterSlice ops

theorem runOps_branches {N} (g : Graph N) (hT : ParentsTruthy g) (strict : Bool) (ops : List Op) (el : N) :
    (∃ e, branches g ops el = [.error e] ∧
      runOps g strict ops el = if e.isLookup then (if strict then .raised .lookup else .missed) else .raised e) ∨
    (match afterSlice ops with
     | none => ∃ x, branches g ops el = [.ok x] ∧ runOps g strict ops el = .found x
     | some ops' => ∃ els, branches g ops el = els.flatMap (branches g ops') ∧ runOps g strict ops el = .spread ops' els) := by
  induction ops generalizing el with
  | nil => right; exact ⟨el, rfl, rfl⟩
  | cons op ops ih =>
    cases op with
    | top => exact ih _
    | here => exact ih _
    | up =>
      simp only [branches, runOps, afterSlice]
      cases hp : g.parent el with
      | none => exact ih _
      | some p => simpa [hT el p hp] using ih p
    | name n =>
      simp only [branches, runOps, afterSlice]
      cases hi : g.index el n with
      | ok c => exact ih c
      | error e => left; exact ⟨e, rfl, rfl⟩
    | slice a b c => right; exact ⟨_, rfl, rfl⟩

/-- a branch that makes the evaluator raise -/
def Bad (strict : Bool) (e : PyErr) : Prop := strict = true ∨ e.isLookup = false

theorem afterSlice_length {ops ops' : List Op} (h : afterSlice ops = some ops') : ops'.length < ops.length := by
  induction ops with
  | nil => simp [afterSlice] at h
  | cons op ops ih =>
    cases op <;> simp only [afterSlice] at h
    case slice => simp at h; subst h; simp
    all_goals have := ih h; simp; omega

theorem reached_append {N} (a b : List (Except PyErr N)) : reached (a ++ b) = reached a ++ reached b := by
  simp [reached]

theorem reached_flatMap {N M} (l : List M) (f : M → List (Except PyErr N)) :
    reached (l.flatMap f) = l.flatMap fun x => reached (f x) := by
  induction l with
  | nil => rfl
  | cons x l ih => simp only [List.flatMap_cons, reached_append, ih]

/-- the queue during the evaluation of one generation: contexts with `ops`, then contexts of the next generation -/
theorem evalLoop_generation {N} (g : Graph N) (hT : ParentsTruthy g) (strict : Bool) :
    ∀ (k : Nat) (ops : List Op), ops.length ≤ k → ∀ (els : List N) (found : List N),
      (∀ e, .error e ∈ els.flatMap (branches g ops) → ¬ Bad strict e) →
      ∃ n, ∀ m, n ≤ m → evalLoop g strict m (els.map fun x => (ops, x)) found =
        some (.ok (found ++ reached (els.flatMap (branches g ops)))) := by
  intro k
  induction k using Nat.strongRecOn with
  | ind k ihk =>
    intro ops hk els found hbad
    -- process this generation
    cases hs : afterSlice ops with
    | none =>
      induction els generalizing found with
      | nil => exact ⟨0, fun m _ => by cases m <;> simp [evalLoop, reached]⟩
      | cons x els ih =>
        rcases runOps_branches g hT strict ops x with ⟨e, hb, hr⟩ | h
        · have hnb : ¬ Bad strict e := hbad e (by simp [hb])
          simp [Bad] at hnb
          simp only [hnb, if_true, Bool.false_eq_true, if_false] at hr
          rw [← hnb.1] at hr
          obtain ⟨n, hn⟩ := ih found (fun e he => hbad e (by simp at he ⊢; grind))
          refine ⟨n + 1, fun m hm => ?_⟩
          obtain ⟨m, rfl⟩ : ∃ m', m = m' + 1 := ⟨m - 1, by omega⟩
          simp only [List.map_cons, evalLoop, hr]
          rw [hn m (by omega)]
          simp [hb, reached]
        · rw [hs] at h
          obtain ⟨y, hb, hr⟩ := h
          obtain ⟨n, hn⟩ := ih (found ++ [y]) (fun e he => hbad e (by simp at he ⊢; grind))
          refine ⟨n + 1, fun m hm => ?_⟩
          obtain ⟨m, rfl⟩ : ∃ m', m = m' + 1 := ⟨m - 1, by omega⟩
          simp only [List.map_cons, evalLoop, hr]
          rw [hn m (by omega)]
          simp [hb, reached]
    | some ops' =>
      have hlt := afterSlice_length hs
      suffices H : ∀ (els nexts : List N), (∀ e, .error e ∈ els.flatMap (branches g ops) → ¬ Bad strict e) →
          (∀ e, .error e ∈ nexts.flatMap (branches g ops') → ¬ Bad strict e) →
          ∃ n, ∀ m, n ≤ m → evalLoop g strict m ((els.map fun x => (ops, x)) ++ nexts.map fun x => (ops', x)) found =
            some (.ok (found ++ (reached (nexts.flatMap (branches g ops')) ++ reached (els.flatMap (branches g ops))))) by
        simpa [reached] using H els [] hbad (by simp)
      intro els
      induction els with
      | nil =>
        intro nexts _ hn
        obtain ⟨n, h⟩ := ihk ops'.length (by omega) ops' (Nat.le_refl _) nexts found hn
        exact ⟨n, fun m hm => by simpa [reached] using h m hm⟩
      | cons x els ih =>
        intro nexts h1 h2
        rcases runOps_branches g hT strict ops x with ⟨e, hb, hr⟩ | h
        · have hnb : ¬ Bad strict e := h1 e (by simp [hb])
          simp [Bad] at hnb
          simp only [hnb, if_true, Bool.false_eq_true, if_false] at hr
          rw [← hnb.1] at hr
          obtain ⟨n, hn⟩ := ih nexts (fun e he => h1 e (by simp at he ⊢; grind)) h2
          refine ⟨n + 1, fun m hm => ?_⟩
          obtain ⟨m, rfl⟩ : ∃ m', m = m' + 1 := ⟨m - 1, by omega⟩
          simp only [List.map_cons, List.cons_append, evalLoop, hr]
          rw [hn m (by omega)]
          simp [hb, reached]
        · rw [hs] at h
          obtain ⟨ys, hb, hr⟩ := h
          obtain ⟨n, hn⟩ := ih (nexts ++ ys) (fun e he => h1 e (by simp at he ⊢; grind)) (by
            intro e he
            rw [List.flatMap_append, List.mem_append] at he
            rcases he with he | he
            · exact h2 e he
            · exact h1 e (by simp only [List.flatMap_cons, List.mem_append]; left; rw [hb]; exact he))
          refine ⟨n + 1, fun m hm => ?_⟩
          obtain ⟨m, rfl⟩ : ∃ m', m = m' + 1 := ⟨m - 1, by omega⟩
          simp only [List.map_cons, List.cons_append, evalLoop, hr, List.append_assoc]
          rw [← List.map_append, hn m (by omega)]
          simp only [List.flatMap_append, List.flatMap_cons, reached_append, hb, List.append_assoc]

/-- what the evaluator raises for a failing branch -/
def reported (e : PyErr) : PyErr := if e.isLookup then .lookup else e

theorem evalLoop_raises {N} (g : Graph N) (hT : ParentsTruthy g) (strict : Bool) :
    ∀ (k : Nat) (ops : List Op), ops.length ≤ k → ∀ (els : List N) (found : List N),
      (∃ e, .error e ∈ els.flatMap (branches g ops) ∧ Bad strict e) →
      ∃ e, .error e ∈ els.flatMap (branches g ops) ∧ Bad strict e ∧
      ∃ n, ∀ m, n ≤ m → evalLoop g strict m (els.map fun x => (ops, x)) found = some (.error (reported e)) := by
  intro k
  induction k using Nat.strongRecOn with
  | ind k ihk =>
    intro ops hk els found hbad
    have run : ∀ e, Bad strict e →
        (if e.isLookup then (if strict then Outcome.raised .lookup else .missed) else .raised e) = (Outcome.raised (reported e) : Outcome N) := by
      intro e he
      simp only [reported]
      rcases he with he | he
      · subst he; split <;> simp
      · simp [he]
    have skip : ∀ e, ¬ Bad strict e →
        (if e.isLookup then (if strict then Outcome.raised .lookup else .missed) else .raised e) = (Outcome.missed : Outcome N) := by
      intro e he
      simp [Bad] at he
      simp [he]
    cases hs : afterSlice ops with
    | none =>
      induction els generalizing found with
      | nil => simp at hbad
      | cons x els ih =>
        rcases runOps_branches g hT strict ops x with ⟨e, hb, hr⟩ | h
        · by_cases hnb : Bad strict e
          · refine ⟨e, by simp [hb], hnb, 1, fun m hm => ?_⟩
            obtain ⟨m, rfl⟩ : ∃ m', m = m' + 1 := ⟨m - 1, by omega⟩
            simp only [List.map_cons, evalLoop, hr, run e hnb]
          · obtain ⟨e', h1, h2, n, hn⟩ := ih found (by
              obtain ⟨e', he', hb'⟩ := hbad
              simp only [List.flatMap_cons, hb, List.mem_append, List.mem_singleton, Except.error.injEq] at he'
              rcases he' with he' | he'
              · subst he'; contradiction
              · exact ⟨e', he', hb'⟩)
            refine ⟨e', by simp only [List.flatMap_cons, List.mem_append]; exact .inr h1, h2, n + 1, fun m hm => ?_⟩
            obtain ⟨m, rfl⟩ : ∃ m', m = m' + 1 := ⟨m - 1, by omega⟩
            simp only [List.map_cons, evalLoop, hr, skip e hnb]
            exact hn m (by omega)
        · rw [hs] at h
          obtain ⟨y, hb, hr⟩ := h
          obtain ⟨e', h1, h2, n, hn⟩ := ih (found ++ [y]) (by
              obtain ⟨e', he', hb'⟩ := hbad
              simp only [List.flatMap_cons, hb, List.mem_append, List.mem_singleton, reduceCtorEq, false_or] at he'
              exact ⟨e', he', hb'⟩)
          refine ⟨e', by simp only [List.flatMap_cons, List.mem_append]; exact .inr h1, h2, n + 1, fun m hm => ?_⟩
          obtain ⟨m, rfl⟩ : ∃ m', m = m' + 1 := ⟨m - 1, by omega⟩
          simp only [List.map_cons, evalLoop, hr]
          exact hn m (by omega)
    | some ops' =>
      have hlt := afterSlice_length hs
      suffices H : ∀ (els nexts : List N),
          (∃ e, (.error e ∈ els.flatMap (branches g ops) ∨ .error e ∈ nexts.flatMap (branches g ops')) ∧ Bad strict e) →
          ∃ e, (.error e ∈ els.flatMap (branches g ops) ∨ .error e ∈ nexts.flatMap (branches g ops')) ∧ Bad strict e ∧
          ∃ n, ∀ m, n ≤ m → evalLoop g strict m ((els.map fun x => (ops, x)) ++ nexts.map fun x => (ops', x)) found =
            some (.error (reported e)) by
        simpa using H els [] (by simpa using hbad)
      intro els
      induction els with
      | nil =>
        intro nexts hb
        obtain ⟨e, h1, h2, n, h⟩ := ihk ops'.length (by omega) ops' (Nat.le_refl _) nexts found (by simpa using hb)
        exact ⟨e, .inr h1, h2, n, fun m hm => by simpa using h m hm⟩
      | cons x els ih =>
        intro nexts hbad
        rcases runOps_branches g hT strict ops x with ⟨e, hb, hr⟩ | h
        · by_cases hnb : Bad strict e
          · refine ⟨e, by simp [hb], hnb, 1, fun m hm => ?_⟩
            obtain ⟨m, rfl⟩ : ∃ m', m = m' + 1 := ⟨m - 1, by omega⟩
            simp only [List.map_cons, List.cons_append, evalLoop, hr, run e hnb]
          · obtain ⟨e', h1, h2, n, hn⟩ := ih nexts (by
              obtain ⟨e', he', hb'⟩ := hbad
              simp only [List.flatMap_cons, hb, List.mem_append, List.mem_singleton, Except.error.injEq] at he'
              rcases he' with (he' | he') | he'
              · subst he'; contradiction
              · exact ⟨e', .inl he', hb'⟩
              · exact ⟨e', .inr he', hb'⟩)
            refine ⟨e', ?_, h2, n + 1, fun m hm => ?_⟩
            · simp only [List.flatMap_cons, List.mem_append]
              rcases h1 with h1 | h1
              · exact .inl (.inr h1)
              · exact .inr h1
            obtain ⟨m, rfl⟩ : ∃ m', m = m' + 1 := ⟨m - 1, by omega⟩
            simp only [List.map_cons, List.cons_append, evalLoop, hr, skip e hnb]
            exact hn m (by omega)
        · rw [hs] at h
          obtain ⟨ys, hb, hr⟩ := h
          obtain ⟨e', h1, h2, n, hn⟩ := ih (nexts ++ ys) (by
              obtain ⟨e', he', hb'⟩ := hbad
              refine ⟨e', ?_, hb'⟩
              simp only [List.flatMap_cons, List.mem_append, hb, List.flatMap_append] at he' ⊢
              grind)
          refine ⟨e', ?_, h2, n + 1, fun m hm => ?_⟩
          · simp only [List.flatMap_cons, List.mem_append, hb, List.flatMap_append] at h1 ⊢
            grind
          obtain ⟨m, rfl⟩ : ∃ m', m = m' + 1 := ⟨m - 1, by omega⟩
          simp only [List.map_cons, List.cons_append, evalLoop, hr, List.append_assoc]
          rw [← List.map_append]
          exact hn m (by omega)

/-! ### simplification -/

/-- what `canonLoop`'s accumulator looks like in each mode of `upsMatched` -/
def AccOk : Option Nat → List Op → Prop
  | none, acc => ∀ a op b, acc = a ++ op :: b → .top ∉ a → (∀ x y z, op ≠ .slice x y z)
  | some k, acc => ∃ ns a b c rest, acc = ns ++ .slice a b c :: rest ∧ ns.length = k ∧ ∀ op ∈ ns, ∃ n, op = .name n

theorem accOk_cons_none {acc : List Op} {op : Op} (h : AccOk none acc) (hs : ∀ x y z, op ≠ .slice x y z) : AccOk none (op :: acc) := by
  intro a o b he ht
  cases a with
  | nil => simp at he; rw [← he.1]; exact hs
  | cons x a => simp at he; exact h a o b he.2 (by simp at ht; grind)

theorem accOk_tail_none {acc : List Op} {op : Op} (h : AccOk none (op :: acc)) (ht : op ≠ .top) : AccOk none acc := by
  intro a o b he hn
  exact h (op :: a) o b (by simp [he]) (by simp; exact ⟨fun h => ht h.symm, hn⟩)

theorem accOk_top {acc : List Op} : AccOk none (.top :: acc) := by
  intro a o b he ht
  cases a with
  | nil => simp at he; rw [← he.1]; simp
  | cons x a => simp at he; simp [he.1] at ht

/-- no failing branch -/
def AllOk {N} (bs : List (Except PyErr N)) : Prop := ∀ e, .error e ∉ bs

theorem flatMap_congr' {α β} {l : List α} {f h : α → List β} (hf : ∀ x ∈ l, f x = h x) : l.flatMap f = l.flatMap h := by
  induction l with
  | nil => rfl
  | cons x l ih => simp only [List.flatMap_cons]; rw [hf x (by simp), ih (fun y hy => hf y (by simp [hy]))]

theorem canonLoop_sound {N} (g : Graph N) (hP : ParentOfChild g) (hR : RootTop g) (el : N) :
    ∀ (rest acc : List Op) (d : Option Nat), upsMatched d rest = true → AccOk d acc → .here ∉ acc →
      AllOk (branches g (acc.reverse ++ rest) el) →
      branches g (canonLoop true rest acc) el = branches g (acc.reverse ++ rest) el := by
  intro rest
  induction rest with
  | nil => intro acc d _ _ _ _; simp [canonLoop]
  | cons op rest ih =>
    intro acc d hu ha hh hok
    have push : ∀ (d' : Option Nat), upsMatched d' rest = true → AccOk d' (op :: acc) → op ≠ .here →
        branches g (canonLoop true rest (op :: acc)) el = branches g (acc.reverse ++ op :: rest) el := by
      intro d' h1 h2 h3
      have := ih (op :: acc) d' h1 h2 (by simp; exact ⟨fun h => h3 h.symm, hh⟩) (by simpa using hok)
      simpa using this
    have drop : ∀ (acc' : List Op) (d' : Option Nat), upsMatched d' rest = true → AccOk d' acc' → .here ∉ acc' →
        branches g (acc'.reverse ++ rest) el = branches g (acc.reverse ++ op :: rest) el →
        branches g (canonLoop true rest acc') el = branches g (acc.reverse ++ op :: rest) el := by
      intro acc' d' h1 h2 h3 h4
      rw [← h4] at hok ⊢
      exact ih acc' d' h1 h2 h3 hok
    cases op with
    | here =>
      have h1 : canonLoop true (.here :: rest) acc = canonLoop true rest acc := by rw [canonLoop.eq_def]; simp
      rw [h1]
      refine drop acc d hu ha hh ?_
      rw [branches_append, branches_append]; rfl
    | top =>
      have h1 : canonLoop true (.top :: rest) acc = canonLoop true rest (.top :: acc) := by rw [canonLoop.eq_def]; simp
      rw [h1]
      exact push none hu accOk_top (by simp)
    | name n =>
      have h1 : canonLoop true (.name n :: rest) acc = canonLoop true rest (.name n :: acc) := by rw [canonLoop.eq_def]; simp
      rw [h1]
      refine push (d.map (· + 1)) hu ?_ (by simp)
      cases d with
      | none => exact accOk_cons_none ha (by simp)
      | some k =>
        obtain ⟨ns, a, b, c, r, hacc, hl, hall⟩ := ha
        exact ⟨.name n :: ns, a, b, c, r, by simp [hacc], by simp [hl], by
          intro op hop; simp at hop; rcases hop with hop | hop
          · exact ⟨n, hop⟩
          · exact hall op hop⟩
    | slice a b c =>
      have h1 : canonLoop true (.slice a b c :: rest) acc = canonLoop true rest (.slice a b c :: acc) := by rw [canonLoop.eq_def]; simp
      rw [h1]
      exact push (some 0) hu ⟨[], a, b, c, acc, rfl, rfl, by simp⟩ (by simp)
    | up =>
      cases acc with
      | nil =>
        have h1 : canonLoop true (.up :: rest) [] = canonLoop true rest [.up] := by rw [canonLoop.eq_def]; simp
        rw [h1]
        cases d with
        | none => exact push none hu (accOk_cons_none ha (by simp)) (by simp)
        | some k => obtain ⟨ns, a, b, c, r, hacc, _⟩ := ha; simp at hacc
      | cons x acc' =>
        cases x with
        | here => simp at hh
        | top =>
          have h1 : canonLoop true (.up :: rest) (.top :: acc') = canonLoop true rest (.top :: acc') := by
            rw [canonLoop.eq_def]; simp
          rw [h1]
          have hd : d = none := by
            cases d with
            | none => rfl
            | some k =>
              obtain ⟨ns, a, b, c, r, hacc, _, hall⟩ := ha
              cases ns with
              | nil => simp at hacc
              | cons y ys => simp at hacc; obtain ⟨n, hn⟩ := hall y (by simp); rw [hn] at hacc; simp at hacc
          subst hd
          refine drop _ none hu accOk_top hh ?_
          simp only [List.reverse_cons, List.append_assoc, List.cons_append, List.nil_append]
          rw [branches_append, branches_append]
          congr 1; funext r
          cases r with
          | ok x => simp [branches, hR x]
          | error e => rfl
        | up =>
          have h1 : canonLoop true (.up :: rest) (.up :: acc') = canonLoop true rest (.up :: .up :: acc') := by
            rw [canonLoop.eq_def]; simp
          rw [h1]
          cases d with
          | none => exact push none hu (accOk_cons_none ha (by simp)) (by simp)
          | some k =>
            obtain ⟨ns, a, b, c, r, hacc, _, hall⟩ := ha
            cases ns with
            | nil => simp at hacc
            | cons y ys => simp at hacc; obtain ⟨n, hn⟩ := hall y (by simp); rw [hn] at hacc; simp at hacc
        | slice a b c =>
          exfalso
          cases d with
          | none => exact ha [] (.slice a b c) acc' rfl (by simp) a b c rfl
          | some k =>
            cases k with
            | zero => simp [upsMatched] at hu
            | succ k =>
              obtain ⟨ns, a', b', c', r, hacc, hl, hall⟩ := ha
              cases ns with
              | nil => simp at hl
              | cons y ys => simp at hacc; obtain ⟨n, hn⟩ := hall y (by simp); rw [hn] at hacc; simp at hacc
        | name n =>
          have h1 : canonLoop true (.up :: rest) (.name n :: acc') = canonLoop true rest acc' := by
            rw [canonLoop.eq_def]; simp
          rw [h1]
          have heq : branches g (acc'.reverse ++ rest) el = branches g ((.name n :: acc').reverse ++ .up :: rest) el := by
            simp only [List.reverse_cons, List.append_assoc, List.cons_append, List.nil_append] at hok ⊢
            rw [branches_append] at hok
            rw [branches_append, branches_append g acc'.reverse (.name n :: .up :: rest)]
            refine flatMap_congr' fun r hr => ?_
            cases r with
            | error e => rfl
            | ok x =>
              have hx : AllOk (branches g (.name n :: .up :: rest) x) := by
                intro e he
                exact hok e (List.mem_flatMap.2 ⟨.ok x, hr, he⟩)
              simp only [branches] at hx ⊢
              cases hi : g.index x n with
              | error e => rw [hi] at hx; exact absurd (hx e) (by simp)
              | ok c => simp [hP x n c hi]
          cases d with
          | none => exact drop acc' none hu (accOk_tail_none ha (by simp)) (by simp at hh; exact hh) heq
          | some k =>
            cases k with
            | zero => simp [upsMatched] at hu
            | succ k =>
              refine drop acc' (some k) hu ?_ (by simp at hh; exact hh) heq
              obtain ⟨ns, a', b', c', r, hacc, hl, hall⟩ := ha
              cases ns with
              | nil => simp at hl
              | cons y ys =>
                simp at hacc hl
                exact ⟨ys, a', b', c', r, hacc.2, hl, fun op hop => hall op (by simp [hop])⟩

end Flatland
