import Verif.Spec.PathText
import Verif.Props.Paths
import Verif.Proofs.Mappings
/-! Lemmas about written paths. -/
namespace Flatland
open Spec

/-! ### simplification -/

theorem reduce_append {l r : List Op} (h : Reduce1 l r) (t : List Op) : Reduce1 (l ++ t) (r ++ t) := by
  cases h with
  | name a b n => simpa using Reduce1.name a (b ++ t) n
  | slice a b x y z => simpa using Reduce1.slice a (b ++ t) x y z
  | top a b => simpa using Reduce1.top a (b ++ t)

theorem reduces_append {l r : List Op} (h : Reduces l r) (t : List Op) : Reduces (l ++ t) (r ++ t) := by
  induction h with
  | refl => exact .refl _
  | step h1 _ ih => exact .step (reduce_append h1 t) ih

theorem reduce_shape {l r : List Op} (h : Reduce1 l r) : ∃ a x b, l = a ++ x :: .up :: b ∧ x ≠ .up ∧ x ≠ .here := by
  cases h with
  | name a b n => exact ⟨a, _, b, rfl, by simp, by simp⟩
  | slice a b x y z => exact ⟨a, _, b, rfl, by simp, by simp⟩
  | top a b => exact ⟨a, _, b, rfl, by simp, by simp⟩

theorem shape_reduce {a b : List Op} {x : Op} (h1 : x ≠ .up) (h2 : x ≠ .here) : ∃ r, Reduce1 (a ++ x :: .up :: b) r := by
  cases x with
  | top => exact ⟨_, .top a b⟩
  | up => exact absurd rfl h1
  | here => exact absurd rfl h2
  | name n => exact ⟨_, .name a b n⟩
  | slice x y z => exact ⟨_, .slice a b x y z⟩

theorem irr_snoc {l : List Op} {op : Op} (h : Irreducible l) (ho : op = .up → ∀ x, l.getLast? = some x → x = .up ∨ x = .here) :
    Irreducible (l ++ [op]) := by
  intro r hr
  obtain ⟨a, x, b, he, h1, h2⟩ := reduce_shape hr
  rcases eq_nil_or_snoc b with rfl | ⟨b', y, rfl⟩
  · have he' : l ++ [op] = (a ++ [x]) ++ [.up] := by simpa using he
    obtain ⟨e1, e2⟩ := List.append_inj' he' rfl
    simp only [List.cons.injEq, and_true] at e2
    rcases ho e2 x (by rw [e1]; simp) with h | h
    · exact h1 h
    · exact h2 h
  · have he' : l ++ [op] = (a ++ x :: .up :: b') ++ [y] := by simpa using he
    obtain ⟨e1, _⟩ := List.append_inj' he' rfl
    obtain ⟨r', hr'⟩ := shape_reduce (a := a) (b := b') h1 h2
    rw [← e1] at hr'
    exact h _ hr'

theorem irr_prefix {l t : List Op} (h : Irreducible (l ++ t)) : Irreducible l := fun r hr => h _ (reduce_append hr t)

theorem reduces_trans {a b c : List Op} (h : Reduces a b) (h' : Reduces b c) : Reduces a c := by
  induction h with
  | refl => exact h'
  | step h1 _ ih => exact .step h1 (ih h')

theorem canon_spec (m : Bool) : ∀ (l acc : List Op), (∀ x ∈ l, x ≠ .here) → (∀ x ∈ acc, x ≠ .here) → Irreducible acc.reverse →
    Reduces (acc.reverse ++ l) (canonLoop m l acc) ∧ Irreducible (canonLoop m l acc)
  | [], acc, _, _, hi => by rw [canonLoop, List.append_nil]; exact ⟨.refl _, hi⟩
  | op :: rest, acc, hl, ha, hi => by
    have hop : op ≠ .here := hl op (by simp)
    have hrest : ∀ x ∈ rest, x ≠ .here := fun x hx => hl x (by simp [hx])
    unfold canonLoop
    rw [if_neg (by simp [hop])]
    by_cases hu : op = .up
    · subst hu
      rw [if_neg (by simp)]
      cases acc with
      | nil =>
        have := canon_spec m rest [.up] hrest (by simp) (irr_snoc (l := []) (by simpa using hi) (by simp))
        simpa using this
      | cons y acc' =>
        have hac' : ∀ x ∈ acc', x ≠ .here := fun x hx => ha x (by simp [hx])
        have hi' : Irreducible acc'.reverse := irr_prefix (t := [y]) (by simpa using hi)
        have hpop : y ≠ .up → y ≠ .here → y ≠ .top → Reduces ((y :: acc').reverse ++ .up :: rest) (acc'.reverse ++ rest) := by
          intro h1 h2 h3
          have e : (y :: acc').reverse ++ Op.up :: rest = acc'.reverse ++ y :: .up :: rest := by simp
          rw [e]
          refine .step ?_ (.refl _)
          cases y with
          | top => exact absurd rfl h3
          | up => exact absurd rfl h1
          | here => exact absurd rfl h2
          | name n => exact .name _ _ _
          | slice a b c => exact .slice _ _ _ _ _
        cases y with
        | top =>
          obtain ⟨r1, r2⟩ := canon_spec m rest (.top :: acc') hrest ha hi
          refine ⟨reduces_trans ?_ r1, r2⟩
          have e : (Op.top :: acc').reverse ++ Op.up :: rest = acc'.reverse ++ .top :: .up :: rest := by simp
          have e' : (Op.top :: acc').reverse ++ rest = acc'.reverse ++ .top :: rest := by simp
          rw [e, e']
          exact .step (.top _ _) (.refl _)
        | up =>
          have := canon_spec m rest (.up :: .up :: acc') hrest (by simpa using ha) (by
            have := irr_snoc (l := (Op.up :: acc').reverse) (op := .up) hi (by simp)
            simpa using this)
          simpa using this
        | here => exact absurd rfl (ha _ (by simp))
        | name n =>
          obtain ⟨r1, r2⟩ := canon_spec m rest acc' hrest hac' hi'
          exact ⟨reduces_trans (hpop (by simp) (by simp) (by simp)) r1, r2⟩
        | slice a b c =>
          obtain ⟨r1, r2⟩ := canon_spec m rest acc' hrest hac' hi'
          exact ⟨reduces_trans (hpop (by simp) (by simp) (by simp)) r1, r2⟩
    · rw [if_pos hu]
      have := canon_spec m rest (op :: acc) hrest (by simpa [hop] using ha) (by
        have := irr_snoc (op := op) hi (fun h => absurd h hu)
        simpa using this)
      simpa using this

theorem canon_skip {m : Bool} {op : Op} (t acc : List Op) (h : op = .here ∧ m = true) : canonLoop m (op :: t) acc = canonLoop m t acc := by
  rw [canonLoop.eq_def]
  simp only [h, and_self, if_true]

theorem canon_push {m : Bool} {op : Op} (t acc : List Op) (h : ¬ (op = .here ∧ m = true)) (hu : op ≠ .up) :
    canonLoop m (op :: t) acc = canonLoop m t (op :: acc) := by
  rw [canonLoop.eq_def]
  simp only []
  rw [if_neg h, if_pos hu]

/-- what `..` does to the operations collected -/
def popped : List Op → List Op
  | [] => [.up]
  | .top :: acc => .top :: acc
  | .up :: acc => .up :: .up :: acc
  | _ :: acc => acc

theorem canon_up {m : Bool} (t acc : List Op) : canonLoop m (.up :: t) acc = canonLoop m t (popped acc) := by
  rw [canonLoop.eq_def]
  simp only []
  rw [if_neg (by simp), if_neg (by simp)]
  cases acc with
  | nil => rfl
  | cons y acc => cases y <;> rfl

theorem canon_here : ∀ (l acc : List Op), canonLoop true l acc = canonLoop true (l.filter (· ≠ .here)) acc
  | [], acc => rfl
  | op :: rest, acc => by
    by_cases hh : op = .here
    · subst hh
      rw [List.filter_cons_of_neg (by simp), canon_skip _ _ ⟨rfl, rfl⟩]
      exact canon_here rest acc
    · rw [List.filter_cons_of_pos (by simpa using hh)]
      by_cases hu : op = .up
      · subst hu
        rw [canon_up, canon_up]
        exact canon_here rest _
      · rw [canon_push _ _ (by simp [hh]) hu, canon_push _ _ (by simp [hh]) hu]
        exact canon_here rest _

theorem irr_of_no_up {l : List Op} (h : Op.up ∉ l) : Irreducible l := by
  intro r hr
  obtain ⟨a, x, b, rfl, _, _⟩ := reduce_shape hr
  simp at h

theorem irr_nil : Irreducible [] := irr_of_no_up (by simp)

theorem canonicalize_simplifies (ops : List Op) : Simplifies ops (canonicalize ops) := by
  by_cases h1 : ops = [.here]
  · subst h1; exact .inl ⟨rfl, by decide⟩
  · right
    refine ⟨h1, ?_⟩
    unfold canonicalize
    by_cases hl : 1 < ops.length
    · rw [decide_eq_true hl, canon_here]
      have := canon_spec true (ops.filter (· ≠ .here)) [] (by intro x hx; simpa using (List.mem_filter.1 hx).2) (by simp) irr_nil
      simpa using this
    · have hh : ∀ x ∈ ops, x ≠ .here := by
        rintro x hx rfl
        apply h1
        match ops, hx, hl with
        | [y], hx, _ => simp at hx; rw [hx]
        | _ :: _ :: _, _, hl => simp at hl
      have hf : ops.filter (· ≠ .here) = ops := List.filter_eq_self.2 (by simpa using hh)
      rw [hf]
      have := canon_spec (decide (1 < ops.length)) ops [] hh (by simp) irr_nil
      simpa using this

theorem plain_simplifies {ops : List Op} (h : ¬ (Op.here ∈ ops ∨ Op.up ∈ ops)) : Simplifies ops ops := by
  right
  refine ⟨fun e => h (by simp [e]), ?_, irr_of_no_up (fun hu => h (.inr hu))⟩
  rw [List.filter_eq_self.2 (by
    intro x hx
    simp only [ne_eq, decide_not, Bool.not_eq_eq_eq_not, Bool.not_true, decide_eq_false_iff_not]
    rintro rfl
    exact h (.inl hx))]
  exact .refl _

theorem canon_state (m : Bool) : ∀ (a acc : List Op), ∃ acc', ∀ t, canonLoop m (a ++ t) acc = canonLoop m t acc'
  | [], acc => ⟨acc, fun _ => rfl⟩
  | op :: a, acc => by
    have key : ∀ acc1, (∀ t, canonLoop m (op :: a ++ t) acc = canonLoop m (a ++ t) acc1) →
        ∃ acc', ∀ t, canonLoop m (op :: a ++ t) acc = canonLoop m t acc' := by
      intro acc1 h
      obtain ⟨acc', h'⟩ := canon_state m a acc1
      exact ⟨acc', fun t => by rw [h, h']⟩
    by_cases hh : op = .here ∧ m = true
    · exact key acc (fun t => canon_skip _ _ hh)
    · by_cases hu : op = .up
      · subst hu
        exact key (popped acc) (fun t => canon_up _ _)
      · exact key (op :: acc) (fun t => canon_push _ _ hh hu)

theorem canon_reduce (m : Bool) {l r : List Op} (h : Reduce1 l r) : canonLoop m l [] = canonLoop m r [] := by
  cases h with
  | name a b n =>
    obtain ⟨acc, ha⟩ := canon_state m a []
    rw [ha, ha]
    simp [canonLoop]
  | slice a b x y z =>
    obtain ⟨acc, ha⟩ := canon_state m a []
    rw [ha, ha]
    simp [canonLoop]
  | top a b =>
    obtain ⟨acc, ha⟩ := canon_state m a []
    rw [ha, ha]
    simp [canonLoop]

theorem reduce_here {l r : List Op} (h : Reduce1 l r) (hl : ∀ x ∈ l, x ≠ .here) : ∀ x ∈ r, x ≠ .here := by
  intro x hx
  cases h with
  | name a b n => exact hl x (by simp at hx ⊢; grind)
  | slice a b u v w => exact hl x (by simp at hx ⊢; grind)
  | top a b => exact hl x (by simp at hx ⊢; grind)

theorem reduces_canon (m : Bool) {l r : List Op} (h : Reduces l r) (hl : ∀ x ∈ l, x ≠ .here) (hr : Irreducible r) : r = canonLoop m l [] := by
  induction h with
  | refl l =>
    have := (canon_spec m l [] hl (by simp) irr_nil).1
    simp only [List.reverse_nil, List.nil_append] at this
    generalize canonLoop m l [] = x at this
    cases this with
    | refl => rfl
    | step h _ => exact absurd h (hr _)
  | step h1 _ ih =>
    rw [canon_reduce m h1]
    exact ih (reduce_here h1 hl) hr

theorem simplifies_unique {l r r' : List Op} (h : Simplifies l r) (h' : Simplifies l r') : r = r' := by
  rcases h with ⟨h1, h2⟩ | ⟨h1, h2, h3⟩ <;> rcases h' with ⟨k1, k2⟩ | ⟨k1, k2, k3⟩
  · rw [h2, k2]
  · exact absurd h1 k1
  · exact absurd k1 h1
  · have hf : ∀ x ∈ l.filter (· ≠ .here), x ≠ Op.here := by intro x hx; simpa using (List.mem_filter.1 hx).2
    rw [reduces_canon true h2 hf h3, reduces_canon true k2 hf k3]

/-! ### tokens -/

section
variable [Runtime]

/-- one match of the first alternative -/
theorem findAll_run (w r : PStr) (prev : Option Char) (hw : w ≠ []) (h : nameRun (w ++ r) = w) :
    findAll 0 prev (w ++ r) = (w, []) :: findAll 0 w.getLast? r := by
  cases he : w with
  | nil => exact absurd he hw
  | cons c s =>
    rw [he] at h
    show findAll 0 prev (c :: (s ++ r)) = _
    have h' : nameRun (c :: (s ++ r)) = c :: s := h
    simp only [findAll, matchAt, h']
    simp only [ne_eq, reduceCtorEq, not_false_eq_true, if_true, List.length_cons, Nat.add_sub_cancel]
    rw [findAll_skip]
    congr 2
    cases s with
    | nil => simp
    | cons x xs => cases h : (x :: xs).getLast? with
      | none => simp at h
      | some y => simp [List.getLast?_cons_cons, h]

/-- a bracket, with what follows it -/
theorem findAll_inBrackets (s r : PStr) (prev : Option Char) (hp : prev ≠ some '\\') (h : ']' ∉ s)
    (hb : sliceSpec s = false → s.getLast? ≠ some '\\') (hr : NameStop r) :
    findAll 0 prev (inBrackets s ++ r) = (inBrackets s, if sliceSpec s then s else []) :: findAll 0 (some ']') r := by
  have hn : nameRun ('[' :: (s ++ ']' :: r)) = [] := nameRun_stop (Or.inr rfl)
  have hbe : bracketEnds r = true := by
    cases r with
    | nil => rfl
    | cons c r =>
      rcases hr with rfl | rfl
      · cases r <;> rfl
      · cases r <;> rfl
  have hbr : bracketed (s ++ ']' :: r) = some s := by
    have := takeWhile_all (p := (· != ']')) (s := s) (r := ']' :: r) (fun c hc => by
      simp; rintro rfl; exact h hc) (by simp)
    simp [bracketed, this, hbe]
  have e : inBrackets s ++ r = '[' :: (s ++ ']' :: r) := by simp [inBrackets]
  rw [e]
  simp only [findAll, matchAt, hn]
  simp only [ne_eq, not_true_eq_false, if_false, reduceCtorEq, hp, hbr]
  have hm : (if sliceSpec s = true then some (('[' :: s ++ [']'] : PStr), s)
      else if s.getLast? = some '\\' then some (['['], []) else some ('[' :: s ++ [']'], [])) =
      some (inBrackets s, if sliceSpec s = true then s else []) := by
    cases hs : sliceSpec s with
    | true => rfl
    | false => rw [if_neg (hb hs)]; rfl
  rw [hm]
  simp only []
  congr 1
  have hl : (inBrackets s).length - 1 = (s ++ [']']).length := by simp [inBrackets]
  have := findAll_skip (s ++ [']']) r (some '[')
  rw [hl, show s ++ ']' :: r = (s ++ [']']) ++ r by simp, this]
  simp

omit [Runtime] in
theorem optChar_mem {c x : Char} {s : PStr} (h : x ∈ s) (hx : x ≠ c) : x ∈ optChar c s := by
  cases s with
  | nil => exact h
  | cons y s =>
    rw [optChar]
    split
    · rename_i hy
      simp only [List.mem_cons] at h
      rcases h with rfl | h
      · exact absurd hy hx
      · exact h
    · exact h

omit [Runtime] in
theorem dropWhile_mem {α} {p : α → Bool} {x : α} {s : List α} (h : x ∈ s) (hx : p x = false) : x ∈ s.dropWhile p := by
  induction s with
  | nil => exact h
  | cons y s ih =>
    rw [List.dropWhile_cons]
    split
    · rename_i hy
      simp only [List.mem_cons] at h
      rcases h with rfl | h
      · rw [hx] at hy; cases hy
      · exact ih h
    · exact h

theorem optInt_mem {x : Char} {s : PStr} (h : x ∈ s) (hx : x ≠ '-') (hd : digit x = none) : x ∈ optInt s := by
  unfold optInt
  exact dropWhile_mem (optChar_mem h hx) (by simp [hd])

theorem not_sliceSpec {s : PStr} (h : ∃ c ∈ s, digit c = none ∧ c ≠ '-' ∧ c ≠ ':') : sliceSpec s = false := by
  obtain ⟨c, hc, hd, h1, h2⟩ := h
  have : c ∈ optInt (optChar ':' (optInt (optChar ':' (optInt s)))) :=
    optInt_mem (optChar_mem (optInt_mem (optChar_mem (optInt_mem hc h1 hd) h2) h1 hd) h2) h1 hd
  unfold sliceSpec
  cases he : optInt (optChar ':' (optInt (optChar ':' (optInt s)))) with
  | nil => rw [he] at this; cases this
  | cons => rfl

theorem namePart_spec {s : PStr} (h : NamePart s) : (if sliceSpec s then s else []) = [] := by
  rcases h.2.2 with rfl | h
  · split <;> rfl
  · rw [not_sliceSpec h]; rfl

/-- the token of a bracket -/
def brToken (b : Bracket) : PStr × PStr :=
  (inBrackets b.inner, match b with
    | .word _ => []
    | b => b.inner)

/-- the tokens of the start of a step -/
def headToks : Head → List (PStr × PStr)
  | .name n => [(escape n, [])]
  | .plain n parts => (n, []) :: parts.map fun s => (inBrackets s, [])
  | .here => [(['.'], [])]
  | .up => [(['.', '.'], [])]
  | .blank => []

/-- the tokens of a step -/
def stepToks (s : PStep) : List (PStr × PStr) := headToks s.head ++ s.brackets.map brToken

/-- the tokens of a list of steps -/
def stepsToks : List PStep → List (PStr × PStr)
  | [] => []
  | [s] => stepToks s
  | s :: ss => stepToks s ++ (['/'], []) :: stepsToks ss

omit [Runtime] in
theorem nameRun_all {n r : PStr} (h : ∀ c ∈ n, c ∉ ['/', '.', '[', ']', '\\']) (hr : NameStop r) : nameRun (n ++ r) = n := by
  induction n with
  | nil => exact nameRun_stop hr
  | cons c n ih =>
    have hc := h c (by simp)
    simp only [List.mem_cons, List.not_mem_nil, or_false, not_or] at hc
    rw [List.cons_append, nameRun_plain hc.2.2.2.2 hc.1 hc.2.2.1, ih (fun x hx => h x (by simp [hx]))]

theorem findAll_parts : ∀ (parts : List PStr) (r : PStr) (prev : Option Char), prev ≠ some '\\' → (∀ s ∈ parts, NamePart s) → NameStop r →
    ∃ prev', prev' ≠ some '\\' ∧
      findAll 0 prev ((parts.map inBrackets).flatten ++ r) = (parts.map fun s => (inBrackets s, [])) ++ findAll 0 prev' r
  | [], r, prev, hp, _, _ => ⟨prev, hp, rfl⟩
  | s :: parts, r, prev, hp, h, hr => by
    obtain ⟨h1, h2, h3⟩ := h s (by simp)
    have hst : NameStop ((parts.map inBrackets).flatten ++ r) := by
      cases parts with
      | nil => simpa using hr
      | cons s' parts => exact Or.inr rfl
    obtain ⟨p', hp', he⟩ := findAll_parts parts r (some ']') (by decide) (fun s hs => h s (by simp [hs])) hr
    refine ⟨p', hp', ?_⟩
    simp only [List.map_cons, List.flatten_cons, List.append_assoc, List.cons_append]
    rw [findAll_inBrackets s _ prev hp h1 (fun _ hl => h2 (List.mem_of_getLast? hl)) hst, namePart_spec ⟨h1, h2, h3⟩, he]

/-- A bracket is well written. -/
def Written (b : Bracket) : Prop := b.inner ≠ [] ∧ ']' ∉ b.inner ∧ sliceSpec b.inner = true

/-- A bracket gives its token. -/
def Tokened (b : Bracket) : Prop :=
  ']' ∉ b.inner ∧ (sliceSpec b.inner = false → b.inner.getLast? ≠ some '\\') ∧ (if sliceSpec b.inner then b.inner else []) = (brToken b).2

theorem word_tokened {w : PStr} (h : NamePart w) : Tokened (.word w) :=
  ⟨h.1, fun _ hl => h.2.1 (List.mem_of_getLast? hl), namePart_spec h⟩

theorem findAll_brackets : ∀ (bs : List Bracket) (r : PStr) (prev : Option Char), prev ≠ some '\\' → (∀ b ∈ bs, Tokened b) → NameStop r →
    ∃ prev', prev' ≠ some '\\' ∧
      findAll 0 prev ((bs.map fun b => inBrackets b.inner).flatten ++ r) = (bs.map brToken) ++ findAll 0 prev' r
  | [], r, prev, hp, _, _ => ⟨prev, hp, rfl⟩
  | b :: bs, r, prev, hp, h, hr => by
    obtain ⟨h0, h1, h3⟩ := h b (by simp)
    have hst : NameStop ((bs.map fun b => inBrackets b.inner).flatten ++ r) := by
      cases bs with
      | nil => simpa using hr
      | cons s' parts => exact Or.inr rfl
    obtain ⟨p', hp', he⟩ := findAll_brackets bs r (some ']') (by decide) (fun s hs => h s (by simp [hs])) hr
    refine ⟨p', hp', ?_⟩
    simp only [List.map_cons, List.flatten_cons, List.append_assoc, List.cons_append]
    rw [findAll_inBrackets _ _ prev hp h0 h1 hst, h3, he]
    rfl

theorem findAll_head {atEnd : Bool} {hd : Head} {ms : List Move} (h : hd.Says atEnd ms) (r : PStr) (prev : Option Char) (hp : prev ≠ some '\\')
    (hr : NameStop r) (he : atEnd = true → r = []) :
    ∃ prev', (r = [] ∨ prev' ≠ some '\\') ∧ findAll 0 prev (hd.text ++ r) = headToks hd ++ findAll 0 prev' r := by
  cases h with
  | @name n h1 h2 =>
    have hb : r ≠ [] → n.getLast? ≠ some '\\' := by
      intro hne
      cases atEnd with
      | true => exact absurd (he rfl) hne
      | false => exact h2 rfl
    refine ⟨n.getLast?, ?_, findAll_name n r prev h1 hr hb⟩
    by_cases h0 : r = []
    · exact .inl h0
    · exact .inr (hb h0)
  | @plain n parts h1 h2 =>
    have hst : NameStop ((parts.map inBrackets).flatten ++ r) := by
      cases parts with
      | nil => simpa using hr
      | cons s' parts => exact Or.inr rfl
    have hl : n.getLast? ≠ some '\\' := fun hl => by
      have := h1.2 _ (List.mem_of_getLast? hl)
      simp at this
    obtain ⟨p', hp', hq⟩ := findAll_parts parts r n.getLast? hl h2 hr
    refine ⟨p', .inr hp', ?_⟩
    show findAll 0 prev (n ++ (parts.map inBrackets).flatten ++ r) = _
    rw [List.append_assoc, findAll_run n _ prev h1.1 (nameRun_all h1.2 hst), hq]
    rfl
  | here =>
    refine ⟨some '.', .inr (by decide), findAll_run ['.'] r prev (by simp) ?_⟩
    show nameRun ('.' :: r) = _
    rw [nameRun_plain (by decide) (by decide) (by decide), nameRun_stop hr]
  | up =>
    refine ⟨some '.', .inr (by decide), findAll_run ['.', '.'] r prev (by simp) ?_⟩
    show nameRun ('.' :: '.' :: r) = _
    rw [nameRun_plain (by decide) (by decide) (by decide), nameRun_plain (by decide) (by decide) (by decide), nameRun_stop hr]
  | blank => exact ⟨prev, .inr hp, rfl⟩

theorem written_of {b : Bracket} {m : Move} (h : b.Says m) : Written b := by
  cases h with
  | @index ds n h =>
    have hs : SpellsOpt ds (some (n : Int)) := .inl ⟨n, h, rfl⟩
    exact ⟨h.1, bracket_not_in hs, sliceSpec_one hs⟩
  | @back ds n h hn =>
    have hs : SpellsOpt ('-' :: ds) (some (-(n : Int))) := .inr ⟨ds, n, rfl, h, rfl⟩
    exact ⟨by simp [Bracket.inner], bracket_not_in hs, sliceSpec_one hs⟩
  | slice ha hb h0 =>
    refine ⟨by simp [Bracket.inner], ?_, sliceSpec_two ha hb⟩
    simp [Bracket.inner, bracket_not_in ha, bracket_not_in hb]
  | stride ha hb hc h0 h1 =>
    refine ⟨by simp [Bracket.inner], ?_, sliceSpec_three ha hb hc⟩
    simp [Bracket.inner, bracket_not_in ha, bracket_not_in hb, bracket_not_in hc]

theorem parse_shape {s : PStr} {op : Op} (h : parseSlice s = .ok op) : op ≠ .here ∧ op ≠ .up := by
  unfold parseSlice at h
  split at h
  · cases h; simp
  · split at h
    · split at h
      · cases h; simp
      · split at h
        · cases h
        · split at h <;> cases h <;> simp
    · simp only at h
      split at h
      · cases h
      · split at h
        · cases h
        · split at h
          · cases h; simp
          · split at h
            · cases h
            · cases h; simp

theorem parse_of_tokenize {b : Bracket} (hw : Written b) {op : Op} (h : tokenize (inBrackets b.inner) = .ok [op]) : parseSlice b.inner = .ok op := by
  obtain ⟨h0, h1, h3⟩ := hw
  cases hp : parseSlice b.inner with
  | error e =>
    exfalso
    unfold inBrackets at h
    rw [tokenize, findAll_bracket _ h1 h3] at h
    simp [tokLoop, h0, hp] at h
  | ok op' =>
    have := tokenize_bracket b.inner h0 h1 h3 op' hp (parse_shape hp).1 (parse_shape hp).2
    unfold inBrackets at h
    rw [this] at h
    simpa using h

theorem bracket_does {b : Bracket} {m : Move} (h : b.Says m) : ∃ op, parseSlice b.inner = .ok op ∧ Does m op := by
  have hw := written_of h
  cases h with
  | index h => exact ⟨_, parse_of_tokenize hw (C19_index h), rfl⟩
  | back h hn =>
    obtain ⟨a, b, h1, h2⟩ := C19_negative_index h hn
    exact ⟨_, parse_of_tokenize hw h1, a, b, rfl, h2⟩
  | slice ha hb h0 =>
    obtain ⟨a', b', h1, h2⟩ := C19_slice_partial ha hb h0
    exact ⟨_, parse_of_tokenize hw h1, a', b', none, rfl, h2⟩
  | stride ha hb hc h0 h0' =>
    obtain ⟨a', b', c', h1, h2⟩ := C19_stride_partial ha hb hc h0 h0'
    exact ⟨_, parse_of_tokenize hw h1, a', b', c', rfl, h2⟩

omit [Runtime] in
theorem doesAll_append {ms ms' : List Move} {ops ops' : List Op} (h : DoesAll ms ops) (h' : DoesAll ms' ops') : DoesAll (ms ++ ms') (ops ++ ops') := by
  induction ms generalizing ops with
  | nil =>
    cases ops with
    | nil => exact h'
    | cons => exact h.elim
  | cons m ms ih =>
    cases ops with
    | nil => exact h.elim
    | cons op ops => exact ⟨h.1, ih h.2⟩

omit [Runtime] in
theorem unescape_id {s : PStr} (h : '\\' ∉ s) : unescape s = s := by
  induction s with
  | nil => rfl
  | cons c s ih =>
    simp only [List.mem_cons, not_or] at h
    rw [unescape_plain (fun e => h.1 e.symm), ih h.2]

theorem tokLoop_parts : ∀ (parts : List PStr) (rest : List (PStr × PStr)) (acc : List Op) (n : PStr), (∀ s ∈ parts, '\\' ∉ s) →
    tokLoop ((parts.map fun s => (inBrackets s, [])) ++ rest) (acc ++ [.name (some n)]) (some n) =
    tokLoop rest (acc ++ [.name (some (n ++ (parts.map inBrackets).flatten))]) (some (n ++ (parts.map inBrackets).flatten))
  | [], rest, acc, n, _ => by simp
  | s :: parts, rest, acc, n, h => by
    rw [List.map_cons, List.cons_append, tokLoop]
    rw [if_neg (by simp [inBrackets]), if_neg (by simp [inBrackets]), if_neg (by simp [inBrackets]), if_neg (by simp)]
    rw [if_pos (by simp [inBrackets, lastIsName])]
    have hu : unescape (inBrackets s) = inBrackets s := unescape_id (by
      have := h s (by simp)
      simp [inBrackets, this])
    rw [hu]
    simp only [Option.getD_some, List.dropLast_concat]
    rw [tokLoop_parts parts rest acc (n ++ inBrackets s) (fun s hs => h s (by simp [hs]))]
    simp

theorem said_token {b : Bracket} {m : Move} (h : b.Says m) : (brToken b).2 = b.inner := by
  cases h <;> rfl

theorem tokLoop_said {b : Bracket} {m : Move} (h : b.Says m) {op : Op} (hp : parseSlice b.inner = .ok op) (rest : List (PStr × PStr)) (acc : List Op)
    (last : Option PStr) : tokLoop (brToken b :: rest) acc last = tokLoop rest (acc ++ [op]) (some (inBrackets b.inner)) := by
  obtain ⟨h0, _, _⟩ := written_of h
  rw [show brToken b = (inBrackets b.inner, b.inner) from Prod.ext rfl (said_token h), tokLoop]
  rw [if_neg (by simp [inBrackets]), if_neg (by simp [inBrackets]), if_neg (by simp [inBrackets]), if_pos h0, hp]

theorem tokLoop_brackets {bs : List Bracket} {ms : List Move} (h : SaysAll bs ms) :
    ∃ ops, DoesAll ms ops ∧ ∀ rest acc (last : Option PStr), last ≠ some ['/'] ∨ bs ≠ [] → ∃ last', (last' = none → last = none ∧ bs = []) ∧ last' ≠ some ['/'] ∧
      tokLoop ((bs.map brToken) ++ rest) acc last = tokLoop rest (acc ++ ops) last' := by
  induction h with
  | nil => exact ⟨[], trivial, fun rest acc last hl => ⟨last, fun h => ⟨h, rfl⟩, by simpa using hl, by simp⟩⟩
  | @cons b m bs ms hb _ ih =>
    obtain ⟨ops, hd, hall⟩ := ih
    obtain ⟨op, hp, hm⟩ := bracket_does hb
    obtain ⟨h0, _, _⟩ := written_of hb
    refine ⟨op :: ops, ⟨hm, hd⟩, fun rest acc last _ => ?_⟩
    have hne : some (inBrackets b.inner) ≠ some ['/'] := by simp [inBrackets]
    obtain ⟨last', h1, h2, h3⟩ := hall rest (acc ++ [op]) (some (inBrackets b.inner)) (.inl hne)
    refine ⟨last', (fun h => absurd (h1 h).1 (by simp)), h2, ?_⟩
    rw [List.map_cons, List.cons_append, tokLoop_said hb hp, h3]
    simp
  | @words b m w ws bs ms hb hmany hw hws _ ih =>
    obtain ⟨ops, hd, hall⟩ := ih
    obtain ⟨op, hp, hm⟩ := bracket_does hb
    refine ⟨op :: .name (some (inBrackets w ++ (ws.map inBrackets).flatten)) :: ops, ⟨hm, rfl, hd⟩, fun rest acc last _ => ?_⟩
    have hne : some (inBrackets w ++ (ws.map inBrackets).flatten) ≠ some ['/'] := by simp [inBrackets]
    obtain ⟨last', h1, h2, h3⟩ := hall rest (acc ++ [op] ++ [.name (some (inBrackets w ++ (ws.map inBrackets).flatten))])
      (some (inBrackets w ++ (ws.map inBrackets).flatten)) (.inl hne)
    refine ⟨last', (fun h => absurd (h1 h).1 (by simp)), h2, ?_⟩
    have hn : lastIsName (acc ++ [op]) = false := by
      cases m with
      | slice a b c => obtain ⟨_, _, _, rfl, _⟩ := hm; simp [lastIsName]
      | fromEnd n => obtain ⟨_, _, rfl, _⟩ := hm; simp [lastIsName]
      | _ => exact hmany.elim
    have hu : unescape (inBrackets w) = inBrackets w := unescape_id (by simp [inBrackets, hw.2.1])
    rw [List.map_cons, List.cons_append, tokLoop_said hb hp, List.map_cons, List.cons_append,
      show brToken (.word w) = (inBrackets w, []) from rfl, tokLoop]
    rw [if_neg (by simp [inBrackets]), if_neg (by simp [inBrackets]), if_neg (by simp [inBrackets]), if_neg (by simp),
      if_neg (by simp [hn]), hu, List.map_append, List.map_map, List.append_assoc]
    have hp := tokLoop_parts ws (bs.map brToken ++ rest) (acc ++ [op]) (inBrackets w) (fun s hs => (hws s hs).2.1)
    rw [show (List.map (brToken ∘ Bracket.word) ws) = ws.map fun s => (inBrackets s, []) from rfl]
    refine hp.trans ?_
    rw [h3]
    simp

theorem tokLoop_head {atEnd : Bool} {hd : Head} {ms : List Move} (h : hd.Says atEnd ms) (hb : hd ≠ .blank) :
    ∃ ops, DoesAll ms ops ∧ ∀ rest acc (last : Option PStr), ∃ t, t ≠ ['/'] ∧ tokLoop (headToks hd ++ rest) acc last = tokLoop rest (acc ++ ops) (some t) := by
  cases h with
  | @name n h1 h2 =>
    refine ⟨[.name (some n)], ⟨rfl, trivial⟩, fun rest acc last => ⟨escape n, (escape_ne_dot n).1, ?_⟩⟩
    have hd := escape_ne_dot n
    have hh : (escape n).head? ≠ some '[' := fun hh => (escape_head n _ hh).2.2.1 rfl
    simp [headToks, tokLoop, hd, hh, unescape_escape]
  | @plain n parts h1 h2 =>
    refine ⟨[.name (some (n ++ (parts.map inBrackets).flatten))], ⟨rfl, trivial⟩, fun rest acc last => ⟨n ++ (parts.map inBrackets).flatten, ?_, ?_⟩⟩
    · intro he
      cases n with
      | nil => exact h1.1 rfl
      | cons c n =>
        simp only [List.cons_append, List.cons.injEq] at he
        have := h1.2 c (by simp)
        simp [he.1] at this
    · have hne : ∀ c, c ∈ ['/', '.', '[', ']', '\\'] → n.head? ≠ some c := by
        intro c hc hh
        exact h1.2 c (List.mem_of_mem_head? hh) hc
      have hu : unescape n = n := unescape_id (fun hm => by
        have := h1.2 _ hm
        simp at this)
      show tokLoop ((n, []) :: (parts.map fun s => (inBrackets s, [])) ++ rest) acc last = _
      rw [List.cons_append, tokLoop]
      rw [if_neg (by rintro rfl; exact hne '/' (by simp) rfl), if_neg (by rintro rfl; exact hne '.' (by simp) rfl),
        if_neg (by rintro rfl; exact hne '.' (by simp) rfl), if_neg (by simp), if_neg (by rintro ⟨hh, _⟩; exact hne '[' (by simp) hh), hu]
      exact tokLoop_parts parts rest acc n (fun s hs => (h2 s hs).2.1)
  | here => exact ⟨[.here], ⟨rfl, trivial⟩, fun rest acc last => ⟨['.'], by simp, by simp [headToks, tokLoop]⟩⟩
  | up => exact ⟨[.up], ⟨rfl, trivial⟩, fun rest acc last => ⟨['.', '.'], by simp, by simp [headToks, tokLoop]⟩⟩
  | blank => exact absurd rfl hb

theorem said_tokened {b : Bracket} {m : Move} (h : b.Says m) : Tokened b := by
  obtain ⟨_, h1, h2⟩ := written_of h
  exact ⟨h1, by simp [h2], by rw [said_token h, h2]; rfl⟩

theorem saysAll_tokened {bs : List Bracket} {ms : List Move} (h : SaysAll bs ms) : ∀ b ∈ bs, Tokened b := by
  induction h with
  | nil => simp
  | cons h1 _ ih =>
    intro b hb
    simp only [List.mem_cons] at hb
    rcases hb with rfl | hb
    · exact said_tokened h1
    · exact ih b hb
  | words h1 _ h2 h3 _ ih =>
    intro b hb
    simp only [List.mem_cons, List.mem_append, List.mem_map] at hb
    rcases hb with rfl | rfl | ⟨w, hw, rfl⟩ | hb
    · exact said_tokened h1
    · exact word_tokened h2
    · exact word_tokened (h3 w hw)
    · exact ih b hb

theorem findAll_step {s : PStep} {atEnd : Bool} {ms bs : List Move} (h : s.head.Says atEnd ms) (hb : SaysAll s.brackets bs) (r : PStr)
    (prev : Option Char) (hp : prev ≠ some '\\') (hr : NameStop r) (he : atEnd = true → s.brackets = [] ∧ r = []) :
    ∃ prev', (r = [] ∨ prev' ≠ some '\\') ∧ findAll 0 prev (s.text ++ r) = stepToks s ++ findAll 0 prev' r := by
  have hst : NameStop ((s.brackets.map fun b => inBrackets b.inner).flatten ++ r) := by
    cases s.brackets with
    | nil => simpa using hr
    | cons b bs => exact Or.inr rfl
  obtain ⟨p1, hp1, h1⟩ := findAll_head h _ prev hp hst (fun ha => by simp [he ha])
  unfold PStep.text stepToks
  rw [List.append_assoc, h1]
  rcases hp1 with h0 | hp1
  · have e1 : s.brackets = [] := by
      cases hbr : s.brackets with
      | nil => rfl
      | cons b bs => rw [hbr] at h0; simp [inBrackets] at h0
    have e2 : r = [] := (List.append_eq_nil_iff.1 h0).2
    subst e2
    refine ⟨none, .inl rfl, ?_⟩
    rw [e1]
    simp [findAll]
  · obtain ⟨p2, hp2, h2⟩ := findAll_brackets s.brackets r p1 hp1 (saysAll_tokened hb) hr
    exact ⟨p2, .inr hp2, by rw [h2, List.append_assoc]⟩

omit [Runtime] in
theorem blank_text {s : PStep} (h : s.isBlank = true) : s = ⟨.blank, []⟩ := by
  obtain ⟨hd, bs⟩ := s
  cases hd <;> cases bs <;> simp [PStep.isBlank] at h ⊢

theorem findAll_steps {ss : List PStep} {ms : List Move} (h : StepsSay ss ms) (prev : Option Char) (hp : prev ≠ some '\\') :
    findAll 0 prev (stepsText ss) = stepsToks ss := by
  induction h generalizing prev with
  | nil => cases prev <;> rfl
  | @last s ms bs h1 h2 =>
    obtain ⟨p', _, h⟩ := findAll_step h1 h2 [] prev hp trivial (fun he => ⟨by simpa using he, rfl⟩)
    rw [List.append_nil] at h
    show findAll 0 prev s.text = stepToks s
    rw [h]
    simp [findAll]
  | @cons s ss ms bs rest hne hb h1 h2 h3 ih =>
    obtain ⟨s', ss', rfl⟩ := List.exists_cons_of_ne_nil hne
    obtain ⟨p', hp', h⟩ := findAll_step h1 h2 ('/' :: stepsText (s' :: ss')) prev hp (Or.inl rfl) (by simp)
    have hp'' : p' ≠ some '\\' := by rcases hp' with h | h
                                     · cases h
                                     · exact h
    show findAll 0 prev (s.text ++ '/' :: stepsText (s' :: ss')) = stepToks s ++ (['/'], []) :: stepsToks (s' :: ss')
    rw [h, findAll_slash _ _ hp'', ih _ (by decide)]
  | @blank s ss rest hne hb h3 ih =>
    obtain ⟨s', ss', rfl⟩ := List.exists_cons_of_ne_nil hne
    rw [blank_text hb]
    show findAll 0 prev ('/' :: stepsText (s' :: ss')) = (['/'], []) :: stepsToks (s' :: ss')
    rw [findAll_slash _ _ hp, ih _ (by decide)]

theorem tokLoop_step {s : PStep} {atEnd : Bool} {ms bs : List Move} (h : s.head.Says atEnd ms) (hb : SaysAll s.brackets bs) (hn : s.isBlank = false) :
    ∃ ops, DoesAll (ms ++ bs) ops ∧ ∀ rest acc (last : Option PStr), ∃ t, t ≠ ['/'] ∧ tokLoop (stepToks s ++ rest) acc last = tokLoop rest (acc ++ ops) (some t) := by
  obtain ⟨ops2, hd2, hl2⟩ := tokLoop_brackets hb
  by_cases hbl : s.head = .blank
  · rw [hbl] at h
    cases h
    have hbr : s.brackets ≠ [] := by
      intro h0
      obtain ⟨hd, br⟩ := s
      simp only at hbl h0
      subst hbl h0
      simp [PStep.isBlank] at hn
    refine ⟨ops2, hd2, fun rest acc last => ?_⟩
    obtain ⟨last', h1, h2, h3⟩ := hl2 rest acc last (.inr hbr)
    cases last' with
    | none => exact absurd (h1 rfl).2 hbr
    | some t =>
      refine ⟨t, fun e => h2 (by rw [e]), ?_⟩
      unfold stepToks
      rw [hbl]
      exact h3
  · obtain ⟨ops1, hd1, hl1⟩ := tokLoop_head h hbl
    refine ⟨ops1 ++ ops2, doesAll_append hd1 hd2, fun rest acc last => ?_⟩
    obtain ⟨t, ht, e1⟩ := hl1 ((s.brackets.map brToken) ++ rest) acc last
    obtain ⟨last', h1, h2, h3⟩ := hl2 rest (acc ++ ops1) (some t) (.inl (by simpa using ht))
    cases last' with
    | none => exact absurd (h1 rfl).1 (by simp)
    | some t' =>
      refine ⟨t', fun e => h2 (by rw [e]), ?_⟩
      unfold stepToks
      rw [List.append_assoc, e1, h3, List.append_assoc]

theorem tokLoop_steps {ss : List PStep} {ms : List Move} (h : StepsSay ss ms) :
    ∃ ops, DoesAll ms ops ∧ ∀ acc (last : Option PStr), last = some ['/'] ∨ (∀ s, ss.head? = some s → s.isBlank = false) →
      tokLoop (stepsToks ss) acc last = .ok (acc ++ ops) := by
  induction h with
  | nil => exact ⟨[], trivial, fun acc last _ => by simp [stepsToks, tokLoop]⟩
  | @last s ms bs h1 h2 =>
    by_cases hb : s.isBlank = true
    · have hs := blank_text hb
      subst hs
      cases h1
      cases h2
      exact ⟨[], trivial, fun acc last _ => by simp [stepsToks, stepToks, headToks, tokLoop]⟩
    · obtain ⟨ops, hd, hl⟩ := tokLoop_step h1 h2 (by simpa using hb)
      refine ⟨ops, hd, fun acc last _ => ?_⟩
      obtain ⟨t, _, e⟩ := hl [] acc last
      rw [List.append_nil] at e
      show tokLoop (stepToks s) acc last = _
      rw [e, tokLoop]
  | @cons s ss ms bs rest hne hb h1 h2 h3 ih =>
    obtain ⟨s', ss', rfl⟩ := List.exists_cons_of_ne_nil hne
    obtain ⟨ops, hd, hl⟩ := tokLoop_step h1 h2 hb
    obtain ⟨ops', hd', hl'⟩ := ih
    refine ⟨ops ++ ops', doesAll_append hd hd', fun acc last _ => ?_⟩
    show tokLoop (stepToks s ++ (['/'], []) :: stepsToks (s' :: ss')) acc last = _
    obtain ⟨t, ht, e⟩ := hl ((['/'], []) :: stepsToks (s' :: ss')) acc last
    rw [e, tokLoop, if_pos rfl, if_neg (by simp), if_neg (by simpa using ht), hl' _ _ (.inl rfl), List.append_assoc]
  | @blank s ss rest hne hb h3 ih =>
    obtain ⟨s', ss', rfl⟩ := List.exists_cons_of_ne_nil hne
    obtain ⟨ops', hd', hl'⟩ := ih
    refine ⟨.name none :: ops', ⟨rfl, hd'⟩, fun acc last hlast => ?_⟩
    have hla : last = some ['/'] := by
      rcases hlast with h | h
      · exact h
      · have := h s rfl
        rw [hb] at this
        cases this
    rw [blank_text hb]
    show tokLoop ((['/'], []) :: stepsToks (s' :: ss')) acc last = _
    rw [hla, tokLoop, if_pos rfl, if_neg (by simp), if_pos rfl, hl' _ _ (.inl rfl)]
    simp

theorem tokenize_says {text : PStr} {ms : List Move} (h : PathSays text ms) :
    ∃ ops r, DoesAll ms ops ∧ tokenize text = .ok r ∧ Simplifies ops r := by
  have key : ∀ ops, tokLoop (findAll 0 .none text) [] .none = .ok ops → ∃ r, tokenize text = .ok r ∧ Simplifies ops r := by
    intro ops ht
    unfold tokenize
    rw [ht]
    simp only []
    by_cases hd : Op.here ∈ ops ∨ Op.up ∈ ops
    · rw [if_pos hd]
      exact ⟨_, rfl, canonicalize_simplifies ops⟩
    · rw [if_neg hd]
      exact ⟨_, rfl, plain_simplifies hd⟩
  cases h with
  | @rel s ss _ hb h =>
    obtain ⟨ops, hd, hl⟩ := tokLoop_steps h
    have : tokLoop (findAll 0 .none (stepsText (s :: ss))) [] .none = .ok ops := by
      rw [findAll_steps h _ (by simp), hl [] none (.inr (by intro s' hs; simp at hs; rw [← hs]; exact hb))]
      simp
    obtain ⟨r, h1, h2⟩ := key ops this
    exact ⟨ops, r, hd, h1, h2⟩
  | empty => exact ⟨[], [], trivial, rfl, .inr ⟨by simp, .refl _, irr_nil⟩⟩
  | @abs ss ms' h =>
    obtain ⟨ops, hd, hl⟩ := tokLoop_steps h
    have : tokLoop (findAll 0 .none ('/' :: stepsText ss)) [] .none = .ok (.top :: ops) := by
      rw [findAll_slash _ _ (by simp), findAll_steps h _ (by decide), tokLoop, if_pos rfl, if_pos rfl, hl _ _ (.inl rfl)]
      rfl
    obtain ⟨r, h1, h2⟩ := key _ this
    exact ⟨.top :: ops, r, ⟨rfl, hd⟩, h1, h2⟩

omit [Runtime] in
theorem walk_branches {N} (g : Graph N) {ms : List Move} {ops : List Op} (h : DoesAll ms ops) (el : N) : branches g ops el = walk g ms el := by
  induction ms generalizing ops el with
  | nil =>
    cases ops with
    | nil => rfl
    | cons => exact h.elim
  | cons m ms ih =>
    cases ops with
    | nil => exact h.elim
    | cons op ops =>
      obtain ⟨h1, h2⟩ := h
      have ih' := fun el => ih h2 el
      cases m with
      | top => rw [show op = .top from h1, branches, walk, ih']
      | up => rw [show op = .up from h1, branches, walk, ih']
      | here => rw [show op = .here from h1, branches, walk, ih']
      | name n =>
        rw [show op = .name n from h1, branches, walk]
        cases g.index el n <;> simp [ih']
      | slice a b c =>
        obtain ⟨a', b', c', rfl, hs⟩ := h1
        rw [branches, walk, hs]
        exact flatMap_congr' fun x _ => ih' x
      | fromEnd n =>
        obtain ⟨a, b, rfl, hs⟩ := h1
        rw [branches, walk, hs]
        split
        · exact flatMap_congr' fun x _ => ih' x
        · rfl

omit [Runtime] in
theorem doesAll_plain {ms : List Move} {ops : List Op} (h : DoesAll ms ops) (hd : ∀ m ∈ ms, m ≠ .here ∧ m ≠ .up) : ¬ (Op.here ∈ ops ∨ Op.up ∈ ops) := by
  induction ms generalizing ops with
  | nil =>
    cases ops with
    | nil => simp
    | cons => exact h.elim
  | cons m ms ih =>
    cases ops with
    | nil => exact h.elim
    | cons op ops =>
      have ih := ih h.2 (fun m hm => hd m (by simp [hm]))
      have hm := hd m (by simp)
      have : op ≠ .here ∧ op ≠ .up := by
        have h1 := h.1
        cases m with
        | top => rw [show op = .top from h1]; simp
        | up => exact absurd rfl hm.2
        | here => exact absurd rfl hm.1
        | name n => rw [show op = .name n from h1]; simp
        | slice a b c => obtain ⟨a', b', c', rfl, _⟩ := h1; simp
        | fromEnd n => obtain ⟨a', b', rfl, _⟩ := h1; simp
      simp only [List.mem_cons, not_or] at ih ⊢
      exact ⟨⟨fun e => this.1 e.symm, ih.1⟩, fun e => this.2 e.symm, ih.2⟩

omit [Runtime] in
theorem movesMatched_does {ms : List Move} {ops : List Op} (h : DoesAll ms ops) (d : Option Nat) : movesMatched d ms = upsMatched d ops := by
  induction ms generalizing ops d with
  | nil =>
    cases ops with
    | nil => rfl
    | cons => exact h.elim
  | cons m ms ih =>
    cases ops with
    | nil => exact h.elim
    | cons op ops =>
      have ih' := fun d => ih h.2 d
      have h1 := h.1
      cases m with
      | top => rw [show op = .top from h1, movesMatched, upsMatched, ih']
      | up =>
        rw [show op = .up from h1]
        match d with
        | none => rw [movesMatched, upsMatched]; exact ih' _
        | some 0 => rfl
        | some (k + 1) => rw [movesMatched, upsMatched]; exact ih' _
      | here => rw [show op = .here from h1, movesMatched, upsMatched, ih']
      | name n => rw [show op = .name n from h1, movesMatched, upsMatched, ih']
      | slice a b c => obtain ⟨a', b', c', rfl, _⟩ := h1; rw [movesMatched, upsMatched, ih']
      | fromEnd n => obtain ⟨a', b', rfl, _⟩ := h1; rw [movesMatched, upsMatched, ih']

omit [Runtime] in
theorem reduces_here {l r : List Op} (h : Reduces l r) (hl : ∀ x ∈ l, x ≠ .here) : ∀ x ∈ r, x ≠ .here := by
  induction h with
  | refl => exact hl
  | step h1 _ ih => exact ih (reduce_here h1 hl)

omit [Runtime] in
theorem canon_idem {ops : List Op} (h : ops ≠ [.here]) : canonicalize (canonicalize ops) = canonicalize ops := by
  rcases canonicalize_simplifies ops with ⟨h1, _⟩ | ⟨_, h2, h3⟩
  · exact absurd h1 h
  · have hh := reduces_here h2 (by intro x hx; simpa using (List.mem_filter.1 hx).2)
    refine simplifies_unique (canonicalize_simplifies _) (.inr ⟨?_, ?_, h3⟩)
    · intro e
      exact hh .here (by rw [e]; simp) rfl
    · rw [List.filter_eq_self.2 (by simpa using hh)]
      exact .refl _

end

end Flatland
