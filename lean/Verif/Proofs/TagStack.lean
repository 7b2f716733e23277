import Verif.Spec.TagStack
import Verif.Proofs.Submit
/-
Lemmas for C67.
-/
namespace Flatland
open Spec

/-! ### events -/

theorem snoc_split {α : Type} {es pre post : List α} {e x : α} (h : es ++ [e] = pre ++ x :: post) :
    (post = [] ∧ pre = es ∧ x = e) ∨ ∃ post', es = pre ++ x :: post' ∧ post = post' ++ [e] := by
  rcases eq_nil_or_snoc post with rfl | ⟨post', y, rfl⟩
  · have := List.append_inj' h rfl
    simp at this
    exact .inl ⟨rfl, this.1.symm, this.2.symm⟩
  · have h' : es ++ [e] = (pre ++ x :: post') ++ [y] := by simpa using h
    have := List.append_inj' h' rfl
    simp at this
    exact .inr ⟨post', this.1, by rw [this.2]⟩

theorem isOpen_other {es : List TagEvent} {e : TagEvent} {i : Nat} (h1 : e ≠ .opened i) (h2 : e ≠ .closed i) : IsOpen (es ++ [e]) i ↔ IsOpen es i := by
  constructor
  · rintro ⟨pre, post, h, hc⟩
    rcases snoc_split h with ⟨-, -, h⟩ | ⟨post', h', rfl⟩
    · exact absurd h.symm h1
    · exact ⟨pre, post', h', fun hm => hc (by simp [hm])⟩
  · rintro ⟨pre, post, rfl, hc⟩
    exact ⟨pre, post ++ [e], by simp, by simp [hc, Ne.symm h2]⟩

theorem isOpen_closed (es : List TagEvent) (i : Nat) : ¬ IsOpen (es ++ [.closed i]) i := by
  rintro ⟨pre, post, h, hc⟩
  rcases snoc_split h with ⟨-, -, h⟩ | ⟨post', h', rfl⟩
  · cases h
  · exact hc (by simp)

theorem isOpen_opened (es : List TagEvent) (i : Nat) : IsOpen (es ++ [.opened i]) i := ⟨es, [], rfl, by simp⟩

theorem since_other {es : List TagEvent} {e : TagEvent} {i k : Nat} (h1 : e ≠ .opened i) (h2 : e ≠ .closed i) :
    OpenSince (es ++ [e]) i k ↔ OpenSince es i k := by
  constructor
  · rintro ⟨pre, post, h, hl, hc, hn⟩
    rcases snoc_split h with ⟨-, -, h⟩ | ⟨post', h', rfl⟩
    · exact absurd h.symm h1
    · exact ⟨pre, post', h', hl, fun hm => hc (by simp [hm]), hn⟩
  · rintro ⟨pre, post, rfl, hl, hc, hn⟩
    exact ⟨pre, post ++ [e], by simp, hl, by simp [hc, Ne.symm h2], hn⟩

theorem since_open {es : List TagEvent} {i k : Nat} (h : OpenSince es i k) : IsOpen es i := by
  obtain ⟨pre, post, h, -, hc, -⟩ := h
  exact ⟨pre, post, h, hc⟩

theorem since_lt {es : List TagEvent} {i k : Nat} (h : OpenSince es i k) : k < es.length := by
  obtain ⟨pre, post, rfl, rfl, -, -⟩ := h
  simp

theorem since_again {es : List TagEvent} {i k : Nat} (ho : IsOpen es i) : OpenSince (es ++ [.opened i]) i k ↔ OpenSince es i k := by
  constructor
  · rintro ⟨pre, post, h, hl, hc, hn⟩
    rcases snoc_split h with ⟨-, rfl, -⟩ | ⟨post', h', rfl⟩
    · exact absurd ho hn
    · exact ⟨pre, post', h', hl, fun hm => hc (by simp [hm]), hn⟩
  · rintro ⟨pre, post, rfl, hl, hc, hn⟩
    exact ⟨pre, post ++ [.opened i], by simp, hl, by simp [hc], hn⟩

theorem since_first {es : List TagEvent} {i k : Nat} (ho : ¬ IsOpen es i) : OpenSince (es ++ [.opened i]) i k ↔ k = es.length := by
  constructor
  · rintro ⟨pre, post, h, hl, hc, hn⟩
    rcases snoc_split h with ⟨-, rfl, -⟩ | ⟨post', h', rfl⟩
    · exact hl.symm
    · exact absurd ⟨pre, post', h', fun hm => hc (by simp [hm])⟩ ho
  · rintro rfl
    exact ⟨es, [], rfl, rfl, by simp, ho⟩

/-- an open tag is open since some event -/
theorem since_exists {es : List TagEvent} {i : Nat} : IsOpen es i → ∃ k, OpenSince es i k := by
  generalize hn : es.length = n
  induction n generalizing es with
  | zero =>
    rintro ⟨pre, post, rfl, -⟩
    simp at hn
  | succ n ih =>
    intro h
    rcases eq_nil_or_snoc es with rfl | ⟨es', e, rfl⟩
    · simp at hn
    · have hl : es'.length = n := by simpa using hn
      by_cases h1 : e = .opened i
      · subst h1
        by_cases ho : IsOpen es' i
        · obtain ⟨k, hk⟩ := ih hl ho
          exact ⟨k, (since_again ho).2 hk⟩
        · exact ⟨_, (since_first ho).2 rfl⟩
      · by_cases h2 : e = .closed i
        · subst h2
          exact absurd h (isOpen_closed _ _)
        · obtain ⟨k, hk⟩ := ih hl ((isOpen_other h1 h2).1 h)
          exact ⟨k, (since_other h1 h2).2 hk⟩

/-- since only one event -/
theorem since_unique {es : List TagEvent} {i k l : Nat} (hk : OpenSince es i k) (hl : OpenSince es i l) : k = l := by
  generalize hn : es.length = n
  induction n generalizing es with
  | zero =>
    have := since_lt hk
    omega
  | succ n ih =>
    rcases eq_nil_or_snoc es with rfl | ⟨es', e, rfl⟩
    · simp at hn
    · have hlen : es'.length = n := by simpa using hn
      by_cases h1 : e = .opened i
      · subst h1
        by_cases ho : IsOpen es' i
        · exact ih ((since_again ho).1 hk) ((since_again ho).1 hl) hlen
        · rw [(since_first ho).1 hk, (since_first ho).1 hl]
      · by_cases h2 : e = .closed i
        · subst h2
          exact absurd (since_open hk) (isOpen_closed _ _)
        · exact ih ((since_other h1 h2).1 hk) ((since_other h1 h2).1 hl) hlen

/-! ### the invariant -/

/-- the stacks hold the open tags of each name, in the order they were opened -/
structure StackInv (es : List TagEvent) (g : TagGen) : Prop where
  known : ∀ i, IsOpen es i → ∃ o, g.objs[i]? = some o
  named : ∀ n i, Named es n i ↔ ∃ o, g.objs[i]? = some o ∧ o.name = n
  mem : ∀ n i, i ∈ g.stackOf n ↔ Named es n i ∧ IsOpen es i
  nodup : ∀ n, (g.stackOf n).Nodup
  order : ∀ n, (g.stackOf n).Pairwise fun i j => ∃ k l, OpenSince es i k ∧ OpenSince es j l ∧ k < l

theorem stackOf_put (g : TagGen) (n : PStr) (l : List Nat) (m : PStr) :
    ({ g with stacks := dictPut g.stacks n l } : TagGen).stackOf m = if m = n then l else g.stackOf m := by
  unfold TagGen.stackOf
  simp only []
  rw [dictGet_put]
  by_cases h : m = n
  · subst h; simp
  · simp [h]

/-- events that open and close nothing -/
theorem inv_quiet {es : List TagEvent} {e : TagEvent} {g g' : TagGen} (hi : StackInv es g) (hs : g'.stacks = g.stacks)
    (h1 : ∀ i, e ≠ .opened i) (h2 : ∀ i, e ≠ .closed i)
    (hn : ∀ (n : PStr) (i : Nat), Named (es ++ [e]) n i ↔ ∃ o, g'.objs[i]? = some o ∧ o.name = n)
    (hk : ∀ (i : Nat) (o : TagObj), g.objs[i]? = some o → ∃ o', g'.objs[i]? = some o')
    (hm : ∀ n i, Named (es ++ [e]) n i → Named es n i ∨ ¬ IsOpen es i) : StackInv (es ++ [e]) g' := by
  have hst : ∀ n, g'.stackOf n = g.stackOf n := fun n => by unfold TagGen.stackOf; rw [hs]
  refine ⟨?_, hn, ?_, fun n => by rw [hst]; exact hi.nodup n, ?_⟩
  · intro i h
    obtain ⟨o, ho⟩ := hi.known i ((isOpen_other (h1 i) (h2 i)).1 h)
    exact hk i o ho
  · intro n i
    rw [hst, hi.mem, isOpen_other (h1 i) (h2 i)]
    constructor
    · rintro ⟨a, b⟩
      exact ⟨by unfold Named at a ⊢; simp [a], b⟩
    · rintro ⟨a, b⟩
      rcases hm n i a with a | a
      · exact ⟨a, b⟩
      · exact absurd b a
  · intro n
    rw [hst]
    refine (hi.order n).imp ?_
    rintro i j ⟨k, l, a, b, c⟩
    exact ⟨k, l, (since_other (h1 i) (h2 i)).2 a, (since_other (h1 j) (h2 j)).2 b, c⟩

theorem named_quiet {es : List TagEvent} {e : TagEvent} (h : ∀ n i, e ≠ .got n i) (n : PStr) (i : Nat) : Named (es ++ [e]) n i ↔ Named es n i := by
  unfold Named
  simp only [List.mem_append, List.mem_singleton]
  constructor
  · rintro (a | a)
    · exact a
    · exact absurd a.symm (h n i)
  · exact .inl

theorem set_named {objs : List TagObj} {i : Nat} {o o' : TagObj} (ho : objs[i]? = some o) (hn : o'.name = o.name) (n : PStr) (j : Nat) :
    (∃ x, (objs.set i o')[j]? = some x ∧ x.name = n) ↔ ∃ x, objs[j]? = some x ∧ x.name = n := by
  rw [List.getElem?_set]
  by_cases h : i = j
  · subst h
    have hl : i < objs.length := by
      rw [List.getElem?_eq_some_iff] at ho
      exact ho.1
    simp only [hl, if_true, ho, Option.some.injEq, exists_eq_left', hn]
  · simp only [if_neg h]

section
variable [Runtime] [Casing]

theorem opening_named {g : TagGen} {i : Nat} {o : TagObj} (ho : g.objs[i]? = some o) (bd : Option Bind) (kw : Attrs) (n : PStr) (j : Nat) :
    (∃ x, (g.opening i o bd kw).objs[j]? = some x ∧ x.name = n) ↔ ∃ x, g.objs[j]? = some x ∧ x.name = n :=
  set_named (o' := { o with contents := contentsAfter o.name bd kw g.frame o.contents }) ho rfl n j

theorem opening_known {g : TagGen} {i : Nat} {o : TagObj} (ho : g.objs[i]? = some o) (bd : Option Bind) (kw : Attrs) (j : Nat) (x : TagObj)
    (h : g.objs[j]? = some x) : ∃ x', (g.opening i o bd kw).objs[j]? = some x' := by
  obtain ⟨x', h', -⟩ := (opening_named ho bd kw x.name j).2 ⟨x, h, rfl⟩
  exact ⟨x', h'⟩

omit [Runtime] [Casing] in
theorem inv_new {es : List TagEvent} {g : TagGen} (hi : StackInv es g) (n : PStr) (o : TagObj) (ho : o.name = n) :
    StackInv (es ++ [.got n g.objs.length]) { g with objs := g.objs ++ [o] } := by
  have hno : ¬ IsOpen es g.objs.length := by
    intro h
    obtain ⟨o, ho⟩ := hi.known _ h
    simp at ho
  have hlt : ∀ j x, g.objs[j]? = some x → j < g.objs.length := by
    intro j x hx
    rw [List.getElem?_eq_some_iff] at hx
    exact hx.1
  refine inv_quiet hi rfl (by simp) (by simp) ?_ ?_ ?_
  · intro m j
    have : Named (es ++ [.got n g.objs.length]) m j ↔ (Named es m j ∨ (m = n ∧ j = g.objs.length)) := by
      unfold Named; simp
    rw [this, hi.named]
    simp only []
    constructor
    · rintro (⟨x, a, b⟩ | ⟨rfl, rfl⟩)
      · exact ⟨x, by rw [List.getElem?_append_left (hlt j x a)]; exact a, b⟩
      · exact ⟨o, by simp, ho⟩
    · rintro ⟨x, a, b⟩
      by_cases hj : j < g.objs.length
      · rw [List.getElem?_append_left hj] at a
        exact .inl ⟨x, a, b⟩
      · rw [List.getElem?_append_right (by omega)] at a
        have hj' : j = g.objs.length := by
          rw [List.getElem?_eq_some_iff] at a
          have := a.1
          simp at this
          omega
        subst hj'
        simp at a
        subst a
        exact .inr ⟨by rw [← b, ho], rfl⟩
  · intro j x hx
    exact ⟨x, by simp only []; rw [List.getElem?_append_left (hlt j x hx)]; exact hx⟩
  · intro m j hm
    unfold Named at hm ⊢
    simp only [List.mem_append, List.mem_singleton] at hm
    rcases hm with hm | hm
    · exact .inl hm
    · cases hm; exact .inr hno

omit [Runtime] [Casing] in
/-- a tag that is closed -/
theorem inv_closed {es : List TagEvent} {g : TagGen} {i : Nat} {o : TagObj} (hi : StackInv es g) (ho : g.objs[i]? = some o) :
    StackInv (es ++ [.closed i]) (g.closeTag i o).1 := by
  have hN := named_quiet (es := es) (e := .closed i) (by simp)
  have hst : ∀ m, (g.closeTag i o).1.stackOf m = if m = o.name then (g.stackOf o.name).erase i else g.stackOf m :=
    fun m => stackOf_put g o.name _ m
  have hmem : ∀ m j, j ∈ (g.closeTag i o).1.stackOf m ↔ j ∈ g.stackOf m ∧ j ≠ i := by
    intro m j
    rw [hst]
    split
    · rename_i h
      subst h
      rw [(hi.nodup _).mem_erase_iff]
      exact And.comm
    · rename_i h
      constructor
      · intro hj
        refine ⟨hj, ?_⟩
        rintro rfl
        obtain ⟨o', h1, h2⟩ := (hi.named m j).1 ((hi.mem m j).1 hj).1
        rw [ho] at h1
        cases h1
        exact h h2.symm
      · exact fun h => h.1
  have hopen : ∀ j, IsOpen (es ++ [.closed i]) j ↔ IsOpen es j ∧ j ≠ i := by
    intro j
    by_cases h : j = i
    · subst h
      simp [isOpen_closed]
    · rw [isOpen_other (by simp) (by simpa using fun h' => h h'.symm)]
      simp [h]
  have hsub : ∀ m, ((g.closeTag i o).1.stackOf m).Sublist (g.stackOf m) := by
    intro m
    rw [hst]
    split
    · rename_i h; subst h; exact List.erase_sublist
    · exact List.Sublist.refl _
  refine ⟨?_, fun m j => (hN m j).trans (hi.named m j), ?_, fun m => (hsub m).nodup (hi.nodup m), ?_⟩
  · intro j hj
    exact hi.known j ((hopen j).1 hj).1
  · intro m j
    rw [hmem, hi.mem, hN, hopen, and_assoc]
  · intro m
    have h1 := (hi.order m).sublist (hsub m)
    refine h1.imp_of_mem ?_
    rintro a b ha hb ⟨k, l, h1, h2, h3⟩
    have na := ((hmem m a).1 ha).2
    have nb := ((hmem m b).1 hb).2
    exact ⟨k, l, (since_other (by simp) (by simpa using fun h => na h.symm)).2 h1, (since_other (by simp) (by simpa using fun h => nb h.symm)).2 h2, h3⟩

omit [Runtime] [Casing] in
/-- a tag that is opened -/
theorem inv_opened {es : List TagEvent} {g : TagGen} {i : Nat} {o : TagObj} (hi : StackInv es g) (ho : g.objs[i]? = some o) :
    StackInv (es ++ [.opened i]) (if i ∈ g.stackOf o.name then g else { g with stacks := dictPut g.stacks o.name (g.stackOf o.name ++ [i]) }) := by
  have hN := named_quiet (es := es) (e := .opened i) (by simp)
  have hnam : Named es o.name i := (hi.named _ _).2 ⟨o, ho, rfl⟩
  have hopen : ∀ j, IsOpen (es ++ [.opened i]) j ↔ IsOpen es j ∨ j = i := by
    intro j
    by_cases h : j = i
    · subst h
      simp [isOpen_opened]
    · rw [isOpen_other (by simpa using fun h' => h h'.symm) (by simp)]
      simp [h]
  split
  · rename_i hin
    have hio := ((hi.mem _ _).1 hin).2
    have hopen' : ∀ j, IsOpen (es ++ [.opened i]) j ↔ IsOpen es j := by
      intro j
      rw [hopen]
      constructor
      · rintro (h | rfl)
        · exact h
        · exact hio
      · exact .inl
    have hsince : ∀ j k, OpenSince es j k → OpenSince (es ++ [.opened i]) j k := by
      intro j k h
      by_cases hj : j = i
      · subst hj
        exact (since_again hio).2 h
      · exact (since_other (by simpa using fun h' => hj h'.symm) (by simp)).2 h
    refine ⟨?_, fun m j => (hN m j).trans (hi.named m j), ?_, hi.nodup, ?_⟩
    · intro j hj; exact hi.known j ((hopen' j).1 hj)
    · intro m j; rw [hi.mem, hN, hopen']
    · intro m
      refine (hi.order m).imp ?_
      rintro a b ⟨k, l, h1, h2, h3⟩
      exact ⟨k, l, hsince _ _ h1, hsince _ _ h2, h3⟩
  · rename_i hin
    have hio : ¬ IsOpen es i := fun h => hin ((hi.mem _ _).2 ⟨hnam, h⟩)
    have hst := stackOf_put g o.name (g.stackOf o.name ++ [i])
    have hother : ∀ m, m ≠ o.name → i ∉ g.stackOf m := fun m _ hm => hio ((hi.mem _ _).1 hm).2
    have hsince : ∀ j k, j ≠ i → OpenSince es j k → OpenSince (es ++ [.opened i]) j k := by
      intro j k hj h
      exact (since_other (by simpa using fun h' => hj h'.symm) (by simp)).2 h
    have hsame : ∀ m, i ∉ g.stackOf m := fun m hm => hio ((hi.mem _ _).1 hm).2
    have hord : ∀ m, (g.stackOf m).Pairwise fun a b => ∃ k l, OpenSince (es ++ [.opened i]) a k ∧ OpenSince (es ++ [.opened i]) b l ∧ k < l := by
      intro m
      refine (hi.order m).imp_of_mem ?_
      rintro a b ha hb ⟨k, l, h1, h2, h3⟩
      exact ⟨k, l, hsince _ _ (fun h => hsame m (h ▸ ha)) h1, hsince _ _ (fun h => hsame m (h ▸ hb)) h2, h3⟩
    refine ⟨?_, fun m j => (hN m j).trans (hi.named m j), ?_, ?_, ?_⟩
    · intro j hj
      rcases (hopen j).1 hj with h | rfl
      · exact hi.known j h
      · exact ⟨o, ho⟩
    · intro m j
      rw [hst, hN, hopen]
      split
      · rename_i h
        subst h
        rw [List.mem_append, List.mem_singleton, hi.mem]
        constructor
        · rintro (⟨a, b⟩ | rfl)
          · exact ⟨a, .inl b⟩
          · exact ⟨hnam, .inr rfl⟩
        · rintro ⟨a, b | b⟩
          · exact .inl ⟨a, b⟩
          · exact .inr b
      · rename_i h
        rw [hi.mem]
        constructor
        · rintro ⟨a, b⟩; exact ⟨a, .inl b⟩
        · rintro ⟨a, b | rfl⟩
          · exact ⟨a, b⟩
          · obtain ⟨o', h1, h2⟩ := (hi.named m j).1 a
            rw [ho] at h1
            cases h1
            exact absurd h2.symm h
    · intro m
      rw [hst]
      split
      · rw [List.nodup_append]
        refine ⟨hi.nodup _, by simp, ?_⟩
        rintro a ha b hb rfl
        exact hsame _ (by simp at hb; exact hb ▸ ha)
      · exact hi.nodup m
    · intro m
      rw [hst]
      split
      · rw [List.pairwise_append]
        refine ⟨hord _, by simp, ?_⟩
        intro a ha b hb
        simp at hb
        subst hb
        obtain ⟨k, hk⟩ := since_exists ((hi.mem _ _).1 ha).2
        exact ⟨k, es.length, hsince _ _ (fun h => hsame _ (h ▸ ha)) hk, (since_first hio).2 rfl, since_lt hk⟩
      · exact hord m

omit [Runtime] [Casing] in
theorem inv_objs {es : List TagEvent} {g g' : TagGen} (hi : StackInv es g) (hs : g'.stacks = g.stacks)
    (hn : ∀ (n : PStr) (i : Nat), (∃ o : TagObj, g'.objs[i]? = some o ∧ o.name = n) ↔ ∃ o, g.objs[i]? = some o ∧ o.name = n) : StackInv es g' := by
  have hst : ∀ n, g'.stackOf n = g.stackOf n := fun n => by unfold TagGen.stackOf; rw [hs]
  refine ⟨?_, fun n i => (hi.named n i).trans (hn n i).symm, fun n i => by rw [hst]; exact hi.mem n i, fun n => by rw [hst]; exact hi.nodup n,
    fun n => by rw [hst]; exact hi.order n⟩
  intro i h
  obtain ⟨o, ho⟩ := hi.known i h
  obtain ⟨o', h', -⟩ := (hn o.name i).2 ⟨o, ho, rfl⟩
  exact ⟨o', h'⟩

theorem history_inv {xml : Bool} {f : OptFrame} {es : List TagEvent} {g : TagGen} (h : TagHistory xml f es g) : StackInv es g := by
  induction h with
  | new =>
    refine ⟨?_, ?_, ?_, ?_, ?_⟩
    · rintro i ⟨pre, post, h, -⟩; simp at h
    · intro n i; simp [Named, newGen]
    · intro n i; simp [Named, newGen, TagGen.stackOf, dictGet]
    · intro n; simp [newGen, TagGen.stackOf, dictGet]
    · intro n; simp [newGen, TagGen.stackOf, dictGet]
  | @got es g n d p _ hi =>
    cases hl : (g.stackOf n).getLast? with
    | some i =>
      have hg : g.getTag n d p = (i, g) := by unfold TagGen.getTag; rw [hl]
      rw [hg]
      simp only []
      have hmem : i ∈ g.stackOf n := List.mem_of_getLast? hl
      have hnam := ((hi.mem n i).1 hmem).1
      have hN : ∀ m j, Named (es ++ [.got n i]) m j ↔ Named es m j := by
        intro m j
        unfold Named at hnam ⊢
        simp only [List.mem_append, List.mem_singleton]
        constructor
        · rintro (a | a)
          · exact a
          · cases a; exact hnam
        · exact .inl
      exact inv_quiet hi rfl (by simp) (by simp) (fun m j => (hN m j).trans (hi.named m j)) (fun j o h => ⟨o, h⟩) (fun m j h => .inl ((hN m j).1 h))
    | none =>
      have hg : g.getTag n d p = (g.objs.length, { g with objs := g.objs ++ [⟨n, d, p, .none⟩] }) := by unfold TagGen.getTag; rw [hl]
      rw [hg]
      exact inv_new hi n ⟨n, d, p, .none⟩ rfl
  | @opened es g i o bd kw _ ho hi =>
    have h1 := inv_opened hi ho
    refine inv_objs h1 rfl ?_
    intro n j
    refine opening_named ?_ bd kw n j
    split
    · exact ho
    · exact ho
  | @closed es g i o _ ho hi => exact inv_closed hi ho
  | @called es g i o bd kw _ ho hi =>
    exact inv_quiet hi rfl (by simp) (by simp) (fun m j => (named_quiet (by simp) m j).trans ((hi.named m j).trans (opening_named ho bd kw m j).symm))
      (opening_known ho bd kw) (fun m j h => .inl ((named_quiet (by simp) m j).1 h))
  | @options es g f' _ hi =>
    exact inv_quiet hi rfl (by simp) (by simp) (fun m j => (named_quiet (by simp) m j).trans (hi.named m j))
      (fun j o h => ⟨o, h⟩) (fun m j h => .inl ((named_quiet (by simp) m j).1 h))

end

end Flatland
