import Verif.Spec.Heap
import Verif.Proofs.Mappings
import Verif.Proofs.Lists
/-! Helper lemmas for C64. -/
namespace Flatland
open Spec

/-! ### the primitives -/

theorem bodyOf_setParent (h : OHeap) (r : Nat) (p : Option Nat) (x : Nat) : bodyOf (setParent h r p) x = bodyOf h x := by
  unfold bodyOf setParent
  rw [List.getElem?_modify]
  split <;> simp [Option.map_map, Function.comp_def]

theorem parentOf_setParent (h : OHeap) (r : Nat) (p : Option Nat) (x : Nat) (hr : r < h.length) :
    parentOf (setParent h r p) x = if x = r then p else parentOf h x := by
  unfold parentOf setParent
  rw [List.getElem?_modify]
  by_cases hx : x = r
  · subst hx; simp [hr]
  · have : ¬ r = x := fun h => hx h.symm
    simp [hx, this, Function.comp_def]

theorem length_setParent (h : OHeap) (r : Nat) (p : Option Nat) : (setParent h r p).length = h.length := by simp [setParent]

theorem bodyOf_setBody (h : OHeap) (r : Nat) (b : Body) (x : Nat) (hr : r < h.length) :
    bodyOf (setBody h r b) x = if x = r then b else bodyOf h x := by
  unfold bodyOf setBody
  rw [List.getElem?_modify]
  by_cases hx : x = r
  · subst hx; simp [hr]
  · have : ¬ r = x := fun h => hx h.symm
    simp [hx, this, Function.comp_def]

theorem parentOf_setBody (h : OHeap) (r : Nat) (b : Body) (x : Nat) : parentOf (setBody h r b) x = parentOf h x := by
  unfold parentOf setBody
  rw [List.getElem?_modify]
  split
  · cases h[x]? <;> rfl
  · simp

theorem length_setBody (h : OHeap) (r : Nat) (b : Body) : (setBody h r b).length = h.length := by simp [setBody]

theorem length_alloc (h : OHeap) (o : Obj) : (h ++ [o]).length = h.length + 1 := by simp

theorem bodyOf_alloc (h : OHeap) (o : Obj) (x : Nat) : bodyOf (h ++ [o]) x = if x = h.length then o.body else bodyOf h x := by
  unfold bodyOf
  by_cases hx : x = h.length
  · subst hx; simp
  · rcases Nat.lt_or_ge x h.length with hlt | hge
    · simp [hx, List.getElem?_append_left hlt]
    · rw [List.getElem?_eq_none (by simp; omega), List.getElem?_eq_none hge]; simp [hx]

theorem parentOf_alloc (h : OHeap) (o : Obj) (x : Nat) : parentOf (h ++ [o]) x = if x = h.length then o.parent else parentOf h x := by
  unfold parentOf
  by_cases hx : x = h.length
  · subst hx; simp
  · rcases Nat.lt_or_ge x h.length with hlt | hge
    · simp [hx, List.getElem?_append_left hlt]
    · rw [List.getElem?_eq_none (by simp; omega), List.getElem?_eq_none hge]; simp [hx]

theorem parentOf_lt {h : OHeap} {x c : Nat} (hp : parentOf h x = some c) : x < h.length := by
  unfold parentOf at hp
  by_cases hx : x < h.length
  · exact hx
  · rw [List.getElem?_eq_none (by omega)] at hp; cases hp

theorem bodyOf_lt {h : OHeap} {x : Nat} (hp : bodyOf h x ≠ .scalar) : x < h.length := by
  unfold bodyOf at hp
  by_cases hx : x < h.length
  · exact hx
  · rw [List.getElem?_eq_none (by omega)] at hp; exact absurd rfl hp

/-! ### the invariant -/

/-- what the object refers to -/
def refs : Body → List Nat
  | .scalar => []
  | .seq ms => ms
  | .list ss => ss
  | .slot e => [e]
  | .mapping kvs => kvs.map Prod.snd

def slotB : Body → Bool
  | .slot _ => true
  | _ => false

/-- an object that counts: not a slot, or a slot in a List -/
def Live (h : OHeap) (c : Nat) : Prop := slotB (bodyOf h c) = true → ∃ l, isListBody (bodyOf h l) = true ∧ c ∈ refs (bodyOf h l)

structure Inv (h : OHeap) : Prop where
  valid : ∀ c, ∀ m ∈ refs (bodyOf h c), m < h.length
  link : ∀ c, Live h c → ∀ m ∈ refs (bodyOf h c), parentOf h m = some c
  nodup : ∀ c, (refs (bodyOf h c)).Nodup
  slots : ∀ c, isListBody (bodyOf h c) = true → ∀ m ∈ refs (bodyOf h c), slotB (bodyOf h m) = true
  elems : ∀ c, isListBody (bodyOf h c) = false → ∀ m ∈ refs (bodyOf h c), slotB (bodyOf h m) = false

/-- nothing that counts refers to `r` -/
def Free (h : OHeap) (r : Nat) : Prop := ∀ c, Live h c → r ∉ refs (bodyOf h c)

theorem live_of_not_slot {h : OHeap} {c : Nat} (hs : slotB (bodyOf h c) = false) : Live h c := by
  intro h'; rw [hs] at h'; cases h'

theorem slotB_of_list {b : Body} (hl : isListBody b = true) : slotB b = false := by cases b <;> simp_all [isListBody, slotB]

theorem live_list {h : OHeap} {c : Nat} (hl : isListBody (bodyOf h c) = true) : Live h c := live_of_not_slot (slotB_of_list hl)

theorem live_congr {h h' : OHeap} (hb : ∀ x, bodyOf h' x = bodyOf h x) (c : Nat) : Live h' c ↔ Live h c := by
  simp [Live, hb]

theorem free_congr {h h' : OHeap} (hb : ∀ x, bodyOf h' x = bodyOf h x) (r : Nat) : Free h' r ↔ Free h r := by
  simp [Free, hb, live_congr hb]

/-- changing the parent of something loose is harmless -/
theorem inv_setParent {h : OHeap} (hi : Inv h) {r : Nat} (hr : r < h.length) (hf : Free h r) (p : Option Nat) : Inv (setParent h r p) := by
  have hb := bodyOf_setParent h r p
  refine ⟨fun c m hm => by rw [length_setParent]; rw [hb] at hm; exact hi.valid c m hm, fun c hc m hm => ?_, fun c => by rw [hb]; exact hi.nodup c, fun c hc m hm => ?_, fun c hc m hm => ?_⟩
  · rw [live_congr hb] at hc
    rw [hb] at hm
    rw [parentOf_setParent _ _ _ _ hr]
    have : m ≠ r := fun e => hf c hc (e ▸ hm)
    simp [this, hi.link c hc m hm]
  · rw [hb] at hc hm ⊢; exact hi.slots c hc m hm
  · rw [hb] at hc hm ⊢; exact hi.elems c hc m hm

theorem bodyOf_alloc_old {h : OHeap} {o : Obj} {x : Nat} (hx : x < h.length) : bodyOf (h ++ [o]) x = bodyOf h x := by
  rw [bodyOf_alloc]; simp [show x ≠ h.length by omega]

theorem parentOf_alloc_old {h : OHeap} {o : Obj} {x : Nat} (hx : x < h.length) : parentOf (h ++ [o]) x = parentOf h x := by
  rw [parentOf_alloc]; simp [show x ≠ h.length by omega]

/-- a new object: empty, or a slot around an element -/
def FreshBody (h : OHeap) (b : Body) : Prop := refs b = [] ∨ ∃ e, b = .slot e ∧ e < h.length ∧ slotB (bodyOf h e) = false

theorem alloc_live {h : OHeap} (hi : Inv h) {o : Obj} (ho : FreshBody h o.body) {c : Nat} (hc : Live (h ++ [o]) c) :
    (c = h.length → slotB o.body = false) ∧ (c ≠ h.length → Live h c) := by
  have key : ∀ l, isListBody (bodyOf (h ++ [o]) l) = true → ∀ x ∈ refs (bodyOf (h ++ [o]) l), l ≠ h.length ∧ x ∈ refs (bodyOf h l) ∧ isListBody (bodyOf h l) = true := by
    intro l hl x hx
    rw [bodyOf_alloc] at hl hx
    by_cases hle : l = h.length
    · simp only [hle, ↓reduceIte] at hl hx
      rcases ho with ho | ⟨e, he, _⟩
      · rw [ho] at hx; cases hx
      · rw [he] at hl; simp [isListBody] at hl
    · simp only [hle, ↓reduceIte] at hl hx; exact ⟨hle, hx, hl⟩
  refine ⟨fun hcl => ?_, fun hcl => ?_⟩
  · cases hs : slotB o.body with
    | false => rfl
    | true =>
      have : slotB (bodyOf (h ++ [o]) c) = true := by rw [bodyOf_alloc]; simp [hcl, hs]
      obtain ⟨l, hl, hx⟩ := hc this
      obtain ⟨h1, h2, h3⟩ := key l hl c hx
      have := hi.valid l c h2
      omega
  · intro hs
    have : slotB (bodyOf (h ++ [o]) c) = true := by rw [bodyOf_alloc]; simp [hcl, hs]
    obtain ⟨l, hl, hx⟩ := hc this
    obtain ⟨h1, h2, h3⟩ := key l hl c hx
    exact ⟨l, h3, h2⟩

theorem inv_alloc {h : OHeap} (hi : Inv h) {o : Obj} (ho : FreshBody h o.body) : Inv (h ++ [o]) := by
  refine ⟨fun c m hm => ?_, fun c hc m hm => ?_, fun c => ?_, fun c hc m hm => ?_, fun c hc m hm => ?_⟩
  · rw [bodyOf_alloc] at hm
    rw [length_alloc]
    by_cases hcl : c = h.length
    · simp only [hcl, ↓reduceIte] at hm
      rcases ho with ho | ⟨e, he, hel, _⟩
      · rw [ho] at hm; cases hm
      · rw [he] at hm; simp only [refs, List.mem_singleton] at hm; omega
    · simp only [hcl, ↓reduceIte] at hm
      have := hi.valid c m hm; omega
  · obtain ⟨h1, h2⟩ := alloc_live hi ho hc
    rw [bodyOf_alloc] at hm
    by_cases hcl : c = h.length
    · simp only [hcl, ↓reduceIte] at hm
      rcases ho with ho | ⟨e, he, _⟩
      · rw [ho] at hm; cases hm
      · rw [he] at h1; exact absurd (h1 hcl) (by simp [slotB])
    · simp only [hcl, ↓reduceIte] at hm
      rw [parentOf_alloc_old (hi.valid c m hm)]
      exact hi.link c (h2 hcl) m hm
  · rw [bodyOf_alloc]
    split
    · rcases ho with ho | ⟨e, he, _⟩
      · rw [ho]; simp
      · rw [he]; simp [refs]
    · exact hi.nodup c
  · rw [bodyOf_alloc] at hc hm
    by_cases hcl : c = h.length
    · simp only [hcl, ↓reduceIte] at hc hm
      rcases ho with ho | ⟨e, he, _⟩
      · rw [ho] at hm; cases hm
      · rw [he] at hc; simp [isListBody] at hc
    · simp only [hcl, ↓reduceIte] at hc hm
      rw [bodyOf_alloc_old (hi.valid c m hm)]
      exact hi.slots c hc m hm
  · rw [bodyOf_alloc] at hc hm
    by_cases hcl : c = h.length
    · simp only [hcl, ↓reduceIte] at hc hm
      rcases ho with ho | ⟨e, he, hel, hes⟩
      · rw [ho] at hm; cases hm
      · rw [he] at hm; simp only [refs, List.mem_singleton] at hm
        subst hm; rw [bodyOf_alloc_old hel]; exact hes
    · simp only [hcl, ↓reduceIte] at hc hm
      rw [bodyOf_alloc_old (hi.valid c m hm)]
      exact hi.elems c hc m hm

theorem free_alloc {h : OHeap} (hi : Inv h) {o : Obj} (ho : FreshBody h o.body) {r : Nat} (hf : Free h r) : Free (h ++ [o]) r := by
  intro c hc hm
  obtain ⟨h1, h2⟩ := alloc_live hi ho hc
  rw [bodyOf_alloc] at hm
  by_cases hcl : c = h.length
  · simp only [hcl, ↓reduceIte] at hm
    rcases ho with ho | ⟨e, he, _⟩
    · rw [ho] at hm; cases hm
    · rw [he] at h1; exact absurd (h1 hcl) (by simp [slotB])
  · simp only [hcl, ↓reduceIte] at hm
    exact hf c (h2 hcl) hm

theorem free_length {h : OHeap} (hi : Inv h) : Free h h.length := fun c _ hm => absurd (hi.valid c _ hm) (by omega)

/-! ### changing the content of a container -/

/-- `x` may stand in the content of `c` -/
def EntryOK (h : OHeap) (c x : Nat) : Prop :=
  parentOf h x = some c ∧
  (isListBody (bodyOf h c) = true → slotB (bodyOf h x) = true ∧ ∀ e ∈ refs (bodyOf h x), parentOf h e = some x) ∧
  (isListBody (bodyOf h c) = false → slotB (bodyOf h x) = false)

theorem entryOK_of_inv {h : OHeap} (hi : Inv h) {c x : Nat} (hs : slotB (bodyOf h c) = false) (hx : x ∈ refs (bodyOf h c)) : EntryOK h c x := by
  refine ⟨hi.link c (live_of_not_slot hs) x hx, fun hl => ⟨hi.slots c hl x hx, fun e he => ?_⟩, fun hl => hi.elems c hl x hx⟩
  exact hi.link x (fun _ => ⟨c, hl, hx⟩) e he

theorem setBody_live {h : OHeap} {c : Nat} {b : Body} (hc : c < h.length) (hl : isListBody b = isListBody (bodyOf h c))
    (hs : slotB b = false) (hs0 : slotB (bodyOf h c) = false) {x : Nat} (hx : Live (setBody h c b) x) :
    Live h x ∨ (isListBody (bodyOf h c) = true ∧ x ∈ refs b) := by
  by_cases hxs : slotB (bodyOf h x) = true
  · have hxc : x ≠ c := by intro e; subst e; rw [hs0] at hxs; cases hxs
    have : slotB (bodyOf (setBody h c b) x) = true := by rw [bodyOf_setBody _ _ _ _ hc]; simp [hxc, hxs]
    obtain ⟨l, hl', hm⟩ := hx this
    rw [bodyOf_setBody _ _ _ _ hc] at hl' hm
    by_cases hlc : l = c
    · simp only [hlc, ↓reduceIte] at hl' hm
      exact .inr ⟨hl ▸ hl', hm⟩
    · simp only [hlc, ↓reduceIte] at hl' hm
      exact .inl fun _ => ⟨l, hl', hm⟩
  · exact .inl (live_of_not_slot (by simpa using hxs))

theorem inv_setBody {h : OHeap} (hi : Inv h) {c : Nat} {b : Body} (hc : c < h.length) (hl : isListBody b = isListBody (bodyOf h c))
    (hs : slotB b = false) (hs0 : slotB (bodyOf h c) = false) (hn : (refs b).Nodup) (he : ∀ x ∈ refs b, EntryOK h c x) :
    Inv (setBody h c b) := by
  have slotEq : ∀ x, slotB (bodyOf (setBody h c b) x) = slotB (bodyOf h x) := by
    intro x; rw [bodyOf_setBody _ _ _ _ hc]; split
    · rename_i e; subst e; rw [hs, hs0]
    · rfl
  have listEq : ∀ x, isListBody (bodyOf (setBody h c b) x) = isListBody (bodyOf h x) := by
    intro x; rw [bodyOf_setBody _ _ _ _ hc]; split
    · rename_i e; subst e; rw [hl]
    · rfl
  refine ⟨fun c' m hm => ?_, fun c' hc' m hm => ?_, fun c' => ?_, fun c' hc' m hm => ?_, fun c' hc' m hm => ?_⟩
  · rw [length_setBody]
    rw [bodyOf_setBody _ _ _ _ hc] at hm
    split at hm
    · exact parentOf_lt (he m hm).1
    · exact hi.valid c' m hm
  · rw [parentOf_setBody]
    have hlive := setBody_live hc hl hs hs0 hc'
    rw [bodyOf_setBody _ _ _ _ hc] at hm
    split at hm
    · rename_i e; subst e; exact (he m hm).1
    · rcases hlive with h' | ⟨h1, h2⟩
      · exact hi.link c' h' m hm
      · exact ((he c' h2).2.1 h1).2 m hm
  · rw [bodyOf_setBody _ _ _ _ hc]
    split
    · exact hn
    · exact hi.nodup c'
  · rw [slotEq]; rw [listEq] at hc'
    rw [bodyOf_setBody _ _ _ _ hc] at hm
    split at hm
    · rename_i e; subst e; exact ((he m hm).2.1 hc').1
    · exact hi.slots c' hc' m hm
  · rw [slotEq]; rw [listEq] at hc'
    rw [bodyOf_setBody _ _ _ _ hc] at hm
    split at hm
    · rename_i e; subst e; exact (he m hm).2.2 hc'
    · exact hi.elems c' hc' m hm

/-! ### what an operation may change -/

def kindOf : Body → Nat
  | .scalar => 0
  | .seq _ => 1
  | .list _ => 2
  | .slot _ => 3
  | .mapping _ => 4

theorem isListBody_kind (b : Body) : isListBody b = (kindOf b == 2) := by cases b <;> rfl
theorem isSeqBody_kind (b : Body) : isSeqBody b = (kindOf b == 1 || kindOf b == 2) := by cases b <;> rfl
theorem isMapBody_kind (b : Body) : isMapBody b = (kindOf b == 4) := by cases b <;> rfl
theorem slotB_kind (b : Body) : slotB b = (kindOf b == 3) := by cases b <;> rfl

/-- from `h` to `h'` only the contents of `cs` and the parents of `es` changed, and objects were added -/
structure Step (h h' : OHeap) (cs es : List Nat) : Prop where
  len : h.length ≤ h'.length
  body : ∀ r, r < h.length → r ∉ cs → bodyOf h' r = bodyOf h r
  kind : ∀ r, r < h.length → kindOf (bodyOf h' r) = kindOf (bodyOf h r)
  par : ∀ r, r < h.length → r ∉ es → parentOf h' r = parentOf h r
  fresh : ∀ y m, m ∈ refs (bodyOf h' y) → (y < h.length ∧ m ∈ refs (bodyOf h y)) ∨ m ∈ es ∨ h.length ≤ m

theorem Step.refl (h : OHeap) (hi : Inv h) : Step h h [] [] := by
  refine ⟨Nat.le_refl _, fun _ _ _ => rfl, fun _ _ => rfl, fun _ _ _ => rfl, fun y m hm => .inl ⟨?_, hm⟩⟩
  apply bodyOf_lt; intro he; rw [he] at hm; cases hm

theorem Step.trans {h h1 h2 : OHeap} {cs es cs' es' cs'' es'' : List Nat} (s1 : Step h h1 cs es) (s2 : Step h1 h2 cs' es')
    (hc1 : ∀ c ∈ cs, c ∈ cs'' ∨ h.length ≤ c) (hc2 : ∀ c ∈ cs', c ∈ cs'' ∨ h.length ≤ c)
    (he1 : ∀ c ∈ es, c ∈ es'' ∨ h.length ≤ c) (he2 : ∀ c ∈ es', c ∈ es'' ∨ h.length ≤ c) : Step h h2 cs'' es'' := by
  have hl := s1.len
  refine ⟨Nat.le_trans s1.len s2.len, fun r hr hn => ?_, fun r hr => ?_, fun r hr hn => ?_, fun y m hm => ?_⟩
  · rw [s2.body r (by omega) fun h' => ?_, s1.body r hr fun h' => ?_]
    · rcases hc1 r h' with h' | h'
      · exact hn h'
      · omega
    · rcases hc2 r h' with h' | h'
      · exact hn h'
      · omega
  · rw [s2.kind r (by omega), s1.kind r hr]
  · rw [s2.par r (by omega) fun h' => ?_, s1.par r hr fun h' => ?_]
    · rcases he1 r h' with h' | h'
      · exact hn h'
      · omega
    · rcases he2 r h' with h' | h'
      · exact hn h'
      · omega
  · rcases s2.fresh y m hm with ⟨_, h'⟩ | h' | h'
    · rcases s1.fresh y m h' with h' | h' | h'
      · exact .inl h'
      · rcases he1 m h' with h' | h'
        · exact .inr (.inl h')
        · exact .inr (.inr h')
      · exact .inr (.inr h')
    · rcases he2 m h' with h' | h'
      · exact .inr (.inl h')
      · exact .inr (.inr h')
    · exact .inr (.inr (by omega))

/-- loose elements that were not supplied stay loose -/
theorem Step.free {h h' : OHeap} {cs es : List Nat} (s : Step h h' cs es) (hes : ∀ e ∈ es, e < h.length → slotB (bodyOf h e) = false)
    {r : Nat} (hr : r < h.length) (hn : r ∉ es) (hf : Free h r) : Free h' r := by
  intro c hc hm
  rcases s.fresh c r hm with ⟨hcl, hm'⟩ | h' | h'
  · refine hf c (fun hs => ?_) hm'
    have : slotB (bodyOf h' c) = true := by rw [slotB_kind, s.kind c hcl, ← slotB_kind]; exact hs
    obtain ⟨l, hl, hx⟩ := hc this
    rcases s.fresh l c hx with ⟨hll, hx'⟩ | h' | h'
    · refine ⟨l, ?_, hx'⟩
      rw [isListBody_kind, ← s.kind l hll, ← isListBody_kind]; exact hl
    · rw [hes c h' hcl] at hs; cases hs
    · omega
  · exact hn h'
  · omega

theorem step_alloc {h : OHeap} {o : Obj} (ho : FreshBody h o.body) (es : List Nat) (hes : ∀ m ∈ refs o.body, m ∈ es) : Step h (h ++ [o]) [] es := by
  refine ⟨by simp, fun r hr _ => bodyOf_alloc_old hr, fun r hr => by rw [bodyOf_alloc_old hr], fun r hr _ => parentOf_alloc_old hr, fun y m hm => ?_⟩
  rw [bodyOf_alloc] at hm
  split at hm
  · exact .inr (.inl (hes m hm))
  · refine .inl ⟨?_, hm⟩
    apply bodyOf_lt; intro he; rw [he] at hm; cases hm

theorem step_setParent {h : OHeap} {r : Nat} (hr : r < h.length) (p : Option Nat) : Step h (setParent h r p) [] [r] := by
  refine ⟨by rw [length_setParent]; exact Nat.le_refl _, fun x _ _ => bodyOf_setParent .., fun x _ => by rw [bodyOf_setParent],
    fun x _ hn => ?_, fun y m hm => ?_⟩
  · rw [parentOf_setParent _ _ _ _ hr]; simp at hn; simp [hn]
  · rw [bodyOf_setParent] at hm
    refine .inl ⟨?_, hm⟩
    apply bodyOf_lt; intro he; rw [he] at hm; cases hm

theorem step_setBody {h : OHeap} {c : Nat} {b : Body} (hc : c < h.length) (hk : kindOf b = kindOf (bodyOf h c)) (es : List Nat)
    (hes : ∀ m ∈ refs b, m ∈ refs (bodyOf h c) ∨ m ∈ es) : Step h (setBody h c b) [c] es := by
  refine ⟨by rw [length_setBody]; exact Nat.le_refl _, fun x _ hn => ?_, fun x _ => ?_, fun x _ _ => parentOf_setBody .., fun y m hm => ?_⟩
  · rw [bodyOf_setBody _ _ _ _ hc]; simp at hn; simp [hn]
  · rw [bodyOf_setBody _ _ _ _ hc]; split
    · rename_i e; subst e; exact hk
    · rfl
  · rw [bodyOf_setBody _ _ _ _ hc] at hm
    split at hm
    · rename_i e; subst e
      rcases hes m hm with h' | h'
      · exact .inl ⟨hc, h'⟩
      · exact .inr (.inl h')
    · refine .inl ⟨?_, hm⟩
      apply bodyOf_lt; intro he; rw [he] at hm; cases hm

/-! ### the operations -/

theorem entries_refs {b : Body} (h : isSeqBody b = true) : entries b = refs b := by cases b <;> simp_all [isSeqBody, entries, refs]
theorem refs_withEntries {b : Body} (h : isSeqBody b = true) (xs : List Nat) : refs (withEntries b xs) = xs := by
  cases b <;> simp_all [isSeqBody, withEntries, refs]
theorem kind_withEntries (b : Body) (xs : List Nat) : kindOf (withEntries b xs) = kindOf b := by cases b <;> rfl
theorem seq_not_slot {b : Body} (h : isSeqBody b = true) : slotB b = false := by cases b <;> simp_all [isSeqBody, slotB]
theorem map_not_slot {b : Body} (h : isMapBody b = true) : slotB b = false := by cases b <;> simp_all [isMapBody, slotB]
theorem map_not_list {b : Body} (h : isMapBody b = true) : isListBody b = false := by cases b <;> simp_all [isMapBody, isListBody]
theorem seq_lt {h : OHeap} {c : Nat} (hs : isSeqBody (bodyOf h c) = true) : c < h.length :=
  bodyOf_lt (by intro he; rw [he] at hs; simp [isSeqBody] at hs)
theorem map_lt {h : OHeap} {c : Nat} (hs : isMapBody (bodyOf h c) = true) : c < h.length :=
  bodyOf_lt (by intro he; rw [he] at hs; simp [isMapBody] at hs)

theorem kind_eq {b b' : Body} (h : kindOf b = kindOf b') :
    isListBody b = isListBody b' ∧ isSeqBody b = isSeqBody b' ∧ isMapBody b = isMapBody b' ∧ slotB b = slotB b' := by
  simp [isListBody_kind, isSeqBody_kind, isMapBody_kind, slotB_kind, h]

theorem setEntries_ok {h : OHeap} (hi : Inv h) {c : Nat} (hs : isSeqBody (bodyOf h c) = true) {xs : List Nat} (hn : xs.Nodup)
    (he : ∀ x ∈ xs, EntryOK h c x) (es : List Nat) (hes : ∀ x ∈ xs, x ∈ refs (bodyOf h c) ∨ x ∈ es) :
    Inv (setEntries h c xs) ∧ Step h (setEntries h c xs) [c] es := by
  have hk := kind_withEntries (bodyOf h c) xs
  have hr := refs_withEntries hs xs
  refine ⟨inv_setBody hi (seq_lt hs) (kind_eq hk).1 ?_ (seq_not_slot hs) (by rw [hr]; exact hn) (by rw [hr]; exact he),
    step_setBody (seq_lt hs) hk es (by rw [hr]; exact hes)⟩
  rw [(kind_eq hk).2.2.2]; exact seq_not_slot hs

theorem wrap_ok {h : OHeap} (hi : Inv h) {c e : Nat} (hs : isSeqBody (bodyOf h c) = true) (hel : e < h.length)
    (hes : slotB (bodyOf h e) = false) (hf : Free h e) {h1 : OHeap} {x : Nat} (hw : wrap h c e = (h1, x)) :
    Inv h1 ∧ Step h h1 [] [e] ∧ EntryOK h1 c x ∧ x ∉ refs (bodyOf h c) ∧ (x = e ∨ h.length ≤ x) ∧ x < h1.length ∧
      (slotB (bodyOf h1 x) = true → refs (bodyOf h1 x) = [e]) := by
  have hcl := seq_lt hs
  unfold wrap at hw
  by_cases hl : isListBody (bodyOf h c) = true
  · simp only [hl, ↓reduceIte, allocObj, Prod.mk.injEq] at hw
    obtain ⟨rfl, rfl⟩ := hw
    have ho : FreshBody h (Body.slot e) := .inr ⟨e, rfl, hel, hes⟩
    have hel' : e < (h ++ [(⟨some c, Body.slot e⟩ : Obj)]).length := by simp; omega
    have hi1 := inv_alloc (o := ⟨some c, Body.slot e⟩) hi ho
    have hf1 := free_alloc (o := ⟨some c, Body.slot e⟩) hi ho hf
    have hb : bodyOf (setParent (h ++ [(⟨some c, Body.slot e⟩ : Obj)]) e (some h.length)) h.length = .slot e := by
      rw [bodyOf_setParent, bodyOf_alloc]; simp
    refine ⟨inv_setParent hi1 hel' hf1 _, ?_, ⟨?_, ?_, ?_⟩, ?_, .inr (Nat.le_refl _), by rw [length_setParent]; simp, fun _ => by rw [hb]; rfl⟩
    · exact (step_alloc ho [e] (by simp [refs])).trans (step_setParent hel' _) (by simp) (by simp) (by simp) (by simp)
    · rw [parentOf_setParent _ _ _ _ hel', parentOf_alloc]
      simp [show h.length ≠ e by omega]
    · intro _
      rw [hb]
      refine ⟨rfl, fun e' he' => ?_⟩
      simp only [refs, List.mem_singleton] at he'
      subst he'
      rw [parentOf_setParent _ _ _ _ hel']; simp
    · intro h'
      rw [bodyOf_setParent, bodyOf_alloc_old hcl, hl] at h'; cases h'
    · intro hm; exact absurd (hi.valid c _ hm) (by omega)
  · simp only [hl, Bool.false_eq_true, ↓reduceIte, Prod.mk.injEq] at hw
    obtain ⟨rfl, rfl⟩ := hw
    refine ⟨inv_setParent hi hel hf _, step_setParent hel _, ⟨?_, ?_, ?_⟩, hf c (live_of_not_slot (seq_not_slot hs)), .inl rfl,
      by rw [length_setParent]; exact hel, fun h' => ?_⟩
    · rw [parentOf_setParent _ _ _ _ hel]; simp
    · intro h'; rw [bodyOf_setParent] at h'; exact absurd h' hl
    · intro _; rw [bodyOf_setParent]; exact hes
    · rw [bodyOf_setParent, hes] at h'; cases h'

/-- the content of `c` is replaced by some of what was there and what `wrap` gave -/
theorem wrap_set_ok {h : OHeap} (hi : Inv h) {c e : Nat} (hs : isSeqBody (bodyOf h c) = true) (hel : e < h.length)
    (hes : slotB (bodyOf h e) = false) (hf : Free h e) {h1 : OHeap} {x : Nat} (hw : wrap h c e = (h1, x)) {ys : List Nat}
    (hn : x ∉ refs (bodyOf h c) → ys.Nodup) (hy : ∀ y ∈ ys, y = x ∨ y ∈ refs (bodyOf h c)) :
    Inv (setEntries h1 c ys) ∧ Step h (setEntries h1 c ys) [c] [e] := by
  obtain ⟨hi1, hst, hx, hxn, hxe, hxl, _⟩ := wrap_ok hi hs hel hes hf hw
  have hcl := seq_lt hs
  have hb : bodyOf h1 c = bodyOf h c := hst.body c hcl (by simp)
  have hs1 : isSeqBody (bodyOf h1 c) = true := by rw [hb]; exact hs
  obtain ⟨h2, h3⟩ := setEntries_ok hi1 hs1 (hn hxn) (fun y hy' => by
    rcases hy y hy' with rfl | h'
    · exact hx
    · exact entryOK_of_inv hi1 (seq_not_slot hs1) (by rw [hb]; exact h')) [x] (fun y hy' => by
    rcases hy y hy' with rfl | h'
    · simp
    · left; rw [hb]; exact h')
  refine ⟨h2, hst.trans h3 (by simp) (by simp) (by simp) ?_⟩
  intro z hz; simp only [List.mem_singleton] at hz ⊢; subst hz; exact hxe

theorem hAppend_ok {h : OHeap} (hi : Inv h) {c e : Nat} (hs : isSeqBody (bodyOf h c) = true) (hel : e < h.length)
    (hes : slotB (bodyOf h e) = false) (hf : Free h e) : Inv (hAppend h c e) ∧ Step h (hAppend h c e) [c] [e] := by
  unfold hAppend
  cases hw : wrap h c e with
  | mk h1 x =>
    simp only
    obtain ⟨hi1, hst, hx, hxn, hxe, hxl, _⟩ := wrap_ok hi hs hel hes hf hw
    have hb : bodyOf h1 c = bodyOf h c := hst.body c (seq_lt hs) (by simp)
    rw [hb, entries_refs hs]
    refine wrap_set_ok hi hs hel hes hf hw (fun hn => ?_) (fun y hy => by simpa [or_comm] using hy)
    rw [List.nodup_append]
    refine ⟨hi.nodup c, by simp, fun a ha b hb' => ?_⟩
    simp only [List.mem_singleton] at hb'
    subst hb'; intro h'; subst h'; exact hn ha

theorem hExtend_ok : ∀ (rs : List Nat) {h : OHeap} (_ : Inv h) {c : Nat} (_ : isSeqBody (bodyOf h c) = true) (_ : rs.Nodup)
    (_ : ∀ r ∈ rs, r < h.length ∧ slotB (bodyOf h r) = false ∧ Free h r), Inv (hExtend h c rs) ∧ Step h (hExtend h c rs) [c] rs
  | [], h, hi, c, _, _, _ => ⟨hi, (Step.refl h hi).trans (Step.refl h hi) (by simp) (by simp) (by simp) (by simp)⟩
  | e :: es, h, hi, c, hs, hn, hr => by
    simp only [List.nodup_cons] at hn
    obtain ⟨h1, h2⟩ := hAppend_ok hi hs (hr e (by simp)).1 (hr e (by simp)).2.1 (hr e (by simp)).2.2
    have hs1 : isSeqBody (bodyOf (hAppend h c e) c) = true := by rw [(kind_eq (h2.kind c (seq_lt hs))).2.1]; exact hs
    obtain ⟨h3, h4⟩ := hExtend_ok es h1 (c := c) hs1 hn.2 (fun r hr' => by
      obtain ⟨a1, a2, a3⟩ := hr r (by simp [hr'])
      have hlen := h2.len
      refine ⟨by omega, by rw [(kind_eq (h2.kind r a1)).2.2.2]; exact a2, h2.free ?_ a1 ?_ a3⟩
      · intro x hx _; simp only [List.mem_singleton] at hx; subst hx; exact (hr x (by simp)).2.1
      · simp only [List.mem_singleton]; intro h'; subst h'; exact hn.1 hr')
    exact ⟨h3, h2.trans h4 (by simp) (by simp) (by simp) (fun z hz => .inl (by simp [hz]))⟩

theorem mem_dictPut {kvs : List (PStr × Nat)} {k : PStr} {r m : Nat} (h : m ∈ (dictPut kvs k r).map Prod.snd) : m = r ∨ m ∈ kvs.map Prod.snd := by
  induction kvs with
  | nil => simp [dictPut] at h; exact .inl h
  | cons p rest ih =>
    obtain ⟨k', e'⟩ := p
    unfold dictPut at h
    split at h
    · simp only [List.map_cons, List.mem_cons] at h ⊢
      rcases h with h | h
      · exact .inl h
      · exact .inr (.inr h)
    · simp only [List.map_cons, List.mem_cons] at h ⊢
      rcases h with h | h
      · exact .inr (.inl h)
      · rcases ih h with h | h
        · exact .inl h
        · exact .inr (.inr h)

theorem nodup_dictPut {kvs : List (PStr × Nat)} {k : PStr} {r : Nat} (hn : (kvs.map Prod.snd).Nodup) (hr : r ∉ kvs.map Prod.snd) :
    ((dictPut kvs k r).map Prod.snd).Nodup := by
  induction kvs with
  | nil => simp [dictPut]
  | cons p rest ih =>
    obtain ⟨k', e'⟩ := p
    simp only [List.map_cons, List.nodup_cons, List.mem_cons, not_or] at hn hr
    unfold dictPut
    split
    · simp only [List.map_cons, List.nodup_cons]; exact ⟨hr.2, hn.2⟩
    · simp only [List.map_cons, List.nodup_cons]
      refine ⟨fun h => ?_, ih hn.2 hr.2⟩
      rcases mem_dictPut h with h | h
      · exact hr.1 h.symm
      · exact hn.1 h

theorem mem_dictDel {kvs : List (PStr × Nat)} {k : PStr} {m : Nat} (h : m ∈ (dictDel kvs k).map Prod.snd) : m ∈ kvs.map Prod.snd := by
  induction kvs with
  | nil => simp [dictDel] at h
  | cons p rest ih =>
    obtain ⟨k', e'⟩ := p
    unfold dictDel at h
    split at h
    · simp only [List.map_cons, List.mem_cons]; exact .inr h
    · simp only [List.map_cons, List.mem_cons] at h ⊢
      rcases h with h | h
      · exact .inl h
      · exact .inr (ih h)

theorem nodup_dictDel {kvs : List (PStr × Nat)} {k : PStr} (hn : (kvs.map Prod.snd).Nodup) : ((dictDel kvs k).map Prod.snd).Nodup := by
  induction kvs with
  | nil => simp [dictDel]
  | cons p rest ih =>
    obtain ⟨k', e'⟩ := p
    simp only [List.map_cons, List.nodup_cons] at hn
    unfold dictDel
    split
    · exact hn.2
    · simp only [List.map_cons, List.nodup_cons]
      exact ⟨fun h => hn.1 (mem_dictDel h), ih hn.2⟩

theorem itemsOf_refs {b : Body} (h : isMapBody b = true) : (itemsOf b).map Prod.snd = refs b := by cases b <;> simp_all [isMapBody, itemsOf, refs]
theorem kind_map {b : Body} (h : isMapBody b = true) (kvs : List (PStr × Nat)) : kindOf (.mapping kvs) = kindOf b := by
  cases b <;> simp_all [isMapBody, kindOf]

/-- new items for a Mapping -/
theorem setItems_ok {h : OHeap} (hi : Inv h) {c : Nat} (hs : isMapBody (bodyOf h c) = true) {kvs : List (PStr × Nat)}
    (hn : (kvs.map Prod.snd).Nodup) (he : ∀ x ∈ kvs.map Prod.snd, parentOf h x = some c ∧ slotB (bodyOf h x) = false) (es : List Nat)
    (hes : ∀ x ∈ kvs.map Prod.snd, x ∈ refs (bodyOf h c) ∨ x ∈ es) :
    Inv (setBody h c (.mapping kvs)) ∧ Step h (setBody h c (.mapping kvs)) [c] es := by
  have hk := kind_map hs kvs
  refine ⟨inv_setBody hi (map_lt hs) (kind_eq hk).1 rfl (map_not_slot hs) hn (fun x hx => ⟨(he x hx).1, fun h' => ?_, fun _ => (he x hx).2⟩),
    step_setBody (map_lt hs) hk es hes⟩
  rw [map_not_list hs] at h'; cases h'

theorem put_ok {h : OHeap} (hi : Inv h) {c r : Nat} (hs : isMapBody (bodyOf h c) = true) (key : PStr) (hp : parentOf h r = some c)
    (hr : slotB (bodyOf h r) = false) (hf : Free h r) :
    Inv (setBody h c (.mapping (dictPut (itemsOf (bodyOf h c)) key r))) ∧
    Step h (setBody h c (.mapping (dictPut (itemsOf (bodyOf h c)) key r))) [c] [r] := by
  have hsl := map_not_slot hs
  have hmem : ∀ x ∈ (dictPut (itemsOf (bodyOf h c)) key r).map Prod.snd, x = r ∨ x ∈ refs (bodyOf h c) := by
    intro x hx
    rcases mem_dictPut hx with h' | h'
    · exact .inl h'
    · rw [itemsOf_refs hs] at h'; exact .inr h'
  refine setItems_ok hi hs (nodup_dictPut (by rw [itemsOf_refs hs]; exact hi.nodup c) (by rw [itemsOf_refs hs]; exact hf c (live_of_not_slot hsl)))
    (fun x hx => ?_) [r] (fun x hx => by rcases hmem x hx with h' | h' <;> simp [h'])
  rcases hmem x hx with rfl | h'
  · exact ⟨hp, hr⟩
  · exact ⟨hi.link c (live_of_not_slot hsl) x h', hi.elems c (map_not_list hs) x h'⟩

/-- a new Sequence filled with new members -/
theorem newSeq_ok {h : OHeap} (hi : Inv h) {p : Option Nat} {b : Body} (hb : isSeqBody b = true) (hr : refs b = []) {q : OHeap × List Nat}
    (hq : Inv (h ++ [(⟨p, b⟩ : Obj)]) → Inv q.1 ∧ Step (h ++ [(⟨p, b⟩ : Obj)]) q.1 [] [] ∧ q.2.Nodup ∧
      ∀ r ∈ q.2, (h ++ [(⟨p, b⟩ : Obj)]).length ≤ r ∧ r < q.1.length ∧ slotB (bodyOf q.1 r) = false ∧ Free q.1 r) :
    h.length = h.length ∧ Inv (hExtend q.1 h.length q.2) ∧ Step h (hExtend q.1 h.length q.2) [] [] ∧
      parentOf (hExtend q.1 h.length q.2) h.length = p ∧ slotB (bodyOf (hExtend q.1 h.length q.2) h.length) = false ∧
      Free (hExtend q.1 h.length q.2) h.length ∧ h.length < (hExtend q.1 h.length q.2).length := by
  have ho : FreshBody h (⟨p, b⟩ : Obj).body := .inl hr
  have hi1 := inv_alloc hi ho
  have hst := step_alloc ho [] (by simp [hr])
  obtain ⟨i2, s2, n2, r2⟩ := hq hi1
  have hb1 : bodyOf (h ++ [(⟨p, b⟩ : Obj)]) h.length = b := by rw [bodyOf_alloc]; simp
  have hb2 : bodyOf q.1 h.length = b := by rw [s2.body _ (by simp) (by simp), hb1]
  obtain ⟨i3, s3⟩ := hExtend_ok q.2 i2 (c := h.length) (by rw [hb2]; exact hb) n2 (fun r hr' => (r2 r hr').2)
  have hl1 : (h ++ [(⟨p, b⟩ : Obj)]).length = h.length + 1 := by simp
  have hl2 := s2.len
  have hl3 := s3.len
  have hn : h.length ∉ q.2 := fun hm => by have := (r2 _ hm).1; omega
  have hf2 : Free q.1 h.length := s2.free (by simp) (by omega) (by simp) (free_alloc hi ho (free_length hi))
  refine ⟨rfl, i3, ?_, ?_, ?_, s3.free (fun e he _ => (r2 e he).2.2.1) (by omega) hn hf2, by omega⟩
  · refine (hst.trans s2 (cs'' := []) (es'' := []) (by simp) (by simp) (by simp) (by simp)).trans s3 (by simp) (by simp) (by simp) ?_
    intro e he; right; have := (r2 e he).1; omega
  · rw [s3.par _ (by omega) hn, s2.par _ (by omega) (by simp), parentOf_alloc]; simp
  · rw [(kind_eq (s3.kind h.length (by omega))).2.2.2, hb2]; exact seq_not_slot hb

mutual
theorem newElem_ok : ∀ (s : HShape) {h : OHeap} (_ : Inv h) {p : Option Nat} {h' : OHeap} {r : Nat} (_ : newElem h p s = (h', r)),
    r = h.length ∧ Inv h' ∧ Step h h' [] [] ∧ parentOf h' r = p ∧ slotB (bodyOf h' r) = false ∧ Free h' r ∧ r < h'.length
  | .scalar, h, hi, p, h', r, he => by
    simp only [newElem, allocObj, Prod.mk.injEq] at he
    obtain ⟨rfl, rfl⟩ := he
    have ho : FreshBody h (⟨p, .scalar⟩ : Obj).body := .inl rfl
    refine ⟨rfl, inv_alloc hi ho, step_alloc ho [] (by simp [refs]), by rw [parentOf_alloc]; simp, by rw [bodyOf_alloc]; simp [slotB],
      free_alloc hi ho (free_length hi), by simp⟩
  | .seq ms, h, hi, p, h', r, he => by
    simp only [newElem, allocObj, Prod.mk.injEq] at he
    obtain ⟨rfl, rfl⟩ := he
    exact newSeq_ok hi (b := .seq []) rfl rfl (fun hi1 => newElems_ok ms hi1 (Prod.eta _).symm)
  | .list ms, h, hi, p, h', r, he => by
    simp only [newElem, allocObj, Prod.mk.injEq] at he
    obtain ⟨rfl, rfl⟩ := he
    exact newSeq_ok hi (b := .list []) rfl rfl (fun hi1 => newElems_ok ms hi1 (Prod.eta _).symm)
  | .mapping fs, h, hi, p, h', r, he => by
    simp only [newElem, allocObj, Prod.mk.injEq] at he
    obtain ⟨rfl, rfl⟩ := he
    have ho : FreshBody h (⟨p, .mapping []⟩ : Obj).body := .inl rfl
    have hi1 := inv_alloc hi ho
    have hst := step_alloc ho [] (by simp [refs])
    have hb : bodyOf (h ++ [(⟨p, .mapping []⟩ : Obj)]) h.length = .mapping [] := by rw [bodyOf_alloc]; simp
    obtain ⟨h2, h3⟩ := newFields_ok fs hi1 (c := h.length) (by rw [hb]; rfl)
    have hl := h3.len
    simp only [List.length_append, List.length_cons, List.length_nil] at hl
    refine ⟨rfl, h2, hst.trans h3 (by simp) (by simp) (by simp) (by simp), ?_, ?_, h3.free (by simp) (by simp) (by simp) (free_alloc hi ho (free_length hi)), by omega⟩
    · rw [h3.par _ (by simp) (by simp), parentOf_alloc]; simp
    · rw [(kind_eq (h3.kind h.length (by simp))).2.2.2, hb]; rfl
theorem newElems_ok : ∀ (ss : List HShape) {h : OHeap} (_ : Inv h) {h' : OHeap} {rs : List Nat} (_ : newElems h ss = (h', rs)),
    Inv h' ∧ Step h h' [] [] ∧ rs.Nodup ∧ ∀ r ∈ rs, h.length ≤ r ∧ r < h'.length ∧ slotB (bodyOf h' r) = false ∧ Free h' r
  | [], h, hi, h', rs, he => by
    simp only [newElems, Prod.mk.injEq] at he
    obtain ⟨rfl, rfl⟩ := he
    exact ⟨hi, Step.refl h hi, by simp, by simp⟩
  | s :: ss, h, hi, h', rs, he => by
    simp only [newElems, Prod.mk.injEq] at he
    obtain ⟨rfl, rfl⟩ := he
    obtain ⟨e1, h1, s1, _, e2, e3, e4⟩ := newElem_ok s hi (p := none) (Prod.eta _).symm
    obtain ⟨h2, s2, n2, r2⟩ := newElems_ok ss h1 (Prod.eta _).symm
    have hl1 := s1.len
    have hl2 := s2.len
    refine ⟨h2, s1.trans s2 (by simp) (by simp) (by simp) (by simp), ?_, ?_⟩
    · simp only [List.nodup_cons]
      exact ⟨fun hm => by have := (r2 _ hm).1; omega, n2⟩
    · intro r hr
      simp only [List.mem_cons] at hr
      rcases hr with rfl | hr
      · exact ⟨by omega, by omega, by rw [(kind_eq (s2.kind _ e4)).2.2.2]; exact e2, s2.free (by simp) e4 (by simp) e3⟩
      · obtain ⟨a, b⟩ := r2 r hr
        exact ⟨by omega, b⟩
theorem newFields_ok : ∀ (fs : List (PStr × HShape)) {h : OHeap} (_ : Inv h) {c : Nat} (_ : isMapBody (bodyOf h c) = true),
    Inv (newFields h c fs) ∧ Step h (newFields h c fs) [c] []
  | [], h, hi, c, _ => by
    simp only [newFields]
    exact ⟨hi, (Step.refl h hi).trans (Step.refl h hi) (by simp) (by simp) (by simp) (by simp)⟩
  | (k, s) :: fs, h, hi, c, hm => by
    simp only [newFields]
    obtain ⟨e1, h1, s1, e2, e3, e4, e5⟩ := newElem_ok s hi (p := some c) (Prod.eta _).symm
    have hm1 : isMapBody (bodyOf (newElem h (some c) s).1 c) = true := by rw [s1.body c (map_lt hm) (by simp)]; exact hm
    obtain ⟨h2, s2⟩ := put_ok h1 hm1 k e2 e3 e4
    have hm2 := (kind_eq (s2.kind c (map_lt hm1))).2.2.1.trans hm1
    obtain ⟨h3, s3⟩ := newFields_ok fs h2 hm2
    refine ⟨h3, ?_⟩
    refine s1.trans (s2.trans (cs'' := [c]) (es'' := [(newElem h (some c) s).2]) s3 (by simp) (by simp) (by simp) (by simp)) (by simp) (by simp) (by simp) ?_
    intro x hx; simp only [List.mem_singleton] at hx; right; omega
end

/-! ### list operations and what may stand in a list -/

theorem nodup_set {xs : List Nat} {i y : Nat} (hn : xs.Nodup) (hy : y ∉ xs) : (xs.set i y).Nodup := by
  induction xs generalizing i with
  | nil => simp
  | cons x xs ih =>
    simp only [List.nodup_cons, List.mem_cons, not_or] at hn hy
    cases i with
    | zero => simp only [List.set_cons_zero, List.nodup_cons]; exact ⟨hy.2, hn.2⟩
    | succ i =>
      simp only [List.set_cons_succ, List.nodup_cons]
      refine ⟨fun hm => ?_, ih hn.2 hy.2⟩
      rcases List.mem_or_eq_of_mem_set hm with h' | h'
      · exact hn.1 h'
      · exact hy.1 h'.symm

theorem writeIndexes_ok : ∀ (is : List Nat) (xs ys : List Nat), xs.Nodup → ys.Nodup → (∀ y ∈ ys, y ∉ xs) →
    (writeIndexes xs is ys).Nodup ∧ ∀ z ∈ writeIndexes xs is ys, z ∈ xs ∨ z ∈ ys
  | [], xs, ys, hn, _, _ => by cases ys <;> (simp only [writeIndexes]; exact ⟨hn, fun z hz => .inl hz⟩)
  | _ :: _, xs, [], hn, _, _ => by simp only [writeIndexes]; exact ⟨hn, fun z hz => .inl hz⟩
  | i :: is, xs, y :: ys, hn, hm, hd => by
    simp only [List.nodup_cons] at hm
    simp only [writeIndexes]
    obtain ⟨h1, h2⟩ := writeIndexes_ok is (xs.set i y) ys (nodup_set hn (hd y (by simp))) hm.2 (fun z hz hz' => by
      rcases List.mem_or_eq_of_mem_set hz' with h' | h'
      · exact hd z (by simp [hz]) h'
      · subst h'; exact hm.1 hz)
    refine ⟨h1, fun z hz => ?_⟩
    rcases h2 z hz with h' | h'
    · rcases List.mem_or_eq_of_mem_set h' with h' | h'
      · exact .inl h'
      · exact .inr (by simp [h'])
    · exact .inr (by simp [h'])

theorem drop_take_disjoint {xs : List Nat} (hn : xs.Nodup) {i j : Nat} (hij : i ≤ j) {z : Nat} (h1 : z ∈ xs.take i) (h2 : z ∈ xs.drop j) : False := by
  obtain ⟨a, ha, rfl⟩ := List.mem_iff_getElem.1 h1
  obtain ⟨b, hb, hbe⟩ := List.mem_iff_getElem.1 h2
  simp only [List.getElem_drop, List.getElem_take, List.length_take, List.length_drop] at ha hb hbe
  have := (List.getElem_inj hn).1 hbe
  omega

theorem setSlice_ok {xs ys zs : List Nat} {a b s : Option Int} (h : pySetSlice xs a b s ys = .ok zs) (hn : xs.Nodup) (hm : ys.Nodup)
    (hd : ∀ y ∈ ys, y ∉ xs) : zs.Nodup ∧ ∀ z ∈ zs, z ∈ xs ∨ z ∈ ys := by
  unfold pySetSlice at h
  split at h
  · cases h
  · split at h
    · simp only [Except.ok.injEq] at h
      subst h
      refine ⟨?_, fun z hz => ?_⟩
      · rw [List.nodup_append, List.nodup_append]
        refine ⟨⟨hn.sublist (List.take_sublist _ _), hm, fun p hp q hq e => hd q hq (e ▸ List.mem_of_mem_take hp)⟩,
          hn.sublist (List.drop_sublist _ _), fun p hp q hq e => ?_⟩
        subst e
        simp only [List.mem_append] at hp
        rcases hp with hp | hp
        · exact drop_take_disjoint hn (Nat.le_max_left _ _) hp hq
        · exact hd _ hp (List.mem_of_mem_drop hq)
      · simp only [List.mem_append] at hz
        rcases hz with (hz | hz) | hz
        · exact .inl (List.mem_of_mem_take hz)
        · exact .inr hz
        · exact .inl (List.mem_of_mem_drop hz)
    · split at h
      · simp only [Except.ok.injEq] at h
        subst h
        exact writeIndexes_ok _ _ _ hn hm hd
      · cases h

theorem eraseIndexes_ok {xs : List Nat} (is : List Nat) (hn : xs.Nodup) : (eraseIndexes xs is).Nodup ∧ ∀ z ∈ eraseIndexes xs is, z ∈ xs := by
  unfold eraseIndexes
  refine ⟨?_, fun z hz => ?_⟩
  · refine List.Pairwise.filterMap (R := fun a b => a ≠ b) _ ?_ List.nodup_range
    intro a a' haa b hb b' hb' e
    subst e
    split at hb
    · cases hb
    · split at hb'
      · cases hb'
      · rw [List.getElem?_eq_some_iff] at hb hb'
        obtain ⟨l1, e1⟩ := hb
        obtain ⟨l2, e2⟩ := hb'
        exact haa ((List.getElem_inj hn).1 (e1.trans e2.symm))
  · rw [List.mem_filterMap] at hz
    obtain ⟨i, _, hi⟩ := hz
    split at hi
    · cases hi
    · exact List.mem_of_getElem? hi

theorem insert_ok {xs : List Nat} {i : Int} {x : Nat} (hn : xs.Nodup) (hx : x ∉ xs) :
    (pyInsert xs i x).Nodup ∧ ∀ z ∈ pyInsert xs i x, z = x ∨ z ∈ xs := by
  unfold pyInsert
  refine ⟨?_, fun z hz => ?_⟩
  · rw [List.nodup_append, List.nodup_cons]
    refine ⟨hn.sublist (List.take_sublist _ _), ⟨fun h' => hx (List.mem_of_mem_drop h'), hn.sublist (List.drop_sublist _ _)⟩, fun p hp q hq e => ?_⟩
    subst e
    simp only [List.mem_cons] at hq
    rcases hq with hq | hq
    · exact hx (hq ▸ List.mem_of_mem_take hp)
    · exact drop_take_disjoint hn (Nat.le_refl _) hp hq
  · simp only [List.mem_append, List.mem_cons] at hz
    rcases hz with hz | hz | hz
    · exact .inr (List.mem_of_mem_take hz)
    · exact .inl hz
    · exact .inr (List.mem_of_mem_drop hz)

theorem remove_sublist {eq : Nat → Bool} : ∀ {xs ys : List Nat}, pyRemove eq xs = some ys → ys.Sublist xs
  | [], _, h => by simp [pyRemove] at h
  | x :: xs, ys, h => by
    unfold pyRemove at h
    split at h
    · simp only [Option.some.injEq] at h; subst h; exact List.sublist_cons_self _ _
    · rw [Option.map_eq_some_iff] at h
      obtain ⟨zs, hz, rfl⟩ := h
      exact (remove_sublist hz).cons_cons _

theorem pySort_perm (lt : Nat → Nat → Bool) (rev : Bool) (xs : List Nat) : (pySort lt id rev xs).Perm xs := by
  unfold pySort
  split
  · exact (List.reverse_perm _).trans ((stableSort_perm _ _).trans (List.reverse_perm _))
  · exact stableSort_perm _ _

/-! ### arguments -/

/-- an element that may be given as a new member -/
def Good (h : OHeap) (r : Nat) : Prop := r < h.length ∧ slotB (bodyOf h r) = false ∧ Free h r

theorem slotB_iff {h : OHeap} {r : Nat} : slotB (bodyOf h r) = true ↔ IsSlot h r := by
  unfold IsSlot; cases bodyOf h r <;> simp [slotB]

theorem good_of_loose {h : OHeap} (hi : Inv h) {r : Nat} (hl : Loose h r) : Good h r := by
  obtain ⟨h1, h2, h3⟩ := hl
  have hs : slotB (bodyOf h r) = false := by
    cases hb : slotB (bodyOf h r) with
    | true => exact absurd (slotB_iff.1 hb) h2
    | false => rfl
  refine ⟨h1, hs, fun c hc hm => ?_⟩
  have hc3 := h3 c
  cases hb : bodyOf h c with
  | scalar => rw [hb] at hm; cases hm
  | seq ms => rw [hb] at hm; simp only [membersOf, hb] at hc3; exact hc3 hm
  | mapping kvs => rw [hb] at hm; simp only [membersOf, hb] at hc3; exact hc3 hm
  | list ss => rw [hi.slots c (by rw [hb]; rfl) r hm] at hs; cases hs
  | slot e =>
    rw [hb] at hm
    simp only [refs, List.mem_singleton] at hm
    subst hm
    obtain ⟨l, hl, hcl⟩ := hc (by rw [hb]; rfl)
    have hl3 := h3 l
    cases hbl : bodyOf h l with
    | list ss =>
      simp only [membersOf, hbl] at hl3
      rw [hbl] at hcl
      exact hl3 (List.mem_map.2 ⟨c, hcl, by simp [entryElem, hb]⟩)
    | _ => rw [hbl] at hl; cases hl

theorem good_step {h h' : OHeap} {cs es : List Nat} (s : Step h h' cs es) (hes : ∀ e ∈ es, e < h.length → slotB (bodyOf h e) = false)
    {r : Nat} (hn : r ∉ es) (hg : Good h r) : Good h' r :=
  ⟨Nat.lt_of_lt_of_le hg.1 s.len, by rw [(kind_eq (s.kind r hg.1)).2.2.2]; exact hg.2.1, s.free hes hg.1 hn hg.2.2⟩

theorem asElement_ok {h : OHeap} (hi : Inv h) {a : HArg} (ha : ∀ r, a = .elem r → Good h r) {h1 : OHeap} {e : Nat}
    (he : hAsElement h a = (h1, .ok e)) :
    Inv h1 ∧ Step h h1 [] [] ∧ Good h1 e ∧ ((a = .elem e ∧ h1 = h) ∨ (h.length ≤ e ∧ ∃ s, a = .value s)) := by
  cases a with
  | elem r =>
    simp only [hAsElement, Prod.mk.injEq, Except.ok.injEq] at he
    obtain ⟨rfl, rfl⟩ := he
    exact ⟨hi, Step.refl h hi, ha r rfl, .inl ⟨rfl, rfl⟩⟩
  | value s =>
    simp only [hAsElement, Prod.mk.injEq, Except.ok.injEq] at he
    obtain ⟨rfl, rfl⟩ := he
    obtain ⟨e1, h1, s1, _, e3, e4, e5⟩ := newElem_ok s hi (p := none) (Prod.eta _).symm
    exact ⟨h1, s1, ⟨e5, e3, e4⟩, .inr ⟨by omega, s, rfl⟩⟩
  | raises er => simp [hAsElement] at he

theorem asElement_error {h : OHeap} {a : HArg} {h1 : OHeap} {er : PyErr} (he : hAsElement h a = (h1, .error er)) : h1 = h := by
  cases a <;> simp_all [hAsElement]

theorem entryOK_step {h h' : OHeap} {es : List Nat} (s : Step h h' [] es) {c x : Nat} (hk : EntryOK h c x) (hc : c < h.length)
    (hx : x < h.length) (hn : x ∉ es) (hr : slotB (bodyOf h x) = true → ∀ e ∈ refs (bodyOf h x), e < h.length ∧ e ∉ es) : EntryOK h' c x := by
  obtain ⟨h1, h2, h3⟩ := hk
  unfold EntryOK
  rw [s.par x hx hn, s.body c hc (by simp), s.body x hx (by simp)]
  refine ⟨h1, fun hl => ⟨(h2 hl).1, fun e he => ?_⟩, h3⟩
  obtain ⟨a, b⟩ := hr (h2 hl).1 e he
  rw [s.par e a b]
  exact (h2 hl).2 e he

theorem wrapAll_ok : ∀ (as : List HArg) {h : OHeap} (_ : Inv h) {c : Nat} (_ : isSeqBody (bodyOf h c) = true) (_ : (suppliedRefs as).Nodup)
    (_ : ∀ r ∈ suppliedRefs as, Good h r) {h1 : OHeap} {res : Except PyErr (List Nat)} (_ : hWrapAll h c as = (h1, res)),
    Inv h1 ∧ Step h h1 [] (suppliedRefs as) ∧ ∀ xs, res = .ok xs →
      xs.Nodup ∧ ∀ x ∈ xs, EntryOK h1 c x ∧ x ∉ refs (bodyOf h c) ∧ (x ∈ suppliedRefs as ∨ h.length ≤ x)
  | [], h, hi, c, _, _, _, h1, res, he => by
    simp only [hWrapAll, Prod.mk.injEq] at he
    obtain ⟨rfl, rfl⟩ := he
    refine ⟨hi, Step.refl h hi, fun xs hx => ?_⟩
    simp only [Except.ok.injEq] at hx; subst hx; simp
  | a :: as, h, hi, c, hs, hn, hg, h1, res, he => by
    have ha : ∀ r, a = .elem r → Good h r := fun r hr => hg r (by subst hr; simp [suppliedRefs])
    have hsub : ∀ r ∈ suppliedRefs as, r ∈ suppliedRefs (a :: as) := by
      intro r hr; cases a <;> simp [suppliedRefs, hr]
    have hn' : (suppliedRefs as).Nodup := by
      cases a with
      | elem r => simp only [suppliedRefs, List.nodup_cons] at hn; exact hn.2
      | value s => exact hn
      | raises er => exact hn
    unfold hWrapAll at he
    cases hae : hAsElement h a with
    | mk ha1 er =>
      rw [hae] at he
      cases er with
      | error er =>
        simp only [Prod.mk.injEq] at he
        obtain ⟨rfl, rfl⟩ := he
        rw [asElement_error hae]
        refine ⟨hi, (Step.refl h hi).trans (Step.refl h hi) (by simp) (by simp) (by simp) (by simp), fun xs hx => by cases hx⟩
      | ok e =>
        simp only at he
        obtain ⟨i1, s1, g1, o1⟩ := asElement_ok hi ha hae
        have hs1 : isSeqBody (bodyOf ha1 c) = true := by rw [s1.body c (seq_lt hs) (by simp)]; exact hs
        cases hw : wrap ha1 c e with
        | mk h2 x =>
          rw [hw] at he
          simp only at he
          obtain ⟨i2, s2, k2, n2, o2, l2, f2⟩ := wrap_ok i1 hs1 g1.1 g1.2.1 g1.2.2 hw
          have hs2 : isSeqBody (bodyOf h2 c) = true := by rw [s2.body c (seq_lt hs1) (by simp)]; exact hs1
          have hen : e ∉ suppliedRefs as := by
            intro hm
            rcases o1 with ⟨o1, _⟩ | ⟨o1, _⟩
            · subst o1; simp only [suppliedRefs, List.nodup_cons] at hn; exact hn.1 hm
            · have := (hg e (hsub e hm)).1; omega
          have hel1 : e < ha1.length := g1.1
          have hl12 := s2.len
          have hl01 := s1.len
          have hg2 : ∀ r ∈ suppliedRefs as, Good h2 r := by
            intro r hr
            refine good_step s2 (by simp only [List.mem_singleton]; intro y hy _; subst hy; exact g1.2.1) ?_ (good_step s1 (by simp) (by simp) (hg r (hsub r hr)))
            simp only [List.mem_singleton]; intro h'; subst h'; exact hen hr
          have hxn : x ∉ suppliedRefs as := by
            intro hm
            rcases o2 with rfl | o2
            · exact hen hm
            · have := (hg x (hsub x hm)).1; omega
          have hes : e ∈ suppliedRefs (a :: as) ∨ h.length ≤ e := by
            rcases o1 with ⟨o1, _⟩ | ⟨o1, _⟩
            · subst o1; simp [suppliedRefs]
            · exact .inr o1
          cases hwa : hWrapAll h2 c as with
          | mk h3 res3 =>
            obtain ⟨i3, s3, r3⟩ := wrapAll_ok as i2 hs2 hn' hg2 hwa
            have hl23 := s3.len
            have hst : Step h h3 [] (suppliedRefs (a :: as)) := by
              refine s1.trans (s2.trans (cs'' := []) (es'' := e :: suppliedRefs as) s3 (by simp) (by simp) (by simp) (fun z hz => .inl (by simp [hz])))
                (by simp) (by simp) (by simp) (fun z hz => ?_)
              simp only [List.mem_cons] at hz
              rcases hz with rfl | hz
              · exact hes
              · exact .inl (hsub z hz)
            rw [hwa] at he
            cases res3 with
            | error er =>
              simp only [Prod.mk.injEq] at he
              obtain ⟨rfl, rfl⟩ := he
              exact ⟨i3, hst, fun xs hx => by cases hx⟩
            | ok xs =>
              simp only [Prod.mk.injEq] at he
              obtain ⟨rfl, rfl⟩ := he
              refine ⟨i3, hst, fun ys hy => ?_⟩
              simp only [Except.ok.injEq] at hy
              subst hy
              obtain ⟨m1, m2⟩ := r3 xs rfl
              have hb02 : bodyOf h2 c = bodyOf h c := by rw [s2.body c (seq_lt hs1) (by simp), s1.body c (seq_lt hs) (by simp)]
              refine ⟨?_, fun y hy => ?_⟩
              · simp only [List.nodup_cons]
                refine ⟨fun hm => ?_, m1⟩
                rcases (m2 x hm).2.2 with h' | h'
                · exact hxn h'
                · omega
              · simp only [List.mem_cons] at hy
                rcases hy with rfl | hy
                · refine ⟨entryOK_step s3 k2 (seq_lt hs2) l2 hxn (fun hsl z hz => ?_), ?_, ?_⟩
                  · rw [f2 hsl] at hz
                    simp only [List.mem_singleton] at hz
                    subst hz; exact ⟨by omega, hen⟩
                  · rw [s1.body c (seq_lt hs) (by simp)] at n2; exact n2
                  · rcases o2 with rfl | o2
                    · exact hes
                    · right; omega
                · obtain ⟨p1, p2, p3⟩ := m2 y hy
                  refine ⟨p1, by rw [← hb02]; exact p2, ?_⟩
                  rcases p3 with p3 | p3
                  · exact .inl (hsub y p3)
                  · right; omega

theorem Step.mono {h h' : OHeap} {cs es cs' es' : List Nat} (s : Step h h' cs es) (hc : ∀ c ∈ cs, c ∈ cs') (he : ∀ e ∈ es, e ∈ es' ∨ h.length ≤ e) :
    Step h h' cs' es' := by
  refine ⟨s.len, fun r hr hn => s.body r hr fun h' => hn (hc r h'), s.kind, fun r hr hn => s.par r hr fun h' => ?_, fun y m hm => ?_⟩
  · rcases he r h' with h' | h'
    · exact hn h'
    · omega
  · rcases s.fresh y m hm with h' | h' | h'
    · exact .inl h'
    · rcases he m h' with h' | h'
      · exact .inr (.inl h')
      · exact .inr (.inr h')
    · exact .inr (.inr h')

theorem extendArgs_ok : ∀ (as : List HArg) {h : OHeap} (_ : Inv h) {c : Nat} (_ : isSeqBody (bodyOf h c) = true) (_ : (suppliedRefs as).Nodup)
    (_ : ∀ r ∈ suppliedRefs as, Good h r), Inv (hExtendArgs h c as).1 ∧ Step h (hExtendArgs h c as).1 [c] (suppliedRefs as)
  | [], h, hi, c, _, _, _ => ⟨hi, (Step.refl h hi).mono (by simp) (by simp)⟩
  | a :: as, h, hi, c, hs, hn, hg => by
    have ha : ∀ r, a = .elem r → Good h r := fun r hr => hg r (by subst hr; simp [suppliedRefs])
    have hsub : ∀ r ∈ suppliedRefs as, r ∈ suppliedRefs (a :: as) := by
      intro r hr; cases a <;> simp [suppliedRefs, hr]
    have hn' : (suppliedRefs as).Nodup := by
      cases a with
      | elem r => simp only [suppliedRefs, List.nodup_cons] at hn; exact hn.2
      | value s => exact hn
      | raises er => exact hn
    unfold hExtendArgs
    cases hae : hAsElement h a with
    | mk ha1 er =>
      cases er with
      | error er => simp only; rw [asElement_error hae]; exact ⟨hi, (Step.refl h hi).mono (by simp) (by simp)⟩
      | ok e =>
        simp only
        obtain ⟨i1, s1, g1, o1⟩ := asElement_ok hi ha hae
        have hs1 : isSeqBody (bodyOf ha1 c) = true := by rw [s1.body c (seq_lt hs) (by simp)]; exact hs
        obtain ⟨i2, s2⟩ := hAppend_ok i1 hs1 g1.1 g1.2.1 g1.2.2
        have hen : e ∉ suppliedRefs as := by
          intro hm
          rcases o1 with ⟨o1, _⟩ | ⟨o1, _⟩
          · subst o1; simp only [suppliedRefs, List.nodup_cons] at hn; exact hn.1 hm
          · have := (hg e (hsub e hm)).1; omega
        have hes : e ∈ suppliedRefs (a :: as) ∨ h.length ≤ e := by
          rcases o1 with ⟨o1, _⟩ | ⟨o1, _⟩
          · subst o1; simp [suppliedRefs]
          · exact .inr o1
        obtain ⟨i3, s3⟩ := extendArgs_ok as i2 ((kind_eq (s2.kind c (seq_lt hs1))).2.1.trans hs1) hn' (fun r hr => by
          refine good_step s2 (by simp only [List.mem_singleton]; intro y hy _; subst hy; exact g1.2.1) ?_ (good_step s1 (by simp) (by simp) (hg r (hsub r hr)))
          simp only [List.mem_singleton]; intro h'; subst h'; exact hen hr)
        · refine ⟨i3, s1.trans (s2.trans (cs'' := [c]) (es'' := e :: suppliedRefs as) s3 (by simp) (by simp) (by simp) (fun z hz => .inl (by simp [hz])))
            (by simp) (by simp) (by simp) (fun z hz => ?_)⟩
          simp only [List.mem_cons] at hz
          rcases hz with rfl | hz
          · exact hes
          · exact .inl (hsub z hz)

theorem keep_ok {h : OHeap} (hi : Inv h) {c : Nat} (hs : isSeqBody (bodyOf h c) = true) {ys : List Nat} (hn : ys.Nodup)
    (hy : ∀ y ∈ ys, y ∈ refs (bodyOf h c)) : Inv (setEntries h c ys) ∧ Step h (setEntries h c ys) [c] [] :=
  setEntries_ok hi hs hn (fun y h' => entryOK_of_inv hi (seq_not_slot hs) (hy y h')) [] (fun y h' => .inl (hy y h'))

/-- what is taken out of a container is in none -/
theorem dropped_free {h : OHeap} (hi : Inv h) {c : Nat} (hs : isSeqBody (bodyOf h c) = true) {ys : List Nat} (hy : ∀ y ∈ ys, y ∈ refs (bodyOf h c))
    {x : Nat} (hx : x ∈ refs (bodyOf h c)) (hxy : x ∉ ys) : Free (setEntries h c ys) x := by
  intro c' hc' hm
  have hk := kind_withEntries (bodyOf h c) ys
  have hr := refs_withEntries hs ys
  have hlive : Live h c' := by
    rcases setBody_live (seq_lt hs) (kind_eq hk).1 ((kind_eq hk).2.2.2.trans (seq_not_slot hs)) (seq_not_slot hs) hc' with h' | ⟨h', h''⟩
    · exact h'
    · exact fun _ => ⟨c, h', hy _ (hr ▸ h'')⟩
  unfold setEntries at hm
  rw [bodyOf_setBody _ _ _ _ (seq_lt hs)] at hm
  by_cases hcc : c' = c
  · subst hcc; simp only [↓reduceIte, hr] at hm; exact hxy hm
  · simp only [hcc, ↓reduceIte] at hm
    have h1 := hi.link c' hlive x hm
    have h2 := hi.link c (live_of_not_slot (seq_not_slot hs)) x hx
    rw [h1] at h2; simp only [Option.some.injEq] at h2; exact hcc h2

theorem fill_ok {h : OHeap} (hi : Inv h) (c : Nat) (s : HShape) :
    Inv (hFill h c s) ∧ ∃ cs, Step h (hFill h c s) cs [] ∧ ∀ x ∈ cs, x = c ∧ slotB (bodyOf h c) = false := by
  have seqCase : isSeqBody (bodyOf h c) = true → ∀ ms,
      Inv (hExtend (newElems (setEntries h c []) ms).1 c (newElems (setEntries h c []) ms).2) ∧
      Step h (hExtend (newElems (setEntries h c []) ms).1 c (newElems (setEntries h c []) ms).2) [c] [] := by
    intro hs ms
    obtain ⟨i1, s1⟩ := setEntries_ok hi hs (xs := []) (by simp) (by simp) [] (by simp)
    obtain ⟨i2, s2, n2, r2⟩ := newElems_ok ms i1 (Prod.eta _).symm
    have hs1 := (kind_eq (s1.kind c (seq_lt hs))).2.1.trans hs
    have hs2 := (kind_eq (s2.kind c (seq_lt hs1))).2.1.trans hs1
    obtain ⟨i3, s3⟩ := hExtend_ok _ i2 hs2 n2 (fun r hr => (r2 r hr).2)
    have hl := s1.len
    refine ⟨i3, (s1.trans (cs'' := [c]) (es'' := []) s2 (by simp) (by simp) (by simp) (by simp)).trans s3 (by simp) (by simp) (by simp) (fun z hz => .inr ?_)⟩
    have := (r2 z hz).1
    omega
  unfold hFill
  split
  · rename_i hb
    obtain ⟨h1, h2⟩ := seqCase (by rw [hb]; rfl) _
    exact ⟨h1, [c], h2, fun x hx => ⟨by simpa using hx, by rw [hb]; rfl⟩⟩
  · rename_i hb
    obtain ⟨h1, h2⟩ := seqCase (by rw [hb]; rfl) _
    exact ⟨h1, [c], h2, fun x hx => ⟨by simpa using hx, by rw [hb]; rfl⟩⟩
  · rename_i hb
    have hm : isMapBody (bodyOf h c) = true := by rw [hb]; rfl
    obtain ⟨i1, s1⟩ := setItems_ok hi hm (kvs := []) (by simp) (by simp) [] (by simp)
    obtain ⟨i2, s2⟩ := newFields_ok _ i1 ((kind_eq (s1.kind c (map_lt hm))).2.2.1.trans hm)
    exact ⟨i2, [c], s1.trans s2 (by simp) (by simp) (by simp) (by simp), fun x hx => ⟨by simpa using hx, by rw [hb]; rfl⟩⟩
  · exact ⟨hi, [], Step.refl h hi, by simp⟩

/-- what an operation does to the objects that were there -/
def Effect (h : OHeap) (op : HOp) (h' : OHeap) : Prop :=
  ∃ cs es, Step h h' cs es ∧ (∀ x ∈ cs, x ∈ changes h op ∧ slotB (bodyOf h x) = false) ∧ ∀ e ∈ es, e ∈ HOp.supplies op ∨ (slotB (bodyOf h e) = true ∧ Free h' e)

theorem effect_none {h : OHeap} (hi : Inv h) (op : HOp) : Effect h op h := ⟨[], [], Step.refl h hi, by simp, by simp⟩

theorem effect_of {h h' : OHeap} {op : HOp} {c : Nat} {es : List Nat} (s : Step h h' [c] es) (hc : changes h op = [c]) (hs : slotB (bodyOf h c) = false)
    (he : ∀ e ∈ es, e ∈ HOp.supplies op ∨ h.length ≤ e) : Effect h op h' :=
  ⟨[c], HOp.supplies op, s.mono (by simp) he, fun x hx => by simp only [List.mem_singleton] at hx; subst hx; exact ⟨by rw [hc]; simp, hs⟩, fun _ h' => .inl h'⟩

theorem effect_fill {h : OHeap} {op : HOp} {c : Nat} {s : HShape} (hc : changes h op = [c])
    (hf : Inv (hFill h c s) ∧ ∃ cs, Step h (hFill h c s) cs [] ∧ ∀ x ∈ cs, x = c ∧ slotB (bodyOf h c) = false) :
    Inv (hFill h c s) ∧ Effect h op (hFill h c s) := by
  obtain ⟨h1, cs, h2, h3⟩ := hf
  refine ⟨h1, cs, [], h2, fun x hx => ?_, by simp⟩
  obtain ⟨rfl, h4⟩ := h3 x hx
  exact ⟨by rw [hc]; simp, h4⟩

theorem sole_good {h : OHeap} (hi : Inv h) {a : HArg} (hp : ∀ r ∈ suppliedRefs [a], Loose h r) : ∀ r, a = .elem r → Good h r :=
  fun r hr => good_of_loose hi (hp r (by subst hr; simp [suppliedRefs]))

theorem eff {h h' : OHeap} {op : HOp} {c : Nat} {es : List Nat} (hc : changes h op = [c]) (hs : slotB (bodyOf h c) = false)
    (p : Inv h' ∧ Step h h' [c] es) (he : ∀ e ∈ es, e ∈ HOp.supplies op ∨ h.length ≤ e) : Inv h' ∧ Effect h op h' :=
  ⟨p.1, effect_of p.2 hc hs he⟩

theorem eff2 {h h1 h' : OHeap} {op : HOp} {c : Nat} {es : List Nat} (hc : changes h op = [c]) (hs : slotB (bodyOf h c) = false)
    (s1 : Step h h1 [] []) (p : Inv h' ∧ Step h1 h' [c] es) (he : ∀ e ∈ es, e ∈ HOp.supplies op ∨ h.length ≤ e) : Inv h' ∧ Effect h op h' :=
  ⟨p.1, effect_of (s1.trans (cs'' := [c]) (es'' := es) p.2 (by simp) (by simp) (by simp) (fun _ h' => .inl h')) hc hs he⟩

theorem given {h h1 : OHeap} {a : HArg} {e : Nat} (o : (a = .elem e ∧ h1 = h) ∨ (h.length ≤ e ∧ ∃ s, a = .value s)) :
    ∀ x ∈ [e], x ∈ suppliedRefs [a] ∨ h.length ≤ x := by
  intro x hx
  simp only [List.mem_singleton] at hx
  subst hx
  rcases o with ⟨o, _⟩ | ⟨o, _⟩
  · subst o; simp [suppliedRefs]
  · exact .inr o

/-- every proper operation keeps the invariant -/
theorem hDo_ok {h : OHeap} (hi : Inv h) {op : HOp} (ha : op.applies h = true) (hp : Proper h op) : Inv (hDo h op).1 ∧ Effect h op (hDo h op).1 := by
  obtain ⟨hp1, hp2, hp3⟩ := hp
  cases op with
  | create s =>
    obtain ⟨_, h1, h2, _⟩ := newElem_ok s hi (p := none) (Prod.eta _).symm
    exact ⟨h1, [], [], h2, by simp, by simp⟩
  | set c s => exact effect_fill rfl (fill_ok hi c s)
  | append c a =>
    simp only [HOp.applies] at ha
    simp only [hDo]
    cases hae : hAsElement h a with
    | mk h1 er => cases er with
      | error er => simp only; rw [asElement_error hae]; exact ⟨hi, effect_none hi _⟩
      | ok e =>
        obtain ⟨i1, s1, g1, o1⟩ := asElement_ok hi (sole_good hi hp1) hae
        have hs1 : isSeqBody (bodyOf h1 c) = true := by rw [s1.body c (seq_lt ha) (by simp)]; exact ha
        exact eff2 rfl (seq_not_slot ha) s1 (hAppend_ok i1 hs1 g1.1 g1.2.1 g1.2.2) (given o1)
  | extend c as => exact eff rfl (seq_not_slot ha) (extendArgs_ok as hi ha hp2 (fun r hr => good_of_loose hi (hp1 r hr))) (fun _ h' => .inl h')
  | insert c i a =>
    simp only [HOp.applies] at ha
    simp only [hDo]
    cases hae : hAsElement h a with
    | mk h1 er => cases er with
      | error er => simp only; rw [asElement_error hae]; exact ⟨hi, effect_none hi _⟩
      | ok e =>
        obtain ⟨i1, s1, g1, o1⟩ := asElement_ok hi (sole_good hi hp1) hae
        have hs1 : isSeqBody (bodyOf h1 c) = true := by rw [s1.body c (seq_lt ha) (by simp)]; exact ha
        simp only
        obtain ⟨_, s2, _⟩ := wrap_ok i1 hs1 g1.1 g1.2.1 g1.2.2 (Prod.eta _).symm
        have hb : bodyOf (wrap h1 c e).1 c = bodyOf h1 c := s2.body c (seq_lt hs1) (by simp)
        rw [hb, entries_refs hs1]
        refine eff2 rfl (seq_not_slot ha) s1 (wrap_set_ok i1 hs1 g1.1 g1.2.1 g1.2.2 (Prod.eta _).symm (fun hn => (insert_ok (i1.nodup c) hn).1) (fun y hy => ?_)) (given o1)
        unfold pyInsert at hy
        simp only [List.mem_append, List.mem_cons] at hy
        rcases hy with hy | hy | hy
        · exact .inr (List.mem_of_mem_take hy)
        · exact .inl hy
        · exact .inr (List.mem_of_mem_drop hy)
  | setItem c i a =>
    simp only [HOp.applies, Bool.and_eq_true, Bool.not_eq_true'] at ha
    obtain ⟨ha, hl⟩ := ha
    simp only [hDo]
    cases a with
    | elem r => exact absurd rfl (hp3 c i r)
    | raises er => exact ⟨hi, effect_none hi _⟩
    | value s =>
      simp only [hAsElement, hSetItem]
      obtain ⟨e1, i1, s1, _, e3, e4, e5⟩ := newElem_ok s hi (p := none) (Prod.eta _).symm
      have hb : bodyOf (newElem h none s).1 c = bodyOf h c := s1.body c (seq_lt ha) (by simp)
      have hs1 : isSeqBody (bodyOf (newElem h none s).1 c) = true := by rw [hb]; exact ha
      have hw : wrap (newElem h none s).1 c (newElem h none s).2 = (setParent (newElem h none s).1 (newElem h none s).2 (some c), (newElem h none s).2) := by
        unfold wrap; rw [hb, hl]; simp
      obtain ⟨i2, s2, _⟩ := wrap_ok i1 hs1 e5 e3 e4 hw
      cases hj : pyIndex (entries (bodyOf (setParent (newElem h none s).1 (newElem h none s).2 (some c)) c)).length i with
      | none => exact ⟨i2, [], [], (s1.trans s2 (cs'' := []) (es'' := []) (by simp) (by simp) (by simp) (fun z hz => .inr (by simp only [List.mem_singleton] at hz; omega))), by simp, by simp⟩
      | some j =>
        simp only
        rw [bodyOf_setParent, entries_refs hs1]
        refine eff2 rfl (seq_not_slot ha) s1 (wrap_set_ok i1 hs1 e5 e3 e4 hw (fun hn => nodup_set (i1.nodup c) hn) (fun y hy => ?_)) (fun z hz => .inr (by simp only [List.mem_singleton] at hz; omega))
        rcases List.mem_or_eq_of_mem_set hy with h' | h'
        · exact .inr h'
        · exact .inl h'
  | setMember c i s =>
    simp only [hDo]
    cases hx : entryAt (entries (bodyOf h c)) i with
    | none => exact ⟨hi, effect_none hi _⟩
    | some x => exact effect_fill (by simp [changes, hx]) (fill_ok hi _ s)
  | setSlice c a b s as =>
    simp only [HOp.applies] at ha
    simp only [hDo]
    cases hw : hWrapAll h c as with
    | mk h1 res =>
      obtain ⟨i1, s1, r1⟩ := wrapAll_ok as hi ha hp2 (fun r hr => good_of_loose hi (hp1 r hr)) hw
      cases res with
      | error er => exact ⟨i1, [], _, s1, by simp, fun _ h' => .inl h'⟩
      | ok xs =>
        obtain ⟨m1, m2⟩ := r1 xs rfl
        have hb : bodyOf h1 c = bodyOf h c := s1.body c (seq_lt ha) (by simp)
        have hs1 : isSeqBody (bodyOf h1 c) = true := by rw [hb]; exact ha
        simp only
        cases hss : pySetSlice (entries (bodyOf h1 c)) a b s xs with
        | error er => exact ⟨i1, [], _, s1, by simp, fun _ h' => .inl h'⟩
        | ok ys =>
          rw [entries_refs hs1] at hss
          obtain ⟨n1, n2⟩ := setSlice_ok hss (i1.nodup c) m1 (fun y hy => by rw [hb]; exact (m2 y hy).2.1)
          obtain ⟨i2, s2⟩ := setEntries_ok i1 hs1 n1 (fun y hy => by
            rcases n2 y hy with h' | h'
            · exact entryOK_of_inv i1 (seq_not_slot hs1) h'
            · exact (m2 y h').1) xs (fun y hy => n2 y hy)
          exact eff rfl (seq_not_slot ha) ⟨i2, s1.trans s2 (cs'' := [c]) (es'' := suppliedRefs as) (by simp) (by simp) (fun _ h' => .inl h') (fun y hy => (m2 y hy).2.2)⟩ (fun _ h' => .inl h')
  | delItem c i =>
    simp only [HOp.applies] at ha
    simp only [hDo]
    cases pyIndex (entries (bodyOf h c)).length i with
    | none => exact ⟨hi, effect_none hi _⟩
    | some j =>
      simp only
      rw [entries_refs ha]
      exact eff rfl (seq_not_slot ha) (keep_ok hi ha ((hi.nodup c).sublist (List.eraseIdx_sublist _ _)) (fun y hy => List.mem_of_mem_eraseIdx hy)) (by simp)
  | delSlice c a b s =>
    simp only [HOp.applies] at ha
    simp only [hDo]
    rw [entries_refs ha]
    unfold pyDelSlice
    split
    · rename_i h'; split at h'
      · simp only; exact ⟨hi, effect_none hi _⟩
      · cases h'
    · rename_i h'; split at h'
      · cases h'
      · simp only [Except.ok.injEq] at h'
        subst h'
        obtain ⟨n1, n2⟩ := eraseIndexes_ok (sliceIndexes (refs (bodyOf h c)).length a b s) (hi.nodup c)
        exact eff rfl (seq_not_slot ha) (keep_ok hi ha n1 n2) (by simp)
  | pop c i =>
    simp only [HOp.applies] at ha
    simp only [hDo]
    rw [entries_refs ha]
    cases pyIndex (refs (bodyOf h c)).length i with
    | none => exact ⟨hi, effect_none hi _⟩
    | some j =>
      simp only
      have hk := keep_ok hi ha ((hi.nodup c).sublist (List.eraseIdx_sublist _ j)) (fun y hy => List.mem_of_mem_eraseIdx hy)
      split
      · cases hx : (refs (bodyOf h c))[j]? with
        | none => exact eff rfl (seq_not_slot ha) hk (by simp)
        | some x =>
          simp only
          have hm := List.mem_of_getElem? hx
          rename_i hlb
          have hlen : x < (setEntries h c ((refs (bodyOf h c)).eraseIdx j)).length := by unfold setEntries; rw [length_setBody]; exact hi.valid c x hm
          have hfree : Free (setEntries h c ((refs (bodyOf h c)).eraseIdx j)) x := dropped_free hi ha (fun y hy => List.mem_of_mem_eraseIdx hy) hm (fun h' => by
            rw [List.mem_eraseIdx_iff_getElem?] at h'
            obtain ⟨k, hkj, hk'⟩ := h'
            rw [List.getElem?_eq_some_iff] at hx hk'
            obtain ⟨l1, e1⟩ := hx
            obtain ⟨l2, e2⟩ := hk'
            exact hkj ((List.getElem_inj (hi.nodup c)).1 (e2.trans e1.symm)))
          refine ⟨inv_setParent hk.1 hlen hfree none, [c], [x], hk.2.trans (step_setParent hlen none) (by simp) (by simp) (by simp) (by simp),
            fun y hy => ⟨by simpa [changes] using hy, by simp only [List.mem_singleton] at hy; subst hy; exact seq_not_slot ha⟩,
            fun y hy => .inr (by
              simp only [List.mem_singleton] at hy; subst hy
              exact ⟨hi.slots c hlb y hm, (free_congr (bodyOf_setParent _ _ _) y).2 hfree⟩)⟩
      · exact eff rfl (seq_not_slot ha) hk (by simp)
  | remove c a eq =>
    simp only [HOp.applies] at ha
    simp only [hDo]
    have key : ∀ h1 e, hAsElement h a = (h1, .ok e) → Inv h1 ∧ isSeqBody (bodyOf h1 c) = true ∧ Step h h1 [] [] := by
      intro h1 e hae
      cases a with
      | elem r =>
        simp only [hAsElement, Prod.mk.injEq] at hae
        obtain ⟨rfl, _⟩ := hae
        exact ⟨hi, ha, Step.refl h hi⟩
      | value s =>
        obtain ⟨i1, s1, _⟩ := asElement_ok hi (fun r hr => by cases hr) hae
        exact ⟨i1, by rw [s1.body c (seq_lt ha) (by simp)]; exact ha, s1⟩
      | raises er => simp [hAsElement] at hae
    cases hae : hAsElement h a with
    | mk h1 er => cases er with
      | error er => simp only; rw [asElement_error hae]; exact ⟨hi, effect_none hi _⟩
      | ok e =>
        obtain ⟨i1, hs1, s1⟩ := key h1 e hae
        simp only
        rw [entries_refs hs1]
        cases hr : pyRemove (fun x => eq (entryElem h1 x) e) (refs (bodyOf h1 c)) with
        | none => exact ⟨i1, [], [], s1, by simp, by simp⟩
        | some ys => exact eff2 rfl (seq_not_slot ha) s1 (keep_ok i1 hs1 ((i1.nodup c).sublist (remove_sublist hr)) (fun y hy => (remove_sublist hr).subset hy)) (by simp)
  | reverse c =>
    simp only [HOp.applies] at ha
    simp only [hDo]
    rw [entries_refs ha]
    exact eff rfl (seq_not_slot ha) (keep_ok hi ha ((List.reverse_perm _).nodup_iff.2 (hi.nodup c)) (fun y hy => List.mem_reverse.1 hy)) (by simp)
  | sort c lt rev =>
    simp only [HOp.applies] at ha
    simp only [hDo]
    rw [entries_refs ha]
    exact eff rfl (seq_not_slot ha) (keep_ok hi ha ((pySort_perm lt rev _).nodup_iff.2 (hi.nodup c)) (fun y hy => (pySort_perm lt rev _).mem_iff.1 hy)) (by simp)
  | put c key a =>
    simp only [HOp.applies] at ha
    simp only [hDo]
    cases a with
    | raises er => exact ⟨hi, effect_none hi _⟩
    | elem r =>
      simp only
      have hg := sole_good hi hp1 r rfl
      have i1 := inv_setParent hi hg.1 hg.2.2 (some c)
      have hb := bodyOf_setParent h r (some c)
      obtain ⟨i2, s2⟩ := put_ok i1 (by rw [hb]; exact ha) key (by rw [parentOf_setParent _ _ _ _ hg.1]; simp) (by rw [hb]; exact hg.2.1) ((free_congr hb r).2 hg.2.2)
      exact eff rfl (map_not_slot ha) ⟨i2, (step_setParent hg.1 (some c)).trans s2 (cs'' := [c]) (es'' := [r]) (by simp) (by simp) (by simp) (by simp)⟩ (by simp [HOp.supplies, suppliedRefs])
    | value s =>
      simp only
      split
      · rename_i r hr; exact effect_fill (by simp [changes, hr]) (fill_ok hi _ s)
      · rename_i hr
        obtain ⟨e1, i1, s1, e2, e3, e4, e5⟩ := newElem_ok s hi (p := some c) (Prod.eta _).symm
        have hm1 : isMapBody (bodyOf (newElem h (some c) s).1 c) = true := by rw [s1.body c (map_lt ha) (by simp)]; exact ha
        exact eff2 (by simp [changes, hr]) (map_not_slot ha) s1 (put_ok i1 hm1 key e2 e3 e4) (fun z hz => .inr (by simp only [List.mem_singleton] at hz; omega))
  | del c key =>
    simp only [HOp.applies] at ha
    simp only [hDo]
    cases dictGet (itemsOf (bodyOf h c)) key with
    | none => exact ⟨hi, effect_none hi _⟩
    | some _ =>
      have hmem : ∀ x ∈ (dictDel (itemsOf (bodyOf h c)) key).map Prod.snd, x ∈ refs (bodyOf h c) := by
        intro x hx; have := mem_dictDel hx; rwa [itemsOf_refs ha] at this
      refine eff rfl (map_not_slot ha) (setItems_ok hi ha (nodup_dictDel (by rw [itemsOf_refs ha]; exact hi.nodup c)) (fun x hx => ?_) [] (fun x hx => .inl (hmem x hx))) (by simp)
      exact ⟨hi.link c (live_of_not_slot (map_not_slot ha)) x (hmem x hx), hi.elems c (map_not_list ha) x (hmem x hx)⟩
  | reset c fs =>
    simp only [HOp.applies] at ha
    obtain ⟨i1, s1⟩ := setItems_ok hi ha (kvs := []) (by simp) (by simp) [] (by simp)
    obtain ⟨i2, s2⟩ := newFields_ok fs i1 ((kind_eq (s1.kind c (map_lt ha))).2.2.1.trans ha)
    exact eff rfl (map_not_slot ha) ⟨i2, s1.trans s2 (cs'' := [c]) (es'' := []) (by simp) (by simp) (by simp) (by simp)⟩ (by simp)

theorem hStep_ok {h : OHeap} (hi : Inv h) {op : HOp} (hp : Proper h op) : Inv (hStep h op).1 ∧ Effect h op (hStep h op).1 := by
  unfold hStep
  split
  · rename_i ha; exact hDo_ok hi ha hp
  · exact ⟨hi, effect_none hi _⟩

theorem hRun_ok : ∀ (ops : List HOp) {h : OHeap}, Inv h → ProperRun h ops → Inv (hRun h ops)
  | [], _, hi, _ => hi
  | _ :: ops, _, hi, hp => hRun_ok ops (hStep_ok hi hp.1).1 hp.2

theorem inv_nil : Inv [] := by
  refine ⟨?_, ?_, ?_, ?_, ?_⟩ <;> simp [bodyOf, refs]

/-! ### from the invariant to members and parents -/

theorem member_holder {h : OHeap} (hi : Inv h) {c e : Nat} (he : e ∈ membersOf h c) :
    (isListBody (bodyOf h c) = true ∧ ∃ s ∈ refs (bodyOf h c), bodyOf h s = .slot e ∧ parentOf h s = some c ∧ parentOf h e = some s) ∨
    (isListBody (bodyOf h c) = false ∧ slotB (bodyOf h c) = false ∧ e ∈ refs (bodyOf h c) ∧ parentOf h e = some c) := by
  cases hb : bodyOf h c with
  | scalar => simp [membersOf, hb] at he
  | slot x => simp [membersOf, hb] at he
  | seq ms =>
    simp only [membersOf, hb] at he
    exact .inr ⟨rfl, rfl, he, hi.link c (live_of_not_slot (by rw [hb]; rfl)) e (by rw [hb]; exact he)⟩
  | mapping kvs =>
    simp only [membersOf, hb] at he
    exact .inr ⟨rfl, rfl, he, hi.link c (live_of_not_slot (by rw [hb]; rfl)) e (by rw [hb]; exact he)⟩
  | list ss =>
    simp only [membersOf, hb, List.mem_map] at he
    obtain ⟨s, hs, hse⟩ := he
    have hl : isListBody (bodyOf h c) = true := by rw [hb]; rfl
    have hsr : s ∈ refs (bodyOf h c) := by rw [hb]; exact hs
    have hsl := hi.slots c hl s hsr
    obtain ⟨x, hx⟩ := slotB_iff.1 hsl
    simp only [entryElem, hx] at hse
    subst hse
    exact .inl ⟨rfl, s, hs, hx, hi.link c (live_list hl) s hsr, hi.link s (fun _ => ⟨c, hl, hsr⟩) x (by rw [hx]; simp [refs])⟩

theorem parentIs_of {h : OHeap} (hi : Inv h) {c e : Nat} (he : e ∈ membersOf h c) : ParentIs h c e := by
  rcases member_holder hi he with ⟨hl, s, h1, h2, h3, h4⟩ | ⟨hl, hs, h1, h2⟩
  · cases hb : bodyOf h c with
    | list ss => simp only [ParentIs, hb]; exact ⟨s, by rw [hb] at h1; exact h1, h4, h2, h3⟩
    | _ => rw [hb] at hl; cases hl
  · cases hb : bodyOf h c with
    | list ss => rw [hb] at hl; cases hl
    | _ => simp only [ParentIs, hb]; exact h2

theorem one_holder {h : OHeap} (hi : Inv h) {c c' e : Nat} (he : e ∈ membersOf h c) (he' : e ∈ membersOf h c') : c = c' := by
  rcases member_holder hi he with ⟨hl, s, h1, h2, h3, h4⟩ | ⟨hl, hs, h1, h2⟩ <;>
    rcases member_holder hi he' with ⟨hl', s', h1', h2', h3', h4'⟩ | ⟨hl', hs', h1', h2'⟩
  · rw [h4] at h4'; cases h4'; rw [h3] at h3'; cases h3'; rfl
  · rw [h4] at h2'; cases h2'; rw [h2] at hs'; cases hs'
  · rw [h2] at h4'; cases h4'; rw [h2'] at hs; cases hs
  · rw [h2] at h2'; cases h2'; rfl

theorem members_nodup {h : OHeap} (hi : Inv h) (c : Nat) : (membersOf h c).Nodup := by
  have hn := hi.nodup c
  cases hb : bodyOf h c with
  | scalar => simp [membersOf, hb]
  | slot x => simp [membersOf, hb]
  | seq ms => rw [hb] at hn; simpa [membersOf, hb, refs] using hn
  | mapping kvs => rw [hb] at hn; simpa [membersOf, hb, refs] using hn
  | list ss =>
    rw [hb] at hn
    simp only [membersOf, hb]
    simp only [refs] at hn
    unfold List.Nodup
    rw [List.pairwise_map]
    refine List.Pairwise.imp_of_mem ?_ hn
    intro a b ha hb' hab e
    have hl : isListBody (bodyOf h c) = true := by rw [hb]; rfl
    have key : ∀ s ∈ ss, parentOf h (entryElem h s) = some s := by
      intro s hs
      have hsr : s ∈ refs (bodyOf h c) := by rw [hb]; exact hs
      obtain ⟨x, hx⟩ := slotB_iff.1 (hi.slots c hl s hsr)
      simp only [entryElem, hx]
      exact hi.link s (fun _ => ⟨c, hl, hsr⟩) x (by rw [hx]; simp [refs])
    have h1 := key a ha
    have h2 := key b hb'
    rw [e, h2] at h1
    exact hab (Option.some.inj h1).symm

theorem member_lt {h : OHeap} (hi : Inv h) {c e : Nat} (he : e ∈ membersOf h c) : e < h.length ∧ slotB (bodyOf h e) = false ∧ c < h.length := by
  have hc : c < h.length := by
    apply bodyOf_lt; intro h'; simp [membersOf, h'] at he
  rcases member_holder hi he with ⟨hl, s, h1, h2, h3, h4⟩ | ⟨hl, hs, h1, h2⟩
  · have hm : e ∈ refs (bodyOf h s) := by rw [h2]; simp [refs]
    exact ⟨hi.valid s e hm, hi.elems s (by rw [h2]; rfl) e hm, hc⟩
  · exact ⟨hi.valid c e h1, hi.elems c hl e h1, hc⟩

/-- an element no operation supplies keeps its parent -/
theorem keeps_parent {h : OHeap} {op : HOp} (he : Effect h op (hStep h op).1) {r : Nat} (hr : r < h.length) (hs : slotB (bodyOf h r) = false)
    (hn : r ∉ HOp.supplies op) : parentOf (hStep h op).1 r = parentOf h r := by
  obtain ⟨cs, es, s, _, h2⟩ := he
  refine s.par r hr fun hm => ?_
  rcases h2 r hm with h' | ⟨h', _⟩
  · exact hn h'
  · rw [hs] at h'; cases h'

theorem keeps_members {h : OHeap} (hi : Inv h) {op : HOp} (he : Effect h op (hStep h op).1) {c : Nat} (hc : c < h.length)
    (hn : c ∉ changes h op) : membersOf (hStep h op).1 c = membersOf h c := by
  obtain ⟨cs, es, s, h1, _⟩ := he
  have hb := s.body c hc fun hm => hn (h1 c hm).1
  unfold membersOf
  rw [hb]
  cases hbc : bodyOf h c with
  | list ss =>
    simp only
    apply List.map_congr_left
    intro x hx
    have hxr : x ∈ refs (bodyOf h c) := by rw [hbc]; exact hx
    have hsl := hi.slots c (by rw [hbc]; rfl) x hxr
    have hbx := s.body x (hi.valid c x hxr) fun hm => by have := (h1 x hm).2; rw [hsl] at this; cases this
    simp only [entryElem, hbx]
  | _ => rfl

theorem leaves_loose {h : OHeap} (hi : Inv h) {op : HOp} (hp : Proper h op) {c e : Nat} (he : e ∈ membersOf h c)
    (hn : e ∉ membersOf (hStep h op).1 c) : Loose (hStep h op).1 e := by
  obtain ⟨hi', hef⟩ := hStep_ok hi hp
  obtain ⟨hel, hes, hcl⟩ := member_lt hi he
  have hns : e ∉ HOp.supplies op := fun hm => (hp.1 e hm).2.2 c he
  have hpar := keeps_parent hef hel hes hns
  obtain ⟨cs, es, s, h1, h2⟩ := hef
  refine ⟨Nat.lt_of_lt_of_le hel s.len, fun h' => ?_, fun c' hc' => ?_⟩
  · have := slotB_iff.2 h'
    rw [(kind_eq (s.kind e hel)).2.2.2, hes] at this; cases this
  · rcases member_holder hi he with ⟨hl, x, a1, a2, a3, a4⟩ | ⟨hl, hs, a1, a2⟩ <;>
      rcases member_holder hi' hc' with ⟨hl', x', a1', a2', a3', a4'⟩ | ⟨hl', hs', a1', a2'⟩
    · rw [hpar, a4] at a4'
      cases a4'
      have hxl := hi.valid c x a1
      have hxs := hi.slots c hl x a1
      have hcc : c' = c := by
        rcases s.fresh c' x a1' with ⟨_, h'⟩ | h' | h'
        · by_cases hcl2 : isListBody (bodyOf h c') = true
          · have := hi.link c' (live_list hcl2) x h'
            rw [a3] at this; exact (Option.some.inj this).symm
          · have := hi.elems c' (by simpa using hcl2) x h'
            rw [hxs] at this; cases this
        · rcases h2 x h' with h' | ⟨_, h'⟩
          · have := (hp.1 x h').2.1; exact absurd (slotB_iff.1 hxs) this
          · exact absurd a1' (h' c' (live_list hl'))
        · omega
      subst hcc
      exact hn hc'
    · rw [hpar, a4] at a2'
      have hxc : x = c' := Option.some.inj a2'
      subst hxc
      have hxl := hi.valid c x a1
      rw [(kind_eq (s.kind x hxl)).2.2.2, hi.slots c hl x a1] at hs'; cases hs'
    · rw [hpar, a2] at a4'
      cases a4'
      have := (kind_eq (s.kind c hcl)).2.2.2
      rw [a2', hs] at this; cases this
    · rw [hpar, a2] at a2'
      cases a2'
      exact hn hc'

theorem upward_parents {h : OHeap} (hi : Inv h) : ∀ (path : List Nat) (e n : Nat), Upward h e path → path.length ≤ n → hParents h n e = path
  | [], e, n, hu, _ => by
    simp only [Upward] at hu
    cases n with
    | zero => rfl
    | succ n => simp [hParents, hu]
  | c :: cs, e, n, hu, hn => by
    simp only [Upward] at hu
    obtain ⟨hh, hu⟩ := hu
    cases n with
    | zero => simp at hn
    | succ n =>
      have hp : parentOf h e = some c := by
        unfold HeldBy at hh
        cases hb : bodyOf h c with
        | scalar => rw [hb] at hh; exact absurd hh id
        | seq ms => rw [hb] at hh; exact hi.link c (live_of_not_slot (by rw [hb]; rfl)) e (by rw [hb]; exact hh)
        | list ms => rw [hb] at hh; exact hi.link c (live_of_not_slot (by rw [hb]; rfl)) e (by rw [hb]; exact hh)
        | mapping ms => rw [hb] at hh; exact hi.link c (live_of_not_slot (by rw [hb]; rfl)) e (by rw [hb]; exact hh)
        | slot e' =>
          rw [hb] at hh
          obtain ⟨rfl, l, ss, hl, hc⟩ := hh
          exact hi.link c (fun _ => ⟨l, by rw [hl]; rfl, by rw [hl]; exact hc⟩) e (by rw [hb]; simp [refs])
      simp only [hParents, hp]
      rw [upward_parents hi cs c n hu (by simpa using hn)]

/-! ### slice assignment of the container's own members -/

theorem setBody_setBody (h : OHeap) (c : Nat) (b b' : Body) : setBody (setBody h c b) c b' = setBody h c b' := by
  apply List.ext_getElem?
  intro i
  simp only [setBody, List.getElem?_modify]
  by_cases hi : c = i
  · subst hi; simp [Option.map_map, Function.comp_def]
  · simp [hi]

theorem setParent_setBody (h : OHeap) (r c : Nat) (p : Option Nat) (b : Body) : setParent (setBody h c b) r p = setBody (setParent h r p) c b := by
  apply List.ext_getElem?
  intro i
  simp only [setBody, setParent, List.getElem?_modify]
  cases h[i]? with
  | none => simp
  | some o => by_cases h1 : c = i <;> by_cases h2 : r = i <;> simp [h1, h2]

theorem alloc_setBody (h : OHeap) (o : Obj) (c : Nat) (b : Body) (hc : c < h.length) : setBody h c b ++ [o] = setBody (h ++ [o]) c b := by
  apply List.ext_getElem?
  intro i
  simp only [setBody, List.getElem?_modify, List.getElem?_append, List.length_modify]
  by_cases hi : i < h.length
  · simp [hi]
  · have : c ≠ i := by omega
    simp [hi, this]

theorem wrap_setBody {h : OHeap} {c e : Nat} {b : Body} (hc : c < h.length) (hl : isListBody b = isListBody (bodyOf h c)) :
    wrap (setBody h c b) c e = (setBody (wrap h c e).1 c b, (wrap h c e).2) := by
  unfold wrap
  rw [bodyOf_setBody _ _ _ _ hc]
  simp only [↓reduceIte, hl]
  split
  · simp only [allocObj, length_setBody, alloc_setBody _ _ _ _ hc, setParent_setBody]
  · rw [setParent_setBody]

theorem wrap_body {h : OHeap} {c e : Nat} (hc : c < h.length) : bodyOf (wrap h c e).1 c = bodyOf h c ∧ h.length ≤ (wrap h c e).1.length := by
  unfold wrap
  split
  · simp only [allocObj, bodyOf_setParent, bodyOf_alloc_old hc, length_setParent]
    simp
  · simp [bodyOf_setParent, length_setParent]

theorem wrapAll_setBody : ∀ (rs : List Nat) {h : OHeap} {c : Nat} {b : Body} (_ : c < h.length) (_ : isListBody b = isListBody (bodyOf h c)),
    hWrapAll (setBody h c b) c (rs.map .elem) = (setBody (hWrapAll h c (rs.map .elem)).1 c b, (hWrapAll h c (rs.map .elem)).2) ∧
      bodyOf (hWrapAll h c (rs.map .elem)).1 c = bodyOf h c ∧ ∃ xs, (hWrapAll h c (rs.map .elem)).2 = .ok xs
  | [], h, c, b, _, _ => ⟨rfl, rfl, [], rfl⟩
  | r :: rs, h, c, b, hc, hl => by
    obtain ⟨w1, w2⟩ := wrap_body (e := r) hc
    obtain ⟨a1, a2, xs, a3⟩ := wrapAll_setBody rs (h := (wrap h c r).1) (c := c) (b := b) (by omega) (by rw [w1]; exact hl)
    simp only [List.map_cons, hWrapAll, hAsElement]
    rw [wrap_setBody hc hl]
    simp only
    rw [a1]
    cases hw : hWrapAll (wrap h c r).1 c (rs.map .elem) with
    | mk h3 res =>
      rw [hw] at a2 a3
      simp only at a2 a3
      subst a3
      exact ⟨rfl, by simpa [w1] using a2, _, rfl⟩

theorem entries_elems {h : OHeap} {c : Nat} (hs : isSeqBody (bodyOf h c) = true) (hi : Inv h) :
    membersOf h c = (refs (bodyOf h c)).map (entryElem h) := by
  cases hb : bodyOf h c with
  | list ss => simp [membersOf, hb, refs]
  | seq ms =>
    simp only [membersOf, hb, refs]
    conv => lhs; rw [← List.map_id ms]
    apply List.map_congr_left
    intro m hm
    symm
    have := hi.elems c (by rw [hb]; rfl) m (by rw [hb]; exact hm)
    unfold entryElem
    cases hbm : bodyOf h m <;> simp_all [slotB]
  | _ => rw [hb] at hs; cases hs

theorem entryElem_nonslot {h : OHeap} {x : Nat} (hs : slotB (bodyOf h x) = false) : entryElem h x = x := by
  unfold entryElem; cases hb : bodyOf h x <;> simp_all [slotB]

theorem entryElem_setEntries {h : OHeap} {c : Nat} (hs : isSeqBody (bodyOf h c) = true) (ys : List Nat) (x : Nat) :
    entryElem (setEntries h c ys) x = entryElem h x := by
  by_cases hx : x = c
  · subst hx
    rw [entryElem_nonslot (seq_not_slot hs), entryElem_nonslot]
    unfold setEntries
    rw [bodyOf_setBody _ _ _ _ (seq_lt hs)]
    simp only [↓reduceIte]
    rw [(kind_eq (kind_withEntries _ _)).2.2.2]; exact seq_not_slot hs
  · unfold entryElem setEntries
    rw [bodyOf_setBody _ _ _ _ (seq_lt hs)]
    simp [hx]

theorem seq_setEntries {h : OHeap} {c : Nat} (hs : isSeqBody (bodyOf h c) = true) (ys : List Nat) :
    isSeqBody (bodyOf (setEntries h c ys) c) = true ∧ refs (bodyOf (setEntries h c ys) c) = ys := by
  unfold setEntries
  rw [bodyOf_setBody _ _ _ _ (seq_lt hs)]
  simp only [↓reduceIte]
  exact ⟨(kind_eq (kind_withEntries _ _)).2.1.trans hs, refs_withEntries hs ys⟩

theorem members_setEntries {h : OHeap} {c : Nat} (hs : isSeqBody (bodyOf h c) = true) {ys : List Nat} (hi : Inv (setEntries h c ys)) :
    membersOf (setEntries h c ys) c = ys.map (entryElem h) := by
  obtain ⟨h1, h2⟩ := seq_setEntries hs ys
  rw [entries_elems h1 hi, h2]
  exact List.map_congr_left fun x _ => entryElem_setEntries hs ys x

theorem wrap_entry {h : OHeap} {c e : Nat} (hcl : c < h.length) (hel : e < h.length) (hes : slotB (bodyOf h e) = false) :
    entryElem (wrap h c e).1 (wrap h c e).2 = e ∧ (wrap h c e).2 < (wrap h c e).1.length ∧ h.length ≤ (wrap h c e).1.length ∧
      (∀ x, x < h.length → bodyOf (wrap h c e).1 x = bodyOf h x) ∧ bodyOf (wrap h c e).1 c = bodyOf h c := by
  unfold wrap
  split
  · simp only [allocObj, length_setParent]
    refine ⟨?_, by simp, by simp, fun x hx => ?_, ?_⟩
    · simp [entryElem, bodyOf_setParent, bodyOf_alloc]
    · rw [bodyOf_setParent, bodyOf_alloc_old hx]
    · rw [bodyOf_setParent, bodyOf_alloc_old hcl]
  · simp only [length_setParent, bodyOf_setParent]
    exact ⟨by rw [entryElem_nonslot (by rw [bodyOf_setParent]; exact hes)], hel, Nat.le_refl _, by simp, by simp⟩

theorem wrapAll_elems : ∀ (rs : List Nat) {h : OHeap} {c : Nat} (_ : c < h.length) (_ : ∀ r ∈ rs, r < h.length ∧ slotB (bodyOf h r) = false),
    ∃ xs, (hWrapAll h c (rs.map .elem)).2 = .ok xs ∧ xs.map (entryElem (hWrapAll h c (rs.map .elem)).1) = rs ∧
      h.length ≤ (hWrapAll h c (rs.map .elem)).1.length ∧ ∀ x, x < h.length → bodyOf (hWrapAll h c (rs.map .elem)).1 x = bodyOf h x
  | [], h, c, _, _ => ⟨[], rfl, rfl, Nat.le_refl _, fun _ _ => rfl⟩
  | r :: rs, h, c, hc, hr => by
    obtain ⟨w1, w2, w3, w4, w5⟩ := wrap_entry hc (hr r (by simp)).1 (hr r (by simp)).2
    obtain ⟨xs, a1, a2, a3, a4⟩ := wrapAll_elems rs (h := (wrap h c r).1) (c := c) (by omega) (fun y hy => by
      obtain ⟨b1, b2⟩ := hr y (by simp [hy])
      exact ⟨by omega, by rw [w4 y b1]; exact b2⟩)
    simp only [List.map_cons, hWrapAll, hAsElement]
    cases hw : hWrapAll (wrap h c r).1 c (rs.map .elem) with
    | mk h3 res =>
      rw [hw] at a1 a2 a3 a4
      simp only at a1 a2 a3 a4
      subst a1
      refine ⟨_, rfl, ?_, by simp only; omega, fun x hx => ?_⟩
      · simp only [List.map_cons]
        rw [a2]
        congr 1
        unfold entryElem at w1 ⊢
        rw [a4 _ w2]; exact w1
      · simp only
        rw [a4 x (by omega), w4 x hx]

theorem members_hAppend {h : OHeap} (hi : Inv h) {c e : Nat} (hs : isSeqBody (bodyOf h c) = true) (hg : Good h e) :
    membersOf (hAppend h c e) c = membersOf h c ++ [e] := by
  have hap := (hAppend_ok hi hs hg.1 hg.2.1 hg.2.2).1
  obtain ⟨w1, w2, w3, w4, w5⟩ := wrap_entry (seq_lt hs) hg.1 hg.2.1
  have hs1 : isSeqBody (bodyOf (wrap h c e).1 c) = true := by rw [w5]; exact hs
  unfold hAppend at hap ⊢
  simp only at hap ⊢
  rw [members_setEntries hs1 hap, w5, entries_refs hs, List.map_append, entries_elems hs hi]
  simp only [List.map_cons, List.map_nil, w1]
  congr 1
  apply List.map_congr_left
  intro x hx
  unfold entryElem
  rw [w4 x (hi.valid c x hx)]

theorem members_hInsert {h : OHeap} (hi : Inv h) {c e : Nat} {i : Int} (hs : isSeqBody (bodyOf h c) = true) (hg : Good h e)
    (hi' : Inv (hDo h (.insert c i (.elem e))).1) :
    membersOf (hDo h (.insert c i (.elem e))).1 c = pyInsert (membersOf h c) i e := by
  obtain ⟨w1, w2, w3, w4, w5⟩ := wrap_entry (seq_lt hs) hg.1 hg.2.1
  have hs1 : isSeqBody (bodyOf (wrap h c e).1 c) = true := by rw [w5]; exact hs
  simp only [hDo, hAsElement] at hi' ⊢
  rw [members_setEntries hs1 hi', w5, entries_refs hs, entries_elems hs hi]
  have hmap : ∀ xs : List Nat, (∀ x ∈ xs, x ∈ refs (bodyOf h c)) → xs.map (entryElem (wrap h c e).1) = xs.map (entryElem h) := by
    intro xs hxs
    apply List.map_congr_left
    intro x hx
    unfold entryElem
    rw [w4 x (hi.valid c x (hxs x hx))]
  unfold pyInsert
  simp only [List.map_append, List.map_cons, List.length_map, w1, ← List.map_take, ← List.map_drop]
  rw [hmap _ fun x hx => List.mem_of_mem_take hx, hmap _ fun x hx => List.mem_of_mem_drop hx]

theorem withEntries_twice (b : Body) (xs ys : List Nat) : withEntries (withEntries b xs) ys = withEntries b ys := by cases b <;> rfl

theorem setSlice_all {xs ys : List Nat} : pySetSlice xs none none none ys = .ok ys := by
  simp [pySetSlice, sliceStart, sliceStop]

theorem hRun_append (h : OHeap) (ops ops' : List HOp) : hRun h (ops ++ ops') = hRun (hRun h ops) ops' := by
  induction ops generalizing h with
  | nil => rfl
  | cons op ops ih => exact ih _

theorem properRun_append {h : OHeap} {ops ops' : List HOp} (h1 : ProperRun h ops) (h2 : ProperRun (hRun h ops) ops') : ProperRun h (ops ++ ops') := by
  induction ops generalizing h with
  | nil => exact h2
  | cons op ops ih => exact ⟨h1.1, ih h1.2 h2⟩

theorem proper_del {h : OHeap} {c : Nat} {a b s : Option Int} : Proper h (.delSlice c a b s) :=
  ⟨by simp [HOp.supplies], by simp [HOp.supplies], fun _ _ _ h' => by cases h'⟩

theorem supplied_elems (rs : List Nat) : suppliedRefs (rs.map .elem) = rs := by
  induction rs with
  | nil => rfl
  | cons r rs ih => simp [suppliedRefs, ih]

theorem delSlice_all {h : OHeap} {c : Nat} (hs : isSeqBody (bodyOf h c) = true) :
    (hStep h (.delSlice c none none none)).1 = setEntries h c [] := by
  simp only [hStep, HOp.applies, hs, ↓reduceIte, hDo, pyDelSlice_all]

/-- `seq[:] = elements`, seen as deleting everything first -/
theorem setSlice_after_del {h : OHeap} {c : Nat} (hs : isSeqBody (bodyOf h c) = true) (rs : List Nat) :
    hStep (hStep h (.delSlice c none none none)).1 (.setSlice c none none none (rs.map .elem)) = hStep h (.setSlice c none none none (rs.map .elem)) := by
  rw [delSlice_all hs]
  obtain ⟨hs0, _⟩ := seq_setEntries hs []
  simp only [hStep, HOp.applies, hs, hs0, ↓reduceIte, hDo]
  obtain ⟨a1, a2, xs, a3⟩ := wrapAll_setBody rs (h := h) (c := c) (b := withEntries (bodyOf h c) []) (seq_lt hs) (kind_eq (kind_withEntries _ _)).1
  rw [show setEntries h c [] = setBody h c (withEntries (bodyOf h c) []) from rfl, a1]
  cases hw : hWrapAll h c (rs.map .elem) with
  | mk h1 res =>
    rw [hw] at a2 a3
    simp only at a2 a3
    subst a3
    simp only [setSlice_all]
    have hcl : c < h1.length := seq_lt (by rw [a2]; exact hs)
    simp only [setEntries]
    rw [bodyOf_setBody _ _ _ _ hcl]
    simp only [↓reduceIte, withEntries_twice, setBody_setBody, a2]

theorem rearrange_ok {h : OHeap} (hi : Inv h) {c : Nat} (hs : isSeqBody (bodyOf h c) = true) {rs : List Nat} (hn : rs.Nodup)
    (hr : ∀ r ∈ rs, Loose h r ∨ r ∈ membersOf h c) :
    Inv (hStep h (.setSlice c none none none (rs.map .elem))).1 ∧
    membersOf (hStep h (.setSlice c none none none (rs.map .elem))).1 c = rs ∧
    (hStep (hStep h (.delSlice c none none none)).1 (.setSlice c none none none (rs.map .elem))).1 = (hStep h (.setSlice c none none none (rs.map .elem))).1 ∧
    Proper (hStep h (.delSlice c none none none)).1 (.setSlice c none none none (rs.map .elem)) := by
  have hi0 := (hStep_ok hi (proper_del (h := h) (c := c) (a := none) (b := none) (s := none))).1
  have hd : membersOf (hStep h (.delSlice c none none none)).1 c = [] := by
    rw [delSlice_all hs] at hi0 ⊢
    rw [members_setEntries hs hi0]; rfl
  have hlo : ∀ r ∈ rs, Loose (hStep h (.delSlice c none none none)).1 r := by
    intro r hr'
    rcases hr r hr' with h' | h'
    · obtain ⟨b1, b2, b3⟩ := h'
      obtain ⟨_, hk⟩ := setEntries_ok hi hs (xs := []) (by simp) (by simp) [] (by simp)
      rw [← delSlice_all hs] at hk
      refine ⟨Nat.lt_of_lt_of_le b1 hk.len, fun h'' => ?_, fun c' hc' => ?_⟩
      · have := slotB_iff.2 h''
        rw [(kind_eq (hk.kind r b1)).2.2.2] at this
        exact b2 (slotB_iff.1 this)
      · have hcl' := (member_lt hi0 hc').2.2
        by_cases hcc : c' = c
        · subst hcc; rw [hd] at hc'; cases hc'
        · rw [keeps_members hi (hStep_ok hi proper_del).2 ?_ (by simp [changes, hcc])] at hc'
          · exact b3 c' hc'
          · rw [delSlice_all hs] at hcl'; unfold setEntries at hcl'; rwa [length_setBody] at hcl'
    · exact leaves_loose hi proper_del h' (by rw [hd]; simp)
  have hp : Proper (hStep h (.delSlice c none none none)).1 (.setSlice c none none none (rs.map .elem)) := by
    refine ⟨?_, ?_, fun _ _ _ h' => by cases h'⟩
    · simp only [HOp.supplies, supplied_elems]; exact hlo
    · simp only [HOp.supplies, supplied_elems]; exact hn
  have hi1 := (hStep_ok hi0 hp).1
  rw [setSlice_after_del hs] at hi1
  refine ⟨hi1, ?_, by rw [setSlice_after_del hs], hp⟩
  obtain ⟨xs, a1, a2, a3, a4⟩ := wrapAll_elems rs (h := h) (c := c) (seq_lt hs) (fun r hr' => by
    rcases hr r hr' with h' | h'
    · have := good_of_loose hi h'; exact ⟨this.1, this.2.1⟩
    · have := member_lt hi h'; exact ⟨this.1, this.2.1⟩)
  simp only [hStep, HOp.applies, hs, ↓reduceIte, hDo] at hi1 ⊢
  cases hw : hWrapAll h c (rs.map .elem) with
  | mk h1 res =>
    rw [hw] at a1 a2 a3 a4 hi1
    simp only at a1 a2 a3 a4
    subst a1
    simp only [setSlice_all] at hi1 ⊢
    rw [members_setEntries (by rw [a4 c (seq_lt hs)]; exact hs) hi1, a2]

theorem loose_check {h : OHeap} {r : Nat} (h1 : r < h.length) (h2 : slotB (bodyOf h r) = false) (h3 : ∀ c ∈ List.range h.length, r ∉ membersOf h c) :
    Loose h r := by
  refine ⟨h1, fun h' => absurd (slotB_iff.2 h') (by simp [h2]), fun c hc => ?_⟩
  have : c < h.length := by apply bodyOf_lt; intro h'; simp [membersOf, h'] at hc
  exact h3 c (List.mem_range.2 this) hc

/-- how an entry shows -/
def shown (h : OHeap) (c x : Nat) : Nat := if isListBody (bodyOf h c) then entryElem h x else x

theorem membersOf_shown {h : OHeap} {c : Nat} (hs : isSeqBody (bodyOf h c) = true) : membersOf h c = (entries (bodyOf h c)).map (shown h c) := by
  unfold membersOf shown
  cases hb : bodyOf h c <;> rw [hb] at hs <;> simp_all [isSeqBody, entries, isListBody]

theorem membersOf_setEntries {h : OHeap} {c : Nat} (hs : isSeqBody (bodyOf h c) = true) (xs : List Nat) :
    membersOf (setEntries h c xs) c = xs.map (shown h c) := by
  have hc : c < h.length := by
    apply bodyOf_lt
    intro he
    rw [he] at hs
    cases hs
  have hb : ∀ x, bodyOf (setEntries h c xs) x = if x = c then withEntries (bodyOf h c) xs else bodyOf h x := fun x => bodyOf_setBody _ _ _ _ hc
  have he : ∀ x, entryElem (setEntries h c xs) x = entryElem h x := by
    intro x
    unfold entryElem
    rw [hb]
    by_cases hx : x = c
    · subst hx
      rw [if_pos rfl]
      cases hbx : bodyOf h x <;> rw [hbx] at hs <;> simp_all [isSeqBody, withEntries]
    · rw [if_neg hx]
  unfold membersOf shown
  rw [hb, if_pos rfl]
  cases hbc : bodyOf h c <;> rw [hbc] at hs <;> simp_all [isSeqBody, withEntries, isListBody]

theorem membersOf_setParent (h : OHeap) (r : Nat) (p : Option Nat) (c : Nat) : membersOf (setParent h r p) c = membersOf h c := by
  unfold membersOf entryElem
  simp only [bodyOf_setParent]

theorem map_eraseIdx {α β : Type} (f : α → β) : ∀ (xs : List α) (j : Nat), (xs.eraseIdx j).map f = (xs.map f).eraseIdx j
  | [], _ => rfl
  | _ :: _, 0 => rfl
  | _ :: xs, j + 1 => by simp only [List.eraseIdx_cons_succ, List.map_cons, map_eraseIdx f xs j]

end Flatland
