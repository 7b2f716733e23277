import Verif.Spec.Attributes
import Verif.Proofs.Mappings
/-! Lemmas for C72. -/
namespace Flatland
open Spec

theorem lastGiven_cons (k : PStr) (v : PyVal) (r : List (PStr × PyVal)) (k' : PStr) :
    lastGiven ((k, v) :: r) k' = match lastGiven r k' with
      | some x => some x
      | .none => if k = k' then some v else .none := by
  simp only [lastGiven, List.reverse_cons, List.find?_append]
  cases r.reverse.find? (fun p => decide (p.1 = k')) with
  | some x => simp
  | none => by_cases h : k = k' <;> simp [h]

theorem put_put (d : PyDict PStr PyVal) (k : PStr) (a b : PyVal) : dictPut (dictPut d k a) k b = dictPut d k b := by
  induction d with
  | nil => simp [dictPut]
  | cons p d ih =>
    obtain ⟨k', e⟩ := p
    by_cases h : k' = k <;> simp [dictPut, h, ih]

/-! ### classes -/

/-- what the class dicts are, from the history -/
structure ClassInv (root : PyDict PStr Slot) (h : AttrHistory) (cs : List AClass) : Prop where
  first : 0 < cs.length
  own : ∀ (c : Nat) (cl : AClass), cs[c]? = some cl → ∀ k, dictGet cl.dict k = match classOwn root h c k with
    | some v => some (.plain v)
    | .none => if c = 0 then dictGet root k else .none
  line : ∀ (c : Nat) (cl : AClass), cs[c]? = some cl → lineage h c = c :: (match cl.base with
    | some p => lineage h p
    | .none => [])
  rootOwn : ∀ k v, dictGet root k = some (.plain v) → classOwn root h 0 k ≠ none
  base : ∀ (c : Nat) (cl : AClass), cs[c]? = some cl → (cl.base = none ∧ c = 0) ∨ ∃ p, cl.base = some p ∧ p < c

theorem lookup_spec {root : PyDict PStr Slot} {h : AttrHistory} {w : AWorld} (hi : ClassInv root h w.classes) (k : PStr) :
    ∀ c, c < w.classes.length → typeLookup w c k = match classValue root h c k with
      | some v => some (.plain v)
      | .none => dictGet root k := by
  intro c
  induction c using Nat.strongRecOn with
  | ind c ih =>
    intro hc
    have hcl : w.classes[c]? = some w.classes[c] := List.getElem?_eq_getElem hc
    generalize w.classes[c] = cl at hcl
    rw [typeLookup.eq_def, hcl]
    simp only []
    rw [hi.own c cl hcl k, classValue, hi.line c cl hcl, List.findSome?_cons]
    cases ho : classOwn root h c k with
    | some v => rfl
    | none =>
      rcases hi.base c cl hcl with ⟨hb, rfl⟩ | ⟨p, hb, hp⟩
      · simp only [hb, ↓reduceIte, List.findSome?_nil]
        cases dictGet root k <;> rfl
      · have hc0 : c ≠ 0 := by omega
        simp only [hb, hc0, ↓reduceIte, hp, ↓reduceDIte]
        exact ih p hp (by omega)

/-- a value of the first class is seen by all -/
theorem classValue_root {root : PyDict PStr Slot} {h : AttrHistory} {cs : List AClass} (hi : ClassInv root h cs) {k : PStr} {v : PyVal}
    (hr : dictGet root k = some (.plain v)) : ∀ c, c < cs.length → classValue root h c k ≠ none := by
  intro c
  induction c using Nat.strongRecOn with
  | ind c ih =>
    intro hc
    have hcl : cs[c]? = some cs[c] := List.getElem?_eq_getElem hc
    generalize cs[c] = cl at hcl
    rw [classValue, hi.line c cl hcl, List.findSome?_cons]
    cases ho : classOwn root h c k with
    | some v => simp
    | none =>
      rcases hi.base c cl hcl with ⟨hb, rfl⟩ | ⟨p, hb, hp⟩
      · exact absurd ho (hi.rootOwn k v hr)
      · simp only [hb]
        exact ih p hp (by omega)

/-! ### objects -/

/-- what the objects are, from the history -/
structure ObjInv (root : PyDict PStr Slot) (h : AttrHistory) (n : Nat) (os : List (Nat × PyDict PStr PyVal)) : Prop where
  made : ∀ (i : Nat) (o : Nat × PyDict PStr PyVal), os[i]? = some o → madeOf h i = o.1 ∧ o.1 < n
  own : ∀ (i : Nat) (o : Nat × PyDict PStr PyVal), os[i]? = some o → ∀ k, dictGet o.2 k = objectOwn root h i k
  nodup : ∀ (i : Nat) (o : Nat × PyDict PStr PyVal), os[i]? = some o → (dictKeys o.2).Nodup

/-- both -/
structure AInv (root : PyDict PStr Slot) (h : AttrHistory) (w : AWorld) : Prop where
  cls : ClassInv root h w.classes
  obj : ObjInv root h w.classes.length w.objs

theorem vars_spec {root : PyDict PStr Slot} {h : AttrHistory} {w : AWorld} (hi : AInv root h w) {i : Nat} (hl : i < w.objs.length) :
    (∀ k, dictGet (w.vars i) k = objectOwn root h i k) ∧ w.typeOf i = madeOf h i ∧ w.typeOf i < w.classes.length := by
  have ho : w.objs[i]? = some w.objs[i] := List.getElem?_eq_getElem hl
  generalize w.objs[i] = o at ho
  have := hi.obj.made i o ho
  refine ⟨fun k => ?_, ?_, ?_⟩
  · simp [AWorld.vars, ho, hi.obj.own i o ho k]
  · simp [AWorld.typeOf, ho, this.1]
  · simp [AWorld.typeOf, ho, this.2]

/-- the outcome of a read -/
theorem getAttr_spec (g : Getters) {root : PyDict PStr Slot} {h : AttrHistory} {w : AWorld} (hi : AInv root h w) {i : Nat} (hl : i < w.objs.length)
    (k : PStr) : (getAttr g w i k).2 = readObject g root w h i k ∧
      (getAttr g w i k).1 = (if isLazy root h (madeOf h i) k = true ∧ objectOwn root h i k = none then w.put i k (g.inst k w i) else w) := by
  obtain ⟨hv, ht, hc⟩ := vars_spec hi hl
  have hlk := lookup_spec hi.cls k _ hc
  rw [ht] at hlk
  unfold getAttr readObject isLazy fallback dataGet
  rw [ht, hlk, hv k]
  cases hcv : classValue root h (madeOf h i) k with
  | some v =>
    simp only []
    cases objectOwn root h i k <;> (cases dictGet root k with
      | none => simp
      | some s => cases s <;> simp)
  | none =>
    simp only []
    cases ho : objectOwn root h i k with
    | some u =>
      cases dictGet root k with
      | none => simp
      | some s => cases s <;> simp
    | none =>
      cases hr : dictGet root k with
      | none => simp
      | some s =>
        cases s with
        | plain v =>
          exact absurd hcv (classValue_root hi.cls hr _ (by rw [← ht]; exact hc))
        | _ => simp

/-! ### the loops -/

theorem foldl_get {A : Type} (f : PyVal → A) (kw : List (PStr × PyVal)) (d : PyDict PStr A) (k : PStr) :
    dictGet (kw.foldl (fun d p => dictPut d p.1 (f p.2)) d) k = match lastGiven kw k with
      | some v => some (f v)
      | .none => dictGet d k := by
  induction kw generalizing d with
  | nil => rfl
  | cons p r ih =>
    obtain ⟨a, v⟩ := p
    rw [List.foldl_cons, ih, lastGiven_cons, dictGet_put]
    cases lastGiven r k with
    | some x => rfl
    | none => by_cases h : k = a <;> simp [h, eq_comm]

theorem foldl_nodup (kw : List (PStr × PyVal)) (d : PyDict PStr PyVal) (hd : (dictKeys d).Nodup) :
    (dictKeys (kw.foldl (fun d p => dictPut d p.1 p.2) d)).Nodup := by
  induction kw generalizing d with
  | nil => exact hd
  | cons p r ih => exact ih _ (nodup_dictKeys_put hd _ _)

theorem lookup_below {w : AWorld} {c : Nat} (k : PStr) (v : PyVal) (k' : PStr) : ∀ p, p < c → typeLookup (setClassAttr w c k v) p k' = typeLookup w p k' := by
  intro p
  induction p using Nat.strongRecOn with
  | ind p ih =>
    intro hp
    have hne : ¬ c = p := by omega
    have hcl : (setClassAttr w c k v).classes[p]? = w.classes[p]? := by simp [setClassAttr, List.getElem?_modify, hne]
    rw [typeLookup.eq_def, typeLookup.eq_def w, hcl]
    cases w.classes[p]? with
    | none => rfl
    | some cl =>
      simp only []
      cases dictGet cl.dict k' with
      | some s => rfl
      | none =>
        simp only []
        cases cl.base with
        | none => rfl
        | some q =>
          simp only []
          split
          · exact ih q (by omega) (by omega)
          · rfl

theorem lookup_set {w : AWorld} {c : Nat} (hc : c < w.classes.length) (k : PStr) (v : PyVal) (k' : PStr) :
    typeLookup (setClassAttr w c k v) c k' = if k' = k then some (.plain v) else typeLookup w c k' := by
  have hcl : w.classes[c]? = some w.classes[c] := List.getElem?_eq_getElem hc
  generalize w.classes[c] = cl at hcl
  have hcl' : (setClassAttr w c k v).classes[c]? = some { cl with dict := dictPut cl.dict k (.plain v) } := by
    simp [setClassAttr, List.getElem?_modify, hcl]
  rw [typeLookup.eq_def, hcl', typeLookup.eq_def w c, hcl]
  simp only [dictGet_put]
  by_cases h : k' = k
  · simp [h]
  · simp only [h, ↓reduceIte]
    cases dictGet cl.dict k' with
    | some s => rfl
    | none =>
      simp only []
      cases cl.base with
      | none => rfl
      | some q =>
        simp only []
        split
        · exact lookup_below k v k' q (by omega)
        · rfl

theorem isOk_class (g : Getters) (w : AWorld) (c : Nat) (k : PStr) : isOk (getClassAttr g w c k) = (typeLookup w c k).isSome := by
  unfold getClassAttr
  cases typeLookup w c k with
  | none => rfl
  | some s => cases s <;> rfl

theorem usingLoop_eq (g : Getters) (ov : List (PStr × PyVal)) : ∀ (w : AWorld) (c : Nat), c < w.classes.length →
    usingLoop g w c ov = if ∀ p ∈ ov, (typeLookup w c p.1).isSome = true then .ok (ov.foldl (fun w p => setClassAttr w c p.1 p.2) w) else .error .type := by
  induction ov with
  | nil => intro w c _; simp [usingLoop]
  | cons p r ih =>
    intro w c hc
    obtain ⟨k, v⟩ := p
    have hc' : c < (setClassAttr w c k v).classes.length := by simpa [setClassAttr] using hc
    simp only [usingLoop, isOk_class]
    by_cases hk : (typeLookup w c k).isSome = true
    · rw [if_pos hk, ih _ _ hc']
      have : (∀ p ∈ r, (typeLookup (setClassAttr w c k v) c p.1).isSome = true) ↔ (∀ p ∈ (k, v) :: r, (typeLookup w c p.1).isSome = true) := by
        simp only [List.mem_cons, forall_eq_or_imp, hk, true_and, lookup_set hc]
        constructor
        · intro h p hp
          have := h p hp
          by_cases e : p.1 = k
          · rw [e]; exact hk
          · simpa [e] using this
        · intro h p hp
          by_cases e : p.1 = k
          · simp [e]
          · simpa [e] using h p hp
      simp only [this, List.foldl_cons]
    · rw [if_neg hk, if_neg]
      intro h
      exact hk (h (k, v) (by simp))

theorem setAttr_eq (w : AWorld) (i : Nat) (k : PStr) (v : PyVal) : setAttr w i k v = w.put i k v := by
  unfold setAttr
  split <;> rfl

theorem lookup_put (w : AWorld) (i : Nat) (k : PStr) (v : PyVal) : ∀ c k', typeLookup (w.put i k v) c k' = typeLookup w c k' := by
  intro c k'
  induction c using Nat.strongRecOn with
  | ind c ih =>
    rw [typeLookup.eq_def, typeLookup.eq_def w]
    have hcl : (w.put i k v).classes = w.classes := rfl
    rw [hcl]
    cases w.classes[c]? with
    | none => rfl
    | some cl =>
      simp only []
      cases dictGet cl.dict k' with
      | some s => rfl
      | none =>
        simp only []
        cases cl.base with
        | none => rfl
        | some q =>
          simp only []
          split
          · exact ih q (by assumption)
          · rfl

theorem typeOf_put (w : AWorld) (i : Nat) (k : PStr) (v : PyVal) (j : Nat) : (w.put i k v).typeOf j = w.typeOf j := by
  simp only [AWorld.typeOf, AWorld.put, List.getElem?_modify]
  cases w.objs[j]? <;> simp
  split <;> rfl

theorem vars_put {w : AWorld} {i : Nat} (hi : i < w.objs.length) (k : PStr) (v : PyVal) (k' : PStr) :
    dictGet ((w.put i k v).vars i) k' = if k' = k then some v else dictGet (w.vars i) k' := by
  simp only [AWorld.vars, AWorld.put, List.getElem?_modify, List.getElem?_eq_getElem hi]
  simp [dictGet_put]

theorem put_put_world (w : AWorld) (i : Nat) (k : PStr) (a b : PyVal) : (w.put i k a).put i k b = w.put i k b := by
  simp only [AWorld.put, List.modify_modify_eq]
  congr 1
  congr 1
  funext o
  simp [put_put]

/-- is the name visible on the object? -/
def sees (w : AWorld) (i : Nat) (k : PStr) : Bool :=
  (dictGet (w.vars i) k).isSome || match typeLookup w (w.typeOf i) k with
    | some .cloner => false
    | some _ => true
    | .none => false

theorem isOk_get (g : Getters) (w : AWorld) (i : Nat) (k : PStr) :
    isOk (getAttr g w i k).2 = sees w i k ∧ ((getAttr g w i k).1 = w ∨ (getAttr g w i k).1 = w.put i k (g.inst k w i)) := by
  unfold getAttr sees dataGet
  cases dictGet (w.vars i) k <;> (cases typeLookup w (w.typeOf i) k with
    | none => simp [isOk]
    | some s => cases s <;> simp [isOk])

theorem initLoop_eq (g : Getters) (kw : List (PStr × PyVal)) : ∀ (w : AWorld) (i : Nat), i < w.objs.length →
    initLoop g w i kw = if ∀ p ∈ kw, sees w i p.1 = true then .ok (kw.foldl (fun w p => w.put i p.1 p.2) w) else .error .type := by
  induction kw with
  | nil => intro w i _; simp [initLoop]
  | cons p r ih =>
    intro w i hi
    obtain ⟨k, v⟩ := p
    obtain ⟨h1, h2⟩ := isOk_get g w i k
    have hput : setAttr (getAttr g w i k).1 i k v = w.put i k v := by
      rw [setAttr_eq]
      rcases h2 with h2 | h2 <;> rw [h2]
      exact put_put_world w i k _ v
    have hi' : i < (w.put i k v).objs.length := by simpa [AWorld.put] using hi
    unfold initLoop
    cases hg : getAttr g w i k with
    | mk w' r' =>
      rw [hg] at h1 hput
      cases r' with
      | error e =>
        simp only []
        rw [if_neg]
        intro h
        have := h (k, v) (by simp)
        rw [← h1] at this
        cases this
      | ok x =>
        simp only [] at hput ⊢
        rw [hput, ih _ _ hi']
        have hk : sees w i k = true := h1.symm
        have : (∀ p ∈ r, sees (w.put i k v) i p.1 = true) ↔ (∀ p ∈ (k, v) :: r, sees w i p.1 = true) := by
          have hs : ∀ k', sees (w.put i k v) i k' = (decide (k' = k) || sees w i k') := by
            intro k'
            simp only [sees, vars_put hi, lookup_put, typeOf_put]
            by_cases e : k' = k <;> simp [e]
          simp only [List.mem_cons, forall_eq_or_imp, hk, true_and, hs]
          constructor
          · intro h p hp
            have := h p hp
            by_cases e : p.1 = k
            · rw [e]; exact hk
            · simpa [e] using this
          · intro h p hp
            simp [h p hp]
        simp only [this, List.foldl_cons]

theorem modify_last {A : Type} (f : A → A) (l : List A) (a : A) : (l ++ [a]).modify l.length f = l ++ [f a] := by
  induction l with
  | nil => rfl
  | cons b r ih => simpa [List.modify_succ_cons] using ih

theorem foldl_put_last (kw : List (PStr × PyVal)) : ∀ (cs : List AClass) (os : List (Nat × PyDict PStr PyVal)) (c : Nat) (d : PyDict PStr PyVal),
    kw.foldl (fun w p => w.put os.length p.1 p.2) (AWorld.mk cs (os ++ [(c, d)])) = ⟨cs, os ++ [(c, kw.foldl (fun d p => dictPut d p.1 p.2) d)]⟩ := by
  induction kw with
  | nil => intros; rfl
  | cons p r ih =>
    intro cs os c d
    rw [List.foldl_cons, List.foldl_cons, ← ih]
    congr 1
    simp only [AWorld.put, modify_last]

theorem foldl_class_last (kw : List (PStr × PyVal)) : ∀ (cs : List AClass) (os : List (Nat × PyDict PStr PyVal)) (b : Option Nat) (d : PyDict PStr Slot),
    kw.foldl (fun w p => setClassAttr w cs.length p.1 p.2) (AWorld.mk (cs ++ [⟨b, d⟩]) os) =
      ⟨cs ++ [⟨b, kw.foldl (fun d p => dictPut d p.1 (.plain p.2)) d⟩], os⟩ := by
  induction kw with
  | nil => intros; rfl
  | cons p r ih =>
    intro cs os b d
    rw [List.foldl_cons, List.foldl_cons, ← ih]
    congr 1
    simp only [setClassAttr, modify_last]

/-! ### the invariant -/

/-- a step that leaves nothing in the history -/
theorem AInv.same {root : PyDict PStr Slot} {h h' : AttrHistory} {w : AWorld} (hi : AInv root h w) (h1 : lineage h' = lineage h)
    (h2 : classOwn root h' = classOwn root h) (h3 : madeOf h' = madeOf h) (h4 : objectOwn root h' = objectOwn root h) : AInv root h' w := by
  obtain ⟨⟨a, b, c, d, e⟩, ⟨f, g, k⟩⟩ := hi
  exact ⟨⟨a, by rw [h2]; exact b, by rw [h1]; exact c, by rw [h2]; exact d, e⟩, ⟨by rw [h3]; exact f, by rw [h4]; exact g, k⟩⟩

theorem inv_start (root : PyDict PStr Slot) : AInv root [] (attrStart root) := by
  have hz : ∀ (c : Nat) (cl : AClass), (attrStart root).classes[c]? = some cl → c = 0 ∧ cl = ⟨none, root⟩ := by
    intro c cl h
    cases c with
    | zero => simp [attrStart] at h; exact ⟨rfl, h.symm⟩
    | succ c => simp [attrStart] at h
  refine ⟨⟨by simp [attrStart], ?_, ?_, ?_, ?_⟩, ⟨?_, ?_, ?_⟩⟩
  · intro c cl h k
    obtain ⟨rfl, rfl⟩ := hz c cl h
    simp only [classOwn, ↓reduceIte]
    cases dictGet root k with
    | none => rfl
    | some s => cases s <;> rfl
  · intro c cl h
    obtain ⟨rfl, rfl⟩ := hz c cl h
    rfl
  · intro k v h
    simp [classOwn, h]
  · intro c cl h
    obtain ⟨rfl, rfl⟩ := hz c cl h
    exact .inl ⟨rfl, rfl⟩
  all_goals
    intro i o h
    simp [attrStart] at h

/-- an object's own value assigned -/
theorem inv_put {root : PyDict PStr Slot} {h h' : AttrHistory} {w : AWorld} (hi : AInv root h w) (i : Nat) (k : PStr) (v : PyVal)
    (h1 : lineage h' = lineage h) (h2 : classOwn root h' = classOwn root h) (h3 : madeOf h' = madeOf h)
    (h4 : ∀ j k', objectOwn root h' j k' = if i = j ∧ k = k' then some v else objectOwn root h j k') : AInv root h' (w.put i k v) := by
  obtain ⟨⟨a, b, c, d, e⟩, ⟨f, g, l⟩⟩ := hi
  have hz : ∀ (j : Nat) (o : Nat × PyDict PStr PyVal), (w.put i k v).objs[j]? = some o →
      (i ≠ j ∧ w.objs[j]? = some o) ∨ ∃ o', i = j ∧ w.objs[j]? = some o' ∧ o = (o'.1, dictPut o'.2 k v) := by
    intro j o ho
    simp only [AWorld.put, List.getElem?_modify] at ho
    by_cases hij : i = j
    · cases hw : w.objs[j]? with
      | none => simp [hw] at ho
      | some o' => right; exact ⟨o', hij, rfl, by simpa [hw, hij, eq_comm] using ho⟩
    · left; exact ⟨hij, by simpa [hij] using ho⟩
  refine ⟨⟨a, by rw [h2]; exact b, by rw [h1]; exact c, by rw [h2]; exact d, e⟩, ⟨?_, ?_, ?_⟩⟩
  · intro j o ho
    rw [h3]
    rcases hz j o ho with ⟨_, hw⟩ | ⟨o', rfl, hw, rfl⟩
    · exact f j o hw
    · exact f i o' hw
  · intro j o ho k'
    rw [h4]
    rcases hz j o ho with ⟨hn, hw⟩ | ⟨o', rfl, hw, rfl⟩
    · simp [hn, g j o hw k']
    · simp only [dictGet_put, true_and, g i o' hw k', eq_comm]
  · intro j o ho
    rcases hz j o ho with ⟨hn, hw⟩ | ⟨o', rfl, hw, rfl⟩
    · exact l j o hw
    · exact nodup_dictKeys_put (l i o' hw) _ _

/-- an object's own value deleted -/
theorem inv_drop {root : PyDict PStr Slot} {h h' : AttrHistory} {w : AWorld} (hi : AInv root h w) (i : Nat) (k : PStr)
    (h1 : lineage h' = lineage h) (h2 : classOwn root h' = classOwn root h) (h3 : madeOf h' = madeOf h)
    (h4 : ∀ j k', objectOwn root h' j k' = if i = j ∧ k = k' then none else objectOwn root h j k') : AInv root h' (w.drop i k) := by
  obtain ⟨⟨a, b, c, d, e⟩, ⟨f, g, l⟩⟩ := hi
  have hz : ∀ (j : Nat) (o : Nat × PyDict PStr PyVal), (w.drop i k).objs[j]? = some o →
      (i ≠ j ∧ w.objs[j]? = some o) ∨ ∃ o', i = j ∧ w.objs[j]? = some o' ∧ o = (o'.1, dictDel o'.2 k) := by
    intro j o ho
    simp only [AWorld.drop, List.getElem?_modify] at ho
    by_cases hij : i = j
    · cases hw : w.objs[j]? with
      | none => simp [hw] at ho
      | some o' => right; exact ⟨o', hij, rfl, by simpa [hw, hij, eq_comm] using ho⟩
    · left; exact ⟨hij, by simpa [hij] using ho⟩
  refine ⟨⟨a, by rw [h2]; exact b, by rw [h1]; exact c, by rw [h2]; exact d, e⟩, ⟨?_, ?_, ?_⟩⟩
  · intro j o ho
    rw [h3]
    rcases hz j o ho with ⟨_, hw⟩ | ⟨o', rfl, hw, rfl⟩
    · exact f j o hw
    · exact f i o' hw
  · intro j o ho k'
    rw [h4]
    rcases hz j o ho with ⟨hn, hw⟩ | ⟨o', rfl, hw, rfl⟩
    · simp [hn, g j o hw k']
    · simp only [dictGet_del _ _ _ (l i o' hw), true_and, g i o' hw k', eq_comm]
  · intro j o ho
    rcases hz j o ho with ⟨hn, hw⟩ | ⟨o', rfl, hw, rfl⟩
    · exact l j o hw
    · exact nodup_dictKeys_del (l i o' hw) _

/-- a class attribute assigned -/
theorem inv_class {root : PyDict PStr Slot} {h h' : AttrHistory} {w : AWorld} (hi : AInv root h w) (i : Nat) (k : PStr) (v : PyVal)
    (h1 : lineage h' = lineage h) (h2 : ∀ j k', classOwn root h' j k' = if i = j ∧ k = k' then some v else classOwn root h j k')
    (h3 : madeOf h' = madeOf h) (h4 : objectOwn root h' = objectOwn root h) : AInv root h' (setClassAttr w i k v) := by
  obtain ⟨⟨a, b, c, d, e⟩, ⟨f, g, l⟩⟩ := hi
  have hz : ∀ (j : Nat) (o : AClass), (setClassAttr w i k v).classes[j]? = some o →
      (i ≠ j ∧ w.classes[j]? = some o) ∨ ∃ o', i = j ∧ w.classes[j]? = some o' ∧ o = { o' with dict := dictPut o'.dict k (.plain v) } := by
    intro j o ho
    simp only [setClassAttr, List.getElem?_modify] at ho
    by_cases hij : i = j
    · cases hw : w.classes[j]? with
      | none => simp [hw] at ho
      | some o' => right; exact ⟨o', hij, rfl, by simpa [hw, hij, eq_comm] using ho⟩
    · left; exact ⟨hij, by simpa [hij] using ho⟩
  refine ⟨⟨by simpa [setClassAttr] using a, ?_, ?_, ?_, ?_⟩, ⟨by rw [h3]; simpa [setClassAttr] using f, by rw [h4]; exact g, l⟩⟩
  · intro j o ho k'
    rw [h2]
    rcases hz j o ho with ⟨hn, hw⟩ | ⟨o', rfl, hw, rfl⟩
    · simp [hn, b j o hw k']
    · simp only [dictGet_put, true_and, b i o' hw k']
      by_cases hk : k = k'
      · simp [hk]
      · simp [hk, Ne.symm hk]
  · intro j o ho
    rw [h1]
    rcases hz j o ho with ⟨hn, hw⟩ | ⟨o', rfl, hw, rfl⟩
    · exact c j o hw
    · exact c i o' hw
  · intro k' v' hk
    rw [h2]
    split
    · simp
    · exact d k' v' hk
  · intro j o ho
    rcases hz j o ho with ⟨hn, hw⟩ | ⟨o', rfl, hw, rfl⟩
    · exact e j o hw
    · exact e i o' hw

/-- a new object -/
theorem inv_make {root : PyDict PStr Slot} {h h' : AttrHistory} {w : AWorld} (hi : AInv root h w) (c : Nat) (hc : c < w.classes.length)
    (kw : List (PStr × PyVal)) (h1 : lineage h' = lineage h) (h2 : classOwn root h' = classOwn root h)
    (h3 : ∀ j, madeOf h' j = if w.objs.length = j then c else madeOf h j)
    (h4 : ∀ j k', objectOwn root h' j k' = if w.objs.length = j then lastGiven kw k' else objectOwn root h j k') :
    AInv root h' ⟨w.classes, w.objs ++ [(c, kw.foldl (fun d p => dictPut d p.1 p.2) [])]⟩ := by
  obtain ⟨⟨a, b, d, e, e'⟩, ⟨f, g, l⟩⟩ := hi
  have hz : ∀ (j : Nat) (o o' : Nat × PyDict PStr PyVal), (w.objs ++ [o'])[j]? = some o →
      (w.objs.length ≠ j ∧ w.objs[j]? = some o) ∨ (w.objs.length = j ∧ o = o') := by
    intro j o o' ho
    rcases Nat.lt_trichotomy j w.objs.length with hj | hj | hj
    · left
      rw [List.getElem?_append_left hj] at ho
      exact ⟨by omega, ho⟩
    · right
      subst hj
      simp at ho
      exact ⟨rfl, ho.symm⟩
    · rw [List.getElem?_eq_none (by simp; omega)] at ho
      cases ho
  refine ⟨⟨a, by rw [h2]; exact b, by rw [h1]; exact d, by rw [h2]; exact e, e'⟩, ⟨?_, ?_, ?_⟩⟩
  · intro j o ho
    rw [h3]
    rcases hz j o _ ho with ⟨hn, hw⟩ | ⟨hj, rfl⟩
    · simp only [hn, ↓reduceIte]; exact f j o hw
    · simp only [hj, ↓reduceIte]; exact ⟨trivial, hc⟩
  · intro j o ho k'
    rw [h4]
    rcases hz j o _ ho with ⟨hn, hw⟩ | ⟨hj, rfl⟩
    · simp only [hn, ↓reduceIte]; exact g j o hw k'
    · simp only [hj, ↓reduceIte]
      rw [foldl_get (fun v => v)]
      cases lastGiven kw k' <;> rfl
  · intro j o ho
    rcases hz j o _ ho with ⟨hn, hw⟩ | ⟨hj, rfl⟩
    · exact l j o hw
    · exact foldl_nodup kw [] (by simp [dictKeys])

/-- a new class -/
theorem inv_sub {root : PyDict PStr Slot} {h h' : AttrHistory} {w : AWorld} (hi : AInv root h w) (c : Nat) (hc : c < w.classes.length)
    (kw : List (PStr × PyVal)) (h1 : ∀ j, lineage h' j = if w.classes.length = j then j :: lineage h c else lineage h j)
    (h2 : ∀ j k', classOwn root h' j k' = if w.classes.length = j then lastGiven kw k' else classOwn root h j k')
    (h3 : madeOf h' = madeOf h) (h4 : objectOwn root h' = objectOwn root h) :
    AInv root h' ⟨w.classes ++ [⟨some c, kw.foldl (fun d p => dictPut d p.1 (.plain p.2)) []⟩], w.objs⟩ := by
  obtain ⟨⟨a, b, d, e, e'⟩, ⟨f, g, l⟩⟩ := hi
  have hz : ∀ (j : Nat) (o o' : AClass), (w.classes ++ [o'])[j]? = some o →
      (j < w.classes.length ∧ w.classes[j]? = some o) ∨ (w.classes.length = j ∧ o = o') := by
    intro j o o' ho
    rcases Nat.lt_trichotomy j w.classes.length with hj | hj | hj
    · left
      rw [List.getElem?_append_left hj] at ho
      exact ⟨hj, ho⟩
    · right
      subst hj
      simp at ho
      exact ⟨rfl, ho.symm⟩
    · rw [List.getElem?_eq_none (by simp; omega)] at ho
      cases ho
  have hlow : ∀ j, j < w.classes.length → lineage h' j = lineage h j := by
    intro j hj
    rw [h1, if_neg (by omega)]
  refine ⟨⟨by simp, ?_, ?_, ?_, ?_⟩, ⟨?_, by rw [h4]; exact g, l⟩⟩
  · intro j o ho k'
    rw [h2]
    rcases hz j o _ ho with ⟨hn, hw⟩ | ⟨hj, rfl⟩
    · rw [if_neg (by omega)]; exact b j o hw k'
    · rw [if_pos hj, foldl_get Slot.plain]
      have : j ≠ 0 := by omega
      cases lastGiven kw k' <;> simp [this, dictGet]
  · intro j o ho
    rcases hz j o _ ho with ⟨hn, hw⟩ | ⟨hj, rfl⟩
    · rw [hlow j hn, d j o hw]
      rcases e' j o hw with ⟨hb, _⟩ | ⟨p, hb, hp⟩
      · rw [hb]
      · rw [hb]
        simp only []
        rw [hlow p (by omega)]
    · rw [h1, if_pos hj]
      simp only []
      rw [hlow c hc]
  · intro k' v hk
    rw [h2, if_neg (by omega)]
    exact e k' v hk
  · intro j o ho
    rcases hz j o _ ho with ⟨hn, hw⟩ | ⟨hj, rfl⟩
    · exact e' j o hw
    · right; exact ⟨c, rfl, by omega⟩
  · intro i o ho
    rw [h3]
    have := f i o ho
    exact ⟨this.1, by simp; omega⟩

theorem inv_step (g : Getters) {root : PyDict PStr Slot} {h : AttrHistory} {w : AWorld} (hi : AInv root h w) (op : AttrOp) :
    AInv root ((op, (attrStep g w op).2) :: h) (attrStep g w op).1 := by
  cases op with
  | subclass c ov =>
    simp only [attrStep]
    split
    · rename_i hc
      rw [usingLoop_eq g ov _ _ (by simp)]
      split
      · rename_i w' hw
        split at hw
        · cases hw
          rw [foldl_class_last]
          exact inv_sub hi c hc ov (fun j => by simp only [lineage]) (fun j k' => rfl) rfl rfl
        · cases hw
      · exact hi.same rfl rfl rfl rfl
    · exact hi.same rfl rfl rfl rfl
  | make c kw =>
    simp only [attrStep]
    split
    · rename_i hc
      rw [initLoop_eq g kw _ _ (by simp)]
      split
      · rename_i w' hw
        split at hw
        · cases hw
          rw [foldl_put_last]
          exact inv_make hi c hc kw rfl rfl (fun j => rfl) (fun j k' => rfl)
        · cases hw
      · exact hi.same rfl rfl rfl rfl
    · exact hi.same rfl rfl rfl rfl
  | get i k =>
    simp only [attrStep]
    split
    · rename_i hl
      obtain ⟨h1, h2⟩ := getAttr_spec g hi hl k
      obtain ⟨hv, ht, hc⟩ := vars_spec hi hl
      simp only []
      rw [h1, h2]
      by_cases hlz : isLazy root h (madeOf h i) k = true
      · have hroot : dictGet root k = some .lazy ∧ classValue root h (madeOf h i) k = none := by
          unfold isLazy at hlz
          split at hlz
          · rename_i hr
            exact ⟨hr, by simpa using hlz⟩
          · cases hlz
        cases ho : objectOwn root h i k with
        | none =>
          have hr : readObject g root w h i k = .ok (g.inst k w i) := by simp [readObject, ho, hroot, fallback]
          rw [hr, if_pos ⟨hlz, rfl⟩]
          refine inv_put hi i k _ rfl rfl rfl ?_
          intro j k'
          simp only [Except.map, objectOwn]
          by_cases hj : i = j ∧ k = k'
          · obtain ⟨rfl, rfl⟩ := hj
            simp [hlz]
          · rw [if_neg hj, if_neg (fun hh => hj ⟨hh.1, hh.2.1⟩)]
        | some v =>
          have hr : readObject g root w h i k = .ok v := by simp [readObject, ho]
          rw [hr, if_neg (by simp)]
          refine hi.same rfl rfl rfl ?_
          funext j k'
          simp only [Except.map, objectOwn]
          split
          · rename_i hh
            obtain ⟨rfl, rfl, _⟩ := hh
            exact ho.symm
          · rfl
      · rw [if_neg (by simp [hlz])]
        refine hi.same ?_ ?_ ?_ ?_
        · cases readObject g root w h i k <;> rfl
        · cases readObject g root w h i k <;> rfl
        · cases readObject g root w h i k <;> rfl
        · cases readObject g root w h i k with
          | error e => rfl
          | ok v =>
            funext j k'
            simp only [Except.map, objectOwn]
            rw [if_neg]
            rintro ⟨rfl, rfl, hh⟩
            exact hlz hh
    · exact hi.same rfl rfl rfl rfl
  | set i k v =>
    simp only [attrStep]
    split
    · rw [setAttr_eq]
      exact inv_put hi i k v rfl rfl rfl (fun j k' => rfl)
    · exact hi.same rfl rfl rfl rfl
  | del i k =>
    simp only [attrStep]
    split
    · unfold delAttr
      split
      · exact inv_drop hi i k rfl rfl rfl (fun j k' => rfl)
      · exact hi.same rfl rfl rfl rfl
    · exact hi.same rfl rfl rfl rfl
  | getClass c k =>
    simp only [attrStep]
    exact hi.same rfl rfl rfl rfl
  | setClass c k v =>
    simp only [attrStep]
    split
    · exact inv_class hi c k v rfl (fun j k' => rfl) rfl rfl
    · exact hi.same rfl rfl rfl rfl

theorem inv_run (g : Getters) {root : PyDict PStr Slot} (ops : List AttrOp) : ∀ (w : AWorld) (h : AttrHistory), AInv root h w →
    AInv root (attrRun g w h ops).2 (attrRun g w h ops).1 := by
  induction ops with
  | nil => intro w h hi; exact hi
  | cons op ops ih => intro w h hi; exact ih _ _ (inv_step g hi op)

/-! ### what the loops accept -/

theorem getClass_spec (g : Getters) {root : PyDict PStr Slot} {h : AttrHistory} {w : AWorld} (hi : AInv root h w) {c : Nat} (hc : c < w.classes.length)
    (k : PStr) : getClassAttr g w c k = readClass g root w h c k := by
  unfold getClassAttr readClass
  rw [lookup_spec hi.cls k c hc]
  cases hv : classValue root h c k with
  | some v => rfl
  | none =>
    simp only []
    cases hr : dictGet root k with
    | none => rfl
    | some s =>
      cases s with
      | plain v => exact absurd hv (classValue_root hi.cls hr c hc)
      | _ => rfl

theorem lookup_ext {w w' : AWorld} (n : Nat) (h : ∀ c, c < n → w'.classes[c]? = w.classes[c]?) (k : PStr) : ∀ c, c < n → typeLookup w' c k = typeLookup w c k := by
  intro c
  induction c using Nat.strongRecOn with
  | ind c ih =>
    intro hc
    rw [typeLookup.eq_def, typeLookup.eq_def w, h c hc]
    cases w.classes[c]? with
    | none => rfl
    | some cl =>
      simp only []
      cases dictGet cl.dict k with
      | some s => rfl
      | none =>
        simp only []
        cases cl.base with
        | none => rfl
        | some q =>
          simp only []
          split
          · exact ih q (by assumption) (by omega)
          · rfl

theorem lookup_new (w : AWorld) {c : Nat} (hc : c < w.classes.length) (k : PStr) :
    typeLookup { w with classes := w.classes ++ [⟨some c, []⟩] } w.classes.length k = typeLookup w c k := by
  rw [typeLookup.eq_def]
  simp only [List.getElem?_concat_length, dictGet, hc, ↓reduceDIte]
  exact lookup_ext w.classes.length (fun c hc => List.getElem?_append_left hc) k c hc

theorem sees_new (w : AWorld) (c : Nat) (k : PStr) :
    sees { w with objs := w.objs ++ [(c, [])] } w.objs.length k = match typeLookup w c k with
      | some .cloner => false
      | some _ => true
      | .none => false := by
  have h' : ∀ d, typeLookup { w with objs := w.objs ++ [(c, [])] } d k = typeLookup w d k :=
    fun d => lookup_ext (w := w) (w' := { w with objs := w.objs ++ [(c, [])] }) (d + 1) (fun _ _ => rfl) k d (by omega)
  have hv : AWorld.vars { w with objs := w.objs ++ [(c, [])] } w.objs.length = [] := by simp [AWorld.vars]
  have ht : AWorld.typeOf { w with objs := w.objs ++ [(c, [])] } w.objs.length = c := by simp [AWorld.typeOf]
  unfold sees
  rw [hv, ht, h']
  rfl

/-! ### lengths, and values that stay -/

theorem len_step (g : Getters) (w : AWorld) (op : AttrOp) : w.objs.length ≤ (attrStep g w op).1.objs.length := by
  cases op with
  | subclass c ov =>
    simp only [attrStep]
    split
    · rw [usingLoop_eq g ov _ _ (by simp)]
      split
      · rename_i w' hw
        split at hw
        · cases hw
          rw [foldl_class_last]
          exact Nat.le_refl _
        · cases hw
      · exact Nat.le_refl _
    · exact Nat.le_refl _
  | make c kw =>
    simp only [attrStep]
    split
    · rw [initLoop_eq g kw _ _ (by simp)]
      split
      · rename_i w' hw
        split at hw
        · cases hw
          rw [foldl_put_last]
          simp
        · cases hw
      · exact Nat.le_refl _
    · exact Nat.le_refl _
  | get i k =>
    simp only [attrStep]
    split
    · rcases (isOk_get g w i k).2 with h | h <;> simp [h, AWorld.put]
    · exact Nat.le_refl _
  | set i k v => simp only [attrStep]; split <;> simp [setAttr_eq, AWorld.put]
  | del i k =>
    simp only [attrStep]
    split
    · unfold delAttr; split <;> simp [AWorld.drop]
    · exact Nat.le_refl _
  | getClass c k => exact Nat.le_refl _
  | setClass c k v => simp only [attrStep]; split <;> simp [setClassAttr]

theorem made_number (g : Getters) (w : AWorld) (c : Nat) (kw : List (PStr × PyVal)) (n : Nat) (h : (attrStep g w (.make c kw)).2 = .ok (.made n)) :
    n = w.objs.length := by
  simp only [attrStep] at h
  split at h
  · split at h <;> simp at h
    exact h.symm
  · simp at h

/-- an own value stays unless it is assigned or deleted -/
theorem own_step (g : Getters) {root : PyDict PStr Slot} {h : AttrHistory} {w : AWorld} (hi : AInv root h w) {i : Nat} (hl : i < w.objs.length) {k : PStr}
    {v : PyVal} (ho : objectOwn root h i k = some v) (op : AttrOp) (hs : ∀ u, op ≠ .set i k u) (hd : op ≠ .del i k) :
    objectOwn root ((op, (attrStep g w op).2) :: h) i k = some v := by
  cases op with
  | subclass c ov => exact ho
  | getClass c k => exact ho
  | setClass c k v => exact ho
  | make c kw =>
    cases hr : (attrStep g w (.make c kw)).2 with
    | error e => exact ho
    | ok x =>
      cases x with
      | made n =>
        have := made_number g w c kw n hr
        simp only [objectOwn]
        rw [if_neg (by omega)]
        exact ho
      | _ => exact ho
  | set j k' u =>
    cases (attrStep g w (.set j k' u)).2 with
    | error e => exact ho
    | ok x =>
      simp only [objectOwn]
      rw [if_neg]
      · exact ho
      · rintro ⟨rfl, rfl⟩
        exact hs u rfl
  | del j k' =>
    cases (attrStep g w (.del j k')).2 with
    | error e => exact ho
    | ok x =>
      simp only [objectOwn]
      rw [if_neg]
      · exact ho
      · rintro ⟨rfl, rfl⟩
        exact hd rfl
  | get j k' =>
    cases hr : (attrStep g w (.get j k')).2 with
    | error e => exact ho
    | ok x =>
      cases x with
      | val u =>
        simp only [objectOwn]
        split
        · rename_i hh
          obtain ⟨rfl, rfl, _⟩ := hh
          simp only [attrStep, if_pos hl, (getAttr_spec g hi hl k').1, readObject, ho, Except.map] at hr
          injection hr with hr
          injection hr with hr
          rw [hr]
        · exact ho
      | _ => exact ho

theorem own_run (g : Getters) {root : PyDict PStr Slot} {i : Nat} {k : PStr} {v : PyVal} (ops : List AttrOp) : ∀ (w : AWorld) (h : AttrHistory),
    AInv root h w → i < w.objs.length → objectOwn root h i k = some v → (∀ u, .set i k u ∉ ops) → .del i k ∉ ops →
    objectOwn root (attrRun g w h ops).2 i k = some v ∧ i < (attrRun g w h ops).1.objs.length := by
  induction ops with
  | nil => intro w h _ hl ho _ _; exact ⟨ho, hl⟩
  | cons op ops ih =>
    intro w h hi hl ho hs hd
    refine ih _ _ (inv_step g hi op) (Nat.lt_of_lt_of_le hl (len_step g w op)) ?_ ?_ ?_
    · exact own_step g hi hl ho op (fun u e => hs u (by simp [e])) (fun e => hd (by simp [e]))
    · intro u hu
      exact hs u (by simp [hu])
    · intro hu
      exact hd (by simp [hu])

theorem del_spec (g : Getters) {root : PyDict PStr Slot} {h : AttrHistory} {w : AWorld} (hi : AInv root h w) {i : Nat} (hl : i < w.objs.length)
    (k : PStr) : (objectOwn root h i k ≠ none → (attrStep g w (.del i k)).2 = .ok .done) ∧
      (objectOwn root h i k = none → (attrStep g w (.del i k)).2 = .error .attribute) := by
  simp only [attrStep, if_pos hl, delAttr, (vars_spec hi hl).1 k]
  cases objectOwn root h i k <;> simp [Except.map]

theorem make_spec (g : Getters) {root : PyDict PStr Slot} {hs : AttrHistory} {w : AWorld} (hi : AInv root hs w) {c : Nat} (hc : c < w.classes.length)
    (kw : List (PStr × PyVal)) :
    ((∀ p ∈ kw, TakesKeyword root hs c p.1) → (attrStep g w (.make c kw)).2 = .ok (.made w.objs.length)) ∧
    ((¬ ∀ p ∈ kw, TakesKeyword root hs c p.1) → (attrStep g w (.make c kw)).2 = .error .type) := by
  have this : ∀ k, sees { w with objs := w.objs ++ [(c, [])] } w.objs.length k = true ↔ TakesKeyword root hs c k := by
    intro k
    rw [sees_new, lookup_spec hi.cls k c hc, TakesKeyword]
    cases classValue root hs c k with
    | some v => simp
    | none =>
      cases dictGet root k with
      | none => simp
      | some s => cases s <;> simp
  simp only [attrStep, if_pos hc, initLoop_eq g kw _ _ (show w.objs.length < ({ w with objs := w.objs ++ [(c, [])] } : AWorld).objs.length by simp)]
  have key : (∀ p ∈ kw, sees { w with objs := w.objs ++ [(c, [])] } w.objs.length p.1 = true) ↔ ∀ p ∈ kw, TakesKeyword root hs c p.1 := by simp only [this]
  exact ⟨fun h => by rw [if_pos (key.mpr h)], fun h => by rw [if_neg (fun h' => h (key.mp h'))]⟩

theorem using_spec (g : Getters) {root : PyDict PStr Slot} {hs : AttrHistory} {w : AWorld} (hi : AInv root hs w) {c : Nat} (hc : c < w.classes.length)
    (ov : List (PStr × PyVal)) :
    ((∀ p ∈ ov, TakesOverride root hs c p.1) → (attrStep g w (.subclass c ov)).2 = .ok (.made w.classes.length)) ∧
    ((¬ ∀ p ∈ ov, TakesOverride root hs c p.1) → (attrStep g w (.subclass c ov)).2 = .error .type) := by
  have this : ∀ k, (typeLookup { w with classes := w.classes ++ [⟨some c, []⟩] } w.classes.length k).isSome = true ↔ TakesOverride root hs c k := by
    intro k
    rw [lookup_new w hc, lookup_spec hi.cls k c hc, TakesOverride]
    cases classValue root hs c k with
    | some v => simp
    | none => cases dictGet root k <;> simp
  have key : (∀ p ∈ ov, (typeLookup { w with classes := w.classes ++ [⟨some c, []⟩] } w.classes.length p.1).isSome = true) ↔
      ∀ p ∈ ov, TakesOverride root hs c p.1 := by simp only [this]
  simp only [attrStep, if_pos hc,
    usingLoop_eq g ov _ _ (show w.classes.length < ({ w with classes := w.classes ++ [⟨some c, []⟩] } : AWorld).classes.length by simp)]
  exact ⟨fun h => by rw [if_pos (key.mpr h)], fun h => by rw [if_neg (fun h' => h (key.mp h'))]⟩

end Flatland
