import Verif.Model.RefForm
import Verif.Props.RefChain
/-! C53: forms with Refs. -/
namespace Flatland
open Spec

namespace Spec
/-- setting a scalar of the class to the value raises nothing: it is taken or refused -/
def TakenOrRefused [Runtime] (t : ScalarType) (v : PyVal) : Prop :=
  (∀ st, ∃ b, (scalarSet t st v).2 = .ok b) ∧ ∀ e, t.adapt v = .error e → e = .adaptation

/-- a field of a form takes a value: a scalar as its class does, a Ref as the class of its target does -/
def TakenBy [Runtime] (fields : List RefField) : RefField → PyVal → Prop
  | .scalar _ t, v => (scalarSet t .fresh v).2 = .ok true
  | .ref _ _ k, v => (scalarSet (fieldType fields k) .fresh v).2 = .ok true

/-- the first value submitted under a name -/
def firstFor (name : PStr) (pairs : List (PStr × PStr)) : Option PStr := (pairs.find? fun p => p.1 = name).map Prod.snd
end Spec

section
variable [Runtime]

theorem chainSet_types (f : ChainForm) (n : Nat) (w : Writable) (v : PyVal) : (chainSet f n [w] v).1.types = f.types := by
  unfold chainSet
  simp only [chainAdapt_eq, chainSerialize_eq]
  cases w <;> simp only [chainThen, chainSetValue, chainSetU]
  all_goals
    cases ha : (f.types n).adapt v with
    | error e => cases e <;> rfl
    | ok x =>
      cases x <;> simp only []
      all_goals first | rfl | (split <;> rfl)

omit [Runtime] in
theorem find_none_of_notMem {name : PStr} {pairs : List (PStr × PStr)} (h : name ∉ pairs.map Prod.fst) :
    pairs.find? (fun p => p.1 = name) = none := by
  rw [List.find?_eq_none]
  intro p hp hc
  exact h (List.mem_map.2 ⟨p, hp, by simpa using hc⟩)

theorem refForm_ignored (pairs : List (PStr × PStr)) : ∀ (fields : List RefField) (i : Nat) (f : ChainForm),
    (∀ n wr k, .ref n wr k ∈ fields → wr = .ignore ∨ n ∉ pairs.map Prod.fst) →
    (∀ n x, TakenOrRefused (f.types n) (.str x)) → (∀ n t, .scalar n t ∈ fields → ∀ x, TakenOrRefused t (.str x)) →
    (refFormFlat pairs fields i f).2 = .ok () ∧ (∀ k, k < i → (refFormFlat pairs fields i f).1.cells k = f.cells k) ∧
    ∀ j n t, fields[j]? = some (.scalar n t) → (refFormFlat pairs fields i f).1.cells (i + j) = match firstFor n pairs with
      | .none => f.cells (i + j)
      | some x => (scalarSet t (f.cells (i + j)) (.str x)).1 := by
  intro fields
  induction fields with
  | nil => intro i f _ _ _; exact ⟨rfl, fun _ _ => rfl, fun j n t h => by simp at h⟩
  | cons fd rest ih =>
    intro i f hr hT hS
    have hr' : ∀ n wr k, .ref n wr k ∈ rest → wr = .ignore ∨ n ∉ pairs.map Prod.fst := fun n wr k hm => hr n wr k (by simp [hm])
    have hS' : ∀ n t, .scalar n t ∈ rest → ∀ x, TakenOrRefused t (.str x) := fun n t hm => hS n t (by simp [hm])
    cases hf : pairs.find? (fun p => p.1 = fd.name) with
    | none =>
      simp only [refFormFlat, hf]
      obtain ⟨h1, h2, h3⟩ := ih (i + 1) f hr' hT hS'
      refine ⟨h1, fun k hk => h2 k (by omega), ?_⟩
      intro j n t hj
      cases j with
      | zero =>
        simp at hj
        subst hj
        rw [firstFor, show pairs.find? (fun p => p.1 = n) = none from hf]
        exact h2 i (by omega)
      | succ j =>
        have := h3 j n t (by simpa using hj)
        rwa [show i + 1 + j = i + (j + 1) by omega] at this
    | some p =>
      simp only [refFormFlat, hf]
      cases fd with
      | scalar n t =>
        obtain ⟨b, hb⟩ := (hS n t (by simp) p.2).1 (f.cells i)
        simp only [refFormSet, hb]
        obtain ⟨h1, h2, h3⟩ := ih (i + 1) { f with cells := fun k => if k = i then (scalarSet t (f.cells i) (.str p.2)).1 else f.cells k } hr' hT hS'
        refine ⟨h1, fun k hk => (h2 k (by omega)).trans (by simp [Nat.ne_of_lt hk]), ?_⟩
        intro j n' t' hj
        cases j with
        | zero =>
          simp at hj
          obtain ⟨rfl, rfl⟩ := hj
          rw [firstFor, show pairs.find? (fun p => p.1 = n) = some p from hf]
          exact (h2 i (by omega)).trans (by simp)
        | succ j =>
          have := h3 j n' t' (by simpa using hj)
          rw [show i + 1 + j = i + (j + 1) by omega] at this
          simpa [show i + (j + 1) ≠ i by omega] using this
      | ref n wr k =>
        have hw : wr = .ignore := by
          refine (hr n wr k (by simp)).resolve_right fun hn => hn ?_
          have h1 := List.find?_some hf
          have h2 := List.mem_of_find?_eq_some hf
          exact List.mem_map.2 ⟨p, h2, of_decide_eq_true h1⟩
        subst hw
        obtain ⟨h1, h2, _, _⟩ := C53_chain_first f k [] [] .ignore (by simp) (by simp) (.str p.2)
        obtain ⟨b, hb⟩ := (hT k p.2).1 (f.cells k)
        have he : chainSet f k [.ignore] (.str p.2) = (f, .ok b) := Prod.ext h1 ((h2 rfl).trans hb)
        simp only [refFormSet, he]
        obtain ⟨h1, h2, h3⟩ := ih (i + 1) f hr' hT hS'
        refine ⟨h1, fun k hk => h2 k (by omega), ?_⟩
        intro j n' t hj
        cases j with
        | zero => simp at hj
        | succ j =>
          have := h3 j n' t (by simpa using hj)
          rwa [show i + 1 + j = i + (j + 1) by omega] at this

theorem string_takes (v : PyVal) : TakenOrRefused (stringType true) v := by
  refine ⟨fun st => ⟨true, ?_⟩, fun e h => ?_⟩
  · cases v <;> simp [scalarSet, stringType]
  · cases v <;> simp [stringType] at h

theorem fieldType_takes {fields : List RefField} (hS : ∀ n t, .scalar n t ∈ fields → ∀ x, TakenOrRefused t (.str x)) (i : Nat) (x : PStr) :
    TakenOrRefused (fieldType fields i) (.str x) := by
  unfold fieldType
  split
  · rename_i n t h
    exact hS n t (List.mem_of_getElem? h) x
  · exact string_takes _

/-- **C53 (forms).** A submission for a form with Refs that names no Ref, or only such as ignore writes, sets the other fields as if the Refs were not there: each to the first
value under its name, and raises nothing. -/
theorem C53_form_submitted (fields : List RefField) (pairs : List (PStr × PStr))
    (hr : ∀ n wr k, .ref n wr k ∈ fields → wr = .ignore ∨ n ∉ pairs.map Prod.fst)
    (hS : ∀ n t, .scalar n t ∈ fields → ∀ x, TakenOrRefused t (.str x)) :
    (refFormFromFlat fields pairs).2 = .ok () ∧ ∀ j n t, fields[j]? = some (.scalar n t) →
      (refFormFromFlat fields pairs).1.cells j = match firstFor n pairs with
        | .none => .fresh
        | some x => (scalarSet t .fresh (.str x)).1 := by
  obtain ⟨h1, _, h3⟩ := refForm_ignored pairs fields 0 (refFormNew fields) hr (fieldType_takes hS) hS
  refine ⟨h1, fun j n t hj => ?_⟩
  have := h3 j n t hj
  rw [Nat.zero_add] at this
  exact this

omit [Runtime] in
theorem refFormPairs_names (f : ChainForm) : ∀ (fields : List RefField) (i : Nat) (n : PStr), n ∈ (refFormPairs f fields i).map Prod.fst →
    ∃ t, .scalar n t ∈ fields := by
  intro fields
  induction fields with
  | nil => intro i n h; simp [refFormPairs] at h
  | cons fd rest ih =>
    intro i n h
    cases fd with
    | scalar m t =>
      simp only [refFormPairs, List.map_cons, List.mem_cons] at h
      rcases h with rfl | h
      · exact ⟨t, by simp⟩
      · obtain ⟨t', h'⟩ := ih _ _ h; exact ⟨t', by simp [h']⟩
    | ref m wr k =>
      obtain ⟨t', h'⟩ := ih _ _ h; exact ⟨t', by simp [h']⟩

omit [Runtime] in
theorem refFields_distinct {fields : List RefField} (hn : (fields.map RefField.name).Nodup) {a b : RefField} (ha : a ∈ fields) (hb : b ∈ fields)
    (h : a.name = b.name) : a = b := by
  induction fields with
  | nil => simp at ha
  | cons fd rest ih =>
    simp only [List.map_cons, List.nodup_cons] at hn
    rcases List.mem_cons.1 ha with rfl | ha' <;> rcases List.mem_cons.1 hb with rfl | hb'
    · rfl
    · exact absurd (List.mem_map.2 ⟨b, hb', h.symm⟩) hn.1
    · exact absurd (List.mem_map.2 ⟨a, ha', h⟩) hn.1
    · exact ih hn.2 ha' hb'

omit [Runtime] in
theorem refFormPairs_first (f : ChainForm) : ∀ (fields : List RefField) (i : Nat), (fields.map RefField.name).Nodup → ∀ j n t,
    fields[j]? = some (.scalar n t) → firstFor n (refFormPairs f fields i) = some (f.cells (i + j)).u := by
  intro fields
  induction fields with
  | nil => intro i _ j n t h; simp at h
  | cons fd rest ih =>
    intro i hn j n t hj
    simp only [List.map_cons, List.nodup_cons] at hn
    cases j with
    | zero =>
      simp at hj
      subst hj
      simp [refFormPairs, firstFor]
    | succ j =>
      have hj' : rest[j]? = some (.scalar n t) := by simpa using hj
      have h := ih (i + 1) hn.2 j n t hj'
      rw [show i + 1 + j = i + (j + 1) by omega] at h
      cases fd with
      | ref m wr k => exact h
      | scalar m t' =>
        have hne : m ≠ n := by
          rintro rfl
          exact hn.1 (List.mem_map.2 ⟨_, List.mem_of_getElem? hj', rfl⟩)
        simpa [refFormPairs, firstFor, hne] using h

/-- **C53 (forms).** What a form with Refs flattens to can always be submitted again, whatever its Refs may write: it does not name them, so nothing is raised and every
other field is set from its own text. -/
theorem C53_form_sent_back (fields : List RefField) (hn : (fields.map RefField.name).Nodup) (f : ChainForm)
    (hS : ∀ n t, .scalar n t ∈ fields → ∀ x, TakenOrRefused t (.str x)) :
    (refFormFromFlat fields (refFormPairs f fields 0)).2 = .ok () ∧ ∀ j n t, fields[j]? = some (.scalar n t) →
      (refFormFromFlat fields (refFormPairs f fields 0)).1.cells j = (scalarSet t .fresh (.str (f.cells j).u)).1 := by
  have hr : ∀ n wr k, .ref n wr k ∈ fields → wr = .ignore ∨ n ∉ (refFormPairs f fields 0).map Prod.fst := by
    intro n wr k hm
    refine .inr fun hc => ?_
    obtain ⟨t, ht⟩ := refFormPairs_names f fields 0 n hc
    cases refFields_distinct hn hm ht rfl
  obtain ⟨h1, h2⟩ := C53_form_submitted fields (refFormPairs f fields 0) hr hS
  refine ⟨h1, fun j n t hj => ?_⟩
  have h3 := refFormPairs_first f fields 0 hn j n t hj
  rw [Nat.zero_add] at h3
  have := h2 j n t hj
  rwa [h3] at this

theorem chainSet_taken {f : ChainForm} {n : Nat} {v : PyVal} (h : TakenOrRefused (f.types n) v) (w : Writable) :
    (w ≠ .no → ∃ b, (chainSet f n [w] v).2 = .ok b) ∧ (w = .no → (chainSet f n [w] v).2 = .error .type) := by
  obtain ⟨b, hb⟩ := h.1 (f.cells n)
  cases w with
  | yes => exact ⟨fun _ => ⟨b, (C53_chain_writes f n [.yes] (by simp) (by simp) v).1.trans hb⟩, by simp⟩
  | ignore => exact ⟨fun _ => ⟨b, ((C53_chain_first f n [] [] .ignore (by simp) (by simp) v).2.1 rfl).trans hb⟩, by simp⟩
  | no => exact ⟨by simp, fun _ => (C53_chain_first f n [] [] .no (by simp) (by simp) v).2.2.1 rfl h.2⟩

theorem refForm_refused (pairs : List (PStr × PStr)) : ∀ (fields : List RefField) (i : Nat) (f : ChainForm),
    (∀ n x, TakenOrRefused (f.types n) (.str x)) → (∀ n t, .scalar n t ∈ fields → ∀ x, TakenOrRefused t (.str x)) →
    (∃ n k, .ref n .no k ∈ fields ∧ n ∈ pairs.map Prod.fst) → (refFormFlat pairs fields i f).2 = .error .type := by
  intro fields
  induction fields with
  | nil => rintro i f _ _ ⟨n, k, h, _⟩; simp at h
  | cons fd rest ih =>
    rintro i f hT hS ⟨n, k, hm, hn⟩
    have hS' : ∀ n t, .scalar n t ∈ rest → ∀ x, TakenOrRefused t (.str x) := fun n t hm => hS n t (by simp [hm])
    have hrest : fd ≠ .ref n .no k → ∃ n k, .ref n .no k ∈ rest ∧ n ∈ pairs.map Prod.fst := fun hne =>
      ⟨n, k, (List.mem_cons.1 hm).resolve_left fun e => hne e.symm, hn⟩
    cases hf : pairs.find? (fun p => p.1 = fd.name) with
    | none =>
      simp only [refFormFlat, hf]
      refine ih (i + 1) f hT hS' (hrest ?_)
      rintro rfl
      rw [List.find?_eq_none] at hf
      obtain ⟨p, hp, rfl⟩ := List.mem_map.1 hn
      exact hf p hp (decide_eq_true rfl)
    | some p =>
      simp only [refFormFlat, hf]
      cases fd with
      | scalar m t =>
        obtain ⟨b, hb⟩ := (hS m t (by simp) p.2).1 (f.cells i)
        simp only [refFormSet, hb]
        exact ih (i + 1) _ hT hS' (hrest (by simp))
      | ref m wr j =>
        obtain ⟨h1, h2⟩ := chainSet_taken (hT j p.2) wr
        by_cases hw : wr = .no
        · have := h2 hw
          simp only [refFormSet]
          rcases hc : chainSet f j [wr] (.str p.2) with ⟨f', r⟩
          rw [hc] at this
          simp only at this
          rw [this]
        · obtain ⟨b, hb⟩ := h1 hw
          have ht := chainSet_types f j wr (.str p.2)
          simp only [refFormSet]
          rcases hc : chainSet f j [wr] (.str p.2) with ⟨f', r⟩
          rw [hc] at hb ht
          simp only at hb ht
          rw [hb]
          exact ih (i + 1) f' (by rw [ht]; exact hT) hS' (hrest (by rintro ⟨⟩; exact hw rfl))

/-- **C53 (forms).** A submission that names a Ref which is not writable makes the form raise TypeError, wherever the Ref stands in it and whatever else is submitted. -/
theorem C53_form_raises (fields : List RefField) (pairs : List (PStr × PStr)) (hS : ∀ n t, .scalar n t ∈ fields → ∀ x, TakenOrRefused t (.str x))
    (h : ∃ n k, .ref n .no k ∈ fields ∧ n ∈ pairs.map Prod.fst) : (refFormFromFlat fields pairs).2 = .error .type :=
  refForm_refused pairs fields 0 _ (fieldType_takes hS) hS h

omit [Runtime] in
theorem fieldNamed_mem {key : PStr} {fields : List RefField} (h : key ∈ fields.map RefField.name) : ∀ i, ∃ j fd, fieldNamed key fields i = some (j, fd) ∧ fd ∈ fields ∧ fd.name = key := by
  induction fields with
  | nil => simp at h
  | cons fd rest ih =>
    intro i
    by_cases hk : fd.name = key
    · exact ⟨i, fd, by simp [fieldNamed, hk], by simp, hk⟩
    · have h' : key ∈ rest.map RefField.name := by
        rcases List.mem_cons.1 h with e | h'
        · exact absurd e.symm hk
        · exact h'
      obtain ⟨j, fd', h1, h2, h3⟩ := ih h' (i + 1)
      exact ⟨j, fd', by simp [fieldNamed, hk, h1], by simp [h2], h3⟩

omit [Runtime] in
theorem refFormValue_keys (f : ChainForm) : ∀ (fields : List RefField) (i : Nat), (refFormValue f fields i).map Prod.fst = fields.map RefField.name := by
  intro fields
  induction fields with
  | nil => intro i; rfl
  | cons fd rest ih => intro i; cases fd <;> simp [refFormValue, RefField.name, ih]

theorem setPairs_refused (fields : List RefField) (hn : (fields.map RefField.name).Nodup) (n : PStr) (k : Nat) (hm : .ref n .no k ∈ fields) : ∀ (vs : List (PStr × PyVal)) (f : ChainForm) (c : Bool),
    (∀ p ∈ vs, p.1 ∈ fields.map RefField.name) → (∀ p ∈ vs, ∀ i, TakenOrRefused (f.types i) p.2) →
    (∀ m t, .scalar m t ∈ fields → ∀ p ∈ vs, TakenOrRefused t p.2) → n ∈ vs.map Prod.fst → (refFormSetPairs fields vs f c).2 = .error .type := by
  intro vs
  induction vs with
  | nil => intro f c _ _ _ h; simp at h
  | cons p vs ih =>
    intro f c hk hT hS h
    obtain ⟨key, v⟩ := p
    obtain ⟨i, fd, hfd, hmem, hname⟩ := fieldNamed_mem (hk (key, v) (by simp)) 0
    simp only [refFormSetPairs, hfd]
    have hrest : key ≠ n → n ∈ vs.map Prod.fst := by
      intro hne
      rcases List.mem_cons.1 h with e | h'
      · exact absurd e.symm hne
      · exact h'
    cases fd with
    | scalar m t =>
      obtain ⟨b, hb⟩ := (hS m t hmem (key, v) (by simp)).1 (f.cells i)
      simp only [refFormSet, hb]
      refine ih _ _ (fun p hp => hk p (by simp [hp])) (fun p hp => hT p (by simp [hp])) (fun m t hm p hp => hS m t hm p (by simp [hp])) (hrest ?_)
      rintro rfl
      cases refFields_distinct hn hmem hm hname
    | ref m wr j =>
      obtain ⟨h1, h2⟩ := chainSet_taken (hT (key, v) (by simp) j) wr
      by_cases hw : wr = .no
      · have := h2 hw
        simp only [refFormSet]
        rcases hc : chainSet f j [wr] v with ⟨f', r⟩
        rw [hc] at this
        simp only at this
        rw [this]
      · obtain ⟨b, hb⟩ := h1 hw
        have ht := chainSet_types f j wr v
        simp only [refFormSet]
        rcases hc : chainSet f j [wr] v with ⟨f', r⟩
        rw [hc] at hb ht
        simp only at hb ht
        rw [hb]
        refine ih _ _ (fun p hp => hk p (by simp [hp])) (fun p hp => by rw [ht]; exact hT p (by simp [hp])) (fun m t hm p hp => hS m t hm p (by simp [hp])) (hrest ?_)
        rintro rfl
        cases refFields_distinct hn hmem hm hname
        exact hw rfl

/-- **C53 (forms).** A form with a Ref that is not writable cannot be set to its own value: the value has an entry for the Ref, and TypeError is raised. -/
theorem C53_form_own_value (fields : List RefField) (hn : (fields.map RefField.name).Nodup) (f : ChainForm) (n : PStr) (k : Nat) (hm : .ref n .no k ∈ fields)
    (hS : ∀ m t, .scalar m t ∈ fields → ∀ p ∈ refFormValue f fields 0, TakenOrRefused t p.2) :
    (refFormSetAll fields (refFormValue f fields 0)).2 = .error .type := by
  refine setPairs_refused fields hn n k hm _ _ _ ?_ ?_ hS ?_
  · intro p hp
    rw [← refFormValue_keys f fields 0]
    exact List.mem_map.2 ⟨p, hp, rfl⟩
  · intro p hp i
    show TakenOrRefused (fieldType fields i) p.2
    unfold fieldType
    split
    · rename_i m t h
      exact hS m t (List.mem_of_getElem? h) p hp
    · exact string_takes _
  · rw [refFormValue_keys]
    exact List.mem_map.2 ⟨_, hm, rfl⟩

omit [Runtime] in
theorem fieldNamed_name {key : PStr} : ∀ {fields : List RefField} {i j : Nat} {fd : RefField}, fieldNamed key fields i = some (j, fd) → key ∈ fields.map RefField.name := by
  intro fields
  induction fields with
  | nil => intro i j fd h; simp [fieldNamed] at h
  | cons x rest ih =>
    intro i j fd h
    unfold fieldNamed at h
    split at h
    · rename_i hx; simp [hx]
    · exact List.mem_cons_of_mem _ (ih h)

omit [Runtime] in
theorem fieldNamed_at {key : PStr} : ∀ {fields : List RefField} {i j : Nat} {fd : RefField}, fieldNamed key fields i = some (j, fd) → i ≤ j ∧ fields[j - i]? = some fd := by
  intro fields
  induction fields with
  | nil => intro i j fd h; simp [fieldNamed] at h
  | cons x rest ih =>
    intro i j fd h
    unfold fieldNamed at h
    split at h
    · simp at h
      obtain ⟨rfl, rfl⟩ := h
      simp
    · obtain ⟨h1, h2⟩ := ih h
      refine ⟨by omega, ?_⟩
      rw [show j - i = (j - (i + 1)) + 1 by omega]
      simpa using h2

omit [Runtime] in
theorem refFields_position {fields : List RefField} (hn : (fields.map RefField.name).Nodup) {i j : Nat} {a b : RefField} (ha : fields[i]? = some a)
    (hb : fields[j]? = some b) (h : a.name = b.name) : i = j := by
  have h1 : (fields.map RefField.name)[i]? = some a.name := by simp [ha]
  have h2 : (fields.map RefField.name)[j]? = some a.name := by simp [hb, h]
  obtain ⟨hi, _⟩ := List.getElem?_eq_some_iff.1 h1
  exact (List.getElem?_inj hi hn).1 (h1.trans h2.symm)

theorem setPairs_ignored (fields : List RefField) (hn : (fields.map RefField.name).Nodup) (hr : ∀ n wr k, .ref n wr k ∈ fields → wr = .ignore) :
    ∀ (vs : List (PStr × PyVal)) (f : ChainForm) (c : Bool), (∀ p ∈ vs, p.1 ∈ fields.map RefField.name) → (vs.map Prod.fst).Nodup →
    (∀ p ∈ vs, ∀ i, TakenOrRefused (f.types i) p.2) → (∀ m t, .scalar m t ∈ fields → ∀ p ∈ vs, TakenOrRefused t p.2) →
    (∃ b, (refFormSetPairs fields vs f c).2 = .ok b) ∧ ∀ j m t, fields[j]? = some (.scalar m t) →
      (∀ v, (m, v) ∈ vs → (refFormSetPairs fields vs f c).1.cells j = (scalarSet t (f.cells j) v).1) ∧
      (m ∉ vs.map Prod.fst → (refFormSetPairs fields vs f c).1.cells j = f.cells j) := by
  intro vs
  induction vs with
  | nil => intro f c _ _ _ _; exact ⟨⟨c, rfl⟩, fun j m t _ => ⟨fun v h => by simp at h, fun _ => rfl⟩⟩
  | cons p vs ih =>
    intro f c hk hd hT hS
    obtain ⟨key, v⟩ := p
    obtain ⟨i, fd, hfd, hmem, hname⟩ := fieldNamed_mem (hk (key, v) (by simp)) 0
    have hat : fields[i]? = some fd := by simpa using (fieldNamed_at hfd).2
    simp only [refFormSetPairs, hfd]
    simp only [List.map_cons, List.nodup_cons] at hd
    cases fd with
    | scalar m t =>
      obtain ⟨b, hb⟩ := (hS m t hmem (key, v) (by simp)).1 (f.cells i)
      simp only [refFormSet, hb]
      obtain ⟨h1, h2⟩ := ih { f with cells := fun k => if k = i then (scalarSet t (f.cells i) v).1 else f.cells k } (c && b) (fun p hp => hk p (by simp [hp])) hd.2 (fun p hp => hT p (by simp [hp])) (fun m t hm p hp => hS m t hm p (by simp [hp]))
      refine ⟨h1, fun j m' t' hj => ?_⟩
      obtain ⟨h3, h4⟩ := h2 j m' t' hj
      have hname : m = key := hname
      subst hname
      by_cases he : m' = m
      · subst he
        have hij := refFields_position hn hj hat rfl
        subst hij
        rw [hat] at hj
        cases hj
        refine ⟨fun v' hv => ?_, fun h => absurd (by simp) h⟩
        rcases List.mem_cons.1 hv with e | hv
        · cases e
          exact (h4 hd.1).trans (by simp)
        · exact absurd (List.mem_map.2 ⟨_, hv, rfl⟩) hd.1
      · have hij : j ≠ i := by
          rintro rfl
          rw [hat] at hj
          cases hj
          exact he rfl
        refine ⟨fun v' hv => ?_, fun h => ?_⟩
        · have hv' : (m', v') ∈ vs := (List.mem_cons.1 hv).resolve_left fun e => he (by cases e; rfl)
          simpa [hij] using h3 v' hv'
        · simpa [hij] using h4 fun h' => h (by simp only [List.map_cons, List.mem_cons]; exact .inr h')
    | ref m wr k =>
      obtain rfl := hr m wr k hmem
      obtain ⟨h1, h2, _, _⟩ := C53_chain_first f k [] [] .ignore (by simp) (by simp) v
      obtain ⟨b, hb⟩ := (hT (key, v) (by simp) k).1 (f.cells k)
      have he : chainSet f k [.ignore] v = (f, .ok b) := Prod.ext h1 ((h2 rfl).trans hb)
      simp only [refFormSet, he]
      obtain ⟨h1, h2⟩ := ih f (c && b) (fun p hp => hk p (by simp [hp])) hd.2 (fun p hp => hT p (by simp [hp])) (fun m t hm p hp => hS m t hm p (by simp [hp]))
      refine ⟨h1, fun j m' t' hj => ?_⟩
      obtain ⟨h3, h4⟩ := h2 j m' t' hj
      have hne : m' ≠ key := by
        rintro rfl
        have := refFields_distinct hn hmem (List.mem_of_getElem? hj) hname
        cases this
      refine ⟨fun v' hv => h3 v' ((List.mem_cons.1 hv).resolve_left fun e => hne (by cases e; rfl)), fun h => h4 fun h' => h (by simp only [List.map_cons, List.mem_cons]; exact .inr h')⟩

omit [Runtime] in
theorem refFormValue_mem (f : ChainForm) : ∀ (fields : List RefField) (i j : Nat) (n : PStr) (t : ScalarType), fields[j]? = some (.scalar n t) →
    (n, (f.cells (i + j)).value) ∈ refFormValue f fields i := by
  intro fields
  induction fields with
  | nil => intro i j n t h; simp at h
  | cons fd rest ih =>
    intro i j n t h
    cases j with
    | zero => simp at h; subst h; simp [refFormValue]
    | succ j =>
      have := ih (i + 1) j n t (by simpa using h)
      rw [show i + 1 + j = i + (j + 1) by omega] at this
      cases fd <;> simp [refFormValue, this]

theorem scalarSet_result (t : ScalarType) (st st' : ScalarState) (v : PyVal) : (scalarSet t st v).2 = (scalarSet t st' v).2 := by
  unfold scalarSet
  cases ha : t.adapt v with
  | error e => cases e <;> rfl
  | ok x =>
    cases x <;> simp only []
    all_goals
      generalize hser : t.serialize _ = s
      cases s <;> rfl

theorem refFormSet_ignored {fields : List RefField} (hr : ∀ n wr k, .ref n wr k ∈ fields → wr = .ignore) {f : ChainForm} (hf : f.types = fieldType fields) {fd : RefField} (hm : fd ∈ fields) (i : Nat) {v : PyVal}
    (hS : ∀ m t, .scalar m t ∈ fields → TakenOrRefused t v) :
    ∃ b, (refFormSet f i fd v).2 = .ok b ∧ (refFormSet f i fd v).1.types = fieldType fields ∧ (b = true ↔ TakenBy fields fd v) := by
  cases fd with
  | scalar m t =>
    obtain ⟨b, hb⟩ := (hS m t hm).1 (f.cells i)
    refine ⟨b, hb, hf, ?_⟩
    rw [scalarSet_result t _ .fresh] at hb
    cases b <;> simp [TakenBy, hb]
  | ref m wr k =>
    obtain rfl := hr m wr k hm
    obtain ⟨h1, h2, _, _⟩ := C53_chain_first f k [] [] .ignore (by simp) (by simp) v
    have hk : TakenOrRefused (fieldType fields k) v := by
      unfold fieldType
      split
      · rename_i m t h
        exact hS m t (List.mem_of_getElem? h)
      · exact string_takes _
    obtain ⟨b, hb⟩ := hk.1 .fresh
    have h3 : (chainSet f k [.ignore] v).2 = .ok b := (h2 rfl).trans (by rw [hf, scalarSet_result _ _ .fresh]; exact hb)
    refine ⟨b, h3, (chainSet_types f k .ignore v).trans hf, ?_⟩
    cases b <;> simp [TakenBy, hb]

theorem setPairs_result (fields : List RefField) (hr : ∀ n wr k, .ref n wr k ∈ fields → wr = .ignore) :
    ∀ (vs : List (PStr × PyVal)) (f : ChainForm) (c : Bool), f.types = fieldType fields →
    (∀ m t, .scalar m t ∈ fields → ∀ p ∈ vs, TakenOrRefused t p.2) →
    ((∃ p ∈ vs, p.1 ∉ fields.map RefField.name) → (refFormSetPairs fields vs f c).2 = .error .key) ∧
    ((∀ p ∈ vs, p.1 ∈ fields.map RefField.name) → ∃ b, (refFormSetPairs fields vs f c).2 = .ok b ∧
      (b = true ↔ c = true ∧ ∀ p ∈ vs, ∀ i fd, fieldNamed p.1 fields 0 = some (i, fd) → TakenBy fields fd p.2)) := by
  intro vs
  induction vs with
  | nil => intro f c _ _; exact ⟨by simp, fun _ => ⟨c, rfl, by simp⟩⟩
  | cons p vs ih =>
    intro f c hf hS
    obtain ⟨key, v⟩ := p
    by_cases hk : key ∈ fields.map RefField.name
    · obtain ⟨i, fd, hfd, hmem, hname⟩ := fieldNamed_mem hk 0
      obtain ⟨b, h1, h2, h3⟩ := refFormSet_ignored hr hf hmem i (v := v) fun m t hm => hS m t hm (key, v) (by simp)
      rcases hs : refFormSet f i fd v with ⟨f', r⟩
      rw [hs] at h1 h2
      simp only at h1 h2
      subst h1
      obtain ⟨i1, i2⟩ := ih f' (c && b) h2 fun m t hm p hp => hS m t hm p (by simp [hp])
      simp only [refFormSetPairs, hfd, hs]
      refine ⟨?_, fun hall => ?_⟩
      · rintro ⟨q, hq, hqn⟩
        rcases List.mem_cons.1 hq with rfl | hq
        · exact absurd hk hqn
        · exact i1 ⟨q, hq, hqn⟩
      · obtain ⟨b', hb', hiff⟩ := i2 fun p hp => hall p (by simp [hp])
        refine ⟨b', hb', hiff.trans ?_⟩
        rw [Bool.and_eq_true]
        constructor
        · rintro ⟨⟨hc, hb⟩, hv⟩
          refine ⟨hc, fun p hp i' fd' hfd' => ?_⟩
          rcases List.mem_cons.1 hp with rfl | hp
          · rw [hfd] at hfd'
            cases hfd'
            exact h3.1 hb
          · exact hv p hp i' fd' hfd'
        · rintro ⟨hc, hv⟩
          exact ⟨⟨hc, h3.2 (hv (key, v) (by simp) i fd hfd)⟩, fun p hp => hv p (by simp [hp])⟩
    · have hnone : fieldNamed key fields 0 = none := by
        cases h : fieldNamed key fields 0 with
        | none => rfl
        | some x =>
          obtain ⟨i, fd⟩ := x
          exact absurd (fieldNamed_name h) hk
      simp only [refFormSetPairs, hnone]
      exact ⟨fun _ => trivial, fun hall => absurd (hall (key, v) (by simp)) hk⟩

omit [Runtime] in
theorem refFormValue_inv (f : ChainForm) : ∀ (fields : List RefField) (i : Nat) (p : PStr × PyVal), p ∈ refFormValue f fields i →
    (∃ j n t, fields[j]? = some (.scalar n t) ∧ p = (n, (f.cells (i + j)).value)) ∨ ∃ n wr k, .ref n wr k ∈ fields ∧ p = (n, (f.cells k).value) := by
  intro fields
  induction fields with
  | nil => intro i p h; simp [refFormValue] at h
  | cons fd rest ih =>
    intro i p h
    have step : p ∈ refFormValue f rest (i + 1) → (∃ j n t, (fd :: rest)[j]? = some (.scalar n t) ∧ p = (n, (f.cells (i + j)).value)) ∨
        ∃ n wr k, .ref n wr k ∈ fd :: rest ∧ p = (n, (f.cells k).value) := by
      intro h
      rcases ih (i + 1) p h with ⟨j, n, t, hj, hp⟩ | ⟨n, wr, k, hm, hp⟩
      · exact .inl ⟨j + 1, n, t, by simpa using hj, by rw [hp, show i + 1 + j = i + (j + 1) by omega]⟩
      · exact .inr ⟨n, wr, k, by simp [hm], hp⟩
    cases fd with
    | scalar n t =>
      rcases List.mem_cons.1 h with rfl | h
      · exact .inl ⟨0, n, t, rfl, rfl⟩
      · exact step h
    | ref n wr k =>
      rcases List.mem_cons.1 h with rfl | h
      · exact .inr ⟨n, wr, k, by simp, rfl⟩
      · exact step h

/-- **C53 (forms).** If all its Refs ignore writes, it can: nothing is raised, every other field is set to its own value, and the result is True exactly if all of them take it. -/
theorem C53_form_stored (fields : List RefField) (hn : (fields.map RefField.name).Nodup) (hr : ∀ n wr k, .ref n wr k ∈ fields → wr = .ignore)
    (hk : ∀ n wr k, .ref n wr k ∈ fields → ∃ m t, fields[k]? = some (.scalar m t)) (f : ChainForm)
    (hS : ∀ m t, .scalar m t ∈ fields → ∀ p ∈ refFormValue f fields 0, TakenOrRefused t p.2) :
    (∃ b, (refFormSetAll fields (refFormValue f fields 0)).2 = .ok b ∧
      (b = true ↔ ∀ j n t, fields[j]? = some (.scalar n t) → (scalarSet t .fresh (f.cells j).value).2 = .ok true)) ∧
    ∀ j n t, fields[j]? = some (.scalar n t) →
      (refFormSetAll fields (refFormValue f fields 0)).1.cells j = (scalarSet t .fresh (f.cells j).value).1 := by
  have hkeys : ∀ p ∈ refFormValue f fields 0, p.1 ∈ fields.map RefField.name := fun p hp => by
    rw [← refFormValue_keys f fields 0]
    exact List.mem_map.2 ⟨p, hp, rfl⟩
  obtain ⟨_, h2⟩ := setPairs_ignored fields hn hr (refFormValue f fields 0) (refFormNew fields) true hkeys (by rw [refFormValue_keys]; exact hn) (fun p hp i => by
      show TakenOrRefused (fieldType fields i) p.2
      unfold fieldType
      split
      · rename_i m t h
        exact hS m t (List.mem_of_getElem? h) p hp
      · exact string_takes _) hS
  constructor
  · obtain ⟨b, hb, hiff⟩ := (setPairs_result fields hr (refFormValue f fields 0) (refFormNew fields) true rfl hS).2 hkeys
    refine ⟨b, hb, hiff.trans ?_⟩
    have hto : ∀ {n : PStr} {fd : RefField}, fd ∈ fields → fd.name = n → ∃ i, fieldNamed n fields 0 = some (i, fd) := by
      intro n fd hm hname
      obtain ⟨i, fd', h1, h2, h3⟩ := fieldNamed_mem (List.mem_map.2 ⟨fd, hm, hname⟩) 0
      obtain rfl := refFields_distinct hn h2 hm (h3.trans hname.symm)
      exact ⟨i, h1⟩
    constructor
    · rintro ⟨_, h⟩ j n t hj
      obtain ⟨i, hi⟩ := hto (List.mem_of_getElem? hj) rfl
      have hmem := refFormValue_mem f fields 0 j n t hj
      rw [Nat.zero_add] at hmem
      exact h _ hmem i _ hi
    · intro h
      refine ⟨rfl, fun p hp i fd hfd => ?_⟩
      rcases refFormValue_inv f fields 0 p hp with ⟨j, n, t, hj, rfl⟩ | ⟨n, wr, k, hm, rfl⟩
      · obtain ⟨i', hi'⟩ := hto (List.mem_of_getElem? hj) rfl
        rw [show (RefField.scalar n t).name = n from rfl, hfd] at hi'
        cases hi'
        rw [Nat.zero_add]
        exact h j n t hj
      · obtain ⟨i', hi'⟩ := hto hm rfl
        rw [show (RefField.ref n wr k).name = n from rfl, hfd] at hi'
        cases hi'
        obtain ⟨m, t, hkt⟩ := hk n wr k hm
        show (scalarSet (fieldType fields k) .fresh (f.cells k).value).2 = .ok true
        unfold fieldType
        rw [hkt]
        exact h k m t hkt
  · intro j n t hj
    have := refFormValue_mem f fields 0 j n t hj
    rw [Nat.zero_add] at this
    exact (h2 j n t hj).1 _ this

/-- **C53 (forms).** Setting such a form to a mapping with a key that is no field raises KeyError. -/
theorem C53_form_unknown (fields : List RefField) (hr : ∀ n wr k, .ref n wr k ∈ fields → wr = .ignore) (vs : List (PStr × PyVal))
    (hS : ∀ m t, .scalar m t ∈ fields → ∀ p ∈ vs, TakenOrRefused t p.2) (h : ∃ p ∈ vs, p.1 ∉ fields.map RefField.name) :
    (refFormSetAll fields vs).2 = .error .key := (setPairs_result fields hr vs (refFormNew fields) true rfl hS).1 h

theorem refFormSet_types (f : ChainForm) (i : Nat) (fd : RefField) (v : PyVal) : (refFormSet f i fd v).1.types = f.types := by
  cases fd with
  | scalar n t => rfl
  | ref n wr k => exact chainSet_types f k wr v

theorem refFormFlat_types (pairs : List (PStr × PStr)) : ∀ (fields : List RefField) (i : Nat) (f : ChainForm), (refFormFlat pairs fields i f).1.types = f.types := by
  intro fields
  induction fields with
  | nil => intro i f; rfl
  | cons fd rest ih =>
    intro i f
    unfold refFormFlat
    split
    · exact ih _ _
    · rename_i p _
      have := refFormSet_types f i fd (.str p.2)
      split
      · rename_i h; rw [h] at this; exact this
      · rename_i h; rw [h] at this; exact (ih _ _).trans this

theorem refFormFlat_keeps (pairs : List (PStr × PStr)) (k : Nat) : ∀ (fields : List RefField) (i : Nat) (f : ChainForm), k < i →
    (∀ n, .ref n .yes k ∈ fields → n ∉ pairs.map Prod.fst) → (refFormFlat pairs fields i f).1.cells k = f.cells k := by
  intro fields
  induction fields with
  | nil => intro i f _ _; rfl
  | cons fd rest ih =>
    intro i f hi hr
    have hr' : ∀ n, .ref n .yes k ∈ rest → n ∉ pairs.map Prod.fst := fun n hm => hr n (by simp [hm])
    unfold refFormFlat
    split
    · exact ih _ _ (by omega) hr'
    · rename_i p hp
      have hset : (refFormSet f i fd (.str p.2)).1.cells k = f.cells k := by
        cases fd with
        | scalar n t => simp [refFormSet, Nat.ne_of_lt hi]
        | ref n wr j =>
          show (chainSet f j [wr] (.str p.2)).1.cells k = _
          cases wr with
          | ignore => exact congrArg (fun g => ChainForm.cells g k) (C53_chain_first f j [] [] .ignore (by simp) (by simp) (.str p.2)).1
          | no => exact congrArg (fun g => ChainForm.cells g k) (C53_chain_first f j [] [] .no (by simp) (by simp) (.str p.2)).1
          | yes =>
            refine (C53_chain_writes f j [.yes] (by simp) (by simp) (.str p.2)).2.2.2 k ?_
            rintro rfl
            have h1 := List.find?_some hp
            exact hr n (by simp) (List.mem_map.2 ⟨p, List.mem_of_find?_eq_some hp, of_decide_eq_true h1⟩)
      split
      · rename_i h; rw [h] at hset; exact hset
      · rename_i h; rw [h] at hset; exact (ih _ _ (by omega) hr').trans hset

theorem refFormFlat_append (pairs : List (PStr × PStr)) (post : List RefField) : ∀ (pre : List RefField) (i : Nat) (f : ChainForm),
    (refFormFlat pairs (pre ++ post) i f).2 = .ok () → (refFormFlat pairs pre i f).2 = .ok () ∧
      refFormFlat pairs (pre ++ post) i f = refFormFlat pairs post (i + pre.length) (refFormFlat pairs pre i f).1 := by
  intro pre
  induction pre with
  | nil => intro i f _; exact ⟨rfl, rfl⟩
  | cons fd rest ih =>
    intro i f h
    rw [List.cons_append] at h ⊢
    have hl : i + 1 + rest.length = i + (fd :: rest).length := by simp; omega
    cases hp : pairs.find? (fun p => p.1 = fd.name) with
    | none =>
      simp only [refFormFlat, hp] at h ⊢
      have := ih (i + 1) f h
      rwa [hl] at this
    | some p =>
      rcases hs : refFormSet f i fd (.str p.2) with ⟨f', e | b⟩
      · simp [refFormFlat, hp, hs] at h
      · simp only [refFormFlat, hp, hs] at h ⊢
        have := ih (i + 1) f' h
        rwa [hl] at this

theorem scalarSet_content {t : ScalarType} {st st' : ScalarState} {v : PyVal} {b : Bool} (h : (scalarSet t st v).2 = .ok b) :
    (scalarSet t st v).1 = (scalarSet t st' v).1 := by
  unfold scalarSet at h ⊢
  cases ha : t.adapt v with
  | error e => cases e <;> simp [ha] at h ⊢
  | ok x =>
    cases x <;> simp only [ha] at h ⊢
    all_goals
      generalize hser : t.serialize _ = s at h ⊢
      cases s <;> simp at h ⊢

/-- **C53 (forms).** A writable Ref has the last word if it stands after its target: a submission naming it that raises nothing sets the target's value and text from the Ref's first
value, whatever was submitted for the target itself – unless another writable Ref to the same target that follows is named too. -/
theorem C53_form_last_word (before after : List RefField) (n : PStr) (k : Nat) (m : PStr) (t : ScalarType) (pairs : List (PStr × PStr)) (x : PStr)
    (hk : before[k]? = some (.scalar m t)) (hx : firstFor n pairs = some x) (ha : ∀ n', .ref n' .yes k ∈ after → n' ∉ pairs.map Prod.fst)
    (ho : (refFormFromFlat (before ++ .ref n .yes k :: after) pairs).2 = .ok ()) :
    ((refFormFromFlat (before ++ .ref n .yes k :: after) pairs).1.cells k).value = (scalarSet t .fresh (.str x)).1.value ∧
    ((refFormFromFlat (before ++ .ref n .yes k :: after) pairs).1.cells k).u = (scalarSet t .fresh (.str x)).1.u := by
  unfold refFormFromFlat at ho ⊢
  obtain ⟨_, h2⟩ := refFormFlat_append pairs (.ref n .yes k :: after) before 0 _ ho
  rw [h2] at ho ⊢
  obtain ⟨hlt, _⟩ := List.getElem?_eq_some_iff.1 hk
  have hty := refFormFlat_types pairs before 0 (refFormNew (before ++ .ref n .yes k :: after))
  generalize (refFormFlat pairs before 0 (refFormNew (before ++ .ref n .yes k :: after))).1 = f at ho hty ⊢
  have htk : f.types k = t := by
    rw [hty]
    show fieldType _ k = t
    unfold fieldType
    rw [List.getElem?_append_left hlt, hk]
  obtain ⟨p, hp, rfl⟩ := Option.map_eq_some_iff.1 hx
  have hp' : pairs.find? (fun p => p.1 = (RefField.ref n .yes k).name) = some p := hp
  unfold refFormFlat at ho ⊢
  simp only [hp'] at ho ⊢
  obtain ⟨w1, w2, w3, _⟩ := C53_chain_writes f k [.yes] (by simp) (by simp) (.str p.2)
  have hs : refFormSet f (0 + before.length) (.ref n .yes k) (.str p.2) = chainSet f k [.yes] (.str p.2) := rfl
  rw [hs] at ho ⊢
  rcases hc : chainSet f k [.yes] (.str p.2) with ⟨f', r⟩
  rw [hc] at ho w1 w2 w3
  rcases r with e | b
  · simp at ho
  · simp only at w1 w2 w3 ⊢
    rw [refFormFlat_keeps pairs k after _ _ (by omega) ha, w2, w3, htk]
    rw [htk] at w1
    rw [scalarSet_content (st' := .fresh) w1.symm]
    exact ⟨rfl, rfl⟩

end

section examples
attribute [local instance] Runtime.ascii

/-- two String fields and a Ref to the first -/
def exRefFields (wr : Writable) : List RefField := [.scalar ['a'] (stringType true), .scalar ['b'] (stringType true), .ref ['r'] wr 0]

example (wr : Writable) : ((exRefFields wr).map RefField.name).Nodup := by simp [exRefFields, RefField.name]
example (wr : Writable) (n : PStr) (t : ScalarType) (h : .scalar n t ∈ exRefFields wr) (v : PyVal) : TakenOrRefused t v := by
  simp [exRefFields] at h
  rcases h with ⟨_, rfl⟩ | ⟨_, rfl⟩ <;> exact string_takes v

/-- `r=x&a=y`: a Ref that ignores writes leaves y, a writable one after its target puts x there, and one that is not writable makes the form raise -/
example : ((refFormFromFlat (exRefFields .ignore) [(['r'], ['x']), (['a'], ['y'])]).1.cells 0).value = .str ['y'] ∧
    ((refFormFromFlat (exRefFields .yes) [(['r'], ['x']), (['a'], ['y'])]).1.cells 0).value = .str ['x'] ∧
    (refFormFromFlat (exRefFields .no) [(['r'], ['x']), (['a'], ['y'])]).2 = .error .type := ⟨rfl, rfl, rfl⟩
example : (refFormSetAll (exRefFields .no) (refFormValue (refFormNew (exRefFields .no)) (exRefFields .no) 0)).2 = .error .type ∧
    (refFormSetAll (exRefFields .ignore) (refFormValue (refFormNew (exRefFields .ignore)) (exRefFields .ignore) 0)).2 = .ok true := ⟨rfl, rfl⟩

example : (refFormSetAll (exRefFields .ignore) [(['a'], .none), (['x'], .none)]).2 = .error .key := rfl
/-- the hypotheses of `C53_form_last_word` -/
example : ((refFormFromFlat (exRefFields .yes) [(['r'], ['x']), (['a'], ['y'])]).1.cells 0).u = ['x'] :=
  (C53_form_last_word [.scalar ['a'] (stringType true), .scalar ['b'] (stringType true)] [] ['r'] 0 ['a'] (stringType true) _ ['x'] rfl rfl (by simp) rfl).2

end examples
end Flatland
