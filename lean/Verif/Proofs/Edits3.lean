import Verif.Proofs.Edits2
import Verif.Spec.Edits
/-! `set` and `set_default` of containers in a tree and of the generic containers are the same. -/
namespace Flatland
open Flatland.Spec

section
variable [Runtime] (o : Objects)

theorem setRun_present (s : Schema) (e : Elem) (v : PyVal) (h : e.present = true) : (setRun s e v).1.present = true := by
  cases s <;> simp only [setRun] <;> try rfl
  unfold dictSetRun
  split
  · exact h
  · rfl

omit [Runtime] in
theorem fresh_presentE (s : Schema) : (fresh s).present = true := by cases s <;> rfl

theorem fieldRunners_get : ∀ (fs : List Schema) (i : Nat), (fieldRunners fs)[i]? = fs[i]?.map fun f k v => setRun f (orFresh f k) v
  | [], _ => by simp [fieldRunners]
  | f :: fs, 0 => by simp [fieldRunners]
  | f :: fs, i + 1 => by simp [fieldRunners, fieldRunners_get fs i]

theorem fieldFor_pos (mode : DictMode) (po : Policy) : ∀ (fs : List Schema) (k : Option PStr),
    fieldFor (mapClassOf o mode po fs) k = match (fs.map Schema.name).findIdx? (fun n => n == k) with
      | some i => fs[i]?.map (fieldEntry o)
      | none => none := by
  intro fs k
  simp only [fieldFor, mapClassOf]
  induction fs with
  | nil => rfl
  | cons f fs ih =>
    simp only [List.map_cons, List.find?_cons, List.findIdx?_cons]
    by_cases h : f.name = k
    · have h1 : (fieldEntry o f).name = k := h
      simp [h, h1]
    · have h1 : ¬ (fieldEntry o f).name = k := h
      simp only [h1, decide_false, beq_iff_eq, h, if_false]
      rw [ih]
      cases List.findIdx? (fun n => n == k) (fs.map Schema.name) <;> simp

/-- values in the dict are elements -/
def AllPresent (d : PyDict (Option PStr) Elem) : Prop := ∀ k e, dictGet d k = some e → e.present = true

omit [Runtime] in
theorem kidsOfDict_put {fs : List Schema} (hn : (fs.map Schema.name).Nodup) {i : Nat} {f : Schema} (hi : fs[i]? = some f) (d : PyDict (Option PStr) Elem) (e : Elem) :
    kidsOfDict fs (dictPut d f.name e) = (kidsOfDict fs d).set i e := by
  apply List.ext_getElem?
  intro j
  simp only [kidsOfDict, List.getElem?_map]
  by_cases hij : i = j
  · subst hij
    rw [List.getElem?_set_self (by simpa using (List.getElem?_eq_some_iff.1 hi).1), hi]
    simp [dictGet_put]
  · rw [List.getElem?_set_ne hij]
    simp only [List.getElem?_map]
    cases hj : fs[j]? with
    | none => rfl
    | some g =>
      have hne : g.name ≠ f.name := by
        intro h
        have h1 : (fs.map Schema.name)[i]? = some f.name := by simp [hi]
        have h2 : (fs.map Schema.name)[j]? = some f.name := by simp [hj, h]
        have hl := (List.getElem?_eq_some_iff.1 h1).1
        exact hij ((List.getElem?_inj hl hn).1 (by rw [h1, h2]))
      simp [dictGet_put, hne]

omit [Runtime] in
theorem allPresent_put {d : PyDict (Option PStr) Elem} (h : AllPresent d) (k : Option PStr) {e : Elem} (he : e.present = true) : AllPresent (dictPut d k e) := by
  intro k' e' h'
  rw [dictGet_put] at h'
  split at h'
  · cases h'; exact he
  · exact h k' e' h'

omit [Runtime] in
theorem kid_orFresh {fs : List Schema} {i : Nat} {f : Schema} (hi : fs[i]? = some f) {d : PyDict (Option PStr) Elem} (h : AllPresent d) :
    orFresh f (((kidsOfDict fs d)[i]?).getD .absent) = (dictGet d f.name).getD (fresh f) := by
  simp only [kidsOfDict, List.getElem?_map, hi, Option.map_some, Option.getD_some]
  cases hd : dictGet d f.name with
  | none => rfl
  | some e => exact orFresh_present (h _ _ hd)

/-- keys seen, as positions and as names -/
def SeenAs (fs : List Schema) (seen : List Nat) (seenN : List (Option PStr)) : Prop :=
  ∀ i f, fs[i]? = some f → (i ∈ seen ↔ f.name ∈ seenN)

omit [Runtime] in
theorem seenAs_cons {fs : List Schema} (hn : (fs.map Schema.name).Nodup) {seen : List Nat} {seenN : List (Option PStr)} (h : SeenAs fs seen seenN)
    {i : Nat} {f : Schema} (hi : fs[i]? = some f) : SeenAs fs (i :: seen) (f.name :: seenN) := by
  intro j g hj
  simp only [List.mem_cons, h j g hj]
  constructor
  · rintro (rfl | h)
    · rw [hi] at hj; cases hj; exact .inl rfl
    · exact .inr h
  · rintro (h | h)
    · left
      have h1 : (fs.map Schema.name)[i]? = some f.name := by simp [hi]
      have h2 : (fs.map Schema.name)[j]? = some f.name := by simp [hj, h]
      have hl := (List.getElem?_eq_some_iff.1 h1).1
      exact ((List.getElem?_inj hl hn).1 (by rw [h1, h2])).symm
    · exact .inr h

omit [Runtime] in
theorem fieldPos_key (names : List (Option PStr)) (hnone : none ∉ names) (k : PyVal) :
    fieldPos names k = match fieldKey k with
      | .error er => .error er
      | .ok k' => .ok (names.findIdx? fun n => n == k') := by
  have hno : names.findIdx? (fun n => n == none) = none := by
    rw [List.findIdx?_eq_none_iff]
    intro x hx
    cases x with
    | none => exact absurd hx hnone
    | some y => rfl
  cases k <;> simp only [fieldPos, fieldKey, hno]

/-- how one loop stands for the other -/
def LoopAs (fs : List Schema) (r : Ended (List Elem) (List Nat × Bool)) (d : PyDict (Option PStr) Elem) (r' : Except PyErr (List (Option PStr) × Bool)) : Prop :=
  r.1 = kidsOfDict fs d ∧ match r.2, r' with
    | .ok (seen, b), .ok (seenN, b') => SeenAs fs seen seenN ∧ b = b'
    | .error er, .error er' => er = er'
    | _, _ => False

theorem setLoop_as {mode : DictMode} {po : Policy} {fs : List Schema} (hn : (fs.map Schema.name).Nodup) (hnone : none ∉ fs.map Schema.name) :
    ∀ (items : List (Except PyErr (PyVal × PyVal))) (d : PyDict (Option PStr) Elem) (seen : List Nat) (seenN : List (Option PStr)) (b : Bool),
    AllPresent d → SeenAs fs seen seenN →
    LoopAs fs (dictSetLoopRun po (fs.map Schema.name) (fieldRunners fs) (kidsOfDict fs d) seen b items)
      (setLoop (mapClassOf o mode po fs) (mapPolicyOf po) d seenN b (pairItems items).1).1
      (match (setLoop (mapClassOf o mode po fs) (mapPolicyOf po) d seenN b (pairItems items).1).2, (pairItems items).2 with
        | .error er, _ => .error er
        | .ok _, some er => .error er
        | .ok r, none => .ok r)
  | [], d, seen, seenN, b, hp, hs => by
    simp only [dictSetLoopRun, pairItems, setLoop]
    exact ⟨rfl, hs, rfl⟩
  | .error er :: rest, d, seen, seenN, b, hp, hs => by
    simp only [dictSetLoopRun, pairItems, setLoop]
    exact ⟨rfl, rfl⟩
  | .ok (k, v) :: rest, d, seen, seenN, b, hp, hs => by
    simp only [dictSetLoopRun, pairItems]
    rw [fieldPos_key _ hnone]
    cases hk : fieldKey k with
    | error er =>
      simp only [setLoop]
      exact ⟨rfl, rfl⟩
    | ok k' =>
      simp only [setLoop]
      rw [fieldFor_pos]
      cases hf : List.findIdx? (fun n => n == k') (fs.map Schema.name) with
      | none =>
        simp only
        by_cases hd : po = .duck
        · subst hd
          simp only [mapPolicyOf, if_true]
          exact setLoop_as hn hnone rest d seen seenN b hp hs
        · have : mapPolicyOf po ≠ .duck := by cases po <;> simp_all [mapPolicyOf]
          simp only [hd, this, if_false]
          exact ⟨rfl, rfl⟩
      | some i =>
        obtain ⟨hlt, hname, _⟩ := List.findIdx?_eq_some_iff_getElem.1 hf
        have hlt' : i < fs.length := by simpa using hlt
        have hi : fs[i]? = some fs[i] := List.getElem?_eq_getElem hlt'
        have hname : fs[i].name = k' := by simpa using hname
        simp only [fieldRunners_get, hi, Option.map_some, setChild]
        rw [kid_orFresh hi hp]
        rw [← hname]
        have hpe : ((dictGet d fs[i].name).getD (fresh fs[i])).present = true := by
          cases hg : dictGet d fs[i].name with
          | none => exact fresh_presentE _
          | some e => exact hp _ _ hg
        have hpr := setRun_present fs[i] _ v hpe
        simp only [fieldEntry, memberClass]
        cases hr : setRun fs[i] ((dictGet d fs[i].name).getD (fresh fs[i])) v with
        | mk e' r =>
          rw [hr] at hpr
          cases r with
          | error er =>
            simp only
            exact ⟨(kidsOfDict_put hn hi d e').symm, rfl⟩
          | ok ok =>
            simp only
            rw [← kidsOfDict_put hn hi d e']
            exact setLoop_as hn hnone rest _ _ _ _ (allPresent_put hp _ hpr) (seenAs_cons hn hs hi)

theorem resetLoop_kids {mode : DictMode} (all : List Schema) (hn : (all.map Schema.name).Nodup) : ∀ (fs : List Schema), (∀ f ∈ fs, f ∈ all) →
    (fs.map Schema.name).Nodup →
    ∀ (d : PyDict (Option PStr) Elem), AllPresent d → AllPresent (resetLoop (mapModeOf mode) (fs.map (fieldEntry o)) d) ∧
    ∀ k, dictGet (resetLoop (mapModeOf mode) (fs.map (fieldEntry o)) d) k =
      match fs.find? (fun f => autoField mode f && f.name == k) with
      | some f => some (fresh f)
      | none => dictGet d k
  | [], _, _, d, hp => ⟨hp, fun k => rfl⟩
  | f :: fs, hsub, hnd, d, hp => by
    rw [List.map_cons, List.nodup_cons] at hnd
    have hauto : autoIn (mapModeOf mode) (fieldEntry o f) = autoField mode f := by
      cases mode <;> rfl
    have hp' : AllPresent (if autoIn (mapModeOf mode) (fieldEntry o f) = true then dictPut d (fieldEntry o f).name (fieldEntry o f).cls.blank else d) := by
      split
      · exact allPresent_put hp _ (fresh_presentE f)
      · exact hp
    obtain ⟨h1, h2⟩ := resetLoop_kids all hn fs (fun g hg => hsub g (by simp [hg])) hnd.2 _ hp'
    simp only [List.map_cons, resetLoop]
    refine ⟨h1, fun k => ?_⟩
    rw [h2 k, hauto]
    simp only [List.find?_cons]
    by_cases ha : autoField mode f = true
    · by_cases hk : f.name = k
      · have hfind : fs.find? (fun f => autoField mode f && f.name == k) = none := by
          rw [List.find?_eq_none]
          intro g hg
          have : g.name ≠ k := fun h => hnd.1 (List.mem_map.2 ⟨g, hg, by rw [h, hk]⟩)
          simp [this]
        rw [hfind]
        have hk' : k = (fieldEntry o f).name := hk.symm
        simp only [ha, if_true, hk, dictGet_put, hk', BEq.rfl, Bool.and_self]
        rfl
      · have hk' : ¬ k = (fieldEntry o f).name := fun h => hk h.symm
        have hb : (f.name == k) = false := by simpa using hk
        simp only [ha, if_true, hb, Bool.and_false, dictGet_put, hk', if_false]
    · simp only [Bool.not_eq_true] at ha
      simp [ha]

theorem mapReset_kids {mode : DictMode} {po : Policy} {fs : List Schema} (hn : (fs.map Schema.name).Nodup) {d : PyDict (Option PStr) Elem} (hp : AllPresent d) :
    kidsOfDict fs (mapReset (mapClassOf o mode po fs) d) = freshFields mode fs ∧ AllPresent (mapReset (mapClassOf o mode po fs) d) := by
  have hempty : AllPresent [] := by intro k e h; cases h
  have key : ∀ d0 : PyDict (Option PStr) Elem, AllPresent d0 → (mode = .full ∨ d0 = []) →
      kidsOfDict fs (resetLoop (mapModeOf mode) (fs.map (fieldEntry o)) d0) = freshFields mode fs := by
    intro d0 hp0 hm
    obtain ⟨_, h2⟩ := resetLoop_kids (mode := mode) o fs hn fs (fun _ h => h) hn d0 hp0
    have hf : ∀ (gs : List Schema), freshFields mode gs = gs.map fun f => if autoField mode f then fresh f else .absent := by
      intro gs
      induction gs with
      | nil => rfl
      | cons g gs ih => simp [freshFields, ih]
    rw [hf, kidsOfDict]
    refine List.map_congr_left fun f hf => ?_
    rw [h2]
    by_cases ha : autoField mode f = true
    · have : fs.find? (fun g => autoField mode g && g.name == f.name) = some f := by
        cases hfd : fs.find? (fun g => autoField mode g && g.name == f.name) with
        | none =>
          rw [List.find?_eq_none] at hfd
          exact absurd (by simp [ha]) (hfd f hf)
        | some g =>
          have h3 := List.find?_some hfd
          simp only [Bool.and_eq_true, beq_iff_eq] at h3
          rw [schema_unique hn (List.mem_of_find?_eq_some hfd) hf h3.2]
      rw [this, ha]
      rfl
    · have : fs.find? (fun g => autoField mode g && g.name == f.name) = none := by
        rw [List.find?_eq_none]
        intro g hg hcon
        simp only [Bool.and_eq_true, beq_iff_eq] at hcon
        rw [schema_unique hn hg hf hcon.2] at hcon
        exact ha hcon.1
      rw [this]
      rcases hm with hm | hm
      · subst hm; exact absurd rfl ha
      · subst hm; simp [ha, dictGet]
  cases mode with
  | full => exact ⟨key d hp (.inl rfl), (resetLoop_kids (mode := .full) o fs hn fs (fun _ h => h) hn d hp).1⟩
  | sparse => exact ⟨key [] hempty (.inr rfl), (resetLoop_kids (mode := .sparse) o fs hn fs (fun _ h => h) hn [] hempty).1⟩
  | sparseRequired => exact ⟨key [] hempty (.inr rfl), (resetLoop_kids (mode := .sparseRequired) o fs hn fs (fun _ h => h) hn [] hempty).1⟩

omit [Runtime] in
theorem allPresent_kids {mode : DictMode} {fs : List Schema} {ks : List Elem} (hc : ConformsAll mode fs ks) : AllPresent (dictOfKids fs ks) := by
  intro k e h
  obtain ⟨f, _, _, hcf⟩ := dictOfKids_mem hc (mem_of_dictGet h)
  exact conforms_present hcf

omit [Runtime] in
theorem kidsOfDict_dictOfKids {mode : DictMode} : ∀ {fs : List Schema} {ks : List Elem}, (fs.map Schema.name).Nodup → ConformsAll mode fs ks →
    kidsOfDict fs (dictOfKids fs ks) = ks
  | [], [], _, _ => rfl
  | [], _ :: _, _, hc => by rw [ConformsAll.eq_def] at hc; exact hc.elim
  | _ :: _, [], _, hc => by rw [ConformsAll.eq_def] at hc; exact hc.elim
  | f :: fs, k :: ks, hn, hc => by
    rw [ConformsAll] at hc
    rw [List.map_cons, List.nodup_cons] at hn
    have hrec := kidsOfDict_dictOfKids hn.2 hc.2
    have hsub := (dictOfKids_keys hc.2).1
    have hnot : f.name ∉ dictKeys (dictOfKids fs ks) := fun h => hn.1 (hsub.subset h)
    simp only [kidsOfDict] at hrec
    simp only [kidsOfDict, List.map_cons, dictOfKids]
    split
    · rename_i hp
      simp only [dictGet, if_true, Option.getD_some, List.cons.injEq, true_and]
      rw [← hrec]
      refine List.map_congr_left fun g hg => ?_
      have : ¬ f.name = g.name := fun h => hn.1 (List.mem_map.2 ⟨g, hg, h.symm⟩)
      rw [hrec]
      simp only [dictGet, this, if_false]
    · rename_i hp
      rcases hc.1 with ⟨habs, _⟩ | hcf
      · rw [dictGet_none.2 hnot, hrec, habs]
        rfl
      · exact absurd (conforms_present hcf) hp

/-- `Dict.set` in a tree and as a mapping -/
theorem setRun_mapSet {h : Hdr} {mode : DictMode} {po : Policy} {fs : List Schema} (hn : (fs.map Schema.name).Nodup) (hnone : none ∉ fs.map Schema.name)
    {n : Option PStr} {ks : List Elem} (hc : Conforms (.dict h mode po fs) (.dict n ks)) (v : PyVal) :
    setRun (.dict h mode po fs) (.dict n ks) v =
      (.dict n (kidsOfDict fs (mapSet (mapClassOf o mode po fs) (dictOfKids fs ks) (pairsOf v) (mapPolicyOf po)).1),
       (mapSet (mapClassOf o mode po fs) (dictOfKids fs ks) (pairsOf v) (mapPolicyOf po)).2) := by
  rw [Conforms] at hc
  rw [setRun, dictSetRun, pairsOf]
  cases valuePairs v with
  | error er => simp only [mapSet, kidsOfDict_dictOfKids hn hc.2]
  | ok items =>
    obtain ⟨hk, hp⟩ := mapReset_kids (mode := mode) (po := po) o hn (allPresent_kids hc.2)
    have := setLoop_as (mode := mode) (po := po) o hn hnone items _ [] [] true hp (fun i f _ => by simp)
    rw [hk] at this
    simp only [mapSet]
    cases hr : dictSetLoopRun po (fs.map Schema.name) (fieldRunners fs) (freshFields mode fs) [] true items with
    | mk kids r =>
      cases hl : setLoop (mapClassOf o mode po fs) (mapPolicyOf po) (mapReset (mapClassOf o mode po fs) (dictOfKids fs ks)) [] true (pairItems items).1 with
      | mk d' r' =>
        rw [hr, hl] at this
        obtain ⟨h1, h2⟩ := this
        simp only at h1 h2 ⊢
        subst h1
        rw [hc.1]
        cases r' with
        | error er =>
          cases r with
          | error er' => simp only at h2 ⊢; rw [h2]
          | ok x => exact h2.elim
        | ok x =>
          cases hf : (pairItems items).2 with
          | some er =>
            rw [hf] at h2
            cases r with
            | error er' => simp only at h2 ⊢; rw [h2]
            | ok x => exact h2.elim
          | none =>
            rw [hf] at h2
            cases r with
            | error er' => exact h2.elim
            | ok y =>
              obtain ⟨seen, b⟩ := y
              obtain ⟨seenN, b'⟩ := x
              obtain ⟨h3, h4⟩ := h2
              subst h4
              simp only
              have hst : (po = .strict) = (mapPolicyOf po = .strict) := by cases po <;> simp [mapPolicyOf]
              have hall : ((List.range (fs.map Schema.name).length).all fun i => seen.contains i) = true ↔
                  (∀ f ∈ fs, f.name ∈ seenN) := by
                simp only [List.all_eq_true, List.mem_range, List.length_map, List.contains_iff_mem]
                constructor
                · intro hh f hf
                  obtain ⟨i, hi⟩ := List.getElem?_of_mem hf
                  exact (h3 i f hi).1 (hh i (List.getElem?_eq_some_iff.1 hi).1)
                · intro hh i hi
                  have hi' := List.getElem?_eq_getElem hi
                  exact (h3 i _ hi').2 (hh _ (List.getElem_mem hi))
              have hall' : ((mapClassOf o mode po fs).fields.all fun f => @List.contains (Option PStr) instBEqOfDecidableEq seenN f.name) = true ↔ (∀ f ∈ fs, f.name ∈ seenN) := by
                simp only [List.all_eq_true, mapClassOf, List.mem_map, List.contains_iff_mem]
                constructor
                · intro hh f hf; exact hh _ ⟨f, hf, rfl⟩
                · rintro hh _ ⟨f, hf, rfl⟩; exact hh f hf
              by_cases hs : po = .strict
              · have hs' : mapPolicyOf po = .strict := by rw [← hst]; exact hs
                by_cases hb : ∀ f ∈ fs, f.name ∈ seenN
                · rw [if_neg (fun h => h.2 (hall.2 hb)), if_neg (fun h => h.2 (hall'.2 hb))]
                · rw [if_pos ⟨hs, fun h => hb (hall.1 h)⟩, if_pos ⟨hs', fun h => hb (hall'.1 h)⟩]
              · have hs' : ¬ mapPolicyOf po = .strict := by rw [← hst]; exact hs
                rw [if_neg (fun h => hs h.1), if_neg (fun h => hs' h.1)]

/-! ### set_default -/

theorem fieldFor_entry {mode : DictMode} {po : Policy} {fs : List Schema} (hn : (fs.map Schema.name).Nodup) {f : Schema} (hf : f ∈ fs) :
    fieldFor (mapClassOf o mode po fs) f.name = some (fieldEntry o f) := by
  simp only [fieldFor, mapClassOf]
  cases hfd : (fs.map (fieldEntry o)).find? (fun g => decide (g.name = f.name)) with
  | none =>
    rw [List.find?_eq_none] at hfd
    exact absurd (by simp [fieldEntry]) (hfd _ (List.mem_map.2 ⟨f, hf, rfl⟩))
  | some g =>
    have h1 := List.find?_some hfd
    obtain ⟨s, hs, rfl⟩ := List.mem_map.1 (List.mem_of_find?_eq_some hfd)
    rw [schema_unique hn hs hf (of_decide_eq_true h1)]

theorem setDefaultRun_present (s : Schema) (e : Elem) (h : e.present = true) : (setDefaultRun s e).1.present = true := by
  cases s with
  | scalar h t => unfold setDefaultRun; split <;> first | exact h | rfl | assumption
  | dict hd mode po fs =>
    unfold setDefaultRun
    split
    · split <;> rfl
    · split <;> rfl
    · exact setRun_present _ _ _ h
  | list hd prune max m =>
    unfold setDefaultRun
    split
    · exact h
    · exact h
    · split
      · rfl
      · exact setRun_present _ _ _ rfl
  | array hd prune m =>
    unfold setDefaultRun
    split
    · exact h
    · exact h
    · split <;> rfl

/-- Mapping.set_default -/
theorem defaultKids_as {po : Policy} (all : List Schema) (hn : (all.map Schema.name).Nodup) : ∀ (fs : List Schema) (ks : List Elem), (∀ f ∈ fs, f ∈ all) →
    ConformsAll .full fs ks →
    dictOfKids fs (defaultKidsRun fs ks).1 = (defaultChildren (mapClassOf o .full po all) (dictOfKids fs ks)).1 ∧
      (defaultKidsRun fs ks).2 = (defaultChildren (mapClassOf o .full po all) (dictOfKids fs ks)).2
  | [], [], _, _ => ⟨rfl, rfl⟩
  | [], _ :: _, _, hc => by rw [ConformsAll.eq_def] at hc; exact hc.elim
  | _ :: _, [], _, hc => by rw [ConformsAll.eq_def] at hc; exact hc.elim
  | f :: fs, k :: ks, hsub, hc => by
    rw [ConformsAll] at hc
    have hkp : k.present = true := by
      rcases hc.1 with ⟨_, h⟩ | h
      · cases h
      · exact conforms_present h
    have hrec := defaultKids_as (po := po) all hn fs ks (fun g hg => hsub g (by simp [hg])) hc.2
    have hpr := setDefaultRun_present f k hkp
    simp only [defaultKidsRun, dictOfKids, hkp, if_true, defaultChildren]
    rw [fieldFor_entry o hn (hsub f (by simp))]
    simp only [fieldEntry]
    cases hr : setDefaultRun f k with
    | mk e' r =>
      rw [hr] at hpr
      simp only at hpr
      cases r with
      | error er => simp [dictOfKids, hpr]
      | ok u => simp [dictOfKids, hpr, hrec.1, hrec.2]

theorem defaultRequired_as {mode : DictMode} (all : List Schema) (hn : (all.map Schema.name).Nodup) : ∀ (fs pre : List Schema), all = pre ++ fs →
    ∀ (d : PyDict (Option PStr) Elem), (kidsOfDict fs d = freshFields .sparseRequired fs) →
    kidsOfDict fs (defaultRequired (fs.map (fieldEntry o)) d).1 = (defaultRequiredKidsRun fs).1 ∧
      (defaultRequired (fs.map (fieldEntry o)) d).2 = (defaultRequiredKidsRun fs).2 ∧
      ∀ g ∈ pre, dictGet (defaultRequired (fs.map (fieldEntry o)) d).1 g.name = dictGet d g.name
  | [], pre, _, d, _ => ⟨rfl, rfl, fun _ _ => rfl⟩
  | f :: fs, pre, hall, d, hd => by
    have hrest : ∀ g ∈ pre ++ [f], ∀ g' ∈ fs, g.name ≠ g'.name := by
      intro g hg g' hg' h
      have : all = (pre ++ [f]) ++ fs := by simp [hall]
      rw [this, List.map_append, List.nodup_append] at hn
      exact hn.2.2 g.name (List.mem_map.2 ⟨g, hg, rfl⟩) g'.name (List.mem_map.2 ⟨g', hg', rfl⟩) h
    have hpre : ∀ g ∈ pre, g.name ≠ f.name := by
      intro g hg h
      rw [hall, List.map_append, List.nodup_append] at hn
      exact hn.2.2 g.name (List.mem_map.2 ⟨g, hg, rfl⟩) f.name (by simp) h
    have hd' : kidsOfDict fs d = freshFields .sparseRequired fs := by
      simp only [kidsOfDict, List.map_cons, freshFields, List.cons.injEq] at hd
      exact hd.2
    have hd0 : (dictGet d f.name).getD .absent = if autoField .sparseRequired f then fresh f else .absent := by
      simp only [kidsOfDict, List.map_cons, freshFields, List.cons.injEq] at hd
      exact hd.1
    simp only [List.map_cons, defaultRequired, defaultRequiredKidsRun]
    have ho : (fieldEntry o f).optional = f.hdr.optional := rfl
    rw [ho]
    by_cases hopt : f.hdr.optional = true
    · obtain ⟨h1, h2, h3⟩ := defaultRequired_as (mode := mode) all hn fs (pre ++ [f]) (by simp [hall]) d hd'
      rw [if_pos hopt, if_pos hopt]
      refine ⟨?_, h2, fun g hg => h3 g (by simp [hg])⟩
      simp only [kidsOfDict, List.map_cons] at h1 ⊢
      rw [h1, h3 f (by simp), hd0]
      simp [autoField, hopt]
    · rw [if_neg hopt, if_neg hopt]
      simp only [fieldEntry]
      have hpr := setDefaultRun_present f (fresh f) (fresh_presentE f)
      cases hr : setDefaultRun f (fresh f) with
      | mk e' r =>
        cases r with
        | error er =>
          refine ⟨?_, rfl, fun _ _ => rfl⟩
          simp only
          rw [hd]
          simp [freshFields, autoField, hopt]
        | ok u =>
          have hput : kidsOfDict fs (dictPut d f.name e') = freshFields .sparseRequired fs := by
            rw [← hd']
            simp only [kidsOfDict]
            refine List.map_congr_left fun g hg => ?_
            rw [dictGet_put, if_neg (fun h => hrest f (by simp) g hg h.symm)]
          obtain ⟨h1, h2, h3⟩ := defaultRequired_as (mode := mode) all hn fs (pre ++ [f]) (by simp [hall]) (dictPut d f.name e') hput
          simp only
          refine ⟨?_, h2, fun g hg => ?_⟩
          · simp only [kidsOfDict, List.map_cons] at h1 ⊢
            have hf := h3 f (by simp)
            rw [dictGet_put, if_pos rfl] at hf
            rw [← h1]
            congr 1
            simpa [fieldEntry] using congrArg (fun x => x.getD Elem.absent) hf
          · have hg' := h3 g (by simp [hg])
            rw [dictGet_put, if_neg (hpre g hg)] at hg'
            exact hg'

/-- `set_default` of a Dict without a default of its own, in a tree and as a mapping -/
theorem setDefaultRun_mapSetDefault {h : Hdr} (hd : h.dflt = .none) {mode : DictMode} {po : Policy} {fs : List Schema} (hn : (fs.map Schema.name).Nodup)
    {n : Option PStr} {ks : List Elem} (hc : Conforms (.dict h mode po fs) (.dict n ks)) :
    setDefaultRun (.dict h mode po fs) (.dict n ks) =
      (.dict n (kidsOfDict fs (mapSetDefault (mapClassOf o mode po fs) (dictOfKids fs ks)).1),
       (mapSetDefault (mapClassOf o mode po fs) (dictOfKids fs ks)).2) := by
  have hc0 := hc
  rw [Conforms] at hc
  simp only [setDefaultRun, hd]
  rw [hc.1]
  cases mode with
  | full =>
    obtain ⟨h1, h2⟩ := defaultKids_as (po := po) o fs hn fs ks (fun _ h => h) hc.2
    have hcd := setDefaultRun_conforms _ _ hc0
    simp only [setDefaultRun, hd, Conforms] at hcd
    have h3 := kidsOfDict_dictOfKids hn hcd.2
    simp only [mapSetDefault, mapClassOf, mapModeOf, Elem.kids] at h1 h2 h3 ⊢
    rw [← h1, ← h2, h3]
  | sparse =>
    obtain ⟨hk, _⟩ := mapReset_kids (mode := .sparse) (po := po) o hn (allPresent_kids hc.2)
    simp only [mapSetDefault, mapClassOf, mapModeOf] at hk ⊢
    rw [hk]
  | sparseRequired =>
    obtain ⟨hk, _⟩ := mapReset_kids (mode := .sparseRequired) (po := po) o hn (allPresent_kids hc.2)
    obtain ⟨h1, h2, _⟩ := defaultRequired_as (mode := .sparseRequired) o fs hn fs [] rfl _ hk
    simp only [mapSetDefault, mapClassOf, mapModeOf] at h1 h2 ⊢
    rw [h1, h2]

/-! ### Lists and Arrays -/

theorem setMembers_as (m : Schema) : ∀ (vs : List PyVal), setMembers (memberClass o m) (vs.map .val) = membersRun (setRun m (fresh m)) vs
  | [] => rfl
  | v :: vs => by
    simp only [List.map_cons, setMembers, membersRun, setMembers_as m vs]
    simp only [memberClass]
    cases setRun m (fresh m) v with
    | mk e r => cases r <;> first | rfl | (cases membersRun (setRun m (fresh m)) vs <;> rfl)

theorem seqSetRun_list (m : Schema) (st : Slots Elem) (v : PyVal) :
    seqSetRun (setRun m (fresh m)) v = (members (listSet (memberClass o m) st (iterOf v)).1, (listSet (memberClass o m) st (iterOf v)).2) := by
  simp only [seqSetRun, listSet, iterOf, listDelSlice_all]
  cases pyIter v with
  | error er => rfl
  | ok vs =>
    simp only [setItems, setMembers_as]
    cases membersRun (setRun m (fresh m)) vs with
    | error er => cases er <;> rfl
    | ok r =>
      obtain ⟨es, b⟩ := r
      simp only
      rw [(listExtendLoop_members (becomes_el (memberClass o m) es) []).1]
      rfl

theorem seqSetRun_seq (m : Schema) (st : List Elem) (v : PyVal) :
    seqSetRun (setRun m (fresh m)) v = seqSet (memberClass o m) st (iterOf v) := by
  simp only [seqSetRun, seqSet, iterOf, pyDelSlice_all]
  cases pyIter v with
  | error er => rfl
  | ok vs =>
    simp only [setItems, setMembers_as]
    cases membersRun (setRun m (fresh m)) vs with
    | error er => cases er <;> rfl
    | ok r =>
      obtain ⟨es, b⟩ := r
      simp only
      rw [seqExtendLoop_members (becomes_el (memberClass o m) es)]
      simp

/-! ### set_flat -/

theorem setFlatRun_present (sep : PStr) (s : Schema) (e : Elem) (ps : List FPair) (h : e.present = true) : (setFlatRun sep s e ps).1.present = true := by
  cases s with
  | scalar hd t =>
    unfold setFlatRun scalarSetFlatRun
    split <;> rfl
  | dict hd mode po fs =>
    unfold setFlatRun
    split
    · exact h
    · split
      · exact h
      · rfl
  | list hd prune max m =>
    unfold setFlatRun
    split <;> rfl
  | array hd prune m => cases m <;> (unfold setFlatRun; rfl)

theorem flatLoop_as (sep : PStr) (ps : List FPair) (all : List Schema) (hn : (all.map Schema.name).Nodup) : ∀ (fs pre : List Schema), all = pre ++ fs →
    ∀ (d : PyDict (Option PStr) Elem), AllPresent d →
    kidsOfDict fs (flatLoop (flatEffect sep all ps) (fs.map (fieldEntry o)) d).1 = (fieldsRun sep fs (kidsOfDict fs d) ps).1 ∧
      (flatLoop (flatEffect sep all ps) (fs.map (fieldEntry o)) d).2 = (fieldsRun sep fs (kidsOfDict fs d) ps).2 ∧
      ∀ g ∈ pre, dictGet (flatLoop (flatEffect sep all ps) (fs.map (fieldEntry o)) d).1 g.name = dictGet d g.name
  | [], pre, _, d, _ => ⟨rfl, rfl, fun _ _ => rfl⟩
  | f :: fs, pre, hall, d, hp => by
    have hrest : ∀ g' ∈ fs, f.name ≠ g'.name := by
      intro g' hg' h
      have : all = (pre ++ [f]) ++ fs := by simp [hall]
      rw [this, List.map_append, List.nodup_append] at hn
      exact hn.2.2 f.name (List.mem_map.2 ⟨f, by simp, rfl⟩) g'.name (List.mem_map.2 ⟨g', hg', rfl⟩) h
    have hpre : ∀ g ∈ pre, g.name ≠ f.name := by
      intro g hg h
      rw [hall, List.map_append, List.nodup_append] at hn
      exact hn.2.2 g.name (List.mem_map.2 ⟨g, hg, rfl⟩) f.name (by simp) h
    have hfm : f ∈ all := by simp [hall]
    have hfind : all.find? (fun g => g.name == f.name) = some f := by
      cases hfd : all.find? (fun g => g.name == f.name) with
      | none =>
        rw [List.find?_eq_none] at hfd
        exact absurd (by simp) (hfd f hfm)
      | some g =>
        have h3 := List.find?_some hfd
        simp only [beq_iff_eq] at h3
        rw [schema_unique hn (List.mem_of_find?_eq_some hfd) hfm h3]
    have hkid : orFresh f ((dictGet d f.name).getD .absent) = (dictGet d f.name).getD (fresh f) := by
      cases hd : dictGet d f.name with
      | none => rfl
      | some e => exact orFresh_present (hp _ _ hd)
    have hkids : kidsOfDict (f :: fs) d = (dictGet d f.name).getD .absent :: kidsOfDict fs d := rfl
    have hname : (fieldEntry o f).name = f.name := rfl
    simp only [List.map_cons, flatLoop, fieldsRun, hname, flatEffect, hfind, hkids, List.headD_cons, List.tail_cons]
    cases hacc : accumField f.name ps with
    | error er => exact ⟨hkids, rfl, fun _ _ => rfl⟩
    | ok accum =>
      cases accum with
      | nil =>
        obtain ⟨h1, h2, h3⟩ := flatLoop_as sep ps all hn fs (pre ++ [f]) (by simp [hall]) d hp
        simp only [List.isEmpty_nil, if_true]
        refine ⟨?_, h2, fun g hg => h3 g (by simp [hg])⟩
        simp only [kidsOfDict, List.map_cons] at h1 ⊢
        rw [← h1, h3 f (by simp)]
      | cons a accum =>
        have hne : ((a :: accum).isEmpty = true) = False := by simp
        simp only [hne, if_false, hkid]
        have hpe : ((dictGet d f.name).getD (fresh f)).present = true := by
          cases hg : dictGet d f.name with
          | none => exact fresh_presentE _
          | some e => exact hp _ _ hg
        have hpr := setFlatRun_present sep f _ (a :: accum) hpe
        have hblank : (fieldEntry o f).cls.blank = fresh f := rfl
        rw [hblank]
        cases hr : setFlatRun sep f ((dictGet d f.name).getD (fresh f)) (a :: accum) with
        | mk e' r =>
          rw [hr] at hpr
          cases r with
          | error er =>
            refine ⟨?_, rfl, fun g hg => ?_⟩
            · simp only [kidsOfDict, List.map_cons, dictGet_put, if_true, Option.getD_some, List.cons.injEq, true_and]
              refine List.map_congr_left fun g hg => ?_
              rw [if_neg (fun h => hrest g hg h.symm)]
            · simp only [dictGet_put]
              rw [if_neg (hpre g hg)]
          | ok u =>
            obtain ⟨h1, h2, h3⟩ := flatLoop_as sep ps all hn fs (pre ++ [f]) (by simp [hall]) (dictPut d f.name e') (allPresent_put hp _ hpr)
            have hput : kidsOfDict fs (dictPut d f.name e') = kidsOfDict fs d := by
              simp only [kidsOfDict]
              refine List.map_congr_left fun g hg => ?_
              rw [dictGet_put, if_neg (fun h => hrest g hg h.symm)]
            rw [hput] at h1 h2
            simp only
            refine ⟨?_, h2, fun g hg => ?_⟩
            · have hf := h3 f (by simp)
              rw [dictGet_put, if_pos rfl] at hf
              simp only [kidsOfDict, List.map_cons] at h1 ⊢
              rw [← h1, hf]
              rfl
            · have hg' := h3 g (by simp [hg])
              rw [dictGet_put, if_neg (hpre g hg)] at hg'
              exact hg'

/-- `set_flat` of a Dict in a tree and as a mapping -/
theorem setFlatRun_mapSetFlat (sep : PStr) {h : Hdr} {mode : DictMode} {po : Policy} {fs : List Schema} (hn : (fs.map Schema.name).Nodup)
    {n : Option PStr} {ks : List Elem} (hc : Conforms (.dict h mode po fs) (.dict n ks)) (ps poss : List FPair)
    (hposs : dictPossibles sep h.name ps = .ok poss) :
    setFlatRun sep (.dict h mode po fs) (.dict n ks) ps =
      (.dict n (kidsOfDict fs (mapSetFlat (mapClassOf o mode po fs) (dictOfKids fs ks) (flatEffect sep fs poss)).1),
       (mapSetFlat (mapClassOf o mode po fs) (dictOfKids fs ks) (flatEffect sep fs poss)).2) := by
  rw [Conforms] at hc
  obtain ⟨h1, h2, _⟩ := flatLoop_as o sep poss fs hn fs [] rfl _ (allPresent_kids hc.2)
  rw [kidsOfDict_dictOfKids hn hc.2] at h1 h2
  simp only [setFlatRun, hposs, Elem.kids]
  simp only [mapSetFlat, mapClassOf]
  by_cases hemp : poss.isEmpty = true
  · rw [if_pos hemp]
    have hnil : poss = [] := List.isEmpty_iff.1 hemp
    subst hnil
    have hskip : ∀ gs : List (Field (Option PStr) PyVal Elem), ∀ d : PyDict (Option PStr) Elem, flatLoop (flatEffect sep fs []) gs d = (d, .ok ()) := by
      intro gs
      induction gs with
      | nil => intro d; rfl
      | cons g gs ih =>
        intro d
        have : flatEffect sep fs [] g.name = .skip := by
          simp only [flatEffect]
          cases fs.find? (fun f => f.name == g.name) <;> rfl
        simp only [flatLoop, this, ih]
    rw [hskip, kidsOfDict_dictOfKids hn hc.2]
  · rw [if_neg hemp, h1, h2, hc.1]

end

end Flatland
