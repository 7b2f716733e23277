import Verif.Spec.RichValues
import Verif.Proofs.ValueSet
import Verif.Proofs.Submissions
import Verif.Proofs.Compounds
/-! Lemmas about values, `set` and defaults of forms with DateYYYYMMDDs and JoinedStrings. -/
namespace Flatland
open Flatland.Spec

section
variable [Runtime]

omit [Runtime] in
theorem vconforms_name {s : VSchema} {e : VElem} (h : VConforms s e) : e.name = s.name ∧ e.present = true := by
  cases s <;> cases e <;> simp only [VConforms] at h
  case plain.plain s e => exact conforms_name h
  all_goals simp [VElem.name, VSchema.name, VSchema.hdr, VElem.present, h]

omit [Runtime] in
mutual
theorem vFresh_conforms : ∀ s : VSchema, VConforms s (vFresh s)
  | .plain s => by rw [vFresh, VConforms]; exact fresh_conforms s
  | .joined h c => by simp [vFresh, VConforms]
  | .date h st fs => by simp [vFresh, VConforms]
  | .dict h mode p fs => by rw [vFresh, VConforms]; exact ⟨rfl, vFreshFields_conforms mode fs⟩
  | .list h p n m => by simp [vFresh, VConforms]
  | .array h p m => by simp [vFresh, VConforms]
theorem vFreshFields_conforms (mode : DictMode) : ∀ fs : List VSchema, VConformsAll mode fs (vFreshFields mode fs)
  | [] => by simp [vFreshFields, VConformsAll]
  | f :: fs => by
    rw [vFreshFields, VConformsAll]
    refine ⟨?_, vFreshFields_conforms mode fs⟩
    cases mode with
    | full => exact .inr (by simpa [vAutoField] using vFresh_conforms f)
    | sparse => exact .inl ⟨by simp [vAutoField], .inl rfl⟩
    | sparseRequired =>
      cases ho : f.hdr.optional with
      | true => exact .inl ⟨by simp [vAutoField, ho], .inr ⟨rfl, ho⟩⟩
      | false => exact .inr (by simpa [vAutoField, ho] using vFresh_conforms f)
end

theorem vSetters_eq (fs : List VSchema) : vSetters fs = fs.map vSet := by
  induction fs with
  | nil => rfl
  | cons f fs ih => simp [vSetters, ih]

omit [Runtime] in
theorem vFieldPos_at (fs₁ : List VSchema) (f : VSchema) (fs₂ : List VSchema) (hn : ((fs₁ ++ f :: fs₂).map VSchema.name).Nodup) (k : PStr) (hk : f.name = some k) :
    fieldPos ((fs₁ ++ f :: fs₂).map VSchema.name) (.str k) = .ok (some fs₁.length) := by
  simp only [fieldPos]
  congr 1
  rw [List.findIdx?_eq_some_iff_getElem]
  refine ⟨by simp, by simp [hk], ?_⟩
  intro j hj
  simp only [List.getElem_map, beq_iff_eq]
  intro hh
  have h1 : ((fs₁ ++ f :: fs₂).map VSchema.name)[j]'(by simp; omega) = ((fs₁ ++ f :: fs₂).map VSchema.name)[fs₁.length]'(by simp) := by
    simp only [List.getElem_map]
    rw [hh, List.getElem_append_right (Nat.le_refl _)]
    simp [hk]
  have := (List.getElem_inj hn).mp h1
  omega

omit [Runtime] in
theorem vFreshFields_lack {mode : DictMode} {f : VSchema} (h : mayLack mode f) (fs : List VSchema) :
    vFreshFields mode (f :: fs) = .plain .absent :: vFreshFields mode fs := by
  rw [vFreshFields]
  rcases h with rfl | ⟨rfl, h⟩
  · simp [vAutoField]
  · simp [vAutoField, h]

omit [Runtime] in
theorem vFreshFields_cons (mode : DictMode) (f : VSchema) (fs : List VSchema) : ∃ k, vFreshFields mode (f :: fs) = k :: vFreshFields mode fs :=
  ⟨_, by rw [vFreshFields]⟩

omit [Runtime] in
/-- what `VEach` says about a missing field -/
theorem vEach_absent (P J D) (f : VSchema) : VEach P J D f (.plain .absent) := by
  cases f <;> simp [VEach, Elem.present]

/-- the members of a sequence, set from their values -/
theorem vMemberLoop_value (m : VSchema) : ∀ (ks : List VElem),
    (∀ k ∈ ks, ∃ v k' b, vValue k = .ok v ∧ vSet m v = .ok (k', b) ∧ (b = true ↔ VEach (fun _ _ => True) TakesText TakesValue m k) ∧ VSame k k') →
    ∃ vs ks' b, vValues ks = .ok vs ∧ memberSetLoop (vSet m) vs = .ok (ks', b) ∧
      (b = true ↔ ∀ k ∈ ks, VEach (fun _ _ => True) TakesText TakesValue m k) ∧ VSameAll ks ks'
  | [], _ => ⟨[], [], true, by simp [vValues], by simp [memberSetLoop], by simp, by simp [VSameAll]⟩
  | k :: ks, h => by
    obtain ⟨v, k', b, h0, h1, h2, h3⟩ := h k (by simp)
    obtain ⟨vs, ks', bs, g0, g1, g2, g3⟩ := vMemberLoop_value m ks fun x hx => h x (by simp [hx])
    refine ⟨v :: vs, k' :: ks', b && bs, by simp [vValues, h0, g0, Except.map], by simp [memberSetLoop, h1, g1], ?_, by rw [VSameAll]; exact ⟨h3, g3⟩⟩
    rw [Bool.and_eq_true, h2, g2]
    simp

mutual
theorem vSet_value : ∀ (s : VSchema) (e : VElem), VNamed s → VConforms s e → VComplete s e → VEach PlainKeeps JoinedKeeps DateKeeps s e →
    ∃ v e' b, vValue e = .ok v ∧ vSet s v = .ok (e', b) ∧ (b = true ↔ VEach (fun _ _ => True) TakesText TakesValue s e) ∧ VSame e e'
  | .plain s, e, hn, hc, hp, hs => by
    cases e <;> simp only [VConforms] at hc
    rename_i e
    rw [VNamed] at hn
    rw [VComplete] at hp
    rw [VEach] at hs
    obtain ⟨e', h1, h2⟩ := setVal_value s false e hn hc hp (hs (conforms_name hc).2)
    exact ⟨_, .plain e', true, by rw [vValue], by rw [vSet, h1]; rfl, by simp [VEach], by rw [VSame]; exact h2⟩
  | .joined h c, e, hn, hc, hp, hs => by
    cases e <;> simp only [VConforms] at hc
    obtain ⟨rfl, rfl⟩ := hc
    rw [VEach] at hs
    obtain ⟨ms', b, h1, h2⟩ := hs
    refine ⟨_, .joined h.name _ ms', b, by rw [vValue], by rw [vSet, h1], ?_, by rw [VSame]; exact ⟨rfl, rfl, h2⟩⟩
    rw [VEach, TakesText, h1]
    simp
  | .date h st fs, e, hn, hc, hp, hs => by
    cases e <;> simp only [VConforms] at hc
    rename_i n doStrip sts
    obtain ⟨rfl, rfl, hl⟩ := hc
    rw [VEach] at hs
    obtain ⟨u, v, sts', b, h0, h1, h2⟩ := hs
    simp only [List.map_map, Function.comp_def] at h1
    refine ⟨v, .date h.name doStrip sts', b, by rw [vValue, h0]; rfl, by rw [vSet]; simp only [h1], ?_, by rw [VSame]; exact ⟨rfl, rfl, h2⟩⟩
    rw [VEach, TakesValue]
    simp only [h0, List.map_map, Function.comp_def]
    constructor
    · rintro rfl
      exact ⟨u, v, rfl, by rw [h1]⟩
    · rintro ⟨u', v', hh, h3⟩
      cases hh
      rw [h1] at h3
      simpa using h3
  | .dict h mode policy fs, e, hn, hc, hp, hs => by
    cases e <;> simp only [VConforms] at hc
    rename_i n ks
    rw [VNamed] at hn
    rw [VComplete] at hp
    rw [VEach] at hs
    obtain ⟨l, ks', b, seen, h0, h1, hb, h2, h3⟩ := vDictLoop_value mode policy fs [] [] ks [] true hn.1 (by simpa using hn.2.1) hn.2.2 hc.2 hp.2 hs rfl
    refine ⟨.dict l, .dict h.name ks', b, by rw [vValue, h0]; rfl, ?_, ?_, ?_⟩
    · rw [vSet, vDictSet, valuePairs]
      simp only [List.nil_append] at h1
      simp only [vSetters_eq, h1]
      rw [if_neg]
      rintro ⟨hst, hall⟩
      apply hall
      rw [List.all_eq_true]
      intro i hi
      simp only [List.length_map, List.mem_range] at hi
      have := h3.1 (hp.1 hst) i
      simp only [List.length_nil, Nat.zero_le, List.nil_append] at this
      simpa using this trivial hi
    · rw [hb, VEach]; simp
    · rw [VSame]; exact ⟨hc.1, h2⟩
  | .list h prune max m, e, hn, hc, hp, hs => by
    cases e <;> simp only [VConforms] at hc
    rename_i n ks
    rw [VNamed] at hn
    rw [VComplete] at hp
    rw [VEach] at hs
    obtain ⟨vs, ks', b, h0, h1, hb, h2⟩ := vMemberLoop_value m ks fun k hk => vSet_value m k hn (hc.2 k hk) (hp k hk) (hs k hk)
    refine ⟨.list vs, .list h.name ks', b, by rw [vValue, h0]; rfl, ?_, by rw [hb, VEach], ?_⟩
    · rw [vSet, seqSetVal, pyIter]; simp only [h1]
    · rw [VSame]; exact ⟨hc.1, h2⟩
  | .array h prune m, e, hn, hc, hp, hs => by
    cases e <;> simp only [VConforms] at hc
    rename_i n ks
    rw [VNamed] at hn
    rw [VComplete] at hp
    rw [VEach] at hs
    obtain ⟨vs, ks', b, h0, h1, hb, h2⟩ := vMemberLoop_value m ks fun k hk => vSet_value m k hn (hc.2 k hk) (hp k hk) (hs k hk)
    refine ⟨.list vs, .array h.name ks', b, by rw [vValue, h0]; rfl, ?_, by rw [hb, VEach], ?_⟩
    · rw [vSet, seqSetVal, pyIter]; simp only [h1]
    · rw [VSame]; exact ⟨hc.1, h2⟩
/-- the rest of the loop, at fields `fs₂` after `fs₁` -/
theorem vDictLoop_value (mode : DictMode) (policy : Policy) : ∀ (fs₂ fs₁ : List VSchema) (done ks : List VElem) (seen : List Nat) (c : Bool),
    (∀ f ∈ fs₂, f.name ≠ .none) → ((fs₁ ++ fs₂).map VSchema.name).Nodup → VNamedAll fs₂ → VConformsAll mode fs₂ ks → VCompleteAll fs₂ ks →
    VEachAll PlainKeeps JoinedKeeps DateKeeps fs₂ ks → done.length = fs₁.length →
    ∃ l ks' b seen', vItems ks = .ok l ∧
      dictSetLoop policy ((fs₁ ++ fs₂).map VSchema.name) ((fs₁ ++ fs₂).map vSet) (done ++ vFreshFields mode fs₂) seen c
        (l.map fun q => .ok (.str q.1, q.2)) = .ok (done ++ ks', seen', b) ∧
      (b = true ↔ c = true ∧ VEachAll (fun _ _ => True) TakesText TakesValue fs₂ ks) ∧ VSameAll ks ks' ∧
      ((∀ k ∈ ks, k.present = true) → ∀ i, fs₁.length ≤ i → i < (fs₁ ++ fs₂).length → i ∈ seen') ∧ ∀ i ∈ seen, i ∈ seen'
  | [], fs₁, done, ks, seen, c, _, _, _, hc, _, _, _ => by
    cases ks with
    | cons k ks => simp [VConformsAll] at hc
    | nil =>
      refine ⟨[], [], c, seen, by simp [vItems], by simp [dictSetLoop, vFreshFields], by simp [VEachAll], by simp [VSameAll], ?_, by simp⟩
      intro _ i h1 h2
      simp at h2; omega
  | f :: fs, fs₁, done, ks, seen, c, hnn, hnd, hnf, hc, hcomp, hs, hlen => by
    cases ks with
    | nil => simp [VConformsAll] at hc
    | cons k ks =>
      rw [VConformsAll] at hc
      rw [VNamedAll] at hnf
      rw [VCompleteAll] at hcomp
      rw [VEachAll] at hs
      have happ : fs₁ ++ f :: fs = (fs₁ ++ [f]) ++ fs := by simp
      rcases hc.1 with ⟨rfl, hlack⟩ | hck
      · obtain ⟨l, ks', b, seen', h0, h1, hb, h2, h3, h4⟩ := vDictLoop_value mode policy fs (fs₁ ++ [f]) (done ++ [.plain .absent]) ks seen c (fun g hg => hnn g (by simp [hg]))
          (by rw [← happ]; exact hnd) hnf.2 hc.2 hcomp.2 hs.2 (by simp [hlen])
        refine ⟨l, .plain .absent :: ks', b, seen', ?_, ?_, ?_, by rw [VSameAll]; exact ⟨by simp [VSame, SameBy], h2⟩, ?_, h4⟩
        · rw [vItems, if_neg (by simp [VElem.present, Elem.present])]; exact h0
        · rw [vFreshFields_lack hlack, happ]
          simpa using h1
        · rw [hb, VEachAll]
          simp [vEach_absent]
        · intro hall
          have := hall (.plain .absent) (by simp)
          simp [VElem.present, Elem.present] at this
      · obtain ⟨v, k', bk, hk0, hk1, hkb, hk2⟩ := vSet_value f k hnf.1 hck hcomp.1 hs.1
        obtain ⟨hname, hpres⟩ := vconforms_name hck
        obtain ⟨kn, hkn⟩ : ∃ kn, f.name = some kn := by
          cases hfn : f.name with
          | none => exact absurd hfn (hnn f (by simp))
          | some kn => exact ⟨kn, rfl⟩
        obtain ⟨l, ks', b, seen', h0, h1, hb, h2, h3, h4⟩ := vDictLoop_value mode policy fs (fs₁ ++ [f]) (done ++ [k']) ks (fs₁.length :: seen) (c && bk) (fun g hg => hnn g (by simp [hg]))
          (by rw [← happ]; exact hnd) hnf.2 hc.2 hcomp.2 hs.2 (by simp [hlen])
        refine ⟨(kn, v) :: l, k' :: ks', b, seen', ?_, ?_, ?_, by rw [VSameAll]; exact ⟨hk2, h2⟩, ?_, fun i hi => h4 i (by simp [hi])⟩
        · rw [vItems, if_pos hpres, hk0, h0, hname, hkn]; rfl
        · rw [List.map_cons, dictSetLoop, vFieldPos_at fs₁ f fs hnd kn hkn]
          have hget : ((fs₁ ++ f :: fs).map vSet)[fs₁.length]? = some (vSet f) := by
            rw [List.map_append, List.getElem?_append_right (by simp)]
            simp
          simp only [hget, hk1]
          have hset : (done ++ vFreshFields mode (f :: fs)).set fs₁.length k' = (done ++ [k']) ++ vFreshFields mode fs := by
            obtain ⟨k0, hk0'⟩ := vFreshFields_cons mode f fs
            rw [hk0', ← hlen, List.set_append]
            simp
          rw [hset, happ]
          simpa using h1
        · rw [hb, VEachAll, Bool.and_eq_true, hkb]
          constructor
          · rintro ⟨⟨a, b⟩, d⟩; exact ⟨a, b, d⟩
          · rintro ⟨a, b, d⟩; exact ⟨⟨a, b⟩, d⟩
        · intro hall i hi1 hi2
          by_cases he : i = fs₁.length
          · exact h4 i (by simp [he])
          · exact h3 (fun x hx => hall x (by simp [hx])) i (by simp; omega) (by simpa using hi2)
end

/-! ### what `set` of a Dict does -/

/-- one entry: nothing, or the element and result for a field -/
def vStepEntry (pol : Policy) (fs : List VSchema) (x : Entry) : Except PyErr (Option (Nat × VElem × Bool)) :=
  match x with
  | .bad er => .error er
  | .pair k v => match fieldPos (fs.map VSchema.name) k with
    | .error er => .error er
    | .ok .none => if pol = .duck then .ok .none else .error .key
    | .ok (some i) => match fs[i]? with
      | .none => .error .key
      | some f => match vSet f v with
        | .error er => .error er
        | .ok (e, b) => .ok (some (i, e, b))

theorem vDictSetLoop_cons (pol : Policy) (fs : List VSchema) (kids : List VElem) (seen : List Nat) (c : Bool) (x : Entry) (l : List Entry) :
    dictSetLoop pol (fs.map VSchema.name) (vSetters fs) kids seen c ((x :: l).map Entry.asPair) =
      match vStepEntry pol fs x with
      | .error er => .error er
      | .ok .none => dictSetLoop pol (fs.map VSchema.name) (vSetters fs) kids seen c (l.map Entry.asPair)
      | .ok (some (i, e, b)) => dictSetLoop pol (fs.map VSchema.name) (vSetters fs) (kids.set i e) (i :: seen) (c && b) (l.map Entry.asPair) := by
  cases x with
  | bad er => rfl
  | pair k v =>
    rw [List.map_cons, Entry.asPair, dictSetLoop, vStepEntry]
    cases hp : fieldPos (fs.map VSchema.name) k with
    | error er => rfl
    | ok o =>
      cases o with
      | none => simp only []; split <;> simp_all
      | some i =>
        simp only [vSetters_eq, List.getElem?_map]
        cases fs[i]? with
        | none => rfl
        | some f =>
          simp only [Option.map_some]
          cases vSet f v with
          | error er => rfl
          | ok r => rfl

omit [Runtime] in
theorem vFieldPos_spec (fs : List VSchema) (hn : (fs.map VSchema.name).Nodup) (k : PyVal) :
    (Unhashable k ∧ fieldPos (fs.map VSchema.name) k = .error .type) ∨
    (¬ Unhashable k ∧ VUnknown fs k ∧ fieldPos (fs.map VSchema.name) k = .ok .none) ∨
    (∃ i f n, ¬ Unhashable k ∧ k = .str n ∧ fs[i]? = some f ∧ f.name = some n ∧ fieldPos (fs.map VSchema.name) k = .ok (some i)) := by
  cases k with
  | list => exact .inl ⟨trivial, rfl⟩
  | dict => exact .inl ⟨trivial, rfl⟩
  | str n =>
    by_cases h : some n ∈ fs.map VSchema.name
    · refine .inr (.inr ?_)
      obtain ⟨f, hf, hfn⟩ := List.mem_map.1 h
      obtain ⟨fs₁, fs₂, rfl⟩ := List.append_of_mem hf
      refine ⟨fs₁.length, f, n, id, rfl, by simp, hfn, ?_⟩
      exact vFieldPos_at fs₁ f fs₂ hn n hfn
    · refine .inr (.inl ⟨id, ?_, ?_⟩)
      · intro f hf m hm e
        cases e
        exact h (List.mem_map.2 ⟨f, hf, hm⟩)
      · simp only [fieldPos, Except.ok.injEq]
        rw [List.findIdx?_eq_none_iff]
        intro x hx
        rw [beq_eq_false_iff_ne]
        rintro rfl
        exact h hx
  | _ => exact .inr (.inl ⟨id, by intro _ _ _ _; simp, rfl⟩)

omit [Runtime] in
theorem vSame_field {fs : List VSchema} (hn : (fs.map VSchema.name).Nodup) {i j : Nat} {f g : VSchema} (hi : fs[i]? = some f) (hj : fs[j]? = some g)
    (h : f.name = g.name) : i = j := by
  have h1 : (fs.map VSchema.name)[i]? = some f.name := by simp [hi]
  have h2 : (fs.map VSchema.name)[j]? = some f.name := by simp [hj, h]
  have hl : i < (fs.map VSchema.name).length := by
    have := (List.getElem?_eq_some_iff.1 h1).1; exact this
  exact (List.getElem?_inj hl hn).1 (h1.trans h2.symm)

/-- the three things that can happen at an entry -/
theorem vStepEntry_spec (pol : Policy) (fs : List VSchema) (hn : (fs.map VSchema.name).Nodup) (x : Entry) :
    (∃ er, VStopsAt pol fs x er ∧ (∀ er', VStopsAt pol fs x er' → er' = er) ∧ vStepEntry pol fs x = .error er) ∨
    ((∀ er, ¬ VStopsAt pol fs x er) ∧ (∀ f ∈ fs, ∀ v, ¬ VSupplies f x v) ∧ vStepEntry pol fs x = .ok .none) ∨
    (∃ i f v e b, (∀ er, ¬ VStopsAt pol fs x er) ∧ fs[i]? = some f ∧ VSupplies f x v ∧ vSet f v = .ok (e, b) ∧
      vStepEntry pol fs x = .ok (some (i, e, b))) := by
  cases x with
  | bad er =>
    refine .inl ⟨er, .bad er, fun er' h => ?_, rfl⟩
    cases h with
    | bad => rfl
    | field _ h _ => obtain ⟨_, _, h⟩ := h; cases h
  | pair k v =>
    rcases vFieldPos_spec fs hn k with ⟨hu, hp⟩ | ⟨hu, hk, hp⟩ | ⟨i, f, n, hu, rfl, hi, hfn, hp⟩
    · refine .inl ⟨.type, .unhashable hu, fun er' h => ?_, by simp [vStepEntry, hp]⟩
      cases h with
      | unhashable => rfl
      | unknown h => exact absurd hu h
      | field _ h _ => obtain ⟨_, _, h⟩ := h; cases h; exact hu.elim
    · have nosup : ∀ f ∈ fs, ∀ w, ¬ VSupplies f (.pair k v) w := by
        rintro f hf w ⟨n, hn', e⟩
        cases e
        exact hk f hf n hn' rfl
      by_cases hd : pol = .duck
      · refine .inr (.inl ⟨fun er h => ?_, nosup, by simp [vStepEntry, hp, hd]⟩)
        cases h with
        | unhashable h => exact hu h
        | unknown _ _ h => exact h hd
        | field hf h _ => exact nosup _ hf _ h
      · refine .inl ⟨.key, .unknown hu hk hd, fun er' h => ?_, by simp [vStepEntry, hp, hd]⟩
        cases h with
        | unhashable h => exact absurd h hu
        | unknown => rfl
        | field hf h _ => exact (nosup _ hf _ h).elim
    · have uniq : ∀ g ∈ fs, ∀ w, VSupplies g (.pair (.str n) v) w → g = f ∧ w = v := by
        rintro g hg w ⟨m, hm, e⟩
        cases e
        obtain ⟨j, hj⟩ := List.getElem?_of_mem hg
        have := vSame_field hn hi hj (hfn.trans hm.symm)
        subst this
        rw [hi] at hj
        exact ⟨(Option.some.inj hj).symm, rfl⟩
      have hfm : f ∈ fs := List.mem_of_getElem? hi
      have only : ∀ er', VStopsAt pol fs (.pair (.str n) v) er' → vSet f v = .error er' := by
        intro er' h
        cases h with
        | unhashable h => exact hu.elim h
        | unknown _ h _ => exact (h f hfm n hfn rfl).elim
        | field hg hs he => obtain ⟨rfl, rfl⟩ := uniq _ hg _ hs; exact he
      cases hs : vSet f v with
      | error er =>
        refine .inl ⟨er, .field hfm ⟨n, hfn, rfl⟩ hs, fun er' h => ?_, by simp [vStepEntry, hp, hi, hs]⟩
        have := only er' h
        rw [hs] at this
        exact (Except.error.inj this).symm
      | ok r =>
        obtain ⟨e, b⟩ := r
        refine .inr (.inr ⟨i, f, v, e, b, fun er h => ?_, hi, ⟨n, hfn, rfl⟩, hs, by simp [vStepEntry, hp, hi, hs]⟩)
        have := only er h
        rw [hs] at this
        cases this

/-- the loop of `Dict.set` stops at the first entry that stops it -/
theorem vDictSetLoop_stops (pol : Policy) (fs : List VSchema) (hn : (fs.map VSchema.name).Nodup) (pre : List Entry) (x : Entry) (post : List Entry)
    (er : PyErr) (hpre : ∀ y ∈ pre, ∀ er', ¬ VStopsAt pol fs y er') (hx : VStopsAt pol fs x er) (kids : List VElem) (seen : List Nat) (c : Bool) :
    dictSetLoop pol (fs.map VSchema.name) (vSetters fs) kids seen c ((pre ++ x :: post).map Entry.asPair) = .error er := by
  induction pre generalizing kids seen c with
  | nil =>
    rw [List.nil_append, vDictSetLoop_cons]
    rcases vStepEntry_spec pol fs hn x with ⟨er', h1, h2, h3⟩ | ⟨h1, _⟩ | ⟨_, _, _, _, _, h1, _⟩
    · rw [h3, h2 er hx]
    · exact (h1 er hx).elim
    · exact (h1 er hx).elim
  | cons y pre ih =>
    rw [List.cons_append, vDictSetLoop_cons]
    rcases vStepEntry_spec pol fs hn y with ⟨er', h1, _⟩ | ⟨_, _, h3⟩ | ⟨_, _, _, _, _, _, _, _, _, h3⟩
    · exact (hpre y (by simp) er' h1).elim
    · rw [h3]; exact ih (fun z hz => hpre z (by simp [hz])) ..
    · rw [h3]; exact ih (fun z hz => hpre z (by simp [hz])) ..

/-- what is at a field afterwards: the last value supplied, or what was there -/
def VLeftFrom (f : VSchema) (l : List Entry) (old kid : VElem) : Prop :=
  (VUnsupplied f l ∧ kid = old) ∨
  ∃ pre x post v b, l = pre ++ x :: post ∧ VSupplies f x v ∧ VUnsupplied f post ∧ vSet f v = .ok (kid, b)

theorem vLeftFrom_cons_none {f : VSchema} {x : Entry} {l : List Entry} {old kid : VElem} (hx : ∀ v, ¬ VSupplies f x v) (h : VLeftFrom f l old kid) :
    VLeftFrom f (x :: l) old kid := by
  rcases h with ⟨h1, h2⟩ | ⟨pre, y, post, v, b, rfl, h1⟩
  · exact .inl ⟨fun y hy => by rcases List.mem_cons.1 hy with rfl | hy; exact hx; exact h1 y hy, h2⟩
  · exact .inr ⟨x :: pre, y, post, v, b, rfl, h1⟩

theorem vLeftFrom_cons_some {f : VSchema} {x : Entry} {l : List Entry} {old kid e : VElem} {v : PyVal} {b : Bool} (hx : VSupplies f x v)
    (he : vSet f v = .ok (e, b)) (h : VLeftFrom f l e kid) : VLeftFrom f (x :: l) old kid := by
  rcases h with ⟨h1, rfl⟩ | ⟨pre, y, post, v, b, rfl, h1⟩
  · exact .inr ⟨[], x, l, v, b, rfl, hx, h1, he⟩
  · exact .inr ⟨x :: pre, y, post, v, b, rfl, h1⟩

theorem vDictSetLoop_runs (pol : Policy) (fs : List VSchema) (hn : (fs.map VSchema.name).Nodup) (l : List Entry)
    (hl : ∀ y ∈ l, ∀ er', ¬ VStopsAt pol fs y er') (kids : List VElem) (seen : List Nat) (c : Bool) (hk : kids.length = fs.length) :
    ∃ kids' seen' c', dictSetLoop pol (fs.map VSchema.name) (vSetters fs) kids seen c (l.map Entry.asPair) = .ok (kids', seen', c') ∧
      kids'.length = fs.length ∧
      (∀ (i : Nat) (f : VSchema) (old : VElem), fs[i]? = some f → kids[i]? = some old → ∃ kid, kids'[i]? = some kid ∧ VLeftFrom f l old kid) ∧
      (∀ i : Nat, i ∈ seen' ↔ i ∈ seen ∨ ∃ f x v, fs[i]? = some f ∧ x ∈ l ∧ VSupplies f x v) ∧
      (c' = true ↔ c = true ∧ ∀ x ∈ l, ∀ f ∈ fs, ∀ v e b, VSupplies f x v → vSet f v = .ok (e, b) → b = true) := by
  induction l generalizing kids seen c with
  | nil =>
    refine ⟨kids, seen, c, rfl, hk, fun i f old hi ho => ⟨old, ho, .inl ⟨by simp [VUnsupplied], rfl⟩⟩, by simp, by simp⟩
  | cons x l ih =>
    rw [vDictSetLoop_cons]
    have hl' : ∀ y ∈ l, ∀ er', ¬ VStopsAt pol fs y er' := fun y hy => hl y (by simp [hy])
    rcases vStepEntry_spec pol fs hn x with ⟨er', h1, _⟩ | ⟨_, h2, h3⟩ | ⟨i, f, v, e, b, _, hi, hs, he, h3⟩
    · exact (hl x (by simp) er' h1).elim
    · rw [h3]
      obtain ⟨kids', seen', c', g1, g2, g3, g4, g5⟩ := ih hl' kids seen c hk
      refine ⟨kids', seen', c', g1, g2, ?_, ?_, ?_⟩
      · intro i f old hi ho
        obtain ⟨kid, k1, k2⟩ := g3 i f old hi ho
        exact ⟨kid, k1, vLeftFrom_cons_none (h2 f (List.mem_of_getElem? hi)) k2⟩
      · intro i
        rw [g4]
        constructor
        · rintro (h | ⟨f, y, v, a, b, d⟩)
          · exact .inl h
          · exact .inr ⟨f, y, v, a, by simp [b], d⟩
        · rintro (h | ⟨f, y, v, a, b, d⟩)
          · exact .inl h
          · rcases List.mem_cons.1 b with rfl | b
            · exact (h2 f (List.mem_of_getElem? a) v d).elim
            · exact .inr ⟨f, y, v, a, b, d⟩
      · rw [g5]
        constructor
        · rintro ⟨a, b⟩
          refine ⟨a, fun y hy f hf v e b' s => ?_⟩
          rcases List.mem_cons.1 hy with rfl | hy
          · exact (h2 f hf v s).elim
          · exact b y hy f hf v e b' s
        · rintro ⟨a, b⟩
          exact ⟨a, fun y hy => b y (by simp [hy])⟩
    · rw [h3]
      have hfm : f ∈ fs := List.mem_of_getElem? hi
      have uniq : ∀ (j : Nat) g w, fs[j]? = some g → VSupplies g x w → j = i ∧ g = f ∧ w = v := by
        rintro j g w hj ⟨n, gn, rfl⟩
        obtain ⟨m, fm, e⟩ := hs
        cases e
        have := vSame_field hn hj hi (gn.trans fm.symm)
        subst this
        rw [hi] at hj
        exact ⟨rfl, (Option.some.inj hj).symm, rfl⟩
      obtain ⟨kids', seen', c', g1, g2, g3, g4, g5⟩ := ih hl' (kids.set i e) (i :: seen) (c && b) (by simp [hk])
      refine ⟨kids', seen', c', g1, g2, ?_, ?_, ?_⟩
      · intro j g old hj ho
        by_cases hij : j = i
        · subst hij
          rw [hi] at hj
          cases hj
          obtain ⟨kid, k1, k2⟩ := g3 j f e hi (by
            rw [List.getElem?_set_self]
            exact (List.getElem?_eq_some_iff.1 ho).1)
          exact ⟨kid, k1, vLeftFrom_cons_some hs he k2⟩
        · obtain ⟨kid, k1, k2⟩ := g3 j g old hj (by rw [List.getElem?_set_ne (Ne.symm hij)]; exact ho)
          exact ⟨kid, k1, vLeftFrom_cons_none (fun w hw => hij (uniq j g w hj hw).1) k2⟩
      · intro j
        rw [g4]
        constructor
        · rintro (h | ⟨g, y, w, a, b, d⟩)
          · rcases List.mem_cons.1 h with rfl | h
            · exact .inr ⟨f, x, v, hi, by simp, hs⟩
            · exact .inl h
          · exact .inr ⟨g, y, w, a, by simp [b], d⟩
        · rintro (h | ⟨g, y, w, a, b, d⟩)
          · exact .inl (by simp [h])
          · rcases List.mem_cons.1 b with rfl | b
            · exact .inl (by simp [(uniq j g w a d).1])
            · exact .inr ⟨g, y, w, a, b, d⟩
      · rw [g5]
        constructor
        · rintro ⟨a, b'⟩
          rw [Bool.and_eq_true] at a
          refine ⟨a.1, fun y hy g hg w e' b'' s se => ?_⟩
          rcases List.mem_cons.1 hy with rfl | hy
          · obtain ⟨j, hj⟩ := List.getElem?_of_mem hg
            obtain ⟨_, rfl, rfl⟩ := uniq j g w hj s
            rw [he] at se
            cases se
            exact a.2
          · exact b' y hy g hg w e' b'' s se
        · rintro ⟨a, b'⟩
          refine ⟨?_, fun y hy => b' y (by simp [hy])⟩
          rw [a, b' x (by simp) f hfm v e b hs he]
          rfl

omit [Runtime] in
theorem vFreshFields_map (mode : DictMode) (fs : List VSchema) : vFreshFields mode fs = fs.map (vUnsuppliedField mode) := by
  induction fs with
  | nil => rfl
  | cons f fs ih =>
    rw [vFreshFields, ih, List.map_cons]
    congr 1
    unfold vAutoField vUnsuppliedField
    cases mode <;> simp <;> grind

omit [Runtime] in
theorem joinedText_data (c : JoinedCfg) {ms ms' : List ScalarState} (h : dataOf ms = dataOf ms') : joinedText c ms = joinedText c ms' := by
  have : ∀ l : List ScalarState, l.map ScalarState.u = (dataOf l).map Prod.fst := fun l => by simp [dataOf]
  unfold joinedText
  rw [this, this, h]

theorem dateView_data (st : Bool) {sts sts' : List ScalarState} (h : dataOf sts = dataOf sts') : dateView st sts = dateView st sts' := by
  have : ∀ l : List ScalarState, l.map ScalarState.value = (dataOf l).map Prod.snd := fun l => by simp [dataOf]
  unfold dateView
  rw [this, this, h]

omit [Runtime] in
theorem vsame_shape {e e' : VElem} (h : VSame e e') : e.present = e'.present ∧ e.name = e'.name ∧ ∀ (repr : PStr → PStr) u, vQuoted repr e u = vQuoted repr e' u := by
  cases e <;> cases e' <;> simp only [VSame] at h
  case plain.plain a b =>
    obtain ⟨h1, h2, h3⟩ := sameBy_present h
    simp [VElem.present, VElem.name, vQuoted, h1, h2, h3]
  all_goals simp [VElem.present, VElem.name, vQuoted, h]

mutual
/-- trees with the same data have the same value and text -/
theorem vSame_value (repr : PStr → PStr) : ∀ (e e' : VElem), VSame e e' → vValue e = vValue e' ∧ vText repr e = vText repr e'
  | .plain e, e', h => by
    cases e' <;> simp only [VSame] at h
    have := sameData_value repr _ _ h
    simp only [vValue, vText, this.1, this.2, and_self]
  | .joined n c ms, e', h => by
    cases e' <;> simp only [VSame] at h
    obtain ⟨rfl, rfl, h⟩ := h
    simp only [vValue, vText, joinedText_data _ h, and_self]
  | .date n st sts, e', h => by
    cases e' <;> simp only [VSame] at h
    obtain ⟨rfl, rfl, h⟩ := h
    simp only [vValue, vText, dateView_data _ h, and_self]
  | .dict n ks, e', h => by
    cases e' <;> simp only [VSame] at h
    have := vSame_kids repr ks _ h.2
    simp only [vValue, vText, this.1, this.2.1, and_self]
  | .list n ks, e', h => by
    cases e' <;> simp only [VSame] at h
    have := vSame_kids repr ks _ h.2
    simp only [vValue, vText, this.2.2.1, this.2.2.2, and_self]
  | .array n ks, e', h => by
    cases e' <;> simp only [VSame] at h
    have := vSame_kids repr ks _ h.2
    simp only [vValue, vText, this.2.2.1, this.2.2.2, and_self]
theorem vSame_kids (repr : PStr → PStr) : ∀ (ks ks' : List VElem), VSameAll ks ks' →
    vItems ks = vItems ks' ∧ vPairTexts repr ks = vPairTexts repr ks' ∧ vValues ks = vValues ks' ∧ vTexts repr ks = vTexts repr ks'
  | [], ks', h => by
    cases ks' with
    | nil => simp
    | cons => simp [VSameAll] at h
  | k :: ks, ks', h => by
    cases ks' with
    | nil => simp [VSameAll] at h
    | cons k' ks' =>
      rw [VSameAll] at h
      have h1 := vSame_value repr k k' h.1
      have h2 := vSame_kids repr ks ks' h.2
      obtain ⟨g1, g2, g3⟩ := vsame_shape h.1
      simp only [vItems, vPairTexts, vValues, vTexts, h1.1, h1.2, h2.1, h2.2.1, h2.2.2.1, h2.2.2.2, g1, g2, g3, and_self]
end

/-! ### set_default -/

theorem joinedExtend_ok (c : JoinedCfg) : ∀ (vs : List PyVal) (ms : List ScalarState), joinedExtend c vs = .ok ms →
    ms.length = vs.length ∧ ∀ (i : Nat) v st, vs[i]? = some v → ms[i]? = some st → ∃ b, scalarSet c.member .fresh v = (st, .ok b)
  | [], ms, h => by
    simp only [joinedExtend, Except.ok.injEq] at h
    subst h
    simp
  | v :: vs, ms, h => by
    rw [joinedExtend] at h
    cases hs : scalarSet c.member .fresh v with
    | mk st r =>
      rw [hs] at h
      cases r with
      | error er => simp at h
      | ok b =>
        simp only at h
        cases hr : joinedExtend c vs with
        | error er => simp [hr, Except.map] at h
        | ok l =>
          simp only [hr, Except.map, Except.ok.injEq] at h
          subst h
          obtain ⟨h1, h2⟩ := joinedExtend_ok c vs l hr
          refine ⟨by simp [h1], fun i w st' hi hj => ?_⟩
          cases i with
          | zero => simp at hi hj; subst hi; subst hj; exact ⟨b, hs⟩
          | succ i => simp at hi hj; exact h2 i w st' hi hj

theorem dateKidDefaults_ok : ∀ (fs : List (Hdr × ScalarType)) (old sts : List ScalarState), old.length = fs.length → dateKidDefaults fs old = .ok sts →
    sts.length = fs.length ∧
      ∀ (i : Nat) hk t st st', fs[i]? = some (hk, t) → old[i]? = some st → sts[i]? = some st' →
        (hk.dflt = .none → st' = st) ∧ ∀ d, hk.dflt = some d → ∃ b, scalarSet t .fresh d = (st', .ok b)
  | [], old, sts, hl, h => by
    cases old with
    | cons => simp at hl
    | nil =>
      simp only [dateKidDefaults, Except.ok.injEq] at h
      subst h
      simp
  | (hd, t) :: fs, [], sts, hl, h => by simp at hl
  | (hd, t) :: fs, st :: old, sts, hl, h => by
    have key : ∀ st', (dateKidDefaults fs old).map (fun l => st' :: l) = .ok sts → ((hd.dflt = .none → st' = st) ∧ ∀ d, hd.dflt = some d → ∃ b, scalarSet t .fresh d = (st', .ok b)) →
        sts.length = ((hd, t) :: fs).length ∧
        ∀ (i : Nat) hk t₁ st₁ st₂, ((hd, t) :: fs)[i]? = some (hk, t₁) → (st :: old)[i]? = some st₁ → sts[i]? = some st₂ →
          (hk.dflt = .none → st₂ = st₁) ∧ ∀ d, hk.dflt = some d → ∃ b, scalarSet t₁ .fresh d = (st₂, .ok b) := by
      intro st' hm hst
      cases hr : dateKidDefaults fs old with
      | error er => simp [hr, Except.map] at hm
      | ok l =>
        simp only [hr, Except.map, Except.ok.injEq] at hm
        subst hm
        obtain ⟨h1, h2⟩ := dateKidDefaults_ok fs old l (by simpa using hl) hr
        refine ⟨by simp [h1], fun i hk t₁ st₁ st₂ a b c => ?_⟩
        cases i with
        | zero =>
          simp at a b c
          obtain ⟨rfl, rfl⟩ := a
          subst b
          subst c
          exact hst
        | succ i => simp at a b c; exact h2 i hk t₁ st₁ st₂ a b c
    rw [dateKidDefaults] at h
    cases hdd : hd.dflt with
    | none =>
      simp only [hdd] at h
      exact key st h ⟨fun _ => rfl, by simp [hdd]⟩
    | some d =>
      simp only [hdd] at h
      cases hs : scalarSet t st d with
      | mk st' r =>
        rw [hs] at h
        cases r with
        | error er => simp at h
        | ok b =>
          simp only at h
          refine key st' h ⟨by simp [hdd], fun d' hd' => ?_⟩
          rw [hdd] at hd'
          cases hd'
          have := (scalarSet_indep t st .fresh d).1 b (by simp [hs])
          exact ⟨b, this.trans hs⟩

omit [Runtime] in
theorem vRepeatMember_ok {mk : Except PyErr VElem} {n : Nat} {ks : List VElem} (h : repeatMember mk n = .ok ks) :
    ks.length = n ∧ ∀ k ∈ ks, mk = .ok k := by
  induction n generalizing ks with
  | zero => simp only [repeatMember, Except.ok.injEq] at h; subst h; simp
  | succ n ih =>
    simp only [repeatMember] at h
    cases hm : mk with
    | error er => simp [hm] at h
    | ok e =>
      simp only [hm] at h
      cases hr : repeatMember (.ok e) n with
      | error er => simp [hr] at h
      | ok es =>
        simp only [hr, Except.ok.injEq] at h
        subst h
        rw [hm] at ih
        have := ih hr
        simp only [List.length_cons, this.1, true_and, List.mem_cons]
        intro k hk
        rcases hk with rfl | hk
        · rfl
        · exact this.2 k hk

omit [Runtime] in
theorem map_ok {α β : Type} {f : α → β} {x : Except PyErr α} {y : β} (h : x.map f = .ok y) : ∃ a, x = .ok a ∧ f a = y := by
  cases x with
  | error er => simp [Except.map] at h
  | ok a => simp only [Except.map, Except.ok.injEq] at h; exact ⟨a, rfl, h⟩

omit [Runtime] in
theorem vFreshFields_sparse (fs : List VSchema) : vFreshFields .sparse fs = fs.map fun _ => .plain .absent := by
  induction fs with
  | nil => rfl
  | cons f fs ih => simp [vFreshFields, vAutoField, ih]

mutual
theorem vSetDefault_holds : ∀ (s : VSchema) (e e' : VElem), VConforms s e → vSetDefault s e = .ok e' → VHoldsDefault s e e'
  | .plain s, e, e', _, hs => by
    rw [vSetDefault] at hs
    obtain ⟨x, h1, rfl⟩ := map_ok hs
    rw [VHoldsDefault]
    exact ⟨x, rfl, setDefault_holds s _ _ h1⟩
  | .joined h c, e, e', _, hs => by
    rw [VHoldsDefault]
    by_cases hd : h.dflt = .none ∨ h.dflt = some .none
    · rw [if_pos hd]
      rw [vSetDefault.eq_def] at hs
      rcases hd with hd | hd <;> simp only [hd, Except.ok.injEq] at hs <;> exact hs.symm
    · rw [if_neg hd]
      cases hdd : h.dflt with
      | none => exact absurd (.inl hdd) hd
      | some d =>
        have hne : d ≠ .none := by intro hh; subst hh; exact hd (.inr hdd)
        rw [vSetDefault.eq_def] at hs
        simp only [hdd] at hs
        have hs' : (match pyIter d with
            | .error er => .error er
            | .ok vs => (joinedExtend c vs).map fun ms => VElem.joined h.name c ms) = Except.ok (ε := PyErr) e' := by
          cases d <;> first | exact absurd rfl hne | exact hs
        rw [pyIter_items] at hs'
        cases hi : itemsOf d with
        | none => simp [hi] at hs'
        | some vs =>
          simp only [hi] at hs'
          obtain ⟨ms, h1, rfl⟩ := map_ok hs'
          obtain ⟨h2, h3⟩ := joinedExtend_ok c vs ms h1
          exact ⟨d, vs, ms, rfl, hi, rfl, h2, h3⟩
  | .date h strip fs, e, e', hc, hs => by
    cases e <;> simp only [VConforms] at hc
    rename_i n strip' sts0
    rw [VHoldsDefault]
    by_cases hd : h.dflt = .none ∨ h.dflt = some .none
    · rw [if_pos hd]
      have hs' : (dateKidDefaults fs sts0).map (fun sts => VElem.date h.name strip sts) = .ok e' := by
        rw [vSetDefault.eq_def] at hs
        rcases hd with hd | hd <;> simp only [hd] at hs <;> exact hs
      obtain ⟨sts, h1, rfl⟩ := map_ok hs'
      obtain ⟨h2, h3⟩ := dateKidDefaults_ok fs sts0 sts hc.2.2 h1
      exact ⟨sts, rfl, h2, h3⟩
    · rw [if_neg hd]
      cases hdd : h.dflt with
      | none => exact absurd (.inl hdd) hd
      | some d =>
        have hne : d ≠ .none := by intro hh; subst hh; exact hd (.inr hdd)
        rw [vSetDefault.eq_def] at hs
        simp only [hdd] at hs
        cases hr : dateSet strip (fs.map Prod.snd) (VElem.date n strip' sts0).parts d with
        | mk sts r =>
          have hs' : (match (sts, r) with
              | (_, .error er) => .error er
              | (sts, .ok _) => .ok (VElem.date h.name strip sts)) = Except.ok (ε := PyErr) e' := by
            rw [← hr]
            cases d <;> first | exact absurd rfl hne | exact hs
          cases r with
          | error er => simp at hs'
          | ok b =>
            simp only [Except.ok.injEq] at hs'
            exact ⟨d, sts, b, rfl, hr, hs'.symm⟩
  | .dict h mode policy fs, e, e', hc, hs => by
    cases e <;> simp only [VConforms] at hc
    rename_i n ks0
    rw [VHoldsDefault]
    by_cases hd : h.dflt = .none ∨ h.dflt = some .none
    · rw [if_pos hd]
      cases mode with
      | full =>
        have hs' : (vDefaultKids fs ks0).map (fun ks => VElem.dict h.name ks) = .ok e' := by
          rw [vSetDefault.eq_def] at hs
          rcases hd with hd | hd <;> simp only [hd] at hs <;> exact hs
        obtain ⟨ks, h1, rfl⟩ := map_ok hs'
        exact ⟨ks, rfl, vDefaultKids_hold fs ks0 ks hc.2 h1⟩
      | sparse =>
        have hs' : e' = .dict h.name (vFreshFields .sparse fs) := by
          rw [vSetDefault.eq_def] at hs
          rcases hd with hd | hd <;> simp only [hd, Except.ok.injEq] at hs <;> exact hs.symm
        exact ⟨_, hs', vFreshFields_sparse fs⟩
      | sparseRequired =>
        have hs' : (vDefaultRequired fs).map (fun ks => VElem.dict h.name ks) = .ok e' := by
          rw [vSetDefault.eq_def] at hs
          rcases hd with hd | hd <;> simp only [hd] at hs <;> exact hs
        obtain ⟨ks, h1, rfl⟩ := map_ok hs'
        exact ⟨ks, rfl, vDefaultRequired_hold fs ks h1⟩
    · rw [if_neg hd]
      cases hdd : h.dflt with
      | none => exact absurd (.inl hdd) hd
      | some d =>
        have hne : d ≠ .none := by intro hh; subst hh; exact hd (.inr hdd)
        rw [vSetDefault.eq_def] at hs
        simp only [hdd] at hs
        have hs' : dropResult (vSet (.dict h mode policy fs) d) = .ok e' := by
          cases d <;> first | exact absurd rfl hne | exact hs
        obtain ⟨⟨x, b⟩, h1, rfl⟩ := map_ok hs'
        exact ⟨d, b, rfl, h1⟩
  | .list h prune max m, e, e', hc, hs => by
    rw [vSetDefault.eq_def] at hs
    rw [VHoldsDefault.eq_def]
    simp only at hs ⊢
    have hrep : ∀ n : Nat, (repeatMember (vSetDefault m (vFresh m)) n).map (fun ks => VElem.list h.name ks) = .ok e' →
        ∃ ks', e' = .list h.name ks' ∧ ks'.length = n ∧ ∀ k ∈ ks', VHoldsDefault m (vFresh m) k := by
      intro n hn
      obtain ⟨ks, h1, rfl⟩ := map_ok hn
      obtain ⟨h2, h3⟩ := vRepeatMember_ok h1
      exact ⟨ks, rfl, h2, fun k hk => vSetDefault_holds m (vFresh m) k (vFresh_conforms m) (h3 k hk)⟩
    have hset : ∀ d, dropResult (vSet (.list h prune max m) d) = .ok e' → ∃ b, vSet (.list h prune max m) d = .ok (e', b) := by
      intro d hd
      obtain ⟨⟨x, b⟩, h1, rfl⟩ := map_ok hd
      exact ⟨b, h1⟩
    cases hdd : h.dflt with
    | none => simp only [hdd, Except.ok.injEq] at hs; exact hs.symm
    | some d =>
      simp only [hdd] at hs ⊢
      cases d with
      | none => simp only [Except.ok.injEq] at hs; exact hs.symm
      | int n => exact hrep n.toNat hs
      | bool b =>
        have := hrep (if b then 1 else 0) hs
        cases b <;> exact this
      | str s => exact hset _ hs
      | date => exact hset _ hs
      | time => exact hset _ hs
      | datetime => exact hset _ hs
      | list => exact hset _ hs
      | dict => exact hset _ hs
      | obj => exact hset _ hs
  | .array h prune m, e, e', hc, hs => by
    rw [VHoldsDefault]
    by_cases hd : h.dflt = .none ∨ h.dflt = some .none
    · rw [if_pos hd]
      rw [vSetDefault.eq_def] at hs
      rcases hd with hd | hd <;> simp only [hd, Except.ok.injEq] at hs <;> exact hs.symm
    · rw [if_neg hd]
      cases hdd : h.dflt with
      | none => exact absurd (.inl hdd) hd
      | some d =>
        have hne : d ≠ .none := by intro hh; subst hh; exact hd (.inr hdd)
        rw [vSetDefault.eq_def] at hs
        simp only [hdd] at hs
        have hs' : (match pyIter d with
            | .error er => .error er
            | .ok vs => (memberSetLoop (vSet m) vs).map fun r => VElem.array h.name r.1) = Except.ok (ε := PyErr) e' := by
          cases d <;> first | exact absurd rfl hne | exact hs
        cases hi : pyIter d with
        | error er => simp [hi] at hs'
        | ok vs =>
          simp only [hi] at hs'
          obtain ⟨⟨es, b⟩, h1, rfl⟩ := map_ok hs'
          refine ⟨d, b, rfl, ?_⟩
          rw [vSet, seqSetVal, hi]
          simp only [h1]
theorem vDefaultKids_hold : ∀ (fs : List VSchema) (ks ks' : List VElem), VConformsAll .full fs ks → vDefaultKids fs ks = .ok ks' → VHoldDefaults fs ks ks'
  | [], ks, ks', _, hs => by
    rw [vDefaultKids] at hs
    rw [VHoldDefaults]
    simp only [Except.ok.injEq] at hs
    exact hs.symm
  | f :: fs, [], ks', hc, hs => by simp [VConformsAll] at hc
  | f :: fs, k :: ks, ks', hc, hs => by
    rw [VConformsAll] at hc
    have hck : VConforms f k := by
      rcases hc.1 with ⟨_, h | ⟨h, _⟩⟩ | h
      · cases h
      · cases h
      · exact h
    rw [vDefaultKids] at hs
    cases h1 : vSetDefault f k with
    | error er => simp [h1] at hs
    | ok k' =>
      simp only [h1] at hs
      obtain ⟨ks2, h2, rfl⟩ := map_ok hs
      rw [VHoldDefaults]
      exact ⟨vSetDefault_holds f k k' hck h1, vDefaultKids_hold fs ks ks2 hc.2 h2⟩
theorem vDefaultRequired_hold : ∀ (fs : List VSchema) (ks' : List VElem), vDefaultRequired fs = .ok ks' → VHoldRequired fs ks'
  | [], ks', hs => by
    rw [vDefaultRequired] at hs
    simp only [Except.ok.injEq] at hs
    subst hs
    rw [VHoldRequired]; trivial
  | f :: fs, ks', hs => by
    rw [vDefaultRequired] at hs
    cases hopt : f.hdr.optional with
    | true =>
      simp only [hopt, if_true] at hs
      obtain ⟨ks2, h2, rfl⟩ := map_ok hs
      rw [VHoldRequired]
      exact ⟨by simp [hopt], vDefaultRequired_hold fs ks2 h2⟩
    | false =>
      simp only [hopt, Bool.false_eq_true, if_false] at hs
      cases h1 : vSetDefault f (vFresh f) with
      | error er => simp [h1] at hs
      | ok k' =>
        simp only [h1] at hs
        obtain ⟨ks2, h2, rfl⟩ := map_ok hs
        rw [VHoldRequired]
        exact ⟨by simp only [hopt, Bool.false_eq_true, if_false]; exact vSetDefault_holds f (vFresh f) k' (vFresh_conforms f) h1, vDefaultRequired_hold fs ks2 h2⟩
end

/-! ### what value and text show -/

omit [Runtime] in
theorem pyJoin_intercalate (sep : PStr) : ∀ l : List PStr, pyJoin sep l = List.intercalate sep l
  | [] => by simp [pyJoin, List.intercalate]
  | [p] => by simp [pyJoin, List.intercalate]
  | p :: q :: ps => by
    rw [pyJoin, pyJoin_intercalate sep (q :: ps)]
    simp [List.intercalate, List.intersperse]

omit [Runtime] in
theorem vQuoted_spec (repr : PStr → PStr) (k : VElem) (t : PStr) :
    (IsQuoted k → vQuoted repr k t = repr t) ∧ (¬ IsQuoted k → vQuoted repr k t = t) := by
  cases k with
  | plain e => cases e <;> simp [IsQuoted, vQuoted, Elem.flattenable]
  | _ => simp [IsQuoted, vQuoted]

theorem dateView_numbers (doStrip : Bool) (sts : List ScalarState) (hl : sts.length = 3) (hv : ∀ st ∈ sts, st.value = .none ∨ ∃ i, st.value = .int i) :
    (∃ y m d, HoldsDay sts y m d ∧ dateView doStrip sts = .ok (fmtDate y m d, .date y m d)) ∨
    ((¬ ∃ y m d, HoldsDay sts y m d) ∧ dateView doStrip sts = .ok ([], .none)) := by
  obtain ⟨a, b, c, rfl⟩ : ∃ a b c, sts = [a, b, c] := by
    match sts, hl with
    | [a, b, c], _ => exact ⟨a, b, c, rfl⟩
  have ha := hv a (by simp)
  have hb := hv b (by simp)
  have hc := hv c (by simp)
  rcases ha with ha | ⟨i, ha⟩
  · exact .inr ⟨by rintro ⟨y, m, d, _, h⟩; simp [ha] at h, by simp [dateView, ha, composeDate, formatYMD, numberOf, ymdCatches]⟩
  rcases hb with hb | ⟨j, hb⟩
  · exact .inr ⟨by rintro ⟨y, m, d, _, h⟩; simp [hb] at h, by simp [dateView, ha, hb, composeDate, formatYMD, numberOf, ymdCatches]⟩
  rcases hc with hc | ⟨k, hc⟩
  · exact .inr ⟨by rintro ⟨y, m, d, _, h⟩; simp [hc] at h, by simp [dateView, ha, hb, hc, composeDate, formatYMD, numberOf, ymdCatches]⟩
  by_cases h : ∃ Y M D, DateNumbers i j k Y M D
  · obtain ⟨Y, M, D, h⟩ := h
    left
    refine ⟨Y, M, D, ⟨h.2.2.2, by simp [ha, hb, hc, h.1, h.2.1, h.2.2.1]⟩, ?_⟩
    have := composeDate_ok doStrip h
    simpa [dateView, ha, hb, hc] using this
  · right
    refine ⟨?_, by simpa [dateView, ha, hb, hc] using composeDate_bad doStrip h⟩
    rintro ⟨y, m, d, hr, he⟩
    simp only [List.map_cons, List.map_nil, ha, hb, hc, List.cons.injEq, PyVal.int.injEq, and_true] at he
    exact h ⟨y, m, d, he.1, he.2.1, he.2.2, hr⟩

mutual
theorem vShows (repr : PStr → PStr) : ∀ e : VElem, DatesOfNumbers e → ∃ v t, vValue e = .ok v ∧ vText repr e = .ok t ∧ VShows repr e v t
  | .plain e, _ => ⟨_, _, by rw [vValue], by rw [vText], by rw [VShows]; exact shows_self repr e⟩
  | .joined n c ms, _ => ⟨_, _, by rw [vValue], by rw [vText], by rw [VShows]; exact ⟨rfl, pyJoin_intercalate _ _⟩⟩
  | .date n st sts, h => by
    rw [DatesOfNumbers] at h
    rcases dateView_numbers st sts h.1 h.2 with ⟨y, m, d, hy, hv⟩ | ⟨hn, hv⟩
    · refine ⟨.date y m d, fmtDate y m d, by rw [vValue, hv]; rfl, by rw [vText, hv]; rfl, ?_⟩
      rw [VShows]
      exact .inl ⟨y, m, d, hy, rfl, by simp [fmtDate]⟩
    · refine ⟨.none, [], by rw [vValue, hv]; rfl, by rw [vText, hv]; rfl, ?_⟩
      rw [VShows]
      exact .inr ⟨hn, rfl, rfl⟩
  | .dict n ks, h => by
    rw [DatesOfNumbers] at h
    obtain ⟨items, ts, h1, h2, h3⟩ := vShowsItems repr ks h
    refine ⟨.dict items, _, by rw [vValue, h1]; rfl, by rw [vText, h2]; rfl, ?_⟩
    rw [VShows]
    exact ⟨items, ts, rfl, by show _ :: pyJoin _ _ ++ _ = _; rw [pyJoin_commas]; rfl, h3⟩
  | .list n ks, h => by
    rw [DatesOfNumbers] at h
    obtain ⟨vs, ts, h1, h2, h3⟩ := vShowsMembers repr ks h
    refine ⟨.list vs, _, by rw [vValue, h1]; rfl, by rw [vText, h2]; rfl, ?_⟩
    rw [VShows]
    exact ⟨vs, ts, rfl, by show _ :: pyJoin _ _ ++ _ = _; rw [pyJoin_commas]; rfl, h3⟩
  | .array n ks, h => by
    rw [DatesOfNumbers] at h
    obtain ⟨vs, ts, h1, h2, h3⟩ := vShowsMembers repr ks h
    refine ⟨.list vs, _, by rw [vValue, h1]; rfl, by rw [vText, h2]; rfl, ?_⟩
    rw [VShows]
    exact ⟨vs, ts, rfl, by show _ :: pyJoin _ _ ++ _ = _; rw [pyJoin_commas]; rfl, h3⟩
theorem vShowsItems (repr : PStr → PStr) : ∀ ks : List VElem, DatesOfNumbersAll ks →
    ∃ items ts, vItems ks = .ok items ∧ vPairTexts repr ks = .ok ts ∧ VShowsItems repr ks items ts
  | [], _ => ⟨[], [], by rw [vItems], by rw [vPairTexts], by rw [VShowsItems]; exact ⟨rfl, rfl⟩⟩
  | k :: ks, h => by
    rw [DatesOfNumbersAll] at h
    obtain ⟨items, ts, h1, h2, h3⟩ := vShowsItems repr ks h.2
    cases hp : k.present with
    | false =>
      refine ⟨items, ts, by rw [vItems, hp]; exact h1, by rw [vPairTexts, hp]; exact h2, ?_⟩
      rw [VShowsItems]
      exact .inl ⟨hp, h3⟩
    | true =>
      obtain ⟨v, t, h4, h5, h6⟩ := vShows repr k h.1
      refine ⟨_, _, by rw [vItems, hp, if_pos rfl, h4, h1]; rfl, by rw [vPairTexts, hp, if_pos rfl, h5, h2]; rfl, ?_⟩
      rw [VShowsItems]
      exact .inr ⟨v, t, vQuoted repr k t, items, ts, hp, h6, (vQuoted_spec repr k t).1, (vQuoted_spec repr k t).2, rfl, by simp, h3⟩
theorem vShowsMembers (repr : PStr → PStr) : ∀ ks : List VElem, DatesOfNumbersAll ks →
    ∃ vs ts, vValues ks = .ok vs ∧ vTexts repr ks = .ok ts ∧ VShowsMembers repr ks vs ts
  | [], _ => ⟨[], [], by rw [vValues], by rw [vTexts], by rw [VShowsMembers]; exact ⟨rfl, rfl⟩⟩
  | k :: ks, h => by
    rw [DatesOfNumbersAll] at h
    obtain ⟨vs, ts, h1, h2, h3⟩ := vShowsMembers repr ks h.2
    obtain ⟨v, t, h4, h5, h6⟩ := vShows repr k h.1
    refine ⟨_, _, by rw [vValues, h4, h1]; rfl, by rw [vTexts, h5, h2]; rfl, ?_⟩
    rw [VShowsMembers]
    exact ⟨v, t, vQuoted repr k t, vs, ts, h6, (vQuoted_spec repr k t).1, (vQuoted_spec repr k t).2, rfl, rfl, h3⟩
end

mutual
theorem vFresh_value : ∀ s : VSchema, ThreePartDates s → vValue (vFresh s) = .ok (valueOfNew s) ∧ (vFresh s).present = true ∧ (vFresh s).name = s.name
  | .plain s, _ => by
    rw [vFresh, vValue, valueOfNew]
    cases s <;> simp [VElem.present, VElem.name, VSchema.name, VSchema.hdr, fresh, Elem.present, Elem.name, Schema.hdr]
  | .joined h c, _ => by
    rw [vFresh, vValue, valueOfNew]
    exact ⟨by simp [joinedText, pyJoin], rfl, rfl⟩
  | .date h st fs, hd => by
    rw [ThreePartDates] at hd
    rw [vFresh, vValue, valueOfNew]
    match fs, hd with
    | [a, b, c], _ => exact ⟨rfl, rfl, rfl⟩
  | .dict h mode _ fs, hd => by
    rw [ThreePartDates] at hd
    rw [vFresh, vValue, valueOfNew, vFreshFields_items mode fs hd]
    exact ⟨rfl, rfl, rfl⟩
  | .list h _ _ m, _ => by rw [vFresh, vValue, valueOfNew]; exact ⟨rfl, rfl, rfl⟩
  | .array h _ m, _ => by rw [vFresh, vValue, valueOfNew]; exact ⟨rfl, rfl, rfl⟩
theorem vFreshFields_items (mode : DictMode) : ∀ fs : List VSchema, ThreePartDatesAll fs → vItems (vFreshFields mode fs) = .ok (itemsOfNew mode fs)
  | [], _ => by simp [vFreshFields, vItems, itemsOfNew]
  | f :: fs, hd => by
    rw [ThreePartDatesAll] at hd
    obtain ⟨h1, h2, h3⟩ := vFresh_value f hd.1
    have ih := vFreshFields_items mode fs hd.2
    rw [vFreshFields, itemsOfNew, vItems]
    have : vAutoField mode f = hasField mode f := by cases mode <;> rfl
    rw [this]
    cases hasField mode f
    · simp [VElem.present, Elem.present, ih]
    · simp [h1, h2, h3, ih, Except.map]
end

omit [Runtime] in
mutual
theorem vFresh_each : ∀ s : VSchema, VConforms s (vFresh s) ∧
    VEach (fun s e => e = fresh s) (fun _ ms => ms = []) (fun _ ts sts => sts = ts.map fun _ => .fresh) s (vFresh s)
  | .plain s => by
    rw [vFresh, VConforms, VEach]
    exact ⟨fresh_conforms s, fun _ => rfl⟩
  | .joined h c => by simp [vFresh, VConforms, VEach]
  | .date h st fs => by simp [vFresh, VConforms, VEach]
  | .dict h mode _ fs => by
    rw [vFresh, VConforms, VEach]
    exact ⟨⟨rfl, (vFreshFields_each mode fs).1⟩, (vFreshFields_each mode fs).2⟩
  | .list h _ _ m => by simp [vFresh, VConforms, VEach]
  | .array h _ m => by simp [vFresh, VConforms, VEach]
theorem vFreshFields_each (mode : DictMode) : ∀ fs : List VSchema, VConformsAll mode fs (vFreshFields mode fs) ∧
    VEachAll (fun s e => e = fresh s) (fun _ ms => ms = []) (fun _ ts sts => sts = ts.map fun _ => .fresh) fs (vFreshFields mode fs)
  | [] => by simp [vFreshFields, VConformsAll, VEachAll]
  | f :: fs => by
    have h := vFresh_each f
    have ih := vFreshFields_each mode fs
    rw [vFreshFields, VConformsAll, VEachAll]
    cases ha : vAutoField mode f
    · have hm : mayLack mode f := by
        cases mode <;> simp [vAutoField] at ha <;> simp [mayLack, ha]
      refine ⟨⟨.inl ⟨rfl, hm⟩, ih.1⟩, ?_, ih.2⟩
      cases f <;> simp [VEach, Elem.present]
    · exact ⟨⟨.inr h.1, ih.1⟩, h.2, ih.2⟩
end

end
end Flatland
