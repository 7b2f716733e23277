import Verif.Spec.Stored
import Verif.Proofs.Values
import Verif.Proofs.RichCycle
import Verif.Proofs.Floats5
import Verif.Proofs.Tidying6
/-! Lemmas about forms whose value is stored and set again. -/
namespace Flatland
open Flatland.Spec

section
variable [Runtime]

theorem memberLoop_reload (m : Schema) (W : Elem → Prop) : ∀ (ks : List Elem),
    (∀ k ∈ ks, ∃ b, setVal m (elemValue k) = .ok (reloaded m k, b) ∧ (b = true ↔ W k)) →
    ∃ b, memberSetLoop (setVal m) (kidValues ks) = .ok (ks.map (reloaded m), b) ∧ (b = true ↔ ∀ k ∈ ks, W k)
  | [], _ => ⟨true, by simp [kidValues, memberSetLoop], by simp⟩
  | k :: ks, h => by
    obtain ⟨b1, h1, h2⟩ := h k (by simp)
    obtain ⟨b2, h3, h4⟩ := memberLoop_reload m W ks fun x hx => h x (by simp [hx])
    exact ⟨b1 && b2, by simp [kidValues, memberSetLoop, h1, h3], by simp [h2, h4]⟩

mutual
theorem setVal_reload : ∀ (s : Schema) (p : Bool) (e : Elem), NamedFields s → Conforms s e → Complete s e → EachScalar (fun _ => TakesItsValue) p s e →
    ∃ b, setVal s (elemValue e) = .ok (reloaded s e, b) ∧ (b = true ↔ EachScalar (fun _ => TakesItsValueWell) p s e)
  | .scalar h t, p, e, hn, hc, hp, hs => by
    cases e <;> simp only [Conforms] at hc
    rename_i n st
    rw [EachScalar] at hs
    obtain ⟨b, hb⟩ := hs
    refine ⟨b, ?_, ?_⟩
    · rw [setVal, elemValue, reloaded]
      rcases hr : scalarSet t .fresh st.value with ⟨st', r⟩
      rw [hr] at hb
      simp only at hb
      subst hb
      simp [hc]
    · rw [EachScalar, TakesItsValueWell, hb]; simp
  | .dict h mode policy fs, p, e, hn, hc, hp, hs => by
    cases e <;> simp only [Conforms] at hc
    rename_i n ks
    rw [NamedFields] at hn
    rw [Complete] at hp
    rw [EachScalar] at hs
    obtain ⟨b, seen, h1, h2, h3⟩ := dictLoop_reload mode policy fs p [] [] ks [] true hn.1 (by simpa using hn.2.1) hn.2.2 hc.2 hp.2 hs rfl
    refine ⟨b, ?_, ?_⟩
    · rw [setVal, dictSet, elemValue, valuePairs, reloaded, hc.1]
      simp only [List.nil_append] at h1
      simp only [fieldSetters_eq, h1]
      rw [if_neg]
      rintro ⟨hst, hall⟩
      apply hall
      rw [List.all_eq_true]
      intro i hi
      simp only [List.length_map, List.mem_range] at hi
      have := h3.1 (hp.1 hst) i
      simp only [List.length_nil] at this
      simpa using this (by omega) hi
    · rw [EachScalar]; simpa using h2
  | .list h prune max m, p, e, hn, hc, hp, hs => by
    cases e <;> simp only [Conforms] at hc
    rename_i n ks
    rw [NamedFields] at hn
    rw [Complete] at hp
    rw [EachScalar] at hs
    obtain ⟨b, h1, h2⟩ := memberLoop_reload m _ ks fun k hk => setVal_reload m (p || prune) k hn (hc.2 k hk) (hp k hk) (hs k hk)
    refine ⟨b, ?_, ?_⟩
    · rw [setVal, elemValue, seqSetVal, pyIter, reloaded, hc.1]; simp only [h1]
    · rw [EachScalar]; exact h2
  | .array h prune m, p, e, hn, hc, hp, hs => by
    cases e <;> simp only [Conforms] at hc
    rename_i n ks
    rw [NamedFields] at hn
    rw [Complete] at hp
    rw [EachScalar] at hs
    obtain ⟨b, h1, h2⟩ := memberLoop_reload m _ ks fun k hk => setVal_reload m false k hn (hc.2 k hk) (hp k hk) (hs k hk)
    refine ⟨b, ?_, ?_⟩
    · rw [setVal, elemValue, seqSetVal, pyIter, reloaded, hc.1]; simp only [h1]
    · rw [EachScalar]; exact h2
/-- the rest of the loop, at fields `fs₂` after `fs₁` -/
theorem dictLoop_reload (mode : DictMode) (policy : Policy) : ∀ (fs₂ : List Schema) (p : Bool) (fs₁ : List Schema) (done ks : List Elem) (seen : List Nat) (c : Bool),
    (∀ f ∈ fs₂, f.name ≠ .none) → ((fs₁ ++ fs₂).map Schema.name).Nodup → NamedFieldsAll fs₂ → ConformsAll mode fs₂ ks → CompleteAll fs₂ ks →
    EachScalarAll (fun _ => TakesItsValue) p fs₂ ks → done.length = fs₁.length →
    ∃ b seen', dictSetLoop policy ((fs₁ ++ fs₂).map Schema.name) ((fs₁ ++ fs₂).map setVal) (done ++ freshFields mode fs₂) seen c
        ((kidItems ks).map fun q => .ok (.str q.1, q.2)) = .ok (done ++ reloadedAll fs₂ ks, seen', b) ∧
      (b = true ↔ c = true ∧ EachScalarAll (fun _ => TakesItsValueWell) p fs₂ ks) ∧
      ((∀ k ∈ ks, k.present = true) → ∀ i, fs₁.length ≤ i → i < (fs₁ ++ fs₂).length → i ∈ seen') ∧ ∀ i ∈ seen, i ∈ seen'
  | [], p, fs₁, done, ks, seen, c, _, _, _, hc, _, _, _ => by
    cases ks with
    | cons k ks => simp [ConformsAll] at hc
    | nil =>
      refine ⟨c, seen, by simp [kidItems, dictSetLoop, freshFields, reloadedAll], by simp [EachScalarAll], ?_, by simp⟩
      intro _ i h1 h2
      simp at h2; omega
  | f :: fs, p, fs₁, done, ks, seen, c, hnn, hnd, hnf, hc, hcomp, hs, hlen => by
    cases ks with
    | nil => simp [ConformsAll] at hc
    | cons k ks =>
      rw [ConformsAll] at hc
      rw [NamedFieldsAll] at hnf
      rw [CompleteAll] at hcomp
      rw [EachScalarAll] at hs
      have happ : fs₁ ++ f :: fs = (fs₁ ++ [f]) ++ fs := by simp
      rcases hc.1 with ⟨rfl, hauto⟩ | hck
      · obtain ⟨b, seen', h1, h2, h3, h4⟩ := dictLoop_reload mode policy fs p (fs₁ ++ [f]) (done ++ [.absent]) ks seen c (fun g hg => hnn g (by simp [hg]))
          (by rw [← happ]; exact hnd) hnf.2 hc.2 hcomp.2 hs.2 (by simp [hlen])
        refine ⟨b, seen', ?_, ?_, ?_, h4⟩
        · have hr : reloaded f .absent = .absent := by cases f <;> simp [reloaded]
          rw [kidItems_absent, freshFields, hauto, happ, reloadedAll, hr]
          simpa using h1
        · rw [h2, EachScalarAll]
          have : EachScalar (fun _ => TakesItsValueWell) p f .absent := eachScalar_absent
          simp [this]
        · intro hall
          have := hall .absent (by simp)
          simp [Elem.present] at this
      · obtain ⟨bk, hk1, hk2⟩ := setVal_reload f p k hnf.1 hck hcomp.1 hs.1
        obtain ⟨hname, hpres⟩ := conforms_name hck
        obtain ⟨kn, hkn⟩ : ∃ kn, f.name = some kn := by
          cases hfn : f.name with
          | none => exact absurd hfn (hnn f (by simp))
          | some kn => exact ⟨kn, rfl⟩
        obtain ⟨b, seen', h1, h2, h3, h4⟩ := dictLoop_reload mode policy fs p (fs₁ ++ [f]) (done ++ [reloaded f k]) ks (fs₁.length :: seen) (c && bk)
          (fun g hg => hnn g (by simp [hg])) (by rw [← happ]; exact hnd) hnf.2 hc.2 hcomp.2 hs.2 (by simp [hlen])
        refine ⟨b, seen', ?_, ?_, ?_, fun i hi => h4 i (by simp [hi])⟩
        · rw [kidItems_present hpres, hname, hkn, List.map_cons, dictSetLoop, Option.getD_some, fieldPos_at fs₁ f fs hnd kn hkn]
          have hget : ((fs₁ ++ f :: fs).map setVal)[fs₁.length]? = some (setVal f) := by
            rw [List.map_append, List.getElem?_append_right (by simp)]
            simp
          simp only [hget, hk1]
          have hset : (done ++ freshFields mode (f :: fs)).set fs₁.length (reloaded f k) = (done ++ [reloaded f k]) ++ freshFields mode fs := by
            rw [freshFields, ← hlen, List.set_append]
            simp
          rw [hset, happ, reloadedAll]
          simpa using h1
        · rw [h2, EachScalarAll]
          simp [hk2, and_assoc]
        · intro hall i hi1 hi2
          by_cases he : i = fs₁.length
          · exact h4 i (by simp [he])
          · exact h3 (fun x hx => hall x (by simp [hx])) i (by simp; omega) (by simpa using hi2)
end

mutual
theorem reloaded_conforms : ∀ (s : Schema) (e : Elem), Conforms s e → Conforms s (reloaded s e)
  | .scalar h t, e, hc => by cases e <;> simp only [Conforms] at hc; simpa [reloaded, Conforms] using hc
  | .dict h mode po fs, e, hc => by
    cases e <;> simp only [Conforms] at hc
    simp only [reloaded, Conforms]
    exact ⟨hc.1, reloadedAll_conforms mode fs _ hc.2⟩
  | .list h prune max m, e, hc => by
    cases e <;> simp only [Conforms] at hc
    simp only [reloaded, Conforms, List.mem_map]
    refine ⟨hc.1, ?_⟩
    rintro k ⟨k0, hk, rfl⟩
    exact reloaded_conforms m k0 (hc.2 k0 hk)
  | .array h prune m, e, hc => by
    cases e <;> simp only [Conforms] at hc
    simp only [reloaded, Conforms, List.mem_map]
    refine ⟨hc.1, ?_⟩
    rintro k ⟨k0, hk, rfl⟩
    exact reloaded_conforms m k0 (hc.2 k0 hk)
theorem reloadedAll_conforms (mode : DictMode) : ∀ (fs : List Schema) (ks : List Elem), ConformsAll mode fs ks → ConformsAll mode fs (reloadedAll fs ks)
  | [], ks, hc => by cases ks <;> simp [ConformsAll] at hc; simp [reloadedAll, ConformsAll]
  | f :: fs, ks, hc => by
    cases ks with
    | nil => simp [ConformsAll] at hc
    | cons k ks =>
      rw [ConformsAll] at hc
      rw [reloadedAll, ConformsAll]
      refine ⟨?_, reloadedAll_conforms mode fs ks hc.2⟩
      rcases hc.1 with ⟨rfl, ha⟩ | hk
      · exact .inl ⟨by cases f <;> simp [reloaded], ha⟩
      · exact .inr (reloaded_conforms f k hk)
end

theorem reloaded_present (s : Schema) (e : Elem) : (reloaded s e).present = e.present := by
  cases s <;> cases e <;> simp [reloaded, Elem.present]

theorem reloadedAll_present : ∀ (fs : List Schema) (ks : List Elem), (∀ k ∈ ks, k.present = true) → ∀ k ∈ reloadedAll fs ks, k.present = true
  | [], ks, h => by cases ks <;> simpa [reloadedAll] using h
  | f :: fs, ks, h => by
    cases ks with
    | nil => simp [reloadedAll]
    | cons k ks =>
      simp only [reloadedAll, List.mem_cons, forall_eq_or_imp] at h ⊢
      exact ⟨by rw [reloaded_present]; exact h.1, reloadedAll_present fs ks h.2⟩

mutual
theorem reloaded_complete : ∀ (s : Schema) (e : Elem), Complete s e → Complete s (reloaded s e)
  | .scalar h t, e, hc => by cases e <;> simp [reloaded, Complete]
  | .dict h mode po fs, e, hc => by
    cases e <;> simp only [Complete] at hc <;> simp only [reloaded, Complete]
    exact ⟨fun hp => reloadedAll_present fs _ (hc.1 hp), reloadedAll_complete fs _ hc.2⟩
  | .list h prune max m, e, hc => by
    cases e <;> simp only [Complete] at hc <;> simp only [reloaded, Complete, List.mem_map]
    rintro k ⟨k0, hk, rfl⟩
    exact reloaded_complete m k0 (hc k0 hk)
  | .array h prune m, e, hc => by
    cases e <;> simp only [Complete] at hc <;> simp only [reloaded, Complete, List.mem_map]
    rintro k ⟨k0, hk, rfl⟩
    exact reloaded_complete m k0 (hc k0 hk)
theorem reloadedAll_complete : ∀ (fs : List Schema) (ks : List Elem), CompleteAll fs ks → CompleteAll fs (reloadedAll fs ks)
  | [], ks, hc => by cases ks <;> simp [reloadedAll, CompleteAll]
  | f :: fs, ks, hc => by
    cases ks with
    | nil => simp [reloadedAll, CompleteAll]
    | cons k ks =>
      rw [CompleteAll] at hc
      rw [reloadedAll, CompleteAll]
      exact ⟨reloaded_complete f k hc.1, reloadedAll_complete fs ks hc.2⟩
end

mutual
theorem reloaded_each {P Q : ScalarType → ScalarState → Prop} (hPQ : ∀ t st, P t st → Q t (scalarSet t .fresh st.value).1) :
    ∀ (s : Schema) (p : Bool) (e : Elem), EachScalar (fun _ => P) p s e → EachScalar (fun _ => Q) p s (reloaded s e)
  | .scalar h t, p, e, he => by cases e <;> simp only [EachScalar] at he <;> simp only [reloaded, EachScalar]; exact hPQ _ _ he
  | .dict h mode po fs, p, e, he => by
    cases e <;> simp only [EachScalar] at he <;> simp only [reloaded, EachScalar]
    exact reloadedAll_each hPQ fs p _ he
  | .list h prune max m, p, e, he => by
    cases e <;> simp only [EachScalar] at he <;> simp only [reloaded, EachScalar, List.mem_map]
    rintro k ⟨k0, hk, rfl⟩
    exact reloaded_each hPQ m _ k0 (he k0 hk)
  | .array h prune m, p, e, he => by
    cases e <;> simp only [EachScalar] at he <;> simp only [reloaded, EachScalar, List.mem_map]
    rintro k ⟨k0, hk, rfl⟩
    exact reloaded_each hPQ m _ k0 (he k0 hk)
theorem reloadedAll_each {P Q : ScalarType → ScalarState → Prop} (hPQ : ∀ t st, P t st → Q t (scalarSet t .fresh st.value).1) :
    ∀ (fs : List Schema) (p : Bool) (ks : List Elem), EachScalarAll (fun _ => P) p fs ks → EachScalarAll (fun _ => Q) p fs (reloadedAll fs ks)
  | [], p, ks, he => by cases ks <;> simp [reloadedAll, EachScalarAll]
  | f :: fs, p, ks, he => by
    cases ks with
    | nil => simp [reloadedAll, EachScalarAll]
    | cons k ks =>
      rw [EachScalarAll] at he
      rw [reloadedAll, EachScalarAll]
      exact ⟨reloaded_each hPQ f p k he.1, reloadedAll_each hPQ fs p ks he.2⟩
end

omit [Runtime] in
theorem sameByAll_map {R : ScalarState → ScalarState → Prop} (g : Elem → Elem) : ∀ {ks : List Elem}, (∀ k ∈ ks, SameBy R k (g k)) → SameByAll R ks (ks.map g)
  | [], _ => by simp [SameByAll]
  | k :: ks, h => by
    rw [List.map_cons, SameByAll]
    exact ⟨h k (by simp), sameByAll_map g fun x hx => h x (by simp [hx])⟩

mutual
/-- the old form and the new one, scalar by scalar -/
theorem reloaded_same {P : ScalarType → ScalarState → Prop} {R : ScalarState → ScalarState → Prop}
    (hPR : ∀ t st, P t st → R st (scalarSet t .fresh st.value).1) :
    ∀ (s : Schema) (p : Bool) (e : Elem), Conforms s e → EachScalar (fun _ => P) p s e → SameBy R e (reloaded s e)
  | .scalar h t, p, e, hc, he => by
    cases e <;> simp only [Conforms] at hc
    simp only [EachScalar] at he
    simp only [reloaded, SameBy]; exact ⟨trivial, hPR _ _ he⟩
  | .dict h mode po fs, p, e, hc, he => by
    cases e <;> simp only [Conforms] at hc
    simp only [EachScalar] at he
    simp only [reloaded, SameBy]
    exact ⟨trivial, reloadedAll_same hPR mode fs p _ hc.2 he⟩
  | .list h prune max m, p, e, hc, he => by
    cases e <;> simp only [Conforms] at hc
    simp only [EachScalar] at he
    simp only [reloaded, SameBy]
    exact ⟨trivial, sameByAll_map _ fun k hk => reloaded_same hPR m _ k (hc.2 k hk) (he k hk)⟩
  | .array h prune m, p, e, hc, he => by
    cases e <;> simp only [Conforms] at hc
    simp only [EachScalar] at he
    simp only [reloaded, SameBy]
    exact ⟨trivial, sameByAll_map _ fun k hk => reloaded_same hPR m _ k (hc.2 k hk) (he k hk)⟩
theorem reloadedAll_same {P : ScalarType → ScalarState → Prop} {R : ScalarState → ScalarState → Prop}
    (hPR : ∀ t st, P t st → R st (scalarSet t .fresh st.value).1) (mode : DictMode) :
    ∀ (fs : List Schema) (p : Bool) (ks : List Elem), ConformsAll mode fs ks → EachScalarAll (fun _ => P) p fs ks → SameByAll R ks (reloadedAll fs ks)
  | [], p, ks, hc, he => by cases ks <;> simp [ConformsAll] at hc; simp [reloadedAll, SameByAll]
  | f :: fs, p, ks, hc, he => by
    cases ks with
    | nil => simp [ConformsAll] at hc
    | cons k ks =>
      rw [ConformsAll] at hc
      rw [EachScalarAll] at he
      rw [reloadedAll, SameByAll]
      refine ⟨?_, reloadedAll_same hPR mode fs p ks hc.2 he.2⟩
      rcases hc.1 with ⟨rfl, ha⟩ | hk
      · cases f <;> simp [reloaded, SameBy]
      · exact reloaded_same hPR f p k hk he.1
end

omit [Runtime] in
mutual
theorem sameBy_eq : ∀ (e e' : Elem), SameBy (fun a b => a = b) e e' → e = e'
  | .scalar n st, e', h => by cases e' <;> simp only [SameBy] at h; rw [h.1, h.2]
  | .dict n ks, e', h => by cases e' <;> simp only [SameBy] at h; rw [h.1, sameByAll_eq ks _ h.2]
  | .list n ks, e', h => by cases e' <;> simp only [SameBy] at h; rw [h.1, sameByAll_eq ks _ h.2]
  | .array n ks, e', h => by cases e' <;> simp only [SameBy] at h; rw [h.1, sameByAll_eq ks _ h.2]
  | .absent, e', h => by cases e' <;> simp only [SameBy] at h; rfl
theorem sameByAll_eq : ∀ (ks ks' : List Elem), SameByAll (fun a b => a = b) ks ks' → ks = ks'
  | [], ks', h => by cases ks' <;> simp [SameByAll] at h; rfl
  | k :: ks, ks', h => by
    cases ks' with
    | nil => simp [SameByAll] at h
    | cons k' ks' =>
      rw [SameByAll] at h
      rw [sameBy_eq k k' h.1, sameByAll_eq ks ks' h.2]
end

omit [Runtime] in
mutual
theorem size_sameBy {R : ScalarState → ScalarState → Prop} : ∀ (e e' : Elem), SameBy R e e' → e.size = e'.size
  | .scalar n st, e', h => by cases e' <;> simp only [SameBy] at h; simp [Elem.size]
  | .dict n ks, e', h => by cases e' <;> simp only [SameBy] at h; simp [Elem.size, sizeList_sameBy ks _ h.2]
  | .list n ks, e', h => by cases e' <;> simp only [SameBy] at h; simp [Elem.size, sizeList_sameBy ks _ h.2]
  | .array n ks, e', h => by cases e' <;> simp only [SameBy] at h; simp [Elem.size, sizeList_sameBy ks _ h.2]
  | .absent, e', h => by cases e' <;> simp only [SameBy] at h; rfl
theorem sizeList_sameBy {R : ScalarState → ScalarState → Prop} : ∀ (ks ks' : List Elem), SameByAll R ks ks' → sizeList ks = sizeList ks'
  | [], ks', h => by cases ks' <;> simp [SameByAll] at h; rfl
  | k :: ks, ks', h => by
    cases ks' with
    | nil => simp [SameByAll] at h
    | cons k' ks' =>
      rw [SameByAll] at h
      simp [sizeList, size_sameBy k k' h.1, sizeList_sameBy ks ks' h.2]
end

omit [Runtime] in
theorem leafText_at (f : Pos → Pos) (g : NamePath → NamePath) {L L' : List LeafAt} (h : L.map leafText = L'.map leafText) :
    (L.map fun l => (⟨f l.pos, g l.names, l.st⟩ : LeafAt)).map leafText = (L'.map fun l => (⟨f l.pos, g l.names, l.st⟩ : LeafAt)).map leafText := by
  have key : ∀ L : List LeafAt, (L.map fun l => (⟨f l.pos, g l.names, l.st⟩ : LeafAt)).map leafText = (L.map leafText).map fun x => (f x.1, g x.2.1, x.2.2) := by
    intro L; simp [leafText]
  rw [key, key, h]

omit [Runtime] in
mutual
theorem leaves_sameText : ∀ (e e' : Elem), SameBy SameText e e' → (leaves e).map leafText = (leaves e').map leafText
  | .scalar n st, e', h => by cases e' <;> simp only [SameBy] at h; simp only [SameText] at h; simp [leaves, leafText, h.1, h.2]
  | .dict n ks, e', h => by
    cases e' <;> simp only [SameBy] at h
    obtain ⟨rfl, h2⟩ := h
    simp only [leaves]
    exact leafText_at id _ (leavesKids_sameText 0 ks _ h2)
  | .array n ks, e', h => by
    cases e' <;> simp only [SameBy] at h
    obtain ⟨rfl, h2⟩ := h
    simp only [leaves]
    exact leafText_at id _ (leavesKids_sameText 0 ks _ h2)
  | .list n ks, e', h => by
    cases e' <;> simp only [SameBy] at h
    obtain ⟨rfl, h2⟩ := h
    simp only [leaves]
    exact leafText_at id _ (leavesSlots_sameText 0 ks _ h2)
  | .absent, e', h => by cases e' <;> simp only [SameBy] at h; rfl
theorem leavesKids_sameText : ∀ (i : Nat) (ks ks' : List Elem), SameByAll SameText ks ks' → (leavesKids i ks).map leafText = (leavesKids i ks').map leafText
  | i, [], ks', h => by cases ks' <;> simp [SameByAll] at h; rfl
  | i, k :: ks, ks', h => by
    cases ks' with
    | nil => simp [SameByAll] at h
    | cons k' ks' =>
      rw [SameByAll] at h
      rw [leavesKids, leavesKids, List.map_append, List.map_append, leavesKids_sameText (i + 1) ks ks' h.2]
      congr 1
      exact leafText_at (fun p => i :: p) id (leaves_sameText k k' h.1)
theorem leavesSlots_sameText : ∀ (i : Nat) (ks ks' : List Elem), SameByAll SameText ks ks' → (leavesSlots i ks).map leafText = (leavesSlots i ks').map leafText
  | i, [], ks', h => by cases ks' <;> simp [SameByAll] at h; rfl
  | i, k :: ks, ks', h => by
    cases ks' with
    | nil => simp [SameByAll] at h
    | cons k' ks' =>
      rw [SameByAll] at h
      rw [leavesSlots, leavesSlots, List.map_append, List.map_append, leavesSlots_sameText (i + 1) ks ks' h.2]
      congr 1
      exact leafText_at (fun p => i :: p) (fun q => some (decimal i) :: q) (leaves_sameText k k' h.1)
end

omit [Runtime] in
theorem flatten_sameText (sep : PStr) {e e' : Elem} (h : SameBy SameText e e') : flatten sep e' = flatten sep e := by
  have hl := (leaves_sameText e e' h).symm
  rw [flatten_levels sep e' e.size (by rw [size_sameBy e e' h]), flatten_levels sep e e.size (by omega)]
  congr 1
  funext m
  have key : ∀ L : List LeafAt, (L.filter fun l => l.pos.length == m).map (fun l => (flatName sep l.names, l.st.u)) =
      ((L.map leafText).filter fun x => x.1.length == m).map fun x => (flatName sep x.2.1, x.2.2) := by
    intro L
    induction L with
    | nil => rfl
    | cons l L ih =>
      simp only [List.map_cons, List.filter_cons, leafText]
      split <;> simp_all
  rw [key, key, hl]

omit [Runtime] in
mutual
theorem sameBy_mono {R S : ScalarState → ScalarState → Prop} (hRS : ∀ a b, R a b → S a b) : ∀ (e e' : Elem), SameBy R e e' → SameBy S e e'
  | .scalar n st, e', h => by cases e' <;> simp only [SameBy] at h ⊢; exact ⟨h.1, hRS _ _ h.2⟩
  | .dict n ks, e', h => by cases e' <;> simp only [SameBy] at h ⊢; exact ⟨h.1, sameByAll_mono hRS ks _ h.2⟩
  | .list n ks, e', h => by cases e' <;> simp only [SameBy] at h ⊢; exact ⟨h.1, sameByAll_mono hRS ks _ h.2⟩
  | .array n ks, e', h => by cases e' <;> simp only [SameBy] at h ⊢; exact ⟨h.1, sameByAll_mono hRS ks _ h.2⟩
  | .absent, e', h => by cases e' <;> simp only [SameBy] at h ⊢
theorem sameByAll_mono {R S : ScalarState → ScalarState → Prop} (hRS : ∀ a b, R a b → S a b) : ∀ (ks ks' : List Elem), SameByAll R ks ks' → SameByAll S ks ks'
  | [], ks', h => by cases ks' <;> simp [SameByAll] at h ⊢
  | k :: ks, ks', h => by
    cases ks' with
    | nil => simp [SameByAll] at h
    | cons k' ks' =>
      rw [SameByAll] at h ⊢
      exact ⟨sameBy_mono hRS k k' h.1, sameByAll_mono hRS ks ks' h.2⟩
end

end
end Flatland
