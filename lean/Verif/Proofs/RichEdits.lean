import Verif.Spec.RichEdits
import Verif.Proofs.Edits2
import Verif.Proofs.Edits3
import Verif.Proofs.RichValues
/-! Calls on the elements of a form with DateYYYYMMDDs and JoinedStrings: the form stays proper, and the rest of it as it was. -/
namespace Flatland
open Flatland.Spec

section
variable [Runtime] {κ : Type} (o : RichObjects) (sep : PStr)

/-! ### the classes -/

omit [Runtime] in
theorem unders_map : ∀ fs : List VSchema, unders fs = fs.map under
  | [] => rfl
  | f :: fs => by rw [unders, unders_map fs, List.map_cons]

omit [Runtime] in
theorem under_hdr (s : VSchema) : (under s).hdr = s.hdr := by cases s <;> simp [under, Schema.hdr, VSchema.hdr]

omit [Runtime] in
theorem under_name (s : VSchema) : (under s).name = s.name := by simp [Schema.name, VSchema.name, under_hdr]

omit [Runtime] in
theorem unders_names (fs : List VSchema) : (unders fs).map Schema.name = fs.map VSchema.name := by
  simp [unders_map, Function.comp_def, under_name]

/-- an element of the class, seen as a class without dates and joined strings -/
def Proper (s : VSchema) (e : Elem) : Prop := Conforms (under s) e

/-- fields and parts have names of their own -/
def ProperNames (s : VSchema) : Prop := NamedFields (under s)

omit [Runtime] in
theorem autoField_under (mode : DictMode) (f : VSchema) : autoField mode (under f) = false ↔ mayLack mode f := by
  cases mode <;> simp [autoField, mayLack, under_hdr]

omit [Runtime] in
theorem partElems_zip : ∀ (fs : List (Hdr × ScalarType)) (sts : List ScalarState), partElems fs sts = List.zipWith (fun f st => .scalar f.1.name st) fs sts
  | [], _ => by simp [partElems]
  | _ :: _, [] => by simp [partElems]
  | f :: fs, st :: sts => by rw [partElems, partElems_zip fs sts, List.zipWith_cons_cons]

omit [Runtime] in
theorem properNames_parts (fs : List (Hdr × ScalarType)) : NamedFieldsAll (fs.map fun f => .scalar f.1 f.2) := by
  induction fs with
  | nil => simp [NamedFieldsAll]
  | cons f fs ih => rw [List.map_cons, NamedFieldsAll]; exact ⟨trivial, ih⟩

omit [Runtime] in
mutual
theorem namedParts_proper : ∀ s : VSchema, NamedParts s ↔ ProperNames s
  | .plain s => by simp [NamedParts, ProperNames, under]
  | .joined _ _ => by simp [NamedParts, ProperNames, under, NamedFields, joinedMember]
  | .date _ _ fs => by
    have h1 : ((fs.map fun f => Schema.scalar f.1 f.2).map Schema.name) = fs.map fun f => f.1.name := by
      rw [List.map_map]; rfl
    unfold NamedParts ProperNames under
    rw [NamedFields, h1]
    simp only [List.mem_map, properNames_parts, and_true]
    constructor
    · rintro ⟨h2, h3⟩
      refine ⟨?_, h3⟩
      rintro _ ⟨f, hf, rfl⟩
      exact h2 f hf
    · rintro ⟨h2, h3⟩
      exact ⟨fun f hf => h2 _ ⟨f, hf, rfl⟩, h3⟩
  | .dict _ _ _ fs => by
    have := namedPartsAll_proper fs
    unfold NamedParts ProperNames under
    rw [NamedFields, unders_names, this]
    simp only [unders_map, List.mem_map]
    constructor
    · rintro ⟨h2, h3⟩
      refine ⟨?_, h3⟩
      rintro _ ⟨f, hf, rfl⟩
      rw [under_name]
      exact h2 f hf
    · rintro ⟨h2, h3⟩
      exact ⟨fun f hf => by rw [← under_name]; exact h2 _ ⟨f, hf, rfl⟩, h3⟩
  | .list _ _ _ m => by
    have := namedParts_proper m
    unfold ProperNames at this
    unfold NamedParts ProperNames under
    rw [NamedFields, this]
  | .array _ _ m => by
    have := namedParts_proper m
    unfold ProperNames at this
    unfold NamedParts ProperNames under
    rw [NamedFields, this]
theorem namedPartsAll_proper : ∀ fs : List VSchema, NamedPartsAll fs ↔ NamedFieldsAll (unders fs)
  | [] => by simp [NamedPartsAll, unders, NamedFieldsAll]
  | f :: fs => by
    have h := namedParts_proper f
    unfold ProperNames at h
    rw [NamedPartsAll, unders, NamedFieldsAll, h, namedPartsAll_proper fs]
end

/-! ### dates and joined strings stay what they are -/

omit [Runtime] in
theorem partElems_conforms : ∀ (fs : List (Hdr × ScalarType)) (sts : List ScalarState), sts.length = fs.length →
    ConformsAll .full (fs.map fun f => .scalar f.1 f.2) (partElems fs sts)
  | [], [], _ => by simp [partElems, ConformsAll]
  | [], _ :: _, h => by simp at h
  | _ :: _, [], h => by simp at h
  | f :: fs, st :: sts, h => by
    rw [List.map_cons, partElems, ConformsAll]
    exact ⟨.inr (by simp [Conforms]), partElems_conforms fs sts (by simpa using h)⟩

theorem setKids_len : ∀ (ts : List ScalarType) (sts : List ScalarState) (vs : List PyVal), (setKids ts sts vs).1.length = sts.length
  | [], _, _ => by simp [setKids]
  | _ :: _, [], _ => by simp [setKids]
  | _ :: _, _ :: _, [] => by simp [setKids]
  | t :: ts, st :: sts, v :: vs => by
    have ih := setKids_len ts sts vs
    rw [setKids]
    split <;> simp [ih]

theorem explodeDate_len (d : Bool) (ts : List ScalarType) (sts : List ScalarState) (v : PyVal) : (explodeDate d ts sts v).1.length = sts.length := by
  unfold explodeDate
  split
  · split
    · exact setKids_len ..
    · rfl
  · split
    · rfl
    · rename_i parts _
      have h := setKids_len ts sts parts
      split
      · rename_i h'; rw [h'] at h; exact h
      · rename_i h'
        rw [h'] at h
        split
        · rw [setKids_len]; exact h
        · exact h

theorem dateSet_len (d : Bool) (ts : List ScalarType) (sts : List ScalarState) (v : PyVal) : (dateSet d ts sts v).1.length = sts.length := by
  have h := explodeDate_len d ts sts v
  unfold dateSet
  split <;> (rename_i h'; rw [h'] at h; exact h)

omit [Runtime] in
theorem conformsAll_length' {mode : DictMode} : ∀ {fs : List Schema} {ks : List Elem}, ConformsAll mode fs ks → ks.length = fs.length
  | [], [], _ => rfl
  | [], _ :: _, h => by rw [ConformsAll.eq_def] at h; exact h.elim
  | _ :: _, [], h => by rw [ConformsAll.eq_def] at h; exact h.elim
  | _ :: _, _ :: _, h => by rw [ConformsAll] at h; simp [conformsAll_length' h.2]

omit [Runtime] in
/-- a date's parts -/
theorem date_kids {h : Hdr} {d : Bool} {fs : List (Hdr × ScalarType)} {e : Elem} (hc : Proper (.date h d fs) e) :
    ∃ sts : List ScalarState, sts.length = fs.length ∧ e = dateElem h fs sts ∧ kidStates e = sts := by
  unfold Proper under at hc
  cases e with
  | dict n ks =>
    rw [Conforms] at hc
    have key : ∀ (fs : List (Hdr × ScalarType)) (ks : List Elem), ConformsAll .full (fs.map fun f => Schema.scalar f.1 f.2) ks →
        ks = partElems fs (ks.map Elem.state) := by
      intro fs
      induction fs with
      | nil => intro ks hk; cases ks with
        | nil => rfl
        | cons k ks => rw [List.map_nil, ConformsAll.eq_def] at hk; exact hk.elim
      | cons f fs ih =>
        intro ks hk
        cases ks with
        | nil => rw [List.map_cons, ConformsAll.eq_def] at hk; exact hk.elim
        | cons k ks =>
          rw [List.map_cons, ConformsAll] at hk
          have h1 : Conforms (.scalar f.1 f.2) k := by
            rcases hk.1 with ⟨_, h⟩ | h
            · cases h
            · exact h
          cases k <;> first | (simp [Conforms] at h1; done) | skip
          rename_i n' st
          rw [Conforms] at h1
          rw [List.map_cons, partElems, ← ih ks hk.2, h1]
          rfl
    refine ⟨ks.map Elem.state, by rw [List.length_map, conformsAll_length' hc.2, List.length_map], ?_, rfl⟩
    rw [dateElem, ← key fs ks hc.2, hc.1]
  | scalar => simp [Conforms] at hc
  | list => simp [Conforms] at hc
  | array => simp [Conforms] at hc
  | absent => simp [Conforms] at hc

omit [Runtime] in
theorem dateElem_is (h : Hdr) (d : Bool) (fs : List (Hdr × ScalarType)) (sts : List ScalarState) (hl : sts.length = fs.length) :
    Proper (.date h d fs) (dateElem h fs sts) := by
  unfold Proper under dateElem
  rw [Conforms]
  exact ⟨rfl, partElems_conforms fs sts hl⟩

omit [Runtime] in
mutual
theorem isOf_proper : ∀ (s : VSchema) (e : Elem), IsOf s e ↔ Proper s e
  | .plain s, e => by simp [IsOf, Proper, under]
  | .joined h c, e => by
    cases e <;> simp only [IsOf, Proper, under, Conforms]
    rename_i n ks
    have : ∀ k, (∃ st, k = Elem.scalar none st) ↔ Conforms (joinedMember c) k := by
      intro k
      cases k <;> simp [joinedMember, Conforms]
    simp only [this]
  | .date h d fs, e => by
    constructor
    · intro hc
      cases e <;> simp only [IsOf] at hc
      rename_i n ks
      obtain ⟨h1, sts, h2, h3⟩ := hc
      rw [h1, h3, ← partElems_zip]
      exact dateElem_is h d fs sts h2
    · intro hc
      obtain ⟨sts, h1, h2, _⟩ := date_kids hc
      rw [h2, dateElem, IsOf]
      exact ⟨rfl, sts, h1, partElems_zip fs sts⟩
  | .dict h mode po fs, e => by
    cases e <;> simp only [IsOf, Proper, under, Conforms]
    rename_i n ks
    rw [isOfAll_proper mode fs ks]
  | .list h _ _ m, e => by
    cases e <;> simp only [IsOf, Proper, under, Conforms]
    rename_i n ks
    have : ∀ k, IsOf m k ↔ Conforms (under m) k := fun k => isOf_proper m k
    simp only [this]
  | .array h _ m, e => by
    cases e <;> simp only [IsOf, Proper, under, Conforms]
    rename_i n ks
    have : ∀ k, IsOf m k ↔ Conforms (under m) k := fun k => isOf_proper m k
    simp only [this]
theorem isOfAll_proper (mode : DictMode) : ∀ (fs : List VSchema) (ks : List Elem), IsOfAll mode fs ks ↔ ConformsAll mode (unders fs) ks
  | [], [] => by simp [IsOfAll, unders, ConformsAll]
  | [], _ :: _ => by simp [IsOfAll, unders, ConformsAll]
  | _ :: _, [] => by simp [IsOfAll, unders, ConformsAll]
  | f :: fs, k :: ks => by
    have h1 : IsOf f k ↔ Conforms (under f) k := isOf_proper f k
    have h2 := isOfAll_proper mode fs ks
    rw [IsOfAll, unders, ConformsAll, h1, h2, autoField_under]
end

omit [Runtime] in
theorem memberElems_is (c : JoinedCfg) (sts : List ScalarState) : ∀ k ∈ memberElems sts, Conforms (joinedMember c) k := by
  intro k hk
  obtain ⟨st, _, rfl⟩ := List.mem_map.1 hk
  simp [joinedMember, Conforms]

omit [Runtime] in
theorem proper_list {h : Hdr} {prune : Bool} {max : Nat} {m : VSchema} {ks : List Elem} (hk : ∀ k ∈ ks, Conforms (under m) k) :
    Proper (.list h prune max m) (.list h.name ks) := by
  unfold Proper under
  exact ⟨rfl, hk⟩

omit [Runtime] in
theorem proper_array {h : Hdr} {prune : Bool} {m : VSchema} {ks : List Elem} (hk : ∀ k ∈ ks, Conforms (under m) k) :
    Proper (.array h prune m) (.array h.name ks) := by
  unfold Proper under
  exact ⟨rfl, hk⟩

/-! ### set, set_flat, set_default -/

mutual
theorem richSet_is : ∀ (s : VSchema) (e : Elem) (v : PyVal), Proper s e → Proper s (richSet s e v).1
  | .plain s, e, v, hc => by
    unfold Proper under at *
    unfold richSet
    exact setRun_conforms s e v hc
  | .joined h c, e, v, _ => by
    unfold Proper under richSet
    exact ⟨rfl, memberElems_is c _⟩
  | .date h d fs, e, v, hc => by
    obtain ⟨sts, hl, _, hk⟩ := date_kids hc
    unfold richSet
    exact dateElem_is h d fs _ (by rw [dateSet_len, hk, hl])
  | .dict h mode policy fs, e, v, hc => by
    unfold Proper under at *
    unfold richSet dictSetRun
    split
    · exact hc
    · exact ⟨rfl, dictSetLoopRun_conforms (unders fs) policy _ _ (richRunners_is fs) _ _ _ _ (freshFields_conforms mode (unders fs))⟩
  | .list h prune max m, e, v, _ => by
    unfold Proper under richSet
    exact ⟨rfl, seqSetRun_conforms (under m) _ (fun v => richSet_is m (fresh (under m)) v (fresh_conforms _)) v⟩
  | .array h prune m, e, v, _ => by
    unfold Proper under richSet
    exact ⟨rfl, seqSetRun_conforms (under m) _ (fun v => richSet_is m (fresh (under m)) v (fresh_conforms _)) v⟩
theorem richRunners_is : ∀ (fs : List VSchema) (i : Nat) (r : SetRunner), (richRunners fs)[i]? = some r →
    ∃ f, (unders fs)[i]? = some f ∧ ∀ k v, Conforms f (orFresh f k) → Conforms f (r k v).1
  | [], i, r, h => by simp [richRunners] at h
  | f :: fs, 0, r, h => by
    simp only [richRunners, List.getElem?_cons_zero, Option.some.injEq] at h
    subst h
    exact ⟨under f, by simp [unders], fun k v hk => richSet_is f (orFresh (under f) k) v hk⟩
  | f :: fs, i + 1, r, h => by
    simp only [richRunners, unders, List.getElem?_cons_succ] at h ⊢
    exact richRunners_is fs i r h
end

mutual
theorem richSetFlat_is (sep : PStr) : ∀ (s : VSchema) (e : Elem) (ps : List FPair), Proper s e → Proper s (richSetFlat sep s e ps).1
  | .plain s, e, ps, hc => by
    unfold Proper under at *
    unfold richSetFlat
    exact setFlatRun_conforms sep s e ps hc
  | .joined h c, e, ps, hc => by
    unfold richSetFlat joinedFlatRun
    split
    · exact hc
    · unfold Proper under
      exact ⟨rfl, memberElems_is c _⟩
  | .date h d fs, e, ps, hc => by
    unfold Proper under at *
    unfold richSetFlat
    exact setFlatRun_conforms sep _ e ps hc
  | .dict h mode po fs, e, ps, hc => by
    unfold Proper under at *
    unfold richSetFlat
    split
    · exact hc
    · split
      · exact hc
      · cases e with
        | dict n ks => exact ⟨rfl, richFieldsFlat_is sep mode fs ks _ hc.2⟩
        | scalar => exact hc.elim
        | list => exact hc.elim
        | array => exact hc.elim
        | absent => exact hc.elim
  | .list h prune max m, e, ps, _ => by
    unfold Proper under richSetFlat
    split
    · exact ⟨rfl, by simp⟩
    · exact ⟨rfl, slotsRun_conforms (under m) (fresh (under m)) (fresh_conforms _) _
        (fun ps => richSetFlat_is sep m (fresh (under m)) ps (fresh_conforms _)) _ _⟩
  | .array h prune m, e, ps, _ => by
    unfold Proper under
    cases m with
    | plain s => cases s with
      | scalar hm t => unfold richSetFlat under; exact ⟨rfl, arrayMembersRun_conforms sep h.name prune hm t ps⟩
      | dict => exact ⟨rfl, by simp⟩
      | list => exact ⟨rfl, by simp⟩
      | array => exact ⟨rfl, by simp⟩
    | joined => exact ⟨rfl, by simp⟩
    | date => exact ⟨rfl, by simp⟩
    | dict => exact ⟨rfl, by simp⟩
    | list => exact ⟨rfl, by simp⟩
    | array => exact ⟨rfl, by simp⟩
theorem richFieldsFlat_is (sep : PStr) (mode : DictMode) : ∀ (fs : List VSchema) (ks : List Elem) (ps : List FPair), ConformsAll mode (unders fs) ks →
    ConformsAll mode (unders fs) (richFieldsFlat sep fs ks ps).1
  | [], ks, _, _ => by simp [richFieldsFlat, unders, ConformsAll]
  | f :: fs, [], ps, h => by simp [unders, ConformsAll] at h
  | f :: fs, k :: ks, ps, h => by
    have h' := h
    unfold unders ConformsAll at h'
    have ih := richFieldsFlat_is sep mode fs ks ps h'.2
    unfold richFieldsFlat
    split
    · exact h
    · rename_i accum _
      have h1 : (let q := if accum.isEmpty then (k, .ok ()) else richSetFlat sep f (orFresh (under f) k) accum
          (q.1 = .absent ∧ autoField mode (under f) = false) ∨ Conforms (under f) q.1) := by
        by_cases he : accum.isEmpty = true
        · simp only [he, if_true]; exact h'.1
        · simp only [he, if_false, Bool.false_eq_true]
          exact .inr (richSetFlat_is sep f _ accum (orFresh_conforms h'.1))
      simp only [List.headD_cons, List.tail_cons]
      simp only at h1
      generalize (if accum.isEmpty then (k, .ok ()) else richSetFlat sep f (orFresh (under f) k) accum) = q at h1
      unfold unders
      rcases q with ⟨b, y | y⟩
      · exact ⟨h1, h'.2⟩
      · exact ⟨h1, ih⟩
end

mutual
theorem richDefault_is : ∀ (s : VSchema) (e : Elem), Proper s e → Proper s (richDefault s e).1
  | .plain s, e, hc => by
    unfold Proper under at *
    unfold richDefault
    exact setDefaultRun_conforms s e hc
  | .joined h c, e, hc => by
    unfold Proper under at *
    unfold richDefault
    exact setDefaultRun_conforms _ e hc
  | .date h d fs, e, hc => by
    obtain ⟨sts, hl, _, hk⟩ := date_kids hc
    have hset : ∀ v, Proper (.date h d fs) (dateElem h fs (dateSet d (fs.map Prod.snd) (kidStates e) v).1) :=
      fun v => dateElem_is h d fs _ (by rw [dateSet_len, hk, hl])
    have hkids : Proper (.date h d fs) (.dict h.name (defaultKidsRun (fs.map fun f => .scalar f.1 f.2) e.kids).1) := by
      unfold Proper under at *
      cases e with
      | dict n ks => exact ⟨rfl, defaultKidsRun_conforms _ ks hc.2⟩
      | scalar => exact hc.elim
      | list => exact hc.elim
      | array => exact hc.elim
      | absent => exact hc.elim
    unfold richDefault
    cases hd : h.dflt with
    | none => exact hkids
    | some v => cases v <;> first | exact hset _ | exact hkids
  | .dict h mode policy fs, e, hc => by
    have hs : ∀ d, Proper (.dict h mode policy fs) (forget (richSet (.dict h mode policy fs) e d)).1 :=
      fun d => richSet_is (.dict h mode policy fs) e d hc
    unfold richDefault
    cases mode with
    | full =>
      have hk : Proper (.dict h .full policy fs) (.dict h.name (richDefaultKids fs e.kids).1) := by
        unfold Proper under at *
        cases e with
        | dict n ks => exact ⟨rfl, richDefaultKids_is fs ks hc.2⟩
        | scalar => exact hc.elim
        | list => exact hc.elim
        | array => exact hc.elim
        | absent => exact hc.elim
      cases hd : h.dflt with
      | none => exact hk
      | some d => cases d <;> first | exact hs _ | exact hk
    | sparse =>
      have hk : Proper (.dict h .sparse policy fs) (.dict h.name (freshFields .sparse (unders fs))) := by
        unfold Proper under
        exact ⟨rfl, freshFields_conforms .sparse (unders fs)⟩
      cases hd : h.dflt with
      | none => exact hk
      | some d => cases d <;> first | exact hs _ | exact hk
    | sparseRequired =>
      have hk : Proper (.dict h .sparseRequired policy fs) (.dict h.name (richDefaultRequired fs).1) := by
        unfold Proper under
        exact ⟨rfl, richDefaultRequired_is fs⟩
      cases hd : h.dflt with
      | none => exact hk
      | some d => cases d <;> first | exact hs _ | exact hk
  | .list h prune max m, e, hc => by
    have hs : ∀ d, Proper (.list h prune max m) (forget (richSet (.list h prune max m) (.list h.name []) d)).1 :=
      fun d => richSet_is (.list h prune max m) (.list h.name []) d (by unfold Proper under; exact ⟨rfl, by simp⟩)
    have hr := repeatRun_conforms (under m) _ (richDefault_is m (fresh (under m)) (fresh_conforms _))
    unfold richDefault
    split
    · exact hc
    · exact hc
    · split
      · exact proper_list (hr _)
      · exact hs _
  | .array h prune m, e, hc => by
    have hr := extendRun_conforms (under m) _ (fun v => richSet_is m (fresh (under m)) v (fresh_conforms _))
    unfold richDefault
    split
    · exact hc
    · exact hc
    · split
      · exact proper_array (by simp)
      · exact proper_array (hr _)
theorem richDefaultKids_is : ∀ (fs : List VSchema) (ks : List Elem), ConformsAll .full (unders fs) ks → ConformsAll .full (unders fs) (richDefaultKids fs ks).1
  | [], ks, h => by unfold richDefaultKids; exact h
  | _ :: _, [], h => by simp [unders, ConformsAll] at h
  | f :: fs, k :: ks, h => by
    unfold unders ConformsAll at h
    have hk : Conforms (under f) k := by
      rcases h.1 with h1 | h1
      · simp [autoField] at h1
      · exact h1
    have h1 := richDefault_is f k hk
    unfold richDefaultKids unders
    simp only
    split
    · exact ⟨.inr h1, h.2⟩
    · exact ⟨.inr h1, richDefaultKids_is fs ks h.2⟩
theorem richDefaultRequired_is : ∀ fs : List VSchema, ConformsAll .sparseRequired (unders fs) (richDefaultRequired fs).1
  | [] => by simp [richDefaultRequired, unders, ConformsAll]
  | f :: fs => by
    have ih := richDefaultRequired_is fs
    rw [unders]
    unfold richDefaultRequired
    by_cases ho : f.hdr.optional = true
    · simp only [ho, if_true]
      exact ⟨.inl ⟨rfl, by simp [autoField, under_hdr, ho]⟩, ih⟩
    · simp only [ho, if_false, Bool.false_eq_true]
      split
      · exact ⟨.inr (fresh_conforms _), freshFields_conforms .sparseRequired (unders fs)⟩
      · exact ⟨.inr (richDefault_is f (fresh (under f)) (fresh_conforms _)), ih⟩
end

theorem richFill_is (s : VSchema) (e : Elem) (h : Proper s e) : ∀ op : FillOp, Proper s (richFill sep s e op)
  | .set v => richSet_is s e v h
  | .setFlat _ => richSetFlat_is sep s e _ h
  | .setDefault => richDefault_is s e h

/-! ### the other operations -/

theorem richMember_closed (s : VSchema) : Closed (richMember o s) (Proper s) where
  blank := fresh_conforms (under s)
  make v e h := by
    have hs := richSet_is s (fresh (under s)) v (fresh_conforms _)
    simp only [richMember] at h
    cases hr : richSet s (fresh (under s)) v with
    | mk e' r =>
      rw [hr] at h hs
      cases r with
      | error er => cases h
      | ok b => simp only [Except.ok.injEq] at h; subst h; exact hs
  set e a h := by cases a <;> exact richSet_is s e _ h

omit [Runtime] in
theorem under_unique {fs : List VSchema} (hn : (fs.map VSchema.name).Nodup) : ∀ {f g : VSchema}, f ∈ fs → g ∈ fs → f.name = g.name → f = g := by
  induction fs with
  | nil => intro f g hf; cases hf
  | cons a fs ih =>
    intro f g hf hg h
    rw [List.map_cons, List.nodup_cons] at hn
    rcases List.mem_cons.1 hf with hfa | hf
    · rcases List.mem_cons.1 hg with hga | hg
      · rw [hfa, hga]
      · exact absurd (List.mem_map.2 ⟨g, hg, by rw [← h, hfa]⟩) hn.1
    · rcases List.mem_cons.1 hg with hga | hg
      · exact absurd (List.mem_map.2 ⟨f, hf, by rw [h, hga]⟩) hn.1
      · exact ih hn.2 hf hg h

omit [Runtime] in
theorem kidOf_unders {fs : List VSchema} {k : Option PStr} {e : Elem} : KidOf (unders fs) k e ↔ ∃ f ∈ fs, f.name = k ∧ Proper f e := by
  simp only [KidOf, unders_map, List.mem_map, Proper]
  constructor
  · rintro ⟨_, ⟨f, hf, rfl⟩, h1, h2⟩
    exact ⟨f, hf, by rw [← under_name]; exact h1, h2⟩
  · rintro ⟨f, hf, h1, h2⟩
    exact ⟨_, ⟨f, hf, rfl⟩, by rw [under_name]; exact h1, h2⟩

theorem richFields_closed {mode : DictMode} {po : Policy} {fs : List VSchema} (hn : (fs.map VSchema.name).Nodup) :
    FieldsClosed (richMap o mode po fs) (KidOf (unders fs)) where
  cls := by
    intro f hf
    obtain ⟨s, hs, rfl⟩ := List.mem_map.1 hf
    have hcl := richMember_closed o s
    refine ⟨kidOf_unders.2 ⟨s, hs, rfl, hcl.blank⟩, fun v e h => kidOf_unders.2 ⟨s, hs, rfl, hcl.make v e h⟩, ?_⟩
    intro e a he
    obtain ⟨g, hg, hname, hc⟩ := kidOf_unders.1 he
    have := under_unique hn hg hs hname
    subst this
    exact kidOf_unders.2 ⟨g, hs, rfl, hcl.set e a hc⟩
  setDefault := by
    intro f hf e he
    obtain ⟨s, hs, rfl⟩ := List.mem_map.1 hf
    obtain ⟨g, hg, hname, hc⟩ := kidOf_unders.1 he
    have := under_unique hn hg hs hname
    subst this
    exact kidOf_unders.2 ⟨g, hg, rfl, richDefault_is g e hc⟩
  fromDefaults := by
    intro f hf e he
    obtain ⟨s, hs, rfl⟩ := List.mem_map.1 hf
    have h1 := richDefault_is s (fresh (under s)) (fresh_conforms _)
    simp only [richField] at he
    cases hr : richDefault s (fresh (under s)) with
    | mk e' r =>
      rw [hr] at he h1
      cases r with
      | error er => cases he
      | ok b => simp only [Except.ok.injEq] at he; subst he; exact kidOf_unders.2 ⟨s, hs, rfl, h1⟩

theorem names_richMap (mode : DictMode) (po : Policy) (fs : List VSchema) : names (richMap o mode po fs) = (unders fs).map Schema.name := by
  simp only [names, richMap, List.map_map, unders_names]
  rfl

theorem richStep_is {mode : DictMode} {po : Policy} {fs : List VSchema} (hn : ((unders fs).map Schema.name).Nodup) {ks : List Elem}
    (hc : ConformsAll mode (unders fs) ks) (op : MapOp (Option PStr) PyVal Elem)
    (hp : ∀ p ∈ mapPuts op, ∀ f ∈ fs, f.name = p.1 → o.isInstance f p.2 = true → IsOf f p.2)
    (hf : ∀ eff, op ≠ .setFlat eff) : ConformsAll mode (unders fs) (kidsOfDict (unders fs) (mapStep (richMap o mode po fs) (dictOfKids (unders fs) ks) op)) := by
  have hnames := names_richMap o mode po fs
  have hnv : (fs.map VSchema.name).Nodup := by rw [← unders_names]; exact hn
  have hn' : (names (richMap o mode po fs)).Nodup := by rw [hnames]; exact hn
  have hok : KidsOk (KidOf (unders fs)) (mapStep (richMap o mode po fs) (dictOfKids (unders fs) ks) op) := by
    refine kidsOk_step (richFields_closed o hnv) op ?_ hf _ (fun k e h => dictOfKids_mem hc h)
    intro p hpm f hff hname hi
    obtain ⟨s, hs, rfl⟩ := List.mem_map.1 hff
    exact kidOf_unders.2 ⟨s, hs, hname, (isOf_proper _ _).1 (hp p hpm s hs hname hi)⟩
  refine kidsOfDict_conforms (unders fs) hn hok ?_ (unders fs) (fun _ h => h)
  intro f hfm hauto
  cases mode with
  | full =>
    have h := fullKeys_step (c := richMap o .full po fs) rfl (d := dictOfKids (unders fs) ks)
      (by unfold FullKeys; rw [hnames, dictOfKids_full hc]) op
    unfold FullKeys at h
    rw [h, hnames]
    exact List.mem_map.2 ⟨f, hfm, rfl⟩
  | sparse => cases hauto
  | sparseRequired =>
    have hofix : ∀ g ∈ (richMap o .sparseRequired po fs).fields, OptionalFixed g := by
      intro g hg
      obtain ⟨s, hs, rfl⟩ := List.mem_map.1 hg
      exact ⟨rfl, fun _ _ _ => rfl, fun _ _ => rfl, fun _ => rfl, fun _ _ => rfl⟩
    have hsame : ∀ (k : Option PStr) (a : Arg PyVal Elem), SameOptional (richMap o .sparseRequired po fs) k a := by
      intro k a
      cases a with
      | val v => trivial
      | el x =>
        intro g hg _ _
        obtain ⟨s, hs, rfl⟩ := List.mem_map.1 hg
        rfl
    have hkeep : KeepsOptional (richMap o .sparseRequired po fs) op := by
      cases op with
      | setItem k a => exact hsame k a
      | update p kw =>
        cases p with
        | refused er => trivial
        | seq items fails => exact ⟨fun p _ => hsame p.1 p.2, fun p _ => hsame p.1 p.2⟩
      | setFlat eff => exact absurd rfl (hf eff)
      | _ => trivial
    obtain ⟨hsub, hin⟩ := dictOfKids_keys hc
    have hinv : SparseInv (richMap o .sparseRequired po fs) true (dictOfKids (unders fs) ks) := {
      nodup := hsub.nodup hn
      within := fun k hk => by rw [hnames]; exact hsub.subset hk
      needed := by
        intro _ _ g hg hopt
        obtain ⟨s, hs, rfl⟩ := List.mem_map.1 hg
        have := hin (under s) (by rw [unders_map]; exact List.mem_map.2 ⟨s, hs, rfl⟩)
          (by simp only [autoField, under_hdr]; simp only [richField] at hopt; rw [hopt]; rfl)
        rw [under_name] at this
        exact this
      optional := by
        intro _ g hg _ _
        obtain ⟨s, hs, rfl⟩ := List.mem_map.1 hg
        rfl }
    have := sparse_step (c := richMap o .sparseRequired po fs) (opt := true) (by simp [richMap, mapModeOf]) hn' (fun _ => hofix) hinv op (fun _ => hkeep)
    rw [unders_map] at hfm
    obtain ⟨s, hs, rfl⟩ := List.mem_map.1 hfm
    rw [under_name]
    refine this.needed rfl rfl (richField o s) (List.mem_map.2 ⟨s, hs, rfl⟩) ?_
    simpa [autoField, richField, under_hdr] using hauto

theorem richHere_is (s : VSchema) (hn : ProperNames s) (e : Elem) (hc : Proper s e) (op : RichOp κ) (hs : SortsWell op) (hf : RichFits o s op) :
    Proper s (richHere o sep s e op) := by
  cases op with
  | assignDate v =>
    cases s with
    | date h d fs =>
      obtain ⟨sts, hl, _, hk⟩ := date_kids hc
      have : richHere (κ := κ) o sep (.date h d fs) e (.assignDate v) = dateElem h fs (explodeDate d (fs.map Prod.snd) (kidStates e) v).1 := by
        cases e <;> rfl
      rw [this]
      exact dateElem_is h d fs _ (by rw [explodeDate_len, hk, hl])
    | _ => exact hc
  | call op =>
    cases s with
    | plain s =>
      unfold Proper ProperNames under at *
      have : richHere o sep (.plain s) e (.call op) = editHere o.plain sep s e op := by
        cases op <;> first | rfl | skip
      rw [this]
      exact editHere_conforms o.plain sep s hn e hc op hs hf
    | joined h c =>
      cases op with
      | fill op => exact richFill_is sep _ e hc op
      | seq op =>
        cases e <;> first | exact hc | skip
        rename_i n ks
        unfold Proper under at *
        rw [Conforms] at hc
        simp only [richHere, Conforms]
        refine ⟨hc.1, seqStep_all (memberClass_closed o.plain _) op ?_ hf _ hc.2⟩
        rintro er left rfl
        exact hs
      | _ => exact hc
    | date h d fs =>
      cases op with
      | fill op => exact richFill_is sep _ e hc op
      | map op =>
        cases e <;> first | exact hc | skip
        rename_i n ks
        simp only [richHere]
        split
        · rename_i hm
          unfold Proper ProperNames under at *
          rw [Conforms] at hc
          rw [NamedFields] at hn
          rw [Conforms]
          refine ⟨hc.1, mapStep_conforms o.plain hn.2.1 hc.2 op ?_ ?_⟩
          · intro p hp f hff
            obtain ⟨g, hg, rfl⟩ := List.mem_map.1 hff
            exact hf p hp g hg
          · rintro eff rfl
            cases hm
        · exact hc
      | _ => exact hc
    | dict h mode po fs =>
      cases op with
      | fill op => exact richFill_is sep _ e hc op
      | map op =>
        cases e <;> first | exact hc | skip
        rename_i n ks
        unfold Proper ProperNames under at *
        rw [Conforms] at hc
        rw [NamedFields] at hn
        simp only [richHere, Conforms]
        exact ⟨hc.1, richStep_is o hn.2.1 hc.2 op hf.1 hf.2⟩
      | _ => exact hc
    | list h prune max m =>
      cases op with
      | fill op => exact richFill_is sep _ e hc op
      | list op =>
        cases e <;> first | exact hc | skip
        rename_i n ks
        unfold Proper under at *
        rw [Conforms] at hc
        simp only [richHere, Conforms]
        exact ⟨hc.1, listStep_all (richMember_closed o m) op hs (fun x hx => (isOf_proper _ _).1 (hf x hx)) _ (by rw [members_slotsFrom]; exact hc.2)⟩
      | _ => exact hc
    | array h prune m =>
      cases op with
      | fill op => exact richFill_is sep _ e hc op
      | seq op =>
        cases e <;> first | exact hc | skip
        rename_i n ks
        unfold Proper under at *
        rw [Conforms] at hc
        simp only [richHere, Conforms]
        refine ⟨hc.1, seqStep_all (richMember_closed o m) op ?_ (fun x hx => (isOf_proper _ _).1 (hf x hx)) _ hc.2⟩
        rintro er left rfl
        exact hs
      | _ => exact hc

/-! ### positions -/

omit [Runtime] in
theorem withKid_setKid (e : Elem) (i : Nat) (k : Elem) : withKid e i k = setKid e i k := by cases e <;> rfl

omit [Runtime] in
theorem changeAt_kid (f : Elem → Elem) {e : Elem} {i : Nat} {p : Pos} {x : Elem} (hx : elemAt e (i :: p) = some x) :
    ∃ k, e.kids[i]? = some k ∧ elemAt k p = some x ∧ ∀ r, changeAt f e (i :: r) = setKid e i (changeAt f k r) := by
  rw [elemAt_kidAt] at hx
  cases hk : e.kids[i]? with
  | none => rw [hk] at hx; cases hx
  | some k =>
    rw [hk] at hx
    exact ⟨k, rfl, hx, fun r => by rw [changeAt, hk]; exact withKid_setKid ..⟩

omit [Runtime] in
theorem elemAt_present {e x : Elem} (h : elemAt e [] = some x) : e.present = true ∧ e = x := by
  cases e <;> simp_all [elemAt, Elem.present]

omit [Runtime] in
theorem changeAt_here (f : Elem → Elem) : ∀ {p : Pos} {e x : Elem}, elemAt e p = some x → f x ≠ .absent → elemAt (changeAt f e p) p = some (f x)
  | [], e, x, hx, hf => by
    obtain ⟨h1, rfl⟩ := elemAt_present hx
    rw [changeAt, if_pos h1]
    exact elemAt_nil _ hf
  | i :: p, e, x, hx, hf => by
    obtain ⟨k, hk, hxk, he⟩ := changeAt_kid f hx
    rw [he, elemAt_setKid e hk]
    exact changeAt_here f hxk hf

omit [Runtime] in
theorem changeAt_below (f : Elem → Elem) : ∀ {p : Pos} {e x : Elem} (r : Pos), elemAt e p = some x → changeAt f x r ≠ .absent →
    elemAt (changeAt f e (p ++ r)) p = some (changeAt f x r)
  | [], e, x, r, hx, hf => by
    obtain ⟨_, rfl⟩ := elemAt_present hx
    exact elemAt_nil _ hf
  | i :: p, e, x, r, hx, hf => by
    obtain ⟨k, hk, hxk, he⟩ := changeAt_kid f hx
    rw [List.cons_append, he, elemAt_setKid e hk]
    exact changeAt_below f r hxk hf

omit [Runtime] in
theorem changeAt_apart (f : Elem → Elem) : ∀ {p q : Pos} {e x : Elem}, elemAt e p = some x → Apart p q → elemAt (changeAt f e p) q = elemAt e q
  | [], q, _, _, _, ha => absurd (List.nil_prefix) ha.1
  | _ :: _, [], _, _, _, ha => absurd (List.nil_prefix) ha.2
  | i :: p, j :: q, e, x, hx, ha => by
    obtain ⟨k, hk, hxk, he⟩ := changeAt_kid f hx
    rw [he]
    by_cases hij : j = i
    · subst hij
      rw [elemAt_setKid e hk, elemAt_kidAt, hk]
      exact changeAt_apart f hxk ⟨fun h => ha.1 (List.cons_prefix_cons.2 ⟨rfl, h⟩), fun h => ha.2 (List.cons_prefix_cons.2 ⟨rfl, h⟩)⟩
    · exact elemAt_setKid_ne e _ q hij

omit [Runtime] in
theorem changeAt_above (f : Elem → Elem) : ∀ {p q : Pos} {e x : Elem}, elemAt e p = some x → q <+: p → q ≠ p →
    ∃ y y', elemAt e q = some y ∧ elemAt (changeAt f e p) q = some y' ∧ SameFrame y y'
  | [], q, _, _, _, h, hne => absurd (List.prefix_nil.1 h) hne
  | i :: p, [], e, x, hx, _, _ => by
    obtain ⟨k, hk, hxk, he⟩ := changeAt_kid f hx
    have hne : e ≠ .absent := by rintro rfl; simp [Elem.kids] at hk
    refine ⟨e, setKid e i (changeAt f k p), elemAt_nil e hne, ?_, setKid_frame ..⟩
    rw [he]
    cases e <;> first | rfl | simp [Elem.kids] at hk
  | i :: p, j :: q, e, x, hx, h, hne => by
    obtain ⟨k, hk, hxk, he⟩ := changeAt_kid f hx
    obtain ⟨rfl, h'⟩ := List.cons_prefix_cons.1 h
    rw [he, elemAt_setKid e hk, elemAt_kidAt, hk]
    exact changeAt_above f hxk h' (fun h'' => hne (by rw [h'']))

omit [Runtime] in
theorem changeAt_names (f : Elem → Elem) : ∀ {p q : Pos} {e x : Elem}, elemAt e p = some x → ¬ p <+: q → namesAt (changeAt f e p) q = namesAt e q
  | [], q, _, _, _, ha => absurd (List.nil_prefix) ha
  | i :: p, [], e, x, hx, _ => by
    obtain ⟨k, hk, hxk, he⟩ := changeAt_kid f hx
    rw [he]
    cases e <;> rfl
  | i :: p, j :: q, e, x, hx, ha => by
    obtain ⟨k, hk, hxk, he⟩ := changeAt_kid f hx
    rw [he]
    by_cases hij : j = i
    · subst hij
      exact namesAt_setKid e hk _ q (changeAt_names f hxk (fun h => ha (List.cons_prefix_cons.2 ⟨rfl, h⟩)))
    · exact namesAt_setKid_ne e _ q hij

omit [Runtime] in
theorem changeAt_nowhere (f : Elem → Elem) : ∀ {p : Pos} {e : Elem}, elemAt e p = none → changeAt f e p = e
  | [], e, hx => by cases e <;> first | rfl | simp [elemAt] at hx
  | i :: p, e, hx => by
    rw [elemAt_kidAt] at hx
    rw [changeAt]
    cases hk : e.kids[i]? with
    | none => rfl
    | some k =>
      rw [hk] at hx
      simp only
      rw [changeAt_nowhere f hx]
      cases e <;> simp only [withKid, Elem.kids] at hk ⊢ <;> rw [set_getElem?_self hk]

omit [Runtime] in
theorem changeAt_same (f : Elem → Elem) : ∀ {p : Pos} {e x : Elem}, elemAt e p = some x → f x = x → changeAt f e p = e
  | [], e, x, hx, hf => by
    obtain ⟨h1, rfl⟩ := elemAt_present hx
    rw [changeAt, if_pos h1, hf]
  | i :: p, e, x, hx, hf => by
    obtain ⟨k, hk, hxk, he⟩ := changeAt_kid f hx
    rw [he, changeAt_same f hxk hf]
    cases e <;> simp only [setKid, Elem.kids] at hk ⊢ <;> rw [set_getElem?_self hk]

/-! ### classes at positions -/

omit [Runtime] in
/-- a child is of the class of its place, and any other of that class would do -/
theorem kid_is {s : VSchema} {e : Elem} (hc : Proper s e) {i : Nat} {k : Elem} (hk : e.kids[i]? = some k) (hp : k ≠ .absent) :
    ∃ f, kidClass s i = some f ∧ Proper f k ∧ (ProperNames s → ProperNames f) ∧ ∀ k', Proper f k' → Proper s (setKid e i k') := by
  have hdict : ∀ {h mode po} {fs : List Schema} {n ks}, Conforms (.dict h mode po fs) (.dict n ks) → ks[i]? = some k →
      ∃ f, fs[i]? = some f ∧ Conforms f k ∧ (NamedFields (.dict h mode po fs) → NamedFields f) ∧
        ∀ k', Conforms f k' → Conforms (.dict h mode po fs) (.dict n (ks.set i k')) := by
    intro h mode po fs n ks hc hk
    rw [Conforms] at hc
    obtain ⟨f, hf, hcf⟩ := conformsAll_getKid hc.2 hk
    refine ⟨f, hf, ?_, ?_, ?_⟩
    · rcases hcf with ⟨h, _⟩ | h
      · exact absurd h hp
      · exact h
    · intro hn
      rw [NamedFields] at hn
      exact namedFields_field hn.2.2 (List.mem_of_getElem? hf)
    · intro k' hk'
      rw [Conforms]
      exact ⟨hc.1, conformsAll_set hc.2 hf hk'⟩
  have hset : ∀ {m : Schema} {ks : List Elem}, (∀ k ∈ ks, Conforms m k) → ∀ k', Conforms m k' → ∀ x ∈ ks.set i k', Conforms m x := by
    intro m ks h k' hk' x hx
    rcases List.mem_or_eq_of_mem_set hx with hx | rfl
    · exact h x hx
    · exact hk'
  unfold Proper ProperNames at *
  cases s with
  | plain s =>
    rw [under] at hc ⊢
    cases s with
    | scalar h t => cases e <;> first | (simp [Conforms] at hc; done) | simp [Elem.kids] at hk
    | dict h mode po fs =>
      cases e <;> first | (simp [Conforms] at hc; done) | skip
      obtain ⟨f, h1, h2, h3, h4⟩ := hdict hc hk
      exact ⟨.plain f, by simp [kidClass, h1], by rw [under]; exact h2, by rw [under]; exact h3, fun k' => by rw [under]; exact h4 k'⟩
    | list h prune max m =>
      cases e <;> first | (simp [Conforms] at hc; done) | skip
      rw [Conforms] at hc
      exact ⟨.plain m, rfl, by rw [under]; exact hc.2 k (List.mem_of_getElem? hk), by rw [under, NamedFields]; exact id,
        fun k' hk' => by rw [under] at hk'; rw [setKid, Conforms]; exact ⟨hc.1, hset hc.2 k' hk'⟩⟩
    | array h prune m =>
      cases e <;> first | (simp [Conforms] at hc; done) | skip
      rw [Conforms] at hc
      exact ⟨.plain m, rfl, by rw [under]; exact hc.2 k (List.mem_of_getElem? hk), by rw [under, NamedFields]; exact id,
        fun k' hk' => by rw [under] at hk'; rw [setKid, Conforms]; exact ⟨hc.1, hset hc.2 k' hk'⟩⟩
  | joined h c =>
    rw [under] at hc ⊢
    cases e <;> first | (simp [Conforms] at hc; done) | skip
    rw [Conforms] at hc
    exact ⟨.plain (joinedMember c), rfl, by rw [under]; exact hc.2 k (List.mem_of_getElem? hk), by rw [under, NamedFields]; exact id,
      fun k' hk' => by rw [under] at hk'; rw [setKid, Conforms]; exact ⟨hc.1, hset hc.2 k' hk'⟩⟩
  | date h d fs =>
    rw [under] at hc ⊢
    cases e <;> first | (simp [Conforms] at hc; done) | skip
    obtain ⟨f, h1, h2, h3, h4⟩ := hdict hc hk
    rw [List.getElem?_map] at h1
    cases hf : fs[i]? with
    | none => rw [hf] at h1; cases h1
    | some g =>
      rw [hf] at h1
      cases h1
      exact ⟨.plain (.scalar g.1 g.2), by simp [kidClass, hf], by rw [under]; exact h2, by rw [under]; exact h3, fun k' => by rw [under]; exact h4 k'⟩
  | dict h mode po fs =>
    rw [under] at hc ⊢
    cases e <;> first | (simp [Conforms] at hc; done) | skip
    obtain ⟨f, h1, h2, h3, h4⟩ := hdict hc hk
    rw [unders_map, List.getElem?_map] at h1
    cases hf : fs[i]? with
    | none => rw [hf] at h1; cases h1
    | some g =>
      rw [hf] at h1
      cases h1
      exact ⟨g, by simp [kidClass, hf], h2, h3, h4⟩
  | list h prune max m =>
    rw [under] at hc ⊢
    cases e <;> first | (simp [Conforms] at hc; done) | skip
    rw [Conforms] at hc
    exact ⟨m, rfl, hc.2 k (List.mem_of_getElem? hk), by rw [NamedFields]; exact id,
      fun k' hk' => by rw [setKid, Conforms]; exact ⟨hc.1, hset hc.2 k' hk'⟩⟩
  | array h prune m =>
    rw [under] at hc ⊢
    cases e <;> first | (simp [Conforms] at hc; done) | skip
    rw [Conforms] at hc
    exact ⟨m, rfl, hc.2 k (List.mem_of_getElem? hk), by rw [NamedFields]; exact id,
      fun k' hk' => by rw [setKid, Conforms]; exact ⟨hc.1, hset hc.2 k' hk'⟩⟩

omit [Runtime] in
theorem proper_present {s : VSchema} {e : Elem} (h : Proper s e) : e ≠ .absent := by
  rintro rfl
  have := conforms_present h
  cases this

omit [Runtime] in
/-- the class at a position, and what any other element of it does there -/
theorem class_at : ∀ {p : Pos} {s : VSchema} {e x : Elem}, Proper s e → elemAt e p = some x →
    ∃ s', richClassAt s p = some s' ∧ (∀ r, richClassAt s (p ++ r) = richClassAt s' r) ∧ Proper s' x ∧ (ProperNames s → ProperNames s') ∧
      ∀ f : Elem → Elem, (Proper s' (f x) → Proper s (changeAt f e p))
  | [], s, e, x, hc, hx => by
    obtain ⟨h1, rfl⟩ := elemAt_present hx
    exact ⟨s, rfl, fun r => rfl, hc, id, fun f hf => by rw [changeAt, if_pos h1]; exact hf⟩
  | i :: p, s, e, x, hc, hx => by
    rw [elemAt_kidAt] at hx
    cases hk : e.kids[i]? with
    | none => rw [hk] at hx; cases hx
    | some k =>
      rw [hk] at hx
      have hp : k ≠ .absent := by rintro rfl; simp [elemAt_absent] at hx
      obtain ⟨g, h1, h2, h3, h4⟩ := kid_is hc hk hp
      obtain ⟨s', h5, h6, h7, h8, h9⟩ := class_at h2 hx
      refine ⟨s', by rw [richClassAt, h1]; exact h5, fun r => by rw [List.cons_append, richClassAt, h1]; exact h6 r, h7, fun hn => h8 (h3 hn), ?_⟩
      intro f hf
      rw [changeAt, hk]
      simp only
      rw [withKid_setKid]
      exact h4 _ (h9 f hf)

/-- a call at a position -/
theorem richAt_all {s : VSchema} (hn : ProperNames s) {e : Elem} (hc : Proper s e) {p : Pos} {x : Elem} (hx : elemAt e p = some x) (op : RichOp κ)
    (hf : RichFitsAt o s (p, op)) :
    ∃ s', richClassAt s p = some s' ∧ Proper s' x ∧ ProperNames s' ∧ richAt o sep s e p op = changeAt (fun y => richHere o sep s' y op) e p ∧
      Proper s' (richHere o sep s' x op) ∧ Proper s (richAt o sep s e p op) := by
  obtain ⟨s', h1, _, h2, h3, h4⟩ := class_at hc hx
  have h5 := richHere_is o sep s' (h3 hn) x h2 op hf.1 (hf.2 s' h1)
  have h6 : richAt o sep s e p op = changeAt (fun y => richHere o sep s' y op) e p := by rw [richAt, h1]
  exact ⟨s', h1, h2, h3 hn, h6, h5, by rw [h6]; exact h4 _ h5⟩

theorem richAt_nowhere {s : VSchema} {e : Elem} {p : Pos} (hx : elemAt e p = none) (op : RichOp κ) : richAt o sep s e p op = e := by
  unfold richAt
  split
  · exact changeAt_nowhere _ hx
  · rfl

theorem richAt_is {s : VSchema} (hn : ProperNames s) {e : Elem} (hc : Proper s e) {p : Pos} (op : RichOp κ) (hf : RichFitsAt o s (p, op)) :
    Proper s (richAt o sep s e p op) := by
  cases hx : elemAt e p with
  | none => rw [richAt_nowhere o sep hx]; exact hc
  | some x =>
    obtain ⟨_, _, _, _, _, _, h⟩ := richAt_all o sep hn hc hx op hf
    exact h

theorem richRun_is {s : VSchema} (hn : ProperNames s) : ∀ (cs : List (Pos × RichOp κ)), (∀ c ∈ cs, RichFitsAt o s c) → ∀ {e : Elem}, Proper s e →
    Proper s (richRun o sep s e cs)
  | [], _, e, hc => hc
  | (p, op) :: cs, hf, e, hc => by
    rw [richRun]
    exact richRun_is hn cs (fun c hcm => hf c (by simp [hcm])) (richAt_is o sep hn hc op (hf (p, op) (by simp)))

end
end Flatland
