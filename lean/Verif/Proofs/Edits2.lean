import Verif.Proofs.Edits
import Verif.Proofs.TreeProps
import Verif.Proofs.Nodes
/-! Calls on the elements of a tree: the tree stays proper, and the rest of it as it was. -/
namespace Flatland
open Flatland.Spec

section
variable [Runtime] {κ : Type} (o : Objects) (sep : PStr)

theorem memberClass_closed (s : Schema) : Closed (memberClass o s) (Conforms s) where
  blank := fresh_conforms s
  make v e h := by
    have hs := setRun_conforms s (fresh s) v (fresh_conforms s)
    simp only [memberClass] at h
    cases hr : setRun s (fresh s) v with
    | mk e' r =>
      rw [hr] at h hs
      cases r with
      | error er => cases h
      | ok b => simp only [Except.ok.injEq] at h; subst h; exact hs
  set e a h := by cases a <;> exact setRun_conforms s e _ h

omit [Runtime] in
theorem members_slotsFrom : ∀ (ks : List Elem) (i : Nat), members (slotsFrom i ks) = ks
  | [], _ => rfl
  | k :: ks, i => by
    have := members_slotsFrom ks (i + 1)
    simp only [members] at this
    simp [slotsFrom, members, this]

/-! ### Dicts as dicts -/

/-- the child belongs to a field with this name -/
def KidOf (fs : List Schema) (k : Option PStr) (e : Elem) : Prop := ∃ f ∈ fs, f.name = k ∧ Conforms f e

omit [Runtime] in
theorem schema_unique : ∀ {fs : List Schema}, (fs.map Schema.name).Nodup → ∀ {f g : Schema}, f ∈ fs → g ∈ fs → f.name = g.name → f = g
  | [], _, f, g, hf, _, _ => by cases hf
  | a :: fs, hn, f, g, hf, hg, h => by
    rw [List.map_cons, List.nodup_cons] at hn
    rcases List.mem_cons.1 hf with hfa | hf
    · rcases List.mem_cons.1 hg with hga | hg
      · rw [hfa, hga]
      · exact absurd (List.mem_map.2 ⟨g, hg, by rw [← h, hfa]⟩) hn.1
    · rcases List.mem_cons.1 hg with hga | hg
      · exact absurd (List.mem_map.2 ⟨f, hf, by rw [h, hga]⟩) hn.1
      · exact schema_unique hn.2 hf hg h

theorem closed_kidOf {fs : List Schema} (hn : (fs.map Schema.name).Nodup) {f : Schema} (hf : f ∈ fs) : Closed (memberClass o f) (KidOf fs f.name) where
  blank := ⟨f, hf, rfl, (memberClass_closed o f).blank⟩
  make v e h := ⟨f, hf, rfl, (memberClass_closed o f).make v e h⟩
  set e a := by
    rintro ⟨g, hg, hname, hc⟩
    have := schema_unique hn hg hf hname
    subst this
    exact ⟨g, hf, rfl, (memberClass_closed o g).set e a hc⟩

theorem fieldsClosed_of {mode : DictMode} {po : Policy} {fs : List Schema} (hn : (fs.map Schema.name).Nodup) :
    FieldsClosed (mapClassOf o mode po fs) (KidOf fs) where
  cls := by
    intro f hf
    obtain ⟨s, hs, rfl⟩ := List.mem_map.1 hf
    exact closed_kidOf o hn hs
  setDefault := by
    intro f hf e
    obtain ⟨s, hs, rfl⟩ := List.mem_map.1 hf
    rintro ⟨g, hg, hname, hc⟩
    have := schema_unique hn hg hs hname
    subst this
    exact ⟨g, hg, rfl, setDefaultRun_conforms g e hc⟩
  fromDefaults := by
    intro f hf e he
    obtain ⟨s, hs, rfl⟩ := List.mem_map.1 hf
    have h1 := setDefaultRun_conforms s (fresh s) (fresh_conforms s)
    simp only [fieldEntry] at he
    cases hr : setDefaultRun s (fresh s) with
    | mk e' r =>
      rw [hr] at he h1
      cases r with
      | error er => cases he
      | ok b => simp only [Except.ok.injEq] at he; subst he; exact ⟨s, hs, rfl, h1⟩

theorem names_mapClassOf (mode : DictMode) (po : Policy) (fs : List Schema) : names (mapClassOf o mode po fs) = fs.map Schema.name := by
  simp only [names, mapClassOf, List.map_map]
  rfl

omit [Runtime] in
theorem conforms_present {s : Schema} {e : Elem} (h : Conforms s e) : e.present = true := by
  cases s <;> cases e <;> simp_all [Conforms, Elem.present]

omit [Runtime] in
theorem dictOfKids_mem {mode : DictMode} : ∀ {fs : List Schema} {ks : List Elem}, ConformsAll mode fs ks → ∀ {k : Option PStr} {e : Elem},
    (k, e) ∈ dictOfKids fs ks → KidOf fs k e
  | [], [], _, k, e, h => by simp [dictOfKids] at h
  | [], _ :: _, hc, _, _, _ => by rw [ConformsAll.eq_def] at hc; exact hc.elim
  | _ :: _, [], hc, _, _, _ => by rw [ConformsAll.eq_def] at hc; exact hc.elim
  | f :: fs, k0 :: ks, hc, k, e, h => by
    rw [ConformsAll] at hc
    have hrec : (k, e) ∈ dictOfKids fs ks → KidOf (f :: fs) k e := fun h => by
      obtain ⟨g, hg, h1, h2⟩ := dictOfKids_mem hc.2 h
      exact ⟨g, by simp [hg], h1, h2⟩
    rw [dictOfKids] at h
    split at h
    · rename_i hp
      rcases List.mem_cons.1 h with h | h
      · simp only [Prod.mk.injEq] at h
        refine ⟨f, by simp, h.1.symm, ?_⟩
        rcases hc.1 with ⟨habs, _⟩ | hcf
        · rw [habs] at hp; cases hp
        · rw [h.2]; exact hcf
      · exact hrec h
    · exact hrec h

omit [Runtime] in
theorem dictOfKids_keys {mode : DictMode} : ∀ {fs : List Schema} {ks : List Elem}, ConformsAll mode fs ks →
    (dictKeys (dictOfKids fs ks)).Sublist (fs.map Schema.name) ∧
    ∀ f ∈ fs, autoField mode f = true → f.name ∈ dictKeys (dictOfKids fs ks)
  | [], [], _ => by simp [dictOfKids, dictKeys]
  | [], _ :: _, hc => by rw [ConformsAll.eq_def] at hc; exact hc.elim
  | _ :: _, [], hc => by rw [ConformsAll.eq_def] at hc; exact hc.elim
  | f :: fs, k0 :: ks, hc => by
    rw [ConformsAll] at hc
    obtain ⟨h1, h2⟩ := dictOfKids_keys hc.2
    rw [dictOfKids]
    split
    · simp only [dictKeys, List.map_cons] at h1 h2 ⊢
      refine ⟨h1.cons_cons _, ?_⟩
      intro g hg ha
      rcases List.mem_cons.1 hg with rfl | hg
      · simp
      · exact List.mem_cons_of_mem _ (h2 g hg ha)
    · rename_i hp
      refine ⟨h1.cons _, ?_⟩
      intro g hg ha
      rcases List.mem_cons.1 hg with hgf | hg
      · rcases hc.1 with ⟨_, hb⟩ | hcf
        · rw [hgf, hb] at ha; cases ha
        · exact absurd (conforms_present hcf) hp
      · exact h2 g hg ha

omit [Runtime] in
theorem dictOfKids_full : ∀ {fs : List Schema} {ks : List Elem}, ConformsAll .full fs ks → dictKeys (dictOfKids fs ks) = fs.map Schema.name
  | [], [], _ => rfl
  | [], _ :: _, hc => by rw [ConformsAll.eq_def] at hc; exact hc.elim
  | _ :: _, [], hc => by rw [ConformsAll.eq_def] at hc; exact hc.elim
  | f :: fs, k0 :: ks, hc => by
    rw [ConformsAll] at hc
    have hp : k0.present = true := by
      rcases hc.1 with ⟨_, h⟩ | h
      · cases h
      · exact conforms_present h
    have := dictOfKids_full hc.2
    simp only [dictKeys] at this ⊢
    simp [dictOfKids, hp, this]

omit [Runtime] in
theorem kidsOfDict_conforms {mode : DictMode} {d : PyDict (Option PStr) Elem} (all : List Schema) (hn : (all.map Schema.name).Nodup) (hk : KidsOk (KidOf all) d)
    (ha : ∀ f ∈ all, autoField mode f = true → f.name ∈ dictKeys d) : ∀ (fs : List Schema), (∀ f ∈ fs, f ∈ all) → ConformsAll mode fs (kidsOfDict fs d)
  | [], _ => by simp [kidsOfDict, ConformsAll]
  | f :: fs, hsub => by
    have hrec := kidsOfDict_conforms all hn hk ha fs (fun g hg => hsub g (by simp [hg]))
    simp only [kidsOfDict] at hrec ⊢
    rw [List.map_cons, ConformsAll]
    refine ⟨?_, hrec⟩
    cases hg : dictGet d f.name with
    | none =>
      left
      refine ⟨rfl, ?_⟩
      cases hauto : autoField mode f with
      | false => rfl
      | true => exact absurd (ha f (hsub f (by simp)) hauto) (dictGet_none.1 hg)
    | some e =>
      right
      obtain ⟨g, hgm, hname, hc⟩ := hk _ _ (mem_of_dictGet hg)
      rw [schema_unique hn (hsub f (by simp)) hgm hname.symm]
      exact hc

theorem mapStep_conforms {mode : DictMode} {po : Policy} {fs : List Schema} (hn : (fs.map Schema.name).Nodup) {ks : List Elem} (hc : ConformsAll mode fs ks)
    (op : MapOp (Option PStr) PyVal Elem) (hp : ∀ p ∈ mapPuts op, ∀ f ∈ fs, f.name = p.1 → o.isInstance f p.2 = true → Conforms f p.2)
    (hf : ∀ eff, op ≠ .setFlat eff) : ConformsAll mode fs (kidsOfDict fs (mapStep (mapClassOf o mode po fs) (dictOfKids fs ks) op)) := by
  have hnames := names_mapClassOf o mode po fs
  have hn' : (names (mapClassOf o mode po fs)).Nodup := by rw [hnames]; exact hn
  have hok : KidsOk (KidOf fs) (mapStep (mapClassOf o mode po fs) (dictOfKids fs ks) op) := by
    refine kidsOk_step (fieldsClosed_of o hn) op ?_ hf _ (fun k e h => dictOfKids_mem hc h)
    intro p hpm f hff hname hi
    obtain ⟨s, hs, rfl⟩ := List.mem_map.1 hff
    exact ⟨s, hs, hname, hp p hpm s hs hname hi⟩
  refine kidsOfDict_conforms fs hn hok ?_ fs (fun _ h => h)
  intro f hfm hauto
  cases mode with
  | full =>
    have h := fullKeys_step (c := mapClassOf o .full po fs) rfl (d := dictOfKids fs ks)
      (by unfold FullKeys; rw [hnames, dictOfKids_full hc]) op
    unfold FullKeys at h
    rw [h, hnames]
    exact List.mem_map.2 ⟨f, hfm, rfl⟩
  | sparse => cases hauto
  | sparseRequired =>
    have hofix : ∀ g ∈ (mapClassOf o .sparseRequired po fs).fields, OptionalFixed g := by
      intro g hg
      obtain ⟨s, hs, rfl⟩ := List.mem_map.1 hg
      exact ⟨rfl, fun _ _ _ => rfl, fun _ _ => rfl, fun _ => rfl, fun _ _ => rfl⟩
    have hsame : ∀ (k : Option PStr) (a : Arg PyVal Elem), SameOptional (mapClassOf o .sparseRequired po fs) k a := by
      intro k a
      cases a with
      | val v => trivial
      | el x =>
        intro g hg _ _
        obtain ⟨s, hs, rfl⟩ := List.mem_map.1 hg
        rfl
    have hkeep : KeepsOptional (mapClassOf o .sparseRequired po fs) op := by
      cases op with
      | setItem k a => exact hsame k a
      | update p kw =>
        cases p with
        | refused er => trivial
        | seq items fails => exact ⟨fun p _ => hsame p.1 p.2, fun p _ => hsame p.1 p.2⟩
      | setFlat eff => exact absurd rfl (hf eff)
      | _ => trivial
    obtain ⟨hsub, hin⟩ := dictOfKids_keys hc
    have hinv : SparseInv (mapClassOf o .sparseRequired po fs) true (dictOfKids fs ks) := {
      nodup := hsub.nodup hn
      within := fun k hk => by rw [hnames]; exact hsub.subset hk
      needed := by
        intro _ _ g hg hopt
        obtain ⟨s, hs, rfl⟩ := List.mem_map.1 hg
        exact hin s hs (by simp only [autoField]; simp only [fieldEntry] at hopt; rw [hopt]; rfl)
      optional := by
        intro _ g hg _ _
        obtain ⟨s, hs, rfl⟩ := List.mem_map.1 hg
        rfl }
    have := sparse_step (c := mapClassOf o .sparseRequired po fs) (opt := true) (by simp [mapClassOf, mapModeOf]) hn' (fun _ => hofix) hinv op (fun _ => hkeep)
    refine this.needed rfl rfl (fieldEntry o f) (List.mem_map.2 ⟨f, hfm, rfl⟩) ?_
    simpa [autoField, fieldEntry] using hauto

/-! ### the whole tree -/

omit [Runtime] in
theorem orFresh_present {f : Schema} {k : Elem} (h : k.present = true) : orFresh f k = k := by
  cases k <;> first | rfl | cases h

omit [Runtime] in
theorem set_getElem?_self {α : Type} : ∀ {l : List α} {i : Nat} {a : α}, l[i]? = some a → l.set i a = l
  | [], _, _, _ => rfl
  | x :: l, 0, a, h => by simp at h; simp [h]
  | x :: l, i + 1, a, h => by simp at h; simp [set_getElem?_self h]

theorem editHere_conforms (s : Schema) (hn : NamedFields s) (e : Elem) (hc : Conforms s e) (op : EditOp κ) (hs : SortsProperly op) (hf : Fits o s op) :
    Conforms s (editHere o sep s e op) := by
  cases op with
  | fill op =>
    have := fillStep_conforms sep s e hc op
    cases s <;> cases e <;> exact this
  | assign st =>
    cases s <;> cases e <;> first | exact hc | simpa [editHere, Conforms] using hc
  | list op =>
    cases s <;> cases e <;> first | exact hc | skip
    rename_i h prune max m n ks
    rw [Conforms] at hc
    simp only [editHere, Conforms]
    exact ⟨hc.1, listStep_all (memberClass_closed o m) op hs hf _ (by rw [members_slotsFrom]; exact hc.2)⟩
  | seq op =>
    cases s <;> cases e <;> first | exact hc | skip
    rename_i h prune m n ks
    rw [Conforms] at hc
    simp only [editHere, Conforms]
    refine ⟨hc.1, seqStep_all (memberClass_closed o m) op ?_ hf _ hc.2⟩
    rintro er left rfl
    exact hs
  | map op =>
    cases s <;> cases e <;> first | exact hc | skip
    rename_i h mode po fs n ks
    rw [Conforms] at hc
    rw [NamedFields] at hn
    simp only [editHere, Conforms]
    exact ⟨hc.1, mapStep_conforms o hn.2.1 hc.2 op hf.1 hf.2⟩

omit [Runtime] in
theorem namedFields_field : ∀ {fs : List Schema}, NamedFieldsAll fs → ∀ {f : Schema}, f ∈ fs → NamedFields f
  | [], _, _, h => by cases h
  | g :: fs, hn, f, h => by
    rw [NamedFieldsAll] at hn
    rcases List.mem_cons.1 h with rfl | h
    · exact hn.1
    · exact namedFields_field hn.2 h

theorem editAt_conforms : ∀ (p : List Nat) (s : Schema), NamedFields s → ∀ (e : Elem), Conforms s e → ∀ (op : EditOp κ), FitsAt o s (p, op) →
    Conforms s (editAt o sep s e p op)
  | [], s, hn, e, hc, op, hf => by
    have : editAt o sep s e [] op = editHere o sep s e op := by cases s <;> cases e <;> rfl
    rw [this]
    exact editHere_conforms o sep s hn e hc op hf.1 (hf.2 s (by cases s <;> rfl))
  | i :: p, s, hn, e, hc, op, hf => by
    cases s with
    | scalar h t => cases e <;> exact hc
    | dict h mode po fs =>
      cases e <;> first | exact hc | skip
      rename_i n ks
      rw [Conforms] at hc
      rw [NamedFields] at hn
      simp only [editAt]
      cases hfi : fs[i]? with
      | none => exact hc
      | some f =>
        cases hki : ks[i]? with
        | none => exact hc
        | some k =>
          rw [Conforms]
          refine ⟨hc.1, ?_⟩
          have hkid := conformsAll_kid hc.2 hfi
          rw [hki] at hkid
          simp only [Option.getD_some] at hkid
          have hfits : FitsAt o f (p, op) := ⟨hf.1, fun s' hs' => hf.2 s' (by simp only [classAt, hfi]; exact hs')⟩
          have hfn := namedFields_field hn.2.2 (List.mem_of_getElem? hfi)
          split
          · rename_i hp
            rw [orFresh_present hp] at hkid
            exact conformsAll_set hc.2 hfi (editAt_conforms p f hfn k hkid op hfits)
          · rw [set_getElem?_self hki]
            exact hc.2
    | list h prune max m =>
      cases e <;> first | exact hc | skip
      rename_i n ks
      rw [Conforms] at hc
      rw [NamedFields] at hn
      simp only [editAt]
      cases hki : ks[i]? with
      | none => rw [Conforms]; exact hc
      | some k =>
        rw [Conforms]
        refine ⟨hc.1, ?_⟩
        intro x hx
        rcases List.mem_or_eq_of_mem_set hx with hx | rfl
        · exact hc.2 x hx
        · exact editAt_conforms p m hn k (hc.2 k (List.mem_of_getElem? hki)) op ⟨hf.1, fun s' hs' => hf.2 s' (by simp only [classAt]; exact hs')⟩
    | array h prune m =>
      cases e <;> first | exact hc | skip
      rename_i n ks
      rw [Conforms] at hc
      rw [NamedFields] at hn
      simp only [editAt]
      cases hki : ks[i]? with
      | none => rw [Conforms]; exact hc
      | some k =>
        rw [Conforms]
        refine ⟨hc.1, ?_⟩
        intro x hx
        rcases List.mem_or_eq_of_mem_set hx with hx | rfl
        · exact hc.2 x hx
        · exact editAt_conforms p m hn k (hc.2 k (List.mem_of_getElem? hki)) op ⟨hf.1, fun s' hs' => hf.2 s' (by simp only [classAt]; exact hs')⟩

theorem editRun_conforms (s : Schema) (hn : NamedFields s) : ∀ (cs : List (List Nat × EditOp κ)), (∀ c ∈ cs, FitsAt o s c) → ∀ (e : Elem), Conforms s e →
    Conforms s (editRun o sep s e cs)
  | [], _, e, hc => hc
  | (p, op) :: cs, hf, e, hc => by
    rw [editRun]
    exact editRun_conforms s hn cs (fun c hcm => hf c (by simp [hcm])) _ (editAt_conforms o sep p s hn e hc op (hf (p, op) (by simp)))

/-! ### the other elements -/

omit [Runtime] in
/-- the element with another child [no code] -/
def setKid : Elem → Nat → Elem → Elem
  | .dict n ks, i, k => .dict n (ks.set i k)
  | .list n ks, i, k => .list n (ks.set i k)
  | .array n ks, i, k => .array n (ks.set i k)
  | e, _, _ => e

omit [Runtime] in
theorem setKid_kids (e : Elem) (i : Nat) (k : Elem) : (setKid e i k).kids = e.kids.set i k := by
  cases e <;> rfl

omit [Runtime] in
theorem setKid_name (e : Elem) (i : Nat) (k : Elem) : (setKid e i k).name = e.name := by
  cases e <;> rfl

omit [Runtime] in
theorem setKid_frame (e : Elem) (i : Nat) (k : Elem) : SameFrame e (setKid e i k) := by
  cases e <;> simp [setKid, SameFrame]

omit [Runtime] in
theorem elemAt_kidAt (e : Elem) (i : Nat) (q : Pos) : elemAt e (i :: q) = match e.kids[i]? with
    | some k => elemAt k q
    | none => none := by
  cases e <;> first | rfl | simp [elemAt, Elem.kids]

omit [Runtime] in
theorem elemAt_setKid_ne (e : Elem) {i j : Nat} (k : Elem) (q : Pos) (h : j ≠ i) : elemAt (setKid e i k) (j :: q) = elemAt e (j :: q) := by
  rw [elemAt_kidAt, elemAt_kidAt, setKid_kids, List.getElem?_set_ne (by omega)]

omit [Runtime] in
theorem elemAt_setKid (e : Elem) {i : Nat} {k0 : Elem} (h : e.kids[i]? = some k0) (k : Elem) (q : Pos) : elemAt (setKid e i k) (i :: q) = elemAt k q := by
  rw [elemAt_kidAt, setKid_kids, List.getElem?_set_self (List.getElem?_eq_some_iff.1 h).1]

omit [Runtime] in
theorem namesAt_setKid_ne (e : Elem) {i j : Nat} (k : Elem) (q : Pos) (h : j ≠ i) : namesAt (setKid e i k) (j :: q) = namesAt e (j :: q) := by
  cases e <;> simp [setKid, namesAt, Elem.kids, Elem.name, List.getElem?_set_ne (show i ≠ j by omega)]

omit [Runtime] in
theorem namesAt_setKid (e : Elem) {i : Nat} {k0 : Elem} (h : e.kids[i]? = some k0) (k : Elem) (q : Pos) (hk : namesAt k q = namesAt k0 q) :
    namesAt (setKid e i k) (i :: q) = namesAt e (i :: q) := by
  cases e <;> simp only [Elem.kids] at h <;> first
    | (simp at h; done)
    | simp [setKid, namesAt, Elem.kids, Elem.name, List.getElem?_set_self (List.getElem?_eq_some_iff.1 h).1, h, hk]

omit [Runtime] in
theorem conformsAll_getKid {mode : DictMode} : ∀ {fs : List Schema} {ks : List Elem} {i : Nat} {k : Elem}, ConformsAll mode fs ks → ks[i]? = some k →
    ∃ f, fs[i]? = some f ∧ ((k = .absent ∧ autoField mode f = false) ∨ Conforms f k)
  | [], [], i, _, _, h => by simp at h
  | [], _ :: _, _, _, hc, _ => by rw [ConformsAll.eq_def] at hc; exact hc.elim
  | _ :: _, [], i, _, _, h => by simp at h
  | f :: fs, k :: ks, 0, g, h, hf => by
    simp only [List.getElem?_cons_zero, Option.some.injEq] at hf
    subst hf
    rw [ConformsAll] at h
    exact ⟨f, by simp, h.1⟩
  | f :: fs, k :: ks, i + 1, g, h, hf => by
    simp only [List.getElem?_cons_succ] at hf ⊢
    rw [ConformsAll] at h
    exact conformsAll_getKid h.2 hf

/-- a call below is a call on a child -/
theorem editAt_kid {s : Schema} {e : Elem} (hc : Conforms s e) {i : Nat} {p : Pos} {x : Elem} (hx : elemAt e (i :: p) = some x) (op : EditOp κ) :
    ∃ f k, (∀ r, classAt s (i :: r) = classAt f r) ∧ e.kids[i]? = some k ∧ Conforms f k ∧ elemAt k p = some x ∧
      (NamedFields s → NamedFields f) ∧ editAt o sep s e (i :: p) op = setKid e i (editAt o sep f k p op) := by
  rw [elemAt_kidAt] at hx
  cases hk : e.kids[i]? with
  | none => rw [hk] at hx; cases hx
  | some k =>
    rw [hk] at hx
    simp only at hx
    cases s with
    | scalar h t => cases e <;> first | (simp [Conforms] at hc; done) | simp [Elem.kids] at hk
    | dict h mode po fs =>
      cases e <;> first | (simp [Conforms] at hc; done) | skip
      rename_i n ks
      simp only [Elem.kids] at hk
      rw [Conforms] at hc
      obtain ⟨f, hf, hcf⟩ := conformsAll_getKid hc.2 hk
      have hcf : Conforms f k := by
        rcases hcf with ⟨ha, _⟩ | h
        · rw [ha, elemAt_absent] at hx; cases hx
        · exact h
      refine ⟨f, k, fun r => by simp [classAt, hf], by simp [hk], hcf, hx, fun hn => ?_, ?_⟩
      · rw [NamedFields] at hn
        exact namedFields_field hn.2.2 (List.mem_of_getElem? hf)
      · simp only [editAt, hf, hk, conforms_present hcf, if_true]; rfl
    | list h prune max m =>
      cases e <;> first | (simp [Conforms] at hc; done) | skip
      rename_i n ks
      simp only [Elem.kids] at hk
      rw [Conforms] at hc
      exact ⟨m, k, fun r => by simp [classAt], by simp [hk], hc.2 k (List.mem_of_getElem? hk), hx,
        fun hn => by rw [NamedFields] at hn; exact hn, by simp only [editAt, hk]; rfl⟩
    | array h prune m =>
      cases e <;> first | (simp [Conforms] at hc; done) | skip
      rename_i n ks
      simp only [Elem.kids] at hk
      rw [Conforms] at hc
      exact ⟨m, k, fun r => by simp [classAt], by simp [hk], hc.2 k (List.mem_of_getElem? hk), hx,
        fun hn => by rw [NamedFields] at hn; exact hn, by simp only [editAt, hk]; rfl⟩

theorem editAt_root (s : Schema) (e : Elem) (op : EditOp κ) : editAt o sep s e [] op = editHere o sep s e op := by
  cases s <;> cases e <;> rfl

omit [Runtime] in
theorem classAt_root (s : Schema) : classAt s [] = some s := by cases s <;> rfl

omit [Runtime] in
theorem conforms_elemAt_nil {s : Schema} {e : Elem} (hc : Conforms s e) : elemAt e [] = some e := by
  cases e <;> first | rfl | cases s <;> exact absurd hc (by simp [Conforms])

theorem editAt_here : ∀ {p : Pos} {s : Schema} {e x : Elem}, Conforms s e → NamedFields s → elemAt e p = some x → ∀ (op : EditOp κ), FitsAt o s (p, op) →
    ∃ s', classAt s p = some s' ∧ Conforms s' x ∧ NamedFields s' ∧ elemAt (editAt o sep s e p op) p = some (editHere o sep s' x op)
  | [], s, e, x, hc, hn, hx, op, hf => by
    rw [conforms_elemAt_nil hc] at hx
    cases hx
    refine ⟨s, classAt_root s, hc, hn, ?_⟩
    rw [editAt_root]
    exact conforms_elemAt_nil (editHere_conforms o sep s hn e hc op hf.1 (hf.2 s (classAt_root s)))
  | i :: p, s, e, x, hc, hn, hx, op, hf => by
    obtain ⟨f, k, hcls, hk, hcf, hxk, hnf, he⟩ := editAt_kid o sep hc hx op
    obtain ⟨s', h1, h2, h3, h4⟩ := editAt_here hcf (hnf hn) hxk op ⟨hf.1, fun s' hs' => hf.2 s' (by rw [hcls]; exact hs')⟩
    refine ⟨s', by rw [hcls]; exact h1, h2, h3, ?_⟩
    rw [he, elemAt_setKid e hk, h4]

theorem editAt_apart : ∀ {p q : Pos} {s : Schema} {e x : Elem}, Conforms s e → elemAt e p = some x → ∀ (op : EditOp κ), Apart p q →
    elemAt (editAt o sep s e p op) q = elemAt e q
  | [], q, _, _, _, _, _, _, ha => absurd (List.nil_prefix) ha.1
  | _ :: _, [], _, _, _, _, _, _, ha => absurd (List.nil_prefix) ha.2
  | i :: p, j :: q, s, e, x, hc, hx, op, ha => by
    obtain ⟨f, k, hcls, hk, hcf, hxk, hnf, he⟩ := editAt_kid o sep hc hx op
    rw [he]
    by_cases hij : j = i
    · subst hij
      rw [elemAt_setKid e hk, elemAt_kidAt, hk]
      exact editAt_apart hcf hxk op ⟨fun h => ha.1 (List.cons_prefix_cons.2 ⟨rfl, h⟩), fun h => ha.2 (List.cons_prefix_cons.2 ⟨rfl, h⟩)⟩
    · exact elemAt_setKid_ne e _ q hij

theorem editAt_above : ∀ {p q : Pos} {s : Schema} {e x : Elem}, Conforms s e → elemAt e p = some x → ∀ (op : EditOp κ), q <+: p → q ≠ p →
    ∃ y y', elemAt e q = some y ∧ elemAt (editAt o sep s e p op) q = some y' ∧ SameFrame y y'
  | [], q, _, _, _, _, _, _, h, hne => absurd (List.prefix_nil.1 h) hne
  | i :: p, [], s, e, x, hc, hx, op, _, _ => by
    obtain ⟨f, k, hcls, hk, hcf, hxk, hnf, he⟩ := editAt_kid o sep hc hx op
    refine ⟨e, setKid e i (editAt o sep f k p op), conforms_elemAt_nil hc, ?_, setKid_frame ..⟩
    rw [he]
    cases e <;> first | rfl | simp [Elem.kids] at hk
  | i :: p, j :: q, s, e, x, hc, hx, op, h, hne => by
    obtain ⟨f, k, hcls, hk, hcf, hxk, hnf, he⟩ := editAt_kid o sep hc hx op
    obtain ⟨rfl, h'⟩ := List.cons_prefix_cons.1 h
    rw [he, elemAt_setKid e hk, elemAt_kidAt, hk]
    exact editAt_above hcf hxk op h' (fun h'' => hne (by rw [h'']))

theorem editAt_names : ∀ {p q : Pos} {s : Schema} {e x : Elem}, Conforms s e → elemAt e p = some x → ∀ (op : EditOp κ), ¬ p <+: q →
    namesAt (editAt o sep s e p op) q = namesAt e q
  | [], q, _, _, _, _, _, _, ha => absurd (List.nil_prefix) ha
  | i :: p, [], s, e, x, hc, hx, op, _ => by
    obtain ⟨f, k, hcls, hk, hcf, hxk, hnf, he⟩ := editAt_kid o sep hc hx op
    rw [he]
    cases e <;> rfl
  | i :: p, j :: q, s, e, x, hc, hx, op, ha => by
    obtain ⟨f, k, hcls, hk, hcf, hxk, hnf, he⟩ := editAt_kid o sep hc hx op
    rw [he]
    by_cases hij : j = i
    · subst hij
      exact namesAt_setKid e hk _ q (editAt_names hcf hxk op (fun h => ha (List.cons_prefix_cons.2 ⟨rfl, h⟩)))
    · exact namesAt_setKid_ne e _ q hij

/-- no such element: nothing happens -/
theorem editAt_nowhere : ∀ {p : Pos} {s : Schema} {e : Elem}, Conforms s e → elemAt e p = none → ∀ (op : EditOp κ), editAt o sep s e p op = e
  | [], s, e, hc, hx, op => by rw [conforms_elemAt_nil hc] at hx; cases hx
  | i :: p, s, e, hc, hx, op => by
    rw [elemAt_kidAt] at hx
    cases s with
    | scalar h t => cases e <;> rfl
    | dict h mode po fs =>
      cases e <;> first | (simp [Conforms] at hc; done) | skip
      rename_i n ks
      simp only [Elem.kids] at hx
      rw [Conforms] at hc
      simp only [editAt]
      cases hk : ks[i]? with
      | none => cases fs[i]? <;> rfl
      | some k =>
        obtain ⟨f, hf, hcf⟩ := conformsAll_getKid hc.2 hk
        rw [hk] at hx
        simp only [hf]
        rcases hcf with ⟨ha, _⟩ | hcf
        · rw [ha]
          rw [ha] at hk
          simp [Elem.present, set_getElem?_self hk]
        · rw [editAt_nowhere hcf hx op]
          simp [set_getElem?_self hk]
    | list h prune max m =>
      cases e <;> first | (simp [Conforms] at hc; done) | skip
      rename_i n ks
      simp only [Elem.kids] at hx
      rw [Conforms] at hc
      simp only [editAt]
      cases hk : ks[i]? with
      | none => rfl
      | some k =>
        rw [hk] at hx
        simp only
        rw [editAt_nowhere (hc.2 k (List.mem_of_getElem? hk)) hx op, set_getElem?_self hk]
    | array h prune m =>
      cases e <;> first | (simp [Conforms] at hc; done) | skip
      rename_i n ks
      simp only [Elem.kids] at hx
      rw [Conforms] at hc
      simp only [editAt]
      cases hk : ks[i]? with
      | none => rfl
      | some k =>
        rw [hk] at hx
        simp only
        rw [editAt_nowhere (hc.2 k (List.mem_of_getElem? hk)) hx op, set_getElem?_self hk]

end

end Flatland
