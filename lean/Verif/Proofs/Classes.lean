import Verif.Spec.Classes
import Verif.Proofs.Properties
import Verif.Proofs.Forms
/-! Lemmas about the schema constructors. -/
namespace Flatland
open Spec

variable {K V : Type} [DecidableEq K]

/-- all that existed before is as before; `n` is the number of old classes -/
structure Frame (n : Nat) (h h' : Heap K V) : Prop where
  cls : ∀ c, c < n → h'.classes[c]? = h.classes[c]?
  len : h.classes.length ≤ h'.classes.length
  lists : ∀ r, r < h.lists.length → h'.lists[r]? = h.lists[r]?
  lenL : h.lists.length ≤ h'.lists.length
  dicts : ∀ r, r < h.dicts.length → h'.dicts[r]? = h.dicts[r]?
  lenD : h.dicts.length ≤ h'.dicts.length
  nd : h.ndesc ≤ h'.ndesc
  init : ∀ d, d < h.ndesc → h'.props.init d = h.props.init d
  map : ∀ d c, c < n → h'.props.map d c = h.props.map d c

omit [DecidableEq K] in
theorem Frame.refl (n : Nat) (h : Heap K V) : Frame n h h :=
  ⟨fun _ _ => rfl, Nat.le_refl _, fun _ _ => rfl, Nat.le_refl _, fun _ _ => rfl, Nat.le_refl _, Nat.le_refl _, fun _ _ => rfl, fun _ _ _ => rfl⟩

omit [DecidableEq K] in
theorem Frame.trans {n : Nat} {h h1 h2 : Heap K V} (f : Frame n h h1) (g : Frame n h1 h2) : Frame n h h2 where
  cls c hc := (g.cls c hc).trans (f.cls c hc)
  len := Nat.le_trans f.len g.len
  lists r hr := (g.lists r (Nat.lt_of_lt_of_le hr f.lenL)).trans (f.lists r hr)
  lenL := Nat.le_trans f.lenL g.lenL
  dicts r hr := (g.dicts r (Nat.lt_of_lt_of_le hr f.lenD)).trans (f.dicts r hr)
  lenD := Nat.le_trans f.lenD g.lenD
  nd := Nat.le_trans f.nd g.nd
  init d hd := (g.init d (Nat.lt_of_lt_of_le hd f.nd)).trans (f.init d hd)
  map d c hc := (g.map d c hc).trans (f.map d c hc)

omit [DecidableEq K] in
theorem Frame.mono {n m : Nat} {h h' : Heap K V} (hm : m ≤ n) (f : Frame n h h') : Frame m h h' :=
  { f with cls := fun c hc => f.cls c (by omega), map := fun d c hc => f.map d c (by omega) }

omit [DecidableEq K] in
theorem Frame.dictAt {n : Nat} {h h' : Heap K V} (f : Frame n h h') {c : Nat} (hc : c < n) : h'.dictAt c = h.dictAt c := by
  simp [Heap.dictAt, f.cls c hc]

omit [DecidableEq K] in
theorem Frame.mroAt {n : Nat} {h h' : Heap K V} (f : Frame n h h') {c : Nat} (hc : c < n) : h'.mroAt c = h.mroAt c := by
  simp [Heap.mroAt, f.cls c hc]

omit [DecidableEq K] in
theorem Frame.exists {n : Nat} {h h' : Heap K V} (f : Frame n h h') {v : AttrVal} (hv : RefOk h v) : RefOk h' v := by
  have := f.lenL; have := f.lenD; have := f.nd
  cases v <;> simp only [RefOk] at hv ⊢ <;> omega

omit [DecidableEq K] in
theorem Frame.findAttr {n : Nat} {h h' : Heap K V} (f : Frame n h h') (a : String) (l : List Nat) (hl : ∀ b ∈ l, b < n) :
    (l.findSome? fun b => dictGet (h'.dictAt b) a) = l.findSome? fun b => dictGet (h.dictAt b) a := by
  induction l with
  | nil => rfl
  | cons b l ih =>
    simp only [List.findSome?_cons, f.dictAt (hl b (by simp)), ih fun b hb => hl b (by simp [hb])]

omit [DecidableEq K] in
theorem Frame.typeFrames {n : Nat} {h h' : Heap K V} (f : Frame n h h') (d : Nat) (l : List Nat) (hl : ∀ b ∈ l, b < n)
    (hd : d < h.ndesc) : Flatland.typeFrames h'.world h'.props d l = Flatland.typeFrames h.world h.props d l := by
  induction l with
  | nil => rfl
  | cons b l ih =>
    have hb := hl b (by simp)
    rw [Flatland.typeFrames, Flatland.typeFrames, ih fun b hb => hl b (by simp [hb]), f.init d hd, f.map d b hb]
    have : h'.world.member b = h.world.member b := by simp [Heap.world, Heap.memberAt, f.dictAt hb]
    rw [this]

theorem Frame.view {n : Nat} {h h' : Heap K V} (f : Frame n h h') {c : Nat} (hc : c < n) (hm : ∀ b ∈ h.mroAt c, b < n) {v : AttrVal} (hv : RefOk h v) :
    view h' c v = view h c v := by
  cases v with
  | obj o => rfl
  | list r => simp [Spec.view, Heap.listAt, f.lists r hv]
  | dict r => simp [Spec.view, f.dicts r hv]
  | props d =>
    simp only [Spec.view, typeItems]
    have hw : h'.world.mro c = h.mroAt c := f.mroAt hc
    rw [hw, f.typeFrames d _ hm hv]
    rfl

omit [DecidableEq K] in
theorem read_exists {h : Heap K V} (hw : WellFormed h) {c : Nat} {a : String} {v : AttrVal} (hr : h.read c a = some v) : RefOk h v := by
  obtain ⟨b, _, hb⟩ := List.exists_of_findSome?_eq_some hr
  exact hw.refs b a v hb

omit [DecidableEq K] in
theorem mroAt_nil {h : Heap K V} {c : Nat} (hc : h.classes.length ≤ c) : h.mroAt c = [] := by
  simp [Heap.mroAt, List.getElem?_eq_none hc]

theorem Frame.look {h h' : Heap K V} (hw : WellFormed h) (f : Frame h.classes.length h h') {c : Nat} (hc : c < h.classes.length) (a : String) :
    look h' c a = look h c a := by
  have hr : h'.read c a = h.read c a := by
    unfold Heap.read
    rw [f.mroAt hc]
    exact f.findAttr a _ (hw.mro c)
  unfold Spec.look
  rw [hr]
  cases hv : h.read c a with
  | none => rfl
  | some v => simp only [Option.map_some, f.view hc (hw.mro c) (read_exists hw hv)]

/-! ### the basic steps -/

omit [DecidableEq K] in
theorem dictAt_setAttr (h : Heap K V) (c b : Nat) (a : String) (v : AttrVal) (hc : c < h.classes.length) :
    (h.setAttr c a v).dictAt b = if b = c then dictPut (h.dictAt c) a v else h.dictAt b := by
  simp only [Heap.setAttr, Heap.dictAt, List.getElem?_modify]
  by_cases hb : b = c
  · subst hb
    simp [List.getElem?_eq_getElem hc]
  · simp [hb, show c ≠ b from fun h => hb h.symm]

omit [DecidableEq K] in
theorem mroAt_setAttr (h : Heap K V) (c b : Nat) (a : String) (v : AttrVal) : (h.setAttr c a v).mroAt b = h.mroAt b := by
  simp only [Heap.setAttr, Heap.mroAt, List.getElem?_modify]
  by_cases hb : c = b
  · subst hb
    cases h.classes[c]? <;> simp
  · simp [hb]

omit [DecidableEq K] in
theorem frame_setAttr (h : Heap K V) {n c : Nat} (a : String) (v : AttrVal) (hn : n ≤ c) : Frame n h (h.setAttr c a v) where
  cls b hb := by simp [Heap.setAttr, List.getElem?_modify, show c ≠ b from by omega]
  len := by simp [Heap.setAttr]
  lists _ _ := rfl
  lenL := Nat.le_refl _
  dicts _ _ := rfl
  lenD := Nat.le_refl _
  nd := Nat.le_refl _
  init _ _ := rfl
  map _ _ _ := rfl

omit [DecidableEq K] in
theorem wf_setAttr {h : Heap K V} (hw : WellFormed h) {c : Nat} (a : String) {v : AttrVal} (hc : c < h.classes.length) (hv : RefOk h v) :
    WellFormed (h.setAttr c a v) where
  self b hb := by rw [mroAt_setAttr]; exact hw.self b (by simpa [Heap.setAttr] using hb)
  mro b := by rw [mroAt_setAttr]; simpa [Heap.setAttr] using hw.mro b
  refs b a' v' h' := by
    rw [dictAt_setAttr _ _ _ _ _ hc] at h'
    have key : RefOk h v' := by
      by_cases hb : b = c
      · rw [if_pos hb, dictGet_put] at h'
        by_cases ha : a' = a
        · rw [if_pos ha] at h'; injection h' with h'; exact h' ▸ hv
        · rw [if_neg ha] at h'; exact hw.refs _ _ _ h'
      · rw [if_neg hb] at h'; exact hw.refs _ _ _ h'
    cases v' <;> exact key
  fresh d b hb := hw.fresh d b (by simpa [Heap.setAttr] using hb)

omit [DecidableEq K] in
theorem frame_newList (n : Nat) (h : Heap K V) (xs : List SchemaObj) : Frame n h (h.newList xs).1 where
  cls _ _ := rfl
  len := Nat.le_refl _
  lists r hr := by simp [Heap.newList, List.getElem?_append_left hr]
  lenL := by simp [Heap.newList]
  dicts _ _ := rfl
  lenD := Nat.le_refl _
  nd := Nat.le_refl _
  init _ _ := rfl
  map _ _ _ := rfl

omit [DecidableEq K] in
theorem frame_newDict (n : Nat) (h : Heap K V) (e : PyDict K V) : Frame n h { h with dicts := h.dicts ++ [e] } where
  cls _ _ := rfl
  len := Nat.le_refl _
  lists _ _ := rfl
  lenL := Nat.le_refl _
  dicts r hr := by simp [List.getElem?_append_left hr]
  lenD := by simp
  nd := Nat.le_refl _
  init _ _ := rfl
  map _ _ _ := rfl

theorem frame_newProps (n : Nat) (h : Heap K V) (pairs : List (K × V)) : Frame n h (h.newProps pairs).1 where
  cls _ _ := rfl
  len := Nat.le_refl _
  lists _ _ := rfl
  lenL := Nat.le_refl _
  dicts _ _ := rfl
  lenD := Nat.le_refl _
  nd := Nat.le_succ _
  init d hd := by simp [Heap.newProps, show d ≠ h.ndesc from by omega]
  map _ _ _ := rfl

omit [DecidableEq K] in
/-- the classes are the same, all else has only grown -/
theorem wf_grow {h h' : Heap K V} (hw : WellFormed h) {n : Nat} (f : Frame n h h') (hc : h'.classes = h.classes) (hm : h'.props.map = h.props.map) : WellFormed h' where
  self c h1 := by
    have := hw.self c (by simpa [hc] using h1)
    simpa [Heap.mroAt, hc] using this
  mro c := by simpa [Heap.mroAt, hc] using hw.mro c
  refs c a v h1 := f.exists (hw.refs c a v (by simpa [Heap.dictAt, hc] using h1))
  fresh d c h1 := by rw [hm]; exact hw.fresh d c (by simpa [hc] using h1)

omit [DecidableEq K] in
theorem wf_newList {h : Heap K V} (hw : WellFormed h) (xs : List SchemaObj) : WellFormed (h.newList xs).1 := wf_grow hw (frame_newList 0 h xs) rfl rfl
theorem wf_newProps {h : Heap K V} (hw : WellFormed h) (pairs : List (K × V)) : WellFormed (h.newProps pairs).1 := wf_grow hw (frame_newProps 0 h pairs) rfl rfl
omit [DecidableEq K] in
theorem wf_newDict {h : Heap K V} (hw : WellFormed h) (e : PyDict K V) : WellFormed { h with dicts := h.dicts ++ [e] } := wf_grow hw (frame_newDict 0 h e) rfl rfl

/-! ### the clone -/

/-- the attributes a new class has before the constructor does its work -/
structure IsClone (h : Heap K V) (module : PStr) (c : Nat) (h1 : Heap K V) (n : Nat) : Prop where
  id : n = h.classes.length
  len : h1.classes.length = h.classes.length + 1
  mro : h1.mroAt n = n :: h.mroAt c
  doc : dictGet (h1.dictAt n) "__doc__" = h.read c "__doc__"
  module : dictGet (h1.dictAt n) "__module__" = some (.obj (.val (.str module)))
  fields : h.kindAt c = .form → dictGet (h1.dictAt n) "field_schema" = some (.list h.lists.length) ∧
    h1.listAt h.lists.length = formFields (A := Unit) ⟨h.fieldName, fun f _ => f⟩ [h.fieldsOf c] [] []
  others : ∀ a, a ≠ "__doc__" → a ≠ "__module__" → (h.kindAt c = .form → a ≠ "field_schema") → (h.kindAt c = .compound → a ≠ "_compound_prepared") →
    dictGet (h1.dictAt n) a = none
  props : h1.props = h.props
  frame : Frame h.classes.length h h1

omit [DecidableEq K] in
theorem clone_is (h : Heap K V) (module : PStr) (c : Nat) : IsClone h module c (h.clone module c).1 (h.clone module c).2 := by
  have hframe : Frame h.classes.length h (h.clone module c).1 := by
    have g : ∀ (h1 : Heap K V) (r : ClassRec), h1.classes = h.classes → Frame h.classes.length h h1 → Frame h.classes.length h { h1 with classes := h.classes ++ [r] } := by
      intro h1 r hc f
      exact { f with cls := fun b hb => by simp [List.getElem?_append_left hb], len := by simp }
    unfold Heap.clone
    cases h.kindAt c
    · exact g _ _ rfl (Frame.refl _ _)
    · exact g _ _ rfl (frame_newList _ _ _)
    · exact g _ _ rfl (Frame.refl _ _)
  have hcls : (h.clone module c).1.classes = h.classes ++ [⟨h.classes.length :: h.mroAt c,
      (match h.kindAt c with
        | .plain => ((h.read c "__doc__").map fun v => ("__doc__", v)).toList ++ [("__module__", .obj (.val (.str module)))]
        | .form => ((h.read c "__doc__").map fun v => ("__doc__", v)).toList ++ [("__module__", .obj (.val (.str module)))] ++ [("field_schema", .list h.lists.length)]
        | .compound => ((h.read c "__doc__").map fun v => ("__doc__", v)).toList ++ [("__module__", .obj (.val (.str module)))] ++
            [("_compound_prepared", .obj (.val (.bool false)))]), h.kindAt c⟩] := by
    unfold Heap.clone
    cases h.kindAt c <;> rfl
  have hprops : (h.clone module c).1.props = h.props := by
    unfold Heap.clone
    cases h.kindAt c <;> rfl
  constructor
  · rfl
  · rw [hcls]; simp
  · show (h.clone module c).1.mroAt h.classes.length = _
    simp [Heap.mroAt, hcls, Heap.clone]
  · show dictGet ((h.clone module c).1.dictAt h.classes.length) _ = _
    simp only [Heap.dictAt, hcls]
    cases h.kindAt c <;> cases h.read c "__doc__" <;> simp [dictGet]
  · show dictGet ((h.clone module c).1.dictAt h.classes.length) _ = _
    simp only [Heap.dictAt, hcls]
    cases h.kindAt c <;> cases h.read c "__doc__" <;> simp [dictGet]
  · intro hk
    constructor
    · show dictGet ((h.clone module c).1.dictAt h.classes.length) _ = _
      simp only [Heap.dictAt, hcls, hk]
      cases h.read c "__doc__" <;> simp [dictGet]
    · simp [Heap.clone, hk, Heap.newList, Heap.listAt]
  · intro a h1 h2 h3 h4
    show dictGet ((h.clone module c).1.dictAt h.classes.length) _ = _
    simp only [Heap.dictAt, hcls]
    cases hk : h.kindAt c <;> cases h.read c "__doc__" <;> simp [dictGet, Ne.symm h1, Ne.symm h2, h1, h2] <;>
      first | exact h3 hk | exact fun h => h3 hk h.symm | exact h4 hk | exact fun h => h4 hk h.symm
  · exact hprops
  · exact hframe

omit [DecidableEq K] in
theorem wf_clone {h : Heap K V} (hw : WellFormed h) (module : PStr) (c : Nat) : WellFormed (h.clone module c).1 := by
  have hc := clone_is h module c
  have hid : (h.clone module c).2 = h.classes.length := hc.id
  constructor
  · intro b hb
    rw [hc.len] at hb
    by_cases h1 : b < h.classes.length
    · rw [hc.frame.mroAt h1]; exact hw.self b h1
    · have : b = (h.clone module c).2 := by omega
      rw [this]; exact ⟨_, hc.mro⟩
  · intro b x hx
    rw [hc.len]
    by_cases h1 : b < h.classes.length
    · rw [hc.frame.mroAt h1] at hx; have := hw.mro b x hx; omega
    · by_cases h2 : b = h.classes.length
      · rw [h2, ← hid, hc.mro] at hx
        rcases List.mem_cons.1 hx with hx | hx
        · omega
        · have := hw.mro c x hx; omega
      · rw [mroAt_nil (by rw [hc.len]; omega)] at hx
        simp at hx
  · intro b a v hv
    by_cases h1 : b < h.classes.length
    · rw [hc.frame.dictAt h1] at hv; exact hc.frame.exists (hw.refs b a v hv)
    · by_cases h2 : b = h.classes.length
      · rw [h2, ← hid] at hv
        by_cases e1 : a = "__doc__"
        · subst e1; rw [hc.doc] at hv; exact hc.frame.exists (read_exists hw hv)
        by_cases e2 : a = "__module__"
        · subst e2; rw [hc.module] at hv; injection hv with hv; subst hv; trivial
        by_cases e3 : h.kindAt c = .form ∧ a = "field_schema"
        · obtain ⟨e3, rfl⟩ := e3
          rw [(hc.fields e3).1] at hv
          injection hv with hv; subst hv
          show h.lists.length < _
          simp [Heap.clone, e3, Heap.newList]
        by_cases e4 : h.kindAt c = .compound ∧ a = "_compound_prepared"
        · obtain ⟨e4, rfl⟩ := e4
          have : dictGet ((h.clone module c).1.dictAt h.classes.length) "_compound_prepared" = some (.obj (.val (.bool false))) := by
            simp only [Heap.dictAt, Heap.clone, e4]
            cases h.read c "__doc__" <;> simp [dictGet]
          rw [hid, this] at hv
          injection hv with hv; subst hv; trivial
        · rw [hc.others a e1 e2 (fun k e => e3 ⟨k, e⟩) (fun k e => e4 ⟨k, e⟩)] at hv
          cases hv
      · have hnil : (h.clone module c).1.dictAt b = [] := by
          simp [Heap.dictAt, List.getElem?_eq_none (show (h.clone module c).1.classes.length ≤ b by rw [hc.len]; omega)]
        rw [hnil] at hv
        simp [dictGet] at hv
  · intro d b hb
    rw [hc.props]
    exact hw.fresh d b (by rw [hc.len] at hb; omega)

/-! ### the work on the new class -/

/-- what work on class `c`, setting the attributes `S`, leaves alone; `n` is the number of old classes -/
structure Did (n c : Nat) (S : List String) (h h' : Heap K V) : Prop where
  frame : Frame n h h'
  wf : WellFormed h'
  mro : h'.mroAt c = h.mroAt c
  attrs : ∀ a, a ∉ S → dictGet (h'.dictAt c) a = dictGet (h.dictAt c) a
  map : "properties" ∉ S → ∀ d, h'.props.map d c = h.props.map d c

omit [DecidableEq K] in
theorem Did.refl {h : Heap K V} (hw : WellFormed h) (n c : Nat) (S : List String) : Did n c S h h :=
  ⟨Frame.refl _ _, hw, rfl, fun _ _ => rfl, fun _ _ => rfl⟩

omit [DecidableEq K] in
theorem Did.trans {n c : Nat} {S : List String} {h h1 h2 : Heap K V} (f : Did n c S h h1) (g : Did n c S h1 h2) : Did n c S h h2 :=
  ⟨f.frame.trans g.frame, g.wf, g.mro.trans f.mro, fun a ha => (g.attrs a ha).trans (f.attrs a ha), fun hp d => (g.map hp d).trans (f.map hp d)⟩

omit [DecidableEq K] in
theorem Did.mono {n c : Nat} {S T : List String} {h h' : Heap K V} (hs : ∀ a ∈ S, a ∈ T) (f : Did n c S h h') : Did n c T h h' :=
  ⟨f.frame, f.wf, f.mro, fun a ha => f.attrs a (fun h => ha (hs a h)), fun hp => f.map (fun h => hp (hs _ h))⟩

omit [DecidableEq K] in
theorem did_grow {n c : Nat} {h h' : Heap K V} (hw : WellFormed h) (f : Frame n h h') (hc : h'.classes = h.classes) (hm : h'.props.map = h.props.map)
    (S : List String) : Did n c S h h' :=
  ⟨f, wf_grow hw f hc hm, by simp [Heap.mroAt, hc], fun a _ => by simp [Heap.dictAt, hc], fun _ d => by rw [hm]⟩

omit [DecidableEq K] in
theorem did_setAttr {n c : Nat} {h : Heap K V} (hw : WellFormed h) (hn : n ≤ c) (hc : c < h.classes.length) (a : String) {v : AttrVal} (hv : RefOk h v) :
    Did n c [a] h (h.setAttr c a v) := by
  refine ⟨frame_setAttr h a v hn, wf_setAttr hw a hc hv, mroAt_setAttr _ _ _ _ _, ?_, fun _ _ => rfl⟩
  intro b hb
  rw [dictAt_setAttr _ _ _ _ _ hc, if_pos rfl, dictGet_put, if_neg (by simpa using hb)]

omit [DecidableEq K] in
theorem did_setList {n c : Nat} {h : Heap K V} (hw : WellFormed h) (hn : n ≤ c) (hc : c < h.classes.length) (a : String) (xs : List SchemaObj) :
    Did n c [a] h (((h.newList xs).1).setAttr c a (.list (h.newList xs).2)) :=
  (did_grow hw (frame_newList n h xs) rfl rfl _).trans
    (did_setAttr (wf_newList hw xs) hn hc a (show h.lists.length < (h.lists ++ [xs]).length by simp))

theorem overrideValue_grows (n : Nat) (h : Heap K V) (a : String) (arg : UsingArg K V) :
    Frame n h (overrideValue h a arg).1 ∧ (overrideValue h a arg).1.classes = h.classes ∧ (overrideValue h a arg).1.props.map = h.props.map := by
  unfold overrideValue
  split
  · split
    · exact ⟨frame_newList _ _ _, rfl, rfl⟩
    · exact ⟨frame_newList _ _ _, rfl, rfl⟩
    · exact ⟨Frame.refl _ _, rfl, rfl⟩
  · split
    · split
      · exact ⟨Frame.refl _ _, rfl, rfl⟩
      · exact ⟨frame_newProps _ _ _, rfl, rfl⟩
      · exact ⟨frame_newProps _ _ _, rfl, rfl⟩
      · exact ⟨Frame.refl _ _, rfl, rfl⟩
    · split
      · exact ⟨Frame.refl _ _, rfl, rfl⟩
      · exact ⟨frame_newList _ _ _, rfl, rfl⟩
      · exact ⟨frame_newDict _ _ _, rfl, rfl⟩

theorem overrideValue_ok {h : Heap K V} {a : String} {arg : UsingArg K V} (ha : ∀ v, arg = .obj v → RefOk h v) {v : AttrVal}
    (hv : (overrideValue h a arg).2 = .ok v) : RefOk (overrideValue h a arg).1 v := by
  unfold overrideValue at hv ⊢
  split at hv
  · rename_i e
    rw [if_pos e]
    split at hv
    · injection hv with hv; subst hv; simp [RefOk, Heap.newList]
    · injection hv with hv; subst hv; simp [RefOk, Heap.newList]
    · cases hv
  · rename_i e
    rw [if_neg e]
    split at hv
    · rename_i e
      rw [if_pos e]
      split at hv
      · injection hv with hv; subst hv; exact ha _ rfl
      · injection hv with hv; subst hv; simp [RefOk, Heap.newProps]
      · injection hv with hv; subst hv; simp [RefOk, Heap.newProps]
      · cases hv
    · rename_i e
      rw [if_neg e]
      split at hv
      · injection hv with hv; subst hv; exact ha _ rfl
      · injection hv with hv; subst hv; simp [RefOk, Heap.newList]
      · injection hv with hv; subst hv; simp [RefOk]

theorem overrideValues_grows (n : Nat) (os : List (String × UsingArg K V)) (h : Heap K V) :
    Frame n h (overrideValues h os).1 ∧ (overrideValues h os).1.classes = h.classes ∧ (overrideValues h os).1.props.map = h.props.map := by
  induction os generalizing h with
  | nil => exact ⟨Frame.refl _ _, rfl, rfl⟩
  | cons o os ih =>
    obtain ⟨a, arg⟩ := o
    obtain ⟨f, hc, hm⟩ := overrideValue_grows n h a arg
    rw [overrideValues]
    cases hv : overrideValue h a arg with
    | mk h1 res =>
      rw [hv] at f hc hm
      cases res with
      | error e => exact ⟨f, hc, hm⟩
      | ok v =>
        obtain ⟨f2, hc2, hm2⟩ := ih h1
        cases hvs : overrideValues h1 os with
        | mk h2 res2 =>
          rw [hvs] at f2 hc2 hm2
          have : Frame n h h2 ∧ h2.classes = h.classes ∧ h2.props.map = h.props.map := ⟨f.trans f2, hc2.trans hc, hm2.trans hm⟩
          simp only [hvs]
          cases res2 <;> exact this

theorem overrideValues_ok {os : List (String × UsingArg K V)} {h : Heap K V} (ha : ∀ a v, (a, UsingArg.obj v) ∈ os → RefOk h v)
    {vs : List (String × AttrVal)} (hv : (overrideValues h os).2 = .ok vs) :
    vs.map Prod.fst = os.map Prod.fst ∧ ∀ p ∈ vs, RefOk (overrideValues h os).1 p.2 := by
  induction os generalizing h vs with
  | nil => simp only [overrideValues] at hv; injection hv with hv; subst hv; simp
  | cons o os ih =>
    obtain ⟨a, arg⟩ := o
    obtain ⟨f, hc, hm⟩ := overrideValue_grows 0 h a arg
    have hok := @overrideValue_ok _ _ _ h a arg (fun v e => ha a v (by simp [e]))
    rw [overrideValues] at hv ⊢
    cases hval : overrideValue h a arg with
    | mk h1 res =>
      rw [hval] at hv f hok
      cases res with
      | error e => cases hv
      | ok v =>
        have hv1 := hok rfl
        have ih1 := @ih h1
        have g := overrideValues_grows 0 os h1
        simp only at hv ⊢
        cases hvs : overrideValues h1 os with
        | mk h2 res2 =>
          rw [hvs] at hv ih1 g
          cases res2 with
          | error e => cases hv
          | ok vs2 =>
            simp only at hv ⊢
            injection hv with hv
            subst hv
            obtain ⟨i1, i2⟩ := ih1 (fun a v hm => f.exists (ha a v (by simp [hm]))) rfl
            refine ⟨by simp [i1], ?_⟩
            intro p hp
            rcases List.mem_cons.1 hp with rfl | hp
            · exact g.1.exists hv1
            · exact i2 p hp

omit [DecidableEq K] in
theorem did_setOverrides {n c : Nat} (vs : List (String × AttrVal)) {h : Heap K V} (hw : WellFormed h) (hn : n ≤ c) (hc : c < h.classes.length)
    (hv : ∀ p ∈ vs, RefOk h p.2) : Did n c (vs.map Prod.fst) h (setOverrides h c vs).1 := by
  induction vs generalizing h with
  | nil => exact Did.refl hw _ _ _
  | cons p vs ih =>
    obtain ⟨a, v⟩ := p
    rw [setOverrides]
    split
    · exact Did.refl hw _ _ _
    · have h1 := did_setAttr hw hn hc a (hv (a, v) (by simp))
      have h2 := ih h1.wf (by simpa [Heap.setAttr] using hc) (fun q hq => h1.frame.exists (hv q (by simp [hq])))
      exact (h1.mono (by simp)).trans (h2.mono (by intro b hb; rw [List.map_cons]; exact List.mem_cons_of_mem _ hb))

theorem did_using {n c : Nat} {h : Heap K V} (hw : WellFormed h) (hn : n ≤ c) (hc : c < h.classes.length) (os : List (String × UsingArg K V))
    (ha : ∀ a v, (a, UsingArg.obj v) ∈ os → RefOk h v) (d : Nat) : Did n c (os.map Prod.fst) h (runOn h d c (.using os)).1 := by
  obtain ⟨f, h1, h2⟩ := overrideValues_grows n os h
  have hok := @overrideValues_ok _ _ _ os h ha
  rw [runOn]
  cases hval : overrideValues h os with
  | mk h' res =>
    rw [hval] at f h1 h2 hok
    have g := did_grow (c := c) hw f h1 h2 (os.map Prod.fst)
    cases res with
    | error e => exact g
    | ok vs =>
      obtain ⟨e1, e2⟩ := hok rfl
      simp only at e2 h1
      have g2 := did_setOverrides vs g.wf hn (by rw [h1]; exact hc) e2
      rw [e1] at g2
      exact g.trans g2

omit [DecidableEq K] in
theorem did_validators {n c : Nat} {h : Heap K V} (hw : WellFormed h) (hn : n ≤ c) (hc : c < h.classes.length) (a : String) (vs : List SchemaObj) :
    Did n c [a] h (replaceValidators h c a vs).1 := by
  unfold replaceValidators
  split
  · exact Did.refl hw _ _ _
  · exact did_setList hw hn hc a vs

omit [DecidableEq K] in
theorem did_addValidators {n c : Nat} {h : Heap K V} (hw : WellFormed h) (hn : n ≤ c) (hc : c < h.classes.length) (a : String) (vs : List SchemaObj) (p : Int) :
    Did n c [a] h (addValidators h c a vs p).1 := by
  unfold addValidators
  split
  · exact did_setList hw hn hc a _
  · exact Did.refl hw _ _ _
  · exact Did.refl hw _ _ _

theorem did_properties {n c : Nat} {h : Heap K V} (hw : WellFormed h) (hn : n ≤ c) (hc : c < h.classes.length) (pairs : List (K × V))
    (hown : dictGet (h.dictAt c) "properties" = none) (hplain : ∀ r, h.read c "properties" ≠ some (.dict r)) :
    Did n c ["properties"] h (updateProperties h c pairs).1 := by
  unfold updateProperties
  split
  · rename_i d _
    have hm : h.world.member c = none := by simp [Heap.world, Heap.memberAt, hown]
    simp only [typeOp, putBase, hm]
    rw [if_neg (by simp)]
    refine ⟨⟨fun _ _ => rfl, Nat.le_refl _, fun _ _ => rfl, Nat.le_refl _, fun _ _ => rfl, Nat.le_refl _, Nat.le_refl _, fun _ _ => rfl, ?_⟩, ?_, rfl, fun _ _ => rfl, by simp⟩
    · intro d' b hb
      simp [show b ≠ c from by omega]
    · refine ⟨hw.self, hw.mro, fun b a v hv => ?_, ?_⟩
      · have := hw.refs b a v hv
        cases v <;> exact this
      · intro d' b hb
        have : c < b := Nat.lt_of_lt_of_le hc hb
        simp [show b ≠ c from by omega]
        exact hw.fresh d' b hb
  · rename_i r hr; exact absurd hr (hplain r)
  · exact Did.refl hw _ _ _

omit [DecidableEq K] in
theorem did_dictOf {n c : Nat} {h : Heap K V} (hw : WellFormed h) (hn : n ≤ c) (hc : c < h.classes.length) (fields : List FieldArg) :
    Did n c ["field_schema"] h (dictOfFields h c fields).1 := by
  unfold dictOfFields
  split
  · exact Did.refl hw _ _ _
  · split
    · exact did_setList hw hn hc _ _
    · exact Did.refl hw _ _ _

omit [DecidableEq K] in
theorem did_sequenceOf {n c : Nat} {h : Heap K V} (hw : WellFormed h) (hn : n ≤ c) (hc : c < h.classes.length) (dictClass : Nat) (schema : List FieldArg) :
    Did n c ["member_schema"] h (sequenceOfFields h dictClass c schema).1 := by
  unfold sequenceOfFields
  split
  · exact Did.refl hw _ _ _
  · exact Did.refl hw _ _ _
  · exact did_setAttr hw hn hc _ trivial
  · generalize hm : "flatland.schema.containers".toList = m
    have hcl := clone_is h m dictClass
    have hid := hcl.id
    have hlen : (h.clone m dictClass).2 < (h.clone m dictClass).1.classes.length := by rw [hcl.len, hid]; omega
    have g1 := did_dictOf (n := h.classes.length) (wf_clone hw m dictClass) (by omega) hlen schema
    have f2 : Frame h.classes.length h (dictOfFields (h.clone m dictClass).1 (h.clone m dictClass).2 schema).1 := hcl.frame.trans g1.frame
    have key : Did n c ["member_schema"] h (dictOfFields (h.clone m dictClass).1 (h.clone m dictClass).2 schema).1 :=
      ⟨f2.mono (by omega), g1.wf, f2.mroAt hc, fun a _ => by rw [f2.dictAt hc], fun _ d => f2.map d c hc⟩
    cases hres : dictOfFields (h.clone m dictClass).1 (h.clone m dictClass).2 schema with
    | mk h1 res =>
      rw [hres] at key f2
      cases res with
      | error e => exact key
      | ok d => exact key.trans (did_setAttr key.wf hn (Nat.lt_of_lt_of_le hc f2.len) _ trivial)

theorem did_runOn {n c : Nat} {h : Heap K V} (hw : WellFormed h) (hn : n ≤ c) (hc : c < h.classes.length) (dictClass : Nat) (call : SchemaCall K V)
    (ha : ArgsExist h call) (hown : dictGet (h.dictAt c) "properties" = none)
    (hplain : ∀ pairs, call = .withProperties pairs → ∀ r, h.read c "properties" ≠ some (.dict r)) : Did n c (sets call) h (runOn h dictClass c call).1 := by
  cases call with
  | named name => exact did_setAttr hw hn hc _ (by trivial)
  | «using» os => exact did_using hw hn hc os ha dictClass
  | validatedBy vs => exact did_validators hw hn hc _ vs
  | includingValidators vs p => exact did_addValidators hw hn hc _ vs p
  | descentValidatedBy vs => exact did_validators hw hn hc _ vs
  | includingDescentValidators vs p => exact did_addValidators hw hn hc _ vs p
  | withProperties pairs => exact did_properties hw hn hc pairs hown (hplain pairs rfl)
  | sequenceOf schema => exact did_sequenceOf hw hn hc dictClass schema
  | dictOf fields => exact did_dictOf hw hn hc fields
  | valued vs => exact did_setList hw hn hc _ vs

omit [DecidableEq K] in
theorem setOverrides_id {h : Heap K V} {c n : Nat} {vs : List (String × AttrVal)} (hr : (setOverrides h c vs).2 = .ok n) : n = c := by
  induction vs generalizing h with
  | nil => simp only [setOverrides] at hr; injection hr with hr; exact hr.symm
  | cons p vs ih =>
    rw [setOverrides] at hr
    split at hr
    · cases hr
    · exact ih hr

theorem runOn_id {h : Heap K V} {dictClass c n : Nat} {call : SchemaCall K V} (hr : (runOn h dictClass c call).2 = .ok n) : n = c := by
  cases call with
  | named name => simp only [runOn] at hr; injection hr with hr; exact hr.symm
  | «using» os =>
    simp only [runOn] at hr
    split at hr
    · cases hr
    · exact setOverrides_id hr
  | validatedBy vs => simp only [runOn, replaceValidators] at hr; split at hr <;> first | (injection hr with hr; exact hr.symm) | cases hr
  | includingValidators vs p => simp only [runOn, addValidators] at hr; split at hr <;> first | (injection hr with hr; exact hr.symm) | cases hr
  | descentValidatedBy vs => simp only [runOn, replaceValidators] at hr; split at hr <;> first | (injection hr with hr; exact hr.symm) | cases hr
  | includingDescentValidators vs p => simp only [runOn, addValidators] at hr; split at hr <;> first | (injection hr with hr; exact hr.symm) | cases hr
  | withProperties pairs => simp only [runOn, updateProperties] at hr; split at hr <;> first | (injection hr with hr; exact hr.symm) | cases hr
  | sequenceOf schema =>
    simp only [runOn, sequenceOfFields] at hr
    split at hr
    · cases hr
    · cases hr
    · injection hr with hr; exact hr.symm
    · split at hr
      · cases hr
      · injection hr with hr; exact hr.symm
  | dictOf fields =>
    simp only [runOn, dictOfFields] at hr
    split at hr
    · cases hr
    · split at hr
      · injection hr with hr; exact hr.symm
      · cases hr
  | valued vs => simp only [runOn] at hr; injection hr with hr; exact hr.symm

omit [DecidableEq K] in
theorem IsClone.own_properties {h h1 : Heap K V} {m : PStr} {c n : Nat} (hc : IsClone h m c h1 n) : dictGet (h1.dictAt n) "properties" = none :=
  hc.others _ (by decide) (by decide) (fun _ => by decide) (fun _ => by decide)

omit [DecidableEq K] in
theorem IsClone.read_others {h h1 : Heap K V} {m : PStr} {c n : Nat} (hw : WellFormed h) (hc : IsClone h m c h1 n) {a : String} (ha : dictGet (h1.dictAt n) a = none) :
    h1.read n a = h.read c a := by
  unfold Heap.read
  rw [hc.mro, List.findSome?_cons, ha]
  exact hc.frame.findAttr a _ (hw.mro c)

/-- a constructor call: what it leaves alone -/
theorem call_did {h : Heap K V} (hw : WellFormed h) (m : PStr) (dictClass c : Nat) (call : SchemaCall K V) (ha : ArgsExist h call)
    (hplain : ∀ pairs, call = .withProperties pairs → ∀ r, h.read c "properties" ≠ some (.dict r)) :
    IsClone h m c (h.clone m c).1 h.classes.length ∧
    Did h.classes.length h.classes.length (sets call) (h.clone m c).1 (callSchema h m dictClass c call).1 := by
  have hc : IsClone h m c (h.clone m c).1 h.classes.length := clone_is h m c
  refine ⟨hc, ?_⟩
  refine did_runOn (wf_clone hw m c) (Nat.le_refl _) (by rw [hc.len]; omega) dictClass call ?_ hc.own_properties ?_
  · cases call with
    | «using» os => exact fun a v hm => hc.frame.exists (ha a v hm)
    | _ => trivial
  · intro pairs hp r
    rw [hc.read_others hw hc.own_properties]
    exact hplain pairs hp r

theorem addUnseen_nodup {N F : Type} [DecidableEq N] (fc : FieldClass N F) (fs : List F) (col : Collection N F)
    (h : ∀ f ∈ fs, fc.name f ∉ col.names) (hn : (fs.map fc.name).Nodup) : (addUnseen fc col fs).elements = col.elements ++ fs := by
  induction fs generalizing col with
  | nil => simp [addUnseen]
  | cons f fs ih =>
    rw [List.map_cons, List.nodup_cons] at hn
    rw [addUnseen, if_neg (h f (by simp)), ih _ _ hn.2]
    · simp
    · intro g hg
      rw [List.mem_cons, not_or]
      exact ⟨fun he => hn.1 (he ▸ List.mem_map_of_mem hg), h g (by simp [hg])⟩

theorem formFields_same {N F A : Type} [DecidableEq N] [DecidableEq F] (fc : FieldClass N F) (fs : List F) (hn : (fs.map fc.name).Nodup) :
    formFields (A := A) fc [fs] [] [] = fs := by
  simp only [formFields, addBases, addOverwrite, declaredFields]
  rw [addUnseen_nodup _ _ _ (by simp [Collection.empty]) hn]
  simp [Collection.empty]

/-! ### plain dicts as properties -/

omit [DecidableEq K] in
theorem declared_setAttr {h : Heap K V} (hd : DeclaredProperties h) {c : Nat} (hc : c < h.classes.length) {a : String} {v : AttrVal}
    (hv : a = "properties" → ∀ r, v ≠ .dict r) : DeclaredProperties (h.setAttr c a v) := by
  intro b r
  rw [dictAt_setAttr _ _ _ _ _ hc]
  by_cases hb : b = c
  · rw [if_pos hb, dictGet_put]
    by_cases ha : "properties" = a
    · rw [if_pos ha]
      intro h'
      injection h' with h'
      exact hv ha.symm r h'
    · rw [if_neg ha]; exact hd c r
  · rw [if_neg hb]; exact hd b r

omit [DecidableEq K] in
theorem declared_grow {h h' : Heap K V} (hd : DeclaredProperties h) (hc : h'.classes = h.classes) : DeclaredProperties h' := by
  intro b r
  simpa [Heap.dictAt, hc] using hd b r

omit [DecidableEq K] in
theorem declared_clone {h : Heap K V} (hd : DeclaredProperties h) (m : PStr) (c : Nat) : DeclaredProperties (h.clone m c).1 := by
  have hc := clone_is h m c
  intro b r
  by_cases h1 : b < h.classes.length
  · rw [hc.frame.dictAt h1]; exact hd b r
  · by_cases h2 : b = h.classes.length
    · have := hc.own_properties
      rw [hc.id] at this
      rw [h2, this]
      simp
    · have hnil : (h.clone m c).1.dictAt b = [] := by
        simp [Heap.dictAt, List.getElem?_eq_none (show (h.clone m c).1.classes.length ≤ b by rw [hc.len]; omega)]
      rw [hnil]
      simp [dictGet]

theorem overrideValue_props {h : Heap K V} {arg : UsingArg K V} {v : AttrVal} (hv : (overrideValue h "properties" arg).2 = .ok v) (r : Nat) : v ≠ .dict r := by
  unfold overrideValue at hv
  rw [if_neg (by decide), if_pos rfl] at hv
  split at hv
  · injection hv with hv; subst hv; simp
  · injection hv with hv; subst hv; simp
  · injection hv with hv; subst hv; simp
  · cases hv

theorem overrideValues_props {os : List (String × UsingArg K V)} {h : Heap K V} {vs : List (String × AttrVal)} (hv : (overrideValues h os).2 = .ok vs) :
    ∀ p ∈ vs, p.1 = "properties" → ∀ r, p.2 ≠ .dict r := by
  induction os generalizing h vs with
  | nil => simp only [overrideValues] at hv; injection hv with hv; subst hv; simp
  | cons o os ih =>
    obtain ⟨a, arg⟩ := o
    rw [overrideValues] at hv
    have hprop := @overrideValue_props _ _ _ h arg
    cases hval : overrideValue h a arg with
    | mk h1 res =>
      rw [hval] at hv
      cases res with
      | error e => cases hv
      | ok v =>
        have ih1 := @ih h1
        simp only at hv
        cases hvs : overrideValues h1 os with
        | mk h2 res2 =>
          rw [hvs] at hv ih1
          cases res2 with
          | error e => cases hv
          | ok vs2 =>
            simp only at hv
            injection hv with hv
            subst hv
            intro p hp
            rcases List.mem_cons.1 hp with rfl | hp
            · intro ha r
              simp only at ha
              subst ha
              exact hprop (by rw [hval]) r
            · exact ih1 rfl p hp

omit [DecidableEq K] in
theorem declared_setOverrides (vs : List (String × AttrVal)) {h : Heap K V} (hd : DeclaredProperties h) {c : Nat} (hc : c < h.classes.length)
    (hv : ∀ p ∈ vs, p.1 = "properties" → ∀ r, p.2 ≠ .dict r) : DeclaredProperties (setOverrides h c vs).1 := by
  induction vs generalizing h with
  | nil => exact hd
  | cons p vs ih =>
    obtain ⟨a, v⟩ := p
    rw [setOverrides]
    split
    · exact hd
    · exact ih (declared_setAttr hd hc (hv (a, v) (by simp))) (by simpa [Heap.setAttr] using hc) (fun q hq => hv q (by simp [hq]))

theorem declared_runOn {h : Heap K V} (hd : DeclaredProperties h) (dictClass : Nat) {c : Nat} (hc : c < h.classes.length) (call : SchemaCall K V) :
    DeclaredProperties (runOn h dictClass c call).1 := by
  have hl : ∀ (h : Heap K V) (c : Nat) (a : String) (xs : List SchemaObj), DeclaredProperties h → c < h.classes.length →
      DeclaredProperties (((h.newList xs).1).setAttr c a (.list (h.newList xs).2)) := by
    intro h c a xs hd hc
    exact declared_setAttr (declared_grow hd rfl) hc (fun _ r => by simp)
  have hdict : ∀ (h : Heap K V) (c : Nat) (fs : List FieldArg), DeclaredProperties h → c < h.classes.length → DeclaredProperties (dictOfFields h c fs).1 := by
    intro h c fs hd hc
    unfold dictOfFields
    split
    · exact hd
    · split
      · exact hl _ _ _ _ hd hc
      · exact hd
  cases call with
  | named name => exact declared_setAttr hd hc (fun h => by simp at h)
  | «using» os =>
    simp only [runOn]
    have g := overrideValues_grows 0 os h
    have e := @overrideValues_props _ _ _ os h
    cases hval : overrideValues h os with
    | mk h' res =>
      rw [hval] at g e
      cases res with
      | error x => exact declared_grow hd g.2.1
      | ok vs =>
        have g2 : h'.classes = h.classes := g.2.1
        exact declared_setOverrides vs (declared_grow hd g2) (by rw [g2]; exact hc) (e rfl)
  | validatedBy vs => simp only [runOn, replaceValidators]; split; exact hd; exact hl _ _ _ _ hd hc
  | includingValidators vs p => simp only [runOn, addValidators]; split; exact hl _ _ _ _ hd hc; exact hd; exact hd
  | descentValidatedBy vs => simp only [runOn, replaceValidators]; split; exact hd; exact hl _ _ _ _ hd hc
  | includingDescentValidators vs p => simp only [runOn, addValidators]; split; exact hl _ _ _ _ hd hc; exact hd; exact hd
  | withProperties pairs => simp only [runOn, updateProperties]; split <;> exact declared_grow hd rfl
  | sequenceOf schema =>
    simp only [runOn, sequenceOfFields]
    split
    · exact hd
    · exact hd
    · exact declared_setAttr hd hc (fun h => by simp at h)
    · generalize hm : "flatland.schema.containers".toList = m
      have hcl := clone_is h m dictClass
      have hlen : (h.clone m dictClass).2 < (h.clone m dictClass).1.classes.length := by rw [hcl.len, hcl.id]; omega
      have k := hdict _ _ schema (declared_clone hd m dictClass) hlen
      have klen : h.classes.length ≤ (dictOfFields (h.clone m dictClass).1 (h.clone m dictClass).2 schema).1.classes.length := by
        have : (dictOfFields (h.clone m dictClass).1 (h.clone m dictClass).2 schema).1.classes.length = (h.clone m dictClass).1.classes.length := by
          unfold dictOfFields
          split
          · rfl
          · split
            · simp [Heap.setAttr, Heap.newList]
            · rfl
        rw [this, hcl.len]; omega
      cases hres : dictOfFields (h.clone m dictClass).1 (h.clone m dictClass).2 schema with
      | mk h1 res =>
        rw [hres] at k klen
        cases res with
        | error e => exact k
        | ok d => exact declared_setAttr k (Nat.lt_of_lt_of_le hc klen) (fun h => by simp at h)
  | dictOf fields => exact hdict _ _ _ hd hc
  | valued vs => exact hl _ _ _ _ hd hc

theorem declared_call {h : Heap K V} (hd : DeclaredProperties h) (m : PStr) (dictClass c : Nat) (call : SchemaCall K V) :
    DeclaredProperties (callSchema h m dictClass c call).1 :=
  declared_runOn (declared_clone hd m c) dictClass (by have hc := clone_is h m c; rw [hc.len, hc.id]; omega) call

omit [DecidableEq K] in
theorem read_declared {h : Heap K V} (hd : DeclaredProperties h) (c r : Nat) : h.read c "properties" ≠ some (.dict r) := by
  intro h'
  obtain ⟨b, _, hb⟩ := List.exists_of_findSome?_eq_some h'
  exact hd b r hb

/-! ### what is set -/

omit [DecidableEq K] in
theorem read_own {h : Heap K V} {c : Nat} {rest : List Nat} (hm : h.mroAt c = c :: rest) {a : String} {v : AttrVal} (hv : dictGet (h.dictAt c) a = some v) :
    h.read c a = some v := by
  unfold Heap.read
  rw [hm, List.findSome?_cons, hv]

omit [DecidableEq K] in
theorem read_setAttr {h : Heap K V} {c : Nat} {rest : List Nat} (hm : h.mroAt c = c :: rest) (hc : c < h.classes.length) (a : String) (v : AttrVal) :
    (h.setAttr c a v).read c a = some v := by
  refine read_own (rest := rest) (by rw [mroAt_setAttr]; exact hm) ?_
  rw [dictAt_setAttr _ _ _ _ _ hc, if_pos rfl, dictGet_put, if_pos rfl]

theorem look_setList {h : Heap K V} {c : Nat} {rest : List Nat} (hm : h.mroAt c = c :: rest) (hc : c < h.classes.length) (a : String) (xs : List SchemaObj) :
    look (((h.newList xs).1).setAttr c a (.list (h.newList xs).2)) c a = some (.items xs) := by
  unfold look
  rw [read_setAttr (h := (h.newList xs).1) (rest := rest) hm hc]
  simp [view, Heap.listAt, Heap.setAttr, Heap.newList]

omit [DecidableEq K] in
/-- setting the overrides, all known -/
theorem setOverrides_get {h : Heap K V} {c : Nat} (hc : c < h.classes.length) (vs : List (String × AttrVal)) (hn : (vs.map Prod.fst).Nodup)
    (hk : ∀ p ∈ vs, ∃ v, h.read c p.1 = some v) (hself : ∃ rest, h.mroAt c = c :: rest) :
    (setOverrides h c vs).2 = .ok c ∧ (setOverrides h c vs).1.lists = h.lists ∧ (setOverrides h c vs).1.dicts = h.dicts ∧
    (setOverrides h c vs).1.props = h.props ∧ (setOverrides h c vs).1.mroAt c = h.mroAt c ∧
    (∀ b, b ≠ c → (setOverrides h c vs).1.dictAt b = h.dictAt b) ∧
    (∀ p ∈ vs, dictGet ((setOverrides h c vs).1.dictAt c) p.1 = some p.2) ∧
    ∀ a, a ∉ vs.map Prod.fst → dictGet ((setOverrides h c vs).1.dictAt c) a = dictGet (h.dictAt c) a := by
  induction vs generalizing h with
  | nil => simp [setOverrides]
  | cons p vs ih =>
    obtain ⟨a, v⟩ := p
    rw [List.map_cons, List.nodup_cons] at hn
    obtain ⟨rest, hm⟩ := hself
    obtain ⟨v0, hv0⟩ := hk (a, v) (by simp)
    simp only at hv0
    rw [setOverrides, hv0]
    simp only
    have hk' : ∀ p ∈ vs, ∃ v', (h.setAttr c a v).read c p.1 = some v' := by
      intro p hp
      by_cases hpa : p.1 = a
      · rw [hpa]; exact ⟨v, read_setAttr hm hc a v⟩
      · obtain ⟨w, hw⟩ := hk p (by simp [hp])
        refine ⟨w, ?_⟩
        rw [← hw]
        unfold Heap.read
        rw [mroAt_setAttr]
        congr 1
        funext b
        rw [dictAt_setAttr _ _ _ _ _ hc]
        by_cases hb : b = c
        · subst hb; rw [if_pos rfl, dictGet_put, if_neg hpa]
        · rw [if_neg hb]
    obtain ⟨i1, i2, i3, i4, i5, i6, i7, i8⟩ := ih (h := h.setAttr c a v) (by simpa [Heap.setAttr] using hc) hn.2 hk' ⟨rest, by rw [mroAt_setAttr]; exact hm⟩
    refine ⟨i1, i2, i3, i4, by rw [i5, mroAt_setAttr], ?_, ?_, ?_⟩
    · intro b hb
      rw [i6 b hb, dictAt_setAttr _ _ _ _ _ hc, if_neg hb]
    · intro p hp
      rcases List.mem_cons.1 hp with rfl | hp
      · rw [i8 a hn.1, dictAt_setAttr _ _ _ _ _ hc, if_pos rfl, dictGet_put, if_pos rfl]
      · exact i7 p hp
    · intro b hb
      rw [List.map_cons, List.mem_cons, not_or] at hb
      rw [i8 b hb.2, dictAt_setAttr _ _ _ _ _ hc, if_pos rfl, dictGet_put, if_neg hb.1]

omit [DecidableEq K] in
/-- an unknown attribute -/
theorem setOverrides_unknown {h : Heap K V} {c : Nat} (hc : c < h.classes.length) (vs : List (String × AttrVal)) (hn : (vs.map Prod.fst).Nodup)
    (p : String × AttrVal) (hp : p ∈ vs) (hk : h.read c p.1 = none) : (setOverrides h c vs).2 = .error .type := by
  induction vs generalizing h with
  | nil => simp at hp
  | cons q vs ih =>
    obtain ⟨a, v⟩ := q
    rw [List.map_cons, List.nodup_cons] at hn
    rw [setOverrides]
    rcases List.mem_cons.1 hp with rfl | hp
    · simp only at hk; rw [hk]
    · split
      · rfl
      · refine ih (by simpa [Heap.setAttr] using hc) hn.2 hp ?_
        rw [← hk]
        unfold Heap.read
        rw [mroAt_setAttr]
        congr 1
        funext b
        rw [dictAt_setAttr _ _ _ _ _ hc]
        by_cases hb : b = c
        · subst hb
          rw [if_pos rfl, dictGet_put, if_neg]
          intro he
          have := List.mem_map_of_mem (f := Prod.fst) hp
          rw [he] at this
          exact hn.1 this
        · rw [if_neg hb]

/-- what is stored for each override -/
def Stored (h h' : Heap K V) (a : String) (arg : UsingArg K V) (v : AttrVal) : Prop :=
  if a = "properties" then
    match arg with
    | .obj (.props d) => v = .props d
    | .obj (.dict r) => ∃ d, v = .props d ∧ h'.props.init d = (dictOf ((h.dicts[r]?).getD [])).map (fun p => (p.1, some p.2)) ∧ d < h'.ndesc
    | .mapping pairs => ∃ d, v = .props d ∧ h'.props.init d = (dictOf pairs).map (fun p => (p.1, some p.2)) ∧ d < h'.ndesc
    | _ => False
  else match arg with
    | .obj (.obj o) => v = .obj (o)
    | .obj (.props d) => v = .props d
    | .obj (.list r) => ∃ r', v = .list r' ∧ h'.listAt r' = h.listAt r ∧ r' < h'.lists.length
    | .obj (.dict r) => v = .dict r
    | .iter xs => ∃ r', v = .list r' ∧ h'.listAt r' = xs ∧ r' < h'.lists.length
    | .mapping pairs => ∃ r', v = .dict r' ∧ (h'.dicts[r']?).getD [] = dictOf pairs ∧ r' < h'.dicts.length

theorem Stored.later {n : Nat} {h h1 h2 : Heap K V} {a : String} {arg : UsingArg K V} {v : AttrVal} (hs : Stored h h1 a arg v) (f : Frame n h1 h2) :
    Stored h h2 a arg v := by
  unfold Stored at hs ⊢
  have e1 := f.lenL; have e2 := f.lenD; have e3 := f.nd
  split
  · rename_i e
    rw [if_pos e] at hs
    cases arg with
    | obj w => cases w with
      | dict r => obtain ⟨d, k1, k2, k3⟩ := hs; exact ⟨d, k1, by rw [f.init d k3]; exact k2, by omega⟩
      | _ => exact hs
    | iter xs => exact hs
    | mapping ps => obtain ⟨d, k1, k2, k3⟩ := hs; exact ⟨d, k1, by rw [f.init d k3]; exact k2, by omega⟩
  · rename_i e
    rw [if_neg e] at hs
    cases arg with
    | obj w => cases w with
      | list r => obtain ⟨d, k1, k2, k3⟩ := hs; exact ⟨d, k1, by unfold Heap.listAt at k2 ⊢; rw [f.lists d k3]; exact k2, by omega⟩
      | _ => exact hs
    | iter xs => obtain ⟨d, k1, k2, k3⟩ := hs; exact ⟨d, k1, by unfold Heap.listAt at k2 ⊢; rw [f.lists d k3]; exact k2, by omega⟩
    | mapping ps => obtain ⟨d, k1, k2, k3⟩ := hs; exact ⟨d, k1, by rw [f.dicts d k3]; exact k2, by omega⟩

theorem overrideValue_stored {h : Heap K V} {a : String} {arg : UsingArg K V} (ha : ∀ v, arg = .obj v → RefOk h v) {v : AttrVal}
    (hv : (overrideValue h a arg).2 = .ok v) : Stored h (overrideValue h a arg).1 a arg v := by
  have nl : ∀ xs : List SchemaObj, (h.newList xs).1.listAt (h.newList xs).2 = xs ∧ (h.newList xs).2 < (h.newList xs).1.lists.length := by
    intro xs; simp [Heap.newList, Heap.listAt]
  have np : ∀ pairs : List (K × V), (h.newProps pairs).1.props.init (h.newProps pairs).2 = (dictOf pairs).map (fun p => (p.1, some p.2)) ∧
      (h.newProps pairs).2 < (h.newProps pairs).1.ndesc := by
    intro pairs; simp [Heap.newProps]
  unfold Stored
  unfold overrideValue at hv ⊢
  by_cases e1 : a = "validators"
  · rw [if_pos e1] at hv ⊢
    rw [if_neg (by rw [e1]; decide)]
    cases arg with
    | obj w => cases w with
      | list r => simp only at hv ⊢; injection hv with hv; exact ⟨_, hv.symm, nl _⟩
      | _ => cases hv
    | iter xs => simp only at hv ⊢; injection hv with hv; exact ⟨_, hv.symm, nl _⟩
    | mapping ps => cases hv
  · rw [if_neg e1] at hv ⊢
    by_cases e2 : a = "properties"
    · rw [if_pos e2] at hv ⊢
      rw [if_pos e2]
      cases arg with
      | obj w => cases w with
        | props d => simp only at hv ⊢; injection hv with hv; exact hv.symm
        | dict r => simp only at hv ⊢; injection hv with hv; exact ⟨_, hv.symm, np _⟩
        | _ => cases hv
      | iter xs => cases hv
      | mapping ps => simp only at hv ⊢; injection hv with hv; exact ⟨_, hv.symm, np _⟩
    · rw [if_neg e2] at hv ⊢
      rw [if_neg e2]
      cases arg with
      | obj w =>
        have := ha w rfl
        cases w with
        | list r => simp only at hv ⊢; injection hv with hv; exact ⟨_, hv.symm, rfl, this⟩
        | _ => simp only at hv ⊢; injection hv with hv; exact hv.symm
      | iter xs => simp only at hv ⊢; injection hv with hv; exact ⟨_, hv.symm, nl _⟩
      | mapping ps => simp only at hv ⊢; injection hv with hv; exact ⟨_, hv.symm, by simp, by simp⟩

theorem Stored.earlier {n : Nat} {h0 h h' : Heap K V} {a : String} {arg : UsingArg K V} {v : AttrVal} (f : Frame n h0 h) (ha : ∀ w, arg = .obj w → RefOk h0 w)
    (hs : Stored h h' a arg v) : Stored h0 h' a arg v := by
  unfold Stored at hs ⊢
  split
  · rename_i e
    rw [if_pos e] at hs
    cases arg with
    | obj w => cases w with
      | dict r => simpa [f.dicts r (ha _ rfl)] using hs
      | _ => exact hs
    | _ => exact hs
  · rename_i e
    rw [if_neg e] at hs
    cases arg with
    | obj w => cases w with
      | list r => simpa [Heap.listAt, f.lists r (ha _ rfl)] using hs
      | _ => exact hs
    | _ => exact hs

theorem overrideValues_stored {os : List (String × UsingArg K V)} {h : Heap K V} (ha : ∀ a v, (a, UsingArg.obj v) ∈ os → RefOk h v)
    {vs : List (String × AttrVal)} (hv : (overrideValues h os).2 = .ok vs) :
    ∀ p ∈ os, ∃ v, (p.1, v) ∈ vs ∧ Stored h (overrideValues h os).1 p.1 p.2 v := by
  induction os generalizing h vs with
  | nil => simp
  | cons o os ih =>
    obtain ⟨a, arg⟩ := o
    obtain ⟨f, hc, hm⟩ := overrideValue_grows 0 h a arg
    have hok := @overrideValue_stored _ _ _ h a arg (fun v e => ha a v (by simp [e]))
    rw [overrideValues] at hv ⊢
    cases hval : overrideValue h a arg with
    | mk h1 res =>
      rw [hval] at hv f hok
      cases res with
      | error e => cases hv
      | ok v =>
        have hv1 := hok rfl
        have ih1 := @ih h1
        have g := overrideValues_grows 0 os h1
        simp only at hv hv1 f ⊢
        cases hvs : overrideValues h1 os with
        | mk h2 res2 =>
          rw [hvs] at hv ih1 g
          cases res2 with
          | error e => cases hv
          | ok vs2 =>
            simp only at hv ⊢
            injection hv with hv
            subst hv
            have i2 := ih1 (fun a v hm => f.exists (ha a v (by simp [hm]))) rfl
            intro p hp
            rcases List.mem_cons.1 hp with rfl | hp
            · exact ⟨v, by simp, hv1.later g.1⟩
            · obtain ⟨w, hw1, hw2⟩ := i2 p hp
              refine ⟨w, by simp [hw1], hw2.earlier f ?_⟩
              intro u hu
              exact ha p.1 u (by rw [← hu]; exact List.mem_cons_of_mem _ hp)

theorem itemsIn_plain (seen : List K) (e : PyDict K V) (hn : (dictKeys e).Nodup) (hs : ∀ k ∈ seen, k ∉ dictKeys e) :
    (itemsIn seen (e.map fun p => (p.1, some p.2))).1 = e := by
  induction e generalizing seen with
  | nil => rfl
  | cons p e ih =>
    obtain ⟨k, v⟩ := p
    simp only [dictKeys, List.map_cons, List.nodup_cons] at hn
    have hk : k ∉ seen := fun h => hs k h (by simp [dictKeys])
    simp only [List.map_cons, itemsIn]
    rw [if_neg hk]
    simp only [Option.map_some, Option.toList_some, List.singleton_append]
    rw [ih (k :: seen) hn.2]
    intro k' hk' hm
    rcases List.mem_cons.1 hk' with rfl | hk'
    · exact hn.1 hm
    · exact hs k' hk' (by simp only [dictKeys, List.map_cons, List.mem_cons]; exact .inr hm)

theorem fresh_properties {h : Heap K V} {c d : Nat} {rest : List Nat} (hm : h.mroAt c = c :: rest) (hd : dictGet (h.dictAt c) "properties" = some (.props d))
    (pairs : List (K × V)) (hi : h.props.init d = (dictOf pairs).map fun p => (p.1, some p.2)) :
    look h c "properties" = some (.entries (dictOf pairs)) := by
  unfold look
  rw [read_own hm hd]
  simp only [Option.map_some, view, typeItems]
  have e1 : h.world.mro c = c :: rest := hm
  have e2 : h.world.member c = some d := by show h.memberAt c = _; simp [Heap.memberAt, hd]
  rw [e1, typeFrames, if_pos e2, hi]
  simp only [frameItems, List.append_nil]
  rw [itemsIn_plain [] _ (dictOf_nodup _) (by simp)]

end Flatland
