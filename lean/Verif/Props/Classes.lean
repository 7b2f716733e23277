import Verif.Proofs.Classes
/-
Property C49: schema constructors do not modify the class they are called on.
-/
namespace Flatland
open Spec

section
variable {K V : Type} [DecidableEq K]

/-- **C49.** Whatever constructor is called, on whatever class, and whether it succeeds or raises: every attribute of every class there
was reads as before (lists and properties by their contents), the MROs are the same, and so are all lists there were. -/
theorem C49_others_unchanged (h : Heap K V) (hw : WellFormed h) (m : PStr) (dictClass c : Nat) (call : SchemaCall K V) (ha : ArgsExist h call)
    (hplain : ∀ pairs, call = .withProperties pairs → ∀ r, h.read c "properties" ≠ some (.dict r)) :
    let h' := (callSchema h m dictClass c call).1
    (∀ b, b < h.classes.length → h'.mroAt b = h.mroAt b ∧ ∀ a, look h' b a = look h b a) ∧ ∀ r, r < h.lists.length → h'.listAt r = h.listAt r := by
  obtain ⟨hc, hd⟩ := call_did hw m dictClass c call ha hplain
  have f := hc.frame.trans hd.frame
  exact ⟨fun b hb => ⟨f.mroAt hb, fun a => f.look hw hb a⟩, fun r hr => by simp [Heap.listAt, f.lists r hr]⟩

/-- **C49.** After any number of constructor calls, on old and new classes: every class shows what it showed when it was made (here:
at any moment before the calls). -/
theorem C49_history (m : PStr) (dictClass : Nat) (calls : List (Nat × SchemaCall K V)) (h : Heap K V) (hw : WellFormed h) (hd : DeclaredProperties h)
    (hg : GoodCalls m dictClass h calls) (b : Nat) (hb : b < h.classes.length) (a : String) :
    look (runCalls m dictClass h calls) b a = look h b a := by
  induction calls generalizing h with
  | nil => rfl
  | cons p calls ih =>
    obtain ⟨c, call⟩ := p
    obtain ⟨_, ha, hg⟩ := hg
    have hp : ∀ pairs, call = .withProperties pairs → ∀ r, h.read c "properties" ≠ some (.dict r) := fun _ _ r => read_declared hd c r
    obtain ⟨hc, hdid⟩ := call_did hw m dictClass c call ha hp
    rw [runCalls, ih _ hdid.wf (declared_call hd m dictClass c call) hg (Nat.lt_of_lt_of_le hb (hc.frame.trans hdid.frame).len)]
    exact ((C49_others_unchanged h hw m dictClass c call ha hp).1 b hb).2 a

/-- **C49.** What is returned is a new class, a direct subclass of the class the constructor is called on, that shows everything its
base shows except for the attributes the constructor is there to set (and the module it was made in). -/
theorem C49_new_class (h : Heap K V) (hw : WellFormed h) (m : PStr) (dictClass c : Nat) (call : SchemaCall K V) (ha : ArgsExist h call)
    (hplain : ∀ pairs, call = .withProperties pairs → ∀ r, h.read c "properties" ≠ some (.dict r)) (n : Nat)
    (hr : (callSchema h m dictClass c call).2 = .ok n) :
    let h' := (callSchema h m dictClass c call).1
    n = h.classes.length ∧ h'.mroAt n = n :: h.mroAt c ∧
    ∀ a, a ∉ sets call → a ≠ "__module__" → (h.kindAt c = .compound → a ≠ "_compound_prepared") →
      (h.kindAt c = .form → a = "field_schema" → (∃ r, h.read c a = some (.list r)) ∧ ((h.fieldsOf c).map h.fieldName).Nodup) →
      (∀ d, h.read c a = some (.props d) → a = "properties") → look h' n a = look h c a := by
  intro h'
  have hn : n = h.classes.length := runOn_id hr
  subst hn
  obtain ⟨hc, hd⟩ := call_did hw m dictClass c call ha hplain
  refine ⟨rfl, by rw [hd.mro, hc.mro], ?_⟩
  intro a h1 h2 h3 h4 h5
  have hdict := hd.attrs a h1
  have hread : h'.read h.classes.length a = (dictGet ((h.clone m c).1.dictAt h.classes.length) a).or (h.read c a) := by
    unfold Heap.read
    rw [show h'.mroAt h.classes.length = h.classes.length :: h.mroAt c by rw [hd.mro, hc.mro], List.findSome?_cons, hdict]
    cases dictGet ((h.clone m c).1.dictAt h.classes.length) a with
    | some v => rfl
    | none => exact (hc.frame.trans hd.frame).findAttr a _ (hw.mro c)
  have f := hc.frame.trans hd.frame
  have hview : ∀ v, h.read c a = some v → view h' h.classes.length v = view h c v := by
    intro v hv
    have hex := read_exists hw hv
    cases v with
    | obj o => rfl
    | list r => simp only [view, Heap.listAt]; rw [f.lists r hex]
    | dict r => simp only [view]; rw [f.dicts r hex]
    | props d =>
      have hp := h5 d hv
      subst hp
      simp only [view, typeItems]
      have e1 : h'.world.mro h.classes.length = h.classes.length :: h.mroAt c := by
        show h'.mroAt _ = _
        rw [hd.mro, hc.mro]
      have e2 : h'.world.member h.classes.length = none := by
        show h'.memberAt _ = none
        simp only [Heap.memberAt]
        rw [hdict, hc.own_properties]
      have e3 : h'.props.map d h.classes.length = none := by
        rw [hd.map h1 d, hc.props]
        exact hw.fresh d _ (Nat.le_refl _)
      rw [e1, typeFrames, if_neg (by rw [e2]; simp), e3]
      simp only
      rw [f.typeFrames d _ (hw.mro c) hex]
      rfl
  by_cases e1 : a = "__doc__"
  · subst e1
    unfold look
    rw [hread, hc.doc, Option.or_self]
    cases hv : h.read c "__doc__" with
    | none => rfl
    | some v => simp only [Option.map_some, hview v hv]
  by_cases e2 : h.kindAt c = .form ∧ a = "field_schema"
  · obtain ⟨e2, rfl⟩ := e2
    obtain ⟨⟨r, hr'⟩, hnd⟩ := h4 e2 rfl
    obtain ⟨k1, k2⟩ := hc.fields e2
    unfold look
    rw [hread, k1, hr']
    simp only [Option.some_or, Option.map_some, view]
    have e3 : h'.listAt h.lists.length = (h.clone m c).1.listAt h.lists.length := by
      simp only [Heap.listAt]
      rw [hd.frame.lists _ (by simp [Heap.clone, e2, Heap.newList])]
    rw [e3, k2, formFields_same _ _ hnd]
    simp only [Heap.fieldsOf, hr']
  · have hnone := hc.others a e1 h2 (fun k e => e2 ⟨k, e⟩) h3
    unfold look
    rw [hread, hnone, Option.none_or]
    cases hv : h.read c a with
    | none => rfl
    | some v => simp only [Option.map_some, hview v hv]

/-! ### what the new class has -/

/-- **C49.** `named` -/
theorem C49_named (h : Heap K V) (m : PStr) (dictClass c : Nat) (name : Option PStr) :
    let out := callSchema h m dictClass c (.named name)
    out.2 = .ok h.classes.length ∧
    (name = none → look out.1 h.classes.length "name" = some (.obj (.val .none))) ∧
    (∀ s, name = some s → look out.1 h.classes.length "name" = some (.obj (.val (.str s)))) := by
  have hc : IsClone h m c (h.clone m c).1 h.classes.length := clone_is h m c
  refine ⟨rfl, ?_⟩
  suffices hn : look (callSchema h m dictClass c (.named name)).1 h.classes.length "name" = some (.obj (.val (nameValue name))) by
    constructor
    · rintro rfl
      exact hn
    · rintro s rfl
      exact hn
  unfold look
  have := read_setAttr (a := "name") (v := .obj (.val (nameValue name))) hc.mro (by rw [hc.len]; omega)
  rw [show (callSchema h m dictClass c (.named name)).1 = (h.clone m c).1.setAttr h.classes.length "name"
    (.obj (.val (nameValue name))) from rfl, this]
  rfl

/-- **C49.** `validated_by` and `descent_validated_by` replace the validators, or raise if one of them is a class. -/
theorem C49_validated_by (h : Heap K V) (m : PStr) (dictClass c : Nat) (vs : List SchemaObj) :
    let out := callSchema h m dictClass c (.validatedBy vs)
    let out' := callSchema h m dictClass c (.descentValidatedBy vs)
    ((∀ b, SchemaObj.cls b ∉ vs) → out.2 = .ok h.classes.length ∧ look out.1 h.classes.length "validators" = some (.items vs) ∧
      out'.2 = .ok h.classes.length ∧ look out'.1 h.classes.length "descent_validators" = some (.items vs)) ∧
    ((∃ b, SchemaObj.cls b ∈ vs) → out.2 = .error .type ∧ out'.2 = .error .type) := by
  have hc : IsClone h m c (h.clone m c).1 h.classes.length := clone_is h m c
  have key : vs.any SchemaObj.isClass = true ↔ ∃ b, SchemaObj.cls b ∈ vs := by
    rw [List.any_eq_true]
    constructor
    · rintro ⟨x, hx, h1⟩
      cases x with
      | cls b => exact ⟨b, hx⟩
      | val v => simp [SchemaObj.isClass] at h1
    · rintro ⟨b, hb⟩; exact ⟨_, hb, rfl⟩
  have hlen : h.classes.length < (h.clone m c).1.classes.length := by rw [hc.len]; omega
  simp only [callSchema, runOn, replaceValidators]
  constructor
  · intro hv
    have hno : ¬ vs.any SchemaObj.isClass = true := by rw [key]; rintro ⟨b, hb⟩; exact hv b hb
    rw [if_neg hno, if_neg hno]
    exact ⟨rfl, look_setList hc.mro hlen _ vs, rfl, look_setList hc.mro hlen _ vs⟩
  · intro hv
    rw [if_pos (key.2 hv), if_pos (key.2 hv)]
    exact ⟨rfl, rfl⟩

/-- **C49.** `including_validators` and `including_descent_validators` splice the validators into those of the class. -/
theorem C49_including_validators (h : Heap K V) (hw : WellFormed h) (m : PStr) (dictClass c : Nat) (vs old : List SchemaObj) (p : Int) :
    (look h c "validators" = some (.items old) →
      (callSchema h m dictClass c (.includingValidators vs p)).2 = .ok h.classes.length ∧
      look (callSchema h m dictClass c (.includingValidators vs p)).1 h.classes.length "validators" = some (.items (includingValidators old vs p))) ∧
    (look h c "descent_validators" = some (.items old) →
      (callSchema h m dictClass c (.includingDescentValidators vs p)).2 = .ok h.classes.length ∧
      look (callSchema h m dictClass c (.includingDescentValidators vs p)).1 h.classes.length "descent_validators" =
        some (.items (includingValidators old vs p))) := by
  have hc : IsClone h m c (h.clone m c).1 h.classes.length := clone_is h m c
  have hlen : h.classes.length < (h.clone m c).1.classes.length := by rw [hc.len]; omega
  have key : ∀ a, dictGet ((h.clone m c).1.dictAt h.classes.length) a = none → look h c a = some (.items old) →
      (addValidators (h.clone m c).1 h.classes.length a vs p).2 = .ok h.classes.length ∧
      look (addValidators (h.clone m c).1 h.classes.length a vs p).1 h.classes.length a = some (.items (includingValidators old vs p)) := by
    intro a ha hl
    unfold look at hl
    cases hr : h.read c a with
    | none => simp [hr] at hl
    | some v =>
      rw [hr] at hl
      cases v with
      | list r =>
        simp only [Option.map_some, view, Option.some.injEq, Seen.items.injEq] at hl
        have hr' : (h.clone m c).1.read h.classes.length a = some (.list r) := by rw [hc.read_others hw ha, hr]
        have hl' : (h.clone m c).1.listAt r = old := by
          rw [← hl]
          unfold Heap.listAt
          rw [hc.frame.lists r (read_exists hw hr)]
        unfold addValidators
        rw [hr']
        simp only
        rw [hl']
        exact ⟨trivial, look_setList hc.mro hlen _ _⟩
      | _ => simp [view] at hl
  exact ⟨key _ (hc.others _ (by decide) (by decide) (fun _ => by decide) (fun _ => by decide)),
    key _ (hc.others _ (by decide) (by decide) (fun _ => by decide) (fun _ => by decide))⟩

theorem overrideValue_succeeds (h : Heap K V) {a : String} {arg : UsingArg K V} (hcv : Convertible (a, arg)) : ∃ v, (overrideValue h a arg).2 = .ok v := by
  unfold overrideValue
  by_cases e1 : a = "validators"
  · rw [if_pos e1]
    rcases hcv.1 e1 with ⟨r, hr⟩ | ⟨xs, hr⟩ <;> simp only at hr <;> subst hr <;> exact ⟨_, rfl⟩
  · rw [if_neg e1]
    by_cases e2 : a = "properties"
    · rw [if_pos e2]
      rcases hcv.2 e2 with ⟨r, hr⟩ | ⟨xs, hr⟩ | ⟨xs, hr⟩ <;> simp only at hr <;> subst hr <;> exact ⟨_, rfl⟩
    · rw [if_neg e2]
      cases arg <;> exact ⟨_, rfl⟩

theorem overrideValues_succeeds (os : List (String × UsingArg K V)) (h : Heap K V) (hcv : ∀ p ∈ os, Convertible p) :
    ∃ vs, (overrideValues h os).2 = .ok vs := by
  induction os generalizing h with
  | nil => exact ⟨[], rfl⟩
  | cons p os ih =>
    obtain ⟨a, arg⟩ := p
    obtain ⟨v, hv⟩ := overrideValue_succeeds h (hcv (a, arg) (by simp))
    rw [overrideValues]
    cases hval : overrideValue h a arg with
    | mk h1 res =>
      rw [hval] at hv
      simp only at hv
      subst hv
      obtain ⟨vs, hvs⟩ := ih h1 (fun p hp => hcv p (by simp [hp]))
      cases hval2 : overrideValues h1 os with
      | mk h2 res2 =>
        rw [hval2] at hvs
        simp only at hvs
        subst hvs
        simp only [hval2]
        exact ⟨_, rfl⟩

/-- **C49.** `using` with attributes the class has: the new class has them with the given values (`validators` copied into a list,
`properties` into new `Properties` that inherit nothing). -/
theorem C49_using (h : Heap K V) (hw : WellFormed h) (m : PStr) (dictClass c : Nat) (os : List (String × UsingArg K V)) (hn : (os.map Prod.fst).Nodup)
    (ha : ArgsExist h (.using os)) (hk : ∀ p ∈ os, (look h c p.1).isSome) (hcv : ∀ p ∈ os, Convertible p) :
    let out := callSchema h m dictClass c (.using os)
    out.2 = .ok h.classes.length ∧
    ∀ p ∈ os, ∀ s, argSeen h p.1 p.2 = some s → look out.1 h.classes.length p.1 = some s := by
  have hc : IsClone h m c (h.clone m c).1 h.classes.length := clone_is h m c
  have ha1 : ∀ a v, (a, UsingArg.obj v) ∈ os → RefOk (h.clone m c).1 v := fun a v hm => hc.frame.exists (ha a v hm)
  obtain ⟨vs, hvs⟩ := overrideValues_succeeds os (h.clone m c).1 hcv
  obtain ⟨k1, k2⟩ := overrideValues_ok ha1 hvs
  have k3 := overrideValues_stored ha1 hvs
  obtain ⟨g1, g2, g3⟩ := overrideValues_grows 0 os (h.clone m c).1
  intro out
  have hout : out = setOverrides (overrideValues (h.clone m c).1 os).1 h.classes.length vs := by
    show runOn (h.clone m c).1 dictClass h.classes.length (.using os) = _
    rw [runOn]
    cases hval : overrideValues (h.clone m c).1 os with
    | mk h1 res =>
      rw [hval] at hvs
      simp only at hvs
      subst hvs
      rfl
  have hlen : h.classes.length < (overrideValues (h.clone m c).1 os).1.classes.length := by rw [g2, hc.len]; omega
  have hmro : (overrideValues (h.clone m c).1 os).1.mroAt h.classes.length = h.classes.length :: h.mroAt c := by
    rw [← hc.mro]
    simp [Heap.mroAt, g2]
  have hread : ∀ a, (overrideValues (h.clone m c).1 os).1.read h.classes.length a = (h.clone m c).1.read h.classes.length a := by
    intro a; simp [Heap.read, Heap.mroAt, Heap.dictAt, g2]
  have hknown : ∀ p ∈ vs, ∃ v, (overrideValues (h.clone m c).1 os).1.read h.classes.length p.1 = some v := by
    intro p hp
    rw [hread]
    have : p.1 ∈ os.map Prod.fst := by rw [← k1]; exact List.mem_map_of_mem hp
    obtain ⟨q, hq, hqp⟩ := List.mem_map.1 this
    have hs := hk q hq
    rw [hqp] at hs
    unfold look at hs
    rw [Option.isSome_map] at hs
    obtain ⟨v, hv⟩ := Option.isSome_iff_exists.1 hs
    cases hd : dictGet ((h.clone m c).1.dictAt h.classes.length) p.1 with
    | some w => exact ⟨w, read_own hc.mro hd⟩
    | none => exact ⟨v, by rw [hc.read_others hw hd, hv]⟩
  obtain ⟨s1, s2, s3, s4, s5, s6, s7, s8⟩ := setOverrides_get hlen vs (by rw [k1]; exact hn) hknown ⟨_, hmro⟩
  rw [hout]
  refine ⟨s1, ?_⟩
  intro p hp s hs
  obtain ⟨v, hv1, hv2⟩ := k3 p hp
  have hget := s7 (p.1, v) hv1
  simp only at hget
  have hm' := s5.trans hmro
  obtain ⟨a, arg⟩ := p
  simp only at hs hv2 hget ⊢
  unfold Stored at hv2
  by_cases e : a = "properties"
  · rw [if_pos e] at hv2
    subst e
    have fin : ∀ d pairs, v = .props d → (overrideValues (h.clone m c).1 os).1.props.init d = (dictOf pairs).map (fun p => (p.1, some p.2)) →
        look (setOverrides (overrideValues (h.clone m c).1 os).1 h.classes.length vs).1 h.classes.length "properties" = some (.entries (dictOf pairs)) := by
      intro d pairs e1 e2
      rw [e1] at hget
      exact fresh_properties hm' hget pairs (by rw [s4]; exact e2)
    cases arg with
    | obj w => cases w with
      | dict r =>
        obtain ⟨d, e1, e2, _⟩ := hv2
        rw [hc.frame.dicts r (ha _ _ hp)] at e2
        rw [fin d _ e1 e2, ← hs]
        simp [argSeen]
      | props d => simp [argSeen] at hs
      | _ => exact absurd hv2 id
    | iter xs => exact absurd hv2 id
    | mapping pairs =>
      obtain ⟨d, e1, e2, _⟩ := hv2
      rw [fin d _ e1 e2, ← hs]
      rfl
  · rw [if_neg e] at hv2
    unfold look
    rw [read_own hm' hget, ← hs]
    cases arg with
    | obj w => cases w with
      | obj o => simp only at hv2; subst hv2; rfl
      | props d => simp [argSeen] at hs
      | list r =>
        obtain ⟨r', e1, e2, e3⟩ := hv2
        subst e1
        simp only [Option.map_some, view, argSeen]
        have : (setOverrides (overrideValues (h.clone m c).1 os).1 h.classes.length vs).1.listAt r' = h.listAt r := by
          unfold Heap.listAt at e2 ⊢
          rw [s2, e2, hc.frame.lists r (ha _ _ hp)]
        rw [this]
      | dict r =>
        simp only at hv2
        subst hv2
        simp only [Option.map_some, view, argSeen, if_neg e]
        rw [s3, g1.dicts r (hc.frame.exists (ha _ _ hp)), hc.frame.dicts r (ha _ _ hp)]
    | iter xs =>
      obtain ⟨r', e1, e2, e3⟩ := hv2
      subst e1
      simp only [Option.map_some, view, argSeen]
      unfold Heap.listAt at e2 ⊢
      rw [s2, e2]
    | mapping pairs =>
      obtain ⟨r', e1, e2, e3⟩ := hv2
      subst e1
      simp only [Option.map_some, view, argSeen]
      rw [s3, e2]

/-- **C49.** `using` with an attribute the class does not have raises TypeError. -/
theorem C49_using_unknown (h : Heap K V) (hw : WellFormed h) (m : PStr) (dictClass c : Nat) (os : List (String × UsingArg K V)) (hn : (os.map Prod.fst).Nodup)
    (ha : ArgsExist h (.using os)) (hcv : ∀ p ∈ os, Convertible p) (p : String × UsingArg K V) (hp : p ∈ os) (hk : look h c p.1 = none)
    (hreserved : p.1 ≠ "__module__" ∧ p.1 ≠ "field_schema" ∧ p.1 ≠ "_compound_prepared") :
    (callSchema h m dictClass c (.using os)).2 = .error .type := by
  have hc : IsClone h m c (h.clone m c).1 h.classes.length := clone_is h m c
  have ha1 : ∀ a v, (a, UsingArg.obj v) ∈ os → RefOk (h.clone m c).1 v := fun a v hm => hc.frame.exists (ha a v hm)
  obtain ⟨vs, hvs⟩ := overrideValues_succeeds os (h.clone m c).1 hcv
  obtain ⟨k1, k2⟩ := overrideValues_ok ha1 hvs
  obtain ⟨g1, g2, g3⟩ := overrideValues_grows 0 os (h.clone m c).1
  have hout : callSchema h m dictClass c (.using os) = setOverrides (overrideValues (h.clone m c).1 os).1 h.classes.length vs := by
    show runOn (h.clone m c).1 dictClass h.classes.length (.using os) = _
    rw [runOn]
    cases hval : overrideValues (h.clone m c).1 os with
    | mk h1 res =>
      rw [hval] at hvs
      simp only at hvs
      subst hvs
      rfl
  rw [hout]
  have : p.1 ∈ vs.map Prod.fst := by rw [k1]; exact List.mem_map_of_mem hp
  obtain ⟨q, hq, hqp⟩ := List.mem_map.1 this
  have hk' : h.read c p.1 = none := by unfold look at hk; rwa [Option.map_eq_none_iff] at hk
  refine setOverrides_unknown (by rw [g2, hc.len]; omega) vs (by rw [k1]; exact hn) q hq ?_
  rw [hqp]
  have hread : (overrideValues (h.clone m c).1 os).1.read h.classes.length p.1 = (h.clone m c).1.read h.classes.length p.1 := by
    simp [Heap.read, Heap.mroAt, Heap.dictAt, g2]
  rw [hread]
  have hnone : dictGet ((h.clone m c).1.dictAt h.classes.length) p.1 = none := by
    by_cases hd : p.1 = "__doc__"
    · rw [hd, hc.doc, ← hd, hk']
    · exact hc.others _ hd hreserved.1 (fun _ => hreserved.2.1) (fun _ => hreserved.2.2)
  rw [hc.read_others hw hnone, hk']

/-- **C49.** `with_properties` adds to what the class shows: the new values where given, the class's elsewhere. -/
theorem C49_with_properties (h : Heap K V) (hw : WellFormed h) (m : PStr) (dictClass c d : Nat) (pairs : List (K × V))
    (hp : h.read c "properties" = some (.props d)) :
    let out := callSchema h m dictClass c (.withProperties pairs)
    out.2 = .ok h.classes.length ∧ ∃ old new, look h c "properties" = some (.entries old) ∧
      look out.1 h.classes.length "properties" = some (.entries new) ∧ ∀ k, dictGet new k = (dictGet (dictOf pairs) k).or (dictGet old k) := by
  have hc : IsClone h m c (h.clone m c).1 h.classes.length := clone_is h m c
  intro out
  have hr' : (h.clone m c).1.read h.classes.length "properties" = some (.props d) := by rw [hc.read_others hw hc.own_properties, hp]
  have hmem : (h.clone m c).1.world.member h.classes.length = none := by
    show (h.clone m c).1.memberAt _ = none
    simp only [Heap.memberAt]
    rw [hc.own_properties]
  have hout : out = ({ (h.clone m c).1 with props := (typeOp (h.clone m c).1.world (h.clone m c).1.props d h.classes.length (.update pairs)).1 }, .ok h.classes.length) := by
    show updateProperties (h.clone m c).1 h.classes.length pairs = _
    unfold updateProperties
    rw [hr']
  rw [hout]
  refine ⟨rfl, typeItems h.world h.props d c,
    typeItems (h.clone m c).1.world (typeOp (h.clone m c).1.world (h.clone m c).1.props d h.classes.length (.update pairs)).1 d h.classes.length,
    by unfold look; rw [hp]; rfl, ?_, ?_⟩
  · unfold look
    rw [show Heap.read { (h.clone m c).1 with props := (typeOp (h.clone m c).1.world (h.clone m c).1.props d h.classes.length (.update pairs)).1 }
      h.classes.length "properties" = some (.props d) from hr']
    rfl
  · intro k
    have get_items : ∀ (w : PropWorld Nat Nat Unit K V) (s : PropState Nat Nat Unit K V) (c : Nat), dictGet (typeItems w s d c) k = typeGet w s d c k := by
      intro w s c
      cases hg : typeGet w s d c k with
      | some v => exact (dictGet_mem (frameItems_nodup _ _) k v).1 ((frameItems_mem _ _ _ _).2 ⟨by simp, hg⟩)
      | none =>
        cases hg2 : dictGet (typeItems w s d c) k with
        | none => rfl
        | some v =>
          have := (frameItems_mem _ _ _ _).1 ((dictGet_mem (frameItems_nodup _ _) k v).2 hg2)
          rw [typeGet, this.2] at hg
          cases hg
    rw [get_items, get_items]
    simp only [typeOp, putBase, hmem]
    rw [if_neg (by simp)]
    simp only [typeGet]
    have e1 : (h.clone m c).1.world.mro h.classes.length = h.classes.length :: h.mroAt c := hc.mro
    have hfr : baseFrame (h.clone m c).1.world (h.clone m c).1.props d h.classes.length = [] := by
      unfold baseFrame
      rw [hmem, if_neg (by simp), hc.props, hw.fresh d _ (Nat.le_refl _)]
      rfl
    show frameGet k (typeFrames (h.clone m c).1.world _ d ((h.clone m c).1.world.mro h.classes.length)) = _
    rw [e1, typeFrames, hmem, if_neg (by simp)]
    simp only [and_self, if_true]
    rw [frameGet, hfr, update_some_get]
    have hrest : typeFrames (h.clone m c).1.world
        { init := (h.clone m c).1.props.init,
          map := fun d' c' => if d' = d ∧ c' = h.classes.length then
              some (dictUpdate [] ((dictOf pairs).map fun p => (p.1, some p.2))) else (h.clone m c).1.props.map d' c',
          locals := (h.clone m c).1.props.locals } d (h.mroAt c) = typeFrames h.world h.props d (h.mroAt c) := by
      rw [← hc.frame.typeFrames d _ (hw.mro c) (read_exists hw hp)]
      generalize hl : h.mroAt c = l
      have hb : ∀ b ∈ l, b < h.classes.length := by rw [← hl]; exact hw.mro c
      clear hl
      induction l with
      | nil => rfl
      | cons b l ih =>
        have : b ≠ h.classes.length := by have := hb b (by simp); omega
        rw [typeFrames, typeFrames, ih fun b' h' => hb b' (by simp [h'])]
        simp [this]
    rw [hrest]
    cases dictGet (dictOf pairs) k with
    | some v => rfl
    | none => rfl

/-- **C49.** `Enum.valued` -/
theorem C49_valued (h : Heap K V) (m : PStr) (dictClass c : Nat) (vs : List SchemaObj) :
    let out := callSchema h m dictClass c (.valued vs)
    out.2 = .ok h.classes.length ∧ look out.1 h.classes.length "valid_values" = some (.items vs) := by
  have hc : IsClone h m c (h.clone m c).1 h.classes.length := clone_is h m c
  exact ⟨rfl, look_setList hc.mro (by rw [hc.len]; omega) _ vs⟩

/-- **C49.** `Dict.of`: the fields, in order; TypeError if one is an element instance or two have the same name. -/
theorem C49_dict_of (h : Heap K V) (hw : WellFormed h) (m : PStr) (dictClass c : Nat) (fields : List Nat) (hf : ∀ f ∈ fields, f < h.classes.length) :
    let out := callSchema h m dictClass c (.dictOf (fields.map FieldArg.cls))
    ((fields.map fun f => h.read f "name").Nodup → out.2 = .ok h.classes.length ∧
      look out.1 h.classes.length "field_schema" = some (.items (fields.map SchemaObj.cls))) ∧
    (¬ (fields.map fun f => h.read f "name").Nodup → out.2 = .error .type) ∧
    ∀ fs : List FieldArg, FieldArg.element ∈ fs → (callSchema h m dictClass c (.dictOf fs)).2 = .error .type := by
  have hc : IsClone h m c (h.clone m c).1 h.classes.length := clone_is h m c
  have hfc : ∀ l : List Nat, fieldClasses (l.map FieldArg.cls) = some (l.map SchemaObj.cls) := by
    intro l
    induction l with
    | nil => rfl
    | cons f l ih => simp [fieldClasses, ih]
  have hname : (fields.map SchemaObj.cls).map (h.clone m c).1.fieldName = fields.map fun f => h.read f "name" := by
    rw [List.map_map]
    apply List.map_congr_left
    intro f hf'
    show (h.clone m c).1.read f "name" = _
    unfold Heap.read
    rw [hc.frame.mroAt (hf f hf')]
    exact hc.frame.findAttr _ _ (hw.mro f)
  refine ⟨?_, ?_, ?_⟩
  · intro hn
    show (dictOfFields (h.clone m c).1 h.classes.length _).2 = _ ∧ look (dictOfFields (h.clone m c).1 h.classes.length _).1 _ _ = _
    unfold dictOfFields
    rw [hfc]
    simp only
    rw [if_pos (by rw [hname]; exact hn)]
    exact ⟨rfl, look_setList hc.mro (by rw [hc.len]; omega) _ _⟩
  · intro hn
    show (dictOfFields (h.clone m c).1 h.classes.length _).2 = _
    unfold dictOfFields
    rw [hfc]
    simp only
    rw [if_neg (by rw [hname]; exact hn)]
  · intro fs hfs
    have : fieldClasses fs = none := by
      induction fs with
      | nil => simp at hfs
      | cons f fs ih =>
        cases f with
        | element => rfl
        | cls b => simp at hfs; simp [fieldClasses, ih hfs]
    show (dictOfFields (h.clone m c).1 h.classes.length _).2 = _
    unfold dictOfFields
    rw [this]

/-- **C49.** `Sequence.of`: one class is the member schema; several become the fields of a new subclass of Dict; none, or an element
instance, is a TypeError. -/
theorem C49_sequence_of (h : Heap K V) (hw : WellFormed h) (m : PStr) (dictClass c : Nat) (hdc : dictClass < h.classes.length) :
    (∀ f, let out := callSchema h m dictClass c (.sequenceOf [.cls f])
      out.2 = .ok h.classes.length ∧ look out.1 h.classes.length "member_schema" = some (.obj (.cls f))) ∧
    (∀ fields : List Nat, 2 ≤ fields.length → (∀ f ∈ fields, f < h.classes.length) → (fields.map fun f => h.read f "name").Nodup →
      let out := callSchema h m dictClass c (.sequenceOf (fields.map FieldArg.cls))
      out.2 = .ok h.classes.length ∧ ∃ d, h.classes.length < d ∧ look out.1 h.classes.length "member_schema" = some (.obj (.cls d)) ∧
        out.1.mroAt d = d :: h.mroAt dictClass ∧ look out.1 d "field_schema" = some (.items (fields.map SchemaObj.cls))) ∧
    (callSchema h m dictClass c (.sequenceOf [])).2 = .error .type ∧
    ∀ fs : List FieldArg, FieldArg.element ∈ fs → (callSchema h m dictClass c (.sequenceOf fs)).2 = .error .type := by
  have hc : IsClone h m c (h.clone m c).1 h.classes.length := clone_is h m c
  have hlen : h.classes.length < (h.clone m c).1.classes.length := by rw [hc.len]; omega
  refine ⟨?_, ?_, rfl, ?_⟩
  · intro f
    refine ⟨rfl, ?_⟩
    unfold look
    rw [show (callSchema h m dictClass c (.sequenceOf [.cls f])).1 = (h.clone m c).1.setAttr h.classes.length "member_schema" (.obj (.cls f)) from rfl,
      read_setAttr hc.mro hlen]
    rfl
  · intro fields h2 hf hn
    have hfc : ∀ l : List Nat, fieldClasses (l.map FieldArg.cls) = some (l.map SchemaObj.cls) := by
      intro l
      induction l with
      | nil => rfl
      | cons f l ih => simp [fieldClasses, ih]
    have hw1 := wf_clone hw m c
    generalize hh1 : (h.clone m c).1 = h1 at *
    generalize hmm : "flatland.schema.containers".toList = m2
    have hcall : callSchema h m dictClass c (.sequenceOf (fields.map FieldArg.cls)) = sequenceOfFields h1 dictClass h.classes.length (fields.map FieldArg.cls) := by
      show sequenceOfFields (h.clone m c).1 dictClass h.classes.length _ = _
      rw [hh1]
    intro out
    have hd := C49_dict_of h1 hw1 m2 dictClass dictClass fields (fun f hf' => Nat.lt_trans (hf f hf') hlen)
    have hcl : IsClone h1 m2 dictClass (h1.clone m2 dictClass).1 h1.classes.length := clone_is h1 m2 dictClass
    have hdid := did_dictOf (n := h1.classes.length) (wf_clone hw1 m2 dictClass) (Nat.le_refl _) (by rw [hcl.len]; omega) (fields.map FieldArg.cls)
    have hname : (fields.map fun f => h1.read f "name") = fields.map fun f => h.read f "name" := by
      apply List.map_congr_left
      intro f hf'
      unfold Heap.read
      rw [hc.frame.mroAt (hf f hf')]
      exact hc.frame.findAttr _ _ (hw.mro f)
    obtain ⟨d1, d2⟩ := hd.1 (by rw [hname]; exact hn)
    have hcs : callSchema h1 m2 dictClass dictClass (.dictOf (fields.map FieldArg.cls)) =
      dictOfFields (h1.clone m2 dictClass).1 (h1.clone m2 dictClass).2 (fields.map FieldArg.cls) := rfl
    rw [hcs] at d1 d2
    have hid2 : (h1.clone m2 dictClass).2 = h1.classes.length := rfl
    have f2 : Frame h1.classes.length h1 (dictOfFields (h1.clone m2 dictClass).1 (h1.clone m2 dictClass).2 (fields.map FieldArg.cls)).1 :=
      hcl.frame.trans hdid.frame
    have hmro : (dictOfFields (h1.clone m2 dictClass).1 (h1.clone m2 dictClass).2 (fields.map FieldArg.cls)).1.mroAt h1.classes.length =
        h1.classes.length :: h1.mroAt dictClass := by rw [hid2, hdid.mro, hcl.mro]
    rw [← hid2] at hdid
    have hout : out = ((dictOfFields (h1.clone m2 dictClass).1 (h1.clone m2 dictClass).2 (fields.map FieldArg.cls)).1.setAttr h.classes.length "member_schema"
        (.obj (.cls h1.classes.length)), .ok h.classes.length) := by
      show callSchema h m dictClass c (.sequenceOf (fields.map FieldArg.cls)) = _
      rw [hcall]
      unfold sequenceOfFields
      rw [hfc]
      obtain ⟨a, b, rest, rfl⟩ : ∃ a b rest, fields = a :: b :: rest := by
        match fields, h2 with
        | a :: b :: rest, _ => exact ⟨a, b, rest, rfl⟩
      simp only [List.map_cons]
      rw [hmm]
      simp only [List.map_cons] at d1 d2
      cases hval : dictOfFields (h1.clone m2 dictClass).1 (h1.clone m2 dictClass).2 (FieldArg.cls a :: FieldArg.cls b :: List.map FieldArg.cls rest) with
      | mk h3 res =>
        rw [hval] at d1
        simp only at d1
        subst d1
        rfl
    rw [hout]
    generalize dictOfFields (h1.clone m2 dictClass).1 (h1.clone m2 dictClass).2 (fields.map FieldArg.cls) = D at *
    have hD : h.classes.length < D.1.classes.length := Nat.lt_of_lt_of_le hlen f2.len
    refine ⟨rfl, h1.classes.length, hlen, ?_, ?_, ?_⟩
    · unfold look
      rw [read_setAttr (rest := h.mroAt c) (by rw [f2.mroAt hlen, hc.mro]) hD]
      rfl
    · rw [mroAt_setAttr, hmro, hc.frame.mroAt hdc]
    · have hne : ∀ a, (D.1.setAttr h.classes.length "member_schema" (.obj (.cls h1.classes.length))).read h1.classes.length a =
          if a = "member_schema" then (D.1.setAttr h.classes.length "member_schema" (.obj (.cls h1.classes.length))).read h1.classes.length a else D.1.read h1.classes.length a := by
        intro a
        by_cases ha : a = "member_schema"
        · rw [if_pos ha]
        · rw [if_neg ha]
          unfold Heap.read
          rw [mroAt_setAttr]
          congr 1
          funext b
          rw [dictAt_setAttr _ _ _ _ _ hD]
          by_cases hb : b = h.classes.length
          · subst hb; rw [if_pos rfl, dictGet_put, if_neg ha]
          · rw [if_neg hb]
      unfold look at d2 ⊢
      rw [hne, if_neg (by decide)]
      cases hr : D.1.read h1.classes.length "field_schema" with
      | none => rw [hr] at d2; exact d2
      | some v =>
        rw [hr] at d2
        cases v with
        | list r => exact d2
        | _ => simp [view] at d2
  · intro fs hfs
    have : fieldClasses fs = none := by
      induction fs with
      | nil => simp at hfs
      | cons f fs ih =>
        cases f with
        | element => rfl
        | cls b => simp at hfs; simp [fieldClasses, ih hfs]
    show (sequenceOfFields (h.clone m c).1 dictClass h.classes.length fs).2 = _
    unfold sequenceOfFields
    rw [this]
end

/-! ### examples -/
section

/-- class 0 is an Element with a validator and a property, class 1 a Dict, class 2 a form with the field 0 -/
def exampleHeap : Heap Nat Nat where
  classes := [⟨[0], [("__doc__", .obj (.val .none)), ("name", .obj (.val .none)), ("validators", .list 1), ("properties", .props 0)], .plain⟩,
    ⟨[1, 0], [("field_schema", .list 0), ("member_schema", .obj (.val .none))], .plain⟩, ⟨[2, 1, 0], [("field_schema", .list 2)], .form⟩]
  lists := [[], [.val (.obj 7)], [.cls 0]]
  dicts := []
  ndesc := 1
  props := ⟨fun _ => [(5, some 50)], fun _ _ => none, fun _ => .overlay []⟩

theorem exampleHeap_wellFormed : WellFormed exampleHeap where
  self c hc := by
    match c, hc with
    | 0, _ => exact ⟨[], rfl⟩
    | 1, _ => exact ⟨[0], rfl⟩
    | 2, _ => exact ⟨[1, 0], rfl⟩
  mro c b hb := by
    match c with
    | 0 => simp [exampleHeap, Heap.mroAt] at hb ⊢; omega
    | 1 => simp [exampleHeap, Heap.mroAt] at hb ⊢; omega
    | 2 => simp [exampleHeap, Heap.mroAt] at hb ⊢; omega
    | n + 3 => simp [exampleHeap, Heap.mroAt] at hb
  refs c a v hv := by
    have key : ∀ d : PyDict String AttrVal, (∀ p ∈ d, RefOk exampleHeap p.2) → dictGet d a = some v → RefOk exampleHeap v := by
      intro d hd hg
      induction d with
      | nil => simp [dictGet] at hg
      | cons p d ih =>
        obtain ⟨k, x⟩ := p
        rw [dictGet] at hg
        split at hg
        · injection hg with hg; exact hg ▸ hd (k, x) (by simp)
        · exact ih (fun q hq => hd q (by simp [hq])) hg
    match c with
    | 0 => exact key _ (by simp [exampleHeap, Heap.dictAt, RefOk]) hv
    | 1 => exact key _ (by simp [exampleHeap, Heap.dictAt, RefOk]) hv
    | 2 => exact key _ (by simp [exampleHeap, Heap.dictAt, RefOk]) hv
    | n + 3 => simp [exampleHeap, Heap.dictAt, dictGet] at hv
  fresh _ _ _ := rfl

theorem exampleHeap_declared : DeclaredProperties exampleHeap := by
  intro c r
  match c with
  | 0 => simp [exampleHeap, Heap.dictAt, dictGet]
  | 1 => simp [exampleHeap, Heap.dictAt, dictGet]
  | 2 => simp [exampleHeap, Heap.dictAt, dictGet]
  | n + 3 => simp [exampleHeap, Heap.dictAt, dictGet]

/-- a chain of calls: 3 is `0.named('x')`, 4 is `3.including_validators(8)`, 5 is `4.with_properties`, 6 is `1.of(3)`, 7 is `2.using(name='f')` -/
def exampleCalls : List (Nat × SchemaCall Nat Nat) :=
  [(0, .named (some ['x'])), (3, .includingValidators [.val (.obj 8)] 0), (4, .withProperties [(6, 60)]), (1, .dictOf [.cls 3]), (2, .using [("name", .obj (.obj (.val (.int 1))))])]

example : GoodCalls [] 1 exampleHeap exampleCalls := by
  refine ⟨by decide, trivial, by decide, trivial, by decide, trivial, by decide, trivial, by decide, ?_, trivial⟩
  intro a v hm
  simp at hm
  rw [hm.2]
  trivial

example :
    let h := runCalls [] 1 exampleHeap exampleCalls
    look h 3 "name" = some (.obj (.val (.str ['x']))) ∧ look h 4 "name" = some (.obj (.val (.str ['x']))) ∧ look h 0 "name" = some (.obj (.val .none)) ∧
    look h 4 "validators" = some (.items [.val (.obj 8), .val (.obj 7)]) ∧ look h 3 "validators" = some (.items [.val (.obj 7)]) ∧
    look h 5 "properties" = some (.entries [(6, 60), (5, 50)]) ∧ look h 4 "properties" = some (.entries [(5, 50)]) ∧
    look h 6 "field_schema" = some (.items [.cls 3]) ∧ look h 1 "field_schema" = some (.items []) ∧
    look h 7 "field_schema" = some (.items [.cls 0]) ∧ look h 7 "name" = some (.obj (.val (.int 1))) := by decide +kernel

/-- a class whose `properties` is a plain dict in the class body -/
def plainHeap : Heap Nat Nat where
  classes := [⟨[0], [("properties", .dict 0)], .plain⟩]
  lists := []
  dicts := [[(5, 50)]]
  ndesc := 0
  props := ⟨fun _ => [], fun _ _ => none, fun _ => .overlay []⟩

/-- **C49, the limit.** Where a class body gives `properties` as a plain dict instead of `Properties`, `with_properties` changes that
dict, and with it the class it is called on. -/
theorem C49_plain_dict_leaks :
    let h' := (callSchema plainHeap [] 0 0 (.withProperties [(6, 60)])).1
    look plainHeap 0 "properties" = some (.entries [(5, 50)]) ∧ look h' 0 "properties" = some (.entries [(5, 50), (6, 60)]) := by decide +kernel

end

end Flatland
