import Verif.Proofs.RichValues
import Verif.Props.Compounds
/-
Property C88: values, `set` and defaults of forms with DateYYYYMMDDs and JoinedStrings.
-/
namespace Flatland
open Spec

section
variable [Runtime]

/-! ### value and text -/

/-- **C88.** A new form: its joined strings have no members, the children of its dates and its scalars are new; its value is None for scalars and dates, ''
for joined strings and empty for Lists and Arrays, of all fields of a Dict, of none of a SparseDict, or of those that are required. -/
theorem C88_new (s : VSchema) (hd : ThreePartDates s) :
    VConforms s (vFresh s) ∧ vValue (vFresh s) = .ok (valueOfNew s) ∧
    VEach (fun s e => e = fresh s) (fun _ ms => ms = []) (fun _ ts sts => sts = ts.map fun _ => .fresh) s (vFresh s) :=
  ⟨(vFresh_each s).1, (vFresh_value s hd).1, (vFresh_each s).2⟩

/-- **C88.** If the children of the dates hold numbers or None, reading the value and the text of a form never raises, and they are what `VShows` says: in the
value, dates are dates and joined strings texts; in the text of the whole they stand without quotes. -/
theorem C88_value_and_text (repr : PStr → PStr) (e : VElem) (h : DatesOfNumbers e) :
    ∃ v t, vValue e = .ok v ∧ vText repr e = .ok t ∧ VShows repr e v t := vShows repr e h

/-! ### set -/

/-- **C88.** `set` of a List or an Array in a tree.  Something that cannot be iterated leaves it empty and returns False.  If every item
can be set on a new member, those are the members, in order, and the result is True iff it was for each.  If an item raises, a
TypeError empties it and gives False, and any other exception escapes.  (The last two cases are the only ones for an iterable.) -/
theorem C88_sequence_set (h : Hdr) (prune : Bool) (max : Nat) (m : VSchema) (v : PyVal) :
    (itemsOf v = none →
      vSet (.list h prune max m) v = .ok (.list h.name [], false) ∧ vSet (.array h prune m) v = .ok (.array h.name [], false)) ∧
    (∀ (vs : List PyVal) (r : List (VElem × Bool)), itemsOf v = some vs → vs.map (vSet m) = r.map Except.ok →
      vSet (.list h prune max m) v = .ok (.list h.name (r.map Prod.fst), r.all Prod.snd) ∧
      vSet (.array h prune m) v = .ok (.array h.name (r.map Prod.fst), r.all Prod.snd)) ∧
    (∀ pre w post er, itemsOf v = some (pre ++ w :: post) → (∀ x ∈ pre, ∃ y, vSet m x = .ok y) → vSet m w = .error er →
      (er = .type →
        vSet (.list h prune max m) v = .ok (.list h.name [], false) ∧ vSet (.array h prune m) v = .ok (.array h.name [], false)) ∧
      (er ≠ .type → vSet (.list h prune max m) v = .error er ∧ vSet (.array h prune m) v = .error er)) := by
  refine ⟨fun hv => ?_, fun vs r hv hr => ?_, fun pre w post er hv hp hw => ?_⟩
  · simp [vSet, seqSetVal, pyIter_items, hv]
  · simp [vSet, seqSetVal, pyIter_items, hv, memberSetLoop_ok _ _ _ hr]
  · have := memberSetLoop_error (vSet m) pre w post er hp hw
    constructor
    · rintro rfl
      simp [vSet, seqSetVal, pyIter_items, hv, this]
    · intro he
      cases er <;> first | exact absurd rfl he | simp [vSet, seqSetVal, pyIter_items, hv, this]

/-- **C88.** `set` of a Dict or SparseDict in a tree returns exactly when the value has entries, no entry stops it (each is a pair, the
key is hashable, known or to be ignored, and the field takes the value without an exception) and, under the strict policy, every field
is supplied.  Then each field holds the last value supplied for it, or is as in a new Dict, and the result is True iff every value
supplied for a field was taken with True.  (Values that supply no date twice: see the simplification in Model/RichValues.lean and C95_set.) -/
theorem C88_dict_set (h : Hdr) (mode : DictMode) (pol : Policy) (fs : List VSchema) (hn : (fs.map VSchema.name).Nodup) (v : PyVal) (e : VElem)
    (b : Bool) :
    vSet (.dict h mode pol fs) v = .ok (e, b) ↔
      ∃ l kids, entriesOf v = some l ∧ (∀ x ∈ l, ∀ er, ¬ VStopsAt pol fs x er) ∧ (pol = .strict → ∀ f ∈ fs, ¬ VUnsupplied f l) ∧
        e = .dict h.name kids ∧ kids.length = fs.length ∧
        (∀ (i : Nat) (f : VSchema) (kid : VElem), fs[i]? = some f → kids[i]? = some kid → VLeftAt mode f l kid) ∧
        (b = true ↔ ∀ x ∈ l, ∀ f ∈ fs, ∀ w e' b', VSupplies f x w → vSet f w = .ok (e', b') → b' = true) := by
  rw [vSet, vDictSet, valuePairs_entries]
  cases hv : entriesOf v with
  | none => simp
  | some l =>
    simp only [Option.some.injEq, exists_and_left, exists_eq_left']
    rcases first_stop (fun x => ∃ er, VStopsAt pol fs x er) l with hgo | ⟨pre, x, post, rfl, h1, er, h2⟩
    · have hgo' : ∀ y ∈ l, ∀ er', ¬ VStopsAt pol fs y er' := fun y hy er' h => hgo y hy ⟨er', h⟩
      obtain ⟨kids', seen', c', g1, g2, g3, g4, g5⟩ := vDictSetLoop_runs pol fs hn l hgo' (vFreshFields mode fs) [] true (by simp [vFreshFields_map])
      rw [g1]
      simp only
      have hleft : ∀ (i : Nat) (f : VSchema) (kid : VElem), fs[i]? = some f → kids'[i]? = some kid → VLeftAt mode f l kid := by
        intro i f kid hi hk
        obtain ⟨kid', k1, k2⟩ := g3 i f (vUnsuppliedField mode f) hi (by simp [vFreshFields_map, hi])
        rw [hk] at k1
        cases k1
        exact k2
      have huniq : ∀ (i : Nat) (f : VSchema) (k₁ k₂ : VElem), fs[i]? = some f → VLeftAt mode f l k₁ → VLeftAt mode f l k₂ → k₁ = k₂ := by
        rintro i f k₁ k₂ _ (⟨u₁, rfl⟩ | ⟨pre₁, x₁, post₁, v₁, b₁, e₁, s₁, p₁, t₁⟩) (⟨u₂, rfl⟩ | ⟨pre₂, x₂, post₂, v₂, b₂, e₂, s₂, p₂, t₂⟩)
        · rfl
        · exact (u₁ x₂ (by simp [e₂]) _ s₂).elim
        · exact (u₂ x₁ (by simp [e₁]) _ s₁).elim
        · have : x₁ = x₂ := by
            rw [e₁] at e₂
            rcases List.append_eq_append_iff.1 e₂ with ⟨as, ha, hb⟩ | ⟨as, ha, hb⟩
            · cases as with
              | nil => simp at hb; exact hb.1
              | cons a as =>
                simp at hb
                exact (p₁ x₂ (by simp [hb.2]) _ s₂).elim
            · cases as with
              | nil => simp at hb; exact hb.1.symm
              | cons a as =>
                simp at hb
                exact (p₂ x₁ (by simp [hb.2]) _ s₁).elim
          subst this
          obtain ⟨n₁, _, rfl⟩ := s₁
          obtain ⟨n₂, _, hh⟩ := s₂
          cases hh
          rw [t₁] at t₂
          cases t₂
          rfl
      have hall : (List.range (fs.map VSchema.name).length).all (fun i => seen'.contains i) = true ↔ ∀ f ∈ fs, ¬ VUnsupplied f l := by
        simp only [List.all_eq_true, List.mem_range, List.length_map, List.contains_iff_mem]
        constructor
        · intro h f hf hu
          obtain ⟨i, hi⟩ := List.getElem?_of_mem hf
          have := (g4 i).1 (h i (List.getElem?_eq_some_iff.1 hi).1)
          rcases this with h | ⟨g, x, w, a, c, d⟩
          · simp at h
          · rw [hi] at a; cases a; exact hu x c w d
        · intro h i hi
          refine (g4 i).2 (.inr ?_)
          have hf : fs[i]? = some fs[i] := List.getElem?_eq_getElem hi
          have := h fs[i] (List.getElem_mem hi)
          simp only [VUnsupplied, Classical.not_forall, Classical.not_not] at this
          obtain ⟨x, hx, w, hw⟩ := this
          exact ⟨fs[i], x, w, hf, hx, hw⟩
      have hT : c' = true ↔ ∀ x ∈ l, ∀ f ∈ fs, ∀ w e' b', VSupplies f x w → vSet f w = .ok (e', b') → b' = true := by
        rw [g5]; simp
      constructor
      · intro hr
        split at hr
        · cases hr
        · rename_i hstrict
          simp only [Except.ok.injEq, Prod.mk.injEq] at hr
          obtain ⟨rfl, rfl⟩ := hr
          refine ⟨hgo', fun hp => ?_, kids', rfl, g2, hleft, hT⟩
          apply hall.1
          rw [Classical.not_and_iff_not_or_not] at hstrict
          rcases hstrict with hs | hs
          · exact absurd hp hs
          · exact Classical.not_not.1 hs
      · rintro ⟨_, hs, kids, rfl, hlen, hleft', hb⟩
        have hk : kids = kids' := by
          apply List.ext_getElem?
          intro i
          by_cases hi : i < fs.length
          · have e1 : kids[i]? = some (kids[i]'(by omega)) := List.getElem?_eq_getElem _
            have e2 : kids'[i]? = some (kids'[i]'(by omega)) := List.getElem?_eq_getElem _
            have e3 : fs[i]? = some fs[i] := List.getElem?_eq_getElem hi
            rw [e1, e2, huniq i _ _ _ e3 (hleft' i _ _ e3 e1) (hleft i _ _ e3 e2)]
          · rw [List.getElem?_eq_none (by omega), List.getElem?_eq_none (by omega)]
        subst hk
        have hc : b = c' := by rw [Bool.eq_iff_iff, hb, hT]
        subst hc
        rw [if_neg]
        rintro ⟨hp, hne⟩
        exact hne (hall.2 (hs hp))
    · have := vDictSetLoop_stops pol fs hn pre x post er (fun y hy er' h => h1 y hy ⟨er', h⟩) h2 (vFreshFields mode fs) [] true
      rw [this]
      simp only [reduceCtorEq, false_iff, not_and, not_exists]
      intro hs
      exact (hs x (by simp) er h2).elim

/-- **C88.** And it raises exactly so: TypeError if the value cannot be iterated; otherwise what the first entry that stops it raises
(KeyError for a key that belongs to no field unless the policy is duck); otherwise TypeError under the strict policy if a field was not
supplied. -/
theorem C88_dict_raises (h : Hdr) (mode : DictMode) (pol : Policy) (fs : List VSchema) (hn : (fs.map VSchema.name).Nodup) (v : PyVal) (er : PyErr) :
    vSet (.dict h mode pol fs) v = .error er ↔
      (entriesOf v = none ∧ er = .type) ∨
      (∃ pre x post, entriesOf v = some (pre ++ x :: post) ∧ (∀ y ∈ pre, ∀ er', ¬ VStopsAt pol fs y er') ∧ VStopsAt pol fs x er) ∨
      (∃ l f, entriesOf v = some l ∧ (∀ y ∈ l, ∀ er', ¬ VStopsAt pol fs y er') ∧ pol = .strict ∧ f ∈ fs ∧ VUnsupplied f l ∧ er = .type) := by
  have hv : ∀ l, entriesOf v = some l → vSet (.dict h mode pol fs) v =
      match dictSetLoop pol (fs.map VSchema.name) (vSetters fs) (vFreshFields mode fs) [] true (l.map Entry.asPair) with
      | .error er => .error er
      | .ok (kids, seen, converted) =>
        if pol = .strict ∧ ¬ (List.range (fs.map VSchema.name).length).all (fun i => seen.contains i) then .error .type
        else .ok (.dict h.name kids, converted) := by
    intro l hl
    rw [vSet, vDictSet, valuePairs_entries, hl]
    rfl
  constructor
  · intro hr
    cases he : entriesOf v with
    | none =>
      rw [vSet, vDictSet, valuePairs_entries, he] at hr
      cases hr
      exact .inl ⟨rfl, rfl⟩
    | some l =>
      refine .inr ?_
      rcases first_stop (fun x => ∃ er, VStopsAt pol fs x er) l with hgo | ⟨pre, x, post, rfl, h1, er', h2⟩
      · refine .inr ?_
        have hgo' : ∀ y ∈ l, ∀ er', ¬ VStopsAt pol fs y er' := fun y hy er' h => hgo y hy ⟨er', h⟩
        obtain ⟨kids', seen', c', g1, g2, g3, g4, g5⟩ := vDictSetLoop_runs pol fs hn l hgo' (vFreshFields mode fs) [] true (by simp [vFreshFields_map])
        rw [hv l he, g1] at hr
        simp only at hr
        split at hr
        · rename_i hc
          cases hr
          have := hc.2
          rw [List.all_eq_true] at this
          simp only [List.mem_range, List.length_map, List.contains_iff_mem, Classical.not_forall] at this
          obtain ⟨i, hi, hs⟩ := this
          refine ⟨l, fs[i], rfl, hgo', hc.1, List.getElem_mem hi, ?_, rfl⟩
          intro x hx w hw
          exact hs ((g4 i).2 (.inr ⟨_, x, w, List.getElem?_eq_getElem hi, hx, hw⟩))
        · cases hr
      · refine .inl ⟨pre, x, post, rfl, fun y hy er' h => h1 y hy ⟨er', h⟩, ?_⟩
        rw [hv _ he, vDictSetLoop_stops pol fs hn pre x post er' (fun y hy er' h => h1 y hy ⟨er', h⟩) h2] at hr
        cases hr
        exact h2
  · rintro (⟨he, rfl⟩ | ⟨pre, x, post, he, h1, h2⟩ | ⟨l, f, he, h1, rfl, hf, hu, rfl⟩)
    · rw [vSet, vDictSet, valuePairs_entries, he]
    · rw [hv _ he, vDictSetLoop_stops pol fs hn pre x post er h1 h2]
    · obtain ⟨kids', seen', c', g1, g2, g3, g4, g5⟩ := vDictSetLoop_runs .strict fs hn l h1 (vFreshFields mode fs) [] true (by simp [vFreshFields_map])
      rw [hv l he, g1]
      simp only
      rw [if_pos]
      simp only [true_and]
      intro hall
      rw [List.all_eq_true] at hall
      obtain ⟨i, hi⟩ := List.getElem?_of_mem hf
      have := hall i (by simpa using (List.getElem?_eq_some_iff.1 hi).1)
      rw [List.contains_iff_mem, g4] at this
      rcases this with h | ⟨g, x, w, a, c, d⟩
      · simp at h
      · rw [hi] at a; cases a; exact hu x c w d


/-! ### set(el.value) -/

/-- **C88.** A form is stored as its value and set again, in a new form of the same class.  If the scalars take their own values again, and the
joined strings and dates come back from theirs, the new form is the same everywhere, has the same value and the same text; `set` returns True
exactly if each joined string takes its text with True and each date its value. -/
theorem C88_reproduces (repr : PStr → PStr) (s : VSchema) (e : VElem) (hn : VNamed s) (hc : VConforms s e) (hm : VComplete s e)
    (hs : VEach PlainKeeps JoinedKeeps DateKeeps s e) :
    ∃ v e' b, vValue e = .ok v ∧ vSet s v = .ok (e', b) ∧ VSame e e' ∧ vValue e' = .ok v ∧ vText repr e' = vText repr e ∧
      (b = true ↔ VEach (fun _ _ => True) TakesText TakesValue s e) := by
  obtain ⟨v, e', b, h1, h2, h3, h4⟩ := vSet_value s e hn hc hm hs
  have := vSame_value repr e e' h4
  exact ⟨v, e', b, h1, h2, h4, this.1 ▸ h1, this.2.symm, h3⟩

/-- **C88.** Dates come back: one whose children are the year, month and day of a date, as the texts that `set` makes of them, is taken again with
True.  One whose children are all empty comes back too, but then `set` – of the date and so of the whole form – returns False. -/
theorem C88_date_keeps (doStrip : Bool) (sts : List ScalarState) :
    (∀ y m d : Nat, RealDate y m d → dataOf sts = [(padNat 4 y, .int y), (padNat 2 m, .int m), (padNat 2 d, .int d)] →
      DateKeeps doStrip ymdTypes sts ∧ TakesValue doStrip ymdTypes sts) ∧
    (dataOf sts = [([], .none), ([], .none), ([], .none)] → DateKeeps doStrip ymdTypes sts ∧ ¬ TakesValue doStrip ymdTypes sts) := by
  constructor
  · intro y m d hr hd
    obtain ⟨sts', h1, h2, h3, h4⟩ := C51_set_date doStrip [.fresh, .fresh, .fresh] rfl y m d hr (.date y m d) (.inl rfl)
    have hd' : dataOf sts = dataOf sts' := by
      rw [hd]
      match sts', h2, h3 with
      | [a, b, c], h2, h3 =>
        simp only [List.map_cons, List.map_nil, List.cons.injEq, and_true] at h2 h3
        simp [dataOf, h2, h3]
      | [], h2, _ => simp at h2
      | [_], h2, _ => simp at h2
      | [_, _], h2, _ => simp at h2
      | _ :: _ :: _ :: _ :: _, h2, _ => simp at h2
    have hv := (dateView_data doStrip hd').trans h4
    exact ⟨⟨_, _, sts', true, hv, h1, hd'⟩, ⟨_, _, hv, by show (dateSet doStrip ymdTypes [.fresh, .fresh, .fresh] _).2 = _; rw [h1]⟩⟩
  · intro hd
    have hv : dateView doStrip sts = .ok ([], .none) := dateView_data doStrip (sts' := [.fresh, .fresh, .fresh]) (hd.trans rfl)
    refine ⟨⟨_, _, [.fresh, .fresh, .fresh], false, hv, rfl, hd.trans rfl⟩, ?_⟩
    rintro ⟨u, v, h1, h2⟩
    rw [hv] at h1
    cases h1
    have : (dateSet doStrip ymdTypes (ymdTypes.map fun _ => .fresh) .none).2 = .ok false := rfl
    rw [this] at h2
    cases h2

/-- **C88.** So does every date that was itself set, from any text, from a date or datetime, or from anything else but None. -/
theorem C88_date_set_keeps (doStrip : Bool) (sts : List ScalarState) (hl : sts.length = 3) (v : PyVal) (hv : v ≠ .none)
    (hd : ∀ y m d, (v = .date y m d ∨ ∃ hh mi s us, v = .datetime y m d hh mi s us) → RealDate y m d) :
    DateKeeps doStrip ymdTypes (dateSet doStrip ymdTypes sts v).1 := by
  rcases dateSet_cases doStrip sts hl v with ⟨y, m, d, ha, hs⟩ | ⟨rfl, _⟩ | ⟨_, hs⟩
  · rw [hs]
    refine ((C88_date_keeps doStrip _).1 y m d ?_ rfl).1
    cases v with
    | str s =>
      rcases ha with ha | ⟨hh, mi, ss, us, ha⟩
      · obtain ⟨core, y', m', d', _, _, h3, he⟩ := (C03_date_iff doStrip s _).1 ha
        cases he
        exact h3
      · obtain ⟨core, y', m', d', _, _, _, he⟩ := (C03_date_iff doStrip s _).1 ha
        cases he
    | date y' m' d' =>
      rcases ha with ha | ⟨_, _, _, _, ha⟩ <;> simp only [dateType] at ha
      · cases ha; exact hd _ _ _ (.inl rfl)
      · cases ha
    | datetime y' m' d' hh mi ss us =>
      rcases ha with ha | ⟨_, _, _, _, ha⟩ <;> simp only [dateType] at ha
      · cases ha
      · cases ha; exact hd _ _ _ (.inr ⟨_, _, _, _, rfl⟩)
    | none => exact absurd rfl hv
    | _ => rcases ha with ha | ⟨_, _, _, _, ha⟩ <;> simp [dateType] at ha
  · exact absurd rfl hv
  · rw [hs]
    exact ((C88_date_keeps doStrip _).2 rfl).1

/-- **C88 (limit).** Children that hold numbers, or nothing, but form no date are lost: the value is None, and a date set from None stays empty and
returns False. -/
theorem C88_half_date (h : Hdr) (hk : Hdr) (doStrip : Bool) (a b c : ScalarState)
    (hv : ∀ st ∈ [a, b, c], st.value = .none ∨ ∃ i, st.value = .int i)
    (hd : ¬ ∃ y m d : Nat, RealDate y m d ∧ a.value = .int y ∧ b.value = .int m ∧ c.value = .int d) :
    vValue (.date h.name doStrip [a, b, c]) = .ok .none ∧
    vSet (.date h doStrip (ymdTypes.map fun t => (hk, t))) .none = .ok (.date h.name doStrip [.fresh, .fresh, .fresh], false) := by
  refine ⟨?_, rfl⟩
  rw [vValue]
  rcases dateView_numbers doStrip [a, b, c] rfl hv with ⟨y, m, d, hy, _⟩ | ⟨_, h⟩
  · exact absurd ⟨y, m, d, hy.1, by simpa using hy.2⟩ hd
  · rw [h]; rfl

/-- **C88.** Joined strings come back: let the members have been set from texts, with any built-in class of members, and let the separator not
begin within the text of a member; no text is empty when pruning, and there is a member when not.  The string is taken with True exactly if its
members were. -/
theorem C88_joined_keeps (b : Builtin) (hb : b.Consistent) (hd : Disciplined b.type) (sep : PStr) (hsep : sep ≠ []) (prune : Bool) (old : List ScalarState)
    (ts : List PStr) (r : List ScalarState × Except PyErr Bool) (hr : joinedSet ⟨sep, .none, prune, b.type⟩ old (.list (ts.map .str)) = r)
    (hfree : ∀ m ∈ r.1, SepFree sep m.u) (hempty : prune = true → ∀ m ∈ r.1, m.u ≠ []) (hsome : prune = false → ts ≠ []) :
    JoinedKeeps ⟨sep, .none, prune, b.type⟩ r.1 ∧ (TakesText ⟨sep, .none, prune, b.type⟩ r.1 ↔ r.2 = .ok true) := by
  obtain ⟨h1, h2, _⟩ := C52_roundtrip b hb hd sep hsep prune old ts r hr hfree hempty hsome
  have hind : ∀ (x y : List ScalarState) (t : PStr), joinedSet ⟨sep, .none, prune, b.type⟩ x (.str t) = joinedSet ⟨sep, .none, prune, b.type⟩ y (.str t) := by
    intro x y t
    simp [joinedSet, joinedValues, hsep]
  rw [hind r.1 []] at h1 h2
  have hm : ∀ s, ∃ ok, (scalarSet b.type .fresh (.str s)).2 = .ok ok := by
    intro s
    obtain ⟨st, ok, he, _⟩ := C01_set_tandem b.type hd .fresh (.str s)
    exact ⟨ok, by rw [he]⟩
  have h3 := (C52_members ⟨sep, .none, prune, b.type⟩ hm old ts).2
  rw [hr] at h3
  refine ⟨⟨_, _, Prod.ext rfl (h2.trans h3), h1.symm⟩, ?_⟩
  rw [TakesText, h2]

/-! ### defaults -/

/-- **C88.** When `set_default` finishes, every part holds its declared default, as spelled out by `VHoldsDefault`: a date with a default is as after
`set(default)`, and otherwise its children hold theirs; a joined string with a default has one member for each item of it. -/
theorem C88_holds_default (s : VSchema) (e e' : VElem) (hc : VConforms s e) (h : vSetDefault s e = .ok e') : VHoldsDefault s e e' :=
  vSetDefault_holds s e e' hc h

/-- **C88.** A new date with a date as its default is that date. -/
theorem C88_date_default (h hk : Hdr) (doStrip : Bool) (y m d : Nat) (hr : RealDate y m d) (hd : h.dflt = some (.date y m d)) :
    ∃ sts, vFromDefaults (.date h doStrip (ymdTypes.map fun t => (hk, t))) = .ok (.date h.name doStrip sts) ∧
      dateView doStrip sts = .ok (fmtDate y m d, .date y m d) := by
  obtain ⟨sts', h1, _, _, h4⟩ := C51_set_date doStrip [.fresh, .fresh, .fresh] rfl y m d hr (.date y m d) (.inl rfl)
  refine ⟨sts', ?_, h4⟩
  rw [vFromDefaults, vFresh, vSetDefault, hd]
  have : dateSet doStrip ((ymdTypes.map fun t => (hk, t)).map Prod.snd) (VElem.date h.name doStrip ((ymdTypes.map fun t => (hk, t)).map fun _ => .fresh)).parts
      (.date y m d) = (sts', .ok true) := h1
  simp only [this]

theorem joinedExtend_all (c : JoinedCfg) (hm : ∀ s, ∃ ok, (scalarSet c.member .fresh (.str s)).2 = .ok ok) (ts : List PStr) :
    joinedExtend c (ts.map .str) = .ok (ts.map fun t => (scalarSet c.member .fresh (.str t)).1) := by
  induction ts with
  | nil => rfl
  | cons t ts ih =>
    obtain ⟨ok, h⟩ := hm t
    rw [List.map_cons, joinedExtend]
    cases hs : scalarSet c.member .fresh (.str t) with
    | mk st r =>
      rw [hs] at h
      simp only at h
      subst h
      simp [ih, hs, Except.map]

/-- **C88.** A new joined string with a list of texts, none of them empty, as its default is as after `set` of that list. -/
theorem C88_joined_list_default (h : Hdr) (c : JoinedCfg) (hm : ∀ s, ∃ ok, (scalarSet c.member .fresh (.str s)).2 = .ok ok) (ts : List PStr)
    (hd : h.dflt = some (.list (ts.map .str))) (hne : [] ∉ ts) :
    vFromDefaults (.joined h c) = .ok (.joined h.name c (joinedSet c [] (.list (ts.map .str))).1) := by
  rw [vFromDefaults, vFresh, vSetDefault, hd]
  simp only [pyIter]
  rw [joinedExtend_all c hm, (C52_members c hm [] ts).1]
  have : ts.filter (fun s => !s.isEmpty) = ts := by
    rw [List.filter_eq_self]
    intro t ht
    cases t with
    | nil => exact absurd ht hne
    | cons => rfl
  simp [this, Except.map]

/-- **C88 (limit).** With a text as its default, a new joined string is not as after `set` of that text: it has a member for each single character,
separators too. -/
theorem C88_joined_text_default (h : Hdr) (c : JoinedCfg) (hm : ∀ s, ∃ ok, (scalarSet c.member .fresh (.str s)).2 = .ok ok) (t : PStr)
    (hd : h.dflt = some (.str t)) :
    vFromDefaults (.joined h c) = .ok (.joined h.name c (t.map fun ch => (scalarSet c.member .fresh (.str [ch])).1)) := by
  rw [vFromDefaults, vFresh, vSetDefault, hd]
  simp only [pyIter]
  have : (t.map fun ch => PyVal.str [ch]) = (t.map fun ch => [ch]).map .str := by simp
  rw [this, joinedExtend_all c hm]
  simp [Except.map]

end

/-! ### cases -/

/-- C88: a date or joined string of a form is set as its own `set` sets it: the same children, the same answer, and the exceptions that escape are the same -/
theorem C88_parts_set [Runtime] (h : Hdr) (c : JoinedCfg) (doStrip : Bool) (fields : List (Hdr × ScalarType)) (v : PyVal) :
    (∀ er, vSet (.joined h c) v = .error er ↔ (joinedSet c [] v).2 = .error er) ∧
    (∀ e b, vSet (.joined h c) v = .ok (e, b) ↔ ∃ ms, joinedSet c [] v = (ms, .ok b) ∧ e = .joined h.name c ms) ∧
    (∀ er, vSet (.date h doStrip fields) v = .error er ↔ (dateSet doStrip (fields.map Prod.snd) (fields.map fun _ => .fresh) v).2 = .error er) ∧
    (∀ e b, vSet (.date h doStrip fields) v = .ok (e, b) ↔
      ∃ sts, dateSet doStrip (fields.map Prod.snd) (fields.map fun _ => .fresh) v = (sts, .ok b) ∧ e = .date h.name doStrip sts) := by
  unfold vSet
  refine ⟨fun er => ?_, fun e b => ?_, fun er => ?_, fun e b => ?_⟩
  · rcases hr : joinedSet c [] v with ⟨ms, er' | b⟩ <;> simp
  · rcases hr : joinedSet c [] v with ⟨ms, er' | b'⟩ <;> simp
    grind
  · rcases hr : dateSet doStrip (fields.map Prod.snd) (fields.map fun _ => .fresh) v with ⟨ms, er' | b⟩ <;> simp
  · rcases hr : dateSet doStrip (fields.map Prod.snd) (fields.map fun _ => .fresh) v with ⟨ms, er' | b'⟩ <;> simp
    grind

namespace RichValueExample
attribute [local instance] Runtime.ascii

/-- tags separated by commas -/
def tagsCfg : JoinedCfg := ⟨[','], .none, true, stringType true⟩
/-- the children of a date: their names do not matter here -/
def ymd : List (Hdr × ScalarType) := ymdTypes.map fun t => (⟨some ['p'], false, some .none⟩, t)

/-- a form with a title, tags, a day and a List of further days -/
def schema : VSchema :=
  .dict ⟨some ['f'], false, some .none⟩ .full .strict
    [.plain (.scalar ⟨some ['t'], false, some .none⟩ (stringType true)), .joined ⟨some ['g'], false, some .none⟩ tagsCfg,
     .date ⟨some ['d'], false, some .none⟩ true ymd,
     .list ⟨some ['l'], false, some .none⟩ true 1024 (.date ⟨some ['x'], false, some .none⟩ true ymd)]

/-- a String's state -/
def text (x : String) : ScalarState := ⟨.str x.toList, x.toList, .none⟩
/-- the children of a date -/
def day (y m d : Nat) : List ScalarState := [⟨.int y, padNat 4 y, .none⟩, ⟨.int m, padNat 2 m, .none⟩, ⟨.int d, padNat 2 d, .none⟩]

/-- such a form, filled in; the second day of the List is empty -/
def form : VElem :=
  .dict (some ['f'])
    [.plain (.scalar (some ['t']) (text "hi")), .joined (some ['g']) tagsCfg [text "a", text "b"], .date (some ['d']) true (day 2000 2 29),
     .list (some ['l']) [.date (some ['x']) true (day 1999 12 31), .date (some ['x']) true [.fresh, .fresh, .fresh]]]

example : ThreePartDates schema := by simp [schema, ThreePartDates, ThreePartDatesAll, ymd, ymdTypes]
example : valueOfNew schema = .dict [(['t'], .none), (['g'], .str []), (['d'], .none), (['l'], .list [])] := by rfl
example : VNamed schema := by simp [schema, VNamed, VNamedAll, NamedFields, VSchema.name, VSchema.hdr, Schema.hdr]
example : VConforms schema form := by
  simp [schema, form, VConforms, VConformsAll, Conforms, ymd, ymdTypes, day]
example : VComplete schema form := by
  simp [schema, form, VComplete, VCompleteAll, Complete, VElem.present, Elem.present]

theorem tags_take : joinedSet tagsCfg [] (.str (joinedText tagsCfg [text "a", text "b"])) =
    ([⟨.str ['a'], ['a'], some (.str ['a'])⟩, ⟨.str ['b'], ['b'], some (.str ['b'])⟩], .ok true) := by rfl

theorem keeps : VEach PlainKeeps JoinedKeeps DateKeeps schema form := by
  have h1 := ((C88_date_keeps true (day 2000 2 29)).1 2000 2 29 ((validDate_iff _ _ _).1 (by decide)) rfl).1
  have h2 := ((C88_date_keeps true (day 1999 12 31)).1 1999 12 31 ((validDate_iff _ _ _).1 (by decide)) rfl).1
  have h3 := ((C88_date_keeps true [.fresh, .fresh, .fresh]).2 rfl).1
  have hy : ymd.map Prod.snd = ymdTypes := rfl
  simp only [schema, form, VEach, VEachAll, List.mem_cons, List.not_mem_nil, or_false, forall_eq_or_imp, forall_eq, and_true, hy]
  refine ⟨fun _ => ?_, ⟨_, true, tags_take, rfl⟩, h1, h2, h3⟩
  exact ⟨⟨.str "hi".toList, "hi".toList, some (.str "hi".toList)⟩, rfl, rfl, rfl⟩

example : DatesOfNumbers form := by simp [form, DatesOfNumbers, DatesOfNumbersAll, day, ScalarState.fresh]
-- its value and its text
example :
    vValue form = .ok (.dict [(['t'], .str "hi".toList), (['g'], .str "a,b".toList), (['d'], .date 2000 2 29), (['l'], .list [.date 1999 12 31, .none])]) ∧
    vText (fun t => '\'' :: t ++ ['\'']) form = .ok "{'t': 'hi', 'g': a,b, 'd': 2000-02-29, 'l': [1999-12-31, ]}".toList := by
  have h1 : dateView true (day 2000 2 29) = .ok ("2000-02-29".toList, .date 2000 2 29) := by
    rw [← show fmtDate 2000 2 29 = "2000-02-29".toList by simp [fmtDate, padNat, decimal, digitChar]]
    exact (C51_from_children true 2000 2 29).1 2000 2 29 ⟨rfl, rfl, rfl, (validDate_iff _ _ _).1 (by decide)⟩
  have h2 : dateView true (day 1999 12 31) = .ok ("1999-12-31".toList, .date 1999 12 31) := by
    rw [← show fmtDate 1999 12 31 = "1999-12-31".toList by simp [fmtDate, padNat, decimal, digitChar]]
    exact (C51_from_children true 1999 12 31).1 1999 12 31 ⟨rfl, rfl, rfl, (validDate_iff _ _ _).1 (by decide)⟩
  have h3 : dateView true [.fresh, .fresh, .fresh] = .ok ([], .none) := rfl
  constructor
  · simp only [form, vValue, vItems, vValues, VElem.present, Elem.present, VElem.name, Elem.name, h1, h2, h3, Except.map, if_true]
    rfl
  · simp only [form, vText, vPairTexts, vTexts, VElem.present, Elem.present, VElem.name, Elem.name, h1, h2, h3, Except.map, if_true]
    rfl

-- without the empty day the whole is taken with True
example : VEach (fun _ _ => True) TakesText TakesValue (.list ⟨none, false, some .none⟩ true 9 (.date ⟨none, false, some .none⟩ true ymd))
    (.list none [.date none true (day 1999 12 31)]) := by
  have h2 := ((C88_date_keeps true (day 1999 12 31)).1 1999 12 31 ((validDate_iff _ _ _).1 (by decide)) rfl).2
  have hy : ymd.map Prod.snd = ymdTypes := rfl
  simp only [VEach, List.mem_cons, List.not_mem_nil, or_false, forall_eq, hy]
  exact h2

-- a number is no JoinedString: `set` raises
example : ∃ er, vSet (.joined ⟨some ['g'], false, some .none⟩ tagsCfg) (.int 3) = .error er := ⟨_, rfl⟩

/-- **C88 (limit).** `JoinedString.using(default='a,b')`: a new element with its default is 'a,,,b'. -/
theorem C88_joined_text_default_case :
    vFromDefaults (.joined ⟨some ['g'], false, some (.str "a,b".toList)⟩ ⟨[','], .none, true, stringType true⟩) =
      .ok (.joined (some ['g']) ⟨[','], .none, true, stringType true⟩ (["a", ",", "b"].map fun x => ⟨.str x.toList, x.toList, some (.str x.toList)⟩)) ∧
    joinedText ⟨[','], .none, true, stringType true⟩ (["a", ",", "b"].map fun x => ⟨.str x.toList, x.toList, some (.str x.toList)⟩) = "a,,,b".toList ∧
    joinedText ⟨[','], .none, true, stringType true⟩ (joinedSet ⟨[','], .none, true, stringType true⟩ [] (.str "a,b".toList)).1 = "a,b".toList :=
  ⟨rfl, by decide, by decide⟩

-- a value for the form, with a day that is no date: the day is emptied, and `set` returns True all the same
example : ((vSet (.dict ⟨none, false, some .none⟩ .full .subset [.date ⟨some ['d'], false, some .none⟩ true ymd]) (.dict [(['d'], .str "x".toList)])).map Prod.snd) =
    .ok true := by decide +kernel
end RichValueExample

end Flatland
