import Verif.Proofs.RichBfs
/-!
C78.  Forms with Compounds and JoinedStrings in them: what `flatten()` lists, and that `from_flat` of the flattened data gives the form back.
-/
namespace Flatland
open Spec

/-- C78.  A JoinedString flattened by itself is one pair: its name and its text. -/
theorem C78_flatten_joined (sep : PStr) (n : Option PStr) (c : JoinedCfg) (m : Option PStr) (ms : List ScalarState) :
    rFlatten sep (.joined n c m ms) = [(n.getD [], pyJoin c.separator (ms.map ScalarState.u))] := by
  cases n <;> simp [rFlatten, rFlattenAt, RElem.flattenable, RElem.childrenFlattenable, RElem.name, RElem.text, flatName, pyJoin, joinedText]

/-- C78.  Any other element: `flatten()` lists, in some order and each exactly once, the scalars (but for those of JoinedStrings), the JoinedStrings, the Compounds
as well as their fields, and also the members of JoinedStrings that are inside other elements. -/
theorem C78_flatten_exactly (sep : PStr) (e : RElem) (h : ∀ n c m ms, e ≠ .joined n c m ms) : (rFlatten sep e).Perm (listing sep [] e) := by
  refine flatten_listing sep e ?_
  cases e with
  | joined n c m ms => exact absurd rfl (h n c m ms)
  | _ => rfl

section
variable [Runtime]

/-- C78.  The same pairs in any other order, as long as the values of one key keep theirs (of a JoinedString and its members, the JoinedString comes first),
give the form back. -/
theorem C78_any_order {sep : PStr} (hs : GoodSep sep) (s : RSchema) (e : RElem) (hk : RKeyed s) (hw : RWellNamed sep s) (hc : RConforms s e)
    (hcar : RCarried false s e) (ps : List (PStr × PStr)) (hps : ∀ k, valuesFor k ps = valuesFor k (rFlatten sep e)) :
    rFromFlat sep s ps = .ok (rRestored false s e) := by
  obtain ⟨qs, hqs, h2⟩ := remove_extras_any hs s e hk hw hc (backed_of_carried s false e hcar) (asPairs ps) (agree_of_valuesFor hps)
  have h1 := setFlat_rt hs (plainS s) false (dropR e) qs (wellNamed_plain s hw) (conforms_drop s e hc) (carried_drop s false e hc hcar)
    fun k _ => (hqs k trivial).trans (flatten_agree hs (keyed_plain hk) (wellNamed_plain s hw) (conforms_drop s e hc) k trivial)
  unfold asPairs at h2
  unfold rFromFlat
  rw [rSetFlat_lift, h2, h1]
  simp only [Except.map, lift_restored s false e hc]

/-- C78.  The flattened data of a form with Compounds and JoinedStrings, given to `from_flat` as it is, gives the form back: every scalar, and every
JoinedString, set from its own text.  Neither the additional pairs of Compounds nor those of JoinedStrings' members disturb that. -/
theorem C78_roundtrip {sep : PStr} (hs : GoodSep sep) (s : RSchema) (e : RElem) (hk : RKeyed s) (hw : RWellNamed sep s) (hc : RConforms s e)
    (hcar : RCarried false s e) : rFromFlat sep s (rFlatten sep e) = .ok (rRestored false s e) := by
  exact C78_any_order hs s e hk hw hc hcar _ fun _ => rfl

/-- C78.  What is missing for Lists of Compounds without a name: their flattened data cannot be given to `from_flat`, it raises AttributeError
(as soon as there is a member and the Compound has a field). -/
theorem C78_unnamed_compounds {sep : PStr} (hs : GoodSep sep) (h : Hdr) (hn : GoodName h.name) (max : Nat) (hmax : 0 < max) (hm : Hdr) (hmn : hm.name = none)
    (co : List Elem → PStr) (f : Schema) (fs : List Schema) (fn : PStr) (hf : f.name = some fn) (kids : List Elem) (ks : List RElem) :
    rFromFlat sep (.list h false max (.compound hm co (f :: fs))) (rFlatten sep (.list h.name (.compound none co kids :: ks))) = .error .attribute := by
  obtain ⟨k, hk1, hk2⟩ := idxMatch_canonical hs hn 0 none (by simp)
  have hmem : (k, co kids) ∈ rFlatten sep (.list h.name (.compound none co kids :: ks)) := by
    refine (C78_flatten_exactly sep _ (by simp)).mem_iff.2 ?_
    have hkey : flatName sep [h.name, some (decimal 0), none] = k := by
      rw [flatName_eq_keyOf]
      simp only [keyOf, List.foldr]
      have : addName sep none (none : Option PStr) = none := rfl
      rw [this, hk1]; rfl
    simp only [listing, listingSlots, List.nil_append, List.cons_append, hkey]
    simp
  generalize rFlatten sep (.list h.name (.compound none co kids :: ks)) = ps at hmem
  have hmem' : ((some k, co kids) : FPair) ∈ ps.map fun p => ((some p.1, p.2) : FPair) := List.mem_map.2 ⟨_, hmem, rfl⟩
  have hno : hasNone (ps.map fun p => ((some p.1, p.2) : FPair)) = false := by
    simp [hasNone]
  unfold rFromFlat
  generalize (ps.map fun p => ((some p.1, p.2) : FPair)) = qs at hmem' hno
  have hq : qs.filter (fun x => !(x.2 == [] && false)) = qs := List.filter_eq_self.2 (by simp)
  simp only [rSetFlat, listMatches_eq, hq, hno, Bool.false_eq_true, if_false]
  have hms : (0, ((none, co kids) : FPair)) ∈ qs.filterMap fun x => (x.1.bind (idxMatch sep h.name)).map fun r => (r.1, ((r.2, x.2) : FPair)) :=
    List.mem_filterMap.2 ⟨_, hmem', by simp [hk2]⟩
  generalize (qs.filterMap fun x => (x.1.bind (idxMatch sep h.name)).map fun r => (r.1, ((r.2, x.2) : FPair))) = ms at hms
  have hne : ms.isEmpty = false := by
    cases ms with
    | nil => cases hms
    | cons => rfl
  have hsub : ((none, co kids) : FPair) ∈ subPairs ms 0 := by
    unfold subPairs
    refine List.mem_map.2 ⟨_, List.mem_filter.2 ⟨hms, by simp⟩, rfl⟩
  have hse : (subPairs ms 0).isEmpty = false := by
    cases hsp : subPairs ms 0 with
    | nil => rw [hsp] at hsub; cases hsub
    | cons => rfl
  have hsn : hasNone (subPairs ms 0) = true := by
    simp only [hasNone, List.any_eq_true]
    exact ⟨_, hsub, rfl⟩
  have hrange : ∃ r, List.range (min (maxIdx ms + 1) max) = 0 :: r := by
    have : min (maxIdx ms + 1) max = (min (maxIdx ms + 1) max - 1) + 1 := by omega
    rw [this, List.range_succ_eq_map]
    exact ⟨_, rfl⟩
  obtain ⟨r, hr⟩ := hrange
  have hfirst : rSetFlat sep (.compound hm co (f :: fs)) (rFresh (.compound hm co (f :: fs))) (subPairs ms 0) = .error .attribute := by
    simp only [rSetFlat, setFlat, hmn, dictPossibles, hse, Bool.false_eq_true, if_false, setFlatFields, hf, accum_some, hsn, if_true]
    rfl
  simp only [rSetFlat] at hfirst
  simp only [hne, Bool.false_eq_true, if_false, hr, List.mapM_cons, hse, hfirst]
  rfl

/-- C78.  `set_flat` on a JoinedString that has members: without a pair of its name it stays as it is; otherwise its members are replaced,
it becomes what a new JoinedString becomes from the first such pair alone. -/
theorem C78_joined_replaced (sep : PStr) (h : Hdr) (c : JoinedCfg) (m : Option PStr) (ms : List ScalarState) (pre post : List FPair) (x : PStr)
    (hpre : ∀ p ∈ pre, p.1 ≠ h.name) :
    rSetFlat sep (.joined h c m) (.joined h.name c m ms) pre = .ok (.joined h.name c m ms) ∧
    rSetFlat sep (.joined h c m) (.joined h.name c m ms) (pre ++ (h.name, x) :: post) =
      rSetFlat sep (.joined h c m) (.joined h.name c m []) [(h.name, x)] := by
  have h0 : pre.find? (fun p => p.1 == h.name) = none := by
    rw [List.find?_eq_none]; intro p hp; simpa using hpre p hp
  constructor
  · simp only [rSetFlat, rJoinedSetFlat, h0, RElem.members]
  · simp only [rSetFlat, rJoinedSetFlat, List.find?_append, h0, RElem.members, Option.none_or, List.find?_cons_of_pos (p := fun p : FPair => p.1 == h.name) (a := (h.name, x)) (by simp)]
    unfold joinedSet
    cases joinedValues c (.str x) <;> rfl

end

/-! ### the hypotheses can be met, and what can go wrong -/

namespace RichExample
attribute [local instance] Runtime.ascii

def sep : PStr := "_".toList
def cfg : JoinedCfg := { member := stringType false }
def nm (s : String) : Hdr := ⟨some s.toList, false, some .none⟩
def st (s : String) : ScalarState := ⟨.str s.toList, s.toList, some (.str s.toList)⟩
def compose : List Elem → PStr := fun ks => pyJoin "-".toList (ks.map fun k => k.state.u)
def part (s : String) : Schema := .scalar (nm s) (stringType false)
def tags : RSchema := .joined (nm "tags") cfg none
def when_ : RSchema := .compound (nm "when") compose [part "y", part "m"]
/-- a form with a name, tags, a date, and a List of JoinedStrings -/
def schema : RSchema := .dict ⟨none, false, some .none⟩ .full .subset
  [.plain (part "who"), tags, when_, .list (nm "rows") true 128 (.joined ⟨none, false, some .none⟩ cfg none)]
def elem : RElem := .dict none
  [.plain (.scalar (some "who".toList) (st "x")), .joined (some "tags".toList) cfg none [st "a", st "b"],
   .compound (some "when".toList) compose [.scalar (some "y".toList) (st "2010"), .scalar (some "m".toList) (st "1")],
   .list (some "rows".toList) [.joined none cfg none [st "p", st "q"]]]

theorem ex_good : GoodSep sep := ⟨'_', [], rfl, by decide⟩
theorem ex_keyed : RKeyed schema := trivial
theorem ex_named : RWellNamed sep schema := by
  simp [RWellNamed, RWellNamedAll, schema, sep, tags, when_, part, nm, WellNamed, WellNamedAll, GoodName, RCompatible, Compatible, RSchema.name, RSchema.hdr, spreads, isContainer,
    Schema.name, Schema.hdr, NamelessCompound]
theorem ex_instance : RConforms schema elem := by
  simp [RConforms, RConformsAll, schema, elem, tags, when_, part, nm, Conforms, ConformsAll]
theorem ex_carries : RCarried false schema elem := by
  simp [RCarried, RCarriedAll, schema, elem, tags, when_, part, Carried, CarriedAll, rAutoField, autoField, Survives, rTexts]
  repeat' apply And.intro
  all_goals first | exact .inr (by decide) | decide

example : rFromFlat sep schema (rFlatten sep elem) = .ok (rRestored false schema elem) :=
  C78_roundtrip ex_good _ _ ex_keyed ex_named ex_instance ex_carries

example : rSetFlat sep tags (.joined (some "tags".toList) cfg none [st "old"]) [(some "who".toList, []), (some "tags".toList, "a,b".toList)] =
    .ok (.joined (some "tags".toList) cfg none [st "a", st "b"]) :=
  (C78_joined_replaced sep (nm "tags") cfg none [st "old"] [(some "who".toList, [])] [] "a,b".toList (by decide)).2

end RichExample

section
open RichExample
attribute [local instance] Runtime.ascii

/-- the form `{tags: JoinedString}` -/
def tagsForm : RSchema := .dict ⟨none, false, some .none⟩ .full .subset [tags]
/-- the form with these tags -/
def tagged (ts : List ScalarState) : RElem := .dict none [.joined (some "tags".toList) cfg none ts]

/-- C78.  Inside a form a JoinedString's members are flattened too, under the same key if they have no name: the joined text comes first and is what
`from_flat` uses, but with `dict(form.flatten())` (the last value of each key stays) or in another order the members get lost. -/
theorem C78_members_leak :
    rFlatten sep (tagged [st "a", st "b"]) = [("tags".toList, "a,b".toList), ("tags".toList, "a".toList), ("tags".toList, "b".toList)] ∧
    rFromFlat sep tagsForm (rFlatten sep (tagged [st "a", st "b"])) = .ok (tagged [st "a", st "b"]) ∧
    rFromFlat sep tagsForm (rFlatten sep (tagged [st "a", st "b"])).reverse = .ok (tagged [st "b"]) ∧
    rFromFlat sep tagsForm [("tags".toList, "b".toList)] = .ok (tagged [st "b"]) := by
  have hfl : rFlatten sep (tagged [st "a", st "b"]) = [("tags".toList, "a,b".toList), ("tags".toList, "a".toList), ("tags".toList, "b".toList)] := by
    have h1 : rChildrenOf ([none], tagged [st "a", st "b"]) = [([none, some "tags".toList], .joined (some "tags".toList) cfg none [st "a", st "b"])] := rfl
    have h2 : rChildrenOf ([none, some "tags".toList], .joined (some "tags".toList) cfg none [st "a", st "b"]) =
      [([none, some "tags".toList, none], .plain (.scalar none (st "a"))), ([none, some "tags".toList, none], .plain (.scalar none (st "b")))] := rfl
    have h3 : ∀ p s, rChildrenOf (p, .plain (.scalar none (st s))) = [] := fun _ _ => rfl
    have hn : (tagged [st "a", st "b"]).name = none := rfl
    unfold rFlatten rFlattenAt
    rw [hn, h1, rBfs, List.nil_append, h2, rBfs, h3, List.append_nil, rBfs, h3, List.append_nil, rBfs]
    rfl
  refine ⟨hfl, ?_, ?_, ?_⟩
  all_goals
    first | rw [hfl] | skip
    rfl

end

end Flatland
