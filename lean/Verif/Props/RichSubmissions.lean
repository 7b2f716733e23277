import Verif.Proofs.RichSubmissions3
import Verif.Props.Order
import Verif.Props.SetFlat
import Verif.Props.RichTree
import Verif.Proofs.Hostile
/-!
C86.  Submissions to forms with Compounds and JoinedStrings in them; and C13 for whole forms.
-/
namespace Flatland
open Spec

section
variable [Runtime]

/-- C13 (whole forms).  If no List of a form has more members than its `maximum_set_flat_members`, none has after any submission, at whatever depth. -/
theorem C13_whole_form (sep : PStr) (s : Schema) (e e' : Elem) (hc : Conforms s e) (hw : WithinMax s e) (ps : List (PStr × PStr))
    (h : setFlat sep s e (texts ps) = .ok e') : WithinMax s e' :=
  setFlat_withinMax sep s e e' _ hc hw h

/-- C13 (new forms).  Whatever is submitted, no List of the form made of it has more members than allowed. -/
theorem C13_new_form (sep : PStr) (s : Schema) (e : Elem) (ps : List (PStr × PStr)) (h : fromFlat sep s ps = .ok e) : WithinMax s e :=
  setFlat_withinMax sep s (fresh s) e _ (fresh_conforms s) (withinMax_fresh s) h

/-- C86.  What a submission leaves is a form of the class: names and fields are those declared, and missing fields are ones that may be missing. -/
theorem C86_proper (sep : PStr) (s : RSchema) (e e' : RElem) (hc : RConforms s e) (ps : List (PStr × PStr))
    (h : rSetFlat sep s e (texts ps) = .ok e') : RConforms s e' ∧ (RWithinMax s e → RWithinMax s e') := by
  obtain ⟨x, hx, rfl⟩ := rSetFlat_ok hc h
  have hcl := conforms_lower s e hc
  have hcx := setFlat_conforms hcl hx
  refine ⟨conforms_raise s x hcx, fun hw => ?_⟩
  rw [withinMax_raise s x hcx]
  refine setFlat_withinMax sep _ _ _ _ hcl ?_ hx
  rw [← withinMax_raise s _ hcl, raise_lower s e hc]
  exact hw

/-- C86.  A field reached through Dicts and Compounds – a scalar or a JoinedString – is set from the first value submitted under its key, the names on the
way to it, joined; without one it stays as it is. No other pair matters to it. -/
theorem C86_field (sep : PStr) (s : RSchema) (p : Pos) (key : PStr) (h : Hdr) (l : Leaf) (hf : RFieldOf sep s p key h l)
    (e : RElem) (hc : RConforms s e) (before : RElem) (hb : rAt e p = some before) (ps : List (PStr × PStr)) (e' : RElem)
    (hset : rSetFlat sep s e (texts ps) = .ok e') :
    ∃ after, rAt e' p = some after ∧ FieldBecomes h l before (submitted key ps) after :=
  rField_after hf e hc before hb ps e' hset

/-- C86.  Two submissions in which every key has the same values in the same relative order have the same outcome, be it the form or the exception
(conditions as for C10). -/
theorem C86_order {sep : PStr} (hsep : sep ≠ []) (hd : ∀ c ∈ sep, digit c = none) (hnl : sep ≠ ['\n']) (s : RSchema) (hs : ROneKey s)
    (e : RElem) (hc : RConforms s e) (ps qs : List (PStr × PStr)) (htidy : ∀ kv ∈ ps, TidyKey sep kv.1)
    (hps : ∀ k, valuesFor k ps = valuesFor k qs) : rSetFlat sep s e (texts ps) = rSetFlat sep s e (texts qs) := by
  rw [rSetFlat_plain sep hc, rSetFlat_plain sep hc, C10_any_submission hsep hd hnl (plainS s) (oneKey_plain s hs) (lower e) ps qs htidy hps]

/-- C86.  Pairs whose key is neither the element's name nor extends it through the separator do not matter (conditions as for C11). -/
theorem C86_unrelated (sep n : PStr) (hn : n ≠ []) (s : RSchema) (hname : s.name = some n) (e : RElem) (hc : RConforms s e)
    (ps : List (PStr × PStr)) (hnl : RNamedMembers s → ∀ kv ∈ ps, kv.1 ≠ n ++ ['\n']) :
    rSetFlat sep s e (texts ps) = rSetFlat sep s e (texts (ps.filter fun kv => decide (Concerns sep n kv.1))) := by
  rw [rSetFlat_plain sep hc, rSetFlat_plain sep hc,
    C11_unrelated_ignored_partial sep n hn (plainS s) (by rw [plainS_name]; exact hname) (lower e) ps fun h => hnl (namedMembers_plain h)]

/-- C86.  If scalars and JoinedStrings take any text, no submission makes `set_flat` raise exactly if the schema is one of `RNeverRaises`: all fields of Dicts and
Compounds are named, Arrays hold scalars, and Lists hold scalars, JoinedStrings or unnamed Arrays – not Dicts, Lists or Compounds – or take no members. -/
theorem C86_never_raises_iff {sep : PStr} (hs : sep ≠ []) (s : RSchema) (hd : RDeclared s) :
    (∀ (e : RElem) (ps : List (PStr × PStr)), RConforms s e → ∃ e', rSetFlat sep s e (texts ps) = .ok e') ↔ RNeverRaises s := by
  rw [← neverRaises_plain]
  constructor
  · intro h
    apply Classical.byContradiction
    intro hn
    obtain ⟨key, _, hk⟩ := raising_key hs (plainS s) (fieldsDeclared_of _ (declared_plain s hd)) hn
    obtain ⟨er, her⟩ := hk (fresh (plainS s))
    obtain ⟨e', he'⟩ := h (raise s (fresh (plainS s))) [(key, ['x'])] (conforms_raise s _ (fresh_conforms _))
    rw [rSetFlat_raise sep s _ _ (fresh_conforms _), her] at he'
    cases he'
  · intro hn e ps hc
    obtain ⟨x, hx⟩ := C12_safe_schemas_partial (sep := sep) (plainS s) (declared_plain s hd) hn (lower e) ps
    exact ⟨raise s x, by rw [rSetFlat_plain sep hc, hx]; rfl⟩

/-- C86.  A JoinedString takes any text if it has a separator, or an expression to split by, and its member class takes any text. -/
theorem C86_joined_safe (c : JoinedCfg) (hsep : c.separator ≠ [] ∨ c.regex ≠ none) (ht : TextSafe c.member) : JoinedSafe c := by
  intro x
  have hloop : ∀ l : List PStr, ∃ ok, (joinedLoop c (l.map .str)).2 = .ok ok := by
    intro l
    induction l with
    | nil => exact ⟨true, rfl⟩
    | cons v l ih =>
      obtain ⟨b, hb⟩ := ih
      simp only [List.map_cons, joinedLoop]
      split
      · exact ⟨b, hb⟩
      · obtain ⟨ok, hok⟩ := ht .fresh v
        rcases hs : scalarSet c.member .fresh (.str v) with ⟨st, r⟩
        rw [hs] at hok
        simp only at hok
        subst hok
        exact ⟨ok && b, by simp [hb, Except.map]⟩
  unfold joinedSet joinedValues
  cases hr : c.regex with
  | some f => simp only; exact hloop _
  | none =>
    have : c.separator ≠ [] := hsep.resolve_right (fun h => h hr)
    simp only [if_neg this]
    exact hloop _

/-- C86.  A List, filled from a submission: with `prune_empty` its members are, in increasing order, those submitted indexes that have a non-empty value,
cut off at the maximum, each a new element filled with what was submitted for its index. -/
theorem C86_list_pruned {sep : PStr} (hs : GoodSep sep) (hnl : sep ≠ ['\n']) (h : Hdr) (max : Nat) (m : RSchema) (e e' : RElem)
    (hc : RConforms (.list h true max m) e) (ps : List (PStr × PStr)) (hr : rSetFlat sep (.list h true max m) e (texts ps) = .ok e') :
    ∃ kids, e' = .list h.name kids ∧ ∃ idxs : List Nat, idxs.Pairwise (· < ·) ∧
      (∀ i, i ∈ idxs ↔ ∃ kv ∈ ps, kv.2 ≠ [] ∧ ∃ ck, Mentions sep h.name kv.1 i ck) ∧
      kids.length = min idxs.length max ∧
      ∀ (j : Nat) i k, idxs[j]? = some i → kids[j]? = some k →
        ∃ l, SubmittedFor sep h.name i (ps.filter fun x => x.2 != []) l ∧ rSetFlat sep m (rFresh m) l = .ok k := by
  obtain ⟨x, hx, rfl⟩ := rSetFlat_ok hc hr
  simp only [plainS] at hx
  obtain ⟨kids, rfl, _⟩ := C13_bounded sep h true max _ _ _ ps hx
  obtain ⟨idxs, h1, h2, h3, h4⟩ := C13_pruned hs hnl h max _ _ _ ps hx
  refine ⟨kids.map (raise m), by simp [raise, Elem.kids], idxs, h1, h2, by simpa using h3, fun j i k hi hk => ?_⟩
  simp only [List.getElem?_map, Option.map_eq_some_iff] at hk
  obtain ⟨k', hk', rfl⟩ := hk
  obtain ⟨l, hl1, hl2⟩ := h4 j i k' hi hk'
  refine ⟨l, hl1, ?_⟩
  rw [← raise_fresh, rSetFlat_raise sep m _ l (fresh_conforms _), hl2]
  rfl

/-- C86.  Without `prune_empty` the List has as many members as the largest submitted index demands, at most the maximum; member `j` is a new element filled
with what was submitted for index `j`. -/
theorem C86_list_unpruned {sep : PStr} (hs : GoodSep sep) (hnl : sep ≠ ['\n']) (h : Hdr) (max : Nat) (m : RSchema) (e e' : RElem)
    (hc : RConforms (.list h false max m) e) (ps : List (PStr × PStr)) (hr : rSetFlat sep (.list h false max m) e (texts ps) = .ok e') :
    ∃ kids, e' = .list h.name kids ∧ ((∀ kv ∈ ps, ∀ i ck, ¬ Mentions sep h.name kv.1 i ck) → kids = []) ∧
    (∀ M, (∃ kv ∈ ps, ∃ ck, Mentions sep h.name kv.1 M ck) → (∀ kv ∈ ps, ∀ i ck, Mentions sep h.name kv.1 i ck → i ≤ M) →
      kids.length = min (M + 1) max) ∧
    ∀ (j : Nat) k, kids[j]? = some k → ∃ l, SubmittedFor sep h.name j ps l ∧
      (l = [] → k = rFresh m) ∧ (l ≠ [] → rSetFlat sep m (rFresh m) l = .ok k) := by
  obtain ⟨x, hx, rfl⟩ := rSetFlat_ok hc hr
  simp only [plainS] at hx
  obtain ⟨kids, rfl, _⟩ := C13_bounded sep h false max _ _ _ ps hx
  obtain ⟨h1, h2, h3⟩ := C13_unpruned hs hnl h max _ _ _ ps hx
  refine ⟨kids.map (raise m), by simp [raise, Elem.kids], fun hno => by simp [h1 hno], fun M a b => by simpa using h2 M a b, fun j k hk => ?_⟩
  simp only [List.getElem?_map, Option.map_eq_some_iff] at hk
  obtain ⟨k', hk', rfl⟩ := hk
  obtain ⟨l, hl1, hl2, hl3⟩ := h3 j k' hk'
  refine ⟨l, hl1, fun h0 => by rw [hl2 h0, raise_fresh], fun h0 => ?_⟩
  rw [← raise_fresh, rSetFlat_raise sep m _ l (fresh_conforms _), hl3 h0]
  rfl

/-- C86.  A Dict or SparseDict: every field whose name does not prefix a submitted key (after the Dict's own prefix) is left alone; a field whose name does is set
from exactly those pairs, starting from what it was, or from a new element if it was not there. -/
theorem C86_dict_fields (sep : PStr) (h : Hdr) (mode : DictMode) (po : Policy) (fs : List RSchema) (kids : List RElem)
    (hc : RConforms (.dict h mode po fs) (.dict h.name kids)) (ps : List (PStr × PStr)) (e' : RElem)
    (hr : rSetFlat sep (.dict h mode po fs) (.dict h.name kids) (texts ps) = .ok e') :
    ∃ kids', e' = .dict h.name kids' ∧ kids'.length = fs.length ∧
      ∀ (i : Nat) f fn k k', fs[i]? = some f → f.name = some fn → kids[i]? = some k → kids'[i]? = some k' →
        ((∀ kv ∈ ps, ¬ fieldPrefix sep h.name ++ fn <+: kv.1) → k' = k) ∧
        ((∃ kv ∈ ps, fieldPrefix sep h.name ++ fn <+: kv.1) →
          ∃ start, (k = .plain .absent → start = rFresh f) ∧ (k ≠ .plain .absent → start = k) ∧
            rSetFlat sep f start (texts ((ps.filter fun kv => decide (fieldPrefix sep h.name ++ fn <+: kv.1)).map
              fun kv => (kv.1.drop (fieldPrefix sep h.name).length, kv.2))) = .ok k') := by
  obtain ⟨x, hx, rfl⟩ := rSetFlat_ok hc hr
  have hcl := conforms_lower _ _ hc
  simp only [plainS, lower] at hx hcl
  simp only [Conforms, true_and] at hcl
  simp only [RConforms, true_and] at hc
  have hlen : (lowerAll kids).length = (plainAll fs).length := conformsAll_length hcl
  have hpl : (plainAll fs).length = fs.length := by rw [plainAll_eq]; simp
  obtain ⟨kids', rfl, hlen', hall⟩ := dict_fields sep h mode po (plainAll fs) _ hlen ps x hx
  refine ⟨raiseAll fs kids', by simp [raise, Elem.kids], raiseAll_length fs kids' (by rw [hlen', hpl]), fun i f fn k k' hi hfn hk hk' => ?_⟩
  have hil : i < kids'.length := by
    rw [hlen', hpl]; exact (List.getElem?_eq_some_iff.1 hi).1
  have hx' := List.getElem?_eq_getElem hil
  generalize kids'[i] = y at hx'
  rw [raiseAll_get fs kids' i f y hi hx', Option.some.injEq] at hk'
  subst hk'
  have hpi : (plainAll fs)[i]? = some (plainS f) := by rw [plainAll_get, hi]; rfl
  have hli : (lowerAll kids)[i]? = some (lower k) := by rw [lowerAll_get, hk]; rfl
  obtain ⟨h1, h2⟩ := hall i (plainS f) fn (lower k) y hpi (by rw [plainS_name]; exact hfn) hli hx'
  have hkc := rAt_lower.rConformsAll_nth hc hi hk
  refine ⟨fun hno => ?_, fun hyes => ?_⟩
  · rw [h1 hno]
    rcases hkc with rfl | hkc
    · simp [lower, raise_absent]
    · exact raise_lower f k hkc
  · have h2 := h2 hyes
    have ho : rOrFresh f k = raise f (orFresh (plainS f) (lower k)) ∧ Conforms (plainS f) (orFresh (plainS f) (lower k)) := by
      rcases hkc with rfl | hkc
      · exact ⟨by simp [rOrFresh, RElem.present, Elem.present, lower, orFresh, raise_fresh], fresh_conforms _⟩
      · have hkl := conforms_lower f k hkc
        have hne := conforms_ne_absent hkl
        have ho : orFresh (plainS f) (lower k) = lower k := by
          cases hl : lower k <;> simp_all [orFresh]
        have hp : k.present = true := by
          rw [← raise_lower f k hkc, raise_present]
          cases hl : lower k <;> simp_all [Elem.present]
        rw [ho, raise_lower f k hkc]
        exact ⟨by simp [rOrFresh, hp], hkl⟩
    refine ⟨rOrFresh f k, fun hk => by rw [hk]; rfl, fun hk => ?_, ?_⟩
    · have hp : k.present = true := by
        cases k with
        | plain e => cases e <;> first | rfl | exact absurd rfl hk
        | _ => rfl
      rw [rOrFresh, if_pos hp]
    · rw [ho.1, rSetFlat_raise sep f _ _ ho.2, h2]
      rfl

end

/-! ### Concrete cases meeting the hypotheses -/

section Examples
attribute [local instance] Runtime.ascii
open RichExample

private def form : RSchema := .dict ⟨none, false, some .none⟩ .full .subset
  [tags, when_, .list (nm "notes") true 3 (.joined ⟨none, false, some .none⟩ cfg none)]
private def filled : RElem := .dict none
  [.joined (some "tags".toList) cfg none [st "old"], .compound (some "when".toList) compose [.scalar (some "y".toList) (st "1999"), .scalar (some "m".toList) (st "1")],
   .list (some "notes".toList) []]

example : RConforms form filled ∧ RWithinMax form filled := by
  simp [form, filled, tags, when_, part, nm, RConforms, RConformsAll, ConformsAll, Conforms, RWithinMax, RWithinMaxAll, WithinMaxAll, WithinMax]

example : RFieldOf sep form [0] "tags".toList (nm "tags") (.joined cfg none) ∧
    RFieldOf sep form [1, 0] "when_y".toList (nm "y") (.scalar (stringType false)) := by
  constructor
  · exact .unnamed rfl rfl (by simp [tags, RSchema.name, RSchema.hdr, nm]) (.joined rfl)
  · exact .unnamed rfl rfl (by simp [when_, RSchema.name, RSchema.hdr, nm])
      (.compound (.named (n := "when".toList) rfl rfl (by simp [part, Schema.name, Schema.hdr, nm]) (.here rfl)))

private theorem cfg_safe : JoinedSafe cfg := C86_joined_safe cfg (.inl (by decide)) (fun st x => ⟨true, rfl⟩)

example : RDeclared form ∧ ROneKey form ∧ RNeverRaises form := by
  have hp : ∀ st x, ∃ ok, (scalarSet (stringType false) st (.str x)).2 = .ok ok := fun st x => ⟨true, rfl⟩
  refine ⟨?_, ?_, ?_⟩
  · simp [form, tags, when_, part, RDeclared, RDeclaredAll, DeclaredAll, Declared, cfg_safe, TextSafe, hp]
  · simp [form, tags, when_, part, nm, ROneKey, ROneKeyAll, OneKeyAll, OneKey, cfg_safe, TextSafe, hp, RSchema.name, RSchema.hdr, Schema.name, Schema.hdr]
  · simp [form, tags, when_, part, nm, RNeverRaises, RNeverRaisesAll, NeverRaisesAll, NeverRaises, RBareMember, RSchema.name, RSchema.hdr, Schema.name, Schema.hdr]

-- a List of Compounds is not among them
example : ¬ RNeverRaises (.list (nm "l") true 3 when_) := by simp [RNeverRaises, RBareMember, when_]

-- tags and the second note are submitted, the date is not
example : rSetFlat sep form filled (texts [("notes_1".toList, "x,y".toList), ("tags".toList, "a,b".toList), ("tags".toList, "c".toList)]) = .ok (.dict none
    [.joined (some "tags".toList) cfg none [st "a", st "b"], .compound (some "when".toList) compose [.scalar (some "y".toList) (st "1999"), .scalar (some "m".toList) (st "1")],
     .list (some "notes".toList) [.joined none cfg none [st "x", st "y"]]]) := by rfl

end Examples

end Flatland
