import Verif.Proofs.RichSubmissions
import Verif.Spec.RichSubmissions
import Verif.Proofs.HalfWay
/-! Helper lemmas for C86 and C13: conditions on schemas carried over to the plain ones, Lists within their limits, positions. -/
namespace Flatland
open Spec

section
variable [Runtime]

theorem textSafe_joined (c : JoinedCfg) : TextSafe (joinedType c) ↔ JoinedSafe c := by
  constructor
  · intro h x
    obtain ⟨ok, hok⟩ := h .fresh x
    rcases joined_simulates c x .fresh with ⟨ms, b, h1, h2⟩ | ⟨ms, er, h1, h2⟩
    · exact ⟨b, by rw [h1]⟩
    · rw [h2] at hok; cases hok
  · intro h st x
    obtain ⟨ok, hok⟩ := h x
    rcases joined_simulates c x st with ⟨ms, b, h1, h2⟩ | ⟨ms, er, h1, h2⟩
    · exact ⟨true, by rw [h2]⟩
    · rw [h1] at hok; cases hok

mutual
theorem declared_plain : ∀ (s : RSchema), RDeclared s → Declared (plainS s)
  | .plain s, h => by simpa [RDeclared, plainS] using h
  | .joined _ c _, h => by simp only [plainS, Declared, RDeclared] at *; exact (textSafe_joined c).2 h
  | .compound _ _ fs, h => by simpa [RDeclared, plainS, Declared] using h
  | .dict _ _ _ fs, h => by
    simp only [RDeclared, plainS, Declared] at *
    exact ⟨by cases fs <;> simp_all [plainAll], declaredAll_plain fs h.2⟩
  | .list _ _ _ m, h => by simp only [RDeclared, plainS, Declared] at *; exact declared_plain m h
theorem declaredAll_plain : ∀ (fs : List RSchema), RDeclaredAll fs → DeclaredAll (plainAll fs)
  | [], _ => trivial
  | f :: fs, h => ⟨declared_plain f h.1, declaredAll_plain fs h.2⟩
end

theorem bareMember_plain : ∀ (s : RSchema), BareMember (plainS s) ↔ RBareMember s
  | .plain s => by simp [plainS, RBareMember]
  | .joined .. => by simp [plainS, RBareMember, BareMember]
  | .compound .. => by simp [plainS, RBareMember, BareMember]
  | .dict .. => by simp [plainS, RBareMember, BareMember]
  | .list .. => by simp [plainS, RBareMember, BareMember]

mutual
theorem neverRaises_plain : ∀ (s : RSchema), NeverRaises (plainS s) ↔ RNeverRaises s
  | .plain s => by simp [plainS, RNeverRaises]
  | .joined .. => by simp [plainS, RNeverRaises, NeverRaises]
  | .compound .. => by simp [plainS, RNeverRaises, NeverRaises]
  | .dict _ _ _ fs => by simp only [plainS, RNeverRaises, NeverRaises]; exact neverRaisesAll_plain fs
  | .list _ _ _ m => by simp only [plainS, RNeverRaises, NeverRaises, bareMember_plain]
theorem neverRaisesAll_plain : ∀ (fs : List RSchema), NeverRaisesAll (plainAll fs) ↔ RNeverRaisesAll fs
  | [] => by simp [plainAll, NeverRaisesAll, RNeverRaisesAll]
  | f :: fs => by simp only [plainAll, NeverRaisesAll, RNeverRaisesAll, plainS_name, neverRaises_plain f, neverRaisesAll_plain fs]
end

mutual
theorem oneKey_plain : ∀ (s : RSchema), ROneKey s → OneKey (plainS s)
  | .plain s, h => by simpa [ROneKey, plainS] using h
  | .joined _ c _, h => by simp only [plainS, OneKey, ROneKey] at *; exact (textSafe_joined c).2 h
  | .compound _ _ fs, h => by simpa [ROneKey, plainS, OneKey] using h
  | .dict _ _ _ fs, h => by simp only [ROneKey, plainS, OneKey] at *; exact oneKeyAll_plain fs h
  | .list _ _ _ m, h => by simp only [ROneKey, plainS, OneKey] at *; exact oneKey_plain m h
theorem oneKeyAll_plain : ∀ (fs : List RSchema), ROneKeyAll fs → OneKeyAll (plainAll fs)
  | [], _ => trivial
  | f :: fs, h => ⟨by rw [plainS_name]; exact h.1, oneKey_plain f h.2.1, oneKeyAll_plain fs h.2.2⟩
end

theorem namedMembers_plain {s : RSchema} (h : NamedMembers (plainS s)) : RNamedMembers s := by
  cases s <;> simp_all [plainS, NamedMembers, RNamedMembers]

/-! ### set_flat through the plain element -/

theorem rSetFlat_plain (sep : PStr) {s : RSchema} {e : RElem} (hc : RConforms s e) (ps : List FPair) :
    rSetFlat sep s e ps = (setFlat sep (plainS s) (lower e) ps).map (raise s) := by
  conv => lhs; rw [← raise_lower s e hc]
  exact rSetFlat_raise sep s _ ps (conforms_lower s e hc)

theorem rSetFlat_ok {sep : PStr} {s : RSchema} {e e' : RElem} (hc : RConforms s e) {ps : List FPair} (h : rSetFlat sep s e ps = .ok e') :
    ∃ x, setFlat sep (plainS s) (lower e) ps = .ok x ∧ e' = raise s x := by
  rw [rSetFlat_plain sep hc] at h
  cases hx : setFlat sep (plainS s) (lower e) ps with
  | error er => rw [hx] at h; cases h
  | ok x => rw [hx] at h; cases h; exact ⟨x, rfl, rfl⟩

theorem setFlat_conforms {sep : PStr} {s : Schema} {e e' : Elem} {ps : List FPair} (hc : Conforms s e) (h : setFlat sep s e ps = .ok e') : Conforms s e' := by
  have h1 := setFlatRun_outcome sep s e ps
  have h2 := setFlatRun_conforms sep s e ps hc
  rw [h] at h1
  rcases hr : setFlatRun sep s e ps with ⟨a, x⟩
  rw [hr] at h1 h2
  cases x <;> simp [Ended.outcome, Except.map] at h1
  exact h1 ▸ h2

/-! ### Lists within their limits -/

omit [Runtime] in
mutual
theorem withinMax_fresh : ∀ (s : Schema), WithinMax s (fresh s)
  | .scalar .. => by simp [fresh, WithinMax]
  | .dict _ mode _ fs => by simp only [fresh, WithinMax]; exact withinMax_freshFields mode fs
  | .list .. => by simp [fresh, WithinMax]
  | .array .. => by simp [fresh, WithinMax]
theorem withinMax_freshFields (mode : DictMode) : ∀ (fs : List Schema), WithinMaxAll fs (freshFields mode fs)
  | [] => by simp [freshFields, WithinMaxAll]
  | f :: fs => by
    simp only [freshFields, WithinMaxAll]
    refine ⟨?_, withinMax_freshFields mode fs⟩
    split
    · exact withinMax_fresh f
    · cases f <;> simp [WithinMax]
end

mutual
theorem setFlat_withinMax (sep : PStr) : ∀ (s : Schema) (e e' : Elem) (ps : List FPair), Conforms s e → WithinMax s e → setFlat sep s e ps = .ok e' → WithinMax s e'
  | .scalar h t, e, e', ps, _, _, hr => by
    simp only [setFlat, scalarSetFlat] at hr
    split at hr
    · cases hr; simp [WithinMax]
    · split at hr
      · cases hr; simp [WithinMax]
      · cases hr
  | .dict h mode po fs, e, e', ps, hc, hw, hr => by
    simp only [setFlat] at hr
    split at hr
    · cases hr
    · split at hr
      · cases hr; exact hw
      · split at hr
        · cases hr
        · rename_i kids hk
          cases hr
          simp only [WithinMax]
          cases e <;> simp only [Conforms] at hc
          simp only [WithinMax] at hw
          exact setFlatFields_withinMax sep mode fs _ _ _ hc.2 hw hk
  | .list h prune max m, e, e', ps, _, _, hr => by
    simp only [setFlat] at hr
    split at hr
    · cases hr
    · rename_i ms _
      split at hr
      · cases hr
      · rename_i kids hk
        cases hr
        simp only [WithinMax]
        obtain ⟨hlen, hall⟩ := mapM_ok hk
        refine ⟨?_, fun k hkm => ?_⟩
        · rw [hlen]
          split
          · simp
          · split
            · simp; omega
            · simp; omega
        · obtain ⟨j, hj⟩ := List.mem_iff_getElem?.1 hkm
          have hjl : j < kids.length := (List.getElem?_eq_some_iff.1 hj).1
          rw [hlen] at hjl
          have := hall j _ k (List.getElem?_eq_getElem hjl) hj
          generalize (subPairs ms _) = l at this
          by_cases hl : l.isEmpty = true
          · rw [if_pos hl] at this
            cases this; exact withinMax_fresh m
          · rw [if_neg hl] at this
            exact setFlat_withinMax sep m _ k _ (fresh_conforms m) (withinMax_fresh m) this
  | .array h prune m, e, e', ps, _, _, hr => by
    cases m with
    | scalar hm t =>
      simp only [setFlat] at hr
      split at hr
      · cases hr
      · cases hr; simp [WithinMax]
    | _ => simp [setFlat] at hr
theorem setFlatFields_withinMax (sep : PStr) (mode : DictMode) : ∀ (fs : List Schema) (ks ks' : List Elem) (ps : List FPair), ConformsAll mode fs ks → WithinMaxAll fs ks →
    setFlatFields sep fs ks ps = .ok ks' → WithinMaxAll fs ks'
  | [], ks, ks', ps, _, _, hr => by simp [WithinMaxAll]
  | f :: fs, [], ks', ps, hc, hw, hr => by simp [ConformsAll] at hc
  | f :: fs, k :: ks, ks', ps, hc, hw, hr => by
    simp only [setFlatFields] at hr
    split at hr
    · cases hr
    · split at hr
      · cases hr
      · rename_i kid' hkid
        split at hr
        · cases hr
        · rename_i rest hrest
          cases hr
          simp only [WithinMaxAll] at hw ⊢
          simp only [ConformsAll] at hc
          refine ⟨?_, setFlatFields_withinMax sep mode fs _ _ _ hc.2 hw.2 hrest⟩
          simp only [List.headD_cons] at hkid
          split at hkid
          · cases hkid; exact hw.1
          · rcases hc.1 with ⟨rfl, _⟩ | hk
            · exact setFlat_withinMax sep f _ _ _ (fresh_conforms f) (withinMax_fresh f) hkid
            · have ho : orFresh f k = k := by
                have := conforms_ne_absent hk
                cases k <;> simp_all [orFresh]
              rw [ho] at hkid
              exact setFlat_withinMax sep f _ _ _ hk hw.1 hkid
end

mutual
theorem withinMax_raise : ∀ (s : RSchema) (e : Elem), Conforms (plainS s) e → (RWithinMax s (raise s e) ↔ WithinMax (plainS s) e)
  | .plain s, e, h => by
    have hr : raise (.plain s) e = .plain e := by cases e <;> simp [raise]
    rw [hr]; simp [RWithinMax, plainS]
  | .joined hd c m, e, h => by
    cases e <;> simp [plainS, Conforms] at h
    simp [raise, RWithinMax, plainS, WithinMax]
  | .compound hd co fs, e, h => by
    cases e <;> simp [plainS, Conforms] at h
    simp [raise, RWithinMax, plainS, WithinMax, Elem.kids]
  | .dict hd mode po fs, e, h => by
    cases e <;> simp [plainS, Conforms] at h
    simp only [raise, RWithinMax, plainS, WithinMax, Elem.kids]
    exact withinMaxAll_raise mode fs _ h.2
  | .list hd pr ma m, e, h => by
    cases e <;> simp [plainS, Conforms] at h
    simp only [raise, RWithinMax, plainS, WithinMax, Elem.kids, List.length_map]
    refine and_congr Iff.rfl ⟨fun hh k hk => ?_, fun hh k hk => ?_⟩
    · exact (withinMax_raise m k (h.2 k hk)).1 (hh _ (List.mem_map.2 ⟨k, hk, rfl⟩))
    · obtain ⟨k', hk', rfl⟩ := List.mem_map.1 hk
      exact (withinMax_raise m k' (h.2 k' hk')).2 (hh k' hk')
theorem withinMaxAll_raise (mode : DictMode) : ∀ (fs : List RSchema) (ks : List Elem), ConformsAll mode (plainAll fs) ks →
    (RWithinMaxAll fs (raiseAll fs ks) ↔ WithinMaxAll (plainAll fs) ks)
  | [], [], _ => by simp [raiseAll, RWithinMaxAll, plainAll, WithinMaxAll]
  | f :: fs, k :: ks, h => by
    simp only [plainAll, ConformsAll] at h
    simp only [raiseAll, RWithinMaxAll, plainAll, WithinMaxAll]
    refine and_congr ?_ (withinMaxAll_raise mode fs ks h.2)
    rcases h.1 with ⟨rfl, h1⟩ | h1
    · rw [raise_absent]
      cases f <;> simp [RWithinMax, plainS, WithinMax]
    · exact withinMax_raise f k h1
  | [], _ :: _, h | _ :: _, [], h => by simp [plainAll, ConformsAll] at h
end

end

end Flatland
