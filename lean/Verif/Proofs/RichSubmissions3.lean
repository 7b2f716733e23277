import Verif.Proofs.RichSubmissions2
/-! Helper lemmas for C86: fields, and members of Lists, of elements and of the plain elements standing for them. -/
namespace Flatland
open Spec

section
variable [Runtime]

/-- the scalar class standing for a field -/
def Spec.Leaf.type : Leaf → ScalarType
  | .scalar t => t
  | .joined c _ => joinedType c

/-- the field a scalar stands for -/
def Spec.Leaf.raise (h : Hdr) : Leaf → Elem → RElem
  | .scalar _, y => .plain y
  | .joined c m, y => .joined h.name c m (keptMembers c y.state)

theorem plainAll_get (fs : List RSchema) (i : Nat) : (plainAll fs)[i]? = (fs[i]?).map plainS := by
  rw [plainAll_eq]; simp

theorem raiseAll_get : ∀ (fs : List RSchema) (ks : List Elem) (i : Nat) (f : RSchema) (k : Elem), fs[i]? = some f → ks[i]? = some k →
    (raiseAll fs ks)[i]? = some (raise f k)
  | [], _, i, f, k, h, _ => by simp at h
  | f₀ :: fs, [], i, f, k, _, h => by simp at h
  | f₀ :: fs, k₀ :: ks, 0, f, k, h1, h2 => by
    simp at h1 h2
    subst h1; subst h2
    simp [raiseAll]
  | f₀ :: fs, k₀ :: ks, i + 1, f, k, h1, h2 => by
    simp at h1 h2
    simp only [raiseAll, List.getElem?_cons_succ]
    exact raiseAll_get fs ks i f k h1 h2

omit [Runtime] in
theorem lowerAll_get (ks : List RElem) (i : Nat) : (lowerAll ks)[i]? = (ks[i]?).map lower := by
  rw [lowerAll_eq]; simp

theorem raiseAll_length : ∀ (fs : List RSchema) (ks : List Elem), ks.length = fs.length → (raiseAll fs ks).length = fs.length
  | [], [], _ => rfl
  | _ :: fs, _ :: ks, h => by
    simp only [raiseAll, List.length_cons, Nat.add_right_cancel_iff] at h ⊢
    exact raiseAll_length fs ks h
  | [], _ :: _, h | _ :: _, [], h => by simp at h

theorem fieldOf_plain {sep : PStr} {s : RSchema} {p : Pos} {key : PStr} {h : Hdr} {l : Leaf} (hf : RFieldOf sep s p key h l) :
    FieldOf sep (plainS s) p key h l.type := by
  induction hf with
  | plain hf => exact hf
  | compound hf => exact hf
  | joined hn => exact .here hn
  | unnamed hn hi hfn _ ih =>
    simp only [plainS]
    exact .unnamed hn (by rw [plainAll_get, hi]; rfl) (by rw [plainS_name]; exact hfn) ih
  | named hn hi hfn _ ih =>
    simp only [plainS]
    exact .named hn (by rw [plainAll_get, hi]; rfl) (by rw [plainS_name]; exact hfn) ih

omit [Runtime] in
theorem conformsAll_nth {mode : DictMode} : ∀ {fs : List Schema} {ks : List Elem}, ConformsAll mode fs ks → ∀ {i : Nat} {f : Schema} {k : Elem},
    fs[i]? = some f → ks[i]? = some k → (k = .absent ∧ autoField mode f = false) ∨ Conforms f k
  | [], [], _, i, f, k, h, _ => by simp at h
  | f₀ :: fs, k₀ :: ks, hc, 0, f, k, h1, h2 => by
    simp at h1 h2
    subst h1; subst h2
    exact hc.1
  | f₀ :: fs, k₀ :: ks, hc, i + 1, f, k, h1, h2 => by
    simp at h1 h2
    exact conformsAll_nth hc.2 h1 h2
  | [], _ :: _, h, _, _, _, _, _ | _ :: _, [], h, _, _, _, _, _ => by simp [ConformsAll] at h

theorem rAt_raise {sep : PStr} {s : RSchema} {p : Pos} {key : PStr} {h : Hdr} {l : Leaf} (hf : RFieldOf sep s p key h l) :
    ∀ (x : Elem) (_ : Conforms (plainS s) x) (y : Elem) (_ : elemAt x p = some y), rAt (raise s x) p = some (l.raise h y) := by
  induction hf with
  | @plain s p key h t hf =>
    intro x hc y hy
    have hr : raise (.plain s) x = .plain x := by cases x <;> simp [raise]
    rw [hr]
    simp [rAt, hy, Leaf.raise]
  | @compound hc co fs p key h t hf =>
    intro x hx y hy
    cases x <;> simp [plainS, Conforms] at hx
    rename_i n ks
    have hpe : ∃ i q, p = i :: q := by
      cases hf with
      | unnamed => exact ⟨_, _, rfl⟩
      | named => exact ⟨_, _, rfl⟩
    obtain ⟨i, q, rfl⟩ := hpe
    rw [hx.1] at hy
    simp only [raise, Elem.kids, rAt, hy, Option.map_some, Leaf.raise]
  | @joined h c m n hn =>
    intro x hx y hy
    cases x <;> simp [plainS, Conforms] at hx
    simp only [elemAt, Option.some.injEq] at hy
    subst hy
    simp [raise, rAt, Leaf.raise]
  | @unnamed h mode po fs i f p key hd l hn hi hfn _ ih | @named h mode po fs i f p key hd l n hn hi hfn _ ih =>
    intro x hx y hy
    cases x <;> simp [plainS, Conforms] at hx
    rename_i n ks
    simp only [elemAt, Elem.kids] at hy
    cases hk : ks[i]? with
    | none => rw [hk] at hy; cases hy
    | some k =>
      rw [hk] at hy
      simp only at hy
      simp only [raise, Elem.kids, rAt, raiseAll_get fs ks i f k hi hk]
      rcases conformsAll_nth hx.2 (by rw [plainAll_get, hi]; rfl) hk with ⟨rfl, _⟩ | hkc
      · simp [elemAt] at hy
      · exact ih k hkc y hy

omit [Runtime] in
theorem rAt_lower {sep : PStr} {s : RSchema} {p : Pos} {key : PStr} {h : Hdr} {l : Leaf} (hf : RFieldOf sep s p key h l) :
    ∀ (e : RElem) (_ : RConforms s e) (r : RElem) (_ : rAt e p = some r), elemAt (lower e) p = some (lower r) := by
  induction hf with
  | @plain s p key h t hf =>
    intro e hc r hr
    cases e <;> simp [RConforms] at hc
    simp only [rAt, Option.map_eq_some_iff] at hr
    obtain ⟨y, hy, rfl⟩ := hr
    simp only [lower, hy]
  | @compound hc co fs p key h t hf =>
    intro e hx r hr
    cases e <;> simp [RConforms] at hx
    have hpe : ∃ i q, p = i :: q := by
      cases hf with
      | unnamed => exact ⟨_, _, rfl⟩
      | named => exact ⟨_, _, rfl⟩
    obtain ⟨i, q, rfl⟩ := hpe
    simp only [rAt, Option.map_eq_some_iff] at hr
    obtain ⟨y, hy, rfl⟩ := hr
    simp only [lower, hy]
  | @joined h c m n hn =>
    intro e hx r hr
    cases e <;> simp [RConforms] at hx
    simp only [rAt, Option.some.injEq] at hr
    subst hr
    simp [lower, elemAt]
  | @unnamed h mode po fs i f p key hd l hn hi hfn _ ih | @named h mode po fs i f p key hd l n hn hi hfn _ ih =>
    intro e hx r hr
    cases e <;> simp [RConforms] at hx
    rename_i n ks
    simp only [rAt] at hr
    cases hk : ks[i]? with
    | none => rw [hk] at hr; cases hr
    | some k =>
      rw [hk] at hr
      simp only at hr
      simp only [lower, elemAt, Elem.kids, lowerAll_get, hk, Option.map_some]
      rcases rConformsAll_nth hx.2 hi hk with rfl | hkc
      · simp [rAt, elemAt] at hr
      · exact ih k hkc r hr
where
  rConformsAll_nth {mode : DictMode} : ∀ {fs : List RSchema} {ks : List RElem}, RConformsAll mode fs ks → ∀ {i : Nat} {f : RSchema} {k : RElem},
    fs[i]? = some f → ks[i]? = some k → k = .plain .absent ∨ RConforms f k
  | [], [], _, i, f, k, h, _ => by simp at h
  | f₀ :: fs, k₀ :: ks, hc, 0, f, k, h1, h2 => by
    simp at h1 h2
    subst h1; subst h2
    simp only [RConformsAll] at hc
    exact hc.1.imp And.left id
  | f₀ :: fs, k₀ :: ks, hc, i + 1, f, k, h1, h2 => by
    simp at h1 h2
    simp only [RConformsAll] at hc
    exact rConformsAll_nth hc.2 h1 h2
  | [], _ :: _, h, _, _, _, _, _ | _ :: _, [], h, _, _, _, _, _ => by simp [RConformsAll] at h

theorem rField_after {sep : PStr} {s : RSchema} {p : Pos} {key : PStr} {h : Hdr} {l : Leaf} (hf : RFieldOf sep s p key h l)
    (e : RElem) (hc : RConforms s e) (before : RElem) (hb : rAt e p = some before) (ps : List (PStr × PStr)) (e' : RElem)
    (hset : rSetFlat sep s e (texts ps) = .ok e') :
    ∃ after, rAt e' p = some after ∧ FieldBecomes h l before (submitted key ps) after := by
  obtain ⟨x, hx, rfl⟩ := rSetFlat_ok hc hset
  have hcl := conforms_lower s e hc
  have hbl := rAt_lower hf e hc before hb
  have hp := fieldOf_plain hf
  obtain ⟨st, hst⟩ := fieldOf_elem hp _ hcl _ hbl
  obtain ⟨st', h1, h2, h3⟩ := field_after hp _ hcl _ st (hst ▸ hbl) ps x hx
  have hr := rAt_raise hf x (setFlat_conforms hcl hx) _ h1
  have hb2 := rAt_raise hf (lower e) hcl _ hbl
  rw [raise_lower s e hc, hb, Option.some.injEq] at hb2
  refine ⟨_, hr, ?_⟩
  cases l with
  | scalar t =>
    simp only [Leaf.raise] at hb2
    rw [hst] at hb2
    exact ⟨_, st, st', hb2, rfl, h2, h3⟩
  | joined c m =>
    simp only [Leaf.raise, Elem.state] at hb2 ⊢
    rw [hst] at hb2
    simp only at hb2
    cases hs : submitted key ps with
    | none =>
      refine ⟨_, hb2, ?_⟩
      rw [hs] at h2
      simp only [afterSubmission] at h2
      rw [hb2]
      simp [keptMembers, h2]
    | some v =>
      refine ⟨⟨_, hb2⟩, ?_⟩
      rw [hs] at h2
      simp only [afterSubmission, Leaf.type] at h2
      have : (scalarSet (joinedType c) st (.str v)).1.value = .str v := by
        simp only [scalarSet, joinedType]
        rcases joinedSet c [] (.str v) with ⟨ms, er | b⟩ <;> rfl
      rw [this] at h2
      simp [keptMembers, h2]

end

end Flatland
