import Verif.Proofs.Deferred
/-! C73: packages that load their submodules on first access. -/
namespace Flatland
open Spec

/-- What a name of the package stands for does not depend on what was accessed or imported before, except for submodules the package does not announce,
which have to be imported first. -/
theorem C73_access {f : Files} {p : Package} {initial : List PStr} (hp : PlainPackage f p initial) (n : Nat) (ops : List PkgOp) (k : PStr) :
    (¬ (Loaded f p initial ops k ∧ k ∉ initial) → (pkgAccess f p (n + 2) (pkgAfter f p (n + 2) initial ops) k).2 = pkgAnswer f p false k) ∧
    (Loaded f p initial ops k ∧ k ∉ initial → (pkgAccess f p (n + 2) (pkgAfter f p (n + 2) initial ops) k).2 = pkgAnswer f p true k) := by
  obtain ⟨hi, hl⟩ := after_inv hp n ops
  rw [(access_spec hp hi k n).2.2]
  exact ⟨fun h => by rw [decide_eq_false (fun h' => h ⟨(hl k).1 h'.1, h'.2⟩)], fun h => by rw [decide_eq_true ⟨(hl k).2 h.1, h.2⟩]⟩

/-- In particular a name the package announces has the same value, or raises the same, at all times. -/
theorem C73_same {f : Files} {p : Package} {initial : List PStr} (hp : PlainPackage f p initial) (n : Nat) (k : PStr) (hk : k ∈ allNames p)
    (ops ops' : List PkgOp) :
    (pkgAccess f p (n + 2) (pkgAfter f p (n + 2) initial ops) k).2 = (pkgAccess f p (n + 2) (pkgAfter f p (n + 2) initial ops') k).2 := by
  have hb : ∀ b c, pkgAnswer f p b k = pkgAnswer f p c k := by
    intro b c
    unfold pkgAnswer
    rcases mem_all.1 hk with h | h
    · simp only [h, ↓reduceIte]
    · cases ho : ownerOf p k with
      | none => exact absurd ho h
      | some o => rfl
  have hall : ∀ ops, (pkgAccess f p (n + 2) (pkgAfter f p (n + 2) initial ops) k).2 = pkgAnswer f p false k := by
    intro ops
    by_cases h : Loaded f p initial ops k ∧ k ∉ initial
    · rw [(C73_access hp n ops k).2 h, hb]
    · exact (C73_access hp n ops k).1 h
  rw [hall, hall]

/-- Nothing is loaded before it is asked for. -/
theorem C73_lazy {f : Files} {p : Package} {initial : List PStr} (hp : PlainPackage f p initial) (n : Nat) (ops : List PkgOp) (s : PStr) :
    s ∈ (pkgAfter f p (n + 2) initial ops).loaded ↔ Loaded f p initial ops s := (after_inv hp n ops).2 s

/-- dir() lists what can be announced or found, sorted and once each: all announced names, loaded or not. -/
theorem C73_dir {f : Files} {p : Package} {initial : List PStr} (hp : PlainPackage f p initial) (n : Nat) (ops : List PkgOp) :
    (∀ k, k ∈ pkgDir p (pkgAfter f p (n + 2) initial ops) ↔ ¬ "_deferred_module".toList <+: k ∧
      (k ∈ allNames p ∨ k ∈ p.std ∨ k ∈ dictKeys p.given ∨ Loaded f p initial ops k ∧ k ∉ initial)) ∧
    (pkgDir p (pkgAfter f p (n + 2) initial ops)).Pairwise fun a b => a < b := by
  obtain ⟨hi, hl⟩ := after_inv hp n ops
  generalize pkgAfter f p (n + 2) initial ops = st at hi hl ⊢
  constructor
  · intro k
    simp only [pkgDir, List.mem_filter, pySort, Bool.false_eq_true, ↓reduceIte, id, mem_stableSort, mem_distinct, List.mem_append]
    have : (k ∈ allNames p ∨ k ∈ dictKeys st.dict) ↔
        (k ∈ allNames p ∨ k ∈ p.std ∨ k ∈ dictKeys p.given ∨ Loaded f p initial ops k ∧ k ∉ initial) := by
      constructor
      · rintro (h | h)
        · exact .inl h
        · cases hd : dictGet st.dict k with
          | none => exact absurd h (dictGet_none.1 hd)
          | some v =>
            have ha := hi.sound k v hd
            unfold pkgAnswer at ha
            split at ha
            · exact .inr (.inl (by assumption))
            · cases hg : dictGet p.given k with
              | some x => exact .inr (.inr (.inl (Classical.byContradiction fun hc => by rw [not_given hc] at hg; cases hg)))
              | none =>
                rw [hg] at ha
                simp only [] at ha
                cases ho : ownerOf p k with
                | some o => exact .inl (mem_all.2 (.inr (by rw [ho]; simp)))
                | none =>
                  rw [ho] at ha
                  simp only [] at ha
                  split at ha
                  · exact .inl (mem_all.2 (.inl (by assumption)))
                  · split at ha
                    · rename_i hh
                      simp only [decide_eq_true_eq] at hh
                      exact .inr (.inr (.inr ⟨(hl k).1 hh.1, hh.2⟩))
                    · cases ha
      · have hin : ∀ v, dictGet st.dict k = some v → k ∈ dictKeys st.dict := fun v hv =>
          Classical.byContradiction fun hc => by rw [dictGet_none.2 hc] at hv; cases hv
        rintro (h | h | h | ⟨h, h'⟩)
        · exact .inl h
        · exact .inr (hin _ (hi.std k h))
        · by_cases hs : k ∈ p.std
          · exact .inr (hin _ (hi.std k hs))
          · cases hg : dictGet p.given k with
            | none => exact absurd h (dictGet_none.1 hg)
            | some v => exact .inr (hin _ (hi.given k v hs hg))
        · exact .inr (hin _ (hi.bound k ((hl k).2 h) h'))
    rw [this]
    rw [← List.isPrefixOf_iff_prefix]
    show _ ↔ ¬ hidden k = true ∧ _
    cases hidden k <;> simp
  · exact (List.Pairwise.filter _ (names_sorted _ (nodup_distinct _))).imp strLt_lt

/-- Everything `from package import *` asks for is had if each submodule can be imported and defines what is announced for it. -/
theorem C73_star {f : Files} {p : Package} {initial : List PStr} (hp : PlainPackage f p initial) (n : Nat) (ops : List PkgOp)
    (hload : ∀ e ∈ p.deferred, e.1 ∈ f.imports e.1) (hdef : ∀ k o, ownerOf p k = some o → f.member o k ≠ none) :
    ∃ l, (importStar f p (n + 2) (pkgAfter f p (n + 2) initial ops) (allNames p)).2 = .ok l ∧ l.map (·.1) = allNames p ∧
      ∀ e ∈ l, pkgAnswer f p false e.1 = .ok e.2 := by
  have hans : ∀ k ∈ allNames p, ∃ v, ∀ b, pkgAnswer f p b k = .ok v := by
    intro k hk
    unfold pkgAnswer
    by_cases hs : k ∈ p.std
    · exact ⟨.std k, fun b => by rw [if_pos hs]⟩
    · simp only [if_neg hs]
      cases dictGet p.given k with
      | some v => exact ⟨.val v, fun b => rfl⟩
      | none =>
        simp only []
        cases ho : ownerOf p k with
        | some o =>
          obtain ⟨e, he, heo⟩ := owner_listed ho
          have := hload e he
          rw [heo] at this
          simp only [this, ↓reduceIte]
          cases hm : f.member o k with
          | none => exact absurd hm (hdef k o ho)
          | some v => exact ⟨.val v, fun b => rfl⟩
        | none =>
          rcases mem_all.1 hk with h | h
          · obtain ⟨e, he, hek⟩ := h
            have hl := hload e he
            rw [hek] at hl
            have hli : Listed p k := ⟨e, he, hek⟩
            exact ⟨.module k, fun b => by simp only [hli, hl, ↓reduceIte]⟩
          · exact absurd ho h
  have hi := (after_inv hp n ops).1
  generalize pkgAfter f p (n + 2) initial ops = st at hi
  have key : ∀ (ks : List PStr) (st : PkgState), (∀ k ∈ ks, k ∈ allNames p) → PkgInv f p initial st →
      ∃ l, (importStar f p (n + 2) st ks).2 = .ok l ∧ l.map (·.1) = ks ∧ ∀ e ∈ l, pkgAnswer f p false e.1 = .ok e.2 := by
    intro ks
    induction ks with
    | nil => intro st _ _; exact ⟨[], rfl, rfl, fun e he => by cases he⟩
    | cons k r ih =>
      intro st hks hi
      obtain ⟨h1, _, h3⟩ := access_spec hp hi k n
      obtain ⟨v, hv⟩ := hans k (hks k (by simp))
      rw [hv] at h3
      cases hr : pkgAccess f p (n + 2) st k with
      | mk st' x =>
        rw [hr] at h1 h3
        simp only [] at h1 h3
        subst h3
        obtain ⟨l, hl1, hl2, hl3⟩ := ih st' (fun k' h => hks k' (by simp [h])) h1
        refine ⟨(k, v) :: l, ?_, by simp [hl2], ?_⟩
        · simp only [importStar, hr]
          cases hq : importStar f p (n + 2) st' r with
          | mk st'' y =>
            rw [hq] at hl1
            simp only [] at hl1
            subst hl1
            rfl
        · intro e he
          rcases List.mem_cons.1 he with rfl | he
          · exact hv false
          · exact hl3 e he
  exact key _ _ (fun k h => h) hi

/-- `from package import *` leaves the package as reading its names one after another does: all of them if it succeeds, and otherwise those up to the first
that raises, with what that one raises. -/
theorem C73_star_after (f : Files) (p : Package) (initial : List PStr) (fuel : Nat) (ops : List PkgOp) (ks : List PStr) :
    ∃ read, read <+: ks ∧
      (importStar f p fuel (pkgAfter f p fuel initial ops) ks).1 = pkgAfter f p fuel initial (ops ++ read.map .access) ∧
      (∀ l, (importStar f p fuel (pkgAfter f p fuel initial ops) ks).2 = .ok l → read = ks) ∧
      ∀ e, (importStar f p fuel (pkgAfter f p fuel initial ops) ks).2 = .error e →
        ∃ before k, read = before ++ [k] ∧ (pkgAccess f p fuel (pkgAfter f p fuel initial (ops ++ before.map .access)) k).2 = .error e := by
  induction ks generalizing ops with
  | nil => exact ⟨[], List.prefix_refl _, by simp [importStar], fun l _ => rfl, fun e h => by cases h⟩
  | cons k r ih =>
    have hstep : pkgAfter f p fuel initial (ops ++ [.access k]) = (pkgAccess f p fuel (pkgAfter f p fuel initial ops) k).1 := by
      simp [pkgAfter, pkgStep]
    cases hr : pkgAccess f p fuel (pkgAfter f p fuel initial ops) k with
    | mk st' x =>
      rw [hr] at hstep
      simp only [] at hstep
      cases x with
      | error e =>
        refine ⟨[k], ⟨r, rfl⟩, by simp only [importStar, hr]; exact hstep.symm, fun l h => (by simp only [importStar, hr] at h; cases h), fun e' h => ?_⟩
        simp only [importStar, hr] at h
        exact ⟨[], k, rfl, by simp only [List.map_nil, List.append_nil, hr]; cases h; rfl⟩
      | ok v =>
        obtain ⟨read, h1, h2, h3, h4⟩ := ih (ops ++ [.access k])
        rw [hstep] at h2 h3 h4
        refine ⟨k :: read, by simpa using h1, ?_⟩
        simp only [importStar, hr]
        cases hq : importStar f p fuel st' r with
        | mk st'' y =>
          rw [hq] at h2 h3 h4
          simp only [] at h2 h3 h4
          cases y with
          | ok l =>
            refine ⟨by simp only []; rw [h2]; simp, fun l' _ => by rw [h3 l rfl], fun e h => by cases h⟩
          | error e =>
            refine ⟨by simp only []; rw [h2]; simp, fun l' h => (by cases h), fun e' h => ?_⟩
            obtain ⟨before, k', hb, hk'⟩ := h4 e rfl
            cases h
            exact ⟨k :: before, k', by rw [hb]; rfl, by simpa using hk'⟩

/-- So after it every submodule the package announces is loaded, and what else those load, and no more than that. -/
theorem C73_star_loads {f : Files} {p : Package} {initial : List PStr} (hp : PlainPackage f p initial) (n : Nat) (ops : List PkgOp)
    (hload : ∀ e ∈ p.deferred, e.1 ∈ f.imports e.1) (hdef : ∀ k o, ownerOf p k = some o → f.member o k ≠ none) (s : PStr) :
    s ∈ (importStar f p (n + 2) (pkgAfter f p (n + 2) initial ops) (allNames p)).1.loaded ↔
      Loaded f p initial (ops ++ (allNames p).map .access) s := by
  obtain ⟨l, hl, _⟩ := C73_star hp n ops hload hdef
  obtain ⟨read, _, h2, h3, _⟩ := C73_star_after f p initial (n + 2) ops (allNames p)
  rw [h2, h3 l hl]
  exact C73_lazy hp n _ s

/-- flatland.util is such a package; its submodule `deferred` is loaded before. -/
theorem C73_util_plain : PlainPackage utilFiles utilPackage ["deferred".toList] := by
  have himp : ∀ s t, t ∈ utilFiles.imports s → t = s ∧ (s = "base".toList ∨ s = "deferred".toList) := by
    intro s t h
    simp only [utilFiles] at h
    split at h
    · exact ⟨by simpa using h, by assumption⟩
    · cases h
  refine ⟨?_, ?_, ?_, by decide⟩
  · have hb : ∀ s, s = "base".toList ∨ s = "deferred".toList → ownerOf utilPackage s = none ∧ s ∉ utilPackage.std ∧ s ∉ dictKeys utilPackage.given := by
      rintro s (rfl | rfl) <;> decide +kernel
    rintro s (h | ⟨e, he, rfl⟩)
    · exact hb s (himp s s h).2
    · simp only [utilPackage, List.mem_cons, List.not_mem_nil, or_false] at he
      rcases he with rfl | rfl
      · exact hb _ (.inl rfl)
      · exact hb _ (.inr rfl)
  · intro s t h
    obtain ⟨rfl, _⟩ := himp s t h
    exact ⟨h, fun u hu => hu⟩
  · intro s h
    simp only [List.mem_singleton] at h
    subst h
    decide +kernel

/-- `flatland.util.decorator` and `flatland.util.format_argspec_plus` are announced but cannot be had, at any time: base.py has no such members. -/
theorem C73_util_missing (n : Nat) (ops : List PkgOp) (k : PStr) (hk : k = "decorator".toList ∨ k = "format_argspec_plus".toList) :
    k ∈ allNames utilPackage ∧
    (pkgAccess utilFiles utilPackage (n + 2) (pkgAfter utilFiles utilPackage (n + 2) ["deferred".toList] ops) k).2 = .error (.noMember "base".toList k) := by
  have h1 : k ∈ allNames utilPackage := by rcases hk with rfl | rfl <;> decide +kernel
  refine ⟨h1, ?_⟩
  rw [C73_same C73_util_plain n k h1 ops []]
  have h := (C73_access C73_util_plain n [] k).1 (by
    rintro ⟨h | ⟨op, ho, _⟩, h'⟩
    · exact h' h
    · cases ho)
  rw [h]
  rcases hk with rfl | rfl <;> decide +kernel

/-- so `from flatland.util import *` raises -/
theorem C73_util_star_fails : (importStar utilFiles utilPackage 1000 (pkgStart utilPackage ["deferred".toList]) (allNames utilPackage)).2 =
    .error (.noMember "base".toList "decorator".toList) := by decide +kernel

/-- A submodule with the name of a member: the name stands for one or the other, by what was imported first. -/
theorem C73_clash : ∃ (f : Files) (p : Package) (k : PStr), k ∈ allNames p ∧
    (pkgAccess f p 1000 (pkgAfter f p 1000 [] []) k).2 = .ok (.val (.int 1)) ∧
    (pkgAccess f p 1000 (pkgAfter f p 1000 [] [.import_ k]) k).2 = .ok (.module k) :=
  ⟨⟨fun s => [s], fun _ _ => some (.int 1)⟩, ⟨[("base".toList, ["symbol".toList])], [], []⟩, "symbol".toList, by decide +kernel⟩

/-- A member with the name of its own submodule: recursion without end, whatever Python allows. -/
theorem C73_own_name (f : Files) (s : PStr) (fuel : Nat) :
    (pkgAccess f ⟨[(s, [s])], [], []⟩ fuel (pkgStart ⟨[(s, [s])], [], []⟩ []) s).2 = .error .recursion := by
  have hst : pkgStart ⟨[(s, [s])], [], []⟩ [] = ⟨[], []⟩ := rfl
  rw [hst]
  have hp : dictGet (pushedUp ⟨[(s, [s])], [], []⟩) s = some s := by simp [pushedUp, dictPut, dictGet]
  have : pkgAccess f ⟨[(s, [s])], [], []⟩ fuel ⟨[], []⟩ s = (⟨[], []⟩, .error .recursion) := by
    induction fuel with
    | zero => rw [pkgAccess.eq_def]; rfl
    | succ n ih => rw [pkgAccess.eq_def]; simp only [dictGet, hp, ih]
  rw [this]

section Examples

/-- the program: a name, then the module; `base` is not loaded before the first -/
example : (pkgAfter utilFiles utilPackage 1000 ["deferred".toList] [.access "deferred_module".toList]).loaded = ["deferred".toList] := by decide +kernel

example : (pkgAfter utilFiles utilPackage 1000 ["deferred".toList] [.access "luhn10".toList]).loaded = ["deferred".toList, "base".toList] := by decide +kernel

example : pkgAnswer utilFiles utilPackage false "luhn10".toList = .ok (.val (.str "luhn10".toList)) := by decide +kernel

/-- a package whose every announced name can be had, with an unannounced submodule -/
private def small : Package := ⟨[("a".toList, ["x".toList, "y".toList]), ("b".toList, ["y".toList])], [("v".toList, .int 3)], ["__name__".toList]⟩
private def smallFiles : Files := ⟨fun s => if s = "a".toList then ["c".toList, "a".toList] else if s = "b".toList ∨ s = "c".toList then [s] else [],
  fun s k => some (.str (s ++ k))⟩

example : (importStar smallFiles small 1000 (pkgStart small []) (allNames small)).2 = .ok
    [("a".toList, .module "a".toList), ("x".toList, .val (.str "ax".toList)), ("y".toList, .val (.str "by".toList)), ("b".toList, .module "b".toList),
      ("y".toList, .val (.str "by".toList))] := by decide +kernel

example : PlainPackage smallFiles small [] ∧ (∀ e ∈ small.deferred, e.1 ∈ smallFiles.imports e.1) ∧
    ∀ k o, ownerOf small k = some o → smallFiles.member o k ≠ none := by
  have himp : ∀ s t, t ∈ smallFiles.imports s →
      (s = "a".toList ∧ (t = "c".toList ∨ t = "a".toList)) ∨ (s = t ∧ (s = "b".toList ∨ s = "c".toList)) := by
    intro s t h
    simp only [smallFiles] at h
    split at h
    · exact .inl ⟨by assumption, by simpa using h⟩
    · split at h
      · exact .inr ⟨by simpa [eq_comm] using h, by assumption⟩
      · cases h
  refine ⟨⟨?_, ?_, by simp, by decide⟩, by decide +kernel, fun k o _ => by simp [smallFiles]⟩
  · have hb : ∀ s, s = "a".toList ∨ s = "b".toList ∨ s = "c".toList → ownerOf small s = none ∧ s ∉ small.std ∧ s ∉ dictKeys small.given := by
      rintro s (rfl | rfl | rfl) <;> decide +kernel
    rintro s (h | ⟨e, he, rfl⟩)
    · rcases himp s s h with ⟨h, _⟩ | ⟨_, h | h⟩
      · exact hb s (.inl h)
      · exact hb s (.inr (.inl h))
      · exact hb s (.inr (.inr h))
    · simp only [small, List.mem_cons, List.not_mem_nil, or_false] at he
      rcases he with rfl | rfl
      · exact hb _ (.inl rfl)
      · exact hb _ (.inr (.inl rfl))
  · intro s t h
    rcases himp s t h with ⟨rfl, rfl | rfl⟩ | ⟨rfl, rfl | rfl⟩ <;> decide +kernel

/-- afterwards all is loaded, and where it fails, what was asked for up to there -/
example : (importStar smallFiles small 1000 (pkgStart small []) (allNames small)).1.loaded = ["c".toList, "a".toList, "b".toList] ∧
    (importStar utilFiles utilPackage 1000 (pkgStart utilPackage ["deferred".toList]) (allNames utilPackage)).1.loaded =
      ["deferred".toList, "base".toList] := by decide +kernel

/-- `c` is there once something has imported it -/
example : (pkgAccess smallFiles small 1000 (pkgAfter smallFiles small 1000 [] []) "c".toList).2 = .error (.noAttribute "c".toList) ∧
    (pkgAccess smallFiles small 1000 (pkgAfter smallFiles small 1000 [] [.access "x".toList]) "c".toList).2 = .ok (.module "c".toList) := by decide +kernel

end Examples

end Flatland
