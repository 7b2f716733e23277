import Verif.Model.FlatSources
import Verif.Spec.Paths

/-! ## C75 – where the pairs of a submission may come from -/

namespace Flatland
open Spec

namespace Spec

/-- the pairs behind what was passed -/
def FlatArg.given : FlatArg → List FPair
  | .sequence ps | .iterator ps => ps
  | .mapping items => items.pairs

/-- can be gone through more than once: a list, a tuple, a dictionary -/
def FlatArg.Repeatable : FlatArg → Prop
  | .sequence _ => True
  | .iterator _ => False
  | .mapping items => items.oneShot = false

/-- a form without a name -/
def UnnamedMapping : Schema → Prop
  | .dict h _ _ _ => h.name = .none
  | _ => False

end Spec

section
variable [Runtime]

theorem setFlatFieldsFrom_again (sep : PStr) (ps : List FPair) : ∀ (fs : List Schema) (kids : List Elem),
    setFlatFieldsFrom sep fs kids ⟨ps, false⟩ = setFlatFields sep fs kids ps
  | [], _ => by simp [setFlatFieldsFrom, setFlatFields]
  | f :: fs, kids => by
    rw [setFlatFieldsFrom, setFlatFields]
    simp only [PairSource.read, Bool.false_eq_true, if_false]
    rw [setFlatFieldsFrom_again sep ps fs kids.tail]
    rfl

theorem setFlatFieldsFrom_empty (sep : PStr) (b : Bool) : ∀ (fs : List Schema) (kids : List Elem), kids.length = fs.length →
    setFlatFieldsFrom sep fs kids ⟨[], b⟩ = .ok kids
  | [], [], _ => by simp [setFlatFieldsFrom]
  | f :: fs, k :: ks, h => by
    have : (PairSource.mk [] b).read.2 = ⟨[], b⟩ := by cases b <;> rfl
    rw [setFlatFieldsFrom]
    simp only [this, List.tail_cons, List.headD_cons]
    rw [setFlatFieldsFrom_empty sep b fs ks (by simpa using h)]
    simp [PairSource.read, accumField]
  | [], _ :: _, h => by simp at h
  | _ :: _, [], h => by simp at h

omit [Runtime] in
theorem FlatArg.source_pairs (arg : FlatArg) : arg.source.pairs = FlatArg.given arg := by
  cases arg <;> rfl

/-- **C75.** A submission may be passed as a list or tuple of pairs or as a dictionary: every element does the same with them, namely what it
does with the list of the pairs. -/
theorem C75_repeatable (sep : PStr) (s : Schema) (e : Elem) (arg : FlatArg) (h : FlatArg.Repeatable arg) :
    setFlatArg sep s e arg = setFlat sep s e (FlatArg.given arg) := by
  have hsrc : arg.source = ⟨FlatArg.given arg, false⟩ := by
    cases arg with
    | sequence ps => rfl
    | iterator ps => exact h.elim
    | mapping items => obtain ⟨ps, b⟩ := items; simp only [FlatArg.Repeatable] at h; subst h; rfl
  cases s with
  | scalar hd t => simp [setFlatArg, hsrc, PairSource.read]
  | array hd pr m => simp [setFlatArg, hsrc, PairSource.read]
  | list hd pr mx m =>
    simp only [setFlatArg, hsrc, PairSource.read, PairSource.truthy]
    by_cases hp : FlatArg.given arg = []
    · simp only [hp]
      unfold setFlat
      simp [listMatches, pure, Except.pure]
    · have : (FlatArg.given arg).isEmpty = false := by simpa using hp
      simp [this]
  | dict hd md pol fields =>
    simp only [setFlatArg, hsrc, PairSource.read, PairSource.truthy]
    cases hn : hd.name with
    | some n => simp
    | none =>
      simp only [setFlatFieldsFrom_again]
      conv => rhs; unfold setFlat
      simp only [hn, dictPossibles]
      cases FlatArg.given arg with
      | nil => simp
      | cons p ps =>
        simp only [List.isEmpty_cons, Bool.or_false, Bool.not_false, Bool.not_true, Bool.or_true, Bool.false_eq_true, if_false]
        generalize setFlatFields sep fields e.kids (p :: ps) = r
        cases r <;> rfl

/-- **C75 (iterators).** An iterator, too, unless the element is a mapping without a name. -/
theorem C75_iterator (sep : PStr) (s : Schema) (e : Elem) (arg : FlatArg) (h : ¬ UnnamedMapping s) :
    setFlatArg sep s e arg = setFlat sep s e (FlatArg.given arg) := by
  have hp : arg.source.read.1 = FlatArg.given arg := arg.source_pairs
  cases s with
  | scalar hd t => simp [setFlatArg, hp]
  | array hd pr m => simp [setFlatArg, hp]
  | list hd pr mx m =>
    simp only [setFlatArg, hp]
    by_cases ht : arg.source.truthy = true
    · simp [ht]
    · have : FlatArg.given arg = [] := by
        rw [← arg.source_pairs]
        simp only [PairSource.truthy, Bool.or_eq_true, not_or, Bool.not_eq_true, Bool.not_eq_false', List.isEmpty_iff] at ht
        exact ht.2
      simp only [this]
      unfold setFlat
      simp [ht, listMatches, pure, Except.pure]
  | dict hd md pol fields =>
    cases hn : hd.name with
    | none => exact absurd hn h
    | some n => simp [setFlatArg, hn, hp]

/-- **C75 (the limit).** A mapping without a name – the usual form – that is given an iterator sets its first field as it should, and no other:
whatever the submission says about the other fields is lost. -/
theorem C75_first_field_only (sep : PStr) (hd : Hdr) (hn : hd.name = .none) (md : DictMode) (pol : Policy) (f : Schema) (fs : List Schema)
    (n : Option PStr) (kid : Elem) (kids : List Elem) (hlen : kids.length = fs.length) (ps : List FPair) (hps : ps ≠ [])
    (kid' : Elem) (kids' : List Elem) (h : setFlat sep (.dict hd md pol (f :: fs)) (.dict n (kid :: kids)) ps = .ok (.dict .none (kid' :: kids'))) :
    setFlatArg sep (.dict hd md pol (f :: fs)) (.dict n (kid :: kids)) (.iterator ps) = .ok (.dict .none (kid' :: kids)) := by
  have he : ps.isEmpty = false := by simpa using hps
  unfold setFlat at h
  simp only [hn, dictPossibles, he, Bool.false_eq_true, if_false, Elem.kids] at h
  rw [setFlatFields] at h
  simp only [setFlatArg, hn, FlatArg.source, PairSource.truthy, Bool.true_or, Bool.not_true, Bool.false_eq_true, if_false, Elem.kids]
  rw [setFlatFieldsFrom]
  simp only [PairSource.read, if_true, List.tail_cons, List.headD_cons] at h ⊢
  rw [setFlatFieldsFrom_empty sep true fs kids hlen]
  revert h
  generalize accumField f.name ps = a
  cases a with
  | error er => intro h; simp at h
  | ok accum =>
    simp only
    generalize (if accum.isEmpty = true then Except.ok kid else setFlat sep f (orFresh f kid) accum) = r
    cases r with
    | error er => intro h; simp at h
    | ok k =>
      simp only
      generalize setFlatFields sep fs kids ps = q
      cases q with
      | error er => intro h; simp at h
      | ok rest => intro h; simp at h; simp [h.1]

end

section
attribute [local instance] Runtime.ascii

/-- a form of two Strings, without a name -/
private def twoStrings : Schema :=
  .dict ⟨.none, false, some .none⟩ .full .subset
    [.scalar ⟨some ['a'], false, some .none⟩ (stringType true), .scalar ⟨some ['b'], false, some .none⟩ (stringType true)]

private def twoPairs : List FPair := [(some ['b'], ['2']), (some ['a'], ['1'])]

/-- from a list both fields are set -/
example : (setFlatArg ['_'] twoStrings (fresh twoStrings) (.sequence twoPairs)).toOption.map (fun e => e.kids.map fun k => k.state.u) =
    some [['1'], ['2']] := by decide

/-- an iterator over the same pairs sets the first one only -/
theorem C75_lost : (setFlatArg ['_'] twoStrings (fresh twoStrings) (.iterator twoPairs)).toOption.map (fun e => e.kids.map fun k => k.state.u) =
    some [['1'], []] := by decide

/-- the hypotheses of `C75_first_field_only` are met by it -/
example : ∃ k ks k' ks', fresh twoStrings = .dict .none (k :: ks) ∧ ks.length = 1 ∧
    setFlat ['_'] twoStrings (fresh twoStrings) twoPairs = .ok (.dict .none (k' :: ks')) :=
  ⟨_, _, _, _, rfl, rfl, rfl⟩

end

end Flatland
