import Verif.Spec.Compounds
import Verif.Proofs.Temporal
import Verif.Proofs.Slices
/-! Lemmas about compound dates and joined strings. -/
namespace Flatland
open Spec

section
variable [Runtime]

/-! ### dates -/

theorem padNat_digit {w n : Nat} {c : Char} (h : c ∈ padNat w n) : ∃ d, digit c = some d := by
  obtain ⟨d, hd, rfl⟩ := padNat_mem h
  exact ⟨d, digit_digitChar hd⟩

theorem field_digit {w s n} (h : Field w s n) {c : Char} (hc : c ∈ s) : ∃ d, digit c = some d := digitText_mem h.1 hc

/-- a number shown by `%0<w>i` begins like a run of digits only if it is one -/
theorem padInt_field {w v : Nat} {i : Int} {Y rest rest' : PStr} {n : Nat} (hY : Field w Y n) (hw : 0 < w) (h : padInt v i ++ '-' :: rest = Y ++ '-' :: rest') :
    i = n ∧ rest = rest' := by
  cases i with
  | ofNat k =>
    have hsplit : ∀ (a b r r' : PStr), (∀ c ∈ a, ∃ d, digit c = some d) → (∀ c ∈ b, ∃ d, digit c = some d) → a ++ '-' :: r = b ++ '-' :: r' → a = b ∧ r = r' := by
      intro a
      induction a with
      | nil =>
        intro b r r' _ hb he
        cases b with
        | nil => simpa using he
        | cons c b =>
          simp only [List.nil_append, List.cons_append, List.cons.injEq] at he
          obtain ⟨d, hd⟩ := hb c (by simp)
          rw [← he.1, Runtime.minus_not_digit] at hd; cases hd
      | cons c a ih =>
        intro b r r' ha hb he
        cases b with
        | nil =>
          simp only [List.nil_append, List.cons_append, List.cons.injEq] at he
          obtain ⟨d, hd⟩ := ha c (by simp)
          rw [he.1, Runtime.minus_not_digit] at hd; cases hd
        | cons c' b =>
          simp only [List.cons_append, List.cons.injEq] at he
          have := ih b r r' (fun x hx => ha x (by simp [hx])) (fun x hx => hb x (by simp [hx])) he.2
          exact ⟨by rw [he.1, this.1], this.2⟩
    have := hsplit (padNat v k) Y rest rest' (fun c hc => padNat_digit hc) (fun c hc => field_digit hY hc) h
    have hn := field_digitsAcc hY
    rw [← this.1, digitsAcc_padNat] at hn
    simp only [Option.some.injEq] at hn
    exact ⟨by rw [hn]; rfl, this.2⟩
  | negSucc k =>
    exfalso
    cases Y with
    | nil => simp [Field] at hY; omega
    | cons c Y =>
      simp only [padInt, List.cons_append, List.cons.injEq] at h
      obtain ⟨d, hd⟩ := field_digit hY (show c ∈ c :: Y by simp)
      rw [← h.1, Runtime.minus_not_digit] at hd; cases hd

theorem padInt_field_end {w v : Nat} {i : Int} {Y : PStr} {n : Nat} (hY : Field w Y n) (hw : 0 < w) (h : padInt v i = Y ∨ padInt v i = Y ++ ['\n']) : i = n := by
  have hnl : padInt v i ≠ Y ++ ['\n'] := by
    intro h
    have hm : '\n' ∈ padInt v i := by rw [h]; simp
    cases i with
    | ofNat k =>
      obtain ⟨d, hd⟩ := padNat_digit hm
      rw [Runtime.space_not_digit _ Runtime.newline_is_space] at hd; cases hd
    | negSucc k =>
      rcases List.mem_cons.1 hm with hm | hm
      · exact absurd hm (by decide)
      · obtain ⟨d, hd⟩ := padNat_digit hm
        rw [Runtime.space_not_digit _ Runtime.newline_is_space] at hd; cases hd
  have h : padInt v i = Y := h.resolve_right hnl
  exact (padInt_field hY hw (rest := []) (rest' := []) (by rw [h])).1

theorem padInt_no_space {w : Nat} {i : Int} {c : Char} (h : c ∈ padInt w i) : space c = false := by
  cases i with
  | ofNat k => obtain ⟨d, hd⟩ := padNat_digit h; exact digit_not_space hd
  | negSucc k =>
    rcases List.mem_cons.1 h with h | h
    · rw [h]; exact Runtime.minus_not_space
    · obtain ⟨d, hd⟩ := padNat_digit h; exact digit_not_space hd

theorem ymd_no_space (y m d : Int) : ∀ c ∈ padInt 4 y ++ '-' :: (padInt 2 m ++ '-' :: padInt 2 d), space c = false := by
  intro c hc
  simp only [List.mem_append, List.mem_cons] at hc
  rcases hc with hc | rfl | hc | rfl | hc
  · exact padInt_no_space hc
  · exact Runtime.minus_not_space
  · exact padInt_no_space hc
  · exact Runtime.minus_not_space
  · exact padInt_no_space hc

theorem composeDate_ok (doStrip : Bool) {y m d : Int} {Y M D : Nat} (h : DateNumbers y m d Y M D) :
    composeDate doStrip [.int y, .int m, .int d] = .ok (fmtDate Y M D, .date Y M D) := by
  obtain ⟨rfl, rfl, rfl, hr⟩ := h
  have e : formatYMD [.int Y, .int M, .int D] = .ok (fmtDate Y M D) := by
    simp only [formatYMD, numberOf, fmtDate]
    congr 1
    show padNat 4 Y ++ '-' :: (padNat 2 M ++ '-' :: padNat 2 D) = _
    simp
  have := date_adapt_fmt (b := doStrip) hr
  unfold composeDate
  rw [e]
  simp only []
  rw [this]

theorem numberOf_iff {v : PyVal} (h : ∀ n, v ≠ .obj n) (i : Int) : numberOf v = .ok i ↔ CountsAs v i := by
  unfold CountsAs
  cases v with
  | bool b => cases b <;> simp [numberOf, eq_comm]
  | obj n => exact absurd rfl (h n)
  | _ => simp [numberOf]

theorem numberOf_not {v : PyVal} (h : ∀ n, v ≠ .obj n) (hn : ¬ ∃ i, CountsAs v i) : numberOf v = .error .type := by
  cases v with
  | int i => exact absurd ⟨i, .inl rfl⟩ hn
  | bool b => cases b <;> exact absurd ⟨_, by simp [CountsAs]; rfl⟩ hn
  | obj n => exact absurd rfl (h n)
  | _ => rfl

theorem composeDate_counts (doStrip : Bool) {a b c : PyVal} {y m d : Int} (ha : numberOf a = .ok y) (hb : numberOf b = .ok m) (hc : numberOf c = .ok d) :
    composeDate doStrip [a, b, c] = composeDate doStrip [.int y, .int m, .int d] := by
  have h : ∀ i, numberOf (.int i) = .ok i := fun _ => rfl
  simp only [composeDate, formatYMD, ha, hb, hc, h]

theorem composeDate_no_number (doStrip : Bool) {a b c : PyVal} (ha : ∀ n, a ≠ .obj n) (hb : ∀ n, b ≠ .obj n) (hc : ∀ n, c ≠ .obj n)
    (h : ¬ ((∃ i, CountsAs a i) ∧ (∃ i, CountsAs b i) ∧ ∃ i, CountsAs c i)) : composeDate doStrip [a, b, c] = .ok ([], .none) := by
  by_cases h1 : ∃ i, CountsAs a i
  · obtain ⟨i, hi⟩ := h1
    have hi := (numberOf_iff ha i).2 hi
    by_cases h2 : ∃ i, CountsAs b i
    · obtain ⟨j, hj⟩ := h2
      have hj := (numberOf_iff hb j).2 hj
      have h3 : ¬ ∃ i, CountsAs c i := fun h3 => h ⟨⟨i, (numberOf_iff ha i).1 hi⟩, ⟨j, (numberOf_iff hb j).1 hj⟩, h3⟩
      simp [composeDate, formatYMD, hi, hj, numberOf_not hc h3, ymdCatches]
    · simp [composeDate, formatYMD, hi, numberOf_not hb h2, ymdCatches]
  · simp [composeDate, formatYMD, numberOf_not ha h1, ymdCatches]

theorem setKids_all {t1 t2 t3 : ScalarType} {a b c : ScalarState} {x y z : PyVal} {ok1 ok2 ok3 : Bool} (h1 : (scalarSet t1 a x).2 = .ok ok1)
    (h2 : (scalarSet t2 b y).2 = .ok ok2) (h3 : (scalarSet t3 c z).2 = .ok ok3) :
    setKids [t1, t2, t3] [a, b, c] [x, y, z] = ([(scalarSet t1 a x).1, (scalarSet t2 b y).1, (scalarSet t3 c z).1], .none) := by
  have e1 : scalarSet t1 a x = ((scalarSet t1 a x).1, .ok ok1) := by rw [← h1]
  have e2 : scalarSet t2 b y = ((scalarSet t2 b y).1, .ok ok2) := by rw [← h2]
  have e3 : scalarSet t3 c z = ((scalarSet t3 c z).1, .ok ok3) := by rw [← h3]
  generalize (scalarSet t1 a x).1 = a' at *
  generalize (scalarSet t2 b y).1 = b' at *
  generalize (scalarSet t3 c z).1 = c' at *
  simp [setKids, e1, e2, e3]

theorem setKids_upTo {t1 t2 t3 : ScalarType} {a b c : ScalarState} {x y z : PyVal} {er : PyErr} {new : List ScalarState}
    (h : SetUpTo [scalarSet t1 a x, scalarSet t2 b y, scalarSet t3 c z] [a, b, c] new er) :
    setKids [t1, t2, t3] [a, b, c] [x, y, z] = (new, some er) := by
  obtain ⟨k, r, hr, her, hi, rfl⟩ := h
  rcases hs1 : scalarSet t1 a x with ⟨a', r1⟩
  rcases hs2 : scalarSet t2 b y with ⟨b', r2⟩
  rcases hs3 : scalarSet t3 c z with ⟨c', r3⟩
  rw [hs1, hs2, hs3] at hr hi
  match k with
  | 0 =>
    simp only [List.getElem?_cons_zero, Option.some.injEq] at hr
    subst hr
    simp only at her
    subst her
    simp [setKids, hs1]
  | 1 =>
    simp only [List.getElem?_cons_zero, List.getElem?_cons_succ, Option.some.injEq] at hr
    subst hr
    simp only at her
    subst her
    obtain ⟨ok1, h1⟩ := hi 0 _ (by omega) rfl
    simp only at h1
    subst h1
    simp [setKids, hs1, hs2]
  | 2 =>
    simp only [List.getElem?_cons_zero, List.getElem?_cons_succ, Option.some.injEq] at hr
    subst hr
    simp only at her
    subst her
    obtain ⟨ok1, h1⟩ := hi 0 _ (by omega) rfl
    obtain ⟨ok2, h2⟩ := hi 1 _ (by omega) rfl
    simp only at h1 h2
    subst h1
    subst h2
    simp [setKids, hs1, hs2, hs3]
  | k + 3 => simp at hr

theorem composeDate_bad (doStrip : Bool) {y m d : Int} (h : ¬ ∃ Y M D, DateNumbers y m d Y M D) :
    composeDate doStrip [.int y, .int m, .int d] = .ok ([], .none) := by
  unfold composeDate
  simp only [formatYMD, numberOf]
  have hs : strip (padInt 4 y ++ '-' :: (padInt 2 m ++ '-' :: padInt 2 d)) = padInt 4 y ++ '-' :: (padInt 2 m ++ '-' :: padInt 2 d) := strip_of_no_space (ymd_no_space y m d)
  cases ha : (dateType doStrip).adapt (.str (padInt 4 y ++ '-' :: (padInt 2 m ++ '-' :: padInt 2 d))) with
  | error er =>
    have : er = .adaptation := temporalText_err ha
    subst this
    rfl
  | ok v =>
    exfalso
    apply h
    have ha : temporalText dateRx mkDate doStrip (padInt 4 y ++ '-' :: (padInt 2 m ++ '-' :: padInt 2 d)) = .ok v := ha
    unfold temporalText at ha
    rw [hs, ite_self] at ha
    split at ha
    · cases ha
    · rename_i ns hns
      obtain ⟨core, Y, M, D, rfl, hdt, hcore⟩ := rx_date_sound hns
      split at ha
      · cases ha
      · rename_i w hw
        obtain ⟨YY, MM, DD, h1, h2, h3, rfl⟩ := hdt
        have hcore' : ∃ tail, padInt 4 y ++ '-' :: (padInt 2 m ++ '-' :: padInt 2 d) = YY ++ '-' :: (MM ++ '-' :: (DD ++ tail)) ∧ (tail = [] ∨ tail = ['\n']) := by
          rcases hcore with hc | hc
          · exact ⟨[], by rw [hc]; simp, .inl rfl⟩
          · exact ⟨['\n'], by rw [hc]; simp, .inr rfl⟩
        obtain ⟨tail, hc, ht⟩ := hcore'
        obtain ⟨e1, hc⟩ := padInt_field h1 (by omega) hc
        obtain ⟨e2, hc⟩ := padInt_field h2 (by omega) hc
        have e3 := padInt_field_end (v := 2) (i := d) h3 (by omega) (by rcases ht with rfl | rfl <;> simp [hc])
        obtain ⟨Y', M', D', _, hr⟩ := mkDate_some hw
        refine ⟨Y, M, D, e1, e2, e3, ?_⟩
        by_cases hv : validDate Y M D = true
        · exact (validDate_iff _ _ _).1 hv
        · simp [mkDate, hv] at hw

theorem composeDate_notNumber (doStrip : Bool) (a b c : PyVal) (h : ∀ x ∈ [a, b, c], x = .none ∨ ∃ i, x = .int i) (hn : PyVal.none ∈ [a, b, c]) :
    composeDate doStrip [a, b, c] = .ok ([], .none) := by
  have ha := h a (by simp)
  have hb := h b (by simp)
  have hc := h c (by simp)
  unfold composeDate formatYMD
  rcases ha with rfl | ⟨i, rfl⟩
  · rfl
  · rcases hb with rfl | ⟨j, rfl⟩
    · rfl
    · rcases hc with rfl | ⟨k, rfl⟩
      · rfl
      · simp at hn

/-! the children -/

theorem int_set (w : Nat) (st : ScalarState) (i : Int) : scalarSet (integerType true w) st (.int i) = (⟨.int i, padInt w i, some (.int i)⟩, .ok true) := rfl
theorem int_none (w : Nat) (st : ScalarState) : scalarSet (integerType true w) st .none = (⟨.none, [], some .none⟩, .ok true) := rfl

theorem int_values (w : Nat) (st : ScalarState) (x : PyVal) (h : st.value = .none ∨ ∃ i, st.value = .int i) :
    (scalarSet (integerType true w) st x).1.value = .none ∨ ∃ i, (scalarSet (integerType true w) st x).1.value = .int i := by
  have hcase : (integerType true w).adapt x = .ok .none ∨ (∃ i, (integerType true w).adapt x = .ok (.int i)) ∨ ∃ er, (integerType true w).adapt x = .error er := by
    show (match x with | .none => _ | v => _) = _ ∨ _
    cases x with
    | none => exact .inl rfl
    | _ =>
      right
      simp only [integerType]
      split
      · exact .inr ⟨_, rfl⟩
      · rename_i i _
        simp
  unfold scalarSet
  rcases hcase with hc | ⟨i, hc⟩ | ⟨er, hc⟩
  · rw [hc]; exact .inl rfl
  · rw [hc]; exact .inr ⟨i, rfl⟩
  · rw [hc]
    split <;> first | exact .inl rfl | exact h | simp_all

theorem setKids_ints (sts : List ScalarState) (hl : sts.length = 3) (y m d : Int) :
    setKids ymdTypes sts [.int y, .int m, .int d] =
      ([⟨.int y, padInt 4 y, some (.int y)⟩, ⟨.int m, padInt 2 m, some (.int m)⟩, ⟨.int d, padInt 2 d, some (.int d)⟩], .none) := by
  match sts, hl with
  | [a, b, c], _ => rfl

theorem setKids_none (sts : List ScalarState) (hl : sts.length = 3) :
    setKids ymdTypes sts [.none, .none, .none] = ([⟨.none, [], some .none⟩, ⟨.none, [], some .none⟩, ⟨.none, [], some .none⟩], .none) := by
  match sts, hl with
  | [a, b, c], _ => rfl

/-- what `set` does, by the result of reading the value as a date -/
theorem dateSet_cases (doStrip : Bool) (sts : List ScalarState) (hl : sts.length = 3) (v : PyVal) :
    (∃ y m d, ((dateType doStrip).adapt v = .ok (.date y m d) ∨ ∃ h mi s us, (dateType doStrip).adapt v = .ok (.datetime y m d h mi s us)) ∧
      dateSet doStrip ymdTypes sts v = ([⟨.int y, padInt 4 y, some (.int y)⟩, ⟨.int m, padInt 2 m, some (.int m)⟩, ⟨.int d, padInt 2 d, some (.int d)⟩], .ok true)) ∨
    (v = .none ∧ dateSet doStrip ymdTypes sts v = (sts, .ok false)) ∨
    ((∃ er, (dateType doStrip).adapt v = .error er) ∧
      dateSet doStrip ymdTypes sts v = ([⟨.none, [], some .none⟩, ⟨.none, [], some .none⟩, ⟨.none, [], some .none⟩], .ok true)) := by
  match sts, hl with
  | [a, b, c], _ =>
  cases v with
  | none => exact .inr (.inl ⟨rfl, rfl⟩)
  | date y m d => exact .inl ⟨y, m, d, .inl rfl, rfl⟩
  | datetime y m d h mi s us => exact .inl ⟨y, m, d, .inr ⟨h, mi, s, us, rfl⟩, rfl⟩
  | str s =>
    cases ha : (dateType doStrip).adapt (.str s) with
    | error er =>
      have : er = .adaptation := temporalText_err ha
      subst this
      right; right
      refine ⟨⟨_, rfl⟩, ?_⟩
      unfold dateSet explodeDate
      rw [ha]
      rfl
    | ok w =>
      left
      have ha' : temporalText dateRx mkDate doStrip s = .ok w := ha
      obtain ⟨ns, hns⟩ := temporalText_mk ha'
      obtain ⟨y, m, d, rfl, hr⟩ := mkDate_some hns
      refine ⟨y, m, d, .inl rfl, ?_⟩
      unfold dateSet explodeDate
      rw [ha]
      rfl
  | _ => exact .inr (.inr ⟨⟨_, rfl⟩, rfl⟩)

end

/-! ### joined strings -/

/-- the text up to the next separator -/
theorem splitGo_free {sep : PStr} (hsep : sep ≠ []) (p rest acc : PStr) (h : SepFree sep p) :
    splitGo sep 0 (p ++ (sep ++ rest)) acc = (acc.reverse ++ p) :: splitGo sep 0 rest [] := by
  induction p generalizing acc with
  | nil =>
    cases sep with
    | nil => contradiction
    | cons c cs =>
      simp only [List.nil_append, List.cons_append, splitGo]
      have : startsWith (c :: (cs ++ rest)) (c :: cs) = true := by simp [startsWith]
      rw [this]
      simp [splitGo_skip]
  | cons x p ih =>
    have hx : startsWith (x :: (p ++ (sep ++ rest))) sep = false := by
      cases hs : startsWith (x :: (p ++ (sep ++ rest))) sep with
      | false => rfl
      | true =>
        exfalso
        have hpre : sep <+: (x :: p ++ sep) ++ rest := by
          have := List.isPrefixOf_iff_prefix.1 hs
          simpa using this
        refine h [] (x :: p) rfl (by simp) ?_
        exact List.prefix_of_prefix_length_le hpre (List.prefix_append _ _) (by simp; omega)
    have h' : SepFree sep p := fun a b hab hb => h (x :: a) b (by rw [hab]; rfl) hb
    simp only [List.cons_append, splitGo, hx]
    have := ih (x :: acc) h'
    simpa using this

theorem splitGo_free_end {sep : PStr} (p acc : PStr) (h : SepFree sep p) : splitGo sep 0 p acc = [acc.reverse ++ p] := by
  induction p generalizing acc with
  | nil => simp [splitGo]
  | cons x p ih =>
    have hx : startsWith (x :: p) sep = false := by
      cases hs : startsWith (x :: p) sep with
      | false => rfl
      | true =>
        exfalso
        have hpre : sep <+: x :: p := List.isPrefixOf_iff_prefix.1 hs
        exact h [] (x :: p) rfl (by simp) (hpre.trans (List.prefix_append _ _))
    have h' : SepFree sep p := fun a b hab hb => h (x :: a) b (by rw [hab]; rfl) hb
    simp only [splitGo, hx]
    have := ih (x :: acc) h'
    simpa using this

/-- splitting gives back parts within which the separator does not begin -/
theorem pySplit_pyJoin_free {sep : PStr} (hsep : sep ≠ []) (ps : List PStr) (h0 : ps ≠ []) (h : ∀ p ∈ ps, SepFree sep p) :
    pySplit sep (pyJoin sep ps) = ps := by
  induction ps with
  | nil => contradiction
  | cons p ps ih =>
    cases ps with
    | nil => simp [pyJoin, pySplit, splitGo_free_end p [] (h p (by simp))]
    | cons q qs =>
      have := ih (by simp) (fun x hx => h x (by simp [hx]))
      simp only [pyJoin, pySplit, List.append_assoc] at this ⊢
      rw [splitGo_free hsep p _ [] (h p (by simp)), this]
      simp

theorem splitGo_ne_nil (sep : PStr) (k : Nat) (s acc : PStr) : splitGo sep k s acc ≠ [] := by
  induction s generalizing k acc with
  | nil => cases k <;> simp [splitGo]
  | cons c cs ih =>
    cases k with
    | zero => simp only [splitGo]; split <;> simp [ih]
    | succ k => simp only [splitGo]; exact ih k acc

theorem pyJoin_cons (sep p : PStr) (ps : List PStr) (h : ps ≠ []) : pyJoin sep (p :: ps) = p ++ sep ++ pyJoin sep ps := by
  cases ps with
  | nil => contradiction
  | cons q qs => rfl

/-- joining what was split gives the text back -/
theorem pyJoin_splitGo {sep : PStr} (hsep : sep ≠ []) (s acc : PStr) (k : Nat) : 
    pyJoin sep (splitGo sep k s acc) = acc.reverse ++ s.drop k := by
  induction s generalizing k acc with
  | nil => cases k <;> simp [splitGo, pyJoin]
  | cons c cs ih =>
    cases k with
    | succ k => simp only [splitGo]; rw [ih]; simp
    | zero =>
      simp only [splitGo]
      split
      · rename_i hs
        rw [pyJoin_cons _ _ _ (splitGo_ne_nil _ _ _ _), ih]
        obtain ⟨t, ht⟩ := List.isPrefixOf_iff_prefix.1 hs
        cases sep with
        | nil => contradiction
        | cons d ds =>
          simp only [List.cons_append, List.cons.injEq] at ht
          rw [← ht.1, ← ht.2]
          simp
      · rw [ih]; simp

theorem pyJoin_pySplit {sep : PStr} (hsep : sep ≠ []) (s : PStr) : pyJoin sep (pySplit sep s) = s := by
  unfold pySplit
  rw [pyJoin_splitGo hsep]
  simp

section
variable [Runtime]

/-- the loop over texts that are kept -/
theorem joinedLoop_texts (c : JoinedCfg) (ts : List PStr) (hm : ∀ s, ∃ ok, (scalarSet c.member .fresh (.str s)).2 = .ok ok)
    (h : c.prune = true → ∀ s ∈ ts, s ≠ []) :
    (joinedLoop c (ts.map .str)).1 = ts.map (fun s => (scalarSet c.member .fresh (.str s)).1) ∧
    (joinedLoop c (ts.map .str)).2 = .ok (ts.all fun s => decide ((scalarSet c.member .fresh (.str s)).2 = .ok true)) := by
  induction ts with
  | nil => exact ⟨rfl, rfl⟩
  | cons s ts ih =>
    have ih := ih (fun hp s' hs' => h hp s' (by simp [hs']))
    have hcond : (c.prune && !truthy (.str s)) = false := by
      cases hp : c.prune with
      | false => rfl
      | true =>
        have := h hp s (by simp)
        cases s with
        | nil => contradiction
        | cons x xs => rfl
    obtain ⟨ok, hok⟩ := hm s
    simp only [List.map_cons, joinedLoop, hcond]
    rcases hset : scalarSet c.member .fresh (.str s) with ⟨st, r⟩
    rw [hset] at hok
    simp only at hok
    subst hok
    simp only [Bool.false_eq_true, if_false, List.all_cons]
    refine ⟨by rw [ih.1], ?_⟩
    rw [ih.2, hset]
    show Except.ok _ = Except.ok _
    cases ok <;> simp

/-- texts that are dropped do not matter -/
theorem joinedLoop_prune (c : JoinedCfg) (vs : List PyVal) (hp : c.prune = true) : joinedLoop c vs = joinedLoop c (vs.filter truthy) := by
  induction vs with
  | nil => rfl
  | cons v vs ih =>
    rw [List.filter_cons]
    cases ht : truthy v with
    | false => simp [joinedLoop, hp, ht, ih]
    | true => simp [joinedLoop, hp, ht, ih]

end

end Flatland
