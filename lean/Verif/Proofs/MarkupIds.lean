import Verif.Proofs.MarkupTags
import Verif.Proofs.Text
/-
Ids, their format, and tab indexes over sequences of tags.
-/
namespace Flatland
open Spec

theorem idChar_small : ∀ n < 128, idChar (Char.ofNat n) = decide (Char.ofNat n ∈ idAllowed) := by decide +kernel

theorem idAllowed_small : ∀ c ∈ idAllowed, c.toNat < 128 := by decide +kernel

theorem idChar_iff (c : Char) : idChar c = decide (c ∈ idAllowed) := by
  by_cases h : c.toNat < 128
  · have := idChar_small c.toNat h
    rwa [Char.ofNat_toNat] at this
  · have h1 : idChar c = false := by
      unfold idChar
      have e : ∀ d : Char, d.toNat < 128 → c ≠ d := by rintro d hd rfl; exact h hd
      simp [e '_' (by decide), e ':' (by decide), e '.' (by decide), e '-' (by decide)]
      omega
    have h2 : ¬ c ∈ idAllowed := fun hc => h (idAllowed_small c hc)
    simp [h1, h2]

theorem contents_text [Runtime] {v : HtmlVal} {c : PStr} : ContentsText v c ↔ renderContents v = .ok c := by
  unfold ContentsText
  cases v with
  | none => simpa [renderContents] using eq_comm
  | bool b => cases b <;> simpa [renderContents] using eq_comm
  | int i =>
    by_cases h : i = 0
    · subst h
      simp only [renderContents, if_true, Except.ok.injEq]
      grind
    · simp only [renderContents, h, if_false, Except.ok.injEq]
      grind
  | maybe => simp [renderContents]
  | obj n => cases h : Runtime.truthObj n <;> simpa [renderContents, h] using eq_comm
  | text s => simp [renderContents]
  | markup s => simp [renderContents]

theorem formatS_char (x : PStr) (u : Bool) {c : Char} (h : c ≠ '%') (r : PStr) : formatS x u (c :: r) = (formatS x u r).map (c :: ·) := by
  rw [formatS.eq_6]
  · rintro _ rfl; exact absurd rfl h
  · rintro _ rfl; exact absurd rfl h
  · rintro rfl; exact absurd rfl h
  · rintro _ _ rfl; exact absurd rfl h

theorem formatS_text (x : PStr) (u : Bool) (r out : PStr) (h : formatS x u r = .ok out) : ∀ p : PStr, formatS x u (inFormat p ++ r) = .ok (p ++ out)
  | [] => h
  | c :: p => by
    have ih := formatS_text x u r out h p
    by_cases hc : c = '%'
    · subst hc
      show formatS x u ('%' :: '%' :: (inFormat p ++ r)) = _
      rw [formatS.eq_3, ih]
      rfl
    · have : inFormat (c :: p) ++ r = c :: (inFormat p ++ r) := by simp [inFormat, hc]
      rw [this, formatS_char x u hc, ih]
      rfl

theorem formatS_ok (x p q : PStr) : formatS x false (inFormat p ++ '%' :: 's' :: inFormat q) = .ok (p ++ x ++ q) := by
  have h := formatS_text x true [] [] rfl q
  rw [List.append_nil, List.append_nil] at h
  rw [List.append_assoc]
  refine formatS_text x false _ _ ?_ p
  rw [formatS.eq_2, h]
  rfl

theorem formatDomid_ok {f : OptFrame} {p q : PStr} (h : IdFormat f p q) (x : PStr) : formatDomid f x = .ok (p ++ x ++ q) := by
  unfold formatDomid
  rw [show dictGet f kDomidFormat = _ from h]
  exact formatS_ok x p q

theorem formatS_inv (x : PStr) : ∀ (u : Bool) (f out : PStr), formatS x u f = .ok out →
    if u then ∃ q, f = inFormat q else ∃ p q, f = inFormat p ++ '%' :: 's' :: inFormat q := by
  intro u f
  induction u, f using formatS.induct with
  | case1 => intro out _; exact ⟨[], rfl⟩
  | case2 u hu => intro out h; rw [formatS, if_neg hu] at h; cases h
  | case3 r => intro out h; rw [formatS, if_pos rfl] at h; cases h
  | case4 u r hu ih =>
    intro out h
    rw [formatS, if_neg hu] at h
    cases hr : formatS x true r with
    | error e => rw [hr] at h; cases h
    | ok o =>
      obtain ⟨q, rfl⟩ := ih o hr
      rw [if_neg hu]
      exact ⟨[], q, rfl⟩
  | case5 u r ih =>
    intro out h
    rw [formatS] at h
    cases hr : formatS x u r with
    | error e => rw [hr] at h; cases h
    | ok o =>
      have := ih o hr
      split at this
      · obtain ⟨q, rfl⟩ := this
        rename_i hu
        rw [if_pos hu]
        exact ⟨'%' :: q, by simp [inFormat]⟩
      · obtain ⟨p, q, rfl⟩ := this
        rename_i hu
        rw [if_neg hu]
        exact ⟨'%' :: p, q, by simp [inFormat]⟩
  | case6 => intro out h; rw [formatS] at h; cases h
  | case7 => intro out h; rw [formatS] at h <;> first | cases h | assumption
  | case8 u c r h1 h2 h3 h4 ih =>
    intro out h
    rw [formatS.eq_6 _ _ _ _ h1 h2 h3 h4] at h
    have hc : c ≠ '%' := by
      rintro rfl
      cases r with
      | nil => exact h3 rfl rfl
      | cons d r => exact h4 d r rfl rfl
    cases hr : formatS x u r with
    | error e => rw [hr] at h; cases h
    | ok o =>
      have := ih o hr
      split at this
      · obtain ⟨q, rfl⟩ := this
        rename_i hu
        rw [if_pos hu]
        exact ⟨c :: q, by simp [inFormat, hc]⟩
      · obtain ⟨p, q, rfl⟩ := this
        rename_i hu
        rw [if_neg hu]
        exact ⟨c :: p, q, by simp [inFormat, hc]⟩

theorem formatDomid_inv {f : OptFrame} {x out : PStr} (h : formatDomid f x = .ok out) :
    ∃ p q, IsText (attrGet f kDomidFormat) (inFormat p ++ '%' :: 's' :: inFormat q) := by
  unfold formatDomid at h
  cases hk : dictGet f kDomidFormat with
  | none => rw [hk] at h; cases h
  | some v =>
    rw [hk] at h
    unfold attrGet
    rw [hk]
    cases v with
    | text t => obtain ⟨p, q, rfl⟩ := formatS_inv x false t out h; exact ⟨p, q, .inl rfl⟩
    | markup t => obtain ⟨p, q, rfl⟩ := formatS_inv x false t out h; exact ⟨p, q, .inr rfl⟩
    | _ => cases h

theorem controlOf_box (tag : PStr) (a : Attrs) :
    controlOf tag a = .box ↔ tag = "input".toList ∧ (IsText (attrGet a kType) "checkbox".toList ∨ IsText (attrGet a kType) "radio".toList) := by
  unfold controlOf
  by_cases h : tag = "input".toList
  · rw [h, if_neg (by decide), if_neg (by decide), if_pos rfl]
    by_cases hb : IsText (attrGet a kType) "radio".toList ∨ IsText (attrGet a kType) "checkbox".toList
    · rw [if_pos hb]
      simp only [true_and, true_iff]
      exact hb.symm
    · rw [if_neg hb]
      constructor
      · intro hc; split at hc <;> cases hc
      · rintro ⟨_, h⟩; exact absurd h.symm hb
  · constructor
    · intro hc
      rw [if_neg h] at hc
      split at hc
      · cases hc
      · split at hc <;> cases hc
    · rintro ⟨h', _⟩; exact absurd h' h

theorem sanitize_ok {v : HtmlVal} {x : PStr} (h : sanitize v = .ok x) : x = (textOf v).filter (· ∈ idAllowed) := by
  cases v <;> simp only [sanitize, Except.ok.injEq, reduceCtorEq] at h <;> subst h <;> simp only [textOf] <;> congr 1 <;> funext c <;> exact idChar_iff c

theorem decimalInt_nonempty (n : Int) : decimalInt n ≠ [] := by
  unfold decimalInt
  cases n with
  | ofNat n => exact decimal_ne_nil n
  | negSucc n => simp

theorem rawDomid_ok [Runtime] {tag : PStr} {a : Attrs} {bd : Option Bind} {raw : PStr} (h : rawDomid tag a bd = .ok raw) :
    ∃ basis, rawBasis a bd = .ok basis ∧ raw = if basis = [] then [] else domId tag a basis := by
  have h' : (rawBasis a bd >>= fun basis =>
      if basis = [] then .ok []
      else if tag = "input".toList && ((attrGet a kType).eqText "checkbox".toList || (attrGet a kType).eqText "radio".toList) then do
        let suffix ← sanitize ((dictGet a kValue).getD (.text []))
        if suffix = [] then .ok basis
        else if basisIsText a bd then .ok (basis ++ '_' :: suffix)
        else .error .type
      else .ok basis) = .ok raw := h
  obtain ⟨basis, hb, h'⟩ := bind_ok h'
  refine ⟨basis, hb, ?_⟩
  by_cases hz : basis = []
  · rw [if_pos hz] at h' ⊢
    simpa using h'.symm
  · rw [if_neg hz] at h' ⊢
    by_cases hbox : controlOf tag a = .box
    · have hbox' := (controlOf_box tag a).1 hbox
      rw [if_pos (by rw [Bool.and_eq_true, Bool.or_eq_true, eqText_iff, eqText_iff, decide_eq_true_eq]; exact hbox')] at h'
      obtain ⟨suf, hs, h'⟩ := bind_ok h'
      have h' : (if suf = [] then basis else basis ++ '_' :: suf) = raw := by
        by_cases he : suf = []
        · rw [if_pos he] at h' ⊢
          simpa using h'
        · rw [if_neg he] at h' ⊢
          by_cases ht : basisIsText a bd = true
          · rw [if_pos ht] at h'
            simpa using h'
          · rw [if_neg ht] at h'
            cases h'
      have hs' := sanitize_ok hs
      have : (textOf ((dictGet a kValue).getD (.text []))) = textOf (attrGet a kValue) := by
        unfold attrGet
        cases dictGet a kValue <;> rfl
      rw [this] at hs'
      change suf = idSuffix a at hs'
      subst hs'
      rw [← h']
      unfold domId
      simp only [hbox, true_and]
      by_cases he : idSuffix a = [] <;> simp [he]
    · rw [if_neg (by rw [Bool.and_eq_true, Bool.or_eq_true, eqText_iff, eqText_iff, decide_eq_true_eq]; exact fun hh => hbox ((controlOf_box tag a).2 hh))] at h'
      simp only [Except.ok.injEq] at h'
      rw [← h']
      unfold domId
      simp [hbox]

theorem domId_ne {tag : PStr} {a : Attrs} {basis : PStr} (h : basis ≠ []) : domId tag a basis ≠ [] := by
  unfold domId
  split
  · simp
  · exact h

/-! ### tab indexes -/

section
variable [Runtime] [Casing]

theorem takes_congr {f f' : OptFrame} (h : dictGet f' kAutoTabindex = dictGet f kAutoTabindex) (c : TagUse) : TakesTab f' c ↔ TakesTab f c := by
  unfold TakesTab Generated SwitchedOn Spec.option
  rw [h]

theorem seq_positive (f0 : OptFrame) (calls : List TagUse) (hd : ∀ c ∈ calls, DictLike c.attrs) : ∀ (f : OptFrame) (n : Int), n > 0 → FullFrame f →
    dictGet f kAutoTabindex = dictGet f0 kAutoTabindex → dictGet f kTabindex = some (.int n) →
    tabbed f0 calls (transformSeq calls f).1 =
      (List.range (tabbed f0 calls (transformSeq calls f).1).length).map (fun i => HtmlVal.text (decimalInt (n + Int.ofNat i))) ∧
    dictGet (transformSeq calls f).2 kTabindex = some (.int (n + (tabbed f0 calls (transformSeq calls f).1).length)) ∧
    (∀ k, k ≠ kTabindex → dictGet (transformSeq calls f).2 k = dictGet f k) := by
  induction calls with
  | nil =>
    intro f n hn hf h0 ht
    simp [transformSeq, tabbed, ht]
  | cons c r ih =>
    intro f n hn hf h0 ht
    have ih := ih (fun c hc => hd c (by simp [hc]))
    rw [transformSeq]
    cases hr : transformTag [] c.tag c.bound ⟨c.attrs, c.contents, f⟩ with
    | error e =>
      simp only [tabbed]
      exact ih f n hn hf h0 ht
    | ok s =>
      obtain ⟨s1, s2, s3, s4, s5, st⟩ := stages_of_ok (s := ⟨c.attrs, c.contents, f⟩) (hd c (by simp)) hf hr
      obtain ⟨hno, hyes⟩ := st.tabindex hf
      simp only [tabbed]
      by_cases ht' : TakesTab f0 c
      · rw [if_pos ht']
        obtain ⟨hfr, hat⟩ := (hyes n ht ((takes_congr h0 c).2 ht')).2.2 hn
        simp only [] at hfr
        have h1 : dictGet s.frame kTabindex = some (.int (n + 1)) := by rw [hfr, dictGet_put, if_pos rfl]
        have h2 : ∀ k, k ≠ kTabindex → dictGet s.frame k = dictGet f k := fun k hk => by rw [hfr, dictGet_put, if_neg hk]
        obtain ⟨i1, i2, i3⟩ := ih s.frame (n + 1) (by omega) (by rw [hfr]; exact full_put hf _ _) (by rw [h2 _ (by decide), h0]) h1
        refine ⟨?_, ?_, fun k hk => by rw [i3 k hk, h2 k hk]⟩
        · rw [List.length_cons, List.range_succ_eq_map, List.map_cons, List.map_map]
          congr 1
          · unfold attrGet
            rw [hat]
            simp
          · rw [i1]
            simp only [List.length_map, List.length_range]
            apply List.map_congr_left
            intro i _
            simp only [Function.comp]
            congr 2
            simp only [Int.ofNat_eq_natCast]
            omega
        · rw [i2]
          simp only [List.length_cons]
          congr 2
          omega
      · rw [if_neg ht']
        obtain ⟨hfr, hat⟩ := hno (fun h => ht' ((takes_congr h0 c).1 h))
        simp only [] at hfr
        rw [hfr]
        exact ih f n hn hf h0 ht

theorem seq_steady (f : OptFrame) (n : Int) (hn : n ≤ 0) (hf : FullFrame f) (ht : dictGet f kTabindex = some (.int n)) (calls : List TagUse)
    (hd : ∀ c ∈ calls, DictLike c.attrs) : (transformSeq calls f).2 = f ∧
    (n < 0 → ∀ v ∈ tabbed f calls (transformSeq calls f).1, v = .text (decimalInt n)) := by
  induction calls with
  | nil => exact ⟨rfl, by simp [tabbed, transformSeq]⟩
  | cons c r ih =>
    have ih := ih (fun c hc => hd c (by simp [hc]))
    rw [transformSeq]
    cases hr : transformTag [] c.tag c.bound ⟨c.attrs, c.contents, f⟩ with
    | error e => exact ih
    | ok s =>
      obtain ⟨s1, s2, s3, s4, s5, st⟩ := stages_of_ok (s := ⟨c.attrs, c.contents, f⟩) (hd c (by simp)) hf hr
      obtain ⟨hno, hyes⟩ := st.tabindex hf
      have hfr : s.frame = f := by
        by_cases hg : Generated c.attrs f kAutoTabindex kTabindex tabindexTags c.tag
        · obtain ⟨h1, h2, _⟩ := hyes n ht hg
          by_cases hz : n = 0
          · exact (h1 hz).1
          · exact (h2 (by omega)).1
        · exact (hno hg).1
      simp only [tabbed, hfr]
      refine ⟨ih.1, fun hlt => ?_⟩
      by_cases ht' : TakesTab f c
      · rw [if_pos ht']
        intro v hv
        simp only [List.mem_cons] at hv
        rcases hv with rfl | hv
        · unfold attrGet
          rw [((hyes n ht ht').2.1 hlt).2]
          rfl
        · exact ih.2 hlt v hv
      · rw [if_neg ht']
        exact ih.2 hlt

/-- every transform in a sequence happens in a frame that differs at most in its tabindex -/
theorem seq_each (calls : List TagUse) : ∀ (f : OptFrame), FullFrame f → (∀ c ∈ calls, DictLike c.attrs) →
    ∀ (i : Nat) (c : TagUse) (s : TagState), calls[i]? = some c → (transformSeq calls f).1[i]? = some (some s) →
      ∃ f', FullFrame f' ∧ (∀ k, k ≠ kTabindex → dictGet f' k = dictGet f k) ∧ transformTag [] c.tag c.bound ⟨c.attrs, c.contents, f'⟩ = .ok s := by
  induction calls with
  | nil => intro f _ _ i c s h; simp at h
  | cons c0 r ih =>
    intro f hf hd i c s hc hs
    have ih := fun f hf => ih f hf (fun c hc => hd c (by simp [hc]))
    rw [transformSeq] at hs
    cases hr : transformTag [] c0.tag c0.bound ⟨c0.attrs, c0.contents, f⟩ with
    | error e =>
      rw [hr] at hs
      simp only [] at hs
      cases i with
      | zero => simp at hs
      | succ j => exact ih f hf j c s (by simpa using hc) (by simpa using hs)
    | ok s0 =>
      rw [hr] at hs
      simp only [] at hs
      cases i with
      | zero =>
        simp only [List.getElem?_cons_zero, Option.some.injEq] at hc hs
        subst hc hs
        exact ⟨f, hf, fun _ _ => rfl, hr⟩
      | succ j =>
        obtain ⟨s1, s2, s3, s4, s5, st⟩ := stages_of_ok (s := ⟨c0.attrs, c0.contents, f⟩) (hd c0 (by simp)) hf hr
        have hf4 := st.full5 hf
        obtain ⟨_, _, _, _, f5⟩ := transformTabindex_spec c0.tag st.t4.dict hf4 st.e5
        have hfr : FullFrame s0.frame ∧ ∀ k, k ≠ kTabindex → dictGet s0.frame k = dictGet f k := by
          have h4 : s4.frame = f := st.f4
          rw [st.f6]
          rcases f5 with f5 | ⟨n, f5⟩
          · rw [f5, h4]; exact ⟨hf, fun _ _ => rfl⟩
          · rw [f5, h4]; exact ⟨full_put hf _ _, fun k hk => by rw [dictGet_put, if_neg hk]⟩
        obtain ⟨f', h1, h2, h3⟩ := ih s0.frame hfr.1 j c s (by simpa using hc) (by simpa using hs)
        exact ⟨f', h1, fun k hk => by rw [h2 k hk, hfr.2 k hk], h3⟩

end

end Flatland
