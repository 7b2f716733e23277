import Verif.Proofs.MarkupTags
/-
Rendered tags are read back as they were meant.
-/
namespace Flatland
open Spec

section
variable [Runtime]

theorem shown_of_escape {v : HtmlVal} {e : PStr} (hm : ∀ t, v ≠ .markup t) (h : attributeEscape v = .ok e) :
    ∃ t, shownText v = some t ∧ readAttr e = some t ∧ ∀ c ∈ e, c ≠ '"' ∧ c ≠ '<' ∧ c ≠ '>' := by
  cases v with
  | markup t => exact absurd rfl (hm t)
  | text t =>
    simp only [attributeEscape, Except.ok.injEq] at h
    subst h
    exact ⟨t, rfl, read_attrEscape t, attrEscape_noquote t⟩
  | none =>
    simp only [attributeEscape, Except.ok.injEq] at h
    subst h
    exact ⟨[], rfl, rfl, by simp⟩
  | maybe => cases h
  | bool b =>
    cases b with
    | true => cases h
    | false =>
      simp only [attributeEscape, Except.ok.injEq] at h
      subst h
      exact ⟨[], rfl, rfl, by simp⟩
  | int i =>
    simp only [attributeEscape] at h
    split at h
    · rename_i hi
      subst hi
      simp only [Except.ok.injEq] at h
      subst h
      exact ⟨[], rfl, rfl, by simp⟩
    · cases h
  | obj n =>
    simp only [attributeEscape] at h
    split at h
    · cases h
    · rename_i hi
      simp only [Except.ok.injEq] at h
      subst h
      exact ⟨[], by simp [shownText, hi], rfl, by simp⟩

end

theorem takeWhile_stop {p : Char → Bool} : ∀ (k : PStr) (c : Char) (r : PStr), (∀ x ∈ k, p x = true) → p c = false →
    (k ++ c :: r).takeWhile p = k ∧ (k ++ c :: r).dropWhile p = c :: r := by
  intro k c r
  induction k with
  | nil => intro _ hc; simp [hc]
  | cons x k ih =>
    intro hk hc
    have hx := hk x (by simp)
    obtain ⟨h1, h2⟩ := ih (fun y hy => hk y (by simp [hy])) hc
    simp only [List.cons_append, List.takeWhile_cons, List.dropWhile_cons, hx, if_true, h1, h2]
    exact ⟨trivial, trivial⟩

theorem readAttrs_step (n : Nat) (r : PStr) (h : ∀ r', r ≠ '/' :: '>' :: r') :
    readAttrs (n + 1) (' ' :: r) =
      match r.dropWhile nameChar with
      | '=' :: '"' :: r' =>
        match readAttr (r'.takeWhile (· ≠ '"')), r'.dropWhile (· ≠ '"') with
        | some v, _ :: r'' => (readAttrs n r'').map fun (as, rest) => ((r.takeWhile nameChar, v) :: as, rest)
        | _, _ => .none
      | _ => .none := by
  rw [readAttrs]
  · rfl
  · exact h

theorem read_rendered [Runtime] (fin : PStr) (rest : PStr) (hfin : fin = ['>'] ∨ fin = " />".toList) (l : Attrs) : ∀ (guts : PStr) (n : Nat), l.length < n →
    (∀ p ∈ l, ∀ c ∈ p.1, nameChar c = true) → (∀ p ∈ l, ∀ t, p.2 ≠ .markup t) → renderAttrs l = .ok guts →
    readAttrs n (guts ++ fin ++ rest) = some (l.map (fun p => (p.1, (shownText p.2).getD [])), rest) := by
  induction l with
  | nil =>
    intro guts n hn _ _ h
    simp only [renderAttrs, Except.ok.injEq] at h
    subst h
    obtain ⟨m, rfl⟩ : ∃ m, n = m + 1 := ⟨n - 1, by simp at hn; omega⟩
    rcases hfin with rfl | rfl <;> rfl
  | cons p l ih =>
    intro guts n hn hk hm h
    obtain ⟨k, v⟩ := p
    obtain ⟨m, rfl⟩ : ∃ m, n = m + 1 := ⟨n - 1, by omega⟩
    simp only [renderAttrs] at h
    obtain ⟨e, he, h⟩ := bind_ok h
    obtain ⟨g, hg, h⟩ := bind_ok h
    simp only [Except.ok.injEq] at h
    subst h
    have ih := ih g m (by simp at hn; omega) (fun p hp => hk p (by simp [hp])) (fun p hp => hm p (by simp [hp])) hg
    obtain ⟨t, ht, hr, hc⟩ := shown_of_escape (hm (k, v) (by simp)) he
    have hkc : ∀ c ∈ k, nameChar c = true := hk (k, v) (by simp)
    have e1 : (' ' :: k ++ '=' :: '"' :: e ++ '"' :: g) ++ fin ++ rest = ' ' :: (k ++ '=' :: ('"' :: (e ++ '"' :: (g ++ fin ++ rest)))) := by simp
    rw [e1, readAttrs_step]
    · obtain ⟨t1, t2⟩ := takeWhile_stop (p := nameChar) k '=' ('"' :: (e ++ '"' :: (g ++ fin ++ rest))) hkc (by decide)
      obtain ⟨t3, t4⟩ := takeWhile_stop (p := fun c => decide (c ≠ '"')) e '"' (g ++ fin ++ rest) (fun c hc' => by simpa using (hc c hc').1) (by decide)
      rw [t1, t2]
      simp only [t3, t4, hr, ih, Option.map_some, List.map_cons, ht, Option.getD_some]
    · intro r' heq
      cases k with
      | nil => simp at heq
      | cons a k =>
        simp only [List.cons_append, List.cons.injEq] at heq
        have := hkc a (by simp)
        rw [heq.1] at this
        exact absurd this (by decide)

theorem renderAttrs_length [Runtime] : ∀ (l : Attrs) (guts : PStr), renderAttrs l = .ok guts → l.length ≤ guts.length := by
  intro l
  induction l with
  | nil => intro g _; simp
  | cons p l ih =>
    intro guts h
    obtain ⟨k, v⟩ := p
    simp only [renderAttrs] at h
    obtain ⟨e, he, h⟩ := bind_ok h
    obtain ⟨g, hg, h⟩ := bind_ok h
    simp only [Except.ok.injEq] at h
    subst h
    have := ih g hg
    simp
    omega

theorem nameStop {fin : PStr} (hfin : fin = ['>'] ∨ fin = " />".toList) (tag g rest : PStr) (htag : ∀ c ∈ tag, nameChar c = true)
    (hg : g = [] ∨ ∃ g', g = ' ' :: g') : (tag ++ (g ++ fin ++ rest)).takeWhile nameChar = tag ∧ (tag ++ (g ++ fin ++ rest)).dropWhile nameChar = g ++ fin ++ rest := by
  rcases hg with rfl | ⟨g', rfl⟩
  · rcases hfin with rfl | rfl
    · exact takeWhile_stop tag '>' rest htag (by decide)
    · exact takeWhile_stop tag ' ' ('/' :: '>' :: rest) htag (by decide)
  · exact takeWhile_stop tag ' ' (g' ++ fin ++ rest) htag (by decide)

theorem read_header [Runtime] (fin rest tag : PStr) (hfin : fin = ['>'] ∨ fin = " />".toList) (l : Attrs) (guts : PStr)
    (htag : ∀ c ∈ tag, nameChar c = true) (hk : ∀ p ∈ l, ∀ c ∈ p.1, nameChar c = true) (hm : ∀ p ∈ l, ∀ t, p.2 ≠ .markup t) (h : renderAttrs l = .ok guts) :
    readTag ('<' :: tag ++ guts ++ fin ++ rest) = some (tag, l.map (fun p => (p.1, (shownText p.2).getD [])), rest) := by
  have hg : guts = [] ∨ ∃ g', guts = ' ' :: g' := by
    cases l with
    | nil => left; simpa [renderAttrs] using h.symm
    | cons p l =>
      obtain ⟨k, v⟩ := p
      simp only [renderAttrs] at h
      obtain ⟨e, he, h⟩ := bind_ok h
      obtain ⟨g, hg, h⟩ := bind_ok h
      simp only [Except.ok.injEq] at h
      right
      exact ⟨_, h.symm⟩
  obtain ⟨h1, h2⟩ := nameStop hfin tag guts rest htag hg
  have e : '<' :: tag ++ guts ++ fin ++ rest = '<' :: (tag ++ (guts ++ fin ++ rest)) := by simp
  rw [e, readTag]
  simp only [h1, h2]
  rw [read_rendered fin rest hfin l guts _ ?_ hk hm h]
  · rfl
  · have := renderAttrs_length l guts h
    simp
    omega

/-! ### order -/

theorem insertAttr_perm (p : PStr × HtmlVal) : ∀ l, (insertAttr p l).Perm (p :: l) := by
  intro l
  induction l with
  | nil => exact .refl _
  | cons q l ih =>
    simp only [insertAttr]
    split
    · exact .refl _
    · exact (ih.cons q).trans (List.Perm.swap p q l)

theorem sortAttrs_perm : ∀ l, (sortAttrs l).Perm l := by
  intro l
  induction l with
  | nil => exact .refl _
  | cons p l ih => exact (insertAttr_perm p _).trans (ih.cons p)

end Flatland
