import Verif.Spec.Escape
/-
Lemmas for C54.
-/
namespace Flatland
open Spec

theorem replaceChar_cons (c : Char) (t : PStr) (x : Char) (s : PStr) : replaceChar c t (x :: s) = (if x = c then t else [x]) ++ replaceChar c t s := rfl

theorem replaceChar_append (c : Char) (t a b : PStr) : replaceChar c t (a ++ b) = replaceChar c t a ++ replaceChar c t b := by
  simp [replaceChar]

theorem replaceChar_not_mem (c : Char) (t : PStr) (s : PStr) (h : c ∉ s) : replaceChar c t s = s := by
  induction s with
  | nil => rfl
  | cons x s ih =>
    rw [replaceChar_cons, if_neg (by intro e; apply h; simp [e]), ih (by intro e; apply h; simp [e])]; rfl

/-- what becomes of one character -/
def attrChar (c : Char) : PStr :=
  if c = '&' then "&amp;".toList else if c = '<' then "&lt;".toList else if c = '>' then "&gt;".toList
  else if c = '"' then "&quot;".toList else [c]

def textChar (c : Char) : PStr :=
  if c = '&' then "&amp;".toList else if c = '<' then "&lt;".toList else if c = '>' then "&gt;".toList else [c]

def xaChar (c : Char) : PStr :=
  if c = '&' then "&amp;".toList else if c = '<' then "&lt;".toList else if c = '>' then "&gt;".toList
  else if c = '"' then "&quot;".toList else if c = '\n' then "&#10;".toList else if c = '\r' then "&#13;".toList
  else if c = '\t' then "&#9;".toList else [c]

theorem attrEscape_cons (c : Char) (s : PStr) : attrEscape (c :: s) = attrChar c ++ attrEscape s := by
  unfold attrEscape attrChar
  simp only [replaceChar_cons, replaceChar_append]
  congr 1
  by_cases h1 : c = '&'
  · subst h1; decide
  by_cases h2 : c = '<'
  · subst h2; decide
  by_cases h3 : c = '>'
  · subst h3; decide
  by_cases h4 : c = '"'
  · subst h4; decide
  simp [h1, h2, h3, h4, replaceChar]

theorem markupEscape_cons (c : Char) (s : PStr) : markupEscape (c :: s) = textChar c ++ markupEscape s := by
  unfold markupEscape textChar
  simp only [replaceChar_cons, replaceChar_append]
  congr 1
  by_cases h1 : c = '&'
  · subst h1; decide
  by_cases h2 : c = '<'
  · subst h2; decide
  by_cases h3 : c = '>'
  · subst h3; decide
  simp [h1, h2, h3, replaceChar]

theorem saxEscape_cons (c : Char) (s : PStr) : saxEscape (c :: s) = textChar c ++ saxEscape s := by
  unfold saxEscape textChar
  simp only [replaceChar_cons, replaceChar_append]
  congr 1
  by_cases h1 : c = '&'
  · subst h1; decide
  by_cases h2 : c = '<'
  · subst h2; decide
  by_cases h3 : c = '>'
  · subst h3; decide
  simp [h1, h2, h3, replaceChar]

/-- the body of quoteattr when a single quote is there -/
def xaBody (s : PStr) : PStr :=
  replaceChar '"' "&quot;".toList (replaceChar '\t' "&#9;".toList (replaceChar '\r' "&#13;".toList (replaceChar '\n' "&#10;".toList (saxEscape s))))

theorem xaBody_cons (c : Char) (s : PStr) : xaBody (c :: s) = xaChar c ++ xaBody s := by
  unfold xaBody
  rw [saxEscape_cons]
  simp only [replaceChar_append]
  congr 1
  unfold xaChar textChar
  by_cases h1 : c = '&'
  · subst h1; decide
  by_cases h2 : c = '<'
  · subst h2; decide
  by_cases h3 : c = '>'
  · subst h3; decide
  by_cases h4 : c = '"'
  · subst h4; decide
  by_cases h5 : c = '\n'
  · subst h5; decide
  by_cases h6 : c = '\r'
  · subst h6; decide
  by_cases h7 : c = '\t'
  · subst h7; decide
  simp [h1, h2, h3, h4, h5, h6, h7, replaceChar]

theorem read_attrChar (c : Char) (r : PStr) : readGo false .none (attrChar c ++ r) = (readGo false .none r).map (c :: ·) := by
  unfold attrChar
  by_cases h1 : c = '&'
  · subst h1; rfl
  by_cases h2 : c = '<'
  · subst h2; rfl
  by_cases h3 : c = '>'
  · subst h3; rfl
  by_cases h4 : c = '"'
  · subst h4; rfl
  simp [h1, h2, h3, h4, readGo]

theorem read_xaChar (c : Char) (r : PStr) : readGo false .none (xaChar c ++ r) = (readGo false .none r).map (c :: ·) := by
  unfold xaChar
  by_cases h1 : c = '&'
  · subst h1; rfl
  by_cases h2 : c = '<'
  · subst h2; rfl
  by_cases h3 : c = '>'
  · subst h3; rfl
  by_cases h4 : c = '"'
  · subst h4; rfl
  by_cases h5 : c = '\n'
  · subst h5; rfl
  by_cases h6 : c = '\r'
  · subst h6; rfl
  by_cases h7 : c = '\t'
  · subst h7; rfl
  simp [h1, h2, h3, h4, h5, h6, h7, readGo]

theorem read_textChar (c : Char) (r : PStr) : readGo true .none (textChar c ++ r) = (readGo true .none r).map (c :: ·) := by
  unfold textChar
  by_cases h1 : c = '&'
  · subst h1; rfl
  by_cases h2 : c = '<'
  · subst h2; rfl
  by_cases h3 : c = '>'
  · subst h3; rfl
  simp [h1, h2, h3, readGo]

theorem read_attrEscape (s : PStr) : readAttr (attrEscape s) = some s := by
  unfold readAttr
  induction s with
  | nil => rfl
  | cons c s ih => rw [attrEscape_cons, read_attrChar, ih]; rfl

theorem read_markupEscape (s : PStr) : readText (markupEscape s) = some s := by
  unfold readText
  induction s with
  | nil => rfl
  | cons c s ih => rw [markupEscape_cons, read_textChar, ih]; rfl

theorem read_saxEscape (s : PStr) : readText (saxEscape s) = some s := by
  unfold readText
  induction s with
  | nil => rfl
  | cons c s ih => rw [saxEscape_cons, read_textChar, ih]; rfl

theorem read_xaBody (s : PStr) : readAttr (xaBody s) = some s := by
  unfold readAttr
  induction s with
  | nil => rfl
  | cons c s ih => rw [xaBody_cons, read_xaChar, ih]; rfl

theorem elementXa_eq (u : PStr) : elementXa u = xaBody u := by
  have hq : quoteattr ('\'' :: u) = '"' :: xaBody ('\'' :: u) ++ ['"'] := by
    have hb : ∀ s, xaBody s = replaceChar '"' "&quot;".toList
      (replaceChar '\t' "&#9;".toList (replaceChar '\r' "&#13;".toList (replaceChar '\n' "&#10;".toList (saxEscape s)))) := fun _ => rfl
    have hm : '\'' ∈ replaceChar '\t' "&#9;".toList (replaceChar '\r' "&#13;".toList (replaceChar '\n' "&#10;".toList (saxEscape ('\'' :: u)))) := by
      rw [saxEscape_cons]
      simp only [replaceChar_append]
      apply List.mem_append_left
      decide
    unfold quoteattr
    simp only
    rw [hb]
    generalize replaceChar '\t' "&#9;".toList (replaceChar '\r' "&#13;".toList (replaceChar '\n' "&#10;".toList (saxEscape ('\'' :: u)))) = d at hm
    rw [if_pos hm]
    by_cases h : '"' ∈ d
    · rw [if_pos h]
    · rw [if_neg h, replaceChar_not_mem _ _ _ h]
  unfold elementXa
  rw [hq, xaBody_cons]
  have : xaChar '\'' = ['\''] := by decide
  rw [this]
  show (xaBody u ++ ['"']).dropLast = xaBody u
  simp

/-- nothing in an escaped text can end the quoted string -/
theorem attrEscape_noquote (s : PStr) : ∀ c ∈ attrEscape s, c ≠ '"' ∧ c ≠ '<' ∧ c ≠ '>' := by
  induction s with
  | nil => simp [attrEscape, replaceChar]
  | cons x s ih =>
    rw [attrEscape_cons]
    intro c hc
    rcases List.mem_append.1 hc with h | h
    · unfold attrChar at h
      by_cases h1 : x = '&'
      · rw [if_pos h1] at h
        exact by have : ∀ c ∈ "&amp;".toList, c ≠ '"' ∧ c ≠ '<' ∧ c ≠ '>' := by decide
                 exact this c h
      by_cases h2 : x = '<'
      · rw [if_neg h1, if_pos h2] at h
        exact by have : ∀ c ∈ "&lt;".toList, c ≠ '"' ∧ c ≠ '<' ∧ c ≠ '>' := by decide
                 exact this c h
      by_cases h3 : x = '>'
      · rw [if_neg h1, if_neg h2, if_pos h3] at h
        exact by have : ∀ c ∈ "&gt;".toList, c ≠ '"' ∧ c ≠ '<' ∧ c ≠ '>' := by decide
                 exact this c h
      by_cases h4 : x = '"'
      · rw [if_neg h1, if_neg h2, if_neg h3, if_pos h4] at h
        exact by have : ∀ c ∈ "&quot;".toList, c ≠ '"' ∧ c ≠ '<' ∧ c ≠ '>' := by decide
                 exact this c h
      · rw [if_neg h1, if_neg h2, if_neg h3, if_neg h4] at h
        simp only [List.mem_singleton] at h
        subst h
        exact ⟨h4, h2, h3⟩
    · exact ih c h

end Flatland
