import Verif.Spec.Messages
import Verif.Proofs.Messages
/-! C60: validation messages. -/
namespace Flatland
open Flatland.Spec

variable [Runtime]

omit [Runtime] in
theorem targetGet_offers {t : Target} {k : PStr} {v : PyVal} (h : Offers t k v) : targetGet t k = .ok (some v) := by
  rcases h with ⟨get, h1, h2⟩ | ⟨hno, ha⟩
  · simp [targetGet, h1, h2]
  · unfold targetGet
    cases hi : t.item with
    | none => simp [ha]
    | some get =>
      obtain ⟨er, he, hk⟩ := hno get hi
      rcases hk with rfl | rfl | rfl | rfl <;> simp [he, itemMissing, ha]

omit [Runtime] in
theorem targetGet_lacks {t : Target} {k : PStr} (h : Lacks t k) : targetGet t k = .ok .none := by
  obtain ⟨hno, ha⟩ := h
  unfold targetGet
  cases hi : t.item with
  | none => simp [ha]
  | some get =>
    obtain ⟨er, he, hk⟩ := hno get hi
    rcases hk with rfl | rfl | rfl | rfl <;> simp [he, itemMissing, ha]

omit [Runtime] in
/-- C60. A key stands for the value in the first object (extra arguments, state, validator, element) that has it; items go before
attributes. -/
theorem C60_lookup (ts : List Target) (k : PStr) (v : PyVal) (h : FirstOffer ts k v) : mapGetItem .none ts k = .ok v := by
  obtain ⟨pre, t, post, rfl, hpre, ht⟩ := h
  have : mapGet k (pre ++ t :: post) = .ok v := by
    induction pre with
    | nil => simp [mapGet, targetGet_offers ht]
    | cons p pre ih =>
      rw [List.cons_append, mapGet, targetGet_lacks (hpre p (by simp))]
      exact ih fun q hq => hpre q (by simp [hq])
  simp [mapGetItem, this]

omit [Runtime] in
/-- C60. If looking a key up in an object raises anything that does not say that it is not there, that is raised, unless an object before it has the key. -/
theorem C60_lookup_raises (tr : Option Transform) (pre post : List Target) (t : Target) (k : PStr) (er : PyErr) (hpre : ∀ p ∈ pre, Lacks p k)
    (ht : LookupFails t k er) : mapGetItem tr (pre ++ t :: post) k = .error er := by
  have h1 : targetGet t k = .error er := by
    rcases ht with ⟨get, hg, he, hk⟩ | ⟨hno, ha, hk⟩
    · have : itemMissing er = false := by cases er <;> first | rfl | (exfalso; simp at hk)
      simp [targetGet, hg, he, this]
    · have hv : (match t.attr k with | .ok v => .ok (some v) | .error .attribute => .ok .none | .error er => .error er : Except PyErr (Option PyVal)) = .error er := by
        rw [ha]; cases er <;> first | rfl | exact absurd rfl hk
      unfold targetGet
      cases hi : t.item with
      | none => exact hv
      | some get =>
        obtain ⟨er', he, hk'⟩ := hno get hi
        rcases hk' with rfl | rfl | rfl | rfl <;> simp only [he, itemMissing, if_true] <;> exact hv
  have : mapGet k (pre ++ t :: post) = .error er := by
    induction pre with
    | nil => simp [mapGet, h1]
    | cons p pre ih =>
      rw [List.cons_append, mapGet, targetGet_lacks (hpre p (by simp))]
      exact ih fun q hq => hpre q (by simp [hq])
  simp [mapGetItem, this]

omit [Runtime] in
/-- C60. A key none of the objects has is a KeyError. -/
theorem C60_lookup_unknown (tr : Option Transform) (ts : List Target) (k : PStr) (h : ∀ t ∈ ts, Lacks t k) : mapGetItem tr ts k = .error .key := by
  have : mapGet k ts = .error .key := by
    induction ts with
    | nil => rfl
    | cons p ts ih =>
      rw [mapGet, targetGet_lacks (h p (by simp))]
      exact ih fun q hq => h q (by simp [hq])
  simp [mapGetItem, this]

omit [Runtime] in
/-- C60. `key in mapping`: what the first that has it offers is there, whatever the translation; what nothing has is not; an exception of a lookup comes through. -/
theorem C60_contains (tr : Option Transform) (ts : List Target) (k : PStr) :
    (∀ v, FirstOffer ts k v → mapContains tr ts k = .ok true) ∧ ((∀ t ∈ ts, Lacks t k) → mapContains tr ts k = .ok false) ∧
    ∀ pre t post er, ts = pre ++ t :: post → (∀ p ∈ pre, Lacks p k) → LookupFails t k er → er ≠ .key → mapContains tr ts k = .error er := by
  refine ⟨fun v hv => ?_, fun h => ?_, ?_⟩
  · have h1 : mapGet k ts = .ok v := by
      have := C60_lookup ts k v hv
      unfold mapGetItem at this
      split at this
      · simp at this
      · simpa using ‹mapGet k ts = _›.trans this
    cases tr <;> simp [mapContains, mapGetItem, h1]
  · simp [mapContains, C60_lookup_unknown tr ts k h]
  · rintro pre t post er rfl hpre ht hne
    rw [mapContains, C60_lookup_raises tr pre post t k er hpre ht]
    cases er <;> first | rfl | exact absurd rfl hne

theorem format_lit (look : PStr → Except PyErr PyVal) (s rest : PStr) :
    formatGo look .text ((Piece.lit s).template ++ rest) = (formatGo look .text rest).map (s ++ ·) := by
  induction s with
  | nil => simp [Piece.template]; cases formatGo look .text rest <;> rfl
  | cons c s ih =>
    simp only [Piece.template] at ih
    simp only [Piece.template, List.flatMap_cons]
    by_cases hc : c = '%'
    · subst hc
      simp only [if_true, List.cons_append, List.nil_append, formatGo]
      rw [ih]; cases formatGo look .text rest <;> rfl
    · simp only [hc, if_false, List.cons_append, List.nil_append, formatGo]
      rw [ih]; cases formatGo look .text rest <;> rfl

theorem format_key_scan (look : PStr → Except PyErr PyVal) (k acc rest : PStr) (hk : ∀ c ∈ k, c ≠ '(' ∧ c ≠ ')') :
    formatGo look (.key acc 1) (k ++ ')' :: rest) =
      match look (acc ++ k) with
      | .error er => .error er
      | .ok v => formatGo look (.conv v) rest := by
  induction k generalizing acc with
  | nil =>
    simp only [List.nil_append, List.append_nil, formatGo, if_true, Nat.le_refl]
    cases look acc <;> rfl
  | cons c k ih =>
    have h1 := (hk c (by simp)).1
    have h2 := (hk c (by simp)).2
    rw [List.cons_append, formatGo, if_neg h2, if_neg h1, ih _ fun d hd => hk d (by simp [hd])]
    simp

theorem format_key (look : PStr → Except PyErr PyVal) (k rest : PStr) (hk : (Piece.key k).ok) :
    formatGo look .text ((Piece.key k).template ++ rest) =
      match look k with
      | .error er => .error er
      | .ok v => (formatGo look .text rest).map (pyText v ++ ·) := by
  have e : (Piece.key k).template ++ rest = '%' :: '(' :: (k ++ ')' :: ('s' :: rest)) := by simp [Piece.template]
  rw [e]
  simp only [formatGo, if_true, if_neg (show ¬ '(' = '%' by decide)]
  rw [format_key_scan look k [] ('s' :: rest) hk]
  simp only [List.nil_append]
  cases look k with
  | error er => rfl
  | ok v => simp [formatGo]

/-- C60. A message made of text and keys shows the text as it is and the text of each key's value. -/
theorem C60_format (ps : List Piece) (hps : ∀ p ∈ ps, p.ok) (look : PStr → Except PyErr PyVal) (value : PStr → PyVal)
    (hv : ∀ k, .key k ∈ ps → look k = .ok (value k)) :
    formatMessage look (ps.flatMap Piece.template) = .ok (ps.flatMap (Piece.shown value)) := by
  unfold formatMessage
  induction ps with
  | nil => rfl
  | cons p ps ih =>
    have ih' := ih (fun q hq => hps q (by simp [hq])) fun k hk => hv k (by simp [hk])
    rw [List.flatMap_cons]
    cases p with
    | lit s => rw [format_lit, ih']; rfl
    | key k =>
      rw [format_key look k _ (hps (.key k) (by simp)), hv k (by simp), ih']; rfl

/-- C60. If the value of some key cannot be found, expansion raises – with the first such key's exception. -/
theorem C60_format_raises (pre post : List Piece) (hpre : ∀ p ∈ pre, p.ok) (k : PStr) (hk : (Piece.key k).ok) (look : PStr → Except PyErr PyVal)
    (value : PStr → PyVal) (hv : ∀ k, .key k ∈ pre → look k = .ok (value k)) (er : PyErr) (he : look k = .error er) :
    formatMessage look ((pre ++ .key k :: post).flatMap Piece.template) = .error er := by
  unfold formatMessage
  induction pre with
  | nil =>
    rw [List.nil_append, List.flatMap_cons, format_key look k _ hk, he]
  | cons p pre ih =>
    have ih' := ih (fun q hq => hpre q (by simp [hq])) fun k hk => hv k (by simp [hk])
    rw [List.cons_append, List.flatMap_cons]
    cases p with
    | lit s => rw [format_lit, ih']; rfl
    | key j => rw [format_key look j _ (hpre (.key j) (by simp)), hv j (by simp), ih']; rfl

/-- C60. `note_error` without translation: the message is shown with its keys' values, added once (not again if it is there already),
and the result is False. -/
theorem C60_note (ts : List Target) (messages : List PStr) (ps : List Piece) (hps : ∀ p ∈ ps, p.ok) (hne : ps.flatMap Piece.template ≠ [])
    (value : PStr → PyVal) (hv : ∀ k, .key k ∈ ps → FirstOffer ts k (value k)) :
    noteMessage ⟨ts, .ok .none, .ok .none⟩ messages .none (.ok (.fixed (.single (ps.flatMap Piece.template)))) =
      (if ps.flatMap (Piece.shown value) ∈ messages then messages else messages ++ [ps.flatMap (Piece.shown value)], .ok false) := by
  have ht : (MsgAttr.fixed (.single (ps.flatMap Piece.template))).truth = true := by
    simpa [MsgAttr.truth, List.isEmpty_iff] using hne
  have hexp : expandMessage ⟨ts, .ok .none, .ok .none⟩ (.fixed (.single (ps.flatMap Piece.template))) = .ok (ps.flatMap (Piece.shown value)) :=
    C60_format ps hps _ value fun k hk => C60_lookup ts k (value k) (hv k hk)
  simp only [noteMessage, show MsgAttr.none.truth = false from rfl, Bool.false_eq_true, if_false, ht, if_true, hexp]

/-- C60. A message with a key that nothing provides raises KeyError and nothing is added. -/
theorem C60_note_unknown_key (ts : List Target) (messages : List PStr) (pre post : List Piece) (hpre : ∀ p ∈ pre, p.ok) (k : PStr)
    (hk : (Piece.key k).ok) (value : PStr → PyVal) (hv : ∀ k, .key k ∈ pre → FirstOffer ts k (value k)) (hl : ∀ t ∈ ts, Lacks t k) :
    noteMessage ⟨ts, .ok .none, .ok .none⟩ messages .none (.ok (.fixed (.single ((pre ++ .key k :: post).flatMap Piece.template)))) =
      (messages, .error .key) := by
  have ht : (MsgAttr.fixed (.single ((pre ++ .key k :: post).flatMap Piece.template))).truth = true := by
    simp [MsgAttr.truth, List.flatMap_append, Piece.template]
  have hexp : expandMessage ⟨ts, .ok .none, .ok .none⟩ (.fixed (.single ((pre ++ .key k :: post).flatMap Piece.template))) = .error .key :=
    C60_format_raises pre post hpre k hk _ value (fun j hj => C60_lookup ts j (value j) (hv j hj)) .key (C60_lookup_unknown .none ts k hl)
  simp only [noteMessage, show MsgAttr.none.truth = false from rfl, Bool.false_eq_true, if_false, ht, if_true, hexp]

/-- C60. Whatever the message and environment: at most one message is added, at the end and only if it is not there yet; when an exception
is raised none is; a normal result is False. -/
theorem C60_note_adds_once (env : MsgEnv) (messages : List PStr) (given : MsgAttr) (attr : Except PyErr MsgAttr) :
    ((noteMessage env messages given attr).1 = messages ∨
      ∃ t, t ∉ messages ∧ (noteMessage env messages given attr).1 = messages ++ [t]) ∧
    ((noteMessage env messages given attr).2 = .ok false ∨
      ∃ er, (noteMessage env messages given attr).2 = .error er ∧ (noteMessage env messages given attr).1 = messages) := by
  unfold noteMessage
  split
  · exact ⟨.inl rfl, .inr ⟨_, rfl, rfl⟩⟩
  · split
    · split
      · exact ⟨.inl rfl, .inr ⟨_, rfl, rfl⟩⟩
      · rename_i t _
        by_cases ht : t ∈ messages
        · simp [ht]
        · simp only [ht, if_false]
          exact ⟨.inr ⟨t, ht, rfl⟩, .inl trivial⟩
    · exact ⟨.inl rfl, .inl rfl⟩

/-- C60. An explicit message goes before the attribute, which is not even looked up: what is added is the expansion of the given message,
and if that raises, nothing is. Without one, or with an empty one, the attribute is used. -/
theorem C60_given_message (env : MsgEnv) (messages : List PStr) (given : MsgAttr) (attr : Except PyErr MsgAttr) :
    (¬ Silent given → ∀ text, expandMessage env given = .ok text →
      noteMessage env messages given attr = (if text ∈ messages then messages else messages ++ [text], .ok false)) ∧
    (¬ Silent given → ∀ er, expandMessage env given = .error er → noteMessage env messages given attr = (messages, .error er)) ∧
    (Silent given → ∀ er, attr = .error er → noteMessage env messages given attr = (messages, .error er)) ∧
    (Silent given → ∀ m, attr = .ok m → ¬ Silent m → noteMessage env messages given attr = noteMessage env messages m attr) ∧
    (Silent given → ∀ m, attr = .ok m → Silent m → noteMessage env messages given attr = (messages, .ok false)) := by
  simp only [← msg_says, ← msg_silent]
  refine ⟨fun h text hx => ?_, fun h er hx => ?_, fun h er ha => ?_, fun h m ha hm => ?_, fun h m ha hm => ?_⟩ <;> simp_all [noteMessage]

/-- C60. An empty message adds nothing. -/
theorem C60_empty_message (env : MsgEnv) (messages : List PStr) : noteMessage env messages .none (.ok (.fixed (.single []))) = (messages, .ok false) ∧
    noteMessage env messages .none (.ok .none) = (messages, .ok false) := ⟨rfl, rfl⟩

/-- C60. Without translation, a plural message takes the singular form exactly if the number is 1. -/
theorem C60_plural (ts : List Target) (one many nKey : PStr) (i : Int) (v : PyVal) (hv : FirstOffer ts nKey v) (hi : CountOf v i) :
    expandMessage ⟨ts, .ok .none, .ok .none⟩ (.fixed (.plural one many nKey)) =
      expandMessage ⟨ts, .ok .none, .ok .none⟩ (.fixed (.single (if i = 1 then one else many))) := by
  have : pluralNumber .none ts nKey = .ok (.int i) := by simp [pluralNumber, C60_lookup ts nKey v hv, intOf_count hi]
  simp only [expandMessage, chooseTemplate, this, pyEq]
  by_cases h : i = 1
  · simp [h]
  · simp [h]

/-- C60. Where the "number" is none: a text that is no numeral raises ValueError; what cannot be turned into a number at all (None, a date,
a time, a list, a mapping) takes the plural form. -/
theorem C60_plural_no_number (ts : List Target) (one many nKey : PStr) :
    (∀ s, FirstOffer ts nKey (.str s) → (∀ i, ¬ IntText s i) →
      expandMessage ⟨ts, .ok .none, .ok .none⟩ (.fixed (.plural one many nKey)) = .error .value) ∧
    (∀ v, FirstOffer ts nKey v → (v = .none ∨ (∃ y m d, v = .date y m d) ∨ (∃ h m s u, v = .time h m s u) ∨ ∃ xs, v = .list xs) →
      expandMessage ⟨ts, .ok .none, .ok .none⟩ (.fixed (.plural one many nKey)) =
        expandMessage ⟨ts, .ok .none, .ok .none⟩ (.fixed (.single many))) := by
  refine ⟨fun s hv hs => ?_, fun v hv hk => ?_⟩
  · have : pluralNumber .none ts nKey = .error .value := by simp [pluralNumber, C60_lookup ts nKey _ hv, intOf_no_numeral hs]
    simp only [expandMessage, chooseTemplate, this]
  · have : pluralNumber .none ts nKey = .ok v := by
      rcases hk with rfl | ⟨y, m, d, rfl⟩ | ⟨h, m, s, u, rfl⟩ | ⟨xs, rfl⟩ <;> simp [pluralNumber, C60_lookup ts nKey _ hv, intOf]
    have he : pyEq v (.int 1) = false := by
      rcases hk with rfl | ⟨y, m, d, rfl⟩ | ⟨h, m, s, u, rfl⟩ | ⟨xs, rfl⟩ <;> simp [pyEq]
    simp only [expandMessage, chooseTemplate, this, he]
    simp

/-- C60. A plural message whose number nobody provides takes the plural form. -/
theorem C60_plural_unknown (ts : List Target) (one many nKey : PStr) (hl : ∀ t ∈ ts, Lacks t nKey) :
    expandMessage ⟨ts, .ok .none, .ok .none⟩ (.fixed (.plural one many nKey)) = expandMessage ⟨ts, .ok .none, .ok .none⟩ (.fixed (.single many)) := by
  have : pluralNumber .none ts nKey = .ok (.str nKey) := by simp [pluralNumber, C60_lookup_unknown .none ts nKey hl]
  simp only [expandMessage, chooseTemplate, this, pyEq]
  simp

/-- C60. With `ugettext` alone: the chosen form is translated, and so is the value of every key. -/
theorem C60_translated (ts : List Target) (tr : Transform) (template : PStr) (ps : List Piece) (hps : ∀ p ∈ ps, p.ok)
    (ht : tr.text template = ps.flatMap Piece.template) (value : PStr → PyVal) (hv : ∀ k, .key k ∈ ps → FirstOffer ts k (value k)) :
    expandMessage ⟨ts, .ok (some tr), .ok .none⟩ (.fixed (.single template)) = .ok (ps.flatMap (Piece.shown fun k => tr.value (value k))) := by
  simp only [expandMessage, chooseTemplate, ht]
  refine C60_format ps hps _ _ fun k hk => ?_
  have := C60_lookup ts k (value k) (hv k hk)
  unfold mapGetItem at this ⊢
  cases hm : mapGet k ts with
  | error er => rw [hm] at this; cases this
  | ok v => rw [hm] at this; simp at this; simp [this]

/-- C60. With `ungettext`, it gets both forms and the number, and decides. -/
theorem C60_ungettext (ts : List Target) (f : PStr → PStr → PyVal → PStr) (one many nKey : PStr) (i : Int) (v : PyVal)
    (hv : FirstOffer ts nKey v) (hi : CountOf v i) :
    expandMessage ⟨ts, .ok .none, .ok (some f)⟩ (.fixed (.plural one many nKey)) =
      expandMessage ⟨ts, .ok .none, .ok (some f)⟩ (.fixed (.single (f one many (.int i)))) := by
  have : pluralNumber .none ts nKey = .ok (.int i) := by simp [pluralNumber, C60_lookup ts nKey v hv, intOf_count hi]
  simp only [expandMessage, chooseTemplate, this]

/-- C60. What `ungettext` gets instead of a number: what cannot be turned into a number at all as it is, and the key if nobody provides a value for it. -/
theorem C60_ungettext_no_number (ts : List Target) (f : PStr → PStr → PyVal → PStr) (one many nKey : PStr) :
    (∀ v, FirstOffer ts nKey v → (v = .none ∨ (∃ y m d, v = .date y m d) ∨ (∃ h m s u, v = .time h m s u) ∨ ∃ xs, v = .list xs) →
      expandMessage ⟨ts, .ok .none, .ok (some f)⟩ (.fixed (.plural one many nKey)) =
        expandMessage ⟨ts, .ok .none, .ok (some f)⟩ (.fixed (.single (f one many v)))) ∧
    ((∀ t ∈ ts, Lacks t nKey) →
      expandMessage ⟨ts, .ok .none, .ok (some f)⟩ (.fixed (.plural one many nKey)) =
        expandMessage ⟨ts, .ok .none, .ok (some f)⟩ (.fixed (.single (f one many (.str nKey))))) := by
  refine ⟨fun v hv hk => ?_, fun hl => ?_⟩
  · have : pluralNumber .none ts nKey = .ok v := by
      rcases hk with rfl | ⟨y, m, d, rfl⟩ | ⟨h, m, s, u, rfl⟩ | ⟨xs, rfl⟩ <;> simp [pluralNumber, C60_lookup ts nKey _ hv, intOf]
    simp only [expandMessage, chooseTemplate, this]
  · have : pluralNumber .none ts nKey = .ok (.str nKey) := by simp [pluralNumber, C60_lookup_unknown .none ts nKey hl]
    simp only [expandMessage, chooseTemplate, this]

/-- C60. With `ugettext`, the number is that of the translated value.  Without `ungettext` the form it chooses is translated as a message of one form is;
with `ungettext` what that returns is not translated again, but the values in it are. -/
theorem C60_plural_translated (ts : List Target) (tr : Transform) (one many nKey : PStr) (i : Int) (v : PyVal) (hv : FirstOffer ts nKey v)
    (hi : CountOf (tr.value v) i) :
    expandMessage ⟨ts, .ok (some tr), .ok .none⟩ (.fixed (.plural one many nKey)) =
      expandMessage ⟨ts, .ok (some tr), .ok .none⟩ (.fixed (.single (if i = 1 then one else many))) ∧
    ∀ (f : PStr → PStr → PyVal → PStr) (ps : List Piece) (value : PStr → PyVal), (∀ p ∈ ps, p.ok) → f one many (.int i) = ps.flatMap Piece.template →
      (∀ k, .key k ∈ ps → FirstOffer ts k (value k)) →
      expandMessage ⟨ts, .ok (some tr), .ok (some f)⟩ (.fixed (.plural one many nKey)) = .ok (ps.flatMap (Piece.shown fun k => tr.value (value k))) := by
  have hlook : ∀ k w, FirstOffer ts k w → mapGetItem (some tr) ts k = .ok (tr.value w) := by
    intro k w hw
    have := C60_lookup ts k w hw
    unfold mapGetItem at this ⊢
    cases hm : mapGet k ts with
    | error er => rw [hm] at this; cases this
    | ok v => rw [hm] at this; simp at this; simp [this]
  have hn : pluralNumber (some tr) ts nKey = .ok (.int i) := by simp [pluralNumber, hlook nKey v hv, intOf_count hi]
  refine ⟨?_, fun f ps value hps hf hval => ?_⟩
  · simp only [expandMessage, chooseTemplate, hn, pyEq]
    by_cases h : i = 1
    · simp [h]
    · simp [h]
  · simp only [expandMessage, chooseTemplate, hn, hf]
    exact C60_format ps hps _ _ fun k hk => hlook k (value k) (hval k hk)

omit [Runtime] in
/-- C60. Where a translation function comes from: `state` (attribute before item), else the nearest of the element and its parents that has
one, else the builtins. -/
theorem C60_transformer {T : Type} (state : I18nState T) (ancestry : List (Option T)) (builtin : Option T) :
    (∀ t, state.attr = some t → findTransformer state ancestry builtin = .ok t) ∧
    (∀ t, state.attr = .none → state.item = some (.ok t) → findTransformer state ancestry builtin = .ok t) ∧
    (state.attr = .none → (state.item = .none ∨ state.item = some (.error .key)) →
      (∀ t far, ∀ near : List (Option T), ancestry = near ++ some t :: far → (∀ x ∈ near, x = .none) →
        findTransformer state ancestry builtin = .ok (some t)) ∧
      ((∀ x ∈ ancestry, x = .none) → findTransformer state ancestry builtin = .ok builtin)) := by
  refine ⟨fun t h => by simp [findTransformer, h], fun t h1 h2 => by simp [findTransformer, h1, h2], fun h1 h2 => ⟨?_, ?_⟩⟩
  · intro t far near ha hn
    have : searchAncestry ancestry = some t := by
      rw [ha]
      clear ha
      induction near with
      | nil => rfl
      | cons x near ih =>
        rw [List.cons_append, hn x (by simp), searchAncestry]
        exact ih fun y hy => hn y (by simp [hy])
    rcases h2 with h2 | h2 <;> simp [findTransformer, h1, h2, this]
  · intro ha
    have : searchAncestry ancestry = .none := by
      induction ancestry with
      | nil => rfl
      | cons x l ih =>
        rw [ha x (by simp), searchAncestry]
        exact ih fun y hy => ha y (by simp [hy])
    rcases h2 with h2 | h2 <;> simp [findTransformer, h1, h2, this]

end Flatland

namespace Flatland
open Flatland.Spec
section examples
attribute [local instance] Runtime.ascii

/-- an extra argument `n`, a validator attribute `minimum`, an element with a `label` -/
def exTargets : List Target :=
  [⟨some fun k => if k = ['n'] then .ok (.int 1) else .error .key, fun _ => .error .attribute⟩,
   ⟨.none, fun k => if k = ['m'] then .ok (.int 3) else .error .attribute⟩,
   ⟨some fun _ => .error .type, fun k => if k = ['l'] then .ok (.str ['W']) else .error .attribute⟩]

def exMessage : List Piece := [.key ['l'], .lit [':', '5', '%', ','], .key ['m']]

theorem exTargets_lack (k : PStr) (h1 : k ≠ ['n']) (h2 : k ≠ ['m']) (h3 : k ≠ ['l']) : ∀ t ∈ exTargets, Lacks t k := by
  intro t ht
  rcases List.mem_cons.1 ht with rfl | ht
  · exact ⟨by intro get hg; cases hg; exact ⟨.key, by simp [h1], .inl rfl⟩, rfl⟩
  rcases List.mem_cons.1 ht with rfl | ht
  · exact ⟨by intro get hg; (cases hg), by simp [h2]⟩
  rcases List.mem_cons.1 ht with rfl | ht
  · exact ⟨by intro get hg; cases hg; exact ⟨.type, rfl, .inr (.inr (.inr rfl))⟩, by simp [h3]⟩
  · cases ht

example : FirstOffer exTargets ['m'] (.int 3) :=
  ⟨[_], _, [_], rfl, by
    intro p hp
    rcases List.mem_cons.1 hp with rfl | hp
    · exact ⟨by intro get hg; cases hg; exact ⟨.key, by decide, .inl rfl⟩, rfl⟩
    · exact absurd hp (by simp), .inr ⟨by intro get hg; (cases hg), by decide⟩⟩
example : exMessage.flatMap Piece.template = "%(l)s:5%%,%(m)s".toList := by decide
example : formatMessage (mapGetItem .none exTargets) (exMessage.flatMap Piece.template) = .ok ("W:5%,".toList ++ pyText (.int 3)) := by
  simp [formatMessage, exMessage, Piece.template, formatGo, mapGetItem, mapGet, targetGet, exTargets, itemMissing, pyText, Except.map]
example : ∀ t ∈ exTargets, Lacks t ['x'] := exTargets_lack _ (by decide) (by decide) (by decide)
example : noteMessage ⟨exTargets, .ok .none, .ok .none⟩ [] .none (.ok (.fixed (.single ['%', '(', 'x', ')', 's']))) = ([], .error .key) := by rfl
example : expandMessage ⟨exTargets, .ok .none, .ok .none⟩ (.fixed (.plural ['o'] ['p'] ['n'])) = .ok ['o'] := by rfl

/-- both functions: the values of keys are translated, what ungettext returns is not -/
example : CountOf (PyVal.int 3) 3 ∧
    (expandMessage ⟨exTargets, .ok (some ⟨List.reverse, fun _ => .int 3⟩), .ok (some fun one many n => if n = .int 3 then ['x', '%', '(', 'l', ')', 's'] else one ++ many)⟩
      (.fixed (.plural ['o'] ['p'] ['m']))).toOption = some ['x', '3'] ∧
    expandMessage ⟨exTargets, .ok (some ⟨List.reverse, fun v => v⟩), .ok .none⟩ (.fixed (.plural ['o'] ['p', 'q'] ['m'])) = .ok ['q', 'p'] :=
  ⟨.int, by decide +kernel, by rfl⟩

/-- an object that refuses: a property that raises ValueError -/
example : LookupFails ⟨.none, fun _ => .error .value⟩ ['x'] .value ∧ ∀ t ∈ exTargets, Lacks t ['x'] :=
  ⟨.inr ⟨(by intro get hg; cases hg), rfl, by decide⟩, exTargets_lack _ (by decide) (by decide) (by decide)⟩

/-- hypotheses of `C60_given_message` are met: a plural message is a message even with empty texts; and the outcome -/
example : ¬ Silent (.fixed (.plural [] [] ['n'])) ∧ Silent (.fixed (.single [])) ∧
    noteMessage ⟨exTargets, .ok .none, .ok .none⟩ [['a']] (.fixed (.single ['b'])) (.error .attribute) = ([['a'], ['b']], .ok false) ∧
    noteMessage ⟨exTargets, .ok .none, .ok .none⟩ [['a']] (.fixed (.single [])) (.error .attribute) = ([['a']], .error .attribute) :=
  ⟨by simp [Silent], .inr rfl, rfl, rfl⟩
/-- hypotheses of `C60_plural_no_number` are met -/
example : FirstOffer exTargets ['l'] (.str ['W']) ∧ ∀ i, ¬ IntText ['W'] i := by
  refine ⟨⟨[_, _], _, [], rfl, ?_, .inr ⟨?_, by decide⟩⟩, fun i h => ?_⟩
  · intro t ht
    rcases List.mem_cons.1 ht with rfl | ht
    · exact ⟨by intro get hg; cases hg; exact ⟨.key, by decide, .inl rfl⟩, rfl⟩
    rcases List.mem_cons.1 ht with rfl | ht
    · exact ⟨by intro get hg; (cases hg), by decide⟩
    · cases ht
  · intro get hg; cases hg; exact ⟨.type, rfl, .inr (.inr (.inr rfl))⟩
  · rw [← pyInt_iff] at h
    have h0 : pyInt ['W'] = .none := by decide
    rw [h0] at h
    cases h

/-- C60, the exception: `state` may not be a sequence or text – looking for a translation function in it raises TypeError, which is passed
on although there is a function elsewhere. -/
theorem C60_sequence_state_raises {T : Type} (ancestry : List (Option T)) (builtin : Option T) :
    findTransformer ⟨.none, some (.error .type)⟩ ancestry builtin = .error .type := by
  simp [findTransformer]

end examples
end Flatland
