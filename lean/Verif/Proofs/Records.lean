import Verif.Spec.Records
import Verif.Props.RichTree
import Verif.Proofs.RichCycle
import Verif.Proofs.RichValues
import Verif.Proofs.Stored
/-
Lemmas for C90.
-/
namespace Flatland
open Flatland.Spec

section
variable [Runtime]

/-! ### what depends on texts and values only -/

/-- the condition looks at text and value of a scalar only -/
def DataOnly (P : Bool → ScalarType → ScalarState → Prop) : Prop := ∀ p t a b, SameData a b → P p t a → P p t b

theorem readapts_data : DataOnly fun _ t st => ReAdapts t st := by
  rintro p t a b ⟨h1, h2⟩ ⟨st', h3, h4, h5⟩
  exact ⟨st', by rw [← h2]; exact h3, by rw [← h1]; exact h4, by rw [← h2]; exact h5⟩

theorem readsBack_data : DataOnly (ReadsBack SameData) := by
  rintro p t a b ⟨h1, h2⟩ h
  unfold ReadsBack at *
  rw [← h1]
  exact ⟨by rw [← h1]; exact h.1, by rw [← h2]; exact h.2⟩

omit [Runtime] in
theorem sameByAll_mem {R : ScalarState → ScalarState → Prop} : ∀ {ks ks' : List Elem}, SameByAll R ks ks' → ∀ k' ∈ ks', ∃ k ∈ ks, SameBy R k k'
  | [], [], _, k', h => absurd h List.not_mem_nil
  | k :: ks, k' :: ks', ⟨h1, h2⟩, x, hx => by
    rcases List.mem_cons.1 hx with rfl | hx
    · exact ⟨k, List.mem_cons_self, h1⟩
    · obtain ⟨y, hy, hs⟩ := sameByAll_mem h2 x hx
      exact ⟨y, List.mem_cons_of_mem _ hy, hs⟩
  | [], _ :: _, h, _, _ => h.elim
  | _ :: _, [], h, _, _ => h.elim

omit [Runtime] in
theorem texts_same {e e' : Elem} (h : SameBy SameData e e') : (leaves e).map (fun l => l.st.u) = (leaves e').map fun l => l.st.u := by
  have := leaves_sameText e e' (sameBy_mono (fun _ _ h => h.1) e e' h)
  have h2 := congrArg (List.map fun x => x.2.2) this
  simpa [leafText, Function.comp_def] using h2

omit [Runtime] in
theorem kept_same {p : Bool} {e e' : Elem} (h : SameBy SameData e e') (hk : ∃ l ∈ leaves e, dropped p l = false) : ∃ l ∈ leaves e', dropped p l = false := by
  obtain ⟨l, hl, hd⟩ := hk
  have : l.st.u ∈ (leaves e').map fun l => l.st.u := by
    rw [← texts_same h]
    exact List.mem_map_of_mem hl
  obtain ⟨l', hl', hu⟩ := List.mem_map.1 this
  refine ⟨l', hl', ?_⟩
  unfold dropped at *
  rw [hu]
  exact hd

omit [Runtime] in
theorem state_same {e e' : Elem} (h : SameBy SameData e e') : e.state.u = e'.state.u := by
  cases e <;> cases e' <;> simp only [SameBy] at h
  · exact h.2.1
  all_goals rfl

omit [Runtime] in
mutual
theorem conforms_same : ∀ (s : Schema) (e e' : Elem), SameBy SameData e e' → Conforms s e → Conforms s e'
  | s, e, e', h, hc => by
    cases s <;> cases e <;> simp only [Conforms] at hc <;> cases e' <;> simp only [SameBy] at h
    · exact h.1 ▸ hc
    · exact ⟨h.1 ▸ hc.1, conformsAll_same _ _ _ _ h.2 hc.2⟩
    · refine ⟨h.1 ▸ hc.1, fun k' hk' => ?_⟩
      obtain ⟨k, hk, hs⟩ := sameByAll_mem h.2 k' hk'
      exact conforms_same _ k k' hs (hc.2 k hk)
    · refine ⟨h.1 ▸ hc.1, fun k' hk' => ?_⟩
      obtain ⟨k, hk, hs⟩ := sameByAll_mem h.2 k' hk'
      exact conforms_same _ k k' hs (hc.2 k hk)
theorem conformsAll_same (mode : DictMode) : ∀ (fs : List Schema) (ks ks' : List Elem), SameByAll SameData ks ks' → ConformsAll mode fs ks → ConformsAll mode fs ks'
  | [], [], [], _, _ => trivial
  | f :: fs, k :: ks, k' :: ks', ⟨h1, h2⟩, ⟨hc1, hc2⟩ => by
    refine ⟨?_, conformsAll_same mode fs ks ks' h2 hc2⟩
    rcases hc1 with ⟨rfl, ha⟩ | hc1
    · left
      cases k' <;> simp only [SameBy] at h1
      exact ⟨rfl, ha⟩
    · exact .inr (conforms_same f k k' h1 hc1)
  | [], [], _ :: _, h, _ => h.elim
  | _, _ :: _, [], h, _ => h.elim
  | [], _ :: _, _ :: _, _, hc => hc.elim
  | _ :: _, [], _, _, hc => hc.elim
end

omit [Runtime] in
theorem sameByAll_present {ks ks' : List Elem} (h : SameByAll SameData ks ks') (hp : ∀ k ∈ ks, k.present = true) : ∀ k ∈ ks', k.present = true := by
  intro k' hk'
  obtain ⟨k, hk, hs⟩ := sameByAll_mem h k' hk'
  rw [← (sameBy_present hs).1]
  exact hp k hk

omit [Runtime] in
mutual
theorem complete_same : ∀ (s : Schema) (e e' : Elem), SameBy SameData e e' → Complete s e → Complete s e'
  | s, e, e', h, hc => by
    cases s <;> cases e' <;> simp only [Complete] <;> cases e <;> simp only [SameBy] at h <;> simp only [Complete] at hc
    · exact ⟨fun hp => sameByAll_present h.2 (hc.1 hp), completeAll_same _ _ _ h.2 hc.2⟩
    · intro k' hk'
      obtain ⟨k, hk, hs⟩ := sameByAll_mem h.2 k' hk'
      exact complete_same _ k k' hs (hc k hk)
    · intro k' hk'
      obtain ⟨k, hk, hs⟩ := sameByAll_mem h.2 k' hk'
      exact complete_same _ k k' hs (hc k hk)
theorem completeAll_same : ∀ (fs : List Schema) (ks ks' : List Elem), SameByAll SameData ks ks' → CompleteAll fs ks → CompleteAll fs ks'
  | f :: fs, k :: ks, k' :: ks', ⟨h1, h2⟩, ⟨hc1, hc2⟩ => ⟨complete_same f k k' h1 hc1, completeAll_same fs ks ks' h2 hc2⟩
  | [], _, _, _, _ => by simp [CompleteAll]
  | _ :: _, _, [], _, _ => by simp [CompleteAll]
  | _ :: _, [], _ :: _, h, _ => h.elim
end

omit [Runtime] in
mutual
theorem each_same {P : Bool → ScalarType → ScalarState → Prop} (hP : DataOnly P) : ∀ (s : Schema) (p : Bool) (e e' : Elem), SameBy SameData e e' →
    EachScalar P p s e → EachScalar P p s e'
  | s, p, e, e', h, hc => by
    cases s <;> cases e' <;> simp only [EachScalar] <;> cases e <;> simp only [SameBy] at h <;> simp only [EachScalar] at hc
    · exact hP _ _ _ _ h.2 hc
    · exact eachAll_same hP _ _ _ _ h.2 hc
    · intro k' hk'
      obtain ⟨k, hk, hs⟩ := sameByAll_mem h.2 k' hk'
      exact each_same hP _ _ k k' hs (hc k hk)
    · intro k' hk'
      obtain ⟨k, hk, hs⟩ := sameByAll_mem h.2 k' hk'
      exact each_same hP _ _ k k' hs (hc k hk)
theorem eachAll_same {P : Bool → ScalarType → ScalarState → Prop} (hP : DataOnly P) : ∀ (fs : List Schema) (p : Bool) (ks ks' : List Elem),
    SameByAll SameData ks ks' → EachScalarAll P p fs ks → EachScalarAll P p fs ks'
  | f :: fs, p, k :: ks, k' :: ks', ⟨h1, h2⟩, ⟨hc1, hc2⟩ => ⟨each_same hP f p k k' h1 hc1, eachAll_same hP fs p ks ks' h2 hc2⟩
  | [], _, _, _, _, _ => by simp [EachScalarAll]
  | _ :: _, _, _, [], _, _ => by simp [EachScalarAll]
  | _ :: _, _, [], _ :: _, h, _ => h.elim
end

omit [Runtime] in
theorem sameByAll_length {R : ScalarState → ScalarState → Prop} : ∀ {ks ks' : List Elem}, SameByAll R ks ks' → ks.length = ks'.length
  | [], [], _ => rfl
  | _ :: _, _ :: _, ⟨_, h⟩ => by simp [sameByAll_length h]
  | [], _ :: _, h => h.elim
  | _ :: _, [], h => h.elim

mutual
theorem carried_same : ∀ (s : Schema) (p : Bool) (e e' : Elem), SameBy SameData e e' → Carried p s e → Carried p s e'
  | s, p, e, e', h, hc => by
    cases s <;> cases e' <;> simp only [Carried] <;> cases e <;> simp only [SameBy] at h <;> simp only [Carried] at hc
    · rw [← h.2.1]; exact hc
    · exact carriedAll_same _ _ _ _ _ h.2 hc
    · refine ⟨sameByAll_length h.2 ▸ hc.1, fun k' hk' => ?_⟩
      obtain ⟨k, hk, hs⟩ := sameByAll_mem h.2 k' hk'
      exact ⟨carried_same _ _ k k' hs (hc.2 k hk).1, kept_same hs (hc.2 k hk).2⟩
    · intro k' hk'
      obtain ⟨k, hk, hs⟩ := sameByAll_mem h.2 k' hk'
      exact ⟨carried_same _ _ k k' hs (hc k hk).1, by rw [← state_same hs]; exact (hc k hk).2⟩
theorem carriedAll_same : ∀ (fs : List Schema) (p : Bool) (mode : DictMode) (ks ks' : List Elem),
    SameByAll SameData ks ks' → CarriedAll p mode fs ks → CarriedAll p mode fs ks'
  | f :: fs, p, mode, k :: ks, k' :: ks', ⟨h1, h2⟩, ⟨hc1, hc2, hc3⟩ =>
    ⟨carried_same f p k k' h1 hc1, fun hp ha => kept_same h1 (hc2 ((sameBy_present h1).1 ▸ hp) ha), carriedAll_same fs p mode ks ks' h2 hc3⟩
  | [], _, _, _, _, _, _ => by simp [CarriedAll]
  | _ :: _, _, _, _, [], _, _ => by simp [CarriedAll]
  | _ :: _, _, _, [], _ :: _, h, _ => h.elim
end

omit [Runtime] in
theorem vSameAll_mem : ∀ {ks ks' : List VElem}, VSameAll ks ks' → ∀ k' ∈ ks', ∃ k ∈ ks, VSame k k'
  | [], [], _, k', h => absurd h List.not_mem_nil
  | k :: ks, k' :: ks', ⟨h1, h2⟩, x, hx => by
    rcases List.mem_cons.1 hx with rfl | hx
    · exact ⟨k, List.mem_cons_self, h1⟩
    · obtain ⟨y, hy, hs⟩ := vSameAll_mem h2 x hx
      exact ⟨y, List.mem_cons_of_mem _ hy, hs⟩
  | [], _ :: _, h, _, _ => h.elim
  | _ :: _, [], h, _, _ => h.elim

omit [Runtime] in
theorem dataOf_length {a b : List ScalarState} (h : dataOf a = dataOf b) : a.length = b.length := by
  have := congrArg List.length h
  simpa [dataOf] using this

omit [Runtime] in
theorem vSame_absent {k' : VElem} (h : VSame (.plain .absent) k') : k' = .plain .absent := by
  cases k' <;> simp only [VSame] at h
  rename_i e
  cases e <;> simp only [SameBy] at h
  rfl

omit [Runtime] in
mutual
theorem vConforms_same : ∀ (s : VSchema) (e e' : VElem), VSame e e' → VConforms s e → VConforms s e'
  | s, e, e', h, hc => by
    cases s <;> cases e <;> simp only [VConforms] at hc <;> cases e' <;> simp only [VSame] at h <;> simp only [VConforms]
    · exact conforms_same _ _ _ h hc
    · exact ⟨h.1 ▸ hc.1, h.2.1 ▸ hc.2⟩
    · exact ⟨h.1 ▸ hc.1, h.2.1 ▸ hc.2.1, by rw [← dataOf_length h.2.2]; exact hc.2.2⟩
    · exact ⟨h.1 ▸ hc.1, vConformsAll_same _ _ _ _ h.2 hc.2⟩
    · refine ⟨h.1 ▸ hc.1, fun k' hk' => ?_⟩
      obtain ⟨k, hk, hs⟩ := vSameAll_mem h.2 k' hk'
      exact vConforms_same _ k k' hs (hc.2 k hk)
    · refine ⟨h.1 ▸ hc.1, fun k' hk' => ?_⟩
      obtain ⟨k, hk, hs⟩ := vSameAll_mem h.2 k' hk'
      exact vConforms_same _ k k' hs (hc.2 k hk)
theorem vConformsAll_same (mode : DictMode) : ∀ (fs : List VSchema) (ks ks' : List VElem), VSameAll ks ks' → VConformsAll mode fs ks → VConformsAll mode fs ks'
  | [], [], [], _, _ => trivial
  | f :: fs, k :: ks, k' :: ks', ⟨h1, h2⟩, ⟨hc1, hc2⟩ => by
    refine ⟨?_, vConformsAll_same mode fs ks ks' h2 hc2⟩
    rcases hc1 with ⟨rfl, ha⟩ | hc1
    · exact .inl ⟨vSame_absent h1, ha⟩
    · exact .inr (vConforms_same f k k' h1 hc1)
  | [], [], _ :: _, h, _ => h.elim
  | _, _ :: _, [], h, _ => h.elim
  | [], _ :: _, _ :: _, _, hc => hc.elim
  | _ :: _, [], _, _, hc => hc.elim
end

omit [Runtime] in
theorem vSame_present {e e' : VElem} (h : VSame e e') : e.present = e'.present := by
  cases e <;> cases e' <;> simp only [VSame] at h <;> simp only [VElem.present]
  exact (sameBy_present h).1

omit [Runtime] in
mutual
theorem vComplete_same : ∀ (s : VSchema) (e e' : VElem), VSame e e' → VComplete s e → VComplete s e'
  | s, e, e', h, hc => by
    cases s <;> cases e' <;> simp only [VComplete] <;> cases e <;> simp only [VSame] at h <;> simp only [VComplete] at hc
    · exact complete_same _ _ _ h hc
    · refine ⟨fun hp k' hk' => ?_, vCompleteAll_same _ _ _ h.2 hc.2⟩
      obtain ⟨k, hk, hs⟩ := vSameAll_mem h.2 k' hk'
      rw [← vSame_present hs]
      exact hc.1 hp k hk
    · intro k' hk'
      obtain ⟨k, hk, hs⟩ := vSameAll_mem h.2 k' hk'
      exact vComplete_same _ k k' hs (hc k hk)
    · intro k' hk'
      obtain ⟨k, hk, hs⟩ := vSameAll_mem h.2 k' hk'
      exact vComplete_same _ k k' hs (hc k hk)
theorem vCompleteAll_same : ∀ (fs : List VSchema) (ks ks' : List VElem), VSameAll ks ks' → VCompleteAll fs ks → VCompleteAll fs ks'
  | f :: fs, k :: ks, k' :: ks', ⟨h1, h2⟩, ⟨hc1, hc2⟩ => ⟨vComplete_same f k k' h1 hc1, vCompleteAll_same fs ks ks' h2 hc2⟩
  | [], _, _, _, _ => by simp [VCompleteAll]
  | _ :: _, _, [], _, _ => by simp [VCompleteAll]
  | _ :: _, [], _ :: _, h, _ => h.elim
end

theorem joinedKeeps_same {c : JoinedCfg} {ms ms' : List ScalarState} (h : dataOf ms = dataOf ms') (hk : JoinedKeeps c ms) : JoinedKeeps c ms' := by
  obtain ⟨r, b, h1, h2⟩ := hk
  exact ⟨r, b, by rw [← joinedText_data c h]; exact h1, h ▸ h2⟩

theorem dateKeeps_same {st : Bool} {ts : List ScalarType} {sts sts' : List ScalarState} (h : dataOf sts = dataOf sts') (hk : DateKeeps st ts sts) : DateKeeps st ts sts' := by
  obtain ⟨u, v, r, b, h1, h2, h3⟩ := hk
  exact ⟨u, v, r, b, by rw [← dateView_data st h]; exact h1, h2, h ▸ h3⟩

mutual
theorem vKeeps_same : ∀ (s : VSchema) (e e' : VElem), VSame e e' → VEach PlainKeeps JoinedKeeps DateKeeps s e → VEach PlainKeeps JoinedKeeps DateKeeps s e'
  | s, e, e', h, hc => by
    cases s <;> cases e' <;> simp only [VEach] <;> cases e <;> simp only [VSame] at h <;> simp only [VEach] at hc
    · exact fun hp => each_same readapts_data _ _ _ _ h (hc ((sameBy_present h).1 ▸ hp))
    · exact joinedKeeps_same h.2.2 hc
    · exact dateKeeps_same h.2.2 hc
    · exact vKeepsAll_same _ _ _ h.2 hc
    · intro k' hk'
      obtain ⟨k, hk, hs⟩ := vSameAll_mem h.2 k' hk'
      exact vKeeps_same _ k k' hs (hc k hk)
    · intro k' hk'
      obtain ⟨k, hk, hs⟩ := vSameAll_mem h.2 k' hk'
      exact vKeeps_same _ k k' hs (hc k hk)
theorem vKeepsAll_same : ∀ (fs : List VSchema) (ks ks' : List VElem), VSameAll ks ks' → VEachAll PlainKeeps JoinedKeeps DateKeeps fs ks →
    VEachAll PlainKeeps JoinedKeeps DateKeeps fs ks'
  | f :: fs, k :: ks, k' :: ks', ⟨h1, h2⟩, ⟨hc1, hc2⟩ => ⟨vKeeps_same f k k' h1 hc1, vKeepsAll_same fs ks ks' h2 hc2⟩
  | [], _, _, _, _ => by simp [VEachAll]
  | _ :: _, _, [], _, _ => by simp [VEachAll]
  | _ :: _, [], _ :: _, h, _ => h.elim
end

theorem dates_same {p : Bool} : ∀ {fs : List (Hdr × ScalarType)} {sts sts' : List ScalarState}, dataOf sts = dataOf sts' →
    (∀ x ∈ fs.zip sts, ReadsBack SameData p x.1.2 x.2) → ∀ x ∈ fs.zip sts', ReadsBack SameData p x.1.2 x.2
  | [], _, _, _, _ => by simp
  | _ :: _, _, [], _, _ => by simp
  | f :: fs, [], _ :: _, h, _ => by simp [dataOf] at h
  | f :: fs, st :: sts, st' :: sts', h, hr => by
    simp only [dataOf, List.map_cons, List.cons.injEq, Prod.mk.injEq] at h
    simp only [List.zip_cons_cons, List.mem_cons, forall_eq_or_imp] at hr ⊢
    exact ⟨readsBack_data _ _ _ _ h.1 hr.1, dates_same h.2 hr.2⟩

mutual
theorem textsRead_same : ∀ (s : VSchema) (p : Bool) (e e' : VElem), VConforms s e → VSame e e' → TextsRead p s e → TextsRead p s e'
  | s, p, e, e', hv, h, hc => by
    cases s <;> cases e' <;> simp only [TextsRead] <;> cases e <;> simp only [VSame] at h <;> simp only [TextsRead] at hc <;> simp only [VConforms] at hv
    · exact each_same readsBack_data _ _ _ _ h hc
    · rw [← h.2.2, ← joinedText_data _ h.2.2]; exact hc
    · exact dates_same h.2.2 hc
    · exact textsReadAll_same _ _ _ _ _ hv.2 h.2 hc
    · intro k' hk'
      obtain ⟨k, hk, hs⟩ := vSameAll_mem h.2 k' hk'
      exact textsRead_same _ _ k k' (hv.2 k hk) hs (hc k hk)
theorem textsReadAll_same : ∀ (fs : List VSchema) (p : Bool) (mode : DictMode) (ks ks' : List VElem), VConformsAll mode fs ks → VSameAll ks ks' →
    TextsReadAll p fs ks → TextsReadAll p fs ks'
  | f :: fs, p, mode, k :: ks, k' :: ks', ⟨hv1, hv2⟩, ⟨h1, h2⟩, ⟨hc1, hc2⟩ => by
    refine ⟨?_, textsReadAll_same fs p mode ks ks' hv2 h2 hc2⟩
    rcases hv1 with ⟨rfl, _⟩ | hv1
    · rw [vSame_absent h1]; exact hc1
    · exact textsRead_same f p k k' hv1 h1 hc1
  | [], _, _, _, _, _, _, _ => by simp [TextsReadAll]
  | _ :: _, _, _, _, [], _, _, _ => by simp [TextsReadAll]
  | _ :: _, _, _, [], _ :: _, _, h, _ => h.elim
end

/-! ### forms and their pages -/

omit [Runtime] in
theorem pageClass_hdr [Runtime] (mn : Option PStr) (s : VSchema) : (pageClass mn s).hdr = s.hdr := by
  cases s <;> simp [pageClass, RSchema.hdr, VSchema.hdr, Schema.hdr]

theorem pageClass_auto (mn : Option PStr) (mode : DictMode) (f : VSchema) : rAutoField mode (pageClass mn f) = false ↔ mayLack mode f := by
  cases mode <;> simp [rAutoField, mayLack, pageClass_hdr]

theorem pageForm_absent (mn : Option PStr) (f : VSchema) : pageForm mn f (.plain .absent) = .plain .absent := by
  cases f <;> simp [pageForm]

omit [Runtime] in
theorem formOfPage_absent (f : VSchema) : formOfPage f (.plain .absent) = .plain .absent := by
  cases f <;> simp [formOfPage]

omit [Runtime] in
theorem dateKids_conform : ∀ (fs : List (Hdr × ScalarType)) (sts : List ScalarState), sts.length = fs.length →
    ConformsAll .full (fs.map fun f => .scalar f.1 f.2) (List.zipWith (fun f s => .scalar f.1.name s) fs sts)
  | [], [], _ => by simp [ConformsAll]
  | f :: fs, st :: sts, h => by
    simp only [List.map_cons, List.zipWith_cons_cons, ConformsAll, Conforms]
    exact ⟨.inr trivial, dateKids_conform fs sts (by simpa using h)⟩
  | [], _ :: _, h => by simp at h
  | _ :: _, [], h => by simp at h

mutual
theorem pageForm_conforms (mn : Option PStr) : ∀ (s : VSchema) (e : VElem), NoRichArrays s → VConforms s e → RConforms (pageClass mn s) (pageForm mn s e)
  | .plain s, .plain e, _, h => by simpa [pageClass, pageForm, RConforms, VConforms] using h
  | .joined hd c, .joined n c' ms, _, h => by simpa [pageClass, pageForm, RConforms, VConforms] using h
  | .date hd st fs, .date n st' sts, _, h => by
    simp only [VConforms] at h
    simp only [pageClass, pageForm, RConforms]
    exact ⟨h.1, trivial, dateKids_conform fs sts h.2.2⟩
  | .dict hd mode pol fs, .dict n ks, ha, h => by
    simp only [VConforms] at h
    simp only [NoRichArrays] at ha
    simp only [pageClass, pageForm, RConforms]
    exact ⟨h.1, pageForms_conform mn mode fs ks ha h.2⟩
  | .list hd prune max m, .list n ks, ha, h => by
    simp only [VConforms] at h
    simp only [NoRichArrays] at ha
    simp only [pageClass, pageForm, RConforms]
    refine ⟨h.1, fun k hk => ?_⟩
    obtain ⟨x, hx, rfl⟩ := List.mem_map.1 hk
    exact pageForm_conforms mn m x ha (h.2 x hx)
  | .array .., _, ha, _ => by simp [NoRichArrays] at ha
  | .plain _, .joined .., _, h | .plain _, .date .., _, h | .plain _, .dict .., _, h | .plain _, .list .., _, h | .plain _, .array .., _, h
  | .joined .., .plain _, _, h | .joined .., .date .., _, h | .joined .., .dict .., _, h | .joined .., .list .., _, h | .joined .., .array .., _, h
  | .date .., .plain _, _, h | .date .., .joined .., _, h | .date .., .dict .., _, h | .date .., .list .., _, h | .date .., .array .., _, h
  | .dict .., .plain _, _, h | .dict .., .joined .., _, h | .dict .., .date .., _, h | .dict .., .list .., _, h | .dict .., .array .., _, h
  | .list .., .plain _, _, h | .list .., .joined .., _, h | .list .., .date .., _, h | .list .., .dict .., _, h | .list .., .array .., _, h => by
    simp [VConforms] at h
theorem pageForms_conform (mn : Option PStr) (mode : DictMode) : ∀ (fs : List VSchema) (ks : List VElem), NoRichArraysAll fs → VConformsAll mode fs ks →
    RConformsAll mode (pageClasses mn fs) (pageForms mn fs ks)
  | [], [], _, _ => by simp [pageClasses, pageForms, RConformsAll]
  | f :: fs, k :: ks, ⟨ha1, ha2⟩, ⟨h1, h2⟩ => by
    simp only [pageClasses, pageForms, RConformsAll]
    refine ⟨?_, pageForms_conform mn mode fs ks ha2 h2⟩
    rcases h1 with ⟨rfl, hl⟩ | h1
    · exact .inl ⟨pageForm_absent mn f, (pageClass_auto mn mode f).2 hl⟩
    · exact .inr (pageForm_conforms mn f k ha1 h1)
  | [], _ :: _, _, h => h.elim
  | _ :: _, [], _, h => h.elim
end

omit [Runtime] in
theorem dateKids_state : ∀ (fs : List (Hdr × ScalarType)) (sts : List ScalarState), sts.length = fs.length →
    (List.zipWith (fun f s => Elem.scalar f.1.name s) fs sts).map Elem.state = sts
  | [], [], _ => rfl
  | f :: fs, st :: sts, h => by
    simp only [List.zipWith_cons_cons, List.map_cons, Elem.state]
    rw [dateKids_state fs sts (by simpa using h)]
  | [], _ :: _, h => by simp at h
  | _ :: _, [], h => by simp at h

mutual
theorem formOfPage_form (mn : Option PStr) : ∀ (s : VSchema) (e : VElem), NoRichArrays s → VConforms s e → formOfPage s (pageForm mn s e) = e
  | s, e, ha, h => by
    cases s <;> cases e <;> simp only [VConforms] at h <;> simp only [NoRichArrays] at ha <;> simp only [pageForm, formOfPage]
    · rw [dateKids_state _ _ h.2.2, h.2.1]
    · rw [formsOfPage_forms mn _ _ _ ha h.2]
    · rename_i m n ks
      rw [List.map_map]
      congr 1
      refine (List.map_congr_left fun k hk => ?_).trans (List.map_id _)
      exact formOfPage_form mn m k ha (h.2 k hk)
theorem formsOfPage_forms (mn : Option PStr) (mode : DictMode) : ∀ (fs : List VSchema) (ks : List VElem), NoRichArraysAll fs → VConformsAll mode fs ks →
    formsOfPage fs (pageForms mn fs ks) = ks
  | [], [], _, _ => by simp [pageForms, formsOfPage]
  | f :: fs, k :: ks, ⟨ha1, ha2⟩, ⟨h1, h2⟩ => by
    simp only [pageForms, formsOfPage, formsOfPage_forms mn mode fs ks ha2 h2, List.cons.injEq, and_true]
    rcases h1 with ⟨rfl, _⟩ | h1
    · rw [pageForm_absent, formOfPage_absent]
    · exact formOfPage_form mn f k ha1 h1
  | [], _ :: _, _, h => h.elim
  | _ :: _, [], _, h => h.elim
end

/-- what a scalar is after being set from its own text, or left alone if that is not sent -/
def backState (p : Bool) (t : ScalarType) (st : ScalarState) : ScalarState := if p && st.u == [] then .fresh else (scalarSet t .fresh (.str st.u)).1

mutual
/-- what comes back of a form from its page -/
def vRestored (p : Bool) : VSchema → VElem → VElem
  | .plain s, .plain e => .plain (restored p s e)
  | .joined _ _, .joined n c ms => .joined n c (if p && joinedText c ms == [] then [] else (joinedSet c [] (.str (joinedText c ms))).1)
  | .date _ _ fs, .date n st sts => .date n st (List.zipWith (fun f s => backState p f.2 s) fs sts)
  | .dict _ _ _ fs, .dict n ks => .dict n (vRestoredAll p fs ks)
  | .list _ prune _ m, .list n ks => .list n (ks.map (vRestored (p || prune) m))
  | _, e => e
/-- see `vRestored` -/
def vRestoredAll (p : Bool) : List VSchema → List VElem → List VElem
  | f :: fs, k :: ks => vRestored p f k :: vRestoredAll p fs ks
  | _, ks => ks
end

theorem dateKids_back (p : Bool) : ∀ (fs : List (Hdr × ScalarType)) (sts : List ScalarState), sts.length = fs.length →
    restoredAll p (fs.map fun f => .scalar f.1 f.2) (List.zipWith (fun f s => .scalar f.1.name s) fs sts) =
      List.zipWith (fun f s => .scalar f.1.name s) fs (List.zipWith (fun f s => backState p f.2 s) fs sts)
  | [], [], _ => by simp [restoredAll]
  | f :: fs, st :: sts, h => by
    simp only [List.map_cons, List.zipWith_cons_cons, restoredAll, restored, backState, dateKids_back p fs sts (by simpa using h)]
  | [], _ :: _, h => by simp at h
  | _ :: _, [], h => by simp at h

mutual
theorem rRestored_form (mn : Option PStr) : ∀ (s : VSchema) (p : Bool) (e : VElem), NoRichArrays s → VConforms s e →
    rRestored p (pageClass mn s) (pageForm mn s e) = pageForm mn s (vRestored p s e)
  | s, p, e, ha, h => by
    cases s <;> cases e <;> simp only [VConforms] at h <;> simp only [NoRichArrays] at ha <;> simp only [pageClass, pageForm, vRestored, rRestored]
    · rw [dateKids_back _ _ _ h.2.2]
    · rw [rRestored_forms mn _ p _ _ ha h.2]
    · rename_i prune max m n ks
      rw [List.map_map, List.map_map]
      congr 1
      refine List.map_congr_left fun k hk => ?_
      exact rRestored_form mn m _ k ha (h.2 k hk)
theorem rRestored_forms (mn : Option PStr) (mode : DictMode) (p : Bool) : ∀ (fs : List VSchema) (ks : List VElem), NoRichArraysAll fs → VConformsAll mode fs ks →
    rRestoredAll p (pageClasses mn fs) (pageForms mn fs ks) = pageForms mn fs (vRestoredAll p fs ks)
  | [], [], _, _ => by simp [pageClasses, pageForms, rRestoredAll]
  | f :: fs, k :: ks, ⟨ha1, ha2⟩, ⟨h1, h2⟩ => by
    simp only [pageClasses, pageForms, rRestoredAll, vRestoredAll, rRestored_forms mn mode p fs ks ha2 h2, List.cons.injEq, and_true]
    rcases h1 with ⟨rfl, _⟩ | h1
    · rw [pageForm_absent]
      cases f <;> simp only [vRestored, pageClass, rRestored, pageForm]
      rw [restored_absent]
    · exact rRestored_form mn f p k ha1 h1
  | [], _ :: _, _, h => h.elim
  | _ :: _, [], _, h => h.elim
end

theorem dateBack_same (p : Bool) : ∀ (fs : List (Hdr × ScalarType)) (sts : List ScalarState), sts.length = fs.length →
    (∀ x ∈ fs.zip sts, ReadsBack SameData p x.1.2 x.2) → dataOf sts = dataOf (List.zipWith (fun f s => backState p f.2 s) fs sts)
  | [], [], _, _ => rfl
  | f :: fs, st :: sts, h, hr => by
    simp only [List.zip_cons_cons, List.mem_cons, forall_eq_or_imp] at hr
    have ih := dateBack_same p fs sts (by simpa using h) hr.2
    have h1 := hr.1
    unfold ReadsBack SameData at h1
    unfold dataOf at ih ⊢
    simp only [List.zipWith_cons_cons, List.map_cons, List.cons.injEq, Prod.mk.injEq, backState]
    exact ⟨h1, ih⟩
  | [], _ :: _, h, _ => by simp at h
  | _ :: _, [], h, _ => by simp at h

omit [Runtime] in
theorem vSameAll_map {g : VElem → VElem} : ∀ {ks : List VElem}, (∀ k ∈ ks, VSame k (g k)) → VSameAll ks (ks.map g)
  | [], _ => by simp [VSameAll]
  | k :: ks, h => by
    simp only [List.map_cons, VSameAll]
    exact ⟨h k (by simp), vSameAll_map fun k hk => h k (by simp [hk])⟩

mutual
theorem vRestored_same : ∀ (s : VSchema) (p : Bool) (e : VElem), NoRichArrays s → VConforms s e → TextsRead p s e → VSame e (vRestored p s e)
  | s, p, e, ha, h, ht => by
    cases s <;> cases e <;> simp only [VConforms] at h <;> simp only [NoRichArrays] at ha <;> simp only [TextsRead] at ht <;> simp only [vRestored, VSame]
    · exact restored_same SameData p _ _ h ht
    · rw [h.2]; exact ⟨trivial, trivial, ht⟩
    · exact ⟨trivial, trivial, dateBack_same p _ _ h.2.2 ht⟩
    · exact ⟨trivial, vRestoredAll_same _ p _ _ ha h.2 ht⟩
    · exact ⟨trivial, vSameAll_map fun k hk => vRestored_same _ _ k ha (h.2 k hk) (ht k hk)⟩
theorem vRestoredAll_same (mode : DictMode) (p : Bool) : ∀ (fs : List VSchema) (ks : List VElem), NoRichArraysAll fs → VConformsAll mode fs ks →
    TextsReadAll p fs ks → VSameAll ks (vRestoredAll p fs ks)
  | [], [], _, _, _ => by simp [vRestoredAll, VSameAll]
  | f :: fs, k :: ks, ⟨ha1, ha2⟩, ⟨h1, h2⟩, ⟨ht1, ht2⟩ => by
    simp only [vRestoredAll, VSameAll]
    refine ⟨?_, vRestoredAll_same mode p fs ks ha2 h2 ht2⟩
    rcases h1 with ⟨rfl, _⟩ | h1
    · cases f <;> simp only [vRestored, VSame, restored_absent, SameBy]
    · exact vRestored_same f p k ha1 h1 ht1
  | [], _ :: _, _, h, _ => h.elim
  | _ :: _, [], _, h, _ => h.elim
end

omit [Runtime] in
theorem dateKids_texts : ∀ (i : Nat) (fs : List (Hdr × ScalarType)) (sts : List ScalarState), sts.length = fs.length →
    (leavesKids i (List.zipWith (fun f s => .scalar f.1.name s) fs sts)).map (fun l => l.st.u) = sts.map ScalarState.u
  | _, [], [], _ => by simp [leavesKids]
  | i, f :: fs, st :: sts, h => by
    simp only [List.zipWith_cons_cons, leavesKids, leaves, List.map_append, List.map_cons, List.map_nil, dateKids_texts (i + 1) fs sts (by simpa using h)]
    simp
  | _, [], _ :: _, h => by simp at h
  | _, _ :: _, [], h => by simp at h

omit [Runtime] in
theorem dataOf_texts {a b : List ScalarState} (h : dataOf a = dataOf b) : a.map ScalarState.u = b.map ScalarState.u := by
  have := congrArg (List.map Prod.fst) h
  simpa [dataOf, Function.comp_def] using this

mutual
theorem rTexts_same (mn : Option PStr) : ∀ (s : VSchema) (e e' : VElem), NoRichArrays s → VConforms s e → VSame e e' →
    rTexts (pageForm mn s e) = rTexts (pageForm mn s e')
  | s, e, e', ha, h, hs => by
    cases s <;> cases e <;> simp only [VConforms] at h <;> simp only [NoRichArrays] at ha <;> cases e' <;> simp only [VSame] at hs <;>
      simp only [pageForm, rTexts]
    · exact texts_same hs
    · rw [hs.2.1, joinedText_data _ hs.2.2]
    · rw [dateKids_texts _ _ _ h.2.2, dateKids_texts _ _ _ ((dataOf_length hs.2.2).symm.trans h.2.2), dataOf_texts hs.2.2]
    · exact rTextsAll_same mn _ _ _ _ ha h.2 hs.2
    · rename_i m n ks n' ks'
      exact rTextsAll_members mn m ks ks' ha h.2 hs.2
theorem rTextsAll_same (mn : Option PStr) (mode : DictMode) : ∀ (fs : List VSchema) (ks ks' : List VElem), NoRichArraysAll fs → VConformsAll mode fs ks →
    VSameAll ks ks' → rTextsAll (pageForms mn fs ks) = rTextsAll (pageForms mn fs ks')
  | [], [], [], _, _, _ => rfl
  | f :: fs, k :: ks, k' :: ks', ⟨ha1, ha2⟩, ⟨h1, h2⟩, ⟨hs1, hs2⟩ => by
    simp only [pageForms, rTextsAll, rTextsAll_same mn mode fs ks ks' ha2 h2 hs2]
    rcases h1 with ⟨rfl, _⟩ | h1
    · rw [vSame_absent hs1]
    · rw [rTexts_same mn f k k' ha1 h1 hs1]
  | [], _ :: _, _, _, h, _ => h.elim
  | _ :: _, [], _, _, h, _ => h.elim
  | _, [], _ :: _, _, _, h => h.elim
  | _, _ :: _, [], _, _, h => h.elim
theorem rTextsAll_members (mn : Option PStr) (m : VSchema) : ∀ (ks ks' : List VElem), NoRichArrays m → (∀ k ∈ ks, VConforms m k) → VSameAll ks ks' →
    rTextsAll (ks.map (pageForm mn m)) = rTextsAll (ks'.map (pageForm mn m))
  | [], [], _, _, _ => rfl
  | k :: ks, k' :: ks', ha, h, ⟨hs1, hs2⟩ => by
    simp only [List.map_cons, rTextsAll]
    rw [rTextsAll_members mn m ks ks' ha (fun x hx => h x (by simp [hx])) hs2, rTexts_same mn m k k' ha (h k (by simp)) hs1]
  | [], _ :: _, _, _, h => h.elim
  | _ :: _, [], _, _, h => h.elim
end

omit [Runtime] in
theorem dateKids_same : ∀ (fs : List (Hdr × ScalarType)) (sts sts' : List ScalarState), sts.length = fs.length → dataOf sts = dataOf sts' →
    SameByAll SameData (List.zipWith (fun f s => .scalar f.1.name s) fs sts) (List.zipWith (fun f s => .scalar f.1.name s) fs sts')
  | [], [], [], _, _ => by simp [SameByAll]
  | f :: fs, st :: sts, st' :: sts', h, hd => by
    simp only [dataOf, List.map_cons, List.cons.injEq, Prod.mk.injEq] at hd
    simp only [List.zipWith_cons_cons, SameByAll, SameBy]
    exact ⟨⟨trivial, hd.1⟩, dateKids_same fs sts sts' (by simpa using h) hd.2⟩
  | [], _ :: _, _, h, _ => by simp at h
  | _ :: _, [], _, h, _ => by simp at h
  | _, [], _ :: _, _, h => by simp [dataOf] at h
  | _, _ :: _, [], _, h => by simp [dataOf] at h

theorem survives_same (mn : Option PStr) {s : VSchema} {p : Bool} {e e' : VElem} (ha : NoRichArrays s) (h : VConforms s e) (hs : VSame e e')
    (hv : Survives p (pageForm mn s e)) : Survives p (pageForm mn s e') := by
  unfold Survives at *
  rw [← rTexts_same mn s e e' ha h hs]
  exact hv

theorem pageForm_present (mn : Option PStr) {s : VSchema} {e : VElem} (ha : NoRichArrays s) (h : VConforms s e) : (pageForm mn s e).present = true := by
  cases s <;> cases e <;> simp only [VConforms] at h <;> simp only [NoRichArrays] at ha <;> simp only [pageForm, RElem.present]
  exact (conforms_name h).2

mutual
theorem rCarried_same (mn : Option PStr) : ∀ (s : VSchema) (p : Bool) (e e' : VElem), NoRichArrays s → VConforms s e → VSame e e' →
    RCarried p (pageClass mn s) (pageForm mn s e) → RCarried p (pageClass mn s) (pageForm mn s e')
  | s, p, e, e', ha, h, hs, hc => by
    cases s <;> cases e <;> simp only [VConforms] at h <;> simp only [NoRichArrays] at ha <;> cases e' <;> simp only [VSame] at hs <;>
      simp only [pageForm, pageClass, RCarried] at hc ⊢
    · exact carried_same _ _ _ _ hs hc
    · rw [← joinedText_data _ hs.2.2]; exact hc
    · exact carriedAll_same _ _ _ _ _ (dateKids_same _ _ _ h.2.2 hs.2.2) hc
    · exact rCarriedAll_same mn _ _ _ _ _ ha h.2 hs.2 hc
    · rename_i prune max m n ks n' ks'
      have hl : ks.length = ks'.length := by
        clear hc h ha
        have := hs.2
        clear hs
        induction ks generalizing ks' with
        | nil => cases ks' <;> simp_all [VSameAll]
        | cons k ks ih =>
          cases ks' with
          | nil => exact this.elim
          | cons k' ks' => simp [ih ks' this.2]
      refine ⟨by simpa [hl] using hc.1, fun r hr => ?_⟩
      obtain ⟨k', hk', rfl⟩ := List.mem_map.1 hr
      obtain ⟨k, hk, hsk⟩ := vSameAll_mem hs.2 k' hk'
      have := hc.2 _ (List.mem_map_of_mem hk)
      exact ⟨rCarried_same mn m _ k k' ha (h.2 k hk) hsk this.1, survives_same mn ha (h.2 k hk) hsk this.2⟩
theorem rCarriedAll_same (mn : Option PStr) (mode : DictMode) (p : Bool) : ∀ (fs : List VSchema) (ks ks' : List VElem), NoRichArraysAll fs →
    VConformsAll mode fs ks → VSameAll ks ks' → RCarriedAll p mode (pageClasses mn fs) (pageForms mn fs ks) →
    RCarriedAll p mode (pageClasses mn fs) (pageForms mn fs ks')
  | [], [], [], _, _, _, _ => by simp [pageClasses, RCarriedAll]
  | f :: fs, k :: ks, k' :: ks', ⟨ha1, ha2⟩, ⟨h1, h2⟩, ⟨hs1, hs2⟩, hc => by
    simp only [pageForms, pageClasses, RCarriedAll] at hc ⊢
    obtain ⟨hc1, hc2, hc3⟩ := hc
    refine ⟨?_, ?_, rCarriedAll_same mn mode p fs ks ks' ha2 h2 hs2 hc3⟩
    · rcases h1 with ⟨rfl, _⟩ | h1
      · rw [vSame_absent hs1]; exact hc1
      · exact rCarried_same mn f p k k' ha1 h1 hs1 hc1
    · rcases h1 with ⟨rfl, _⟩ | h1
      · rw [vSame_absent hs1]; exact hc2
      · exact fun _ hf => survives_same mn ha1 h1 hs1 (hc2 (pageForm_present mn ha1 h1) hf)
  | [], _ :: _, _, _, h, _, _ => h.elim
  | _ :: _, [], _, _, h, _, _ => h.elim
  | _, [], _ :: _, _, _, h, _ => h.elim
  | _, _ :: _, [], _, _, h, _ => h.elim
end

/-! ### the page sent without the pairs that can be derived -/

theorem rRestored_carrying {sep : PStr} (hs : GoodSep sep) (s : RSchema) (e : RElem) (hk : RKeyed s) (hw : RWellNamed sep s) (hc : RConforms s e)
    (hcar : RCarried false s e) (ps : List (PStr × PStr)) (hps : ∀ k, valuesFor k ps = valuesFor k (carrying sep [] e)) :
    rFromFlat sep s ps = .ok (rRestored false s e) := by
  have h1 := setFlat_rt hs (plainS s) false (dropR e) (asPairs ps) (wellNamed_plain s hw) (conforms_drop s e hc) (carried_drop s false e hc hcar)
    fun k _ => ((agree_of_valuesFor hps k trivial).trans (carrying_same hs s e hk hw hc k trivial)).trans
      (flatten_agree hs (keyed_plain hk) (wellNamed_plain s hw) (conforms_drop s e hc) k trivial)
  unfold asPairs at h1
  unfold rFromFlat
  rw [rSetFlat_lift, h1]
  simp only [Except.map, lift_restored s false e hc]

omit [Runtime] in
mutual
theorem sameData_refl : ∀ e : Elem, SameBy SameData e e
  | .scalar .. => by simp [SameBy, SameData]
  | .dict _ ks => by simpa [SameBy] using sameData_reflAll ks
  | .list _ ks => by simpa [SameBy] using sameData_reflAll ks
  | .array _ ks => by simpa [SameBy] using sameData_reflAll ks
  | .absent => by simp [SameBy]
theorem sameData_reflAll : ∀ ks : List Elem, SameByAll SameData ks ks
  | [] => by simp [SameByAll]
  | k :: ks => by simpa [SameByAll] using ⟨sameData_refl k, sameData_reflAll ks⟩
end

omit [Runtime] in
mutual
theorem sameData_trans : ∀ {a b c : Elem}, SameBy SameData a b → SameBy SameData b c → SameBy SameData a c
  | a, b, c, h, h' => by
    cases a <;> cases b <;> simp only [SameBy] at h <;> cases c <;> simp only [SameBy] at h' ⊢
    · exact ⟨h.1.trans h'.1, h.2.1.trans h'.2.1, h.2.2.trans h'.2.2⟩
    · exact ⟨h.1.trans h'.1, sameData_transAll h.2 h'.2⟩
    · exact ⟨h.1.trans h'.1, sameData_transAll h.2 h'.2⟩
    · exact ⟨h.1.trans h'.1, sameData_transAll h.2 h'.2⟩
theorem sameData_transAll : ∀ {a b c : List Elem}, SameByAll SameData a b → SameByAll SameData b c → SameByAll SameData a c
  | [], [], [], _, _ => by simp [SameByAll]
  | _ :: _, _ :: _, _ :: _, ⟨h1, h2⟩, ⟨h3, h4⟩ => ⟨sameData_trans h1 h3, sameData_transAll h2 h4⟩
  | [], _ :: _, _, h, _ => h.elim
  | _ :: _, [], _, h, _ => h.elim
  | _, [], _ :: _, _, h => h.elim
  | _, _ :: _, [], _, h => h.elim
end

omit [Runtime] in
mutual
theorem vSame_refl : ∀ e : VElem, VSame e e
  | .plain e => by simpa [VSame] using sameData_refl e
  | .joined .. => by simp [VSame]
  | .date .. => by simp [VSame]
  | .dict _ ks => by simpa [VSame] using vSame_reflAll ks
  | .list _ ks => by simpa [VSame] using vSame_reflAll ks
  | .array _ ks => by simpa [VSame] using vSame_reflAll ks
theorem vSame_reflAll : ∀ ks : List VElem, VSameAll ks ks
  | [] => by simp [VSameAll]
  | k :: ks => by simpa [VSameAll] using ⟨vSame_refl k, vSame_reflAll ks⟩
end

omit [Runtime] in
mutual
theorem vSame_trans : ∀ {a b c : VElem}, VSame a b → VSame b c → VSame a c
  | a, b, c, h, h' => by
    cases a <;> cases b <;> simp only [VSame] at h <;> cases c <;> simp only [VSame] at h' ⊢
    · exact sameData_trans h h'
    · exact ⟨h.1.trans h'.1, h.2.1.trans h'.2.1, h.2.2.trans h'.2.2⟩
    · exact ⟨h.1.trans h'.1, h.2.1.trans h'.2.1, h.2.2.trans h'.2.2⟩
    · exact ⟨h.1.trans h'.1, vSame_transAll h.2 h'.2⟩
    · exact ⟨h.1.trans h'.1, vSame_transAll h.2 h'.2⟩
    · exact ⟨h.1.trans h'.1, vSame_transAll h.2 h'.2⟩
theorem vSame_transAll : ∀ {a b c : List VElem}, VSameAll a b → VSameAll b c → VSameAll a c
  | [], [], [], _, _ => by simp [VSameAll]
  | _ :: _, _ :: _, _ :: _, ⟨h1, h2⟩, ⟨h3, h4⟩ => ⟨vSame_trans h1 h3, vSame_transAll h2 h4⟩
  | [], _ :: _, _, h, _ => h.elim
  | _ :: _, [], _, h, _ => h.elim
  | _, [], _ :: _, _, h => h.elim
  | _, _ :: _, [], _, h => h.elim
end

/-- the parts of dates come back from their texts -/
theorem part_reads (p : Bool) (w : Nat) (st : ScalarState) (h : (∃ n : Nat, (st.u, st.value) = (padNat w n, .int n)) ∨ (st.u, st.value) = ([], .none)) :
    ReadsBack SameData p (integerType true w) st := by
  unfold ReadsBack SameData
  rcases h with ⟨n, h⟩ | h
  · obtain ⟨h1, h2⟩ := Prod.mk.inj h
    have hb : (st.u == []) = false := by simpa [h1] using padNat_ne_nil w n
    rw [hb, Bool.and_false, if_neg (by simp), h1, h2]
    have h3 : scalarSet (integerType true w) .fresh (.str (padNat w n)) = (⟨.int n, padNat w n, some (.str (padNat w n))⟩, .ok true) := by
      simp [scalarSet, integerType, intOf, strip_padNat, pyInt_padNat, padInt]
    rw [h3]
    exact ⟨rfl, rfl⟩
  · obtain ⟨h1, h2⟩ := Prod.mk.inj h
    cases p with
    | true => simp [h1, h2, ScalarState.fresh]
    | false =>
      rw [Bool.false_and, if_neg (by simp), h1, h2]
      exact ⟨rfl, rfl⟩

end
end Flatland
