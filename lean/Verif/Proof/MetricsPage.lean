import Verif.Proof.Metrics

/-!
The walk over the objects gives, family by family, the samples of the specification, and the text is made of their lines.
-/

namespace Pound

open Spec

theorem flatMap_single {α β} (f : α → β) (l : List α) : l.flatMap (fun x => [f x]) = l.map f := by
  induction l with
  | nil => rfl
  | cons a r ih => rw [List.flatMap_cons, ih]; rfl

theorem flatMap_if {α β} (p : α → Bool) (f : α → β) (l : List α) : l.flatMap (fun x => if p x then [f x] else []) = (l.filter p).map f := by
  induction l with
  | nil => rfl
  | cons a r ih => rw [List.flatMap_cons, ih]; cases h : p a <;> simp [h]

theorem flatMap_nils {α β} (f : α → List β) (l : List α) (h : ∀ x, f x = []) : l.flatMap f = [] := by
  induction l with
  | nil => rfl
  | cons a r ih => rw [List.flatMap_cons, ih, h]; rfl

theorem walk_services {D} (L : DblLib D) (st : MState D) (f : Fam) (F : MLabels → MSvc D → List (Sample D)) (h0 : f ≠ .workers)
    (h1 : ∀ p l, lstSamples L p l f = []) (h2 : ∀ p s, svcAll L st.stats p s f = F p s) :
    walkSamples L st f = (allServices st).flatMap fun p => F p.1 p.2 := by
  unfold walkSamples allServices allListeners
  rw [if_neg h0, List.nil_append, List.flatMap_append, List.flatMap_assoc]
  congr 1
  · congr 1
    funext p
    unfold lstAll
    rw [h1, List.nil_append]
    congr 1
    funext q
    exact h2 _ _
  · congr 1
    funext q
    exact h2 _ _

theorem walk_backends {D} (L : DblLib D) (st : MState D) (f : Fam) (h0 : f ≠ .workers)
    (h1 : ∀ p l, lstSamples L p l f = []) (h2 : ∀ p s, svcSamples L p s f = []) :
    walkSamples L st f = (allBackends st).flatMap fun p => beSamples L st.stats p.1 p.2 f := by
  rw [walk_services L st f (fun p s => (placed p b!"backend" s.balancers.flatten).flatMap fun p => beSamples L st.stats p.1 p.2 f) h0 h1
    (fun p s => by unfold svcAll; rw [h2]; rfl)]
  unfold allBackends
  rw [List.flatMap_assoc]

theorem svcAll_noBe {D} (L : DblLib D) (stats : Bool) (f : Fam) (h : ∀ p b, beSamples L stats p b f = []) (p : MLabels) (s : MSvc D) :
    svcAll L stats p s f = svcSamples L p s f := by
  unfold svcAll
  rw [flatMap_nils _ _ (fun x => h _ _), List.append_nil]

theorem walk_listeners {D} (L : DblLib D) (st : MState D) (f : Fam) (h0 : f ≠ .workers) (h1 : ∀ p s, svcAll L st.stats p s f = []) :
    walkSamples L st f = (allListeners st).flatMap fun p => lstSamples L p.1 p.2 f := by
  unfold walkSamples allListeners
  rw [if_neg h0, List.nil_append, flatMap_nils _ (placed [] _ st.services) (fun x => h1 _ _), List.append_nil]
  congr 1
  funext p
  unfold lstAll
  rw [flatMap_nils _ _ (fun x => h1 _ _), List.append_nil]

/-- The walk finds the samples of the specification -/
theorem walk_eq {D} (L : DblLib D) (st : MState D) (f : Fam) : walkSamples L st f = samplesOf L st f := by
  cases f with
  | workers =>
    unfold walkSamples
    rw [if_pos rfl, flatMap_nils, flatMap_nils, List.append_nil, List.append_nil]
    · intro p; exact svcAll_noBe L _ _ (fun _ _ => rfl) _ _
    · intro p
      unfold lstAll
      rw [flatMap_nils _ _ (fun q => svcAll_noBe L _ _ (fun _ _ => rfl) _ _)]
      rfl
  | listenerEnabled =>
    rw [walk_listeners L st _ (by decide) (fun p s => svcAll_noBe L _ _ (fun _ _ => rfl) _ _)]
    exact flatMap_single _ _
  | listenerInfo =>
    rw [walk_listeners L st _ (by decide) (fun p s => svcAll_noBe L _ _ (fun _ _ => rfl) _ _)]
    exact flatMap_single _ _
  | serviceInfo =>
    rw [walk_services L st _ (fun p s => svcSamples L p s .serviceInfo) (by decide) (fun _ _ => rfl) (fun p s => svcAll_noBe L _ _ (fun _ _ => rfl) _ _)]
    exact flatMap_single _ _
  | serviceEnabled =>
    rw [walk_services L st _ (fun p s => svcSamples L p s .serviceEnabled) (by decide) (fun _ _ => rfl) (fun p s => svcAll_noBe L _ _ (fun _ _ => rfl) _ _)]
    exact flatMap_single _ _
  | backends =>
    rw [walk_services L st _ (fun p s => svcSamples L p s .backends) (by decide) (fun _ _ => rfl) (fun p s => svcAll_noBe L _ _ (fun _ _ => rfl) _ _)]
    rfl
  | backendState => rw [walk_backends L st _ (by decide) (fun _ _ => rfl) (fun _ _ => rfl)]; rfl
  | backendRequests =>
    rw [walk_backends L st _ (by decide) (fun _ _ => rfl) (fun _ _ => rfl)]
    exact flatMap_if _ _ _
  | backendAvg =>
    rw [walk_backends L st _ (by decide) (fun _ _ => rfl) (fun _ _ => rfl)]
    exact flatMap_if _ _ _
  | backendStddev =>
    rw [walk_backends L st _ (by decide) (fun _ _ => rfl) (fun _ _ => rfl)]
    exact flatMap_if _ _ _

/-! ### Labels -/

theorem placed_labels {α} {pfx : MLabels} {lab : Bytes} {l : List α} {p : MLabels × α} (h : p ∈ placed pfx lab l) :
    ∃ i, l[i]? = some p.2 ∧ p.1 = pfx ++ [(lab, dec i)] := by
  obtain ⟨q, hq, he⟩ := List.mem_map.mp h
  subst he
  exact ⟨q.2, by rw [List.mem_zipIdx_iff_getElem?] at hq; exact hq, rfl⟩

theorem svc_labels {D} {st : MState D} {p : MLabels × MSvc D} (h : p ∈ allServices st) : p.1 ≠ [] := by
  rcases List.mem_append.mp h with h | h
  · obtain ⟨l, -, hx⟩ := List.mem_flatMap.mp h
    obtain ⟨i, -, e⟩ := placed_labels hx
    simp [e]
  · obtain ⟨i, -, e⟩ := placed_labels h
    simp [e]

theorem be_labels {D} {st : MState D} {p : MLabels × MBe D} (h : p ∈ allBackends st) : p.1 ≠ [] := by
  obtain ⟨l, -, hx⟩ := List.mem_flatMap.mp h
  obtain ⟨i, -, e⟩ := placed_labels hx
  simp [e]

theorem lst_labels {D} {st : MState D} {p : MLabels × MLst D} (h : p ∈ allListeners st) : p.1 ≠ [] := by
  obtain ⟨i, -, e⟩ := placed_labels h
  simp [e]

/-- Every sample has labels -/
theorem samples_labelled {D} (L : DblLib D) (st : MState D) (f : Fam) : ∀ s ∈ samplesOf L st f, s.labels ≠ [] := by
  intro s hs
  cases f with
  | workers =>
    simp only [samplesOf, List.mem_cons, List.not_mem_nil, or_false] at hs
    rcases hs with rfl | rfl | rfl | rfl <;> simp
  | listenerEnabled => obtain ⟨p, hp, rfl⟩ := List.mem_map.mp hs; exact lst_labels hp
  | listenerInfo => obtain ⟨p, hp, rfl⟩ := List.mem_map.mp hs; simp
  | serviceInfo => obtain ⟨p, hp, rfl⟩ := List.mem_map.mp hs; simp
  | serviceEnabled => obtain ⟨p, hp, rfl⟩ := List.mem_map.mp hs; exact svc_labels hp
  | backends =>
    obtain ⟨p, hp, hx⟩ := List.mem_flatMap.mp hs
    simp only [List.mem_cons, List.not_mem_nil, or_false] at hx
    rcases hx with rfl | rfl | rfl | rfl <;> simp
  | backendState =>
    obtain ⟨p, hp, hx⟩ := List.mem_flatMap.mp hs
    simp only [List.mem_cons, List.not_mem_nil, or_false] at hx
    rcases hx with rfl | rfl <;> simp
  | backendRequests => obtain ⟨p, hp, rfl⟩ := List.mem_map.mp hs; exact be_labels (List.mem_filter.mp hp).1
  | backendAvg => obtain ⟨p, hp, rfl⟩ := List.mem_map.mp hs; exact be_labels (List.mem_filter.mp hp).1
  | backendStddev => obtain ⟨p, hp, rfl⟩ := List.mem_map.mp hs; exact be_labels (List.mem_filter.mp hp).1

/-! ### Text -/

theorem fmtLabels_eq : ∀ (ls : MLabels), fmtLabels ls = List.intercalate b!"," (ls.map fun l => l.1 ++ b!"=\"" ++ l.2 ++ b!"\"")
  | [] => rfl
  | [(n, v)] => by simp [fmtLabels]
  | (n, v) :: m :: r => by
    unfold fmtLabels
    rw [fmtLabels_eq (m :: r)]
    simp [List.intercalate, List.intersperse]

theorem fmtSample_eq {D} (L : DblLib D) (name : Bytes) (s : Sample D) (h : s.labels ≠ []) : fmtSample L name s = sampleLine L name s ++ [10] := by
  unfold fmtSample sampleLine
  rw [if_neg (by simpa using h), fmtLabels_eq]
  simp

theorem fmtMetric_eq {D} (L : DblLib D) (f : Fam) (ss : List (Sample D)) (h : ∀ s ∈ ss, s.labels ≠ []) :
    fmtMetric L (f, ss) = if ss.isEmpty then [] else unlines (famLines L f ss) := by
  unfold fmtMetric
  cases ss with
  | nil => rfl
  | cons s r =>
    have hb : ∀ l : List (Sample D), (∀ s ∈ l, s.labels ≠ []) → l.flatMap (fmtSample L f.text.name) = (l.map (sampleLine L f.text.name)).flatMap (· ++ [10]) := by
      intro l hl
      induction l with
      | nil => rfl
      | cons a l ih =>
        rw [List.flatMap_cons, ih (fun s hs => hl s (List.mem_cons_of_mem _ hs)), fmtSample_eq L _ _ (hl a (List.mem_cons_self ..))]
        rfl
    simp only [List.isEmpty_cons]
    rw [if_neg (by decide), if_neg (by decide), hb _ h]
    unfold unlines famLines
    cases f.text.unit <;> simp

theorem expo_eq_keys {D} (e : Expo D) (h : (expoKeys e).Nodup) : e = (expoKeys e).map fun f => (f, samplesIn e f) := by
  induction e with
  | nil => rfl
  | cons m r ih =>
    obtain ⟨g, l⟩ := m
    have h' : g ∉ expoKeys r ∧ (expoKeys r).Nodup := List.nodup_cons.mp h
    show _ = (g, samplesIn ((g, l) :: r) g) :: (expoKeys r).map _
    congr 1
    · simp [samplesIn]
    · conv => lhs; rw [ih h'.2]
      apply List.map_congr_left
      intro f hf
      have : g ≠ f := fun e => h'.1 (e ▸ hf)
      simp [samplesIn, this]

theorem samplesIn_absent {D} (e : Expo D) (f : Fam) (h : f ∉ expoKeys e) : samplesIn e f = [] := by
  induction e with
  | nil => rfl
  | cons m r ih =>
    obtain ⟨g, l⟩ := m
    have h' : f ≠ g ∧ f ∉ expoKeys r := by simpa [expoKeys] using h
    unfold samplesIn
    rw [if_neg (Ne.symm h'.1), ih h'.2]

theorem shape_nodup : ∀ a b c, (keyShape a b c).Nodup := by decide

theorem shape_flat {β} (F : Fam → List β) (a b c : Bool) (h : ∀ f, f ∉ keyShape a b c → F f = []) :
    (keyShape a b c).flatMap F = famOrder.flatMap F := by
  cases a <;> cases b <;> cases c <;>
    simp [keyShape, LF, SF, BF] at h <;> simp [keyShape, LF, SF, BF, famOrder, h]

theorem filter_flat {α β} (p : α → Bool) (F : α → List β) (l : List α) : (l.filter p).flatMap F = l.flatMap fun x => if p x then F x else [] := by
  induction l with
  | nil => rfl
  | cons a r ih => cases h : p a <;> simp [h, ih]

theorem unlines_append (a b : List Bytes) : unlines (a ++ b) = unlines a ++ unlines b := by simp [unlines]

theorem unlines_flat {α} (F : α → List Bytes) (l : List α) : unlines (l.flatMap F) = l.flatMap fun x => unlines (F x) := by
  simp [unlines, List.flatMap_assoc]

/-- The page is made of the lines of the specification, and it is made exactly if every service has backends. -/
theorem metrics_page {D} (L : DblLib D) (version : Nat) (st : MState D) :
    (AllHaveBackends st → metricsResponse L version st = .ok (.inr (metricsReply version (unlines (pageLines L st))))) ∧
    (¬ AllHaveBackends st → metricsResponse L version st = .ok (.inl .internalError)) := by
  obtain ⟨v, h1, h⟩ := metrics_fill L st
  unfold metricsResponse
  rw [h1]
  dsimp only
  rcases h with ⟨ha, e, a, h2, h3, b, c, -, h4⟩ | ⟨hn, h2⟩
  · refine ⟨fun _ => ?_, fun hn => absurd ha hn⟩
    rw [h2]
    dsimp only
    congr 3
    unfold expoFormat pageLines
    rw [unlines_append, List.append_assoc]
    congr 1
    rw [unlines_flat, filter_flat]
    rw [expo_eq_keys e (by rw [h4]; exact shape_nodup a b c), List.flatMap_map, h4]
    rw [show (fun f => fmtMetric L (f, samplesIn e f)) = (fun f => if !(samplesOf L st f).isEmpty then unlines (famLines L f (samplesOf L st f)) else []) by
      funext f
      rw [h3, walk_eq, fmtMetric_eq L f _ (samples_labelled L st f)]
      cases (samplesOf L st f).isEmpty <;> rfl]
    refine shape_flat _ a b c ?_
    intro f hf
    have : samplesOf L st f = [] := by
      rw [← walk_eq, ← h3]
      exact samplesIn_absent e f (by rw [h4]; exact hf)
    rw [this]
    rfl
  · refine ⟨fun ha => absurd ha hn, fun _ => ?_⟩
    rw [h2]

end Pound
