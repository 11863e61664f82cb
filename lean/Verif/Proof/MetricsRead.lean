import Verif.Proof.MetricsPage
import Verif.Proof.JsonMore

/-!
The metrics page read back: samples are told apart by their labels, and a scraper gets every sample if no label value needs escaping.
-/

namespace Pound

open Spec

/-! ### Samples are told apart -/

theorem dec_inj {i j : Nat} (h : dec i = dec j) : i = j := by
  have h1 := decVal_decAux (i + 1) i (by omega)
  have h2 := decVal_decAux (j + 1) j (by omega)
  unfold dec at h
  rw [h] at h1
  exact h1.symm.trans h2

/-- The labels differ in one of the names `ns` -/
def DiffOn (ns : List Bytes) (a b : MLabels) : Prop := ∃ n ∈ ns, a.lookup n ≠ b.lookup n

theorem mlab_lookup_append (n : Bytes) (a b : MLabels) : (a ++ b).lookup n = (a.lookup n).or (b.lookup n) := by
  induction a with
  | nil => simp
  | cons x r ih =>
    obtain ⟨k, v⟩ := x
    rw [List.cons_append, List.lookup_cons, List.lookup_cons]
    cases n == k <;> simp [ih]

theorem lookup_notin {n : Bytes} {a : MLabels} (h : n ∉ a.map (·.1)) : a.lookup n = none := by
  induction a with
  | nil => rfl
  | cons x r ih =>
    obtain ⟨k, v⟩ := x
    have h' : n ≠ k ∧ n ∉ r.map (·.1) := by simpa using h
    rw [List.lookup_cons, show (n == k) = false by simpa using h'.1]
    exact ih h'.2

theorem DiffOn.ext {ns : List Bytes} {a b : MLabels} (h : DiffOn ns a b) (s t : MLabels) (hs : ∀ n ∈ ns, n ∉ s.map (·.1)) (ht : ∀ n ∈ ns, n ∉ t.map (·.1)) :
    DiffOn ns (a ++ s) (b ++ t) := by
  obtain ⟨n, hn, hd⟩ := h
  refine ⟨n, hn, ?_⟩
  rw [mlab_lookup_append, mlab_lookup_append, lookup_notin (hs n hn), lookup_notin (ht n hn), Option.or_none, Option.or_none]
  exact hd

theorem DiffOn.mono {ns ms : List Bytes} {a b : MLabels} (h : DiffOn ns a b) (hs : ∀ n ∈ ns, n ∈ ms) : DiffOn ms a b := by
  obtain ⟨n, hn, hd⟩ := h
  exact ⟨n, hs n hn, hd⟩

theorem placed_diff {α} (pfx : MLabels) (lab : Bytes) (l : List α) (h : lab ∉ pfx.map (·.1)) :
    (placed pfx lab l).Pairwise fun a b => DiffOn [lab] a.1 b.1 := by
  unfold placed
  rw [List.pairwise_map]
  have : (l.zipIdx).Pairwise fun a b => a.2 ≠ b.2 := by
    have h2 : ((l.zipIdx).map Prod.snd).Nodup := by rw [List.zipIdx_map_snd]; exact List.nodup_range'
    exact List.pairwise_map.mp h2
  refine this.imp ?_
  intro a b hab
  refine ⟨lab, List.mem_cons_self .., ?_⟩
  rw [mlab_lookup_append, mlab_lookup_append, lookup_notin h]
  simp only [Option.none_or, List.lookup_cons, beq_self_eq_true]
  intro e
  exact hab (dec_inj (by simpa using e))

theorem lst_names {D} {st : MState D} {p : MLabels × MLst D} (h : p ∈ allListeners st) : p.1.map (·.1) = [b!"listener"] := by
  obtain ⟨i, -, e⟩ := placed_labels h
  rw [e]; rfl

theorem svc_names {D} {st : MState D} {p : MLabels × MSvc D} (h : p ∈ allServices st) :
    p.1.map (·.1) = [b!"listener", b!"service"] ∨ p.1.map (·.1) = [b!"service"] := by
  rcases List.mem_append.mp h with h | h
  · obtain ⟨l, hl, hx⟩ := List.mem_flatMap.mp h
    obtain ⟨i, -, e⟩ := placed_labels hx
    rw [e, List.map_append, lst_names hl]; exact .inl rfl
  · obtain ⟨i, -, e⟩ := placed_labels h
    rw [e]; exact .inr rfl

theorem be_names {D} {st : MState D} {p : MLabels × MBe D} (h : p ∈ allBackends st) :
    p.1.map (·.1) = [b!"listener", b!"service", b!"backend"] ∨ p.1.map (·.1) = [b!"service", b!"backend"] := by
  obtain ⟨s, hs, hx⟩ := List.mem_flatMap.mp h
  obtain ⟨i, -, e⟩ := placed_labels hx
  rw [e, List.map_append]
  rcases svc_names hs with h | h <;> rw [h]
  · exact .inl rfl
  · exact .inr rfl

theorem lst_diff {D} (st : MState D) : (allListeners st).Pairwise fun a b => DiffOn [b!"listener"] a.1 b.1 := placed_diff [] _ _ (by simp)

theorem svc_diff {D} (st : MState D) : (allServices st).Pairwise fun a b => DiffOn [b!"listener", b!"service"] a.1 b.1 := by
  unfold allServices
  rw [List.pairwise_append]
  refine ⟨?_, ?_, ?_⟩
  · rw [List.pairwise_flatMap]
    constructor
    · intro l hl
      refine (placed_diff l.1 b!"service" l.2.services (by rw [lst_names hl]; decide)).imp ?_
      intro a b h
      exact h.mono (by simp)
    · refine (lst_diff st).imp ?_
      intro l m h a ha b hb
      obtain ⟨i, -, e⟩ := placed_labels ha
      obtain ⟨j, -, e'⟩ := placed_labels hb
      rw [e, e']
      exact (h.ext [(b!"service", dec i)] [(b!"service", dec j)] (by simp) (by simp)).mono (by simp)
  · refine (placed_diff [] b!"service" st.services (by simp)).imp ?_
    intro a b h
    exact h.mono (by simp)
  · intro a ha b hb
    obtain ⟨l, hl, hx⟩ := List.mem_flatMap.mp ha
    obtain ⟨i, -, e⟩ := placed_labels hx
    obtain ⟨k, -, el⟩ := placed_labels hl
    obtain ⟨j, -, e'⟩ := placed_labels hb
    refine ⟨b!"listener", List.mem_cons_self .., ?_⟩
    rw [e, el, e']
    simp [List.lookup_cons]

theorem be_diff {D} (st : MState D) : (allBackends st).Pairwise fun a b => DiffOn [b!"listener", b!"service", b!"backend"] a.1 b.1 := by
  unfold allBackends
  rw [List.pairwise_flatMap]
  constructor
  · intro s hs
    refine (placed_diff s.1 b!"backend" s.2.balancers.flatten (by rcases svc_names hs with h | h <;> rw [h] <;> decide)).imp ?_
    intro a b h
    exact h.mono (by simp)
  · refine (svc_diff st).imp ?_
    intro l m h a ha b hb
    obtain ⟨i, -, e⟩ := placed_labels ha
    obtain ⟨j, -, e'⟩ := placed_labels hb
    rw [e, e']
    exact (h.ext [(b!"backend", dec i)] [(b!"backend", dec j)] (by simp) (by simp)).mono (by simp)

/-- No two samples of a family have the same labels -/
theorem samples_diff {D} (L : DblLib D) (st : MState D) (f : Fam) : (samplesOf L st f).Pairwise fun a b => ∃ n, a.labels.lookup n ≠ b.labels.lookup n := by
  have weak : ∀ {ns : List Bytes} {a b : MLabels}, DiffOn ns a b → ∃ n, a.lookup n ≠ b.lookup n := fun ⟨n, _, h⟩ => ⟨n, h⟩
  cases f with
  | workers =>
    simp only [samplesOf]
    simp only [List.pairwise_cons, List.mem_cons, List.not_mem_nil, or_false, List.Pairwise.nil, and_true, false_imp_iff, implies_true]
    refine ⟨?_, ?_, ?_⟩
    · rintro a (rfl | rfl | rfl) <;> exact ⟨b!"type", by simp [List.lookup_cons]⟩
    · rintro a (rfl | rfl) <;> exact ⟨b!"type", by simp [List.lookup_cons]⟩
    · rintro a rfl; exact ⟨b!"type", by simp [List.lookup_cons]⟩
  | listenerEnabled =>
    simp only [samplesOf, List.pairwise_map]
    exact (lst_diff st).imp fun h => weak h
  | listenerInfo =>
    simp only [samplesOf, List.pairwise_map]
    refine (lst_diff st).imp fun h => weak (h.ext _ _ ?_ ?_)
    · simp
    · simp
  | serviceInfo =>
    simp only [samplesOf, List.pairwise_map]
    refine (svc_diff st).imp fun h => weak (h.ext _ _ ?_ ?_)
    · simp
    · simp
  | serviceEnabled =>
    simp only [samplesOf, List.pairwise_map]
    exact (svc_diff st).imp fun h => weak h
  | backends =>
    simp only [samplesOf]
    rw [List.pairwise_flatMap]
    constructor
    · intro s hs
      have hn : s.1.lookup b!"state" = none := lookup_notin (by rcases svc_names hs with h | h <;> rw [h] <;> decide)
      have hv : ∀ v, (s.1 ++ [(b!"state", v)]).lookup b!"state" = some v := by intro v; rw [mlab_lookup_append, hn]; simp [List.lookup_cons]
      simp only [List.pairwise_cons, List.mem_cons, List.not_mem_nil, or_false, List.Pairwise.nil, and_true, false_imp_iff, implies_true]
      refine ⟨?_, ?_, ?_⟩
      · rintro a (rfl | rfl | rfl) <;> exact ⟨b!"state", by rw [hv, hv]; decide⟩
      · rintro a (rfl | rfl) <;> exact ⟨b!"state", by rw [hv, hv]; decide⟩
      · rintro a rfl; exact ⟨b!"state", by rw [hv, hv]; decide⟩
    · refine (svc_diff st).imp ?_
      intro s t h a ha b hb
      simp only [List.mem_cons, List.not_mem_nil, or_false] at ha hb
      have : ∀ v w, ∃ n, (s.1 ++ [(b!"state", v)]).lookup n ≠ (t.1 ++ [(b!"state", w)]).lookup n := fun v w => weak (h.ext _ _ (by simp) (by simp))
      rcases ha with rfl | rfl | rfl | rfl <;> rcases hb with rfl | rfl | rfl | rfl <;> exact this _ _
  | backendState =>
    simp only [samplesOf]
    rw [List.pairwise_flatMap]
    constructor
    · intro s hs
      have hn : s.1.lookup b!"state" = none := lookup_notin (by rcases be_names hs with h | h <;> rw [h] <;> decide)
      have hv : ∀ v, (s.1 ++ [(b!"state", v)]).lookup b!"state" = some v := by intro v; rw [mlab_lookup_append, hn]; simp [List.lookup_cons]
      simp only [List.pairwise_cons, List.mem_cons, List.not_mem_nil, or_false, List.Pairwise.nil, and_true, false_imp_iff, implies_true]
      rintro a rfl; exact ⟨b!"state", by rw [hv, hv]; decide⟩
    · refine (be_diff st).imp ?_
      intro s t h a ha b hb
      simp only [List.mem_cons, List.not_mem_nil, or_false] at ha hb
      have : ∀ v w, ∃ n, (s.1 ++ [(b!"state", v)]).lookup n ≠ (t.1 ++ [(b!"state", w)]).lookup n := fun v w => weak (h.ext _ _ (by simp) (by simp))
      rcases ha with rfl | rfl <;> rcases hb with rfl | rfl <;> exact this _ _
  | backendRequests =>
    simp only [samplesOf, List.pairwise_map]
    exact ((be_diff st).filter _).imp fun h => weak h
  | backendAvg =>
    simp only [samplesOf, List.pairwise_map]
    exact ((be_diff st).filter _).imp fun h => weak h
  | backendStddev =>
    simp only [samplesOf, List.pairwise_map]
    exact ((be_diff st).filter _).imp fun h => weak h

/-- Each label occurs once in a sample -/
theorem samples_names_nodup {D} (L : DblLib D) (st : MState D) (f : Fam) : ∀ s ∈ samplesOf L st f, (s.labels.map (·.1)).Nodup := by
  intro s hs
  cases f with
  | workers =>
    simp only [samplesOf, List.mem_cons, List.not_mem_nil, or_false] at hs
    rcases hs with rfl | rfl | rfl | rfl <;> simp
  | listenerEnabled => obtain ⟨p, hp, rfl⟩ := List.mem_map.mp hs; dsimp only; rw [lst_names hp]; decide
  | listenerInfo => obtain ⟨p, hp, rfl⟩ := List.mem_map.mp hs; dsimp only; rw [List.map_append, lst_names hp]; simp
  | serviceInfo => obtain ⟨p, hp, rfl⟩ := List.mem_map.mp hs; dsimp only; rw [List.map_append]; rcases svc_names hp with h | h <;> rw [h] <;> simp
  | serviceEnabled => obtain ⟨p, hp, rfl⟩ := List.mem_map.mp hs; dsimp only; rcases svc_names hp with h | h <;> rw [h] <;> decide
  | backends =>
    obtain ⟨p, hp, hx⟩ := List.mem_flatMap.mp hs
    simp only [List.mem_cons, List.not_mem_nil, or_false] at hx
    rcases hx with rfl | rfl | rfl | rfl <;> (dsimp only; rw [List.map_append]; rcases svc_names hp with h | h <;> rw [h] <;> decide)
  | backendState =>
    obtain ⟨p, hp, hx⟩ := List.mem_flatMap.mp hs
    simp only [List.mem_cons, List.not_mem_nil, or_false] at hx
    rcases hx with rfl | rfl <;> (dsimp only; rw [List.map_append]; rcases be_names hp with h | h <;> rw [h] <;> decide)
  | backendRequests => obtain ⟨p, hp, rfl⟩ := List.mem_map.mp hs; dsimp only; rcases be_names (List.mem_filter.mp hp).1 with h | h <;> rw [h] <;> decide
  | backendAvg => obtain ⟨p, hp, rfl⟩ := List.mem_map.mp hs; dsimp only; rcases be_names (List.mem_filter.mp hp).1 with h | h <;> rw [h] <;> decide
  | backendStddev => obtain ⟨p, hp, rfl⟩ := List.mem_map.mp hs; dsimp only; rcases be_names (List.mem_filter.mp hp).1 with h | h <;> rw [h] <;> decide

/-! ### Label names and values -/

/-- The names are distinct identifiers, and the values are clean -/
structure GoodLabels (ls : MLabels) : Prop where
  nodup : (ls.map (·.1)).Nodup
  names : ∀ l ∈ ls, l.1 ≠ [] ∧ l.1.all nameCh = true
  values : ∀ l ∈ ls, CleanValue l.2

theorem clean_dec (n : Nat) : CleanValue (dec n) := by
  have h := decAux_digits (n + 1) n
  refine ⟨fun x => ?_, fun x => ?_, fun x => ?_⟩ <;> exact absurd (h _ x) (by decide)

theorem good_append {a b : MLabels} (ha : GoodLabels a) (hb : ∀ l ∈ b, l.1 ≠ [] ∧ l.1.all nameCh = true ∧ CleanValue l.2)
    (hn : (a.map (·.1) ++ b.map (·.1)).Nodup) : GoodLabels (a ++ b) := by
  refine ⟨by rw [List.map_append]; exact hn, ?_, ?_⟩
  · intro l hl
    rcases List.mem_append.mp hl with h | h
    · exact ha.names l h
    · exact ⟨(hb l h).1, (hb l h).2.1⟩
  · intro l hl
    rcases List.mem_append.mp hl with h | h
    · exact ha.values l h
    · exact (hb l h).2.2

theorem good_nil : GoodLabels [] := ⟨by simp, by simp, by simp⟩

theorem good_placed {α} {pfx : MLabels} {lab : Bytes} {l : List α} {p : MLabels × α} (hp : p ∈ placed pfx lab l) (h : GoodLabels pfx)
    (hl : lab ≠ [] ∧ lab.all nameCh = true) (hn : lab ∉ pfx.map (·.1)) : GoodLabels p.1 := by
  obtain ⟨i, -, e⟩ := placed_labels hp
  rw [e]
  refine good_append h ?_ ?_
  · intro x hx
    rw [List.mem_singleton] at hx
    subst hx
    exact ⟨hl.1, hl.2, clean_dec i⟩
  · rw [List.nodup_append]
    refine ⟨h.nodup, by simp, ?_⟩
    intro x hx y hy
    simp only [List.map_cons, List.map_nil, List.mem_singleton] at hy
    subst hy
    exact fun e => hn (e ▸ hx)

theorem good_lst {D} {st : MState D} {p : MLabels × MLst D} (h : p ∈ allListeners st) : GoodLabels p.1 := good_placed h good_nil (by decide) (by simp)

theorem good_svc {D} {st : MState D} {p : MLabels × MSvc D} (h : p ∈ allServices st) : GoodLabels p.1 := by
  rcases List.mem_append.mp h with h | h
  · obtain ⟨l, hl, hx⟩ := List.mem_flatMap.mp h
    exact good_placed hx (good_lst hl) (by decide) (by rw [lst_names hl]; decide)
  · exact good_placed h good_nil (by decide) (by simp)

theorem good_be {D} {st : MState D} {p : MLabels × MBe D} (h : p ∈ allBackends st) : GoodLabels p.1 := by
  obtain ⟨l, hl, hx⟩ := List.mem_flatMap.mp h
  exact good_placed hx (good_svc hl) (by decide) (by rcases svc_names hl with h | h <;> rw [h] <;> decide)

theorem samples_good {D} (L : DblLib D) (st : MState D) (hc : CleanNames st) (f : Fam) : ∀ s ∈ samplesOf L st f, GoodLabels s.labels := by
  have hstate : ∀ (a : MLabels) (v : Bytes), GoodLabels a → b!"state" ∉ a.map (·.1) → CleanValue v → GoodLabels (a ++ [(b!"state", v)]) := by
    intro a v ha hn hv
    refine good_append ha ?_ ?_
    · intro x hx
      rw [List.mem_singleton] at hx
      subst hx
      exact ⟨by simp, rfl, hv⟩
    · rw [List.nodup_append]
      refine ⟨ha.nodup, by simp, ?_⟩
      intro x hx y hy
      simp only [List.map_cons, List.map_nil, List.mem_singleton] at hy
      subst hy
      exact fun e => hn (e ▸ hx)
  have hcv : ∀ v ∈ [b!"total", b!"enabled", b!"alive", b!"active"], CleanValue v := by unfold CleanValue; decide
  intro s hs
  cases f with
  | workers =>
    simp only [samplesOf, List.mem_cons, List.not_mem_nil, or_false] at hs
    have : ∀ v ∈ [b!"active", b!"count", b!"max", b!"min"], GoodLabels [(b!"type", v)] := by
      intro v hv
      refine ⟨by simp, ?_, ?_⟩
      · intro l hl
        rw [List.mem_singleton] at hl
        subst hl
        exact ⟨by simp, by show b!"type".all nameCh = true; decide⟩
      · intro l hl
        rw [List.mem_singleton] at hl
        subst hl
        have : ∀ v ∈ [b!"active", b!"count", b!"max", b!"min"], CleanValue v := by unfold CleanValue; decide
        exact this v hv
    rcases hs with rfl | rfl | rfl | rfl <;> exact this _ (by simp)
  | listenerEnabled => obtain ⟨p, hp, rfl⟩ := List.mem_map.mp hs; exact good_lst hp
  | listenerInfo =>
    obtain ⟨p, hp, rfl⟩ := List.mem_map.mp hs
    refine good_append (good_lst hp) ?_ (by rw [lst_names hp]; show [b!"listener", b!"name", b!"address", b!"protocol"].Nodup; decide)
    intro l hl
    simp only [List.mem_cons, List.not_mem_nil, or_false] at hl
    rcases hl with rfl | rfl | rfl
    · exact ⟨by simp, rfl, (hc.1 p hp).1⟩
    · exact ⟨by simp, rfl, (hc.1 p hp).2⟩
    · refine ⟨by simp, rfl, ?_⟩
      cases p.2.https <;> (unfold CleanValue; decide)
  | serviceInfo =>
    obtain ⟨p, hp, rfl⟩ := List.mem_map.mp hs
    refine good_append (good_svc hp) ?_ (by
      rcases svc_names hp with h | h <;> rw [h]
      · show [b!"listener", b!"service", b!"name"].Nodup; decide
      · show [b!"service", b!"name"].Nodup; decide)
    intro l hl
    simp only [List.mem_cons, List.not_mem_nil, or_false] at hl
    subst hl
    exact ⟨by simp, rfl, hc.2 p hp⟩
  | serviceEnabled => obtain ⟨p, hp, rfl⟩ := List.mem_map.mp hs; exact good_svc hp
  | backends =>
    obtain ⟨p, hp, hx⟩ := List.mem_flatMap.mp hs
    have := hstate p.1
    have hn : b!"state" ∉ p.1.map (·.1) := by rcases svc_names hp with h | h <;> rw [h] <;> decide
    simp only [List.mem_cons, List.not_mem_nil, or_false] at hx
    rcases hx with rfl | rfl | rfl | rfl <;> exact this _ (good_svc hp) hn (hcv _ (by simp))
  | backendState =>
    obtain ⟨p, hp, hx⟩ := List.mem_flatMap.mp hs
    have := hstate p.1
    have hn : b!"state" ∉ p.1.map (·.1) := by rcases be_names hp with h | h <;> rw [h] <;> decide
    simp only [List.mem_cons, List.not_mem_nil, or_false] at hx
    rcases hx with rfl | rfl <;> exact this _ (good_be hp) hn (hcv _ (by simp))
  | backendRequests => obtain ⟨p, hp, rfl⟩ := List.mem_map.mp hs; exact good_be (List.mem_filter.mp hp).1
  | backendAvg => obtain ⟨p, hp, rfl⟩ := List.mem_map.mp hs; exact good_be (List.mem_filter.mp hp).1
  | backendStddev => obtain ⟨p, hp, rfl⟩ := List.mem_map.mp hs; exact good_be (List.mem_filter.mp hp).1

/-! ### The scraper -/

theorem readQuoted_clean : ∀ (v r : Bytes), CleanValue v → readQuoted (v ++ 34 :: r) = some (v, r)
  | [], r, _ => by simp [readQuoted]
  | c :: v, r, h => by
    have h1 : c ≠ 34 := fun e => h.1 (by simp [e])
    have h2 : c ≠ 92 := fun e => h.2.1 (by simp [e])
    have h3 : c ≠ 10 := fun e => h.2.2 (by simp [e])
    have ih := readQuoted_clean v r ⟨fun x => h.1 (by simp [x]), fun x => h.2.1 (by simp [x]), fun x => h.2.2 (by simp [x])⟩
    rw [List.cons_append, readQuoted]
    · rw [ih, if_neg (by simp [h2, h3])]
      rfl
    · intro e; exact absurd e h1
    · rintro x e; exact absurd e h2
    · rintro x e; exact absurd e h2
    · rintro x e; exact absurd e h2

theorem all_take {p : UInt8 → Bool} : ∀ (a : Bytes) (c : UInt8) (r : Bytes), a.all p = true → p c = false →
    (a ++ c :: r).takeWhile p = a ∧ (a ++ c :: r).dropWhile p = c :: r
  | [], c, r, _, hc => by simp [hc]
  | x :: a, c, r, h, hc => by
    have h' : p x = true ∧ a.all p = true := by simpa using h
    have := all_take a c r h'.2 hc
    simp [h'.1, this]

theorem readLabel_ok (n v r : Bytes) (hn : n.all nameCh = true) (hv : CleanValue v) : readLabel (n ++ b!"=\"" ++ v ++ b!"\"" ++ r) = some ((n, v), r) := by
  have e : n ++ b!"=\"" ++ v ++ b!"\"" ++ r = n ++ 61 :: (34 :: (v ++ 34 :: r)) := by simp
  obtain ⟨h1, h2⟩ := all_take n 61 (34 :: (v ++ 34 :: r)) hn (by decide)
  unfold readLabel
  rw [e, h2]
  show Option.map _ (readQuoted (v ++ 34 :: r)) = _
  rw [readQuoted_clean v r hv, h1]
  rfl

theorem readLabels_ok : ∀ (ls : MLabels) (k : Nat) (r : Bytes), ls ≠ [] → ls.length ≤ k → (∀ l ∈ ls, l.1.all nameCh = true) → (∀ l ∈ ls, CleanValue l.2) →
    readLabels k (fmtLabels ls ++ 125 :: r) = some (ls, r)
  | [], _, _, h, _, _, _ => absurd rfl h
  | [(n, v)], k, r, _, hk, hn, hv => by
    obtain ⟨k, rfl⟩ : ∃ j, k = j + 1 := ⟨k - 1, by simp at hk; omega⟩
    unfold readLabels fmtLabels
    rw [readLabel_ok n v (125 :: r) (hn (n, v) (by simp)) (hv (n, v) (by simp))]
    rfl
  | (n, v) :: m :: ls, k, r, _, hk, hn, hv => by
    obtain ⟨k, rfl⟩ : ∃ j, k = j + 1 := ⟨k - 1, by simp at hk; omega⟩
    have ih := readLabels_ok (m :: ls) k r (by simp) (by simp at hk ⊢; omega) (fun l hl => hn l (List.mem_cons_of_mem _ hl)) (fun l hl => hv l (List.mem_cons_of_mem _ hl))
    unfold readLabels fmtLabels
    rw [show n ++ b!"=\"" ++ v ++ b!"\"" ++ b!"," ++ fmtLabels (m :: ls) ++ 125 :: r = n ++ b!"=\"" ++ v ++ b!"\"" ++ (44 :: (fmtLabels (m :: ls) ++ 125 :: r)) by simp]
    rw [readLabel_ok n v _ (hn (n, v) (by simp)) (hv (n, v) (by simp))]
    show Option.map _ (readLabels k _) = _
    rw [ih]
    rfl

theorem fmtLabels_len : ∀ (ls : MLabels), ls.length ≤ (fmtLabels ls).length
  | [] => by simp [fmtLabels]
  | [(n, v)] => by simp [fmtLabels]; omega
  | (n, v) :: m :: ls => by
    have := fmtLabels_len (m :: ls)
    unfold fmtLabels
    simp at this ⊢
    omega

theorem readSample_ok {D} (L : DblLib D) (name : Bytes) (s : Sample D) (hn : name.all nameCh = true) (hl : s.labels ≠ []) (hg : GoodLabels s.labels) :
    readSample (sampleLine L name s) = some (name, s.labels, L.fmt0 s.number) := by
  have e : sampleLine L name s = name ++ 123 :: (fmtLabels s.labels ++ 125 :: (32 :: L.fmt0 s.number)) := by
    unfold sampleLine; rw [fmtLabels_eq]; simp
  obtain ⟨h1, h2⟩ := all_take name 123 (fmtLabels s.labels ++ 125 :: (32 :: L.fmt0 s.number)) hn (by decide)
  unfold readSample
  rw [e, h2, h1]
  have hr := readLabels_ok s.labels ((fmtLabels s.labels ++ 125 :: (32 :: L.fmt0 s.number)).length + 1) (32 :: L.fmt0 s.number) hl
    (by have := fmtLabels_len s.labels; simp; omega) (fun l h => (hg.names l h).2) hg.values
  show (match readLabels ((fmtLabels s.labels ++ 125 :: (32 :: L.fmt0 s.number)).length + 1) (fmtLabels s.labels ++ 125 :: (32 :: L.fmt0 s.number)) with
    | some (ls, 32 :: v) => some (name, ls, v)
    | _ => none) = _
  rw [hr]
  rfl

theorem splitLines_line : ∀ (l acc r : Bytes), 10 ∉ l → splitLines (l ++ 10 :: r) acc = (splitLines r []).map ((acc ++ l) :: ·)
  | [], acc, r, _ => by simp [splitLines]
  | c :: l, acc, r, h => by
    have hc : c ≠ 10 := fun e => h (by simp [e])
    rw [List.cons_append, splitLines]
    · rw [splitLines_line l (acc ++ [c]) r (fun x => h (by simp [x]))]
      simp
    · exact hc

theorem splitLines_unlines : ∀ (ls : List Bytes), (∀ l ∈ ls, 10 ∉ l) → splitLines (unlines ls) [] = some ls
  | [], _ => rfl
  | l :: ls, h => by
    rw [show unlines (l :: ls) = l ++ 10 :: unlines ls by simp [unlines], splitLines_line l [] _ (h l (by simp)),
      splitLines_unlines ls (fun x hx => h x (by simp [hx]))]
    rfl

theorem readPage_comment (l : Bytes) (ls : List Bytes) (h1 : l ≠ b!"# EOF") (h2 : l.head? = some 35) : readPage (l :: ls) = readPage ls := by
  rw [readPage, if_neg h1, if_pos h2]

theorem readPage_samples {D} (L : DblLib D) (name : Bytes) (hn : name.all nameCh = true ∧ name ≠ []) (rest : List Bytes) (r : List (Bytes × MLabels × Bytes))
    (hr : readPage rest = some r) : ∀ (ss : List (Sample D)), (∀ s ∈ ss, s.labels ≠ [] ∧ GoodLabels s.labels) →
    readPage (ss.map (sampleLine L name) ++ rest) = some (ss.map (fun s => (name, s.labels, L.fmt0 s.number)) ++ r)
  | [], _ => hr
  | s :: ss, h => by
    have ih := readPage_samples L name hn rest r hr ss (fun x hx => h x (by simp [hx]))
    obtain ⟨c, t, rfl⟩ : ∃ c t, name = c :: t := by
      cases name with
      | nil => exact absurd rfl hn.2
      | cons c t => exact ⟨c, t, rfl⟩
    have hc : nameCh c = true := by have := hn.1; simp at this; exact this.1
    have hne : c ≠ 35 := fun e => by subst e; exact absurd hc (by decide)
    have hhd : (sampleLine L (c :: t) s).head? = some c := rfl
    rw [List.map_cons, List.cons_append, readPage, if_neg, if_neg]
    · rw [readSample_ok L _ s hn.1 (h s (by simp)).1 (h s (by simp)).2, ih]
      rfl
    · rw [hhd]; simpa using hne
    · intro e
      rw [e] at hhd
      have : (35 : UInt8) = c := by simpa using hhd
      exact hne this.symm

theorem fam_name (f : Fam) : f.text.name.all nameCh = true ∧ f.text.name ≠ [] := by cases f <;> decide

theorem readPage_fam {D} (L : DblLib D) (f : Fam) (ss : List (Sample D)) (h : ∀ s ∈ ss, s.labels ≠ [] ∧ GoodLabels s.labels) (rest : List Bytes)
    (r : List (Bytes × MLabels × Bytes)) (hr : readPage rest = some r) :
    readPage (famLines L f ss ++ rest) = some (ss.map (fun s => (f.text.name, s.labels, L.fmt0 s.number)) ++ r) := by
  have hs := readPage_samples L f.text.name (fam_name f) rest r hr ss h
  unfold famLines
  cases f <;>
    (simp only [Fam.text, List.append_assoc, List.cons_append, List.nil_append] at hs ⊢
     repeat rw [readPage_comment _ _ (by decide) (by decide)]
     exact hs)

/-- What the page is read as -/
def pageSamples {D} (L : DblLib D) (st : MState D) : List (Bytes × MLabels × Bytes) :=
  famOrder.flatMap fun f => (samplesOf L st f).map fun s => (f.text.name, s.labels, L.fmt0 s.number)

theorem readPage_page {D} (L : DblLib D) (st : MState D) (hc : CleanNames st) : readPage (pageLines L st) = some (pageSamples L st) := by
  unfold pageLines pageSamples
  have : ∀ fs : List Fam, readPage ((fs.filter fun f => !(samplesOf L st f).isEmpty).flatMap (fun f => famLines L f (samplesOf L st f)) ++ [b!"# EOF"]) =
      some (fs.flatMap fun f => (samplesOf L st f).map fun s => (f.text.name, s.labels, L.fmt0 s.number)) := by
    intro fs
    induction fs with
    | nil => rfl
    | cons f fs ih =>
      rw [List.flatMap_cons]
      cases he : (samplesOf L st f).isEmpty
      · rw [List.filter_cons_of_pos (by simp [he]), List.flatMap_cons, List.append_assoc]
        exact readPage_fam L f _ (fun s hs => ⟨samples_labelled L st f s hs, samples_good L st hc f s hs⟩) _ _ ih
      · rw [List.filter_cons_of_neg (by simp [he]), ih]
        rw [List.isEmpty_iff] at he
        rw [he]
        rfl
  exact this famOrder

theorem intercalate_mem (c : UInt8) (sep : Bytes) : ∀ (ls : List Bytes), c ∈ List.intercalate sep ls → c ∈ sep ∨ ∃ l ∈ ls, c ∈ l
  | [], h => by simp [List.intercalate] at h
  | [a], h => by
    have : c ∈ a := by simpa [List.intercalate] using h
    exact .inr ⟨a, by simp, this⟩
  | a :: b :: ls, h => by
    have : c ∈ a ∨ c ∈ sep ∨ c ∈ List.intercalate sep (b :: ls) := by simpa [List.intercalate, List.intersperse] using h
    rcases this with h | h | h
    · exact .inr ⟨a, by simp, h⟩
    · exact .inl h
    · rcases intercalate_mem c sep (b :: ls) h with h | ⟨l, hl, h⟩
      · exact .inl h
      · exact .inr ⟨l, List.mem_cons_of_mem _ hl, h⟩

theorem nameCh_no_lf {n : Bytes} (h : n.all nameCh = true) : 10 ∉ n := by
  intro hx
  have := List.all_eq_true.mp h 10 hx
  exact absurd this (by decide)

theorem sampleLine_no_lf {D} (L : DblLib D) (hL : ∀ d, 10 ∉ L.fmt0 d) (name : Bytes) (hn : name.all nameCh = true) (s : Sample D) (hg : GoodLabels s.labels) :
    10 ∉ sampleLine L name s := by
  intro h
  unfold sampleLine at h
  simp only [List.mem_append] at h
  rcases h with (((h | h) | h) | h) | h
  · exact nameCh_no_lf hn h
  · exact absurd h (by decide)
  · rcases intercalate_mem _ _ _ h with h | ⟨x, hx, h⟩
    · exact absurd h (by decide)
    · obtain ⟨l, hl, rfl⟩ := List.mem_map.mp hx
      simp only [List.mem_append] at h
      rcases h with ((h | h) | h) | h
      · exact nameCh_no_lf (hg.names l hl).2 h
      · exact absurd h (by decide)
      · exact (hg.values l hl).2.2 h
      · exact absurd h (by decide)
  · exact absurd h (by decide)
  · exact hL _ h

theorem page_no_lf {D} (L : DblLib D) (hL : ∀ d, 10 ∉ L.fmt0 d) (st : MState D) (hc : CleanNames st) : ∀ l ∈ pageLines L st, 10 ∉ l := by
  intro l hl
  unfold pageLines at hl
  rcases List.mem_append.mp hl with hl | hl
  · obtain ⟨f, -, hf⟩ := List.mem_flatMap.mp hl
    unfold famLines at hf
    rcases List.mem_append.mp hf with hf | hf
    · have : ∀ f : Fam, ∀ l ∈ [b!"# TYPE " ++ f.text.name ++ b!" " ++ f.text.type] ++
          (match f.text.unit with | some u => [b!"# UNIT " ++ f.text.name ++ b!" " ++ u] | none => []) ++
          [b!"# HELP " ++ f.text.name ++ b!" " ++ f.text.help], 10 ∉ l := by
        intro f; cases f <;> decide
      exact this f l hf
    · obtain ⟨s, hs, rfl⟩ := List.mem_map.mp hf
      exact sampleLine_no_lf L hL _ (fam_name f).1 s (samples_good L st hc f s hs)
  · rw [List.mem_singleton] at hl
    subst hl
    decide

theorem scrape_page {D} (L : DblLib D) (hL : ∀ d, 10 ∉ L.fmt0 d) (st : MState D) (hc : CleanNames st) :
    scrape (unlines (pageLines L st)) = some (pageSamples L st) := by
  unfold scrape
  rw [splitLines_unlines _ (page_no_lf L hL st hc)]
  exact readPage_page L st hc

end Pound
