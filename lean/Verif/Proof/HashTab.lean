import Verif.Spec.HashTab
import Verif.Proof.Headers

/-! Proofs about hash tables. -/

namespace Pound
open Spec

variable {κ ν : Type}

/-- What is used of a table: equal keys have equal hash values. -/
structure GoodKind (K : TabKind κ) : Prop where
  eqv : Equality K.same
  hash {a b : κ} : K.same a b = true → K.hash a = K.hash b

theorem lastAdded_congr {same : κ → κ → Bool} (h : Equality same) {a b : κ} (e : same a b = true) : ∀ hist : List (TabOp κ ν), lastAdded same hist a = lastAdded same hist b
  | [] => rfl
  | .add k v :: r => by
    have : same k a = same k b := by
      rw [Bool.eq_iff_iff]; exact ⟨fun x => h.trans x e, fun x => h.trans x (h.symm e)⟩
    simp only [lastAdded, this, lastAdded_congr h e r]
  | .del k :: r => by
    have : same k a = same k b := by
      rw [Bool.eq_iff_iff]; exact ⟨fun x => h.trans x e, fun x => h.trans x (h.symm e)⟩
    simp only [lastAdded, this, lastAdded_congr h e r]

/-- The invariant of a table -/
structure TabInv (K : TabKind κ) (hist : List (TabOp κ ν)) (s : TabSt κ ν) : Prop where
  live : ∀ e ∈ s.nodes, e.2 < s.next ∧ ∃ k v, s.heap e.2 = some (k, v) ∧ e.1 = K.hash k ∧ lastAdded K.same hist k = some v
  all : ∀ k v, lastAdded K.same hist k = some v → ∃ e ∈ s.nodes, ∃ k', s.heap e.2 = some (k', v) ∧ K.same k' k = true
  one : ∀ e ∈ s.nodes, ∀ e' ∈ s.nodes, ∀ k v k' v', s.heap e.2 = some (k, v) → s.heap e'.2 = some (k', v') → K.same k k' = true → e.2 = e'.2

/-- The search, with live entries -/
theorem nodeFind_spec {K : TabKind κ} (hK : GoodKind K) {heap : Nat → Option (κ × ν)} (k : κ) : ∀ nodes : List (UInt64 × Nat),
    (∀ e ∈ nodes, ∃ k v, heap e.2 = some (k, v) ∧ e.1 = K.hash k) →
    (∃ p, nodeFind K heap k nodes = .ok (some p) ∧ ∃ e ∈ nodes, e.2 = p ∧ ∃ k' v, heap p = some (k', v) ∧ K.same k' k = true) ∨
    (nodeFind K heap k nodes = .ok none ∧ ∀ e ∈ nodes, ∀ k' v, heap e.2 = some (k', v) → K.same k' k = false)
  | [], _ => Or.inr ⟨rfl, by simp⟩
  | (h, p) :: r, hl => by
    obtain ⟨k1, v1, h1, h2⟩ := hl _ List.mem_cons_self
    have ih := nodeFind_spec hK k r fun e he => hl e (List.mem_cons_of_mem _ he)
    dsimp only at h1 h2
    have rest : K.same k1 k = false → nodeFind K heap k ((h, p) :: r) = nodeFind K heap k r →
        (∃ p', nodeFind K heap k ((h, p) :: r) = .ok (some p') ∧ ∃ e ∈ (h, p) :: r, e.2 = p' ∧ ∃ k' v, heap p' = some (k', v) ∧ K.same k' k = true) ∨
        (nodeFind K heap k ((h, p) :: r) = .ok none ∧ ∀ e ∈ (h, p) :: r, ∀ k' v, heap e.2 = some (k', v) → K.same k' k = false) := by
      intro hs he
      rw [he]
      rcases ih with ⟨p', i1, e, i2, i3⟩ | ⟨i1, i2⟩
      · exact Or.inl ⟨p', i1, e, List.mem_cons_of_mem _ i2, i3⟩
      · refine Or.inr ⟨i1, ?_⟩
        intro e he k' v hv
        rcases List.mem_cons.mp he with rfl | he
        · rw [h1] at hv
          injection hv with hv
          injection hv with hv _
          rw [← hv]; exact hs
        · exact i2 e he k' v hv
    by_cases hh : h = K.hash k
    · cases hs : K.same k1 k with
      | true =>
        left
        refine ⟨p, ?_, (h, p), List.mem_cons_self, rfl, k1, v1, h1, hs⟩
        unfold nodeFind
        rw [if_pos hh, h1]
        dsimp only
        rw [if_pos hs]
      | false =>
        apply rest hs
        conv => lhs; unfold nodeFind
        rw [if_pos hh, h1]
        dsimp only
        rw [if_neg (by rw [hs]; decide)]
    · apply rest
      · cases hs : K.same k1 k with
        | false => rfl
        | true => exact absurd (h2.trans (hK.hash hs)) hh
      · conv => lhs; unfold nodeFind
        rw [if_neg hh]

theorem TabInv.liveNodes {K : TabKind κ} {hist : List (TabOp κ ν)} {s : TabSt κ ν} (h : TabInv K hist s) :
    ∀ e ∈ s.nodes, ∃ k v, s.heap e.2 = some (k, v) ∧ e.1 = K.hash k := fun e he => by
  obtain ⟨-, k, v, h1, h2, -⟩ := h.live e he
  exact ⟨k, v, h1, h2⟩

theorem tabGet_inv {K : TabKind κ} (hK : GoodKind K) {hist : List (TabOp κ ν)} {s : TabSt κ ν} (h : TabInv K hist s) (k : κ) :
    tabGet K s k = .ok (lastAdded K.same hist k) := by
  unfold tabGet
  rcases nodeFind_spec hK k s.nodes h.liveNodes with ⟨p, h1, e, h2, h3, k', v, h4, h5⟩ | ⟨h1, h2⟩
  · rw [h1]
    dsimp only
    rw [h4]
    dsimp only
    obtain ⟨-, k1, v1, i1, -, i2⟩ := h.live e h2
    rw [h3, h4] at i1
    injection i1 with i1
    injection i1 with i1 i3
    subst i1 i3
    rw [← lastAdded_congr hK.eqv h5, i2]
  · rw [h1]
    dsimp only
    cases hl : lastAdded K.same hist k with
    | none => rfl
    | some v =>
      obtain ⟨e, he, k', i1, i2⟩ := h.all k v hl
      rw [h2 e he k' v i1] at i2
      cases i2

/-- Adding to a table whose entries are live, when the old entry is released or there is none -/
theorem tabAdd_inv {K : TabKind κ} (hK : GoodKind K) {d : DupRule} {hist : List (TabOp κ ν)} {s : TabSt κ ν} (h : TabInv K hist s) (k : κ) (v : ν)
    (hd : d = .freeOld ∨ lastAdded K.same hist k = none) : ∃ s', tabAdd K d s k v = .ok ((lastAdded K.same hist k).isSome, s') ∧ TabInv K (.add k v :: hist) s' := by
  -- the memory with the new entry
  have hold : ∀ e ∈ s.nodes, (if e.2 = s.next then some (k, v) else s.heap e.2) = s.heap e.2 := fun e he => by
    rw [if_neg]; exact Nat.ne_of_lt (h.live e he).1
  have hlive : ∀ e ∈ s.nodes, ∃ k' v', (fun q => if q = s.next then some (k, v) else s.heap q) e.2 = some (k', v') ∧ e.1 = K.hash k' := fun e he => by
    obtain ⟨k', v', h1, h2⟩ := h.liveNodes e he
    exact ⟨k', v', by dsimp only; rw [hold e he, h1], h2⟩
  unfold tabAdd
  dsimp only
  rcases nodeFind_spec (heap := fun q => if q = s.next then some (k, v) else s.heap q) hK k s.nodes hlive with ⟨p, h1, e, h2, h3, k', v', h4, h5⟩ | ⟨h1, h2⟩
  · rw [h1]
    dsimp only
    have hlt := (h.live e h2).1
    rw [h3] at hlt
    rw [if_neg (Nat.ne_of_lt hlt)] at h4
    have hfound : lastAdded K.same hist k = some v' := by
      obtain ⟨-, k1, v1, i1, -, i2⟩ := h.live e h2
      rw [h3, h4] at i1
      injection i1 with i1
      injection i1 with i1 i3
      subst i1 i3
      rw [← lastAdded_congr hK.eqv h5, i2]
    have hdo : d = .freeOld := by
      rcases hd with hd | hd
      · exact hd
      · rw [hfound] at hd; cases hd
    subst hdo
    refine ⟨_, by rw [hfound]; rfl, ?_⟩
    -- entries other than the one replaced
    have hother : ∀ e1 ∈ s.nodes, e1.2 ≠ p → ∃ k1 v1, s.heap e1.2 = some (k1, v1) ∧ e1.1 = K.hash k1 ∧ K.same k k1 = false ∧ lastAdded K.same hist k1 = some v1 := by
      intro e1 he1 hne
      obtain ⟨-, k1, v1, i1, i2, i3⟩ := h.live e1 he1
      refine ⟨k1, v1, i1, i2, ?_, i3⟩
      cases hs : K.same k k1 with
      | false => rfl
      | true =>
        have := h.one e h2 e1 he1 k' v' k1 v1 (by rw [h3]; exact h4) i1 (hK.eqv.trans h5 hs)
        exact absurd (this.symm.trans h3) hne
    have hheap : ∀ x, x ≠ p → x ≠ s.next → (if x = p then none else if x = s.next then some (k, v) else s.heap x) = s.heap x := by
      intro x h1 h2; rw [if_neg h1, if_neg h2]
    have hnew : (if s.next = p then none else if s.next = s.next then some (k, v) else s.heap s.next) = some (k, v) := by
      rw [if_neg (Nat.ne_of_gt hlt), if_pos rfl]
    constructor
    · intro e1 he1
      obtain ⟨e0, he0, rfl⟩ := List.mem_map.mp he1
      by_cases hp : e0.2 = p
      · rw [if_pos hp]
        refine ⟨Nat.lt_succ_self _, k, v, hnew, ?_, ?_⟩
        · dsimp only
          obtain ⟨-, k1, v1, i1, i2, -⟩ := h.live e0 he0
          rw [hp, h4] at i1
          injection i1 with i1
          injection i1 with i1 _
          subst i1
          rw [i2]; exact hK.hash h5
        · simp [lastAdded, hK.eqv.refl]
      · rw [if_neg hp]
        obtain ⟨k1, v1, i1, i2, i3, i4⟩ := hother e0 he0 hp
        have hlt' := (h.live e0 he0).1
        refine ⟨Nat.lt_succ_of_lt hlt', k1, v1, ?_, i2, ?_⟩
        · exact (hheap _ hp (Nat.ne_of_lt hlt')).trans i1
        · simp [lastAdded, i3, i4]
    · intro k1 v1 hk1
      unfold lastAdded at hk1
      by_cases hs : K.same k k1 = true
      · rw [if_pos hs] at hk1
        injection hk1 with hk1
        subst hk1
        refine ⟨(e.1, s.next), List.mem_map.mpr ⟨e, h2, by rw [if_pos h3]⟩, k, hnew, hs⟩
      · rw [if_neg hs] at hk1
        obtain ⟨e0, he0, k0, i1, i2⟩ := h.all k1 v1 hk1
        have hp : e0.2 ≠ p := by
          intro hp
          rw [hp, h4] at i1
          injection i1 with i1
          injection i1 with i1 _
          subst i1
          exact hs (hK.eqv.trans (hK.eqv.symm h5) i2)
        refine ⟨e0, List.mem_map.mpr ⟨e0, he0, by rw [if_neg hp]⟩, k0, ?_, i2⟩
        exact (hheap _ hp (Nat.ne_of_lt (h.live e0 he0).1)).trans i1
    · intro e1 he1 e2 he2 k1 v1 k2 v2 hk1 hk2 hs
      dsimp only at hk1 hk2
      obtain ⟨a, ha, rfl⟩ := List.mem_map.mp he1
      obtain ⟨b, hb, rfl⟩ := List.mem_map.mp he2
      by_cases hpa : a.2 = p
      · by_cases hpb : b.2 = p
        · rw [if_pos hpa, if_pos hpb]
        · rw [if_pos hpa] at hk1
          rw [if_neg hpb] at hk2
          obtain ⟨k3, v3, i1, -, i3, -⟩ := hother b hb hpb
          rw [hheap _ hpb (Nat.ne_of_lt (h.live b hb).1), i1] at hk2
          rw [hnew] at hk1
          injection hk1 with hk1; injection hk1 with hk1 _
          injection hk2 with hk2; injection hk2 with hk2 _
          subst hk1 hk2
          rw [i3] at hs; cases hs
      · by_cases hpb : b.2 = p
        · rw [if_neg hpa] at hk1
          rw [if_pos hpb] at hk2
          obtain ⟨k3, v3, i1, -, i3, -⟩ := hother a ha hpa
          rw [hheap _ hpa (Nat.ne_of_lt (h.live a ha).1), i1] at hk1
          rw [hnew] at hk2
          injection hk1 with hk1; injection hk1 with hk1 _
          injection hk2 with hk2; injection hk2 with hk2 _
          subst hk1 hk2
          rw [hK.eqv.symm hs] at i3; cases i3
        · rw [if_neg hpa, if_neg hpb]
          rw [if_neg hpa, hheap _ hpa (Nat.ne_of_lt (h.live a ha).1)] at hk1
          rw [if_neg hpb, hheap _ hpb (Nat.ne_of_lt (h.live b hb).1)] at hk2
          exact h.one a ha b hb k1 v1 k2 v2 hk1 hk2 hs
  · rw [h1]
    dsimp only
    have hnone : lastAdded K.same hist k = none := by
      cases hl : lastAdded K.same hist k with
      | none => rfl
      | some v1 =>
        obtain ⟨e, he, k', i1, i2⟩ := h.all k v1 hl
        have := h2 e he k' v1 (by rw [hold e he]; exact i1)
        rw [this] at i2; cases i2
    refine ⟨_, by rw [hnone]; rfl, ?_⟩
    have hdiff : ∀ e ∈ s.nodes, ∀ k' v', s.heap e.2 = some (k', v') → K.same k' k = false := fun e he k' v' i =>
      h2 e he k' v' (by rw [hold e he]; exact i)
    have hsym : ∀ {k'}, K.same k' k = false → K.same k k' = false := by
      intro k' hf
      cases hs : K.same k k' with
      | false => rfl
      | true => rw [hK.eqv.symm hs] at hf; cases hf
    constructor
    · intro e he
      rcases List.mem_append.mp he with he | he
      · obtain ⟨i0, k1, v1, i1, i2, i3⟩ := h.live e he
        refine ⟨Nat.lt_succ_of_lt i0, k1, v1, by dsimp only; rw [hold e he]; exact i1, i2, ?_⟩
        simp [lastAdded, hsym (hdiff e he k1 v1 i1), i3]
      · have := List.mem_singleton.mp he
        subst this
        refine ⟨Nat.lt_succ_self _, k, v, by simp, rfl, by simp [lastAdded, hK.eqv.refl]⟩
    · intro k1 v1 hk1
      unfold lastAdded at hk1
      by_cases hs : K.same k k1 = true
      · rw [if_pos hs] at hk1
        injection hk1 with hk1
        subst hk1
        exact ⟨_, List.mem_append_right _ List.mem_cons_self, k, by simp, hs⟩
      · rw [if_neg hs] at hk1
        obtain ⟨e0, he0, k0, i1, i2⟩ := h.all k1 v1 hk1
        exact ⟨e0, List.mem_append_left _ he0, k0, by dsimp only; rw [hold e0 he0]; exact i1, i2⟩
    · intro e1 he1 e2 he2 k1 v1 k2 v2 hk1 hk2 hs
      dsimp only at hk1 hk2
      rcases List.mem_append.mp he1 with he1 | he1 <;> rcases List.mem_append.mp he2 with he2 | he2
      · rw [hold _ he1] at hk1
        rw [hold _ he2] at hk2
        exact h.one e1 he1 e2 he2 k1 v1 k2 v2 hk1 hk2 hs
      · have := List.mem_singleton.mp he2
        subst this
        rw [hold _ he1] at hk1
        simp at hk2
        have := hdiff e1 he1 k1 v1 hk1
        rw [← hk2.1, this] at hs; cases hs
      · have := List.mem_singleton.mp he1
        subst this
        rw [hold _ he2] at hk2
        simp at hk1
        have := hsym (hdiff e2 he2 k2 v2 hk2)
        rw [← hk1.1, this] at hs; cases hs
      · rw [List.mem_singleton.mp he1, List.mem_singleton.mp he2]

theorem tabDel_inv {K : TabKind κ} (hK : GoodKind K) {hist : List (TabOp κ ν)} {s : TabSt κ ν} (h : TabInv K hist s) (k : κ) :
    ∃ s', tabDel K s k = .ok s' ∧ TabInv K (.del k :: hist) s' := by
  have hsym : ∀ {k'}, K.same k' k = false → K.same k k' = false := by
    intro k' hf
    cases hs : K.same k k' with
    | false => rfl
    | true => rw [hK.eqv.symm hs] at hf; cases hf
  unfold tabDel
  rcases nodeFind_spec hK k s.nodes h.liveNodes with ⟨p, h1, e, h2, h3, k', v', h4, h5⟩ | ⟨h1, h2⟩
  · rw [h1]
    dsimp only
    refine ⟨_, rfl, ?_⟩
    have hmem : ∀ {e1}, e1 ∈ s.nodes.filter (fun e => e.2 ≠ p) ↔ e1 ∈ s.nodes ∧ e1.2 ≠ p := by
      intro e1; rw [List.mem_filter]; simp
    constructor
    · intro e1 he1
      obtain ⟨he1, hp⟩ := hmem.mp he1
      obtain ⟨i0, k1, v1, i1, i2, i3⟩ := h.live e1 he1
      refine ⟨i0, k1, v1, by dsimp only; rw [if_neg hp]; exact i1, i2, ?_⟩
      have : K.same k k1 = false := by
        cases hs : K.same k k1 with
        | false => rfl
        | true =>
          have := h.one e h2 e1 he1 k' v' k1 v1 (by rw [h3]; exact h4) i1 (hK.eqv.trans h5 hs)
          exact absurd (this.symm.trans h3) hp
      simp [lastAdded, this, i3]
    · intro k1 v1 hk1
      unfold lastAdded at hk1
      by_cases hs : K.same k k1 = true
      · rw [if_pos hs] at hk1; cases hk1
      · rw [if_neg hs] at hk1
        obtain ⟨e0, he0, k0, i1, i2⟩ := h.all k1 v1 hk1
        have hp : e0.2 ≠ p := by
          intro hp
          rw [hp, h4] at i1
          injection i1 with i1
          injection i1 with i1 _
          subst i1
          exact hs (hK.eqv.trans (hK.eqv.symm h5) i2)
        exact ⟨e0, hmem.mpr ⟨he0, hp⟩, k0, by dsimp only; rw [if_neg hp]; exact i1, i2⟩
    · intro e1 he1 e2 he2 k1 v1 k2 v2 hk1 hk2 hs
      obtain ⟨he1, hp1⟩ := hmem.mp he1
      obtain ⟨he2, hp2⟩ := hmem.mp he2
      dsimp only at hk1 hk2
      rw [if_neg hp1] at hk1
      rw [if_neg hp2] at hk2
      exact h.one e1 he1 e2 he2 k1 v1 k2 v2 hk1 hk2 hs
  · rw [h1]
    dsimp only
    refine ⟨_, rfl, ?_⟩
    constructor
    · intro e1 he1
      obtain ⟨i0, k1, v1, i1, i2, i3⟩ := h.live e1 he1
      exact ⟨i0, k1, v1, i1, i2, by simp [lastAdded, hsym (h2 e1 he1 k1 v1 i1), i3]⟩
    · intro k1 v1 hk1
      unfold lastAdded at hk1
      by_cases hs : K.same k k1 = true
      · rw [if_pos hs] at hk1; cases hk1
      · rw [if_neg hs] at hk1
        exact h.all k1 v1 hk1
    · exact h.one

theorem tabRun_inv {K : TabKind κ} (hK : GoodKind K) {d : DupRule} {fresh : Bool} (hd : d = .freeOld ∨ fresh = true) {hist : List (TabOp κ ν)} {s : TabSt κ ν}
    (h : TabRun K d fresh hist s) : TabInv K hist s := by
  induction h with
  | start => exact ⟨by simp, by simp [lastAdded], by simp⟩
  | add _ hf ha ih =>
    rename_i k v dup _
    obtain ⟨s'', h1, h2⟩ := tabAdd_inv hK (d := d) ih k v (hd.imp id hf)
    rw [h1] at ha
    injection ha with ha
    injection ha with _ ha
    rw [← ha]; exact h2
  | del _ ha ih =>
    rename_i k _
    obtain ⟨s'', h1, h2⟩ := tabDel_inv hK ih k
    rw [h1] at ha
    injection ha with ha
    rw [← ha]; exact h2
  | moved _ hp ih =>
    have hm : ∀ {e}, e ∈ _ → e ∈ _ := fun {e} he => hp.mem_iff.mp he
    exact ⟨fun e he => ih.live e (hp.mem_iff.mp he),
      fun k v hk => by obtain ⟨e, he, r⟩ := ih.all k v hk; exact ⟨e, hp.mem_iff.mpr he, r⟩,
      fun e he e' he' => ih.one e (hp.mem_iff.mp he) e' (hp.mem_iff.mp he')⟩

/-! ### The hash functions -/

theorem tolowerUl_congr {a b : UInt8} (h : toLower a = toLower b) : tolowerUl a = tolowerUl b := by
  unfold tolowerUl; rw [h]

theorem strhash_fold {a b : Bytes} (h : a.map toLower = b.map toLower) (s : UInt64 × UInt64) : a.foldl strhashStep s = b.foldl strhashStep s := by
  induction a generalizing b s with
  | nil =>
    cases b with
    | nil => rfl
    | cons _ _ => simp at h
  | cons x a ih =>
    cases b with
    | nil => simp at h
    | cons y b =>
      simp only [List.map_cons, List.cons.injEq] at h
      simp only [List.foldl_cons]
      have : strhashStep s x = strhashStep s y := by
        unfold strhashStep; rw [tolowerUl_congr h.1]
      rw [this]
      exact ih h.2 _

theorem toLower_zero (c : UInt8) : toLower c = 0 ↔ c = 0 := by
  unfold toLower isUpper
  split
  · rename_i h
    simp only [Bool.and_eq_true, decide_eq_true_eq, UInt8.le_iff_toNat_le] at h
    constructor
    · intro e
      have := congrArg UInt8.toNat e
      rw [UInt8.toNat_add] at this
      have h1 := h.1
      have h2 := h.2
      simp only [UInt8.reduceToNat] at h1 h2 this
      omega
    · rintro rfl
      exact absurd h.1 (by decide)
  · rfl

theorem strhashCi_congr {a b : Bytes} (h : ciEq a b = true) : strhashCi a = strhashCi b := by
  have h' : a.map toLower = b.map toLower := by simpa [ciEq] using h
  have hz : a.head?.getD 0 = 0 ↔ b.head?.getD 0 = 0 := by
    cases a with
    | nil => cases b with
      | nil => simp
      | cons _ _ => simp at h'
    | cons x a => cases b with
      | nil => simp at h'
      | cons y b =>
        simp only [List.map_cons, List.cons.injEq] at h'
        simp only [List.head?_cons, Option.getD_some]
        rw [← toLower_zero x, ← toLower_zero y, h'.1]
  unfold strhashCi
  rw [strhash_fold h']
  by_cases hb : b.head?.getD 0 = 0
  · rw [if_pos hb, if_pos (hz.mpr hb)]
  · rw [if_neg hb, if_neg (fun x => hb (hz.mp x))]

theorem good_headerNames : GoodKind headerNames where
  eqv := {
    refl := fun a => by simp [headerNames, ciEq_refl]
    symm := by
      intro a b h
      simp only [headerNames, Bool.and_eq_true, beq_iff_eq] at h ⊢
      exact ⟨h.1.symm, ciEq_symm h.2⟩
    trans := by
      intro a b c h h'
      simp only [headerNames, Bool.and_eq_true, beq_iff_eq] at h h' ⊢
      exact ⟨h.1.trans h'.1, ciEq_trans h.2 h'.2⟩ }
  hash := by
    intro a b h
    simp only [headerNames, Bool.and_eq_true, beq_iff_eq] at h
    exact strhashCi_congr h.2

theorem good_cnameRefs : GoodKind cnameRefs where
  eqv := ⟨ciEq_refl, ciEq_symm, ciEq_trans⟩
  hash := strhashCi_congr

theorem good_plainNames (h : Bytes → UInt64) : GoodKind (plainNames h) where
  eqv := {
    refl := fun a => by simp [plainNames]
    symm := by intro a b h; simp only [plainNames, beq_iff_eq] at h ⊢; exact h.symm
    trans := by intro a b c h h'; simp only [plainNames, beq_iff_eq] at h h' ⊢; exact h.trans h' }
  hash := by intro a b e; simp only [plainNames, beq_iff_eq] at e ⊢; rw [e]

theorem good_backendsTab : GoodKind backendsTab where
  eqv := {
    refl := by
      intro a
      cases a <;> simp [backendsTab, beSame, ciEq_refl]
    symm := by
      intro a b h
      cases a <;> cases b <;> simp only [backendsTab, beSame, Bool.and_eq_true, beq_iff_eq, Bool.false_eq_true] at h ⊢
      · exact ⟨h.1.symm, h.2.symm⟩
      · exact ⟨ciEq_symm h.1, h.2.1.symm, h.2.2.symm⟩
    trans := by
      intro a b c h h'
      cases a <;> cases b <;> cases c <;> simp only [backendsTab, beSame, Bool.and_eq_true, beq_iff_eq, Bool.false_eq_true] at h h' ⊢
      · exact ⟨h.1.trans h'.1, h.2.trans h'.2⟩
      · exact ⟨ciEq_trans h.1 h'.1, h.2.1.trans h'.2.1, h.2.2.trans h'.2.2⟩ }
  hash := by
    intro a b h
    cases a <;> cases b <;> simp only [backendsTab, beSame, Bool.and_eq_true, beq_iff_eq, Bool.false_eq_true] at h
    · simp only [backendsTab, beHash, h.2]
    · simp only [backendsTab, beHash, strhashCi_congr h.1, h.2.1, h.2.2]

/-! ### Duplicate names -/

/-- A table from which the entry of key `k` was released -/
structure Poisoned (K : TabKind κ) (k : κ) (s : TabSt κ ν) : Prop where
  bound : ∀ e ∈ s.nodes, e.2 < s.next
  gone : ∃ e ∈ s.nodes, e.1 = K.hash k ∧ s.heap e.2 = none
  none' : ∀ e ∈ s.nodes, ∀ k' v, s.heap e.2 = some (k', v) → K.same k' k = false

theorem nodeFind_poisoned {K : TabKind κ} {heap : Nat → Option (κ × ν)} {k : κ} : ∀ nodes : List (UInt64 × Nat),
    (∃ e ∈ nodes, e.1 = K.hash k ∧ heap e.2 = none) → (∀ e ∈ nodes, ∀ k' v, heap e.2 = some (k', v) → K.same k' k = false) →
    nodeFind K heap k nodes = .ub
  | [], h, _ => by obtain ⟨e, he, -⟩ := h; cases he
  | (h, p) :: r, hg, hn => by
    unfold nodeFind
    by_cases hh : h = K.hash k
    · rw [if_pos hh]
      cases hp : heap p with
      | none => rfl
      | some e =>
        dsimp only
        have := hn (h, p) List.mem_cons_self e.1 e.2 hp
        rw [if_neg (by rw [this]; decide)]
        refine nodeFind_poisoned r ?_ fun e he => hn e (List.mem_cons_of_mem _ he)
        obtain ⟨e0, he0, i1, i2⟩ := hg
        rcases List.mem_cons.mp he0 with rfl | he0
        · dsimp only at i2; rw [hp] at i2; cases i2
        · exact ⟨e0, he0, i1, i2⟩
    · rw [if_neg hh]
      refine nodeFind_poisoned r ?_ fun e he => hn e (List.mem_cons_of_mem _ he)
      obtain ⟨e0, he0, i1, i2⟩ := hg
      rcases List.mem_cons.mp he0 with rfl | he0
      · exact absurd i1 hh
      · exact ⟨e0, he0, i1, i2⟩

/-- The search finds a node. -/
theorem nodeFind_mem {K : TabKind κ} {heap : Nat → Option (κ × ν)} {k : κ} {p : Nat} : ∀ nodes : List (UInt64 × Nat), nodeFind K heap k nodes = .ok (some p) →
    (∃ e ∈ nodes, e.2 = p) ∧ ∃ k' v, heap p = some (k', v) ∧ K.same k' k = true
  | [], h => by cases h
  | (h', q) :: r, h => by
    unfold nodeFind at h
    split at h
    · cases hq : heap q with
      | none => rw [hq] at h; cases h
      | some e =>
        rw [hq] at h
        dsimp only at h
        split at h
        · rename_i hs
          injection h with h
          injection h with h
          subst h
          exact ⟨⟨_, List.mem_cons_self, rfl⟩, e.1, e.2, hq, hs⟩
        · obtain ⟨⟨e0, he0, i⟩, j⟩ := nodeFind_mem r h
          exact ⟨⟨e0, List.mem_cons_of_mem _ he0, i⟩, j⟩
    · obtain ⟨⟨e0, he0, i⟩, j⟩ := nodeFind_mem r h
      exact ⟨⟨e0, List.mem_cons_of_mem _ he0, i⟩, j⟩

/-- Adding does not help. -/
theorem tabAdd_poisoned {K : TabKind κ} (hK : GoodKind K) {k : κ} {s s' : TabSt κ ν} (h : Poisoned K k s) {k' : κ} {v : ν} {dup : Bool}
    (ha : tabAdd K .freeNew s k' v = .ok (dup, s')) : Poisoned K k s' := by
  have hold : ∀ e ∈ s.nodes, (if e.2 = s.next then some (k', v) else s.heap e.2) = s.heap e.2 := fun e he => by
    rw [if_neg]; exact Nat.ne_of_lt (h.bound e he)
  unfold tabAdd at ha
  dsimp only at ha
  -- the key added is not the one that is gone
  have hne : K.same k' k = false := by
    cases hs : K.same k' k with
    | false => rfl
    | true =>
      exfalso
      have : nodeFind K (fun q => if q = s.next then some (k', v) else s.heap q) k' s.nodes = .ub := by
        apply nodeFind_poisoned
        · obtain ⟨e, he, i1, i2⟩ := h.gone
          exact ⟨e, he, i1.trans (hK.hash hs).symm, by rw [hold e he]; exact i2⟩
        · intro e he k1 v1 hk
          rw [hold e he] at hk
          have := h.none' e he k1 v1 hk
          cases hs' : K.same k1 k' with
          | false => rfl
          | true => rw [hK.eqv.trans hs' hs] at this; cases this
      rw [this] at ha; cases ha
  cases hf : nodeFind K (fun q => if q = s.next then some (k', v) else s.heap q) k' s.nodes with
  | ub => rw [hf] at ha; cases ha
  | ok r =>
    rw [hf] at ha
    cases r with
    | none =>
      dsimp only at ha
      injection ha with ha
      injection ha with _ ha
      subst ha
      constructor
      · intro e he
        rcases List.mem_append.mp he with he | he
        · exact Nat.lt_succ_of_lt (h.bound e he)
        · rw [List.mem_singleton.mp he]; exact Nat.lt_succ_self _
      · obtain ⟨e, he, i1, i2⟩ := h.gone
        exact ⟨e, List.mem_append_left _ he, i1, by dsimp only; rw [hold e he]; exact i2⟩
      · intro e he k1 v1 hk
        rcases List.mem_append.mp he with he | he
        · dsimp only at hk; rw [hold e he] at hk; exact h.none' e he k1 v1 hk
        · have := List.mem_singleton.mp he
          subst this
          simp at hk
          rw [← hk.1]; exact hne
    | some q =>
      dsimp only at ha
      injection ha with ha
      injection ha with _ ha
      subst ha
      obtain ⟨⟨e1, he1, hq1⟩, k2, v2, hq, -⟩ := nodeFind_mem _ hf
      constructor
      · intro e he
        obtain ⟨e0, he0, rfl⟩ := List.mem_map.mp he
        split
        · exact Nat.lt_succ_self _
        · exact Nat.lt_succ_of_lt (h.bound e0 he0)
      · obtain ⟨e, he, i1, i2⟩ := h.gone
        have hne' : e.2 ≠ q := by
          intro hc
          rw [← hc] at hq
          rw [hold e he, i2] at hq; cases hq
        refine ⟨e, List.mem_map.mpr ⟨e, he, by rw [if_neg hne']⟩, i1, ?_⟩
        dsimp only
        rw [if_neg (Nat.ne_of_lt (h.bound e he)), hold e he]
        exact i2
      · intro e he k1 v1 hk
        obtain ⟨e0, he0, rfl⟩ := List.mem_map.mp he
        by_cases hc : e0.2 = q
        · rw [if_pos hc] at hk; simp at hk
        · rw [if_neg hc] at hk
          dsimp only at hk
          rw [if_neg (Nat.ne_of_lt (h.bound e0 he0)), hold e0 he0] at hk
          exact h.none' e0 he0 k1 v1 hk

/-- A second entry of the same key poisons the table. -/
theorem tabAdd_dup {K : TabKind κ} (hK : GoodKind K) {hist : List (TabOp κ ν)} {s s' : TabSt κ ν} (h : TabInv K hist s) {k : κ} {v : ν} {dup : Bool}
    (hd : (lastAdded K.same hist k).isSome = true) (ha : tabAdd K .freeNew s k v = .ok (dup, s')) : Poisoned K k s' := by
  have hold : ∀ e ∈ s.nodes, (if e.2 = s.next then some (k, v) else s.heap e.2) = s.heap e.2 := fun e he => by
    rw [if_neg]; exact Nat.ne_of_lt (h.live e he).1
  have hlive : ∀ e ∈ s.nodes, ∃ k' v', (fun q => if q = s.next then some (k, v) else s.heap q) e.2 = some (k', v') ∧ e.1 = K.hash k' := fun e he => by
    obtain ⟨k', v', h1, h2⟩ := h.liveNodes e he
    exact ⟨k', v', by dsimp only; rw [hold e he, h1], h2⟩
  unfold tabAdd at ha
  dsimp only at ha
  rcases nodeFind_spec (heap := fun q => if q = s.next then some (k, v) else s.heap q) hK k s.nodes hlive with ⟨p, h1, e, h2, h3, k', v', h4, h5⟩ | ⟨h1, h2⟩
  · rw [h1] at ha
    dsimp only at ha
    injection ha with ha
    injection ha with _ ha
    subst ha
    have hlt := (h.live e h2).1
    rw [h3] at hlt
    rw [if_neg (Nat.ne_of_lt hlt)] at h4
    constructor
    · intro e1 he1
      obtain ⟨e0, he0, rfl⟩ := List.mem_map.mp he1
      split
      · exact Nat.lt_succ_self _
      · exact Nat.lt_succ_of_lt (h.live e0 he0).1
    · refine ⟨(e.1, s.next), List.mem_map.mpr ⟨e, h2, by rw [if_pos h3]⟩, ?_, by simp⟩
      obtain ⟨-, k1, v1, i1, i2, -⟩ := h.live e h2
      rw [h3, h4] at i1
      injection i1 with i1
      injection i1 with i1 _
      subst i1
      exact i2.trans (hK.hash h5)
    · intro e1 he1 k1 v1 hk
      obtain ⟨e0, he0, rfl⟩ := List.mem_map.mp he1
      by_cases hc : e0.2 = p
      · rw [if_pos hc] at hk; simp at hk
      · rw [if_neg hc] at hk
        dsimp only at hk
        rw [if_neg (Nat.ne_of_lt (h.live e0 he0).1), hold e0 he0] at hk
        cases hs : K.same k1 k with
        | false => rfl
        | true =>
          have := h.one e h2 e0 he0 k' v' k1 v1 (by rw [h3]; exact h4) hk (hK.eqv.trans h5 (hK.eqv.symm hs))
          exact absurd (this.symm.trans h3) hc
  · exfalso
    obtain ⟨v1, hv1⟩ := Option.isSome_iff_exists.mp hd
    obtain ⟨e, he, k', i1, i2⟩ := h.all k v1 hv1
    have := h2 e he k' v1 (by rw [hold e he]; exact i1)
    rw [this] at i2; cases i2

/-- The entry cannot be looked for any more. -/
theorem tabGet_poisoned {K : TabKind κ} (hK : GoodKind K) {k k' : κ} {s : TabSt κ ν} (h : Poisoned K k s) (hs : K.same k k' = true) : tabGet K s k' = .ub := by
  unfold tabGet
  rw [nodeFind_poisoned]
  · obtain ⟨e, he, i1, i2⟩ := h.gone
    exact ⟨e, he, i1.trans (hK.hash hs), i2⟩
  · intro e he k1 v1 hk
    have := h.none' e he k1 v1 hk
    cases hs' : K.same k1 k' with
    | false => rfl
    | true => rw [hK.eqv.trans hs' (hK.eqv.symm hs)] at this; cases this

theorem combineAdd_poisoned {k : Bytes} : ∀ (names : List Bytes) (s s' : TabSt Bytes Unit), Poisoned headerNames k s → combineAdd s names = .ok s' → Poisoned headerNames k s'
  | [], s, s', h, ha => by injection ha with ha; rw [← ha]; exact h
  | n :: r, s, s', h, ha => by
    unfold combineAdd at ha
    cases hn : tabAdd headerNames .freeNew s n () with
    | ub => rw [hn] at ha; cases ha
    | ok x =>
      obtain ⟨dup, s1⟩ := x
      rw [hn] at ha
      exact combineAdd_poisoned r s1 s' (tabAdd_poisoned good_headerNames h hn) ha

end Pound
