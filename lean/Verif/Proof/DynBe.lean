import Verif.Spec.DynBe

/-!
Proofs about dynamic backends.
-/

namespace Pound

open Spec

/-- In the balancer of weight w -/
def InBal (bals : List DynBal) (w i : Nat) : Prop := ∃ b ∈ bals, b.weight = w ∧ i ∈ b.members

def HasBal (bals : List DynBal) (w : Nat) : Prop := ∃ b ∈ bals, b.weight = w

/-- Balancers are well-formed -/
structure DynBalsOk (bals : List DynBal) : Prop where
  weights : bals.Pairwise fun a b => a.weight < b.weight
  nodup : ∀ b ∈ bals, b.members.Nodup
  cur : ∀ b ∈ bals, ∀ c, b.cur = some c → c ∈ b.members

/-- The reference a table or the configuration holds -/
def baseRef (s : DynSt) (i : Nat) : Nat :=
  match (s.be i).parent with
  | none => 1
  | some m => if i ∈ (s.mtx m).tab then 1 else 0

/-- The invariant, but for the marks -/
structure DInv (s : DynSt) : Prop where
  bals : DynBalsOk s.bals
  mem : ∀ w i, InBal s.bals w i → i < s.next ∧ (s.be i).bal = some w ∧ (∀ m, (s.be i).parent = some m → i ∈ (s.mtx m).tab)
  tabN : ∀ m, (s.mtx m).tab.Nodup
  tabA : ∀ m, ((s.mtx m).tab.map fun i => (s.be i).addr).Nodup
  tab : ∀ m, ∀ i ∈ (s.mtx m).tab, i < s.next ∧ (s.be i).parent = some m ∧ (s.be i).bal = some (s.mtx m).weight ∧ InBal s.bals (s.mtx m).weight i
  refs : ∀ i < s.next, (s.be i).refs = baseRef s i + s.held.count i + s.jobs.count i
  rem : ∀ i ∈ s.rem, i < s.next ∧ (s.be i).freed = false ∧ ∃ m, (s.be i).parent = some m ∧ i ∉ (s.mtx m).tab
  freed : ∀ i, (s.be i).freed = true → i < s.next ∧ (s.be i).refs = 0 ∧ ∃ m, (s.be i).parent = some m ∧ i ∉ (s.mtx m).tab
  held : ∀ i ∈ s.held, i < s.next
  jobs : ∀ i ∈ s.jobs, i < s.next
  sessN : ∀ e ∈ s.sess, e.2 < s.next
  sess : s.late = false → ∀ e ∈ s.sess, ∃ w, InBal s.bals w e.2
  gone : ∀ i < s.next, ∀ m, (s.be i).parent = some m → i ∉ (s.mtx m).tab → (s.be i).bal = none ∧ (s.be i).disabled = true ∧ (i ∈ s.rem ∨ (s.be i).freed = true)
  static : ∀ i < s.next, (s.be i).parent = none → (s.be i).bal ≠ none

/-! ### Balancers -/

theorem inBal_unique {bals : List DynBal} (h : DynBalsOk bals) {b : DynBal} (hb : b ∈ bals) {i : Nat} : InBal bals b.weight i ↔ i ∈ b.members := by
  constructor
  · rintro ⟨b', hb', hw, hi⟩
    have : b' = b := by
      have hn := h.weights
      clear h
      induction bals with
      | nil => cases hb
      | cons x r ih =>
        simp only [List.pairwise_cons] at hn
        rcases List.mem_cons.mp hb with e | hb1 <;> rcases List.mem_cons.mp hb' with e' | hb1'
        · rw [e, e']
        · have := hn.1 _ hb1'; rw [← e] at this; omega
        · have := hn.1 _ hb1; rw [← e'] at this; omega
        · exact ih hb1 hb1' hn.2
    exact this ▸ hi
  · exact fun hi => ⟨b, hb, rfl, hi⟩

theorem map_inBal {bals : List DynBal} {f : DynBal → DynBal} (hw : ∀ b ∈ bals, (f b).weight = b.weight) (w i : Nat) :
    InBal (bals.map f) w i ↔ ∃ b ∈ bals, b.weight = w ∧ i ∈ (f b).members := by
  unfold InBal
  constructor
  · rintro ⟨b', hb', h1, h2⟩
    obtain ⟨b, hb, rfl⟩ := List.mem_map.mp hb'
    exact ⟨b, hb, by rw [← hw b hb]; exact h1, h2⟩
  · rintro ⟨b, hb, h1, h2⟩
    exact ⟨f b, List.mem_map.mpr ⟨b, hb, rfl⟩, by rw [hw b hb]; exact h1, h2⟩

theorem map_weights {bals : List DynBal} {f : DynBal → DynBal} (hw : ∀ b ∈ bals, (f b).weight = b.weight) (h : bals.Pairwise fun a b => a.weight < b.weight) :
    (bals.map f).Pairwise fun a b => a.weight < b.weight := by
  rw [List.pairwise_map]
  refine List.Pairwise.imp_of_mem ?_ h
  intro a b ha hb hab
  rw [hw a ha, hw b hb]
  exact hab

theorem balGet_inBal (w0 : Nat) (bals : List DynBal) (w i : Nat) : InBal (balGet w0 bals) w i ↔ InBal bals w i := by
  induction bals with
  | nil => simp [balGet, InBal]
  | cons b r ih =>
    unfold balGet
    split
    · rfl
    · split
      · simp [InBal]
      · unfold InBal at ih ⊢
        simp only [List.mem_cons, exists_eq_or_imp, ih]

theorem balGet_has (w : Nat) (bals : List DynBal) : HasBal (balGet w bals) w := by
  induction bals with
  | nil => exact ⟨_, List.mem_singleton.mpr rfl, rfl⟩
  | cons b r ih =>
    unfold balGet
    split
    · rename_i h; exact ⟨b, List.mem_cons_self, h.symm⟩
    · split
      · exact ⟨_, List.mem_cons_self, rfl⟩
      · obtain ⟨x, hx, h⟩ := ih
        exact ⟨x, List.mem_cons_of_mem _ hx, h⟩

theorem balGet_mem {w : Nat} {bals : List DynBal} {b : DynBal} (h : b ∈ balGet w bals) : b ∈ bals ∨ b = ⟨w, [], none⟩ := by
  induction bals with
  | nil => simp [balGet] at h; exact Or.inr h
  | cons x r ih =>
    unfold balGet at h
    split at h
    · exact Or.inl h
    · split at h
      · rcases List.mem_cons.mp h with h | h
        · exact Or.inr h
        · exact Or.inl h
      · rcases List.mem_cons.mp h with h | h
        · exact Or.inl (h ▸ List.mem_cons_self)
        · rcases ih h with h | h
          · exact Or.inl (List.mem_cons_of_mem _ h)
          · exact Or.inr h

theorem balGet_weights (w : Nat) (bals : List DynBal) (h : bals.Pairwise fun a b => a.weight < b.weight) :
    (balGet w bals).Pairwise fun a b => a.weight < b.weight := by
  induction bals with
  | nil => simp [balGet]
  | cons b r ih =>
    have h' := List.pairwise_cons.mp h
    unfold balGet
    split
    · exact h
    · split
      · rename_i hlt
        refine List.pairwise_cons.mpr ⟨?_, h⟩
        intro x hx
        rcases List.mem_cons.mp hx with rfl | hx
        · exact hlt
        · have := h'.1 x hx
          show w < x.weight
          omega
      · rename_i hne hlt
        refine List.pairwise_cons.mpr ⟨?_, ih h'.2⟩
        intro x hx
        rcases balGet_mem hx with hx | rfl
        · exact h'.1 x hx
        · show b.weight < w
          omega

theorem balGet_ok {bals : List DynBal} (h : DynBalsOk bals) (w : Nat) : DynBalsOk (balGet w bals) := by
  refine ⟨balGet_weights w _ h.weights, ?_, ?_⟩
  · intro b hb
    rcases balGet_mem hb with hb | rfl
    · exact h.nodup b hb
    · exact List.nodup_nil
  · intro b hb c hc
    rcases balGet_mem hb with hb | rfl
    · exact h.cur b hb c hc
    · cases hc

theorem balAdd_inBal (w0 j : Nat) (bals : List DynBal) (w i : Nat) : InBal (balAdd w0 j bals) w i ↔ InBal bals w i ∨ w = w0 ∧ i = j ∧ HasBal bals w0 := by
  unfold balAdd
  rw [map_inBal (by intro b _; split <;> rfl)]
  unfold InBal HasBal
  constructor
  · rintro ⟨b, hb, h1, h2⟩
    split at h2
    · rename_i hw
      simp only [List.mem_append, List.mem_singleton] at h2
      rcases h2 with h2 | h2
      · exact Or.inl ⟨b, hb, h1, h2⟩
      · exact Or.inr ⟨by rw [← h1, hw], h2, b, hb, hw⟩
    · exact Or.inl ⟨b, hb, h1, h2⟩
  · rintro (⟨b, hb, h1, h2⟩ | ⟨rfl, rfl, b, hb, hw⟩)
    · refine ⟨b, hb, h1, ?_⟩
      split
      · simp [h2]
      · exact h2
    · refine ⟨b, hb, hw, ?_⟩
      rw [if_pos hw]
      simp

theorem balAdd_has (w0 j : Nat) (bals : List DynBal) (w : Nat) : HasBal (balAdd w0 j bals) w ↔ HasBal bals w := by
  unfold HasBal balAdd
  constructor
  · rintro ⟨b', hb', h⟩
    obtain ⟨b, hb, rfl⟩ := List.mem_map.mp hb'
    refine ⟨b, hb, ?_⟩
    split at h <;> exact h
  · rintro ⟨b, hb, h⟩
    refine ⟨_, List.mem_map.mpr ⟨b, hb, rfl⟩, ?_⟩
    split <;> exact h

theorem balAdd_ok {bals : List DynBal} (h : DynBalsOk bals) {w0 j : Nat} (hj : ∀ w, ¬ InBal bals w j) : DynBalsOk (balAdd w0 j bals) := by
  refine ⟨map_weights (by intro b _; split <;> rfl) h.weights, ?_, ?_⟩
  · intro b' hb'
    obtain ⟨b, hb, rfl⟩ := List.mem_map.mp hb'
    split
    · refine List.nodup_append.mpr ⟨h.nodup b hb, by simp, ?_⟩
      rintro a ha c hc rfl
      simp only [List.mem_singleton] at hc
      subst hc
      exact hj _ ⟨b, hb, rfl, ha⟩
    · exact h.nodup b hb
  · intro b' hb' c hc
    obtain ⟨b, hb, rfl⟩ := List.mem_map.mp hb'
    by_cases hw : b.weight = w0
    · rw [if_pos hw] at hc ⊢
      exact List.mem_append_left _ (h.cur b hb c hc)
    · rw [if_neg hw] at hc ⊢
      exact h.cur b hb c hc

theorem reset_members (x : DynBal) (j : Nat) : (if x.cur = some j then { x with cur := x.members.head? } else x).members = x.members := by
  split <;> rfl

/-- What backend_sweep does to the balancers -/
def balSweep (w i : Nat) (bals : List DynBal) : List DynBal := balReset i (balDrop w (balRemove w i bals))

theorem balSweep_inBal {bals : List DynBal} (h : DynBalsOk bals) {w0 j : Nat} (hj : ∀ w, InBal bals w j → w = w0) (w i : Nat) :
    InBal (balSweep w0 j bals) w i ↔ InBal bals w i ∧ i ≠ j := by
  unfold balSweep balReset
  rw [map_inBal (by intro b _; split <;> rfl)]
  constructor
  · rintro ⟨b', hb', h1, h2⟩
    have hb2 := (List.mem_filter.mp hb').1
    obtain ⟨b, hb, rfl⟩ := List.mem_map.mp hb2
    have h2' : i ∈ (if b.weight = w0 then { b with members := b.members.erase j } else b).members := by rw [reset_members] at h2; exact h2
    by_cases hw : b.weight = w0
    · rw [if_pos hw] at h2' h1
      have := (h.nodup b hb).mem_erase_iff.mp h2'
      exact ⟨⟨b, hb, h1, this.2⟩, this.1⟩
    · rw [if_neg hw] at h2' h1
      refine ⟨⟨b, hb, h1, h2'⟩, ?_⟩
      rintro rfl
      exact hw (hj _ ⟨b, hb, rfl, h2'⟩)
  · rintro ⟨⟨b, hb, h1, h2⟩, hne⟩
    refine ⟨if b.weight = w0 then { b with members := b.members.erase j } else b, ?_, ?_, ?_⟩
    · refine List.mem_filter.mpr ⟨List.mem_map.mpr ⟨b, hb, rfl⟩, ?_⟩
      have : i ∈ (if b.weight = w0 then { b with members := b.members.erase j } else b).members := by
        split
        · exact (h.nodup b hb).mem_erase_iff.mpr ⟨hne, h2⟩
        · exact h2
      have hx : (if b.weight = w0 then { b with members := b.members.erase j } else b).members.isEmpty = false := by
        cases hq : (if b.weight = w0 then { b with members := b.members.erase j } else b).members with
        | nil => rw [hq] at this; cases this
        | cons _ _ => rfl
      rw [hx]; simp
    · split <;> exact h1
    · have : i ∈ (if b.weight = w0 then { b with members := b.members.erase j } else b).members := by
        split
        · exact (h.nodup b hb).mem_erase_iff.mpr ⟨hne, h2⟩
        · exact h2
      rw [reset_members]; exact this

theorem balSweep_has {w0 j : Nat} {bals : List DynBal} {w : Nat} (h : HasBal (balSweep w0 j bals) w) : HasBal bals w := by
  obtain ⟨b', hb', h1⟩ := h
  obtain ⟨b2, hb2, rfl⟩ := List.mem_map.mp hb'
  obtain ⟨b, hb, rfl⟩ := List.mem_map.mp (List.mem_filter.mp hb2).1
  refine ⟨b, hb, ?_⟩
  split at h1 <;> split at h1 <;> exact h1

/-- A balancer stays unless it becomes empty. -/
theorem balSweep_stays {bals : List DynBal} {w0 j w : Nat} (h : HasBal bals w) (hw : w ≠ w0) : HasBal (balSweep w0 j bals) w := by
  obtain ⟨b, hb, rfl⟩ := h
  refine ⟨_, List.mem_map.mpr ⟨b, List.mem_filter.mpr ⟨List.mem_map.mpr ⟨b, hb, by rw [if_neg hw]⟩, ?_⟩, rfl⟩, ?_⟩
  · have : (b.weight == w0) = false := by simpa using hw
    rw [this]; rfl
  · split <;> rfl

theorem balSweep_ok {bals : List DynBal} (h : DynBalsOk bals) {w0 j : Nat} (hj : ∀ w, InBal bals w j → w = w0) : DynBalsOk (balSweep w0 j bals) := by
  refine ⟨?_, ?_, ?_⟩
  · refine map_weights (by intro b _; split <;> rfl) ?_
    refine List.Pairwise.filter _ ?_
    exact map_weights (by intro b _; split <;> rfl) h.weights
  · intro b' hb'
    obtain ⟨b2, hb2, rfl⟩ := List.mem_map.mp hb'
    obtain ⟨b, hb, rfl⟩ := List.mem_map.mp (List.mem_filter.mp hb2).1
    have := h.nodup b hb
    have h2 : (b.members.erase j).Nodup := this.erase j
    split <;> split <;> assumption
  · intro b' hb' c hc
    obtain ⟨b2, hb2, rfl⟩ := List.mem_map.mp hb'
    obtain ⟨b, hb, rfl⟩ := List.mem_map.mp (List.mem_filter.mp hb2).1
    by_cases hc2 : (if b.weight = w0 then { b with members := b.members.erase j } else b).cur = some j
    · rw [if_pos hc2] at hc ⊢
      exact List.mem_of_mem_head? hc
    · rw [if_neg hc2] at hc ⊢
      by_cases hw : b.weight = w0
      · rw [if_pos hw] at hc hc2 ⊢
        refine (h.nodup b hb).mem_erase_iff.mpr ⟨?_, h.cur b hb c hc⟩
        rintro rfl
        exact hc2 hc
      · rw [if_neg hw] at hc hc2 ⊢
        exact h.cur b hb c hc

end Pound
