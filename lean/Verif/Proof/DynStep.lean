import Verif.Proof.DynUpd

/-!
Steps and histories of dynamic backends.
-/

namespace Pound

open Spec

theorem dinv_use {s : DynSt} (h : DInv s) {i : Nat} {r : DynBe} {held jobs : List Nat} {sess : List (Bytes × Nat)} {bals : List DynBal} (hi : i < s.next)
    (hr : r.addr = (s.be i).addr ∧ r.parent = (s.be i).parent ∧ r.bal = (s.be i).bal ∧ r.freed = (s.be i).freed ∧ r.disabled = (s.be i).disabled)
    (hnf : (s.be i).freed = false) (href : r.refs = baseRef s i + held.count i + jobs.count i)
    (hcnt : ∀ j, j ≠ i → held.count j + jobs.count j = s.held.count j + s.jobs.count j)
    (hheld : ∀ j ∈ held, j < s.next) (hjobs : ∀ j ∈ jobs, j < s.next) (hsN : ∀ e ∈ sess, e.2 < s.next)
    (hs : s.late = false → ∀ e ∈ sess, ∃ w, InBal s.bals w e.2) (hb : DynBalsOk bals) (hib : ∀ w j, InBal bals w j ↔ InBal s.bals w j) :
    DInv { s with be := setBe s.be i r, held := held, jobs := jobs, sess := sess, bals := bals } := by
  have same : ∀ j, (setBe s.be i r j).addr = (s.be j).addr ∧ (setBe s.be i r j).parent = (s.be j).parent ∧ (setBe s.be i r j).bal = (s.be j).bal ∧
      (setBe s.be i r j).freed = (s.be j).freed ∧ (setBe s.be i r j).disabled = (s.be j).disabled := by
    intro j
    by_cases hj : j = i
    · subst hj; rw [setBe_self]; exact hr
    · rw [setBe_ne _ _ hj]; exact ⟨rfl, rfl, rfl, rfl, rfl⟩
  have eb : ∀ j, baseRef { s with be := setBe s.be i r, held := held, jobs := jobs, sess := sess, bals := bals } j = baseRef s j := by
    intro j
    unfold baseRef
    simp only [(same j).2.1]
  constructor
  · exact hb
  · intro w j x
    obtain ⟨h1, h2, h3⟩ := h.mem w j ((hib w j).mp x)
    exact ⟨h1, (same j).2.2.1.trans h2, fun m hm => h3 m ((same j).2.1.symm.trans hm)⟩
  · exact h.tabN
  · intro m
    show ((s.mtx m).tab.map fun j => (setBe s.be i r j).addr).Nodup
    rw [show (fun j => (setBe s.be i r j).addr) = fun j => (s.be j).addr from funext fun j => (same j).1]
    exact h.tabA m
  · intro m j x
    obtain ⟨h1, h2, h3, h4⟩ := h.tab m j x
    exact ⟨h1, (same j).2.1.trans h2, (same j).2.2.1.trans h3, (hib _ _).mpr h4⟩
  · intro j hj
    rw [eb]
    show (setBe s.be i r j).refs = _ + held.count j + jobs.count j
    by_cases hji : j = i
    · subst hji; rw [setBe_self]; exact href
    · rw [setBe_ne _ _ hji]
      have := h.refs j hj
      have := hcnt j hji
      omega
  · intro j hj
    obtain ⟨h1, h2, m, h3, h4⟩ := h.rem j hj
    exact ⟨h1, (same j).2.2.2.1.trans h2, m, (same j).2.1.trans h3, h4⟩
  · intro j hj
    have hj' : (s.be j).freed = true := (same j).2.2.2.1.symm.trans hj
    obtain ⟨h1, h2, m, h3, h4⟩ := h.freed j hj'
    have hji : j ≠ i := by rintro rfl; rw [hnf] at hj'; cases hj'
    refine ⟨h1, ?_, m, (same j).2.1.trans h3, h4⟩
    show (setBe s.be i r j).refs = 0
    rw [setBe_ne _ _ hji]; exact h2
  · exact hheld
  · exact hjobs
  · exact hsN
  · intro hl e he
    obtain ⟨w, hw⟩ := hs hl e he
    exact ⟨w, (hib _ _).mpr hw⟩
  · intro j hj m hm hn
    obtain ⟨h1, h2, h3⟩ := h.gone j hj m ((same j).2.1.symm.trans hm) hn
    refine ⟨(same j).2.2.1.trans h1, (same j).2.2.2.2.trans h2, ?_⟩
    rcases h3 with h3 | h3
    · exact Or.inl h3
    · exact Or.inr ((same j).2.2.2.1.trans h3)
  · intro j hj hp
    have := h.static j hj ((same j).2.1.symm.trans hp)
    show (setBe s.be i r j).bal ≠ none
    rw [(same j).2.2.1]; exact this

/-- The invariant between steps -/
structure DGood (s : DynSt) : Prop where
  inv : DInv s
  mark : ∀ j, (s.be j).mark = false

/-- What every step respects -/
structure DynNext (s s' : DynSt) : Prop where
  good : DGood s'
  next : s.next ≤ s'.next
  late : s'.late = s.late
  parent : ∀ j, j < s.next → (s'.be j).parent = (s.be j).parent
  tab : ∀ m j, j < s.next → j ∈ (s'.mtx m).tab → j ∈ (s.mtx m).tab
  freed : ∀ j, j < s.next → (s.be j).freed = true → (s'.be j).freed = true

theorem dynNext_refl {s : DynSt} (h : DGood s) : DynNext s s := ⟨h, Nat.le_refl _, rfl, fun _ _ => rfl, fun _ _ _ x => x, fun _ _ x => x⟩

theorem dynNext_trans {a b c : DynSt} (h1 : DynNext a b) (h2 : DynNext b c) : DynNext a c :=
  ⟨h2.good, Nat.le_trans h1.next h2.next, h2.late.trans h1.late, fun j hj => (h2.parent j (Nat.lt_of_lt_of_le hj h1.next)).trans (h1.parent j hj),
   fun m j hj x => h1.tab m j hj (h2.tab m j (Nat.lt_of_lt_of_le hj h1.next) x), fun j hj x => h2.freed j (Nat.lt_of_lt_of_le hj h1.next) (h1.freed j hj x)⟩

theorem any_weight {bals : List DynBal} {w : Nat} : bals.any (fun b => b.weight == w) = true ↔ HasBal bals w := by
  simp [HasBal]

theorem step_update {s s' : DynSt} (h : DGood s) {m : Nat} {ans : List Bytes} (hd : (s.mtx m).disabled = false) (e : dynUpdate m ans s = .ok s') :
    DynUpdated m (Wanted (s.mtx m) ans) s s' := by
  obtain ⟨s3, e3, h1, -⟩ := update_core h.inv h.mark hd ans
  rw [e3] at e
  split at e
  · rename_i hh
    cases e
    exact h1 (any_weight.mp hh)
  · cases e

theorem updated_next {s s' : DynSt} {m : Nat} {w : List Bytes} (h : DGood s) (u : DynUpdated m w s s') : DynNext s s' := by
  refine ⟨⟨u.inv, u.mark⟩, u.next, u.late, fun j hj => (u.gone j hj).2.1, ?_, fun j hj x => (u.gone j hj).2.2.trans x⟩
  intro k j hj x
  by_cases hk : k = m
  · subst hk
    rcases (u.tab j).mp x with y | y
    · exact y.1
    · omega
  · rw [(u.mtx k).2.2.2 hk] at x; exact x

theorem next_update {s s' : DynSt} (h : DGood s) {m : Nat} {ans : List Bytes} (e : dynUpdate m ans s = .ok s') : DynNext s s' := by
  cases hd : (s.mtx m).disabled with
  | false => exact updated_next h (step_update h hd e)
  | true =>
    unfold dynUpdate at e
    dsimp only at e
    rw [hd, if_pos rfl] at e
    cases e
    exact ⟨⟨dinv_bals h.inv (balGet_ok h.inv.bals _) (balGet_inBal _ _), h.mark⟩, Nat.le_refl _, rfl, fun _ _ => rfl, fun _ _ _ x => x, fun _ _ x => x⟩

/-- Disabling a matrix sweeps all of its backends. -/
theorem disable_core {s : DynSt} (h : DGood s) (m : Nat) :
    ∃ s1, SweptAll m (s.mtx m).tab { s with be := markAll true (s.mtx m).tab s.be } s1 ∧
      dynDisable m s = .ok { s1 with mtx := setMtx s1.mtx m { s1.mtx m with disabled := true } } := by
  have h1 := dinv_mark h.inv true (s.mtx m).tab
  obtain ⟨s1, e1, hs⟩ := sweepAll_spec m (s.mtx m).tab _ h1 (h.inv.tabN m) (fun _ x => x)
  refine ⟨s1, hs, ?_⟩
  unfold dynDisable
  dsimp only
  rw [e1]

theorem dinv_mtx {s : DynSt} (h : DInv s) {mtx : Nat → DynMtx} (hm : ∀ k, ((s.mtx k).tab ≠ [] → (mtx k).weight = (s.mtx k).weight) ∧ (mtx k).tab = (s.mtx k).tab) : DInv { s with mtx := mtx } := by
  have eb : ∀ i, baseRef { s with mtx := mtx } i = baseRef s i := by
    intro i
    unfold baseRef
    simp only [(hm _).2]
  constructor
  · exact h.bals
  · intro w i x
    obtain ⟨h1, h2, h3⟩ := h.mem w i x
    exact ⟨h1, h2, fun m hp => by show i ∈ (mtx m).tab; rw [(hm m).2]; exact h3 m hp⟩
  · intro m; show (mtx m).tab.Nodup; rw [(hm m).2]; exact h.tabN m
  · intro m; show ((mtx m).tab.map _).Nodup; rw [(hm m).2]; exact h.tabA m
  · intro m i x
    have x' : i ∈ (mtx m).tab := x
    rw [(hm m).2] at x'
    show _ ∧ _ ∧ _ = some (mtx m).weight ∧ InBal _ (mtx m).weight i
    rw [(hm m).1 (List.ne_nil_of_mem x')]
    exact h.tab m i x'
  · intro i hi; rw [eb]; exact h.refs i hi
  · intro i hi
    obtain ⟨h1, h2, m, h3, h4⟩ := h.rem i hi
    exact ⟨h1, h2, m, h3, by show i ∉ (mtx m).tab; rw [(hm m).2]; exact h4⟩
  · intro i hi
    obtain ⟨h1, h2, m, h3, h4⟩ := h.freed i hi
    exact ⟨h1, h2, m, h3, by show i ∉ (mtx m).tab; rw [(hm m).2]; exact h4⟩
  · exact h.held
  · exact h.jobs
  · exact h.sessN
  · exact h.sess
  · intro i hi m hp hn
    exact h.gone i hi m hp (by rw [← (hm m).2]; exact hn)
  · exact h.static

theorem swept_next {s s1 : DynSt} {m : Nat} (h : DGood s) (hs : SweptAll m (s.mtx m).tab { s with be := markAll true (s.mtx m).tab s.be } s1) : DynNext s s1 := by
  have bm : ∀ j, markAll true (s.mtx m).tab s.be j = if j ∈ (s.mtx m).tab then { s.be j with mark := true } else s.be j := fun j => rfl
  refine ⟨⟨hs.inv, ?_⟩, Nat.le_of_eq hs.next.symm, hs.late, ?_, ?_, ?_⟩
  · intro j
    rw [hs.be j]
    split
    · rfl
    · rename_i hx
      show (markAll true _ s.be j).mark = false
      rw [bm]
      split
      · rename_i ht
        exact absurd ⟨ht, by show (markAll true _ s.be j).mark = true; rw [bm, if_pos ht]⟩ hx
      · exact h.mark j
  · intro j _
    rw [hs.be j]
    have : (markAll true (s.mtx m).tab s.be j).parent = (s.be j).parent := by rw [bm]; split <;> rfl
    split <;> exact this
  · intro k j _ x
    by_cases hk : k = m
    · subst hk; exact ((hs.tab j).mp x).1
    · rw [(hs.mtx k).2.2.2 hk] at x; exact x
  · intro j _ hf
    rw [hs.be j]
    have : (markAll true (s.mtx m).tab s.be j).freed = true := by rw [bm]; split <;> exact hf
    split <;> exact this

theorem next_mtx {s : DynSt} (h : DGood s) {mtx : Nat → DynMtx} (hm : ∀ k, ((s.mtx k).tab ≠ [] → (mtx k).weight = (s.mtx k).weight) ∧ (mtx k).tab = (s.mtx k).tab) : DynNext s { s with mtx := mtx } :=
  ⟨⟨dinv_mtx h.inv hm, h.mark⟩, Nat.le_refl _, rfl, fun _ _ => rfl, fun m j _ x => by
    have x' : j ∈ (mtx m).tab := x
    rw [(hm m).2] at x'; exact x', fun _ _ x => x⟩

theorem setMtx_flag (mtx : Nat → DynMtx) (m : Nat) (v : Bool) (k : Nat) :
    ((mtx k).tab ≠ [] → (setMtx mtx m { mtx m with disabled := v } k).weight = (mtx k).weight) ∧ (setMtx mtx m { mtx m with disabled := v } k).tab = (mtx k).tab := by
  by_cases hk : k = m
  · subst hk; rw [setMtx_self]; exact ⟨fun _ => rfl, rfl⟩
  · rw [setMtx_ne _ _ hk]; exact ⟨fun _ => rfl, rfl⟩

theorem next_newMtx {s s' : DynSt} (h : DGood s) {m w : Nat} (e : dynStep s (.newMtx m w) = .ok s') : DynNext s s' := by
  unfold dynStep at e
  dsimp only at e
  split at e
  · rename_i ht
    cases e
    refine next_mtx h fun k => ?_
    by_cases hk : k = m
    · subst hk; rw [setMtx_self]; exact ⟨fun x => absurd ht x, ht.symm⟩
    · rw [setMtx_ne _ _ hk]; exact ⟨fun _ => rfl, rfl⟩
  · cases e; exact dynNext_refl h

theorem next_disable {s s' : DynSt} (h : DGood s) {m : Nat} (e : dynDisable m s = .ok s') : DynNext s s' := by
  obtain ⟨s1, hs, e1⟩ := disable_core h m
  rw [e1] at e
  cases e
  have n1 := swept_next h hs
  exact dynNext_trans n1 (next_mtx n1.good (setMtx_flag s1.mtx m true))

theorem next_enable {s s' : DynSt} (h : DGood s) {m : Nat} {ans : List Bytes} (e : dynEnable m ans s = .ok s') : DynNext s s' := by
  unfold dynEnable at e
  split at e
  · have n1 := next_mtx h (setMtx_flag s.mtx m false)
    exact dynNext_trans n1 (next_update n1.good e)
  · cases e; exact dynNext_refl h

theorem next_remover {s : DynSt} (h : DGood s) : DynNext s (dynRemover s) := by
  have hb : ∀ j, (dynRemover s).be j = if j ∈ s.rem ∧ (s.be j).refs = 0 then { s.be j with freed := true } else s.be j := fun j => rfl
  have same : ∀ j, ((dynRemover s).be j).addr = (s.be j).addr ∧ ((dynRemover s).be j).parent = (s.be j).parent ∧ ((dynRemover s).be j).bal = (s.be j).bal ∧
      ((dynRemover s).be j).refs = (s.be j).refs ∧ ((dynRemover s).be j).disabled = (s.be j).disabled ∧ ((dynRemover s).be j).mark = (s.be j).mark := by
    intro j
    rw [hb]
    split <;> exact ⟨rfl, rfl, rfl, rfl, rfl, rfl⟩
  have eb : ∀ j, baseRef (dynRemover s) j = baseRef s j := by
    intro j
    unfold baseRef
    rw [(same j).2.1]
    rfl
  have h0 := h.inv
  have fr : ∀ j, ((dynRemover s).be j).freed = true → (s.be j).freed = true ∨ j ∈ s.rem ∧ (s.be j).refs = 0 := by
    intro j hj
    rw [hb] at hj
    split at hj
    · rename_i hx; exact Or.inr hx
    · exact Or.inl hj
  refine ⟨⟨?_, fun j => (same j).2.2.2.2.2.trans (h.mark j)⟩, Nat.le_refl _, rfl, fun j _ => (same j).2.1, fun _ _ _ x => x, ?_⟩
  · constructor
    · exact h0.bals
    · intro w j x
      obtain ⟨h1, h2, h3⟩ := h0.mem w j x
      exact ⟨h1, (same j).2.2.1.trans h2, fun m hm => h3 m ((same j).2.1.symm.trans hm)⟩
    · exact h0.tabN
    · intro m
      show ((s.mtx m).tab.map fun j => ((dynRemover s).be j).addr).Nodup
      rw [show (fun j => ((dynRemover s).be j).addr) = fun j => (s.be j).addr from funext fun j => (same j).1]
      exact h0.tabA m
    · intro m j x
      obtain ⟨h1, h2, h3, h4⟩ := h0.tab m j x
      exact ⟨h1, (same j).2.1.trans h2, (same j).2.2.1.trans h3, h4⟩
    · intro j hj
      rw [eb, (same j).2.2.2.1]
      exact h0.refs j hj
    · intro j hj
      obtain ⟨hj, hr⟩ := List.mem_filter.mp (show j ∈ s.rem.filter _ from hj)
      obtain ⟨h1, h2, m, h3, h4⟩ := h0.rem j hj
      refine ⟨h1, ?_, m, (same j).2.1.trans h3, h4⟩
      rw [hb, if_neg]
      · exact h2
      · rintro ⟨-, x⟩
        simp [x] at hr
    · intro j hj
      rcases fr j hj with hj | ⟨hj, hr⟩
      · obtain ⟨h1, h2, m, h3, h4⟩ := h0.freed j hj
        exact ⟨h1, (same j).2.2.2.1.trans h2, m, (same j).2.1.trans h3, h4⟩
      · obtain ⟨h1, h2, m, h3, h4⟩ := h0.rem j hj
        exact ⟨h1, (same j).2.2.2.1.trans hr, m, (same j).2.1.trans h3, h4⟩
    · exact h0.held
    · exact h0.jobs
    · exact h0.sessN
    · exact h0.sess
    · intro j hj m hm hn
      obtain ⟨h1, h2, h3⟩ := h0.gone j hj m ((same j).2.1.symm.trans hm) hn
      refine ⟨(same j).2.2.1.trans h1, (same j).2.2.2.2.1.trans h2, ?_⟩
      rcases h3 with h3 | h3
      · by_cases hr : (s.be j).refs = 0
        · right; rw [hb, if_pos ⟨h3, hr⟩]
        · left; exact List.mem_filter.mpr ⟨h3, by simpa using hr⟩
      · right
        rw [hb]
        split
        · rfl
        · exact h3
    · intro j hj hp
      rw [(same j).2.2.1]
      exact h0.static j hj ((same j).2.1.symm.trans hp)
  · intro j _ hf
    rw [hb]
    split
    · rfl
    · exact hf

/-- Backends in use are not freed. -/
theorem used_live {s : DynSt} (h : DInv s) {i : Nat} (hi : i ∈ s.held ∨ i ∈ s.jobs) : i < s.next ∧ (s.be i).freed = false ∧ (s.be i).refs ≠ 0 := by
  have hin : i < s.next := by
    rcases hi with hi | hi
    · exact h.held i hi
    · exact h.jobs i hi
  have hc : 0 < s.held.count i + s.jobs.count i := by
    rcases hi with hi | hi
    · have := List.count_pos_iff.mpr hi; omega
    · have := List.count_pos_iff.mpr hi; omega
  have hr := h.refs i hin
  refine ⟨hin, ?_, by omega⟩
  cases hf : (s.be i).freed with
  | false => rfl
  | true =>
    have := (h.freed i hf).2.1
    omega

theorem inBal_live {s : DynSt} (h : DInv s) {w i : Nat} (hi : InBal s.bals w i) : (s.be i).freed = false := by
  cases hf : (s.be i).freed with
  | false => rfl
  | true =>
    obtain ⟨-, -, m, h3, h4⟩ := h.freed i hf
    exact absurd ((h.mem w i hi).2.2 m h3) h4

theorem use_next {s s' : DynSt} (h : DGood s) (hd : DInv s') {i : Nat} {r : DynBe} (hbe : s'.be = setBe s.be i r) (hr : r.parent = (s.be i).parent ∧ r.freed = (s.be i).freed ∧ r.mark = (s.be i).mark)
    (hn : s'.next = s.next) (hl : s'.late = s.late) (hm : s'.mtx = s.mtx) : DynNext s s' := by
  have same : ∀ j, (s'.be j).parent = (s.be j).parent ∧ (s'.be j).freed = (s.be j).freed ∧ (s'.be j).mark = (s.be j).mark := by
    intro j
    rw [hbe]
    by_cases hj : j = i
    · subst hj; rw [setBe_self]; exact hr
    · rw [setBe_ne _ _ hj]; exact ⟨rfl, rfl, rfl⟩
  refine ⟨⟨hd, fun j => (same j).2.2.trans (h.mark j)⟩, Nat.le_of_eq hn.symm, hl, fun j _ => (same j).1, ?_, fun j _ x => (same j).2.1.trans x⟩
  intro m j _ x
  rw [hm] at x
  exact x

theorem next_take {s s' : DynSt} (h : DGood s) {w i : Nat} {cur : Option Nat} {key : Option Bytes} (e : dynTake w i cur key s = .ok s') : DynNext s s' := by
  unfold dynTake at e
  split at e
  · cases e
  · split at e
    · cases e; exact dynNext_refl h
    · rename_i b hfb
      by_cases hc : (b.members.contains i && dynActive (s.be i) && curOk b.members cur) = true
      · rw [if_pos hc] at e
        cases e
        have hbm := List.mem_of_find?_eq_some hfb
        have hbw : b.weight = w := by simpa using List.find?_some hfb
        simp only [Bool.and_eq_true, List.contains_iff_mem] at hc
        obtain ⟨⟨hib, -⟩, hcur⟩ := hc
        have hin : InBal s.bals w i := ⟨b, hbm, hbw, hib⟩
        have hi := (h.inv.mem w i hin).1
        have hwt : ∀ x ∈ s.bals, (if x.weight = w then { x with cur := cur } else x).weight = x.weight := by
          intro x _; split <;> rfl
        refine use_next h (dinv_use h.inv hi ⟨rfl, rfl, rfl, rfl, rfl⟩ (inBal_live h.inv hin) ?_ ?_ ?_ h.inv.jobs ?_ ?_ ?_ ?_) rfl ⟨rfl, rfl, rfl⟩ rfl rfl rfl
        · have := h.inv.refs i hi
          simp only [List.count_cons_self]
          omega
        · intro j hj
          rw [List.count_cons_of_ne (Ne.symm hj)]
        · intro j hj
          rcases List.mem_cons.mp hj with rfl | hj
          · exact hi
          · exact h.inv.held j hj
        · intro x hx
          cases key with
          | none => exact h.inv.sessN x hx
          | some k =>
            dsimp only at hx
            split at hx
            · exact h.inv.sessN x hx
            · rcases List.mem_append.mp hx with hx | hx
              · exact h.inv.sessN x hx
              · simp only [List.mem_singleton] at hx; subst hx; exact hi
        · intro hl x hx
          cases key with
          | none => exact h.inv.sess hl x hx
          | some k =>
            dsimp only at hx
            split at hx
            · exact h.inv.sess hl x hx
            · rcases List.mem_append.mp hx with hx | hx
              · exact h.inv.sess hl x hx
              · simp only [List.mem_singleton] at hx; subst hx; exact ⟨w, hin⟩
        · refine ⟨map_weights hwt h.inv.bals.weights, ?_, ?_⟩
          · intro x' hx'
            obtain ⟨x, hx, rfl⟩ := List.mem_map.mp hx'
            have := h.inv.bals.nodup x hx
            split <;> exact this
          · intro x' hx' c hcc
            obtain ⟨x, hx, rfl⟩ := List.mem_map.mp hx'
            by_cases hxw : x.weight = w
            · rw [if_pos hxw] at hcc ⊢
              have hcc' : cur = some c := hcc
              rw [hcc'] at hcur
              have hcb : c ∈ b.members := List.contains_iff_mem.mp hcur
              have : InBal s.bals w c := ⟨b, hbm, hbw, hcb⟩
              rw [← hxw] at this
              exact (inBal_unique h.inv.bals hx).mp this
            · rw [if_neg hxw] at hcc ⊢
              exact h.inv.bals.cur x hx c hcc
        · intro w' j
          rw [map_inBal hwt]
          unfold InBal
          constructor
          · rintro ⟨x, hx, h1, h2⟩
            refine ⟨x, hx, h1, ?_⟩
            split at h2 <;> exact h2
          · rintro ⟨x, hx, h1, h2⟩
            refine ⟨x, hx, h1, ?_⟩
            split <;> exact h2
      · rw [if_neg hc] at e; cases e; exact dynNext_refl h

theorem next_takeSess {s s' : DynSt} (h : DGood s) {k : Bytes} (e : dynTakeSess k s = .ok s') : DynNext s s' := by
  unfold dynTakeSess at e
  split at e
  · cases e; exact dynNext_refl h
  · rename_i x hx
    split at e
    · cases e
    · rename_i hf
      cases e
      have hxm := List.mem_of_find?_eq_some hx
      have hi := h.inv.sessN x hxm
      refine use_next h (dinv_use h.inv hi ⟨rfl, rfl, rfl, rfl, rfl⟩ (by simpa using hf) ?_ ?_ ?_ h.inv.jobs h.inv.sessN h.inv.sess h.inv.bals (fun _ _ => Iff.rfl)) rfl ⟨rfl, rfl, rfl⟩ rfl rfl rfl
      · have := h.inv.refs x.2 hi
        simp only [List.count_cons_self]
        omega
      · intro j hj
        rw [List.count_cons_of_ne (Ne.symm hj)]
      · intro j hj
        rcases List.mem_cons.mp hj with rfl | hj
        · exact hi
        · exact h.inv.held j hj

theorem next_done {s s' : DynSt} (h : DGood s) {i : Nat} (e : dynDone i s = .ok s') : DynNext s s' := by
  unfold dynDone at e
  split at e
  · rename_i hi
    obtain ⟨h1, h2, h3⟩ := used_live h.inv (Or.inl hi)
    rw [if_neg (by simp [h2]), if_neg h3] at e
    cases e
    have hc := List.count_pos_iff.mpr hi
    refine use_next h (dinv_use h.inv h1 ⟨rfl, rfl, rfl, rfl, rfl⟩ h2 ?_ ?_ ?_ h.inv.jobs h.inv.sessN h.inv.sess h.inv.bals (fun _ _ => Iff.rfl)) rfl ⟨rfl, rfl, rfl⟩ rfl rfl rfl
    · have := h.inv.refs i h1
      simp only [List.count_erase_self]
      omega
    · intro j hj
      rw [List.count_erase_of_ne hj]
    · intro j hj
      exact h.inv.held j (List.mem_of_mem_erase hj)
  · cases e; exact dynNext_refl h

theorem dinv_sess {s : DynSt} (h : DInv s) {sess : List (Bytes × Nat)} (h1 : ∀ e ∈ sess, e.2 < s.next) (h2 : s.late = false → ∀ e ∈ sess, ∃ w, InBal s.bals w e.2) :
    DInv { s with sess := sess } :=
  ⟨h.bals, h.mem, h.tabN, h.tabA, h.tab, h.refs, h.rem, h.freed, h.held, h.jobs, h1, h2, h.gone, h.static⟩

theorem next_respond {s s' : DynSt} (h : DGood s) {k : Bytes} {i : Nat} (e : dynRespond k i s = .ok s') : DynNext s s' := by
  unfold dynRespond at e
  split at e
  · rename_i hi
    split at e
    · cases e; exact dynNext_refl h
    · cases e
      refine ⟨⟨dinv_sess h.inv ?_ ?_, h.mark⟩, Nat.le_refl _, rfl, fun _ _ => rfl, fun _ _ _ x => x, fun _ _ x => x⟩
      · intro x hx
        rcases List.mem_append.mp hx with hx | hx
        · exact h.inv.sessN x hx
        · simp only [List.mem_singleton] at hx; subst hx; exact h.inv.held i hi.1
      · intro hl
        rw [hi.2] at hl; cases hl
  · cases e; exact dynNext_refl h

theorem next_kill {s s' : DynSt} (h : DGood s) {i : Nat} (e : dynKill i s = .ok s') : DynNext s s' := by
  unfold dynKill at e
  split at e
  · rename_i hi
    obtain ⟨h1, h2, h3⟩ := used_live h.inv (Or.inl hi)
    rw [if_neg (by simp [h2])] at e
    split at e
    · cases e
    · cases e
      refine use_next h (dinv_use h.inv h1 ⟨rfl, rfl, rfl, rfl, rfl⟩ h2 ?_ ?_ h.inv.held ?_ ?_ ?_ h.inv.bals (fun _ _ => Iff.rfl)) rfl ⟨rfl, rfl, rfl⟩ rfl rfl rfl
      · have := h.inv.refs i h1
        simp only [List.count_cons_self]
        omega
      · intro j hj
        rw [List.count_cons_of_ne (Ne.symm hj)]
      · intro j hj
        rcases List.mem_cons.mp hj with rfl | hj
        · exact h1
        · exact h.inv.jobs j hj
      · intro x hx; exact h.inv.sessN x (List.mem_filter.mp hx).1
      · intro hl x hx; exact h.inv.sess hl x (List.mem_filter.mp hx).1
  · cases e; exact dynNext_refl h

theorem next_touch {s s' : DynSt} (h : DGood s) {i : Nat} (e : dynTouch i s = .ok s') : DynNext s s' := by
  unfold dynTouch at e
  split at e
  · rename_i hi
    obtain ⟨h1, h2, h3⟩ := used_live h.inv (Or.inr hi)
    rw [if_neg (by simp [h2]), if_neg h3] at e
    have hc := List.count_pos_iff.mpr hi
    have hr := h.inv.refs i h1
    have g1 : (s.be i).refs - 1 = baseRef s i + s.held.count i + (s.jobs.erase i).count i := by
      simp only [List.count_erase_self]; omega
    have g2 : ∀ j, j ≠ i → s.held.count j + (s.jobs.erase i).count j = s.held.count j + s.jobs.count j := by
      intro j hj; rw [List.count_erase_of_ne hj]
    have g3 : ∀ j ∈ s.jobs.erase i, j < s.next := fun j hj => h.inv.jobs j (List.mem_of_mem_erase hj)
    split at e
    · split at e
      · cases e
      · cases e
        exact use_next h (dinv_use h.inv h1 ⟨rfl, rfl, rfl, rfl, rfl⟩ h2 g1 g2 h.inv.held g3 h.inv.sessN h.inv.sess h.inv.bals (fun _ _ => Iff.rfl)) rfl ⟨rfl, rfl, rfl⟩ rfl rfl rfl
    · cases e
      exact use_next h (dinv_use h.inv h1 ⟨rfl, rfl, rfl, rfl, rfl⟩ h2 g1 g2 h.inv.held g3 h.inv.sessN h.inv.sess h.inv.bals (fun _ _ => Iff.rfl)) rfl ⟨rfl, rfl, rfl⟩ rfl rfl rfl
  · cases e; exact dynNext_refl h

theorem next_step {s s' : DynSt} (h : DGood s) {o : DynOp} (e : dynStep s o = .ok s') : DynNext s s' := by
  cases o with
  | update m ans => exact next_update h e
  | noAnswer m => cases e; exact dynNext_refl h
  | disable m => exact next_disable h e
  | enable m ans => exact next_enable h e
  | remover => cases e; exact next_remover h
  | take w i cur key => exact next_take h e
  | takeSess k => exact next_takeSess h e
  | done i => exact next_done h e
  | respond k i => exact next_respond h e
  | kill i => exact next_kill h e
  | touch i => exact next_touch h e
  | expire k =>
    cases e
    exact ⟨⟨dinv_sess h.inv (fun x hx => h.inv.sessN x (List.mem_filter.mp hx).1) (fun hl x hx => h.inv.sess hl x (List.mem_filter.mp hx).1), h.mark⟩,
      Nat.le_refl _, rfl, fun _ _ => rfl, fun _ _ _ x => x, fun _ _ x => x⟩
  | setDisabled i v =>
    unfold dynStep at e
    dsimp only at e
    split at e
    · rename_i hin
      cases e
      simp only [List.any_eq_true, List.contains_iff_mem] at hin
      obtain ⟨b, hb, hi⟩ := hin
      have hib : InBal s.bals b.weight i := ⟨b, hb, rfl, hi⟩
      have hbal := (h.inv.mem _ _ hib).2.1
      refine use_next h (dinv_be h.inv ?_ ?_) rfl ⟨rfl, rfl, rfl⟩ rfl rfl rfl
      · intro j
        by_cases hj : j = i
        · subst hj; rw [setBe_self]; exact ⟨rfl, rfl, rfl, rfl, rfl⟩
        · rw [setBe_ne _ _ hj]; exact ⟨rfl, rfl, rfl, rfl, rfl⟩
      · intro j hj
        by_cases hji : j = i
        · subst hji; rw [hbal] at hj; cases hj
        · rw [setBe_ne _ _ hji]
    · cases e; exact dynNext_refl h
  | newMtx m w => exact next_newMtx h e

theorem next_run {ops : List DynOp} : ∀ {s s' : DynSt}, DGood s → dynRun s ops = .ok s' → DynNext s s' := by
  induction ops with
  | nil => intro s s' h e; cases e; exact dynNext_refl h
  | cons o r ih =>
    intro s s' h e
    unfold dynRun at e
    cases ho : dynStep s o with
    | ok s1 =>
      rw [ho] at e
      have n1 := next_step h ho
      exact dynNext_trans n1 (ih n1.good e)
    | ub => rw [ho] at e; cases e
    | abort => rw [ho] at e; cases e

theorem good_configured {s : DynSt} (h : DynConfigured s) : DGood s := by
  have tb : ∀ m j, j ∉ (s.mtx m).tab := by intro m j; rw [h.tables m]; exact List.not_mem_nil
  refine ⟨?_, fun j => (h.fresh j).2⟩
  constructor
  · exact ⟨h.weights, fun b hb => (h.members b hb).1, fun b hb => (h.members b hb).2.2⟩
  · rintro w i ⟨b, hb, rfl, hi⟩
    obtain ⟨h1, h2⟩ := (h.members b hb).2.1 i hi
    refine ⟨h1, h2, fun m hm => ?_⟩
    rw [(h.backends i h1).1] at hm; cases hm
  · intro m; rw [h.tables m]; exact List.nodup_nil
  · intro m; rw [h.tables m]; exact List.nodup_nil
  · intro m i hi; exact absurd hi (tb m i)
  · intro i hi
    obtain ⟨h1, h2, -⟩ := h.backends i hi
    unfold baseRef
    rw [h1, h2, h.requests, h.jobs]
    rfl
  · intro i hi; rw [h.removed] at hi; cases hi
  · intro i hi; rw [(h.fresh i).1] at hi; cases hi
  · intro i hi; rw [h.requests] at hi; cases hi
  · intro i hi; rw [h.jobs] at hi; cases hi
  · intro e he; rw [h.sessions] at he; cases he
  · intro _ e he; rw [h.sessions] at he; cases he
  · intro i hi m hm; rw [(h.backends i hi).1] at hm; cases hm
  · intro i hi _; exact (h.backends i hi).2.2

theorem good_reach {s : DynSt} (h : DynReach s) : DGood s := by
  obtain ⟨s0, ops, h0, e⟩ := h
  exact (next_run (good_configured h0) e).good

theorem inService_iff {s : DynSt} {i : Nat} : InService s i ↔ ∃ w, InBal s.bals w i := by
  constructor
  · rintro ⟨b, hb, hi⟩; exact ⟨b.weight, b, hb, rfl, hi⟩
  · rintro ⟨w, b, hb, -, hi⟩; exact ⟨b, hb, hi⟩

/-- A backend that was removed gets no new requests, unless responses create sessions. -/
theorem step_held {s s' : DynSt} (h : DGood s) (hl : s.late = false) {i : Nat} (hi : ¬ InService s i) {o : DynOp} (e : dynStep s o = .ok s') : s'.held.count i ≤ s.held.count i := by
  have upd : ∀ {s s' : DynSt} {m ans}, DGood s → dynUpdate m ans s = .ok s' → s'.held = s.held := by
    intro s s' m ans h e
    cases hd : (s.mtx m).disabled with
    | false => exact (step_update h hd e).held
    | true =>
      unfold dynUpdate at e
      dsimp only at e
      rw [hd, if_pos rfl] at e
      cases e; rfl
  cases o with
  | update m ans => rw [upd h e]; exact Nat.le_refl _
  | noAnswer m => cases e; exact Nat.le_refl _
  | disable m =>
    obtain ⟨s1, hs, e1⟩ := disable_core h m
    have e' : dynDisable m s = .ok s' := e
    rw [e1] at e'
    cases e'
    show s1.held.count i ≤ _
    rw [hs.held]
    exact Nat.le_refl _
  | enable m ans =>
    have e' : dynEnable m ans s = .ok s' := e
    unfold dynEnable at e'
    split at e'
    · rw [upd (next_mtx h (setMtx_flag s.mtx m false)).good e']; exact Nat.le_refl _
    · cases e'; exact Nat.le_refl _
  | remover => cases e; exact Nat.le_refl _
  | take w j cur key =>
    have e' : dynTake w j cur key s = .ok s' := e
    unfold dynTake at e'
    split at e'
    · cases e'
    · split at e'
      · cases e'; exact Nat.le_refl _
      · rename_i b hfb
        by_cases hc : (b.members.contains j && dynActive (s.be j) && curOk b.members cur) = true
        · rw [if_pos hc] at e'
          cases e'
          have hbm := List.mem_of_find?_eq_some hfb
          simp only [Bool.and_eq_true, List.contains_iff_mem] at hc
          have hij : j ≠ i := by rintro rfl; exact hi ⟨b, hbm, hc.1.1⟩
          show List.count i (j :: s.held) ≤ _
          rw [List.count_cons_of_ne hij]
          exact Nat.le_refl _
        · rw [if_neg hc] at e'; cases e'; exact Nat.le_refl _
  | takeSess k =>
    have e' : dynTakeSess k s = .ok s' := e
    unfold dynTakeSess at e'
    split at e'
    · cases e'; exact Nat.le_refl _
    · rename_i x hx
      split at e'
      · cases e'
      · cases e'
        have hij : x.2 ≠ i := by
          rintro rfl
          exact hi (inService_iff.mpr (h.inv.sess hl x (List.mem_of_find?_eq_some hx)))
        show List.count i (x.2 :: s.held) ≤ _
        rw [List.count_cons_of_ne hij]
        exact Nat.le_refl _
  | done j =>
    have e' : dynDone j s = .ok s' := e
    unfold dynDone at e'
    split at e'
    · split at e'
      · cases e'
      · split at e'
        · cases e'
        · cases e'; exact List.Sublist.count_le _ List.erase_sublist
    · cases e'; exact Nat.le_refl _
  | respond k j =>
    have e' : dynRespond k j s = .ok s' := e
    unfold dynRespond at e'
    split at e'
    · split at e' <;> cases e' <;> exact Nat.le_refl _
    · cases e'; exact Nat.le_refl _
  | kill j =>
    have e' : dynKill j s = .ok s' := e
    unfold dynKill at e'
    split at e'
    · split at e'
      · cases e'
      · split at e' <;> cases e'
        exact Nat.le_refl _
    · cases e'; exact Nat.le_refl _
  | touch j =>
    have e' : dynTouch j s = .ok s' := e
    unfold dynTouch at e'
    repeat' split at e'
    all_goals first | (cases e'; exact Nat.le_refl _) | cases e'
  | expire k => cases e; exact Nat.le_refl _
  | setDisabled j v =>
    unfold dynStep at e
    dsimp only at e
    split at e <;> cases e <;> exact Nat.le_refl _
  | newMtx m w =>
    unfold dynStep at e
    dsimp only at e
    split at e <;> cases e <;> exact Nat.le_refl _

/-- A generated backend that is out of its table -/
def DGone (s : DynSt) (i : Nat) : Prop := i < s.next ∧ ∃ m, (s.be i).parent = some m ∧ i ∉ (s.mtx m).tab

theorem gone_out {s : DynSt} (h : DGood s) {i : Nat} (hg : DGone s i) : ¬ InService s i := by
  rw [inService_iff]
  rintro ⟨w, hw⟩
  obtain ⟨-, m, h1, h2⟩ := hg
  exact h2 ((h.inv.mem w i hw).2.2 m h1)

theorem out_gone {s : DynSt} (h : DGood s) {i : Nat} (hi : i < s.next) {m : Nat} (hp : (s.be i).parent = some m) (ho : ¬ InService s i) : DGone s i := by
  refine ⟨hi, m, hp, fun x => ho ?_⟩
  exact inService_iff.mpr ⟨_, (h.inv.tab m i x).2.2.2⟩

theorem gone_next {s s' : DynSt} (n : DynNext s s') {i : Nat} (hg : DGone s i) : DGone s' i := by
  obtain ⟨h1, m, h2, h3⟩ := hg
  exact ⟨Nat.lt_of_lt_of_le h1 n.next, m, (n.parent i h1).trans h2, fun x => h3 (n.tab m i h1 x)⟩

theorem run_gone {i : Nat} {ops : List DynOp} : ∀ {s s' : DynSt}, DGood s → DGone s i → dynRun s ops = .ok s' →
    DGood s' ∧ DGone s' i ∧ (s.late = false → s'.held.count i ≤ s.held.count i) := by
  induction ops with
  | nil => intro s s' h hg e; cases e; exact ⟨h, hg, fun _ => Nat.le_refl _⟩
  | cons o r ih =>
    intro s s' h hg e
    unfold dynRun at e
    cases ho : dynStep s o with
    | ok s1 =>
      rw [ho] at e
      have n1 := next_step h ho
      obtain ⟨a, b, c⟩ := ih n1.good (gone_next n1 hg) e
      exact ⟨a, b, fun hl => Nat.le_trans (c (n1.late.trans hl)) (step_held h hl (gone_out h hg) ho)⟩
    | ub => rw [ho] at e; cases e
    | abort => rw [ho] at e; cases e

theorem update_bad {s : DynSt} (h : DGood s) {m : Nat} {ans : List Bytes} (e : ∀ s', dynUpdate m ans s ≠ .ok s') :
    (s.mtx m).disabled = false ∧ Wanted (s.mtx m) ans = [] ∧ ∀ b ∈ s.bals, b.weight = (s.mtx m).weight → ∀ i ∈ b.members, i ∈ (s.mtx m).tab := by
  cases hd : (s.mtx m).disabled with
  | true =>
    exfalso
    unfold dynUpdate at e
    dsimp only at e
    rw [hd, if_pos rfl] at e
    exact e _ rfl
  | false =>
    obtain ⟨s3, e3, -, h2⟩ := update_core h.inv h.mark hd ans
    rw [e3] at e
    split at e
    · exact absurd rfl (e _)
    · rename_i hh
      obtain ⟨h3, h4⟩ := h2 (fun x => hh (any_weight.mpr x))
      exact ⟨rfl, h3, fun b hb hw i hi => h4 i ⟨b, hb, hw, hi⟩⟩

theorem tab_generated {s : DynSt} (h : DInv s) {m i : Nat} (hi : i ∈ (s.mtx m).tab) : Generated s m i :=
  ⟨inService_iff.mpr ⟨_, (h.tab m i hi).2.2.2⟩, (h.tab m i hi).2.1⟩

theorem generated_tab {s : DynSt} (h : DInv s) {m i : Nat} (hi : Generated s m i) : i ∈ (s.mtx m).tab := by
  obtain ⟨h1, h2⟩ := hi
  obtain ⟨w, hw⟩ := inService_iff.mp h1
  exact (h.mem w i hw).2.2 m h2

theorem step_bad {s : DynSt} (h : DGood s) {o : DynOp} (e : ∀ s', dynStep s o ≠ .ok s') : Risky s o := by
  cases o with
  | update m ans =>
    obtain ⟨h1, h2, h3⟩ := update_bad h e
    exact .update m ans h1 h2 fun b hb hw i hi => tab_generated h.inv (h3 b hb hw i hi)
  | noAnswer m => exact absurd rfl (e _)
  | disable m =>
    obtain ⟨s1, hs, e1⟩ := disable_core h m
    exact absurd e1 (e _)
  | enable m ans =>
    have e' : ∀ s', dynEnable m ans s ≠ .ok s' := e
    unfold dynEnable at e'
    by_cases hd : (s.mtx m).disabled = true
    · rw [if_pos hd] at e'
      have g := (next_mtx h (setMtx_flag s.mtx m false)).good
      obtain ⟨h1, h2, h3⟩ := update_bad g e'
      dsimp only at h2 h3
      rw [setMtx_self] at h2 h3
      exact .enable m ans hd h2 fun b hb hw i hi => tab_generated h.inv (h3 b hb hw i hi)
    · rw [if_neg hd] at e'
      exact absurd rfl (e' _)
  | remover => exact absurd rfl (e _)
  | take w j cur key =>
    have e' : ∀ s', dynTake w j cur key s ≠ .ok s' := e
    unfold dynTake at e'
    split at e'
    · rename_i hb
      obtain ⟨b, hb1, hb2⟩ := List.any_eq_true.mp hb
      have hbm : b ∈ s.bals := by
        have : ∀ (l : List DynBal), b ∈ balsUpTo w l → b ∈ l := by
          intro l
          induction l with
          | nil => intro x; exact x
          | cons a r ih =>
            intro x
            unfold balsUpTo at x
            split at x
            · simp only [List.mem_singleton] at x; subst x; exact List.mem_cons_self
            · rcases List.mem_cons.mp x with x | x
              · subst x; exact List.mem_cons_self
              · exact List.mem_cons_of_mem _ (ih x)
        exact this _ hb1
      refine .take w j cur key ⟨b, hbm, ?_⟩
      have hc : curOk b.members b.cur = true := by
        cases hcc : b.cur with
        | none => rfl
        | some c => exact List.contains_iff_mem.mpr (h.inv.bals.cur b hbm c hcc)
      unfold balOk at hb2
      rw [hc] at hb2
      simpa using hb2
    · split at e'
      · exact absurd rfl (e' _)
      · split at e' <;> first | exact absurd rfl (e' _) | (split at e' <;> exact absurd rfl (e' _))
  | takeSess k =>
    have e' : ∀ s', dynTakeSess k s ≠ .ok s' := e
    unfold dynTakeSess at e'
    split at e'
    · exact absurd rfl (e' _)
    · rename_i x hx
      split at e'
      · rename_i hf
        have hxm := List.mem_of_find?_eq_some hx
        have hk : x.1 = k := by simpa using List.find?_some hx
        obtain ⟨h1, -, m, h3, h4⟩ := h.inv.freed _ hf
        have hg : DGone s x.2 := ⟨h1, m, h3, h4⟩
        refine .takeSess k x.2 ?_ (by rw [← hk]; exact hxm) (gone_out h hg)
        cases hl : s.late with
        | true => rfl
        | false => exact absurd (inService_iff.mpr (h.inv.sess hl x hxm)) (gone_out h hg)
      · exact absurd rfl (e' _)
  | done j =>
    have e' : ∀ s', dynDone j s ≠ .ok s' := e
    unfold dynDone at e'
    split at e'
    · rename_i hi
      obtain ⟨h1, h2, h3⟩ := used_live h.inv (Or.inl hi)
      rw [if_neg (by simp [h2]), if_neg h3] at e'
      exact absurd rfl (e' _)
    · exact absurd rfl (e' _)
  | respond k j =>
    have e' : ∀ s', dynRespond k j s ≠ .ok s' := e
    unfold dynRespond at e'
    split at e'
    · split at e' <;> exact absurd rfl (e' _)
    · exact absurd rfl (e' _)
  | kill j =>
    have e' : ∀ s', dynKill j s ≠ .ok s' := e
    unfold dynKill at e'
    split at e'
    · rename_i hi
      obtain ⟨h1, h2, h3⟩ := used_live h.inv (Or.inl hi)
      rw [if_neg (by simp [h2])] at e'
      split at e'
      · rename_i hb
        refine .kill j hi ?_
        rw [inService_iff]
        rintro ⟨w, hw⟩
        have := (h.inv.mem w j hw).2.1
        rw [hb] at this; cases this
      · exact absurd rfl (e' _)
    · exact absurd rfl (e' _)
  | touch j =>
    have e' : ∀ s', dynTouch j s ≠ .ok s' := e
    unfold dynTouch at e'
    split at e'
    · rename_i hi
      obtain ⟨h1, h2, h3⟩ := used_live h.inv (Or.inr hi)
      rw [if_neg (by simp [h2]), if_neg h3] at e'
      split at e'
      · split at e'
        · rename_i hb
          exfalso
          cases hp : (s.be j).parent with
          | none => exact h.inv.static j h1 hp hb.2
          | some m =>
            by_cases ht : j ∈ (s.mtx m).tab
            · have := (h.inv.tab m j ht).2.2.1
              rw [hb.2] at this; cases this
            · have := (h.inv.gone j h1 m hp ht).2.1
              rw [hb.1] at this; cases this
        · exact absurd rfl (e' _)
      · exact absurd rfl (e' _)
    · exact absurd rfl (e' _)
  | expire k => exact absurd rfl (e _)
  | setDisabled j v =>
    unfold dynStep at e
    dsimp only at e
    split at e <;> exact absurd rfl (e _)
  | newMtx m w =>
    unfold dynStep at e
    dsimp only at e
    split at e <;> exact absurd rfl (e _)

theorem nodup_map_inj {α β : Type} {f : α → β} {l : List α} (h : (l.map f).Nodup) {x y : α} (hx : x ∈ l) (hy : y ∈ l) (e : f x = f y) : x = y := by
  induction l with
  | nil => cases hx
  | cons a r ih =>
    rw [List.map_cons, List.nodup_cons] at h
    rcases List.mem_cons.mp hx with hx | hx <;> rcases List.mem_cons.mp hy with hy | hy
    · rw [hx, hy]
    · exact absurd (hx ▸ List.mem_map.mpr ⟨y, hy, e.symm⟩) h.1
    · exact absurd (hy ▸ List.mem_map.mpr ⟨x, hx, e⟩) h.1
    · exact ih h.2 hx hy

end Pound
