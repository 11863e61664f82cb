import Verif.Proof.SrvSweep

/-!
What all steps respect.
-/

namespace Pound

open Spec

/-- What every step respects -/
structure SNext (s s' : SrvSt) : Prop where
  inv : SInv s'
  nextM : s.nextM ≤ s'.nextM
  next : s.dyn.next ≤ s'.dyn.next
  sub : ∀ m < s.nextM, (s'.sub m).host = (s.sub m).host ∧ (s'.sub m).port = (s.sub m).port ∧ (s'.sub m).parent = (s.sub m).parent
  parent : ∀ i < s.dyn.next, (s'.dyn.be i).parent = (s.dyn.be i).parent
  off : ∀ m k, (s.sub m).parent = some k → (s.dyn.mtx m).disabled = true → (s'.dyn.mtx m).disabled = true
  weight : ∀ m k, (s.sub m).parent = some k → (s'.dyn.mtx m).weight = (s.dyn.mtx m).weight
  conf : ∀ k, (s'.srv k).ignore = (s.srv k).ignore ∧ (s'.srv k).prio = (s.srv k).prio

theorem snext_refl {s : SrvSt} (h : SInv s) : SNext s s :=
  ⟨h, Nat.le_refl _, Nat.le_refl _, fun _ _ => ⟨rfl, rfl, rfl⟩, fun _ _ => rfl, fun _ _ _ x => x, fun _ _ _ => rfl, fun _ => ⟨rfl, rfl⟩⟩

theorem snext_trans {s s1 s2 : SrvSt} (h : SInv s) (a : SNext s s1) (b : SNext s1 s2) : SNext s s2 := by
  have pa : ∀ m k, (s.sub m).parent = some k → (s1.sub m).parent = some k := fun m k hp => (a.sub m (h.lt hp)).2.2.trans hp
  refine ⟨b.inv, Nat.le_trans a.nextM b.nextM, Nat.le_trans a.next b.next, fun m hm => ?_, fun i hi => ?_, fun m k hp x => ?_, fun m k hp => ?_, fun k => ?_⟩
  · have x := a.sub m hm
    have y := b.sub m (Nat.lt_of_lt_of_le hm a.nextM)
    exact ⟨y.1.trans x.1, y.2.1.trans x.2.1, y.2.2.trans x.2.2⟩
  · exact (b.parent i (Nat.lt_of_lt_of_le hi a.next)).trans (a.parent i hi)
  · exact b.off m k (pa m k hp) (a.off m k hp x)
  · exact (b.weight m k (pa m k hp)).trans (a.weight m k hp)
  · exact ⟨(b.conf k).1.trans (a.conf k).1, (b.conf k).2.trans (a.conf k).2⟩

theorem snext_updated {k : Nat} {recs : List SrvRec} {s s' : SrvSt} (h : SInv s) (u : SUpdated k recs s s') : SNext s s' := by
  have mt : ∀ m < s.nextM, (s'.dyn.mtx m).weight = (s.dyn.mtx m).weight ∧ ((s.dyn.mtx m).disabled = true → (s'.dyn.mtx m).disabled = true) := by
    intro m hm
    by_cases hx : m ∈ (s.srv k).tab → Listed s recs m
    · rw [u.kept m hm hx]; exact ⟨rfl, id⟩
    · have h1 : m ∈ (s.srv k).tab := Classical.byContradiction fun y => hx (fun z => absurd z y)
      have h2 : ¬ Listed s recs m := fun y => hx (fun _ => y)
      rw [u.out m h1 h2]; exact ⟨rfl, fun _ => rfl⟩
  exact ⟨u.inv, u.nextM, Nat.le_of_eq u.next.symm, u.old, u.parent, fun m k' hp x => (mt m (h.lt hp)).2 x, fun m k' hp => (mt m (h.lt hp)).1, fun j => ⟨(u.srv j).1, (u.srv j).2.1⟩⟩

theorem snext_flag {k : Nat} {s : SrvSt} (h : SInv s) (v : Bool) : SNext s { s with srv := fun j => if j = k then { s.srv k with disabled := v } else s.srv j } := by
  refine ⟨sinv_flag h v, Nat.le_refl _, Nat.le_refl _, fun _ _ => ⟨rfl, rfl, rfl⟩, fun _ _ => rfl, fun _ _ _ x => x, fun _ _ _ => rfl, fun j => ?_⟩
  show (if j = k then _ else s.srv j : SrvMtx).ignore = _ ∧ (if j = k then _ else s.srv j : SrvMtx).prio = _
  split
  · rename_i e; rw [e]; exact ⟨rfl, rfl⟩
  · exact ⟨rfl, rfl⟩

theorem snext_step {s s' : SrvSt} (h : SInv s) {o : SrvOp} (e : srvStep s o = .ok s') : SNext s s' := by
  cases o with
  | srvUpdate k recs =>
    have e' : srvUpdate k recs s = .ok s' := e
    cases hd : (s.srv k).disabled with
    | true =>
      unfold srvUpdate at e'
      rw [hd, if_pos rfl] at e'
      cases e'; exact snext_refl h
    | false =>
      obtain ⟨s1, e1, u⟩ := supdated (k := k) (recs := recs) h hd
      rw [e1] at e'; cases e'
      exact snext_updated h u
  | srvNoAnswer k => cases e; exact snext_refl h
  | srvDisable k =>
    obtain ⟨s1, s2, e1, a, es, u⟩ := sdisabled (k := k) h
    have e' : srvDisable k s = .ok s' := e
    rw [e1] at e'; cases e'
    have n2 : SNext s s2 := by
      have mt : ∀ m, (s2.dyn.mtx m).weight = (s.dyn.mtx m).weight ∧ ((s.dyn.mtx m).disabled = true → (s2.dyn.mtx m).disabled = true) := by
        intro m
        by_cases hx : m ∈ (s.srv k).tab ∧ (srvMarkAll (s.srv k).tab s).mark m = true
        · rw [a.self m hx.1 hx.2]; exact ⟨rfl, fun _ => rfl⟩
        · rw [a.mtx m hx]; exact ⟨rfl, id⟩
      refine ⟨a.inv, Nat.le_of_eq a.nextM.symm, Nat.le_of_eq a.next.symm, fun m _ => ?_, a.parent, fun m k' _ x => (mt m).2 x, fun m k' _ => (mt m).1, fun j => ⟨(a.srv j).1, (a.srv j).2.1⟩⟩
      rw [a.sub]; exact ⟨rfl, rfl, rfl⟩
    rw [es]
    exact snext_trans h n2 (snext_flag n2.inv true)
  | srvEnable k recs =>
    have e' : srvEnable k recs s = .ok s' := e
    unfold srvEnable at e'
    split at e'
    · have hf := sinv_flag (k := k) h false
      obtain ⟨s1, e1, u⟩ := supdated (k := k) (recs := recs) hf (by dsimp only; rw [if_pos rfl])
      rw [e1] at e'; cases e'
      exact snext_trans h (snext_flag h false) (snext_updated hf u)
    · cases e'; exact snext_refl h
  | dyn o =>
    obtain ⟨i1, i2, i3, i4, i5, i6, i7, i8⟩ := sinv_dyn h e
    cases ha : srvAllowed s o with
    | false => rw [i7 ha]; exact snext_refl h
    | true =>
      have hd := i8 ha
      have nx := next_step h.good hd
      have hn : ∀ m w, o ≠ .newMtx m w := by
        rintro m w rfl
        cases ha
      have ms := mtx_step h.good hd hn
      refine ⟨i1, Nat.le_of_eq i2.symm, nx.next, fun m _ => by rw [i3]; exact ⟨rfl, rfl, rfl⟩, nx.parent, fun m k hp x => ?_, fun m k _ => (ms.kept m).1, fun j => by rw [i5]; exact ⟨rfl, rfl⟩⟩
      rw [ms.flag m ?_ ?_]
      · exact x
      · rintro ans rfl
        unfold srvAllowed at ha
        dsimp only at ha
        rw [hp] at ha
        simp at ha
      · rintro rfl
        unfold srvAllowed at ha
        dsimp only at ha
        rw [hp] at ha
        simp at ha

theorem snext_run {ops : List SrvOp} : ∀ {s s' : SrvSt}, SInv s → srvRun s ops = .ok s' → SNext s s' := by
  induction ops with
  | nil => intro s s' h e; cases e; exact snext_refl h
  | cons o r ih =>
    intro s s' h e
    obtain ⟨s1, e1, e2⟩ := srvRun_cons.mp e
    have n1 := snext_step h e1
    exact snext_trans h n1 (ih n1.inv e2)

/-! ### Steps that are not SRV look-ups of a backend -/

/-- What steps that are not SRV look-ups of k respect -/
structure SKeep (k : Nat) (s s' : SrvSt) : Prop where
  tab : ∀ m ∈ (s'.srv k).tab, m ∈ (s.srv k).tab
  prio : ∀ m ∈ (s'.srv k).tab, (s'.sub m).prio = (s.sub m).prio

theorem skeep_other {k k' : Nat} {recs : List SrvRec} {s s' : SrvSt} (h : SInv s) (hk : k' ≠ k) (u : SUpdated k' recs s s') : SKeep k s s' := by
  refine ⟨fun m hm => ?_, fun m hm => ?_⟩
  · rw [(u.srv k).2.2.2 (Ne.symm hk)] at hm; exact hm
  · rw [(u.srv k).2.2.2 (Ne.symm hk)] at hm
    have hp := (h.tab k m).mp hm
    refine u.prioF m (h.lt hp.1) fun x => ?_
    have := ((h.tab k' m).mp x).1
    rw [hp.1] at this
    cases this
    exact hk rfl

theorem skeep_step {k : Nat} {s s' : SrvSt} (h : SInv s) {o : SrvOp} (ho : ∀ recs, o ≠ .srvUpdate k recs ∧ o ≠ .srvEnable k recs) (e : srvStep s o = .ok s') : SKeep k s s' := by
  have refl : ∀ {s : SrvSt}, SKeep k s s := ⟨fun _ x => x, fun _ _ => rfl⟩
  cases o with
  | srvUpdate k' recs =>
    have hk : k' ≠ k := fun x => (ho recs).1 (by rw [x])
    have e' : srvUpdate k' recs s = .ok s' := e
    cases hd : (s.srv k').disabled with
    | true =>
      unfold srvUpdate at e'
      rw [hd, if_pos rfl] at e'
      cases e'; exact refl
    | false =>
      obtain ⟨s1, e1, u⟩ := supdated (k := k') (recs := recs) h hd
      rw [e1] at e'; cases e'
      exact skeep_other h hk u
  | srvNoAnswer k => cases e; exact refl
  | srvDisable k' =>
    obtain ⟨s1, s2, e1, a, es, u⟩ := sdisabled (k := k') h
    have e' : srvDisable k' s = .ok s' := e
    rw [e1] at e'; cases e'
    subst es
    refine ⟨fun m hm => ?_, fun m _ => ?_⟩
    · have hm' : m ∈ (if k = k' then { s2.srv k' with disabled := true } else s2.srv k : SrvMtx).tab := hm
      split at hm'
      · rename_i x; subst x
        exact ((a.tab m).mp hm').1
      · rename_i x
        rw [(a.srv k).2.2.2 x] at hm'
        exact hm'
    · show (s2.sub m).prio = _
      rw [a.sub]; rfl
  | srvEnable k' recs =>
    have hk : k' ≠ k := fun x => (ho recs).2 (by rw [x])
    have e' : srvEnable k' recs s = .ok s' := e
    unfold srvEnable at e'
    split at e'
    · have hf := sinv_flag (k := k') h false
      obtain ⟨s1, e1, u⟩ := supdated (k := k') (recs := recs) hf (by dsimp only; rw [if_pos rfl])
      rw [e1] at e'; cases e'
      have := skeep_other hf hk u
      have t : (if k = k' then { s.srv k' with disabled := false } else s.srv k : SrvMtx) = s.srv k := if_neg (Ne.symm hk)
      refine ⟨fun m hm => ?_, fun m hm => ?_⟩
      · have := this.tab m hm
        dsimp only at this
        rw [t] at this
        exact this
      · exact this.prio m hm
    · cases e'; exact refl
  | dyn o =>
    obtain ⟨i1, i2, i3, i4, i5, i6, i7, i8⟩ := sinv_dyn h e
    exact ⟨fun m hm => by rw [i5] at hm; exact hm, fun m _ => by rw [i3]⟩

theorem skeep_run {k : Nat} {ops : List SrvOp} : ∀ {s s' : SrvSt}, SInv s → (∀ o ∈ ops, ∀ recs, o ≠ .srvUpdate k recs ∧ o ≠ .srvEnable k recs) → srvRun s ops = .ok s' → SKeep k s s' := by
  induction ops with
  | nil => intro s s' h _ e; cases e; exact ⟨fun _ x => x, fun _ _ => rfl⟩
  | cons o r ih =>
    intro s s' h ho e
    obtain ⟨s1, e1, e2⟩ := srvRun_cons.mp e
    have a := skeep_step h (ho o List.mem_cons_self) e1
    have b := ih (snext_step h e1).inv (fun o' ho' => ho o' (List.mem_cons_of_mem _ ho')) e2
    exact ⟨fun m hm => a.tab m (b.tab m hm), fun m hm => (b.prio m hm).trans (a.prio m (b.tab m hm))⟩

/-- Steps other than enabling leave a disabled backend disabled and without targets. -/
theorem soff_step {k : Nat} {s s' : SrvSt} (h : SInv s) (hd : (s.srv k).disabled = true) (ht : (s.srv k).tab = []) {o : SrvOp} (ho : ∀ recs, o ≠ .srvEnable k recs)
    (e : srvStep s o = .ok s') : (s'.srv k).disabled = true ∧ (s'.srv k).tab = [] := by
  cases o with
  | srvUpdate k' recs =>
    have e' : srvUpdate k' recs s = .ok s' := e
    cases hd' : (s.srv k').disabled with
    | true =>
      unfold srvUpdate at e'
      rw [hd', if_pos rfl] at e'
      cases e'; exact ⟨hd, ht⟩
    | false =>
      obtain ⟨s1, e1, u⟩ := supdated (k := k') (recs := recs) h hd'
      rw [e1] at e'; cases e'
      rw [(u.srv k).2.2.2 (fun x => by rw [← x, hd] at hd'; cases hd')]
      exact ⟨hd, ht⟩
  | srvNoAnswer k => cases e; exact ⟨hd, ht⟩
  | srvDisable k' =>
    obtain ⟨s1, s2, e1, a, es, u⟩ := sdisabled (k := k') h
    have e' : srvDisable k' s = .ok s' := e
    rw [e1] at e'; cases e'
    by_cases hk : k = k'
    · subst hk
      have q : s'.srv k = { s2.srv k with disabled := true } := by rw [es]; exact if_pos rfl
      rw [q]
      refine ⟨rfl, ?_⟩
      show (s2.srv k).tab = []
      cases hx : (s2.srv k).tab with
      | nil => rfl
      | cons x r =>
        have hx' : x ∈ (s2.srv k).tab := by rw [hx]; exact List.mem_cons_self
        have y : x ∈ (s.srv k).tab := ((a.tab x).mp hx').1
        rw [ht] at y; cases y
    · have q : s'.srv k = s2.srv k := by rw [es]; exact if_neg hk
      rw [q, (a.srv k).2.2.2 hk]
      exact ⟨hd, ht⟩
  | srvEnable k' recs =>
    have hk : k ≠ k' := fun x => ho recs (by rw [x])
    have e' : srvEnable k' recs s = .ok s' := e
    unfold srvEnable at e'
    split at e'
    · obtain ⟨s1, e1, u⟩ := supdated (k := k') (recs := recs) (sinv_flag (k := k') h false) (by dsimp only; rw [if_pos rfl])
      rw [e1] at e'; cases e'
      have q := (u.srv k).2.2.2 hk
      dsimp only at q
      rw [if_neg hk] at q
      rw [q]
      exact ⟨hd, ht⟩
    · cases e'; exact ⟨hd, ht⟩
  | dyn o =>
    obtain ⟨i1, i2, i3, i4, i5, i6, i7, i8⟩ := sinv_dyn h e
    rw [i5]
    exact ⟨hd, ht⟩

end Pound
