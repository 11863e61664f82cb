import Verif.Proof.SrvInv

/-!
Sweeping the targets that SRV records do not name any more; whole updates.
-/

namespace Pound

open Spec

/-- What disabling a matrix does -/
structure Disabled (m : Nat) (s d : DynSt) : Prop where
  mtx : ∀ k, k ≠ m → d.mtx k = s.mtx k
  self : d.mtx m = { s.mtx m with tab := [], disabled := true }
  be : ∀ j, j ∉ (s.mtx m).tab → d.be j = s.be j
  gone : ∀ j, j ∈ (s.mtx m).tab → (d.be j).disabled = true
  inBal : ∀ w j, InBal d.bals w j ↔ InBal s.bals w j ∧ j ∉ (s.mtx m).tab
  next : d.next = s.next
  held : d.held = s.held
  jobs : d.jobs = s.jobs
  late : d.late = s.late
  sess : ∀ e, e ∈ d.sess ↔ e ∈ s.sess ∧ e.2 ∉ (s.mtx m).tab
  parent : ∀ j < s.next, (d.be j).parent = (s.be j).parent

theorem disabled_step {s : DynSt} (h : DGood s) (m : Nat) : ∃ d, dynStep s (.disable m) = .ok d ∧ Disabled m s d := by
  obtain ⟨s1, hs, e⟩ := disable_core h m
  have bm : ∀ j, markAll true (s.mtx m).tab s.be j = if j ∈ (s.mtx m).tab then { s.be j with mark := true } else s.be j := fun j => rfl
  have mk : ∀ j, (j ∈ (s.mtx m).tab ∧ (markAll true (s.mtx m).tab s.be j).mark = true) ↔ j ∈ (s.mtx m).tab := by
    intro j
    constructor
    · exact fun x => x.1
    · intro x; refine ⟨x, ?_⟩; rw [bm, if_pos x]
  refine ⟨_, e, ⟨?_, ?_, ?_, ?_, ?_, hs.next, hs.held, hs.jobs, hs.late, ?_, (next_disable h e).parent⟩⟩
  · intro k hk
    show setMtx s1.mtx m _ k = _
    rw [setMtx_ne _ _ hk]
    exact (hs.mtx k).2.2.2 hk
  · show setMtx s1.mtx m _ m = _
    rw [setMtx_self]
    have t : (s1.mtx m).tab = [] := by
      cases ht : (s1.mtx m).tab with
      | nil => rfl
      | cons j r =>
        have hj : j ∈ (s1.mtx m).tab := by rw [ht]; exact List.mem_cons_self
        have := (hs.tab j).mp hj
        exact absurd ((mk j).mpr this.1) this.2
    have w := hs.mtx m
    cases h1 : s1.mtx m
    cases h2 : s.mtx m
    rw [h1] at t w
    dsimp only at t w ⊢
    rw [h2] at w
    dsimp only at w
    rw [t, w.1, w.2.1]
  · intro j hj
    show s1.be j = _
    rw [hs.be j]
    refine (if_neg (fun x => hj x.1)).trans ?_
    show markAll true (s.mtx m).tab s.be j = _
    rw [bm, if_neg hj]
  · intro j hj
    show (s1.be j).disabled = true
    rw [hs.be j]
    rw [if_pos ((mk j).mpr hj)]
  · intro w j
    show InBal s1.bals w j ↔ _
    rw [hs.inBal w j]
    exact and_congr Iff.rfl (not_congr (mk j))
  · intro x
    show x ∈ s1.sess ↔ _
    rw [hs.sess x]
    exact and_congr Iff.rfl (not_congr (mk x.2))

/-- Backends of the matrices that will be swept -/
def SGone (s : SrvSt) (l : List Nat) (i : Nat) : Prop := ∃ m ∈ l, s.mark m = true ∧ i ∈ (s.dyn.mtx m).tab

/-- What sweeping does -/
structure SSwept (k : Nat) (l : List Nat) (s s' : SrvSt) : Prop where
  inv : SInv s'
  nextM : s'.nextM = s.nextM
  sub : s'.sub = s.sub
  bePrio : s'.bePrio = s.bePrio
  bePort : s'.bePort = s.bePort
  srv : ∀ j, (s'.srv j).ignore = (s.srv j).ignore ∧ (s'.srv j).prio = (s.srv j).prio ∧ (s'.srv j).disabled = (s.srv j).disabled ∧ (j ≠ k → s'.srv j = s.srv j)
  tab : ∀ m, m ∈ (s'.srv k).tab ↔ m ∈ (s.srv k).tab ∧ ¬ (m ∈ l ∧ s.mark m = true)
  mtx : ∀ m, ¬ (m ∈ l ∧ s.mark m = true) → s'.dyn.mtx m = s.dyn.mtx m
  self : ∀ m, m ∈ l → s.mark m = true → s'.dyn.mtx m = { s.dyn.mtx m with tab := [], disabled := true }
  mark : ∀ m, s'.mark m = true ↔ s.mark m = true ∧ m ∉ l
  be : ∀ i, ¬ SGone s l i → s'.dyn.be i = s.dyn.be i
  gone : ∀ i, SGone s l i → (s'.dyn.be i).disabled = true
  inBal : ∀ w i, InBal s'.dyn.bals w i ↔ InBal s.dyn.bals w i ∧ ¬ SGone s l i
  next : s'.dyn.next = s.dyn.next
  held : s'.dyn.held = s.dyn.held
  jobs : s'.dyn.jobs = s.dyn.jobs
  late : s'.dyn.late = s.dyn.late
  sess : ∀ e, e ∈ s'.dyn.sess ↔ e ∈ s.dyn.sess ∧ ¬ SGone s l e.2
  parent : ∀ i < s.dyn.next, (s'.dyn.be i).parent = (s.dyn.be i).parent

theorem sswept_nil {k : Nat} {s : SrvSt} (h : SInv s) : SSwept k [] s s := by
  have ng : ∀ i, ¬ SGone s [] i := fun i ⟨m, hm, _⟩ => by cases hm
  refine ⟨h, rfl, rfl, rfl, rfl, fun _ => ⟨rfl, rfl, rfl, fun _ => rfl⟩, ?_, fun _ _ => rfl, ?_, ?_, fun _ _ => rfl, fun i x => absurd x (ng i), ?_, rfl, rfl, rfl, rfl, ?_, fun _ _ => rfl⟩
  · intro m; simp
  · intro m hm; cases hm
  · intro m; simp
  · intro w i; simp [ng i]
  · intro e; simp [ng e.2]

theorem sswept_one {k m : Nat} {s : SrvSt} (h : SInv s) (hm : m ∈ (s.srv k).tab) : ∃ s', srvSweepOne k m s = .ok s' ∧ SSwept k [m] s s' := by
  unfold srvSweepOne
  cases hk : s.mark m with
  | false =>
    have ng : ∀ i, ¬ SGone s [m] i := by
      rintro i ⟨m', hm', x, -⟩
      rw [List.mem_singleton.mp hm', hk] at x
      cases x
    have nm : ∀ m', ¬ (m' ∈ [m] ∧ s.mark m' = true) := by
      rintro m' ⟨hm', x⟩
      rw [List.mem_singleton.mp hm', hk] at x
      cases x
    refine ⟨s, if_pos rfl, h, rfl, rfl, rfl, rfl, fun _ => ⟨rfl, rfl, rfl, fun _ => rfl⟩, ?_, fun _ _ => rfl, fun m' x y => absurd ⟨x, y⟩ (nm m'), ?_, fun _ _ => rfl, fun i x => absurd x (ng i), ?_, rfl, rfl, rfl, rfl, ?_, fun _ _ => rfl⟩
    · intro m'; simp only [nm m', not_false_eq_true, and_true]
    · intro m'
      constructor
      · exact fun x => ⟨x, fun y => nm m' ⟨y, x⟩⟩
      · exact fun x => x.1
    · intro w i; simp [ng i]
    · intro e; simp [ng e.2]
  | true =>
    rw [if_neg (fun x => by cases x)]
    dsimp only
    obtain ⟨d, hd, D⟩ := disabled_step h.good m
    rw [hd]
    have mi : ∀ m', (m' ∈ [m] ∧ s.mark m' = true) ↔ m' = m := by
      intro m'
      rw [List.mem_singleton]
      constructor
      · exact fun x => x.1
      · rintro rfl; exact ⟨rfl, hk⟩
    have gi : ∀ i, SGone s [m] i ↔ i ∈ (s.dyn.mtx m).tab := by
      intro i
      constructor
      · rintro ⟨m', hm', -, x⟩
        rw [List.mem_singleton.mp hm'] at x
        exact x
      · exact fun x => ⟨m, List.mem_singleton.mpr rfl, hk, x⟩
    have hp := (h.tab k m).mp hm
    have et : ∀ m', m' ∈ (s.srv k).tab.erase m ↔ m' ≠ m ∧ m' ∈ (s.srv k).tab := fun m' => (h.nodup k).mem_erase_iff
    have srvT : ∀ j m', m' ∈ (if j = k then { s.srv k with tab := (s.srv k).tab.erase m } else s.srv j : SrvMtx).tab ↔ m' ∈ (s.srv j).tab ∧ m' ≠ m := by
      intro j m'
      split
      · rename_i e; subst e
        dsimp only
        rw [et, and_comm]
      · rename_i e
        constructor
        · intro x
          refine ⟨x, fun y => ?_⟩
          subst y
          have := ((h.tab j m').mp x).1
          rw [hp.1] at this
          cases this
          exact e rfl
        · exact fun x => x.1
    have sf : (d.mtx m).disabled = true ∧ (d.mtx m).tab = [] ∧ (d.mtx m).first = (s.dyn.mtx m).first := by rw [D.self]; exact ⟨rfl, rfl, rfl⟩
    refine ⟨_, rfl, ⟨reach_step h.reach hd, ?_, ?_, ?_, ?_, ?_, ?_, ?_⟩, rfl, rfl, rfl, rfl, ?_, ?_, ?_, ?_, ?_, ?_, ?_, ?_, D.next, D.held, D.jobs, D.late, ?_, D.parent⟩
    · intro k' m'
      refine (srvT k' m').trans ?_
      show _ ↔ (s.sub m').parent = some k' ∧ (d.mtx m').disabled = false
      rw [h.tab k' m']
      by_cases e : m' = m
      · subst e
        constructor
        · exact fun x => absurd rfl x.2
        · rintro ⟨-, x⟩; rw [sf.1] at x; cases x
      · rw [D.mtx m' e]
        exact ⟨fun x => x.1, fun x => ⟨x, e⟩⟩
    · intro k'
      show (if k' = k then { s.srv k with tab := (s.srv k).tab.erase m } else s.srv k' : SrvMtx).tab.Nodup
      split
      · exact (h.nodup k).erase m
      · exact h.nodup k'
    · intro k' m1 m2 h1 h2
      exact h.uniq k' m1 m2 ((srvT k' m1).mp h1).1 ((srvT k' m2).mp h2).1
    · intro m' hm'
      refine ⟨?_, (h.fresh m' hm').2⟩
      show (d.mtx m').tab = []
      by_cases e : m' = m
      · subst e; exact sf.2.1
      · rw [D.mtx m' e]; exact (h.fresh m' hm').1
    · intro m' k' hp' hdis
      show (d.mtx m').tab = []
      by_cases e : m' = m
      · subst e; exact sf.2.1
      · have hdis' : (d.mtx m').disabled = true := hdis
        rw [D.mtx m' e] at hdis' ⊢
        exact h.off m' k' hp' hdis'
    · intro m' k' hp'
      show (d.mtx m').first = false
      by_cases e : m' = m
      · subst e; rw [sf.2.2]; exact h.all m' k' hp'
      · rw [D.mtx m' e]; exact h.all m' k' hp'
    · intro m' i hi
      have hi' : i ∈ (d.mtx m').tab := hi
      by_cases e : m' = m
      · subst e; rw [sf.2.1] at hi'; cases hi'
      · rw [D.mtx m' e] at hi'; exact h.vals m' i hi'
    · intro j
      show (if j = k then _ else s.srv j : SrvMtx).ignore = _ ∧ (if j = k then _ else s.srv j : SrvMtx).prio = _ ∧ (if j = k then _ else s.srv j : SrvMtx).disabled = _ ∧
        (j ≠ k → (if j = k then _ else s.srv j : SrvMtx) = _)
      split
      · rename_i e; subst e; exact ⟨rfl, rfl, rfl, fun x => absurd rfl x⟩
      · exact ⟨rfl, rfl, rfl, fun _ => rfl⟩
    · intro m'
      refine (srvT k m').trans ?_
      rw [mi]
    · intro m' hx
      exact D.mtx m' (fun e => hx ((mi m').mpr e))
    · intro m' hx hy
      have e := (mi m').mp ⟨hx, hy⟩
      subst e
      exact D.self
    · intro m'
      show (if m' = m then false else s.mark m') = true ↔ _
      rw [List.mem_singleton]
      split
      · rename_i e; simp [e]
      · rename_i e; simp [e]
    · intro i hi
      exact D.be i (fun x => hi ((gi i).mpr x))
    · intro i hi
      exact D.gone i ((gi i).mp hi)
    · intro w i
      rw [gi]
      exact D.inBal w i
    · intro e
      rw [gi]
      exact D.sess e

theorem sswept_trans {k m : Nat} {l : List Nat} {s s1 s2 : SrvSt} (hn : m ∉ l) (a : SSwept k [m] s s1) (b : SSwept k l s1 s2) : SSwept k (m :: l) s s2 := by
  have mk1 : ∀ x ∈ l, s1.mark x = s.mark x := by
    intro x hx
    have := a.mark x
    have hne : x ∉ [m] := fun y => hn (by rw [← List.mem_singleton.mp y]; exact hx)
    exact Bool.eq_iff_iff.mpr ⟨fun y => (this.mp y).1, fun y => this.mpr ⟨y, hne⟩⟩
  have mt1 : ∀ x ∈ l, s1.dyn.mtx x = s.dyn.mtx x := fun x hx => a.mtx x (fun y => hn (by rw [← List.mem_singleton.mp y.1]; exact hx))
  have g : ∀ i, SGone s (m :: l) i ↔ SGone s [m] i ∨ SGone s1 l i := by
    intro i
    constructor
    · rintro ⟨x, hx, h1, h2⟩
      rcases List.mem_cons.mp hx with e | e
      · exact Or.inl ⟨x, by rw [e]; exact List.mem_singleton.mpr rfl, h1, h2⟩
      · exact Or.inr ⟨x, e, by rw [mk1 x e]; exact h1, by rw [mt1 x e]; exact h2⟩
    · rintro (⟨x, hx, h1, h2⟩ | ⟨x, hx, h1, h2⟩)
      · exact ⟨x, by rw [List.mem_singleton.mp hx]; exact List.mem_cons_self, h1, h2⟩
      · exact ⟨x, List.mem_cons_of_mem _ hx, by rw [← mk1 x hx]; exact h1, by rw [← mt1 x hx]; exact h2⟩
  have c : ∀ x, (x ∈ m :: l ∧ s.mark x = true) ↔ (x ∈ [m] ∧ s.mark x = true) ∨ (x ∈ l ∧ s1.mark x = true) := by
    intro x
    constructor
    · rintro ⟨h1, h2⟩
      rcases List.mem_cons.mp h1 with e | e
      · exact Or.inl ⟨by rw [e]; exact List.mem_singleton.mpr rfl, h2⟩
      · exact Or.inr ⟨e, by rw [mk1 x e]; exact h2⟩
    · rintro (⟨h1, h2⟩ | ⟨h1, h2⟩)
      · exact ⟨by rw [List.mem_singleton.mp h1]; exact List.mem_cons_self, h2⟩
      · exact ⟨List.mem_cons_of_mem _ h1, by rw [← mk1 x h1]; exact h2⟩
  refine ⟨b.inv, b.nextM.trans a.nextM, b.sub.trans a.sub, b.bePrio.trans a.bePrio, b.bePort.trans a.bePort, ?_, ?_, ?_, ?_, ?_, ?_, ?_, ?_, b.next.trans a.next, b.held.trans a.held, b.jobs.trans a.jobs, b.late.trans a.late, ?_, fun i hi => (b.parent i (by rw [a.next]; exact hi)).trans (a.parent i hi)⟩
  · exact fun j => ⟨(b.srv j).1.trans (a.srv j).1, (b.srv j).2.1.trans (a.srv j).2.1, (b.srv j).2.2.1.trans (a.srv j).2.2.1, fun x => ((b.srv j).2.2.2 x).trans ((a.srv j).2.2.2 x)⟩
  · intro x
    rw [b.tab, a.tab, c x, not_or, and_assoc]
  · intro x hx
    rw [c x, not_or] at hx
    exact (b.mtx x hx.2).trans (a.mtx x hx.1)
  · intro x hx hy
    rcases List.mem_cons.mp hx with e | e
    · subst e
      rw [b.mtx x (fun y => hn y.1)]
      exact a.self x (List.mem_singleton.mpr rfl) hy
    · rw [b.self x e (by rw [mk1 x e]; exact hy), mt1 x e]
  · intro x
    rw [b.mark, a.mark, List.mem_singleton, List.mem_cons, not_or, and_assoc]
  · intro i hi
    rw [g, not_or] at hi
    exact (b.be i hi.2).trans (a.be i hi.1)
  · intro i hi
    by_cases h2 : SGone s1 l i
    · exact b.gone i h2
    · rw [b.be i h2]
      exact a.gone i (((g i).mp hi).resolve_right h2)
  · intro w i
    rw [b.inBal, a.inBal, g, not_or, and_assoc]
  · intro e
    rw [b.sess, a.sess, g, not_or, and_assoc]

theorem sswept_all {k : Nat} : ∀ (l : List Nat) (s : SrvSt), SInv s → l.Nodup → (∀ m ∈ l, m ∈ (s.srv k).tab) → ∃ s', srvSweep k l s = .ok s' ∧ SSwept k l s s' := by
  intro l
  induction l with
  | nil => intro s h _ _; exact ⟨s, rfl, sswept_nil h⟩
  | cons m r ih =>
    intro s h hn hm
    have hn' := List.nodup_cons.mp hn
    obtain ⟨s1, e1, a1⟩ := sswept_one h (hm m List.mem_cons_self)
    obtain ⟨s2, e2, a2⟩ := ih s1 a1.inv hn'.2 (fun x hx => (a1.tab x).mpr ⟨hm x (List.mem_cons_of_mem _ hx), fun y => hn'.1 (by rw [← List.mem_singleton.mp y.1]; exact hx)⟩)
    refine ⟨s2, ?_, sswept_trans hn'.1 a1 a2⟩
    unfold srvSweep
    rw [e1]
    exact e2

/-- The record list names this matrix. -/
def Listed (s : SrvSt) (recs : List SrvRec) (m : Nat) : Prop := ∃ r ∈ recs, NamesTarget r (s.sub m).host (s.sub m).port

/-- What an update does -/
structure SUpdated (k : Nat) (recs : List SrvRec) (s s' : SrvSt) : Prop where
  inv : SInv s'
  nextM : s.nextM ≤ s'.nextM
  old : ∀ m < s.nextM, (s'.sub m).host = (s.sub m).host ∧ (s'.sub m).port = (s.sub m).port ∧ (s'.sub m).parent = (s.sub m).parent
  srv : ∀ j, (s'.srv j).ignore = (s.srv j).ignore ∧ (s'.srv j).prio = (s.srv j).prio ∧ (s'.srv j).disabled = (s.srv j).disabled ∧ (j ≠ k → s'.srv j = s.srv j)
  /-- the targets -/
  tab : ∀ m, m ∈ (s'.srv k).tab ↔ (m ∈ (s.srv k).tab ∨ s.nextM ≤ m ∧ m < s'.nextM) ∧ Listed s' recs m
  found : ∀ r ∈ recs, ∃ m ∈ (s'.srv k).tab, NamesTarget r (s'.sub m).host (s'.sub m).port
  /-- matrices of before -/
  kept : ∀ m < s.nextM, (m ∈ (s.srv k).tab → Listed s recs m) → s'.dyn.mtx m = s.dyn.mtx m
  out : ∀ m ∈ (s.srv k).tab, ¬ Listed s recs m → s'.dyn.mtx m = { s.dyn.mtx m with tab := [], disabled := true }
  /-- new ones -/
  new : ∀ m, s.nextM ≤ m → m < s'.nextM → (s'.sub m).parent = some k ∧ (s'.dyn.mtx m).disabled = false ∧ (s'.dyn.mtx m).tab = [] ∧
    ∃ r ∈ recs, NamesTarget r (s'.sub m).host (s'.sub m).port ∧ (s'.dyn.mtx m).weight = r.prio
  prio : ∀ m ∈ (s'.srv k).tab, ∃ p ∈ srvPairs recs (srvStats recs), NamesTarget p.2 (s'.sub m).host (s'.sub m).port ∧ (s'.sub m).prio = srvPrio (s.srv k) p.1 p.2
  prioF : ∀ m < s.nextM, m ∉ (s.srv k).tab → (s'.sub m).prio = (s.sub m).prio
  port : s'.bePort = s.bePort
  bePrio : ∀ i, (∀ m ∈ (s.srv k).tab, i ∉ (s.dyn.mtx m).tab) → s'.bePrio i = s.bePrio i
  be : ∀ i, (∀ m ∈ (s.srv k).tab, i ∈ (s.dyn.mtx m).tab → Listed s recs m) → s'.dyn.be i = s.dyn.be i
  inBal : ∀ w i, InBal s'.dyn.bals w i ↔ InBal s.dyn.bals w i ∧ ∀ m ∈ (s.srv k).tab, i ∈ (s.dyn.mtx m).tab → Listed s recs m
  sess : ∀ e, e ∈ s'.dyn.sess ↔ e ∈ s.dyn.sess ∧ ∀ m ∈ (s.srv k).tab, e.2 ∈ (s.dyn.mtx m).tab → Listed s recs m
  gone : ∀ m ∈ (s.srv k).tab, ¬ Listed s recs m → ∀ i ∈ (s.dyn.mtx m).tab, (s'.dyn.be i).disabled = true
  next : s'.dyn.next = s.dyn.next
  held : s'.dyn.held = s.dyn.held
  jobs : s'.dyn.jobs = s.dyn.jobs
  late : s'.dyn.late = s.dyn.late
  parent : ∀ i < s.dyn.next, (s'.dyn.be i).parent = (s.dyn.be i).parent

theorem supdated {k : Nat} {recs : List SrvRec} {s : SrvSt} (h : SInv s) (hd : (s.srv k).disabled = false) : ∃ s', srvUpdate k recs s = .ok s' ∧ SUpdated k recs s s' := by
  unfold srvUpdate
  rw [hd, if_neg (by decide), srvGroups_fold]
  have h0 : SInv (srvMarkAll (s.srv k).tab s) := sinv_mark h _
  obtain ⟨s1, e1, a⟩ := sadded_all (k := k) (srvPairs recs (srvStats recs)) _ h0
  obtain ⟨s2, e2, b⟩ := sswept_all (k := k) (s1.srv k).tab s1 a.inv (a.inv.nodup k) (fun _ x => x)
  rw [e1]
  refine ⟨s2, e2, ?_⟩
  have pr : ∀ r, r ∈ recs ↔ ∃ p ∈ srvPairs recs (srvStats recs), p.2 = r := by
    intro r
    rw [← List.mem_map, srvPairs_recs]
  have li : ∀ (x : SrvSt) m, (∃ p ∈ srvPairs recs (srvStats recs), NamesTarget p.2 (x.sub m).host (x.sub m).port) ↔ Listed x recs m := by
    intro x m
    constructor
    · rintro ⟨p, hp, hn⟩
      exact ⟨p.2, (pr _).mpr ⟨p, hp, rfl⟩, hn⟩
    · rintro ⟨r, hr, hn⟩
      obtain ⟨p, hp, rfl⟩ := (pr r).mp hr
      exact ⟨p, hp, hn⟩
  have T1 : ∀ m, m ∈ (s1.srv k).tab ↔ m ∈ (s.srv k).tab ∨ s.nextM ≤ m ∧ m < s1.nextM := fun m => SAdded.tab h0 a m
  have lt0 : ∀ {m}, m ∈ (s.srv k).tab → m < s.nextM := fun hm => h.lt ((h.tab _ _).mp hm).1
  have old1 : ∀ m, m < s.nextM → s1.dyn.mtx m = s.dyn.mtx m ∧ (s1.sub m).host = (s.sub m).host ∧ (s1.sub m).port = (s.sub m).port ∧ (s1.sub m).parent = (s.sub m).parent := a.old
  have L1 : ∀ m, m < s.nextM → (Listed s1 recs m ↔ Listed s recs m) := by
    intro m hm
    unfold Listed
    rw [(old1 m hm).2.1, (old1 m hm).2.2.1]
  have mk : ∀ m ∈ (s1.srv k).tab, (s1.mark m = true ↔ m ∈ (s.srv k).tab ∧ ¬ Listed s recs m) := by
    intro m hm
    by_cases hl : Listed s1 recs m
    · rw [a.markT m hm ((li s1 m).mpr hl)]
      constructor
      · intro x; cases x
      · rintro ⟨x, y⟩
        exact absurd ((L1 m (lt0 x)).mp hl) y
    · rw [a.markF m (fun x => hl ((li s1 m).mp x.2))]
      show (if m ∈ (s.srv k).tab then true else s.mark m) = true ↔ _
      rcases (T1 m).mp hm with x | x
      · rw [if_pos x]
        exact ⟨fun _ => ⟨x, fun y => hl ((L1 m (lt0 x)).mpr y)⟩, fun _ => rfl⟩
      · obtain ⟨-, -, -, p, hp, hn, -⟩ := a.new m x.1 x.2
        exact absurd ((li s1 m).mp ⟨p, hp, hn⟩) hl
  have mk' : ∀ m, (m ∈ (s1.srv k).tab ∧ s1.mark m = true) ↔ m ∈ (s.srv k).tab ∧ ¬ Listed s recs m := by
    intro m
    constructor
    · rintro ⟨x, y⟩; exact (mk m x).mp y
    · intro x
      have hm : m ∈ (s1.srv k).tab := (T1 m).mpr (Or.inl x.1)
      exact ⟨hm, (mk m hm).mpr x⟩
  have G : ∀ i, ¬ SGone s1 (s1.srv k).tab i ↔ ∀ m ∈ (s.srv k).tab, i ∈ (s.dyn.mtx m).tab → Listed s recs m := by
    intro i
    constructor
    · intro x m hm hi
      refine Classical.byContradiction fun hl => x ?_
      have := (mk' m).mpr ⟨hm, hl⟩
      exact ⟨m, this.1, this.2, by rw [(old1 m (lt0 hm)).1]; exact hi⟩
    · rintro x ⟨m, h1, h2, h3⟩
      have := (mk' m).mp ⟨h1, h2⟩
      rw [(old1 m (lt0 this.1)).1] at h3
      exact this.2 (x m this.1 h3)
  have dyn1 : s1.dyn = { s.dyn with mtx := s1.dyn.mtx } := a.dyn
  have be1 : s1.dyn.be = s.dyn.be := by rw [dyn1]
  have bals1 : s1.dyn.bals = s.dyn.bals := by rw [dyn1]
  have sess1 : s1.dyn.sess = s.dyn.sess := by rw [dyn1]
  refine ⟨b.inv, ?_, ?_, ?_, ?_, ?_, ?_, ?_, ?_, ?_, ?_, ?_, ?_, ?_, ?_, ?_, ?_, ?_, ?_, ?_, ?_, ?_⟩
  · rw [b.nextM]; exact a.nextM
  · intro m hm
    rw [b.sub]
    exact (old1 m hm).2
  · exact fun j => ⟨(b.srv j).1.trans (a.srv j).1, (b.srv j).2.1.trans (a.srv j).2.1, (b.srv j).2.2.1.trans (a.srv j).2.2.1, fun x => ((b.srv j).2.2.2 x).trans ((a.srv j).2.2.2 x)⟩
  · intro m
    rw [b.tab, mk', T1, b.nextM]
    have e : Listed s2 recs m ↔ Listed s1 recs m := by unfold Listed; rw [b.sub]
    rw [e]
    constructor
    · rintro ⟨x, y⟩
      refine ⟨x, ?_⟩
      rcases x with x | x
      · exact (L1 m (lt0 x)).mpr (Classical.byContradiction fun z => y ⟨x, z⟩)
      · obtain ⟨-, -, -, p, hp, hn, -⟩ := a.new m x.1 x.2
        exact (li s1 m).mp ⟨p, hp, hn⟩
    · rintro ⟨x, y⟩
      exact ⟨x, fun z => z.2 ((L1 m (lt0 z.1)).mp y)⟩
  · intro r hr
    obtain ⟨p, hp, rfl⟩ := (pr r).mp hr
    obtain ⟨m, hm, hn⟩ := a.found p hp
    refine ⟨m, (b.tab m).mpr ⟨hm, fun x => ?_⟩, by rw [b.sub]; exact hn⟩
    have := (mk' m).mp x
    exact this.2 ((L1 m (lt0 this.1)).mp ((li s1 m).mp ⟨p, hp, hn⟩))
  · intro m hm hl
    rw [b.mtx m (fun x => ((mk' m).mp x).2 (hl ((mk' m).mp x).1))]
    exact (old1 m hm).1
  · intro m hm hl
    have := (mk' m).mpr ⟨hm, hl⟩
    rw [b.self m this.1 this.2, (old1 m (lt0 hm)).1]
  · intro m h1 h2
    rw [b.nextM] at h2
    obtain ⟨n1, n2, n3, p, hp, n4, n5⟩ := a.new m h1 h2
    have e : s2.dyn.mtx m = s1.dyn.mtx m := b.mtx m (fun x => by
      have hlt := lt0 ((mk' m).mp x).1
      have h1' : s.nextM ≤ m := h1
      omega)
    rw [e, b.sub]
    exact ⟨n1, n2, n3, p.2, (pr _).mpr ⟨p, hp, rfl⟩, n4, n5⟩
  · intro m hm
    have hm' := (b.tab m).mp hm
    rw [b.sub]
    have hl : Listed s1 recs m := by
      rcases (T1 m).mp hm'.1 with x | x
      · exact (L1 m (lt0 x)).mpr (Classical.byContradiction fun z => hm'.2 ((mk' m).mpr ⟨x, z⟩))
      · obtain ⟨-, -, -, p, hp, hn, -⟩ := a.new m x.1 x.2
        exact (li s1 m).mp ⟨p, hp, hn⟩
    exact a.prioT m hm'.1 ((li s1 m).mpr hl)
  · intro m hm hn
    rw [b.sub]
    refine a.prioF m hm fun x => ?_
    rcases (T1 m).mp x.1 with y | y
    · exact hn y
    · omega
  · rw [b.bePort]; exact a.port
  · intro i hi
    rw [b.bePrio]
    exact a.bePrio i hi
  · intro i hi
    rw [b.be i ((G i).mpr hi), be1]
  · intro w i
    rw [b.inBal, G, bals1]
  · intro e
    rw [b.sess, G, sess1]
  · intro m hm hl i hi
    refine b.gone i ?_
    have := (mk' m).mpr ⟨hm, hl⟩
    exact ⟨m, this.1, this.2, by rw [(old1 m (lt0 hm)).1]; exact hi⟩
  · rw [b.next, dyn1]
  · rw [b.held, dyn1]
  · rw [b.jobs, dyn1]
  · rw [b.late, dyn1]
  · intro i hi
    rw [b.parent i (by rw [dyn1]; exact hi), be1]

/-- Disabling -/
theorem sdisabled {k : Nat} {s : SrvSt} (h : SInv s) : ∃ s' s1, srvDisable k s = .ok s' ∧ SSwept k (s.srv k).tab (srvMarkAll (s.srv k).tab s) s1 ∧
    s' = { s1 with srv := fun j => if j = k then { s1.srv k with disabled := true } else s1.srv j } ∧ SInv s' := by
  have h0 : SInv (srvMarkAll (s.srv k).tab s) := sinv_mark h _
  obtain ⟨s1, e1, a⟩ := sswept_all (k := k) (s.srv k).tab _ h0 (h.nodup k) (fun _ x => x)
  refine ⟨_, s1, ?_, a, rfl, ?_⟩
  · unfold srvDisable
    rw [e1]
  · have t : ∀ j, (if j = k then { s1.srv k with disabled := true } else s1.srv j : SrvMtx).tab = (s1.srv j).tab := by
      intro j
      split
      · rename_i e; rw [e]
      · rfl
    refine ⟨a.inv.reach, ?_, ?_, ?_, a.inv.fresh, a.inv.off, a.inv.all, a.inv.vals⟩
    · intro k' m
      dsimp only
      rw [t]
      exact a.inv.tab k' m
    · intro k'
      dsimp only
      rw [t]
      exact a.inv.nodup k'
    · intro k' m m'
      dsimp only
      rw [t]
      exact a.inv.uniq k' m m'

/-- The flag of a backend with `Resolve srv` -/
theorem sinv_flag {k : Nat} {s : SrvSt} (h : SInv s) (v : Bool) : SInv { s with srv := fun j => if j = k then { s.srv k with disabled := v } else s.srv j } := by
  have t : ∀ j, (if j = k then { s.srv k with disabled := v } else s.srv j : SrvMtx).tab = (s.srv j).tab := by
    intro j
    split
    · rename_i e; rw [e]
    · rfl
  refine ⟨h.reach, ?_, ?_, ?_, h.fresh, h.off, h.all, h.vals⟩
  · intro k' m
    dsimp only
    rw [t]
    exact h.tab k' m
  · intro k'
    dsimp only
    rw [t]
    exact h.nodup k'
  · intro k' m m'
    dsimp only
    rw [t]
    exact h.uniq k' m m'

theorem sinv_step {s s' : SrvSt} (h : SInv s) {o : SrvOp} (e : srvStep s o = .ok s') : SInv s' := by
  cases o with
  | srvUpdate k recs =>
    have e' : srvUpdate k recs s = .ok s' := e
    cases hd : (s.srv k).disabled with
    | true =>
      unfold srvUpdate at e'
      rw [hd, if_pos rfl] at e'
      cases e'; exact h
    | false =>
      obtain ⟨s1, e1, u⟩ := supdated (k := k) (recs := recs) h hd
      rw [e1] at e'; cases e'
      exact u.inv
  | srvNoAnswer k => cases e; exact h
  | srvDisable k =>
    obtain ⟨s1, s2, e1, -, -, u⟩ := sdisabled (k := k) h
    have e' : srvDisable k s = .ok s' := e
    rw [e1] at e'; cases e'
    exact u
  | srvEnable k recs =>
    have e' : srvEnable k recs s = .ok s' := e
    unfold srvEnable at e'
    split at e'
    · obtain ⟨s1, e1, u⟩ := supdated (k := k) (recs := recs) (sinv_flag (k := k) h false) (by dsimp only; rw [if_pos rfl])
      rw [e1] at e'; cases e'
      exact u.inv
    · cases e'; exact h
  | dyn o => exact (sinv_dyn h e).1

theorem srvRun_cons {s s' : SrvSt} {o : SrvOp} {r : List SrvOp} : srvRun s (o :: r) = .ok s' ↔ ∃ s1, srvStep s o = .ok s1 ∧ srvRun s1 r = .ok s' := by
  show (match srvStep s o with | .ok s' => srvRun s' r | .ub => .ub | .abort => .abort) = _ ↔ _
  cases srvStep s o with
  | ok s1 =>
    constructor
    · exact fun x => ⟨s1, rfl, x⟩
    · rintro ⟨s2, h1, h2⟩; cases h1; exact h2
  | ub =>
    constructor
    · intro x; cases x
    · rintro ⟨s2, h1, h2⟩; cases h1
  | abort =>
    constructor
    · intro x; cases x
    · rintro ⟨s2, h1, h2⟩; cases h1

theorem sinv_run {ops : List SrvOp} : ∀ {s s' : SrvSt}, SInv s → srvRun s ops = .ok s' → SInv s' := by
  induction ops with
  | nil => intro s s' h e; cases e; exact h
  | cons o r ih =>
    intro s s' h e
    obtain ⟨s1, e1, e2⟩ := srvRun_cons.mp e
    exact ih (sinv_step h e1) e2

theorem sinv_configured {s : SrvSt} (h : SrvConfigured s) : SInv s := by
  refine ⟨⟨s.dyn, [], h.dyn, rfl⟩, ?_, ?_, ?_, ?_, ?_, ?_, ?_⟩
  · intro k m
    rw [h.tables, (h.matrices m).1]
    constructor
    · intro x; cases x
    · rintro ⟨x, -⟩; cases x
  · intro k; rw [h.tables]; exact List.nodup_nil
  · intro k m m' hm; rw [h.tables] at hm; cases hm
  · intro m _; exact ⟨h.dyn.tables m, (h.matrices m).1⟩
  · intro m k hp; rw [(h.matrices m).1] at hp; cases hp
  · intro m k hp; rw [(h.matrices m).1] at hp; cases hp
  · intro m i hi; rw [h.dyn.tables] at hi; cases hi

theorem sinv_reach {s : SrvSt} (h : SrvReach s) : SInv s := by
  obtain ⟨s0, ops, h0, e⟩ := h
  exact sinv_run (sinv_configured h0) e

end Pound
