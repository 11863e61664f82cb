import Verif.Proof.Srv

/-!
The invariant of dynamic backends made out of SRV records is preserved.
-/

namespace Pound

open Spec

theorem dynRun_snoc {s0 s s' : DynSt} {ops : List DynOp} {o : DynOp} (h : dynRun s0 ops = .ok s) (e : dynStep s o = .ok s') : dynRun s0 (ops ++ [o]) = .ok s' := by
  induction ops generalizing s0 with
  | nil =>
    cases h
    show (match dynStep s o with | .ok s' => dynRun s' [] | .ub => .ub | .abort => .abort) = _
    rw [e]; rfl
  | cons a r ih =>
    have h' : (match dynStep s0 a with | .ok s' => dynRun s' r | .ub => .ub | .abort => .abort) = .ok s := h
    show (match dynStep s0 a with | .ok s' => dynRun s' (r ++ [o]) | .ub => .ub | .abort => .abort) = _
    cases ha : dynStep s0 a with
    | ok s1 => rw [ha] at h'; exact ih h'
    | ub => rw [ha] at h'; cases h'
    | abort => rw [ha] at h'; cases h'

theorem reach_step {s s' : DynSt} {o : DynOp} (h : DynReach s) (e : dynStep s o = .ok s') : DynReach s' := by
  obtain ⟨s0, ops, h0, h1⟩ := h
  exact ⟨s0, ops ++ [o], h0, dynRun_snoc h1 e⟩

/-- What steps do to matrices -/
structure MtxStep (o : DynOp) (s s' : DynSt) : Prop where
  kept : ∀ k, (s'.mtx k).weight = (s.mtx k).weight ∧ (s'.mtx k).first = (s.mtx k).first
  other : ∀ k, dynOpMtx o ≠ some k → s'.mtx k = s.mtx k
  flag : ∀ k, (∀ ans, o ≠ .enable k ans) → o ≠ .disable k → (s'.mtx k).disabled = (s.mtx k).disabled
  off : ∀ k, (∀ ans, o ≠ .enable k ans) → (s.mtx k).disabled = true → (s.mtx k).tab = [] → (s'.mtx k).tab = []

theorem mtxStep_same {o : DynOp} {s s' : DynSt} (h : s'.mtx = s.mtx) : MtxStep o s s' := by
  refine ⟨fun k => ?_, fun k _ => ?_, fun k _ _ => ?_, fun k _ _ x => ?_⟩ <;> rw [h]
  · exact ⟨rfl, rfl⟩
  · exact x

theorem update_mtx {s s' : DynSt} (h : DGood s) {m : Nat} {ans : List Bytes} (e : dynUpdate m ans s = .ok s') :
    (∀ k, (s'.mtx k).weight = (s.mtx k).weight ∧ (s'.mtx k).first = (s.mtx k).first ∧ (s'.mtx k).disabled = (s.mtx k).disabled ∧ (k ≠ m → s'.mtx k = s.mtx k)) ∧
    ((s.mtx m).disabled = true → s'.mtx = s.mtx) := by
  cases hd : (s.mtx m).disabled with
  | false =>
    refine ⟨(step_update h hd e).mtx, fun x => by cases x⟩
  | true =>
    unfold dynUpdate at e
    dsimp only at e
    rw [hd, if_pos rfl] at e
    cases e
    exact ⟨fun k => ⟨rfl, rfl, rfl, fun _ => rfl⟩, fun _ => rfl⟩

theorem mtx_step {s s' : DynSt} (h : DGood s) {o : DynOp} (e : dynStep s o = .ok s') (hn : ∀ m w, o ≠ .newMtx m w) : MtxStep o s s' := by
  cases o with
  | update m ans =>
    have u := update_mtx h e
    refine ⟨fun k => ⟨(u.1 k).1, (u.1 k).2.1⟩, fun k hk => (u.1 k).2.2.2 (fun x => hk (by rw [x]; rfl)), fun k _ _ => (u.1 k).2.2.1, fun k _ hd ht => ?_⟩
    by_cases hk : k = m
    · subst hk; rw [u.2 hd]; exact ht
    · rw [(u.1 k).2.2.2 hk]; exact ht
  | noAnswer m => cases e; exact mtxStep_same rfl
  | disable m =>
    obtain ⟨s1, hs, e1⟩ := disable_core h m
    have e' : dynDisable m s = .ok s' := e
    rw [e1] at e'
    cases e'
    have tm : ∀ k, (setMtx s1.mtx m { s1.mtx m with disabled := true } k) = if k = m then { s1.mtx m with disabled := true } else s1.mtx k := fun k => rfl
    refine ⟨fun k => ?_, fun k hk => ?_, fun k _ hk => ?_, fun k _ hd ht => ?_⟩
    · dsimp only
      rw [tm]
      split
      · rename_i e; subst e; exact ⟨(hs.mtx k).1, (hs.mtx k).2.1⟩
      · exact ⟨(hs.mtx k).1, (hs.mtx k).2.1⟩
    · dsimp only
      have : k ≠ m := fun x => hk (by rw [x]; rfl)
      rw [tm, if_neg this]
      exact (hs.mtx k).2.2.2 this
    · dsimp only
      have : k ≠ m := fun x => hk (by rw [x])
      rw [tm, if_neg this, (hs.mtx k).2.2.2 this]
    · dsimp only
      rw [tm]
      split
      · rename_i e; subst e
        show (s1.mtx k).tab = []
        refine List.eq_nil_iff_forall_not_mem.mpr fun j hj => ?_
        have := ((hs.tab j).mp hj).1
        have : j ∈ (s.mtx k).tab := this
        rw [ht] at this; cases this
      · rename_i e
        rw [(hs.mtx k).2.2.2 e]; exact ht
  | enable m ans =>
    have e' : dynEnable m ans s = .ok s' := e
    unfold dynEnable at e'
    split at e'
    · have g := (next_mtx h (setMtx_flag s.mtx m false)).good
      have u := update_mtx g e'
      have tm : ∀ k, (setMtx s.mtx m { s.mtx m with disabled := false } k) = if k = m then { s.mtx m with disabled := false } else s.mtx k := fun k => rfl
      refine ⟨fun k => ?_, fun k hk => ?_, fun k hk _ => ?_, fun k hk hd ht => ?_⟩
      · have := u.1 k
        dsimp only at this
        rw [tm] at this
        split at this
        · rename_i e; subst e; exact ⟨this.1, this.2.1⟩
        · exact ⟨this.1, this.2.1⟩
      · have hkm : k ≠ m := fun x => hk (by rw [x]; rfl)
        have := (u.1 k).2.2.2 hkm
        dsimp only at this
        rw [tm, if_neg hkm] at this
        exact this
      · have hkm : k ≠ m := fun x => hk ans (by rw [x])
        have := (u.1 k).2.2.2 hkm
        dsimp only at this
        rw [tm, if_neg hkm] at this
        rw [this]
      · have hkm : k ≠ m := fun x => hk ans (by rw [x])
        have := (u.1 k).2.2.2 hkm
        dsimp only at this
        rw [tm, if_neg hkm] at this
        rw [this]; exact ht
    · cases e'; exact mtxStep_same rfl
  | remover => cases e; exact mtxStep_same rfl
  | take w i cur key =>
    have e' : dynTake w i cur key s = .ok s' := e
    unfold dynTake at e'
    repeat' split at e'
    all_goals first | (cases e'; exact mtxStep_same rfl) | cases e'
  | takeSess k =>
    have e' : dynTakeSess k s = .ok s' := e
    unfold dynTakeSess at e'
    repeat' split at e'
    all_goals first | (cases e'; exact mtxStep_same rfl) | cases e'
  | done i =>
    have e' : dynDone i s = .ok s' := e
    unfold dynDone at e'
    repeat' split at e'
    all_goals first | (cases e'; exact mtxStep_same rfl) | cases e'
  | respond k i =>
    have e' : dynRespond k i s = .ok s' := e
    unfold dynRespond at e'
    repeat' split at e'
    all_goals first | (cases e'; exact mtxStep_same rfl) | cases e'
  | kill i =>
    have e' : dynKill i s = .ok s' := e
    unfold dynKill at e'
    repeat' split at e'
    all_goals first | (cases e'; exact mtxStep_same rfl) | cases e'
  | touch i =>
    have e' : dynTouch i s = .ok s' := e
    unfold dynTouch at e'
    repeat' split at e'
    all_goals first | (cases e'; exact mtxStep_same rfl) | cases e'
  | expire k => cases e; exact mtxStep_same rfl
  | setDisabled i v =>
    unfold dynStep at e
    dsimp only at e
    split at e <;> cases e <;> exact mtxStep_same rfl
  | newMtx m w => exact absurd rfl (hn m w)

/-- The invariant, but for the marks -/
structure SInv (s : SrvSt) : Prop where
  reach : DynReach s.dyn
  tab : ∀ k m, m ∈ (s.srv k).tab ↔ (s.sub m).parent = some k ∧ (s.dyn.mtx m).disabled = false
  nodup : ∀ k, (s.srv k).tab.Nodup
  uniq : ∀ k m m', m ∈ (s.srv k).tab → m' ∈ (s.srv k).tab → ciEq (s.sub m).host (s.sub m').host = true → (s.sub m).port = (s.sub m').port → m = m'
  fresh : ∀ m, s.nextM ≤ m → (s.dyn.mtx m).tab = [] ∧ (s.sub m).parent = none
  off : ∀ m k, (s.sub m).parent = some k → (s.dyn.mtx m).disabled = true → (s.dyn.mtx m).tab = []
  all : ∀ m k, (s.sub m).parent = some k → (s.dyn.mtx m).first = false
  vals : ∀ m i, i ∈ (s.dyn.mtx m).tab → s.bePrio i = (s.sub m).prio ∧ s.bePort i = (s.sub m).port

theorem SInv.good {s : SrvSt} (h : SInv s) : DGood s.dyn := good_reach h.reach

theorem SInv.lt {s : SrvSt} (h : SInv s) {k m : Nat} (hm : (s.sub m).parent = some k) : m < s.nextM := by
  rcases Nat.lt_or_ge m s.nextM with x | x
  · exact x
  · rw [(h.fresh m x).2] at hm; cases hm

theorem sinv_mark {s : SrvSt} (h : SInv s) (mark : Nat → Bool) : SInv { s with mark := mark } :=
  ⟨h.reach, h.tab, h.nodup, h.uniq, h.fresh, h.off, h.all, h.vals⟩

theorem tab_disjoint {s : DynSt} (h : DGood s) {m m' i : Nat} (h1 : i ∈ (s.mtx m).tab) (h2 : i ∈ (s.mtx m').tab) : m = m' := by
  have e1 := (h.inv.tab m i h1).2.1
  have e2 := (h.inv.tab m' i h2).2.1
  rw [e1] at e2
  cases e2
  rfl

theorem ciEq_symm' {a b : Bytes} (h : ciEq a b = true) : ciEq b a = true := by
  unfold ciEq at h ⊢
  simpa using (by simpa using h : a.map toLower = b.map toLower).symm

theorem ciEq_trans' {a b c : Bytes} (h : ciEq a b = true) (h' : ciEq b c = true) : ciEq a c = true := by
  unfold ciEq at h h' ⊢
  simp only [beq_iff_eq] at h h' ⊢
  exact h.trans h'

/-- A step of Model/DynBe.lean -/
theorem sinv_dyn {s s' : SrvSt} (h : SInv s) {o : DynOp} (e : srvDyn o s = .ok s') : SInv s' ∧
    s'.nextM = s.nextM ∧ s'.sub = s.sub ∧ s'.mark = s.mark ∧ s'.srv = s.srv ∧ (∀ i < s.dyn.next, s'.bePrio i = s.bePrio i ∧ s'.bePort i = s.bePort i) ∧
    (srvAllowed s o = false → s' = s) ∧ (srvAllowed s o = true → dynStep s.dyn o = .ok s'.dyn) := by
  unfold srvDyn at e
  split at e
  · rename_i ha
    have hn : ∀ m w, o ≠ .newMtx m w := by
      intro m w x
      subst x
      cases ha
    -- the state before and what the step yields
    have key : ∀ d, dynStep s.dyn o = .ok d → ∀ (bp bt : Nat → Nat), (∀ i < s.dyn.next, bp i = s.bePrio i ∧ bt i = s.bePort i) →
        (∀ m, dynOpMtx o = some m → ∀ i, s.dyn.next ≤ i → bp i = (s.sub m).prio ∧ bt i = (s.sub m).port) →
        SInv { s with dyn := d, bePrio := bp, bePort := bt } := by
      intro d hd bp bt hlt hge
      have ms := mtx_step h.good hd hn
      have nx := next_step h.good hd
      have nflag : ∀ m k, (s.sub m).parent = some k → (∀ ans, o ≠ .enable m ans) ∧ o ≠ .disable m := by
        intro m k hp
        constructor
        · intro ans x; subst x
          unfold srvAllowed at ha
          dsimp only at ha
          rw [hp] at ha
          simp at ha
        · intro x; subst x
          unfold srvAllowed at ha
          dsimp only at ha
          rw [hp] at ha
          simp at ha
      refine ⟨reach_step h.reach hd, ?_, h.nodup, h.uniq, ?_, ?_, ?_, ?_⟩
      · intro k m
        constructor
        · intro x
          obtain ⟨p, q⟩ := (h.tab k m).mp x
          exact ⟨p, (ms.flag m (nflag m k p).1 (nflag m k p).2).trans q⟩
        · rintro ⟨p, q⟩
          exact (h.tab k m).mpr ⟨p, (ms.flag m (nflag m k p).1 (nflag m k p).2).symm.trans q⟩
      · intro m hm
        have hm' : s.nextM ≤ m := hm
        refine ⟨?_, (h.fresh m hm).2⟩
        show (d.mtx m).tab = []
        rw [ms.other m ?_]
        · exact (h.fresh m hm).1
        · intro x
          unfold dynOpMtx at x
          split at x <;> first | (cases x; unfold srvAllowed at ha; simp at ha; omega) | cases x
      · intro m k hp hdis
        have hdis' : (s.dyn.mtx m).disabled = true := (ms.flag m (nflag m k hp).1 (nflag m k hp).2).symm.trans hdis
        exact ms.off m (nflag m k hp).1 hdis' (h.off m k hp hdis')
      · intro m k hp
        exact (ms.kept m).2.trans (h.all m k hp)
      · intro m i hi
        rcases Nat.lt_or_ge i s.dyn.next with x | x
        · have := nx.tab m i x hi
          show bp i = _ ∧ bt i = _
          rw [(hlt i x).1, (hlt i x).2]
          exact h.vals m i this
        · by_cases ho : dynOpMtx o = some m
          · exact hge m ho i x
          · have hi' : i ∈ (d.mtx m).tab := hi
            rw [ms.other m ho] at hi'
            have := (h.good.inv.tab m i hi').1
            omega
    split at e
    · rename_i hno
      cases hd : dynStep s.dyn o with
      | ok d =>
        rw [hd] at e
        cases e
        exact ⟨key d hd s.bePrio s.bePort (fun _ _ => ⟨rfl, rfl⟩) (fun m x => by rw [hno] at x; cases x), rfl, rfl, rfl, rfl, fun _ _ => ⟨rfl, rfl⟩,
          fun x => (by rw [ha] at x; cases x), fun _ => rfl⟩
      | ub => rw [hd] at e; cases e
      | abort => rw [hd] at e; cases e
    · rename_i m hm
      cases hd : dynStep s.dyn o with
      | ok d =>
        rw [hd] at e
        cases e
        refine ⟨key d hd _ _ (fun i hi => ?_) (fun m' x i hi => ?_), rfl, rfl, rfl, rfl, fun i hi => ?_, fun x => (by rw [ha] at x; cases x), fun _ => rfl⟩
        · have : ¬ s.dyn.next ≤ i := by omega
          exact ⟨if_neg this, if_neg this⟩
        · rw [hm] at x; cases x
          exact ⟨if_pos hi, if_pos hi⟩
        · have : ¬ s.dyn.next ≤ i := by omega
          exact ⟨if_neg this, if_neg this⟩
      | ub => rw [hd] at e; cases e
      | abort => rw [hd] at e; cases e
  · rename_i ha
    cases e
    exact ⟨h, rfl, rfl, rfl, rfl, fun _ _ => ⟨rfl, rfl⟩, fun _ => rfl, fun x => absurd x ha⟩

/-! ### Records -/

/-- What processing records does -/
structure SAdded (k : Nat) (l : List (SrvStat × SrvRec)) (s s' : SrvSt) : Prop where
  inv : SInv s'
  nextM : s.nextM ≤ s'.nextM
  dyn : s'.dyn = { s.dyn with mtx := s'.dyn.mtx }
  old : ∀ m, m < s.nextM → s'.dyn.mtx m = s.dyn.mtx m ∧ (s'.sub m).host = (s.sub m).host ∧ (s'.sub m).port = (s.sub m).port ∧ (s'.sub m).parent = (s.sub m).parent
  new : ∀ m, s.nextM ≤ m → m < s'.nextM → (s'.sub m).parent = some k ∧ (s'.dyn.mtx m).disabled = false ∧ (s'.dyn.mtx m).tab = [] ∧
    ∃ p ∈ l, NamesTarget p.2 (s'.sub m).host (s'.sub m).port ∧ (s'.dyn.mtx m).weight = p.2.prio
  srv : ∀ j, (s'.srv j).ignore = (s.srv j).ignore ∧ (s'.srv j).prio = (s.srv j).prio ∧ (s'.srv j).disabled = (s.srv j).disabled ∧ (j ≠ k → s'.srv j = s.srv j)
  found : ∀ p ∈ l, ∃ m ∈ (s'.srv k).tab, NamesTarget p.2 (s'.sub m).host (s'.sub m).port
  markT : ∀ m ∈ (s'.srv k).tab, (∃ p ∈ l, NamesTarget p.2 (s'.sub m).host (s'.sub m).port) → s'.mark m = false
  markF : ∀ m, ¬ (m ∈ (s'.srv k).tab ∧ ∃ p ∈ l, NamesTarget p.2 (s'.sub m).host (s'.sub m).port) → s'.mark m = s.mark m
  prioT : ∀ m ∈ (s'.srv k).tab, (∃ p ∈ l, NamesTarget p.2 (s'.sub m).host (s'.sub m).port) →
    ∃ p ∈ l, NamesTarget p.2 (s'.sub m).host (s'.sub m).port ∧ (s'.sub m).prio = srvPrio (s.srv k) p.1 p.2
  prioF : ∀ m < s.nextM, ¬ (m ∈ (s'.srv k).tab ∧ ∃ p ∈ l, NamesTarget p.2 (s'.sub m).host (s'.sub m).port) → (s'.sub m).prio = (s.sub m).prio
  port : s'.bePort = s.bePort
  bePrio : ∀ i, (∀ m ∈ (s.srv k).tab, i ∉ (s.dyn.mtx m).tab) → s'.bePrio i = s.bePrio i

theorem SAdded.tab {k : Nat} {l : List (SrvStat × SrvRec)} {s s' : SrvSt} (h : SInv s) (a : SAdded k l s s') (m : Nat) :
    m ∈ (s'.srv k).tab ↔ m ∈ (s.srv k).tab ∨ s.nextM ≤ m ∧ m < s'.nextM := by
  rw [a.inv.tab, h.tab]
  rcases Nat.lt_or_ge m s.nextM with x | x
  · rw [(a.old m x).1, (a.old m x).2.2.2]
    constructor
    · exact Or.inl
    · rintro (y | y)
      · exact y
      · omega
  · constructor
    · rintro ⟨y, -⟩
      exact Or.inr ⟨x, a.inv.lt y⟩
    · rintro (⟨y, -⟩ | y)
      · rw [(h.fresh m x).2] at y; cases y
      · have := a.new m x y.2
        exact ⟨this.1, this.2.1⟩

theorem srvPrio_same {x y : SrvMtx} (h1 : x.ignore = y.ignore) (h2 : x.prio = y.prio) (st : SrvStat) (r : SrvRec) : srvPrio x st r = srvPrio y st r := by
  unfold srvPrio; rw [h1, h2]

theorem sadded_nil {k : Nat} {s : SrvSt} (h : SInv s) : SAdded k [] s s where
  inv := h
  nextM := Nat.le_refl _
  dyn := rfl
  old := fun _ _ => ⟨rfl, rfl, rfl, rfl⟩
  new := fun m h1 h2 => by omega
  srv := fun j => ⟨rfl, rfl, rfl, fun _ => rfl⟩
  found := fun p hp => by cases hp
  markT := fun m _ ⟨p, hp, _⟩ => by cases hp
  markF := fun _ _ => rfl
  prioT := fun m _ ⟨p, hp, _⟩ => by cases hp
  prioF := fun _ _ _ => rfl
  port := rfl
  bePrio := fun _ _ => rfl

theorem sadded_trans {k : Nat} {l l' : List (SrvStat × SrvRec)} {s s1 s2 : SrvSt} (h : SInv s) (a : SAdded k l s s1) (b : SAdded k l' s1 s2) : SAdded k (l ++ l') s s2 := by
  -- a matrix that is made later names a target that no earlier record names
  have fresh : ∀ m, s1.nextM ≤ m → m ∈ (s2.srv k).tab → ¬ ∃ p ∈ l, NamesTarget p.2 (s2.sub m).host (s2.sub m).port := by
    rintro m hm hmt ⟨p, hp, h1, h2⟩
    obtain ⟨m1, hm1, h3, h4⟩ := a.found p hp
    have l1 : m1 < s1.nextM := a.inv.lt ((a.inv.tab k m1).mp hm1).1
    have hm1' := (SAdded.tab a.inv b m1).mpr (Or.inl hm1)
    have e := b.inv.uniq k m m1 hmt hm1' (by rw [(b.old m1 l1).2.1]; exact ciEq_trans' h1 (ciEq_symm' h3)) (by rw [(b.old m1 l1).2.2.1, h2, h4])
    omega
  have names1 : ∀ m, m < s1.nextM → ∀ r, NamesTarget r (s2.sub m).host (s2.sub m).port ↔ NamesTarget r (s1.sub m).host (s1.sub m).port := by
    intro m hm r
    rw [(b.old m hm).2.1, (b.old m hm).2.2.1]
  have tab1 : ∀ m, m < s1.nextM → (m ∈ (s2.srv k).tab ↔ m ∈ (s1.srv k).tab) := by
    intro m hm
    rw [SAdded.tab a.inv b m]
    constructor
    · rintro (x | x)
      · exact x
      · omega
    · exact Or.inl
  have split' : ∀ {P : SrvStat × SrvRec → Prop}, (∃ p ∈ l ++ l', P p) ↔ (∃ p ∈ l, P p) ∨ ∃ p ∈ l', P p := by
    intro P
    simp only [List.mem_append, or_and_right, exists_or]
  have srv0 : ∀ j, (s2.srv j).ignore = (s.srv j).ignore ∧ (s2.srv j).prio = (s.srv j).prio ∧ (s2.srv j).disabled = (s.srv j).disabled ∧ (j ≠ k → s2.srv j = s.srv j) :=
    fun j => ⟨(b.srv j).1.trans (a.srv j).1, (b.srv j).2.1.trans (a.srv j).2.1, (b.srv j).2.2.1.trans (a.srv j).2.2.1, fun x => ((b.srv j).2.2.2 x).trans ((a.srv j).2.2.2 x)⟩
  have pr : ∀ st r, srvPrio (s1.srv k) st r = srvPrio (s.srv k) st r := fun st r => srvPrio_same (a.srv k).1 (a.srv k).2.1 st r
  refine ⟨b.inv, Nat.le_trans a.nextM b.nextM, ?_, ?_, ?_, srv0, ?_, ?_, ?_, ?_, ?_, b.port.trans a.port, ?_⟩
  · rw [b.dyn]
    rw [show s1.dyn = { s.dyn with mtx := s1.dyn.mtx } from a.dyn]
  · intro m hm
    have o1 := a.old m hm
    have o2 := b.old m (Nat.lt_of_lt_of_le hm a.nextM)
    exact ⟨o2.1.trans o1.1, o2.2.1.trans o1.2.1, o2.2.2.1.trans o1.2.2.1, o2.2.2.2.trans o1.2.2.2⟩
  · intro m hm hm2
    rcases Nat.lt_or_ge m s1.nextM with x | x
    · obtain ⟨n1, n2, n3, p, hp, n4, n5⟩ := a.new m hm x
      have o2 := b.old m x
      refine ⟨o2.2.2.2.trans n1, by rw [o2.1]; exact n2, by rw [o2.1]; exact n3, p, List.mem_append_left _ hp, (names1 m x _).mpr n4, by rw [o2.1]; exact n5⟩
    · obtain ⟨n1, n2, n3, p, hp, n4, n5⟩ := b.new m x hm2
      exact ⟨n1, n2, n3, p, List.mem_append_right _ hp, n4, n5⟩
  · intro p hp
    rcases List.mem_append.mp hp with x | x
    · obtain ⟨m, hm, hn⟩ := a.found p x
      have l1 : m < s1.nextM := a.inv.lt ((a.inv.tab k m).mp hm).1
      exact ⟨m, (tab1 m l1).mpr hm, (names1 m l1 _).mpr hn⟩
    · exact b.found p x
  · intro m hm hx
    by_cases hb : ∃ p ∈ l', NamesTarget p.2 (s2.sub m).host (s2.sub m).port
    · exact b.markT m hm hb
    · rw [b.markF m (fun y => hb y.2)]
      rcases split'.mp hx with ⟨p, hp, hn⟩ | y
      · rcases Nat.lt_or_ge m s1.nextM with z | z
        · exact a.markT m ((tab1 m z).mp hm) ⟨p, hp, (names1 m z _).mp hn⟩
        · exact absurd ⟨p, hp, hn⟩ (fresh m z hm)
      · exact absurd y hb
  · intro m hm
    rw [b.markF m (fun y => hm ⟨y.1, split'.mpr (Or.inr y.2)⟩)]
    rcases Nat.lt_or_ge m s1.nextM with z | z
    · refine a.markF m fun y => hm ⟨(tab1 m z).mpr y.1, split'.mpr (Or.inl ?_)⟩
      obtain ⟨p, hp, hn⟩ := y.2
      exact ⟨p, hp, (names1 m z _).mpr hn⟩
    · refine a.markF m fun y => ?_
      have := a.inv.lt ((a.inv.tab k m).mp y.1).1
      omega
  · intro m hm hx
    by_cases hb : ∃ p ∈ l', NamesTarget p.2 (s2.sub m).host (s2.sub m).port
    · obtain ⟨p, hp, hn, he⟩ := b.prioT m hm hb
      exact ⟨p, List.mem_append_right _ hp, hn, he.trans (pr _ _)⟩
    · rcases split'.mp hx with ⟨p, hp, hn⟩ | y
      · rcases Nat.lt_or_ge m s1.nextM with z | z
        · rw [b.prioF m z (fun y => hb y.2)]
          obtain ⟨p', hp', hn', he'⟩ := a.prioT m ((tab1 m z).mp hm) ⟨p, hp, (names1 m z _).mp hn⟩
          exact ⟨p', List.mem_append_left _ hp', (names1 m z _).mpr hn', he'⟩
        · exact absurd ⟨p, hp, hn⟩ (fresh m z hm)
      · exact absurd y hb
  · intro m hm hx
    have z := Nat.lt_of_lt_of_le hm a.nextM
    rw [b.prioF m z (fun y => hx ⟨y.1, split'.mpr (Or.inr y.2)⟩)]
    refine a.prioF m hm fun y => hx ⟨(tab1 m z).mpr y.1, split'.mpr (Or.inl ?_)⟩
    obtain ⟨p, hp, hn⟩ := y.2
    exact ⟨p, hp, (names1 m z _).mpr hn⟩
  · intro i hi
    rw [b.bePrio i ?_, a.bePrio i hi]
    intro m hm
    rcases Nat.lt_or_ge m s.nextM with x | x
    · rw [(a.old m x).1]
      rcases (SAdded.tab h a m).mp hm with y | y
      · exact hi m y
      · omega
    · have l1 : m < s1.nextM := a.inv.lt ((a.inv.tab k m).mp hm).1
      rw [(a.new m x l1).2.2.1]
      exact List.not_mem_nil

/-- One record -/
theorem sadded_one {k : Nat} {s : SrvSt} (h : SInv s) (st : SrvStat) (r : SrvRec) : ∃ s', srvOne k st s r = .ok s' ∧ SAdded k [(st, r)] s s' := by
  unfold srvOne
  dsimp only
  have one : ∀ {m : Nat} {sub : Nat → SrvSub}, (∃ p ∈ [(st, r)], NamesTarget p.2 (sub m).host (sub m).port) ↔ NamesTarget r (sub m).host (sub m).port := by
    intro m sub; simp
  cases hf : srvFind s (s.srv k).tab r.host r.port with
  | some m =>
    have hm : m ∈ (s.srv k).tab := List.mem_of_find?_eq_some hf
    have hn : NamesTarget r (s.sub m).host (s.sub m).port := by
      have := List.find?_some hf
      simp only [Bool.and_eq_true, beq_iff_eq] at this
      exact this
    have lm : m < s.nextM := h.lt ((h.tab k m).mp hm).1
    have un : ∀ m', m' ∈ (s.srv k).tab → NamesTarget r (s.sub m').host (s.sub m').port → m' = m := fun m' hm' hn' =>
      h.uniq k m' m hm' hm (ciEq_trans' hn'.1 (ciEq_symm' hn.1)) (hn'.2.trans hn.2.symm)
    dsimp only
    by_cases hp : (s.sub m).prio = srvPrio (s.srv k) st r
    · rw [if_neg (fun x => x hp)]
      refine ⟨_, rfl, sinv_mark h _, Nat.le_refl _, rfl, fun _ _ => ⟨rfl, rfl, rfl, rfl⟩, fun m h1 h2 => ?_, fun j => ⟨rfl, rfl, rfl, fun _ => rfl⟩, ?_, ?_, ?_, ?_, ?_, rfl, fun _ _ => rfl⟩
      · dsimp only at h2; omega
      · intro p hp'
        simp only [List.mem_singleton] at hp'
        subst hp'
        exact ⟨m, hm, hn⟩
      · intro m' hm' hx
        rw [un m' hm' (one.mp hx)]
        exact if_pos rfl
      · intro m' hx
        refine if_neg fun e => hx ?_
        subst e
        exact ⟨hm, one.mpr hn⟩
      · intro m' hm' hx
        refine ⟨_, List.mem_singleton.mpr rfl, one.mp hx, ?_⟩
        rw [un m' hm' (one.mp hx)]
        exact hp
      · intro _ _ _; rfl
    · rw [if_pos hp]
      let sub' : Nat → SrvSub := fun j => if j = m then { s.sub m with prio := srvPrio (s.srv k) st r } else s.sub j
      have sub_ : ∀ j, (sub' j).host = (s.sub j).host ∧ (sub' j).port = (s.sub j).port ∧ (sub' j).parent = (s.sub j).parent := by
        intro j
        show (if j = m then _ else s.sub j : SrvSub).host = _ ∧ (if j = m then _ else s.sub j : SrvSub).port = _ ∧ (if j = m then _ else s.sub j : SrvSub).parent = _
        split
        · rename_i e; subst e; exact ⟨rfl, rfl, rfl⟩
        · exact ⟨rfl, rfl, rfl⟩
      have nm : ∀ j, NamesTarget r (sub' j).host (sub' j).port ↔ NamesTarget r (s.sub j).host (s.sub j).port := by
        intro j; rw [(sub_ j).1, (sub_ j).2.1]
      refine ⟨_, rfl, ⟨h.reach, ?_, h.nodup, ?_, ?_, ?_, ?_, ?_⟩, Nat.le_refl _, rfl, ?_, ?_, fun j => ⟨rfl, rfl, rfl, fun _ => rfl⟩, ?_, ?_, ?_, ?_, ?_, rfl, ?_⟩
      · intro k' m'
        show _ ↔ (sub' m').parent = some k' ∧ _
        rw [(sub_ m').2.2]
        exact h.tab k' m'
      · intro k' m1 m2 h1 h2 h3 h4
        have h3' : ciEq (sub' m1).host (sub' m2).host = true := h3
        have h4' : (sub' m1).port = (sub' m2).port := h4
        rw [(sub_ m1).1, (sub_ m2).1] at h3'
        rw [(sub_ m1).2.1, (sub_ m2).2.1] at h4'
        exact h.uniq k' m1 m2 h1 h2 h3' h4'
      · intro m' hm'
        exact ⟨(h.fresh m' hm').1, (sub_ m').2.2.trans (h.fresh m' hm').2⟩
      · intro m' k' hp' hd
        exact h.off m' k' ((sub_ m').2.2.symm.trans hp') hd
      · intro m' k' hp'
        exact h.all m' k' ((sub_ m').2.2.symm.trans hp')
      · intro m' i hi
        have hv := h.vals m' i hi
        refine ⟨?_, hv.2.trans (sub_ m').2.1.symm⟩
        show (if i ∈ (s.dyn.mtx m).tab then srvPrio (s.srv k) st r else s.bePrio i) = (if m' = m then { s.sub m with prio := srvPrio (s.srv k) st r } else s.sub m' : SrvSub).prio
        by_cases e : m' = m
        · subst e
          rw [if_pos hi, if_pos rfl]
        · rw [if_neg (fun x => e (tab_disjoint h.good hi x)), if_neg e]
          exact hv.1
      · intro j _
        exact ⟨rfl, (sub_ j).1, (sub_ j).2.1, (sub_ j).2.2⟩
      · intro m' h1 h2
        dsimp only at h2; omega
      · intro p hp'
        simp only [List.mem_singleton] at hp'
        subst hp'
        exact ⟨m, hm, (nm m).mpr hn⟩
      · intro m' hm' hx
        rw [un m' hm' ((nm m').mp (one.mp hx))]
        exact if_pos rfl
      · intro m' hx
        refine if_neg fun e => hx ?_
        subst e
        exact ⟨hm, one.mpr ((nm m').mpr hn)⟩
      · intro m' hm' hx
        have hx' := one.mp hx
        refine ⟨_, List.mem_singleton.mpr rfl, hx', ?_⟩
        rw [un m' hm' ((nm m').mp hx')]
        show (sub' m).prio = _
        show (if m = m then _ else _ : SrvSub).prio = _
        rw [if_pos rfl]
      · intro m' _ hx
        show (if m' = m then _ else s.sub m' : SrvSub).prio = _
        rw [if_neg fun e => hx ?_]
        subst e
        exact ⟨hm, one.mpr ((nm m').mpr hn)⟩
      · intro i hi
        exact if_neg (hi m hm)
  | none =>
    have no : ∀ m ∈ (s.srv k).tab, ¬ NamesTarget r (s.sub m).host (s.sub m).port := by
      intro m hm hn
      have := List.find?_eq_none.mp hf m hm
      simp only [Bool.and_eq_true, beq_iff_eq] at this
      exact this hn
    have ht := (h.fresh s.nextM (Nat.le_refl _)).1
    have hd : dynStep s.dyn (.newMtx s.nextM r.prio) = .ok { s.dyn with mtx := setMtx s.dyn.mtx s.nextM ⟨r.prio, false, false, []⟩ } := by
      show (if (s.dyn.mtx s.nextM).tab = [] then _ else _) = _
      rw [if_pos ht]
    rw [hd]
    let sub' : Nat → SrvSub := fun j => if j = s.nextM then ⟨r.host, r.port, srvPrio (s.srv k) st r, some k⟩ else s.sub j
    have sub_ : ∀ j, j ≠ s.nextM → sub' j = s.sub j := fun j hj => if_neg hj
    have subN : sub' s.nextM = ⟨r.host, r.port, srvPrio (s.srv k) st r, some k⟩ := if_pos rfl
    let srv' : Nat → SrvMtx := fun j => if j = k then { s.srv k with tab := (s.srv k).tab ++ [s.nextM] } else s.srv j
    have srvT : ∀ j m, m ∈ (srv' j).tab ↔ m ∈ (s.srv j).tab ∨ j = k ∧ m = s.nextM := by
      intro j m
      show m ∈ (if j = k then _ else s.srv j : SrvMtx).tab ↔ _
      split
      · rename_i e; subst e; simp
      · rename_i e; simp [e]
    have ltT : ∀ {j m}, m ∈ (s.srv j).tab → m ≠ s.nextM := fun hm e => by
      have := h.lt ((h.tab _ _).mp hm).1
      omega
    have hself : ciEq r.host r.host = true := by simp [ciEq]
    have nN : NamesTarget r (sub' s.nextM).host (sub' s.nextM).port := by rw [subN]; exact ⟨hself, rfl⟩
    have tabK : ∀ m, m ∈ (srv' k).tab → NamesTarget r (sub' m).host (sub' m).port → m = s.nextM := by
      intro m hm hn
      rcases (srvT k m).mp hm with x | x
      · rw [sub_ m (ltT x)] at hn
        exact absurd hn (no m x)
      · exact x.2
    have inTab : s.nextM ∈ (srv' k).tab := (srvT k _).mpr (Or.inr ⟨rfl, rfl⟩)
    refine ⟨_, rfl, ⟨reach_step h.reach hd, ?_, ?_, ?_, ?_, ?_, ?_, ?_⟩, Nat.le_succ _, rfl, ?_, ?_, ?_, ?_, ?_, ?_, ?_, ?_, rfl, fun _ _ => rfl⟩
    · intro k' m
      show m ∈ (srv' k').tab ↔ (sub' m).parent = some k' ∧ (setMtx s.dyn.mtx s.nextM ⟨r.prio, false, false, []⟩ m).disabled = false
      rw [srvT]
      by_cases e : m = s.nextM
      · subst e
        rw [subN, setMtx_self]
        constructor
        · rintro (x | x)
          · exact absurd rfl (ltT x)
          · rw [x.1]; exact ⟨rfl, rfl⟩
        · rintro ⟨x, -⟩
          cases x
          exact Or.inr ⟨rfl, rfl⟩
      · rw [sub_ m e, setMtx_ne _ _ e, h.tab]
        constructor
        · rintro (x | x)
          · exact x
          · exact absurd x.2 e
        · exact Or.inl
    · intro k'
      show (srv' k').tab.Nodup
      show (if k' = k then _ else s.srv k' : SrvMtx).tab.Nodup
      split
      · refine List.nodup_append.mpr ⟨h.nodup k, by simp, ?_⟩
        rintro a ha b hb rfl
        simp only [List.mem_singleton] at hb
        exact ltT ha hb
      · exact h.nodup k'
    · intro k' m1 m2 h1 h2 h3 h4
      have h3' : ciEq (sub' m1).host (sub' m2).host = true := h3
      have h4' : (sub' m1).port = (sub' m2).port := h4
      rcases (srvT k' m1).mp h1 with x | x <;> rcases (srvT k' m2).mp h2 with y | y
      · rw [sub_ m1 (ltT x), sub_ m2 (ltT y)] at h3' h4'
        exact h.uniq k' m1 m2 x y h3' h4'
      · obtain ⟨rfl, rfl⟩ := y
        rw [sub_ m1 (ltT x), subN] at h3' h4'
        exact absurd ⟨h3', h4'⟩ (no m1 x)
      · obtain ⟨rfl, rfl⟩ := x
        rw [sub_ m2 (ltT y), subN] at h3' h4'
        exact absurd ⟨ciEq_symm' h3', h4'.symm⟩ (no m2 y)
      · rw [x.2, y.2]
    · intro m hm
      have e : m ≠ s.nextM := by
        intro e; subst e
        have hm' : s.nextM + 1 ≤ s.nextM := hm
        omega
      have hm' : s.nextM + 1 ≤ m := hm
      show (setMtx s.dyn.mtx s.nextM _ m).tab = [] ∧ (sub' m).parent = none
      rw [setMtx_ne _ _ e, sub_ m e]
      exact h.fresh m (by omega)
    · intro m k' hp hdis
      have hp' : (sub' m).parent = some k' := hp
      have hdis' : (setMtx s.dyn.mtx s.nextM ⟨r.prio, false, false, []⟩ m).disabled = true := hdis
      show (setMtx s.dyn.mtx s.nextM _ m).tab = []
      by_cases e : m = s.nextM
      · subst e; rw [setMtx_self]
      · rw [setMtx_ne _ _ e] at hdis' ⊢
        rw [sub_ m e] at hp'
        exact h.off m k' hp' hdis'
    · intro m k' hp
      have hp' : (sub' m).parent = some k' := hp
      show (setMtx s.dyn.mtx s.nextM ⟨r.prio, false, false, []⟩ m).first = false
      by_cases e : m = s.nextM
      · subst e; rw [setMtx_self]
      · rw [setMtx_ne _ _ e]
        rw [sub_ m e] at hp'
        exact h.all m k' hp'
    · intro m i hi
      have hi' : i ∈ (setMtx s.dyn.mtx s.nextM ⟨r.prio, false, false, []⟩ m).tab := hi
      show s.bePrio i = (sub' m).prio ∧ s.bePort i = (sub' m).port
      by_cases e : m = s.nextM
      · subst e; rw [setMtx_self] at hi'; cases hi'
      · rw [setMtx_ne _ _ e] at hi'
        rw [sub_ m e]
        exact h.vals m i hi'
    · intro m hm
      have e : m ≠ s.nextM := by omega
      show setMtx s.dyn.mtx s.nextM _ m = _ ∧ (sub' m).host = _ ∧ (sub' m).port = _ ∧ (sub' m).parent = _
      rw [setMtx_ne _ _ e, sub_ m e]
      exact ⟨rfl, rfl, rfl, rfl⟩
    · intro m h1 h2
      have h2' : m < s.nextM + 1 := h2
      have e : m = s.nextM := by omega
      subst e
      show (sub' s.nextM).parent = some k ∧ (setMtx s.dyn.mtx s.nextM _ s.nextM).disabled = false ∧ (setMtx s.dyn.mtx s.nextM _ s.nextM).tab = [] ∧
        ∃ p ∈ [(st, r)], NamesTarget p.2 (sub' s.nextM).host (sub' s.nextM).port ∧ (setMtx s.dyn.mtx s.nextM _ s.nextM).weight = p.2.prio
      rw [setMtx_self]
      exact ⟨by rw [subN], rfl, rfl, _, List.mem_singleton.mpr rfl, nN, rfl⟩
    · intro j
      show (if j = k then _ else s.srv j : SrvMtx).ignore = _ ∧ (if j = k then _ else s.srv j : SrvMtx).prio = _ ∧ (if j = k then _ else s.srv j : SrvMtx).disabled = _ ∧
        (j ≠ k → (if j = k then _ else s.srv j : SrvMtx) = _)
      split
      · rename_i e; subst e; exact ⟨rfl, rfl, rfl, fun x => absurd rfl x⟩
      · exact ⟨rfl, rfl, rfl, fun _ => rfl⟩
    · intro p hp
      simp only [List.mem_singleton] at hp
      subst hp
      exact ⟨s.nextM, inTab, nN⟩
    · intro m hm hx
      rw [tabK m hm (one.mp hx)]
      exact if_pos rfl
    · intro m hx
      refine if_neg fun e => hx ?_
      subst e
      exact ⟨inTab, one.mpr nN⟩
    · intro m hm hx
      have hx' := one.mp hx
      refine ⟨_, List.mem_singleton.mpr rfl, hx', ?_⟩
      rw [tabK m hm hx']
      show (sub' s.nextM).prio = _
      rw [subN]
    · intro m hm _
      show (sub' m).prio = _
      rw [sub_ m (by omega)]

theorem sadded_all {k : Nat} : ∀ (l : List (SrvStat × SrvRec)) (s : SrvSt), SInv s → ∃ s', srvFold k l s = .ok s' ∧ SAdded k l s s' := by
  intro l
  induction l with
  | nil => intro s h; exact ⟨s, rfl, sadded_nil h⟩
  | cons p r ih =>
    intro s h
    obtain ⟨s1, e1, a1⟩ := sadded_one (k := k) h p.1 p.2
    obtain ⟨s2, e2, a2⟩ := ih s1 a1.inv
    refine ⟨s2, ?_, sadded_trans h a1 a2⟩
    rw [srvFold_cons, e1]
    exact e2

end Pound
