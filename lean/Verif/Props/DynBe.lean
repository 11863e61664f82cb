import Verif.Proof.DynStep

/-!
C37: dynamic backends track DNS.
-/

namespace Pound.Props

open Spec

/-! ### A concrete service: backend 0 from the configuration file; matrix 0 balanced together with it, matrix 1 on its own (as it is with an SRV priority other than 0). -/

/-- A backend of the configuration file -/
private def be0 : DynBe := { addr := b!"s", parent := none, disabled := false, mark := false, alive := true, refs := 1, bal := some 0, freed := false }

private def st0 (late : Bool) : DynSt :=
  { be := fun _ => be0, next := 1, bals := [⟨0, [0], none⟩], mtx := fun k => ⟨if k = 1 then 5 else 0, false, false, []⟩, rem := [], sess := [], late := late, held := [], jobs := [] }

private theorem st0_configured (late : Bool) : DynConfigured (st0 late) := by
  constructor
  · exact List.pairwise_singleton _ _
  · intro b hb
    simp only [st0, List.mem_singleton] at hb
    subst hb
    refine ⟨by decide, ?_, by intro c hc; cases hc⟩
    intro i hi
    simp only [List.mem_singleton] at hi
    subst hi
    exact ⟨Nat.zero_lt_one, rfl⟩
  · intro i hi; exact ⟨rfl, rfl, fun x => by cases x⟩
  · intro i; exact ⟨rfl, rfl⟩
  · intro m; rfl
  · rfl
  · rfl
  · rfl
  · rfl

/-- Observing the outcome of a history -/
private def after (late : Bool) (ops : List DynOp) (f : DynSt → Bool) : Bool :=
  match dynRun (st0 late) ops with
  | .ok s => f s
  | _ => false

private theorem after_reach {late : Bool} {ops : List DynOp} {f : DynSt → Bool} (h : after late ops f = true) : ∃ s, DynReach s ∧ dynRun (st0 late) ops = .ok s ∧ f s = true := by
  unfold after at h
  split at h
  · rename_i s hs
    exact ⟨s, ⟨_, _, st0_configured late, hs⟩, hs, h⟩
  · cases h

private def isUb : DynRes → Bool
  | .ub => true
  | _ => false

private def isAbort : DynRes → Bool
  | .abort => true
  | _ => false

private theorem ub_of {r : DynRes} (h : isUb r = true) : r = .ub := by cases r <;> first | rfl | cases h
private theorem abort_of {r : DynRes} (h : isAbort r = true) : r = .abort := by cases r <;> first | rfl | cases h

/-! ### Exactly one backend per address -/

/-- After a look-up of a dynamic backend that is not disabled, every wanted address has exactly one backend in service, and there is no backend for any other address. -/
theorem C37_exact {s s' : DynSt} (h : DynReach s) {m : Nat} {ans : List Bytes} (hd : (s.mtx m).disabled = false) (e : dynStep s (.update m ans) = .ok s') :
    (∀ a ∈ Wanted (s.mtx m) ans, ∃ i, Generated s' m i ∧ (s'.be i).addr = a ∧ ∀ j, Generated s' m j → (s'.be j).addr = a → j = i) ∧
    (∀ i, Generated s' m i → (s'.be i).addr ∈ Wanted (s.mtx m) ans) ∧
    ∀ i, Generated s' m i → ¬ Generated s m i → (s'.be i).disabled = false ∧ (s'.be i).alive = true := by
  have g := good_reach h
  have u := step_update g hd e
  refine ⟨?_, ?_, ?_⟩
  · intro a ha
    obtain ⟨i, hi, hia⟩ := u.found a ha
    refine ⟨i, tab_generated u.inv hi, hia, fun j hj hja => ?_⟩
    have hj' := generated_tab u.inv hj
    exact nodup_map_inj (u.inv.tabA m) hj' hi (hja.trans hia.symm)
  · intro i hi
    rcases (u.tab i).mp (generated_tab u.inv hi) with x | x
    · rw [(u.gone i (g.inv.tab m i x.1).1).1]; exact x.2
    · exact (u.new i x.1 x.2).1
  · intro i hi hn
    rcases (u.tab i).mp (generated_tab u.inv hi) with x | x
    · exact absurd (tab_generated g.inv x.1) hn
    · have := u.new i x.1 x.2
      exact ⟨this.2.2.1.trans hd, this.2.2.2⟩

/-- Backends whose addresses are still listed stay as they are, with their sessions. -/
theorem C37_kept {s s' : DynSt} (h : DynReach s) {m : Nat} {ans : List Bytes} (hd : (s.mtx m).disabled = false) (e : dynStep s (.update m ans) = .ok s')
    {i : Nat} (hi : Generated s m i) (ha : (s.be i).addr ∈ Wanted (s.mtx m) ans) :
    Generated s' m i ∧ s'.be i = s.be i ∧ ∀ k, (k, i) ∈ s'.sess ↔ (k, i) ∈ s.sess := by
  have g := good_reach h
  have u := step_update g hd e
  have hit := generated_tab g.inv hi
  have hk := u.kept i (g.inv.tab m i hit).1 (fun x => x.2 ha)
  refine ⟨tab_generated u.inv ((u.tab i).mpr (Or.inl ⟨hit, ha⟩)), hk, fun k => ?_⟩
  rw [u.sess]
  exact ⟨fun x => x.1, fun x => ⟨x, fun y => y.2 ha⟩⟩

/-- All other backends stay as they are: those of the configuration file and those of other dynamic backends; nothing happens to requests being served. -/
theorem C37_others {s s' : DynSt} (h : DynReach s) {m : Nat} {ans : List Bytes} (e : dynStep s (.update m ans) = .ok s')
    {i : Nat} (hi : i < s.next) (hp : (s.be i).parent ≠ some m) :
    s'.be i = s.be i ∧ (InService s' i ↔ InService s i) ∧ (∀ k, (k, i) ∈ s'.sess ↔ (k, i) ∈ s.sess) ∧ s'.held = s.held ∧ s'.jobs = s.jobs := by
  have g := good_reach h
  cases hd : (s.mtx m).disabled with
  | true =>
    have e' : dynUpdate m ans s = .ok s' := e
    unfold dynUpdate at e'
    dsimp only at e'
    rw [hd, if_pos rfl] at e'
    cases e'
    refine ⟨rfl, ?_, fun _ => Iff.rfl, rfl, rfl⟩
    rw [inService_iff, inService_iff]
    exact exists_congr fun w => balGet_inBal _ _ _ _
  | false =>
    have u := step_update g hd e
    have ht : i ∉ (s.mtx m).tab := fun x => hp (g.inv.tab m i x).2.1
    refine ⟨u.kept i hi (fun x => ht x.1), ?_, fun k => ?_, u.held, u.jobs⟩
    · rw [inService_iff, inService_iff]
      refine exists_congr fun w => ?_
      rw [u.inBal]
      constructor
      · rintro (x | x)
        · exact x.1
        · omega
      · intro x; exact Or.inl ⟨x, fun y => hp y.1⟩
    · rw [u.sess]
      exact ⟨fun x => x.1, fun x => ⟨x, fun y => ht y.1⟩⟩

/-- A look-up for a disabled dynamic backend changes no backend. -/
theorem C37_disabled {s s' : DynSt} {m : Nat} {ans : List Bytes} (hd : (s.mtx m).disabled = true) (e : dynStep s (.update m ans) = .ok s') :
    s'.be = s.be ∧ (∀ i, InService s' i ↔ InService s i) ∧ s'.sess = s.sess := by
  have e' : dynUpdate m ans s = .ok s' := e
  unfold dynUpdate at e'
  dsimp only at e'
  rw [hd, if_pos rfl] at e'
  cases e'
  refine ⟨rfl, fun i => ?_, rfl⟩
  rw [inService_iff, inService_iff]
  exact exists_congr fun w => balGet_inBal _ _ _ _

/-- Disabling a dynamic backend takes all of its backends out of service. -/
theorem C37_disable {s s' : DynSt} (h : DynReach s) {m : Nat} (e : dynStep s (.disable m) = .ok s') (i : Nat) : ¬ Generated s' m i := by
  have g := good_reach h
  have n := next_step g e
  intro hi
  have ht := generated_tab n.good.inv hi
  obtain ⟨s1, hs, e1⟩ := disable_core g m
  have e' : dynDisable m s = .ok s' := e
  rw [e1] at e'
  cases e'
  dsimp only at ht
  rw [setMtx_self] at ht
  have hh := (hs.tab i).mp ht
  refine hh.2 ⟨hh.1, ?_⟩
  show (markAll true (s.mtx m).tab s.be i).mark = true
  have : i ∈ (s.mtx m).tab := hh.1
  unfold markAll
  rw [if_pos this]

/-- Two addresses; then one goes, another one comes, and it is listed twice: backend 1 is kept with its session, backend 2 goes, backend 3 is new. -/
example : after false [.update 0 [b!"a", b!"b"], .take 0 1 none (some b!"k"), .update 0 [b!"c", b!"a", b!"c"]] (fun s =>
    s.bals == [⟨0, [0, 1, 3], none⟩] && (s.be 3).addr == b!"c" && (s.mtx 0).tab == [1, 3] && s.rem == [2] && s.sess == [(b!"k", 1)]) = true := by decide +kernel

/-- The hypotheses of `C37_exact`, `C37_kept` and `C37_others` are met: a look-up that keeps one backend, removes one and adds one. -/
example : ∃ s s', DynReach s ∧ (s.mtx 0).disabled = false ∧ dynStep s (.update 0 [b!"c", b!"a"]) = .ok s' ∧ (s.mtx 0).tab = [1, 2] ∧ (s'.mtx 0).tab = [1, 3] := by
  obtain ⟨s, hr, hs, hf⟩ := after_reach (late := false) (ops := [.update 0 [b!"a", b!"b"]])
    (f := fun s => !(s.mtx 0).disabled && (s.mtx 0).tab == [1, 2] && (match dynStep s (.update 0 [b!"c", b!"a"]) with | .ok s' => (s'.mtx 0).tab == [1, 3] | _ => false)) (by decide +kernel)
  simp only [Bool.and_eq_true] at hf
  obtain ⟨⟨h1, h2⟩, h3⟩ := hf
  split at h3
  · rename_i s' e
    exact ⟨s, s', hr, by simpa using h1, e, by simpa using h2, by simpa using h3⟩
  · cases h3

/-! ### Removed backends -/

/-- Backends whose addresses are no longer listed go out of service for good, whatever happens later.  They get no new requests, unless responses create sessions. -/
theorem C37_removed_partial {s s' : DynSt} (h : DynReach s) {m : Nat} {ans : List Bytes} (hd : (s.mtx m).disabled = false) (e : dynStep s (.update m ans) = .ok s')
    {i : Nat} (hi : Generated s m i) (ha : (s.be i).addr ∉ Wanted (s.mtx m) ans) :
    ¬ InService s' i ∧ (∀ k, (k, i) ∉ s'.sess) ∧
    ∀ ops s'', dynRun s' ops = .ok s'' → ¬ InService s'' i ∧ (s.late = false → s''.held.count i ≤ s'.held.count i) := by
  have g := good_reach h
  have u := step_update g hd e
  have hit := generated_tab g.inv hi
  have hlt := (g.inv.tab m i hit).1
  have hng : i ∉ (s'.mtx m).tab := by
    intro x
    rcases (u.tab i).mp x with y | y
    · exact ha y.2
    · omega
  have n := updated_next g u
  have hg : DGone s' i := ⟨Nat.lt_of_lt_of_le hlt n.next, m, (n.parent i hlt).trans hi.2, hng⟩
  refine ⟨gone_out n.good hg, fun k x => ((u.sess (k, i)).mp x).2 ⟨hit, ha⟩, fun ops s'' er => ?_⟩
  obtain ⟨a, b, c⟩ := run_gone n.good hg er
  exact ⟨gone_out a b, fun hl => c (n.late.trans hl)⟩

/-- In any state: a generated backend that is out of service stays out, and gets no new requests unless responses create sessions. -/
theorem C37_out_partial {s : DynSt} (h : DynReach s) {i m : Nat} (hi : i < s.next) (hp : (s.be i).parent = some m) (ho : ¬ InService s i) {ops : List DynOp} {s' : DynSt}
    (e : dynRun s ops = .ok s') : ¬ InService s' i ∧ (s.late = false → s'.held.count i ≤ s.held.count i) := by
  have g := good_reach h
  obtain ⟨a, b, c⟩ := run_gone g (out_gone g hi hp ho) e
  exact ⟨gone_out a b, c⟩

/-- If responses create sessions (as with COOKIE), a request that was with the backend when it was removed makes a session for it; the next request of that session is sent to
the removed backend. -/
theorem C37_removed_fails : ∃ s s', DynReach s ∧ ¬ InService s 1 ∧ s.held = [1] ∧ (∃ ops, dynRun s ops = .ok s' ∧ s'.held = [1, 1]) := by
  obtain ⟨s, hr, hs, hf⟩ := after_reach (late := true) (ops := [.update 0 [b!"a"], .take 0 1 none none, .update 0 [b!"b"]])
    (f := fun s => !(s.bals.any fun b => b.members.contains 1) && s.held == [1] && (match dynRun s [.respond b!"k" 1, .takeSess b!"k"] with | .ok s' => s'.held == [1, 1] | _ => false)) (by decide +kernel)
  simp only [Bool.and_eq_true, Bool.not_eq_true'] at hf
  obtain ⟨⟨h1, h2⟩, h3⟩ := hf
  split at h3
  · rename_i s' e
    refine ⟨s, s', hr, ?_, by simpa using h2, _, e, by simpa using h3⟩
    rintro ⟨b, hb, hi⟩
    have : (s.bals.any fun b => b.members.contains 1) = true := List.any_eq_true.mpr ⟨b, hb, List.contains_iff_mem.mpr hi⟩
    rw [h1] at this; cases this
  · cases h3

/-! ### Requests -/

/-- A request that is balanced is given a backend in service that is neither disabled nor dead; others keep theirs. -/
theorem C37_take {s s' : DynSt} {w i : Nat} {cur : Option Nat} {key : Option Bytes} (e : dynStep s (.take w i cur key) = .ok s') :
    s'.held = s.held ∨ (s'.held = i :: s.held ∧ InService s i ∧ (s.be i).disabled = false ∧ (s.be i).alive = true) := by
  have e : dynTake w i cur key s = .ok s' := e
  unfold dynTake at e
  split at e
  · cases e
  · split at e
    · cases e; exact Or.inl rfl
    · rename_i b hb
      split at e
      · rename_i hc
        cases e
        simp only [Bool.and_eq_true, List.contains_iff_mem, dynActive, Bool.not_eq_true'] at hc
        exact Or.inr ⟨rfl, ⟨b, List.mem_of_find?_eq_some hb, hc.1.1⟩, hc.1.2.1, hc.1.2.2⟩
      · cases e; exact Or.inl rfl

private theorem safe_step {s : DynSt} (h : DynReach s) {o : DynOp} (ho : ¬ Risky s o) : ∃ s', dynStep s o = .ok s' := by
  cases e : dynStep s o with
  | ok s' => exact ⟨s', rfl⟩
  | ub => exact absurd (step_bad (good_reach h) (fun s' => by rw [e]; exact fun x => by cases x)) ho
  | abort => exact absurd (step_bad (good_reach h) (fun s' => by rw [e]; exact fun x => by cases x)) ho

/-- Any backend in service that is neither disabled nor dead may be given to a request. -/
theorem C37_taken {s : DynSt} (h : DynReach s) (hv : ∀ b ∈ s.bals, b.members ≠ []) {i : Nat} (hi : InService s i) (hd : (s.be i).disabled = false)
    (ha : (s.be i).alive = true) (key : Option Bytes) :
    ∃ w s', dynStep s (.take w i (some i) key) = .ok s' ∧ s'.held = i :: s.held := by
  have g := good_reach h
  obtain ⟨b, hb, hm⟩ := hi
  have hn : ¬ Risky s (.take b.weight i (some i) key) := by
    intro r
    cases r with
    | take _ _ _ _ h => obtain ⟨b', hb', he⟩ := h; exact hv b' hb' he
  obtain ⟨s', e⟩ := safe_step h hn
  refine ⟨b.weight, s', e, ?_⟩
  have e : dynTake b.weight i (some i) key s = .ok s' := e
  unfold dynTake at e
  split at e
  · cases e
  · split at e
    · rename_i hf
      have := List.find?_eq_none.mp hf b hb
      simp at this
    · rename_i b' hb'
      have hw : b'.weight = b.weight := by simpa using List.find?_some hb'
      have hm' : i ∈ b'.members := by
        have h1 := (inBal_unique g.inv.bals (List.mem_of_find?_eq_some hb') (i := i)).mp
        exact h1 ⟨b, hb, hw.symm, hm⟩
      rw [if_pos (by simp [hm', dynActive, hd, ha, curOk])] at e
      cases e
      rfl

/-- Steps only drop sessions, but for requests and their responses. -/
private theorem sweep_sess {m : Nat} {l : List Nat} : ∀ {s s' : DynSt}, sweepAll m l s = .ok s' → s'.sess.Sublist s.sess := by
  induction l with
  | nil => intro s s' e; cases e; exact List.Sublist.refl _
  | cons i r ih =>
    intro s s' e
    unfold sweepAll at e
    split at e
    · rename_i s1 h1
      refine (ih e).trans ?_
      unfold sweepOne at h1
      dsimp only at h1
      split at h1
      · cases h1; exact List.Sublist.refl _
      · split at h1
        · cases h1
        · split at h1
          · cases h1
          · cases h1
            exact List.filter_sublist
    · cases e
    · cases e

private theorem add_sess (m : Nat) : ∀ (l : List Bytes) (s : DynSt), (l.foldl (addAddr m) s).sess = s.sess := by
  intro l
  induction l with
  | nil => intro s; rfl
  | cons a r ih =>
    intro s
    rw [List.foldl_cons, ih]
    unfold addAddr
    dsimp only
    split <;> rfl

private theorem update_sess {m : Nat} {ans : List Bytes} {s s' : DynSt} (e : dynUpdate m ans s = .ok s') : s'.sess.Sublist s.sess := by
  unfold dynUpdate at e
  dsimp only at e
  split at e
  · cases e; exact List.Sublist.refl _
  · split at e
    · rename_i s3 h3
      split at e
      · cases e
        have := sweep_sess h3
        rw [add_sess] at this
        exact this
      · cases e
    · cases e
    · cases e

private def OneEach (l : List (Bytes × Nat)) : Prop := l.Pairwise fun a b => a.1 ≠ b.1

private theorem oneEach_add {l : List (Bytes × Nat)} (h : OneEach l) {k : Bytes} {i : Nat} (hk : ¬ (l.any fun e => e.1 == k) = true) : OneEach (l ++ [(k, i)]) := by
  refine List.pairwise_append.mpr ⟨h, List.pairwise_singleton _ _, ?_⟩
  intro a ha b hb
  rw [List.mem_singleton] at hb
  subst hb
  intro hab
  exact hk (List.any_eq_true.mpr ⟨a, ha, by simpa using hab⟩)

private theorem step_one {s s' : DynSt} {o : DynOp} (h : OneEach s.sess) (e : dynStep s o = .ok s') : OneEach s'.sess := by
  cases o with
  | update m ans => exact h.sublist (update_sess e)
  | noAnswer m => cases e; exact h
  | disable m =>
    have e : dynDisable m s = .ok s' := e
    unfold dynDisable at e
    dsimp only at e
    split at e
    · rename_i h1; have := sweep_sess h1; cases e; exact h.sublist this
    · cases e
    · cases e
  | enable m ans =>
    have e : dynEnable m ans s = .ok s' := e
    unfold dynEnable at e
    split at e
    · exact h.sublist (update_sess e)
    · cases e; exact h
  | remover => cases e; exact h
  | take w i cur key =>
    have e : dynTake w i cur key s = .ok s' := e
    unfold dynTake at e
    split at e
    · cases e
    · split at e
      · cases e; exact h
      · split at e
        · cases e
          dsimp only
          split
          · exact h
          · split
            · exact h
            · rename_i hk; exact oneEach_add h hk
        · cases e; exact h
  | takeSess k =>
    have e : dynTakeSess k s = .ok s' := e
    unfold dynTakeSess at e
    split at e
    · cases e; exact h
    · split at e
      · cases e
      · cases e; exact h
  | done i =>
    have e : dynDone i s = .ok s' := e
    unfold dynDone at e
    split at e
    · split at e
      · cases e
      · split at e
        · cases e
        · cases e; exact h
    · cases e; exact h
  | respond k i =>
    have e : dynRespond k i s = .ok s' := e
    unfold dynRespond at e
    split at e
    · split at e
      · cases e; exact h
      · rename_i hk; cases e; exact oneEach_add h hk
    · cases e; exact h
  | kill i =>
    have e : dynKill i s = .ok s' := e
    unfold dynKill at e
    split at e
    · split at e
      · cases e
      · split at e
        · cases e
        · cases e; exact h.sublist List.filter_sublist
    · cases e; exact h
  | touch i =>
    have e : dynTouch i s = .ok s' := e
    unfold dynTouch at e
    split at e
    · split at e
      · cases e
      · split at e
        · cases e
        · split at e
          · split at e
            · cases e
            · cases e; exact h
          · cases e; exact h
    · cases e; exact h
  | expire k => cases e; exact h.sublist List.filter_sublist
  | setDisabled i v =>
    simp only [dynStep] at e
    split at e <;> · cases e; exact h
  | newMtx m w =>
    simp only [dynStep] at e
    split at e <;> · cases e; exact h

private theorem run_one : ∀ {ops : List DynOp} {s s' : DynSt}, OneEach s.sess → dynRun s ops = .ok s' → OneEach s'.sess := by
  intro ops
  induction ops with
  | nil => intro s s' h e; cases e; exact h
  | cons o r ih =>
    intro s s' h e
    unfold dynRun at e
    split at e
    · rename_i s1 h1; exact ih (step_one h h1) e
    · cases e
    · cases e

private theorem reach_one {s : DynSt} (h : DynReach s) : OneEach s.sess := by
  obtain ⟨s0, ops, hc, e⟩ := h
  refine run_one ?_ e
  rw [hc.sessions]
  exact List.Pairwise.nil

private theorem one_unique : ∀ {l : List (Bytes × Nat)}, OneEach l → ∀ {k i j}, (k, i) ∈ l → (k, j) ∈ l → i = j := by
  intro l
  induction l with
  | nil => intro _ _ _ _ h; cases h
  | cons a r ih =>
    intro h k i j hi hj
    obtain ⟨h1, h2⟩ := List.pairwise_cons.mp h
    rcases List.mem_cons.mp hi with hi | hi <;> rcases List.mem_cons.mp hj with hj | hj
    · rw [← hi] at hj; exact (Prod.mk.inj hj).2.symm
    · exact absurd rfl (hi ▸ h1 _ hj)
    · exact absurd rfl (hj ▸ h1 _ hi)
    · exact ih h2 hi hj

/-- No session has two backends. -/
theorem C37_one_session {s : DynSt} (h : DynReach s) {k : Bytes} {i j : Nat} (hi : (k, i) ∈ s.sess) (hj : (k, j) ∈ s.sess) : i = j :=
  one_unique (reach_one h) hi hj

/-- A request of a session is given the backend of the session. -/
theorem C37_sticky {s s' : DynSt} (h : DynReach s) {k : Bytes} {i : Nat} (hi : (k, i) ∈ s.sess) (e : dynStep s (.takeSess k) = .ok s') : s'.held = i :: s.held := by
  have e : dynTakeSess k s = .ok s' := e
  unfold dynTakeSess at e
  split at e
  · rename_i hf
    have := List.find?_eq_none.mp hf _ hi
    simp at this
  · rename_i x hx
    have hk : x.1 = k := by simpa using List.find?_some hx
    have : x.2 = i := C37_one_session h (k := k) (by rw [← hk]; exact List.mem_of_find?_eq_some hx) hi
    split at e
    · cases e
    · cases e; dsimp only; rw [this]

/-- A response adds a session with the backend of its request, if the service makes sessions of responses and the session is not there; it changes no other. -/
theorem C37_respond {s s' : DynSt} {k : Bytes} {i : Nat} (e : dynStep s (.respond k i) = .ok s') (x : Bytes × Nat) :
    x ∈ s'.sess ↔ x ∈ s.sess ∨ (x = (k, i) ∧ i ∈ s.held ∧ s.late = true ∧ ∀ j, (k, j) ∉ s.sess) := by
  have e : dynRespond k i s = .ok s' := e
  unfold dynRespond at e
  split at e
  · rename_i hc
    split at e
    · rename_i ha
      cases e
      refine ⟨Or.inl, ?_⟩
      rintro (h | ⟨-, -, -, h⟩)
      · exact h
      · obtain ⟨y, hy, hk⟩ := List.any_eq_true.mp ha
        have hk : y.1 = k := by simpa using hk
        exact absurd (by rw [← hk]; exact hy) (h y.2)
    · rename_i ha
      cases e
      simp only [List.mem_append, List.mem_singleton]
      refine or_congr Iff.rfl ⟨fun h => ⟨h, hc.1, hc.2, fun j hj => ha (List.any_eq_true.mpr ⟨_, hj, by simp⟩)⟩, fun h => h.1⟩
  · rename_i hc
    cases e
    exact ⟨Or.inl, fun h => h.elim id fun h => absurd ⟨h.2.1, h.2.2.1⟩ hc⟩

/-- Two requests, a session, and a request of it: backend 1 was generated, and stays with the session. -/
example : after true [.update 0 [b!"a"], .take 0 1 none none, .respond b!"k" 1, .take 0 0 none none, .respond b!"k" 0, .takeSess b!"k"]
    (fun s => s.held == [1, 0, 1] && s.sess == [(b!"k", 1)] && s.bals.all (fun b => b.members != [])) = true := by decide +kernel

/-! ### Release -/

/-- A backend is released only when no request uses it, and no pending check; a released one is not in service, and stays released. -/
theorem C37_release {s : DynSt} (h : DynReach s) {i : Nat} (hf : (s.be i).freed = true) :
    i ∉ s.held ∧ i ∉ s.jobs ∧ ¬ InService s i ∧ ∀ ops s', dynRun s ops = .ok s' → (s'.be i).freed = true ∧ i ∉ s'.held := by
  have g := good_reach h
  have key : ∀ {s : DynSt}, DGood s → (s.be i).freed = true → i ∉ s.held ∧ i ∉ s.jobs ∧ ¬ InService s i := by
    intro s g hf
    refine ⟨fun x => ?_, fun x => ?_, fun x => ?_⟩
    · rw [(used_live g.inv (Or.inl x)).2.1] at hf; cases hf
    · rw [(used_live g.inv (Or.inr x)).2.1] at hf; cases hf
    · obtain ⟨w, hw⟩ := inService_iff.mp x
      rw [inBal_live g.inv hw] at hf; cases hf
  obtain ⟨h1, h2, h3⟩ := key g hf
  refine ⟨h1, h2, h3, fun ops s' e => ?_⟩
  have n := next_run g e
  have hf' := n.freed i (g.inv.freed i hf).1 hf
  exact ⟨hf', (key n.good hf').1⟩

/-- Only the backend remover releases backends, and each pass releases every removed backend that nothing uses. -/
theorem C37_remover {s s' : DynSt} (h : DynReach s) (e : dynStep s .remover = .ok s') {i m : Nat} (hi : i < s.next) (hp : (s.be i).parent = some m) :
    (s'.be i).freed = true ↔ ¬ InService s i ∧ i ∉ s.held ∧ i ∉ s.jobs := by
  have g := good_reach h
  have n := next_step g e
  cases e
  constructor
  · intro hf
    have g' := n.good
    refine ⟨fun x => ?_, fun x => ?_, fun x => ?_⟩
    · obtain ⟨w, hw⟩ := inService_iff.mp x
      have := inBal_live g'.inv (w := w) (i := i) hw
      rw [this] at hf; cases hf
    · have := (used_live g'.inv (i := i) (Or.inl x)).2.1
      rw [this] at hf; cases hf
    · have := (used_live g'.inv (i := i) (Or.inr x)).2.1
      rw [this] at hf; cases hf
  · rintro ⟨h1, h2, h3⟩
    obtain ⟨-, m', hp', ht⟩ := out_gone g hi hp h1
    have hr := g.inv.refs i hi
    have hc1 := List.count_eq_zero.mpr h2
    have hc2 := List.count_eq_zero.mpr h3
    have hb : baseRef s i = 0 := by
      unfold baseRef
      rw [hp']
      simp [ht]
    rw [hb, hc1, hc2] at hr
    show (if i ∈ s.rem ∧ (s.be i).refs = 0 then { s.be i with freed := true } else s.be i).freed = true
    rcases (g.inv.gone i hi m' hp' ht).2.2 with x | x
    · rw [if_pos ⟨x, by omega⟩]
    · split
      · rfl
      · exact x

/-- A request is being served by backend 1 when it is removed: the first pass leaves it alone, the second one, after the request, releases it. -/
example : after false [.update 0 [b!"a"], .take 0 1 none none, .update 0 [], .remover] (fun s => !(s.be 1).freed && s.rem == [1]) = true ∧
    after false [.update 0 [b!"a"], .take 0 1 none none, .update 0 [], .remover, .done 1, .remover] (fun s => (s.be 1).freed && s.rem == []) = true := by decide +kernel

/-! ### What can go wrong -/

/-- In every state, a step completes without undefined behaviour and without ending the program, except for those listed. -/
theorem C37_safe_partial {s : DynSt} (h : DynReach s) {o : DynOp} (ho : ¬ Risky s o) : ∃ s', dynStep s o = .ok s' :=
  safe_step h ho

/-- Steps that are not risky exist: a look-up without addresses for a matrix that is balanced together with a backend from the configuration file -/
example : ¬ Risky (st0 false) (.update 0 []) := by
  intro x
  cases x with
  | update _ _ _ _ h =>
    have := (h ⟨0, [0], none⟩ (by decide) rfl 0 (by decide)).2
    cases this

/-- An answer without addresses for a matrix that is not balanced with others: the balancer is freed when its last backend goes, and then used. -/
theorem C37_empty_fails : ∃ s, DynReach s ∧ dynStep s (.update 1 []) = .ub := by
  obtain ⟨s, hr, -, hf⟩ := after_reach (late := false) (ops := [.update 1 [b!"a"]]) (f := fun s => isUb (dynStep s (.update 1 []))) (by decide +kernel)
  exact ⟨s, hr, ub_of hf⟩

/-- If the first answer has no addresses, the balancer stays without backends; the next request, if there is no backend for it in the balancers before, ends the program. -/
theorem C37_vacant_fails : ∃ s s', DynReach s ∧ dynStep s (.update 1 []) = .ok s' ∧ dynStep s' (.take 5 0 none none) = .ub := by
  obtain ⟨s, hr, -, hf⟩ := after_reach (late := false) (ops := []) (f := fun s => match dynStep s (.update 1 []) with | .ok s' => isUb (dynStep s' (.take 5 0 none none)) | _ => false) (by decide +kernel)
  split at hf
  · rename_i s' e
    exact ⟨s, s', hr, e, ub_of hf⟩
  · cases hf

/-- A request cannot connect to its backend, which has been removed since it was chosen: the program ends. -/
theorem C37_kill_fails : ∃ s, DynReach s ∧ s.held = [1] ∧ dynStep s (.kill 1) = .abort := by
  obtain ⟨s, hr, -, hf⟩ := after_reach (late := false) (ops := [.update 0 [b!"a"], .take 0 1 none none, .update 0 []]) (f := fun s => s.held == [1] && isAbort (dynStep s (.kill 1))) (by decide +kernel)
  simp only [Bool.and_eq_true] at hf
  exact ⟨s, hr, by simpa using hf.1, abort_of hf.2⟩

/-- The session that a response makes for a removed backend outlives it: the next request of the session uses freed memory. -/
theorem C37_session_fails : ∃ s, DynReach s ∧ s.held = [] ∧ dynStep s (.takeSess b!"k") = .ub := by
  obtain ⟨s, hr, -, hf⟩ := after_reach (late := true) (ops := [.update 0 [b!"a"], .take 0 1 none none, .update 0 [], .respond b!"k" 1, .done 1, .remover])
    (f := fun s => s.held == [] && isUb (dynStep s (.takeSess b!"k"))) (by decide +kernel)
  simp only [Bool.and_eq_true] at hf
  exact ⟨s, hr, by simpa using hf.1, ub_of hf.2⟩

/-! ### Failures of look-ups -/

/-- A temporary failure changes nothing, and the look-up is made again.  With one family that is whatever the resolver says; with both, the look-ups of both have to fail so. -/
theorem C37_temporary_partial (s : DynSt) (m : Nat) {r : DnsStatus × Option (Nat × List Bytes)}
    (hr : r = (.tempFailure, none) ∨ r = dnsBoth (.other .tempFailure) (.other .tempFailure)) (d : Bool) :
    dynStep s (dynLookup m r) = .ok s ∧ dynAgain r d = true := by
  rcases hr with rfl | rfl <;> exact ⟨rfl, rfl⟩

/-- The addresses of both families, if there are any: those of IPv4 first. -/
theorem C37_both {a4 a6 : DnsAns} {e4 e6 : Nat} {l4 l6 : List Bytes} (h4 : a4 = .addrs e4 l4) (h6 : a6 = .addrs e6 l6) :
    dnsBoth a4 a6 = (.success, some (min e4 e6, l4 ++ l6)) := by
  subst h4; subst h6
  unfold dnsBoth
  dsimp only
  rw [Nat.min_def]
  by_cases h : e4 < e6
  · rw [if_pos h, if_pos (by omega)]
  · rw [if_neg h]
    split
    · rw [show e4 = e6 by omega]
    · rfl

/-- If the look-up for one family fails temporarily, the backends with addresses of that family are removed. -/
theorem C37_family_fails : ∃ s s', DynReach s ∧ Generated s 0 2 ∧ dynStep s (dynLookup 0 (dnsBoth (.addrs 9 [b!"a"]) (.other .tempFailure))) = .ok s' ∧ ¬ InService s' 2 := by
  obtain ⟨s, hr, -, hf⟩ := after_reach (late := false) (ops := [dynLookup 0 (dnsBoth (.addrs 9 [b!"a"]) (.addrs 9 [b!"b"]))])
    (f := fun s => (s.bals == [⟨0, [0, 1, 2], none⟩] && (s.be 2).parent == some 0) && (match dynStep s (dynLookup 0 (dnsBoth (.addrs 9 [b!"a"]) (.other .tempFailure))) with
      | .ok s' => s'.bals == [⟨0, [0, 1], none⟩] | _ => false)) (by decide +kernel)
  simp only [Bool.and_eq_true] at hf
  obtain ⟨⟨h1, h2⟩, h3⟩ := hf
  split at h3
  · rename_i s' e
    have h1' : s.bals = [⟨0, [0, 1, 2], none⟩] := by simpa using h1
    have h3' : s'.bals = [⟨0, [0, 1], none⟩] := by simpa using h3
    refine ⟨s, s', hr, ⟨⟨⟨0, [0, 1, 2], none⟩, by rw [h1']; exact List.mem_singleton.mpr rfl, by decide⟩, by simpa using h2⟩, e, ?_⟩
    rintro ⟨b, hb, hi⟩
    rw [h3', List.mem_singleton] at hb
    subst hb
    revert hi
    decide
  · cases h3

/-- One family fails temporarily, the other one has no addresses: all backends are removed. -/
theorem C37_notfound_fails : dynLookup 0 (dnsBoth (.other .tempFailure) (.other .notFound)) = .update 0 [] ∧
    dynLookup 0 (dnsBoth (.other .notFound) (.other .tempFailure)) = .update 0 [] := ⟨rfl, rfl⟩

/-- After any other failure no look-up is made any more: the backends stay as they are for ever. -/
theorem C37_again_fails (d : Bool) : dynAgain (.failure, none) d = false := rfl

end Pound.Props
