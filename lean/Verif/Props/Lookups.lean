import Verif.Proof.Lookups

/-!
C84: as long as a dynamic backend is in use, its name is looked up again and again, by one chain of look-ups; no look-up is made for a
backend that is disabled; and the memory of a backend is not released while a look-up for it is under way.
-/

namespace Pound.Props
open Spec

/-- Whatever happens, no reference is dropped twice and no released backend is used; and a released backend has no look-ups left, queued or
running, cancelled or not. -/
theorem C84_alive (ops : List LkOp) : ∃ s, lkRun LkSt.init ops = some s ∧
    ∀ b, (s.be b).freed = true → b ∉ s.run ∧ ∀ j ∈ s.q.jobs, ¬ LookupFor b j := by
  obtain ⟨s, e, h⟩ := run_ref ops refInv_init
  refine ⟨s, e, fun b hb => ?_⟩
  obtain ⟨h1, h2, _⟩ := h.dead b (Or.inr hb)
  refine ⟨List.count_eq_zero.1 h2, fun j hj hl => ?_⟩
  have := List.countP_eq_zero.1 h1 j hj
  exact this (decide_eq_true hl)

/-- References are counted right: those of the owner, of queued look-ups and of running ones. -/
theorem C84_references (ops : List LkOp) (s : LkSt) (e : lkRun LkSt.init ops = some s) (b : Nat) (hc : (s.be b).created = true) (hf : (s.be b).freed = false) :
    (s.be b).ref = (if (s.be b).kept then 1 else 0) + (s.q.jobs.filter fun j => decide (LookupFor b j)).length + s.run.count b := by
  obtain ⟨s', e', h⟩ := run_ref ops refInv_init
  rw [e] at e'
  cases e'
  rw [h.live b hc hf, queued, List.countP_eq_length_filter]
  rfl

/-- A backend in use has a look-up under way (waiting for its time, or running), if no look-up fails for good, and if no backend is disabled
or removed before it got its first answer while job number 0 is a look-up of another backend.  Fewer than 2^64 jobs. -/
theorem C84_goes_on_partial (ops : List LkOp) (s : LkSt) (e : lkRun LkSt.init ops = some s) (hs : s.q.next ≤ 2 ^ 64)
    (h : Along (fun s o => NoFailure o ∧ NotTooEarly s o) LkSt.init ops) (b : Nat) (ha : LookedUp s b) : 1 ≤ pending s b :=
  run_goes_on ops lkInv_init (fun _ ha => nomatch ha.1) h e hs b ha

/-- There is at most one look-up under way for a backend in use, and none for one that is disabled, if backends are disabled only while the
look-up whose number is stored waits for its time and the timer thread gets to know of it in time. -/
theorem C84_once_partial (ops : List LkOp) (s : LkSt) (e : lkRun LkSt.init ops = some s) (hs : s.q.next ≤ 2 ^ 64)
    (h : Along WhileWaiting LkSt.init ops) (b : Nat) : pending s b ≤ if (s.be b).disabled then 0 else 1 :=
  (run_once ops lkInv_init refInv_init onceInv_init h e hs).most b

/-- With these conditions and without permanent failures there is one look-up for backends in use. -/
theorem C84_exactly_once_partial (ops : List LkOp) (s : LkSt) (e : lkRun LkSt.init ops = some s) (hs : s.q.next ≤ 2 ^ 64)
    (h : Along (fun s o => NoFailure o ∧ WhileWaiting s o) LkSt.init ops) (b : Nat) (ha : LookedUp s b) : pending s b = 1 := by
  have h1 := run_exact ops lkInv_init refInv_init onceInv_init (fun _ ha => nomatch ha.1) h e hs b ha
  have hw : ∀ (ops : List LkOp) (s : LkSt), Along (fun s o => NoFailure o ∧ WhileWaiting s o) s ops → Along WhileWaiting s ops := by
    intro ops
    induction ops with
    | nil => intro s _; trivial
    | cons o t ih => intro s hal; exact ⟨hal.1.2, fun s' e' => ih s' (hal.2 s' e')⟩
  have h2 := C84_once_partial ops s e hs (hw _ _ h) b
  rw [ha.2] at h2
  simp only [Bool.false_eq_true, if_false] at h2
  omega

/-- Chains of look-ups do not come together again: once there are two look-ups under way for a backend, there are two at least until it is
disabled or a look-up fails for good. -/
theorem C84_chains (before ops : List LkOp) (s s' : LkSt) (e : lkRun LkSt.init before = some s) (e' : lkRun s ops = some s') (hs : s'.q.next ≤ 2 ^ 64) (b : Nat)
    (ha : LookedUp s b) (h : Along (fun s o => NoFailure o ∧ NotTooEarly s o ∧ NotDisabling b o) s ops) : LookedUp s' b ∧ pending s b ≤ pending s' b :=
  run_pending_ge b ops (run_lkInv' before lkInv_init e (Nat.le_trans (run_next ops e') hs)) ha h e' hs

/-! ### What is not so -/

/-- Disable while a look-up is running, and enable: two chains of look-ups. -/
def exLkTwice : List LkOp := [.create 0 ⟨1, 0⟩, .start, .disable 0, .enable 0 (.found ⟨60, 0⟩), .done 0 (.found ⟨61, 0⟩), .cancels]

/-- What is seen in the end -/
def lkSeen (ops : List LkOp) (b : Nat) : Option (Bool × Nat) := (lkRun LkSt.init ops).map fun s => ((s.be b).disabled, pending s b)

theorem C84_once_fails : ∃ s, lkRun LkSt.init exLkTwice = some s ∧ LookedUp s 0 ∧ pending s 0 = 2 := by
  refine ⟨_, rfl, ⟨rfl, rfl⟩, ?_⟩
  decide +kernel

/-- So after a temporary failure: the number of the next try is not stored, so that it is not cancelled. -/
theorem C84_once_after_failure_fails : lkSeen [.create 0 ⟨1, 0⟩, .start, .done 0 (.temp ⟨30, 0⟩), .disable 0, .cancels, .enable 0 (.found ⟨60, 0⟩)] 0 = some (false, 2) := by
  decide +kernel

/-- After a temporary failure, a backend that is disabled is looked up all the same. -/
theorem C84_disabled_fails : lkSeen [.create 0 ⟨1, 0⟩, .start, .done 0 (.temp ⟨30, 0⟩), .disable 0, .cancels, .start] 0 = some (true, 1) := by
  decide +kernel

/-- … and goes on to be looked up for as long as the name service does not answer. -/
theorem C84_disabled_goes_on_fails (n : Nat) :
    ∃ s, lkRun LkSt.init ([.create 0 ⟨1, 0⟩, .start, .done 0 (.temp ⟨30, 0⟩), .disable 0, .cancels] ++ (List.replicate n [LkOp.start, .done 0 (.temp ⟨30, 0⟩)]).flatten) = some s ∧
      (s.be 0).disabled = true ∧ pending s 0 = 1 := by
  have happ : ∀ (a b : List LkOp) (s s1 : LkSt), lkRun s a = some s1 → lkRun s (a ++ b) = lkRun s1 b := by
    intro a
    induction a with
    | nil => intro b s s1 h; cases h; rfl
    | cons o t ih =>
      intro b s s1 h
      rw [List.cons_append, lkRun]
      rw [lkRun] at h
      cases e : lkStep s o with
      | none => rw [e] at h; cases h
      | some s2 => rw [e] at h; exact ih b s2 s1 h
  have key : ∀ (n : Nat) (s : LkSt), s.q.cancels = [] → s.run = [] → (∃ k, s.q.jobs = [⟨k, ⟨30, 0⟩, some 0⟩]) → (s.be 0).disabled = true → (s.be 0).freed = false → 0 < (s.be 0).ref →
      ∃ s', lkRun s (List.replicate n [LkOp.start, .done 0 (.temp ⟨30, 0⟩)]).flatten = some s' ∧ (s'.be 0).disabled = true ∧ pending s' 0 = 1 := by
    intro n
    induction n with
    | zero =>
      intro s h1 h2 ⟨k, h3⟩ h4 _ _
      refine ⟨s, rfl, h4, ?_⟩
      rw [pending, h1, h2, h3]
      simp [LookupFor]
    | succ n ih =>
      intro s h1 h2 ⟨k, h3⟩ h4 h5 h6
      rw [List.replicate_succ, List.flatten_cons]
      have hst : lkStep s .start = some { s with q := { s.q with jobs := [] }, run := [0] } := by
        unfold lkStep
        dsimp only
        rw [h3, h2]
        rfl
      have hdn : lkStep { s with q := { s.q with jobs := [] }, run := [0] } (.done 0 (.temp ⟨30, 0⟩)) =
          lkUnref 0 (lkEnqueue 0 ⟨30, 0⟩ { s with q := { s.q with jobs := [] }, run := [] }).1 := by
        unfold lkStep
        dsimp only [List.getElem?_cons_zero]
        rw [h5]
        rfl
      have hu := unref_ok (s := (lkEnqueue 0 ⟨30, 0⟩ { s with q := { s.q with jobs := [] }, run := [] }).1) (b := 0) h5 (Nat.succ_pos _)
      rw [List.cons_append, lkRun, hst]
      dsimp only
      rw [List.cons_append, lkRun]
      rw [hu] at hdn
      rw [hdn]
      exact ih _ h1 rfl ⟨s.q.next, rfl⟩ h4 h5 (show 0 < (s.be 0).ref + 1 - 1 by omega)
  have h0 : ∃ s, lkRun LkSt.init [.create 0 ⟨1, 0⟩, .start, .done 0 (.temp ⟨30, 0⟩), .disable 0, .cancels] = some s ∧ s.q.cancels = [] ∧ s.run = [] ∧
      (∃ k, s.q.jobs = [⟨k, ⟨30, 0⟩, some 0⟩]) ∧ (s.be 0).disabled = true ∧ (s.be 0).freed = false ∧ 0 < (s.be 0).ref :=
    ⟨_, rfl, rfl, rfl, ⟨1, by decide +kernel⟩, rfl, rfl, by decide +kernel⟩
  obtain ⟨s, e, h1, h2, h3, h4, h5, h6⟩ := h0
  obtain ⟨s', e', h'⟩ := key n s h1 h2 h3 h4 h5 h6
  exact ⟨s', by rw [happ _ _ _ _ e]; exact e', h'⟩

/-- Disabling a backend before its first answer stops the look-ups of another one: the number of its job is not stored, and 0 is the number of
the first job. -/
theorem C84_stopped_fails : lkSeen [.create 0 ⟨1, 0⟩, .create 1 ⟨1, 0⟩, .disable 1, .cancels] 0 = some (false, 0) := by decide +kernel

/-- … while its own look-up goes on. -/
theorem C84_own_fails : lkSeen [.create 0 ⟨1, 0⟩, .create 1 ⟨1, 0⟩, .disable 1, .cancels] 1 = some (true, 1) := by decide +kernel

/-- A permanent failure ends the look-ups of a backend that stays in use. -/
theorem C84_failure_fails : lkSeen [.create 0 ⟨1, 0⟩, .start, .done 0 .failed] 0 = some (false, 0) := by decide +kernel

/-- A look-up that was cancelled is made when its time is up before the timer thread gets to know. -/
theorem C84_cancelled_fails : lkSeen [.create 0 ⟨1, 0⟩, .start, .done 0 (.found ⟨60, 0⟩), .disable 0, .start, .cancels] 0 = some (true, 1) := by decide +kernel

/-! ### Hypotheses are met -/

/-- A usual history: two backends, of which one is disabled for a while and the other one goes through a temporary failure -/
def exLkUsual : List LkOp :=
  [.create 0 ⟨1, 0⟩, .create 1 ⟨1, 0⟩, .start, .start, .done 1 (.found ⟨60, 0⟩), .done 0 (.temp ⟨30, 0⟩), .other ⟨90, 0⟩, .disable 1, .cancels, .start,
    .done 0 (.found ⟨70, 0⟩), .enable 1 (.found ⟨80, 0⟩), .disable 0, .cancels, .free 0]

/-- Decision procedure for `Along` -/
def alongB (P : LkSt → LkOp → Bool) : LkSt → List LkOp → Bool
  | _, [] => true
  | s, o :: t => P s o && (match lkStep s o with | none => true | some s' => alongB P s' t)

theorem alongB_sound {P : LkSt → LkOp → Bool} {Q : LkSt → LkOp → Prop} (h : ∀ s o, P s o = true → Q s o) : ∀ (ops : List LkOp) (s : LkSt), alongB P s ops = true → Along Q s ops
  | [], _, _ => trivial
  | o :: t, s, hp => by
    rw [alongB, Bool.and_eq_true] at hp
    refine ⟨h s o hp.1, fun s' e => alongB_sound h t s' ?_⟩
    have h2 := hp.2
    rw [e] at h2
    exact h2

def failB : LkOp → Bool
  | .done _ a => decide (a ≠ .failed)
  | .enable _ a => decide (a ≠ .failed)
  | _ => true

def waitB (s : LkSt) : LkOp → Bool
  | .disable b => (s.be b).disabled || s.q.jobs.any fun j => decide (LookupFor b j ∧ j.id = (s.be b).jid ∧ j.id ∉ s.q.cancels)
  | .drop b => (s.be b).disabled || s.q.jobs.any fun j => decide (LookupFor b j ∧ j.id = (s.be b).jid ∧ j.id ∉ s.q.cancels)
  | .start => match s.q.jobs with | [] => true | j :: _ => decide (j.id ∉ s.q.cancels)
  | _ => true

theorem failB_sound {o : LkOp} (h : failB o = true) : NoFailure o := by
  cases o <;> first | trivial | simpa [failB, NoFailure] using h

theorem waitB_sound {s : LkSt} {o : LkOp} (h : waitB s o = true) : WhileWaiting s o := by
  have key : ∀ b, ((s.be b).disabled || s.q.jobs.any fun j => decide (LookupFor b j ∧ j.id = (s.be b).jid ∧ j.id ∉ s.q.cancels)) = true →
      ((s.be b).disabled = true ∨ ∃ j ∈ s.q.jobs, LookupFor b j ∧ j.id = (s.be b).jid ∧ j.id ∉ s.q.cancels) := by
    intro b hb
    rw [Bool.or_eq_true] at hb
    refine hb.imp id fun hb => ?_
    obtain ⟨j, hj, h1⟩ := List.any_eq_true.1 hb
    exact ⟨j, hj, of_decide_eq_true h1⟩
  cases o with
  | disable b => exact key b h
  | drop b => exact key b h
  | start =>
    intro j r hj
    unfold waitB at h
    dsimp only at h
    rw [hj] at h
    exact of_decide_eq_true h
  | _ => trivial

theorem exLkUsual_along : Along (fun s o => NoFailure o ∧ WhileWaiting s o) LkSt.init exLkUsual :=
  alongB_sound (P := fun s o => failB o && waitB s o) (fun s o h => by rw [Bool.and_eq_true] at h; exact ⟨failB_sound h.1, waitB_sound h.2⟩) _ _ (by decide +kernel)

example : lkSeen exLkUsual 0 = some (true, 0) ∧ lkSeen exLkUsual 1 = some (false, 1) := by decide +kernel

/-- The backend that was disabled for a while has one look-up. -/
example : ∃ s, lkRun LkSt.init exLkUsual = some s ∧ pending s 1 = 1 := by
  obtain ⟨s, e, _⟩ := C84_alive exLkUsual
  have h : (lkRun LkSt.init exLkUsual).map (fun s => ((s.be 1).created, (s.be 1).disabled, s.q.next)) = some (true, false, 7) := by decide +kernel
  rw [e] at h
  simp only [Option.map_some, Option.some.injEq, Prod.mk.injEq] at h
  exact ⟨s, e, C84_exactly_once_partial exLkUsual s e (by rw [h.2.2]; decide) exLkUsual_along 1 ⟨h.1, h.2.1⟩⟩

def exLkMore : List LkOp := [.start, .done 0 (.temp ⟨90, 0⟩), .create 1 ⟨3, 0⟩, .start, .start]

/-- Two chains -/
example : ∃ s s', lkRun LkSt.init exLkTwice = some s ∧ lkRun s exLkMore = some s' ∧ 2 ≤ pending s' 0 := by
  obtain ⟨s, e, ha, h2⟩ := C84_once_fails
  have h : ((lkRun LkSt.init exLkTwice).bind fun s => (lkRun s exLkMore).map fun s => s.q.next) = some 5 := by decide +kernel
  have hal : Along (fun s o => NoFailure o ∧ NotTooEarly s o ∧ NotDisabling 0 o) s exLkMore :=
    alongB_sound (P := fun _ o => failB o && (match o with | .disable _ => false | .drop _ => false | _ => true))
      (fun s o h => by
        rw [Bool.and_eq_true] at h
        exact ⟨failB_sound h.1, by cases o <;> first | trivial | exact absurd h.2 (by simp), by cases o <;> first | trivial | exact absurd h.2 (by simp)⟩) _ _ (by
          have : ((lkRun LkSt.init exLkTwice).map fun s => alongB (fun _ o => failB o && (match o with | .disable _ => false | .drop _ => false | _ => true)) s exLkMore) = some true := by
            decide +kernel
          rw [e] at this
          exact Option.some.inj this)
  rw [e, Option.bind_some] at h
  cases e' : lkRun s exLkMore with
  | none => rw [e'] at h; cases h
  | some s' =>
    rw [e'] at h
    refine ⟨s, s', e, e', ?_⟩
    rw [← h2]
    exact (C84_chains exLkTwice exLkMore s s' e e' (by rw [show s'.q.next = 5 from Option.some.inj h]; decide) 0 ha hal).2

end Pound.Props
