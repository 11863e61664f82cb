import Verif.Proof.Session

/-!
The timer (C19), session tables (C17) and the collection of expired sessions (C18).
-/

namespace Pound.Props
open Spec

/-- States of the timer reachable from program start by the given events. -/
abbrev TimerReach {α} (t0 : TS) (evs : List (TimerEv α)) (s : Timer α) : Prop := TimerRun (Timer.init t0) evs s

theorem timer_inv {α} {t0 evs} {s : Timer α} (h : TimerReach t0 evs s) : TimerInv s := by
  induction h with
  | nil => exact timerInv_init t0
  | snoc _ hc ih => exact timerInv_step ih _ hc

/-- The queue is always in order of due time; jobs due at the same time are in order of
submission (serial numbers count submissions). -/
theorem C19_sorted {α} {t0 evs} {s : Timer α} (h : TimerReach t0 evs s) :
    s.q.jobs.Pairwise fun a b => Earlier (a.ts, a.serial) (b.ts, b.serial) :=
  (timer_inv h).sorted

/-- Every submission gets the next serial number, and the identifier returned for it differs
from those of the 2^64 - 1 submissions before. -/
theorem C19_fresh {α} (q : JobQ α) (ts : TS) (a : α) :
    (q.enqueue ts a).1.next = q.next + 1 ∧ (q.enqueue ts a).2 = q.next % 2 ^ 64 ∧
    (∀ n, n < q.next → q.next < n + 2 ^ 64 → n % 2 ^ 64 ≠ (q.enqueue ts a).2) := by
  refine ⟨rfl, rfl, fun n h1 h2 he => ?_⟩
  change n % 2 ^ 64 = q.next % 2 ^ 64 at he
  omega

/-- Asking when a job is due (the answer is shown in listings): as long as the numbers have not wrapped around, the answer is the time it was submitted for if it waits, and
none otherwise. -/
theorem C19_due_time {α} {t0 evs} {s : Timer α} (h : TimerReach t0 evs s) (hn : s.q.next ≤ 2 ^ 64) (n : Nat) (hlt : n < s.q.next) (ts : TS) :
    s.q.timestamp (n % 2 ^ 64) = some ts ↔ ∃ j ∈ s.q.jobs, j.serial = n ∧ j.ts = ts := by
  have hi := timer_inv h
  have hid : ∀ j ∈ s.q.jobs, j.id = n % 2 ^ 64 ↔ j.serial = n := fun j hj => by
    have := hi.bound j hj
    have h2 : j.id = j.serial % 2 ^ 64 := rfl
    omega
  have huniq : ∀ l : List (Job α), (l.map (·.serial)).Nodup → ∀ i ∈ l, ∀ j ∈ l, i.serial = j.serial → i = j := by
    intro l
    induction l with
    | nil => intro _ i hi; cases hi
    | cons a l ih =>
      intro hl i hi j hj he
      rw [List.map_cons, List.nodup_cons] at hl
      rcases List.mem_cons.1 hi with rfl | hi' <;> rcases List.mem_cons.1 hj with rfl | hj'
      · rfl
      · exact (hl.1 (List.mem_map.2 ⟨j, hj', he.symm⟩)).elim
      · exact (hl.1 (List.mem_map.2 ⟨i, hi', he⟩)).elim
      · exact ih hl.2 i hi' j hj' he
  unfold JobQ.timestamp
  rw [Option.map_eq_some_iff]
  constructor
  · rintro ⟨j, hj, rfl⟩
    have h1 := List.mem_of_find?_eq_some hj
    exact ⟨j, h1, (hid j h1).1 (by simpa using List.find?_some hj), rfl⟩
  · rintro ⟨j, hj, h1, rfl⟩
    cases hf : s.q.jobs.find? (fun j => j.id = n % 2 ^ 64) with
    | none => exact absurd ((hid j hj).2 h1) (by simpa using List.find?_eq_none.1 hf j hj)
    | some x =>
      have h2 := List.mem_of_find?_eq_some hf
      have h3 := (hid x h2).1 (by simpa using List.find?_some hf)
      exact ⟨x, rfl, by rw [huniq _ (List.nodup_append.1 hi.uniq).1 x h2 j hj (h3.trans h1.symm)]⟩

example : ((Timer.init ⟨0, 0⟩ : Timer Nat).step (.enqueue ⟨7, 0⟩ 1)).q.timestamp 0 = some ⟨7, 0⟩ ∧
    ((Timer.init ⟨0, 0⟩ : Timer Nat).step (.enqueue ⟨7, 0⟩ 1)).q.timestamp 1 = none := by decide +kernel

/-- No job is started before it is due, no job is started twice, and no started job is still in the
queue. -/
theorem C19_started {α} {t0 evs} {s : Timer α} (h : TimerReach t0 evs s) :
    (∀ e ∈ s.started, NotAfter e.1.ts e.2) ∧ (s.started.map (·.1.serial)).Nodup ∧
    (s.q.jobs.map (·.serial)).Nodup ∧ (∀ e ∈ s.started, ∀ j ∈ s.q.jobs, j.serial ≠ e.1.serial) := by
  have hi := timer_inv h
  have hu := List.nodup_append.1 hi.uniq
  refine ⟨hi.due, hu.2.1, hu.1, fun e he j hj => ?_⟩
  exact hu.2.2 _ (List.mem_map.2 ⟨j, hj, rfl⟩) _ (List.mem_map.2 ⟨e, he, rfl⟩)

theorem top_started {α} (s : Timer α) : s.top.started = s.started := by
  unfold Timer.top; dsimp only; split <;> rfl

theorem top_q {α} (s : Timer α) : s.top.q = { s.q with jobs := applyCancels s.q.cancels s.q.jobs, cancels := [] } := by
  unfold Timer.top; dsimp only; split <;> rfl

theorem top_clock {α} (s : Timer α) : s.top.clock = s.clock := by
  unfold Timer.top; dsimp only; split <;> rfl

theorem step_started {α} (s : Timer α) (e : TimerEv α) :
    (s.step e).started = s.started ∨
    ∃ j r, e = .timeout ∧ s.q.jobs = j :: r ∧ (s.step e).started = s.started ++ [(j, s.clock)] ∧
      (s.step e).q = { s.q with jobs := applyCancels s.q.cancels r, cancels := [] } := by
  cases e with
  | tick t => exact .inl rfl
  | enqueue ts a =>
    left
    show (s.enqueue ts a).started = _
    unfold Timer.enqueue
    split
    · exact (broadcast_fields _).2.2.2.1
    · rfl
  | cancel id => exact .inl (broadcast_fields _).2.2.2.1
  | wake => exact .inl (top_started s)
  | timeout =>
    show s.timeout.started = _ ∨ ∃ j r, _ ∧ _ ∧ s.timeout.started = _ ∧ s.timeout.q = _
    unfold Timer.timeout
    cases hp : s.pc with
    | idle => exact .inl (top_started s)
    | timed n d =>
      cases hq : s.q.jobs with
      | nil => exact .inl (top_started s)
      | cons j r =>
        dsimp only
        by_cases hj : j.serial = n
        · rw [if_pos hj]
          right
          exact ⟨j, r, rfl, rfl, top_started _, top_q _⟩
        · rw [if_neg hj]; exact .inl (top_started s)

/-- At most one job is started in a step; it is the earliest one pending. -/
theorem C19_earliest_first {α} {t0 evs} {s : Timer α} (h : TimerReach t0 evs s) (e : TimerEv α) (hc : s.can e) :
    (s.step e).started = s.started ∨
    ∃ j ∈ s.q.jobs, (s.step e).started = s.started ++ [(j, s.clock)] ∧
      ∀ j' ∈ s.q.jobs, j' = j ∨ Earlier (j.ts, j.serial) (j'.ts, j'.serial) := by
  rcases step_started s e with h1 | ⟨j, r, he, hq, h1, _⟩
  · exact .inl h1
  · right
    refine ⟨j, by rw [hq]; simp, h1, fun j' hj' => ?_⟩
    have hs := C19_sorted h
    rw [hq] at hs hj'
    rcases List.mem_cons.1 hj' with rfl | hj'
    · exact .inl rfl
    · exact .inr ((List.pairwise_cons.1 hs).1 j' hj')

theorem due_pc {α} {s : Timer α} (hi : TimerInv s) {j} (hj : j ∈ s.q.jobs) (hd : NotAfter j.ts s.clock)
    (hw : s.woken = false) {n d} (hp : s.pc = .timed n d) : NotAfter d s.clock := by
  rcases hi.first n d hp hw with h1 | ⟨f, r, hq, hf⟩
  · exact h1
  · obtain ⟨j', h1, h2, h3⟩ := hi.pc n d hp
    have hs := hi.sorted
    rw [hq] at hs hj h1
    have hfd : f.ts = d := by
      rcases List.mem_cons.1 h1 with rfl | h1
      · exact h3
      · exfalso
        have hu := hi.uniq
        rw [hq] at hu
        simp only [List.map_cons, List.cons_append, List.nodup_cons] at hu
        exact hu.1 (List.mem_append.2 (.inl (List.mem_map.2 ⟨j', h1, by rw [h2, hf]⟩)))
    rw [← hfd]
    rcases List.mem_cons.1 hj with rfl | hj
    · exact hd
    · exact NotAfter.trans (JobLt.le ((List.pairwise_cons.1 hs).1 j hj)) hd

/-- The timer does not sleep through a due job: unless it has been woken up and is about to look at
the queue, it is waiting with a time-out that has been reached. -/
theorem C19_not_missed {α} {t0 evs} {s : Timer α} (h : TimerReach t0 evs s) {j} (hj : j ∈ s.q.jobs)
    (hd : NotAfter j.ts s.clock) (hw : s.woken = false) : s.can .timeout := by
  have hi := timer_inv h
  refine ⟨hw, ?_⟩
  have hpc : ∃ n d, s.pc = .timed n d := by
    rcases hi.calm hw with h1 | ⟨n, d, h1, _⟩
    · cases hp : s.pc with
      | idle => have := h1.2 hp; rw [this] at hj; simp at hj
      | timed n d => exact ⟨n, d, rfl⟩
    · exact ⟨n, d, h1⟩
  obtain ⟨n, d, hp⟩ := hpc
  exact ⟨n, d, hp, (cmp_le _ _).2 (due_pc hi hj hd hw hp)⟩

/-- Every job submitted is pending, was started, or its identifier was cancelled: none gets lost. -/
theorem C19_none_lost {α} {t0 evs} {s : Timer α} (h : TimerReach t0 evs s) (n : Nat) (hn : n < s.q.next) :
    (∃ j ∈ s.q.jobs, j.serial = n) ∨ (∃ e ∈ s.started, e.1.serial = n) ∨ .cancel (n % 2 ^ 64) ∈ evs := by
  have key : (∀ id ∈ s.q.cancels, TimerEv.cancel id ∈ evs) ∧ (n < s.q.next → (∃ j ∈ s.q.jobs, j.serial = n) ∨
      (∃ e ∈ s.started, e.1.serial = n) ∨ .cancel (n % 2 ^ 64) ∈ evs) := by
    clear hn
    induction h with
    | nil => simp [Timer.init, JobQ.init]
    | @snoc evs s e hr hc ih =>
      obtain ⟨ih1, ih2⟩ := ih
      have hmono : ∀ x, x ∈ evs → x ∈ evs ++ [e] := fun x hx => List.mem_append.2 (.inl hx)
      have ih1' : ∀ id ∈ s.q.cancels, TimerEv.cancel id ∈ evs ++ [e] := fun id hid => hmono _ (ih1 id hid)
      -- the effect of processing the cancellations on a list of jobs
      have hcan : ∀ l : List (Job α), (∃ j ∈ l, j.serial = n) →
          (∃ j ∈ applyCancels s.q.cancels l, j.serial = n) ∨ .cancel (n % 2 ^ 64) ∈ evs ++ [e] := by
        rintro l ⟨j, hj, rfl⟩
        by_cases hid : j.id ∈ s.q.cancels
        · exact .inr (ih1' _ hid)
        · exact .inl ⟨j, applyCancels_keeps hj hid, rfl⟩
      have htop : s.top.q.next = s.q.next ∧ (∀ id ∈ s.top.q.cancels, TimerEv.cancel id ∈ evs ++ [e]) ∧
          (n < s.q.next → (∃ j ∈ s.top.q.jobs, j.serial = n) ∨ (∃ e ∈ s.top.started, e.1.serial = n) ∨ .cancel (n % 2 ^ 64) ∈ evs ++ [e]) := by
        rw [top_q, top_started]
        refine ⟨rfl, by simp, fun hn => ?_⟩
        rcases ih2 hn with h | h | h
        · rcases hcan _ h with h | h
          · exact .inl h
          · exact .inr (.inr h)
        · exact .inr (.inl h)
        · exact .inr (.inr (hmono _ h))
      cases e with
      | tick t => exact ⟨ih1', fun hn => by
          rcases ih2 hn with h | h | h
          · exact .inl h
          · exact .inr (.inl h)
          · exact .inr (.inr (hmono _ h))⟩
      | enqueue ts a =>
        have hq : (s.enqueue ts a).q = (s.q.enqueue ts a).1 := by
          unfold Timer.enqueue; split
          · exact (broadcast_fields _).1
          · rfl
        have hst : (s.enqueue ts a).started = s.started := by
          unfold Timer.enqueue; split
          · exact (broadcast_fields _).2.2.2.1
          · rfl
        refine ⟨by change ∀ id ∈ (s.enqueue ts a).q.cancels, _; rw [hq]; exact ih1', ?_⟩
        change n < (s.enqueue ts a).q.next → (∃ j ∈ (s.enqueue ts a).q.jobs, _) ∨ (∃ e ∈ (s.enqueue ts a).started, _) ∨ _
        rw [hq, hst]
        intro hn
        by_cases hlt : n < s.q.next
        · rcases ih2 hlt with ⟨j, hj, h⟩ | h | h
          · exact .inl ⟨j, mem_insertJob.2 (.inr hj), h⟩
          · exact .inr (.inl h)
          · exact .inr (.inr (hmono _ h))
        · have : n = s.q.next := by
            change n < s.q.next + 1 at hn; omega
          exact .inl ⟨⟨s.q.next, ts, a⟩, mem_insertJob.2 (.inl rfl), this.symm⟩
      | cancel id =>
        obtain ⟨f1, f2, f3, f4, f5⟩ := broadcast_fields { s with q := s.q.cancel id }
        change (∀ x ∈ (s.cancel id).q.cancels, _) ∧ (n < (s.cancel id).q.next → (∃ j ∈ (s.cancel id).q.jobs, _) ∨ (∃ e ∈ (s.cancel id).started, _) ∨ _)
        unfold Timer.cancel
        rw [f1, f4]
        refine ⟨?_, fun hn => ?_⟩
        · intro x hx
          rcases List.mem_append.1 hx with hx | hx
          · exact ih1' x hx
          · simp only [List.mem_singleton] at hx; subst hx; simp
        · rcases ih2 hn with h | h | h
          · exact .inl h
          · exact .inr (.inl h)
          · exact .inr (.inr (hmono _ h))
      | wake => exact ⟨htop.2.1, fun hn => htop.2.2 (by rw [← htop.1]; exact hn)⟩
      | timeout =>
        rcases step_started s .timeout with h1 | ⟨j, r, _, hq, h1, h2⟩
        · have : (s.step .timeout) = s.top := by
            change s.timeout = _
            change s.timeout.started = _ at h1
            unfold Timer.timeout at h1 ⊢
            split
            · rename_i hp hq
              rw [hp, hq] at h1
              dsimp only at h1 ⊢
              split
              · rename_i hj
                rw [if_pos hj, top_started] at h1
                have := congrArg List.length h1
                simp at this
              · rfl
            · rfl
          rw [this]
          exact ⟨htop.2.1, fun hn => htop.2.2 (by rw [← htop.1]; exact hn)⟩
        · rw [h1, h2]
          refine ⟨by simp, fun hn => ?_⟩
          rcases ih2 hn with ⟨j', hj', h⟩ | ⟨x, hx, h⟩ | h
          · rw [hq] at hj'
            rcases List.mem_cons.1 hj' with rfl | hj'
            · exact .inr (.inl ⟨_, List.mem_append.2 (.inr (List.mem_singleton.2 rfl)), h⟩)
            · rcases hcan r ⟨j', hj', h⟩ with h | h
              · exact .inl h
              · exact .inr (.inr h)
          · exact .inr (.inl ⟨x, List.mem_append.2 (.inl hx), h⟩)
          · exact .inr (.inr (hmono _ h))
  exact key.2 hn

/-- While a job is doomed: cancelled, and the timer will look at the cancellation before it can
start the job. -/
def Doomed {α} (s : Timer α) (n : Nat) : Prop :=
  (∀ e ∈ s.started, e.1.serial ≠ n) ∧ n < s.q.next ∧
  ((∀ j ∈ s.q.jobs, j.serial ≠ n) ∨
    n % jobIds ∈ s.q.cancels ∧ (∀ d, s.pc = .timed n d → s.woken = true))

theorem ids_distinct {α} {s : Timer α} (hi : TimerInv s) (hb : s.q.next ≤ jobIds) :
    s.q.jobs.Pairwise fun a b => a.id ≠ b.id := by
  have hu := (List.nodup_append.1 hi.uniq).1
  have hbd := hi.bound
  generalize s.q.jobs = l at hu hbd
  induction l with
  | nil => simp
  | cons x t ih =>
    simp only [List.map_cons, List.nodup_cons, List.mem_map, not_exists, not_and] at hu
    rw [List.pairwise_cons]
    refine ⟨fun y hy he => ?_, ih hu.2 fun j hj => hbd j (by simp [hj])⟩
    have h1 := hbd x (by simp)
    have h2 := hbd y (by simp [hy])
    unfold Job.id at he
    rw [Nat.mod_eq_of_lt (by omega), Nat.mod_eq_of_lt (by omega)] at he
    exact hu.1 y hy he.symm

theorem doomed_top {α} {s : Timer α} {n : Nat} (hi : TimerInv s) (hb : s.q.next ≤ jobIds) (h : Doomed s n) :
    Doomed s.top n := by
  obtain ⟨h1, h2, h3⟩ := h
  refine ⟨by rw [top_started]; exact h1, by rw [top_q]; exact h2, .inl ?_⟩
  rw [top_q]
  intro j hj hn
  rcases h3 with h3 | ⟨h3, _⟩
  · exact h3 j ((applyCancels_sublist _ _).subset hj) hn
  · refine applyCancels_removes (ids_distinct hi hb) ?_ hj
    unfold Job.id; rw [hn]; exact h3

theorem doomed_step {α} {s : Timer α} {n : Nat} (hi : TimerInv s) (e : TimerEv α) (hc : s.can e) (hb : s.q.next ≤ jobIds)
    (h : Doomed s n) : Doomed (s.step e) n := by
  obtain ⟨h1, h2, h3⟩ := h
  cases e with
  | tick t => exact ⟨h1, h2, h3⟩
  | enqueue ts a =>
    have hq : (s.enqueue ts a).q = (s.q.enqueue ts a).1 := by
      unfold Timer.enqueue; split
      · exact (broadcast_fields _).1
      · rfl
    have hst : (s.enqueue ts a).started = s.started := by
      unfold Timer.enqueue; split
      · exact (broadcast_fields _).2.2.2.1
      · rfl
    have hpc : (s.enqueue ts a).pc = s.pc := by
      unfold Timer.enqueue; split
      · exact (broadcast_fields _).2.1
      · rfl
    have hw : s.woken = true → (s.enqueue ts a).woken = true := by
      unfold Timer.enqueue; split
      · exact (broadcast_fields { s with q := (s.q.enqueue ts a).1 }).2.2.2.2
      · exact id
    refine ⟨by change ∀ e ∈ (s.enqueue ts a).started, _; rw [hst]; exact h1, ?_, ?_⟩
    · change n < (s.enqueue ts a).q.next; rw [hq]; exact Nat.lt_succ_of_lt h2
    · change (∀ j ∈ (s.enqueue ts a).q.jobs, _) ∨ _ ∈ (s.enqueue ts a).q.cancels ∧ ∀ d, (s.enqueue ts a).pc = _ → (s.enqueue ts a).woken = true
      rw [hq, hpc]
      rcases h3 with h3 | ⟨h3, h4⟩
      · left
        intro j hj
        rcases mem_insertJob.1 hj with rfl | hj
        · exact Nat.ne_of_gt h2
        · exact h3 j hj
      · exact .inr ⟨h3, fun d hd => hw (h4 d hd)⟩
  | cancel id =>
    obtain ⟨f1, f2, f3, f4, f5⟩ := broadcast_fields { s with q := s.q.cancel id }
    change Doomed (s.cancel id) n
    unfold Timer.cancel Doomed
    rw [f1, f2, f4]
    refine ⟨h1, h2, ?_⟩
    rcases h3 with h3 | ⟨h3, h4⟩
    · exact .inl h3
    · exact .inr ⟨List.mem_append.2 (.inl h3), fun d hd => f5 (h4 d hd)⟩
  | wake => exact doomed_top hi hb ⟨h1, h2, h3⟩
  | timeout =>
    obtain ⟨hw, m, d, hp, _⟩ := hc
    change Doomed s.timeout n
    unfold Timer.timeout
    rw [hp]
    cases hq : s.q.jobs with
    | nil => exact doomed_top hi hb ⟨h1, h2, h3⟩
    | cons j r =>
      dsimp only
      by_cases hj : j.serial = m
      · rw [if_pos hj]
        have hjn : j.serial ≠ n := by
          rcases h3 with h3 | ⟨_, h4⟩
          · exact h3 j (by rw [hq]; simp)
          · intro e
            have := h4 d (by rw [hp, ← hj, e])
            rw [hw] at this; exact absurd this (by simp)
        refine ⟨?_, ?_, .inl ?_⟩
        · rw [top_started]
          simp only [List.mem_append, List.mem_singleton]
          rintro e (he | rfl)
          · exact h1 e he
          · exact hjn
        · rw [top_q]; exact h2
        · rw [top_q]
          intro j' hj' hn
          rcases h3 with h3 | ⟨h3, _⟩
          · exact h3 j' (by rw [hq]; exact List.mem_cons_of_mem _ ((applyCancels_sublist _ _).subset hj')) hn
          · have hd := ids_distinct hi hb
            rw [hq] at hd
            refine applyCancels_removes (List.pairwise_cons.1 hd).2 ?_ hj'
            unfold Job.id; rw [hn]; exact h3
      · rw [if_neg hj]; exact doomed_top hi hb ⟨h1, h2, h3⟩

theorem next_mono {α} {s s' : Timer α} {evs} (h : TimerRun s evs s') : s.q.next ≤ s'.q.next := by
  induction h with
  | nil => exact Nat.le_refl _
  | @snoc evs s' e _ _ ih =>
    refine Nat.le_trans ih ?_
    cases e with
    | tick t => exact Nat.le_refl _
    | enqueue ts a =>
      change _ ≤ (s'.enqueue ts a).q.next
      have hq : (s'.enqueue ts a).q = (s'.q.enqueue ts a).1 := by
        unfold Timer.enqueue; split
        · exact (broadcast_fields _).1
        · rfl
      rw [hq]; exact Nat.le_succ _
    | cancel id => change _ ≤ (s'.cancel id).q.next; unfold Timer.cancel; rw [(broadcast_fields _).1]; exact Nat.le_refl _
    | wake => change _ ≤ s'.top.q.next; rw [top_q]; exact Nat.le_refl _
    | timeout =>
      rcases step_started s' .timeout with h1 | ⟨j, r, _, hq, h1, h2⟩
      · change _ ≤ s'.timeout.q.next
        unfold Timer.timeout
        split
        · split <;> rw [top_q] <;> exact Nat.le_refl _
        · rw [top_q]; exact Nat.le_refl _
      · rw [h2]; exact Nat.le_refl _

/-- A job that is cancelled before its time is never started, whatever happens afterwards.
Missing: jobs cancelled after they have become due but before they were started, see
`C19_late_cancel_fails`; more than 2^64 submissions. -/
theorem C19_cancel_partial {α} {t0 evs evs'} {s s' : Timer α} (h : TimerReach t0 evs s) {j} (hj : j ∈ s.q.jobs)
    (hd : Before s.clock j.ts) (h' : TimerRun (s.cancel j.id) evs' s') (hb : s'.q.next ≤ 2 ^ 64) :
    ∀ e ∈ s'.started, e.1.serial ≠ j.serial := by
  have hi := timer_inv h
  have hi' : TimerInv (s.cancel j.id) := timerInv_step hi (.cancel j.id) trivial
  have h0 : Doomed (s.cancel j.id) j.serial := by
    obtain ⟨f1, f2, f3, f4, f5⟩ := broadcast_fields { s with q := s.q.cancel j.id }
    unfold Timer.cancel Doomed
    rw [f1, f2, f4]
    have hu := List.nodup_append.1 hi.uniq
    refine ⟨fun e he hn => ?_, hi.bound j hj, .inr ⟨List.mem_append.2 (.inr (List.mem_singleton.2 rfl)), fun d hp => ?_⟩⟩
    · exact hu.2.2 _ (List.mem_map.2 ⟨j, hj, rfl⟩) _ (List.mem_map.2 ⟨e, he, rfl⟩) hn.symm
    · obtain ⟨j', h1, h2, h3⟩ := hi.pc _ _ hp
      have : j' = j := by
        have hm := hu.1
        generalize s.q.jobs = l at h1 hj hm
        clear hp
        induction l with
        | nil => simp at hj
        | cons x t ih =>
          simp only [List.map_cons, List.nodup_cons, List.mem_map, not_exists, not_and] at hm
          rcases List.mem_cons.1 hj with rfl | hj1 <;> rcases List.mem_cons.1 h1 with rfl | h11
          · rfl
          · exact absurd h2 (hm.1 j' h11)
          · exact absurd h2.symm (hm.1 j hj1)
          · exact ih h11 hj1 hm.2
      subst this
      unfold Timer.broadcast
      simp only at hp ⊢
      rw [hp]
      simp only [Bool.or_eq_true, decide_eq_true_eq]
      right
      rw [← h3]
      exact (cmp_lt _ _).2 hd
  have : TimerInv s' ∧ Doomed s' j.serial := by
    induction h' with
    | nil => exact ⟨hi', h0⟩
    | @snoc evs1 s1 e hr hc ih =>
      have hle : s1.q.next ≤ 2 ^ 64 := by
        have := next_mono (.snoc (.nil (s := s1)) hc)
        exact Nat.le_trans this hb
      obtain ⟨i1, i2⟩ := ih hle
      exact ⟨timerInv_step i1 e hc, doomed_step i1 e hc hle i2⟩
  exact this.2.1

/-- Executable version of `Timer.can`, for the examples. -/
def canB {α} (s : Timer α) : TimerEv α → Bool
  | .tick t => decide (s.clock.cmp t ≤ 0)
  | .timeout => !s.woken && (match s.pc with | .timed _ d => decide (d.cmp s.clock ≤ 0) | .idle => false)
  | _ => true

theorem canB_can {α} {s : Timer α} {e : TimerEv α} (h : canB s e = true) : s.can e := by
  cases e with
  | tick t => exact of_decide_eq_true (p := s.clock.cmp t ≤ 0) h
  | timeout =>
    unfold canB at h
    rw [Bool.and_eq_true] at h
    refine ⟨by simpa using h.1, ?_⟩
    cases hp : s.pc with
    | idle => rw [hp] at h; simp at h
    | timed n d => rw [hp] at h; exact ⟨n, d, rfl, of_decide_eq_true h.2⟩
  | _ => trivial

/-- Execute events. -/
def execs {α} (s : Timer α) : List (TimerEv α) → Option (Timer α)
  | [] => some s
  | e :: t => if canB s e then execs (s.step e) t else none

theorem execs_run {α} {s0 s : Timer α} {evs0 evs : List (TimerEv α)} (h0 : TimerRun s0 evs0 s) {s'}
    (h : execs s evs = some s') : TimerRun s0 (evs0 ++ evs) s' := by
  induction evs generalizing s evs0 with
  | nil => simp only [execs, Option.some.injEq] at h; subst h; simpa using h0
  | cons e t ih =>
    simp only [execs] at h
    split at h
    · rename_i hc
      have := ih (.snoc h0 (canB_can hc)) h
      simpa using this
    · simp at h

/-- The claim that a job cancelled before it ran is never run fails: the timer thread whose wait has
timed out starts the job without looking at the cancellations made before it got the mutex back. -/
theorem C19_late_cancel_fails : ∃ (evs : List (TimerEv Unit)) (s : Timer Unit), TimerReach ⟨0, 0⟩ evs s ∧
    (∃ j ∈ s.q.jobs, ∃ s', TimerRun (s.cancel j.id) [.timeout] s' ∧ (j, s'.clock) ∈ s'.started) :=
  ⟨[.enqueue ⟨1, 0⟩ (), .wake, .tick ⟨1, 0⟩], _, execs_run .nil rfl,
    ⟨0, ⟨1, 0⟩, ()⟩, List.mem_singleton.2 rfl, _, execs_run .nil rfl, List.mem_singleton.2 rfl⟩

/-- Example: three jobs, one of them cancelled in time. -/
example : ∃ (evs : List (TimerEv Nat)) (s : Timer Nat), TimerReach ⟨0, 0⟩ evs s ∧
    s.started.map (·.1.data) = [7, 5] ∧ s.q.next = 3 ∧ s.q.jobs = [] :=
  ⟨[.enqueue ⟨2, 0⟩ 5, .wake, .enqueue ⟨1, 0⟩ 7, .enqueue ⟨1, 0⟩ 8, .cancel 2, .wake,
    .tick ⟨1, 5⟩, .timeout, .tick ⟨3, 0⟩, .timeout], _, execs_run .nil rfl, rfl, rfl, rfl⟩

/-! ### Session tables -/

/-- A session table after the given operations, the latest one first. -/
def sessRun (ttl : Nat) : List SessEv → SessTab
  | [] => SessTab.init
  | .add t k b :: h => ((sessRun ttl h).add ttl t k b).1
  | .find t k :: h => ((sessRun ttl h).find ttl t k).1
  | .removeKey k :: h => (sessRun ttl h).removeKey k
  | .removeBe b :: h => (sessRun ttl h).removeBe b
  | .expire u :: h => ((sessRun ttl h).expire u).1

theorem sessRun_inv (ttl : Nat) {h : List SessEv} {t : TS} (hc : ClockOk h t) :
    SessInv (sessRun ttl h) (t.addSec ttl) ∧ SessAbs (sessRun ttl h) fun k => sessionOf ttl k h := by
  induction hc with
  | nil => exact ⟨sessInv_init _, sessAbs_init⟩
  | add _ hn ih => exact ⟨sessInv_add ih.1 hn _ _, sessAbs_add ih.1 ih.2 _ _⟩
  | find _ hn ih => exact ⟨sessInv_find ih.1 hn _, (sessAbs_find ih.1 ih.2 _).1⟩
  | removeKey _ ih => exact ⟨(sessInv_removeKey ih.1 _).1, (sessInv_removeKey ih.1 _).2 _ ih.2⟩
  | removeBe _ ih => exact ⟨(sessInv_removeBe ih.1 _).1, (sessInv_removeBe ih.1 _).2 _ ih.2⟩
  | expire _ ih => exact ⟨(sessInv_expire ih.1 _).1, (sessInv_expire ih.1 _).2 _ ih.2⟩

/-- After any history of operations with a clock that does not go back, a look-up gives the
backend most recently associated with the key, unless that session was removed, its backend was
removed or it was collected as expired. -/
theorem C17_lookup (ttl : Nat) {h : List SessEv} {t : TS} (hc : ClockOk h t) (now : TS) (key : Bytes) :
    ((sessRun ttl h).find ttl now key).2 = (sessionOf ttl key h).map (·.1) :=
  (sessAbs_find (sessRun_inv ttl hc).1 (sessRun_inv ttl hc).2 key).2

/-- The sessions in the table are exactly those, each with its expiry time; there is at most one for a
key, and they are listed in order of expiry. The hash table leads to exactly the listed sessions. -/
theorem C17_table (ttl : Nat) {h : List SessEv} {t : TS} (hc : ClockOk h t) :
    (∀ k b e, sessionOf ttl k h = some (b, e) ↔ ∃ s ∈ (sessRun ttl h).head, s.key = k ∧ s.be = b ∧ s.expire = e) ∧
    ((sessRun ttl h).head.map (·.key)).Nodup ∧
    (sessRun ttl h).head.Pairwise (fun a b => NotAfter a.expire b.expire) ∧
    (∀ k p, (sessRun ttl h).hash.lookup k = some p ↔ ∃ s ∈ (sessRun ttl h).head, s.key = k ∧ s.ptr = p) :=
  have hi := sessRun_inv ttl hc
  ⟨hi.2, hi.1.keys, hi.1.sorted, hi.1.hash⟩

/-- A look-up prolongs the life of the session it finds and leaves all others as they are. -/
theorem C17_extends (ttl : Nat) {h : List SessEv} {t : TS} (hc : ClockOk h t) (now : TS) (key : Bytes) (x : Sess) :
    x ∈ ((sessRun ttl h).find ttl now key).1.head ↔
      (x ∈ (sessRun ttl h).head ∧ x.key ≠ key) ∨
      (∃ s ∈ (sessRun ttl h).head, s.key = key ∧ x = { s with expire := now.addSec ttl }) := by
  have hi := (sessRun_inv ttl hc).1
  rcases find_spec hi (ttl := ttl) (now := now) key with ⟨h1, he⟩ | ⟨y, hy, hk, he⟩
  · rw [he]
    constructor
    · exact fun hx => .inl ⟨hx, h1 x hx⟩
    · rintro (hx | ⟨s, hs, hk, _⟩)
      · exact hx.1
      · exact absurd hk (h1 s hs)
  · rw [he]
    simp only [List.mem_append, List.mem_singleton, mem_unlink]
    constructor
    · rintro (⟨hx, hp⟩ | rfl)
      · exact .inl ⟨hx, fun e => hp (by rw [hi.key_inj hx hy (e.trans hk.symm)])⟩
      · exact .inr ⟨y, hy, hk, rfl⟩
    · rintro (⟨hx, hp⟩ | ⟨s, hs, hk', rfl⟩)
      · exact .inl ⟨hx, fun e => hp (by rw [ptr_inj hi.ptrs hx hy e, hk])⟩
      · rw [hi.key_inj hs hy (hk'.trans hk.symm)]; exact .inr rfl

/-- Example: two sessions, the first one extended; the job run at time 12 collects the second. -/
def exHist : List SessEv := [.expire ⟨12, 0⟩, .find ⟨3, 0⟩ b!"a", .add ⟨2, 0⟩ b!"b" 1, .add ⟨1, 0⟩ b!"a" 0]

example : ClockOk exHist ⟨3, 0⟩ ∧ sessionOf 10 b!"a" exHist = some (0, ⟨13, 0⟩) ∧ sessionOf 10 b!"b" exHist = none :=
  ⟨.expire (.find (.add (.add (t := ⟨0, 0⟩) .nil (.inl (by decide))) (.inl (by decide))) (.inl (by decide))), rfl, rfl⟩

/-! ### Collection of expired sessions -/

/-- States reachable from start. -/
inductive SessReach (ttl : Nat) (t0 : TS) : SessSys → Prop
  | init : SessReach ttl t0 ⟨SessTab.init, Timer.init t0, []⟩
  | step {s s'} : SessReach ttl t0 s → SessStep ttl s s' → SessReach ttl t0 s'

/-- Some collection job, waiting or about to run, is due no later than the given time. -/
def CollectsBy (s : SessSys) (t : TS) : Prop :=
  ∃ j, (j ∈ s.timer.q.jobs ∨ j ∈ s.running) ∧ j.data = .expire ∧ NotAfter j.ts t

structure SysInv (ttl : Nat) (s : SessSys) : Prop where
  timer : TimerInv s.timer
  tab : SessInv s.tab (s.timer.clock.addSec ttl)
  safe : ∀ j ∈ s.timer.q.jobs, j.data = .expire → j.id ∉ s.timer.q.cancels
  given : ∀ id ∈ s.timer.q.cancels, ∃ n, n < s.timer.q.next ∧ id = n % jobIds
  armed : ∀ x ∈ s.tab.head, CollectsBy s x.expire

theorem enqueue_fields {α} (s : Timer α) (ts : TS) (a : α) : (s.enqueue ts a).q = (s.q.enqueue ts a).1 ∧
    (s.enqueue ts a).clock = s.clock ∧ (s.enqueue ts a).started = s.started := by
  unfold Timer.enqueue
  split
  · exact ⟨(broadcast_fields _).1, (broadcast_fields _).2.2.1, (broadcast_fields _).2.2.2.1⟩
  · exact ⟨rfl, rfl, rfl⟩

/-- Adding a job keeps everything but the requirement on what is armed. -/
theorem safe_enqueue {t : Timer JobKind} (hi : TimerInv t) (hb : t.q.next < jobIds) (ts : TS) (a : JobKind)
    (hs : ∀ j ∈ t.q.jobs, j.data = .expire → j.id ∉ t.q.cancels)
    (hg : ∀ id ∈ t.q.cancels, ∃ n, n < t.q.next ∧ id = n % jobIds) :
    (∀ j ∈ (t.enqueue ts a).q.jobs, j.data = .expire → j.id ∉ (t.enqueue ts a).q.cancels) ∧
    (∀ id ∈ (t.enqueue ts a).q.cancels, ∃ n, n < (t.enqueue ts a).q.next ∧ id = n % jobIds) := by
  rw [(enqueue_fields t ts a).1]
  refine ⟨fun j hj hd hc => ?_, fun id hid => ?_⟩
  · rcases mem_insertJob.1 hj with rfl | hj
    · obtain ⟨n, h1, h2⟩ := hg _ hc
      change t.q.next % jobIds = n % jobIds at h2
      rw [Nat.mod_eq_of_lt hb, Nat.mod_eq_of_lt (by omega)] at h2
      omega
    · exact hs j hj hd hc
  · obtain ⟨n, h1, h2⟩ := hg id hid
    exact ⟨n, Nat.lt_succ_of_lt h1, h2⟩

/-- The invariant after arming the job for the first session, if asked to. -/
theorem sys_arm {ttl : Nat} {s : SessSys} (ht : TimerInv s.timer) (htab : SessInv s.tab (s.timer.clock.addSec ttl))
    (hs : ∀ j ∈ s.timer.q.jobs, j.data = .expire → j.id ∉ s.timer.q.cancels)
    (hg : ∀ id ∈ s.timer.q.cancels, ∃ n, n < s.timer.q.next ∧ id = n % jobIds) (o : Option TS)
    (hb : (s.arm o).timer.q.next ≤ jobIds)
    (ha : ∀ x ∈ s.tab.head, CollectsBy s x.expire ∨ ∃ ts, o = some ts ∧ NotAfter ts x.expire) :
    SysInv ttl (s.arm o) := by
  cases o with
  | none =>
    refine ⟨ht, htab, hs, hg, fun x hx => ?_⟩
    rcases ha x hx with h | ⟨ts, h, _⟩
    · exact h
    · simp at h
  | some ts =>
    have hb' : s.timer.q.next < jobIds := by
      change (s.timer.enqueue ts .expire).q.next ≤ _ at hb
      rw [(enqueue_fields _ _ _).1] at hb
      exact hb
    have hse := safe_enqueue ht hb' ts .expire hs hg
    refine ⟨timerInv_step ht (.enqueue ts .expire) trivial, ?_, hse.1, hse.2, fun x hx => ?_⟩
    · change SessInv s.tab ((s.timer.enqueue ts .expire).clock.addSec ttl)
      rw [(enqueue_fields _ _ _).2.1]; exact htab
    · unfold CollectsBy
      change ∃ j, (j ∈ (s.timer.enqueue ts .expire).q.jobs ∨ j ∈ s.running) ∧ _
      rw [(enqueue_fields _ _ _).1]
      rcases ha x hx with ⟨j, h1, h2⟩ | ⟨ts', h, h1⟩
      · refine ⟨j, ?_, h2⟩
        rcases h1 with h1 | h1
        · exact .inl (mem_insertJob.2 (.inr h1))
        · exact .inr h1
      · simp only [Option.some.injEq] at h
        subst h
        exact ⟨⟨s.timer.q.next, ts, .expire⟩, .inl (mem_insertJob.2 (.inl rfl)), rfl, h1⟩

theorem newly_nil {α} {t t' : Timer α} (h : t'.started = t.started) : newlyStarted t t' = [] := by
  unfold newlyStarted; rw [h]; simp

theorem newly_one {α} {t t' : Timer α} {j c} (h : t'.started = t.started ++ [(j, c)]) : newlyStarted t t' = [j] := by
  unfold newlyStarted; rw [h]; simp

theorem sys_timer {ttl : Nat} {s : SessSys} (hi : SysInv ttl s) (e : TimerEv JobKind) (hc : s.timer.can e)
    (hf : s.foreign e) (hb : (s.timer.step e).q.next ≤ jobIds) :
    SysInv ttl { s with timer := s.timer.step e, running := s.running ++ newlyStarted s.timer (s.timer.step e) } := by
  have ht := timerInv_step hi.timer e hc
  -- processing of cancellations keeps collection jobs
  have hkeep : ∀ (l : List (Job JobKind)) (j : Job JobKind), (∀ j ∈ l, j ∈ s.timer.q.jobs) → j ∈ l → j.data = .expire →
      j ∈ applyCancels s.timer.q.cancels l :=
    fun l j hl hj hd => applyCancels_keeps hj (hi.safe j (hl j hj) hd)
  have htop : ∀ t' : Timer JobKind, t' = s.timer.top →
      TimerInv t' → SysInv ttl { s with timer := t', running := s.running ++ newlyStarted s.timer t' } := by
    rintro t' rfl hti
    refine ⟨hti, ?_, ?_, ?_, ?_⟩
    · show SessInv s.tab (s.timer.top.clock.addSec ttl)
      rw [top_clock]; exact hi.tab
    · show ∀ j ∈ s.timer.top.q.jobs, _ → j.id ∉ s.timer.top.q.cancels
      rw [top_q]; simp
    · show ∀ id ∈ s.timer.top.q.cancels, _
      rw [top_q]; simp
    · intro x hx
      obtain ⟨j, h1, h2, h3⟩ := hi.armed x hx
      refine ⟨j, ?_, h2, h3⟩
      show j ∈ s.timer.top.q.jobs ∨ j ∈ s.running ++ newlyStarted s.timer s.timer.top
      rw [top_q, newly_nil (top_started _), List.append_nil]
      rcases h1 with h1 | h1
      · exact .inl (hkeep _ j (fun _ h => h) h1 h2)
      · exact .inr h1
  cases e with
  | tick t =>
    have hn : NotAfter s.timer.clock t := (cmp_le _ _).1 hc
    refine ⟨ht, hi.tab.mono (NotAfter.add ttl hn), hi.safe, hi.given, fun x hx => ?_⟩
    obtain ⟨j, h1, h2⟩ := hi.armed x hx
    refine ⟨j, ?_, h2⟩
    rcases h1 with h1 | h1
    · exact .inl h1
    · exact .inr (List.mem_append.2 (.inl h1))
  | enqueue ts a =>
    change (s.timer.enqueue ts a).q.next ≤ _ at hb
    have hb' : s.timer.q.next < jobIds := by
      rw [(enqueue_fields _ _ _).1] at hb; exact hb
    have hse := safe_enqueue hi.timer hb' ts a hi.safe hi.given
    refine ⟨ht, ?_, hse.1, hse.2, fun x hx => ?_⟩
    · change SessInv s.tab ((s.timer.enqueue ts a).clock.addSec ttl)
      rw [(enqueue_fields _ _ _).2.1]; exact hi.tab
    · obtain ⟨j, h1, h2⟩ := hi.armed x hx
      refine ⟨j, ?_, h2⟩
      change j ∈ (s.timer.enqueue ts a).q.jobs ∨ j ∈ s.running ++ _
      rw [(enqueue_fields _ _ _).1]
      rcases h1 with h1 | h1
      · exact .inl (mem_insertJob.2 (.inr h1))
      · exact .inr (List.mem_append.2 (.inl h1))
  | cancel id =>
    obtain ⟨f1, f2, f3, f4, f5⟩ := broadcast_fields { s.timer with q := s.timer.q.cancel id }
    refine ⟨ht, ?_, ?_, ?_, fun x hx => ?_⟩
    · change SessInv s.tab ((s.timer.cancel id).clock.addSec ttl)
      unfold Timer.cancel; rw [f3]; exact hi.tab
    · change ∀ j ∈ (s.timer.cancel id).q.jobs, _ → j.id ∉ (s.timer.cancel id).q.cancels
      unfold Timer.cancel; rw [f1]
      intro j hj hd hm
      rcases List.mem_append.1 hm with hm | hm
      · exact hi.safe j hj hd hm
      · simp only [List.mem_singleton] at hm; exact hf.2 j hj hd hm
    · change ∀ x ∈ (s.timer.cancel id).q.cancels, ∃ n, n < (s.timer.cancel id).q.next ∧ _
      unfold Timer.cancel; rw [f1]
      intro x hx
      rcases List.mem_append.1 hx with hx | hx
      · exact hi.given x hx
      · simp only [List.mem_singleton] at hx; subst hx; exact hf.1
    · obtain ⟨j, h1, h2⟩ := hi.armed x hx
      refine ⟨j, ?_, h2⟩
      change j ∈ (s.timer.cancel id).q.jobs ∨ j ∈ s.running ++ _
      unfold Timer.cancel; rw [f1]
      rcases h1 with h1 | h1
      · exact .inl h1
      · exact .inr (List.mem_append.2 (.inl h1))
  | wake => exact htop _ rfl ht
  | timeout =>
    rcases step_started s.timer .timeout with h1 | ⟨j, r, _, hq, h1, h2⟩
    · have : (s.timer.step .timeout) = s.timer.top := by
        change s.timer.timeout = _
        change s.timer.timeout.started = _ at h1
        unfold Timer.timeout at h1 ⊢
        split
        · rename_i hp hq
          rw [hp, hq] at h1
          dsimp only at h1 ⊢
          split
          · rename_i hj
            rw [if_pos hj, top_started] at h1
            have := congrArg List.length h1
            simp at this
          · rfl
        · rfl
      exact htop _ this ht
    · have hcl : (s.timer.step .timeout).clock = s.timer.clock := by
        change s.timer.timeout.clock = _
        unfold Timer.timeout
        split
        · split <;> rw [top_clock]
        · rw [top_clock]
      refine ⟨ht, ?_, ?_, ?_, fun x hx => ?_⟩
      · show SessInv s.tab ((s.timer.step .timeout).clock.addSec ttl)
        rw [hcl]; exact hi.tab
      · show ∀ j ∈ (s.timer.step .timeout).q.jobs, _ → j.id ∉ (s.timer.step .timeout).q.cancels
        rw [h2]; simp
      · show ∀ id ∈ (s.timer.step .timeout).q.cancels, _
        rw [h2]; simp
      · obtain ⟨j', h3, h4, h5⟩ := hi.armed x hx
        refine ⟨j', ?_, h4, h5⟩
        show j' ∈ (s.timer.step .timeout).q.jobs ∨ j' ∈ s.running ++ newlyStarted s.timer (s.timer.step .timeout)
        rw [h2, newly_one h1]
        rcases h3 with h3 | h3
        · rw [hq] at h3
          rcases List.mem_cons.1 h3 with rfl | h3
          · exact .inr (List.mem_append.2 (.inr (List.mem_singleton.2 rfl)))
          · exact .inl (hkeep r j' (fun k hk => by rw [hq]; exact List.mem_cons_of_mem _ hk) h3 h4)
        · exact .inr (List.mem_append.2 (.inl h3))

theorem arm_next (s : SessSys) (o : Option TS) : s.timer.q.next ≤ (s.arm o).timer.q.next := by
  cases o with
  | none => exact Nat.le_refl _
  | some ts => change _ ≤ (s.timer.enqueue ts .expire).q.next; rw [(enqueue_fields _ _ _).1]; exact Nat.le_succ _

theorem sess_next {ttl : Nat} {s s' : SessSys} (h : SessStep ttl s s') : s.timer.q.next ≤ s'.timer.q.next := by
  cases h with
  | @add k be => exact arm_next { s with tab := (s.tab.add ttl s.timer.clock k be).1 } (s.tab.add ttl s.timer.clock k be).2
  | timer hc hf => exact next_mono (.snoc (.nil (s := s.timer)) hc)
  | @run a j b _ _ => exact arm_next { s with tab := (s.tab.expire j.ts).1, running := a ++ b } (s.tab.expire j.ts).2
  | _ => exact Nat.le_refl _

theorem sys_step {ttl : Nat} {s s' : SessSys} (hi : SysInv ttl s) (h : SessStep ttl s s') (hb : s'.timer.q.next ≤ jobIds) :
    SysInv ttl s' := by
  cases h with
  | @add k be =>
    refine sys_arm (s := { s with tab := (s.tab.add ttl s.timer.clock k be).1 }) hi.timer
      (sessInv_add hi.tab (NotAfter.refl _) k be) hi.safe hi.given _ hb ?_
    have hd : (s.tab.add ttl s.timer.clock k be).1.head = without s.tab k ++ [⟨s.tab.fresh, k, be, s.timer.clock.addSec ttl⟩] := by
      unfold SessTab.add without hashInsert
      cases s.tab.hash.lookup k <;> rfl
    have hd2 : (s.tab.add ttl s.timer.clock k be).2 = if (without s.tab k ++ [(⟨s.tab.fresh, k, be, s.timer.clock.addSec ttl⟩ : Sess)]).length = 1 then
        some (s.timer.clock.addSec ttl) else none := by
      unfold SessTab.add without hashInsert
      cases s.tab.hash.lookup k <;> rfl
    show ∀ x ∈ (s.tab.add ttl s.timer.clock k be).1.head, _
    rw [hd, hd2]
    intro x hx
    rcases List.mem_append.1 hx with hx | hx
    · exact .inl (hi.armed x ((without_sublist _ _).subset hx))
    · simp only [List.mem_singleton] at hx
      subst hx
      cases hw : without s.tab k with
      | nil => right; exact ⟨_, by simp, NotAfter.refl _⟩
      | cons y r =>
        left
        have hy : y ∈ s.tab.head := (without_sublist s.tab k).subset (by rw [hw]; simp)
        obtain ⟨j, h1, h2, h3⟩ := hi.armed y hy
        exact ⟨j, h1, h2, NotAfter.trans h3 (hi.tab.last y hy)⟩
  | @find k =>
    refine ⟨hi.timer, sessInv_find hi.tab (NotAfter.refl _) k, hi.safe, hi.given, fun x hx => ?_⟩
    rcases find_spec hi.tab (ttl := ttl) (now := s.timer.clock) k with ⟨_, he⟩ | ⟨y, hy, hk, he⟩
    · change x ∈ (s.tab.find ttl s.timer.clock k).1.head at hx
      rw [he] at hx; exact hi.armed x hx
    · change x ∈ (s.tab.find ttl s.timer.clock k).1.head at hx
      rw [he] at hx
      rcases List.mem_append.1 hx with hx | hx
      · exact hi.armed x (mem_unlink.1 hx).1
      · simp only [List.mem_singleton] at hx
        subst hx
        obtain ⟨j, h1, h2, h3⟩ := hi.armed y hy
        exact ⟨j, h1, h2, NotAfter.trans h3 (hi.tab.last y hy)⟩
  | @removeKey k =>
    refine ⟨hi.timer, (sessInv_removeKey hi.tab k).1, hi.safe, hi.given, fun x hx => hi.armed x ?_⟩
    have hd : (s.tab.removeKey k).head = without s.tab k := by
      unfold SessTab.removeKey without hashDelete
      cases s.tab.hash.lookup k <;> rfl
    change x ∈ (s.tab.removeKey k).head at hx
    rw [hd] at hx
    exact (without_sublist _ _).subset hx
  | @removeBe b =>
    refine ⟨hi.timer, (sessInv_removeBe hi.tab b).1, hi.safe, hi.given, fun x hx => hi.armed x ?_⟩
    change x ∈ (removeBeLoop b s.tab.head s.tab.hash).1 at hx
    rw [removeBeLoop_eq] at hx
    exact (List.mem_filter.1 hx).1
  | timer hc hf => exact sys_timer hi _ hc hf hb
  | @run a j b hr hd =>
    refine sys_arm (s := { s with tab := (s.tab.expire j.ts).1, running := a ++ b }) hi.timer
      (sessInv_expire hi.tab j.ts).1 hi.safe hi.given _ hb ?_
    have hh : (s.tab.expire j.ts).1.head = s.tab.head.dropWhile fun s => decide (s.expire.cmp j.ts ≤ 0) := by
      unfold SessTab.expire; rw [expireLoop_eq]
    have ho : (s.tab.expire j.ts).2 = (s.tab.head.dropWhile fun s => decide (s.expire.cmp j.ts ≤ 0)).head?.map (·.expire) := by
      unfold SessTab.expire; rw [expireLoop_eq]
    have hso := hi.tab.sorted.sublist (List.dropWhile_sublist fun s : Sess => decide (s.expire.cmp j.ts ≤ 0))
    show ∀ x ∈ (s.tab.expire j.ts).1.head, _
    rw [hh, ho]
    intro x hx
    right
    generalize s.tab.head.dropWhile (fun s => decide (s.expire.cmp j.ts ≤ 0)) = l at hx hso
    cases l with
    | nil => simp at hx
    | cons y r =>
      refine ⟨y.expire, rfl, ?_⟩
      rcases List.mem_cons.1 hx with rfl | hx
      · exact NotAfter.refl _
      · exact (List.pairwise_cons.1 hso).1 x hx
  | @runOther a j b hr hd =>
    refine ⟨hi.timer, hi.tab, hi.safe, hi.given, fun x hx => ?_⟩
    obtain ⟨j', h1, h2, h3⟩ := hi.armed x hx
    refine ⟨j', ?_, h2, h3⟩
    rcases h1 with h1 | h1
    · exact .inl h1
    · rw [hr] at h1
      right
      rcases List.mem_append.1 h1 with h1 | h1
      · exact List.mem_append.2 (.inl h1)
      · rcases List.mem_cons.1 h1 with rfl | h1
        · rw [hd] at h2; simp at h2
        · exact List.mem_append.2 (.inr h1)

theorem sys_reach {ttl : Nat} {t0 : TS} {s : SessSys} (h : SessReach ttl t0 s) (hb : s.timer.q.next ≤ jobIds) : SysInv ttl s := by
  induction h with
  | init =>
    refine ⟨timerInv_init t0, sessInv_init _, ?_, ?_, ?_⟩ <;> simp [Timer.init, JobQ.init, SessTab.init]
  | step _ h ih => exact sys_step (ih (Nat.le_trans (sess_next h) hb)) h hb

/-- Whenever there is a session, a collection job is pending or about to run that is due no later
than the session expires (for the first 2^64 jobs of the program). -/
theorem C18_armed (ttl : Nat) (t0 : TS) (s : SessSys) (h : SessReach ttl t0 s) (hb : s.timer.q.next ≤ 2 ^ 64) :
    ∀ x ∈ s.tab.head, ∃ j, (j ∈ s.timer.q.jobs ∨ j ∈ s.running) ∧ j.data = .expire ∧ NotAfter j.ts x.expire :=
  (sys_reach h hb).armed

/-- When the timer has nothing left to do at the present time, there is no expired session: a
session that outlives its time is one whose collection is under way. -/
theorem C18_collected (ttl : Nat) (t0 : TS) (s : SessSys) (h : SessReach ttl t0 s) (hb : s.timer.q.next ≤ 2 ^ 64)
    (hw : s.timer.woken = false) (ht : ¬ s.timer.can .timeout) (hr : s.running = []) :
    ∀ x ∈ s.tab.head, Before s.timer.clock x.expire := by
  intro x hx
  have hi := sys_reach h hb
  obtain ⟨j, h1, h2, h3⟩ := hi.armed x hx
  rw [hr] at h1
  have hj : j ∈ s.timer.q.jobs := by simpa using h1
  refine Classical.byContradiction fun hn => ht ?_
  have hd : NotAfter j.ts s.timer.clock := NotAfter.trans h3 ((notAfter_iff _ _).2 hn)
  refine ⟨hw, ?_⟩
  have hpc : ∃ n d, s.timer.pc = .timed n d := by
    rcases hi.timer.calm hw with h1 | ⟨n, d, h1, _⟩
    · cases hp : s.timer.pc with
      | idle => have := h1.2 hp; rw [this] at hj; simp at hj
      | timed n d => exact ⟨n, d, rfl⟩
    · exact ⟨n, d, h1⟩
  obtain ⟨n, d, hp⟩ := hpc
  exact ⟨n, d, hp, (cmp_le _ _).2 (due_pc hi.timer hj hd hw hp)⟩

/-- Example: a session is added at time 1 and collected at time 3. -/
example : ∃ s, SessReach 2 ⟨1, 0⟩ s ∧ s.tab.head.length = 1 ∧ s.timer.q.next ≤ 2 ^ 64 ∧
    s.timer.woken = false ∧ s.running = [] ∧ s.timer.clock = ⟨1, 0⟩ :=
  ⟨_, .step (.step .init (.add (k := b!"k") (be := 0))) (.timer (e := .wake) trivial trivial), rfl, by decide, rfl, rfl, rfl⟩

example : ∃ s, SessReach 2 ⟨1, 0⟩ s ∧ s.tab.head = [] ∧ s.timer.started.length = 1 :=
  ⟨_, .step (.step (.step (.step (.step .init (.add (k := b!"k") (be := 0))) (.timer (e := .wake) trivial trivial))
      (.timer (e := .tick ⟨3, 0⟩) (by show (_ : Int) ≤ 0; decide) trivial))
      (.timer (e := .timeout) ⟨rfl, 0, ⟨3, 0⟩, rfl, by decide⟩ trivial))
    (.run (a := []) (j := ⟨0, ⟨3, 0⟩, .expire⟩) (b := []) rfl rfl), rfl, rfl⟩

/-- Example: a job cancelled before its time. -/
example : ∃ (evs : List (TimerEv Nat)) (s : Timer Nat), TimerReach ⟨0, 0⟩ evs s ∧
    ∃ j ∈ s.q.jobs, Before s.clock j.ts ∧ s.pc = .timed j.serial j.ts :=
  ⟨[.enqueue ⟨2, 0⟩ 5, .wake], _, execs_run .nil rfl, ⟨0, ⟨2, 0⟩, 5⟩, List.mem_singleton.2 rfl, .inl (by decide), rfl⟩

end Pound.Props
