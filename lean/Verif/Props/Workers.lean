import Verif.Proof.Workers

/-!
C35, C36, C50: worker pool, dispatcher, clean-up handlers and supervisor.
-/

namespace Pound.Props
open Spec

/-! ### C35 -/

/-- At any time: worker_count is the number of workers, between the minimum and maximum; active_threads that of the busy ones, which is not
greater.  Connections are handed out in the order of arrival, each to one worker: what was handed out, followed by the queue, is what arrived; and each connection
handed out is completed, or the one some busy worker has. -/
theorem C35_pool_partial (min max : Nat) (hm : min ≤ max) (p : Pool) (h : PoolReach min max p) :
    p.count = howMany isWorker p ∧ min ≤ p.count ∧ p.count ≤ max ∧
    p.active = howMany isBusy p ∧ p.active ≤ p.count ∧
    p.arrived = p.out.map (·.2) ++ p.queue ∧
    p.done + howMany isBusy p = p.out.length ∧
    (∀ t c, p.thr[t]? = some (.busy c) → ∃ a b, p.out = a ++ (t, c) :: b ∧ ∀ x ∈ b, x.1 ≠ t) := by
  have hi := pool_reach_inv hm h
  have h1 := cnt_busy_le p.thr
  have h2 := cnt_workers p.thr
  have h3 := hi.count
  have h4 := hi.active
  have h5 := hi.done
  refine ⟨h3, hi.lo, hi.hi, h4, by omega, hi.order, ?_, hi.last⟩
  rw [h4] at h5
  exact h5

/-- No connection is forgotten (if the minimum is not 0): when there is one in the queue, some worker is busy and will look at the queue later, or workers that are
awake already hand out the first one.  Assumed: a signal is not consumed by a thread that times out. -/
theorem C35_progress_partial (min max : Nat) (hm : min ≤ max) (h1 : 1 ≤ min) (p : Pool) (h : PoolReach min max p) (c : Nat) (r : List Nat) (hq : p.queue = c :: r) :
    (∃ (t : Nat) (c : Nat), p.thr[t]? = some (.busy c)) ∨ ∃ p' t, AwakeRun min p p' ∧ p'.out = p.out ++ [(t, c)] :=
  progress h1 p.count p rfl (pool_reach_inv hm h) hq

/-- No worker sleeps without need: while one sleeps, there are at least as many workers on their way to the queue as connections in it. -/
theorem C35_no_sleeper_partial (min max : Nat) (p : Pool) (h : PoolReach min max p) (hs : 0 < howMany isAsleep p) : p.queue.length ≤ howMany isAwake p :=
  reach_noNeed h hs

example : ∃ p, PoolReach 2 3 p ∧ howMany isAsleep p = 1 ∧ p.queue = [7] ∧ howMany isAwake p = 1 := by
  have h0 : PoolReach 2 3 ⟨2, 0, [], [.waiting false, .waiting false], [], [], 0⟩ := .start ⟨rfl, rfl, rfl, rfl, rfl, rfl, rfl, by simp⟩
  have hs : Signalled [.waiting false, .waiting false] [.woken false, .waiting false] := by
    refine ⟨rfl, ?_, fun _ => ⟨0, false, rfl, rfl⟩⟩
    intro i
    match i with
    | 0 => exact Or.inr ⟨⟨false, rfl⟩, rfl⟩
    | 1 => exact Or.inl rfl
    | i + 2 => exact Or.inl rfl
  exact ⟨⟨2, 0, [7], [.woken false, .waiting false], [7], [], 0⟩, .step h0 (.arrive 7 ⟨_, hs, rfl⟩), rfl, rfl, rfl⟩

/-- The workers are started before connections are accepted: if no wait times out meanwhile, this ends in the state assumed above. -/
theorem C35_start_partial (min : Nat) (b : Boot) (h : BootReach false min b) (hl : b.left = 0) (ha : b.adjust = false) : Booted min b.pool := by
  have inv : ∀ b, BootReach false min b → b.pool.count = min + (if b.adjust then 1 else 0) ∧ b.pool.active = 0 ∧ b.pool.queue = [] ∧ b.pool.arrived = [] ∧
      b.pool.out = [] ∧ b.pool.done = 0 ∧ b.pool.thr.length + b.left = min ∧
      ∀ s ∈ b.pool.thr, s = .ready ∨ (∃ b, s = .waiting b) ∨ s = .woken false := by
    intro b h
    induction h with
    | start => exact ⟨rfl, rfl, rfl, rfl, rfl, rfl, Nat.zero_add _, by simp [Boot.init]⟩
    | @step b b' _ hs ih =>
      obtain ⟨h1, h2, h3, h4, h5, h6, h7, h8⟩ := ih
      have hset : ∀ (t : Nat) (s : TSt), (s = .ready ∨ (∃ b, s = .waiting b) ∨ s = .woken false) →
          ∀ x ∈ b.pool.thr.set t s, x = .ready ∨ (∃ b, x = .waiting b) ∨ x = .woken false := by
        intro t s hs x hx
        rcases List.mem_or_eq_of_mem_set hx with h | rfl
        · exact h8 x h
        · exact hs
      cases hs with
      | start ha hl e =>
        subst e
        rw [ha] at h1
        refine ⟨by simp [Pool.start, h1], h2, h3, h4, h5, h6, by simp [Pool.start]; omega, ?_⟩
        intro s hs
        rcases List.mem_append.mp hs with hs | hs
        · exact h8 s hs
        · exact Or.inl (List.mem_singleton.mp hs)
      | adjust ha e =>
        subst e
        rw [ha] at h1
        refine ⟨?_, h2, h3, h4, h5, h6, h7, h8⟩
        simp at h1 ⊢
        unfold udecr
        rw [if_neg (by omega)]
        omega
      | awake p' hs e =>
        subst e
        cases hs with
        | look t ht hf =>
          unfold Pool.look at hf
          rw [h3] at hf
          have hf : p' = { b.pool with queue := [], thr := b.pool.thr.set t (.waiting (b.pool.count != min)) } := hf
          subst hf
          exact ⟨h1, h2, rfl, h4, h5, h6, by simpa using h7, hset t _ (Or.inr (Or.inl ⟨_, rfl⟩))⟩
        | late t ht hf =>
          rcases h8 _ (List.mem_of_getElem? ht) with h | ⟨b, h⟩ | h <;> cases h
      | timeout t ht => cases ht
      | spurious t c ht e =>
        subst e
        exact ⟨h1, h2, h3, h4, h5, h6, by simpa using h7, hset t _ (Or.inr (Or.inr rfl))⟩
  obtain ⟨h1, h2, h3, h4, h5, h6, h7, h8⟩ := inv b h
  rw [ha] at h1
  exact ⟨by simpa using h1, h2, h3, h4, h5, h6, by omega, h8⟩

theorem signalled_one {ts : List TSt} {t : Nat} {b : Bool} (h : ts[t]? = some (.waiting b)) : Signalled ts (ts.set t (.woken false)) := by
  have hlen := (List.getElem?_eq_some_iff.mp h).1
  refine ⟨by simp, ?_, fun _ => ⟨t, b, h, List.getElem?_set_self hlen⟩⟩
  intro i
  by_cases e : t = i
  · subst e
    exact Or.inr ⟨⟨b, h⟩, List.getElem?_set_self hlen⟩
  · rw [List.getElem?_set_ne e]; exact Or.inl rfl

theorem signalled_none {ts : List TSt} (h : ∀ s ∈ ts, ∀ b, s ≠ .waiting b) : Signalled ts ts :=
  ⟨rfl, fun _ => Or.inl rfl, fun ⟨i, b, hi⟩ => absurd rfl (h _ (List.mem_of_getElem? hi) b)⟩

/-- Two workers, both wait, two connections arrive and are handed out, a third makes the pool grow. -/
example : ∃ p, PoolReach 2 3 p ∧ p.count = 3 ∧ p.out = [(0, 7), (1, 8), (2, 9)] ∧ p.active = 3 := by
  let w : TSt := .waiting false
  have h0 : PoolReach 2 3 ⟨2, 0, [], [w, w], [], [], 0⟩ := .start ⟨rfl, rfl, rfl, rfl, rfl, rfl, rfl, by intro s hs; right; left; exact ⟨false, by simpa [w] using hs⟩⟩
  have h1 : PoolReach 2 3 ⟨2, 0, [7], [.woken false, w], [7], [], 0⟩ := .step h0 (.arrive 7 ⟨_, signalled_one (t := 0) (b := false) rfl, rfl⟩)
  have h2 : PoolReach 2 3 ⟨2, 0, [7, 8], [.woken false, .woken false], [7, 8], [], 0⟩ := .step h1 (.arrive 8 ⟨_, signalled_one (t := 1) (b := false) rfl, rfl⟩)
  have h3 : PoolReach 2 3 ⟨2, 1, [8], [.busy 7, .woken false], [7, 8], [(0, 7)], 0⟩ :=
    .step h2 (.awake (.look 0 (Or.inr rfl) ⟨_, signalled_none (by decide), rfl⟩))
  have h4 : PoolReach 2 3 ⟨2, 2, [], [.busy 7, .busy 8], [7, 8], [(0, 7), (1, 8)], 0⟩ := .step h3 (.awake (.look 1 (Or.inr rfl) rfl))
  have h5 : PoolReach 2 3 ⟨3, 2, [9], [.busy 7, .busy 8, .ready], [7, 8, 9], [(0, 7), (1, 8)], 0⟩ :=
    .step h4 (.arrive 9 ⟨_, signalled_none (by decide), rfl⟩)
  have h6 : PoolReach 2 3 ⟨3, 3, [], [.busy 7, .busy 8, .busy 9], [7, 8, 9], [(0, 7), (1, 8), (2, 9)], 0⟩ := .step h5 (.awake (.look 2 (Or.inl rfl) rfl))
  exact ⟨_, h6, rfl, rfl, rfl⟩

/-- A connection may have to wait for another one to be completed although the pool could grow: two connections arrive before the only idle
worker runs. -/
theorem C35_not_grown_fails : ∃ p, PoolReach 1 128 p ∧ p.queue = [8] ∧ p.count = 1 ∧ p.thr = [.busy 7] := by
  have h0 : PoolReach 1 128 ⟨1, 0, [], [.waiting false], [], [], 0⟩ := .start ⟨rfl, rfl, rfl, rfl, rfl, rfl, rfl, by decide⟩
  have h1 : PoolReach 1 128 ⟨1, 0, [7], [.woken false], [7], [], 0⟩ := .step h0 (.arrive 7 ⟨_, signalled_one (t := 0) (b := false) rfl, rfl⟩)
  have h2 : PoolReach 1 128 ⟨1, 0, [7, 8], [.woken false], [7, 8], [], 0⟩ := .step h1 (.arrive 8 ⟨_, signalled_none (by decide), rfl⟩)
  have h3 : PoolReach 1 128 ⟨1, 1, [8], [.busy 7], [7, 8], [(0, 7)], 0⟩ :=
    .step h2 (.awake (.look 0 (Or.inr rfl) ⟨_, signalled_none (by decide), rfl⟩))
  exact ⟨_, h3, rfl, rfl, rfl⟩

/-- With WorkerMinCount 0 a connection can be left in the queue without any worker: the last one times out when the connection arrives, and terminates without
looking at the queue. -/
theorem C35_min_zero_fails : ∃ p, PoolReach 0 128 p ∧ p.queue = [8] ∧ howMany isWorker p = 0 := by
  have h0 : PoolReach 0 128 ⟨0, 0, [], [], [], [], 0⟩ := .start ⟨rfl, rfl, rfl, rfl, rfl, rfl, rfl, by decide⟩
  have h1 : PoolReach 0 128 ⟨1, 0, [7], [.ready], [7], [], 0⟩ := .step h0 (.arrive 7 ⟨_, signalled_none (by decide), rfl⟩)
  have h2 : PoolReach 0 128 ⟨1, 1, [], [.busy 7], [7], [(0, 7)], 0⟩ := .step h1 (.awake (.look 0 (Or.inl rfl) rfl))
  have h3 : PoolReach 0 128 ⟨1, 0, [], [.ready], [7], [(0, 7)], 1⟩ := .step h2 (.finish 0 7 rfl rfl)
  have h4 : PoolReach 0 128 ⟨1, 0, [], [.waiting true], [7], [(0, 7)], 1⟩ := .step h3 (.awake (.look 0 (Or.inl rfl) rfl))
  have h5 : PoolReach 0 128 ⟨1, 0, [], [.woken true], [7], [(0, 7)], 1⟩ := .step h4 (.timeout 0 rfl rfl)
  have h6 : PoolReach 0 128 ⟨1, 0, [8], [.woken true], [7, 8], [(0, 7)], 1⟩ := .step h5 (.arrive 8 ⟨_, signalled_none (by decide), rfl⟩)
  have h7 : PoolReach 0 128 ⟨0, 0, [8], [.gone], [7, 8], [(0, 7)], 1⟩ := .step h6 (.awake (.late 0 rfl rfl))
  exact ⟨_, h7, rfl, rfl⟩

/-- POSIX allows that a signal is consumed by a thread that times out.  Then a connection can be left in the queue while the only
worker sleeps: from this reachable state, with one worker waiting and another one that times out, the arrival of connection 9 and the next step of the late
worker lead to it. -/
theorem C35_consumed_signal_fails : ∃ p, PoolReach 1 128 p ∧ p.thr = [.waiting true, .waiting true] ∧
    ((p.enqueue 128 9).thr = [.waiting true, .waiting true] ∧
     let q := { p.enqueue 128 9 with thr := [.waiting true, .woken true] }
     (q.late 1 1) = ({ q with thr := [.waiting true, .gone], count := 1 }, false) ∧ q.queue = [9]) := by
  have h0 : PoolReach 1 128 ⟨1, 0, [], [.ready], [], [], 0⟩ := .start ⟨rfl, rfl, rfl, rfl, rfl, rfl, rfl, by decide⟩
  have h1 : PoolReach 1 128 ⟨1, 0, [7], [.ready], [7], [], 0⟩ := .step h0 (.arrive 7 ⟨_, signalled_none (by decide), rfl⟩)
  have h2 : PoolReach 1 128 ⟨1, 1, [], [.busy 7], [7], [(0, 7)], 0⟩ := .step h1 (.awake (.look 0 (Or.inl rfl) rfl))
  have h3 : PoolReach 1 128 ⟨2, 1, [8], [.busy 7, .ready], [7, 8], [(0, 7)], 0⟩ := .step h2 (.arrive 8 ⟨_, signalled_none (by decide), rfl⟩)
  have h4 : PoolReach 1 128 ⟨2, 2, [], [.busy 7, .busy 8], [7, 8], [(0, 7), (1, 8)], 0⟩ := .step h3 (.awake (.look 1 (Or.inl rfl) rfl))
  have h5 : PoolReach 1 128 ⟨2, 1, [], [.ready, .busy 8], [7, 8], [(0, 7), (1, 8)], 1⟩ := .step h4 (.finish 0 7 rfl rfl)
  have h6 : PoolReach 1 128 ⟨2, 0, [], [.ready, .ready], [7, 8], [(0, 7), (1, 8)], 2⟩ := .step h5 (.finish 1 8 rfl rfl)
  have h7 : PoolReach 1 128 ⟨2, 0, [], [.waiting true, .ready], [7, 8], [(0, 7), (1, 8)], 2⟩ := .step h6 (.awake (.look 0 (Or.inl rfl) rfl))
  have h8 : PoolReach 1 128 ⟨2, 0, [], [.waiting true, .waiting true], [7, 8], [(0, 7), (1, 8)], 2⟩ := .step h7 (.awake (.look 1 (Or.inl rfl) rfl))
  exact ⟨_, h8, rfl, rfl, rfl, rfl⟩

/-- The counter is changed without the mutex while workers are started: if a wait times out then, there are fewer workers than the minimum,
and since the counter is only compared for equality all of them may terminate. -/
theorem C35_start_fails : ∃ b, BootReach true 2 b ∧ b.left = 0 ∧ b.adjust = false ∧ b.pool.count = 1 ∧ howMany isWorker b.pool = 1 := by
  have h0 : BootReach true 2 ⟨⟨2, 0, [], [], [], [], 0⟩, 2, false⟩ := .start
  have h1 : BootReach true 2 ⟨⟨3, 0, [], [.ready], [], [], 0⟩, 1, true⟩ := .step h0 (.start rfl (by decide) rfl)
  have h2 : BootReach true 2 ⟨⟨3, 0, [], [.waiting true], [], [], 0⟩, 1, true⟩ := .step h1 (.awake _ (.look 0 (Or.inl rfl) rfl) rfl)
  have h3 : BootReach true 2 ⟨⟨3, 0, [], [.woken true], [], [], 0⟩, 1, true⟩ := .step h2 (.timeout 0 rfl rfl rfl)
  have h4 : BootReach true 2 ⟨⟨2, 0, [], [.gone], [], [], 0⟩, 1, true⟩ := .step h3 (.awake _ (.late 0 rfl rfl) rfl)
  have h5 : BootReach true 2 ⟨⟨1, 0, [], [.gone], [], [], 0⟩, 1, false⟩ := .step h4 (.adjust rfl rfl)
  have h6 : BootReach true 2 ⟨⟨2, 0, [], [.gone, .ready], [], [], 0⟩, 0, true⟩ := .step h5 (.start rfl (by decide) rfl)
  have h7 : BootReach true 2 ⟨⟨1, 0, [], [.gone, .ready], [], [], 0⟩, 0, false⟩ := .step h6 (.adjust rfl rfl)
  exact ⟨_, h7, rfl, rfl, rfl, rfl⟩

/-! ### C36 -/

/-- In a round of the dispatcher in which no disabled listener has a connection, the connections on exactly the ready listeners are accepted, each is handed
over with its listener.  Missing: disabled listeners, see below. -/
theorem C36_round_partial (pollin : Nat → Bool) (accept : Nat → Acc) (ls : List DLst) (hacc : ∀ l ∈ ls, pollin l.id = true → accept l.id ≠ .blocks)
    (hdis : ∀ l ∈ ls, l.disabled = true → pollin l.id = true → ∀ c, accept l.id ≠ .conn c) :
    dispatchRound pollin accept ls = (ls.filterMap (wantedAt pollin accept), false) := by
  have key : ∀ (ls pre : List DLst), (∀ l ∈ ls, pollin l.id = true → accept l.id ≠ .blocks) →
      (∀ l ∈ ls, l.disabled = true → pollin l.id = true → ∀ c, accept l.id ≠ .conn c) →
      dispatchLoop ((pre ++ ls).map fun l => pollin l.id) accept pre.length ls = (ls.filterMap (wantedAt pollin accept), false) := by
    intro ls
    induction ls with
    | nil => intro _ _ _; rfl
    | cons l ls ih =>
      intro pre h1 h2
      have ih := ih (pre ++ [l]) (fun x hx => h1 x (by simp [hx])) (fun x hx => h2 x (by simp [hx]))
      rw [List.append_assoc, List.singleton_append, List.length_append, List.length_singleton] at ih
      unfold dispatchLoop
      have hget : ((pre ++ l :: ls).map fun l => pollin l.id)[pre.length]? = some (pollin l.id) := by simp
      rw [hget, List.filterMap_cons]
      unfold wantedAt
      cases hp : pollin l.id with
      | false =>
        simp only [Option.some.injEq, Bool.false_eq_true, if_false]
        exact ih
      | true =>
        simp only [if_true]
        have hb := h1 l (by simp) hp
        cases ha : accept l.id with
        | blocks => exact absurd ha hb
        | error => exact ih
        | conn c =>
          have hd : l.disabled = false := by
            cases hd : l.disabled with
            | false => rfl
            | true => exact absurd ha (h2 l (by simp) hd hp c)
          simp only [hd, Bool.false_eq_true, if_false, ih]
          rfl
  exact key ls [] hacc hdis

/-- Up to the first disabled listener with a connection, the round is right in any case. -/
theorem C36_prefix_partial (pollin : Nat → Bool) (accept : Nat → Acc) (A B : List DLst) (d : DLst) (c : Nat)
    (hacc : ∀ l ∈ A, pollin l.id = true → accept l.id ≠ .blocks)
    (hdis : ∀ l ∈ A, l.disabled = true → pollin l.id = true → ∀ c, accept l.id ≠ .conn c)
    (hd : d.disabled = true) (hp : pollin d.id = true) (hc : accept d.id = .conn c) :
    ∃ r, (dispatchRound pollin accept (A ++ d :: B)).1 = A.filterMap (wantedAt pollin accept) ++ .close c :: r := by
  have key : ∀ (A pre : List DLst), (∀ l ∈ A, pollin l.id = true → accept l.id ≠ .blocks) →
      (∀ l ∈ A, l.disabled = true → pollin l.id = true → ∀ c, accept l.id ≠ .conn c) →
      ∃ r, (dispatchLoop ((pre ++ (A ++ d :: B)).map fun l => pollin l.id) accept pre.length (A ++ d :: B)).1 =
        A.filterMap (wantedAt pollin accept) ++ .close c :: r := by
    intro A
    induction A with
    | nil =>
      intro pre _ _
      unfold dispatchLoop
      have hget : ((pre ++ ([] ++ d :: B)).map fun (l : DLst) => pollin l.id)[pre.length]? = some true := by simp [hp]
      simp only [List.nil_append] at hget ⊢
      simp only [hget, if_true, hc, hd]
      exact ⟨_, rfl⟩
    | cons l ls ih =>
      intro pre h1 h2
      obtain ⟨r, ih⟩ := ih (pre ++ [l]) (fun x hx => h1 x (by simp [hx])) (fun x hx => h2 x (by simp [hx]))
      rw [List.append_assoc, List.singleton_append, List.length_append, List.length_singleton] at ih
      rw [List.cons_append]
      unfold dispatchLoop
      have hget : ((pre ++ l :: (ls ++ d :: B)).map fun l => pollin l.id)[pre.length]? = some (pollin l.id) := by simp
      rw [hget, List.filterMap_cons]
      unfold wantedAt
      refine ⟨r, ?_⟩
      cases hp : pollin l.id with
      | false =>
        simp only [Option.some.injEq, Bool.false_eq_true, if_false]
        exact ih
      | true =>
        simp only [if_true]
        have hb := h1 l (by simp) hp
        cases ha : accept l.id with
        | blocks => exact absurd ha hb
        | error => exact ih
        | conn c =>
          have hd : l.disabled = false := by
            cases hd : l.disabled with
            | false => rfl
            | true => exact absurd ha (h2 l (by simp) hd hp c)
          simp only [hd, Bool.false_eq_true, if_false, ih]
          rfl
  exact key A [] hacc hdis

/-- Whatever the state of the listeners: a connection is handed over only with the enabled listener on whose socket it was accepted. -/
theorem C36_attribution (pollin : Nat → Bool) (accept : Nat → Acc) (ls : List DLst) (c l : Nat)
    (h : .enqueue c l ∈ (dispatchRound pollin accept ls).1) : accept l = .conn c ∧ ∃ x ∈ ls, x.id = l ∧ x.disabled = false := by
  have key : ∀ (rv : List Bool) (ls : List DLst) (i : Nat), .enqueue c l ∈ (dispatchLoop rv accept i ls).1 →
      accept l = .conn c ∧ ∃ x ∈ ls, x.id = l ∧ x.disabled = false := by
    intro rv ls
    induction ls with
    | nil => intro i h; simp [dispatchLoop] at h
    | cons x ls ih =>
      intro i h
      have up : (accept l = .conn c ∧ ∃ x ∈ ls, x.id = l ∧ x.disabled = false) → accept l = .conn c ∧ ∃ y ∈ x :: ls, y.id = l ∧ y.disabled = false := by
        rintro ⟨h1, y, h2, h3⟩
        exact ⟨h1, y, by simp [h2], h3⟩
      unfold dispatchLoop at h
      split at h
      · split at h
        · simp at h
        · exact up (ih _ h)
        · rename_i c' hc
          split at h
          · simp only [List.mem_cons, reduceCtorEq, false_or] at h
            exact up (ih _ h)
          · rename_i hd
            simp only [List.mem_cons, DAct.enqueue.injEq] at h
            rcases h with ⟨rfl, rfl⟩ | h
            · exact ⟨hc, x, by simp, rfl, by simpa using hd⟩
            · exact up (ih _ h)
      · exact up (ih _ h)
  exact key _ ls 0 h

example : dispatchRound (fun l => l != 1) (fun l => .conn (10 * l)) [⟨0, false⟩, ⟨1, true⟩, ⟨2, false⟩] = ([.enqueue 0 0, .enqueue 20 2], false) := by decide

/-- After a connection on a disabled listener was closed, the index is not advanced: the next listener is taken to be ready, and accept blocks
the dispatcher (for all listeners). -/
theorem C36_disabled_blocks_fails : dispatchRound (fun l => l == 0) (fun l => if l = 0 then .conn 5 else .blocks) [⟨0, true⟩, ⟨1, false⟩] =
    ([.close 5], true) := by decide

/-- Or a ready listener is not served. -/
theorem C36_disabled_skips_fails : dispatchRound (fun l => l != 2) (fun l => .conn (10 * l)) [⟨0, false⟩, ⟨1, true⟩, ⟨2, false⟩, ⟨3, false⟩] =
    ([.enqueue 0 0, .close 10, .enqueue 20 2], false) ∧
    wantedAt (fun l => l != 2) (fun l => .conn (10 * l)) ⟨3, false⟩ = some (.enqueue 30 3) := by decide

/-! ### C50 -/

/-- Handlers run in the order of their registration, each once; those registered by handlers too. -/
theorem C50_cleanup_order (reg : Nat → List Nat) (hs : List Nat) (fuel : Nat) :
    let s := Cleanup.run reg fuel (hs.foldl Cleanup.atexit ⟨[], [], []⟩)
    s.log = s.ran ++ s.queue ∧ ∃ more, s.log = hs ++ more := by
  have hreg : ∀ (l : List Nat) (s : Cleanup), (l.foldl Cleanup.atexit s) = ⟨s.queue ++ l, s.log ++ l, s.ran⟩ := by
    intro l
    induction l with
    | nil => intro s; simp
    | cons a l ih => intro s; rw [List.foldl_cons, ih]; simp [Cleanup.atexit]
  have key : ∀ (f : Nat) (s : Cleanup), s.log = s.ran ++ s.queue →
      (Cleanup.run reg f s).log = (Cleanup.run reg f s).ran ++ (Cleanup.run reg f s).queue ∧ ∃ more, (Cleanup.run reg f s).log = s.log ++ more := by
    intro f
    induction f with
    | zero => intro s h; exact ⟨h, [], by simp [Cleanup.run]⟩
    | succ f ih =>
      intro s h
      unfold Cleanup.run
      cases hq : s.queue with
      | nil => exact ⟨h, [], by simp⟩
      | cons a r =>
        dsimp only
        rw [hreg]
        dsimp only
        obtain ⟨h1, more, h2⟩ := ih ⟨r ++ reg a, s.log ++ reg a, s.ran ++ [a]⟩ (by dsimp only; rw [h, hq]; simp)
        exact ⟨h1, reg a ++ more, by rw [h2]; simp⟩
  have h0 := hreg hs ⟨[], [], []⟩
  dsimp only
  rw [h0]
  simp only [List.nil_append]
  exact key fuel ⟨hs, hs, []⟩ rfl

/-- If handlers register no handlers, all of them have run when the loop ends, which is after as many rounds as there are handlers. -/
theorem C50_cleanup_complete (hs : List Nat) : (Cleanup.run (fun _ => []) (hs.length + 1) (hs.foldl Cleanup.atexit ⟨[], [], []⟩)).ran = hs := by
  have hreg : ∀ (l : List Nat) (s : Cleanup), (l.foldl Cleanup.atexit s) = ⟨s.queue ++ l, s.log ++ l, s.ran⟩ := by
    intro l
    induction l with
    | nil => intro s; simp
    | cons a l ih => intro s; rw [List.foldl_cons, ih]; simp [Cleanup.atexit]
  have key : ∀ (q log ran : List Nat), (Cleanup.run (fun _ => []) (q.length + 1) ⟨q, log, ran⟩).ran = ran ++ q := by
    intro q
    induction q with
    | nil => intro log ran; simp [Cleanup.run]
    | cons a r ih =>
      intro log ran
      unfold Cleanup.run
      dsimp only [List.foldl_nil, List.length_cons]
      rw [ih, List.append_assoc]
      rfl
  rw [hreg]
  exact key _ _ _

theorem run_children (A : List WStat) (h : ∀ w ∈ A, w ≠ .exited 0) (es : List SEv) :
    Sup.run ⟨true, false⟩ (A.map .chld ++ es) = List.replicate A.length .fork ++ Sup.run ⟨true, false⟩ es := by
  induction A with
  | nil => rfl
  | cons w A ih =>
    have ih := ih (fun x hx => h x (by simp [hx]))
    have hw := h w (by simp)
    have hst : Sup.step ⟨true, false⟩ (.chld w) = (⟨true, false⟩, [.fork]) := by
      unfold Sup.step
      split
      · rename_i e; cases e; exact absurd rfl hw
      · rfl
      all_goals (rename_i e; cases e)
    rw [List.map_cons, List.cons_append]
    conv => lhs; unfold Sup.run
    rw [hst]
    simp only [List.cons_append, List.nil_append, List.length_cons, List.replicate_succ, Bool.false_eq_true, if_false, ih]

theorem run_more_terms (T : List Nat) (es : List SEv) : Sup.run ⟨false, false⟩ (T.map .term ++ es) = Sup.run ⟨false, false⟩ es := by
  induction T with
  | nil => rfl
  | cons s T ih =>
    rw [List.map_cons, List.cons_append]
    conv => lhs; unfold Sup.run
    simpa [Sup.step] using ih

/-- As long as no termination is requested, the worker process is started again whenever it ended abnormally, and only then.
Assumed: signals arrive when the supervisor waits for them. -/
theorem C50_restart_partial (A : List WStat) (h : ∀ w ∈ A, w ≠ .exited 0) : supervisor (A.map .chld) = List.replicate (A.length + 1) .fork := by
  unfold supervisor
  have := run_children A h []
  rw [List.append_nil] at this
  rw [this]
  simp [Sup.run, List.replicate_succ]

/-- The first termination request is forwarded to the process; further ones have no effect, and when the process ends, however it does, it is not
started again. -/
theorem C50_terminate_partial (A : List WStat) (h : ∀ w ∈ A, w ≠ .exited 0) (sig : Nat) (T : List Nat) (w : WStat) (es : List SEv) :
    supervisor (A.map .chld ++ .term sig :: T.map .term ++ .chld w :: es) = List.replicate (A.length + 1) .fork ++ [.kill sig, .alarm, .ends] := by
  unfold supervisor
  rw [List.append_assoc, run_children A h, List.cons_append]
  conv => lhs; rhs; rhs; unfold Sup.run
  simp only [Sup.step, if_true, Bool.false_eq_true, if_false, run_more_terms]
  have hst : Sup.step ⟨false, false⟩ (.chld w) = (⟨false, true⟩, [.ends]) := by
    unfold Sup.step
    split
    · rfl
    · rfl
    all_goals (rename_i e; cases e)
  unfold Sup.run
  rw [hst]
  simp [List.replicate_succ]

/-- If it does not end within the grace period (SIGALRM), it is killed. -/
theorem C50_kill_partial (A : List WStat) (h : ∀ w ∈ A, w ≠ .exited 0) (sig : Nat) (T : List Nat) (es : List SEv) :
    supervisor (A.map .chld ++ .term sig :: T.map .term ++ .alrm :: es) =
      List.replicate (A.length + 1) .fork ++ [.kill sig, .alarm, .kill sigkill, .ends] := by
  unfold supervisor
  rw [List.append_assoc, run_children A h, List.cons_append]
  conv => lhs; rhs; rhs; unfold Sup.run
  simp only [Sup.step, if_true, Bool.false_eq_true, if_false, run_more_terms]
  unfold Sup.run
  simp [Sup.step, List.replicate_succ]

/-- If the process ends normally, the supervisor ends. -/
theorem C50_normal_partial (A : List WStat) (h : ∀ w ∈ A, w ≠ .exited 0) (es : List SEv) :
    supervisor (A.map .chld ++ .chld (.exited 0) :: es) = List.replicate (A.length + 1) .fork ++ [.ends] := by
  unfold supervisor
  rw [run_children A h]
  unfold Sup.run
  simp [Sup.step, List.replicate_succ]

/-- The theorems above cover all sequences of events: each is one of these shapes, or an initial part of one. -/
theorem C50_cases (es : List SEv) (h : ∀ e ∈ es, ∀ s, e ≠ .missed s) (h2 : ∀ e ∈ es, e ≠ .alrm) :
    ∃ A : List WStat, (∀ w ∈ A, w ≠ .exited 0) ∧
      (es = A.map .chld ∨ (∃ r, es = A.map .chld ++ .chld (.exited 0) :: r) ∨
       ∃ (sig : Nat) (T : List Nat), es = A.map .chld ++ .term sig :: T.map .term ∨ ∃ w r, es = A.map .chld ++ .term sig :: T.map .term ++ .chld w :: r) := by
  have hterm : ∀ es : List SEv, (∀ e ∈ es, ∀ s, e ≠ .missed s) → (∀ e ∈ es, e ≠ .alrm) →
      ∃ T : List Nat, es = T.map .term ∨ ∃ w r, es = T.map .term ++ .chld w :: r := by
    intro es
    induction es with
    | nil => intro _ _; exact ⟨[], Or.inl rfl⟩
    | cons e es ih =>
      intro h1 h2
      obtain ⟨T, hT⟩ := ih (fun x hx => h1 x (by simp [hx])) (fun x hx => h2 x (by simp [hx]))
      cases e with
      | chld w => exact ⟨[], Or.inr ⟨w, es, rfl⟩⟩
      | alrm => exact absurd rfl (h2 .alrm (by simp))
      | missed s => exact absurd rfl (h1 (.missed s) (by simp) s)
      | term s =>
        refine ⟨s :: T, ?_⟩
        rcases hT with rfl | ⟨w, r, rfl⟩
        · exact Or.inl rfl
        · exact Or.inr ⟨w, r, rfl⟩
  induction es with
  | nil => exact ⟨[], by simp, Or.inl rfl⟩
  | cons e es ih =>
    have h1' : ∀ e ∈ es, ∀ s, e ≠ .missed s := fun x hx => h x (by simp [hx])
    have h2' : ∀ e ∈ es, e ≠ .alrm := fun x hx => h2 x (by simp [hx])
    cases e with
    | alrm => exact absurd rfl (h2 .alrm (by simp))
    | missed s => exact absurd rfl (h (.missed s) (by simp) s)
    | term s =>
      obtain ⟨T, hT⟩ := hterm es h1' h2'
      refine ⟨[], by simp, Or.inr (Or.inr ⟨s, T, ?_⟩)⟩
      rcases hT with rfl | ⟨w, r, rfl⟩
      · exact Or.inl rfl
      · exact Or.inr ⟨w, r, rfl⟩
    | chld w =>
      by_cases hw : w = .exited 0
      · subst hw
        exact ⟨[], by simp, Or.inr (Or.inl ⟨es, rfl⟩)⟩
      · obtain ⟨A, hA, hes⟩ := ih h1' h2'
        refine ⟨w :: A, ?_, ?_⟩
        · intro x hx
          rcases List.mem_cons.mp hx with rfl | hx
          · exact hw
          · exact hA x hx
        · rcases hes with rfl | ⟨r, rfl⟩ | ⟨s, T, rfl | ⟨w', r, rfl⟩⟩
          · exact Or.inl rfl
          · exact Or.inr (Or.inl ⟨r, rfl⟩)
          · exact Or.inr (Or.inr ⟨s, T, Or.inl rfl⟩)
          · exact Or.inr (Or.inr ⟨s, T, Or.inr ⟨w', r, rfl⟩⟩)

example : supervisor [.chld .signalled, .chld (.exited 1), .term 15, .term 15, .chld (.exited 0)] = [.fork, .fork, .fork, .kill 15, .alarm, .ends] := by decide
example : (Cleanup.run (fun _ => []) 4 ([3, 1, 2].foldl Cleanup.atexit ⟨[], [], []⟩)).ran = [3, 1, 2] := by decide

/-- A termination request that arrives when the supervisor is not in sigwait is lost, and the child started again when it ends. -/
theorem C50_missed_fails : supervisor [.missed 15, .chld .signalled] = [.fork, .fork] := by decide

/-- If wait fails (it is interrupted by a signal while the stopped child's SIGCHLD is handled), a second process is started although the first one
has not ended. -/
theorem C50_wait_fails : supervisor [.chld .failed] = [.fork, .fork] := by decide

end Pound.Props
