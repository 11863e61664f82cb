import Verif.Model.Time

/-!
Model of the timer: job queue and timer thread (/repo/src/svc.c:30-267).

The job mutex is held by the timer thread except while it waits, so what other threads do
(`enqueue`, `cancel`) happens during a wait, and everything the timer thread does from one
wait to the next is one step. `pthread_cond_timedwait` returns `ETIMEDOUT` only when the real
time clock has reached the given time, and a thread that is waiting and has not timed out when the
condition is broadcast is woken with result 0. Allocation and `pthread_create` do not fail.
-/

namespace Pound

/-- JOB (/repo/src/svc.c:31-38). `serial` counts all jobs created; it stands for the address
of the job (no job is freed while another thread holds its address). -/
structure Job (α : Type) where
  serial : Nat
  ts : TS
  data : α
deriving DecidableEq, Repr

/-- Number of values of JOB_ID, `unsigned long` (/repo/src/pound.h:431). -/
def jobIds : Nat := 2 ^ 64

/-- `job->id`: `job_next_id++` (/repo/src/svc.c:87). -/
def Job.id {α} (j : Job α) : Nat := j.serial % jobIds

/-- `job_head`, `jobcncl_head`, `job_next_id` (/repo/src/svc.c:50-52). -/
structure JobQ (α : Type) where
  jobs : List (Job α)
  cancels : List Nat
  next : Nat
deriving DecidableEq, Repr

/-- The queue at program start. -/
def JobQ.init {α} : JobQ α := ⟨[], [], 0⟩

/-- Insertion before the first job that is due later (/repo/src/svc.c:91-100). -/
def insertJob {α} (j : Job α) : List (Job α) → List (Job α)
  | [] => [j]
  | t :: r => if j.ts.cmp t.ts < 0 then j :: t :: r else t :: insertJob j r

/-- `job_arm_unlocked`, `job_enqueue` (/repo/src/svc.c:83-123). Gives the identifier of
the job. -/
def JobQ.enqueue {α} (q : JobQ α) (ts : TS) (a : α) : JobQ α × Nat :=
  let j : Job α := ⟨q.next, ts, a⟩
  ({ q with jobs := insertJob j q.jobs, next := q.next + 1 }, j.id)

/-- `DLIST_PREV (job, link) == NULL` (/repo/src/svc.c:102): the new job became the first one. -/
def JobQ.newFirst {α} (q : JobQ α) (ts : TS) : Bool :=
  match q.jobs with
  | [] => true
  | t :: _ => ts.cmp t.ts < 0

/-- `job_remove` (/repo/src/svc.c:144-160). -/
def jobRemove {α} (id : Nat) : List (Job α) → List (Job α)
  | [] => []
  | j :: t => if j.id = id then t else j :: jobRemove id t

/-- `job_cancel` (/repo/src/svc.c:181-191). -/
def JobQ.cancel {α} (q : JobQ α) (id : Nat) : JobQ α :=
  { q with cancels := q.cancels ++ [id] }

/-- `job_get_timestamp` (/repo/src/svc.c:162-179). -/
def JobQ.timestamp {α} (q : JobQ α) (id : Nat) : Option TS :=
  (q.jobs.find? fun j => j.id = id).map (·.ts)

/-- The loop over cancellations (/repo/src/svc.c:228-234). -/
def applyCancels {α} : List Nat → List (Job α) → List (Job α)
  | [], l => l
  | id :: t, l => applyCancels t (jobRemove id l)

/-- Where the timer thread is: in `pthread_cond_wait` (/repo/src/svc.c:238) or not yet started, or
in `pthread_cond_timedwait` (247) for the given job. -/
inductive TimerPc where
  | idle
  | timed (serial : Nat) (deadline : TS)
deriving DecidableEq, Repr

/-- Queue, timer thread and clock. `woken`: the condition was broadcast before the time-out.
`started`: the jobs handed to `thr_job_runner`, oldest first, with the time. -/
structure Timer (α : Type) where
  q : JobQ α
  pc : TimerPc
  woken : Bool
  clock : TS
  started : List (Job α × TS)
deriving DecidableEq, Repr

/-- Program start. -/
def Timer.init {α} (clock : TS) : Timer α := ⟨JobQ.init, .idle, false, clock, []⟩

/-- The loop of `thr_timer` from its top to the next wait (/repo/src/svc.c:228-244). -/
def Timer.top {α} (s : Timer α) : Timer α :=
  let jobs := applyCancels s.q.cancels s.q.jobs
  let q := { s.q with jobs := jobs, cancels := [] }
  match jobs with
  | [] => { s with q := q, pc := .idle, woken := false }
  | j :: _ => { s with q := q, pc := .timed j.serial j.ts, woken := false }

/-- `pthread_cond_broadcast (&job_cond)`: a wait that did not time out yet ends with result 0. -/
def Timer.broadcast {α} (s : Timer α) : Timer α :=
  match s.pc with
  | .idle => { s with woken := true }
  | .timed _ d => { s with woken := s.woken || s.clock.cmp d < 0 }

/-- `job_enqueue` by any thread. -/
def Timer.enqueue {α} (s : Timer α) (ts : TS) (a : α) : Timer α :=
  let s' := { s with q := (s.q.enqueue ts a).1 }
  if s.q.newFirst ts then s'.broadcast else s'

/-- `job_cancel` by any thread. -/
def Timer.cancel {α} (s : Timer α) (id : Nat) : Timer α :=
  { s with q := s.q.cancel id }.broadcast

/-- `pthread_cond_timedwait` returned `ETIMEDOUT` (/repo/src/svc.c:249-261). -/
def Timer.timeout {α} (s : Timer α) : Timer α :=
  match s.pc, s.q.jobs with
  | .timed n _, j :: r =>
    if j.serial = n then { s with q := { s.q with jobs := r }, started := s.started ++ [(j, s.clock)] }.top
    else s.top
  | _, _ => s.top

/-- What can happen next: time passes, a thread uses the queue, the timer thread is woken up
(possibly without reason) or its wait times out. -/
inductive TimerEv (α : Type) where
  | tick (t : TS)
  | enqueue (ts : TS) (a : α)
  | cancel (id : Nat)
  | wake
  | timeout

/-- The effect of an event. -/
def Timer.step {α} (s : Timer α) : TimerEv α → Timer α
  | .tick t => { s with clock := t }
  | .enqueue ts a => s.enqueue ts a
  | .cancel id => s.cancel id
  | .wake => s.top
  | .timeout => s.timeout

/-- When an event can happen: the clock does not go back; a wait times out only when its time has
come and it was not woken up before. -/
def Timer.can {α} (s : Timer α) : TimerEv α → Prop
  | .tick t => s.clock.cmp t ≤ 0
  | .timeout => s.woken = false ∧ ∃ n d, s.pc = .timed n d ∧ d.cmp s.clock ≤ 0
  | _ => True

/-- The states after a sequence of events. -/
inductive TimerRun {α : Type} (s : Timer α) : List (TimerEv α) → Timer α → Prop
  | nil : TimerRun s [] s
  | snoc {evs s' e} : TimerRun s evs s' → s'.can e → TimerRun s (evs ++ [e]) (s'.step e)

end Pound
