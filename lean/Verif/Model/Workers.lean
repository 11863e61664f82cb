import Verif.Model.Basic

/-!
The queue of connections and the worker threads: /repo/src/pound.c:207-441, 728-734, and /repo/src/http.c:4954-4969.

Each part of the code between locking and unlocking `arg_mut` (or waiting on `arg_cond`) is one step.  Threads are numbered in the order of their
creation.  Allocation and pthread_create succeed, pthread_cond_timedwait returns 0 or ETIMEDOUT.  The queue is a sequence: the list macros are in
Model/Lists.lean.  Counters do not exceed 2^32.
-/

namespace Pound

/-- What a worker is doing -/
inductive TSt where
  /-- before entering pound_http_dequeue, /repo/src/pound.c:315 -/
  | ready
  /-- in pthread_cond_wait (false) or pthread_cond_timedwait (true), /repo/src/pound.c:329-330 -/
  | waiting (timed : Bool)
  /-- the wait is over: returned 0 (false) or ETIMEDOUT (true); the mutex is not yet acquired -/
  | woken (late : Bool)
  /-- in do_http for a connection, /repo/src/http.c:4961 -/
  | busy (c : Nat)
  /-- terminated, /repo/src/http.c:4966-4968 -/
  | gone
deriving DecidableEq, Repr

/-- thr_head, worker_count and active_threads, /repo/src/pound.c:207-215, with the threads.  `arrived`, `out` and `done` record what happened: connections
accepted, connections handed out (thread and connection), and the number of completed ones. -/
structure Pool where
  count : Nat
  active : Nat
  queue : List Nat
  thr : List TSt
  arrived : List Nat
  out : List (Nat × Nat)
  done : Nat
deriving DecidableEq, Repr

/-- Decrement of an unsigned int -/
def udecr (n : Nat) : Nat := if n = 0 then 2 ^ 32 - 1 else n - 1

/-- worker_start, /repo/src/pound.c:249-258 -/
def Pool.start (p : Pool) : Pool := { p with thr := p.thr ++ [.ready], count := p.count + 1 }

/-- pound_http_enqueue up to the signal, /repo/src/pound.c:295-300 -/
def Pool.enqueue (max : Nat) (p : Pool) (c : Nat) : Pool :=
  let p := { p with queue := p.queue ++ [c], arrived := p.arrived ++ [c] }
  if p.count < max ∧ p.count = p.active then p.start else p

/-- The loop condition of pound_http_dequeue and what follows for thread `t`: wait, /repo/src/pound.c:324-330, or take the first connection,
:357-374.  The second component says whether the condition is signalled. -/
def Pool.look (min : Nat) (p : Pool) (t : Nat) : Pool × Bool :=
  match p.queue with
  | [] => ({ p with thr := p.thr.set t (.waiting (p.count != min)) }, false)
  | c :: r => ({ p with queue := r, thr := p.thr.set t (.busy c), active := p.active + 1, out := p.out ++ [(t, c)] }, !r.isEmpty)

/-- pound_http_dequeue after ETIMEDOUT, /repo/src/pound.c:332-348: the queue is not looked at when the thread is to terminate. -/
def Pool.late (min : Nat) (p : Pool) (t : Nat) : Pool × Bool :=
  if p.count = min then p.look min t
  else ({ p with count := udecr p.count, thr := p.thr.set t .gone }, false)

/-- active_threads_decr, /repo/src/pound.c:433-441, at the end of a connection -/
def Pool.finish (p : Pool) (t : Nat) : Pool :=
  { p with active := udecr p.active, thr := p.thr.set t .ready, done := p.done + 1 }

/-- pthread_cond_signal: some of the waiting threads, at least one if there are any, are woken. -/
def Signalled (ts ts' : List TSt) : Prop :=
  ts'.length = ts.length ∧ (∀ i : Nat, ts'[i]? = ts[i]? ∨ ((∃ b, ts[i]? = some (.waiting b)) ∧ ts'[i]? = some (.woken false))) ∧
  ((∃ (i : Nat) (b : Bool), ts[i]? = some (.waiting b)) → ∃ (i : Nat) (b : Bool), ts[i]? = some (.waiting b) ∧ ts'[i]? = some (.woken false))

/-- The result of a step with the signal, if there is one -/
def Fin (r : Pool × Bool) (p' : Pool) : Prop :=
  if r.2 then ∃ ts', Signalled r.1.thr ts' ∧ p' = { r.1 with thr := ts' } else p' = r.1

/-- Steps of workers that are awake -/
inductive AwakeStep (min : Nat) (p p' : Pool) : Prop
  | look (t) : (p.thr[t]? = some .ready ∨ p.thr[t]? = some (.woken false)) → Fin (p.look min t) p' → AwakeStep min p p'
  | late (t) : p.thr[t]? = some (.woken true) → Fin (p.late min t) p' → AwakeStep min p p'

/-- All steps: also arrivals (the dispatcher), the end of a connection, time-outs and spurious wake-ups -/
inductive PoolStep (min max : Nat) (p p' : Pool) : Prop
  | awake : AwakeStep min p p' → PoolStep min max p p'
  | arrive (c) : Fin (p.enqueue max c, true) p' → PoolStep min max p p'
  | finish (t c) : p.thr[t]? = some (.busy c) → p' = p.finish t → PoolStep min max p p'
  | timeout (t) : p.thr[t]? = some (.waiting true) → p' = { p with thr := p.thr.set t (.woken true) } → PoolStep min max p p'
  | spurious (t b) : p.thr[t]? = some (.waiting b) → p' = { p with thr := p.thr.set t (.woken false) } → PoolStep min max p p'

/-- The loop that starts the workers, /repo/src/pound.c:728-734, in the main thread, without the mutex: `left` workers are to be started; `adjust`:
worker_count-- comes next. -/
structure Boot where
  pool : Pool
  left : Nat
  adjust : Bool
deriving DecidableEq, Repr

/-- /repo/src/pound.c:728 -/
def Boot.init (min : Nat) : Boot := ⟨⟨min, 0, [], [], [], [], 0⟩, min, false⟩

/-- The steps of the main thread and of the workers while they are being started; `timeouts`: waits may time out. -/
inductive BootStep (timeouts : Bool) (min : Nat) (b b' : Boot) : Prop
  | start : b.adjust = false → 0 < b.left → b' = ⟨b.pool.start, b.left - 1, true⟩ → BootStep timeouts min b b'
  | adjust : b.adjust = true → b' = { b with pool := { b.pool with count := udecr b.pool.count }, adjust := false } → BootStep timeouts min b b'
  | awake (p') : AwakeStep min b.pool p' → b' = { b with pool := p' } → BootStep timeouts min b b'
  | timeout (t) : timeouts = true → b.pool.thr[t]? = some (.waiting true) →
      b' = { b with pool := { b.pool with thr := b.pool.thr.set t (.woken true) } } → BootStep timeouts min b b'
  | spurious (t c) : b.pool.thr[t]? = some (.waiting c) →
      b' = { b with pool := { b.pool with thr := b.pool.thr.set t (.woken false) } } → BootStep timeouts min b b'

/-! ### The dispatcher -/

/-- What accept returns on a listener's socket; on a socket without a pending connection it blocks. -/
inductive Acc where
  | conn (c : Nat)
  | error
  | blocks
deriving DecidableEq, Repr

/-- What the dispatcher does with an accepted connection -/
inductive DAct where
  | enqueue (c : Nat) (lstn : Nat)
  | close (c : Nat)
deriving DecidableEq, Repr

/-- One listener: its number and `disabled` -/
structure DLst where
  id : Nat
  disabled : Bool
deriving DecidableEq, Repr

/-- The loop of thr_dispatch after poll, /repo/src/pound.c:501-534.  `i` is the index into `polls`, which is not incremented after a connection of a
disabled listener was closed; `revents[i]`: polls[i].revents & (POLLIN | POLLPRI).  The flag of the result tells that accept blocks. -/
def dispatchLoop (revents : List Bool) (accept : Nat → Acc) : Nat → List DLst → List DAct × Bool
  | _, [] => ([], false)
  | i, l :: ls =>
    if revents[i]? = some true then
      match accept l.id with
      | .blocks => ([], true)
      | .error => dispatchLoop revents accept (i + 1) ls
      | .conn c =>
        if l.disabled then
          let r := dispatchLoop revents accept i ls
          (.close c :: r.1, r.2)
        else
          let r := dispatchLoop revents accept (i + 1) ls
          (.enqueue c l.id :: r.1, r.2)
    else dispatchLoop revents accept (i + 1) ls

/-- One round of thr_dispatch, /repo/src/pound.c:480-535: polls[i] is for the i-th listener; `pollin` tells for which sockets poll reports input. -/
def dispatchRound (pollin : Nat → Bool) (accept : Nat → Acc) (ls : List DLst) : List DAct × Bool :=
  dispatchLoop (ls.map fun l => pollin l.id) accept 0 ls

/-! ### Clean-up and supervisor -/

/-- cleanup_head; `log` and `ran` record registrations and calls. -/
structure Cleanup where
  queue : List Nat
  log : List Nat
  ran : List Nat
deriving DecidableEq, Repr

/-- pound_atexit, /repo/src/pound.c:648-656 -/
def Cleanup.atexit (s : Cleanup) (h : Nat) : Cleanup := { s with queue := s.queue ++ [h], log := s.log ++ [h] }

/-- cleanup, /repo/src/pound.c:658-669.  `reg h` are the handlers that handler `h` registers when it runs; `fuel` bounds the number of rounds of the
loop. -/
def Cleanup.run (reg : Nat → List Nat) : Nat → Cleanup → Cleanup
  | 0, s => s
  | f + 1, s =>
    match s.queue with
    | [] => s
    | h :: r => Cleanup.run reg f ((reg h).foldl Cleanup.atexit { s with queue := r, ran := s.ran ++ [h] })

/-- How wait returned for SIGCHLD, /repo/src/pound.c:823-853 -/
inductive WStat where
  | exited (code : Nat)
  | signalled
  | failed
deriving DecidableEq, Repr

/-- What happens to the supervisor: a signal, arriving when it is in sigwait or when it is not. -/
inductive SEv where
  | chld (w : WStat)
  | alrm
  | term (sig : Nat)
  | missed (sig : Nat)
deriving DecidableEq, Repr

/-- What the supervisor does -/
inductive SAct where
  | fork
  | kill (sig : Nat)
  | alarm
  | ends
deriving DecidableEq, Repr

/-- `state` and whether the loop was left, /repo/src/pound.c:773-777 -/
structure Sup where
  running : Bool
  over : Bool
deriving DecidableEq, Repr

def sigkill : Nat := 9

/-- One round of the loop of supervisor for a signal, /repo/src/pound.c:818-875, with the fork at the top of the next one, :801-816 (fork succeeds).  Signals
are not blocked: one that arrives when the supervisor is not in sigwait is handled by signull, :677-681, and has no effect. -/
def Sup.step (s : Sup) : SEv → Sup × List SAct
  | .chld (.exited 0) => ({ s with over := true }, [.ends])
  | .chld _ => if s.running then (s, [.fork]) else ({ s with over := true }, [.ends])
  | .alrm => ({ s with over := true }, [.kill sigkill, .ends])
  | .term sig => if s.running then ({ s with running := false }, [.kill sig, .alarm]) else (s, [])
  | .missed _ => (s, [])

/-- The supervisor until it ends -/
def Sup.run : Sup → List SEv → List SAct
  | _, [] => []
  | s, e :: es =>
    let r := s.step e
    r.2 ++ (if r.1.over then [] else Sup.run r.1 es)

/-- supervisor, /repo/src/pound.c:764-877: the first fork, then signals -/
def supervisor (es : List SEv) : List SAct := .fork :: Sup.run ⟨true, false⟩ es

end Pound
