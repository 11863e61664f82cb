import Verif.Model.Workers

namespace Pound.Spec

/-- The number of threads with a property -/
def howMany (f : TSt → Bool) (p : Pool) : Nat := (p.thr.filter f).length

/-- A thread that has not terminated -/
def isWorker : TSt → Bool
  | .gone => false
  | _ => true

def isBusy : TSt → Bool
  | .busy _ => true
  | _ => false

/-- Asleep until signalled -/
def isAsleep : TSt → Bool
  | .waiting _ => true
  | _ => false

/-- Awake, and going to look at the queue -/
def isAwake : TSt → Bool
  | .ready => true
  | .woken false => true
  | _ => false

/-- The state when all workers have been started: they are there, and none has done anything but wait. -/
structure Booted (min : Nat) (p : Pool) : Prop where
  count : p.count = min
  active : p.active = 0
  queue : p.queue = []
  arrived : p.arrived = []
  out : p.out = []
  done : p.done = 0
  threads : p.thr.length = min
  idle : ∀ s ∈ p.thr, s = .ready ∨ (∃ b, s = .waiting b) ∨ s = .woken false

/-- What can happen to the pool, in any order -/
inductive PoolReach (min max : Nat) : Pool → Prop
  | start {p} : Booted min p → PoolReach min max p
  | step {p p'} : PoolReach min max p → PoolStep min max p p' → PoolReach min max p'

inductive BootReach (timeouts : Bool) (min : Nat) : Boot → Prop
  | start : BootReach timeouts min (Boot.init min)
  | step {b b'} : BootReach timeouts min b → BootStep timeouts min b b' → BootReach timeouts min b'

/-- Some of the workers that are awake go on, nothing else happens. -/
inductive AwakeRun (min : Nat) : Pool → Pool → Prop
  | refl (p) : AwakeRun min p p
  | step {p q r} : AwakeStep min p q → AwakeRun min q r → AwakeRun min p r

/-- What is to be done with the connection on a listener that has one: hand it to a worker, or close it if the listener is disabled -/
def wantedAt (pollin : Nat → Bool) (accept : Nat → Acc) (l : DLst) : Option DAct :=
  if pollin l.id then
    match accept l.id with
    | .conn c => some (if l.disabled then .close c else .enqueue c l.id)
    | _ => none
  else none

end Pound.Spec
