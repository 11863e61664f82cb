import Verif.Model.Basic

/-!
How backends that are no longer wanted are released: /repo/src/dynbe.c:328-390, 478-479, 755-816.

One service.  What is done under the mutex of the service is one step, except for the work of remover threads, which is modelled operation by
operation, because references are dropped without that mutex (/repo/src/dynbe.c:804-816).  As is what is done under the mutex of a backend.
Sweeps by control requests, which do not hold the mutex of the service (/repo/src/svc.c:2787), are taken to be one step too.
-/

namespace Pound

/-- Fields of BACKEND: `kept` means that tables and balancers have it; `held`: references of requests, queued jobs and look-ups. -/
structure RmBe where
  created : Bool
  kept : Bool
  ref : Nat
  held : Nat
  freed : Bool
deriving DecidableEq, Repr

/-- A remover thread: about to lock the mutex of the service; in the loop with these backends left, holding the mutex; in pthread_cond_wait;
ended -/
inductive RmThr where
  | ready
  | scan (rest : List Nat)
  | waiting
  | done
deriving DecidableEq, Repr

/-- Backends, be_rem_head and remover threads of the service -/
structure RmSt where
  be : Nat → RmBe
  rem : List Nat
  thr : List RmThr

/-- Program start -/
def RmSt.init : RmSt := ⟨fun _ => ⟨false, false, 0, 0, false⟩, [], []⟩

def RmSt.set (s : RmSt) (b : Nat) (r : RmBe) : RmSt := { s with be := fun x => if x = b then r else s.be x }

/-- A remover holds the mutex of the service. -/
def RmSt.locked (s : RmSt) : Bool := s.thr.any fun t => match t with | .scan _ => true | _ => false

/-- pthread_cond_signal: one thread that waits goes on, `w` if that one waits.  Without waiting threads nothing happens. -/
def rmSignal (w : Nat) (ts : List RmThr) : List RmThr :=
  if ts[w]? = some .waiting then ts.set w .ready
  else
    match ts.findIdx? fun t => t = .waiting with
    | some j => ts.set j .ready
    | none => ts

/-- What can happen -/
inductive RmOp where
  /-- backend_create, with the reference of the table: /repo/src/config.c:70-84 -/
  | create (b : Nat)
  /-- backend_ref by get_backend, kill_be and job_enqueue_resolver, all with the service locked: /repo/src/dynbe.c:793-802 -/
  | take (b : Nat)
  /-- backend_unref: /repo/src/dynbe.c:804-816 -/
  | put (b w : Nat)
  /-- backend_sweep for these backends, /repo/src/dynbe.c:328-390; `start`: after an answer with addresses, :478-479 -/
  | sweep (bs : List Nat) (start : Bool)
  /-- remover thread k locks the mutex, looks at one backend, comes to the end of the list, wakes up without a signal:
  /repo/src/dynbe.c:755-785 -/
  | lock (k : Nat)
  | look (k : Nat)
  | last (k : Nat)
  | wake (k : Nat)
deriving DecidableEq, Repr

/-- backend_sweep of one marked backend, /repo/src/dynbe.c:333-388 (only those in the table are swept); `none`: the assertion at :337 fails. -/
def rmSweep1 (s : RmSt) (b : Nat) : Option RmSt :=
  if (s.be b).kept then
    if (s.be b).ref = 0 then none
    else some { s.set b { s.be b with kept := false, ref := (s.be b).ref - 1 } with rem := s.rem ++ [b] }
  else some s

def rmSweep : RmSt → List Nat → Option RmSt
  | s, [] => some s
  | s, b :: t =>
    match rmSweep1 s b with
    | none => none
    | some s => rmSweep s t

/-- One step; `none` if an assertion fails or released memory is used.  Steps that are not possible change nothing. -/
def rmStep (s : RmSt) : RmOp → Option RmSt
  | .create b => if (s.be b).created then some s else some (s.set b ⟨true, true, 1, 0, false⟩)
  | .take b =>
    if s.locked = false ∧ (s.be b).kept then
      if (s.be b).freed then none
      else some (s.set b { s.be b with ref := (s.be b).ref + 1, held := (s.be b).held + 1 })
    else some s
  | .put b w =>
    if (s.be b).held = 0 then some s
    else if (s.be b).freed = true ∨ (s.be b).ref = 0 then none
    else
      let s' := s.set b { s.be b with ref := (s.be b).ref - 1, held := (s.be b).held - 1 }
      if (s.be b).ref = 1 then some { s' with thr := rmSignal w s'.thr } else some s'
  | .sweep bs start =>
    if s.locked then some s
    else
      match rmSweep s bs with
      | none => none
      | some s' => if start = true ∧ s'.rem ≠ [] then some { s' with thr := s'.thr ++ [.ready] } else some s'
  | .lock k =>
    if s.locked = false ∧ s.thr[k]? = some .ready then some { s with thr := s.thr.set k (.scan s.rem) } else some s
  | .look k =>
    match s.thr[k]? with
    | some (.scan (b :: r)) =>
      if (s.be b).freed then none
      else if (s.be b).ref = 0 then some { s.set b { s.be b with freed := true } with rem := s.rem.erase b, thr := s.thr.set k (.scan r) }
      else some { s with thr := s.thr.set k (.scan r) }
    | _ => some s
  | .last k =>
    match s.thr[k]? with
    | some (.scan []) => some { s with thr := s.thr.set k (if s.rem = [] then .done else .waiting) }
    | _ => some s
  | .wake k => if s.thr[k]? = some .waiting then some { s with thr := s.thr.set k .ready } else some s

/-- A history -/
def rmRun : RmSt → List RmOp → Option RmSt
  | s, [] => some s
  | s, o :: t =>
    match rmStep s o with
    | none => none
    | some s => rmRun s t

end Pound
