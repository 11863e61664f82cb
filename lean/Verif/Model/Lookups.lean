import Verif.Model.Jobs

/-!
When the names of dynamic backends are looked up: /repo/src/dynbe.c:79-200, 337-395, 478-490, 680-730, 757-816, with the job queue of
/repo/src/svc.c:50-200.

What is done under a mutex is one step; so is backend_matrix_disable, which is not protected by one (/repo/src/svc.c:2787).  The answers to
the look-ups are parameters (see Model/Resolver.lean).  What look-ups do to the generated backends is in Model/DynBe.lean and Model/Srv.lean.
-/

namespace Pound

/-- Fields of BACKEND for a dynamic backend (/repo/src/pound.h:559-600).  `kept`: it belongs to a service or to the table of another dynamic
backend; `created`, `freed`: the memory was allocated and released. -/
structure LkBe where
  created : Bool
  disabled : Bool
  jid : Nat
  ref : Nat
  kept : Bool
  freed : Bool
deriving DecidableEq, Repr

/-- Job queue, look-ups that threads are working at, and backends.  The data of a job: the backend whose name is looked up, `none` for jobs
of other kinds. -/
structure LkSt where
  q : JobQ (Option Nat)
  run : List Nat
  be : Nat → LkBe

/-- Program start -/
def LkSt.init : LkSt := ⟨JobQ.init, [], fun _ => ⟨false, false, 0, 0, false, false⟩⟩

/-- One backend is changed. -/
def LkSt.set (s : LkSt) (b : Nat) (r : LkBe) : LkSt := { s with be := fun x => if x = b then r else s.be x }

/-- What a look-up leads to: dns_success and dns_not_found with the time of the next look-up, dns_temp_failure with the time of the next try,
dns_failure. -/
inductive LkAns where
  | found (ts : TS)
  | temp (ts : TS)
  | failed
deriving DecidableEq, Repr

/-- job_enqueue_resolver, /repo/src/dynbe.c:79-84, with backend_ref, :793-802 -/
def lkEnqueue (b : Nat) (ts : TS) (s : LkSt) : LkSt × Nat :=
  let r := s.q.enqueue ts (some b)
  ({ s with q := r.1 }.set b { s.be b with ref := (s.be b).ref + 1 }, r.2)

/-- backend_unref, /repo/src/dynbe.c:804-816; `none`: the assertion fails, or the memory was released before. -/
def lkUnref (b : Nat) (s : LkSt) : Option LkSt :=
  if (s.be b).freed = true ∨ (s.be b).ref = 0 then none else some (s.set b { s.be b with ref := (s.be b).ref - 1 })

/-- backend_matrix_update, /repo/src/dynbe.c:157-177 with :86-155, 402-406, 481-489, 548-549, 684-688: a new look-up is queued after an
answer unless the backend is disabled, and after a temporary failure in any case; its number is only stored in the first case. -/
def lkUpdate (b : Nat) (ans : LkAns) (s : LkSt) : LkSt :=
  match ans with
  | .found ts =>
    if (s.be b).disabled then s
    else
      let r := lkEnqueue b ts s
      r.1.set b { r.1.be b with jid := r.2 }
  | .temp ts => (lkEnqueue b ts s).1
  | .failed => s

/-- job_remove, /repo/src/svc.c:144-160, with job_resolver (:191-198 of /repo/src/dynbe.c) for job_ctl_cancel -/
def lkCancelOne (id : Nat) (s : LkSt) : Option LkSt :=
  match s.q.jobs.find? fun j => j.id = id with
  | none => some s
  | some j =>
    let s' := { s with q := { s.q with jobs := jobRemove id s.q.jobs } }
    match j.data with
    | none => some s'
    | some b => lkUnref b s'

/-- The loop over cancellations, /repo/src/svc.c:228-234 -/
def lkCancels : List Nat → LkSt → Option LkSt
  | [], s => some s
  | id :: t, s =>
    match lkCancelOne id s with
    | none => none
    | some s => lkCancels t s

/-- What can happen -/
inductive LkOp where
  /-- backend_create and backend_matrix_schedule_update: from the configuration (backend_matrix_init), or for a SRV record -/
  | create (b : Nat) (now : TS)
  /-- a job of another kind is queued -/
  | other (ts : TS)
  /-- the timer thread goes through the cancellations -/
  | cancels
  /-- the timer thread starts the first job -/
  | start
  /-- the k-th running look-up comes to its end -/
  | done (k : Nat) (ans : LkAns)
  /-- control requests -/
  | disable (b : Nat)
  | enable (b : Nat) (ans : LkAns)
  /-- backend_sweep, for a dynamic backend made for a SRV record that is gone -/
  | drop (b : Nat)
  /-- the remover thread finds the backend -/
  | free (b : Nat)
deriving DecidableEq, Repr

/-- One step; `none` if an assertion fails or released memory is used.  Steps that are not possible change nothing: only backends that are
kept can be designated in control requests, and be swept.
create: /repo/src/config.c:70-84, /repo/src/dynbe.c:179-189, 655, 692-697; start: /repo/src/svc.c:196-203, 251-260; done:
/repo/src/dynbe.c:191-198; disable, enable: /repo/src/dynbe.c:699-724; drop: /repo/src/dynbe.c:337-388; free: /repo/src/dynbe.c:764-775. -/
def lkStep (s : LkSt) : LkOp → Option LkSt
  | .create b now =>
    if (s.be b).created then some s
    else some (lkEnqueue b now (s.set b ⟨true, false, 0, 1, true, false⟩)).1
  | .other ts => some { s with q := (s.q.enqueue ts none).1 }
  | .cancels => lkCancels s.q.cancels { s with q := { s.q with cancels := [] } }
  | .start =>
    match s.q.jobs with
    | [] => some s
    | j :: r =>
      let s' := { s with q := { s.q with jobs := r } }
      match j.data with
      | none => some s'
      | some b => some { s' with run := s'.run ++ [b] }
  | .done k ans =>
    match s.run[k]? with
    | none => some s
    | some b =>
      if (s.be b).freed then none
      else lkUnref b (lkUpdate b ans { s with run := s.run.eraseIdx k })
  | .disable b =>
    if (s.be b).kept then some ({ s with q := s.q.cancel (s.be b).jid }.set b { s.be b with disabled := true })
    else some s
  | .enable b ans =>
    if (s.be b).kept then
      if (s.be b).disabled then some (lkUpdate b ans (s.set b { s.be b with disabled := false }))
      else some s
    else some s
  | .drop b =>
    if (s.be b).kept then
      lkUnref b ({ s with q := s.q.cancel (s.be b).jid }.set b { s.be b with disabled := true, kept := false })
    else some s
  | .free b =>
    if (s.be b).created ∧ (s.be b).kept = false ∧ (s.be b).ref = 0 then some (s.set b { s.be b with freed := true }) else some s

/-- A history -/
def lkRun : LkSt → List LkOp → Option LkSt
  | s, [] => some s
  | s, o :: t =>
    match lkStep s o with
    | none => none
    | some s => lkRun s t

end Pound
