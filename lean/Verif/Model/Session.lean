import Verif.Model.Jobs

/-!
Model of session tables (/repo/src/svc.c:269-448).

All operations are made with the service mutex locked, so they are atomic. OpenSSL's LHASH with
`strcmp` on the keys is modelled as a list of keys with the session they lead to. Allocation does
not fail. Backends are represented by numbers.
-/

namespace Pound

/-- SESSION (/repo/src/pound.h:602-608); `ptr` is its address. -/
structure Sess where
  ptr : Nat
  key : Bytes
  be : Nat
  expire : TS
deriving DecidableEq, Repr

/-- SESSION_TABLE (/repo/src/pound.h:618-622): hash table and list. `fresh` is the next address. -/
structure SessTab where
  hash : List (Bytes × Nat)
  head : List Sess
  fresh : Nat
deriving DecidableEq, Repr

/-- `session_table_new` (/repo/src/svc.c:271-280). -/
def SessTab.init : SessTab := ⟨[], [], 0⟩

/-- `SESSION_INSERT` (/repo/src/ht.h:149-157): the replaced session, if any. -/
def hashInsert (h : List (Bytes × Nat)) (key : Bytes) (p : Nat) : List (Bytes × Nat) × Option Nat :=
  ((key, p) :: h.filter (fun e => e.1 ≠ key), h.lookup key)

/-- `SESSION_DELETE` (/repo/src/ht.h:172-180). -/
def hashDelete (h : List (Bytes × Nat)) (key : Bytes) : List (Bytes × Nat) × Option Nat :=
  (h.filter (fun e => e.1 ≠ key), h.lookup key)

/-- `session_unlink` (/repo/src/svc.c:288-292). -/
def sessUnlink (l : List Sess) (p : Nat) : List Sess := l.filter (fun s => s.ptr ≠ p)

/-- `expire_sessions` run as a job (/repo/src/svc.c:309-333), up to re-arming. -/
def expireLoop (now : TS) : List Sess → List (Bytes × Nat) → List Sess × List (Bytes × Nat)
  | [], h => ([], h)
  | s :: t, h => if s.expire.cmp now ≤ 0 then expireLoop now t (hashDelete h s.key).1 else (s :: t, h)

/-- `expire_sessions` (/repo/src/svc.c:309-333): the table and the time to re-arm for. -/
def SessTab.expire (tab : SessTab) (now : TS) : SessTab × Option TS :=
  let r := expireLoop now tab.head tab.hash
  ({ tab with head := r.1, hash := r.2 }, r.1.head?.map (·.expire))

/-- `service_session_add` (/repo/src/svc.c:358-384): the table and the time to arm the job for. -/
def SessTab.add (tab : SessTab) (ttl : Nat) (now : TS) (key : Bytes) (be : Nat) : SessTab × Option TS :=
  let t : Sess := ⟨tab.fresh, key, be, now.addSec ttl⟩
  let ins := hashInsert tab.hash key tab.fresh
  let head := match ins.2 with
    | some old => sessUnlink tab.head old
    | none => tab.head
  let head := head ++ [t]
  ({ hash := ins.1, head := head, fresh := tab.fresh + 1 },
    if head.length = 1 then some t.expire else none)

/-- `service_session_promote` (/repo/src/svc.c:341-349). -/
def sessPromote (ttl : Nat) (now : TS) (p : Nat) (l : List Sess) : List Sess :=
  match l.find? (fun s => s.ptr = p) with
  | some s => sessUnlink l p ++ [{ s with expire := now.addSec ttl }]
  | none => l

/-- `service_session_find` (/repo/src/svc.c:392-405). -/
def SessTab.find (tab : SessTab) (ttl : Nat) (now : TS) (key : Bytes) : SessTab × Option Nat :=
  match tab.hash.lookup key with
  | some p =>
    ({ tab with head := sessPromote ttl now p tab.head }, (tab.head.find? fun s => s.ptr = p).map (·.be))
  | none => (tab, none)

/-- `service_session_remove_by_key` (/repo/src/svc.c:413-426). -/
def SessTab.removeKey (tab : SessTab) (key : Bytes) : SessTab :=
  let d := hashDelete tab.hash key
  match d.2 with
  | some p => { tab with hash := d.1, head := sessUnlink tab.head p }
  | none => { tab with hash := d.1 }

/-- The loop of `service_session_remove_by_backend` (/repo/src/svc.c:433-448). -/
def removeBeLoop (be : Nat) : List Sess → List (Bytes × Nat) → List Sess × List (Bytes × Nat)
  | [], h => ([], h)
  | s :: t, h =>
    if s.be = be then removeBeLoop be t (hashDelete h s.key).1
    else
      let r := removeBeLoop be t h
      (s :: r.1, r.2)

/-- `service_session_remove_by_backend` (/repo/src/svc.c:433-448). -/
def SessTab.removeBe (tab : SessTab) (be : Nat) : SessTab :=
  let r := removeBeLoop be tab.head tab.hash
  { tab with head := r.1, hash := r.2 }

/-- What a pending job is: the expiry job of the service, or any other. -/
inductive JobKind where
  | expire
  | other
deriving DecidableEq, Repr

/-- A service's session table together with the timer. `running` are the expiry jobs whose thread
was started and has not locked the service yet. -/
structure SessSys where
  tab : SessTab
  timer : Timer JobKind
  running : List (Job JobKind)

/-- Arm the expiry job if a time is given (/repo/src/svc.c:330-331, 382-383). -/
def SessSys.arm (s : SessSys) : Option TS → SessSys
  | some ts => { s with timer := s.timer.enqueue ts .expire }
  | none => s

/-- Jobs started in the step from `t` to `t'`. -/
def newlyStarted {α} (t t' : Timer α) : List (Job α) :=
  (t'.started.drop t.started.length).map (·.1)

/-- What the rest of the program does with the timer: jobs of other kinds, and cancellation of those
only, by identifiers that were handed out. (The identifier of the expiry job is never stored.) -/
def SessSys.foreign (s : SessSys) : TimerEv JobKind → Prop
  | .enqueue _ a => a = .other
  | .cancel id => (∃ n, n < s.timer.q.next ∧ id = n % jobIds) ∧ ∀ j ∈ s.timer.q.jobs, j.data = .expire → j.id ≠ id
  | _ => True

/-- One step of the system. -/
inductive SessStep (ttl : Nat) : SessSys → SessSys → Prop
  | add {s : SessSys} {k be} : SessStep ttl s
      (SessSys.arm { s with tab := (s.tab.add ttl s.timer.clock k be).1 } (s.tab.add ttl s.timer.clock k be).2)
  | find {s : SessSys} {k} : SessStep ttl s { s with tab := (s.tab.find ttl s.timer.clock k).1 }
  | removeKey {s : SessSys} {k} : SessStep ttl s { s with tab := s.tab.removeKey k }
  | removeBe {s : SessSys} {be} : SessStep ttl s { s with tab := s.tab.removeBe be }
  | timer {s : SessSys} {e} : s.timer.can e → s.foreign e →
      SessStep ttl s { s with timer := s.timer.step e, running := s.running ++ newlyStarted s.timer (s.timer.step e) }
  | run {s : SessSys} {a j b} : s.running = a ++ j :: b → j.data = .expire → SessStep ttl s
      (SessSys.arm { s with tab := (s.tab.expire j.ts).1, running := a ++ b } (s.tab.expire j.ts).2)
  | runOther {s : SessSys} {a j b} : s.running = a ++ j :: b → j.data = .other →
      SessStep ttl s { s with running := a ++ b }

end Pound
