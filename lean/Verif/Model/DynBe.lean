import Verif.Model.Basic

/-!
Dynamic backends: the regular backends that pound makes out of the addresses of a host name: /repo/src/dynbe.c, /repo/src/resolver.c:542-609, and what
requests do with backends: /repo/src/svc.c:433-448, 756-831, 988-1089, 1233-1244, 1652-1683.

One service is modelled, with any number of matrices (`Backend` sections with `Resolve first` or `Resolve all`; also those made out of SRV records, which differ
in the weight only).  Objects on the heap have numbers.  An update runs under the mutex of the service, so do get_backend and upd_session; each of them is
one step.  Priorities and totals are in Model/Balance.lean.  Failures of malloc are not modelled.
-/

namespace Pound

/-- BACKEND, /repo/src/pound.h:543-577, the fields used here -/
structure DynBe where
  addr : Bytes
  /-- The matrix it was generated by (v.reg.parent); `none` for backends of the configuration file. -/
  parent : Option Nat
  disabled : Bool
  mark : Bool
  alive : Bool
  refs : Nat
  /-- The balancer it belongs to, by its weight; `none` is NULL. -/
  bal : Option Nat
  /-- The memory has been freed. -/
  freed : Bool
deriving DecidableEq, Repr

/-- BALANCER, /repo/src/pound.h:784-796: a list of backends and the cursor of the round-robin algorithm -/
structure DynBal where
  weight : Nat
  members : List Nat
  cur : Option Nat
deriving DecidableEq, Repr

/-- struct be_matrix, /repo/src/pound.h:484-508 -/
structure DynMtx where
  weight : Nat
  /-- bres_first -/
  first : Bool
  disabled : Bool
  /-- betab -/
  tab : List Nat
deriving DecidableEq, Repr

/-- A service with its backends, and the requests and jobs that refer to them -/
structure DynSt where
  be : Nat → DynBe
  /-- Numbers from here on are not in use. -/
  next : Nat
  /-- svc->balancers, ordered by weight -/
  bals : List DynBal
  mtx : Nat → DynMtx
  /-- svc->be_rem_head -/
  rem : List Nat
  sess : List (Bytes × Nat)
  /-- The session type is one for which responses create sessions (COOKIE, HEADER, BASIC): /repo/src/svc.c:1061-1080. -/
  late : Bool
  /-- The backends of the requests being served -/
  held : List Nat
  /-- The backends of the pending jobs touch_be -/
  jobs : List Nat

/-- The outcome of a step: a new state, undefined behaviour, or the end of the program by a failed assertion -/
inductive DynRes where
  | ok (s : DynSt)
  | ub
  | abort

/-- Change one backend -/
def setBe (be : Nat → DynBe) (i : Nat) (r : DynBe) : Nat → DynBe := fun j => if j = i then r else be j

/-- Change one matrix -/
def setMtx (mtx : Nat → DynMtx) (i : Nat) (r : DynMtx) : Nat → DynMtx := fun j => if j = i then r else mtx j

/-- balancer_list_get, /repo/src/svc.c:3134-3158: find the balancer with that weight, or insert an empty one where it belongs. -/
def balGet (w : Nat) : List DynBal → List DynBal
  | [] => [⟨w, [], none⟩]
  | b :: r =>
    if w = b.weight then b :: r
    else if w < b.weight then ⟨w, [], none⟩ :: b :: r
    else b :: balGet w r

/-- balancer_add_backend, /repo/src/pound.h:1082-1086 -/
def balAdd (w i : Nat) (bals : List DynBal) : List DynBal :=
  bals.map fun b => if b.weight = w then { b with members := b.members ++ [i] } else b

/-- balancer_remove_backend, /repo/src/pound.h:1088-1092 -/
def balRemove (w i : Nat) (bals : List DynBal) : List DynBal :=
  bals.map fun b => if b.weight = w then { b with members := b.members.erase i } else b

/-- /repo/src/dynbe.c:351-355: a balancer that became empty is removed and freed. -/
def balDrop (w : Nat) (bals : List DynBal) : List DynBal :=
  bals.filter fun b => !(b.weight == w && b.members.isEmpty)

/-- service_lb_reset, /repo/src/svc.c:823-831, with iwrr_reset, 675-682, and iwrr_init, 668-673 -/
def balReset (i : Nat) (bals : List DynBal) : List DynBal :=
  bals.map fun b => if b.cur = some i then { b with cur := b.members.head? } else b

/-- backend_mark for all backends of a table, /repo/src/dynbe.c:320-326 -/
def markAll (v : Bool) (tab : List Nat) (be : Nat → DynBe) : Nat → DynBe := fun j => if j ∈ tab then { be j with mark := v } else be j

/-- backend_table_addr_lookup, /repo/src/dynbe.c:282-289, 234-245: by the bytes of the address -/
def tabFind (be : Nat → DynBe) (tab : List Nat) (a : Bytes) : Option Nat := tab.find? fun i => (be i).addr == a

/-- One address of the answer, /repo/src/dynbe.c:429-472 -/
def addAddr (m : Nat) (s : DynSt) (a : Bytes) : DynSt :=
  let x := s.mtx m
  match tabFind s.be x.tab a with
  | some i => { s with be := setBe s.be i { s.be i with mark := false } }
  | none =>
    { s with
      be := setBe s.be s.next { addr := a, parent := some m, disabled := x.disabled, mark := false, alive := true, refs := 1, bal := some x.weight, freed := false }
      next := s.next + 1
      bals := balAdd x.weight s.next s.bals
      mtx := setMtx s.mtx m { x with tab := x.tab ++ [s.next] } }

/-- service_session_remove_by_backend, /repo/src/svc.c:433-448 -/
def sessDrop (i : Nat) (sess : List (Bytes × Nat)) : List (Bytes × Nat) := sess.filter fun e => e.2 ≠ i

/-- backend_sweep for a regular backend, /repo/src/dynbe.c:328-390 -/
def sweepOne (m i : Nat) (s : DynSt) : DynRes :=
  let b := s.be i
  if b.mark = false then .ok s
  else if b.refs = 0 then .abort
  else
    match b.bal with
    | none => .ub
    | some w =>
      let bals := balReset i (balDrop w (balRemove w i s.bals))
      let x := s.mtx m
      .ok { s with
        be := setBe s.be i { b with disabled := true, bal := none, refs := b.refs - 1, mark := false }
        bals := bals
        mtx := setMtx s.mtx m { x with tab := x.tab.erase i }
        rem := s.rem ++ [i]
        sess := sessDrop i s.sess }

/-- backend_table_foreach with backend_sweep: over the backends that are in the table at the start -/
def sweepAll (m : Nat) : List Nat → DynSt → DynRes
  | [], s => .ok s
  | i :: r, s =>
    match sweepOne m i s with
    | .ok s' => sweepAll m r s'
    | .ub => .ub
    | .abort => .abort

/-- service_matrix_addr_update_backends, /repo/src/dynbe.c:392-489.  At the end (line 476) the balancer found at the beginning is used again: that is undefined if it has been freed meanwhile. -/
def dynUpdate (m : Nat) (ans : List Bytes) (s0 : DynSt) : DynRes :=
  let x := s0.mtx m
  let s := { s0 with bals := balGet x.weight s0.bals }
  if x.disabled then .ok s
  else
    let s1 := { s with be := markAll true x.tab s.be }
    let s2 := (if x.first then ans.take 1 else ans).foldl (addAddr m) s1
    match sweepAll m (s2.mtx m).tab s2 with
    | .ok s3 => if s3.bals.any (fun b => b.weight == x.weight) then .ok s3 else .ub
    | .ub => .ub
    | .abort => .abort

/-- backend_matrix_disable, /repo/src/dynbe.c:710-723 -/
def dynDisable (m : Nat) (s : DynSt) : DynRes :=
  let x := s.mtx m
  match sweepAll m x.tab { s with be := markAll true x.tab s.be } with
  | .ok s' => .ok { s' with mtx := setMtx s'.mtx m { s'.mtx m with disabled := true } }
  | .ub => .ub
  | .abort => .abort

/-- backend_matrix_disable, /repo/src/dynbe.c:702-709, if the look-up it makes succeeds -/
def dynEnable (m : Nat) (ans : List Bytes) (s : DynSt) : DynRes :=
  if (s.mtx m).disabled then dynUpdate m ans { s with mtx := setMtx s.mtx m { s.mtx m with disabled := false } } else .ok s

/-- One pass of thr_backend_remover, /repo/src/dynbe.c:764-775 -/
def dynRemover (s : DynSt) : DynSt :=
  { s with
    be := fun j => if j ∈ s.rem ∧ (s.be j).refs = 0 then { s.be j with freed := true } else s.be j
    rem := s.rem.filter fun i => (s.be i).refs ≠ 0 }

/-- The balancers service_lb_select_backend looks at until it finds a backend in the one of weight w, /repo/src/svc.c:800-811 -/
def balsUpTo (w : Nat) : List DynBal → List DynBal
  | [] => []
  | b :: r => if b.weight = w then [b] else b :: balsUpTo w r

/-- The cursor of a balancer is NULL or points into its list. -/
def curOk (l : List Nat) : Option Nat → Bool
  | none => true
  | some c => l.contains c

/-- balancer_select_backend, /repo/src/svc.c:756-769, dereferences a null pointer if the list is empty; a cursor that is not in the list is a dangling pointer. -/
def balOk (b : DynBal) : Bool := !b.members.isEmpty && curOk b.members b.cur

/-- backend_is_active, /repo/src/pound.h:595-598 -/
def dynActive (b : DynBe) : Bool := !b.disabled && b.alive

/-- get_backend by balancing, /repo/src/svc.c:988-1049: the balancer of weight w chooses backend i and moves its cursor to `cur`.  What it chooses is the subject of
Model/Balance.lean; here it may be any active backend.  With a session key, a session is created (/repo/src/svc.c:849-854). -/
def dynTake (w i : Nat) (cur : Option Nat) (key : Option Bytes) (s : DynSt) : DynRes :=
  if (balsUpTo w s.bals).any (fun b => !balOk b) then .ub
  else
    match s.bals.find? (fun b => b.weight == w) with
    | none => .ok s
    | some b =>
      if b.members.contains i && dynActive (s.be i) && curOk b.members cur then
        .ok { s with
          be := setBe s.be i { s.be i with refs := (s.be i).refs + 1 }
          bals := s.bals.map fun b => if b.weight = w then { b with cur := cur } else b
          sess := match key with | none => s.sess | some k => if s.sess.any (fun e => e.1 == k) then s.sess else s.sess ++ [(k, i)]
          held := i :: s.held }
      else .ok s

/-- get_backend by a session, /repo/src/svc.c:849-850, 1043 -/
def dynTakeSess (k : Bytes) (s : DynSt) : DynRes :=
  match s.sess.find? (fun e => e.1 == k) with
  | none => .ok s
  | some e =>
    if (s.be e.2).freed then .ub
    else .ok { s with be := setBe s.be e.2 { s.be e.2 with refs := (s.be e.2).refs + 1 }, held := e.2 :: s.held }

/-- backend_unref at the end of a request, /repo/src/dynbe.c:804-816, /repo/src/pound.c:392 -/
def dynDone (i : Nat) (s : DynSt) : DynRes :=
  if i ∈ s.held then
    if (s.be i).freed then .ub
    else if (s.be i).refs = 0 then .abort
    else .ok { s with be := setBe s.be i { s.be i with refs := (s.be i).refs - 1 }, held := s.held.erase i }
  else .ok s

/-- upd_session for a request, /repo/src/svc.c:1054-1089 -/
def dynRespond (k : Bytes) (i : Nat) (s : DynSt) : DynRes :=
  if i ∈ s.held ∧ s.late = true then
    if s.sess.any (fun e => e.1 == k) then .ok s else .ok { s with sess := s.sess ++ [(k, i)] }
  else .ok s

/-- kill_be for a request that cannot connect, /repo/src/svc.c:1233-1244, 1206-1214: the backend is dead until the job touch_be finds it alive. -/
def dynKill (i : Nat) (s : DynSt) : DynRes :=
  if i ∈ s.held then
    if (s.be i).freed then .ub
    else if (s.be i).bal = none then .abort
    else .ok { s with be := setBe s.be i { s.be i with alive := false, refs := (s.be i).refs + 1 }, sess := sessDrop i s.sess, jobs := i :: s.jobs }
  else .ok s

/-- touch_be when the backend answers, /repo/src/svc.c:1652-1683 -/
def dynTouch (i : Nat) (s : DynSt) : DynRes :=
  if i ∈ s.jobs then
    if (s.be i).freed then .ub
    else if (s.be i).refs = 0 then .abort
    else if (s.be i).refs > 1 ∧ (s.be i).alive = false then
      if (s.be i).disabled = false ∧ (s.be i).bal = none then .ub
      else .ok { s with be := setBe s.be i { s.be i with alive := true, refs := (s.be i).refs - 1 }, jobs := s.jobs.erase i }
    else .ok { s with be := setBe s.be i { s.be i with refs := (s.be i).refs - 1 }, jobs := s.jobs.erase i }
  else .ok s

/-- What can happen -/
inductive DynOp where
  /-- a look-up gave these addresses; none if the name was not found: /repo/src/dynbe.c:93-108 -/
  | update (m : Nat) (ans : List Bytes)
  /-- a look-up failed: /repo/src/dynbe.c:110-118 -/
  | noAnswer (m : Nat)
  | disable (m : Nat)
  | enable (m : Nat) (ans : List Bytes)
  | remover
  | take (w i : Nat) (cur : Option Nat) (key : Option Bytes)
  | takeSess (k : Bytes)
  | done (i : Nat)
  | respond (k : Bytes) (i : Nat)
  | kill (i : Nat)
  | touch (i : Nat)
  /-- a session ends: /repo/src/svc.c:309-333, 413-426 -/
  | expire (k : Bytes)
  /-- the operator disables or enables a backend: /repo/src/svc.c:1188-1225 -/
  | setDisabled (i : Nat) (v : Bool)
  /-- a matrix is made for a target of SRV records: /repo/src/dynbe.c:621-653 -/
  | newMtx (m w : Nat)

/-- One step -/
def dynStep (s : DynSt) : DynOp → DynRes
  | .update m ans => dynUpdate m ans s
  | .noAnswer _ => .ok s
  | .disable m => dynDisable m s
  | .enable m ans => dynEnable m ans s
  | .remover => .ok (dynRemover s)
  | .take w i cur key => dynTake w i cur key s
  | .takeSess k => dynTakeSess k s
  | .done i => dynDone i s
  | .respond k i => dynRespond k i s
  | .kill i => dynKill i s
  | .touch i => dynTouch i s
  | .expire k => .ok { s with sess := s.sess.filter fun e => e.1 ≠ k }
  | .setDisabled i v => if s.bals.any (fun b => b.members.contains i) then .ok { s with be := setBe s.be i { s.be i with disabled := v } } else .ok s
  | .newMtx m w => if (s.mtx m).tab = [] then .ok { s with mtx := setMtx s.mtx m ⟨w, false, false, []⟩ } else .ok s

/-- A history -/
def dynRun : DynSt → List DynOp → DynRes
  | s, [] => .ok s
  | s, o :: r =>
    match dynStep s o with
    | .ok s' => dynRun s' r
    | .ub => .ub
    | .abort => .abort

/-! ### Look-ups -/

/-- enum dns_status, /repo/src/resolver.h:28-34 -/
inductive DnsStatus where
  | success | failure | tempFailure | notFound
deriving DecidableEq, Repr

/-- The answer for one family: the addresses with the time they expire, or another status -/
inductive DnsAns where
  | addrs (expires : Nat) (l : List Bytes)
  | other (s : DnsStatus)
deriving DecidableEq, Repr

/-- The status of an answer -/
def DnsAns.status : DnsAns → DnsStatus
  | .addrs _ _ => .success
  | .other s => s

/-- dns_addr_lookup for AF_UNSPEC, /repo/src/resolver.c:561-608; `none` where *presp is left alone. -/
def dnsBoth (a4 a6 : DnsAns) : DnsStatus × Option (Nat × List Bytes) :=
  match a4, a6 with
  | .addrs e4 l4, .addrs e6 l6 => (.success, some (if e4 < e6 then e4 else e6, l4 ++ l6))
  | .other _, .addrs e6 l6 => (.success, some (e6, l6))
  | .addrs e4 l4, .other _ => (.success, some (e4, l4))
  | .other _, .other .notFound => (.notFound, none)
  | .other s, .other .tempFailure => (s, none)
  | .other _, .other .failure => (.failure, none)
  | .other _, .other .success => (.success, none)

/-- backend_matrix_addr_update, /repo/src/dynbe.c:86-120: the step that follows a look-up.  On a temporary failure another look-up is scheduled, on a failure none. -/
def dynLookup (m : Nat) (r : DnsStatus × Option (Nat × List Bytes)) : DynOp :=
  match r.1 with
  | .notFound => .update m []
  | .success => .update m (match r.2 with | none => [] | some x => x.2)
  | .tempFailure => .noAnswer m
  | .failure => .noAnswer m

/-- Whether another look-up is scheduled for the matrix: /repo/src/dynbe.c:112 and 484, the latter only if it is not disabled -/
def dynAgain (r : DnsStatus × Option (Nat × List Bytes)) (disabled : Bool) : Bool :=
  match r.1 with
  | .tempFailure => true
  | .failure => false
  | .notFound => !disabled
  | .success => !disabled

end Pound
