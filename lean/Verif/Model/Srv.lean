import Verif.Model.DynBe

/-!
Dynamic backends made out of SRV records: /repo/src/dynbe.c:491-692, 357-373, 694-724 and /repo/src/resolver.c:611-653.

A backend with `Resolve srv` keeps a table of matrices, one for every target (host and port) of its SRV records; each of these is a matrix as in Model/DynBe.lean
and generates regular backends from the addresses of the target.  The model of the latter is used as it is: making a matrix is the step `newMtx`, sweeping a
matrix is the step `disable`.  Here, matrices also have host, port and priority, and regular backends have port and priority.  Failures of malloc are not modelled.
-/

namespace Pound

/-- struct dns_srv, /repo/src/resolver.h:43-49; the numbers are unsigned 16-bit ones in the DNS. -/
structure SrvRec where
  prio : Nat
  weight : Nat
  port : Nat
  host : Bytes
deriving DecidableEq, Repr

/-- struct srv_stat, /repo/src/dynbe.c:500-506 -/
structure SrvStat where
  prio : Nat
  start : Nat
  count : Nat
  maxw : Nat
deriving DecidableEq, Repr

/-- One round of the loop of analyze_srv_response, /repo/src/dynbe.c:540-552, on record number i; the last group comes first.  The first record finds a zeroed group
with its own priority (line 539). -/
def srvStatStep (acc : List SrvStat) (i : Nat) (r : SrvRec) : List SrvStat :=
  match acc with
  | [] => [⟨r.prio, 0, 1, if 0 < r.weight then r.weight else 0⟩]
  | g :: rest =>
    if g.prio ≠ r.prio then ⟨r.prio, i, 1, if 0 < r.weight then r.weight else 0⟩ :: g :: rest
    else { g with count := g.count + 1, maxw := if g.maxw < r.weight then r.weight else g.maxw } :: rest

/-- The loop of analyze_srv_response, /repo/src/dynbe.c:540-552, from record number i on -/
def srvStatLoop : List SrvStat → Nat → List SrvRec → List SrvStat
  | acc, _, [] => acc
  | acc, i, r :: rest => srvStatLoop (srvStatStep acc i r) (i + 1) rest

/-- analyze_srv_response, /repo/src/dynbe.c:510-556 -/
def srvStats (resp : List SrvRec) : List SrvStat := (srvStatLoop [] 0 resp).reverse

/-- The matrix of a target: the fields of struct be_matrix (/repo/src/pound.h:484-508) and of BACKEND that are not in DynMtx.  The port is given in host order. -/
structure SrvSub where
  host : Bytes
  port : Nat
  /-- be->priority -/
  prio : Nat
  /-- v.mtx.parent: the backend with `Resolve srv` it was made by -/
  parent : Option Nat
deriving DecidableEq, Repr

/-- A backend with `Resolve srv` -/
structure SrvMtx where
  /-- v.mtx.betab -/
  tab : List Nat
  /-- v.mtx.ignore_srv_weight -/
  ignore : Bool
  /-- be->priority -/
  prio : Nat
  disabled : Bool
deriving DecidableEq, Repr

/-- A service with its backends -/
structure SrvSt where
  dyn : DynSt
  /-- The matrices from this number on have not been made yet. -/
  nextM : Nat
  sub : Nat → SrvSub
  /-- be->mark of the matrices -/
  mark : Nat → Bool
  srv : Nat → SrvMtx
  /-- The priorities of regular backends -/
  bePrio : Nat → Nat
  /-- The ports of regular backends -/
  bePort : Nat → Nat

/-- The outcome of a step -/
inductive SrvRes where
  | ok (s : SrvSt)
  | ub
  | abort

/-- The outcome, put back into the whole state -/
def srvLift (s : SrvSt) : DynRes → SrvRes
  | .ok d => .ok { s with dyn := d }
  | .ub => .ub
  | .abort => .abort

/-- backend_table_hostname_lookup, /repo/src/dynbe.c:291-299, with BACKEND_cmp, 247-250.  That the hash (224-230) agrees with the comparison is taken for granted. -/
def srvFind (s : SrvSt) (tab : List Nat) (host : Bytes) (port : Nat) : Option Nat := tab.find? fun m => ciEq (s.sub m).host host && (s.sub m).port == port

/-- The priority for a record, /repo/src/dynbe.c:599-602 -/
def srvPrio (x : SrvMtx) (st : SrvStat) (r : SrvRec) : Nat := if x.ignore then x.prio else if st.maxw = 0 then 1 else r.weight

/-- One record, /repo/src/dynbe.c:593-663 -/
def srvOne (k : Nat) (st : SrvStat) (s : SrvSt) (r : SrvRec) : SrvRes :=
  let x := s.srv k
  let prio := srvPrio x st r
  match srvFind s x.tab r.host r.port with
  | some m =>
    if (s.sub m).prio ≠ prio then
      .ok { s with
        sub := fun j => if j = m then { s.sub m with prio := prio } else s.sub j
        bePrio := fun i => if i ∈ (s.dyn.mtx m).tab then prio else s.bePrio i
        mark := fun j => if j = m then false else s.mark j }
    else .ok { s with mark := fun j => if j = m then false else s.mark j }
  | none =>
    let m := s.nextM
    srvLift
      { s with
        nextM := m + 1
        sub := fun j => if j = m then ⟨r.host, r.port, prio, some k⟩ else s.sub j
        mark := fun j => if j = m then false else s.mark j
        srv := fun j => if j = k then { x with tab := x.tab ++ [m] } else s.srv j }
      (dynStep s.dyn (.newMtx m r.prio))

/-- The records of one group, /repo/src/dynbe.c:591-664 -/
def srvGroup (k : Nat) (st : SrvStat) : List SrvRec → SrvSt → SrvRes
  | [], s => .ok s
  | r :: rest, s =>
    match srvOne k st s r with
    | .ok s' => srvGroup k st rest s'
    | .ub => .ub
    | .abort => .abort

/-- The groups, /repo/src/dynbe.c:587-665: group i has the records stat[i].start to stat[i].start + stat[i].count - 1. -/
def srvGroups (k : Nat) (recs : List SrvRec) : List SrvStat → SrvSt → SrvRes
  | [], s => .ok s
  | st :: rest, s =>
    match srvGroup k st ((recs.drop st.start).take st.count) s with
    | .ok s' => srvGroups k recs rest s'
    | .ub => .ub
    | .abort => .abort

/-- backend_sweep for a matrix, /repo/src/dynbe.c:328-390, 357-369: all of its backends are swept, and it is disabled, as in backend_matrix_disable. -/
def srvSweepOne (k m : Nat) (s : SrvSt) : SrvRes :=
  if s.mark m = false then .ok s
  else
    let x := s.srv k
    srvLift
      { s with
        mark := fun j => if j = m then false else s.mark j
        srv := fun j => if j = k then { x with tab := x.tab.erase m } else s.srv j }
      (dynStep s.dyn (.disable m))

/-- backend_table_foreach with backend_sweep, over the matrices that are in the table at the start -/
def srvSweep (k : Nat) : List Nat → SrvSt → SrvRes
  | [], s => .ok s
  | m :: rest, s =>
    match srvSweepOne k m s with
    | .ok s' => srvSweep k rest s'
    | .ub => .ub
    | .abort => .abort

/-- backend_mark for all matrices of a table, /repo/src/dynbe.c:320-326 -/
def srvMarkAll (tab : List Nat) (s : SrvSt) : SrvSt := { s with mark := fun m => if m ∈ tab then true else s.mark m }

/-- service_matrix_srv_update_backends, /repo/src/dynbe.c:558-690 -/
def srvUpdate (k : Nat) (recs : List SrvRec) (s : SrvSt) : SrvRes :=
  if (s.srv k).disabled then .ok s
  else
    match srvGroups k recs (srvStats recs) (srvMarkAll (s.srv k).tab s) with
    | .ok s2 => srvSweep k (s2.srv k).tab s2
    | .ub => .ub
    | .abort => .abort

/-- backend_matrix_disable for a backend with `Resolve srv`, /repo/src/dynbe.c:710-723 -/
def srvDisable (k : Nat) (s : SrvSt) : SrvRes :=
  match srvSweep k (s.srv k).tab (srvMarkAll (s.srv k).tab s) with
  | .ok s' => .ok { s' with srv := fun j => if j = k then { s'.srv k with disabled := true } else s'.srv j }
  | .ub => .ub
  | .abort => .abort

/-- backend_matrix_disable for a backend with `Resolve srv`, /repo/src/dynbe.c:702-709, if the look-up it makes succeeds -/
def srvEnable (k : Nat) (recs : List SrvRec) (s : SrvSt) : SrvRes :=
  if (s.srv k).disabled then srvUpdate k recs { s with srv := fun j => if j = k then { s.srv k with disabled := false } else s.srv j } else .ok s

/-- The matrix whose addresses a step is about -/
def dynOpMtx : DynOp → Option Nat
  | .update m _ => some m
  | .enable m _ => some m
  | .disable m => some m
  | .noAnswer m => some m
  | _ => none

/-- Whether a step of Model/DynBe.lean can be taken on its own: matrices of targets are made by SRV look-ups only, and operators do not reach them
(they are not in the lists of backends: /repo/src/dynbe.c:656-661). -/
def srvAllowed (s : SrvSt) : DynOp → Bool
  | .newMtx _ _ => false
  | .update m _ => m < s.nextM
  | .noAnswer m => m < s.nextM
  | .disable m => m < s.nextM && (s.sub m).parent == none
  | .enable m _ => m < s.nextM && (s.sub m).parent == none
  | _ => true

/-- Another step.  The backends it generates (those numbered from s.dyn.next on) get the priority and the port of the matrix: /repo/src/dynbe.c:454-461,
backend_matrix_to_regular, /repo/src/config.c:4762-4786. -/
def srvDyn (o : DynOp) (s : SrvSt) : SrvRes :=
  if srvAllowed s o then
    match dynOpMtx o with
    | none => srvLift s (dynStep s.dyn o)
    | some m =>
      srvLift
        { s with
          bePrio := fun i => if s.dyn.next ≤ i then (s.sub m).prio else s.bePrio i
          bePort := fun i => if s.dyn.next ≤ i then (s.sub m).port else s.bePort i }
        (dynStep s.dyn o)
  else .ok s

/-- What can happen -/
inductive SrvOp where
  /-- A look-up of SRV records gave these, in this order; none if the name was not found: /repo/src/dynbe.c:129-145. -/
  | srvUpdate (k : Nat) (recs : List SrvRec)
  /-- A look-up failed: /repo/src/dynbe.c:147-155 -/
  | srvNoAnswer (k : Nat)
  | srvDisable (k : Nat)
  | srvEnable (k : Nat) (recs : List SrvRec)
  | dyn (o : DynOp)

/-- One step -/
def srvStep (s : SrvSt) : SrvOp → SrvRes
  | .srvUpdate k recs => srvUpdate k recs s
  | .srvNoAnswer _ => .ok s
  | .srvDisable k => srvDisable k s
  | .srvEnable k recs => srvEnable k recs s
  | .dyn o => srvDyn o s

/-- A history -/
def srvRun : SrvSt → List SrvOp → SrvRes
  | s, [] => .ok s
  | s, o :: r =>
    match srvStep s o with
    | .ok s' => srvRun s' r
    | .ub => .ub
    | .abort => .abort

/-- srv_cmp, /repo/src/resolver.c:626-639, but for the comparison of host names with strcasecmp, which is a parameter.  Negative: a comes first. -/
def srvCmp (casecmp : Bytes → Bytes → Int) (a b : SrvRec) : Int :=
  let rc : Int := (a.prio : Int) - b.prio
  if rc = 0 then
    let rc : Int := (b.weight : Int) - a.weight
    if rc = 0 then casecmp a.host b.host else rc
  else rc

end Pound
