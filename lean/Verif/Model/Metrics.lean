import Verif.Model.Control
import Verif.Model.Log

/-!
The status of the program as JSON (/repo/src/svc.c:1951-2388 and /repo/src/pound.c:221-247) and the metrics page made from it (/repo/src/metrics.c).

Running out of memory is not modelled: the functions fail in the ways they do with memory at hand.  Numbers are of an abstract type `D`, the doubles.
-/

namespace Pound

/-- Floating-point numbers, as the functions below use them: conversion from integers, printf's "%.0f", and the estimate of the deviation,
nsqrt (be->avgsqtime - be->avgtime * be->avgtime, 0.5), /repo/src/svc.c:1993-2017 and :2035. -/
structure DblLib (D : Type) where
  ofInt : Int → D
  fmt0 : D → Bytes
  dev : D → D → D

/-! ### The status -/

/-- What backend_serialize_dyninfo adds, /repo/src/svc.c:2073-2111: nothing, the index of the parent, or the time of the next look-up.  The walk along the
parents is not modelled. -/
inductive MDyn where
  | none
  | parent (i : Int)
  | expire (t : Bytes)

/-- union in struct _backend, what backend_serialize shows of it, /repo/src/svc.c:2142-2193.  Addresses are texts made by addr2str; `alive` is v.reg.alive. -/
inductive MBeV where
  | matrix (hostname mode : Bytes) (family : Int) (servername : Option Bytes) (dyn : MDyn)
  | regular (address : Bytes) (ioTo connTo wsTo : Int) (https : Bool) (servername : Option Bytes) (dyn : MDyn) (alive : Bool)
  | redirect (url : Bytes) (code : Int) (hasUri : Bool)
  | acme
  | control
  | metrics
  | error (status : Int) (text : Option Bytes)

/-- struct _backend, what backend_serialize shows of it, /repo/src/svc.c:2127-2195 -/
structure MBe (D : Type) where
  v : MBeV
  priority : Int
  disabled : Bool
  weight : Int
  numreq : Nat
  avgtime : D
  avgsqtime : D

/-- SERVICE, what service_serialize shows of it, /repo/src/svc.c:2246-2252.  The list of sessions and the name of the session type are opaque. -/
structure MSvc (D : Type) where
  name : Option Bytes
  disabled : Bool
  sessType : Bytes
  sessions : JVal D
  balancers : List (List (MBe D))

/-- LISTENER, what listener_serialize shows of it, /repo/src/svc.c:2274-2298 -/
structure MLst (D : Type) where
  name : Option Bytes
  address : Bytes
  https : Bool
  noHttps11 : Int
  disabled : Bool
  services : List (MSvc D)

/-- The workers, /repo/src/pound.c:230-237 -/
structure MWorkers where
  min : Nat
  max : Nat
  timeout : Nat
  count : Nat
  active : Nat

/-- The state of the program, what pound_serialize shows of it, /repo/src/svc.c:2311-2388; `stats` is enable_backend_stats. -/
structure MState (D : Type) where
  stats : Bool
  version : Bytes
  pid : Int
  timestamp : Bytes
  queueLen : Int
  workers : MWorkers
  listeners : List (MLst D)
  services : List (MSvc D)

/-- A string or null, as in /repo/src/svc.c:2248 -/
def jOpt {D} : Option Bytes → JVal D
  | some s => .str s
  | none => .null

/-- backend_is_alive, /repo/src/pound.h:586-593 -/
def MBeV.alive : MBeV → Bool
  | .matrix .. => false
  | .regular _ _ _ _ _ _ _ a => a
  | _ => true

/-- backend_type_str, /repo/src/svc.c:1951-1982 -/
def MBeV.typeStr : MBeV → Bytes
  | .matrix .. => b!"matrix"
  | .regular .. => b!"backend"
  | .redirect .. => b!"redirect"
  | .acme => b!"acme"
  | .control => b!"control"
  | .error .. => b!"error"
  | .metrics => b!"metrics"

/-- backend_serialize_dyninfo, /repo/src/svc.c:2096-2110 -/
def MDyn.attrs {D} (L : DblLib D) : MDyn → List (Bytes × JVal D)
  | .none => []
  | .parent i => [(b!"parent", .num (L.ofInt i))]
  | .expire t => [(b!"expire", .str t)]

/-- The attributes of each type, /repo/src/svc.c:2142-2193 -/
def MBeV.attrs {D} (L : DblLib D) : MBeV → List (Bytes × JVal D)
  | .matrix h m f sn dyn =>
    [(b!"hostname", .str h), (b!"resolve_mode", .str m), (b!"family", .int (L.ofInt f)), (b!"servername", jOpt sn)] ++ dyn.attrs L
  | .regular a io c w https sn dyn _ =>
    [(b!"address", .str a), (b!"io_to", .int (L.ofInt io)), (b!"conn_to", .int (L.ofInt c)), (b!"ws_to", .int (L.ofInt w)),
      (b!"protocol", .str (if https then b!"https" else b!"http")), (b!"servername", jOpt sn)] ++ dyn.attrs L
  | .redirect u c h => [(b!"url", .str u), (b!"code", .int (L.ofInt c)), (b!"has_uri", .bool h)]
  | .acme => []
  | .control => []
  | .metrics => []
  | .error st t => [(b!"status", .int (L.ofInt st)), (b!"text", jOpt t)]

def MBeV.isMatrix : MBeV → Bool
  | .matrix .. => true
  | _ => false

/-- backend_stats_serialize, /repo/src/svc.c:2019-2040 -/
def statsSerialize {D} (L : DblLib D) (b : MBe D) : Res (JVal D) :=
  jObject ((b!"request_count", .num (L.ofInt b.numreq)) ::
    if b.numreq > 0 then [(b!"request_time_avg", .num b.avgtime), (b!"request_time_stddev", .num (L.dev b.avgsqtime b.avgtime))] else [])

/-- backend_serialize, /repo/src/svc.c:2113-2205 -/
def mbeSerialize {D} (L : DblLib D) (stats : Bool) (b : MBe D) : Res (JVal D) :=
  let common := [(b!"type", .str b.v.typeStr), (b!"priority", .int (L.ofInt b.priority)), (b!"alive", .bool b.v.alive), (b!"enabled", .bool !b.disabled),
    (b!"weight", .int (L.ofInt b.weight))] ++ b.v.attrs L
  if stats && !b.v.isMatrix then
    match statsSerialize L b with
    | .ub => .ub
    | .ok s => jObject (common ++ [(b!"stats", s)])
  else jObject common

/-- backends_serialize, /repo/src/svc.c:2207-2234 -/
def mbesSerialize {D} (L : DblLib D) (stats : Bool) (bals : List (List (MBe D))) : Res (JVal D) :=
  if bals.isEmpty then .ok .null
  else match resMap (mbeSerialize L stats) bals.flatten with | .ub => .ub | .ok l => .ok (.arr l)

/-- service_serialize, /repo/src/svc.c:2236-2261 -/
def msvcSerialize {D} (L : DblLib D) (stats : Bool) (s : MSvc D) : Res (JVal D) :=
  match mbesSerialize L stats s.balancers with
  | .ub => .ub
  | .ok bs =>
    jObject [(b!"name", jOpt s.name), (b!"enabled", .bool !s.disabled), (b!"session_type", .str s.sessType), (b!"sessions", s.sessions), (b!"backends", bs)]

/-- listener_serialize, /repo/src/svc.c:2263-2309 -/
def mlstSerialize {D} (L : DblLib D) (stats : Bool) (l : MLst D) : Res (JVal D) :=
  match resMap (msvcSerialize L stats) l.services with
  | .ub => .ub
  | .ok ss =>
    jObject ([(b!"name", jOpt l.name), (b!"address", .str l.address), (b!"protocol", .str (if l.https then b!"https" else b!"http"))] ++
      (if l.https then [(b!"nohttps11", .int (L.ofInt l.noHttps11))] else []) ++
      [(b!"enabled", .bool !l.disabled), (b!"services", .arr ss)])

/-- workers_serialize, /repo/src/pound.c:221-247 -/
def workersSerialize {D} (L : DblLib D) (w : MWorkers) : Res (JVal D) :=
  jObject [(b!"min", .num (L.ofInt w.min)), (b!"max", .num (L.ofInt w.max)), (b!"timeout", .num (L.ofInt w.timeout)), (b!"count", .num (L.ofInt w.count)),
    (b!"active", .num (L.ofInt w.active))]

/-- pound_core_serialize and pound_serialize, /repo/src/svc.c:2311-2388 -/
def poundSerialize {D} (L : DblLib D) (st : MState D) : Res (JVal D) :=
  match workersSerialize L st.workers, resMap (mlstSerialize L st.stats) st.listeners, resMap (msvcSerialize L st.stats) st.services with
  | .ok ws, .ok ls, .ok ss =>
    jObject [(b!"version", .str st.version), (b!"pid", .int (L.ofInt st.pid)), (b!"timestamp", .str st.timestamp), (b!"queue_len", .int (L.ofInt st.queueLen)),
      (b!"workers", ws), (b!"listeners", .arr ls), (b!"services", .arr ss)]
  | _, _, _ => .ub

/-! ### Families of metrics -/

/-- The entries of the tables of /repo/src/metrics.c:258-324; entries are told apart by their address. -/
inductive Fam where
  | listenerEnabled
  | listenerInfo
  | serviceInfo
  | serviceEnabled
  | backends
  | backendState
  | backendRequests
  | backendAvg
  | backendStddev
  | workers
deriving DecidableEq

/-- struct metric_family, /repo/src/metrics.c:228-235, without the function -/
structure FamText where
  name : Bytes
  type : Bytes
  unit : Option Bytes
  help : Bytes

/-- /repo/src/metrics.c:258-324 -/
def Fam.text : Fam → FamText
  | .listenerEnabled => ⟨b!"pound_listener_enabled", b!"stateset", none, b!"State of a listener: enabled/disabled."⟩
  | .listenerInfo => ⟨b!"pound_listener_info", b!"info", none, b!"Description of a listener."⟩
  | .serviceInfo => ⟨b!"pound_service_info", b!"info", none, b!"Description of a service."⟩
  | .serviceEnabled => ⟨b!"pound_service_enabled", b!"stateset", none, b!"State of a particular service."⟩
  | .backends => ⟨b!"pound_backends", b!"gauge", none,
      b!"Number of backends per service: total, alive, enabled, and active (both alive and enabled)."⟩
  | .backendState => ⟨b!"pound_backend_state", b!"stateset", none, b!"Backend states: alive and enabled."⟩
  | .backendRequests => ⟨b!"pound_backend_requests", b!"gauge", none, b!"Number of requests processed by backend."⟩
  | .backendAvg => ⟨b!"pound_backend_request_time_avg_nanoseconds", b!"gauge", some b!"nanoseconds", b!"Average time per request spent in backend."⟩
  | .backendStddev => ⟨b!"pound_backend_request_stddev_nanoseconds", b!"gauge", some b!"nanoseconds",
      b!"Standard deviation of the average time per request."⟩
  | .workers => ⟨b!"pound_workers", b!"gauge", none, b!"Number of pound workers."⟩

/-- struct metric_family_defn, /repo/src/metrics.c:332-340; descend_family is the next entry of the list -/
structure FamDefn where
  families : List Fam
  attr : Bytes
  label : Bytes

/-- Entry METRIC_FAMILY_BACKEND and its descendants, /repo/src/metrics.c:360-363 -/
def backendDefn : FamDefn := ⟨[.backendState, .backendRequests, .backendAvg, .backendStddev], b!"backends", b!"backend"⟩

/-- Entry METRIC_FAMILY_SERVICE, /repo/src/metrics.c:356-359 -/
def serviceDefn : FamDefn := ⟨[.serviceInfo, .serviceEnabled, .backends], b!"services", b!"service"⟩

/-- Entry METRIC_FAMILY_LISTENER, /repo/src/metrics.c:352-355 -/
def listenerDefn : FamDefn := ⟨[.listenerEnabled, .listenerInfo], b!"listeners", b!"listener"⟩

/-! ### Samples -/

/-- METRIC_LABELS, /repo/src/metrics.c:21-94: a list, new labels go to the end -/
abbrev MLabels := List (Bytes × Bytes)

/-- struct metric_sample, /repo/src/metrics.c:99-104 -/
structure Sample (D : Type) where
  labels : MLabels
  number : D

/-- EXPOSITION, /repo/src/metrics.c:145-153: metrics and their samples, new ones at the end -/
abbrev Expo (D : Type) := List (Fam × List (Sample D))

/-- What json_object_get comes to: the value, ENOENT, or EINVAL because the value is not an object -/
inductive JFld (D : Type) where
  | found (v : JVal D)
  | enoent
  | einval

/-- json_object_get on a value, /repo/src/json.c:726-744 -/
def jField {D} (v : JVal D) (attr : Bytes) : Res (JFld D) :=
  match v with
  | .obj c l =>
    match jGet ⟨c, l⟩ attr with
    | .ub => .ub
    | .ok (some w) => .ok (.found w)
    | .ok none => .ok .enoent
  | _ => .ok .einval

/-- json_object_get_type for json_bool, /repo/src/metrics.c:378-415; `none`: -1 -/
def getBool {D} (v : JVal D) (attr : Bytes) : Res (Option Bool) :=
  match jField v attr with
  | .ub => .ub
  | .ok (.found (.bool b)) => .ok (some b)
  | .ok _ => .ok none

/-- json_object_get_type for json_string, /repo/src/metrics.c:378-415 -/
def getStr {D} (v : JVal D) (attr : Bytes) : Res (Option Bytes) :=
  match jField v attr with
  | .ub => .ub
  | .ok (.found (.str s)) => .ok (some s)
  | .ok _ => .ok none

/-- json_object_get_type for json_number, /repo/src/metrics.c:378-415: integers will do -/
def getNumber {D} (v : JVal D) (attr : Bytes) : Res (Option D) :=
  match jField v attr with
  | .ub => .ub
  | .ok (.found (.num d)) => .ok (some d)
  | .ok (.found (.int d)) => .ok (some d)
  | .ok _ => .ok none

/-- json_object_get_type for json_array, /repo/src/metrics.c:378-415 -/
def getArr {D} (v : JVal D) (attr : Bytes) : Res (Option (List (JVal D))) :=
  match jField v attr with
  | .ub => .ub
  | .ok (.found (.arr l)) => .ok (some l)
  | .ok _ => .ok none

/-- json_object_get_name and its use, /repo/src/metrics.c:417-446, 564-567 and 648-653: null is the empty name -/
def getName {D} (v : JVal D) : Res (Option Bytes) :=
  match jField v b!"name" with
  | .ub => .ub
  | .ok (.found (.str s)) => .ok (some s)
  | .ok (.found .null) => .ok (some [])
  | .ok _ => .ok none

/-- The samples a function adds to its metric, or -1 (`none`).  Samples added before a failure are dropped here: metrics_response frees the exposition. -/
abbrev Gen (D : Type) := Res (Option (List (Sample D)))

def Res.bindO {α β} (r : Res (Option α)) (f : α → Res (Option β)) : Res (Option β) :=
  match r with
  | .ub => .ub
  | .ok none => .ok none
  | .ok (some a) => f a

/-- gen_listener_enabled and gen_service_enabled, /repo/src/metrics.c:538-552 and :659-672 -/
def genEnabled {D} (L : DblLib D) (pfx : MLabels) (obj : JVal D) : Gen D :=
  (getBool obj b!"enabled").bindO fun e => .ok (some [⟨pfx, L.ofInt (if e then 1 else 0)⟩])

/-- gen_listener_info, /repo/src/metrics.c:554-579 -/
def genListenerInfo {D} (L : DblLib D) (pfx : MLabels) (obj : JVal D) : Gen D :=
  (getName obj).bindO fun n =>
  (getStr obj b!"address").bindO fun a =>
  (getStr obj b!"protocol").bindO fun p => .ok (some [⟨pfx ++ [(b!"name", n)] ++ [(b!"address", a)] ++ [(b!"protocol", p)], L.ofInt 1⟩])

/-- gen_service_info, /repo/src/metrics.c:641-657 -/
def genServiceInfo {D} (L : DblLib D) (pfx : MLabels) (obj : JVal D) : Gen D :=
  (getName obj).bindO fun n => .ok (some [⟨pfx ++ [(b!"name", n)], L.ofInt 1⟩])

/-- The loop of gen_backends_count, /repo/src/metrics.c:595-613: the numbers of enabled, living and active ones.  What is not there or not a boolean does
not count. -/
def countLoop {D} : List (JVal D) → Nat → Nat → Nat → Res (Nat × Nat × Nat)
  | [], ne, na, nb => .ok (ne, na, nb)
  | b :: r, ne, na, nb =>
    match getBool b b!"enabled", getBool b b!"alive" with
    | .ok e, .ok a =>
      let ne := if e = some true then ne + 1 else ne
      if a = some true then countLoop r ne (na + 1) (if e = some true then nb + 1 else nb)
      else countLoop r ne na nb
    | _, _ => .ub

/-- gen_backends_count, /repo/src/metrics.c:581-639 -/
def genBackends {D} (L : DblLib D) (pfx : MLabels) (obj : JVal D) : Gen D :=
  (getArr obj b!"backends").bindO fun l =>
  match countLoop l 0 0 0 with
  | .ub => .ub
  | .ok (ne, na, nb) =>
    .ok (some [⟨pfx ++ [(b!"state", b!"total")], L.ofInt l.length⟩, ⟨pfx ++ [(b!"state", b!"enabled")], L.ofInt ne⟩,
      ⟨pfx ++ [(b!"state", b!"alive")], L.ofInt na⟩, ⟨pfx ++ [(b!"state", b!"active")], L.ofInt nb⟩])

/-- gen_backend_state, /repo/src/metrics.c:674-698 -/
def genBackendState {D} (L : DblLib D) (pfx : MLabels) (obj : JVal D) : Gen D :=
  (getBool obj b!"alive").bindO fun a =>
  (getBool obj b!"enabled").bindO fun e =>
    .ok (some [⟨pfx ++ [(b!"state", b!"alive")], L.ofInt (if a then 1 else 0)⟩, ⟨pfx ++ [(b!"state", b!"enabled")], L.ofInt (if e then 1 else 0)⟩])

/-- gen_backend_stats, /repo/src/metrics.c:700-746.  If "stats" is not an object, the message takes the type from a pointer never set. -/
def genStats {D} (attr : Bytes) (pfx : MLabels) (obj : JVal D) : Gen D :=
  match jField obj b!"stats" with
  | .ub => .ub
  | .ok .enoent => .ok (some [])
  | .ok .einval => .ok none
  | .ok (.found stats) =>
    match jField stats attr with
    | .ub => .ub
    | .ok .einval => .ub
    | .ok .enoent => .ok (some [])
    | .ok (.found (.num d)) => .ok (some [⟨pfx, d⟩])
    | .ok (.found _) => .ok none

/-- The loop of gen_workers, /repo/src/metrics.c:776-788 -/
def genWorkersLoop {D} (pfx : MLabels) (obj : JVal D) : List Bytes → Gen D
  | [] => .ok (some [])
  | a :: r => (getNumber obj a).bindO fun d => (genWorkersLoop pfx obj r).bindO fun l => .ok (some (⟨pfx ++ [(b!"type", a)], d⟩ :: l))

/-- gen_workers, /repo/src/metrics.c:769-790 -/
def genWorkers {D} (pfx : MLabels) (obj : JVal D) : Gen D := genWorkersLoop pfx obj [b!"active", b!"count", b!"max", b!"min"]

/-- The functions of the tables, /repo/src/metrics.c:258-324, and gen_backend_requests and the like, :748-767 -/
def Fam.gen {D} (L : DblLib D) (pfx : MLabels) (obj : JVal D) : Fam → Gen D
  | .listenerEnabled => genEnabled L pfx obj
  | .listenerInfo => genListenerInfo L pfx obj
  | .serviceInfo => genServiceInfo L pfx obj
  | .serviceEnabled => genEnabled L pfx obj
  | .backends => genBackends L pfx obj
  | .backendState => genBackendState L pfx obj
  | .backendRequests => genStats b!"request_count" pfx obj
  | .backendAvg => genStats b!"request_time_avg" pfx obj
  | .backendStddev => genStats b!"request_time_stddev" pfx obj
  | .workers => genWorkers pfx obj

/-- exposition_metric_find, /repo/src/metrics.c:190-210, and the samples then added at the end of the metric, :113-127 -/
def Expo.add {D} (f : Fam) (ss : List (Sample D)) : Expo D → Expo D
  | [] => [(f, ss)]
  | (g, l) :: r => if g = f then (g, l ++ ss) :: r else (g, l) :: Expo.add f ss r

/-- exposition_apply_family, /repo/src/metrics.c:455-477 -/
def applyFamily {D} (L : DblLib D) (pfx : MLabels) (obj : JVal D) : List Fam → Expo D → Res (Option (Expo D))
  | [], e => .ok (some e)
  | f :: r, e => (f.gen L pfx obj).bindO fun ss => applyFamily L pfx obj r (e.add f ss)

/-- The loop of exposition_iterate, /repo/src/metrics.c:519-533: the index is added to the labels, and taken off again -/
def iterLoop {D} (step : MLabels → JVal D → Expo D → Res (Option (Expo D))) (label : Bytes) :
    List (JVal D) → Nat → MLabels → Expo D → Res (Option (Expo D))
  | [], _, _, e => .ok (some e)
  | v :: r, i, pfx, e =>
    let pfx := pfx ++ [(label, dec i)]
    (step pfx v e).bindO fun e => iterLoop step label r (i + 1) pfx.dropLast e

/-- exposition_iterate, /repo/src/metrics.c:486-536, with the entry and those it descends to -/
def expoIterate {D} (L : DblLib D) : List FamDefn → MLabels → JVal D → Expo D → Res (Option (Expo D))
  | [], _, _, e => .ok (some e)
  | d :: ds, pfx, obj, e =>
    match jField obj d.attr with
    | .ub => .ub
    | .ok .enoent => .ok (some e)
    | .ok .einval => .ok none
    | .ok (.found (.arr l)) =>
      iterLoop (fun pfx v e => (applyFamily L pfx v d.families e).bindO fun e => expoIterate L ds pfx v e) d.label l 0 pfx e
    | .ok (.found _) => .ok none

/-- exposition_fill, /repo/src/metrics.c:795-812 -/
def expoFill {D} (L : DblLib D) (obj : JVal D) : Res (Option (Expo D)) :=
  match jField obj b!"workers" with
  | .ub => .ub
  | .ok (.found (.obj c l)) =>
    (applyFamily L [] (.obj c l) [.workers] []).bindO fun e =>
    (expoIterate L [listenerDefn, serviceDefn, backendDefn] [] obj e).bindO fun e => expoIterate L [serviceDefn, backendDefn] [] obj e
  | .ok _ => .ok none

/-! ### The page -/

/-- The loop over the labels, /repo/src/metrics.c:844-854.  The value is not escaped. -/
def fmtLabels : MLabels → Bytes
  | [] => []
  | [(n, v)] => n ++ b!"=\"" ++ v ++ b!"\""
  | (n, v) :: r => n ++ b!"=\"" ++ v ++ b!"\"" ++ b!"," ++ fmtLabels r

/-- One sample, /repo/src/metrics.c:838-858 -/
def fmtSample {D} (L : DblLib D) (name : Bytes) (s : Sample D) : Bytes :=
  name ++ (if s.labels.isEmpty then [] else b!"{" ++ fmtLabels s.labels ++ b!"}") ++ b!" " ++ L.fmt0 s.number ++ [10]

/-- One metric, /repo/src/metrics.c:824-860 -/
def fmtMetric {D} (L : DblLib D) (m : Fam × List (Sample D)) : Bytes :=
  if m.2.isEmpty then []
  else
    b!"# TYPE " ++ m.1.text.name ++ b!" " ++ m.1.text.type ++ [10] ++
    (match m.1.text.unit with | some u => b!"# UNIT " ++ m.1.text.name ++ b!" " ++ u ++ [10] | none => []) ++
    b!"# HELP " ++ m.1.text.name ++ b!" " ++ m.1.text.help ++ [10] ++ m.2.flatMap (fmtSample L m.1.text.name)

/-- exposition_format, /repo/src/metrics.c:817-864 -/
def expoFormat {D} (L : DblLib D) (e : Expo D) : Bytes := e.flatMap (fmtMetric L) ++ b!"# EOF" ++ [10]

/-- send_reply, /repo/src/metrics.c:866-879 -/
def metricsReply (version : Nat) (content : Bytes) : Bytes :=
  b!"HTTP/1." ++ dec version ++ b!" " ++ dec 200 ++ b!" OK" ++ [13, 10] ++
  b!"Content-Type: application/openmetrics-text; version=1.0.0; charset=utf-8" ++ [13, 10] ++
  b!"Content-Length: " ++ dec content.length ++ [13, 10] ++ [13, 10] ++ content

/-- metrics_response, /repo/src/metrics.c:881-908: what is sent, or the status returned -/
def metricsResponse {D} (L : DblLib D) (version : Nat) (st : MState D) : Res (Status ⊕ Bytes) :=
  match poundSerialize L st with
  | .ub => .ub
  | .ok obj =>
    match expoFill L obj with
    | .ub => .ub
    | .ok none => .ok (.inl .internalError)
    | .ok (some e) => .ok (.inr (metricsReply version (expoFormat L e)))

end Pound
