import Verif.Model.Expand

/-!
Model of request conditions (/repo/src/http.c:2986-3170), choice of the service
(/repo/src/svc.c:560-600) and rewriting rules (/repo/src/http.c:3397-3497).

Pattern matching (`genpat_match`), access lists, client certificates and password files are
parameters here; allocation does not fail.
-/

namespace Pound

/-- A compiled pattern, as the outcome of `genpat_match` (/repo/src/genpat.c:68-73) for every
subject. -/
abbrev Re := Bytes → MatchRes

/-- The elementary tests: `cond->type` other than COND_BOOL, with its members of the union
(/repo/src/pound.h:639-699). Access lists, password files and certificates are given by
a number. -/
inductive Elem where
  | acl (id : Nat)
  | url (re : Re)
  | path (re : Re)
  | query (re : Re)
  | param (name : Bytes) (re : Re)
  | hdr (re : Re)
  | host (re : Re)
  | auth (id : Nat)
  | strMatch (tmpl : Bytes) (re : Re)
  | cert (id : Nat)

/-- BOOL_AND, BOOL_OR, BOOL_NOT (/repo/src/pound.h:626-631). -/
inductive BoolOp where
  | and | or | not
deriving DecidableEq, Repr

/-- `SERVICE_COND` (/repo/src/pound.h:685-699). -/
inductive Cond where
  | elem (e : Elem)
  | bool (op : BoolOp) (cs : List Cond)

/-- What conditions and rewriting rules read and write: the request or response that is tested or rewritten and its headers, the
submatch history of the connection. `src` is the request of the client with its headers, `phttp->request`, if that is another one: accessors in
templates always read this (/repo/src/http.c:611). -/
structure PState where
  req : Req
  hs : List Header
  smq : Smq
  src : Option (Req × List Header)
deriving DecidableEq, Repr

/-- What templates refer to (/repo/src/http.c:611, 680). -/
def PState.env (st : PState) : ExpEnv :=
  match st.src with
  | none => ⟨st.smq, some (accessor st.req st.hs)⟩
  | some (r, hs) => ⟨st.smq, some (accessor r hs)⟩

/-- Results of `acl_match` (/repo/src/config.c, on the address of the client), `basic_auth`
(/repo/src/bauth.c, on the texts of the headers) and of the comparison of certificates (/repo/src/http.c:3163-3165). -/
structure CondCtx where
  acl : Nat → Int
  auth : Nat → List Bytes → Int
  cert : Nat → Bool

/-- Return value of `match_cond`. -/
inductive CondRes where
  | val (r : Int)
  | ub
  | stuck
deriving DecidableEq, Repr

/-- `submatch_exec (re, subject, sm)` on the latest element of the history
(/repo/src/http.c:312-330). -/
def Smq.exec (q : Smq) (m : MatchRes) (subject : Bytes) : Smq :=
  { q with sm := q.sm.modify (q.cur % smqSize) fun _ => submatchExec m subject }

/-- `match_headers` (/repo/src/http.c:2986-2998). -/
def matchHeaders (re : Re) : List Header → Smq → Smq × Bool
  | [], q => (q, false)
  | h :: t, q =>
    let q := q.exec (re h.text) h.text
    if (re h.text).ok then (q, true) else matchHeaders re t q

/-- White space skipped in a `Host` header: `strspn (s, " \t\n")`. -/
def isHostWs (c : UInt8) : Bool := c == 32 || c == 9 || c == 10

/-- Fix-up of the latest match of a Host condition (/repo/src/http.c:3072-3108): make subject and
offsets refer to the value. Undefined without offsets or if the subject is too short. -/
def hostFix (sm : Submatch) : Res Submatch :=
  match sm.subject, sm.matchv with
  | some s, (so, eo) :: mv =>
    let t := s.dropWhile isHostWs
    if t.length < 5 then .ub
    else
      let v := (t.drop 5).dropWhile isHostWs
      let n : Int := (s.length : Int) - (v.length : Int)
      .ok { sm with subject := some v, matchv := (so, eo - n) :: mv.map fun o => (o.1 - n, o.2 - n) }
  | _, _ => .ub

/-- `submatch_exec (re, str, submatch_queue_push (&phttp->smq))`. -/
def execPush (st : PState) (re : Re) (s : Bytes) : PState × CondRes :=
  ({ st with smq := st.smq.push.exec (re s) s }, .val (if (re s).ok then 1 else 0))

/-- `match_cond` (/repo/src/http.c:3008-3170) for all types but COND_BOOL. A NULL query is passed
to `genpat_match` (3044): undefined. -/
def matchElem (x : CondCtx) (e : Elem) (st : PState) : PState × CondRes :=
  match e with
  | .acl id => (st, .val (if x.acl id = -1 then -1 else if x.acl id = 0 then 1 else 0))
  | .url re => execPush st re st.req.url
  | .path re => execPush { st with req := st.req.getPath.1 } re st.req.getPath.2
  | .query re =>
    match st.req.getQuery.2 with
    | some q => execPush { st with req := st.req.getQuery.1 } re q
    | none => (st, .ub)
  | .param name re =>
    let st' := { st with req := (st.req.getParam name).1 }
    match (st.req.getParam name).2 with
    | some (some v) => execPush st' re v
    | _ => (st', .val 0)
  | .hdr re =>
    let r := matchHeaders re st.hs st.smq.push
    ({ st with smq := r.1 }, .val (if r.2 then 1 else 0))
  | .host re =>
    let r := matchHeaders re st.hs st.smq.push
    if r.2 then
      match r.1.get 0 with
      | .ub => (st, .ub)
      | .ok sm =>
        match hostFix sm with
        | .ub => (st, .ub)
        | .ok sm' => ({ st with smq := { r.1 with sm := r.1.sm.modify (r.1.cur % smqSize) fun _ => sm' } }, .val 1)
    else ({ st with smq := r.1 }, .val 0)
  | .auth id =>
    let r := x.auth id (st.hs.map (·.text))
    (st, .val (if r = -1 then -1 else if r = 0 then 1 else 0))
  | .strMatch tmpl re =>
    match expandString st.env tmpl with
    | .str s => execPush st re s
    | .null => (st, .val (-1))
    | .ub => (st, .ub)
    | .stuck => (st, .stuck)
  | .cert id => (st, .val (if x.cert id then 1 else 0))

mutual
/-- `match_cond` (/repo/src/http.c:3008-3170). -/
def matchCond (x : CondCtx) : Cond → PState → PState × CondRes
  | .elem e, st => matchElem x e st
  | .bool .not [], st => (st, .ub)
  | .bool .not (c :: _), st =>
    match matchCond x c st with
    | (st, .val r) => (st, .val (if r = -1 then -1 else if r = 0 then 1 else 0))
    | (st, .ub) => (st, .ub)
    | (st, .stuck) => (st, .stuck)
  | .bool op cs, st => matchConds x op cs st 1
/-- The loop over subconditions (/repo/src/http.c:3151-3158); the last argument is `res`. -/
def matchConds (x : CondCtx) (op : BoolOp) : List Cond → PState → Int → PState × CondRes
  | [], st, res => (st, .val res)
  | c :: cs, st, _ =>
    match matchCond x c st with
    | (st, .val r) =>
      if r = -1 then (st, .val r)
      else if (if op = .and then r = 0 else r = 1) then (st, .val r)
      else matchConds x op cs st r
    | (st, .ub) => (st, .ub)
    | (st, .stuck) => (st, .stuck)
end

/-- The part of SERVICE (/repo/src/pound.h:801-830) used to choose it. -/
structure Svc where
  cond : Cond
  disabled : Bool

/-- Result of `get_service`: the position in the list, if one matches. -/
inductive SvcRes where
  | found (i : Nat)
  | none
  | ub
  | stuck
deriving DecidableEq, Repr

/-- One of the loops of `get_service` (/repo/src/svc.c:581-587, 590-596), with `match_service`
(567-571). `i` is the number of services passed. -/
def svcLoop (x : CondCtx) : List Svc → Nat → PState → PState × SvcRes
  | [], _, st => (st, .none)
  | s :: t, i, st =>
    if s.disabled then svcLoop x t (i + 1) st
    else
      match matchCond x s.cond st with
      | (st, .val r) => if r = 1 then (st, .found i) else svcLoop x t (i + 1) st
      | (st, .ub) => (st, .ub)
      | (st, .stuck) => (st, .stuck)

/-- `get_service` (/repo/src/svc.c:576-600). The services of the listener are numbered before the
global ones. -/
def getService (x : CondCtx) (own global : List Svc) (st : PState) : PState × SvcRes :=
  match svcLoop x own 0 st with
  | (st, .none) => svcLoop x global own.length st
  | y => y

/-- What `do_http` does about the service of a request (/repo/src/http.c:4855-4861): go on with
that service, or reply with an error and end the connection. -/
def chooseService (x : CondCtx) (own global : List Svc) (st : PState) : PState × Except Status Nat ⊕ Unit :=
  match getService x own global st with
  | (st, .found i) => .inl (st, .ok i)
  | (st, .none) => .inl (st, .error .serviceUnavailable)
  | _ => .inr ()

/-- Rewriting operations that are not rules (`REWRITE_OP`, /repo/src/pound.h:720-748). -/
inductive RwPrim where
  | hdrDel (re : Re)
  | hdrSet (t : Bytes)
  | paramSet (name t : Bytes)
  | urlSet (t : Bytes)
  | pathSet (t : Bytes)
  | querySet (t : Bytes)

mutual
/-- `REWRITE_OP` (/repo/src/pound.h:733-748). -/
inductive RwOp where
  | prim (p : RwPrim)
  | rule (r : RwRule)
/-- `REWRITE_RULE` with its `iffalse` chain (/repo/src/pound.h:750-756). `null` is the NULL pointer. -/
inductive RwRule where
  | null
  | mk (c : Cond) (ops : List RwOp) (iffalse : RwRule)
end

/-- A template expanded by `expand_string`, handed to the given function; -1 if that fails. -/
def withExpansion (st : PState) (t : Bytes) (f : Bytes → PState × CondRes) : PState × CondRes :=
  match expandString st.env t with
  | .str s => f s
  | .null => (st, .val (-1))
  | .ub => (st, .ub)
  | .stuck => (st, .stuck)

/-- The cases of `rewrite_op_apply` (/repo/src/http.c:3417-3455) other than
REWRITE_REWRITE_RULE, with `http_header_list_filter` (2149-2161). The setters of
the request return 0. -/
def rwPrim (p : RwPrim) (st : PState) : PState × CondRes :=
  match p with
  | .hdrDel re => ({ st with hs := st.hs.filter fun h => !(re h.text).ok }, .val 0)
  | .hdrSet t => withExpansion st t fun s =>
    match listAppend st.hs s .replace with
    | .ok (n, hs) => ({ st with hs := hs }, .val n)
    | .ub => (st, .ub)
  | .paramSet name t => withExpansion st t fun s => ({ st with req := st.req.setParam name (some s) }, .val 0)
  | .urlSet t => withExpansion st t fun s => ({ st with req := st.req.setUrl s }, .val 0)
  | .pathSet t => withExpansion st t fun s => ({ st with req := st.req.setPath s }, .val 0)
  | .querySet t => withExpansion st t fun s => ({ st with req := st.req.setQuery s }, .val 0)

mutual
/-- The body of the loop of `rewrite_op_apply` (/repo/src/http.c:3415-3456). -/
def rwOp (x : CondCtx) : RwOp → PState → PState × CondRes
  | .prim p, st => rwPrim p st
  | .rule r, st => rwRule x r st
/-- `rewrite_op_apply` (/repo/src/http.c:3397-3463): stops at the first result that is not 0. -/
def rwOps (x : CondCtx) : List RwOp → PState → PState × CondRes
  | [], st => (st, .val 0)
  | o :: t, st =>
    match rwOp x o st with
    | (st, .val r) => if r = 0 then rwOps x t st else (st, .val r)
    | (st, .ub) => (st, .ub)
    | (st, .stuck) => (st, .stuck)
/-- `rewrite_rule_check` (/repo/src/http.c:3465-3482). -/
def rwRule (x : CondCtx) : RwRule → PState → PState × CondRes
  | .null, st => (st, .val 0)
  | .mk c ops iffalse, st =>
    match matchCond x c st with
    | (st, .val r) => if r = 1 then rwOps x ops st else rwRule x iffalse st
    | (st, .ub) => (st, .ub)
    | (st, .stuck) => (st, .stuck)
end

/-- `rewrite_apply` (/repo/src/http.c:3484-3497). -/
def rewriteApply (x : CondCtx) : List RwRule → PState → PState × CondRes
  | [], st => (st, .val 0)
  | r :: t, st =>
    match rwRule x r st with
    | (st, .val v) => if v = 0 then rewriteApply x t st else (st, .val v)
    | (st, .ub) => (st, .ub)
    | (st, .stuck) => (st, .stuck)

/-- Both lists of rules of a request (/repo/src/http.c:4242-4246): those of the listener, then
those of the service; an error status if one of them fails. -/
def rewriteRequest (x : CondCtx) (lstn svc : List RwRule) (st : PState) : PState × CondRes :=
  match rewriteApply x lstn st with
  | (st, .val v) => if v = 0 then rewriteApply x svc st else (st, .val v)
  | y => y

/-- Rewriting rules for responses of error pages (/repo/src/http.c:1103-1105) and of backends (3688-3693): those of the
service come first. -/
def rewriteResponse (x : CondCtx) (svc lstn : List RwRule) (st : PState) : PState × CondRes :=
  match rewriteApply x svc st with
  | (st, .val v) => if v = 0 then rewriteApply x lstn st else (st, .val v)
  | y => y

end Pound
