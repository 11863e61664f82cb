import Verif.Model.Session
import Verif.Model.Cond
import Verif.Model.Backend

/-!
Model of load balancing (/repo/src/svc.c:602-834), of finding the backend for a request
(/repo/src/svc.c:836-1089), of the accounting of active backends (/repo/src/svc.c:1101-1240,
1652-1683) and of connecting to backends (/repo/src/http.c:4390-4505).

Everything done with the service mutex locked is one step. Priorities are natural numbers: the
configuration allows 1 to 65535 (/repo/src/config.c:795, 4953-4960), SRV records 0 to 65535. Backends
are identified by numbers, standing for their addresses.
-/

namespace Pound

/-- `backend_is_alive` (/repo/src/pound.h:586-593). -/
def Be.isAlive (b : Be) : Bool :=
  if b.type = .matrix then false else b.type ≠ .regular || b.alive

/-- `backend_is_active` (/repo/src/pound.h:595-598). -/
def Be.isActive (b : Be) : Bool := !b.disabled && b.isAlive

/-- The bound on random numbers: `min = - max % max` for `unsigned long max`
(/repo/src/svc.c:624). -/
def rangeMin (max : Nat) : Nat := (2 ^ 64 - max) % 2 ^ 64 % max

/-- The loop of `random_in_range` (/repo/src/svc.c:625-628), on the numbers `random ()` will
give; `none` if they do not suffice. -/
def randomLoop (max : Nat) : List Nat → Option Nat
  | [] => none
  | r :: t => if r < rangeMin max then randomLoop max t else some (r % max)

/-- `random_in_range` (/repo/src/svc.c:616-629). -/
def randomInRange (max : Nat) (rs : List Nat) : Option Nat :=
  if max < 2 then some 0 else randomLoop max rs

/-- The loop of `rand_select` (/repo/src/svc.c:660-664). -/
def randPick : Int → List Be → Option Be
  | _, [] => none
  | pri, b :: t =>
    if b.isActive then
      if pri - b.prio < 0 then some b else randPick (pri - b.prio) t
    else randPick pri t

/-- Result of a selection: a backend or NULL, and the balancer; no result if the loop does not end
(or the random numbers given do not suffice), undefined behaviour. -/
inductive SelRes where
  | done (b : Option Be) (bal : Bal)
  | more
  | ub
deriving DecidableEq, Repr

/-- `rand_select` (/repo/src/svc.c:649-666). -/
def randSelect (bal : Bal) (rs : List Nat) : SelRes :=
  if bal.backends.isEmpty then .done none bal
  else
    match randomInRange bal.sumPri rs with
    | some pri => .done (randPick pri bal.backends) bal
    | none => .more

/-- `iwrr_init` (/repo/src/svc.c:668-673). -/
def Bal.iwrrInit (bal : Bal) : Bal :=
  { bal with round := 0, cur := if bal.backends.isEmpty then none else some 0 }

/-- The move to the next position (/repo/src/svc.c:703-707). -/
def Bal.iwrrNext (bal : Bal) (i : Nat) : Bal :=
  if i + 1 < bal.backends.length then { bal with cur := some (i + 1) }
  else { bal with cur := some 0, round := (bal.round + 1) % (bal.maxPri + 1) }

/-- The loop of `iwrr_select` (/repo/src/svc.c:696-709). The first argument bounds the number of
iterations. -/
def iwrrLoop : Nat → Bal → SelRes
  | 0, _ => .more
  | n + 1, bal =>
    match bal.cur with
    | none => .ub
    | some i =>
      match bal.backends[i]? with
      | none => .ub
      | some b =>
        if b.isActive && decide (bal.round < b.prio) then .done (some b) (bal.iwrrNext i)
        else iwrrLoop n (bal.iwrrNext i)

/-- `iwrr_select` (/repo/src/svc.c:684-711). -/
def iwrrSelect (n : Nat) (bal : Bal) : SelRes :=
  match bal.cur with
  | some _ => iwrrLoop n bal
  | none =>
    let bal := bal.iwrrInit
    match bal.cur with
    | none => .done none bal
    | some _ => iwrrLoop n bal

/-- `balancer_select_backend` (/repo/src/svc.c:756-769). A balancer without backends:
`DLIST_NEXT (NULL)`. -/
def balSelect (n : Nat) (rs : List Nat) (bal : Bal) : SelRes :=
  match bal.backends with
  | [] => .ub
  | [b] => .done (if b.isActive then some b else none) bal
  | _ =>
    match bal.algo with
    | .random => randSelect bal rs
    | .iwrr => iwrrSelect n bal

/-- Result of a selection in a service. -/
inductive LbRes where
  | done (b : Option Be) (bals : List Bal)
  | more
  | ub
deriving DecidableEq, Repr

/-- `service_lb_select_backend` (/repo/src/svc.c:800-811). `rnd i` are the numbers `random ()`
gives during the selection in the balancer at position `i`. -/
def lbSelect (n : Nat) : (Nat → List Nat) → List Bal → LbRes
  | _, [] => .done none []
  | rnd, bal :: t =>
    match balSelect n (rnd 0) bal with
    | .done (some b) bal => .done (some b) (bal :: t)
    | .done none bal =>
      match lbSelect n (fun i => rnd (i + 1)) t with
      | .done b t => .done b (bal :: t)
      | r => r
    | .more => .more
    | .ub => .ub

/-- `balancer_list_get` (/repo/src/svc.c:3134-3159): the list with a balancer of that weight in it. -/
def balListGet (weight : Int) (algo : Algo) : List Bal → List Bal
  | [] => [⟨algo, weight, 0, [], 0, 0, 0, none⟩]
  | bl :: t =>
    if weight = bl.weight then bl :: t
    else if weight < bl.weight then ⟨algo, weight, 0, [], 0, 0, 0, none⟩ :: bl :: t
    else bl :: balListGet weight algo t

/-! ### Accounting -/

/-- `LONG_MAX`. -/
def longMax : Nat := 2 ^ 63 - 1
/-- `INT_MAX`. -/
def intMax : Nat := 2 ^ 31 - 1

/-- `balancer_pri_init` (/repo/src/svc.c:785-790, 631-635, 713-717). -/
def Bal.priInit (bal : Bal) : Bal :=
  match bal.algo with
  | .random => { bal with sumPri := 0 }
  | .iwrr => { bal with maxPri := 0 }

/-- `balancer_pri_update` (/repo/src/svc.c:792-798, 637-647, 719-730): the balancer and whether it
failed. -/
def Bal.priUpdate (bal : Bal) (b : Be) : Bal × Bool :=
  match bal.algo with
  | .random => if longMax - bal.sumPri < b.prio then (bal, true) else ({ bal with sumPri := bal.sumPri + b.prio }, false)
  | .iwrr => if b.prio = intMax then (bal, true)
    else if bal.maxPri < b.prio then ({ bal with maxPri := b.prio }, false) else (bal, false)

/-- The loop of `balancer_recompute_pri_unlocked` (/repo/src/svc.c:1110-1121): the numbers so far
are in the first argument; the second gives the effect of the call-back. Gives the balancer (with
its old list) and the new list of backends. -/
def recomputeLoop (cb : Be → Be) : Bal → List Be → Bal × List Be
  | bal, [] => (bal, [])
  | bal, b :: t =>
    let b := cb b
    if b.isActive then
      let u := bal.priUpdate b
      if u.2 then
        let r := recomputeLoop cb u.1 t
        (r.1, { b with disabled := true } :: r.2)
      else
        let r := recomputeLoop cb { u.1 with actNum := u.1.actNum + 1 } t
        (r.1, b :: r.2)
    else
      let r := recomputeLoop cb bal t
      (r.1, b :: r.2)

/-- `balancer_recompute_pri_unlocked` (/repo/src/svc.c:1101-1122). -/
def Bal.recompute (cb : Be → Be) (bal : Bal) : Bal :=
  let r := recomputeLoop cb { bal with actNum := 0 }.priInit bal.backends
  { r.1 with backends := r.2 }

/-- `cb_backend_disable` (/repo/src/svc.c:1188-1224), effect on the backend. -/
def cbDisable (id : Nat) (mode : DisableMode) (b : Be) : Be :=
  if b.id = id then
    match mode with
    | .disable => { b with disabled := true }
    | .kill => { b with alive := false }
    | .enable => { b with disabled := false }
  else b

/-- What a service consists of for these purposes. `touching` are the backends for which the probing
job is scheduled; each counts as a reference. -/
structure SvcSt where
  bals : List Bal
  tab : SessTab
  touching : List Nat
deriving DecidableEq, Repr

/-- The backend with the given number, and the balancer it is in. -/
def SvcSt.be? (s : SvcSt) (id : Nat) : Option Be :=
  (s.bals.flatMap (·.backends)).find? fun b => b.id = id

/-- `be->be_type == BE_REGULAR`. -/
def SvcSt.isRegular (s : SvcSt) (id : Nat) : Bool :=
  match s.be? id with
  | some b => decide (b.type = .regular)
  | none => false

/-- `kill_be` (/repo/src/svc.c:1233-1244), with `service_recompute_pri` (1146-1161) on the balancer
of the backend. Does nothing for backends that are not regular. -/
def SvcSt.killBe (s : SvcSt) (id : Nat) (mode : DisableMode) : SvcSt :=
  match s.be? id with
  | none => s
  | some b =>
    if b.type = .regular then
      { bals := s.bals.map fun bal => if bal.backends.any (fun b => b.id = id) then bal.recompute (cbDisable id mode) else bal
        tab := if mode = .kill then s.tab.removeBe id else s.tab
        touching := if mode = .kill then s.touching ++ [id] else s.touching }
    else s

/-- Set a backend alive in a list. -/
def reviveIn (id : Nat) (l : List Be) : List Be := l.map fun b => if b.id = id then { b with alive := true } else b

/-- `be->v.reg.alive = 1` (/repo/src/svc.c:1664), without lock. -/
def SvcSt.setAlive (s : SvcSt) (id : Nat) : SvcSt :=
  { s with bals := s.bals.map fun bal => { bal with backends := reviveIn id bal.backends } }

/-- The locked part of `touch_be` (/repo/src/svc.c:1669-1672) on the balancer of the backend; others
are left as they are. -/
def Bal.countAlive (id : Nat) (bal : Bal) : Bal :=
  match bal.backends.find? (fun b => b.id = id) with
  | some b =>
    let u := (bal.priUpdate b).1
    { u with actNum := u.actNum + 1 }
  | none => bal

/-- The locked part of `touch_be` (/repo/src/svc.c:1669-1672). -/
def SvcSt.countAlive (s : SvcSt) (id : Nat) : SvcSt := { s with bals := s.bals.map (Bal.countAlive id) }

/-- `touch_be` as one step (/repo/src/svc.c:1652-1683) for a backend that is used by others
(`refcount > 1`); `up` is the result of the probe. -/
def SvcSt.touch (s : SvcSt) (id : Nat) (up : Bool) : SvcSt :=
  match s.be? id with
  | none => s
  | some b =>
    if b.type = .regular then
      if b.alive then { s with touching := s.touching.erase id }
      else if up then
        let s' := { s with touching := s.touching.erase id }.setAlive id
        if b.disabled then s' else s'.countAlive id
      else s
    else { s with touching := s.touching.erase id }

/-! ### The backend for a request -/

/-- KEY_SIZE (/repo/src/pound.h:610). -/
def keySize : Nat := 127

/-- `key_authbasic` (/repo/src/svc.c:922-933). -/
def keyAuthbasic (v : Bytes) : Option Bytes :=
  match v.drop 5 with
  | c :: t => if ciEq (v.take 5) b!"Basic" && isSpace c then some ((t.dropWhile isSpace).take keySize) else none
  | [] => none

/-- `key_cookie` (/repo/src/svc.c:940-970). The first argument bounds the number of
iterations; each one consumes at least one byte. -/
def keyCookieLoop (sid : Bytes) : Nat → Bytes → Option Bytes
  | 0, _ => none
  | n + 1, v =>
    let v := v.dropWhile fun c => c == 32 || c == 9
    if v = [] then none
    else
      let item := v.takeWhile (· ≠ ch%';')
      if item.length > sid.length ∧ item[sid.length]? = some ch%'=' ∧ ciEq (item.take sid.length) sid then
        some ((item.drop (sid.length + 1)).take keySize)
      else
        match v.drop item.length with
        | [] => none
        | _ :: t => keyCookieLoop sid n t

/-- `key_cookie` (/repo/src/svc.c:940-970). -/
def keyCookie (sid v : Bytes) : Option Bytes := keyCookieLoop sid (v.length + 1) v

/-- `find_key_by_header` (/repo/src/svc.c:872-895). -/
def keyByHeader (hs : List Header) (name : Bytes) (f : Bytes → Option Bytes) : Res (Option Bytes) :=
  match locateNameLen hs name with
  | some h =>
    match h.value with
    | .ok v => .ok (f v)
    | .ub => .ub
  | none => .ok none

/-- The key of a request by session type: the switch in `get_backend` (/repo/src/svc.c:1000-1039).
`addr` is the text of the client's address. Also gives the request, whose parsed parts may have been
filled in. -/
def requestKey (type : SessType) (sid addr : Bytes) (r : Req) (hs : List Header) : Req × Res (Option Bytes) :=
  match type with
  | .none => (r, .ok none)
  | .cookie => (r, keyByHeader hs b!"Cookie" (keyCookie sid))
  | .ip => (r, .ok (some addr))
  | .url =>
    match (r.getParam sid).2 with
    | some (some v) => ((r.getParam sid).1, .ok (some v))
    | _ => ((r.getParam sid).1, .ok none)
  | .parm =>
    let p := r.getPath.2
    (r.getPath.1,
      .ok (if p.any (· == ch%';') then some ((p.reverse.takeWhile (· ≠ ch%';')).reverse) else none))
  | .header => (r, keyByHeader hs sid fun v => some (v.take keySize))
  | .basic => (r, keyByHeader hs b!"Authorization" keyAuthbasic)

/-- The key found in a response: the switch in `upd_session` (/repo/src/svc.c:1062-1082). -/
def responseKey (type : SessType) (sid : Bytes) (hs : List Header) : Res (Option Bytes) :=
  match type with
  | .header => keyByHeader hs sid fun v => some (v.take keySize)
  | .cookie => keyByHeader hs b!"Cookie" (keyCookie sid)
  | .basic => keyByHeader hs b!"Authorization" keyAuthbasic
  | _ => .ok none

/-- `service_has_backends` (/repo/src/svc.c:973-983). -/
def SvcSt.hasBackends (s : SvcSt) : Bool := s.bals.any fun b => decide (b.actNum > 0)

/-- Result of `get_backend`. -/
inductive GetRes where
  | done (b : Option Nat) (s : SvcSt)
  | more
  | ub
deriving DecidableEq, Repr

/-- `service_lb_select_backend` on the service. -/
def SvcSt.lb (s : SvcSt) (n : Nat) (rnd : Nat → List Nat) : GetRes :=
  match lbSelect n rnd s.bals with
  | .done b bals => .done (b.map (·.id)) { s with bals := bals }
  | .more => .more
  | .ub => .ub

/-- `find_backend_by_key` (/repo/src/svc.c:837-857), from the search in the session table on, and the
second attempt in `get_backend` (1041-1042) if it gives nothing. -/
def SvcSt.byKey (s : SvcSt) (ttl : Nat) (now : TS) (n : Nat) (rnd : Nat → List Nat) (key : Bytes) : GetRes :=
  match s.tab.find ttl now (key.take keySize) with
  | (tab, some b) => .done (some b) { s with tab := tab }
  | (tab, none) =>
    match { s with tab := tab }.lb n rnd with
    | .done (some b) s => .done (some b) { s with tab := (s.tab.add ttl now (key.take keySize) b).1 }
    | .done none s' => s'.lb n fun i => rnd (i + s.bals.length)
    | r => r

/-- `get_backend` (/repo/src/svc.c:988-1049) with the key of the request. References are counted in
`selectBackend`. -/
def SvcSt.getBackend (s : SvcSt) (ttl : Nat) (now : TS) (n : Nat) (rnd : Nat → List Nat) (key : Option Bytes) : GetRes :=
  if s.hasBackends then
    match key with
    | some k => s.byKey ttl now n rnd k
    | none => s.lb n rnd
  else .done none s

/-- `upd_session` (/repo/src/svc.c:1054-1089) with the key found in the response. -/
def SvcSt.updSession (s : SvcSt) (ttl : Nat) (now : TS) (key : Option Bytes) (be : Nat) : SvcSt :=
  match key with
  | none => s
  | some k =>
    match s.tab.find ttl now k with
    | (tab, some _) => { s with tab := tab }
    | (tab, none) => { s with tab := (tab.add ttl now k be).1 }

/-! ### Connecting -/

/-- What happens when a connection to a backend is attempted in `select_backend`
(/repo/src/http.c:4412-4485): unusable address family or no socket; connected and set up; connected but
`open_backend` failed; not connected. -/
inductive Conn where
  | unusable
  | ok
  | openFails
  | refused
deriving DecidableEq, Repr

/-- The connection to the backend kept from the previous request: `phttp->be != NULL` and
`phttp->backend`. `refs` counts the references held for this client connection. -/
structure Link where
  isOpen : Bool
  backend : Option Nat
  refs : Nat → Int

/-- `backend_ref`, `backend_unref` (/repo/src/dynbe.c:793-817): NULL is ignored. -/
def addRef (refs : Nat → Int) (b : Option Nat) (d : Int) : Nat → Int :=
  match b with
  | none => refs
  | some i => fun j => if j = i then refs j + d else refs j

/-- Result of `select_backend`: a status (`none` is 0), the backends that were tried. -/
inductive SelBe where
  | done (status : Option Status) (s : SvcSt) (l : Link) (tried : List Nat)
  | more
  | ub

/-- The loop of `select_backend` (/repo/src/http.c:4411-4496), entered with a backend on which a reference
was taken. The first argument bounds the number of attempts; `conn` tells what happens at each of
them; `rnd k` gives the random numbers for the `k`-th selection. -/
def connectLoop (ttl : Nat) (now : TS) (fuel : Nat) (rnd : Nat → Nat → List Nat) (key : Option Bytes) (conn : Nat → Nat → Conn) :
    Nat → SvcSt → Link → List Nat → Nat → SelBe
  | 0, _, _, _, _ => .more
  | n + 1, s, l, tried, b =>
    if s.isRegular b then
      match conn tried.length b with
      | .unusable => .done (some .serviceUnavailable) s { l with refs := addRef l.refs (some b) (-1) } (tried ++ [b])
      | .ok => .done none s { isOpen := true, backend := some b, refs := addRef l.refs l.backend (-1) } (tried ++ [b])
      | .openFails => .done (some .serviceUnavailable) s { l with isOpen := false } (tried ++ [b])
      | .refused =>
        let s := s.killBe b .kill
        let l := { l with refs := addRef l.refs (some b) (-1) }
        match s.getBackend ttl now fuel (rnd (tried.length + 1)) key with
        | .done (some b') s => connectLoop ttl now fuel rnd key conn n s { l with refs := addRef l.refs (some b') 1 } (tried ++ [b]) b'
        | .done none s => .done (some .serviceUnavailable) s l (tried ++ [b])
        | .more => .more
        | .ub => .ub
    else .done none s { l with backend := some b, refs := addRef l.refs l.backend (-1) } tried

/-- `select_backend` (/repo/src/http.c:4390-4505). -/
def selectBackend (ttl : Nat) (now : TS) (fuel : Nat) (rnd : Nat → Nat → List Nat) (key : Option Bytes) (conn : Nat → Nat → Conn)
    (n : Nat) (s : SvcSt) (l : Link) : SelBe :=
  match s.getBackend ttl now fuel (rnd 0) key with
  | .done (some b) s =>
    if l.isOpen ∧ l.backend = some b then .done none s l []
    else connectLoop ttl now fuel rnd key conn n s { l with isOpen := false, refs := addRef l.refs (some b) 1 } [] b
  | .done none s => .done (some .serviceUnavailable) s l []
  | .more => .more
  | .ub => .ub

end Pound
