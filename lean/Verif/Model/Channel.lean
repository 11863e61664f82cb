import Verif.Model.Basic

/-!
# Connections to backends

Connecting without blocking for longer than the time-out (connect_nb), the probe of dead backends, and the life of one client connection as far as sockets to backends, TLS objects and references to
backends go: /repo/src/svc.c:1504-1645, /repo/src/http.c:3557-3566, 4318-4505, 4533-4952, /repo/src/pound.c:377-415.

What the system and the TLS library answer is a parameter; what is done is recorded as a list of events.
-/

namespace Pound

/-! ### connect_nb -/

/-- What the calls made by connect_nb return; failures carry the error number. `poll`: `none` when the time is over, else the events; `sockopt`: SO_ERROR. -/
structure NbEnv where
  getfl : Except Nat Nat
  setfl : Except Nat Unit
  connect : Except Nat Unit
  poll : Except Nat (Option Nat)
  sockopt : Except Nat Nat
  restore : Except Nat Unit

/-- O_NONBLOCK -/
def nbFlag : Nat := 2048

/-- EINPROGRESS, ETIMEDOUT -/
def nbInProgress : Nat := 115
def nbTimedOut : Nat := 110

/-- `p.revents & (POLLOUT | POLLERR | POLLHUP)` (4, 8, 16) is POLLOUT. -/
def nbWritable (ev : Nat) : Bool := ev &&& 28 == 4

/-- The end of connect_nb, /repo/src/svc.c:1588-1602: flags are restored. -/
def nbRestore (e : NbEnv) (flags cur : Nat) : Except Nat Unit × Nat :=
  match e.restore with
  | .error x => (.error x, cur)
  | .ok () => (.ok (), flags)

/-- connect_nb, /repo/src/svc.c:1508-1602: the result (0, or -1 with the error number), and the flags of the socket afterwards (`init` before) -/
def connectNb (e : NbEnv) (init : Nat) : Except Nat Unit × Nat :=
  match e.getfl with
  | .error x => (.error x, init)
  | .ok flags =>
    match e.setfl with
    | .error x => (.error x, init)
    | .ok () =>
      match e.connect with
      | .ok () => nbRestore e flags (flags ||| nbFlag)
      | .error x =>
        if x ≠ nbInProgress then (.error x, flags ||| nbFlag)
        else
          match e.poll with
          | .error y => (.error y, flags ||| nbFlag)
          | .ok none => (.error nbTimedOut, flags ||| nbFlag)
          | .ok (some ev) =>
            if nbWritable ev then nbRestore e flags (flags ||| nbFlag)
            else
              match e.sockopt with
              | .ok y => (.error y, flags ||| nbFlag)
              | .error y => (.error y, flags ||| nbFlag)

/-- The time-out given to poll, /repo/src/svc.c:1547: `to * 1000` in int; `none` when it overflows. -/
def nbTimeout (to : Nat) : Option Nat := if to * 1000 < 2147483648 then some (to * 1000) else none

/-! ### What is done for a client connection -/

/-- Events: a reference to a backend is taken or given back; a backend is accessed; a backend is marked as dead; a socket is made for a backend, or closed; a TLS object is made for a socket, or freed;
a request is sent through a socket, for a backend; a request is sent without a socket (a null pointer is used) -/
inductive BcEv where
  | ref (b : Nat)
  | unref (b : Nat)
  | use (b : Nat)
  | kill (b : Nat)
  | open (k b : Nat)
  | close (k : Nat)
  | tls (k : Nat)
  | untls (k : Nat)
  | send (k b : Nat)
  | null
deriving DecidableEq, Repr

/-- How open_backend ends: no BIO for the socket, no TLS object, no BIO for TLS, no handshake, no buffer, success -/
inductive BcOpen where
  | noBio
  | noTls
  | noFilter
  | noHandshake
  | noBuffer
  | done
deriving DecidableEq, Repr

/-- What happens to an attempt to connect to a backend: unknown address family, no socket, no connection, connection -/
inductive BcTry where
  | family
  | noSocket
  | refused
  | connected (o : BcOpen)
deriving DecidableEq, Repr

/-- phttp->backend; phttp->be (the socket, and whether the BIO for TLS is part of it); the number of sockets made; what was done -/
structure BcSt where
  cur : Option Nat
  chan : Option (Nat × Bool)
  n : Nat
  tr : List BcEv
deriving DecidableEq, Repr

def BcSt.ev (s : BcSt) (l : List BcEv) : BcSt := { s with tr := s.tr ++ l }

/-- close_backend, /repo/src/http.c:3557-3566; the socket is closed with its BIO, and the TLS object with that for TLS (BIO_CLOSE). -/
def bcClose (s : BcSt) : BcSt :=
  match s.chan with
  | none => s
  | some (k, f) => BcSt.ev { s with chan := none } ((if f then [.untls k] else []) ++ [.close k])

/-- open_backend, /repo/src/http.c:4318-4388, for socket `k`, which is connected; `https`: the backend uses TLS. -/
def bcOpenBe (https : Bool) (k b : Nat) (o : BcOpen) (s : BcSt) : BcSt × Bool :=
  match o with
  | .noBio => ({ s with chan := none }.ev [.close k], false)
  | .noTls => if https then ({ s with chan := some (k, false) }.ev [.use b], false) else ({ s with chan := some (k, false) }.ev [.use b], true)
  | .noFilter => if https then ({ s with chan := some (k, false) }.ev [.use b, .tls k], false) else ({ s with chan := some (k, false) }.ev [.use b], true)
  | .noHandshake => if https then ({ s with chan := some (k, true) }.ev [.use b, .tls k], false) else ({ s with chan := some (k, false) }.ev [.use b], true)
  | .noBuffer => ({ s with chan := some (k, https) }.ev (.use b :: if https then [.tls k] else []), false)
  | .done => ({ s with chan := some (k, https) }.ev (.use b :: if https then [.tls k] else []), true)

/-- backend_unref, /repo/src/dynbe.c:804-816, which does nothing for a null pointer -/
def bcGive : Option Nat → List BcEv
  | some c => [.unref c]
  | none => []

/-- phttp->backend is given back and replaced, /repo/src/http.c:4467-4469. -/
def bcSet (b : Nat) (s : BcSt) : BcSt := { s with cur := some b }.ev (bcGive s.cur)

/-- get_backend returns the next backend, with a reference taken, /repo/src/svc.c:1041-1043. -/
def bcNext (l : List (Nat × BcTry)) (s : BcSt) : BcSt :=
  match l with
  | [] => s
  | (b, _) :: _ => s.ev [.ref b]

/-- The loop of select_backend, /repo/src/http.c:4411-4496: the first backend of `l` has been selected already (`bcNext`); the others are those that get_backend returns next. `reg`, `https`: the kind of a backend -/
def bcLoop (reg https : Nat → Bool) : List (Nat × BcTry) → BcSt → BcSt × Bool
  | [], s => (s, false)
  | (b, t) :: l, s =>
    if reg b then
      match t with
      | .family => (s.ev [.use b, .unref b, .use b], false)
      | .noSocket => (s.ev [.use b, .unref b, .use b], false)
      | .connected o =>
        match bcOpenBe (https b) s.n b o (BcSt.ev { s with n := s.n + 1 } [.use b, .open s.n b]) with
        | (s, true) => (bcSet b s, true)
        | (s, false) => (bcClose s, false)
      | .refused => bcLoop reg https l (bcNext l (BcSt.ev { s with n := s.n + 1 } [.use b, .open s.n b, .use b, .close s.n, .kill b, .unref b]))
    else (bcSet b (s.ev [.use b]), true)

/-- select_backend, /repo/src/http.c:4390-4505 -/
def bcSelect (reg https : Nat → Bool) (l : List (Nat × BcTry)) (s : BcSt) : BcSt × Bool :=
  match l with
  | [] => (s, false)
  | (b, _) :: _ =>
    let s := bcNext l s
    match s.chan with
    | none => bcLoop reg https l s
    | some _ => if s.cur = some b then (s.ev [.unref b], true) else bcLoop reg https l (bcClose s)

/-- A request: whether the connection kept from the last one is readable (at its end); whether there is a service for it; the backends that are selected for it, one after the other, and what happens to each;
whether the connection to the backend is closed after the response (it is not HTTP/1.1); whether the client connection ends after it -/
structure BcReq where
  readable : Bool
  service : Bool
  tries : List (Nat × BcTry)
  closes : Bool
  last : Bool

/-- send_to_backend and backend_response, or the reply of another kind of backend, /repo/src/http.c:4869-4924, 4147-4151 -/
def bcServe (reg : Nat → Bool) (closes : Bool) (s : BcSt) : BcSt :=
  match s.cur with
  | none => s.ev [.null]
  | some b =>
    if reg b then
      match s.chan with
      | none => s.ev [.use b, .null]
      | some (k, _) =>
        let s := s.ev [.use b, .send k b, .use b]
        if closes then bcClose s else s
    else (bcClose s).ev [.use b]

/-- The loop of do_http, /repo/src/http.c:4613-4945, from the moment when a request was read and found to be good -/
def bcRequests (reg https : Nat → Bool) : List BcReq → BcSt → BcSt
  | [], s => s
  | r :: t, s =>
    let s := if r.readable then bcClose s else s
    if r.service then
      match bcSelect reg https r.tries s with
      | (s, false) => s
      | (s, true) =>
        let s := bcServe reg r.closes s
        if r.last then s else bcRequests reg https t s
    else s

/-- pound_http_destroy, /repo/src/pound.c:377-415 -/
def bcDestroy (s : BcSt) : BcSt :=
  bcClose (s.ev (bcGive s.cur))

/-- What is done for a whole client connection (thr_http, /repo/src/http.c:4954-4970) -/
def bcConnection (reg https : Nat → Bool) (l : List BcReq) : List BcEv := (bcDestroy (bcRequests reg https l ⟨none, none, 0, []⟩)).tr

/-- backend_probe, /repo/src/svc.c:1611-1645: 0 alive, 1 dead, 2 error; and what is done -/
def bcProbe (familyOk socketOk : Bool) (e : NbEnv) (b : Nat) : Nat × List BcEv :=
  if familyOk && socketOk then
    match (connectNb e 0).1 with
    | .ok () => (0, [.use b, .open 0 b, .use b, .close 0])
    | .error _ => (1, [.use b, .open 0 b, .use b, .close 0])
  else (2, [.use b])

end Pound
