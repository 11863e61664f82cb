import Verif.Model.Exchange

/-!
Relaying between a client and a backend after both agreed to switch to the WebSocket protocol, /repo/src/http.c:4007-4145.
-/

namespace Pound

/-- The input from one peer.  `buf`: what BIO_pending counts, that is, bytes in the buffer and in the TLS layer; `sock`: what the peer sends besides, up to the end of its
stream. -/
structure WsSide where
  buf : Bytes
  sock : Bytes
deriving DecidableEq, Repr

/-- Variables of the loop.  `evC`, `evB`: whether p[0].revents and p[1].revents are different from 0; `toB`, `toC`: bytes passed on so far; `count`: res_bytes. -/
structure WsState where
  c : WsSide
  b : WsSide
  evC : Bool := false
  evB : Bool := false
  toB : Bytes := []
  toC : Bytes := []
  count : Nat := 0
deriving DecidableEq, Repr

/-- What poll reports: nothing until the time limit (or an error), or events of the client's, the backend's or both sockets. -/
inductive WsPoll where
  | idle | client | backend | both
deriving DecidableEq, Repr

/-- What the environment decides in one iteration. -/
structure WsIter where
  poll : WsPoll := .idle
  /-- copying of pending bytes fails after so many of them -/
  failC : Option Nat := none
  failB : Option Nat := none
  /-- BIO_find_type finds both sockets -/
  found : Bool := true
  /-- BIO_read from the socket: `none` is an error; else the number of bytes that can be had now besides the first, and how many more are left pending in the TLS layer -/
  readC : Option (Nat × Nat) := none
  readB : Option (Nat × Nat) := none
  /-- BIO_write fails after so many bytes -/
  writeB : Option Nat := none
  writeC : Option Nat := none
deriving DecidableEq, Repr

/-- Why the loop was left. -/
inductive WsEnd where
  /-- poll did not report anything -/
  | idle
  /-- the client's or the backend's stream has ended -/
  | clientEnd | backendEnd
  /-- reading from one of them failed -/
  | clientError | backendError
  /-- -1 is returned -/
  | failed
deriving DecidableEq, Repr

/-- Copying pending bytes one by one, /repo/src/http.c:4033-4050, 4053-4071: the bytes written, and whether all was well. -/
def wsDrain : Option Nat → Bytes → Bytes × Bool
  | _, [] => ([], true)
  | some 0, _ :: _ => ([], false)
  | some (n + 1), x :: t => let r := wsDrain (some n) t; (x :: r.1, r.2)
  | none, x :: t => let r := wsDrain none t; (x :: r.1, r.2)

/-- BIO_write of a block, /repo/src/http.c:4109, 4131: the bytes written, and whether these were all -/
def wsWrite : Option Nat → Bytes → Bytes × Bool
  | none, x => (x, true)
  | some n, x => if n < x.length then (x.take n, false) else (x, true)

/-- BIO_read from the socket or the TLS layer, /repo/src/http.c:4104, 4126: at most sizeof (buf) = MAXBUF bytes; the buffer before it is not looked at.  `none`: nothing
more to read. -/
def wsRead (n k : Nat) (s : WsSide) : Option (Bytes × WsSide) :=
  let got := s.sock.take (min (n + 1) 4096)
  let left := s.sock.drop (min (n + 1) 4096)
  match got with
  | [] => none
  | _ => some (got, ⟨s.buf ++ left.take k, left.drop k⟩)

/-- The part of an iteration that reads from the backend's socket, /repo/src/http.c:4124-4144 -/
def wsFromBackend (e : WsIter) (s : WsState) : WsState × Option WsEnd :=
  if s.evB then
    match e.readB with
    | none => (s, some .backendError)
    | some (n, k) =>
      match wsRead n k s.b with
      | none => (s, some .backendEnd)
      | some (got, b) =>
        let w := wsWrite e.writeC got
        if w.2 then ({ s with b := b, toC := s.toC ++ w.1, count := s.count + got.length, evB := false }, none)
        else ({ s with b := b, toC := s.toC ++ w.1 }, some .failed)
  else (s, none)

/-- The part of an iteration that reads from the client's socket, /repo/src/http.c:4102-4123 -/
def wsFromClient (e : WsIter) (s : WsState) : WsState × Option WsEnd :=
  if s.evC then
    match e.readC with
    | none => (s, some .clientError)
    | some (n, k) =>
      match wsRead n k s.c with
      | none => (s, some .clientEnd)
      | some (got, c) =>
        let w := wsWrite e.writeB got
        if w.2 then wsFromBackend e { s with c := c, toB := s.toB ++ w.1, evC := false }
        else ({ s with c := c, toB := s.toB ++ w.1 }, some .failed)
  else wsFromBackend e s

/-- Copying what is pending on both sides, /repo/src/http.c:4030-4097 -/
def wsPending (e : WsIter) (s : WsState) : WsState × Option WsEnd :=
  let d := wsDrain e.failC s.c.buf
  let s := { s with c := { s.c with buf := s.c.buf.drop d.1.length }, toB := s.toB ++ d.1 }
  if d.2 then
    let d := wsDrain e.failB s.b.buf
    let s := { s with b := { s.b with buf := s.b.buf.drop d.1.length }, toC := s.toC ++ d.1, count := s.count + d.1.length }
    if d.2 && e.found then wsFromClient e s else (s, some .failed)
  else (s, some .failed)

/-- One iteration of the loop, /repo/src/http.c:4026-4145.  If anything is pending, poll is not called and the events are those left from before. -/
def wsIter (e : WsIter) (s : WsState) : WsState × Option WsEnd :=
  if !s.c.buf.isEmpty || !s.b.buf.isEmpty then wsPending e s
  else
    match e.poll with
    | .idle => (s, some .idle)
    | .client => wsPending e { s with evC := true, evB := false }
    | .backend => wsPending e { s with evC := false, evB := true }
    | .both => wsPending e { s with evC := true, evB := true }

/-- The loop; `none` if it goes on after the given iterations. -/
def wsLoop : List WsIter → WsState → WsState × Option WsEnd
  | [], s => (s, none)
  | e :: t, s =>
    match wsIter e s with
    | (s', none) => wsLoop t s'
    | r => r

/-- The state at the beginning of the loop: some of the bytes from each peer may have been read already. -/
def wsStart (bufC sockC bufB sockB : Bytes) : WsState := { c := ⟨bufC, sockC⟩, b := ⟨bufB, sockB⟩ }

/-- The response of a backend that switches protocols, with the outcome of the loop, /repo/src/http.c:4007-4151 -/
def RespEnv.tunnel (env : RespEnv) (r : WsState × Option WsEnd) : RespEnv := { env with wsOut := r.1.toC, wsFail := r.2 == some .failed }

end Pound
