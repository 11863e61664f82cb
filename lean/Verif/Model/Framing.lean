import Verif.Model.Basic

/-!
Reading of lines, lengths and bodies (/repo/src/http.c:239-256, 900-975, 1143-1470).

The input side of a `BIO` is the list of bytes that will still arrive, followed
by end of file.  Simplifications: a read error (`BIO_read` returning a negative value) and
retries (`BIO_should_retry`) are not modelled, writes always succeed and are
complete.  `iscntrl`/`isspace` on negative `char` values follow glibc (false).
-/

namespace Pound

/-- `isws`, /repo/src/http.c:239-243. -/
def isWs (c : UInt8) : Bool := c == ch%' ' || c == 9

/-- `trimwsl`, /repo/src/http.c:245-251. -/
def trimWsL : Bytes → Bytes
  | [] => []
  | c :: s => if isWs c then trimWsL s else c :: s

/-- Two's complement wrap-around of the 64-bit `CONTENT_LENGTH`
(`long long`, /repo/src/pound.h:159). -/
def wrap64 (x : Int) : Int := Int.bmod x (2 ^ 64)

/-- `CONTENT_LENGTH_MAX`, /repo/src/pound.h:160. -/
def clenMax : Int := 2 ^ 63 - 1

/-- `NO_CONTENT_LENGTH`, /repo/src/pound.h:168. -/
def noContentLength : Int := -1

/-- Digit recognition in the loop of `strtoclen`, /repo/src/http.c:1281-1294. -/
def clenDigit (base : Int) (c : UInt8) : Option Int :=
  if ch%'0' ≤ c && c ≤ ch%'9' then some ((c.toNat : Int) - 48)
  else if base == 16 then
    if ch%'a' ≤ c && c ≤ ch%'f' then some ((c.toNat : Int) - (97 - 10))
    else if ch%'A' ≤ c && c ≤ ch%'F' then some ((c.toNat : Int) - (65 - 10))
    else none
  else none

/-- Loop of `strtoclen`, /repo/src/http.c:1279-1306.  Returns `rc`, `val` and the
unconverted rest.  Arithmetic wraps like the machine's would. -/
def strtoclenLoop (base cutoff cutlim : Int) : Bytes → Int → Int × Int × Bytes
  | [], val => (0, val, [])
  | c :: s, val =>
    match clenDigit base c with
    | none => (0, val, c :: s)
    | some d =>
      if val > cutoff || (val == cutoff && d > cutlim) then (-1, val, c :: s)
      else strtoclenLoop base cutoff cutlim s (wrap64 (wrap64 (val * base) + d))

/-- `strtoclen`, /repo/src/http.c:1269-1318.  Result `(rc, *retval, *endptr)`. -/
def strtoclen (arg : Bytes) (base : Int) : Int × Int × Bytes :=
  let cutoff := clenMax.tdiv base
  let cutlim := clenMax.tmod base
  let (rc, val, s) := strtoclenLoop base cutoff cutlim arg 0
  let rc := if rc == 0 then
      (if s.length == arg.length then -1 else if val < 0 then -1 else rc)
    else rc
  (rc, val, s)

inductive ClMode where
  | header   -- CL_HEADER
  | chunk    -- CL_CHUNK
deriving DecidableEq, Repr

/-- `get_content_length`, /repo/src/http.c:1326-1347. -/
def getContentLength (arg : Bytes) (mode : ClMode) : Int :=
  let arg := if mode = .header then trimWsL arg else arg
  let (rc, n, p) := strtoclen arg (if mode = .header then 10 else 16)
  if rc ≠ 0 then noContentLength
  else match trimWsL p with
    | [] => n
    | c :: _ => if !(mode == .chunk && c == ch%';') then noContentLength else n

/-- `drain_eol`, /repo/src/http.c:1143-1157: skip input up to and including the next LF. -/
def drainEol : Bytes → Bytes
  | [] => []
  | c :: s => if c == 10 then s else drainEol s

/-- Outcome of `get_line`: `COPY_OK` with the contents of the buffer and the
remaining input, `COPY_EOF`, `COPY_BAD_DATA`, `COPY_TOO_LONG`. -/
inductive LineRes where
  | ok (line rest : Bytes)
  | eof
  | bad (rest : Bytes)
  | tooLong (rest : Bytes)
deriving DecidableEq, Repr

/-- Loop of `get_line`, /repo/src/http.c:1171-1230.  The first argument counts down the
remaining iterations (`bufsize - 1 - i`); `acc` is `buf[0..]` so far (without
the place left for a CR). -/
def getLineLoop : Nat → Bytes → Bool → Bytes → LineRes
  | 0, inp, _, _ => .tooLong (drainEol inp)
  | _ + 1, [], seenCr, acc => if acc.isEmpty && !seenCr then .eof else .ok acc []
  | n + 1, c :: inp, seenCr, acc =>
    if seenCr then
      if c != 10 then .bad (drainEol inp) else .ok acc inp
    else if !isCntrl c || c == 9 then getLineLoop n inp false (acc ++ [c])
    else if c == 13 then getLineLoop n inp true acc
    else if c == 10 then .ok acc inp
    else .bad (drainEol inp)

/-- `get_line`, /repo/src/http.c:1165-1237. -/
def getLine (inp : Bytes) (bufsize : Nat) : LineRes :=
  getLineLoop (bufsize - 1) inp false []

/-- `MAXBUF`, /repo/src/pound.h:195. -/
def maxBuf : Nat := 4096

/-- Number of bytes delivered by one `BIO_read` that asks for `want > 0` bytes
while `avail` bytes are still to come.  The scheduler's choice `s` stands for
what the network has delivered so far. -/
def readAmount (s want avail : Nat) : Nat := min (max 1 s) (min want avail)

/-- Outcome of `copy_bin`: status, remaining input, bytes written, and the
increment of `*res_bytes`. -/
structure CopyRes where
  ok    : Bool      -- COPY_OK / COPY_EOF
  rest  : Bytes
  out   : Bytes
  count : Nat
deriving DecidableEq, Repr

/-- Loop of `copy_bin`, /repo/src/http.c:947-969; `sched k` is the size the `k`-th read is
offered by the network.  `fuel` bounds the iterations (each takes ≥ 1 byte). -/
def copyBinLoop (sched : Nat → Nat) : Nat → Nat → Nat → Bytes → Bytes → Nat → CopyRes
  | 0, _, cont, inp, out, cnt => ⟨cont == 0, inp, out, cnt⟩
  | fuel + 1, k, cont, inp, out, cnt =>
    if cont > 0 then
      let res := if inp.isEmpty then 0
                 else readAmount (sched k) (if cont > maxBuf then maxBuf else cont) inp.length
      if res == 0 then ⟨false, inp, out, cnt⟩
      else copyBinLoop sched fuel (k + 1) (cont - res) (inp.drop res)
             (out ++ inp.take res) (cnt + res)
    else ⟨true, inp, out, cnt⟩

/-- `copy_bin`, /repo/src/http.c:940-975.  With `no_write` nothing is written. -/
def copyBin (sched : Nat → Nat) (inp : Bytes) (cont : Nat) (noWrite : Bool) : CopyRes :=
  let r := copyBinLoop sched cont 0 cont inp [] 0
  if noWrite then { r with out := [] } else r

/-- HTTP status codes used as results, pound.h (HTTP_STATUS_*). -/
inductive Status where
  | ok | badRequest | unauthorized | forbidden | notFound | methodNotAllowed
  | payloadTooLarge | uriTooLong | internalError | notImplemented | serviceUnavailable
deriving DecidableEq, Repr

/-- Outcome of `copy_chunks`. `ub`: signed overflow of `tot_size`;
`stuck`: model ran out of fuel (proved impossible). -/
inductive ChunkEnd where
  | status (s : Status)
  | ub
  | stuck
deriving DecidableEq, Repr

structure ChunkRes where
  fin   : ChunkEnd
  rest  : Bytes        -- input not consumed
  out   : Bytes        -- bytes written to `be`
  count : Nat          -- increment of *res_bytes
deriving DecidableEq, Repr

def crlf : Bytes := [13, 10]

/-- Output of `BIO_printf (be, "%s\r\n", buf)` unless `no_write`. -/
def putLine (noWrite : Bool) (line : Bytes) : Bytes :=
  if noWrite then [] else line ++ crlf

/-- Trailer loop of `copy_chunks`, /repo/src/http.c:1441-1463. -/
def copyTrailers (noWrite : Bool) : Nat → Bytes → Bytes → Nat → ChunkRes
  | 0, inp, out, cnt => ⟨.stuck, inp, out, cnt⟩
  | fuel + 1, inp, out, cnt =>
    match getLine inp maxBuf with
    | .ok line rest =>
      let out := out ++ putLine noWrite line
      if line.isEmpty then ⟨.status .ok, rest, out, cnt⟩
      else copyTrailers noWrite fuel rest out cnt
    | .eof => ⟨.status .badRequest, [], out, cnt⟩
    | .bad rest => ⟨.status .badRequest, rest, out, cnt⟩
    | .tooLong rest => ⟨.status .badRequest, rest, out, cnt⟩

/-- Chunk loop of `copy_chunks`, /repo/src/http.c:1358-1437. -/
def copyChunksLoop (sched : Nat → Nat) (noWrite : Bool) (maxSize : Int) :
    Nat → Int → Bytes → Bytes → Nat → ChunkRes
  | 0, _, inp, out, cnt => ⟨.stuck, inp, out, cnt⟩
  | fuel + 1, tot, inp, out, cnt =>
    match getLine inp maxBuf with
    | .eof => ⟨.status .badRequest, [], out, cnt⟩
    | .bad rest => ⟨.status .badRequest, rest, out, cnt⟩
    | .tooLong rest => ⟨.status .badRequest, rest, out, cnt⟩
    | .ok line rest =>
      let cont := getContentLength line .chunk
      if cont = noContentLength then ⟨.status .badRequest, rest, out, cnt⟩
      else
        let out := out ++ putLine noWrite line
        let tot := tot + cont
        if tot > clenMax then ⟨.ub, rest, out, cnt⟩
        else if maxSize > 0 && tot > maxSize then ⟨.status .payloadTooLarge, rest, out, cnt⟩
        else if cont > 0 then
          let r := copyBin sched rest cont.toNat noWrite
          let out := out ++ r.out
          let cnt := cnt + r.count
          if !r.ok then ⟨.status .badRequest, r.rest, out, cnt⟩
          else match getLine r.rest maxBuf with
            | .eof => ⟨.status .badRequest, [], out, cnt⟩
            | .bad rest => ⟨.status .badRequest, rest, out, cnt⟩
            | .tooLong rest => ⟨.status .badRequest, rest, out, cnt⟩
            | .ok junk rest =>
              -- a non-empty `junk` is only logged, /repo/src/http.c:1421-1423
              copyChunksLoop sched noWrite maxSize fuel tot rest
                (out ++ putLine noWrite junk) cnt
        else copyTrailers noWrite (rest.length + 1) rest out cnt

/-- `copy_chunks`, /repo/src/http.c:1350-1472. -/
def copyChunks (sched : Nat → Nat) (noWrite : Bool) (maxSize : Int) (inp : Bytes) : ChunkRes :=
  copyChunksLoop sched noWrite maxSize (inp.length + 1) 0 inp [] 0

end Pound
