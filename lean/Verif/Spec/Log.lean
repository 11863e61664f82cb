import Verif.Model.Log

/-!
Log formats as the manual describes them: /repo/doc/pound.texi:1980-2200.  Only the data of a request (`LogCtx`), of numbers in decimal (`dec`) and times are used from the
model.
-/

namespace Pound.Spec

/-- A format is a sequence of texts and specifiers. -/
inductive LItem where
  | text (s : Bytes)
  /-- `%c` or `%{arg}c` -/
  | conv (arg : Option Bytes) (c : UInt8)
  /-- `%>s` -/
  | respLine
deriving DecidableEq, Repr

/-- How an item is written -/
def LItem.render : LItem → Bytes
  | .text s => s
  | .conv none c => [ch%'%', c]
  | .conv (some a) c => b!"%{" ++ a ++ [ch%'}', c]
  | .respLine => b!"%>s"

def renderAll (is : List LItem) : Bytes := is.flatMap LItem.render

/-- A specifier can be written: a text has no percent sign, an argument no closing brace. -/
def LItem.Writable : LItem → Prop
  | .text s => ch%'%' ∉ s
  | .conv (some a) _ => ch%'}' ∉ a
  | _ => True

/-- The time since the request began, in nanoseconds -/
def elapsed (x : LogCtx) : Nat := ((x.fin.sec * 1000000000 + x.fin.nsec) - (x.start.sec * 1000000000 + x.start.nsec)).toNat

/-- Times are proper, the clock did not run backwards, codes have three digits, no header has an empty name. -/
structure GoodCtx (x : LogCtx) : Prop where
  start : 0 ≤ x.start.sec ∧ 0 ≤ x.start.nsec ∧ x.start.nsec < 1000000000
  fin : 0 ≤ x.fin.sec ∧ 0 ≤ x.fin.nsec ∧ x.fin.nsec < 1000000000
  order : x.start.sec * 1000000000 + x.start.nsec ≤ x.fin.sec * 1000000000 + x.fin.nsec
  code : 100 ≤ x.respCode
  header : x.header [] = none

/-- A number with at least `w` digits -/
def digits (w n : Nat) : Bytes := List.replicate (w - (dec n).length) ch%'0' ++ dec n

def dash (s : Option Bytes) : Bytes := s.getD b!"-"

/-- The address with its last part replaced by 0 -/
def Anonymised (a r : Bytes) : Prop :=
  (∃ p q, a = p ++ ch%'.' :: q ∧ ch%'.' ∉ q ∧ r = p ++ b!".0") ∨
  (ch%'.' ∉ a ∧ ∃ p q, a = p ++ ch%':' :: q ∧ ch%':' ∉ q ∧ r = p ++ b!":0") ∨
  (ch%'.' ∉ a ∧ ch%':' ∉ a ∧ r = a)

/-- The time at the beginning (`begin:`, default) or the end of the request, and the rest of the argument -/
def whichTime (x : LogCtx) (a : Bytes) : TS × Bytes :=
  if b!"begin:" <+: a then (x.start, a.drop 6) else if b!"end:" <+: a then (x.fin, a.drop 4) else (x.start, a)

def clfTime : Bytes := b!"[%d/%b/%Y:%H:%M:%S %z]"

/-- The time `%{arg}t` -/
def timeText (x : LogCtx) (a : Bytes) : Bytes :=
  let r := whichTime x a
  let sec := r.1.sec.toNat
  let nsec := r.1.nsec.toNat
  if r.2 = [] then x.strftime clfTime r.1.sec
  else if r.2 = b!"sec" then dec sec
  else if r.2 = b!"msec" then dec (sec * 1000 + nsec / 1000000)
  else if r.2 = b!"usec" then dec (sec * 1000000 + nsec / 1000)
  else if r.2 = b!"msec_frac" then digits 3 (nsec / 1000000)
  else if r.2 = b!"usec_frac" then digits 6 (nsec / 1000)
  else x.strftime r.2 r.1.sec

/-- What the client's address is logged as; that `anonIp true` anonymises in the sense above is `C39_anonymous`. -/
def clientIp (x : LogCtx) : Bytes :=
  match x.remote with
  | none => b!"socket"
  | some a => if x.anonymise then anonIp true a else a

/-- What the service is logged as: its name, or what answers in place of a backend -/
def serviceText (x : LogCtx) : Bytes :=
  if x.beKind = .redirect then b!"(redirect)" else if x.beKind = .acme then b!"(acme)" else if x.beKind = .control then b!"(control)"
  else if x.beKind = .error then b!"(error)" else if x.beKind = .metrics then b!"(metrics)" else if x.beKind = .regular then dash x.svcName else b!"-"

/-- Time taken, in a unit -/
def took (x : LogCtx) (unit : Bytes) : Option Bytes :=
  if unit = b!"s" then some (dec (elapsed x / 1000000000))
  else if unit = b!"ms" then some (dec (elapsed x / 1000000))
  else if unit = b!"us" then some (dec (elapsed x / 1000))
  else if unit = b!"f" then some (dec (elapsed x / 1000000000) ++ ch%'.' :: digits 3 (elapsed x % 1000000000 / 1000000))
  else none

/-- The value of an item, `none` if there is no such specifier or its argument is wrong.  Superfluous arguments are ignored. -/
def LItem.value (x : LogCtx) : LItem → Option Bytes
  | .text s => some s
  | .respLine => some x.respLine
  | .conv arg c =>
    if c = ch%'%' then some b!"%"
    else if c = ch%'a' then some (x.forwarded.getD (clientIp x))
    else if c = ch%'A' then some x.localIp
    else if c = ch%'B' then some (dec x.resBytes)
    else if c = ch%'b' then some (if x.resBytes = 0 then b!"-" else dec x.resBytes)
    else if c = ch%'D' then some (dec (elapsed x / 1000))
    else if c = ch%'h' then some (clientIp x)
    else if c = ch%'H' then some (if x.tls then b!"https" else b!"http")
    else if c = ch%'i' then arg.map fun a => (x.header a).getD []
    else if c = ch%'I' then arg.map fun a => dash (x.header a)
    else if c = ch%'L' then
      if arg = some b!"listener" then some (dash x.lstnLocus) else if arg = some b!"service" then some (dash x.svcLocus)
      else if arg = some b!"backend" then some (dash x.beLocus) else none
    else if c = ch%'m' then some x.method
    else if c = ch%'N' then
      if arg = some b!"listener" then some (dash x.lstnName) else if arg = some b!"service" then some (serviceText x)
      else if arg = some b!"backend" then some x.backendName else none
    else if c = ch%'P' then some (dec x.tid)
    else if c = ch%'q' then some ((x.query.map fun q => ch%'?' :: q).getD [])
    else if c = ch%'r' then some x.reqLine
    else if c = ch%'s' then some (if arg = none ∨ arg = some [] then dec x.respCode else x.respLine)
    else if c = ch%'t' then some (timeText x (arg.getD []))
    else if c = ch%'T' then (match arg with | none => took x b!"s" | some u => took x u)
    else if c = ch%'u' then some (dash x.user)
    else if c = ch%'U' then some (dash x.path)
    else if c = ch%'v' then some (dash x.lstnName)
    else none

/-- `%D` -/
def LItem.oddMicro : LItem → Bool
  | .conv _ c => c == ch%'D'
  | _ => false

/-- `%{sec}t` and the like, and `%{s}t`, which is not documented -/
def LItem.oddTime : LItem → Bool
  | .conv (some a) c => c == ch%'t' && (a == b!"sec" || a == b!"begin:sec" || a == b!"end:sec" || a == b!"s" || a == b!"begin:s" || a == b!"end:s")
  | _ => false

/-- The specifiers that do not work as documented, see the theorems -/
def LItem.odd (i : LItem) : Bool := i.oddMicro || i.oddTime

/-- The words of LogSuppress and the status classes they stand for, /repo/doc/pound.texi:4268-4304 -/
def suppressClass (w : Bytes) (k : Nat) : Prop :=
  ciEq w b!"all" = true ∨
  (k = 1 ∧ (w = b!"1" ∨ ciEq w b!"info" = true)) ∨ (k = 2 ∧ (w = b!"2" ∨ ciEq w b!"success" = true)) ∨ (k = 3 ∧ (w = b!"3" ∨ ciEq w b!"redirect" = true)) ∨
  (k = 4 ∧ (w = b!"4" ∨ ciEq w b!"clterr" = true)) ∨ (k = 5 ∧ (w = b!"5" ∨ ciEq w b!"srverr" = true))

/-- The status code the client gets: that of the answer passed on or made by the program (200 if no other was set), or else that of the error reply -/
def sentCode (set : Option Nat) (res : Status) : Nat :=
  match res with
  | .ok => set.getD 200
  | e => (statusInfo e).1

end Pound.Spec
