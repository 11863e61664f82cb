import Verif.Model.Poundctl
import Verif.Spec.Control
import Verif.Spec.Json

/-! What poundctl is expected to do: arguments, addresses, credentials. -/

namespace Pound.Spec

open Pound

/-- No space or control character -/
def Visible (s : Bytes) : Prop := ∀ c ∈ s, 32 < c.toNat ∧ c.toNat ≠ 127

/-- The alphabet of RFC 4648, table 1 -/
def b64Alphabet : Bytes := b!"ABCDEFGHIJKLMNOPQRSTUVWXYZabcdefghijklmnopqrstuvwxyz0123456789+/"

/-- The character for a number below 64 -/
def b64Of (n : Nat) : UInt8 := b64Alphabet.getD n 0

/-- RFC 4648, section 4 -/
def base64 : Bytes → Bytes
  | [] => []
  | [a] => [b64Of (a.toNat / 4), b64Of (a.toNat % 4 * 16), ch%'=', ch%'=']
  | [a, b] => [b64Of (a.toNat / 4), b64Of (a.toNat % 4 * 16 + b.toNat / 16), b64Of (b.toNat % 16 * 4), ch%'=']
  | a :: b :: c :: t =>
    b64Of (a.toNat / 4) :: b64Of (a.toNat % 4 * 16 + b.toNat / 16) :: b64Of (b.toNat % 16 * 4 + c.toNat / 64) :: b64Of (c.toNat % 64) :: base64 t

/-- The server's address: nothing in front of the endpoints' names, a host name of an acceptable length, and credentials of at most 48
bytes. -/
structure PlainUrl (u : CtlUrl) : Prop where
  path : u.path = []
  host : Visible u.host ∧ u.host.length ≤ 255
  creds : ∀ p, u.pass = some p → (u.user.getD [] ++ ch%':' :: p).length ≤ 48

/-- The listener of the control socket: PUT and DELETE are allowed, there is no limit on the URL -/
structure ControlListener (cfg : LstnCfg) : Prop where
  verb : 1 ≤ cfg.verb
  pat : cfg.urlPat = none
  uri : cfg.maxUri = 0

/-- The listings of a configuration (not indented) can be read back (see C56), and are not larger than 2 GiB; the value sent after a change is `true`. -/
structure Listable {D} (E : CtlServer D) (c : Conf) : Prop where
  done : E.shows c .true = .bool true
  fits : ∀ v, Fits E.num (E.shows c v)
  text : ∀ v, (0 : UInt8) ∉ fmtVal E.num 0 0 (E.shows c v) ∧ (fmtVal E.num 0 0 (E.shows c v)).length < 2 ^ 31

/-- A path as in the command line that fits on a line of a request -/
structure GoodPath (segs : List Bytes) : Prop where
  some : segs ≠ []
  segment : ∀ s ∈ segs, Segment s
  visible : ∀ s ∈ segs, Visible s
  short : (slashes segs).length ≤ 3800

/-- A number that fits in an int -/
def IntIndex (s : Bytes) : Prop := ∃ n, IsIndex s n ∧ n < 2 ^ 31

/-- Paths of the session commands: numbers, the first one may be a dash -/
def NumPath : List Bytes → Prop
  | [] => False
  | a :: r => (a = b!"-" ∨ IntIndex a) ∧ ∀ s ∈ r, IntIndex s

/-- The keys of sessions that can be passed -/
def GoodKey (k : Bytes) : Prop := Visible k ∧ ch%'&' ∉ k ∧ k.length ≤ 127

/-- The exit code and listing of a command -/
def exits {D} (code : Nat) (listed : Option (JVal D)) : CtlOut D := ⟨code, listed⟩

/-- What is written for a port -/
def portText : Option Bytes → Bytes
  | some p => b!":" ++ p
  | none => []

/-- What is written for a user and a password -/
def credsText : Option (Bytes × Bytes) → Bytes
  | some (u, p) => u ++ b!":" ++ p ++ b!"@"
  | none => []

/-- The URL of a server: credentials, port and path are optional. -/
def urlText (tls : Bool) (creds : Option (Bytes × Bytes)) (host : Bytes) (port : Option Bytes) (path : Bytes) : Bytes :=
  (if tls then b!"https://" else b!"http://") ++ credsText creds ++ host ++ portText port ++ path

/-- A quoted string: quotes and backslashes are escaped -/
def quoted (s : Bytes) : Bytes := ch%'"' :: (s.flatMap fun c => if c = ch%'"' ∨ c = ch%'\\' then [ch%'\\', c] else [c]) ++ [ch%'"']

/-- Lines, each with its LF -/
def asLines (ls : List Bytes) : Bytes := ls.flatMap fun l => l ++ [10]

/-- The first word of a line, if it is no comment -/
def LineWord (line word : Bytes) : Prop :=
  ∃ sp rest, line = sp ++ word ++ rest ∧ (∀ c ∈ sp, isSpace c = true) ∧ word ≠ [] ∧ (∀ c ∈ word, isSpace c = false) ∧
    word.head? ≠ some ch%'#' ∧ (∀ c, rest.head? = some c → c = 32 ∨ c = 9)

/-- The line starts with none of these words, or a part of one, in any letter case. -/
def Skipped (kws : List Bytes) (line : Bytes) : Prop :=
  (∀ c ∈ line, isSpace c = true) ∨ (∃ sp t, line = sp ++ ch%'#' :: t ∧ ∀ c ∈ sp, isSpace c = true) ∨
  ∃ word, LineWord line word ∧ ∀ k ∈ kws, ¬ ciEq (k.take word.length) word = true

/-- Lines that can be read: without LF in them, and not too long -/
def ReadLine (line : Bytes) : Prop := (10 : UInt8) ∉ line ∧ line.length ≤ 4094

end Pound.Spec
