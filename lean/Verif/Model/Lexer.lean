import Verif.Model.Bauth
import Verif.Model.Control

/-!
The scanner of configuration files: /repo/src/cfgparser.c:474-933.

A file is the list of bytes still to be read.  Memory allocation succeeds.  Locations (used for messages only) are in Model/Locus.lean.
-/

namespace Pound

/-- struct token, /repo/src/cfgparser.h:101-106, with the token types of :69-78; texts are C strings. -/
inductive Tok where
  | eof
  | nl
  | error
  | ident (s : Bytes)
  | number (s : Bytes)
  | string (s : Bytes)
  | literal (s : Bytes)
deriving DecidableEq, Repr

/-- Result of scanning: the token, what is left, and the number of messages printed -/
structure LexRes where
  tok : Tok
  rest : Bytes
  msgs : Nat
deriving DecidableEq, Repr

/-- stringbuf_finish and use as a C string: a NUL byte ends the text. -/
def cText (s : Bytes) : Bytes := s.takeWhile notNul

/-- is_ident_start, /repo/src/cfgparser.c:582 -/
def isIdentStart (c : UInt8) : Bool := isAlpha c || c == ch%'_'
/-- is_ident_cont, /repo/src/cfgparser.c:583 -/
def isIdentCont (c : UInt8) : Bool := isIdentStart c || isDigit c
/-- Neither space nor end of file -/
def nonSpace (c : UInt8) : Bool := !isSpace c
/-- White space other than newline -/
def isHsp (c : UInt8) : Bool := isSpace c && c != 10

/-- A quoted string after its opening quote, /repo/src/cfgparser.c:639-671: `buf` is what was collected, `n` counts messages.  `\\` followed by end of file prints one message. -/
def lexString : Bytes → Bytes → Nat → LexRes
  | [], _, n => ⟨.error, [], n + 1⟩
  | c :: r, buf, n =>
    if c = ch%'"' then ⟨.string (cText buf), r, n⟩
    else if c = ch%'\\' then
      match r with
      | [] => ⟨.error, [], n + 1⟩
      | d :: r' =>
        if d = 10 then ⟨.error, r', n + 2⟩
        else if d = ch%'"' ∨ d = ch%'\\' then lexString r' (buf ++ [d]) n
        else lexString r' (buf ++ [d]) (n + 1)
    else if c = 10 then ⟨.error, r, n + 1⟩
    else lexString r (buf ++ [c]) n

/-- The last part of input_gettkn, /repo/src/cfgparser.c:690-704: `buf` is what was collected, `digits` whether the token may be a number; `t` is not empty. -/
def lexWord (buf : Bytes) (digits : Bool) (t : Bytes) : LexRes :=
  let w := t.takeWhile nonSpace
  ⟨if digits && w.all isDigit then .number (cText (buf ++ w)) else .literal (cText (buf ++ w)), t.dropWhile nonSpace, 0⟩

/-- A token that begins with `c`, which is no space, quote or comment sign: /repo/src/cfgparser.c:673-704 -/
def lexUnquoted (c : UInt8) (t : Bytes) : LexRes :=
  if isIdentStart c then
    let r := t.dropWhile isIdentCont
    match r with
    | [] => ⟨.ident (cText (t.takeWhile isIdentCont)), [], 0⟩
    | d :: _ => if isSpace d then ⟨.ident (cText (t.takeWhile isIdentCont)), r, 0⟩ else lexWord (t.takeWhile isIdentCont) (isDigit d) r
  else lexWord [] (isDigit c) t

/-- input_gettkn without tokens put back, /repo/src/cfgparser.c:604-711 -/
def lexTok (s : Bytes) : LexRes :=
  let t := s.dropWhile isHsp
  match t with
  | [] => ⟨.eof, [], 0⟩
  | c :: r =>
    if c = ch%'#' then
      match r.dropWhile notNl with
      | [] => ⟨.eof, [], 0⟩
      | _ :: r' => ⟨.nl, r', 0⟩
    else if c = 10 then ⟨.nl, r, 0⟩
    else if c = ch%'"' then lexString r [] 0
    else lexUnquoted c t

/-! ### Text blocks -/

/-- What cfg_read_to_end finds at the end of a line, /repo/src/cfgparser.c:893-928: `buf` is the text without this newline.  The result is the text before the
line if the line consists of "End", else `none`.  If the buffer is empty, the byte before its beginning is read (:900-910). -/
def endLine (buf : Bytes) : Res (Option Bytes) :=
  if buf = [] then .ub
  else
    let tail := (buf.reverse.takeWhile notNl).reverse
    -- the byte at the beginning of the buffer is never taken for a newline
    let line := if buf.length ≤ tail.length + 1 then buf else tail
    let w := ((line.dropWhile isSpace).reverse.dropWhile isSpace).reverse
    .ok (if w.length = 3 ∧ ciEq w b!"end" then some (buf.take (buf.length - line.length)) else none)

/-- The loop of cfg_read_to_end, /repo/src/cfgparser.c:883-932: the text and the rest, `none` at the end of the file -/
def readToEndLoop : Bytes → Bytes → Res (Option (Bytes × Bytes))
  | [], _ => .ok none
  | c :: r, buf =>
    if c = 10 then
      match endLine buf with
      | .ub => .ub
      | .ok (some t) => .ok (some (t, r))
      | .ok none => readToEndLoop r (buf ++ [c])
    else readToEndLoop r (buf ++ [c])

/-- cfg_read_to_end, /repo/src/cfgparser.c:860-933, without tokens put back, as read_resolv_text calls it (/repo/src/config.c:4409-4439) after the end of the line.
The caller copies the result as a C string: a NUL byte in the text would end it. -/
def readToEnd (s : Bytes) : Res (Option (Bytes × Bytes)) := readToEndLoop s []

/-! ### Values -/

/-- gettkn_expect_mask, /repo/src/cfgparser.c:808-835, for tokens accepted by `ok`.  T_MASK_ISSET (/repo/src/cfgparser.h:82-83) shifts by a negative number
if the token is a newline, which is undefined. -/
def expectTok (ok : Tok → Bool) (t : Tok) : Res (Option Tok) :=
  match t with
  | .eof => .ok none
  | .error => .ok none
  | .nl => .ub
  | t => .ok (if ok t then some t else none)

/-- T_BIT (T_NUMBER) -/
def isNumTok : Tok → Bool
  | .number _ => true
  | _ => false
/-- T_BIT (T_STRING) -/
def isStrTok : Tok → Bool
  | .string _ => true
  | _ => false
/-- T_UNQ, /repo/src/cfgparser.h:86 -/
def isUnqTok : Tok → Bool
  | .ident _ => true
  | .number _ => true
  | .literal _ => true
  | _ => false

/-- tok->str -/
def Tok.text : Tok → Bytes
  | .ident s => s
  | .number s => s
  | .string s => s
  | .literal s => s
  | _ => []

/-- A setter: the value stored, `none` if the statement is refused -/
def withTok {α : Type} (ok : Tok → Bool) (t : Tok) (f : Bytes → Option α) : Res (Option α) :=
  match expectTok ok t with
  | .ub => .ub
  | .ok none => .ok none
  | .ok (some u) => .ok (f u.text)

/-- cfg_assign_unsigned (and cfg_assign_timeout), /repo/src/cfgparser.c:1279-1298 -/
def assignUnsigned (t : Tok) : Res (Option Nat) :=
  withTok isNumTok t fun s =>
    match strtoul10 s with
    | (some n, []) => if n > 2 ^ 32 - 1 then none else some n
    | _ => none

/-- cfg_assign_int, /repo/src/cfgparser.c:1300-1319 -/
def assignInt (t : Tok) : Res (Option Int) :=
  withTok isNumTok t fun s =>
    match strtol10 s with
    | (n, false, []) => if n < -(2 ^ 31) ∨ n > 2 ^ 31 - 1 then none else some n
    | _ => none

/-- cfg_assign_int_range, /repo/src/cfgparser.c:1321-1341 -/
def assignRange (min max : Int) (t : Tok) : Res (Option Int) :=
  match assignInt t with
  | .ok (some n) => .ok (if (min ≥ 0 ∧ n < min) ∨ (max > 0 ∧ n > max) then none else some n)
  | r => r

/-- An octal digit -/
def isOctal (c : UInt8) : Bool := 48 ≤ c && c ≤ 55

/-- strtoul (s, &end, 8) for a text that consists of digits: the value (`none`: ERANGE) and the rest -/
def strtoul8 (s : Bytes) : Option Nat × Bytes :=
  let ds := s.takeWhile isOctal
  let v := ds.foldl (fun a c => a * 8 + (c.toNat - 48)) 0
  (if v < 2 ^ 64 then some v else none, s.dropWhile isOctal)

/-- cfg_assign_mode, /repo/src/cfgparser.c:1343-1359: the result of strtoul is stored in a signed long; the token is not checked. -/
def assignMode (t : Tok) : Res (Option Nat) :=
  match expectTok isNumTok t with
  | .ub => .ub
  | .ok none => .ub
  | .ok (some u) =>
    match strtoul8 u.text with
    | (some n, []) =>
      let l : Int := if n < 2 ^ 63 then n else (n : Int) - 2 ^ 64
      .ok (if l > 0o777 then none else some (n % 2 ^ 32))
    | _ => .ok none

/-- cfg_assign_bool, /repo/src/cfgparser.c:1250-1277 -/
def assignBool (t : Tok) : Res (Option Bool) :=
  withTok isUnqTok t fun s =>
    if s = b!"1" ∨ s = b!"yes" ∨ s = b!"true" ∨ s = b!"on" then some true
    else if s = b!"0" ∨ s = b!"no" ∨ s = b!"false" ∨ s = b!"off" then some false
    else none

/-- kw_to_tok, /repo/src/cfgparser.c:147-157 -/
def kwToTok (tab : List (Bytes × Nat)) (ci : Bool) (name : Bytes) : Option Nat :=
  (tab.find? fun e => if ci then ciEq e.1 name else e.1 == name).map (·.2)

/-- The status codes accepted by Redirect: atoi and a switch, /repo/src/config.c:1643-1660 -/
def redirectCode (s : Bytes) : Option Nat :=
  let n := intOfLong (strtol10 s).1
  if n = 301 then some 301 else if n = 302 then some 302 else if n = 303 then some 303 else if n = 307 then some 307 else if n = 308 then some 308 else none

/-- parse_log_level for a number, /repo/src/config.c:2922-2940: `formats` is the number of formats defined. -/
def logLevelNum (formats : Nat) (s : Bytes) : Option Nat :=
  match strtol10 s with
  | (n, false, []) => if n < 0 ∨ n > 2 ^ 31 - 1 then none else if n < formats then some n.toNat else none
  | _ => none

end Pound
