import Verif.Model.Input
import Verif.Model.Log

/-!
Places in configuration files: /repo/src/cfgparser.c:178-271, 549-711.

What Model/Lexer.lean leaves out.  Numbers are integers without bound: files have less than 2^31 lines and columns.  cfg_read_to_end is left out.
-/

namespace Pound

/-- The place in struct cfginput: `locus` and `prev_col`, /repo/src/cfgparser.c:501-502 -/
structure LPos where
  line : Int
  col : Int
  prev : Int
deriving DecidableEq, Repr

/-- input_open, /repo/src/cfgparser.c:544-545, after memset (:531) -/
def LPos.start : LPos := ⟨1, 0, 0⟩

/-- input_getc, /repo/src/cfgparser.c:549-564, when it returns `c` -/
def LPos.get (p : LPos) (c : UInt8) : LPos :=
  if c = 10 then ⟨p.line + 1, 0, p.col⟩ else if c = 9 then { p with col := p.col + 8 } else { p with col := p.col + 1 }

/-- input_ungetc, /repo/src/cfgparser.c:566-580 -/
def LPos.unget (p : LPos) (c : UInt8) : LPos := if c = 10 then { p with line := p.line - 1, col := p.prev } else { p with col := p.col - 1 }

/-- Calls of input_getc that return the bytes of a text -/
def LPos.gets (p : LPos) (s : Bytes) : LPos := s.foldl LPos.get p

/-- The place of the token '\n', /repo/src/cfgparser.c:628-630 -/
def LPos.atNl (p : LPos) : LPos := ⟨p.line - 1, p.prev, p.prev⟩

/-- A quoted string after its opening quote, /repo/src/cfgparser.c:641-668: where it ends and the places of messages -/
def strLoc : Bytes → LPos → LPos × List LPos
  | [], p => (p, [p])
  | c :: r, p =>
    let p1 := p.get c
    if c = ch%'"' then (p1, [])
    else if c = ch%'\\' then
      match r with
      | [] => (p1, [p1])
      | d :: r' =>
        let p2 := p1.get d
        if d = 10 then (p2, [p2, p2])
        else
          let x := strLoc r' p2
          if d = ch%'"' ∨ d = ch%'\\' then x else (x.1, p2 :: x.2)
    else if c = 10 then (p1, [p1])
    else strLoc r p1

/-- A token and its place, struct token, /repo/src/cfgparser.h:101-106; the place after it; and the places of messages -/
structure LocRes where
  tok : Tok
  beg : LPos
  fin : LPos
  rest : Bytes
  msgs : List LPos
deriving DecidableEq, Repr

/-- input_gettkn without tokens put back, /repo/src/cfgparser.c:604-711; `old` is where the last token began.  The token is that of `lexTok`. -/
def lexLoc (s : Bytes) (p old : LPos) : LocRes :=
  let l := lexTok s
  let p1 := p.gets (s.takeWhile isHsp)
  match s.dropWhile isHsp with
  | [] => ⟨l.tok, old, p1, l.rest, []⟩
  | c :: r =>
    let p2 := p1.get c
    if c = ch%'#' then
      let p3 := p2.gets (r.takeWhile notNl)
      match r.dropWhile notNl with
      | [] => ⟨l.tok, old, p3, l.rest, []⟩
      | n :: _ => ⟨l.tok, (p3.get n).atNl, p3.get n, l.rest, []⟩
    else if c = 10 then ⟨l.tok, p2.atNl, p2, l.rest, []⟩
    else if c = ch%'"' then ⟨l.tok, p2, (strLoc r p2).1, l.rest, (strLoc r p2).2⟩
    else
      let p3 := p2.gets (r.takeWhile nonSpace)
      match r.dropWhile nonSpace with
      | [] => ⟨l.tok, p2, p3, l.rest, []⟩
      | d :: _ => ⟨l.tok, p2, (p3.get d).unget d, l.rest, []⟩

/-- The tokens of a file, at most `n` of them -/
def locate : Nat → Bytes → LPos → LPos → List LocRes
  | 0, _, _, _ => []
  | n + 1, s, p, old =>
    let x := lexLoc s p old
    if x.tok = .eof then [] else x :: locate n x.rest x.fin x.beg

/-- stringbuf_format_locus_point, /repo/src/cfgparser.c:178-185 -/
def pointText (file : Bytes) (p : LPos) : Bytes := file ++ b!":" ++ decInt p.line ++ if p.col ≠ 0 then b!"." ++ decInt p.col else []

/-- stringbuf_format_locus_range, /repo/src/cfgparser.c:194-219, for two places in the same file -/
def rangeText (file : Bytes) (b e : LPos) : Bytes :=
  pointText file b ++
    if b.line ≠ e.line then b!"-" ++ decInt e.line ++ (if e.col ≠ 0 then b!"." ++ decInt e.col else [])
    else if b.col ≠ 0 ∧ b.col ≠ e.col then b!"-" ++ decInt e.col
    else []

/-- vconf_error_at_locus_range, /repo/src/cfgparser.c:221-236 -/
def errorAt (file : Bytes) (b e : LPos) (msg : Bytes) : Bytes := rangeText file b e ++ b!": " ++ msg

end Pound
