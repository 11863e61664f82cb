import Verif.Model.Bauth

/-!
Host conditions: /repo/src/config.c:1138-1314, 1363-1483, 1600-1606; /repo/src/http.c:2986-2998, 3073-3075.
-/

namespace Pound

/-! ### Regular expressions

regcomp and regexec of the C library, for the extended regular expressions these conditions are made of: ordinary and escaped characters, `.`,
`[[:space:]]`, `*`, `^`, `$` and `|`.  Others give `none`. -/

/-- What matches one character -/
inductive EAtom where
  | chr (c : UInt8)
  | any
  | space
deriving DecidableEq, Repr

/-- The tokens of an expression -/
inductive ETok where
  | atom (a : EAtom)
  | star
  | bol
  | eol
  | bar
deriving DecidableEq, Repr

/-- The parts of a branch -/
inductive EItem where
  | one (a : EAtom)
  | star (a : EAtom)
  | bol
  | eol
deriving DecidableEq, Repr

/-- The first token and what follows it (the text is not empty) -/
def ereTok (s : Bytes) : Option (ETok × Bytes) :=
  match s with
  | [] => none
  | c :: r =>
    if c = ch%'\\' then
      match r with
      | [] => none
      | d :: r' => some (.atom (.chr d), r')
    else if c = ch%'[' then
      if s.take 11 = b!"[[:space:]]" then some (.atom .space, s.drop 11) else none
    else if c = ch%'.' then some (.atom .any, r)
    else if c = ch%'*' then some (.star, r)
    else if c = ch%'^' then some (.bol, r)
    else if c = ch%'$' then some (.eol, r)
    else if c = ch%'|' then some (.bar, r)
    else if c = ch%'(' ∨ c = ch%')' ∨ c = ch%'{' ∨ c = ch%'+' ∨ c = ch%'?' then none
    else some (.atom (.chr c), r)

/-- All tokens; `fuel` is the length of the text. -/
def ereToks : Nat → Bytes → Option (List ETok)
  | 0, s => if s = [] then some [] else none
  | fuel + 1, s =>
    if s = [] then some []
    else
      match ereTok s with
      | none => none
      | some (t, r) => (ereToks fuel r).map (t :: ·)

/-- Put a part in front of the first branch -/
def consItem (i : EItem) : List (List EItem) → List (List EItem)
  | [] => [[i]]
  | b :: r => (i :: b) :: r

/-- The branches of an expression; a `*` that follows no character is outside of what is modelled. -/
def ereBranches : List ETok → Option (List (List EItem))
  | [] => some [[]]
  | .bar :: r => (ereBranches r).map ([] :: ·)
  | .star :: _ => none
  | .bol :: r => (ereBranches r).map (consItem .bol)
  | .eol :: r => (ereBranches r).map (consItem .eol)
  | .atom a :: .star :: r => (ereBranches r).map (consItem (.star a))
  | .atom a :: r => (ereBranches r).map (consItem (.one a))

/-- regcomp with REG_EXTENDED, /repo/src/genpat.c:103-122 -/
def ereComp (pat : Bytes) : Option (List (List EItem)) := (ereToks pat.length pat).bind ereBranches

/-- Whether a character matches, with REG_ICASE if `ic` -/
def EAtom.ok (ic : Bool) : EAtom → UInt8 → Bool
  | .chr c, d => if ic then ciEq [c] [d] else c == d
  | .any, _ => true
  | .space, d => isSpace d

/-- `EreSeq ic parts start s`: the parts match some beginning of `s`; `start` tells whether `s` is the whole subject.  REG_NEWLINE is not set. -/
inductive EreSeq (ic : Bool) : List EItem → Bool → Bytes → Prop
  | nil {b : Bool} {s : Bytes} : EreSeq ic [] b s
  | one {a : EAtom} {c : UInt8} {r : List EItem} {b : Bool} {s : Bytes} : a.ok ic c = true → EreSeq ic r false s → EreSeq ic (.one a :: r) b (c :: s)
  | stop {a : EAtom} {r : List EItem} {b : Bool} {s : Bytes} : EreSeq ic r b s → EreSeq ic (.star a :: r) b s
  | more {a : EAtom} {c : UInt8} {r : List EItem} {b : Bool} {s : Bytes} :
      a.ok ic c = true → EreSeq ic (.star a :: r) false s → EreSeq ic (.star a :: r) b (c :: s)
  | bol {r : List EItem} {s : Bytes} : EreSeq ic r true s → EreSeq ic (.bol :: r) true s
  | eol {r : List EItem} {b : Bool} : EreSeq ic r b [] → EreSeq ic (.eol :: r) b []

/-- regexec, /repo/src/genpat.c:132-159: some branch matches somewhere in the subject. -/
def EreExec (ic : Bool) (branches : List (List EItem)) (subj : Bytes) : Prop :=
  ∃ br ∈ branches, ∃ pre suf, subj = pre ++ suf ∧ EreSeq ic br pre.isEmpty suf

/-! ### Conditions -/

/-- The kinds of patterns (GENPAT_*, /repo/src/genpat.h), those that are no Perl expressions -/
inductive PatKind where
  | posix | exact | beg | suffix | contain
deriving DecidableEq, Repr

/-- The characters escaped by stringbuf_escape_regex, /repo/src/config.c:1143 -/
def isEreSpecial (c : UInt8) : Bool := b!"\\[]{}().*+?".contains c

/-- stringbuf_escape_regex, /repo/src/config.c:1138-1154 -/
def escapeRegex (s : Bytes) : Bytes := s.flatMap fun c => if isEreSpecial c then [ch%'\\', c] else [c]

/-- host_prefix_regex, /repo/src/config.c:1267-1314: the expression, and the kind it changes *gp_type to -/
def hostRegex (m : PatKind) (e : Bytes) : Bytes × PatKind :=
  match m with
  | .posix => (b!"^Host:[[:space:]]*" ++ (if e.head? = some ch%'^' then e.drop 1 else e), .posix)
  | .exact => (b!"^Host:[[:space:]]*" ++ escapeRegex e, .posix)
  | .beg => (b!"^Host:[[:space:]]*" ++ escapeRegex e, .posix)
  | .suffix => (b!"^Host:[[:space:]]*.*" ++ escapeRegex e ++ b!"$", .posix)
  | .contain => (b!"^Host:[[:space:]]*.*" ++ escapeRegex e, .posix)

/-- White space removed from the end of a line, /repo/src/config.c:1416-1418 -/
def isBlankNl (c : UInt8) : Bool := c == 32 || c == 9 || c == 10

/-- A line of a file of patterns, /repo/src/config.c:1415-1421 -/
def patLine (buf : Bytes) : Option Bytes :=
  let p := (buf.takeWhile notNul).dropWhile isBlank
  let q := (p.reverse.dropWhile isBlankNl).reverse
  if q = [] ∨ p.head? = some ch%'#' then none else some q

/-- The lines of a file of patterns, /repo/src/config.c:1409-1421 -/
def patLines : Nat → Bytes → List Bytes
  | 0, _ => []
  | f + 1, s =>
    if s = [] then []
    else
      let r := fgets s
      (patLine r.1).toList ++ patLines f r.2

/-- The expressions made of the lines, /repo/src/config.c:1423-1432: the variable gp_type is changed by the first one. -/
def hostRegexes (m : PatKind) : List Bytes → List Bytes
  | [] => []
  | e :: r => (hostRegex m e).1 :: hostRegexes (hostRegex m e).2 r

/-- match_headers, /repo/src/http.c:2986-2998, with an expression -/
def headersMatch (ic : Bool) (pat : Bytes) (headers : List Bytes) : Prop :=
  ∃ h ∈ headers, ∃ br, ereComp pat = some br ∧ EreExec ic br h

/-- Host "name" (with -case if not `ic`), /repo/src/config.c:1454-1467, 1600-1606; /repo/src/http.c:3073-3075 -/
def hostHolds (m : PatKind) (ic : Bool) (name : Bytes) (headers : List Bytes) : Prop := headersMatch ic (hostRegex m name).1 headers

/-- Host -file "name", /repo/src/config.c:1383-1453: the disjunction of the lines -/
def hostFileHolds (m : PatKind) (ic : Bool) (text : Bytes) (headers : List Bytes) : Prop :=
  ∃ pat ∈ hostRegexes m (patLines text.length text), headersMatch ic pat headers

end Pound
