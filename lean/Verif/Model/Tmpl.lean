import Verif.Model.Json
import Verif.Model.Balance

/-!
The template engine of poundctl: /repo/src/tmpl.c, the parser (lines 1538-3119).  What
templates do when they run is in Model/TmplRun.lean.

The text has no NUL byte (it ends at the first one).  Memory allocation succeeds.  Pointers to
templates are represented by their names: `template_define` never removes a template from the
list and keeps the structure when a template is defined again.  Bytes from 128 on are neither
letters, digits nor white space.
-/

namespace Pound

/-- How a piece of the engine ends: with a value, with `exit (1)` after an error message, with
a failed assertion, with undefined behaviour, or not at all (within the given number of
steps). -/
inductive TOut (α : Type) where
  | ok (a : α)
  | die
  | abort
  | ub
  | hang
deriving DecidableEq

/-- One piece after another -/
def TOut.bind {α β} (x : TOut α) (k : α → TOut β) : TOut β :=
  match x with
  | .ok a => k a
  | .die => .die
  | .abort => .abort
  | .ub => .ub
  | .hang => .hang

instance : Monad TOut where
  pure := .ok
  bind := TOut.bind

/-- enum of tokens and struct tmpl_tok, /repo/src/tmpl.c:1538-1578.  `text none`: a text token
whose string has been taken over (v.str == NULL). -/
inductive TTok where
  | eof
  | text (s : Option Bytes)
  | str (s : Bytes)
  | num (n : Int)
  | dot
  | attr (s : Bytes)
  | var (s : Bytes)
  | ident (s : Bytes)
  | beg
  | fin
  | err
  | ch (c : UInt8)
deriving DecidableEq

/-- TMPL_ERR_*, /repo/src/pound.h:1182-1190 -/
inductive TErr where
  | eof | range | badtok | notmpl
deriving DecidableEq

/-- The functions of funtab, /repo/src/tmpl.c:1502-1523 -/
inductive TFun where
  | and | or | index | len | not | eq | ne | lt | le | gt | ge | even | printf | typeof
  | exists | add | sub | mul | div
deriving DecidableEq

/-- funtab, /repo/src/tmpl.c:1502-1523 -/
def funTab : List (Bytes × TFun) :=
  [(b!"and", .and), (b!"or", .or), (b!"index", .index), (b!"len", .len), (b!"not", .not),
   (b!"eq", .eq), (b!"ne", .ne), (b!"lt", .lt), (b!"le", .le), (b!"gt", .gt), (b!"ge", .ge),
   (b!"even", .even), (b!"printf", .printf), (b!"typeof", .typeof), (b!"exists", .exists),
   (b!"add", .add), (b!"sub", .sub), (b!"mul", .mul), (b!"div", .div)]

/-- find_func, /repo/src/tmpl.c:1525-1536 -/
def findFunc (name : Bytes) : Option TFun := (funTab.find? (fun p => p.1 == name)).map (·.2)

/-- struct tmpl_command, /repo/src/tmpl.c:142-172; a pipeline is a list of commands.  The three
kinds of constants are the values TMPL_COMMAND_ARG is created with in scan_arg. -/
inductive TCmd where
  | int (n : Int)
  | str (s : Bytes)
  | bool (b : Bool)
  | call (f : TFun) (args : List (List TCmd))
  | dot
  | attr (name : Bytes)
  | var (name : Bytes)
  | pipe (p : List TCmd)
  | withdot (dot body : List TCmd)

/-- struct tmpl_action, /repo/src/tmpl.c:2122-2175.  The branches are written in the order
branches[0] (else), branches[1].  `text none`: the text is a NULL pointer. -/
inductive TAct where
  | text (s : Option Bytes)
  | pipe (p : List TCmd)
  | cond (p : List TCmd) (els thn : List TAct)
  | wth (var : Option Bytes) (p : List TCmd) (els thn : List TAct)
  | range (v0 v1 : Option Bytes) (p : List TCmd) (els thn : List TAct)
  | brk
  | cont
  | block (name : Bytes) (arg : List TCmd)

/-- struct tmpl_input, /repo/src/tmpl.c:1580-1588.  `back` is the text read, the last byte
first; `rest` is the text not read.  The field start is only used within one function. -/
structure TIn where
  back : Bytes
  rest : Bytes
  tok : TTok
  ready : Bool
  err : Option TErr
deriving DecidableEq

/-! ### Tokens -/

/-- tmpl_input_error, /repo/src/tmpl.c:1599-1605 -/
def TIn.fail (s : TIn) (e : TErr) : TIn := { s with err := some e, tok := .err }

/-- tmpl_input_putback, /repo/src/tmpl.c:1635-1640 -/
def putback (s : TIn) : TOut TIn := if s.ready then .abort else .ok { s with ready := true }

/-- isalnum (c) || c == '_', /repo/src/tmpl.c:1790, :1852 -/
def identCh (c : UInt8) : Bool := isAlnum c || c == 95

/-- The characters of an attribute name, /repo/src/tmpl.c:1828-1829 -/
def attrCh (c : UInt8) : Bool := isAlnum c || c == 95 || c == 45

/-- The end of a name, /repo/src/tmpl.c:1790-1793 with tmpl_input_token :1660-1690: `w` are the
characters of the name, `r` is the text after it.  When the text ends there, tmpl_getchar has
not advanced and tmpl_input_less gives back the last character of the name; if the name
becomes empty, the token is the end of the text. -/
def tLexWord (s : TIn) (w r : Bytes) (mk : Bytes → TTok) : TIn :=
  let t := if r = [] then w.dropLast else w
  let r' := if r = [] then w.drop (w.length - 1) else r
  { s with back := t.reverse ++ s.back, rest := r', tok := if t = [] then .eof else mk t }

/-- How the digits of a number are read -/
inductive TNumRes where
  | done (n : Nat) (w r : Bytes)
  | range (w r : Bytes)
  | ub

/-- The digits of a number, /repo/src/tmpl.c:1800-1807 and :1840-1846; `w` are the digits read,
the last one first.  The comparison does not guard the multiplication. -/
def lexDigits (n : Nat) (w : Bytes) : Bytes → TNumRes
  | [] => .done n w []
  | c :: r =>
    if isDigit c then
      let d := c.toNat - 48
      if longMax - n < d then .range (c :: w) r
      else if longMax < n * 10 + d then .ub
      else lexDigits (n * 10 + d) (c :: w) r
    else .done n w (c :: r)

/-- The token for a number, /repo/src/tmpl.c:1808-1811 and :1847-1850; the last digit is given
back if the text ends there. -/
def lexNumber (s : TIn) (neg : Bool) (r : Bytes) : TOut TIn :=
  match lexDigits 0 [] r with
  | .ub => .ub
  | .range w r => .ok ({ s with back := w ++ s.back, rest := r }.fail .range)
  | .done n w r =>
    let v : Int := if neg then -(n : Int) else (n : Int)
    if r = [] then
      .ok { s with back := w.drop 1 ++ s.back, rest := w.take 1, tok := .num v }
    else .ok { s with back := w ++ s.back, rest := r, tok := .num v }

/-- The loop that looks for the end of a string, /repo/src/tmpl.c:1816-1823: the bytes between
the quotes and the text after the closing one; `none`: the text ends.  A quote after a
backslash ends the string as well. -/
def lexStr : Bytes → Option (Bytes × Bytes)
  | [] => none
  | c :: r =>
    if c = 92 then
      match r with
      | [] => none
      | d :: r' => if d = 34 then some ([92], r') else (lexStr r').map (fun p => (92 :: d :: p.1, p.2))
    else if c = 34 then some ([], r)
    else (lexStr r).map (fun p => (c :: p.1, p.2))

/-- What an escape sequence stands for, /repo/src/tmpl.c:1704-1747 -/
def tEscape (d : UInt8) : Bytes :=
  if d = 92 then [92]
  else if d = 34 then [34]
  else if d = ch%'a' then [7]
  else if d = ch%'b' then [8]
  else if d = ch%'f' then [12]
  else if d = ch%'n' then [10]
  else if d = ch%'r' then [13]
  else if d = ch%'t' then [9]
  else if d = ch%'v' then [11]
  else [92, d]

/-- The value of a string, /repo/src/tmpl.c:1692-1753.  A backslash at the end is followed by
the closing quote. -/
def tUnescape : Bytes → Bytes
  | [] => []
  | [c] => if c = 92 then [34] else [c]
  | c :: d :: r => if c = 92 then tEscape d ++ tUnescape r else c :: tUnescape (d :: r)

/-- How a comment ends -/
inductive TCom where
  | done (w r : Bytes)
  | eof (w : Bytes)
  | hang

/-- The loop that looks for the end of a comment, /repo/src/tmpl.c:1860-1869; `w` is the text
read, the last byte first.  If the text ends with an asterisk, that is given back and read
again, for ever. -/
def lexComment (w : Bytes) : Bytes → TCom
  | [] => .eof w
  | c :: r =>
    if c = 42 then
      match r with
      | [] => .hang
      | d :: r' => if d = 47 then .done (47 :: 42 :: w) r' else lexComment (c :: w) r
    else lexComment (c :: w) r

/-- The token that starts with the byte `c`, which is not white space, at `s.rest = c :: r`,
/repo/src/tmpl.c:1784-1901.  `again`: what is done after a comment. -/
def lexFrom (again : TIn → TOut TIn) (s : TIn) (c : UInt8) (r : Bytes) : TOut TIn :=
  let next (w r' : Bytes) (t : TTok) : TOut TIn :=
    .ok { s with back := w ++ s.back, rest := r', tok := t }
  if isAlpha c then .ok (tLexWord s (c :: r.takeWhile identCh) (r.dropWhile identCh) .ident)
  else if isDigit c then lexNumber s false (c :: r)
  else if c = 34 then
    match lexStr r with
    | none => .ok ({ s with back := r.reverse ++ c :: s.back, rest := [] }.fail .eof)
    | some (raw, r') => next (34 :: raw.reverse ++ [34]) r' (.str (tUnescape raw))
  else if c = 46 then
    if isAlpha (r.headD 0) then
      .ok (tLexWord { s with back := c :: s.back } (r.takeWhile attrCh) (r.dropWhile attrCh) .attr)
    else next [c] r .dot
  else if c = 45 && isDigit (r.headD 0) then
    lexNumber { s with back := c :: s.back } true r
  else if c = 36 && isAlpha (r.headD 0) then
    .ok (tLexWord { s with back := c :: s.back } (r.takeWhile identCh) (r.dropWhile identCh) .var)
  else if c = 47 && r.headD 0 = 42 then
    match lexComment [] (r.drop 1) with
    | .done w r' => again { s with back := w ++ 42 :: 47 :: s.back, rest := r' }
    | .eof w => .ok ({ s with back := w ++ 42 :: 47 :: s.back, rest := [] }.fail .eof)
    | .hang => .hang
  else if c = 123 && r.headD 0 = 123 then
    match r.drop 1 with
    | 45 :: d :: r' =>
      if isSpace d then next [d, 45, 123, 123] r' .beg else next [123, 123] (r.drop 1) .beg
    | _ => next [123, 123] (r.drop 1) .beg
  else if c = 125 && r.headD 0 = 125 then next [125, 125] (r.drop 1) .fin
  else if c = 45 && 1 < s.back.length && isSpace (s.back.headD 0)
      && r.headD 0 = 125 && (r.drop 1).headD 0 = 125 then
    let r' := r.drop 2
    next ((r'.takeWhile isSpace).reverse ++ [125, 125, 45]) (r'.dropWhile isSpace) .fin
  else next [c] r (.ch c)

/-- The text read after the label `again` of tmpl_gettok, /repo/src/tmpl.c:1776-1901 -/
def tLexTok : Nat → TIn → TOut TIn
  | 0, _ => .hang
  | f + 1, s =>
    let s1 := { s with back := (s.rest.takeWhile isSpace).reverse ++ s.back
                       rest := s.rest.dropWhile isSpace }
    match s1.rest with
    | [] => .ok { s1 with tok := .eof }
    | c :: r => lexFrom (tLexTok f) s1 c r

/-- tmpl_gettok, /repo/src/tmpl.c:1764-1902.  A token put back is returned; an error stays. -/
def gettok (s : TIn) : TOut TIn :=
  if s.ready then .ok { s with ready := s.tok == .err } else tLexTok (s.rest.length + 1) s

/-- The text up to the first "{{", and the rest, /repo/src/tmpl.c:1913-1932 -/
def splitBeg : Bytes → Bytes × Bytes
  | [] => ([], [])
  | c :: r =>
    if c = 123 ∧ r.headD 0 = 123 then ([], c :: r)
    else ((c :: (splitBeg r).1), (splitBeg r).2)

/-- "{{" is followed by a minus sign and white space, /repo/src/tmpl.c:1917; `r` is the text
from "{{" on -/
def trimMark (r : Bytes) : Bool := (r.drop 2).headD 0 == 45 && isSpace ((r.drop 3).headD 0)

/-- The text without white space at the end, /repo/src/tmpl.c:1938-1940 -/
def trimEnd (t : Bytes) : Bytes := (t.reverse.dropWhile isSpace).reverse

/-- tmpl_gettext, /repo/src/tmpl.c:1904-1955 -/
def gettext (s : TIn) : TOut TIn :=
  let t := (splitBeg s.rest).1
  let r := (splitBeg s.rest).2
  if t = [] ∧ r ≠ [] then
    let k := if trimMark r then 4 else 2
    .ok { s with back := (r.take k).reverse ++ s.back, rest := r.drop k, tok := .beg }
  else
    let s' := { s with back := t.reverse ++ s.back, rest := r }
    let t' := if trimMark r then trimEnd t else t
    if t' = [] then gettok s' else .ok { s' with tok := .text (some t') }

/-! ### Pipelines -/

mutual
/-- scan_arg, /repo/src/tmpl.c:1973-2094: failed or not, and the commands added to the
pipeline.  An unknown function name gives the token for the end of the text, since start and
off are equal then (:2027-2032); the command added in that case is left out, it is never
run. -/
def scanArg : Nat → TIn → TOut (TIn × Bool × List TCmd)
  | 0, _ => .hang
  | f + 1, s => do
    let s ← gettok s
    match s.tok with
    | .dot => pure (s, false, [.dot])
    | .attr n => scanAttrs f s (.attr n)
    | .var n => scanAttrs f s (.var n)
    | .num n => pure (s, false, [.int n])
    | .str t => pure (s, false, [.str t])
    | .ident n =>
      if n = b!"true" then pure (s, false, [.bool true])
      else if n = b!"false" then pure (s, false, [.bool false])
      else
        match findFunc n with
        | none => pure ({ s with tok := .eof }, true, [])
        | some fn => do
          let (s, args) ← scanArgs f s
          pure (s, false, [.call fn args])
    | .ch c =>
      if c = 40 then do
        let (s, p) ← scanPipe f s
        if s.tok = .ch 41 then scanAttrs f s (.pipe p) else pure (s, true, [.pipe p])
      else do
        let s ← putback s
        pure (s, true, [])
    | _ => do
      let s ← putback s
      pure (s, true, [])
/-- The attributes after a value, /repo/src/tmpl.c:2066-2105 -/
def scanAttrs : Nat → TIn → TCmd → TOut (TIn × Bool × List TCmd)
  | 0, _, _ => .hang
  | f + 1, s, c =>
    if isSpace (s.rest.headD 0) then pure (s, false, [c])
    else do
      let s ← gettok s
      match s.tok with
      | .attr n => scanAttrs f s (.withdot [c] [.attr n])
      | _ => do
        let s ← putback s
        pure (s, false, [c])
/-- The arguments of a function, /repo/src/tmpl.c:2036-2049 -/
def scanArgs : Nat → TIn → TOut (TIn × List (List TCmd))
  | 0, _ => .hang
  | f + 1, s => do
    let (s, failed, p) ← scanArg f s
    if failed then pure (s, [])
    else do
      let (s, l) ← scanArgs f s
      pure (s, p :: l)
/-- scan_pipeline, /repo/src/tmpl.c:2109-2120; the type returned is that of the token in the
state. -/
def scanPipe : Nat → TIn → TOut (TIn × List TCmd)
  | 0, _ => .hang
  | f + 1, s => do
    let (s, failed, p) ← scanArg f s
    if failed then pure (s, p)
    else do
      let s ← gettok s
      if s.tok = .ch 124 then do
        let (s, l) ← scanPipe f s
        pure (s, p ++ l)
      else pure (s, p)
end

/-! ### Actions -/

/-- The table PT_LOCAL, /repo/src/tmpl.c:2533-2539, :2600-2605, :2713-2717: none, "else" and
"end" of `if`, "else" and "end" of `with` and `range`, only "end". -/
inductive TLoc where
  | none | cond | wth | fin
deriving DecidableEq

/-- The parsers of actions, /repo/src/tmpl.c:2533-2539, :2600-2605, :2713-2723, :2946-2954 -/
inductive TParser where
  | if_ | with_ | range_ | block_ | define_ | template_ | elseif | elsewith | end_ | break_ | continue_
deriving DecidableEq

/-- top_parser_tab, /repo/src/tmpl.c:2946-2954 -/
def topTab : List (Bytes × TParser) :=
  [(b!"if", .if_), (b!"with", .with_), (b!"range", .range_), (b!"block", .block_),
   (b!"define", .define_), (b!"template", .template_)]

/-- The local tables, /repo/src/tmpl.c:2533-2539, :2600-2605, :2713-2717 -/
def locTab : TLoc → List (Bytes × TParser)
  | .none => []
  | .cond => [(b!"else", .elseif), (b!"end", .end_)]
  | .wth => [(b!"else", .elsewith), (b!"end", .end_)]
  | .fin => [(b!"end", .end_)]

/-- range_inherit, /repo/src/tmpl.c:2719-2723 -/
def rangeTab : List (Bytes × TParser) := [(b!"break", .break_), (b!"continue", .continue_)]

/-- find_action_parser, /repo/src/tmpl.c:2968-2979, with find_action_parser_def :2956-2966: the
tables in the order global, local, inherited (`inh`: within a range). -/
def findParser (loc : TLoc) (inh : Bool) (name : Bytes) : Option TParser :=
  ((topTab ++ locTab loc ++ if inh then rangeTab else []).find? (fun p => p.1 == name)).map (·.2)

/-- The state of the parser: the input, template_list (/repo/src/tmpl.c:3051), and whether the
tree of the template being read contains an action with variable names that have been freed
(/repo/src/tmpl.c:2654, :2747, :2760, :2768-2769). -/
structure TPs where
  inp : TIn
  defs : List (Bytes × List TAct)
  dang : Bool

/-- template_lookup, /repo/src/tmpl.c:3053-3063 -/
def tmplLookup (defs : List (Bytes × List TAct)) (name : Bytes) : Option (List TAct) :=
  (defs.find? (fun p => p.1 == name)).map (·.2)

/-- template_define, /repo/src/tmpl.c:3065-3082 -/
def tmplDefine (defs : List (Bytes × List TAct)) (name : Bytes) (as : List TAct) :
    List (Bytes × List TAct) :=
  if (tmplLookup defs name).isSome then
    defs.map (fun p => if p.1 = name then (p.1, as) else p)
  else defs ++ [(name, as)]

/-- TMPL_ACTION_*, /repo/src/tmpl.c:2458-2463 -/
inductive TRc where
  | ok | fin | err
deriving DecidableEq

/-- `if (!in->error) in->error = TMPL_ERR_BADTOK`, e.g. /repo/src/tmpl.c:2586-2587 -/
def TPs.bad (s : TPs) : TPs :=
  { s with inp := { s.inp with err := match s.inp.err with | some e => some e | none => some .badtok } }

/-- tmpl_gettok in the state of the parser -/
def TPs.tok (s : TPs) : TOut TPs := do
  let i ← gettok s.inp
  pure { s with inp := i }

/-- The variable of `with`, parse_with_var, /repo/src/tmpl.c:2628-2659: `none`: -1.  Setting
back in->off and in->start only affects the place of the error message. -/
def withVar (s : TPs) : TOut (TPs × Option (Option Bytes)) := do
  let s ← s.tok
  match s.inp.tok with
  | .var n => do
    let s ← s.tok
    if s.inp.tok = .ch 61 then pure (s, some (some n)) else pure ({ s with dang := true }, none)
  | .ch 95 => do
    let s ← s.tok
    if s.inp.tok = .ch 61 then pure (s, some none) else pure (s, none)
  | _ => do
    let i ← putback s.inp
    pure ({ s with inp := i }, some none)

/-- The rest of parse_range_vars after the first variable, /repo/src/tmpl.c:2744-2774 -/
def rangeVars2 (s : TPs) (v0 : Option Bytes) :
    TOut (TPs × Option (Option Bytes × Option Bytes)) := do
  let bad (s : TPs) (d : Bool) : TPs :=
    { s with inp := { s.inp with err := some .badtok }, dang := s.dang || d }
  let s ← s.tok
  if s.inp.tok ≠ .ch 44 then pure (bad s v0.isSome, none)
  else do
    let s ← s.tok
    match s.inp.tok with
    | .var n => do
      let s ← s.tok
      if s.inp.tok = .ch 61 then pure (s, some (v0, some n)) else pure (bad s true, none)
    | .ch 95 => do
      let s ← s.tok
      if s.inp.tok = .ch 61 then pure (s, some (v0, none)) else pure (bad s v0.isSome, none)
    | _ => pure (bad s v0.isSome, none)

/-- parse_range_vars, /repo/src/tmpl.c:2725-2775 -/
def rangeVars (s : TPs) : TOut (TPs × Option (Option Bytes × Option Bytes)) := do
  let s ← s.tok
  match s.inp.tok with
  | .var n => rangeVars2 s (some n)
  | .ch 95 => rangeVars2 s none
  | _ => do
    let i ← putback s.inp
    pure ({ s with inp := i }, some (none, none))

/-- scan_pipeline in the state of the parser, and whether it ended with "}}" -/
def TPs.pipe (f : Nat) (s : TPs) : TOut (TPs × List TCmd × Bool) := do
  let (i, p) ← scanPipe f s.inp
  pure ({ s with inp := i }, p, i.tok = .fin)

/-- The return value of if_action_parser and its like, /repo/src/tmpl.c:2594 -/
def TPs.rc (s : TPs) : TRc := if s.inp.err = none then .ok else .err

mutual
/-- scan_action, /repo/src/tmpl.c:2981-3042: the actions added to `head`, and those added to
the list of the `else` branch (data).  After an error the actions are not of interest, since
the template is freed. -/
def scanAction : Nat → TLoc → Bool → TPs → TOut (TPs × List TAct × List TAct)
  | 0, _, _, _ => .hang
  | f + 1, loc, inh, s => do
    let i ← gettext s.inp
    let s := { s with inp := i }
    match s.inp.tok with
    | .eof => pure (s, [], [])
    | .text t => do
      let (s, as, es) ← scanAction f loc inh { s with inp := { s.inp with tok := .text none } }
      pure (s, .text t :: as, es)
    | .beg => do
      let s ← s.tok
      match s.inp.tok with
      | .fin => scanAction f loc inh s
      | .ident n =>
        match findParser loc inh n with
        | some p => do
          let (s, rc, as, es) ← runParser f p inh s
          if rc = .err ∨ (s.inp.tok ≠ .fin ∧ s.inp.err = none) then pure (s.bad, [], [])
          else if rc = .fin then pure (s, as, es)
          else do
            let (s, as', es') ← scanAction f loc inh s
            pure (s, as ++ as', es')
        | none => scanPrint f loc inh s
      | _ => scanPrint f loc inh s
    | _ => pure ({ s with inp := { s.inp with err := some .badtok } }, [], [])
/-- An action that is a pipeline, /repo/src/tmpl.c:3023-3034, and what follows it -/
def scanPrint : Nat → TLoc → Bool → TPs → TOut (TPs × List TAct × List TAct)
  | 0, _, _, _ => .hang
  | f + 1, loc, inh, s => do
    let i ← putback s.inp
    let (s, p, fin) ← { s with inp := i }.pipe f
    if !fin then pure (s.bad, [], [])
    else do
      let (s, as, es) ← scanAction f loc inh s
      pure (s, .pipe p :: as, es)
/-- The parsers of actions: the return value, the actions added to `head` and those added to
the list of the `else` branch.  if_action_parser /repo/src/tmpl.c:2576-2595,
with_action_parser :2661-2683, range_action_parser :2777-2799, block_action_parser :2803-2858,
define_action_parser :2860-2902, template_action_parser :2904-2944, elseif_action_parser
:2541-2564, elsewith_action_parser :2607-2626, endif_action_parser :2566-2574,
break_action_parser :2685-2697, continue_action_parser :2699-2711. -/
def runParser : Nat → TParser → Bool → TPs → TOut (TPs × TRc × List TAct × List TAct)
  | 0, _, _, _ => .hang
  | f + 1, .if_, inh, s => do
    let (s, p, fin) ← s.pipe f
    if !fin then pure (s.bad, .err, [], [])
    else do
      let (s, thn, els) ← scanAction f .cond inh s
      pure (s, s.rc, [.cond p els thn], [])
  | f + 1, .with_, inh, s => do
    let (s, v) ← withVar s
    match v with
    | none => pure (s, .err, [], [])
    | some v => do
      let (s, p, fin) ← s.pipe f
      if !fin then pure (s.bad, .err, [], [])
      else do
        let (s, thn, els) ← scanAction f .wth inh s
        pure (s, s.rc, [.wth v p els thn], [])
  | f + 1, .range_, _, s => do
    let (s, v) ← rangeVars s
    match v with
    | none => pure (s, .err, [], [])
    | some (v0, v1) => do
      let (s, p, fin) ← s.pipe f
      if !fin then pure (s.bad, .err, [], [])
      else do
        let (s, thn, els) ← scanAction f .wth true s
        pure (s, s.rc, [.range v0 v1 p els thn], [])
  | f + 1, .block_, _, s => do
    let s ← s.tok
    match s.inp.tok with
    | .str name => do
      let (s, p, fin) ← s.pipe f
      if !fin then pure (s.bad, .err, [], [])
      else
        match tmplLookup s.defs name with
        | some _ => pure (s, .ok, [.block name p], [])
        | none => do
          let d := s.dang
          let (s, as, _) ← scanAction f .fin false s
          if s.inp.err ≠ none then pure ({ s with dang := d }, .err, [], [])
          else pure ({ s with defs := tmplDefine s.defs name as }, .ok, [.block name p], [])
    | _ => pure (s.bad, .err, [], [])
  | f + 1, .define_, _, s => do
    let s ← s.tok
    match s.inp.tok with
    | .str name => do
      let s ← s.tok
      if s.inp.tok ≠ .fin then pure (s.bad, .err, [], [])
      else do
        let d := s.dang
        let (s, as, _) ← scanAction f .fin false s
        if s.inp.err ≠ none then pure ({ s with dang := d }, .err, [], [])
        else pure ({ s with defs := tmplDefine s.defs name as }, .ok, [], [])
    | _ => pure (s.bad, .err, [], [])
  | f + 1, .template_, _, s => do
    let s ← s.tok
    match s.inp.tok with
    | .str name => do
      let (s, p, fin) ← s.pipe f
      if !fin then pure (s.bad, .err, [], [])
      else
        match tmplLookup s.defs name with
        | some _ => pure (s, .ok, [.block name p], [])
        | none => pure ({ s with inp := { s.inp with err := some .notmpl } }, .err, [], [])
    | _ => pure (s.bad, .err, [], [])
  | f + 1, .elseif, inh, s => do
    let s ← s.tok
    match s.inp.tok with
    | .ident n =>
      if n = b!"if" then do
        let (s, _, as, _) ← runParser f .if_ inh s
        pure (s, .fin, [], as)
      else pure (s, .err, [], [])
    | .fin => do
      let (s, as, _) ← scanAction f .fin inh s
      pure (s, .fin, [], as)
    | _ => pure (s, .err, [], [])
  | f + 1, .elsewith, inh, s => do
    let s ← s.tok
    if s.inp.tok = .fin then do
      let (s, as, _) ← scanAction f .fin inh s
      pure (s, .fin, [], as)
    else pure (s, .err, [], [])
  | _ + 1, .end_, _, s => do
    let s ← s.tok
    pure (s, if s.inp.tok = .fin then .fin else .err, [], [])
  | _ + 1, .break_, _, s => do
    let s ← s.tok
    if s.inp.tok = .fin then pure (s, .ok, [.brk], []) else pure (s, .err, [], [])
  | _ + 1, .continue_, _, s => do
    let s ← s.tok
    if s.inp.tok = .fin then pure (s, .ok, [.cont], []) else pure (s, .err, [], [])
end

/-- tmpl_input_init, /repo/src/tmpl.c:1590-1595 -/
def tInit (text : Bytes) : TIn := ⟨[], text, .eof, false, none⟩

/-- template_parse, /repo/src/tmpl.c:3097-3119, with template_list before and after: the error,
or the actions.  On an error the template is freed; names that have been freed before are
freed a second time then. -/
def templateParse (fuel : Nat) (defs : List (Bytes × List TAct)) (text : Bytes) :
    TOut (List (Bytes × List TAct) × Except TErr (List TAct)) := do
  let (s, as, _) ← scanAction fuel .none false ⟨tInit text, defs, false⟩
  match s.inp.err with
  | some e => if s.dang then .ub else pure (s.defs, .error e)
  | none => pure (s.defs, .ok as)

end Pound
