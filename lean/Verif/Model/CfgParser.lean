import Verif.Model.Input

/-!
The parser of configuration files: /repo/src/cfgparser.c:944-1145.

The functions that parse the arguments of statements are parameters: they take the data parsed so far and the open files.
-/

namespace Pound

/-- Results of parsers, /repo/src/cfgparser.h:146-152 -/
inductive PRes where
  | ok | okNonl | fail | fin
deriving DecidableEq, Repr

/-- The state of a parser: the data, the open files, and the number of messages printed -/
structure PSt (σ : Type) where
  data : σ
  inp : List Input
  msgs : Nat
deriving DecidableEq

/-- A parser function for a statement -/
abbrev StmtParser (σ : Type) := PSt σ → PRes × PSt σ

/-- CFGPARSER_TABLE, /repo/src/cfgparser.h:164-181: `arg` stands for the pair data and offset. -/
inductive KEntry (π : Type) where
  | reg (name : Bytes) (p : π) (arg : Nat) (depr : Bool)
  | alias (name : Bytes) (depr : Bool)
  | tabref (tab : List (KEntry π))
  | softref (tab : List (KEntry π)) (arg : Nat)

/-- What parser_find returns: the parser, its argument, and whether the entry found is deprecated -/
structure Found (π : Type) where
  p : π
  arg : Nat
  depr : Bool
deriving DecidableEq, Repr

/-- The entry an alias refers to, /repo/src/cfgparser.c:972-977: `prev` is the last entry before that is no alias; `none`: the assertion fails. -/
def aliasOf {π : Type} (prev : Option (KEntry π)) (depr : Bool) : Option (Found π) :=
  match prev with
  | some (.reg _ p a _) => some ⟨p, a, depr⟩
  | _ => none

/-- parser_find, /repo/src/cfgparser.c:944-983: `.ub` if the assertion fails -/
def parserFind {π : Type} (name : Bytes) (prev : Option (KEntry π)) : List (KEntry π) → Res (Option (Found π))
  | [] => .ok none
  | .reg n p a d :: r => if ciEq n name then .ok (some ⟨p, a, d⟩) else parserFind name (some (.reg n p a d)) r
  | .alias n d :: r =>
    if ciEq n name then
      match aliasOf prev d with
      | some f => .ok (some f)
      | none => .ub
    else parserFind name prev r
  | .tabref t :: r =>
    match parserFind name none t with
    | .ub => .ub
    | .ok (some f) => .ok (some f)
    | .ok none => parserFind name (some (.tabref t)) r
  | .softref t a :: r =>
    match parserFind name none t with
    | .ub => .ub
    | .ok (some f) => .ok (some { f with arg := a })
    | .ok none => parserFind name (some (.softref t a)) r

/-- enum deprecation_mode, /repo/src/cfgparser.h:183-188 -/
inductive DeprMode where
  | ok | warn | err
deriving DecidableEq, Repr

/-- What cfgparser is called with: the table (look-up and the parser called with its argument), whether a single statement is wanted, what to do with deprecated
statements, and whether it parses a block (retrange is not NULL).  `incl` is cfg_parse_include. -/
structure ParserCfg (σ : Type) where
  find : Bytes → Option (Found (StmtParser σ))
  incl : StmtParser σ
  single : Bool
  depr : DeprMode
  block : Bool

/-- The look-up of a keyword, /repo/src/cfgparser.c:985-991, 1030-1034: the table, then "Include" -/
def ParserCfg.lookup {σ : Type} (c : ParserCfg σ) (name : Bytes) : Option (Found (StmtParser σ)) :=
  match c.find name with
  | some f => some f
  | none => if !c.single && ciEq b!"Include" name then some ⟨c.incl, 0, false⟩ else none

/-- gettkn in a parser: the messages of the scanner are counted. -/
def PSt.get {σ : Type} (s : PSt σ) : Tok × PSt σ := ((gettkn s.inp).1, { s with inp := (gettkn s.inp).2 })

/-- cfgparser, /repo/src/cfgparser.c:993-1104; `none`: it has not ended within `fuel` tokens. -/
def cfgparser {σ : Type} (c : ParserCfg σ) : Nat → PSt σ → Option (PRes × PSt σ)
  | 0, _ => none
  | fuel + 1, s =>
    let s1 := s.get.2
    match s.get.1 with
    | .eof => if c.block then some (.fail, { s1 with msgs := s1.msgs + 1 }) else some (.ok, s1)
    | .error => some (.fail, { s1 with msgs := s1.msgs + 1 })
    | .nl => cfgparser c fuel s1
    | .ident name =>
      match c.lookup name with
      | none => some (.fail, { s1 with msgs := s1.msgs + 1 })
      | some f =>
        if f.depr && c.depr == .err then some (.fail, { s1 with msgs := s1.msgs + 1 })
        else
          let s2 := if f.depr && c.depr == .warn then { s1 with msgs := s1.msgs + 1 } else s1
          let r := f.p s2
          match r.1 with
          | .ok =>
            let s4 := r.2.get.2
            match r.2.get.1 with
            | .nl => if c.single then some (.okNonl, s4) else cfgparser c fuel s4
            | .eof => if c.single then some (.okNonl, s4) else cfgparser c fuel s4
            | _ => some (.fail, { s4 with msgs := s4.msgs + 1 })
          | .okNonl => cfgparser c fuel r.2
          | .fail => some (.fail, r.2)
          | .fin => some (.ok, r.2)
    | _ => cfgparser c fuel { s1 with msgs := s1.msgs + 1 }

/-- cfgparser_parse, /repo/src/cfgparser.c:1135-1153 (and parse_config_file, /repo/src/config.c:5152-5159): whether the file is accepted -/
def cfgparserParse {σ : Type} (c : ParserCfg σ) (fuel : Nat) (s : PSt σ) : Option (Bool × PSt σ) :=
  match cfgparser c fuel s with
  | none => none
  | some (r, s') => some (r = .ok && s'.inp.isEmpty, s')

/-! ### Parsers of statements -/

/-- The common kinds of statements: a statement that takes as many tokens as there are tests and stores them (as the functions in
/repo/src/cfgparser.c:1189-1359 do); one that opens a section with a table of its own (as parse_server in /repo/src/poundctl.c:107-124); and the end of a section. -/
inductive Kind where
  | simple (args : List (Tok → Bool))
  | sect (args : List (Tok → Bool)) (ctx : Nat)
  | close

/-- What the parsers of statements are called for, in order -/
inductive Ev where
  | stmt (ctx : Nat) (name : Bytes) (args : List Tok)
  | opened (ctx : Nat) (name : Bytes) (args : List Tok)
  | closed
deriving DecidableEq, Repr

/-- Reading the arguments with gettkn_expect_mask, /repo/src/cfgparser.c:808-835; here a newline is refused (see `expectTok` for the undefined shift). -/
def readArgs {σ : Type} : List (Tok → Bool) → PSt σ → Option (List Tok) × PSt σ
  | [], s => (some [], s)
  | p :: ps, s =>
    if s.get.1 = .eof ∨ s.get.1 = .nl ∨ s.get.1 = .error ∨ p s.get.1 = false then (none, { s.get.2 with msgs := s.get.2.msgs + 1 })
    else ((readArgs ps s.get.2).1.map (s.get.1 :: ·), (readArgs ps s.get.2).2)

/-- A statement of one of these kinds: `sub` parses sections.  cfg_parse_end: /repo/src/cfgparser.c:1183-1187. -/
def kindParser (sub : Nat → StmtParser (List Ev)) (ctx : Nat) (name : Bytes) : Kind → StmtParser (List Ev)
  | .simple ps => fun s =>
    match readArgs ps s with
    | (none, s1) => (.fail, s1)
    | (some a, s1) => (.ok, { s1 with data := s1.data ++ [.stmt ctx name a] })
  | .sect ps ctx' => fun s =>
    match readArgs ps s with
    | (none, s1) => (.fail, s1)
    | (some a, s1) =>
      let r := sub ctx' { s1 with data := s1.data ++ [.opened ctx name a] }
      if r.1 = .ok then (.ok, { r.2 with data := r.2.data ++ [.closed] }) else r
  | .close => fun s => (.fin, s)

/-- The parser of a section: `g` gives the kinds of statements of each section.  Statements are not deprecated; Include is refused with a message (see `InOp` for it). -/
def gramCfg (g : Nat → Bytes → Option Kind) (sub : Nat → StmtParser (List Ev)) (ctx : Nat) (block : Bool) : ParserCfg (List Ev) where
  find name := (g ctx name).map fun k => ⟨kindParser sub ctx name k, 0, false⟩
  incl s := (.fail, { s with msgs := s.msgs + 1 })
  single := false
  depr := .ok
  block := block

/-- Sections nested at most `depth` deep, at most `fuel` tokens -/
def sectParser (g : Nat → Bytes → Option Kind) (fuel : Nat) : Nat → Nat → StmtParser (List Ev)
  | 0, _, s => (.fail, s)
  | depth + 1, ctx, s => (cfgparser (gramCfg g (sectParser g fuel depth) ctx true) fuel s).getD (.fail, s)

/-- The parser of a file, whose statements are those of section 0 -/
def fileParser (g : Nat → Bytes → Option Kind) (fuel depth : Nat) (text : Bytes) : Option (Bool × PSt (List Ev)) :=
  cfgparserParse (gramCfg g (sectParser g fuel depth) 0 false) fuel ⟨[], [⟨0, text, []⟩], 0⟩

end Pound
