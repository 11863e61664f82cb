import Verif.Model.SvcCfg
import Verif.Spec.Cond

/-!
What the conditions and rewriting rules of a configuration say: /repo/doc/pound.8:1335-1560, 2320-2392.
-/

namespace Pound.Spec

/-- The kind of pattern an option selects, if it does -/
def optKind (dflRe : GKind) (o : Bytes) : Option GKind :=
  if o = b!"-re" then some dflRe
  else if o = b!"-exact" then some .exact
  else if o = b!"-beg" then some .beg
  else if o = b!"-end" then some .suffix
  else if o = b!"-contain" then some .contain
  else if o = b!"-posix" then some .posix
  else if o = b!"-pcre" ∨ o = b!"-perl" then some .pcre
  else none

/-- Whether an option says that case does not matter, or that it does -/
def optCase (o : Bytes) : Option Bool :=
  if o = b!"-icase" then some true
  else if o = b!"-case" then some false
  else none

/-- The last of these, or the default -/
def lastOr {α : Type} (dfl : α) (l : List α) : α := l.getLast?.getD dfl

/-- Options, starting with a default kind and case: what they select; `file` tells that the pattern is the name of a file. -/
structure Opts (e : CfgEnv) (dflRe k0 : GKind) (c0 : Bool) (opts : List Bytes) (k : GKind) (c file : Bool) : Prop where
  known : ∀ o ∈ opts, (optKind dflRe o).isSome = true ∨ (optCase o).isSome = true ∨ o = b!"-file"
  perl : e.pcre = false → b!"-pcre" ∉ opts ∧ b!"-perl" ∉ opts
  kind : k = lastOr k0 (opts.filterMap (optKind dflRe))
  case : c = lastOr c0 (opts.filterMap optCase)
  file : file = true ↔ b!"-file" ∈ opts

/-- The lines of a file of patterns -/
def fileLines (text : Bytes) : List Bytes := patLines text.length text

/-- Conditions with a pattern: the keyword, what the pattern is for, and the defaults for its kind, case and whether it is matched line by line -/
inductive PatKw (d : Dfl) : Bytes → (Pattern → CTest) → GKind → Bool → Bool → Prop
  | url {n : Bytes} : ciEq b!"URL" n = true → PatKw d n .url d.reType d.icase false
  | path {n : Bytes} : ciEq b!"Path" n = true → PatKw d n .path d.reType d.icase false
  | query {n : Bytes} : ciEq b!"Query" n = true → PatKw d n .query d.reType d.icase false
  | hdr {n : Bytes} : ciEq b!"Header" n = true ∨ ciEq b!"HeadRequire" n = true → PatKw d n .hdr d.reType true true

/-- Conditions with a string before the pattern -/
inductive ArgKw : Bytes → (Bytes → Pattern → CTest) → Prop
  | param {n : Bytes} : ciEq b!"QueryParam" n = true → ArgKw n .param
  | str {n : Bytes} : ciEq b!"StringMatch" n = true → ArgKw n .strMatch

/-- The argument of a condition: options and a pattern, which has to compile, or the name of a file with one pattern in each line, of which one has to match. -/
inductive PatArg (e : CfgEnv) (dflRe k0 : GKind) (c0 multi : Bool) (mk : Pattern → CTest) : List Tok → Formula CTest → Prop
  | pat {opts : List Bytes} {k : GKind} {c : Bool} {p : Bytes} : Opts e dflRe k0 c0 opts k c false → e.compiles ⟨k, c, multi, p⟩ = true →
      PatArg e dflRe k0 c0 multi mk (opts.map .literal ++ [.string p]) (.test (mk ⟨k, c, multi, p⟩))
  | file {opts : List Bytes} {k : GKind} {c : Bool} {p text : Bytes} : Opts e dflRe k0 c0 opts k c true → e.file p = some text →
      (∀ l ∈ fileLines text, e.compiles ⟨k, c, multi, l⟩ = true) →
      PatArg e dflRe k0 c0 multi mk (opts.map .literal ++ [.string p]) (.or ((fileLines text).map fun l => .test (mk ⟨k, c, multi, l⟩)))

/-- The text with a backslash before characters that mean something in an expression (the caret, the dollar sign and the bar are left as they are, see C47) -/
def quotedText (s : Bytes) : Bytes := s.flatMap fun c => if c ∈ b!"\\[]{}().*+?" then [ch%'\\', c] else [c]

/-- The expression without a caret at its beginning -/
def noCaret : Bytes → Bytes
  | [] => []
  | c :: t => if c = ch%'^' then t else c :: t

/-- The expression a Host condition stands for: it is matched with the whole header; names are quoted, expressions are not, see C47. -/
def hostPat (k : GKind) (c : Bool) (p : Bytes) : Pattern :=
  match k with
  | .posix => ⟨.posix, c, false, b!"^Host:[[:space:]]*" ++ noCaret p⟩
  | .pcre => ⟨.pcre, c, false, b!"^Host:\\s*" ++ noCaret p⟩
  | .exact => ⟨.posix, c, false, b!"^Host:[[:space:]]*" ++ quotedText p⟩
  | .beg => ⟨.posix, c, false, b!"^Host:[[:space:]]*" ++ quotedText p⟩
  | .suffix => ⟨.posix, c, false, b!"^Host:[[:space:]]*.*" ++ quotedText p ++ b!"$"⟩
  | .contain => ⟨.posix, c, false, b!"^Host:[[:space:]]*.*" ++ quotedText p⟩

/-- The same for Host -/
inductive HostArg (e : CfgEnv) (dflRe : GKind) : List Tok → Formula CTest → Prop
  | pat {opts : List Bytes} {k : GKind} {c : Bool} {p : Bytes} : Opts e dflRe .exact true opts k c false → e.compiles (hostPat k c p) = true →
      HostArg e dflRe (opts.map .literal ++ [.string p]) (.test (.host (hostPat k c p)))
  | file {opts : List Bytes} {k : GKind} {c : Bool} {p text : Bytes} : Opts e dflRe .exact true opts k c true → e.file p = some text →
      (∀ l ∈ fileLines text, e.compiles (hostPat k c l) = true) →
      HostArg e dflRe (opts.map .literal ++ [.string p]) (.or ((fileLines text).map fun l => .test (.host (hostPat k c l))))

/-- Networks, each in quotes, with newlines anywhere -/
inductive Nets (e : CfgEnv) : List Tok → List Bytes → Prop
  | nil : Nets e [] []
  | nl {t : List Tok} {l : List Bytes} : Nets e t l → Nets e (.nl :: t) l
  | net {s : Bytes} {t : List Tok} {l : List Bytes} : e.net s = true → Nets e t l → Nets e (.string s :: t) (s :: l)

/-- A condition on a line of its own, without the newline at its end -/
inductive TestStmt (e : CfgEnv) (d : Dfl) : List Tok → Formula CTest → Prop
  | pat {n : Bytes} {mk : Pattern → CTest} {k0 : GKind} {c0 multi : Bool} {a : List Tok} {f : Formula CTest} :
      PatKw d n mk k0 c0 multi → PatArg e d.reType k0 c0 multi mk a f → TestStmt e d (.ident n :: a) f
  | arg {n s : Bytes} {mk : Bytes → Pattern → CTest} {a : List Tok} {f : Formula CTest} :
      ArgKw n mk → PatArg e d.reType d.reType d.icase false (mk s) a f → TestStmt e d (.ident n :: .string s :: a) f
  | deny {n : Bytes} {a : List Tok} {f : Formula CTest} :
      ciEq b!"HeadDeny" n = true → PatArg e d.reType d.reType true true .hdr a f → TestStmt e d (.ident n :: a) (.not f)
  | host {n : Bytes} {a : List Tok} {f : Formula CTest} : ciEq b!"Host" n = true → HostArg e d.reType a f → TestStmt e d (.ident n :: a) f
  | acl {n s : Bytes} : ciEq b!"ACL" n = true → e.acl s = true → TestStmt e d [.ident n, .string s] (.test (.acl s))
  | nets {n w : Bytes} {t : List Tok} {l : List Bytes} :
      ciEq b!"ACL" n = true → Nets e t l → ciEq b!"End" w = true → TestStmt e d (.ident n :: .nl :: (t ++ [.ident w])) (.test (.aclOf l))
  | auth {n s : Bytes} : ciEq b!"BasicAuth" n = true → TestStmt e d [.ident n, .string s] (.test (.auth s))
  | cert {n s : Bytes} : ciEq b!"ClientCert" n = true → e.cert s = true → TestStmt e d [.ident n, .string s] (.test (.cert s))

/-- Empty lines -/
def BlankLines (ts : List Tok) : Prop := ∀ t ∈ ts, t = .nl

/-- The argument of Match and how its conditions are combined; without one there has to be a newline. -/
inductive GroupArg : List Tok → (List (Formula CTest) → Formula CTest) → Prop
  | and {w : Bytes} : ciEq w b!"and" = true → GroupArg [.ident w] .and
  | or {w : Bytes} : ciEq w b!"or" = true → GroupArg [.ident w] .or
  | none : GroupArg [.nl] .and

mutual
/-- A condition, with the newline at its end -/
inductive CondStmt (e : CfgEnv) (d : Dfl) : List Tok → Formula CTest → Prop
  | test {t : List Tok} {f : Formula CTest} : TestStmt e d t f → CondStmt e d (t ++ [.nl]) f
  | not {n : Bytes} {bl t : List Tok} {f : Formula CTest} :
      ciEq b!"Not" n = true → BlankLines bl → CondStmt e d t f → CondStmt e d (.ident n :: (bl ++ t)) (.not f)
  | group {n w : Bytes} {a t : List Tok} {op : List (Formula CTest) → Formula CTest} {fs : List (Formula CTest)} :
      ciEq b!"Match" n = true → GroupArg a op → CondStmts e d t fs → ciEq b!"End" w = true → CondStmt e d (.ident n :: (a ++ (t ++ [.ident w, .nl]))) (op fs)
/-- Conditions one after the other -/
inductive CondStmts (e : CfgEnv) (d : Dfl) : List Tok → List (Formula CTest) → Prop
  | nil : CondStmts e d [] []
  | blank {t : List Tok} {fs : List (Formula CTest)} : CondStmts e d t fs → CondStmts e d (.nl :: t) fs
  | cons {t1 t2 : List Tok} {f : Formula CTest} {fs : List (Formula CTest)} : CondStmt e d t1 f → CondStmts e d t2 fs → CondStmts e d (t1 ++ t2) (f :: fs)
end

mutual
/-- The formula of a condition as the program represents it; of a negation only the first operand counts (C14). -/
def condFormula : CCond → Formula CTest
  | .test t => .test t
  | .bool .not [] => .or []
  | .bool .not (c :: _) => .not (condFormula c)
  | .bool .and cs => .and (condFormulas cs)
  | .bool .or cs => .or (condFormulas cs)
def condFormulas : List CCond → List (Formula CTest)
  | [] => []
  | c :: cs => condFormula c :: condFormulas cs
end

mutual
/-- Every negation is that of one condition. -/
def OneNot : CCond → Prop
  | .test _ => True
  | .bool op cs => (op = .not → ∃ c, cs = [c]) ∧ OneNots cs
def OneNots : List CCond → Prop
  | [] => True
  | c :: cs => OneNot c ∧ OneNots cs
end

/-! ### Rewriting -/

/-- A modification: a keyword and its arguments -/
inductive ActStmt (e : CfgEnv) (d : Dfl) : List Tok → CPrim → Prop
  | setHeader {n t : Bytes} : ciEq b!"SetHeader" n = true → ActStmt e d [.ident n, .string t] (.hdrSet t)
  | setURL {n t : Bytes} : ciEq b!"SetURL" n = true → ActStmt e d [.ident n, .string t] (.urlSet t)
  | setPath {n t : Bytes} : ciEq b!"SetPath" n = true → ActStmt e d [.ident n, .string t] (.pathSet t)
  | setQuery {n t : Bytes} : ciEq b!"SetQuery" n = true → ActStmt e d [.ident n, .string t] (.querySet t)
  | setParam {n p t : Bytes} : ciEq b!"SetQueryParam" n = true → ActStmt e d [.ident n, .string p, .string t] (.paramSet p t)
  | delHeader {n p : Bytes} {opts : List Bytes} {k : GKind} {c : Bool} : ciEq b!"DeleteHeader" n = true → Opts e d.reType d.reType d.icase opts k c false →
      e.compiles ⟨k, c, false, p⟩ = true → ActStmt e d (.ident n :: (opts.map .literal ++ [.string p])) (.hdrDel ⟨k, c, false, p⟩)

/-- Modifications as they are run: see Spec/Cond.lean -/
abbrev RwStmt := Stmt (Formula CTest) CPrim

mutual
/-- The inside of a Rewrite section up to Else or End: the conditions, which all have to be true, and the modifications, in order -/
inductive RuleBody (e : CfgEnv) (d : Dfl) : List Tok → List (Formula CTest) → List RwStmt → Prop
  | nil : RuleBody e d [] [] []
  | blank {t : List Tok} {cs : List (Formula CTest)} {ss : List RwStmt} : RuleBody e d t cs ss → RuleBody e d (.nl :: t) cs ss
  | cond {t1 t2 : List Tok} {c : Formula CTest} {cs : List (Formula CTest)} {ss : List RwStmt} :
      CondStmt e d t1 c → RuleBody e d t2 cs ss → RuleBody e d (t1 ++ t2) (c :: cs) ss
  | act {t1 t2 : List Tok} {p : CPrim} {cs : List (Formula CTest)} {ss : List RwStmt} :
      ActStmt e d t1 p → RuleBody e d t2 cs ss → RuleBody e d (t1 ++ .nl :: t2) cs (.act p :: ss)
  | sub {n : Bytes} {t1 t2 : List Tok} {bs : List (Formula CTest × List RwStmt)} {cs : List (Formula CTest)} {ss : List RwStmt} :
      ciEq b!"Rewrite" n = true → Branches e d t1 bs → RuleBody e d t2 cs ss → RuleBody e d (.ident n :: (t1 ++ .nl :: t2)) cs (.cases bs :: ss)
/-- The branches of a Rewrite section, with its End -/
inductive Branches (e : CfgEnv) (d : Dfl) : List Tok → List (Formula CTest × List RwStmt) → Prop
  | last {w : Bytes} {t : List Tok} {cs : List (Formula CTest)} {ss : List RwStmt} :
      RuleBody e d t cs ss → ciEq b!"End" w = true → Branches e d (t ++ [.ident w]) [(.and cs, ss)]
  | els {w : Bytes} {t r : List Tok} {cs : List (Formula CTest)} {ss : List RwStmt} {bs : List (Formula CTest × List RwStmt)} :
      RuleBody e d t cs ss → ciEq b!"Else" w = true → Branches e d r bs → Branches e d (t ++ .ident w :: r) ((.and cs, ss) :: bs)
end

mutual
/-- What a rule of the program does -/
def ropStmt : CRop → RwStmt
  | .prim p => .act p
  | .rule r => .cases (ruleBranches r)
def ruleBranches : CRule → List (Formula CTest × List RwStmt)
  | .null => []
  | .mk cs ops els => (.and (condFormulas cs), ropStmts ops) :: ruleBranches els
def ropStmts : List CRop → List RwStmt
  | [] => []
  | o :: t => ropStmt o :: ropStmts t
end

/-! ### Services -/

/-- The argument of Rewrite: nothing or `request` -/
def RequestArg (a : List Tok) : Prop := a = [.nl] ∨ ∃ w, a = [.ident w] ∧ ciEq w b!"request" = true

/-- The statements of a service: the conditions, the modifications of requests in order, and those of the other statements (`item`), in order.  Each other statement ends with a newline.
The first two arguments are the defaults of conditions before and after. -/
inductive SvcBody {ι : Type} (e : CfgEnv) (item : List Tok → ι → Prop) : Dfl → Dfl → List Tok → List (Formula CTest) → List RwStmt → Option Bool → List ι → Prop
  | nil {d : Dfl} : SvcBody e item d d [] [] [] none []
  | blank {d d' : Dfl} {t : List Tok} {cs : List (Formula CTest)} {ss : List RwStmt} {b : Option Bool} {l : List ι} : SvcBody e item d d' t cs ss b l → SvcBody e item d d' (.nl :: t) cs ss b l
  | cond {d d' : Dfl} {t1 t2 : List Tok} {c : Formula CTest} {cs : List (Formula CTest)} {ss : List RwStmt} {b : Option Bool} {l : List ι} :
      CondStmt e d t1 c → SvcBody e item d d' t2 cs ss b l → SvcBody e item d d' (t1 ++ t2) (c :: cs) ss b l
  | act {d d' : Dfl} {t1 t2 : List Tok} {p : CPrim} {cs : List (Formula CTest)} {ss : List RwStmt} {b : Option Bool} {l : List ι} :
      ActStmt e d t1 p → SvcBody e item d d' t2 cs ss b l → SvcBody e item d d' (t1 ++ .nl :: t2) cs (.act p :: ss) b l
  | rewrite {d d' : Dfl} {n : Bytes} {a t1 t2 : List Tok} {bs : List (Formula CTest × List RwStmt)} {cs : List (Formula CTest)} {ss : List RwStmt} {b : Option Bool} {l : List ι} :
      ciEq b!"Rewrite" n = true → RequestArg a → Branches e d t1 bs → SvcBody e item d d' t2 cs ss b l →
      SvcBody e item d d' (.ident n :: (a ++ (t1 ++ .nl :: t2))) cs (.cases bs :: ss) b l
  | disabled {d d' : Dfl} {n : Bytes} {u : Tok} {v : Bool} {t : List Tok} {cs : List (Formula CTest)} {ss : List RwStmt} {b : Option Bool} {l : List ι} :
      ciEq b!"Disabled" n = true → assignBool u = .ok (some v) → SvcBody e item d d' t cs ss b l → SvcBody e item d d' (.ident n :: u :: .nl :: t) cs ss (some (b.getD v)) l
  | ignoreCase {d d' : Dfl} {n : Bytes} {u : Tok} {v : Bool} {t : List Tok} {cs : List (Formula CTest)} {ss : List RwStmt} {b : Option Bool} {l : List ι} :
      ciEq b!"IgnoreCase" n = true → assignBool u = .ok (some v) → SvcBody e item { d with icase := v } d' t cs ss b l → SvcBody e item d d' (.ident n :: u :: .nl :: t) cs ss b l
  | other {d d' : Dfl} {t1 t2 : List Tok} {x : ι} {cs : List (Formula CTest)} {ss : List RwStmt} {b : Option Bool} {l : List ι} :
      item t1 x → SvcBody e item d d' t2 cs ss b l → SvcBody e item d d' (t1 ++ t2) cs ss b (x :: l)

/-- A service, after its keyword: a name or a newline, the statements and End -/
inductive SvcSect {ι : Type} (e : CfgEnv) (item : List Tok → ι → Prop) (d : Dfl) (names : List Bytes) : List Tok → List (Formula CTest) → List RwStmt → Bool → List ι → Prop
  | named {d' : Dfl} {nm w : Bytes} {t : List Tok} {cs : List (Formula CTest)} {ss : List RwStmt} {b : Option Bool} {l : List ι} :
      nm ∉ names → SvcBody e item d d' t cs ss b l → ciEq b!"End" w = true → SvcSect e item d names (.string nm :: (t ++ [.ident w])) cs ss (b.getD false) l
  | anon {d' : Dfl} {w : Bytes} {t : List Tok} {cs : List (Formula CTest)} {ss : List RwStmt} {b : Option Bool} {l : List ι} :
      SvcBody e item d d' t cs ss b l → ciEq b!"End" w = true → SvcSect e item d names (t ++ [.ident w]) cs ss (b.getD false) l

/-- Somewhere, Not is followed by Not. -/
def NotNot (ts : List Tok) : Prop := ∃ pre n bl m post, ts = pre ++ .ident n :: (bl ++ .ident m :: post) ∧ BlankLines bl ∧ ciEq b!"Not" n = true ∧ ciEq b!"Not" m = true

/-- Somewhere, there is a Host condition with a file of names (not of expressions). -/
def HostFile (dflRe : GKind) (ts : List Tok) : Prop := ∃ (pre : List Tok) (n : Bytes) (opts : List Bytes) (p : Bytes) (post : List Tok),
  ts = pre ++ .ident n :: (opts.map .literal ++ .string p :: post) ∧ ciEq b!"Host" n = true ∧ b!"-file" ∈ opts ∧
  lastOr .exact (opts.filterMap (optKind dflRe)) ∈ [GKind.exact, .beg, .suffix, .contain]

/-- Somewhere, there is a rule for responses. -/
def Response (ts : List Tok) : Prop := ∃ pre n m post, ts = pre ++ .ident n :: .ident m :: post ∧ ciEq b!"Rewrite" n = true ∧ ciEq m b!"response" = true

mutual
/-- Every disjunction has an operand (see C14 for those without). -/
def NoEmptyOr : Formula CTest → Prop
  | .test _ => True
  | .not f => NoEmptyOr f
  | .and fs => NoEmptyOrs fs
  | .or fs => fs ≠ [] ∧ NoEmptyOrs fs
def NoEmptyOrs : List (Formula CTest) → Prop
  | [] => True
  | f :: fs => NoEmptyOr f ∧ NoEmptyOrs fs
end

mutual
/-- The same for all the conditions in modifications -/
def StmtOrs : RwStmt → Prop
  | .act _ => True
  | .cases bs => BranchOrs bs
def BranchOrs : List (Formula CTest × List RwStmt) → Prop
  | [] => True
  | (c, ss) :: bs => NoEmptyOr c ∧ StmtsOrs ss ∧ BranchOrs bs
def StmtsOrs : List RwStmt → Prop
  | [] => True
  | s :: ss => StmtOrs s ∧ StmtsOrs ss
end

/-- Modifications that do the same, whatever the elementary conditions and modifications do -/
def SameRuns (xs ys : List RwStmt) : Prop :=
  ∀ (σ : Type) (test : CTest → σ → Option Bool → σ → Prop) (act : CPrim → σ → Bool → σ → Prop) (s : σ) (ok : Bool) (s' : σ),
    Runs (Evals test) act xs s ok s' ↔ Runs (Evals test) act ys s ok s'

/-- Programs that do the same, and of which both or neither have disjunctions without operands -/
structure SameProg (xs ys : List RwStmt) : Prop where
  runs : SameRuns xs ys
  ors : StmtsOrs xs ↔ StmtsOrs ys

/-- The rules of a service, one after the other -/
def rulesStmts (rs : List CRule) : List RwStmt := rs.map fun r => .cases (ruleBranches r)

end Pound.Spec
