import Verif.Model.CfgParser
import Verif.Model.HostCond
import Verif.Model.Cond

/-!
Conditions and rewriting rules in a configuration: /repo/src/config.c:490-637, 1126-1136, 1156-1265, 1318-1337, 1363-1626, 1871-2425, 2483-2700.

The input is given by the tokens gettkn delivers (every text has exactly one list of them, see C65; `cfgparser_list` in Proof/CfgList.lean relates `cfgL` to
`cfgparser`); a token that is put back comes first again.  Statements that include files are left out.  Compiling expressions, opening files and looking up
access lists are parameters.
-/

namespace Pound

/-! ### The parser, on tokens -/

/-- The state of a parser: the data it fills in, the tokens left and the number of messages about tokens that belong to no statement -/
structure LSt (σ : Type) where
  data : σ
  toks : List Tok
  errs : Nat
deriving DecidableEq

/-- Results of parsers, /repo/src/cfgparser.h:146-152, with the state -/
inductive LR (σ : Type) where
  | ok (s : LSt σ)
  | nonl (s : LSt σ)
  | fin (s : LSt σ)
  | fail
deriving DecidableEq

/-- A parser function for a statement -/
abbrev LParser (σ : Type) := LSt σ → LR σ

/-- cfgparser, /repo/src/cfgparser.c:993-1104: `single` is single_statement, `block` tells that retrange is not NULL.  `.fail` also if `fuel` is used up.
Deprecated statements are not refused (DEPREC_OK or DEPREC_WARN, /repo/src/config.c:998-1006). -/
def cfgL {σ : Type} (find : Bytes → Option (LParser σ)) (single block : Bool) : Nat → LSt σ → LR σ
  | 0, _ => .fail
  | n + 1, s =>
    match s.toks with
    | [] => if block then .fail else .ok s
    | .eof :: _ => if block then .fail else .ok s
    | .error :: _ => .fail
    | .nl :: r => cfgL find single block n { s with toks := r }
    | .ident name :: r =>
      match find name with
      | none => .fail
      | some p =>
        match p { s with toks := r } with
        | .ok s2 =>
          match s2.toks with
          | [] => if single then .nonl s2 else cfgL find single block n s2
          | .nl :: r2 => if single then .nonl { s2 with toks := r2 } else cfgL find single block n { s2 with toks := r2 }
          | _ => .fail
        | .nonl s2 => cfgL find single block n s2
        | .fin s2 => .ok s2
        | .fail => .fail
    | _ :: r => cfgL find single block n { s with toks := r, errs := s.errs + 1 }

/-! ### Conditions -/

/-- GENPAT_*, /repo/src/genpat.h -/
inductive GKind where
  | posix | exact | beg | suffix | contain | pcre
deriving DecidableEq, Repr

/-- The arguments of genpat_compile: GENPAT_ICASE and GENPAT_MULTILINE are the flags. -/
structure Pattern where
  kind : GKind
  icase : Bool
  multi : Bool
  text : Bytes
deriving DecidableEq, Repr

/-- Elementary conditions as configured, SERVICE_COND, /repo/src/pound.h:639-699: an access list is given by its name or its networks. -/
inductive CTest where
  | acl (name : Bytes)
  | aclOf (nets : List Bytes)
  | url (p : Pattern)
  | path (p : Pattern)
  | query (p : Pattern)
  | param (name : Bytes) (p : Pattern)
  | hdr (p : Pattern)
  | host (p : Pattern)
  | auth (file : Bytes)
  | strMatch (tmpl : Bytes) (p : Pattern)
  | cert (file : Bytes)
deriving DecidableEq, Repr

/-- SERVICE_COND, /repo/src/pound.h:685-699 -/
inductive CCond where
  | test (t : CTest)
  | bool (op : BoolOp) (cs : List CCond)

/-- What the outcome of parsing depends on: whether there is support for Perl expressions, which expressions compile, which access lists are defined, which networks
are valid, which certificates can be loaded, and the files of patterns -/
structure CfgEnv where
  pcre : Bool
  compiles : Pattern → Bool
  acl : Bytes → Bool
  net : Bytes → Bool
  cert : Bytes → Bool
  file : Bytes → Option Bytes

/-- POUND_DEFAULTS, /repo/src/config.c: re_type and ignore_case -/
structure Dfl where
  reType : GKind
  icase : Bool
deriving DecidableEq, Repr

/-- gp_type, GENPAT_ICASE in sp_flags, and from_file -/
structure MMode where
  kind : GKind
  icase : Bool
  file : Bool
deriving DecidableEq, Repr

/-- optab, /repo/src/config.c:1175-1188 -/
def modeTab : List (Bytes × Nat) :=
  [(b!"-re", 0), (b!"-exact", 1), (b!"-beg", 2), (b!"-end", 3), (b!"-contain", 4), (b!"-icase", 5), (b!"-case", 6), (b!"-file", 7), (b!"-posix", 8), (b!"-pcre", 9),
   (b!"-perl", 9)]

/-- The switch in parse_match_mode, /repo/src/config.c:1203-1258; `none`: refused -/
def modeOpt (e : CfgEnv) (dflRe : GKind) (allowFile : Bool) (m : MMode) (o : Bytes) : Option MMode :=
  match kwToTok modeTab false o with
  | none => none
  | some 0 => some { m with kind := dflRe }
  | some 1 => some { m with kind := .exact }
  | some 2 => some { m with kind := .beg }
  | some 3 => some { m with kind := .suffix }
  | some 4 => some { m with kind := .contain }
  | some 5 => some { m with icase := true }
  | some 6 => some { m with icase := false }
  | some 7 => if allowFile then some { m with file := true } else none
  | some 8 => some { m with kind := .posix }
  | some _ => if e.pcre then some { m with kind := .pcre } else none

/-- parse_match_mode, /repo/src/config.c:1156-1265 -/
def matchMode (e : CfgEnv) (dflRe : GKind) (allowFile : Bool) : List Tok → MMode → Option (MMode × List Tok)
  | .string s :: r, m => some (m, .string s :: r)
  | .literal o :: r, m =>
    match modeOpt e dflRe allowFile m o with
    | none => none
    | some m' => matchMode e dflRe allowFile r m'
  | _, _ => none

/-- parse_regex_compat, /repo/src/config.c:1316-1337; `dfl` as its callers pass it, with GENPAT_ICASE if `icase` -/
def regexCompat (e : CfgEnv) (dfl : GKind) (icase : Bool) (ts : List Tok) : Option (Pattern × List Tok) :=
  match matchMode e dfl false ts ⟨dfl, icase, false⟩ with
  | some (m, .string p :: r) => if e.compiles ⟨m.kind, m.icase, false, p⟩ then some (⟨m.kind, m.icase, false, p⟩, r) else none
  | _ => none

/-- host_prefix_regex, /repo/src/config.c:1267-1314: see `hostRegex` -/
def hostRegexG (k : GKind) (e : Bytes) : Bytes × GKind :=
  match k with
  | .posix => ((hostRegex .posix e).1, .posix)
  | .exact => ((hostRegex .exact e).1, .posix)
  | .beg => ((hostRegex .beg e).1, .posix)
  | .suffix => ((hostRegex .suffix e).1, .posix)
  | .contain => ((hostRegex .contain e).1, .posix)
  | .pcre => (b!"^Host:\\s*" ++ (if e.head? = some ch%'^' then e.drop 1 else e), .pcre)

/-- The loop over the lines of a file, /repo/src/config.c:1409-1450: host_prefix_regex changes gp_type. -/
def filePats (host : Bool) (icase multi : Bool) : GKind → List Bytes → List Pattern
  | _, [] => []
  | k, l :: r =>
    if host then ⟨(hostRegexG k l).2, icase, multi, (hostRegexG k l).1⟩ :: filePats host icase multi (hostRegexG k l).2 r
    else ⟨k, icase, multi, l⟩ :: filePats host icase multi k r

/-- parse_cond_matcher, /repo/src/config.c:1363-1501: `mk` makes the condition of a pattern; `host`: type is COND_HOST. -/
def condMatcher (e : CfgEnv) (mk : Pattern → CTest) (host : Bool) (dflRe kind : GKind) (icase multi : Bool) (ts : List Tok) : Option (CCond × List Tok) :=
  match matchMode e dflRe true ts ⟨kind, icase, false⟩ with
  | some (m, .string p :: r) =>
    if m.file then
      match e.file p with
      | none => none
      | some text =>
        if (filePats host m.icase multi m.kind (patLines text.length text)).all e.compiles then
          some (.bool .or ((filePats host m.icase multi m.kind (patLines text.length text)).map fun q => .test (mk q)), r)
        else none
    else if e.compiles (if host then ⟨(hostRegexG m.kind p).2, m.icase, multi, (hostRegexG m.kind p).1⟩ else ⟨m.kind, m.icase, multi, p⟩) then
      some (.test (mk (if host then ⟨(hostRegexG m.kind p).2, m.icase, multi, (hostRegexG m.kind p).1⟩ else ⟨m.kind, m.icase, multi, p⟩)), r)
    else none
  | _ => none

/-- The loop in parse_acl, /repo/src/config.c:540-563, without Include; parse_cidr takes a string. -/
def aclLoop (e : CfgEnv) : List Tok → List Bytes → Option (List Bytes × List Tok)
  | .nl :: r, acc => aclLoop e r acc
  | .ident w :: r, acc => if ciEq b!"end" w then some (acc, r) else none
  | .string s :: r, acc => if e.net s then aclLoop e r (acc ++ [s]) else none
  | _, _ => none

/-- parse_acl_ref, /repo/src/config.c:599-631 -/
def aclRef (e : CfgEnv) : List Tok → Option (CTest × List Tok)
  | .nl :: r => (aclLoop e r []).map fun x => (.aclOf x.1, x.2)
  | .string s :: r => if e.acl s then some (.acl s, r) else none
  | _ => none

/-- The parsers in match_conditions -/
inductive CondKw where
  | acl | url | path | query | param | hdr | deny | host | auth | strMatch | group | not | cert
deriving DecidableEq, Repr

/-- parser_find, /repo/src/cfgparser.c:944-983, in a table without references (see `parserFind` for those); aliases are given with what they stand for. -/
def kwFind {κ : Type} (tab : List (Bytes × κ)) (name : Bytes) : Option κ := (tab.find? fun x => ciEq x.1 name).map (·.2)

/-- match_conditions, /repo/src/config.c:1908-1969 -/
def condTable : List (Bytes × CondKw) :=
  [(b!"ACL", .acl), (b!"URL", .url), (b!"Path", .path), (b!"Query", .query), (b!"QueryParam", .param), (b!"Header", .hdr), (b!"HeadRequire", .hdr), (b!"HeadDeny", .deny),
   (b!"Host", .host), (b!"BasicAuth", .auth), (b!"StringMatch", .strMatch), (b!"Match", .group), (b!"NOT", .not), (b!"ClientCert", .cert)]

/-- The parsers of conditions but for Match and NOT, /repo/src/config.c:1503-1626, with service_cond_append, :1126-1136: the condition and the tokens left -/
def simpleCond (e : CfgEnv) (d : Dfl) : CondKw → List Tok → Option (CCond × List Tok)
  | .acl, ts => (aclRef e ts).map fun x => (.test x.1, x.2)
  | .url, ts => condMatcher e .url false d.reType d.reType d.icase false ts
  | .path, ts => condMatcher e .path false d.reType d.reType d.icase false ts
  | .query, ts => condMatcher e .query false d.reType d.reType d.icase false ts
  | .param, .string a :: ts => condMatcher e (.param a) false d.reType d.reType d.icase false ts
  | .strMatch, .string a :: ts => condMatcher e (.strMatch a) false d.reType d.reType d.icase false ts
  | .hdr, ts => condMatcher e .hdr false d.reType d.reType true true ts
  | .deny, ts => (condMatcher e .hdr false d.reType d.reType true true ts).map fun x => (.bool .not [x.1], x.2)
  | .host, ts => condMatcher e .host true d.reType .exact true false ts
  | .auth, .string f :: ts => some (.test (.auth f), ts)
  | .cert, .string f :: ts => if e.cert f then some (.test (.cert f), ts) else none
  | _, _ => none

/-- The argument of Match, /repo/src/config.c:1880-1904 -/
def matchOp : List Tok → Option (BoolOp × List Tok)
  | .ident w :: r => if ciEq w b!"and" then some (.and, r) else if ciEq w b!"or" then some (.or, r) else none
  | .eof :: _ => none
  | .error :: _ => none
  | [] => none
  | ts => some (.and, ts)

/-- End, /repo/src/cfgparser.c:1183-1187 -/
def endParser {σ : Type} : LParser σ := fun s => .fin s

/-- logcon_parsetab, /repo/src/config.c:1992-2003 -/
def blockFind {σ : Type} (find : Bytes → Option (LParser σ)) (name : Bytes) : Option (LParser σ) :=
  if ciEq b!"End" name then some endParser else find name

/-- The parser of a condition: parse_match and parse_cond, parse_not_cond, /repo/src/config.c:1880-1904, 1980-2013; `run` is cfgparser with negate_parsetab (single) or
logcon_parsetab. -/
def condParser (e : CfgEnv) (d : Dfl) (run : Bool → LParser (List CCond)) (k : CondKw) : LParser (List CCond) := fun s =>
  if k = .not then
    match run true ⟨[], s.toks, s.errs⟩ with
    | .ok s2 => .ok ⟨s.data ++ [.bool .not s2.data], s2.toks, s2.errs⟩
    | .nonl s2 => .nonl ⟨s.data ++ [.bool .not s2.data], s2.toks, s2.errs⟩
    | .fin s2 => .fin ⟨s.data ++ [.bool .not s2.data], s2.toks, s2.errs⟩
    | .fail => .fail
  else if k = .group then
    match matchOp s.toks with
    | none => .fail
    | some (op, r) =>
      match run false ⟨[], r, s.errs⟩ with
      | .ok s2 => .ok ⟨s.data ++ [.bool op s2.data], s2.toks, s2.errs⟩
      | _ => .fail
  else
    match simpleCond e d k s.toks with
    | none => .fail
    | some (c, r) => .ok ⟨s.data ++ [c], r, s.errs⟩

/-- match_conditions: the parser of a keyword; conditions nested at most `n` deep, at most `n` statements in each section -/
def condFind (e : CfgEnv) (d : Dfl) : Nat → Bytes → Option (LParser (List CCond))
  | 0, _ => none
  | n + 1, name =>
    match kwFind condTable name with
    | some k =>
      some (condParser e d (fun single s => if single then cfgL (condFind e d n) true false n s else cfgL (blockFind (condFind e d n)) false true n s) k)
    | none => none

/-! ### Rewriting rules -/

/-- REWRITE_OP but for rules, /repo/src/pound.h:720-748 -/
inductive CPrim where
  | hdrDel (p : Pattern)
  | hdrSet (t : Bytes)
  | paramSet (name t : Bytes)
  | urlSet (t : Bytes)
  | pathSet (t : Bytes)
  | querySet (t : Bytes)
deriving DecidableEq, Repr

mutual
/-- REWRITE_OP, /repo/src/pound.h:733-748 -/
inductive CRop where
  | prim (p : CPrim)
  | rule (r : CRule)
/-- REWRITE_RULE, /repo/src/pound.h:750-756: the conditions are those of its COND_BOOL with BOOL_AND; `null` is the NULL pointer. -/
inductive CRule where
  | null
  | mk (conds : List CCond) (ops : List CRop) (iffalse : CRule)
end

/-- A rule that is being read -/
structure RuleSt where
  conds : List CCond
  ops : List CRop
  els : CRule

/-- rewrite_rule_alloc, /repo/src/config.c:2199-2212 -/
def RuleSt.empty : RuleSt := ⟨[], [], .null⟩

/-- The rule that was read -/
def RuleSt.rule (r : RuleSt) : CRule := .mk r.conds r.ops r.els

/-- The parsers in rewrite_ops -/
inductive OpKw where
  | setHdr | delHdr | setUrl | setPath | setQuery | setParam
deriving DecidableEq, Repr

/-- rewrite_ops, /repo/src/config.c:2025-2050 -/
def opTable : List (Bytes × OpKw) :=
  [(b!"SetHeader", .setHdr), (b!"DeleteHeader", .delHdr), (b!"SetURL", .setUrl), (b!"SetPath", .setPath), (b!"SetQuery", .setQuery), (b!"SetQueryParam", .setParam)]

/-- rewrite_response_ops, /repo/src/config.c:2250-2260 -/
def respOpTable : List (Bytes × OpKw) := [(b!"SetHeader", .setHdr), (b!"DeleteHeader", .delHdr)]

/-- match_response_conditions, /repo/src/config.c:2230-2248 -/
def respCondTable : List (Bytes × CondKw) := [(b!"Header", .hdr), (b!"StringMatch", .strMatch), (b!"Match", .group), (b!"NOT", .not)]

/-- parse_rewrite_op, parse_delete_header, parse_set_query_param, /repo/src/config.c:2121-2197 -/
def parseOp (e : CfgEnv) (d : Dfl) : OpKw → List Tok → Option (CPrim × List Tok)
  | .setHdr, .string t :: r => some (.hdrSet t, r)
  | .setUrl, .string t :: r => some (.urlSet t, r)
  | .setPath, .string t :: r => some (.pathSet t, r)
  | .setQuery, .string t :: r => some (.querySet t, r)
  | .setParam, .string n :: .string t :: r => some (.paramSet n t, r)
  | .delHdr, ts => (regexCompat e d.reType d.icase ts).map fun x => (.hdrDel x.1, x.2)
  | _, _ => none

/-- Which of the four tables of a rule: that of request or of response rules, and whether it is the one after Else -/
structure RuleTab where
  resp : Bool
  els : Bool
deriving DecidableEq, Repr

/-- Conditions in a table of a rule: match_conditions or match_response_conditions; the ones inside Match and NOT are those of match_conditions. -/
def ruleCond (e : CfgEnv) (d : Dfl) (n : Nat) (resp : Bool) (name : Bytes) : Option (LParser (List CCond)) :=
  if resp then
    match kwFind respCondTable name with
    | some _ => condFind e d n name
    | none => none
  else condFind e d n name

/-- rewrite_ops or rewrite_response_ops -/
def ruleOp (e : CfgEnv) (d : Dfl) (resp : Bool) (name : Bytes) : Option (List Tok → Option (CPrim × List Tok)) :=
  match kwFind (if resp then respOpTable else opTable) name with
  | some k => some (parseOp e d k)
  | none => none

/-- A condition in a rule (offset of cond) -/
def inRule (p : LParser (List CCond)) : LParser RuleSt := fun s =>
  match p ⟨s.data.conds, s.toks, s.errs⟩ with
  | .ok s2 => .ok ⟨{ s.data with conds := s2.data }, s2.toks, s2.errs⟩
  | .nonl s2 => .nonl ⟨{ s.data with conds := s2.data }, s2.toks, s2.errs⟩
  | .fin s2 => .fin ⟨{ s.data with conds := s2.data }, s2.toks, s2.errs⟩
  | .fail => .fail

/-- End in a rule, /repo/src/config.c:2082-2089: after Else, it is put back for the rule before, with a newline. -/
def ruleEnd (els : Bool) (name : Bytes) : LParser RuleSt := fun s => if els then .fin { s with toks := .nl :: .ident name :: s.toks } else .fin s

/-- The tables of rules, rewrite_rule_parsetab, else_rule_parsetab, response_rewrite_rule_parsetab, response_else_rule_parsetab, /repo/src/config.c:2052-2119, 2262-2324,
with parse_else, parse_sub_rewrite and their variants for responses, :2214-2228, 2326-2340.  In the last table, Else is that of requests (:2308).  `run` is parser_loop. -/
def ruleParser (e : CfgEnv) (d : Dfl) (n : Nat) (run : RuleTab → LParser RuleSt) (t : RuleTab) (name : Bytes) : Option (LParser RuleSt) :=
  if ciEq b!"End" name then some (ruleEnd t.els name)
  else if ciEq b!"Rewrite" name then
    some fun s =>
      match run ⟨t.resp, false⟩ ⟨.empty, s.toks, s.errs⟩ with
      | .ok s2 => .ok ⟨{ s.data with ops := s.data.ops ++ [.rule s2.data.rule] }, s2.toks, s2.errs⟩
      | _ => .fail
  else if ciEq b!"Else" name then
    some fun s =>
      match run ⟨t.resp && !t.els, true⟩ ⟨.empty, s.toks, s.errs⟩ with
      | .ok s2 => .ok ⟨{ s.data with els := s2.data.rule }, s2.toks, s2.errs⟩
      | _ => .fail
  else
    match ruleCond e d n t.resp name with
    | some p => some (inRule p)
    | none =>
      match ruleOp e d t.resp name with
      | none => none
      | some p => some fun s =>
        match p s.toks with
        | none => .fail
        | some (o, r) => .ok ⟨{ s.data with ops := s.data.ops ++ [.prim o] }, r, s.errs⟩

/-- parser_loop on one of the tables of rules, without a range: the end of the file ends the section. -/
def ruleLoop (e : CfgEnv) (d : Dfl) : Nat → RuleTab → LParser RuleSt
  | 0, _, _ => .fail
  | n + 1, t, s => cfgL (ruleParser e d n (ruleLoop e d n) t) false false n s

/-- The argument of Rewrite, /repo/src/config.c:2348-2375: whether the rule is for responses -/
def rewriteArg : List Tok → Option (Bool × List Tok)
  | .ident w :: r => if ciEq w b!"response" then some (true, r) else if ciEq w b!"request" then some (false, r) else none
  | .eof :: _ => none
  | .error :: _ => none
  | [] => none
  | ts => some (false, ts)

/-! ### Services -/

/-- The part of SERVICE, /repo/src/pound.h:801-830, that is set here, and the defaults, which are shared with the other services -/
structure SvcCfg where
  dfl : Dfl
  conds : List CCond
  req : List CRule
  resp : List CRule
  disabled : Bool

/-- rewrite_rule_last_uncond, /repo/src/config.c:2378-2389, and appending an operation to that rule (SETFN_SVC_DECL, :2396-2409) -/
def addUncond (o : CRop) : List CRule → List CRule
  | [] => [.mk [] [o] .null]
  | [.mk [] ops els] => [.mk [] (ops ++ [o]) els]
  | [r] => [r, .mk [] [o] .null]
  | r :: rs => r :: addUncond o rs

/-- A condition in a service (offset of cond) -/
def inSvc (p : LParser (List CCond)) : LParser SvcCfg := fun s =>
  match p ⟨s.data.conds, s.toks, s.errs⟩ with
  | .ok s2 => .ok ⟨{ s.data with conds := s2.data }, s2.toks, s2.errs⟩
  | .nonl s2 => .nonl ⟨{ s.data with conds := s2.data }, s2.toks, s2.errs⟩
  | .fin s2 => .fin ⟨{ s.data with conds := s2.data }, s2.toks, s2.errs⟩
  | .fail => .fail

/-- A boolean argument, cfg_assign_bool -/
def boolArg : List Tok → Option (Bool × List Tok)
  | [] => none
  | t :: r =>
    match assignBool t with
    | .ok (some b) => some (b, r)
    | _ => none

/-- parse_rewrite, /repo/src/config.c:2341-2376 -/
def rewriteParser (run : RuleTab → LParser RuleSt) : LParser SvcCfg := fun s =>
  match rewriteArg s.toks with
  | none => .fail
  | some (resp, r) =>
    match run ⟨resp, false⟩ ⟨.empty, r, s.errs⟩ with
    | .ok s2 =>
      if resp then .ok ⟨{ s.data with resp := s.data.resp ++ [s2.data.rule] }, s2.toks, s2.errs⟩
      else .ok ⟨{ s.data with req := s.data.req ++ [s2.data.rule] }, s2.toks, s2.errs⟩
    | _ => .fail

/-- service_parsetab, /repo/src/config.c:2503-2623: conditions, rewriting, Disabled, IgnoreCase (assign_dfl_ignore_case, :1871-1876) and End.  The other statements, which do not
change any of this, are in Model/SvcAll.lean. -/
def svcFind (e : CfgEnv) (n : Nat) (d : Dfl) (name : Bytes) : Option (LParser SvcCfg) :=
  if ciEq b!"End" name then some endParser
  else
    match condFind e d n name with
    | some p => some (inSvc p)
    | none =>
      if ciEq b!"Rewrite" name then some (rewriteParser (ruleLoop e d n))
      else
        match ruleOp e d false name with
        | some p => some fun s =>
          match p s.toks with
          | none => .fail
          | some (o, r) => .ok ⟨{ s.data with req := addUncond (.prim o) s.data.req }, r, s.errs⟩
        | none =>
          if ciEq b!"Disabled" name then
            some fun s => match boolArg s.toks with
              | none => .fail
              | some (b, r) => .ok ⟨{ s.data with disabled := b }, r, s.errs⟩
          else if ciEq b!"IgnoreCase" name then
            some fun s => match boolArg s.toks with
              | none => .fail
              | some (b, r) => .ok ⟨{ s.data with dfl := { s.data.dfl with icase := b } }, r, s.errs⟩
          else none

/-! ### The conditions and rules at run time -/

/-- The compiled patterns (see C33, C34, C47 for what they match), and the access lists, files of users and certificates the conditions refer to -/
structure Installed where
  re : Pattern → Re
  acl : Bytes → Nat
  nets : List Bytes → Nat
  auth : Bytes → Nat
  cert : Bytes → Nat

/-- An elementary condition at run time: the structure of the configuration itself, /repo/src/pound.h:685-699, with genpat_match -/
def Installed.test (k : Installed) : CTest → Elem
  | .acl n => .acl (k.acl n)
  | .aclOf l => .acl (k.nets l)
  | .url p => .url (k.re p)
  | .path p => .path (k.re p)
  | .query p => .query (k.re p)
  | .param n p => .param n (k.re p)
  | .hdr p => .hdr (k.re p)
  | .host p => .host (k.re p)
  | .auth f => .auth (k.auth f)
  | .strMatch t p => .strMatch t (k.re p)
  | .cert f => .cert (k.cert f)

/-- A modification at run time, /repo/src/pound.h:733-748 -/
def Installed.prim (k : Installed) : CPrim → RwPrim
  | .hdrDel p => .hdrDel (k.re p)
  | .hdrSet t => .hdrSet t
  | .paramSet n t => .paramSet n t
  | .urlSet t => .urlSet t
  | .pathSet t => .pathSet t
  | .querySet t => .querySet t

mutual
/-- A condition at run time, /repo/src/pound.h:685-699 -/
def Installed.cond (k : Installed) : CCond → Cond
  | .test t => .elem (k.test t)
  | .bool op cs => .bool op (k.conds cs)
/-- Several conditions -/
def Installed.conds (k : Installed) : List CCond → List Cond
  | [] => []
  | c :: cs => k.cond c :: k.conds cs
end

mutual
/-- An operation at run time, /repo/src/pound.h:733-748 -/
def Installed.op (k : Installed) : CRop → RwOp
  | .prim p => .prim (k.prim p)
  | .rule r => .rule (k.rule r)
/-- A rule at run time, /repo/src/pound.h:750-756; its conditions are the operands of BOOL_AND (rewrite_rule_alloc, /repo/src/config.c:2199-2212). -/
def Installed.rule (k : Installed) : CRule → RwRule
  | .null => .null
  | .mk cs ops els => .mk (.bool .and (k.conds cs)) (k.ops ops) (k.rule els)
/-- Several operations -/
def Installed.ops (k : Installed) : List CRop → List RwOp
  | [] => []
  | o :: t => k.op o :: k.ops t
end

/-- What get_service looks at of a service; its conditions are the operands of BOOL_AND (new_service, /repo/src/config.c:2637-2655). -/
def Installed.svc (k : Installed) (x : SvcCfg) : Svc := ⟨.bool .and (k.conds x.conds), x.disabled⟩

end Pound
