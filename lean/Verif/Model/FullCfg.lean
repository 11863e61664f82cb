import Verif.Model.SvcAll

/-!
A whole configuration with all that is said in its services: /repo/src/config.c:4488-4683, 5131-5183.

As in Model/TopCfg.lean, but services have their conditions, rules, sessions and backends, and there are access lists, at the top level and for listeners.  Left out are Include and
IncludeDir (C63, C65), ECDHCurve and SSLEngine, ConfigText in Resolver, ACME, and the deprecated HeaderAdd, AddHeader, HeaderRemove
and HeadRemove.
-/

namespace Pound

mutual
/-- foreach_client_cert, /repo/src/config.c:3302-3331: the certificates the call-back is called with.  Rules of a service are not looked at. -/
def condCerts : CCond → List Bytes
  | .test (.cert f) => [f]
  | .test _ => []
  | .bool _ cs => condsCerts cs
/-- The loop over the operands, /repo/src/config.c:3318-3325 -/
def condsCerts : List CCond → List Bytes
  | [] => []
  | c :: cs => condCerts c ++ condsCerts cs
end

/-- SERVICE, /repo/src/pound.h:798-840: its name, what `parseService` reads of it -/
structure FullSvc where
  name : Option Bytes
  cfg : SvcCfg
  rest : SvcRest

/-- The certificates of services, /repo/src/config.c:3333-3346, 4032-4041 -/
def svcsCerts (l : List FullSvc) : List Bytes := l.flatMap fun x => condsCerts x.cfg.conds

/-- The name of a service, /repo/src/config.c:2665-2678 -/
def svcName : List Tok → Option Bytes
  | .string nm :: _ => some nm
  | _ => none

/-- parse_service, /repo/src/config.c:2657-2697, at the end of a list of services.  The service reads and writes the defaults of the whole configuration: `section_data` is the
POUND_DEFAULTS of the caller, so that IgnoreCase (/repo/src/config.c:1871-1876, 2615-2620) in a service counts for all that comes after it. -/
def fullSvcParser (e : CfgEnv) (be : BeEnv) (d : BeDfl) (algo : Algo) (n : Nat) : LParser (Dfl × List FullSvc) := fun s =>
  match parseService e be n (s.data.2.filterMap (·.name)) ⟨s.data.1, d, algo⟩ s.toks s.errs with
  | .ok t => .ok ⟨(t.data.1.dfl, s.data.2 ++ [⟨svcName s.toks, t.data.1, t.data.2⟩]), t.toks, t.errs⟩
  | _ => .fail

/-- assign_acl, /repo/src/config.c:633-637 -/
def trustParser (e : CfgEnv) : LParser (Option CTest) := fun s =>
  match aclRef e s.toks with
  | some (t, r) => .ok ⟨some t, r, s.errs⟩
  | none => .fail

/-- parse_named_acl, /repo/src/config.c:567-590, with acl_by_name, :509-519 -/
def namedAclParser (e : CfgEnv) : LParser (List (Bytes × List Bytes)) := fun s =>
  match s.toks with
  | .string nm :: .nl :: r =>
    if s.data.any fun x => x.1 == nm then .fail
    else
      match aclLoop e r [] with
      | some (l, r') => .ok ⟨s.data ++ [(nm, l)], r', s.errs⟩
      | none => .fail
  | _ => .fail

/-- What statements that are not settings make of a listener: the defaults of conditions from there on, its services, the addresses it trusts, and its rules for requests and for
responses -/
structure LOther where
  re : Dfl
  svcs : List FullSvc
  trusted : Option CTest
  req : List CRule
  resp : List CRule

/-- parse_rewrite, /repo/src/config.c:2340-2375, in a listener, :3078-3082.  A rule that is ended by the end of the file is taken by the program; the listener is then refused, since its
End is missing.  Here it is refused at once. -/
def lstRewrite (e : CfgEnv) (n : Nat) : LParser LOther := fun s =>
  match rewriteArg s.toks with
  | none => .fail
  | some (resp, r) =>
    match ruleLoop e s.data.re n ⟨resp, false⟩ ⟨.empty, r, s.errs⟩ with
    | .ok ⟨x, .nl :: r', er⟩ =>
      if resp then .ok ⟨{ s.data with resp := s.data.resp ++ [x.rule] }, .nl :: r', er⟩
      else .ok ⟨{ s.data with req := s.data.req ++ [x.rule] }, .nl :: r', er⟩
    | _ => .fail

/-- rewrite_rule_last_uncond, SETFN_SVC_DECL, /repo/src/config.c:2377-2409, in a listener, :3083-3134: a modification without conditions -/
def lstOp (e : CfgEnv) (name : Bytes) : Option (LParser LOther) :=
  (kwFind opTable name).map fun k s =>
    match parseOp e s.data.re k s.toks with
    | none => .fail
    | some (o, r) => .ok ⟨{ s.data with req := addUncond (.prim o) s.data.req }, r, s.errs⟩

/-- Rules, TrustedIP and Service in http_common, /repo/src/config.c:3078-3134, 3161-3171 -/
def lstOther (e : CfgEnv) (be : BeEnv) (d : BeDfl) (algo : Algo) (n : Nat) : Bytes → Option (LParser LOther) :=
  orFind (kwStmt b!"TrustedIP" (onLens LOther.trusted (fun o x => { o with trusted := x }) (trustParser e))) <|
  orFind (kwStmt b!"Service" (onLens (fun o : LOther => (o.re, o.svcs)) (fun o x => { o with re := x.1, svcs := x.2 }) (fullSvcParser e be d algo n))) <|
  orFind (kwStmt b!"Rewrite" (lstRewrite e n)) (lstOp e)

/-- What a configuration defines -/
structure FullObjs where
  acls : List (Bytes × List Bytes)
  trusted : Option CTest
  named : List NamedBe
  svcs : List FullSvc
  lsts : List (Lst LOther)
  ctls : List Ctl
  res : ResCfg

/-- Nothing; RESOLVER_CONFIG_INITIALIZER, /repo/src/resolver.h:26 -/
def fullInit : FullObjs := ⟨[], none, [], [], [], [], ⟨none, false, 0, 600⟩⟩

/-- The access lists that have been defined, acl_by_name, /repo/src/config.c:509-519 -/
def CfgEnv.withAcls (e : CfgEnv) (acls : List (Bytes × List Bytes)) : CfgEnv := { e with acl := fun s => acls.any fun x => x.1 == s }

/-- The defaults after a listener are those after its last service, /repo/src/config.c:3418, 4095: the section gets the POUND_DEFAULTS of the caller.  Within the listener,
CheckURL is read here with the defaults before it. -/
def reAfter (d : Dfl) (ls : List (Lst LOther)) : Dfl :=
  match ls.getLast? with
  | some x => x.other.re
  | none => d

/-- ListenHTTP and ListenHTTPS, /repo/src/config.c:4631-4638 -/
def fullListen (e : TopEnv) (c : CfgEnv) (g : Glob) (n : Nat) (tls : Bool) : LParser (List (Lst LOther)) :=
  listenParser (g.lstEnv e.lst) g.lstDfl (lstOther c e.be g.beDfl g.algo n) ⟨g.re, [], none, [], []⟩ (fun o => svcsCerts o.svcs) tls n

/-- top_level_parsetab, the statements that are not settings, /repo/src/config.c:4604-4670, with the settings and definitions so far -/
def fullOther (e : TopEnv) (n : Nat) (g : Glob) (o : FullObjs) : Bytes → Option (LParser (Glob × FullObjs)) :=
  orFind (kwStmt b!"ACL" (onLens (fun x : Glob × FullObjs => x.2.acls) (fun x y => (x.1, { x.2 with acls := y })) (namedAclParser (e.lst.cfg.withAcls o.acls)))) <|
  orFind (kwStmt b!"TrustedIP" (onLens (fun x : Glob × FullObjs => x.2.trusted) (fun x y => (x.1, { x.2 with trusted := y })) (trustParser (e.lst.cfg.withAcls o.acls)))) <|
  orFind (kwStmt b!"Backend" (onLens (fun x : Glob × FullObjs => x.2.named) (fun x y => (x.1, { x.2 with named := y })) (namedParser e.be g.beDfl n))) <|
  orFind (kwStmt b!"Service" (onLens (fun x : Glob × FullObjs => (x.1.re, x.2.svcs)) (fun x y => ({ x.1 with re := y.1 }, { x.2 with svcs := y.2 }))
    (fullSvcParser (e.lst.cfg.withAcls o.acls) e.be g.beDfl g.algo n))) <|
  orFind (kwStmt b!"ListenHTTP" (onLens (fun x : Glob × FullObjs => x.2.lsts) (fun x y => ({ x.1 with re := reAfter x.1.re y }, { x.2 with lsts := y }))
    (fullListen e (e.lst.cfg.withAcls o.acls) g n false))) <|
  orFind (kwStmt b!"ListenHTTPS" (onLens (fun x : Glob × FullObjs => x.2.lsts) (fun x y => ({ x.1 with re := reAfter x.1.re y }, { x.2 with lsts := y }))
    (fullListen e (e.lst.cfg.withAcls o.acls) g n true))) <|
  orFind (kwStmt b!"Control" (onLens (fun x : Glob × FullObjs => x.2.ctls) (fun x y => (x.1, { x.2 with ctls := y })) (ctlParser g n))) <|
  kwStmt b!"Resolver" (onLens (fun x : Glob × FullObjs => x.2.res) (fun x y => (x.1, { x.2 with res := y })) (resParser e.lst.file n))

/-- Statements that depend on all that has been read -/
def dynFind {σ : Type} (g : σ → Bytes → Option (LParser σ)) (name : Bytes) : LParser σ := fun s =>
  match g s.data name with
  | some p => p s
  | none => .fail

/-- top_level_parsetab, /repo/src/config.c:4488-4683 -/
def fullFind (e : TopEnv) (n : Nat) (name : Bytes) : Option (LParser (Glob × FullObjs)) :=
  match topFind e.lst.cfg.pcre name with
  | some p => some (onFst p)
  | none => some (dynFind (fun x => fullOther e n x.1 x.2) name)

/-- parse_config_file, /repo/src/config.c:5131-5183, on all the tokens of the file, without service_finalize (C75) and pass_file_fixup: what is read, and the number of messages about
tokens that belong to no statement -/
def parseFull (e : TopEnv) (n : Nat) (ts : List Tok) : Option (Glob × FullObjs × Nat) :=
  match cfgL (fullFind e n) false false n ⟨(globInit, fullInit), ts, 0⟩ with
  | .ok ⟨(g, o), [], er⟩ => if svcsCerts o.svcs ≠ [] then none else if g.wMin > g.wMax then none else some (g, o, er)
  | _ => none

end Pound
