import Verif.Spec.SvcAll
import Verif.Model.FullCfg

/-!
What a whole configuration says: /repo/doc/pound.8:366-2300.
-/

namespace Pound.Spec

/-- Text without what is known to be read in another way than it is documented (C70, C71): Not followed by Not, Host with a file of names, and rules for responses -/
def PlainText (ts : List Tok) : Prop := ¬ NotNot ts ∧ (∀ k, ¬ HostFile k ts) ∧ ¬ Response ts

mutual
/-- The elementary tests in a condition -/
def testsIn : CCond → List CTest
  | .test t => [t]
  | .bool _ cs => testsInAll cs
def testsInAll : List CCond → List CTest
  | [] => []
  | c :: cs => testsIn c ++ testsInAll cs
end

/-- The certificates that services ask for in their conditions -/
def askedCerts (l : List FullSvc) : List Bytes := l.flatMap fun x => (testsInAll x.cfg.conds).filterMap fun
  | .cert f => some f
  | _ => none

/-- A service: its text after the keyword, up to and with its End, and what it is.  `d` are the defaults of conditions before it, `d'` those after it; `names` are the names of the services
before it. -/
structure SvcSays (e : CfgEnv) (be : BeEnv) (bd : BeDfl) (algo : Algo) (d : Dfl) (names : List Bytes) (t : List Tok) (x : FullSvc) (d' : Dfl) : Prop where
  text : ∃ body w cs ss b l,
    (t = body ++ [.ident w] ∧ x.name = none ∨ ∃ nm, t = .string nm :: (body ++ [.ident w]) ∧ x.name = some nm ∧ nm ∉ names) ∧ ciEq b!"End" w = true ∧
    SvcBody e (RestLine e be bd) d d' body cs ss b l ∧
    condFormulas x.cfg.conds = cs ∧ OneNots x.cfg.conds ∧ SameProg (rulesStmts x.cfg.req) ss ∧ x.cfg.resp = [] ∧ x.cfg.disabled = b.getD false ∧
    SessOrder l ∧ RestMeans algo l x.rest

/-- An access list after its name: networks, each a string, on any number of lines, and End -/
def AclText (e : CfgEnv) (t : List Tok) (l : List Bytes) : Prop := ∃ u w, t = .nl :: (u ++ [.ident w]) ∧ Nets e u l ∧ ciEq b!"End" w = true

/-- The argument of TrustedIP: the name of an access list that is defined before, or an access list -/
inductive TrustText (e : CfgEnv) : List Tok → CTest → Prop
  | name {s : Bytes} : e.acl s = true → TrustText e [.string s] (.acl s)
  | list {t : List Tok} {l : List Bytes} : AclText e t l → TrustText e t (.aclOf l)

/-- Statements in listeners that are not settings, with the newline at their end: services, the addresses that are trusted, and modifications of requests, which are added to those before.
How the program represents rules is left open but for what they do. -/
inductive LstStmt (e : CfgEnv) (be : BeEnv) (bd : BeDfl) (algo : Algo) : List Tok → LOther → LOther → Prop
  | service {n : Bytes} {t : List Tok} {o : LOther} {x : FullSvc} {d' : Dfl} : ciEq b!"Service" n = true → SvcSays e be bd algo o.re (o.svcs.filterMap (·.name)) t x d' →
      LstStmt e be bd algo (.ident n :: (t ++ [.nl])) o { o with re := d', svcs := o.svcs ++ [x] }
  | trusted {n : Bytes} {t : List Tok} {o : LOther} {a : CTest} : ciEq b!"TrustedIP" n = true → TrustText e t a →
      LstStmt e be bd algo (.ident n :: (t ++ [.nl])) o { o with trusted := some a }
  | act {t : List Tok} {o : LOther} {p : CPrim} {req : List CRule} : ActStmt e o.re t p → SameProg (rulesStmts req) (rulesStmts o.req ++ [.act p]) →
      LstStmt e be bd algo (t ++ [.nl]) o { o with req := req }
  | rewrite {n : Bytes} {a t : List Tok} {o : LOther} {bs : List (Formula CTest × List RwStmt)} {req : List CRule} : ciEq b!"Rewrite" n = true → RequestArg a → Branches e o.re t bs →
      SameProg (rulesStmts req) (rulesStmts o.req ++ [.cases bs]) → LstStmt e be bd algo (.ident n :: (a ++ (t ++ [.nl]))) o { o with req := req }

/-- Of all access lists that could be, those with these names are defined. -/
def aclsDefined (e : CfgEnv) (acls : List (Bytes × List Bytes)) : CfgEnv := { e with acl := fun s => decide (∃ x ∈ acls, x.1 = s) }

/-- A statement at the top level that is not a setting, with the newline at its end, and what there is afterwards.  `g` are the settings in force.  After a service or a listener, whether
case is ignored in what follows is what was last said, be it within that service or listener: this is a setting like others (the third argument). -/
inductive FullStmt (e : TopEnv) (g : Glob) : List Tok → FullObjs → List TopSet → FullObjs → Prop
  | acl {n name : Bytes} {t : List Tok} {l : List Bytes} {o : FullObjs} : ciEq b!"ACL" n = true → (∀ x ∈ o.acls, x.1 ≠ name) → AclText e.lst.cfg t l →
      FullStmt e g (.ident n :: .string name :: (t ++ [.nl])) o [] { o with acls := o.acls ++ [(name, l)] }
  | trusted {n : Bytes} {t : List Tok} {a : CTest} {o : FullObjs} : ciEq b!"TrustedIP" n = true → TrustText (aclsDefined e.lst.cfg o.acls) t a →
      FullStmt e g (.ident n :: (t ++ [.nl])) o [] { o with trusted := some a }
  | backend {n name : Bytes} {t : List Tok} {b : BeSt} {o : FullObjs} : ciEq b!"Backend" n = true → BeSection e.be ⟨g.timeOut, g.connTo, g.wsTimeOut⟩ t b → (∀ x ∈ o.named, x.name ≠ name) →
      FullStmt e g (.ident n :: .string name :: (t ++ [.nl])) o [] { o with named := ⟨name, b.prio, b.disabled, b.m⟩ :: o.named }
  | service {n : Bytes} {t : List Tok} {o : FullObjs} {x : FullSvc} {d' : Dfl} : ciEq b!"Service" n = true →
      SvcSays (aclsDefined e.lst.cfg o.acls) e.be ⟨g.timeOut, g.connTo, g.wsTimeOut⟩ g.algo g.re (o.svcs.filterMap (·.name)) t x d' →
      FullStmt e g (.ident n :: (t ++ [.nl])) o [.icase d'.icase] { o with svcs := o.svcs ++ [x] }
  | listener {n : Bytes} {t : List Tok} {o : FullObjs} {x : Lst LOther} : ciEq (if x.tls then b!"ListenHTTPS" else b!"ListenHTTP") n = true →
      Listens { e.lst with formats := g.formats } ⟨g.client, g.logLevel, g.hdr, g.re⟩ (LstStmt (aclsDefined e.lst.cfg o.acls) e.be ⟨g.timeOut, g.connTo, g.wsTimeOut⟩ g.algo) ⟨g.re, [], none, [], []⟩
        (fun y => askedCerts y.svcs) (o.lsts.filterMap (·.name)) t x →
      FullStmt e g (.ident n :: (t ++ [.nl])) o [.icase x.other.re.icase] { o with lsts := o.lsts ++ [x] }
  | control {t : List Tok} {o : FullObjs} {c : Ctl} : CtlStmt g t c → FullStmt e g t o [] { o with ctls := o.ctls ++ [c] }
  | resolver {t : List Tok} {o : FullObjs} {r : ResCfg} : ResStmt e.lst.file o.res t r → FullStmt e g t o [] { o with res := r }

/-- The text of a configuration from some place on: `l` are the settings before, `o` is what has been defined before; `l'` and `o'` are all of them. -/
inductive FullBody (e : TopEnv) : List Tok → List TopSet → FullObjs → List TopSet → FullObjs → Prop
  | stop {l : List TopSet} {o : FullObjs} : FullBody e [] l o l o
  | blank {t : List Tok} {l l' : List TopSet} {o o' : FullObjs} : FullBody e t l o l' o' → FullBody e (.nl :: t) l o l' o'
  | set {w n : Bytes} {a t : List Tok} {x : TopSet} {l l' : List TopSet} {o o' : FullObjs} : TopArgs e.lst.cfg.pcre w a x → ciEq w n = true → FullBody e t (l ++ [x]) o l' o' →
      FullBody e (.ident n :: (a ++ .nl :: t)) l o l' o'
  | stmt {a t : List Tok} {g : Glob} {xs l l' : List TopSet} {o o1 o' : FullObjs} : GlobMeans l g → FullStmt e g a o xs o1 → FullBody e t (l ++ xs) o1 l' o' → FullBody e (a ++ t) l o l' o'

/-- A configuration: its text, the settings and what it defines.  Services at the top level do not ask for certificates. -/
structure FullConfigures (e : TopEnv) (t : List Tok) (g : Glob) (o : FullObjs) : Prop where
  body : ∃ l, FullBody e t [] ⟨[], none, [], [], [], [], ⟨none, false, 0, 600⟩⟩ l o ∧ GlobOrder l ∧ GlobMeans l g
  workers : g.wMin ≤ g.wMax
  certs : askedCerts o.svcs = []

/-- Services that are the same but for how their conditions and rules are represented -/
structure SameSvc (x y : FullSvc) : Prop where
  name : x.name = y.name
  conds : condFormulas x.cfg.conds = condFormulas y.cfg.conds
  certs : askedCerts [x] = askedCerts [y]
  req : SameProg (rulesStmts x.cfg.req) (rulesStmts y.cfg.req)
  resp : x.cfg.resp = y.cfg.resp
  disabled : x.cfg.disabled = y.cfg.disabled
  rest : x.rest = y.rest

/-- The same of what is in listeners -/
structure SameOther (x y : LOther) : Prop where
  re : x.re = y.re
  svcs : Each SameSvc x.svcs y.svcs
  trusted : x.trusted = y.trusted
  req : SameProg (rulesStmts x.req) (rulesStmts y.req)
  resp : x.resp = y.resp

/-- Listeners that are the same but for that of their services -/
structure SameLst (x y : Lst LOther) : Prop where
  name : x.name = y.name
  tls : x.tls = y.tls
  addr : x.addr = y.addr
  st : x.st = y.st
  other : SameOther x.other y.other

/-- Definitions that are the same but for that of the services -/
structure SameObjs (x y : FullObjs) : Prop where
  acls : x.acls = y.acls
  trusted : x.trusted = y.trusted
  named : x.named = y.named
  svcs : Each SameSvc x.svcs y.svcs
  lsts : Each SameLst x.lsts y.lsts
  ctls : x.ctls = y.ctls
  res : x.res = y.res

end Pound.Spec
