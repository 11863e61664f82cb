import Verif.Model.TopCfg
import Verif.Model.Backend

/-!
Sections of services with all their statements: /repo/src/config.c:599-637, 1764-1869, 2446-2700.

Conditions and rules are in Model/SvcCfg.lean, backends in Model/BeCfg.lean.  Statements that include files are left out.
-/

namespace Pound

/-! ### Session -/

/-- sess_type, sess_ttl and sess_id in SERVICE, /repo/src/pound.h:801-830 -/
structure SessCfg where
  type : SessType
  ttl : Nat
  id : Option Bytes
deriving DecidableEq, Repr

/-- What statements in Session say -/
inductive SessSetting where
  | type (k : SessType)
  | ttl (n : Nat)
  | id (s : Bytes)
deriving DecidableEq, Repr

/-- The parsers in session_parsetab -/
inductive SessKw where
  | type | ttl | id
deriving DecidableEq, Repr

/-- sess_type_tab, /repo/src/config.c:1771-1779 -/
def sessTypes : List (Bytes × SessType) :=
  [(b!"IP", .ip), (b!"COOKIE", .cookie), (b!"URL", .url), (b!"PARM", .parm), (b!"BASIC", .basic), (b!"HEADER", .header)]

/-- session_parsetab, /repo/src/config.c:1809-1829, without End -/
def sessTable : List (Bytes × SessKw) := [(b!"Type", .type), (b!"TTL", .ttl), (b!"ID", .id)]

/-- Their arguments; for the type session_type_parser, /repo/src/config.c:1789-1807, with kw_to_tok, which ignores case here, as `kwFind` does -/
def sessArg : SessKw → List Tok → Option (SessSetting × List Tok)
  | .type => fun ts => match ts with
    | .ident w :: r => (kwFind sessTypes w).map fun k => (.type k, r)
    | _ => none
  | .ttl => fun ts => match ts with
    | t :: r => (resArg (assignUnsigned t)).map fun v => (.ttl v, r)
    | [] => none
  | .id => fun ts => match ts with
    | t :: r => (strArg t).map fun v => (.id v, r)
    | [] => none

/-- Their assignments -/
def sessApply : SessSetting → SessCfg → Option SessCfg
  | .type k, s => some { s with type := k }
  | .ttl n, s => some { s with ttl := n }
  | .id x, s => some { s with id := some x }

/-- session_parsetab -/
def sessFind (name : Bytes) : Option (LParser SessCfg) :=
  if ciEq b!"End" name then some endParser else (kwFind sessTable name).map fun k => setParser (sessArg k) false sessApply

/-- What parse_session checks after the section, /repo/src/config.c:1840-1866 -/
def sessOk (s : SessCfg) : Bool :=
  s.type != .none && s.ttl != 0 && (match s.type with | .cookie | .url | .header => s.id.isSome | _ => true)

/-- parse_session, /repo/src/config.c:1831-1869: it works on the settings the service has already. -/
def sessParser (n : Nat) : LParser SessCfg := fun s =>
  match cfgL sessFind false true n s with
  | .ok s2 => if sessOk s2.data then .ok s2 else .fail
  | _ => .fail

/-! ### The other statements -/

/-- The part of SERVICE, /repo/src/pound.h:801-830, that conditions and rules do not concern; the trusted addresses are given by how they are referred to. -/
structure SvcRest where
  bes : SvcBes
  sess : SessCfg
  fwd : Option Bytes
  trusted : Option CTest
  suppress : Nat
deriving DecidableEq, Repr

/-- new_service, /repo/src/config.c:2637-2655 -/
def SvcRest.init (algo : Algo) : SvcRest := ⟨⟨algo, []⟩, ⟨.none, 0, none⟩, none, none, 0⟩

/-- What some statements in a service say -/
inductive MiscSet where
  | fwd (s : Bytes)
  | trusted (a : CTest)
  | suppress (mask : Nat)
deriving DecidableEq, Repr

/-- Their parsers -/
inductive MiscKw where
  | fwd | trusted
deriving DecidableEq, Repr

/-- Some entries of service_parsetab, /repo/src/config.c:2597-2611 -/
def miscTable : List (Bytes × MiscKw) := [(b!"ForwardedHeader", .fwd), (b!"TrustedIP", .trusted)]

/-- The words at the beginning, and what follows -/
def unqWords : List Tok → List Bytes × List Tok
  | [] => ([], [])
  | t :: r => if isUnqTok t then (t.text :: (unqWords r).1, (unqWords r).2) else ([], t :: r)

/-- parse_log_suppress, /repo/src/config.c:2446-2501 -/
def suppressArg (ts : List Tok) : Option (MiscSet × List Tok) :=
  match (unqWords ts).1, (unqWords ts).2 with
  | [], _ => none
  | _, [] => none
  | _, .eof :: _ => none
  | _, .error :: _ => none
  | ws, r => (suppressMask 0 ws).map fun m => (.suppress m, r)

/-- The arguments: cfg_assign_string and assign_acl (/repo/src/config.c:633-637) -/
def miscArg (e : CfgEnv) : MiscKw → List Tok → Option (MiscSet × List Tok)
  | .fwd => fun ts => match ts with
    | t :: r => (strArg t).map fun v => (.fwd v, r)
    | [] => none
  | .trusted => fun ts => (aclRef e ts).map fun x => (.trusted x.1, x.2)

/-- Their assignments -/
def miscApply : MiscSet → SvcRest → Option SvcRest
  | .fwd s, r => some { r with fwd := some s }
  | .trusted a, r => some { r with trusted := some a }
  | .suppress m, r => some { r with suppress := m }

/-- service_parsetab, /repo/src/config.c:2503-2623, without the statements of `svcFind` -/
def svcRestFind (e : CfgEnv) (be : BeEnv) (d : BeDfl) (n : Nat) : Bytes → Option (LParser SvcRest) :=
  orFind (fun name => (kwFind svcBeTable name).map fun k => onLens SvcRest.bes (fun o x => { o with bes := x }) (svcBeParser be d n k)) <|
  orFind (kwStmt b!"Session" (onLens SvcRest.sess (fun o x => { o with sess := x }) (sessParser n))) <|
  orFind (kwStmt b!"LogSuppress" (setParser suppressArg false miscApply))
    (fun name => (kwFind miscTable name).map fun k => setParser (miscArg e k) false miscApply)

/-! ### The section -/

/-- service_parsetab, /repo/src/config.c:2503-2623; the defaults of conditions are those at that point.  `other`: the statements that are not in `svcFind` -/
def svcTable {ω : Type} (e : CfgEnv) (n : Nat) (other : Bytes → Option (LParser ω)) (name : Bytes) : Option (LParser (SvcCfg × ω)) :=
  some fun s => match svcFind e n s.data.1.dfl name with
    | some p => onFst p s
    | none =>
      match other name with
      | some p => onSnd p s
      | none => .fail

/-- What the defaults of a service are taken from: POUND_DEFAULTS, /repo/src/config.c:168-182 -/
structure SvcDfl where
  re : Dfl
  be : BeDfl
  algo : Algo
deriving DecidableEq, Repr

/-- parse_service, /repo/src/config.c:2657-2697, after its keyword: `names` are the names of the services before.  The service, and the defaults of conditions afterwards in it. -/
def parseService (e : CfgEnv) (be : BeEnv) (n : Nat) (names : List Bytes) (d : SvcDfl) (ts : List Tok) (errs : Nat) : LR (SvcCfg × SvcRest) :=
  let go (ts : List Tok) := cfgL (svcTable e n (svcRestFind e be d.be n)) false true n ⟨(⟨d.re, [], [], [], false⟩, SvcRest.init d.algo), ts, errs⟩
  match ts with
  | [] => .fail
  | .eof :: _ => .fail
  | .error :: _ => .fail
  | .string nm :: r => if names.contains nm then .fail else go r
  | ts => go ts

end Pound
