import Verif.Spec.BeCfg
import Verif.Spec.Framing
import Verif.Model.LstCfg

/-!
What the listeners in a configuration are: /repo/doc/pound.8:825-1330.
-/

namespace Pound.Spec

/-- Which headers an option of HeaderOption concerns: those about forwarding, those about TLS -/
def hdrWords : List (Bytes × Bool × Bool) := [(b!"forwarded", true, false), (b!"ssl", false, true), (b!"all", true, true)]

/-- An option of HeaderOption -/
inductive HdrWord : Bytes → HdrOpt → Prop
  | none {s : Bytes} : ciEq s b!"none" = true → HdrWord s .none
  | on {s w : Bytes} {f t : Bool} : (w, f, t) ∈ hdrWords → ciEq w s = true → HdrWord s (.add f t)
  | off {s w p : Bytes} {f t : Bool} : (w, f, t) ∈ hdrWords → ciEq w s = true → ciEq p b!"no-" = true → HdrWord (p ++ s) (.del f t)

/-- A list of options -/
inductive HdrWords : List Tok → List HdrOpt → Prop
  | nil : HdrWords [] []
  | cons {s : Bytes} {u : Tok} {t : List Tok} {o : HdrOpt} {l : List HdrOpt} : u = .ident s ∨ u = .literal s → HdrWord s o → HdrWords t l → HdrWords (u :: t) (o :: l)

/-- The keywords for error texts of before, and the codes they are for -/
def errWords : List (Bytes × Nat) :=
  [(b!"Err400", 400), (b!"Err401", 401), (b!"Err403", 403), (b!"Err404", 404), (b!"Err413", 413), (b!"Err414", 414), (b!"Err500", 500), (b!"Err501", 501), (b!"Err503", 503)]

/-- Settings of listeners: the keyword, the arguments and what they say.  For the arguments that are numbers and booleans see C46 and C64. -/
inductive LstArgs (e : LstEnv) (d : LstDfl) : Bytes → List Tok → LstSet → Prop
  | addr {u : Tok} {h : Bytes} : u = .ident h ∨ u = .string h ∨ u = .literal h → LstArgs e d b!"Address" [u] (.addr h)
  | port {u : Tok} {h : Bytes} : u = .ident h ∨ u = .string h ∨ u = .literal h ∨ u = .number h → LstArgs e d b!"Port" [u] (.port h)
  | sockFrom {p : Bytes} : p.length ≤ 108 → LstArgs e d b!"SocketFrom" [.string p] (.sockFrom p)
  | xhttp {u : Tok} {v : Int} : assignInt u = .ok (some v) → 0 ≤ v → v ≤ 3 → LstArgs e d b!"xHTTP" [u] (.xhttp v)
  | client {u : Tok} {v : Nat} : assignUnsigned u = .ok (some v) → LstArgs e d b!"Client" [u] (.client v)
  | checkUrl {opts : List Bytes} {k : GKind} {c : Bool} {q : Bytes} : Opts e.cfg d.re.reType d.re.reType d.re.icase opts k c false →
      e.cfg.compiles ⟨k, c, false, q⟩ = true → LstArgs e d b!"CheckURL" (opts.map .literal ++ [.string q]) (.checkUrl ⟨k, c, false, q⟩)
  | errFile {s f text : Bytes} {c : Nat} : errorCode s = some c → e.file f = some text → LstArgs e d b!"ErrorFile" [.number s, .string f] (.err c text)
  | err {w f text : Bytes} {c : Nat} : (w, c) ∈ errWords → e.file f = some text → LstArgs e d w [.string f] (.err c text)
  | maxReq {s : Bytes} {v : Nat} : Denotes 10 s v → (v : Int) < 2 ^ 63 → LstArgs e d b!"MaxRequest" [.number s] (.maxReq v)
  | maxUri {u : Tok} {v : Nat} : assignUnsigned u = .ok (some v) → LstArgs e d b!"MaxURI" [u] (.maxUri v)
  | hdrOpts {t : List Tok} {os : List HdrOpt} : HdrWords t os → LstArgs e d b!"HeaderOption" t (.hdrOpts os)
  | rewrLoc {u : Tok} {v : Int} : assignInt u = .ok (some v) → 0 ≤ v → v ≤ 2 → LstArgs e d b!"RewriteLocation" [u] (.rewrLoc v)
  | rewrDest {u : Tok} {v : Bool} : assignBool u = .ok (some v) → LstArgs e d b!"RewriteDestination" [u] (.rewrDest v)
  | logName {s : Bytes} {n : Nat} : e.formats[n]? = some s → s ∉ e.formats.take n → LstArgs e d b!"LogLevel" [.string s] (.logLevel n)
  | logLevel {s : Bytes} {n : Nat} : logLevelNum e.formats.length s = some n → LstArgs e d b!"LogLevel" [.number s] (.logLevel n)
  | fwdHdr {s : Bytes} : LstArgs e d b!"ForwardedHeader" [.string s] (.fwdHdr s)

/-- Settings of listeners with TLS.  A file of certificates may also be a directory of them. -/
inductive TlsArgs (e : LstEnv) (d : LstDfl) : Bytes → List Tok → LstSet → Prop
  | http {w : Bytes} {t : List Tok} {x : LstSet} : LstArgs e d w t x → TlsArgs e d w t x
  | cert {f : Bytes} {fs : List Bytes} : e.certs f = some fs → TlsArgs e d b!"Cert" [.string f] (.cert fs)
  | noClientCert {u : Tok} : assignInt u = .ok (some 0) → TlsArgs e d b!"ClientCert" [u] (.clientCert 0 0)
  | clientCert {u w : Tok} {m k : Int} : assignInt u = .ok (some m) → 1 ≤ m → m ≤ 3 → assignInt w = .ok (some k) → TlsArgs e d b!"ClientCert" [u, w] (.clientCert m k)
  | disable {s : Bytes} {k : Nat} : (s, k) ∈ protoNames → TlsArgs e d b!"Disable" [.ident s] (.disable k)
  | ciphers {s : Bytes} : TlsArgs e d b!"Ciphers" [.string s] (.ciphers s)
  | honor {u : Tok} {v : Bool} : assignBool u = .ok (some v) → TlsArgs e d b!"SSLHonorCipherOrder" [u] (.honor v)
  | reneg {u : Tok} {v : Int} : assignInt u = .ok (some v) → 0 ≤ v → v ≤ 2 → TlsArgs e d b!"SSLAllowClientRenegotiation" [u] (.reneg v)
  | caList {f : Bytes} : e.caFile f = true → TlsArgs e d b!"CAlist" [.string f] (.caList f)
  | verifyList {f : Bytes} : e.verifyFile f = true → TlsArgs e d b!"VerifyList" [.string f] (.verifyList f)
  | crl {f : Bytes} : e.crlFile f = true → TlsArgs e d b!"CRLlist" [.string f] (.crl f)
  | noHttps11 {u : Tok} {v : Int} : assignInt u = .ok (some v) → 0 ≤ v → v ≤ 2 → TlsArgs e d b!"NoHTTPS11" [u] (.noHttps11 v)

/-- The settings of a listener of a kind -/
def ListenArgs (e : LstEnv) (d : LstDfl) (tls : Bool) : Bytes → List Tok → LstSet → Prop := if tls then TlsArgs e d else LstArgs e d

/-! What a setting says about each of the properties of a listener -/

def laddrSet : LstSet → Option Bytes
  | .addr h => some h
  | _ => none

def lportSet : LstSet → Option Bytes
  | .port h => some h
  | _ => none

def sockSet : LstSet → Option Bytes
  | .sockFrom h => some h
  | _ => none

def verbSet : LstSet → Option Int
  | .xhttp h => some h
  | _ => none

def clientSet : LstSet → Option Nat
  | .client h => some h
  | _ => none

def urlSet : LstSet → Option Pattern
  | .checkUrl h => some h
  | _ => none

def errSet (c : Nat) : LstSet → Option Bytes
  | .err k t => if k = c then some t else none
  | _ => none

def maxReqSet : LstSet → Option Int
  | .maxReq h => some h
  | _ => none

def maxUriSet : LstSet → Option Nat
  | .maxUri h => some h
  | _ => none

def hdrSet : LstSet → List HdrOpt
  | .hdrOpts os => os
  | _ => []

def rewrLocSet : LstSet → Option Int
  | .rewrLoc h => some h
  | _ => none

def rewrDestSet : LstSet → Option Bool
  | .rewrDest h => some h
  | _ => none

def logLevelSet : LstSet → Option Nat
  | .logLevel h => some h
  | _ => none

def fwdHdrSet : LstSet → Option Bytes
  | .fwdHdr h => some h
  | _ => none

def clientCertSet : LstSet → Option Int
  | .clientCert m _ => some m
  | _ => none

def noProtoSet : LstSet → Option Nat
  | .disable h => some h
  | _ => none

def honorSet : LstSet → Option Bool
  | .honor h => some h
  | _ => none

def renegSet : LstSet → Option Int
  | .reneg h => some h
  | _ => none

def noHttps11Set : LstSet → Option Int
  | .noHttps11 h => some h
  | _ => none

/-- Settings that concern certificates -/
def lctxSet : LstSet → Option LCtxOp
  | .clientCert m k => some (.verify m k)
  | .ciphers s => some (.ciphers s)
  | .caList f => some (.caList f)
  | .verifyList f => some (.verifyList f)
  | .crl f => some (.crl f)
  | _ => none

/-- The certificates of a listener, each with the settings that come after it -/
def certsOf : List LstSet → List LCtx
  | [] => []
  | .cert fs :: l => fs.map (fun f => ⟨f, l.filterMap lctxSet⟩) ++ certsOf l
  | _ :: l => certsOf l

/-- Whether an option turns headers about forwarding on or off -/
def fwdSays : HdrOpt → Option Bool
  | .none => some false
  | .add f _ => if f then some true else none
  | .del f _ => if f then some false else none

/-- Whether an option turns headers about TLS on or off -/
def sslSays : HdrOpt → Option Bool
  | .none => some false
  | .add _ t => if t then some true else none
  | .del _ t => if t then some false else none

/-- Settings in an order that is accepted: no SocketFrom after Address or Port, at most one CheckURL, and what concerns certificates after a certificate. -/
structure LstOrder (l : List LstSet) : Prop where
  sock : ∀ pre p post, l = pre ++ .sockFrom p :: post → pre.filterMap laddrSet = [] ∧ pre.filterMap lportSet = []
  url : (l.filterMap urlSet).length ≤ 1
  certs : ∀ pre x post, l = pre ++ x :: post → (lctxSet x).isSome = true → ∃ fs, .cert fs ∈ pre ∧ fs ≠ []

/-- A listener has the properties its settings give it: the last one of each kind counts. -/
structure LstMeans (d : LstDfl) (l : List LstSet) (s : LstSt) : Prop where
  addr : s.addrStr = (l.filterMap laddrSet).getLast?
  port : s.portStr = (l.filterMap lportSet).getLast?
  sock : s.sock = (l.filterMap sockSet).getLast?
  verb : s.verb = lastOr 0 (l.filterMap verbSet)
  to : s.to = lastOr d.to (l.filterMap clientSet)
  url : s.urlPat = (l.filterMap urlSet).getLast?
  err : ∀ c, s.err c = (l.filterMap (errSet c)).getLast?
  maxReq : s.maxReq = lastOr 0 (l.filterMap maxReqSet)
  maxUri : s.maxUri = lastOr 0 (l.filterMap maxUriSet)
  fwd : s.hdr.fwd = lastOr d.hdr.fwd ((l.flatMap hdrSet).filterMap fwdSays)
  ssl : s.hdr.ssl = lastOr d.hdr.ssl ((l.flatMap hdrSet).filterMap sslSays)
  rewrLoc : s.rewrLoc = lastOr 1 (l.filterMap rewrLocSet)
  rewrDest : s.rewrDest = lastOr false (l.filterMap rewrDestSet)
  logLevel : s.logLevel = lastOr d.logLevel (l.filterMap logLevelSet)
  fwdHdr : s.fwdHdr = (l.filterMap fwdHdrSet).getLast?
  ctxs : s.ctxs = certsOf l
  clntCheck : s.clntCheck = lastOr (-1) (l.filterMap clientCertSet)
  disabled : ∀ k ∈ l.filterMap noProtoSet, k ≤ s.noProto
  disable : s.noProto = 0 ∨ s.noProto ∈ l.filterMap noProtoSet
  prefOn : s.prefOn = decide ((l.filterMap honorSet).getLast? = some true)
  prefOff : s.prefOff = decide ((l.filterMap honorSet).getLast? = some false)
  reneg : s.reneg = lastOr 0 (l.filterMap renegSet)
  legacyOn : s.legacyOn = decide (s.reneg = 2)
  legacyOff : s.legacyOff = decide (s.reneg ≠ 2)
  noHttps11 : s.noHttps11 = lastOr 0 (l.filterMap noHttps11Set)

/-- Any address of IPv4 -/
def Any4 (a : GAddr) : Prop := a.v6 = false ∧ a.any = true

/-- Any address of IPv6 -/
def Any6 (a : GAddr) : Prop := a.v6 = true ∧ a.any = true

/-- Where a listener listens: the socket from SocketFrom; or the first address for its Address and Port, but if the first two stand for all addresses of IPv4 and of IPv6, the second. -/
inductive ListensAt (e : LstEnv) (dflPort : Bytes) (l : List LstSet) : LAddr → Prop
  | sockFrom {p : Bytes} : (l.filterMap sockSet).getLast? = some p → ListensAt e dflPort l (.sockFrom p)
  | first {a : GAddr} {r : List GAddr} : l.filterMap sockSet = [] → e.gai (l.filterMap laddrSet).getLast? (lastOr dflPort (l.filterMap lportSet)) = a :: r →
      (∀ b r', r = b :: r' → ¬ (Any4 a ∧ Any6 b)) → ListensAt e dflPort l (.inet a)
  | second {a b : GAddr} {r : List GAddr} : l.filterMap sockSet = [] → e.gai (l.filterMap laddrSet).getLast? (lastOr dflPort (l.filterMap lportSet)) = a :: b :: r →
      Any4 a → Any6 b → ListensAt e dflPort l (.inet b)

/-- What a listener does with client certificates that conditions of its services refer to: without TLS there cannot be any; with TLS every client is asked for a certificate,
which they serve to verify; then ClientCert cannot be used. -/
structure ClientCerts (tls : Bool) (certs : List Bytes) (l : List LstSet) (s s' : LstSt) : Prop where
  plain : tls = false → certs = []
  same : certs = [] → s' = s
  free : certs ≠ [] → l.filterMap clientCertSet = []
  ask : certs ≠ [] → s' = { s with clntCheck := 3, ctxs := s.ctxs.map fun c => ⟨c.file, c.ops ++ (certs.map .trust ++ [.verify 3 (-1)])⟩ }

/-- The text of a listener after its keyword, and the listener.  `other` are the statements that are not settings; `names` are the names of the listeners so far. -/
structure Listens {ω : Type} (e : LstEnv) (d : LstDfl) (other : List Tok → ω → ω → Prop) (init : ω) (certs : ω → List Bytes) (names : List Bytes) (t : List Tok) (x : Lst ω) : Prop where
  settings : ∃ body l s,
    (t = body ∧ x.name = none ∨ ∃ nm, t = .string nm :: body ∧ x.name = some nm ∧ nm ∉ names) ∧
    SetBody (ListenArgs e d x.tls) other body l init x.other ∧
    LstOrder l ∧ LstMeans d l s ∧ (x.tls = true → certsOf l ≠ []) ∧
    ListensAt e (if x.tls then b!"443" else b!"80") l x.addr ∧
    ClientCerts x.tls (certs x.other) l s x.st

/-- A service in a listener, by its name and backends: names are unique, and services are kept in the order in which they are written. -/
structure SvcStmt (e : BeEnv) (d : BeDfl) (algo : Algo) (t : List Tok) (l l' : List (Option Bytes × SvcBes)) : Prop where
  section_ : ∃ n body items nm s, ciEq b!"Service" n = true ∧ Items (SvcBeLine e d) body items ∧ SvcMeans algo items s ∧ l' = l ++ [(nm, s)] ∧
    (t = .ident n :: (body ++ [.nl]) ∧ nm = none ∨ ∃ w, t = .ident n :: .string w :: (body ++ [.nl]) ∧ nm = some w ∧ w ∉ l.filterMap (·.1))

end Pound.Spec
