import Verif.Spec.SvcCfg
import Verif.Spec.CfgSect
import Verif.Model.BeCfg

/-!
What the backends in a configuration are: /repo/doc/pound.8:1905-2085 and its sections on services.
-/

namespace Pound.Spec

/-- The inside of a section that consists of items, each with the newline that ends it, and empty lines, up to its End -/
inductive Items {α : Type} (item : List Tok → α → Prop) : List Tok → List α → Prop
  | stop {w : Bytes} : ciEq b!"End" w = true → Items item [.ident w] []
  | blank {t : List Tok} {l : List α} : Items item t l → Items item (.nl :: t) l
  | item {a t : List Tok} {x : α} {l : List α} : item a x → Items item t l → Items item (a ++ t) (x :: l)

/-- A setting in a Backend section -/
inductive BeSetting where
  | addr (h : Bytes)
  | port (n : Nat)
  | family (f : AddrFam)
  | resolve (r : ResolveMode)
  | ignoreWeight (b : Bool)
  | ttl (n : Nat)
  | retry (n : Nat)
  | prio (n : Int)
  | to (n : Nat)
  | wsTo (n : Nat)
  | connTo (n : Nat)
  | https
  | cert (file : Bytes)
  | ciphers (list : Bytes)
  | disable (n : Nat)
  | disabled (b : Bool)
  | sni (name : Bytes)
deriving DecidableEq, Repr

/-- Protocols, with how many of them come up to this one -/
def protoNames : List (Bytes × Nat) := [(b!"SSLv2", 1), (b!"SSLv3", 2), (b!"TLSv1", 3), (b!"TLSv1_1", 4), (b!"TLSv1_2", 5)]

/-- Address families -/
def famNames : List (Bytes × AddrFam) := [(b!"any", .any), (b!"unix", .unix), (b!"inet", .inet), (b!"inet6", .inet6)]

/-- Ways to resolve names -/
def resolveNames : List (Bytes × ResolveMode) := [(b!"immediate", .immediate), (b!"first", .first), (b!"all", .all), (b!"srv", .srv)]

/-- Settings as they are written.  For the arguments that are numbers and booleans see C46 and C64. -/
inductive BeLine (e : BeEnv) : List Tok → BeSetting → Prop
  | addr {n h : Bytes} {u : Tok} : ciEq b!"Address" n = true → u = .ident h ∨ u = .string h ∨ u = .literal h → BeLine e [.ident n, u, .nl] (.addr h)
  | port {n s : Bytes} {u : Tok} {v : Nat} : ciEq b!"Port" n = true → u = .ident s ∨ u = .number s → e.port s = some v → BeLine e [.ident n, u, .nl] (.port v)
  | family {n s : Bytes} {f : AddrFam} : ciEq b!"Family" n = true → (s, f) ∈ famNames → BeLine e [.ident n, .ident s, .nl] (.family f)
  | resolve {n s : Bytes} {r : ResolveMode} : ciEq b!"Resolve" n = true → (s, r) ∈ resolveNames → BeLine e [.ident n, .ident s, .nl] (.resolve r)
  | ignoreWeight {n : Bytes} {u : Tok} {v : Bool} : ciEq b!"IgnoreSRVWeight" n = true → assignBool u = .ok (some v) → BeLine e [.ident n, u, .nl] (.ignoreWeight v)
  | ttl {n : Bytes} {u : Tok} {v : Nat} : ciEq b!"OverrideTTL" n = true → assignUnsigned u = .ok (some v) → BeLine e [.ident n, u, .nl] (.ttl v)
  | retry {n : Bytes} {u : Tok} {v : Nat} : ciEq b!"RetryInterval" n = true → assignUnsigned u = .ok (some v) → BeLine e [.ident n, u, .nl] (.retry v)
  | prio {n : Bytes} {u : Tok} {v : Int} : ciEq b!"Priority" n = true → assignInt u = .ok (some v) → 1 ≤ v → BeLine e [.ident n, u, .nl] (.prio v)
  | to {n : Bytes} {u : Tok} {v : Nat} : ciEq b!"TimeOut" n = true → assignUnsigned u = .ok (some v) → BeLine e [.ident n, u, .nl] (.to v)
  | wsTo {n : Bytes} {u : Tok} {v : Nat} : ciEq b!"WSTimeOut" n = true → assignUnsigned u = .ok (some v) → BeLine e [.ident n, u, .nl] (.wsTo v)
  | connTo {n : Bytes} {u : Tok} {v : Nat} : ciEq b!"ConnTO" n = true → assignUnsigned u = .ok (some v) → BeLine e [.ident n, u, .nl] (.connTo v)
  | https {n : Bytes} : ciEq b!"HTTPS" n = true → BeLine e [.ident n, .nl] .https
  | cert {n f : Bytes} : ciEq b!"Cert" n = true → e.cert f = true → BeLine e [.ident n, .string f, .nl] (.cert f)
  | ciphers {n f : Bytes} : ciEq b!"Ciphers" n = true → BeLine e [.ident n, .string f, .nl] (.ciphers f)
  | disable {n s : Bytes} {k : Nat} : ciEq b!"Disable" n = true → (s, k) ∈ protoNames → BeLine e [.ident n, .ident s, .nl] (.disable k)
  | disabled {n : Bytes} {u : Tok} {v : Bool} : ciEq b!"Disabled" n = true → assignBool u = .ok (some v) → BeLine e [.ident n, u, .nl] (.disabled v)
  | sni {n f : Bytes} : ciEq b!"ServerName" n = true → BeLine e [.ident n, .string f, .nl] (.sni f)

/-! What a setting says about each of the properties of a backend -/

def hostSet : BeSetting → Option Bytes
  | .addr h => some h
  | _ => none

def portSet : BeSetting → Option Nat
  | .port h => some h
  | _ => none

def familySet : BeSetting → Option AddrFam
  | .family h => some h
  | _ => none

def resolveSet : BeSetting → Option ResolveMode
  | .resolve h => some h
  | _ => none

def ignoreWeightSet : BeSetting → Option Bool
  | .ignoreWeight h => some h
  | _ => none

def ttlSet : BeSetting → Option Nat
  | .ttl h => some h
  | _ => none

def retrySet : BeSetting → Option Nat
  | .retry h => some h
  | _ => none

def prioSet : BeSetting → Option Int
  | .prio h => some h
  | _ => none

def toSet : BeSetting → Option Nat
  | .to h => some h
  | _ => none

def wsToSet : BeSetting → Option Nat
  | .wsTo h => some h
  | _ => none

def connToSet : BeSetting → Option Nat
  | .connTo h => some h
  | _ => none

def disabledSet : BeSetting → Option Int
  | .disabled h => some (if h then 1 else 0)
  | _ => none

def sniSet : BeSetting → Option Bytes
  | .sni h => some h
  | _ => none

/-- Settings of the connection with TLS -/
def ctxSet : BeSetting → Option CtxOp
  | .cert f => some (.cert f)
  | .ciphers s => some (.ciphers s)
  | .disable n => some (.disable n)
  | _ => none

/-- Settings of the connection with TLS come after HTTPS. -/
def TlsOrder (l : List BeSetting) : Prop := ∀ pre x post, l = pre ++ x :: post → (ctxSet x).isSome = true → .https ∈ pre

/-- A backend has the properties its settings give it: the last one of each kind counts. -/
structure BeMeans (d : BeDfl) (l : List BeSetting) (b : BeSt) : Prop where
  host : b.m.host = (l.filterMap hostSet).getLast?
  port : b.m.port = lastOr 0 (l.filterMap portSet)
  family : b.m.family = lastOr .any (l.filterMap familySet)
  resolve : b.m.resolve = lastOr .immediate (l.filterMap resolveSet)
  retry : b.m.retry = lastOr 0 (l.filterMap retrySet)
  ignoreWeight : b.m.ignoreWeight = lastOr false (l.filterMap ignoreWeightSet)
  ttl : b.m.ttl = lastOr 0 (l.filterMap ttlSet)
  to : b.m.to = lastOr d.to (l.filterMap toSet)
  connTo : b.m.connTo = lastOr d.connTo (l.filterMap connToSet)
  wsTo : b.m.wsTo = lastOr d.wsTo (l.filterMap wsToSet)
  sni : b.m.sni = (l.filterMap sniSet).getLast?
  prio : b.prio = lastOr 5 (l.filterMap prioSet)
  disabled : b.disabled = lastOr 0 (l.filterMap disabledSet)
  plain : .https ∉ l → b.m.ctx = none
  tls : ∀ pre post, l = pre ++ .https :: post → .https ∉ post → b.m.ctx = some (post.filterMap ctxSet)

/-- A Backend section up to its End -/
def BeSection (e : BeEnv) (d : BeDfl) (t : List Tok) (b : BeSt) : Prop := ∃ l, Items (BeLine e) t l ∧ TlsOrder l ∧ BeMeans d l b

/-- The settings a reference to a backend can have -/
inductive RefLine (e : BeEnv) : List Tok → BeSetting → Prop
  | prio {t : List Tok} {v : Int} : BeLine e t (.prio v) → RefLine e t (.prio v)
  | disabled {t : List Tok} {v : Bool} : BeLine e t (.disabled v) → RefLine e t (.disabled v)

/-! ### Services -/

/-- What a statement in a service says about its backends -/
inductive SvcItem where
  | backend (b : BeDecl)
  | emergency (b : BeDecl)
  | algo (a : Algo)
deriving DecidableEq, Repr

/-- Statements in a service.  Where a reference does not give a priority, or does not say whether it is disabled, -1 stands for that of the backend. -/
inductive SvcBeLine (e : BeEnv) (d : BeDfl) : List Tok → SvcItem → Prop
  | redirect {n u p h path url : Bytes} : ciEq b!"Redirect" n = true → locationMatch u = some (p, h, path) → (path.length ≠ 1 → url = u) → (path.length = 1 → u = url ++ path) →
      SvcBeLine e d [.ident n, .string u, .nl] (.backend ⟨1, 0, .redirect 302 url path.length⟩)
  | redirectCode {n s u p h path url : Bytes} {c : Nat} : ciEq b!"Redirect" n = true → redirectCode s = some c → locationMatch u = some (p, h, path) →
      (path.length ≠ 1 → url = u) → (path.length = 1 → u = url ++ path) →
      SvcBeLine e d [.ident n, .number s, .string u, .nl] (.backend ⟨1, 0, .redirect c url path.length⟩)
  | error {n s : Bytes} {c : Nat} : ciEq b!"Error" n = true → errorCode s = some c → SvcBeLine e d [.ident n, .number s, .nl] (.backend ⟨1, 0, .error c none⟩)
  | errorText {n s f text : Bytes} {c : Nat} : ciEq b!"Error" n = true → errorCode s = some c → e.file f = some text →
      SvcBeLine e d [.ident n, .number s, .string f, .nl] (.backend ⟨1, 0, .error c (some text)⟩)
  | backend {n : Bytes} {t : List Tok} {b : BeSt} : ciEq b!"Backend" n = true → BeSection e d t b →
      SvcBeLine e d (.ident n :: (t ++ [.nl])) (.backend ⟨b.prio, b.disabled, .mtx b.m⟩)
  | ref {n name : Bytes} {t : List Tok} {l : List BeSetting} : ciEq b!"Backend" n = true → Items (RefLine e) t l →
      SvcBeLine e d (.ident n :: .string name :: (t ++ [.nl])) (.backend ⟨lastOr (-1) (l.filterMap prioSet), lastOr (-1) (l.filterMap disabledSet), .ref name⟩)
  | use {n name : Bytes} : ciEq b!"UseBackend" n = true → SvcBeLine e d [.ident n, .string name, .nl] (.backend ⟨5, 0, .ref name⟩)
  | emergency {n : Bytes} {t : List Tok} {b : BeSt} : ciEq b!"Emergency" n = true → BeSection e ⟨120, 120, 120⟩ t b →
      SvcBeLine e d (.ident n :: (t ++ [.nl])) (.emergency ⟨b.prio, b.disabled, .mtx b.m⟩)
  | metrics {n : Bytes} : ciEq b!"Metrics" n = true → SvcBeLine e d [.ident n, .nl] (.backend ⟨1, 0, .metrics⟩)
  | control {n : Bytes} : ciEq b!"Control" n = true → SvcBeLine e d [.ident n, .nl] (.backend ⟨1, 0, .control⟩)
  | balancer {n s : Bytes} {u : Tok} {a : Algo} : ciEq b!"Balancer" n = true → u = .ident s ∨ u = .number s ∨ u = .literal s →
      (ciEq s b!"random" = true ∧ a = .random) ∨ (ciEq s b!"iwrr" = true ∧ a = .iwrr) → SvcBeLine e d [.ident n, u, .nl] (.algo a)

def normalOf : SvcItem → Option BeDecl
  | .backend b => some b
  | _ => none

def emergencyOf : SvcItem → Option BeDecl
  | .emergency b => some b
  | _ => none

def algoOf : SvcItem → Option Algo
  | .algo a => some a
  | _ => none

/-- A group of backends, if there are any -/
def groupOf (w : Nat) (l : List BeDecl) : List CGrp := if l = [] then [] else [⟨w, l⟩]

/-- The groups of a service: the backends in the order in which they are written; those for emergencies in a group of their own, after the other. -/
structure SvcMeans (dfl : Algo) (l : List SvcItem) (s : SvcBes) : Prop where
  algo : s.algo = lastOr dfl (l.filterMap algoOf)
  groups : s.groups = groupOf 0 (l.filterMap normalOf) ++ groupOf 65535 (l.filterMap emergencyOf)

/-! ### What becomes of declarations -/

/-- The pieces of a text between colons -/
def colonParts : Bytes → List Bytes
  | [] => [[]]
  | c :: t =>
    if c = ch%':' then [] :: colonParts t
    else
      match colonParts t with
      | [] => [[c]]
      | x :: r => (c :: x) :: r

/-- Texts taken for addresses: at most eight groups of at most four hexadecimal digits, separated by colons; they start with a digit; either there are eight of them
or one between two colons is empty. -/
structure Ip6 (h : Bytes) : Prop where
  start : ∃ c t, h = c :: t ∧ isXDigit c = true
  groups : ∀ g ∈ colonParts h, g.length ≤ 4 ∧ ∀ c ∈ g, isXDigit c = true
  count : (colonParts h).length ≤ 8
  empty : (colonParts h).tail.dropLast.countP (·.isEmpty) ≤ 1
  full : (colonParts h).length = 8 ∨ (colonParts h).tail.dropLast.countP (·.isEmpty) = 1

/-- The name of a socket -/
def IsPath (h : Bytes) : Prop := ∃ t, h = ch%'/' :: t

/-- The port of a backend -/
def bePort (m : Mtx) : Nat := if m.port = 0 then (if m.ctx = none then 80 else 443) else m.port

/-- The backend a declaration stands for: one with an address that is looked up now, the name of a socket, or one whose addresses are looked up at run time. -/
inductive BeFinal (e : FinEnv) (m : Mtx) : FBeV → Prop
  | host {h a : Bytes} : m.host = some h → (IsPath h → m.port = 0) → IsPath h ∨ Ip6 h ∨ m.resolve = .immediate → e.host h m.family = some a →
      BeFinal e m (.regular (.inet a) (bePort m) m.to m.connTo m.wsTo m.ctx m.sni)
  | socket {h : Bytes} : m.host = some h → (IsPath h → m.port = 0) → IsPath h ∨ Ip6 h ∨ m.resolve = .immediate → e.host h m.family = none → h.length ≤ 108 →
      BeFinal e m (.regular (.path h) (bePort m) m.to m.connTo m.wsTo m.ctx m.sni)
  | dynamic {h : Bytes} : m.host = some h → ¬ IsPath h → ¬ Ip6 h → m.resolve ≠ .immediate → e.dns = true → BeFinal e m (.matrix { m with port := bePort m })

/-- What a statement in a service becomes; a priority is at most 65535. -/
inductive DeclFinal (e : FinEnv) (tab : List NamedBe) : BeDecl → FBe → Prop
  | own {p d : Int} {m : Mtx} {v : FBeV} : BeFinal e m v → DeclFinal e tab ⟨p, d, .mtx m⟩ ⟨min p 65535, decide (d ≠ 0), v⟩
  | ref {p d : Int} {nb : NamedBe} {v : FBeV} : nb ∈ tab → BeFinal e nb.m v →
      DeclFinal e tab ⟨p, d, .ref nb.name⟩ ⟨min (if p = -1 then nb.prio else p) 65535, decide ((if d = -1 then nb.disabled else d) ≠ 0), v⟩
  | redirect {p d : Int} {c : Nat} {u : Bytes} {k : Nat} : DeclFinal e tab ⟨p, d, .redirect c u k⟩ ⟨min p 65535, decide (d ≠ 0), .redirect c u k⟩
  | error {p d : Int} {c : Nat} {t : Option Bytes} : DeclFinal e tab ⟨p, d, .error c t⟩ ⟨min p 65535, decide (d ≠ 0), .error c t⟩
  | control {p d : Int} : DeclFinal e tab ⟨p, d, .control⟩ ⟨min p 65535, decide (d ≠ 0), .control⟩
  | metrics {p d : Int} : DeclFinal e tab ⟨p, d, .metrics⟩ ⟨min p 65535, decide (d ≠ 0), .metrics⟩

/-- Two lists of the same length whose elements are related one by one -/
inductive Each {α β : Type} (R : α → β → Prop) : List α → List β → Prop
  | nil : Each R [] []
  | cons {a : α} {b : β} {l : List α} {l' : List β} : R a b → Each R l l' → Each R (a :: l) (b :: l')

/-- A backend that has to be the only one of its group: an error, the metrics or the control interface -/
def Alone (b : FBe) : Prop := (∃ c t, b.v = .error c t) ∨ b.v = .control ∨ b.v = .metrics

/-- A group and what becomes of it -/
structure GroupFinal (e : FinEnv) (tab : List NamedBe) (g : CGrp) (f : FGrp) : Prop where
  weight : f.weight = g.weight
  bes : Each (DeclFinal e tab) g.bes f.bes
  alone : ∀ b ∈ f.bes, Alone b → f.bes = [b]

/-- Named backends: the names are distinct, each has an address. -/
structure NamedOk (tab : List NamedBe) : Prop where
  distinct : (tab.map (·.name)).Nodup
  addr : ∀ nb ∈ tab, nb.m.host ≠ none

/-- A backend to which requests can be sent from the beginning: not disabled, and not one whose addresses are looked up at run time -/
def readyAtStart (b : FBe) : Bool :=
  match b.v with
  | .matrix _ => false
  | _ => !b.disabled

end Pound.Spec
