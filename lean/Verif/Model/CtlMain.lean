import Verif.Model.Poundctl
import Verif.Model.CfgParser

/-!
How poundctl finds out what to do: its options, the file ~/.poundctl, templates and the verification of certificates:
/repo/src/poundctl.c:40-213, 493-576, 1140-1255, 1280-1454, and getopt of the C library, which pound uses, too (/repo/src/config.c:5348-5436).

Arguments are C strings.  Messages are not modelled.  Not modelled: Include in ~/.poundctl (refused here), and memory exhaustion.
-/

namespace Pound

/-! ### getopt -/

/-- What getopt returns: an option and its argument, or `?` for one that is unknown or lacks its argument -/
inductive OptItem where
  | opt (c : UInt8) (arg : Option Bytes)
  | bad
deriving DecidableEq, Repr

/-- The options in one argument, after its dash: those found, and the one that takes its argument from the next argument.  `spec c` tells
whether option `c` exists and takes an argument. -/
def clusterOpts (spec : UInt8 → Option Bool) : Bytes → List OptItem × Option UInt8
  | [] => ([], none)
  | c :: cs =>
    match spec c with
    | none => (.bad :: (clusterOpts spec cs).1, (clusterOpts spec cs).2)
    | some false => (.opt c none :: (clusterOpts spec cs).1, (clusterOpts spec cs).2)
    | some true => if cs = [] then ([], some c) else ([.opt c (some cs)], none)

/-- An argument that holds options -/
def isOptArg (a : Bytes) : Bool := a.head? == some ch%'-' && decide (2 ≤ a.length)

/-- getopt called until it returns -1, as in GNU libc: arguments that are no options are moved to the end unless POSIXLY_CORRECT is set
(`posix`).  The options and the arguments from optind on. -/
def getoptArgs (spec : UInt8 → Option Bool) (posix : Bool) : List Bytes → List OptItem × List Bytes
  | [] => ([], [])
  | a :: t =>
    if a = b!"--" then ([], t)
    else if isOptArg a then
      match clusterOpts spec (a.drop 1) with
      | (os, none) => (os ++ (getoptArgs spec posix t).1, (getoptArgs spec posix t).2)
      | (os, some c) =>
        match t with
        | [] => (os ++ [.bad], [])
        | v :: t' => (os ++ .opt c (some v) :: (getoptArgs spec posix t').1, (getoptArgs spec posix t').2)
    else if posix then ([], a :: t)
    else ((getoptArgs spec posix t).1, a :: (getoptArgs spec posix t).2)

/-! ### The file ~/.poundctl -/

/-- SERVER, /repo/src/poundctl.c:40-49, as made by XZALLOC (:115) -/
structure CtlSrv where
  url : Option Bytes := none
  caFile : Option Bytes := none
  caPath : Option Bytes := none
  cert : Option Bytes := none
  verify : Bool := false
deriving DecidableEq, Repr

/-- The settings, /repo/src/poundctl.c:51-63 -/
structure CtlCfg where
  dflt : CtlSrv := { verify := true }
  servers : List (Bytes × CtlSrv) := []
  tmplFile : Bytes := b!"poundctl.tmpl"
  tmplPath : Option Bytes := none
  tmplName : Bytes := b!"default"
deriving DecidableEq, Repr

/-- The server of a name; `none` is default_server_defn.  SERVER_RETRIEVE: /repo/src/ht.h:102-116 (strcmp), 158-165 -/
def CtlCfg.get (c : CtlCfg) : Option Bytes → Option CtlSrv
  | none => some c.dflt
  | some n => (c.servers.find? fun e => e.1 == n).map (·.2)

/-- A server is changed. -/
def CtlCfg.mod (c : CtlCfg) (f : CtlSrv → CtlSrv) : Option Bytes → CtlCfg
  | none => { c with dflt := f c.dflt }
  | some n => { c with servers := c.servers.map fun e => if e.1 == n then (e.1, f e.2) else e }

/-- A boolean value, /repo/src/cfgparser.c:1250-1277 -/
def boolTok (t : Tok) : Bool :=
  match assignBool t with
  | .ok (some _) => true
  | _ => false

/-- The first entry of a table with that name -/
def ctlKindOf (tab : List (Bytes × Kind)) (name : Bytes) : Option Kind := (tab.find? fun e => ciEq e.1 name).map (·.2)

/-- server_parsetab, /repo/src/poundctl.c:74-105 -/
def serverTab : List (Bytes × Kind) :=
  [(b!"End", .close), (b!"URL", .simple [isStrTok]), (b!"CAFile", .simple [isStrTok]), (b!"CAPath", .simple [isStrTok]),
   (b!"ClientCert", .simple [isStrTok]), (b!"Verify", .simple [boolTok])]

/-- toplevel_parsetab, /repo/src/poundctl.c:126-173 -/
def ctlTopTab : List (Bytes × Kind) :=
  [(b!"URL", .simple [isStrTok]), (b!"CAFile", .simple [isStrTok]), (b!"CAPath", .simple [isStrTok]), (b!"ClientCert", .simple [isStrTok]),
   (b!"Verify", .simple [boolTok]), (b!"TemplateFile", .simple [isStrTok]), (b!"TemplatePath", .simple [isStrTok]),
   (b!"TemplateName", .simple [isStrTok]), (b!"Server", .sect [isStrTok] 1)]

/-- The tables of the file (0) and of Server sections -/
def ctlGram (ctx : Nat) (name : Bytes) : Option Kind := ctlKindOf (if ctx = 0 then ctlTopTab else serverTab) name

/-- The assignments of the entries both tables have, /repo/src/poundctl.c:79-103, 127-151 -/
def srvStmt (name : Bytes) (t : Tok) (s : CtlSrv) : CtlSrv :=
  if ciEq b!"URL" name then { s with url := some t.text }
  else if ciEq b!"CAFile" name then { s with caFile := some t.text }
  else if ciEq b!"CAPath" name then { s with caPath := some t.text }
  else if ciEq b!"ClientCert" name then { s with cert := some t.text }
  else if ciEq b!"Verify" name then { s with verify := assignBool t = .ok (some true) }
  else s

/-- The assignments of the other entries, /repo/src/poundctl.c:152-166 -/
def tmplStmt (name : Bytes) (t : Tok) (c : CtlCfg) : CtlCfg :=
  if ciEq b!"TemplateFile" name then { c with tmplFile := t.text }
  else if ciEq b!"TemplatePath" name then { c with tmplPath := some t.text }
  else if ciEq b!"TemplateName" name then { c with tmplName := t.text }
  else c

/-- What a statement does; `none` if it is refused.  parse_server: /repo/src/poundctl.c:107-124 -/
def ctlEv (c : CtlCfg) (cur : Option Bytes) : Ev → Option (CtlCfg × Option Bytes)
  | .stmt _ name [t] => some (((if cur = none then tmplStmt name t c else c).mod (srvStmt name t) cur), cur)
  | .opened _ _ [t] =>
    if (c.get (some t.text)).isSome then none
    else some ({ c with servers := c.servers ++ [(t.text, { })] }, some t.text)
  | .closed => some (c, none)
  | _ => none

/-- The statements of a file, in order -/
def ctlEvs (c : CtlCfg) (cur : Option Bytes) : List Ev → Option CtlCfg
  | [] => some c
  | e :: r =>
    match ctlEv c cur e with
    | none => none
    | some (c', cur') => ctlEvs c' cur' r

/-- cfgparser_parse with toplevel_parsetab; `none` if the program exits.  Statements are executed here after all of them have been parsed: it
makes no difference, as the program exits when one is refused. -/
def ctlConfig (text : Bytes) : Option CtlCfg :=
  match fileParser ctlGram (text.length + 3) (text.length + 1) text with
  | some (true, s) => ctlEvs { } none s.data
  | _ => none

/-- What a file name stands for: nothing, something that cannot be opened, a file, a directory, a device -/
inductive CtlNode where
  | absent
  | refused
  | reg (text : Bytes)
  | dir
  | other
deriving DecidableEq, Repr

/-- What the program finds: the file system; the home directory (HOME, or that of the user, /repo/src/poundctl.c:180-188);
POUNDCTL_CONF, POUND_TMPL_PATH and POSIXLY_CORRECT in the environment; PKGDATADIR and POUND_CONF given when it was compiled; names that can be
resolved; templates without syntax errors (Model/Tmpl.lean) -/
structure CtlEnv where
  fs : Bytes → CtlNode
  home : Bytes
  pconf : Option Bytes := none
  tpath : Option Bytes := none
  posix : Bool := false
  pkgdata : Bytes := b!"/usr/share/pound"
  poundConf : Bytes := b!"/etc/pound.cfg"
  resolve : Bool → Bytes → Bytes → Bool := fun _ _ _ => true
  tmplOk : Bytes → Bool := fun _ => true

/-- A name relative to the home directory, /repo/src/cfgparser.c:749-754 -/
def inHome (home name : Bytes) : Bytes := if name.head? = some ch%'/' then name else home ++ b!"/" ++ name

/-- cfgparser_parse of a file -/
def ctlParseFile (E : CtlEnv) (name : Bytes) : Option CtlCfg :=
  match E.fs name with
  | .reg text => ctlConfig text
  | _ => none

/-- read_config, /repo/src/poundctl.c:177-213; `none` if the program exits -/
def ctlReadConfig (E : CtlEnv) : Option CtlCfg :=
  match E.pconf with
  | some n => if n = [] then some { } else ctlParseFile E (inHome E.home n)
  | none =>
    if E.fs (inHome E.home b!".poundctl") = .absent then some { }
    else ctlParseFile E (inHome E.home b!".poundctl")

/-! ### Options -/

/-- "C:f:i:jK:khS:s:T:t:vV", /repo/src/poundctl.c:1349 -/
def ctlOptSpec (c : UInt8) : Option Bool :=
  if c ∈ [ch%'C', ch%'f', ch%'i', ch%'K', ch%'S', ch%'s', ch%'T', ch%'t'] then some true
  else if c ∈ [ch%'j', ch%'k', ch%'h', ch%'v', ch%'V'] then some false
  else none

/-- The variables options change, /repo/src/poundctl.c:51-63; `sel` is what `server` points to. -/
structure CtlOptSt where
  cfg : CtlCfg
  sel : Option Bytes := none
  conf : Bytes
  indent : Option Bytes := none
  json : Bool := false
deriving DecidableEq, Repr

/-- One option, /repo/src/poundctl.c:1351-1427; `.inl` is the code the program exits with. -/
def ctlOpt (fs : Bytes → CtlNode) (s : CtlOptSt) : OptItem → Nat ⊕ CtlOptSt
  | .bad => .inl 1
  | .opt c none =>
    if c = ch%'h' then .inl 0
    else if c = ch%'j' then .inr { s with json := true }
    else if c = ch%'k' then .inr { s with cfg := s.cfg.mod (fun v => { v with verify := false }) s.sel }
    else if c = ch%'V' then .inl 0
    else if c = ch%'v' then .inr s
    else .inl 1
  | .opt c (some a) =>
    if c = ch%'C' then
      match fs a with
      | .absent => .inl 1
      | .dir => .inr { s with cfg := s.cfg.mod (fun v => { v with caPath := some a }) s.sel }
      | _ => .inr { s with cfg := s.cfg.mod (fun v => { v with caFile := some a }) s.sel }
    else if c = ch%'f' then .inr { s with conf := a }
    else if c = ch%'S' then
      if (s.cfg.get (some a)).isSome then .inr { s with sel := some a } else .inl 1
    else if c = ch%'s' then .inr { s with cfg := s.cfg.mod (fun v => { v with url := some a }) s.sel }
    else if c = ch%'i' then .inr { s with indent := some a }
    else if c = ch%'K' then .inr { s with cfg := s.cfg.mod (fun v => { v with cert := some a }) s.sel }
    else if c = ch%'T' then .inr { s with cfg := { s.cfg with tmplName := a } }
    else if c = ch%'t' then .inr { s with cfg := { s.cfg with tmplFile := a } }
    else .inl 1

/-- All options -/
def ctlOpts (fs : Bytes → CtlNode) (s : CtlOptSt) : List OptItem → Nat ⊕ CtlOptSt
  | [] => .inr s
  | o :: r =>
    match ctlOpt fs s o with
    | .inl n => .inl n
    | .inr s' => ctlOpts fs s' r

/-! ### Templates -/

/-- The file name an element of the search path stands for, /repo/src/poundctl.c:1171-1187 -/
def tmplElem (home el : Bytes) : Bytes :=
  match el with
  | 126 :: r => home ++ (if r.head? = some ch%'/' then [] else b!"/") ++ r
  | _ => el

/-- One element, /repo/src/poundctl.c:1189-1236: the file opened and its name -/
def tmplTry (fs : Bytes → CtlNode) (home name el : Bytes) : Option (Bytes × CtlNode) :=
  let f := tmplElem home el
  match fs f with
  | .reg t => some (f, .reg t)
  | .dir =>
    match fs (f ++ b!"/" ++ name) with
    | .absent => none
    | .refused => none
    | x => some (f ++ b!"/" ++ name, x)
  | _ => none

/-- The loop over the search path, /repo/src/poundctl.c:1162-1243; `fuel` exceeds the length of the path. -/
def tmplSearch (fs : Bytes → CtlNode) (home name : Bytes) : Nat → Bytes → Option (Bytes × CtlNode)
  | 0, _ => none
  | fuel + 1, p =>
    if p = [] then none
    else
      let el := p.takeWhile (· != ch%':')
      match (if el = [] then none else tmplTry fs home name el) with
      | some r => some r
      | none => tmplSearch fs home name fuel ((p.drop el.length).drop 1)

/-- find_template_file, /repo/src/poundctl.c:1140-1255: `.inl 1` if the program exits; `.inr none` if it is not found -/
def findTemplate (fs : Bytes → CtlNode) (home path name : Bytes) : Nat ⊕ Option (Bytes × CtlNode) :=
  if name.head? = some ch%'/' ∨ name.take 2 = b!"./" ∨ name.take 3 = b!"../" then
    match fs name with
    | .absent => .inl 1
    | .refused => .inl 1
    | x => .inr (some (name, x))
  else .inr (tmplSearch fs home name (path.length + 1) path)

/-- read_template, /repo/src/poundctl.c:1280-1327: the name and text of the template file, if there is one.  fread of an object of size 0
returns 0; directories cannot be read, and the size of devices is 0. -/
def readTemplate (E : CtlEnv) (path name : Bytes) : Nat ⊕ Option (Bytes × Bytes) :=
  match findTemplate E.fs E.home path name with
  | .inl n => .inl n
  | .inr none => .inr none
  | .inr (some (f, .reg text)) => if text = [] then .inl 1 else if E.tmplOk text then .inr (some (f, text)) else .inl 1
  | .inr (some _) => .inl 1

/-! ### main -/

/-- What the program sets out to do when it has read all that -/
structure CtlPlan where
  srv : CtlSrv
  url : CtlUrl
  verb : CtlVerb
  args : List Bytes
  json : Bool
  indent : Option Bytes
  tmplName : Bytes
  tmpl : Option (Bytes × Bytes)
deriving DecidableEq, Repr

/-- POUND_TMPL_PATH, /repo/src/pound.h:208 -/
def dfltTmplPath (E : CtlEnv) : Bytes := b!"~/.poundctl.tmpl:" ++ E.pkgdata

/-- get_socket_name, /repo/src/poundctl.c:276-296, with the file conf_name -/
def socketFrom (E : CtlEnv) (conf : Bytes) : Option Bytes :=
  match E.fs conf with
  | .reg text => getSocketName text
  | _ => none

/-- main, /repo/src/poundctl.c:1337-1454, up to open_socket: the code it exits with, or what it sets out to do -/
def ctlMain (E : CtlEnv) (argv : List Bytes) : Nat ⊕ CtlPlan :=
  match ctlReadConfig E with
  | none => .inl 1
  | some cfg =>
    match ctlOpts E.fs { cfg := cfg, conf := E.poundConf } (getoptArgs ctlOptSpec E.posix argv).1 with
    | .inl n => .inl n
    | .inr s =>
      let srv := (s.cfg.get s.sel).getD { }
      match srv.url.orElse fun _ => socketFrom E s.conf with
      | none => .inl 1
      | some url =>
        match ctlCommand (getoptArgs ctlOptSpec E.posix argv).2 with
        | none => .inl 1
        | some (verb, args) =>
          match readTemplate E (E.tpath.getD (dfltTmplPath E)) s.cfg.tmplFile with
          | .inl n => .inl n
          | .inr tmpl =>
            match urlParse E.resolve url with
            | none => .inl 1
            | some u => .inr ⟨{ srv with url := some url }, u, verb, args, s.json, s.indent, s.cfg.tmplName, tmpl⟩

/-! ### Certificates -/

/-- What OpenSSL finds: whether the certificate authorities and the client's certificate can be loaded; whether the handshake succeeds; the
certificate of the server (the hosts it is for), if there is one; whether it was issued by one of the authorities (SSL_get_verify_result) -/
structure CtlTls where
  loads : Option Bytes → Option Bytes → Bool
  certOk : Bytes → Bool
  handshake : Bool
  peer : Option (List Bytes)
  chainOk : Option Bytes → Option Bytes → Bool

/-- The certificate and the key of the client are loaded, /repo/src/poundctl.c:534-542. -/
def ctlCertOk (T : CtlTls) : Option Bytes → Bool
  | some c => T.certOk c
  | none => true

/-- open_socket for https, /repo/src/poundctl.c:515-567: whether the program goes on.  The host name is sent to the server, but otherwise not used. -/
def ctlTlsOpen (T : CtlTls) (srv : CtlSrv) (_host : Bytes) : Bool :=
  if srv.verify && !T.loads srv.caFile srv.caPath then false
  else if !ctlCertOk T srv.cert then false
  else if !T.handshake then false
  else if srv.verify && T.peer.isSome && !T.chainOk srv.caFile srv.caPath then false
  else true

end Pound
