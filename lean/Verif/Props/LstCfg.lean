import Verif.Proof.LstSvc

/-! Listeners in the configuration. -/

namespace Pound.Props

open Spec

/-! ### C79 -/

/-- A listener that is accepted without complaint is a name and a list of settings among other statements; it is added to the others, and it is what its settings say.
`other` are the parsers of the other statements, which read what `ostmt` says. -/
theorem C79_sound {ω : Type} {e : LstEnv} {d : LstDfl} {N : Nat} {other : Bytes → Option (LParser ω)} {ostmt : List Tok → ω → ω → Prop} (ho : OtherSpec N other ostmt)
    {init : ω} {certs : ω → List Bytes} {tls : Bool} {n : Nat} (hd : ∀ w p, other w = some p → lstFind e d tls w = none) {ls ls' : List (Lst ω)} {ts r : List Tok} {er : Nat}
    (h : listenParser e d other init certs tls n ⟨ls, ts, er⟩ = .ok ⟨ls', r, er⟩) :
    ∃ t x, ts = t ++ r ∧ ls' = ls ++ [x] ∧ x.tls = tls ∧ Listens e d ostmt init certs (ls.filterMap (·.name)) t x := (listen_sound ho hd h).2 rfl

/-- Each such listener is accepted. -/
theorem C79_complete {ω : Type} {e : LstEnv} {d : LstDfl} {N : Nat} {other : Bytes → Option (LParser ω)} {ostmt : List Tok → ω → ω → Prop} (ho : OtherSpec N other ostmt)
    (hs : ∀ t o o', ostmt t o o' → ∃ n a, t = .ident n :: a) {init : ω} {certs : ω → List Bytes} {ls : List (Lst ω)} {t : List Tok} {x : Lst ω}
    (hd : ∀ w p, other w = some p → lstFind e d x.tls w = none) (h : Listens e d ostmt init certs (ls.filterMap (·.name)) t x) {n : Nat} (hn : t.length ≤ n) (hN : t.length ≤ N)
    (r : List Tok) (er : Nat) : listenParser e d other init certs x.tls n ⟨ls, t ++ r, er⟩ = .ok ⟨ls ++ [x], r, er⟩ := listen_complete ho hs hd h hn hN r er

/-- The same with the services of the listener, given by their names and backends. -/
theorem C79_services_sound {e : LstEnv} {d : LstDfl} {be : BeEnv} {bd : BeDfl} {algo : Algo} {N n : Nat} {tls : Bool} {ls ls' : List (Lst (List (Option Bytes × SvcBes)))} {ts r : List Tok}
    {er : Nat} (h : listenParser e d (svcStmtFind be bd algo N) [] (fun _ => []) tls n ⟨ls, ts, er⟩ = .ok ⟨ls', r, er⟩) :
    ∃ t x, ts = t ++ r ∧ ls' = ls ++ [x] ∧ x.tls = tls ∧ Listens e d (SvcStmt be bd algo) [] (fun _ => []) (ls.filterMap (·.name)) t x :=
  C79_sound (svcStmt_spec be bd algo N) (fun w p => svcStmt_disj w p) h

theorem C79_services_complete {e : LstEnv} {d : LstDfl} {be : BeEnv} {bd : BeDfl} {algo : Algo} {n : Nat} {ls : List (Lst (List (Option Bytes × SvcBes)))} {t : List Tok}
    {x : Lst (List (Option Bytes × SvcBes))} (h : Listens e d (SvcStmt be bd algo) [] (fun _ => []) (ls.filterMap (·.name)) t x) (hn : t.length ≤ n) (r : List Tok) (er : Nat) :
    listenParser e d (svcStmtFind be bd algo n) [] (fun _ => []) x.tls n ⟨ls, t ++ r, er⟩ = .ok ⟨ls ++ [x], r, er⟩ :=
  C79_complete (svcStmt_spec be bd algo n) (fun _ _ _ => svcStmt_start) (fun w p => svcStmt_disj w p) h hn hn r er

/-- For settings in an order that is accepted there are properties the listener has, and no others. -/
theorem C79_meaning (d : LstDfl) (l : List LstSet) (h : LstOrder l) : (∃ s, LstMeans d l s) ∧ ∀ s s', LstMeans d l s → LstMeans d l s' → s = s' := by
  obtain ⟨s, hs⟩ := of_order (d := d) l h
  exact ⟨⟨s, lst_means hs⟩, fun _ _ => lst_unique⟩

/-- Names of listeners are unique: if they are so far, they are with one more. -/
theorem C79_names {ω : Type} {e : LstEnv} {d : LstDfl} {N : Nat} {other : Bytes → Option (LParser ω)} {ostmt : List Tok → ω → ω → Prop} (ho : OtherSpec N other ostmt)
    {init : ω} {certs : ω → List Bytes} {tls : Bool} {n : Nat} (hd : ∀ w p, other w = some p → lstFind e d tls w = none) {ls ls' : List (Lst ω)} {ts r : List Tok} {er : Nat}
    (h : listenParser e d other init certs tls n ⟨ls, ts, er⟩ = .ok ⟨ls', r, er⟩) (hu : (ls.filterMap (·.name)).Nodup) : (ls'.filterMap (·.name)).Nodup := by
  obtain ⟨t, x, _, rfl, _, hx⟩ := C79_sound ho hd h
  obtain ⟨body, l, s, h1, _⟩ := hx.settings
  rw [List.filterMap_append]
  rcases h1 with ⟨_, h1⟩ | ⟨nm, _, h1, h2⟩
  · simpa [h1] using hu
  · simp only [List.filterMap_cons, h1, List.filterMap_nil]
    rw [List.nodup_append]
    refine ⟨hu, by simp, ?_⟩
    intro a ha b hb
    rw [List.mem_singleton] at hb
    subst hb
    exact fun hab => h2 (hab ▸ ha)

/-! Examples -/

/-- An environment: one file with a certificate, a directory with two, one without any -/
def lstEnv0 : LstEnv where
  cfg := ⟨true, fun _ => true, fun _ => true, fun _ => true, fun _ => true, fun _ => none⟩
  gai := fun h p =>
    match h with
    | none => [⟨false, true, b!"0.0.0.0:" ++ p⟩, ⟨true, true, b!":::" ++ p⟩]
    | some h => if h = b!"10.0.0.1" then [⟨false, false, b!"10.0.0.1:" ++ p⟩] else []
  formats := [b!"null", b!"regular", b!"extended"]
  file := fun f => if f = b!"e.html" then some b!"gone" else none
  certs := fun f => if f = b!"a.pem" then some [b!"a.pem"] else if f = b!"dir" then some [b!"dir/x", b!"dir/y"] else if f = b!"empty" then some [] else none
  caFile := fun _ => true
  verifyFile := fun _ => true
  crlFile := fun _ => true

def lstDfl0 : LstDfl := ⟨10, 1, ⟨true, true⟩, ⟨.posix, false⟩⟩

/-- The result of reading one listener without other statements -/
def listen0 (tls : Bool) (ts : List Tok) : Option (List (Lst Unit)) :=
  match listenParser lstEnv0 lstDfl0 (fun _ => none) () (fun _ => []) tls 80 ⟨[], ts, 0⟩ with
  | .ok s => some s.data
  | _ => none

/-- A listener with some of each kind of setting -/
def lstToks0 : List Tok :=
  [.string b!"web", .nl, .ident b!"Port", .number b!"8443", .nl, .ident b!"Cert", .string b!"a.pem", .nl, .ident b!"Ciphers", .string b!"HIGH", .nl, .ident b!"Cert", .string b!"dir", .nl,
   .ident b!"ClientCert", .number b!"2", .number b!"9", .nl, .ident b!"HeaderOption", .literal b!"no-SSL", .nl, .ident b!"MaxRequest", .number b!"2000", .nl,
   .ident b!"Err404", .string b!"e.html", .nl, .nl, .ident b!"Disable", .ident b!"TLSv1", .nl, .ident b!"Disable", .ident b!"SSLv3", .nl, .ident b!"LogLevel", .string b!"extended", .nl,
   .ident b!"logLevel", .number b!"0", .nl, .ident b!"End"]

example : (listen0 true lstToks0).map (fun ls => ls.map fun x => (x.name, x.addr, x.st.ctxs)) = some [(some b!"web", .inet ⟨true, true, b!":::8443"⟩,
    [⟨b!"a.pem", [.ciphers b!"HIGH", .verify 2 9]⟩, ⟨b!"dir/x", [.verify 2 9]⟩, ⟨b!"dir/y", [.verify 2 9]⟩])] := by decide +kernel

example : (listen0 true lstToks0).map (fun ls => ls.map fun x => (x.st.hdr, x.st.maxReq, x.st.err 404)) = some [(⟨true, false⟩, 2000, some b!"gone")] := by decide +kernel

example : (listen0 true lstToks0).map (fun ls => ls.map fun x => (x.st.noProto, x.st.logLevel, x.st.to)) = some [(3, 0, 10)] := by decide +kernel

/-- The hypotheses on other statements are met, and there are such listeners with services. -/
example : ∃ x r, listenParser lstEnv0 lstDfl0 (svcStmtFind ⟨fun _ => none, fun _ => false, fun _ => none⟩ ⟨15, 10, 600⟩ .random 20) [] (fun _ => []) false 20
    ⟨[], [.nl, .ident b!"Address", .literal b!"10.0.0.1", .nl, .ident b!"Service", .string b!"s", .nl, .ident b!"Metrics", .nl, .ident b!"End", .nl, .ident b!"End", .nl], 0⟩ = .ok ⟨[x], r, 0⟩ ∧
    x.other = [(some b!"s", ⟨.random, [⟨0, [⟨1, 0, .metrics⟩]⟩]⟩)] ∧ x.addr = .inet ⟨false, false, b!"10.0.0.1:80"⟩ := ⟨_, _, rfl, rfl, rfl⟩

/-- Where SocketFrom is used, Address and Port may not be, according to the documentation.  After it they are accepted, and ignored. -/
theorem C79_socket_from_fails : (listen0 false [.ident b!"SocketFrom", .string b!"/run/s", .nl, .ident b!"Address", .literal b!"10.0.0.1", .nl, .ident b!"Port", .number b!"81", .nl,
    .ident b!"End"]).map (fun ls => ls.map fun x => (x.addr, x.st.addrStr, x.st.portStr)) = some [(.sockFrom b!"/run/s", some b!"10.0.0.1", some b!"81")] := by decide +kernel

/-- Address is documented to accept the name of a socket: that is looked up as a numeric address, so with any resolver that knows only those the listener is refused. -/
theorem C79_unix_address_fails {e : LstEnv} {d : LstDfl} {p : Bytes} (h : ∀ s, e.gai (some p) s = []) (n : Nat) (ls : List (Lst Unit)) (r : List Tok) (er : Nat) :
    ∀ x, listenParser e d (fun _ => none) () (fun _ => []) false n ⟨ls, [.nl, .ident b!"Address", .string p, .nl, .ident b!"End"] ++ r, er⟩ ≠ .ok x := by
  intro x hx
  have k1 : bothFind (ω := Unit) (lstFind e d false) (fun _ => none) b!"Address" = some (onFst (setParser (lstArg e d .addr) false lstApply)) := rfl
  have k2 : bothFind (ω := Unit) (lstFind e d false) (fun _ => none) b!"End" = some endParser := rfl
  unfold listenParser at hx
  dsimp only [List.cons_append, List.nil_append] at hx
  match n, hx with
  | 0, hx => cases hx
  | 1, hx => cases hx
  | 2, hx => rw [cfgL] at hx; dsimp only at hx; rw [cfgL] at hx; dsimp only at hx; rw [k1] at hx; dsimp only [onFst, setParser, lstArg, setArg1, addrArg] at hx; cases hx
  | n + 3, hx =>
    rw [cfgL] at hx; dsimp only at hx; rw [cfgL] at hx; dsimp only at hx; rw [k1] at hx
    dsimp only [onFst, setParser, lstArg, setArg1, addrArg, Option.map_some, lstApply] at hx
    simp only [Bool.false_eq_true, if_false] at hx
    rw [cfgL] at hx; dsimp only at hx; rw [k2] at hx
    dsimp only [endParser] at hx
    have hr : lstResolve e { lstInit d with addrStr := some p } b!"80" = none := by
      unfold lstResolve
      simp only [lstInit, h]
    unfold lstFinish at hx
    simp only [Bool.false_eq_true, if_false, hr] at hx
    cases hx

/-- NoHTTPS11 is documented to be 2 by default; it is 0. -/
theorem C79_nohttps11_fails : (listen0 true [.nl, .ident b!"Cert", .string b!"a.pem", .nl, .ident b!"End"]).map (fun ls => ls.map fun x => x.st.noHttps11) = some [0] := by decide +kernel

/-- ClientCert is documented to take a depth with each of its modes; with 0 it is refused. -/
theorem C79_client_cert_0_fails : listen0 true [.nl, .ident b!"Cert", .string b!"a.pem", .nl, .ident b!"ClientCert", .number b!"0", .number b!"1", .nl, .ident b!"End"] = none := by rfl

/-- Certificates are documented to have to come before all settings of TLS.  One that comes after ClientCert is accepted without a message; clients that ask for its name
are not asked for a certificate, although the listener says that they have to have one. -/
theorem C79_cert_order_fails : (listen0 true [.nl, .ident b!"Cert", .string b!"a.pem", .nl, .ident b!"ClientCert", .number b!"2", .number b!"1", .nl, .ident b!"Cert", .string b!"dir", .nl,
    .ident b!"End"]).map (fun ls => ls.map fun x => (x.st.ctxs, x.st.clntCheck)) = some [([⟨b!"a.pem", [.verify 2 1]⟩, ⟨b!"dir/x", []⟩, ⟨b!"dir/y", []⟩], 2)] := by decide +kernel

/-- Err405 is documented to be the same as ErrorFile 405; it is not known. -/
theorem C79_err405_fails : listen0 false [.nl, .ident b!"Err405", .string b!"e.html", .nl, .ident b!"End"] = none ∧
    (listen0 false [.nl, .ident b!"ErrorFile", .number b!"405", .string b!"e.html", .nl, .ident b!"End"]).map (fun ls => ls.map fun x => x.st.err 405) = some [some b!"gone"] :=
  ⟨rfl, by decide +kernel⟩

/-- ForwardedHeader is documented with a name that is not quoted; that is refused. -/
theorem C79_forwarded_header_fails : listen0 false [.nl, .ident b!"ForwardedHeader", .literal b!"X-Real-IP", .nl, .ident b!"End"] = none ∧
    listen0 false [.nl, .ident b!"ForwardedHeader", .ident b!"Forwarded", .nl, .ident b!"End"] = none := ⟨rfl, rfl⟩

end Pound.Props
