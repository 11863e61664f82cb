import Verif.Proof.Inject
import Verif.Props.Transit

/-!
Property C94: clients can't inject header lines or requests by way of rewriting rules.
-/

namespace Pound.Props
open Pound Spec

/-! ## C94 Rewriting rules do not let clients inject lines -/

/-- States of a connection with a client.  The lines of requests, of responses and of their headers are read one by one, conditions are tested and rewriting rules applied, to requests
and to responses; the history of matches is kept all the time. -/
inductive OnConn : PState → Prop where
  | first {line rl hs g} : OneLine line → parseHttpRequest line g = .ok rl → (∀ h ∈ hs, OneLine h.text) → OnConn ⟨Req.fresh line rl, hs, .init, none⟩
  | next {st line rl hs g} : OnConn st → OneLine line → parseHttpRequest line g = .ok rl → (∀ h ∈ hs, OneLine h.text) → OnConn ⟨Req.fresh line rl, hs, st.smq, none⟩
  | headers {st hs} : OnConn st → (∀ h ∈ hs, OneLine h.text) → OnConn { st with hs := hs }
  | tested {st x c} : OnConn st → CondLines c → OnConn (matchCond x c st).1
  | rewritten {st x a b} : OnConn st → RulesLines a → RulesLines b → OnConn (rewriteRequest x a b st).1
  | response {st line v hs} : OnConn st → st.src = none → OneLine line → v ≤ 1 → (∀ h ∈ hs, OneLine h.text) →
      OnConn ⟨⟨line, none, 0, v, [], [], none, [], false⟩, hs, st.smq, some (st.req, st.hs)⟩
  | answered {st r hs} : OnConn st → st.src = some (r, hs) → OnConn ⟨r, hs, st.smq, none⟩

theorem fresh_clean {line : Bytes} {rl : ReqLine} {g : Nat} (h : OneLine line) (hp : parseHttpRequest line g = .ok rl) : CleanReq (Req.fresh line rl) := by
  unfold parseHttpRequest at hp
  dsimp only at hp
  split at hp
  · cases hp
  split at hp
  · cases hp
  split at hp
  · cases hp
  split at hp
  · rename_i hc
    split at hp
    · simp at hp
    · injection hp with hp
      subst hp
      refine ⟨h, ?_, oneLine_nil, (by intro q hq; cases hq), (by intro p hp; cases hp), ?_⟩
      · exact oneLine_takeWhile (oneLine_dropWhile (oneLine_drop h _) _) _
      · show (Option.getD _ (0 : UInt8) - 48).toNat ≤ 1
        rcases hc.2.1 with e | e <;> rw [e] <;> decide
  · cases hp

theorem onConn_clean {st : PState} (h : OnConn st) : CleanSt st := by
  have init : CleanSmq .init := by
    intro s hs t ht
    have := List.eq_of_mem_replicate hs
    rw [this] at ht
    cases ht
  induction h with
  | first h1 h2 h3 => exact ⟨fresh_clean h1 h2, h3, init, by intro r hs e; cases e⟩
  | next _ h1 h2 h3 ih => exact ⟨fresh_clean h1 h2, h3, ih.smq, by intro r hs e; cases e⟩
  | headers _ h1 ih => exact ⟨ih.req, h1, ih.smq, ih.src⟩
  | tested _ h1 ih => exact matchCond_clean _ _ _ h1 ih
  | rewritten _ h1 h2 ih => exact rewriteRequest_inv (fun c st hc h => matchCond_clean _ c st hc h) (fun p st hp h => rwPrim_clean hp h) _ _ _ h1 h2 ih
  | response _ h0 h1 h2 h3 ih =>
    refine ⟨⟨h1, oneLine_nil, oneLine_nil, by simp, by simp, h2⟩, h3, ih.smq, ?_⟩
    intro r hs e
    injection e with e
    injection e with e1 e2
    rw [← e1, ← e2]
    exact ⟨ih.req, ih.hs⟩
  | answered _ h1 ih => exact ⟨(ih.src _ _ h1).1, (ih.src _ _ h1).2, ih.smq, by intro r hs e; cases e⟩

/-- Whatever clients and backends send, whatever conditions match and templates insert: rules whose texts are single lines leave a request line (or status line) and headers that are single
lines.  So a client can't add lines to what is sent to a backend, nor to a response. -/
theorem C94_single_lines (st : PState) (h : OnConn st) : OneLine st.req.request ∧ ∀ x ∈ st.hs, OneLine x.text :=
  ⟨(onConn_clean h).req.request, (onConn_clean h).hs⟩

/-- The same for what is written to a client in place of a backend's response. -/
theorem C94_response_lines (x : CondCtx) (svc lstn : List RwRule) (st : PState) (h : OnConn st) (hr : RulesLines svc ∧ RulesLines lstn) :
    ∀ y ∈ (rewriteResponse x svc lstn st).1.hs, OneLine y.text := (C94_single_lines _ (.rewritten h hr.1 hr.2)).2

/-- The rewriting of requests by such rules, which leave the headers alone by which the end of a body is found -/
def SafeRewriting : Rewrites := fun line mid line' hs' => ∃ x lstn svc st st', RulesLines lstn ∧ RulesLines svc ∧ RulesFraming lstn ∧ RulesFraming svc ∧
  OnConn st ∧ (∀ h ∈ mid, Good h) ∧ st.req.request = line ∧ st.hs = mid ∧ rewriteRequest x lstn svc st = (st', .val 0) ∧ line' = st'.req.request ∧ hs' = st'.hs

theorem safe_harmless : Harmless SafeRewriting := by
  intro line mid line' hs' h h1 h2 h3
  obtain ⟨x, lstn, svc, st, st', r1, r2, r3, r4, hc, hg, rfl, rfl, e, rfl, rfl⟩ := h
  have c := C94_single_lines _ (OnConn.rewritten (x := x) hc r1 r2)
  have f := rewriteRequest_inv (x := x) (I := FramingSt (HeadersNamed b!"Transfer-Encoding" (texts st.hs)) (HeadersNamed b!"Content-Length" (texts st.hs)))
    (fun c st _ h => matchCond_framing x c st h) (fun p st hp h => rwPrim_framing hp h) lstn svc st r3 r4 ⟨hg, rfl, rfl, h1⟩
  rw [e] at c f
  refine ⟨f.line, c.1, ?_, f.te, f.cl⟩
  intro y hy
  exact ⟨⟨y.text, [], by simp, c.2 y hy, by simp⟩, _, _, (f.good y hy).line⟩

/-- A request is prepared for a backend and rewritten by such rules, whatever happened on the connection before.  (The state `st` has the request line and the prepared headers.) -/
def RewritesSafely (edit : Bytes → List Header → Option (Bytes × List Header)) : Prop :=
  ∃ c x lstn svc, CleanFwd c ∧ NoCert c ∧ RulesLines lstn ∧ RulesLines svc ∧ RulesFraming lstn ∧ RulesFraming svc ∧
    ∀ line hs mid line' hs', OneLine line → forwardHead c hs = .ok mid → edit line hs = some (line', hs') →
      ∃ st0 st', OnConn st0 ∧ st0.req.request = line ∧ rewriteRequest x lstn svc { st0 with hs := mid } = (st', .val 0) ∧ line' = st'.req.request ∧ hs' = st'.hs

theorem safely_forwards {edit : Bytes → List Header → Option (Bytes × List Header)} (h : RewritesSafely edit) : Forwards SafeRewriting edit := by
  obtain ⟨c, x, lstn, svc, h1, h2, r1, r2, r3, r4, h3⟩ := h
  refine ⟨c, h1, ?_⟩
  intro line hs mid line' hs' hl ho hh hm he
  obtain ⟨st0, st', g1, g2, g3, g4, g5⟩ := h3 line hs mid line' hs' hl hm he
  obtain ⟨o1, o2⟩ := forwardHead_oneLine h1 h2 hh.coded (fun t ht => by
    obtain ⟨y, hy, rfl⟩ := List.mem_map.1 ht
    exact ho y hy) hm
  exact ⟨x, lstn, svc, { st0 with hs := mid }, st', r1, r2, r3, r4, .headers g1 (fun y hy => o1 _ (List.mem_map.2 ⟨y, hy, rfl⟩)), o2, g2, rfl, g3, g4, g5⟩

/-- With rules of this kind, backends read the requests of clients one for one (`C93_one_for_one_partial`).
Missing: what is missing there; listeners that pass on the certificates of clients, which consist of several lines (`C94_certificate_fails`); rules that change the headers by which
the end of a body is found (`C94_framing_fails`) or have the client choose the name of a header (`C94_name_fails`). -/
theorem C94_one_for_one_partial (strict : Bool) (cfg : LstnCfg) (msie : Accepted → Bool) (sched : Nat → Nat) (world : Nat → Accepted → Serve)
    (fuel i : Nat) (inp : Bytes) (pre post : List Handled)
    (hw : ∀ i a edit env beIn, world i a = .regular edit env beIn → RewritesSafely edit)
    (hi : ∀ i a res inp, world i a = .internal res → acceptRequest cfg inp = .ok a →
      ∃ lines ts k, HeadOf inp a.line lines a.rest ∧ Seen cfg.table lines ts ∧ Framing ts k ∧ (k = .none ∨ k = .length 0))
    (h : (doHttp cfg msie sched world fuel i inp).1 = pre ++ post) (hok : ∀ x ∈ pre, x.res = some .ok ∧ x.req.rl.version = 1)
    (hst : strict = true → ∀ x ∈ pre, ∀ wire payload rest, Chunked false 4095 wire payload → Consumed x.req.rest wire rest → Chunked true 4095 wire payload) :
    ∃ l rest, Carried strict cfg.table SafeRewriting inp l rest ∧ l.map (·.2) = (pre.map (·.toBackend)).filter (· ≠ []) ∧
      ∀ y post', post = y :: post' → acceptRequest cfg rest = .ok y.req :=
  C93_one_for_one_partial strict cfg msie sched world SafeRewriting fuel i inp pre post safe_harmless (fun i a edit env beIn hwr => safely_forwards (hw i a edit env beIn hwr)) hi h hok hst

/-- A rule: if the path begins with `/old`, what follows is the new path; the client's URL and User-Agent are passed on in a header of their own, which replaces any sent by the client. -/
def injRule : RwRule :=
  .mk (.elem (.path fun s => if s.take 4 = b!"/old" then ⟨true, [(0, (s.length : Nat)), (4, (s.length : Nat))]⟩ else ⟨false, []⟩))
    [.prim (.pathSet b!"/new$1"), .prim (.hdrSet b!"X-Orig: %[url] %[header user-agent]"), .prim (.hdrDel fun t => ⟨t.take 5 = b!"Host:", []⟩)] .null

def injCtx : CondCtx := ⟨fun _ => 0, fun _ _ => 0, fun _ => false⟩

/-- Requests are prepared and rewritten by this rule. -/
def rwEdit (c : FwdCfg) (rules : List RwRule) (line : Bytes) (hs : List Header) : Option (Bytes × List Header) :=
  match forwardHead c hs, parseHttpRequest line 3 with
  | .ok mid, .ok rl =>
    match rewriteRequest injCtx [] rules ⟨Req.fresh line rl, mid, .init, none⟩ with
    | (st, .val 0) => some (st.req.request, st.hs)
    | _ => none
  | _, _ => none

def rwWorld (c : FwdCfg) (rules : List RwRule) : Nat → Accepted → Serve := fun _ _ => .regular (rwEdit c rules) {} b!"HTTP/1.1 204 No\r\n\r\n"

theorem hostLine_named {t : Bytes} (h : t.take 5 = b!"Host:") (n : Bytes) (hn : ciEq b!"Host" n = false) : ¬ Named t n := by
  have e : t = b!"Host" ++ ch%':' :: (t.drop 5) := by
    have := List.take_append_drop 5 t
    rw [h] at this
    exact this.symm
  have hl : ∃ v, HeaderLine t b!"Host" v := by
    refine ⟨(t.drop 5).dropWhile (fun c : UInt8 => c == 32 || c == 9), (t.drop 5).takeWhile (fun c : UInt8 => c == 32 || c == 9), ?_, by decide, ?_, ?_, ?_⟩
    · rw [List.takeWhile_append_dropWhile]; exact e
    · unfold TChar; decide
    · intro c hc
      obtain ⟨_, -, -, -, -, h3⟩ := takeWhile_split (fun c : UInt8 => c == 32 || c == 9) (t.drop 5)
      simpa using h3 c hc
    · intro c hc
      have := List.head?_dropWhile_not (fun c : UInt8 => c == 32 || c == 9) (t.drop 5)
      rw [hc] at this
      simpa using this
  obtain ⟨v, hl⟩ := hl
  intro hx
  rw [(named_iff_line hl n).1 hx] at hn
  cases hn

theorem injRule_lines : RulesLines [injRule] := by
  intro r hr
  simp only [List.mem_singleton] at hr
  subst hr
  unfold injRule
  simp only [RuleAll, OpsAll, OpAll, CondLines, PrimLines]
  exact ⟨trivial, ⟨oneLine_bool _ (by decide), oneLine_bool _ (by decide), trivial, trivial⟩, trivial⟩

theorem injRule_framing : RulesFraming [injRule] := by
  intro r hr
  simp only [List.mem_singleton] at hr
  subst hr
  unfold injRule
  simp only [RuleAll, OpsAll, OpAll, PrimFraming]
  refine ⟨trivial, ⟨trivial, ⟨b!"X-Orig", b!"%[url] %[header user-agent]",
    (asLine_some (x := (b!"X-Orig: %[url] %[header user-agent]", b!"X-Orig", b!"%[url] %[header user-agent]")) (by decide)).2, by decide, by decide, by decide, by decide⟩, ?_, trivial⟩, trivial⟩
  intro t ht
  simp only [decide_eq_false_iff_not]
  intro h
  rcases ht with ht | ht
  · exact hostLine_named h _ (by decide) ht
  · exact hostLine_named h _ (by decide) ht

theorem rwEdit_safely {c : FwdCfg} (hc : CleanFwd c) (hn : NoCert c) {rules : List RwRule} (h1 : RulesLines rules) (h2 : RulesFraming rules) : RewritesSafely (rwEdit c rules) := by
  refine ⟨c, injCtx, [], rules, hc, hn, (by intro r hr; cases hr), h1, (by intro r hr; cases hr), h2, ?_⟩
  intro line hs mid line' hs' hl hm he
  unfold rwEdit at he
  rw [hm] at he
  split at he
  · rename_i mid' rl em ep
    injection em with em
    subst em
    split at he
    · rename_i st e
      injection he with he
      injection he with e1 e2
      exact ⟨⟨Req.fresh line rl, [], .init, none⟩, st, .first hl ep (by simp), rfl, e, e1.symm, e2.symm⟩
    · cases he
  · cases he

def injInput : Bytes := b!"GET /old/a?b HTTP/1.1\r\nHost: a\r\nX-Orig: fake\r\nUser-Agent: u\r\n\r\nPOST /c HTTP/1.1\r\nHost: b\r\nContent-Length: 3\r\n\r\nGET"

/-- The hypotheses hold for this rule and this client. -/
example : (∀ i a edit env beIn, rwWorld transitCfg [injRule] i a = .regular edit env beIn → RewritesSafely edit) ∧
    (∀ x ∈ (doHttp {} (fun _ => false) (fun n => n) (rwWorld transitCfg [injRule]) 9 0 injInput).1, x.res = some .ok ∧ x.req.rl.version = 1) ∧
    (doHttp {} (fun _ => false) (fun n => n) (rwWorld transitCfg [injRule]) 9 0 injInput).1.map (·.toBackend) =
      [b!"GET /new/a?b HTTP/1.1\r\nX-Orig: /new/a?b u\r\nUser-Agent: u\r\nX-Forwarded-For: 10.0.0.1\r\nX-Forwarded-Proto: http\r\nX-Forwarded-Port: 80\r\n\r\n",
       b!"POST /c HTTP/1.1\r\nHost: inner\r\nContent-Length: 3\r\nX-Forwarded-For: 10.0.0.1\r\nX-Forwarded-Proto: http\r\nX-Forwarded-Port: 80\r\n\r\nGET"] := by
  refine ⟨?_, by decide +kernel, by decide +kernel⟩
  intro i a edit env beIn h
  injection h with h1 _ _
  subst h1
  exact rwEdit_safely transit_clean (by intro e h; cases h) injRule_lines injRule_framing

/-- States in which all this has happened can be reached. -/
example : ∃ st, OnConn st ∧ st.req.request = b!"GET /new/a?b HTTP/1.1" ∧ st.hs.map (·.text) = [b!"X-Orig: /new/a?b "] ∧ st.src = none := by
  refine ⟨_, .rewritten (x := injCtx) (a := []) (b := [injRule]) (.first (line := b!"GET /old/a?b HTTP/1.1") (rl := ⟨0, b!"/old/a?b", 1⟩) (g := 0)
    (hs := []) (oneLine_bool _ (by decide)) (by decide +kernel) (by simp)) (by intro r hr; cases hr) injRule_lines, by decide +kernel, by decide +kernel, by decide +kernel⟩

theorem values_calc (n : Bytes) (L : List (Bytes × Bytes × Bytes)) (h : ∀ x ∈ L, asLine x.1 = some x) : Values n (L.map (·.1)) ((L.filter fun x => ciEq x.2.1 n).map (·.2.2)) := by
  induction L with
  | nil => exact .nil
  | cons x t ih =>
    have hl := (asLine_some (h x (by simp))).2
    have ih := ih fun y hy => h y (by simp [hy])
    simp only [List.map_cons, List.filter_cons]
    by_cases e : ciEq x.2.1 n = true
    · rw [if_pos e]
      exact .hit hl e ih
    · rw [if_neg e]
      exact .miss (fun hx => e ((named_iff_line hl n).1 hx)) ih

/-- What a server reads: a request line, header lines and as many bytes as they announce -/
theorem sends_calc (line : Bytes) (L : List (Bytes × Bytes × Bytes)) (k : BodyKind) (body : Bytes) (h1 : line ≠ []) (h2 : line.all (fun c => c != 13 && c != 10) = true)
    (h3 : ∀ x ∈ L, asLine x.1 = some x ∧ x.1.all (fun c => c != 13 && c != 10) = true) (hf : Framing (L.map (·.1)) k) (hb : BodyOf false k body body) :
    Sends false (line ++ [13, 10] ++ ((L.map (·.1)).flatMap (· ++ crlf) ++ crlf ++ body)) ⟨line, L.map (·.1), body⟩ := by
  obtain ⟨lines, g1, g2⟩ := fields_of_texts (L.map (·.1)) (by
    intro t ht
    obtain ⟨x, hx, rfl⟩ := List.mem_map.1 ht
    exact ⟨⟨x.1, [], by simp, oneLine_bool _ (h3 x hx).2, by simp⟩, _, _, (asLine_some (h3 x hx).1).2⟩)
  exact ⟨_, lines, k, body, rfl, h1, oneLine_bool _ h2, g1, g2, hf, hb⟩

def plainLine (n v : Bytes) : Bytes × Bytes × Bytes := (n ++ b!": " ++ v, n, v)

def fwdLines : List (Bytes × Bytes × Bytes) :=
  [plainLine b!"X-Forwarded-For" b!"10.0.0.1", plainLine b!"X-Forwarded-Proto" b!"http", plainLine b!"X-Forwarded-Port" b!"80"]

/-- A rule that deletes the header Content-Length of requests for which there is a condition, here none: it consists of single lines. -/
def dropRule : RwRule := .mk (.bool .and []) [.prim (.hdrDel fun t => ⟨ciEq (t.take 15) b!"Content-Length:", []⟩)] .null

theorem dropRule_lines : RulesLines [dropRule] := by
  intro r hr
  simp only [List.mem_singleton] at hr
  subst hr
  unfold dropRule
  simp only [RuleAll, OpsAll, OpAll, PrimLines, CondLines, CondsLines]
  exact ⟨trivial, ⟨trivial, trivial⟩, trivial⟩

/-- The code relies on its configuration as to framing: with a rule that deletes Content-Length, the body is sent all the same, and the backend takes it for a request. -/
theorem C94_framing_fails : ∃ inp, RulesLines [dropRule] ∧
    (doHttp {} (fun _ => false) (fun n => n) (rwWorld transitCfg [dropRule]) 9 0 inp).1.map (fun x => (x.req.rl.url, x.res)) = [(b!"/a", some .ok)] ∧
    ∃ m m', Stream false ((doHttp {} (fun _ => false) (fun n => n) (rwWorld transitCfg [dropRule]) 9 0 inp).1.flatMap (·.toBackend)) [m, m'] ∧
      m'.line = b!"GET /evil HTTP/1.1" := by
  refine ⟨b!"POST /a HTTP/1.1\r\nHost: h\r\nContent-Length: 31\r\n\r\nGET /evil HTTP/1.1\r\nHost: h\r\n\r\n", dropRule_lines, by decide +kernel, 
    ⟨b!"POST /a HTTP/1.1", (plainLine b!"Host" b!"inner" :: fwdLines).map (·.1), []⟩, ⟨b!"GET /evil HTTP/1.1", [plainLine b!"Host" b!"h"].map (·.1), []⟩, ?_, rfl⟩
  have e : (doHttp {} (fun _ => false) (fun n => n) (rwWorld transitCfg [dropRule]) 9 0
      b!"POST /a HTTP/1.1\r\nHost: h\r\nContent-Length: 31\r\n\r\nGET /evil HTTP/1.1\r\nHost: h\r\n\r\n").1.flatMap (·.toBackend) =
      (b!"POST /a HTTP/1.1" ++ [13, 10] ++ (((plainLine b!"Host" b!"inner" :: fwdLines).map (·.1)).flatMap (· ++ crlf) ++ crlf ++ [])) ++
      ((b!"GET /evil HTTP/1.1" ++ [13, 10] ++ (([plainLine b!"Host" b!"h"].map (·.1)).flatMap (· ++ crlf) ++ crlf ++ [])) ++ []) := by decide +kernel
  rw [e]
  refine .cons (sends_calc _ _ .none [] (by decide) (by decide) (by decide +kernel) ⟨?_, ?_⟩ .none)
    (.cons (sends_calc _ _ .none [] (by decide) (by decide) (by decide +kernel) ⟨?_, ?_⟩ .none) .nil)
  all_goals exact values_calc _ _ (by decide +kernel)

/-- A rule that has the client choose a header, name and all: it consists of single lines. -/
def echoRule : RwRule := .mk (.bool .and []) [.prim (.hdrSet b!"%[header x-set]")] .null

theorem echoRule_lines : RulesLines [echoRule] := by
  intro r hr
  simp only [List.mem_singleton] at hr
  subst hr
  unfold echoRule
  simp only [RuleAll, OpsAll, OpAll, PrimLines, CondLines, CondsLines]
  exact ⟨trivial, ⟨oneLine_bool _ (by decide), trivial⟩, trivial⟩

/-- If clients choose the name of a header, they can choose Content-Length: of two requests, the second one, perhaps of another client, is taken for the body of the first one. -/
theorem C94_name_fails : ∃ inp, RulesLines [echoRule] ∧
    (doHttp {} (fun _ => false) (fun n => n) (rwWorld transitCfg [echoRule]) 9 0 inp).1.map (fun x => (x.req.rl.url, x.res)) = [(b!"/a", some .ok), (b!"/b", some .ok)] ∧
    ∃ m, Stream false ((doHttp {} (fun _ => false) (fun n => n) (rwWorld transitCfg [echoRule]) 9 0 inp).1.flatMap (·.toBackend)) [m] ∧
      m.payload.take 15 = b!"GET /b HTTP/1.1" := by
  refine ⟨b!"GET /a HTTP/1.1\r\nX-Set: Content-Length: 116\r\n\r\nGET /b HTTP/1.1\r\nX-Set: X-Set: a\r\n\r\n", echoRule_lines, by decide +kernel, ⟨b!"GET /a HTTP/1.1",
    (plainLine b!"X-Set" b!"Content-Length: 116" :: fwdLines ++ [plainLine b!"Host" b!"inner", plainLine b!"Content-Length" b!"116"]).map (·.1),
    b!"GET /b HTTP/1.1\r\nX-Set: a\r\nX-Forwarded-For: 10.0.0.1\r\nX-Forwarded-Proto: http\r\nX-Forwarded-Port: 80\r\nHost: inner\r\n\r\n"⟩, ?_, by decide⟩
  have e : (doHttp {} (fun _ => false) (fun n => n) (rwWorld transitCfg [echoRule]) 9 0
      b!"GET /a HTTP/1.1\r\nX-Set: Content-Length: 116\r\n\r\nGET /b HTTP/1.1\r\nX-Set: X-Set: a\r\n\r\n").1.flatMap (·.toBackend) =
      (b!"GET /a HTTP/1.1" ++ [13, 10] ++ (((plainLine b!"X-Set" b!"Content-Length: 116" :: fwdLines ++ [plainLine b!"Host" b!"inner", plainLine b!"Content-Length" b!"116"]).map (·.1)).flatMap
        (· ++ crlf) ++ crlf ++ b!"GET /b HTTP/1.1\r\nX-Set: a\r\nX-Forwarded-For: 10.0.0.1\r\nX-Forwarded-Proto: http\r\nX-Forwarded-Port: 80\r\nHost: inner\r\n\r\n")) ++ [] := by decide +kernel
  rw [e]
  refine .cons (sends_calc _ _ (.length 116) _ (by decide) (by decide) (by decide +kernel) ⟨?_, b!"116", ?_, ?_⟩ (.length (by decide))) .nil
  · exact values_calc _ _ (by decide +kernel)
  · exact values_calc _ _ (by decide +kernel)
  · exact ⟨by decide, [], b!"116", [], rfl, by simp [Blank], ⟨by decide, by decide, by decide⟩, by simp [Blank]⟩

/-- A rule that has the certificate of the client in the path.  (The expression is `X-SSL-certificate: (.*)`, with `.` for any character.) -/
def certRule : RwRule :=
  .mk (.elem (.hdr fun t => if t.take 19 = b!"X-SSL-certificate: " then ⟨true, [(0, (t.length : Nat)), (19, (t.length : Nat))]⟩ else ⟨false, []⟩)) [.prim (.pathSet b!"/$1")] .null

def certTls : SslEnv := ⟨none, true, some ⟨b!"CN=c\n", b!"CN=i\n", b!"1\n", b!"2\n", 7, b!"-----BEGIN\nAAAA\n-----END\n"⟩⟩

def certCfg : FwdCfg := { transitCfg with tls := some certTls }

/-- The certificate of a client is passed on in a header of several lines: a rule can have these lines in the request line. -/
theorem C94_certificate_fails : ∃ line line', CleanFwd certCfg ∧ RulesLines [certRule] ∧ RulesFraming [certRule] ∧ OneLine line ∧
    (rwEdit certCfg [certRule] line []).map (·.1) = some line' ∧ ¬ OneLine line' := by
  refine ⟨b!"GET / HTTP/1.1", b!"GET /-----BEGIN\r\n\tAAAA\r\n\t-----END HTTP/1.1", ⟨transit_clean.addr, transit_clean.be, transit_clean.name, ?_⟩, ?_, ?_, oneLine_bool _ (by decide),
    by decide +kernel, ?_⟩
  · intro e v d h h2
    injection h with h
    subst h
    cases h2
  · intro r hr
    simp only [List.mem_singleton] at hr
    subst hr
    unfold certRule
    simp only [RuleAll, OpsAll, OpAll, PrimLines, CondLines]
    exact ⟨trivial, ⟨oneLine_bool _ (by decide), trivial⟩, trivial⟩
  · intro r hr
    simp only [List.mem_singleton] at hr
    subst hr
    unfold certRule
    simp only [RuleAll, OpsAll, OpAll, PrimFraming]
    exact ⟨trivial, ⟨trivial, trivial⟩, trivial⟩
  · intro h
    exact (h 13 (by decide)).1 rfl

end Pound.Props
