import Verif.Props.Whole
import Verif.Props.Transit

/-!
C101, from the text of a configuration and the bytes that a client sends to the bytes that backends read.
-/

namespace Pound.Props
open Pound Spec

theorem changeDest_cases (be : Bytes) (tls : Bool) : ∀ (hs hs' : List Header), changeDest be tls hs = .ok hs' →
    hs' = hs ∨ ∃ a h b path, hs = a ++ h :: b ∧ hs' = a ++ h.change (b!"Destination: " ++ (if tls then b!"https" else b!"http") ++ b!"://" ++ be ++ path) :: b
  | [], hs', h => by
    cases h
    exact .inl rfl
  | x :: r, hs', h => by
    unfold changeDest at h
    split at h
    · split at h
      · cases h
      · split at h
        · cases h; exact .inl rfl
        · cases h
          exact .inr ⟨[], x, r, _, rfl, rfl⟩
    · split at h
      · cases h
      · rename_i r' hr
        cases h
        rcases changeDest_cases be tls r r' hr with rfl | ⟨a, y, b, path, rfl, rfl⟩
        · exact .inl rfl
        · exact .inr ⟨x :: a, y, b, path, rfl, rfl⟩

theorem addHeaders_list {L : List (Bytes × HMode)} {ns : List Bytes} (hl : Lines L ns) : ∀ {hs hs' : List Header}, HeaderList hs → addHeaders L hs = .ok hs' → HeaderList hs' := by
  induction hl with
  | nil => intro hs hs' h e; cases e; exact h
  | cons h1 _ ih =>
    intro hs hs' h e
    unfold addHeaders at e
    split at e
    · cases e
    · rename_i hs1 ha
      exact ih (.add h h1 ha) e
    · rename_i ha
      cases e
      exact .add h h1 ha

theorem forwardHead_list {c : FwdCfg} {hs hs' : List Header} (hh : HeaderList hs) (h : forwardHead c hs = .ok hs') : HeaderList hs' := by
  obtain ⟨f, h1, h2, h3, s⟩ := forward_stages hh h
  have l1 : HeaderList h1 := by
    have e := s.e1
    split at e
    · rcases changeDest_cases _ _ _ _ e with rfl | ⟨a, x, b, path, rfl, rfl⟩
      · exact hh
      · exact .change hh (dest_line c.beAddr path c.beTls)
    · cases e; exact hh
  obtain ⟨_, a1, -⟩ := fwd_lines s.fwd
  obtain ⟨_, a2, -⟩ := tls_lines c
  obtain ⟨_, a3, -⟩ := host_lines c.servername
  exact addHeaders_list a3 (addHeaders_list a2 (addHeaders_list a1 l1 s.e2) s.e3) s.e4

/-- A request is forwarded as the listener and the backend are configured. -/
structure SentAs (l : Lst LOther) (w : ConnFacts) (addr : BeAddr) (port : Nat) (ctx : Option (List CtxOp)) (sni : Option Bytes) (c : FwdCfg) : Prop where
  rewrDest : c.rewrDest = l.st.rewrDest
  forwarded : c.forwarded = l.st.hdr.fwd
  sslHeaders : c.ssl = l.st.hdr.ssl
  client : c.peer = w.peer ∧ c.port = w.port
  encrypted : l.tls = true → c.tls = some w.ssl
  plain : l.tls = false → c.tls = none
  backend : c.beAddr = w.beText addr port
  https : c.beTls = true ↔ ctx ≠ none
  name : c.servername = sni

theorem SentAs.eq {l : Lst LOther} {w : ConnFacts} {addr : BeAddr} {port : Nat} {ctx : Option (List CtxOp)} {sni : Option Bytes} {c : FwdCfg} (h : SentAs l w addr port ctx sni c) :
    c = fwdOf l w addr port ctx sni := by
  obtain ⟨h1, h2, h3, ⟨h4, h5⟩, h6, h7, h8, h9, h10⟩ := h
  cases c
  unfold fwdOf
  dsimp only at *
  subst h1 h2 h3 h4 h5 h8 h10
  congr 1
  · split
    · exact h6 ‹_›
    · rename_i hx; exact h7 (Bool.not_eq_true _ ▸ hx)
  · cases ctx with
    | none => simpa using h9
    | some x => simpa using h9

theorem prepared_of {c : FwdCfg} {hs mid : List Header} {ts : List Bytes} {keep : Bytes → Bool} (hh : HeaderList hs) (h : forwardHead c hs = .ok mid)
    (hk : ∀ t ∈ ts, keep t = false ↔ ∃ n v, HeaderLine t n v ∧ ciEq n b!"Expect" ∧ ciEq v b!"100-continue") (ht : hs.map (·.text) = ts.filter keep) :
    Prepared c ts (mid.map (·.text)) := by
  have hne : ∀ n, ciEq b!"Expect" n = false → HeadersNamed n (hs.map (·.text)) = HeadersNamed n ts := by
    intro n hn
    rw [ht]
    refine hn_filter fun t htm hkf => ?_
    obtain ⟨n', v, e1, e2, -⟩ := (hk t htm).1 hkf
    exact named_other (n := b!"Expect") ⟨n', v, e1, e2⟩ hn
  refine ⟨⟨keep, hk, by rw [← ht]; exact C69_others c hs mid hh h⟩, fun hf => ?_, fun hf hp => ?_, fun hf n hn => ?_, fun n hn => ?_, fun hn => ?_, fun hd => ?_⟩
  · rw [C67_proto_partial c hs mid hh h hf, hne _ (by decide)]
  · rw [(C67_port_partial c hs mid hh h hf).1 hp, hne _ (by decide)]
  · rw [C67_off c hs mid hh h hf n hn, hne]
    simp only [List.mem_cons, List.not_mem_nil, or_false] at hn
    rcases hn with rfl | rfl | rfl <;> decide
  · rw [(C69_host c hs mid hh h).1 n hn, hne _ (by decide)]
  · rw [(C69_host c hs mid hh h).2 hn, hne _ (by decide)]
  · rw [C69_dest_off c hs mid hh h hd, hne _ (by decide)]

/-- The request at place `p` of those that were served: where it begins in the client's stream -/
def BeginsAt (hs : List Handled) (inp : Bytes) (p : Nat) (before : Bytes) : Prop :=
  (p = 0 → before = inp) ∧ ∀ q y, p = q + 1 → hs[q]? = some y → before = y.rest

theorem handled_at {cfg : LstnCfg} {msie : Accepted → Bool} {sched : Nat → Nat} {world : Nat → Accepted → Serve} : ∀ (p fuel i : Nat) (inp : Bytes) (x : Handled),
    (doHttp cfg msie sched world fuel i inp).1[p]? = some x →
    ∃ before, BeginsAt (doHttp cfg msie sched world fuel i inp).1 inp p before ∧ acceptRequest cfg before = .ok x.req ∧ serve cfg sched x.req (world (i + p) x.req) = .ok x
  | 0, fuel, i, inp, x, h => by
    cases hl : (doHttp cfg msie sched world fuel i inp).1 with
    | nil => rw [hl] at h; cases h
    | cons y l =>
      rw [hl] at h
      cases h
      obtain ⟨f, -, h1, h2, -⟩ := doHttp_cons hl
      exact ⟨inp, ⟨fun _ => rfl, fun q y hq => by omega⟩, h1, h2⟩
  | p + 1, fuel, i, inp, x, h => by
    cases hl : (doHttp cfg msie sched world fuel i inp).1 with
    | nil => rw [hl] at h; cases h
    | cons y l =>
      rw [hl, List.getElem?_cons_succ] at h
      obtain ⟨f, -, -, -, h3⟩ := doHttp_cons hl
      have hne : l ≠ [] := by rintro rfl; cases h
      obtain ⟨h4, -⟩ := h3 hne
      rw [h4] at h
      obtain ⟨before, b1, b2, b3⟩ := handled_at p f (i + 1) y.rest x h
      refine ⟨before, ⟨fun h0 => by omega, fun q z hq hz => ?_⟩, b2, by rw [Nat.add_assoc, Nat.add_comm 1] at b3; exact b3⟩
      cases hq
      cases p with
      | zero => cases hz; exact b1.1 rfl
      | succ q =>
        rw [List.getElem?_cons_succ, h4] at hz
        exact b1.2 q z rfl hz

/-- From the text of a configuration and the bytes that a client sends to those that backends read: a documented configuration is accepted, and on every connection to a listener, each
request that is served by a regular backend is read by that backend (`Sends`) as the client's request (`Taken`), with its payload; its headers are prepared as the listener and the backend are
configured, and then its line and headers are modified by the rules of the listener and of the service, as they are written.  (`world` is what happens to requests; `wholeServe` tells for those
that are given a regular backend.)
Missing: requests whose rules leave something else than lines or change the framing (`Intact`; C94 has the rules that don't), chunked requests of HTTP/1.0 (C93_http10_fails), and what the theorems
before leave out. -/
theorem C101_forwards_partial (e : TopEnv) (t : List Tok) (g : Glob) (o : FullObjs) (h : FullConfigures e t g o) (hp : PlainText t) (hn : ∀ nb ∈ o.named, nb.m.host ≠ none) :
    ∃ o' N, (∀ n, N ≤ n → parseFull e n t = some (g, o', 0)) ∧
      ∀ (j : Nat) (l : Lst LOther), o.lsts[j]? = some l →
        (∀ v ∈ l.other.svcs ++ o.svcs, NoEmptyOrs (condFormulas v.cfg.conds) ∧ StmtsOrs (rulesStmts l.other.req ++ rulesStmts v.cfg.req)) →
        ∃ l', o'.lsts[j]? = some l' ∧
          ∀ (fe : FinEnv) (fs : Nat → List FGrp), (∀ i v, (l.other.svcs ++ o.svcs)[i]? = some v → Each (GroupFinal fe o.named) v.rest.bes.groups (fs i)) →
            (∀ i v', (l'.other.svcs ++ o'.svcs)[i]? = some v' → serviceFinalize fe o'.named v'.rest.bes.groups = .ok (some (fs i))) ∧
            ∀ (k : Installed) (msie : Accepted → Bool) (sched : Nat → Nat) (w : ConnFacts) (net : NetFacts) (m : Nat → Meets) (env : Nat → RespEnv) (beIn : Nat → Bytes) (world : Nat → Accepted → Serve)
              (cfg : LstnCfg) (fuel : Nat) (inp : Bytes), ListensAs k g l cfg →
              (∀ i a sv, wholeServe k g o'.svcs l' fs w net (m i) (env i) (beIn i) a = some sv → world i a = sv) →
              ∀ (p : Nat) (x : Handled), (doHttp cfg msie sched world fuel 0 inp).1[p]? = some x → x.res = some .ok → x.req.rl.version = 1 →
              ∀ (strict : Bool), (strict = true → ∀ wire payload rest, Chunked false 4095 wire payload → Consumed x.req.rest wire rest → Chunked true 4095 wire payload) →
              ∀ (ms : List (MatchRes × Bytes)) (s : View) (i id q : Nat) (v : FullSvc) (f : FBe) (addr : BeAddr) (port to connTo wsTo : Nat) (ctx : Option (List CtxOp)) (sni : Option Bytes)
                (c : FwdCfg),
                Recorded (m p).smq ms → Routes k (l.other.svcs ++ o.svcs) (m p).ctx x.req ms (some i) s → (l.other.svcs ++ o.svcs)[i]? = some v →
                (m p).given i = some id → Numbered (fs i) id q f → f.v = .regular addr port to connTo wsTo ctx sni → SentAs l w addr port ctx sni c → CleanFwd c →
                ∃ (before : Bytes) (lines fields mid : List Bytes), BeginsAt (doHttp cfg msie sched world fuel 0 inp).1 inp p before ∧
                  HeadOf before x.req.line lines x.req.rest ∧ Seen cfg.table lines fields ∧ Prepared c fields mid ∧
                  ∀ s', RewritesBy k (m p).ctx (rulesStmts l.other.req ++ rulesStmts v.cfg.req) { s with hs := mid } true s' → Intact mid s'.req.request s'.hs →
                    ∃ payload, Taken strict cfg.table before ⟨x.req.line, fields, payload⟩ x.rest ∧ Sends strict x.toBackend ⟨s'.req.request, s'.hs, payload⟩ := by
  have hfit := full_fit h
  obtain ⟨o', N, h1, h2⟩ := full_accept h hp
  refine ⟨o', N, h2, fun j l hj hv => ?_⟩
  obtain ⟨l', h3, h4⟩ := each_at h1.lsts j l hj
  have hs := each_join_append h4.other.svcs h1.svcs
  refine ⟨l', h3, fun fe fs hfs => ⟨fun i v' hi => ?_, ?_⟩⟩
  · obtain ⟨v, g1, g2⟩ := each_at' hs i v' hi
    rw [g2.rest, h1.named]
    exact ((C75_final fe o.named ⟨hfit.names, hn⟩ _).1 _).mpr (hfs i v g1)
  intro k msie sched w net m env beIn world cfg fuel inp hcfg hworld p x hx hok hver strict hst ms s i id q v f addr port to connTo wsTo ctx sni c hms hrt hvi hgiven hnum hf hsent hclean
  obtain ⟨before, b1, b2, b3⟩ := handled_at p fuel 0 inp x hx
  rw [Nat.zero_add] at b3
  obtain ⟨lines, ts, keep, t1, t2, t3, t4, t5⟩ := accepted_taken b2
  have hpeer : c.peer ≠ .unix [] := by
    intro e
    have := hclean.addr
    rw [e] at this
    exact this.1 rfl
  obtain ⟨mid, hm⟩ := C67_total_partial c x.req.scan.headers t3 hpeer
  refine ⟨before, lines, ts, mid.map (·.text), b1, t1, t2, prepared_of t3 hm t4 t5, fun s' hrw hint => ?_⟩
  -- the service and the backend
  have hrt' := hrt
  unfold Routes at hrt'
  rw [testsAs_eq] at hrt'
  obtain ⟨st', c1, c2⟩ := routed_choose (first_same hs hrt') (fun y hy => by
    obtain ⟨y', d1, d2⟩ := each_mem' hs y hy
    rw [d2.conds]
    exact (hv y' d1).1) (fresh_looks b2 hms)
  obtain ⟨v', d1, d2⟩ := each_at hs i v hvi
  have hw : world p x.req = .regular (fwdEdit k l' v' (m p).ctx st' (fwdOf l' w addr port ctx sni)) (relayOf g l' (locOf l' net addr port ctx sni)
      (fwdEdit k l' v' (m p).ctx st' (fwdOf l' w addr port ctx sni) x.req.line x.req.scan.headers) (env p)) (beIn p) := by
    refine hworld p x.req _ ?_
    unfold wholeServe
    rw [c1]
    simp only [Option.elim_some, d1, hgiven, numbered_at hnum, hf]
  have hfc : fwdOf l' w addr port ctx sni = c := by
    rw [hsent.eq]
    unfold fwdOf
    rw [h4.st, h4.tls]
  rw [hw, hfc] at b3
  -- the rules
  have hlk : Looks { st' with hs := mid } { s with hs := mid.map (·.text) } := ⟨c2.req, rfl, forwardHead_list t3 hm, c2.ms, c2.src⟩
  unfold RewritesBy at hrw
  rw [testsAs_eq, actsAs_eq] at hrw
  have hor := (hv v (List.mem_of_getElem? hvi)).2
  have ho : StmtsOrs (rulesStmts l'.other.req ++ rulesStmts v'.cfg.req) := by
    rw [stmtsOrs_append] at hor ⊢
    exact ⟨h4.other.req.ors.mpr hor.1, d2.req.ors.mpr hor.2⟩
  have hr' : Spec.Runs (Evals fun t => Test (m p).ctx (k.test t)) (fun p => Act (k.prim p)) (rulesStmts l'.other.req ++ rulesStmts v'.cfg.req) { s with hs := mid.map (·.text) } true s' := by
    rw [runs_append] at hrw ⊢
    rcases hrw with ⟨r1, r2⟩ | ⟨s1, r1, r2⟩
    · exact .inl ⟨r1, (h4.other.req.runs _ _ _ _ _ _).mpr r2⟩
    · exact .inr ⟨s1, (h4.other.req.runs _ _ _ _ _ _).mpr r1, (d2.req.runs _ _ _ _ _ _).mpr r2⟩
  obtain ⟨st'', r, e1, e2, e3, e4⟩ := rules_run_both k (m p).ctx ho hlk hr'
  have hr0 : r = 0 := e2.mp rfl
  subst hr0
  have harm : Harmless (fun line mid' line' hs' => line = x.req.line ∧ mid' = mid ∧ line' = s'.req.request ∧ hs'.map (·.text) = s'.hs) := by
    rintro line m0 line' hs' ⟨-, rfl, rfl, z⟩ - - -
    refine ⟨hint.some, hint.single, fun y hy => hint.lines _ (by rw [← z]; exact List.mem_map.2 ⟨y, hy, rfl⟩), by rw [z]; exact hint.coding, by rw [z]; exact hint.length⟩
  obtain ⟨msg, msg', mid', hs', q1, q2, ⟨q3, q4, q5, q6⟩, q7, q8, q9⟩ := sent_at (strict := strict) harm hclean (fun m0 line' hs' _ _ _ hm0 hed => by
    rw [hm] at hm0
    cases hm0
    unfold fwdEdit at hed
    rw [hm] at hed
    dsimp only at hed
    rw [e1] at hed
    dsimp only at hed
    rw [if_pos rfl] at hed
    cases hed
    exact ⟨rfl, rfl, e4, e3.hs⟩) b2 b3 hok hver hst
  have hf' : msg.fields = ts := by
    obtain ⟨lines', rest1, kd, u1, u2, -, -⟩ := q1
    rw [q3] at u1
    have v1 : httpRequestRead cfg.table before = .ok x.req.line (buildHeaders cfg.table lines) x.req.rest := (httpRequestRead_iff _ _ _ _ _).2 ⟨lines, t1, rfl⟩
    have v2 : httpRequestRead cfg.table before = .ok x.req.line (buildHeaders cfg.table lines') rest1 := (httpRequestRead_iff _ _ _ _ _).2 ⟨lines', u1, rfl⟩
    rw [v1] at v2
    injection v2 with _ v2 _
    rw [seen_det u2 (seen_build cfg.table lines'), seen_det t2 (seen_build cfg.table lines), v2]
  refine ⟨msg.payload, ?_, ?_⟩
  · have : msg = ⟨x.req.line, ts, msg.payload⟩ := by cases msg; simp only at q3 hf' ⊢; rw [q3, hf']
    rw [← this]
    exact q1
  · have : msg' = ⟨s'.req.request, s'.hs, msg.payload⟩ := by cases msg'; simp only at q5 q7 q8 ⊢; rw [q5, q7, q6, q8]
    rw [← this]
    exact q9

/-- A listener with one service, which sets a header and has one backend -/
def fwdText : List Tok := cfgToks b!"ListenHTTP\n Address 10.0.0.1\n Port 80\n Service\n  SetHeader \"X-A: b\"\n  Backend\n   Address 10.0.0.2\n   Port 8080\n  End\n End\nEnd\n"

theorem fwd_plain : PlainText fwdText := cfg_plain (by decide +kernel) (by decide +kernel)

def fwdIn : Bytes := b!"GET /a HTTP/1.1" ++ [13, 10] ++ b!"Host: h" ++ [13, 10, 13, 10]

/-- A client at 10.0.0.9 -/
def fwdFacts : ConnFacts := ⟨.inet b!"10.0.0.9" b!"4711", 80, ⟨none, false, none⟩, fun _ _ => b!"10.0.0.2:8080"⟩

def fwdNet : NetFacts := ⟨⟨2, 80, [10, 0, 0, 1]⟩, 0, fun _ p => ⟨2, p, [10, 0, 0, 2]⟩, fun h => if h = b!"10.0.0.2" then some [⟨2, 0, [10, 0, 0, 2]⟩] else none⟩

def fwdBes : List FGrp := [⟨0, [⟨5, false, .regular (.inet b!"10.0.0.2") 8080 15 15 600 none none⟩]⟩]

def fwdMeets : Meets := ⟨⟨fun _ => 0, fun _ _ => 0, fun _ => false⟩, history [], fun _ => some 0⟩

/-- What the backend says -/
def fwdBack : Bytes := b!"HTTP/1.1 200 OK" ++ [13, 10] ++ b!"Content-Length: 0" ++ [13, 10] ++ b!"Location: http://10.0.0.2:8080/x" ++ [13, 10, 13, 10]

/-- What happens to requests -/
def fwdWorld (g : Glob) (o : FullObjs) (l : Lst LOther) (_ : Nat) (a : Accepted) : Serve :=
  (wholeServe wholeInst g o.svcs l (fun _ => fwdBes) fwdFacts fwdNet fwdMeets {} fwdBack a).getD (.none .internalError)

def fwdMid : List Bytes := [b!"Host: h", b!"X-Forwarded-For: 10.0.0.9", b!"X-Forwarded-Proto: http", b!"X-Forwarded-Port: 80"]

def fwdCfg : FwdCfg := ⟨false, true, true, .inet b!"10.0.0.9" b!"4711", 80, none, b!"10.0.0.2:8080", false, none⟩

private def fwdLst (g : Glob) (l : Lst LOther) : Bool :=
  l.st.verb == 0 && g.combine == [] && l.st.urlPat.isNone && l.st.maxUri == 0 && l.st.maxReq == 0 && l.st.noHttps11 == 0 && !l.tls && l.other.req.isEmpty && !l.st.rewrDest && l.st.hdr.fwd &&
    l.st.hdr.ssl && l.other.resp.isEmpty && l.st.rewrLoc == 1

private def fwdSvc (v : FullSvc) : Bool :=
  v.cfg.conds.isEmpty && !v.cfg.disabled && v.cfg.resp.isEmpty && (match v.cfg.req with | [.mk [] [.prim (.hdrSet t)] .null] => t == b!"X-A: b" | _ => false) &&
    decide (serviceFinalize ⟨fun h _ => some h, true⟩ [] v.rest.bes.groups = .ok (some fwdBes))

private def fwdRun (g : Glob) (o : FullObjs) (l : Lst LOther) : Bool :=
  match (doHttp wholeCfg (fun _ => false) (fun n => n) (fwdWorld g o l) 9 0 fwdIn).1 with
  | [x] => x.res == some .ok && x.req.rl.version == 1 && x.req.line == b!"GET /a HTTP/1.1" && x.req.rl.meth == METH b!"GET" &&
      x.toClient == b!"HTTP/1.1 200 OK" ++ [13, 10] ++ b!"Content-Length: 0" ++ [13, 10] ++ b!"Location: http://h/x" ++ [13, 10, 13, 10]
  | _ => false

private def fwdSeen (g : Glob) (o : FullObjs) : Bool :=
  match o.lsts, o.svcs, o.named with
  | [l], [], [] =>
    (match l.other.svcs with
     | [v] => fwdLst g l && fwdSvc v && fwdRun g o l
     | _ => false)
  | _, _, _ => false

set_option maxRecDepth 100000 in
private theorem fwd_seen : (match parseFull topEnv0 100 fwdText with | some (g, o, 0) => fwdSeen g o | _ => false) = true := by decide +kernel

private theorem fwd_seen' : ∃ g o, parseFull topEnv0 100 fwdText = some (g, o, 0) ∧ fwdSeen g o = true := by
  have := fwd_seen
  generalize parseFull topEnv0 100 fwdText = r at this ⊢
  split at this
  · exact ⟨_, _, rfl, this⟩
  · cases this

private theorem fwdRun_of {g : Glob} {o : FullObjs} {l : Lst LOther} (h : fwdRun g o l = true) :
    ∃ x, (doHttp wholeCfg (fun _ => false) (fun n => n) (fwdWorld g o l) 9 0 fwdIn).1[0]? = some x ∧ x.res = some .ok ∧ x.req.rl.version = 1 ∧ x.req.line = b!"GET /a HTTP/1.1" ∧ x.req.rl.meth = METH b!"GET" ∧
      x.toClient = b!"HTTP/1.1 200 OK" ++ [13, 10] ++ b!"Content-Length: 0" ++ [13, 10] ++ b!"Location: http://h/x" ++ [13, 10, 13, 10] := by
  unfold fwdRun at h
  generalize (doHttp wholeCfg (fun _ => false) (fun n => n) (fwdWorld g o l) 9 0 fwdIn).1 = r at h ⊢
  split at h
  · simp only [Bool.and_eq_true, beq_iff_eq] at h
    exact ⟨_, rfl, h.1.1.1.1, h.1.1.1.2, h.1.1.2, h.1.2, h.2⟩
  · cases h

private theorem fwdSvc_of {v : FullSvc} (h : fwdSvc v = true) : v.cfg.conds = [] ∧ v.cfg.disabled = false ∧ v.cfg.req = [.mk [] [.prim (.hdrSet b!"X-A: b")] .null] ∧
    serviceFinalize ⟨fun h _ => some h, true⟩ [] v.rest.bes.groups = .ok (some fwdBes) ∧ v.cfg.resp = [] := by
  simp only [fwdSvc, Bool.and_eq_true, Bool.not_eq_true', List.isEmpty_iff, decide_eq_true_eq] at h
  obtain ⟨⟨⟨⟨h1, h2⟩, h5⟩, h3⟩, h4⟩ := h
  refine ⟨h1, h2, ?_, h4, h5⟩
  split at h3
  · rename_i heq
    rw [heq, beq_iff_eq.mp h3]
  · cases h3

private theorem tchars {n : Bytes} (h : ∀ c ∈ n, c = 45 ∨ (65 ≤ c.toNat ∧ c.toNat ≤ 90) ∨ (97 ≤ c.toNat ∧ c.toNat ≤ 122)) : ∀ c ∈ n, TChar c := by
  intro c hc
  rcases h c hc with rfl | h | h
  · unfold TChar; decide
  · exact .inr (.inl h)
  · exact .inr (.inr (.inl h))

private theorem fwd_lines : ∀ t ∈ fwdMid ++ [b!"X-A: b"], ∃ n v, HeaderLine t n v ∧ OneLine t ∧ ciEq n b!"Transfer-Encoding" = false ∧ ciEq n b!"Content-Length" = false ∧
    (t ∈ fwdMid → ciEq n b!"X-A" = false) := by
  have mk : ∀ (n v : Bytes), n ≠ [] → (∀ c ∈ n, c = 45 ∨ (65 ≤ c.toNat ∧ c.toNat ≤ 90) ∨ (97 ≤ c.toNat ∧ c.toNat ≤ 122)) → (∀ c, v.head? = some c → ¬ (c = 32 ∨ c = 9)) →
      HeaderLine (n ++ b!": " ++ v) n v := fun n v h1 h2 h3 => headerLine_mk h1 (tchars h2) h3
  intro t ht
  simp only [fwdMid, List.cons_append, List.nil_append, List.mem_cons, List.not_mem_nil, or_false] at ht
  rcases ht with rfl | rfl | rfl | rfl | rfl
  · exact ⟨_, _, mk b!"Host" b!"h" (by decide) (by decide) (by simp), by unfold OneLine; decide, by decide, by decide, fun _ => by decide⟩
  · exact ⟨_, _, mk b!"X-Forwarded-For" b!"10.0.0.9" (by decide) (by decide) (by simp), by unfold OneLine; decide, by decide, by decide, fun _ => by decide⟩
  · exact ⟨_, _, mk b!"X-Forwarded-Proto" b!"http" (by decide) (by decide) (by simp), by unfold OneLine; decide, by decide, by decide, fun _ => by decide⟩
  · exact ⟨_, _, mk b!"X-Forwarded-Port" b!"80" (by decide) (by decide) (by simp), by unfold OneLine; decide, by decide, by decide, fun _ => by decide⟩
  · exact ⟨_, _, mk b!"X-A" b!"b" (by decide) (by decide) (by simp), by unfold OneLine; decide, by decide, by decide, fun h => absurd h (by decide)⟩

private theorem none_named {n : Bytes} {l : List Bytes} (h : ∀ t ∈ l, ¬ Named t n) : HeadersNamed n l = [] := by
  unfold HeadersNamed
  rw [List.filter_eq_nil_iff]
  intro t ht
  simpa using h t ht

/-- The hypotheses of `C101_forwards_partial` are met by this; the last line is used for the next theorem. -/
theorem fwd_meets : ∃ t g o l v x s, FullConfigures topEnv0 t g o ∧ PlainText t ∧ (∀ nb ∈ o.named, nb.m.host ≠ none) ∧ o.lsts[0]? = some l ∧
    (∀ v ∈ l.other.svcs ++ o.svcs, NoEmptyOrs (condFormulas v.cfg.conds) ∧ StmtsOrs (rulesStmts l.other.req ++ rulesStmts v.cfg.req)) ∧
    (∀ (i : Nat) (v : FullSvc), (l.other.svcs ++ o.svcs)[i]? = some v → Each (GroupFinal ⟨fun h _ => some h, true⟩ o.named) v.rest.bes.groups fwdBes) ∧
    ListensAs wholeInst g l wholeCfg ∧
    (∀ i a sv, wholeServe wholeInst g o.svcs l (fun _ => fwdBes) fwdFacts fwdNet fwdMeets {} fwdBack a = some sv →
      fwdWorld g o l i a = sv) ∧
    (doHttp wholeCfg (fun _ => false) (fun n => n) (fwdWorld g o l) 9 0 fwdIn).1[0]? = some x ∧ x.res = some .ok ∧ x.req.rl.version = 1 ∧
    Recorded fwdMeets.smq [] ∧ Routes wholeInst (l.other.svcs ++ o.svcs) fwdMeets.ctx x.req [] (some 0) s ∧ (l.other.svcs ++ o.svcs)[0]? = some v ∧ fwdMeets.given 0 = some 0 ∧
    Numbered fwdBes 0 0 ⟨5, false, .regular (.inet b!"10.0.0.2") 8080 15 15 600 none none⟩ ∧ SentAs l fwdFacts (.inet b!"10.0.0.2") 8080 none none fwdCfg ∧ CleanFwd fwdCfg ∧
    RewritesBy wholeInst fwdMeets.ctx (rulesStmts l.other.req ++ rulesStmts v.cfg.req) { s with hs := fwdMid } true { s with hs := fwdMid ++ [b!"X-A: b"] } ∧
    Intact fwdMid s.req.request (fwdMid ++ [b!"X-A: b"]) ∧
    g.combine = [] ∧ l.other.resp = [] ∧ l.other.svcs ++ o.svcs = [v] ∧ v.cfg.resp = [] ∧ l.st.rewrLoc = 1 ∧ l.tls = false ∧ x.req.rl.meth = METH b!"GET" ∧
    x.toClient = b!"HTTP/1.1 200 OK" ++ [13, 10] ++ b!"Content-Length: 0" ++ [13, 10] ++ b!"Location: http://h/x" ++ [13, 10, 13, 10] := by
  obtain ⟨g, o, hparse, hseen⟩ := fwd_seen'
  obtain ⟨t, ht, h3⟩ := C101_sound_partial _ _ _ _ _ hparse fwd_plain
  have hpt : PlainText t := by
    rcases ht with ht | ht
    · rw [ht]; exact fwd_plain
    · rw [ht]; exact cfg_plain (by decide +kernel) (by decide +kernel)
  unfold fwdSeen at hseen
  split at hseen
  rotate_left
  · simp at hseen
  rename_i l hl hs hn
  split at hseen
  rotate_left
  · simp at hseen
  rename_i v hvw
  simp only [Bool.and_eq_true] at hseen
  obtain ⟨⟨hll, hv⟩, hr⟩ := hseen
  simp only [fwdLst, Bool.and_eq_true, beq_iff_eq, Bool.not_eq_true', List.isEmpty_iff, Option.isNone_iff_eq_none] at hll
  obtain ⟨⟨⟨⟨⟨⟨⟨⟨⟨⟨⟨⟨l1, l2⟩, l3⟩, l4⟩, l5⟩, l6⟩, l7⟩, l8⟩, l9⟩, l10⟩, l11⟩, l12⟩, l13⟩ := hll
  obtain ⟨v1, v2, v3, v4, v5⟩ := fwdSvc_of hv
  obtain ⟨x, x1, x2, x3, x4, x5, x6⟩ := fwdRun_of hr
  have hcfg : ListensAs wholeInst g l wholeCfg :=
    ⟨l1.symm, l2.symm, fun _ => rfl, fun p hp => by rw [l3] at hp; (cases hp), l4.symm, l5.symm, l6.symm, l7.symm⟩
  have hsv : l.other.svcs ++ o.svcs = [v] := by rw [hvw, hs]; rfl
  have hok : NamedOk o.named := by rw [hn]; exact ⟨by decide, by simp⟩
  have hrules : rulesStmts l.other.req ++ rulesStmts v.cfg.req = [.cases [(.and [], [.act (.hdrSet b!"X-A: b")])]] := by rw [l8, v3]; rfl
  have hnn : ∀ n, (∀ t ∈ fwdMid, ¬ Named t n) → ¬ Named b!"X-A: b" n → HeadersNamed n (fwdMid ++ [b!"X-A: b"]) = HeadersNamed n fwdMid := by
    intro n h1 h2
    rw [none_named h1, none_named]
    intro t ht
    rcases List.mem_append.mp ht with h | h
    · exact h1 t h
    · rw [List.mem_singleton.mp h]; exact h2
  refine ⟨t, g, o, l, v, x, { req := Req.fresh x.req.line x.req.rl, hs := x.req.scan.headers.map (·.text), ms := [] }, h3, hpt, by simp [hn], by rw [hl]; rfl, ?_, ?_, hcfg, ?_, x1, x2, x3,
    recorded_history [], ?_, by rw [hsv]; rfl, rfl, ⟨_, 0, rfl, rfl, rfl⟩, ?_, ?_, ?_, ?_, l2, l12, hsv, v5, l13, l7, x5, x6⟩
  · rw [hsv]
    intro w hw
    rw [List.mem_singleton.mp hw, v1, hrules]
    exact ⟨trivial, by simp [StmtsOrs, StmtOrs, BranchOrs, NoEmptyOr, NoEmptyOrs]⟩
  · rw [hsv]
    intro i w hw
    rw [← (C75_final _ _ hok _).1, hn]
    match i with
    | 0 => cases hw; exact v4
    | n + 1 => simp at hw
  · intro i a sv h
    unfold fwdWorld
    rw [h]; rfl
  · rw [hsv]
    refine .take v2 ?_
    rw [v1]
    exact .allDone
  · exact ⟨l9.symm, l10.symm, l11.symm, ⟨rfl, rfl⟩, fun h => by rw [l7] at h; (cases h), fun _ => rfl, rfl, by simp [fwdCfg], rfl⟩
  · exact ⟨by unfold fwdCfg OneLine; decide, by unfold fwdCfg OneLine; decide, fun n h => by simp [fwdCfg] at h, fun e v d h => by simp [fwdCfg] at h⟩
  · rw [hrules]
    refine .branch .allDone (.act ⟨_, .set, ?_⟩ .done) .done
    refine Act.hdrSet (groups := fun _ => none) (fun m => ?_) (expands_text _ _ _ (by decide) (by decide)) (headerLine_mk (n := b!"X-A") (v := b!"b") (by decide) (tchars (by decide))
      (by unfold NotAt; simp)) (.new ?_)
    · exact .inr ⟨.inr (.inl (by simp)), rfl⟩
    · intro t ht
      obtain ⟨n, w, h1, _, _, _, h2⟩ := fwd_lines t (List.mem_append_left _ ht)
      exact not_named h1 (h2 ht)
  · refine ⟨?_, ?_, fun t ht => ?_, hnn _ (fun t ht => ?_) ?_, hnn _ (fun t ht => ?_) ?_⟩
    · show x.req.line ≠ []
      rw [x4]; decide
    · show OneLine x.req.line
      rw [x4]; unfold OneLine; decide
    · obtain ⟨n, w, h1, h2, _⟩ := fwd_lines t ht
      exact ⟨⟨t, [], by simp, h2, by simp⟩, n, w, h1⟩
    · obtain ⟨n, w, h1, _, h2, h3, _⟩ := fwd_lines t (List.mem_append_left _ ht)
      exact not_named h1 h2
    · obtain ⟨n, w, h1, _, h2, h3, _⟩ := fwd_lines b!"X-A: b" (by simp)
      exact not_named h1 h2
    · obtain ⟨n, w, h1, _, h2, h3, _⟩ := fwd_lines t (List.mem_append_left _ ht)
      exact not_named h1 h3
    · obtain ⟨n, w, h1, _, h2, h3, _⟩ := fwd_lines b!"X-A: b" (by simp)
      exact not_named h1 h3

end Pound.Props
