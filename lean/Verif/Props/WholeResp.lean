import Verif.Props.WholeFwd
import Verif.Props.Relay

/-!
Property C101, third part: what clients read from regular backends of a documented configuration.
-/

namespace Pound.Props
open Pound Spec

/-- The environment of RewriteLocation, as the listener and the backend are configured; `sock` is the address that a backend has. -/
structure LocatesAs (l : Lst LOther) (sock : BeAddr → Nat → SockA) (addr : BeAddr) (port : Nat) (ctx : Option (List CtxOp)) (sni : Option Bytes) (e : LocEnv) : Prop where
  mode : (e.mode : Int) = l.st.rewrLoc
  listener : e.ltls = l.tls
  address : e.be.addr = sock addr port
  https : e.be.tls = true ↔ ctx ≠ none
  name : e.be.servername = sni

theorem located_of {e : LocEnv} {ssl : Bool} {vhost : Option Bytes} {t t' : Bytes} (h : Moved (locText e ssl vhost) t t') : Located e ssl vhost t t' := by
  have key : ∀ {n v : Bytes} {c : HCode}, HeaderLine t n v → (c = .location ∧ ciEq n b!"Location" = true ∨ c = .contLocation ∧ ciEq n b!"Content-location" = true) →
      Located e ssl vhost t ((locText e ssl vhost c v).getD t) := by
    intro n v c hl hc
    have hline : ∀ (host p : Bytes), (if c = .location then b!"Location: " else b!"Content-location: ") ++ (if ssl then b!"https" else b!"http") ++ b!"://" ++ host ++ p =
        (if ciEq n b!"Location" then b!"Location: " else b!"Content-location: ") ++ (if ssl then b!"https" else b!"http") ++ b!"://" ++ host ++ p := by
      intro host p
      rcases hc with ⟨rfl, h⟩ | ⟨rfl, h⟩
      · rw [if_pos rfl, h, if_pos rfl]
      · have hn : ciEq n b!"Location" = false := by
          cases hx : ciEq n b!"Location" with
          | false => rfl
          | true =>
            unfold ciEq at h hx
            rw [beq_iff_eq] at h hx
            rw [hx] at h
            exact absurd h (by decide)
        rw [hn]
        rfl
    refine ⟨fun h1 h2 => ?_, fun h => ?_, fun n' v' hl' hu => ?_, fun hne => ?_, ?_, ?_⟩
    · rcases hc with ⟨-, h⟩ | ⟨-, h⟩
      · exact absurd ⟨n, v, hl, h⟩ h1
      · exact absurd ⟨n, v, hl, h⟩ h2
    · rw [C48_never]
      · rfl
      · rcases h with h | h | h | h
        · exact .inl h
        · exact .inr (.inl h)
        · exact .inr (.inr (.inl h))
        · exact .inr (.inr (.inr (.inl h)))
    · rw [(line_unique hl hl').2, C48_never _ _ _ _ _ (.inr (.inr (.inr (.inr hu))))]
      rfl
    · cases hloc : locText e ssl vhost c v with
      | none => rw [hloc] at hne; exact absurd rfl hne
      | some t'' =>
        obtain ⟨pre, u, scheme, auth, path, host, a1, a2, a3, a4⟩ := C48_path _ _ _ _ _ _ hloc
        refine ⟨n, v, pre, u, scheme, auth, path, host, hl, a1, a2, a3, ?_⟩
        rw [Option.getD_some, a4]
        exact hline host _
    · intro n' v' scheme auth path name port host hl' hn' hu hp hm hf hv hne hb
      obtain ⟨rfl, rfl⟩ := line_unique hl hl'
      have hs := (need_abs (v := host) hu hp hm hf).mpr (.inl hb)
      cases hnr : needRewrite e host v with
      | none => rw [hnr] at hs; cases hs
      | some p =>
        have hp' : p = if path.head? = some ch%'/' then path.drop 1 else path := by
          unfold needRewrite at hnr
          rw [if_neg hm, if_neg (by omega), locationMatch_abs hu] at hnr
          dsimp only at hnr
          generalize (locToBackend e scheme (auth.takeWhile notColon) (locPort scheme auth) || _) = cond at hnr
          cases cond with
          | false => cases hnr
          | true => rw [if_pos rfl] at hnr; injection hnr with hnr; exact hnr.symm
        unfold locText
        rw [hv]
        dsimp only
        rw [if_neg (by rintro (h | h) <;> contradiction), hnr]
        dsimp only
        rw [Option.getD_some]
        unfold movedLine
        rw [← hline host (if path = [] then b!"/" else path), List.append_assoc (_ ++ host)]
        congr 1
        rcases hu.path with h | h
        · rw [hp', h]; rfl
        · obtain ⟨d, hd⟩ : ∃ d, path = ch%'/' :: d := by
            cases path with
            | nil => cases h
            | cons a d => cases h; exact ⟨d, rfl⟩
          rw [hp', hd]
          simp
    · intro n' v' scheme auth path name port hl' hu hp hm hb
      obtain ⟨rfl, rfl⟩ := line_unique hl hl'
      by_cases hf : e.be.addr.fam = 2 ∨ e.be.addr.fam = 10
      · cases vhost with
        | none => rfl
        | some host =>
          have hs := C48_backend e host v scheme auth path name port hu hp hm hf
          have hnr : needRewrite e host v = none := by
            cases hx : needRewrite e host v with
            | none => rfl
            | some p => rw [hx] at hs; exact absurd (hs.1 rfl) hb
          unfold locText
          dsimp only
          split
          · rfl
          · rw [hnr]; rfl
      · rw [C48_never _ _ _ _ _ (.inr (.inl (by omega)))]
        rfl
  cases h with
  | other h1 h2 =>
    refine ⟨fun _ _ => rfl, fun _ => rfl, fun _ _ _ _ => rfl, fun h => absurd rfl h, ?_, fun _ _ _ _ _ _ _ _ _ _ _ _ => rfl⟩
    intro n v scheme auth path name port host hl hn
    rcases hn with hn | hn
    · exact absurd ⟨n, v, hl, hn⟩ h1
    · exact absurd ⟨n, v, hl, hn⟩ h2
  | location hl hn => exact key hl (.inl ⟨rfl, hn⟩)
  | content hl hn => exact key hl (.inr ⟨rfl, hn⟩)

theorem hostOf_spec {hs : List Header} (hf : ∀ h ∈ hs, Fine h) {r : Option Bytes} (h : HostOf (hs.map (·.text)) r) : hostOf hs = r := by
  have hcode : ∀ x ∈ hs, (x.code == .host) = true ↔ Named x.text b!"Host" := by
    intro x hx
    have hl := codeOf_iff (e := (b!"Host", .host)) (by decide) x.name
    rw [← (hf x hx).2] at hl
    rw [beq_iff_eq, hl]
    constructor
    · exact fun h => ⟨_, _, Good.line (hf x hx).1, h⟩
    · rintro ⟨n, v, a1, a2⟩
      rw [← (line_unique (Good.line (hf x hx).1) a1).1] at a2
      exact a2
  unfold hostOf
  cases h with
  | none h =>
    rw [List.find?_eq_none.mpr]
    · rfl
    · intro x hx hc
      exact h _ (List.mem_map.2 ⟨x, hx, rfl⟩) ((hcode x hx).1 hc)
  | some h h1 h2 h3 =>
    obtain ⟨a, b, rfl, rfl, hb⟩ := List.map_eq_append_iff.mp h
    obtain ⟨x, b', rfl, rfl, rfl⟩ := List.map_eq_cons_iff.mp hb
    have hx := (hcode x (by simp)).2 ⟨_, _, h2, h3⟩
    rw [List.find?_append, List.find?_eq_none.mpr, Option.none_or, List.find?_cons_of_pos (p := fun h : Header => h.code == .host) hx]
    · rw [Option.map_some, (line_unique (Good.line (hf x (by simp)).1) h2).2]
    · intro y hy hc
      exact h1 _ (List.mem_map.2 ⟨y, hy, rfl⟩) ((hcode y (by simp [hy])).1 hc)

theorem locatesAs_eq {l : Lst LOther} {n : NetFacts} {addr : BeAddr} {port : Nat} {ctx : Option (List CtxOp)} {sni : Option Bytes} {e : LocEnv} (h : LocatesAs l n.sock addr port ctx sni e)
    (h1 : e.lstn = n.lstn) (h2 : e.lport = n.lport) (h3 : e.lookup = n.lookup) : e = locOf l n addr port ctx sni := by
  obtain ⟨a1, a2, a3, a4, a5⟩ := h
  obtain ⟨mode, lstn, ltls, lport, ⟨baddr, bname, btls⟩, lookup⟩ := e
  dsimp only at *
  have hm : mode = l.st.rewrLoc.toNat := by omega
  have ht : btls = ctx.isSome := by
    cases ctx with
    | none => cases btls with
      | false => rfl
      | true => exact absurd rfl (a4.1 rfl)
    | some c => exact a4.2 (by simp)
  subst hm ht a2 a3 a5 h1 h2 h3
  rfl

/-- Without rules for responses -/
theorem plain_safely {env : RespEnv} (he : env.edit = some) (hr : env.readable = true) {e : LocEnv} {ssl : Bool} {vhost : Option Bytes} (hv : ∀ v, vhost = some v → OneLine v)
    (hl : env.loc = locText e ssl vhost) : RelaysSafely env where
  rules := by
    refine ⟨injCtx, [], [], (by intro r hr; cases hr), (by intro r hr; cases hr), (by intro r hr; cases hr), (by intro r hr; cases hr), ?_⟩
    intro hs hs' ho h
    rw [he] at h
    cases h
    exact ⟨relayState hs, relayState hs, OnConn.response (st := ⟨Req.fresh b!"GET / HTTP/1.1" ⟨METH b!"GET", b!"/", 1⟩, [], .init, none⟩)
      (.first (g := 0) (oneLine_bool _ (by decide)) (by decide +kernel) (by simp)) rfl (oneLine_bool _ (by decide)) (Nat.le_refl 1) ho, by simp [relayState], rfl, rfl, rfl⟩
  loc := ⟨e, ssl, vhost, hv, hl⟩
  readable := hr

theorem each_weaken {α β : Type} {R S : α → β → Prop} (h : ∀ a b, R a b → S a b) {l : List α} {l' : List β} (he : Each R l l') : Each S l l' := by
  induction he with
  | nil => exact .nil
  | cons h1 _ ih => exact .cons (h _ _ h1) ih

/-- From the text of a configuration to what clients read from backends: a documented configuration is accepted, and on every connection to a listener, each request that is served by a
regular backend, where the text has no rules for responses, is answered to the client (`Answers`) as the backend answered (`BackendSays`), with the same status line and payload; headers are
the same but for Location and Content-Location, which are rewritten as RewriteLocation of the listener says (`Located`), to the Host of the request that was sent.
Missing: rules for responses, backends that do not follow the standard or answer late (C95), and what the theorems before leave out. -/
theorem C101_relays_partial (e : TopEnv) (t : List Tok) (g : Glob) (o : FullObjs) (h : FullConfigures e t g o) (hp : PlainText t) (hn : ∀ nb ∈ o.named, nb.m.host ≠ none) :
    ∃ o' N, (∀ n, N ≤ n → parseFull e n t = some (g, o', 0)) ∧
      ∀ (j : Nat) (l : Lst LOther), o.lsts[j]? = some l →
        (∀ v ∈ l.other.svcs ++ o.svcs, NoEmptyOrs (condFormulas v.cfg.conds) ∧ StmtsOrs (rulesStmts l.other.req ++ rulesStmts v.cfg.req) ∧ v.cfg.resp = []) → l.other.resp = [] →
        ∃ l', o'.lsts[j]? = some l' ∧
          ∀ (fe : FinEnv) (fs : Nat → List FGrp), (∀ i v, (l.other.svcs ++ o.svcs)[i]? = some v → Each (GroupFinal fe o.named) v.rest.bes.groups (fs i)) →
            (∀ i v', (l'.other.svcs ++ o'.svcs)[i]? = some v' → serviceFinalize fe o'.named v'.rest.bes.groups = .ok (some (fs i))) ∧
            ∀ (k : Installed) (msie : Accepted → Bool) (sched : Nat → Nat) (w : ConnFacts) (net : NetFacts) (m : Nat → Meets) (env : Nat → RespEnv) (beIn : Nat → Bytes)
              (world : Nat → Accepted → Serve) (cfg : LstnCfg) (fuel : Nat) (inp : Bytes), ListensAs k g l cfg → (∀ i, (env i).edit = some ∧ (env i).readable = true) →
              (∀ i a sv, wholeServe k g o'.svcs l' fs w net (m i) (env i) (beIn i) a = some sv → world i a = sv) →
              ∀ (p : Nat) (x : Handled), (doHttp cfg msie sched world fuel 0 inp).1[p]? = some x → x.res = some .ok →
              ∀ (strict head : Bool), (head = true ↔ x.req.rl.meth = METH b!"HEAD") → SaneHead head g.combine (beIn p) →
              (strict = true → ∀ line lines rest wire payload rest', HeadOf (beIn p) line lines rest → Chunked false 4095 wire payload → Consumed rest wire rest' → Chunked true 4095 wire payload) →
              ∀ (ms : List (MatchRes × Bytes)) (s : View) (i id q : Nat) (v : FullSvc) (f : FBe) (addr : BeAddr) (port to connTo wsTo : Nat) (ctx : Option (List CtxOp)) (sni : Option Bytes)
                (c : FwdCfg) (le : LocEnv),
                Recorded (m p).smq ms → Routes k (l.other.svcs ++ o.svcs) (m p).ctx x.req ms (some i) s → (l.other.svcs ++ o.svcs)[i]? = some v →
                (m p).given i = some id → Numbered (fs i) id q f → f.v = .regular addr port to connTo wsTo ctx sni → SentAs l w addr port ctx sni c → CleanFwd c →
                LocatesAs l net.sock addr port ctx sni le → le.lstn = net.lstn → le.lport = net.lport → le.lookup = net.lookup →
                ∃ (before : Bytes) (lines fields mid : List Bytes), BeginsAt (doHttp cfg msie sched world fuel 0 inp).1 inp p before ∧
                  HeadOf before x.req.line lines x.req.rest ∧ Seen cfg.table lines fields ∧ Prepared c fields mid ∧
                  ∀ s' vhost, RewritesBy k (m p).ctx (rulesStmts l.other.req ++ rulesStmts v.cfg.req) { s with hs := mid } true s' → HostOf s'.hs vhost → (∀ n, vhost = some n → OneLine n) →
                    ∃ a a' kind, BackendSays strict head g.combine (beIn p) a kind ∧ Answers strict head x.toClient a' kind ∧ a'.line = a.line ∧ a'.payload = a.payload ∧
                      Each (Located le l.tls vhost) a.fields a'.fields ∧ (kind = .untilEof → x.closed = true) := by
  have hfit := full_fit h
  obtain ⟨o', N, h1, h2⟩ := full_accept h hp
  refine ⟨o', N, h2, fun j l hj hv hlr => ?_⟩
  obtain ⟨l', h3, h4⟩ := each_at h1.lsts j l hj
  have hs := each_join_append h4.other.svcs h1.svcs
  refine ⟨l', h3, fun fe fs hfs => ⟨fun i v' hi => ?_, ?_⟩⟩
  · obtain ⟨v, g1, g2⟩ := each_at' hs i v' hi
    rw [g2.rest, h1.named]
    exact ((C75_final fe o.named ⟨hfit.names, hn⟩ _).1 _).mpr (hfs i v g1)
  intro k msie sched w net m env beIn world cfg fuel inp hcfg henv hworld p x hx hok strict head hhead hsane hst ms s i id q v f addr port to connTo wsTo ctx sni c le hms hrt hvi hgiven hnum hf
    hsent hclean hloc hle1 hle2 hle3
  obtain ⟨before, b1, b2, b3⟩ := handled_at p fuel 0 inp x hx
  rw [Nat.zero_add] at b3
  obtain ⟨lines, ts, keep, t1, t2, t3, t4, t5⟩ := accepted_taken b2
  have hpeer : c.peer ≠ .unix [] := by
    intro e
    have := hclean.addr
    rw [e] at this
    exact this.1 rfl
  obtain ⟨mid, hm⟩ := C67_total_partial c x.req.scan.headers t3 hpeer
  refine ⟨before, lines, ts, mid.map (·.text), b1, t1, t2, prepared_of t3 hm t4 t5, fun s' vhost hrw hhost hone => ?_⟩
  have hrt' := hrt
  unfold Routes at hrt'
  rw [testsAs_eq] at hrt'
  obtain ⟨st', c1, c2⟩ := routed_choose (first_same hs hrt') (fun y hy => by
    obtain ⟨y', d1, d2⟩ := each_mem' hs y hy
    rw [d2.conds]
    exact (hv y' d1).1) (fresh_looks b2 hms)
  obtain ⟨v', d1, d2⟩ := each_at hs i v hvi
  have hfc : fwdOf l' w addr port ctx sni = c := by
    rw [hsent.eq]
    unfold fwdOf
    rw [h4.st, h4.tls]
  have hlo : locOf l' net addr port ctx sni = le := by
    rw [locatesAs_eq hloc hle1 hle2 hle3]
    unfold locOf
    rw [h4.st, h4.tls]
  have hw : world p x.req = .regular (fwdEdit k l' v' (m p).ctx st' c) (relayOf g l' le (fwdEdit k l' v' (m p).ctx st' c x.req.line x.req.scan.headers) (env p)) (beIn p) := by
    refine hworld p x.req _ ?_
    unfold wholeServe
    rw [c1]
    simp only [Option.elim_some, d1, hgiven, numbered_at hnum, hf, hfc, hlo]
  rw [hw] at b3
  have hlk : Looks { st' with hs := mid } { s with hs := mid.map (·.text) } := ⟨c2.req, rfl, forwardHead_list t3 hm, c2.ms, c2.src⟩
  unfold RewritesBy at hrw
  rw [testsAs_eq, actsAs_eq] at hrw
  have hor := (hv v (List.mem_of_getElem? hvi)).2.1
  have ho : StmtsOrs (rulesStmts l'.other.req ++ rulesStmts v'.cfg.req) := by
    rw [stmtsOrs_append] at hor ⊢
    exact ⟨h4.other.req.ors.mpr hor.1, d2.req.ors.mpr hor.2⟩
  have hr' : Spec.Runs (Evals fun t => Test (m p).ctx (k.test t)) (fun p => Act (k.prim p)) (rulesStmts l'.other.req ++ rulesStmts v'.cfg.req) { s with hs := mid.map (·.text) } true s' := by
    rw [runs_append] at hrw ⊢
    rcases hrw with ⟨r1, r2⟩ | ⟨s1, r1, r2⟩
    · exact .inl ⟨r1, (h4.other.req.runs _ _ _ _ _ _).mpr r2⟩
    · exact .inr ⟨s1, (h4.other.req.runs _ _ _ _ _ _).mpr r1, (d2.req.runs _ _ _ _ _ _).mpr r2⟩
  obtain ⟨st'', r, e1, e2, e3, e4⟩ := rules_run_both k (m p).ctx ho hlk hr'
  have hr0 : r = 0 := e2.mp rfl
  subst hr0
  have hed : fwdEdit k l' v' (m p).ctx st' c x.req.line x.req.scan.headers = some (st''.req.request, st''.hs) := by
    unfold fwdEdit
    rw [hm]
    dsimp only
    rw [e1]
    dsimp only
    rw [if_pos rfl]
  have hho : hostOf st''.hs = vhost := by
    refine hostOf_spec (HeaderList.fine e3.list) ?_
    rw [e3.hs]
    exact hhost
  rw [hed] at b3
  have hh : (x.req.rl.meth == METH b!"HEAD") = head := by
    rw [Bool.eq_iff_iff, beq_iff_eq, hhead]
  have hsafe : RelaysSafely (relayOf g l' le (some (st''.req.request, st''.hs)) (env p)) :=
    plain_safely (e := le) (ssl := l.tls) (vhost := vhost) (henv p).1 (henv p).2 hone (by
      unfold relayOf
      dsimp only [Option.bind_some]
      rw [hho, h4.tls])
  have hloc' : (relayOf g l' le (some (st''.req.request, st''.hs)) (env p)).loc = locText le l.tls vhost := by
    unfold relayOf
    dsimp only [Option.bind_some]
    rw [hho, h4.tls]
  obtain ⟨a, a', kind, q1, ⟨q2, q3, hs1, hs2, q4, q5, q6, q7⟩, q8, q9⟩ := answer_one (strict := strict) hsafe (by rw [hh]; exact hsane) b3 hok hst
  rw [hh] at q1 q8
  refine ⟨a, a', kind, q1, q8, q2, q3, ?_, q9⟩
  have q6' : some hs1 = some hs2 := by
    rw [← q6]
    show some hs1 = (env p).edit hs1
    rw [(henv p).1]
  cases q6'
  rw [q5, hloc'] at q7
  exact each_weaken (fun _ _ h => located_of h) q7

/-- The default of RewriteLocation, with a backend at 10.0.0.2 -/
def respLoc : LocEnv := { mode := 1, lstn := ⟨2, 80, [10, 0, 0, 1]⟩, ltls := false, lport := 0, be := ⟨⟨2, 8080, [10, 0, 0, 2]⟩, none, false⟩, lookup := fwdNet.lookup }

private theorem declares0 : DeclaresLength b!"0" 0 := (declares_iff _ _).1 (by decide +kernel)

example : ∃ t g o l v x s, FullConfigures topEnv0 t g o ∧ PlainText t ∧ (∀ nb ∈ o.named, nb.m.host ≠ none) ∧ o.lsts[0]? = some l ∧
    (∀ v ∈ l.other.svcs ++ o.svcs, NoEmptyOrs (condFormulas v.cfg.conds) ∧ StmtsOrs (rulesStmts l.other.req ++ rulesStmts v.cfg.req) ∧ v.cfg.resp = []) ∧ l.other.resp = [] ∧
    (∀ (i : Nat) (v : FullSvc), (l.other.svcs ++ o.svcs)[i]? = some v → Each (GroupFinal ⟨fun h _ => some h, true⟩ o.named) v.rest.bes.groups fwdBes) ∧
    ListensAs wholeInst g l wholeCfg ∧ (({} : RespEnv).edit = some ∧ ({} : RespEnv).readable = true) ∧
    (∀ i a sv, wholeServe wholeInst g o.svcs l (fun _ => fwdBes) fwdFacts fwdNet fwdMeets {} fwdBack a = some sv → fwdWorld g o l i a = sv) ∧
    (doHttp wholeCfg (fun _ => false) (fun n => n) (fwdWorld g o l) 9 0 fwdIn).1[0]? = some x ∧ x.res = some .ok ∧ (false = true ↔ x.req.rl.meth = METH b!"HEAD") ∧
    SaneHead false g.combine fwdBack ∧
    Recorded fwdMeets.smq [] ∧ Routes wholeInst (l.other.svcs ++ o.svcs) fwdMeets.ctx x.req [] (some 0) s ∧ (l.other.svcs ++ o.svcs)[0]? = some v ∧ fwdMeets.given 0 = some 0 ∧
    Numbered fwdBes 0 0 ⟨5, false, .regular (.inet b!"10.0.0.2") 8080 15 15 600 none none⟩ ∧ SentAs l fwdFacts (.inet b!"10.0.0.2") 8080 none none fwdCfg ∧ CleanFwd fwdCfg ∧
    LocatesAs l fwdNet.sock (.inet b!"10.0.0.2") 8080 none none respLoc ∧ respLoc.lstn = fwdNet.lstn ∧ respLoc.lport = fwdNet.lport ∧ respLoc.lookup = fwdNet.lookup ∧
    RewritesBy wholeInst fwdMeets.ctx (rulesStmts l.other.req ++ rulesStmts v.cfg.req) { s with hs := fwdMid } true { s with hs := fwdMid ++ [b!"X-A: b"] } ∧
    HostOf (fwdMid ++ [b!"X-A: b"]) (some b!"h") ∧ OneLine b!"h" ∧
    x.toClient = b!"HTTP/1.1 200 OK" ++ [13, 10] ++ b!"Content-Length: 0" ++ [13, 10] ++ b!"Location: http://h/x" ++ [13, 10, 13, 10] := by
  obtain ⟨t, g, o, l, v, x, s, h1, h2, h3, h4, h5, h6, h7, h8, h9, h10, h11, h12, h13, h14, h15, h16, h17, h18, h19, h20, h21, h22, h23, h24, h25, h26, h27, h28⟩ := fwd_meets
  refine ⟨t, g, o, l, v, x, s, h1, h2, h3, h4, ?_, h22, h6, h7, ⟨rfl, rfl⟩, h8, h9, h10, ?_, ?_, h12, h13, h14, h15, h16, h17, h18, ?_, rfl, rfl, rfl, h19, ?_, by unfold OneLine; decide, h28⟩
  · intro y hy
    have hy' := hy
    rw [h23, List.mem_singleton] at hy'
    exact ⟨(h5 y hy).1, (h5 y hy).2, by rw [hy', h24]⟩
  · rw [h27]; decide +kernel
  · rw [h21]
    have hd : ∀ v ∈ [b!"0"], DeclaresLength v 0 := by
      intro v hv
      rw [List.mem_singleton.mp hv]
      exact declares0
    exact sane_calc false _ b!"HTTP/1.1 200 OK" [] _ [plainLine b!"Content-Length" b!"0", plainLine b!"Location" b!"http://10.0.0.2:8080/x"] 1 200 [] [b!"0"] (.length 0) rfl (by decide +kernel)
      (by decide +kernel) (by decide +kernel) (by decide +kernel) (by decide +kernel) ⟨by unfold NoBody; simp, rfl, by simp, hd⟩ (by decide) (by simp) (fun v hv => ⟨0, hd v hv⟩)
  · exact ⟨h25.symm, h26.symm, rfl, by simp [respLoc], rfl⟩
  · refine .some (a := []) (t := b!"Host: h") (n := b!"Host") (v := b!"h") rfl (by simp) ?_ (by decide)
    exact ⟨[32], rfl, by decide, by intro c hc; revert c; unfold TChar; decide, by simp, by decide⟩

end Pound.Props
