import Verif.Proof.Whole
import Verif.Props.FullServed
import Verif.Props.Replies

/-!
C101, from the text of a configuration and the bytes that a client sends to the bytes that it gets.
-/

namespace Pound.Props
open Pound Spec

/-- The service, of those given, that the request goes to (`none`: there is none), by the conditions as they are written; `ms` are the matches recorded on the connection before, and `s` is the
request as it is looked at, with the matches recorded after that. -/
def Routes (k : Installed) (vs : List FullSvc) (c : CondCtx) (a : Accepted) (ms : List (MatchRes × Bytes)) (i : Option Nat) (s : View) : Prop :=
  First (fun v : FullSvc => v.cfg.disabled = false) (fun v => Evals (fun t s v s' => ∃ el, TestsAs k t el ∧ Test c el s v s') (.and (condFormulas v.cfg.conds))) vs
    { req := Req.fresh a.line a.rl, hs := a.scan.headers.map (·.text), ms := ms } i s

/-- The rules for requests, as they are written -/
def RewritesBy (k : Installed) (c : CondCtx) (rules : List (Stmt (Formula CTest) CPrim)) (s : View) (ok : Bool) (s' : View) : Prop :=
  Spec.Runs (Evals fun t s v s' => ∃ el, TestsAs k t el ∧ Test c el s v s') (fun p s ok s' => ∃ q, ActsAs k p q ∧ Act q s ok s') rules s ok s'

/-- A listener as it works is as it is configured: requests are checked by CheckURL, MaxURI and MaxRequest, xHTTP says which methods are known, and header lines are combined as the file says. -/
structure ListensAs (k : Installed) (g : Glob) (l : Lst LOther) (cfg : LstnCfg) : Prop where
  methods : (cfg.verb : Int) = l.st.verb
  combine : cfg.table = g.combine
  anyUrl : l.st.urlPat = none → cfg.urlPat = none
  checkUrl : ∀ p, l.st.urlPat = some p → ∃ f, cfg.urlPat = some f ∧ ∀ u, f u = (k.re p u).ok
  maxUri : cfg.maxUri = l.st.maxUri
  maxReq : cfg.maxReq = l.st.maxReq
  old : (cfg.noHttps11 : Int) = l.st.noHttps11
  encrypts : cfg.ssl = l.tls

theorem ListensAs.eq {k : Installed} {g : Glob} {l : Lst LOther} {cfg : LstnCfg} (h : ListensAs k g l cfg) : cfg = k.lstn g l := by
  obtain ⟨h1, h2, h3, h4, h5, h6, h7, h8⟩ := h
  cases cfg with
  | mk a b c d e f i =>
    unfold Installed.lstn
    dsimp only at *
    have hc : c = l.st.urlPat.map fun p u => (k.re p u).ok := by
      cases hu : l.st.urlPat with
      | none => rw [h3 hu]; rfl
      | some p =>
        obtain ⟨q, hq, hq'⟩ := h4 p hu
        rw [hq, Option.map_some]
        congr 1
        exact funext hq'
    subst hc h2 h5 h6 h8
    rw [← h1, ← h7]
    rfl

/-- What the configuration says about a request at a listener `l`, whose services are `vs` (with those of the top level), with the backends `fs`; `m.given` says which backend of its service the request
is given, see C101_served_partial.  The reply is 503 if there is no service or no backend.  An Error backend replies with its status.  A Redirect backend sends the client to its URL, with
references to the request and to matches replaced; the request is first modified by the rules of the listener and of the service, and without such references its URL comes at the end if
the backend's has no path; if rules or replacements fail, the reply is 500. -/
inductive Decides (k : Installed) (l : Lst LOther) (vs : List FullSvc) (fs : Nat → List FGrp) (m : Meets) (a : Accepted) : Decision → Prop
  | none {ms s} : Recorded m.smq ms → Routes k vs m.ctx a ms none s → Decides k l vs fs m a (.refuse .serviceUnavailable)
  | down {ms s i} : Recorded m.smq ms → Routes k vs m.ctx a ms (some i) s → m.given i = none → Decides k l vs fs m a (.refuse .serviceUnavailable)
  | error {ms s i id p f st text} : Recorded m.smq ms → Routes k vs m.ctx a ms (some i) s → m.given i = some id → Numbered (fs i) id p f → f.v = .error (codeReason st).1 text →
      Decides k l vs fs m a (.error st text)
  | redirect {ms s i v id p f code target hasUri s' groups loc n} : Recorded m.smq ms → Routes k vs m.ctx a ms (some i) s → m.given i = some id → Numbered (fs i) id p f →
      f.v = .redirect code target hasUri → code ∈ [301, 302, 303, 307, 308] → vs[i]? = some v →
      RewritesBy k m.ctx (rulesStmts l.other.req ++ rulesStmts v.cfg.req) s true s' → s'.src = none → HistoryOf s'.ms groups →
      Expands (s'.env groups) (okScope (s'.env groups)) target (some (loc, n)) →
      Decides k l vs fs m a (.redirect code (if hasUri ≠ 0 ∨ 0 < n then loc else loc ++ s'.req.url))
  | noUrl {ms s i v id p f code target hasUri s' groups} : Recorded m.smq ms → Routes k vs m.ctx a ms (some i) s → m.given i = some id → Numbered (fs i) id p f →
      f.v = .redirect code target hasUri → code ∈ [301, 302, 303, 307, 308] → vs[i]? = some v →
      RewritesBy k m.ctx (rulesStmts l.other.req ++ rulesStmts v.cfg.req) s true s' → s'.src = none → HistoryOf s'.ms groups →
      Expands (s'.env groups) (okScope (s'.env groups)) target none → Decides k l vs fs m a (.refuse .internalError)
  | rules {ms s i v id p f code target hasUri s'} : Recorded m.smq ms → Routes k vs m.ctx a ms (some i) s → m.given i = some id → Numbered (fs i) id p f →
      f.v = .redirect code target hasUri → vs[i]? = some v → RewritesBy k m.ctx (rulesStmts l.other.req ++ rulesStmts v.cfg.req) s false s' → Decides k l vs fs m a (.refuse .internalError)

theorem numbered_at {fs : List FGrp} {id p : Nat} {f : FBe} (h : Numbered fs id p f) : (fs.flatMap (·.bes))[id]? = some f := by
  obtain ⟨g, q, h1, h2, rfl⟩ := h
  have hk : p < fs.length := (List.getElem?_eq_some_iff.mp h1).1
  have hs : fs = fs.take p ++ g :: fs.drop (p + 1) := by
    rw [← (List.getElem?_eq_some_iff.mp h1).2, List.getElem_cons_drop, List.take_append_drop]
  have he : fs.flatMap (·.bes) = (fs.take p).flatMap (·.bes) ++ (g.bes ++ (fs.drop (p + 1)).flatMap (·.bes)) := by
    conv => lhs; rw [hs]
    rw [List.flatMap_append, List.flatMap_cons]
  rw [he, List.getElem?_append_right (by omega), Nat.add_sub_cancel_left, List.getElem?_append_left (List.getElem?_eq_some_iff.mp h2).1]
  exact h2

theorem first_in {α σ : Type} {en : α → Prop} {ev : α → σ → Option Bool → σ → Prop} {l : List α} {s s' : σ} {r : Option Nat} (h : First en ev l s r s') :
    ∀ i, r = some i → ∃ a, l[i]? = some a := by
  induction h with
  | none => intro i hi; cases hi
  | disabled _ _ ih | pass _ _ _ _ ih =>
    intro i hi
    obtain ⟨j, rfl, rfl⟩ := Option.map_eq_some_iff.mp hi
    exact ih j rfl
  | take => intro i hi; cases hi; exact ⟨_, rfl⟩

theorem each_at' {α β : Type} {R : α → β → Prop} {l : List α} {l' : List β} (h : Each R l l') : ∀ (j : Nat) (a : α), l[j]? = some a → ∃ b, l'[j]? = some b ∧ R a b := by
  induction h with
  | nil => intro j b hb; simp at hb
  | cons h1 _ ih =>
    intro j c hc
    cases j with
    | zero => simp only [List.getElem?_cons_zero, Option.some.injEq] at hc; subst hc; exact ⟨_, rfl, h1⟩
    | succ j => exact ih j c (by simpa using hc)

theorem expand_view_url {st : PState} {s : View} (h : Looks st s) (hsrc : s.src = none) {groups t v} (hg : HistoryOf s.ms groups)
    (he : Expands (s.env groups) (okScope (s.env groups)) t v) (hasUri : Bool) :
    expandUrl st.env st.req.url t hasUri = v.elim .null fun p => .str (if hasUri = true ∨ 0 < p.2 then p.1 else p.1 ++ s.req.url) := by
  have hs := h.src
  unfold View.env at he
  rw [hsrc] at he hs
  unfold PState.env
  cases e1 : st.src with
  | some x => rw [e1] at hs; cases hs
  | none =>
    have h3 : Expands ⟨groups, some (accessorsOf s.req st.hs)⟩ (okScope ⟨groups, some (accessorsOf s.req st.hs)⟩) t v := by
      simp only [accessorsOf, h.hs]
      exact he
    rw [← SameReq.accessorsOf h.req] at h3
    have := (C12_expand_partial st.smq s.ms h.ms st.req st.hs h.list groups hg t v h3).2 hasUri
    dsimp only
    rw [this, SameReq.url h.req]
    cases v <;> rfl

theorem fresh_looks {cfg : LstnCfg} {inp : Bytes} {a : Accepted} (ha : acceptRequest cfg inp = .ok a) {q : Smq} {ms : List (MatchRes × Bytes)} (h : Recorded q ms) :
    Looks ⟨Req.fresh a.line a.rl, a.scan.headers, q, none⟩ { req := Req.fresh a.line a.rl, hs := a.scan.headers.map (·.text), ms := ms } := by
  obtain ⟨_, _, _, -, -, hl, -, -⟩ := accepted_taken ha
  exact ⟨SameReq.refl _, rfl, hl, h, trivial⟩

/-- What is decided by the text is done by the program. -/
theorem decides_sel {k : Installed} {l l' : Lst LOther} {vs gl : List FullSvc} {fs : Nat → List FGrp} {m : Meets} {cfg : LstnCfg} {inp : Bytes} {a : Accepted} {d : Decision}
    (hl : SameOther l'.other l.other) (hs : Each SameSvc (l'.other.svcs ++ gl) vs) (hw : ∀ v ∈ vs, NoEmptyOrs (condFormulas v.cfg.conds))
    (hr : ∀ v ∈ vs, StmtsOrs (rulesStmts l.other.req ++ rulesStmts v.cfg.req)) (hn : l.other.resp = []) (hn' : ∀ v ∈ vs, v.cfg.resp = [])
    (ha : acceptRequest cfg inp = .ok a) (h : Decides k l vs fs m a d) : ∃ x, wholeSel k gl l' fs m a = some x ∧ Does d x := by
  have route : ∀ {ms i s}, Recorded m.smq ms → Routes k vs m.ctx a ms i s →
      ∃ st', chooseService m.ctx (l'.other.svcs.map fun v => k.svc v.cfg) (gl.map fun v => k.svc v.cfg) ⟨Req.fresh a.line a.rl, a.scan.headers, m.smq, none⟩ =
        .inl (st', i.elim (.error .serviceUnavailable) .ok) ∧ Looks st' s := by
    intro ms i s hm hf
    unfold Routes at hf
    rw [testsAs_eq] at hf
    refine routed_choose (first_same hs hf) (fun v hv => ?_) (fresh_looks ha hm)
    obtain ⟨w, hw1, hw2⟩ := each_mem' hs v hv
    rw [hw2.conds]
    exact hw w hw1
  have there : ∀ {s ms i}, Routes k vs m.ctx a ms (some i) s → ∃ v v', vs[i]? = some v ∧ (l'.other.svcs ++ gl)[i]? = some v' ∧ SameSvc v' v := by
    intro s ms i hf
    obtain ⟨v, hv⟩ := first_in hf i rfl
    obtain ⟨v', h1, h2⟩ := each_at hs i v hv
    exact ⟨v, v', hv, h1, h2⟩
  have rewrite : ∀ {s s' : View} {ok v v' st'}, Looks st' s → v ∈ vs → SameSvc v' v → RewritesBy k m.ctx (rulesStmts l.other.req ++ rulesStmts v.cfg.req) s ok s' →
      ∃ st'' r, rewriteRequest m.ctx (l'.other.req.map k.rule) (v'.cfg.req.map k.rule) st' = (st'', .val r) ∧ (ok = true ↔ r = 0) ∧ Looks st'' s' := by
    intro s s' ok v v' st' hlk hv h6 hru
    unfold RewritesBy at hru
    rw [testsAs_eq, actsAs_eq] at hru
    have := hr v hv
    have ho : StmtsOrs (rulesStmts l'.other.req ++ rulesStmts v'.cfg.req) := by
      rw [stmtsOrs_append] at this ⊢
      exact ⟨hl.req.ors.mpr this.1, h6.req.ors.mpr this.2⟩
    have hr' : Spec.Runs (Evals fun t => Test m.ctx (k.test t)) (fun p => Act (k.prim p)) (rulesStmts l'.other.req ++ rulesStmts v'.cfg.req) s ok s' := by
      rw [runs_append] at hru ⊢
      rcases hru with ⟨r1, r2⟩ | ⟨s1, r1, r2⟩
      · exact .inl ⟨r1, (hl.req.runs _ _ _ _ _ _).mpr r2⟩
      · exact .inr ⟨s1, (hl.req.runs _ _ _ _ _ _).mpr r1, (h6.req.runs _ _ _ _ _ _).mpr r2⟩
    obtain ⟨st'', r, h1, h2, h3, -⟩ := rules_run_both k m.ctx ho hlk hr'
    exact ⟨st'', r, h1, h2, h3⟩
  unfold wholeSel
  cases h with
  | none hm hf =>
    obtain ⟨st', h1, -⟩ := route hm hf
    rw [h1]
    exact ⟨_, rfl, .refuse⟩
  | down hm hf hg =>
    obtain ⟨st', h1, -⟩ := route hm hf
    obtain ⟨v, v', -, h2, -⟩ := there hf
    rw [h1]
    simp only [Option.elim_some, h2, hg]
    exact ⟨_, rfl, .refuse⟩
  | error hm hf hg hnum hv =>
    obtain ⟨st', h1, -⟩ := route hm hf
    obtain ⟨v, v', hvs, h2, h3⟩ := there hf
    rw [h1]
    simp only [Option.elim_some, h2, hg, numbered_at hnum, wholeBe, hv, status_code]
    rw [h3.resp, hl.resp, hn, hn' v (List.mem_of_getElem? hvs)]
    exact ⟨_, rfl, .error⟩
  | redirect hm hf hg hnum hv hc hvs hru hsrc hh he =>
    rename_i i v0 id p f code target hasUri s' groups loc n
    obtain ⟨st', h1, hlk⟩ := route hm hf
    obtain ⟨v, v', hvs', h2, h3⟩ := there hf
    cases hvs.symm.trans hvs'
    obtain ⟨st'', r, g1, g2, g3⟩ := rewrite hlk (List.mem_of_getElem? hvs) h3 hru
    rw [h1]
    simp only [Option.elim_some, h2, hg, numbered_at hnum, wholeBe, hv, g1]
    rw [if_pos (g2.mp rfl)]
    refine ⟨_, rfl, .redirect hc ?_⟩
    rw [expand_view_url g3 hsrc hh he]
    simp
  | noUrl hm hf hg hnum hv hc hvs hru hsrc hh he =>
    obtain ⟨st', h1, hlk⟩ := route hm hf
    obtain ⟨v, v', hvs', h2, h3⟩ := there hf
    cases hvs.symm.trans hvs'
    obtain ⟨st'', r, g1, g2, g3⟩ := rewrite hlk (List.mem_of_getElem? hvs) h3 hru
    rw [h1]
    simp only [Option.elim_some, h2, hg, numbered_at hnum, wholeBe, hv, g1]
    rw [if_pos (g2.mp rfl)]
    refine ⟨_, rfl, .noUrl hc ?_⟩
    rw [expand_view_url g3 hsrc hh he]
    rfl
  | rules hm hf hg hnum hv hvs hru =>
    obtain ⟨st', h1, hlk⟩ := route hm hf
    obtain ⟨v, v', hvs', h2, h3⟩ := there hf
    cases hvs.symm.trans hvs'
    obtain ⟨st'', r, g1, g2, g3⟩ := rewrite hlk (List.mem_of_getElem? hvs) h3 hru
    rw [h1]
    simp only [Option.elim_some, h2, hg, numbered_at hnum, wholeBe, hv, g1]
    rw [if_neg (fun h0 => by cases g2.mpr h0)]
    exact ⟨_, rfl, .refuse⟩

theorem plain_error_ok (st : Status) (text : Option Bytes) (x : CondCtx) (now : PState) : OwnOk (.error st text x [] [] now) := by
  intro st0 st1 h0 h1
  rw [errState_eq] at h0
  injection h0 with h0
  subst h0
  injection h1 with h1 _
  subst h1
  intro h hh
  simp only [errHs, List.mem_cons, List.not_mem_nil, or_false] at hh
  rcases hh with rfl | rfl | rfl
  · have hl := headerLine_mk (n := b!"Expires") (v := b!"now") (by decide) (by unfold TChar; decide) (by unfold NotAt; decide)
    exact ⟨⟨_, _, hl⟩, by unfold Text; decide +kernel, not_named hl (by decide)⟩
  · have hl := headerLine_mk (n := b!"Pragma") (v := b!"no-cache") (by decide) (by unfold TChar; decide) (by unfold NotAt; decide)
    exact ⟨⟨_, _, hl⟩, by unfold Text; decide +kernel, not_named hl (by decide)⟩
  · have hl := headerLine_mk (n := b!"Cache-control") (v := b!"no-cache,no-store") (by decide) (by unfold TChar; decide) (by unfold NotAt; decide)
    exact ⟨⟨_, _, hl⟩, by unfold Text; decide +kernel, not_named hl (by decide)⟩

theorem wholeSel_ok {k : Installed} {gl : List FullSvc} {l : Lst LOther} {fs : Nat → List FGrp} {m : Meets} {a : Accepted} {be : OwnBe} (hl : l.other.resp = [])
    (hv : ∀ v ∈ l.other.svcs ++ gl, v.cfg.resp = []) (h : wholeSel k gl l fs m a = some (.inr be)) : OwnOk be := by
  unfold wholeSel at h
  split at h
  · cases h
  · cases h
  · split at h
    · cases h
    · rename_i v hi
      have hm := hv v (List.mem_of_getElem? hi)
      split at h
      · cases h
      · split at h
        · cases h
        · rename_i f _
          unfold wholeBe at h
          split at h
          · split at h
            · cases h
            · cases h
              rw [hm, hl]
              exact plain_error_ok _ _ _ _
          · split at h
            · split at h
              · cases h; trivial
              · cases h
            · cases h
          · cases h

/-- From the text of a configuration and the bytes that a client sends to those that it gets: a documented configuration is accepted, the backends of its services are as the text says, and on every
connection to a listener the client gets one reply to each of its requests, in their order, with the code and the page that the text asks for (`Decides` and `AnswerTo`), and nothing else.
Missing: HEAD requests, which get a body (C90_head_fails); rules for responses; other backends than Error and Redirect (see C95 for them); what the theorems before leave out. -/
theorem C101_answers_partial (e : TopEnv) (t : List Tok) (g : Glob) (o : FullObjs) (h : FullConfigures e t g o) (hp : PlainText t) (hn : ∀ nb ∈ o.named, nb.m.host ≠ none) :
    ∃ o' N, (∀ n, N ≤ n → parseFull e n t = some (g, o', 0)) ∧
      ∀ (j : Nat) (l : Lst LOther), o.lsts[j]? = some l →
        (∀ v ∈ l.other.svcs ++ o.svcs, NoEmptyOrs (condFormulas v.cfg.conds) ∧ StmtsOrs (rulesStmts l.other.req ++ rulesStmts v.cfg.req) ∧ v.cfg.resp = []) → l.other.resp = [] →
        ∃ l', o'.lsts[j]? = some l' ∧
          ∀ (fe : FinEnv) (fs : Nat → List FGrp), (∀ i v, (l.other.svcs ++ o.svcs)[i]? = some v → Each (GroupFinal fe o.named) v.rest.bes.groups (fs i)) →
            (∀ i v', (l'.other.svcs ++ o'.svcs)[i]? = some v' → serviceFinalize fe o'.named v'.rest.bes.groups = .ok (some (fs i))) ∧
            ∀ (k : Installed) (msie : Accepted → Bool) (m : Nat → Meets) (inp : Bytes) (ds : List (Bool × Decision)),
              (∃ cfg, ListensAs k g l cfg ∧ Treats cfg msie (fun i => Decides k l (l.other.svcs ++ o.svcs) fs (m i)) 0 inp ds) →
              ∃ w, whole k g o' l' fs msie m inp = some (w, .closed) ∧
                (w.length < 2 ^ 63 → (∀ x ∈ ds, x.1 = false) →
                  ∃ ys, Replies (ds.map (·.1)) w ys ∧ Each (AnswerTo fun st => l.st.err (codeReason st).1) (ds.map (·.2)) ys) := by
  have hfit := full_fit h
  obtain ⟨o', N, h1, h2⟩ := full_accept h hp
  refine ⟨o', N, h2, fun j l hj hv hlr => ?_⟩
  obtain ⟨l', h3, h4⟩ := each_at h1.lsts j l hj
  have hs := each_join_append h4.other.svcs h1.svcs
  refine ⟨l', h3, fun fe fs hfs => ⟨fun i v' hi => ?_, fun k msie m inp ds ht => ?_⟩⟩
  · obtain ⟨v, g1, g2⟩ := each_at' hs i v' hi
    rw [g2.rest, h1.named]
    exact ((C75_final fe o.named ⟨hfit.names, hn⟩ _).1 _).mpr (hfs i v g1)
  · obtain ⟨cfg, hc, ht⟩ := ht
    rw [hc.eq] at ht
    have hcfg : k.lstn g l' = k.lstn g l := by
      unfold Installed.lstn
      rw [h4.st, h4.tls]
    have hpg : lstnPages l' = fun st => l.st.err (codeReason st).1 := by
      funext st
      unfold lstnPages
      rw [h4.st, info_reason]
    have hd : ∀ inp i a d, acceptRequest (k.lstn g l) inp = .ok a → Decides k l (l.other.svcs ++ o.svcs) fs (m i) a d →
        ∃ x, wholeSel k o'.svcs l' fs (m i) a = some x ∧ Does d x := fun inp i a d ha hD =>
      decides_sel h4.other hs (fun v hm => (hv v hm).1) (fun v hm => (hv v hm).2.1) hlr (fun v hm => (hv v hm).2.2) ha hD
    obtain ⟨w, w1, w2⟩ := treats_run (fun st => l.st.err (codeReason st).1) hd ht (inp.length + 1) (by omega)
    refine ⟨w, ?_, fun hlen hhd => ?_⟩
    · unfold whole
      rw [hcfg, hpg]
      exact w1
    · have hok : ∀ i a be, knownSel (fun i => wholeSel k o'.svcs l' fs (m i)) i a = .inr be → OwnOk be := by
        intro i a be he
        unfold knownSel at he
        dsimp only at he
        cases hx : wholeSel k o'.svcs l' fs (m i) a with
        | none => rw [hx] at he; cases he
        | some x =>
          rw [hx, Option.getD_some] at he
          subst he
          refine wholeSel_ok (h4.other.resp.trans hlr) (fun v' hm => ?_) hx
          obtain ⟨v, hvm, hvs⟩ := each_mem' hs v' hm
          rw [hvs.resp]
          exact (hv v hvm).2.2
      obtain ⟨x, hx1, hx2⟩ := C90_answers_partial (k.lstn g l) msie (fun st => l.st.err (codeReason st).1) _ hok inp (by rw [w2]) (by rw [w2]; exact hlen)
      obtain ⟨y1, y2⟩ := treats_answers hd ht x hx1
      rw [w2, y1] at hx2
      refine ⟨_, hx2 fun z hz => ?_, y2⟩
      have : z.1 ∈ ds.map (·.1) := y1 ▸ List.mem_map_of_mem hz
      obtain ⟨u, hu, he⟩ := List.mem_map.mp this
      rw [← he]
      exact hhd u hu

/-- A listener with two services: one sends everything below /old to another host, the other says that nothing is found. -/
def wholeText : List Tok := cfgToks b!"ListenHTTP\n Address 10.0.0.1\n Port 80\n Service\n  URL \"^/old\"\n  Redirect 301 \"http://h\"\n End\n Service\n  Error 404\n End\nEnd\n"

theorem whole_plain : PlainText wholeText := cfg_plain (by decide +kernel) (by decide +kernel)

/-- The backends of the two services -/
def wholeBes (i : Nat) : List FGrp := if i = 0 then [⟨0, [⟨1, false, .redirect 301 b!"http://h" 0⟩]⟩] else [⟨0, [⟨1, false, .error 404 none⟩]⟩]

/-- The expression of the first service -/
def wholeRe : Re := fun s => if s.take 4 = b!"/old" then ⟨true, [(0, 4)]⟩ else ⟨false, []⟩

def wholeInst : Installed := ⟨fun _ => wholeRe, fun _ => 0, fun _ => 0, fun _ => 0, fun _ => 0⟩

/-- Nothing was matched before; the first backend of each service is given. -/
def wholeMeets : Meets := ⟨⟨fun _ => 0, fun _ _ => 0, fun _ => false⟩, history [], fun _ => some 0⟩

def wholeIn : Bytes := b!"GET /old/a HTTP/1.1" ++ [13, 10, 13, 10] ++ b!"GET /x HTTP/1.1" ++ [13, 10, 13, 10]

private def wholeLst (g : Glob) (l : Lst LOther) : Bool :=
  l.st.verb == 0 && g.combine == [] && l.st.urlPat.isNone && l.st.maxUri == 0 && l.st.maxReq == 0 && l.st.noHttps11 == 0 && !l.tls && l.other.req.isEmpty && l.other.resp.isEmpty

private def wholeSvc (c : Option CTest) (fs : List FGrp) (v : FullSvc) : Bool :=
  (match v.cfg.conds, c with
   | [.test t], some t' => decide (t = t')
   | [], none => true
   | _, _ => false) && !v.cfg.disabled && v.cfg.req.isEmpty && v.cfg.resp.isEmpty && decide (serviceFinalize ⟨fun h _ => some h, true⟩ [] v.rest.bes.groups = .ok (some fs))

private def wholeSeen (g : Glob) (o : FullObjs) : Bool :=
  match o.lsts, o.svcs, o.named with
  | [l], [], [] =>
    (match l.other.svcs with
     | [v, w] => wholeLst g l && wholeSvc (some (.url ⟨.posix, false, false, b!"^/old"⟩)) (wholeBes 0) v && wholeSvc none (wholeBes 1) w
     | _ => false)
  | _, _, _ => false

set_option maxRecDepth 100000 in
private theorem whole_seen : (match parseFull topEnv0 100 wholeText with | some (g, o, 0) => wholeSeen g o | _ => false) = true := by decide +kernel

private theorem whole_seen' : ∃ g o, parseFull topEnv0 100 wholeText = some (g, o, 0) ∧ wholeSeen g o = true := by
  have := whole_seen
  generalize parseFull topEnv0 100 wholeText = r at this ⊢
  split at this
  · exact ⟨_, _, rfl, this⟩
  · cases this

/-- The listener as it is at run time -/
def wholeCfg : LstnCfg := { verb := 0, table := [], urlPat := none, maxUri := 0, maxReq := 0, noHttps11 := 0, ssl := false }

private theorem accepted_of {cfg : LstnCfg} {inp rest url : Bytes} (h : (match acceptRequest cfg inp with
    | .ok a => a.rl.meth == METH b!"GET" && a.rl.url == url && a.rl.version == 1 && a.rest == rest && !a.scan.connClosed
    | _ => false) = true) :
    ∃ a, acceptRequest cfg inp = .ok a ∧ a.rl.meth = METH b!"GET" ∧ a.rl.url = url ∧ a.rl.version = 1 ∧ a.rest = rest ∧ a.scan.connClosed = false := by
  split at h
  · rename_i a ha
    simp only [Bool.and_eq_true, beq_iff_eq, Bool.not_eq_true'] at h
    obtain ⟨⟨⟨⟨h1, h2⟩, h3⟩, h4⟩, h5⟩ := h
    exact ⟨a, ha, h1, h2, h3, h4, h5⟩
  · cases h

theorem expands_text (E : Env) (S : Scope) : ∀ t : Bytes, ch%'$' ∉ t → ch%'%' ∉ t → Expands E S t (some (t, 0))
  | [], _, _ => .nil
  | c :: t, h1, h2 => by
    have := Expands.cons (w := [c]) (t := t) (.text (fun h => h1 (h ▸ List.mem_cons_self)) (fun h => h2 (h ▸ List.mem_cons_self)))
      (expands_text E S t (fun h => h1 (List.mem_cons_of_mem _ h)) (fun h => h2 (List.mem_cons_of_mem _ h)))
    exact this

example : ∃ t g o l, FullConfigures topEnv0 t g o ∧ PlainText t ∧ (∀ nb ∈ o.named, nb.m.host ≠ none) ∧ o.lsts[0]? = some l ∧
    (∀ v ∈ l.other.svcs ++ o.svcs, NoEmptyOrs (condFormulas v.cfg.conds) ∧ StmtsOrs (rulesStmts l.other.req ++ rulesStmts v.cfg.req) ∧ v.cfg.resp = []) ∧ l.other.resp = [] ∧
    (∀ i v, (l.other.svcs ++ o.svcs)[i]? = some v → Each (GroupFinal ⟨fun h _ => some h, true⟩ o.named) v.rest.bes.groups (wholeBes i)) ∧
    ListensAs wholeInst g l wholeCfg ∧ Treats wholeCfg (fun _ => false) (fun i => Decides wholeInst l (l.other.svcs ++ o.svcs) wholeBes wholeMeets) 0 wholeIn
      [(false, .redirect 301 b!"http://h/old/a"), (false, .error .notFound none)] := by
  obtain ⟨g, o, hparse, hseen⟩ := whole_seen'
  obtain ⟨t, ht, h3⟩ := C101_sound_partial _ _ _ _ _ hparse whole_plain
  have hpt : PlainText t := by
    rcases ht with ht | ht
    · rw [ht]; exact whole_plain
    · rw [ht]; exact cfg_plain (by decide +kernel) (by decide +kernel)
  unfold wholeSeen at hseen
  split at hseen
  rotate_left
  · simp at hseen
  rename_i l hl hs hn
  split at hseen
  rotate_left
  · simp at hseen
  rename_i v w hvw
  simp only [Bool.and_eq_true] at hseen
  obtain ⟨⟨hll, hv⟩, hw⟩ := hseen
  simp only [wholeLst, Bool.and_eq_true, beq_iff_eq, Bool.not_eq_true', List.isEmpty_iff, Option.isNone_iff_eq_none] at hll
  obtain ⟨⟨⟨⟨⟨⟨⟨⟨l1, l2⟩, l3⟩, l4⟩, l5⟩, l6⟩, l7⟩, l8⟩, l9⟩ := hll
  simp only [wholeSvc, Bool.and_eq_true, Bool.not_eq_true', List.isEmpty_iff, decide_eq_true_eq] at hv hw
  obtain ⟨⟨⟨⟨v1, v2⟩, v3⟩, v4⟩, v5⟩ := hv
  obtain ⟨⟨⟨⟨w1, w2⟩, w3⟩, w4⟩, w5⟩ := hw
  have v1' : v.cfg.conds = [.test (.url ⟨.posix, false, false, b!"^/old"⟩)] := by
    split at v1
    · rename_i t' heq1 heq2
      cases heq2
      rw [heq1, of_decide_eq_true v1]
    · simp at *
    · cases v1
  have w1' : w.cfg.conds = [] := by
    split at w1
    · rename_i heq; cases heq
    · assumption
    · cases w1
  have hcfg : ListensAs wholeInst g l wholeCfg :=
    ⟨l1.symm, l2.symm, fun _ => rfl, fun p hp => by rw [l3] at hp; (cases hp), l4.symm, l5.symm, l6.symm, l7.symm⟩
  have hsv : l.other.svcs ++ o.svcs = [v, w] := by rw [hvw, hs]; rfl
  have hok : NamedOk o.named := by rw [hn]; exact ⟨by decide, by simp⟩
  refine ⟨t, g, o, l, h3, hpt, by simp [hn], by rw [hl]; rfl, ?_, l9, ?_, hcfg, ?_⟩
  · rw [hsv, l8]
    intro x hx
    simp only [List.mem_cons, List.not_mem_nil, or_false] at hx
    rcases hx with rfl | rfl
    · rw [v1', v3]; exact ⟨⟨trivial, trivial⟩, trivial, v4⟩
    · rw [w1', w3]; exact ⟨trivial, trivial, w4⟩
  · rw [hsv]
    intro i x hx
    rw [← (C75_final _ _ hok _).1, hn]
    match i with
    | 0 => cases hx; exact v5
    | 1 => cases hx; exact w5
    | n + 2 => simp at hx
  · rw [hsv]
    obtain ⟨a, a1, a2, a3, a4, a5, a6⟩ := accepted_of (cfg := wholeCfg) (inp := wholeIn) (url := b!"/old/a") (rest := b!"GET /x HTTP/1.1" ++ [13, 10, 13, 10]) (by decide +kernel)
    obtain ⟨b, b1, b2, b3, b4, b5, b6⟩ := accepted_of (cfg := wholeCfg) (inp := b!"GET /x HTTP/1.1" ++ [13, 10, 13, 10]) (url := b!"/x") (rest := []) (by decide +kernel)
    have ha : (a.rl.meth == METH b!"HEAD") = false := by rw [a2]; decide +kernel
    have hb : (b.rl.meth == METH b!"HEAD") = false := by rw [b2]; decide +kernel
    have hc : ¬ HttpsClose wholeCfg false := by unfold HttpsClose; decide
    have hd := Treats.more (msie := fun _ => false) (D := fun i => Decides wholeInst l [v, w] wholeBes wholeMeets) (i := 0)
      (d := .redirect 301 b!"http://h/old/a") (l := [(false, .error .notFound none)]) a1 ?_ (by simp) a4 a6 hc ?_
    · rw [ha] at hd; exact hd
    · have hre : wholeRe a.rl.url = ⟨true, [(0, 4)]⟩ := by rw [a3]; decide
      have hr : Routes wholeInst [v, w] wholeMeets.ctx a [] (some 0)
          (View.push { req := Req.fresh a.line a.rl, hs := a.scan.headers.map (·.text), ms := [] } ⟨true, [(0, 4)]⟩ a.rl.url) := by
        refine .take v2 ?_
        rw [v1']
        have ht := Test.url (x := wholeMeets.ctx) (re := wholeRe) (s := { req := Req.fresh a.line a.rl, hs := a.scan.headers.map (·.text), ms := [] })
        rw [show (Req.fresh a.line a.rl).url = a.rl.url from rfl, hre] at ht
        exact .allMore (.test ⟨_, .url, ht⟩) .allDone
      have := Decides.redirect (l := l) (fs := wholeBes) (m := wholeMeets) (recorded_history []) hr (id := 0) (p := 0) (f := ⟨1, false, .redirect 301 b!"http://h" 0⟩) rfl
        ⟨_, 0, rfl, rfl, rfl⟩ rfl (by decide) rfl (by rw [l8, v3]; exact .done) rfl
        (groups := fun m => if m = 0 then some [b!"/old"] else none) ?_ (expands_text _ _ b!"http://h" (by decide) (by decide))
      · simp only [View.push, Req.fresh, a3, ne_eq, not_true_eq_false, Nat.lt_irrefl, or_self, if_false] at this
        exact this
      · intro m
        cases m with
        | zero =>
          refine .inl ⟨by omega, _, _, _, rfl, rfl, rfl, ?_, by decide⟩
          rw [a3]
          exact .set (a := []) (g := b!"/old") (b := b!"/a") rfl .nil
        | succ m => exact .inr ⟨.inr (.inl (by simp [View.push])), by simp⟩
    · rw [a5]
      have hd := Treats.more (msie := fun _ => false) (D := fun i => Decides wholeInst l [v, w] wholeBes wholeMeets) (i := 1) (d := .error .notFound none) (l := []) b1 ?_ (by simp) b4 b6 hc
        (.done (by rw [b5]; decide +kernel))
      · rw [hb] at hd; exact hd
      · have hre : wholeRe b.rl.url = ⟨false, []⟩ := by rw [b3]; decide
        have hr : Routes wholeInst [v, w] wholeMeets.ctx b [] (some 1)
            (View.push { req := Req.fresh b.line b.rl, hs := b.scan.headers.map (·.text), ms := [] } ⟨false, []⟩ b.rl.url) := by
          refine .pass (i := some 0) v2 ?_ (v := some false) (by decide) (.take w2 (by rw [w1']; exact .allDone))
          rw [v1']
          have ht := Test.url (x := wholeMeets.ctx) (re := wholeRe) (s := { req := Req.fresh b.line b.rl, hs := b.scan.headers.map (·.text), ms := [] })
          rw [show (Req.fresh b.line b.rl).url = b.rl.url from rfl, hre] at ht
          exact .allStop (.test ⟨_, .url, ht⟩) (by decide)
        exact .error (recorded_history []) hr (id := 0) (p := 0) (f := ⟨1, false, .error 404 none⟩) rfl ⟨_, 0, rfl, rfl, rfl⟩ rfl

end Pound.Props
