import Verif.Proof.FullAcc
import Verif.Props.SvcCfg
import Verif.Props.TopCfg
import Verif.Props.Cond

/-!
C101: a whole configuration, with all of its services, is what its text says.
-/

namespace Pound.Props

open Pound Spec

def cfgToks (s : Bytes) : List Tok :=
  let rec go : Nat → Bytes → List Tok
    | 0, _ => []
    | n + 1, s => if (lexTok s).tok = .eof then [] else (lexTok s).tok :: go n (lexTok s).rest
  go s.length s

/-- No file of names, no rules for responses -/
def plainTok : Tok → Bool
  | .literal s => s != b!"-file"
  | .ident s => !ciEq s b!"response"
  | _ => true

theorem cfg_plain {ts : List Tok} (h : hasNotNot ts = false) (h2 : ts.all plainTok = true) : PlainText ts := by
  refine ⟨notNot_of h, fun k hk => ?_, fun hr => ?_⟩
  · obtain ⟨pre, n, opts, p, post, rfl, _, hm, _⟩ := hk
    have := List.all_eq_true.mp h2 (.literal b!"-file") (by simp [hm])
    simp [plainTok] at this
  · obtain ⟨pre, n, m, post, rfl, _, hm⟩ := hr
    have := List.all_eq_true.mp h2 (.ident m) (by simp)
    simp [plainTok, hm] at this

theorem routed_svcLoop {k : Installed} {x : CondCtx} {svcs : List FullSvc} {s s' : View} {i : Option Nat}
    (h : First (fun v : FullSvc => v.cfg.disabled = false) (fun v => Evals (fun t => Test x (k.test t)) (.and (condFormulas v.cfg.conds))) svcs s i s') :
    ∀ (n : Nat) (st : PState), (∀ v ∈ svcs, NoEmptyOrs (condFormulas v.cfg.conds)) → Looks st s →
      ∃ st', svcLoop x (svcs.map fun v => k.svc v.cfg) n st = (st', i.elim .none fun i => .found (n + i)) ∧ Looks st' s' := by
  induction h with
  | none => exact fun n st _ hl => ⟨st, rfl, hl⟩
  | @disabled a as s i s' hd _ ih =>
    intro n st hw hl
    obtain ⟨st', h1, h2⟩ := ih (n + 1) st (fun v hv => hw v (by simp [hv])) hl
    refine ⟨st', ?_, h2⟩
    have : (k.svc a.cfg).disabled = true := by simpa [Installed.svc] using hd
    simp only [List.map_cons, svcLoop, this, if_true, h1]
    cases i <;> simp; omega
  | @pass a as s v s' i s'' hd he hv _ ih =>
    intro n st hw hl
    obtain ⟨st1, h1, h2⟩ := conds_eval k x (hw a (by simp)) hl he
    obtain ⟨st', h3, h4⟩ := ih (n + 1) st1 (fun v hv => hw v (by simp [hv])) h2
    refine ⟨st', ?_, h4⟩
    have : ¬ condCode v = 1 := fun e => hv (condCode_ne.2.2.1 e)
    simp only [Installed.svc] at h3
    simp only [List.map_cons, Installed.svc, svcLoop, hd, Bool.false_eq_true, if_false, h1, this, h3]
    cases i <;> simp; omega
  | @take a as s s' hd he =>
    intro n st hw hl
    obtain ⟨st1, h1, h2⟩ := conds_eval k x (hw a (by simp)) hl he
    refine ⟨st1, ?_, h2⟩
    simp [svcLoop, Installed.svc, hd, h1, condCode]

theorem routed_choose {k : Installed} {c : CondCtx} {a b : List FullSvc} {st : PState} {s s' : View} {i : Option Nat}
    (hf : First (fun v : FullSvc => v.cfg.disabled = false) (fun v => Evals (fun t => Test c (k.test t)) (.and (condFormulas v.cfg.conds))) (a ++ b) s i s')
    (hw : ∀ v ∈ a ++ b, NoEmptyOrs (condFormulas v.cfg.conds)) (hl : Looks st s) :
    ∃ st', chooseService c (a.map fun v => k.svc v.cfg) (b.map fun v => k.svc v.cfg) st = .inl (st', i.elim (.error .serviceUnavailable) .ok) ∧ Looks st' s' := by
  obtain ⟨st', h3, h4⟩ := routed_svcLoop hf 0 st hw hl
  refine ⟨st', ?_, h4⟩
  rw [List.map_append, svcLoop_append] at h3
  simp only [Nat.zero_add] at h3
  have hg : getService c (a.map fun v => k.svc v.cfg) (b.map fun v => k.svc v.cfg) st = (st', i.elim .none .found) := by
    unfold getService
    rw [← h3]
    rcases svcLoop c (a.map fun v => k.svc v.cfg) 0 st with ⟨st1, _ | _ | _ | _⟩ <;> rfl
  unfold chooseService
  rw [hg]
  cases i <;> rfl

/-- If a configuration is accepted without messages, then its text says what is then in force: access lists, addresses of trusted proxies, backends, services with their conditions, rules,
sessions and backends, listeners with theirs, controls and resolver.
Missing: double negations, files of names and rules for responses, which are not read as documented (C70, C71); what the model leaves out (see Model/FullCfg). -/
theorem C101_sound_partial (e : TopEnv) (n : Nat) (ts : List Tok) (g : Glob) (o : FullObjs) (h : parseFull e n ts = some (g, o, 0)) (hp : PlainText ts) :
    ∃ t, (t = ts ∨ t = ts ++ [.nl]) ∧ FullConfigures e t g o := full_config h hp

/-- What is documented is accepted, without messages, and with the documented meaning: the services are the same but for how their conditions and rules are represented.
Missing: double negations, files of names and rules for responses; what the model leaves out. -/
theorem C101_complete_partial (e : TopEnv) (t : List Tok) (g : Glob) (o : FullObjs) (h : FullConfigures e t g o) (hp : PlainText t) :
    ∃ o' N, SameObjs o' o ∧ ∀ n, N ≤ n → parseFull e n t = some (g, o', 0) := full_accept h hp

/-- A configuration has one meaning: two readings of the same text have the same settings and define the same.  Missing: as above. -/
theorem C101_one_partial (e : TopEnv) (t : List Tok) (g g' : Glob) (o o' : FullObjs) (h : FullConfigures e t g o) (h' : FullConfigures e t g' o') (hp : PlainText t) :
    g = g' ∧ SameObjs o o' := by
  obtain ⟨q, N, h1, h2⟩ := full_accept h hp
  obtain ⟨q', N', h3, h4⟩ := full_accept h' hp
  have := (h2 (N + N') (by omega)).symm.trans (h4 (N + N') (by omega))
  cases this
  exact ⟨rfl, same_objs_join h1 h3⟩

/-- From the text to the choice of the service: a request that comes in at a listener goes to the first service, of those written in the listener and then of those written at the top
level, that is not disabled and whose conditions, as they are written, are all true; if there is none, the reply is 503.
Missing, besides the above: disjunctions without operands (see C14). -/
theorem C101_routed_partial (e : TopEnv) (n : Nat) (ts : List Tok) (g : Glob) (o : FullObjs) (h : parseFull e n ts = some (g, o, 0)) (hp : PlainText ts) :
    ∃ t, (t = ts ∨ t = ts ++ [.nl]) ∧ FullConfigures e t g o ∧
      ∀ l ∈ o.lsts, (∀ v ∈ l.other.svcs ++ o.svcs, NoEmptyOrs (condFormulas v.cfg.conds)) →
        ∀ (k : Installed) (c : CondCtx) (st : PState) (s s' : View) (i : Option Nat), Looks st s →
          First (fun v : FullSvc => v.cfg.disabled = false) (fun v => Evals (fun t s v s' => ∃ el, TestsAs k t el ∧ Test c el s v s') (.and (condFormulas v.cfg.conds)))
            (l.other.svcs ++ o.svcs) s i s' →
          ∃ st', chooseService c (l.other.svcs.map fun v => k.svc v.cfg) (o.svcs.map fun v => k.svc v.cfg) st = .inl (st', i.elim (.error .serviceUnavailable) .ok) ∧ Looks st' s' := by
  obtain ⟨t, h1, h2⟩ := full_config h hp
  refine ⟨t, h1, h2, fun l _ hw k c st s s' i hl hf => ?_⟩
  rw [testsAs_eq] at hf
  exact routed_choose hf hw hl

/-- What decides about the choice is the same for services that are the same but for their representation. -/
theorem first_same {k : Installed} {c : CondCtx} {xs ys : List FullSvc} (h : Each SameSvc xs ys) {s s' : View} {i : Option Nat}
    (hf : First (fun v : FullSvc => v.cfg.disabled = false) (fun v => Evals (fun t => Test c (k.test t)) (.and (condFormulas v.cfg.conds))) ys s i s') :
    First (fun v : FullSvc => v.cfg.disabled = false) (fun v => Evals (fun t => Test c (k.test t)) (.and (condFormulas v.cfg.conds))) xs s i s' := by
  induction hf generalizing xs with
  | none => cases h; exact .none
  | disabled hd _ ih =>
    cases h with
    | cons h1 h2 => exact .disabled (by rw [h1.disabled]; exact hd) (ih h2)
  | pass hd he hv _ ih =>
    cases h with
    | cons h1 h2 => exact .pass (by rw [h1.disabled]; exact hd) (by rw [h1.conds]; exact he) hv (ih h2)
  | take hd he =>
    cases h with
    | cons h1 h2 => exact .take (by rw [h1.disabled]; exact hd) (by rw [h1.conds]; exact he)

theorem each_join_append {α : Type} {R : α → α → Prop} {a b c d : List α} (h : Each R a b) (h2 : Each R c d) : Each R (a ++ c) (b ++ d) := by
  induction h with
  | nil => exact h2
  | cons h1 _ ih => exact .cons h1 ih

theorem each_at {α β : Type} {R : α → β → Prop} {l : List α} {l' : List β} (h : Each R l l') : ∀ (j : Nat) (b : β), l'[j]? = some b → ∃ a, l[j]? = some a ∧ R a b := by
  induction h with
  | nil => intro j b hb; simp at hb
  | @cons a b l l' h1 _ ih =>
    intro j y hy
    cases j with
    | zero => exact ⟨a, rfl, by simpa using (by simpa using hy : b = y) ▸ h1⟩
    | succ j => exact ih j y (by simpa using hy)

theorem each_mem' {α β : Type} {R : α → β → Prop} {l : List α} {l' : List β} (h : Each R l l') : ∀ a ∈ l, ∃ b ∈ l', R a b := by
  induction h with
  | nil => intro b hb; cases hb
  | cons h1 _ ih =>
    intro x hx
    rcases List.mem_cons.mp hx with rfl | hx
    · exact ⟨_, by simp, h1⟩
    · obtain ⟨b, hb, hr⟩ := ih x hx
      exact ⟨b, by simp [hb], hr⟩

/-- A documented configuration works as it is documented: it is accepted, and then a request that comes in at a listener goes to the first service, of those that the text has in that
listener and then of those that it has at the top level, that is not disabled and whose conditions, as they are written, are all true; if there is none, the reply is 503.  What the text
says is here given by the specification alone (`o`); the program's own representation (`o'`) is not mentioned but for its services.
Missing: as above. -/
theorem C101_documented_partial (e : TopEnv) (t : List Tok) (g : Glob) (o : FullObjs) (h : FullConfigures e t g o) (hp : PlainText t) :
    ∃ o' N, (∀ n, N ≤ n → parseFull e n t = some (g, o', 0)) ∧
      ∀ (j : Nat) (l : Lst LOther), o.lsts[j]? = some l → (∀ v ∈ l.other.svcs ++ o.svcs, NoEmptyOrs (condFormulas v.cfg.conds)) →
        ∃ l', o'.lsts[j]? = some l' ∧ l'.name = l.name ∧ l'.addr = l.addr ∧ l'.st = l.st ∧
          ∀ (k : Installed) (c : CondCtx) (st : PState) (s s' : View) (i : Option Nat), Looks st s →
            First (fun v : FullSvc => v.cfg.disabled = false) (fun v => Evals (fun t s v s' => ∃ el, TestsAs k t el ∧ Test c el s v s') (.and (condFormulas v.cfg.conds)))
              (l.other.svcs ++ o.svcs) s i s' →
            ∃ st', chooseService c (l'.other.svcs.map fun v => k.svc v.cfg) (o'.svcs.map fun v => k.svc v.cfg) st = .inl (st', i.elim (.error .serviceUnavailable) .ok) ∧ Looks st' s' := by
  obtain ⟨o', N, h1, h2⟩ := full_accept h hp
  refine ⟨o', N, h2, fun j l hj hw => ?_⟩
  obtain ⟨l', h3, h4⟩ := each_at h1.lsts j l hj
  have hs := each_join_append h4.other.svcs h1.svcs
  refine ⟨l', h3, h4.name, h4.addr, h4.st, fun k c st s s' i hl hf => ?_⟩
  rw [testsAs_eq] at hf
  refine routed_choose (first_same hs hf) (fun v hv => ?_) hl
  obtain ⟨w, hw1, hw2⟩ := each_mem' hs v hv
  rw [hw2.conds]
  exact hw w hw1

/-- The rules of a listener and of a service, as configured, are those that are run, one list after the other. -/
theorem rules_run_both (k : Installed) (x : CondCtx) {as bs : List CRule} (hw : StmtsOrs (rulesStmts as ++ rulesStmts bs)) {st : PState} {s s' : View} {ok : Bool} (hl : Looks st s)
    (h : Spec.Runs (Evals fun t => Test x (k.test t)) (fun p => Act (k.prim p)) (rulesStmts as ++ rulesStmts bs) s ok s') :
    ∃ st' r, rewriteRequest x (as.map k.rule) (bs.map k.rule) st = (st', .val r) ∧ (ok = true ↔ r = 0) ∧ Looks st' s' ∧ st'.req.request = s'.req.request := by
  rw [← rulesStmts_append] at hw h
  obtain ⟨st', r, h1, h2⟩ := rules_run k x hw hl h
  refine ⟨st', r, ?_, h2⟩
  rw [← h1, List.map_append]
  simp only [rewriteRequest, rewriteApply, if_true, rewriteApply_eq, List.map_append, rwOps_append]
  rcases rwOps x ((as.map k.rule).map .rule) st with ⟨st1, v | _ | _⟩ <;> rfl

/-- A documented configuration modifies requests as it is documented: it is accepted, and then a request that comes in at a listener and goes to a service is modified by the statements
that the text has in that listener, then by those that it has in that service, each list in the order of the text; of each Rewrite section the branch whose conditions are all true first.
The request line sent is the resulting one; if a modification fails, so does the request.
Missing: as above; the rules for responses. -/
theorem C101_rewritten_partial (e : TopEnv) (t : List Tok) (g : Glob) (o : FullObjs) (h : FullConfigures e t g o) (hp : PlainText t) :
    ∃ o' N, (∀ n, N ≤ n → parseFull e n t = some (g, o', 0)) ∧
      ∀ (j i : Nat) (l : Lst LOther) (v : FullSvc), o.lsts[j]? = some l → (l.other.svcs ++ o.svcs)[i]? = some v → StmtsOrs (rulesStmts l.other.req ++ rulesStmts v.cfg.req) →
        ∃ l' v', o'.lsts[j]? = some l' ∧ (l'.other.svcs ++ o'.svcs)[i]? = some v' ∧
          ∀ (k : Installed) (c : CondCtx) (st : PState) (s s' : View) (ok : Bool), Looks st s →
            Spec.Runs (Evals fun t s v s' => ∃ el, TestsAs k t el ∧ Test c el s v s') (fun p s ok s' => ∃ q, ActsAs k p q ∧ Act q s ok s')
              (rulesStmts l.other.req ++ rulesStmts v.cfg.req) s ok s' →
            ∃ st' r, rewriteRequest c (l'.other.req.map k.rule) (v'.cfg.req.map k.rule) st = (st', .val r) ∧ (ok = true ↔ r = 0) ∧ Looks st' s' ∧ st'.req.request = s'.req.request := by
  obtain ⟨o', N, h1, h2⟩ := full_accept h hp
  refine ⟨o', N, h2, fun j i l v hj hi hw => ?_⟩
  obtain ⟨l', h3, h4⟩ := each_at h1.lsts j l hj
  obtain ⟨v', h5, h6⟩ := each_at (each_join_append h4.other.svcs h1.svcs) i v hi
  refine ⟨l', v', h3, h5, fun k c st s s' ok hl hr => ?_⟩
  rw [testsAs_eq, actsAs_eq] at hr
  refine rules_run_both k c ?_ hl ?_
  · rw [stmtsOrs_append] at hw ⊢
    exact ⟨h4.other.req.ors.mpr hw.1, h6.req.ors.mpr hw.2⟩
  · rw [runs_append] at hr ⊢
    rcases hr with ⟨r1, r2⟩ | ⟨s1, r1, r2⟩
    · exact .inl ⟨r1, (h4.other.req.runs _ _ _ _ _ _).mpr r2⟩
    · exact .inr ⟨s1, (h4.other.req.runs _ _ _ _ _ _).mpr r1, (h6.req.runs _ _ _ _ _ _).mpr r2⟩

/-- An access list, a listener with two services, the first of which has a negated condition, rules and a backend, and a service at the top level -/
def fullText : List Tok := cfgToks b!"ACL \"lan\"\n  \"10.0.0.0/8\"\nEnd\nTrustedIP \"lan\"\nListenHTTP \"main\"\n  Address 10.0.0.1\n  Port 80\n  Service \"a\"\n    Not ACL \"lan\"\n    Host \"a.b\"\n    SetHeader \"X: 1\"\n    Rewrite\n      Path \"/c\"\n      SetPath \"/d\"\n    End\n    Backend\n      Address \"/tmp/s\"\n    End\n  End\n  Service\n    URL \"^/x\"\n    Redirect \"http://x\"\n  End\nEnd\nService \"g\"\n  Path \"^/y\"\n  Error 404\nEnd\n"

mutual
/-- A condition as a list, for comparisons: operators with the number of their operands, then the operands -/
def condFlat : CCond → List ((BoolOp × Nat) ⊕ CTest)
  | .test t => [.inr t]
  | .bool op cs => .inl (op, cs.length) :: condsFlat cs
def condsFlat : List CCond → List ((BoolOp × Nat) ⊕ CTest)
  | [] => []
  | c :: cs => condFlat c ++ condsFlat cs
end

mutual
private def orsOk : CCond → Bool
  | .test _ => true
  | .bool .not [] => false
  | .bool .not (c :: _) => orsOk c
  | .bool .and cs => orsOkAll cs
  | .bool .or cs => !cs.isEmpty && orsOkAll cs
private def orsOkAll : List CCond → Bool
  | [] => true
  | c :: cs => orsOk c && orsOkAll cs
end

mutual
private theorem orsOk_spec : ∀ {c : CCond}, orsOk c = true → NoEmptyOr (condFormula c)
  | .test _, _ => by simp [condFormula, NoEmptyOr]
  | .bool .not [], h => by simp [orsOk] at h
  | .bool .not (c :: cs), h => by
    simp only [orsOk] at h
    simpa only [condFormula, NoEmptyOr] using orsOk_spec h
  | .bool .and cs, h => by
    simp only [orsOk] at h
    simpa only [condFormula, NoEmptyOr] using orsOkAll_spec h
  | .bool .or [], h => by simp [orsOk] at h
  | .bool .or (c :: cs), h => by
    simp only [orsOk, Bool.and_eq_true] at h
    have := orsOkAll_spec h.2
    simp only [condFormula, NoEmptyOr]
    exact ⟨by simp [condFormulas], this⟩
private theorem orsOkAll_spec : ∀ {cs : List CCond}, orsOkAll cs = true → NoEmptyOrs (condFormulas cs)
  | [], _ => by simp [condFormulas, NoEmptyOrs]
  | c :: cs, h => by
    simp only [orsOkAll, Bool.and_eq_true] at h
    simp only [condFormulas, NoEmptyOrs]
    exact ⟨orsOk_spec h.1, orsOkAll_spec h.2⟩
end

theorem full_plain : PlainText fullText := cfg_plain (by decide +kernel) (by decide +kernel)

/-- The names and conditions of services -/
private def svcView (l : List FullSvc) : List (Option Bytes × List ((BoolOp × Nat) ⊕ CTest)) := l.map fun v => (v.name, condsFlat v.cfg.conds)

def seen (f : FullObjs → Bool) (ts : List Tok) : Bool :=
  match parseFull topEnv0 100 ts with
  | some (_, o, 0) => f o
  | _ => false

theorem seen_iff {f : FullObjs → Bool} {ts : List Tok} (h : seen f ts = true) : ∃ g o, parseFull topEnv0 100 ts = some (g, o, 0) ∧ f o = true := by
  unfold seen at h
  split at h
  · exact ⟨_, _, ‹_›, h⟩
  · simp at h

private theorem full_seen : seen (fun o => o.acls == [(b!"lan", [b!"10.0.0.0/8"])] && o.trusted == some (.acl b!"lan") &&
    o.lsts.length == 1 && o.svcs.length == 1 && o.lsts.map (fun l => (l.name, svcView l.other.svcs)) == [(some b!"main",
      [(some b!"a", [.inl (.not, 1), .inr (.acl b!"lan"), .inr (.host (hostPat .exact true b!"a.b"))]), (none, [.inr (.url ⟨.posix, false, false, b!"^/x"⟩)])])] &&
    svcView o.svcs == [(some b!"g", [.inr (.path ⟨.posix, false, false, b!"^/y"⟩)])] &&
    o.lsts.all fun l => (l.other.svcs ++ o.svcs).all fun v => orsOkAll v.cfg.conds) fullText = true := by decide +kernel

/-- The hypotheses of the theorems are met. -/
example : ∃ g o t, FullConfigures topEnv0 t g o ∧ o.acls = [(b!"lan", [b!"10.0.0.0/8"])] ∧ o.lsts.length = 1 ∧ o.svcs.length = 1 ∧
    ∀ l ∈ o.lsts, ∀ v ∈ l.other.svcs ++ o.svcs, NoEmptyOrs (condFormulas v.cfg.conds) := by
  obtain ⟨g, o, h1, h2⟩ := seen_iff full_seen
  obtain ⟨t, _, h3⟩ := C101_sound_partial _ _ _ _ _ h1 full_plain
  simp only [Bool.and_eq_true, beq_iff_eq, List.all_eq_true] at h2
  obtain ⟨⟨⟨⟨⟨⟨h4, _⟩, h5⟩, h6⟩, _⟩, _⟩, h7⟩ := h2
  refine ⟨g, o, t, h3, h4, h5, h6, fun l hl v hv => orsOkAll_spec (h7 l hl v hv)⟩

set_option maxRecDepth 100000 in
/-- The configuration above is one that is documented. -/
example : ∃ t g o, FullConfigures topEnv0 t g o ∧ PlainText t ∧ o.acls = [(b!"lan", [b!"10.0.0.0/8"])] ∧ o.lsts.length = 1 ∧ o.svcs.length = 1 := by
  obtain ⟨g, o, h1, h2⟩ := seen_iff full_seen
  obtain ⟨t, ht, h3⟩ := C101_sound_partial _ _ _ _ _ h1 full_plain
  simp only [Bool.and_eq_true, beq_iff_eq] at h2
  obtain ⟨⟨⟨⟨⟨⟨h4, _⟩, h5⟩, h6⟩, _⟩, _⟩, h7⟩ := h2
  refine ⟨t, g, o, h3, ?_, h4, h5, h6⟩
  rcases ht with rfl | rfl
  · exact full_plain
  · exact cfg_plain (by decide +kernel) (by decide +kernel)

/-- A service with one condition, for a URL -/
private def isUrl (t : Bytes) (v : FullSvc) : Bool :=
  !v.cfg.disabled && match v.cfg.conds with
    | [.test (.url p)] => p.text == t
    | _ => false

private theorem isUrl_spec {t : Bytes} {v : FullSvc} (h : isUrl t v = true) : v.cfg.disabled = false ∧ ∃ p, v.cfg.conds = [.test (.url p)] ∧ p.text = t := by
  simp only [isUrl, Bool.and_eq_true, Bool.not_eq_true'] at h
  refine ⟨h.1, ?_⟩
  have h := h.2
  split at h
  · exact ⟨_, ‹_›, by simpa using h⟩
  · simp at h

/-- A listener with a service for /x; at the top level, one for /a?q -/
def routeText : List Tok := cfgToks b!"Service\n URL \"/a?q\"\nEnd\nListenHTTP\n Address 10.0.0.1\n Port 80\n Service\n  URL \"/x\"\n End\nEnd\n"

private theorem route_seen : seen (fun o => match o.lsts, o.svcs with
  | [l], [w] => (match l.other.svcs with | [v] => isUrl b!"/x" v && isUrl b!"/a?q" w | _ => false)
  | _, _ => false) routeText = true := by decide +kernel

/-- The request for /a?q goes to the second one. -/
example (c : CondCtx) : ∃ g o l, parseFull topEnv0 100 routeText = some (g, o, 0) ∧ l ∈ o.lsts ∧
    (∀ v ∈ l.other.svcs ++ o.svcs, NoEmptyOrs (condFormulas v.cfg.conds)) ∧ ∃ (k : Installed) (s' : View),
      First (fun v : FullSvc => v.cfg.disabled = false) (fun v => Evals (fun t s v s' => ∃ el, TestsAs k t el ∧ Test c el s v s') (.and (condFormulas v.cfg.conds)))
        (l.other.svcs ++ o.svcs) exView (some 1) s' := by
  obtain ⟨g, o, h1, h2⟩ := seen_iff route_seen
  split at h2
  rotate_left
  · simp at h2
  rename_i l w hl hw
  split at h2
  rotate_left
  · simp at h2
  rename_i v hv
  simp only [Bool.and_eq_true] at h2
  obtain ⟨d1, p, hp, p1⟩ := isUrl_spec h2.1
  obtain ⟨d2, q, hq, q1⟩ := isUrl_spec h2.2
  let k : Installed := ⟨fun p => exactRe p.text, fun _ => 0, fun _ => 0, fun _ => 0, fun _ => 0⟩
  refine ⟨g, o, l, h1, by simp [hl], ?_, k, ?_⟩
  · intro u hu
    simp only [hv, hw, List.singleton_append, List.mem_cons, List.not_mem_nil, or_false] at hu
    rcases hu with rfl | rfl
    · simp [hp, condFormulas, condFormula, NoEmptyOrs, NoEmptyOr]
    · simp [hq, condFormulas, condFormula, NoEmptyOrs, NoEmptyOr]
  · rw [hv, hw]
    let s1 := exView.push (exactRe b!"/x" b!"/a?q") b!"/a?q"
    let s2 := s1.push (exactRe b!"/a?q" b!"/a?q") b!"/a?q"
    have t1 : Test c (.url (exactRe b!"/x")) exView (some false) s1 := Test.url
    have t2 : Test c (.url (exactRe b!"/a?q")) s1 (some true) s2 := Test.url
    have e1 : TestsAs k (.url p) (.url (exactRe b!"/x")) := p1 ▸ TestsAs.url
    have e2 : TestsAs k (.url q) (.url (exactRe b!"/a?q")) := q1 ▸ TestsAs.url
    refine ⟨s2, .pass (i := some 0) (v := some false) (s' := s1) d1 ?_ (by simp) (.take d2 ?_)⟩
    · rw [hp]
      exact .allStop (.test ⟨_, e1, t1⟩) (by simp)
    · rw [hq]
      exact .allMore (.test ⟨_, e2, t2⟩) .allDone

/-- A listener that deletes a header; its service does so for one URL, and otherwise deletes another one -/
def rwText : List Tok := cfgToks b!"ListenHTTP\n Address 10.0.0.1\n Port 80\n DeleteHeader \"X-A: 1\"\n Service\n  Rewrite\n   URL \"/x\"\n   DeleteHeader \"X-B: 1\"\n  Else\n   DeleteHeader \"X-C: 1\"\n  End\n End\nEnd\n"

private def isDel (t : Bytes) : List CRop → Bool
  | [.prim (.hdrDel p)] => p.text == t
  | _ => false

private theorem isDel_spec {t : Bytes} {l : List CRop} (h : isDel t l = true) : ∃ p, l = [.prim (.hdrDel p)] ∧ p.text = t := by
  unfold isDel at h
  split at h
  · exact ⟨_, rfl, by simpa using h⟩
  · simp at h

private theorem rw_seen : seen (fun o => match o.lsts, o.svcs with
  | [l], [] => (match l.other.req, l.other.svcs with
    | [.mk [] a .null], [v] => (match v.cfg.req with
      | [.mk [.test (.url p)] b (.mk [] c .null)] => isDel b!"X-A: 1" a && p.text == b!"/x" && isDel b!"X-B: 1" b && isDel b!"X-C: 1" c
      | _ => false)
    | _, _ => false)
  | _, _ => false) rwText = true := by decide +kernel

theorem rw_plain : PlainText rwText := cfg_plain (by decide +kernel) (by decide +kernel)

set_option maxRecDepth 100000 in
/-- Of a request for /a?q, the first and the last are deleted. -/
example (c : CondCtx) : ∃ t g o l v, FullConfigures topEnv0 t g o ∧ PlainText t ∧ o.lsts[0]? = some l ∧ (l.other.svcs ++ o.svcs)[0]? = some v ∧
    StmtsOrs (rulesStmts l.other.req ++ rulesStmts v.cfg.req) ∧ ∃ (k : Installed) (s' : View),
      Spec.Runs (Evals fun t s v s' => ∃ el, TestsAs k t el ∧ Test c el s v s') (fun p s ok s' => ∃ q, ActsAs k p q ∧ Act q s ok s')
        (rulesStmts l.other.req ++ rulesStmts v.cfg.req) { exView with hs := [b!"X-A: 1", b!"X-B: 1", b!"X-C: 1"] } true s' ∧ s'.hs = [b!"X-B: 1"] := by
  obtain ⟨g, o, h1, h2⟩ := seen_iff rw_seen
  obtain ⟨t, ht, h3⟩ := C101_sound_partial _ _ _ _ _ h1 rw_plain
  have hpt : PlainText t := by
    rcases ht with rfl | rfl
    · exact rw_plain
    · exact cfg_plain (by decide +kernel) (by decide +kernel)
  split at h2
  rotate_left
  · simp at h2
  rename_i l hl hs
  split at h2
  rotate_left
  · simp at h2
  rename_i a v hr hv
  split at h2
  rotate_left
  · simp at h2
  rename_i p b d hq
  simp only [Bool.and_eq_true] at h2
  obtain ⟨⟨⟨ha, hp⟩, hb⟩, hd⟩ := h2
  obtain ⟨pa, rfl, ea⟩ := isDel_spec ha
  obtain ⟨pb, rfl, eb⟩ := isDel_spec hb
  obtain ⟨pd, rfl, ed⟩ := isDel_spec hd
  have hp : p.text = b!"/x" := by simpa using hp
  let k : Installed := ⟨fun p => exactRe p.text, fun _ => 0, fun _ => 0, fun _ => 0, fun _ => 0⟩
  refine ⟨t, g, o, l, v, h3, hpt, by rw [hl]; rfl, by rw [hv]; rfl, ?_, k, ?_⟩
  · rw [hr, hq]
    simp [rulesStmts, ruleBranches, condFormulas, condFormula, ropStmts, ropStmt, StmtsOrs, StmtOrs, BranchOrs, NoEmptyOr, NoEmptyOrs]
  · let s0 : View := { exView with hs := [b!"X-A: 1", b!"X-B: 1", b!"X-C: 1"] }
    let s1 : View := { s0 with hs := s0.hs.filter fun t => !(exactRe b!"X-A: 1" t).ok }
    let s2 : View := s1.push (exactRe b!"/x" b!"/a?q") b!"/a?q"
    let s3 : View := { s2 with hs := s2.hs.filter fun t => !(exactRe b!"X-C: 1" t).ok }
    have a1 : ∃ q, ActsAs k (.hdrDel pa) q ∧ Act q s0 true s1 := ⟨_, .del, by rw [show k.re pa = exactRe b!"X-A: 1" from by rw [← ea]]; exact Act.hdrDel⟩
    have a3 : ∃ q, ActsAs k (.hdrDel pd) q ∧ Act q s2 true s3 := ⟨_, .del, by rw [show k.re pd = exactRe b!"X-C: 1" from by rw [← ed]]; exact Act.hdrDel⟩
    have t1 : Test c (.url (exactRe b!"/x")) s1 (some false) s2 := Test.url
    have e1 : TestsAs k (.url p) (.url (exactRe b!"/x")) := hp ▸ TestsAs.url
    refine ⟨s3, ?_, by decide +kernel⟩
    rw [hr, hq]
    refine .branch .allDone (.act a1 .done) (.next (v := some false) (s' := s2) (.allStop (.test ⟨_, e1, t1⟩) (by simp)) (by simp) ?_)
    exact .branch .allDone (.act a3 .done) .done

/-! ### Where the documentation says something else -/

/-- IgnoreCase in a service of one listener applies to the services of listeners after it, although neither they nor the listener nor the configuration have it. -/
theorem C101_ignore_case_fails :
    seen (fun o => o.lsts.map (fun l => svcView l.other.svcs) == [[(none, [])], [(none, [.inr (.url ⟨.posix, true, false, b!"/a"⟩)])]])
      (cfgToks b!"ListenHTTP\n Address 10.0.0.1\n Port 80\n Service\n  IgnoreCase yes\n End\nEnd\nListenHTTP\n Address 10.0.0.1\n Port 81\n Service\n  URL \"/a\"\n End\nEnd\n") = true ∧
    seen (fun o => o.lsts.map (fun l => svcView l.other.svcs) == [[(none, [.inr (.url ⟨.posix, false, false, b!"/a"⟩)])], [(none, [])]])
      (cfgToks b!"ListenHTTP\n Address 10.0.0.1\n Port 81\n Service\n  URL \"/a\"\n End\nEnd\nListenHTTP\n Address 10.0.0.1\n Port 80\n Service\n  IgnoreCase yes\n End\nEnd\n") = true := by decide +kernel

/-- An access list that is defined after the service that names it is not found: the configuration is refused. -/
theorem C101_acl_order_fails :
    (parseFull topEnv0 100 (cfgToks b!"Service\n ACL \"lan\"\nEnd\nACL \"lan\"\n \"10.0.0.0/8\"\nEnd\n")).isNone = true ∧
    seen (fun o => svcView o.svcs == [(none, [.inr (.acl b!"lan")])]) (cfgToks b!"ACL \"lan\"\n \"10.0.0.0/8\"\nEnd\nService\n ACL \"lan\"\nEnd\n") = true := by decide +kernel

/-- ClientCert is refused in services that get requests without encryption, but not in their rules, where it can not be true. -/
theorem C101_rule_cert_fails :
    (parseFull topEnv0 100 (cfgToks b!"Service\n ClientCert \"/etc/c.pem\"\nEnd\n")).isNone = true ∧
    seen (fun o => o.svcs.length == 1) (cfgToks b!"Service\n Rewrite\n  ClientCert \"/etc/c.pem\"\n  SetPath \"/d\"\n End\nEnd\n") = true := by decide +kernel

end Pound.Props
