import Verif.Proof.FullCfg

namespace Pound

open Spec

theorem Response_left {a b : List Tok} (h : Response a) : Response (a ++ b) := by
  obtain ⟨pre, n, m, post, rfl, h1, h2⟩ := h
  exact ⟨pre, n, m, post ++ b, by simp, h1, h2⟩

theorem plain_left {a r : List Tok} (h : PlainText (a ++ r)) : PlainText a :=
  ⟨fun x => h.1 (NotNot_left x), fun k x => h.2.1 k (HostFile_left x), fun x => h.2.2 (Response_left x)⟩

theorem plain_tail {a : Tok} {r : List Tok} (h : PlainText (a :: r)) : PlainText r := PlainText.right (a := [a]) h

/-! ### What lists have in common -/

theorem each_append {α β : Type} {R : α → β → Prop} {l : List α} {l' : List β} (h : Each R l l') {x : α} {y : β} (hx : R x y) : Each R (l ++ [x]) (l' ++ [y]) := by
  induction h with
  | nil => exact .cons hx .nil
  | cons h1 _ ih => exact .cons h1 ih

theorem each_names {α : Type} {R : α → α → Prop} {f : α → Option Bytes} (hf : ∀ x y, R x y → f x = f y) {l l' : List α} (h : Each R l l') : l.filterMap f = l'.filterMap f := by
  induction h with
  | nil => rfl
  | cons h1 _ ih => simp only [List.filterMap_cons, hf _ _ h1, ih]

theorem each_certs {l l' : List FullSvc} (h : Each SameSvc l l') : askedCerts l = askedCerts l' := by
  induction h with
  | nil => rfl
  | @cons a b l l' h1 _ ih =>
    have e1 : askedCerts (a :: l) = askedCerts [a] ++ askedCerts l := by simp [askedCerts]
    have e2 : askedCerts (b :: l') = askedCerts [b] ++ askedCerts l' := by simp [askedCerts]
    rw [e1, e2, h1.certs, ih]

/-! ### Services -/

mutual
theorem tests_of_formula : ∀ {a b : CCond}, OneNot a → OneNot b → condFormula a = condFormula b → testsIn a = testsIn b
  | .test s, .test t, _, _, h => by simp only [condFormula, Formula.test.injEq] at h; rw [h]
  | .test s, .bool .not [], _, _, h => by simp [condFormula] at h
  | .test s, .bool .not (_ :: _), _, _, h => by simp [condFormula] at h
  | .test s, .bool .and _, _, _, h => by simp [condFormula] at h
  | .test s, .bool .or _, _, _, h => by simp [condFormula] at h
  | .bool .not [], b, h1, _, _ => by obtain ⟨c, hc⟩ := h1.1 rfl; cases hc
  | .bool .not (c :: cs), b, h1, h2, h => by
    obtain ⟨c', hc⟩ := h1.1 rfl
    cases hc
    cases b with
    | test t => simp [condFormula] at h
    | bool op ds =>
      cases op with
      | and => simp [condFormula] at h
      | or => simp [condFormula] at h
      | not =>
        obtain ⟨d', hd⟩ := h2.1 rfl
        subst hd
        simp only [condFormula, Formula.not.injEq] at h
        simp only [testsIn, testsInAll, List.append_nil]
        exact tests_of_formula h1.2.1 h2.2.1 h
  | .bool .and cs, b, h1, h2, h => by
    cases b with
    | test t => simp [condFormula] at h
    | bool op ds =>
      cases op with
      | not =>
        obtain ⟨d', hd⟩ := h2.1 rfl
        subst hd
        simp [condFormula] at h
      | or => simp [condFormula] at h
      | and =>
        simp only [condFormula, Formula.and.injEq] at h
        simp only [testsIn]
        exact tests_of_formulas h1.2 h2.2 h
  | .bool .or cs, b, h1, h2, h => by
    cases b with
    | test t => simp [condFormula] at h
    | bool op ds =>
      cases op with
      | not =>
        obtain ⟨d', hd⟩ := h2.1 rfl
        subst hd
        simp [condFormula] at h
      | and => simp [condFormula] at h
      | or =>
        simp only [condFormula, Formula.or.injEq] at h
        simp only [testsIn]
        exact tests_of_formulas h1.2 h2.2 h
theorem tests_of_formulas : ∀ {a b : List CCond}, OneNots a → OneNots b → condFormulas a = condFormulas b → testsInAll a = testsInAll b
  | [], [], _, _, _ => rfl
  | [], _ :: _, _, _, h => by simp [condFormulas] at h
  | _ :: _, [], _, _, h => by simp [condFormulas] at h
  | a :: as, b :: bs, h1, h2, h => by
    simp only [condFormulas, List.cons.injEq] at h
    simp only [testsInAll]
    rw [tests_of_formula h1.1 h2.1 h.1, tests_of_formulas h1.2 h2.2 h.2]
end

theorem says_accept {e : CfgEnv} {be : BeEnv} {bd : BeDfl} {algo : Algo} {d d' : Dfl} {names : List Bytes} {t : List Tok} {x : FullSvc}
    (h : SvcSays e be bd algo d names t x d') (hp : PlainText t) : ∃ x' N, SameSvc x' x ∧ x'.cfg.dfl = d' ∧ ∀ n, N ≤ n → ∀ r er,
      parseService e be n names ⟨d, bd, algo⟩ (t ++ r) er = .ok ⟨(x'.cfg, x'.rest), r, er⟩ ∧ svcName (t ++ r) = x'.name := by
  obtain ⟨body, w, cs, ss, b, l, ht, hw, hb, h1, h2, h3, h4, h5, h6, h7⟩ := h.text
  have hpb : PlainToks d.reType body := by
    rcases ht with ⟨rfl, _⟩ | ⟨nm, rfl, _⟩
    · exact PlainText.toks (plain_left hp) _
    · exact PlainText.toks (plain_left (plain_tail hp)) _
  obtain ⟨c, N, k1, k2, k3, k4, k5⟩ := svcText_complete (d := ⟨d, bd, algo⟩) hb hpb hw h6 h7
  have hrun : ∀ n, N ≤ n → ∀ r er, parseService e be n names ⟨d, bd, algo⟩ (t ++ r) er = .ok ⟨(c, x.rest), r, er⟩ ∧ svcName (t ++ r) = x.name := by
    intro n hn r er
    rcases ht with ⟨rfl, hx⟩ | ⟨nm, rfl, hx, hnm⟩
    · refine ⟨by rw [parseService_anon hb]; exact k5 n hn r er, ?_⟩
      rw [hx]
      rcases svcBody_head restLine_head hb with rfl | ⟨q, rfl⟩ | ⟨v, q, rfl⟩ <;> rfl
    · exact ⟨by rw [parseService_named hnm]; exact k5 n hn r er, by rw [hx]; rfl⟩
  have hone : OneNots c.conds := by
    have := (hrun N (Nat.le_refl _) [] 0).1
    rw [List.append_nil] at this
    obtain ⟨a, _, hs⟩ := parseService_says this rfl hp
    obtain ⟨_, _, _, _, _, _, _, _, _, _, h', _⟩ := hs.text
    exact h'
  refine ⟨⟨x.name, c, x.rest⟩, N, ⟨rfl, by rw [k1, h1], ?_, ?_, by rw [k3.1, h4], by rw [k4, h5], rfl⟩, k3.2, hrun⟩
  · simp only [askedCerts, List.flatMap_cons, List.flatMap_nil]
    rw [tests_of_formulas hone h2 (by rw [k1, h1])]
  · exact sameProg_trans k2 (sameProg_symm h3)

theorem svc_accept {e : CfgEnv} {be : BeEnv} {bd : BeDfl} {algo : Algo} {d d' : Dfl} {o q : List FullSvc} {t : List Tok} {x : FullSvc}
    (h : SvcSays e be bd algo d (o.filterMap (·.name)) t x d') (hp : PlainText t) (hq : Each SameSvc q o) : ∃ x' N, SameSvc x' x ∧ ∀ n, N ≤ n → ∀ r er,
      fullSvcParser e be bd algo n ⟨(d, q), t ++ r, er⟩ = .ok ⟨(d', q ++ [x']), r, er⟩ := by
  obtain ⟨x', N, h1, h2, h3⟩ := says_accept h hp
  refine ⟨x', N, h1, fun n hn r er => ?_⟩
  obtain ⟨h4, h5⟩ := h3 n hn r er
  unfold fullSvcParser
  dsimp only
  rw [each_names (f := fun v : FullSvc => v.name) (fun x y hxy => hxy.name) hq, h4]
  dsimp only
  rw [h5, h2]

/-! ### Access lists -/

theorem trust_accept {e : CfgEnv} {t : List Tok} {a : CTest} (h : TrustText e t a) (q : Option CTest) (r : List Tok) (er : Nat) :
    trustParser e ⟨q, t ++ r, er⟩ = .ok ⟨some a, r, er⟩ := by
  unfold trustParser
  cases h with
  | name h => simp [aclRef, h]
  | list h =>
    obtain ⟨u, w, rfl, h1, h2⟩ := h
    simp [aclRef, aclLoop_complete h2 r h1]

theorem acl_accept {e : CfgEnv} {t : List Tok} {l : List Bytes} {name : Bytes} {q : List (Bytes × List Bytes)} (h : AclText e t l) (hn : ∀ x ∈ q, x.1 ≠ name) (r : List Tok) (er : Nat) :
    namedAclParser e ⟨q, .string name :: (t ++ r), er⟩ = .ok ⟨q ++ [(name, l)], r, er⟩ := by
  obtain ⟨u, w, rfl, h1, h2⟩ := h
  unfold namedAclParser
  dsimp only [List.cons_append]
  rw [if_neg]
  · simp [aclLoop_complete h2 r h1]
  · intro hany
    obtain ⟨x, hx, hx2⟩ := List.any_eq_true.mp hany
    exact hn x hx (by simpa using hx2)

/-! ### Sections -/

/-- Every statement is taken, from every state that is like the one it is documented for -/
def StmtAcc {σ : Type} (R : σ → σ → Prop) (find : Nat → Bytes → Option (LParser σ)) (stmt : List Tok → σ → σ → Prop) : Prop :=
  ∀ t s s' q, stmt t s s' → PlainText t → R q s → ∃ w a q' N, t = .ident w :: a ∧ R q' s' ∧ ∀ n, N ≤ n → ∃ p, find n w = some p ∧
    ((∀ r e, p ⟨q, a ++ r, e⟩ = .nonl ⟨q', r, e⟩) ∨ ∃ a', a = a' ++ [.nl] ∧ ∀ r e, p ⟨q, a' ++ .nl :: r, e⟩ = .ok ⟨q', .nl :: r, e⟩)

theorem acc_sect {σ : Type} {R : σ → σ → Prop} {find : Nat → Bytes → Option (LParser σ)} {stmt : List Tok → σ → σ → Prop} (h : StmtAcc R find stmt)
    (hstop : ∀ n w, ciEq b!"End" w = true → find n w = some endParser) {t : List Tok} {s s' : σ} (ht : Sect stmt t s s') : PlainText t → ∀ q, R q s →
    ∃ q' N, R q' s' ∧ ∀ n, N ≤ n → ∀ m, t.length ≤ m → ∀ r e, cfgL (find n) false true m ⟨q, t ++ r, e⟩ = .ok ⟨q', r, e⟩ := by
  induction ht with
  | @stop w s hw =>
    intro _ q hq
    refine ⟨q, 0, hq, fun n _ m hm r e => ?_⟩
    cases m with
    | zero => simp at hm
    | succ m =>
      rw [cfgL]
      dsimp only [List.singleton_append]
      rw [hstop n w hw]
      rfl
  | blank _ ih =>
    intro hp q hq
    obtain ⟨q', N, h1, h2⟩ := ih (plain_tail hp) q hq
    refine ⟨q', N, h1, fun n hn m hm r e => ?_⟩
    cases m with
    | zero => simp at hm
    | succ m =>
      rw [cfgL]
      exact h2 n hn m (by simpa using hm) r e
  | @stmt a t s s1 s2 ha _ ih =>
    intro hp q hq
    obtain ⟨w, b, q1, N1, rfl, h1, h2⟩ := h _ _ _ _ ha (plain_left hp) hq
    obtain ⟨q2, N2, h3, h4⟩ := ih (PlainText.right hp) q1 h1
    refine ⟨q2, N1 + N2, h3, fun n hn m hm r e => ?_⟩
    obtain ⟨p, hf, hx⟩ := h2 n (by omega)
    simp only [List.length_append, List.length_cons] at hm
    cases m with
    | zero => omega
    | succ m =>
      rw [cfgL]
      dsimp only [List.cons_append]
      rw [hf]
      dsimp only
      rw [List.append_assoc]
      rcases hx with hx | ⟨a', rfl, hx⟩
      · rw [hx]
        exact h4 n (by omega) m (by omega) r e
      · rw [List.append_assoc, List.singleton_append, hx]
        exact h4 n (by omega) m (by omega) r e

theorem acc_both {σ ω : Type} {R : ω → ω → Prop} {f : Bytes → Option (LParser σ)} {g : Nat → Bytes → Option (LParser ω)} {s1 : List Tok → σ → σ → Prop} {s2 : List Tok → ω → ω → Prop}
    (hf : ∀ N, StmtSpec N f s1) (hg : StmtAcc R g s2) (hd : ∀ n w p, g n w = some p → f w = none) :
    StmtAcc (fun x y : σ × ω => x.1 = y.1 ∧ R x.2 y.2) (fun n => bothFind f (g n)) (BothStmt s1 s2) := by
  rintro t ⟨s, o⟩ ⟨s', o'⟩ ⟨qs, q⟩ hst hp ⟨rfl, hq⟩
  dsimp only at hq
  rcases hst with ⟨h1, h2⟩ | ⟨h1, h2⟩
  · dsimp only at h1 h2
    subst h2
    obtain ⟨w, a, p, rfl, h3, h4⟩ := (hf t.length).complete h1 (Nat.le_refl _)
    refine ⟨w, a, (s', q), 0, rfl, ⟨rfl, hq⟩, fun n _ => ⟨onFst p, by unfold bothFind; dsimp only; rw [h3], ?_⟩⟩
    rcases h4 with h4 | ⟨a', rfl, h4⟩
    · exact .inl fun r e => by unfold onFst; dsimp only; rw [h4]
    · exact .inr ⟨a', rfl, fun r e => by unfold onFst; dsimp only; rw [h4]⟩
  · dsimp only at h1 h2
    subst h2
    obtain ⟨w, a, q', N, rfl, h3, h4⟩ := hg _ _ _ _ h1 hp hq
    refine ⟨w, a, (s', q'), N, rfl, ⟨rfl, h3⟩, fun n hn => ?_⟩
    obtain ⟨p, h5, h6⟩ := h4 n hn
    refine ⟨onSnd p, by unfold bothFind; dsimp only; rw [hd n w p h5, h5]; rfl, ?_⟩
    rcases h6 with h6 | ⟨a', rfl, h6⟩
    · exact .inl fun r e => by unfold onSnd; dsimp only; rw [h6]
    · exact .inr ⟨a', rfl, fun r e => by unfold onSnd; dsimp only; rw [h6]⟩

/-! ### Listeners -/

theorem kw_ne {a b w : Bytes} (h : ciEq a w = true) (hab : ciEq b a = false) : ciEq b w = false := by
  cases hb : ciEq b w with
  | false => rfl
  | true => rw [ciEq_trans hb (ciEq_symm h)] at hab; cases hab

theorem lst_acc (e : CfgEnv) (be : BeEnv) (bd : BeDfl) (algo : Algo) : StmtAcc SameOther (lstOther e be bd algo) (LstStmt e be bd algo) := by
  intro t o o' q hst hp hq
  cases hst with
  | @service w t o x d' hw hs =>
    have hre := hq.re
    obtain ⟨x', N, h1, h2⟩ := svc_accept hs (plain_left (plain_tail hp)) hq.svcs
    refine ⟨w, t ++ [.nl], { q with re := d', svcs := q.svcs ++ [x'] }, N, rfl, ⟨rfl, each_append hq.svcs h1, hq.trusted, hq.req, hq.resp⟩, fun n hn => ?_⟩
    refine ⟨_, by unfold lstOther orFind kwStmt; rw [if_neg (by simp [kw_ne hw (b := b!"TrustedIP") (by decide)]), if_pos hw], .inr ⟨t, rfl, fun r er => ?_⟩⟩
    unfold onLens
    dsimp only
    rw [hre, h2 n hn]
  | @trusted w t o a hw hs =>
    refine ⟨w, t ++ [.nl], { q with trusted := some a }, 0, rfl, ⟨hq.re, hq.svcs, rfl, hq.req, hq.resp⟩, fun n _ => ?_⟩
    refine ⟨_, by unfold lstOther orFind kwStmt; rw [if_pos hw], .inr ⟨t, rfl, fun r er => ?_⟩⟩
    unfold onLens
    dsimp only
    rw [trust_accept hs]
  | @act t o p req ha hr =>
    obtain ⟨w, a, k, rfl, hk, hop⟩ := act_complete ha
    refine ⟨w, a ++ [.nl], { q with req := addUncond (.prim p) q.req }, 0, rfl, ⟨hq.re, hq.svcs, hq.trusted, ?_, hq.resp⟩, fun n _ => ?_⟩
    · exact sameProg_trans (addUncond_prog p q.req) (sameProg_trans (sameProg_append hq.req _) (sameProg_symm hr))
    · have h1 : ciEq b!"TrustedIP" w = false := kw_not hk (by decide)
      have h2 : ciEq b!"Service" w = false := kw_not hk (by decide)
      have h3 : ciEq b!"Rewrite" w = false := kw_not hk (by decide)
      refine ⟨_, by simp only [lstOther, orFind, kwStmt, h1, h2, h3, lstOp, hk, Bool.false_eq_true, if_false]; rfl, .inr ⟨a, rfl, fun r er => ?_⟩⟩
      dsimp only
      rw [hq.re, hop]
  | @rewrite w a t1 o bs req hw ha hbr hr =>
    obtain ⟨tt, h0, hp0, hra⟩ : ∃ tt, Branches e o.re tt bs ∧ PlainToks o.re.reType tt ∧ ∀ r, rewriteArg (a ++ (t1 ++ r)) = some (false, tt ++ r) := by
      have hpt := plain_tail hp
      rcases ha with rfl | ⟨v, rfl, hv⟩
      · refine ⟨.nl :: t1, branches_blank hbr, ?_, fun r => rfl⟩
        exact PlainText.toks (plain_left (r := [.nl]) (by simpa using hpt)) _
      · have hnr : ciEq v b!"response" = false := by
          cases hz : ciEq v b!"response" with
          | false => rfl
          | true => exact absurd (ciEq_trans (ciEq_symm hz) hv) (by decide)
        exact ⟨t1, hbr, PlainText.toks (plain_left (r := [.nl]) (PlainText.right (a := [.ident v]) hpt)) _, fun r => by simp [rewriteArg, hnr, hv]⟩
    obtain ⟨a', v, R, N1, rfl, hv, hR, h1⟩ := rule_complete h0 hp0
    refine ⟨w, a ++ (t1 ++ [.nl]), { q with req := q.req ++ [R.rule] }, N1, rfl, ⟨hq.re, hq.svcs, hq.trusted, ?_, hq.resp⟩, fun n hn => ?_⟩
    · have : rulesStmts (q.req ++ [R.rule]) = rulesStmts q.req ++ [.cases bs] := by rw [rulesStmts_append, ← hR]; rfl
      rw [this]
      exact sameProg_trans (sameProg_append hq.req _) (sameProg_symm hr)
    · refine ⟨_, by simp only [lstOther, orFind, kwStmt, ci_not hw (b := b!"TrustedIP") (by decide), ci_not hw (b := b!"Service") (by decide), hw, if_true, Bool.false_eq_true, if_false]; rfl,
        .inr ⟨a ++ t1, by simp, fun r er => ?_⟩⟩
      unfold lstRewrite
      dsimp only
      rw [List.append_assoc, hra]
      dsimp only
      rw [hq.re, h1 n hn false]
      rfl

theorem lst_disj {e : CfgEnv} {be : BeEnv} {bd : BeDfl} {algo : Algo} {le : LstEnv} {ld : LstDfl} {tls : Bool} (n : Nat) (w : Bytes) (p : LParser LOther)
    (h : lstOther e be bd algo n w = some p) : lstFind le ld tls w = none := by
  have hk : ∃ kw ∈ [b!"TrustedIP", b!"Service", b!"Rewrite", b!"SetHeader", b!"DeleteHeader", b!"SetURL", b!"SetPath", b!"SetQuery", b!"SetQueryParam"], ciEq kw w = true := by
    rcases orFind_word h with h | h
    · exact ⟨_, by simp, (kwStmt_some h).1⟩
    · rcases orFind_word h with h | h
      · exact ⟨_, by simp, (kwStmt_some h).1⟩
      · rcases orFind_word h with h | h
        · exact ⟨_, by simp, (kwStmt_some h).1⟩
        · unfold lstOp at h
          rw [Option.map_eq_some_iff] at h
          obtain ⟨k, hk, _⟩ := h
          obtain ⟨a, ha, hn⟩ := kwFind_mem hk
          refine ⟨a, ?_, hn⟩
          simp only [opTable, List.mem_cons, List.not_mem_nil, or_false, Prod.mk.injEq] at ha
          rcases ha with ⟨rfl, _⟩ | ⟨rfl, _⟩ | ⟨rfl, _⟩ | ⟨rfl, _⟩ | ⟨rfl, _⟩ | ⟨rfl, _⟩ <;> simp
  obtain ⟨kw, hm, hw⟩ := hk
  simp only [List.mem_cons, List.not_mem_nil, or_false] at hm
  rcases hm with rfl | rfl | rfl | rfl | rfl | rfl | rfl | rfl | rfl
  all_goals
    unfold lstFind
    have : ciEq b!"End" w = false := by rw [args_congr_end hw]; decide
    rw [this]
    simp only [Bool.false_eq_true, if_false]
    rw [kwFind_congr _ hw]
    cases tls <;> rfl

theorem lst_start {e : CfgEnv} {be : BeEnv} {bd : BeDfl} {algo : Algo} {t : List Tok} {o o' : LOther} (h : LstStmt e be bd algo t o o') : ∃ n a, t = .ident n :: a := by
  cases h with
  | act h _ =>
    obtain ⟨w, a, k, rfl, _⟩ := act_complete h
    exact ⟨_, _, rfl⟩
  | _ => exact ⟨_, _, rfl⟩

theorem listen_accept {e : LstEnv} {d : LstDfl} {c : CfgEnv} {be : BeEnv} {bd : BeDfl} {algo : Algo} {init : LOther} {o q : List (Lst LOther)} {t : List Tok} {x : Lst LOther}
    (h : Listens e d (LstStmt c be bd algo) init (fun y => askedCerts y.svcs) (o.filterMap (·.name)) t x) (hp : PlainText t) (hi : Each SameSvc init.svcs init.svcs) (hq : Each SameLst q o) :
    ∃ x' N, SameLst x' x ∧ ∀ n, N ≤ n → ∀ r er,
      listenParser e d (lstOther c be bd algo n) init (fun y => svcsCerts y.svcs) x.tls n ⟨q, t ++ r, er⟩ = .ok ⟨q ++ [x'], r, er⟩ := by
  obtain ⟨body, l, s, h1, h2, h3, h4, h5, h6, h7⟩ := h.settings
  have ha := (lst_iff (d := d)).mpr ⟨h3, h4⟩
  have hf := (certs_iff h4 (body_mode h2)).mpr ⟨h6, h5, h7⟩
  have hpb : PlainText body := by
    rcases h1 with ⟨rfl, _⟩ | ⟨nm, rfl, _⟩
    · exact hp
    · exact plain_tail hp
  have hacc := acc_both (f := lstFind e d x.tls) (fun N => lstFind_spec e d x.tls N) (lst_acc c be bd algo) (fun n w p => lst_disj n w p)
  have hstop : ∀ n w, ciEq b!"End" w = true → bothFind (lstFind e d x.tls) (lstOther c be bd algo n) w = some endParser := by
    intro n w hw
    have := (lstFind_spec e d x.tls 0).stop hw
    unfold bothFind
    rw [this]
    rfl
  obtain ⟨⟨qs, qo⟩, N, ⟨hqs, hqo⟩, hrun⟩ := acc_sect hacc hstop (body_sect h2 ha) hpb (lstInit d, init) ⟨rfl, rfl, hi, rfl, sameProg_refl _, rfl⟩
  dsimp only at hqs hqo
  subst hqs
  have hcert : svcsCerts qo.svcs = askedCerts x.other.svcs := by rw [svcsCerts_eq]; exact each_certs hqo.svcs
  refine ⟨⟨x.name, x.tls, x.addr, x.st, qo⟩, N + body.length, ⟨rfl, rfl, rfl, rfl, hqo⟩, fun n hn r er => ?_⟩
  have hc := hrun n (by omega) n (by omega) r er
  have hnames := each_names (f := fun v : Lst LOther => v.name) (fun x y hxy => hxy.name) hq
  unfold listenParser
  dsimp only
  rcases h1 with ⟨rfl, hnm⟩ | ⟨nm, rfl, hnm, hm⟩
  · split
    · rename_i s' r' heq
      exfalso
      cases ht : t with
      | nil => exact body_ne h2 (fun _ _ _ => lst_start) ht
      | cons u t' =>
        rw [ht] at heq
        cases heq
        exact body_start h2 (fun _ _ _ => lst_start) _ _ ht
    · rw [hc]
      dsimp only
      rw [hcert, hf]
      dsimp only
      rw [hnm]
  · dsimp only [List.cons_append]
    rw [if_neg]
    · rw [hc]
      dsimp only
      rw [hcert, hf]
      dsimp only
      rw [hnm]
    · intro hany
      obtain ⟨y, hy, hy2⟩ := List.any_eq_true.mp hany
      apply hm
      rw [← hnames, List.mem_filterMap]
      exact ⟨y, hy, by simpa using hy2⟩

/-! ### The top level -/

/-- What a parser does with a statement -/
def Takes {σ : Type} (p : LParser σ) (a : List Tok) (s s' : σ) : Prop :=
  (∀ r e, p ⟨s, a ++ r, e⟩ = .nonl ⟨s', r, e⟩) ∨ ∃ a', a = a' ++ [.nl] ∧ ∀ r e, p ⟨s, a' ++ .nl :: r, e⟩ = .ok ⟨s', .nl :: r, e⟩

theorem takes_lens {α ω : Type} {get : ω → α} {set : ω → α → ω} {p : LParser α} {a : List Tok} {o : ω} {x : α} (h : Takes p a (get o) x) : Takes (onLens get set p) a o (set o x) := by
  rcases h with h | ⟨a', h1, h2⟩
  · exact .inl fun r e => by unfold onLens; simp only [h]
  · exact .inr ⟨a', h1, fun r e => by unfold onLens; simp only [h2]⟩

theorem takes_kw {α : Type} {kw : Bytes} {p : Nat → LParser α} {stmt : List Tok → α → α → Prop} (h : ∀ N, OtherSpec N (kwStmt kw (p N)) stmt) {t : List Tok} {s s' : α} (hs : stmt t s s') :
    ∃ w a, t = .ident w :: a ∧ ciEq kw w = true ∧ ∀ n, t.length ≤ n → Takes (p n) a s s' := by
  obtain ⟨w, a, q, h1, h2, _⟩ := (h t.length).complete hs (Nat.le_refl _)
  refine ⟨w, a, h1, (kwStmt_some h2).1, fun n hn => ?_⟩
  obtain ⟨w', a', q', k1, k2, k3⟩ := (h n).complete hs hn
  rw [h1] at k1
  cases k1
  obtain ⟨_, rfl⟩ := kwStmt_some k2
  exact k3

theorem full_take {e : TopEnv} {kw w : Bytes} {a : List Tok} {g g' : Glob} {q q' : FullObjs} {N : Nat} (hw : ciEq kw w = true) (hk : kwFind topTable kw = none)
    (h : ∀ n, N ≤ n → ∃ p, fullOther e n g q w = some p ∧ Takes p a (g, q) (g', q')) : ∀ n, N ≤ n → ∃ p, fullFind e n w = some p ∧ Takes p a (g, q) (g', q') := by
  intro n hn
  obtain ⟨p, h1, h2⟩ := h n hn
  have ht : topFind e.lst.cfg.pcre w = none := by
    unfold topFind
    rw [kwFind_congr _ hw, hk]
    rfl
  refine ⟨_, by unfold fullFind; rw [ht], ?_⟩
  rcases h2 with h2 | ⟨a', h3, h2⟩
  · exact .inl fun r er => by unfold dynFind; dsimp only; rw [h1]; exact h2 r er
  · exact .inr ⟨a', h3, fun r er => by unfold dynFind; dsimp only; rw [h1]; exact h2 r er⟩

theorem acls_nets {e : CfgEnv} {as : List (Bytes × List Bytes)} {t : List Tok} {l : List Bytes} (h : Nets e t l) : Nets (e.withAcls as) t l := by
  induction h with
  | nil => exact .nil
  | nl _ ih => exact .nl ih
  | net h1 _ ih => exact .net h1 ih

theorem fo_ACL {e : TopEnv} {n : Nat} {g : Glob} {q : FullObjs} {w : Bytes} (hw : ciEq b!"ACL" w = true) :
    fullOther e n g q w = some (onLens (fun x : Glob × FullObjs => x.2.acls) (fun x y => (x.1, { x.2 with acls := y })) (namedAclParser (e.lst.cfg.withAcls q.acls))) := by
  simp only [fullOther, orFind, kwStmt, hw, if_true, Bool.false_eq_true, if_false]

theorem fo_TrustedIP {e : TopEnv} {n : Nat} {g : Glob} {q : FullObjs} {w : Bytes} (hw : ciEq b!"TrustedIP" w = true) :
    fullOther e n g q w = some (onLens (fun x : Glob × FullObjs => x.2.trusted) (fun x y => (x.1, { x.2 with trusted := y })) (trustParser (e.lst.cfg.withAcls q.acls))) := by
  simp only [fullOther, orFind, kwStmt, hw, if_true, Bool.false_eq_true, if_false, kw_ne hw (b := b!"ACL") (by decide)]

theorem fo_Backend {e : TopEnv} {n : Nat} {g : Glob} {q : FullObjs} {w : Bytes} (hw : ciEq b!"Backend" w = true) :
    fullOther e n g q w = some (onLens (fun x : Glob × FullObjs => x.2.named) (fun x y => (x.1, { x.2 with named := y })) (namedParser e.be g.beDfl n)) := by
  simp only [fullOther, orFind, kwStmt, hw, if_true, Bool.false_eq_true, if_false, kw_ne hw (b := b!"ACL") (by decide), kw_ne hw (b := b!"TrustedIP") (by decide)]

theorem fo_Service {e : TopEnv} {n : Nat} {g : Glob} {q : FullObjs} {w : Bytes} (hw : ciEq b!"Service" w = true) :
    fullOther e n g q w = some (onLens (fun x : Glob × FullObjs => (x.1.re, x.2.svcs)) (fun x y => ({ x.1 with re := y.1 }, { x.2 with svcs := y.2 })) (fullSvcParser (e.lst.cfg.withAcls q.acls) e.be g.beDfl g.algo n)) := by
  simp only [fullOther, orFind, kwStmt, hw, if_true, Bool.false_eq_true, if_false, kw_ne hw (b := b!"ACL") (by decide), kw_ne hw (b := b!"TrustedIP") (by decide), kw_ne hw (b := b!"Backend") (by decide)]

theorem fo_ListenHTTP {e : TopEnv} {n : Nat} {g : Glob} {q : FullObjs} {w : Bytes} (hw : ciEq b!"ListenHTTP" w = true) :
    fullOther e n g q w = some (onLens (fun x : Glob × FullObjs => x.2.lsts) (fun x y => ({ x.1 with re := reAfter x.1.re y }, { x.2 with lsts := y })) (fullListen e (e.lst.cfg.withAcls q.acls) g n false)) := by
  simp only [fullOther, orFind, kwStmt, hw, if_true, Bool.false_eq_true, if_false, kw_ne hw (b := b!"ACL") (by decide), kw_ne hw (b := b!"TrustedIP") (by decide), kw_ne hw (b := b!"Backend") (by decide), kw_ne hw (b := b!"Service") (by decide)]

theorem fo_ListenHTTPS {e : TopEnv} {n : Nat} {g : Glob} {q : FullObjs} {w : Bytes} (hw : ciEq b!"ListenHTTPS" w = true) :
    fullOther e n g q w = some (onLens (fun x : Glob × FullObjs => x.2.lsts) (fun x y => ({ x.1 with re := reAfter x.1.re y }, { x.2 with lsts := y })) (fullListen e (e.lst.cfg.withAcls q.acls) g n true)) := by
  simp only [fullOther, orFind, kwStmt, hw, if_true, Bool.false_eq_true, if_false, kw_ne hw (b := b!"ACL") (by decide), kw_ne hw (b := b!"TrustedIP") (by decide), kw_ne hw (b := b!"Backend") (by decide), kw_ne hw (b := b!"Service") (by decide), kw_ne hw (b := b!"ListenHTTP") (by decide)]

theorem fo_Control {e : TopEnv} {n : Nat} {g : Glob} {q : FullObjs} {w : Bytes} (hw : ciEq b!"Control" w = true) :
    fullOther e n g q w = some (onLens (fun x : Glob × FullObjs => x.2.ctls) (fun x y => (x.1, { x.2 with ctls := y })) (ctlParser g n)) := by
  simp only [fullOther, orFind, kwStmt, hw, if_true, Bool.false_eq_true, if_false, kw_ne hw (b := b!"ACL") (by decide), kw_ne hw (b := b!"TrustedIP") (by decide), kw_ne hw (b := b!"Backend") (by decide), kw_ne hw (b := b!"Service") (by decide), kw_ne hw (b := b!"ListenHTTP") (by decide), kw_ne hw (b := b!"ListenHTTPS") (by decide)]

theorem fo_Resolver {e : TopEnv} {n : Nat} {g : Glob} {q : FullObjs} {w : Bytes} (hw : ciEq b!"Resolver" w = true) :
    fullOther e n g q w = some (onLens (fun x : Glob × FullObjs => x.2.res) (fun x y => (x.1, { x.2 with res := y })) (resParser e.lst.file n)) := by
  simp only [fullOther, orFind, kwStmt, hw, if_true, Bool.false_eq_true, if_false, kw_ne hw (b := b!"ACL") (by decide), kw_ne hw (b := b!"TrustedIP") (by decide), kw_ne hw (b := b!"Backend") (by decide), kw_ne hw (b := b!"Service") (by decide), kw_ne hw (b := b!"ListenHTTP") (by decide), kw_ne hw (b := b!"ListenHTTPS") (by decide), kw_ne hw (b := b!"Control") (by decide)]

theorem full_stmt {e : TopEnv} {g : Glob} {t : List Tok} {o o1 q : FullObjs} {xs : List TopSet} (h : FullStmt e g t o xs o1) (hp : PlainText t) (hq : SameObjs q o) :
    ∃ w a g' q' N, t = .ident w :: a ∧ appAll topApply xs g = some g' ∧ SameObjs q' o1 ∧ ∀ n, N ≤ n → ∃ p, fullFind e n w = some p ∧ Takes p a (g, q) (g', q') := by
  have hA : e.lst.cfg.withAcls q.acls = aclsDefined e.lst.cfg o.acls := by rw [hq.acls]; exact withAcls_eq _ _
  cases h with
  | @acl w name t l o hw hn ht =>
    refine ⟨w, .string name :: (t ++ [.nl]), g, { q with acls := q.acls ++ [(name, l)] }, 0, rfl, rfl, { hq with acls := by simp only [hq.acls] }, ?_⟩
    refine full_take hw (by decide) fun n _ => ⟨_, fo_ACL hw, ?_⟩
    refine takes_lens (x := q.acls ++ [(name, l)]) (.inr ⟨.string name :: t, by simp, fun r er => ?_⟩)
    refine acl_accept ?_ (by rw [hq.acls]; exact hn) _ _
    obtain ⟨u, v, rfl, k2, k3⟩ := ht
    exact ⟨u, v, rfl, acls_nets k2, k3⟩
  | @trusted w t a o hw ht =>
    refine ⟨w, t ++ [.nl], g, { q with trusted := some a }, 0, rfl, rfl, { hq with trusted := rfl }, ?_⟩
    refine full_take hw (by decide) fun n _ => ⟨_, fo_TrustedIP hw, ?_⟩
    refine takes_lens (x := some a) (.inr ⟨t, rfl, fun r er => ?_⟩)
    rw [hA]
    exact trust_accept ht _ _ _
  | @backend w name t b o hw ht hn =>
    have hst : NamedStmt e.be g.beDfl (.ident w :: .string name :: (t ++ [.nl])) q.named (⟨name, b.prio, b.disabled, b.m⟩ :: o.named) :=
      ⟨w, name, t, b, hw, ht, by rw [hq.named]; exact hn, rfl, by rw [hq.named]⟩
    obtain ⟨w', a', h1, h2, h3⟩ := takes_kw (p := namedParser e.be g.beDfl) (fun N => named_spec e.be g.beDfl N) hst
    refine ⟨w', a', g, { q with named := ⟨name, b.prio, b.disabled, b.m⟩ :: o.named }, (Tok.ident w :: .string name :: (t ++ [.nl])).length, h1, rfl, { hq with named := rfl }, ?_⟩
    exact full_take h2 (by decide) fun n hn => ⟨_, fo_Backend h2, takes_lens (h3 n hn)⟩
  | @service w t o x d' hw hs =>
    obtain ⟨x', N, h1, h2⟩ := svc_accept hs (plain_left (plain_tail hp)) hq.svcs
    refine ⟨w, t ++ [.nl], { g with re := d' }, { q with svcs := q.svcs ++ [x'] }, N, rfl, icase_app (says_re hs), { hq with svcs := each_append hq.svcs h1 }, ?_⟩
    refine full_take hw (by decide) fun n hn => ⟨_, fo_Service hw, ?_⟩
    refine takes_lens (x := (d', q.svcs ++ [x'])) (.inr ⟨t, rfl, fun r er => ?_⟩)
    rw [hA]
    exact h2 n hn _ _
  | @listener w t o x hw hs =>
    obtain ⟨x', N, h1, h2⟩ := listen_accept hs (plain_left (plain_tail hp)) .nil hq.lsts
    have hre : x'.other.re = x.other.re := h1.other.re
    have hk : x.other.re.reType = g.re.reType := by
      obtain ⟨body, l, s0, _, k, _⟩ := hs.settings
      exact setBody_re k
    refine ⟨w, t ++ [.nl], { g with re := reAfter g.re (q.lsts ++ [x']) }, { q with lsts := q.lsts ++ [x'] }, N, rfl, ?_, { hq with lsts := each_append hq.lsts h1 }, ?_⟩
    · rw [icase_app hk]
      simp [reAfter, hre]
    · cases hx : x.tls with
      | false =>
        rw [hx] at hw h2
        simp only [Bool.false_eq_true, if_false] at hw
        refine full_take hw (by decide) fun n hn => ⟨_, fo_ListenHTTP hw, ?_⟩
        refine takes_lens (x := q.lsts ++ [x']) (.inr ⟨t, rfl, fun r er => ?_⟩)
        rw [hA]
        exact h2 n hn _ _
      | true =>
        rw [hx] at hw h2
        simp only [if_true] at hw
        refine full_take hw (by decide) fun n hn => ⟨_, fo_ListenHTTPS hw, ?_⟩
        refine takes_lens (x := q.lsts ++ [x']) (.inr ⟨t, rfl, fun r er => ?_⟩)
        rw [hA]
        exact h2 n hn _ _
  | @control t o c hc =>
    obtain ⟨w', a', h1, h2, h3⟩ := takes_kw (p := ctlParser g) (fun N => ctl_spec g N) (s := q.ctls) (s' := o.ctls ++ [c]) ⟨c, hc, by rw [hq.ctls]⟩
    refine ⟨w', a', g, { q with ctls := o.ctls ++ [c] }, t.length, h1, rfl, { hq with ctls := rfl }, ?_⟩
    exact full_take h2 (by decide) fun n hn => ⟨_, fo_Control h2, takes_lens (h3 n hn)⟩
  | @resolver t o r hr =>
    rw [← hq.res] at hr
    obtain ⟨w', a', h1, h2, h3⟩ := takes_kw (p := resParser e.lst.file) (fun N => res_spec e.lst.file N) hr
    refine ⟨w', a', g, { q with res := r }, t.length, h1, rfl, { hq with res := rfl }, ?_⟩
    exact full_take h2 (by decide) fun n hn => ⟨_, fo_Resolver h2, takes_lens (h3 n hn)⟩

theorem fullBody_prefix {e : TopEnv} {t : List Tok} {l l' : List TopSet} {o o' : FullObjs} (h : FullBody e t l o l' o') : ∃ k, l' = l ++ k := by
  induction h with
  | stop => exact ⟨[], by simp⟩
  | blank _ ih => exact ih
  | set _ _ _ ih => obtain ⟨k, rfl⟩ := ih; exact ⟨_, List.append_assoc _ _ _⟩
  | stmt _ _ _ ih => obtain ⟨k, rfl⟩ := ih; exact ⟨_, List.append_assoc _ _ _⟩

theorem takes_step {σ : Type} {find : Bytes → Option (LParser σ)} {w : Bytes} {a t : List Tok} {s s' : σ} {p : LParser σ} (hf : find w = some p) (h : Takes p a s s') (m er : Nat) :
    cfgL find false false (m + 1) ⟨s, .ident w :: (a ++ t), er⟩ = cfgL find false false m ⟨s', t, er⟩ := by
  rw [cfgL]
  dsimp only
  rw [hf]
  dsimp only
  rcases h with h | ⟨a', rfl, h⟩
  · rw [h]
  · rw [List.append_assoc, List.singleton_append, h]
    simp only [Bool.false_eq_true, if_false]

theorem full_run {e : TopEnv} {t : List Tok} {l l' : List TopSet} {o o' : FullObjs} (h : FullBody e t l o l' o') : ∀ {g g' : Glob} {q : FullObjs}, PlainText t →
    appAll topApply l globInit = some g → appAll topApply l' globInit = some g' → SameObjs q o →
    ∃ q' N, SameObjs q' o' ∧ ∀ n, N ≤ n → ∀ m, t.length < m → ∀ er, cfgL (fullFind e n) false false m ⟨(g, q), t, er⟩ = .ok ⟨(g', q'), [], er⟩ := by
  induction h with
  | stop =>
    intro g g' q _ h1 h2 hq
    rw [h1] at h2
    cases h2
    refine ⟨q, 0, hq, fun n _ m hm er => ?_⟩
    cases m with
    | zero => simp at hm
    | succ m => simp [cfgL]
  | blank _ ih =>
    intro g g' q hp h1 h2 hq
    obtain ⟨q', N, h3, h4⟩ := ih (plain_tail hp) h1 h2 hq
    refine ⟨q', N, h3, fun n hn m hm er => ?_⟩
    cases m with
    | zero => simp at hm
    | succ m =>
      rw [cfgL]
      exact h4 n hn m (by simpa using hm) er
  | @set w n a t x l l' o o' hx hw hb ih =>
    intro g g' q hp h1 h2 hq
    obtain ⟨k, rfl⟩ := fullBody_prefix hb
    rw [appAll_app] at h2
    obtain ⟨g1, h3, h4⟩ := Option.bind_eq_some_iff.mp h2
    have h5 : topApply x g = some g1 := by rw [appAll_append, h1] at h3; exact h3
    have hp' : PlainText t := by
      have : PlainText ((.ident n :: (a ++ [.nl])) ++ t) := by simpa using hp
      exact PlainText.right this
    obtain ⟨q', N, h6, h7⟩ := ih hp' h3 (by rw [appAll_app, h3]; exact h4) hq
    refine ⟨q', N, h6, fun n' hn m hm er => ?_⟩
    cases m with
    | zero => simp at hm
    | succ m =>
      obtain ⟨w', a', p, k1, k2, k3⟩ := (other_tab (top_table e.lst.cfg.pcre) topApply (Tok.ident n :: (a ++ [.nl])).length : OtherSpec _ (topFind e.lst.cfg.pcre) _).complete
        (⟨w, n, a, x, hx, hw, rfl, h5⟩ : SetStmt (TopArgs e.lst.cfg.pcre) topApply (.ident n :: (a ++ [.nl])) g g1) (Nat.le_refl _)
      cases k1
      have hf : fullFind e n' n = some (onFst p) := by unfold fullFind; rw [show topFind e.lst.cfg.pcre n = some p from k2]
      have ht : Takes (onFst p : LParser (Glob × FullObjs)) (a ++ [.nl]) (g, q) (g1, q) := by
        rcases k3 with k3 | ⟨a', k4, k3⟩
        · exact .inl fun r e => by unfold onFst; dsimp only; rw [k3]
        · exact .inr ⟨a', k4, fun r e => by unfold onFst; dsimp only; rw [k3]⟩
      rw [show Tok.ident n :: (a ++ .nl :: t) = .ident n :: ((a ++ [.nl]) ++ t) by simp, takes_step hf ht]
      exact h7 n' hn m (by simp at hm; omega) er
  | @stmt a t g0 xs l l' o o1 o' hg hs hb ih =>
    intro g g' q hp h1 h2 hq
    have hgg : g0 = g := by
      have := glob_iff.mpr ⟨(glob_iff.mp h1).1, hg⟩
      rw [h1] at this
      cases this
      rfl
    subst hgg
    obtain ⟨w, b, g1, q1, N1, rfl, h3, h4, h5⟩ := full_stmt hs (plain_left hp) hq
    have h6 : appAll topApply (l ++ xs) globInit = some g1 := by rw [appAll_app, h1]; exact h3
    obtain ⟨q', N, h7, h8⟩ := ih (PlainText.right hp) h6 h2 h4
    refine ⟨q', N1 + N, h7, fun n hn m hm er => ?_⟩
    obtain ⟨p, h9, h10⟩ := h5 n (by omega)
    cases m with
    | zero => simp at hm
    | succ m =>
      rw [List.cons_append, takes_step h9 h10]
      exact h8 n (by omega) m (by simp at hm; omega) er

theorem full_accept {e : TopEnv} {t : List Tok} {g : Glob} {o : FullObjs} (h : FullConfigures e t g o) (hp : PlainText t) :
    ∃ o' N, SameObjs o' o ∧ ∀ n, N ≤ n → parseFull e n t = some (g, o', 0) := by
  obtain ⟨l, hb, h1, h2⟩ := h.body
  obtain ⟨q', N, h3, h4⟩ := full_run hb (q := fullInit) hp rfl (glob_iff.mpr ⟨h1, h2⟩) ⟨rfl, rfl, rfl, .nil, .nil, rfl, rfl⟩
  refine ⟨q', N + t.length + 1, h3, fun n hn => ?_⟩
  unfold parseFull
  rw [h4 n (by omega) n (by omega) 0]
  dsimp only
  rw [if_neg, if_neg]
  · have := h.workers
    omega
  · rw [svcsCerts_eq, each_certs h3.svcs, h.certs]
    simp

/-! ### One meaning -/

theorem each_join {α : Type} {R : α → α → Prop} (hR : ∀ x y z, R x y → R x z → R y z) {l a b : List α} (h : Each R l a) (h2 : Each R l b) : Each R a b := by
  induction h generalizing b with
  | nil => cases h2; exact .nil
  | cons h1 _ ih =>
    cases h2 with
    | cons k1 k2 => exact .cons (hR _ _ _ h1 k1) (ih k2)

theorem same_svc_join {x y z : FullSvc} (h : SameSvc x y) (k : SameSvc x z) : SameSvc y z :=
  ⟨h.name ▸ k.name, h.conds ▸ k.conds, h.certs ▸ k.certs, sameProg_trans (sameProg_symm h.req) k.req, h.resp ▸ k.resp, h.disabled ▸ k.disabled, h.rest ▸ k.rest⟩

theorem same_lst_join {x y z : Lst LOther} (h : SameLst x y) (k : SameLst x z) : SameLst y z :=
  ⟨h.name ▸ k.name, h.tls ▸ k.tls, h.addr ▸ k.addr, h.st ▸ k.st, h.other.re ▸ k.other.re, each_join (R := SameSvc) (fun _ _ _ a b => same_svc_join a b) h.other.svcs k.other.svcs, h.other.trusted ▸ k.other.trusted,
    sameProg_trans (sameProg_symm h.other.req) k.other.req, h.other.resp ▸ k.other.resp⟩

theorem same_objs_join {x y z : FullObjs} (h : SameObjs x y) (k : SameObjs x z) : SameObjs y z :=
  ⟨h.acls ▸ k.acls, h.trusted ▸ k.trusted, h.named ▸ k.named, each_join (R := SameSvc) (fun _ _ _ a b => same_svc_join a b) h.svcs k.svcs, each_join (R := SameLst) (fun _ _ _ a b => same_lst_join a b) h.lsts k.lsts,
    h.ctls ▸ k.ctls, h.res ▸ k.res⟩

end Pound
