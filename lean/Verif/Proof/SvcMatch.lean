import Verif.Proof.SvcAll
import Verif.Props.Cond

namespace Pound

open Spec Props

/-! ### Conditions with the operands of a negation that count -/

mutual
/-- The same with only the first operand of each negation -/
def CCond.prune : CCond → CCond
  | .test t => .test t
  | .bool .not [] => .bool .not []
  | .bool .not (c :: _) => .bool .not [c.prune]
  | .bool .and cs => .bool .and (pruneAll cs)
  | .bool .or cs => .bool .or (pruneAll cs)
def pruneAll : List CCond → List CCond
  | [] => []
  | c :: cs => c.prune :: pruneAll cs
end

mutual
theorem prune_match (k : Installed) (x : CondCtx) : ∀ (c : CCond) (st : PState), matchCond x (k.cond c.prune) st = matchCond x (k.cond c) st
  | .test t, st => rfl
  | .bool .not [], st => rfl
  | .bool .not (c :: cs), st => by
    simp only [CCond.prune, Installed.cond, Installed.conds, matchCond]
    rw [prune_match k x c st]
  | .bool .and cs, st => by
    simp only [CCond.prune, Installed.cond]
    rw [matchCond_and, matchCond_and, pruneAll_match k x .and cs]
  | .bool .or cs, st => by
    have h := pruneAll_match k x .or cs st 1
    simp only [CCond.prune, Installed.cond]
    cases cs with
    | nil => rfl
    | cons c cs =>
      simp only [pruneAll, Installed.conds] at h ⊢
      simpa only [matchCond] using h
theorem pruneAll_match (k : Installed) (x : CondCtx) (op : BoolOp) : ∀ (cs : List CCond) (st : PState) (r : Int),
    matchConds x op (k.conds (pruneAll cs)) st r = matchConds x op (k.conds cs) st r
  | [], st, r => rfl
  | c :: cs, st, r => by
    simp only [pruneAll, Installed.conds, matchConds]
    rw [prune_match k x c st]
    rcases matchCond x (k.cond c) st with ⟨st1, v | _ | _⟩
    · simp only [pruneAll_match k x op cs]
    · rfl
    · rfl
end

mutual
theorem prune_wf (k : Installed) : ∀ (c : CCond), NoEmptyOr (condFormula c) → (k.cond c.prune).Wf
  | .test t, _ => trivial
  | .bool .not [], h => by simp [condFormula, NoEmptyOr] at h
  | .bool .not (c :: cs), h => by
    simp only [condFormula, NoEmptyOr] at h
    exact ⟨rfl, prune_wf k c h, trivial⟩
  | .bool .and cs, h => by
    simp only [condFormula, NoEmptyOr] at h
    exact pruneAll_wf k cs h
  | .bool .or cs, h => by
    simp only [condFormula, NoEmptyOr] at h
    refine ⟨?_, pruneAll_wf k cs h.2⟩
    cases cs with
    | nil => simp [condFormulas] at h
    | cons c cs => simp [pruneAll, Installed.conds]
theorem pruneAll_wf (k : Installed) : ∀ (cs : List CCond), NoEmptyOrs (condFormulas cs) → AllWf (k.conds (pruneAll cs))
  | [], _ => trivial
  | c :: cs, h => by
    simp only [condFormulas, NoEmptyOrs] at h
    exact ⟨prune_wf k c h.1, pruneAll_wf k cs h.2⟩
end

mutual
/-- The tests of a formula replaced -/
def mapTests {α β : Type} (f : α → β) : Formula α → Formula β
  | .test a => .test (f a)
  | .not g => .not (mapTests f g)
  | .and gs => .and (mapTestss f gs)
  | .or gs => .or (mapTestss f gs)
def mapTestss {α β : Type} (f : α → β) : List (Formula α) → List (Formula β)
  | [] => []
  | g :: gs => mapTests f g :: mapTestss f gs
end

theorem evals_map {α β σ : Type} {f : α → β} {test : β → σ → Option Bool → σ → Prop} {g : Formula α} {s s' : σ} {v : Option Bool}
    (h : Evals (fun a => test (f a)) g s v s') : Evals test (mapTests f g) s v s' := by
  induction h with
  | test h => exact .test h
  | not _ ih => simp only [mapTests]; exact .not ih
  | allDone => simp only [mapTests, mapTestss]; exact .allDone
  | allStop _ hv ih => simp only [mapTests, mapTestss]; exact .allStop ih hv
  | allMore _ _ ih1 ih2 => simp only [mapTests, mapTestss] at ih2 ⊢; exact .allMore ih1 ih2
  | anyDone => simp only [mapTests, mapTestss]; exact .anyDone
  | anyStop _ hv ih => simp only [mapTests, mapTestss]; exact .anyStop ih hv
  | anyMore _ _ ih1 ih2 => simp only [mapTests, mapTestss] at ih2 ⊢; exact .anyMore ih1 ih2

mutual
theorem prune_formula (k : Installed) : ∀ (c : CCond), NoEmptyOr (condFormula c) → (k.cond c.prune).formula = mapTests k.test (condFormula c)
  | .test t, _ => rfl
  | .bool .not [], h => by simp [condFormula, NoEmptyOr] at h
  | .bool .not (c :: cs), h => by
    simp only [condFormula, NoEmptyOr] at h
    simp only [CCond.prune, Installed.cond, Installed.conds, Cond.formula, condFormula, mapTests]
    rw [prune_formula k c h]
  | .bool .and cs, h => by
    simp only [condFormula, NoEmptyOr] at h
    simp only [CCond.prune, Installed.cond, Cond.formula, condFormula, mapTests]
    rw [pruneAll_formula k cs h]
  | .bool .or cs, h => by
    simp only [condFormula, NoEmptyOr] at h
    simp only [CCond.prune, Installed.cond, Cond.formula, condFormula, mapTests]
    rw [pruneAll_formula k cs h.2]
theorem pruneAll_formula (k : Installed) : ∀ (cs : List CCond), NoEmptyOrs (condFormulas cs) → formulas (k.conds (pruneAll cs)) = mapTestss k.test (condFormulas cs)
  | [], _ => rfl
  | c :: cs, h => by
    simp only [condFormulas, NoEmptyOrs] at h
    simp only [pruneAll, Installed.conds, formulas, condFormulas, mapTestss]
    rw [prune_formula k c h.1, pruneAll_formula k cs h.2]
end

/-- The conditions of a service or a rule, as configured, are those that are evaluated. -/
theorem conds_eval (k : Installed) (x : CondCtx) {cs : List CCond} (hw : NoEmptyOrs (condFormulas cs)) {st : PState} {s s' : View} {v : Option Bool} (hl : Looks st s)
    (h : Evals (fun t => Test x (k.test t)) (.and (condFormulas cs)) s v s') :
    ∃ st', matchCond x (.bool .and (k.conds cs)) st = (st', .val (condCode v)) ∧ Looks st' s' := by
  have h1 := evals_map (f := k.test) (test := Test x) h
  have hw' : NoEmptyOr (condFormula (.bool .and cs)) := by simpa only [condFormula, NoEmptyOr] using hw
  have h2 := prune_formula k (.bool .and cs) hw'
  have h3 := prune_match k x (.bool .and cs) st
  obtain ⟨st', h4, h5⟩ := C14_evaluates_partial x (k.cond (CCond.prune (.bool .and cs))) (prune_wf k _ hw') st s s' v hl (by
    rw [h2]
    simpa only [condFormula] using h1)
  refine ⟨st', ?_, h5⟩
  rw [← h4, h3]
  rfl

/-! ### Rules -/

mutual
def CRop.prune : CRop → CRop
  | .prim p => .prim p
  | .rule r => .rule r.prune
def CRule.prune : CRule → CRule
  | .null => .null
  | .mk cs ops els => .mk (pruneAll cs) (pruneOps ops) els.prune
def pruneOps : List CRop → List CRop
  | [] => []
  | o :: t => o.prune :: pruneOps t
end

mutual
theorem prune_op (k : Installed) (x : CondCtx) : ∀ (o : CRop) (st : PState), rwOp x (k.op o.prune) st = rwOp x (k.op o) st
  | .prim p, st => rfl
  | .rule r, st => by
    simp only [CRop.prune, Installed.op, rwOp]
    exact prune_rule k x r st
theorem prune_rule (k : Installed) (x : CondCtx) : ∀ (r : CRule) (st : PState), rwRule x (k.rule r.prune) st = rwRule x (k.rule r) st
  | .null, st => rfl
  | .mk cs ops els, st => by
    have h := prune_match k x (.bool .and cs) st
    simp only [CCond.prune, Installed.cond] at h
    simp only [CRule.prune, Installed.rule, rwRule]
    rw [h]
    rcases matchCond x (.bool .and (k.conds cs)) st with ⟨st1, v | _ | _⟩
    · simp only [prune_ops k x ops, prune_rule k x els]
    · rfl
    · rfl
theorem prune_ops (k : Installed) (x : CondCtx) : ∀ (o : List CRop) (st : PState), rwOps x (k.ops (pruneOps o)) st = rwOps x (k.ops o) st
  | [], st => rfl
  | o :: t, st => by
    simp only [pruneOps, Installed.ops, rwOps]
    rw [prune_op k x o st]
    rcases rwOp x (k.op o) st with ⟨st1, v | _ | _⟩
    · simp only [prune_ops k x t]
    · rfl
    · rfl
end

mutual
theorem op_wf (k : Installed) : ∀ (o : CRop), StmtOrs (ropStmt o) → opWf (k.op o.prune)
  | .prim p, _ => trivial
  | .rule r, h => by
    simp only [ropStmt, StmtOrs] at h
    exact rule_wf k r h
theorem rule_wf (k : Installed) : ∀ (r : CRule), BranchOrs (ruleBranches r) → ruleWf (k.rule r.prune)
  | .null, _ => trivial
  | .mk cs ops els, h => by
    simp only [ruleBranches, BranchOrs, NoEmptyOr] at h
    exact ⟨pruneAll_wf k cs h.1, ops_wf k ops h.2.1, rule_wf k els h.2.2⟩
theorem ops_wf (k : Installed) : ∀ (o : List CRop), StmtsOrs (ropStmts o) → opsWf (k.ops (pruneOps o))
  | [], _ => trivial
  | o :: t, h => by
    simp only [ropStmts, StmtsOrs] at h
    exact ⟨op_wf k o h.1, ops_wf k t h.2⟩
end

mutual
/-- The tests and modifications of a program replaced -/
def mapStmt (k : Installed) : RwStmt → Stmt (Formula Elem) RwPrim
  | .act p => .act (k.prim p)
  | .cases bs => .cases (mapBranches k bs)
def mapBranches (k : Installed) : List (Formula CTest × List RwStmt) → List (Formula Elem × List (Stmt (Formula Elem) RwPrim))
  | [] => []
  | (c, ss) :: bs => (mapTests k.test c, mapStmts k ss) :: mapBranches k bs
def mapStmts (k : Installed) : List RwStmt → List (Stmt (Formula Elem) RwPrim)
  | [] => []
  | s :: ss => mapStmt k s :: mapStmts k ss
end

theorem runs_map {k : Installed} {σ : Type} {test : Elem → σ → Option Bool → σ → Prop} {act : RwPrim → σ → Bool → σ → Prop} {ss : List RwStmt} {s s' : σ} {ok : Bool}
    (h : Runs (Evals fun t => test (k.test t)) (fun p => act (k.prim p)) ss s ok s') : Runs (Evals test) act (mapStmts k ss) s ok s' := by
  induction h with
  | done => exact .done
  | act h _ ih => simp only [mapStmts, mapStmt]; exact .act h ih
  | actFail h => simp only [mapStmts, mapStmt]; exact .actFail h
  | noBranch _ ih => simp only [mapStmts, mapStmt, mapBranches]; exact .noBranch ih
  | next h hv _ ih => simp only [mapStmts, mapStmt, mapBranches] at ih ⊢; exact .next (evals_map h) hv ih
  | branch h _ _ ih1 ih2 => simp only [mapStmts, mapStmt, mapBranches]; exact .branch (evals_map h) ih1 ih2
  | branchFail h _ ih => simp only [mapStmts, mapStmt, mapBranches]; exact .branchFail (evals_map h) ih

mutual
/-- The conditions of a program replaced by their formulas -/
def formStmt : Stmt Cond RwPrim → Stmt (Formula Elem) RwPrim
  | .act p => .act p
  | .cases bs => .cases (formBranches bs)
def formBranches : List (Cond × List (Stmt Cond RwPrim)) → List (Formula Elem × List (Stmt (Formula Elem) RwPrim))
  | [] => []
  | (c, ss) :: bs => (c.formula, formStmts ss) :: formBranches bs
def formStmts : List (Stmt Cond RwPrim) → List (Stmt (Formula Elem) RwPrim)
  | [] => []
  | s :: ss => formStmt s :: formStmts ss
end

theorem formStmts_cons {ss : List (Stmt Cond RwPrim)} {y : Stmt (Formula Elem) RwPrim} {ys : List (Stmt (Formula Elem) RwPrim)} (h : formStmts ss = y :: ys) :
    ∃ z zs, ss = z :: zs ∧ formStmt z = y ∧ formStmts zs = ys := by
  cases ss with
  | nil => simp [formStmts] at h
  | cons z zs => simp only [formStmts, List.cons.injEq] at h; exact ⟨z, zs, rfl, h.1, h.2⟩

theorem formStmt_cases {z : Stmt Cond RwPrim} {bs : List (Formula Elem × List (Stmt (Formula Elem) RwPrim))} (h : formStmt z = .cases bs) : ∃ cs, z = .cases cs ∧ formBranches cs = bs := by
  cases z with
  | act p => simp [formStmt] at h
  | cases cs => simp only [formStmt, Stmt.cases.injEq] at h; exact ⟨cs, rfl, h⟩

theorem formBranches_cons {cs : List (Cond × List (Stmt Cond RwPrim))} {c : Formula Elem} {b : List (Stmt (Formula Elem) RwPrim)}
    {bs : List (Formula Elem × List (Stmt (Formula Elem) RwPrim))} (h : formBranches cs = (c, b) :: bs) :
    ∃ c' b' cs', cs = (c', b') :: cs' ∧ c'.formula = c ∧ formStmts b' = b ∧ formBranches cs' = bs := by
  cases cs with
  | nil => simp [formBranches] at h
  | cons y cs' =>
    obtain ⟨c', b'⟩ := y
    simp only [formBranches, List.cons.injEq, Prod.mk.injEq] at h
    exact ⟨c', b', cs', rfl, h.1.1, h.1.2, h.2⟩

theorem runs_form {σ : Type} {test : Elem → σ → Option Bool → σ → Prop} {act : RwPrim → σ → Bool → σ → Prop} {ys : List (Stmt (Formula Elem) RwPrim)} {s s' : σ} {ok : Bool}
    (h : Runs (Evals test) act ys s ok s') : ∀ ss, formStmts ss = ys → Runs (fun c : Cond => Evals test c.formula) act ss s ok s' := by
  induction h with
  | done =>
    intro ss he
    cases ss with
    | nil => exact .done
    | cons => simp [formStmts] at he
  | act h _ ih =>
    intro ss he
    obtain ⟨z, zs, rfl, h1, h2⟩ := formStmts_cons he
    cases z with
    | cases cs => simp [formStmt] at h1
    | act p =>
      simp only [formStmt, Stmt.act.injEq] at h1
      subst h1
      exact .act h (ih zs h2)
  | actFail h =>
    intro ss he
    obtain ⟨z, zs, rfl, h1, h2⟩ := formStmts_cons he
    cases z with
    | cases cs => simp [formStmt] at h1
    | act p =>
      simp only [formStmt, Stmt.act.injEq] at h1
      subst h1
      exact .actFail h
  | noBranch _ ih =>
    intro ss he
    obtain ⟨z, zs, rfl, h1, h2⟩ := formStmts_cons he
    obtain ⟨cs, rfl, h3⟩ := formStmt_cases h1
    cases cs with
    | cons y cs => obtain ⟨a, b⟩ := y; simp [formBranches] at h3
    | nil => exact .noBranch (ih zs h2)
  | next h hv _ ih =>
    intro ss he
    obtain ⟨z, zs, rfl, h1, h2⟩ := formStmts_cons he
    obtain ⟨cs, rfl, h3⟩ := formStmt_cases h1
    obtain ⟨c', b', cs', rfl, h4, h5, h6⟩ := formBranches_cons h3
    subst h4
    exact .next h hv (ih (.cases cs' :: zs) (by simp only [formStmts, formStmt, h6, h2]))
  | branch h _ _ ih1 ih2 =>
    intro ss he
    obtain ⟨z, zs, rfl, h1, h2⟩ := formStmts_cons he
    obtain ⟨cs, rfl, h3⟩ := formStmt_cases h1
    obtain ⟨c', b', cs', rfl, h4, h5, h6⟩ := formBranches_cons h3
    subst h4
    exact .branch h (ih1 b' h5) (ih2 zs h2)
  | branchFail h _ ih1 =>
    intro ss he
    obtain ⟨z, zs, rfl, h1, h2⟩ := formStmts_cons he
    obtain ⟨cs, rfl, h3⟩ := formStmt_cases h1
    obtain ⟨c', b', cs', rfl, h4, h5, h6⟩ := formBranches_cons h3
    subst h4
    exact .branchFail h (ih1 b' h5)

mutual
theorem op_form (k : Installed) : ∀ (o : CRop), StmtOrs (ropStmt o) → formStmt (stmtOf (k.op o.prune)) = mapStmt k (ropStmt o)
  | .prim p, _ => rfl
  | .rule r, h => by
    simp only [ropStmt, StmtOrs] at h
    simp only [CRop.prune, Installed.op, stmtOf, formStmt, ropStmt, mapStmt, rule_form k r h]
theorem rule_form (k : Installed) : ∀ (r : CRule), BranchOrs (ruleBranches r) → formBranches (branchesOf (k.rule r.prune)) = mapBranches k (ruleBranches r)
  | .null, _ => rfl
  | .mk cs ops els, h => by
    simp only [ruleBranches, BranchOrs, NoEmptyOr] at h
    simp only [CRule.prune, Installed.rule, branchesOf, formBranches, ruleBranches, mapBranches, Cond.formula, mapTests, pruneAll_formula k cs h.1, ops_form k ops h.2.1,
      rule_form k els h.2.2]
theorem ops_form (k : Installed) : ∀ (o : List CRop), StmtsOrs (ropStmts o) → formStmts (stmtsOf (k.ops (pruneOps o))) = mapStmts k (ropStmts o)
  | [], _ => rfl
  | o :: t, h => by
    simp only [ropStmts, StmtsOrs] at h
    simp only [pruneOps, Installed.ops, stmtsOf, formStmts, ropStmts, mapStmts, op_form k o h.1, ops_form k t h.2]
end

theorem prune_apply (k : Installed) (x : CondCtx) (rs : List CRule) : ∀ st, rewriteApply x (rs.map fun r : CRule => k.rule r.prune) st = rewriteApply x (rs.map k.rule) st := by
  induction rs with
  | nil => intro st; rfl
  | cons r t ih =>
    intro st
    simp only [List.map_cons, rewriteApply]
    rw [prune_rule k x r st]
    rcases rwRule x (k.rule r) st with ⟨st1, v | _ | _⟩
    · simp only [ih]
    · rfl
    · rfl

theorem rules_ors {rs : List CRule} (h : StmtsOrs (rulesStmts rs)) : ∀ r ∈ rs, BranchOrs (ruleBranches r) := by
  induction rs with
  | nil => intro r hr; cases hr
  | cons a t ih =>
    simp only [rulesStmts, List.map_cons, StmtsOrs, StmtOrs] at h ih
    intro r hr
    rcases List.mem_cons.mp hr with rfl | hr
    · exact h.1
    · exact ih h.2 r hr

theorem rules_form (k : Installed) {rs : List CRule} (h : ∀ r ∈ rs, BranchOrs (ruleBranches r)) :
    formStmts ((rs.map fun r : CRule => k.rule r.prune).map fun r => .cases (branchesOf r)) = mapStmts k (rulesStmts rs) := by
  induction rs with
  | nil => rfl
  | cons a t ih =>
    simp only [rulesStmts, List.map_cons, formStmts, formStmt, mapStmts, mapStmt] at ih ⊢
    rw [rule_form k a (h a (by simp)), ih fun r hr => h r (by simp [hr])]

/-- The rules of a service, as configured, are those that are run. -/
theorem rules_run (k : Installed) (x : CondCtx) {rs : List CRule} (hw : StmtsOrs (rulesStmts rs)) {st : PState} {s s' : View} {ok : Bool} (hl : Looks st s)
    (h : Runs (Evals fun t => Test x (k.test t)) (fun p => Act (k.prim p)) (rulesStmts rs) s ok s') :
    ∃ st' r, rewriteRequest x [] (rs.map k.rule) st = (st', .val r) ∧ (ok = true ↔ r = 0) ∧ Looks st' s' ∧ st'.req.request = s'.req.request := by
  have ho := rules_ors hw
  have h1 := runs_form (runs_map (k := k) (test := Test x) (act := Act) h) _ (rules_form k ho)
  obtain ⟨st', r, h2, h3, h4, h5⟩ := C16_rewrite_partial x [] (rs.map fun r : CRule => k.rule r.prune) (by
    intro r hr
    simp only [List.nil_append, List.mem_map] at hr
    obtain ⟨a, ha, rfl⟩ := hr
    exact rule_wf k a (ho a ha)) st s s' ok hl h1
  refine ⟨st', r, ?_, h3, h4, h5⟩
  rw [← h2]
  simp only [rewriteRequest, rewriteApply, if_true]
  exact (prune_apply k x rs st).symm

end Pound
