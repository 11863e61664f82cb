import Verif.Proof.RuleCfg
import Verif.Proof.CfgSet
import Verif.Model.SvcAll

namespace Pound

open Spec

/-! ### Rules that are run one after the other -/

theorem runs_append {γ π σ : Type} {eval : γ → σ → Option Bool → σ → Prop} {act : π → σ → Bool → σ → Prop} {xs ys : List (Stmt γ π)} {s s' : σ} {ok : Bool} :
    Runs eval act (xs ++ ys) s ok s' ↔ (ok = false ∧ Runs eval act xs s false s') ∨ ∃ s1, Runs eval act xs s true s1 ∧ Runs eval act ys s1 ok s' := by
  constructor
  · intro h
    generalize hz : xs ++ ys = zs at h
    induction h generalizing xs with
    | done =>
      obtain ⟨rfl, rfl⟩ := List.append_eq_nil_iff.mp hz
      exact Or.inr ⟨_, .done, .done⟩
    | @act p ss s s' ok s'' ha hr ih =>
      cases xs with
      | nil => exact Or.inr ⟨_, .done, by rw [List.nil_append] at hz; rw [hz]; exact .act ha hr⟩
      | cons x xs =>
        rw [List.cons_append] at hz
        obtain ⟨rfl, rfl⟩ := List.cons.inj hz
        rcases ih rfl with ⟨h1, h2⟩ | ⟨s1, h1, h2⟩
        · exact Or.inl ⟨h1, .act ha h2⟩
        · exact Or.inr ⟨s1, .act ha h1, h2⟩
    | @actFail p ss s s' ha =>
      cases xs with
      | nil => exact Or.inr ⟨_, .done, by rw [List.nil_append] at hz; rw [hz]; exact .actFail ha⟩
      | cons x xs =>
        rw [List.cons_append] at hz
        obtain ⟨rfl, rfl⟩ := List.cons.inj hz
        exact Or.inl ⟨rfl, .actFail ha⟩
    | @noBranch ss s ok s' hr ih =>
      cases xs with
      | nil => exact Or.inr ⟨_, .done, by rw [List.nil_append] at hz; rw [hz]; exact .noBranch hr⟩
      | cons x xs =>
        rw [List.cons_append] at hz
        obtain ⟨rfl, rfl⟩ := List.cons.inj hz
        rcases ih rfl with ⟨h1, h2⟩ | ⟨s1, h1, h2⟩
        · exact Or.inl ⟨h1, .noBranch h2⟩
        · exact Or.inr ⟨s1, .noBranch h1, h2⟩
    | @next c b bs ss s v s' ok s'' he hv hr ih =>
      cases xs with
      | nil => exact Or.inr ⟨_, .done, by rw [List.nil_append] at hz; rw [hz]; exact .next he hv hr⟩
      | cons x xs =>
        rw [List.cons_append] at hz
        obtain ⟨rfl, rfl⟩ := List.cons.inj hz
        rcases ih (xs := .cases bs :: xs) rfl with ⟨h1, h2⟩ | ⟨s1, h1, h2⟩
        · exact Or.inl ⟨h1, .next he hv h2⟩
        · exact Or.inr ⟨s1, .next he hv h1, h2⟩
    | @branch c b bs ss s s' s'' ok s''' he hb hr ihb ih =>
      cases xs with
      | nil => exact Or.inr ⟨_, .done, by rw [List.nil_append] at hz; rw [hz]; exact .branch he hb hr⟩
      | cons x xs =>
        rw [List.cons_append] at hz
        obtain ⟨rfl, rfl⟩ := List.cons.inj hz
        rcases ih rfl with ⟨h1, h2⟩ | ⟨s1, h1, h2⟩
        · exact Or.inl ⟨h1, .branch he hb h2⟩
        · exact Or.inr ⟨s1, .branch he hb h1, h2⟩
    | @branchFail c b bs ss s s' s'' he hb ihb =>
      cases xs with
      | nil => exact Or.inr ⟨_, .done, by rw [List.nil_append] at hz; rw [hz]; exact .branchFail he hb⟩
      | cons x xs =>
        rw [List.cons_append] at hz
        obtain ⟨rfl, rfl⟩ := List.cons.inj hz
        exact Or.inl ⟨rfl, .branchFail he hb⟩
  · rintro (⟨rfl, h⟩ | ⟨s1, h1, h2⟩)
    · generalize hok : false = ok at h
      induction h with
      | done => cases hok
      | act ha _ ih => subst hok; exact .act ha (ih rfl)
      | actFail ha => exact .actFail ha
      | noBranch _ ih => subst hok; exact .noBranch (ih rfl)
      | next he hv _ ih => subst hok; exact .next he hv (ih rfl)
      | branch he hb _ _ ih => subst hok; exact .branch he hb (ih rfl)
      | branchFail he hb => exact .branchFail he hb
    · generalize hok : true = ok1 at h1
      induction h1 with
      | done => exact h2
      | act ha _ ih => subst hok; exact .act ha (ih h2 rfl)
      | actFail ha => cases hok
      | noBranch _ ih => subst hok; exact .noBranch (ih h2 rfl)
      | next he hv _ ih => subst hok; exact .next he hv (ih h2 rfl)
      | branch he hb _ _ ih => subst hok; exact .branch he hb (ih h2 rfl)
      | branchFail he hb => cases hok

theorem evals_true {α σ : Type} {test : α → σ → Option Bool → σ → Prop} {s s' : σ} {v : Option Bool} : Evals test (.and []) s v s' ↔ v = some true ∧ s' = s := by
  constructor
  · intro h; cases h; exact ⟨rfl, rfl⟩
  · rintro ⟨rfl, rfl⟩; exact .allDone

theorem runs_always {α π σ : Type} {test : α → σ → Option Bool → σ → Prop} {act : π → σ → Bool → σ → Prop} {b ss : List (Stmt (Formula α) π)}
    {bs : List (Formula α × List (Stmt (Formula α) π))} {s s' : σ} {ok : Bool} :
    Runs (Evals test) act (.cases ((.and [], b) :: bs) :: ss) s ok s' ↔ Runs (Evals test) act (b ++ ss) s ok s' := by
  rw [runs_append]
  constructor
  · intro h
    cases h with
    | next he hv _ => exact absurd (evals_true.mp he).1 hv
    | branch he hb hr =>
      obtain ⟨_, rfl⟩ := evals_true.mp he
      exact Or.inr ⟨_, hb, hr⟩
    | branchFail he hb =>
      obtain ⟨_, rfl⟩ := evals_true.mp he
      exact Or.inl ⟨rfl, hb⟩
  · rintro (⟨rfl, h⟩ | ⟨s1, h1, h2⟩)
    · exact .branchFail .allDone h
    · exact .branch .allDone h1 h2

theorem sameRuns_refl (xs : List RwStmt) : SameRuns xs xs := fun _ _ _ _ _ _ => Iff.rfl
theorem sameRuns_trans {xs ys zs : List RwStmt} (h1 : SameRuns xs ys) (h2 : SameRuns ys zs) : SameRuns xs zs := fun σ t a s ok s' => (h1 σ t a s ok s').trans (h2 σ t a s ok s')
theorem sameRuns_symm {xs ys : List RwStmt} (h1 : SameRuns xs ys) : SameRuns ys xs := fun σ t a s ok s' => (h1 σ t a s ok s').symm
theorem sameRuns_append {xs ys : List RwStmt} (h : SameRuns xs ys) (zs : List RwStmt) : SameRuns (xs ++ zs) (ys ++ zs) := fun σ t a s ok s' => by
  simp only [runs_append, h σ t a]

theorem rulesStmts_append (a b : List CRule) : rulesStmts (a ++ b) = rulesStmts a ++ rulesStmts b := by simp [rulesStmts]

theorem addUncond_same (p : CPrim) : ∀ rs : List CRule, SameRuns (rulesStmts (addUncond (.prim p) rs)) (rulesStmts rs ++ [.act p])
  | [] => fun σ t a s ok s' => by
    simp only [addUncond, rulesStmts, List.map_cons, List.map_nil, List.nil_append, ruleBranches, condFormulas, ropStmts, ropStmt]
    rw [runs_always]
    rfl
  | [.mk [] ops els] => fun σ t a s ok s' => by
    simp only [addUncond, rulesStmts, List.map_cons, List.map_nil, ruleBranches, condFormulas, List.singleton_append]
    rw [runs_always, runs_always, ropStmts_append, List.append_nil]
    simp [ropStmts, ropStmt]
  | [.null] => fun σ t a s ok s' => by
    simp only [addUncond, rulesStmts, List.map_cons, List.map_nil, ruleBranches, condFormulas, ropStmts, ropStmt, List.singleton_append]
    rw [show ([Stmt.cases [], Stmt.cases [(Formula.and [], [Stmt.act p])]] : List RwStmt) = [.cases []] ++ [.cases [(.and [], [.act p])]] from rfl,
      show ([Stmt.cases [], .act p] : List RwStmt) = [.cases []] ++ [.act p] from rfl, runs_append, runs_append]
    simp only [runs_always]
    rfl
  | [.mk (c :: cs) ops els] => fun σ t a s ok s' => by
    simp only [addUncond, rulesStmts, List.map_cons, List.map_nil]
    rw [show ([Stmt.cases (ruleBranches (.mk (c :: cs) ops els)), Stmt.cases (ruleBranches (.mk [] [.prim p] .null))] : List RwStmt) =
      [.cases (ruleBranches (.mk (c :: cs) ops els))] ++ [.cases (ruleBranches (.mk [] [.prim p] .null))] from rfl, runs_append, runs_append]
    simp only [ruleBranches, condFormulas, ropStmts, ropStmt, runs_always]
    rfl
  | r :: r2 :: rs => fun σ t a s ok s' => by
    have h1 := runs_append (eval := Evals t) (act := a) (xs := [.cases (ruleBranches r)]) (ys := rulesStmts (addUncond (.prim p) (r2 :: rs))) (s := s) (s' := s') (ok := ok)
    have h2 := runs_append (eval := Evals t) (act := a) (xs := [.cases (ruleBranches r)]) (ys := rulesStmts (r2 :: rs) ++ [.act p]) (s := s) (s' := s') (ok := ok)
    have h4 : rulesStmts (addUncond (.prim p) (r :: r2 :: rs)) = [.cases (ruleBranches r)] ++ rulesStmts (addUncond (.prim p) (r2 :: rs)) := by simp [addUncond, rulesStmts]
    have h5 : rulesStmts (r :: r2 :: rs) ++ [.act p] = [.cases (ruleBranches r)] ++ (rulesStmts (r2 :: rs) ++ [.act p]) := by simp [rulesStmts]
    rw [h4, h5]
    refine h1.trans (Iff.trans ?_ h2.symm)
    have h3 : ∀ s1, Runs (Evals t) a (rulesStmts (addUncond (.prim p) (r2 :: rs))) s1 ok s' ↔ Runs (Evals t) a (rulesStmts (r2 :: rs) ++ [.act p]) s1 ok s' :=
      fun s1 => addUncond_same p (r2 :: rs) σ t a s1 ok s'
    simp only [h3]

theorem stmtsOrs_append (xs ys : List RwStmt) : StmtsOrs (xs ++ ys) ↔ StmtsOrs xs ∧ StmtsOrs ys := by
  induction xs with
  | nil => simp [StmtsOrs]
  | cons x xs ih => simp only [List.cons_append, StmtsOrs, ih, and_assoc]

theorem addUncond_ors (p : CPrim) : ∀ rs : List CRule, StmtsOrs (rulesStmts (addUncond (.prim p) rs)) ↔ StmtsOrs (rulesStmts rs ++ [.act p])
  | [] => by simp [addUncond, rulesStmts, ruleBranches, StmtsOrs, StmtOrs, BranchOrs, NoEmptyOr, condFormulas, NoEmptyOrs, ropStmts, ropStmt]
  | [.mk [] ops els] => by
    simp [addUncond, rulesStmts, ruleBranches, StmtsOrs, StmtOrs, BranchOrs, NoEmptyOr, condFormulas, NoEmptyOrs, ropStmts, ropStmt, ropStmts_append, stmtsOrs_append]
  | [.null] => by simp [addUncond, rulesStmts, ruleBranches, StmtsOrs, StmtOrs, BranchOrs, NoEmptyOr, condFormulas, NoEmptyOrs, ropStmts, ropStmt]
  | [.mk (c :: cs) ops els] => by simp [addUncond, rulesStmts, ruleBranches, StmtsOrs, StmtOrs, BranchOrs, NoEmptyOr, condFormulas, NoEmptyOrs, ropStmts, ropStmt]
  | r :: r2 :: rs => by
    have h := addUncond_ors p (r2 :: rs)
    have h4 : rulesStmts (addUncond (.prim p) (r :: r2 :: rs)) = .cases (ruleBranches r) :: rulesStmts (addUncond (.prim p) (r2 :: rs)) := by simp [addUncond, rulesStmts]
    have h5 : rulesStmts (r :: r2 :: rs) ++ [.act p] = .cases (ruleBranches r) :: (rulesStmts (r2 :: rs) ++ [.act p]) := rfl
    rw [h4, h5]
    simp only [StmtsOrs, h]

theorem sameProg_refl (xs : List RwStmt) : SameProg xs xs := ⟨sameRuns_refl xs, Iff.rfl⟩
theorem sameProg_symm {xs ys : List RwStmt} (h : SameProg xs ys) : SameProg ys xs := ⟨sameRuns_symm h.1, h.2.symm⟩
theorem sameProg_trans {xs ys zs : List RwStmt} (h1 : SameProg xs ys) (h2 : SameProg ys zs) : SameProg xs zs := ⟨sameRuns_trans h1.1 h2.1, h1.2.trans h2.2⟩
theorem sameProg_append {xs ys : List RwStmt} (h : SameProg xs ys) (zs : List RwStmt) : SameProg (xs ++ zs) (ys ++ zs) :=
  ⟨sameRuns_append h.1 zs, by simp only [stmtsOrs_append, h.2]⟩
theorem addUncond_prog (p : CPrim) (rs : List CRule) : SameProg (rulesStmts (addUncond (.prim p) rs)) (rulesStmts rs ++ [.act p]) := ⟨addUncond_same p rs, addUncond_ors p rs⟩

/-! ### Services -/

theorem inSvc_mono {p : LParser (List CCond)} (hp : MonoP p) : MonoP (inSvc p) := by
  intro s s' h
  have := hp ⟨s.data.conds, s.toks, s.errs⟩
  unfold inSvc at h
  split at h
  · rename_i s2 hs; simp [LR.st] at h; rw [← h]; exact this s2 (by rw [hs]; rfl)
  · rename_i s2 hs; simp [LR.st] at h; rw [← h]; exact this s2 (by rw [hs]; rfl)
  · rename_i s2 hs; simp [LR.st] at h; rw [← h]; exact this s2 (by rw [hs]; rfl)
  · simp [LR.st] at h

/-- What one statement of a service is -/
inductive SStep (e : CfgEnv) (n : Nat) (d : Dfl) (name : Bytes) (p : LParser SvcCfg) : Prop
  | fin : ciEq b!"End" name = true → p = endParser → SStep e n d name p
  | cond {q : LParser (List CCond)} : condFind e d n name = some q → p = inSvc q → SStep e n d name p
  | rewrite : ciEq b!"Rewrite" name = true → p = rewriteParser (ruleLoop e d n) → SStep e n d name p
  | op {k : OpKw} : kwFind opTable name = some k → (p = fun s =>
      match parseOp e d k s.toks with
      | none => .fail
      | some (o, r) => .ok ⟨{ s.data with req := addUncond (.prim o) s.data.req }, r, s.errs⟩) → SStep e n d name p
  | disabled : ciEq b!"Disabled" name = true → (p = fun s =>
      match boolArg s.toks with
      | none => .fail
      | some (b, r) => .ok ⟨{ s.data with disabled := b }, r, s.errs⟩) → SStep e n d name p
  | ignoreCase : ciEq b!"IgnoreCase" name = true → (p = fun s =>
      match boolArg s.toks with
      | none => .fail
      | some (b, r) => .ok ⟨{ s.data with dfl := { s.data.dfl with icase := b } }, r, s.errs⟩) → SStep e n d name p

theorem sstep {e : CfgEnv} {n : Nat} {d : Dfl} {name : Bytes} {p : LParser SvcCfg} (h : svcFind e n d name = some p) : SStep e n d name p := by
  unfold svcFind at h
  split at h
  · cases h; exact .fin ‹_› rfl
  · split at h
    · cases h; exact .cond ‹_› rfl
    · split at h
      · cases h; exact .rewrite ‹_› rfl
      · split at h
        · rename_i q hq
          cases h
          unfold ruleOp at hq
          simp only [Bool.false_eq_true, if_false] at hq
          split at hq
          · cases hq
            exact .op ‹_› rfl
          · cases hq
        · split at h
          · cases h; exact .disabled ‹_› rfl
          · split at h
            · cases h; exact .ignoreCase ‹_› rfl
            · cases h

theorem svcFind_mono {e : CfgEnv} {n : Nat} {d : Dfl} {name : Bytes} {p : LParser SvcCfg} (h : svcFind e n d name = some p) : MonoP p := by
  cases sstep h with
  | fin _ h => subst h; intro s s' hs; simp [endParser, LR.st] at hs; rw [hs]; exact Nat.le_refl _
  | cond hc h => subst h; exact inSvc_mono (cond_mono e d n name _ hc)
  | rewrite _ h =>
    subst h
    intro s s' hs
    unfold rewriteParser at hs
    split at hs
    · simp [LR.st] at hs
    · rename_i resp r _
      split at hs
      · rename_i s2 h2
        have := ruleLoop_mono e d n ⟨resp, false⟩ ⟨.empty, r, s.errs⟩ s2 (by rw [h2]; rfl)
        split at hs <;> simp [LR.st] at hs <;> rw [← hs] <;> exact this
      · simp [LR.st] at hs
  | op _ h => subst h; intro s s' hs; dsimp only at hs; split at hs <;> simp [LR.st] at hs; rw [← hs]; exact Nat.le_refl _
  | disabled _ h => subst h; intro s s' hs; dsimp only at hs; split at hs <;> simp [LR.st] at hs; rw [← hs]; exact Nat.le_refl _
  | ignoreCase _ h => subst h; intro s s' hs; dsimp only at hs; split at hs <;> simp [LR.st] at hs; rw [← hs]; exact Nat.le_refl _

theorem onFst_mono {σ ω : Type} {p : LParser σ} (hp : MonoP p) : MonoP (onFst p : LParser (σ × ω)) := by
  intro s s' hs
  have := hp ⟨s.data.1, s.toks, s.errs⟩
  unfold onFst at hs
  cases h : p ⟨s.data.1, s.toks, s.errs⟩ <;> rw [h] at hs this <;> simp only [LR.st, Option.some.injEq, reduceCtorEq] at hs
  all_goals (subst hs; exact this _ rfl)

theorem onSnd_mono {σ ω : Type} {N : Nat} {g : Bytes → Option (LParser ω)} {stmt : List Tok → ω → ω → Prop} (hg : OtherSpec N g stmt) {name : Bytes} {p : LParser ω}
    (hp : g name = some p) : MonoP (onSnd p : LParser (σ × ω)) := by
  intro s s' hs
  unfold onSnd at hs
  cases h : p ⟨s.data.2, s.toks, s.errs⟩ <;> rw [h] at hs <;> simp only [LR.st, Option.some.injEq, reduceCtorEq] at hs <;> subst hs
  · exact (hg.ok hp (s' := _) (r := _) (e' := _) h).1
  · exact (hg.nonl hp (s' := _) (r := _) (e' := _) h).1
  · exact absurd h (hg.fin hp)

theorem svcTable_mono {ω : Type} {e : CfgEnv} {n N : Nat} {g : Bytes → Option (LParser ω)} {stmt : List Tok → ω → ω → Prop} (hg : OtherSpec N g stmt) (name : Bytes)
    (p : LParser (SvcCfg × ω)) (h : svcTable e n g name = some p) : MonoP p := by
  cases h
  intro s s' hs
  dsimp only at hs
  split at hs
  · exact onFst_mono (svcFind_mono ‹_›) s s' hs
  · split at hs
    · exact onSnd_mono hg ‹_› s s' hs
    · simp [LR.st] at hs

/-- A statement and what it does -/
def ItemStmt {ι ω : Type} (item : List Tok → ι → Prop) (app : ι → ω → Option ω) (a : List Tok) (s s' : ω) : Prop := ∃ i, item a i ∧ app i s = some s'

theorem onFst_fin' {σ ω : Type} {p : LParser σ} {s : σ × ω} {ts e s' r e'} (h : onFst p ⟨s, ts, e⟩ = .fin ⟨s', r, e'⟩) :
    p ⟨s.1, ts, e⟩ = .fin ⟨s'.1, r, e'⟩ ∧ s'.2 = s.2 := by
  unfold onFst at h
  dsimp only at h
  split at h <;> simp only [LR.fin.injEq, LSt.mk.injEq, reduceCtorEq] at h
  rename_i t ht
  obtain ⟨rfl, rfl, rfl⟩ := h
  exact ⟨ht, rfl⟩

/-- How the statements read so far have changed a service -/
def SvcEnds {ι ω : Type} (e : CfgEnv) (item : List Tok → ι → Prop) (app : ι → ω → Option ω) (x : SvcCfg × ω) (ts : List Tok) (x' : SvcCfg × ω) (ts' : List Tok) : Prop :=
  ∃ body w cs ss b its, ts = body ++ .ident w :: ts' ∧ ciEq b!"End" w = true ∧ SvcBody e item x.1.dfl x'.1.dfl body (condFormulas cs) ss b its ∧ x'.1.conds = x.1.conds ++ cs ∧
    SameProg (rulesStmts x'.1.req) (rulesStmts x.1.req ++ ss) ∧ (x'.1.resp = x.1.resp ∧ OneNots cs) ∧ x'.1.disabled = b.getD x.1.disabled ∧ appAll app its x.2 = some x'.2

theorem boolArg_sound {ts r : List Tok} {v : Bool} (h : boolArg ts = some (v, r)) : ∃ u, ts = u :: r ∧ assignBool u = .ok (some v) := by
  unfold boolArg at h
  split at h
  · cases h
  · split at h
    · rename_i t r' _ b hb
      cases h
      exact ⟨t, rfl, hb⟩
    · cases h

theorem Response_right {a b : List Tok} (h : Response b) : Response (a ++ b) := by
  obtain ⟨pre, n, m, post, rfl, h1, h2⟩ := h
  exact ⟨a ++ pre, n, m, post, by simp, h1, h2⟩

theorem rewriteArg_sound {ts r : List Tok} {resp : Bool} (h : rewriteArg ts = some (resp, r)) :
    (∃ w, ts = .ident w :: r ∧ (ciEq w b!"response" = true ∧ resp = true ∨ ciEq w b!"request" = true ∧ resp = false)) ∨
      (r = ts ∧ resp = false ∧ ts ≠ [] ∧ ∀ w r', ts ≠ .ident w :: r') := by
  unfold rewriteArg at h
  split at h
  · rename_i w r'
    split at h
    · rename_i hw
      cases h
      exact Or.inl ⟨w, rfl, Or.inl ⟨hw, rfl⟩⟩
    · split at h
      · rename_i hw
        cases h
        exact Or.inl ⟨w, rfl, Or.inr ⟨hw, rfl⟩⟩
      · cases h
  · cases h
  · cases h
  · cases h
  · rename_i h1 h2 h3 h4
    cases h
    exact Or.inr ⟨rfl, rfl, h4, h1⟩

theorem RuleBody_nl {e : CfgEnv} {d : Dfl} {t : List Tok} {cs : List (Formula CTest)} {ss : List RwStmt} (h : RuleBody e d t cs ss) : t = [] ∨ (∃ r, t = .nl :: r) ∨ ∃ n r, t = .ident n :: r := by
  cases h with
  | nil => exact Or.inl rfl
  | blank => exact Or.inr (Or.inl ⟨_, rfl⟩)
  | cond h _ =>
    cases h with
    | test h => cases h <;> exact Or.inr (Or.inr ⟨_, _, rfl⟩)
    | not => exact Or.inr (Or.inr ⟨_, _, rfl⟩)
    | group => exact Or.inr (Or.inr ⟨_, _, rfl⟩)
  | act h _ => cases h <;> exact Or.inr (Or.inr ⟨_, _, rfl⟩)
  | sub => exact Or.inr (Or.inr ⟨_, _, rfl⟩)

theorem ruleBody_tail {e : CfgEnv} {d : Dfl} {t : List Tok} {cs : List (Formula CTest)} {ss : List RwStmt} (h : RuleBody e d (.nl :: t) cs ss) : RuleBody e d t cs ss := by
  generalize hz : Tok.nl :: t = z at h
  cases h with
  | nil => cases hz
  | blank h => cases hz; exact h
  | cond h _ =>
    cases h with
    | test h => cases h <;> cases hz
    | not => cases hz
    | group => cases hz
  | act h _ => cases h <;> cases hz
  | sub => cases hz

theorem branches_tail {e : CfgEnv} {d : Dfl} {t : List Tok} {bs : List (Formula CTest × List RwStmt)} (h : Branches e d (.nl :: t) bs) : Branches e d t bs := by
  generalize hz : Tok.nl :: t = z at h
  cases h with
  | @last w t' cs ss hb hw =>
    rcases RuleBody_nl hb with rfl | ⟨r, rfl⟩ | ⟨n, r, rfl⟩
    · cases hz
    · cases hz; exact .last (ruleBody_tail hb) hw
    · cases hz
  | @els w t' r cs ss bs hb hw hr =>
    rcases RuleBody_nl hb with rfl | ⟨r, rfl⟩ | ⟨n, r, rfl⟩
    · cases hz
    · cases hz; exact .els (ruleBody_tail hb) hw hr
    · cases hz

theorem branches_head {e : CfgEnv} {d : Dfl} {t : List Tok} {bs : List (Formula CTest × List RwStmt)} (h : Branches e d t bs) : (∃ r, t = .nl :: r) ∨ ∃ n r, t = .ident n :: r := by
  cases h with
  | last hb hw =>
    rcases RuleBody_nl hb with rfl | ⟨r, rfl⟩ | ⟨n, r, rfl⟩
    · exact Or.inr ⟨_, _, rfl⟩
    · exact Or.inl ⟨_, rfl⟩
    · exact Or.inr ⟨_, _, rfl⟩
  | els hb hw hr =>
    rcases RuleBody_nl hb with rfl | ⟨r, rfl⟩ | ⟨n, r, rfl⟩
    · exact Or.inr ⟨_, _, rfl⟩
    · exact Or.inl ⟨_, rfl⟩
    · exact Or.inr ⟨_, _, rfl⟩

theorem svc_sound {ι ω : Type} {e : CfgEnv} {n : Nat} {er : Nat} {item : List Tok → ι → Prop} {app : ι → ω → Option ω} {g : Bytes → Option (LParser ω)}
    (hg : OtherSpec n g (ItemStmt item app)) {x x' : SvcCfg × ω} {ts ts' : List Tok} (h : RunL (svcTable e n g) true er x ts x' ts') :
    PlainToks x.1.dfl.reType ts → ¬ Response ts → SvcEnds e item app x ts x' ts' := by
  induction h with
  | ended h => cases h
  | nl _ ih =>
    intro hp hr
    obtain ⟨body, w, cs, ss, b, its, rfl, h2, h3, h4, h5, h6, h7, h8⟩ := ih hp.tail (fun h => hr (Response_right (a := [.nl]) h))
    exact ⟨.nl :: body, w, cs, ss, b, its, rfl, h2, .blank h3, h4, h5, h6, h7, h8⟩
  | @okEnd name p d1 d2 d' r ts' hf hx h ih => cases h with | ended h => cases h
  | @ok name p x1 x2 x' r r2 ts' hf hx h ih =>
    intro hp hresp
    cases hf
    obtain ⟨x1, o1⟩ := x1
    obtain ⟨x2, o2⟩ := x2
    dsimp only at hx hp
    split at hx
    · rename_i p hf
      have hx2 := onFst_ok hx
      clear hx
      obtain ⟨hx, ho⟩ := hx2
      dsimp only at hx ho
      subst ho
      cases sstep hf with
      | fin hw hq => subst hq; cases hx
      | cond hc hq =>
        subst hq
        unfold inSvc at hx
        dsimp only at hx
        split at hx
        · rename_i s2 h2
          obtain ⟨x3, t3, e3⟩ := s2
          cases hx
          obtain ⟨a, c, h3, h4, h5⟩ := (cond_sound e _ n name _ hc).ok ⟨_, _, _⟩ _ hp h2 rfl
          simp only at h3 h4 h5
          rcases h5 with h5 | h5
          · exact absurd h5 not_ended_nl
          · subst h3 h4
            rw [show Tok.ident name :: (a ++ Tok.nl :: r2) = (.ident name :: (a ++ [.nl])) ++ r2 by simp] at hp hresp ⊢
            obtain ⟨body, w, cs, ss, b, its, rfl, h12, h13, h14, h15, h16, h17, h18⟩ := ih hp.right (fun h => hresp (Response_right h))
            exact ⟨(.ident name :: (a ++ [.nl])) ++ body, w, c :: cs, ss, b, its, by simp, h12, .cond h5.1 h13, by rw [h14]; simp, h15, ⟨h16.1, h5.2, h16.2⟩, h17, h18⟩
        · cases hx
        · cases hx
        · cases hx
      | rewrite hn hq =>
        subst hq
        unfold rewriteParser at hx
        dsimp only at hx
        split at hx
        · cases hx
        · rename_i resp r' hra
          have hres : resp = false := by
            rcases rewriteArg_sound hra with ⟨w, rfl, ⟨h1, _⟩ | ⟨_, h2⟩⟩ | ⟨_, h2, _⟩
            · exact absurd ⟨[], name, w, _, rfl, hn, h1⟩ hresp
            · exact h2
            · exact h2
          subst hres
          split at hx
          · rename_i s2 h2
            obtain ⟨x3, t3, e3⟩ := s2
            cases hx
            have hpr : PlainToks x1.dfl.reType r' := by
              rcases rewriteArg_sound hra with ⟨w, rfl, _⟩ | ⟨rfl, _⟩
              · exact hp.tail.tail
              · exact hp.tail
            rcases ruleLoop_sound e _ n _ _ _ _ h2 rfl hpr with h3 | ⟨a, w, r3, h3, h4, h5, h6⟩
            · exact absurd h3 not_ended_nl
            · simp only [afterEnd, Bool.false_eq_true, if_false] at h5
              subst h5
              have hsplit : ∃ aa t1, r = aa ++ (t1 ++ .nl :: r2) ∧ RequestArg aa ∧ Branches e x1.dfl t1 (ruleBranches x3.rule) := by
                rcases rewriteArg_sound hra with ⟨w', rfl, ⟨_, h'⟩ | ⟨h', _⟩⟩ | ⟨rfl, _, _, hne⟩
                · cases h'
                · exact ⟨[.ident w'], a ++ [.ident w], by rw [h3]; simp, Or.inr ⟨w', rfl, h'⟩, h6⟩
                · rcases branches_head h6 with ⟨q, hq⟩ | ⟨q1, q, hq⟩
                  · rw [hq] at h6
                    refine ⟨[.nl], q, ?_, Or.inl rfl, branches_tail h6⟩
                    rw [h3, show a ++ Tok.ident w :: Tok.nl :: r2 = (a ++ [.ident w]) ++ .nl :: r2 by simp, hq]
                    simp
                  · refine absurd ?_ (hne q1 (q ++ .nl :: r2))
                    rw [h3, show a ++ Tok.ident w :: Tok.nl :: r2 = (a ++ [.ident w]) ++ .nl :: r2 by simp, hq]
                    simp
              obtain ⟨aa, t1, rfl, h7, h8⟩ := hsplit
              rw [show Tok.ident name :: (aa ++ (t1 ++ Tok.nl :: r2)) = (.ident name :: (aa ++ (t1 ++ [.nl]))) ++ r2 by simp] at hp hresp ⊢
              obtain ⟨body, w, cs, ss, b, its, rfl, h12, h13, h14, h15, h16, h17, h18⟩ := ih hp.right (fun h => hresp (Response_right h))
              refine ⟨.ident name :: (aa ++ (t1 ++ .nl :: body)), w, cs, .cases (ruleBranches x3.rule) :: ss, b, its, by simp, h12, .rewrite hn h7 h8 h13, h14, ?_, h16, h17, h18⟩
              simpa [rulesStmts_append, rulesStmts] using h15
          · cases hx
      | op hk hq =>
        subst hq
        dsimp only at hx
        split at hx
        · cases hx
        · rename_i o r' h2
          cases hx
          obtain ⟨a, rfl, h3⟩ := act_sound hk h2
          rw [show Tok.ident name :: (a ++ Tok.nl :: r2) = (.ident name :: (a ++ [.nl])) ++ r2 by simp] at hp hresp ⊢
          obtain ⟨body, w, cs, ss, b, its, rfl, h12, h13, h14, h15, h16, h17, h18⟩ := ih hp.right (fun h => hresp (Response_right h))
          refine ⟨(.ident name :: a) ++ .nl :: body, w, cs, .act o :: ss, b, its, by simp, h12, .act h3 h13, h14, ?_, h16, h17, h18⟩
          refine sameProg_trans h15 ?_
          have := sameProg_append (addUncond_prog o x1.req) ss
          simpa using this
      | disabled hn hq =>
        subst hq
        dsimp only at hx
        split at hx
        · cases hx
        · rename_i v r' h2
          cases hx
          obtain ⟨u, rfl, h3⟩ := boolArg_sound h2
          obtain ⟨body, w, cs, ss, b, its, rfl, h12, h13, h14, h15, h16, h17, h18⟩ := ih hp.tail.tail.tail (fun h => hresp (Response_right (a := [.ident name, u, .nl]) h))
          exact ⟨.ident name :: u :: .nl :: body, w, cs, ss, some (b.getD v), its, rfl, h12, .disabled hn h3 h13, h14, h15, h16, h17, h18⟩
      | ignoreCase hn hq =>
        subst hq
        dsimp only at hx
        split at hx
        · cases hx
        · rename_i v r' h2
          cases hx
          obtain ⟨u, rfl, h3⟩ := boolArg_sound h2
          obtain ⟨body, w, cs, ss, b, its, rfl, h12, h13, h14, h15, h16, h17, h18⟩ := ih hp.tail.tail.tail (fun h => hresp (Response_right (a := [.ident name, u, .nl]) h))
          exact ⟨.ident name :: u :: .nl :: body, w, cs, ss, b, its, rfl, h12, .ignoreCase hn h3 h13, h14, h15, h16, h17, h18⟩
    · split at hx
      · rename_i q hq
        have hx2 := onSnd_ok hx
        clear hx
        obtain ⟨hx, ho⟩ := hx2
        dsimp only at hx ho
        subst ho
        obtain ⟨a, ha, i, hi, hi2⟩ := (hg.ok hq hx).2 rfl
        subst ha
        rw [show Tok.ident name :: (a ++ Tok.nl :: r2) = (.ident name :: (a ++ [.nl])) ++ r2 by simp] at hp hresp ⊢
        obtain ⟨body, w, cs, ss, b, its, rfl, h12, h13, h14, h15, h16, h17, h18⟩ := ih hp.right (fun h => hresp (Response_right h))
        exact ⟨(.ident name :: (a ++ [.nl])) ++ body, w, cs, ss, b, i :: its, by simp, h12, .other hi h13, h14, h15, h16, h17, by simp only [appAll, hi2]; exact h18⟩
      · cases hx
  | @nonl name p x1 x2 x' r r2 ts' hf hx h ih =>
    intro hp hresp
    cases hf
    obtain ⟨x1, o1⟩ := x1
    obtain ⟨x2, o2⟩ := x2
    dsimp only at hx hp
    split at hx
    · rename_i p hf
      have hx2 := onFst_nonl hx
      clear hx
      obtain ⟨hx, ho⟩ := hx2
      dsimp only at hx ho
      subst ho
      cases sstep hf with
      | fin hw hq => subst hq; cases hx
      | rewrite hn hq =>
        subst hq
        unfold rewriteParser at hx
        split at hx
        · cases hx
        · split at hx
          · split at hx <;> cases hx
          · cases hx
      | op hk hq => subst hq; dsimp only at hx; split at hx <;> cases hx
      | disabled hn hq => subst hq; dsimp only at hx; split at hx <;> cases hx
      | ignoreCase hn hq => subst hq; dsimp only at hx; split at hx <;> cases hx
      | cond hc hq =>
        subst hq
        unfold inSvc at hx
        dsimp only at hx
        split at hx
        · cases hx
        · rename_i s2 h2
          obtain ⟨x3, t3, e3⟩ := s2
          cases hx
          obtain ⟨_, a, c, h3, h4, h5⟩ := (cond_sound e _ n name _ hc).nonl ⟨_, _, _⟩ _ hp h2 rfl
          simp only at h3 h4 h5
          rcases h5 with (rfl | ⟨_, rfl⟩) | h5
          · cases h with | ended h => cases h
          · exact (run_eof h).elim
          · subst h3 h4
            rw [show Tok.ident name :: (a ++ t3) = (.ident name :: a) ++ t3 by simp] at hp hresp ⊢
            obtain ⟨body, w, cs, ss, b, its, rfl, h12, h13, h14, h15, h16, h17, h18⟩ := ih hp.right (fun h => hresp (Response_right h))
            exact ⟨(.ident name :: a) ++ body, w, c :: cs, ss, b, its, by simp, h12, .cond h5.1 h13, by rw [h14]; simp, h15, ⟨h16.1, h5.2, h16.2⟩, h17, h18⟩
        · cases hx
        · cases hx
    · split at hx
      · rename_i q hq
        have hx2 := onSnd_nonl hx
        clear hx
        obtain ⟨hx, ho⟩ := hx2
        dsimp only at hx ho
        subst ho
        obtain ⟨a, ha, i, hi, hi2⟩ := (hg.nonl hq hx).2 rfl
        subst ha
        rw [show Tok.ident name :: (a ++ r2) = (.ident name :: a) ++ r2 by simp] at hp hresp ⊢
        obtain ⟨body, w, cs, ss, b, its, rfl, h12, h13, h14, h15, h16, h17, h18⟩ := ih hp.right (fun h => hresp (Response_right h))
        exact ⟨(.ident name :: a) ++ body, w, cs, ss, b, i :: its, by simp, h12, .other hi h13, h14, h15, h16, h17, by simp only [appAll, hi2]; exact h18⟩
      · cases hx
  | @fin name p x1 x2 r r2 hf hx =>
    intro hp hresp
    cases hf
    obtain ⟨x1, o1⟩ := x1
    obtain ⟨x2, o2⟩ := x2
    dsimp only at hx hp
    split at hx
    · rename_i p hf
      have hx2 := onFst_fin' hx
      clear hx
      obtain ⟨hx, ho⟩ := hx2
      dsimp only at hx ho
      subst ho
      cases sstep hf with
      | fin hw hq =>
        subst hq
        cases hx
        exact ⟨[], name, [], [], none, [], rfl, hw, .nil, by simp, by rw [List.append_nil]; exact sameProg_refl _, ⟨rfl, trivial⟩, rfl, rfl⟩
      | rewrite hn hq =>
        subst hq
        unfold rewriteParser at hx
        split at hx
        · cases hx
        · split at hx
          · split at hx <;> cases hx
          · cases hx
      | op hk hq => subst hq; dsimp only at hx; split at hx <;> cases hx
      | disabled hn hq => subst hq; dsimp only at hx; split at hx <;> cases hx
      | ignoreCase hn hq => subst hq; dsimp only at hx; split at hx <;> cases hx
      | cond hc hq =>
        subst hq
        unfold inSvc at hx
        split at hx
        · cases hx
        · cases hx
        · rename_i s2 h2
          exact absurd h2 (cond_nofin e _ n hc _ _)
        · cases hx
    · split at hx
      · obtain ⟨s', x', h2⟩ := onSnd_fin hx
        exact absurd h2 (hg.fin ‹_›)
      · cases hx

/-! ### Completeness -/

/-- Statements that are read in a service -/
def SDone {ι ω : Type} (e : CfgEnv) (app : ι → ω → Option ω) (g : Nat → Bytes → Option (LParser ω)) (d d' : Dfl) (t : List Tok) (fs : List (Formula CTest)) (ss : List RwStmt)
    (b : Option Bool) (its : List ι) : Prop :=
  ∃ cs N j, condFormulas cs = fs ∧ ∀ (x : SvcCfg) (o o' : ω), x.dfl = d → appAll app its o = some o' → ∃ x' : SvcCfg, x'.conds = x.conds ++ cs ∧
    SameProg (rulesStmts x'.req) (rulesStmts x.req ++ ss) ∧ (x'.resp = x.resp ∧ x'.dfl = d') ∧ x'.disabled = b.getD x.disabled ∧ ∀ n, N ≤ n → ∀ m r er,
      cfgL (svcTable e n (g n)) false true (m + j) ⟨(x, o), t ++ r, er⟩ = cfgL (svcTable e n (g n)) false true m ⟨(x', o'), r, er⟩

theorem branches_blank {e : CfgEnv} {d : Dfl} {t : List Tok} {bs : List (Formula CTest × List RwStmt)} (h : Branches e d t bs) : Branches e d (.nl :: t) bs := by
  cases h with
  | last hb hw => exact .last (t := .nl :: _) (.blank hb) hw
  | els hb hw hr => exact .els (t := .nl :: _) (.blank hb) hw hr

theorem svcBody_head {ι : Type} {e : CfgEnv} {item : List Tok → ι → Prop} (hi : ∀ {t i}, item t i → ∃ n r, t = .ident n :: r) {d d' : Dfl} {t : List Tok}
    {fs : List (Formula CTest)} {ss : List RwStmt} {b : Option Bool} {its : List ι} (h : SvcBody e item d d' t fs ss b its) :
    t = [] ∨ (∃ r, t = .nl :: r) ∨ ∃ n r, t = .ident n :: r := by
  cases h with
  | nil => exact Or.inl rfl
  | blank => exact Or.inr (Or.inl ⟨_, rfl⟩)
  | cond h _ =>
    cases h with
    | test h => cases h <;> exact Or.inr (Or.inr ⟨_, _, rfl⟩)
    | not => exact Or.inr (Or.inr ⟨_, _, rfl⟩)
    | group => exact Or.inr (Or.inr ⟨_, _, rfl⟩)
  | act h _ => cases h <;> exact Or.inr (Or.inr ⟨_, _, rfl⟩)
  | rewrite => exact Or.inr (Or.inr ⟨_, _, rfl⟩)
  | disabled => exact Or.inr (Or.inr ⟨_, _, rfl⟩)
  | ignoreCase => exact Or.inr (Or.inr ⟨_, _, rfl⟩)
  | other h _ =>
    obtain ⟨n, r, rfl⟩ := hi h
    exact Or.inr (Or.inr ⟨n, _, rfl⟩)

theorem onFst_of_ok {σ ω : Type} {p : LParser σ} {x x' : σ} {o : ω} {r r' : List Tok} {er er' : Nat} (h : p ⟨x, r, er⟩ = .ok ⟨x', r', er'⟩) :
    onFst p ⟨(x, o), r, er⟩ = .ok ⟨(x', o), r', er'⟩ := by unfold onFst; simp only [h]

theorem onFst_of_nonl {σ ω : Type} {p : LParser σ} {x x' : σ} {o : ω} {r r' : List Tok} {er er' : Nat} (h : p ⟨x, r, er⟩ = .nonl ⟨x', r', er'⟩) :
    onFst p ⟨(x, o), r, er⟩ = .nonl ⟨(x', o), r', er'⟩ := by unfold onFst; simp only [h]

theorem onSnd_of_ok {σ ω : Type} {p : LParser ω} {x : σ} {o o' : ω} {r r' : List Tok} {er er' : Nat} (h : p ⟨o, r, er⟩ = .ok ⟨o', r', er'⟩) :
    onSnd p ⟨(x, o), r, er⟩ = .ok ⟨(x, o'), r', er'⟩ := by unfold onSnd; simp only [h]

theorem onSnd_of_nonl {σ ω : Type} {p : LParser ω} {x : σ} {o o' : ω} {r r' : List Tok} {er er' : Nat} (h : p ⟨o, r, er⟩ = .nonl ⟨o', r', er'⟩) :
    onSnd p ⟨(x, o), r, er⟩ = .nonl ⟨(x, o'), r', er'⟩ := by unfold onSnd; simp only [h]

theorem svc_step2 {ω : Type} {e : CfgEnv} {n : Nat} {g : Bytes → Option (LParser ω)} {name : Bytes} {x : SvcCfg} {o : ω} {p : LParser ω}
    (h0 : svcFind e n x.dfl name = none) (hf : g name = some p) (m : Nat) (r : List Tok) (er : Nat) :
    cfgL (svcTable e n g) false true (m + 1) ⟨(x, o), .ident name :: r, er⟩ = afterL (svcTable e n g) false true m (onSnd p ⟨(x, o), r, er⟩) := by
  rw [cfgL_known (svcTable e n g) false true m (x, o) r er (name := name) rfl]
  simp only [h0, hf]

theorem svc_step {ω : Type} {e : CfgEnv} {n : Nat} {g : Bytes → Option (LParser ω)} {name : Bytes} {x : SvcCfg} {o : ω} {p : LParser SvcCfg}
    (hf : svcFind e n x.dfl name = some p) (m : Nat) (r : List Tok) (er : Nat) :
    cfgL (svcTable e n g) false true (m + 1) ⟨(x, o), .ident name :: r, er⟩ = afterL (svcTable e n g) false true m (onFst p ⟨(x, o), r, er⟩) := by
  rw [cfgL_known (svcTable e n g) false true m (x, o) r er (name := name) rfl]
  simp only [hf]

theorem boolArg_complete {u : Tok} {v : Bool} (h : assignBool u = .ok (some v)) (r : List Tok) : boolArg (u :: r) = some (v, r) := by simp [boolArg, h]

theorem svc_complete {ι ω : Type} {e : CfgEnv} {item : List Tok → ι → Prop} {app : ι → ω → Option ω} {g : Nat → Bytes → Option (LParser ω)}
    (hg : ∀ n, OtherSpec n (g n) (ItemStmt item app)) (hd : ∀ {n d name p}, g n name = some p → svcFind e n d name = none)
    {d d' : Dfl} {t : List Tok} {fs : List (Formula CTest)} {ss : List RwStmt} {b : Option Bool} {its : List ι} (h : SvcBody e item d d' t fs ss b its) :
    PlainToks d.reType t → SDone e app g d d' t fs ss b its := by
  induction h with
  | nil => exact fun _ => ⟨[], 0, 0, rfl, fun x o o' hx ho => ⟨x, by simp, by rw [List.append_nil]; exact sameProg_refl _, ⟨rfl, hx⟩, rfl, fun n _ m r er => by cases ho; simp⟩⟩
  | blank _ ih =>
    intro hp
    obtain ⟨cs, N, j, h1, h2⟩ := ih hp.tail
    refine ⟨cs, N, j + 1, h1, fun x o o' hx ho => ?_⟩
    obtain ⟨x', h3, h4, h5, h6, h7⟩ := h2 x o o' hx ho
    exact ⟨x', h3, h4, h5, h6, fun n hn m r er => by rw [← Nat.add_assoc, List.cons_append, cfgL_nl, h7 n hn]⟩
  | @cond d d' t1 t2 c cs ss b its hc _ ih =>
    intro hp
    obtain ⟨name, a, c', N1, rfl, hcf, h1⟩ := cond_complete hc hp.left
    obtain ⟨cs, N, j, h2, h3⟩ := ih hp.right
    refine ⟨c' :: cs, N1 + N, j + 1, by simp [condFormulas, hcf, h2], fun x o o' hx ho => ?_⟩
    obtain ⟨x', h4, h5, h6, h7, h8⟩ := h3 { x with conds := x.conds ++ [c'] } o o' hx ho
    refine ⟨x', by rw [h4]; simp, h5, h6, h7, fun n hn m r er => ?_⟩
    obtain ⟨p, hf, hr⟩ := h1 n (by omega)
    obtain ⟨k, hk⟩ := condFind_kw hf
    have hb : svcFind e n x.dfl name = some (inSvc p) := by
      unfold svcFind
      rw [kw_not hk (w := b!"End") (by decide), hx, hf]
      rfl
    rw [show Tok.ident name :: a ++ t2 ++ r = .ident name :: (a ++ (t2 ++ r)) by simp, ← Nat.add_assoc, svc_step hb]
    have : afterL (svcTable e n (g n)) false true (m + j) (onFst (inSvc p) ⟨(x, o), a ++ (t2 ++ r), er⟩) =
        cfgL (svcTable e n (g n)) false true (m + j) ⟨({ x with conds := x.conds ++ [c'] }, o), t2 ++ r, er⟩ := by
      rcases hr with ⟨_, h⟩ | ⟨_, a', rfl, h⟩
      · rw [onFst_of_nonl (by simp only [inSvc, h]; rfl)]; rfl
      · rw [List.append_assoc, onFst_of_ok (by simp only [inSvc, List.singleton_append, h]; rfl)]; rfl
    rw [this, h8 n (by omega)]
  | @act d d' t1 t2 p cs ss b its ha _ ih =>
    intro hp
    obtain ⟨name, a, k, rfl, hk, hop⟩ := act_complete ha
    obtain ⟨cs, N, j, h2, h3⟩ := ih hp.right.tail
    refine ⟨cs, N, j + 1, h2, fun x o o' hx ho => ?_⟩
    obtain ⟨x', h4, h5, h6, h7, h8⟩ := h3 { x with req := addUncond (.prim p) x.req } o o' hx ho
    refine ⟨x', h4, ?_, h6, h7, fun n hn m r er => ?_⟩
    · refine sameProg_trans h5 ?_
      have := sameProg_append (addUncond_prog p x.req) ss
      simpa using this
    · have hb : svcFind e n x.dfl name = some (fun s =>
          match parseOp e x.dfl k s.toks with
          | none => .fail
          | some (o, r) => .ok ⟨{ s.data with req := addUncond (.prim o) s.data.req }, r, s.errs⟩) := by
        unfold svcFind
        rw [kw_not hk (w := b!"End") (by decide), kw_not hk (w := b!"Rewrite") (by decide)]
        simp [condFind_none (op_not_cond hk), ruleOp, hk]
        rfl
      rw [show Tok.ident name :: a ++ Tok.nl :: t2 ++ r = .ident name :: (a ++ (.nl :: (t2 ++ r))) by simp, ← Nat.add_assoc, svc_step hb]
      subst hx
      rw [onFst_of_ok (by dsimp only; rw [hop])]
      exact h8 n hn m r er
  | @rewrite d d' name a t1 t2 bs cs ss b its hn ha hbr _ ih =>
    intro hp
    obtain ⟨tt, h0, hp0, hra⟩ : ∃ tt, Branches e d tt bs ∧ PlainToks d.reType tt ∧ ∀ r, rewriteArg (a ++ (t1 ++ r)) = some (false, tt ++ r) := by
      rcases ha with rfl | ⟨v, rfl, hv⟩
      · refine ⟨.nl :: t1, branches_blank hbr, ?_, fun r => rfl⟩
        exact PlainToks.left (b := .nl :: t2) (by simpa using hp.tail)
      · have hnr : ciEq v b!"response" = false := by
          cases hz : ciEq v b!"response" with
          | false => rfl
          | true => exact absurd (ciEq_trans (ciEq_symm hz) hv) (by decide)
        exact ⟨t1, hbr, hp.tail.right.left, fun r => by simp [rewriteArg, hnr, hv]⟩
    obtain ⟨a', w, R, N1, rfl, hw, hR, h1⟩ := rule_complete h0 hp0
    obtain ⟨cs, N, j, h2, h3⟩ := ih hp.tail.right.right.tail
    refine ⟨cs, N1 + N, j + 1, h2, fun x o o' hx ho => ?_⟩
    obtain ⟨x', h4, h5, h6, h7, h8⟩ := h3 { x with req := x.req ++ [R.rule] } o o' hx ho
    refine ⟨x', h4, ?_, h6, h7, fun n hge m r er => ?_⟩
    · simpa [rulesStmts_append, rulesStmts, hR] using h5
    · have hb : svcFind e n x.dfl name = some (rewriteParser (ruleLoop e x.dfl n)) := by
        unfold svcFind
        rw [ci_not hn (b := b!"End") (by decide), condFind_none (by rw [kwFind_congr _ hn]; decide), hn]
        rfl
      rw [show Tok.ident name :: (a ++ (t1 ++ Tok.nl :: t2)) ++ r = .ident name :: (a ++ (t1 ++ .nl :: (t2 ++ r))) by simp, ← Nat.add_assoc, svc_step hb]
      have : rewriteParser (ruleLoop e x.dfl n) ⟨x, a ++ (t1 ++ .nl :: (t2 ++ r)), er⟩ = .ok ⟨{ x with req := x.req ++ [R.rule] }, .nl :: (t2 ++ r), er⟩ := by
        unfold rewriteParser
        dsimp only
        rw [hra]
        dsimp only
        rw [hx, h1 n (by omega) false]
        rfl
      rw [onFst_of_ok this]
      exact h8 n (by omega) m r er
  | @disabled d d' name u v t cs ss b its hn hu _ ih =>
    intro hp
    obtain ⟨cs, N, j, h2, h3⟩ := ih hp.tail.tail.tail
    refine ⟨cs, N, j + 1, h2, fun x o o' hx ho => ?_⟩
    obtain ⟨x', h4, h5, h6, h7, h8⟩ := h3 { x with disabled := v } o o' hx ho
    refine ⟨x', h4, h5, h6, h7, fun n hge m r er => ?_⟩
    have hb : svcFind e n x.dfl name = some (fun s =>
        match boolArg s.toks with
        | none => .fail
        | some (b, r) => .ok ⟨{ s.data with disabled := b }, r, s.errs⟩) := by
      unfold svcFind
      rw [ci_not hn (b := b!"End") (by decide), ci_not hn (b := b!"Rewrite") (by decide), condFind_none (by rw [kwFind_congr _ hn]; decide)]
      simp only [ruleOp, Bool.false_eq_true, if_false]
      rw [kwFind_none hn (by decide), hn]
      rfl
    rw [show Tok.ident name :: u :: .nl :: t ++ r = .ident name :: (u :: .nl :: (t ++ r)) by simp, ← Nat.add_assoc, svc_step hb]
    rw [onFst_of_ok (by dsimp only; rw [boolArg_complete hu])]
    exact h8 n hge m r er
  | @ignoreCase d d' name u v t cs ss b its hn hu _ ih =>
    intro hp
    obtain ⟨cs, N, j, h2, h3⟩ := ih hp.tail.tail.tail
    refine ⟨cs, N, j + 1, h2, fun x o o' hx ho => ?_⟩
    obtain ⟨x', h4, h5, h6, h7, h8⟩ := h3 { x with dfl := { x.dfl with icase := v } } o o' (by rw [← hx]) ho
    refine ⟨x', h4, h5, h6, h7, fun n hge m r er => ?_⟩
    have hb : svcFind e n x.dfl name = some (fun s =>
        match boolArg s.toks with
        | none => .fail
        | some (b, r) => .ok ⟨{ s.data with dfl := { s.data.dfl with icase := b } }, r, s.errs⟩) := by
      unfold svcFind
      rw [ci_not hn (b := b!"End") (by decide), ci_not hn (b := b!"Rewrite") (by decide), condFind_none (by rw [kwFind_congr _ hn]; decide)]
      simp only [ruleOp, Bool.false_eq_true, if_false]
      rw [kwFind_none hn (by decide), ci_not hn (b := b!"Disabled") (by decide), hn]
      rfl
    rw [show Tok.ident name :: u :: .nl :: t ++ r = .ident name :: (u :: .nl :: (t ++ r)) by simp, ← Nat.add_assoc, svc_step hb]
    rw [onFst_of_ok (by dsimp only; rw [boolArg_complete hu])]
    exact h8 n hge m r er
  | @other d d' t1 t2 i cs ss b its hi _ ih =>
    intro hp
    obtain ⟨cs, N, j, h2, h3⟩ := ih hp.right
    refine ⟨cs, t1.length + N, j + 1, h2, fun x o o' hx ho => ?_⟩
    simp only [appAll, Option.bind_eq_some_iff] at ho
    obtain ⟨o1, ho1, ho⟩ := ho
    obtain ⟨x', h4, h5, h6, h7, h8⟩ := h3 x o1 o' hx ho
    refine ⟨x', h4, h5, h6, h7, fun n hge m r er => ?_⟩
    obtain ⟨name, a, p, rfl, hf, hr⟩ := (hg n).complete (t := t1) (s := o) (s' := o1) ⟨i, hi, ho1⟩ (by omega)
    rw [show Tok.ident name :: a ++ t2 ++ r = .ident name :: (a ++ (t2 ++ r)) by simp, ← Nat.add_assoc, svc_step2 (hd hf) hf]
    have : afterL (svcTable e n (g n)) false true (m + j) (onSnd p ⟨(x, o), a ++ (t2 ++ r), er⟩) =
        cfgL (svcTable e n (g n)) false true (m + j) ⟨(x, o1), t2 ++ r, er⟩ := by
      rcases hr with h | ⟨a', rfl, h⟩
      · rw [onSnd_of_nonl (h _ _)]; rfl
      · rw [List.append_assoc, List.singleton_append, onSnd_of_ok (h _ _)]; rfl
    rw [this, h8 n (by omega)]

end Pound
