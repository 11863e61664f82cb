import Verif.Proof.CondCfg

namespace Pound

open Spec

/-! ### Modifications -/

theorem regexCompat_sound {e : CfgEnv} {k0 : GKind} {c0 : Bool} {ts r : List Tok} {p : Pattern} (h : regexCompat e k0 c0 ts = some (p, r)) :
    ∃ opts k c q, ts = opts.map .literal ++ .string q :: r ∧ Opts e k0 k0 c0 opts k c false ∧ e.compiles ⟨k, c, false, q⟩ = true ∧ p = ⟨k, c, false, q⟩ := by
  unfold regexCompat at h
  cases hm : matchMode e k0 false ts ⟨k0, c0, false⟩ with
  | none => rw [hm] at h; cases h
  | some x =>
    obtain ⟨m, r1⟩ := x
    obtain ⟨opts, q, rest, rfl, h2, h3⟩ := matchMode_shape _ _ _ _ _ _ hm
    simp only at h2 h3
    subst h2
    rw [hm] at h
    dsimp only at h
    split at h
    · rename_i hc
      simp only [Option.some.injEq, Prod.mk.injEq] at h
      obtain ⟨rfl, rfl⟩ := h
      exact ⟨opts, m.kind, m.icase, q, rfl, ((opts_iff' e k0 k0 c0 opts m).mp h3).1, hc, rfl⟩
    · cases h

theorem regexCompat_complete {e : CfgEnv} {k0 : GKind} {c0 : Bool} {r : List Tok} {opts : List Bytes} {k : GKind} {c : Bool} {q : Bytes}
    (ho : Opts e k0 k0 c0 opts k c false) (hc : e.compiles ⟨k, c, false, q⟩ = true) :
    regexCompat e k0 c0 (opts.map .literal ++ .string q :: r) = some (⟨k, c, false, q⟩, r) := by
  have hm := (opts_iff' e k0 k0 c0 opts ⟨k, c, false⟩).mpr ⟨ho, rfl⟩
  unfold regexCompat
  rw [matchMode_lits, hm]
  simp [hc]

theorem act_sound {e : CfgEnv} {d : Dfl} {n : Bytes} {k : OpKw} (hk : kwFind opTable n = some k) {ts r : List Tok} {o : CPrim} (h : parseOp e d k ts = some (o, r)) :
    ∃ a, ts = a ++ r ∧ ActStmt e d (.ident n :: a) o := by
  obtain ⟨a, ha, hn⟩ := kwFind_mem hk
  simp only [opTable, List.mem_cons, List.not_mem_nil, or_false, Prod.mk.injEq] at ha
  rcases ha with ⟨rfl, rfl⟩ | ⟨rfl, rfl⟩ | ⟨rfl, rfl⟩ | ⟨rfl, rfl⟩ | ⟨rfl, rfl⟩ | ⟨rfl, rfl⟩
  · unfold parseOp at h
    split at h <;> simp at *
    obtain ⟨rfl, rfl⟩ := h
    exact ⟨[.string _], rfl, .setHeader hn⟩
  · simp only [parseOp, Option.map_eq_some_iff] at h
    obtain ⟨⟨p, r1⟩, h1, h2⟩ := h
    simp only [Prod.mk.injEq] at h2
    obtain ⟨rfl, rfl⟩ := h2
    obtain ⟨opts, k, c, q, rfl, h3, h4, rfl⟩ := regexCompat_sound h1
    exact ⟨opts.map .literal ++ [.string q], by simp, .delHeader hn h3 h4⟩
  · unfold parseOp at h
    split at h <;> simp at *
    obtain ⟨rfl, rfl⟩ := h
    exact ⟨[.string _], rfl, .setURL hn⟩
  · unfold parseOp at h
    split at h <;> simp at *
    obtain ⟨rfl, rfl⟩ := h
    exact ⟨[.string _], rfl, .setPath hn⟩
  · unfold parseOp at h
    split at h <;> simp at *
    obtain ⟨rfl, rfl⟩ := h
    exact ⟨[.string _], rfl, .setQuery hn⟩
  · unfold parseOp at h
    split at h <;> simp at *
    obtain ⟨rfl, rfl⟩ := h
    exact ⟨[.string _, .string _], rfl, .setParam hn⟩

theorem act_complete {e : CfgEnv} {d : Dfl} {t : List Tok} {o : CPrim} (h : ActStmt e d t o) :
    ∃ n a k, t = .ident n :: a ∧ kwFind opTable n = some k ∧ ∀ r, parseOp e d k (a ++ r) = some (o, r) := by
  cases h with
  | @setHeader n t hn => exact ⟨n, [.string t], .setHdr, rfl, by rw [kwFind_congr _ hn]; decide, fun r => rfl⟩
  | @setURL n t hn => exact ⟨n, [.string t], .setUrl, rfl, by rw [kwFind_congr _ hn]; decide, fun r => rfl⟩
  | @setPath n t hn => exact ⟨n, [.string t], .setPath, rfl, by rw [kwFind_congr _ hn]; decide, fun r => rfl⟩
  | @setQuery n t hn => exact ⟨n, [.string t], .setQuery, rfl, by rw [kwFind_congr _ hn]; decide, fun r => rfl⟩
  | @setParam n p t hn => exact ⟨n, [.string p, .string t], .setParam, rfl, by rw [kwFind_congr _ hn]; decide, fun r => rfl⟩
  | @delHeader n p opts k c hn ho hc =>
    exact ⟨n, opts.map .literal ++ [.string p], .delHdr, rfl, by rw [kwFind_congr _ hn]; decide, fun r => by simp [parseOp, regexCompat_complete ho hc]⟩

/-! ### Keywords -/

theorem kw_not {κ : Type} {tab : List (Bytes × κ)} {n : Bytes} {k : κ} (h : kwFind tab n = some k) {w : Bytes} (hw : kwFind tab w = none) : ciEq w n = false := by
  cases he : ciEq w n with
  | false => rfl
  | true => rw [kwFind_none he hw] at h; cases h

theorem ci_not {a b n : Bytes} (ha : ciEq a n = true) (hab : ciEq b a = false) : ciEq b n = false := by
  cases he : ciEq b n with
  | false => rfl
  | true => rw [ciEq_trans he (ciEq_symm ha)] at hab; cases hab

theorem condFind_none {e : CfgEnv} {d : Dfl} {n : Nat} {name : Bytes} (h : kwFind condTable name = none) : condFind e d n name = none := by
  cases n with
  | zero => rfl
  | succ n => unfold condFind; rw [h]

theorem op_not_cond {name : Bytes} {k : OpKw} (h : kwFind opTable name = some k) : kwFind condTable name = none := by
  obtain ⟨a, ha, hn⟩ := kwFind_mem h
  rw [kwFind_congr _ hn]
  simp only [opTable, List.mem_cons, List.not_mem_nil, or_false, Prod.mk.injEq] at ha
  rcases ha with ⟨rfl, rfl⟩ | ⟨rfl, rfl⟩ | ⟨rfl, rfl⟩ | ⟨rfl, rfl⟩ | ⟨rfl, rfl⟩ | ⟨rfl, rfl⟩ <;> decide

/-! ### Messages -/

theorem ruleCond_find {e : CfgEnv} {d : Dfl} {n : Nat} {resp : Bool} {name : Bytes} {p : LParser (List CCond)} (h : ruleCond e d n resp name = some p) :
    condFind e d n name = some p := by
  unfold ruleCond at h
  split at h
  · split at h
    · exact h
    · cases h
  · exact h

theorem inRule_mono {p : LParser (List CCond)} (hp : MonoP p) : MonoP (inRule p) := by
  intro s s' h
  have := hp ⟨s.data.conds, s.toks, s.errs⟩
  unfold inRule at h
  split at h
  · rename_i s2 hs; simp [LR.st] at h; rw [← h]; exact this s2 (by rw [hs]; rfl)
  · rename_i s2 hs; simp [LR.st] at h; rw [← h]; exact this s2 (by rw [hs]; rfl)
  · rename_i s2 hs; simp [LR.st] at h; rw [← h]; exact this s2 (by rw [hs]; rfl)
  · simp [LR.st] at h

theorem ruleParser_mono {e : CfgEnv} {d : Dfl} {n : Nat} {run : RuleTab → LParser RuleSt} (hr : ∀ t, MonoP (run t)) (t : RuleTab) (name : Bytes) (p : LParser RuleSt)
    (h : ruleParser e d n run t name = some p) : MonoP p := by
  unfold ruleParser at h
  split at h
  · cases h
    intro s s' hs
    unfold ruleEnd at hs
    split at hs <;> simp [LR.st] at hs <;> rw [← hs] <;> exact Nat.le_refl _
  · split at h
    · cases h
      intro s s' hs
      simp only at hs
      split at hs
      · rename_i s2 h2; simp [LR.st] at hs; rw [← hs]; exact hr _ ⟨.empty, s.toks, s.errs⟩ s2 (by rw [h2]; rfl)
      · simp [LR.st] at hs
    · split at h
      · cases h
        intro s s' hs
        simp only at hs
        split at hs
        · rename_i s2 h2; simp [LR.st] at hs; rw [← hs]; exact hr _ ⟨.empty, s.toks, s.errs⟩ s2 (by rw [h2]; rfl)
        · simp [LR.st] at hs
      · split at h
        · rename_i q hq
          cases h
          exact inRule_mono (cond_mono e d n name q (ruleCond_find hq))
        · split at h
          · cases h
          · cases h
            intro s s' hs
            simp only at hs
            split at hs
            · simp [LR.st] at hs
            · simp [LR.st] at hs; rw [← hs]; exact Nat.le_refl _

theorem ruleLoop_mono (e : CfgEnv) (d : Dfl) : ∀ n t, MonoP (ruleLoop e d n t)
  | 0, t => fun s s' h => by simp [ruleLoop, LR.st] at h
  | n + 1, t => fun s s' h => cfgL_mono (fun name p hp => ruleParser_mono (ruleLoop_mono e d n) t name p hp) false false n s s' (by simpa [ruleLoop] using h)

/-! ### Soundness -/

theorem run_ended {σ : Type} {find : Bytes → Option (LParser σ)} {er : Nat} {x x' : σ} {ts ts' : List Tok} (h : RunL find false er x ts x' ts') (he : Ended ts) : Ended ts' := by
  cases h with
  | ended _ h => exact h
  | _ => rcases he with he | ⟨_, he⟩ <;> cases he

theorem not_ended_nl {r : List Tok} (h : Ended (.nl :: r)) : False := by rcases h with h | ⟨_, h⟩ <;> cases h

theorem ropStmts_append (a b : List CRop) : ropStmts (a ++ b) = ropStmts a ++ ropStmts b := by
  induction a with
  | nil => rfl
  | cons x a ih => simp [ropStmts, ih]

/-- What is left after the End of a rule -/
def afterEnd (els : Bool) (w : Bytes) (r : List Tok) : List Tok := if els then .nl :: .ident w :: r else r

/-- What the loop over a rule does -/
def RLoop (e : CfgEnv) (d : Dfl) (run : RuleTab → LParser RuleSt) : Prop :=
  ∀ els ts er s', run ⟨false, els⟩ ⟨.empty, ts, er⟩ = .ok s' → s'.errs = er → PlainToks d.reType ts →
    Ended s'.toks ∨ ∃ a w r, ts = a ++ .ident w :: r ∧ ciEq b!"End" w = true ∧ s'.toks = afterEnd els w r ∧ Branches e d (a ++ [.ident w]) (ruleBranches s'.data.rule)

theorem run_end {e : CfgEnv} {d : Dfl} {n : Nat} {run : RuleTab → LParser RuleSt} {els : Bool} {er : Nat} {x x' : RuleSt} {w : Bytes} {r ts' : List Tok}
    (h : RunL (ruleParser e d n run ⟨false, els⟩) false er x (.ident w :: r) x' ts') (hw : ciEq b!"End" w = true) : x' = x ∧ ts' = afterEnd els w r := by
  have hp : ruleParser e d n run ⟨false, els⟩ w = some (ruleEnd els w) := by unfold ruleParser; rw [if_pos hw]
  have hx : ruleEnd els w ⟨x, r, er⟩ = .fin ⟨x, afterEnd els w r, er⟩ := by cases els <;> rfl
  cases h with
  | ended _ h => rcases h with h | ⟨_, h⟩ <;> cases h
  | ok hf h => rw [hp] at hf; cases hf; rw [hx] at h; cases h
  | okEnd hf h => rw [hp] at hf; cases hf; rw [hx] at h; cases h
  | nonl hf h => rw [hp] at hf; cases hf; rw [hx] at h; cases h
  | fin hf h => rw [hp] at hf; cases hf; rw [hx] at h; cases h; exact ⟨rfl, rfl⟩

/-- What one statement of a rule does: it is a condition, a modification, a rule inside, or Else. -/
inductive RStep (e : CfgEnv) (d : Dfl) (n : Nat) (run : RuleTab → LParser RuleSt) (els : Bool) (name : Bytes) (p : LParser RuleSt) : Prop
  | fin : ciEq b!"End" name = true → p = ruleEnd els name → RStep e d n run els name p
  | sub : ciEq b!"Rewrite" name = true → (p = fun s =>
      match run ⟨false, false⟩ ⟨.empty, s.toks, s.errs⟩ with
      | .ok s2 => .ok ⟨{ s.data with ops := s.data.ops ++ [.rule s2.data.rule] }, s2.toks, s2.errs⟩
      | _ => .fail) → RStep e d n run els name p
  | els : ciEq b!"Else" name = true → (p = fun s =>
      match run ⟨false, true⟩ ⟨.empty, s.toks, s.errs⟩ with
      | .ok s2 => .ok ⟨{ s.data with els := s2.data.rule }, s2.toks, s2.errs⟩
      | _ => .fail) → RStep e d n run els name p
  | cond {q : LParser (List CCond)} : condFind e d n name = some q → p = inRule q → RStep e d n run els name p
  | op {k : OpKw} : kwFind opTable name = some k → (p = fun s =>
      match parseOp e d k s.toks with
      | none => .fail
      | some (o, r) => .ok ⟨{ s.data with ops := s.data.ops ++ [.prim o] }, r, s.errs⟩) → RStep e d n run els name p

theorem rstep {e : CfgEnv} {d : Dfl} {n : Nat} {run : RuleTab → LParser RuleSt} {els : Bool} {name : Bytes} {p : LParser RuleSt}
    (h : ruleParser e d n run ⟨false, els⟩ name = some p) : RStep e d n run els name p := by
  unfold ruleParser at h
  split at h
  · cases h; exact .fin ‹_› rfl
  · split at h
    · cases h; exact .sub ‹_› rfl
    · split at h
      · cases h; exact .els ‹_› rfl
      · split at h
        · rename_i q hq
          cases h
          exact .cond (ruleCond_find hq) rfl
        · split at h
          · cases h
          · rename_i q hq
            cases h
            unfold ruleOp at hq
            simp only [Bool.false_eq_true, if_false] at hq
            split at hq
            · cases hq
              exact .op ‹_› rfl
            · cases hq

/-- The end of the loop, from a state before Else -/
def RuleEnds (e : CfgEnv) (d : Dfl) (els : Bool) (x : RuleSt) (ts : List Tok) (x' : RuleSt) (ts' : List Tok) : Prop :=
  ∃ body cs ops w r, RuleBody e d body (condFormulas cs) (ropStmts ops) ∧ x'.conds = x.conds ++ cs ∧ x'.ops = x.ops ++ ops ∧ ciEq b!"End" w = true ∧ ts' = afterEnd els w r ∧
    ((x'.els = .null ∧ ts = body ++ .ident w :: r) ∨
      ∃ w1 a2, ciEq b!"Else" w1 = true ∧ ts = body ++ .ident w1 :: (a2 ++ .ident w :: r) ∧ Branches e d (a2 ++ [.ident w]) (ruleBranches x'.els))

theorem RuleEnds.prepend {e : CfgEnv} {d : Dfl} {els : Bool} {x x1 x' : RuleSt} {t ts ts' : List Tok} {cs1 : List CCond} {ops1 : List CRop}
    (hx : x1.conds = x.conds ++ cs1 ∧ x1.ops = x.ops ++ ops1)
    (hb : ∀ body cs ops, RuleBody e d body (condFormulas cs) (ropStmts ops) → RuleBody e d (t ++ body) (condFormulas (cs1 ++ cs)) (ropStmts (ops1 ++ ops)))
    (h : RuleEnds e d els x1 ts x' ts') : RuleEnds e d els x (t ++ ts) x' ts' := by
  obtain ⟨body, cs, ops, w, r, h1, h2, h3, h4, h5, h6⟩ := h
  refine ⟨t ++ body, cs1 ++ cs, ops1 ++ ops, w, r, hb _ _ _ h1, by rw [h2, hx.1]; simp, by rw [h3, hx.2]; simp, h4, h5, ?_⟩
  rcases h6 with ⟨h6, rfl⟩ | ⟨w1, a2, h6, rfl, h7⟩
  · exact Or.inl ⟨h6, by simp⟩
  · exact Or.inr ⟨w1, a2, h6, by simp, h7⟩

theorem rule_sound {e : CfgEnv} {d : Dfl} {n : Nat} {run : RuleTab → LParser RuleSt} (hr : RLoop e d run) {els : Bool} {er : Nat} {x x' : RuleSt} {ts ts' : List Tok}
    (h : RunL (ruleParser e d n run ⟨false, els⟩) false er x ts x' ts') : x.els = .null → PlainToks d.reType ts → Ended ts' ∨ RuleEnds e d els x ts x' ts' := by
  induction h with
  | ended _ h => intro _ _; exact Or.inl h
  | nl _ ih =>
    intro hx hp
    rcases ih hx hp.tail with h | h
    · exact Or.inl h
    · exact Or.inr (RuleEnds.prepend (t := [.nl]) (cs1 := []) (ops1 := []) (by simp) (fun _ _ _ h => .blank h) h)
  | okEnd hf hx h ih => intro _ _; exact Or.inl (run_ended h (Or.inl rfl))
  | @ok name p x1 x2 x' r r2 ts' hf hx h ih =>
    intro hnull hp
    cases rstep hf with
    | fin hw hq => subst hq; cases els <;> cases hx
    | sub hw hq =>
      subst hq
      dsimp only at hx
      split at hx
      · rename_i s2 h2
        obtain ⟨x3, t3, e3⟩ := s2
        cases hx
        rcases hr _ _ _ _ h2 rfl hp.tail with h3 | ⟨a, w, r', h3, h4, h5, h6⟩
        · exact absurd h3 not_ended_nl
        · simp only [afterEnd, Bool.false_eq_true, if_false] at h5
          subst h5 h3
          have hp' : PlainToks d.reType ((.ident name :: (a ++ [.ident w, .nl])) ++ r2) := by simpa using hp
          rcases ih hnull hp'.right with h7 | h7
          · exact Or.inl h7
          · refine Or.inr ?_
            rw [show Tok.ident name :: (a ++ Tok.ident w :: Tok.nl :: r2) = (.ident name :: (a ++ [.ident w, .nl])) ++ r2 by simp]
            refine RuleEnds.prepend (cs1 := []) (ops1 := [.rule x3.rule]) (by simp) (fun body cs ops hb => ?_) h7
            have := RuleBody.sub hw h6 hb
            simpa [ropStmts, ropStmt] using this
      · cases hx
    | els hw hq =>
      subst hq
      dsimp only at hx
      split at hx
      · rename_i s2 h2
        obtain ⟨x3, t3, e3⟩ := s2
        cases hx
        rcases hr _ _ _ _ h2 rfl hp.tail with h3 | ⟨a, w, r', h3, h4, h5, h6⟩
        · exact absurd h3 not_ended_nl
        · simp only [afterEnd, if_true, List.cons.injEq, true_and] at h5
          subst h5 h3
          obtain ⟨rfl, rfl⟩ := run_end h h4
          exact Or.inr ⟨[], [], [], w, r', .nil, by simp, by simp, h4, rfl, Or.inr ⟨name, a, hw, by simp, h6⟩⟩
      · cases hx
    | cond hc hq =>
      subst hq
      unfold inRule at hx
      dsimp only at hx
      split at hx
      · rename_i s2 h2
        obtain ⟨x3, t3, e3⟩ := s2
        cases hx
        obtain ⟨a, c, h3, h4, h5⟩ := (cond_sound e d n name _ hc).ok ⟨_, _, _⟩ _ hp h2 rfl
        simp only at h3 h4 h5
        rcases h5 with h5 | h5
        · exact absurd h5 not_ended_nl
        · subst h3
          have hp' : PlainToks d.reType ((.ident name :: (a ++ [.nl])) ++ r2) := by simpa using hp
          rcases ih hnull hp'.right with h7 | h7
          · exact Or.inl h7
          · refine Or.inr ?_
            rw [show Tok.ident name :: (a ++ Tok.nl :: r2) = (.ident name :: (a ++ [.nl])) ++ r2 by simp]
            exact RuleEnds.prepend (cs1 := [c]) (ops1 := []) (by simp [h4]) (fun body cs ops hb => by simpa [condFormulas] using RuleBody.cond h5.1 hb) h7
      · cases hx
      · cases hx
      · cases hx
    | op hk hq =>
      subst hq
      dsimp only at hx
      split at hx
      · cases hx
      · rename_i o r' h2
        cases hx
        obtain ⟨a, rfl, h3⟩ := act_sound hk h2
        have hp' : PlainToks d.reType ((.ident name :: (a ++ [.nl])) ++ r2) := by simpa using hp
        rcases ih hnull hp'.right with h7 | h7
        · exact Or.inl h7
        · refine Or.inr ?_
          rw [show Tok.ident name :: (a ++ Tok.nl :: r2) = (.ident name :: (a ++ [.nl])) ++ r2 by simp]
          exact RuleEnds.prepend (cs1 := []) (ops1 := [.prim o]) (by simp) (fun body cs ops hb => by simpa [ropStmts, ropStmt] using RuleBody.act h3 hb) h7
  | @nonl name p x1 x2 x' r r2 ts' hf hx h ih =>
    intro hnull hp
    cases rstep hf with
    | fin hw hq => subst hq; cases els <;> cases hx
    | sub hw hq => subst hq; dsimp only at hx; split at hx <;> cases hx
    | els hw hq => subst hq; dsimp only at hx; split at hx <;> cases hx
    | op hk hq => subst hq; dsimp only at hx; split at hx <;> cases hx
    | cond hc hq =>
      subst hq
      unfold inRule at hx
      dsimp only at hx
      split at hx
      · cases hx
      · rename_i s2 h2
        obtain ⟨x3, t3, e3⟩ := s2
        cases hx
        obtain ⟨_, a, c, h3, h4, h5⟩ := (cond_sound e d n name _ hc).nonl ⟨_, _, _⟩ _ hp h2 rfl
        simp only at h3 h4 h5
        rcases h5 with h5 | h5
        · exact Or.inl (run_ended h h5)
        · subst h3
          have hp' : PlainToks d.reType ((.ident name :: a) ++ t3) := by simpa using hp
          rcases ih hnull hp'.right with h7 | h7
          · exact Or.inl h7
          · refine Or.inr ?_
            rw [show Tok.ident name :: (a ++ t3) = (.ident name :: a) ++ t3 by simp]
            exact RuleEnds.prepend (cs1 := [c]) (ops1 := []) (by simp [h4]) (fun body cs ops hb => by simpa [condFormulas] using RuleBody.cond h5.1 hb) h7
      · cases hx
      · cases hx
  | @fin name p x1 x2 r t3 hf hx =>
    intro hnull hp
    cases rstep hf with
    | fin hw hq =>
      subst hq
      have hx' : ruleEnd els name ⟨x1, r, er⟩ = .fin ⟨x1, afterEnd els name r, er⟩ := by cases els <;> rfl
      rw [hx'] at hx
      cases hx
      exact Or.inr ⟨[], [], [], name, r, .nil, by simp, by simp, hw, rfl, Or.inl ⟨hnull, rfl⟩⟩
    | sub hw hq => subst hq; dsimp only at hx; split at hx <;> cases hx
    | els hw hq => subst hq; dsimp only at hx; split at hx <;> cases hx
    | op hk hq => subst hq; dsimp only at hx; split at hx <;> cases hx
    | cond hc hq =>
      subst hq
      unfold inRule at hx
      split at hx
      · cases hx
      · cases hx
      · rename_i s2 h2
        exact absurd h2 (cond_nofin e d n hc _ _)
      · cases hx

theorem ruleLoop_sound (e : CfgEnv) (d : Dfl) : ∀ n, RLoop e d (ruleLoop e d n)
  | 0 => by intro els ts er s' h; simp [ruleLoop] at h
  | n + 1 => by
    intro els ts er s' h he hp
    obtain ⟨x', ts', er'⟩ := s'
    simp only at he
    subst he
    have hrun := cfgL_run (fun name p hp => ruleParser_mono (ruleLoop_mono e d n) ⟨false, els⟩ name p hp) false n _ _ _ _ _ (by simpa [ruleLoop] using h)
    rcases rule_sound (ruleLoop_sound e d n) hrun rfl hp with h1 | ⟨body, cs, ops, w, r, h1, h2, h3, h4, h5, h6⟩
    · exact Or.inl h1
    · refine Or.inr ?_
      obtain ⟨xc, xo, xe⟩ := x'
      simp only [RuleSt.empty, List.nil_append] at h2 h3 h5 h6
      subst h2 h3
      rcases h6 with ⟨h6, rfl⟩ | ⟨w1, a2, h6, rfl, h7⟩
      · subst h6
        exact ⟨body, w, r, rfl, h4, h5, .last h1 h4⟩
      · exact ⟨body ++ .ident w1 :: a2, w, r, by simp, h4, h5, by
          have := Branches.els h1 h6 h7
          simpa [RuleSt.rule, ruleBranches] using this⟩

/-! ### Completeness -/

/-- A section that is read as a rule -/
def RDone (e : CfgEnv) (d : Dfl) (a : List Tok) (bs : List (Formula CTest × List RwStmt)) : Prop :=
  ∃ a' w R N, a = a' ++ [.ident w] ∧ ciEq b!"End" w = true ∧ ruleBranches R.rule = bs ∧
    ∀ n, N ≤ n → ∀ els r er, ruleLoop e d n ⟨false, els⟩ ⟨.empty, a ++ r, er⟩ = .ok ⟨R, afterEnd els w r, er⟩

/-- Statements that are read in a rule -/
def BDone (e : CfgEnv) (d : Dfl) (t : List Tok) (fs : List (Formula CTest)) (ss : List RwStmt) : Prop :=
  ∃ cs ops N j, condFormulas cs = fs ∧ ropStmts ops = ss ∧ ∀ n, N ≤ n → ∀ els m (x : RuleSt) r er,
    cfgL (ruleParser e d n (ruleLoop e d n) ⟨false, els⟩) false false (m + j) ⟨x, t ++ r, er⟩ =
      cfgL (ruleParser e d n (ruleLoop e d n) ⟨false, els⟩) false false m ⟨⟨x.conds ++ cs, x.ops ++ ops, x.els⟩, r, er⟩

theorem rule_complete {e : CfgEnv} {d : Dfl} {a : List Tok} {bs : List (Formula CTest × List RwStmt)} (h : Branches e d a bs) : PlainToks d.reType a → RDone e d a bs := by
  refine Branches.rec (motive_1 := fun t fs ss _ => PlainToks d.reType t → BDone e d t fs ss) (motive_2 := fun t bs _ => PlainToks d.reType t → RDone e d t bs) ?_ ?_ ?_ ?_ ?_ ?_ ?_ h
  · intro _
    exact ⟨[], [], 0, 0, rfl, rfl, fun n _ els m x r er => by simp⟩
  · intro t cs ss _ ih hp
    obtain ⟨cs, ops, N, j, h1, h2, h3⟩ := ih hp.tail
    exact ⟨cs, ops, N, j + 1, h1, h2, fun n hn els m x r er => by rw [← Nat.add_assoc, List.cons_append, cfgL_nl, h3 n hn]⟩
  · intro t1 t2 c cs ss hc _ ih hp
    obtain ⟨name, a, c', N1, rfl, hcf, h1⟩ := cond_complete hc hp.left
    obtain ⟨cs, ops, N, j, h2, h3, h4⟩ := ih hp.right
    refine ⟨c' :: cs, ops, N1 + N, j + 1, by simp [condFormulas, hcf, h2], h3, fun n hn els m x r er => ?_⟩
    obtain ⟨p, hf, hr⟩ := h1 n (by omega)
    obtain ⟨k, hk⟩ := condFind_kw hf
    have hb : ruleParser e d n (ruleLoop e d n) ⟨false, els⟩ name = some (inRule p) := by
      unfold ruleParser
      rw [kw_not hk (w := b!"End") (by decide), kw_not hk (w := b!"Rewrite") (by decide), kw_not hk (w := b!"Else") (by decide)]
      simp [ruleCond, hf]
    rw [show Tok.ident name :: a ++ t2 ++ r = .ident name :: (a ++ (t2 ++ r)) by simp, ← Nat.add_assoc, cfgL_known _ _ _ _ _ _ _ hb]
    have : afterL (ruleParser e d n (ruleLoop e d n) ⟨false, els⟩) false false (m + j) (inRule p ⟨x, a ++ (t2 ++ r), er⟩) =
        cfgL (ruleParser e d n (ruleLoop e d n) ⟨false, els⟩) false false (m + j) ⟨⟨x.conds ++ [c'], x.ops, x.els⟩, t2 ++ r, er⟩ := by
      rcases hr with ⟨_, h⟩ | ⟨_, a', rfl, h⟩
      · simp only [inRule, h]; rfl
      · simp only [inRule, List.append_assoc, h]; rfl
    rw [this, h4 n (by omega)]
    simp
  · intro t1 t2 p cs ss ha _ ih hp
    obtain ⟨name, a, k, rfl, hk, hop⟩ := act_complete ha
    obtain ⟨cs, ops, N, j, h2, h3, h4⟩ := ih hp.right.tail
    refine ⟨cs, .prim p :: ops, N, j + 1, h2, by simp [ropStmts, ropStmt, h3], fun n hn els m x r er => ?_⟩
    have hb : ruleParser e d n (ruleLoop e d n) ⟨false, els⟩ name = some (fun s =>
        match parseOp e d k s.toks with
        | none => .fail
        | some (o, r) => .ok ⟨{ s.data with ops := s.data.ops ++ [.prim o] }, r, s.errs⟩) := by
      unfold ruleParser
      rw [kw_not hk (w := b!"End") (by decide), kw_not hk (w := b!"Rewrite") (by decide), kw_not hk (w := b!"Else") (by decide)]
      simp [ruleCond, condFind_none (op_not_cond hk), ruleOp, hk]
      rfl
    rw [show Tok.ident name :: a ++ Tok.nl :: t2 ++ r = .ident name :: (a ++ (.nl :: (t2 ++ r))) by simp, ← Nat.add_assoc, cfgL_known _ _ _ _ _ _ _ hb]
    dsimp only
    rw [hop]
    have := h4 n hn els m ⟨x.conds, x.ops ++ [.prim p], x.els⟩ r er
    simp only [List.append_assoc, List.singleton_append] at this
    exact this
  · intro name t1 t2 bs cs ss hn _ _ ih1 ih2 hp
    obtain ⟨a', w, R, N1, rfl, hw, hR, h1⟩ := ih1 hp.tail.left
    obtain ⟨cs, ops, N, j, h2, h3, h4⟩ := ih2 hp.tail.right.tail
    refine ⟨cs, .rule R.rule :: ops, N1 + N, j + 1, h2, by simp [ropStmts, ropStmt, h3, hR], fun n hge els m x r er => ?_⟩
    have hb : ruleParser e d n (ruleLoop e d n) ⟨false, els⟩ name = some (fun s =>
        match ruleLoop e d n ⟨false, false⟩ ⟨.empty, s.toks, s.errs⟩ with
        | .ok s2 => .ok ⟨{ s.data with ops := s.data.ops ++ [.rule s2.data.rule] }, s2.toks, s2.errs⟩
        | _ => .fail) := by
      unfold ruleParser
      rw [ci_not hn (b := b!"End") (by decide), hn]
      rfl
    rw [show Tok.ident name :: (a' ++ [.ident w] ++ Tok.nl :: t2) ++ r = .ident name :: (a' ++ [.ident w] ++ (.nl :: (t2 ++ r))) by simp, ← Nat.add_assoc,
      cfgL_known _ _ _ _ _ _ _ hb]
    dsimp only
    rw [h1 n (by omega)]
    have := h4 n (by omega) els m ⟨x.conds, x.ops ++ [.rule R.rule], x.els⟩ r er
    simp only [List.append_assoc, List.singleton_append] at this
    exact this
  · intro w t cs ss _ hw ih hp
    obtain ⟨cs, ops, N, j, h2, h3, h4⟩ := ih hp.left
    refine ⟨t, w, ⟨cs, ops, .null⟩, N + j + 3, rfl, hw, by simp [RuleSt.rule, ruleBranches, h2, h3], fun n hn els r er => ?_⟩
    obtain ⟨n, rfl⟩ : ∃ n', n = n' + 1 := ⟨n - 1, by omega⟩
    obtain ⟨q, hq⟩ : ∃ q, n = (q + 1) + j := ⟨n - j - 1, by omega⟩
    have hb : ruleParser e d n (ruleLoop e d n) ⟨false, els⟩ w = some (ruleEnd els w) := by unfold ruleParser; rw [if_pos hw]
    unfold ruleLoop
    conv => lhs; arg 4; rw [hq]
    rw [List.append_assoc, List.singleton_append, h4 n (by omega), cfgL_known _ _ _ _ _ _ _ hb]
    cases els <;> rfl
  · intro w t r cs ss bs _ hw _ ih1 ih2 hp
    obtain ⟨cs, ops, N, j, h2, h3, h4⟩ := ih1 hp.left
    obtain ⟨a', w', R, N1, rfl, hw', hR, h1⟩ := ih2 hp.right.tail
    refine ⟨t ++ .ident w :: a', w', ⟨cs, ops, R.rule⟩, N + j + N1 + 4, by simp, hw', by simp [RuleSt.rule, ruleBranches, h2, h3, ← hR], fun n hn els r er => ?_⟩
    obtain ⟨n, rfl⟩ : ∃ n', n = n' + 1 := ⟨n - 1, by omega⟩
    obtain ⟨q, hq⟩ : ∃ q, n = (q + 1 + 1) + j := ⟨n - j - 2, by omega⟩
    have hb : ruleParser e d n (ruleLoop e d n) ⟨false, els⟩ w = some (fun s =>
        match ruleLoop e d n ⟨false, true⟩ ⟨.empty, s.toks, s.errs⟩ with
        | .ok s2 => .ok ⟨{ s.data with els := s2.data.rule }, s2.toks, s2.errs⟩
        | _ => .fail) := by
      unfold ruleParser
      rw [ci_not hw (b := b!"End") (by decide), ci_not hw (b := b!"Rewrite") (by decide), hw]
      rfl
    have hb2 : ruleParser e d n (ruleLoop e d n) ⟨false, els⟩ w' = some (ruleEnd els w') := by unfold ruleParser; rw [if_pos hw']
    unfold ruleLoop
    conv => lhs; arg 4; rw [hq]
    rw [show t ++ Tok.ident w :: (a' ++ [.ident w']) ++ r = t ++ (.ident w :: ((a' ++ [.ident w']) ++ r)) by simp, h4 n (by omega), cfgL_known _ _ _ _ _ _ _ hb]
    dsimp only
    rw [h1 n (by omega) true r er]
    simp only [afterEnd, if_true]
    unfold afterL
    dsimp only
    simp only [Bool.false_eq_true, if_false]
    rw [cfgL_known _ _ _ _ _ _ _ hb2]
    cases els <;> rfl

end Pound
