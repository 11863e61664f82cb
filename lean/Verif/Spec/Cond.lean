import Verif.Model.Basic

/-!
Specification of conditions, of the choice of the first match, and of conditional
rewriting, over arbitrary elementary tests and actions.
-/

namespace Pound.Spec

/-- Formulas over elementary tests. -/
inductive Formula (α : Type) where
  | test (a : α)
  | not (f : Formula α)
  | and (fs : List (Formula α))
  | or (fs : List (Formula α))

mutual
/-- Truth of a formula, given the truth of its tests. -/
def Formula.truth {α} (v : α → Bool) : Formula α → Bool
  | .test a => v a
  | .not f => !f.truth v
  | .and fs => allTrue v fs
  | .or fs => anyTrue v fs
def allTrue {α} (v : α → Bool) : List (Formula α) → Bool
  | [] => true
  | f :: fs => f.truth v && allTrue v fs
def anyTrue {α} (v : α → Bool) : List (Formula α) → Bool
  | [] => false
  | f :: fs => f.truth v || anyTrue v fs
end

/-- `a` is a test of the formula. -/
inductive Occurs {α} (a : α) : Formula α → Prop
  | test : Occurs a (.test a)
  | not {f} : Occurs a f → Occurs a (.not f)
  | and {f fs} : f ∈ fs → Occurs a f → Occurs a (.and fs)
  | or {f fs} : f ∈ fs → Occurs a f → Occurs a (.or fs)

/-- Evaluation from left to right, stopping as soon as the result is determined, or at the
first error (`none`).  Tests may depend on a state and change it. -/
inductive Evals {α σ} (test : α → σ → Option Bool → σ → Prop) : Formula α → σ → Option Bool → σ → Prop
  | test {a s v s'} : test a s v s' → Evals test (.test a) s v s'
  | not {f s v s'} : Evals test f s v s' → Evals test (.not f) s (v.map (!·)) s'
  | allDone {s} : Evals test (.and []) s (some true) s
  | allStop {f fs s v s'} : Evals test f s v s' → v ≠ some true → Evals test (.and (f :: fs)) s v s'
  | allMore {f fs s s' v s''} : Evals test f s (some true) s' → Evals test (.and fs) s' v s'' →
      Evals test (.and (f :: fs)) s v s''
  | anyDone {s} : Evals test (.or []) s (some false) s
  | anyStop {f fs s v s'} : Evals test f s v s' → v ≠ some false → Evals test (.or (f :: fs)) s v s'
  | anyMore {f fs s s' v s''} : Evals test f s (some false) s' → Evals test (.or fs) s' v s'' →
      Evals test (.or (f :: fs)) s v s''

/-- The first enabled item whose condition is true; items that are false or cannot be evaluated
are passed over.  The result is its position. -/
inductive First {α σ} (enabled : α → Prop) (eval : α → σ → Option Bool → σ → Prop) :
    List α → σ → Option Nat → σ → Prop
  | none {s} : First enabled eval [] s none s
  | disabled {a as s i s'} : ¬ enabled a → First enabled eval as s i s' →
      First enabled eval (a :: as) s (i.map (· + 1)) s'
  | pass {a as s v s' i s''} : enabled a → eval a s v s' → v ≠ some true → First enabled eval as s' i s'' →
      First enabled eval (a :: as) s (i.map (· + 1)) s''
  | take {a as s s'} : enabled a → eval a s (some true) s' → First enabled eval (a :: as) s (some 0) s'

/-- Conditional programs: actions, and chains of `if c₁ then … elif c₂ then …`. -/
inductive Stmt (γ π : Type) where
  | act (p : π)
  | cases (bs : List (γ × List (Stmt γ π)))

/-- Running a sequence of statements: in order; of a chain, the first branch whose condition is
true (one that cannot be evaluated is not) and no other; a failure stops everything. -/
inductive Runs {γ π σ} (eval : γ → σ → Option Bool → σ → Prop) (act : π → σ → Bool → σ → Prop) :
    List (Stmt γ π) → σ → Bool → σ → Prop
  | done {s} : Runs eval act [] s true s
  | act {p ss s s' ok s''} : act p s true s' → Runs eval act ss s' ok s'' → Runs eval act (.act p :: ss) s ok s''
  | actFail {p ss s s'} : act p s false s' → Runs eval act (.act p :: ss) s false s'
  | noBranch {ss s ok s'} : Runs eval act ss s ok s' → Runs eval act (.cases [] :: ss) s ok s'
  | next {c b bs ss s v s' ok s''} : eval c s v s' → v ≠ some true → Runs eval act (.cases bs :: ss) s' ok s'' →
      Runs eval act (.cases ((c, b) :: bs) :: ss) s ok s''
  | branch {c b bs ss s s' s'' ok s'''} : eval c s (some true) s' → Runs eval act b s' true s'' →
      Runs eval act ss s'' ok s''' → Runs eval act (.cases ((c, b) :: bs) :: ss) s ok s'''
  | branchFail {c b bs ss s s' s''} : eval c s (some true) s' → Runs eval act b s' false s'' →
      Runs eval act (.cases ((c, b) :: bs) :: ss) s false s''

end Pound.Spec
