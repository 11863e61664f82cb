import Verif.Model.CfgParser
import Verif.Spec.Lexer

/-!
What a configuration means: /repo/doc/pound.8:318-365, 545-560.
-/

namespace Pound.Spec

/-- The tokens read from the files that are open, to the end -/
inductive Yields : List Input → List Tok → Prop
  | done {st : List Input} : (gettkn st).1 = .eof → Yields st []
  | more {st : List Input} {ts : List Tok} : (gettkn st).1 ≠ .eof → Yields (gettkn st).2 ts → Yields st ((gettkn st).1 :: ts)

/-- Arguments that pass the tests of a statement -/
inductive Args : List (Tok → Bool) → List Tok → Prop
  | nil : Args [] []
  | cons {p : Tok → Bool} {t : Tok} {ps : List (Tok → Bool)} {a : List Tok} :
      p t = true → t ≠ .eof → t ≠ .nl → t ≠ .error → Args ps a → Args (p :: ps) (t :: a)

/-- `Stmts g ctx toks evs n`: the tokens are statements of section `ctx`, which make the parsers do `evs`, apart from `n` tokens that belong to no statement. -/
inductive Stmts (g : Nat → Bytes → Option Kind) : Nat → List Tok → List Ev → Nat → Prop
  | nil {ctx : Nat} : Stmts g ctx [] [] 0
  | blank {ctx : Nat} {t : List Tok} {e : List Ev} {n : Nat} : Stmts g ctx t e n → Stmts g ctx (.nl :: t) e n
  | stmt {ctx : Nat} {name : Bytes} {ps : List (Tok → Bool)} {a t : List Tok} {e : List Ev} {n : Nat} :
      g ctx name = some (.simple ps) → Args ps a → Stmts g ctx t e n → Stmts g ctx (.ident name :: (a ++ .nl :: t)) (.stmt ctx name a :: e) n
  | sect {ctx ctx' : Nat} {name close : Bytes} {ps : List (Tok → Bool)} {a body t : List Tok} {e1 e2 : List Ev} {n1 n2 : Nat} :
      g ctx name = some (.sect ps ctx') → Args ps a → Stmts g ctx' body e1 n1 → g ctx' close = some .close → Stmts g ctx t e2 n2 →
      Stmts g ctx (.ident name :: (a ++ (body ++ .ident close :: .nl :: t))) (.opened ctx name a :: (e1 ++ .closed :: e2)) (n1 + n2)
  | junk {ctx : Nat} {u : Tok} {t : List Tok} {e : List Ev} {n : Nat} :
      u ≠ .eof → u ≠ .nl → u ≠ .error → (∀ s, u ≠ .ident s) → Stmts g ctx t e n → Stmts g ctx (u :: t) e (n + 1)

/-- Every entry of a table and of those it refers to, in order, with what it stands for; `none`: an alias of nothing -/
inductive Entries {π : Type} : Option (KEntry π) → List (KEntry π) → List (Bytes × Option (Found π)) → Prop
  | nil {prev : Option (KEntry π)} : Entries prev [] []
  | reg {prev : Option (KEntry π)} {n : Bytes} {p : π} {a : Nat} {d : Bool} {r : List (KEntry π)} {l : List (Bytes × Option (Found π))} :
      Entries (some (.reg n p a d)) r l → Entries prev (.reg n p a d :: r) ((n, some ⟨p, a, d⟩) :: l)
  | alias {n m : Bytes} {p : π} {a : Nat} {d d' : Bool} {r : List (KEntry π)} {l : List (Bytes × Option (Found π))} :
      Entries (some (.reg m p a d')) r l → Entries (some (.reg m p a d')) (.alias n d :: r) ((n, some ⟨p, a, d⟩) :: l)
  | noAlias {prev : Option (KEntry π)} {n : Bytes} {d : Bool} {r : List (KEntry π)} {l : List (Bytes × Option (Found π))} :
      (∀ m p a d', prev ≠ some (.reg m p a d')) → Entries prev r l → Entries prev (.alias n d :: r) ((n, none) :: l)
  | tabref {prev : Option (KEntry π)} {t r : List (KEntry π)} {l1 l2 : List (Bytes × Option (Found π))} :
      Entries none t l1 → Entries (some (.tabref t)) r l2 → Entries prev (.tabref t :: r) (l1 ++ l2)
  | softref {prev : Option (KEntry π)} {t r : List (KEntry π)} {arg : Nat} {l1 l2 : List (Bytes × Option (Found π))} :
      Entries none t l1 → Entries (some (.softref t arg)) r l2 →
      Entries prev (.softref t arg :: r) (l1.map (fun x => (x.1, x.2.map fun f => { f with arg := arg })) ++ l2)

end Pound.Spec
