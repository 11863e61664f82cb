import Verif.Model.Input

namespace Pound.Spec

/-- There are finitely many files, `ids`, of at most `size` bytes each. -/
def Finite (ids : List Nat) (size : Nat) (fs : FileSys) : Prop := ∀ name id text, fs name = some (id, text) → id ∈ ids ∧ text.length ≤ size

/-- No file is open twice. -/
def NoCycle (s : InSt) : Prop := (s.stack.map (·.id)).Nodup

/-- How many tokens a token of a file can cause to be read, if it includes a file, with `n` files not yet open -/
def inclCost (size : Nat) : Nat → Nat
  | 0 => 0
  | n + 1 => size * (inclCost size n + 1)

/-- The number of operations that put a token back -/
def backs (ops : List InOp) : Nat := (ops.filter fun | .back => true | .backNl => true | _ => false).length

end Pound.Spec
