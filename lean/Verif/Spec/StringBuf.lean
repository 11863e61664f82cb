import Verif.Model.StringBuf

/-!
Specification of string buffers: a buffer holds a byte string.  Only the type of operations and
the executor of one operation are taken from the model.
-/

namespace Pound.Spec

/-- What an operation does to the content if it reports success (an operation that reports failure
does nothing). -/
def sbEffect (o : SbOp) (ok : Bool) (c : Bytes) : Bytes :=
  if !ok then c else
  match o with
  | .reset => []
  | .truncate n => c.take n
  | .add d => c ++ d
  | .addChar x => c ++ [x]
  | .set x n => c ++ List.replicate n x
  | .finish => c ++ [0]
  | .printf o => c ++ o
  | .strftime o => c ++ o
  | .consume n => c.drop n

/-- What a caller may do: add strings that fit in memory (an object has less than 2^63 bytes),
truncate to at most the current length. -/
def SbAllowed (o : SbOp) (c : Bytes) : Prop :=
  match o with
  | .truncate n => n ≤ c.length
  | .add d => d.length < 2 ^ 63
  | .set _ n => n < 2 ^ 63
  | .printf o => o.length < 2 ^ 63
  | .strftime o => o.length < 2 ^ 63
  | _ => True

/-- An allocator never hands out objects of 2^63 bytes or more (PTRDIFF_MAX). -/
def SaneAlloc (al : Alloc) : Prop := ∀ k n, al k n = true → n < 2 ^ 63

/-- The states of a buffer after any history of allowed operations; `c` is the specified content, and
`clean` says that no operation has reported a failure. -/
inductive SbReach (al : Alloc) (junk : Junk) : SBuf → Bytes → Bool → Prop
  | init : SbReach al junk .init [] true
  | step : SbReach al junk sb c clean → SbAllowed o c → o.exec al junk sb = .ok (sb', ok) → SbReach al junk sb' (sbEffect o ok c) (clean && ok)

end Pound.Spec
