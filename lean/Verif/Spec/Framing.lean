import Verif.Model.Basic

/-!
Specifications for lines, numbers and chunked bodies, independent of the model
of the code.
-/

namespace Pound.Spec

/-- Value of a digit in base 10 or 16. -/
def digit? (base : Nat) (c : UInt8) : Option Nat :=
  let n := c.toNat
  if 48 ≤ n ∧ n ≤ 57 then some (n - 48)
  else if base = 16 ∧ 97 ≤ n ∧ n ≤ 102 then some (n - 87)
  else if base = 16 ∧ 65 ≤ n ∧ n ≤ 70 then some (n - 55)
  else none

/-- `ds` is a non-empty string of digits denoting `v` in base `base`. -/
def Denotes (base : Nat) (ds : Bytes) (v : Nat) : Prop :=
  ds ≠ [] ∧ (∀ c ∈ ds, (digit? base c).isSome) ∧
  v = ds.foldl (fun a c => a * base + (digit? base c).getD 0) 0

/-- Blank: space or TAB. -/
def Blank (s : Bytes) : Prop := ∀ c ∈ s, c = 32 ∨ c = 9

/-- A byte that may appear in a line: no control character except TAB. -/
def Text (c : UInt8) : Prop := c = 9 ∨ (32 ≤ c.toNat ∧ c.toNat ≠ 127)

/-- The bytes following the first LF (nothing if there is no LF). -/
def afterLF (s : Bytes) : Bytes := (s.dropWhile (fun c => c != 10)).drop 1

/-- `w` is the line `l` on the wire: ended by LF or CRLF, and no longer than
`lim` bytes including the line end. -/
def WireLine (lim : Nat) (w l : Bytes) : Prop :=
  (∀ c ∈ l, Text c) ∧ (w = l ++ [10] ∨ w = l ++ [13, 10]) ∧ w.length ≤ lim

/-- `l` is a chunk-size line for size `n`: hex digits, blanks, optional
extension introduced by `;`. -/
def SizeLine (l : Bytes) (n : Nat) : Prop :=
  ∃ ds ws ext, l = ds ++ ws ++ ext ∧ Denotes 16 ds n ∧ Blank ws ∧
    (ext = [] ∨ ∃ e, ext = 59 :: e)

/-- Trailer section: any number of non-empty lines ended by an empty one. -/
inductive Trailer (lim : Nat) : Bytes → Prop
  | done {w} : WireLine lim w [] → Trailer lim w
  | more {w l t} : WireLine lim w l → l ≠ [] → Trailer lim t → Trailer lim (w ++ t)

/-- `Chunked strict lim wire payload`: `wire` is a chunked body with the given
payload and no line longer than `lim`.  If not `strict`, anything may stand
between the data of a chunk and the end of that line. -/
inductive Chunked (strict : Bool) (lim : Nat) : Bytes → Bytes → Prop
  | last {w l t} : WireLine lim w l → SizeLine l 0 → Trailer lim t →
      Chunked strict lim (w ++ t) []
  | chunk {w l n data wj j wire payload} :
      WireLine lim w l → SizeLine l n → 0 < n → data.length = n →
      WireLine lim wj j → (strict = true → j = []) →
      Chunked strict lim wire payload →
      Chunked strict lim (w ++ (data ++ (wj ++ wire))) (data ++ payload)

/-- `w` is a line taken from the stream `inp` leaving `rest`; at the very end of
the stream the final LF may be missing. -/
def LineConsumed (inp w rest : Bytes) : Prop :=
  inp = w ++ rest ∨ (rest = [] ∧ inp ≠ [] ∧ inp ++ [10] = w)

/-- `wire` is the body taken from the stream `inp` leaving `rest`; if the stream
ends with the CR of the final CRLF, the LF may be missing. -/
def Consumed (inp wire rest : Bytes) : Prop :=
  inp = wire ++ rest ∨ (rest = [] ∧ inp ++ [10] = wire ∧ ∃ a, inp = a ++ [13])

end Pound.Spec
