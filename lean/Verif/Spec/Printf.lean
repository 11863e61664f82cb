import Verif.Spec.Tmpl

/-!
What `printf` of a template gives, after printf(3).  A format is a sequence of characters and
conversion specifications.  The result is not defined (`none`) where printf(3) leaves it
undefined, and where the program departs from printf(3) (see the theorems C78_..._fails).
-/

namespace Pound.Spec

open Pound

/-- Conversion specifiers -/
inductive PfConv where
  | s | d | i | u | x | X | o | e | E | f | F | g | G | v
deriving DecidableEq

def PfConv.char : PfConv → UInt8
  | .s => ch%'s' | .d => ch%'d' | .i => ch%'i' | .u => ch%'u' | .x => ch%'x' | .X => ch%'X'
  | .o => ch%'o' | .e => ch%'e' | .E => ch%'E' | .f => ch%'f' | .F => ch%'F' | .g => ch%'g'
  | .G => ch%'G' | .v => ch%'v'

/-- The minimum field width: none, digits, or an asterisk -/
inductive PfWidth where
  | none
  | digits (ds : Bytes)
  | star

/-- A conversion specification: flags, width, precision (the digits after the period), and
the conversion specifier -/
structure PfSpec where
  flags : Bytes
  width : PfWidth
  prec : Option Bytes
  conv : PfConv

/-- A part of a format: an ordinary character, `%%`, or a conversion specification -/
inductive PfItem where
  | lit (c : UInt8)
  | pct
  | spec (s : PfSpec)

def PfWidth.text : PfWidth → Bytes
  | .none => []
  | .digits ds => ds
  | .star => b!"*"

def PfSpec.text (s : PfSpec) : Bytes :=
  b!"%" ++ s.flags ++ s.width.text ++ (match s.prec with | some ds => b!"." ++ ds | none => []) ++
    [s.conv.char]

def PfItem.text : PfItem → Bytes
  | .lit c => [c]
  | .pct => b!"%%"
  | .spec s => s.text

/-- A width does not start with 0, which is a flag. -/
def PfWidth.Ok : PfWidth → Prop
  | .digits ds => ds ≠ [] ∧ (∀ c ∈ ds, TmDigit c) ∧ ds.head? ≠ some 48 ∧ tmNat ds < 2 ^ 31
  | _ => True

def PfSpec.Ok (s : PfSpec) : Prop :=
  (∀ c ∈ s.flags, c ∈ b!"#0- +") ∧ s.width.Ok ∧
    ∀ ds, s.prec = some ds → (∀ c ∈ ds, TmDigit c) ∧ tmNat ds < 2 ^ 31

def PfItem.Ok : PfItem → Prop
  | .lit c => c ≠ 37
  | .pct => True
  | .spec s => s.Ok

/-- The digits of a number in a base, in upper case if asked for -/
def pfDigits (base : Nat) (up : Bool) (n : Nat) : Bytes :=
  (Nat.toDigits base n).map (fun c => UInt8.ofNat (if up then c.toUpper else c).toNat)

/-- A number with at least `p` digits -/
def pfZeros (p : Option Nat) (ds : Bytes) : Bytes :=
  List.replicate (p.getD 0 - ds.length) 48 ++ ds

/-- At most `p` characters of a string -/
def pfCut (p : Option Nat) (t : Bytes) : Bytes :=
  match p with
  | some p => t.take p
  | none => t

/-- A text, with a sign or prefix, in a field: on the left, or on the right after zeros or
blanks. -/
def pfField (left zero : Bool) (w : Nat) (pre s : Bytes) : Bytes :=
  let n := w - (pre ++ s).length
  if left then pre ++ s ++ List.replicate n 32
  else if zero then pre ++ List.replicate n 48 ++ s
  else List.replicate n 32 ++ pre ++ s

variable {D : Type}

/-- The value of a number as an integer -/
def pfInt (N : TNum D) : JVal D → Option Int
  | .int d => N.toLong d
  | .num d => N.toLong d
  | _ => none

/-- The text of a value: a string as it is, integers in decimal, other numbers as with `%g`, true as
a word, null and false as nothing, objects as the number of their members -/
def pfText (N : TNum D) : JVal D → Option Bytes
  | .str t => some t
  | .null => some []
  | .bool b => some (if b = true then b!"true" else [])
  | .num d => some (N.fmtG d)
  | .int d => (N.toLong d).map fun n => (if n < 0 then b!"-" else []) ++ pfDigits 10 false n.natAbs
  | .obj c _ => some (pfDigits 10 false c)
  | .arr _ => none

/-- One conversion.  `w`: the width, 0 if there is none. -/
def pfConv (N : TNum D) (s : PfSpec) (w : Nat) (v : JVal D) : Option Bytes :=
  let has (c : UInt8) : Bool := s.flags.contains c
  let p : Option Nat := s.prec.map tmNat
  /- the flags allowed, and precisions that do what printf(3) says -/
  let only (cs : Bytes) : Bool := s.flags.all (fun c => cs.contains c)
  let small : Bool := match p with | some p => 0 < p && p ≤ 60 | none => true
  let left := has ch%'-'
  let zero := has ch%'0' && p.isNone
  match s.conv with
  | .s =>
    match pfText N v with
    | some t =>
      if only b!"-" && p ≠ some 0 && t.length < 2 ^ 31 then
        some (pfField left false w [] (pfCut p t))
      else none
    | none => none
  | .d | .i =>
    if only b!"0- +" && small then do
      let n ← pfInt N v
      if n ≤ -(2 ^ 63) then none
      else
        some (pfField left zero w
          (if n < 0 then b!"-" else if has ch%'+' then b!"+" else if has ch%' ' then b!" " else [])
          (pfZeros p (pfDigits 10 false n.natAbs)))
    else none
  | .u =>
    if only b!"0-" && small then do
      let n ← pfInt N v
      if n < 0 ∨ 2 ^ 64 ≤ n then none
      else some (pfField left zero w [] (pfZeros p (pfDigits 10 false n.toNat)))
    else none
  | .x | .X =>
    let up := s.conv = .X
    if only b!"#0-" && small then do
      let n ← pfInt N v
      if n < 0 ∨ 2 ^ 32 ≤ n ∨ (has ch%'#' ∧ n = 0) then none
      else
        some (pfField left zero w (if has ch%'#' then [48, s.conv.char] else [])
          (pfZeros p (pfDigits 16 up n.toNat)))
    else none
  | .o =>
    if only b!"#0-" && p.isNone then do
      let n ← pfInt N v
      if n < 0 ∨ 2 ^ 64 ≤ n then none
      else
        some (pfField left zero w []
          (if has ch%'#' ∧ n ≠ 0 then 48 :: pfDigits 8 false n.toNat else pfDigits 8 false n.toNat))
    else none
  | .v => if s.flags = [] ∧ w = 0 ∧ p = none then some (fmtVal N.toNumLib 0 0 v) else none
  | c =>
    /- floating point: as the C library does -/
    let d : Option D := match v with | .num d => some d | .int d => some d | _ => none
    if (w ≠ 0 ∧ p = none) ∨ (has ch%'0' ∧ p.isSome ∧ p ≠ some 0) ∨ (left ∧ has ch%'0') ∨
        (has ch%'+' ∧ has ch%' ') then none
    else
      d.map (N.fmtDouble ⟨has ch%'#', has ch%'0', left, has ch%' ', has ch%'+'⟩
        (if w = 0 then none else some w) p c.char)

/-- What a format gives: every conversion takes the next argument, after one for an asterisk. -/
def pfRun (N : TNum D) : List PfItem → List (JVal D) → Option Bytes
  | [], _ => some []
  | .lit c :: l, args => (pfRun N l args).map (c :: ·)
  | .pct :: l, args => (pfRun N l args).map (37 :: ·)
  | .spec s :: l, args =>
    match s.width, args with
    | .star, w :: v :: args => do
      let n ← pfInt N w
      if n < 0 ∨ 2 ^ 31 ≤ n then none
      else do
        let o ← pfConv N s n.toNat v
        let o' ← pfRun N l args
        some (o ++ o')
    | .star, _ => none
    | .none, v :: args => do
      let o ← pfConv N s 0 v
      let o' ← pfRun N l args
      some (o ++ o')
    | .digits ds, v :: args => do
      let o ← pfConv N s (tmNat ds) v
      let o' ← pfRun N l args
      some (o ++ o')
    | _, [] => none

/-- The format and the arguments give `o`. -/
def Formats (N : TNum D) (fmt : Bytes) (args : List (JVal D)) (o : Bytes) : Prop :=
  ∃ l : List PfItem, (∀ i ∈ l, i.Ok) ∧ l.flatMap PfItem.text = fmt ∧ pfRun N l args = some o

end Pound.Spec
