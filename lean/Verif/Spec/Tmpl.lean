import Verif.Model.TmplRun
import Verif.Spec.Json

/-!
What a template is and what it prints, after poundctl.tmpl(5).  The first part is the concrete
syntax: a tree that keeps every byte of the text, and the text it stands for.  The second part
says which trees are well-formed.  The third part says what a template prints.  Only the data
types of the model are used (values, names of functions, operations on numbers), and the text
of arrays and objects, which is JSON (C57).
-/

namespace Pound.Spec

open Pound

/-! ### Syntax -/

/-- A part of a string constant: a character, or an escape sequence -/
inductive TmPiece where
  | plain (c : UInt8)
  | esc (c : UInt8)

/-- The escape sequences and what they stand for -/
def tmEscapes : List (UInt8 × UInt8) :=
  [(92, 92), (ch%'a', 7), (ch%'b', 8), (ch%'f', 12), (ch%'n', 10), (ch%'r', 13), (ch%'t', 9),
   (ch%'v', 11)]

mutual
/-- Arguments.  `fs` are the attributes after the first one, as in `.Attr.Xattr.Yattr`. -/
inductive TmArg where
  | int (neg : Bool) (ds : Bytes)
  | str (ps : List TmPiece)
  | bool (b : Bool)
  | dot
  | attr (a : Bytes) (fs : List Bytes)
  | var (x : Bytes) (fs : List Bytes)
  | paren (g : Bytes) (p : TmPipe) (g' : Bytes) (fs : List Bytes)
/-- Arguments of a function, each with the white space before it -/
inductive TmArgs where
  | nil
  | cons (g : Bytes) (a : TmArg) (as : TmArgs)
/-- Commands: an argument or a function call -/
inductive TmCmd where
  | arg (a : TmArg)
  | call (f : TFun) (as : TmArgs)
/-- Commands delimited by `|`, with the white space around it -/
inductive TmPipe where
  | one (c : TmCmd)
  | more (c : TmCmd) (g g' : Bytes) (p : TmPipe)
end

/-- The opening delimiter: "{{", perhaps with a minus sign and white space, then white space
and perhaps a comment, with the white space after it. -/
structure TmOpen where
  trim : Option UInt8
  ws : Bytes
  comment : Option (Bytes × Bytes)

/-- The closing delimiter: white space, perhaps white space and a minus sign, "}}" -/
structure TmClose where
  ws : Bytes
  trim : Option UInt8

/-- `$var =`, with the white space before and after the sign -/
structure TmVar where
  name : Bytes
  g : Bytes
  g' : Bytes

/-- `$index, $element =`, with the white space around the signs -/
structure TmVars where
  index : Bytes
  g1 : Bytes
  g2 : Bytes
  element : Bytes
  g3 : Bytes
  g4 : Bytes

mutual
/-- A text, or a text followed by an action and the rest -/
inductive TmBody where
  | done (t : Bytes)
  | item (t : Bytes) (i : TmItem) (b : TmBody)
/-- Actions -/
inductive TmItem where
  /-- {{ }} -/
  | empty (o : TmOpen) (c : TmClose)
  /-- {{- -}} -/
  | trims (sp : UInt8)
  /-- {{pipeline}} -/
  | print (o : TmOpen) (p : TmPipe) (c : TmClose)
  /-- {{if pipeline}} T1 ... -/
  | cond (o : TmOpen) (g : Bytes) (p : TmPipe) (c : TmClose) (b : TmBody) (t : TmTail)
  /-- {{with pipeline}} T1 ... or {{with $var = pipeline}} T1 ... -/
  | wth (o : TmOpen) (g : Bytes) (v : Option TmVar) (p : TmPipe) (c : TmClose) (b : TmBody)
      (t : TmTail)
  /-- {{range pipeline}} T1 ... or {{range $index, $element = pipeline}} T1 ... -/
  | range (o : TmOpen) (g : Bytes) (v : Option TmVars) (p : TmPipe) (c : TmClose) (b : TmBody)
      (t : TmTail)
  /-- {{define "name"}} text {{end}} -/
  | define (o : TmOpen) (g : Bytes) (n : List TmPiece) (c : TmClose) (b : TmBody) (o' : TmOpen)
      (c' : TmClose)
  /-- {{block "name" pipeline}} T1 {{end}} -/
  | block (o : TmOpen) (g : Bytes) (n : List TmPiece) (g' : Bytes) (p : TmPipe) (c : TmClose)
      (b : TmBody) (o' : TmOpen) (c' : TmClose)
  /-- {{template "name" value}} -/
  | template (o : TmOpen) (g : Bytes) (n : List TmPiece) (g' : Bytes) (p : TmPipe) (c : TmClose)
  /-- {{break}} -/
  | brk (o : TmOpen) (c : TmClose)
  /-- {{continue}} -/
  | cont (o : TmOpen) (c : TmClose)
/-- What follows T1 -/
inductive TmTail where
  /-- {{end}} -/
  | fin (o : TmOpen) (c : TmClose)
  /-- {{else}} T0 {{end}} -/
  | els (o : TmOpen) (c : TmClose) (b : TmBody) (o' : TmOpen) (c' : TmClose)
  /-- {{else if pipeline}} T2 ... -/
  | elif (o : TmOpen) (g g' : Bytes) (p : TmPipe) (c : TmClose) (b : TmBody) (t : TmTail)
end

/-! ### The text -/

def TmPiece.text : TmPiece → Bytes
  | .plain c => [c]
  | .esc c => [92, c]

/-- A quoted string -/
def tmStrText (ps : List TmPiece) : Bytes := b!"\"" ++ ps.flatMap TmPiece.text ++ b!"\""

/-- `.Xattr.Yattr` -/
def tmFieldsText (fs : List Bytes) : Bytes := fs.flatMap (fun f => b!"." ++ f)

/-- The names of the functions -/
def tmFunName : TFun → Bytes
  | .and => b!"and" | .or => b!"or" | .index => b!"index" | .len => b!"len" | .not => b!"not"
  | .eq => b!"eq" | .ne => b!"ne" | .lt => b!"lt" | .le => b!"le" | .gt => b!"gt"
  | .ge => b!"ge" | .even => b!"even" | .printf => b!"printf" | .typeof => b!"typeof"
  | .exists => b!"exists" | .add => b!"add" | .sub => b!"sub" | .mul => b!"mul"
  | .div => b!"div"

mutual
def TmArg.text : TmArg → Bytes
  | .int neg ds => (if neg then b!"-" else []) ++ ds
  | .str ps => tmStrText ps
  | .bool b => if b then b!"true" else b!"false"
  | .dot => b!"."
  | .attr a fs => b!"." ++ a ++ tmFieldsText fs
  | .var x fs => b!"$" ++ x ++ tmFieldsText fs
  | .paren g p g' fs => b!"(" ++ g ++ p.text ++ g' ++ b!")" ++ tmFieldsText fs
def TmArgs.text : TmArgs → Bytes
  | .nil => []
  | .cons g a as => g ++ a.text ++ as.text
def TmCmd.text : TmCmd → Bytes
  | .arg a => a.text
  | .call f as => tmFunName f ++ as.text
def TmPipe.text : TmPipe → Bytes
  | .one c => c.text
  | .more c g g' p => c.text ++ g ++ b!"|" ++ g' ++ p.text
end

def TmOpen.text (o : TmOpen) : Bytes :=
  b!"{{" ++ (match o.trim with | some c => [45, c] | none => []) ++ o.ws ++
    (match o.comment with | some (t, w) => b!"/*" ++ t ++ b!"*/" ++ w | none => [])

def TmClose.text (c : TmClose) : Bytes :=
  c.ws ++ (match c.trim with | some s => [s, 45] | none => []) ++ b!"}}"

def TmVar.text (v : TmVar) : Bytes := b!"$" ++ v.name ++ v.g ++ b!"=" ++ v.g'

def TmVars.text (v : TmVars) : Bytes :=
  b!"$" ++ v.index ++ v.g1 ++ b!"," ++ v.g2 ++ b!"$" ++ v.element ++ v.g3 ++ b!"=" ++ v.g4

mutual
def TmBody.text : TmBody → Bytes
  | .done t => t
  | .item t i b => t ++ i.text ++ b.text
def TmItem.text : TmItem → Bytes
  | .empty o c => o.text ++ c.text
  | .trims sp => b!"{{-" ++ [sp] ++ b!"-}}"
  | .print o p c => o.text ++ p.text ++ c.text
  | .cond o g p c b t => o.text ++ b!"if" ++ g ++ p.text ++ c.text ++ b.text ++ t.text
  | .wth o g v p c b t =>
    o.text ++ b!"with" ++ g ++ (match v with | some v => v.text | none => []) ++ p.text ++ c.text
      ++ b.text ++ t.text
  | .range o g v p c b t =>
    o.text ++ b!"range" ++ g ++ (match v with | some v => v.text | none => []) ++ p.text ++ c.text
      ++ b.text ++ t.text
  | .define o g n c b o' c' =>
    o.text ++ b!"define" ++ g ++ tmStrText n ++ c.text ++ b.text ++ o'.text ++ b!"end" ++ c'.text
  | .block o g n g' p c b o' c' =>
    o.text ++ b!"block" ++ g ++ tmStrText n ++ g' ++ p.text ++ c.text ++ b.text ++ o'.text
      ++ b!"end" ++ c'.text
  | .template o g n g' p c =>
    o.text ++ b!"template" ++ g ++ tmStrText n ++ g' ++ p.text ++ c.text
  | .brk o c => o.text ++ b!"break" ++ c.text
  | .cont o c => o.text ++ b!"continue" ++ c.text
def TmTail.text : TmTail → Bytes
  | .fin o c => o.text ++ b!"end" ++ c.text
  | .els o c b o' c' => o.text ++ b!"else" ++ c.text ++ b.text ++ o'.text ++ b!"end" ++ c'.text
  | .elif o g g' p c b t =>
    o.text ++ b!"else" ++ g ++ b!"if" ++ g' ++ p.text ++ c.text ++ b.text ++ t.text
end

/-! ### Well-formed templates -/

/-- White space -/
def TmSpace (c : UInt8) : Prop := c = 32 ∨ (9 ≤ c ∧ c ≤ 13)
instance (c : UInt8) : Decidable (TmSpace c) := by unfold TmSpace; infer_instance

def TmWs (g : Bytes) : Prop := ∀ c ∈ g, TmSpace c
instance (g : Bytes) : Decidable (TmWs g) := by unfold TmWs; infer_instance

def TmDigit (c : UInt8) : Prop := 48 ≤ c ∧ c ≤ 57
instance (c : UInt8) : Decidable (TmDigit c) := by unfold TmDigit; infer_instance

def TmLetter (c : UInt8) : Prop := (65 ≤ c ∧ c ≤ 90) ∨ (97 ≤ c ∧ c ≤ 122)
instance (c : UInt8) : Decidable (TmLetter c) := by unfold TmLetter; infer_instance

/-- The name of a variable: letters, digits and underscores, a letter first -/
def TmVarName : Bytes → Prop
  | [] => False
  | c :: r => TmLetter c ∧ ∀ d ∈ r, TmLetter d ∨ TmDigit d ∨ d = 95
instance (n : Bytes) : Decidable (TmVarName n) := by cases n <;> (unfold TmVarName; infer_instance)

/-- The name of an attribute: letters, digits, underscores and hyphens, a letter first -/
def TmAttrName : Bytes → Prop
  | [] => False
  | c :: r => TmLetter c ∧ ∀ d ∈ r, TmLetter d ∨ TmDigit d ∨ d = 95 ∨ d = 45
instance (n : Bytes) : Decidable (TmAttrName n) := by
  cases n <;> (unfold TmAttrName; infer_instance)

/-- A string without quotes; after a backslash, a character of the table. -/
def TmPiece.Ok : TmPiece → Prop
  | .plain c => c ≠ 34 ∧ c ≠ 92
  | .esc c => c ∈ tmEscapes.map (·.1)
instance (p : TmPiece) : Decidable p.Ok := by cases p <;> (unfold TmPiece.Ok; infer_instance)

/-- The value of a sequence of decimal digits -/
def tmNat (ds : Bytes) : Nat := ds.foldl (fun n c => n * 10 + (c.toNat - 48)) 0

mutual
def TmArg.Ok : TmArg → Prop
  | .int _ ds => ds ≠ [] ∧ (∀ c ∈ ds, TmDigit c) ∧ tmNat ds < 2 ^ 63
  | .str ps => ∀ p ∈ ps, p.Ok
  | .bool _ => True
  | .dot => True
  | .attr a fs => TmAttrName a ∧ ∀ f ∈ fs, TmAttrName f
  | .var x fs => TmVarName x ∧ ∀ f ∈ fs, TmAttrName f
  | .paren g p g' fs => TmWs g ∧ p.Ok ∧ TmWs g' ∧ ∀ f ∈ fs, TmAttrName f
/-- At least one space before every argument -/
def TmArgs.Ok : TmArgs → Prop
  | .nil => True
  | .cons g a as => g ≠ [] ∧ TmWs g ∧ a.Ok ∧ as.Ok
def TmCmd.Ok : TmCmd → Prop
  | .arg a => a.Ok
  | .call _ as => as.Ok
def TmPipe.Ok : TmPipe → Prop
  | .one c => c.Ok
  | .more c g g' p => c.Ok ∧ TmWs g ∧ TmWs g' ∧ p.Ok
end

/-- The comment does not end early -/
def TmOpen.Ok (o : TmOpen) : Prop :=
  (∀ c, o.trim = some c → TmSpace c) ∧ TmWs o.ws ∧
    ∀ t w, o.comment = some (t, w) → ¬ b!"*/" <:+: t ++ b!"*" ∧ TmWs w

def TmClose.Ok (c : TmClose) : Prop := TmWs c.ws ∧ ∀ s, c.trim = some s → TmSpace s

def TmVar.Ok (v : TmVar) : Prop := TmVarName v.name ∧ TmWs v.g ∧ TmWs v.g'

def TmVars.Ok (v : TmVars) : Prop :=
  TmVarName v.index ∧ TmWs v.g1 ∧ TmWs v.g2 ∧ TmVarName v.element ∧ TmWs v.g3 ∧ TmWs v.g4

/-- White space that is not missing -/
def TmGap (g : Bytes) : Prop := g ≠ [] ∧ TmWs g

/-- Text between actions: no "{{", not even with the delimiter after it -/
def TmText (t : Bytes) : Prop := ¬ b!"{{" <:+: t ++ b!"{"

/-- The pipeline starts with a variable -/
def TmPipe.StartsVar : TmPipe → Prop
  | .one (.arg (.var _ _)) => True
  | .more (.arg (.var _ _)) _ _ _ => True
  | _ => False

/-- Where a body is: outside of range, within range, or directly below range -/
inductive TmPlace where
  | out
  | within
  | direct
deriving DecidableEq

/-- The place of the branches of an action in a body -/
def TmPlace.inner : TmPlace → TmPlace
  | .out => .out
  | _ => .within

/-- The string a constant stands for -/
def tmStr (ps : List TmPiece) : Bytes :=
  ps.map fun
    | .plain c => c
    | .esc c => (tmEscapes.lookup c).getD c

mutual
/-- The names of the templates a body defines -/
def TmBody.names : TmBody → List Bytes
  | .done _ => []
  | .item _ i b => i.names ++ b.names
def TmItem.names : TmItem → List Bytes
  | .cond _ _ _ _ b t => b.names ++ t.names
  | .wth _ _ _ _ _ b t => b.names ++ t.names
  | .range _ _ _ _ _ b t => b.names ++ t.names
  | .define _ _ n _ b _ _ => b.names ++ [tmStr n]
  | .block _ _ n _ _ _ b _ _ => b.names ++ [tmStr n]
  | _ => []
def TmTail.names : TmTail → List Bytes
  | .fin _ _ => []
  | .els _ _ b _ _ => b.names
  | .elif _ _ _ _ _ b t => b.names ++ t.names
end

mutual
/-- A well-formed body at a place, after the definition of the templates `ns`.  A template is
defined before it is used, and a block has a new name.  {{continue}} is only allowed directly
below range.  Without `$var =`, the pipeline of `with` and `range` does not start with a
variable. -/
def TmBody.Ok (pl : TmPlace) (ns : List Bytes) : TmBody → Prop
  | .done t => TmText t
  | .item t i b => TmText t ∧ i.Ok pl ns ∧ b.Ok pl (ns ++ i.names)
def TmItem.Ok (pl : TmPlace) (ns : List Bytes) : TmItem → Prop
  | .empty o c => o.Ok ∧ c.Ok
  | .trims sp => TmSpace sp
  | .print o p c => o.Ok ∧ p.Ok ∧ c.Ok
  | .cond o g p c b t =>
    o.Ok ∧ TmGap g ∧ p.Ok ∧ c.Ok ∧ b.Ok pl.inner ns ∧ t.Ok pl.inner (ns ++ b.names)
  | .wth o g v p c b t =>
    o.Ok ∧ TmGap g ∧ (match v with | some v => v.Ok | none => ¬ p.StartsVar) ∧ p.Ok ∧ c.Ok ∧
      b.Ok pl.inner ns ∧ t.Ok pl.inner (ns ++ b.names) ∧ t.NoElif
  | .range o g v p c b t =>
    o.Ok ∧ TmGap g ∧ (match v with | some v => v.Ok | none => ¬ p.StartsVar) ∧ p.Ok ∧ c.Ok ∧
      b.Ok .direct ns ∧ t.Ok pl.inner (ns ++ b.names) ∧ t.NoElif
  | .define o g n c b o' c' =>
    o.Ok ∧ TmGap g ∧ (∀ p ∈ n, p.Ok) ∧ c.Ok ∧ b.Ok .out ns ∧ o'.Ok ∧ c'.Ok
  | .block o g n g' p c b o' c' =>
    o.Ok ∧ TmGap g ∧ (∀ p ∈ n, p.Ok) ∧ TmGap g' ∧ p.Ok ∧ c.Ok ∧ tmStr n ∉ ns ∧ b.Ok .out ns ∧
      o'.Ok ∧ c'.Ok
  | .template o g n g' p c =>
    o.Ok ∧ TmGap g ∧ (∀ p ∈ n, p.Ok) ∧ TmGap g' ∧ p.Ok ∧ c.Ok ∧ tmStr n ∈ ns
  | .brk o c => o.Ok ∧ c.Ok ∧ pl ≠ .out
  | .cont o c => o.Ok ∧ c.Ok ∧ pl = .direct
def TmTail.Ok (pl : TmPlace) (ns : List Bytes) : TmTail → Prop
  | .fin o c => o.Ok ∧ c.Ok
  | .els o c b o' c' => o.Ok ∧ c.Ok ∧ b.Ok pl ns ∧ o'.Ok ∧ c'.Ok
  | .elif o g g' p c b t =>
    o.Ok ∧ TmGap g ∧ TmGap g' ∧ p.Ok ∧ c.Ok ∧ b.Ok pl ns ∧ t.Ok pl (ns ++ b.names)
/-- `else if` belongs to `if` -/
def TmTail.NoElif : TmTail → Prop
  | .elif _ _ _ _ _ _ _ => False
  | _ => True
end

/-! ### White space around actions -/

/-- The delimiter trims the text next to it -/
def TmOpen.trims (o : TmOpen) : Bool := o.trim.isSome
def TmClose.trims (c : TmClose) : Bool := c.trim.isSome

/-- The first delimiter of the action trims the text before it -/
def TmItem.trimsBefore : TmItem → Bool
  | .empty o _ => o.trims
  | .trims _ => true
  | .print o _ _ => o.trims
  | .cond o _ _ _ _ _ => o.trims
  | .wth o _ _ _ _ _ _ => o.trims
  | .range o _ _ _ _ _ _ => o.trims
  | .define o _ _ _ _ _ _ => o.trims
  | .block o _ _ _ _ _ _ _ _ => o.trims
  | .template o _ _ _ _ _ => o.trims
  | .brk o _ => o.trims
  | .cont o _ => o.trims

def TmTail.trimsBefore : TmTail → Bool
  | .fin o _ => o.trims
  | .els o _ _ _ _ => o.trims
  | .elif o _ _ _ _ _ _ => o.trims

/-- The last delimiter of the action trims the text after it -/
def TmTail.trimsAfter : TmTail → Bool
  | .fin _ c => c.trims
  | .els _ _ _ _ c => c.trims
  | .elif _ _ _ _ _ _ t => t.trimsAfter

def TmItem.trimsAfter : TmItem → Bool
  | .empty _ c => c.trims
  | .trims _ => true
  | .print _ _ c => c.trims
  | .cond _ _ _ _ _ t => t.trimsAfter
  | .wth _ _ _ _ _ _ t => t.trimsAfter
  | .range _ _ _ _ _ _ t => t.trimsAfter
  | .define _ _ _ _ _ _ c => c.trims
  | .block _ _ _ _ _ _ _ _ c => c.trims
  | .template _ _ _ _ _ c => c.trims
  | .brk _ c => c.trims
  | .cont _ c => c.trims

/-- A text with white space removed at the start and at the end, if asked for -/
def tmTrim (l r : Bool) (t : Bytes) : Bytes :=
  let t := if l then t.dropWhile (fun c => decide (TmSpace c)) else t
  if r then (t.reverse.dropWhile (fun c => decide (TmSpace c))).reverse else t

/-! ### Values -/

variable {D : Type}

mutual
/-- The objects in a value are maps with ascending keys, as read by the JSON parser -/
def TmGood : JVal D → Prop
  | .arr l => TmGoodL l
  | .obj c l => c = l.length ∧ l.Pairwise (fun a b => LexLt a.1 b.1) ∧ TmGoodP l
  | _ => True
def TmGoodL : List (JVal D) → Prop
  | [] => True
  | v :: l => TmGood v ∧ TmGoodL l
def TmGoodP : List (Bytes × JVal D) → Prop
  | [] => True
  | (_, v) :: l => TmGood v ∧ TmGoodP l
end

/-- Neither negative nor positive -/
def tmZero (N : TNum D) (d : D) : Bool := !N.lt d (N.ofInt 0) && !N.lt (N.ofInt 0) d

/-- The empty values: null, false, 0, "", [] and {}.  Nothing is said about numbers close to
zero (see C77_small_fails). -/
def tmEmpty (N : TNum D) : JVal D → Option Bool
  | .null => some true
  | .bool b => some (!b)
  | .num d => if tmZero N d = N.small d then some (tmZero N d) else none
  | .int d => (N.toLong d).map (· == 0)
  | .str s => some s.isEmpty
  | .arr l => some l.isEmpty
  | .obj _ l => some l.isEmpty

/-- The attribute of a value; null if there is none -/
def tmAttr (v : JVal D) (name : Bytes) : JVal D :=
  match v with
  | .obj _ l => (l.lookup name).getD .null
  | _ => .null

/-- The default textual representation of a value -/
def tmShow (N : TNum D) : JVal D → Bytes
  | .null => []
  | .str s => s
  | .bool b => if b then b!"true" else b!"false"
  | .num d => N.fmtNum d
  | .int d => N.fmtInt d
  | v => fmtVal N.toNumLib 0 0 v

/-- How two values compare: integers, numbers or strings -/
def tmCompare (N : TNum D) : JVal D → JVal D → Option Ordering
  | .int x, .int y => do
    let i ← N.toLong x
    let j ← N.toLong y
    some (compare i j)
  | .num x, .num y => some (if N.lt x y then .lt else if N.lt y x then .gt else .eq)
  | .str s, .str t =>
    some (if s = t then .eq else if strcmp s t = .lt then .lt else .gt)
  | _, _ => none

/-- Digits that stand for a number up to `m` -/
def TmUpTo (ds : Bytes) (m : Nat) : Prop := ds ≠ [] ∧ (∀ c ∈ ds, TmDigit c) ∧ tmNat ds ≤ m

instance (ds : Bytes) (m : Nat) : Decidable (TmUpTo ds m) := by unfold TmUpTo TmDigit; infer_instance

/-- The number a text stands for: blanks, a sign and digits, if it fits 64 bits; 0 for any other text -/
def tmTextInt (s : Bytes) : Int :=
  match s.dropWhile (fun c => c = 32 || (9 ≤ c && c ≤ 13)) with
  | 45 :: ds => if TmUpTo ds (2 ^ 63) then -(tmNat ds : Int) else 0
  | 43 :: ds => if TmUpTo ds (2 ^ 63 - 1) then tmNat ds else 0
  | ds => if TmUpTo ds (2 ^ 63 - 1) then tmNat ds else 0

/-- The whole number a value stands for: 1 and 0 for true and false, 0 for null, the size of arrays and objects -/
def tmWhole (N : TNum D) : JVal D → Option Int
  | .null => some 0
  | .bool b => some (if b = true then 1 else 0)
  | .num d => N.toLong d
  | .int d => N.toLong d
  | .str s => N.toLong (N.ofInt (tmTextInt s))
  | .arr l => some l.length
  | .obj c _ => some c

/-- One step of `index` -/
def tmIndex (N : TNum D) : JVal D → JVal D → Option (JVal D)
  | .arr l, k => do
    let i ← tmWhole N k
    if i < 0 then none else l[i.toNat]?
  | .obj _ l, .str k => l.lookup k
  | _, _ => none

/-- The values of numbers -/
def tmNums : List (JVal D) → Option (List D)
  | [] => some []
  | .num d :: l => (tmNums l).map (d :: ·)
  | .int d :: l => (tmNums l).map (d :: ·)
  | _ :: _ => none

/-- The first argument combined with the others, from left to right -/
def tmFold (op : D → D → D) (args : List (JVal D)) : Option (JVal D) :=
  match tmNums args with
  | some (d :: ds) => some (.num (ds.foldl op d))
  | _ => none

/-- The functions; `pf`: what printf gives. -/
def tmApply (N : TNum D) (pf : Bytes → List (JVal D) → Option Bytes) (f : TFun)
    (args : List (JVal D)) : Option (JVal D) :=
  let cmp (ok : Ordering → Bool) : Option (JVal D) :=
    match args with
    | [a, b] => (tmCompare N a b).map (fun o => .bool (ok o))
    | _ => none
  match f, args with
  /- the first empty argument, or else the last one -/
  | .and, args => do
    let es ← args.mapM (tmEmpty N)
    ((args.zip es).find? (·.2)).elim args.getLast? (fun p => some p.1)
  /- the first argument that is not empty, or else the last one -/
  | .or, args => do
    let es ← args.mapM (tmEmpty N)
    ((args.zip es).find? (fun p => !p.2)).elim args.getLast? (fun p => some p.1)
  | .index, v :: ks => ks.foldlM (tmIndex N) v
  | .len, [.null] => some (.int (N.ofInt 0))
  | .len, [.str s] => some (.int (N.ofInt s.length))
  | .len, [.arr l] => some (.int (N.ofInt l.length))
  | .len, [.obj _ l] => some (.int (N.ofInt l.length))
  | .not, [v] => (tmEmpty N v).map .bool
  | .eq, _ => cmp (· = .eq)
  | .ne, _ => cmp (· ≠ .eq)
  | .lt, _ => cmp (· = .lt)
  | .le, _ => cmp (fun o => o = .lt ∨ o = .eq)
  | .gt, _ => cmp (· = .gt)
  | .ge, _ => cmp (fun o => o = .gt ∨ o = .eq)
  | .even, [v] => (tmWhole N v).map (fun n => .bool (decide (2 ∣ n)))
  | .printf, .str fmt :: args => (pf fmt args).map .str
  | .typeof, [v] => some (.str (match v with
      | .null => b!"null" | .bool _ => b!"bool" | .num _ => b!"number" | .int _ => b!"integer"
      | .str _ => b!"string" | .arr _ => b!"array" | .obj _ _ => b!"object"))
  | .exists, [.obj _ l, .str k] => some (.bool (l.any (fun p => p.1 == k)))
  | .add, _ => tmFold N.add args
  | .sub, _ => tmFold N.sub args
  | .mul, _ => tmFold N.mul args
  | .div, [_, _] => tmFold N.div args
  | _, _ => none

/-- The cursor, and the variables in scope -/
structure TmEnv (D : Type) where
  dot : JVal D
  vars : Bytes → Option (JVal D)

mutual
/-- The value of an argument -/
def TmArg.val (N : TNum D) (pf : Bytes → List (JVal D) → Option Bytes) (e : TmEnv D) :
    TmArg → Option (JVal D)
  | .int neg ds => some (.int (N.ofInt (if neg then -(tmNat ds : Int) else tmNat ds)))
  | .str ps => some (.str (tmStr ps))
  | .bool b => some (.bool b)
  | .dot => some e.dot
  | .attr a fs => some (fs.foldl tmAttr (tmAttr e.dot a))
  | .var x fs => (e.vars x).map (fs.foldl tmAttr)
  | .paren _ p _ fs => (p.val N pf e none).map (fs.foldl tmAttr)
def TmArgs.val (N : TNum D) (pf : Bytes → List (JVal D) → Option Bytes) (e : TmEnv D) :
    TmArgs → Option (List (JVal D))
  | .nil => some []
  | .cons _ a as => do
    let v ← a.val N pf e
    let vs ← as.val N pf e
    some (v :: vs)
/-- The value of a command; `prev`: the result of the command before it, which is added to the
arguments of a function. -/
def TmCmd.val (N : TNum D) (pf : Bytes → List (JVal D) → Option Bytes) (e : TmEnv D)
    (prev : Option (JVal D)) : TmCmd → Option (JVal D)
  | .arg a => a.val N pf e
  | .call f as => do
    let vs ← as.val N pf e
    tmApply N pf f (vs ++ prev.toList)
def TmPipe.val (N : TNum D) (pf : Bytes → List (JVal D) → Option Bytes) (e : TmEnv D)
    (prev : Option (JVal D)) : TmPipe → Option (JVal D)
  | .one c => c.val N pf e prev
  | .more c _ _ p => do
    let v ← c.val N pf e prev
    p.val N pf e (some v)
end

/-! ### Running a template -/

/-- How a body ends: at its end, or with {{break}} or {{continue}} -/
inductive TmEnd where
  | norm
  | brk
  | cont
deriving DecidableEq

/-- The index or name, and the value, of the elements of an array or object; for everything
else, nothing. -/
def tmElements (N : TNum D) : JVal D → List (JVal D × JVal D)
  | .arr l => l.zipIdx.map (fun p => (.int (N.ofInt p.2), p.1))
  | .obj _ l => l.map (fun p => (.str p.1, p.2))
  | _ => []

/-- The environment of one iteration -/
def tmIter (e : TmEnv D) (v : Option TmVars) (k x : JVal D) : TmEnv D :=
  match v with
  | none => { e with dot := x }
  | some v =>
    { e with vars := fun n => if n = v.element then some x
                              else if n = v.index then some k else e.vars n }

/-- The iterations, up to a {{break}} -/
def tmLoop (body : JVal D → JVal D → Option (Bytes × TmEnd)) :
    List (JVal D × JVal D) → Option Bytes
  | [] => some []
  | (k, x) :: l => do
    let (o, z) ← body k x
    if z = .brk then some o
    else do
      let o' ← tmLoop body l
      some (o ++ o')

mutual
/-- What a body prints, and how it ends.  `l`, `r`: the delimiters before and after it trim
white space.  `call`: what a named template prints for a value. -/
def TmBody.run (N : TNum D) (pf : Bytes → List (JVal D) → Option Bytes)
    (call : Bytes → JVal D → Option Bytes) (e : TmEnv D) (l r : Bool) :
    TmBody → Option (Bytes × TmEnd)
  | .done t => some (tmTrim l r t, .norm)
  | .item t i b => do
    let (o, z) ← i.run N pf call e
    if z = .norm then do
      let (o', z') ← b.run N pf call e i.trimsAfter r
      some (tmTrim l i.trimsBefore t ++ o ++ o', z')
    else some (tmTrim l i.trimsBefore t ++ o, z)
def TmItem.run (N : TNum D) (pf : Bytes → List (JVal D) → Option Bytes)
    (call : Bytes → JVal D → Option Bytes) (e : TmEnv D) : TmItem → Option (Bytes × TmEnd)
  | .empty _ _ => some ([], .norm)
  | .trims _ => some ([], .norm)
  | .print _ p _ => do
    let v ← p.val N pf e none
    some (tmShow N v, .norm)
  | .cond _ _ p c b t => do
    let v ← p.val N pf e none
    let z ← tmEmpty N v
    if z then t.run N pf call e else b.run N pf call e c.trims t.trimsBefore
  | .wth _ _ v p c b t => do
    let x ← p.val N pf e none
    let z ← tmEmpty N x
    if z then t.run N pf call e
    else
      match v with
      | none => b.run N pf call { e with dot := x } c.trims t.trimsBefore
      | some v =>
        b.run N pf call { e with vars := fun n => if n = v.name then some x else e.vars n }
          c.trims t.trimsBefore
  | .range _ _ v p c b t => do
    let x ← p.val N pf e none
    if (tmElements N x).isEmpty then t.run N pf call e
    else do
      let o ← tmLoop (fun k y => b.run N pf call (tmIter e v k y) c.trims t.trimsBefore)
        (tmElements N x)
      some (o, .norm)
  | .define _ _ _ _ _ _ _ => some ([], .norm)
  | .block _ _ n _ p _ _ _ _ => do
    let v ← p.val N pf e none
    let o ← call (tmStr n) v
    some (o, .norm)
  | .template _ _ n _ p _ => do
    let v ← p.val N pf e none
    let o ← call (tmStr n) v
    some (o, .norm)
  | .brk _ _ => some ([], .brk)
  | .cont _ _ => some ([], .cont)
def TmTail.run (N : TNum D) (pf : Bytes → List (JVal D) → Option Bytes)
    (call : Bytes → JVal D → Option Bytes) (e : TmEnv D) : TmTail → Option (Bytes × TmEnd)
  | .fin _ _ => some ([], .norm)
  | .els _ c b o' _ => b.run N pf call e c.trims o'.trims
  | .elif _ _ _ p c b t => do
    let v ← p.val N pf e none
    let z ← tmEmpty N v
    if z then t.run N pf call e else b.run N pf call e c.trims t.trimsBefore
end

/-- A defined template: the body, and whether the delimiters around it trim white space -/
structure TmDef where
  name : Bytes
  l : Bool
  body : TmBody
  r : Bool

mutual
/-- The templates a body defines, in the order in which their definitions end -/
def TmBody.defs : TmBody → List TmDef
  | .done _ => []
  | .item _ i b => i.defs ++ b.defs
def TmItem.defs : TmItem → List TmDef
  | .cond _ _ _ _ b t => b.defs ++ t.defs
  | .wth _ _ _ _ _ b t => b.defs ++ t.defs
  | .range _ _ _ _ _ b t => b.defs ++ t.defs
  | .define _ _ n c b o' _ => b.defs ++ [⟨tmStr n, c.trims, b, o'.trims⟩]
  | .block _ _ n _ _ c b o' _ => b.defs ++ [⟨tmStr n, c.trims, b, o'.trims⟩]
  | _ => []
def TmTail.defs : TmTail → List TmDef
  | .fin _ _ => []
  | .els _ _ b _ _ => b.defs
  | .elif _ _ _ _ _ b t => b.defs ++ t.defs
end

/-- The last definition of a template -/
def tmDefOf (ds : List TmDef) (n : Bytes) : Option TmDef := ds.reverse.find? (fun d => d.name == n)

/-- What a named template prints for a value, with calls nested up to a depth.  It does not see
the variables of its caller. -/
def tmCall (N : TNum D) (pf : Bytes → List (JVal D) → Option Bytes) (ds : List TmDef) :
    Nat → Bytes → JVal D → Option Bytes
  | 0, _, _ => none
  | d + 1, n, v => do
    let t ← tmDefOf ds n
    let (o, _) ← t.body.run N pf (tmCall N pf ds d) ⟨v, fun _ => none⟩ t.l t.r
    some o

/-- The template prints `out` for the value `v`. -/
def TmPrints (N : TNum D) (pf : Bytes → List (JVal D) → Option Bytes) (b : TmBody) (v : JVal D)
    (out : Bytes) : Prop :=
  ∃ d z, b.run N pf (tmCall N pf b.defs d) ⟨v, fun _ => none⟩ false false = some (out, z)

end Pound.Spec
