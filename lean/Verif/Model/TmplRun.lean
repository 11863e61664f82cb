import Verif.Model.Tmpl
import Verif.Model.Log

/-!
The template engine of poundctl: /repo/src/tmpl.c, what templates do when they run
(lines 80-1500 and 2176-2445).

Values are JSON values (Model/Json.lean).  json_value_copy gives an equal value.  Numbers are
C doubles; the operations on them are parameters.
-/

namespace Pound

/-- The flags of a conversion of printf, /repo/src/tmpl.c:853-858 (FMT_ALTPOS apart) -/
structure TFlags where
  alt : Bool := false
  zero : Bool := false
  left : Bool := false
  space : Bool := false
  sign : Bool := false
deriving DecidableEq

/-- Operations on doubles.  `toLong`: conversion to long, `none` if the value does not fit
(undefined).  `small`: -1e-3 <= d && d <= 1e-3.  `fmtG`: "%g".  `fmtDouble`: a conversion
e, E, f, F, g or G with flags, width and precision. -/
structure TNum (D : Type) extends NumLib D where
  ofInt : Int → D
  toLong : D → Option Int
  lt : D → D → Bool
  small : D → Bool
  add : D → D → D
  sub : D → D → D
  mul : D → D → D
  div : D → D → D
  fmtG : D → Bytes
  fmtDouble : TFlags → Option Nat → Option Nat → UInt8 → D → Bytes

variable {D : Type}

/-- struct tmpl_env, /repo/src/tmpl.c:80-86, without the output file.  tmpl_env_new
(:88-109) copies the variables, so that changing a copy does not change the original. -/
structure TEnv (D : Type) where
  dot : JVal D
  vars : JObj (JVal D)

/-- The result of a search that must not go wrong -/
def TOut.ofRes {α} : Res α → TOut α
  | .ok a => .ok a
  | .ub => .ub

/-- A conversion to long, undefined if the value does not fit -/
def TOut.ofOpt {α} : Option α → TOut α
  | some a => .ok a
  | none => .ub

/-- json_object_get with null for what is not there or not an object, /repo/src/tmpl.c:285-297
and json.c:726-744 -/
def getAttr (v : JVal D) (name : Bytes) : TOut (JVal D) :=
  match v with
  | .obj c l =>
    match jGet ⟨c, l⟩ name with
    | .ub => .ub
    | .ok none => .ok .null
    | .ok (some v) => .ok v
  | _ => .ok .null

/-! ### Functions -/

/-- is_empty, /repo/src/tmpl.c:340-361 -/
def isEmpty (N : TNum D) : JVal D → TOut Bool
  | .null => .ok true
  | .bool b => .ok (!b)
  | .num d => .ok (N.small d)
  | .int d => do
    let n ← TOut.ofOpt (N.toLong d)
    pure (n == 0)
  | .str s => .ok (s == [])
  | .arr l => .ok (l.length == 0)
  | .obj c _ => .ok (c == 0)

/-- func_and, /repo/src/tmpl.c:406-419; `res` is the last argument looked at (uninitialised
at first). -/
def funAnd (N : TNum D) (res : Option (JVal D)) : List (JVal D) → TOut (JVal D)
  | [] => TOut.ofOpt res
  | v :: l => do
    let e ← isEmpty N v
    if e then pure v else funAnd N (some v) l

/-- func_or, /repo/src/tmpl.c:421-434 -/
def funOr (N : TNum D) (res : Option (JVal D)) : List (JVal D) → TOut (JVal D)
  | [] => TOut.ofOpt res
  | v :: l => do
    let e ← isEmpty N v
    if !e then pure v else funOr N (some v) l

/-- strtol (s, &p, 10) with `errno || *p` giving 0, /repo/src/tmpl.c:455-462 -/
def strToInt (s : Bytes) : Int :=
  let t := s.dropWhile isSpace
  let neg := t.headD 0 == 45
  let t := if t.headD 0 == 45 || t.headD 0 == 43 then t.drop 1 else t
  if t ≠ [] ∧ t.all isDigit then
    let n : Nat := t.foldl (fun (a : Nat) c => a * 10 + (c.toNat - 48)) 0
    let v : Int := if neg then -(n : Int) else n
    if v < -(2 ^ 63) ∨ 2 ^ 63 - 1 < v then 0 else v
  else 0

/-- json_cast_to_integer, /repo/src/tmpl.c:436-473: the number of the integer created.  The
double n is converted to long and back by json_new_integer. -/
def castInt (N : TNum D) : JVal D → TOut Int
  | .null => .ok 0
  | .bool b => .ok (if b then 1 else 0)
  | .num d => TOut.ofOpt (N.toLong d)
  | .int d => TOut.ofOpt (N.toLong d)
  | .str s => TOut.ofOpt (N.toLong (N.ofInt (strToInt s)))
  | .arr l => .ok l.length
  | .obj c _ => .ok c

/-- json_cast_to_string, /repo/src/tmpl.c:475-520.  For an array the pointer to its elements is
taken for a double: undefined. -/
def castStr (N : TNum D) : JVal D → TOut Bytes
  | .null => .ok []
  | .bool b => .ok (if b then b!"true" else [])
  | .num d => .ok (N.fmtG d)
  | .int d => do
    let n ← TOut.ofOpt (N.toLong d)
    pure (decInt n)
  | .str s => .ok s
  | .arr _ => .ub
  | .obj c _ => .ok (dec c)

/-- func_index, /repo/src/tmpl.c:522-558, after the first argument.  An index that is not there
leaves v as it is (json_array_get fails); a negative index converted to size_t is undefined. -/
def funIndex (N : TNum D) (v : JVal D) : List (JVal D) → TOut (JVal D)
  | [] => .ok v
  | a :: as =>
    match v with
    | .arr l => do
      let i ← castInt N a
      if i < 0 then .ub else funIndex N ((l[i.toNat]?).getD v) as
    | .obj c l => do
      let k ← castStr N a
      match jGet ⟨c, l⟩ k with
      | .ub => .ub
      | .ok none => .die
      | .ok (some v) => funIndex N v as
    | _ => .die

/-- The type of a value in the order of enum json_value_type, and its name,
/repo/src/tmpl.c:658-666 and :736-744 -/
def typeName : JVal D → Bytes
  | .null => b!"null"
  | .bool _ => b!"bool"
  | .num _ => b!"number"
  | .int _ => b!"integer"
  | .str _ => b!"string"
  | .arr _ => b!"array"
  | .obj _ _ => b!"object"

/-- func_len, /repo/src/tmpl.c:560-595 -/
def funLen (N : TNum D) : JVal D → TOut Nat
  | .null => .ok 0
  | .str s => .ok s.length
  | .arr l => .ok l.length
  | .obj c _ => .ok c
  | v => do
    let s ← castStr N v
    pure s.length

/-- json_cmp on two values, /repo/src/tmpl.c:603-684.  Booleans compare equal; an integer and a
number compare as integers. -/
def jsonCmp (N : TNum D) (a b : JVal D) : TOut Ordering :=
  let ints (x y : D) : TOut Ordering := do
    let i ← TOut.ofOpt (N.toLong x)
    let j ← TOut.ofOpt (N.toLong y)
    pure (if i < j then .lt else if j < i then .gt else .eq)
  match a, b with
  | .null, .null => .ok .eq
  | .bool _, .bool _ => .ok .eq
  | .num x, .num y => .ok (if N.lt x y then .lt else if N.lt y x then .gt else .eq)
  | .num x, .int y => ints x y
  | .int x, .num y => ints x y
  | .int x, .int y => ints x y
  | .str s, .str t => .ok (strcmp s t)
  | _, _ => .die

/-- single_arg, /repo/src/tmpl.c:376-389 -/
def oneArg {α} : List (JVal D) → (JVal D → TOut α) → TOut α
  | [a], k => k a
  | _, _ => .die

/-- two_args, /repo/src/tmpl.c:391-404 -/
def twoArgs {α} : List (JVal D) → (JVal D → JVal D → TOut α) → TOut α
  | [a, b], k => k a b
  | _, _ => .die

/-- assert_numeric_value, /repo/src/tmpl.c:770-775 -/
def numOf : JVal D → TOut D
  | .num d => .ok d
  | .int d => .ok d
  | _ => .die

/-- func_add, func_sub and func_mul, /repo/src/tmpl.c:777-835 -/
def funFold (op : D → D → D) : List (JVal D) → TOut (JVal D)
  | [] => .die
  | a :: as => do
    let n ← numOf a
    let rec go (n : D) : List (JVal D) → TOut D
      | [] => .ok n
      | a :: as => do
        let m ← numOf a
        go (op n m) as
    let r ← go n as
    pure (.num r)

/-! ### printf -/

/-- get_num, /repo/src/tmpl.c:873-882: the number modulo 2^32 and the text after it -/
def getNum (p : Bytes) : Nat × Bytes :=
  ((p.takeWhile isDigit).foldl (fun (a : Nat) c => (a * 10 + (c.toNat - 48)) % 2 ^ 32) 0,
   p.dropWhile isDigit)

/-- tmpl_va_arg_n, the argument, /repo/src/tmpl.c:886-894.  Without any argument a NULL pointer
is dereferenced. -/
def vaArg (args : List (JVal D)) (n : Nat) : TOut (JVal D) :=
  if n = 0 then .abort
  else if args = [] then .ub
  else
    match args[n - 1]? with
    | none => .die
    | some a => .ok a

/-- tmpl_va_arg_n (…, json_integer, …), /repo/src/tmpl.c:897-903 -/
def vaInt (N : TNum D) (args : List (JVal D)) (n : Nat) : TOut Int := do
  match ← vaArg args n with
  | .int d => TOut.ofOpt (N.toLong d)
  | .num d => TOut.ofOpt (N.toLong d)
  | _ => .die

/-- tmpl_va_arg_n (…, json_number, …), /repo/src/tmpl.c:905-911 -/
def vaNum (args : List (JVal D)) (n : Nat) : TOut D := do
  match ← vaArg args n with
  | .int d => .ok d
  | .num d => .ok d
  | _ => .die

/-- The flags of a directive, /repo/src/tmpl.c:1032-1064 -/
def getFlags (fl : TFlags) : Bytes → TFlags × Bytes
  | [] => (fl, [])
  | c :: p =>
    if c = ch%'#' then getFlags { fl with alt := true } p
    else if c = ch%'0' then getFlags { fl with zero := true } p
    else if c = ch%'-' then getFlags { fl with left := true } p
    else if c = ch%' ' then getFlags { fl with space := true } p
    else if c = ch%'+' then getFlags { fl with sign := true } p
    else (fl, c :: p)

/-- The digits of a number in a base -/
def digitsIn (base : Nat) (up : Bool) : Nat → Nat → Bytes
  | 0, _ => []
  | f + 1, n =>
    let d := n % base
    let c : UInt8 := UInt8.ofNat (if d < 10 then 48 + d else (if up then 55 else 87) + d)
    if n / base = 0 then [c] else digitsIn base up f (n / base) ++ [c]

/-- What a directive asks for -/
structure TDir where
  fl : TFlags
  width : Nat
  prec : Nat
  hasPrec : Bool
deriving DecidableEq

/-- Flags that exclude each other, e.g. /repo/src/tmpl.c:1190-1195 -/
def TDir.flags (d : TDir) : TFlags :=
  { d.fl with zero := if d.prec ≠ 0 ∨ d.fl.left then false else d.fl.zero
              space := if d.fl.sign then false else d.fl.space }

/-- Leading zeroes for the precision, e.g. /repo/src/tmpl.c:1207-1211: the digits are moved
within the buffer, which has 64 bytes (larger if a number was longer before; that is left
out), `pos` of them in front of the digits. -/
def zeroFill (pos prec : Nat) (s : Bytes) : TOut Bytes :=
  if prec ≠ 0 ∧ s.length < prec then
    if 64 < pos + prec + 1 then .ub else .ok (List.replicate (prec - s.length) 48 ++ s)
  else .ok s

/-- Field width: `pre` stays in front of zeroes, e.g. /repo/src/tmpl.c:1229-1249 -/
def padField (fl : TFlags) (width : Nat) (pre s : Bytes) : Bytes :=
  let n := width - (pre ++ s).length
  if fl.left then pre ++ s ++ List.replicate n 32
  else if fl.zero then pre ++ List.replicate n 48 ++ s
  else List.replicate n 32 ++ pre ++ s

/-- Conversion s, /repo/src/tmpl.c:1152-1175 -/
def convS (d : TDir) (s : Bytes) : TOut Bytes :=
  let s := if d.prec ≠ 0 ∧ d.prec < s.length then s.take d.prec else s
  if d.width = 0 then .ok s
  else
    let w := if d.width < s.length then s.length else d.width
    if w = 2 ^ 32 - 1 then .ub
    else if d.fl.left then .ok (s ++ List.replicate (w - s.length) 32)
    else .ok (List.replicate (w - s.length) 32 ++ s)

/-- Conversions i and d, /repo/src/tmpl.c:1177-1251.  -LONG_MIN is undefined. -/
def convD (d : TDir) (n : Int) : TOut Bytes :=
  if n = -(2 ^ 63) then .ub
  else do
    let fl := d.flags
    let s ← zeroFill 1 d.prec (dec n.natAbs)
    let pre : Bytes :=
      if fl.sign then [if n < 0 then 45 else 43]
      else if fl.space then [if n < 0 then 45 else 32]
      else if n < 0 then [45] else []
    pure (padField fl d.width pre s)

/-- Conversion u, /repo/src/tmpl.c:1253-1289 -/
def convU (d : TDir) (n : Int) : TOut Bytes := do
  let s ← zeroFill 0 d.prec (dec (n % 2 ^ 64).toNat)
  pure (padField d.flags d.width [] s)

/-- Conversions x and X, /repo/src/tmpl.c:1291-1347.  The long is passed for an unsigned int:
its low 32 bits are printed (x86-64). -/
def convX (d : TDir) (up : Bool) (n : Int) : TOut Bytes := do
  let s ← zeroFill 2 d.prec (digitsIn 16 up 9 (n % 2 ^ 32).toNat)
  let pre : Bytes := if d.fl.alt then [48, if up then ch%'X' else ch%'x'] else []
  pure (padField d.flags d.width pre s)

/-- Conversion o, /repo/src/tmpl.c:1349-1392.  The length is not updated for the precision, so
that only as many characters are printed as there were digits. -/
def convO (d : TDir) (n : Int) : TOut Bytes := do
  let ds := digitsIn 8 false 23 (n % 2 ^ 64).toNat
  let s ← zeroFill 1 d.prec ds
  let s := if d.fl.alt ∧ s.headD 0 ≠ 48 then (48 :: s).take (ds.length + 1) else s.take ds.length
  pure (padField d.flags d.width [] s)

/-- Conversions of doubles, /repo/src/tmpl.c:1394-1457.  With a width and no precision, the
precision (0) is passed for the width. -/
def convF (N : TNum D) (d : TDir) (c : UInt8) (x : D) : Bytes :=
  N.fmtDouble d.flags (if d.width ≠ 0 ∧ d.hasPrec then some d.width else none)
    (if d.hasPrec then some d.prec else none) c x

/-- A conversion, /repo/src/tmpl.c:1148-1471; `raw` is the text of the directive. -/
def tConv (N : TNum D) (args : List (JVal D)) (d : TDir) (k : Nat) (raw : Bytes) (c : UInt8) :
    TOut Bytes :=
  if c = ch%'s' then do
    let v ← vaArg args k
    let s ← castStr N v
    convS d s
  else if c = ch%'i' ∨ c = ch%'d' then do
    let n ← vaInt N args k
    convD d n
  else if c = ch%'u' then do
    let n ← vaInt N args k
    convU d n
  else if c = ch%'x' ∨ c = ch%'X' then do
    let n ← vaInt N args k
    convX d (c == ch%'X') n
  else if c = ch%'o' then do
    let n ← vaInt N args k
    convO d n
  else if c ∈ b!"eEfFgG" then do
    let x ← vaNum args k
    pure (convF N d c x)
  else if c = ch%'v' then do
    let v ← vaArg args k
    pure (fmtVal N.toNumLib 0 0 v)
  else .ok raw

/-- A number of an argument, "n$", /repo/src/tmpl.c:1020-1029, :1087-1101, :1133-1143 -/
def argPos (p : Bytes) : Option (Nat × Bytes) :=
  if isDigit (p.headD 0) ∧ (getNum p).2.headD 0 = 36 then some ((getNum p).1, (getNum p).2.drop 1)
  else none

/-- The width of a directive, /repo/src/tmpl.c:1066-1116: width, flags, the number of the next
argument and the rest; `none`: the format ends.  A negative width sets FMT_SPACEPFX. -/
def getWidth (N : TNum D) (args : List (JVal D)) (fl : TFlags) (i : Nat) (p : Bytes) :
    TOut (Option (Nat × TFlags × Nat × Bytes)) :=
  let arg (k i' : Nat) (p : Bytes) : TOut (Option (Nat × TFlags × Nat × Bytes)) := do
    let n ← vaInt N args k
    if n = -(2 ^ 63) then .ub
    else pure (some (n.natAbs % 2 ^ 32, { fl with space := fl.space || n < 0 }, i', p))
  match p with
  | [] => .ok none
  | c :: p' =>
    if isDigit c then .ok (some ((getNum p).1, fl, i, (getNum p).2))
    else if c = 42 then
      match p' with
      | [] => .ok none
      | _ =>
        match argPos p' with
        | some (k, r) => arg k i r
        | none => arg i (i + 1) p'
    else .ok (some (0, fl, i, p))

/-- The precision of a directive, /repo/src/tmpl.c:1118-1146: precision, whether there is one,
and the rest; `none`: the format ends.  The number of the next argument is not advanced for
an asterisk. -/
def getPrec (N : TNum D) (args : List (JVal D)) (i : Nat) (p : Bytes) :
    TOut (Option (Nat × Bool × Bytes)) :=
  let arg (k : Nat) (p : Bytes) : TOut (Option (Nat × Bool × Bytes)) := do
    let n ← vaInt N args k
    pure (some (if 0 < n then n.toNat % 2 ^ 32 else 0, true, p))
  match p with
  | [] => .ok none
  | c :: p' =>
    if c = 46 then
      if isDigit (p'.headD 0) then .ok (some ((getNum p').1, true, (getNum p').2))
      else if p'.headD 0 = 42 then
        match p'.drop 1 with
        | [] => .ok none
        | q :: qs =>
          match argPos (q :: qs) with
          | some (k, r) => arg k r
          | none => arg i (q :: qs)
      else .ok (some (0, true, p'))
    else .ok (some (0, false, p))

/-- func_printf, the loop over the format, /repo/src/tmpl.c:984-1476; `i` is the number of the
next argument.  The states of the loop are the stages of reading a directive. -/
def printfGo (N : TNum D) (args : List (JVal D)) : Nat → Nat → Bytes → TOut Bytes
  | 0, _, _ => .hang
  | _ + 1, _, [] => .ok []
  | f + 1, i, c :: p =>
    if c ≠ 37 then do
      let o ← printfGo N args f i p
      pure (c :: o)
    else if p.headD 0 = 37 then do
      let o ← printfGo N args f i (p.drop 1)
      pure (37 :: o)
    else
      let pos := argPos p
      let fr := getFlags {} (match pos with | some (_, r) => r | none => p)
      do
        match ← getWidth N args fr.1 i fr.2 with
        | none => pure []
        | some (w, fl, i, p1) =>
          match ← getPrec N args i p1 with
          | none => pure []
          | some (pr, has, p2) =>
            match p2 with
            | [] => pure []
            | c' :: p3 => do
              let k := match pos with | some (n, _) => (n + (2 ^ 32 - 1)) % 2 ^ 32 | none => i
              let i := match pos with | some _ => i | none => i + 1
              let o ← tConv N args ⟨fl, w, pr, has⟩ k ((c :: p).take ((c :: p).length - p3.length)) c'
              let o' ← printfGo N args f i p3
              pure (o ++ o')

/-- func_printf, /repo/src/tmpl.c:953-1491 -/
def funPrintf (N : TNum D) : List (JVal D) → TOut (JVal D)
  | .str fmt :: args => do
    let o ← printfGo N args (fmt.length + 1) 1 fmt
    pure (.str o)
  | _ => .die

/-- The functions of funtab applied to their arguments, /repo/src/tmpl.c:1502-1523.  An `index`
without arguments dereferences NULL.  func_exists prints a message when the types are wrong
(left out). -/
def applyFun (N : TNum D) (f : TFun) (args : List (JVal D)) : TOut (JVal D) :=
  let cmp (t : Ordering → Bool) : TOut (JVal D) := twoArgs args fun a b => do
    let o ← jsonCmp N a b
    pure (.bool (t o))
  match f with
  | .and => funAnd N none args
  | .or => funOr N none args
  | .index =>
    match args with
    | [] => .ub
    | v :: as => funIndex N v as
  | .len => oneArg args fun v => do
    let n ← funLen N v
    pure (.int (N.ofInt n))
  | .not => oneArg args fun v => do
    let e ← isEmpty N v
    pure (.bool e)
  | .eq => cmp (· == .eq)
  | .ne => cmp (· != .eq)
  | .lt => cmp (· == .lt)
  | .le => cmp (· != .gt)
  | .gt => cmp (· == .gt)
  | .ge => cmp (· != .lt)
  | .even => oneArg args fun v => do
    let n ← castInt N v
    pure (.bool (n % 2 == 0))
  | .printf => funPrintf N args
  | .typeof => oneArg args fun v => pure (.str (typeName v))
  | .exists => twoArgs args fun a b =>
    match a, b with
    | .obj c l, .str k => do
      let r ← TOut.ofRes (jGet ⟨c, l⟩ k)
      pure (.bool r.isSome)
    | _, _ => pure (.bool false)
  | .add => funFold N.add args
  | .sub => funFold N.sub args
  | .mul => funFold N.mul args
  | .div => twoArgs args fun a b => do
    let x ← numOf a
    let y ← numOf b
    pure (.num (N.div x y))

/-! ### Pipelines -/

mutual
/-- One command, /repo/src/tmpl.c:255-330; `prev` is the result of the command before it,
`first` tells that there is none. -/
def evalCmd (N : TNum D) (env : TEnv D) (prev : JVal D) (first : Bool) : TCmd → TOut (JVal D)
  | .int n => .ok (.int (N.ofInt n))
  | .str s => .ok (.str s)
  | .bool b => .ok (.bool b)
  | .call f args => do
    let vs ← evalArgs N env args
    applyFun N f (if first then vs else vs ++ [prev])
  | .dot => .ok env.dot
  | .attr n => getAttr env.dot n
  | .var n => do
    let r ← TOut.ofRes (jGet env.vars n)
    pure (r.getD .null)
  | .pipe p => evalPipe N env .null true p
  | .withdot d b => do
    let v ← evalPipe N env .null true d
    evalPipe N { env with dot := v } .null true b
/-- tmpl_pipeline_eval, /repo/src/tmpl.c:244-334, from a command on -/
def evalPipe (N : TNum D) (env : TEnv D) (prev : JVal D) (first : Bool) :
    List TCmd → TOut (JVal D)
  | [] => .ok prev
  | c :: cs => do
    let v ← evalCmd N env prev first c
    evalPipe N env v false cs
/-- The arguments of a function call, /repo/src/tmpl.c:267-272 -/
def evalArgs (N : TNum D) (env : TEnv D) : List (List TCmd) → TOut (List (JVal D))
  | [] => .ok []
  | p :: ps => do
    let v ← evalPipe N env .null true p
    let vs ← evalArgs N env ps
    pure (v :: vs)
end

/-! ### Actions -/

/-- tmpl_env_print_json, /repo/src/tmpl.c:2190-2213, with the test before its call :2292-2293 -/
def printVal (N : TNum D) : JVal D → Bytes
  | .null => []
  | .str s => s
  | v => fmtVal N.toNumLib 0 0 v

/-- What has been written, and how it ended: `ok true` after a break, /repo/src/tmpl.c:2272-2445 -/
abbrev TRun := Bytes × TOut Bool

/-- An evaluation whose value decides what happens next -/
def runWith {α} (x : TOut α) (k : α → TRun) : TRun :=
  match x with
  | .ok a => k a
  | .die => ([], .die)
  | .abort => ([], .abort)
  | .ub => ([], .ub)
  | .hang => ([], .hang)

/-- Output followed by what happens next, if the first part has ended normally -/
def runThen (x : TRun) (k : Bool → TRun) : TRun :=
  match x.2 with
  | .ok b => (x.1 ++ (k b).1, (k b).2)
  | r => (x.1, r)

/-- Setting a variable, if there is one, /repo/src/tmpl.c:2357-2369, :2395-2407 -/
def setVar (env : TEnv D) (v : Option Bytes) (x : JVal D) : TOut (TEnv D) :=
  match v with
  | none => .ok env
  | some n => do
    let o ← TOut.ofRes (jSet env.vars n x)
    pure { env with vars := o }

/-- The environment of an iteration of range, /repo/src/tmpl.c:2355-2372 and :2393-2410 -/
def iterEnv (env : TEnv D) (v0 v1 : Option Bytes) (key x : JVal D) : TOut (TEnv D) :=
  if v0 = none ∧ v1 = none then .ok { env with dot := x }
  else do
    let env ← setVar env v0 key
    setVar env v1 x

/-- The keys and values range goes through, /repo/src/tmpl.c:2344-2425: indexes and elements of
an array, names and values of an object; nothing for other values. -/
def rangeItems (N : TNum D) : JVal D → List (JVal D × JVal D)
  | .arr l => l.zipIdx.map (fun p => (.int (N.ofInt p.2), p.1))
  | .obj _ l => l.map (fun p => (.str p.1, p.2))
  | _ => []

mutual
/-- tmpl_action_eval, /repo/src/tmpl.c:2272-2445 -/
def evalActs (N : TNum D) (defs : List (Bytes × List TAct)) :
    Nat → TEnv D → List TAct → TRun
  | 0, _, _ => ([], .hang)
  | _ + 1, _, [] => ([], .ok false)
  | f + 1, env, a :: as =>
    match a with
    | .brk => ([], .ok true)
    | .cont => ([], .ok false)
    | _ => runThen (evalAct N defs f env a) fun b =>
        if b then ([], .ok true) else evalActs N defs f env as
/-- One action, the cases of the switch, /repo/src/tmpl.c:2284-2440.  tmpl_run_in_env
:3121-3129 drops the result of the template it runs. -/
def evalAct (N : TNum D) (defs : List (Bytes × List TAct)) :
    Nat → TEnv D → TAct → TRun
  | 0, _, _ => ([], .hang)
  | f + 1, env, a =>
    match a with
    | .text none => ([], .ub)
    | .text (some s) => (s, .ok false)
    | .pipe p => runWith (evalPipe N env .null true p) fun v => (printVal N v, .ok false)
    | .cond p els thn => runWith (evalPipe N env .null true p) fun v =>
        runWith (isEmpty N v) fun e => evalActs N defs f env (if e then els else thn)
    | .wth v p els thn => runWith (evalPipe N env .null true p) fun x =>
        runWith (isEmpty N x) fun e =>
          if e then evalActs N defs f env els
          else
            match v with
            | none => evalActs N defs f { env with dot := x } thn
            | some _ => runWith (setVar env v x) fun env => evalActs N defs f env thn
    | .range v0 v1 p els thn => runWith (evalPipe N env .null true p) fun x =>
        match rangeItems N x with
        | [] => evalActs N defs f env els
        | items => evalRange N defs f env v0 v1 thn items
    | .block name arg => runWith (evalPipe N env .null true arg) fun x =>
        match tmplLookup defs name with
        | none => ([], .ub)
        | some as => runThen (evalActs N defs f { env with dot := x } as) fun _ => ([], .ok false)
    | .brk => ([], .ok true)
    | .cont => ([], .ok false)
/-- The loops of range, /repo/src/tmpl.c:2353-2377 and :2391-2415 -/
def evalRange (N : TNum D) (defs : List (Bytes × List TAct)) :
    Nat → TEnv D → Option Bytes → Option Bytes → List TAct → List (JVal D × JVal D) → TRun
  | 0, _, _, _, _, _ => ([], .hang)
  | _ + 1, _, _, _, _, [] => ([], .ok false)
  | f + 1, env, v0, v1, body, (k, x) :: items =>
    runWith (iterEnv env v0 v1 k x) fun env =>
      runThen (evalActs N defs f env body) fun b =>
        if b then ([], .ok false) else evalRange N defs f env v0 v1 body items
end

/-- template_run, /repo/src/tmpl.c:3131-3140 -/
def templateRun (N : TNum D) (fuel : Nat) (defs : List (Bytes × List TAct)) (as : List TAct)
    (dot : JVal D) : TRun :=
  evalActs N defs fuel ⟨dot, jNew⟩ as

end Pound
