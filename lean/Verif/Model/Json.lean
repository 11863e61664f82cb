import Verif.Model.Lists

/-!
JSON values: /repo/src/json.c (used by the control interface, svc.c, and by poundctl).

Numbers are C doubles: the type `D` of numbers and the three library operations on them
(`snprintf` with "%e"/"%.*f", `snprintf` with "%.0f", `strtod`) are parameters.
Memory allocation succeeds (`json_memabrt` or NULL otherwise).  A C string is the list of
its bytes without the final NUL: reading at its end gives NUL, reading further is undefined
behaviour.
-/

namespace Pound

/-- The floating-point library, as used by /repo/src/json.c:261-289 and :1110-1126.
`strtod` gives the value and the unread rest of the text. -/
structure NumLib (D : Type) where
  fmtNum : D → Bytes
  fmtInt : D → Bytes
  strtod : Bytes → D × Bytes
  /-- d == -HUGE_VAL -/
  negHuge : D → Bool
  /-- d == HUGE_VAL -/
  posHuge : D → Bool

/-- struct json_value, /repo/src/json.h:23-67.  An object is its pair_count and the list of
its pairs. -/
inductive JVal (D : Type) where
  | null
  | bool (b : Bool)
  | num (d : D)
  | int (d : D)
  | str (s : Bytes)
  | arr (l : List (JVal D))
  | obj (count : Nat) (l : List (Bytes × JVal D))

/-! ### Strings -/

/-- The pairs of transtab the loop of `escape` looks at, /repo/src/json.c:334-337: the loop
stops at the last pair, "//", because p[2] is then NUL. -/
def transtab : List (UInt8 × UInt8) :=
  [(92, 92), (34, 34), (98, 8), (102, 12), (110, 10), (114, 13), (116, 9)]

/-- escape (c, o, ESCAPE), /repo/src/json.c:331-346 -/
def escapeCh (c : UInt8) : Option UInt8 :=
  (transtab.find? (fun p => p.2 == c)).map (·.1)

/-- escape (c, o, UNESCAPE), /repo/src/json.c:331-346 -/
def unescapeCh (c : UInt8) : Option UInt8 :=
  (transtab.find? (fun p => p.1 == c)).map (·.2)

/-- What json_format_escape writes for one byte, /repo/src/json.c:352-362 -/
def fmtCh (c : UInt8) : Bytes :=
  match escapeCh c with
  | some o => [92, o]
  | none => [c]

/-- json_format_escape, /repo/src/json.c:348-364 -/
def fmtStr (s : Bytes) : Bytes := 34 :: (s.flatMap fmtCh ++ [34])

/-- ISHEX (p[0]) && ... && ISHEX (p[n-1]) for the text p, /repo/src/json.c:820, :951.
`strchr` finds the terminating NUL too, so a NUL is taken for a digit; reading past it is
undefined. -/
def hexRun : Nat → Bytes → Res Bool
  | 0, _ => .ok true
  | 1, [] => .ok true
  | _ + 2, [] => .ub
  | n + 1, c :: p => if isXDigit c then hexRun n p else .ok false

/-- First pass of j_get_text: the number of bytes to allocate, counted from `len`,
/repo/src/json.c:945-972.  `ok none`: JSON_E_BADSTRING.  The text starts after the opening
quote.  utf8_wctomb is called with the address of the backslash: strtoul reads no digit, the
code is 0 and n = 1. -/
def jScan : Nat → Bytes → Nat → Res (Option Nat)
  | 0, _, _ => .ok none
  | _ + 1, [], _ => .ok none
  | f + 1, c :: p, len =>
    if c = 34 then .ok (some len)
    else if c = 92 then
      match hexRun 4 p with
      | .ub => .ub
      | .ok true => if p.length < 5 then .ub else jScan f (p.drop 5) (len + 1)
      | .ok false =>
        match p with
        | [] => .ok none
        | _ :: p => jScan f p (len + 1)
    else jScan f p (len + 1)

/-- The value of a hexadecimal digit -/
def hexVal (c : UInt8) : Nat :=
  if isDigit c then c.toNat - 48 else if isUpper c then c.toNat - 55 else c.toNat - 87

/-- unsigned int wc = strtoul (u, NULL, 16), /repo/src/json.c:890: all the digits at u are
read; unsigned long saturates, and is cut to 32 bits. -/
def hexCode (u : Bytes) : Nat :=
  min ((u.takeWhile isXDigit).foldl (fun a c => a * 16 + hexVal c) 0) (2 ^ 64 - 1) % 2 ^ 32

/-- utf8_wctomb, /repo/src/json.c:887-935; `none`: -1.  The bytes are r[0], r[1], ... -/
def utf8Bytes (wc : Nat) : Option Bytes :=
  let t (k : Nat) : UInt8 := UInt8.ofNat (0x80 + wc / 64 ^ k % 64)
  if wc < 0x80 then some [UInt8.ofNat wc]
  else if wc < 0x800 then some [UInt8.ofNat (0xc0 + wc / 64), t 0]
  else if wc < 0x10000 then some [UInt8.ofNat (0xe0 + wc / 64 ^ 2), t 1, t 0]
  else if wc < 0x200000 then some [UInt8.ofNat (0xf0 + wc / 64 ^ 3), t 2, t 1, t 0]
  else if wc < 0x4000000 then some [UInt8.ofNat (0xf8 + wc / 64 ^ 4), t 3, t 2, t 1, t 0]
  else if wc ≤ 0x7fffffff then some [UInt8.ofNat (0xfc + wc / 64 ^ 5), t 4, t 3, t 2, t 1, t 0]
  else none

/-- Second pass of j_get_text, /repo/src/json.c:982-1012: the bytes written before the final
NUL, and the text after the closing quote.  A NUL met here is copied and the reading goes on
beyond the text: undefined. -/
def jCopy : Nat → Bytes → Bytes → Res (Bytes × Bytes)
  | 0, _, _ => .ub
  | _ + 1, [], _ => .ub
  | f + 1, c :: p, out =>
    if c = 34 then .ok (out, p)
    else if c = 92 then
      match p with
      | [] => .ub
      | d :: p' =>
        match unescapeCh d with
        | some e => jCopy f p' (out ++ [e])
        | none =>
          match hexRun 4 p with
          | .ub => .ub
          | .ok true =>
            match utf8Bytes (hexCode p) with
            | none => .ub
            | some r => if p.length < 4 then .ub else jCopy f (p.drop 4) (out ++ r)
          | .ok false => jCopy f p' (out ++ [d])
    else jCopy f p (out ++ [c])

/-- j_get_text on the text after the opening quote, /repo/src/json.c:937-1017: the string (a
C string: up to the first NUL written) and the text after it; `ok none`: JSON_E_BADSTRING.
Writing more than the allocated `len` bytes is undefined. -/
def jGetText (p : Bytes) : Res (Option (Bytes × Bytes)) :=
  match jScan (p.length + 1) p 1 with
  | .ub => .ub
  | .ok none => .ok none
  | .ok (some len) =>
    match jCopy (p.length + 1) p [] with
    | .ub => .ub
    | .ok (out, rest) =>
      if len < out.length + 1 then .ub
      else .ok (some (out.takeWhile (· != 0), rest))

/-! ### Objects -/

/-- strcmp: comparison of unsigned bytes -/
def strcmp : Bytes → Bytes → Ordering
  | [], [] => .eq
  | [], _ :: _ => .lt
  | _ :: _, [] => .gt
  | a :: x, b :: y => if a < b then .lt else if b < a then .gt else strcmp x y

/-- struct json_object, /repo/src/json.h:43-47: pair_count and the list of pairs. -/
structure JObj (V : Type) where
  count : Nat
  pairs : List (Bytes × V)
deriving DecidableEq

/-- Result of the search: the pair found, or the place `l` (`none`: NULL). -/
inductive JFind where
  | found (i : Nat)
  | place (l : Option Nat)
deriving DecidableEq, Repr

/-- The loop of json_object_lookup_or_install, /repo/src/json.c:630-657.  Pairs are named by
their position; walking off the list is a NULL dereference. -/
def jSearch {V} (ps : List (Bytes × V)) (name : Bytes) : Nat → Nat → Nat → Res JFind
  | 0, l, _ => .ok (.place (some l))
  | f + 1, l, count =>
    if count = 0 then .ok (.place (some l))
    else
      let n := count / 2
      match ps[l + n]? with
      | none => .ub
      | some m =>
        match strcmp m.1 name with
        | .eq => .ok (.found (l + n))
        | .lt => if n = 0 then .ok (.place (some l)) else jSearch ps name f (l + n) (count - n)
        | .gt => if n = 0 then .ok (.place (some l)) else jSearch ps name f l n

/-- json_object_lookup_or_install, the search, /repo/src/json.c:613-659 -/
def jLookup {V} (o : JObj V) (name : Bytes) : Res JFind :=
  if o.count = 0 then .ok (.place none)
  else
    match o.pairs.head? with
    | none => .ub
    | some a =>
      if strcmp a.1 name = .gt then .ok (.place none)
      else
        match o.pairs.getLast? with
        | none => .ub
        | some z =>
          if strcmp z.1 name = .lt then .ok (.place (some (o.pairs.length - 1)))
          else jSearch o.pairs name (o.count + 1) 0 o.count

/-- The walk to the insertion point: the pairs before the new one are those up to and
including the pair at `l` and the following ones with a smaller key,
/repo/src/json.c:685-697. -/
def jInsertAt {V} (ps : List (Bytes × V)) (name : Bytes) (v : V) : Option Nat → List (Bytes × V)
  | none => (name, v) :: ps
  | some l =>
    let front := ps.take (l + 1)
    let back := ps.drop (l + 1)
    let lt := fun (p : Bytes × V) => strcmp p.1 name == .lt
    front ++ back.takeWhile lt ++ (name, v) :: back.dropWhile lt

/-- json_object_set with a value that is not NULL, /repo/src/json.c:704-724 -/
def jSet {V} (o : JObj V) (name : Bytes) (v : V) : Res (JObj V) :=
  match jLookup o name with
  | .ub => .ub
  | .ok (.found i) =>
    match o.pairs[i]? with
    | none => .ub
    | some p => .ok { o with pairs := o.pairs.set i (p.1, v) }
  | .ok (.place l) => .ok { count := o.count + 1, pairs := jInsertAt o.pairs name v l }

/-- json_object_get, /repo/src/json.c:726-744; `ok none`: ENOENT. -/
def jGet {V} (o : JObj V) (name : Bytes) : Res (Option V) :=
  match jLookup o name with
  | .ub => .ub
  | .ok (.found i) =>
    match o.pairs[i]? with
    | none => .ub
    | some p => .ok (some p.2)
  | .ok (.place _) => .ok none

/-- json_object_filter, /repo/src/json.c:779-816: pair_count is left as it was. -/
def jFilter {V} (o : JObj V) (pred : Bytes → V → Bool) : JObj V :=
  { o with pairs := o.pairs.filter (fun p => !pred p.1 p.2) }

/-- json_new_object, /repo/src/json.c:551-564 -/
def jNew {V} : JObj V := ⟨0, []⟩

/-! ### Formatting -/

/-- json_format_indent, /repo/src/json.c:57-63 -/
def fmtIndent (ind level : Nat) : Bytes := List.replicate (level * ind) 32

/-- json_format_delim, /repo/src/json.c:65-76 -/
def fmtDelim (ind level : Nat) : Bytes :=
  if ind = 0 then [44, 32] else 44 :: 10 :: fmtIndent ind level

/-- The newline after an opening bracket, /repo/src/json.c:535-536 and :755-756 -/
def fmtOpen (ind : Nat) : Bytes := if ind = 0 then [] else [10]

/-- The newline and indentation before a closing bracket, /repo/src/json.c:542-546 and
:767-771 -/
def fmtClose (ind level : Nat) : Bytes :=
  if ind = 0 then [] else 10 :: fmtIndent ind (level - 1)

mutual
/-- json_value_format, /repo/src/json.c:172-189, with the format functions of the types:
null :227-232, bool :244-249, number :261-271, integer :282-289, string :366-371,
array :526-549, object :746-774.  `level` is the argument, before the increment. -/
def fmtVal {D} (N : NumLib D) (ind level : Nat) : JVal D → Bytes
  | .null => b!"null"
  | .bool b => if b then b!"true" else b!"false"
  | .num d => N.fmtNum d
  | .int d => N.fmtInt d
  | .str s => fmtStr s
  | .arr l =>
    91 :: ((match l with
      | [] => []
      | v :: l =>
        fmtOpen ind ++ fmtIndent ind (level + 1) ++ fmtVal N ind (level + 1) v
          ++ fmtItems N ind (level + 1) l ++ fmtClose ind (level + 1)) ++ [93])
  | .obj c l =>
    123 :: ((if c = 0 then [] else
      fmtOpen ind ++ (match l with
        | [] => []
        | (k, v) :: l =>
          fmtIndent ind (level + 1) ++ fmtStr k ++ 58 :: (if ind = 0 then [] else [32])
            ++ fmtVal N ind (level + 1) v ++ fmtPairs N ind (level + 1) l)
        ++ fmtClose ind (level + 1)) ++ [125])
/-- The elements of an array after the first one, /repo/src/json.c:537-541 -/
def fmtItems {D} (N : NumLib D) (ind level : Nat) : List (JVal D) → Bytes
  | [] => []
  | v :: l => fmtDelim ind level ++ fmtVal N ind level v ++ fmtItems N ind level l
/-- The pairs of an object after the first one, /repo/src/json.c:757-766 -/
def fmtPairs {D} (N : NumLib D) (ind level : Nat) : List (Bytes × JVal D) → Bytes
  | [] => []
  | (k, v) :: l =>
    fmtDelim ind level ++ fmtStr k ++ 58 :: (if ind = 0 then [] else [32])
      ++ fmtVal N ind level v ++ fmtPairs N ind level l
end

/-! ### Parsing -/

/-- ISSPACE, /repo/src/json.c:819 -/
def jSpace (c : UInt8) : Bool := c == 32 || c == 9 || c == 10 || c == 13

/-- SKIPWS, /repo/src/json.c:821 -/
def skipWs (p : Bytes) : Bytes := p.dropWhile jSpace

/-- struct j_context, /repo/src/json.c:823-828; `key` is the pending key of an object. -/
inductive JCtx (D : Type) where
  | arr (l : List (JVal D))
  | obj (o : JObj (JVal D)) (key : Option Bytes)

/-- Error codes of json_parse_string, /repo/src/json.h:116-123 -/
inductive JErr where
  | badTok
  | badDelim
  | badString
deriving DecidableEq, Repr

/-- Outcome of json_parse_string.  `hung`: the bound on the iterations was too small. -/
inductive JRes (D : Type) where
  | ok (v : JVal D) (rest : Bytes)
  | err (e : JErr)
  | ub
  | hung

/-- The outcome of adding a value to the innermost open array or object. -/
inductive JAdd (D : Type) where
  | ctx (c : JCtx D)
  | noKey
  | ub

/-- The innermost open array or object with a value added, /repo/src/json.c:1162-1182 -/
def JCtx.add {D} (v : JVal D) : JCtx D → JAdd D
  | .arr l => .ctx (.arr (l ++ [v]))
  | .obj _ none => .noKey
  | .obj o (some k) =>
    match jSet o k v with
    | .ub => .ub
    | .ok o => .ctx (.obj o none)

/-- The end of an iteration of json_parse_string with the value `val`,
/repo/src/json.c:1156-1211; `go` is the next iteration. -/
def jAfter {D} (go : List (JCtx D) → Bytes → JRes D) (ctx : List (JCtx D)) (v : JVal D)
    (input : Bytes) : JRes D :=
  match ctx with
  | [] => .ok v input
  | c :: ctx =>
    match c.add v with
    | .ub => .ub
    | .noKey => .err .badTok
    | .ctx c =>
      match skipWs input with
      | [] => .err .badDelim
      | d :: p =>
        if d = 44 then go (c :: ctx) p
        else if d = 93 ∨ d = 125 then go (c :: ctx) (d :: p)
        else .err .badDelim

/-- The first bytes of a number, /repo/src/json.c:1097-1109 -/
def numStart (c : UInt8) : Bool := c == 45 || c == 43 || c == 46 || isDigit c

/-- One iteration of json_parse_string on an input without leading white space,
/repo/src/json.c:1032-1154.  The outcome of j_context_push is not checked by the code. -/
def jStep {D} (N : NumLib D) (go : List (JCtx D) → Bytes → JRes D) (ctx : List (JCtx D))
    (input : Bytes) : JRes D :=
  match input with
  | [] => .err .badTok
  | c :: p =>
    if c = 91 then go (.arr [] :: ctx) p
    else if c = 93 then
      match ctx with
      | .arr l :: ctx => jAfter go ctx (.arr l) p
      | _ => .err .badTok
    else if c = 123 then go (.obj jNew none :: ctx) p
    else if c = 125 then
      match ctx with
      | .obj o _ :: ctx => jAfter go ctx (.obj o.count o.pairs) p
      | _ => .err .badTok
    else if c = 34 then
      match jGetText p with
      | .ub => .ub
      | .ok none => .err .badString
      | .ok (some (s, rest)) =>
        match ctx with
        | .obj o none :: ctx =>
          match skipWs rest with
          | [] => .err .badDelim
          | d :: rest => if d = 58 then go (.obj o (some s) :: ctx) rest else .err .badDelim
        | ctx => jAfter go ctx (.str s) rest
    else if numStart c then
      let r := N.strtod input
      if (c = 45 ∧ N.negHuge r.1) ∨ N.posHuge r.1 then .err .badTok
      else jAfter go ctx (.num r.1) r.2
    else if b!"null".isPrefixOf input then jAfter go ctx .null (input.drop 4)
    else if b!"true".isPrefixOf input then jAfter go ctx (.bool true) (input.drop 4)
    else if b!"false".isPrefixOf input then jAfter go ctx (.bool false) (input.drop 5)
    else .err .badTok

/-- The loop of json_parse_string, /repo/src/json.c:1027-1212 -/
def jLoop {D} (N : NumLib D) : Nat → List (JCtx D) → Bytes → JRes D
  | 0, _, _ => .hung
  | f + 1, ctx, input => jStep N (jLoop N f) ctx (skipWs input)

/-- json_parse_string, /repo/src/json.c:1019-1219 -/
def jsonParse {D} (N : NumLib D) (input : Bytes) : JRes D :=
  jLoop N (input.length + 1) [] input

/-! ### Arrays as blocks of memory -/

/-- struct json_array: oc and the slots of ov (there are `on` of them); `none`: a slot never
written, /repo/src/json.h:36-41. -/
structure JArr (V : Type) where
  oc : Nat
  ov : List (Option V)
deriving DecidableEq

/-- json_array_expand, /repo/src/json.c:439-457: `k` new slots, at least one.  The loop that
would set them to NULL runs from the new size up to the old one, i.e. not at all. -/
def jArrExpand {V} (k : Nat) (a : JArr V) : JArr V :=
  { a with ov := a.ov ++ List.replicate (k + 1) none }

/-- json_array_insert, /repo/src/json.c:459-479; the loop of expansions makes room for
idx + 1 slots: `extra` more are allocated. -/
def jArrInsert {V} (extra : Nat) (a : JArr V) (idx : Nat) (v : V) : JArr V :=
  if a.oc ≤ idx then
    let a := if a.ov.length ≤ idx then jArrExpand (idx - a.ov.length + extra) a else a
    { oc := idx + 1, ov := a.ov.set idx (some v) }
  else { a with ov := a.ov.set idx (some v) }

/-- json_array_append, /repo/src/json.c:481-490 -/
def jArrAppend {V} (extra : Nat) (a : JArr V) (v : V) : JArr V := jArrInsert extra a a.oc v

/-- json_array_get, /repo/src/json.c:509-524: `ok none` is ENOENT; the value of a slot never
written is undefined. -/
def jArrGet {V} (a : JArr V) (idx : Nat) : Res (Option V) :=
  if a.oc ≤ idx then .ok none
  else
    match a.ov[idx]? with
    | some (some v) => .ok (some v)
    | _ => .ub

end Pound
