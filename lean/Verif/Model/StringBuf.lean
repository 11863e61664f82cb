import Verif.Model.Lists

/-!
Growing buffers: /repo/src/mem.c and /repo/src/mem.h.

`size_t` is 64 bits: sums and products are computed modulo 2^64.  A block of memory is its
list of bytes; a write outside the block is undefined behaviour.  `realloc` is an external
call: an oracle says, for the k-th call and the requested size, whether it succeeds (k counts
the calls); a new block keeps the old contents and its remaining bytes are `junk`.
-/

namespace Pound

/-- SIZE_MAX + 1 -/
def sizeMod : Nat := 2 ^ 64

/-- The memory allocator: does the k-th call, for n bytes, succeed? -/
abbrev Alloc := Nat → Nat → Bool

/-- The new element count mem2nrealloc computes, or `none` for ENOMEM,
/repo/src/mem.c:20-53.  `old`: p is not NULL.  (The division by `s` needs s ≠ 0: all callers
pass the size of a type.) -/
def growCount (old : Bool) (n s : Nat) : Option Nat :=
  if !old then
    if n = 0 then
      let k := 64 / s
      some (k + (if k = 0 then 1 else 0))
    else some n
  else if (sizeMod - 1) / 3 * 2 / s ≤ n then none
  else some ((n + ((n + 1) % sizeMod) / 2) % sizeMod)

/-- struct stringbuf, /repo/src/mem.h:30-37 (`base`: the block; the nomem callback, which
either exits the program or logs a message, is not modelled: the model is that of a buffer
whose callback returns).  `calls` counts the calls of realloc. -/
structure SBuf where
  base : Option Bytes := none
  size : Nat := 0
  len : Nat := 0
  err : Bool := false
  calls : Nat := 0
deriving DecidableEq, Repr

/-- Contents the allocator leaves in fresh memory. -/
abbrev Junk := Nat → UInt8

/-- `realloc (p, n)`: the old contents (cut to n bytes), then junk. -/
def reallocTo (junk : Junk) (old : Option Bytes) (n : Nat) : Bytes :=
  let o := (old.getD []).take n
  o ++ (List.range (n - o.length)).map junk

/-- mem2nrealloc (sb->base, &sb->size, 1), /repo/src/mem.c:20-59, and the error branch the three
callers share (e.g. /repo/src/mem.c:137-143). -/
def SBuf.grow (al : Alloc) (junk : Junk) (sb : SBuf) : SBuf × Bool :=
  match growCount sb.base.isSome sb.size 1 with
  | none => ({ sb with err := true }, false)
  | some n =>
    if al sb.calls (n * 1 % sizeMod) then
      ({ sb with base := some (reallocTo junk sb.base (n * 1 % sizeMod)), size := n, calls := sb.calls + 1 }, true)
    else ({ sb with err := true, calls := sb.calls + 1 }, false)

/-- stringbuf_expand, /repo/src/mem.c:132-149.  `none`: the loop has not ended. -/
def sbExpandLoop (al : Alloc) (junk : Junk) (len : Nat) : Nat → SBuf → Option (SBuf × Bool)
  | fuel, sb =>
    if (sb.len + len) % sizeMod > sb.size then
      match fuel with
      | 0 => none
      | fuel + 1 => match sb.grow al junk with
        | (sb, false) => some (sb, false)
        | (sb, true) => sbExpandLoop al junk len fuel sb
    else some ({ sb with err := false }, true)

/-- stringbuf_expand; 2^64 iterations are always enough (`expand_total`), the result when they are
not is UB. -/
def SBuf.expand (al : Alloc) (junk : Junk) (sb : SBuf) (len : Nat) : Res (SBuf × Bool) :=
  match sbExpandLoop al junk len sizeMod sb with
  | none => .ub
  | some r => .ok r

/-- memcpy/memset to `base + off` (nothing happens for zero bytes, also if base is NULL). -/
def pokeAt (base : Option Bytes) (off : Nat) (d : Bytes) : Res (Option Bytes) :=
  if d = [] then .ok base
  else match base with
    | none => .ub
    | some b => if off + d.length ≤ b.length then .ok (some (b.take off ++ d ++ b.drop (off + d.length))) else .ub

/-- stringbuf_init, /repo/src/mem.c:113-118. -/
def SBuf.init : SBuf := {}

/-- stringbuf_reset, /repo/src/mem.c:120-124. -/
def SBuf.reset (sb : SBuf) : SBuf := { sb with len := 0 }

/-- stringbuf_truncate, /repo/src/mem.c:151-158. -/
def SBuf.truncate (al : Alloc) (junk : Junk) (sb : SBuf) (len : Nat) : Res (SBuf × Bool) :=
  if len > sb.size then sb.expand al junk (len - sb.size)
  else .ok ({ sb with len := len }, true)

/-- stringbuf_add, /repo/src/mem.c:169-177. -/
def SBuf.add (al : Alloc) (junk : Junk) (sb : SBuf) (d : Bytes) : Res (SBuf × Bool) :=
  (sb.expand al junk d.length).bind fun r =>
    if !r.2 then .ok (r.1, false)
    else (pokeAt r.1.base r.1.len d).bind fun b =>
      .ok ({ r.1 with base := b, len := (r.1.len + d.length) % sizeMod }, true)

/-- stringbuf_add_char, /repo/src/mem.c:160-167. -/
def SBuf.addChar (al : Alloc) (junk : Junk) (sb : SBuf) (c : UInt8) : Res (SBuf × Bool) :=
  (sb.expand al junk 1).bind fun r =>
    if !r.2 then .ok (r.1, false)
    else (pokeAt r.1.base r.1.len [c]).bind fun b =>
      .ok ({ r.1 with base := b, len := (r.1.len + 1) % sizeMod }, true)

/-- stringbuf_set, /repo/src/mem.c:185-195 (the returned pointer is not modelled). -/
def SBuf.set (al : Alloc) (junk : Junk) (sb : SBuf) (c : UInt8) (n : Nat) : Res (SBuf × Bool) :=
  (sb.expand al junk n).bind fun r =>
    if !r.2 then .ok (r.1, false)
    else if r.1.base = none ∧ n ≠ 0 then .ub
    else if r.1.len + n > (r.1.base.getD []).length then .ub
    else (pokeAt r.1.base r.1.len (List.replicate n c)).bind fun b =>
      .ok ({ r.1 with base := b, len := (r.1.len + n) % sizeMod }, true)

/-- stringbuf_finish, /repo/src/mem.c:197-203: the string (up to the terminating zero written by this
call) or NULL. -/
def SBuf.finish (al : Alloc) (junk : Junk) (sb : SBuf) : Res (SBuf × Option Bytes) :=
  if sb.err then .ok (sb, none)
  else (sb.addChar al junk 0).bind fun r =>
    if r.2 then .ok (r.1, some ((r.1.base.getD []).take r.1.len)) else .ok (r.1, none)

/-- stringbuf_vprintf, /repo/src/mem.c:205-240.  `out` is what the format and its arguments expand to
(vsnprintf is external: with room for it and the final zero it stores both and returns the
length; otherwise the buffer is enlarged).  Expansions of 2^31 bytes or more, for which
vsnprintf returns -1, are treated like any that does not fit yet.  `none`: not ended. -/
def printfLoop (al : Alloc) (junk : Junk) (out : Bytes) : Nat → SBuf → Option (Res (SBuf × Bool))
  | fuel, sb =>
    if out.length ≥ 2 ^ 31 ∨ out.length ≥ (sb.size + sizeMod - sb.len) % sizeMod then
      match fuel with
      | 0 => none
      | fuel + 1 => match sb.grow al junk with
        | (sb, false) => some (.ok (sb, false))
        | (sb, true) => printfLoop al junk out fuel sb
    else some ((pokeAt sb.base sb.len (out ++ [0])).bind fun b => .ok ({ sb with base := b, len := (sb.len + out.length) % sizeMod }, true))

def SBuf.printf (al : Alloc) (junk : Junk) (sb : SBuf) (out : Bytes) : Res (SBuf × Bool) :=
  match printfLoop al junk out sizeMod sb with
  | none => .ub
  | some r => r

/-- stringbuf_strftime, /repo/src/mem.c:254-282: as above, but strftime returns 0 both when the result
does not fit and when it is empty. -/
def strftimeLoop (al : Alloc) (junk : Junk) (out : Bytes) : Nat → SBuf → Option (Res (SBuf × Bool))
  | fuel, sb =>
    if out = [] ∨ out.length ≥ (sb.size + sizeMod - sb.len) % sizeMod then
      match fuel with
      | 0 => none
      | fuel + 1 => match sb.grow al junk with
        | (sb, false) => some (.ok (sb, false))
        | (sb, true) => strftimeLoop al junk out fuel sb
    else some ((pokeAt sb.base sb.len (out ++ [0])).bind fun b => .ok ({ sb with base := b, len := (sb.len + out.length) % sizeMod }, true))

def SBuf.strftime (al : Alloc) (junk : Junk) (sb : SBuf) (out : Bytes) : Res (SBuf × Bool) :=
  match strftimeLoop al junk out sizeMod sb with
  | none => .ub
  | some r => r

/-- stringbuf_consume, /repo/src/mem.h:71-80. -/
def SBuf.consume (sb : SBuf) (n : Nat) : Res SBuf :=
  if n < sb.len then
    (pokeAt sb.base 0 (((sb.base.getD []).drop n).take (sb.len - n))).bind fun b => .ok { sb with base := b, len := sb.len - n }
  else .ok { sb with len := 0 }

/-- stringbuf_value and stringbuf_len, /repo/src/mem.h:61-69. -/
def SBuf.value (sb : SBuf) : Bytes := (sb.base.getD []).take sb.len

/-- An operation on a string buffer. -/
inductive SbOp where
  | reset
  | truncate (n : Nat)
  | add (d : Bytes)
  | addChar (c : UInt8)
  | set (c : UInt8) (n : Nat)
  | finish
  | printf (out : Bytes)
  | strftime (out : Bytes)
  | consume (n : Nat)
deriving DecidableEq

/-- Execute one operation; the flag is the success the operation reports. -/
def SbOp.exec (al : Alloc) (junk : Junk) : SbOp → SBuf → Res (SBuf × Bool)
  | .reset, sb => .ok (sb.reset, true)
  | .truncate n, sb => sb.truncate al junk n
  | .add d, sb => sb.add al junk d
  | .addChar c, sb => sb.addChar al junk c
  | .set c n, sb => sb.set al junk c n
  | .finish, sb => (sb.finish al junk).bind fun r => .ok (r.1, r.2.isSome)
  | .printf o, sb => sb.printf al junk o
  | .strftime o, sb => sb.strftime al junk o
  | .consume n, sb => (sb.consume n).bind fun r => .ok (r, true)

/-- Execute operations one after the other; the flags are the successes reported. -/
def sbExec (al : Alloc) (junk : Junk) : List SbOp → SBuf → Res (SBuf × List Bool)
  | [], sb => .ok (sb, [])
  | o :: os, sb => (o.exec al junk sb).bind fun r => (sbExec al junk os r.1).bind fun t => .ok (t.1, r.2 :: t.2)

end Pound
