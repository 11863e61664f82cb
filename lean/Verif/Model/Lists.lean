import Verif.Model.Basic

/-!
The intrusive list macros of /repo/src/list.h.

Elements live at addresses of a memory that maps each address to the link fields of
the element allocated there (`none`: nothing allocated, so that reading or writing it
is undefined behaviour).  A NULL pointer is `none : Option Addr`.  Several lists (heads
numbered by `Nat`) share the memory.  The link field is fixed (pound elements that sit
in two lists use two fields; such lists do not interact).
-/

namespace Pound

abbrev Addr := Nat

/-- Sequencing of C statements: undefined behaviour is final. -/
def Res.bind {α β} : Res α → (α → Res β) → Res β
  | .ok a, f => f a
  | .ub, _ => .ub

/-! ### Doubly-linked lists -/

/-- DLIST_ENTRY, /repo/src/list.h:128-132. -/
structure DNode where
  prev : Option Addr
  next : Option Addr
deriving DecidableEq, Repr

/-- DLIST_HEAD, /repo/src/list.h:118-123. -/
structure DHead where
  first : Option Addr
  last : Option Addr
deriving DecidableEq, Repr

/-- The memory and the list heads. -/
structure DSt where
  mem : Addr → Option DNode
  heads : Nat → DHead

/-- Read the link fields of the element a pointer designates (NULL or freed: UB). -/
def DSt.get (s : DSt) : Option Addr → Res DNode
  | none => .ub
  | some a => match s.mem a with
    | none => .ub
    | some n => .ok n

/-- `p->field.dl_next = v` -/
def DSt.setNext (s : DSt) (p v : Option Addr) : Res DSt :=
  match p with
  | none => .ub
  | some a => match s.mem a with
    | none => .ub
    | some n => .ok { s with mem := fun x => if x = a then some { n with next := v } else s.mem x }

/-- `p->field.dl_prev = v` -/
def DSt.setPrev (s : DSt) (p v : Option Addr) : Res DSt :=
  match p with
  | none => .ub
  | some a => match s.mem a with
    | none => .ub
    | some n => .ok { s with mem := fun x => if x = a then some { n with prev := v } else s.mem x }

/-- `head->dl_first = v` -/
def DSt.setFirst (s : DSt) (l : Nat) (v : Option Addr) : DSt :=
  { s with heads := fun k => if k = l then { s.heads l with first := v } else s.heads k }

/-- `head->dl_last = v` -/
def DSt.setLast (s : DSt) (l : Nat) (v : Option Addr) : DSt :=
  { s with heads := fun k => if k = l then { s.heads l with last := v } else s.heads k }

/-- DLIST_INIT, /repo/src/list.h:134-139. -/
def dInit (l : Nat) (s : DSt) : DSt := (s.setFirst l none).setLast l none

/-- DLIST_INSERT_HEAD, /repo/src/list.h:141-151. -/
def dInsertHead (l : Nat) (e : Addr) (s : DSt) : Res DSt :=
  (s.setPrev (some e) none).bind fun s =>
  (s.setNext (some e) (s.heads l).first).bind fun s =>
  (match (s.heads l).first with
    | none => Res.ok (s.setLast l (some e))
    | some f => s.setPrev (some f) (some e)).bind fun s =>
  .ok (s.setFirst l (some e))

/-- DLIST_INSERT_TAIL (= DLIST_PUSH), /repo/src/list.h:153-165. -/
def dInsertTail (l : Nat) (e : Addr) (s : DSt) : Res DSt :=
  (s.setNext (some e) none).bind fun s =>
  (s.setPrev (some e) (s.heads l).last).bind fun s =>
  (match (s.heads l).last with
    | none => Res.ok (s.setFirst l (some e))
    | some t => s.setNext (some t) (some e)).bind fun s =>
  .ok (s.setLast l (some e))

/-- DLIST_INSERT_AFTER, /repo/src/list.h:167-182. -/
def dInsertAfter (l : Nat) (anchor : Option Addr) (e : Addr) (s : DSt) : Res DSt :=
  match anchor with
  | none => dInsertTail l e s
  | some a =>
    (s.get (some a)).bind fun an =>
    (s.setNext (some e) an.next).bind fun s =>
    (match an.next with
      | none => Res.ok (s.setLast l (some e))
      | some n => s.setPrev (some n) (some e)).bind fun s =>
    (s.setNext (some a) (some e)).bind fun s =>
    s.setPrev (some e) (some a)

/-- DLIST_INSERT_BEFORE, /repo/src/list.h:184-199. -/
def dInsertBefore (l : Nat) (anchor : Option Addr) (e : Addr) (s : DSt) : Res DSt :=
  match anchor with
  | none => dInsertHead l e s
  | some a =>
    (s.get (some a)).bind fun an =>
    (s.setPrev (some e) an.prev).bind fun s =>
    (match an.prev with
      | none => Res.ok (s.setFirst l (some e))
      | some p => s.setNext (some p) (some e)).bind fun s =>
    (s.setPrev (some a) (some e)).bind fun s =>
    s.setNext (some e) (some a)

/-- DLIST_REMOVE, /repo/src/list.h:201-213. -/
def dRemove (l : Nat) (e : Addr) (s : DSt) : Res DSt :=
  (s.get (some e)).bind fun n =>
  (match n.prev with
    | some p => s.setNext (some p) n.next
    | none => Res.ok (s.setFirst l n.next)).bind fun s =>
  (s.get (some e)).bind fun n =>
  match n.next with
    | some q => s.setPrev (some q) n.prev
    | none => Res.ok (s.setLast l n.prev)

/-- DLIST_REMOVE_HEAD (= DLIST_SHIFT), /repo/src/list.h:215-225. -/
def dRemoveHead (l : Nat) (s : DSt) : Res DSt :=
  (s.get (s.heads l).first).bind fun n =>
  match n.next with
    | some q => (s.setFirst l n.next).setPrev (some q) none
    | none => .ok ((s.setFirst l n.next).setLast l none)

/-- `malloc` of an element; its link fields start with arbitrary contents `n`. -/
def dAlloc (e : Addr) (n : DNode) (s : DSt) : DSt :=
  { s with mem := fun x => if x = e then some n else s.mem x }

/-- `free` of an element. -/
def dFree (e : Addr) (s : DSt) : DSt :=
  { s with mem := fun x => if x = e then none else s.mem x }

/-- DLIST_FOREACH, /repo/src/list.h:227-228, with a body that records the element and
changes nothing: the elements visited; `none` when the loop has not ended within `fuel`
iterations; UB when it follows a dangling link. -/
def dWalk (s : DSt) : Nat → Option Addr → Res (Option (List Addr))
  | _, none => .ok (some [])
  | 0, some _ => .ok none
  | fuel + 1, some a => (s.get (some a)).bind fun n =>
      (dWalk s fuel n.next).bind fun r => .ok (r.map (a :: ·))

/-- DLIST_FOREACH_REVERSE, /repo/src/list.h:230-231, likewise. -/
def dWalkBack (s : DSt) : Nat → Option Addr → Res (Option (List Addr))
  | _, none => .ok (some [])
  | 0, some _ => .ok none
  | fuel + 1, some a => (s.get (some a)).bind fun n =>
      (dWalkBack s fuel n.prev).bind fun r => .ok (r.map (a :: ·))

/-- The `(tmp) = (var) ? DLIST_NEXT (var, field) : NULL` of DLIST_FOREACH_SAFE. -/
def dTmp (s : DSt) : Option Addr → Res (Option Addr)
  | none => .ok none
  | some a => (s.get (some a)).bind fun n => .ok n.next

/-- DLIST_FOREACH_SAFE, /repo/src/list.h:242-247, with the body all its users in pound have (for
instance /repo/src/svc.c:439-448): elements that satisfy a condition are removed from the
list and freed. -/
def dSweep (l : Nat) (p : Addr → Bool) : Nat → Option Addr → Option Addr → DSt → Res (Option DSt)
  | _, none, _, s => .ok (some s)
  | 0, some _, _, _ => .ok none
  | fuel + 1, some a, tmp, s =>
    (if p a then (dRemove l a s).bind fun s => .ok (dFree a s) else Res.ok s).bind fun s =>
    (dTmp s tmp).bind fun tmp' => dSweep l p fuel tmp tmp' s

/-- The whole loop: `var` and `tmp` initialised from the head. -/
def dForeachSafe (l : Nat) (p : Addr → Bool) (fuel : Nat) (s : DSt) : Res (Option DSt) :=
  (dTmp s (s.heads l).first).bind fun tmp => dSweep l p fuel (s.heads l).first tmp s

/-- The same body under the plain DLIST_FOREACH (no user in pound does this): `var->next`
is read after the body. -/
def dForeachUnsafe (l : Nat) (p : Addr → Bool) : Nat → Option Addr → DSt → Res (Option DSt)
  | _, none, s => .ok (some s)
  | 0, some _, _ => .ok none
  | fuel + 1, some a, s =>
    (if p a then (dRemove l a s).bind fun s => .ok (dFree a s) else Res.ok s).bind fun s =>
    (s.get (some a)).bind fun n => dForeachUnsafe l p fuel n.next s

/-- A list operation. -/
inductive DOp where
  | init (l : Nat)
  | insertHead (l : Nat) (e : Addr)
  | insertTail (l : Nat) (e : Addr)
  | insertAfter (l : Nat) (anchor : Option Addr) (e : Addr)
  | insertBefore (l : Nat) (anchor : Option Addr) (e : Addr)
  | remove (l : Nat) (e : Addr)
  | removeHead (l : Nat)
  | alloc (e : Addr) (junk : DNode)
  | free (e : Addr)

/-- Execute one operation. -/
def DOp.exec : DOp → DSt → Res DSt
  | .init l, s => .ok (dInit l s)
  | .insertHead l e, s => dInsertHead l e s
  | .insertTail l e, s => dInsertTail l e s
  | .insertAfter l a e, s => dInsertAfter l a e s
  | .insertBefore l a e, s => dInsertBefore l a e s
  | .remove l e, s => dRemove l e s
  | .removeHead l, s => dRemoveHead l s
  | .alloc e n, s => .ok (dAlloc e n s)
  | .free e, s => .ok (dFree e s)

/-- Execute operations one after the other. -/
def dExec : List DOp → DSt → Res DSt
  | [], s => .ok s
  | o :: os, s => (o.exec s).bind (dExec os)

/-! ### Singly-linked lists -/

/-- The memory (the link field of each allocated element) and the heads
(SLIST_HEAD, /repo/src/list.h:25-30, SLIST_ENTRY, 35-36). -/
structure SSt where
  mem : Addr → Option (Option Addr)
  heads : Nat → DHead

/-- `p->field` (NULL or freed: UB) -/
def SSt.get (s : SSt) : Option Addr → Res (Option Addr)
  | none => .ub
  | some a => match s.mem a with
    | none => .ub
    | some n => .ok n

/-- `p->field = v` -/
def SSt.set (s : SSt) (p v : Option Addr) : Res SSt :=
  match p with
  | none => .ub
  | some a => match s.mem a with
    | none => .ub
    | some _ => .ok { s with mem := fun x => if x = a then some v else s.mem x }

/-- `head->sl_first = v` -/
def SSt.setFirst (s : SSt) (l : Nat) (v : Option Addr) : SSt :=
  { s with heads := fun k => if k = l then { s.heads l with first := v } else s.heads k }

/-- `head->sl_last = v` -/
def SSt.setLast (s : SSt) (l : Nat) (v : Option Addr) : SSt :=
  { s with heads := fun k => if k = l then { s.heads l with last := v } else s.heads k }

/-- SLIST_INIT, /repo/src/list.h:38-43. -/
def sInit (l : Nat) (s : SSt) : SSt := (s.setLast l none).setFirst l none

/-- SLIST_INSERT_HEAD, /repo/src/list.h:46-53. -/
def sInsertHead (l : Nat) (e : Addr) (s : SSt) : Res SSt :=
  (s.set (some e) (s.heads l).first).bind fun s =>
  let s := if (s.heads l).first = none then s.setLast l (some e) else s
  .ok (s.setFirst l (some e))

/-- SLIST_INSERT_TAIL (= SLIST_PUSH), /repo/src/list.h:56-68. -/
def sInsertTail (l : Nat) (e : Addr) (s : SSt) : Res SSt :=
  (match (s.heads l).last with
    | some t => s.set (some t) (some e)
    | none => Res.ok (s.setFirst l (some e))).bind fun s =>
  (s.setLast l (some e)).set (some e) none

/-- SLIST_INSERT_AFTER, /repo/src/list.h:71-78. -/
def sInsertAfter (l : Nat) (anchor e : Addr) (s : SSt) : Res SSt :=
  (s.get (some anchor)).bind fun n =>
  (s.set (some e) n).bind fun s =>
  let s := if n = none then s.setLast l (some e) else s
  s.set (some anchor) (some e)

/-- SLIST_REMOVE_HEAD (= SLIST_SHIFT), /repo/src/list.h:81-90. -/
def sRemoveHead (l : Nat) (s : SSt) : Res SSt :=
  match (s.heads l).first with
  | none => .ok s
  | some f => (s.get (some f)).bind fun n =>
    let s := s.setFirst l n
    .ok (if n = none then s.setLast l none else s)

/-- SLIST_CONCAT, /repo/src/list.h:98-107. -/
def sConcat (a b : Nat) (s : SSt) : Res SSt :=
  (match (s.heads a).last with
    | some t => s.set (some t) (s.heads b).first
    | none => Res.ok (s.setFirst a (s.heads b).first)).bind fun s =>
  .ok (s.setLast a (s.heads b).last)

/-- SLIST_FOREACH, /repo/src/list.h:92-93 (see `dWalk`). -/
def sWalk (s : SSt) : Nat → Option Addr → Res (Option (List Addr))
  | _, none => .ok (some [])
  | 0, some _ => .ok none
  | fuel + 1, some a => (s.get (some a)).bind fun n =>
      (sWalk s fuel n).bind fun r => .ok (r.map (a :: ·))

/-- A list operation.  `concat a b` is SLIST_CONCAT followed by SLIST_INIT of the second
list (otherwise both heads would own the same elements). -/
inductive SOp where
  | init (l : Nat)
  | insertHead (l : Nat) (e : Addr)
  | insertTail (l : Nat) (e : Addr)
  | insertAfter (l : Nat) (anchor e : Addr)
  | removeHead (l : Nat)
  | concat (a b : Nat)
  | alloc (e : Addr) (junk : Option Addr)
  | free (e : Addr)

/-- Execute one operation. -/
def SOp.exec : SOp → SSt → Res SSt
  | .init l, s => .ok (sInit l s)
  | .insertHead l e, s => sInsertHead l e s
  | .insertTail l e, s => sInsertTail l e s
  | .insertAfter l a e, s => sInsertAfter l a e s
  | .removeHead l, s => sRemoveHead l s
  | .concat a b, s => (sConcat a b s).bind fun s => .ok (sInit b s)
  | .alloc e n, s => .ok { s with mem := fun x => if x = e then some n else s.mem x }
  | .free e, s => .ok { s with mem := fun x => if x = e then none else s.mem x }

/-- Execute operations one after the other. -/
def sExec : List SOp → SSt → Res SSt
  | [], s => .ok s
  | o :: os, s => (o.exec s).bind (sExec os)

end Pound
