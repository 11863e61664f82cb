import Verif.Model.Lists

/-!
Specification of the list operations: what they do to mathematical sequences.  Only the
types of operations are taken from the model.
-/

namespace Pound.Spec

/-- A collection of sequences of elements and the set of allocated elements. -/
structure Seqs where
  seq : Nat → List Addr
  live : Addr → Prop

/-- `f` with the value at `l` replaced. -/
def upd {α} (f : Nat → α) (l : Nat) (v : α) : Nat → α := fun k => if k = l then v else f k

/-- An element may be inserted: it is allocated and in no list. -/
def Seqs.Fresh (q : Seqs) (e : Addr) : Prop := q.live e ∧ ∀ l, e ∉ q.seq l

/-- What each operation on doubly-linked lists does to the sequences (no rule: the caller
must not do it). -/
inductive DStep : DOp → Seqs → Seqs → Prop
  | init : DStep (.init l) q { q with seq := upd q.seq l [] }
  | insertHead : q.Fresh e → DStep (.insertHead l e) q { q with seq := upd q.seq l (e :: q.seq l) }
  | insertTail : q.Fresh e → DStep (.insertTail l e) q { q with seq := upd q.seq l (q.seq l ++ [e]) }
  | insertAfter : q.Fresh e → q.seq l = pre ++ a :: post →
      DStep (.insertAfter l (some a) e) q { q with seq := upd q.seq l (pre ++ a :: e :: post) }
  | insertAfterNull : q.Fresh e → DStep (.insertAfter l none e) q { q with seq := upd q.seq l (q.seq l ++ [e]) }
  | insertBefore : q.Fresh e → q.seq l = pre ++ a :: post →
      DStep (.insertBefore l (some a) e) q { q with seq := upd q.seq l (pre ++ e :: a :: post) }
  | insertBeforeNull : q.Fresh e → DStep (.insertBefore l none e) q { q with seq := upd q.seq l (e :: q.seq l) }
  | remove : q.seq l = pre ++ e :: post → DStep (.remove l e) q { q with seq := upd q.seq l (pre ++ post) }
  | removeHead : q.seq l = e :: post → DStep (.removeHead l) q { q with seq := upd q.seq l post }
  | alloc : ¬ q.live e → DStep (.alloc e n) q { q with live := fun x => x = e ∨ q.live x }
  | free : q.Fresh e → DStep (.free e) q { q with live := fun x => x ≠ e ∧ q.live x }

/-- A history of operations. -/
inductive DRun : List DOp → Seqs → Seqs → Prop
  | nil : DRun [] q q
  | cons : DStep o q q' → DRun os q' q'' → DRun (o :: os) q q''

/-- The same for singly-linked lists.  `concat` requires the second list not to be empty
(or both to be): the macro is wrong otherwise. -/
inductive SStep : SOp → Seqs → Seqs → Prop
  | init : SStep (.init l) q { q with seq := upd q.seq l [] }
  | insertHead : q.Fresh e → SStep (.insertHead l e) q { q with seq := upd q.seq l (e :: q.seq l) }
  | insertTail : q.Fresh e → SStep (.insertTail l e) q { q with seq := upd q.seq l (q.seq l ++ [e]) }
  | insertAfter : q.Fresh e → q.seq l = pre ++ a :: post →
      SStep (.insertAfter l a e) q { q with seq := upd q.seq l (pre ++ a :: e :: post) }
  | removeHead : q.seq l = e :: post → SStep (.removeHead l) q { q with seq := upd q.seq l post }
  | removeHeadEmpty : q.seq l = [] → SStep (.removeHead l) q q
  | concat : a ≠ b → (q.seq b = [] → q.seq a = []) →
      SStep (.concat a b) q { q with seq := upd (upd q.seq a (q.seq a ++ q.seq b)) b [] }
  | alloc : ¬ q.live e → SStep (.alloc e n) q { q with live := fun x => x = e ∨ q.live x }
  | free : q.Fresh e → SStep (.free e) q { q with live := fun x => x ≠ e ∧ q.live x }

/-- A history of operations. -/
inductive SRun : List SOp → Seqs → Seqs → Prop
  | nil : SRun [] q q
  | cons : SStep o q q' → SRun os q' q'' → SRun (o :: os) q q''

/-- Nothing allocated, all lists empty. -/
def Seqs.empty : Seqs := ⟨fun _ => [], fun _ => False⟩

end Pound.Spec
