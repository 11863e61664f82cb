import Verif.Model.Headers
import Verif.Model.Acl

/-!
Hash tables: /repo/src/ht.h, /repo/src/dynbe.c:200-262, 282-318, /repo/src/http.c:1748-1835, 2600-2627, /repo/src/resolver.c:280-301,
/repo/src/config.c:136-166, /repo/src/svc.c:357-426.

The tables are those of OpenSSL (LHASH): a node holds the hash value of the entry inserted and a pointer to it; the nodes whose hash values are equal are in the
same chain; nodes are looked at in the order of the chain, and an entry is compared only if its hash value is equal.  Growing and shrinking of a table changes
the order of nodes.  Memory exhaustion is not modelled.
-/

namespace Pound

/-- tolower (C locale) of a char, which is signed, converted to unsigned long: /repo/src/http.c:1770 -/
def tolowerUl (c : UInt8) : UInt64 :=
  if toLower c < 128 then (toLower c).toUInt64 else (toLower c).toUInt64 ||| 0xFFFFFFFFFFFFFF00

/-- One round of the loop in strhash_ci, /repo/src/http.c:1770-1777: `n` and `ret` -/
def strhashStep (s : UInt64 × UInt64) (c : UInt8) : UInt64 × UInt64 :=
  let v := s.1 ||| tolowerUl c
  let r := ((v >>> 2) ^^^ v) &&& 0x0f
  (s.1 + 0x100, (((s.2 <<< r) ||| (s.2 >>> (32 - r))) &&& 0xFFFFFFFF) ^^^ (v * v))

/-- strhash_ci, /repo/src/http.c:1756-1780 -/
def strhashCi (s : Bytes) : UInt64 :=
  if s.head?.getD 0 = 0 then 0
  else
    let ret := (s.foldl strhashStep (0x100, 0)).2
    (ret >>> 16) ^^^ ret

/-- djb_hash_add, /repo/src/dynbe.c:200-207 -/
def djbHashAdd (hash : UInt64) (s : Bytes) : UInt64 := s.foldl (fun h c => ((h <<< 5) + h) + c.toUInt64) hash

/-- djb_hash, /repo/src/dynbe.c:209-213 -/
def djbHash (s : Bytes) : UInt64 := djbHashAdd 5381 s

/-- The hash function and the comparison of a table -/
structure TabKind (κ : Type) where
  hash : κ → UInt64
  same : κ → κ → Bool

/-- HEADER_NAME_hash and HEADER_NAME_cmp, /repo/src/http.c:1782-1792; COMPOSE_HEADER: /repo/src/http.c:2606-2621 -/
def headerNames : TabKind Bytes := ⟨strhashCi, fun a b => a.length == b.length && ciEq a b⟩

/-- CNAME_REF_hash and CNAME_REF_cmp, /repo/src/resolver.c:285-295 -/
def cnameRefs : TabKind Bytes := ⟨strhashCi, ciEq⟩

/-- Tables with names or keys, /repo/src/ht.h:102-117: named backends, sessions, servers of poundctl.  `h` is lh_strhash of OpenSSL. -/
def plainNames (h : Bytes → UInt64) : TabKind Bytes := ⟨h, fun a b => a == b⟩

/-- A backend in a table: its address (BE_REGULAR; the bytes of sockaddr_bytes) or its host name and port (BE_MATRIX; the two bytes of the port) -/
inductive BeKey where
  | addr (a : Bytes)
  | host (name : Bytes) (p0 p1 : UInt8)
deriving DecidableEq, Repr

/-- BACKEND_hash, /repo/src/dynbe.c:215-232 -/
def beHash : BeKey → UInt64
  | .addr a => djbHash a
  | .host n p0 p1 => djbHashAdd (strhashCi n) [p0, p1]

/-- BACKEND_cmp, /repo/src/dynbe.c:234-252.  All backends in a table are of the same kind. -/
def beSame : BeKey → BeKey → Bool
  | .addr a, .addr b => a.length == b.length && a == b
  | .host n p0 p1, .host m q0 q1 => ciEq n m && (p0 == q0 && p1 == q1)
  | _, _ => false

/-- The table of backends -/
def backendsTab : TabKind BeKey := ⟨beHash, beSame⟩

/-- A table and the memory with its entries; `none` is memory that was released or not yet used; `next` is the next block obtained. -/
structure TabSt (κ ν : Type) where
  heap : Nat → Option (κ × ν) := fun _ => none
  next : Nat := 0
  nodes : List (UInt64 × Nat) := []

/-- The search for an entry in LHASH -/
def nodeFind {κ ν : Type} (K : TabKind κ) (heap : Nat → Option (κ × ν)) (k : κ) : List (UInt64 × Nat) → Res (Option Nat)
  | [] => .ok none
  | (h, p) :: r =>
    if h = K.hash k then
      match heap p with
      | none => .ub
      | some e => if K.same e.1 k then .ok (some p) else nodeFind K heap k r
    else nodeFind K heap k r

/-- What is done with the entries when one with the same key is replaced: the old one is released (service_session_add, /repo/src/svc.c:375-380), or the new
one (combinable_header_add, /repo/src/http.c:1818-1822; named_backend_insert, /repo/src/config.c:150-154) -/
inductive DupRule where
  | freeOld | freeNew
deriving DecidableEq, Repr

/-- Insertion, as in the functions mentioned: whether there was an entry with that key.  lh_insert stores the new entry also if there is one already,
and returns the old one. -/
def tabAdd {κ ν : Type} (K : TabKind κ) (d : DupRule) (s : TabSt κ ν) (k : κ) (v : ν) : Res (Bool × TabSt κ ν) :=
  let heap := fun q => if q = s.next then some (k, v) else s.heap q
  match nodeFind K heap k s.nodes with
  | .ub => .ub
  | .ok none => .ok (false, ⟨heap, s.next + 1, s.nodes ++ [(K.hash k, s.next)]⟩)
  | .ok (some q) =>
    let out := match d with
      | .freeOld => q
      | .freeNew => s.next
    .ok (true, ⟨fun x => if x = out then none else heap x, s.next + 1, s.nodes.map fun e => if e.2 = q then (e.1, s.next) else e⟩)

/-- Removal, as in service_session_remove_by_key, /repo/src/svc.c:412-426 -/
def tabDel {κ ν : Type} (K : TabKind κ) (s : TabSt κ ν) (k : κ) : Res (TabSt κ ν) :=
  match nodeFind K s.heap k s.nodes with
  | .ub => .ub
  | .ok none => .ok s
  | .ok (some q) => .ok ⟨fun x => if x = q then none else s.heap x, s.next, s.nodes.filter fun e => e.2 ≠ q⟩

/-- Retrieval: the value of the entry -/
def tabGet {κ ν : Type} (K : TabKind κ) (s : TabSt κ ν) (k : κ) : Res (Option ν) :=
  match nodeFind K s.heap k s.nodes with
  | .ub => .ub
  | .ok none => .ok none
  | .ok (some p) =>
    match s.heap p with
    | none => .ub
    | some e => .ok (some e.2)

/-- The calls of combinable_header_add for the names in the configuration (/repo/src/config.c:4367, /repo/src/http.c:1804-1823) -/
def combineAdd (s : TabSt Bytes Unit) : List Bytes → Res (TabSt Bytes Unit)
  | [] => .ok s
  | n :: r =>
    match tabAdd headerNames .freeNew s n () with
    | .ub => .ub
    | .ok (_, s') => combineAdd s' r

/-- is_combinable_header after that, /repo/src/http.c:1825-1835 -/
def combineFind (names : List Bytes) (name : Bytes) : Res Bool :=
  match combineAdd { } names with
  | .ub => .ub
  | .ok s =>
    match tabGet headerNames s name with
    | .ub => .ub
    | .ok r => .ok r.isSome

end Pound
