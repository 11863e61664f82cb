import Verif.Model.Resolver

/-!
Vocabulary for look-ups: what the name service says, and when the documentation (pound.texi, "Dynamic backends", "Resolver") wants the next look-up.
-/

namespace Pound.Spec

/-- The answer has records of the type asked for. -/
def HasRecords (t : AdnsType) (a : AdnsAnswer) : Prop := t = .srv ∧ a.srvs ≠ [] ∨ t ≠ .srv ∧ a.addrs ≠ []

/-- The records of a type exist: the answer has them. -/
def FoundAns (t : AdnsType) (r : AdnsRes) (a : AdnsAnswer) : Prop := r = .ans a ∧ a.status = 0 ∧ HasRecords t a

/-- There are no such records: no such domain (300), no records of that type (301), or an empty answer. -/
def AbsentAns (t : AdnsType) (r : AdnsRes) : Prop := ∃ a, r = .ans a ∧ (a.status = 300 ∨ a.status = 301 ∨ a.status = 0 ∧ ¬ HasRecords t a)

/-- The look-up failed temporarily: no answer in time (30), no server answered (31), the server cannot recurse (32). -/
def TemporaryAns (r : AdnsRes) : Prop := ∃ a, r = .ans a ∧ (a.status = 30 ∨ a.status = 31 ∨ a.status = 32)

/-- The look-up failed for good: a local failure (1-3), a broken response (33, 34), or a bad query (200-202). -/
def PermanentAns (r : AdnsRes) : Prop := ∃ a, r = .ans a ∧ (a.status ∈ [1, 2, 3, 33, 34, 200, 201, 202])

/-- A server reported a failure: SERVFAIL, FORMERR, NOTIMPL, REFUSED or an unknown code. -/
def ServerFailureAns (r : AdnsRes) : Prop := ∃ a, r = .ans a ∧ (a.status ∈ [60, 61, 62, 63, 64])

/-- The name is an alias of an alias, which the library does not follow. -/
def ChainAns (r : AdnsRes) : Prop := ∃ a, r = .ans a ∧ a.status = 101

/-- The type of records asked for with `Family inet` and `Family inet6` -/
def OneFamily (f : DnsFamily) (t : AdnsType) : Prop := f = .inet ∧ t = .a ∨ f = .inet6 ∧ t = .aaaa

/-- When records that expire at time e are looked up again: at that time, or, with OverrideTTL, that many seconds from now -/
def NextUpdate (c : LookupCfg) (now e t : Nat) : Prop := (c.override = 0 → t = e) ∧ (c.override ≠ 0 → t = now + c.override)

/-- When a failed look-up is to be repeated: RetryInterval seconds from now; the one of the backend if given, or that of the resolver -/
def NextRetry (c : LookupCfg) (now t : Nat) : Prop := (c.retry ≠ 0 → t = now + c.retry) ∧ (c.retry = 0 → t = now + c.resolverRetry)

/-- The contents of the name service: aliases (CNAME records) and what it says about other names -/
structure DnsZone where
  alias : Bytes → Option Bytes
  data : Bytes → AdnsType → AdnsAnswer

/-- The library answers out of that zone.  With the flag adns_qf_cname_loose, it follows one alias; an alias of an alias is a prohibited one. -/
def AnswersFrom (q : Dns) (z : DnsZone) : Prop :=
  ∀ n name,
    (∀ t, t ≠ .cname →
      match z.alias name with
      | none => q n name t = .ans (z.data name t)
      | some c =>
        match z.alias c with
        | none => q n name t = .ans (z.data c t)
        | some _ => ChainAns (q n name t)) ∧
    match z.alias name with
    | some c => ∃ a, q n name .cname = .ans a ∧ a.status = 0 ∧ a.alias = c
    | none => ∃ a, q n name .cname = .ans a ∧ a.status ≠ 0

/-- No records have been given to the update: what was there is removed. -/
def Removed {α} (r : Res (Looked α)) : Prop := ∃ t, r = .ok ⟨some [], t⟩

end Pound.Spec
