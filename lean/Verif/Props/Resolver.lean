import Verif.Proof.Resolver
import Verif.Spec.Srv

/-!
C82: a dynamic backend follows the name service.  Each look-up of its name gives it exactly the records that the name service has, and the next look-up is made when they
expire (or after OverrideTTL); names that do not exist give no backends, failures leave the backends alone, and in both cases the name is looked up again after
RetryInterval seconds; chains of up to CNAMEChain aliases are followed.

True for records found directly or over one alias, for absent names without OverrideTTL and for time-outs.  Not true: a name that is an alias of an alias with CNAMEChain of 2 or more
overruns a block of one byte, and is never found; a failure reported by a server counts as an absent name; system errors and permanent failures end the look-ups for good;
OverrideTTL replaces RetryInterval for absent names; with both families, a failure of one and the absence of the other count as absence.
-/

namespace Pound.Props
open Spec

/-! A name service with www = two IPv4 addresses and no IPv6 one, app an alias of www, far an alias of app -/

def exA : AdnsAnswer := ⟨0, 1000, [b!"a1", b!"a2"], [⟨2, 5, 80, b!"h2"⟩, ⟨1, 7, 81, b!"h1"⟩], []⟩
def exZone : DnsZone where
  alias := fun n => if n = b!"app" then some b!"www" else if n = b!"far" then some b!"app" else none
  data := fun n t => if n = b!"www" ∧ t ≠ .aaaa then exA else ⟨301, 500, [], [], []⟩
def exDns : Dns := fun _ name t =>
  if t = .cname then
    match exZone.alias name with
    | some c => .ans ⟨0, 900, [], [], c⟩
    | none => .ans ⟨301, 900, [], [], []⟩
  else
    match exZone.alias name with
    | none => .ans (exZone.data name t)
    | some c =>
      match exZone.alias c with
      | none => .ans (exZone.data c t)
      | some _ => .ans ⟨101, 0, [], [], []⟩
def exCfg : LookupCfg := ⟨0, 0, 600, 0⟩

theorem exDns_zone : AnswersFrom exDns exZone := by
  intro n name
  constructor
  · intro t ht
    unfold exDns
    split
    · rename_i h; rw [if_neg ht, h]
    · rename_i c h
      split
      · rename_i h'; rw [if_neg ht, h]; dsimp only; rw [h']
      · rename_i d h'; rw [if_neg ht, h]; dsimp only; rw [h']; exact ⟨_, rfl, rfl⟩
  · unfold exDns
    split
    · rename_i c h; rw [if_pos rfl, h]; exact ⟨_, rfl, rfl, rfl⟩
    · rename_i h; rw [if_pos rfl, h]; exact ⟨_, rfl, by decide⟩

/-- A name with addresses: the backends are made of exactly the addresses of the answer, in its order, and looked up again when they expire. -/
theorem C82_found {q : Dns} {room : Nat} {c : LookupCfg} {now : Nat} {name : Bytes} {f : DnsFamily} {t : AdnsType} {a : AdnsAnswer}
    (hf : OneFamily f t) (h : FoundAns t (q 0 name t) a) :
    ∃ n, lookupAddrs q room c now name f = .ok ⟨some a.addrs, some n⟩ ∧ NextUpdate c now a.expires n :=
  ⟨_, lookup_one hf (generic_found h), nextUpdate c now a.expires⟩

example : ∃ n, lookupAddrs exDns 1 exCfg 10 b!"www" .inet = .ok ⟨some [b!"a1", b!"a2"], some n⟩ ∧ NextUpdate exCfg 10 1000 n :=
  C82_found (a := exA) (.inl ⟨rfl, rfl⟩) ⟨rfl, rfl, .inr (by decide)⟩

/-- Both families: the addresses of both, until the earlier time of expiry -/
theorem C82_found_both {q : Dns} {room : Nat} {c : LookupCfg} {now : Nat} {name : Bytes} {a4 a6 : AdnsAnswer}
    (h4 : FoundAns .a (q 0 name .a) a4) (h6 : FoundAns .aaaa (q (secondLookup c.chain) name .aaaa) a6) :
    ∃ n, lookupAddrs q room c now name .unspec = .ok ⟨some (a4.addrs ++ a6.addrs), some n⟩ ∧ NextUpdate c now (min a4.expires a6.expires) n := by
  refine ⟨_, lookup_both (generic_found h4) (generic_found h6), ?_⟩
  have : (if a4.expires < a6.expires then a4.expires else a6.expires) = min a4.expires a6.expires := by
    split <;> omega
  rw [this]
  exact nextUpdate c now _

example : ∃ n, lookupAddrs (fun _ _ t => .ans ⟨0, if t = .a then 70 else 60, [if t = .a then b!"v4" else b!"v6"], [], []⟩) 1 exCfg 10 b!"x" .unspec =
    .ok ⟨some [b!"v4", b!"v6"], some n⟩ ∧ NextUpdate exCfg 10 60 n :=
  C82_found_both (a4 := ⟨0, 70, [b!"v4"], [], []⟩) (a6 := ⟨0, 60, [b!"v6"], [], []⟩) ⟨rfl, rfl, .inr (by decide)⟩ ⟨rfl, rfl, .inr (by decide)⟩

/-- Both families, records of one only: its addresses, whatever became of the other look-up -/
theorem C82_found_one {q : Dns} {room : Nat} {c : LookupCfg} {now : Nat} {name : Bytes} {a : AdnsAnswer}
    (h : FoundAns .a (q 0 name .a) a ∧ (∀ b, ¬ FoundAns .aaaa (q (secondLookup c.chain) name .aaaa) b) ∧ (c.chain ≤ 1 ∨ ¬ ChainAns (q (secondLookup c.chain) name .aaaa)) ∨
      FoundAns .aaaa (q (secondLookup c.chain) name .aaaa) a ∧ (∀ b, ¬ FoundAns .a (q 0 name .a) b) ∧ (c.chain ≤ 1 ∨ ¬ ChainAns (q 0 name .a))) :
    ∃ n, lookupAddrs q room c now name .unspec = .ok ⟨some a.addrs, some n⟩ ∧ NextUpdate c now a.expires n := by
  rcases h with ⟨h, hn, hc⟩ | ⟨h, hn, hc⟩
  · obtain ⟨s, hs⟩ := generic_none (room := room) hc hn
    refine ⟨_, lookup_both (generic_found h) hs, ?_⟩
    exact nextUpdate c now a.expires
  · obtain ⟨s, hs⟩ := generic_none (room := room) hc hn
    refine ⟨_, lookup_both hs (generic_found h), ?_⟩
    exact nextUpdate c now a.expires

example : ∃ n, lookupAddrs exDns 1 exCfg 10 b!"www" .unspec = .ok ⟨some [b!"a1", b!"a2"], some n⟩ ∧ NextUpdate exCfg 10 1000 n :=
  C82_found_one (a := exA) (.inl ⟨⟨rfl, rfl, .inr (by decide)⟩, (by rintro b ⟨h1, h2, _⟩; cases h1; cases h2), .inl (by decide)⟩)

/-- SRV records: all of them and no others, by priority, the heavier ones of a priority first; looked up again when they expire -/
theorem C82_found_srv {q : Dns} {room : Nat} {c : LookupCfg} {now : Nat} {name : Bytes} {a : AdnsAnswer} {sort : List SrvRec → List SrvRec} {casecmp : Bytes → Bytes → Int}
    (hs : ∀ l, QsortOf casecmp l (sort l)) (h : FoundAns .srv (q 0 name .srv) a) :
    ∃ l n, lookupSrv q room c now sort name = .ok ⟨some l, some n⟩ ∧ l.Perm a.srvs ∧
      (l.Pairwise fun x y => x.prio < y.prio ∨ x.prio = y.prio ∧ y.weight ≤ x.weight) ∧ NextUpdate c now a.expires n := by
  refine ⟨_, _, lookup_srv (generic_found h), (hs a.srvs).1, ?_, nextUpdate c now a.expires⟩
  refine (hs a.srvs).2.imp ?_
  intro x y hxy
  unfold srvCmp at hxy
  dsimp only at hxy
  split at hxy
  · split at hxy <;> right <;> omega
  · left; omega

theorem exSort (l : List SrvRec) : QsortOf (fun _ _ => 0) l (l.mergeSort fun a b => decide (srvCmp (fun _ _ => 0) a b ≤ 0)) := by
  refine ⟨List.mergeSort_perm l _, ?_⟩
  have h := List.pairwise_mergeSort (le := fun a b => decide (srvCmp (fun _ _ => 0) a b ≤ 0)) ?_ ?_ l
  · exact h.imp (by intro a b h; simpa using h)
  · intro a b c h1 h2
    simp only [decide_eq_true_eq, srvCmp] at h1 h2 ⊢
    repeat' split at h1
    all_goals repeat' split at h2
    all_goals repeat' split
    all_goals omega
  · intro a b
    simp only [Bool.or_eq_true, decide_eq_true_eq, srvCmp]
    repeat' split
    all_goals omega

example : ∃ l n, lookupSrv exDns 1 exCfg 10 (fun l => l.mergeSort fun a b => decide (srvCmp (fun _ _ => 0) a b ≤ 0)) b!"www" = .ok ⟨some l, some n⟩ ∧ l.Perm exA.srvs ∧
    (l.Pairwise fun x y => x.prio < y.prio ∨ x.prio = y.prio ∧ y.weight ≤ x.weight) ∧ NextUpdate exCfg 10 1000 n :=
  C82_found_srv (a := exA) exSort ⟨rfl, rfl, .inl ⟨rfl, by decide⟩⟩

/-- A name without such records gives no backends and is looked up again after RetryInterval seconds.  Missing: that this is so with OverrideTTL (C82_override_fails). -/
theorem C82_absent_partial {q : Dns} {room : Nat} {c : LookupCfg} {now : Nat} {name : Bytes} (ho : c.override = 0) :
    (∀ f t, OneFamily f t → AbsentAns t (q 0 name t) → ∃ n, lookupAddrs q room c now name f = .ok ⟨some [], some n⟩ ∧ NextRetry c now n) ∧
    (AbsentAns .a (q 0 name .a) → AbsentAns .aaaa (q (secondLookup c.chain) name .aaaa) →
      ∃ n, lookupAddrs q room c now name .unspec = .ok ⟨some [], some n⟩ ∧ NextRetry c now n) ∧
    ∀ sort, AbsentAns .srv (q 0 name .srv) → ∃ n, lookupSrv q room c now sort name = .ok ⟨some [], some n⟩ ∧ NextRetry c now n := by
  have key : ∀ {α}, afterLookup (α := α) c now (.notFound, none) = ⟨some [], some (negativeExpire c now)⟩ := by
    intro α; simp [afterLookup, ho]
  refine ⟨?_, ?_, ?_⟩
  · intro f t hf h
    refine ⟨_, ?_, nextRetry c now⟩
    rw [lookup_one hf (generic_absent h)]
    exact congrArg Res.ok key
  · intro h4 h6
    refine ⟨_, ?_, nextRetry c now⟩
    rw [lookup_both (generic_absent h4) (generic_absent h6)]
    exact congrArg Res.ok key
  · intro sort h
    refine ⟨_, ?_, nextRetry c now⟩
    rw [lookup_srv_none (generic_absent h)]
    exact congrArg Res.ok key

example : ∃ n, lookupAddrs exDns 1 exCfg 10 b!"none" .inet = .ok ⟨some [], some n⟩ ∧ NextRetry exCfg 10 n :=
  (C82_absent_partial rfl).1 _ _ (.inl ⟨rfl, rfl⟩) ⟨_, rfl, .inr (.inl rfl)⟩

/-- When no server answers, the backends stay, and the name is looked up again after RetryInterval seconds.  Missing: that this is so if only one of two families fails
(C82_mixed_fails), and for other failures (C82_server_fails, C82_errno_fails, C82_permanent_fails). -/
theorem C82_temporary_partial {q : Dns} {room : Nat} {c : LookupCfg} {now : Nat} {name : Bytes} :
    (∀ f t, OneFamily f t → TemporaryAns (q 0 name t) → ∃ n, lookupAddrs q room c now name f = .ok ⟨none, some n⟩ ∧ NextRetry c now n) ∧
    (TemporaryAns (q 0 name .a) → TemporaryAns (q (secondLookup c.chain) name .aaaa) →
      ∃ n, lookupAddrs q room c now name .unspec = .ok ⟨none, some n⟩ ∧ NextRetry c now n) ∧
    ∀ sort, TemporaryAns (q 0 name .srv) → ∃ n, lookupSrv q room c now sort name = .ok ⟨none, some n⟩ ∧ NextRetry c now n := by
  refine ⟨?_, ?_, ?_⟩
  · intro f t hf h
    exact ⟨_, lookup_one hf (generic_temporary h), nextRetry c now⟩
  · intro h4 h6
    exact ⟨_, lookup_both (generic_temporary h4) (generic_temporary h6), nextRetry c now⟩
  · intro sort h
    exact ⟨_, lookup_srv_none (generic_temporary h), nextRetry c now⟩

example : ∃ n, lookupAddrs (fun _ _ _ => .ans ⟨31, 0, [], [], []⟩) 1 exCfg 10 b!"www" .unspec = .ok ⟨none, some n⟩ ∧ NextRetry exCfg 10 n :=
  C82_temporary_partial.2.1 ⟨_, rfl, .inr (.inl rfl)⟩ ⟨_, rfl, .inr (.inl rfl)⟩

/-- Whatever the name service says, a look-up ends without undefined behaviour.  Missing: aliases of aliases, with CNAMEChain of 2 or more (C82_chain_fails). -/
theorem C82_defined_partial (q : Dns) (room : Nat) (c : LookupCfg) (now : Nat) (name : Bytes) (h : c.chain ≤ 1 ∨ ∀ n t, ¬ ChainAns (q n name t)) :
    (∀ f, ∃ r, lookupAddrs q room c now name f = .ok r) ∧ ∀ sort, ∃ r, lookupSrv q room c now sort name = .ok r := by
  have hp : ∀ n t, ∃ r, dnsGeneric q room c.chain n name t = .ok r := fun n t => generic_total (h.imp id fun h => h n t)
  refine ⟨?_, ?_⟩
  · intro f
    obtain ⟨r4, h4⟩ := hp 0 .a
    obtain ⟨r6, h6⟩ := hp 0 .aaaa
    obtain ⟨r6', h6'⟩ := hp (secondLookup c.chain) .aaaa
    cases f with
    | inet => exact ⟨_, lookup_one (.inl ⟨rfl, rfl⟩) h4⟩
    | inet6 => exact ⟨_, lookup_one (.inr ⟨rfl, rfl⟩) h6⟩
    | unspec => exact ⟨_, lookup_both h4 h6'⟩
  · intro sort
    obtain ⟨⟨s, o⟩, h⟩ := hp 0 .srv
    cases o with
    | none => exact ⟨_, lookup_srv_none h⟩
    | some a => exact ⟨_, lookup_srv h⟩

example : ∀ f, ∃ r, lookupAddrs exDns 1 exCfg 10 b!"far" f = .ok r := (C82_defined_partial exDns 1 exCfg 10 b!"far" (.inl (by decide))).1

/-- A name that is an alias of a name with addresses: the backends are made of the addresses of the latter, whatever CNAMEChain is.  Missing: longer chains (C82_chain_fails). -/
theorem C82_alias_partial {q : Dns} {z : DnsZone} {room : Nat} {c : LookupCfg} {now : Nat} {name target : Bytes} {f : DnsFamily} {t : AdnsType}
    (hz : AnswersFrom q z) (hf : OneFamily f t) (ht : z.alias name = some target ∧ z.alias target = none ∨ z.alias name = none ∧ target = name)
    (hd : (z.data target t).status = 0 ∧ (z.data target t).addrs ≠ []) :
    ∃ n, lookupAddrs q room c now name f = .ok ⟨some (z.data target t).addrs, some n⟩ ∧ NextUpdate c now (z.data target t).expires n := by
  refine C82_found hf ⟨?_, hd.1, ?_⟩
  · have htc : t ≠ .cname := by rcases hf with ⟨_, rfl⟩ | ⟨_, rfl⟩ <;> decide
    have := (hz 0 name).1 t htc
    rcases ht with ⟨h1, h2⟩ | ⟨h1, rfl⟩
    · simpa only [h1, h2] using this
    · simpa only [h1] using this
  · exact .inr ⟨by rcases hf with ⟨_, rfl⟩ | ⟨_, rfl⟩ <;> decide, hd.2⟩

example : ∃ n, lookupAddrs exDns 1 exCfg 10 b!"app" .inet = .ok ⟨some [b!"a1", b!"a2"], some n⟩ ∧ NextUpdate exCfg 10 1000 n :=
  C82_alias_partial (target := b!"www") exDns_zone (.inl ⟨rfl, rfl⟩) (.inl ⟨by decide +kernel, by decide +kernel⟩) ⟨by decide +kernel, by decide +kernel⟩

/-- By default (and with CNAMEChain 1), aliases of aliases are not accepted: no backends are made. -/
theorem C82_no_chain {q : Dns} {z : DnsZone} {room : Nat} {c : LookupCfg} {now : Nat} {name target : Bytes} {f : DnsFamily} {t : AdnsType}
    (hz : AnswersFrom q z) (hf : OneFamily f t) (hc : c.chain ≤ 1) (h1 : z.alias name = some target) (h2 : z.alias target ≠ none) :
    Removed (lookupAddrs q room c now name f) := by
  have htc : t ≠ .cname := by rcases hf with ⟨_, rfl⟩ | ⟨_, rfl⟩ <;> decide
  have := (hz 0 name).1 t htc
  cases h2' : z.alias target with
  | none => exact absurd h2' h2
  | some d =>
    have hch : ChainAns (q 0 name t) := by simpa only [h1, h2'] using this
    exact ⟨_, lookup_one hf (generic_chain_short hch hc)⟩

example : Removed (lookupAddrs exDns 1 exCfg 10 b!"far" .inet) :=
  C82_no_chain (target := b!"app") exDns_zone (.inl ⟨rfl, rfl⟩) (by decide) (by decide +kernel) (by decide +kernel)

/-- With CNAMEChain of 2 or more, looking up any name that is an alias of an alias writes past the end of a block of one byte. -/
theorem C82_chain_fails {q : Dns} {z : DnsZone} {c : LookupCfg} {now : Nat} {name target : Bytes} {f : DnsFamily} {t : AdnsType}
    (hz : AnswersFrom q z) (hf : OneFamily f t) (hc : 2 ≤ c.chain) (hn : name ≠ []) (h1 : z.alias name = some target) (h2 : z.alias target ≠ none) :
    lookupAddrs q 1 c now name f = .ub := by
  have htc : t ≠ .cname := by rcases hf with ⟨_, rfl⟩ | ⟨_, rfl⟩ <;> decide
  have := (hz 0 name).1 t htc
  cases h2' : z.alias target with
  | none => exact absurd h2' h2
  | some d =>
    have hch : ChainAns (q 0 name t) := by simpa only [h1, h2'] using this
    exact lookup_one_ub hf (generic_chain_ub hch hc hn)

/-- Even if malloc gives more than it was asked for, the addresses at the end of a chain of two or more aliases are never found: the query is repeated for the first name. -/
theorem C82_chain_never_fails {q : Dns} {z : DnsZone} {room : Nat} {c : LookupCfg} {now : Nat} {name target : Bytes} {f : DnsFamily} {t : AdnsType}
    (hz : AnswersFrom q z) (hf : OneFamily f t) (h1 : z.alias name = some target) (h2 : z.alias target ≠ none) :
    lookupAddrs q room c now name f = .ub ∨ Removed (lookupAddrs q room c now name f) := by
  have htc : t ≠ .cname := by rcases hf with ⟨_, rfl⟩ | ⟨_, rfl⟩ <;> decide
  cases h2' : z.alias target with
  | none => exact absurd h2' h2
  | some d =>
    rcases generic_chain_never (room := room) (chain := c.chain) (n := 0) hz htc h1 h2' with h | h
    · exact .inl (lookup_one_ub hf h)
    · exact .inr ⟨_, lookup_one hf h⟩

example : lookupAddrs exDns 1 { exCfg with chain := 3 } 10 b!"far" .inet = .ub ∧ Removed (lookupAddrs exDns 24 { exCfg with chain := 3 } 10 b!"far" .inet) :=
  ⟨C82_chain_fails (target := b!"app") exDns_zone (.inl ⟨rfl, rfl⟩) (by decide) (by decide) (by decide +kernel) (by decide +kernel), ⟨some 610, by decide +kernel⟩⟩

/-- A failure that a server reports (SERVFAIL, REFUSED, ...) removes all backends, as if the name did not exist. -/
theorem C82_server_fails {q : Dns} {room : Nat} {c : LookupCfg} {now : Nat} {name : Bytes} {f : DnsFamily} {t : AdnsType}
    (hf : OneFamily f t) (h : ServerFailureAns (q 0 name t)) : Removed (lookupAddrs q room c now name f) :=
  ⟨_, lookup_one hf (generic_server h)⟩

example : Removed (lookupAddrs (fun _ _ _ => .ans ⟨60, 0, [], [], []⟩) 1 exCfg 10 b!"www" .inet) := C82_server_fails (.inl ⟨rfl, rfl⟩) ⟨_, rfl, by decide⟩

/-- After any system error, EAGAIN and ETIMEDOUT included, the name is not looked up any more. -/
theorem C82_errno_fails {q : Dns} {room : Nat} {c : LookupCfg} {now : Nat} {name : Bytes} {f : DnsFamily} {t : AdnsType} {e : Nat}
    (hf : OneFamily f t) (he : e ≠ 0) (h : q 0 name t = .err e) : lookupAddrs q room c now name f = .ok ⟨none, none⟩ :=
  lookup_one hf (generic_errno h he)

example : lookupAddrs (fun _ _ _ => .err 11) 1 exCfg 10 b!"www" .inet = .ok ⟨none, none⟩ := C82_errno_fails (.inl ⟨rfl, rfl⟩) (by decide) rfl

/-- After a failure of another kind, such as a broken response of a server, the name is not looked up any more, although a DNS failure is said to be followed by another look-up. -/
theorem C82_permanent_fails {q : Dns} {room : Nat} {c : LookupCfg} {now : Nat} {name : Bytes} {f : DnsFamily} {t : AdnsType}
    (hf : OneFamily f t) (h : PermanentAns (q 0 name t)) : lookupAddrs q room c now name f = .ok ⟨none, none⟩ :=
  lookup_one hf (generic_permanent h)

example : lookupAddrs (fun _ _ _ => .ans ⟨33, 0, [], [], []⟩) 1 exCfg 10 b!"www" .inet = .ok ⟨none, none⟩ := C82_permanent_fails (.inl ⟨rfl, rfl⟩) ⟨_, rfl, by decide⟩

/-- With OverrideTTL, an absent name is looked up again after that time and not after RetryInterval seconds. -/
theorem C82_override_fails {q : Dns} {room : Nat} {c : LookupCfg} {now : Nat} {name : Bytes} {f : DnsFamily} {t : AdnsType}
    (hf : OneFamily f t) (ho : c.override ≠ 0) (h : AbsentAns t (q 0 name t)) :
    lookupAddrs q room c now name f = .ok ⟨some [], some (now + c.override)⟩ := by
  rw [lookup_one hf (generic_absent h)]
  simp [afterLookup, dnsOne, dnsAns, ho]

example : lookupAddrs exDns 1 { exCfg with retry := 60, override := 86400 } 10 b!"none" .inet = .ok ⟨some [], some 86410⟩ :=
  C82_override_fails (.inl ⟨rfl, rfl⟩) (by decide) ⟨_, rfl, .inr (.inl rfl)⟩

/-- With both families, the absence of records of one and a temporary failure of the other remove all backends. -/
theorem C82_mixed_fails {q : Dns} {room : Nat} {c : LookupCfg} {now : Nat} {name : Bytes}
    (h : TemporaryAns (q 0 name .a) ∧ AbsentAns .aaaa (q (secondLookup c.chain) name .aaaa) ∨ AbsentAns .a (q 0 name .a) ∧ TemporaryAns (q (secondLookup c.chain) name .aaaa)) :
    Removed (lookupAddrs q room c now name .unspec) := by
  rcases h with ⟨h4, h6⟩ | ⟨h4, h6⟩
  · exact ⟨_, lookup_both (generic_temporary h4) (generic_absent h6)⟩
  · exact ⟨_, lookup_both (generic_absent h4) (generic_temporary h6)⟩

example : Removed (lookupAddrs (fun _ _ t => if t = .a then .ans ⟨30, 0, [], [], []⟩ else .ans ⟨301, 0, [], [], []⟩) 1 exCfg 10 b!"www" .unspec) :=
  C82_mixed_fails (.inl ⟨⟨_, rfl, .inl rfl⟩, ⟨_, rfl, .inr (.inl rfl)⟩⟩)

/-- The step of Model/DynBe.lean that a look-up leads to is the update with the records it gave, and there is another look-up exactly if a time for it was given (for a backend that is not
disabled). -/
theorem C82_step {q : Dns} {room : Nat} {c : LookupCfg} {name : Bytes} {f : DnsFamily} {r : DnsStatus × Option (Nat × List Bytes)} (now m : Nat)
    (he : ∀ n t, q n name t ≠ .err 0) (hr : dnsAddrLookup q room c.chain name f = .ok r) :
    ∃ x, lookupAddrs q room c now name f = .ok x ∧
      ((∀ l, x.records = some l → dynLookup m r = .update m l) ∧ (x.records = none → dynLookup m r = .noAnswer m)) ∧
      (dynAgain r false = true ↔ ∃ t, x.next = some t) := by
  refine ⟨afterLookup c now r, by unfold lookupAddrs; rw [hr], ?_⟩
  have h := addr_success he hr
  obtain ⟨s, o⟩ := r
  cases s with
  | success =>
    cases o with
    | none => exact absurd rfl (h rfl)
    | some x => exact ⟨⟨fun l hl => by cases hl; rfl, fun hl => by cases hl⟩, ⟨fun _ => ⟨_, rfl⟩, fun _ => rfl⟩⟩
  | failure => exact ⟨⟨fun l hl => (by cases hl), fun _ => rfl⟩, ⟨by simp [dynAgain], by rintro ⟨t, ht⟩; cases ht⟩⟩
  | tempFailure => exact ⟨⟨fun l hl => (by cases hl), fun _ => rfl⟩, ⟨fun _ => ⟨_, rfl⟩, fun _ => rfl⟩⟩
  | notFound => exact ⟨⟨fun l hl => by cases hl; rfl, fun hl => by cases hl⟩, ⟨fun _ => ⟨_, rfl⟩, fun _ => rfl⟩⟩

example : ∃ x, lookupAddrs exDns 1 exCfg 10 b!"www" .inet = .ok x ∧
      ((∀ l, x.records = some l → dynLookup 0 (.success, some (1000, [b!"a1", b!"a2"])) = .update 0 l) ∧
        (x.records = none → dynLookup 0 (.success, some (1000, [b!"a1", b!"a2"])) = .noAnswer 0)) ∧
      (dynAgain (.success, some (1000, [b!"a1", b!"a2"])) false = true ↔ ∃ t, x.next = some t) :=
  C82_step 10 0 (by intro n t; unfold exDns; repeat' split <;> (intro h; cases h)) (by decide +kernel)

end Pound.Props
