import Verif.Model.Srv

/-!
Look-ups for dynamic backends: /repo/src/resolver.c:180-653 and what is done with their results: /repo/src/dynbe.c:22-38, 62-177.

The resolver library (adns) is a parameter: what it answers to each query.  Its status codes are the numbers of its header adns.h (external; see the trusted base):
0 ok; 1-3 local failures (limit 29); 30-34 failures detected locally in dealing with servers: timeout, allservfail, norecurse, invalidresponse, unknownformat
(limit 59); 60-64 failures reported by servers: servfail, formaterror, notimplemented, refused, unknown (limit 99); 100-104 inconsistent, prohibitedcname,
answerdomaininvalid, answerdomaintoolong, invaliddata (limit 199); 200-202 querydomainwrong, querydomaininvalid, querydomaintoolong (limit 299); 300 nxdomain; 301 nodata.
Failures of malloc and the log messages are not modelled, and neither is the state kept for each thread (/repo/src/resolver.c:105-178).
-/

namespace Pound

/-- The types of records asked for: adns_r_a, adns_r_aaaa, adns_r_srv_raw, adns_r_cname -/
inductive AdnsType where
  | a | aaaa | srv | cname
deriving DecidableEq, Repr

/-- adns_answer: status, time of expiry, and the records of the type asked for -/
structure AdnsAnswer where
  status : Nat
  expires : Nat
  addrs : List Bytes
  srvs : List SrvRec
  /-- rrs.str[0] -/
  alias : Bytes
deriving DecidableEq, Repr

/-- What adns_synchronous gives: a system error (errno) or an answer -/
inductive AdnsRes where
  | err (e : Nat)
  | ans (a : AdnsAnswer)
deriving DecidableEq, Repr

/-- The name service: the answer to query number n, for a name and a type -/
abbrev Dns := Nat → Bytes → AdnsType → AdnsRes

/-- adns_to_dns_tab, /repo/src/resolver.c:180-213 -/
def adnsTab (e : Nat) : Option DnsStatus :=
  if e = 0 then some .success
  else if e = 1 ∨ e = 2 ∨ e = 3 then some .failure
  else if e = 30 ∨ e = 31 ∨ e = 32 then some .tempFailure
  else if e = 33 ∨ e = 34 then some .failure
  else if e = 60 ∨ e = 61 ∨ e = 62 ∨ e = 63 ∨ e = 64 then some .notFound
  else if e = 100 ∨ e = 101 ∨ e = 102 ∨ e = 103 ∨ e = 104 then some .notFound
  else if e = 200 ∨ e = 201 ∨ e = 202 then some .failure
  else if e = 300 ∨ e = 301 then some .notFound
  else none

/-- adns_to_dns_status, /repo/src/resolver.c:216-246 -/
def adnsToDns (e : Nat) : DnsStatus :=
  match adnsTab e with
  | some s => s
  | none =>
    if e < 29 then .failure
    else if e < 59 then .notFound
    else if e < 99 then .tempFailure
    else .notFound

/-- The values of enum dns_status, /repo/src/resolver.h:28-34 -/
def DnsStatus.code : DnsStatus → Nat
  | .success => 0
  | .failure => 1
  | .tempFailure => 2
  | .notFound => 3

/-- errno_to_dns_status, /repo/src/resolver.c:248-267: EAGAIN is 11, EINPROGRESS 115, ETIMEDOUT 110. -/
def errnoToDns (e : Nat) : DnsStatus :=
  if e = 0 then .success
  else if e = 11 ∨ e = 115 ∨ e = 110 then .tempFailure
  else .failure

/-- cname_install, /repo/src/resolver.c:303-319.  `room` is the number of bytes that may be written to the block obtained by malloc (sizeof (CNAME_REF)): 1 in C; allocators may
give more.  `none`: EEXIST. -/
def cnameInstall (room : Nat) (tab : List Bytes) (name : Bytes) : Res (Option (List Bytes)) :=
  if room < name.length + 1 then .ub
  else if tab.any (fun t => ciEq t name) then .ok none
  else .ok (some (tab ++ [name]))

/-- The loop of dns_query, /repo/src/resolver.c:356-402; `left` is max_cname_chain + 2 - cname_count, the number of rounds to go; n is the number of the next query.
The name asked for is the same in all rounds. -/
def cnameLoop (q : Dns) (room : Nat) (name : Bytes) (type : AdnsType) (ans : AdnsAnswer) : Nat → Nat → List Bytes → Res AdnsRes
  | 0, _, _ => .ok (.ans ans)
  | left + 1, n, tab =>
    match q n name .cname with
    | .err e => .ok (.err e)
    | .ans c =>
      if c.status = 0 then
        match cnameInstall room tab c.alias with
        | .ub => .ub
        | .ok none => .ok (.ans ans)
        | .ok (some tab') => cnameLoop q room name type ans left (n + 1) tab'
      else if c.status = 301 then .ok (q (n + 1) name type)
      else .ok (.ans c)

/-- dns_query, /repo/src/resolver.c:330-410, without the final conversion of rc -/
def dnsQuery (q : Dns) (room chain n : Nat) (name : Bytes) (type : AdnsType) : Res AdnsRes :=
  match q n name type with
  | .err e => .ok (.err e)
  | .ans a =>
    if a.status = 101 ∧ chain > 1 then
      match cnameInstall room [] name with
      | .ub => .ub
      | .ok none => .ok (.err 17)
      | .ok (some tab) => cnameLoop q room name type a (chain + 1) (n + 1) tab
    else .ok (.ans a)

/-- The number of records in an answer (nrrs) for a type -/
def AdnsAnswer.count (a : AdnsAnswer) : AdnsType → Nat
  | .srv => a.srvs.length
  | _ => a.addrs.length

/-- dns_generic_lookup, /repo/src/resolver.c:412-490: an answer with records, or a status.  The result of dns_query has been converted once (line 409) when it is taken for an
errno (line 440). -/
def dnsGeneric (q : Dns) (room chain n : Nat) (name : Bytes) (type : AdnsType) : Res (DnsStatus × Option AdnsAnswer) :=
  match dnsQuery q room chain n name type with
  | .ub => .ub
  | .ok (.err e) => .ok (errnoToDns (adnsToDns e).code, none)
  | .ok (.ans a) =>
    if a.status ≠ 0 then .ok (adnsToDns a.status, none)
    else if a.count type = 0 then .ok (.notFound, none)
    else .ok (.success, some a)

/-- The addresses of dns_generic_lookup with rr_a_conv and rr_aaaa_conv, /repo/src/resolver.c:492-540 -/
def dnsAns (r : DnsStatus × Option AdnsAnswer) : DnsAns :=
  match r.2 with
  | some a => .addrs a.expires a.addrs
  | none => .other r.1

/-- The families of a backend: AF_INET, AF_INET6, AF_UNSPEC -/
inductive DnsFamily where
  | inet | inet6 | unspec
deriving DecidableEq, Repr

/-- The result of dns_addr_lookup for one family, /repo/src/resolver.c:551-552 -/
def dnsOne : DnsAns → DnsStatus × Option (Nat × List Bytes)
  | .addrs e l => (.success, some (e, l))
  | .other s => (s, none)

/-- The number of queries a look-up makes is not needed to tell the answers of the second apart from those of the first: the queries of the second look-up of
dns_addr_lookup are numbered from here on. -/
def secondLookup (chain : Nat) : Nat := chain + 4

/-- dns_addr_lookup, /repo/src/resolver.c:542-609 -/
def dnsAddrLookup (q : Dns) (room chain : Nat) (name : Bytes) (f : DnsFamily) : Res (DnsStatus × Option (Nat × List Bytes)) :=
  match f with
  | .inet =>
    match dnsGeneric q room chain 0 name .a with
    | .ub => .ub
    | .ok r => .ok (dnsOne (dnsAns r))
  | .inet6 =>
    match dnsGeneric q room chain 0 name .aaaa with
    | .ub => .ub
    | .ok r => .ok (dnsOne (dnsAns r))
  | .unspec =>
    match dnsGeneric q room chain 0 name .a with
    | .ub => .ub
    | .ok r4 =>
      match dnsGeneric q room chain (secondLookup chain) name .aaaa with
      | .ub => .ub
      | .ok r6 => .ok (dnsBoth (dnsAns r4) (dnsAns r6))

/-- dns_srv_lookup, /repo/src/resolver.c:642-653; `sort` is qsort with srv_cmp. -/
def dnsSrvLookup (q : Dns) (room chain : Nat) (sort : List SrvRec → List SrvRec) (name : Bytes) : Res (DnsStatus × Option (Nat × List SrvRec)) :=
  match dnsGeneric q room chain 0 name .srv with
  | .ub => .ub
  | .ok (s, none) => .ok (s, none)
  | .ok (s, some a) => .ok (s, some (a.expires, sort a.srvs))

/-- The settings that decide when names are looked up: RetryInterval and OverrideTTL of the backend (0 if not given), RetryInterval and CNAMEChain of the resolver -/
structure LookupCfg where
  retry : Nat
  override : Nat
  resolverRetry : Nat
  chain : Nat
deriving DecidableEq, Repr

/-- get_negative_expire_time, /repo/src/resolver.c:33-39 -/
def negativeExpire (c : LookupCfg) (now : Nat) : Nat := now + (if c.retry ≠ 0 then c.retry else c.resolverRetry)

/-- What a look-up leads to: the records the backends are made of from now on (`none`: the backends are left alone) and the time of the next look-up, if any -/
structure Looked (α : Type) where
  records : Option (List α)
  next : Option Nat
deriving DecidableEq, Repr

/-- backend_matrix_addr_update and backend_matrix_srv_update, /repo/src/dynbe.c:86-155, 22-38, 62-69, with the next look-up scheduled by the update (477-484, 678-684) for a
backend that is not disabled.  The clock is read once.  -/
def afterLookup {α} (c : LookupCfg) (now : Nat) (r : DnsStatus × Option (Nat × List α)) : Looked α :=
  match r.1 with
  | .notFound => ⟨some [], some (if c.override ≠ 0 then now + c.override else negativeExpire c now)⟩
  | .success =>
    match r.2 with
    | some (e, l) => ⟨some l, some (if c.override ≠ 0 then now + c.override else e)⟩
    | none => ⟨some [], none⟩
  | .tempFailure => ⟨none, some (negativeExpire c now)⟩
  | .failure => ⟨none, none⟩

/-- backend_matrix_addr_update, /repo/src/dynbe.c:86-120 -/
def lookupAddrs (q : Dns) (room : Nat) (c : LookupCfg) (now : Nat) (name : Bytes) (f : DnsFamily) : Res (Looked Bytes) :=
  match dnsAddrLookup q room c.chain name f with
  | .ub => .ub
  | .ok r => .ok (afterLookup c now r)

/-- backend_matrix_srv_update, /repo/src/dynbe.c:122-155 -/
def lookupSrv (q : Dns) (room : Nat) (c : LookupCfg) (now : Nat) (sort : List SrvRec → List SrvRec) (name : Bytes) : Res (Looked SrvRec) :=
  match dnsSrvLookup q room c.chain sort name with
  | .ub => .ub
  | .ok r => .ok (afterLookup c now r)

end Pound
