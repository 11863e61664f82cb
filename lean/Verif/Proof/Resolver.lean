import Verif.Spec.Resolver

namespace Pound
open Spec

theorem adnsToDns_ne {e : Nat} (he : e ≠ 0) : adnsToDns e ≠ .success := by
  have ht : ∀ s, adnsTab e = some s → s ≠ .success := by
    intro s
    unfold adnsTab
    repeat' split
    all_goals (intro h; cases h)
    all_goals first | contradiction | (intro h; cases h)
  unfold adnsToDns
  split
  · rename_i s hs; exact ht s hs
  · repeat' split
    all_goals (intro h; cases h)

theorem errnoToDns_code (s : DnsStatus) (h : s ≠ .success) : errnoToDns s.code = .failure := by
  cases s
  · exact absurd rfl h
  all_goals rfl

theorem count_ne {t : AdnsType} {a : AdnsAnswer} : a.count t ≠ 0 ↔ HasRecords t a := by
  unfold HasRecords AdnsAnswer.count
  cases t <;> simp

theorem dnsQuery_plain (q : Dns) (room chain n name t) (h : chain ≤ 1 ∨ ¬ ChainAns (q n name t)) :
    dnsQuery q room chain n name t = .ok (q n name t) := by
  unfold dnsQuery
  split
  · rename_i e he; rw [he]
  · rename_i a ha
    rw [if_neg, ha]
    rintro ⟨h1, h2⟩
    rcases h with h | h
    · omega
    · exact h ⟨a, ha, h1⟩

theorem generic_found {q : Dns} {room chain n name t a} (h : FoundAns t (q n name t) a) :
    dnsGeneric q room chain n name t = .ok (.success, some a) := by
  obtain ⟨h1, h2, h3⟩ := h
  unfold dnsGeneric
  rw [dnsQuery_plain q room chain n name t (.inr (by rintro ⟨b, hb, hs⟩; rw [h1] at hb; cases hb; omega)), h1]
  simp [h2, count_ne.mpr h3]

theorem generic_absent {q : Dns} {room chain n name t} (h : AbsentAns t (q n name t)) :
    dnsGeneric q room chain n name t = .ok (.notFound, none) := by
  obtain ⟨a, h1, h2⟩ := h
  unfold dnsGeneric
  rw [dnsQuery_plain q room chain n name t (.inr (by rintro ⟨b, hb, hs⟩; rw [h1] at hb; cases hb; omega)), h1]
  rcases h2 with h2 | h2 | ⟨h2, h3⟩
  · simp [h2, adnsToDns, adnsTab]
  · simp [h2, adnsToDns, adnsTab]
  · have : a.count t = 0 := by
      cases hc : a.count t with
      | zero => rfl
      | succ k => exact absurd (count_ne.mp (by omega)) h3
    simp [h2, this]

theorem generic_status {q : Dns} {room chain n name t a} (h : q n name t = .ans a) (h0 : a.status ≠ 0) (hc : a.status ≠ 101 ∨ chain ≤ 1) :
    dnsGeneric q room chain n name t = .ok (adnsToDns a.status, none) := by
  unfold dnsGeneric
  rw [dnsQuery_plain q room chain n name t (by
    rcases hc with hc | hc
    · exact .inr (by rintro ⟨b, hb, hs⟩; rw [h] at hb; cases hb; omega)
    · exact .inl hc), h]
  simp [h0]

theorem generic_temporary {q : Dns} {room chain n name t} (h : TemporaryAns (q n name t)) :
    dnsGeneric q room chain n name t = .ok (.tempFailure, none) := by
  obtain ⟨a, h1, h2⟩ := h
  rw [generic_status h1 (by omega) (.inl (by omega))]
  rcases h2 with h2 | h2 | h2 <;> simp [h2, adnsToDns, adnsTab]

theorem generic_permanent {q : Dns} {room chain n name t} (h : PermanentAns (q n name t)) :
    dnsGeneric q room chain n name t = .ok (.failure, none) := by
  obtain ⟨a, h1, h2⟩ := h
  simp only [List.mem_cons, List.not_mem_nil, or_false] at h2
  rw [generic_status h1 (by omega) (.inl (by omega))]
  rcases h2 with h2 | h2 | h2 | h2 | h2 | h2 | h2 | h2 <;> simp [h2, adnsToDns, adnsTab]

theorem generic_server {q : Dns} {room chain n name t} (h : ServerFailureAns (q n name t)) :
    dnsGeneric q room chain n name t = .ok (.notFound, none) := by
  obtain ⟨a, h1, h2⟩ := h
  simp only [List.mem_cons, List.not_mem_nil, or_false] at h2
  rw [generic_status h1 (by omega) (.inl (by omega))]
  rcases h2 with h2 | h2 | h2 | h2 | h2 <;> simp [h2, adnsToDns, adnsTab]

theorem generic_errno {q : Dns} {room chain n name t e} (h : q n name t = .err e) (he : e ≠ 0) :
    dnsGeneric q room chain n name t = .ok (.failure, none) := by
  unfold dnsGeneric
  rw [dnsQuery_plain q room chain n name t (.inr (by rintro ⟨b, hb, hs⟩; rw [h] at hb; cases hb)), h]
  dsimp only
  rw [errnoToDns_code _ (adnsToDns_ne he)]

theorem generic_chain_short {q : Dns} {room chain n name t} (h : ChainAns (q n name t)) (hc : chain ≤ 1) :
    dnsGeneric q room chain n name t = .ok (.notFound, none) := by
  obtain ⟨a, h1, h2⟩ := h
  rw [generic_status h1 (by omega) (.inr hc)]
  simp [h2, adnsToDns, adnsTab]

/-- With the block malloc was asked for, following a chain is undefined. -/
theorem generic_chain_ub {q : Dns} {chain n name t} (h : ChainAns (q n name t)) (hc : 2 ≤ chain) (hn : name ≠ []) :
    dnsGeneric q 1 chain n name t = .ub := by
  obtain ⟨a, h1, h2⟩ := h
  unfold dnsGeneric dnsQuery
  simp only [h1]
  rw [if_pos ⟨h2, by omega⟩]
  have : cnameInstall 1 [] name = .ub := by
    unfold cnameInstall
    rw [if_pos]
    cases name with
    | nil => exact absurd rfl hn
    | cons => simp
  rw [this]

theorem ciEq_rfl' (a : Bytes) : ciEq a a = true := by simp [ciEq]

theorem cnameLoop_same {q : Dns} {room name t ans c} (hq : ∀ n, ∃ a, q n name .cname = .ans a ∧ a.status = 0 ∧ a.alias = c) (left n : Nat) (tab : List Bytes) (hl : 2 ≤ left) :
    cnameLoop q room name t ans left n tab = .ub ∨ cnameLoop q room name t ans left n tab = .ok (.ans ans) := by
  match left, hl with
  | l + 2, _ =>
    obtain ⟨a, h1, h2, h3⟩ := hq n
    obtain ⟨a', h1', h2', h3'⟩ := hq (n + 1)
    unfold cnameLoop
    simp only [h1, h2, h3, if_true]
    unfold cnameInstall
    split
    · rename_i x hx; exact .inl rfl
    · exact .inr rfl
    · rename_i tab' hx
      unfold cnameLoop
      simp only [h1', h2', h3', if_true]
      split at hx
      · cases hx
      · rename_i hr
        split at hx
        · cases hx
        · cases hx
          have : cnameInstall room (tab ++ [c]) c = .ok none := by
            unfold cnameInstall
            rw [if_neg hr, if_pos]
            simp [ciEq_rfl']
          rw [this]
          exact .inr rfl

/-- Whatever malloc gives, a chain of two or more aliases ends in no records. -/
theorem generic_chain_never {q : Dns} {z room chain n name t c c'} (hz : AnswersFrom q z) (ht : t ≠ .cname) (h1 : z.alias name = some c) (h2 : z.alias c = some c') :
    dnsGeneric q room chain n name t = .ub ∨ dnsGeneric q room chain n name t = .ok (.notFound, none) := by
  have hch : ∀ m, ChainAns (q m name t) := by
    intro m
    have := (hz m name).1 t ht
    simpa only [h1, h2] using this
  have hcn : ∀ m, ∃ a, q m name .cname = .ans a ∧ a.status = 0 ∧ a.alias = c := by
    intro m
    have := (hz m name).2
    simpa only [h1] using this
  by_cases hc : chain ≤ 1
  · exact .inr (generic_chain_short (hch n) hc)
  · obtain ⟨a, ha, hs⟩ := hch n
    by_cases hr : room < name.length + 1
    · refine .inl ?_
      unfold dnsGeneric dnsQuery
      simp only [ha]
      rw [if_pos ⟨hs, by omega⟩]
      simp [cnameInstall, hr]
    · have hq : dnsQuery q room chain n name t = cnameLoop q room name t a (chain + 1) (n + 1) [name] := by
        unfold dnsQuery
        simp only [ha]
        rw [if_pos ⟨hs, by omega⟩]
        simp [cnameInstall, hr]
      unfold dnsGeneric
      rw [hq]
      rcases cnameLoop_same (room := room) (t := t) (ans := a) hcn (chain + 1) (n + 1) [name] (by omega) with h | h
      · rw [h]; exact .inl rfl
      · rw [h]; simp [hs, adnsToDns, adnsTab]

theorem generic_total {q : Dns} {room chain n name t} (h : chain ≤ 1 ∨ ¬ ChainAns (q n name t)) : ∃ r, dnsGeneric q room chain n name t = .ok r := by
  unfold dnsGeneric
  rw [dnsQuery_plain q room chain n name t h]
  cases q n name t with
  | err e => exact ⟨_, rfl⟩
  | ans a =>
    dsimp only
    repeat' split
    all_goals exact ⟨_, rfl⟩

/-- A status without an answer is never success. -/
theorem generic_ne_success {q : Dns} {room chain n name t r} (h : dnsGeneric q room chain n name t = .ok r) (hn : r.2 = none) (he : ∀ m t', q m name t' ≠ .err 0) : r.1 ≠ .success := by
  have hloop : ∀ left n tab ans, cnameLoop q room name t ans left n tab ≠ .ok (.err 0) := by
    intro left
    induction left with
    | zero => intro n tab ans hx; simp [cnameLoop] at hx
    | succ l ih =>
      intro n tab ans hx
      unfold cnameLoop at hx
      split at hx
      · rename_i e hq; cases hx; exact he _ _ hq
      · split at hx
        · split at hx
          · cases hx
          · cases hx
          · exact ih _ _ _ hx
        · split at hx
          · exact he _ _ (by injection hx)
          · cases hx
  unfold dnsGeneric at h
  split at h
  · cases h
  · rename_i e hq
    cases h
    have : e ≠ 0 := by
      rintro rfl
      unfold dnsQuery at hq
      split at hq
      · rename_i e hq'; cases hq; exact he _ _ hq'
      · split at hq
        · split at hq
          · cases hq
          · cases hq
          · exact hloop _ _ _ _ hq
        · cases hq
    show errnoToDns _ ≠ _
    rw [errnoToDns_code _ (adnsToDns_ne this)]
    intro h; cases h
  · split at h
    · cases h; exact adnsToDns_ne (by assumption)
    · split at h
      · cases h; simp
      · cases h; cases hn

theorem generic_none {q : Dns} {room chain n name t} (h : chain ≤ 1 ∨ ¬ ChainAns (q n name t)) (hf : ∀ a, ¬ FoundAns t (q n name t) a) :
    ∃ s, dnsGeneric q room chain n name t = .ok (s, none) := by
  unfold dnsGeneric
  rw [dnsQuery_plain q room chain n name t h]
  cases hq : q n name t with
  | err e => exact ⟨_, rfl⟩
  | ans a =>
    dsimp only
    split
    · exact ⟨_, rfl⟩
    · split
      · exact ⟨_, rfl⟩
      · exact absurd ⟨hq, by omega, count_ne.mp (by assumption)⟩ (hf a)

theorem lookup_one {q : Dns} {room c now name f t r} (hf : OneFamily f t) (h : dnsGeneric q room c.chain 0 name t = .ok r) :
    lookupAddrs q room c now name f = .ok (afterLookup c now (dnsOne (dnsAns r))) := by
  unfold lookupAddrs dnsAddrLookup
  rcases hf with ⟨rfl, rfl⟩ | ⟨rfl, rfl⟩
  all_goals (dsimp only; rw [h])

theorem lookup_one_ub {q : Dns} {room c now name f t} (hf : OneFamily f t) (h : dnsGeneric q room c.chain 0 name t = .ub) :
    lookupAddrs q room c now name f = .ub := by
  unfold lookupAddrs dnsAddrLookup
  rcases hf with ⟨rfl, rfl⟩ | ⟨rfl, rfl⟩
  all_goals (dsimp only; rw [h])

theorem lookup_both {q : Dns} {room c now name r4 r6} (h4 : dnsGeneric q room c.chain 0 name .a = .ok r4)
    (h6 : dnsGeneric q room c.chain (secondLookup c.chain) name .aaaa = .ok r6) :
    lookupAddrs q room c now name .unspec = .ok (afterLookup c now (dnsBoth (dnsAns r4) (dnsAns r6))) := by
  unfold lookupAddrs dnsAddrLookup
  dsimp only
  rw [h4]
  dsimp only
  rw [h6]

theorem lookup_srv {q : Dns} {room c now sort name s a} (h : dnsGeneric q room c.chain 0 name .srv = .ok (s, some a)) :
    lookupSrv q room c now sort name = .ok (afterLookup c now (s, some (a.expires, sort a.srvs))) := by
  unfold lookupSrv dnsSrvLookup
  rw [h]

theorem lookup_srv_none {q : Dns} {room c now sort name s} (h : dnsGeneric q room c.chain 0 name .srv = .ok (s, none)) :
    lookupSrv q room c now sort name = .ok (afterLookup c now (s, none)) := by
  unfold lookupSrv dnsSrvLookup
  rw [h]

theorem nextUpdate (c : LookupCfg) (now e : Nat) : NextUpdate c now e (if c.override ≠ 0 then now + c.override else e) := by
  constructor
  · intro h; simp [h]
  · intro h; simp [h]

theorem nextRetry (c : LookupCfg) (now : Nat) : NextRetry c now (negativeExpire c now) := by
  unfold negativeExpire
  constructor
  · intro h; simp [h]
  · intro h; simp [h]

theorem dnsAns_ne {r : DnsStatus × Option AdnsAnswer} (h : r.2 = none → r.1 ≠ .success) : dnsAns r ≠ .other .success := by
  obtain ⟨s, o⟩ := r
  cases o with
  | some a => intro h; cases h
  | none =>
    intro h'
    have : s = .success := by simpa [dnsAns] using h'
    exact h rfl this

theorem dnsOne_success {a : DnsAns} (h : a ≠ .other .success) : (dnsOne a).1 = .success → (dnsOne a).2 ≠ none := by
  cases a with
  | addrs e l => intro _ h; cases h
  | other s => intro h'; exact absurd (congrArg DnsAns.other h') h

theorem dnsBoth_success {a b : DnsAns} (ha : a ≠ .other .success) (hb : b ≠ .other .success) : (dnsBoth a b).1 = .success → (dnsBoth a b).2 ≠ none := by
  cases a with
  | addrs e l =>
    cases b with
    | addrs => intro _ h; cases h
    | other s => cases s <;> (intro _ h; cases h)
  | other s =>
    cases b with
    | addrs => intro _ h; cases h
    | other s' =>
      cases s' with
      | success => exact absurd rfl hb
      | failure => intro h; cases h
      | tempFailure => intro h; exact absurd (congrArg DnsAns.other h) ha
      | notFound => intro h; cases h

theorem addr_success {q : Dns} {room chain name f r} (he : ∀ m t', q m name t' ≠ .err 0) (h : dnsAddrLookup q room chain name f = .ok r) :
    r.1 = .success → r.2 ≠ none := by
  have key : ∀ {n t x}, dnsGeneric q room chain n name t = .ok x → dnsAns x ≠ .other .success :=
    fun hx => dnsAns_ne fun hn => generic_ne_success hx hn he
  unfold dnsAddrLookup at h
  cases f with
  | inet =>
    dsimp only at h
    split at h
    · cases h
    · rename_i hx; cases h; exact dnsOne_success (key hx)
  | inet6 =>
    dsimp only at h
    split at h
    · cases h
    · rename_i hx; cases h; exact dnsOne_success (key hx)
  | unspec =>
    dsimp only at h
    split at h
    · cases h
    · rename_i hx
      split at h
      · cases h
      · rename_i hy; cases h; exact dnsBoth_success (key hx) (key hy)

end Pound
