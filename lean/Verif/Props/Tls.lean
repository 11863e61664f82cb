import Verif.Proof.Tls

/-!
C40, C49, C60, C61: renegotiation, certificates, time-outs.
-/

namespace Pound.Props
open Spec

/-! ### C40 -/

/-- A connection whose client renegotiates is refused, unless the listener allows it; and no other is. -/
theorem C40_refused (timeout : Nat) (evs : List ConnEv) : ((newConn 0 timeout).run evs).1.reneg = .abort ↔ Renegotiated evs := by
  rw [run_reneg, ← renegotiated_iff]
  rfl

/-- From then on nothing is read from it or written to it, whatever happens. -/
theorem C40_dead (timeout : Nat) (pre post : List ConnEv) (ht : timeout ≤ 2147483) (h : Renegotiated pre) :
    ∃ rs, ((newConn 0 timeout).run (pre ++ post)).2 = ((newConn 0 timeout).run pre).2 ++ rs ∧ rs.length = (post.filter fun | .io _ => true | .info _ => false).length ∧
      ∀ r ∈ rs, r = .aborted ∨ r = .timedOutBefore := by
  refine ⟨(((newConn 0 timeout).run pre).1.run post).2, by rw [run_append], ?_, ?_⟩
  · generalize ((newConn 0 timeout).run pre).1 = c
    clear h ht
    induction post generalizing c with
    | nil => rfl
    | cons e t ih =>
      have hr : c.run (e :: t) = (((c.step e).1.run t).1, (c.step e).2.toList ++ ((c.step e).1.run t).2) := rfl
      rw [hr]
      cases e with
      | info e => simpa [ConnSt.step] using ih _
      | io p => simpa [ConnSt.step] using ih _
  · exact run_aborted post _ ((C40_refused timeout pre).mpr h) (run_good pre _ (newConn_good ht))

/-- An operation is refused only after a renegotiation, on a listener that does not allow it. -/
theorem C40_only (allow timeout : Nat) (evs : List ConnEv) (h : .aborted ∈ ((newConn allow timeout).run evs).2) : allow = 0 ∧ Renegotiated evs := by
  have key : ∀ (evs : List ConnEv) (c : ConnSt), .aborted ∈ (c.run evs).2 → (c.run evs).1.reneg = .abort := by
    intro evs
    induction evs with
    | nil => intro c h; cases h
    | cons e t ih =>
      intro c h
      have hr : c.run (e :: t) = (((c.step e).1.run t).1, (c.step e).2.toList ++ ((c.step e).1.run t).2) := rfl
      rw [hr] at h ⊢
      rcases List.mem_append.mp h with h | h
      · cases e with
        | info e => cases h
        | io p =>
          have h1 : IoRes.aborted = (bioCallback c.timeout c.reneg p).1 := by
            have : (c.step (.io p)).2 = some (bioCallback c.timeout c.reneg p).1 := rfl
            rw [this] at h
            simpa using h
          have h2 := bio_aborted h1.symm
          show ((c.step (.io p)).1.run t).1.reneg = _
          rw [run_reneg]
          show (infos t).foldl sslInfo c.reneg = _
          rw [h2]
          exact (fold_fixed _).1
      · exact ih _ h
  have h1 := key _ _ h
  by_cases ha : allow = 0
  · subst ha
    exact ⟨rfl, (C40_refused _ _).mp h1⟩
  · exfalso
    rw [run_reneg] at h1
    have : (newConn allow timeout).reneg = .allow := by unfold newConn renegStart; rw [if_pos ha]
    rw [this, (fold_fixed _).2] at h1
    cases h1

/-- Not met: the states are those of old libraries.  With OpenSSL 1.1 and later, where reading a client hello is state 20, a client may renegotiate as often as it likes. -/
theorem C40_numbering_fails (timeout : Nat) (evs : List ConnEv) (h : ∀ e ∈ infos evs, e.state < 50) : ((newConn 0 timeout).run evs).1.reneg ≠ .abort ∧
    .aborted ∉ ((newConn 0 timeout).run evs).2 := by
  have hn : ¬ Renegotiated evs := by
    rintro ⟨a, d, b, x, c, he, -, -, hs⟩
    have := h x (by rw [he]; simp)
    rcases hs with hs | hs <;> rw [hs] at this <;> exact absurd this (by decide)
  exact ⟨fun hh => hn ((C40_refused _ _).mp hh), fun hh => hn (C40_only _ _ _ hh).2⟩

-- a handshake with a retry (two hellos) is fine; a second one is refused
example : ((newConn 0 10).run [.info ⟨0x2001, 0x2110⟩, .info ⟨0x2001, 0x2110⟩, .info ⟨0x20, 3⟩, .io [.ready], .info ⟨0x2001, 0x2110⟩, .io [.ready]]).2 = [.go, .aborted] := by decide
example : Renegotiated [.info ⟨0x20, 3⟩, .io [.ready], .info ⟨0x2001, 0x2110⟩] := ⟨[], ⟨0x20, 3⟩, [], ⟨0x2001, 0x2110⟩, [], rfl, rfl, Or.inl rfl, Or.inl rfl⟩
example : ((newConn 1 10).run [.info ⟨0x20, 3⟩, .info ⟨0x2001, 0x2110⟩, .io [.ready]]).2 = [.go] := by decide
example : ((newConn 0 10).run [.info ⟨0x20, 3⟩, .info ⟨0x2001, 20⟩, .io [.ready]]).2 = [.go] := by decide

/-! ### C49 -/

/-- The certificate presented is the first configured one with a name matching the one asked for, else the first one. -/
theorem C49_chosen (fnm : Bytes → Bytes → Bool) (name : Bytes) (c0 : Cert) (cs : List Cert) (l : List PoundCtx) (hl : loadCerts (c0 :: cs) = some l) :
    ∃ id, connCert fnm (some name) l = .ok id ∧ (FirstMatch fnm name (c0 :: cs) id ∨ (∀ c ∈ c0 :: cs, ¬ CertMatches fnm name c) ∧ id = c0.1) := by
  obtain ⟨h1, h2⟩ := sniLoop_spec fnm name _ _ hl
  have hl' := hl
  unfold loadCerts at hl'
  split at hl'
  · rename_i x l' hx _
    cases hl'
    unfold connCert sniServerName
    dsimp only
    cases hs : sniLoop fnm name (x :: l') with
    | some id => exact ⟨id, rfl, Or.inl ((h1 id).mp hs)⟩
    | none => exact ⟨x.ctx, rfl, Or.inr ⟨h2.mp hs, (loadCert_spec hx fnm name).1⟩⟩
  · cases hl'

/-- A client that does not name a server is presented the first. -/
theorem C49_noname (fnm : Bytes → Bytes → Bool) (c0 : Cert) (cs : List Cert) (l : List PoundCtx) (hl : loadCerts (c0 :: cs) = some l) :
    connCert fnm none l = .ok c0.1 := by
  unfold loadCerts at hl
  split at hl
  · rename_i x l' hx _
    cases hl
    show Res.ok x.ctx = _
    rw [(loadCert_spec hx fnm []).1]
  · cases hl

/-- A configuration is accepted if and only if every certificate has a common name. -/
theorem C49_loaded (cs : List Cert) : (loadCerts cs).isSome = true ↔ ∀ c ∈ cs, c.2.1 ≠ [] := by
  induction cs with
  | nil => simp [loadCerts]
  | cons c t ih =>
    obtain ⟨id, cns, san⟩ := c
    have hc : (loadCert id cns san).isSome = true ↔ cns ≠ [] := by cases cns <;> simp [loadCert]
    have : (loadCerts ((id, cns, san) :: t)).isSome = ((loadCert id cns san).isSome && (loadCerts t).isSome) := by
      conv => lhs; unfold loadCerts
      cases loadCert id cns san <;> cases loadCerts t <;> rfl
    rw [this, Bool.and_eq_true, hc, ih]
    simp

example : loadCerts [(1, [b!"a.org"], []), (2, [b!"b.org"], [b!"c.org", b!"d.org"])] = some [⟨1, b!"a.org", []⟩, ⟨2, b!"b.org", [b!"d.org", b!"c.org"]⟩] := by decide
example : connCert (fun a b => a == b) (some b!"c.org") [⟨1, b!"a.org", []⟩, ⟨2, b!"b.org", [b!"d.org", b!"c.org"]⟩] = .ok 2 := by decide
example : connCert (fun a b => a == b) (some b!"x.org") [⟨1, b!"a.org", []⟩, ⟨2, b!"b.org", [b!"d.org", b!"c.org"]⟩] = .ok 1 := by decide

/-! ### C61 -/

/-- A plain name is matched by itself alone, byte by byte. -/
theorem C61_plain_partial (fnm : Bytes → Bytes → Bool) (hf : FnOk fnm) (n name : Bytes) (hn : Plain n) : fnm n name = true ↔ n = name := by
  rw [hf n name hn.2.2.1 hn.2.2.2, glob_plain ⟨hn.1, hn.2.1⟩]

/-- A leading "*." stands for one or more labels. -/
theorem C61_star_partial (fnm : Bytes → Bytes → Bool) (hf : FnOk fnm) (d name : Bytes) (hd : Plain d) :
    fnm (b!"*." ++ d) name = true ↔ ∃ x, name = x ++ b!"." ++ d := by
  have hp : ch%'[' ∉ b!"*." ++ d ∧ ch%'\\' ∉ b!"*." ++ d := by
    constructor
    · intro h; rcases List.mem_append.mp h with h | h
      · exact absurd h (by decide)
      · exact hd.2.2.1 h
    · intro h; rcases List.mem_append.mp h with h | h
      · exact absurd h (by decide)
      · exact hd.2.2.2 h
  rw [hf _ _ hp.1 hp.2]
  have hq : ch%'*' ∉ ch%'.' :: d ∧ ch%'?' ∉ ch%'.' :: d := by
    constructor
    · intro h; rcases List.mem_cons.mp h with h | h
      · exact absurd h (by decide)
      · exact hd.1 h
    · intro h; rcases List.mem_cons.mp h with h | h
      · exact absurd h (by decide)
      · exact hd.2.1 h
  constructor
  · intro hg
    have : b!"*." ++ d = ch%'*' :: (ch%'.' :: d) := rfl
    rw [this] at hg
    generalize hP : ch%'*' :: (ch%'.' :: d) = P at hg
    cases hg with
    | nil => cases hP
    | star x hg =>
      cases hP
      exact ⟨x, by rw [← (glob_plain hq).mp hg]; simp⟩
    | any => exact absurd (List.cons.inj hP).1 (by decide)
    | lit c h1 _ _ => exact absurd (List.cons.inj hP).1.symm h1
  · rintro ⟨x, rfl⟩
    have h2 := Glob.star x ((glob_plain (s := ch%'.' :: d) hq).mpr rfl)
    simpa using h2

/-- So a name that differs from a host name in case only is not recognised ... -/
theorem C61_case_fails (fnm : Bytes → Bytes → Bool) (hf : FnOk fnm) : HostMatches b!"www.example.org" b!"WWW.example.org" ∧
    connCert fnm (some b!"WWW.example.org") [⟨1, b!"other.org", []⟩, ⟨2, b!"www.example.org", []⟩] = .ok 1 := by
  refine ⟨Or.inl (by decide), ?_⟩
  have h1 : fnm b!"other.org" b!"WWW.example.org" = false := by
    rw [← Bool.not_eq_true, C61_plain_partial fnm hf _ _ ⟨by decide, by decide, by decide, by decide⟩]; decide
  have h2 : fnm b!"www.example.org" b!"WWW.example.org" = false := by
    rw [← Bool.not_eq_true, C61_plain_partial fnm hf _ _ ⟨by decide, by decide, by decide, by decide⟩]; decide
  simp only [connCert, sniServerName, sniLoop, h1, h2, List.any_nil, Bool.false_eq_true, if_false]

/-- ... and a wildcard certificate is presented for names more than one label deeper, for which no client accepts it, though a later one is made for them. -/
theorem C61_wildcard_fails (fnm : Bytes → Bytes → Bool) (hf : FnOk fnm) : ¬ HostMatches b!"*.example.org" b!"a.b.example.org" ∧
    HostMatches b!"*.b.example.org" b!"a.b.example.org" ∧
    connCert fnm (some b!"a.b.example.org") [⟨1, b!"*.example.org", []⟩, ⟨2, b!"*.b.example.org", []⟩] = .ok 1 := by
  refine ⟨?_, ?_, ?_⟩
  · rintro (h | ⟨d, l, h, hp, hh, hl, hd, hc⟩)
    · exact absurd h (by decide)
    · have e1 : d = b!"example.org" := (List.append_cancel_left (as := b!"*.") (show b!"*." ++ b!"example.org" = _ from hp)).symm
      subst e1
      have hlen := ciEq_length hc
      have : (b!"a.b.example.org").length = (l ++ b!"." ++ h).length := by rw [← hh]
      have h3 : l.length = 3 := by
        simp only [List.length_append] at this
        rw [← hlen] at this
        simp only [List.length_cons, List.length_nil] at this
        omega
      have h4 : l = (b!"a.b.example.org").take 3 := by rw [hh, ← h3]; simp
      rw [h4] at hd
      exact hd (by decide)
  · exact Or.inr ⟨b!"b.example.org", b!"a", b!"b.example.org", rfl, rfl, by decide, by decide, by decide⟩
  · have h1 : fnm b!"*.example.org" b!"a.b.example.org" = true :=
      (C61_star_partial fnm hf b!"example.org" _ ⟨by decide, by decide, by decide, by decide⟩).mpr ⟨b!"a.b", rfl⟩
    simp only [connCert, sniServerName, sniLoop, h1, if_true]

open Classical in
example : ∃ fnm, FnOk fnm := ⟨fun p s => decide (Glob p s), fun p s _ _ => by simp⟩
example : Plain b!"www.example.org" := ⟨by decide, by decide, by decide, by decide⟩

/-! ### C60 -/

/-- Once an operation timed out, no later one on the same connection is carried out. -/
theorem C60_once (allow timeout : Nat) (ht : timeout ≤ 2147483) (pre post : List ConnEv) (polls : List PollRes)
    (h : (bioCallback ((newConn allow timeout).run pre).1.timeout ((newConn allow timeout).run pre).1.reneg polls).1 = .timedOut) :
    ∃ rs, ((newConn allow timeout).run (pre ++ .io polls :: post)).2 = ((newConn allow timeout).run pre).2 ++ .timedOut :: rs ∧ ∀ r ∈ rs, r = .timedOutBefore := by
  rw [run_append]
  generalize hc : ((newConn allow timeout).run pre).1 = c at *
  refine ⟨((c.step (.io polls)).1.run post).2, ?_, ?_⟩
  · have hr : c.run (.io polls :: post) = (((c.step (.io polls)).1.run post).1, [(bioCallback c.timeout c.reneg polls).1] ++ ((c.step (.io polls)).1.run post).2) := rfl
    rw [hr, h]; rfl
  · refine run_dead post _ ?_
    show (bioCallback c.timeout c.reneg polls).2 = -1
    have hg : GoodTo c.timeout := by rw [← hc]; exact run_good _ _ (newConn_good ht)
    rw [(bio_good hg _ _).2.2, if_pos h]

/-- With a limit, an operation is carried out exactly if its descriptor becomes ready before the time is over. -/
theorem C60_ready (timeout : Nat) (h0 : 0 < timeout) (ht : timeout ≤ 2147483) (s : Reneg) (hs : s ≠ .abort) (polls : List PollRes) :
    ((bioCallback timeout s polls).1 = .go ↔ ∃ n rest, polls = List.replicate n .intr ++ .ready :: rest) ∧
    ((bioCallback timeout s polls).1 = .timedOut ↔ ∃ n rest, polls = List.replicate n .intr ++ .timeout :: rest) := by
  have hg : GoodTo (timeout : Int) := ⟨by omega, by omega⟩
  have hb : (bioCallback timeout s polls).1 = pollLoop polls := by
    rw [(bio_good hg s polls).2.1, if_neg (by omega), if_neg hs, if_neg (by omega)]
  rw [hb]
  clear hb
  induction polls with
  | nil =>
    refine ⟨⟨fun h => (by cases h), ?_⟩, ⟨fun h => (by cases h), ?_⟩⟩ <;> (rintro ⟨n, r, h⟩; cases n <;> cases h)
  | cons a r ih =>
    have key : ∀ (x : PollRes), x ≠ .intr → a = .intr → ((∃ n rest, a :: r = List.replicate n .intr ++ x :: rest) ↔ ∃ n rest, r = List.replicate n .intr ++ x :: rest) := by
      intro x hx ha
      constructor
      · rintro ⟨n, rest, h⟩
        cases n with
        | zero => cases h; exact absurd ha hx
        | succ n => rw [List.replicate_succ, List.cons_append] at h; cases h; exact ⟨n, rest, rfl⟩
      · rintro ⟨n, rest, h⟩
        exact ⟨n + 1, rest, by rw [List.replicate_succ, List.cons_append, ← h, ha]⟩
    have key2 : ∀ (x : PollRes), a ≠ .intr → ((∃ n rest, a :: r = List.replicate n .intr ++ x :: rest) ↔ a = x) := by
      intro x ha
      constructor
      · rintro ⟨n, rest, h⟩
        cases n with
        | zero => cases h; rfl
        | succ n => rw [List.replicate_succ, List.cons_append] at h; cases h; exact absurd rfl ha
      · rintro rfl; exact ⟨0, r, rfl⟩
    by_cases ha : a = .intr
    · rw [key _ (by decide) ha, key _ (by decide) ha]
      subst ha; exact ih
    · rw [key2 _ ha, key2 _ ha]
      cases a <;> simp_all [pollLoop]

/-- A limit of 0 is none: every operation is carried out, without waiting for the descriptor. -/
theorem C60_none (s : Reneg) (hs : s ≠ .abort) (polls : List PollRes) : (bioCallback 0 s polls).1 = .go := by
  rw [(bio_good ⟨by omega, by omega⟩ s polls).2.1, if_neg (by omega), if_neg hs, if_pos rfl]

/-- Not met: the configuration accepts limits above 2147483 seconds, whose number of milliseconds overflows ... -/
theorem C60_overflow_fails (allow timeout : Nat) (h : 2147484 ≤ timeout) (h2 : timeout < 2 ^ 31) (polls : List PollRes) :
    ((newConn allow timeout).run [.io polls]).2 = [.undefined] := by
  have hc : (newConn allow timeout).timeout = timeout := by unfold newConn; dsimp only; rw [if_pos h2]
  have hr : ((newConn allow timeout).run [.io polls]).2 = [(bioCallback (newConn allow timeout).timeout (newConn allow timeout).reneg polls).1] := rfl
  rw [hr, hc]
  unfold bioCallback
  rw [if_pos (by omega)]

/-- ... and the largest ones become negative, so that every connection fails at once. -/
theorem C60_negative_fails (allow : Nat) (polls : List PollRes) : ((newConn allow 4294967295).run [.io polls]).2 = [.timedOutBefore] := by
  have hc : (newConn allow 4294967295).timeout = -1 := by unfold newConn; dsimp only; decide
  have hr : ((newConn allow 4294967295).run [.io polls]).2 = [(bioCallback (newConn allow 4294967295).timeout (newConn allow 4294967295).reneg polls).1] := rfl
  rw [hr, hc]
  unfold bioCallback
  rw [if_neg (by decide), if_pos (by decide)]

/-- Nor is the time bounded: each interruption by a signal starts it again. -/
theorem C60_interrupt_fails (n timeout : Nat) (h0 : 0 < timeout) (ht : timeout ≤ 2147483) :
    ((newConn 0 timeout).run [.io (List.replicate n .intr)]).2 = [.waiting] := by
  have hc : (newConn 0 timeout).timeout = timeout := by unfold newConn; dsimp only; rw [if_pos (by omega)]
  have hr : ((newConn 0 timeout).run [.io (List.replicate n .intr)]).2 = [(bioCallback (newConn 0 timeout).timeout (newConn 0 timeout).reneg (List.replicate n .intr)).1] := rfl
  have hp : pollLoop (List.replicate n .intr) = .waiting := by
    induction n with
    | zero => rfl
    | succ n ih => rw [List.replicate_succ]; exact ih (by rfl)
  rw [hr, (bio_good (newConn_good ht) _ _).2.1, hc, if_neg (by omega), if_neg (by intro h; cases h), if_neg (by omega), hp]

example : ((newConn 0 10).run [.io [.intr, .ready], .io [.timeout], .io [.ready]]).2 = [.go, .timedOut, .timedOutBefore] := by decide

end Pound.Props
