import Verif.Proof.Location
import Verif.Proof.Exchange

/-!
C48: rewriting of Location and Content-Location headers.
-/

namespace Pound.Props
open Spec

/-- With `RewriteLocation 2`, an absolute URL is rewritten exactly if it leads to the backend. -/
theorem C48_backend (e : LocEnv) (v l scheme auth path host : Bytes) (port : Nat) (hu : AbsUrl l scheme auth path) (hp : HostPort scheme auth host port)
    (hm : e.mode = 2) (hf : e.be.addr.fam = 2 ∨ e.be.addr.fam = 10) : (needRewrite e v l).isSome ↔ ToBackend e scheme host port := by
  rw [need_abs hu hp (by omega) hf]
  simp [hm]

/-- A configuration used in the examples: a backend at 10.0.0.3:8080 behind a plain listener at 192.0.2.1:80 -/
def exLoc (mode : Nat) : LocEnv where
  mode := mode
  lstn := ⟨2, 80, [192, 0, 2, 1]⟩
  ltls := false
  lport := 0
  be := ⟨⟨2, 8080, [10, 0, 0, 3]⟩, none, false⟩
  lookup := fun h =>
    if h = b!"10.0.0.3" then some [⟨2, 0, [10, 0, 0, 3]⟩] else if h = b!"192.0.2.1" then some [⟨2, 0, [192, 0, 2, 1]⟩]
    else if h = b!"203.0.113.5" then some [⟨2, 0, [203, 0, 113, 5]⟩] else none

example : AbsUrl b!"HTTP://10.0.0.3:8080/a/b" b!"HTTP" b!"10.0.0.3:8080" b!"/a/b" ∧ HostPort b!"HTTP" b!"10.0.0.3:8080" b!"10.0.0.3" 8080 ∧
    needRewrite (exLoc 2) b!"example.org" b!"HTTP://10.0.0.3:8080/a/b" = some b!"a/b" ∧ needRewrite (exLoc 2) b!"example.org" b!"http://10.0.0.3/a" = none :=
  ⟨⟨rfl, by decide, by decide, by decide⟩, .port (h := b!"10.0.0.3") (ds := b!"8080") (by decide) (by decide) (by decide) (by decide), by decide +kernel, by decide +kernel⟩

/-- Nothing is rewritten with `RewriteLocation 0`, for backends on UNIX sockets, without a Host header, and if the value contains no absolute URL. -/
theorem C48_never (e : LocEnv) (ssl : Bool) (vhost : Option Bytes) (code : HCode) (l : Bytes)
    (h : e.mode = 0 ∨ (e.be.addr.fam ≠ 2 ∧ e.be.addr.fam ≠ 10) ∨ vhost = none ∨ vhost = some [] ∨ ¬ HasUrl l) : locText e ssl vhost code l = none := by
  unfold locText
  cases vhost with
  | none => rfl
  | some v =>
    dsimp only
    split
    · rfl
    · rename_i hm
      cases hn : needRewrite e v l with
      | none => rfl
      | some p =>
        exfalso
        obtain ⟨h1, h2, pre, u, scheme, auth, path, e1, hu, -⟩ := need_sound hn
        rcases h with h | h | h | h | h
        · exact h1 h
        · omega
        · cases h
        · cases h; exact hm (Or.inr rfl)
        · apply h
          refine ⟨pre, scheme, auth ++ path, ?_, hu.http⟩
          rw [e1, hu.text]
          simp

/-- A header that is rewritten gets the protocol of the client's connection and the Host of the request, and keeps the path of the URL in it. -/
theorem C48_path (e : LocEnv) (ssl : Bool) (vhost : Option Bytes) (code : HCode) (l t : Bytes) (h : locText e ssl vhost code l = some t) :
    ∃ pre u scheme auth path v, l = pre ++ u ∧ AbsUrl u scheme auth path ∧ vhost = some v ∧
      t = (if code = .location then b!"Location: " else b!"Content-location: ") ++ (if ssl then b!"https" else b!"http") ++ b!"://" ++ v ++
        (if path = [] then b!"/" else path) := by
  unfold locText at h
  cases vhost with
  | none => cases h
  | some v =>
    dsimp only at h
    split at h
    · cases h
    · split at h
      · cases h
      · rename_i p hn
        cases h
        obtain ⟨-, -, pre, u, scheme, auth, path, e1, hu, hp⟩ := need_sound hn
        refine ⟨pre, u, scheme, auth, path, v, e1, hu, rfl, ?_⟩
        rcases hp with rfl | ⟨rfl, rfl⟩
        · simp
        · simp

example : locText (exLoc 1) true (some b!"example.org") .location b!"http://10.0.0.3:8080/a?b" = some b!"Location: https://example.org/a?b" := by decide +kernel

/-- Headers other than Location and Content-Location do not depend on the setting. -/
theorem C48_others (env : RespEnv) (f : HCode → Bytes → Option Bytes) (s : RespScan) (h : Header) (hc : h.code ≠ .location ∧ h.code ≠ .contLocation) :
    respHeader { env with loc := f } s h = respHeader env s h := by
  unfold respHeader
  cases hh : h.code <;> first | rfl | (exfalso; simp [hh] at hc)

/-- With `RewriteLocation 1`, URLs that lead to the backend are rewritten. Missing: only those and URLs of the listener with another protocol
or port (below). -/
theorem C48_default_partial (e : LocEnv) (v l scheme auth path host : Bytes) (port : Nat) (hu : AbsUrl l scheme auth path) (hp : HostPort scheme auth host port)
    (hm : e.mode = 1) (hf : e.be.addr.fam = 2 ∨ e.be.addr.fam = 10) (hb : ToBackend e scheme host port) : (needRewrite e v l).isSome :=
  (need_abs hu hp (by omega) hf).mpr (Or.inl hb)

/-- With `RewriteLocation 1` (the default), every absolute URL to any host is rewritten, unless its port is the number that is mistaken for the listener's port. -/
theorem C48_foreign_fails (e : LocEnv) (v l scheme auth path host : Bytes) (port : Nat) (hu : AbsUrl l scheme auth path) (hp : HostPort scheme auth host port)
    (hm : e.mode = 1) (hf : e.be.addr.fam = 2 ∨ e.be.addr.fam = 10) (hport : port ≠ e.lport) : (needRewrite e v l).isSome :=
  (need_abs hu hp (by omega) hf).mpr (Or.inr ⟨hm, Or.inr (Or.inr (Or.inl hport))⟩)

/-- For instance a redirection to another site, to which the property does not allow changes -/
theorem C48_foreign_example_fails : locText (exLoc 1) false (some b!"example.org") .location b!"http://203.0.113.5/login" = some b!"Location: http://example.org/login" ∧
    ¬ Rewritable (exLoc 1) b!"example.org" b!"http://203.0.113.5/login" := by
  refine ⟨by decide +kernel, ?_⟩
  rintro ⟨scheme, auth, path, host, port, hu, hp, h⟩
  have h1 := locationMatch_abs hu
  have h2 : locationMatch b!"http://203.0.113.5/login" = some (b!"http", b!"203.0.113.5", b!"/login") := by decide +kernel
  rw [h2] at h1
  cases h1
  obtain ⟨h3, h4⟩ := locPort_spec hp
  have h5 : host = b!"203.0.113.5" := by rw [← h3]; decide
  subst h5
  have hl : (exLoc 1).lookup b!"203.0.113.5" = some [⟨2, 0, [203, 0, 113, 5]⟩] := by decide +kernel
  rcases h with ⟨-, h⟩ | ⟨-, h, -⟩
  · rcases h with ⟨as, a, h6, h7, -, h8, -⟩ | ⟨h6, -⟩
    · rw [hl] at h6; cases h6
      rw [List.mem_singleton.mp h7] at h8
      revert h8; decide
    · rw [hl] at h6; cases h6
  · rcases h with ⟨as, a, h6, h7, -, h8⟩ | h6
    · rw [hl] at h6; cases h6
      rw [List.mem_singleton.mp h7] at h8
      revert h8; decide
    · revert h6; decide

/-- A relative reference that contains the URL of the backend is rewritten, and what precedes the URL is lost. -/
theorem C48_relative_fails : locText (exLoc 2) false (some b!"example.org") .location b!"/login?next=http://10.0.0.3:8080/x" = some b!"Location: http://example.org/x" := by
  decide +kernel

/-- The address of the listener is never recognised: addresses are compared only if they belong to different families. -/
theorem C48_listener_fails (addrs : List SockA) (l : SockA) : isListenerAddress addrs l = false := listener_never addrs l

/-- URLs with an IPv6 address are not taken apart correctly: the host name is cut at the first colon. -/
theorem C48_ipv6_fails (e : LocEnv) (v : Bytes) (hm : e.mode = 2) (hl : e.lookup b!"[2001" = none) (hs : e.be.servername = none) :
    needRewrite e v b!"http://[2001:db8::1]:8080/" = none := by
  unfold needRewrite
  rw [if_neg (by omega)]
  split
  · rfl
  · have h2 : locationMatch b!"http://[2001:db8::1]:8080/" = some (b!"http", b!"[2001:db8::1]:8080", b!"/") := by decide +kernel
    have h3 : b!"[2001:db8::1]:8080".takeWhile notColon = b!"[2001" := by decide
    simp only [h2, h3, hl, hm]
    simp [locToBackend, hl, hs]

end Pound.Props
