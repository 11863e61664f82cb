import Verif.Proof.Channel

/-! C88: connections to backends -/

namespace Pound.Props

open Pound Spec

/-- Examples: backends 0 and 1 use HTTP, 2 HTTPS, others are not regular. -/
def c88reg (b : Nat) : Bool := b < 3
def c88https (b : Nat) : Bool := b == 2

/-- First request: backend 0 refuses, 1 is used; second: the connection is kept; third: backend 2 is used, with TLS; fourth: a redirection. -/
def c88l : List BcReq :=
  [⟨false, true, [(0, .refused), (1, .connected .done)], false, false⟩, ⟨false, true, [(1, .connected .done)], false, false⟩, ⟨false, true, [(2, .connected .done)], false, false⟩,
    ⟨false, true, [(3, .family)], false, true⟩]

example : bcConnection c88reg c88https c88l =
    [.ref 0, .use 0, .open 0 0, .use 0, .close 0, .kill 0, .unref 0, .ref 1, .use 1, .open 1 1, .use 1, .use 1, .send 1 1, .use 1, .ref 1, .unref 1, .use 1, .send 1 1, .use 1, .ref 2, .close 1, .use 2, .open 2 2,
      .use 2, .tls 2, .unref 1, .use 2, .send 2 2, .use 2, .ref 3, .untls 2, .close 2, .use 3, .unref 2, .use 3, .unref 3] := by
  decide +kernel

/-- For each client connection, whatever the requests, the backends selected and the outcome of each attempt to connect: each socket is made and closed exactly once, and a request is sent only through an open socket
that was made for the backend in charge of it. -/
theorem C88_sockets (reg https : Nat → Bool) (l : List BcReq) :
    AtAll SocketOk (bcConnection reg https l) ∧ ∀ k b, .open k b ∈ bcConnection reg https l → .close k ∈ bcConnection reg https l := by
  obtain ⟨h1, _, _, h2, _⟩ := bcConnection_inv (M := False) (reg := reg) (https := https) l nofun
  exact ⟨h1, h2⟩

/-- TLS objects are made once, for an open socket, and freed once at most, before it is closed; each is freed if there is memory for the TLS layer. -/
theorem C88_tls_partial (reg https : Nat → Bool) (l : List BcReq) :
    AtAll TlsOk (bcConnection reg https l) ∧ (TlsMemory l → ∀ k, .tls k ∈ bcConnection reg https l → .untls k ∈ bcConnection reg https l) := by
  obtain ⟨_, h1, _, _, h2⟩ := bcConnection_inv (M := TlsMemory l) (reg := reg) (https := https) l id
  exact ⟨h1, h2⟩

example : TlsMemory c88l ∧ .tls 2 ∈ bcConnection c88reg c88https c88l := by
  unfold TlsMemory
  decide +kernel

/-- If there is no memory for the layer, its TLS object is lost. -/
theorem C88_tls_fails : ∃ reg https l k, .tls k ∈ bcConnection reg https l ∧ .untls k ∉ bcConnection reg https l :=
  ⟨c88reg, c88https, [⟨false, true, [(2, .connected .noFilter)], false, false⟩], 0, by decide +kernel, by decide +kernel⟩

/-- A reference to a backend is given back only while it is held (the assertion in backend_unref holds), for all client connections. -/
theorem C88_unref (reg https : Nat → Bool) (l : List BcReq) : AtAll UnrefOk (bcConnection reg https l) := (bcConnection_ref (N := False) (reg := reg) (https := https) l nofun).1

/-- If nothing but refused connections goes wrong, backends are accessed only while a reference is held, and at the end of the client connection all references were given back. -/
theorem C88_refs_partial (reg https : Nat → Bool) (l : List BcReq) (h : OnlyRefused l) :
    AtAll UseOk (bcConnection reg https l) ∧ ∀ b, (bcConnection reg https l).count (.ref b) = (bcConnection reg https l).count (.unref b) :=
  (bcConnection_ref (N := True) (reg := reg) (https := https) l fun _ => h).2 trivial

example : OnlyRefused (c88l.take 3) ∧ (bcConnection c88reg c88https (c88l.take 3)).count (.ref 1) = 2 := by
  unfold OnlyRefused
  decide +kernel

/-- If the TLS handshake with a backend fails, the reference to it is lost. -/
theorem C88_leak_fails : ∃ reg https l b, (bcConnection reg https l).count (.unref b) < (bcConnection reg https l).count (.ref b) ∧ TlsMemory l :=
  ⟨c88reg, c88https, [⟨false, true, [(2, .connected .noHandshake)], false, false⟩], 2, by decide +kernel, by unfold TlsMemory; decide +kernel⟩

/-- If no socket can be made, the backend is accessed after the reference to it was given back. -/
theorem C88_use_fails : ∃ reg https l, ¬ AtAll UseOk (bcConnection reg https l) := by
  refine ⟨c88reg, c88https, [⟨false, true, [(0, .noSocket)], false, false⟩], fun h => ?_⟩
  have := h [.ref 0, .use 0, .unref 0] (.use 0) [] (by decide +kernel)
  exact absurd (show Held 0 [.ref 0, .use 0, .unref 0] from this) (by unfold Held; decide +kernel)

/-- A backend is marked as dead only after a socket was made for it, which was closed without any request being sent through it. -/
theorem C88_kill (reg https : Nat → Bool) (l : List BcReq) : AtAll KillOk (bcConnection reg https l) := (bcConnection_inv (M := False) (reg := reg) (https := https) l nofun).2.2.1

/-- Which backend is in charge of a request, in any state of the client connection: the first one, in the order in which they are selected, that does not refuse; those before it are marked as dead, and no others. -/
theorem C88_first (reg https : Nat → Bool) (l : List (Nat × BcTry)) (s : BcSt) (h : (bcSelect reg https l s).2 = true) :
    ∃ pre b t post, l = pre ++ (b, t) :: post ∧ (∀ x ∈ pre, reg x.1 = true ∧ x.2 = .refused) ∧ (bcSelect reg https l s).1.cur = some b ∧
      ∃ q, (bcSelect reg https l s).1.tr = s.tr ++ q ∧ marked q = pre.map Prod.fst := bcSelect_order l s h

example : (bcSelect c88reg c88https [(0, .refused), (1, .connected .done)] ⟨none, none, 0, []⟩).2 = true := by decide +kernel

/-- connect_nb succeeds if and only if the calls to get and set the flags of the socket succeed and the connection was made, at once or before the time given; then the flags are what they were before. -/
theorem C88_connect (e : NbEnv) (init : Nat) :
    ((connectNb e init).1 = .ok () ↔ (∃ fl, e.getfl = .ok fl) ∧ e.setfl = .ok () ∧ Connected e ∧ e.restore = .ok ()) ∧
      ((connectNb e init).1 = .ok () → e.getfl = .ok init → (connectNb e init).2 = init) := ⟨connectNb_iff e init, connectNb_flags e init⟩

example : (connectNb ⟨.ok 2, .ok (), .error 115, .ok (some 4), .ok 0, .ok ()⟩ 2).1 = .ok () ∧ (connectNb ⟨.ok 2, .ok (), .error 115, .ok (some 12), .ok 111, .ok ()⟩ 2).1 = .error 111 ∧
    (connectNb ⟨.ok 2, .ok (), .error 115, .ok none, .ok 0, .ok ()⟩ 2).1 = .error 110 := ⟨rfl, rfl, rfl⟩

/-- The time-out of a connection is the one given, in milliseconds, if it is at most 2147483 seconds. -/
theorem C88_timeout_partial (to : Nat) : nbTimeout to = some (to * 1000) ↔ to ≤ 2147483 := by
  unfold nbTimeout
  split
  · exact ⟨fun _ => by omega, fun _ => rfl⟩
  · exact ⟨nofun, fun _ => by omega⟩

/-- A larger one, though accepted in the configuration file, overflows. -/
theorem C88_timeout_fails : ∃ to, to < 4294967296 ∧ nbTimeout to = none := ⟨2147484, by decide, by decide⟩

/-- The probe of a dead backend closes the socket that it makes, and finds the backend alive if and only if the connection was made. -/
theorem C88_probe (familyOk socketOk : Bool) (e : NbEnv) (b : Nat) :
    AtAll SocketOk (bcProbe familyOk socketOk e b).2 ∧ (∀ k c, .open k c ∈ (bcProbe familyOk socketOk e b).2 → c = b ∧ .close k ∈ (bcProbe familyOk socketOk e b).2) ∧
      ((bcProbe familyOk socketOk e b).1 = 0 ↔ familyOk = true ∧ socketOk = true ∧ (connectNb e 0).1 = .ok ()) := by
  have hs : AtAll SocketOk [.use b, .open 0 b, .use b, .close 0] := by
    have h1 : AtAll SocketOk ([] ++ [BcEv.use b]) := atAll_snoc (atAll_nil _) trivial
    have h2 : AtAll SocketOk ([.use b] ++ [BcEv.open 0 b]) := atAll_snoc h1 (by simp [SocketOk])
    have h3 : AtAll SocketOk ([.use b, .open 0 b] ++ [BcEv.use b]) := atAll_snoc h2 trivial
    exact atAll_snoc (t := [.use b, .open 0 b, .use b]) h3 ⟨⟨b, by simp⟩, by simp⟩
  have ho : ∀ k c, .open k c ∈ [BcEv.use b, .open 0 b, .use b, .close 0] → c = b ∧ .close k ∈ [BcEv.use b, .open 0 b, .use b, .close 0] := fun k c h => by
    simp at h
    obtain ⟨rfl, rfl⟩ := h
    simp
  unfold bcProbe
  split
  · rename_i hf
    rw [Bool.and_eq_true] at hf
    split
    · rename_i hc
      exact ⟨hs, ho, fun _ => ⟨hf.1, hf.2, hc⟩, fun _ => rfl⟩
    · rename_i x hc
      exact ⟨hs, ho, nofun, fun h => by rw [hc] at h; cases h.2.2⟩
  · rename_i hf
    refine ⟨atAll_snoc (atAll_nil _) trivial, fun k c h => ?_, nofun, fun h => ?_⟩
    · simp at h
    · rw [h.1, h.2.1] at hf; exact absurd rfl hf

example : (bcProbe true true ⟨.ok 2, .ok (), .ok (), .ok none, .ok 0, .ok ()⟩ 0).1 = 0 := rfl

end Pound.Props
