import Verif.Spec.Channel

/-! Connections to backends: proofs -/

namespace Pound
open Spec

theorem atAll_nil (P : List BcEv → BcEv → Prop) : AtAll P [] := fun p e q h => by
  cases p <;> cases h

theorem atAll_snoc {P : List BcEv → BcEv → Prop} {t : List BcEv} {e : BcEv} (h : AtAll P t) (he : P t e) : AtAll P (t ++ [e]) := by
  intro p e' q hq
  rcases List.eq_nil_or_concat q with rfl | ⟨q', x, rfl⟩
  · have h1 := List.append_inj' hq rfl
    rw [← h1.1]
    cases h1.2
    exact he
  · rw [List.concat_eq_append, ← List.cons_append, ← List.append_assoc] at hq
    have h1 := List.append_inj' hq rfl
    exact h p e' q' h1.1

/-- What is known of sockets; `own`: the backend that the open socket is for; `M`: there is memory for TLS -/
structure BcInv (M : Prop) (own : Option Nat) (s : BcSt) : Prop where
  sock : AtAll SocketOk s.tr
  tls : AtAll TlsOk s.tr
  kill : AtAll KillOk s.tr
  bound : ∀ k, (∀ b, .open k b ∈ s.tr → k < s.n) ∧ (.close k ∈ s.tr → k < s.n) ∧ (.tls k ∈ s.tr → k < s.n) ∧ (.untls k ∈ s.tr → k < s.n) ∧ (∀ b, .send k b ∈ s.tr → k < s.n)
  chan : ∀ k f, s.chan = some (k, f) → .close k ∉ s.tr ∧ .untls k ∉ s.tr ∧ (f = true → .tls k ∈ s.tr) ∧ ∃ b, own = some b ∧ .open k b ∈ s.tr
  others : ∀ k b, .open k b ∈ s.tr → .close k ∈ s.tr ∨ ∃ f, s.chan = some (k, f)
  freed : M → ∀ k, .tls k ∈ s.tr → .untls k ∈ s.tr ∨ s.chan = some (k, true)

/-- Events that have to do with references only -/
def bcPlain : BcEv → Bool
  | .ref _ => true
  | .unref _ => true
  | .use _ => true
  | _ => false

theorem bc_mem {s : BcSt} {l : List BcEv} {x : BcEv} : x ∈ (s.ev l).tr ↔ x ∈ s.tr ∨ x ∈ l := by
  show x ∈ s.tr ++ l ↔ _
  exact List.mem_append

theorem bc_mem1 {s : BcSt} {e x : BcEv} (h : x ≠ e) : x ∈ (s.ev [e]).tr ↔ x ∈ s.tr := by
  rw [bc_mem, List.mem_singleton]
  exact ⟨fun h' => h'.resolve_right h, Or.inl⟩

theorem bc_ev_cons (s : BcSt) (e : BcEv) (l : List BcEv) : s.ev (e :: l) = (s.ev [e]).ev l := by
  unfold BcSt.ev
  simp

theorem BcInv.plain1 {M own s} (h : BcInv M own s) {e : BcEv} (he : bcPlain e = true) : BcInv M own (s.ev [e]) := by
  have hm : ∀ x, bcPlain x = false → (x ∈ (s.ev [e]).tr ↔ x ∈ s.tr) := by
    intro x hx
    refine bc_mem1 fun e' => ?_
    rw [e', he] at hx
    cases hx
  refine ⟨atAll_snoc h.sock ?_, atAll_snoc h.tls ?_, atAll_snoc h.kill ?_, fun k => ?_, fun k f hc => ?_, fun k b hb => ?_, fun hM k hk => ?_⟩
  · cases e <;> first | trivial | cases he
  · cases e <;> first | trivial | cases he
  · cases e <;> first | trivial | cases he
  · obtain ⟨h1, h2, h3, h4, h5⟩ := h.bound k
    exact ⟨fun b hb => h1 b ((hm _ rfl).1 hb), fun hb => h2 ((hm _ rfl).1 hb), fun hb => h3 ((hm _ rfl).1 hb), fun hb => h4 ((hm _ rfl).1 hb), fun b hb => h5 b ((hm _ rfl).1 hb)⟩
  · obtain ⟨h1, h2, h3, b, h4, h5⟩ := h.chan k f hc
    exact ⟨fun hb => h1 ((hm _ rfl).1 hb), fun hb => h2 ((hm _ rfl).1 hb), fun hf => (hm _ rfl).2 (h3 hf), b, h4, (hm _ rfl).2 h5⟩
  · rcases h.others k b ((hm _ rfl).1 hb) with h1 | h1
    · exact Or.inl ((hm _ rfl).2 h1)
    · exact Or.inr h1
  · rcases h.freed hM k ((hm _ rfl).1 hk) with h1 | h1
    · exact Or.inl ((hm _ rfl).2 h1)
    · exact Or.inr h1

theorem BcInv.plain {M own s} (h : BcInv M own s) (l : List BcEv) (hl : ∀ e ∈ l, bcPlain e = true) : BcInv M own (s.ev l) := by
  induction l generalizing s with
  | nil =>
    have : s.ev [] = s := by unfold BcSt.ev; simp
    rw [this]; exact h
  | cons e t ih =>
    rw [bc_ev_cons]
    exact ih (h.plain1 (hl e List.mem_cons_self)) fun x hx => hl x (List.mem_cons_of_mem _ hx)

/-- The owner does not matter without a channel, and neither does phttp->backend. -/
theorem BcInv.own {M own own' s} (h : BcInv M own s) (hc : s.chan = none) : BcInv M own' s :=
  ⟨h.sock, h.tls, h.kill, h.bound, fun k f e => (by rw [hc] at e; cases e), h.others, h.freed⟩

theorem BcInv.cur {M own s} (h : BcInv M own s) (c : Option Nat) : BcInv M own { s with cur := c } := ⟨h.sock, h.tls, h.kill, h.bound, h.chan, h.others, h.freed⟩

/-- Closing a channel that has no TLS object, or does not free it -/
theorem BcInv.shut {M own own' s k} (h : BcInv M own s) (hc : s.chan = some (k, false)) : BcInv M own' (BcSt.ev { s with chan := none } [.close k]) := by
  obtain ⟨h1, h2, h3, b, h4, h5⟩ := h.chan k false hc
  have hm : ∀ x, x ∈ (BcSt.ev { s with chan := none } [.close k]).tr → x ≠ .close k → x ∈ s.tr := fun x hx hn => (bc_mem1 hn).1 hx
  refine ⟨atAll_snoc h.sock ⟨⟨b, h5⟩, h1⟩, atAll_snoc h.tls trivial, atAll_snoc h.kill trivial, fun j => ?_, nofun, fun j c hj => ?_, fun hM j hj => ?_⟩
  · obtain ⟨g1, g2, g3, g4, g5⟩ := h.bound j
    refine ⟨fun b hb => g1 b (hm _ hb nofun), fun hb => ?_, fun hb => g3 (hm _ hb nofun), fun hb => g4 (hm _ hb nofun), fun b hb => g5 b (hm _ hb nofun)⟩
    rcases bc_mem.1 hb with hb | hb
    · exact g2 hb
    · rw [List.mem_singleton] at hb
      cases hb
      exact (h.bound _).1 _ h5
  · rcases h.others j c (hm _ hj nofun) with g | ⟨f, g⟩
    · exact Or.inl (bc_mem.2 (Or.inl g))
    · rw [hc] at g
      cases g
      exact Or.inl (bc_mem.2 (Or.inr (List.mem_singleton.2 rfl)))
  · rcases h.freed hM j (hm _ hj nofun) with g | g
    · exact Or.inl (bc_mem.2 (Or.inl g))
    · rw [hc] at g; cases g

/-- The TLS object is freed. -/
theorem BcInv.untls {M own s k} (h : BcInv M own s) (hc : s.chan = some (k, true)) :
    AtAll SocketOk (s.ev [.untls k]).tr ∧ AtAll TlsOk (s.ev [.untls k]).tr ∧ AtAll KillOk (s.ev [.untls k]).tr := by
  obtain ⟨h1, h2, h3, b, h4, h5⟩ := h.chan k true hc
  exact ⟨atAll_snoc h.sock trivial, atAll_snoc h.tls ⟨h3 rfl, h2, h1⟩, atAll_snoc h.kill trivial⟩

theorem BcInv.shutTls {M own own' s k} (h : BcInv M own s) (hc : s.chan = some (k, true)) : BcInv M own' (BcSt.ev { s with chan := none } [.untls k, .close k]) := by
  obtain ⟨h1, h2, h3, b, h4, h5⟩ := h.chan k true hc
  obtain ⟨e1, e2, e3⟩ := h.untls hc
  rw [bc_ev_cons]
  have hm0 : ∀ x, x ∈ (s.ev [.untls k]).tr → x ≠ .untls k → x ∈ s.tr := fun x hx hn => (bc_mem1 hn).1 hx
  have hm : ∀ x, x ∈ (BcSt.ev (BcSt.ev { s with chan := none } [.untls k]) [.close k]).tr → x ≠ .untls k → x ≠ .close k → x ∈ s.tr := fun x hm hx hx' => (bc_mem1 hx).1 ((bc_mem1 hx').1 hm)
  refine ⟨atAll_snoc e1 ⟨⟨b, bc_mem.2 (Or.inl h5)⟩, fun g => h1 (hm0 _ g nofun)⟩, atAll_snoc e2 trivial, atAll_snoc e3 trivial, fun j => ?_, nofun, fun j c hj => ?_, fun hM j hj => ?_⟩
  · obtain ⟨g1, g2, g3, g4, g5⟩ := h.bound j
    refine ⟨fun b hb => g1 b (hm _ hb nofun nofun), fun hb => ?_, fun hb => g3 (hm _ hb nofun nofun), fun hb => ?_, fun b hb => g5 b (hm _ hb nofun nofun)⟩
    · rcases bc_mem.1 hb with hb | hb
      · exact g2 (hm0 _ hb nofun)
      · rw [List.mem_singleton] at hb
        cases hb
        exact (h.bound _).1 _ h5
    · rcases bc_mem.1 hb with hb | hb
      · rcases bc_mem.1 hb with hb | hb
        · exact g4 hb
        · rw [List.mem_singleton] at hb
          cases hb
          exact (h.bound _).1 _ h5
      · rw [List.mem_singleton] at hb; cases hb
  · rcases h.others j c (hm _ hj nofun nofun) with g | ⟨f, g⟩
    · exact Or.inl (bc_mem.2 (Or.inl (bc_mem.2 (Or.inl g))))
    · rw [hc] at g
      cases g
      exact Or.inl (bc_mem.2 (Or.inr (List.mem_singleton.2 rfl)))
  · rcases h.freed hM j (hm _ hj nofun nofun) with g | g
    · exact Or.inl (bc_mem.2 (Or.inl (bc_mem.2 (Or.inl g))))
    · rw [hc] at g
      cases g
      exact Or.inl (bc_mem.2 (Or.inl (bc_mem.2 (Or.inr (List.mem_singleton.2 rfl)))))

theorem bcClose_inv {M own s} (own') (h : BcInv M own s) : BcInv M own' (bcClose s) ∧ (bcClose s).chan = none ∧ (bcClose s).cur = s.cur := by
  unfold bcClose
  cases hc : s.chan with
  | none => exact ⟨h.own hc, hc, rfl⟩
  | some p =>
    obtain ⟨k, f⟩ := p
    cases f with
    | false => exact ⟨h.shut hc, rfl, rfl⟩
    | true => exact ⟨h.shutTls hc, rfl, rfl⟩

/-- A socket is made. -/
def bcOpened (b : Nat) (s : BcSt) : BcSt := BcSt.ev { s with n := s.n + 1, chan := some (s.n, false) } [.open s.n b]

theorem bcOpened_inv {M own s} (h : BcInv M own s) (hc : s.chan = none) (b : Nat) : BcInv M (some b) (bcOpened b s) ∧ .tls s.n ∉ (bcOpened b s).tr ∧ ∀ c, .send s.n c ∉ (bcOpened b s).tr := by
  have hm : ∀ x, x ∈ (bcOpened b s).tr → x ≠ .open s.n b → x ∈ s.tr := fun x hx hn => (bc_mem1 hn).1 hx
  have hb := h.bound s.n
  have hn : ∀ x, (x < s.n) → x < (bcOpened b s).n := fun x hx => Nat.lt_succ_of_lt hx
  refine ⟨⟨atAll_snoc h.sock fun c hc => absurd (hb.1 c hc) (Nat.lt_irrefl _), atAll_snoc h.tls trivial, atAll_snoc h.kill trivial, fun j => ?_, fun k f e => ?_, fun j c hj => ?_, fun hM j hj => ?_⟩,
    fun g => absurd (hb.2.2.1 (hm _ g nofun)) (Nat.lt_irrefl _), fun c g => absurd (hb.2.2.2.2 c (hm _ g nofun)) (Nat.lt_irrefl _)⟩
  · obtain ⟨g1, g2, g3, g4, g5⟩ := h.bound j
    refine ⟨fun c hb => ?_, fun hb => hn _ (g2 (hm _ hb nofun)), fun hb => hn _ (g3 (hm _ hb nofun)), fun hb => hn _ (g4 (hm _ hb nofun)), fun b hb => hn _ (g5 b (hm _ hb nofun))⟩
    rcases bc_mem.1 hb with hb | hb
    · exact hn _ (g1 c hb)
    · rw [List.mem_singleton] at hb
      cases hb
      exact Nat.lt_succ_self _
  · cases e
    exact ⟨fun g => absurd (hb.2.1 (hm _ g nofun)) (Nat.lt_irrefl _), fun g => absurd (hb.2.2.2.1 (hm _ g nofun)) (Nat.lt_irrefl _), nofun, b, rfl, bc_mem.2 (Or.inr (List.mem_singleton.2 rfl))⟩
  · rcases bc_mem.1 hj with hj | hj
    · rcases h.others j c hj with g | ⟨f, g⟩
      · exact Or.inl (bc_mem.2 (Or.inl g))
      · rw [hc] at g; cases g
    · rw [List.mem_singleton] at hj
      cases hj
      exact Or.inr ⟨false, rfl⟩
  · rcases h.freed hM j (hm _ hj nofun) with g | g
    · exact Or.inl (bc_mem.2 (Or.inl g))
    · rw [hc] at g; cases g

/-- A TLS object is made; `f`: it is freed with the channel. -/
theorem BcInv.mkTls {M own s k} (h : BcInv M own s) (hc : s.chan = some (k, false)) (ht : .tls k ∉ s.tr) (f : Bool) (hf : M → f = true) : BcInv M own (BcSt.ev { s with chan := some (k, f) } [.tls k]) := by
  obtain ⟨h1, h2, h3, b, h4, h5⟩ := h.chan k false hc
  have hm : ∀ x, x ∈ (BcSt.ev { s with chan := some (k, f) } [.tls k]).tr → x ≠ .tls k → x ∈ s.tr := fun x hx hn => (bc_mem1 hn).1 hx
  refine ⟨atAll_snoc h.sock trivial, atAll_snoc h.tls ⟨⟨b, h5⟩, h1, ht⟩, atAll_snoc h.kill trivial, fun j => ?_, fun j g e => ?_, fun j c hj => ?_, fun hM j hj => ?_⟩
  · obtain ⟨g1, g2, g3, g4, g5⟩ := h.bound j
    refine ⟨fun b hb => g1 b (hm _ hb nofun), fun hb => g2 (hm _ hb nofun), fun hb => ?_, fun hb => g4 (hm _ hb nofun), fun b hb => g5 b (hm _ hb nofun)⟩
    rcases bc_mem.1 hb with hb | hb
    · exact g3 hb
    · rw [List.mem_singleton] at hb
      cases hb
      exact (h.bound _).1 _ h5
  · cases e
    exact ⟨fun g => h1 (hm _ g nofun), fun g => h2 (hm _ g nofun), fun _ => bc_mem.2 (Or.inr (List.mem_singleton.2 rfl)), b, h4, bc_mem.2 (Or.inl h5)⟩
  · rcases h.others j c (hm _ hj nofun) with g | ⟨f', g⟩
    · exact Or.inl (bc_mem.2 (Or.inl g))
    · rw [hc] at g
      cases g
      exact Or.inr ⟨f, rfl⟩
  · rcases bc_mem.1 hj with hj | hj
    · rcases h.freed hM j hj with g | g
      · exact Or.inl (bc_mem.2 (Or.inl g))
      · rw [hc] at g; cases g
    · rw [List.mem_singleton] at hj
      cases hj
      refine Or.inr ?_
      show some (_, f) = some (_, true)
      rw [hf hM]

theorem BcInv.killed {M own s k b} (h : BcInv M own s) (h1 : .open k b ∈ s.tr) (h2 : .close k ∈ s.tr) (h3 : ∀ c, .send k c ∉ s.tr) : BcInv M own (s.ev [.kill b]) := by
  have hm : ∀ x, x ∈ (s.ev [.kill b]).tr → x ≠ .kill b → x ∈ s.tr := fun x hx hn => (bc_mem1 hn).1 hx
  refine ⟨atAll_snoc h.sock trivial, atAll_snoc h.tls trivial, atAll_snoc h.kill ⟨k, h1, h2, h3⟩, fun j => ?_, fun j f e => ?_, fun j c hj => ?_, fun hM j hj => ?_⟩
  · obtain ⟨g1, g2, g3, g4, g5⟩ := h.bound j
    exact ⟨fun b hb => g1 b (hm _ hb nofun), fun hb => g2 (hm _ hb nofun), fun hb => g3 (hm _ hb nofun), fun hb => g4 (hm _ hb nofun), fun b hb => g5 b (hm _ hb nofun)⟩
  · obtain ⟨g1, g2, g3, c, g4, g5⟩ := h.chan j f e
    exact ⟨fun g => g1 (hm _ g nofun), fun g => g2 (hm _ g nofun), fun hf => bc_mem.2 (Or.inl (g3 hf)), c, g4, bc_mem.2 (Or.inl g5)⟩
  · rcases h.others j c (hm _ hj nofun) with g | g
    · exact Or.inl (bc_mem.2 (Or.inl g))
    · exact Or.inr g
  · rcases h.freed hM j (hm _ hj nofun) with g | g
    · exact Or.inl (bc_mem.2 (Or.inl g))
    · exact Or.inr g

theorem BcInv.sent {M s k f b} (h : BcInv M (some b) s) (hc : s.chan = some (k, f)) : BcInv M (some b) (s.ev [.send k b]) := by
  obtain ⟨h1, h2, h3, b', h4, h5⟩ := h.chan k f hc
  cases h4
  have hm : ∀ x, x ∈ (s.ev [.send k b]).tr → x ≠ .send k b → x ∈ s.tr := fun x hx hn => (bc_mem1 hn).1 hx
  refine ⟨atAll_snoc h.sock ⟨h5, h1⟩, atAll_snoc h.tls trivial, atAll_snoc h.kill trivial, fun j => ?_, fun j f e => ?_, fun j c hj => ?_, fun hM j hj => ?_⟩
  · obtain ⟨g1, g2, g3, g4, g5⟩ := h.bound j
    refine ⟨fun b hb => g1 b (hm _ hb nofun), fun hb => g2 (hm _ hb nofun), fun hb => g3 (hm _ hb nofun), fun hb => g4 (hm _ hb nofun), fun c hb => ?_⟩
    rcases bc_mem.1 hb with hb | hb
    · exact g5 c hb
    · rw [List.mem_singleton] at hb
      cases hb
      exact (h.bound _).1 _ h5
  · obtain ⟨g1, g2, g3, c, g4, g5⟩ := h.chan j f e
    exact ⟨fun g => g1 (hm _ g nofun), fun g => g2 (hm _ g nofun), fun hf => bc_mem.2 (Or.inl (g3 hf)), c, g4, bc_mem.2 (Or.inl g5)⟩
  · rcases h.others j c (hm _ hj nofun) with g | g
    · exact Or.inl (bc_mem.2 (Or.inl g))
    · exact Or.inr g
  · rcases h.freed hM j (hm _ hj nofun) with g | g
    · exact Or.inl (bc_mem.2 (Or.inl g))
    · exact Or.inr g

theorem bc_plain1 {s : BcSt} {l : List BcEv} (hl : ∀ e ∈ l, bcPlain e = true) {x : BcEv} (hx : bcPlain x = false) (h : x ∈ (s.ev l).tr) : x ∈ s.tr := by
  rcases bc_mem.1 h with h | h
  · exact h
  · rw [hl x h] at hx; cases hx

/-- After open_backend -/
theorem bcOpenBe_inv {M own s} (https : Bool) (b : Nat) (o : BcOpen) (h : BcInv M own s) (hc : s.chan = none) (hM : M → o ≠ .noFilter) {s' : BcSt} {r : Bool}
    (e : bcOpenBe https s.n b o (BcSt.ev { s with n := s.n + 1 } [.use b, .open s.n b]) = (s', r)) :
    BcInv M (some b) s' ∧ s'.cur = s.cur ∧ (r = true → ∃ f, s'.chan = some (s.n, f)) := by
  have h0 : BcInv M own (s.ev [.use b]) := h.plain [.use b] (by simp [bcPlain])
  obtain ⟨h1, h2, _⟩ := bcOpened_inv (s := s.ev [.use b]) h0 hc b
  have e0 : ∀ l, BcSt.ev { BcSt.ev { s with n := s.n + 1 } [.use b, .open s.n b] with chan := some (s.n, false) } l = (bcOpened b (s.ev [.use b])).ev l := by
    intro l
    unfold bcOpened BcSt.ev
    simp
  have e1 : ∀ l f, BcSt.ev { BcSt.ev { s with n := s.n + 1 } [.use b, .open s.n b] with chan := some (s.n, f) } (.use b :: l) = BcSt.ev { (bcOpened b (s.ev [.use b])).ev [.use b] with chan := some (s.n, f) } l := by
    intro l f
    unfold bcOpened BcSt.ev
    simp
  have h3 : BcInv M (some b) ((bcOpened b (s.ev [.use b])).ev [.use b]) := h1.plain _ (by simp [bcPlain])
  have h4 : .tls s.n ∉ ((bcOpened b (s.ev [.use b])).ev [.use b]).tr := fun g => h2 (bc_plain1 (by simp [bcPlain]) rfl g)
  have h5 : ∀ f, (M → f = true) → BcInv M (some b) (BcSt.ev { BcSt.ev { s with n := s.n + 1 } [.use b, .open s.n b] with chan := some (s.n, f) } [.use b, .tls s.n]) := by
    intro f hf
    rw [e1]
    exact h3.mkTls rfl h4 f hf
  have h6 : BcInv M (some b) (BcSt.ev { BcSt.ev { s with n := s.n + 1 } [.use b, .open s.n b] with chan := some (s.n, false) } [.use b]) := by
    rw [e0]
    exact h3
  cases o with
  | noBio =>
    cases e
    refine ⟨?_, rfl, nofun⟩
    have := h1.shut (own' := some b) rfl
    unfold bcOpened at this
    simpa [BcSt.ev] using this
  | noTls =>
    cases https <;> cases e
    · exact ⟨h6, rfl, fun _ => ⟨_, rfl⟩⟩
    · exact ⟨h6, rfl, nofun⟩
  | noFilter =>
    cases https <;> cases e
    · exact ⟨h6, rfl, fun _ => ⟨_, rfl⟩⟩
    · exact ⟨h5 false fun hm => absurd rfl (hM hm), rfl, nofun⟩
  | noHandshake =>
    cases https <;> cases e
    · exact ⟨h6, rfl, fun _ => ⟨_, rfl⟩⟩
    · exact ⟨h5 true fun _ => rfl, rfl, nofun⟩
  | noBuffer =>
    cases https <;> cases e
    · exact ⟨h6, rfl, nofun⟩
    · exact ⟨h5 true fun _ => rfl, rfl, nofun⟩
  | done =>
    cases https <;> cases e
    · exact ⟨h6, rfl, fun _ => ⟨_, rfl⟩⟩
    · exact ⟨h5 true fun _ => rfl, rfl, fun _ => ⟨_, rfl⟩⟩

theorem bcSet_inv {M own s} (h : BcInv M own s) (b : Nat) : BcInv M own (bcSet b s) ∧ (bcSet b s).cur = some b ∧ (bcSet b s).chan = s.chan := by
  unfold bcSet
  refine ⟨(h.cur (some b)).plain _ ?_, rfl, rfl⟩
  cases s.cur with
  | none => exact nofun
  | some c => simp [bcPlain, bcGive]

/-- Between requests: the channel goes to the current backend, which is a regular one. -/
structure BcGood (M : Prop) (reg : Nat → Bool) (s : BcSt) : Prop where
  inv : BcInv M s.cur s
  kind : ∀ k f b, s.chan = some (k, f) → s.cur = some b → reg b = true

/-- A backend has been selected. -/
def BcSel (reg : Nat → Bool) (s : BcSt) : Prop := ∃ b, s.cur = some b ∧ (reg b = true → ∃ k f, s.chan = some (k, f))

theorem BcGood.none {M reg own s} (h : BcInv M own s) (hc : s.chan = none) : BcGood M reg s := ⟨h.own hc, fun k f b e => by rw [hc] at e; cases e⟩

theorem bcNext_inv {M own s} (h : BcInv M own s) (l : List (Nat × BcTry)) : BcInv M own (bcNext l s) ∧ (bcNext l s).chan = s.chan ∧ (bcNext l s).cur = s.cur := by
  unfold bcNext
  split
  · exact ⟨h, rfl, rfl⟩
  · exact ⟨h.plain _ (by simp [bcPlain]), rfl, rfl⟩

theorem bcLoop_inv {M : Prop} {reg https : Nat → Bool} (l : List (Nat × BcTry)) {own : Option Nat} {s s' : BcSt} {r : Bool} (h : BcInv M own s) (hc : s.chan = none)
    (hM : M → ∀ x ∈ l, x.2 ≠ .connected .noFilter) (e : bcLoop reg https l s = (s', r)) : BcGood M reg s' ∧ (r = true → BcSel reg s') := by
  induction l generalizing own s with
  | nil =>
    cases e
    exact ⟨BcGood.none h hc, nofun⟩
  | cons x l ih =>
    obtain ⟨b, t⟩ := x
    unfold bcLoop at e
    cases hr : reg b with
    | false =>
      rw [hr] at e
      rw [if_neg nofun] at e
      cases e
      obtain ⟨h1, h2, h3⟩ := bcSet_inv (h.plain [.use b] (by simp [bcPlain])) b
      refine ⟨BcGood.none h1 (h3.trans hc), fun _ => ⟨b, h2, fun e => ?_⟩⟩
      rw [hr] at e; cases e
    | true =>
      rw [hr, if_pos rfl] at e
      cases t with
      | family => cases e; exact ⟨BcGood.none (h.plain _ (by simp [bcPlain])) hc, nofun⟩
      | noSocket => cases e; exact ⟨BcGood.none (h.plain _ (by simp [bcPlain])) hc, nofun⟩
      | connected o =>
        dsimp only at e
        cases hb : bcOpenBe (https b) s.n b o (BcSt.ev { s with n := s.n + 1 } [.use b, .open s.n b]) with
        | mk s1 r1 =>
          obtain ⟨h1, h2, h3⟩ := bcOpenBe_inv _ _ _ h hc (fun hm e => hM hm (b, .connected o) List.mem_cons_self (congrArg _ e)) hb
          rw [hb] at e
          cases r1 with
          | true =>
            cases e
            obtain ⟨h4, h5, h6⟩ := bcSet_inv h1 b
            obtain ⟨f, h7⟩ := h3 rfl
            refine ⟨⟨by rw [h5]; exact h4, fun k f c _ e => ?_⟩, fun _ => ⟨b, h5, fun _ => ⟨s.n, f, h6.trans h7⟩⟩⟩
            rw [h5] at e
            cases e
            exact hr
          | false =>
            cases e
            obtain ⟨h4, h5, _⟩ := bcClose_inv none h1
            exact ⟨BcGood.none h4 h5, nofun⟩
      | refused =>
        dsimp only at e
        have h0 := h.plain [.use b] (by simp [bcPlain])
        obtain ⟨h1, h2, h3⟩ := bcOpened_inv (s := s.ev [.use b]) h0 hc b
        have h4 : BcInv M (some b) ((bcOpened b (s.ev [.use b])).ev [.use b]) := h1.plain _ (by simp [bcPlain])
        have h5 := h4.shut (own' := none) (k := s.n) rfl
        have h6 := h5.killed (k := s.n) (b := b) (by unfold bcOpened; simp [BcSt.ev]) (by simp [BcSt.ev]) (fun c g => by
          have g := (bc_mem1 (by exact nofun)).1 g
          exact h3 c (bc_plain1 (by simp [bcPlain]) rfl g))
        have h7 := h6.plain [.unref b] (by simp [bcPlain])
        have e1 : BcSt.ev { s with n := s.n + 1 } [.use b, .open s.n b, .use b, .close s.n, .kill b, .unref b] =
            ((BcSt.ev { (bcOpened b (s.ev [.use b])).ev [.use b] with chan := none } [.close s.n]).ev [.kill b]).ev [.unref b] := by
          unfold bcOpened BcSt.ev
          simp [hc]
        rw [e1] at e
        obtain ⟨h8, h9, _⟩ := bcNext_inv h7 l
        exact ih h8 h9 (fun hm x hx => hM hm x (List.mem_cons_of_mem _ hx)) e

theorem bcSelect_inv {M : Prop} {reg https : Nat → Bool} (l : List (Nat × BcTry)) {s s' : BcSt} {r : Bool} (h : BcGood M reg s)
    (hM : M → ∀ x ∈ l, x.2 ≠ .connected .noFilter) (e : bcSelect reg https l s = (s', r)) : BcGood M reg s' ∧ (r = true → BcSel reg s') := by
  unfold bcSelect at e
  cases l with
  | nil => cases e; exact ⟨h, nofun⟩
  | cons x l =>
    obtain ⟨b, t⟩ := x
    dsimp only at e
    obtain ⟨h1, h2, h3⟩ := bcNext_inv h.inv ((b, t) :: l)
    cases hc : (bcNext ((b, t) :: l) s).chan with
    | none =>
      rw [hc] at e
      exact bcLoop_inv _ h1 hc hM e
    | some p =>
      rw [hc] at e
      dsimp only at e
      split at e
      · rename_i hb
        cases e
        refine ⟨⟨?_, fun k f c e1 e2 => h.kind k f c (h2.symm.trans e1) (h3.symm.trans e2)⟩, fun _ => ⟨b, hb, fun _ => ⟨p.1, p.2, hc⟩⟩⟩
        have := h1.plain [.unref b] (by simp [bcPlain])
        rw [← h3] at this
        exact this
      · obtain ⟨h4, h5, _⟩ := bcClose_inv none h1
        exact bcLoop_inv _ h4 h5 hM e

theorem bcServe_inv {M : Prop} {reg : Nat → Bool} {s : BcSt} (h : BcGood M reg s) (hs : BcSel reg s) (c : Bool) : BcGood M reg (bcServe reg c s) := by
  unfold bcServe
  obtain ⟨b, h1, h2⟩ := hs
  rw [h1]
  dsimp only
  cases hr : reg b with
  | true =>
    obtain ⟨k, f, h3⟩ := h2 hr
    rw [if_pos rfl, h3]
    dsimp only
    have h4 : BcInv M (some b) s := by have := h.inv; rw [h1] at this; exact this
    have h5 : BcInv M (some b) (s.ev [.use b, .send k b, .use b]) := by
      rw [bc_ev_cons, bc_ev_cons]
      exact ((h4.plain [.use b] (by simp [bcPlain])).sent (f := f) h3).plain _ (by simp [bcPlain])
    split
    · obtain ⟨h6, h7, _⟩ := bcClose_inv none h5
      exact BcGood.none h6 h7
    · refine ⟨?_, fun k f c e1 e2 => h.kind k f c e1 e2⟩
      show BcInv M s.cur _
      rw [h1]
      exact h5
  | false =>
    rw [if_neg nofun]
    obtain ⟨h6, h7, _⟩ := bcClose_inv none h.inv
    exact BcGood.none (h6.plain _ (by simp [bcPlain])) h7

theorem bcRequests_inv {M : Prop} {reg https : Nat → Bool} (l : List BcReq) {s : BcSt} (h : BcGood M reg s) (hM : M → TlsMemory l) : BcGood M reg (bcRequests reg https l s) := by
  induction l generalizing s with
  | nil => exact h
  | cons r t ih =>
    unfold bcRequests
    dsimp only
    have h1 : BcGood M reg (if r.readable then bcClose s else s) := by
      split
      · obtain ⟨h6, h7, _⟩ := bcClose_inv none h.inv
        exact BcGood.none h6 h7
      · exact h
    split
    · cases hs : bcSelect reg https r.tries (if r.readable then bcClose s else s) with
      | mk s1 b =>
        obtain ⟨h2, h3⟩ := bcSelect_inv _ h1 (fun hm => hM hm r List.mem_cons_self) hs
        cases b with
        | false => exact h2
        | true =>
          dsimp only
          have h4 := bcServe_inv h2 (h3 rfl) r.closes
          split
          · exact h4
          · exact ih h4 fun hm r hr => hM hm r (List.mem_cons_of_mem _ hr)
    · exact h1

theorem bcConnection_inv {M : Prop} {reg https : Nat → Bool} (l : List BcReq) (hM : M → TlsMemory l) :
    AtAll SocketOk (bcConnection reg https l) ∧ AtAll TlsOk (bcConnection reg https l) ∧ AtAll KillOk (bcConnection reg https l) ∧
      (∀ k b, .open k b ∈ bcConnection reg https l → .close k ∈ bcConnection reg https l) ∧ (M → ∀ k, .tls k ∈ bcConnection reg https l → .untls k ∈ bcConnection reg https l) := by
  have h0 : BcGood M reg ⟨none, none, 0, []⟩ := by
    refine ⟨⟨atAll_nil _, atAll_nil _, atAll_nil _, fun k => ⟨nofun, nofun, nofun, nofun, nofun⟩, nofun, nofun, nofun⟩, nofun⟩
  have h1 := bcRequests_inv (https := https) l h0 hM
  have h2 : BcInv M (bcRequests reg https l ⟨none, none, 0, []⟩).cur _ := h1.inv.plain (bcGive (bcRequests reg https l ⟨none, none, 0, []⟩).cur) (by
    cases (bcRequests reg https l ⟨none, none, 0, []⟩).cur with
    | none => exact nofun
    | some c => simp [bcPlain, bcGive])
  obtain ⟨h3, h4, _⟩ := bcClose_inv none h2
  refine ⟨h3.sock, h3.tls, h3.kill, fun k b hk => ?_, fun hm k hk => ?_⟩
  · rcases h3.others k b hk with g | ⟨f, g⟩
    · exact g
    · rw [h4] at g; cases g
  · rcases h3.freed hm k hk with g | g
    · exact g
    · rw [h4] at g; cases g

/-! ### References -/

/-- One for `b`, none for others -/
def bcOne (b c : Nat) : Nat := if b = c then 1 else 0

/-- Counts: `x` are references that are held besides that for phttp->backend; `N`: nothing but refused connections goes wrong. -/
structure BcRef (N : Prop) (x : Nat → Nat) (s : BcSt) : Prop where
  unref : AtAll UnrefOk s.tr
  use : N → AtAll UseOk s.tr
  count : ∀ b, s.tr.count (.ref b) = s.tr.count (.unref b) + (if s.cur = some b then 1 else 0) + x b

theorem BcRef.held {N x s} (h : BcRef N x s) {b : Nat} (hb : 0 < x b ∨ s.cur = some b) : Held b s.tr := by
  have := h.count b
  unfold Held
  rcases hb with hb | hb
  · omega
  · rw [if_pos hb] at this; omega

theorem bc_count1 (s : BcSt) (e x : BcEv) : (s.ev [e]).tr.count x = s.tr.count x + if e = x then 1 else 0 := by
  unfold BcSt.ev
  rw [List.count_append, List.count_singleton]
  by_cases h : e = x
  · rw [if_pos h, if_pos (by rw [h]; simp)]
  · rw [if_neg h, if_neg (by simpa using h)]

/-- Nothing is taken or given back. -/
theorem BcRef.other {N x s} (h : BcRef N x s) {e : BcEv} (h1 : ∀ b, e ≠ .ref b) (h2 : ∀ b, e ≠ .unref b) (h3 : N → UseOk s.tr e) : BcRef N x (s.ev [e]) := by
  refine ⟨atAll_snoc h.unref ?_, fun hn => atAll_snoc (h.use hn) (h3 hn), fun b => ?_⟩
  · cases e <;> first | trivial | exact absurd rfl (h2 _)
  · rw [bc_count1, bc_count1, if_neg (h1 b), if_neg (h2 b)]
    exact h.count b

theorem BcRef.ref {N x s} (h : BcRef N x s) (b : Nat) : BcRef N (fun c => x c + bcOne b c) (s.ev [.ref b]) := by
  refine ⟨atAll_snoc h.unref trivial, fun hn => atAll_snoc (h.use hn) trivial, fun c => ?_⟩
  rw [bc_count1, bc_count1, if_neg (c := BcEv.ref b = .unref c) nofun]
  have := h.count c
  show s.tr.count (.ref c) + (if BcEv.ref b = .ref c then 1 else 0) = s.tr.count (.unref c) + 0 + (if s.cur = some c then 1 else 0) + (x c + bcOne b c)
  unfold bcOne
  by_cases hb : b = c
  · rw [if_pos (congrArg _ hb), if_pos hb]; omega
  · rw [if_neg (fun e => hb (by cases e; rfl)), if_neg hb]; omega

theorem BcRef.give {N x s} {b : Nat} (h : BcRef N (fun c => x c + bcOne b c) s) : BcRef N x (s.ev [.unref b]) := by
  refine ⟨atAll_snoc h.unref (h.held (Or.inl ?_)), fun hn => atAll_snoc (h.use hn) trivial, fun c => ?_⟩
  · unfold bcOne; rw [if_pos rfl]; omega
  · rw [bc_count1, bc_count1, if_neg (c := BcEv.unref b = .ref c) nofun]
    have := h.count c
    show s.tr.count (.ref c) + 0 = s.tr.count (.unref c) + (if BcEv.unref b = .unref c then 1 else 0) + (if s.cur = some c then 1 else 0) + x c
    unfold bcOne at this
    by_cases hb : b = c
    · rw [if_pos (congrArg _ hb)]; rw [if_pos hb] at this; omega
    · rw [if_neg (fun e => hb (by cases e; rfl))]; rw [if_neg hb] at this; omega

theorem BcRef.set {N x s} {b : Nat} (h : BcRef N (fun c => x c + bcOne b c) s) : BcRef N x (bcSet b s) := by
  unfold bcSet
  cases hc : s.cur with
  | none =>
    have e1 : BcSt.ev { s with cur := some b } [] = { s with cur := some b } := by unfold BcSt.ev; simp
    show BcRef N x (BcSt.ev { s with cur := some b } [])
    rw [e1]
    refine ⟨h.unref, h.use, fun c => ?_⟩
    have := h.count c
    rw [hc, if_neg nofun] at this
    show s.tr.count (.ref c) = s.tr.count (.unref c) + (if some b = some c then 1 else 0) + x c
    unfold bcOne at this
    by_cases hb : b = c
    · rw [if_pos (congrArg _ hb)]; rw [if_pos hb] at this; omega
    · rw [if_neg (fun e => hb (by cases e; rfl))]; rw [if_neg hb] at this; omega
  | some d =>
    have h1 : BcRef N (fun c => x c + bcOne d c) { s with cur := some b } := by
      refine ⟨h.unref, h.use, fun c => ?_⟩
      have := h.count c
      rw [hc] at this
      show s.tr.count (.ref c) = s.tr.count (.unref c) + (if some b = some c then 1 else 0) + (x c + bcOne d c)
      unfold bcOne at this ⊢
      simp only [Option.some.injEq] at this ⊢
      omega
    exact h1.give

theorem BcRef.chan {N x s} (h : BcRef N x s) (c : Option (Nat × Bool)) (n : Nat) : BcRef N x { s with chan := c, n := n } := ⟨h.unref, h.use, h.count⟩

theorem bcClose_ref {N x s} (h : BcRef N x s) : BcRef N x (bcClose s) := by
  unfold bcClose
  split
  · exact h
  · rename_i k f _
    have h1 := h.chan none s.n
    cases f with
    | false => exact h1.other nofun nofun fun _ => trivial
    | true =>
      show BcRef N x (BcSt.ev { s with chan := none } [.untls k, .close k])
      rw [bc_ev_cons]
      exact (h1.other (e := .untls k) nofun nofun fun _ => trivial).other nofun nofun fun _ => trivial

theorem bcOne_self (b : Nat) : bcOne b b = 1 := if_pos rfl

theorem bcOpenBe_ref {N x s} (https : Bool) (k b : Nat) (o : BcOpen) (h : BcRef N x s) (hb : 0 < x b) : BcRef N x (bcOpenBe https k b o s).1 := by
  have hu : ∀ {s : BcSt}, BcRef N x s → BcRef N x (s.ev [.use b]) := fun h => h.other nofun nofun fun _ => h.held (Or.inl hb)
  have ht : ∀ {s : BcSt}, BcRef N x s → BcRef N x (s.ev [.use b, .tls k]) := fun h => by
    rw [bc_ev_cons]
    exact (hu h).other nofun nofun fun _ => trivial
  unfold bcOpenBe
  cases o <;> cases https
  all_goals first
    | exact hu (h.chan _ s.n)
    | exact ht (h.chan _ s.n)
    | exact (h.chan none s.n).other (e := .close k) nofun nofun fun _ => trivial

/-- The reference that get_backend took -/
def bcTaken (l : List (Nat × BcTry)) (c : Nat) : Nat :=
  match l with
  | [] => 0
  | (b, _) :: _ => bcOne b c

theorem bcNext_ref {N x s} (h : BcRef N x s) (l : List (Nat × BcTry)) : BcRef N (fun c => x c + bcTaken l c) (bcNext l s) := by
  unfold bcNext bcTaken
  split
  · exact h
  · exact h.ref _

/-- References are in order, and lost only when something goes wrong. -/
def BcRefs (N : Prop) (s : BcSt) : Prop := ∃ x, (N → ∀ b, x b = 0) ∧ BcRef N x s

theorem bcLoop_ref {N : Prop} {reg https : Nat → Bool} (l : List (Nat × BcTry)) {x : Nat → Nat} {s : BcSt} (hx : N → ∀ b, x b = 0) (h : BcRef N (fun c => x c + bcTaken l c) s)
    (hN : N → ∀ x ∈ l, x.2 = .refused ∨ x.2 = .connected .done) : BcRefs N (bcLoop reg https l s).1 := by
  induction l generalizing s with
  | nil => exact ⟨x, hx, h⟩
  | cons y l ih =>
    obtain ⟨b, t⟩ := y
    have h : BcRef N (fun c => x c + bcOne b c) s := h
    have hb : 0 < x b + bcOne b b := by rw [bcOne_self]; omega
    have hu : ∀ {s : BcSt}, BcRef N (fun c => x c + bcOne b c) s → BcRef N (fun c => x c + bcOne b c) (s.ev [.use b]) := fun h => h.other nofun nofun fun _ => h.held (Or.inl hb)
    have hbad : (N → False) → BcRefs N (s.ev [.use b, .unref b, .use b]) := fun hn => by
      refine ⟨x, hx, ?_⟩
      rw [bc_ev_cons, bc_ev_cons]
      exact (hu h).give.other nofun nofun fun n => (hn n).elim
    unfold bcLoop
    split
    · split
      · exact hbad fun n => by rcases hN n _ List.mem_cons_self with e | e <;> cases e
      · exact hbad fun n => by rcases hN n _ List.mem_cons_self with e | e <;> cases e
      · rename_i o
        have h1 : BcRef N (fun c => x c + bcOne b c) (BcSt.ev { s with n := s.n + 1 } [.use b, .open s.n b]) := by
          rw [bc_ev_cons]
          exact (hu (h.chan s.chan (s.n + 1))).other nofun nofun fun _ => trivial
        have h2 := bcOpenBe_ref (https b) s.n b o h1 hb
        split
        · rename_i hs
          rw [hs] at h2
          exact ⟨x, hx, h2.set⟩
        · rename_i hs
          rw [hs] at h2
          refine ⟨_, fun n => ?_, bcClose_ref h2⟩
          rcases hN n _ List.mem_cons_self with e | e
          · cases e
          · cases e
            cases hh : https b <;> rw [hh] at hs <;> cases hs
      · refine ih (bcNext_ref ?_ l) fun n x hx => hN n x (List.mem_cons_of_mem _ hx)
        rw [bc_ev_cons, bc_ev_cons, bc_ev_cons, bc_ev_cons, bc_ev_cons]
        have h1 := hu ((hu (h.chan s.chan (s.n + 1))).other (e := .open s.n b) nofun nofun fun _ => trivial)
        have h2 := h1.other (e := .close s.n) nofun nofun fun _ => trivial
        have h3 := h2.other (e := .kill b) nofun nofun fun _ => h2.held (Or.inl hb)
        exact h3.give
    · exact ⟨x, hx, (hu h).set⟩

theorem bcSelect_ref {N : Prop} {reg https : Nat → Bool} (l : List (Nat × BcTry)) {s : BcSt} (h : BcRefs N s) (hN : N → ∀ x ∈ l, x.2 = .refused ∨ x.2 = .connected .done) :
    BcRefs N (bcSelect reg https l s).1 := by
  obtain ⟨x, hx, h⟩ := h
  unfold bcSelect
  cases l with
  | nil => exact ⟨x, hx, h⟩
  | cons y l =>
    obtain ⟨b, t⟩ := y
    have h1 := bcNext_ref h ((b, t) :: l)
    dsimp only
    split
    · exact bcLoop_ref _ hx h1 hN
    · split
      · exact ⟨x, hx, BcRef.give h1⟩
      · exact bcLoop_ref _ hx (bcClose_ref h1) hN

theorem bcServe_ref {N : Prop} {reg : Nat → Bool} {s : BcSt} (h : BcRefs N s) (c : Bool) : BcRefs N (bcServe reg c s) := by
  obtain ⟨x, hx, h⟩ := h
  unfold bcServe
  cases hc : s.cur with
  | none => exact ⟨x, hx, h.other nofun nofun fun _ => trivial⟩
  | some b =>
    have hu : ∀ {s : BcSt}, s.cur = some b → BcRef N x s → BcRef N x (s.ev [.use b]) := fun hc h => h.other nofun nofun fun _ => h.held (Or.inr hc)
    dsimp only
    split
    · split
      · refine ⟨x, hx, ?_⟩
        rw [bc_ev_cons]
        exact (hu hc h).other nofun nofun fun _ => trivial
      · rename_i k f _
        have h1 : BcRef N x (s.ev [.use b, .send k b, .use b]) := by
          rw [bc_ev_cons, bc_ev_cons]
          have h2 := hu hc h
          exact hu hc (h2.other (e := .send k b) nofun nofun fun _ => h2.held (Or.inr hc))
        split
        · exact ⟨x, hx, bcClose_ref h1⟩
        · exact ⟨x, hx, h1⟩
    · refine ⟨x, hx, hu ?_ (bcClose_ref h)⟩
      unfold bcClose
      split <;> exact hc

theorem bcRequests_ref {N : Prop} {reg https : Nat → Bool} (l : List BcReq) {s : BcSt} (h : BcRefs N s) (hN : N → OnlyRefused l) : BcRefs N (bcRequests reg https l s) := by
  induction l generalizing s with
  | nil => exact h
  | cons r t ih =>
    unfold bcRequests
    dsimp only
    have h1 : BcRefs N (if r.readable then bcClose s else s) := by
      obtain ⟨x, hx, h⟩ := h
      split
      · exact ⟨x, hx, bcClose_ref h⟩
      · exact ⟨x, hx, h⟩
    split
    · have h2 := bcSelect_ref (reg := reg) (https := https) r.tries h1 fun n => hN n r List.mem_cons_self
      split
      · rename_i hs
        rw [hs] at h2
        exact h2
      · rename_i hs
        rw [hs] at h2
        have h4 := bcServe_ref (reg := reg) h2 r.closes
        split
        · exact h4
        · exact ih h4 fun hm r hr => hN hm r (List.mem_cons_of_mem _ hr)
    · exact h1

theorem bcConnection_ref {N : Prop} {reg https : Nat → Bool} (l : List BcReq) (hN : N → OnlyRefused l) :
    AtAll UnrefOk (bcConnection reg https l) ∧ (N → AtAll UseOk (bcConnection reg https l) ∧ ∀ b, (bcConnection reg https l).count (.ref b) = (bcConnection reg https l).count (.unref b)) := by
  have h0 : BcRefs N ⟨none, none, 0, []⟩ := ⟨fun _ => 0, fun _ _ => rfl, atAll_nil _, fun _ => atAll_nil _, fun _ => rfl⟩
  obtain ⟨x, hx, h⟩ := bcRequests_ref (reg := reg) (https := https) l h0 hN
  unfold bcConnection bcDestroy
  generalize bcRequests reg https l ⟨none, none, 0, []⟩ = s at h ⊢
  have h1 : BcRef N x { s.ev (bcGive s.cur) with cur := none } := by
    cases hc : s.cur with
    | none =>
      refine ⟨?_, ?_, fun b => ?_⟩
      · show AtAll _ (s.tr ++ []); rw [List.append_nil]; exact h.unref
      · show N → AtAll _ (s.tr ++ []); rw [List.append_nil]; exact h.use
      · have := h.count b
        show List.count _ (s.tr ++ []) = List.count _ (s.tr ++ []) + _ + _
        rw [List.append_nil, this, hc]
    | some d =>
      have h2 : BcRef N (fun c => x c + bcOne d c) { s with cur := none } := by
        refine ⟨h.unref, h.use, fun c => ?_⟩
        have := h.count c
        rw [hc] at this
        show s.tr.count (.ref c) = s.tr.count (.unref c) + (if (none : Option Nat) = some c then 1 else 0) + (x c + bcOne d c)
        unfold bcOne
        simp only [Option.some.injEq] at this
        rw [if_neg nofun]
        omega
      exact h2.give
  have h3 := bcClose_ref h1
  have e : (bcClose { s.ev (bcGive s.cur) with cur := none }).tr = (bcClose (s.ev (bcGive s.cur))).tr := by
    unfold bcClose
    dsimp only
    split <;> rfl
  have hcur : (bcClose { s.ev (bcGive s.cur) with cur := none }).cur = none := by
    unfold bcClose
    split <;> rfl
  rw [← e]
  refine ⟨h3.unref, fun n => ⟨h3.use n, fun b => ?_⟩⟩
  have := h3.count b
  rw [hcur, if_neg nofun, hx n b] at this
  exact this

/-! ### Which backend is selected -/

theorem marked_append (l m : List BcEv) : marked (l ++ m) = marked l ++ marked m := by
  induction l with
  | nil => rfl
  | cons e l ih => cases e <;> simp [marked, ih]

/-- `s'` goes on from `s`, with those marked as dead. -/
def BcAfter (s s' : BcSt) (k : List Nat) : Prop := ∃ q, s'.tr = s.tr ++ q ∧ marked q = k

theorem BcAfter.trans {s s' s'' k l} (h : BcAfter s s' k) (h' : BcAfter s' s'' l) : BcAfter s s'' (k ++ l) := by
  obtain ⟨q, h1, h2⟩ := h
  obtain ⟨q', h3, h4⟩ := h'
  exact ⟨q ++ q', by rw [h3, h1, List.append_assoc], by rw [marked_append, h2, h4]⟩

theorem bcAfter_ev {s s' : BcSt} (l : List BcEv) (h : s'.tr = s.tr) : BcAfter s (s'.ev l) (marked l) := ⟨l, by show s'.tr ++ l = _; rw [h], rfl⟩

theorem bcAfter_close (s : BcSt) : BcAfter s (bcClose s) [] := by
  unfold bcClose
  split
  · exact ⟨[], (List.append_nil _).symm, rfl⟩
  · rename_i k f _
    cases f <;> exact bcAfter_ev _ rfl

theorem bcAfter_next (l : List (Nat × BcTry)) (s : BcSt) : BcAfter s (bcNext l s) [] := by
  unfold bcNext
  split
  · exact ⟨[], (List.append_nil _).symm, rfl⟩
  · exact bcAfter_ev _ rfl

theorem bcAfter_open (https : Bool) (k b : Nat) (o : BcOpen) (s : BcSt) : BcAfter s (bcOpenBe https k b o s).1 [] := by
  unfold bcOpenBe
  cases o <;> cases https <;> exact bcAfter_ev _ rfl

theorem bcAfter_set (b : Nat) (s : BcSt) : BcAfter s (bcSet b s) [] := by
  unfold bcSet bcGive
  cases s.cur <;> exact bcAfter_ev _ rfl

theorem bcLoop_order {reg https : Nat → Bool} (l : List (Nat × BcTry)) (s : BcSt) :
    ∃ pre post, l = pre ++ post ∧ (∀ x ∈ pre, reg x.1 = true ∧ x.2 = .refused) ∧ BcAfter s (bcLoop reg https l s).1 (pre.map Prod.fst) ∧
      (∀ x, post.head? = some x → ¬ (reg x.1 = true ∧ x.2 = .refused)) ∧
      ((bcLoop reg https l s).2 = true → ∃ b t post', post = (b, t) :: post' ∧ (bcLoop reg https l s).1.cur = some b) := by
  induction l generalizing s with
  | nil => exact ⟨[], [], rfl, nofun, ⟨[], (List.append_nil _).symm, rfl⟩, nofun, nofun⟩
  | cons x l ih =>
    obtain ⟨b, t⟩ := x
    by_cases hx : reg b = true ∧ t = .refused
    · obtain ⟨h1, h2⟩ := hx
      subst h2
      obtain ⟨pre, post, e, h3, h4, h5, h6⟩ := ih (bcNext l (BcSt.ev { s with n := s.n + 1 } [.use b, .open s.n b, .use b, .close s.n, .kill b, .unref b]))
      have e1 : bcLoop reg https ((b, .refused) :: l) s = bcLoop reg https l (bcNext l (BcSt.ev { s with n := s.n + 1 } [.use b, .open s.n b, .use b, .close s.n, .kill b, .unref b])) := by
        rw [bcLoop.eq_def]
        dsimp only
        rw [h1, if_pos rfl]
      rw [e1]
      refine ⟨(b, .refused) :: pre, post, by rw [e]; rfl, fun x hx => ?_, ?_, h5, h6⟩
      · rcases List.mem_cons.1 hx with rfl | hx
        · exact ⟨h1, rfl⟩
        · exact h3 x hx
      · exact BcAfter.trans (k := [b] ++ []) (BcAfter.trans (bcAfter_ev _ rfl) (bcAfter_next l _)) h4
    · refine ⟨[], (b, t) :: l, rfl, nofun, ?_, fun x e => ?_, fun h => ⟨b, t, l, rfl, ?_⟩⟩
      · unfold bcLoop
        split
        · split
          · exact bcAfter_ev _ rfl
          · exact bcAfter_ev _ rfl
          · rename_i o
            have h2 : BcAfter s (BcSt.ev { s with n := s.n + 1 } [.use b, .open s.n b]) [] := bcAfter_ev _ rfl
            have h1 := h2.trans (bcAfter_open (https b) s.n b o _)
            split
            · rename_i hs
              rw [hs] at h1
              exact h1.trans (bcAfter_set _ _)
            · rename_i hs
              rw [hs] at h1
              exact h1.trans (bcAfter_close _)
          · exact absurd ⟨by assumption, rfl⟩ hx
        · exact BcAfter.trans (k := []) (bcAfter_ev [.use b] rfl) (bcAfter_set _ _)
      · cases e; exact hx
      · unfold bcLoop at h ⊢
        split at h <;> rename_i hr
        · rw [if_pos hr]
          cases t with
          | family => cases h
          | noSocket => cases h
          | refused => exact absurd ⟨hr, rfl⟩ hx
          | connected o =>
            dsimp only at h ⊢
            split at h
            · rfl
            · cases h
        · rw [if_neg hr]; rfl

theorem bcSelect_order {reg https : Nat → Bool} (l : List (Nat × BcTry)) (s : BcSt) (h : (bcSelect reg https l s).2 = true) :
    ∃ pre b t post, l = pre ++ (b, t) :: post ∧ (∀ x ∈ pre, reg x.1 = true ∧ x.2 = .refused) ∧ (bcSelect reg https l s).1.cur = some b ∧ BcAfter s (bcSelect reg https l s).1 (pre.map Prod.fst) := by
  have key : ∀ s0, BcAfter s s0 [] → (bcLoop reg https l s0).2 = true →
      ∃ pre b t post, l = pre ++ (b, t) :: post ∧ (∀ x ∈ pre, reg x.1 = true ∧ x.2 = .refused) ∧ (bcLoop reg https l s0).1.cur = some b ∧ BcAfter s (bcLoop reg https l s0).1 (pre.map Prod.fst) := by
    intro s0 h0 h
    obtain ⟨pre, post, e, h1, h2, h3, h4⟩ := bcLoop_order (reg := reg) (https := https) l s0
    obtain ⟨b, t, post', h5, h6⟩ := h4 h
    exact ⟨pre, b, t, post', by rw [e, h5], h1, h6, h0.trans h2⟩
  cases l with
  | nil => cases h
  | cons x l =>
    obtain ⟨b, t⟩ := x
    unfold bcSelect at h ⊢
    dsimp only at h ⊢
    cases hc : (bcNext ((b, t) :: l) s).chan with
    | none =>
      rw [hc] at h
      exact key _ (bcAfter_next _ _) h
    | some p =>
      rw [hc] at h
      dsimp only at h ⊢
      split at h <;> rename_i hb
      · rw [if_pos hb]
        exact ⟨[], b, t, l, rfl, nofun, hb, (bcAfter_next ((b, t) :: l) s).trans (bcAfter_ev [.unref b] rfl)⟩
      · rw [if_neg hb]
        exact key _ ((bcAfter_next ((b, t) :: l) s).trans (bcAfter_close _)) h

/-! ### connect_nb -/

theorem nbWritable_iff (ev : Nat) : nbWritable ev = true ↔ ev.testBit 2 = true ∧ ev.testBit 3 = false ∧ ev.testBit 4 = false := by
  unfold nbWritable
  rw [beq_iff_eq]
  constructor
  · intro h
    have hb : ∀ i, (ev &&& 28).testBit i = (4 : Nat).testBit i := fun i => by rw [h]
    have h2 := hb 2; have h3 := hb 3; have h4 := hb 4
    rw [Nat.testBit_and] at h2 h3 h4
    refine ⟨?_, ?_, ?_⟩
    · simpa [show (28 : Nat).testBit 2 = true by decide, show (4 : Nat).testBit 2 = true by decide] using h2
    · simpa [show (28 : Nat).testBit 3 = true by decide, show (4 : Nat).testBit 3 = false by decide] using h3
    · simpa [show (28 : Nat).testBit 4 = true by decide, show (4 : Nat).testBit 4 = false by decide] using h4
  · intro ⟨h2, h3, h4⟩
    apply Nat.eq_of_testBit_eq
    intro i
    rw [Nat.testBit_and]
    match i with
    | 0 => simp [show (28 : Nat).testBit 0 = false by decide, show (4 : Nat).testBit 0 = false by decide]
    | 1 => simp [show (28 : Nat).testBit 1 = false by decide, show (4 : Nat).testBit 1 = false by decide]
    | 2 => simp [h2]; decide
    | 3 => simp [h3]; decide
    | 4 => simp [h4]; decide
    | i + 5 =>
      have e1 : (28 : Nat).testBit (i + 5) = false := Nat.testBit_lt_two_pow (Nat.lt_of_lt_of_le (by decide : 28 < 2 ^ 5) (Nat.pow_le_pow_right (by decide) (by omega)))
      have e2 : (4 : Nat).testBit (i + 5) = false := Nat.testBit_lt_two_pow (Nat.lt_of_lt_of_le (by decide : 4 < 2 ^ 5) (Nat.pow_le_pow_right (by decide) (by omega)))
      rw [e1, e2, Bool.and_false]

theorem nbRestore_iff (e : NbEnv) (flags cur : Nat) : (nbRestore e flags cur).1 = .ok () ↔ e.restore = .ok () := by
  unfold nbRestore
  cases e.restore with
  | error x => exact ⟨nofun, nofun⟩
  | ok u => exact ⟨fun _ => rfl, fun _ => rfl⟩

theorem connectNb_iff (e : NbEnv) (init : Nat) : (connectNb e init).1 = .ok () ↔ (∃ fl, e.getfl = .ok fl) ∧ e.setfl = .ok () ∧ Connected e ∧ e.restore = .ok () := by
  unfold connectNb Connected
  cases hg : e.getfl with
  | error x => exact ⟨nofun, fun ⟨⟨_, h⟩, _⟩ => by cases h⟩
  | ok fl =>
    cases hs : e.setfl with
    | error x => exact ⟨nofun, fun ⟨_, h, _⟩ => by cases h⟩
    | ok u =>
      cases hc : e.connect with
      | ok u =>
        dsimp only
        rw [nbRestore_iff]
        exact ⟨fun h => ⟨⟨_, rfl⟩, rfl, Or.inl rfl, h⟩, fun h => h.2.2.2⟩
      | error x =>
        dsimp only
        split
        · rename_i hx
          refine ⟨nofun, fun ⟨_, _, h, _⟩ => ?_⟩
          rcases h with h | ⟨h, _⟩
          · cases h
          · cases h; exact absurd rfl hx
        · rename_i hx
          have hx : x = 115 := Decidable.not_not.1 hx
          cases hp : e.poll with
          | error y =>
            refine ⟨nofun, fun ⟨_, _, h, _⟩ => ?_⟩
            rcases h with h | ⟨_, _, h, _⟩ <;> cases h
          | ok o =>
            cases o with
            | none =>
              refine ⟨nofun, fun ⟨_, _, h, _⟩ => ?_⟩
              rcases h with h | ⟨_, _, h, _⟩ <;> cases h
            | some ev =>
              dsimp only
              cases hw : nbWritable ev with
              | true =>
                rw [if_pos rfl, nbRestore_iff]
                exact ⟨fun h => ⟨⟨_, rfl⟩, rfl, Or.inr ⟨congrArg _ hx, ev, rfl, (nbWritable_iff ev).1 hw⟩, h⟩, fun h => h.2.2.2⟩
              | false =>
                rw [if_neg nofun]
                refine ⟨fun h => ?_, fun ⟨_, _, h, _⟩ => ?_⟩
                · cases hso : e.sockopt <;> rw [hso] at h <;> cases h
                · rcases h with h | ⟨_, ev', h, h'⟩
                  · cases h
                  · cases h
                    rw [(nbWritable_iff ev).2 h'] at hw
                    cases hw

theorem connectNb_flags (e : NbEnv) (init : Nat) (h : (connectNb e init).1 = .ok ()) (hg : e.getfl = .ok init) : (connectNb e init).2 = init := by
  obtain ⟨_, hs, hc, hr⟩ := (connectNb_iff e init).1 h
  unfold connectNb
  rw [hg, hs]
  dsimp only
  have hn : ∀ c, (nbRestore e init c).2 = init := fun c => by unfold nbRestore; rw [hr]
  rcases hc with hc | ⟨hc, ev, hp, hw⟩
  · rw [hc]; exact hn _
  · rw [hc, hp]
    dsimp only
    rw [if_neg (fun h => h rfl), (nbWritable_iff ev).2 hw, if_pos rfl]
    exact hn _

end Pound
