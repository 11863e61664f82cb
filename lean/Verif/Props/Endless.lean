import Verif.Props.Traffic

/-!
C43: fail-over with weighted round robin.
-/

namespace Pound.Props
open Pound Spec

/-- Two backends and one for emergencies, with weighted round robin, as at the start -/
def exStart : SvcSt := ⟨exIwrr, .init, []⟩

/-- When both have been tried and have refused -/
def exEnd : SvcSt := (afterReq ((afterReq exStart none).killBe 1 .kill) none).killBe 2 .kill

/-- Deviation: with weighted round robin, a request for which both normal backends refuse connection is never answered, although there is an emergency backend: after the second refusal the
selection does not end, with any number of steps and attempts. The emergency backend is not tried. -/
theorem C43_endless_fails (ttl : Nat) (now : TS) (rnd : Nat → Nat → List Nat) (conn : Nat → Nat → Conn) (h1 : conn 0 1 = .refused) (h2 : conn 1 2 = .refused) (fuel n : Nat) :
    BalsOk exStart.bals ∧ (∃ b ∈ exStart.all, b.id = 3 ∧ Active b) ∧
    selectBackend ttl now fuel rnd none conn n exStart ⟨false, none, fun _ => 0⟩ = .more := by
  refine ⟨exIwrr_ok, ⟨exBe 3 5 false true, by decide, rfl, by decide⟩, ?_⟩
  cases fuel with
  | zero => rfl
  | succ f =>
    obtain ⟨s1, g1, e1⟩ : ∃ s1, exStart.getBackend ttl now (f + 1) (rnd 0) none = .done (some 1) s1 ∧ s1 = afterReq exStart none := ⟨_, rfl, by decide +kernel⟩
    have r1 : s1.isRegular 1 = true := by rw [e1]; decide +kernel
    obtain ⟨s2, g2, e2⟩ : ∃ s2, (s1.killBe 1 .kill).getBackend ttl now (f + 1) (rnd 1) none = .done (some 2) s2 ∧ s2 = afterReq ((afterReq exStart none).killBe 1 .kill) none := by
      rw [e1]
      exact ⟨_, rfl, by decide +kernel⟩
    have r2 : s2.isRegular 2 = true := by rw [e2]; decide +kernel
    have g3 : (s2.killBe 2 .kill).getBackend ttl now (f + 1) (rnd 2) none = .more := by
      rw [e2]
      obtain ⟨x, t, x1, x2, x3, x4, x5, x6⟩ : ∃ x t, exEnd.bals = x :: t ∧ x.algo = .iwrr ∧ 2 ≤ x.backends.length ∧ x.backends ≠ [] ∧ x.cur = some 0 ∧ ∀ b ∈ x.backends, ¬ Active b :=
        ⟨exEnd.bals[0]'(by decide +kernel), exEnd.bals.drop 1, by decide +kernel, by decide +kernel, by decide +kernel, by decide +kernel, by decide +kernel, by decide +kernel⟩
      show exEnd.getBackend ttl now (f + 1) (rnd 2) none = .more
      unfold SvcSt.getBackend
      rw [if_pos (by decide +kernel)]
      dsimp only
      unfold SvcSt.lb
      rw [x1, lbSelect, balSelect_iwrr x2 x3, iwrrSelect_endless x4 (fun i hi => by rw [x5] at hi; cases hi; omega) x6]
    unfold selectBackend
    rw [g1]
    dsimp only
    rw [if_neg (by simp)]
    cases n with
    | zero => rfl
    | succ n =>
      rw [connectLoop, if_pos r1]
      dsimp only [List.length_nil]
      rw [h1]
      dsimp only
      rw [show (0 : Nat) + 1 = 1 from rfl, g2]
      dsimp only
      cases n with
      | zero => rfl
      | succ n =>
        rw [connectLoop, if_pos r2]
        dsimp only [List.length_append, List.length_cons, List.length_nil, List.nil_append]
        rw [show (0 : Nat) + 1 = 1 from rfl, h2]
        dsimp only
        rw [show (1 : Nat) + 1 = 2 from rfl, g3]

example (fuel n : Nat) : selectBackend 60 ⟨100, 0⟩ fuel (fun _ _ => []) none (fun _ _ => .refused) n exStart ⟨false, none, fun _ => 0⟩ = .more :=
  (C43_endless_fails _ _ _ _ rfl rfl fuel n).2.2

end Pound.Props
