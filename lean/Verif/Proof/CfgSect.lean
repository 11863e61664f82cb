import Verif.Spec.CfgSect
import Verif.Model.SvcCfg
import Verif.Proof.Headers

namespace Pound

open Spec

/-- The parsers of the statements of a section read exactly the statements of `stmt`, those of at most `N` tokens. -/
structure StmtSpec {σ : Type} (N : Nat) (find : Bytes → Option (LParser σ)) (stmt : List Tok → σ → σ → Prop) : Prop where
  fin : ∀ {n : Bytes} {p : LParser σ}, ciEq b!"End" n = false → find n = some p → ∀ {s x}, p s ≠ .fin x
  ok : ∀ {n : Bytes} {p : LParser σ}, ciEq b!"End" n = false → find n = some p → ∀ {s ts e s' r e'}, p ⟨s, ts, e⟩ = .ok ⟨s', r, e'⟩ →
    e ≤ e' ∧ (e' = e → ∃ a, ts = a ++ r ∧ stmt (.ident n :: (a ++ [.nl])) s s')
  nonl : ∀ {n : Bytes} {p : LParser σ}, ciEq b!"End" n = false → find n = some p → ∀ {s ts e s' r e'}, p ⟨s, ts, e⟩ = .nonl ⟨s', r, e'⟩ →
    e ≤ e' ∧ (e' = e → ∃ a, ts = a ++ r ∧ stmt (.ident n :: a) s s')
  stop : ∀ {n : Bytes}, ciEq b!"End" n = true → find n = some endParser
  complete : ∀ {t s s'}, stmt t s s' → t.length ≤ N → ∃ n a p, t = .ident n :: a ∧ find n = some p ∧
    ((∀ r e, p ⟨s, a ++ r, e⟩ = .nonl ⟨s', r, e⟩) ∨ ∃ a', a = a' ++ [.nl] ∧ ∀ r e, p ⟨s, a' ++ .nl :: r, e⟩ = .ok ⟨s', .nl :: r, e⟩)

theorem sect_sound {σ : Type} {N : Nat} {find : Bytes → Option (LParser σ)} {stmt : List Tok → σ → σ → Prop} (h : StmtSpec N find stmt) :
    ∀ (n : Nat) (s : σ) (ts : List Tok) (e : Nat) (s' : σ) (r : List Tok) (e' : Nat), cfgL find false true n ⟨s, ts, e⟩ = .ok ⟨s', r, e'⟩ →
      e ≤ e' ∧ (e' = e → ∃ t, ts = t ++ r ∧ Sect stmt t s s')
  | 0, s, ts, e, s', r, e', hr => by simp [cfgL] at hr
  | n + 1, s, [], e, s', r, e', hr => by simp [cfgL] at hr
  | n + 1, s, .eof :: ts, e, s', r, e', hr => by simp [cfgL] at hr
  | n + 1, s, .error :: ts, e, s', r, e', hr => by simp [cfgL] at hr
  | n + 1, s, .nl :: ts, e, s', r, e', hr => by
    obtain ⟨h1, h2⟩ := sect_sound h n s ts e s' r e' (by simpa [cfgL] using hr)
    refine ⟨h1, fun he => ?_⟩
    obtain ⟨t, rfl, ht⟩ := h2 he
    exact ⟨.nl :: t, rfl, .blank ht⟩
  | n + 1, s, .number x :: ts, e, s', r, e', hr => by
    obtain ⟨h1, h2⟩ := sect_sound h n s ts (e + 1) s' r e' (by simpa [cfgL] using hr)
    exact ⟨by omega, fun he => by omega⟩
  | n + 1, s, .string x :: ts, e, s', r, e', hr => by
    obtain ⟨h1, h2⟩ := sect_sound h n s ts (e + 1) s' r e' (by simpa [cfgL] using hr)
    exact ⟨by omega, fun he => by omega⟩
  | n + 1, s, .literal x :: ts, e, s', r, e', hr => by
    obtain ⟨h1, h2⟩ := sect_sound h n s ts (e + 1) s' r e' (by simpa [cfgL] using hr)
    exact ⟨by omega, fun he => by omega⟩
  | n + 1, s, .ident w :: ts, e, s', r, e', hr => by
    rw [cfgL] at hr
    dsimp only at hr
    cases hw : ciEq b!"End" w with
    | true =>
      rw [h.stop hw] at hr
      dsimp only [endParser] at hr
      simp only [LR.ok.injEq, LSt.mk.injEq] at hr
      obtain ⟨rfl, rfl, rfl⟩ := hr
      exact ⟨Nat.le_refl _, fun _ => ⟨[.ident w], rfl, .stop hw⟩⟩
    | false =>
      cases hf : find w with
      | none => rw [hf] at hr; cases hr
      | some p =>
        rw [hf] at hr
        dsimp only at hr
        cases hp : p ⟨s, ts, e⟩ with
        | fail => rw [hp] at hr; cases hr
        | fin x => exact absurd hp (h.fin hw hf)
        | nonl x =>
          obtain ⟨s1, r1, e1⟩ := x
          rw [hp] at hr
          dsimp only at hr
          obtain ⟨h1, h2⟩ := h.nonl hw hf hp
          obtain ⟨h3, h4⟩ := sect_sound h n s1 r1 e1 s' r e' hr
          refine ⟨by omega, fun he => ?_⟩
          obtain ⟨a, rfl, ha⟩ := h2 (by omega)
          obtain ⟨t, rfl, ht⟩ := h4 (by omega)
          exact ⟨.ident w :: a ++ t, by simp, .stmt ha ht⟩
        | ok x =>
          obtain ⟨s1, r1, e1⟩ := x
          rw [hp] at hr
          dsimp only at hr
          obtain ⟨h1, h2⟩ := h.ok hw hf hp
          cases r1 with
          | nil =>
            simp only [Bool.false_eq_true, if_false] at hr
            obtain ⟨h3, h4⟩ := sect_sound h n s1 [] e1 s' r e' hr
            cases n with
            | zero => simp [cfgL] at hr
            | succ n => simp [cfgL] at hr
          | cons u r2 =>
            cases u with
            | nl =>
              simp only [Bool.false_eq_true, if_false] at hr
              obtain ⟨h3, h4⟩ := sect_sound h n s1 r2 e1 s' r e' hr
              refine ⟨by omega, fun he => ?_⟩
              obtain ⟨a, rfl, ha⟩ := h2 (by omega)
              obtain ⟨t, rfl, ht⟩ := h4 (by omega)
              exact ⟨.ident w :: (a ++ [.nl]) ++ t, by simp, .stmt ha ht⟩
            | _ => cases hr

theorem sect_complete {σ : Type} {N : Nat} {find : Bytes → Option (LParser σ)} {stmt : List Tok → σ → σ → Prop} (h : StmtSpec N find stmt)
    {t : List Tok} {s s' : σ} (ht : Sect stmt t s s') : ∀ (n : Nat), t.length ≤ n → t.length ≤ N → ∀ (r : List Tok) (e : Nat),
      cfgL find false true n ⟨s, t ++ r, e⟩ = .ok ⟨s', r, e⟩ := by
  induction ht with
  | @stop w s hw =>
    intro n hn hN r e
    cases n with
    | zero => simp at hn
    | succ n =>
      rw [cfgL]
      dsimp only [List.singleton_append]
      rw [h.stop hw]
      rfl
  | blank _ ih =>
    intro n hn hN r e
    cases n with
    | zero => simp at hn
    | succ n =>
      rw [cfgL]
      exact ih n (by simpa using hn) (by simp at hN; omega) r e
  | @stmt a t s s1 s2 ha _ ih =>
    intro n hn hN r e
    simp only [List.length_append] at hn hN
    obtain ⟨w, b, p, rfl, hf, hp⟩ := h.complete ha (by omega)
    cases n with
    | zero => simp at hn
    | succ n =>
      rw [cfgL]
      simp only [List.length_cons] at hn
      dsimp only [List.cons_append]
      rw [hf]
      dsimp only
      rw [List.append_assoc]
      rcases hp with hp | ⟨a', rfl, hp⟩
      · rw [hp]
        exact ih n (by omega) (by omega) r e
      · rw [List.append_assoc, List.singleton_append, hp]
        exact ih n (by omega) (by omega) r e

end Pound
