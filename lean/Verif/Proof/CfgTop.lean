import Verif.Model.TopCfg
import Verif.Proof.CfgSet

namespace Pound

open Spec

/-! ### Combinations of tables -/

theorem onLens_ok {α ω : Type} {get : ω → α} {set : ω → α → ω} {p : LParser α} {s s' : ω} {ts r : List Tok} {e e' : Nat} (h : onLens get set p ⟨s, ts, e⟩ = .ok ⟨s', r, e'⟩) :
    ∃ x, p ⟨get s, ts, e⟩ = .ok ⟨x, r, e'⟩ ∧ s' = set s x := by
  unfold onLens at h
  dsimp only at h
  split at h <;> simp only [LR.ok.injEq, LSt.mk.injEq, reduceCtorEq] at h
  rename_i t ht
  obtain ⟨rfl, rfl, rfl⟩ := h
  exact ⟨_, ht, rfl⟩

theorem onLens_nonl {α ω : Type} {get : ω → α} {set : ω → α → ω} {p : LParser α} {s s' : ω} {ts r : List Tok} {e e' : Nat} (h : onLens get set p ⟨s, ts, e⟩ = .nonl ⟨s', r, e'⟩) :
    ∃ x, p ⟨get s, ts, e⟩ = .nonl ⟨x, r, e'⟩ ∧ s' = set s x := by
  unfold onLens at h
  dsimp only at h
  split at h <;> simp only [LR.nonl.injEq, LSt.mk.injEq, reduceCtorEq] at h
  rename_i t ht
  obtain ⟨rfl, rfl, rfl⟩ := h
  exact ⟨_, ht, rfl⟩

theorem onLens_fin {α ω : Type} {get : ω → α} {set : ω → α → ω} {p : LParser α} {s : LSt ω} {x} (h : onLens get set p s = .fin x) : ∃ s' x', p s' = .fin x' := by
  unfold onLens at h
  split at h <;> simp only [LR.fin.injEq, reduceCtorEq] at h
  rename_i t ht
  exact ⟨_, _, ht⟩

theorem kwStmt_some {ω : Type} {kw n : Bytes} {p q : LParser ω} (h : kwStmt kw p n = some q) : ciEq kw n = true ∧ q = p := by
  unfold kwStmt at h
  split at h
  · rename_i hk; cases h; exact ⟨hk, rfl⟩
  · cases h

theorem kwStmt_of {ω : Type} {kw n : Bytes} {p : LParser ω} (h : ciEq kw n = true) : kwStmt kw p n = some p := by
  unfold kwStmt
  rw [if_pos h]

theorem lens_spec {α ω : Type} {N : Nat} {kw : Bytes} {p : LParser α} {stmt : List Tok → α → α → Prop} (h : OtherSpec N (kwStmt kw p) stmt) (get : ω → α) (set : ω → α → ω) :
    OtherSpec N (kwStmt kw (onLens get set p)) (fun t o o' => ∃ x, stmt t (get o) x ∧ o' = set o x) where
  fin := by
    intro n q hq s x hx
    obtain ⟨hk, rfl⟩ := kwStmt_some hq
    obtain ⟨s', x', h1⟩ := onLens_fin hx
    exact h.fin (kwStmt_of hk) h1
  ok := by
    intro n q hq s ts e s' r e' hp
    obtain ⟨hk, rfl⟩ := kwStmt_some hq
    obtain ⟨x, h1, h2⟩ := onLens_ok hp
    obtain ⟨h3, h4⟩ := h.ok (kwStmt_of hk) h1
    refine ⟨h3, fun he => ?_⟩
    obtain ⟨a, h5, h6⟩ := h4 he
    exact ⟨a, h5, x, h6, h2⟩
  nonl := by
    intro n q hq s ts e s' r e' hp
    obtain ⟨hk, rfl⟩ := kwStmt_some hq
    obtain ⟨x, h1, h2⟩ := onLens_nonl hp
    obtain ⟨h3, h4⟩ := h.nonl (kwStmt_of hk) h1
    refine ⟨h3, fun he => ?_⟩
    obtain ⟨a, h5, h6⟩ := h4 he
    exact ⟨a, h5, x, h6, h2⟩
  complete := by
    rintro t s s' ⟨x, h1, rfl⟩ hN
    obtain ⟨n, a, q, h2, h3, h4⟩ := h.complete h1 hN
    obtain ⟨hk, rfl⟩ := kwStmt_some h3
    refine ⟨n, a, _, h2, kwStmt_of hk, ?_⟩
    rcases h4 with h4 | ⟨a', h4, h5⟩
    · exact .inl fun r e => by unfold onLens; simp only [h4]
    · exact .inr ⟨a', h4, fun r e => by unfold onLens; simp only [h5]⟩

theorem or_spec {ω : Type} {N : Nat} {f g : Bytes → Option (LParser ω)} {s1 s2 : List Tok → ω → ω → Prop} (hf : OtherSpec N f s1) (hg : OtherSpec N g s2)
    (hd : ∀ n p, g n = some p → f n = none) : OtherSpec N (orFind f g) (fun t o o' => s1 t o o' ∨ s2 t o o') where
  fin := by
    intro n p hp
    unfold orFind at hp
    cases h1 : f n with
    | some q => rw [h1] at hp; cases hp; exact hf.fin h1
    | none => rw [h1] at hp; exact hg.fin hp
  ok := by
    intro n p hp s ts e s' r e' hr
    unfold orFind at hp
    cases h1 : f n with
    | some q =>
      rw [h1] at hp; cases hp
      obtain ⟨h2, h3⟩ := hf.ok h1 hr
      exact ⟨h2, fun he => let ⟨a, h4, h5⟩ := h3 he; ⟨a, h4, .inl h5⟩⟩
    | none =>
      rw [h1] at hp
      obtain ⟨h2, h3⟩ := hg.ok hp hr
      exact ⟨h2, fun he => let ⟨a, h4, h5⟩ := h3 he; ⟨a, h4, .inr h5⟩⟩
  nonl := by
    intro n p hp s ts e s' r e' hr
    unfold orFind at hp
    cases h1 : f n with
    | some q =>
      rw [h1] at hp; cases hp
      obtain ⟨h2, h3⟩ := hf.nonl h1 hr
      exact ⟨h2, fun he => let ⟨a, h4, h5⟩ := h3 he; ⟨a, h4, .inl h5⟩⟩
    | none =>
      rw [h1] at hp
      obtain ⟨h2, h3⟩ := hg.nonl hp hr
      exact ⟨h2, fun he => let ⟨a, h4, h5⟩ := h3 he; ⟨a, h4, .inr h5⟩⟩
  complete := by
    intro t s s' h hN
    rcases h with h | h
    · obtain ⟨n, a, p, h1, h2, h3⟩ := hf.complete h hN
      exact ⟨n, a, p, h1, by unfold orFind; rw [h2], h3⟩
    · obtain ⟨n, a, p, h1, h2, h3⟩ := hg.complete h hN
      exact ⟨n, a, p, h1, by unfold orFind; rw [hd n p h2]; exact h2, h3⟩

/-- Settings, and statements that depend on them -/
def DepStmt {σ ω : Type} (s1 : List Tok → σ → σ → Prop) (s2 : σ → List Tok → ω → ω → Prop) (t : List Tok) (x x' : σ × ω) : Prop :=
  (s1 t x.1 x'.1 ∧ x'.2 = x.2) ∨ (s2 x.1 t x.2 x'.2 ∧ x'.1 = x.1)

/-- What `depFind` does with a keyword that is not a setting -/
def depParser {σ ω : Type} (g : σ → Bytes → Option (LParser ω)) (name : Bytes) : LParser (σ × ω) := fun s =>
  match g s.data.1 name with
  | some p => onSnd p s
  | none => .fail

theorem depFind_eq {σ ω : Type} {f : Bytes → Option (LParser σ)} {g : σ → Bytes → Option (LParser ω)} (n : Bytes) :
    depFind f g n = match (generalizing := false) f n with
      | some p => some (onFst p)
      | none => some (depParser g n) := by
  unfold depFind
  cases f n with
  | some p => rfl
  | none => rfl

theorem dep_spec {σ ω : Type} {N : Nat} {f : Bytes → Option (LParser σ)} {g : σ → Bytes → Option (LParser ω)} {s1 : List Tok → σ → σ → Prop} {s2 : σ → List Tok → ω → ω → Prop}
    (hf : OtherSpec N f s1) (hg : ∀ x, OtherSpec N (g x) (s2 x)) (hd : ∀ x n p, g x n = some p → f n = none) : OtherSpec N (depFind f g) (DepStmt s1 s2) where
  fin := by
    intro n p hp s x hx
    rw [depFind_eq] at hp
    cases h1 : f n with
    | some q =>
      rw [h1] at hp; cases hp
      obtain ⟨s', x', h2⟩ := onFst_fin hx
      exact hf.fin h1 h2
    | none =>
      rw [h1] at hp; cases hp
      unfold depParser at hx
      split at hx
      · rename_i q hq
        obtain ⟨s', x', h2⟩ := onSnd_fin hx
        exact (hg _).fin hq h2
      · cases hx
  ok := by
    intro n p hp s ts e s' r e' hr
    rw [depFind_eq] at hp
    cases h1 : f n with
    | some q =>
      rw [h1] at hp; cases hp
      obtain ⟨h2, h3⟩ := onFst_ok hr
      obtain ⟨h4, h5⟩ := hf.ok h1 h2
      exact ⟨h4, fun he => let ⟨a, h6, h7⟩ := h5 he; ⟨a, h6, .inl ⟨h7, h3⟩⟩⟩
    | none =>
      rw [h1] at hp; cases hp
      unfold depParser at hr
      dsimp only at hr
      split at hr
      · rename_i q hq
        obtain ⟨h2, h3⟩ := onSnd_ok hr
        obtain ⟨h4, h5⟩ := (hg _).ok hq h2
        exact ⟨h4, fun he => let ⟨a, h6, h7⟩ := h5 he; ⟨a, h6, .inr ⟨h7, h3⟩⟩⟩
      · cases hr
  nonl := by
    intro n p hp s ts e s' r e' hr
    rw [depFind_eq] at hp
    cases h1 : f n with
    | some q =>
      rw [h1] at hp; cases hp
      obtain ⟨h2, h3⟩ := onFst_nonl hr
      obtain ⟨h4, h5⟩ := hf.nonl h1 h2
      exact ⟨h4, fun he => let ⟨a, h6, h7⟩ := h5 he; ⟨a, h6, .inl ⟨h7, h3⟩⟩⟩
    | none =>
      rw [h1] at hp; cases hp
      unfold depParser at hr
      dsimp only at hr
      split at hr
      · rename_i q hq
        obtain ⟨h2, h3⟩ := onSnd_nonl hr
        obtain ⟨h4, h5⟩ := (hg _).nonl hq h2
        exact ⟨h4, fun he => let ⟨a, h6, h7⟩ := h5 he; ⟨a, h6, .inr ⟨h7, h3⟩⟩⟩
      · cases hr
  complete := by
    rintro t ⟨a1, a2⟩ ⟨b1, b2⟩ h hN
    rcases h with ⟨h1, h2⟩ | ⟨h1, h2⟩
    · dsimp only at h1 h2
      subst h2
      obtain ⟨n, a, p, h3, h4, h5⟩ := hf.complete h1 hN
      refine ⟨n, a, onFst p, h3, by rw [depFind_eq, h4], ?_⟩
      rcases h5 with h5 | ⟨a', h5, h6⟩
      · exact .inl fun r e => by unfold onFst; simp only [h5]
      · exact .inr ⟨a', h5, fun r e => by unfold onFst; simp only [h6]⟩
    · dsimp only at h1 h2
      subst h2
      obtain ⟨n, a, p, h3, h4, h5⟩ := (hg _).complete h1 hN
      refine ⟨n, a, depParser g n, h3, by rw [depFind_eq, hd _ n p h4], ?_⟩
      rcases h5 with h5 | ⟨a', h5, h6⟩
      · exact .inl fun r e => by unfold depParser onSnd; simp only [h4, h5]
      · exact .inr ⟨a', h5, fun r e => by unfold depParser onSnd; simp only [h4, h6]⟩

/-! ### Statements up to the end of the text -/

inductive TopSeq {σ : Type} (stmt : List Tok → σ → σ → Prop) : List Tok → σ → σ → Prop
  | stop {s : σ} : TopSeq stmt [] s s
  | blank {t : List Tok} {s s' : σ} : TopSeq stmt t s s' → TopSeq stmt (.nl :: t) s s'
  | stmt {a t : List Tok} {s s1 s2 : σ} : stmt a s s1 → TopSeq stmt t s1 s2 → TopSeq stmt (a ++ t) s s2

theorem top_sound {σ : Type} {N : Nat} {find : Bytes → Option (LParser σ)} {stmt : List Tok → σ → σ → Prop} (h : OtherSpec N find stmt) :
    ∀ (n : Nat) (s : σ) (ts : List Tok) (e : Nat) (s' : σ) (e' : Nat), cfgL find false false n ⟨s, ts, e⟩ = .ok ⟨s', [], e'⟩ →
      e ≤ e' ∧ (e' = e → ∃ t, (t = ts ∨ t = ts ++ [.nl]) ∧ TopSeq stmt t s s')
  | 0, s, ts, e, s', e', hr => by simp [cfgL] at hr
  | n + 1, s, [], e, s', e', hr => by
    simp [cfgL] at hr
    obtain ⟨rfl, rfl⟩ := hr
    exact ⟨Nat.le_refl _, fun _ => ⟨[], .inl rfl, .stop⟩⟩
  | n + 1, s, .eof :: ts, e, s', e', hr => by simp [cfgL] at hr
  | n + 1, s, .error :: ts, e, s', e', hr => by simp [cfgL] at hr
  | n + 1, s, .nl :: ts, e, s', e', hr => by
    obtain ⟨h1, h2⟩ := top_sound h n s ts e s' e' (by simpa [cfgL] using hr)
    refine ⟨h1, fun he => ?_⟩
    obtain ⟨t, h3, ht⟩ := h2 he
    refine ⟨.nl :: t, ?_, .blank ht⟩
    rcases h3 with rfl | rfl
    · exact .inl rfl
    · exact .inr rfl
  | n + 1, s, .number x :: ts, e, s', e', hr => by
    obtain ⟨h1, h2⟩ := top_sound h n s ts (e + 1) s' e' (by simpa [cfgL] using hr)
    exact ⟨by omega, fun he => by omega⟩
  | n + 1, s, .string x :: ts, e, s', e', hr => by
    obtain ⟨h1, h2⟩ := top_sound h n s ts (e + 1) s' e' (by simpa [cfgL] using hr)
    exact ⟨by omega, fun he => by omega⟩
  | n + 1, s, .literal x :: ts, e, s', e', hr => by
    obtain ⟨h1, h2⟩ := top_sound h n s ts (e + 1) s' e' (by simpa [cfgL] using hr)
    exact ⟨by omega, fun he => by omega⟩
  | n + 1, s, .ident w :: ts, e, s', e', hr => by
    rw [cfgL] at hr
    dsimp only at hr
    cases hf : find w with
    | none => rw [hf] at hr; cases hr
    | some p =>
      rw [hf] at hr
      dsimp only at hr
      cases hp : p ⟨s, ts, e⟩ with
      | fail => rw [hp] at hr; cases hr
      | fin x => exact absurd hp (h.fin hf)
      | nonl x =>
        obtain ⟨s1, r1, e1⟩ := x
        rw [hp] at hr
        dsimp only at hr
        obtain ⟨h1, h2⟩ := h.nonl hf hp
        obtain ⟨h3, h4⟩ := top_sound h n s1 r1 e1 s' e' hr
        refine ⟨by omega, fun he => ?_⟩
        obtain ⟨a, rfl, ha⟩ := h2 (by omega)
        obtain ⟨t, h5, ht⟩ := h4 (by omega)
        refine ⟨.ident w :: a ++ t, ?_, .stmt ha ht⟩
        rcases h5 with rfl | rfl
        · exact .inl rfl
        · exact .inr (by simp)
      | ok x =>
        obtain ⟨s1, r1, e1⟩ := x
        rw [hp] at hr
        dsimp only at hr
        obtain ⟨h1, h2⟩ := h.ok hf hp
        cases r1 with
        | nil =>
          simp only [Bool.false_eq_true, if_false] at hr
          cases n with
          | zero => simp [cfgL] at hr
          | succ n =>
            simp [cfgL] at hr
            obtain ⟨rfl, rfl⟩ := hr
            refine ⟨h1, fun he => ?_⟩
            obtain ⟨a, rfl, ha⟩ := h2 he
            refine ⟨.ident w :: (a ++ [.nl]) ++ [], .inr (by simp), .stmt ha .stop⟩
        | cons u r2 =>
          cases u with
          | nl =>
            simp only [Bool.false_eq_true, if_false] at hr
            obtain ⟨h3, h4⟩ := top_sound h n s1 r2 e1 s' e' hr
            refine ⟨by omega, fun he => ?_⟩
            obtain ⟨a, rfl, ha⟩ := h2 (by omega)
            obtain ⟨t, h5, ht⟩ := h4 (by omega)
            refine ⟨.ident w :: (a ++ [.nl]) ++ t, ?_, .stmt ha ht⟩
            rcases h5 with rfl | rfl
            · exact .inl (by simp)
            · exact .inr (by simp)
          | _ => cases hr

theorem top_complete {σ : Type} {N : Nat} {find : Bytes → Option (LParser σ)} {stmt : List Tok → σ → σ → Prop} (h : OtherSpec N find stmt)
    {t : List Tok} {s s' : σ} (ht : TopSeq stmt t s s') : ∀ (n : Nat), t.length < n → t.length ≤ N → ∀ (e : Nat),
      cfgL find false false n ⟨s, t, e⟩ = .ok ⟨s', [], e⟩ := by
  induction ht with
  | stop =>
    intro n hn hN e
    cases n with
    | zero => simp at hn
    | succ n => simp [cfgL]
  | blank _ ih =>
    intro n hn hN e
    cases n with
    | zero => simp at hn
    | succ n =>
      rw [cfgL]
      exact ih n (by simpa using hn) (by simp at hN; omega) e
  | @stmt a t s s1 s2 ha _ ih =>
    intro n hn hN e
    simp only [List.length_append] at hn hN
    obtain ⟨w, b, p, rfl, hf, hp⟩ := h.complete ha (by omega)
    cases n with
    | zero => simp at hn
    | succ n =>
      rw [cfgL]
      simp only [List.length_cons] at hn
      dsimp only [List.cons_append]
      rw [hf]
      dsimp only
      rcases hp with hp | ⟨a', rfl, hp⟩
      · rw [hp]
        exact ih n (by omega) (by omega) e
      · rw [List.append_assoc, List.singleton_append, hp]
        simp only [Bool.false_eq_true, if_false]
        exact ih n (by omega) (by omega) e

end Pound
