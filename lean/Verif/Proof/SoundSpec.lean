import Verif.Proof.TopStmt
import Verif.Proof.SvcAll

namespace Pound

open Spec

/-! ### Parsers that read only certain statements, on texts with a property -/

/-- What is read is a statement of `stmt`, on texts with `P`. -/
structure SoundSpec {ω : Type} (P : List Tok → Prop) (find : Bytes → Option (LParser ω)) (stmt : List Tok → ω → ω → Prop) : Prop where
  fin : ∀ {n : Bytes} {p : LParser ω}, find n = some p → ∀ {s x}, p s ≠ .fin x
  ok : ∀ {n : Bytes} {p : LParser ω}, find n = some p → ∀ {s ts e s' r e'}, p ⟨s, ts, e⟩ = .ok ⟨s', r, e'⟩ →
    e ≤ e' ∧ (e' = e → P (.ident n :: ts) → ∃ a, ts = a ++ r ∧ stmt (.ident n :: (a ++ [.nl])) s s')
  nonl : ∀ {n : Bytes} {p : LParser ω}, find n = some p → ∀ {s ts e s' r e'}, p ⟨s, ts, e⟩ = .nonl ⟨s', r, e'⟩ →
    e ≤ e' ∧ (e' = e → P (.ident n :: ts) → ∃ a, ts = a ++ r ∧ stmt (.ident n :: a) s s')

/-- The same for a section -/
structure SoundSect {σ : Type} (P : List Tok → Prop) (find : Bytes → Option (LParser σ)) (stmt : List Tok → σ → σ → Prop) : Prop where
  fin : ∀ {n : Bytes} {p : LParser σ}, ciEq b!"End" n = false → find n = some p → ∀ {s x}, p s ≠ .fin x
  ok : ∀ {n : Bytes} {p : LParser σ}, ciEq b!"End" n = false → find n = some p → ∀ {s ts e s' r e'}, p ⟨s, ts, e⟩ = .ok ⟨s', r, e'⟩ →
    e ≤ e' ∧ (e' = e → P (.ident n :: ts) → ∃ a, ts = a ++ r ∧ stmt (.ident n :: (a ++ [.nl])) s s')
  nonl : ∀ {n : Bytes} {p : LParser σ}, ciEq b!"End" n = false → find n = some p → ∀ {s ts e s' r e'}, p ⟨s, ts, e⟩ = .nonl ⟨s', r, e'⟩ →
    e ≤ e' ∧ (e' = e → P (.ident n :: ts) → ∃ a, ts = a ++ r ∧ stmt (.ident n :: a) s s')
  stop : ∀ {n : Bytes}, ciEq b!"End" n = true → find n = some endParser

theorem OtherSpec.sound {ω : Type} {N : Nat} {P : List Tok → Prop} {find : Bytes → Option (LParser ω)} {stmt : List Tok → ω → ω → Prop} (h : OtherSpec N find stmt) :
    SoundSpec P find stmt where
  fin := h.fin
  ok := fun hf _ _ _ _ _ _ hp => ⟨(h.ok hf hp).1, fun he _ => (h.ok hf hp).2 he⟩
  nonl := fun hf _ _ _ _ _ _ hp => ⟨(h.nonl hf hp).1, fun he _ => (h.nonl hf hp).2 he⟩

theorem SoundSpec.mono {ω : Type} {P : List Tok → Prop} {find : Bytes → Option (LParser ω)} {stmt stmt' : List Tok → ω → ω → Prop} (h : SoundSpec P find stmt)
    (hs : ∀ t o o', stmt t o o' → stmt' t o o') : SoundSpec P find stmt' where
  fin := h.fin
  ok := fun hf _ _ _ _ _ _ hp => ⟨(h.ok hf hp).1, fun he hP => let ⟨a, h1, h2⟩ := (h.ok hf hp).2 he hP; ⟨a, h1, hs _ _ _ h2⟩⟩
  nonl := fun hf _ _ _ _ _ _ hp => ⟨(h.nonl hf hp).1, fun he hP => let ⟨a, h1, h2⟩ := (h.nonl hf hp).2 he hP; ⟨a, h1, hs _ _ _ h2⟩⟩

theorem kw_sound {ω : Type} {P : List Tok → Prop} {kw : Bytes} {p : LParser ω} {stmt : List Tok → ω → ω → Prop} (hno : ∀ s x, p s ≠ .nonl x ∧ p s ≠ .fin x)
    (sound : ∀ n, ciEq kw n = true → ∀ s ts e s' r e', p ⟨s, ts, e⟩ = .ok ⟨s', r, e'⟩ → e ≤ e' ∧ (e' = e → P (.ident n :: ts) → ∃ a, ts = a ++ r ∧ stmt (.ident n :: (a ++ [.nl])) s s')) :
    SoundSpec P (kwStmt kw p) stmt where
  fin := by
    intro n q hq s x
    obtain ⟨_, rfl⟩ := kwStmt_some hq
    exact (hno s x).2
  ok := by
    intro n q hq s ts e s' r e' h
    obtain ⟨hk, rfl⟩ := kwStmt_some hq
    exact sound n hk _ _ _ _ _ _ h
  nonl := by
    intro n q hq s ts e s' r e' h
    obtain ⟨hk, rfl⟩ := kwStmt_some hq
    exact absurd h (hno _ _).1

theorem lens_sound {α ω : Type} {P : List Tok → Prop} {kw : Bytes} {p : LParser α} {stmt : List Tok → α → α → Prop} (h : SoundSpec P (kwStmt kw p) stmt) (get : ω → α) (set : ω → α → ω) :
    SoundSpec P (kwStmt kw (onLens get set p)) (fun t o o' => ∃ x, stmt t (get o) x ∧ o' = set o x) where
  fin := by
    intro n q hq s x hx
    obtain ⟨hk, rfl⟩ := kwStmt_some hq
    obtain ⟨s', x', h1⟩ := onLens_fin hx
    exact h.fin (kwStmt_of hk) h1
  ok := by
    intro n q hq s ts e s' r e' hp
    obtain ⟨hk, rfl⟩ := kwStmt_some hq
    obtain ⟨x, h1, h2⟩ := onLens_ok hp
    obtain ⟨h3, h4⟩ := h.ok (kwStmt_of hk) h1
    refine ⟨h3, fun he hP => ?_⟩
    obtain ⟨a, h5, h6⟩ := h4 he hP
    exact ⟨a, h5, x, h6, h2⟩
  nonl := by
    intro n q hq s ts e s' r e' hp
    obtain ⟨hk, rfl⟩ := kwStmt_some hq
    obtain ⟨x, h1, h2⟩ := onLens_nonl hp
    obtain ⟨h3, h4⟩ := h.nonl (kwStmt_of hk) h1
    refine ⟨h3, fun he hP => ?_⟩
    obtain ⟨a, h5, h6⟩ := h4 he hP
    exact ⟨a, h5, x, h6, h2⟩

theorem or_sound {ω : Type} {P : List Tok → Prop} {f g : Bytes → Option (LParser ω)} {s1 s2 : List Tok → ω → ω → Prop} (hf : SoundSpec P f s1) (hg : SoundSpec P g s2) :
    SoundSpec P (orFind f g) (fun t o o' => s1 t o o' ∨ s2 t o o') where
  fin := by
    intro n p hp
    rcases orFind_word hp with h | h
    · exact hf.fin h
    · exact hg.fin h
  ok := by
    intro n p hp s ts e s' r e' hr
    rcases orFind_word hp with h | h
    · obtain ⟨h2, h3⟩ := hf.ok h hr
      exact ⟨h2, fun he hP => let ⟨a, h4, h5⟩ := h3 he hP; ⟨a, h4, .inl h5⟩⟩
    · obtain ⟨h2, h3⟩ := hg.ok h hr
      exact ⟨h2, fun he hP => let ⟨a, h4, h5⟩ := h3 he hP; ⟨a, h4, .inr h5⟩⟩
  nonl := by
    intro n p hp s ts e s' r e' hr
    rcases orFind_word hp with h | h
    · obtain ⟨h2, h3⟩ := hf.nonl h hr
      exact ⟨h2, fun he hP => let ⟨a, h4, h5⟩ := h3 he hP; ⟨a, h4, .inl h5⟩⟩
    · obtain ⟨h2, h3⟩ := hg.nonl h hr
      exact ⟨h2, fun he hP => let ⟨a, h4, h5⟩ := h3 he hP; ⟨a, h4, .inr h5⟩⟩

theorem both_sound {σ ω : Type} {N : Nat} {P : List Tok → Prop} {f : Bytes → Option (LParser σ)} {g : Bytes → Option (LParser ω)} {s1 : List Tok → σ → σ → Prop}
    {s2 : List Tok → ω → ω → Prop} (hf : StmtSpec N f s1) (hg : SoundSpec P g s2) : SoundSect P (bothFind f g) (BothStmt s1 s2) where
  fin := by
    intro n p hn hb s x hp
    unfold bothFind at hb
    cases h1 : f n with
    | some q =>
      rw [h1] at hb
      cases hb
      obtain ⟨s', x', h2⟩ := onFst_fin hp
      exact hf.fin hn h1 h2
    | none =>
      rw [h1] at hb
      dsimp only at hb
      rw [Option.map_eq_some_iff] at hb
      obtain ⟨q, hq, rfl⟩ := hb
      obtain ⟨s', x', h2⟩ := onSnd_fin hp
      exact hg.fin hq h2
  ok := by
    intro n p hn hb s ts e s' r e' hp
    unfold bothFind at hb
    cases h1 : f n with
    | some q =>
      rw [h1] at hb
      cases hb
      obtain ⟨h2, h3⟩ := onFst_ok hp
      obtain ⟨h4, h5⟩ := hf.ok hn h1 h2
      exact ⟨h4, fun he _ => let ⟨a, h6, h7⟩ := h5 he; ⟨a, h6, .inl ⟨h7, h3⟩⟩⟩
    | none =>
      rw [h1] at hb
      dsimp only at hb
      rw [Option.map_eq_some_iff] at hb
      obtain ⟨q, hq, rfl⟩ := hb
      obtain ⟨h2, h3⟩ := onSnd_ok hp
      obtain ⟨h4, h5⟩ := hg.ok hq h2
      exact ⟨h4, fun he hP => let ⟨a, h6, h7⟩ := h5 he hP; ⟨a, h6, .inr ⟨h7, h3⟩⟩⟩
  nonl := by
    intro n p hn hb s ts e s' r e' hp
    unfold bothFind at hb
    cases h1 : f n with
    | some q =>
      rw [h1] at hb
      cases hb
      obtain ⟨h2, h3⟩ := onFst_nonl hp
      obtain ⟨h4, h5⟩ := hf.nonl hn h1 h2
      exact ⟨h4, fun he _ => let ⟨a, h6, h7⟩ := h5 he; ⟨a, h6, .inl ⟨h7, h3⟩⟩⟩
    | none =>
      rw [h1] at hb
      dsimp only at hb
      rw [Option.map_eq_some_iff] at hb
      obtain ⟨q, hq, rfl⟩ := hb
      obtain ⟨h2, h3⟩ := onSnd_nonl hp
      obtain ⟨h4, h5⟩ := hg.nonl hq h2
      exact ⟨h4, fun he hP => let ⟨a, h6, h7⟩ := h5 he hP; ⟨a, h6, .inr ⟨h7, h3⟩⟩⟩
  stop := by
    intro n hn
    unfold bothFind
    rw [hf.stop hn]
    dsimp only
    rw [onFst_end]

theorem sect_soundP {σ : Type} {P : List Tok → Prop} (hP : ∀ {a r}, P (a ++ r) → P r) {find : Bytes → Option (LParser σ)} {stmt : List Tok → σ → σ → Prop} (h : SoundSect P find stmt) :
    ∀ (n : Nat) (s : σ) (ts : List Tok) (e : Nat) (s' : σ) (r : List Tok) (e' : Nat), cfgL find false true n ⟨s, ts, e⟩ = .ok ⟨s', r, e'⟩ →
      e ≤ e' ∧ (e' = e → P ts → ∃ t, ts = t ++ r ∧ Sect stmt t s s')
  | 0, s, ts, e, s', r, e', hr => by simp [cfgL] at hr
  | n + 1, s, [], e, s', r, e', hr => by simp [cfgL] at hr
  | n + 1, s, .eof :: ts, e, s', r, e', hr => by simp [cfgL] at hr
  | n + 1, s, .error :: ts, e, s', r, e', hr => by simp [cfgL] at hr
  | n + 1, s, .nl :: ts, e, s', r, e', hr => by
    obtain ⟨h1, h2⟩ := sect_soundP hP h n s ts e s' r e' (by simpa [cfgL] using hr)
    refine ⟨h1, fun he hp0 => ?_⟩
    obtain ⟨t, rfl, ht⟩ := h2 he (hP (a := [.nl]) hp0)
    exact ⟨.nl :: t, rfl, .blank ht⟩
  | n + 1, s, .number x :: ts, e, s', r, e', hr => by
    obtain ⟨h1, h2⟩ := sect_soundP hP h n s ts (e + 1) s' r e' (by simpa [cfgL] using hr)
    exact ⟨by omega, fun he _ => by omega⟩
  | n + 1, s, .string x :: ts, e, s', r, e', hr => by
    obtain ⟨h1, h2⟩ := sect_soundP hP h n s ts (e + 1) s' r e' (by simpa [cfgL] using hr)
    exact ⟨by omega, fun he _ => by omega⟩
  | n + 1, s, .literal x :: ts, e, s', r, e', hr => by
    obtain ⟨h1, h2⟩ := sect_soundP hP h n s ts (e + 1) s' r e' (by simpa [cfgL] using hr)
    exact ⟨by omega, fun he _ => by omega⟩
  | n + 1, s, .ident w :: ts, e, s', r, e', hr => by
    rw [cfgL] at hr
    dsimp only at hr
    cases hw : ciEq b!"End" w with
    | true =>
      rw [h.stop hw] at hr
      dsimp only [endParser] at hr
      simp only [LR.ok.injEq, LSt.mk.injEq] at hr
      obtain ⟨rfl, rfl, rfl⟩ := hr
      exact ⟨Nat.le_refl _, fun _ _ => ⟨[.ident w], rfl, .stop hw⟩⟩
    | false =>
      cases hf : find w with
      | none => rw [hf] at hr; cases hr
      | some p =>
        rw [hf] at hr
        dsimp only at hr
        cases hp : p ⟨s, ts, e⟩ with
        | fail => rw [hp] at hr; cases hr
        | fin x => exact absurd hp (h.fin hw hf)
        | nonl x =>
          obtain ⟨s1, r1, e1⟩ := x
          rw [hp] at hr
          dsimp only at hr
          obtain ⟨h1, h2⟩ := h.nonl hw hf hp
          obtain ⟨h3, h4⟩ := sect_soundP hP h n s1 r1 e1 s' r e' hr
          refine ⟨by omega, fun he hp0 => ?_⟩
          obtain ⟨a, rfl, ha⟩ := h2 (by omega) hp0
          obtain ⟨t, rfl, ht⟩ := h4 (by omega) (hP (a := .ident w :: a) hp0)
          exact ⟨.ident w :: a ++ t, by simp, .stmt ha ht⟩
        | ok x =>
          obtain ⟨s1, r1, e1⟩ := x
          rw [hp] at hr
          dsimp only at hr
          obtain ⟨h1, h2⟩ := h.ok hw hf hp
          cases r1 with
          | nil =>
            simp only [Bool.false_eq_true, if_false] at hr
            obtain ⟨h3, h4⟩ := sect_soundP hP h n s1 [] e1 s' r e' hr
            cases n with
            | zero => simp [cfgL] at hr
            | succ n => simp [cfgL] at hr
          | cons u r2 =>
            cases u with
            | nl =>
              simp only [Bool.false_eq_true, if_false] at hr
              obtain ⟨h3, h4⟩ := sect_soundP hP h n s1 r2 e1 s' r e' hr
              refine ⟨by omega, fun he hp0 => ?_⟩
              obtain ⟨a, rfl, ha⟩ := h2 (by omega) hp0
              obtain ⟨t, rfl, ht⟩ := h4 (by omega) (hP (a := .ident w :: (a ++ [.nl])) (by simpa using hp0))
              exact ⟨.ident w :: (a ++ [.nl]) ++ t, by simp, .stmt ha ht⟩
            | _ => cases hr


theorem top_soundP {σ : Type} {P : List Tok → Prop} (hP : ∀ {a r}, P (a ++ r) → P r) {find : Bytes → Option (LParser σ)} {stmt : List Tok → σ → σ → Prop} (h : SoundSpec P find stmt) :
    ∀ (n : Nat) (s : σ) (ts : List Tok) (e : Nat) (s' : σ) (e' : Nat), cfgL find false false n ⟨s, ts, e⟩ = .ok ⟨s', [], e'⟩ →
      e ≤ e' ∧ (e' = e → P ts → ∃ t, (t = ts ∨ t = ts ++ [.nl]) ∧ TopSeq stmt t s s')
  | 0, s, ts, e, s', e', hr => by simp [cfgL] at hr
  | n + 1, s, [], e, s', e', hr => by
    simp [cfgL] at hr
    obtain ⟨rfl, rfl⟩ := hr
    exact ⟨Nat.le_refl _, fun _ _ => ⟨[], .inl rfl, .stop⟩⟩
  | n + 1, s, .eof :: ts, e, s', e', hr => by simp [cfgL] at hr
  | n + 1, s, .error :: ts, e, s', e', hr => by simp [cfgL] at hr
  | n + 1, s, .nl :: ts, e, s', e', hr => by
    obtain ⟨h1, h2⟩ := top_soundP hP h n s ts e s' e' (by simpa [cfgL] using hr)
    refine ⟨h1, fun he hp0 => ?_⟩
    obtain ⟨t, h3, ht⟩ := h2 he (hP (a := [.nl]) hp0)
    refine ⟨.nl :: t, ?_, .blank ht⟩
    rcases h3 with rfl | rfl
    · exact .inl rfl
    · exact .inr rfl
  | n + 1, s, .number x :: ts, e, s', e', hr => by
    obtain ⟨h1, h2⟩ := top_soundP hP h n s ts (e + 1) s' e' (by simpa [cfgL] using hr)
    exact ⟨by omega, fun he _ => by omega⟩
  | n + 1, s, .string x :: ts, e, s', e', hr => by
    obtain ⟨h1, h2⟩ := top_soundP hP h n s ts (e + 1) s' e' (by simpa [cfgL] using hr)
    exact ⟨by omega, fun he _ => by omega⟩
  | n + 1, s, .literal x :: ts, e, s', e', hr => by
    obtain ⟨h1, h2⟩ := top_soundP hP h n s ts (e + 1) s' e' (by simpa [cfgL] using hr)
    exact ⟨by omega, fun he _ => by omega⟩
  | n + 1, s, .ident w :: ts, e, s', e', hr => by
    rw [cfgL] at hr
    dsimp only at hr
    cases hf : find w with
    | none => rw [hf] at hr; cases hr
    | some p =>
      rw [hf] at hr
      dsimp only at hr
      cases hp : p ⟨s, ts, e⟩ with
      | fail => rw [hp] at hr; cases hr
      | fin x => exact absurd hp (h.fin hf)
      | nonl x =>
        obtain ⟨s1, r1, e1⟩ := x
        rw [hp] at hr
        dsimp only at hr
        obtain ⟨h1, h2⟩ := h.nonl hf hp
        obtain ⟨h3, h4⟩ := top_soundP hP h n s1 r1 e1 s' e' hr
        refine ⟨by omega, fun he hp0 => ?_⟩
        obtain ⟨a, rfl, ha⟩ := h2 (by omega) hp0
        obtain ⟨t, h5, ht⟩ := h4 (by omega) (hP (a := .ident w :: a) hp0)
        refine ⟨.ident w :: a ++ t, ?_, .stmt ha ht⟩
        rcases h5 with rfl | rfl
        · exact .inl rfl
        · exact .inr (by simp)
      | ok x =>
        obtain ⟨s1, r1, e1⟩ := x
        rw [hp] at hr
        dsimp only at hr
        obtain ⟨h1, h2⟩ := h.ok hf hp
        cases r1 with
        | nil =>
          simp only [Bool.false_eq_true, if_false] at hr
          cases n with
          | zero => simp [cfgL] at hr
          | succ n =>
            simp [cfgL] at hr
            obtain ⟨rfl, rfl⟩ := hr
            refine ⟨h1, fun he hp0 => ?_⟩
            obtain ⟨a, rfl, ha⟩ := h2 he hp0
            refine ⟨.ident w :: (a ++ [.nl]) ++ [], .inr (by simp), .stmt ha .stop⟩
        | cons u r2 =>
          cases u with
          | nl =>
            simp only [Bool.false_eq_true, if_false] at hr
            obtain ⟨h3, h4⟩ := top_soundP hP h n s1 r2 e1 s' e' hr
            refine ⟨by omega, fun he hp0 => ?_⟩
            obtain ⟨a, rfl, ha⟩ := h2 (by omega) hp0
            obtain ⟨t, h5, ht⟩ := h4 (by omega) (hP (a := .ident w :: (a ++ [.nl])) (by simpa using hp0))
            refine ⟨.ident w :: (a ++ [.nl]) ++ t, ?_, .stmt ha ht⟩
            rcases h5 with rfl | rfl
            · exact .inl (by simp)
            · exact .inr (by simp)
          | _ => cases hr


theorem listen_soundP {ω : Type} {P : List Tok → Prop} (hP : ∀ {a r}, P (a ++ r) → P r) {e : LstEnv} {d : LstDfl} {other : Bytes → Option (LParser ω)} {ostmt : List Tok → ω → ω → Prop} (ho : SoundSpec P other ostmt)
    {init : ω} {certs : ω → List Bytes} {tls : Bool} {n : Nat} {ls ls' : List (Lst ω)} {ts r : List Tok} {er er' : Nat}
    (h : listenParser e d other init certs tls n ⟨ls, ts, er⟩ = .ok ⟨ls', r, er'⟩) : er ≤ er' ∧ (er' = er → P ts → ∃ t x, ts = t ++ r ∧ ls' = ls ++ [x] ∧ x.tls = tls ∧
      Listens e d ostmt init certs (ls.filterMap (·.name)) t x) := by
  have go : ∀ {name : Option Bytes} {body : List Tok}, (match cfgL (bothFind (lstFind e d tls) other) false true n ⟨(lstInit d, init), body, er⟩ with
      | .ok s2 =>
        match lstFinish e tls (certs s2.data.2) s2.data.1 with
        | none => .fail
        | some (a, st) => .ok ⟨ls ++ [⟨name, tls, a, st, s2.data.2⟩], s2.toks, s2.errs⟩
      | _ => .fail) = LR.ok ⟨ls', r, er'⟩ → er ≤ er' ∧ (er' = er → P body → ∃ t l s a st o, body = t ++ r ∧ ls' = ls ++ [⟨name, tls, a, st, o⟩] ∧
        SetBody (ListenArgs e d tls) ostmt t l init o ∧ LstOrder l ∧ LstMeans d l s ∧ (tls = true → certsOf l ≠ []) ∧
        ListensAt e (if tls then b!"443" else b!"80") l a ∧ ClientCerts tls (certs o) l s st) := by
    intro name body hg
    split at hg
    · rename_i s2 h2
      obtain ⟨⟨st0, o⟩, r2, e2⟩ := s2
      dsimp only at hg
      split at hg
      · cases hg
      · rename_i a st h3
        simp only [LR.ok.injEq, LSt.mk.injEq] at hg
        obtain ⟨h4, h5, h6⟩ := hg
        subst h5 h6
        obtain ⟨h7, h8⟩ := sect_soundP hP (both_sound (lstFind_spec e d tls n) ho) n _ _ _ _ _ _ h2
        refine ⟨h7, fun he hp => ?_⟩
        obtain ⟨t, h9, h10⟩ := h8 he hp
        obtain ⟨l, h11, h12⟩ := sect_body h10
        dsimp only at h11 h12
        obtain ⟨h13, h14⟩ := lst_iff.mp h12
        obtain ⟨h15, h16, h17⟩ := (certs_iff h14 (body_mode h11)).mp h3
        exact ⟨t, l, st0, a, st, o, h9, h4.symm, h11, h13, h14, h16, h15, h17⟩
    · cases hg
  unfold listenParser at h
  dsimp only at h
  split at h
  · rename_i nm r0
    split at h
    · cases h
    · rename_i hn
      obtain ⟨h1, h2⟩ := go h
      refine ⟨h1, fun he hp => ?_⟩
      obtain ⟨t, l, s, a, st, o, rfl, h4, h5, h6, h7, h8, h9, h10⟩ := h2 he (hP (a := [_]) hp)
      refine ⟨.string nm :: t, _, rfl, h4, rfl, ⟨t, l, s, .inr ⟨nm, rfl, rfl, ?_⟩, h5, h6, h7, h8, h9, h10⟩⟩
      intro hm
      apply hn
      obtain ⟨y, hy, hy2⟩ := List.mem_filterMap.mp hm
      rw [List.any_eq_true]
      exact ⟨y, hy, by simp [hy2]⟩
  · obtain ⟨h1, h2⟩ := go h
    refine ⟨h1, fun he hp => ?_⟩
    obtain ⟨t, l, s, a, st, o, rfl, h4, h5, h6, h7, h8, h9, h10⟩ := h2 he hp
    exact ⟨t, _, rfl, h4, rfl, ⟨t, l, s, .inl ⟨rfl, rfl⟩, h5, h6, h7, h8, h9, h10⟩⟩


end Pound
