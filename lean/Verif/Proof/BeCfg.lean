import Verif.Spec.BeCfg
import Verif.Proof.CfgSect
import Verif.Proof.SvcCfg
import Verif.Proof.Balance

namespace Pound

open Spec

/-! ### Settings -/

/-- The statement of a setting -/
def kwOf : BeSetting → BeKw
  | .addr _ => .addr
  | .port _ => .port
  | .family _ => .family
  | .resolve _ => .resolve
  | .ignoreWeight _ => .ignoreWeight
  | .ttl _ => .ttl
  | .retry _ => .retry
  | .prio _ => .prio
  | .to _ => .to
  | .wsTo _ => .wsTo
  | .connTo _ => .connTo
  | .https => .https
  | .cert _ => .cert
  | .ciphers _ => .ciphers
  | .disable _ => .disable
  | .disabled _ => .disabled
  | .sni _ => .sni

/-- The effect of a setting -/
def applySet (x : BeSetting) (s : BeSt) : Option BeSt :=
  match x with
  | .addr v => some { s with m := { s.m with host := some v } }
  | .port v => some { s with m := { s.m with port := v } }
  | .family v => some { s with m := { s.m with family := v } }
  | .resolve v => some { s with m := { s.m with resolve := v } }
  | .ignoreWeight v => some { s with m := { s.m with ignoreWeight := v } }
  | .ttl v => some { s with m := { s.m with ttl := v } }
  | .retry v => some { s with m := { s.m with retry := v } }
  | .prio v => some { s with prio := v }
  | .to v => some { s with m := { s.m with to := v } }
  | .wsTo v => some { s with m := { s.m with wsTo := v } }
  | .connTo v => some { s with m := { s.m with connTo := v } }
  | .https => some { s with m := { s.m with ctx := some [] } }
  | .cert f => s.m.ctx.map fun l => { s with m := { s.m with ctx := some (l ++ [.cert f]) } }
  | .ciphers f => s.m.ctx.map fun l => { s with m := { s.m with ctx := some (l ++ [.ciphers f]) } }
  | .disable n => s.m.ctx.map fun l => { s with m := { s.m with ctx := some (l ++ [.disable n]) } }
  | .disabled v => some { s with disabled := if v then 1 else 0 }
  | .sni v => some { s with m := { s.m with sni := some v } }

theorem resArg_some {α : Type} {x : Res (Option α)} {v : α} : resArg x = some v ↔ x = .ok (some v) := by
  cases x with
  | ub => simp [resArg]
  | ok y => simp [resArg]

theorem range_some {u : Tok} {v : Int} : assignRange 1 (-1) u = .ok (some v) ↔ assignInt u = .ok (some v) ∧ 1 ≤ v := by
  unfold assignRange
  cases h : assignInt u with
  | ub => simp
  | ok y =>
    cases y with
    | none => simp
    | some n =>
      by_cases hn : n < 1
      · simp [hn]
        intro h1; omega
      · simp [hn]
        intro h1; omega

theorem addrArg_some {u : Tok} {v : Bytes} : addrArg u = some v ↔ u = .ident v ∨ u = .string v ∨ u = .literal v := by
  cases u <;> simp [addrArg]

theorem strArg_some {u : Tok} {v : Bytes} : strArg u = some v ↔ u = .string v := by
  cases u <;> simp [strArg]

theorem portArg_some {e : BeEnv} {u : Tok} {v : Nat} : portArg e u = some v ↔ ∃ s, (u = .ident s ∨ u = .number s) ∧ e.port s = some v := by
  cases u <;> simp [portArg]

theorem kwToTok_cons {a : Bytes} {v : Nat} {tab : List (Bytes × Nat)} {n : Bytes} :
    kwToTok ((a, v) :: tab) false n = if a = n then some v else kwToTok tab false n := by
  unfold kwToTok
  rw [List.find?_cons]
  by_cases h : a = n
  · simp [h]
  · have : (a == n) = false := by simpa using h
    simp [this, h]

theorem kwToTok_nil {n : Bytes} : kwToTok [] false n = none := rfl

theorem famArg_some {u : Tok} {f : AddrFam} : famArg u = some f ↔ ∃ s, u = .ident s ∧ (s, f) ∈ famNames := by
  unfold famArg enumArg famNames
  cases u with
  | ident s =>
    simp only [kwToTok_cons, kwToTok_nil]
    by_cases h1 : b!"any" = s
    · subst h1; cases f <;> simp
    · by_cases h2 : b!"unix" = s
      · subst h2; cases f <;> simp
      · by_cases h3 : b!"inet" = s
        · subst h3; cases f <;> simp
        · by_cases h4 : b!"inet6" = s
          · subst h4; cases f <;> simp
          · rw [if_neg h1, if_neg h2, if_neg h3, if_neg h4]
            refine ⟨fun h => (by cases h), ?_⟩
            rintro ⟨s', hs', hm⟩
            cases hs'
            simp only [List.mem_cons, Prod.mk.injEq, List.not_mem_nil, or_false] at hm
            rcases hm with hm | hm | hm | hm
            · exact absurd hm.1.symm h1
            · exact absurd hm.1.symm h2
            · exact absurd hm.1.symm h3
            · exact absurd hm.1.symm h4
  | _ => simp

theorem resolveArg_some {u : Tok} {f : ResolveMode} : resolveArg u = some f ↔ ∃ s, u = .ident s ∧ (s, f) ∈ resolveNames := by
  unfold resolveArg enumArg resolveNames
  cases u with
  | ident s =>
    simp only [kwToTok_cons, kwToTok_nil]
    by_cases h1 : b!"immediate" = s
    · subst h1; cases f <;> simp
    · by_cases h2 : b!"first" = s
      · subst h2; cases f <;> simp
      · by_cases h3 : b!"all" = s
        · subst h3; cases f <;> simp
        · by_cases h4 : b!"srv" = s
          · subst h4; cases f <;> simp
          · rw [if_neg h1, if_neg h2, if_neg h3, if_neg h4]
            refine ⟨fun h => (by cases h), ?_⟩
            rintro ⟨s', hs', hm⟩
            cases hs'
            simp only [List.mem_cons, Prod.mk.injEq, List.not_mem_nil, or_false] at hm
            rcases hm with hm | hm | hm | hm
            · exact absurd hm.1.symm h1
            · exact absurd hm.1.symm h2
            · exact absurd hm.1.symm h3
            · exact absurd hm.1.symm h4
  | _ => simp

theorem protoArg_some {u : Tok} {f : Nat} : protoArg u = some f ↔ ∃ s, u = .ident s ∧ (s, f) ∈ protoNames := by
  unfold protoArg enumArg protoNames
  cases u with
  | ident s =>
    simp only [kwToTok_cons, kwToTok_nil]
    constructor
    · intro h
      refine ⟨s, rfl, ?_⟩
      split at h
      · rename_i h1; subst h1; cases h; simp
      split at h
      · rename_i h1; subst h1; cases h; simp
      split at h
      · rename_i h1; subst h1; cases h; simp
      split at h
      · rename_i h1; subst h1; cases h; simp
      split at h
      · rename_i h1; subst h1; cases h; simp
      · cases h
    · rintro ⟨s', hs', hm⟩
      cases hs'
      simp only [List.mem_cons, Prod.mk.injEq, List.not_mem_nil, or_false] at hm
      rcases hm with hm | hm | hm | hm | hm <;> (obtain ⟨rfl, rfl⟩ := hm; rfl)
  | _ => simp

/-- `beSet` does what the setting says that its argument gives. -/
theorem beSet_sound {e : BeEnv} {k : BeKw} {u : Tok} {s s' : BeSt} {n : Bytes} (hn : ∃ a, (a, k) ∈ beTable ∧ ciEq a n = true) (h : beSet e k u s = some s') :
    ∃ x, BeLine e [.ident n, u, .nl] x ∧ applySet x s = some s' ∧ kwOf x = k := by
  obtain ⟨a, ha, hn⟩ := hn
  cases k <;> simp [beTable] at ha <;> subst ha <;> simp only [beSet, Option.map_eq_some_iff] at h
  · obtain ⟨v, hv, rfl⟩ := h
    exact ⟨.addr v, .addr hn (addrArg_some.mp hv), rfl, rfl⟩
  · obtain ⟨v, hv, rfl⟩ := h
    obtain ⟨w, h1, h2⟩ := portArg_some.mp hv
    exact ⟨.port v, .port hn h1 h2, rfl, rfl⟩
  · obtain ⟨v, hv, rfl⟩ := h
    obtain ⟨w, rfl, h2⟩ := famArg_some.mp hv
    exact ⟨.family v, .family hn h2, rfl, rfl⟩
  · obtain ⟨v, hv, rfl⟩ := h
    obtain ⟨w, rfl, h2⟩ := resolveArg_some.mp hv
    exact ⟨.resolve v, .resolve hn h2, rfl, rfl⟩
  · obtain ⟨v, hv, rfl⟩ := h
    exact ⟨.ignoreWeight v, .ignoreWeight hn (resArg_some.mp hv), rfl, rfl⟩
  · obtain ⟨v, hv, rfl⟩ := h
    exact ⟨.ttl v, .ttl hn (resArg_some.mp hv), rfl, rfl⟩
  · obtain ⟨v, hv, rfl⟩ := h
    exact ⟨.retry v, .retry hn (resArg_some.mp hv), rfl, rfl⟩
  · obtain ⟨v, hv, rfl⟩ := h
    obtain ⟨h1, h2⟩ := range_some.mp (resArg_some.mp hv)
    exact ⟨.prio v, .prio hn h1 h2, rfl, rfl⟩
  · obtain ⟨v, hv, rfl⟩ := h
    exact ⟨.to v, .to hn (resArg_some.mp hv), rfl, rfl⟩
  · obtain ⟨v, hv, rfl⟩ := h
    exact ⟨.wsTo v, .wsTo hn (resArg_some.mp hv), rfl, rfl⟩
  · obtain ⟨v, hv, rfl⟩ := h
    exact ⟨.connTo v, .connTo hn (resArg_some.mp hv), rfl, rfl⟩
  · cases h
  · split at h
    · rename_i l f hl hf
      rw [strArg_some] at hf
      subst hf
      split at h
      · rename_i hc
        exact ⟨.cert f, .cert hn hc, by simpa [applySet, hl] using h, rfl⟩
      · cases h
    · cases h
  · split at h
    · rename_i l f hl hf
      rw [strArg_some] at hf
      subst hf
      exact ⟨.ciphers f, .ciphers hn, by simpa [applySet, hl] using h, rfl⟩
    · cases h
  · split at h
    · rename_i l f hl hf
      obtain ⟨w, rfl, h2⟩ := protoArg_some.mp hf
      exact ⟨.disable f, .disable hn h2, by simpa [applySet, hl] using h, rfl⟩
    · cases h
  · obtain ⟨v, hv, rfl⟩ := h
    exact ⟨.disabled v, .disabled hn (resArg_some.mp hv), rfl, rfl⟩
  · obtain ⟨v, hv, rfl⟩ := h
    rw [strArg_some] at hv
    subst hv
    exact ⟨.sni v, .sni hn, rfl, rfl⟩

theorem beParser_sound {e : BeEnv} {k : BeKw} {n : Bytes} (hk : kwFind beTable n = some k) {s s' : BeSt} {ts r : List Tok} {er er' : Nat}
    (h : beParser e k ⟨s, ts, er⟩ = .ok ⟨s', r, er'⟩) :
    er' = er ∧ ∃ a x, ts = a ++ r ∧ BeLine e (.ident n :: (a ++ [.nl])) x ∧ applySet x s = some s' ∧ kwOf x = k := by
  have hm := kwFind_mem hk
  unfold beParser at h
  split at h
  · rename_i hh
    subst hh
    dsimp only at h
    simp only [LR.ok.injEq, LSt.mk.injEq] at h
    obtain ⟨h1, h2, h3⟩ := h
    obtain ⟨a, ha, hn⟩ := hm
    simp [beTable] at ha
    subst ha
    exact ⟨h3.symm, [], .https, by simpa using h2, .https hn, by rw [← h1]; rfl, rfl⟩
  · dsimp only at h
    split at h
    · cases h
    · rename_i u r'
      split at h
      · cases h
      · rename_i d hd
        simp only [LR.ok.injEq, LSt.mk.injEq] at h
        obtain ⟨rfl, rfl, rfl⟩ := h
        obtain ⟨x, h1, h2, h3⟩ := beSet_sound hm hd
        exact ⟨rfl, [u], x, rfl, h1, h2, h3⟩

theorem beParser_ok {e : BeEnv} {k : BeKw} {s : LSt BeSt} : (∀ x, beParser e k s ≠ .nonl x) ∧ (∀ x, beParser e k s ≠ .fin x) := by
  unfold beParser
  split
  · simp
  · split
    · simp
    · split <;> simp

theorem beLine_kw {e : BeEnv} {t : List Tok} {x : BeSetting} (h : BeLine e t x) :
    ∃ n a, t = .ident n :: (a ++ [.nl]) ∧ kwFind beTable n = some (kwOf x) ∧ ciEq b!"End" n = false ∧
      ∀ (s s' : BeSt) (r : List Tok) (er : Nat), applySet x s = some s' → beParser e (kwOf x) ⟨s, a ++ r, er⟩ = .ok ⟨s', r, er⟩ := by
  have key : ∀ {w n : Bytes} {k : BeKw}, kwFind beTable w = some k → ciEq b!"End" w = false → ciEq w n = true →
      kwFind beTable n = some k ∧ ciEq b!"End" n = false := by
    intro w n k h1 h2 h3
    refine ⟨by rw [kwFind_congr _ h3, h1], ?_⟩
    cases hE : ciEq b!"End" n with
    | false => rfl
    | true => rw [ciEq_trans hE (by rw [ciEq_comm]; exact h3)] at h2; cases h2
  have one : ∀ {k : BeKw} {u : Tok} {x : BeSetting}, kwOf x = k → k ≠ .https → (∀ s s', applySet x s = some s' → beSet e k u s = some s') →
      ∀ (s s' : BeSt) (r : List Tok) (er : Nat), applySet x s = some s' → beParser e (kwOf x) ⟨s, [u] ++ r, er⟩ = .ok ⟨s', r, er⟩ := by
    intro k u x hk hh h s s' r er ha
    subst hk
    unfold beParser
    rw [if_neg hh]
    dsimp only [List.singleton_append]
    rw [h s s' ha]
  cases h with
  | @addr n h u hn hu =>
    obtain ⟨h1, h2⟩ := key (k := .addr) (by decide) (by decide) hn
    refine ⟨n, [u], rfl, h1, h2, one (k := .addr) rfl (by decide) fun s s' ha => ?_⟩
    simp only [beSet, addrArg_some.mpr hu]; exact ha
  | @port n w u v hn hu hp =>
    obtain ⟨h1, h2⟩ := key (k := .port) (by decide) (by decide) hn
    refine ⟨n, [u], rfl, h1, h2, one (k := .port) rfl (by decide) fun s s' ha => ?_⟩
    simp only [beSet, portArg_some.mpr ⟨w, hu, hp⟩]; exact ha
  | @family n w f hn hu =>
    obtain ⟨h1, h2⟩ := key (k := .family) (by decide) (by decide) hn
    refine ⟨n, [.ident w], rfl, h1, h2, one (k := .family) rfl (by decide) fun s s' ha => ?_⟩
    simp only [beSet, famArg_some.mpr ⟨w, rfl, hu⟩]; exact ha
  | @resolve n w f hn hu =>
    obtain ⟨h1, h2⟩ := key (k := .resolve) (by decide) (by decide) hn
    refine ⟨n, [.ident w], rfl, h1, h2, one (k := .resolve) rfl (by decide) fun s s' ha => ?_⟩
    simp only [beSet, resolveArg_some.mpr ⟨w, rfl, hu⟩]; exact ha
  | @ignoreWeight n u v hn hu =>
    obtain ⟨h1, h2⟩ := key (k := .ignoreWeight) (by decide) (by decide) hn
    refine ⟨n, [u], rfl, h1, h2, one (k := .ignoreWeight) rfl (by decide) fun s s' ha => ?_⟩
    simp only [beSet, resArg_some.mpr hu]; exact ha
  | @ttl n u v hn hu =>
    obtain ⟨h1, h2⟩ := key (k := .ttl) (by decide) (by decide) hn
    refine ⟨n, [u], rfl, h1, h2, one (k := .ttl) rfl (by decide) fun s s' ha => ?_⟩
    simp only [beSet, resArg_some.mpr hu]; exact ha
  | @retry n u v hn hu =>
    obtain ⟨h1, h2⟩ := key (k := .retry) (by decide) (by decide) hn
    refine ⟨n, [u], rfl, h1, h2, one (k := .retry) rfl (by decide) fun s s' ha => ?_⟩
    simp only [beSet, resArg_some.mpr hu]; exact ha
  | @prio n u v hn hu hv =>
    obtain ⟨h1, h2⟩ := key (k := .prio) (by decide) (by decide) hn
    refine ⟨n, [u], rfl, h1, h2, one (k := .prio) rfl (by decide) fun s s' ha => ?_⟩
    simp only [beSet, resArg_some.mpr (range_some.mpr ⟨hu, hv⟩)]; exact ha
  | @to n u v hn hu =>
    obtain ⟨h1, h2⟩ := key (k := .to) (by decide) (by decide) hn
    refine ⟨n, [u], rfl, h1, h2, one (k := .to) rfl (by decide) fun s s' ha => ?_⟩
    simp only [beSet, resArg_some.mpr hu]; exact ha
  | @wsTo n u v hn hu =>
    obtain ⟨h1, h2⟩ := key (k := .wsTo) (by decide) (by decide) hn
    refine ⟨n, [u], rfl, h1, h2, one (k := .wsTo) rfl (by decide) fun s s' ha => ?_⟩
    simp only [beSet, resArg_some.mpr hu]; exact ha
  | @connTo n u v hn hu =>
    obtain ⟨h1, h2⟩ := key (k := .connTo) (by decide) (by decide) hn
    refine ⟨n, [u], rfl, h1, h2, one (k := .connTo) rfl (by decide) fun s s' ha => ?_⟩
    simp only [beSet, resArg_some.mpr hu]; exact ha
  | @https n hn =>
    obtain ⟨h1, h2⟩ := key (k := .https) (by decide) (by decide) hn
    refine ⟨n, [], rfl, h1, h2, fun s s' r er ha => ?_⟩
    simp only [applySet, Option.some.injEq] at ha
    subst ha
    rfl
  | @cert n f hn hu =>
    obtain ⟨h1, h2⟩ := key (k := .cert) (by decide) (by decide) hn
    refine ⟨n, [.string f], rfl, h1, h2, one (k := .cert) rfl (by decide) fun s s' ha => ?_⟩
    simp only [applySet, Option.map_eq_some_iff] at ha
    obtain ⟨l, hl, rfl⟩ := ha
    simp only [beSet, strArg, hl, hu, if_true]
  | @ciphers n f hn =>
    obtain ⟨h1, h2⟩ := key (k := .ciphers) (by decide) (by decide) hn
    refine ⟨n, [.string f], rfl, h1, h2, one (k := .ciphers) rfl (by decide) fun s s' ha => ?_⟩
    simp only [applySet, Option.map_eq_some_iff] at ha
    obtain ⟨l, hl, rfl⟩ := ha
    simp only [beSet, strArg, hl]
  | @disable n w f hn hu =>
    obtain ⟨h1, h2⟩ := key (k := .disable) (by decide) (by decide) hn
    refine ⟨n, [.ident w], rfl, h1, h2, one (k := .disable) rfl (by decide) fun s s' ha => ?_⟩
    simp only [applySet, Option.map_eq_some_iff] at ha
    obtain ⟨l, hl, rfl⟩ := ha
    simp only [beSet, protoArg_some.mpr ⟨w, rfl, hu⟩, hl]
  | @disabled n u v hn hu =>
    obtain ⟨h1, h2⟩ := key (k := .disabled) (by decide) (by decide) hn
    refine ⟨n, [u], rfl, h1, h2, one (k := .disabled) rfl (by decide) fun s s' ha => ?_⟩
    simp only [beSet, resArg_some.mpr hu]; exact ha
  | @sni n f hn =>
    obtain ⟨h1, h2⟩ := key (k := .sni) (by decide) (by decide) hn
    refine ⟨n, [.string f], rfl, h1, h2, one (k := .sni) rfl (by decide) fun s s' ha => ?_⟩
    simp only [beSet, strArg]; exact ha

/-! ### Sections -/

theorem useTable_be {n : Bytes} {k : BeKw} (h : kwFind useBeTable n = some k) : kwFind beTable n = some k ∧ (k = .prio ∨ k = .disabled) := by
  obtain ⟨a, ha, hn⟩ := kwFind_mem h
  simp [useBeTable] at ha
  rcases ha with ⟨rfl, rfl⟩ | ⟨rfl, rfl⟩
  · exact ⟨by rw [kwFind_congr _ hn]; decide, Or.inl rfl⟩
  · exact ⟨by rw [kwFind_congr _ hn]; decide, Or.inr rfl⟩

theorem be_use {n : Bytes} {k : BeKw} (h : kwFind beTable n = some k) (hk : k = .prio ∨ k = .disabled) : kwFind useBeTable n = some k := by
  obtain ⟨a, ha, hn⟩ := kwFind_mem h
  rcases hk with rfl | rfl <;> simp [beTable] at ha <;> subst ha <;> (rw [kwFind_congr _ hn]; decide)

/-- Statements of a Backend section and their effect -/
def beStmt (line : List Tok → BeSetting → Prop) (a : List Tok) (s s' : BeSt) : Prop := ∃ x, line a x ∧ applySet x s = some s'

theorem beFind_spec (e : BeEnv) (N : Nat) : StmtSpec N (beFind e beTable) (beStmt (BeLine e)) := by
  have find : ∀ {n : Bytes} {p : LParser BeSt}, ciEq b!"End" n = false → beFind e beTable n = some p → ∃ k, kwFind beTable n = some k ∧ p = beParser e k := by
    intro n p hn h
    unfold beFind at h
    rw [if_neg (by rw [hn]; decide)] at h
    obtain ⟨k, hk, rfl⟩ := Option.map_eq_some_iff.mp h
    exact ⟨k, hk, rfl⟩
  constructor
  · intro n p hn h s x
    obtain ⟨k, _, rfl⟩ := find hn h
    exact beParser_ok.2 x
  · intro n p hn h s ts er s' r er' hp
    obtain ⟨k, hk, rfl⟩ := find hn h
    obtain ⟨rfl, a, x, rfl, h1, h2, _⟩ := beParser_sound hk hp
    exact ⟨Nat.le_refl _, fun _ => ⟨a, rfl, x, h1, h2⟩⟩
  · intro n p hn h s ts er s' r er' hp
    obtain ⟨k, hk, rfl⟩ := find hn h
    exact absurd hp (beParser_ok.1 _)
  · intro n hn
    unfold beFind
    rw [if_pos hn]
  · rintro t s s' ⟨x, hx, ha⟩ _
    obtain ⟨n, a, rfl, hk, hE, hp⟩ := beLine_kw hx
    refine ⟨n, a ++ [.nl], beParser e (kwOf x), rfl, ?_, Or.inr ⟨a, rfl, fun r er => hp s s' _ er ha⟩⟩
    unfold beFind
    rw [if_neg (by rw [hE]; decide), hk]
    rfl

theorem useFind_spec (e : BeEnv) (N : Nat) : StmtSpec N (beFind e useBeTable) (beStmt (RefLine e)) := by
  have find : ∀ {n : Bytes} {p : LParser BeSt}, ciEq b!"End" n = false → beFind e useBeTable n = some p → ∃ k, kwFind useBeTable n = some k ∧ p = beParser e k := by
    intro n p hn h
    unfold beFind at h
    rw [if_neg (by rw [hn]; decide)] at h
    obtain ⟨k, hk, rfl⟩ := Option.map_eq_some_iff.mp h
    exact ⟨k, hk, rfl⟩
  constructor
  · intro n p hn h s x
    obtain ⟨k, _, rfl⟩ := find hn h
    exact beParser_ok.2 x
  · intro n p hn h s ts er s' r er' hp
    obtain ⟨k, hk, rfl⟩ := find hn h
    obtain ⟨hk1, hk2⟩ := useTable_be hk
    obtain ⟨rfl, a, x, rfl, h1, h2, h3⟩ := beParser_sound hk1 hp
    refine ⟨Nat.le_refl _, fun _ => ⟨a, rfl, x, ?_, h2⟩⟩
    subst h3
    cases x <;> simp [kwOf] at hk2
    · exact .prio h1
    · exact .disabled h1
  · intro n p hn h s ts er s' r er' hp
    obtain ⟨k, hk, rfl⟩ := find hn h
    exact absurd hp (beParser_ok.1 _)
  · intro n hn
    unfold beFind
    rw [if_pos hn]
  · rintro t s s' ⟨x, hx, ha⟩ _
    have hx' : BeLine e t x ∧ (kwOf x = .prio ∨ kwOf x = .disabled) := by
      cases hx with
      | prio h => exact ⟨h, Or.inl rfl⟩
      | disabled h => exact ⟨h, Or.inr rfl⟩
    obtain ⟨n, a, rfl, hk, hE, hp⟩ := beLine_kw hx'.1
    refine ⟨n, a ++ [.nl], beParser e (kwOf x), rfl, ?_, Or.inr ⟨a, rfl, fun r er => hp s s' _ er ha⟩⟩
    unfold beFind
    rw [if_neg (by rw [hE]; decide), be_use hk hx'.2]
    rfl

/-- Settings one after the other -/
def applyAll : List BeSetting → BeSt → Option BeSt
  | [], s => some s
  | x :: l, s => (applySet x s).bind (applyAll l)

theorem sect_items {line : List Tok → BeSetting → Prop} {t : List Tok} {s s' : BeSt} :
    Sect (beStmt line) t s s' ↔ ∃ l, Items line t l ∧ applyAll l s = some s' := by
  constructor
  · intro h
    induction h with
    | stop hw => exact ⟨[], .stop hw, rfl⟩
    | blank _ ih =>
      obtain ⟨l, h1, h2⟩ := ih
      exact ⟨l, .blank h1, h2⟩
    | stmt ha _ ih =>
      obtain ⟨x, hx, hax⟩ := ha
      obtain ⟨l, h1, h2⟩ := ih
      exact ⟨x :: l, .item hx h1, by rw [applyAll, hax]; exact h2⟩
  · rintro ⟨l, h, ha⟩
    induction h generalizing s with
    | stop hw =>
      simp only [applyAll, Option.some.injEq] at ha
      subst ha
      exact .stop hw
    | blank _ ih => exact .blank (ih ha)
    | item hx _ ih =>
      rw [applyAll] at ha
      obtain ⟨s1, h1, h2⟩ := Option.bind_eq_some_iff.mp ha
      exact .stmt ⟨_, hx, h1⟩ (ih h2)

/-! ### What the settings give -/

theorem applyAll_field {α : Type} (f : BeSt → α) (g : BeSetting → Option α) (h : ∀ x s s', applySet x s = some s' → f s' = (g x).getD (f s)) :
    ∀ (l : List BeSetting) (s s' : BeSt), applyAll l s = some s' → f s' = lastOr (f s) (l.filterMap g)
  | [], s, s', ha => by
    simp only [applyAll, Option.some.injEq] at ha
    subst ha
    rfl
  | x :: l, s, s', ha => by
    rw [applyAll] at ha
    obtain ⟨s1, h1, h2⟩ := Option.bind_eq_some_iff.mp ha
    rw [applyAll_field f g h l s1 s' h2, h x s s1 h1, List.filterMap_cons]
    rw [lastOr_cons]
    cases g x <;> rfl

theorem lastOr_map {α : Type} {g : BeSetting → Option α} (l : List BeSetting) :
    lastOr none (l.filterMap fun x => (g x).map some) = (l.filterMap g).getLast? := by
  have : l.filterMap (fun x => (g x).map some) = (l.filterMap g).map some := by
    induction l with
    | nil => rfl
    | cons x l ih =>
      rw [List.filterMap_cons, List.filterMap_cons]
      cases g x <;> simp [ih]
  rw [this]
  unfold lastOr
  rw [List.getLast?_map]
  cases (l.filterMap g).getLast? <;> rfl

theorem applySet_ctx {x : BeSetting} {s s' : BeSt} (h : applySet x s = some s') :
    (x = .https ∧ s'.m.ctx = some []) ∨ (x ≠ .https ∧ ctxSet x = none ∧ s'.m.ctx = s.m.ctx) ∨
      (x ≠ .https ∧ ∃ o c, ctxSet x = some o ∧ s.m.ctx = some c ∧ s'.m.ctx = some (c ++ [o])) := by
  cases x with
  | https => simp only [applySet, Option.some.injEq] at h; subst h; exact Or.inl ⟨rfl, rfl⟩
  | cert f =>
    simp only [applySet, Option.map_eq_some_iff] at h
    obtain ⟨c, hc, rfl⟩ := h
    exact Or.inr (Or.inr ⟨by simp, _, c, rfl, hc, rfl⟩)
  | ciphers f =>
    simp only [applySet, Option.map_eq_some_iff] at h
    obtain ⟨c, hc, rfl⟩ := h
    exact Or.inr (Or.inr ⟨by simp, _, c, rfl, hc, rfl⟩)
  | disable f =>
    simp only [applySet, Option.map_eq_some_iff] at h
    obtain ⟨c, hc, rfl⟩ := h
    exact Or.inr (Or.inr ⟨by simp, _, c, rfl, hc, rfl⟩)
  | _ => simp only [applySet, Option.some.injEq] at h; subst h; exact Or.inr (Or.inl ⟨by simp, rfl, rfl⟩)

theorem applyAll_plain : ∀ (l : List BeSetting) (s s' : BeSt), applyAll l s = some s' → .https ∉ l → s'.m.ctx = s.m.ctx.map (· ++ l.filterMap ctxSet)
  | [], s, s', ha, _ => by
    simp only [applyAll, Option.some.injEq] at ha
    subst ha
    cases s.m.ctx <;> simp
  | x :: l, s, s', ha, hn => by
    rw [applyAll] at ha
    obtain ⟨s1, h1, h2⟩ := Option.bind_eq_some_iff.mp ha
    simp only [List.mem_cons, not_or] at hn
    rw [applyAll_plain l s1 s' h2 hn.2, List.filterMap_cons]
    rcases applySet_ctx h1 with ⟨hx, _⟩ | ⟨_, ho, hc⟩ | ⟨_, o, c, ho, hc, hs⟩
    · exact absurd hx.symm hn.1
    · rw [ho, hc]
    · rw [ho, hs, hc]; simp

theorem applyAll_append : ∀ (l1 l2 : List BeSetting) (s : BeSt), applyAll (l1 ++ l2) s = (applyAll l1 s).bind (applyAll l2)
  | [], l2, s => rfl
  | x :: l1, l2, s => by
    rw [List.cons_append, applyAll, applyAll]
    cases applySet x s with
    | none => rfl
    | some s1 => exact applyAll_append l1 l2 s1

theorem applyAll_tls {l pre post : List BeSetting} {s s' : BeSt} (ha : applyAll l s = some s') (hl : l = pre ++ .https :: post) (hn : .https ∉ post) :
    s'.m.ctx = some (post.filterMap ctxSet) := by
  subst hl
  rw [applyAll_append] at ha
  obtain ⟨s1, h1, h2⟩ := Option.bind_eq_some_iff.mp ha
  rw [applyAll] at h2
  obtain ⟨s2, h3, h4⟩ := Option.bind_eq_some_iff.mp h2
  rw [applyAll_plain post s2 s' h4 hn]
  simp only [applySet, Option.some.injEq] at h3
  subst h3
  simp

theorem applyAll_order {l : List BeSetting} {s s' : BeSt} (ha : applyAll l s = some s') (hs : s.m.ctx = none) : TlsOrder l := by
  intro pre x post hl hx
  subst hl
  rw [applyAll_append] at ha
  obtain ⟨s1, h1, h2⟩ := Option.bind_eq_some_iff.mp ha
  rw [applyAll] at h2
  obtain ⟨s2, h3, h4⟩ := Option.bind_eq_some_iff.mp h2
  by_cases hp : .https ∈ pre
  · exact hp
  · exfalso
    have hc := applyAll_plain pre s s1 h1 hp
    rw [hs] at hc
    rcases applySet_ctx h3 with ⟨rfl, _⟩ | ⟨_, ho, _⟩ | ⟨_, o, c, ho, hc', _⟩
    · simp [ctxSet] at hx
    · rw [ho] at hx; cases hx
    · rw [hc] at hc'; cases hc'

theorem applySet_total {x : BeSetting} {s : BeSt} (h : (ctxSet x).isSome = true → s.m.ctx ≠ none) : ∃ s', applySet x s = some s' := by
  cases x with
  | cert f =>
    cases hc : s.m.ctx with
    | none => exact absurd hc (h rfl)
    | some c => exact ⟨_, by rw [applySet, hc]; rfl⟩
  | ciphers f =>
    cases hc : s.m.ctx with
    | none => exact absurd hc (h rfl)
    | some c => exact ⟨_, by rw [applySet, hc]; rfl⟩
  | disable f =>
    cases hc : s.m.ctx with
    | none => exact absurd hc (h rfl)
    | some c => exact ⟨_, by rw [applySet, hc]; rfl⟩
  | _ => exact ⟨_, rfl⟩

theorem applyAll_total : ∀ (l : List BeSetting) (s : BeSt),
    (∀ pre x post, l = pre ++ x :: post → (ctxSet x).isSome = true → .https ∈ pre ∨ s.m.ctx ≠ none) → ∃ s', applyAll l s = some s'
  | [], s, _ => ⟨s, rfl⟩
  | x :: l, s, h => by
    obtain ⟨s1, h1⟩ := applySet_total (x := x) (s := s) fun hx => by
      rcases h [] x l rfl hx with h | h
      · cases h
      · exact h
    obtain ⟨s', h2⟩ := applyAll_total l s1 fun pre y post hl hy => by
      rcases h (x :: pre) y post (by rw [hl]; rfl) hy with h' | h'
      · rcases List.mem_cons.mp h' with h' | h'
        · right
          rcases applySet_ctx h1 with ⟨_, hc⟩ | ⟨hx, _⟩ | ⟨hx, _⟩
          · rw [hc]; simp
          · exact absurd h'.symm hx
          · exact absurd h'.symm hx
        · exact Or.inl h'
      · right
        rcases applySet_ctx h1 with ⟨_, hc⟩ | ⟨_, _, hc⟩ | ⟨_, o, c, _, _, hc⟩
        · rw [hc]; simp
        · rw [hc]; exact h'
        · rw [hc]; simp
    exact ⟨s', by rw [applyAll, h1]; exact h2⟩

theorem applyAll_means {d : BeDfl} {l : List BeSetting} {b : BeSt} (ha : applyAll l (beInit d) = some b) : BeMeans d l b := by
  have key : ∀ {α : Type} (f : BeSt → α) (g : BeSetting → Option α), (∀ x s s', applySet x s = some s' → f s' = (g x).getD (f s)) →
      f b = lastOr (f (beInit d)) (l.filterMap g) := fun f g h => applyAll_field f g h l _ b ha
  have step : ∀ {α : Type} (f : BeSt → α) (g : BeSetting → Option α),
      (∀ x s s', applySet x s = some s' → f s' = (g x).getD (f s)) → ∀ x s s', applySet x s = some s' → f s' = (g x).getD (f s) := fun _ _ h => h
  constructor
  · rw [← lastOr_map]
    refine key (fun s => s.m.host) (fun x => (hostSet x).map some) fun x s s' h => ?_
    cases x <;> simp only [applySet, Option.some.injEq, Option.map_eq_some_iff] at h <;> first | (subst h; rfl) | (obtain ⟨_, _, rfl⟩ := h; rfl)
  · refine key (fun s => s.m.port) portSet fun x s s' h => ?_
    cases x <;> simp only [applySet, Option.some.injEq, Option.map_eq_some_iff] at h <;> first | (subst h; rfl) | (obtain ⟨_, _, rfl⟩ := h; rfl)
  · refine key (fun s => s.m.family) familySet fun x s s' h => ?_
    cases x <;> simp only [applySet, Option.some.injEq, Option.map_eq_some_iff] at h <;> first | (subst h; rfl) | (obtain ⟨_, _, rfl⟩ := h; rfl)
  · refine key (fun s => s.m.resolve) resolveSet fun x s s' h => ?_
    cases x <;> simp only [applySet, Option.some.injEq, Option.map_eq_some_iff] at h <;> first | (subst h; rfl) | (obtain ⟨_, _, rfl⟩ := h; rfl)
  · refine key (fun s => s.m.retry) retrySet fun x s s' h => ?_
    cases x <;> simp only [applySet, Option.some.injEq, Option.map_eq_some_iff] at h <;> first | (subst h; rfl) | (obtain ⟨_, _, rfl⟩ := h; rfl)
  · refine key (fun s => s.m.ignoreWeight) ignoreWeightSet fun x s s' h => ?_
    cases x <;> simp only [applySet, Option.some.injEq, Option.map_eq_some_iff] at h <;> first | (subst h; rfl) | (obtain ⟨_, _, rfl⟩ := h; rfl)
  · refine key (fun s => s.m.ttl) ttlSet fun x s s' h => ?_
    cases x <;> simp only [applySet, Option.some.injEq, Option.map_eq_some_iff] at h <;> first | (subst h; rfl) | (obtain ⟨_, _, rfl⟩ := h; rfl)
  · refine key (fun s => s.m.to) toSet fun x s s' h => ?_
    cases x <;> simp only [applySet, Option.some.injEq, Option.map_eq_some_iff] at h <;> first | (subst h; rfl) | (obtain ⟨_, _, rfl⟩ := h; rfl)
  · refine key (fun s => s.m.connTo) connToSet fun x s s' h => ?_
    cases x <;> simp only [applySet, Option.some.injEq, Option.map_eq_some_iff] at h <;> first | (subst h; rfl) | (obtain ⟨_, _, rfl⟩ := h; rfl)
  · refine key (fun s => s.m.wsTo) wsToSet fun x s s' h => ?_
    cases x <;> simp only [applySet, Option.some.injEq, Option.map_eq_some_iff] at h <;> first | (subst h; rfl) | (obtain ⟨_, _, rfl⟩ := h; rfl)
  · rw [← lastOr_map]
    refine key (fun s => s.m.sni) (fun x => (sniSet x).map some) fun x s s' h => ?_
    cases x <;> simp only [applySet, Option.some.injEq, Option.map_eq_some_iff] at h <;> first | (subst h; rfl) | (obtain ⟨_, _, rfl⟩ := h; rfl)
  · refine key (fun s => s.prio) prioSet fun x s s' h => ?_
    cases x <;> simp only [applySet, Option.some.injEq, Option.map_eq_some_iff] at h <;> first | (subst h; rfl) | (obtain ⟨_, _, rfl⟩ := h; rfl)
  · refine key (fun s => s.disabled) disabledSet fun x s s' h => ?_
    cases x <;> simp only [applySet, Option.some.injEq, Option.map_eq_some_iff] at h <;> first | (subst h; rfl) | (obtain ⟨_, _, rfl⟩ := h; rfl)
  · intro hn
    have := applyAll_plain l _ b ha hn
    exact this
  · intro pre post hl hn
    exact applyAll_tls ha hl hn

theorem last_https : ∀ {l : List BeSetting}, .https ∈ l → ∃ pre post, l = pre ++ .https :: post ∧ .https ∉ post
  | [], h => by cases h
  | x :: l, h => by
    by_cases hl : .https ∈ l
    · obtain ⟨pre, post, h1, h2⟩ := last_https hl
      exact ⟨x :: pre, post, by rw [h1]; rfl, h2⟩
    · rcases List.mem_cons.mp h with h | h
      · exact ⟨[], l, by rw [h]; rfl, hl⟩
      · exact absurd h hl

theorem beMeans_unique {d : BeDfl} {l : List BeSetting} {a b : BeSt} (ha : BeMeans d l a) (hb : BeMeans d l b) : a = b := by
  have hc : a.m.ctx = b.m.ctx := by
    by_cases h : .https ∈ l
    · obtain ⟨pre, post, h1, h2⟩ := last_https h
      rw [ha.tls pre post h1 h2, hb.tls pre post h1 h2]
    · rw [ha.plain h, hb.plain h]
  have h1 := ha.host.trans hb.host.symm
  have h2 := ha.port.trans hb.port.symm
  have h3 := ha.family.trans hb.family.symm
  have h4 := ha.resolve.trans hb.resolve.symm
  have h5 := ha.retry.trans hb.retry.symm
  have h6 := ha.ignoreWeight.trans hb.ignoreWeight.symm
  have h7 := ha.ttl.trans hb.ttl.symm
  have h8 := ha.to.trans hb.to.symm
  have h9 := ha.connTo.trans hb.connTo.symm
  have h10 := ha.wsTo.trans hb.wsTo.symm
  have h11 := ha.sni.trans hb.sni.symm
  have h12 := ha.prio.trans hb.prio.symm
  have h13 := ha.disabled.trans hb.disabled.symm
  obtain ⟨ap, ad, ⟨a1, a2, a3, a4, a5, a6, a7, a8, a9, a10, a11, a12⟩⟩ := a
  obtain ⟨bp, bd, ⟨b1, b2, b3, b4, b5, b6, b7, b8, b9, b10, b11, b12⟩⟩ := b
  dsimp only at hc h1 h2 h3 h4 h5 h6 h7 h8 h9 h10 h11 h12 h13
  subst hc h1 h2 h3 h4 h5 h6 h7 h8 h9 h10 h11 h12 h13
  rfl

theorem applyAll_iff {d : BeDfl} {l : List BeSetting} {b : BeSt} : applyAll l (beInit d) = some b ↔ TlsOrder l ∧ BeMeans d l b := by
  constructor
  · intro h
    exact ⟨applyAll_order h rfl, applyAll_means h⟩
  · rintro ⟨h1, h2⟩
    obtain ⟨s', hs⟩ := applyAll_total l (beInit d) fun pre x post hl hx => Or.inl (h1 pre x post hl hx)
    rw [hs, beMeans_unique (applyAll_means hs) h2]

theorem section_sect {e : BeEnv} {d : BeDfl} {t : List Tok} {b : BeSt} : BeSection e d t b ↔ Sect (beStmt (BeLine e)) t (beInit d) b := by
  rw [sect_items]
  unfold BeSection
  constructor
  · rintro ⟨l, h1, h2⟩
    exact ⟨l, h1, applyAll_iff.mpr h2⟩
  · rintro ⟨l, h1, h2⟩
    exact ⟨l, h1, applyAll_iff.mp h2⟩

/-- A Backend section is accepted exactly if it is one. -/
theorem backend_section (e : BeEnv) (d : BeDfl) (n : Nat) (ts : List Tok) (er : Nat) :
    (∀ b r er', parseBackendInternal e d n ts er = .ok ⟨b, r, er'⟩ → er ≤ er' ∧ (er' = er → ∃ t, ts = t ++ r ∧ BeSection e d t b)) ∧
    (∀ t r b, ts = t ++ r → BeSection e d t b → t.length ≤ n → parseBackendInternal e d n ts er = .ok ⟨b, r, er⟩) := by
  unfold parseBackendInternal
  constructor
  · intro b r er' h
    obtain ⟨h1, h2⟩ := sect_sound (beFind_spec e n) n _ _ _ _ _ _ h
    refine ⟨h1, fun he => ?_⟩
    obtain ⟨t, ht, hs⟩ := h2 he
    exact ⟨t, ht, section_sect.mpr hs⟩
  · rintro t r b rfl hs hn
    exact sect_complete (beFind_spec e n) (section_sect.mp hs) n hn hn r er

end Pound
