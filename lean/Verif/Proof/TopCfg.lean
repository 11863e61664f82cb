import Verif.Proof.CfgTop
import Verif.Proof.LstSvc
import Verif.Spec.TopCfg

namespace Pound

open Spec

/-! ### Arguments -/

theorem topArg1_some {α : Type} {f : Tok → Option α} {mk : α → TopSet} {ts r : List Tok} {x : TopSet} :
    topArg1 f mk ts = some (x, r) ↔ ∃ t v, ts = t :: r ∧ f t = some v ∧ x = mk v := by
  cases ts with
  | nil => simp [topArg1]
  | cons t ts =>
    simp only [topArg1, Option.map_eq_some_iff, Prod.mk.injEq, List.cons.injEq]
    constructor
    · rintro ⟨v, h1, h2, h3⟩; exact ⟨t, v, ⟨rfl, h3⟩, h1, h2.symm⟩
    · rintro ⟨t', v, ⟨rfl, h3⟩, h1, h2⟩; exact ⟨v, h1, h2.symm, h3⟩

theorem unq_text {t : Tok} : isUnqTok t = true ↔ t = .ident t.text ∨ t = .number t.text ∨ t = .literal t.text := by
  cases t <;> simp [isUnqTok, Tok.text]

theorem fac_mem : ∀ x ∈ facilityTable, x ∈ facilities := by decide

theorem fac_mem' : ∀ x ∈ facilities, x ∈ facilityTable := by decide

theorem fac_find : ∀ x ∈ facilities, kwToTok facilityTable true x.1 = some x.2 := by decide

theorem fac_dash : ∀ x ∈ facilities, ciEq x.1 b!"-" = false := by decide

theorem kwToTok_ci {tab : List (Bytes × Nat)} {w s : Bytes} (h : ciEq w s = true) : kwToTok tab true s = kwToTok tab true w := by
  unfold kwToTok
  congr 1
  congr 1
  funext x
  simp only [if_true]
  cases h1 : ciEq x.1 s with
  | true => rw [ciEq_trans h1 (by rw [ciEq_comm]; exact h)]
  | false =>
    cases h2 : ciEq x.1 w with
    | false => rfl
    | true => rw [ciEq_trans h2 h] at h1; cases h1

theorem facilityArg_some {u : Tok} {v : Option Nat} : facilityArg u = some v ↔
    ((u = .ident b!"-" ∨ u = .number b!"-" ∨ u = .literal b!"-") ∧ v = none) ∨
    ∃ s w k, (u = .ident s ∨ u = .number s ∨ u = .literal s) ∧ (w, k) ∈ facilities ∧ ciEq w s = true ∧ v = some k := by
  unfold facilityArg
  constructor
  · intro h
    split at h
    · rename_i hu
      have ht := unq_text.mp hu
      split at h
      · rename_i hd
        cases h
        rw [hd] at ht
        exact .inl ⟨ht, rfl⟩
      · obtain ⟨k, h1, rfl⟩ := Option.map_eq_some_iff.mp h
        unfold kwToTok at h1
        obtain ⟨x, hx, rfl⟩ := Option.map_eq_some_iff.mp h1
        have h2 := List.find?_some hx
        simp only [if_true] at h2
        exact .inr ⟨u.text, x.1, x.2, ht, fac_mem _ (List.mem_of_find?_eq_some hx), h2, rfl⟩
    · cases h
  · rintro (⟨hu, rfl⟩ | ⟨s, w, k, hu, hm, hc, rfl⟩)
    · rcases hu with rfl | rfl | rfl <;> rfl
    · have hs : s ≠ b!"-" := by
        rintro rfl
        have := fac_dash _ hm
        rw [hc] at this
        cases this
      have hk : kwToTok facilityTable true s = some k := by
        rw [kwToTok_ci hc]
        exact fac_find _ hm
      rcases hu with rfl | rfl | rfl <;> simp [isUnqTok, Tok.text, hs, hk]

theorem reTypeArg_some {pcre : Bool} {u : Tok} {k : GKind} : reTypeArg pcre u = some k ↔
    (u = .ident b!"posix" ∧ k = .posix) ∨ (pcre = true ∧ (u = .ident b!"pcre" ∨ u = .ident b!"perl") ∧ k = .pcre) := by
  unfold reTypeArg enumArg
  cases u with
  | ident s =>
    cases pcre with
    | true =>
      simp only [if_true, kwToTok_cons, kwToTok_nil]
      by_cases h1 : b!"posix" = s
      · subst h1; cases k <;> simp
      · by_cases h2 : b!"pcre" = s
        · subst h2; cases k <;> simp
        · by_cases h3 : b!"perl" = s
          · subst h3; cases k <;> simp
          · simp [h1, h2, h3, Ne.symm h1, Ne.symm h2, Ne.symm h3, eq_comm]
    | false =>
      simp only [Bool.false_eq_true, if_false, kwToTok_cons, kwToTok_nil]
      by_cases h1 : b!"posix" = s
      · subst h1; cases k <;> simp
      · simp [h1, Ne.symm h1, eq_comm]
  | _ => simp

theorem combineLoop_iff : ∀ {ts : List Tok} {l : List Bytes} {r : List Tok}, combineLoop ts = some (l, r) ↔ ∃ t, ts = t ++ r ∧ CombineLines t l
  | [], l, r => by
    refine ⟨fun h => (by cases h), ?_⟩
    rintro ⟨t, h1, h2⟩
    cases h2 <;> cases h1
  | u :: ts, l, r => by
    have no : ∀ {u : Tok}, u ≠ .nl → (∀ w, u ≠ .ident w) → (∀ s, u ≠ .string s) → ¬ ∃ t, u :: ts = t ++ r ∧ CombineLines t l := by
      rintro u h1 h2 h3 ⟨t, h4, h5⟩
      cases h5 <;> cases h4
      · exact h2 _ rfl
      · exact h1 rfl
      · exact h3 _ rfl
    cases u with
    | nl =>
      rw [combineLoop, combineLoop_iff]
      constructor
      · rintro ⟨t, rfl, h⟩; exact ⟨.nl :: t, rfl, .blank h⟩
      · rintro ⟨t, h1, h2⟩
        cases h2 with
        | blank h3 => cases h1; exact ⟨_, rfl, h3⟩
        | stop _ => cases h1
        | name _ => cases h1
    | ident w =>
      rw [combineLoop]
      constructor
      · intro h
        split at h
        · rename_i hw; cases h; exact ⟨[.ident w], rfl, .stop hw⟩
        · cases h
      · rintro ⟨t, h1, h2⟩
        cases h2 with
        | stop h3 => cases h1; rw [if_pos h3]; rfl
        | blank _ => cases h1
        | name _ => cases h1
    | string s =>
      rw [combineLoop]
      simp only [Option.map_eq_some_iff, Prod.mk.injEq]
      constructor
      · rintro ⟨⟨l1, r1⟩, h1, rfl, rfl⟩
        obtain ⟨t, rfl, h2⟩ := combineLoop_iff.mp h1
        exact ⟨.string s :: t, rfl, .name h2⟩
      · rintro ⟨t, h1, h2⟩
        cases h2 with
        | @name _ t' l' h3 => cases h1; exact ⟨(l', r), combineLoop_iff.mpr ⟨t', rfl, h3⟩, rfl, rfl⟩
        | blank _ => cases h1
        | stop _ => cases h1
    | number s => exact ⟨fun h => (by cases h), fun h => absurd h (no (by simp) (by simp) (by simp))⟩
    | literal s => exact ⟨fun h => (by cases h), fun h => absurd h (no (by simp) (by simp) (by simp))⟩
    | eof => exact ⟨fun h => (by cases h), fun h => absurd h (no (by simp) (by simp) (by simp))⟩
    | error => exact ⟨fun h => (by cases h), fun h => absurd h (no (by simp) (by simp) (by simp))⟩

def tnonl (k : TopKw) : Bool := k = .hdrOpt

theorem logSetArg_some {u : Tok} {x : TopSet} : logSetArg u = some x ↔ (∃ s, u = .string s ∧ x = .logName s) ∨ ∃ s, u = .number s ∧ x = .logNum s := by
  cases u <;> simp [logSetArg, eq_comm]

theorem topArg_sound {pcre : Bool} {w : Bytes} {k : TopKw} {ts r : List Tok} {x : TopSet} (hw : (w, k) ∈ topTable) (h : topArg pcre k ts = some (x, r)) :
    ∃ a, ts = a ++ (if tnonl k then .nl :: r else r) ∧ TopArgs pcre w a x := by
  have txt : ∀ {f : Bytes → TopSet}, (w, f) ∈ topTexts → topArg1 strArg f ts = some (x, r) → ∃ a, ts = a ++ r ∧ TopArgs pcre w a x := by
    intro f hm h1
    obtain ⟨t, v, rfl, h2, rfl⟩ := topArg1_some.mp h1
    rw [strArg_some] at h2
    subst h2
    exact ⟨[_], rfl, .text hm⟩
  have bool : ∀ {f : Bool → TopSet}, (w, f) ∈ topBools → topArg1 (fun t => resArg (assignBool t)) f ts = some (x, r) → ∃ a, ts = a ++ r ∧ TopArgs pcre w a x := by
    intro f hm h1
    obtain ⟨t, v, rfl, h2, rfl⟩ := topArg1_some.mp h1
    exact ⟨[_], rfl, .bool hm (resArg_some.mp h2)⟩
  have num : ∀ {f : Nat → TopSet}, (w, f) ∈ topNumbers → topArg1 (fun t => resArg (assignUnsigned t)) f ts = some (x, r) → ∃ a, ts = a ++ r ∧ TopArgs pcre w a x := by
    intro f hm h1
    obtain ⟨t, v, rfl, h2, rfl⟩ := topArg1_some.mp h1
    exact ⟨[_], rfl, .number hm (resArg_some.mp h2)⟩
  cases k <;> simp [topTable] at hw <;> simp only [topArg] at h <;> first
    | exact txt (by subst hw; simp [topTexts]) h
    | exact bool (by subst hw; simp [topBools]) h
    | exact num (by subst hw; simp [topNumbers]) h
    | skip
  case facility =>
    subst hw
    obtain ⟨t, v, rfl, h2, rfl⟩ := topArg1_some.mp h
    rcases facilityArg_some.mp h2 with ⟨h3, rfl⟩ | ⟨s, w, k, h3, h4, h5, rfl⟩
    · exact ⟨[_], rfl, .noSyslog h3⟩
    · exact ⟨[_], rfl, .facility h3 h4 h5⟩
  case logLevel =>
    subst hw
    obtain ⟨t, v, rfl, h2, rfl⟩ := topArg1_some.mp h
    rcases logSetArg_some.mp h2 with ⟨s, rfl, rfl⟩ | ⟨s, rfl, rfl⟩
    · exact ⟨[_], rfl, .logName⟩
    · exact ⟨[_], rfl, .logNum⟩
  case logFormat =>
    subst hw
    split at h
    · cases h; exact ⟨[_, _], rfl, .logFormat⟩
    · cases h
  case balancer =>
    subst hw
    obtain ⟨t, v, rfl, h2, rfl⟩ := topArg1_some.mp h
    obtain ⟨s, h3, h4⟩ := balancerArg_some.mp h2
    exact ⟨[_], rfl, .balancer h3 h4⟩
  case hdrOpt =>
    subst hw
    obtain ⟨⟨os, r'⟩, h1, h2⟩ := Option.map_eq_some_iff.mp h
    cases h2
    obtain ⟨t, rfl, h3⟩ := hdrOptLoop_iff.mp h1
    exact ⟨t, rfl, .hdrOpts h3⟩
  case anon =>
    cases h
    exact ⟨[], rfl, .anon hw⟩
  case combine =>
    subst hw
    split at h
    · obtain ⟨⟨os, r'⟩, h1, h2⟩ := Option.map_eq_some_iff.mp h
      cases h2
      obtain ⟨t, rfl, h3⟩ := combineLoop_iff.mp h1
      exact ⟨.nl :: t, rfl, .combine h3⟩
    · cases h
  case reType =>
    subst hw
    obtain ⟨t, v, rfl, h2, rfl⟩ := topArg1_some.mp h
    rcases reTypeArg_some.mp h2 with ⟨rfl, rfl⟩ | ⟨h3, h4, rfl⟩
    · exact ⟨[_], rfl, .posix⟩
    · rcases h4 with rfl | rfl
      · exact ⟨[_], rfl, .perl h3 (.inl rfl)⟩
      · exact ⟨[_], rfl, .perl h3 (.inr rfl)⟩

theorem topArg_complete {pcre : Bool} {w : Bytes} {a : List Tok} {x : TopSet} (h : TopArgs pcre w a x) :
    ∃ k, (w, k) ∈ topTable ∧ ∀ r, topArg pcre k (a ++ (if tnonl k then .nl :: r else r)) = some (x, r) := by
  cases h with
  | text hm =>
    simp only [topTexts, List.mem_cons, Prod.mk.injEq, List.not_mem_nil, or_false] at hm
    rcases hm with ⟨rfl, rfl⟩ | ⟨rfl, rfl⟩ | ⟨rfl, rfl⟩ | ⟨rfl, rfl⟩ | ⟨rfl, rfl⟩ | ⟨rfl, rfl⟩
    · exact ⟨.user, by decide, fun r => rfl⟩
    · exact ⟨.group, by decide, fun r => rfl⟩
    · exact ⟨.jail, by decide, fun r => rfl⟩
    · exact ⟨.logTag, by decide, fun r => rfl⟩
    · exact ⟨.pidFile, by decide, fun r => rfl⟩
    · exact ⟨.fwdHdr, by decide, fun r => rfl⟩
  | bool hm h1 =>
    simp only [topBools, List.mem_cons, Prod.mk.injEq, List.not_mem_nil, or_false] at hm
    have key : ∀ {f : Bool → TopSet} r, topArg1 (fun t => resArg (assignBool t)) f (_ :: r) = some (f _, r) := fun r => topArg1_some.mpr ⟨_, _, rfl, resArg_some.mpr h1, rfl⟩
    rcases hm with ⟨rfl, rfl⟩ | ⟨rfl, rfl⟩ | ⟨rfl, rfl⟩ | ⟨rfl, rfl⟩
    · exact ⟨.daemon, by decide, fun r => key r⟩
    · exact ⟨.supervisor, by decide, fun r => key r⟩
    · exact ⟨.stats, by decide, fun r => key r⟩
    · exact ⟨.icase, by decide, fun r => key r⟩
  | number hm h1 =>
    simp only [topNumbers, List.mem_cons, Prod.mk.injEq, List.not_mem_nil, or_false] at hm
    have key : ∀ {f : Nat → TopSet} r, topArg1 (fun t => resArg (assignUnsigned t)) f (_ :: r) = some (f _, r) := fun r => topArg1_some.mpr ⟨_, _, rfl, resArg_some.mpr h1, rfl⟩
    rcases hm with ⟨rfl, rfl⟩ | ⟨rfl, rfl⟩ | ⟨rfl, rfl⟩ | ⟨rfl, rfl⟩ | ⟨rfl, rfl⟩ | ⟨rfl, rfl⟩ | ⟨rfl, rfl⟩ | ⟨rfl, rfl⟩ | ⟨rfl, rfl⟩ | ⟨rfl, rfl⟩
    · exact ⟨.wMin, by decide, fun r => key r⟩
    · exact ⟨.wMax, by decide, fun r => key r⟩
    · exact ⟨.threads, by decide, fun r => key r⟩
    · exact ⟨.wIdle, by decide, fun r => key r⟩
    · exact ⟨.grace, by decide, fun r => key r⟩
    · exact ⟨.alive, by decide, fun r => key r⟩
    · exact ⟨.client, by decide, fun r => key r⟩
    · exact ⟨.timeOut, by decide, fun r => key r⟩
    · exact ⟨.wsTimeOut, by decide, fun r => key r⟩
    · exact ⟨.connTo, by decide, fun r => key r⟩
  | noSyslog h1 => exact ⟨.facility, by decide, fun r => topArg1_some.mpr ⟨_, _, rfl, facilityArg_some.mpr (.inl ⟨h1, rfl⟩), rfl⟩⟩
  | facility h1 h2 h3 => exact ⟨.facility, by decide, fun r => topArg1_some.mpr ⟨_, _, rfl, facilityArg_some.mpr (.inr ⟨_, _, _, h1, h2, h3, rfl⟩), rfl⟩⟩
  | logName => exact ⟨.logLevel, by decide, fun r => rfl⟩
  | logNum => exact ⟨.logLevel, by decide, fun r => rfl⟩
  | logFormat => exact ⟨.logFormat, by decide, fun r => rfl⟩
  | balancer h1 h2 => exact ⟨.balancer, by decide, fun r => topArg1_some.mpr ⟨_, _, rfl, balancerArg_some.mpr ⟨_, h1, h2⟩, rfl⟩⟩
  | hdrOpts h1 =>
    refine ⟨.hdrOpt, by decide, fun r => ?_⟩
    have := (hdrOptLoop_iff (r := r)).mpr ⟨a, rfl, h1⟩
    simp only [topArg, tnonl, decide_true, if_true, this, Option.map_some]
  | anon h1 =>
    refine ⟨.anon, ?_, fun r => rfl⟩
    rcases h1 with rfl | rfl <;> decide
  | @combine t l h1 =>
    refine ⟨.combine, by decide, fun r => ?_⟩
    have := (combineLoop_iff (r := r)).mpr ⟨t, rfl, h1⟩
    have hk : tnonl .combine = false := rfl
    simp only [topArg, hk, Bool.false_eq_true, if_false, List.cons_append, this, Option.map_some]
  | posix => exact ⟨.reType, by decide, fun r => topArg1_some.mpr ⟨_, _, rfl, reTypeArg_some.mpr (.inl ⟨rfl, rfl⟩), rfl⟩⟩
  | perl h1 h2 =>
    refine ⟨.reType, by decide, fun r => topArg1_some.mpr ⟨_, _, rfl, reTypeArg_some.mpr (.inr ⟨h1, ?_, rfl⟩), rfl⟩⟩
    rcases h2 with rfl | rfl
    · exact .inl rfl
    · exact .inr rfl

theorem top_table (pcre : Bool) : SetTable topTable (topArg pcre) tnonl (TopArgs pcre) where
  stop := by decide
  find := by decide
  sound := topArg_sound
  complete := topArg_complete

end Pound
