import Verif.Proof.CfgSet
import Verif.Proof.RuleCfg
import Verif.Proof.Framing
import Verif.Spec.LstCfg

namespace Pound

open Spec

/-! ### Arguments -/

theorem setArg1_some {α : Type} {f : Tok → Option α} {mk : α → LstSet} {ts r : List Tok} {x : LstSet} :
    setArg1 f mk ts = some (x, r) ↔ ∃ t v, ts = t :: r ∧ f t = some v ∧ x = mk v := by
  cases ts with
  | nil => simp [setArg1]
  | cons t ts =>
    simp only [setArg1, Option.map_eq_some_iff, Prod.mk.injEq, List.cons.injEq]
    constructor
    · rintro ⟨v, h1, h2, h3⟩; exact ⟨t, v, ⟨rfl, h3⟩, h1, h2.symm⟩
    · rintro ⟨t', v, ⟨rfl, h3⟩, h1, h2⟩; exact ⟨v, h1, h2.symm, h3⟩

theorem range_iff {m : Int} (hm : 0 < m) {u : Tok} {v : Int} : resArg (assignRange 0 m u) = some v ↔ assignInt u = .ok (some v) ∧ 0 ≤ v ∧ v ≤ m := by
  rw [resArg_some]
  unfold assignRange
  cases h : assignInt u with
  | ub => simp
  | ok y =>
    cases y with
    | none => simp
    | some n =>
      by_cases hn : (0 : Int) ≥ 0 ∧ n < 0 ∨ m > 0 ∧ n > m
      · simp only [hn, if_true, Res.ok.injEq, reduceCtorEq, Option.some.injEq, false_iff]
        omega
      · simp only [hn, if_false, Res.ok.injEq, Option.some.injEq]
        omega

theorem portStr_some {u : Tok} {v : Bytes} : portStrArg u = some v ↔ u = .ident v ∨ u = .string v ∨ u = .literal v ∨ u = .number v := by
  cases u <;> simp [portStrArg]

theorem sockArg_some {u : Tok} {v : Bytes} : sockArg u = some v ↔ u = .string v ∧ v.length ≤ 108 := by
  cases u with
  | string s =>
    by_cases h : s.length > unixPathMax
    · simp only [sockArg, h, if_true, reduceCtorEq, Tok.string.injEq, false_iff]
      rintro ⟨rfl, h2⟩
      unfold unixPathMax at h
      omega
    · simp only [sockArg, h, if_false, Option.some.injEq, Tok.string.injEq]
      constructor
      · rintro rfl; exact ⟨rfl, by unfold unixPathMax at h; omega⟩
      · rintro ⟨h1, _⟩; exact h1
  | _ => simp [sockArg]

theorem fileArg_some {e : LstEnv} {u : Tok} {v : Bytes} : fileArg e u = some v ↔ ∃ f, u = .string f ∧ e.file f = some v := by
  cases u <;> simp [fileArg]

theorem okFile_some {p : Bytes → Bool} {u : Tok} {v : Bytes} : okFile p u = some v ↔ u = .string v ∧ p v = true := by
  cases u with
  | string s =>
    by_cases h : p s = true
    · simp only [okFile, h, if_true, Option.some.injEq, Tok.string.injEq]
      constructor
      · rintro rfl; exact ⟨rfl, h⟩
      · exact fun h => h.1
    · simp only [okFile, h, Bool.false_eq_true, if_false, reduceCtorEq, Tok.string.injEq, false_iff]
      rintro ⟨rfl, h2⟩
      exact h h2
  | _ => simp [okFile]

theorem certArg_some {e : LstEnv} {u : Tok} {v : List Bytes} : (strArg u).bind e.certs = some v ↔ ∃ f, u = .string f ∧ e.certs f = some v := by
  cases u <;> simp [strArg]

theorem clenArg_some {u : Tok} {v : Int} : clenArg u = some v ↔ ∃ s n, u = .number s ∧ Denotes 10 s n ∧ (n : Int) < 2 ^ 63 ∧ v = (n : Int) := by
  cases u with
  | number s =>
    have hk := strtoclen_ok_iff 10 (Or.inl rfl) s
    have h10 : ((10 : Nat) : Int) = 10 := rfl
    rw [h10] at hk
    unfold clenArg
    cases hs : strtoclen s 10 with
    | mk rc x =>
      obtain ⟨n, p⟩ := x
      simp only [hs]
      by_cases hc : rc = 0 ∧ p = []
      · obtain ⟨rfl, rfl⟩ := hc
        simp only [and_self, if_true, Option.some.injEq, Tok.number.injEq]
        obtain ⟨ds, w, h1, h2, h3, h4, _⟩ := (hk [] n).mp hs
        rw [List.append_nil] at h1
        subst h1
        constructor
        · rintro rfl
          exact ⟨s, w, rfl, h2, by unfold clenMax at h4; omega, h3⟩
        · rintro ⟨s', w', rfl, h5, _, rfl⟩
          rw [h3, h2.2.2, h5.2.2]
      · simp only [hc, if_false, reduceCtorEq, Tok.number.injEq, false_iff]
        rintro ⟨s', w', rfl, h5, h6, rfl⟩
        have := (hk [] (w' : Int)).mpr ⟨s, w', by simp, h5, rfl, by unfold clenMax; omega, by simp⟩
        rw [hs] at this
        cases this
        exact hc ⟨rfl, rfl⟩
  | _ => simp [clenArg]

theorem logLvlArg_some {fs : List Bytes} {u : Tok} {n : Nat} :
    logLvlArg fs u = some n ↔ (∃ s, u = .string s ∧ fs[n]? = some s ∧ s ∉ fs.take n) ∨ ∃ s, u = .number s ∧ logLevelNum fs.length s = some n := by
  cases u with
  | string s =>
    simp only [logLvlArg, Tok.string.injEq, reduceCtorEq, false_and, exists_false, or_false]
    rw [List.findIdx?_eq_some_iff_getElem]
    constructor
    · rintro ⟨h1, h2, h3⟩
      refine ⟨s, rfl, ?_, fun hm => ?_⟩
      · rw [List.getElem?_eq_getElem h1]
        simpa using h2
      · obtain ⟨j, hj, he⟩ := List.mem_iff_getElem.mp hm
        have hj' : j < n := by
          have := List.length_take (l := fs) (i := n)
          omega
        rw [List.getElem_take] at he
        exact h3 j hj' (by simp [he])
    · rintro ⟨s', rfl, h1, h2⟩
      obtain ⟨hl, he⟩ := List.getElem?_eq_some_iff.mp h1
      refine ⟨hl, by simp [he], fun j hj hq => h2 ?_⟩
      rw [List.mem_iff_getElem]
      refine ⟨j, by rw [List.length_take]; omega, ?_⟩
      rw [List.getElem_take]
      simpa using hq
  | _ => simp [logLvlArg]

/-! HeaderOption -/

theorem hdrTab {s : Bytes} : kwToTok [(b!"forwarded", 1), (b!"ssl", 2), (b!"all", 3)] true s =
    if ciEq b!"forwarded" s then some 1 else if ciEq b!"ssl" s then some 2 else if ciEq b!"all" s then some 3 else none := by
  unfold kwToTok
  simp only [List.find?_cons, List.find?_nil, if_true]
  cases h1 : ciEq b!"forwarded" s <;> cases h2 : ciEq b!"ssl" s <;> cases h3 : ciEq b!"all" s <;> simp

theorem ciEq_pre {a b : Bytes} (h : ciEq a b = true) : ciEq (a.take 3) (b.take 3) = true := by
  rw [ciEq_iff] at h ⊢
  rw [List.map_take, List.map_take, h]

theorem ci_absurd {a b s : Bytes} (h1 : ciEq a s = true) (h2 : ciEq b s = true) (h3 : ciEq a b = false) : False := by
  rw [ciEq_trans h1 (by rw [ciEq_comm]; exact h2)] at h3
  cases h3

theorem hdrOptOf_iff {s : Bytes} {o : HdrOpt} : hdrOptOf s = some o ↔ HdrWord s o := by
  have words : ∀ {w : Bytes} {f t : Bool} {s : Bytes}, (w, f, t) ∈ hdrWords → ciEq w s = true →
      ciEq s b!"none" = false ∧ ciEq (s.take 3) b!"no-" = false ∧
      ∃ n : Nat, kwToTok [(b!"forwarded", 1), (b!"ssl", 2), (b!"all", 3)] true s = some n ∧ decide (n % 2 = 1) = f ∧ decide (n / 2 = 1) = t := by
    intro w f t s hw hs
    simp only [hdrWords, List.mem_cons, Prod.mk.injEq, List.not_mem_nil, or_false] at hw
    have hn : ∀ {w : Bytes}, ciEq w s = true → ciEq w b!"none" = false → ciEq s b!"none" = false := by
      intro w h1 h2
      cases h : ciEq s b!"none" with
      | false => rfl
      | true => rw [ciEq_trans h1 h] at h2; cases h2
    have hp : ∀ {w : Bytes}, ciEq w s = true → ciEq (w.take 3) b!"no-" = false → ciEq (s.take 3) b!"no-" = false := by
      intro w h1 h2
      cases h : ciEq (s.take 3) b!"no-" with
      | false => rfl
      | true => rw [ciEq_trans (ciEq_pre h1) h] at h2; cases h2
    rw [hdrTab]
    rcases hw with ⟨rfl, rfl, rfl⟩ | ⟨rfl, rfl, rfl⟩ | ⟨rfl, rfl, rfl⟩
    · exact ⟨hn hs (by decide), hp hs (by decide), 1, by rw [if_pos hs], by decide, by decide⟩
    · refine ⟨hn hs (by decide), hp hs (by decide), 2, ?_, by decide, by decide⟩
      rw [if_neg (fun h => ci_absurd h hs (by decide)), if_pos hs]
    · refine ⟨hn hs (by decide), hp hs (by decide), 3, ?_, by decide, by decide⟩
      rw [if_neg (fun h => ci_absurd h hs (by decide)), if_neg (fun h => ci_absurd h hs (by decide)), if_pos hs]
  have inv : ∀ {s : Bytes} {n : Nat}, kwToTok [(b!"forwarded", 1), (b!"ssl", 2), (b!"all", 3)] true s = some n →
      ∃ w, (w, decide (n % 2 = 1), decide (n / 2 = 1)) ∈ hdrWords ∧ ciEq w s = true := by
    intro s n h
    rw [hdrTab] at h
    split at h
    · rename_i h1; cases h; exact ⟨_, by decide, h1⟩
    · split at h
      · rename_i h1; cases h; exact ⟨_, by decide, h1⟩
      · split at h
        · rename_i h1; cases h; exact ⟨_, by decide, h1⟩
        · cases h
  unfold hdrOptOf
  constructor
  · intro h
    split at h
    · rename_i h1; cases h; exact .none h1
    · dsimp only at h
      split at h
      · cases h
      · rename_i n hk
        cases h
        obtain ⟨w, h2, h3⟩ := inv hk
        cases hneg : ciEq (s.take 3) b!"no-" with
        | true =>
          rw [hneg] at h3
          simp only [if_true] at h3 ⊢
          have := HdrWord.off h2 h3 hneg
          rwa [List.take_append_drop] at this
        | false =>
          rw [hneg] at h3
          simp only [Bool.false_eq_true, if_false] at h3 ⊢
          exact .on h2 h3
  · intro h
    cases h with
    | none h1 => rw [if_pos h1]
    | @on _ w f t hw hs =>
      obtain ⟨h1, h2, n, h3, h4, h5⟩ := words hw hs
      rw [h1, h2]
      simp only [Bool.false_eq_true, if_false, h3, h4, h5]
    | @off s' w p f t hw hs hp =>
      obtain ⟨_, _, n, h3, h4, h5⟩ := words hw hs
      have hl : p.length = 3 := by
        rw [ciEq_iff] at hp
        have := congrArg List.length hp
        simpa using this
      have h1 : ciEq (p ++ s') b!"none" = false := by
        cases h : ciEq (p ++ s') b!"none" with
        | false => rfl
        | true =>
          have h6 := ciEq_pre h
          rw [List.take_append_of_le_length (by omega), List.take_of_length_le (by omega)] at h6
          rw [ciEq_comm] at h6
          have := ciEq_trans h6 hp
          revert this
          decide
      rw [h1]
      rw [List.take_append_of_le_length (by omega), List.take_of_length_le (by omega), hp]
      have hd : (p ++ s').drop 3 = s' := by rw [← hl]; simp
      simp only [Bool.false_eq_true, if_false, if_true, hd, h3, h4, h5]

theorem hdrOptLoop_iff : ∀ {ts : List Tok} {os : List HdrOpt} {r : List Tok}, hdrOptLoop ts = some (os, r) ↔ ∃ t, ts = t ++ .nl :: r ∧ HdrWords t os
  | [], os, r => by
    refine ⟨fun h => (by cases h), ?_⟩
    rintro ⟨t, h, _⟩
    cases t <;> cases h
  | u :: ts, os, r => by
    have step : ∀ {s : Bytes}, u = .ident s ∨ u = .literal s →
        (((hdrOptOf s).bind fun o => (hdrOptLoop ts).map fun x => (o :: x.1, x.2)) = some (os, r) ↔ ∃ t, u :: ts = t ++ .nl :: r ∧ HdrWords t os) := by
      intro s hu
      simp only [Option.bind_eq_some_iff, Option.map_eq_some_iff, Prod.mk.injEq]
      constructor
      · rintro ⟨o, h1, ⟨l, r'⟩, h2, rfl, rfl⟩
        obtain ⟨t, rfl, h3⟩ := hdrOptLoop_iff.mp h2
        exact ⟨u :: t, rfl, .cons hu (hdrOptOf_iff.mp h1) h3⟩
      · rintro ⟨t, h1, h2⟩
        cases h2 with
        | nil => cases h1; rcases hu with hu | hu <;> cases hu
        | @cons s' u' t' o l hu' h3 h4 =>
          cases h1
          have : s' = s := by
            rcases hu with rfl | rfl <;> rcases hu' with h | h <;> cases h <;> rfl
          subst this
          exact ⟨o, hdrOptOf_iff.mpr h3, (l, r), hdrOptLoop_iff.mpr ⟨t', rfl, h4⟩, rfl, rfl⟩
    have bad : hdrOptLoop (u :: ts) = none → u ≠ .nl → (∀ s, u ≠ .ident s ∧ u ≠ .literal s) →
        (hdrOptLoop (u :: ts) = some (os, r) ↔ ∃ t, u :: ts = t ++ .nl :: r ∧ HdrWords t os) := by
      intro h1 h2 h3
      rw [h1]
      refine ⟨fun h => (by cases h), ?_⟩
      rintro ⟨t, h4, h5⟩
      cases h5 with
      | nil => cases h4; exact absurd rfl h2
      | @cons s' u' t' o l hu' _ _ => cases h4; rcases hu' with h | h
                                      · exact absurd h (h3 s').1
                                      · exact absurd h (h3 s').2
    cases u with
    | nl =>
      simp only [hdrOptLoop, Option.some.injEq, Prod.mk.injEq]
      constructor
      · rintro ⟨rfl, rfl⟩; exact ⟨[], rfl, .nil⟩
      · rintro ⟨t, h1, h2⟩
        cases h2 with
        | nil => cases h1; exact ⟨rfl, rfl⟩
        | cons hu _ _ => cases h1; rcases hu with hu | hu <;> cases hu
    | ident s => rw [hdrOptLoop]; exact step (.inl rfl)
    | literal s => rw [hdrOptLoop]; exact step (.inr rfl)
    | number s => exact bad (by simp [hdrOptLoop]) (by simp) (by simp)
    | string s => exact bad (by simp [hdrOptLoop]) (by simp) (by simp)
    | eof => exact bad (by simp [hdrOptLoop]) (by simp) (by simp)
    | error => exact bad (by simp [hdrOptLoop]) (by simp) (by simp)

/-! ### The tables -/

def lnonl (k : LstKw) : Bool := k = .hdrOpt

theorem lstArg_sound {e : LstEnv} {d : LstDfl} {w : Bytes} {k : LstKw} {ts r : List Tok} {x : LstSet} (hw : (w, k) ∈ httpTable) (h : lstArg e d k ts = some (x, r)) :
    ∃ a, ts = a ++ (if lnonl k then .nl :: r else r) ∧ LstArgs e d w a x := by
  cases k <;> simp [httpTable] at hw <;> simp only [lstArg] at h
  case addr =>
    subst hw
    obtain ⟨t, v, rfl, h1, rfl⟩ := setArg1_some.mp h
    exact ⟨[t], rfl, .addr (addrArg_some.mp h1)⟩
  case port =>
    subst hw
    obtain ⟨t, v, rfl, h1, rfl⟩ := setArg1_some.mp h
    exact ⟨[t], rfl, .port (portStr_some.mp h1)⟩
  case sockFrom =>
    subst hw
    obtain ⟨t, v, rfl, h1, rfl⟩ := setArg1_some.mp h
    obtain ⟨rfl, h2⟩ := sockArg_some.mp h1
    exact ⟨[_], rfl, .sockFrom h2⟩
  case xhttp =>
    subst hw
    obtain ⟨t, v, rfl, h1, rfl⟩ := setArg1_some.mp h
    obtain ⟨h1, h2, h3⟩ := (range_iff (by decide)).mp h1
    exact ⟨[t], rfl, .xhttp h1 h2 h3⟩
  case client =>
    subst hw
    obtain ⟨t, v, rfl, h1, rfl⟩ := setArg1_some.mp h
    exact ⟨[t], rfl, .client (resArg_some.mp h1)⟩
  case checkUrl =>
    subst hw
    obtain ⟨⟨p, r'⟩, h1, h2⟩ := Option.map_eq_some_iff.mp h
    cases h2
    obtain ⟨opts, k, c, q, rfl, h2, h3, rfl⟩ := regexCompat_sound h1
    exact ⟨opts.map .literal ++ [.string q], by simp [lnonl], .checkUrl h2 h3⟩
  case errFile =>
    subst hw
    split at h
    · rename_i s r'
      obtain ⟨c, h1, h2⟩ := Option.bind_eq_some_iff.mp h
      obtain ⟨t, v, rfl, h3, rfl⟩ := setArg1_some.mp h2
      obtain ⟨f, rfl, h4⟩ := fileArg_some.mp h3
      exact ⟨[_, _], rfl, .errFile h1 h4⟩
    · cases h
  case err c =>
    obtain ⟨t, v, rfl, h1, rfl⟩ := setArg1_some.mp h
    obtain ⟨f, rfl, h4⟩ := fileArg_some.mp h1
    refine ⟨[_], by simp [lnonl], .err ?_ h4⟩
    simp only [errWords, List.mem_cons, Prod.mk.injEq, List.not_mem_nil, or_false]
    exact hw
  case maxReq =>
    subst hw
    obtain ⟨t, v, rfl, h1, rfl⟩ := setArg1_some.mp h
    obtain ⟨s, n, rfl, h2, h3, rfl⟩ := clenArg_some.mp h1
    exact ⟨[_], rfl, .maxReq h2 h3⟩
  case maxUri =>
    subst hw
    obtain ⟨t, v, rfl, h1, rfl⟩ := setArg1_some.mp h
    exact ⟨[t], rfl, .maxUri (resArg_some.mp h1)⟩
  case hdrOpt =>
    subst hw
    obtain ⟨⟨os, r'⟩, h1, h2⟩ := Option.map_eq_some_iff.mp h
    cases h2
    obtain ⟨t, rfl, h2⟩ := hdrOptLoop_iff.mp h1
    exact ⟨t, rfl, .hdrOpts h2⟩
  case rewrLoc =>
    subst hw
    obtain ⟨t, v, rfl, h1, rfl⟩ := setArg1_some.mp h
    obtain ⟨h1, h2, h3⟩ := (range_iff (by decide)).mp h1
    exact ⟨[t], rfl, .rewrLoc h1 h2 h3⟩
  case rewrDest =>
    subst hw
    obtain ⟨t, v, rfl, h1, rfl⟩ := setArg1_some.mp h
    exact ⟨[t], rfl, .rewrDest (resArg_some.mp h1)⟩
  case logLevel =>
    subst hw
    obtain ⟨t, v, rfl, h1, rfl⟩ := setArg1_some.mp h
    rcases logLvlArg_some.mp h1 with ⟨s, rfl, h2, h3⟩ | ⟨s, rfl, h2⟩
    · exact ⟨[_], rfl, .logName h2 h3⟩
    · exact ⟨[_], rfl, .logLevel h2⟩
  case fwdHdr =>
    subst hw
    obtain ⟨t, v, rfl, h1, rfl⟩ := setArg1_some.mp h
    obtain rfl := strArg_some.mp h1
    exact ⟨[_], rfl, .fwdHdr⟩

theorem lstArg_complete {e : LstEnv} {d : LstDfl} {w : Bytes} {a : List Tok} {x : LstSet} (h : LstArgs e d w a x) :
    ∃ k, (w, k) ∈ httpTable ∧ ∀ r, lstArg e d k (a ++ (if lnonl k then .nl :: r else r)) = some (x, r) := by
  cases h with
  | addr hu => exact ⟨.addr, by decide, fun r => by simp only [lstArg]; exact setArg1_some.mpr ⟨_, _, rfl, addrArg_some.mpr hu, rfl⟩⟩
  | port hu => exact ⟨.port, by decide, fun r => by simp only [lstArg]; exact setArg1_some.mpr ⟨_, _, rfl, portStr_some.mpr hu, rfl⟩⟩
  | sockFrom hu => exact ⟨.sockFrom, by decide, fun r => by simp only [lstArg]; exact setArg1_some.mpr ⟨_, _, rfl, sockArg_some.mpr ⟨rfl, hu⟩, rfl⟩⟩
  | xhttp h1 h2 h3 => exact ⟨.xhttp, by decide, fun r => by simp only [lstArg]; exact setArg1_some.mpr ⟨_, _, rfl, (range_iff (by decide)).mpr ⟨h1, h2, h3⟩, rfl⟩⟩
  | client h1 => exact ⟨.client, by decide, fun r => by simp only [lstArg]; exact setArg1_some.mpr ⟨_, _, rfl, resArg_some.mpr h1, rfl⟩⟩
  | checkUrl h1 h2 =>
    refine ⟨.checkUrl, by decide, fun r => ?_⟩
    simp only [lstArg, lnonl, List.append_assoc, List.singleton_append, reduceCtorEq, decide_false, Bool.false_eq_true, if_false, regexCompat_complete h1 h2, Option.map_some]
  | errFile h1 h2 =>
    refine ⟨.errFile, by decide, fun r => ?_⟩
    simp only [lstArg, List.cons_append, h1, Option.bind_some]
    exact setArg1_some.mpr ⟨_, _, rfl, fileArg_some.mpr ⟨_, rfl, h2⟩, rfl⟩
  | @err w f text c h1 h2 =>
    refine ⟨.err c, ?_, fun r => by simp only [lstArg]; exact setArg1_some.mpr ⟨_, _, by simp [lnonl], fileArg_some.mpr ⟨_, rfl, h2⟩, rfl⟩⟩
    simp only [errWords, List.mem_cons, Prod.mk.injEq, List.not_mem_nil, or_false] at h1
    rcases h1 with ⟨rfl, rfl⟩ | ⟨rfl, rfl⟩ | ⟨rfl, rfl⟩ | ⟨rfl, rfl⟩ | ⟨rfl, rfl⟩ | ⟨rfl, rfl⟩ | ⟨rfl, rfl⟩ | ⟨rfl, rfl⟩ | ⟨rfl, rfl⟩ <;> decide
  | maxReq h1 h2 => exact ⟨.maxReq, by decide, fun r => by simp only [lstArg]; exact setArg1_some.mpr ⟨_, _, rfl, clenArg_some.mpr ⟨_, _, rfl, h1, h2, rfl⟩, rfl⟩⟩
  | maxUri h1 => exact ⟨.maxUri, by decide, fun r => by simp only [lstArg]; exact setArg1_some.mpr ⟨_, _, rfl, resArg_some.mpr h1, rfl⟩⟩
  | hdrOpts h1 =>
    refine ⟨.hdrOpt, by decide, fun r => ?_⟩
    simp only [lstArg, lnonl, decide_true, if_true]
    rw [hdrOptLoop_iff.mpr ⟨_, rfl, h1⟩]
    rfl
  | rewrLoc h1 h2 h3 => exact ⟨.rewrLoc, by decide, fun r => by simp only [lstArg]; exact setArg1_some.mpr ⟨_, _, rfl, (range_iff (by decide)).mpr ⟨h1, h2, h3⟩, rfl⟩⟩
  | rewrDest h1 => exact ⟨.rewrDest, by decide, fun r => by simp only [lstArg]; exact setArg1_some.mpr ⟨_, _, rfl, resArg_some.mpr h1, rfl⟩⟩
  | logName h1 h2 => exact ⟨.logLevel, by decide, fun r => by simp only [lstArg]; exact setArg1_some.mpr ⟨_, _, rfl, logLvlArg_some.mpr (.inl ⟨_, rfl, h1, h2⟩), rfl⟩⟩
  | logLevel h1 => exact ⟨.logLevel, by decide, fun r => by simp only [lstArg]; exact setArg1_some.mpr ⟨_, _, rfl, logLvlArg_some.mpr (.inr ⟨_, rfl, h1⟩), rfl⟩⟩
  | fwdHdr => exact ⟨.fwdHdr, by decide, fun r => by simp only [lstArg]; exact setArg1_some.mpr ⟨_, _, rfl, strArg_some.mpr rfl, rfl⟩⟩

theorem http_table (e : LstEnv) (d : LstDfl) : SetTable httpTable (lstArg e d) lnonl (LstArgs e d) where
  stop := by decide
  find := by decide
  sound := lstArg_sound
  complete := lstArg_complete

theorem tlsArg_sound {e : LstEnv} {d : LstDfl} {w : Bytes} {k : LstKw} {ts r : List Tok} {x : LstSet} (hw : (w, k) ∈ httpsTable) (h : lstArg e d k ts = some (x, r)) :
    ∃ a, ts = a ++ (if lnonl k then .nl :: r else r) ∧ TlsArgs e d w a x := by
  unfold httpsTable at hw
  rcases List.mem_append.mp hw with hw | hw
  · obtain ⟨a, h1, h2⟩ := lstArg_sound hw h
    exact ⟨a, h1, .http h2⟩
  · cases k <;> simp at hw <;> simp only [lstArg] at h <;> subst hw
    case cert =>
      obtain ⟨t, v, rfl, h1, rfl⟩ := setArg1_some.mp h
      obtain ⟨f, rfl, h2⟩ := certArg_some.mp h1
      exact ⟨[_], rfl, .cert h2⟩
    case clientCert =>
      split at h
      · rename_i t r'
        split at h
        · cases h
        · rename_i m hm
          obtain ⟨h1, h2, h3⟩ := (range_iff (by decide)).mp hm
          split at h
          · rename_i hp
            obtain ⟨u, v, rfl, h4, rfl⟩ := setArg1_some.mp h
            exact ⟨[t, u], rfl, .clientCert h1 (by omega) h3 (resArg_some.mp h4)⟩
          · rename_i hp
            have : m = 0 := by omega
            subst this
            cases h
            exact ⟨[t], rfl, .noClientCert h1⟩
      · cases h
    case disable =>
      obtain ⟨t, v, rfl, h1, rfl⟩ := setArg1_some.mp h
      obtain ⟨s, rfl, h2⟩ := protoArg_some.mp h1
      exact ⟨[_], rfl, .disable h2⟩
    case ciphers =>
      obtain ⟨t, v, rfl, h1, rfl⟩ := setArg1_some.mp h
      obtain rfl := strArg_some.mp h1
      exact ⟨[_], rfl, .ciphers⟩
    case honor =>
      obtain ⟨t, v, rfl, h1, rfl⟩ := setArg1_some.mp h
      exact ⟨[t], rfl, .honor (resArg_some.mp h1)⟩
    case reneg =>
      obtain ⟨t, v, rfl, h1, rfl⟩ := setArg1_some.mp h
      obtain ⟨h1, h2, h3⟩ := (range_iff (by decide)).mp h1
      exact ⟨[t], rfl, .reneg h1 h2 h3⟩
    case caList =>
      obtain ⟨t, v, rfl, h1, rfl⟩ := setArg1_some.mp h
      obtain ⟨rfl, h2⟩ := okFile_some.mp h1
      exact ⟨[_], rfl, .caList h2⟩
    case verifyList =>
      obtain ⟨t, v, rfl, h1, rfl⟩ := setArg1_some.mp h
      obtain ⟨rfl, h2⟩ := okFile_some.mp h1
      exact ⟨[_], rfl, .verifyList h2⟩
    case crl =>
      obtain ⟨t, v, rfl, h1, rfl⟩ := setArg1_some.mp h
      obtain ⟨rfl, h2⟩ := okFile_some.mp h1
      exact ⟨[_], rfl, .crl h2⟩
    case noHttps11 =>
      obtain ⟨t, v, rfl, h1, rfl⟩ := setArg1_some.mp h
      obtain ⟨h1, h2, h3⟩ := (range_iff (by decide)).mp h1
      exact ⟨[t], rfl, .noHttps11 h1 h2 h3⟩

theorem tlsArg_complete {e : LstEnv} {d : LstDfl} {w : Bytes} {a : List Tok} {x : LstSet} (h : TlsArgs e d w a x) :
    ∃ k, (w, k) ∈ httpsTable ∧ ∀ r, lstArg e d k (a ++ (if lnonl k then .nl :: r else r)) = some (x, r) := by
  cases h with
  | http h1 =>
    obtain ⟨k, h2, h3⟩ := lstArg_complete h1
    exact ⟨k, List.mem_append_left _ h2, h3⟩
  | cert h1 => exact ⟨.cert, by decide, fun r => by simp only [lstArg]; exact setArg1_some.mpr ⟨_, _, rfl, certArg_some.mpr ⟨_, rfl, h1⟩, rfl⟩⟩
  | @noClientCert u h1 =>
    refine ⟨.clientCert, by decide, fun r => ?_⟩
    simp only [lstArg, List.cons_append, List.nil_append, (range_iff (m := 3) (by decide)).mpr ⟨h1, by decide, by decide⟩]
    rfl
  | @clientCert u w m k h1 h2 h3 h4 =>
    refine ⟨.clientCert, by decide, fun r => ?_⟩
    simp only [lstArg, List.cons_append, List.nil_append, (range_iff (m := 3) (by decide)).mpr ⟨h1, by omega, h3⟩]
    rw [if_pos (by omega)]
    exact setArg1_some.mpr ⟨_, _, rfl, resArg_some.mpr h4, rfl⟩
  | disable h1 => exact ⟨.disable, by decide, fun r => by simp only [lstArg]; exact setArg1_some.mpr ⟨_, _, rfl, protoArg_some.mpr ⟨_, rfl, h1⟩, rfl⟩⟩
  | ciphers => exact ⟨.ciphers, by decide, fun r => by simp only [lstArg]; exact setArg1_some.mpr ⟨_, _, rfl, strArg_some.mpr rfl, rfl⟩⟩
  | honor h1 => exact ⟨.honor, by decide, fun r => by simp only [lstArg]; exact setArg1_some.mpr ⟨_, _, rfl, resArg_some.mpr h1, rfl⟩⟩
  | reneg h1 h2 h3 => exact ⟨.reneg, by decide, fun r => by simp only [lstArg]; exact setArg1_some.mpr ⟨_, _, rfl, (range_iff (by decide)).mpr ⟨h1, h2, h3⟩, rfl⟩⟩
  | caList h1 => exact ⟨.caList, by decide, fun r => by simp only [lstArg]; exact setArg1_some.mpr ⟨_, _, rfl, okFile_some.mpr ⟨rfl, h1⟩, rfl⟩⟩
  | verifyList h1 => exact ⟨.verifyList, by decide, fun r => by simp only [lstArg]; exact setArg1_some.mpr ⟨_, _, rfl, okFile_some.mpr ⟨rfl, h1⟩, rfl⟩⟩
  | crl h1 => exact ⟨.crl, by decide, fun r => by simp only [lstArg]; exact setArg1_some.mpr ⟨_, _, rfl, okFile_some.mpr ⟨rfl, h1⟩, rfl⟩⟩
  | noHttps11 h1 h2 h3 => exact ⟨.noHttps11, by decide, fun r => by simp only [lstArg]; exact setArg1_some.mpr ⟨_, _, rfl, (range_iff (by decide)).mpr ⟨h1, h2, h3⟩, rfl⟩⟩

theorem https_table (e : LstEnv) (d : LstDfl) : SetTable httpsTable (lstArg e d) lnonl (TlsArgs e d) where
  stop := by decide
  find := by decide
  sound := tlsArg_sound
  complete := tlsArg_complete

theorem lstFind_spec (e : LstEnv) (d : LstDfl) (tls : Bool) (N : Nat) : StmtSpec N (lstFind e d tls) (SetStmt (ListenArgs e d tls) lstApply) := by
  cases tls with
  | true => exact set_spec (https_table e d) lstApply N
  | false => exact set_spec (http_table e d) lstApply N

end Pound
