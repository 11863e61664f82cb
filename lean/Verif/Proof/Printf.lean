import Verif.Spec.Printf
import Verif.Proof.TmplPipe

/-! The printf of templates -/

namespace Pound

open Spec

variable {D : Type}

/-! Digits -/

theorem digit_char : ∀ d : Fin 16, ∀ up : Bool,
    UInt8.ofNat (if up then (Nat.digitChar d.val).toUpper else Nat.digitChar d.val).toNat =
      UInt8.ofNat (if d.val < 10 then 48 + d.val else (if up then 55 else 87) + d.val) := by
  decide +kernel

theorem digitsIn_core {b : Nat} (hb : 1 < b) (hb' : b ≤ 16) (up : Bool) :
    ∀ (g f n : Nat) (acc : List Char), n < f → n < b ^ g → 0 < g →
      (Nat.toDigitsCore b f n acc).map
        (fun c => UInt8.ofNat (if up then c.toUpper else c).toNat) =
      digitsIn b up g n ++ acc.map (fun c => UInt8.ofNat (if up then c.toUpper else c).toNat) := by
  intro g
  induction g with
  | zero => intro f n acc _ _ h; omega
  | succ g ih =>
    intro f n acc hf hn _
    cases f with
    | zero => omega
    | succ f =>
      have hd : n % b < 16 := Nat.lt_of_lt_of_le (Nat.mod_lt _ (by omega)) hb'
      have hc := digit_char ⟨n % b, hd⟩ up
      simp only at hc
      simp only [Nat.toDigitsCore, digitsIn]
      by_cases h0 : n / b = 0
      · simp only [h0, if_true, List.map_cons, hc, List.cons_append, List.nil_append]
      · rw [if_neg h0, if_neg h0]
        have hlt : n / b < n := by
          apply Nat.div_lt_self
          · rcases Nat.eq_zero_or_pos n with rfl | h
            · simp at h0
            · exact h
          · exact hb
        have hg : 0 < g := by
          rcases Nat.eq_zero_or_pos g with rfl | h
          · simp at hn
            exact absurd (Nat.div_eq_of_lt hn) h0
          · exact h
        rw [ih f (n / b) _ (by omega)
          (by rw [Nat.div_lt_iff_lt_mul (by omega), ← Nat.pow_succ]; exact hn) hg]
        simp [hc]

theorem digitsIn_pf {b : Nat} (hb : 1 < b) (hb' : b ≤ 16) (up : Bool) {g n : Nat} (hn : n < b ^ g)
    (hg : 0 < g) : digitsIn b up g n = pfDigits b up n := by
  rw [pfDigits, Nat.toDigits, digitsIn_core hb hb' up g (n + 1) n [] (by omega) hn hg]
  simp

theorem decAux_pf : ∀ f n, n < f → decAux f n = digitsIn 10 false f n
  | 0, _, h => by omega
  | f + 1, n, h => by
    have hd : n % 10 < 10 := Nat.mod_lt _ (by omega)
    simp only [decAux, digitsIn, hd, if_true]
    by_cases h0 : n < 10
    · have : n / 10 = 0 := by omega
      simp [h0, this]
    · have h1 : n / 10 ≠ 0 := by omega
      rw [if_neg h0, if_neg h1, decAux_pf f (n / 10) (by omega)]

theorem dec_pf (n : Nat) : dec n = pfDigits 10 false n := by
  rw [dec, decAux_pf _ _ (by omega), digitsIn_pf (by omega) (by omega)]
  · exact Nat.lt_of_lt_of_le (Nat.lt_pow_self (by omega)) (Nat.pow_le_pow_right (by omega) (by omega))
  · omega

/-! Numbers in formats -/

theorem foldl_mod (M : Nat) (ds : Bytes) (a : Nat) :
    ds.foldl (fun (a : Nat) c => (a * 10 + (c.toNat - 48)) % M) (a % M) =
      ds.foldl (fun (a : Nat) c => a * 10 + (c.toNat - 48)) a % M := by
  induction ds generalizing a with
  | nil => rfl
  | cons c ds ih =>
    simp only [List.foldl_cons]
    rw [← ih]
    congr 1
    rw [Nat.add_mod, Nat.mul_mod, Nat.mod_mod, ← Nat.mul_mod, ← Nat.add_mod]

theorem getNum_ok {ds R : Bytes} (hd : ∀ c ∈ ds, TmDigit c) (hR : ∀ c t, R = c :: t → isDigit c = false)
    (hn : tmNat ds < 2 ^ 31) : getNum (ds ++ R) = (tmNat ds, R) := by
  have hd' : ∀ c ∈ ds, isDigit c = true := fun c hc => (isDigit_tm c).mpr (hd c hc)
  simp only [getNum, takeWhile_app hd' hR, dropWhile_app hd' hR]
  have := foldl_mod (2 ^ 32) ds 0
  simp only [Nat.zero_mod] at this
  rw [this, Nat.mod_eq_of_lt]
  · rfl
  · have : tmNat ds < 2 ^ 32 := by omega
    exact this

theorem argPos_none {X R : Bytes} (h : ∀ c ∈ X, c ≠ 36) (hx : ∃ c ∈ X, isDigit c = false) :
    argPos (X ++ R) = none := by
  have : (List.dropWhile isDigit (X ++ R)).headD 0 ≠ 36 := by
    induction X with
    | nil => simp at hx
    | cons c X ih =>
      rw [List.cons_append, List.dropWhile_cons]
      split
      · next hc =>
        refine ih (fun d hd => h d (by simp [hd])) ?_
        obtain ⟨d, hd, hd'⟩ := hx
        rcases List.mem_cons.mp hd with rfl | hd
        · rw [hd'] at hc; simp at hc
        · exact ⟨d, hd, hd'⟩
      · exact h c (by simp)
  unfold argPos
  exact if_neg (fun h => this h.2)

/-! Flags -/

/-- The flags of a specification -/
def flagsOf (fs : Bytes) : TFlags :=
  ⟨fs.contains ch%'#', fs.contains ch%'0', fs.contains ch%'-', fs.contains ch%' ',
    fs.contains ch%'+'⟩

theorem getFlags_gen (fs : Bytes) (hf : ∀ c ∈ fs, c ∈ b!"#0- +") (q : Bytes)
    (hq : ∀ c t, q = c :: t → c ∉ b!"#0- +") (fl : TFlags) :
    getFlags fl (fs ++ q) =
      (⟨fl.alt || fs.contains ch%'#', fl.zero || fs.contains ch%'0', fl.left || fs.contains ch%'-',
        fl.space || fs.contains ch%' ', fl.sign || fs.contains ch%'+'⟩, q) := by
  induction fs generalizing fl with
  | nil =>
    cases q with
    | nil => simp [getFlags]
    | cons c q =>
      have := hq c q rfl
      simp at this
      simp [getFlags, this]
  | cons c fs ih =>
    have hc := hf c (by simp)
    have ih' := fun fl => ih (fun c h => hf c (by simp [h])) fl
    simp only [List.mem_cons, List.not_mem_nil, or_false] at hc
    rcases hc with rfl | rfl | rfl | rfl | rfl <;>
      simp [getFlags, ih']

theorem getFlags_ok {fs : Bytes} (hf : ∀ c ∈ fs, c ∈ b!"#0- +") {q : Bytes}
    (hq : ∀ c t, q = c :: t → c ∉ b!"#0- +") : getFlags {} (fs ++ q) = (flagsOf fs, q) := by
  rw [getFlags_gen fs hf q hq]
  simp [flagsOf]

/-! Conversions -/

theorem padField_pf (fl : TFlags) (w : Nat) (pre s : Bytes) :
    padField fl w pre s = pfField fl.left fl.zero w pre s := rfl

theorem zeroFill_pf {pos : Nat} (hp : pos ≤ 2) {p : Option Nat}
    (hs : ∀ k, p = some k → k ≤ 60) (s : Bytes) :
    zeroFill pos (p.getD 0) s = .ok (pfZeros p s) := by
  unfold zeroFill pfZeros
  have : p.getD 0 ≤ 60 := by
    cases p with
    | none => simp
    | some k => exact hs k rfl
  by_cases h : p.getD 0 ≠ 0 ∧ s.length < p.getD 0
  · rw [if_pos h, if_neg (by omega)]
  · rw [if_neg h]
    have : p.getD 0 - s.length = 0 := by omega
    rw [this]
    rfl

theorem pfField_left {z z' w pre s} : pfField true z w pre s = pfField true z' w pre s := by
  simp [pfField]

/-- The directive of a specification -/
def dirOf (s : PfSpec) (w : Nat) : TDir :=
  ⟨flagsOf s.flags, w, (s.prec.map tmNat).getD 0, s.prec.isSome⟩

theorem ite_none {α : Type} {p : Prop} [Decidable p] {x : Option α} {o : α}
    (h : (if p then x else none) = some o) : p ∧ x = some o := by
  split at h
  · exact ⟨‹p›, h⟩
  · simp at h

theorem vaInt_ok {N : TNum D} {args : List (JVal D)} {i : Nat} {v n} (hv : vaArg args i = .ok v)
    (hn : pfInt N v = some n) : vaInt N args i = .ok n := by
  cases v <;> simp only [pfInt, reduceCtorEq] at hn
  all_goals simp [vaInt, hv, hn, TOut.ofOpt]

theorem castStr_ok {N : TNum D} {v : JVal D} {t : Bytes} (h : pfText N v = some t) : castStr N v = .ok t := by
  cases v with
  | int d =>
    simp only [pfText, Option.map_eq_some_iff] at h
    obtain ⟨n, hn, rfl⟩ := h
    simp only [castStr, hn, TOut.ofOpt, tout_bind_ok]
    show TOut.ok (decInt n) = _
    unfold decInt
    by_cases h0 : n < 0
    · rw [if_pos h0, if_pos h0, dec_pf]; rfl
    · rw [if_neg h0, if_neg h0, dec_pf, show n.toNat = n.natAbs by omega]; rfl
  | arr l => simp [pfText] at h
  | obj c l =>
    simp only [pfText, Option.some.injEq] at h
    rw [← h]
    show TOut.ok (dec c) = _
    rw [dec_pf]
  | _ =>
    simp only [pfText, Option.some.injEq] at h
    rw [← h]
    rfl

theorem dir_field (s : PfSpec) (w : Nat) (pre t : Bytes)
    (hs : ∀ k, s.prec.map tmNat = some k → 0 < k) :
    padField (dirOf s w).flags w pre t =
      pfField (s.flags.contains ch%'-') (s.flags.contains ch%'0' && (s.prec.map tmNat).isNone) w
        pre t := by
  rw [padField_pf]
  show pfField (s.flags.contains ch%'-') _ _ _ _ = _
  cases hl : s.flags.contains ch%'-' with
  | true => exact pfField_left
  | false =>
    congr 1
    have hl' : (dirOf s w).fl.left = false := hl
    simp only [TDir.flags, hl', Bool.false_eq_true, or_false]
    cases hp : s.prec.map tmNat with
    | none => simp [dirOf, hp, flagsOf]
    | some k =>
      have := hs k hp
      have : (dirOf s w).prec ≠ 0 := by simp [dirOf, hp]; omega
      simp [this]

/-- Only zero has a leading zero. -/
theorem octal_head : ∀ (g n : Nat), n < 8 ^ g → 0 < g →
    ∃ c t, digitsIn 8 false g n = c :: t ∧ (c = 48 ↔ n = 0)
  | 0, _, _, h => by omega
  | g + 1, n, hn, _ => by
    simp only [digitsIn]
    by_cases h0 : n / 8 = 0
    · have h8 : n < 8 := by omega
      refine ⟨_, [], by rw [if_pos h0], ?_⟩
      have : ∀ k : Fin 8, (UInt8.ofNat (if k.val % 8 < 10 then 48 + k.val % 8
          else (if false = true then 55 else 87) + k.val % 8) = 48 ↔ k.val = 0) := by decide +kernel
      exact this ⟨n, h8⟩
    · rw [if_neg h0]
      have hg : 0 < g := by
        rcases Nat.eq_zero_or_pos g with rfl | h
        · simp at hn; omega
        · exact h
      obtain ⟨c, t, e, hc⟩ := octal_head g (n / 8) (by rw [Nat.pow_succ] at hn; omega) hg
      exact ⟨c, _, by rw [e]; rfl, by rw [hc]; omega⟩

theorem num_ok (s : PfSpec) {w pos : Nat} (hp : pos ≤ 2)
    (s1 : ∀ k, s.prec.map tmNat = some k → 0 < k) (s2 : ∀ k, s.prec.map tmNat = some k → k ≤ 60)
    (pre ds : Bytes) :
    (do let t ← zeroFill pos (dirOf s w).prec ds
        pure (padField (dirOf s w).flags (dirOf s w).width pre t) : TOut Bytes) =
      .ok (pfField (s.flags.contains ch%'-')
        (s.flags.contains ch%'0' && (s.prec.map tmNat).isNone) w pre
        (pfZeros (s.prec.map tmNat) ds)) := by
  have : (dirOf s w).prec = (s.prec.map tmNat).getD 0 := rfl
  rw [this, zeroFill_pf hp s2, ← dir_field s w _ _ s1]
  rfl

theorem convD_ok {N : TNum D} (s : PfSpec) {w : Nat} {args : List (JVal D)} {i : Nat} {v n}
    (hv : vaArg args i = .ok v) (hn : pfInt N v = some n) (hr : n ≠ -(2 ^ 63))
    (s1 : ∀ k, s.prec.map tmNat = some k → 0 < k) (s2 : ∀ k, s.prec.map tmNat = some k → k ≤ 60)
    {r : TOut Bytes} (h : r = convD (dirOf s w) n) :
    r = .ok (pfField (s.flags.contains ch%'-')
      (s.flags.contains ch%'0' && (s.prec.map tmNat).isNone) w
      (if n < 0 then b!"-" else if s.flags.contains ch%'+' then b!"+"
        else if s.flags.contains ch%' ' then b!" " else [])
      (pfZeros (s.prec.map tmNat) (pfDigits 10 false n.natAbs))) := by
  have hz := zeroFill_pf (pos := 1) (by omega) s2 (dec n.natAbs)
  rw [h, ← dir_field s w _ _ s1]
  simp only [convD, if_neg hr, dec_pf] at hz ⊢
  have : (dirOf s w).prec = (s.prec.map tmNat).getD 0 := rfl
  rw [this, hz]
  simp only [tout_bind_ok]
  have hw : (dirOf s w).width = w := rfl
  rw [hw]
  show TOut.ok _ = TOut.ok _
  congr 2
  simp only [TDir.flags, dirOf, flagsOf]
  by_cases h1 : n < 0 <;> by_cases h2 : ch%'+' ∈ s.flags <;> simp [h1, h2]

theorem convF_ok {N : TNum D} (s : PfSpec) {w : Nat} {c : UInt8}
    (h : ¬ ((w ≠ 0 ∧ s.prec.map tmNat = none) ∨
      (s.flags.contains ch%'0' = true ∧ (s.prec.map tmNat).isSome = true ∧ s.prec.map tmNat ≠ some 0) ∨
      (s.flags.contains ch%'-' = true ∧ s.flags.contains ch%'0' = true) ∨
      (s.flags.contains ch%'+' = true ∧ s.flags.contains ch%' ' = true))) (x : D) :
    convF N (dirOf s w) c x = N.fmtDouble ⟨s.flags.contains ch%'#', s.flags.contains ch%'0',
      s.flags.contains ch%'-', s.flags.contains ch%' ', s.flags.contains ch%'+'⟩
        (if w = 0 then none else some w) (s.prec.map tmNat) c x := by
  simp only [not_or, not_and] at h
  obtain ⟨h1, h2, h3, h4⟩ := h
  unfold convF
  congr 1
  · simp only [TDir.flags, dirOf, flagsOf]
    congr 1
    · by_cases hp : (s.prec.map tmNat).getD 0 ≠ 0
      · refine (if_pos (Or.inl hp)).trans ?_
        cases hq : s.prec.map tmNat with
        | none => simp [hq] at hp
        | some k =>
          cases h0 : s.flags.contains ch%'0' with
          | false => rfl
          | true =>
            have := h2 h0 (by rw [hq]; rfl)
            rw [hq] at this hp
            exact absurd (fun h => hp (by simpa using h)) this
      · by_cases hl : s.flags.contains ch%'-' = true
        · refine (if_pos (Or.inr hl)).trans ?_
          exact ((Bool.eq_false_iff).mpr (h3 hl)).symm
        · exact if_neg (fun h => h.elim hp hl)
    · by_cases hs : s.flags.contains ch%'+' = true
      · refine (if_pos hs).trans ?_
        exact ((Bool.eq_false_iff).mpr (h4 hs)).symm
      · exact if_neg hs
  · show (if w ≠ 0 ∧ s.prec.isSome = true then some w else none) = _
    by_cases hw : w = 0
    · simp [hw]
    · have := h1 hw
      cases hp : s.prec with
      | none => simp [hp] at this
      | some ds => simp [hw]
  · show (if s.prec.isSome = true then some ((Option.map tmNat s.prec).getD 0) else none) = _
    cases s.prec <;> simp

theorem conv_ok {N : TNum D} (s : PfSpec) {w : Nat} (hw : w < 2 ^ 31) {args : List (JVal D)}
    {i : Nat} {v o} (hv : vaArg args i = .ok v) (h : pfConv N s w v = some o) (raw : Bytes) :
    tConv N args (dirOf s w) i raw s.conv.char = .ok o := by
  have small : ∀ {P : Bool}, (P && (match s.prec.map tmNat with | some p => 0 < p && p ≤ 60 | none => true))
      = true → (∀ k, s.prec.map tmNat = some k → 0 < k) ∧ ∀ k, s.prec.map tmNat = some k → k ≤ 60 := by
    intro P hP
    rw [Bool.and_eq_true] at hP
    have hP := hP.2
    refine ⟨fun k hk => ?_, fun k hk => ?_⟩ <;> rw [hk] at hP <;> simp at hP <;> omega
  unfold pfConv at h
  cases hc : s.conv <;> simp only [hc] at h
  case s =>
    cases ht : pfText N v <;> simp only [ht, reduceCtorEq] at h
    next t =>
    by_cases hg : (s.flags.all (fun c => List.contains b!"-" c) && s.prec.map tmNat ≠ some 0 &&
        t.length < 2 ^ 31) = true
    · rw [if_pos hg] at h
      simp only [Option.some.injEq] at h
      subst h
      simp only [Bool.and_eq_true, decide_eq_true_eq] at hg
      obtain ⟨⟨-, hp⟩, hl⟩ := hg
      simp only [PfConv.char, tConv, hv, tout_bind_ok, castStr_ok ht, if_true, convS]
      have e : (if (dirOf s w).prec ≠ 0 ∧ (dirOf s w).prec < t.length then t.take (dirOf s w).prec
          else t) = pfCut (s.prec.map tmNat) t := by
        cases hq : s.prec.map tmNat with
        | none => simp [dirOf, hq, pfCut]
        | some k =>
          have hk : k ≠ 0 := by rintro rfl; exact hp (by rw [hq])
          have : (dirOf s w).prec = k := by simp [dirOf, hq]
          rw [this]
          by_cases h2 : k < t.length
          · simp [hk, h2, pfCut]
          · rw [if_neg (by omega)]
            exact (List.take_of_length_le (by omega)).symm
      rw [e]
      clear e
      generalize hu : pfCut (s.prec.map tmNat) t = u
      have hul : u.length < 2 ^ 31 := by
        rw [← hu]
        unfold pfCut
        split
        · simp; omega
        · exact hl
      have hfl : (dirOf s w).fl.left = s.flags.contains ch%'-' := rfl
      have hwd : (dirOf s w).width = w := rfl
      rw [hwd, hfl]
      by_cases hw0 : w = 0
      · rw [if_pos hw0, hw0]
        simp only [pfField, List.nil_append, Nat.zero_sub, List.replicate_zero, List.append_nil,
          Bool.false_eq_true, if_false, ite_self]
      · rw [if_neg hw0]
        have hne : (if w < u.length then u.length else w) ≠ 2 ^ 32 - 1 := by split <;> omega
        rw [if_neg hne]
        have hsub : (if w < u.length then u.length else w) - u.length = w - u.length := by
          split <;> omega
        rw [hsub]
        simp only [pfField, List.nil_append, List.append_nil, Bool.false_eq_true, if_false]
        split <;> rfl
    · rw [if_neg hg] at h
      simp at h
  case v =>
    split at h
    · simp only [Option.some.injEq] at h
      subst h
      simp [PfConv.char, tConv, hv]
    · simp at h
  case u =>
    · obtain ⟨hg, h⟩ := ite_none h
      obtain ⟨s1, s2⟩ := small hg
      simp only [Option.bind_eq_bind, Option.bind_eq_some_iff] at h
      obtain ⟨n, hn, h⟩ := h
      split at h
      · simp at h
      · next hr =>
        simp only [Option.some.injEq] at h
        subst h
        have hm : n % 2 ^ 64 = n := Int.emod_eq_of_lt (by omega) (by omega)
        simp only [PfConv.char, tConv, vaInt_ok hv hn]
        show convU (dirOf s w) n = _
        rw [convU, hm, dec_pf]
        exact num_ok s (by omega) s1 s2 _ _
  case x =>
    · obtain ⟨hg, h⟩ := ite_none h
      obtain ⟨s1, s2⟩ := small hg
      simp only [Option.bind_eq_bind, Option.bind_eq_some_iff] at h
      obtain ⟨n, hn, h⟩ := h
      split at h
      · simp at h
      · next hr =>
        simp only [Option.some.injEq] at h
        subst h
        have hm : n % 2 ^ 32 = n := Int.emod_eq_of_lt (by omega) (by omega)
        simp only [PfConv.char, tConv, vaInt_ok hv hn]
        show convX (dirOf s w) false n = _
        rw [convX, hm, digitsIn_pf (by omega) (by omega) _ (by omega) (by omega)]
        exact num_ok s (by omega) s1 s2 _ _
  case X =>
    · obtain ⟨hg, h⟩ := ite_none h
      obtain ⟨s1, s2⟩ := small hg
      simp only [Option.bind_eq_bind, Option.bind_eq_some_iff] at h
      obtain ⟨n, hn, h⟩ := h
      split at h
      · simp at h
      · next hr =>
        simp only [Option.some.injEq] at h
        subst h
        have hm : n % 2 ^ 32 = n := Int.emod_eq_of_lt (by omega) (by omega)
        simp only [PfConv.char, tConv, vaInt_ok hv hn]
        show convX (dirOf s w) true n = _
        rw [convX, hm, digitsIn_pf (by omega) (by omega) _ (by omega) (by omega)]
        exact num_ok s (by omega) s1 s2 _ _
  case o =>
    · obtain ⟨hg, h⟩ := ite_none h
      rw [Bool.and_eq_true] at hg
      have hp : s.prec = none := by simpa using hg.2
      simp only [Option.bind_eq_bind, Option.bind_eq_some_iff] at h
      obtain ⟨n, hn, h⟩ := h
      split at h
      · simp at h
      · next hr =>
        simp only [Option.some.injEq] at h
        subst h
        have hm : n % 2 ^ 64 = n := Int.emod_eq_of_lt (by omega) (by omega)
        simp only [PfConv.char, tConv, vaInt_ok hv hn, tout_bind_ok, convO, hm]
        have hd : digitsIn 8 false 23 n.toNat = pfDigits 8 false n.toNat :=
          digitsIn_pf (by omega) (by omega) _ (by omega) (by omega)
        obtain ⟨c, t, e, h0⟩ := octal_head 23 n.toNat (by omega) (by omega)
        rw [hd] at e
        rw [hd, e]
        rw [← dir_field s w _ _ (by simp [hp])]
        simp only [dirOf, hp, zeroFill, flagsOf]
        by_cases ha : ch%'#' ∈ s.flags
        · by_cases hn0 : n = 0
          · have : c = 48 := h0.mpr (by omega)
            simp [ha, hn0, this]
          · have : c ≠ 48 := fun h => hn0 (by have := h0.mp h; omega)
            simp [ha, hn0, this]
        · simp [ha]
  case d =>
    · obtain ⟨hg, h⟩ := ite_none h
      obtain ⟨s1, s2⟩ := small hg
      simp only [Option.bind_eq_bind, Option.bind_eq_some_iff] at h
      obtain ⟨n, hn, h⟩ := h
      split at h
      · simp at h
      · next hr =>
        simp only [Option.some.injEq] at h
        subst h
        exact convD_ok s hv hn (by omega) s1 s2 (by simp [PfConv.char, tConv, vaInt_ok hv hn])
  case i =>
    · obtain ⟨hg, h⟩ := ite_none h
      obtain ⟨s1, s2⟩ := small hg
      simp only [Option.bind_eq_bind, Option.bind_eq_some_iff] at h
      obtain ⟨n, hn, h⟩ := h
      split at h
      · simp at h
      · next hr =>
        simp only [Option.some.injEq] at h
        subst h
        exact convD_ok s hv hn (by omega) s1 s2 (by simp [PfConv.char, tConv, vaInt_ok hv hn])
  all_goals
    split at h
    · simp at h
    next hg =>
    simp only [Option.map_eq_some_iff] at h
    obtain ⟨x, hx, rfl⟩ := h
    have hvn : vaNum args i = .ok x := by
      cases v <;> simp at hx <;> simp [vaNum, hv, hx]
    simp only [PfConv.char, tConv, hvn]
    exact congrArg TOut.ok (convF_ok s hg x)

/-! The format -/

theorem convChar (c : PfConv) : isDigit c.char = false ∧ c.char ∉ b!"#0- +" ∧ c.char ≠ 36 ∧
    c.char ≠ 37 ∧ c.char ≠ 42 ∧ c.char ≠ 46 := by
  cases c <;> decide

/-- The precision, and what follows -/
def precText (s : PfSpec) : Bytes := match s.prec with | some ds => b!"." ++ ds | none => []

theorem digit_ne {c : UInt8} (h : TmDigit c) : c ≠ 36 ∧ c ≠ 37 ∧ c ≠ 42 ∧ c ≠ 46 ∧ c ≠ 32 ∧ c ≠ 43 ∧
    c ≠ 45 ∧ c ≠ 35 := by
  have := forall_byte (P := fun c => isDigit c = true → c ≠ 36 ∧ c ≠ 37 ∧ c ≠ 42 ∧ c ≠ 46 ∧ c ≠ 32 ∧
    c ≠ 43 ∧ c ≠ 45 ∧ c ≠ 35) (by decide +kernel)
  exact this c ((isDigit_tm c).mpr h)

theorem prec_chars {s : PfSpec} (hs : s.Ok) : ∀ c ∈ precText s, c ≠ 36 ∧ c ≠ 37 := by
  intro c hc
  unfold precText at hc
  split at hc
  · next ds hp =>
    simp only [List.cons_append, List.nil_append, List.mem_cons] at hc
    rcases hc with rfl | hc
    · decide
    · have := digit_ne ((hs.2.2 ds hp).1 c hc)
      exact ⟨this.1, this.2.1⟩
  · simp at hc

theorem getPrec_ok {N : TNum D} {args : List (JVal D)} {i : Nat} {s : PfSpec} (hs : s.Ok) (R : Bytes) :
    getPrec N args i (precText s ++ s.conv.char :: R) =
      .ok (some ((s.prec.map tmNat).getD 0, s.prec.isSome, s.conv.char :: R)) := by
  obtain ⟨c1, -, -, -, c2, c3⟩ := convChar s.conv
  unfold precText
  cases hp : s.prec with
  | none => simp [getPrec, c3]
  | some ds =>
    obtain ⟨hd, hn⟩ := hs.2.2 ds hp
    simp only [List.cons_append, List.nil_append, getPrec, if_true]
    cases ds with
    | nil =>
      simp [c1, c2, tmNat]
    | cons d ds =>
      have : isDigit d = true := (isDigit_tm d).mpr (hd d (by simp))
      have e := getNum_ok (R := s.conv.char :: R) hd
        (fun c t h => by simp at h; rw [← h.1]; exact c1) hn
      simp only [List.cons_append] at e ⊢
      simp [this, e]

/-- The width that is used -/
def widthOf (N : TNum D) (s : PfSpec) (args : List (JVal D)) : Option (Nat × List (JVal D)) :=
  match s.width, args with
  | .star, w :: args => do
    let n ← pfInt N w
    if n < 0 ∨ 2 ^ 31 ≤ n then none else some (n.toNat, args)
  | .star, [] => none
  | .none, args => some (0, args)
  | .digits ds, args => some (tmNat ds, args)

theorem vaArg_ok {all : List (JVal D)} {i : Nat} {v args} (hi : 0 < i)
    (h : all.drop (i - 1) = v :: args) :
    vaArg all i = .ok v ∧ all.drop (i + 1 - 1) = args := by
  have hne : all ≠ [] := by rintro rfl; simp at h
  have hg : all[i - 1]? = some v := by
    rw [← List.head?_drop, h]
    rfl
  refine ⟨by simp [vaArg, hne, hg]; omega, ?_⟩
  have : all.drop (i + 1 - 1) = (all.drop (i - 1)).drop 1 := by
    rw [List.drop_drop]
    congr 1
    omega
  rw [this, h]
  rfl

theorem getWidth_ok {N : TNum D} {all args args' : List (JVal D)} {i w : Nat} {s : PfSpec}
    (hs : s.Ok) (hi : 0 < i) (ha : all.drop (i - 1) = args) (hw : widthOf N s args = some (w, args'))
    (fl : TFlags) (R : Bytes) :
    ∃ i', 0 < i' ∧ all.drop (i' - 1) = args' ∧ w < 2 ^ 31 ∧
      getWidth N all fl i (s.width.text ++ (precText s ++ s.conv.char :: R)) =
        .ok (some (w, fl, i', precText s ++ s.conv.char :: R)) := by
  obtain ⟨c1, -, c4, -, c2, c3⟩ := convChar s.conv
  have hq : ∃ c t, precText s ++ s.conv.char :: R = c :: t ∧ isDigit c = false ∧ c ≠ 42 := by
    unfold precText
    split
    · exact ⟨_, _, rfl, by decide, by decide⟩
    · exact ⟨_, _, rfl, c1, c2⟩
  obtain ⟨q, qt, hq, q1, q2⟩ := hq
  unfold widthOf at hw
  cases hwd : s.width with
  | none =>
    simp only [hwd, Option.some.injEq, Prod.mk.injEq] at hw
    obtain ⟨rfl, rfl⟩ := hw
    refine ⟨i, hi, ha, by omega, ?_⟩
    simp only [PfWidth.text, List.nil_append, hq, getWidth, q1, q2, Bool.false_eq_true, if_false]
  | digits ds =>
    simp only [hwd, Option.some.injEq, Prod.mk.injEq] at hw
    obtain ⟨rfl, rfl⟩ := hw
    have hok := hs.2.1
    rw [hwd] at hok
    obtain ⟨hne, hd, -, hn⟩ := hok
    refine ⟨i, hi, ha, hn, ?_⟩
    cases ds with
    | nil => simp at hne
    | cons d ds =>
      have : isDigit d = true := (isDigit_tm d).mpr (hd d (by simp))
      have e := getNum_ok (R := precText s ++ s.conv.char :: R) hd
        (fun c t h => by rw [hq] at h; simp at h; rw [← h.1]; exact q1) hn
      simp only [PfWidth.text, List.cons_append] at e ⊢
      simp [getWidth, this, e]
  | star =>
    cases args with
    | nil => simp [hwd] at hw
    | cons a args =>
      simp only [hwd, Option.bind_eq_bind, Option.bind_eq_some_iff] at hw
      obtain ⟨n, hn, hw⟩ := hw
      split at hw
      · simp at hw
      · next hr =>
        simp only [Option.some.injEq, Prod.mk.injEq] at hw
        obtain ⟨rfl, rfl⟩ := hw
        obtain ⟨hv, hd⟩ := vaArg_ok hi ha
        refine ⟨i + 1, by omega, hd, by omega, ?_⟩
        have hap : argPos (precText s ++ s.conv.char :: R) = none := by
          have := argPos_none (X := precText s ++ [s.conv.char]) (R := R)
            (fun c hc => by
              rcases List.mem_append.mp hc with h | h
              · exact (prec_chars hs c h).1
              · simp at h; rw [h]; exact c4) ⟨s.conv.char, by simp, c1⟩
          simpa using this
        rw [hq] at hap ⊢
        have hmod : n.natAbs % 2 ^ 32 = n.toNat := by omega
        have hnn : decide (n < 0) = false := by simp; omega
        have hne : n ≠ -(2 ^ 63) := by omega
        simp only [PfWidth.text, List.cons_append, List.nil_append, getWidth,
          show isDigit 42 = false from rfl, Bool.false_eq_true, if_false, if_true, hap,
          vaInt_ok hv hn, tout_bind_ok, if_neg hne, hmod, hnn, Bool.or_false]
        rfl

theorem spec_ok {N : TNum D} {all args args' : List (JVal D)} {i w f : Nat} {s : PfSpec} {v o o'}
    {R : Bytes} (hs : s.Ok) (hi : 0 < i) (ha : all.drop (i - 1) = args)
    (hw : widthOf N s args = some (w, v :: args')) (ho : pfConv N s w v = some o)
    (hR : ∀ i', 0 < i' → all.drop (i' - 1) = args' → printfGo N all f i' R = .ok o') :
    printfGo N all (f + 1) i (s.text ++ R) = .ok (o ++ o') := by
  obtain ⟨c1, c5, c4, c6, c2, c3⟩ := convChar s.conv
  have htext : s.text ++ R = 37 :: (s.flags ++ (s.width.text ++ (precText s ++ s.conv.char :: R))) := by
    unfold PfSpec.text precText
    cases s.prec <;> simp
  have hX : ∀ c ∈ s.flags ++ (s.width.text ++ (precText s ++ [s.conv.char])), c ≠ 36 ∧ c ≠ 37 := by
    intro c hc
    simp only [List.mem_append, List.mem_singleton] at hc
    rcases hc with h | h | h | rfl
    · have := hs.1 c h
      simp only [List.mem_cons, List.not_mem_nil, or_false] at this
      rcases this with rfl | rfl | rfl | rfl | rfl <;> decide
    · have hok := hs.2.1
      cases hwd : s.width with
      | none => simp [hwd, PfWidth.text] at h
      | digits ds =>
        rw [hwd] at hok h
        have := digit_ne (hok.2.1 c h)
        exact ⟨this.1, this.2.1⟩
      | star => simp [hwd, PfWidth.text] at h; subst h; decide
    · exact prec_chars hs c h
    · exact ⟨c4, c6⟩
  have hap : argPos (s.flags ++ (s.width.text ++ (precText s ++ s.conv.char :: R))) = none := by
    have := argPos_none (R := R) (fun c hc => (hX c hc).1) ⟨s.conv.char, by simp, c1⟩
    simpa using this
  have hhd : (s.flags ++ (s.width.text ++ (precText s ++ s.conv.char :: R))).headD 0 ≠ 37 := by
    have : ∃ c t, s.flags ++ (s.width.text ++ (precText s ++ [s.conv.char])) = c :: t := by
      cases h : s.flags ++ (s.width.text ++ (precText s ++ [s.conv.char])) with
      | nil => simp at h
      | cons c t => exact ⟨c, t, rfl⟩
    obtain ⟨c, t, e⟩ := this
    have e2 : s.flags ++ (s.width.text ++ (precText s ++ s.conv.char :: R)) = c :: (t ++ R) := by
      have : s.flags ++ (s.width.text ++ (precText s ++ s.conv.char :: R)) =
        (s.flags ++ (s.width.text ++ (precText s ++ [s.conv.char]))) ++ R := by simp
      rw [this, e]
      rfl
    rw [e2]
    exact (hX c (by rw [e]; simp)).2
  have hfl := getFlags_ok (q := s.width.text ++ (precText s ++ s.conv.char :: R)) hs.1 (by
    intro c t h
    have hp : ∀ c t, precText s ++ s.conv.char :: R = c :: t → c ∉ b!"#0- +" := by
      intro c t h
      unfold precText at h
      split at h
      · simp at h; rw [← h.1]; decide
      · simp at h; rw [← h.1]; exact c5
    cases hwd : s.width with
    | none => rw [hwd] at h; exact hp c t h
    | star => rw [hwd] at h; simp [PfWidth.text] at h; rw [← h.1]; decide
    | digits ds =>
      have hok := hs.2.1
      rw [hwd] at hok h
      obtain ⟨hne, hd, h0, -⟩ := hok
      cases ds with
      | nil => simp at hne
      | cons d ds =>
        simp [PfWidth.text] at h
        obtain ⟨rfl, -⟩ := h
        have := digit_ne (hd d (by simp))
        simp at h0
        simp [this, h0])
  obtain ⟨i', hi', ha', hlt, hgw⟩ := getWidth_ok hs hi ha hw (flagsOf s.flags) R
  obtain ⟨hv, hd⟩ := vaArg_ok hi' ha'
  have hR' := hR (i' + 1) (by omega) hd
  rw [htext]
  simp only [printfGo, ne_eq, not_true_eq_false, if_false, if_neg hhd, hap, hfl, hgw, tout_bind_ok,
    getPrec_ok hs]
  have hc := conv_ok s hlt hv ho (List.take
    ((37 :: (s.flags ++ (s.width.text ++ (precText s ++ s.conv.char :: R)))).length - R.length)
    (37 :: (s.flags ++ (s.width.text ++ (precText s ++ s.conv.char :: R)))))
  simp only [dirOf] at hc
  rw [hc]
  simp only [tout_bind_ok, hR']
  rfl

theorem printf_run {N : TNum D} {all : List (JVal D)} : ∀ (l : List PfItem) (args : List (JVal D))
    (i : Nat) (o : Bytes), (∀ it ∈ l, it.Ok) → 0 < i → all.drop (i - 1) = args →
    pfRun N l args = some o → ∀ f, (l.flatMap PfItem.text).length < f →
    printfGo N all f i (l.flatMap PfItem.text) = .ok o
  | [], args, i, o, _, _, _, h, f, hf => by
    simp only [pfRun, Option.some.injEq] at h
    subst h
    cases f with
    | zero => simp at hf
    | succ f => rfl
  | .lit c :: l, args, i, o, hok, hi, ha, h, f, hf => by
    simp only [pfRun, Option.map_eq_some_iff] at h
    obtain ⟨o', h, rfl⟩ := h
    have hc : c ≠ 37 := hok (.lit c) (by simp)
    simp only [List.flatMap_cons, PfItem.text, List.cons_append, List.nil_append, List.length_cons]
      at hf ⊢
    cases f with
    | zero => omega
    | succ f =>
      have := printf_run l args i o' (fun it hm => hok it (by simp [hm])) hi ha h f (by omega)
      simp only [printfGo, ne_eq, hc, not_false_eq_true, if_true, this, tout_bind_ok]
      rfl
  | .pct :: l, args, i, o, hok, hi, ha, h, f, hf => by
    simp only [pfRun, Option.map_eq_some_iff] at h
    obtain ⟨o', h, rfl⟩ := h
    simp only [List.flatMap_cons, PfItem.text, List.cons_append, List.nil_append, List.length_cons]
      at hf ⊢
    cases f with
    | zero => omega
    | succ f =>
      have := printf_run l args i o' (fun it hm => hok it (by simp [hm])) hi ha h f (by omega)
      simp only [printfGo, ne_eq, not_true_eq_false, if_false, List.headD_cons, if_true,
        List.drop_succ_cons, List.drop_zero, this, tout_bind_ok]
      rfl
  | .spec s :: l, args, i, o, hok, hi, ha, h, f, hf => by
    have hs : s.Ok := hok (.spec s) (by simp)
    have : ∃ w v args' o1 o2, widthOf N s args = some (w, v :: args') ∧ pfConv N s w v = some o1 ∧
        pfRun N l args' = some o2 ∧ o = o1 ++ o2 := by
      unfold pfRun at h
      unfold widthOf
      split at h
      · next w v args' hwd =>
        simp only [Option.bind_eq_bind, Option.bind_eq_some_iff] at h
        obtain ⟨n, hn, h⟩ := h
        split at h
        · simp at h
        · next hr =>
          simp only [Option.bind_eq_some_iff, Option.some.injEq] at h
          obtain ⟨o1, h1, o2, h2, rfl⟩ := h
          exact ⟨n.toNat, v, args', o1, o2, by simp [hwd, hn]; omega, h1, h2, rfl⟩
      · simp at h
      · next v args' hwd =>
        simp only [Option.bind_eq_bind, Option.bind_eq_some_iff, Option.some.injEq] at h
        obtain ⟨o1, h1, o2, h2, rfl⟩ := h
        exact ⟨0, v, args', o1, o2, by simp [hwd], h1, h2, rfl⟩
      · next ds v args' hwd =>
        simp only [Option.bind_eq_bind, Option.bind_eq_some_iff, Option.some.injEq] at h
        obtain ⟨o1, h1, o2, h2, rfl⟩ := h
        exact ⟨tmNat ds, v, args', o1, o2, by simp [hwd], h1, h2, rfl⟩
      · simp at h
    obtain ⟨w, v, args', o1, o2, hw, h1, h2, rfl⟩ := this
    simp only [List.flatMap_cons, PfItem.text, List.length_append] at hf ⊢
    have ht : 0 < s.text.length := by simp [PfSpec.text]
    cases f with
    | zero => omega
    | succ f =>
      exact spec_ok hs hi ha hw h1 (fun i' hi' ha' =>
        printf_run l args' i' o2 (fun it hm => hok it (by simp [hm])) hi' ha' h2 f (by omega))

/-- What the format and arguments give is what printf prints. -/
theorem printf_formats {N : TNum D} {fmt : Bytes} {args : List (JVal D)} {o : Bytes}
    (h : Formats N fmt args o) : funPrintf N (.str fmt :: args) = .ok (.str o) := by
  obtain ⟨l, hok, rfl, hr⟩ := h
  simp only [funPrintf,
    printf_run (all := args) l args 1 o hok (by omega) rfl hr _ (Nat.lt_succ_self _), tout_bind_ok]
  rfl

end Pound
