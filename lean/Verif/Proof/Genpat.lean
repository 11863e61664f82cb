import Verif.Model.Genpat
import Verif.Spec.Genpat
import Verif.Proof.Basic

namespace Pound

open Spec (SameLetter SameText StartsWith EndsWith Contains PlainBorders)

/-! ### Letter case -/

theorem upper_iff (a b : UInt8) : SameLetter a b ↔ toUpper a = toUpper b := by
  unfold SameLetter toUpper isLower
  simp only [UInt8.le_iff_toNat_le, ← UInt8.toNat_inj, UInt8.toNat_add, Bool.and_eq_true,
    decide_eq_true_eq]
  have ha := a.toNat_lt
  have hb := b.toNat_lt
  have e1 : (97 : UInt8).toNat = 97 := rfl
  have e2 : (122 : UInt8).toNat = 122 := rfl
  have e3 : (65 : UInt8).toNat = 65 := rfl
  have e4 : (90 : UInt8).toNat = 90 := rfl
  have e5 : (32 : UInt8).toNat = 32 := rfl
  rw [e1, e2, e3, e4, e5]
  have s : ∀ c : UInt8, 97 ≤ c.toNat → (c - 32).toNat = c.toNat - 32 := by
    intro c hc
    rw [UInt8.toNat_sub_of_le]
    · rfl
    · rw [UInt8.le_iff_toNat_le, e5]; omega
  split <;> split
  · rename_i h1 h2
    rw [s a h1.1, s b h2.1]; omega
  · rename_i h1 h2
    rw [s a h1.1]; omega
  · rename_i h1 h2
    rw [s b h2.1]; omega
  · omega

theorem lower_iff (a b : UInt8) : SameLetter a b ↔ toLower a = toLower b := by
  unfold SameLetter toLower isUpper
  simp only [UInt8.le_iff_toNat_le, ← UInt8.toNat_inj, UInt8.toNat_add, Bool.and_eq_true,
    decide_eq_true_eq]
  have ha := a.toNat_lt
  have hb := b.toNat_lt
  have e3 : (65 : UInt8).toNat = 65 := rfl
  have e4 : (90 : UInt8).toNat = 90 := rfl
  have e5 : (32 : UInt8).toNat = 32 := rfl
  rw [e3, e4, e5]
  split <;> split <;> (try simp only [UInt8.toNat_add, e5]) <;> omega

theorem uc_iff (ci : Bool) (a b : UInt8) :
    (if ci then SameLetter a b else a = b) ↔ ucMap ci a = ucMap ci b := by
  cases ci
  · simp [ucMap]
  · simp [ucMap, upper_iff]

theorem sameText_map {ci : Bool} {f : UInt8 → UInt8}
    (hf : ∀ a b, (if ci then SameLetter a b else a = b) ↔ f a = f b) (x y : Bytes) :
    SameText ci x y ↔ x.map f = y.map f := by
  unfold SameText
  constructor
  · rintro ⟨hl, h⟩
    apply List.ext_getElem?
    intro i
    rw [List.getElem?_map, List.getElem?_map]
    rcases Nat.lt_or_ge i x.length with hi | hi
    · rw [List.getElem?_eq_getElem hi, List.getElem?_eq_getElem (hl ▸ hi)]
      simp only [Option.map_some, Option.some.injEq]
      exact (hf _ _).mp (h i _ _ (List.getElem?_eq_getElem hi) (List.getElem?_eq_getElem (hl ▸ hi)))
    · rw [List.getElem?_eq_none hi, List.getElem?_eq_none (hl ▸ hi)]
  · intro h
    refine ⟨by simpa using congrArg List.length h, ?_⟩
    intro i a b ha hb
    rw [hf]
    have := congrArg (fun l => l[i]?) h
    simpa [List.getElem?_map, ha, hb] using this

theorem sameText_uc (ci : Bool) (x y : Bytes) :
    SameText ci x y ↔ x.map (ucMap ci) = y.map (ucMap ci) := sameText_map (uc_iff ci) x y

theorem strEqC_iff (ci : Bool) (x y : Bytes) : strEqC ci x y = true ↔ SameText ci x y := by
  cases ci
  · rw [sameText_map (f := id) (by simp)]
    simp [strEqC]
  · rw [sameText_map (f := toLower) (by simp [lower_iff])]
    simp [strEqC, ciEq]

theorem sameText_len {ci x y} (h : SameText ci x y) : x.length = y.length := h.1

/-! ### Exact, prefix, suffix -/

theorem exactExec_iff (ci : Bool) (pat subj : Bytes) :
    exactExec ci pat subj = true ↔ SameText ci subj pat := by
  unfold exactExec
  split
  · rename_i h
    simp only [Bool.false_eq_true, false_iff]
    exact fun h' => h h'.1
  · exact strEqC_iff ci _ _

theorem prefixExec_iff (ci : Bool) (pat subj : Bytes) :
    prefixExec ci pat subj = true ↔ StartsWith ci pat subj := by
  unfold prefixExec
  split
  · rename_i h
    simp only [Bool.false_eq_true, false_iff]
    rintro ⟨q, r, rfl, hq⟩
    have := hq.1
    simp at h; omega
  · rename_i h
    rw [strEqC_iff, List.take_length]
    constructor
    · intro h'
      exact ⟨_, _, (List.take_append_drop pat.length subj).symm, h'⟩
    · rintro ⟨q, r, rfl, hq⟩
      rwa [List.take_left' hq.1]

theorem suffixExec_iff (ci : Bool) (pat subj : Bytes) :
    suffixExec ci pat subj = true ↔ EndsWith ci pat subj := by
  unfold suffixExec
  split
  · rename_i h
    simp only [Bool.false_eq_true, false_iff]
    rintro ⟨q, r, rfl, hq⟩
    have := hq.1
    simp at h; omega
  · rename_i h
    rw [strEqC_iff, List.take_length]
    have hlen : (subj.drop (subj.length - pat.length)).length = pat.length := by simp; omega
    rw [List.take_of_length_le (by omega)]
    constructor
    · intro h'
      exact ⟨_, _, (List.take_append_drop (subj.length - pat.length) subj).symm, h'⟩
    · rintro ⟨q, r, rfl, hq⟩
      rwa [List.drop_left' (by rw [List.length_append, hq.1]; omega)]

/-! ### Boyer-Moore -/

/-- P occurs in T at position a. -/
def Occ (T P : Bytes) (a : Nat) : Prop := ∀ k, k < P.length → T[a + k]? = P[k]?

theorem occ_iff_contains (ci : Bool) (p s : Bytes) :
    Contains ci p s ↔ ∃ a, Occ (s.map (ucMap ci)) (p.map (ucMap ci)) a ∧ a + p.length ≤ s.length := by
  constructor
  · rintro ⟨a, q, b, rfl, hq⟩
    refine ⟨a.length, ?_, ?_⟩
    · intro k hk
      have hq' := (sameText_uc ci q p).mp hq
      rw [← hq'] at hk ⊢
      rw [List.map_append, List.map_append, List.append_assoc,
        List.getElem?_append_right (by simp)]
      simp only [List.length_map, Nat.add_sub_cancel_left]
      rw [List.getElem?_append_left hk]
    · have := hq.1
      simp; omega
  · rintro ⟨a, h, hl⟩
    refine ⟨s.take a, (s.drop a).take p.length, (s.drop a).drop p.length, ?_, ?_⟩
    · rw [List.append_assoc, List.take_append_drop, List.take_append_drop]
    · rw [sameText_uc]
      apply List.ext_getElem?
      intro k
      rcases Nat.lt_or_ge k p.length with hk | hk
      · rw [← h k (by simpa using hk)]
        simp only [List.getElem?_map, List.getElem?_take_of_lt hk, List.getElem?_drop]
      · rw [List.getElem?_eq_none (by simp; omega), List.getElem?_eq_none (by simpa using hk)]

theorem occ_bound {T P : Bytes} {a : Nat} (hP : P ≠ []) (h : Occ T P a) : a + P.length ≤ T.length := by
  have hpos := List.length_pos_iff.mpr hP
  have := h (P.length - 1) (by omega)
  rw [List.getElem?_eq_getElem (l := P) (by omega)] at this
  have := (List.getElem?_eq_some_iff.mp this).1
  omega

/-- The table of bad characters bounds the last position of a byte. -/
theorem badLoop_spec (m : Nat) : ∀ (p : Bytes) (i : Nat) (t : UInt8 → Nat) (c : UInt8) (k : Nat),
    p[k]? = some c → badLoop m i p t c ≤ m - 1 - (i + k)
  | [], _, _, _, _, h => by simp at h
  | a :: p, i, t, c, k, h => by
    rw [badLoop]
    cases k with
    | succ k =>
      have := badLoop_spec m p (i + 1) (updT t a (m - 1 - i)) c k (by simpa using h)
      rw [show i + (k + 1) = i + 1 + k by omega]; exact this
    | zero =>
      have ha : a = c := by simpa using h
      subst ha
      -- either a later occurrence, with a smaller value, or this one
      by_cases hin : ∃ k : Nat, p[k]? = some a
      · obtain ⟨k, hk⟩ := hin
        have := badLoop_spec m p (i + 1) (updT t a (m - 1 - i)) a k hk
        omega
      · have hno : ∀ (p : Bytes) (i : Nat) (t : UInt8 → Nat), (¬ ∃ k : Nat, p[k]? = some a) →
            badLoop m i p t a = t a := by
          intro p
          induction p with
          | nil => intro i t _; rfl
          | cons b p ih =>
            intro i t hn
            rw [badLoop, ih]
            · have : a ≠ b := fun e => hn ⟨0, by simp [e]⟩
              simp [updT, this]
            · rintro ⟨k, hk⟩; exact hn ⟨k + 1, by simpa using hk⟩
        rw [hno p _ _ hin]
        simp [updT]

theorem badLoop_le (m : Nat) (c : UInt8) : ∀ (p : Bytes) (i : Nat) (t : UInt8 → Nat),
    t c ≤ m - 1 → badLoop m i p t c ≤ m - 1
  | [], _, _, h => h
  | a :: p, i, t, h => by
    rw [badLoop]
    apply badLoop_le m c p
    unfold updT
    split <;> omega

theorem badDelta_le (P : Bytes) (c : UInt8) : badDelta P c ≤ P.length - 1 :=
  badLoop_le _ _ _ _ _ (Nat.le_refl _)

theorem badDelta_spec {P : Bytes} {c : UInt8} {k : Nat} (h : P[k]? = some c) :
    badDelta P c ≤ P.length - 1 - k := by
  have := badLoop_spec P.length P 0 (fun _ => P.length - 1) c k h
  simpa [badDelta] using this

theorem sufLoop_spec (P : Bytes) (pos L : Nat) (hL : L ≤ pos)
    (heq : ∀ i, i < L → P[pos - i]? = P[P.length - 1 - i]?)
    (hne : P[pos - L]? ≠ P[P.length - 1 - L]?) :
    ∀ f i, i ≤ L → pos - i ≤ f → sufLoop P pos f i = L
  | 0, i, hi, hf => by rw [sufLoop]; omega
  | f + 1, i, hi, hf => by
    rw [sufLoop]
    by_cases h : i < pos
    · rw [if_pos h]
      rcases Nat.lt_or_ge i L with hl | hl
      · rw [if_neg (by simp [heq i hl])]
        exact sufLoop_spec P pos L hL heq hne f (i + 1) (by omega) (by omega)
      · have : i = L := by omega
        subst this
        rw [if_pos hne]
    · rw [if_neg h]; omega

theorem sufLoop_le (P : Bytes) (pos : Nat) : ∀ f i, i ≤ pos → sufLoop P pos f i ≤ pos
  | 0, i, h => by rw [sufLoop]; exact h
  | f + 1, i, h => by
    rw [sufLoop]
    split
    · split
      · exact h
      · exact sufLoop_le P pos f (i + 1) (by omega)
    · exact h

theorem sufLen_le (P : Bytes) (pos : Nat) : sufLen P pos ≤ pos := sufLoop_le P pos _ _ (Nat.zero_le _)

/-- The iteration of the second loop for index i sets the entry j. -/
def SetsEntry (P : Bytes) (i j : Nat) : Prop :=
  P[i - sufLen P i]? ≠ P[P.length - 1 - sufLen P i]? ∧ P.length - 1 - sufLen P i = j

theorem goodStep_cases (P : Bytes) (t : Nat → Nat) (i j : Nat) :
    (SetsEntry P i j ∧ goodStep P t i j = P.length - 1 - i + sufLen P i) ∨
    (¬ SetsEntry P i j ∧ goodStep P t i j = t j) := by
  unfold goodStep SetsEntry
  by_cases h : P[i - sufLen P i]? ≠ P[P.length - 1 - sufLen P i]?
  · by_cases hj : P.length - 1 - sufLen P i = j
    · left
      refine ⟨⟨h, hj⟩, ?_⟩
      rw [if_pos h, hj]
      simp [updT]
    · right
      refine ⟨fun h' => hj h'.2, ?_⟩
      have : ¬ j = P.length - 1 - sufLen P i := fun e => hj e.symm
      simp [h, this, updT]
  · right
    refine ⟨fun h' => h h'.1, ?_⟩
    simp only [ne_eq, Decidable.not_not] at h
    simp [h]

/-- The last iteration that sets an entry decides. -/
theorem goodFold (P : Bytes) (t : Nat → Nat) (j : Nat) : ∀ n,
    (∃ i, i < n ∧ SetsEntry P i j ∧ (∀ i', i < i' → i' < n → ¬ SetsEntry P i' j) ∧
      (List.range n).foldl (goodStep P) t j = P.length - 1 - i + sufLen P i) ∨
    ((∀ i, i < n → ¬ SetsEntry P i j) ∧ (List.range n).foldl (goodStep P) t j = t j)
  | 0 => Or.inr ⟨by intro i hi; omega, rfl⟩
  | n + 1 => by
    rw [List.range_succ, List.foldl_append]
    simp only [List.foldl_cons, List.foldl_nil]
    rcases goodStep_cases P ((List.range n).foldl (goodStep P) t) n j with ⟨h, e⟩ | ⟨h, e⟩
    · exact Or.inl ⟨n, by omega, h, by intro i' h1 h2; omega, e⟩
    · rcases goodFold P t j n with ⟨i, hi, hs, hl, e'⟩ | ⟨hn, e'⟩
      · refine Or.inl ⟨i, by omega, hs, ?_, by rw [e, e']⟩
        intro i' h1 h2
        rcases Nat.lt_or_ge i' n with h3 | h3
        · exact hl i' h1 h3
        · have : i' = n := by omega
          subst this; exact h
      · refine Or.inr ⟨?_, by rw [e, e']⟩
        intro i hi
        rcases Nat.lt_or_ge i n with h3 | h3
        · exact hn i h3
        · have : i = n := by omega
          subst this; exact h

theorem isPrefixC_end (P : Bytes) : isPrefixC P P.length = false := by
  simp [isPrefixC]

theorem goodJ_pos (P : Bytes) : ∀ k, k + 1 ≤ P.length → 1 ≤ goodJ P k
  | 0, _ => by rw [goodJ, isPrefixC_end]; simp
  | k + 1, h => by
    rw [goodJ]
    split
    · omega
    · exact goodJ_pos P k (by omega)

/-- Suffix of P at pos is also a prefix of P. -/
def Border (P : Bytes) (pos : Nat) : Prop := P.take (P.length - pos) = P.drop pos

/-- Borders are runs: with each border the next shorter suffix is a border. -/
def RunBorders (P : Bytes) : Prop := ∀ pos, 1 ≤ pos → pos + 1 < P.length → Border P pos → Border P (pos + 1)

theorem goodJ_border {P : Bytes} (hr : RunBorders P) : ∀ k, k + 1 < P.length →
    Border P (P.length - 1 - k) → goodJ P (k + 1) = 1
  | 0, h, hb => by
    rw [goodJ, if_neg (by simpa [isPrefixC, Border] using hb), goodJ, isPrefixC_end]; simp
  | k + 1, h, hb => by
    rw [goodJ, if_neg (by simpa [isPrefixC, Border] using hb)]
    refine goodJ_border hr k (by omega) ?_
    have := hr _ (by omega) (by omega) hb
    rwa [show P.length - 1 - (k + 1) + 1 = P.length - 1 - k by omega] at this

theorem goodJ_le {P : Bytes} (hr : RunBorders P) {i : Nat} (hi : i < P.length) :
    goodJ P (P.length - 1 - i) ≤ i + 1 := by
  cases hk : P.length - 1 - i with
  | zero => rw [goodJ, isPrefixC_end]; simp
  | succ k =>
    by_cases hb : Border P (P.length - 1 - k)
    · rw [goodJ_border hr k (by omega) hb]; omega
    · rw [goodJ, if_pos (by simpa [isPrefixC, Border] using hb)]; omega

/-- Each shift is at least one. -/
theorem goodDelta_ge (P : Bytes) {j : Nat} (hj : j < P.length) :
    P.length - j ≤ goodDelta P j := by
  unfold goodDelta
  rcases goodFold P (goodFirst P) j (P.length - 1) with ⟨i, hi, hs, -, e⟩ | ⟨-, e⟩
  · rw [e]
    have h1 := hs.2
    have h2 := sufLen_le P i
    omega
  · rw [e, goodFirst]
    have := goodJ_pos P (P.length - 1 - j) (by omega)
    omega

/-- No occurrence is skipped. -/
theorem good_safe {T P : Bytes} (hr : RunBorders P) {a j : Nat} (hj : j < P.length)
    (hmatch : ∀ k, j < k → k < P.length → T[a + k]? = P[k]?) (hmis : T[a + j]? ≠ P[j]?)
    {s : Nat} (hs : 1 ≤ s) (hocc : Occ T P (a + s)) :
    goodDelta P j ≤ s + (P.length - 1 - j) := by
  -- the occurrence gives equalities inside P
  have hin : ∀ k, j < k → k < P.length → s ≤ k → P[k - s]? = P[k]? := by
    intro k h1 h2 h3
    have := hocc (k - s) (by omega)
    rw [show a + s + (k - s) = a + k by omega, hmatch k h1 h2] at this
    exact this.symm
  unfold goodDelta
  rcases goodFold P (goodFirst P) j (P.length - 1) with ⟨i, hi, hsi, hlast, e⟩ | ⟨hnone, e⟩
  · rw [e]
    have h1 := hsi.2
    have h2 := sufLen_le P i
    rcases Nat.lt_or_ge j s with hjs | hjs
    · omega
    · -- s ≤ j: the iteration P.length - 1 - s sets the entry too
      by_cases hle : P.length - 1 - s ≤ i
      · omega
      · exfalso
        apply hlast (P.length - 1 - s) (by omega) (by omega)
        have hL : sufLen P (P.length - 1 - s) = P.length - 1 - j := by
          unfold sufLen
          refine sufLoop_spec P _ (P.length - 1 - j) (by omega) ?_ ?_ _ 0 (by omega) (by omega)
          · intro i' hi'
            have := hin (P.length - 1 - i') (by omega) (by omega) (by omega)
            rw [← this]
            congr 1; omega
          · have h3 := hocc (j - s) (by omega)
            rw [show a + s + (j - s) = a + j by omega] at h3
            rw [show P.length - 1 - s - (P.length - 1 - j) = j - s by omega,
              show P.length - 1 - (P.length - 1 - j) = j by omega, ← h3]
            exact hmis
        refine ⟨?_, by rw [hL]; omega⟩
        rw [hL]
        have h3 := hocc (j - s) (by omega)
        rw [show a + s + (j - s) = a + j by omega] at h3
        rw [show P.length - 1 - s - (P.length - 1 - j) = j - s by omega,
          show P.length - 1 - (P.length - 1 - j) = j by omega, ← h3]
        exact hmis
  · rw [e, goodFirst]
    have hJ := goodJ_le hr hj
    rcases Nat.lt_or_ge j s with hjs | hjs
    · omega
    · exfalso
      apply hnone (P.length - 1 - s) (by omega)
      have hL : sufLen P (P.length - 1 - s) = P.length - 1 - j := by
        unfold sufLen
        refine sufLoop_spec P _ (P.length - 1 - j) (by omega) ?_ ?_ _ 0 (by omega) (by omega)
        · intro i' hi'
          have := hin (P.length - 1 - i') (by omega) (by omega) (by omega)
          rw [← this]
          congr 1; omega
        · have h3 := hocc (j - s) (by omega)
          rw [show a + s + (j - s) = a + j by omega] at h3
          rw [show P.length - 1 - s - (P.length - 1 - j) = j - s by omega,
            show P.length - 1 - (P.length - 1 - j) = j by omega, ← h3]
          exact hmis
      refine ⟨?_, by rw [hL]; omega⟩
      rw [hL]
      have h3 := hocc (j - s) (by omega)
      rw [show a + s + (j - s) = a + j by omega] at h3
      rw [show P.length - 1 - s - (P.length - 1 - j) = j - s by omega,
        show P.length - 1 - (P.length - 1 - j) = j by omega, ← h3]
      exact hmis

theorem bad_safe {T P : Bytes} {a j : Nat} (hj : j < P.length) {c : UInt8}
    (hc : T[a + j]? = some c) {s : Nat} (hs : 1 ≤ s) (hocc : Occ T P (a + s)) :
    badDelta P c ≤ s + (P.length - 1 - j) := by
  rcases Nat.lt_or_ge j s with hjs | hjs
  · have := badDelta_le P c; omega
  · have h3 := hocc (j - s) (by omega)
    rw [show a + s + (j - s) = a + j by omega, hc] at h3
    have := badDelta_spec h3.symm
    omega

/-- What the comparison establishes -/
theorem bmBack_spec (ci : Bool) (subj P : Bytes) : ∀ (k i1 : Nat), k ≤ i1 → k ≤ P.length →
    i1 ≤ subj.length →
    (bmBack ci subj P k i1 = .ok none ∧
      ∀ t, t < k → (subj.map (ucMap ci))[i1 - k + t]? = P[t]?) ∨
    (∃ j, j < k ∧ bmBack ci subj P k i1 = .ok (some (i1 - k + j, j)) ∧
      (subj.map (ucMap ci))[i1 - k + j]? ≠ P[j]? ∧
      ∀ t, j < t → t < k → (subj.map (ucMap ci))[i1 - k + t]? = P[t]?)
  | 0, i1, _, _, _ => Or.inl ⟨rfl, by intro t ht; omega⟩
  | k + 1, 0, h, _, _ => by omega
  | k + 1, i + 1, h, hP, hs => by
    rw [bmBack, List.getElem?_eq_getElem (show i < subj.length by omega),
      List.getElem?_eq_getElem (show k < P.length by omega)]
    dsimp only
    have hT : (subj.map (ucMap ci))[i]? = some (ucMap ci (subj[i]'(by omega))) := by
      rw [List.getElem?_map, List.getElem?_eq_getElem (by omega)]; rfl
    have hPk : P[k]? = some (P[k]'(by omega)) := List.getElem?_eq_getElem (by omega)
    by_cases he : ucMap ci (subj[i]'(by omega)) = P[k]'(by omega)
    · rw [if_pos he]
      rcases bmBack_spec ci subj P k i (by omega) (by omega) (by omega) with ⟨h1, h2⟩ | ⟨j, hj, h1, h2, h3⟩
      · refine Or.inl ⟨h1, ?_⟩
        intro t ht
        rcases Nat.lt_or_ge t k with htk | htk
        · have := h2 t htk
          rwa [show i + 1 - (k + 1) + t = i - k + t by omega]
        · have : t = k := by omega
          subst this
          rw [show i + 1 - (t + 1) + t = i by omega, hT, hPk, he]
      · refine Or.inr ⟨j, by omega, ?_, ?_, ?_⟩
        · rw [show i + 1 - (k + 1) + j = i - k + j by omega]; exact h1
        · rw [show i + 1 - (k + 1) + j = i - k + j by omega]; exact h2
        · intro t h4 h5
          rcases Nat.lt_or_ge t k with htk | htk
          · have := h3 t h4 htk
            rwa [show i + 1 - (k + 1) + t = i - k + t by omega]
          · have : t = k := by omega
            subst this
            rw [show i + 1 - (t + 1) + t = i by omega, hT, hPk, he]
    · rw [if_neg he]
      refine Or.inr ⟨k, by omega, ?_, ?_, by intro t h1 h2; omega⟩
      · rw [show i + 1 - (k + 1) + k = i by omega]
      · rw [show i + 1 - (k + 1) + k = i by omega, hT, hPk]
        simpa using he

/-- The loop: no undefined behaviour, it stops, a match is an occurrence, and - if borders
are runs - no occurrence is missed. -/
theorem bmLoop_spec (ci : Bool) (P subj : Bytes) (hP : P ≠ [])
    (h255 : ∀ c ∈ subj, ucMap ci c ≠ 255) :
    ∀ (f i : Nat), P.length - 1 ≤ i → subj.length < f + i →
    (bmLoop ci ⟨P, badDelta P, goodDelta P⟩ subj f i = .found ∧
      ∃ a, Occ (subj.map (ucMap ci)) P a) ∨
    (bmLoop ci ⟨P, badDelta P, goodDelta P⟩ subj f i = .notFound ∧
      (RunBorders P → ∀ a, i ≤ a + (P.length - 1) → ¬ Occ (subj.map (ucMap ci)) P a)) ∨
    (f = 0 ∧ subj.length ≤ i)
  | 0, i, _, hf => Or.inr (Or.inr ⟨rfl, by omega⟩)
  | f + 1, i, hi, hf => by
    have hpos := List.length_pos_iff.mpr hP
    by_cases hlt : i < subj.length
    · rw [bmLoop, if_pos hlt]
      dsimp only
      rcases bmBack_spec ci subj P P.length (i + 1) (by omega) (Nat.le_refl _) (by omega) with
        ⟨h1, h2⟩ | ⟨j, hj, h1, h2, h3⟩
      · rw [h1]
        exact Or.inl ⟨rfl, i + 1 - P.length, fun k hk => h2 k hk⟩
      · rw [h1]
        dsimp only
        have hx : i + 1 - P.length + j < subj.length := by omega
        rw [List.getElem?_eq_getElem hx]
        dsimp only
        rw [if_neg (h255 _ (List.getElem_mem hx))]
        have hge := goodDelta_ge P hj
        generalize hc : ucMap ci (subj[i + 1 - P.length + j]) = c
        have hTc : (subj.map (ucMap ci))[i + 1 - P.length + j]? = some c := by
          rw [List.getElem?_map, List.getElem?_eq_getElem hx, ← hc]; rfl
        have hmx := Nat.le_max_right (badDelta P c) (goodDelta P j)
        rcases bmLoop_spec ci P subj hP h255 f
            (i + 1 - P.length + j + max (badDelta P c) (goodDelta P j)) (by omega) (by omega) with
          h | ⟨h, hn⟩ | ⟨rfl, h⟩
        · exact Or.inl h
        · refine Or.inr (Or.inl ⟨h, ?_⟩)
          intro hr a ha hocc
          have hb := occ_bound hP hocc
          rcases Nat.lt_or_ge (i + 1 - P.length) a with hlt' | hge'
          · obtain ⟨s, rfl⟩ : ∃ s, a = i + 1 - P.length + s := ⟨a - (i + 1 - P.length), by omega⟩
            have g := good_safe hr hj h3 h2 (s := s) (by omega) hocc
            have b := bad_safe hj hTc (s := s) (by omega) hocc
            refine hn hr _ ?_ hocc
            have : max (badDelta P c) (goodDelta P j) ≤ s + (P.length - 1 - j) := Nat.max_le.mpr ⟨b, g⟩
            omega
          · have : a = i + 1 - P.length := by omega
            subst this
            exact h2 (hocc j hj)
        · omega
    · rw [bmLoop, if_neg hlt]
      refine Or.inr (Or.inl ⟨rfl, ?_⟩)
      intro _ a ha hocc
      have hb := occ_bound hP hocc
      simp at hb
      omega

theorem plain_run {ci : Bool} {p : Bytes} (h : PlainBorders ci p) : RunBorders (p.map (ucMap ci)) := by
  intro pos hpos1 hpos2 hb
  unfold Border at hb ⊢
  simp only [List.length_map] at hpos2 hb ⊢
  have hlen : p.length - pos ≤ p.length := by omega
  have hbord : SameText ci (p.take (p.length - pos)) (p.drop pos) := by
    rw [sameText_uc, List.map_take, List.map_drop]; exact hb
  have hrun := h (p.take (p.length - pos)) (p.drop (p.length - pos)) (p.take pos) (p.drop pos)
    (List.take_append_drop _ _).symm (List.take_append_drop _ _).symm
    (by
      intro e
      have := congrArg List.length e
      simp only [List.length_take, List.length_nil] at this
      omega) hbord
  -- all the letters of the border are the same
  generalize hP : p.map (ucMap ci) = P at *
  have hl : P.length = p.length := by rw [← hP]; simp
  have key : ∀ i k, i < p.length - pos → k < p.length - pos → P[i]? = P[k]? := by
    intro i k hi hk
    have hi' : (p.take (p.length - pos))[i]'(by simp; omega) ∈ p.take (p.length - pos) :=
      List.getElem_mem _
    have hk' : (p.take (p.length - pos))[k]'(by simp; omega) ∈ p.take (p.length - pos) :=
      List.getElem_mem _
    have := (uc_iff ci _ _).mp (hrun _ hi' _ hk')
    simp only [List.getElem_take] at this
    rw [← hP, List.getElem?_map, List.getElem?_map, List.getElem?_eq_getElem (by omega),
      List.getElem?_eq_getElem (by omega)]
    simp [this]
  apply List.ext_getElem?
  intro i
  rcases Nat.lt_or_ge i (p.length - (pos + 1)) with hi | hi
  · rw [List.getElem?_take_of_lt hi, List.getElem?_drop]
    have h1 := congrArg (fun l => l[i + 1]?) hb
    rw [List.getElem?_take_of_lt (by omega), List.getElem?_drop] at h1
    rw [show pos + 1 + i = pos + (i + 1) by omega, ← h1]
    exact key _ _ (by omega) (by omega)
  · rw [List.getElem?_eq_none (by simp; omega), List.getElem?_eq_none (by simp; omega)]

theorem containMatch_spec (ci : Bool) (pat subj : Bytes) (hne : pat ≠ []) (hp : (255 : UInt8) ∉ pat)
    (hs : (255 : UInt8) ∉ subj) :
    (containMatch ci pat subj = .found ∧ Contains ci pat subj) ∨
    (containMatch ci pat subj = .notFound ∧ (PlainBorders ci pat → ¬ Contains ci pat subj)) := by
  have huc : ∀ c : UInt8, ucMap ci c = 255 → c = 255 := by
    cases ci
    · intro c h; exact h
    · apply forall_byte; decide +kernel
  have hP : pat.map (ucMap ci) ≠ [] := by simpa using hne
  have hP255 : (255 : UInt8) ∉ pat.map (ucMap ci) := by
    intro h
    obtain ⟨c, hc, e⟩ := List.mem_map.mp h
    exact hp (huc c e ▸ hc)
  have hs255 : ∀ c ∈ subj, ucMap ci c ≠ 255 := fun c hc e => hs (huc c e ▸ hc)
  have hlen : (pat.map (ucMap ci)).length ≠ 0 := by simpa using hne
  have hlen' : 0 < (pat.map (ucMap ci)).length := List.length_pos_iff.mpr hP
  unfold containMatch bmCompile
  simp only [if_neg hP, if_neg hP255]
  unfold bmExec
  rw [if_neg hlen]
  rcases bmLoop_spec ci (pat.map (ucMap ci)) subj hP hs255 (subj.length + 1)
    ((pat.map (ucMap ci)).length - 1) (Nat.le_refl _) (by omega) with ⟨h, a, ha⟩ | ⟨h, hn⟩ | ⟨h, -⟩
  · refine Or.inl ⟨h, (occ_iff_contains ci pat subj).mpr ⟨a, ha, ?_⟩⟩
    simpa using occ_bound hP ha
  · refine Or.inr ⟨h, fun hb hc => ?_⟩
    obtain ⟨a, ha, -⟩ := (occ_iff_contains ci pat subj).mp hc
    exact hn (plain_run hb) a (by omega) ha
  · omega

/-- A check of `PlainBorders`: for each length of a border -/
def plainCheck (ci : Bool) (p : Bytes) : Bool :=
  let P := p.map (ucMap ci)
  (List.range P.length).all fun n =>
    P.take n != P.drop (P.length - n) || (P.take n).all fun x => (P.take n).all fun y => x == y

theorem plainCheck_ok {ci : Bool} {p : Bytes} (h : plainCheck ci p = true) : PlainBorders ci p := by
  intro b c d b' h1 h2 hd hs x hx y hy
  rw [uc_iff]
  unfold plainCheck at h
  dsimp only at h
  rw [List.all_eq_true] at h
  have hl := hs.1
  have hlen1 := congrArg List.length h1
  have hlen2 := congrArg List.length h2
  rw [List.length_append] at hlen1 hlen2
  have hdl := List.length_pos_iff.mpr hd
  have := h b.length (by simp; omega)
  have e1 : (p.map (ucMap ci)).take b.length = b.map (ucMap ci) := by
    rw [h1, List.map_append, List.take_left' (by simp)]
  have e2 : (p.map (ucMap ci)).drop ((p.map (ucMap ci)).length - b.length) = b'.map (ucMap ci) := by
    rw [List.length_map, show p.length - b.length = d.length by omega]
    rw [h2, List.map_append, List.drop_left' (by simp)]
  rw [e1, e2, (sameText_uc ci b b').mp hs] at this
  simp only [bne_self_eq_false, Bool.false_or, List.all_eq_true, beq_iff_eq] at this
  rw [← (sameText_uc ci b b').mp hs] at this
  exact this _ (List.mem_map_of_mem hx) _ (List.mem_map_of_mem hy)

end Pound
