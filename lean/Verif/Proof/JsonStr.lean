import Verif.Proof.Json

namespace Pound

/-! ### Formatting and reading strings -/

theorem hex_iff (c : UInt8) : isXDigit c = true ↔ Spec.Hex c := by
  simp [isXDigit, isDigit, Spec.Hex, or_assoc]

theorem esc_none (c : UInt8) : escapeCh c = none → c ≠ 34 ∧ c ≠ 92 := by
  revert c; apply forall_byte; decide +kernel

theorem esc_some (c : UInt8) : ∀ o, escapeCh c = some o →
    unescapeCh o = some c ∧ (isXDigit o = true → c = 8 ∨ c = 12) := by
  revert c; apply forall_byte; decide +kernel

theorem esc_hex (c : UInt8) : isXDigit c = true → escapeCh c = none := by
  revert c; apply forall_byte; decide +kernel

theorem fmtCh_ne (c : UInt8) : fmtCh c ≠ [] := by
  unfold fmtCh; cases escapeCh c <;> simp

/-- The first byte of a formatted byte is a digit only if the byte is one. -/
theorem hexRun_fmt (rest : Bytes) : ∀ (n : Nat) (s : Bytes),
    hexRun n (s.flatMap fmtCh ++ 34 :: rest) = .ok (decide (n ≤ (s.takeWhile isXDigit).length))
  | 0, s => by simp [hexRun]
  | n + 1, [] => by
    have : isXDigit 34 = false := by decide
    simp [hexRun, this]
  | n + 1, c :: s => by
    by_cases h : isXDigit c = true
    · have hf : fmtCh c = [c] := by unfold fmtCh; rw [esc_hex c h]
      simp only [List.flatMap_cons, hf, List.cons_append, List.nil_append, hexRun, h, if_true,
        List.takeWhile_cons, List.length_cons]
      rw [hexRun_fmt rest n s]
      simp
    · have h' : isXDigit c = false := by simpa using h
      have h92 : isXDigit 92 = false := by decide
      have : ((c :: s).takeWhile isXDigit).length = 0 := by simp [h']
      rw [this]
      unfold fmtCh
      cases he : escapeCh c with
      | none => simp [hexRun, he, h']
      | some o => simp [hexRun, he, h92]

theorem trap_of_run {x : UInt8} {s : Bytes} (hx : x = 8 ∨ x = 12)
    (h : 3 ≤ (s.takeWhile isXDigit).length) : Spec.HasTrap (x :: s) := by
  match s with
  | [] => simp at h
  | [a] => by_cases ha : isXDigit a = true <;> simp [ha] at h
  | [a, b] =>
    by_cases ha : isXDigit a = true <;> by_cases hb : isXDigit b = true <;> simp [ha, hb] at h
  | a :: b :: c :: post =>
    by_cases ha : isXDigit a = true
    · by_cases hb : isXDigit b = true
      · by_cases hc : isXDigit c = true
        · exact ⟨[], x, a, b, c, post, rfl, hx, (hex_iff a).mp ha, (hex_iff b).mp hb,
            (hex_iff c).mp hc⟩
        · simp [ha, hb, hc] at h
      · simp [ha, hb] at h
    · simp [ha] at h

theorem trap_cons {x : UInt8} {s : Bytes} (h : Spec.HasTrap s) : Spec.HasTrap (x :: s) := by
  obtain ⟨pre, y, a, b, c, post, rfl, h⟩ := h
  exact ⟨x :: pre, y, a, b, c, post, rfl, h⟩

theorem jScan_fmt (rest : Bytes) : ∀ (s : Bytes), ¬ Spec.HasTrap s → ∀ f len, s.length < f →
    jScan f (s.flatMap fmtCh ++ 34 :: rest) len = .ok (some (len + s.length))
  | [], _, f + 1, len, _ => by simp [jScan]
  | c :: s, ht, f + 1, len, hf => by
    have ih := jScan_fmt rest s (fun h => ht (trap_cons h)) f (len + 1) (by simpa using hf)
    unfold fmtCh at ih ⊢
    rw [List.flatMap_cons]
    cases he : escapeCh c with
    | none =>
      have := esc_none c he
      simp only [List.cons_append, List.nil_append, jScan, this.1, this.2, if_false]
      rw [ih]; simp; omega
    | some o =>
      have ho := esc_some c o he
      have h34 : (92 : UInt8) ≠ 34 := by decide
      simp only [List.cons_append, List.nil_append, jScan, h34, if_false, if_true]
      have hrun : hexRun 4 (o :: (s.flatMap fmtCh ++ 34 :: rest)) = .ok false := by
        rw [hexRun]
        by_cases hx : isXDigit o = true
        · rw [if_pos hx, hexRun_fmt]
          congr 1
          simp only [decide_eq_false_iff_not]
          exact fun h3 => ht (trap_of_run (ho.2 hx) h3)
        · rw [if_neg hx]
      unfold fmtCh at hrun
      rw [hrun]
      dsimp only
      rw [ih]; simp; omega

theorem jCopy_fmt (rest : Bytes) : ∀ (s : Bytes) f out, s.length < f →
    jCopy f (s.flatMap fmtCh ++ 34 :: rest) out = .ok (out ++ s, rest)
  | [], f + 1, out, _ => by simp [jCopy]
  | c :: s, f + 1, out, hf => by
    have ih := jCopy_fmt rest s f (out ++ [c]) (by simpa using hf)
    rw [List.flatMap_cons]
    cases he : escapeCh c with
    | none =>
      have := esc_none c he
      have hfc : fmtCh c = [c] := by unfold fmtCh; rw [he]
      simp only [hfc, List.cons_append, List.nil_append, jCopy, this.1, this.2, if_false]
      rw [ih]; simp
    | some o =>
      have ho := esc_some c o he
      have h34 : (92 : UInt8) ≠ 34 := by decide
      have hfc : fmtCh c = [92, o] := by unfold fmtCh; rw [he]
      simp only [hfc, List.cons_append, List.nil_append, jCopy, h34, if_false, if_true, ho.1]
      rw [ih]; simp

theorem length_le_fmt (s : Bytes) : s.length ≤ (s.flatMap fmtCh).length := by
  induction s with
  | nil => simp
  | cons c s ih =>
    have : 0 < (fmtCh c).length := List.length_pos_iff.mpr (fmtCh_ne c)
    simp only [List.flatMap_cons, List.length_append, List.length_cons]; omega

theorem takeWhile_all' {α} {P : α → Bool} {l : List α} (h : ∀ x ∈ l, P x = true) :
    l.takeWhile P = l := by
  induction l with
  | nil => rfl
  | cons a l ih =>
    rw [List.takeWhile_cons, if_pos (h a List.mem_cons_self),
      ih fun x hx => h x (List.mem_cons_of_mem _ hx)]

/-- Reading a formatted string gives it back. -/
theorem jGetText_fmt {s : Bytes} (hz : (0 : UInt8) ∉ s) (ht : ¬ Spec.HasTrap s) (rest : Bytes) :
    jGetText (s.flatMap fmtCh ++ 34 :: rest) = .ok (some (s, rest)) := by
  have hl := length_le_fmt s
  unfold jGetText
  rw [jScan_fmt rest s ht _ _ (by rw [List.length_append]; omega)]
  dsimp only
  rw [jCopy_fmt rest s _ _ (by rw [List.length_append]; omega)]
  dsimp only
  rw [List.nil_append, if_neg (by omega), takeWhile_all']
  intro x hx
  simp only [bne_iff_ne, ne_eq]
  intro e; exact hz (e ▸ hx)

end Pound
