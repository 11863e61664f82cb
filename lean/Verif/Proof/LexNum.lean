import Verif.Proof.Lexer

namespace Pound
open Spec

/-! ### Text blocks -/

theorem end_chars : ∀ c : UInt8, toLower c ∈ b!"end" → isSpace c = false := by apply forall_byte; decide +kernel

theorem ciEnd_nosp {w : Bytes} (h : ciEq w b!"end" = true) : ∀ c ∈ w, isSpace c = false := by
  intro c hc
  apply end_chars
  have := ciEq_iff.mp h
  have h2 : toLower c ∈ w.map toLower := List.mem_map_of_mem hc
  rw [this] at h2
  have : (b!"end").map toLower = b!"end" := by decide
  rw [this] at h2
  exact h2

theorem trim_split (l : Bytes) : ∃ a b, l = a ++ ((l.dropWhile isSpace).reverse.dropWhile isSpace).reverse ++ b ∧ ∀ c ∈ a ++ b, isSpace c = true := by
  refine ⟨l.takeWhile isSpace, ((l.dropWhile isSpace).reverse.takeWhile isSpace).reverse, ?_, ?_⟩
  · rw [List.append_assoc, ← List.reverse_append, List.takeWhile_append_dropWhile, List.reverse_reverse, List.takeWhile_append_dropWhile]
  · intro c hc
    rcases List.mem_append.mp hc with h | h
    · exact mem_tw h
    · exact mem_tw (List.mem_reverse.mp h)

theorem endLine_trim (l : Bytes) : EndLine l ↔ (((l.dropWhile isSpace).reverse.dropWhile isSpace).reverse.length = 3 ∧
    ciEq ((l.dropWhile isSpace).reverse.dropWhile isSpace).reverse b!"end" = true) := by
  constructor
  · rintro ⟨a, w, b, rfl, hs, hw⟩
    have hn := ciEnd_nosp hw
    have hl := ciEq_length hw
    have e1 : (a ++ w ++ b).dropWhile isSpace = w ++ b := by
      rw [List.append_assoc]
      refine dropWhile_app (fun c hc => hs c (by simp [hc])) ?_
      intro c t e
      cases w with
      | nil => simp at hl
      | cons x w => cases e; exact hn _ (by simp)
    have e2 : (w ++ b).reverse.dropWhile isSpace = w.reverse := by
      rw [List.reverse_append]
      refine dropWhile_app (fun c hc => hs c (by simp [List.mem_reverse.mp hc])) ?_
      intro c t e
      exact hn c (List.mem_reverse.mp (by rw [e]; simp))
    rw [e1, e2, List.reverse_reverse]
    exact ⟨hl, hw⟩
  · rintro ⟨-, h⟩
    obtain ⟨a, b, e, hs⟩ := trim_split l
    exact ⟨a, _, b, e, hs, h⟩

theorem endLine_spec {P l : Bytes} (hl : (10 : UInt8) ∉ l) (hP : P = [] ∧ l ≠ [] ∨ ∃ Q, Q ≠ [] ∧ P = Q ++ [10]) :
    (EndLine l → endLine (P ++ l) = .ok (some P)) ∧ (¬ EndLine l → endLine (P ++ l) = .ok none) := by
  have hne : P ++ l ≠ [] := by
    rcases hP with ⟨rfl, h⟩ | ⟨Q, hQ, rfl⟩
    · simpa using h
    · simp
  have htail : ((P ++ l).reverse.takeWhile notNl).reverse = l := by
    rw [List.reverse_append, takeWhile_app (a := l.reverse) (b := P.reverse), List.reverse_reverse]
    · intro c hc
      unfold notNl
      have : c ≠ 10 := fun e => hl (e ▸ List.mem_reverse.mp hc)
      simpa using this
    · intro c t e
      rcases hP with ⟨rfl, h⟩ | ⟨Q, hQ, rfl⟩
      · cases e
      · rw [List.reverse_append] at e; cases e; rfl
  have hline : (if (P ++ l).length ≤ l.length + 1 then P ++ l else l) = l := by
    rcases hP with ⟨rfl, h⟩ | ⟨Q, hQ, rfl⟩
    · simp
    · rw [if_neg]
      have : 0 < Q.length := List.length_pos_iff.mpr hQ
      simp only [List.length_append, List.length_cons, List.length_nil]; omega
  have hpre : (P ++ l).take ((P ++ l).length - l.length) = P := by simp
  unfold endLine
  rw [if_neg hne]
  dsimp only
  rw [htail, hline, hpre]
  constructor
  · intro h; rw [if_pos ((endLine_trim l).mp h)]
  · intro h; rw [if_neg (fun hh => h ((endLine_trim l).mpr hh))]

theorem readLoop_line (l r : Bytes) (hl : (10 : UInt8) ∉ l) : ∀ buf, readToEndLoop (l ++ 10 :: r) buf =
    match endLine (buf ++ l) with
    | .ub => .ub
    | .ok (some t) => .ok (some (t, r))
    | .ok none => readToEndLoop r (buf ++ l ++ [10]) := by
  induction l with
  | nil => intro buf; rw [List.nil_append, List.append_nil]; conv => lhs; unfold readToEndLoop
           rw [if_pos rfl]
           cases endLine buf with
           | ub => rfl
           | ok x => cases x <;> rfl
  | cons c l ih =>
    intro buf
    simp only [List.mem_cons, not_or] at hl
    rw [List.cons_append]
    conv => lhs; unfold readToEndLoop
    rw [if_neg (fun e => hl.1 e.symm), ih hl.2]
    simp only [List.append_assoc, List.singleton_append]

theorem readLoop_lines (ls : List Bytes) : ∀ (P endl r : Bytes), (∀ l ∈ ls, 10 ∉ l ∧ ¬ EndLine l) → 10 ∉ endl → EndLine endl →
    (∃ Q, Q ≠ [] ∧ P = Q ++ [10]) → readToEndLoop (linesText ls ++ endl ++ 10 :: r) P = .ok (some (P ++ linesText ls, r)) := by
  induction ls with
  | nil =>
    intro P endl r _ h2 h3 hP
    have : linesText [] = [] := rfl
    rw [this, List.nil_append, readLoop_line _ _ h2, (endLine_spec h2 (Or.inr hP)).1 h3, List.append_nil]
  | cons l ls ih =>
    intro P endl r h1 h2 h3 hP
    have : linesText (l :: ls) = l ++ [10] ++ linesText ls := by unfold linesText; rw [List.flatMap_cons]
    obtain ⟨hl, hn⟩ := h1 l (by simp)
    have e : linesText (l :: ls) ++ endl ++ 10 :: r = l ++ 10 :: (linesText ls ++ endl ++ 10 :: r) := by rw [this]; simp
    rw [e, readLoop_line _ _ hl, (endLine_spec hl (Or.inr hP)).2 hn]
    dsimp only
    rw [ih _ endl r (fun x hx => h1 x (by simp [hx])) h2 h3, this]
    · simp
    · obtain ⟨Q, hQ, rfl⟩ := hP
      exact ⟨Q ++ [10] ++ l, by simp, by simp⟩

/-! ### Numbers -/

theorem digits_num {s : Bytes} {n : Nat} (h : IsIndex s n) : s ≠ [] ∧ (∀ c ∈ s, isDigit c = true) ∧ n = decimal s := by
  obtain ⟨h1, h2, h3⟩ := h
  exact ⟨h1, fun c hc => (isDigit_iffN c).mpr (h2 c hc), h3⟩

theorem strtoul_num {s : Bytes} {n : Nat} (h : IsIndex s n) : strtoul10 s = (if n < 2 ^ 64 then some n else none, []) := by
  obtain ⟨h1, h2, h3⟩ := digits_num h
  by_cases hv : n < 2 ^ 64
  · rw [if_pos hv, h3]; exact strtoul10_digits h1 h2 (h3 ▸ hv)
  · rw [if_neg hv]
    cases s with
    | nil => exact absurd rfl h1
    | cons c ds =>
      have hc := digit_props c (h2 c (by simp))
      unfold strtoul10
      have e1 : (c :: ds).dropWhile isSpace = c :: ds := by simp [List.dropWhile_cons, hc.1]
      rw [e1]
      have e2 : ((c :: ds).head? = some ch%'-') = False := by simp [hc.2.1]
      have e3 : ((c :: ds).head? = some ch%'+') = False := by simp [hc.2.2]
      simp only [e2, e3, or_self, if_false]
      have e4 : (c :: ds).takeWhile isDigit = c :: ds := by
        have := takeWhile_app (p := isDigit) (a := c :: ds) (b := []) h2 (by intro c t h; cases h)
        simpa using this
      rw [e4]
      simp only [List.length_cons, Nat.add_eq_zero_iff, Nat.one_ne_zero, and_false, if_false]
      have e5 : ¬ (c :: ds).foldl (fun a c => a * 10 + (c.toNat - 48)) 0 < 2 ^ 64 := by rw [h3] at hv; exact hv
      rw [if_neg e5]
      simp

theorem strtol_num {s : Bytes} {n : Nat} (h : IsIndex s n) : strtol10 s = if ctlLongMax < n then ((ctlLongMax : Int), true, []) else ((n : Int), false, []) := by
  have := strtol_index (r := []) h (by intro c h; cases h)
  simpa using this

theorem number_eof {s : Bytes} {α : Type} (f : Bytes → Option α) : withTok isNumTok (.number s) f = .ok (f s) := rfl

theorem assignUnsigned_num {s : Bytes} {n : Nat} (h : IsIndex s n) : assignUnsigned (.number s) = .ok (if n < 2 ^ 32 then some n else none) := by
  unfold assignUnsigned
  rw [number_eof, strtoul_num h]
  by_cases h1 : n < 2 ^ 64
  · rw [if_pos h1]
    dsimp only
    by_cases h2 : n < 2 ^ 32
    · rw [if_pos h2, if_neg (by omega)]
    · rw [if_neg h2, if_pos (by omega)]
  · rw [if_neg h1, if_neg (by omega)]

theorem assignInt_num {s : Bytes} {n : Nat} (h : IsIndex s n) : assignInt (.number s) = .ok (if n < 2 ^ 31 then some (n : Int) else none) := by
  unfold assignInt
  rw [number_eof, strtol_num h]
  unfold ctlLongMax
  by_cases h1 : 2 ^ 63 - 1 < n
  · rw [if_pos h1, if_neg (by omega)]
  · rw [if_neg h1]
    dsimp only
    by_cases h2 : n < 2 ^ 31
    · rw [if_pos h2, if_neg (by omega)]
    · rw [if_neg h2, if_pos (by omega)]

theorem octal_iff (c : UInt8) : isOctal c = true ↔ 48 ≤ c.toNat ∧ c.toNat ≤ 55 := by
  simp [isOctal, UInt8.le_iff_toNat_le]

theorem strtoul8_num {s : Bytes} {n : Nat} (h : IsOctal s n) : strtoul8 s = (if n < 2 ^ 64 then some n else none, []) := by
  obtain ⟨h1, h2, rfl⟩ := h
  have ha : ∀ c ∈ s, isOctal c = true := fun c hc => (octal_iff c).mpr (h2 c hc)
  unfold strtoul8
  have e1 : s.takeWhile isOctal = s := by
    have := takeWhile_app (p := isOctal) (a := s) (b := []) ha (by intro c t h; cases h)
    simpa using this
  have e2 : s.dropWhile isOctal = [] := by
    have := dropWhile_app (p := isOctal) (a := s) (b := []) ha (by intro c t h; cases h)
    simpa using this
  rw [e1, e2]

theorem strtoul8_rest {s : Bytes} (h1 : s ≠ []) (h : (strtoul8 s).2 = []) : ∃ n, IsOctal s n := by
  refine ⟨_, h1, ?_, rfl⟩
  intro c hc
  have h2 : s.dropWhile isOctal = [] := h
  have := List.takeWhile_append_dropWhile (p := isOctal) (l := s)
  rw [h2, List.append_nil] at this
  rw [← this] at hc
  exact (octal_iff c).mp (mem_tw hc)

end Pound
