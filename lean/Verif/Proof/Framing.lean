import Verif.Model.Framing
import Verif.Spec.Framing
import Verif.Proof.Basic

namespace Pound
open Spec

/-! ### Lines -/

theorem text_iff (c : UInt8) : Text c ↔ (!isCntrl c || c == 9) = true := by
  revert c
  apply forall_byte
  unfold Text
  decide +kernel

theorem drainEol_eq (s : Bytes) : drainEol s = afterLF s := by
  induction s with
  | nil => rfl
  | cons c s ih =>
    unfold drainEol afterLF
    by_cases h : c = 10
    · subst h; simp
    · simp [h, ih, afterLF]

theorem afterLF_append_of_no_lf (a s : Bytes) (h : ∀ c ∈ a, c ≠ 10) :
    afterLF (a ++ s) = afterLF s := by
  induction a with
  | nil => rfl
  | cons c a ih =>
    have hc : c ≠ 10 := h c (by simp)
    have := ih (fun d hd => h d (by simp [hd]))
    simpa [afterLF, hc] using this

theorem afterLF_cons_ne {c : UInt8} {s : Bytes} (h : c ≠ 10) : afterLF (c :: s) = afterLF s :=
  afterLF_append_of_no_lf [c] s (by simpa using h)

theorem text_ne_lf {c : UInt8} (h : Text c) : c ≠ 10 := by
  rintro rfl; revert h; unfold Text; decide

theorem text_ne_cr {c : UInt8} (h : Text c) : c ≠ 13 := by
  rintro rfl; revert h; unfold Text; decide

/-- Exact description of the successful outcomes of the `get_line` loop. -/
theorem getLineLoop_false_ok (n : Nat) (inp acc line rest : Bytes) :
    getLineLoop n inp false acc = .ok line rest ↔
      ∃ l, line = acc ++ l ∧ (∀ c ∈ l, Text c) ∧
        ((inp = l ++ [10] ++ rest ∧ l.length + 1 ≤ n) ∨
         (inp = l ++ [13, 10] ++ rest ∧ l.length + 2 ≤ n) ∨
         (rest = [] ∧ inp = l ∧ acc ++ l ≠ [] ∧ l.length < n) ∨
         (rest = [] ∧ inp = l ++ [13] ∧ l.length + 1 < n)) := by
  induction n generalizing inp acc with
  | zero => simp [getLineLoop]
  | succ n ih =>
    cases inp with
    | nil =>
      by_cases ha : acc = []
      · subst ha; simp [getLineLoop]
        intro _ _ h1 h2; exact absurd h1 h2
      · simp [getLineLoop, ha]
        constructor
        · rintro ⟨rfl, rfl⟩; exact ⟨[], by simp⟩
        · rintro ⟨l, rfl, _, rfl, rfl, _⟩; simp
    | cons c inp =>
      unfold getLineLoop
      simp only [Bool.false_eq_true, if_false]
      by_cases ht : (!isCntrl c || c == 9) = true
      · rw [if_pos ht, ih]
        have hT : Text c := (text_iff c).2 ht
        have h10 := text_ne_lf hT
        have h13 := text_ne_cr hT
        constructor
        · rintro ⟨l, rfl, hl, hh⟩
          refine ⟨c :: l, by simp, ?_, ?_⟩
          · intro d hd; rcases List.mem_cons.1 hd with rfl | hd
            · exact hT
            · exact hl d hd
          · rcases hh with ⟨rfl, h⟩ | ⟨rfl, h⟩ | ⟨rfl, rfl, _, h⟩ | ⟨rfl, rfl, h⟩
            · left; simpa using h
            · right; left; simpa using h
            · right; right; left; simpa using h
            · right; right; right; simpa using h
        · rintro ⟨l, rfl, hl, hh⟩
          cases l with
          | nil => simp [h10, h13] at hh
          | cons d l =>
            have : d = c := by
              rcases hh with ⟨h, _⟩ | ⟨h, _⟩ | ⟨_, h, _⟩ | ⟨_, h, _⟩ <;> simp at h <;> exact h.1.symm
            subst this
            refine ⟨l, by simp, fun e he => hl e (by simp [he]), ?_⟩
            simpa using hh
      · rw [if_neg ht]
        have hT : ¬ Text c := fun h => ht ((text_iff c).1 h)
        by_cases hcr : c = 13
        · subst hcr
          simp only [beq_self_eq_true, if_true]
          cases n with
          | zero =>
            simp only [getLineLoop]
            constructor
            · intro h; cases h
            · rintro ⟨l, rfl, hl, hh⟩
              cases l with
              | nil => simp at hh
              | cons d l =>
                rcases hh with ⟨h, hl⟩ | ⟨h, hl⟩ | ⟨_, h, _, hl⟩ | ⟨_, h, hl⟩ <;> simp at hl
                all_goals simp at h
                all_goals exact absurd (hl) (by simp [*])
          | succ n =>
            cases inp with
            | nil =>
              simp only [getLineLoop]
              simp
              constructor
              · rintro ⟨rfl, rfl⟩; exact ⟨[], by simp⟩
              · rintro ⟨l, rfl, hl, hh⟩
                cases l with
                | nil => simp at hh; simp [hh]
                | cons d l =>
                  exfalso
                  have : d = 13 := by
                    rcases hh with ⟨h, _⟩ | ⟨h, _⟩ | ⟨_, h, _⟩ | ⟨_, h, _⟩ <;> simp at h <;> simp [h]
                  subst this
                  exact hT (hl _ (by simp))
            | cons d inp =>
              simp only [getLineLoop, if_true]
              by_cases hd : d = 10
              · subst hd
                simp
                constructor
                · rintro ⟨rfl, rfl⟩; exact ⟨[], by simp⟩
                · rintro ⟨l, rfl, hl, hh⟩
                  cases l with
                  | nil => simp at hh; simp [hh]
                  | cons d l =>
                    exfalso
                    have : d = 13 := by
                      rcases hh with ⟨h, _⟩ | ⟨h, _⟩ | ⟨_, h, _⟩ | ⟨_, h, _⟩ <;> simp at h <;> simp [h]
                    subst this
                    exact hT (hl _ (by simp))
              · rw [if_pos (by simpa using hd)]
                refine ⟨fun h => by simp at h, ?_⟩
                rintro ⟨l, hl1, hl, hh⟩
                exfalso
                cases l with
                | nil => simp [hd] at hh
                | cons e l =>
                  have : e = 13 := by
                    rcases hh with ⟨h, _⟩ | ⟨h, _⟩ | ⟨_, h, _⟩ | ⟨_, h, _⟩ <;> simp at h <;> simp [h]
                  subst this
                  exact hT (hl _ (by simp))
        · have hne : (c == 13) = false := by simp [hcr]
          rw [if_neg (by simp [hcr])]
          by_cases hlf : c = 10
          · subst hlf
            simp
            constructor
            · rintro ⟨rfl, rfl⟩; exact ⟨[], by simp⟩
            · rintro ⟨l, rfl, hl, hh⟩
              cases l with
              | nil => simp at hh; simp [hh]
              | cons d l =>
                exfalso
                have : d = 10 := by
                  rcases hh with ⟨h, _⟩ | ⟨h, _⟩ | ⟨_, h, _⟩ | ⟨_, h, _⟩ <;> simp at h <;> simp [h]
                subst this
                exact hT (hl _ (by simp))
          · rw [if_neg (by simp [hlf])]
            constructor
            · intro h; cases h
            · rintro ⟨l, rfl, hl, hh⟩
              cases l with
              | nil => simp [hlf, hcr] at hh
              | cons d l =>
                exfalso
                have : d = c := by
                  rcases hh with ⟨h, _⟩ | ⟨h, _⟩ | ⟨_, h, _⟩ | ⟨_, h, _⟩ <;> simp at h <;> simp [h]
                subst this
                exact hT (hl _ (by simp))


theorem getLineLoop_bad (n : Nat) (inp acc rest : Bytes) (cr : Bool) :
    getLineLoop n inp cr acc = .bad rest → rest = afterLF inp := by
  induction n generalizing inp cr acc with
  | zero => simp [getLineLoop]
  | succ n ih =>
    cases inp with
    | nil => simp only [getLineLoop]; split <;> simp
    | cons c inp =>
      unfold getLineLoop
      repeat' split
      all_goals first
        | (intro h; simp at h; done)
        | skip
      · rename_i h; intro h'; simp at h h'
        rw [afterLF_cons_ne h, ← h', drainEol_eq]
      · rename_i h; intro h'
        rw [afterLF_cons_ne (text_ne_lf ((text_iff c).2 h))]; exact ih _ _ _ h'
      · rename_i h; intro h'; simp at h; subst h
        rw [afterLF_cons_ne (by decide)]; exact ih _ _ _ h'
      · rename_i h; intro h'; simp at h h'
        rw [afterLF_cons_ne h, ← h', drainEol_eq]

theorem getLineLoop_tooLong (n : Nat) (inp acc rest : Bytes) (cr : Bool) :
    getLineLoop n inp cr acc = .tooLong rest → rest = afterLF inp := by
  induction n generalizing inp cr acc with
  | zero => simp [getLineLoop, drainEol_eq]; exact fun h => h.symm
  | succ n ih =>
    cases inp with
    | nil => simp only [getLineLoop]; split <;> simp
    | cons c inp =>
      unfold getLineLoop
      repeat' split
      all_goals first
        | (intro h; simp at h; done)
        | skip
      · rename_i h; intro h'
        rw [afterLF_cons_ne (text_ne_lf ((text_iff c).2 h))]; exact ih _ _ _ h'
      · rename_i h; intro h'; simp at h; subst h
        rw [afterLF_cons_ne (by decide)]; exact ih _ _ _ h'

theorem getLineLoop_tooLong_len (n : Nat) (inp acc rest : Bytes) (cr : Bool) :
    getLineLoop n inp cr acc = .tooLong rest → n ≤ inp.length ∧ ∀ c ∈ inp.take n, c ≠ 10 := by
  induction n generalizing inp cr acc with
  | zero => simp
  | succ n ih =>
    cases inp with
    | nil => simp only [getLineLoop]; split <;> simp
    | cons c inp =>
      unfold getLineLoop
      repeat' split
      all_goals first
        | (intro h; simp at h; done)
        | skip
      · rename_i h; intro h'
        have := ih _ _ _ h'
        have h10 := text_ne_lf ((text_iff c).2 h)
        refine ⟨by simpa using this.1, ?_⟩
        intro d hd; simp at hd; rcases hd with rfl | hd
        · exact h10
        · exact this.2 d hd
      · rename_i h; intro h'; simp at h; subst h
        have := ih _ _ _ h'
        refine ⟨by simpa using this.1, ?_⟩
        intro d hd; simp at hd; rcases hd with rfl | hd
        · decide
        · exact this.2 d hd

theorem getLineLoop_eof (n : Nat) (inp acc : Bytes) (cr : Bool) :
    getLineLoop n inp cr acc = .eof ↔ 0 < n ∧ inp = [] ∧ acc = [] ∧ cr = false := by
  induction n generalizing inp cr acc with
  | zero => simp [getLineLoop]
  | succ n ih =>
    cases inp with
    | nil => simp only [getLineLoop]; split <;> simp_all
    | cons c inp =>
      unfold getLineLoop
      repeat' split
      all_goals simp [ih]

/-! ### Numbers -/

theorem clenDigit10 (c : UInt8) : clenDigit 10 c = (digit? 10 c).map Int.ofNat := by
  revert c; apply forall_byte; decide +kernel

theorem clenDigit16 (c : UInt8) : clenDigit 16 c = (digit? 16 c).map Int.ofNat := by
  revert c; apply forall_byte; decide +kernel

theorem digit10_lt (c : UInt8) : ∀ d, digit? 10 c = some d → d < 10 := by
  intro d h
  have : ∀ c : UInt8, (digit? 10 c).getD 0 < 10 := by apply forall_byte; decide +kernel
  have := this c; rw [h] at this; simpa using this

theorem digit16_lt (c : UInt8) : ∀ d, digit? 16 c = some d → d < 16 := by
  intro d h
  have : ∀ c : UInt8, (digit? 16 c).getD 0 < 16 := by apply forall_byte; decide +kernel
  have := this c; rw [h] at this; simpa using this

/-- Positional value of digits appended to a number. -/
def valFrom (base v : Nat) (ds : Bytes) : Nat :=
  ds.foldl (fun a c => a * base + (digit? base c).getD 0) v

theorem valFrom_ge (base v : Nat) (ds : Bytes) (hb : 1 ≤ base) : v ≤ valFrom base v ds := by
  induction ds generalizing v with
  | nil => exact Nat.le_refl _
  | cons c ds ih =>
    refine Nat.le_trans ?_ (ih _)
    have : v * 1 ≤ v * base := Nat.mul_le_mul_left _ hb
    show v ≤ v * base + _
    omega

theorem wrap64_id (x : Int) (h0 : 0 ≤ x) (h1 : x ≤ clenMax) : wrap64 x = x := by
  unfold wrap64 clenMax at *
  rw [Int.bmod_def]
  omega

theorem strtoclenLoop_spec (base : Nat) (hb : base = 10 ∨ base = 16) (s : Bytes) (v : Nat)
    (hv : (v : Int) ≤ clenMax) :
    ∃ ds tail, s = ds ++ tail ∧ (∀ c ∈ ds, (digit? base c).isSome) ∧
      ((strtoclenLoop base (clenMax.tdiv base) (clenMax.tmod base) s v
          = (0, (valFrom base v ds : Int), tail) ∧ ((valFrom base v ds : Nat) : Int) ≤ clenMax ∧
          (∀ c t, tail = c :: t → digit? base c = none)) ∨
       (∃ c t, tail = c :: t ∧ (digit? base c).isSome ∧
          ((valFrom base v (ds ++ [c]) : Nat) : Int) > clenMax ∧
          (strtoclenLoop base (clenMax.tdiv base) (clenMax.tmod base) s v).1 = -1)) := by
  induction s generalizing v with
  | nil => exact ⟨[], [], rfl, by simp, Or.inl ⟨by simp [strtoclenLoop, valFrom], by simpa [valFrom] using hv, by simp⟩⟩
  | cons c s ih =>
    have hcd : clenDigit base c = (digit? base c).map Int.ofNat := by
      rcases hb with rfl | rfl
      · exact clenDigit10 c
      · exact clenDigit16 c
    have hlt : ∀ d, digit? base c = some d → d < base := by
      rcases hb with rfl | rfl
      · exact digit10_lt c
      · exact digit16_lt c
    cases hd : digit? base c with
    | none =>
      refine ⟨[], c :: s, rfl, by simp, Or.inl ⟨?_, by simpa [valFrom] using hv, ?_⟩⟩
      · simp [strtoclenLoop, hcd, hd, valFrom]
      · intro c' t h; cases h; exact hd
    | some d =>
      have hdlt := hlt d hd
      by_cases hov : ((v * base + d : Nat) : Int) > clenMax
      · refine ⟨[], c :: s, rfl, by simp, Or.inr ⟨c, s, rfl, by simp [hd], ?_, ?_⟩⟩
        · simpa [valFrom, hd] using hov
        · have hcond : ((v : Int) > clenMax.tdiv base ||
              ((v : Int) == clenMax.tdiv base && (Int.ofNat d) > clenMax.tmod base)) = true := by
            rcases hb with rfl | rfl <;> simp [clenMax] at * <;> omega
          unfold strtoclenLoop
          rw [hcd, hd]
          simp only [Option.map_some]
          rw [if_pos hcond]
      · have hle : ((v * base + d : Nat) : Int) ≤ clenMax := by omega
        obtain ⟨ds, tail, rfl, hds, hh⟩ := ih (v * base + d) hle
        have hstep : strtoclenLoop base (clenMax.tdiv base) (clenMax.tmod base) (c :: (ds ++ tail)) v
            = strtoclenLoop base (clenMax.tdiv base) (clenMax.tmod base) (ds ++ tail)
                ((v * base + d : Nat) : Int) := by
          have hcond : ((v : Int) > clenMax.tdiv base ||
              ((v : Int) == clenMax.tdiv base && (Int.ofNat d) > clenMax.tmod base)) = false := by
            rcases hb with rfl | rfl <;> simp [clenMax] at * <;> omega
          conv => lhs; unfold strtoclenLoop
          rw [hcd, hd]
          simp only [Option.map_some]
          rw [if_neg (by rw [hcond]; simp)]
          have h1 : wrap64 ((v : Int) * base) = (v : Int) * base := by
            apply wrap64_id
            · exact Int.mul_nonneg (by omega) (by omega)
            · push_cast at hle; omega
          have h2 : wrap64 ((v : Int) * base + Int.ofNat d) = ((v * base + d : Nat) : Int) := by
            rw [wrap64_id]
            · simp
            · have : (0:Int) ≤ (v : Int) * base := Int.mul_nonneg (by omega) (by omega)
              simp; omega
            · push_cast at hle; simpa using hle
          rw [h1, h2]
        refine ⟨c :: ds, tail, rfl, ?_, ?_⟩
        · intro e he; rcases List.mem_cons.1 he with rfl | he
          · simp [hd]
          · exact hds e he
        · have hval : ∀ l, valFrom base v (c :: l) = valFrom base (v * base + d) l := by
            intro l; simp [valFrom, hd]
          rw [hstep]
          rcases hh with ⟨h1, h2, h3⟩ | ⟨c', t, h1, h2, h3, h4⟩
          · exact Or.inl ⟨by rw [h1, hval], by rw [hval]; exact h2, h3⟩
          · exact Or.inr ⟨c', t, h1, h2, by rw [List.cons_append, hval]; exact h3, h4⟩

theorem trimWsL_eq (s : Bytes) : trimWsL s = s.dropWhile isWs := by
  induction s with
  | nil => rfl
  | cons c s ih => simp only [trimWsL, List.dropWhile]; split <;> simp_all

theorem isWs_iff (c : UInt8) : isWs c = true ↔ c = 32 ∨ c = 9 := by simp [isWs]


theorem takeWhile_append_of {P : UInt8 → Bool} {ds p : Bytes} (h : ∀ c ∈ ds, P c = true)
    (hp : ∀ c t, p = c :: t → P c = false) : (ds ++ p).takeWhile P = ds ∧ (ds ++ p).dropWhile P = p := by
  induction ds with
  | nil =>
    cases p with
    | nil => simp
    | cons c t => simp [hp c t rfl]
  | cons c ds ih =>
    have := ih (fun d hd => h d (by simp [hd]))
    simp [h c (by simp), this]

theorem strtoclen_ok_iff (base : Nat) (hb : base = 10 ∨ base = 16) (arg p : Bytes) (n : Int) :
    strtoclen arg base = (0, n, p) ↔
      ∃ ds v, arg = ds ++ p ∧ Denotes base ds v ∧ n = (v : Nat) ∧ (v : Int) ≤ clenMax ∧
        (∀ c t, p = c :: t → digit? base c = none) := by
  obtain ⟨ds, tail, h1, h2, h3⟩ := strtoclenLoop_spec base hb arg 0 (by decide)
  subst h1
  have hz : ((0 : Nat) : Int) = 0 := rfl
  rw [hz] at h3
  rcases h3 with ⟨h3, h4, h5⟩ | ⟨c, t, h3, h4, h5, h6⟩
  · have hs : strtoclen (ds ++ tail) base =
        (if ds = [] then -1 else 0, ((valFrom base 0 ds : Nat) : Int), tail) := by
      unfold strtoclen
      simp only [h3]
      by_cases hd : ds = []
      · simp [hd]
      · have : ¬ (valFrom base 0 ds : Int) < 0 := by omega
        have hl : ds.length ≠ 0 := by simpa using hd
        simp [hd, this]
    rw [hs]
    constructor
    · intro h
      simp only [Prod.mk.injEq] at h
      obtain ⟨ha, hb', rfl⟩ := h
      have hne : ds ≠ [] := by rintro rfl; simp at ha
      exact ⟨ds, valFrom base 0 ds, rfl, ⟨hne, h2, rfl⟩, hb'.symm, h4, h5⟩
    · rintro ⟨ds', v, e1, ⟨e2, e3, e4⟩, e5, e6, e7⟩
      have A := takeWhile_append_of (P := fun c => (digit? base c).isSome) (ds := ds) (p := tail) h2
        (fun c t h => by simp [h5 c t h])
      have B := takeWhile_append_of (P := fun c => (digit? base c).isSome) (ds := ds') (p := p) e3
        (fun c t h => by simp [e7 c t h])
      rw [e1] at A
      have hd : ds = ds' := A.1.symm.trans B.1
      have ht : tail = p := A.2.symm.trans B.2
      subst hd ht
      simp [e2, e5, e4, valFrom]
  · constructor
    · intro h
      unfold strtoclen at h
      simp only at h
      rw [h6] at h
      simp at h
    · rintro ⟨ds', v, e1, ⟨e2, e3, e4⟩, e5, e6, e7⟩
      exfalso
      subst h3
      have B := takeWhile_append_of (P := fun c => (digit? base c).isSome) (ds := ds') (p := p) e3
        (fun c t h => by simp [e7 c t h])
      rw [← e1] at B
      have hex : ∃ q, ds' = ds ++ [c] ++ q := by
        refine ⟨t.takeWhile (fun c => (digit? base c).isSome), ?_⟩
        rw [← B.1, List.takeWhile_append_of_pos h2]
        simp [h4]
      obtain ⟨q, rfl⟩ := hex
      have : valFrom base 0 (ds ++ [c]) ≤ v := by
        rw [e4]
        show _ ≤ valFrom base 0 (ds ++ [c] ++ q)
        have : valFrom base 0 (ds ++ [c] ++ q) = valFrom base (valFrom base 0 (ds ++ [c])) q := by
          simp [valFrom]
        rw [this]
        exact valFrom_ge _ _ _ (by omega)
      omega

theorem strtoclen_rc (arg : Bytes) (base : Nat) (hb : base = 10 ∨ base = 16) :
    (strtoclen arg base).1 = 0 ∨ (strtoclen arg base).1 = -1 := by
  obtain ⟨ds, tail, h1, h2, h3⟩ := strtoclenLoop_spec base hb arg 0 (by decide)
  have hz : ((0 : Nat) : Int) = 0 := rfl
  rw [hz] at h3
  unfold strtoclen
  rcases h3 with ⟨h3, h4, h5⟩ | ⟨c, t, h3, h4, h5, h6⟩
  · simp only [h3]
    repeat' split
    all_goals simp
  · simp only [h6]; simp

theorem dropWhile_blank {ws s : Bytes} (h : Blank ws) (hs : ∀ c t, s = c :: t → isWs c = false) :
    trimWsL (ws ++ s) = s := by
  rw [trimWsL_eq]
  exact (takeWhile_append_of (P := isWs) (fun c hc => (isWs_iff c).2 (h c hc)) hs).2

theorem trimWsL_split (s : Bytes) : ∃ ws, Blank ws ∧ s = ws ++ trimWsL s ∧
    (∀ c t, trimWsL s = c :: t → isWs c = false) := by
  refine ⟨s.takeWhile isWs, ?_, ?_, ?_⟩
  · intro c hc
    exact (isWs_iff c).1 (by
      have := List.all_takeWhile (p := isWs) (l := s)
      rw [List.all_eq_true] at this
      exact this c hc)
  · rw [trimWsL_eq, List.takeWhile_append_dropWhile]
  · intro c t h
    rw [trimWsL_eq] at h
    have := List.head?_dropWhile_not isWs s
    rw [h] at this
    simpa using this

theorem digit_not_ws (base : Nat) (hb : base = 10 ∨ base = 16) (c : UInt8)
    (h : (digit? base c).isSome) : isWs c = false := by
  have h1 : ∀ c : UInt8, (digit? 10 c).isSome → isWs c = false := by apply forall_byte; decide +kernel
  have h2 : ∀ c : UInt8, (digit? 16 c).isSome → isWs c = false := by apply forall_byte; decide +kernel
  rcases hb with rfl | rfl
  · exact h1 c h
  · exact h2 c h

theorem denotes_head_not_ws {base : Nat} (hb : base = 10 ∨ base = 16) {ds p : Bytes} {v : Nat}
    (h : Denotes base ds v) : ∀ c t, ds ++ p = c :: t → isWs c = false := by
  obtain ⟨h1, h2, _⟩ := h
  intro c t he
  cases ds with
  | nil => exact absurd rfl h1
  | cons d ds =>
    simp at he; obtain ⟨rfl, _⟩ := he
    exact digit_not_ws base hb d (h2 d (by simp))

theorem getContentLength_header_iff (s : Bytes) (n : Nat) :
    getContentLength s .header = n ↔
      ∃ ws ds ws', s = ws ++ ds ++ ws' ∧ Blank ws ∧ Denotes 10 ds n ∧ Blank ws' ∧
        (n : Int) ≤ clenMax := by
  unfold getContentLength
  simp only [if_true]
  constructor
  · intro h
    obtain ⟨ws, hws, hs, _⟩ := trimWsL_split s
    rcases hst : strtoclen (trimWsL s) 10 with ⟨rc, v, p⟩
    rw [hst] at h
    simp only at h
    by_cases hrc : rc = 0
    · subst hrc
      simp at h
      obtain ⟨ds, v', e1, e2, e3, e4, e5⟩ := (strtoclen_ok_iff 10 (Or.inl rfl) _ _ _).1 hst
      obtain ⟨ws', hws', hp, _⟩ := trimWsL_split p
      cases htp : trimWsL p with
      | nil =>
        rw [htp] at h hp
        have hnv : n = v' := by subst e3; simp at h; omega
        subst hnv
        refine ⟨ws, ds, ws', ?_, hws, e2, hws', e4⟩
        rw [hs, e1, hp]; simp
      | cons c t =>
        rw [htp] at h
        simp [noContentLength] at h
    · simp [hrc, noContentLength] at h
  · rintro ⟨ws, ds, ws', rfl, hws, hds, hws', hn⟩
    rw [List.append_assoc, dropWhile_blank hws (denotes_head_not_ws (Or.inl rfl) hds)]
    have hst : strtoclen (ds ++ ws') 10 = (0, (n : Int), ws') := by
      refine (strtoclen_ok_iff 10 (Or.inl rfl) _ _ _).2 ⟨ds, n, rfl, hds, rfl, hn, ?_⟩
      intro c t h
      have : isWs c = true := (isWs_iff c).2 (hws' c (by simp [h]))
      cases hd : digit? 10 c with
      | none => rfl
      | some d => have := digit_not_ws 10 (Or.inl rfl) c (by simp [hd]); simp_all
    rw [hst]
    have ht : trimWsL ws' = [] := by
      have := dropWhile_blank (s := []) hws' (by simp)
      simpa using this
    simp [ht]

theorem getContentLength_chunk_iff (s : Bytes) (n : Nat) :
    getContentLength s .chunk = n ↔ SizeLine s n ∧ (n : Int) ≤ clenMax := by
  unfold getContentLength
  have hm : ¬ (ClMode.chunk = ClMode.header) := by decide
  simp only [if_neg hm]
  constructor
  · intro h
    rcases hst : strtoclen s 16 with ⟨rc, v, p⟩
    rw [hst] at h
    simp only at h
    by_cases hrc : rc = 0
    · subst hrc
      simp at h
      obtain ⟨ds, v', e1, e2, e3, e4, e5⟩ := (strtoclen_ok_iff 16 (Or.inr rfl) _ _ _).1 hst
      obtain ⟨ws', hws', hp, _⟩ := trimWsL_split p
      cases htp : trimWsL p with
      | nil =>
        rw [htp] at h hp
        have hnv : n = v' := by subst e3; simp at h; omega
        subst hnv
        refine ⟨⟨ds, ws', [], ?_, e2, hws', Or.inl rfl⟩, e4⟩
        rw [e1, hp]; simp
      | cons c t =>
        rw [htp] at h hp
        by_cases hc : c = 59
        · subst hc
          simp at h
          have hnv : n = v' := by subst e3; omega
          subst hnv
          refine ⟨⟨ds, ws', 59 :: t, ?_, e2, hws', Or.inr ⟨t, rfl⟩⟩, e4⟩
          rw [e1, hp]; simp
        · simp [hc, noContentLength] at h
    · simp [hrc, noContentLength] at h
  · rintro ⟨⟨ds, ws', ext, rfl, hds, hws', hext⟩, hn⟩
    rw [List.append_assoc]
    have hst : strtoclen (ds ++ (ws' ++ ext)) 16 = (0, (n : Int), ws' ++ ext) := by
      refine (strtoclen_ok_iff 16 (Or.inr rfl) _ _ _).2 ⟨ds, n, rfl, hds, rfl, hn, ?_⟩
      intro c t h
      cases ws' with
      | nil =>
        rcases hext with rfl | ⟨e, rfl⟩
        · simp at h
        · simp at h; obtain ⟨rfl, _⟩ := h; decide
      | cons w ws' =>
        simp at h; obtain ⟨rfl, _⟩ := h
        have : isWs w = true := (isWs_iff w).2 (hws' w (by simp))
        cases hd : digit? 16 w with
        | none => rfl
        | some d => have := digit_not_ws 16 (Or.inr rfl) w (by simp [hd]); simp_all
    rw [hst]
    have ht : trimWsL (ws' ++ ext) = ext := by
      apply dropWhile_blank hws'
      intro c t h
      rcases hext with rfl | ⟨e, rfl⟩
      · simp at h
      · simp at h; obtain ⟨rfl, _⟩ := h; decide
    dsimp only
    rw [ht]
    rcases hext with rfl | ⟨e, rfl⟩ <;> simp

theorem getContentLength_range (s : Bytes) (m : ClMode) :
    getContentLength s m = -1 ∨ ∃ n : Nat, getContentLength s m = n := by
  have key : ∀ (arg : Bytes) (base : Nat), (base = 10 ∨ base = 16) →
      ∀ rc n p, strtoclen arg base = (rc, n, p) → rc ≠ 0 ∨ ∃ v : Nat, n = v := by
    intro arg base hb rc n p h
    by_cases hrc : rc = 0
    · subst hrc
      obtain ⟨_, v, _, _, e, _⟩ := (strtoclen_ok_iff base hb _ _ _).1 h
      exact Or.inr ⟨v, e⟩
    · exact Or.inl hrc
  unfold getContentLength
  cases m with
  | header =>
    simp only [if_true]
    rcases hst : strtoclen (trimWsL s) 10 with ⟨rc, v, p⟩
    rcases key _ 10 (Or.inl rfl) rc v p hst with h | ⟨w, rfl⟩
    · left; simp [h, noContentLength]
    · dsimp only
      split
      · left; rfl
      · split
        · right; exact ⟨w, rfl⟩
        · split
          · left; rfl
          · right; exact ⟨w, rfl⟩
  | chunk =>
    simp only [if_neg (by decide : ¬ (ClMode.chunk = ClMode.header))]
    rcases hst : strtoclen s 16 with ⟨rc, v, p⟩
    rcases key _ 16 (Or.inr rfl) rc v p hst with h | ⟨w, rfl⟩
    · left; simp [h, noContentLength]
    · dsimp only
      split
      · left; rfl
      · split
        · right; exact ⟨w, rfl⟩
        · split
          · left; rfl
          · right; exact ⟨w, rfl⟩


/-! ### Bodies -/

theorem copyBinLoop_spec (sched : Nat → Nat) (fuel k cont : Nat) (inp out : Bytes) (cnt : Nat)
    (hf : cont ≤ fuel) :
    copyBinLoop sched fuel k cont inp out cnt =
      if cont ≤ inp.length then ⟨true, inp.drop cont, out ++ inp.take cont, cnt + cont⟩
      else ⟨false, [], out ++ inp, cnt + inp.length⟩ := by
  induction fuel generalizing k cont inp out cnt with
  | zero =>
    have : cont = 0 := by omega
    subst this; simp [copyBinLoop]
  | succ fuel ih =>
    unfold copyBinLoop
    by_cases hc : cont > 0
    · rw [if_pos hc]
      cases inp with
      | nil => simp; omega
      | cons c inp =>
        simp only [List.isEmpty_cons, Bool.false_eq_true, if_false]
        generalize hres : readAmount (sched k) (if cont > maxBuf then maxBuf else cont)
          (c :: inp).length = res
        have hr1 : 1 ≤ res := by
          subst hres; unfold readAmount maxBuf; simp; split <;> omega
        have hr2 : res ≤ cont := by
          subst hres; unfold readAmount maxBuf; simp only [List.length_cons]; split <;> omega
        have hr3 : res ≤ (c :: inp).length := by
          subst hres; unfold readAmount; omega
        rw [if_neg (by simp; omega)]
        rw [ih _ _ _ _ _ (by omega)]
        by_cases hle : cont ≤ (c :: inp).length
        · rw [if_pos hle, if_pos (by simp only [List.length_drop]; omega)]
          congr 1
          · rw [List.drop_drop]; congr 1; omega
          · rw [List.append_assoc]; congr 1
            rw [← List.take_append_drop res (List.take cont (c :: inp))]
            rw [List.take_take, List.drop_take]; congr 1; congr 1; omega
          · omega
        · rw [if_neg hle, if_neg (by simp only [List.length_drop]; omega)]
          congr 1
          · rw [List.append_assoc, List.take_append_drop]
          · simp only [List.length_drop]; omega
    · have : cont = 0 := by omega
      subst this; simp

theorem copyBin_spec (sched : Nat → Nat) (inp : Bytes) (cont : Nat) :
    copyBin sched inp cont false =
      if cont ≤ inp.length then ⟨true, inp.drop cont, inp.take cont, cont⟩
      else ⟨false, [], inp, inp.length⟩ := by
  simp [copyBin, copyBinLoop_spec]

theorem copyBin_spec_noWrite (sched : Nat → Nat) (inp : Bytes) (cont : Nat) :
    copyBin sched inp cont true =
      if cont ≤ inp.length then ⟨true, inp.drop cont, [], cont⟩
      else ⟨false, [], [], inp.length⟩ := by
  simp [copyBin, copyBinLoop_spec]; split <;> rfl

theorem length_pos {l : Bytes} (h : l ≠ []) : 0 < l.length := by
  cases l with
  | nil => exact absurd rfl h
  | cons => simp

/-- Exact description of the lines `get_line` delivers. -/
theorem getLine_ok_iff {inp line rest : Bytes} {n : Nat} :
    getLine inp n = .ok line rest ↔
      ∃ w, WireLine (n - 1) w line ∧ LineConsumed inp w rest := by
  unfold getLine
  rw [getLineLoop_false_ok]
  constructor
  · rintro ⟨l, hl0, hl, hh⟩
    have : line = l := by simpa using hl0
    subst this
    rcases hh with ⟨rfl, h⟩ | ⟨rfl, h⟩ | ⟨rfl, rfl, hne, h⟩ | ⟨rfl, rfl, h⟩
    · exact ⟨line ++ [10], ⟨hl, Or.inl rfl, by simpa using h⟩, Or.inl rfl⟩
    · exact ⟨line ++ [13, 10], ⟨hl, Or.inr rfl, by simpa using h⟩, Or.inl rfl⟩
    · exact ⟨inp ++ [10], ⟨hl, Or.inl rfl, by simp; omega⟩, Or.inr ⟨rfl, by simpa using hne, rfl⟩⟩
    · exact ⟨line ++ [13, 10], ⟨hl, Or.inr rfl, by simp; omega⟩, Or.inr ⟨rfl, by simp, by simp⟩⟩
  · rintro ⟨w, ⟨hl, hw, hlen⟩, hc⟩
    refine ⟨line, by simp, hl, ?_⟩
    rcases hc with rfl | ⟨rfl, hne, rfl⟩
    · rcases hw with rfl | rfl
      · exact Or.inl ⟨rfl, by simpa using hlen⟩
      · exact Or.inr (Or.inl ⟨rfl, by simpa using hlen⟩)
    · rcases hw with h | h
      · have : inp = line := by simpa using h
        subst this
        exact Or.inr (Or.inr (Or.inl ⟨rfl, rfl, by simpa using hne, by simp at hlen; omega⟩))
      · have h' : inp ++ [10] = line ++ [13] ++ [10] := by simpa using h
        have : inp = line ++ [13] := List.append_cancel_right h'
        subst this
        exact Or.inr (Or.inr (Or.inr ⟨rfl, rfl, by simp at hlen; omega⟩))

theorem wireLine_ne_nil {lim : Nat} {w l : Bytes} (h : WireLine lim w l) : w ≠ [] := by
  rcases h.2.1 with rfl | rfl <;> simp

theorem trailer_ne_nil {lim : Nat} {t : Bytes} (h : Trailer lim t) : t ≠ [] := by
  cases h with
  | done h => exact wireLine_ne_nil h
  | more h _ _ => simp [wireLine_ne_nil h]

theorem chunked_ne_nil {b : Bool} {lim : Nat} {t p : Bytes} (h : Chunked b lim t p) : t ≠ [] := by
  cases h with
  | last h _ _ => simp [wireLine_ne_nil h]
  | chunk h => simp [wireLine_ne_nil h]

theorem getLine_wire {w l rest : Bytes} {n : Nat} (h : WireLine (n - 1) w l) :
    getLine (w ++ rest) n = .ok l rest :=
  getLine_ok_iff.2 ⟨w, h, Or.inl rfl⟩

theorem getLine_ok_shorter {inp line rest : Bytes} {n : Nat} (h : getLine inp n = .ok line rest) :
    rest.length < inp.length := by
  obtain ⟨w, hw, hc⟩ := getLine_ok_iff.1 h
  have := length_pos (wireLine_ne_nil hw)
  rcases hc with rfl | ⟨rfl, hne, _⟩
  · simp; omega
  · exact length_pos hne

theorem getLine_nil (n : Nat) (hn : 1 < n) : getLine [] n = .eof := by
  unfold getLine
  exact (getLineLoop_eof _ _ _ _).2 ⟨by omega, rfl, rfl, rfl⟩

theorem putLine_wire {line w : Bytes} {lim : Nat} (h : WireLine lim w line) :
    WireLine (lim + 1) (putLine false line) line := by
  refine ⟨h.1, Or.inr rfl, ?_⟩
  have := h.2.2
  rcases h.2.1 with rfl | rfl <;> simp [putLine, crlf] at * <;> omega

/-- What the output looks like: nothing with `no_write`, else `P`. -/
def OutOk (nw : Bool) (P : Bytes → Prop) (o : Bytes) : Prop :=
  (nw = true → o = []) ∧ (nw = false → P o)

theorem consumed_append {a inp wire rest : Bytes} (h : Consumed inp wire rest) :
    Consumed (a ++ inp) (a ++ wire) rest := by
  rcases h with rfl | ⟨rfl, rfl, b, rfl⟩
  · left; simp
  · right; exact ⟨rfl, by simp, a ++ b, by simp⟩

/-- Splitting a consumed stream at a proper prefix of what was consumed. -/
theorem consumed_split {a inp wire rest : Bytes} (hw : ∀ b, a ≠ b ++ [13] ∨ wire ≠ [10])
    (hw' : wire ≠ []) (h : Consumed inp (a ++ wire) rest) :
    ∃ inp', inp = a ++ inp' ∧ Consumed inp' wire rest := by
  rcases h with rfl | ⟨rfl, h, b, rfl⟩
  · exact ⟨wire ++ rest, by simp, Or.inl rfl⟩
  · have hdl := congrArg List.dropLast h
    simp only [List.dropLast_concat] at hdl
    rw [List.dropLast_append_of_ne_nil hw'] at hdl
    have h2 : wire = wire.dropLast ++ [10] := by
      rw [hdl, List.append_assoc] at h; exact (List.append_cancel_left h).symm
    refine ⟨wire.dropLast, hdl, Or.inr ⟨rfl, h2.symm, ?_⟩⟩
    by_cases hn : wire.dropLast = []
    · rw [hn] at h2 hdl
      rcases hw b with h' | h'
      · simp at hdl; exact absurd hdl.symm h'
      · exact absurd (by simpa using h2) h'
    · refine ⟨wire.dropLast.dropLast, ?_⟩
      have h3 := congrArg List.getLast? hdl
      rw [List.getLast?_append, List.getLast?_append, List.getLast?_eq_some_getLast hn] at h3
      simp at h3
      have := List.dropLast_concat_getLast hn
      rw [← h3] at this
      exact this.symm

/-- Trailer loop: never stuck; on success a trailer section was consumed. -/
theorem copyTrailers_sound (fuel : Nat) (inp out : Bytes) (cnt : Nat) (nw : Bool)
    (hf : inp.length < fuel) :
    ∀ r, copyTrailers nw fuel inp out cnt = r →
      r.fin ≠ .stuck ∧ r.fin ≠ .ub ∧ r.count = cnt ∧
      (r.fin = .status .ok →
        ∃ t o, Trailer 4095 t ∧ Consumed inp t r.rest ∧ r.out = out ++ o ∧
          OutOk nw (Trailer 4096) o) := by
  induction fuel generalizing inp out with
  | zero => omega
  | succ fuel ih =>
    intro r hr
    unfold copyTrailers at hr
    cases hg : getLine inp maxBuf with
    | eof => rw [hg] at hr; subst hr; simp
    | bad rest => rw [hg] at hr; subst hr; simp
    | tooLong rest => rw [hg] at hr; subst hr; simp
    | ok line rest =>
      rw [hg] at hr
      simp only at hr
      have hsh := getLine_ok_shorter hg
      obtain ⟨w, hw, hc⟩ := getLine_ok_iff.1 hg
      by_cases hl : line = []
      · subst hl
        simp only [List.isEmpty_nil, if_true] at hr
        subst hr
        refine ⟨by simp, by simp, rfl, fun _ => ?_⟩
        refine ⟨w, putLine nw [], .done hw, ?_, rfl, ?_, ?_⟩
        · rcases hc with rfl | ⟨rfl, hne, rfl⟩
          · left; rfl
          · right; refine ⟨rfl, rfl, [], ?_⟩
            rcases hw.2.1 with h | h
            · simp at h; exact absurd h hne
            · have : inp ++ [10] = [13] ++ [10] := by simpa using h
              simpa using List.append_cancel_right this
        · rintro rfl; rfl
        · rintro rfl; exact .done (putLine_wire hw)
      · have hemp : line.isEmpty = false := by simpa using hl
        rw [hemp] at hr
        simp only [Bool.false_eq_true, if_false] at hr
        have := ih rest (out ++ putLine nw line) (by omega) r hr
        refine ⟨this.1, this.2.1, this.2.2.1, fun hok => ?_⟩
        obtain ⟨t, o, h1, h2, h3, h4, h5⟩ := this.2.2.2 hok
        rcases hc with rfl | ⟨rfl, hne, rfl⟩
        · refine ⟨w ++ t, putLine nw line ++ o, .more hw hl h1, consumed_append h2,
            by rw [h3]; simp, ?_, ?_⟩
          · rintro rfl; simp [putLine, h4 rfl]
          · rintro rfl; exact .more (putLine_wire hw) hl (h5 rfl)
        · -- unterminated line: then the next read hits EOF, no success
          exfalso
          cases fuel with
          | zero => simp [copyTrailers] at hr; subst hr; simp at hok
          | succ fuel =>
            unfold copyTrailers at hr
            rw [getLine_nil _ (by decide)] at hr
            subst hr; simp at hok

theorem copyTrailers_nil (nw : Bool) (fuel : Nat) (out : Bytes) (cnt : Nat) :
    (copyTrailers nw fuel [] out cnt).fin ≠ .status .ok := by
  cases fuel with
  | zero => simp [copyTrailers]
  | succ fuel => unfold copyTrailers; rw [getLine_nil _ (by decide)]; simp

theorem wireLine_not_cr {lim : Nat} {w l : Bytes} (h : WireLine lim w l) : ∀ b, w ≠ b ++ [13] := by
  intro b hb
  rcases h.2.1 with rfl | rfl
  · have := congrArg List.getLast? hb; simp at this
  · have := congrArg List.getLast? hb; simp at this

theorem copyTrailers_complete {t rest : Bytes} (ht : Trailer 4095 t) (inp : Bytes)
    (hi : Consumed inp t rest) (fuel : Nat) (out : Bytes)
    (cnt : Nat) (nw : Bool) (hf : inp.length < fuel) :
    (copyTrailers nw fuel inp out cnt).fin = .status .ok ∧
    (copyTrailers nw fuel inp out cnt).rest = rest := by
  induction ht generalizing inp out fuel with
  | done hw =>
    rename_i w
    obtain ⟨fuel, rfl⟩ : ∃ k, fuel = k + 1 := ⟨fuel - 1, by omega⟩
    unfold copyTrailers
    have hlc : LineConsumed inp w rest := by
      rcases hi with h | ⟨h1, h2, b, rfl⟩
      · exact Or.inl h
      · exact Or.inr ⟨h1, by simp, h2⟩
    rw [show getLine inp maxBuf = .ok [] rest from getLine_ok_iff.2 ⟨_, hw, hlc⟩]
    simp
  | more hw hl ht ih =>
    rename_i w l t
    obtain ⟨fuel, rfl⟩ : ∃ k, fuel = k + 1 := ⟨fuel - 1, by omega⟩
    have hw0 := length_pos (wireLine_ne_nil hw)
    obtain ⟨inp', rfl, hc'⟩ := consumed_split (fun b => Or.inl (wireLine_not_cr hw b))
      (trailer_ne_nil ht) hi
    have hg : getLine (w ++ inp') maxBuf = .ok l inp' := getLine_wire hw
    have hemp : l.isEmpty = false := by simpa using hl
    unfold copyTrailers
    rw [hg]
    simp only [hemp, Bool.false_eq_true, if_false]
    exact ih inp' hc' fuel _ (by simp at hf; omega)

theorem sizeLine_det {l : Bytes} {n : Nat} (h : SizeLine l n) (hn : (n : Int) ≤ clenMax) :
    getContentLength l .chunk = n := (getContentLength_chunk_iff l n).2 ⟨h, hn⟩

theorem copyChunksLoop_nil (sched : Nat → Nat) (nw : Bool) (mx tot : Int) (fuel : Nat) (out : Bytes)
    (cnt : Nat) : (copyChunksLoop sched nw mx fuel tot [] out cnt).fin ≠ .status .ok := by
  cases fuel with
  | zero => simp [copyChunksLoop]
  | succ fuel => unfold copyChunksLoop; rw [getLine_nil _ (by decide)]; simp

theorem copyChunksLoop_sound (sched : Nat → Nat) (fuel : Nat) (inp out : Bytes) (cnt : Nat)
    (nw : Bool) (mx tot : Int) (hf : inp.length < fuel) (htot : 0 ≤ tot ∧ tot ≤ clenMax) :
    ∀ r, copyChunksLoop sched nw mx fuel tot inp out cnt = r →
      r.fin ≠ .stuck ∧
      (r.fin = .status .ok →
        ∃ wire payload o, Chunked false 4095 wire payload ∧ Consumed inp wire r.rest ∧
          r.out = out ++ o ∧ r.count = cnt + payload.length ∧
          OutOk nw (fun o => Chunked false 4096 o payload) o ∧
          tot + payload.length ≤ clenMax ∧
          (0 < mx → tot ≤ mx → tot + payload.length ≤ mx)) := by
  induction fuel generalizing inp out cnt tot with
  | zero => omega
  | succ fuel ih =>
    intro r hr
    unfold copyChunksLoop at hr
    cases hg : getLine inp maxBuf with
    | eof => rw [hg] at hr; subst hr; simp
    | bad rest => rw [hg] at hr; subst hr; simp
    | tooLong rest => rw [hg] at hr; subst hr; simp
    | ok line rest =>
      rw [hg] at hr
      simp only at hr
      have hsh := getLine_ok_shorter hg
      obtain ⟨w, hw, hc⟩ := getLine_ok_iff.1 hg
      rcases getContentLength_range line .chunk with hcl | ⟨n, hcl⟩
      · rw [hcl] at hr; simp [noContentLength] at hr; subst hr; simp
      · obtain ⟨hsz, hnm⟩ := (getContentLength_chunk_iff line n).1 hcl
        rw [hcl] at hr
        rw [if_neg (by unfold noContentLength; omega)] at hr
        by_cases h1 : tot + n > clenMax
        · rw [if_pos h1] at hr; subst hr; simp
        · rw [if_neg h1] at hr
          by_cases h2 : (decide (mx > 0) && decide (tot + n > mx)) = true
          · rw [if_pos h2] at hr; subst hr; simp
          · rw [if_neg h2] at hr
            simp at h2
            by_cases h3 : (n : Int) > 0
            · rw [if_pos h3] at hr
              by_cases hlen : n ≤ rest.length
              · have hcb : copyBin sched rest (n : Int).toNat nw =
                    ⟨true, rest.drop n, if nw then [] else rest.take n, n⟩ := by
                  cases nw
                  · rw [copyBin_spec]; simp [hlen]
                  · rw [copyBin_spec_noWrite]; simp [hlen]
                rw [hcb] at hr
                simp only [Bool.not_true, Bool.false_eq_true, if_false] at hr
                -- size line must have been complete
                have hinp : inp = w ++ rest := by
                  rcases hc with h | ⟨rfl, _, _⟩
                  · exact h
                  · simp at hlen; omega
                subst hinp
                cases hg2 : getLine (rest.drop n) maxBuf with
                | eof => rw [hg2] at hr; subst hr; simp
                | bad rest => rw [hg2] at hr; subst hr; simp
                | tooLong rest => rw [hg2] at hr; subst hr; simp
                | ok junk rest2 =>
                  rw [hg2] at hr
                  simp only at hr
                  have hsh2 := getLine_ok_shorter hg2
                  obtain ⟨wj, hwj, hcj⟩ := getLine_ok_iff.1 hg2
                  have hl2 : rest2.length < fuel := by
                    simp at hsh2 hsh hf; omega
                  have := ih rest2 _ (cnt + n) (tot + n) hl2 (by omega) r hr
                  refine ⟨this.1, fun hok => ?_⟩
                  obtain ⟨wire, payload, o, e1, e2, e3, e4, e5, e6, e7⟩ := this.2 hok
                  have hr2 : rest.drop n = wj ++ rest2 := by
                    rcases hcj with h | ⟨rfl, _, _⟩
                    · exact h
                    · exfalso; rw [← hr] at hok; exact copyChunksLoop_nil _ _ _ _ _ _ _ hok
                  have hdl : (rest.take n).length = n := by simp; omega
                  refine ⟨w ++ (rest.take n ++ (wj ++ wire)), rest.take n ++ payload,
                    putLine nw line ++ ((if nw then [] else rest.take n) ++ (putLine nw junk ++ o)),
                    ?_, ?_, ?_, ?_, ?_, ?_, ?_⟩
                  · exact .chunk hw hsz (by omega) hdl hwj (by simp) e1
                  · have hrr : w ++ rest = w ++ (rest.take n ++ (wj ++ rest2)) := by
                      rw [← hr2, List.take_append_drop]
                    rw [hrr]
                    exact consumed_append (consumed_append (consumed_append e2))
                  · rw [e3]; simp
                  · rw [e4]; simp only [List.length_append, hdl]; omega
                  · refine ⟨?_, ?_⟩
                    · rintro rfl; simp [putLine, e5.1 rfl]
                    · rintro rfl
                      exact .chunk (putLine_wire hw) hsz (by omega) hdl (putLine_wire hwj) (by simp)
                        (e5.2 rfl)
                  · simp only [List.length_append, hdl]; push_cast; omega
                  · intro hmx hle
                    have := e7 hmx (by have := h2 hmx; omega)
                    simp only [List.length_append, hdl]; push_cast; omega
              · have hcb : (copyBin sched rest (n : Int).toNat nw).ok = false := by
                  cases nw
                  · rw [copyBin_spec]; simp [hlen]
                  · rw [copyBin_spec_noWrite]; simp [hlen]
                rw [hcb] at hr
                simp at hr; subst hr; simp
            · rw [if_neg h3] at hr
              have hn0 : n = 0 := by omega
              subst hn0
              have := copyTrailers_sound (rest.length + 1) rest _ cnt nw (by omega) r hr
              refine ⟨this.1, fun hok => ?_⟩
              have hinp : inp = w ++ rest := by
                rcases hc with h | ⟨rfl, _, _⟩
                · exact h
                · exfalso; rw [← hr] at hok; exact copyTrailers_nil _ _ _ _ hok
              obtain ⟨t, o, e1, e2, e3, e4⟩ := this.2.2.2 hok
              subst hinp
              refine ⟨w ++ t, [], putLine nw line ++ o, .last hw hsz e1, consumed_append e2,
                by rw [e3]; simp, by rw [this.2.2.1]; simp, ⟨?_, ?_⟩, by simp; omega, by simp⟩
              · rintro rfl; simp [putLine, e4.1 rfl]
              · rintro rfl; exact .last (putLine_wire hw) hsz (e4.2 rfl)

theorem copyChunksLoop_complete (sched : Nat → Nat) {wire payload rest : Bytes}
    (hch : Chunked false 4095 wire payload) (fuel : Nat) (inp out : Bytes) (cnt : Nat)
    (nw : Bool) (mx tot : Int) (hf : inp.length < fuel) (htot : 0 ≤ tot)
    (hi : Consumed inp wire rest) (hsz : tot + payload.length ≤ clenMax)
    (hmx : 0 < mx → tot + payload.length ≤ mx) :
    (copyChunksLoop sched nw mx fuel tot inp out cnt).fin = .status .ok ∧
    (copyChunksLoop sched nw mx fuel tot inp out cnt).rest = rest := by
  induction hch generalizing fuel inp out cnt tot with
  | last hw hs ht =>
    rename_i w l t
    obtain ⟨fuel, rfl⟩ : ∃ k, fuel = k + 1 := ⟨fuel - 1, by omega⟩
    obtain ⟨inp', rfl, hc'⟩ := consumed_split (fun b => Or.inl (wireLine_not_cr hw b))
      (trailer_ne_nil ht) hi
    unfold copyChunksLoop
    rw [getLine_wire (n := maxBuf) hw]
    simp only
    rw [sizeLine_det hs (by decide)]
    simp at hsz hmx
    have h1 : ¬ (0 : Int) = noContentLength := by decide
    have h2 : ¬ (tot + ((0 : Nat) : Int) > clenMax) := by simp; omega
    have h3 : ¬ ((decide (mx > 0) && decide (tot + ((0 : Nat) : Int) > mx)) = true) := by
      simp; intro h; have := hmx h; omega
    rw [if_neg (by decide), if_neg h2, if_neg h3, if_neg (by decide)]
    exact copyTrailers_complete ht inp' hc' _ _ _ _ (by omega)
  | chunk hw hs hn hd hwj hst hch ih =>
    rename_i w l n data wj j wire payload
    obtain ⟨fuel, rfl⟩ : ∃ k, fuel = k + 1 := ⟨fuel - 1, by omega⟩
    have hwn := wireLine_ne_nil hwj
    have hcn := chunked_ne_nil hch
    obtain ⟨inp1, rfl, hc1⟩ := consumed_split (fun b => Or.inl (wireLine_not_cr hw b))
      (by simp [hwn]) hi
    have hc2 : ∃ inp2, inp1 = data ++ inp2 ∧ Consumed inp2 (wj ++ wire) rest := by
      apply consumed_split _ (by simp [hwn]) hc1
      intro b; right; intro h
      have h1 := length_pos hwn
      have h2 := length_pos hcn
      have := congrArg List.length h; simp at this; omega
    obtain ⟨inp2, rfl, hc2⟩ := hc2
    obtain ⟨inp3, rfl, hc3⟩ := consumed_split (fun b => Or.inl (wireLine_not_cr hwj b)) hcn hc2
    have hplen : (data ++ payload).length = n + payload.length := by simp [hd]
    rw [hplen] at hsz hmx
    push_cast at hsz hmx
    unfold copyChunksLoop
    rw [getLine_wire (n := maxBuf) hw]
    simp only
    rw [sizeLine_det hs (by omega)]
    have h1 : ¬ ((n : Int) = noContentLength) := by unfold noContentLength; omega
    have h2 : ¬ (tot + (n : Int) > clenMax) := by omega
    have h3 : ¬ ((decide (mx > 0) && decide (tot + (n : Int) > mx)) = true) := by
      simp; intro h; have := hmx h; omega
    rw [if_neg h1, if_neg h2, if_neg h3, if_pos (by omega)]
    have hcb : copyBin sched (data ++ (wj ++ inp3)) (n : Int).toNat nw =
        ⟨true, wj ++ inp3, if nw then [] else data, n⟩ := by
      cases nw
      · rw [copyBin_spec]; simp [← hd]
      · rw [copyBin_spec_noWrite]; simp [← hd]
    rw [hcb]
    simp only [Bool.not_true, Bool.false_eq_true, if_false]
    rw [getLine_wire (n := maxBuf) hwj]
    simp only
    have hw0 := length_pos (wireLine_ne_nil hw)
    exact ih fuel inp3 _ _ (tot + n) (by simp at hf; omega) (by omega) hc3 (by omega)
      (fun h => by have := hmx h; omega)

theorem copyTrailers_count (nw : Bool) (fuel : Nat) (inp out : Bytes) (cnt : Nat) :
    (copyTrailers nw fuel inp out cnt).count = cnt := by
  induction fuel generalizing inp out with
  | zero => simp [copyTrailers]
  | succ fuel ih =>
    unfold copyTrailers
    split
    · dsimp only; split
      · rfl
      · exact ih _ _
    all_goals rfl

theorem copyChunksLoop_count (sched : Nat → Nat) (fuel : Nat) (inp out : Bytes) (cnt : Nat)
    (nw : Bool) (mx tot : Int) (hmx : 0 < mx) (hc : (cnt : Int) ≤ tot) (ht : tot ≤ mx) :
    ((copyChunksLoop sched nw mx fuel tot inp out cnt).count : Int) ≤ mx := by
  induction fuel generalizing inp out cnt tot with
  | zero => simp [copyChunksLoop]; omega
  | succ fuel ih =>
    unfold copyChunksLoop
    cases hg : getLine inp maxBuf with
    | eof => simp; omega
    | bad rest => simp; omega
    | tooLong rest => simp; omega
    | ok line rest =>
      simp only
      rcases getContentLength_range line .chunk with hcl | ⟨n, hcl⟩
      · rw [hcl]; simp [noContentLength]; omega
      · rw [hcl]
        rw [if_neg (by unfold noContentLength; omega)]
        by_cases h1 : tot + n > clenMax
        · rw [if_pos h1]; simp; omega
        · rw [if_neg h1]
          by_cases h2 : (decide (mx > 0) && decide (tot + n > mx)) = true
          · rw [if_pos h2]; simp; omega
          · rw [if_neg h2]
            simp [hmx] at h2
            by_cases h3 : (n : Int) > 0
            · rw [if_pos h3]
              have hcb : (copyBin sched rest (n : Int).toNat nw).count ≤ n := by
                cases nw
                · rw [copyBin_spec]; split <;> simp <;> omega
                · rw [copyBin_spec_noWrite]; split <;> simp <;> omega
              split
              · simp only; omega
              · split
                · simp only; omega
                · simp only; omega
                · simp only; omega
                · exact ih _ _ _ _ (by push_cast; omega) (by omega)
            · rw [if_neg h3, copyTrailers_count]; omega

end Pound
