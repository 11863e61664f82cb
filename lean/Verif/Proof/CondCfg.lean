import Verif.Proof.SvcCfg

namespace Pound

open Spec

/-! ### The parser loop -/

/-- The state in a result -/
def LR.st {σ : Type} : LR σ → Option (LSt σ)
  | .ok s => some s
  | .nonl s => some s
  | .fin s => some s
  | .fail => none

/-- Messages are only added. -/
def MonoP {σ : Type} (p : LParser σ) : Prop := ∀ s s', (p s).st = some s' → s.errs ≤ s'.errs

/-- The result after a statement -/
def afterL {σ : Type} (find : Bytes → Option (LParser σ)) (single block : Bool) (n : Nat) : LR σ → LR σ
  | .ok s2 =>
    match s2.toks with
    | [] => if single then .nonl s2 else cfgL find single block n s2
    | .nl :: r2 => if single then .nonl { s2 with toks := r2 } else cfgL find single block n { s2 with toks := r2 }
    | _ => .fail
  | .nonl s2 => cfgL find single block n s2
  | .fin s2 => .ok s2
  | .fail => .fail

section
variable {σ : Type} (find : Bytes → Option (LParser σ)) (single block : Bool) (n : Nat) (d : σ) (r : List Tok) (er : Nat)

theorem cfgL_nil : cfgL find single block (n + 1) ⟨d, [], er⟩ = if block then .fail else .ok ⟨d, [], er⟩ := rfl
theorem cfgL_eof : cfgL find single block (n + 1) ⟨d, .eof :: r, er⟩ = if block then .fail else .ok ⟨d, .eof :: r, er⟩ := rfl
theorem cfgL_error : cfgL find single block (n + 1) ⟨d, .error :: r, er⟩ = .fail := rfl
theorem cfgL_nl : cfgL find single block (n + 1) ⟨d, .nl :: r, er⟩ = cfgL find single block n ⟨d, r, er⟩ := rfl
theorem cfgL_number (x : Bytes) : cfgL find single block (n + 1) ⟨d, .number x :: r, er⟩ = cfgL find single block n ⟨d, r, er + 1⟩ := rfl
theorem cfgL_string (x : Bytes) : cfgL find single block (n + 1) ⟨d, .string x :: r, er⟩ = cfgL find single block n ⟨d, r, er + 1⟩ := rfl
theorem cfgL_literal (x : Bytes) : cfgL find single block (n + 1) ⟨d, .literal x :: r, er⟩ = cfgL find single block n ⟨d, r, er + 1⟩ := rfl
theorem cfgL_ident (name : Bytes) : cfgL find single block (n + 1) ⟨d, .ident name :: r, er⟩ =
    match find name with
    | none => .fail
    | some p => afterL find single block n (p ⟨d, r, er⟩) := by
  rw [cfgL]
  dsimp only
  cases find name with
  | none => rfl
  | some p =>
    dsimp only
    cases p ⟨d, r, er⟩ <;> rfl

theorem cfgL_unknown {name : Bytes} (h : find name = none) : cfgL find single block (n + 1) ⟨d, .ident name :: r, er⟩ = .fail := by rw [cfgL_ident, h]

theorem cfgL_known {name : Bytes} {p : LParser σ} (h : find name = some p) : cfgL find single block (n + 1) ⟨d, .ident name :: r, er⟩ = afterL find single block n (p ⟨d, r, er⟩) := by
  rw [cfgL_ident, h]
end

/-- Tokens no statement begins with -/
theorem cfgL_junk {σ : Type} (find : Bytes → Option (LParser σ)) (single block : Bool) (n : Nat) (d : σ) (t : Tok) (r : List Tok) (er : Nat) :
    (t = .eof ∨ t = .error ∨ t = .nl ∨ ∃ x, t = .ident x) ∨ cfgL find single block (n + 1) ⟨d, t :: r, er⟩ = cfgL find single block n ⟨d, r, er + 1⟩ := by
  cases t with
  | eof => exact Or.inl (Or.inl rfl)
  | error => exact Or.inl (Or.inr (Or.inl rfl))
  | nl => exact Or.inl (Or.inr (Or.inr (Or.inl rfl)))
  | ident x => exact Or.inl (Or.inr (Or.inr (Or.inr ⟨x, rfl⟩)))
  | _ => exact Or.inr rfl

theorem cfgL_mono {σ : Type} {find : Bytes → Option (LParser σ)} (hf : ∀ name p, find name = some p → MonoP p) (single block : Bool) :
    ∀ n, MonoP (cfgL find single block n)
  | 0, s, s', h => by simp [cfgL, LR.st] at h
  | n + 1, ⟨d, [], er⟩, s', h => by
    rw [cfgL_nil] at h
    cases block <;> simp [LR.st] at h
    rw [← h]; exact Nat.le_refl _
  | n + 1, ⟨d, t :: r, er⟩, s', h => by
    have ih := cfgL_mono hf single block n
    rcases cfgL_junk find single block n d t r er with (rfl | rfl | rfl | ⟨x, rfl⟩) | hj
    · rw [cfgL_eof] at h
      cases block <;> simp [LR.st] at h
      rw [← h]; exact Nat.le_refl _
    · simp [cfgL_error, LR.st] at h
    · rw [cfgL_nl] at h
      exact ih ⟨d, r, er⟩ _ h
    · cases hp : find x with
      | none => simp [cfgL_unknown _ _ _ _ _ _ _ hp, LR.st] at h
      | some p =>
        rw [cfgL_known _ _ _ _ _ _ _ hp] at h
        have h1 := hf x p hp ⟨d, r, er⟩
        unfold afterL at h
        split at h
        · rename_i s2 hs2
          have h1 : er ≤ s2.errs := h1 s2 (by rw [hs2]; rfl)
          split at h
          · cases single
            · exact Nat.le_trans h1 (ih _ _ h)
            · simp [LR.st] at h; rw [← h]; exact h1
          · rename_i r2 _
            cases single
            · exact Nat.le_trans h1 (ih ⟨s2.data, r2, s2.errs⟩ _ h)
            · simp [LR.st] at h; rw [← h]; exact h1
          · simp [LR.st] at h
        · rename_i s2 hs2
          exact Nat.le_trans (h1 s2 (by rw [hs2]; rfl)) (ih _ _ h)
        · rename_i s2 hs2
          simp [LR.st] at h; rw [← h]; exact h1 s2 (by rw [hs2]; rfl)
        · simp [LR.st] at h
    · rw [hj] at h
      exact Nat.le_trans (Nat.le_succ _) (ih ⟨d, r, er + 1⟩ _ h)

theorem cfgL_nofin {σ : Type} {find : Bytes → Option (LParser σ)} (single block : Bool) : ∀ n s s', cfgL find single block n s ≠ .fin s'
  | 0, s, s', h => by simp [cfgL] at h
  | n + 1, ⟨d, [], er⟩, s', h => by
    rw [cfgL_nil] at h
    cases block <;> simp at h
  | n + 1, ⟨d, t :: r, er⟩, s', h => by
    have ih := cfgL_nofin (find := find) single block n
    rcases cfgL_junk find single block n d t r er with (rfl | rfl | rfl | ⟨x, rfl⟩) | hj
    · rw [cfgL_eof] at h
      cases block <;> simp at h
    · simp [cfgL_error] at h
    · rw [cfgL_nl] at h
      exact ih _ _ h
    · cases hp : find x with
      | none => simp [cfgL_unknown _ _ _ _ _ _ _ hp] at h
      | some p =>
        rw [cfgL_known _ _ _ _ _ _ _ hp] at h
        unfold afterL at h
        split at h
        · split at h
          · cases single
            · exact ih _ _ h
            · simp at h
          · cases single
            · exact ih _ _ h
            · simp at h
          · simp at h
        · exact ih _ _ h
        · simp at h
        · simp at h
    · rw [hj] at h
      exact ih _ _ h

/-- No token is left. -/
def Ended (ts : List Tok) : Prop := ts = [] ∨ ∃ r, ts = .eof :: r

/-- What a loop over statements does if there is no message -/
inductive RunL {σ : Type} (find : Bytes → Option (LParser σ)) (block : Bool) (er : Nat) : σ → List Tok → σ → List Tok → Prop
  | ended {d : σ} {ts : List Tok} : block = false → Ended ts → RunL find block er d ts d ts
  | nl {d d' : σ} {r ts' : List Tok} : RunL find block er d r d' ts' → RunL find block er d (.nl :: r) d' ts'
  | ok {name : Bytes} {p : LParser σ} {d d2 d' : σ} {r r2 ts' : List Tok} : find name = some p → p ⟨d, r, er⟩ = .ok ⟨d2, .nl :: r2, er⟩ →
      RunL find block er d2 r2 d' ts' → RunL find block er d (.ident name :: r) d' ts'
  | okEnd {name : Bytes} {p : LParser σ} {d d2 d' : σ} {r ts' : List Tok} : find name = some p → p ⟨d, r, er⟩ = .ok ⟨d2, [], er⟩ →
      RunL find block er d2 [] d' ts' → RunL find block er d (.ident name :: r) d' ts'
  | nonl {name : Bytes} {p : LParser σ} {d d2 d' : σ} {r r2 ts' : List Tok} : find name = some p → p ⟨d, r, er⟩ = .nonl ⟨d2, r2, er⟩ →
      RunL find block er d2 r2 d' ts' → RunL find block er d (.ident name :: r) d' ts'
  | fin {name : Bytes} {p : LParser σ} {d d2 : σ} {r r2 : List Tok} : find name = some p → p ⟨d, r, er⟩ = .fin ⟨d2, r2, er⟩ →
      RunL find block er d (.ident name :: r) d2 r2

theorem cfgL_run {σ : Type} {find : Bytes → Option (LParser σ)} (hf : ∀ name p, find name = some p → MonoP p) (block : Bool) :
    ∀ n d ts er d' ts', cfgL find false block n ⟨d, ts, er⟩ = .ok ⟨d', ts', er⟩ → RunL find block er d ts d' ts'
  | 0, d, ts, er, d', ts', h => by simp [cfgL] at h
  | n + 1, d, [], er, d', ts', h => by
    rw [cfgL_nil] at h
    cases block <;> simp at h
    obtain ⟨rfl, rfl⟩ := h
    exact .ended rfl (Or.inl rfl)
  | n + 1, d, t :: r, er, d', ts', h => by
    have ih := cfgL_run hf block n
    have hm := cfgL_mono hf false block n
    rcases cfgL_junk find false block n d t r er with (rfl | rfl | rfl | ⟨x, rfl⟩) | hj
    · rw [cfgL_eof] at h
      cases block <;> simp at h
      obtain ⟨rfl, rfl⟩ := h
      exact .ended rfl (Or.inr ⟨r, rfl⟩)
    · simp [cfgL_error] at h
    · rw [cfgL_nl] at h
      exact .nl (ih _ _ _ _ _ h)
    · cases hp : find x with
      | none => simp [cfgL_unknown _ _ _ _ _ _ _ hp] at h
      | some p =>
        rw [cfgL_known _ _ _ _ _ _ _ hp] at h
        have h1 := hf x p hp ⟨d, r, er⟩
        cases hs : p ⟨d, r, er⟩ with
        | ok s2 =>
          obtain ⟨d2, t2, e2⟩ := s2
          have h1 : er ≤ e2 := h1 _ (by rw [hs]; rfl)
          rw [hs] at h
          unfold afterL at h
          cases t2 with
          | nil =>
            dsimp only at h
            simp only [Bool.false_eq_true, if_false] at h
            have h2 : e2 ≤ er := hm _ _ (by rw [h]; rfl)
            have : e2 = er := by omega
            subst this
            exact .okEnd hp hs (ih _ _ _ _ _ h)
          | cons t r2 =>
            cases t with
            | nl =>
              dsimp only at h
              simp only [Bool.false_eq_true, if_false] at h
              have h2 : e2 ≤ er := hm _ _ (by rw [h]; rfl)
              have : e2 = er := by omega
              subst this
              exact .ok hp hs (ih _ _ _ _ _ h)
            | _ => simp at h
        | nonl s2 =>
          obtain ⟨d2, t2, e2⟩ := s2
          have h1 : er ≤ e2 := h1 _ (by rw [hs]; rfl)
          rw [hs] at h
          unfold afterL at h
          dsimp only at h
          have h2 : e2 ≤ er := hm _ _ (by rw [h]; rfl)
          have : e2 = er := by omega
          subst this
          exact .nonl hp hs (ih _ _ _ _ _ h)
        | fin s2 =>
          rw [hs] at h
          unfold afterL at h
          simp at h
          subst h
          exact .fin hp hs
        | fail => rw [hs] at h; simp [afterL] at h
    · rw [hj] at h
      have := hm _ _ (by rw [h]; rfl)
      simp only at this
      omega

theorem cond_mono (e : CfgEnv) (d : Dfl) : ∀ n name p, condFind e d n name = some p → MonoP p
  | 0, name, p, h => by simp [condFind] at h
  | n + 1, name, p, h => by
    have ih := cond_mono e d n
    have m1 := cfgL_mono ih true false n
    have m2 : MonoP (cfgL (blockFind (condFind e d n)) false true n) := cfgL_mono (fun nm q hq => by
      unfold blockFind at hq
      split at hq
      · cases hq
        intro s s' hs
        simp [endParser, LR.st] at hs
        rw [hs]; exact Nat.le_refl _
      · exact ih nm q hq) false true n
    unfold condFind at h
    split at h
    · rename_i k hk
      cases h
      intro s s' hs
      unfold condParser at hs
      simp only [if_true, Bool.false_eq_true, if_false] at hs
      split at hs
      · split at hs
        all_goals (rename_i s2 hs2)
        all_goals (try (have := m1 _ s2 (by rw [hs2]; rfl); simp [LR.st] at hs; rw [← hs]; exact this))
        simp [LR.st] at hs
      · split at hs
        · split at hs
          · simp [LR.st] at hs
          · split at hs
            · rename_i s2 hs2
              have := m2 _ s2 (by rw [hs2]; rfl)
              simp [LR.st] at hs; rw [← hs]; exact this
            · simp [LR.st] at hs
        · split at hs
          · simp [LR.st] at hs
          · simp [LR.st] at hs; rw [← hs]; exact Nat.le_refl _
    · cases h

theorem cond_nofin (e : CfgEnv) (d : Dfl) (n : Nat) {name : Bytes} {p : LParser (List CCond)} (h : condFind e d n name = some p) (s s' : LSt (List CCond)) : p s ≠ .fin s' := by
  intro hs
  cases n with
  | zero => simp [condFind] at h
  | succ n =>
    unfold condFind at h
    split at h
    · cases h
      unfold condParser at hs
      simp only [if_true, Bool.false_eq_true, if_false] at hs
      split at hs
      · split at hs <;> try (simp at hs; done)
        rename_i s2 hs2
        exact cfgL_nofin _ _ _ _ _ hs2
      · split at hs
        · split at hs
          · simp at hs
          · split at hs <;> simp at hs
        · split at hs <;> simp at hs
    · cases h

/-! ### Tokens to which the theorems apply -/

/-- Neither of the two things that are read differently -/
def PlainToks (k : GKind) (ts : List Tok) : Prop := ¬ NotNot ts ∧ ¬ HostFile k ts

theorem NotNot_left {a b : List Tok} (h : NotNot a) : NotNot (a ++ b) := by
  obtain ⟨pre, n, bl, m, post, rfl, h1, h2, h3⟩ := h
  exact ⟨pre, n, bl, m, post ++ b, by simp, h1, h2, h3⟩

theorem NotNot_right {a b : List Tok} (h : NotNot b) : NotNot (a ++ b) := by
  obtain ⟨pre, n, bl, m, post, rfl, h1, h2, h3⟩ := h
  exact ⟨a ++ pre, n, bl, m, post, by simp, h1, h2, h3⟩

theorem HostFile_left {k : GKind} {a b : List Tok} (h : HostFile k a) : HostFile k (a ++ b) := by
  obtain ⟨pre, n, o, p, post, rfl, h1, h2⟩ := h
  exact ⟨pre, n, o, p, post ++ b, by simp, h1, h2⟩

theorem HostFile_right {k : GKind} {a b : List Tok} (h : HostFile k b) : HostFile k (a ++ b) := by
  obtain ⟨pre, n, o, p, post, rfl, h1, h2⟩ := h
  exact ⟨a ++ pre, n, o, p, post, by simp, h1, h2⟩

theorem PlainToks.left {k : GKind} {a b : List Tok} (h : PlainToks k (a ++ b)) : PlainToks k a := ⟨fun x => h.1 (NotNot_left x), fun x => h.2 (HostFile_left x)⟩
theorem PlainToks.right {k : GKind} {a b : List Tok} (h : PlainToks k (a ++ b)) : PlainToks k b := ⟨fun x => h.1 (NotNot_right x), fun x => h.2 (HostFile_right x)⟩
theorem PlainToks.tail {k : GKind} {a : Tok} {b : List Tok} (h : PlainToks k (a :: b)) : PlainToks k b := PlainToks.right (a := [a]) h

/-- The first identifier is not Not. -/
def NoNot (ts : List Tok) : Prop := ∀ bl m r, ts = bl ++ .ident m :: r → BlankLines bl → ciEq b!"Not" m = false

theorem PlainToks.noNot {k : GKind} {n : Bytes} {ts : List Tok} (h : PlainToks k (.ident n :: ts)) (hn : ciEq b!"Not" n = true) : NoNot ts := by
  intro bl m r he hb
  cases hm : ciEq b!"Not" m with
  | false => rfl
  | true => exact absurd ⟨[], n, bl, m, r, by rw [he]; rfl, hb, hn, hm⟩ h.1

theorem blank_cons {bl : List Tok} (h : BlankLines bl) : BlankLines (.nl :: bl) := fun t ht => (List.mem_cons.mp ht).elim id (h t)

theorem NoNot.tail {ts : List Tok} (h : NoNot (.nl :: ts)) : NoNot ts := fun bl m r he hb => h (.nl :: bl) m r (by rw [he]; rfl) (blank_cons hb)

theorem oneNots_tests (l : List CTest) : OneNots (l.map CCond.test) := by
  induction l with
  | nil => trivial
  | cons a l ih => exact ⟨trivial, ih⟩

theorem condMatcher_one {e : CfgEnv} {mk : Pattern → CTest} {host : Bool} {dflRe kind : GKind} {icase multi : Bool} {ts r : List Tok} {c : CCond}
    (h : condMatcher e mk host dflRe kind icase multi ts = some (c, r)) : OneNot c := by
  have ho : ∀ l : List Pattern, OneNot (.bool .or (l.map fun q => .test (mk q))) := fun l => by
    have := oneNots_tests (l.map mk)
    rw [List.map_map] at this
    exact ⟨by simp, this⟩
  unfold condMatcher at h
  repeat' split at h
  all_goals first
    | (cases h; done)
    | (cases h; first | trivial | exact ho _)

theorem simpleCond_one {e : CfgEnv} {d : Dfl} {k : CondKw} {ts r : List Tok} {c : CCond} (h : simpleCond e d k ts = some (c, r)) : OneNot c := by
  unfold simpleCond at h
  split at h
  · obtain ⟨x, _, h2⟩ := Option.map_eq_some_iff.mp h
    cases h2
    trivial
  · exact condMatcher_one h
  · exact condMatcher_one h
  · exact condMatcher_one h
  · exact condMatcher_one h
  · exact condMatcher_one h
  · exact condMatcher_one h
  · obtain ⟨x, h1, h2⟩ := Option.map_eq_some_iff.mp h
    cases h2
    exact ⟨fun _ => ⟨_, rfl⟩, condMatcher_one h1, trivial⟩
  · exact condMatcher_one h
  · cases h; trivial
  · split at h
    · cases h; trivial
    · cases h
  · cases h

/-! ### Soundness -/

/-- What a parser of conditions does -/
structure CSound (e : CfgEnv) (d : Dfl) (name : Bytes) (p : LParser (List CCond)) : Prop where
  ok : ∀ s s', PlainToks d.reType (.ident name :: s.toks) → p s = .ok s' → s'.errs = s.errs →
    ∃ a c, s.toks = a ++ s'.toks ∧ s'.data = s.data ++ [c] ∧ (Ended s'.toks ∨ (CondStmt e d (.ident name :: (a ++ [.nl])) (condFormula c) ∧ OneNot c))
  nonl : ∀ s s', PlainToks d.reType (.ident name :: s.toks) → p s = .nonl s' → s'.errs = s.errs →
    ciEq b!"Not" name = true ∧ ∃ a c, s.toks = a ++ s'.toks ∧ s'.data = s.data ++ [c] ∧ (Ended s'.toks ∨ (CondStmt e d (.ident name :: a) (condFormula c) ∧ OneNot c))
  mono : MonoP p
  nofin : ∀ s s', p s ≠ .fin s'

theorem single_sound {e : CfgEnv} {d : Dfl} {find : Bytes → Option (LParser (List CCond))} (hs : ∀ name p, find name = some p → CSound e d name p) :
    ∀ m x ts er s', PlainToks d.reType ts → NoNot ts → s'.errs = er →
      (cfgL find true false m ⟨x, ts, er⟩ = .nonl s' → ∃ bl a c, ts = bl ++ (a ++ s'.toks) ∧ BlankLines bl ∧ s'.data = x ++ [c] ∧ (Ended s'.toks ∨ (CondStmt e d a (condFormula c) ∧ OneNot c))) ∧
      (cfgL find true false m ⟨x, ts, er⟩ = .ok s' → Ended s'.toks ∧ s'.data = x ∧ ∃ a, ts = a ++ s'.toks)
  | 0, x, ts, er, s', _, _, _ => by simp [cfgL]
  | m + 1, x, [], er, s', hp, hn, he => by
    rw [cfgL_nil]
    refine ⟨fun h => (by cases h), fun h => ?_⟩
    cases h
    exact ⟨Or.inl rfl, rfl, [], rfl⟩
  | m + 1, x, t :: r, er, s', hp, hn, he => by
    have ih := single_sound hs m
    have hmono := cfgL_mono (fun name p h => (hs name p h).mono) true false m
    rcases cfgL_junk find true false m x t r er with (rfl | rfl | rfl | ⟨name, rfl⟩) | hj
    · rw [cfgL_eof]
      refine ⟨fun h => (by cases h), fun h => ?_⟩
      cases h
      exact ⟨Or.inr ⟨r, rfl⟩, rfl, [], rfl⟩
    · rw [cfgL_error]
      exact ⟨fun h => (by cases h), fun h => (by cases h)⟩
    · rw [cfgL_nl]
      obtain ⟨i1, i2⟩ := ih x r er s' hp.tail hn.tail he
      refine ⟨fun h => ?_, fun h => ?_⟩
      · obtain ⟨bl, a, c, h1, h2, h3, h4⟩ := i1 h
        exact ⟨.nl :: bl, a, c, by rw [h1]; rfl, blank_cons h2, h3, h4⟩
      · obtain ⟨h1, h2, a, h3⟩ := i2 h
        exact ⟨h1, h2, .nl :: a, by rw [h3]; rfl⟩
    · cases hf : find name with
      | none =>
        rw [cfgL_unknown _ _ _ _ _ _ _ hf]
        exact ⟨fun h => (by cases h), fun h => (by cases h)⟩
      | some p =>
        have hc := hs name p hf
        rw [cfgL_known _ _ _ _ _ _ _ hf]
        cases hx : p ⟨x, r, er⟩ with
        | fail => exact ⟨fun h => (by cases h), fun h => (by cases h)⟩
        | fin s2 => exact absurd hx (hc.nofin _ _)
        | nonl s2 =>
          have h1 : er ≤ s2.errs := hc.mono _ s2 (by rw [hx]; rfl)
          have key : ∀ x, cfgL find true false m s2 = x → x.st = some s' → False := by
            intro x h h'
            have h2 : s2.errs ≤ s'.errs := hmono _ s' (by rw [h]; exact h')
            have := (hc.nonl _ s2 hp hx (by simp only; omega)).1
            rw [hn [] name r rfl (fun t ht => by cases ht)] at this
            cases this
          exact ⟨fun h => (key _ h rfl).elim, fun h => (key _ h rfl).elim⟩
        | ok s2 =>
          unfold afterL
          dsimp only
          cases h2 : s2.toks with
          | nil =>
            refine ⟨fun h => ?_, fun h => (by cases h)⟩
            cases h
            obtain ⟨a, c, h3, h4, h5⟩ := hc.ok _ _ hp hx he
            exact ⟨[], .ident name :: a, c, by simp only at h3; rw [h3]; rfl, fun t ht => (by cases ht), h4, Or.inl (Or.inl h2)⟩
          | cons t r2 =>
            cases t with
            | nl =>
              refine ⟨fun h => ?_, fun h => (by cases h)⟩
              cases h
              obtain ⟨a, c, h3, h4, h5⟩ := hc.ok _ _ hp hx he
              refine ⟨[], .ident name :: (a ++ [.nl]), c, by simp only at h3; rw [h3, h2]; simp, fun t ht => (by cases ht), h4, Or.inr ?_⟩
              rcases h5 with h5 | h5
              · rw [h2] at h5
                rcases h5 with h5 | ⟨_, h5⟩ <;> cases h5
              · exact h5
            | _ => exact ⟨fun h => (by cases h), fun h => (by cases h)⟩
    · rw [hj]
      have key : ∀ y, cfgL find true false m ⟨x, r, er + 1⟩ = y → y.st = some s' → False := by
        intro y h h'
        have h2 := hmono _ s' (by rw [h]; exact h')
        simp only at h2; omega
      exact ⟨fun h => (key _ h rfl).elim, fun h => (key _ h rfl).elim⟩

theorem condFormulas_append (a b : List CCond) : condFormulas (a ++ b) = condFormulas a ++ condFormulas b := by
  induction a with
  | nil => rfl
  | cons x a ih => simp [condFormulas, ih]

theorem condStmts_append {e : CfgEnv} {d : Dfl} {t1 t2 : List Tok} {f : Formula CTest} {fs : List (Formula CTest)} (h : CondStmt e d t1 f) (h2 : CondStmts e d t2 fs) :
    CondStmts e d (t1 ++ t2) (f :: fs) := .cons h h2

theorem run_eof {σ : Type} {find : Bytes → Option (LParser σ)} {er : Nat} {x x' : σ} {r ts' : List Tok} (h : RunL find true er x (.eof :: r) x' ts') : False := by
  cases h with
  | ended h => cases h

theorem run_nl {σ : Type} {find : Bytes → Option (LParser σ)} {er : Nat} {x x' : σ} {ts ts' : List Tok} (h : RunL find true er x ts x' ts') (h2 : ∀ w r', ts ≠ .ident w :: r') :
    ∃ r, ts = .nl :: r ∧ RunL find true er x r x' ts' := by
  cases h with
  | ended h => cases h
  | nl h => exact ⟨_, rfl, h⟩
  | ok => exact absurd rfl (h2 _ _)
  | okEnd => exact absurd rfl (h2 _ _)
  | nonl => exact absurd rfl (h2 _ _)
  | fin => exact absurd rfl (h2 _ _)

theorem block_sound {e : CfgEnv} {d : Dfl} {find : Bytes → Option (LParser (List CCond))} (hs : ∀ name p, find name = some p → CSound e d name p) {er : Nat}
    {x x' : List CCond} {ts ts' : List Tok} (h : RunL (blockFind find) true er x ts x' ts') : PlainToks d.reType ts →
    ∃ body w cs, ts = body ++ .ident w :: ts' ∧ ciEq b!"End" w = true ∧ x' = x ++ cs ∧ CondStmts e d body (condFormulas cs) ∧ OneNots cs := by
  induction h with
  | ended h => cases h
  | nl _ ih =>
    intro hp
    obtain ⟨body, w, cs, rfl, h2, h3, h4⟩ := ih hp.tail
    exact ⟨.nl :: body, w, cs, rfl, h2, h3, .blank h4.1, h4.2⟩
  | @ok name p d1 d2 d' r r2 ts' hf hx _ ih =>
    intro hp
    unfold blockFind at hf
    split at hf
    · cases hf; cases hx
    · obtain ⟨a, c, h1, h2, h3⟩ := (hs name p hf).ok _ _ hp hx rfl
      simp only at h1 h2 h3
      subst h1 h2
      rw [show Tok.ident name :: (a ++ Tok.nl :: r2) = (Tok.ident name :: (a ++ [.nl])) ++ r2 by simp] at hp
      obtain ⟨body, w, cs, rfl, h5, rfl, h7⟩ := ih hp.right
      refine ⟨(.ident name :: (a ++ [.nl])) ++ body, w, c :: cs, by simp, h5, by simp, ?_⟩
      rcases h3 with (h3 | ⟨_, h3⟩) | h3
      · cases h3
      · cases h3
      · exact ⟨.cons h3.1 h7.1, h3.2, h7.2⟩
  | @okEnd name p d1 d2 d' r ts' hf hx h ih => cases h with | ended h => cases h
  | @nonl name p d1 d2 d' r r2 ts' hf hx hr ih =>
    intro hp
    unfold blockFind at hf
    split at hf
    · cases hf; cases hx
    · obtain ⟨_, a, c, h1, h2, h3⟩ := (hs name p hf).nonl _ _ hp hx rfl
      simp only at h1 h2 h3
      subst h1 h2
      rw [show Tok.ident name :: (a ++ r2) = (Tok.ident name :: a) ++ r2 by simp] at hp
      obtain ⟨body, w, cs, rfl, h5, rfl, h7⟩ := ih hp.right
      refine ⟨(.ident name :: a) ++ body, w, c :: cs, by simp, h5, by simp, ?_⟩
      rcases h3 with (h3 | ⟨_, h3⟩) | h3
      · cases body <;> cases h3
      · cases body with
        | nil => cases h3
        | cons b body =>
          rw [List.cons_append] at h3
          cases h3
          exact (run_eof hr).elim
      · exact ⟨.cons h3.1 h7.1, h3.2, h7.2⟩
  | @fin name p d1 d2 r r2 hf hx =>
    intro hp
    unfold blockFind at hf
    split at hf
    · rename_i hw
      cases hf; cases hx
      exact ⟨[], name, [], rfl, hw, by simp, .nil, trivial⟩
    · exact absurd hx ((hs name p hf).nofin _ _)

theorem matchOp_sound {ts r : List Tok} {op : BoolOp} (h : matchOp ts = some (op, r)) :
    (∃ w, ts = .ident w :: r ∧ (ciEq w b!"and" = true ∧ op = .and ∨ ciEq w b!"or" = true ∧ op = .or)) ∨
      (r = ts ∧ op = .and ∧ ts ≠ [] ∧ ∀ w r', ts ≠ .ident w :: r') := by
  unfold matchOp at h
  split at h
  · rename_i w r'
    split at h
    · rename_i hw
      cases h
      exact Or.inl ⟨w, rfl, Or.inl ⟨hw, rfl⟩⟩
    · split at h
      · rename_i hw
        cases h
        exact Or.inl ⟨w, rfl, Or.inr ⟨hw, rfl⟩⟩
      · cases h
  · cases h
  · cases h
  · cases h
  · rename_i h1 h2 h3 h4
    cases h
    exact Or.inr ⟨rfl, rfl, h4, h1⟩

theorem cond_sound (e : CfgEnv) (d : Dfl) : ∀ n name p, condFind e d n name = some p → CSound e d name p
  | 0, name, p, h => by simp [condFind] at h
  | n + 1, name, p, h => by
    have ih := cond_sound e d n
    have hm := cond_mono e d (n + 1) name p h
    have hnf := fun s s' => cond_nofin e d (n + 1) h s s'
    have hbm : ∀ nm q, blockFind (condFind e d n) nm = some q → MonoP q := fun nm q hq => by
      unfold blockFind at hq
      split at hq
      · cases hq
        intro s s' hs
        simp [endParser, LR.st] at hs
        rw [hs]; exact Nat.le_refl _
      · exact cond_mono e d n nm q hq
    unfold condFind at h
    split at h
    · rename_i k hk
      cases h
      by_cases hkn : k = .not
      · subst hkn
        have hn : ciEq b!"Not" name = true := by
          obtain ⟨a, ha, hn⟩ := kwFind_mem hk
          simp [condTable] at ha
          subst ha
          exact ciEq_trans (b := b!"NOT") (by decide) hn
        refine ⟨?_, ?_, hm, hnf⟩
        · intro s s' hp hs he
          unfold condParser at hs
          simp only [if_true] at hs
          split at hs
          · rename_i s2 hs2
            cases hs
            obtain ⟨h1, h2, a, h3⟩ := (single_sound ih n [] s.toks s.errs s2 hp.tail (hp.noNot hn) he).2 hs2
            exact ⟨a, _, h3, rfl, Or.inl h1⟩
          · cases hs
          · cases hs
          · cases hs
        · intro s s' hp hs he
          unfold condParser at hs
          simp only [if_true] at hs
          split at hs
          · cases hs
          · rename_i s2 hs2
            cases hs
            obtain ⟨bl, a, c, h1, h2, h3, h4⟩ := (single_sound ih n [] s.toks s.errs s2 hp.tail (hp.noNot hn) he).1 hs2
            refine ⟨hn, bl ++ a, _, by rw [h1]; simp, rfl, ?_⟩
            rcases h4 with h4 | h4
            · exact Or.inl h4
            · rw [h3, List.nil_append]
              exact Or.inr ⟨.not hn h2 h4.1, fun _ => ⟨_, rfl⟩, h4.2, trivial⟩
          · cases hs
          · cases hs
      · by_cases hkg : k = .group
        · subst hkg
          have hn : ciEq b!"Match" name = true := by
            obtain ⟨a, ha, hn⟩ := kwFind_mem hk
            simp [condTable] at ha
            subst ha
            exact hn
          refine ⟨?_, ?_, hm, hnf⟩
          · intro s s' hp hs he
            unfold condParser at hs
            rw [if_neg hkn, if_pos rfl] at hs
            simp only [Bool.false_eq_true, if_false] at hs
            split at hs
            · cases hs
            · rename_i op r hop
              split at hs
              · rename_i s2 hs2
                obtain ⟨d2, t2, e2⟩ := s2
                cases hs
                simp only at he
                subst he
                have hrun := cfgL_run hbm true _ _ _ _ _ _ hs2
                rcases matchOp_sound hop with ⟨w, h1, h2⟩ | ⟨rfl, rfl, h2, h3⟩
                · rw [h1] at hp ⊢
                  obtain ⟨body, w', cs, rfl, h5, h6, h7⟩ := block_sound ih hrun hp.tail.tail
                  rw [List.nil_append] at h6
                  subst h6
                  refine ⟨.ident w :: (body ++ [.ident w']), _, by simp, rfl, Or.inr ?_⟩
                  rcases h2 with ⟨h2, rfl⟩ | ⟨h2, rfl⟩
                  · have := CondStmt.group hn (.and h2) h7.1 h5
                    exact ⟨by simpa [condFormula] using this, by simp, h7.2⟩
                  · have := CondStmt.group hn (.or h2) h7.1 h5
                    exact ⟨by simpa [condFormula] using this, by simp, h7.2⟩
                · obtain ⟨r, h4, hrun⟩ := run_nl hrun h3
                  rw [h4] at hp ⊢
                  obtain ⟨body, w', cs, rfl, h5, h6, h7⟩ := block_sound ih hrun hp.tail.tail
                  rw [List.nil_append] at h6
                  subst h6
                  refine ⟨.nl :: (body ++ [.ident w']), _, by simp, rfl, Or.inr ?_⟩
                  have := CondStmt.group hn .none h7.1 h5
                  exact ⟨by simpa [condFormula] using this, by simp, h7.2⟩
              · cases hs
          · intro s s' hp hs he
            unfold condParser at hs
            rw [if_neg hkn, if_pos rfl] at hs
            split at hs
            · cases hs
            · split at hs <;> cases hs
        · refine ⟨?_, ?_, hm, hnf⟩
          · intro s s' hp hs he
            unfold condParser at hs
            rw [if_neg hkn, if_neg hkg] at hs
            split at hs
            · cases hs
            · rename_i c r hc
              cases hs
              obtain ⟨a, h1, h2⟩ := simpleCond_sound hk hp.2 hc
              exact ⟨a, c, h1, rfl, Or.inr ⟨CondStmt.test h2, simpleCond_one hc⟩⟩
          · intro s s' hp hs he
            unfold condParser at hs
            rw [if_neg hkn, if_neg hkg] at hs
            split at hs <;> cases hs
    · cases h

/-! ### Completeness -/

/-- The parser `p` reads the rest `a` of a condition, with its newline, and appends `c`. -/
def Reads (name : Bytes) (a : List Tok) (c : CCond) (p : LParser (List CCond)) : Prop :=
  (ciEq b!"Not" name = true ∧ ∀ x r er, p ⟨x, a ++ r, er⟩ = .nonl ⟨x ++ [c], r, er⟩) ∨
    (ciEq b!"Not" name = false ∧ ∃ a', a = a' ++ [.nl] ∧ ∀ x r er, p ⟨x, a' ++ r, er⟩ = .ok ⟨x ++ [c], r, er⟩)

theorem reads_after {find : Bytes → Option (LParser (List CCond))} {block : Bool} {name : Bytes} {a : List Tok} {c : CCond} {p : LParser (List CCond)} (hf : find name = some p)
    (h : Reads name a c p) (m : Nat) (x : List CCond) (r : List Tok) (er : Nat) :
    cfgL find false block (m + 1) ⟨x, .ident name :: (a ++ r), er⟩ = cfgL find false block m ⟨x ++ [c], r, er⟩ := by
  rw [cfgL_known _ _ _ _ _ _ _ hf]
  rcases h with ⟨_, h⟩ | ⟨_, a', rfl, h⟩
  · rw [h]; rfl
  · rw [List.append_assoc, h]; rfl

theorem cond_not_end {name : Bytes} {k : CondKw} (h : kwFind condTable name = some k) : ciEq b!"End" name = false := by
  cases he : ciEq b!"End" name with
  | false => rfl
  | true => rw [kwFind_none he (by decide)] at h; cases h

theorem condFind_kw {e : CfgEnv} {d : Dfl} {n : Nat} {name : Bytes} {p : LParser (List CCond)} (h : condFind e d n name = some p) : ∃ k, kwFind condTable name = some k := by
  cases n with
  | zero => simp [condFind] at h
  | succ n =>
    unfold condFind at h
    split at h
    · exact ⟨_, ‹_›⟩
    · cases h

/-- There is a condition that is read from `t` and means `f`. -/
def CDone (e : CfgEnv) (d : Dfl) (t : List Tok) (f : Formula CTest) : Prop :=
  ∃ name a c N, t = .ident name :: a ∧ condFormula c = f ∧ ∀ n, N ≤ n → ∃ p, condFind e d n name = some p ∧ Reads name a c p

/-- The same for several -/
def CsDone (e : CfgEnv) (d : Dfl) (t : List Tok) (fs : List (Formula CTest)) : Prop :=
  ∃ cs N j, condFormulas cs = fs ∧ ∀ n, N ≤ n → ∀ m x r er,
    cfgL (blockFind (condFind e d n)) false true (m + j) ⟨x, t ++ r, er⟩ = cfgL (blockFind (condFind e d n)) false true m ⟨x ++ cs, r, er⟩

theorem single_blank {find : Bytes → Option (LParser (List CCond))} {bl : List Tok} (hb : BlankLines bl) (m : Nat) (x : List CCond) (r : List Tok) (er : Nat) :
    cfgL find true false (m + bl.length) ⟨x, bl ++ r, er⟩ = cfgL find true false m ⟨x, r, er⟩ := by
  induction bl with
  | nil => rfl
  | cons t bl ih =>
    have : t = .nl := hb t (by simp)
    subst this
    rw [List.length_cons, ← Nat.add_assoc, List.cons_append, cfgL_nl]
    exact ih (fun t ht => hb t (by simp [ht]))

theorem cDone_test {e : CfgEnv} {d : Dfl} {t : List Tok} {f : Formula CTest} (hp : PlainToks d.reType (t ++ [.nl])) (h : TestStmt e d t f) : CDone e d (t ++ [.nl]) f := by
  obtain ⟨n, a, k, c, rfl, h1, h2, h3, h4, h5⟩ := simpleCond_complete hp.left.2 h
  refine ⟨n, a ++ [.nl], c, 1, rfl, h4, fun m hm => ?_⟩
  obtain ⟨m, rfl⟩ : ∃ m', m = m' + 1 := ⟨m - 1, by omega⟩
  refine ⟨_, by unfold condFind; rw [h1], Or.inr ⟨?_, a, rfl, fun x r er => ?_⟩⟩
  · cases hn : ciEq b!"Not" n with
    | false => rfl
    | true =>
      rw [kwFind_congr _ hn] at h1
      exact absurd (Option.some.inj (h1.symm.trans (by decide : kwFind condTable b!"Not" = some .not))) h2
  · unfold condParser
    rw [if_neg h2, if_neg h3]
    dsimp only
    rw [h5]

theorem cDone_not {e : CfgEnv} {d : Dfl} {n : Bytes} {bl t : List Tok} {f : Formula CTest} (hp : PlainToks d.reType (.ident n :: (bl ++ t))) (hn : ciEq b!"Not" n = true)
    (hb : BlankLines bl) (h : CDone e d t f) : CDone e d (.ident n :: (bl ++ t)) (.not f) := by
  obtain ⟨name, a, c, N, rfl, h1, h2⟩ := h
  refine ⟨n, bl ++ .ident name :: a, .bool .not [c], N + bl.length + 2, rfl, by rw [← h1]; rfl, fun m hm => ?_⟩
  obtain ⟨m, rfl⟩ : ∃ m', m = m' + 1 + bl.length + 1 := ⟨m - bl.length - 2, by omega⟩
  refine ⟨_, by unfold condFind; rw [kwFind_congr _ hn, (by decide : kwFind condTable b!"Not" = some .not)], Or.inl ⟨hn, fun x r er => ?_⟩⟩
  have hnn := hp.noNot hn bl name a rfl hb
  obtain ⟨p, hf, hr⟩ := h2 (m + 1 + bl.length) (by omega)
  unfold condParser
  rw [if_pos rfl]
  simp only [if_true]
  rw [List.append_assoc, single_blank hb, List.cons_append, cfgL_known _ _ _ _ _ _ _ hf]
  rcases hr with ⟨hr, _⟩ | ⟨_, a', rfl, hr⟩
  · rw [hnn] at hr; cases hr
  · rw [List.append_assoc, hr]
    rfl

theorem cDone_group {e : CfgEnv} {d : Dfl} {n w : Bytes} {a t : List Tok} {op : List (Formula CTest) → Formula CTest} {fs : List (Formula CTest)} (hn : ciEq b!"Match" n = true)
    (ha : GroupArg a op) (hw : ciEq b!"End" w = true) (h : CsDone e d t fs) : CDone e d (.ident n :: (a ++ (t ++ [.ident w, .nl]))) (op fs) := by
  obtain ⟨cs, N, j, h1, h2⟩ := h
  have hnn : ciEq b!"Not" n = false := by
    cases hx : ciEq b!"Not" n with
    | false => rfl
    | true =>
      have h1 := kwFind_congr condTable hn
      rw [kwFind_congr condTable hx] at h1
      exact absurd h1 (by decide)
  have hkw : kwFind condTable n = some .group := by rw [kwFind_congr _ hn]; decide
  have key : ∀ m, N ≤ m → j + 2 ≤ m → ∀ r er, cfgL (blockFind (condFind e d m)) false true m ⟨[], t ++ .ident w :: r, er⟩ = .ok ⟨cs, r, er⟩ ∧
      cfgL (blockFind (condFind e d m)) false true m ⟨[], .nl :: (t ++ .ident w :: r), er⟩ = .ok ⟨cs, r, er⟩ := by
    intro m hm hj r er
    refine ⟨?_, ?_⟩
    · obtain ⟨q, hq⟩ : ∃ q, m = (q + 1) + j := ⟨m - j - 1, by omega⟩
      conv => lhs; arg 4; rw [hq]
      rw [h2 m hm (q + 1) [] (.ident w :: r) er, cfgL_known _ _ _ _ _ _ _ (p := endParser) (by unfold blockFind; rw [if_pos hw])]
      rfl
    · obtain ⟨q, hq⟩ : ∃ q, m = (q + 1) + j + 1 := ⟨m - j - 2, by omega⟩
      conv => lhs; arg 4; rw [hq]
      rw [cfgL_nl, h2 m hm (q + 1) [] (.ident w :: r) er, cfgL_known _ _ _ _ _ _ _ (p := endParser) (by unfold blockFind; rw [if_pos hw])]
      rfl
  have run : ∀ op', (∀ r, matchOp (a ++ (t ++ [.ident w] ++ r)) = some (op', t ++ [.ident w] ++ r) ∨ (a = [.nl] ∧ op' = .and)) → condFormula (.bool op' cs) = op fs →
      CDone e d (.ident n :: (a ++ (t ++ [.ident w, .nl]))) (op fs) := by
    intro op' hop hf
    refine ⟨n, a ++ (t ++ [.ident w, .nl]), .bool op' cs, N + j + 3, rfl, hf, fun m hm => ?_⟩
    obtain ⟨m, rfl⟩ : ∃ m', m = m' + 1 := ⟨m - 1, by omega⟩
    refine ⟨_, by unfold condFind; rw [hkw], Or.inr ⟨hnn, a ++ (t ++ [.ident w]), by simp, fun x r er => ?_⟩⟩
    obtain ⟨k1, k2⟩ := key m (by omega) (by omega) r er
    unfold condParser
    rw [if_neg (by decide), if_pos rfl]
    simp only [Bool.false_eq_true, if_false]
    rcases hop r with h | ⟨rfl, rfl⟩
    · rw [List.append_assoc, h]
      dsimp only
      rw [List.append_assoc, List.singleton_append, k1]
    · rw [show [Tok.nl] ++ (t ++ [.ident w]) ++ r = .nl :: (t ++ .ident w :: r) by simp]
      have : matchOp (.nl :: (t ++ .ident w :: r)) = some (.and, .nl :: (t ++ .ident w :: r)) := rfl
      rw [this]
      dsimp only
      rw [k2]
  cases ha with
  | @and w' hw' => exact run .and (fun r => Or.inl (by simp [matchOp, hw'])) (by rw [← h1]; rfl)
  | @or w' hw' =>
    refine run .or (fun r => Or.inl ?_) (by rw [← h1]; rfl)
    have : ciEq w' b!"and" = false := by
      cases hx : ciEq w' b!"and" with
      | false => rfl
      | true => exact absurd (ciEq_trans (ciEq_symm hx) hw') (by decide)
    simp [matchOp, hw', this]
  | none => exact run .and (fun r => Or.inr ⟨rfl, rfl⟩) (by rw [← h1]; rfl)

theorem csDone_cons {e : CfgEnv} {d : Dfl} {t1 t2 : List Tok} {f : Formula CTest} {fs : List (Formula CTest)} (h1 : CDone e d t1 f) (h2 : CsDone e d t2 fs) :
    CsDone e d (t1 ++ t2) (f :: fs) := by
  obtain ⟨name, a, c, N1, rfl, hc, h1⟩ := h1
  obtain ⟨cs, N2, j, hcs, h2⟩ := h2
  refine ⟨c :: cs, N1 + N2, j + 1, by simp [condFormulas, hc, hcs], fun n hn m x r er => ?_⟩
  obtain ⟨p, hf, hr⟩ := h1 n (by omega)
  obtain ⟨k, hk⟩ := condFind_kw hf
  have hb : blockFind (condFind e d n) name = some p := by unfold blockFind; rw [cond_not_end hk]; exact hf
  rw [show Tok.ident name :: a ++ t2 ++ r = .ident name :: (a ++ (t2 ++ r)) by simp, ← Nat.add_assoc, reads_after hb hr, h2 n (by omega)]
  simp

theorem cond_complete {e : CfgEnv} {d : Dfl} {t : List Tok} {f : Formula CTest} (h : CondStmt e d t f) : PlainToks d.reType t → CDone e d t f := by
  refine CondStmt.rec (motive_1 := fun t f _ => PlainToks d.reType t → CDone e d t f) (motive_2 := fun t fs _ => PlainToks d.reType t → CsDone e d t fs) ?_ ?_ ?_ ?_ ?_ ?_ h
  · intro t f h hp
    exact cDone_test hp h
  · intro n bl t f hn hb _ ih hp
    exact cDone_not hp hn hb (ih (PlainToks.right (a := .ident n :: bl) hp))
  · intro n w a t op fs hn ha _ hw ih hp
    exact cDone_group hn ha hw (ih hp.tail.right.left)
  · intro _
    exact ⟨[], 0, 0, rfl, fun n _ m x r er => by simp⟩
  · intro t fs _ ih hp
    obtain ⟨cs, N, j, h1, h2⟩ := ih hp.tail
    exact ⟨cs, N, j + 1, h1, fun n hn m x r er => by rw [← Nat.add_assoc, List.cons_append, cfgL_nl, h2 n hn]⟩
  · intro t1 t2 f fs _ _ ih1 ih2 hp
    exact csDone_cons (ih1 hp.left) (ih2 hp.right)

end Pound
