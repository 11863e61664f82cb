import Verif.Model.Expand
import Verif.Spec.Expand
import Verif.Proof.Exchange

namespace Pound
open Spec

/-! ### Numbers -/

theorem isDigit_iff (c : UInt8) : isDigit c = true ↔ Digit c := by
  revert c; unfold Digit; apply forall_byte; decide +kernel

theorem isXDigit_iff (c : UInt8) : isXDigit c = true ↔ HexDigit c := by
  revert c; unfold HexDigit; apply forall_byte; decide +kernel

theorem digit10_isSome (c : UInt8) : (digit? 10 c).isSome = isDigit c := by
  revert c; apply forall_byte; decide +kernel

theorem digit10_val (c : UInt8) : isDigit c = true → (digit? 10 c).getD 0 = c.toNat - 48 := by
  revert c; apply forall_byte; decide +kernel

theorem isDigit_not_space (c : UInt8) : isDigit c = true → isSpace c = false ∧ c ≠ ch%'-' ∧ c ≠ ch%'+' ∧
    c ≠ ch%'{' ∧ c ≠ ch%'[' ∧ c ≠ ch%'$' ∧ c ≠ ch%'%' ∧ isXDigit c = true := by
  revert c; apply forall_byte; decide +kernel

theorem denotes10 {ds : Bytes} {v : Nat} (h : Denotes 10 ds v) :
    ds ≠ [] ∧ (∀ c ∈ ds, isDigit c = true) ∧ ds.foldl (fun a c => a * 10 + (c.toNat - 48)) 0 = v := by
  obtain ⟨h1, h2, h3⟩ := h
  have hd : ∀ c ∈ ds, isDigit c = true := fun c hc => by rw [← digit10_isSome]; exact h2 c hc
  refine ⟨h1, hd, ?_⟩
  rw [h3]
  clear h3 h2 h1
  have key : ∀ a : Nat, ds.foldl (fun a c => a * 10 + (c.toNat - 48)) a =
      ds.foldl (fun a c => a * 10 + (digit? 10 c).getD 0) a := by
    induction ds with
    | nil => intro a; rfl
    | cons c ds ih =>
      intro a
      simp only [List.foldl_cons, digit10_val c (hd c (by simp))]
      exact ih (fun c hc => hd c (by simp [hc])) _
  exact key 0

theorem strtoul_denotes {ds t : Bytes} {v : Nat} (h : Denotes 10 ds v)
    (ht : NotAt Digit t) :
    strtoul10 (ds ++ t) = (if v < 2 ^ 64 then some v else none, t) := by
  obtain ⟨h1, h2, h3⟩ := denotes10 h
  cases ds with
  | nil => exact absurd rfl h1
  | cons c ds =>
    have hc := isDigit_not_space c (h2 c (by simp))
    have htw : ((c :: ds) ++ t).takeWhile isDigit = c :: ds := by
      apply takeWhile_app h2
      intro d t' e
      have := ht d (by simp [e])
      rw [← isDigit_iff] at this
      simpa using this
    have hdw : ((c :: ds) ++ t).dropWhile isSpace = (c :: ds) ++ t := by
      simp [List.dropWhile_cons, hc.1]
    unfold strtoul10
    rw [hdw]
    simp only [List.cons_append, List.head?_cons, Option.some.injEq, hc.2.1, hc.2.2.1, or_self,
      if_false]
    rw [← List.cons_append, htw, h3]
    simp

theorem strtoul_none {t : Bytes} (ht : NotAt (fun x => Digit x ∨ isSpace x ∨ x = ch%'+' ∨ x = ch%'-') t) :
    strtoul10 t = (some 0, t) := by
  cases t with
  | nil => rfl
  | cons c t =>
    have := ht c rfl
    simp only [not_or, ← isDigit_iff] at this
    obtain ⟨h1, h2, h3, h4⟩ := this
    simp [strtoul10, List.dropWhile_cons, h2, h3, h4, List.takeWhile_cons, h1]

theorem strtoul_rest_le (s : Bytes) : (strtoul10 s).2.length ≤ s.length := by
  unfold strtoul10
  dsimp only
  have h := (List.dropWhile_suffix (l := s) isSpace).length_le
  generalize hu : (if (s.dropWhile isSpace).head? = some ch%'-' ∨ (s.dropWhile isSpace).head? = some ch%'+'
    then (s.dropWhile isSpace).drop 1 else s.dropWhile isSpace) = u
  have hl : u.length ≤ s.length := by
    rw [← hu]
    split
    · simp only [List.length_drop]; omega
    · exact h
  split
  · exact Nat.le_refl _
  · simp only [List.length_drop]; omega

/-! ### The loop -/

theorem expGroup_rest {env str p m g t rest u} (h : expGroup env str p m g = .emit t rest u) :
    rest = p := by
  unfold expGroup at h
  split at h
  · cases h
  · split at h
    · split at h
      · split at h
        · injection h with _ h; exact h.symm
        · cases h
      · injection h with _ h; exact h.symm
    · injection h with _ h; exact h.symm

theorem expRef_rest {env str p brace g t rest u} (h : expRef env str p brace g = .emit t rest u) :
    rest.length ≤ p.length := by
  have hclose : ∀ (p : Bytes) (m : Nat),
      (if brace = true then
        match p with
        | c :: p' => if c = ch%'}' then expGroup env str p' m g else .emit (upTo str p) p .fail
        | [] => .emit (upTo str p) p .fail
      else expGroup env str p m g) = .emit t rest u → rest.length ≤ p.length := by
    intro p m h
    split at h
    · split at h
      · split at h
        · rw [expGroup_rest h]; simp
        · injection h with _ h; simp [← h]
      · injection h with _ h; simp [← h]
    · rw [expGroup_rest h]; simp
  unfold expRef at h
  dsimp only at h
  split at h
  · have hs := strtoul_rest_le (p.drop 1)
    simp only [List.length_drop] at hs
    split at h
    · rename_i e; rw [e] at hs; injection h with _ h; rw [← h]; simp only at hs; omega
    · rename_i e; rw [e] at hs; simp only at hs
      split at h
      · simp only [List.length_cons] at hs
        split at h
        · split at h
          · injection h with _ h; rw [← h]; simp; omega
          · have := hclose _ _ h; omega
        · injection h with _ h; rw [← h]; simp; omega
      · injection h with _ h; rw [← h]; simp
  · exact hclose _ _ h

theorem expandStep_rest {env str t rest u} (h : expandStep env str = .emit t rest u) :
    rest.length < str.length := by
  unfold expandStep at h
  split at h
  · cases h
  · cases h
  · rename_i a b s
    split at h
    · injection h with _ h; simp [← h]; omega
    · split at h
      · injection h with _ h
        subst h
        simp; omega
      · split at h
        · dsimp only at h
          split at h
          · injection h with _ h; simp [← h]; omega
          · rename_i e
            have hl : (s.drop (s.takeWhile notBracket).length).length ≤ s.length := by simp
            rw [e] at hl
            simp only [List.length_cons] at hl
            split at h
            · cases h
            · split at h <;> simp only [ExpStep.emit.injEq, reduceCtorEq] at h
              all_goals (obtain ⟨-, h, -⟩ := h; simp [← h]; omega)
        · split at h
          · split at h
            · injection h with _ h; simp [← h]; omega
            · rename_i e
              have := expRef_rest h
              have hs := strtoul_rest_le (if b = ch%'{' then s else b :: s)
              rw [e] at hs
              simp only [List.length_cons]
              split at hs
              · simp only at hs; omega
              · simp only [List.length_cons] at hs; omega
          · injection h with _ h; simp [← h]

theorem expandLoop_fuel (env : ExpEnv) (f1 f2 : Nat) (str out : Bytes) (r : Int)
    (h1 : str.length < f1) (h2 : str.length < f2) :
    expandLoop env f1 str out r = expandLoop env f2 str out r := by
  induction f1 generalizing f2 str out r with
  | zero => omega
  | succ f1 ih =>
    cases f2 with
    | zero => omega
    | succ f2 =>
      unfold expandLoop
      dsimp only
      have hl : (str.drop (str.takeWhile notSign).length).length ≤ str.length := by simp
      split
      · rfl
      · rename_i e
        rw [e] at hl
        split
        · rename_i he
          have := expandStep_rest he
          exact ih _ _ _ _ (by omega) (by omega)
        · rfl
        · rfl

/-- The loop with enough fuel. -/
def expRun (env : ExpEnv) (str out : Bytes) (r : Int) : ExpRes :=
  expandLoop env (str.length + 1) str out r

theorem expRun_nil (env : ExpEnv) (out : Bytes) (r : Int) : expRun env [] out r = .ok out r := by
  simp [expRun, expandLoop]

theorem expRun_sign {env : ExpEnv} {c : UInt8} {s out : Bytes} {r : Int} (hc : notSign c = false)
    {t rest u} (h : expandStep env (c :: s) = .emit t rest u) :
    expRun env (c :: s) out r = expRun env rest (out ++ t) (u.apply r) := by
  have hr := expandStep_rest h
  unfold expRun
  conv => lhs; unfold expandLoop
  simp only [List.takeWhile_cons, hc, Bool.false_eq_true, if_false, List.length_nil, List.drop_zero,
    List.append_nil, h]
  exact expandLoop_fuel _ _ _ _ _ _ hr (by omega)

theorem expandLoop_lit (env : ExpEnv) (f : Nat) (lit str out : Bytes) (r : Int)
    (h : ∀ c ∈ lit, notSign c = true) :
    expandLoop env f (lit ++ str) out r = expandLoop env f str (out ++ lit) r := by
  cases f with
  | zero => rfl
  | succ f =>
    unfold expandLoop
    dsimp only
    have e1 : (lit ++ str).takeWhile notSign = lit ++ str.takeWhile notSign := by
      rw [List.takeWhile_append_of_pos h]
    have e2 : (lit ++ str).drop (lit ++ str.takeWhile notSign).length =
        str.drop (str.takeWhile notSign).length := by
      rw [List.length_append, ← List.drop_drop, List.drop_left]
    rw [e1, e2]
    split
    · simp
    · split
      · rename_i e _ _ _ _
        simp
      · rfl
      · rfl

theorem expRun_lit {env : ExpEnv} {lit str out : Bytes} {r : Int}
    (h : ∀ c ∈ lit, notSign c = true) :
    expRun env (lit ++ str) out r = expRun env str (out ++ lit) r := by
  unfold expRun
  rw [expandLoop_lit env _ lit str out r h]
  exact expandLoop_fuel _ _ _ _ _ _ (by simp; omega) (by omega)

/-- The model's result for a value of the specification. -/
def accRes : AccVal → AccRes
  | .unknown => .unknown
  | .nothing => .absent
  | .text v => .val v

/-- The environment of the model shows what the one of the specification says. -/
structure Sees (env : ExpEnv) (E : Env) : Prop where
  lo : ∀ m, m < 8 → ∃ sm, env.smq.get m = .ok sm ∧
    ((sm.subject = none ∧ E.groups m = none) ∨
     ∃ s gs, sm.subject = some s ∧ E.groups m = some gs ∧ GroupsAt s sm.matchv gs ∧ sm.matchn = gs.length)
  hi : ∀ m, 8 ≤ m → E.groups m = none
  acc : ∀ h, E.accessor = some h → ∃ f, env.acc = some f ∧ ∀ nm v, h nm v → f nm = accRes v
  noacc : E.accessor = none → env.acc = none

theorem groupsAt_text {subject os gs} (h : GroupsAt subject os gs) (g : Nat) (s : Bytes)
    (hg : gs[g]? = some s) (n : Nat) (sub : Option Bytes) :
    Submatch.groupText ⟨sub, n, os⟩ subject g = .ok s := by
  induction h generalizing g with
  | nil => simp at hg
  | unset _ ih =>
    cases g with
    | zero => simp at hg; subst hg; simp [Submatch.groupText]
    | succ g =>
      have := ih g (by simpa using hg)
      simpa [Submatch.groupText] using this
  | @set a x b os gs e _ ih =>
    cases g with
    | zero =>
      simp at hg; subst hg
      simp only [Submatch.groupText, List.getElem?_cons_zero]
      split
      · rename_i h0
        have : x.length = 0 := by omega
        rw [List.length_eq_zero_iff] at this
        rw [this]
      · rw [if_pos (by rw [e]; simp; omega)]
        have h1 : ((a.length : Int)).toNat = a.length := by omega
        have h2 : ((a.length : Int) + x.length - a.length).toNat = x.length := by omega
        rw [h1, h2, e]
        simp
    | succ g =>
      have := ih g (by simpa using hg)
      simpa [Submatch.groupText] using this

theorem groupsAt_length {subject os gs} (h : GroupsAt subject os gs) : os.length = gs.length := by
  induction h <;> simp_all

theorem expGroup_some {env E} (hE : Sees env E) {str p : Bytes} {m g : Nat} {gs s}
    (h1 : E.groups m = some gs) (h2 : gs[g]? = some s) :
    expGroup env str p m g = .emit s p .inc := by
  have hm : m < 8 := by
    apply Classical.byContradiction
    intro h
    rw [hE.hi m (by omega)] at h1
    cases h1
  obtain ⟨sm, h3, h4⟩ := hE.lo m hm
  unfold expGroup
  rw [h3]
  rcases h4 with ⟨_, h4⟩ | ⟨sub, gs', h4, h5, h6, h7⟩
  · rw [h4] at h1; cases h1
  · rw [h5] at h1
    injection h1 with h1; subst h1
    simp only [h4]
    have hg : g < gs'.length := by
      apply Classical.byContradiction
      intro h
      rw [List.getElem?_eq_none (by omega)] at h2
      cases h2
    rw [if_pos (by omega)]
    have := groupsAt_text h6 g s h2 sm.matchn sm.subject
    rw [this]

theorem expGroup_none {env E} (hE : Sees env E) {str p : Bytes} {m g : Nat} (hm : m < 8)
    (h1 : ∀ gs, E.groups m = some gs → gs.length < g) :
    expGroup env str p m g = .emit (upTo str p) p .fail := by
  obtain ⟨sm, h3, h4⟩ := hE.lo m hm
  unfold expGroup
  rw [h3]
  rcases h4 with ⟨h4, _⟩ | ⟨sub, gs', h4, h5, h6, h7⟩
  · simp only [h4]
  · simp only [h4]
    have := h1 _ h5
    rw [if_neg (by omega)]

theorem notAt_mono {p q : UInt8 → Prop} {t : Bytes} (h : NotAt p t) (hpq : ∀ c, q c → p c) :
    NotAt q t := fun c hc hq => h c hc (hpq c hq)

theorem notAt_cons {p : UInt8 → Prop} {c : UInt8} {t : Bytes} (h : ¬ p c) : NotAt p (c :: t) := by
  intro d hd
  simp at hd
  subst hd
  exact h

theorem not_digit_lit : ¬ Digit ch%'(' ∧ ¬ Digit ch%')' ∧ ¬ Digit ch%'}' := by
  unfold Digit; decide

/-- A step at a sign followed by a digit. -/
theorem step_digits {env : ExpEnv} {c : UInt8} {ds t : Bytes} {g : Nat} (hd : Denotes 10 ds g)
    (ht : NotAt Digit t) (hg : g < 2 ^ 64)
    (hc : c = ch%'$' ∨ (c = ch%'%' ∧ ∃ d, ds = [d] ∧ NotAt HexDigit t)) :
    expandStep env (c :: (ds ++ t)) = expRef env (c :: (ds ++ t)) t false g := by
  obtain ⟨h1, h2, h3⟩ := denotes10 hd
  have hs := strtoul_denotes hd ht
  rw [if_pos hg] at hs
  cases ds with
  | nil => exact absurd rfl h1
  | cons d ds =>
    obtain ⟨_, _, _, hb, hk, h36, h37, hx⟩ := isDigit_not_space d (h2 d (by simp))
    unfold expandStep
    simp only [List.cons_append] at hs ⊢
    simp only [h36, h37, or_self, and_false, if_false, hb, hk, hx, true_and, h2 d (by simp), or_true, if_true]
    rw [if_neg]
    · rw [hs]
      have : (d == ch%'{') = false := by simpa using hb
      simp only [this]
    · rintro ⟨h4, h5⟩
      rcases hc with rfl | ⟨_, d', e, hx'⟩
      · revert h4; decide
      · simp at e
        obtain ⟨rfl, rfl⟩ := e
        cases t with
        | nil => simp at h5
        | cons x t =>
          simp at h5
          exact hx' x rfl ((isXDigit_iff x).1 h5)

/-- A step at a sign followed by a brace and a number. -/
theorem step_brace {env : ExpEnv} {c : UInt8} {ds t : Bytes} {g : Nat} (hd : Denotes 10 ds g)
    (ht : NotAt Digit t) (hg : g < 2 ^ 64) :
    expandStep env (c :: ch%'{' :: (ds ++ t)) = expRef env (c :: ch%'{' :: (ds ++ t)) t true g := by
  have hs := strtoul_denotes hd ht
  rw [if_pos hg] at hs
  unfold expandStep
  have h1 : ¬ (c = ch%'$' ∧ (ch%'{' = ch%'$' ∨ ch%'{' = ch%'%')) := by
    rintro ⟨_, h⟩; revert h; decide
  have h2 : ¬ (c = ch%'%' ∧ isXDigit ch%'{' = true ∧ ((ds ++ t).head?.map isXDigit) = some true) := by
    rintro ⟨_, h, _⟩; revert h; decide
  have h3 : ¬ (env.acc.isSome ∧ c = ch%'%' ∧ ch%'{' = ch%'[') := by
    rintro ⟨_, _, h⟩; revert h; decide
  simp only [h1, h2, h3, if_false, true_or, if_true, hs]
  rfl

theorem expRef_plain {env : ExpEnv} {c : UInt8} {s p : Bytes} {g : Nat}
    (h : c ≠ ch%'$' ∨ NotAt (· = ch%'(') p) :
    expRef env (c :: s) p false g = expGroup env (c :: s) p (if c = ch%'$' then 0 else 1) g := by
  unfold expRef
  dsimp only
  rw [if_neg]
  · simp
  · rintro ⟨h1, h2⟩
    simp at h1
    rcases h with h | h
    · exact h h1
    · exact h _ h2 rfl

theorem expRef_brace {env : ExpEnv} {c : UInt8} {s p : Bytes} {g : Nat} :
    expRef env (c :: s) (ch%'}' :: p) true g = expGroup env (c :: s) p (if c = ch%'$' then 0 else 1) g := by
  unfold expRef
  dsimp only
  rw [if_neg]
  · simp
  · rintro ⟨h1, h2⟩
    simp at h2

theorem expRef_hist {env : ExpEnv} {s ms p : Bytes} {g m : Nat} (hm : Denotes 10 ms m) (h8 : m < 8) :
    expRef env (ch%'$' :: s) (ch%'(' :: (ms ++ ch%')' :: p)) false g = expGroup env (ch%'$' :: s) p m g := by
  have hs := strtoul_denotes (t := ch%')' :: p) hm (notAt_cons not_digit_lit.2.1)
  rw [if_pos (by omega)] at hs
  unfold expRef
  simp only [List.head?_cons, and_self, if_true, List.drop_one, List.tail_cons, hs, smqSize]
  simp [Nat.not_le.2 h8]

theorem expRef_histBrace {env : ExpEnv} {s ms p : Bytes} {g m : Nat} (hm : Denotes 10 ms m) (h8 : m < 8) :
    expRef env (ch%'$' :: s) (ch%'(' :: (ms ++ ch%')' :: ch%'}' :: p)) true g =
      expGroup env (ch%'$' :: s) p m g := by
  have hs := strtoul_denotes (t := ch%')' :: ch%'}' :: p) hm (notAt_cons not_digit_lit.2.1)
  rw [if_pos (by omega)] at hs
  unfold expRef
  simp only [List.head?_cons, and_self, if_true, List.drop_one, List.tail_cons, hs, smqSize]
  simp [Nat.not_le.2 h8]

/-- References to matches that are no longer remembered fail before the closing parenthesis. -/
theorem expRef_forgotten {env : ExpEnv} {s ms p : Bytes} {g m : Nat} {br : Bool} (hm : Denotes 10 ms m)
    (h8 : 8 ≤ m) :
    ∃ t, expRef env (ch%'$' :: s) (ch%'(' :: (ms ++ ch%')' :: p)) br g = .emit t (ch%')' :: p) .fail := by
  have hs := strtoul_denotes (t := ch%')' :: p) hm (notAt_cons not_digit_lit.2.1)
  unfold expRef
  simp only [List.head?_cons, and_self, if_true, List.drop_one, List.tail_cons, hs, smqSize]
  by_cases h : m < 2 ^ 64
  · simp only [h, if_true, ge_iff_le, h8]
    exact ⟨_, rfl⟩
  · simp only [h, if_false]
    exact ⟨_, rfl⟩

theorem ref_run {env E} (hE : Sees env E) {w t : Bytes} {g m : Nat} (h : Ref w t g m) (hg : g < 2 ^ 64) :
    (∀ gs s, E.groups m = some gs → gs[g]? = some s → ∀ out r, 
      expRun env (w ++ t) out r = expRun env t (out ++ s) (Upd.inc.apply r)) ∧
    ((∀ gs, E.groups m = some gs → gs.length < g) → ∀ out r, ∃ out',
      expRun env (w ++ t) out r = expRun env t out' (-1)) := by
  have sgn : notSign ch%'$' = false ∧ notSign ch%'%' = false := by decide
  have main : (∃ c s, w ++ t = c :: s ∧ notSign c = false ∧
        expandStep env (c :: s) = expGroup env (c :: s) t m g ∧ m < 8) ∨
      (8 ≤ m ∧ ∃ c s x y lit, w ++ t = c :: s ∧ notSign c = false ∧
        expandStep env (c :: s) = .emit x y .fail ∧ y = lit ++ t ∧ ∀ c ∈ lit, notSign c = true) := by
    cases h with
    | @plain ds _ _ hd ht =>
      left
      refine ⟨ch%'$', ds ++ t, rfl, sgn.1, ?_, by omega⟩
      rw [step_digits hd (notAt_mono ht fun c hc => .inl hc) hg (.inl rfl),
        expRef_plain (.inr (notAt_mono ht fun c hc => .inr hc))]
      rfl
    | @braced ds _ _ hd =>
      left
      refine ⟨ch%'$', ch%'{' :: (ds ++ ch%'}' :: t), by simp, sgn.1, ?_, by omega⟩
      rw [step_brace hd (notAt_cons not_digit_lit.2.2) hg, expRef_brace]
      rfl
    | @hist ds ms _ _ _ hd hm =>
      by_cases h8 : m < 8
      · left
        refine ⟨ch%'$', ds ++ ch%'(' :: (ms ++ ch%')' :: t), by simp, sgn.1, ?_, h8⟩
        rw [step_digits hd (notAt_cons not_digit_lit.1) hg (.inl rfl), expRef_hist hm h8]
      · right
        refine ⟨by omega, ch%'$', ds ++ ch%'(' :: (ms ++ ch%')' :: t), ?_⟩
        obtain ⟨x, hx⟩ := expRef_forgotten (env := env) (s := ds ++ ch%'(' :: (ms ++ ch%')' :: t))
          (p := t) (g := g) (br := false) hm (by omega)
        refine ⟨x, _, b!")", by simp, sgn.1, ?_, rfl, by decide⟩
        rw [step_digits hd (notAt_cons not_digit_lit.1) hg (.inl rfl), hx]
        rfl
    | @bracedHist ds ms _ _ _ hd hm =>
      by_cases h8 : m < 8
      · left
        refine ⟨ch%'$', ch%'{' :: (ds ++ ch%'(' :: (ms ++ ch%')' :: ch%'}' :: t)), by simp, sgn.1, ?_, h8⟩
        rw [step_brace hd (notAt_cons not_digit_lit.1) hg, expRef_histBrace hm h8]
      · right
        refine ⟨by omega, ch%'$', ch%'{' :: (ds ++ ch%'(' :: (ms ++ ch%')' :: ch%'}' :: t)), ?_⟩
        obtain ⟨x, hx⟩ := expRef_forgotten (env := env)
          (s := ch%'{' :: (ds ++ ch%'(' :: (ms ++ ch%')' :: ch%'}' :: t)))
          (p := ch%'}' :: t) (g := g) (br := true) hm (by omega)
        refine ⟨x, _, b!")}", by simp, sgn.1, ?_, rfl, by decide⟩
        rw [step_brace hd (notAt_cons not_digit_lit.1) hg, hx]
        rfl
    | @old d _ _ hd ht =>
      left
      refine ⟨ch%'%', [d] ++ t, rfl, sgn.2, ?_, by omega⟩
      rw [step_digits hd (notAt_mono ht ?_) hg (.inr ⟨rfl, d, rfl, ht⟩), expRef_plain (.inl (by decide))]
      · rfl
      · intro c hc
        exact .inl hc
    | @oldBraced ds _ _ hd =>
      left
      refine ⟨ch%'%', ch%'{' :: (ds ++ ch%'}' :: t), by simp, sgn.2, ?_, by omega⟩
      rw [step_brace hd (notAt_cons not_digit_lit.2.2) hg, expRef_brace]
      rfl
  rcases main with ⟨c, s, e, hc, hst, h8⟩ | ⟨h8, c, s, x, y, lit, e, hc, hst, hy, hl⟩
  · constructor
    · intro gs s' h1 h2 out r
      rw [e, expRun_sign hc (by rw [hst]; exact expGroup_some hE h1 h2)]
    · intro h1 out r
      refine ⟨out ++ upTo (c :: s) t, ?_⟩
      rw [e, expRun_sign hc (by rw [hst]; exact expGroup_none hE h8 h1)]
      rfl
  · constructor
    · intro gs s' h1
      rw [hE.hi m h8] at h1
      cases h1
    · intro _ out r
      refine ⟨out ++ x ++ lit, ?_⟩
      rw [e, expRun_sign hc hst, hy, expRun_lit hl]
      rfl

/-- Effect of a construct on the return value. -/
def afterItem (x : Option (Bytes × Nat)) (r : Int) : Int :=
  match x with
  | some (_, 0) => r
  | some (_, _ + 1) => Upd.inc.apply r
  | none => -1

theorem item_run {env E} (hE : Sees env E) {w t : Bytes} {x}
    (hsz : ∀ m gs, E.groups m = some gs → gs.length < 2 ^ 64)
    (h : Item E (okScope E) w t x) (out : Bytes) (r : Int) :
    ∃ out', expRun env (w ++ t) out r = expRun env t out' (afterItem x r) ∧
      ∀ s k, x = some (s, k) → out' = out ++ s := by
  have sgn : notSign ch%'$' = false ∧ notSign ch%'%' = false := by decide
  have accStep : ∀ (nm : Bytes) (f : Bytes → AccRes), env.acc = some f → ch%']' ∉ nm →
      expandStep env (b!"%[" ++ nm ++ b!"]" ++ t) = (match f nm with
          | .unknown => .emit (b!"%[" ++ nm ++ b!"]") t .same
          | .absent => .emit [] t .same
          | .val v => .emit v t .inc
          | .ub => .ub
          | .stuck => .stuck) := by
    intro nm f hf hnm
    have e1 : (nm ++ ch%']' :: t).takeWhile notBracket = nm := by
      apply takeWhile_app
      · intro c hc
        have : c ≠ ch%']' := fun e => hnm (e ▸ hc)
        simpa [notBracket] using this
      · intro c t' e; injection e with e _; subst e; decide
    have e2 : (nm ++ ch%']' :: t).drop nm.length = ch%']' :: t := by simp
    have h2 : ¬ (ch%'%' = ch%'%' ∧ isXDigit ch%'[' = true ∧
        ((nm ++ ch%']' :: t).head?.map isXDigit) = some true) := by
      rintro ⟨_, h, _⟩; revert h; decide
    have : b!"%[" ++ nm ++ b!"]" ++ t = ch%'%' :: ch%'[' :: (nm ++ ch%']' :: t) := by simp
    rw [this]
    unfold expandStep
    dsimp only
    rw [if_neg (by decide), if_neg h2]
    simp only [hf, Option.isSome_some, and_self, if_true, e1, e2]
    have hu : upTo (ch%'%' :: ch%'[' :: (nm ++ ch%']' :: t)) t = b!"%[" ++ nm ++ b!"]" := by
      have : nm.length + (t.length + 1) + 1 + 1 - t.length = nm.length + 3 := by omega
      have h3 : nm.length + 1 - nm.length = 1 := by omega
      simp [upTo, this, List.take_append, h3]
      exact List.take_of_length_le (by omega)
    cases f nm <;> simp only [hu]
  cases h with
  | @text c _ h1 h2 =>
    refine ⟨out ++ [c], ?_, ?_⟩
    · exact expRun_lit (by intro d hd; simp at hd; subst hd; simp [notSign, h1, h2])
    · intro s k e; simp at e; rw [e.1]
  | dollar =>
    refine ⟨out ++ b!"$", ?_, ?_⟩
    · exact expRun_sign (s := ch%'$' :: t) (u := .same) sgn.1 (by simp [expandStep])
    · intro s k e; simp at e; rw [← e.1]
  | percent h => exact absurd h id
  | @escape a b _ ha hb =>
    refine ⟨out ++ [ch%'%', a, b], ?_, ?_⟩
    · refine expRun_sign (u := .same) sgn.2 ?_
      simp [expandStep, (isXDigit_iff a).2 ha, (isXDigit_iff b).2 hb]
    · intro s k e; simp at e; rw [← e.1]
  | @group _ _ g m gs s h1 h2 h3 =>
    refine ⟨out ++ s, ?_, ?_⟩
    · have hg : g < gs.length := by
        apply Classical.byContradiction
        intro h
        rw [List.getElem?_eq_none (by omega)] at h3
        cases h3
      have := hsz m gs h2
      exact (ref_run hE h1 (by omega)).1 gs s h2 h3 out r
    · intro s k e; simp at e; rw [← e.1]
  | @noGroup _ _ g m h1 h2 h3 h4 =>
    obtain ⟨out', ho⟩ := (ref_run hE h1 h3).2 (fun gs hgs => by
      have := h2 gs hgs
      have := h4 gs hgs
      omega) out r
    exact ⟨out', ho, fun s k e => by cases e⟩
  | @accText nm _ h v h1 h2 h3 =>
    obtain ⟨f, hf, hv⟩ := hE.acc h h1
    refine ⟨out ++ v, ?_, ?_⟩
    · refine expRun_sign (s := ch%'[' :: (nm ++ b!"]" ++ t)) (u := .inc) sgn.2 ?_
      have := accStep nm f hf h2
      simp only [hv _ _ h3, accRes] at this
      simpa using this
    · intro s k e; simp at e; rw [← e.1]
  | @accNothing nm _ h h1 h2 h3 =>
    obtain ⟨f, hf, hv⟩ := hE.acc h h1
    refine ⟨out ++ [], ?_, ?_⟩
    · refine expRun_sign (s := ch%'[' :: (nm ++ b!"]" ++ t)) (u := .same) sgn.2 ?_
      have := accStep nm f hf h2
      simp only [hv _ _ h3, accRes] at this
      simpa using this
    · intro s k e; simp at e; rw [← e.1]
  | @accUnknown nm _ h h1 h2 h3 =>
    obtain ⟨f, hf, hv⟩ := hE.acc h h1
    refine ⟨out ++ (b!"%[" ++ nm ++ b!"]"), ?_, ?_⟩
    · refine expRun_sign (s := ch%'[' :: (nm ++ b!"]" ++ t)) (u := .same) sgn.2 ?_
      have := accStep nm f hf h2
      simp only [hv _ _ h3, accRes] at this
      simpa using this
    · intro s k e; simp at e; rw [← e.1]; simp
  | accUnclosed h1 h2 =>
    obtain ⟨h, hh⟩ := Option.isSome_iff_exists.1 h1
    obtain ⟨f, hf, _⟩ := hE.acc h hh
    refine ⟨out ++ b!"%[", ?_, fun s k e => by cases e⟩
    refine expRun_sign (u := .fail) sgn.2 ?_
    have e1 : t.takeWhile notBracket = t := by
      have h3 := takeWhile_app (p := notBracket) (a := t) (b := []) (fun c hc => by
        have : c ≠ ch%']' := fun e => h2 (e ▸ hc)
        simpa [notBracket] using this) (fun c t' e => by cases e)
      rwa [List.append_nil] at h3
    have hx : isXDigit ch%'[' = false := by decide
    simp [expandStep, hf, e1, hx]
  | @strayDollar d t h1 h2 h3 h4 =>
    refine ⟨out ++ b!"$", ?_, fun s k e => by cases e⟩
    refine expRun_sign (u := .fail) sgn.1 ?_
    rw [← isDigit_iff] at h4
    simp [expandStep, h1, h2, h3, h4]
  | @strayPercent d t h1 h2 h3 h4 =>
    refine ⟨out ++ b!"%", ?_, fun s k e => by cases e⟩
    refine expRun_sign (u := .fail) sgn.2 ?_
    rw [← isDigit_iff] at h4
    unfold expandStep
    have n2 : ¬ (ch%'%' = ch%'%' ∧ isXDigit d = true ∧ (t.head?.map isXDigit) = some true) := by
      rintro ⟨_, h5, h6⟩
      apply h1
      refine ⟨(isXDigit_iff d).1 h5, ?_⟩
      intro h7
      cases t with
      | nil => simp at h6
      | cons x t => simp at h6; exact h7 x rfl ((isXDigit_iff x).1 h6)
    have n3 : ¬ (env.acc.isSome ∧ ch%'%' = ch%'%' ∧ d = ch%'[') := by
      rintro ⟨h5, _, h6⟩
      apply h2
      refine ⟨?_, h6⟩
      cases hh : E.accessor with
      | none => rw [hE.noacc hh] at h5; cases h5
      | some h => rfl
    have n4 : ¬ (d = ch%'{' ∨ isDigit d = true) := by
      rintro (h | h)
      · exact h3 h
      · exact h4 h
    show (if _ then _ else _) = _
    have n1 : ¬ (ch%'%' = ch%'$' ∧ (d = ch%'$' ∨ d = ch%'%')) := by
      rintro ⟨h, _⟩; revert h; decide
    rw [if_neg n1, if_neg n2, if_neg n3, if_neg n4]
  | @badBrace c _ hc ht =>
    refine ⟨out ++ [c, ch%'{'], ?_, fun s k e => by cases e⟩
    refine expRun_sign (u := .fail) (by rcases hc with rfl | rfl <;> decide) ?_
    have hs := strtoul_none (notAt_mono ht (q := fun x => Digit x ∨ isSpace x ∨ x = ch%'+' ∨ x = ch%'-') (by
      intro x hx
      rcases hx with h | h | h | h
      · exact .inl h
      · exact .inr (.inl h)
      · exact .inr (.inr (.inl h))
      · exact .inr (.inr (.inr (.inl h)))))
    have h1 : ¬ (c = ch%'$' ∧ (ch%'{' = ch%'$' ∨ ch%'{' = ch%'%')) := by
      rintro ⟨_, h⟩; revert h; decide
    have h2 : ¬ (c = ch%'%' ∧ isXDigit ch%'{' = true ∧ (t.head?.map isXDigit) = some true) := by
      rintro ⟨_, h, _⟩; revert h; decide
    have h3 : ¬ (env.acc.isSome ∧ c = ch%'%' ∧ ch%'{' = ch%'[') := by
      rintro ⟨_, _, h⟩; revert h; decide
    have hp : t.head? ≠ some ch%'(' := fun h => ht _ h (by simp)
    have hq : t.head? ≠ some ch%'}' := fun h => ht _ h (by simp)
    show expandStep env (c :: ch%'{' :: t) = _
    unfold expandStep
    simp only [h1, h2, h3, if_false, true_or, if_true, hs, expRef, hp, and_false, beq_self_eq_true]
    have hu : upTo (c :: ch%'{' :: t) t = [c, ch%'{'] := by
      have : t.length + 1 + 1 - t.length = 2 := by omega
      simp [upTo, this]
    cases t with
    | nil => simp [upTo]
    | cons y t =>
      have : y ≠ ch%'}' := fun e => hq (by simp [e])
      simp only [this, if_false, hu]
  | @unclosedBrace c ds g _ hc hd hg ht =>
    have hp : t.head? ≠ some ch%'(' := fun h => ht _ h (by simp)
    have hq : t.head? ≠ some ch%'}' := fun h => ht _ h (by simp)
    have hst := step_brace (env := env) (c := c) hd (notAt_mono ht fun x hx => .inl hx) hg
    have : ∃ x, expRef env (c :: ch%'{' :: (ds ++ t)) t true g = .emit x t .fail := by
      unfold expRef
      simp only [hp, and_false, if_false, if_true]
      cases t with
      | nil => exact ⟨_, rfl⟩
      | cons y t =>
        have : y ≠ ch%'}' := fun e => hq (by simp [e])
        simp only [this, if_false]
        exact ⟨_, rfl⟩
    obtain ⟨x, hx⟩ := this
    refine ⟨out ++ x, ?_, fun s k e => by cases e⟩
    refine expRun_sign (u := .fail) (by rcases hc with rfl | rfl <;> decide) ?_
    exact hst.trans hx
  | @unclosedParen ds ms g m _ hd hm hg ht =>
    have hq : t.head? ≠ some ch%')' := fun h => ht _ h (by simp)
    have hst := step_digits (env := env) (t := ch%'(' :: (ms ++ t)) hd (notAt_cons not_digit_lit.1) hg (.inl rfl)
    have hs := strtoul_denotes (t := t) hm (notAt_mono ht fun x hx => .inl hx)
    have : ∃ x, expRef env (ch%'$' :: (ds ++ ch%'(' :: (ms ++ t))) (ch%'(' :: (ms ++ t)) false g =
        .emit x t .fail := by
      unfold expRef
      simp only [List.head?_cons, and_self, if_true, List.drop_one, List.tail_cons, hs]
      by_cases h : m < 2 ^ 64
      · simp only [h, if_true]
        cases t with
        | nil => exact ⟨_, rfl⟩
        | cons y t =>
          have : y ≠ ch%')' := fun e => hq (by simp [e])
          simp only [this, if_false]
          exact ⟨_, rfl⟩
      · simp only [h, if_false]
        exact ⟨_, rfl⟩
    obtain ⟨x, hx⟩ := this
    refine ⟨out ++ x, ?_, fun s k e => by cases e⟩
    have e : b!"$" ++ ds ++ b!"(" ++ ms ++ t = ch%'$' :: (ds ++ ch%'(' :: (ms ++ t)) := by simp
    rw [e]
    exact expRun_sign (u := .fail) sgn.1 (hst.trans hx)

theorem expands_run {env E} (hE : Sees env E) {t : Bytes} {x}
    (hsz : ∀ m gs, E.groups m = some gs → gs.length < 2 ^ 64)
    (h : Expands E (okScope E) t x) (out : Bytes) (r : Int) (hr : -1 ≤ r) :
    ∃ o v, expRun env t out r = .ok o v ∧
      (∀ s k, x = some (s, k) → o = out ++ s ∧ v = if 0 ≤ r then r + k else -1) ∧
      (x = none → v = -1) := by
  induction h generalizing out r with
  | nil =>
    refine ⟨out, r, expRun_nil _ _ _, ?_, by simp⟩
    intro s k e
    simp at e
    obtain ⟨rfl, rfl⟩ := e
    constructor
    · simp
    · split <;> omega
  | @cons w t x y hi _ ih =>
    obtain ⟨out', h1, h2⟩ := item_run hE hsz hi out r
    have hv : -1 ≤ afterItem x r := by
      unfold afterItem
      split
      · exact hr
      · simp only [Upd.apply]; split <;> omega
      · omega
    obtain ⟨o, v, h3, h4, h5⟩ := ih out' (afterItem x r) hv
    refine ⟨o, v, h1.trans h3, ?_, ?_⟩
    · intro s k e
      split at e
      · rename_i x' s1 k1 s2 k2 _
        injection e with e
        injection e with e1 e2
        obtain ⟨h6, h7⟩ := h4 _ _ rfl
        rw [h6, h2 _ _ rfl, ← e1]
        refine ⟨by simp, ?_⟩
        have hk : k1 = 0 ∨ k1 = 1 := by cases hi <;> simp
        have hq : afterItem (some (s1, k1)) r = if 0 ≤ r then r + k1 else r := by
          rcases hk with rfl | rfl
          · simp [afterItem]
          · simp [afterItem, Upd.apply]
        generalize afterItem (some (s1, k1)) r = q at h7 hq
        rw [h7, hq, ← e2]
        by_cases h0 : 0 ≤ r
        · simp only [h0, if_true]
          rw [if_pos (by omega)]
          omega
        · simp only [h0, if_false]
      · cases e
    · intro e
      cases hx : x with
      | none =>
        cases hy : y with
        | none => exact h5 hy
        | some p =>
          obtain ⟨s2, k2⟩ := p
          have := (h4 _ _ hy).2
          rw [this, hx]
          rfl
      | some p =>
        cases hy : y with
        | none => exact h5 hy
        | some q => rw [hx, hy] at e; cases e

/-! ### History of matches -/

/-- Shape of the queue. -/
def Smq.Wf (q : Smq) : Prop := q.cur < 8 ∧ q.sm.length = 9

theorem Smq.init_wf : Smq.init.Wf := by unfold Smq.Wf; decide

theorem Smq.record_wf {q : Smq} (h : q.Wf) (m : MatchRes) (s : Bytes) : (q.record m s).Wf := by
  obtain ⟨h1, h2⟩ := h
  constructor
  · show (q.cur + 1) % 8 < 8
    omega
  · simp [Smq.record, Smq.push, h2]

theorem Smq.get_record_zero {q : Smq} (h : q.Wf) (m : MatchRes) (s : Bytes) :
    (q.record m s).get 0 = .ok (submatchExec m s) := by
  obtain ⟨h1, h2⟩ := h
  have e : ((q.cur + 1) % 8 + 8 - 0) % 8 = (q.cur + 1) % 8 % 8 := by omega
  have h3 : (q.cur + 1) % 8 % 8 < q.sm.length := by omega
  have h4 : (q.cur + 1) % 8 < q.sm.length := by omega
  simp [Smq.get, Smq.record, Smq.push, smqSize, e, List.getElem?_eq_getElem h4]

theorem Smq.get_record_succ {q : Smq} (h : q.Wf) (m : MatchRes) (s : Bytes) (n : Nat) (hn : n + 1 < 8) :
    (q.record m s).get (n + 1) = q.get n := by
  obtain ⟨h1, h2⟩ := h
  have e : ((q.cur + 1) % 8 + 8 - (n + 1)) % 8 = (q.cur + 8 - n) % 8 := by omega
  have h3 : (q.cur + 1) % 8 % 8 ≠ (q.cur + 8 - n) % 8 := by omega
  have h4 : (q.cur + 1) % 8 ≠ (q.cur + 8 - n) % 8 := by omega
  simp only [Smq.get, Smq.record, Smq.push, smqSize, e, List.getElem?_modify, h3, h4, if_false, id]
  simp

/-! ### Accessors -/

theorem dropBlanks {l s : Bytes} (hl : Blank l) (hs : NotAt (fun c => c = 32 ∨ c = 9) s) :
    (l ++ s).dropWhile isWs = s := by
  apply dropWhile_app
  · intro c hc; exact (isWs_iff c).2 (hl c hc)
  · intro c t e
    have h : ¬ (c = 32 ∨ c = 9) := hs c (by simp [e])
    rw [← isWs_iff] at h
    simpa using h

theorem isWs_isSpace (c : UInt8) : isWs c = true → isSpace c = true := by
  revert c; apply forall_byte; decide +kernel

/-- Look-up of an accessor without argument. -/
theorem findAccessor_noarg {n l r : Bytes} (hn : (n, false) ∈ accessorTable) (hl : Blank l) (hr : Blank r) :
    findAccessor (l ++ n ++ r) = .found n [] := by
  have h1 : n ≠ [] ∧ (∀ c ∈ n, isWs c = false) ∧ accessorTable.find? (fun a => a.1 == n) = some (n, false) := by
    revert n
    have : ∀ x ∈ accessorTable, x.2 = false → x.1 ≠ [] ∧ (∀ c ∈ x.1, isWs c = false) ∧
      accessorTable.find? (fun a => a.1 == x.1) = some (x.1, false) := by decide
    intro n hn
    exact this _ hn rfl
  obtain ⟨h1, h2, h3⟩ := h1
  have e1 : (l ++ n ++ r).dropWhile isWs = n ++ r := by
    rw [List.append_assoc]
    apply dropBlanks hl
    intro c hc
    cases n with
    | nil => exact absurd rfl h1
    | cons x n =>
      simp at hc; subst hc
      show ¬ (x = 32 ∨ x = 9)
      rw [← isWs_iff]
      simp [h2 x (by simp)]
  have e2 : (n ++ r).takeWhile (fun c => !isWs c) = n := by
    apply takeWhile_app
    · intro c hc; simp [h2 c hc]
    · intro c t e
      have := (isWs_iff c).2 (hr c (by simp [e]))
      simp [this]
  have e3 : r.dropWhile isSpace = [] := by
    have := dropWhile_app (p := isSpace) (a := r) (b := []) (fun c hc => isWs_isSpace c ((isWs_iff c).2 (hr c hc)))
      (fun c t e => by cases e)
    rwa [List.append_nil] at this
  unfold findAccessor
  dsimp only
  rw [e1, if_neg (by simp; intro h; exact absurd h h1), e2, h3]
  simp [e3]

theorem findAccessor_arg {n l ws a : Bytes} (hn : (n, true) ∈ accessorTable) (hl : Blank l) (hw : Blank ws)
    (hw' : ws ≠ []) (ha : a ≠ []) (ht : Trims a a) :
    findAccessor (l ++ n ++ ws ++ a) = .found n a := by
  have h1 : n ≠ [] ∧ (∀ c ∈ n, isWs c = false) ∧ accessorTable.find? (fun a => a.1 == n) = some (n, true) := by
    revert n
    have : ∀ x ∈ accessorTable, x.2 = true → x.1 ≠ [] ∧ (∀ c ∈ x.1, isWs c = false) ∧
      accessorTable.find? (fun a => a.1 == x.1) = some (x.1, true) := by decide
    intro n hn
    exact this _ hn rfl
  obtain ⟨h1, h2, h3⟩ := h1
  obtain ⟨_, _, _, _, _, ht1, ht2⟩ := ht
  have e1 : (l ++ n ++ ws ++ a).dropWhile isWs = n ++ (ws ++ a) := by
    rw [List.append_assoc, List.append_assoc]
    apply dropBlanks hl
    intro c hc
    cases n with
    | nil => exact absurd rfl h1
    | cons x n =>
      simp at hc; subst hc
      show ¬ (x = 32 ∨ x = 9)
      rw [← isWs_iff]
      simp [h2 x (by simp)]
  cases ws with
  | nil => exact absurd rfl hw'
  | cons w ws =>
    have e2 : (n ++ (w :: ws ++ a)).takeWhile (fun c => !isWs c) = n := by
      apply takeWhile_app
      · intro c hc; simp [h2 c hc]
      · intro c t e
        simp at e
        have := (isWs_iff c).2 (hw c (by simp [e.1]))
        simp [this]
    have e3 : (ws ++ a).dropWhile isSpace = a := by
      apply dropWhile_app
      · intro c hc; exact isWs_isSpace c ((isWs_iff c).2 (hw c (by simp [hc])))
      · intro c t e; exact ht1 c (by simp [e])
    unfold findAccessor
    dsimp only
    rw [e1, if_neg (by simp), e2, h3]
    simp only [List.drop_left, if_true, List.cons_append, e3]
    cases hg : a.getLast? with
    | none => simp at hg; exact absurd hg ha
    | some c => simp [ht2 c hg]

theorem findAccessor_unknown {n l r : Bytes} (hl : Blank l) (hne : n ≠ []) (hn : ∀ c ∈ n, c ≠ 32 ∧ c ≠ 9)
    (hr : r = [] ∨ ∃ c t, r = c :: t ∧ (c = 32 ∨ c = 9))
    (hu : n ∉ [b!"url", b!"path", b!"query", b!"param", b!"header", b!"host", b!"port"]) :
    findAccessor (l ++ n ++ r) = .none := by
  have hw : ∀ c ∈ n, isWs c = false := fun c hc => by
    have := hn c hc
    have h2 := isWs_iff c
    cases h : isWs c with
    | false => rfl
    | true => rw [h] at h2; exact absurd (h2.1 rfl) (by simp [this.1, this.2])
  have hfind : accessorTable.find? (fun a => a.1 == n) = none := by
    rw [List.find?_eq_none]
    intro x hx hxn
    apply hu
    simp at hxn
    subst hxn
    revert x
    decide
  cases n with
  | nil => exact absurd rfl hne
  | cons x n =>
    have e1 : (l ++ x :: n ++ r).dropWhile isWs = x :: n ++ r := by
      rw [List.append_assoc]
      apply dropBlanks hl
      intro c hc
      simp at hc; subst hc
      have := hn x (by simp)
      simp [this.1, this.2]
    have e2 : (x :: n ++ r).takeWhile (fun c => !isWs c) = x :: n := by
      apply takeWhile_app
      · intro c hc; simp [hw c hc]
      · intro c t e
        rcases hr with hr | ⟨c', t', hr, hc'⟩
        · rw [hr] at e; cases e
        · rw [hr] at e; injection e with e _; subst e
          simp [(isWs_iff c').2 hc']
    unfold findAccessor
    dsimp only
    rw [e1, if_neg (by simp), e2, hfind]

theorem locateNameLen_spec {hs : List Header} (hg : ∀ h ∈ hs, Good h) {a : Bytes} {vs : List Bytes}
    (hv : Values a (hs.map (·.text)) vs) :
    accHeader hs a = vs.head?.elim .absent .val := by
  induction hs generalizing vs with
  | nil => cases hv; rfl
  | cons h hs ih =>
    have g := hg h (by simp)
    unfold accHeader locateNameLen
    rw [List.find?_cons]
    have e := length_beq_ciEq h.name a
    rw [List.map_cons] at hv
    cases hv with
    | hit hl hn _ =>
      obtain ⟨rfl, rfl⟩ := g.name_of hl
      rw [e, hn]
      simp only [g.value]
      rfl
    | miss hnn hv =>
      rw [g.named] at hnn
      rw [e]
      simp only [hnn]
      have := ih (fun x hx => hg x (by simp [hx])) hv
      unfold accHeader locateNameLen at this
      simpa using this

theorem accessor_of_spec {r : Req} {hs : List Header} (hg : ∀ h ∈ hs, Good h) {nm : Bytes} {v : AccVal}
    (h : Accesses r.url r.getPath.2 r.getQuery.2 (fun a => (r.getParam a).2) (hs.map (·.text)) nm v) :
    accessor r hs nm = accRes v := by
  unfold accessor
  have host : ∀ {vs}, Values b!"Host" (hs.map (·.text)) vs →
      accHeader hs b!"host" = vs.head?.elim .absent .val := by
    intro vs hv
    have : ciEq b!"Host" b!"host" = true := by decide
    exact locateNameLen_spec hg (values_ci this hv)
  have cut : ∀ {h p : Bytes}, ch%':' ∉ h → (p = [] ∨ ∃ t, p = ch%':' :: t) →
      (h ++ p).takeWhile notColon = h := by
    intro h p h1 h2
    apply takeWhile_app
    · intro c hc
      have : c ≠ ch%':' := fun e => h1 (e ▸ hc)
      simpa [notColon] using this
    · intro c t e
      rcases h2 with h2 | ⟨t', h2⟩
      · rw [h2] at e; cases e
      · rw [h2] at e; injection e with e _; subst e; decide
  cases h with
  | url hl hr => rw [findAccessor_noarg (by decide) hl hr]; rfl
  | path hl hr => rw [findAccessor_noarg (by decide) hl hr]; rfl
  | query hl hr hq => rw [findAccessor_noarg (by decide) hl hr]; simp [callAccessor, hq, accRes]
  | param hl hw hw' ha ht hp =>
    rw [findAccessor_arg (by decide) hl hw hw' ha ht]; simp [callAccessor, hp, accRes]
  | noParam hl hw hw' ha ht hp =>
    rw [findAccessor_arg (by decide) hl hw hw' ha ht]
    rcases hp with hp | hp <;> simp [callAccessor, hp, accRes]
  | header hl hw hw' ha ht hv =>
    rw [findAccessor_arg (by decide) hl hw hw' ha ht]
    simp [callAccessor, locateNameLen_spec hg hv, accRes]
  | noHeader hl hw hw' ha ht hv =>
    rw [findAccessor_arg (by decide) hl hw hw' ha ht]
    simp [callAccessor, locateNameLen_spec hg hv, accRes]
  | host hl hr hv h1 h2 =>
    rw [findAccessor_noarg (by decide) hl hr]
    simp [callAccessor, host hv, cut h1 h2, accRes]
  | port hl hr hv h1 h2 =>
    rw [findAccessor_noarg (by decide) hl hr]
    simp [callAccessor, host hv, cut h1 h2, accRes]
  | noHost hl hr hn hv =>
    rcases hn with rfl | rfl
    · rw [findAccessor_noarg (by decide) hl hr]; simp [callAccessor, host hv, accRes]
    · rw [findAccessor_noarg (by decide) hl hr]; simp [callAccessor, host hv, accRes]
  | unknown hl hne hn hr hu => rw [findAccessor_unknown hl hne hn hr hu]; rfl

/-! ### Redirect locations -/

theorem urlSafe_location (c : UInt8) : urlSafe c = true → LocationChar c ∧ c ≠ ch%'%' := by
  revert c; unfold LocationChar Digit; apply forall_byte; decide +kernel

theorem pctChar_location (c : UInt8) : ∀ d ∈ pctChar c, LocationChar d := by
  revert c; unfold LocationChar Digit; apply forall_byte; decide +kernel

theorem pctChar_ascii (c : UInt8) : c < 128 → ∃ a b, pctChar c = [ch%'%', a, b] ∧
    ((digit? 16 a).getD 99 * 16 + (digit? 16 b).getD 99 = c.toNat) ∧ (digit? 16 a).isSome ∧ (digit? 16 b).isSome := by
  intro h
  refine ⟨hexDigit (c.toNat / 16), hexDigit (c.toNat % 16), ?_, ?_⟩
  · simp [pctChar, h]
  · revert h c; apply forall_byte; decide +kernel

theorem sanitize_location (s : Bytes) : ∀ c ∈ sanitize s, LocationChar c := by
  intro c hc
  unfold sanitize at hc
  rw [List.mem_flatMap] at hc
  obtain ⟨d, _, hd⟩ := hc
  split at hd
  · rename_i hs
    simp at hd; subst hd
    exact (urlSafe_location c hs).1
  · exact pctChar_location d c hd

theorem sanitize_encodes {s : Bytes} (h : ∀ c ∈ s, c < 128) : PctEncodes s (sanitize s) := by
  induction s with
  | nil => exact .nil
  | cons c s ih =>
    have ih := ih fun d hd => h d (by simp [hd])
    have e : sanitize (c :: s) = (if urlSafe c then [c] else pctChar c) ++ sanitize s := rfl
    rw [e]
    split
    · rename_i hs
      exact .plain (urlSafe_location c hs).2 ih
    · obtain ⟨a, b, h1, h2, h3, h4⟩ := pctChar_ascii c (h c (by simp))
      rw [h1]
      obtain ⟨x, hx⟩ := Option.isSome_iff_exists.1 h3
      obtain ⟨y, hy⟩ := Option.isSome_iff_exists.1 h4
      rw [hx, hy] at h2
      exact .esc hx hy (by simp at h2; omega) ih

theorem location_text {c : UInt8} : LocationChar c → Text c := by
  revert c; unfold LocationChar Digit Text; apply forall_byte; decide +kernel

/-! ### Replies -/

theorem decAux_denotes (f n : Nat) (h : n < f) : Denotes 10 (decAux f n) n := by
  induction f generalizing n with
  | zero => omega
  | succ f ih =>
    have hd : ∀ k, k < 10 → digit? 10 (UInt8.ofNat (48 + k)) = some k := by decide
    have hm := hd (n % 10) (by omega)
    unfold decAux
    generalize UInt8.ofNat (48 + n % 10) = x at hm ⊢
    by_cases h10 : n < 10
    · rw [if_pos h10]
      refine ⟨by simp, ?_, ?_⟩
      · intro c hc; simp at hc; subst hc; rw [hm]; rfl
      · simp [hm]; omega
    · rw [if_neg h10]
      obtain ⟨h1, h2, h3⟩ := ih (n / 10) (by omega)
      refine ⟨by simp, ?_, ?_⟩
      · intro c hc
        simp only [List.mem_append, List.mem_singleton] at hc
        rcases hc with hc | hc
        · exact h2 c hc
        · subst hc; rw [hm]; rfl
      · rw [List.foldl_append, ← h3]
        simp [hm]; omega

theorem dec_denotes (n : Nat) : Denotes 10 (dec n) n := decAux_denotes _ _ (by omega)

theorem dec_text (n : Nat) : ∀ c ∈ dec n, Digit c := by
  intro c hc
  have := (denotes10 (dec_denotes n)).2.1 c hc
  exact (isDigit_iff c).1 this

theorem dec_len {n k : Nat} (h : n < 10 ^ k) (hk : 1 ≤ k) : (dec n).length ≤ k := by
  have : ∀ f n k, n < f → n < 10 ^ k → 1 ≤ k → (decAux f n).length ≤ k := by
    intro f
    induction f with
    | zero => intro n k h; omega
    | succ f ih =>
      intro n k h1 h2 h3
      unfold decAux
      by_cases h10 : n < 10
      · simp [h10]; omega
      · simp only [h10, if_false, List.length_append, List.length_singleton]
        cases k with
        | zero => omega
        | succ k =>
          have hk : 1 ≤ k := by
            cases k with
            | zero => simp at h2; omega
            | succ k => omega
          have := ih (n / 10) k (by omega) (by
            rw [Nat.pow_succ] at h2
            omega) hk
          omega
  exact this _ _ _ (by omega) h hk

theorem digit_text {c : UInt8} : Digit c → Text c := by
  revert c; unfold Digit Text; apply forall_byte; decide +kernel

theorem block_lines {lim : Nat} {hs : List Bytes} (h : ∀ l ∈ hs, l ≠ [] ∧ (∀ c ∈ l, Text c) ∧ l.length + 2 ≤ lim)
    (hl : 2 ≤ lim) : Block lim (hs.flatMap (· ++ [13, 10]) ++ [13, 10]) hs := by
  induction hs with
  | nil => exact .done ⟨by simp, .inr rfl, by simpa using hl⟩
  | cons x hs ih =>
    obtain ⟨h1, h2, h3⟩ := h x (by simp)
    rw [List.flatMap_cons, List.append_assoc]
    exact .more ⟨h2, .inr rfl, by simpa using h3⟩ h1 (ih fun y hy => h y (by simp [hy]))

theorem length_le_sum {l : Bytes} {ls : List Bytes} (hl : l ∈ ls) : l.length ≤ (ls.map List.length).sum := by
  induction ls with
  | nil => cases hl
  | cons x xs ih =>
    simp only [List.map_cons, List.sum_cons]
    rcases List.mem_cons.1 hl with rfl | hl
    · omega
    · have := ih hl; omega

/-- The lines written by `bio_http_reply_start`. -/
theorem reply_block (proto code : Nat) (text type content : Bytes) (hs : List Bytes)
    (ht : ∀ c ∈ text, Text c) (hy : ∀ c ∈ type, Text c) (hh : ∀ l ∈ hs, l ≠ [] ∧ ∀ c ∈ l, Text c) :
    ∃ lim sl blk, httpReply proto code text (hs.flatMap (· ++ [13, 10])) type content = sl ++ (blk ++ content) ∧
      WireLine lim sl (b!"HTTP/1." ++ dec proto ++ b!" " ++ dec code ++ b!" " ++ text) ∧
      Block lim blk ((b!"Content-Type: " ++ type) ::
        ((if proto = 1 then [b!"Content-Length: " ++ dec content.length, b!"Connection: close"] else []) ++ hs)) := by
  have hd : ∀ n, ∀ c ∈ dec n, Text c := fun n c hc => digit_text (dec_text n c hc)
  have happ : ∀ {a b : Bytes}, (∀ c ∈ a, Text c) → (∀ c ∈ b, Text c) → ∀ c ∈ a ++ b, Text c := by
    intro a b ha hb c hc
    rcases List.mem_append.1 hc with h | h
    · exact ha c h
    · exact hb c h
  have lit : (∀ c ∈ b!"HTTP/1.", Text c) ∧ (∀ c ∈ b!" ", Text c) ∧ (∀ c ∈ b!"Content-Type: ", Text c) ∧
      (∀ c ∈ b!"Content-Length: ", Text c) ∧ (∀ c ∈ b!"Connection: close", Text c) := by
    unfold Text; decide
  obtain ⟨l1, l2, l3, l4, l5⟩ := lit
  let lines : List Bytes := (b!"Content-Type: " ++ type) ::
        ((if proto = 1 then [b!"Content-Length: " ++ dec content.length, b!"Connection: close"] else []) ++ hs)
  let sline : Bytes := b!"HTTP/1." ++ dec proto ++ b!" " ++ dec code ++ b!" " ++ text
  have hlines : ∀ l ∈ lines, l ≠ [] ∧ ∀ c ∈ l, Text c := by
    intro l hl
    simp only [lines, List.mem_cons, List.mem_append] at hl
    rcases hl with rfl | hl | hl
    · exact ⟨by simp, happ l3 hy⟩
    · split at hl
      · simp at hl
        rcases hl with rfl | rfl
        · exact ⟨by simp, happ l4 (hd _)⟩
        · exact ⟨by simp, l5⟩
      · cases hl
    · exact hh l hl
  have hle : ∀ l ∈ lines, l.length ≤ (lines.map List.length).sum := by
    intro l hl
    exact length_le_sum hl
  refine ⟨sline.length + (lines.map List.length).sum + 2, sline ++ [13, 10],
    lines.flatMap (· ++ [13, 10]) ++ [13, 10], ?_, ⟨?_, .inr rfl, ?_⟩, ?_⟩
  · simp only [httpReply, replyStart, lines, sline]
    by_cases h1 : proto = 1 <;> simp [h1]
  · exact happ (happ (happ (happ (happ l1 (hd _)) l2) (hd _)) l2) ht
  · rw [List.length_append]; simp
  · apply block_lines
    · intro l hl
      have h1 := hlines l hl
      exact ⟨h1.1, h1.2, by have := hle l hl; omega⟩
    · omega

theorem not_named {t n v name : Bytes} (hl : HeaderLine t n v) (h : ciEq n name = false) : ¬ Named t name := by
  rintro ⟨n', v', h1, h2⟩
  obtain ⟨rfl, _⟩ := line_unique hl h1
  rw [h] at h2; cases h2

/-- A header line with a single space after the colon. -/
theorem headerLine_mk {n v : Bytes} (hn : n ≠ []) (ht : ∀ c ∈ n, TChar c)
    (hv : NotAt (fun c => c = 32 ∨ c = 9) v) : HeaderLine (n ++ b!": " ++ v) n v := by
  refine ⟨[32], by simp, hn, ht, by simp, ?_⟩
  intro c hc
  have h : ¬ (c = 32 ∨ c = 9) := hv c hc
  exact ⟨fun e => h (.inl e), fun e => h (.inr e)⟩

end Pound
