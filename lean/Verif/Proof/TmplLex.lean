import Verif.Spec.Tmpl
import Verif.Proof.Basic
import Verif.Proof.Request

/-! Tokens of templates -/

namespace Pound

open Spec

theorem isSpace_tm (c : UInt8) : isSpace c = decide (TmSpace c) := by
  revert c; exact forall_byte (by decide +kernel)

theorem isSpace_of {c : UInt8} (h : TmSpace c) : isSpace c = true := by
  rw [isSpace_tm]; exact decide_eq_true h

theorem isDigit_tm (c : UInt8) : isDigit c = true ↔ TmDigit c := by
  revert c; exact forall_byte (by decide +kernel)

theorem isAlpha_tm (c : UInt8) : isAlpha c = true ↔ TmLetter c := by
  revert c; exact forall_byte (by decide +kernel)

theorem identCh_tm (c : UInt8) : identCh c = true ↔ (TmLetter c ∨ TmDigit c ∨ c = 95) := by
  revert c; exact forall_byte (by decide +kernel)

theorem attrCh_tm (c : UInt8) :
    attrCh c = true ↔ (TmLetter c ∨ TmDigit c ∨ c = 95 ∨ c = 45) := by
  revert c; exact forall_byte (by decide +kernel)

/-- A state within an action, no token put back, at a text -/
def At (s : TIn) (r : Bytes) : Prop :=
  s.ready = false ∧ s.err = none ∧ s.rest = r ∧ 2 ≤ s.back.length

/-- At `R`, the next token is `T`, and the text after it is `r'`. -/
def Lx (R : Bytes) (T : TTok) (r' : Bytes) : Prop :=
  ∀ s, At s R → ∃ s', (∀ f, R.length + 1 ≤ f → tLexTok f s = .ok s') ∧ s'.tok = T ∧ At s' r'

theorem Lx.get {R T r'} (h : Lx R T r') {s} (hs : At s R) :
    ∃ s', gettok s = .ok s' ∧ s'.tok = T ∧ At s' r' := by
  obtain ⟨s', h1, h2, h3⟩ := h s hs
  refine ⟨s', ?_, h2, h3⟩
  simp only [gettok, hs.1, Bool.false_eq_true, if_false]
  exact h1 _ (by rw [hs.2.2.1]; exact Nat.le_refl _)

theorem takeWhile_ws {g R : Bytes} (hg : TmWs g) : (g ++ R).takeWhile isSpace = g ++ R.takeWhile isSpace := by
  induction g with
  | nil => rfl
  | cons c g ih =>
    have := isSpace_of (hg c (by simp))
    simp only [List.cons_append, List.takeWhile_cons, this, if_true]
    rw [ih (fun d hd => hg d (by simp [hd]))]

theorem dropWhile_ws {g R : Bytes} (hg : TmWs g) : (g ++ R).dropWhile isSpace = R.dropWhile isSpace := by
  induction g with
  | nil => rfl
  | cons c g ih =>
    have := isSpace_of (hg c (by simp))
    simp only [List.cons_append, List.dropWhile_cons, this, if_true]
    rw [ih (fun d hd => hg d (by simp [hd]))]

theorem Lx.ws {g R T r'} (hg : TmWs g) (h : Lx R T r') : Lx (g ++ R) T r' := by
  intro s hs
  obtain ⟨hs1, hs2, hs3, hs4⟩ := hs
  obtain ⟨s', h1, h2, h3⟩ := h { s with back := g.reverse ++ s.back, rest := R }
    ⟨hs1, hs2, rfl, by simp; omega⟩
  refine ⟨s', ?_, h2, h3⟩
  intro f hf
  rw [← h1 f (by simp at hf; omega)]
  cases f with
  | zero => rfl
  | succ f =>
    simp only [tLexTok, hs3, takeWhile_ws hg, dropWhile_ws hg, List.reverse_append, List.append_assoc]

/-- A token that starts with a byte that is not white space -/
theorem Lx.from {c r T r'} (hc : isSpace c = false)
    (h : ∀ s, At s (c :: r) →
      ∃ s', (∀ again, lexFrom again s c r = .ok s') ∧ s'.tok = T ∧ At s' r') :
    Lx (c :: r) T r' := by
  intro s hs
  obtain ⟨s', h1, h2, h3⟩ := h s hs
  refine ⟨s', ?_, h2, h3⟩
  intro f hf
  cases f with
  | zero => simp at hf
  | succ f =>
    obtain ⟨back, rest, tok, ready, err⟩ := s
    have hr : rest = c :: r := hs.2.2.1
    subst hr
    simp only [tLexTok, List.takeWhile_cons, hc, List.dropWhile_cons, Bool.false_eq_true, if_false]
    exact h1 _

theorem lexWord_at {s : TIn} {w r : Bytes} {mk : Bytes → TTok} (hr : r ≠ []) (hw : w ≠ []) :
    tLexWord s w r mk = { s with back := w.reverse ++ s.back, rest := r, tok := mk w } := by
  simp [tLexWord, hr, hw]

/-- What may follow an argument: white space, a pipe sign, a parenthesis or "}}" -/
def Follow (R : Bytes) : Prop :=
  ∃ c t, R = c :: t ∧ (isSpace c = true ∨ c = 124 ∨ c = 41 ∨ (c = 125 ∧ t.headD 0 = 125))

theorem follow_ident {R} (h : Follow R) : R ≠ [] ∧ ∀ c t, R = c :: t → identCh c = false ∧ attrCh c = false := by
  obtain ⟨c, t, rfl, h⟩ := h
  refine ⟨by simp, ?_⟩
  rintro _ _ ⟨⟩
  have hsp : ∀ c, isSpace c = true → identCh c = false ∧ attrCh c = false :=
    forall_byte (by decide +kernel)
  rcases h with h | rfl | rfl | ⟨rfl, -⟩
  · exact hsp c h
  all_goals exact ⟨by decide, by decide⟩

theorem digit_ident : ∀ c, isDigit c = true → identCh c = true :=
  forall_byte (by decide +kernel)

theorem follow_digit {R} (h : Follow R) : R ≠ [] ∧ ∀ c t, R = c :: t → isDigit c = false := by
  obtain ⟨h1, h2⟩ := follow_ident h
  refine ⟨h1, fun c t e => ?_⟩
  have := (h2 c t e).1
  by_cases hd : isDigit c = true
  · rw [digit_ident c hd] at this; simp at this
  · simpa using hd

theorem lx_ident {c : UInt8} {w R : Bytes} (hc : isAlpha c = true) (hw : ∀ d ∈ w, identCh d = true)
    (hR : R ≠ []) (hR' : ∀ d t, R = d :: t → identCh d = false) :
    Lx (c :: w ++ R) (.ident (c :: w)) R := by
  have hsp : ∀ c, isAlpha c = true → isSpace c = false := forall_byte (by decide +kernel)
  rw [List.cons_append]
  refine Lx.from (hsp c hc) fun s hs => ?_
  refine ⟨{ s with back := (c :: w).reverse ++ s.back, rest := R, tok := .ident (c :: w) }, ?_, rfl,
    hs.1, hs.2.1, rfl, ?_⟩
  · intro again
    simp only [lexFrom, hc, if_true]
    rw [takeWhile_app hw hR', dropWhile_app hw hR', lexWord_at hR (by simp)]
  · have := hs.2.2.2; simp; omega

theorem isAlpha_facts : ∀ c : UInt8, isAlpha c = true → isSpace c = false ∧ isDigit c = false ∧
    identCh c = true ∧ attrCh c = true := forall_byte (by decide +kernel)

theorem isDigit_facts : ∀ c : UInt8, isDigit c = true → isSpace c = false ∧ isAlpha c = false :=
  forall_byte (by decide +kernel)

theorem lx_attr {a R : Bytes} (ha : TmAttrName a)
    (hR : R ≠ []) (hR' : ∀ d t, R = d :: t → attrCh d = false) :
    Lx (46 :: a ++ R) (.attr a) R := by
  cases a with
  | nil => exact absurd ha (by simp [TmAttrName])
  | cons c w =>
    obtain ⟨hc, hw⟩ := ha
    have hc' := (isAlpha_tm c).mpr hc
    have hall : ∀ d ∈ c :: w, attrCh d = true := by
      intro d hd
      rcases List.mem_cons.mp hd with rfl | hd
      · exact (isAlpha_facts _ hc').2.2.2
      · exact (attrCh_tm d).mpr (hw d hd)
    rw [List.cons_append]
    refine Lx.from (by decide) fun s hs => ?_
    refine ⟨{ s with back := (c :: w).reverse ++ 46 :: s.back, rest := R, tok := .attr (c :: w) },
      ?_, rfl, hs.1, hs.2.1, rfl, ?_⟩
    · intro again
      simp only [lexFrom]
      rw [if_neg (by decide), if_neg (by decide), if_neg (by decide), if_pos trivial,
        if_pos (by simpa using hc'), takeWhile_app hall hR', dropWhile_app hall hR',
        lexWord_at hR (by simp)]
    · have := hs.2.2.2; simp; omega

theorem lx_var {a R : Bytes} (ha : TmVarName a)
    (hR : R ≠ []) (hR' : ∀ d t, R = d :: t → identCh d = false) :
    Lx (36 :: a ++ R) (.var a) R := by
  cases a with
  | nil => exact absurd ha (by simp [TmVarName])
  | cons c w =>
    obtain ⟨hc, hw⟩ := ha
    have hc' := (isAlpha_tm c).mpr hc
    have hall : ∀ d ∈ c :: w, identCh d = true := by
      intro d hd
      rcases List.mem_cons.mp hd with rfl | hd
      · exact (isAlpha_facts _ hc').2.2.1
      · exact (identCh_tm d).mpr (hw d hd)
    rw [List.cons_append]
    refine Lx.from (by decide) fun s hs => ?_
    refine ⟨{ s with back := (c :: w).reverse ++ 36 :: s.back, rest := R, tok := .var (c :: w) },
      ?_, rfl, hs.1, hs.2.1, rfl, ?_⟩
    · intro again
      simp only [lexFrom]
      rw [if_neg (by decide), if_neg (by decide), if_neg (by decide), if_neg (by decide),
        if_neg (by simp), if_pos (by simpa using hc'), takeWhile_app hall hR',
        dropWhile_app hall hR', lexWord_at hR (by simp)]
    · have := hs.2.2.2; simp; omega

theorem lx_dot {R : Bytes} (hR : ∀ d t, R = d :: t → isAlpha d = false) : Lx (46 :: R) .dot R := by
  refine Lx.from (by decide) fun s hs => ?_
  refine ⟨{ s with back := 46 :: s.back, rest := R, tok := .dot }, ?_, rfl, hs.1, hs.2.1, rfl, ?_⟩
  · intro again
    have : ¬ isAlpha (R.headD 0) = true := by
      cases R with
      | nil => decide
      | cons d t => simp [hR d t rfl]
    simp only [lexFrom]
    rw [if_neg (by decide), if_neg (by decide), if_neg (by decide), if_pos trivial, if_neg this]
    rfl
  · have := hs.2.2.2; simp; omega

theorem lx_ch {c : UInt8} {R : Bytes} (hc : c ∈ b!"()|=,") : Lx (c :: R) (.ch c) R := by
  have hsp : isSpace c = false ∧ isAlpha c = false ∧ isDigit c = false ∧ c ≠ 34 ∧ c ≠ 46 ∧
      (c == 45) = false ∧ (c == 36) = false ∧ (c == 47) = false ∧ (c == 123) = false ∧
      (c == 125) = false := by
    have : ∀ c : UInt8, c ∈ b!"()|=," → isSpace c = false ∧ isAlpha c = false ∧ isDigit c = false ∧
      c ≠ 34 ∧ c ≠ 46 ∧ (c == 45) = false ∧ (c == 36) = false ∧ (c == 47) = false ∧
      (c == 123) = false ∧ (c == 125) = false := forall_byte (by decide +kernel)
    exact this c hc
  obtain ⟨h1, h2, h3, h4, h5, h6, h7, h8, h9, h10⟩ := hsp
  refine Lx.from h1 fun s hs => ?_
  refine ⟨{ s with back := c :: s.back, rest := R, tok := .ch c }, ?_, rfl, hs.1, hs.2.1, rfl, ?_⟩
  · intro again
    simp only [lexFrom, h2, h3, h4, h5]
    simp only [Bool.false_eq_true, if_false]
    have e : ∀ (d : UInt8), (c == d) = false → c ≠ d := fun d h => by simpa using h
    simp [e _ h6, e _ h7, e _ h8, e _ h9, e _ h10]
  · have := hs.2.2.2; simp; omega

theorem lx_fin {R : Bytes} : Lx (125 :: 125 :: R) .fin R := by
  refine Lx.from (by decide) fun s hs => ?_
  refine ⟨{ s with back := 125 :: 125 :: s.back, rest := R, tok := .fin }, ?_, rfl, hs.1, hs.2.1,
    rfl, ?_⟩
  · intro again; rfl
  · simp

/-- The text after a delimiter that trims, or does not -/
def dropIf (b : Bool) (r : Bytes) : Bytes := if b then r.dropWhile isSpace else r

/-- "-}}" after white space -/
theorem trimfin_from {s : TIn} {R : Bytes} (hs : At s (45 :: 125 :: 125 :: R))
    (hb : isSpace (s.back.headD 0) = true) (again) :
    ∃ s', lexFrom again s 45 (125 :: 125 :: R) = .ok s' ∧ s'.tok = .fin ∧
      At s' (R.dropWhile isSpace) ∧ ∀ again', lexFrom again' s 45 (125 :: 125 :: R) = .ok s' := by
  have h2 := hs.2.2.2
  have e : ∀ again, lexFrom again s 45 (125 :: 125 :: R) =
      .ok { s with back := ((R.takeWhile isSpace).reverse ++ [125, 125, 45]) ++ s.back,
                   rest := R.dropWhile isSpace, tok := .fin } := by
    intro again
    simp only [lexFrom]
    rw [if_neg (by decide), if_neg (by decide), if_neg (by decide), if_neg (by decide),
      if_neg (by simp; decide), if_neg (by simp), if_neg (by simp), if_neg (by simp),
      if_neg (by simp)]
    simp only [hb]
    rw [if_pos (by simp; omega)]
    rfl
  refine ⟨_, e again, rfl, ⟨hs.1, hs.2.1, rfl, by simp; omega⟩, e⟩

theorem lx_trimfin {c : UInt8} {R : Bytes} (hc : isSpace c = true) :
    Lx (c :: 45 :: 125 :: 125 :: R) .fin (R.dropWhile isSpace) := by
  intro s hs
  obtain ⟨h1, h2, h3, h4⟩ := hs
  have hs1 : At { s with back := [c] ++ s.back, rest := 45 :: 125 :: 125 :: R }
      (45 :: 125 :: 125 :: R) := ⟨h1, h2, rfl, by simp; omega⟩
  obtain ⟨s', -, hb, hc', hd⟩ := trimfin_from hs1 hc (fun _ => .hang)
  refine ⟨s', ?_, hb, hc'⟩
  intro f hf
  cases f with
  | zero => simp at hf
  | succ f =>
    have h45 : isSpace 45 = false := by decide
    simp only [tLexTok, h3, List.takeWhile_cons, List.dropWhile_cons, hc, h45, if_true,
      Bool.false_eq_true, if_false]
    exact hd _

/-- The closing delimiter -/
theorem lx_close {c : TmClose} {r : Bytes} (hc : c.Ok) : Lx (c.text ++ r) .fin (dropIf c.trims r) := by
  obtain ⟨ws, tr⟩ := c
  obtain ⟨h1, h2⟩ := hc
  simp only [TmClose.text, List.append_assoc]
  refine Lx.ws h1 ?_
  cases tr with
  | none => exact lx_fin
  | some d => exact lx_trimfin (isSpace_of (h2 d rfl))

theorem close_follow {c : TmClose} {r : Bytes} (hc : c.Ok) : Follow (c.text ++ r) := by
  obtain ⟨ws, tr⟩ := c
  obtain ⟨h1, h2⟩ := hc
  cases ws with
  | cons w ws => exact ⟨w, _, rfl, Or.inl (isSpace_of (h1 w (by simp)))⟩
  | nil =>
    cases tr with
    | none => exact ⟨125, _, rfl, Or.inr (Or.inr (Or.inr ⟨rfl, rfl⟩))⟩
    | some d => exact ⟨d, _, rfl, Or.inl (isSpace_of (h2 d rfl))⟩

/-! Numbers and strings -/

theorem tmNat_mono (n : Nat) (ds : Bytes) :
    n ≤ ds.foldl (fun n c => n * 10 + (c.toNat - 48)) n := by
  induction ds generalizing n with
  | nil => exact Nat.le_refl _
  | cons c ds ih =>
    refine Nat.le_trans ?_ (ih _)
    show n ≤ n * 10 + (c.toNat - 48)
    omega

theorem lexDigits_ok (ds R : Bytes) (hd : ∀ c ∈ ds, isDigit c = true)
    (hR : ∀ d t, R = d :: t → isDigit d = false) (n : Nat) (w : Bytes)
    (hn : ds.foldl (fun n c => n * 10 + (c.toNat - 48)) n ≤ longMax) :
    lexDigits n w (ds ++ R) =
      .done (ds.foldl (fun n c => n * 10 + (c.toNat - 48)) n) (ds.reverse ++ w) R := by
  induction ds generalizing n w with
  | nil =>
    cases R with
    | nil => rfl
    | cons d t => simp [lexDigits, hR d t rfl]
  | cons c ds ih =>
    have hc := hd c (by simp)
    have hle := tmNat_mono (n * 10 + (c.toNat - 48)) ds
    simp only [List.foldl_cons] at hn
    simp only [List.cons_append, lexDigits, hc, if_true]
    rw [if_neg (by omega), if_neg (by omega), ih (fun d h => hd d (by simp [h])) _ _ hn]
    simp

theorem lx_int {neg : Bool} {ds R : Bytes} (h0 : ds ≠ []) (hd : ∀ c ∈ ds, TmDigit c)
    (hv : tmNat ds < 2 ^ 63) (hR : R ≠ []) (hR' : ∀ d t, R = d :: t → isDigit d = false) :
    Lx ((if neg then b!"-" else []) ++ ds ++ R)
      (.num (if neg then -(tmNat ds : Int) else tmNat ds)) R := by
  have hd' : ∀ c ∈ ds, isDigit c = true := fun c h => (isDigit_tm c).mpr (hd c h)
  have hl : lexDigits 0 [] (ds ++ R) = .done (tmNat ds) ds.reverse R := by
    rw [lexDigits_ok ds R hd' hR' 0 [] (by simp only [tmNat] at hv; simp only [longMax]; omega)]
    simp [tmNat]
  have hnum : ∀ (s : TIn) neg, lexNumber s neg (ds ++ R) = .ok { s with back := ds.reverse ++ s.back, rest := R, tok := .num (if neg then -(tmNat ds : Int) else tmNat ds) } := by
    intro s neg
    simp [lexNumber, hl, hR]
  cases ds with
  | nil => exact absurd rfl h0
  | cons d ds =>
    have hdd := hd' d (by simp)
    have hf := isDigit_facts d hdd
    cases neg with
    | false =>
      refine Lx.from hf.1 fun s hs => ?_
      refine ⟨{ s with back := (d :: ds).reverse ++ s.back, rest := R,
                       tok := .num (tmNat (d :: ds)) }, fun again => ?_, ?_, ?_⟩
      · simp only [lexFrom, hf.2, hdd, if_true, Bool.false_eq_true, if_false]
        exact hnum s false
      · rfl
      · have := hs.2.2.2
        exact ⟨hs.1, hs.2.1, rfl, by simp; omega⟩
    | true =>
      refine Lx.from (c := 45) (r := d :: ds ++ R) (by decide) fun s hs => ?_
      refine ⟨{ s with back := (d :: ds).reverse ++ 45 :: s.back, rest := R,
                       tok := .num (-(tmNat (d :: ds) : Int)) }, fun again => ?_, ?_, ?_⟩
      · simp only [lexFrom]
        rw [if_neg (by decide), if_neg (by decide), if_neg (by decide), if_neg (by decide),
          if_pos (by simpa using hdd)]
        exact hnum _ true
      · rfl
      · have := hs.2.2.2
        exact ⟨hs.1, hs.2.1, rfl, by simp; omega⟩

theorem lexStr_plain {c : UInt8} (h : c ≠ 92) (r : Bytes) :
    lexStr (c :: r) = if c = 34 then some ([], r) else (lexStr r).map (fun p => (c :: p.1, p.2)) := by
  cases r <;> simp [lexStr, h]

theorem lexStr_ok (ps : List TmPiece) (h : ∀ p ∈ ps, p.Ok) (R : Bytes) :
    lexStr (ps.flatMap TmPiece.text ++ 34 :: R) = some (ps.flatMap TmPiece.text, R) := by
  induction ps with
  | nil => simp [lexStr_plain]
  | cons p ps ih =>
    have hp := h p (by simp)
    have ih := ih (fun q hq => h q (by simp [hq]))
    cases p with
    | plain c =>
      obtain ⟨h1, h2⟩ := hp
      simp [TmPiece.text, lexStr_plain h2, h1, ih]
    | esc c =>
      have hc : c ≠ 34 := by
        have : ∀ c : UInt8, c ∈ tmEscapes.map (·.1) → c ≠ 34 := forall_byte (by decide +kernel)
        exact this c hp
      simp [TmPiece.text, lexStr, hc, ih]

theorem tEscape_ok : ∀ c : UInt8, c ∈ tmEscapes.map (·.1) →
    tEscape c = [(tmEscapes.lookup c).getD c] := forall_byte (by decide +kernel)

theorem tUnescape_plain {c : UInt8} (h : c ≠ 92) (r : Bytes) : tUnescape (c :: r) = c :: tUnescape r := by
  cases r with
  | nil => simp [tUnescape, h]
  | cons d r => simp [tUnescape, h]

theorem tUnescape_ok (ps : List TmPiece) (h : ∀ p ∈ ps, p.Ok) :
    tUnescape (ps.flatMap TmPiece.text) = tmStr ps := by
  induction ps with
  | nil => rfl
  | cons p ps ih =>
    have hp := h p (by simp)
    have ih := ih (fun q hq => h q (by simp [hq]))
    cases p with
    | plain c =>
      obtain ⟨h1, h2⟩ := hp
      simp only [List.flatMap_cons, TmPiece.text, List.singleton_append]
      rw [tUnescape_plain h2, ih]
      rfl
    | esc c =>
      simp only [List.flatMap_cons, TmPiece.text, List.cons_append, List.nil_append]
      simp only [tUnescape, if_true, ih, tEscape_ok c hp]
      rfl

theorem lx_str {ps : List TmPiece} (h : ∀ p ∈ ps, p.Ok) (R : Bytes) :
    Lx (tmStrText ps ++ R) (.str (tmStr ps)) R := by
  have e : tmStrText ps ++ R = 34 :: (ps.flatMap TmPiece.text ++ 34 :: R) := by
    simp [tmStrText]
  rw [e]
  refine Lx.from (by decide) fun s hs => ?_
  refine ⟨{ s with back := (34 :: (ps.flatMap TmPiece.text).reverse ++ [34]) ++ s.back, rest := R,
                   tok := .str (tmStr ps) }, fun again => ?_, rfl, hs.1, hs.2.1, rfl, ?_⟩
  · simp only [lexFrom]
    rw [if_neg (by decide), if_neg (by decide), if_pos trivial, lexStr_ok ps h R]
    simp only [tUnescape_ok ps h]
  · have := hs.2.2.2; simp; omega

/-! Comments -/

theorem lexComment_ok (t R : Bytes) (h : ¬ b!"*/" <:+: t ++ b!"*") (w : Bytes) :
    ∃ w', lexComment w (t ++ 42 :: 47 :: R) = .done w' R ∧ w.length ≤ w'.length := by
  induction t generalizing w with
  | nil => exact ⟨47 :: 42 :: w, by simp [lexComment], by simp; omega⟩
  | cons c t ih =>
    have ht : ¬ b!"*/" <:+: t ++ b!"*" := fun hh => h (hh.trans (List.infix_cons (List.infix_refl _)))
    obtain ⟨w', h1, h2⟩ := ih ht (c :: w)
    refine ⟨w', ?_, by simp at h2; omega⟩
    rw [← h1]
    simp only [List.cons_append, lexComment]
    by_cases hc : c = 42
    · subst hc
      rw [if_pos rfl]
      cases t with
      | nil => simp
      | cons d t =>
        have hd : d ≠ 47 := by
          rintro rfl
          exact h ⟨[], t ++ b!"*", by simp⟩
        simp [hd]
    · simp [hc]

theorem Lx.comment {t R T r'} (ht : ¬ b!"*/" <:+: t ++ b!"*") (h : Lx R T r') :
    Lx (b!"/*" ++ t ++ b!"*/" ++ R) T r' := by
  have e : b!"/*" ++ t ++ b!"*/" ++ R = 47 :: 42 :: (t ++ 42 :: 47 :: R) := by simp
  rw [e]
  intro s hs
  obtain ⟨h1, h2, h3, h4⟩ := hs
  obtain ⟨w', hw, hl⟩ := lexComment_ok t R ht []
  obtain ⟨s', ha, hb, hc⟩ := h { s with back := w' ++ 42 :: 47 :: s.back, rest := R }
    ⟨h1, h2, rfl, by simp; omega⟩
  refine ⟨s', ?_, hb, hc⟩
  intro f hf
  cases f with
  | zero => simp at hf
  | succ f =>
    rw [← ha f (by simp at hf; omega)]
    have h47 : isSpace 47 = false := by decide
    simp only [tLexTok, h3, List.takeWhile_cons, List.dropWhile_cons, h47, Bool.false_eq_true, if_false]
    simp only [lexFrom]
    rw [if_neg (by decide), if_neg (by decide), if_neg (by decide), if_neg (by decide),
      if_neg (by simp), if_neg (by simp), if_pos (by simp)]
    simp only [List.drop_succ_cons, List.drop_zero, hw]
    rfl

/-- What comes after the opening delimiter proper -/
def openRest (o : TmOpen) : Bytes :=
  o.ws ++ (match o.comment with | some (t, w) => b!"/*" ++ t ++ b!"*/" ++ w | none => [])

theorem Lx.open {o : TmOpen} {R T r'} (ho : o.Ok) (h : Lx R T r') : Lx (openRest o ++ R) T r' := by
  obtain ⟨tr, ws, cm⟩ := o
  obtain ⟨-, h2, h3⟩ := ho
  simp only [openRest, List.append_assoc]
  refine Lx.ws h2 ?_
  cases cm with
  | none => exact h
  | some tw =>
    obtain ⟨t, w⟩ := tw
    obtain ⟨h4, h5⟩ := h3 t w rfl
    have := Lx.comment h4 (Lx.ws h5 h)
    simpa using this

end Pound
