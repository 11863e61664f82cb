import Verif.Spec.Lexer
import Verif.Proof.Control
import Verif.Proof.Location

namespace Pound
open Spec

theorem lexString_lax : ∀ {b s : Bytes} {n : Nat}, StrLax b s n → ∀ (buf r : Bytes) (k : Nat),
    lexString (b ++ ch%'"' :: r) buf k = ⟨.string (cText (buf ++ s)), r, k + n⟩ := by
  intro b s n h
  induction h with
  | nil => intro buf r k; rw [List.nil_append]; unfold lexString; rw [if_pos rfl]; simp
  | plain c h1 h2 h3 _ ih =>
    intro buf r k
    rw [List.cons_append]; unfold lexString
    rw [if_neg h1, if_neg h2, if_neg h3, ih]; simp
  | esc c h1 _ ih =>
    intro buf r k
    rw [List.cons_append, List.cons_append]; unfold lexString
    rw [if_neg (by decide), if_pos rfl]
    dsimp only
    rw [if_neg (by rcases h1 with rfl | rfl <;> decide), if_pos h1, ih]; simp
  | other c h1 h2 h3 _ ih =>
    intro buf r k
    rw [List.cons_append, List.cons_append]; unfold lexString
    rw [if_neg (by decide), if_pos rfl]
    dsimp only
    rw [if_neg h3, if_neg (by rintro (e | e) <;> contradiction), ih]
    simp; omega

/-- What lexString does, in all cases -/
theorem lexString_cases : ∀ (l : Nat) (t : Bytes), t.length ≤ l → ∀ (buf : Bytes) (k : Nat),
    (∃ b s n r, t = b ++ ch%'"' :: r ∧ StrLax b s n) ∨
    ((lexString t buf k).tok = .error ∧ k < (lexString t buf k).msgs ∧ ∀ b r s n, t = b ++ ch%'"' :: r → ¬ StrLax b s n) := by
  intro l
  induction l with
  | zero =>
    intro t ht buf k
    have : t = [] := List.eq_nil_of_length_eq_zero (by omega)
    subst this
    refine Or.inr ⟨rfl, by simp [lexString], ?_⟩
    intro b r s n h; simp at h
  | succ l ih =>
    intro t ht buf k
    cases t with
    | nil =>
      refine Or.inr ⟨rfl, by simp [lexString], ?_⟩
      intro b r s n h; simp at h
    | cons c r =>
      simp only [List.length_cons] at ht
      by_cases h1 : c = ch%'"'
      · subst h1; exact Or.inl ⟨[], [], 0, r, rfl, .nil⟩
      · by_cases h2 : c = ch%'\\'
        · subst h2
          cases r with
          | nil =>
            refine Or.inr ⟨rfl, by simp [lexString], ?_⟩
            intro b r s n h hl
            cases b with
            | nil => simp at h
            | cons x b => simp at h
          | cons d r' =>
            simp only [List.length_cons] at ht
            by_cases h3 : d = 10
            · subst h3
              have e : lexString (ch%'\\' :: 10 :: r') buf k = ⟨.error, r', k + 2⟩ := rfl
              rw [e]
              refine Or.inr ⟨rfl, by show k < k + 2; omega, ?_⟩
              intro b r s n h hl
              cases hl with
              | nil => simp at h
              | plain c _ h2 _ _ => simp at h; exact h2 h.1.symm
              | esc c hc _ => simp at h; rcases hc with e | e <;> (rw [← h.1] at e; exact absurd e (by decide))
              | other c _ _ h3 _ => simp at h; exact h3 h.1.symm
            · have key : ∀ (buf' : Bytes) (k' : Nat), lexString (ch%'\\' :: d :: r') buf k = lexString r' buf' k' → k ≤ k' →
                  (∃ b s n r, (ch%'\\' :: d :: r') = b ++ ch%'"' :: r ∧ StrLax b s n) ∨
                  ((lexString (ch%'\\' :: d :: r') buf k).tok = .error ∧ k < (lexString (ch%'\\' :: d :: r') buf k).msgs ∧ ∀ b r s n, (ch%'\\' :: d :: r') = b ++ ch%'"' :: r → ¬ StrLax b s n) := by
                intro buf' k' he hk
                rw [he]
                rcases ih r' (by omega) buf' k' with ⟨b, s, n, r, rfl, hs⟩ | ⟨h4, h5, h6⟩
                · left
                  by_cases hd : d = ch%'"' ∨ d = ch%'\\'
                  · exact ⟨ch%'\\' :: d :: b, d :: s, n, r, rfl, .esc d hd hs⟩
                  · exact ⟨ch%'\\' :: d :: b, d :: s, n + 1, r, rfl, .other d (fun e => hd (Or.inl e)) (fun e => hd (Or.inr e)) h3 hs⟩
                · right
                  refine ⟨h4, by omega, ?_⟩
                  intro b r s n h hl
                  cases hl with
                  | nil => simp at h
                  | plain c _ h2 _ _ => simp at h; exact h2 h.1.symm
                  | esc c _ hl => simp at h; exact h6 _ _ _ _ h.2 hl
                  | other c _ _ _ hl => simp at h; exact h6 _ _ _ _ h.2 hl
              by_cases hd : d = ch%'"' ∨ d = ch%'\\'
              · refine key (buf ++ [d]) k ?_ (Nat.le_refl _)
                conv => lhs; unfold lexString
                rw [if_neg (by decide), if_pos rfl]
                dsimp only
                rw [if_neg h3, if_pos hd]
              · refine key (buf ++ [d]) (k + 1) ?_ (by omega)
                conv => lhs; unfold lexString
                rw [if_neg (by decide), if_pos rfl]
                dsimp only
                rw [if_neg h3, if_neg hd]
        · by_cases h3 : c = 10
          · subst h3
            have e : lexString (10 :: r) buf k = ⟨.error, r, k + 1⟩ := by
              unfold lexString
              rw [if_neg (by decide), if_neg (by decide), if_pos rfl]
            rw [e]
            refine Or.inr ⟨rfl, by show k < k + 1; omega, ?_⟩
            intro b r s n h hl
            cases hl with
            | nil => simp at h
            | plain c _ _ h3 _ => simp at h; exact h3 h.1.symm
            | esc => simp at h
            | other => simp at h
          · have e : lexString (c :: r) buf k = lexString r (buf ++ [c]) k := by
              conv => lhs; unfold lexString
              rw [if_neg h1, if_neg h2, if_neg h3]
            rw [e]
            rcases ih r (by omega) (buf ++ [c]) k with ⟨b, s, n, r, rfl, hs⟩ | ⟨h4, h5, h6⟩
            · exact Or.inl ⟨c :: b, c :: s, n, r, rfl, .plain c h1 h2 h3 hs⟩
            · right
              refine ⟨h4, h5, ?_⟩
              intro b r s n h hl
              cases hl with
              | nil => simp at h; exact h1 h.1
              | plain c _ _ _ hl => simp at h; exact h6 _ _ _ _ h.2 hl
              | esc => simp at h; exact h2 h.1
              | other => simp at h; exact h2 h.1

theorem strBody_lax {b s : Bytes} : StrBody b s ↔ StrLax b s 0 := by
  constructor
  · intro h
    induction h with
    | nil => exact .nil
    | plain c h1 h2 h3 _ ih => exact .plain c h1 h2 h3 ih
    | esc c h1 _ ih => exact .esc c h1 ih
  · intro h
    generalize hn : 0 = n at h
    induction h with
    | nil => exact .nil
    | plain c h1 h2 h3 _ ih => exact .plain c h1 h2 h3 (ih hn)
    | esc c h1 _ ih => exact .esc c h1 (ih hn)
    | other => omega

theorem strLax_nl {b s : Bytes} {n : Nat} (h : StrLax b s n) : 10 ∉ s := by
  induction h with
  | nil => simp
  | plain c _ _ h3 _ ih => simp only [List.mem_cons, not_or]; exact ⟨fun e => h3 e.symm, ih⟩
  | esc c h1 _ ih =>
    simp only [List.mem_cons, not_or]
    exact ⟨by rintro rfl; rcases h1 with e | e <;> exact absurd e (by decide), ih⟩
  | other c _ _ h3 _ ih => simp only [List.mem_cons, not_or]; exact ⟨fun e => h3 e.symm, ih⟩

theorem strBody_quote : ∀ (s : Bytes), 10 ∉ s → StrBody (s.flatMap (fun c => if c = ch%'"' ∨ c = ch%'\\' then [ch%'\\', c] else [c])) s := by
  intro s
  induction s with
  | nil => intro _; exact .nil
  | cons c t ih =>
    intro h
    simp only [List.mem_cons, not_or] at h
    rw [List.flatMap_cons]
    by_cases hc : c = ch%'"' ∨ c = ch%'\\'
    · rw [if_pos hc]; exact .esc c hc (ih h.2)
    · rw [if_neg hc]; exact .plain c (fun e => hc (Or.inl e)) (fun e => hc (Or.inr e)) (fun e => h.1 e.symm) (ih h.2)

theorem cText_id {s : Bytes} (h : (0 : UInt8) ∉ s) : cText s = s := by
  unfold cText
  have := takeWhile_app (p := notNul) (a := s) (b := []) (by
    intro c hc; unfold notNul
    have : c ≠ 0 := fun e => h (e ▸ hc)
    simpa using this) (by intro c t h; cases h)
  simpa using this

theorem hsp_iff (c : UInt8) : isHsp c = true ↔ isSpace c = true ∧ c ≠ 10 := by
  unfold isHsp; simp

theorem skip_hsp {sp : Bytes} (h : HSpace sp) (x : Bytes) (hx : ∀ c t, x = c :: t → isHsp c = false) : (sp ++ x).dropWhile isHsp = x :=
  dropWhile_app (fun c hc => (hsp_iff c).mpr (h c hc)) hx

theorem lexTok_quote {sp : Bytes} (h : HSpace sp) (t : Bytes) : lexTok (sp ++ ch%'"' :: t) = lexString t [] 0 := by
  unfold lexTok
  rw [skip_hsp h _ (by intro c t e; cases e; decide)]
  dsimp only
  rw [if_neg (by decide), if_neg (by decide), if_pos rfl]

theorem identCont_sp : ∀ c : UInt8, isIdentCont c = true → isSpace c = false := by apply forall_byte; decide +kernel
theorem identCont_iff (c : UInt8) : isIdentCont c = true ↔ Letter c ∨ isDigit c = true := by
  unfold isIdentCont isIdentStart Letter; simp
theorem identStart_iff (c : UInt8) : isIdentStart c = true ↔ Letter c := by
  unfold isIdentStart Letter; simp
theorem identStart_digit : ∀ c : UInt8, isIdentStart c = true → isDigit c = false := by apply forall_byte; decide +kernel

theorem word_tw {w r : Bytes} (hw : ∀ c ∈ w, isSpace c = false) (hr : SpaceNext r) : (w ++ r).takeWhile nonSpace = w ∧ (w ++ r).dropWhile nonSpace = r :=
  ⟨takeWhile_app (fun c hc => by unfold nonSpace; rw [hw c hc]; rfl) (fun c t e => by unfold nonSpace; rw [hr c t e]; rfl),
   dropWhile_app (fun c hc => by unfold nonSpace; rw [hw c hc]; rfl) (fun c t e => by unfold nonSpace; rw [hr c t e]; rfl)⟩

/-- A word is scanned as the token it is. -/
theorem lexUnquoted_word {c : UInt8} {t r : Bytes} {k : Tok} (hw : ∀ d ∈ c :: t, isSpace d = false) (h0 : (0 : UInt8) ∉ c :: t) (hk : WordTok (c :: t) k) (hr : SpaceNext r) :
    lexUnquoted c (c :: t ++ r) = ⟨k, r, 0⟩ := by
  unfold lexUnquoted
  by_cases hc : isIdentStart c = true
  · rw [if_pos hc]
    by_cases hall : ∀ d ∈ c :: t, isIdentCont d = true
    · have htw : (c :: t ++ r).takeWhile isIdentCont = c :: t := takeWhile_app hall (fun d u e => by
        cases hi : isIdentCont d with
        | false => rfl
        | true => have := identCont_sp d hi; rw [hr d u e] at this; cases this)
      have hdw : (c :: t ++ r).dropWhile isIdentCont = r := dropWhile_app hall (fun d u e => by
        cases hi : isIdentCont d with
        | false => rfl
        | true => have := identCont_sp d hi; rw [hr d u e] at this; cases this)
      dsimp only
      have hk' : k = .ident (c :: t) := by
        cases hk with
        | ident => rfl
        | number h =>
          have := h c (by simp)
          rw [identStart_digit c hc] at this; cases this
        | literal h _ =>
          exact absurd ⟨⟨c, t, rfl, (identStart_iff c).mp hc⟩, fun d hd => (identCont_iff d).mp (hall d hd)⟩ h
      rw [hdw, htw, cText_id h0, hk']
      cases r with
      | nil => rfl
      | cons d u => dsimp only; rw [if_pos (hr d u rfl)]
    · -- a literal
      have hk' : k = .literal (c :: t) := by
        cases hk with
        | ident _ h => exact absurd (fun d hd => (identCont_iff d).mpr (h d hd)) hall
        | number h => have := h c (by simp); rw [identStart_digit c hc] at this; cases this
        | literal => rfl
      have hall2 : ∃ a d b, c :: t = a ++ d :: b ∧ (∀ x ∈ a, isIdentCont x = true) ∧ isIdentCont d = false := by
        have := List.takeWhile_append_dropWhile (p := isIdentCont) (l := c :: t)
        cases hd : (c :: t).dropWhile isIdentCont with
        | nil =>
          exfalso; apply hall
          rw [hd, List.append_nil] at this
          intro d hd'
          rw [← this] at hd'
          exact mem_tw hd'
        | cons d b =>
          refine ⟨(c :: t).takeWhile isIdentCont, d, b, by rw [← hd]; exact this.symm, fun x hx => mem_tw hx, ?_⟩
          exact dw_head hd
      obtain ⟨a, d, b, e, ha, hd⟩ := hall2
      rw [e, List.append_assoc]
      have htw : (a ++ (d :: b ++ r)).takeWhile isIdentCont = a := takeWhile_app ha (fun x u e => by cases e; exact hd)
      have hdw : (a ++ (d :: b ++ r)).dropWhile isIdentCont = d :: b ++ r := dropWhile_app ha (fun x u e => by cases e; exact hd)
      dsimp only
      rw [htw, hdw]
      have hsd : isSpace d = false := hw d (by rw [e]; simp)
      show (if isSpace d = true then (_ : LexRes) else _) = _
      rw [if_neg (by rw [hsd]; decide)]
      have hdd : isDigit d = false := by
        cases h : isDigit d with
        | false => rfl
        | true => rw [(identCont_iff d).mpr (Or.inr h)] at hd; cases hd
      unfold lexWord
      have hwb : ∀ x ∈ d :: b, isSpace x = false := fun x hx => hw x (by rw [e]; simp at hx ⊢; rcases hx with h | h <;> simp [h])
      obtain ⟨h1, h2⟩ := word_tw hwb hr
      rw [h1, h2, hdd]
      simp only [Bool.false_and, Bool.false_eq_true, if_false]
      rw [← e, cText_id h0, hk']
  · rw [if_neg hc]
    unfold lexWord
    obtain ⟨h1, h2⟩ := word_tw hw hr
    rw [h1, h2]
    dsimp only
    rw [List.nil_append, cText_id h0]
    by_cases hd : ∀ d ∈ c :: t, isDigit d = true
    · have hk' : k = .number (c :: t) := by
        cases hk with
        | ident h _ =>
          obtain ⟨x, y, e, hx⟩ := h
          cases e; exact absurd ((identStart_iff _).mpr hx) hc
        | number => rfl
        | literal _ h => exact absurd hd h
      have : (isDigit c && (c :: t).all isDigit) = true := by
        rw [Bool.and_eq_true]; exact ⟨hd c (by simp), List.all_eq_true.mpr hd⟩
      rw [this, hk']; rfl
    · have hk' : k = .literal (c :: t) := by
        cases hk with
        | ident h _ =>
          obtain ⟨x, y, e, hx⟩ := h
          cases e; exact absurd ((identStart_iff _).mpr hx) hc
        | number h => exact absurd h hd
        | literal => rfl
      have : (isDigit c && (c :: t).all isDigit) = false := by
        rw [← Bool.not_eq_true, Bool.and_eq_true]; exact fun h => hd (List.all_eq_true.mp h.2)
      rw [this, hk']; rfl

theorem lexTok_word {sp w r : Bytes} {k : Tok} (hsp : HSpace sp) (hw : Word w) (hk : WordTok w k) (hr : SpaceNext r) : lexTok (sp ++ w ++ r) = ⟨k, r, 0⟩ := by
  obtain ⟨h1, h2, h3, h4, h5⟩ := hw
  cases w with
  | nil => exact absurd rfl h1
  | cons c t =>
    have hc := h2 c (by simp)
    unfold lexTok
    rw [List.append_assoc, skip_hsp hsp _ (by intro d u e; cases e; unfold isHsp; rw [hc]; rfl)]
    show (if c = ch%'#' then _ else if c = 10 then _ else if c = ch%'"' then _ else _) = _
    rw [if_neg (by rintro rfl; exact h5 rfl), if_neg (by rintro rfl; exact absurd hc (by decide)), if_neg (by rintro rfl; exact h4 rfl)]
    exact lexUnquoted_word h2 h3 hk hr

theorem lexTok_text {t : Tok} {x r sp : Bytes} (hsp : HSpace sp) (h : TokText t x r) : lexTok (sp ++ x ++ r) = ⟨t, r, 0⟩ := by
  cases h with
  | string hb h0 =>
    rename_i b s
    have e : sp ++ (b!"\"" ++ b ++ b!"\"") ++ r = sp ++ ch%'"' :: (b ++ ch%'"' :: r) := by simp
    rw [e, lexTok_quote hsp, lexString_lax (strBody_lax.mp hb), List.nil_append, cText_id h0]
  | word hw hk hr => exact lexTok_word hsp hw hk hr
  | newline =>
    unfold lexTok
    rw [List.append_assoc, skip_hsp hsp _ (by intro d u e; cases e; decide)]
    rfl
  | comment hc =>
    rename_i c
    unfold lexTok
    have e : sp ++ (b!"#" ++ c ++ b!"\n") ++ r = sp ++ ch%'#' :: (c ++ 10 :: r) := by simp
    rw [e, skip_hsp hsp _ (by intro d u e; cases e; decide)]
    dsimp only
    rw [if_pos rfl, dropWhile_app (p := notNl) (a := c) (b := 10 :: r) (fun x hx => by
      unfold notNl
      have : x ≠ 10 := fun e => hc (e ▸ hx)
      simpa using this) (fun x u e => by cases e; rfl)]

/-- Every token but the end takes something from the text. -/
theorem lexString_rest : ∀ (l : Nat) (t : Bytes), t.length ≤ l → ∀ (buf : Bytes) (k : Nat), (lexString t buf k).rest.length ≤ t.length := by
  intro l
  induction l with
  | zero =>
    intro t ht buf k
    have : t = [] := List.eq_nil_of_length_eq_zero (by omega)
    subst this; exact Nat.le_refl _
  | succ l ih =>
    intro t ht buf k
    cases t with
    | nil => exact Nat.le_refl _
    | cons c r =>
      simp only [List.length_cons] at ht
      unfold lexString
      split
      · simp
      · split
        · cases r with
          | nil => simp
          | cons d r' =>
            simp only [List.length_cons] at ht ⊢
            split
            · dsimp only; omega
            · split
              · exact Nat.le_trans (ih r' (by omega) _ _) (by omega)
              · exact Nat.le_trans (ih r' (by omega) _ _) (by omega)
        · split
          · simp
          · exact Nat.le_trans (ih r (by omega) _ _) (by simp)

theorem lexTok_progress (s : Bytes) : (lexTok s).tok = .eof ∨ (lexTok s).rest.length < s.length := by
  have hd : (s.dropWhile isHsp).length ≤ s.length := (List.dropWhile_suffix _).sublist.length_le
  unfold lexTok
  dsimp only
  cases ht : s.dropWhile isHsp with
  | nil => exact Or.inl rfl
  | cons c r =>
    rw [ht] at hd
    simp only [List.length_cons] at hd
    dsimp only
    split
    · have hr : (r.dropWhile notNl).length ≤ r.length := (List.dropWhile_suffix _).sublist.length_le
      cases h2 : r.dropWhile notNl with
      | nil => exact Or.inl rfl
      | cons x r' => rw [h2] at hr; simp only [List.length_cons] at hr; right; dsimp only; omega
    · split
      · right; dsimp only; omega
      · split
        · right; exact Nat.lt_of_le_of_lt (lexString_rest _ r (Nat.le_refl _) _ _) (by omega)
        · right
          rename_i h1 h2 h3
          have hcs : isSpace c = false := by
            have := dw_head ht
            unfold isHsp at this
            cases h : isSpace c with
            | false => rfl
            | true =>
              rw [h] at this
              simp at this
              exact absurd this h2
          have key : ∀ (buf : Bytes) (dg : Bool) (d : UInt8) (u : Bytes), isSpace d = false → (lexWord buf dg (d :: u)).rest.length ≤ u.length := by
            intro buf dg d u hds
            unfold lexWord
            dsimp only
            rw [List.dropWhile_cons_of_pos (by unfold nonSpace; rw [hds]; rfl)]
            exact (List.dropWhile_suffix _).sublist.length_le
          unfold lexUnquoted
          split
          · rename_i hi
            have hlen : ((c :: r).dropWhile isIdentCont).length ≤ r.length := by
              rw [List.dropWhile_cons_of_pos (by unfold isIdentCont; rw [hi]; rfl)]
              exact (List.dropWhile_suffix _).sublist.length_le
            cases h4 : (c :: r).dropWhile isIdentCont with
            | nil => dsimp only; simp; omega
            | cons d u =>
              rw [h4] at hlen
              simp only [List.length_cons] at hlen
              dsimp only
              by_cases hds : isSpace d = true
              · rw [if_pos hds]; simp only [List.length_cons]; omega
              · rw [if_neg hds]
                have := key ((c :: r).takeWhile isIdentCont) (isDigit d) d u (by simpa using hds)
                omega
          · have := key [] (isDigit c) c r hcs
            omega

end Pound
