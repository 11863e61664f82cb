import Verif.Proof.LexNum
import Verif.Proof.Input

/-!
C44, C45, C46, C62, C63: tokens, included files, numbers and text blocks of configuration files.
-/

namespace Pound.Props
open Spec

/-! ### C44 -/

/-- A quoted string is accepted without complaint exactly if it is closed on its line and only quotes and backslashes are escaped; it then denotes what
is written, with these replaced (up to a NUL byte). -/
theorem C44_denotes (sp t v rest : Bytes) (hsp : HSpace sp) : lexTok (sp ++ ch%'"' :: t) = ⟨.string v, rest, 0⟩ ↔
    ∃ body s, t = body ++ ch%'"' :: rest ∧ StrBody body s ∧ v = cText s := by
  rw [lexTok_quote hsp]
  constructor
  · intro h
    rcases lexString_cases _ t (Nat.le_refl _) [] 0 with ⟨b, s, n, r, rfl, hs⟩ | ⟨h1, -, -⟩
    · rw [lexString_lax hs] at h
      simp only [List.nil_append, Nat.zero_add, LexRes.mk.injEq, Tok.string.injEq] at h
      obtain ⟨h1, rfl, rfl⟩ := h
      exact ⟨b, s, rfl, strBody_lax.mpr hs, h1.symm⟩
    · rw [h] at h1; cases h1
  · rintro ⟨b, s, rfl, hs, rfl⟩
    rw [lexString_lax (strBody_lax.mp hs)]; rfl

/-- Every string without newline and NUL can be written, and is read back. -/
theorem C44_roundtrip_partial (sp s rest : Bytes) (hsp : HSpace sp) (h1 : 10 ∉ s) (h0 : 0 ∉ s) : lexTok (sp ++ quote s ++ rest) = ⟨.string s, rest, 0⟩ := by
  have e : sp ++ quote s ++ rest = sp ++ ch%'"' :: (s.flatMap (fun c => if c = ch%'"' ∨ c = ch%'\\' then [ch%'\\', c] else [c]) ++ ch%'"' :: rest) := by
    unfold quote; simp
  rw [e, C44_denotes _ _ _ _ hsp]
  exact ⟨_, s, rfl, strBody_quote s h1, (cText_id h0).symm⟩

/-- A string not closed on its line is an error, and a message is printed. -/
theorem C44_unterminated (sp t : Bytes) (hsp : HSpace sp) (h : ∀ body s n r, t = body ++ ch%'"' :: r → ¬ StrLax body s n) :
    (lexTok (sp ++ ch%'"' :: t)).tok = .error ∧ 0 < (lexTok (sp ++ ch%'"' :: t)).msgs := by
  rw [lexTok_quote hsp]
  rcases lexString_cases _ t (Nat.le_refl _) [] 0 with ⟨b, s, n, r, e, hs⟩ | ⟨h1, h2, -⟩
  · exact absurd hs (h b s n r e)
  · exact ⟨h1, h2⟩

/-- Not met: strings with a newline cannot be written at all. -/
theorem C44_newline_fails (input v : Bytes) (h : (lexTok input).tok = .string v) : 10 ∉ v := by
  unfold lexTok at h
  dsimp only at h
  split at h
  · cases h
  · rename_i c r _
    split at h
    · split at h <;> cases h
    · split at h
      · cases h
      · split at h
        · rcases lexString_cases _ r (Nat.le_refl _) [] 0 with ⟨b, s, n, r', e, hs⟩ | ⟨h1, -, -⟩
          · rw [e, lexString_lax hs] at h
            simp only [List.nil_append, Tok.string.injEq] at h
            rw [← h]
            intro hm
            exact strLax_nl hs ((List.takeWhile_sublist _).mem hm)
          · rw [h1] at h; cases h
        · exfalso
          unfold lexUnquoted lexWord at h
          dsimp only at h
          split at h
          · split at h
            · cases h
            · split at h
              · cases h
              · dsimp only at h
                split at h <;> cases h
          · dsimp only at h
            split at h <;> cases h

/-- Not met: an unknown escape is complained about, but accepted: "a\nb" is the string anb. -/
theorem C44_escape_fails : lexTok b!"\"a\\nb\"" = ⟨.string b!"anb", [], 1⟩ := by decide

example : lexTok b!"  \"a\\\"b\\\\c\" rest" = ⟨.string b!"a\"b\\c", b!" rest", 0⟩ := by decide
example : (lexTok b!"\"abc\n\"").tok = .error := by decide
example : quote b!"a\"b" = b!"\"a\\\"b\"" := by decide

/-! ### C62 -/

/-- Getting tokens one after the other -/
def gettkns : Nat → List Input → List Tok × List Input
  | 0, st => ([], st)
  | n + 1, st => ((gettkn st).1 :: (gettkns n (gettkn st).2).1, (gettkns n (gettkn st).2).2)

/-- A text that consists of strings, words, newlines and comments is read as the tokens it consists of, in order, and then the including file is continued. -/
theorem C62_tokens (text : Bytes) (ts : List Tok) (h : Tokens text ts) (id : Nat) (st : List Input) :
    ∃ st', gettkns ts.length (⟨id, text, []⟩ :: st) = (ts, st') ∧ gettkn st' = gettkn st := by
  have hend : ∀ text, (lexTok text).tok = .eof → gettkn (⟨id, text, []⟩ :: st) = gettkn st := by
    intro text h
    conv => lhs; unfold gettkn Input.gettkn
    dsimp only
    rw [if_pos h]
  induction h with
  | nil hsp =>
    rename_i text
    refine ⟨_, rfl, hend _ ?_⟩
    have : text.dropWhile isHsp = [] := by
      have := skip_hsp hsp [] (by intro c t h; cases h)
      simpa using this
    unfold lexTok; rw [this]
  | comment hsp hc =>
    rename_i sp c
    refine ⟨_, rfl, hend _ ?_⟩
    unfold lexTok
    have e : sp ++ b!"#" ++ c = sp ++ ch%'#' :: c := by simp
    rw [e, skip_hsp hsp _ (by intro d u e; cases e; decide)]
    dsimp only
    rw [if_pos rfl]
    have : c.dropWhile notNl = [] := by
      have := dropWhile_app (p := notNl) (a := c) (b := []) (fun x hx => by
        unfold notNl
        have : x ≠ 10 := fun e => hc (e ▸ hx)
        simpa using this) (by intro c t h; cases h)
      simpa using this
    rw [this]
  | cons hsp hx hr ih =>
    rename_i sp x rest t ts
    obtain ⟨st', h1, h2⟩ := ih
    refine ⟨st', ?_, h2⟩
    have hl := lexTok_text hsp hx
    have hne : t ≠ .eof := by
      cases hx with
      | string => intro h; cases h
      | word _ hk _ => cases hk <;> (intro h; cases h)
      | newline => intro h; cases h
      | comment => intro h; cases h
    have hg : gettkn (⟨id, sp ++ x ++ rest, []⟩ :: st) = (t, ⟨id, rest, []⟩ :: st) := by
      unfold gettkn Input.gettkn
      dsimp only
      rw [hl]
      dsimp only
      rw [if_neg hne]
    rw [List.length_cons]
    unfold gettkns
    rw [hg]
    dsimp only
    rw [h1]

/-- Each word is one kind of token only. -/
theorem C62_kinds (w : Bytes) (hw : Word w) : ∃ t, WordTok w t ∧ ∀ t', WordTok w t' → t' = t := by
  by_cases h1 : (∃ c t, w = c :: t ∧ Letter c) ∧ ∀ c ∈ w, Letter c ∨ isDigit c = true
  · refine ⟨.ident w, .ident h1.1 h1.2, ?_⟩
    intro t' h
    cases h with
    | ident => rfl
    | number h =>
      obtain ⟨⟨c, t, rfl, hc⟩, -⟩ := h1
      have := h c (by simp)
      rw [identStart_digit c ((identStart_iff c).mpr hc)] at this; cases this
    | literal h => exact absurd h1 h
  · by_cases h2 : ∀ c ∈ w, isDigit c = true
    · refine ⟨.number w, .number h2, ?_⟩
      intro t' h
      cases h with
      | ident ha hb => exact absurd ⟨ha, hb⟩ h1
      | number => rfl
      | literal _ h => exact absurd h2 h
    · refine ⟨.literal w, .literal h1 h2, ?_⟩
      intro t' h
      cases h with
      | ident ha hb => exact absurd ⟨ha, hb⟩ h1
      | number h => exact absurd h h2
      | literal => rfl

example : (lexTok b!"  Port 80\n") = ⟨.ident b!"Port", b!" 80\n", 0⟩ := by decide
example : Tokens b!"Port 80 # x\n" [.ident b!"Port", .number b!"80", .nl] :=
  .cons (sp := []) (x := b!"Port") (r := b!" 80 # x\n") (by intro c h; cases h)
    (.word ⟨by decide, by decide, by decide, by decide, by decide⟩ (.ident ⟨_, _, rfl, Or.inl (by decide)⟩ (fun c hc => by
      refine Or.inl (Or.inl ?_); revert c; decide)) (fun c t e => by cases e; decide))
    (.cons (sp := b!" ") (x := b!"80") (r := b!" # x\n") (by intro c h; revert c; decide)
      (.word ⟨by decide, by decide, by decide, by decide, by decide⟩ (.number (by decide)) (fun c t e => by cases e; decide))
      (.cons (sp := b!" ") (x := b!"# x\n") (r := []) (by intro c h; revert c; decide) (.comment (c := b!" x") (by decide)) (.nil (by intro c h; cases h))))

/-! ### C45 -/

/-- Whatever statements a configuration consists of, and even if files are changed meanwhile: no file is ever open twice, and the number of tokens read is
bounded. -/
theorem C45_bounded (ids : List Nat) (size main : Nat) (text : Bytes) (hm : main ∈ ids) (ht : text.length ≤ size) (ops : List InOp)
    (hf : ∀ fs, .incl fs ∈ ops → Finite ids size fs) (s : InSt) (k : Nat) (h : InSt.run ⟨[⟨main, text, []⟩], none⟩ ops = some (s, k)) :
    NoCycle s ∧ k ≤ inclCost size ids.length + backs ops := by
  have hg : InGood ids ⟨[⟨main, text, []⟩], none⟩ := ⟨by simp, by intro i hi; simp at hi; rw [hi]; exact hm⟩
  obtain ⟨h1, h2⟩ := run_spec ops hg hf h
  refine ⟨h1.1, ?_⟩
  have hp : potential size ids.length ⟨[⟨main, text, []⟩], none⟩ ≤ inclCost size ids.length := by
    have hpos : 0 < ids.length := List.length_pos_of_mem hm
    have e : ids.length = (ids.length - 1) + 1 := by omega
    have e2 : inclCost size ids.length = size * (inclCost size (ids.length - 1) + 1) := by
      generalize ids.length = m at e hpos
      cases m with
      | zero => omega
      | succ m => rfl
    have e3 : potential size ids.length ⟨[⟨main, text, []⟩], none⟩ = text.length * (inclCost size (ids.length - 1) + 1) := by
      simp [potential, stackW, inW, handW]
    rw [e2, e3]
    exact Nat.mul_le_mul_right _ ht
  omega

/-- An attempt to include a file that is open is refused. -/
theorem C45_refused (fs : FileSys) (name : Bytes) (id : Nat) (text : Bytes) (st : List Input) (h : fs name = some (id, text)) (ho : id ∈ st.map (·.id)) :
    pushInput fs name st = none := by
  unfold pushInput
  rw [h]
  dsimp only
  obtain ⟨j, hj, e⟩ := List.mem_map.mp ho
  rw [if_pos (List.any_eq_true.mpr ⟨j, hj, by simpa using e⟩)]

/-- Any other file that can be opened is read next, and after it the rest of the including one. -/
theorem C45_included (fs : FileSys) (name : Bytes) (id : Nat) (text : Bytes) (st : List Input) (h : fs name = some (id, text)) (ho : id ∉ st.map (·.id)) :
    ∃ st', pushInput fs name st = some st' ∧ gettkn st' = (if (lexTok text).tok = .eof then gettkn st else ((lexTok text).tok, ⟨id, (lexTok text).rest, []⟩ :: st)) := by
  refine ⟨⟨id, text, []⟩ :: st, ?_, rfl⟩
  unfold pushInput
  rw [h]
  dsimp only
  rw [if_neg]
  intro hh
  obtain ⟨j, hj, e⟩ := List.any_eq_true.mp hh
  exact ho (List.mem_map.mpr ⟨j, hj, by simpa using e⟩)

/-- Two files, the main one includes the other, which includes the first -/
def exFs : FileSys := fun n => if n = b!"a" then some (1, b!"Include \"b\"") else if n = b!"b" then some (2, b!"Include \"a\"") else none

example : Finite [1, 2] 11 exFs := by
  intro n id t h
  unfold exFs at h
  split at h
  · cases h; exact ⟨by decide, by decide⟩
  · split at h
    · cases h; exact ⟨by decide, by decide⟩
    · cases h
example : (InSt.run ⟨[⟨1, b!"Include \"b\"", []⟩], none⟩ [.get, .incl exFs, .get]).map (fun r => r.1.stack.map (·.id)) = some [2, 1] := by decide
example : (InSt.run ⟨[⟨1, b!"Include \"b\"", []⟩], none⟩ [.get, .incl exFs, .get, .incl exFs]).isNone = true := by decide

/-! ### C46 -/

/-- Limits, counts and the like: a number is stored as it is written, or refused if it does not fit. -/
theorem C46_unsigned (s : Bytes) (n : Nat) (h : IsIndex s n) : assignUnsigned (.number s) = .ok (if n < 2 ^ 32 then some n else none) := assignUnsigned_num h

/-- Signed settings with a range: `max` below 1 means no upper limit. -/
theorem C46_range (min max : Nat) (s : Bytes) (n : Nat) (h : IsIndex s n) :
    (1 ≤ max → assignRange min max (.number s) = .ok (if n < 2 ^ 31 ∧ min ≤ n ∧ n ≤ max then some (n : Int) else none)) ∧
    assignRange min (-1) (.number s) = .ok (if n < 2 ^ 31 ∧ min ≤ n then some (n : Int) else none) := by
  unfold assignRange
  rw [assignInt_num h]
  constructor
  · intro hmax
    by_cases h1 : n < 2 ^ 31
    · rw [if_pos h1]
      dsimp only
      by_cases h2 : min ≤ n ∧ n ≤ max
      · rw [if_neg (by omega), if_pos ⟨h1, h2⟩]
      · rw [if_pos (by omega), if_neg (fun hh => h2 hh.2)]
    · rw [if_neg h1, if_neg (fun hh => h1 hh.1)]
  · by_cases h1 : n < 2 ^ 31
    · rw [if_pos h1]
      dsimp only
      by_cases h2 : min ≤ n
      · rw [if_neg (by omega), if_pos ⟨h1, h2⟩]
      · rw [if_pos (by omega), if_neg (fun hh => h2 hh.2)]
    · rw [if_neg h1, if_neg (fun hh => h1 hh.1)]

/-- Anything that is not a number is refused: words, strings and the end of the file. -/
theorem C46_others (t : Tok) (h1 : ∀ s, t ≠ .number s) (h2 : t ≠ .nl) (min max : Int) : assignUnsigned t = .ok none ∧ assignInt t = .ok none ∧ assignRange min max t = .ok none := by
  have key : ∀ (α : Type) (f : Bytes → Option α), withTok isNumTok t f = .ok none := by
    intro α f
    cases t with
    | number s => exact absurd rfl (h1 s)
    | nl => exact absurd rfl h2
    | eof => rfl
    | error => rfl
    | ident => rfl
    | string => rfl
    | literal => rfl
  have hi : assignInt t = .ok none := key _ _
  refine ⟨key _ _, hi, ?_⟩
  unfold assignRange
  rw [hi]

/-- Booleans are the eight documented words in small letters ... -/
theorem C64_bool_partial (t : Tok) (h2 : t ≠ .nl) (b : Bool) : assignBool t = .ok (some b) ↔
    (t = .ident t.text ∨ t = .number t.text ∨ t = .literal t.text) ∧
    t.text ∈ (if b then [b!"1", b!"yes", b!"true", b!"on"] else [b!"0", b!"no", b!"false", b!"off"]) := by
  have key : ∀ s : Bytes, ((if s = b!"1" ∨ s = b!"yes" ∨ s = b!"true" ∨ s = b!"on" then some true
      else if s = b!"0" ∨ s = b!"no" ∨ s = b!"false" ∨ s = b!"off" then some false else none) = some b ↔
      s ∈ (if b then [b!"1", b!"yes", b!"true", b!"on"] else [b!"0", b!"no", b!"false", b!"off"])) := by
    intro s
    by_cases h1 : s = b!"1" ∨ s = b!"yes" ∨ s = b!"true" ∨ s = b!"on"
    · rw [if_pos h1]
      cases b with
      | true => simpa using h1
      | false =>
        simp only [Option.some.injEq, Bool.true_eq_false, Bool.false_eq_true, if_false, false_iff]
        rcases h1 with rfl | rfl | rfl | rfl <;> decide
    · rw [if_neg h1]
      by_cases h2 : s = b!"0" ∨ s = b!"no" ∨ s = b!"false" ∨ s = b!"off"
      · rw [if_pos h2]
        cases b with
        | false => simpa using h2
        | true =>
          simp only [Option.some.injEq, Bool.false_eq_true, if_true, false_iff]
          rcases h2 with rfl | rfl | rfl | rfl <;> decide
      · rw [if_neg h2]
        cases b with
        | true => simpa using h1
        | false => simpa using h2
  cases t with
  | nl => exact absurd rfl h2
  | eof => constructor <;> intro h
           · cases h
           · rcases h.1 with h | h | h <;> cases h
  | error => constructor <;> intro h
             · cases h
             · rcases h.1 with h | h | h <;> cases h
  | string s => constructor <;> intro h
                · cases h
                · rcases h.1 with h | h | h <;> cases h
  | ident s =>
    have : assignBool (.ident s) = .ok (if s = b!"1" ∨ s = b!"yes" ∨ s = b!"true" ∨ s = b!"on" then some true
      else if s = b!"0" ∨ s = b!"no" ∨ s = b!"false" ∨ s = b!"off" then some false else none) := rfl
    rw [this, Res.ok.injEq, key]
    exact ⟨fun h => ⟨Or.inl rfl, h⟩, fun h => h.2⟩
  | number s =>
    have : assignBool (.number s) = .ok (if s = b!"1" ∨ s = b!"yes" ∨ s = b!"true" ∨ s = b!"on" then some true
      else if s = b!"0" ∨ s = b!"no" ∨ s = b!"false" ∨ s = b!"off" then some false else none) := rfl
    rw [this, Res.ok.injEq, key]
    exact ⟨fun h => ⟨Or.inr (Or.inl rfl), h⟩, fun h => h.2⟩
  | literal s =>
    have : assignBool (.literal s) = .ok (if s = b!"1" ∨ s = b!"yes" ∨ s = b!"true" ∨ s = b!"on" then some true
      else if s = b!"0" ∨ s = b!"no" ∨ s = b!"false" ∨ s = b!"off" then some false else none) := rfl
    rw [this, Res.ok.injEq, key]
    exact ⟨fun h => ⟨Or.inr (Or.inr rfl), h⟩, fun h => h.2⟩

/-- ... in other letters they are refused, although the manual says that case does not matter. -/
theorem C64_case_fails : assignBool (.ident b!"Yes") = .ok none ∧ assignBool (.ident b!"OFF") = .ok none := by decide

/-- Log levels written as numbers -/
theorem C46_loglevel (formats : Nat) (hf : formats ≤ 32) (s : Bytes) (n : Nat) (h : IsIndex s n) : logLevelNum formats s = if n < formats then some n else none := by
  unfold logLevelNum
  rw [strtol_num h]
  unfold ctlLongMax
  by_cases h1 : 2 ^ 63 - 1 < n
  · rw [if_pos h1, if_neg (by omega)]
  · rw [if_neg h1]
    dsimp only
    by_cases h2 : n < formats
    · rw [if_pos h2, if_neg (by omega), if_pos (by omega)]; simp
    · rw [if_neg h2]
      split
      · rfl
      · rw [if_neg (by omega)]

/-- File modes below 2^63 are stored if they are at most 0777. -/
theorem C46_mode_partial (s : Bytes) (n : Nat) (h : IsOctal s n) (hn : n < 2 ^ 63) : assignMode (.number s) = .ok (if n ≤ 0o777 then some n else none) := by
  unfold assignMode
  have e : expectTok isNumTok (.number s) = .ok (some (.number s)) := rfl
  rw [e]
  dsimp only
  have e2 : (Tok.number s).text = s := rfl
  rw [e2, strtoul8_num h, if_pos (by omega)]
  dsimp only
  rw [if_pos hn]
  by_cases h1 : n ≤ 0o777
  · rw [if_pos h1, if_neg (by omega), Nat.mod_eq_of_lt (by omega)]
  · rw [if_neg h1, if_pos (by omega)]

/-- Decimal digits 8 and 9 are refused in modes. -/
theorem C46_octal (s : Bytes) (hs : s ≠ []) (h : ∀ n, ¬ IsOctal s n) : assignMode (.number s) = .ok none := by
  unfold assignMode
  have e : expectTok isNumTok (.number s) = .ok (some (.number s)) := rfl
  rw [e]
  dsimp only
  have e2 : (Tok.number s).text = s := rfl
  rw [e2]
  split
  · rename_i n hq
    exfalso
    obtain ⟨m, hm⟩ := strtoul8_rest hs (by rw [hq])
    exact h m hm
  · rfl

/-- Not met: larger modes are truncated ... -/
theorem C46_mode_fails : assignMode (.number b!"1000000000000000000777") = .ok (some 0o777) := by decide +kernel

/-- ... a missing mode is a NULL pointer ... -/
theorem C46_nomode_fails : assignMode .eof = .ub ∧ assignMode (.ident b!"x") = .ub := by decide

/-- ... a missing argument at the end of the line is found out by a shift by a negative number ... -/
theorem C46_missing_fails (min max : Int) : assignUnsigned .nl = .ub ∧ assignRange min max .nl = .ub ∧ assignBool .nl = .ub := ⟨rfl, rfl, rfl⟩

/-- ... and status codes of redirections are truncated. -/
theorem C46_redirect_fails : redirectCode b!"4294967597" = some 301 := by decide +kernel

/-- Those that fit are exact. -/
theorem C46_redirect_partial (s : Bytes) (n : Nat) (h : IsIndex s n) (hn : n < 2 ^ 31) : redirectCode s = if n ∈ [301, 302, 303, 307, 308] then some n else none := by
  unfold redirectCode
  rw [strtol_num h]
  unfold ctlLongMax
  have h0 : ¬ (2 ^ 63 - 1 < n) := by omega
  rw [if_neg h0]
  have e : intOfLong (n : Int) = n := by unfold intOfLong; omega
  dsimp only
  rw [e]
  by_cases h1 : n = 301
  · subst h1; rfl
  · by_cases h2 : n = 302
    · subst h2; rfl
    · by_cases h3 : n = 303
      · subst h3; rfl
      · by_cases h4 : n = 307
        · subst h4; rfl
        · by_cases h5 : n = 308
          · subst h5; rfl
          · rw [if_neg (by omega), if_neg (by omega), if_neg (by omega), if_neg (by omega), if_neg (by omega), if_neg]
            simp [h1, h2, h3, h4, h5]

example : IsIndex b!"00300" 300 := ⟨by decide, by decide, by decide⟩
example : IsOctal b!"0640" 0o640 := ⟨by decide, by decide, by decide⟩
example : assignUnsigned (.number b!"4294967296") = .ok none := by decide +kernel

/-! ### C63 -/

/-- A text block consists of the lines up to one with the word End alone, unchanged. -/
theorem C63_text_partial (first endl rest : Bytes) (ls : List Bytes) (h1 : ∀ l ∈ first :: ls, 10 ∉ l ∧ ¬ EndLine l) (hf : first ≠ []) (h2 : 10 ∉ endl) (h3 : EndLine endl) :
    readToEnd (linesText (first :: ls) ++ endl ++ 10 :: rest) = .ok (some (linesText (first :: ls), rest)) := by
  have e : linesText (first :: ls) = first ++ [10] ++ linesText ls := by unfold linesText; rw [List.flatMap_cons]
  obtain ⟨hl, hn⟩ := h1 first (by simp)
  have e2 : linesText (first :: ls) ++ endl ++ 10 :: rest = first ++ 10 :: (linesText ls ++ endl ++ 10 :: rest) := by rw [e]; simp
  unfold readToEnd
  rw [e2, readLoop_line _ _ hl, (endLine_spec hl (Or.inl ⟨rfl, hf⟩)).2 hn]
  dsimp only
  rw [readLoop_lines ls _ endl rest (fun l h => h1 l (by simp [h])) h2 h3 ⟨first, hf, by simp⟩, e]
  simp

/-- An empty block -/
theorem C63_empty (endl rest : Bytes) (h2 : 10 ∉ endl) (h3 : EndLine endl) : readToEnd (endl ++ 10 :: rest) = .ok (some ([], rest)) := by
  have hne : endl ≠ [] := by
    rintro rfl
    obtain ⟨a, w, b, e, -, hw⟩ := h3
    have := ciEq_length hw
    have hz : w = [] := by
      have := congrArg List.length e
      simp only [List.length_nil, List.length_append] at this
      exact List.eq_nil_of_length_eq_zero (by omega)
    rw [hz] at this; simp at this
  unfold readToEnd
  rw [readLoop_line _ _ h2, (endLine_spec h2 (Or.inl ⟨rfl, hne⟩)).1 h3]

/-- Not met: if the first line is empty, memory before the buffer is read. -/
theorem C63_empty_line_fails (rest : Bytes) : readToEnd (10 :: rest) = .ub := by
  unfold readToEnd readToEndLoop
  rw [if_pos rfl]
  rfl

/-- A block without End is refused. -/
theorem C63_unclosed (ls : List Bytes) (last : Bytes) (h1 : ∀ l ∈ ls, 10 ∉ l ∧ ¬ EndLine l) (h2 : 10 ∉ last) (hf : ∀ l t, ls = l :: t → l ≠ []) :
    readToEnd (linesText ls ++ last) = .ok none := by
  have hlast : ∀ (last : Bytes), 10 ∉ last → ∀ buf, readToEndLoop last buf = .ok none := by
    intro last
    induction last with
    | nil => intro _ _; rfl
    | cons c t ih =>
      intro h buf
      simp only [List.mem_cons, not_or] at h
      unfold readToEndLoop
      rw [if_neg (fun e => h.1 e.symm)]
      exact ih h.2 _
  have key : ∀ (ls : List Bytes) (P : Bytes), (∀ l ∈ ls, 10 ∉ l ∧ ¬ EndLine l) → (P = [] ∧ (∀ l t, ls = l :: t → l ≠ []) ∨ ∃ Q, Q ≠ [] ∧ P = Q ++ [10]) →
      readToEndLoop (linesText ls ++ last) P = .ok none := by
    intro ls
    induction ls with
    | nil => intro P _ _; exact hlast last h2 P
    | cons l ls ih =>
      intro P h1 hP
      have e : linesText (l :: ls) ++ last = l ++ 10 :: (linesText ls ++ last) := by unfold linesText; rw [List.flatMap_cons]; simp
      obtain ⟨hl, hn⟩ := h1 l (by simp)
      have hP' : P = [] ∧ l ≠ [] ∨ ∃ Q, Q ≠ [] ∧ P = Q ++ [10] := by
        rcases hP with ⟨h, hh⟩ | h
        · exact Or.inl ⟨h, hh l ls rfl⟩
        · exact Or.inr h
      rw [e, readLoop_line _ _ hl, (endLine_spec hl hP').2 hn]
      dsimp only
      refine ih _ (fun x hx => h1 x (by simp [hx])) (Or.inr ⟨P ++ l, ?_, rfl⟩)
      rcases hP' with ⟨rfl, h⟩ | ⟨Q, _, rfl⟩
      · simpa using h
      · simp
  exact key ls [] h1 (Or.inl ⟨rfl, hf⟩)

example : readToEnd b!"nameserver 1\n\noptions x\n  eND \nrest" = .ok (some (b!"nameserver 1\n\noptions x\n", b!"rest")) := by decide +kernel
example : EndLine b!"  eND " := ⟨b!"  ", b!"eND", b!" ", rfl, by decide, by decide⟩
example : ¬ EndLine b!"Ending" := fun h => absurd ((endLine_trim _).mp h) (by decide)

end Pound.Props
