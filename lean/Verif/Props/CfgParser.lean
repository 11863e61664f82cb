import Verif.Proof.CfgParser
import Verif.Props.Config

/-!
C65, C66: how the text of a configuration is taken apart into statements.
-/

namespace Pound.Props

open Spec

/-! ### C65 -/

/-- A file is accepted, after the parsers of statements did `evs` and with `n` messages printed, exactly if its tokens are statements that make them do so, apart from
`n` tokens that belong to no statement (which only cause messages).  A newline may be missing at the end of the file. -/
theorem C65_accepted_partial (g : Nat → Bytes → Option Kind) (text : Bytes) (ts : List Tok) (hts : Yields [⟨0, text, []⟩] ts)
    (evs : List Ev) (n : Nat) :
    (∃ fuel depth st, fileParser g fuel depth text = some (true, ⟨evs, st, n⟩)) ↔ Stmts g 0 (ts ++ [.nl]) evs n := by
  constructor
  · rintro ⟨fuel, depth, st, h⟩
    unfold fileParser cfgparserParse at h
    cases hc : cfgparser (gramCfg g (sectParser g fuel depth) 0 false) fuel ⟨[], [⟨0, text, []⟩], 0⟩ with
    | none => rw [hc] at h; cases h
    | some x =>
      obtain ⟨r, s'⟩ := x
      rw [hc] at h
      dsimp only at h
      have h1 := (Prod.mk.inj (Option.some.inj h)).1
      have h2 := (Prod.mk.inj (Option.some.inj h)).2
      simp only [Bool.and_eq_true, decide_eq_true_eq] at h1
      obtain ⟨rfl, hemp⟩ := h1
      subst h2
      obtain ⟨body, e, k, h3, h4, h5, h6⟩ := parsed_sect (fun c => sectParser_sound depth c) (fun c s => sectParser_res depth c s) 0 false fuel _ _ ts hts hc
      have h4' : evs = e := by simpa using h4
      have h5' : n = k := by simpa using h5
      subst h4' h5'
      rcases h6 with ⟨name, _, _, _, _, hne⟩ | ⟨_, rfl | rfl, _⟩
      · exact absurd (List.isEmpty_iff.mp hemp) hne
      · exact stmts_snoc h3
      · exact h3
  · intro h
    obtain ⟨N, hR⟩ := runs_complete h
    obtain ⟨s', h1, h2, h3, h4⟩ := hR N (Nat.le_refl _) N (Nat.le_refl _) N (Nat.le_refl _) false ⟨[], [⟨0, text, []⟩], 0⟩ ts hts (Or.inr ⟨rfl, Or.inr rfl⟩)
    refine ⟨N, N, [], ?_⟩
    unfold fileParser cfgparserParse
    rw [h1]
    have hinp : s'.inp = [] := by
      rcases h4 with ⟨name, _, e, _⟩ | ⟨_, _, h⟩
      · have := congrArg List.length e; simp at this
      · exact h
    obtain ⟨d, i, m⟩ := s'
    dsimp only at h2 h3 hinp ⊢
    subst hinp
    simp at h2 h3
    subst h2 h3
    rfl

/-- Every text has tokens, only one way. -/
theorem C65_tokens (text : Bytes) : ∃ ts, Yields [⟨0, text, []⟩] ts ∧ ∀ ts', Yields [⟨0, text, []⟩] ts' → ts' = ts := by
  obtain ⟨ts, h⟩ := yields_exists_one 0 _ text (Nat.le_refl _)
  exact ⟨ts, h, fun _ h' => yields_unique h h'⟩

/-- The parser ends: it goes through its loop at most once for each token and twice at the end. -/
theorem C65_ends (g : Nat → Bytes → Option Kind) (text : Bytes) (ts : List Tok) (hts : Yields [⟨0, text, []⟩] ts) (fuel depth : Nat) (hf : ts.length + 2 ≤ fuel) :
    fileParser g fuel depth text ≠ none := by
  intro h
  unfold fileParser cfgparserParse at h
  cases hc : cfgparser (gramCfg g (sectParser g fuel depth) 0 false) fuel ⟨[], [⟨0, text, []⟩], 0⟩ with
  | none => exact cfgparser_ends fuel _ ts hts hf hc
  | some x => rw [hc] at h; cases h

/-- A configuration has one meaning: no End can be taken for that of another section. -/
theorem C65_unambiguous (g : Nat → Bytes → Option Kind) (text : Bytes) (ts : List Tok) (hts : Yields [⟨0, text, []⟩] ts)
    (e e' : List Ev) (n n' : Nat) (h : Stmts g 0 (ts ++ [.nl]) e n) (h' : Stmts g 0 (ts ++ [.nl]) e' n') : e = e' ∧ n = n' := by
  obtain ⟨N, hR⟩ := runs_complete h
  obtain ⟨N', hR'⟩ := runs_complete h'
  have tail : TailOk g 0 false (ts ++ [.nl]) ts := Or.inr ⟨rfl, Or.inr rfl⟩
  obtain ⟨s, h1, h2, h3, -⟩ := hR (N + N') (by omega) (N + N') (by omega) (N + N') (by omega) false ⟨[], [⟨0, text, []⟩], 0⟩ ts hts tail
  obtain ⟨s', h1', h2', h3', -⟩ := hR' (N + N') (by omega) (N + N') (by omega) (N + N') (by omega) false ⟨[], [⟨0, text, []⟩], 0⟩ ts hts tail
  rw [h1] at h1'
  have : s = s' := by simpa using h1'
  subst this
  simp at h2 h3 h2' h3'
  exact ⟨h2.symm.trans h2', h3.symm.trans h3'⟩

/-- A table with one setting, and a section with another and End -/
def exGram (ctx : Nat) (name : Bytes) : Option Kind :=
  if ctx = 0 then
    if ciEq b!"Alive" name then some (.simple [isNumTok])
    else if ciEq b!"Server" name then some (.sect [isStrTok] 1)
    else none
  else
    if ciEq b!"End" name then some .close
    else if ciEq b!"Verify" name then some (.simple [isUnqTok])
    else if ciEq b!"Server" name then some (.sect [isStrTok] 1)
    else none

/-- Tokens that are no statement are not refused: a message is printed and the configuration is used. -/
theorem C65_junk_fails : fileParser exGram 20 5 b!"42 \"x\"\nAlive 30\n" = some (true, ⟨[.stmt 0 b!"Alive" [.number b!"30"]], [], 2⟩) := by decide +kernel

example : fileParser exGram 40 5 b!"# test\nServer \"a\"\n verify yes\n Server \"b\"\n END\nEnd\nalive 30" =
    some (true, ⟨[.opened 0 b!"Server" [.string b!"a"], .stmt 1 b!"verify" [.ident b!"yes"], .opened 1 b!"Server" [.string b!"b"], .closed, .closed, .stmt 0 b!"alive" [.number b!"30"]], [], 0⟩) := by
  decide +kernel
/-- Unknown keyword, superfluous argument, missing End, End without section -/
example : (fileParser exGram 40 5 b!"Foo 1\n").map (·.1) = some false ∧ (fileParser exGram 40 5 b!"Alive 1 2\n").map (·.1) = some false ∧
    (fileParser exGram 40 5 b!"Server \"a\"\nVerify yes\n").map (·.1) = some false ∧ (fileParser exGram 40 5 b!"End\n").map (·.1) = some false := by decide +kernel
/-- Whoever writes a file that is refused is told why: at least one message is printed, if End is no statement outside sections. -/
theorem C65_explained (g : Nat → Bytes → Option Kind) (text : Bytes) (ts : List Tok) (hts : Yields [⟨0, text, []⟩] ts) (fuel depth : Nat) (hd : ts.length ≤ depth) (hf : depth + 2 ≤ fuel) (hend : ∀ name, g 0 name ≠ some .close)
    (s : PSt (List Ev)) (h : fileParser g fuel depth text = some (false, s)) : 0 < s.msgs := by
  unfold fileParser cfgparserParse at h
  cases hc : cfgparser (gramCfg g (sectParser g fuel depth) 0 false) fuel ⟨[], [⟨0, text, []⟩], 0⟩ with
  | none => rw [hc] at h; cases h
  | some x =>
    obtain ⟨r, s'⟩ := x
    rw [hc] at h
    obtain ⟨h1, h2⟩ := Prod.mk.inj (Option.some.inj h)
    subst h2
    have hl := cfgparser_loud (sectParser_loud (g := g) (fuel := fuel) depth (by omega)) 0 false fuel _ _ _ ts hts hd hc
    rcases cfgparser_res _ _ _ _ hc with rfl | rfl
    · obtain ⟨body, evs, k, -, -, -, h4⟩ := parsed_sect (fun c s s' ts => sectParser_sound depth c s s' ts) (fun c s => sectParser_res depth c s) 0 false fuel _ _ ts hts hc
      rcases h4 with ⟨nm, rest, -, hg, -⟩ | ⟨-, -, h5⟩
      · exact absurd hg (hend nm)
      · rw [h5] at h1
        cases h1
    · exact hl.2.1 rfl

example : (∀ name, exGram 0 name ≠ some .close) ∧ (fileParser exGram 40 5 b!"Server \"a\"\nVerify yes\n").map (fun r => (r.1, r.2.msgs)) = some (false, 1) := by
  refine ⟨fun name h => ?_, by decide +kernel⟩
  unfold exGram at h
  rw [if_pos rfl] at h
  split at h
  · cases h
  · split at h <;> cases h
/-- Each part of the grammar is needed: a statement with a keyword that is not in the table of its section makes the file refused, whatever is around it. -/
theorem C65_unknown (g : Nat → Bytes → Option Kind) (text : Bytes) (name : Bytes) (pre post : List Tok)
    (hts : Yields [⟨0, text, []⟩] (pre ++ .nl :: .ident name :: post)) (hn : ∀ ctx, g ctx name = none) (fuel depth : Nat) (r : Bool × PSt (List Ev))
    (h : fileParser g fuel depth text = some r) : r.1 = false := by
  obtain ⟨b, d, i, m⟩ := r
  cases b with
  | false => rfl
  | true =>
  exfalso
  have hst := (C65_accepted_partial g text _ hts d m).mp ⟨fuel, depth, i, h⟩
  -- no statements contain it at the beginning of a line
  have key : ∀ {ctx : Nat} {t : List Tok} {e : List Ev} {k : Nat}, Stmts g ctx t e k → ∀ (pre post : List Tok), t = pre ++ .ident name :: post →
      (pre = [] ∨ ∃ p, pre = p ++ [.nl]) → False := by
    intro ctx t e k hs
    have args : ∀ {ps : List (Tok → Bool)} {a : List Tok}, Args ps a → Tok.nl ∉ a := by
      intro ps a ha
      induction ha with
      | nil => simp
      | cons _ _ h2 _ _ ih => simp; exact ⟨fun h => h2 h.symm, ih⟩
    induction hs with
    | nil => intro pre post e; simp at e
    | blank h ih =>
      intro pre post e hp
      rcases hp with rfl | ⟨p, rfl⟩
      · simp at e
      · cases p with
        | nil => simp at e; exact ih [] post e (Or.inl rfl)
        | cons x p => simp at e; exact ih (p ++ [.nl]) post (by rw [e.2]; simp) (Or.inr ⟨p, rfl⟩)
    | stmt hg ha h ih =>
      rename_i ctx nm ps a t e k
      intro pre post e hp
      rcases hp with rfl | ⟨p, rfl⟩
      · simp at e; rw [e.1, hn] at hg; cases hg
      · have e' : (.ident nm :: a) ++ .nl :: t = p ++ (.nl :: .ident name :: post) := by simpa using e
        rcases List.append_eq_append_iff.mp e' with ⟨c, h1, h2⟩ | ⟨c, h1, h2⟩
        · cases c with
          | nil => simp at h2; exact ih [] post h2 (Or.inl rfl)
          | cons x c =>
            simp at h2
            exact ih (c ++ [.nl]) post (by rw [h2.2]; simp) (Or.inr ⟨c, rfl⟩)
        · cases c with
          | nil => simp at h2; exact ih [] post h2.symm (Or.inl rfl)
          | cons x c =>
            simp at h2
            have : Tok.nl ∈ Tok.ident nm :: a := by rw [h1, ← h2.1]; simp
            rcases List.mem_cons.mp this with h | h
            · cases h
            · exact args ha h
    | sect hg ha h1 hc h2 ih1 ih2 =>
      rename_i ctx ctx' nm close ps a body t e1 e2 n1 n2
      intro pre post e hp
      rcases hp with rfl | ⟨p, rfl⟩
      · simp at e; rw [e.1, hn] at hg; cases hg
      · have e' : (.ident nm :: a) ++ (body ++ .ident close :: .nl :: t) = p ++ (.nl :: .ident name :: post) := by simpa using e
        have hbody : ∀ p', body ++ .ident close :: .nl :: t = p' ++ (.nl :: .ident name :: post) → False := by
          intro p' e
          rcases List.append_eq_append_iff.mp e with ⟨c, h3, h4⟩ | ⟨c, h3, h4⟩
          · cases c with
            | nil => simp at h4
            | cons x c =>
              simp at h4
              obtain ⟨rfl, h4⟩ := h4
              cases c with
              | nil => simp at h4; exact ih2 [] post h4 (Or.inl rfl)
              | cons y c => simp at h4; exact ih2 (c ++ [.nl]) post (by rw [h4.2]; simp) (Or.inr ⟨c, rfl⟩)
          · cases c with
            | nil => simp at h4
            | cons x c =>
              simp at h4
              obtain ⟨rfl, h4⟩ := h4
              cases c with
              | nil =>
                simp at h4
                rw [← h4.1, hn] at hc
                cases hc
              | cons y c =>
                simp at h4
                obtain ⟨rfl, h4⟩ := h4
                exact ih1 (p' ++ [.nl]) c (by rw [h3]; simp) (Or.inr ⟨p', rfl⟩)
        rcases List.append_eq_append_iff.mp e' with ⟨c, h3, h4⟩ | ⟨c, h3, h4⟩
        · exact hbody c h4
        · cases c with
          | nil => exact hbody [] h4.symm
          | cons x c =>
            simp at h4
            have : Tok.nl ∈ Tok.ident nm :: a := by rw [h3, ← h4.1]; simp
            rcases List.mem_cons.mp this with h | h
            · cases h
            · exact args ha h
    | junk h1 h2 h3 h4 h ih =>
      intro pre post e hp
      rcases hp with rfl | ⟨p, rfl⟩
      · simp at e; exact h4 _ e.1
      · cases p with
        | nil => simp at e; exact h2 e.1
        | cons x p => simp at e; exact ih (p ++ [.nl]) post (by rw [e.2]; simp) (Or.inr ⟨p, rfl⟩)
  exact key hst (pre ++ [.nl]) (post ++ [.nl]) (by simp) (Or.inr ⟨pre, rfl⟩)

/-! ### C66 -/

/-- What is found is the first entry of that name, without regard to case, among those of the table and the tables it refers to, in order; aliases stand for the
statement before them.  An alias without one violates an assertion. -/
theorem C66_found {π : Type} (tab : List (KEntry π)) (l : List (Bytes × Option (Found π))) (h : Entries none tab l) (name : Bytes) :
    parserFind name none tab = (match l.find? (fun x => ciEq x.1 name) with
      | none => .ok none
      | some (_, some f) => .ok (some f)
      | some (_, none) => .ub) := parserFind_entries name h

/-- Every table has such a list of entries. -/
theorem C66_entries {π : Type} (tab : List (KEntry π)) : ∃ l, Entries none tab l := entries_exist tab none

/-- Letter case does not matter. -/
theorem C66_case {π : Type} (tab : List (KEntry π)) (n1 n2 : Bytes) (h : ciEq n1 n2 = true) : parserFind n1 none tab = parserFind n2 none tab := by
  obtain ⟨l, hl⟩ := C66_entries tab
  have e : (fun x : Bytes × Option (Found π) => ciEq x.1 n1) = fun x => ciEq x.1 n2 := by
    funext x
    by_cases hx : ciEq x.1 n1 = true
    · rw [hx, ciEq_trans hx h]
    · have : ¬ ciEq x.1 n2 = true := fun h2 => hx (ciEq_trans h2 (ciEq_symm h))
      rw [Bool.not_eq_true] at hx this
      rw [hx, this]
  rw [C66_found tab l hl, C66_found tab l hl, e]

/-- A table as those of pound: an alias, a deprecated one, and a reference that overrides the argument -/
def exTab : List (KEntry Nat) :=
  [.reg b!"End" 1 0 false, .reg b!"Address" 2 8 false, .alias b!"Addr" false, .softref [.reg b!"Host" 3 4 false, .alias b!"HeadRequire" true] 96, .reg b!"Host" 5 0 false]

example : parserFind b!"addr" none exTab = .ok (some ⟨2, 8, false⟩) ∧ parserFind b!"HOST" none exTab = .ok (some ⟨3, 96, false⟩) ∧
    parserFind b!"headrequire" none exTab = .ok (some ⟨3, 96, true⟩) ∧ parserFind b!"Port" none exTab = .ok none := by
  refine ⟨?_, ?_, ?_, ?_⟩ <;> simp [parserFind, exTab, aliasOf] <;> decide

end Pound.Props
