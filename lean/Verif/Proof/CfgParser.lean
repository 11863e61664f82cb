import Verif.Spec.CfgParser
import Verif.Proof.Lexer

namespace Pound

open Spec

/-! ### Tokens -/

theorem gettkn_eof : ∀ (st : List Input), (gettkn st).1 = .eof → (gettkn st).2 = []
  | [], _ => rfl
  | i :: st, h => by
    unfold gettkn at h ⊢
    dsimp only at h ⊢
    split
    · rename_i he
      rw [if_pos he] at h
      exact gettkn_eof st h
    · rename_i he
      rw [if_neg he] at h
      exact absurd h he

theorem gettkn_ne : ∀ (st : List Input), (gettkn st).1 ≠ .eof → (gettkn st).2 ≠ []
  | [], h => absurd rfl h
  | i :: st, h => by
    unfold gettkn at h ⊢
    dsimp only at h ⊢
    split
    · rename_i he
      rw [if_pos he] at h
      exact gettkn_ne st h
    · simp

theorem yields_nil {st : List Input} (h : Yields st []) : (gettkn st).1 = .eof := by
  cases h with
  | done h => exact h

theorem yields_cons {st : List Input} {t : Tok} {ts : List Tok} (h : Yields st (t :: ts)) :
    (gettkn st).1 = t ∧ t ≠ .eof ∧ Yields (gettkn st).2 ts := by
  cases h with
  | more h1 h2 => exact ⟨rfl, h1, h2⟩

theorem yields_empty : Yields [] [] := .done rfl

theorem yields_cases {st : List Input} {ts : List Tok} (h : Yields st ts) :
    (ts = [] ∧ (gettkn st).1 = .eof ∧ (gettkn st).2 = []) ∨
    ∃ t, ts = (gettkn st).1 :: t ∧ (gettkn st).1 ≠ .eof ∧ Yields (gettkn st).2 t := by
  cases h with
  | done h => exact Or.inl ⟨rfl, h, gettkn_eof _ h⟩
  | more h1 h2 => exact Or.inr ⟨_, rfl, h1, h2⟩

theorem yields_unique {st : List Input} {ts : List Tok} (h : Yields st ts) : ∀ {ts' : List Tok}, Yields st ts' → ts' = ts := by
  induction h with
  | done h =>
    intro ts' h'
    cases h' with
    | done => rfl
    | more h1 => exact absurd h h1
  | more h1 h2 ih =>
    intro ts' h'
    cases h' with
    | done h => exact absurd h h1
    | more h1 h2 => rw [ih h2]

/-! ### Arguments -/

theorem readArgs_ok {σ : Type} : ∀ (ps : List (Tok → Bool)) (s : PSt σ) (a : List Tok) (s1 : PSt σ) (ts : List Tok), Yields s.inp ts →
    readArgs ps s = (some a, s1) → ∃ r, ts = a ++ r ∧ Args ps a ∧ Yields s1.inp r ∧ s1.data = s.data ∧ s1.msgs = s.msgs := by
  intro ps
  induction ps with
  | nil =>
    intro s a s1 ts hy h
    unfold readArgs at h
    obtain ⟨rfl, rfl⟩ := Prod.mk.inj h |>.imp (fun h => Option.some.inj h) id
    exact ⟨ts, rfl, .nil, hy, rfl, rfl⟩
  | cons p ps ih =>
    intro s a s1 ts hy h
    unfold readArgs at h
    split at h
    · cases h
    · rename_i hc
      simp only [not_or] at hc
      obtain ⟨c1, c2, c3, c4⟩ := hc
      obtain ⟨h1, h2⟩ := Prod.mk.inj h
      rcases yields_cases hy with ⟨-, he, -⟩ | ⟨t, rfl, -, hy'⟩
      · exact absurd he c1
      · cases hr : readArgs ps s.get.2 with
        | mk o s2 =>
          rw [hr] at h1 h2
          dsimp only at h1 h2
          cases o with
          | none => cases h1
          | some a' =>
            have h1' : s.get.1 :: a' = a := by simpa using h1
            subst h1' h2
            obtain ⟨r, e, ha, hyr, e1, e2⟩ := ih s.get.2 a' _ t hy' hr
            refine ⟨r, ?_, ?_, hyr, e1, e2⟩
            · rw [e]; rfl
            · exact .cons (by simpa using c4) c1 c2 c3 ha

theorem readArgs_complete {σ : Type} {ps : List (Tok → Bool)} {a : List Tok} (h : Args ps a) : ∀ (s : PSt σ) (r : List Tok), Yields s.inp (a ++ r) →
    ∃ s1, readArgs ps s = (some a, s1) ∧ Yields s1.inp r ∧ s1.data = s.data ∧ s1.msgs = s.msgs := by
  induction h with
  | nil => intro s r hy; exact ⟨s, rfl, hy, rfl, rfl⟩
  | cons hp h1 h2 h3 ha ih =>
    rename_i p t ps a
    intro s r hy
    obtain ⟨e, -, hy'⟩ := yields_cons hy
    obtain ⟨s1, h4, h5, h6, h7⟩ := ih s.get.2 r hy'
    refine ⟨s1, ?_, h5, h6, h7⟩
    have e' : s.get.1 = t := e
    unfold readArgs
    rw [e', if_neg (by simp [hp, h1, h2, h3]), h4]
    rfl

/-! ### Soundness -/

/-- What a run of the parser that ends well has read and done -/
def ParsedOk (g : Nat → Bytes → Option Kind) (ctx : Nat) (block : Bool) (s s' : PSt (List Ev)) (ts : List Tok) : Prop :=
  ∃ body evs k, Stmts g ctx body evs k ∧ s'.data = s.data ++ evs ∧ s'.msgs = s.msgs + k ∧
    ((∃ name rest, ts = body ++ .ident name :: rest ∧ g ctx name = some .close ∧ Yields s'.inp rest ∧ s'.inp ≠ []) ∨
      (block = false ∧ (body = ts ∨ body = ts ++ [.nl]) ∧ s'.inp = []))

theorem parsed_sect {g : Nat → Bytes → Option Kind} {sub : Nat → StmtParser (List Ev)}
    (hs : ∀ ctx s s' ts, Yields s.inp ts → sub ctx s = (.ok, s') → ParsedOk g ctx true s s' ts)
    (hk : ∀ ctx s, (sub ctx s).1 = .ok ∨ (sub ctx s).1 = .fail) (ctx : Nat) (block : Bool) :
    ∀ (fuel : Nat) (s s' : PSt (List Ev)) (ts : List Tok), Yields s.inp ts →
      cfgparser (gramCfg g sub ctx block) fuel s = some (.ok, s') → ParsedOk g ctx block s s' ts := by
  intro fuel
  induction fuel with
  | zero => intro s s' ts _ h; cases h
  | succ fuel ih =>
    intro s s' ts hy h
    unfold cfgparser at h
    dsimp only at h
    have hg1 : s.get.1 = (gettkn s.inp).1 := rfl
    have hg2 : s.get.2.inp = (gettkn s.inp).2 := rfl
    have hg3 : s.get.2.data = s.data := rfl
    have hg4 : s.get.2.msgs = s.msgs := rfl
    rcases yields_cases hy with ⟨rfl, he, he2⟩ | ⟨t, rfl, hne, hy'⟩
    · rw [hg1, he] at h
      dsimp only at h
      cases block with
      | true => cases h
      | false =>
        have h' := congrArg (Option.map Prod.snd) h
        have h'' : s.get.2 = s' := by simpa [gramCfg] using h'
        subst h''
        exact ⟨[], [], 0, .nil, by rw [hg3]; simp, by rw [hg4]; rfl, Or.inr ⟨rfl, Or.inl rfl, by rw [hg2, he2]⟩⟩
    · rw [hg1] at h
      cases htok : (gettkn s.inp).1 with
      | eof => exact absurd htok hne
      | error => rw [htok] at h; cases h
      | nl =>
        rw [htok] at h
        dsimp only at h
        obtain ⟨body, evs, k, h1, h2, h3, h4⟩ := ih s.get.2 s' t hy' h
        refine ⟨.nl :: body, evs, k, .blank h1, h2, h3, ?_⟩
        rcases h4 with ⟨name, rest, e, h5, h6⟩ | ⟨h5, h6, h7⟩
        · exact Or.inl ⟨name, rest, by rw [e]; rfl, h5, h6⟩
        · refine Or.inr ⟨h5, ?_, h7⟩
          rcases h6 with rfl | rfl
          · exact Or.inl rfl
          · exact Or.inr rfl
      | ident name =>
        rw [htok] at h
        dsimp only at h
        have hlk : (gramCfg g sub ctx block).lookup name =
            match g ctx name with
            | some k => some ⟨kindParser sub ctx name k, 0, false⟩
            | none => if ciEq b!"Include" name then some ⟨fun s => (.fail, { s with msgs := s.msgs + 1 }), 0, false⟩ else none := by
          unfold ParserCfg.lookup gramCfg
          dsimp only
          cases g ctx name <;> rfl
        rw [hlk] at h
        cases hgn : g ctx name with
        | none =>
          rw [hgn] at h
          dsimp only at h
          split at h
          · cases h
          · rename_i f hf
            split at hf
            · cases hf; simp at h
            · cases hf
        | some kd =>
          rw [hgn] at h
          dsimp only at h
          simp only [Bool.false_and, Bool.false_eq_true, if_false] at h
          -- what follows a statement that ended well
          have after : ∀ (a : List Tok) (rest : List Tok) (r2 : PSt (List Ev)) (pre : List Ev) (k0 : Nat) (front : List Tok),
              (∀ t' e n, Stmts g ctx t' e n → Stmts g ctx (front ++ .nl :: t') (pre ++ e) (k0 + n)) →
              Yields r2.inp rest → r2.data = s.data ++ pre → r2.msgs = s.msgs + k0 →
              (match r2.get.1 with
                | .nl => if (gramCfg g sub ctx block).single = true then some (.okNonl, r2.get.2) else cfgparser (gramCfg g sub ctx block) fuel r2.get.2
                | .eof => if (gramCfg g sub ctx block).single = true then some (.okNonl, r2.get.2) else cfgparser (gramCfg g sub ctx block) fuel r2.get.2
                | _ => some (.fail, { r2.get.2 with msgs := r2.get.2.msgs + 1 })) = some (PRes.ok, s') →
              ParsedOk g ctx block s s' (front ++ rest) := by
            intro a rest r2 pre k0 front hst hyr hd hm hh
            have hsg : (gramCfg g sub ctx block).single = false := rfl
            rcases yields_cases hyr with ⟨rfl, he, he2⟩ | ⟨t', rfl, hne', hyr'⟩
            · have : r2.get.1 = .eof := he
              rw [this] at hh
              dsimp only at hh
              rw [hsg] at hh
              simp only [Bool.false_eq_true, if_false] at hh
              have hyn : Yields r2.get.2.inp [] := by
                have : r2.get.2.inp = [] := he2
                rw [this]; exact yields_empty
              obtain ⟨body, evs, k, h1, h2, h3, h4⟩ := ih r2.get.2 s' [] hyn hh
              rcases h4 with ⟨nm, rest', e, -⟩ | ⟨h5, h6, h7⟩
              · simp at e
              · have h2' : s'.data = r2.data ++ evs := h2
                have h3' : s'.msgs = r2.msgs + k := h3
                rcases h6 with rfl | rfl
                · refine ⟨front ++ [.nl], pre ++ evs, k0 + k, hst [] _ _ h1, by rw [h2', hd]; simp, by rw [h3', hm]; omega, Or.inr ⟨h5, Or.inr (by simp), h7⟩⟩
                · have h1' : Stmts g ctx [] evs k := by
                    cases h1 with
                    | blank h => exact h
                    | junk _ h2 => exact absurd rfl h2
                  refine ⟨front ++ [.nl], pre ++ evs, k0 + k, hst [] _ _ h1', by rw [h2', hd]; simp, by rw [h3', hm]; omega, Or.inr ⟨h5, Or.inr (by simp), h7⟩⟩
            · have hnl : r2.get.1 = .nl := by
                cases hx : r2.get.1 with
                | nl => rfl
                | eof => exact absurd hx hne'
                | _ => rw [hx] at hh; simp at hh
              rw [hnl] at hh
              dsimp only at hh
              rw [hsg] at hh
              simp only [Bool.false_eq_true, if_false] at hh
              obtain ⟨body, evs, k, h1, h2, h3, h4⟩ := ih r2.get.2 s' t' hyr' hh
              have h2' : s'.data = r2.data ++ evs := h2
              have h3' : s'.msgs = r2.msgs + k := h3
              have hnl' : (gettkn r2.inp).1 = .nl := hnl
              rw [hnl']
              refine ⟨front ++ .nl :: body, pre ++ evs, k0 + k, hst _ _ _ h1, by rw [h2', hd]; simp, by rw [h3', hm]; omega, ?_⟩
              rcases h4 with ⟨nm, rest', e, h5, h6⟩ | ⟨h5, h6, h7⟩
              · exact Or.inl ⟨nm, rest', by rw [e]; simp, h5, h6⟩
              · refine Or.inr ⟨h5, ?_, h7⟩
                rcases h6 with rfl | rfl
                · exact Or.inl rfl
                · exact Or.inr (by simp)
          cases kd with
          | close =>
            unfold kindParser at h
            dsimp only at h
            have h' : s.get.2 = s' := by simpa using h
            subst h'
            exact ⟨[], [], 0, .nil, by rw [hg3]; simp, by rw [hg4]; rfl, Or.inl ⟨name, t, rfl, hgn, hy', gettkn_ne _ hne⟩⟩
          | simple ps =>
            unfold kindParser at h
            dsimp only at h
            cases hr : readArgs ps s.get.2 with
            | mk o s1 =>
              rw [hr] at h
              cases o with
              | none => dsimp only at h; cases h
              | some a =>
                dsimp only at h
                obtain ⟨r, e, ha, hyr, e1, e2⟩ := readArgs_ok ps _ a s1 t hy' hr
                have := after a r { s1 with data := s1.data ++ [.stmt ctx name a] } [.stmt ctx name a] 0 (.ident name :: a)
                  (by
                    intro t' e' n hst
                    have := Stmts.stmt hgn ha hst
                    simpa using this) hyr (by dsimp only; rw [e1]; rfl) (by dsimp only; rw [e2]; rfl) h
                rw [e]
                simpa using this
          | sect ps ctx' =>
            unfold kindParser at h
            dsimp only at h
            cases hr : readArgs ps s.get.2 with
            | mk o s1 =>
              rw [hr] at h
              cases o with
              | none => dsimp only at h; cases h
              | some a =>
                dsimp only at h
                obtain ⟨r, e, ha, hyr, e1, e2⟩ := readArgs_ok ps _ a s1 t hy' hr
                cases hsub : sub ctx' { s1 with data := s1.data ++ [.opened ctx name a] } with
                | mk rr s2 =>
                  have hk' := hk ctx' { s1 with data := s1.data ++ [.opened ctx name a] }
                  rw [hsub] at h hk'
                  dsimp only at h hk'
                  rcases hk' with rfl | rfl
                  · rw [if_pos rfl] at h
                    dsimp only at h
                    obtain ⟨body, evs, k, h1, h2, h3, h4⟩ := hs ctx' { s1 with data := s1.data ++ [.opened ctx name a] } s2 r hyr hsub
                    rcases h4 with ⟨nm, rest, er, h5, h6, -⟩ | ⟨h5, -, -⟩
                    · have h2' : s2.data = s1.data ++ [.opened ctx name a] ++ evs := h2
                      have h3' : s2.msgs = s1.msgs + k := h3
                      have := after a rest { s2 with data := s2.data ++ [.closed] } (.opened ctx name a :: (evs ++ [.closed])) k
                        (.ident name :: (a ++ (body ++ [.ident nm])))
                        (by
                          intro t' e' n hst
                          have := Stmts.sect hgn ha h1 h5 hst
                          simpa using this) h6
                          (by dsimp only; rw [h2', e1]; simp [hg3]) (by dsimp only; rw [h3', e2]; rfl) h
                      rw [e, er]
                      simpa using this
                    · cases h5
                  · rw [if_neg (by intro h; cases h)] at h
                    dsimp only at h
                    cases h
      | number w =>
        rw [htok] at h
        dsimp only at h
        obtain ⟨body, evs, k, h1, h2, h3, h4⟩ := ih { s.get.2 with msgs := s.get.2.msgs + 1 } s' t hy' h
        have h3' : s'.msgs = s.msgs + 1 + k := h3
        refine ⟨.number w :: body, evs, k + 1, .junk (by intro h; cases h) (by intro h; cases h) (by intro h; cases h) (by intro _ h; cases h) h1, h2, by omega, ?_⟩
        rcases h4 with ⟨name, rest, e, h5, h6⟩ | ⟨h5, h6, h7⟩
        · exact Or.inl ⟨name, rest, by rw [e]; rfl, h5, h6⟩
        · refine Or.inr ⟨h5, ?_, h7⟩
          rcases h6 with rfl | rfl
          · exact Or.inl rfl
          · exact Or.inr rfl
      | string w =>
        rw [htok] at h
        dsimp only at h
        obtain ⟨body, evs, k, h1, h2, h3, h4⟩ := ih { s.get.2 with msgs := s.get.2.msgs + 1 } s' t hy' h
        have h3' : s'.msgs = s.msgs + 1 + k := h3
        refine ⟨.string w :: body, evs, k + 1, .junk (by intro h; cases h) (by intro h; cases h) (by intro h; cases h) (by intro _ h; cases h) h1, h2, by omega, ?_⟩
        rcases h4 with ⟨name, rest, e, h5, h6⟩ | ⟨h5, h6, h7⟩
        · exact Or.inl ⟨name, rest, by rw [e]; rfl, h5, h6⟩
        · refine Or.inr ⟨h5, ?_, h7⟩
          rcases h6 with rfl | rfl
          · exact Or.inl rfl
          · exact Or.inr rfl
      | literal w =>
        rw [htok] at h
        dsimp only at h
        obtain ⟨body, evs, k, h1, h2, h3, h4⟩ := ih { s.get.2 with msgs := s.get.2.msgs + 1 } s' t hy' h
        have h3' : s'.msgs = s.msgs + 1 + k := h3
        refine ⟨.literal w :: body, evs, k + 1, .junk (by intro h; cases h) (by intro h; cases h) (by intro h; cases h) (by intro _ h; cases h) h1, h2, by omega, ?_⟩
        rcases h4 with ⟨name, rest, e, h5, h6⟩ | ⟨h5, h6, h7⟩
        · exact Or.inl ⟨name, rest, by rw [e]; rfl, h5, h6⟩
        · refine Or.inr ⟨h5, ?_, h7⟩
          rcases h6 with rfl | rfl
          · exact Or.inl rfl
          · exact Or.inr rfl

/-! ### Completeness -/

/-- What may follow statements -/
def TailOk (g : Nat → Bytes → Option Kind) (ctx : Nat) (block : Bool) (body ts : List Tok) : Prop :=
  (∃ name rest, ts = body ++ .ident name :: rest ∧ g ctx name = some .close) ∨ (block = false ∧ (body = ts ∨ body = ts ++ [.nl]))

/-- ... and what is left then -/
def PostOk (g : Nat → Bytes → Option Kind) (ctx : Nat) (block : Bool) (body ts : List Tok) (s' : PSt (List Ev)) : Prop :=
  (∃ name rest, ts = body ++ .ident name :: rest ∧ g ctx name = some .close ∧ Yields s'.inp rest) ∨ (block = false ∧ (body = ts ∨ body = ts ++ [.nl]) ∧ s'.inp = [])

theorem snoc_split {α : Type} {x : α} {ts front t : List α} (h : front ++ x :: t = ts ++ [x]) : (t = [] ∧ ts = front) ∨ ∃ t0, ts = front ++ x :: t0 ∧ t = t0 ++ [x] := by
  rcases List.eq_nil_or_concat t with rfl | ⟨t0, y, rfl⟩
  · left
    have := List.append_inj' h rfl
    exact ⟨rfl, this.1.symm⟩
  · right
    have h' : (front ++ x :: t0) ++ [y] = ts ++ [x] := by simpa using h
    have := List.append_inj' h' rfl
    refine ⟨t0, this.1.symm, ?_⟩
    have e := this.2
    simp at e
    rw [e]; simp

theorem tail_nl {g : Nat → Bytes → Option Kind} {ctx : Nat} {block : Bool} {front t ts : List Tok} (h : TailOk g ctx block (front ++ .nl :: t) ts) :
    (∃ ts', ts = front ++ .nl :: ts' ∧ TailOk g ctx block t ts' ∧ ∀ s', PostOk g ctx block t ts' s' → PostOk g ctx block (front ++ .nl :: t) ts s') ∨
    (block = false ∧ t = [] ∧ ts = front) := by
  rcases h with ⟨name, rest, e, hc⟩ | ⟨hb, e | e⟩
  · left
    refine ⟨t ++ .ident name :: rest, by rw [e]; simp, Or.inl ⟨name, rest, rfl, hc⟩, ?_⟩
    rintro s' (⟨n2, r2, e2, h2, h3⟩ | ⟨h1, h2, h3⟩)
    · exact Or.inl ⟨n2, r2, by rw [e]; simp [e2], h2, h3⟩
    · refine Or.inr ⟨h1, ?_, h3⟩
      rcases h2 with h2 | h2
      · simp at h2
      · have := congrArg List.length h2; simp at this
  · left
    subst e
    exact ⟨t, rfl, Or.inr ⟨hb, Or.inl rfl⟩, fun s' h => by
      rcases h with ⟨n2, r2, e2, -⟩ | ⟨h1, h2, h3⟩
      · simp at e2
      · exact Or.inr ⟨h1, Or.inl rfl, h3⟩⟩
  · rcases snoc_split e with ⟨rfl, rfl⟩ | ⟨t0, rfl, rfl⟩
    · exact Or.inr ⟨hb, rfl, rfl⟩
    · left
      refine ⟨t0, rfl, Or.inr ⟨hb, Or.inr rfl⟩, ?_⟩
      rintro s' (⟨n2, r2, e2, -⟩ | ⟨h1, h2, h3⟩)
      · have := congrArg List.length e2; simp at this
      · exact Or.inr ⟨h1, Or.inr (by simp), h3⟩

theorem tail_tok {g : Nat → Bytes → Option Kind} {ctx : Nat} {block : Bool} {u : Tok} {t ts : List Tok} (hu : u ≠ .nl) (h : TailOk g ctx block (u :: t) ts) :
    ∃ ts', ts = u :: ts' ∧ TailOk g ctx block t ts' ∧ ∀ s', PostOk g ctx block t ts' s' → PostOk g ctx block (u :: t) ts s' := by
  rcases h with ⟨name, rest, e, hc⟩ | ⟨hb, e | e⟩
  · refine ⟨t ++ .ident name :: rest, by rw [e]; simp, Or.inl ⟨name, rest, rfl, hc⟩, ?_⟩
    rintro s' (⟨n2, r2, e2, h2, h3⟩ | ⟨h1, h2, h3⟩)
    · exact Or.inl ⟨n2, r2, by rw [e]; simp [e2], h2, h3⟩
    · refine Or.inr ⟨h1, ?_, h3⟩
      rcases h2 with h2 | h2
      · simp at h2
      · have := congrArg List.length h2; simp at this
  · subst e
    exact ⟨t, rfl, Or.inr ⟨hb, Or.inl rfl⟩, fun s' h => by
      rcases h with ⟨n2, r2, e2, -⟩ | ⟨h1, h2, h3⟩
      · simp at e2
      · exact Or.inr ⟨h1, Or.inl rfl, h3⟩⟩
  · cases ts with
    | nil => simp at e; exact absurd e.1 hu
    | cons v ts' =>
      simp only [List.cons_append, List.cons.injEq] at e
      obtain ⟨rfl, rfl⟩ := e
      refine ⟨ts', rfl, Or.inr ⟨hb, Or.inr rfl⟩, ?_⟩
      rintro s' (⟨n2, r2, e2, -⟩ | ⟨h1, h2, h3⟩)
      · have := congrArg List.length e2; simp at this
      · exact Or.inr ⟨h1, Or.inr rfl, h3⟩

/-- A run of the parser with enough fuel -/
def Runs (g : Nat → Bytes → Option Kind) (ctx : Nat) (body : List Tok) (evs : List Ev) (k N : Nat) : Prop :=
  ∀ F, N ≤ F → ∀ depth, N ≤ depth → ∀ fuel, N ≤ fuel → ∀ (block : Bool) (s : PSt (List Ev)) (ts : List Tok), Yields s.inp ts → TailOk g ctx block body ts →
    ∃ s', cfgparser (gramCfg g (sectParser g F depth) ctx block) fuel s = some (.ok, s') ∧ s'.data = s.data ++ evs ∧ s'.msgs = s.msgs + k ∧ PostOk g ctx block body ts s'

theorem runs_complete {g : Nat → Bytes → Option Kind} {ctx : Nat} {body : List Tok} {evs : List Ev} {k : Nat} (h : Stmts g ctx body evs k) :
    ∃ N, Runs g ctx body evs k N := by
  have hlk : ∀ (sub : Nat → StmtParser (List Ev)) ctx block name k, g ctx name = some k →
      (gramCfg g sub ctx block).lookup name = some ⟨kindParser sub ctx name k, 0, false⟩ := by
    intro sub ctx block name k h
    unfold ParserCfg.lookup gramCfg
    dsimp only
    rw [h]; rfl
  -- at the end of the file
  have hnil : ∀ ctx, Runs g ctx [] [] 0 1 := by
    intro ctx F hF depth hd fuel hf block s ts hy ht
    obtain ⟨fuel, rfl⟩ : ∃ f, fuel = f + 1 := ⟨fuel - 1, by omega⟩
    have hend : ∀ (hb : block = false) (he : (gettkn s.inp).1 = .eof),
        cfgparser (gramCfg g (sectParser g F depth) ctx block) (fuel + 1) s = some (.ok, s.get.2) ∧ s.get.2.inp = [] := by
      intro hb he
      subst hb
      unfold cfgparser
      dsimp only
      have : s.get.1 = .eof := he
      rw [this]
      exact ⟨rfl, gettkn_eof _ he⟩
    rcases ht with ⟨name, rest, rfl, hc⟩ | ⟨hb, e | e⟩
    · obtain ⟨e, -, hy'⟩ := yields_cons hy
      refine ⟨s.get.2, ?_, by show s.data = _; simp, rfl, Or.inl ⟨name, rest, rfl, hc, hy'⟩⟩
      unfold cfgparser
      dsimp only
      have : s.get.1 = .ident name := e
      rw [this]
      dsimp only
      rw [hlk _ _ _ _ _ hc]
      rfl
    · subst e
      obtain ⟨h1, h2⟩ := hend hb (yields_nil hy)
      exact ⟨_, h1, by show s.data = _; simp, rfl, Or.inr ⟨hb, Or.inl rfl, h2⟩⟩
    · simp at e
  -- after a statement
  have after : ∀ {ctx : Nat} {t : List Tok} {e : List Ev} {n N : Nat}, Runs g ctx t e n N → ∀ F, N ≤ F → ∀ depth, N ≤ depth → ∀ fuel, N + 1 ≤ fuel →
      ∀ (block : Bool) (r2 : PSt (List Ev)) (front ts ts0 : List Tok), Yields r2.inp ts0 → ts = front ++ ts0 → TailOk g ctx block (front ++ .nl :: t) ts →
      ∃ s', (match r2.get.1 with
                | .nl => if (gramCfg g (sectParser g F depth) ctx block).single = true then some (.okNonl, r2.get.2) else cfgparser (gramCfg g (sectParser g F depth) ctx block) fuel r2.get.2
                | .eof => if (gramCfg g (sectParser g F depth) ctx block).single = true then some (.okNonl, r2.get.2) else cfgparser (gramCfg g (sectParser g F depth) ctx block) fuel r2.get.2
                | _ => some (.fail, { r2.get.2 with msgs := r2.get.2.msgs + 1 })) = some (PRes.ok, s') ∧
        s'.data = r2.data ++ e ∧ s'.msgs = r2.msgs + n ∧ PostOk g ctx block (front ++ .nl :: t) ts s' := by
    intro ctx t e n N hR F hF depth hd fuel hf block r2 front ts ts0 hy ets ht
    have hsg : (gramCfg g (sectParser g F depth) ctx block).single = false := rfl
    rcases tail_nl ht with ⟨ts', e1, ht', hpost⟩ | ⟨hb, rfl, e1⟩
    · have : ts0 = .nl :: ts' := by
        rw [ets] at e1
        exact List.append_cancel_left e1
      subst this
      obtain ⟨en, -, hy'⟩ := yields_cons hy
      have en' : r2.get.1 = .nl := en
      obtain ⟨s', h1, h2, h3, h4⟩ := hR F hF depth hd fuel (by omega) block r2.get.2 ts' hy' ht'
      refine ⟨s', ?_, h2, h3, hpost s' h4⟩
      rw [en']
      dsimp only
      rw [hsg]
      exact h1
    · have : ts0 = [] := by
        rw [ets] at e1
        have := congrArg List.length e1
        simp at this
        exact this
      subst this
      have he := yields_nil hy
      have he' : r2.get.1 = .eof := he
      have hy' : Yields r2.get.2.inp [] := by
        have : r2.get.2.inp = [] := gettkn_eof _ he
        rw [this]; exact yields_empty
      obtain ⟨s', h1, h2, h3, h4⟩ := hR F hF depth hd fuel (by omega) block r2.get.2 [] hy' (Or.inr ⟨hb, Or.inl rfl⟩)
      refine ⟨s', ?_, h2, h3, ?_⟩
      · rw [he']
        dsimp only
        rw [hsg]
        exact h1
      · rcases h4 with ⟨_, _, e, -⟩ | ⟨-, -, h5⟩
        · simp at e
        · exact Or.inr ⟨hb, Or.inr (by rw [e1]), h5⟩
  induction h with
  | nil => exact ⟨1, hnil _⟩
  | blank h ih =>
    rename_i ctx t e n
    obtain ⟨N, hR⟩ := ih
    refine ⟨N + 2, ?_⟩
    intro F hF depth hd fuel hf block s ts hy ht
    obtain ⟨fuel, rfl⟩ : ∃ f, fuel = f + 1 := ⟨fuel - 1, by omega⟩
    rcases tail_nl (front := []) ht with ⟨ts', e1, ht', hpost⟩ | ⟨hb, rfl, e1⟩
    · rw [e1] at hy
      obtain ⟨en, -, hy'⟩ := yields_cons hy
      have en' : s.get.1 = .nl := en
      obtain ⟨s', h1, h2, h3, h4⟩ := hR F (by omega) depth (by omega) fuel (by omega) block s.get.2 ts' hy' ht'
      refine ⟨s', ?_, h2, h3, hpost s' h4⟩
      unfold cfgparser
      dsimp only
      rw [en']
      exact h1
    · subst e1
      obtain ⟨s', h1, h2, h3, h4⟩ := hR F (by omega) depth (by omega) (fuel + 1) (by omega) block s [] hy (Or.inr ⟨hb, Or.inl rfl⟩)
      refine ⟨s', h1, h2, h3, ?_⟩
      rcases h4 with ⟨_, _, e, -⟩ | ⟨-, -, h5⟩
      · simp at e
      · exact Or.inr ⟨hb, Or.inr rfl, h5⟩
  | stmt hg ha h ih =>
    rename_i ctx name ps a t e n
    obtain ⟨N, hR⟩ := ih
    refine ⟨N + 2, ?_⟩
    intro F hF depth hd fuel hf block s ts hy ht
    obtain ⟨fuel, rfl⟩ : ∃ f, fuel = f + 1 := ⟨fuel - 1, by omega⟩
    have hx : ∃ ts0, ts = (.ident name :: a) ++ ts0 := by
      rcases tail_nl (front := .ident name :: a) ht with ⟨ts', e1, -⟩ | ⟨-, -, e1⟩
      · exact ⟨_, e1⟩
      · exact ⟨[], by rw [e1]; simp⟩
    obtain ⟨ts0, ets⟩ := hx
    have hy0 := hy
    rw [ets] at hy
    obtain ⟨en, -, hy'⟩ := yields_cons hy
    have en' : s.get.1 = .ident name := en
    obtain ⟨s1, h1, h2, h3, h4⟩ := readArgs_complete ha s.get.2 ts0 hy'
    obtain ⟨s', h5, h6, h7, h8⟩ := after hR F (by omega) depth (by omega) fuel (by omega) block { s1 with data := s1.data ++ [.stmt ctx name a] } (.ident name :: a) ts ts0 h2 ets ht
    refine ⟨s', ?_, ?_, ?_, h8⟩
    · unfold cfgparser
      dsimp only
      rw [en']
      dsimp only
      rw [hlk _ _ _ _ _ hg]
      dsimp only
      simp only [Bool.false_and, Bool.false_eq_true, if_false]
      unfold kindParser
      dsimp only
      rw [h1]
      exact h5
    · rw [h6]
      dsimp only
      rw [h3]
      show s.data ++ _ ++ _ = _
      simp
    · rw [h7]
      dsimp only
      rw [h4]
      rfl
  | sect hg ha h1 hc h2 ih1 ih2 =>
    rename_i ctx ctx' name close ps a body t e1 e2 n1 n2
    obtain ⟨N1, hR1⟩ := ih1
    obtain ⟨N2, hR2⟩ := ih2
    refine ⟨N1 + N2 + 2, ?_⟩
    intro F hF depth hd fuel hf block s ts hy ht
    obtain ⟨fuel, rfl⟩ : ∃ f, fuel = f + 1 := ⟨fuel - 1, by omega⟩
    have ht' : TailOk g ctx block ((.ident name :: (a ++ (body ++ [.ident close]))) ++ .nl :: t) ts := by simpa using ht
    have hx : ∃ ts0, ts = (.ident name :: (a ++ (body ++ [.ident close]))) ++ ts0 := by
      rcases tail_nl ht' with ⟨ts', e1, -⟩ | ⟨-, -, e1⟩
      · exact ⟨_, e1⟩
      · exact ⟨[], by rw [e1]; simp⟩
    obtain ⟨ts0, ets⟩ := hx
    rw [ets] at hy
    obtain ⟨en, -, hy'⟩ := yields_cons hy
    have en' : s.get.1 = .ident name := en
    have hy'' : Yields s.get.2.inp (a ++ (body ++ .ident close :: ts0)) := by
      have : Yields s.get.2.inp (a ++ (body ++ [.ident close]) ++ ts0) := hy'
      simpa using this
    obtain ⟨s1, h3, h4, h5, h6⟩ := readArgs_complete ha s.get.2 _ hy''
    obtain ⟨d', rfl⟩ : ∃ d', depth = d' + 1 := ⟨depth - 1, by omega⟩
    obtain ⟨s2, h7, h8, h9, h10⟩ := hR1 F (by omega) d' (by omega) F (by omega) true { s1 with data := s1.data ++ [.opened ctx name a] } _ h4 (Or.inl ⟨close, ts0, rfl, hc⟩)
    have hy2 : Yields s2.inp ts0 := by
      rcases h10 with ⟨nm, rest, e, -, h⟩ | ⟨hb, -⟩
      · have := List.append_cancel_left e
        simp at this
        rw [this.2]; exact h
      · cases hb
    obtain ⟨s', h11, h12, h13, h14⟩ := after hR2 F (by omega) (d' + 1) (by omega) fuel (by omega) block { s2 with data := s2.data ++ [.closed] }
      (.ident name :: (a ++ (body ++ [.ident close]))) ts ts0 hy2 ets ht'
    have hbody : (.ident name :: (a ++ (body ++ [.ident close]))) ++ .nl :: t = Tok.ident name :: (a ++ (body ++ .ident close :: .nl :: t)) := by simp
    rw [hbody] at h14
    refine ⟨s', ?_, ?_, ?_, h14⟩
    · unfold cfgparser
      dsimp only
      rw [en']
      dsimp only
      rw [hlk _ _ _ _ _ hg]
      dsimp only
      simp only [Bool.false_and, Bool.false_eq_true, if_false]
      unfold kindParser
      dsimp only
      rw [h3]
      dsimp only
      have hsub : sectParser g F (d' + 1) ctx' { s1 with data := s1.data ++ [.opened ctx name a] } = (.ok, s2) := by
        show (cfgparser (gramCfg g (sectParser g F d') ctx' true) F { s1 with data := s1.data ++ [.opened ctx name a] }).getD _ = _
        rw [h7]
        rfl
      rw [hsub]
      exact h11
    · rw [h12]
      dsimp only
      rw [h8]
      dsimp only
      rw [h5]
      show s.data ++ _ ++ _ ++ _ ++ _ = _
      simp
    · rw [h13]
      dsimp only
      rw [h9]
      dsimp only
      rw [h6]
      show s.msgs + n1 + n2 = _
      omega
  | junk u1 u2 u3 u4 h ih =>
    rename_i ctx u t e n
    obtain ⟨N, hR⟩ := ih
    refine ⟨N + 1, ?_⟩
    intro F hF depth hd fuel hf block s ts hy ht
    obtain ⟨fuel, rfl⟩ : ∃ f, fuel = f + 1 := ⟨fuel - 1, by omega⟩
    obtain ⟨ts', e1, ht', hpost⟩ := tail_tok u2 ht
    rw [e1] at hy
    obtain ⟨en, -, hy'⟩ := yields_cons hy
    have en' : s.get.1 = u := en
    obtain ⟨s', h1, h2, h3, h4⟩ := hR F (by omega) depth (by omega) fuel (by omega) block { s.get.2 with msgs := s.get.2.msgs + 1 } ts' hy' ht'
    refine ⟨s', ?_, h2, ?_, hpost s' h4⟩
    · unfold cfgparser
      dsimp only
      rw [en']
      cases u with
      | eof => exact absurd rfl u1
      | nl => exact absurd rfl u2
      | error => exact absurd rfl u3
      | ident x => exact absurd rfl (u4 x)
      | _ => exact h1
    · rw [h3]
      show s.msgs + 1 + n = _
      omega

/-! ### Files -/

theorem cfgparser_res {g : Nat → Bytes → Option Kind} {sub : Nat → StmtParser (List Ev)} {ctx : Nat} {block : Bool} :
    ∀ (fuel : Nat) (s : PSt (List Ev)) r s', cfgparser (gramCfg g sub ctx block) fuel s = some (r, s') → r = .ok ∨ r = .fail := by
  intro fuel
  induction fuel with
  | zero => intro s r s' h; cases h
  | succ fuel ih =>
    intro s r s' h
    unfold cfgparser at h
    dsimp only at h
    have hsg : (gramCfg g sub ctx block).single = false := rfl
    rw [hsg] at h
    simp only [Bool.false_eq_true, if_false] at h
    split at h
    · split at h
      · cases h; exact Or.inr rfl
      · cases h; exact Or.inl rfl
    · cases h; exact Or.inr rfl
    · exact ih _ _ _ h
    · split at h
      · cases h; exact Or.inr rfl
      · split at h
        · cases h; exact Or.inr rfl
        · split at h
          · split at h
            · exact ih _ _ _ h
            · exact ih _ _ _ h
            · cases h; exact Or.inr rfl
          · exact ih _ _ _ h
          · cases h; exact Or.inr rfl
          · cases h; exact Or.inl rfl
    · exact ih _ _ _ h

theorem sectParser_res {g : Nat → Bytes → Option Kind} {fuel : Nat} (depth ctx : Nat) (s : PSt (List Ev)) :
    (sectParser g fuel depth ctx s).1 = .ok ∨ (sectParser g fuel depth ctx s).1 = .fail := by
  cases depth with
  | zero => exact Or.inr rfl
  | succ d =>
    have e : sectParser g fuel (d + 1) ctx s = (cfgparser (gramCfg g (sectParser g fuel d) ctx true) fuel s).getD (.fail, s) := rfl
    rw [e]
    cases h : cfgparser (gramCfg g (sectParser g fuel d) ctx true) fuel s with
    | none => exact Or.inr rfl
    | some x => exact cfgparser_res fuel s x.1 x.2 h

theorem sectParser_sound {g : Nat → Bytes → Option Kind} {fuel : Nat} : ∀ (depth ctx : Nat) (s s' : PSt (List Ev)) (ts : List Tok), Yields s.inp ts →
    sectParser g fuel depth ctx s = (.ok, s') → ParsedOk g ctx true s s' ts := by
  intro depth
  induction depth with
  | zero =>
    intro ctx s s' ts _ h
    have : sectParser g fuel 0 ctx s = (.fail, s) := rfl
    rw [this] at h
    cases h
  | succ d ih =>
    intro ctx s s' ts hy h
    have e : sectParser g fuel (d + 1) ctx s = (cfgparser (gramCfg g (sectParser g fuel d) ctx true) fuel s).getD (.fail, s) := rfl
    rw [e] at h
    cases hc : cfgparser (gramCfg g (sectParser g fuel d) ctx true) fuel s with
    | none => rw [hc] at h; cases h
    | some x =>
      rw [hc] at h
      have : x = (.ok, s') := h
      subst this
      exact parsed_sect ih (fun c s => sectParser_res d c s) ctx true fuel s s' ts hy hc

theorem yields_exists_one (id : Nat) : ∀ (n : Nat) (text : Bytes), text.length ≤ n → ∃ ts, Yields [⟨id, text, []⟩] ts := by
  intro n
  induction n with
  | zero =>
    intro text h
    have : text = [] := List.length_eq_zero_iff.mp (by omega)
    subst this
    exact ⟨[], .done rfl⟩
  | succ n ih =>
    intro text h
    have hg : gettkn [⟨id, text, []⟩] = if (lexTok text).tok = .eof then (.eof, []) else ((lexTok text).tok, [⟨id, (lexTok text).rest, []⟩]) := rfl
    rcases lexTok_progress text with he | hp
    · rw [if_pos he] at hg
      exact ⟨[], .done (by rw [hg])⟩
    · by_cases he : (lexTok text).tok = .eof
      · rw [if_pos he] at hg
        exact ⟨[], .done (by rw [hg])⟩
      · rw [if_neg he] at hg
        obtain ⟨ts, hts⟩ := ih (lexTok text).rest (by omega)
        refine ⟨(gettkn [⟨id, text, []⟩]).1 :: ts, .more (by rw [hg]; exact he) (by rw [hg]; exact hts)⟩

/-! ### Look-up -/

theorem find_append' {α : Type} (p : α → Bool) (l1 l2 : List α) : (l1 ++ l2).find? p = (l1.find? p).or (l2.find? p) := List.find?_append

theorem parserFind_entries {π : Type} (name : Bytes) {prev : Option (KEntry π)} {tab : List (KEntry π)} {l : List (Bytes × Option (Found π))} (h : Entries prev tab l) :
    parserFind name prev tab = (match l.find? (fun x => ciEq x.1 name) with
      | none => .ok none
      | some (_, some f) => .ok (some f)
      | some (_, none) => .ub) := by
  induction h with
  | nil => unfold parserFind; rfl
  | reg h ih =>
    rename_i n p a d r l
    unfold parserFind
    rw [List.find?_cons]
    by_cases hc : ciEq n name = true
    · rw [if_pos hc]; simp [hc]
    · rw [if_neg hc, ih]; simp [hc]
  | alias h ih =>
    rename_i n m p a d d' r l
    unfold parserFind
    rw [List.find?_cons]
    by_cases hc : ciEq n name = true
    · rw [if_pos hc]; simp [hc, aliasOf]
    · rw [if_neg hc, ih]; simp [hc]
  | noAlias hp h ih =>
    rename_i prev n d r l
    unfold parserFind
    rw [List.find?_cons]
    by_cases hc : ciEq n name = true
    · rw [if_pos hc]
      have : aliasOf prev d = none := by
        unfold aliasOf
        split
        · rename_i m p a d' ; exact absurd rfl (hp m p a d')
        · rfl
      rw [this]; simp [hc]
    · rw [if_neg hc, ih]; simp [hc]
  | tabref h1 h2 ih1 ih2 =>
    rename_i prev t r l1 l2
    unfold parserFind
    rw [ih1, List.find?_append]
    cases hf : l1.find? (fun x => ciEq x.1 name) with
    | none => simpa using ih2
    | some x =>
      obtain ⟨a, o⟩ := x
      cases o <;> rfl
  | softref h1 h2 ih1 ih2 =>
    rename_i prev t r arg l1 l2
    unfold parserFind
    rw [ih1, List.find?_append, List.find?_map]
    have hcomp : ((fun x : Bytes × Option (Found π) => ciEq x.1 name) ∘ fun x : Bytes × Option (Found π) => (x.1, x.2.map fun f => { f with arg := arg })) = fun x => ciEq x.1 name := rfl
    rw [hcomp]
    cases hf : l1.find? (fun x => ciEq x.1 name) with
    | none => simpa using ih2
    | some x =>
      obtain ⟨a, o⟩ := x
      cases o <;> rfl

theorem entries_exist {π : Type} : ∀ (tab : List (KEntry π)) (prev : Option (KEntry π)), ∃ l, Entries prev tab l
  | [], _ => ⟨[], .nil⟩
  | .reg n p a d :: r, prev => by
    obtain ⟨l, h⟩ := entries_exist r (some (.reg n p a d))
    exact ⟨_, .reg h⟩
  | .alias n d :: r, prev => by
    by_cases hp : ∃ m p a d', prev = some (.reg m p a d')
    · obtain ⟨m, p, a, d', rfl⟩ := hp
      obtain ⟨l, h⟩ := entries_exist r (some (.reg m p a d'))
      exact ⟨_, .alias h⟩
    · obtain ⟨l, h⟩ := entries_exist r prev
      exact ⟨_, .noAlias (fun m p a d' e => hp ⟨m, p, a, d', e⟩) h⟩
  | .tabref t :: r, prev => by
    obtain ⟨l1, h1⟩ := entries_exist t none
    obtain ⟨l2, h2⟩ := entries_exist r (some (.tabref t))
    exact ⟨_, .tabref h1 h2⟩
  | .softref t a :: r, prev => by
    obtain ⟨l1, h1⟩ := entries_exist t none
    obtain ⟨l2, h2⟩ := entries_exist r (some (.softref t a))
    exact ⟨_, .softref h1 h2⟩

theorem stmts_snoc {g : Nat → Bytes → Option Kind} {ctx : Nat} {t : List Tok} {e : List Ev} {n : Nat} (h : Stmts g ctx t e n) : Stmts g ctx (t ++ [.nl]) e n := by
  induction h with
  | nil => exact .blank .nil
  | blank _ ih => exact .blank ih
  | stmt hg ha _ ih =>
    have := Stmts.stmt hg ha ih
    simpa using this
  | sect hg ha h1 hc _ _ ih2 =>
    have := Stmts.sect hg ha h1 hc ih2
    simpa using this
  | junk h1 h2 h3 h4 _ ih => exact .junk h1 h2 h3 h4 ih

/-- A run never fails to end: at most one round for each token -/
theorem cfgparser_ends {g : Nat → Bytes → Option Kind} {F depth ctx : Nat} {block : Bool} :
    ∀ (fuel : Nat) (s : PSt (List Ev)) (ts : List Tok), Yields s.inp ts → ts.length + 2 ≤ fuel → cfgparser (gramCfg g (sectParser g F depth) ctx block) fuel s ≠ none := by
  intro fuel
  induction fuel with
  | zero => intro s ts _ h; omega
  | succ fuel ih =>
    intro s ts hy hf h
    unfold cfgparser at h
    dsimp only at h
    have hsg : (gramCfg g (sectParser g F depth) ctx block).single = false := rfl
    rw [hsg] at h
    simp only [Bool.false_eq_true, if_false] at h
    -- the end of the file once more
    have hend : ∀ (s : PSt (List Ev)), s.inp = [] → 1 ≤ fuel → cfgparser (gramCfg g (sectParser g F depth) ctx block) fuel s ≠ none := by
      intro s hs h1 h2
      obtain ⟨f, rfl⟩ : ∃ f, fuel = f + 1 := ⟨fuel - 1, by omega⟩
      unfold cfgparser at h2
      dsimp only at h2
      have : s.get.1 = .eof := by unfold PSt.get; rw [hs]; rfl
      rw [this] at h2
      dsimp only at h2
      split at h2 <;> cases h2
    rcases yields_cases hy with ⟨rfl, he, -⟩ | ⟨t, rfl, hne, hy'⟩
    · have : s.get.1 = .eof := he
      rw [this] at h
      dsimp only at h
      split at h <;> cases h
    · have hl : t.length + 2 ≤ fuel := by simp at hf; omega
      have e1 : s.get.1 = (gettkn s.inp).1 := rfl
      rw [e1] at h
      cases htok : (gettkn s.inp).1 with
      | eof => exact absurd htok hne
      | error => rw [htok] at h; cases h
      | nl => rw [htok] at h; exact ih s.get.2 t hy' hl h
      | number w => rw [htok] at h; exact ih { s.get.2 with msgs := s.get.2.msgs + 1 } t hy' hl h
      | string w => rw [htok] at h; exact ih { s.get.2 with msgs := s.get.2.msgs + 1 } t hy' hl h
      | literal w => rw [htok] at h; exact ih { s.get.2 with msgs := s.get.2.msgs + 1 } t hy' hl h
      | ident name =>
        rw [htok] at h
        dsimp only at h
        have after : ∀ (r2 : PSt (List Ev)) (rest : List Tok), Yields r2.inp rest → rest.length ≤ t.length →
            (match r2.get.1 with
              | .nl => cfgparser (gramCfg g (sectParser g F depth) ctx block) fuel r2.get.2
              | .eof => cfgparser (gramCfg g (sectParser g F depth) ctx block) fuel r2.get.2
              | _ => some (.fail, { r2.get.2 with msgs := r2.get.2.msgs + 1 })) ≠ none := by
          intro r2 rest hyr hlr hh
          rcases yields_cases hyr with ⟨rfl, he, he2⟩ | ⟨t', rfl, -, hyr'⟩
          · have : r2.get.1 = .eof := he
            rw [this] at hh
            exact hend r2.get.2 he2 (by omega) hh
          · have hl' : t'.length + 2 ≤ fuel := by simp at hlr; omega
            split at hh
            · exact ih _ t' hyr' hl' hh
            · exact ih _ t' hyr' hl' hh
            · cases hh
        have hlk : (gramCfg g (sectParser g F depth) ctx block).lookup name =
            match g ctx name with
            | some k => some ⟨kindParser (sectParser g F depth) ctx name k, 0, false⟩
            | none => if ciEq b!"Include" name then some ⟨fun s => (.fail, { s with msgs := s.msgs + 1 }), 0, false⟩ else none := by
          unfold ParserCfg.lookup gramCfg
          dsimp only
          cases g ctx name <;> rfl
        rw [hlk] at h
        cases hgn : g ctx name with
        | none =>
          rw [hgn] at h
          dsimp only at h
          split at h
          · cases h
          · rename_i f hf
            split at hf
            · cases hf; simp at h
            · cases hf
        | some kd =>
          rw [hgn] at h
          dsimp only at h
          simp only [Bool.false_and, Bool.false_eq_true, if_false] at h
          cases kd with
          | close => unfold kindParser at h; cases h
          | simple ps =>
            unfold kindParser at h
            dsimp only at h
            cases hr : readArgs ps s.get.2 with
            | mk o s1 =>
              rw [hr] at h
              cases o with
              | none => dsimp only at h; cases h
              | some a =>
                dsimp only at h
                obtain ⟨r, e, -, hyr, -, -⟩ := readArgs_ok ps _ a s1 t hy' hr
                exact after { s1 with data := s1.data ++ [.stmt ctx name a] } r hyr (by rw [e]; simp) h
          | sect ps ctx' =>
            unfold kindParser at h
            dsimp only at h
            cases hr : readArgs ps s.get.2 with
            | mk o s1 =>
              rw [hr] at h
              cases o with
              | none => dsimp only at h; cases h
              | some a =>
                dsimp only at h
                obtain ⟨r, e, -, hyr, -, -⟩ := readArgs_ok ps _ a s1 t hy' hr
                cases hsub : sectParser g F depth ctx' { s1 with data := s1.data ++ [.opened ctx name a] } with
                | mk rr s2 =>
                  have hk' := sectParser_res (g := g) (fuel := F) depth ctx' { s1 with data := s1.data ++ [.opened ctx name a] }
                  rw [hsub] at h hk'
                  dsimp only at h hk'
                  rcases hk' with rfl | rfl
                  · rw [if_pos rfl] at h
                    dsimp only at h
                    obtain ⟨body, evs, k, -, -, -, h4⟩ := sectParser_sound depth ctx' { s1 with data := s1.data ++ [.opened ctx name a] } s2 r hyr hsub
                    rcases h4 with ⟨nm, rest, er, -, h6, -⟩ | ⟨h5, -, -⟩
                    · exact after { s2 with data := s2.data ++ [.closed] } rest h6 (by rw [e, er]; simp; omega) h
                    · cases h5
                  · rw [if_neg (by intro h; cases h)] at h
                    dsimp only at h
                    cases h

/-! ### Messages -/

/-- On fewer than `n` tokens, a parser takes no message back, leaves no more tokens than there were, and prints a message if it fails. -/
def Loud (n : Nat) (p : StmtParser (List Ev)) : Prop :=
  ∀ (s : PSt (List Ev)) (ts : List Tok), Yields s.inp ts → ts.length < n →
    s.msgs ≤ (p s).2.msgs ∧ ((p s).1 = .fail → s.msgs < (p s).2.msgs) ∧ ((p s).1 ≠ .fail → ∃ r, Yields (p s).2.inp r ∧ r.length ≤ ts.length)

theorem readArgs_loud {σ : Type} : ∀ (ps : List (Tok → Bool)) (s : PSt σ), s.msgs ≤ (readArgs ps s).2.msgs ∧ ((readArgs ps s).1 = none → s.msgs < (readArgs ps s).2.msgs)
  | [], s => ⟨Nat.le_refl _, fun h => by cases h⟩
  | p :: ps, s => by
    unfold readArgs
    split
    · exact ⟨Nat.le_succ _, fun _ => Nat.lt_succ_self _⟩
    · have := readArgs_loud ps s.get.2
      refine ⟨this.1, fun h => this.2 ?_⟩
      cases hr : (readArgs ps s.get.2).1 with
      | none => rfl
      | some a => rw [hr] at h; cases h

theorem kindParser_loud {sub : Nat → StmtParser (List Ev)} {n : Nat} (hs : ∀ ctx, Loud n (sub ctx)) (ctx : Nat) (name : Bytes) (k : Kind) : Loud n (kindParser sub ctx name k) := by
  intro s ts hy hn
  cases k with
  | close =>
    unfold kindParser
    exact ⟨Nat.le_refl _, fun h => (by cases h), fun _ => ⟨ts, hy, Nat.le_refl _⟩⟩
  | simple ps =>
    unfold kindParser
    dsimp only
    have hl := readArgs_loud ps s
    cases hr : readArgs ps s with
    | mk o s1 =>
      rw [hr] at hl
      cases o with
      | none => exact ⟨hl.1, fun _ => hl.2 rfl, fun h => absurd rfl h⟩
      | some a =>
        obtain ⟨r, e, -, hyr, -, -⟩ := readArgs_ok ps _ a s1 ts hy hr
        exact ⟨hl.1, fun h => (by cases h), fun _ => ⟨r, hyr, by rw [e]; simp⟩⟩
  | sect ps ctx' =>
    unfold kindParser
    dsimp only
    have hl := readArgs_loud ps s
    cases hr : readArgs ps s with
    | mk o s1 =>
      rw [hr] at hl
      cases o with
      | none => exact ⟨hl.1, fun _ => hl.2 rfl, fun h => absurd rfl h⟩
      | some a =>
        dsimp only at hl ⊢
        obtain ⟨r, e, -, hyr, -, -⟩ := readArgs_ok ps _ a s1 ts hy hr
        have hlen : r.length ≤ ts.length := by rw [e]; simp
        obtain ⟨h1, h2, h3⟩ := hs ctx' { s1 with data := s1.data ++ [.opened ctx name a] } r hyr (by omega)
        dsimp only at h1 h2 h3
        split
        · rename_i hc
          obtain ⟨r', h4, h5⟩ := h3 (by rw [hc]; intro h; cases h)
          exact ⟨by dsimp only; omega, fun h => (by cases h), fun _ => ⟨r', h4, by omega⟩⟩
        · refine ⟨by omega, fun h => ?_, fun h => ?_⟩
          · have := h2 h
            omega
          · obtain ⟨r', h4, h5⟩ := h3 h
            exact ⟨r', h4, by omega⟩

theorem cfgparser_loud {g : Nat → Bytes → Option Kind} {sub : Nat → StmtParser (List Ev)} {n : Nat} (hs : ∀ ctx, Loud n (sub ctx)) (ctx : Nat) (block : Bool) :
    ∀ (fuel : Nat) (s s' : PSt (List Ev)) (r : PRes) (ts : List Tok), Yields s.inp ts → ts.length ≤ n → cfgparser (gramCfg g sub ctx block) fuel s = some (r, s') →
      s.msgs ≤ s'.msgs ∧ (r = .fail → s.msgs < s'.msgs) ∧ (r ≠ .fail → ∃ rest, Yields s'.inp rest ∧ rest.length ≤ ts.length) := by
  intro fuel
  induction fuel with
  | zero => intro s s' r ts _ _ h; cases h
  | succ fuel ih =>
    intro s s' r ts hy hn h
    unfold cfgparser at h
    dsimp only at h
    have hsg : (gramCfg g sub ctx block).single = false := rfl
    rw [hsg] at h
    simp only [Bool.false_eq_true, if_false] at h
    have loud : ∀ {q : PSt (List Ev)}, s.msgs ≤ q.msgs → some (PRes.fail, { q with msgs := q.msgs + 1 }) = some (r, s') →
        s.msgs ≤ s'.msgs ∧ (r = .fail → s.msgs < s'.msgs) ∧ (r ≠ .fail → ∃ rest, Yields s'.inp rest ∧ rest.length ≤ ts.length) := fun {q} hq h => by
      cases h
      exact ⟨Nat.le_succ_of_le hq, fun _ => Nat.lt_succ_of_le hq, fun h => absurd rfl h⟩
    have next : ∀ (q : PSt (List Ev)) (t : List Tok), s.msgs ≤ q.msgs → Yields q.inp t → t.length ≤ ts.length → cfgparser (gramCfg g sub ctx block) fuel q = some (r, s') →
        s.msgs ≤ s'.msgs ∧ (r = .fail → s.msgs < s'.msgs) ∧ (r ≠ .fail → ∃ rest, Yields s'.inp rest ∧ rest.length ≤ ts.length) := fun q t hq hyq ht hh => by
      obtain ⟨h1, h2, h3⟩ := ih q s' r t hyq (by omega) hh
      refine ⟨by omega, fun h => by have := h2 h; omega, fun h => ?_⟩
      obtain ⟨rest, h4, h5⟩ := h3 h
      exact ⟨rest, h4, by omega⟩
    have hm : s.get.2.msgs = s.msgs := rfl
    rcases yields_cases hy with ⟨rfl, he, he2⟩ | ⟨t, rfl, hne, hy'⟩
    · have : s.get.1 = .eof := he
      rw [this] at h
      dsimp only at h
      split at h
      · exact loud (q := s.get.2) (Nat.le_refl _) h
      · cases h
        exact ⟨Nat.le_refl _, fun h => (by cases h), fun _ => ⟨[], (by rw [show s.get.2.inp = [] from he2]; exact yields_empty), Nat.le_refl _⟩⟩
    · have hl : t.length ≤ ((gettkn s.inp).1 :: t).length := by simp
      have e1 : s.get.1 = (gettkn s.inp).1 := rfl
      rw [e1] at h
      cases htok : (gettkn s.inp).1 with
      | eof => exact absurd htok hne
      | error => rw [htok] at h; exact loud (q := s.get.2) (Nat.le_refl _) h
      | nl => rw [htok] at h; exact next s.get.2 t (Nat.le_refl _) hy' hl h
      | number w => rw [htok] at h; exact next { s.get.2 with msgs := s.get.2.msgs + 1 } t (Nat.le_succ _) hy' hl h
      | string w => rw [htok] at h; exact next { s.get.2 with msgs := s.get.2.msgs + 1 } t (Nat.le_succ _) hy' hl h
      | literal w => rw [htok] at h; exact next { s.get.2 with msgs := s.get.2.msgs + 1 } t (Nat.le_succ _) hy' hl h
      | ident name =>
        rw [htok] at h
        dsimp only at h
        have hlk : (gramCfg g sub ctx block).lookup name =
            match g ctx name with
            | some k => some ⟨kindParser sub ctx name k, 0, false⟩
            | none => if ciEq b!"Include" name then some ⟨fun s => (.fail, { s with msgs := s.msgs + 1 }), 0, false⟩ else none := by
          unfold ParserCfg.lookup gramCfg
          dsimp only
          cases g ctx name <;> rfl
        rw [hlk] at h
        cases hgn : g ctx name with
        | none =>
          rw [hgn] at h
          dsimp only at h
          split at h
          · exact loud (q := s.get.2) (Nat.le_refl _) h
          · rename_i f hf
            split at hf
            · cases hf
              simp only [Bool.false_and, Bool.false_eq_true, if_false] at h
              exact loud (q := s.get.2) (Nat.le_refl _) h
            · cases hf
        | some kd =>
          rw [hgn] at h
          dsimp only at h
          simp only [Bool.false_and, Bool.false_eq_true, if_false] at h
          obtain ⟨h1, h2, h3⟩ := kindParser_loud hs ctx name kd s.get.2 t hy' (by simp at hn; omega)
          rw [hm] at h1 h2
          cases hp : kindParser sub ctx name kd s.get.2 with
          | mk rr s2 =>
            rw [hp] at h h1 h2 h3
            dsimp only at h h1 h2 h3
            cases rr with
            | fail =>
              cases h
              exact ⟨h1, fun _ => h2 rfl, fun h => absurd rfl h⟩
            | fin =>
              cases h
              obtain ⟨rest, h4, h5⟩ := h3 (by intro h; cases h)
              exact ⟨h1, fun h => (by cases h), fun _ => ⟨rest, h4, by simp only [List.length_cons]; omega⟩⟩
            | okNonl =>
              obtain ⟨rest, h4, h5⟩ := h3 (by intro h; cases h)
              exact next s2 rest h1 h4 (by omega) h
            | ok =>
              obtain ⟨rest, h4, h5⟩ := h3 (by intro h; cases h)
              dsimp only at h
              have hm2 : s2.get.2.msgs = s2.msgs := rfl
              rcases yields_cases h4 with ⟨rfl, he, he2⟩ | ⟨t', rfl, -, hyr'⟩
              · have : s2.get.1 = .eof := he
                rw [this] at h
                exact next s2.get.2 [] h1 (by rw [show s2.get.2.inp = [] from he2]; exact yields_empty) (by simp) h
              · have hl' : t'.length ≤ t.length := by simp at h5; omega
                split at h
                · exact next s2.get.2 t' h1 hyr' (by omega) h
                · exact next s2.get.2 t' h1 hyr' (by omega) h
                · exact loud (q := s2.get.2) (by rw [hm2]; exact h1) h

theorem sectParser_loud {g : Nat → Bytes → Option Kind} {fuel : Nat} : ∀ (depth : Nat), depth + 1 ≤ fuel → ∀ ctx, Loud depth (sectParser g fuel depth ctx)
  | 0, _, _ => fun _ _ _ h => absurd h (Nat.not_lt_zero _)
  | d + 1, hf, ctx => fun s ts hy hn => by
    have e : sectParser g fuel (d + 1) ctx s = (cfgparser (gramCfg g (sectParser g fuel d) ctx true) fuel s).getD (.fail, s) := rfl
    rw [e]
    cases h : cfgparser (gramCfg g (sectParser g fuel d) ctx true) fuel s with
    | none => exact absurd h (cfgparser_ends fuel s ts hy (by omega))
    | some x => exact cfgparser_loud (sectParser_loud d (by omega)) ctx true fuel s x.2 x.1 ts hy (by omega) h

end Pound
