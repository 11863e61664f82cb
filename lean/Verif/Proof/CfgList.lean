import Verif.Proof.CfgParser
import Verif.Model.SvcCfg

namespace Pound

open Spec

/-- The open files and the list of tokens left are the same input. -/
structure RepTok {σ : Type} (s : PSt σ) (l : LSt σ) : Prop where
  data : s.data = l.data
  toks : Yields s.inp l.toks
  msgs : s.msgs = l.errs

/-- The same result, with the same input left; nothing is said of the state after an error. -/
def SameRes {σ : Type} (r : PRes × PSt σ) : LR σ → Prop
  | .ok l => r.1 = .ok ∧ RepTok r.2 l
  | .nonl l => r.1 = .okNonl ∧ RepTok r.2 l
  | .fin l => r.1 = .fin ∧ RepTok r.2 l
  | .fail => r.1 = .fail

/-- A parser on open files that does the same as one on tokens -/
def SameParser {σ : Type} (p : StmtParser σ) (q : LParser σ) : Prop := ∀ s l, RepTok s l → SameRes (p s) (q l)

/-- The same, for a parser that may run out of fuel -/
def SameOpt {σ : Type} (o : Option (PRes × PSt σ)) (r : LR σ) : Prop :=
  match o with
  | none => r = .fail
  | some x => SameRes x r

/-- `cfgL` is `cfgparser` on the tokens of the open files. -/
theorem cfgparser_list {σ : Type} (c : ParserCfg σ) (find : Bytes → Option (LParser σ)) (hd : c.depr = .ok)
    (hf : ∀ name, match c.lookup name, find name with
      | none, none => True
      | some f, some q => SameParser f.p q
      | _, _ => False) :
    ∀ (n : Nat) (s : PSt σ) (l : LSt σ), RepTok s l → SameOpt (cfgparser c n s) (cfgL find c.single c.block n l)
  | 0, s, l, h => rfl
  | n + 1, s, ⟨d, ts, er⟩, h => by
    have ih := cfgparser_list c find hd hf n
    obtain ⟨h1, h2, h3⟩ := h
    simp only at h1 h2 h3
    cases ts with
    | nil =>
      have he := yields_nil h2
      have hg : s.get.1 = .eof := he
      have h0 : s.get.2.inp = [] := gettkn_eof _ he
      unfold cfgparser
      dsimp only
      rw [hg]
      dsimp only
      cases hb : c.block with
      | true => simp [cfgL, SameOpt, SameRes]
      | false =>
        simp only [cfgL, Bool.false_eq_true, if_false]
        exact ⟨rfl, h1, by rw [h0]; exact yields_empty, h3⟩
    | cons t r =>
      obtain ⟨ht, hne, hy⟩ := yields_cons h2
      have hg : s.get.1 = t := ht
      have hy' : Yields s.get.2.inp r := hy
      have hd1 : s.get.2.data = d := h1
      have hm1 : s.get.2.msgs = er := h3
      unfold cfgparser
      dsimp only
      rw [hg]
      cases t with
      | eof => exact absurd rfl hne
      | error => rfl
      | nl => exact ih s.get.2 ⟨d, r, er⟩ ⟨hd1, hy', hm1⟩
      | number x => exact ih { s.get.2 with msgs := s.get.2.msgs + 1 } ⟨d, r, er + 1⟩ ⟨hd1, hy', by simp [hm1]⟩
      | string x => exact ih { s.get.2 with msgs := s.get.2.msgs + 1 } ⟨d, r, er + 1⟩ ⟨hd1, hy', by simp [hm1]⟩
      | literal x => exact ih { s.get.2 with msgs := s.get.2.msgs + 1 } ⟨d, r, er + 1⟩ ⟨hd1, hy', by simp [hm1]⟩
      | ident name =>
        have hfn := hf name
        rw [cfgL]
        dsimp only
        cases hl : c.lookup name with
        | none =>
          rw [hl] at hfn
          cases hq : find name with
          | none => rfl
          | some q => rw [hq] at hfn; exact hfn.elim
        | some f =>
          rw [hl] at hfn
          cases hq : find name with
          | none => rw [hq] at hfn; exact hfn.elim
          | some q =>
            rw [hq] at hfn
            have hs : SameRes (f.p s.get.2) (q ⟨d, r, er⟩) := hfn _ _ ⟨hd1, hy', hm1⟩
            rw [hd]
            simp only [show (DeprMode.ok == DeprMode.err) = false by decide, show (DeprMode.ok == DeprMode.warn) = false by decide, Bool.and_false, Bool.false_eq_true, if_false]
            cases hx : q ⟨d, r, er⟩ with
            | fail =>
              rw [hx] at hs
              have hs : (f.p s.get.2).1 = .fail := hs
              rw [hs]
              rfl
            | fin l2 =>
              rw [hx] at hs
              rw [hs.1]
              exact ⟨rfl, hs.2⟩
            | nonl l2 =>
              rw [hx] at hs
              rw [hs.1]
              exact ih _ _ hs.2
            | ok l2 =>
              rw [hx] at hs
              rw [hs.1]
              obtain ⟨d2, t2, e2⟩ := l2
              obtain ⟨k1, k2, k3⟩ := hs.2
              simp only at k1 k2 k3
              dsimp only
              cases t2 with
              | nil =>
                have he := yields_nil k2
                have hg2 : (f.p s.get.2).2.get.1 = .eof := he
                have h0 : (f.p s.get.2).2.get.2.inp = [] := gettkn_eof _ he
                have hrep : RepTok (f.p s.get.2).2.get.2 ⟨d2, [], e2⟩ := ⟨k1, by rw [h0]; exact yields_empty, k3⟩
                rw [hg2]
                dsimp only
                cases hsg : c.single with
                | true => exact ⟨rfl, hrep⟩
                | false => rw [hsg] at ih; exact ih _ _ hrep
              | cons u r2 =>
                obtain ⟨hu, hune, huy⟩ := yields_cons k2
                have hg2 : (f.p s.get.2).2.get.1 = u := hu
                have hrep : RepTok (f.p s.get.2).2.get.2 ⟨d2, r2, e2⟩ := ⟨k1, huy, k3⟩
                rw [hg2]
                cases u with
                | eof => exact absurd rfl hune
                | nl =>
                  dsimp only
                  cases hsg : c.single with
                  | true => exact ⟨rfl, hrep⟩
                  | false => rw [hsg] at ih; exact ih _ _ hrep
                | _ => rfl

end Pound
