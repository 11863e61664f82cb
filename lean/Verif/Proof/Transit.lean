import Verif.Spec.Transit
import Verif.Proof.Forward
import Verif.Proof.Exchange
import Verif.Proof.Expand
import Verif.Proof.SvcBes

/-!
Proofs about the requests a backend reads.
-/

namespace Pound
open Spec

/-! ### Reading is unambiguous -/

/-- A line ended by CRLF, read from a stream -/
theorem oneLine_split {l l' r r' : Bytes} (h : OneLine l) (h' : OneLine l') (e : l ++ [13, 10] ++ r = l' ++ [13, 10] ++ r') : l = l' ∧ r = r' := by
  induction l generalizing l' with
  | nil =>
    cases l' with
    | nil => simpa using e
    | cons c t =>
      simp only [List.nil_append, List.cons_append, List.cons.injEq] at e
      exact absurd e.1.symm (h' c (by simp)).1
  | cons c t ih =>
    cases l' with
    | nil =>
      simp only [List.nil_append, List.cons_append, List.cons.injEq] at e
      exact absurd e.1 (h c (by simp)).1
    | cons c' t' =>
      simp only [List.cons_append, List.cons.injEq] at e
      obtain ⟨rfl, e⟩ := e
      obtain ⟨rfl, rfl⟩ := ih (fun x hx => h x (by simp [hx])) (l' := t') (fun x hx => h' x (by simp [hx])) e
      exact ⟨rfl, rfl⟩

theorem crlfLines_split {w w' r r' : Bytes} {ls ls' : List Bytes} (h : CrlfLines w ls) (h' : CrlfLines w' ls') (e : w ++ r = w' ++ r') :
    w = w' ∧ ls = ls' ∧ r = r' := by
  induction h generalizing w' ls' with
  | done =>
    cases h' with
    | done => exact ⟨rfl, rfl, by simpa using e⟩
    | more h1 h2 h3 =>
      rename_i l w ls
      cases l with
      | nil => exact absurd rfl h2
      | cons c t =>
        simp only [List.cons_append, List.cons.injEq] at e
        exact absurd e.1.symm (h1 c (by simp)).1
  | more h1 h2 h3 ih =>
    rename_i l w ls
    cases h' with
    | done =>
      cases l with
      | nil => exact absurd rfl h2
      | cons c t =>
        simp only [List.cons_append, List.cons.injEq] at e
        exact absurd e.1 (h1 c (by simp)).1
    | more h1' h2' h3' =>
      rename_i l' w' ls'
      rw [List.append_assoc (l ++ _), List.append_assoc (l' ++ _)] at e
      obtain ⟨rfl, e'⟩ := oneLine_split h1 h1' e
      obtain ⟨rfl, rfl, rfl⟩ := ih h3' e'
      exact ⟨rfl, rfl, rfl⟩

theorem continues_split {cs cs' ls ls' fs fs' : List Bytes} (h : ∀ x ∈ cs, Continues x) (h' : ∀ x ∈ cs', Continues x) (hf : Fields ls fs) (hf' : Fields ls' fs')
    (e : cs ++ ls = cs' ++ ls') : cs = cs' ∧ ls = ls' := by
  have nc : ∀ {c : Bytes} {l ls fs : List Bytes}, Fields ls fs → Continues c → c :: l ≠ ls := by
    intro c l ls fs hf hc e
    cases hf with
    | nil => cases e
    | field h1 _ _ =>
      injection e with e1 _
      exact h1 (e1 ▸ hc)
  induction cs generalizing cs' with
  | nil =>
    cases cs' with
    | nil => exact ⟨rfl, e⟩
    | cons c t => exact absurd e.symm (nc hf (h' c (by simp)))
  | cons c t ih =>
    cases cs' with
    | nil => exact absurd e (nc hf' (h c (by simp)))
    | cons c' t' =>
      simp only [List.cons_append, List.cons.injEq] at e
      obtain ⟨rfl, e⟩ := e
      obtain ⟨rfl, rfl⟩ := ih (fun x hx => h x (by simp [hx])) (cs' := t') (fun x hx => h' x (by simp [hx])) e
      exact ⟨rfl, rfl⟩

theorem fields_det {ls fs fs' : List Bytes} (h : Fields ls fs) (h' : Fields ls fs') : fs = fs' := by
  induction h generalizing fs' with
  | nil => cases h'; rfl
  | field h1 h2 h3 ih =>
    rename_i l cs ls fs
    generalize hL : l :: (cs ++ ls) = L at h'
    cases h' with
    | nil => cases hL
    | field h1' h2' h3' =>
      injection hL with e1 e2
      subst e1
      obtain ⟨rfl, rfl⟩ := continues_split h2 h2' h3 h3' e2
      rw [ih h3']

theorem wireLine_mono {lim lim' : Nat} {w l : Bytes} (h : WireLine lim w l) (hl : lim ≤ lim') : WireLine lim' w l := ⟨h.1, h.2.1, Nat.le_trans h.2.2 hl⟩

theorem wireLine_split {lim lim' : Nat} {w w' l l' r r' : Bytes} (h : WireLine lim w l) (h' : WireLine lim' w' l') (e : w ++ r = w' ++ r') :
    w = w' ∧ l = l' ∧ r = r' := by
  have a := getLine_wire (n := max lim lim' + 1) (rest := r) (wireLine_mono h (by simp; omega))
  have b := getLine_wire (n := max lim lim' + 1) (rest := r') (wireLine_mono h' (by simp; omega))
  rw [e, b] at a
  injection a with a1 a2
  subst a1 a2
  exact ⟨List.append_cancel_right e, rfl, rfl⟩

theorem trailer_split {lim lim' : Nat} {w w' r r' : Bytes} (h : Trailer lim w) (h' : Trailer lim' w') (e : w ++ r = w' ++ r') : w = w' ∧ r = r' := by
  induction h generalizing w' with
  | done h1 =>
    cases h' with
    | done h1' => obtain ⟨a, _, b⟩ := wireLine_split h1 h1' e; exact ⟨a, b⟩
    | more h1' h2' h3' =>
      rw [List.append_assoc] at e
      obtain ⟨_, b, _⟩ := wireLine_split h1 h1' e
      exact absurd b.symm h2'
  | more h1 h2 h3 ih =>
    rw [List.append_assoc] at e
    cases h' with
    | done h1' =>
      obtain ⟨_, b, _⟩ := wireLine_split h1 h1' e
      exact absurd b h2
    | more h1' h2' h3' =>
      rw [List.append_assoc] at e
      obtain ⟨rfl, rfl, e⟩ := wireLine_split h1 h1' e
      obtain ⟨rfl, rfl⟩ := ih h3' e
      exact ⟨rfl, rfl⟩

theorem sizeLine_unique {l : Bytes} {n n' : Nat} (h : SizeLine l n) (h' : SizeLine l n') : n = n' := by
  have key : ∀ {l : Bytes} {n : Nat}, SizeLine l n → n = (l.takeWhile fun c => (digit? 16 c).isSome).foldl (fun a c => a * 16 + (digit? 16 c).getD 0) 0 := by
    rintro l n ⟨ds, ws, ext, rfl, ⟨h1, h2, rfl⟩, hw, he⟩
    congr 1
    have hz : (ws ++ ext).takeWhile (fun c => (digit? 16 c).isSome) = [] := by
      cases ws with
      | nil =>
        rcases he with rfl | ⟨e, rfl⟩
        · rfl
        · rfl
      | cons c t =>
        rcases hw c (by simp) with rfl | rfl <;> rfl
    rw [List.append_assoc, List.takeWhile_append_of_pos h2, hz, List.append_nil]
  rw [key h, key h']

theorem chunked_split {strict strict' : Bool} {lim lim' : Nat} {w w' p p' r r' : Bytes} (h : Chunked strict lim w p) (h' : Chunked strict' lim' w' p') (e : w ++ r = w' ++ r') :
    w = w' ∧ p = p' ∧ r = r' := by
  induction h generalizing w' p' with
  | last h1 h2 h3 =>
    rw [List.append_assoc] at e
    cases h' with
    | last h1' h2' h3' =>
      rw [List.append_assoc] at e
      obtain ⟨rfl, rfl, e⟩ := wireLine_split h1 h1' e
      obtain ⟨rfl, rfl⟩ := trailer_split h3 h3' e
      exact ⟨rfl, rfl, rfl⟩
    | chunk h1' h2' h3' =>
      rw [List.append_assoc] at e
      obtain ⟨rfl, rfl, e⟩ := wireLine_split h1 h1' e
      have := sizeLine_unique h2 h2'
      omega
  | chunk h1 h2 h3 h4 h5 h6 h7 ih =>
    simp only [List.append_assoc] at e
    cases h' with
    | last h1' h2' h3' =>
      simp only [List.append_assoc] at e
      obtain ⟨rfl, rfl, e⟩ := wireLine_split h1 h1' e
      have := sizeLine_unique h2 h2'
      omega
    | chunk h1' h2' h3' h4' h5' h6' h7' =>
      simp only [List.append_assoc] at e
      obtain ⟨rfl, rfl, e1⟩ := wireLine_split h1 h1' e
      have := sizeLine_unique h2 h2'
      subst this
      obtain ⟨rfl, e2⟩ := List.append_inj e1 (by rw [h4, h4'])
      obtain ⟨rfl, rfl, e3⟩ := wireLine_split h5 h5' e2
      obtain ⟨rfl, rfl, rfl⟩ := ih h7' e3
      exact ⟨rfl, rfl, rfl⟩

theorem bodyOf_split {strict : Bool} {k : BodyKind} {w w' p p' r r' : Bytes} (h : BodyOf strict k w p) (h' : BodyOf strict k w' p') (e : w ++ r = w' ++ r') :
    w = w' ∧ p = p' ∧ r = r' := by
  cases h with
  | none => cases h'; exact ⟨rfl, rfl, by simpa using e⟩
  | length hn =>
    cases h' with
    | length hn' =>
      obtain ⟨rfl, rfl⟩ := List.append_inj e (by rw [hn, hn'])
      exact ⟨rfl, rfl, rfl⟩
  | chunked hc => cases h' with | chunked hc' => exact chunked_split hc hc' e

/-! ### The lines of a header text -/

/-- Each CR is followed by LF and a blank, and LF stands nowhere else. -/
def wellFolded : Bytes → Bool
  | [] => true
  | c :: r =>
    if c == 13 then
      match r with
      | x :: d :: r' => x == 10 && (d == 32 || d == 9) && wellFolded (d :: r')
      | _ => false
    else c != 10 && wellFolded r

theorem wellFolded_cons {c : UInt8} {r : Bytes} (h1 : c ≠ 13) : wellFolded (c :: r) = (c != 10 && wellFolded r) := by
  conv => lhs; unfold wellFolded
  rw [if_neg (by simpa using h1)]

theorem wellFolded_append {a b : Bytes} (ha : OneLine a) : wellFolded (a ++ b) = wellFolded b := by
  induction a with
  | nil => rfl
  | cons c t ih =>
    obtain ⟨h1, h2⟩ := ha c (by simp)
    rw [List.cons_append, wellFolded_cons h1, ih (fun x hx => ha x (by simp [hx]))]
    simp [h2]

theorem wellFolded_oneLine {a : Bytes} (ha : OneLine a) : wellFolded a = true := by
  have := wellFolded_append (b := []) ha
  simpa [wellFolded] using this

theorem wellFolded_crlf {d : UInt8} {r : Bytes} : wellFolded (13 :: 10 :: d :: r) = ((d == 32 || d == 9) && wellFolded (d :: r)) := by
  conv => lhs; unfold wellFolded
  simp

/-- The lines of the text -/
theorem wellFolded_lines : ∀ (n : Nat) (t : Bytes), t.length ≤ n → wellFolded t = true →
    Folded t
  | n, [], _, _ => ⟨[], [], rfl, by simp [OneLine], by simp⟩
  | 0, c :: r, hn, _ => by simp at hn
  | n + 1, c :: r, hn, h => by
    by_cases hc : c = 13
    · subst hc
      unfold wellFolded at h
      simp only [beq_self_eq_true, if_true] at h
      split at h
      · rename_i x d r'
        simp only [Bool.and_eq_true, beq_iff_eq] at h
        obtain ⟨⟨rfl, h0⟩, h9⟩ := h
        have h : (d == 32 || d == 9) = true ∧ wellFolded (d :: r') = true := ⟨h0, h9⟩
        obtain ⟨l, cs, e, h1, h2⟩ := wellFolded_lines n (d :: r') (by simp at hn ⊢; omega) h.2
        refine ⟨[], l :: cs, ?_, by simp [OneLine], ?_⟩
        · simp only [List.flatMap_cons, List.nil_append, List.append_assoc]; rw [← e]; rfl
        · intro x hx
          rcases List.mem_cons.1 hx with rfl | hx
          · refine ⟨h1, ?_⟩
            cases x with
            | nil =>
              simp only [List.nil_append] at e
              cases cs with
              | nil => cases e
              | cons y ys =>
                simp only [List.flatMap_cons, List.cons_append, List.cons.injEq] at e
                have := h.1
                rw [e.1] at this
                exact absurd this (by decide)
            | cons y ys =>
              simp only [List.cons_append, List.cons.injEq] at e
              have := h.1
              rw [e.1] at this
              simpa [Continues] using this
          · exact h2 x hx
      · cases h
    · rw [wellFolded_cons hc, Bool.and_eq_true] at h
      obtain ⟨l, cs, e, h1, h2⟩ := wellFolded_lines n r (by simp at hn; omega) h.2
      refine ⟨c :: l, cs, by rw [e]; rfl, ?_, h2⟩
      intro x hx
      rcases List.mem_cons.1 hx with rfl | hx
      · exact ⟨hc, by simpa using h.1⟩
      · exact h1 x hx

theorem tchar_line {c : UInt8} (h : TChar c) : c ≠ 13 ∧ c ≠ 10 ∧ c ≠ 32 ∧ c ≠ 9 := by
  refine ⟨?_, ?_, ?_, ?_⟩ <;> rintro rfl <;> revert h <;> unfold TChar <;> decide

theorem headerLine_start {t n v : Bytes} (h : HeaderLine t n v) : ∃ c r, t = c :: r ∧ TChar c := by
  obtain ⟨ws, rfl, hn, ht, -⟩ := h
  cases n with
  | nil => exact absurd rfl hn
  | cons c r => exact ⟨c, _, rfl, ht c (by simp)⟩

theorem crlfLines_append {cs : List Bytes} {w : Bytes} {ls : List Bytes} (h : ∀ x ∈ cs, OneLine x ∧ x ≠ []) (hw : CrlfLines w ls) :
    CrlfLines (cs.flatMap (· ++ [13, 10]) ++ w) (cs ++ ls) := by
  induction cs with
  | nil => exact hw
  | cons c t ih =>
    have := CrlfLines.more (h c (by simp)).1 (h c (by simp)).2 (ih (fun x hx => h x (by simp [hx])))
    simpa using this

theorem flatMap_shift (l : Bytes) (cs : List Bytes) : l ++ cs.flatMap ([13, 10] ++ ·) ++ [13, 10] = (l :: cs).flatMap (· ++ [13, 10]) := by
  induction cs generalizing l with
  | nil => simp
  | cons c t ih =>
    have := ih c
    simp only [List.flatMap_cons, List.append_assoc] at this ⊢
    rw [← this]

/-- The header texts, each followed by CRLF, are read as these texts. -/
theorem fields_of_texts (ts : List Bytes) (h : ∀ t ∈ ts, Folded t ∧ ∃ n v, HeaderLine t n v) :
    ∃ lines, CrlfLines (ts.flatMap (· ++ crlf) ++ crlf) lines ∧ Fields lines ts := by
  induction ts with
  | nil => exact ⟨[], .done, .nil⟩
  | cons t ts ih =>
    obtain ⟨lines, h1, h2⟩ := ih (fun x hx => h x (by simp [hx]))
    obtain ⟨⟨l, cs, rfl, g1, g2⟩, n, v, hl⟩ := h t (by simp)
    obtain ⟨c, r, e, hc⟩ := headerLine_start hl
    obtain ⟨c1, -, c3, c4⟩ := tchar_line hc
    have hl0 : ∃ r', l = c :: r' := by
      cases l with
      | nil =>
        cases cs with
        | nil => cases e
        | cons y ys =>
          simp only [List.flatMap_cons, List.nil_append, List.cons_append, List.cons.injEq] at e
          exact absurd e.1.symm c1
      | cons x xs =>
        simp only [List.cons_append, List.cons.injEq] at e
        exact ⟨xs, by rw [e.1]⟩
    obtain ⟨r', rfl⟩ := hl0
    refine ⟨(c :: r') :: (cs ++ lines), ?_, .field ?_ (fun x hx => (g2 x hx).2) h2⟩
    · have := crlfLines_append (cs := (c :: r') :: cs) (w := ts.flatMap (· ++ crlf) ++ crlf) (ls := lines) ?_ h1
      · rw [← flatMap_shift] at this
        simpa [crlf] using this
      · intro x hx
        rcases List.mem_cons.1 hx with rfl | hx
        · exact ⟨g1, by simp⟩
        · refine ⟨(g2 x hx).1, ?_⟩
          rintro rfl
          rcases (g2 _ hx).2 with h | h <;> cases h
    · intro hx
      rcases hx with h | h
      · simp only [List.head?_cons, Option.some.injEq] at h; exact c3 h
      · simp only [List.head?_cons, Option.some.injEq] at h; exact c4 h

/-! ### The texts that are added -/

theorem oneLine_append {a b : Bytes} : OneLine (a ++ b) ↔ OneLine a ∧ OneLine b := by
  constructor
  · intro h; exact ⟨fun c hc => h c (by simp [hc]), fun c hc => h c (by simp [hc])⟩
  · rintro ⟨h1, h2⟩ c hc
    rcases List.mem_append.1 hc with h | h
    · exact h1 c h
    · exact h2 c h

theorem oneLine_sub {a b : Bytes} (h : OneLine b) (hs : ∀ c ∈ a, c ∈ b) : OneLine a := fun c hc => h c (hs c hc)

theorem oneLine_blank {ws : Bytes} (h : ∀ c ∈ ws, c = 32 ∨ c = 9) : OneLine ws := by
  intro c hc
  rcases h c hc with rfl | rfl <;> decide

theorem oneLine_text {l : Bytes} (h : ∀ c ∈ l, Text c) : OneLine l := by
  intro c hc
  constructor
  · rintro rfl
    rcases h _ hc with h | ⟨h, -⟩
    · cases h
    · exact absurd h (by decide)
  · rintro rfl
    rcases h _ hc with h | ⟨h, -⟩
    · cases h
    · exact absurd h (by decide)

theorem oneLine_dec (n : Nat) : OneLine (dec n) := by
  intro c hc
  have := dec_text n c hc
  constructor <;> rintro rfl <;> revert this <;> unfold Digit <;> decide

theorem oneLine_decInt (n : Int) : OneLine (decInt n) := by
  unfold decInt
  split
  · intro c hc
    rcases List.mem_cons.1 hc with rfl | hc
    · decide
    · exact oneLine_dec _ c hc
  · exact oneLine_dec _

theorem oneLine_bool (s : Bytes) (h : s.all (fun c => c != 13 && c != 10) = true) : OneLine s := by
  intro c hc
  have := List.all_eq_true.1 h c hc
  simpa using this

/-- The parts of a header line -/
theorem headerLine_parts {t n v : Bytes} (h : HeaderLine t n v) : ∃ pre, t = pre ++ v ∧ OneLine pre := by
  obtain ⟨ws, rfl, -, hn, hw, -⟩ := h
  refine ⟨n ++ ch%':' :: ws, by simp, ?_⟩
  rw [oneLine_append]
  refine ⟨fun c hc => ⟨(tchar_line (hn c hc)).1, (tchar_line (hn c hc)).2.1⟩, ?_⟩
  intro c hc
  rcases List.mem_cons.1 hc with rfl | hc
  · decide
  · exact oneLine_blank hw c hc

theorem wellFolded_append_oneLine : ∀ (n : Nat) (a b : Bytes), a.length ≤ n → wellFolded a = true → OneLine b → wellFolded (a ++ b) = true
  | n, [], b, _, _, hb => wellFolded_oneLine hb
  | 0, c :: r, _, hn, _, _ => by simp at hn
  | n + 1, c :: r, b, hn, h, hb => by
    by_cases hc : c = 13
    · subst hc
      unfold wellFolded at h
      simp only [beq_self_eq_true, if_true] at h
      split at h
      · rename_i x d r'
        simp only [Bool.and_eq_true, beq_iff_eq] at h
        obtain ⟨⟨rfl, h0⟩, h9⟩ := h
        have := wellFolded_append_oneLine n (d :: r') b (by simp at hn ⊢; omega) h9 hb
        simp only [List.cons_append] at this ⊢
        rw [wellFolded_crlf, this, h0]
        rfl
      · cases h
    · rw [wellFolded_cons hc, Bool.and_eq_true] at h
      rw [List.cons_append, wellFolded_cons hc, wellFolded_append_oneLine n r b (by simp at hn; omega) h.2 hb, h.1]
      rfl

theorem adds_folded {text n v : Bytes} {a b : List Bytes} {how : HowAdd} (hl : HeaderLine text n v) (h : Adds text n v a b how) (hw : wellFolded text = true)
    (ho : how = .append → OneLine text) (ha : ∀ t ∈ a, wellFolded t = true) : ∀ t ∈ b, wellFolded t = true := by
  intro t ht
  cases h with
  | new _ =>
    rcases List.mem_append.1 ht with h | h
    · exact ha t h
    · simp at h; rw [h]; exact hw
  | keep => exact ha t ht
  | replace =>
    rcases List.mem_append.1 ht with h | h
    · exact ha t (by simp [h])
    · rcases List.mem_cons.1 h with rfl | h
      · exact hw
      · exact ha t (by simp [h])
  | fill =>
    rcases List.mem_append.1 ht with h | h
    · exact ha t (by simp [h])
    · rcases List.mem_cons.1 h with rfl | h
      · exact hw
      · exact ha t (by simp [h])
  | append _ h2 _ _ h5 h6 =>
    rename_i a t0 b n' v' t1 ws _ _ _
    rcases List.mem_append.1 ht with h | h
    · exact ha t (by simp [h])
    · rcases List.mem_cons.1 h with rfl | h
      · obtain ⟨p, e, hp⟩ := headerLine_parts h2
        have hv' : wellFolded v' = true := by
          have := ha t0 (by simp)
          rwa [e, wellFolded_append hp] at this
        obtain ⟨p', e', hp'⟩ := headerLine_parts h5
        rw [e', wellFolded_append hp']
        refine wellFolded_append_oneLine _ v' _ (Nat.le_refl _) hv' ?_
        obtain ⟨p2, e2, -⟩ := headerLine_parts hl
        have hv : OneLine v := (oneLine_append.1 (e2 ▸ ho rfl)).2
        intro c hc
        rcases List.mem_cons.1 hc with rfl | hc
        · decide
        · exact (oneLine_append.2 ⟨oneLine_blank h6, hv⟩) c hc
      · exact ha t (by simp [h])

/-- The texts to be added are folded as they should; those that may be added to others are single lines. -/
def CleanTexts (L : List (Bytes × HMode)) : Prop := ∀ x ∈ L, wellFolded x.1 = true ∧ (x.2 = .append → OneLine x.1)

theorem addHeaders_folded {L : List (Bytes × HMode)} {ns : List Bytes} (hl : Lines L ns) (hc : CleanTexts L) (hs hs' : List Header) (hg : ∀ h ∈ hs, Good h)
    (h : addHeaders L hs = .ok hs') (hw : ∀ t ∈ texts hs, wellFolded t = true) : ∀ t ∈ texts hs', wellFolded t = true := by
  induction hl generalizing hs with
  | nil => injection h with h; rw [← h]; exact hw
  | cons h1 _ ih =>
    rename_i t n v m L ns _
    obtain ⟨h2, e2, g2, a2⟩ := listAppend_spec hg h1 m
    simp only [addHeaders, e2] at h
    refine ih (fun x hx => hc x (by simp [hx])) h2 g2 h ?_
    have c := hc (t, m) (by simp)
    exact adds_folded h1 a2 c.1 (fun e => c.2 (by cases m <;> first | rfl | cases e)) hw

theorem CleanTexts.append {A B : List (Bytes × HMode)} (ha : CleanTexts A) (hb : CleanTexts B) : CleanTexts (A ++ B) := by
  intro x hx
  rcases List.mem_append.1 hx with h | h
  · exact ha x h
  · exact hb x h

theorem CleanTexts.one {t : Bytes} {m : HMode} (h : OneLine t) : CleanTexts [(t, m)] := by
  intro x hx
  simp at hx
  subst hx
  exact ⟨wellFolded_oneLine h, fun _ => h⟩

theorem CleanTexts.nil : CleanTexts [] := by intro x hx; cases hx

theorem stripEol_oneLine : ∀ (d : Bytes), 13 ∉ d → OneLine (stripEol d)
  | [], _ => by simp [stripEol, OneLine]
  | c :: s, h => by
    unfold stripEol
    split
    · simp [OneLine]
    · rename_i hc
      intro x hx
      rcases List.mem_cons.1 hx with rfl | hx
      · simp at hc h
        exact ⟨fun e => h.1 e.symm, hc.1⟩
      · exact stripEol_oneLine s (by simp at h; exact h.2) x hx

theorem addr_oneLine {c : FwdCfg} (hc : CleanFwd c) {addr : Bytes} (h : addr2str maxAddrBuf c.peer true = .ok addr) : OneLine addr := by
  have ha := hc.addr
  unfold addr2str at h
  dsimp only at h
  split at h
  · rename_i p e
    rw [e] at ha
    dsimp only at ha
    split at h
    · cases h
    · injection h with h
      rw [← h]
      exact oneLine_sub ha.2 (fun c hc => List.mem_of_mem_take ((List.takeWhile_sublist _).subset hc))
  · rename_i hh p e
    rw [e] at ha
    rw [if_pos (by simp)] at h
    injection h with h
    rw [← h]
    exact oneLine_sub ha (fun c hc => List.mem_of_mem_take hc)
  · rename_i hh p e
    rw [e] at ha
    rw [if_pos (by simp)] at h
    injection h with h
    rw [← h]
    refine oneLine_sub (b := b!"[" ++ hh ++ b!"]") ?_ (fun c hc => List.mem_of_mem_take hc)
    rw [oneLine_append, oneLine_append]
    exact ⟨⟨oneLine_bool _ (by decide), ha⟩, oneLine_bool _ (by decide)⟩

theorem fwd_clean {c : FwdCfg} (hc : CleanFwd c) {f : List (Bytes × HMode)} (h : fwdTexts c = .ok f) : CleanTexts f := by
  unfold fwdTexts at h
  split at h
  · split at h
    · cases h
    · rename_i addr ha
      injection h with h
      rw [← h]
      unfold forwardedTexts
      refine CleanTexts.append ?_ ?_
      · refine CleanTexts.append (A := [_]) (B := [_]) (.one ?_) (.one ?_)
        · exact oneLine_append.2 ⟨oneLine_bool _ (by decide), addr_oneLine hc ha⟩
        · split <;> exact oneLine_bool _ (by decide)
      · unfold portTexts
        split
        · exact .nil
        · exact .one (oneLine_append.2 ⟨oneLine_bool _ (by decide), oneLine_dec _⟩)
  · injection h with h; rw [← h]; exact .nil

theorem getLine_oneLine {inp l rest : Bytes} {n : Nat} (h : getLine inp n = .ok l rest) : OneLine l := by
  obtain ⟨w, hw, -⟩ := getLine_ok_iff.1 h
  exact oneLine_text hw.1

theorem trimWsL_mem {l : Bytes} {c : UInt8} (h : c ∈ trimWsL l) : c ∈ l := by
  induction l with
  | nil => exact h
  | cons x s ih =>
    unfold trimWsL at h
    split at h
    · exact List.mem_cons_of_mem _ (ih h)
    · exact h

theorem bio_clean (n bio : Bytes) (hn : OneLine n) : CleanTexts (headerFromBio n bio).1 := by
  unfold headerFromBio
  split
  · rename_i l rest h
    refine .one ?_
    rw [oneLine_append, oneLine_append]
    exact ⟨⟨hn, oneLine_bool _ (by decide)⟩, oneLine_sub (getLine_oneLine h) fun c hc => trimWsL_mem hc⟩
  all_goals exact .nil

theorem pemLines_oneLine : ∀ (f : Nat) (bio : Bytes), ∀ l ∈ pemLines f bio, OneLine l
  | 0, _, l, h => by cases h
  | f + 1, bio, l, h => by
    unfold pemLines at h
    split at h
    · rename_i x rest e
      rcases List.mem_cons.1 h with rfl | h
      · exact getLine_oneLine e
      · exact pemLines_oneLine f rest l h
    · cases h

theorem folded_intercalate (ls : List Bytes) (h : ∀ l ∈ ls, OneLine l) : wellFolded (List.intercalate [13, 10, 9] ls) = true := by
  induction ls with
  | nil => rfl
  | cons l r ih =>
    cases r with
    | nil => simpa [List.intercalate] using wellFolded_oneLine (h l (by simp))
    | cons x xs =>
      have e : List.intercalate [13, 10, 9] (l :: x :: xs) = l ++ (13 :: 10 :: 9 :: List.intercalate [13, 10, 9] (x :: xs)) := by simp [List.intercalate, List.intersperse]
      rw [e, wellFolded_append (h l (by simp)), wellFolded_crlf, wellFolded_cons (by decide), ih (fun y hy => h y (by simp [hy]))]
      rfl

theorem cert_clean (c : ClientCert) : CleanTexts (certTexts c) := by
  unfold certTexts
  dsimp only
  refine .append (.append (.append (.append (.append ?_ ?_) ?_) ?_) ?_) ?_
  · exact bio_clean _ _ (oneLine_bool _ (by decide))
  · exact bio_clean _ _ (oneLine_bool _ (by decide))
  · exact bio_clean _ _ (oneLine_bool _ (by decide))
  · exact bio_clean _ _ (oneLine_bool _ (by decide))
  · exact .one (oneLine_append.2 ⟨oneLine_bool _ (by decide), oneLine_decInt _⟩)
  · intro x hx
    simp only [List.mem_singleton] at hx
    subst hx
    refine ⟨?_, fun e => by cases e⟩
    rw [wellFolded_append (oneLine_bool _ (by decide))]
    exact folded_intercalate _ (pemLines_oneLine _ _)

theorem tls_clean {c : FwdCfg} (hc : CleanFwd c) : CleanTexts (tlsTexts c) := by
  unfold tlsTexts
  split
  · rename_i e he
    split
    · unfold sslTexts
      refine .append ?_ ?_
      · unfold cipherTexts
        split
        · rename_i v d hd
          obtain ⟨h1, h2⟩ := hc.cipher e v d he hd
          refine .one ?_
          rw [oneLine_append, oneLine_append, oneLine_append]
          exact ⟨⟨⟨oneLine_bool _ (by decide), h1⟩, oneLine_bool _ (by decide)⟩, stripEol_oneLine d h2⟩
        · exact .nil
      · split
        · split
          · exact cert_clean _
          · exact .nil
        · exact .nil
    · exact .nil
  · exact .nil

theorem host_clean {c : FwdCfg} (hc : CleanFwd c) : CleanTexts (hostTexts c.servername) := by
  unfold hostTexts
  split
  · rename_i n hn
    exact .one (oneLine_append.2 ⟨oneLine_bool _ (by decide), hc.name n hn⟩)
  · exact .nil

theorem dest_clean {c : FwdCfg} (hc : CleanFwd c) {hs h1 : List Header} (hg : ∀ h ∈ hs, Good h ∧ Coded h)
    (h : (if c.rewrDest then changeDest c.beAddr c.beTls hs else .ok hs) = .ok h1) (ho : ∀ t ∈ texts hs, OneLine t) : ∀ t ∈ texts h1, OneLine t := by
  by_cases hr : c.rewrDest = true
  · rw [if_pos hr] at h
    obtain ⟨h1', e1, -, hcase⟩ := changeDest_spec c.beAddr c.beTls hs hg
    rw [h] at e1
    injection e1 with e1
    subst e1
    rcases hcase with ⟨e, -⟩ | ⟨a, t, b, n, v, p, q, path, e1, -, hl, -, hm, e2⟩
    · rw [e]; exact ho
    · rw [e2]
      intro x hx
      rcases List.mem_append.1 hx with hx | hx
      · exact ho x (by rw [e1]; simp [hx])
      · rcases List.mem_cons.1 hx with rfl | hx
        · have ht : OneLine t := ho t (by rw [e1]; simp)
          obtain ⟨pre, e, -⟩ := headerLine_parts hl
          obtain ⟨pre2, e3⟩ := locationMatch_suffix hm
          rw [e, e3] at ht
          have hp : OneLine path := (oneLine_append.1 (oneLine_append.1 ht).2).2
          simp only [oneLine_append]
          refine ⟨⟨⟨⟨oneLine_bool _ (by decide), ?_⟩, oneLine_bool _ (by decide)⟩, hc.be⟩, hp⟩
          split <;> exact oneLine_bool _ (by decide)
        · exact ho x (by rw [e1]; simp [hx])
  · rw [if_neg hr] at h
    injection h with h
    rw [← h]
    exact ho

/-- What is sent has header texts that are folded as they should. -/
theorem forwardHead_folded {c : FwdCfg} (hc : CleanFwd c) {hs hs' : List Header} (hg : ∀ h ∈ hs, Good h ∧ Coded h) (ho : ∀ t ∈ texts hs, OneLine t)
    (h : forwardHead c hs = .ok hs') : (∀ t ∈ texts hs', wellFolded t = true) ∧ ∀ h ∈ hs', Good h := by
  obtain ⟨f, h1, h2, h3, s⟩ := forwardHead_inv hg h
  refine ⟨?_, s.s4.good⟩
  obtain ⟨a1, l1, -⟩ := fwd_lines s.fwd
  obtain ⟨a2, l2, -⟩ := tls_lines c
  obtain ⟨a3, l3, -⟩ := host_lines c.servername
  refine addHeaders_folded l3 (host_clean hc) h3 hs' s.s3.good s.e4 ?_
  refine addHeaders_folded l2 (tls_clean hc) h2 h3 s.s2.good s.e3 ?_
  refine addHeaders_folded l1 (fwd_clean hc s.fwd) h1 h2 s.s1.good s.e2 ?_
  intro t ht
  exact wellFolded_oneLine (dest_clean hc hg s.e1 ho t ht)

/-- The framing headers are not touched. -/
theorem forwardHead_framing {c : FwdCfg} {hs hs' : List Header} (hg : ∀ h ∈ hs, Good h ∧ Coded h) (h : forwardHead c hs = .ok hs') :
    HeadersNamed b!"Transfer-Encoding" (texts hs') = HeadersNamed b!"Transfer-Encoding" (texts hs) ∧
    HeadersNamed b!"Content-Length" (texts hs') = HeadersNamed b!"Content-Length" (texts hs) := by
  obtain ⟨f, h1, h2, h3, s⟩ := forwardHead_inv hg h
  constructor
  · rw [s.s4.other _ (by decide), s.s3.other _ (by decide), s.s2.other _ (by decide), s.s1.other _ (by decide)]
  · rw [s.s4.other _ (by decide), s.s3.other _ (by decide), s.s2.other _ (by decide), s.s1.other _ (by decide)]

theorem values_named {n : Bytes} : ∀ {ts vs : List Bytes}, Values n ts vs ↔ Values n (HeadersNamed n ts) vs := by
  intro ts
  induction ts with
  | nil => intro vs; exact Iff.rfl
  | cons t ts ih =>
    intro vs
    by_cases hn : Named t n
    · rw [hn_cons_pos hn]
      constructor
      · intro h
        cases h with
        | hit h1 h2 h3 => exact .hit h1 h2 (ih.1 h3)
        | miss h1 _ => exact absurd hn h1
      · intro h
        cases h with
        | hit h1 h2 h3 => exact .hit h1 h2 (ih.2 h3)
        | miss h1 _ => exact absurd hn h1
    · rw [hn_cons_neg hn]
      constructor
      · intro h
        cases h with
        | hit h1 h2 _ => exact absurd ⟨_, _, h1, h2⟩ hn
        | miss _ h2 => exact ih.1 h2
      · intro h
        exact .miss hn (ih.2 h)

theorem framing_congr {ts ts' : List Bytes} (h1 : HeadersNamed b!"Transfer-Encoding" ts' = HeadersNamed b!"Transfer-Encoding" ts)
    (h2 : HeadersNamed b!"Content-Length" ts' = HeadersNamed b!"Content-Length" ts) {k : BodyKind} : Framing ts k ↔ Framing ts' k := by
  have a : ∀ vs, Values b!"Transfer-Encoding" ts vs ↔ Values b!"Transfer-Encoding" ts' vs := fun vs => by rw [values_named, ← h1, ← values_named]
  have b : ∀ vs, Values b!"Content-Length" ts vs ↔ Values b!"Content-Length" ts' vs := fun vs => by rw [values_named, ← h2, ← values_named]
  unfold Framing
  simp only [a, b]

/-! ### Chunked bodies stay strict -/

theorem copyTrailers_out {t rest : Bytes} (ht : Trailer 4095 t) (inp : Bytes) (hi : Consumed inp t rest) (fuel : Nat) (out : Bytes) (cnt : Nat) (hf : inp.length < fuel) :
    ∃ o, (copyTrailers false fuel inp out cnt).out = out ++ o ∧ Trailer 4096 o := by
  induction ht generalizing inp out fuel with
  | done hw =>
    rename_i w
    obtain ⟨fuel, rfl⟩ : ∃ k, fuel = k + 1 := ⟨fuel - 1, by omega⟩
    unfold copyTrailers
    have hlc : LineConsumed inp w rest := by
      rcases hi with h | ⟨h1, h2, b, rfl⟩
      · exact Or.inl h
      · exact Or.inr ⟨h1, by simp, h2⟩
    rw [show getLine inp maxBuf = .ok [] rest from getLine_ok_iff.2 ⟨_, hw, hlc⟩]
    exact ⟨_, rfl, .done (putLine_wire hw)⟩
  | more hw hl ht ih =>
    rename_i w l t
    obtain ⟨fuel, rfl⟩ : ∃ k, fuel = k + 1 := ⟨fuel - 1, by omega⟩
    have hw0 := length_pos (wireLine_ne_nil hw)
    obtain ⟨inp', rfl, hc'⟩ := consumed_split (fun b => Or.inl (wireLine_not_cr hw b)) (trailer_ne_nil ht) hi
    have hg : getLine (w ++ inp') maxBuf = .ok l inp' := getLine_wire hw
    have hemp : l.isEmpty = false := by simpa using hl
    unfold copyTrailers
    rw [hg]
    simp only [hemp, Bool.false_eq_true, if_false]
    obtain ⟨o, h1, h2⟩ := ih inp' hc' fuel (out ++ putLine false l) (by simp at hf; omega)
    exact ⟨putLine false l ++ o, by rw [h1, List.append_assoc], .more (putLine_wire hw) hl h2⟩

theorem copyChunksLoop_out (sched : Nat → Nat) {strict : Bool} {wire payload rest : Bytes} (hch : Chunked strict 4095 wire payload) (fuel : Nat) (inp out : Bytes) (cnt : Nat)
    (mx tot : Int) (hf : inp.length < fuel) (hi : Consumed inp wire rest)
    (hok : (copyChunksLoop sched false mx fuel tot inp out cnt).fin = .status .ok) :
    ∃ o, (copyChunksLoop sched false mx fuel tot inp out cnt).out = out ++ o ∧ Chunked strict 4096 o payload := by
  induction hch generalizing fuel inp out cnt tot with
  | last hw hs ht =>
    rename_i w l t
    obtain ⟨fuel, rfl⟩ : ∃ k, fuel = k + 1 := ⟨fuel - 1, by omega⟩
    obtain ⟨inp', rfl, hc'⟩ := consumed_split (fun b => Or.inl (wireLine_not_cr hw b)) (trailer_ne_nil ht) hi
    unfold copyChunksLoop at hok ⊢
    rw [getLine_wire (n := maxBuf) hw] at hok ⊢
    simp only at hok ⊢
    rw [sizeLine_det hs (by decide)] at hok ⊢
    rw [if_neg (by decide)] at hok ⊢
    split at hok
    · cases hok
    split at hok
    · cases hok
    rename_i h2 h3
    rw [if_neg h2, if_neg h3, if_neg (by decide)]
    obtain ⟨o, e, h⟩ := copyTrailers_out ht inp' hc' (inp'.length + 1) (out ++ putLine false l) cnt (by omega)
    exact ⟨putLine false l ++ o, by rw [e, List.append_assoc], .last (putLine_wire hw) hs h⟩
  | chunk hw hs hn hd hwj hst hch ih =>
    rename_i w l n data wj j wire payload
    obtain ⟨fuel, rfl⟩ : ∃ k, fuel = k + 1 := ⟨fuel - 1, by omega⟩
    have hwn := wireLine_ne_nil hwj
    have hcn := chunked_ne_nil hch
    obtain ⟨inp1, rfl, hc1⟩ := consumed_split (fun b => Or.inl (wireLine_not_cr hw b)) (by simp [hwn]) hi
    have hc2 : ∃ inp2, inp1 = data ++ inp2 ∧ Consumed inp2 (wj ++ wire) rest := by
      apply consumed_split _ (by simp [hwn]) hc1
      intro b; right; intro h
      have h1 := length_pos hwn
      have h2 := length_pos hcn
      have := congrArg List.length h; simp at this; omega
    obtain ⟨inp2, rfl, hc2⟩ := hc2
    obtain ⟨inp3, rfl, hc3⟩ := consumed_split (fun b => Or.inl (wireLine_not_cr hwj b)) hcn hc2
    unfold copyChunksLoop at hok ⊢
    rw [getLine_wire (n := maxBuf) hw] at hok ⊢
    simp only at hok ⊢
    rcases getContentLength_range l .chunk with hcl | ⟨m, hcl⟩
    · rw [hcl] at hok
      simp [noContentLength] at hok
    have hm : m = n := by
      obtain ⟨hs', -⟩ := (getContentLength_chunk_iff l m).1 hcl
      exact sizeLine_unique hs' hs
    subst hm
    rw [hcl] at hok ⊢
    rw [if_neg (by unfold noContentLength; omega)] at hok ⊢
    split at hok
    · cases hok
    split at hok
    · cases hok
    rename_i h2 h3
    rw [if_pos (by omega)] at hok
    rw [if_neg h2, if_neg h3, if_pos (by omega)]
    have hcb : copyBin sched (data ++ (wj ++ inp3)) (m : Int).toNat false = ⟨true, wj ++ inp3, data, m⟩ := by
      rw [copyBin_spec]; simp [← hd]
    rw [hcb] at hok ⊢
    simp only [Bool.not_true, Bool.false_eq_true, if_false] at hok ⊢
    rw [getLine_wire (n := maxBuf) hwj] at hok ⊢
    simp only at hok ⊢
    have hw0 := length_pos (wireLine_ne_nil hw)
    obtain ⟨o, e, h⟩ := ih fuel inp3 _ _ _ (by simp at hf; omega) hc3 hok
    refine ⟨putLine false l ++ (data ++ (putLine false j ++ o)), by rw [e]; simp only [List.append_assoc], ?_⟩
    exact .chunk (putLine_wire hw) hs hn hd (putLine_wire hwj) hst h

theorem copyChunks_out (sched : Nat → Nat) {strict : Bool} {wire payload rest inp : Bytes} (hch : Chunked strict 4095 wire payload) (mx : Int) (hi : Consumed inp wire rest)
    (hok : (copyChunks sched false mx inp).fin = .status .ok) : Chunked strict 4096 (copyChunks sched false mx inp).out payload := by
  obtain ⟨o, e, h⟩ := copyChunksLoop_out sched hch (inp.length + 1) inp [] 0 mx 0 (by omega) hi hok
  unfold copyChunks
  rw [e]
  exact h

end Pound
