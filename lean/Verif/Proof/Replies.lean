import Verif.Proof.Exchange
import Verif.Proof.Expand
import Verif.Spec.Replies

/-!
Proofs about replies made by the program (Model/Replies.lean).
-/

namespace Pound
open Spec

/-! ### Rewriting keeps the codes of headers -/

/-- The header has been classified by `qualify_header`. -/
def RpCoded (h : Header) : Prop := ∃ h0, h = qualify h0

theorem qualify_text (h : Header) : (qualify h).text = h.text := by
  unfold qualify
  cases headerMatch h.text with
  | none => rfl
  | some p => rfl

theorem RpCoded.fine {h : Header} (hc : RpCoded h) {n v : Bytes} (hl : HeaderLine h.text n v) : Fine h := by
  obtain ⟨h0, rfl⟩ := hc
  rw [qualify_text] at hl
  have hg := (qualify_good hl).1
  exact ⟨hg, qualify_code hg⟩

theorem execPush_hs (st : PState) (re : Re) (s : Bytes) : (execPush st re s).1.hs = st.hs := rfl

theorem matchElem_hs (x : CondCtx) (e : Elem) (st : PState) : (matchElem x e st).1.hs = st.hs := by
  cases e with
  | acl id => rfl
  | url re => rfl
  | path re => rfl
  | query re =>
    simp only [matchElem]
    cases st.req.getQuery.2 <;> rfl
  | param name re =>
    simp only [matchElem]
    rcases (st.req.getParam name).2 with _ | _ | v <;> rfl
  | hdr re => rfl
  | host re =>
    simp only [matchElem]
    split
    · cases (matchHeaders re st.hs st.smq.push).1.get 0 with
      | ub => rfl
      | ok sm =>
        dsimp only
        cases hostFix sm <;> rfl
    · rfl
  | auth id => rfl
  | strMatch tmpl re =>
    simp only [matchElem]
    cases expandString st.env tmpl <;> rfl
  | cert id => rfl

mutual
theorem matchCond_hs (x : CondCtx) : ∀ (c : Cond) (st : PState), (matchCond x c st).1.hs = st.hs
  | .elem e, st => by simp only [matchCond]; exact matchElem_hs x e st
  | .bool .not [], st => by simp only [matchCond]
  | .bool .not (c :: _), st => by
    have h := matchCond_hs x c st
    simp only [matchCond]
    rcases hm : matchCond x c st with ⟨st1, v | _ | _⟩ <;> rw [hm] at h <;> exact h
  | .bool .and cs, st => by
    have h := matchConds_hs x .and cs st 1
    simp only [matchCond]; exact h
  | .bool .or cs, st => by
    have h := matchConds_hs x .or cs st 1
    simp only [matchCond]; exact h
theorem matchConds_hs (x : CondCtx) (op : BoolOp) : ∀ (cs : List Cond) (st : PState) (r : Int), (matchConds x op cs st r).1.hs = st.hs
  | [], st, r => by simp only [matchConds]
  | c :: cs, st, r => by
    have h := matchCond_hs x c st
    simp only [matchConds]
    rcases hm : matchCond x c st with ⟨st1, v | _ | _⟩ <;> rw [hm] at h
    · dsimp only
      split
      · exact h
      · have hr := (matchConds_hs x op cs st1 v).trans h
        split <;> split <;> first | exact h | exact hr
    · exact h
    · exact h
end

theorem listAppend_rpCoded {hs : List Header} (hc : ∀ h ∈ hs, RpCoded h) {t : Bytes} {n : Nat} {hs' : List Header}
    (hl : listAppend hs t .replace = .ok (n, hs')) : ∀ h ∈ hs', RpCoded h := by
  unfold listAppend at hl
  cases hn : locateName hs t with
  | none =>
    rw [hn] at hl
    dsimp only at hl
    split at hl
    · injection hl with hl; injection hl with _ hl; subst hl; exact hc
    · injection hl with hl; injection hl with _ hl; subst hl
      intro h hh
      rcases List.mem_append.1 hh with h1 | h1
      · exact hc h h1
      · rw [List.mem_singleton] at h1; subst h1; exact ⟨_, rfl⟩
  | some i =>
    rw [hn] at hl
    dsimp only at hl
    cases hi : hs[i]? with
    | none => rw [hi] at hl; cases hl
    | some h0 =>
      rw [hi] at hl
      dsimp only at hl
      injection hl with hl; injection hl with _ hl; subst hl
      intro h hh
      rcases List.mem_or_eq_of_mem_set hh with h1 | h1
      · exact hc h h1
      · subst h1; exact ⟨_, rfl⟩

theorem rwPrim_coded (p : RwPrim) (st : PState) (hc : ∀ h ∈ st.hs, RpCoded h) : ∀ h ∈ (rwPrim p st).1.hs, RpCoded h := by
  cases p with
  | hdrDel re =>
    intro h hh
    exact hc h (List.mem_filter.1 hh).1
  | hdrSet t =>
    simp only [rwPrim, withExpansion]
    cases expandString st.env t with
    | str s =>
      dsimp only
      cases hl : listAppend st.hs s .replace with
      | ub => exact hc
      | ok r => exact listAppend_rpCoded hc hl
    | null => exact hc
    | ub => exact hc
    | stuck => exact hc
  | paramSet name t =>
    simp only [rwPrim, withExpansion]
    cases expandString st.env t <;> exact hc
  | urlSet t =>
    simp only [rwPrim, withExpansion]
    cases expandString st.env t <;> exact hc
  | pathSet t =>
    simp only [rwPrim, withExpansion]
    cases expandString st.env t <;> exact hc
  | querySet t =>
    simp only [rwPrim, withExpansion]
    cases expandString st.env t <;> exact hc

mutual
theorem rwOp_coded (x : CondCtx) : ∀ (o : RwOp) (st : PState), (∀ h ∈ st.hs, RpCoded h) → ∀ h ∈ (rwOp x o st).1.hs, RpCoded h
  | .prim p, st, hc => by simp only [rwOp]; exact rwPrim_coded p st hc
  | .rule r, st, hc => by simp only [rwOp]; exact rwRule_coded x r st hc
theorem rwOps_coded (x : CondCtx) : ∀ (o : List RwOp) (st : PState), (∀ h ∈ st.hs, RpCoded h) → ∀ h ∈ (rwOps x o st).1.hs, RpCoded h
  | [], st, hc => by simp only [rwOps]; exact hc
  | o :: t, st, hc => by
    have h := rwOp_coded x o st hc
    simp only [rwOps]
    rcases hm : rwOp x o st with ⟨st1, v | _ | _⟩ <;> rw [hm] at h
    · dsimp only
      split
      · exact rwOps_coded x t st1 h
      · exact h
    · exact h
    · exact h
theorem rwRule_coded (x : CondCtx) : ∀ (o : RwRule) (st : PState), (∀ h ∈ st.hs, RpCoded h) → ∀ h ∈ (rwRule x o st).1.hs, RpCoded h
  | .null, st, hc => by simp only [rwRule]; exact hc
  | .mk c ops iffalse, st, hc => by
    have h := matchCond_hs x c st
    simp only [rwRule]
    rcases hm : matchCond x c st with ⟨st1, v | _ | _⟩ <;> rw [hm] at h <;> dsimp only at h
    · dsimp only
      split
      · exact rwOps_coded x ops st1 (h ▸ hc)
      · exact rwRule_coded x iffalse st1 (h ▸ hc)
    · exact h ▸ hc
    · exact h ▸ hc
end

theorem rewriteApply_coded (x : CondCtx) : ∀ (l : List RwRule) (st : PState), (∀ h ∈ st.hs, RpCoded h) →
    ∀ h ∈ (rewriteApply x l st).1.hs, RpCoded h
  | [], st, hc => by simp only [rewriteApply]; exact hc
  | r :: t, st, hc => by
    have h := rwRule_coded x r st hc
    simp only [rewriteApply]
    rcases hm : rwRule x r st with ⟨st1, v | _ | _⟩ <;> rw [hm] at h
    · dsimp only
      split
      · exact rewriteApply_coded x t st1 h
      · exact h
    · exact h
    · exact h

theorem rewriteResponse_coded (x : CondCtx) (svc lstn : List RwRule) (st : PState) (hc : ∀ h ∈ st.hs, RpCoded h) :
    ∀ h ∈ (rewriteResponse x svc lstn st).1.hs, RpCoded h := by
  have h := rewriteApply_coded x svc st hc
  unfold rewriteResponse
  rcases hm : rewriteApply x svc st with ⟨st1, v | _ | _⟩ <;> rw [hm] at h
  · dsimp only
    split
    · exact rewriteApply_coded x lstn st1 h
    · exact h
  · exact h
  · exact h

/-- The headers of error replies -/
def errHs : List Header :=
  [headerAlloc b!"Expires: now", headerAlloc b!"Pragma: no-cache", headerAlloc b!"Cache-control: no-cache,no-store"]

theorem errState_eq (smq : PState) : errState smq = some ⟨⟨[], none, 0, 0, [], [], none, [], false⟩, errHs, smq.smq, some (smq.req, smq.hs)⟩ := by
  have h : parseHeaderText 4 [] errHeaders = some (.ok errHs) := by decide +kernel
  unfold errState
  rw [h]

theorem errHs_coded : ∀ h ∈ errHs, RpCoded h := by
  intro h hh
  simp only [errHs, List.mem_cons, List.not_mem_nil, or_false] at hh
  rcases hh with rfl | rfl | rfl <;> exact ⟨_, rfl⟩

/-! ### Reading replies -/

theorem values_none {name : Bytes} {ls : List Bytes} (h : ∀ l ∈ ls, ¬ Named l name) : Values name ls [] := by
  induction ls with
  | nil => exact .nil
  | cons a t ih => exact .miss (h a (by simp)) (ih fun l hl => h l (by simp [hl]))

theorem values_append {name : Bytes} {a x b y : List Bytes} (ha : Values name a x) (hb : Values name b y) :
    Values name (a ++ b) (x ++ y) := by
  induction ha with
  | nil => exact hb
  | hit h1 h2 _ ih => exact .hit h1 h2 ih
  | miss h1 _ ih => exact .miss h1 ih

/-- A response line and lines of headers. -/
theorem framed_lines {line : Bytes} {lines : List Bytes} (ht : ∀ c ∈ line, Text c) (hh : ∀ l ∈ lines, l ≠ [] ∧ ∀ c ∈ l, Text c) :
    ∃ lim, WireLine lim (line ++ [13, 10]) line ∧ Block lim (lines.flatMap (· ++ [13, 10]) ++ [13, 10]) lines := by
  refine ⟨line.length + (lines.map List.length).sum + 2, ⟨ht, .inr rfl, by simp⟩, ?_⟩
  apply block_lines
  · intro l hl
    have h1 := hh l hl
    exact ⟨h1.1, h1.2, by have := length_le_sum hl; omega⟩
  · omega

theorem dec_clean (n : Nat) : NotAt (fun c => c = 32 ∨ c = 9) (dec n) := by
  intro c hc
  have := dec_text n c (List.mem_of_mem_head? hc)
  rintro (rfl | rfl) <;> revert this <;> unfold Digit <;> decide

theorem cl_line (n : Nat) : HeaderLine (b!"Content-Length: " ++ dec n) b!"Content-Length" (dec n) := by
  have := headerLine_mk (n := b!"Content-Length") (by decide) (by unfold TChar; decide) (dec_clean n)
  exact this

theorem close_line : HeaderLine b!"Connection: close" b!"Connection" b!"close" := by
  have := headerLine_mk (n := b!"Connection") (v := b!"close") (by decide) (by unfold TChar; decide) (by unfold NotAt; decide)
  exact this

theorem type_line {ty : Bytes} (h : NotAt (fun c => c = 32 ∨ c = 9) ty) : HeaderLine (b!"Content-Type: " ++ ty) b!"Content-Type" ty := by
  have := headerLine_mk (n := b!"Content-Type") (by decide) (by unfold TChar; decide) h
  exact this

/-- Replies made of a response line, the lines `pre`, length and `Connection: close` for HTTP/1.1, the lines `hs`, and the body. -/
theorem framed {line : Bytes} {ver code : Nat} {pre hs : List Bytes} {body : Bytes}
    (hr : ResponseLine line ver code) (ht : ∀ c ∈ line, Text c)
    (hp : ∀ l ∈ pre, (l ≠ [] ∧ ∀ c ∈ l, Text c) ∧ ¬ Named l b!"Transfer-Encoding" ∧ ¬ Named l b!"Content-Length")
    (hh : ∀ l ∈ hs, (l ≠ [] ∧ ∀ c ∈ l, Text c) ∧ ¬ Named l b!"Transfer-Encoding" ∧ ¬ Named l b!"Content-Length")
    (hb : body.length < 2 ^ 63) {w : Bytes}
    (hw : w = line ++ [13, 10] ++ pre.flatMap (· ++ [13, 10]) ++
      (if ver = 1 then b!"Content-Length: " ++ dec body.length ++ [13, 10] ++ b!"Connection: close" ++ [13, 10] else []) ++
      hs.flatMap (· ++ [13, 10]) ++ [13, 10] ++ body) :
    (ver = 1 → ∀ {heads rest xs}, Replies heads rest xs → Replies (false :: heads) (w ++ rest) ((code, body) :: xs)) ∧
    (ver = 0 → Replies [false] w [(code, body)]) := by
  have hd : ∀ c ∈ dec body.length, Text c := fun c hc => digit_text (dec_text _ c hc)
  have l4 : (∀ c ∈ b!"Content-Length: ", Text c) ∧ (∀ c ∈ b!"Connection: close", Text c) := by unfold Text; decide
  let mid : List Bytes := if ver = 1 then [b!"Content-Length: " ++ dec body.length, b!"Connection: close"] else []
  have hmid : ∀ l ∈ mid, l ≠ [] ∧ ∀ c ∈ l, Text c := by
    intro l hl
    simp only [mid] at hl
    split at hl
    · simp only [List.mem_cons, List.not_mem_nil, or_false] at hl
      rcases hl with rfl | rfl
      · refine ⟨by simp, ?_⟩
        intro c hc
        rcases List.mem_append.1 hc with h | h
        · exact l4.1 c h
        · exact hd c h
      · exact ⟨by simp, l4.2⟩
    · cases hl
  obtain ⟨lim, hl1, hl2⟩ := framed_lines (line := line) (lines := pre ++ (mid ++ hs)) ht (by
    intro l hl
    rcases List.mem_append.1 hl with h | h
    · exact (hp l h).1
    · rcases List.mem_append.1 h with h | h
      · exact hmid l h
      · exact (hh l h).1)
  have hte : Values b!"Transfer-Encoding" (pre ++ (mid ++ hs)) [] := by
    apply values_none
    intro l hl
    rcases List.mem_append.1 hl with h | h
    · exact (hp l h).2.1
    · rcases List.mem_append.1 h with h | h
      · simp only [mid] at h
        split at h
        · simp only [List.mem_cons, List.not_mem_nil, or_false] at h
          rcases h with rfl | rfl
          · exact not_named (cl_line _) (by decide)
          · exact not_named close_line (by decide)
        · cases h
      · exact (hh l h).2.1
  have hwire : w = (line ++ [13, 10]) ++ (((pre ++ (mid ++ hs)).flatMap (· ++ [13, 10]) ++ [13, 10]) ++ body) := by
    rw [hw]
    by_cases h1 : ver = 1 <;> simp [h1, mid]
  refine ⟨?_, ?_⟩
  · intro h1 heads rest xs hrest
    rw [hwire, List.append_assoc, List.append_assoc (_ ++ _)]
    refine .len hl1 hr hl2 hte (v := dec body.length) ?_ ⟨hb, [], _, [], by simp, by simp [Blank], dec_denotes _, by simp [Blank]⟩ hrest
    have hm : Values b!"Content-Length" mid [dec body.length] := by
      simp only [mid, if_pos h1]
      exact .hit (cl_line _) (by decide) (.miss (not_named close_line (by decide)) .nil)
    have := values_append (values_none (name := b!"Content-Length") fun l hl => (hp l hl).2.2)
      (values_append hm (values_none (name := b!"Content-Length") fun l hl => (hh l hl).2.2))
    simpa using this
  · intro h0
    rw [hwire]
    refine .eof hl1 hr hl2 hte ?_
    have hm : Values b!"Content-Length" mid [] := by
      simp only [mid, h0]
      exact .nil
    have := values_append (values_none (name := b!"Content-Length") fun l hl => (hp l hl).2.2)
      (values_append hm (values_none (name := b!"Content-Length") fun l hl => (hh l hl).2.2))
    simpa using this

/-! ### What is read is determined by the stream -/

theorem text_split {l l' r r' : Bytes} {c c' : UInt8} (hl : ∀ x ∈ l, Text x) (hl' : ∀ x ∈ l', Text x) (hc : ¬ Text c) (hc' : ¬ Text c')
    (h : l ++ c :: r = l' ++ c' :: r') : l = l' ∧ c = c' ∧ r = r' := by
  induction l generalizing l' with
  | nil =>
    cases l' with
    | nil => simpa using h
    | cons a t =>
      simp only [List.nil_append, List.cons_append, List.cons.injEq] at h
      exact absurd (h.1 ▸ hl' a (by simp)) hc
  | cons a t ih =>
    cases l' with
    | nil =>
      simp only [List.nil_append, List.cons_append, List.cons.injEq] at h
      exact absurd (h.1 ▸ hl a (by simp)) hc'
    | cons b t' =>
      simp only [List.cons_append, List.cons.injEq] at h
      obtain ⟨h1, h2, h3⟩ := ih (fun x hx => hl x (by simp [hx])) (fun x hx => hl' x (by simp [hx])) h.2
      exact ⟨by rw [h.1, h1], h2, h3⟩

theorem wire_det {lim lim' : Nat} {w l w' l' r r' : Bytes} (h : WireLine lim w l) (h' : WireLine lim' w' l')
    (he : w ++ r = w' ++ r') : l = l' ∧ r = r' := by
  have n10 : ¬ Text 10 := by unfold Text; decide
  have n13 : ¬ Text 13 := by unfold Text; decide
  rcases h.2.1 with e | e <;> rcases h'.2.1 with e' | e' <;> subst e <;> subst e' <;>
    simp only [List.append_assoc, List.cons_append, List.nil_append] at he
  · obtain ⟨h1, _, h3⟩ := text_split h.1 h'.1 n10 n10 he; exact ⟨h1, h3⟩
  · obtain ⟨_, h2, _⟩ := text_split h.1 h'.1 n10 n13 he; cases h2
  · obtain ⟨_, h2, _⟩ := text_split h.1 h'.1 n13 n10 he; cases h2
  · obtain ⟨h1, _, h3⟩ := text_split h.1 h'.1 n13 n13 he
    injection h3 with _ h3; exact ⟨h1, h3⟩

theorem block_det {lim lim' : Nat} {w w' r r' : Bytes} {ls ls' : List Bytes} (h : Block lim w ls) (h' : Block lim' w' ls')
    (he : w ++ r = w' ++ r') : ls = ls' ∧ r = r' := by
  induction h generalizing w' ls' with
  | done h1 =>
    cases h' with
    | done h2 => exact ⟨rfl, (wire_det h1 h2 he).2⟩
    | more h2 h3 _ =>
      rw [List.append_assoc] at he
      exact absurd (wire_det h1 h2 he).1.symm h3
  | more h1 h0 _ ih =>
    cases h' with
    | done h2 =>
      rw [List.append_assoc] at he
      exact absurd (wire_det h1 h2 he).1 h0
    | more h2 h3 h4 =>
      rw [List.append_assoc, List.append_assoc] at he
      obtain ⟨e1, e2⟩ := wire_det h1 h2 he
      obtain ⟨e3, e4⟩ := ih h4 e2
      exact ⟨by rw [e1, e3], e4⟩

theorem declares_det {v : Bytes} {n m : Nat} (h : DeclaresLength v n) (h' : DeclaresLength v m) : n = m := by
  have key : ∀ {v : Bytes} {n : Nat}, DeclaresLength v n →
      n = (v.filter fun c => (digit? 10 c).isSome).foldl (fun a c => a * 10 + (digit? 10 c).getD 0) 0 := by
    rintro v n ⟨_, ws, ds, ws', rfl, hb, hd, hb'⟩
    have nb : ∀ {s : Bytes}, Blank s → s.filter (fun c => (digit? 10 c).isSome) = [] := by
      intro s hs
      rw [List.filter_eq_nil_iff]
      intro c hc
      rcases hs c hc with rfl | rfl <;> decide
    rw [List.filter_append, List.filter_append, nb hb, nb hb', List.filter_eq_self.2 hd.2.1]
    simpa using hd.2.2
  rw [key h, key h']

/-- The three digits after the blanks. -/
def respDigits (line : Bytes) : List Nat := (((line.drop 8).dropWhile (fun x => x == 32 || x == 9)).take 3).map UInt8.toNat

theorem respLine_det {line : Bytes} {v c v' c' : Nat} (h : ResponseLine line v c) (h' : ResponseLine line v' c') : c = c' := by
  have key : ∀ {line : Bytes} {v c : Nat}, ResponseLine line v c →
        c = 100 * ((respDigits line).getD 0 0 - 48) + 10 * ((respDigits line).getD 1 0 - 48) + ((respDigits line).getD 2 0 - 48) := by
    rintro line v c ⟨v', a, b, d, ws, tail, rfl, _, _, _, hb, ⟨x, y, z, h1, h2, h3, h4, h5, _, _, hc⟩, _⟩
    have ha : (a == 32 || a == 9) = false := by
      have n1 : a ≠ 32 := by rintro rfl; simp at h1; omega
      have n2 : a ≠ 9 := by rintro rfl; simp at h1; omega
      simp [n1, n2]
    have hws : ∀ x ∈ ws, (x == 32 || x == 9) = true := by
      intro x hx; rcases hb x hx with rfl | rfl <;> rfl
    have e : (((b!"HTTP/1." ++ [v'] ++ ws ++ [a, b, d] ++ tail).drop 8).dropWhile (fun x => x == 32 || x == 9)).take 3 = [a, b, d] := by
      have e1 : (b!"HTTP/1." ++ [v'] ++ ws ++ [a, b, d] ++ tail).drop 8 = ws ++ (a :: b :: d :: tail) := by simp
      rw [e1, List.dropWhile_append_of_pos hws, List.dropWhile_cons_of_neg (by rw [ha]; decide)]
      rfl
    unfold respDigits
    rw [e]
    simp only [List.map_cons, List.map_nil, List.getD_cons_zero, List.getD_cons_succ, h1, h2, h3]
    omega
  rw [key h, key h']

theorem replies_det {heads : List Bool} {w : Bytes} {xs ys : List (Nat × Bytes)} (h : Replies heads w xs) (h' : Replies heads w ys) :
    xs = ys := by
  induction h generalizing ys with
  | nil =>
    generalize he : ([] : List Bool) = hh at h'
    generalize hw : ([] : Bytes) = w at h'
    cases h' <;> first | rfl | cases he
  | len h1 h2 h3 h4 h5 h6 _ ih =>
    rename_i lim sl line ver code blk lines v body heads rest xs hrest
    generalize hw : sl ++ (blk ++ (body ++ rest)) = w at h'
    cases h' with
    | len g1 g2 g3 g4 g5 g6 g7 =>
      obtain ⟨rfl, e2⟩ := wire_det h1 g1 hw
      obtain ⟨rfl, e4⟩ := block_det h3 g3 e2
      have hv := values_det h5 g5
      injection hv with hv _
      subst hv
      have hl := declares_det h6 g6
      obtain ⟨rfl, rfl⟩ := List.append_inj e4 hl
      rw [respLine_det h2 g2, ih g7]
    | eof g1 g2 g3 g4 g5 =>
      obtain ⟨rfl, e2⟩ := wire_det h1 g1 hw
      obtain ⟨rfl, e4⟩ := block_det h3 g3 e2
      have hv := values_det h5 g5
      cases hv
  | head h1 h2 h3 _ ih =>
    rename_i lim sl line ver code blk lines heads rest xs hrest
    generalize hw : sl ++ (blk ++ rest) = w at h'
    cases h' with
    | head g1 g2 g3 g4 =>
      obtain ⟨rfl, e2⟩ := wire_det h1 g1 hw
      obtain ⟨rfl, rfl⟩ := block_det h3 g3 e2
      rw [respLine_det h2 g2, ih g4]
  | eof h1 h2 h3 h4 h5 =>
    rename_i lim sl line ver code blk lines body
    generalize hw : sl ++ (blk ++ body) = w at h'
    cases h' with
    | len g1 g2 g3 g4 g5 g6 g7 =>
      obtain ⟨rfl, e2⟩ := wire_det h1 g1 hw
      obtain ⟨rfl, e4⟩ := block_det h3 g3 e2
      have hv := values_det h5 g5
      cases hv
    | eof g1 g2 g3 g4 g5 =>
      obtain ⟨rfl, e2⟩ := wire_det h1 g1 hw
      obtain ⟨rfl, rfl⟩ := block_det h3 g3 e2
      rw [respLine_det h2 g2]

/-! ### The replies -/

/-- The bytes are a complete reply, whatever follows in HTTP/1.1. -/
def Frames (ver : Nat) (w : Bytes) (y : Nat × Bytes) : Prop :=
  (ver = 1 → ∀ {heads rest xs}, Replies heads rest xs → Replies (false :: heads) (w ++ rest) (y :: xs)) ∧
  (ver = 0 → Replies [false] w [y])

theorem Frames.only {ver : Nat} (hv : ver ≤ 1) {w : Bytes} {y : Nat × Bytes} (h : Frames ver w y) : Replies [false] w [y] := by
  by_cases h1 : ver = 1
  · have := h.1 h1 .nil
    rwa [List.append_nil] at this
  · exact h.2 (by omega)

/-- The codes of replies made by the program -/
def ownCodes : List Nat := [200, 400, 401, 403, 404, 405, 413, 414, 500, 501, 503, 301, 302, 303, 307, 308]

theorem dec_code : ∀ c ∈ ownCodes, dec c = [UInt8.ofNat (48 + c / 100), UInt8.ofNat (48 + c / 10 % 10), UInt8.ofNat (48 + c % 10)] ∧
    (UInt8.ofNat (48 + c / 100)).toNat = 48 + c / 100 ∧ (UInt8.ofNat (48 + c / 10 % 10)).toNat = 48 + c / 10 % 10 ∧
    (UInt8.ofNat (48 + c % 10)).toNat = 48 + c % 10 ∧ 1 ≤ c / 100 ∧ c / 100 ≤ 5 ∧ c / 10 % 10 ≤ 9 ∧ c % 10 ≤ 9 ∧
    c = 100 * (c / 100) + 10 * (c / 10 % 10) + c % 10 := by decide +kernel

theorem respLine_mk {ver code : Nat} (hv : ver ≤ 1) (hc : code ∈ ownCodes) (text : Bytes) :
    ResponseLine (b!"HTTP/1." ++ dec ver ++ b!" " ++ dec code ++ b!" " ++ text) ver code := by
  obtain ⟨h0, h1, h2, h3, h4⟩ := dec_code code hc
  have hver : dec ver = [UInt8.ofNat (48 + ver)] ∧ (UInt8.ofNat (48 + ver)).toNat = 48 + ver := by
    have : ver = 0 ∨ ver = 1 := by omega
    rcases this with rfl | rfl <;> decide
  refine ⟨UInt8.ofNat (48 + ver), _, _, _, [32], 32 :: text, ?_, hver.2, hv, by simp, ?_, ⟨_, _, _, h1, h2, h3, h4⟩, .inr ⟨_, _, rfl, .inl rfl⟩⟩
  · rw [h0, hver.1]; simp
  · intro c hc; simp at hc; exact .inl hc

theorem respLine_text {ver code : Nat} {text : Bytes} (ht : ∀ c ∈ text, Text c) :
    ∀ c ∈ b!"HTTP/1." ++ dec ver ++ b!" " ++ dec code ++ b!" " ++ text, Text c := by
  have lit : (∀ c ∈ b!"HTTP/1.", Text c) ∧ (∀ c ∈ b!" ", Text c) := by unfold Text; decide
  intro c hc
  simp only [List.mem_append] at hc
  rcases hc with ((((h | h) | h) | h) | h) | h
  · exact lit.1 c h
  · exact digit_text (dec_text _ c h)
  · exact lit.2 c h
  · exact digit_text (dec_text _ c h)
  · exact lit.2 c h
  · exact ht c h

/-- The lines of a header with a fixed name -/
theorem plain_header {n v : Bytes} (hn : n ≠ []) (ht : ∀ c ∈ n, TChar c) (htn : ∀ c ∈ n, Text c) (hv : NotAt (fun c => c = 32 ∨ c = 9) v)
    (hvt : ∀ c ∈ v, Text c) (h1 : ciEq n b!"Transfer-Encoding" = false) (h2 : ciEq n b!"Content-Length" = false) :
    ((n ++ b!": " ++ v) ≠ [] ∧ ∀ c ∈ n ++ b!": " ++ v, Text c) ∧ ¬ Named (n ++ b!": " ++ v) b!"Transfer-Encoding" ∧
      ¬ Named (n ++ b!": " ++ v) b!"Content-Length" := by
  have hl := headerLine_mk hn ht hv
  refine ⟨⟨by simp, ?_⟩, not_named hl h1, not_named hl h2⟩
  have lit : (∀ c ∈ b!": ", Text c) := by unfold Text; decide
  intro c hc
  simp only [List.mem_append] at hc
  rcases hc with (h | h) | h
  · exact htn c h
  · exact lit c h
  · exact hvt c h

theorem httpReply_frames {ver code : Nat} (hv : ver ≤ 1) (hc : code ∈ ownCodes) {text : Bytes} (ht : ∀ c ∈ text, Text c) {hs : List Bytes}
    (hh : ∀ l ∈ hs, (l ≠ [] ∧ ∀ c ∈ l, Text c) ∧ ¬ Named l b!"Transfer-Encoding" ∧ ¬ Named l b!"Content-Length")
    {content : Bytes} (hb : content.length < 2 ^ 63) :
    Frames ver (httpReply ver code text (hs.flatMap (· ++ [13, 10])) b!"text/html" content) (code, content) := by
  apply framed (pre := [b!"Content-Type: text/html"]) (respLine_mk hv hc text) (respLine_text ht) ?_ hh hb
  · unfold httpReply replyStart
    by_cases h1 : ver = 1 <;> simp [h1]
  · intro l hl
    rw [List.mem_singleton] at hl
    subst hl
    exact plain_header (n := b!"Content-Type") (v := b!"text/html") (by decide) (by unfold TChar; decide) (by unfold Text; decide)
      (by unfold NotAt; decide) (by unfold Text; decide) (by decide) (by decide)

theorem statusInfo_spec (st : Status) : statusInfo st = codeReason st := by cases st <;> rfl

theorem codeReason_own (st : Status) : (codeReason st).1 ∈ ownCodes ∧ (∀ c ∈ (codeReason st).2, Text c) := by
  cases st <;> refine ⟨by decide, ?_⟩ <;> unfold Text <;> decide

theorem errReply_frames {ver : Nat} (hv : ver ≤ 1) (st : Status) {page : Bytes} (hb : page.length < 2 ^ 63) :
    Frames ver (errReply ver st page) ((codeReason st).1, page) := by
  have h := httpReply_frames hv (codeReason_own st).1 (codeReason_own st).2
    (hs := [b!"Expires: now", b!"Pragma: no-cache", b!"Cache-control: no-cache,no-store"]) (by
      intro l hl
      simp only [List.mem_cons, List.not_mem_nil, or_false] at hl
      rcases hl with rfl | rfl | rfl
      · exact plain_header (n := b!"Expires") (v := b!"now") (by decide) (by unfold TChar; decide) (by unfold Text; decide)
          (by unfold NotAt; decide) (by unfold Text; decide) (by decide) (by decide)
      · exact plain_header (n := b!"Pragma") (v := b!"no-cache") (by decide) (by unfold TChar; decide) (by unfold Text; decide)
          (by unfold NotAt; decide) (by unfold Text; decide) (by decide) (by decide)
      · exact plain_header (n := b!"Cache-control") (v := b!"no-cache,no-store") (by decide) (by unfold TChar; decide) (by unfold Text; decide)
          (by unfold NotAt; decide) (by unfold Text; decide) (by decide) (by decide)) hb
  unfold errReply
  rw [statusInfo_spec]
  exact h

theorem statusText_sentence (st : Status) : Sentence (statusText st) := by
  cases st <;> refine ⟨by decide, ?_⟩ <;> unfold Text <;> decide +kernel

theorem defaultPage_made (st : Status) : MadePage (codeReason st).1 (codeReason st).2 (defaultPage st) := by
  refine ⟨b!"<!DOCTYPE HTML PUBLIC \"-//IETF//DTD HTML 2.0//EN\">", dec (codeReason st).1, statusText st, dec_denotes _, ?_, statusText_sentence st, ?_⟩
  · rw [(dec_code _ (codeReason_own st).1).1]; rfl
  · unfold defaultPage
    rw [statusInfo_spec]
    simp only [List.append_assoc, List.cons_append, List.nil_append]

theorem httpErrReply_length (pg : Pages) (ver : Nat) (st : Status) :
    (errPage pg st).length ≤ (httpErrReply pg ver st).length := by
  unfold httpErrReply errReply httpReply
  rw [List.length_append]
  omega

theorem httpErrReply_frames (pg : Pages) {ver : Nat} (hv : ver ≤ 1) (st : Status) (hb : (httpErrReply pg ver st).length < 2 ^ 63) :
    ∃ y, ErrorAnswer pg st y ∧ Frames ver (httpErrReply pg ver st) y := by
  have hlen := httpErrReply_length pg ver st
  refine ⟨((codeReason st).1, errPage pg st), ?_, ?_⟩
  · unfold errPage
    cases h : pg st with
    | some t => exact .configured h
    | none => exact .made h (defaultPage_made st)
  · exact errReply_frames hv st (by omega)

/-- What has to hold for a backend: files of challenges do not change while they are sent, and rewriting rules leave header lines that do not
declare a transfer coding. -/
def OwnOk : OwnBe → Prop
  | .error _ _ x svc lstn smq => ∀ st0 st1, errState smq = some st0 → rewriteResponse x svc lstn st0 = (st1, .val 0) →
      ∀ h ∈ st1.hs, (∃ n v, HeaderLine h.text n v) ∧ (∀ c ∈ h.text, Text c) ∧ ¬ Named h.text b!"Transfer-Encoding"
  | .redirect .. => True
  | .acme (.file size data) => size = data.length
  | .acme _ => True

theorem safe_lines {hs : List Header} (hc : ∀ h ∈ hs, RpCoded h)
    (hok : ∀ h ∈ hs, (∃ n v, HeaderLine h.text n v) ∧ (∀ c ∈ h.text, Text c) ∧ ¬ Named h.text b!"Transfer-Encoding") :
    ∀ l ∈ (hs.filter fun h => !(h.code == .contentLength || h.code == .connection)).map (·.text),
      (l ≠ [] ∧ ∀ c ∈ l, Text c) ∧ ¬ Named l b!"Transfer-Encoding" ∧ ¬ Named l b!"Content-Length" := by
  intro l hl
  obtain ⟨h, hm, rfl⟩ := List.mem_map.1 hl
  obtain ⟨hm, hne⟩ := List.mem_filter.1 hm
  obtain ⟨⟨n, v, hline⟩, ht, hte⟩ := hok h hm
  refine ⟨⟨?_, ht⟩, hte, ?_⟩
  · intro he
    obtain ⟨ws, e, h1, _⟩ := hline
    rw [he] at e
    cases n with
    | nil => exact h1 rfl
    | cons a t => cases e
  · intro hnamed
    have hf := (hc h hm).fine hline
    have hcode : h.code = .contentLength := by
      rw [hf.2]
      exact (codeOf_iff mem_cl _).2 (ciEq_trans ((hf.1.named _).1 hnamed) (by decide))
    rw [hcode] at hne
    cases hne

theorem errorResponse_out {pg : Pages} {x : CondCtx} {svc lstn : List RwRule} {smq : PState} {ver : Nat} (hv : ver ≤ 1) {err : Status}
    {text : Option Bytes} {out : Bytes} {res : Status} (hok : OwnOk (.error err text x svc lstn smq))
    (h : errorResponse pg x svc lstn smq ver err text = .did out res) (hb : out.length < 2 ^ 63) :
    (res = .ok → ∃ y, OwnAnswer pg ver (.error err text x svc lstn smq) false y ∧ Frames ver out y) ∧
    (res ≠ .ok → out = [] ∧ ∀ y, ErrorAnswer pg res y → OwnAnswer pg ver (.error err text x svc lstn smq) true y) := by
  unfold errorResponse at h
  rw [errState_eq] at h
  dsimp only at h
  have hc := rewriteResponse_coded x svc lstn ⟨⟨[], none, 0, 0, [], [], none, [], false⟩, errHs, smq.smq, some (smq.req, smq.hs)⟩ errHs_coded
  rcases hm : rewriteResponse x svc lstn ⟨⟨[], none, 0, 0, [], [], none, [], false⟩, errHs, smq.smq, some (smq.req, smq.hs)⟩ with ⟨st1, v | _ | _⟩ <;> rw [hm] at h hc
  · dsimp only at h
    by_cases hv0 : v = 0
    · subst hv0
      rw [if_neg (by simp)] at h
      injection h with h1 h2
      subst h1; subst h2
      refine ⟨fun _ => ?_, fun hne => absurd rfl hne⟩
      have hans : OwnAnswer pg ver (.error err text x svc lstn smq) false ((codeReason err).1, errText pg err text) := by
        cases text with
        | some u => exact .text
        | none =>
          cases hpg : pg err with
          | some u => simp only [errText, hpg]; exact .page hpg
          | none => simp only [errText, hpg]; exact .plain hpg (statusText_sentence err)
      refine ⟨_, hans, ?_⟩
      have hl := safe_lines hc (hok _ _ (errState_eq smq) hm)
      apply framed (pre := []) (respLine_mk hv (codeReason_own err).1 (codeReason err).2) (respLine_text (codeReason_own err).2)
        (fun l hl => by cases hl) hl (by rw [List.length_append] at hb; exact Nat.lt_of_le_of_lt (Nat.le_add_left _ _) hb)
      rw [statusInfo_spec]
      generalize errText pg err text = t
      unfold replyStartList headersSafe crlf
      rw [List.flatMap_map]
      by_cases h1 : ver = 1 <;> simp [h1]
    · rw [if_pos (by simpa using hv0)] at h
      injection h with h1 h2
      subst h1; subst h2
      exact ⟨fun he => (by cases he), fun _ => ⟨rfl, fun y hy => .rules ⟨_, _, v, errState_eq smq, hm, hv0⟩ hy⟩⟩
  · cases h
  · cases h

theorem redirect_out {pg : Pages} {ver : Nat} (hv : ver ≤ 1) {env : ExpEnv} {url : Bytes} {code : Nat} {target : Bytes} {hasUri : Bool}
    {r : RedirRes} (h : redirectResponse env url ver code target hasUri = r) :
    (∀ w, r = .sent w → w.length < 2 ^ 63 → ∃ y, OwnAnswer pg ver (.redirect env url code target hasUri) false y ∧ Frames ver w y) ∧
    (∀ st, r = .err st → st = .internalError) := by
  unfold redirectResponse at h
  have hmsg : ∀ m, redirectText code = some m → code ∈ [301, 302, 303, 307, 308] ∧ ∀ c ∈ m, Text c := by
    intro m hm
    unfold redirectText at hm
    by_cases h1 : code = 301
    · subst h1; injection hm with hm; subst hm; exact ⟨by decide, by unfold Text; decide⟩
    rw [if_neg h1] at hm
    by_cases h2 : code = 302
    · subst h2; injection hm with hm; subst hm; exact ⟨by decide, by unfold Text; decide⟩
    rw [if_neg h2] at hm
    by_cases h3 : code = 303
    · subst h3; injection hm with hm; subst hm; exact ⟨by decide, by unfold Text; decide⟩
    rw [if_neg h3] at hm
    by_cases h4 : code = 307
    · subst h4; injection hm with hm; subst hm; exact ⟨by decide, by unfold Text; decide⟩
    rw [if_neg h4] at hm
    by_cases h5 : code = 308
    · subst h5; injection hm with hm; subst hm; exact ⟨by decide, by unfold Text; decide⟩
    rw [if_neg h5] at hm; cases hm
  cases hm : redirectText code with
  | none => rw [hm] at h; subst h; exact ⟨fun w hw => (by cases hw), fun st hs => by injection hs with hs; exact hs.symm⟩
  | some m =>
    rw [hm] at h
    obtain ⟨hcode, hmt⟩ := hmsg m hm
    dsimp only at h
    cases hx : expandUrl env url target hasUri with
    | null => rw [hx] at h; subst h; exact ⟨fun w hw => (by cases hw), fun st hs => by injection hs with hs; exact hs.symm⟩
    | ub => rw [hx] at h; subst h; exact ⟨fun w hw => (by cases hw), fun st hs => by cases hs⟩
    | stuck => rw [hx] at h; subst h; exact ⟨fun w hw => (by cases hw), fun st hs => by cases hs⟩
    | str xurl =>
      rw [hx] at h
      dsimp only at h
      subst h
      refine ⟨?_, fun st hs => by cases hs⟩
      intro w hw hb
      injection hw with hw
      generalize hcont : (_ : Bytes) ++ b!"</a></p></body></html>" = cont at hw
      refine ⟨(code, cont), .redirect hcode hx fun ha =>
        ⟨b!"<html><head><title>Redirect</title></head><body><h1>Redirect</h1><p>You should go to ", sanitize xurl, sanitize xurl ++ b!"</a></p></body></html>", sanitize_encodes ha, ?_⟩, ?_⟩
      · rw [← hcont]
        simp only [List.append_assoc]
        rfl
      have hloc : ∀ l ∈ [b!"Location: " ++ sanitize xurl],
          (l ≠ [] ∧ ∀ c ∈ l, Text c) ∧ ¬ Named l b!"Transfer-Encoding" ∧ ¬ Named l b!"Content-Length" := by
        intro l hl
        rw [List.mem_singleton] at hl
        subst hl
        have hst := sanitize_location xurl
        exact plain_header (n := b!"Location") (v := sanitize xurl) (by decide) (by unfold TChar; decide) (by unfold Text; decide)
          (by
            intro c hc
            have := hst c (List.mem_of_mem_head? hc)
            rintro (rfl | rfl) <;> revert this <;> unfold LocationChar Digit <;> decide)
          (fun c hc => location_text (hst c hc)) (by decide) (by decide)
      have hc' : code ∈ ownCodes := by
        simp only [List.mem_cons, List.not_mem_nil, or_false] at hcode
        rcases hcode with rfl | rfl | rfl | rfl | rfl <;> decide
      have hf := httpReply_frames (text := m) (content := cont) hv hc' hmt hloc (by
        rw [← hw] at hb
        unfold httpReply at hb
        rw [List.length_append] at hb
        exact Nat.lt_of_le_of_lt (Nat.le_add_left _ _) hb)
      rw [← hw]
      simpa using hf

theorem acme_out {pg : Pages} {ver : Nat} (hv : ver ≤ 1) {f : AcmeFile} (hok : OwnOk (.acme f)) {out : Bytes} {res : Status}
    (h : acmeResponse ver f = .did out res) (hb : out.length < 2 ^ 63) :
    (res = .ok → ∃ y, OwnAnswer pg ver (.acme f) false y ∧ Frames ver out y) ∧
    (res ≠ .ok → out = [] ∧ ∀ y, ErrorAnswer pg res y → OwnAnswer pg ver (.acme f) true y) := by
  cases f with
  | noent =>
    injection h with h1 h2; subst h1; subst h2
    exact ⟨fun he => (by cases he), fun _ => ⟨rfl, fun y hy => .noChallenge hy⟩⟩
  | openErr =>
    injection h with h1 h2; subst h1; subst h2
    exact ⟨fun he => (by cases he), fun _ => ⟨rfl, fun y hy => .badChallenge (.inl rfl) hy⟩⟩
  | statErr =>
    injection h with h1 h2; subst h1; subst h2
    exact ⟨fun he => (by cases he), fun _ => ⟨rfl, fun y hy => .badChallenge (.inr rfl) hy⟩⟩
  | file size data =>
    have hs : size = data.length := hok
    subst hs
    unfold acmeResponse at h
    dsimp only at h
    rw [if_pos (Nat.le_refl _), List.take_of_length_le (Nat.le_refl _)] at h
    injection h with h1 h2; subst h1; subst h2
    refine ⟨fun _ => ⟨_, .challenge, ?_⟩, fun hne => absurd rfl hne⟩
    have := httpReply_frames (ver := ver) (code := 200) (text := b!"OK") (hs := []) (content := data) hv (by decide) (by unfold Text; decide)
      (fun l hl => by cases hl) (by rw [List.length_append] at hb; omega)
    exact this

theorem ownHandler_out {pg : Pages} {ver : Nat} (hv : ver ≤ 1) {be : OwnBe} (hok : OwnOk be) {out : Bytes} {res : Status}
    (h : ownHandler pg ver be = .did out res) (hb : out.length < 2 ^ 63) :
    (res = .ok → ∃ y, OwnAnswer pg ver be false y ∧ Frames ver out y) ∧
    (res ≠ .ok → out = [] ∧ ∀ y, ErrorAnswer pg res y → OwnAnswer pg ver be true y) := by
  cases be with
  | error st text x svc lstn smq => exact errorResponse_out hv hok h hb
  | acme f => exact acme_out hv hok h hb
  | redirect env url code target hasUri =>
    have hr := redirect_out (pg := pg) hv (env := env) (url := url) (code := code) (target := target) (hasUri := hasUri) rfl
    unfold ownHandler at h
    dsimp only at h
    cases hx : redirectResponse env url ver code target hasUri with
    | sent w =>
      rw [hx] at h
      injection h with h1 h2; subst h1; subst h2
      exact ⟨fun _ => hr.1 w hx hb, fun hne => absurd rfl hne⟩
    | err st =>
      rw [hx] at h
      injection h with h1 h2; subst h1; subst h2
      have := hr.2 st hx
      subst this
      exact ⟨fun he => (by cases he), fun _ => ⟨rfl, fun y hy => .noRedirect hx hy⟩⟩
    | ub => rw [hx] at h; cases h
    | stuck => rw [hx] at h; cases h

/-! ### Connections -/

theorem parsed_version {line : Bytes} {g : Nat} {rl : ReqLine} (h : parseHttpRequest line g = .ok rl) : rl.version ≤ 1 := by
  obtain ⟨md, url, v, hm, hs⟩ := parse_to_spec (line := line) (group := g) (by rw [h]; simp)
  rw [parse_of_spec hm hs] at h
  split at h
  · cases h
  · injection h with h
    subst h
    unfold RequestLine at hs
    grind

theorem errVersion_le (cfg : LstnCfg) (inp : Bytes) : errVersion cfg inp ≤ 1 := by
  unfold errVersion
  cases httpRequestRead cfg.table inp with
  | err st => exact Nat.zero_le _
  | ok line hs rest =>
    dsimp only
    cases h : parseHttpRequest line cfg.verb with
    | err st => exact Nat.zero_le _
    | ok rl => exact parsed_version h

theorem headOf_shorter {inp req rest : Bytes} {lines : List Bytes} (h : HeadOf inp req lines rest) : rest.length < inp.length := by
  obtain ⟨bl, w, blk, _, hw, hr, _, hc⟩ := h
  have hwl : 2 ≤ w.length := by
    have : 1 ≤ req.length := by
      cases req with
      | nil => exact absurd rfl hr
      | cons a t => simp
    rcases hw.2.1 with e | e <;> rw [e] <;> simp <;> omega
  rcases hc with e | ⟨e1, e2, _⟩
  · rw [e]; simp only [List.length_append]; omega
  · subst e1
    have := congrArg List.length e2
    simp only [List.length_append, List.length_cons, List.length_nil] at this ⊢
    omega

theorem accepted_shorter {cfg : LstnCfg} {inp : Bytes} {a : Accepted} (h : acceptRequest cfg inp = .ok a) : a.rest.length < inp.length := by
  obtain ⟨hs, h1, _⟩ := accepted_inv h
  obtain ⟨lines, h2, _⟩ := (httpRequestRead_iff _ _ _ _ _).1 h1
  exact headOf_shorter h2

theorem accepted_version {cfg : LstnCfg} {inp : Bytes} {a : Accepted} (h : acceptRequest cfg inp = .ok a) : a.rl.version ≤ 1 := by
  obtain ⟨hs, _, h2, _⟩ := accepted_inv h
  exact parsed_version h2

theorem ownConn_fuel (cfg : LstnCfg) (msie : Accepted → Bool) (pg : Pages) (sel : Nat → Accepted → Status ⊕ OwnBe) :
    ∀ (fuel i : Nat) (inp : Bytes), inp.length < fuel → (ownConn cfg msie pg sel fuel i inp).2 ≠ .fuel := by
  intro fuel
  induction fuel with
  | zero => intro i inp h; omega
  | succ n ih =>
    intro i inp hl
    unfold ownConn
    cases ha : acceptRequest cfg inp with
    | noRequest => exact nofun
    | err st => exact nofun
    | ub => exact nofun
    | ok a =>
      dsimp only
      cases hsel : sel i a with
      | inl st => exact nofun
      | inr be =>
        dsimp only
        cases hh : ownHandler pg a.rl.version be with
        | ub => exact nofun
        | stuck => exact nofun
        | did out res =>
          dsimp only
          split
          · exact nofun
          · split
            · exact nofun
            · exact ih (i + 1) a.rest (by have := accepted_shorter ha; omega)

theorem ownConn_served (cfg : LstnCfg) (msie : Accepted → Bool) (pg : Pages) (sel : Nat → Accepted → Status ⊕ OwnBe)
    (hsel : ∀ i a be, sel i a = .inr be → OwnOk be) :
    ∀ (fuel i : Nat) (inp : Bytes), (ownConn cfg msie pg sel fuel i inp).2 = .closed →
      (ownConn cfg msie pg sel fuel i inp).1.length < 2 ^ 63 →
      ∃ l, Served cfg msie pg sel i inp l ∧ ((∀ x ∈ l, x.1 = false) →
        Replies (l.map (·.1)) (ownConn cfg msie pg sel fuel i inp).1 (l.map (·.2))) := by
  intro fuel
  induction fuel with
  | zero => intro i inp h; cases h
  | succ n ih =>
    intro i inp hend hb
    unfold ownConn at hend hb ⊢
    cases ha : acceptRequest cfg inp with
    | noRequest => exact ⟨[], .done ha, fun _ => .nil⟩
    | err st =>
      rw [ha] at hb
      obtain ⟨y, hy, hf⟩ := httpErrReply_frames pg (errVersion_le cfg inp) st hb
      exact ⟨[(false, y)], .refused ha hy, fun _ => hf.only (errVersion_le cfg inp)⟩
    | ub => rw [ha] at hend; cases hend
    | ok a =>
      rw [ha] at hend hb
      have hv := accepted_version ha
      dsimp only at hend hb ⊢
      cases hs : sel i a with
      | inl st =>
        rw [hs] at hb
        obtain ⟨y, hy, hf⟩ := httpErrReply_frames pg hv st hb
        refine ⟨[(_, y)], .noBackend ha hs hy, fun hh => ?_⟩
        have := hh _ (List.mem_singleton.2 rfl)
        dsimp only at this
        simp only [List.map_cons, List.map_nil, this]
        exact hf.only hv
      | inr be =>
        rw [hs] at hend hb
        dsimp only at hend hb ⊢
        have hok := hsel i a be hs
        cases hh : ownHandler pg a.rl.version be with
        | ub => rw [hh] at hend; cases hend
        | stuck => rw [hh] at hend; cases hend
        | did out res =>
          rw [hh] at hend hb
          dsimp only at hend hb ⊢
          by_cases hres : res = .ok
          · rw [if_neg (by simpa using hres)] at hend hb ⊢
            by_cases hcl : a.rl.version = 0 ∨ (a.scan.connClosed || forceHttp10 cfg (msie a)) = true
            · rw [if_pos hcl] at hb ⊢
              obtain ⟨y, hy, hf⟩ := (ownHandler_out hv hok hh hb).1 hres
              refine ⟨[(_, y)], .last ha hs hy ?_, fun hd => ?_⟩
              · rcases hcl with h | h
                · exact .inl h
                · rw [Bool.or_eq_true, forceHttp10_iff] at h; exact .inr h
              · have := hd _ (List.mem_singleton.2 rfl)
                dsimp only at this
                simp only [List.map_cons, List.map_nil, this]
                exact hf.only hv
            · rw [if_neg hcl] at hend hb ⊢
              dsimp only at hend hb ⊢
              rw [List.length_append] at hb
              obtain ⟨y, hy, hf⟩ := (ownHandler_out hv hok hh (by omega)).1 hres
              obtain ⟨l, hl, hr⟩ := ih (i + 1) a.rest hend (by omega)
              simp only [not_or, Bool.or_eq_true, not_or, Bool.not_eq_true] at hcl
              refine ⟨_ :: l, .more ha hs hy (by omega) hcl.2.1 (fun hc => Bool.false_ne_true (hcl.2.2.symm.trans (forceHttp10_iff.2 hc))) hl, fun hd => ?_⟩
              have h1 := hd _ (List.mem_cons_self)
              dsimp only at h1
              simp only [List.map_cons, h1]
              exact hf.1 (by omega) (hr fun x hx => hd x (List.mem_cons_of_mem _ hx))
          · rw [if_pos (by simpa using hres)] at hb ⊢
            dsimp only at hb ⊢
            rw [List.length_append] at hb
            obtain ⟨ho, hans⟩ := (ownHandler_out hv hok hh (by omega)).2 hres
            obtain ⟨y, hy, hf⟩ := httpErrReply_frames pg hv res (by omega)
            refine ⟨[(_, y)], .failed ha hs (hans y hy), fun hd => ?_⟩
            have := hd _ (List.mem_singleton.2 rfl)
            dsimp only at this
            simp only [List.map_cons, List.map_nil, this, ho, List.nil_append]
            exact hf.only hv

/-! ### Streams that cannot be read -/

theorem one_reply_length {line : Bytes} {lines : List Bytes} {v tail : Bytes} {n : Nat} (ht : ∀ c ∈ line, Text c)
    (hh : ∀ l ∈ lines, l ≠ [] ∧ ∀ c ∈ l, Text c) (hv : Values b!"Content-Length" lines [v]) (hd : DeclaresLength v n)
    {ys : List (Nat × Bytes)} (h : Replies [false] ((line ++ [13, 10]) ++ ((lines.flatMap (· ++ [13, 10]) ++ [13, 10]) ++ tail)) ys) : tail.length = n := by
  obtain ⟨lim, h1, h2⟩ := framed_lines ht hh
  generalize hw : (line ++ [13, 10]) ++ ((lines.flatMap (· ++ [13, 10]) ++ [13, 10]) ++ tail) = w at h
  cases h with
  | len g1 g2 g3 g4 g5 g6 g7 =>
    obtain ⟨rfl, e2⟩ := wire_det h1 g1 hw
    obtain ⟨rfl, e4⟩ := block_det h2 g3 e2
    have hv' := values_det hv g5
    injection hv' with hv' _
    subst hv'
    generalize hr : ([] : List Bool) = hds at g7
    cases g7 with
    | nil => rw [e4, List.append_nil]; exact declares_det g6 hd
    | len => cases hr
    | head => cases hr
    | eof => cases hr
  | eof g1 g2 g3 g4 g5 =>
    obtain ⟨rfl, e2⟩ := wire_det h1 g1 hw
    obtain ⟨rfl, e4⟩ := block_det h2 g3 e2
    have hv' := values_det hv g5
    cases hv'

theorem one_reply_head {line : Bytes} {lines : List Bytes} {tail : Bytes} (ht : ∀ c ∈ line, Text c)
    (hh : ∀ l ∈ lines, l ≠ [] ∧ ∀ c ∈ l, Text c)
    {ys : List (Nat × Bytes)} (h : Replies [true] ((line ++ [13, 10]) ++ ((lines.flatMap (· ++ [13, 10]) ++ [13, 10]) ++ tail)) ys) : tail = [] := by
  obtain ⟨lim, h1, h2⟩ := framed_lines ht hh
  generalize hw : (line ++ [13, 10]) ++ ((lines.flatMap (· ++ [13, 10]) ++ [13, 10]) ++ tail) = w at h
  cases h with
  | head g1 g2 g3 g7 =>
    obtain ⟨rfl, e2⟩ := wire_det h1 g1 hw
    obtain ⟨rfl, e4⟩ := block_det h2 g3 e2
    generalize hr : ([] : List Bool) = hds at g7
    cases g7 with
    | nil => exact e4
    | len => cases hr
    | head => cases hr
    | eof => cases hr

end Pound
