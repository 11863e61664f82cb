import Verif.Proof.Locus

/-!
C102: messages about a configuration file name the place of the token they are about.
-/

namespace Pound.Props

open Pound Spec

/-- The tokens of a file with their places, as the scanner records them -/
def scanned (text : Bytes) : List LocRes := locate (text.length + 1) text LPos.start LPos.start

theorem tokens_len {pre text : Bytes} {l : List TokAt} (h : TokensAt pre text l) : l.length ≤ text.length := by
  induction h with
  | nil => simp
  | comment => simp
  | @cons pre sp x r t l _ hx _ ih =>
    have : x ≠ [] := by
      cases hx with
      | string => simp
      | word hw _ _ => exact hw.ne
      | newline => simp
      | comment => simp
    have : 0 < x.length := List.length_pos_iff.mpr this
    simp only [List.length_cons, List.length_append]
    omega

theorem scanned_seen {text : Bytes} {l : List TokAt} (h : TokensAt [] text l) :
    (scanned text).length = l.length ∧ ∀ q ∈ l.zip (scanned text), Seen q.1.pre q.1.text q.1.post q.1.tok q.2 := by
  have h1 := tokensAt_lex h LPos.start LPos.start (at_start text) (text.length + 1) (by have := tokens_len h; omega)
  refine ⟨h1.1, fun q hq => ?_⟩
  obtain ⟨i, hi, e⟩ := List.mem_iff_getElem.mp hq
  rw [List.getElem_zip] at e
  subst e
  rw [List.length_zip] at hi
  exact h1.2 i (by omega) (by unfold scanned at hi; omega)

/-- Every token of a file is found, in order, and on its line; none gives a message. -/
theorem C102_lines {text : Bytes} {l : List TokAt} (h : TokensAt [] text l) :
    (scanned text).map (fun y => y.tok) = l.map (fun x => x.tok) ∧
      ∀ q ∈ l.zip (scanned text), q.2.tok = q.1.tok ∧ q.2.msgs = [] ∧ q.2.beg.line = lineAfter q.1.pre ∧
        q.2.fin.line = if q.1.tok = .nl then (lineAfter q.1.pre : Int) + 1 else lineAfter q.1.pre := by
  obtain ⟨h1, h2⟩ := scanned_seen h
  have h3 : ∀ q ∈ l.zip (scanned text), q.2.tok = q.1.tok := fun q hq => (h2 q hq).tok
  refine ⟨?_, fun q hq => ⟨h3 q hq, (h2 q hq).msgs, ?_, ?_⟩⟩
  · apply List.ext_getElem (by simp [h1])
    intro i hi hj
    rw [List.getElem_map, List.getElem_map]
    simp only [List.length_map] at hi hj
    exact h3 (l[i], (scanned text)[i]) (by
      rw [List.mem_iff_getElem]
      exact ⟨i, by simp only [List.length_zip]; omega, by rw [List.getElem_zip]⟩)
  · by_cases ht : q.1.tok = .nl
    · exact ((h2 q hq).nl ht).1
    · exact ((h2 q hq).place ht).bline
  · by_cases ht : q.1.tok = .nl
    · rw [if_pos ht]; exact ((h2 q hq).nl ht).2.1
    · rw [if_neg ht]; exact ((h2 q hq).place ht).eline

theorem tokensAt_text {pre text : Bytes} {l : List TokAt} (h : TokensAt pre text l) : ∀ x ∈ l, x.text ≠ [] := by
  induction h with
  | nil => simp
  | comment => simp
  | @cons pre sp x r t l _ hx _ ih =>
    intro y hy
    rcases List.mem_cons.mp hy with rfl | hy
    · cases hx with
      | string => simp
      | word hw _ _ => exact hw.ne
      | newline => simp
      | comment => simp
    · exact ih y hy

/-- A message about a token, other than the end of a line, begins with the file, the line and the columns where the token is.  Missing: lines with tabulators after
other characters, see `C102_tab_fails`. -/
theorem C102_columns_partial {text : Bytes} {l : List TokAt} (h : TokensAt [] text l) (file msg : Bytes) :
    ∀ q ∈ l.zip (scanned text), q.1.tok ≠ .nl → TabsFirst q.1.line → errorAt file q.2.beg q.2.fin msg = placeText file q.1 ++ b!": " ++ msg := by
  intro q hq ht hp
  have h1 := ((scanned_seen h).2 q hq).place ht
  unfold errorAt
  rw [begins_text (pre := q.1.pre) (x := q.1.text) (post := q.1.post) (t := q.1.tok) (tokensAt_text h q.1 (List.of_mem_zip hq).1) h1 hp]

/-- A message about the end of a line names the column of the last character on the line, and the next line. -/
theorem C102_eol_partial {text : Bytes} {l : List TokAt} (h : TokensAt [] text l) (file msg : Bytes) :
    ∀ q ∈ l.zip (scanned text), q.1.tok = .nl → TabsFirst q.1.line → q.1.line ≠ [] →
      errorAt file q.2.beg q.2.fin msg =
        file ++ b!":" ++ numText (lineAfter q.1.pre) ++ b!"." ++ numText (columnOf q.1.line) ++ b!"-" ++ numText (lineAfter q.1.pre + 1) ++ b!": " ++ msg := by
  intro q hq ht hp hne
  have h1 := ((scanned_seen h).2 q hq).nl ht
  have h2 : q.2.beg.col = columnOf q.1.line := h1.2.2.2 hp
  have h3 : columnOf q.1.line ≠ 0 := by
    rw [← List.dropLast_concat_getLast hne]
    exact column_pos _ _
  unfold errorAt rangeText pointText
  rw [h1.1, h1.2.1, h1.2.2.1, h2, if_pos (by omega), if_pos (by omega), if_neg (by simp), decInt_num, decInt_num]
  have : ((lineAfter q.1.pre : Int) + 1) = ((lineAfter q.1.pre + 1 : Nat) : Int) := by simp
  rw [this, decInt_num]
  simp

/-- Two lines, a tabulator before the second -/
def locEx : Bytes := b!"Client 30\n\tEnd\n"

def locToks : List TokAt :=
  [⟨.ident b!"Client", [], b!"Client", b!" 30\n\tEnd\n"⟩, ⟨.number b!"30", b!"Client ", b!"30", b!"\n\tEnd\n"⟩, ⟨.nl, b!"Client 30", b!"\n", b!"\tEnd\n"⟩,
    ⟨.ident b!"End", b!"Client 30\n\t", b!"End", b!"\n"⟩, ⟨.nl, b!"Client 30\n\tEnd", b!"\n", []⟩]

theorem locEx_toks : TokensAt [] locEx locToks := by
  have hw : ∀ w : Bytes, w ∈ [b!"Client", b!"30", b!"End"] → Word w := by
    intro w hw
    constructor
    all_goals (revert w; decide)
  refine TokensAt.cons (sp := []) (x := b!"Client") (r := b!" 30\n\tEnd\n") (by intro c h; cases h) (.word (hw _ (by simp)) ?_ ?_) ?_
  · exact .ident ⟨_, _, rfl, .inl (by decide)⟩ (by unfold Letter; decide)
  · intro c t h; cases h; decide
  refine TokensAt.cons (sp := b!" ") (x := b!"30") (r := b!"\n\tEnd\n") (by unfold HSpace; decide) (.word (hw _ (by simp)) ?_ ?_) ?_
  · exact .number (by decide)
  · intro c t h; cases h; decide
  refine TokensAt.cons (sp := []) (x := b!"\n") (r := b!"\tEnd\n") (by intro c h; cases h) .newline ?_
  refine TokensAt.cons (sp := b!"\t") (x := b!"End") (r := b!"\n") (by unfold HSpace; decide) (.word (hw _ (by simp)) ?_ ?_) ?_
  · exact .ident ⟨_, _, rfl, .inl (by decide)⟩ (by unfold Letter; decide)
  · intro c t h; cases h; decide
  exact TokensAt.cons (sp := []) (x := b!"\n") (r := []) (by intro c h; cases h) .newline (.nil (by intro c h; cases h))

example : (scanned locEx).length = 5 ∧
    (scanned locEx).map (fun y => errorAt b!"f" y.beg y.fin b!"bad") =
      [b!"f:1.1-6: bad", b!"f:1.8-9: bad", b!"f:1.9-2: bad", b!"f:2.9-11: bad", b!"f:2.11-3: bad"] ∧
    locToks.map (placeText b!"f") = [b!"f:1.1-6", b!"f:1.8-9", b!"f:1.10", b!"f:2.9-11", b!"f:2.12"] := by decide +kernel

example : TabsFirst (TokAt.line ⟨.ident b!"End", b!"Client 30\n\t", b!"End", b!"\n"⟩) := ⟨1, b!"End", by decide, by decide⟩

/-- After a word and a tabulator the columns are wrong: the word `a` of two words and a tabulator between them is said to end in column 8, and `b`, which is in column 9, to be in
column 17. -/
theorem C102_tab_fails : (scanned b!"a\tb").map (fun y => rangeText b!"f" y.beg y.fin) = [b!"f:1.1-8", b!"f:1.17"] ∧
    TokensAt [] b!"a\tb" [⟨.ident b!"a", [], b!"a", b!"\tb"⟩, ⟨.ident b!"b", b!"a\t", b!"b", []⟩] ∧
    placeText b!"f" ⟨.ident b!"a", [], b!"a", b!"\tb"⟩ = b!"f:1.1" ∧ placeText b!"f" ⟨.ident b!"b", b!"a\t", b!"b", []⟩ = b!"f:1.9" := by
  refine ⟨by decide +kernel, ?_, by decide +kernel, by decide +kernel⟩
  have hw : ∀ w : Bytes, w ∈ [b!"a", b!"b"] → Word w := by
    intro w hw
    constructor
    all_goals (revert w; decide)
  refine TokensAt.cons (sp := []) (x := b!"a") (r := b!"\tb") (by intro c h; cases h) (.word (hw _ (by simp)) (.ident ⟨_, _, rfl, .inl (by decide)⟩ (by unfold Letter; decide)) ?_) ?_
  · intro c t h; cases h; decide
  exact TokensAt.cons (sp := b!"\t") (x := b!"b") (r := []) (by unfold HSpace; decide) (.word (hw _ (by simp)) (.ident ⟨_, _, rfl, .inl (by decide)⟩ (by unfold Letter; decide)) (by intro c t h; cases h))
    (.nil (by intro c h; cases h))

/-- The message about a string without closing quote names the line after it. -/
theorem C102_string_fails : (lexLoc b!"\"abc\nEnd\n" LPos.start LPos.start).msgs.map (pointText b!"f") = [b!"f:2"] := by decide +kernel

end Pound.Props
