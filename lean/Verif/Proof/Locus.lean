import Verif.Model.Locus
import Verif.Spec.Locus
import Verif.Proof.Lexer
import Verif.Proof.Printf

namespace Pound

open Spec

theorem tabs_before {a b : Bytes} (h : TabsFirst (a ++ 9 :: b)) : ∀ x ∈ a, x = 9 := by
  obtain ⟨n, t, h, ht⟩ := h
  induction a generalizing n with
  | nil => simp
  | cons y a ih =>
    cases n with
    | zero =>
      simp only [List.replicate_zero, List.nil_append] at h
      exact absurd (h ▸ by simp) ht
    | succ n =>
      simp only [List.cons_append, List.replicate_succ, List.cons.injEq] at h
      intro x hx
      rcases List.mem_cons.mp hx with rfl | hx
      · exact h.1
      · exact ih n h.2 x hx

theorem column_snoc (a : Bytes) (c : UInt8) : columnOf (a ++ [c]) = if c = 9 then (columnOf a / 8 + 1) * 8 else columnOf a + 1 := by
  simp [columnOf, List.foldl_append]

theorem column_tabs : ∀ (n : Nat), columnOf (List.replicate n 9) = 8 * n
  | 0 => rfl
  | n + 1 => by
    rw [List.replicate_succ', column_snoc, if_pos rfl, column_tabs n]
    omega

theorem soFar_snoc {pre : Bytes} {c : UInt8} (h : c ≠ 10) : lineSoFar (pre ++ [c]) = lineSoFar pre ++ [c] := by
  simp [lineSoFar, h]

theorem soFar_nl (pre : Bytes) : lineSoFar (pre ++ [10]) = [] := by simp [lineSoFar]

theorem after_snoc (pre : Bytes) (c : UInt8) : lineAfter (pre ++ [c]) = lineAfter pre + if c = 10 then 1 else 0 := by
  simp only [lineAfter, List.count_append, List.count_singleton, beq_iff_eq]
  omega

/-- What the scanner knows of its place, after `pre` and before `rest` -/
structure LocAt (pre rest : Bytes) (p : LPos) : Prop where
  line : p.line = lineAfter pre
  col : TabsFirst (lineSoFar pre ++ lineRest rest) → p.col = columnOf (lineSoFar pre)

theorem at_get {pre r : Bytes} {c : UInt8} {p : LPos} (h : LocAt pre (c :: r) p) : LocAt (pre ++ [c]) r (p.get c) := by
  unfold LPos.get
  by_cases hc : c = 10
  · subst hc
    rw [if_pos rfl]
    refine ⟨?_, fun _ => ?_⟩
    · rw [after_snoc, if_pos rfl]
      have := h.line
      simp only
      omega
    · simp [soFar_nl, columnOf]
  · have hr : lineRest (c :: r) = c :: lineRest r := by simp [lineRest, hc]
    rw [if_neg hc]
    have h1 := h.line
    have h2 := h.col
    rw [hr] at h2
    have e : lineSoFar (pre ++ [c]) ++ lineRest r = lineSoFar pre ++ c :: lineRest r := by rw [soFar_snoc hc]; simp
    by_cases ht : c = 9
    · rw [if_pos ht]
      refine ⟨by rw [after_snoc, if_neg hc]; simpa using h1, fun hp => ?_⟩
      rw [e] at hp
      have h3 := h2 hp
      rw [soFar_snoc hc, column_snoc, if_pos ht]
      subst ht
      have h4 := List.eq_replicate_of_mem (tabs_before hp)
      have h5 := column_tabs (lineSoFar pre).length
      rw [← h4] at h5
      simp only
      omega
    · rw [if_neg ht]
      refine ⟨by rw [after_snoc, if_neg hc]; simpa using h1, fun hp => ?_⟩
      rw [e] at hp
      have h3 := h2 hp
      rw [soFar_snoc hc, column_snoc, if_neg ht]
      simp only
      omega

theorem at_gets {w : Bytes} : ∀ {pre r : Bytes} {p : LPos}, LocAt pre (w ++ r) p → LocAt (pre ++ w) r (p.gets w) := by
  induction w with
  | nil => intro pre r p h; simpa [LPos.gets] using h
  | cons c w ih =>
    intro pre r p h
    have := ih (at_get (c := c) (r := w ++ r) (by simpa using h))
    simpa [LPos.gets] using this

/-- A character is read and given back, after one that is no tabulator. -/
theorem at_unget {pre r : Bytes} {c d : UInt8} {p : LPos} (hc : c ≠ 9) (hn : c ≠ 10) (h : LocAt (pre ++ [c]) (d :: r) p) : LocAt (pre ++ [c]) (d :: r) ((p.get d).unget d) := by
  by_cases hd : d = 10
  · subst hd
    have : (p.get 10).unget 10 = ⟨p.line, p.col, p.col⟩ := by
      simp only [LPos.get, LPos.unget, if_true]
      congr 1
      omega
    rw [this]
    exact ⟨h.line, h.col⟩
  · by_cases ht : d = 9
    · have h1 : ((p.get d).unget d).line = p.line := by simp [LPos.get, LPos.unget, ht]
      refine ⟨by rw [h1]; exact h.line, fun hp => ?_⟩
      subst ht
      have : lineRest (9 :: r) = 9 :: lineRest r := by simp [lineRest]
      rw [this] at hp
      exact absurd (tabs_before hp c (by rw [soFar_snoc hn]; simp)) hc
    · have : (p.get d).unget d = p := by
        simp only [LPos.get, LPos.unget, if_neg hd, if_neg ht]
        have : p.col + 1 - 1 = p.col := by omega
        rw [this]
      rw [this]
      exact h

theorem strLoc_body {b s : Bytes} (h : StrBody b s) (r : Bytes) : ∀ (p : LPos), strLoc (b ++ ch%'"' :: r) p = (p.gets (b ++ [ch%'"']), []) := by
  induction h with
  | nil =>
    intro p
    rw [List.nil_append]
    unfold strLoc
    dsimp only
    rw [if_pos rfl]
    rfl
  | plain c h1 h2 h3 _ ih =>
    intro p
    rw [List.cons_append]
    unfold strLoc
    dsimp only
    rw [if_neg h1, if_neg h2, if_neg h3]
    exact ih _
  | esc c h1 _ ih =>
    intro p
    have h3 : c ≠ 10 := by rintro rfl; revert h1; decide
    rw [List.cons_append, List.cons_append]
    unfold strLoc
    dsimp only
    rw [if_neg (by decide), if_pos rfl, if_neg h3, if_pos h1]
    exact ih _

/-- The place of a token that is not a newline -/
structure Begins (pre x : Bytes) (line : Bytes) (b e : LPos) : Prop where
  bline : b.line = lineAfter pre
  eline : e.line = lineAfter pre
  bcol : TabsFirst line → b.col = columnOf (lineSoFar pre ++ x.take 1)
  ecol : TabsFirst line → e.col = columnOf (lineSoFar pre ++ x)

theorem soFar_app {pre x : Bytes} (h : 10 ∉ x) : lineSoFar (pre ++ x) = lineSoFar pre ++ x := by
  induction x generalizing pre with
  | nil => simp
  | cons c x ih =>
    have h1 : c ≠ 10 := fun e => h (by simp [e])
    have h2 := ih (pre := pre ++ [c]) (fun hx => h (by simp [hx]))
    rw [soFar_snoc h1] at h2
    simpa using h2

theorem after_app {pre x : Bytes} (h : 10 ∉ x) : lineAfter (pre ++ x) = lineAfter pre := by
  simp [lineAfter, List.count_eq_zero.mpr h]

theorem rest_app {x r : Bytes} (h : 10 ∉ x) : lineRest (x ++ r) = x ++ lineRest r := by
  induction x with
  | nil => rfl
  | cons c x ih =>
    have h1 : c ≠ 10 := fun e => h (by simp [e])
    have h2 := ih (fun hx => h (by simp [hx]))
    simp only [lineRest] at h2
    simp [lineRest, h1, h2]

theorem begins_of {pre r : Bytes} {c : UInt8} {w : Bytes} {b e : LPos} (hx : 10 ∉ c :: w) (h1 : LocAt (pre ++ [c]) (w ++ r) b) (h2 : LocAt (pre ++ c :: w) r e) :
    Begins pre (c :: w) (lineSoFar pre ++ lineRest ((c :: w) ++ r)) b e := by
  have hc : 10 ∉ [c] := fun h => hx (by simp at h; simp [h])
  have hw : 10 ∉ w := fun h => hx (by simp [h])
  have e1 : lineSoFar (pre ++ [c]) ++ lineRest (w ++ r) = lineSoFar pre ++ lineRest ((c :: w) ++ r) := by
    rw [soFar_app hc, rest_app hw, rest_app hx]; simp
  have e2 : lineSoFar (pre ++ c :: w) ++ lineRest r = lineSoFar pre ++ lineRest ((c :: w) ++ r) := by
    rw [soFar_app hx, rest_app hx]; simp
  refine ⟨by rw [h1.line, after_app hc], by rw [h2.line, after_app hx], fun hp => ?_, fun hp => ?_⟩
  · rw [h1.col (e1 ▸ hp), soFar_app hc]; simp
  · rw [h2.col (e2 ▸ hp), soFar_app hx]

theorem strBody_nl {b s : Bytes} (h : StrBody b s) : 10 ∉ b := by
  induction h with
  | nil => simp
  | plain c _ _ h3 _ ih => simp only [List.mem_cons, not_or]; exact ⟨fun e => h3 e.symm, ih⟩
  | esc c h1 _ ih =>
    simp only [List.mem_cons, not_or]
    exact ⟨by decide, by rintro rfl; revert h1; decide, ih⟩

theorem hspace_take {sp r : Bytes} (hs : HSpace sp) (h : ∀ c t, r = c :: t → isHsp c = false) : (sp ++ r).takeWhile isHsp = sp := by
  induction sp with
  | nil =>
    cases r with
    | nil => rfl
    | cons c t => simp [h c t rfl]
  | cons c sp ih =>
    have h1 := hs c (by simp)
    have : isHsp c = true := by simp [isHsp, h1.1, h1.2]
    simp only [List.cons_append, List.takeWhile_cons, this, if_true]
    rw [ih (fun d hd => hs d (by simp [hd]))]

/-- What is known of a token when it is read -/
structure Seen (pre x r : Bytes) (t : Tok) (y : LocRes) : Prop where
  tok : y.tok = t
  rest : y.rest = r
  msgs : y.msgs = []
  next : LocAt (pre ++ x) r y.fin
  place : t ≠ .nl → Begins pre x (lineSoFar pre ++ lineRest (x ++ r)) y.beg y.fin
  nl : t = .nl → y.beg.line = lineAfter pre ∧ y.fin.line = lineAfter pre + 1 ∧ y.fin.col = 0 ∧
    (TabsFirst (lineSoFar pre ++ lineRest (x ++ r)) → y.beg.col = columnOf (lineSoFar pre ++ lineRest (x ++ r)))

theorem nl_place {pre w r : Bytes} {p : LPos} (hw : 10 ∉ w) (h : LocAt (pre ++ w) (10 :: r) p) :
    (p.get 10).atNl.line = lineAfter pre ∧ (p.get 10).line = lineAfter pre + 1 ∧ (p.get 10).col = 0 ∧
      (TabsFirst (lineSoFar pre ++ lineRest ((w ++ [10]) ++ r)) → (p.get 10).atNl.col = columnOf (lineSoFar pre ++ lineRest ((w ++ [10]) ++ r))) := by
  have h1 := h.line
  rw [after_app hw] at h1
  have e : lineRest ((w ++ [10]) ++ r) = w := by
    rw [List.append_assoc, rest_app hw]
    simp [lineRest]
  have e2 : lineRest ((10 : UInt8) :: r) = [] := by simp [lineRest]
  refine ⟨by simp [LPos.get, LPos.atNl]; omega, by simp [LPos.get]; omega, rfl, fun hp => ?_⟩
  rw [e] at hp ⊢
  have h2 := h.col (by rw [soFar_app hw, e2]; simpa using hp)
  rw [soFar_app hw] at h2
  simpa [LPos.get, LPos.atNl] using h2

theorem lexLoc_seen {pre sp x r : Bytes} {t : Tok} {p : LPos} (hs : HSpace sp) (hx : TokText t x r) (h : LocAt pre (sp ++ x ++ r) p) (old : LPos) :
    Seen (pre ++ sp) x r t (lexLoc (sp ++ x ++ r) p old) := by
  have hl := lexTok_text hs hx
  have h1 : LocAt (pre ++ sp) (x ++ r) (p.gets sp) := at_gets (by simpa using h)
  cases hx with
  | @string b s r hb h0 =>
    have e : sp ++ (b!"\"" ++ b ++ b!"\"") ++ r = sp ++ ch%'"' :: (b ++ ch%'"' :: r) := by simp
    rw [e] at hl ⊢
    have hq : ∀ c t, ch%'"' :: (b ++ ch%'"' :: r) = c :: t → isHsp c = false := by rintro c t e; cases e; decide
    unfold lexLoc
    rw [hspace_take hs hq, skip_hsp hs _ (by rintro c t e; cases e; decide), hl]
    dsimp only
    rw [if_neg (by decide), if_neg (by decide), if_pos rfl, strLoc_body hb]
    dsimp only
    have h2 : LocAt (pre ++ sp ++ [ch%'"']) ((b ++ [ch%'"']) ++ r) ((p.gets sp).get ch%'"') := at_get (by simpa using h1)
    have h3 := at_gets h2
    have hnl : 10 ∉ ch%'"' :: (b ++ [ch%'"']) := by
      have := strBody_nl hb
      simp [this]
    refine ⟨rfl, rfl, rfl, by simpa using h3, fun _ => ?_, fun h => by cases h⟩
    have := begins_of (pre := pre ++ sp) hnl h2 (by simpa using h3)
    simpa using this
  | word hw hk hn =>
    obtain ⟨c, v, rfl⟩ : ∃ c v, x = c :: v := by
      cases x with
      | nil => exact absurd rfl hw.ne
      | cons c v => exact ⟨c, v, rfl⟩
    have hc := hw.sp c (by simp)
    have e : sp ++ (c :: v) ++ r = sp ++ c :: (v ++ r) := by simp
    rw [e] at hl ⊢
    have hh : isHsp c = false := by simp [isHsp, hc]
    have h10 : c ≠ 10 := by rintro rfl; revert hc; decide
    have hwn : ∀ x ∈ c :: v, x ≠ 10 ∧ x ≠ 9 := by
      intro x hx
      have := hw.sp x hx
      constructor <;> (rintro rfl; revert this; decide)
    have hnl : 10 ∉ c :: v := fun h => (hwn 10 h).1 rfl
    have htk : (v ++ r).takeWhile nonSpace = v ∧ (v ++ r).dropWhile nonSpace = r := by
      have hv : ∀ x ∈ v, nonSpace x = true := fun x hx => by simp [nonSpace, hw.sp x (by simp [hx])]
      rw [List.takeWhile_append_of_pos hv, List.dropWhile_append_of_pos hv]
      cases r with
      | nil => simp
      | cons d r => simp [nonSpace, hn d r rfl]
    unfold lexLoc
    rw [hspace_take hs (by rintro a t e; cases e; exact hh), skip_hsp hs _ (by rintro a t e; cases e; exact hh), hl]
    dsimp only
    rw [if_neg (fun e => hw.com (by rw [e]; rfl)), if_neg h10, if_neg (fun e => hw.quo (by rw [e]; rfl)), htk.1, htk.2]
    have h2 : LocAt (pre ++ sp ++ [c]) (v ++ r) ((p.gets sp).get c) := at_get (by simpa using h1)
    have h3 : LocAt (pre ++ sp ++ c :: v) r (((p.gets sp).get c).gets v) := by simpa using at_gets h2
    have htn : t ≠ .nl := by cases hk <;> (intro h; cases h)
    cases r with
    | nil => exact ⟨rfl, rfl, rfl, h3, fun _ => begins_of hnl h2 h3, fun h => absurd h htn⟩
    | cons d r =>
      dsimp only
      have h4 : LocAt (pre ++ sp ++ c :: v) (d :: r) (((((p.gets sp).get c).gets v).get d).unget d) := by
        obtain ⟨q, z, hz⟩ : ∃ q z, c :: v = q ++ [z] := ⟨_, _, (List.dropLast_concat_getLast (List.cons_ne_nil c v)).symm⟩
        have hzm : z ∈ c :: v := hz ▸ by simp
        rw [hz, ← List.append_assoc] at h3 ⊢
        exact at_unget (hwn z hzm).2 (hwn z hzm).1 h3
      exact ⟨rfl, rfl, rfl, h4, fun _ => begins_of hnl h2 h4, fun h => absurd h htn⟩
  | @newline r =>
    have e : sp ++ b!"\n" ++ r = sp ++ 10 :: r := by simp
    rw [e] at hl ⊢
    unfold lexLoc
    rw [hspace_take hs (by rintro a t e; cases e; decide), skip_hsp hs _ (by rintro a t e; cases e; decide), hl]
    dsimp only
    rw [if_neg (by decide), if_pos rfl]
    have h2 := nl_place (w := []) (pre := pre ++ sp) (r := r) (by simp) (by simpa using h1)
    exact ⟨rfl, rfl, rfl, at_get (by simpa using h1), fun h => absurd rfl h, fun _ => h2⟩
  | @comment c r hc =>
    have e : sp ++ (b!"#" ++ c ++ b!"\n") ++ r = sp ++ ch%'#' :: (c ++ 10 :: r) := by simp
    rw [e] at hl ⊢
    have htk : (c ++ 10 :: r).takeWhile notNl = c ∧ (c ++ 10 :: r).dropWhile notNl = 10 :: r := by
      have hv : ∀ x ∈ c, notNl x = true := fun x hx => by
        have : x ≠ 10 := fun e => hc (e ▸ hx)
        simpa [notNl] using this
      rw [List.takeWhile_append_of_pos hv, List.dropWhile_append_of_pos hv]
      simp [notNl]
    unfold lexLoc
    rw [hspace_take hs (by rintro a t e; cases e; decide), skip_hsp hs _ (by rintro a t e; cases e; decide), hl]
    dsimp only
    rw [if_pos rfl, htk.1, htk.2]
    dsimp only
    have h2 : LocAt (pre ++ sp ++ [ch%'#']) (c ++ 10 :: r) ((p.gets sp).get ch%'#') := at_get (by simpa using h1)
    have h3 := at_gets h2
    have h4 := nl_place (w := ch%'#' :: c) (pre := pre ++ sp) (r := r) (by simp [hc]) (by simpa using h3)
    have h5 := at_get h3
    exact ⟨rfl, rfl, rfl, by simpa using h5, fun h => absurd rfl h, fun _ => by simpa using h4⟩

theorem at_start (text : Bytes) : LocAt [] text LPos.start := ⟨rfl, fun _ => rfl⟩

theorem tokensAt_lex {pre text : Bytes} {l : List TokAt} (h : TokensAt pre text l) : ∀ (p old : LPos), LocAt pre text p → ∀ n, l.length < n →
    (locate n text p old).length = l.length ∧ ∀ i, ∀ (h1 : i < l.length) (h2 : i < (locate n text p old).length),
      Seen l[i].pre l[i].text l[i].post l[i].tok ((locate n text p old)[i]) := by
  have heof : ∀ {text : Bytes} (p old : LPos) (n : Nat), (lexTok text).tok = .eof → locate n text p old = [] := by
    intro text p old n h
    cases n with
    | zero => rfl
    | succ n =>
      have : (lexLoc text p old).tok = .eof := by
        unfold lexLoc
        dsimp only
        split
        · exact h
        · split
          · split <;> exact h
          · split
            · exact h
            · split
              · exact h
              · split <;> exact h
      simp [locate, this]
  induction h with
  | @nil pre sp hsp =>
    intro p old _ n _
    have : (lexTok sp).tok = .eof := by
      have h1 := skip_hsp hsp [] (by intro c t h; cases h)
      simp only [List.append_nil] at h1
      unfold lexTok; rw [h1]
    rw [heof p old n this]
    exact ⟨rfl, fun i h => by simp at h⟩
  | @comment pre sp c hsp hc =>
    intro p old _ n _
    have : (lexTok (sp ++ b!"#" ++ c)).tok = .eof := by
      unfold lexTok
      have e : sp ++ b!"#" ++ c = sp ++ ch%'#' :: c := by simp
      rw [e, skip_hsp hsp _ (by intro d u e; cases e; decide)]
      dsimp only
      rw [if_pos rfl]
      have : c.dropWhile notNl = [] := by
        have := dropWhile_app (p := notNl) (a := c) (b := []) (fun x hx => by
          unfold notNl
          have : x ≠ 10 := fun e => hc (e ▸ hx)
          simpa using this) (by intro c t h; cases h)
        simpa using this
      rw [this]
    rw [heof p old n this]
    exact ⟨rfl, fun i h => by simp at h⟩
  | @cons pre sp x r t l hs hx _ ih =>
    intro p old ha n hn
    obtain ⟨n, rfl⟩ : ∃ m, n = m + 1 := ⟨n - 1, by omega⟩
    have hseen := lexLoc_seen hs hx ha old
    have hne : t ≠ .eof := by
      cases hx with
      | string => intro h; cases h
      | word _ hk _ => cases hk <;> (intro h; cases h)
      | newline => intro h; cases h
      | comment => intro h; cases h
    have e : locate (n + 1) (sp ++ x ++ r) p old = lexLoc (sp ++ x ++ r) p old :: locate n r (lexLoc (sp ++ x ++ r) p old).fin (lexLoc (sp ++ x ++ r) p old).beg := by
      conv => lhs; unfold locate
      dsimp only
      rw [hseen.tok, if_neg hne, hseen.rest]
    rw [e]
    have h3 := ih (lexLoc (sp ++ x ++ r) p old).fin (lexLoc (sp ++ x ++ r) p old).beg hseen.next n (by simp only [List.length_cons] at hn; omega)
    refine ⟨by rw [List.length_cons, List.length_cons, h3.1], fun i h1 h2 => ?_⟩
    cases i with
    | zero => exact hseen
    | succ i => exact h3.2 i (by simpa using h1) (by simpa using h2)

theorem dec_num (n : Nat) : dec n = numText n := by
  rw [dec_pf]
  simp [pfDigits, numText]

theorem decInt_num (n : Nat) : decInt n = numText n := by
  unfold decInt
  rw [if_neg (by omega)]
  simp [dec_num]

theorem column_pos (l : Bytes) (c : UInt8) : columnOf (l ++ [c]) ≠ 0 := by
  rw [column_snoc]
  split <;> omega

theorem begins_text {pre x post : Bytes} {t : Tok} {b e : LPos} (hx : x ≠ []) (h : Begins pre x (TokAt.line ⟨t, pre, x, post⟩) b e)
    (hp : TabsFirst (TokAt.line ⟨t, pre, x, post⟩)) (file : Bytes) : rangeText file b e = placeText file ⟨t, pre, x, post⟩ := by
  have h1 := h.bcol hp
  have h2 := h.ecol hp
  have h3 : columnOf (lineSoFar pre ++ x.take 1) ≠ 0 := by
    cases x with
    | nil => exact absurd rfl hx
    | cons c x => exact column_pos _ c
  unfold rangeText pointText placeText
  dsimp only
  rw [h.bline, h.eline, h1, h2, if_pos (by omega), if_neg (by simp), decInt_num, decInt_num, decInt_num]
  by_cases he : columnOf (lineSoFar pre ++ x.take 1) = columnOf (lineSoFar pre ++ x)
  · rw [if_neg (by rw [he]; simp), if_pos he]; simp
  · rw [if_pos ⟨by omega, by omega⟩, if_neg he]; simp

end Pound
