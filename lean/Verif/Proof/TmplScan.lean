import Verif.Proof.TmplPipe

/-! Actions of templates -/

namespace Pound

open Spec

/-- The action for a text, if there is any -/
def compText (x : Bytes) : List TAct := if x = [] then [] else [.text (some x)]

mutual
/-- The actions a body becomes -/
def compBody (l r : Bool) : TmBody → List TAct
  | .done t => compText (tmTrim l r t)
  | .item t i b => compText (tmTrim l i.trimsBefore t) ++ (compItem i ++ compBody i.trimsAfter r b)
def compItem : TmItem → List TAct
  | .print _ p _ => [.pipe (compPipe p)]
  | .cond _ _ p c b t => [.cond (compPipe p) (compTail t) (compBody c.trims t.trimsBefore b)]
  | .wth _ _ v p c b t =>
    [.wth (v.map (·.name)) (compPipe p) (compTail t) (compBody c.trims t.trimsBefore b)]
  | .range _ _ v p c b t =>
    [.range (v.map (·.index)) (v.map (·.element)) (compPipe p) (compTail t)
      (compBody c.trims t.trimsBefore b)]
  | .block _ _ n _ p _ _ _ _ => [.block (tmStr n) (compPipe p)]
  | .template _ _ n _ p _ => [.block (tmStr n) (compPipe p)]
  | .brk _ _ => [.brk]
  | .cont _ _ => [.cont]
  | _ => []
def compTail : TmTail → List TAct
  | .fin _ _ => []
  | .els _ c b o' _ => compBody c.trims o'.trims b
  | .elif _ _ _ p c b t => [.cond (compPipe p) (compTail t) (compBody c.trims t.trimsBefore b)]
end

/-- The list of templates after some definitions -/
def defsAfter (d : List (Bytes × List TAct)) (ds : List TmDef) : List (Bytes × List TAct) :=
  ds.foldl (fun d t => tmplDefine d t.name (compBody t.l t.r t.body)) d

theorem defsAfter_append (d a b) : defsAfter d (a ++ b) = defsAfter (defsAfter d a) b := by
  simp [defsAfter]

/-- A state outside of actions -/
def AtT (s : TPs) (R : Bytes) : Prop :=
  s.inp.ready = false ∧ s.inp.err = none ∧ s.inp.rest = R

theorem At.t {s : TPs} {R} (h : At s.inp R) : AtT s R := ⟨h.1, h.2.1, h.2.2.1⟩

/-- Scanning from R ends at R', with these actions and definitions. -/
def Scans (loc : TLoc) (inh : Bool) (R : Bytes) (d : List (Bytes × List TAct)) (R' : Bytes)
    (d' : List (Bytes × List TAct)) (as es : List TAct) (T : TTok) : Prop :=
  ∀ s, AtT s R → s.defs = d →
    ∃ N s', (∀ f, N ≤ f → scanAction f loc inh s = .ok (s', as, es)) ∧ s'.inp.tok = T ∧
      AtT s' R' ∧ s'.defs = d'

/-- The same for a parser of actions -/
def TRuns (p : TParser) (inh : Bool) (R : Bytes) (d : List (Bytes × List TAct)) (R' : Bytes)
    (d' : List (Bytes × List TAct)) (rc : TRc) (as es : List TAct) : Prop :=
  ∀ s, At s.inp R → s.defs = d →
    ∃ N s', (∀ f, N ≤ f → runParser f p inh s = .ok (s', rc, as, es)) ∧ s'.inp.tok = .fin ∧
      AtT s' R' ∧ s'.defs = d'

/-- The text starts with "{{". -/
def Beg (r : Bytes) : Prop := ∃ q, r = 123 :: 123 :: q

/-! Texts -/

theorem tmText_tail {c t} (h : TmText (c :: t)) : TmText t :=
  fun hh => h (hh.trans (List.infix_cons (List.infix_refl _)))

theorem splitBeg_text {t r : Bytes} (ht : TmText t) (hr : r = [] ∨ Beg r) :
    splitBeg (t ++ r) = (t, r) := by
  induction t with
  | nil =>
    rcases hr with rfl | ⟨q, rfl⟩ <;> simp [splitBeg]
  | cons c t ih =>
    have hc : ¬ (c = 123 ∧ (t ++ r).headD 0 = 123) := by
      rintro ⟨rfl, h⟩
      cases t with
      | nil => exact ht ⟨[], [], by simp⟩
      | cons d t =>
        simp at h
        subst h
        exact ht ⟨[], t ++ b!"{", by simp⟩
    simp only [List.cons_append, splitBeg, if_neg hc, ih (tmText_tail ht)]

theorem trimEnd_tm (t : Bytes) :
    trimEnd t = (t.reverse.dropWhile (fun c => decide (TmSpace c))).reverse := by
  have : isSpace = fun c => decide (TmSpace c) := funext isSpace_tm
  rw [trimEnd, this]

theorem tmTrim_eq (l b : Bool) (t : Bytes) :
    tmTrim l b t = if b then trimEnd (dropIf l t) else dropIf l t := by
  have : isSpace = fun c => decide (TmSpace c) := funext isSpace_tm
  simp only [tmTrim, trimEnd_tm, dropIf, this]

theorem dropIf_app {t r : Bytes} (l : Bool) (hr : r = [] ∨ Beg r) :
    dropIf l (t ++ r) = dropIf l t ++ r := by
  cases l with
  | false => rfl
  | true =>
    simp only [dropIf, if_true]
    induction t with
    | nil =>
      rcases hr with rfl | ⟨q, rfl⟩
      · rfl
      · have : isSpace 123 = false := by decide
        simp [List.dropWhile_cons, this]
    | cons c t ih =>
      simp only [List.cons_append, List.dropWhile_cons]
      split
      · exact ih
      · rfl

theorem dropIf_text {l : Bool} {t : Bytes} (h : TmText t) : TmText (dropIf l t) := by
  cases l with
  | false => exact h
  | true =>
    simp only [dropIf, if_true]
    induction t with
    | nil => exact h
    | cons c t ih =>
      rw [List.dropWhile_cons]
      split
      · exact ih (tmText_tail h)
      · exact h

theorem scanAction_gettext {s s' : TPs} (h : gettext s.inp = gettext s'.inp)
    (hd : s.defs = s'.defs) (hg : s.dang = s'.dang) (f loc inh) :
    scanAction f loc inh s = scanAction f loc inh s' := by
  cases f with
  | zero => rfl
  | succ f =>
    obtain ⟨i, d, g⟩ := s
    obtain ⟨i', d', g'⟩ := s'
    simp only at hd hg h
    subst hd hg
    simp only [scanAction, h]

theorem Scans.text {loc inh r d R' d' as es T} (hr : r = [] ∨ Beg r) {t : Bytes} (ht : TmText t)
    (l : Bool) (K : Scans loc inh r d R' d' as es T) :
    Scans loc inh (dropIf l (t ++ r)) d R' d' (compText (tmTrim l (trimMark r) t) ++ as) es T := by
  intro s hs hd
  rw [dropIf_app l hr] at hs
  rw [tmTrim_eq]
  have ht' := dropIf_text (l := l) ht
  generalize dropIf l t = t at hs ht'
  obtain ⟨h1, h2, h3⟩ := hs
  have hsp := splitBeg_text ht' hr
  let s2 : TPs := { s with inp := { s.inp with back := t.reverse ++ s.inp.back, rest := r } }
  by_cases hx : (if trimMark r then trimEnd t else t) = []
  · have hg : gettext s.inp = gettext s2.inp := by
      by_cases ht0 : t = []
      · subst ht0
        have : s2.inp = s.inp := by
          obtain ⟨⟨b, rs, tk, rd, e⟩, ds, g⟩ := s
          simp only at h3
          subst h3
          rfl
        rw [this]
      · have hm : trimMark r = true := by
          by_cases hm : trimMark r = true
          · exact hm
          · rw [if_neg hm] at hx; exact absurd hx ht0
        rw [if_pos hm] at hx
        rcases hr with rfl | ⟨q, rfl⟩
        · simp [trimMark] at hm
        · have hm' := hm
          simp only [trimMark, List.drop_succ_cons, List.drop_zero, Bool.and_eq_true, beq_iff_eq] at hm'
          obtain ⟨m1, m2⟩ := hm'
          cases q with
          | nil => simp at m1
          | cons q0 q =>
            simp at m1
            subst m1
            cases q with
            | nil => simp [isSpace] at m2
            | cons q1 q =>
              simp at m2
              have hs2 : gettext s2.inp = .ok { s2.inp with
                  back := [q1, 45, 123, 123] ++ s2.inp.back, rest := q, tok := .beg } := by
                have e0 : splitBeg s2.inp.rest = ([], 123 :: 123 :: 45 :: q1 :: q) := by
                  simp [s2, splitBeg]
                have hm2 : trimMark (123 :: 123 :: 45 :: q1 :: q) = true := hm
                simp [gettext, e0, hm2]
              have h123 : isSpace 123 = false := by decide
              have hs1 : gettok s2.inp = .ok { s2.inp with
                  back := [q1, 45, 123, 123] ++ s2.inp.back, rest := q, tok := .beg } := by
                have hr2 : s2.inp.ready = false := h1
                simp only [gettok, hr2, Bool.false_eq_true, if_false]
                simp only [tLexTok, s2, List.takeWhile_cons, List.dropWhile_cons, h123,
                  Bool.false_eq_true, if_false, lexFrom]
                rw [if_neg (by decide), if_neg (by decide), if_neg (by decide), if_neg (by decide),
                  if_neg (by simp), if_neg (by simp), if_neg (by simp), if_pos (by simp)]
                simp [m2, h1]
              rw [hs2, ← hs1]
              simp only [gettext, h3, hsp]
              rw [if_neg (by simp [ht0]), if_pos hm, if_pos hx]
    obtain ⟨N, s', k1, k2, k3, k4⟩ := K s2 ⟨h1, h2, rfl⟩ hd
    refine ⟨N, s', fun f hf => ?_, k2, k3, k4⟩
    rw [scanAction_gettext (s' := s2) hg rfl rfl, k1 f hf, hx]
    rfl
  · obtain ⟨N, s', k1, k2, k3, k4⟩ := K
      { s2 with inp := { s2.inp with tok := .text none } } ⟨h1, h2, rfl⟩ hd
    refine ⟨N + 1, s', fun f hf => ?_, k2, k3, k4⟩
    obtain ⟨f, rfl⟩ : ∃ g, f = g + 1 := ⟨f - 1, by omega⟩
    have ht0 : t ≠ [] := by
      rintro rfl
      apply hx
      split <;> rfl
    have hgt : gettext s.inp = .ok { s2.inp with
        tok := .text (some (if trimMark r then trimEnd t else t)) } := by
      simp only [gettext, h3, hsp]
      rw [if_neg (by simp [ht0]), if_neg hx]
    simp only [scanAction, hgt, tout_bind_ok]
    have := k1 f (by omega)
    simp only [s2] at this ⊢
    rw [this]
    simp [compText, hx]

/-! The opening delimiter -/

/-- The text does not look like the rest of a trim marker. -/
def NoMark (X : Bytes) : Prop := ¬ (X.headD 0 = 45 ∧ isSpace ((X.drop 1).headD 0) = true)

theorem open_text (o : TmOpen) (X : Bytes) :
    o.text ++ X = 123 :: 123 :: ((match o.trim with | some c => [45, c] | none => []) ++
      (openRest o ++ X)) := by
  obtain ⟨tr, ws, cm⟩ := o
  cases tr <;> cases cm <;> simp [TmOpen.text, openRest]

theorem open_beg (o : TmOpen) (X : Bytes) : Beg (o.text ++ X) := ⟨_, open_text o X⟩

theorem openRest_nomark {o : TmOpen} {X : Bytes} (ho : o.Ok) (hX : NoMark X) :
    NoMark (openRest o ++ X) := by
  obtain ⟨tr, ws, cm⟩ := o
  cases ws with
  | cons c ws =>
    rintro ⟨h, -⟩
    simp [openRest] at h
    have := ho.2.1 c (by simp)
    subst h
    revert this; decide
  | nil =>
    cases cm with
    | none => simpa [openRest] using hX
    | some tw =>
      rintro ⟨h, -⟩
      simp [openRest] at h

theorem open_mark {o : TmOpen} {X : Bytes} (ho : o.Ok) (hX : NoMark X) :
    trimMark (o.text ++ X) = o.trims := by
  rw [open_text]
  obtain ⟨tr, ws, cm⟩ := o
  cases tr with
  | some c =>
    have := isSpace_of (ho.1 c rfl)
    simp [trimMark, TmOpen.trims, this]
  | none =>
    have := openRest_nomark ho hX
    simp only [NoMark, not_and] at this
    simp only [trimMark, TmOpen.trims, List.nil_append, List.drop_succ_cons, List.drop_zero,
      Option.isSome_none, Bool.and_eq_false_iff]
    by_cases h : (openRest ⟨none, ws, cm⟩ ++ X).headD 0 = 45
    · right; simpa using this h
    · left; simpa using h

theorem gettext_open {o : TmOpen} {X : Bytes} (ho : o.Ok) (hX : NoMark X) {s : TPs}
    (hs : AtT s (o.text ++ X)) :
    ∃ i, gettext s.inp = .ok i ∧ i.tok = .beg ∧ At i (openRest o ++ X) := by
  obtain ⟨h1, h2, h3⟩ := hs
  have hm := open_mark ho hX
  have e0 : splitBeg (o.text ++ X) = ([], o.text ++ X) := by
    rw [open_text]; simp [splitBeg]
  have hne : o.text ++ X ≠ [] := by rw [open_text]; simp
  refine ⟨{ s.inp with
      back := ((o.text ++ X).take (if o.trims then 4 else 2)).reverse ++ s.inp.back
      rest := (o.text ++ X).drop (if o.trims then 4 else 2)
      tok := .beg }, by simp only [gettext, h3, e0, hm]; rw [if_pos ⟨trivial, hne⟩],
    rfl, h1, h2, ?_, ?_⟩
  · rw [open_text]
    obtain ⟨tr, ws, cm⟩ := o
    cases tr <;> simp [TmOpen.trims]
  · rw [open_text]
    obtain ⟨tr, ws, cm⟩ := o
    cases tr <;> simp [TmOpen.trims]

/-- An action that starts with a token T -/
theorem open_tok {o : TmOpen} {X : Bytes} (ho : o.Ok) (hX : NoMark X) {T r'} (hl : Lx X T r')
    {s : TPs} (hs : AtT s (o.text ++ X)) :
    ∃ i s1, gettext s.inp = .ok i ∧ i.tok = .beg ∧ At i (openRest o ++ X) ∧ s1.defs = s.defs ∧
      TPs.tok { s with inp := i } = .ok s1 ∧ s1.inp.tok = T ∧ At s1.inp r' ∧
      gettok i = .ok s1.inp := by
  obtain ⟨i, h1, h2, h3⟩ := gettext_open ho hX hs
  obtain ⟨j, h4, h5, h6⟩ := (Lx.open ho hl).get h3
  exact ⟨i, { s with inp := j }, h1, h2, h3, rfl, by simp [TPs.tok, h4], h5, h6, h4⟩

/-- An empty action -/
theorem Scans.empty {o : TmOpen} {X r'} (ho : o.Ok) (hX : NoMark X) (hl : Lx X .fin r')
    {loc inh d R' d' as es T} (K : Scans loc inh r' d R' d' as es T) :
    Scans loc inh (o.text ++ X) d R' d' as es T := by
  intro s hs hd
  obtain ⟨i, s1, h1, h2, -, h4, h5, h6, h7, -⟩ := open_tok ho hX hl hs
  obtain ⟨N, s', k1, k2⟩ := K s1 h7.t (h4.trans hd)
  refine ⟨N + 1, s', fun f hf => ?_, k2⟩
  obtain ⟨f, rfl⟩ : ∃ g, f = g + 1 := ⟨f - 1, by omega⟩
  simp only [scanAction, h1, tout_bind_ok, h2, h5, h6]
  exact k1 f (by omega)

/-- An action with a keyword -/
theorem Scans.kw {o : TmOpen} {X r'} {n : Bytes} {p : TParser} (ho : o.Ok) (hX : NoMark X)
    (hl : Lx X (.ident n) r') {loc inh d d1 R1 R' d' as as' es es' T}
    (hp : findParser loc inh n = some p)
    (hr : TRuns p inh r' d R1 d1 .ok as es) (K : Scans loc inh R1 d1 R' d' as' es' T) :
    Scans loc inh (o.text ++ X) d R' d' (as ++ as') es' T := by
  intro s hs hd
  obtain ⟨i, s1, h1, h2, -, h4, h5, h6, h7, -⟩ := open_tok ho hX hl hs
  obtain ⟨N1, s2, q1, q2, q3, q4⟩ := hr s1 h7 (h4.trans hd)
  obtain ⟨N2, s', k1, k2⟩ := K s2 q3 q4
  refine ⟨N1 + N2 + 1, s', fun f hf => ?_, k2⟩
  obtain ⟨f, rfl⟩ : ∃ g, f = g + 1 := ⟨f - 1, by omega⟩
  simp only [scanAction, h1, tout_bind_ok, h2, h5, h6, hp, q1 f (by omega)]
  rw [if_neg (by simp [q2]), if_neg (by simp), k1 f (by omega)]
  rfl

/-- A keyword that ends the list of actions -/
theorem Scans.kwFin {o : TmOpen} {X r'} {n : Bytes} {p : TParser} (ho : o.Ok) (hX : NoMark X)
    (hl : Lx X (.ident n) r') {loc inh d d1 R1 as es} (hp : findParser loc inh n = some p)
    (hr : TRuns p inh r' d R1 d1 .fin as es) :
    Scans loc inh (o.text ++ X) d R1 d1 as es .fin := by
  intro s hs hd
  obtain ⟨i, s1, h1, h2, -, h4, h5, h6, h7, -⟩ := open_tok ho hX hl hs
  obtain ⟨N1, s2, q1, q2, q3, q4⟩ := hr s1 h7 (h4.trans hd)
  refine ⟨N1 + 1, s2, fun f hf => ?_, q2, q3, q4⟩
  obtain ⟨f, rfl⟩ : ∃ g, f = g + 1 := ⟨f - 1, by omega⟩
  simp only [scanAction, h1, tout_bind_ok, h2, h5, h6, hp, q1 f (by omega)]
  rw [if_neg (by simp [q2]), if_pos trivial]
  rfl

/-! The first token of a pipeline -/

/-- A token a pipeline starts with; `v`: it may be a variable. -/
def FirstTok (v : Prop) (T : TTok) : Prop :=
  (∃ n, T = .num n) ∨ (∃ s, T = .str s) ∨
  (∃ n, T = .ident n ∧ ∀ loc inh, findParser loc inh n = none) ∨ T = .dot ∨ (∃ n, T = .attr n) ∨
  T = .ch 40 ∨ (v ∧ ∃ n, T = .var n)

theorem FirstTok.ne_err {v T} (h : FirstTok v T) : T ≠ .err := by
  rcases h with ⟨_, rfl⟩ | ⟨_, rfl⟩ | ⟨_, rfl, -⟩ | rfl | ⟨_, rfl⟩ | rfl | ⟨-, _, rfl⟩ <;> simp

theorem fields_end {fs : List Bytes} {R : Bytes} (hR : Follow R) :
    (tmFieldsText fs ++ R) ≠ [] ∧
      ∀ d t, tmFieldsText fs ++ R = d :: t → identCh d = false ∧ attrCh d = false := by
  cases fs with
  | nil => exact follow_ident hR
  | cons b fs =>
    refine ⟨by simp [tmFieldsText], fun d t e => ?_⟩
    simp [tmFieldsText] at e
    rw [← e.1]; decide

theorem kw_fun (f : TFun) (loc inh) : findParser loc inh (tmFunName f) = none := by
  cases f <;> cases loc <;> cases inh <;> decide

theorem kw_bool (b : Bool) (loc inh) :
    findParser loc inh (if b then b!"true" else b!"false") = none := by
  cases b <;> cases loc <;> cases inh <;> decide

theorem arg_first (a : TmArg) (ha : a.Ok) (R : Bytes) (hR : Follow R) :
    ∃ T r', Lx (a.text ++ R) T r' ∧ FirstTok (∃ x fs, a = .var x fs) T ∧ NoMark (a.text ++ R) := by
  obtain ⟨hR1, hR2⟩ := follow_ident hR
  cases a with
  | int neg ds =>
    obtain ⟨h0, hd, hv⟩ := ha
    refine ⟨_, _, lx_int (neg := neg) h0 hd hv hR1 (follow_digit hR).2, Or.inl ⟨_, rfl⟩, ?_⟩
    cases ds with
    | nil => exact absurd rfl h0
    | cons d ds =>
      have hd' := (isDigit_tm d).mpr (hd d (by simp))
      have hsp := (isDigit_facts d hd').1
      have h45 : d ≠ 45 := by rintro rfl; revert hd'; decide
      rintro ⟨h1, h2⟩
      cases neg
      · exact h45 h1
      · simp [TmArg.text, hsp] at h2
  | str ps =>
    refine ⟨_, _, lx_str ha R, Or.inr (Or.inl ⟨_, rfl⟩), ?_⟩
    rintro ⟨h1, -⟩
    simp [TmArg.text, tmStrText] at h1
  | bool b =>
    refine ⟨_, _, lx_bool b hR, Or.inr (Or.inr (Or.inl ⟨_, rfl, kw_bool b⟩)), ?_⟩
    rintro ⟨h1, -⟩
    cases b <;> simp [TmArg.text] at h1
  | dot =>
    have hd : ∀ d t, R = d :: t → isAlpha d = false := by
      intro d t e
      have := (hR2 d t e).1
      by_cases hx : isAlpha d = true
      · rw [(isAlpha_facts d hx).2.2.1] at this; simp at this
      · simpa using hx
    refine ⟨_, _, lx_dot hd, Or.inr (Or.inr (Or.inr (Or.inl rfl))), ?_⟩
    rintro ⟨h1, -⟩
    simp [TmArg.text] at h1
  | attr a fs =>
    obtain ⟨he1, he2⟩ := fields_end (fs := fs) hR
    have := lx_attr ha.1 he1 (fun d t e => (he2 d t e).2)
    refine ⟨_, _, by simpa [TmArg.text] using this,
      Or.inr (Or.inr (Or.inr (Or.inr (Or.inl ⟨_, rfl⟩)))), ?_⟩
    rintro ⟨h1, -⟩
    simp [TmArg.text] at h1
  | var x fs =>
    obtain ⟨he1, he2⟩ := fields_end (fs := fs) hR
    have := lx_var ha.1 he1 (fun d t e => (he2 d t e).1)
    refine ⟨_, _, by simpa [TmArg.text] using this,
      Or.inr (Or.inr (Or.inr (Or.inr (Or.inr (Or.inr ⟨⟨x, fs, rfl⟩, _, rfl⟩))))), ?_⟩
    rintro ⟨h1, -⟩
    simp [TmArg.text] at h1
  | paren g p g' fs =>
    refine ⟨_, g ++ p.text ++ g' ++ b!")" ++ tmFieldsText fs ++ R, ?_,
      Or.inr (Or.inr (Or.inr (Or.inr (Or.inr (Or.inl rfl))))), ?_⟩
    · have := lx_ch (c := 40) (R := g ++ p.text ++ g' ++ b!")" ++ tmFieldsText fs ++ R) (by decide)
      simpa [TmArg.text] using this
    · rintro ⟨h1, -⟩
      simp [TmArg.text] at h1

theorem cmd_first (c : TmCmd) (hc : c.Ok) (R : Bytes) (hR : Follow R) :
    ∃ T r', Lx (c.text ++ R) T r' ∧ FirstTok (∃ x fs, c = .arg (.var x fs)) T ∧
      NoMark (c.text ++ R) := by
  cases c with
  | arg a =>
    obtain ⟨T, r', h1, h2, h3⟩ := arg_first a hc R hR
    refine ⟨T, r', by simpa [TmCmd.text] using h1, ?_, by simpa [TmCmd.text] using h3⟩
    simpa using h2
  | call f as =>
    obtain ⟨hf1, hf2, hf3, c, w, hcw, hal, hid⟩ := funName_ok f
    obtain ⟨hF1, hF2⟩ := follow_ident (args_follow hc hR)
    have := lx_ident hal hid hF1 (fun d t e => (hF2 d t e).1)
    rw [← hcw] at this
    refine ⟨_, _, by simpa [TmCmd.text] using this, Or.inr (Or.inr (Or.inl ⟨_, rfl, kw_fun f⟩)), ?_⟩
    rintro ⟨h1, -⟩
    simp only [TmCmd.text, hcw] at h1
    simp at h1
    subst h1
    revert hal; decide

theorem pipe_first (p : TmPipe) (hp : p.Ok) (R : Bytes) (hR : Follow R) :
    ∃ T r', Lx (p.text ++ R) T r' ∧ FirstTok p.StartsVar T ∧ NoMark (p.text ++ R) := by
  have mono : ∀ {v w : Prop} {T}, (v → w) → FirstTok v T → FirstTok w T := by
    intro v w T hvw h
    rcases h with h | h | h | h | h | h | ⟨h1, h2⟩
    · exact Or.inl h
    · exact Or.inr (Or.inl h)
    · exact Or.inr (Or.inr (Or.inl h))
    · exact Or.inr (Or.inr (Or.inr (Or.inl h)))
    · exact Or.inr (Or.inr (Or.inr (Or.inr (Or.inl h))))
    · exact Or.inr (Or.inr (Or.inr (Or.inr (Or.inr (Or.inl h)))))
    · exact Or.inr (Or.inr (Or.inr (Or.inr (Or.inr (Or.inr ⟨hvw h1, h2⟩)))))
  cases p with
  | one c =>
    obtain ⟨T, r', h1, h2, h3⟩ := cmd_first c hp R hR
    refine ⟨T, r', by simpa [TmPipe.text] using h1, mono ?_ h2, by simpa [TmPipe.text] using h3⟩
    rintro ⟨x, fs, rfl⟩
    trivial
  | more c g g' p =>
    obtain ⟨hc, hg, hg', hp⟩ := hp
    obtain ⟨T, r', h1, h2, h3⟩ := cmd_first c hc (g ++ b!"|" ++ (g' ++ (p.text ++ R)))
      (stop_pipe (g' := g') hg).follow
    refine ⟨T, r', by simpa [TmPipe.text] using h1, mono ?_ h2, by simpa [TmPipe.text] using h3⟩
    rintro ⟨x, fs, rfl⟩
    trivial

/-- An action that is a pipeline -/
theorem Scans.print {o : TmOpen} {p : TmPipe} {c : TmClose} (ho : o.Ok) (hp : p.Ok) (hc : c.Ok)
    {loc inh R d R' d' as es T}
    (K : Scans loc inh (dropIf c.trims R) d R' d' as es T) :
    Scans loc inh (o.text ++ (p.text ++ (c.text ++ R))) d R' d' (.pipe (compPipe p) :: as) es T := by
  intro s hs hd
  obtain ⟨T0, r0, hl, hF, hm⟩ := pipe_first p hp (c.text ++ R) (close_follow hc)
  obtain ⟨i, s1, h1, h2, h3, h4, h5, h6, h7, h8⟩ := open_tok ho hm hl hs
  obtain ⟨hb, hk⟩ := putback_peek (R := p.text ++ (c.text ++ R))
    (fun T r' hl => (Lx.open ho hl).get h3) h8 h7.1 (by rw [h6]; exact hF.ne_err)
  obtain ⟨N1, j, g1, g2, g3⟩ := pipe_ok p hp [] (c.text ++ R) (by simp [TmWs]) _ _ (stop_close hc)
    (by simp) _ hk
  obtain ⟨N2, s', k1, k2⟩ := K { s1 with inp := j } (At.t g3) (h4.trans hd)
  refine ⟨N1 + N2 + 2, s', fun f hf => ?_, k2⟩
  obtain ⟨f, rfl⟩ : ∃ g, f = g + 2 := ⟨f - 2, by omega⟩
  have hsp : scanPrint (f + 1) loc inh s1 = .ok (s', .pipe (compPipe p) :: as, es) := by
    simp only [scanPrint, hb, tout_bind_ok, TPs.pipe, g1 f (by omega), tout_pure, g2]
    simp [k1 f (by omega)]
  show scanAction ((f + 1) + 1) loc inh s = _
  generalize f + 1 = m at hsp
  simp only [scanAction, h1, tout_bind_ok, h2, h5]
  rcases hF with ⟨_, rfl⟩ | ⟨_, rfl⟩ | ⟨n, rfl, hn⟩ | rfl | ⟨_, rfl⟩ | rfl | ⟨-, _, rfl⟩ <;>
    simp only [h6] <;> first | exact hsp | (rw [hn]; exact hsp)

/-! Parsers of actions -/

theorem gap_follow {g X : Bytes} (hg : TmGap g) : Follow (g ++ X) := by
  obtain ⟨h0, hw⟩ := hg
  cases g with
  | nil => exact absurd rfl h0
  | cons c g => exact ⟨c, g ++ X, rfl, Or.inl (isSpace_of (hw c (by simp)))⟩

/-- A pipeline in the state of the parser -/
theorem ps_pipe {p : TmPipe} (hp : p.Ok) {g : Bytes} (hg : TmWs g) {c : TmClose} (hc : c.Ok)
    {R : Bytes} {s : TPs} (hs : Peek s.inp (g ++ (p.text ++ (c.text ++ R)))) :
    ∃ N s', (∀ f, N ≤ f → s.pipe f = .ok (s', compPipe p, true)) ∧ s'.inp.tok = .fin ∧
      At s'.inp (dropIf c.trims R) ∧ s'.defs = s.defs ∧ s'.dang = s.dang := by
  obtain ⟨N1, j, g1, g2, g3⟩ := pipe_ok p hp g (c.text ++ R) hg _ _ (stop_close hc) (by simp) _ hs
  refine ⟨N1, { s with inp := j }, fun f hf => ?_, g2, g3, rfl, rfl⟩
  simp [TPs.pipe, g1 f hf, g2]

theorem ps_tok {R T r'} (hl : Lx R T r') {s : TPs} (hs : Peek s.inp R) :
    ∃ s', s.tok = .ok s' ∧ s'.inp.tok = T ∧ At s'.inp r' ∧ s'.defs = s.defs ∧ s'.dang = s.dang := by
  obtain ⟨j, h1, h2, h3⟩ := hl.getP hs
  exact ⟨{ s with inp := j }, by simp [TPs.tok, h1], h2, h3, rfl, rfl⟩

theorem rc_ok {s : TPs} {R} (h : AtT s R) : s.rc = .ok := by simp [TPs.rc, h.2.1]

theorem TRuns.if {g : Bytes} {p : TmPipe} {c : TmClose} (hg : TmWs g) (hp : p.Ok) (hc : c.Ok)
    {inh R d R' d' thn els} (K : Scans .cond inh (dropIf c.trims R) d R' d' thn els .fin) :
    TRuns .if_ inh (g ++ (p.text ++ (c.text ++ R))) d R' d' .ok [.cond (compPipe p) els thn] [] := by
  intro s hs hd
  obtain ⟨N1, s1, g1, g2, g3, g4, -⟩ := ps_pipe hp hg hc hs.peek
  obtain ⟨N2, s', k1, k2, k3, k4⟩ := K s1 g3.t (g4.trans hd)
  refine ⟨N1 + N2 + 1, s', fun f hf => ?_, k2, k3, k4⟩
  obtain ⟨f, rfl⟩ : ∃ g, f = g + 1 := ⟨f - 1, by omega⟩
  simp [runParser, g1 f (by omega), k1 f (by omega), rc_ok k3]

theorem TRuns.with {v : Option TmVar} {g : Bytes} {p : TmPipe} {c : TmClose} (hg : TmWs g)
    (hv : match v with | some v => v.Ok | none => ¬ p.StartsVar) (hp : p.Ok)
    (hc : c.Ok) {inh R d R' d' thn els}
    (K : Scans .wth inh (dropIf c.trims R) d R' d' thn els .fin) :
    TRuns .with_ inh (g ++ ((match (generalizing := false) v with | some v => v.text | none => []) ++
      (p.text ++ (c.text ++ R)))) d R' d' .ok [.wth (v.map (·.name)) (compPipe p) els thn] [] := by
  intro s hs hd
  have hw : ∃ s0, withVar s = .ok (s0, some (v.map (·.name))) ∧ s0.defs = s.defs ∧
      ∃ g', TmWs g' ∧ Peek s0.inp (g' ++ (p.text ++ (c.text ++ R))) := by
    cases v with
    | some v =>
      obtain ⟨h1, h2, h3⟩ := hv
      obtain ⟨n, ga, gb⟩ := v
      have e1 : ∀ X : Bytes, (ga ++ 61 :: X) ≠ [] ∧
          ∀ d t, ga ++ 61 :: X = d :: t → identCh d = false := by
        intro X
        refine ⟨by simp, fun d t e => ?_⟩
        cases ga with
        | nil => simp at e; rw [← e.1]; decide
        | cons a ga =>
          simp at e
          rw [← e.1]
          have := h2 a (by simp)
          revert this
          have : ∀ c : UInt8, TmSpace c → identCh c = false := forall_byte (by decide +kernel)
          exact this a
      have l1 := Lx.ws hg (lx_var h1 (e1 (gb ++ (p.text ++ (c.text ++ R)))).1
        (e1 (gb ++ (p.text ++ (c.text ++ R)))).2)
      obtain ⟨s1, q1, q2, q3, q4, -⟩ := ps_tok l1 (by simpa [TmVar.text] using hs.peek)
      have l2 := Lx.ws h2 (lx_ch (c := 61) (R := gb ++ (p.text ++ (c.text ++ R))) (by decide))
      obtain ⟨s2, w1, w2, w3, w4, -⟩ := ps_tok l2 q3.peek
      refine ⟨s2, ?_, w4.trans q4, gb, h3, w3.peek⟩
      simp [withVar, q1, q2, w1, w2]
    | none =>
      obtain ⟨T0, r0, hl, hf, -⟩ := pipe_first p hp (c.text ++ R) (close_follow hc)
      have l1 := Lx.ws hg hl
      obtain ⟨j, q1, q2, q3⟩ := l1.get hs
      obtain ⟨hb, hk⟩ := putback_peek hs.peek q1 q3.1 (by rw [q2]; exact hf.ne_err)
      refine ⟨{ s with inp := { j with ready := true } }, ?_, rfl, g, hg, hk⟩
      simp only [withVar, TPs.tok, q1, tout_bind_ok, tout_pure]
      rcases hf with ⟨_, rfl⟩ | ⟨_, rfl⟩ | ⟨n, rfl, hn⟩ | rfl | ⟨_, rfl⟩ | rfl | ⟨hh, _, rfl⟩
      all_goals first | exact absurd hh hv | simp [q2, hb]
  obtain ⟨s0, hw1, hw2, g', hg', hw3⟩ := hw
  obtain ⟨N1, s1, g1, g2, g3, g4, -⟩ := ps_pipe hp hg' hc hw3
  obtain ⟨N2, s', k1, k2, k3, k4⟩ := K s1 g3.t (g4.trans (hw2.trans hd))
  refine ⟨N1 + N2 + 1, s', fun f hf => ?_, k2, k3, k4⟩
  obtain ⟨f, rfl⟩ : ∃ g, f = g + 1 := ⟨f - 1, by omega⟩
  simp [runParser, hw1, g1 f (by omega), k1 f (by omega), rc_ok k3]

theorem ident_stop {ga : Bytes} (h : TmWs ga) {c : UInt8} (hc : identCh c = false) (X : Bytes) :
    (ga ++ c :: X) ≠ [] ∧ ∀ d t, ga ++ c :: X = d :: t → identCh d = false := by
  refine ⟨by simp, fun d t e => ?_⟩
  cases ga with
  | nil => simp at e; rw [← e.1]; exact hc
  | cons a ga =>
    simp at e
    rw [← e.1]
    have := h a (by simp)
    revert this
    have : ∀ c : UInt8, TmSpace c → identCh c = false := forall_byte (by decide +kernel)
    exact this a

theorem TRuns.range {v : Option TmVars} {g : Bytes} {p : TmPipe} {c : TmClose} (hg : TmWs g)
    (hv : match v with | some v => v.Ok | none => ¬ p.StartsVar) (hp : p.Ok)
    (hc : c.Ok) {inh R d R' d' thn els}
    (K : Scans .wth true (dropIf c.trims R) d R' d' thn els .fin) :
    TRuns .range_ inh (g ++ ((match (generalizing := false) v with | some v => v.text | none => []) ++
      (p.text ++ (c.text ++ R)))) d R' d' .ok
        [.range (v.map (·.index)) (v.map (·.element)) (compPipe p) els thn] [] := by
  intro s hs hd
  have hw : ∃ s0, rangeVars s = .ok (s0, some (v.map (·.index), v.map (·.element))) ∧
      s0.defs = s.defs ∧ ∃ g', TmWs g' ∧ Peek s0.inp (g' ++ (p.text ++ (c.text ++ R))) := by
    cases v with
    | some v =>
      obtain ⟨h1, h2, h3, h4, h5, h6⟩ := hv
      obtain ⟨n, ga, gb, m, gc, gd⟩ := v
      have e1 := ident_stop h2 (c := 44) (by decide)
        (gb ++ (36 :: (m ++ (gc ++ 61 :: (gd ++ (p.text ++ (c.text ++ R)))))))
      have l1 := Lx.ws hg (lx_var h1 e1.1 e1.2)
      obtain ⟨s1, q1, q2, q3, q4, -⟩ := ps_tok l1 (by simpa [TmVars.text] using hs.peek)
      have l2 := Lx.ws h2 (lx_ch (c := 44)
        (R := gb ++ (36 :: (m ++ (gc ++ 61 :: (gd ++ (p.text ++ (c.text ++ R))))))) (by decide))
      obtain ⟨s2, w1, w2, w3, w4, -⟩ := ps_tok l2 q3.peek
      have e3 := ident_stop h5 (c := 61) (by decide) (gd ++ (p.text ++ (c.text ++ R)))
      have l3 := Lx.ws h3 (lx_var h4 e3.1 e3.2)
      obtain ⟨s3, x1, x2, x3, x4, -⟩ := ps_tok l3 w3.peek
      have l4 := Lx.ws h5 (lx_ch (c := 61) (R := gd ++ (p.text ++ (c.text ++ R))) (by decide))
      obtain ⟨s4, y1, y2, y3, y4, -⟩ := ps_tok l4 x3.peek
      refine ⟨s4, ?_, y4.trans (x4.trans (w4.trans q4)), gd, h6, y3.peek⟩
      simp [rangeVars, rangeVars2, q1, q2, w1, w2, x1, x2, y1, y2]
    | none =>
      obtain ⟨T0, r0, hl, hf, -⟩ := pipe_first p hp (c.text ++ R) (close_follow hc)
      have l1 := Lx.ws hg hl
      obtain ⟨j, q1, q2, q3⟩ := l1.get hs
      obtain ⟨hb, hk⟩ := putback_peek hs.peek q1 q3.1 (by rw [q2]; exact hf.ne_err)
      refine ⟨{ s with inp := { j with ready := true } }, ?_, rfl, g, hg, hk⟩
      simp only [rangeVars, TPs.tok, q1, tout_bind_ok, tout_pure]
      rcases hf with ⟨_, rfl⟩ | ⟨_, rfl⟩ | ⟨n, rfl, hn⟩ | rfl | ⟨_, rfl⟩ | rfl | ⟨hh, _, rfl⟩
      all_goals first | exact absurd hh hv | simp [q2, hb]
  obtain ⟨s0, hw1, hw2, g', hg', hw3⟩ := hw
  obtain ⟨N1, s1, g1, g2, g3, g4, -⟩ := ps_pipe hp hg' hc hw3
  obtain ⟨N2, s', k1, k2, k3, k4⟩ := K s1 g3.t (g4.trans (hw2.trans hd))
  refine ⟨N1 + N2 + 1, s', fun f hf => ?_, k2, k3, k4⟩
  obtain ⟨f, rfl⟩ : ∃ g, f = g + 1 := ⟨f - 1, by omega⟩
  simp [runParser, hw1, g1 f (by omega), k1 f (by omega), rc_ok k3]

theorem lx_name {n : List TmPiece} (hn : ∀ p ∈ n, p.Ok) (g : Bytes) (hg : TmWs g) (R : Bytes) :
    Lx (g ++ (tmStrText n ++ R)) (.str (tmStr n)) R := Lx.ws hg (lx_str hn R)

theorem TRuns.define {n : List TmPiece} (hn : ∀ p ∈ n, p.Ok) {g : Bytes} (hg : TmWs g)
    {c : TmClose} (hc : c.Ok) {inh R d R' d' as es}
    (K : Scans .fin false (dropIf c.trims R) d R' d' as es .fin) :
    TRuns .define_ inh (g ++ (tmStrText n ++ (c.text ++ R))) d R' (tmplDefine d' (tmStr n) as)
      .ok [] [] := by
  intro s hs hd
  obtain ⟨s1, q1, q2, q3, q4, -⟩ := ps_tok (lx_name hn g hg _) hs.peek
  obtain ⟨s2, w1, w2, w3, w4, -⟩ := ps_tok (lx_close hc) q3.peek
  obtain ⟨N2, s', k1, k2, k3, k4⟩ := K s2 w3.t (w4.trans (q4.trans hd))
  refine ⟨N2 + 1, { s' with defs := tmplDefine d' (tmStr n) as }, fun f hf => ?_, k2, k3, rfl⟩
  obtain ⟨f, rfl⟩ : ∃ g, f = g + 1 := ⟨f - 1, by omega⟩
  simp [runParser, q1, q2, w1, w2, k1 f (by omega), k3.2.1, k4]

theorem TRuns.block {n : List TmPiece} (hn : ∀ p ∈ n, p.Ok) {g : Bytes} (hg : TmWs g)
    {g' : Bytes} (hg' : TmWs g') {p : TmPipe} (hp : p.Ok) {c : TmClose} (hc : c.Ok)
    {inh R d R' d' as es} (hl : tmplLookup d (tmStr n) = none)
    (K : Scans .fin false (dropIf c.trims R) d R' d' as es .fin) :
    TRuns .block_ inh (g ++ (tmStrText n ++ (g' ++ (p.text ++ (c.text ++ R))))) d R'
      (tmplDefine d' (tmStr n) as) .ok [.block (tmStr n) (compPipe p)] [] := by
  intro s hs hd
  obtain ⟨s1, q1, q2, q3, q4, -⟩ := ps_tok (lx_name hn g hg _) hs.peek
  obtain ⟨N1, s2, g1, g2, g3, g4, -⟩ := ps_pipe hp hg' hc q3.peek
  have hd2 : s2.defs = d := g4.trans (q4.trans hd)
  obtain ⟨N2, s', k1, k2, k3, k4⟩ := K s2 g3.t hd2
  refine ⟨N1 + N2 + 1, { s' with defs := tmplDefine d' (tmStr n) as }, fun f hf => ?_, k2, k3, rfl⟩
  obtain ⟨f, rfl⟩ : ∃ g, f = g + 1 := ⟨f - 1, by omega⟩
  simp [runParser, q1, q2, g1 f (by omega), hd2, hl, k1 f (by omega), k3.2.1, k4]

theorem TRuns.template {n : List TmPiece} (hn : ∀ p ∈ n, p.Ok) {g : Bytes} (hg : TmWs g)
    {g' : Bytes} (hg' : TmWs g') {p : TmPipe} (hp : p.Ok) {c : TmClose} (hc : c.Ok)
    {inh R d} (hl : (tmplLookup d (tmStr n)).isSome) :
    TRuns .template_ inh (g ++ (tmStrText n ++ (g' ++ (p.text ++ (c.text ++ R))))) d
      (dropIf c.trims R) d .ok [.block (tmStr n) (compPipe p)] [] := by
  intro s hs hd
  obtain ⟨s1, q1, q2, q3, q4, -⟩ := ps_tok (lx_name hn g hg _) hs.peek
  obtain ⟨N1, s2, g1, g2, g3, g4, -⟩ := ps_pipe hp hg' hc q3.peek
  have hd2 : s2.defs = d := g4.trans (q4.trans hd)
  obtain ⟨a, ha⟩ := Option.isSome_iff_exists.mp hl
  refine ⟨N1 + 1, s2, fun f hf => ?_, g2, g3.t, hd2⟩
  obtain ⟨f, rfl⟩ : ∃ g, f = g + 1 := ⟨f - 1, by omega⟩
  simp [runParser, q1, q2, g1 f (by omega), hd2, ha]

theorem TRuns.end {c : TmClose} (hc : c.Ok) {inh R d} :
    TRuns .end_ inh (c.text ++ R) d (dropIf c.trims R) d .fin [] [] := by
  intro s hs hd
  obtain ⟨s1, q1, q2, q3, q4, -⟩ := ps_tok (lx_close hc) hs.peek
  refine ⟨1, s1, fun f hf => ?_, q2, q3.t, q4.trans hd⟩
  obtain ⟨f, rfl⟩ : ∃ g, f = g + 1 := ⟨f - 1, by omega⟩
  simp [runParser, q1, q2]

theorem TRuns.break {c : TmClose} (hc : c.Ok) {inh R d} :
    TRuns .break_ inh (c.text ++ R) d (dropIf c.trims R) d .ok [.brk] [] := by
  intro s hs hd
  obtain ⟨s1, q1, q2, q3, q4, -⟩ := ps_tok (lx_close hc) hs.peek
  refine ⟨1, s1, fun f hf => ?_, q2, q3.t, q4.trans hd⟩
  obtain ⟨f, rfl⟩ : ∃ g, f = g + 1 := ⟨f - 1, by omega⟩
  simp [runParser, q1, q2]

theorem TRuns.continue {c : TmClose} (hc : c.Ok) {inh R d} :
    TRuns .continue_ inh (c.text ++ R) d (dropIf c.trims R) d .ok [.cont] [] := by
  intro s hs hd
  obtain ⟨s1, q1, q2, q3, q4, -⟩ := ps_tok (lx_close hc) hs.peek
  refine ⟨1, s1, fun f hf => ?_, q2, q3.t, q4.trans hd⟩
  obtain ⟨f, rfl⟩ : ∃ g, f = g + 1 := ⟨f - 1, by omega⟩
  simp [runParser, q1, q2]

theorem TRuns.else {c : TmClose} (hc : c.Ok) {p : TParser} (hp : p = .elseif ∨ p = .elsewith)
    {inh R d R' d' as es} (K : Scans .fin inh (dropIf c.trims R) d R' d' as es .fin) :
    TRuns p inh (c.text ++ R) d R' d' .fin [] as := by
  intro s hs hd
  obtain ⟨s1, q1, q2, q3, q4, -⟩ := ps_tok (lx_close hc) hs.peek
  obtain ⟨N2, s', k1, k2, k3, k4⟩ := K s1 q3.t (q4.trans hd)
  refine ⟨N2 + 1, s', fun f hf => ?_, k2, k3, k4⟩
  obtain ⟨f, rfl⟩ : ∃ g, f = g + 1 := ⟨f - 1, by omega⟩
  rcases hp with rfl | rfl <;> simp [runParser, q1, q2, k1 f (by omega)]

theorem lx_kw {c : UInt8} {w R : Bytes} (hc : isAlpha c = true) (hw : ∀ d ∈ w, identCh d = true)
    (hR : Follow R) : Lx (c :: (w ++ R)) (.ident (c :: w)) R := by
  obtain ⟨h1, h2⟩ := follow_ident hR
  exact lx_ident hc hw h1 (fun d t e => (h2 d t e).1)

theorem TRuns.elseIf {g : Bytes} (hg : TmWs g) {X : Bytes} (hX : Follow X) {inh d R' d' as es}
    (hr : TRuns .if_ inh X d R' d' .ok as es) :
    TRuns .elseif inh (g ++ (b!"if" ++ X)) d R' d' .fin [] as := by
  intro s hs hd
  have l1 := Lx.ws hg (lx_kw (c := 105) (w := [102]) (by decide) (by decide) hX)
  obtain ⟨s1, q1, q2, q3, q4, -⟩ := ps_tok l1 hs.peek
  obtain ⟨N2, s', k1, k2, k3, k4⟩ := hr s1 q3 (q4.trans hd)
  refine ⟨N2 + 1, s', fun f hf => ?_, k2, k3, k4⟩
  obtain ⟨f, rfl⟩ : ∃ g, f = g + 1 := ⟨f - 1, by omega⟩
  simp [runParser, q1, q2, k1 f (by omega)]

end Pound
