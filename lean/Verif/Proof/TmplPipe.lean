import Verif.Proof.TmplLex

/-! Pipelines of templates -/

namespace Pound

open Spec

@[simp] theorem tout_bind_ok {α β} (a : α) (k : α → TOut β) :
    ((TOut.ok a : TOut α) >>= k) = k a := rfl

@[simp] theorem tout_pure {α} (a : α) : (pure a : TOut α) = .ok a := rfl

/-- The attributes after a command -/
def compFields (c : TCmd) (fs : List Bytes) : TCmd :=
  fs.foldl (fun c f => .withdot [c] [.attr f]) c

mutual
/-- The command made of an argument -/
def compArg : TmArg → TCmd
  | .int neg ds => .int (if neg then -(tmNat ds : Int) else tmNat ds)
  | .str ps => .str (tmStr ps)
  | .bool b => .bool b
  | .dot => .dot
  | .attr a fs => compFields (.attr a) fs
  | .var x fs => compFields (.var x) fs
  | .paren _ p _ fs => compFields (.pipe (compPipe p)) fs
def compArgs : TmArgs → List (List TCmd)
  | .nil => []
  | .cons _ a as => [compArg a] :: compArgs as
def compCmd : TmCmd → TCmd
  | .arg a => compArg a
  | .call f as => .call f (compArgs as)
def compPipe : TmPipe → List TCmd
  | .one c => [compCmd c]
  | .more c _ _ p => compCmd c :: compPipe p
end

/-- The token at R comes next, whether it has been put back or not. -/
def Peek (s : TIn) (R : Bytes) : Prop :=
  ∀ T r', Lx R T r' → ∃ s', gettok s = .ok s' ∧ s'.tok = T ∧ At s' r'

theorem At.peek {s R} (h : At s R) : Peek s R := fun _ _ hl => hl.get h

theorem Lx.getP {R T r'} (h : Lx R T r') {s} (hs : Peek s R) :
    ∃ s', gettok s = .ok s' ∧ s'.tok = T ∧ At s' r' := hs _ _ h

/-- A token read and put back -/
theorem putback_peek {R s s'} (hs : Peek s R) (h : gettok s = .ok s')
    (hr : s'.ready = false) (ht : s'.tok ≠ .err) :
    putback s' = .ok { s' with ready := true } ∧ Peek { s' with ready := true } R := by
  refine ⟨by simp [putback, hr], ?_⟩
  intro T r' hl
  obtain ⟨s2, h1, h2⟩ := hs T r' hl
  rw [h] at h1
  refine ⟨s2, ?_, h2⟩
  rw [← h1]
  obtain ⟨b, r, t, rd, e⟩ := s'
  have : (t == TTok.err) = false := by simpa using ht
  simp only at hr
  subst hr
  simp [gettok, this]

/-- Text before which an argument list ends -/
structure Stop (R : Bytes) (T : TTok) (r' : Bytes) : Prop where
  follow : Follow R
  lx : Lx R T r'
  tok : T = .fin ∨ T = .ch 124 ∨ T = .ch 41

theorem follow_lx {c : UInt8} {t : Bytes} (h : isSpace c = false)
    (hf : isSpace c = true ∨ c = 124 ∨ c = 41 ∨ (c = 125 ∧ t.headD 0 = 125)) :
    ∃ T r', Lx (c :: t) T r' ∧ (T = .fin ∨ T = .ch 124 ∨ T = .ch 41) := by
  rcases hf with hf | rfl | rfl | ⟨rfl, hf⟩
  · rw [h] at hf; simp at hf
  · exact ⟨_, _, lx_ch (by decide), Or.inr (Or.inl rfl)⟩
  · exact ⟨_, _, lx_ch (by decide), Or.inr (Or.inr rfl)⟩
  · cases t with
    | nil => simp at hf
    | cons d t =>
      simp at hf
      subst hf
      exact ⟨_, _, lx_fin, Or.inl rfl⟩

theorem stop_tok {T : TTok} (h : T = .fin ∨ T = .ch 124 ∨ T = .ch 41) : T ≠ .err := by
  rcases h with rfl | rfl | rfl <;> simp

theorem attrs_ok (fs : List Bytes) (hf : ∀ f ∈ fs, TmAttrName f) (R : Bytes) (hR : Follow R) :
    ∀ (c : TCmd) (s : TIn), At s (tmFieldsText fs ++ R) →
      ∃ N s', (∀ f, N ≤ f → scanAttrs f s c = .ok (s', false, [compFields c fs])) ∧ Peek s' R := by
  induction fs with
  | nil =>
    intro c s hs
    obtain ⟨d, t, rfl, hd⟩ := hR
    simp only [tmFieldsText, List.flatMap_nil, List.nil_append] at hs
    by_cases h : isSpace d = true
    · refine ⟨1, s, ?_, hs.peek⟩
      intro f hf
      obtain ⟨f, rfl⟩ : ∃ g, f = g + 1 := ⟨f - 1, by omega⟩
      simp [scanAttrs, hs.2.2.1, h, compFields]
    · have h' : isSpace d = false := by simpa using h
      obtain ⟨T, r', hl, hT⟩ := follow_lx h' hd
      obtain ⟨s', h1, h2, h3⟩ := hl.get hs
      obtain ⟨hp1, hp2⟩ := putback_peek hs.peek h1 h3.1 (h2 ▸ stop_tok hT)
      refine ⟨1, _, ?_, hp2⟩
      intro f hf
      obtain ⟨f, rfl⟩ : ∃ g, f = g + 1 := ⟨f - 1, by omega⟩
      simp only [scanAttrs, hs.2.2.1, List.headD_cons, h', Bool.false_eq_true, if_false, h1,
        tout_bind_ok]
      rcases hT with rfl | rfl | rfl <;> simp [h2, hp1, compFields]
  | cons a fs ih =>
    intro c s hs
    have e : tmFieldsText (a :: fs) ++ R = 46 :: a ++ (tmFieldsText fs ++ R) := by
      simp [tmFieldsText]
    rw [e] at hs
    have hend : (tmFieldsText fs ++ R) ≠ [] ∧
        ∀ d t, tmFieldsText fs ++ R = d :: t → attrCh d = false := by
      cases fs with
      | nil =>
        obtain ⟨h1, h2⟩ := follow_ident hR
        exact ⟨h1, fun d t e => (h2 d t e).2⟩
      | cons b fs =>
        refine ⟨by simp [tmFieldsText], fun d t e => ?_⟩
        simp [tmFieldsText] at e
        rw [← e.1]; decide
    obtain ⟨s1, h1, h2, h3⟩ := (lx_attr (hf a (by simp)) hend.1 hend.2).get hs
    obtain ⟨N, s', h4, h5⟩ := ih (fun f h => hf f (by simp [h])) (.withdot [c] [.attr a]) s1 h3
    refine ⟨N + 1, s', ?_, h5⟩
    intro f hf
    obtain ⟨f, rfl⟩ : ∃ g, f = g + 1 := ⟨f - 1, by omega⟩
    have h46 : isSpace 46 = false := by decide
    simp only [scanAttrs, hs.2.2.1, List.cons_append, List.headD_cons, h46, Bool.false_eq_true,
      if_false, h1, tout_bind_ok, h2]
    rw [h4 f (by omega)]
    rfl

/-- The names of the functions are found, and differ from the constants. -/
theorem funName_ok (f : TFun) : findFunc (tmFunName f) = some f ∧ tmFunName f ≠ b!"true" ∧
    tmFunName f ≠ b!"false" ∧ ∃ c w, tmFunName f = c :: w ∧ isAlpha c = true ∧
      ∀ d ∈ w, identCh d = true := by
  cases f <;> exact ⟨by decide, by decide, by decide, _, _, rfl, by decide, by decide⟩

theorem lx_bool (b : Bool) {R} (hR : Follow R) :
    Lx ((if b then b!"true" else b!"false") ++ R) (.ident (if b then b!"true" else b!"false")) R := by
  obtain ⟨h1, h2⟩ := follow_ident hR
  cases b
  · exact lx_ident (c := ch%'f') (w := b!"alse") (by decide) (by decide) h1
      (fun d t e => (h2 d t e).1)
  · exact lx_ident (c := ch%'t') (w := b!"rue") (by decide) (by decide) h1
      (fun d t e => (h2 d t e).1)

theorem args_follow {as : TmArgs} (h : as.Ok) {R} (hR : Follow R) : Follow (as.text ++ R) := by
  cases as with
  | nil => simpa [TmArgs.text] using hR
  | cons g a as =>
    obtain ⟨h1, h2, -, -⟩ := h
    cases g with
    | nil => exact absurd rfl h1
    | cons c g => exact ⟨c, g ++ (a.text ++ (as.text ++ R)), by simp [TmArgs.text], Or.inl (isSpace_of (h2 c (by simp)))⟩

theorem stop_pipe {g g' : Bytes} {X : Bytes} (hg : TmWs g) :
    Stop (g ++ b!"|" ++ X) (.ch 124) X := by
  refine ⟨?_, ?_, Or.inr (Or.inl rfl)⟩
  · cases g with
    | nil => exact ⟨124, X, rfl, Or.inr (Or.inl rfl)⟩
    | cons c g => exact ⟨c, _, rfl, Or.inl (isSpace_of (hg c (by simp)))⟩
  · rw [List.append_assoc]
    exact Lx.ws hg (lx_ch (by decide))

theorem stop_paren {g : Bytes} {X : Bytes} (hg : TmWs g) :
    Stop (g ++ b!")" ++ X) (.ch 41) X := by
  refine ⟨?_, ?_, Or.inr (Or.inr rfl)⟩
  · cases g with
    | nil => exact ⟨41, X, rfl, Or.inr (Or.inr (Or.inl rfl))⟩
    | cons c g => exact ⟨c, _, rfl, Or.inl (isSpace_of (hg c (by simp)))⟩
  · rw [List.append_assoc]
    exact Lx.ws hg (lx_ch (by decide))

theorem fuelSucc {N f : Nat} (h : N + 1 ≤ f) : ∃ g, f = g + 1 ∧ N ≤ g := ⟨f - 1, by omega, by omega⟩

mutual
theorem arg_ok (a : TmArg) (ha : a.Ok) (g R : Bytes) (hg : TmWs g) (hR : Follow R) (s : TIn)
    (hs : Peek s (g ++ (a.text ++ R))) :
    ∃ N s', (∀ f, N ≤ f → scanArg f s = .ok (s', false, [compArg a])) ∧ Peek s' R := by
  obtain ⟨hR1, hR2⟩ := follow_ident hR
  match a, ha with
  | .int neg ds, ha =>
    obtain ⟨h0, hd, hv⟩ := ha
    obtain ⟨s', h1, h2, h3⟩ :=
      (Lx.ws hg (lx_int (neg := neg) h0 hd hv hR1 (follow_digit hR).2)).getP
        (by simpa [TmArg.text] using hs)
    refine ⟨1, s', fun f hf => ?_, h3.peek⟩
    obtain ⟨f, rfl, -⟩ := fuelSucc hf
    simp [scanArg, h1, h2, compArg]
  | .str ps, ha =>
    obtain ⟨s', h1, h2, h3⟩ := (Lx.ws hg (lx_str ha R)).getP (by simpa [TmArg.text] using hs)
    refine ⟨1, s', fun f hf => ?_, h3.peek⟩
    obtain ⟨f, rfl, -⟩ := fuelSucc hf
    simp [scanArg, h1, h2, compArg]
  | .bool b, ha =>
    obtain ⟨s', h1, h2, h3⟩ := (Lx.ws hg (lx_bool b hR)).getP (by simpa [TmArg.text] using hs)
    refine ⟨1, s', fun f hf => ?_, h3.peek⟩
    obtain ⟨f, rfl, -⟩ := fuelSucc hf
    cases b <;> simp [scanArg, h1, h2, compArg]
  | .dot, ha =>
    have hd : ∀ d t, R = d :: t → isAlpha d = false := by
      intro d t e
      have := (hR2 d t e).1
      by_cases hx : isAlpha d = true
      · rw [(isAlpha_facts d hx).2.2.1] at this; simp at this
      · simpa using hx
    obtain ⟨s', h1, h2, h3⟩ := (Lx.ws hg (lx_dot hd)).getP (by simpa [TmArg.text] using hs)
    refine ⟨1, s', fun f hf => ?_, h3.peek⟩
    obtain ⟨f, rfl, -⟩ := fuelSucc hf
    simp [scanArg, h1, h2, compArg]
  | .attr a fs, ha =>
    have hend : (tmFieldsText fs ++ R) ≠ [] ∧
        ∀ d t, tmFieldsText fs ++ R = d :: t → attrCh d = false := by
      cases fs with
      | nil => exact ⟨hR1, fun d t e => (hR2 d t e).2⟩
      | cons b fs =>
        refine ⟨by simp [tmFieldsText], fun d t e => ?_⟩
        simp [tmFieldsText] at e
        rw [← e.1]; decide
    obtain ⟨s1, h1, h2, h3⟩ := (Lx.ws hg (lx_attr ha.1 hend.1 hend.2)).getP
      (by simpa [TmArg.text] using hs)
    obtain ⟨N, s', h4, h5⟩ := attrs_ok fs ha.2 R hR (.attr a) s1 h3
    refine ⟨N + 1, s', fun f hf => ?_, h5⟩
    obtain ⟨f, rfl, hf⟩ := fuelSucc hf
    simp [scanArg, h1, h2, compArg, h4 f (by omega)]
  | .var a fs, ha =>
    have hend : (tmFieldsText fs ++ R) ≠ [] ∧
        ∀ d t, tmFieldsText fs ++ R = d :: t → identCh d = false := by
      cases fs with
      | nil => exact ⟨hR1, fun d t e => (hR2 d t e).1⟩
      | cons b fs =>
        refine ⟨by simp [tmFieldsText], fun d t e => ?_⟩
        simp [tmFieldsText] at e
        rw [← e.1]; decide
    obtain ⟨s1, h1, h2, h3⟩ := (Lx.ws hg (lx_var ha.1 hend.1 hend.2)).getP
      (by simpa [TmArg.text] using hs)
    obtain ⟨N, s', h4, h5⟩ := attrs_ok fs ha.2 R hR (.var a) s1 h3
    refine ⟨N + 1, s', fun f hf => ?_, h5⟩
    obtain ⟨f, rfl, hf⟩ := fuelSucc hf
    simp [scanArg, h1, h2, compArg, h4 f (by omega)]
  | .paren g1 p g2 fs, ha =>
    obtain ⟨hg1, hp, hg2, hfs⟩ := ha
    obtain ⟨s1, h1, h2, h3⟩ := (Lx.ws hg (lx_ch (c := 40) (by decide))).getP
      (R := g ++ 40 :: (g1 ++ (p.text ++ (g2 ++ b!")" ++ (tmFieldsText fs ++ R)))))
      (by simpa [TmArg.text] using hs)
    obtain ⟨N1, s2, h4, h5, h6⟩ := pipe_ok p hp g1 _ hg1 _ _ (stop_paren hg2) (by simp) s1 h3.peek
    obtain ⟨N2, s', h7, h8⟩ := attrs_ok fs hfs R hR (.pipe (compPipe p)) s2 h6
    refine ⟨N1 + N2 + 1, s', fun f hf => ?_, h8⟩
    obtain ⟨f, rfl, hf⟩ := fuelSucc hf
    simp [scanArg, h1, h2, compArg, h4 f (by omega), h5, h7 f (by omega)]
theorem args_ok (as : TmArgs) (ha : as.Ok) (R : Bytes) (T : TTok) (r' : Bytes) (hR : Stop R T r')
    (s : TIn) (hs : Peek s (as.text ++ R)) :
    ∃ N s', (∀ f, N ≤ f → scanArgs f s = .ok (s', compArgs as)) ∧ Peek s' R := by
  match as, ha with
  | .nil, ha =>
    simp only [TmArgs.text, List.nil_append] at hs
    obtain ⟨s1, h1, h2, h3⟩ := hR.lx.getP hs
    obtain ⟨hp1, hp2⟩ := putback_peek hs h1 h3.1 (h2 ▸ stop_tok hR.tok)
    refine ⟨2, _, fun f hf => ?_, hp2⟩
    obtain ⟨f, rfl⟩ : ∃ g, f = g + 2 := ⟨f - 2, by omega⟩
    rcases hR.tok with rfl | rfl | rfl <;> simp [scanArgs, scanArg, h1, h2, hp1, compArgs]
  | .cons g a as, ha =>
    obtain ⟨hg0, hg, ha1, ha2⟩ := ha
    obtain ⟨N1, s1, h1, h2⟩ := arg_ok a ha1 g (as.text ++ R) hg (args_follow ha2 hR.follow) s
      (by simpa [TmArgs.text] using hs)
    obtain ⟨N2, s', h3, h4⟩ := args_ok as ha2 R T r' hR s1 h2
    refine ⟨N1 + N2 + 1, s', fun f hf => ?_, h4⟩
    obtain ⟨f, rfl, hf⟩ := fuelSucc hf
    simp [scanArgs, h1 f (by omega), h3 f (by omega), compArgs]
theorem cmd_ok (c : TmCmd) (hc : c.Ok) (g R : Bytes) (hg : TmWs g) (T : TTok) (r' : Bytes)
    (hR : Stop R T r') (s : TIn) (hs : Peek s (g ++ (c.text ++ R))) :
    ∃ N s', (∀ f, N ≤ f → scanArg f s = .ok (s', false, [compCmd c])) ∧ Peek s' R := by
  match c, hc with
  | .arg a, hc =>
    obtain ⟨N, s', h1, h2⟩ := arg_ok a hc g R hg hR.follow s (by simpa [TmCmd.text] using hs)
    exact ⟨N, s', by simpa [compCmd] using h1, h2⟩
  | .call f as, hc =>
    obtain ⟨hf1, hf2, hf3, c, w, hcw, hal, hid⟩ := funName_ok f
    obtain ⟨hF1, hF2⟩ := follow_ident (args_follow hc hR.follow)
    obtain ⟨s1, h1, h2, h3⟩ := (Lx.ws hg (lx_ident hal hid hF1 (fun d t e => (hF2 d t e).1))).getP
      (by rw [← hcw]; simpa [TmCmd.text] using hs)
    rw [← hcw] at h2
    obtain ⟨N, s', h4, h5⟩ := args_ok as hc R T r' hR s1 h3.peek
    refine ⟨N + 1, s', fun n hn => ?_, h5⟩
    obtain ⟨n, rfl, hn⟩ := fuelSucc hn
    simp only [scanArg, h1, tout_bind_ok, h2, if_neg hf2, if_neg hf3, hf1, h4 n (by omega), tout_pure, compCmd]
theorem pipe_ok (p : TmPipe) (hp : p.Ok) (g R : Bytes) (hg : TmWs g) (T : TTok) (r' : Bytes)
    (hR : Stop R T r') (hT : T ≠ .ch 124) (s : TIn) (hs : Peek s (g ++ (p.text ++ R))) :
    ∃ N s', (∀ f, N ≤ f → scanPipe f s = .ok (s', compPipe p)) ∧ s'.tok = T ∧ At s' r' := by
  match p, hp with
  | .one c, hp =>
    obtain ⟨N, s1, h1, h2⟩ := cmd_ok c hp g R hg T r' hR s (by simpa [TmPipe.text] using hs)
    obtain ⟨s', h3, h4, h5⟩ := hR.lx.getP h2
    refine ⟨N + 1, s', fun f hf => ?_, h4, h5⟩
    obtain ⟨f, rfl, hf⟩ := fuelSucc hf
    simp [scanPipe, h1 f (by omega), h3, h4, hT, compPipe]
  | .more c g1 g2 p, hp =>
    obtain ⟨hc, hg1, hg2, hp⟩ := hp
    obtain ⟨N1, s1, h1, h2⟩ := cmd_ok c hc g (g1 ++ b!"|" ++ (g2 ++ (p.text ++ R))) hg _ _
      (stop_pipe (g' := g2) hg1) s (by simpa [TmPipe.text] using hs)
    obtain ⟨s2, h3, h4, h5⟩ := (stop_pipe (g' := g2) hg1).lx.getP h2
    obtain ⟨N2, s', h6, h7, h8⟩ := pipe_ok p hp g2 R hg2 T r' hR hT s2 h5.peek
    refine ⟨N1 + N2 + 1, s', fun f hf => ?_, h7, h8⟩
    obtain ⟨f, rfl, hf⟩ := fuelSucc hf
    simp [scanPipe, h1 f (by omega), h3, h4, h6 f (by omega), compPipe]
end

theorem stop_close {c : TmClose} {r : Bytes} (hc : c.Ok) :
    Stop (c.text ++ r) .fin (dropIf c.trims r) :=
  ⟨close_follow hc, lx_close hc, Or.inl rfl⟩

end Pound
