import Verif.Proof.TmplScan

/-! Every well-formed template is read as its actions -/

namespace Pound

open Spec

/-! Defined templates -/

theorem lookup_map (d : List (Bytes × List TAct)) (n m : Bytes) (as : List TAct) :
    tmplLookup (d.map (fun p => if p.1 = n then (p.1, as) else p)) m =
      if m = n then (tmplLookup d n).map (fun _ => as) else tmplLookup d m := by
  induction d with
  | nil => simp [tmplLookup]
  | cons p d ih =>
    simp only [tmplLookup, List.map_cons, List.find?_cons] at ih ⊢
    by_cases hp : p.1 = n
    · rw [if_pos hp]
      by_cases hm : m = n
      · subst hm; simp [hp]
      · have h1 : (p.1 == m) = false := by simp [hp]; exact fun h => hm h.symm
        rw [if_neg hm] at ih ⊢
        simpa [h1] using ih
    · rw [if_neg hp]
      by_cases hm : m = n
      · subst hm
        have h1 : (p.1 == m) = false := by simpa using hp
        simpa [h1] using ih
      · rw [if_neg hm] at ih ⊢
        by_cases h1 : (p.1 == m) = true
        · simp [h1]
        · simp only [Bool.not_eq_true] at h1
          simpa [h1] using ih

theorem lookup_define (d : List (Bytes × List TAct)) (n m : Bytes) (as : List TAct) :
    tmplLookup (tmplDefine d n as) m = if m = n then some as else tmplLookup d m := by
  simp only [tmplDefine]
  split
  · next h =>
    rw [lookup_map]
    obtain ⟨a, ha⟩ := Option.isSome_iff_exists.mp h
    simp [ha]
  · next h =>
    simp only [Bool.not_eq_true, Option.isSome_eq_false_iff, Option.isNone_iff_eq_none] at h
    simp only [tmplLookup, List.find?_append]
    by_cases hm : m = n
    · subst hm
      simp only [tmplLookup, Option.map_eq_none_iff] at h
      simp [h]
    · have h1 : (n == m) = false := by simp; exact fun h => hm h.symm
      simp [hm, h1]

/-- The defined templates have these names. -/
def Named (d : List (Bytes × List TAct)) (ns : List Bytes) : Prop :=
  ∀ n, (tmplLookup d n).isSome ↔ n ∈ ns

theorem Named.define {d ns} (h : Named d ns) (n as) : Named (tmplDefine d n as) (ns ++ [n]) := by
  intro m
  rw [lookup_define]
  by_cases hm : m = n
  · simp [hm]
  · simp [hm, h m]

theorem Named.after {d ns} (h : Named d ns) (ds : List TmDef) :
    Named (defsAfter d ds) (ns ++ ds.map (·.name)) := by
  induction ds generalizing d ns with
  | nil => simpa [defsAfter] using h
  | cons t ds ih =>
    have := ih (h.define t.name (compBody t.l t.r t.body))
    simpa [defsAfter] using this

mutual
theorem body_names : ∀ b : TmBody, b.defs.map (·.name) = b.names
  | .done _ => rfl
  | .item _ i b => by simp [TmBody.defs, TmBody.names, item_names i, body_names b]
theorem item_names : ∀ i : TmItem, i.defs.map (·.name) = i.names
  | .cond _ _ _ _ b t => by simp [TmItem.defs, TmItem.names, tail_names t, body_names b]
  | .wth _ _ _ _ _ b t => by simp [TmItem.defs, TmItem.names, tail_names t, body_names b]
  | .range _ _ _ _ _ b t => by simp [TmItem.defs, TmItem.names, tail_names t, body_names b]
  | .define _ _ n c b o' _ => by simp [TmItem.defs, TmItem.names, body_names b]
  | .block _ _ n _ _ c b o' _ => by simp [TmItem.defs, TmItem.names, body_names b]
  | .empty _ _ => rfl
  | .trims _ => rfl
  | .print _ _ _ => rfl
  | .template _ _ _ _ _ _ => rfl
  | .brk _ _ => rfl
  | .cont _ _ => rfl
theorem tail_names : ∀ t : TmTail, t.defs.map (·.name) = t.names
  | .fin _ _ => rfl
  | .els _ _ b _ _ => by simp [TmTail.defs, TmTail.names, body_names b]
  | .elif _ _ _ _ _ b t => by simp [TmTail.defs, TmTail.names, tail_names t, body_names b]
end

theorem Named.body {d ns} (h : Named d ns) (b : TmBody) :
    Named (defsAfter d b.defs) (ns ++ b.names) := body_names b ▸ h.after b.defs
theorem Named.item {d ns} (h : Named d ns) (i : TmItem) :
    Named (defsAfter d i.defs) (ns ++ i.names) := item_names i ▸ h.after i.defs

/-! Starts of actions -/

theorem nomark_close {c : TmClose} (hc : c.Ok) (X : Bytes) : NoMark (c.text ++ X) := by
  rintro ⟨h, h2⟩
  obtain ⟨ws, tr⟩ := c
  have h45 : ¬ TmSpace 45 := by decide
  cases ws with
  | cons a ws =>
    simp [TmClose.text] at h
    subst h
    exact h45 (hc.1 _ (by simp))
  | nil =>
    cases tr with
    | none => simp [TmClose.text] at h
    | some a =>
      simp [TmClose.text] at h
      subst h
      exact h45 (hc.2 _ rfl)

theorem nomark_cons {c : UInt8} (h : c ≠ 45) (X : Bytes) : NoMark (c :: X) := by
  rintro ⟨h1, -⟩
  exact h h1

theorem Scans.trims {sp : UInt8} (hsp : TmSpace sp) {R loc inh d R' d' as es T}
    (K : Scans loc inh (dropIf true R) d R' d' as es T) :
    Scans loc inh (b!"{{-" ++ [sp] ++ b!"-}}" ++ R) d R' d' as es T := by
  intro s hs hd
  obtain ⟨h1, h2, h3⟩ := hs
  have hi := isSpace_of hsp
  let i : TIn := { s.inp with back := [sp, 45, 123, 123] ++ s.inp.back
                              rest := 45 :: 125 :: 125 :: R
                              tok := .beg }
  have hg : gettext s.inp = .ok i := by
    simp [gettext, h3, splitBeg, trimMark, hi, i]
  have hat : At i (45 :: 125 :: 125 :: R) := ⟨h1, h2, rfl, by simp [i]⟩
  obtain ⟨j, -, g2, g3, g4⟩ := trimfin_from hat hi (fun _ => .hang)
  have hj : gettok i = .ok j := by
    have h45 : isSpace 45 = false := by decide
    have hr : i.ready = false := h1
    have hrest : i.rest = 45 :: 125 :: 125 :: R := rfl
    simp only [gettok, hr, Bool.false_eq_true, if_false]
    generalize i.rest.length = m
    simp only [tLexTok, hrest, List.takeWhile_cons, List.dropWhile_cons, h45, Bool.false_eq_true,
      if_false]
    exact g4 _
  obtain ⟨N, s', k1, k2⟩ := K { s with inp := j } (At.t (s := { s with inp := j }) g3) hd
  refine ⟨N + 1, s', fun f hf => ?_, k2⟩
  obtain ⟨f, rfl⟩ : ∃ g, f = g + 1 := ⟨f - 1, by omega⟩
  have hb : i.tok = .beg := rfl
  simp only [scanAction, hg, tout_bind_ok, hb, TPs.tok, hj, tout_pure, g2]
  exact k1 f (by omega)

/-- {{end}} -/
theorem Scans.end {o : TmOpen} {c : TmClose} (ho : o.Ok) (hc : c.Ok) {loc : TLoc}
    (hl : loc ≠ .none) {inh R d} :
    Scans loc inh (o.text ++ (b!"end" ++ (c.text ++ R))) d (dropIf c.trims R) d [] [] .fin := by
  refine Scans.kwFin (p := .end_) ho (nomark_cons (by decide) _)
    (lx_kw (c := 101) (w := [110, 100]) (by decide) (by decide) (close_follow hc)) ?_ (TRuns.end hc)
  cases loc <;> cases inh <;> first | exact absurd rfl hl | decide

/-- The text of an action starts with "{{". -/
theorem item_beg (i : TmItem) (X : Bytes) : Beg (i.text ++ X) := by
  cases i <;> simp only [TmItem.text, List.append_assoc] <;> first | exact open_beg _ _ | exact ⟨_, rfl⟩

theorem tail_beg (t : TmTail) (X : Bytes) : Beg (t.text ++ X) := by
  cases t <;> simp only [TmTail.text, List.append_assoc] <;> exact open_beg _ _

theorem item_mark {i : TmItem} {pl ns} (hi : i.Ok pl ns) (X : Bytes) :
    trimMark (i.text ++ X) = i.trimsBefore := by
  cases i with
  | trims sp =>
    have := isSpace_of hi
    simp [TmItem.text, TmItem.trimsBefore, trimMark, this]
  | empty o c =>
    simp only [TmItem.text, List.append_assoc]
    exact open_mark hi.1 (nomark_close hi.2 _)
  | print o p c =>
    simp only [TmItem.text, List.append_assoc]
    obtain ⟨_, _, -, -, h⟩ := pipe_first p hi.2.1 (c.text ++ X) (close_follow hi.2.2)
    exact open_mark hi.1 h
  | _ =>
    simp only [TmItem.text, List.append_assoc]
    exact open_mark hi.1 (nomark_cons (by decide) _)

theorem tail_mark {t : TmTail} {pl ns} (ht : t.Ok pl ns) (X : Bytes) :
    trimMark (t.text ++ X) = t.trimsBefore := by
  cases t <;> simp only [TmTail.text, List.append_assoc] <;>
    exact open_mark ht.1 (nomark_cons (by decide) _)

theorem end_mark {o : TmOpen} (ho : o.Ok) (X : Bytes) :
    trimMark (o.text ++ (b!"end" ++ X)) = o.trims := open_mark ho (nomark_cons (by decide) _)

mutual
theorem body_scan (b : TmBody) (pl ns) (hb : b.Ok pl ns) (loc : TLoc) (inh : Bool)
    (hpl : pl ≠ .out → inh = true) (l : Bool) (r : Bytes) (hr : r = [] ∨ Beg r) (d R' d' as es T)
    (hd : Named d ns) (K : Scans loc inh r (defsAfter d b.defs) R' d' as es T) :
    Scans loc inh (dropIf l (b.text ++ r)) d R' d' (compBody l (trimMark r) b ++ as) es T := by
  match b, hb with
  | .done t, hb => exact K.text hr hb l
  | .item t i b, hb =>
    obtain ⟨ht, hi, hb⟩ := hb
    rw [TmBody.defs, defsAfter_append] at K
    have h1 := body_scan b pl _ hb loc inh hpl i.trimsAfter r hr _ _ _ _ _ _ (hd.item i) K
    have h2 := item_scan i pl ns hi loc inh hpl (b.text ++ r) d _ _ _ _ _ hd h1
    have h3 := h2.text (Or.inr (item_beg i _)) ht l
    rw [item_mark hi] at h3
    simpa [TmBody.text, compBody] using h3
theorem item_scan (i : TmItem) (pl ns) (hi : i.Ok pl ns) (loc : TLoc) (inh : Bool)
    (hpl : pl ≠ .out → inh = true) (R : Bytes) (d R' d' as es T)
    (hd : Named d ns) (K : Scans loc inh (dropIf i.trimsAfter R) (defsAfter d i.defs) R' d' as es T) :
    Scans loc inh (i.text ++ R) d R' d' (compItem i ++ as) es T := by
  have hin : pl.inner ≠ .out → inh = true := by
    intro h; apply hpl; rintro rfl; exact h rfl
  match i, hi with
  | .empty o c, hi =>
    obtain ⟨ho, hc⟩ := hi
    simp only [TmItem.text, List.append_assoc]
    exact Scans.empty ho (nomark_close hc _) (lx_close hc) K
  | .trims sp, hi => exact Scans.trims hi K
  | .print o p c, hi =>
    obtain ⟨ho, hp, hc⟩ := hi
    simp only [TmItem.text, List.append_assoc]
    exact Scans.print ho hp hc K
  | .cond o g p c b t, hi =>
    obtain ⟨ho, hg, hp, hc, hb, ht⟩ := hi
    simp only [TmItem.text, List.append_assoc]
    rw [TmItem.defs, defsAfter_append] at K
    have h1 := tail_scan t _ _ ht .cond inh hin (Or.inl rfl) R (defsAfter d b.defs) (hd.body b)
    have h2 := body_scan b _ ns hb .cond inh hin c.trims _ (Or.inr (tail_beg t R)) d _ _ _ _ _ hd h1
    rw [tail_mark ht, List.append_nil] at h2
    refine Scans.kw (p := .if_) ho (nomark_cons (by decide) _)
      (lx_kw (c := 105) (w := [102]) (by decide) (by decide) (gap_follow hg)) ?_
      (TRuns.if hg.2 hp hc h2) K
    cases loc <;> cases inh <;> decide
  | .wth o g v p c b t, hi =>
    obtain ⟨ho, hg, hv, hp, hc, hb, ht, hne⟩ := hi
    simp only [TmItem.text, List.append_assoc]
    rw [TmItem.defs, defsAfter_append] at K
    have h1 := tail_scan t _ _ ht .wth inh hin (Or.inr ⟨rfl, hne⟩) R (defsAfter d b.defs) (hd.body b)
    have h2 := body_scan b _ ns hb .wth inh hin c.trims _ (Or.inr (tail_beg t R)) d _ _ _ _ _ hd h1
    rw [tail_mark ht, List.append_nil] at h2
    refine Scans.kw (p := .with_) ho (nomark_cons (by decide) _)
      (lx_kw (c := 119) (w := [105, 116, 104]) (by decide) (by decide) (gap_follow hg)) ?_
      (TRuns.with hg.2 hv hp hc h2) K
    cases loc <;> cases inh <;> decide
  | .range o g v p c b t, hi =>
    obtain ⟨ho, hg, hv, hp, hc, hb, ht, hne⟩ := hi
    simp only [TmItem.text, List.append_assoc]
    rw [TmItem.defs, defsAfter_append] at K
    have h1 := tail_scan t _ _ ht .wth true (fun _ => rfl) (Or.inr ⟨rfl, hne⟩) R
      (defsAfter d b.defs) (hd.body b)
    have h2 := body_scan b _ ns hb .wth true (fun _ => rfl) c.trims _ (Or.inr (tail_beg t R)) d
      _ _ _ _ _ hd h1
    rw [tail_mark ht, List.append_nil] at h2
    refine Scans.kw (p := .range_) ho (nomark_cons (by decide) _)
      (lx_kw (c := 114) (w := [97, 110, 103, 101]) (by decide) (by decide) (gap_follow hg)) ?_
      (TRuns.range hg.2 hv hp hc h2) K
    cases loc <;> cases inh <;> decide
  | .define o g n c b o' c', hi =>
    obtain ⟨ho, hg, hn, hc, hb, ho', hc'⟩ := hi
    simp only [TmItem.text, List.append_assoc]
    have h1 := Scans.end ho' hc' (loc := .fin) (by simp) (inh := false) (R := R)
      (d := defsAfter d b.defs)
    have h2 := body_scan b _ ns hb .fin false (fun h => absurd rfl h) c.trims _
      (Or.inr (open_beg o' _)) d _ _ _ _ _ hd h1
    rw [end_mark ho', List.append_nil] at h2
    refine Scans.kw (p := .define_) ho (nomark_cons (by decide) _)
      (lx_kw (c := 100) (w := [101, 102, 105, 110, 101]) (by decide) (by decide) (gap_follow hg)) ?_
      (TRuns.define hn hg.2 hc h2) ?_
    · cases loc <;> cases inh <;> decide
    · simpa [TmItem.defs, TmItem.trimsAfter, defsAfter_append, defsAfter] using K
  | .block o g n g' p c b o' c', hi =>
    obtain ⟨ho, hg, hn, hg', hp, hc, hns, hb, ho', hc'⟩ := hi
    simp only [TmItem.text, List.append_assoc]
    have h1 := Scans.end ho' hc' (loc := .fin) (by simp) (inh := false) (R := R)
      (d := defsAfter d b.defs)
    have h2 := body_scan b _ ns hb .fin false (fun h => absurd rfl h) c.trims _
      (Or.inr (open_beg o' _)) d _ _ _ _ _ hd h1
    rw [end_mark ho', List.append_nil] at h2
    have hl : tmplLookup d (tmStr n) = none := by
      cases h : tmplLookup d (tmStr n) with
      | none => rfl
      | some a => exact absurd ((hd (tmStr n)).mp (by simp [h])) hns
    refine Scans.kw (p := .block_) ho (nomark_cons (by decide) _)
      (lx_kw (c := 98) (w := [108, 111, 99, 107]) (by decide) (by decide) (gap_follow hg)) ?_
      (TRuns.block hn hg.2 hg'.2 hp hc hl h2) ?_
    · cases loc <;> cases inh <;> decide
    · simpa [TmItem.defs, TmItem.trimsAfter, defsAfter_append, defsAfter] using K
  | .template o g n g' p c, hi =>
    obtain ⟨ho, hg, hn, hg', hp, hc, hns⟩ := hi
    simp only [TmItem.text, List.append_assoc]
    refine Scans.kw (p := .template_) ho (nomark_cons (by decide) _)
      (lx_kw (c := 116) (w := [101, 109, 112, 108, 97, 116, 101]) (by decide) (by decide)
        (gap_follow hg)) ?_
      (TRuns.template hn hg.2 hg'.2 hp hc ((hd _).mpr hns)) K
    cases loc <;> cases inh <;> decide
  | .brk o c, hi =>
    obtain ⟨ho, hc, hp⟩ := hi
    simp only [TmItem.text, List.append_assoc]
    refine Scans.kw (p := .break_) ho (nomark_cons (by decide) _)
      (lx_kw (c := 98) (w := [114, 101, 97, 107]) (by decide) (by decide) (close_follow hc)) ?_
      (TRuns.break hc) K
    rw [hpl hp]
    cases loc <;> decide
  | .cont o c, hi =>
    obtain ⟨ho, hc, hp⟩ := hi
    simp only [TmItem.text, List.append_assoc]
    refine Scans.kw (p := .continue_) ho (nomark_cons (by decide) _)
      (lx_kw (c := 99) (w := [111, 110, 116, 105, 110, 117, 101]) (by decide) (by decide)
        (close_follow hc)) ?_
      (TRuns.continue hc) K
    rw [hpl (by rw [hp]; simp)]
    cases loc <;> decide
theorem tail_scan (t : TmTail) (pl ns) (ht : t.Ok pl ns) (loc : TLoc) (inh : Bool)
    (hpl : pl ≠ .out → inh = true) (hl : loc = .cond ∨ (loc = .wth ∧ t.NoElif)) (R : Bytes) (d)
    (hd : Named d ns) :
    Scans loc inh (t.text ++ R) d (dropIf t.trimsAfter R) (defsAfter d t.defs) [] (compTail t)
      .fin := by
  match t, ht with
  | .fin o c, ht =>
    obtain ⟨ho, hc⟩ := ht
    simp only [TmTail.text, List.append_assoc]
    exact Scans.end ho hc (by rcases hl with rfl | ⟨rfl, -⟩ <;> simp)
  | .els o c b o' c', ht =>
    obtain ⟨ho, hc, hb, ho', hc'⟩ := ht
    simp only [TmTail.text, List.append_assoc]
    have h1 := Scans.end ho' hc' (loc := .fin) (by simp) (inh := inh) (R := R)
      (d := defsAfter d b.defs)
    have h2 := body_scan b _ ns hb .fin inh hpl c.trims _
      (Or.inr (open_beg o' _)) d _ _ _ _ _ hd h1
    rw [end_mark ho', List.append_nil] at h2
    rcases hl with rfl | ⟨rfl, -⟩
    · refine Scans.kwFin (p := .elseif) ho (nomark_cons (by decide) _)
        (lx_kw (c := 101) (w := [108, 115, 101]) (by decide) (by decide) (close_follow hc)) ?_
        (TRuns.else hc (Or.inl rfl) h2)
      cases inh <;> decide
    · refine Scans.kwFin (p := .elsewith) ho (nomark_cons (by decide) _)
        (lx_kw (c := 101) (w := [108, 115, 101]) (by decide) (by decide) (close_follow hc)) ?_
        (TRuns.else hc (Or.inr rfl) h2)
      cases inh <;> decide
  | .elif o g g' p c b t, ht =>
    obtain ⟨ho, hg, hg', hp, hc, hb, ht⟩ := ht
    simp only [TmTail.text, List.append_assoc]
    rcases hl with rfl | ⟨-, h⟩
    · have h1 := tail_scan t _ _ ht .cond inh hpl (Or.inl rfl) R (defsAfter d b.defs) (hd.body b)
      have h2 := body_scan b _ ns hb .cond inh hpl c.trims _ (Or.inr (tail_beg t R)) d
        _ _ _ _ _ hd h1
      rw [tail_mark ht, List.append_nil] at h2
      have h3 := TRuns.elseIf hg.2 (gap_follow hg') (TRuns.if hg'.2 hp hc h2)
      rw [← defsAfter_append] at h3
      refine Scans.kwFin (p := .elseif) ho (nomark_cons (by decide) _)
        (lx_kw (c := 101) (w := [108, 115, 101]) (by decide) (by decide) (gap_follow hg)) ?_ h3
      cases inh <;> decide
    · exact absurd h (by simp [TmTail.NoElif])
end

/-- The end of the text -/
theorem Scans.eof {loc inh d} : Scans loc inh [] d [] d [] [] .eof := by
  intro s hs hd
  obtain ⟨⟨b, r, t, rd, e⟩, ds, dg⟩ := s
  obtain ⟨h1, h2, h3⟩ := hs
  simp only at h1 h2 h3 hd
  subst h1 h2 h3 hd
  refine ⟨1, ⟨⟨b, [], .eof, false, none⟩, ds, dg⟩, fun f hf => ?_, rfl, ⟨rfl, rfl, rfl⟩, rfl⟩
  obtain ⟨f, rfl⟩ : ∃ g, f = g + 1 := ⟨f - 1, by omega⟩
  simp [scanAction, gettext, splitBeg, gettok, tLexTok, trimMark]

/-- A well-formed template is read as its actions. -/
theorem template_scan (b : TmBody) (hb : b.Ok .out []) :
    ∃ N, ∀ f, N ≤ f →
      templateParse f [] b.text = .ok (defsAfter [] b.defs, .ok (compBody false false b)) := by
  have h1 := body_scan b .out [] hb .none false (fun h => absurd rfl h) false [] (Or.inl rfl) []
    _ _ _ _ _ (by simp [Named, tmplLookup]) Scans.eof
  obtain ⟨N, s', k1, -, k3, k4⟩ := h1 ⟨tInit b.text, [], false⟩
    ⟨rfl, rfl, by simp [tInit, dropIf]⟩ rfl
  refine ⟨N, fun f hf => ?_⟩
  have hm : trimMark [] = false := by simp [trimMark]
  rw [hm, List.append_nil] at k1
  simp [templateParse, k1 f hf, k3.2.1, k4]

end Pound
