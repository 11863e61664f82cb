import Verif.Proof.Headers
import Verif.Proof.Request
import Verif.Model.Exchange
import Verif.Spec.Exchange

namespace Pound
open Spec

/-! ### Header codes -/

theorem find_ci (l : List (Bytes × HCode)) (n : Bytes) (e : Bytes × HCode) (he : e ∈ l)
    (hp : l.Pairwise fun a b => ciEq a.1 b.1 = false) (hn : ciEq n e.1 = true) :
    l.find? (fun t => ciEq n t.1) = some e := by
  induction l with
  | nil => cases he
  | cons a l ih =>
    rw [List.pairwise_cons] at hp
    rcases List.mem_cons.1 he with rfl | he
    · simp [hn]
    · have : ciEq n a.1 = false := by
        cases h : ciEq n a.1 with
        | false => rfl
        | true =>
          have := ciEq_trans (ciEq_symm h) hn
          rw [hp.1 e he] at this; cases this
      rw [List.find?_cons_of_neg (by simp [this])]
      exact ih he hp.2

def codeOf (n : Bytes) : HCode :=
  match hdTypes.find? (fun t => ciEq n t.1) with
  | some t => t.2
  | none => .other

theorem hdTypes_pairwise : hdTypes.Pairwise fun a b => ciEq a.1 b.1 = false := by decide
theorem hdTypes_inj : ∀ a ∈ hdTypes, ∀ b ∈ hdTypes, a.2 = b.2 → a = b := by decide
theorem hdTypes_not_other : ∀ a ∈ hdTypes, a.2 ≠ .other := by decide

theorem codeOf_iff {e : Bytes × HCode} (he : e ∈ hdTypes) (n : Bytes) :
    codeOf n = e.2 ↔ ciEq n e.1 = true := by
  unfold codeOf
  constructor
  · intro h
    split at h
    · rename_i t ht
      have h1 := List.find?_some ht
      have h2 := List.mem_of_find?_eq_some ht
      rw [← hdTypes_inj t h2 e he h]; exact h1
    · exact absurd h.symm (hdTypes_not_other e he)
  · intro h
    rw [find_ci _ _ _ he hdTypes_pairwise h]

theorem qualify_code {h0 : Header} (hg : Good (qualify h0)) :
    (qualify h0).code = codeOf (qualify h0).name := by
  have hl := hg.line
  unfold qualify at *
  cases hm : headerMatch h0.text with
  | none => rw [hm] at hg; exact absurd rfl hg.1
  | some p =>
    rw [hm] at hl
    simp only [length_beq_ciEq]
    simp only [Header.name, List.drop_zero, Nat.sub_zero]
    rfl

/-- A header as produced by `qualify_header`. -/
def Fine (h : Header) : Prop := Good h ∧ h.code = codeOf h.name

theorem change_fine {h : Header} {t n v : Bytes} (hl : HeaderLine t n v) : Fine (h.change t) := by
  have := (change_good (h := h) hl).1
  exact ⟨this, qualify_code this⟩

theorem alloc_fine {t n v : Bytes} (hl : HeaderLine t n v) : Fine (headerAlloc t) := by
  have := (alloc_good hl).1
  exact ⟨this, qualify_code this⟩

theorem foldl_fine (table : List Bytes) (lines : List Bytes) (hs : List RdHeader)
    (hg : ∀ e ∈ hs, e.hdr.code = codeOf e.hdr.name) :
    ∀ e ∈ lines.foldl (readHeaderStep table) hs, e.hdr.code = codeOf e.hdr.name := by
  induction lines generalizing hs with
  | nil => exact hg
  | cons l t ih =>
    apply ih
    unfold readHeaderStep
    dsimp only
    split
    · exact hg
    · rename_i hleg
      have hex : ∃ n v, HeaderLine l n v :=
        Classical.byContradiction fun h => hleg (qualify_illegal.2 h)
      obtain ⟨n, v, hl⟩ := hex
      have hadd : ∀ c, ∀ e ∈ hs ++ [⟨headerAlloc l, c⟩], e.hdr.code = codeOf e.hdr.name := by
        intro c e he
        rcases List.mem_append.1 he with he | he
        · exact hg e he
        · simp at he; subst he; exact (alloc_fine hl).2
      split
      · split
        · rename_i hs' ha
          -- the headers are the same
          have : ∀ (hs hs' : List RdHeader) h, addComposed hs h = some hs' →
              ∀ e ∈ hs', ∃ e' ∈ hs, e.hdr = e'.hdr := by
            intro hs
            induction hs with
            | nil => intro hs' h ha; simp [addComposed] at ha
            | cons x xs ihx =>
              intro hs' h ha
              unfold addComposed at ha
              have hrec : ∀ t', addComposed xs h = some t' → ∀ y ∈ x :: t', ∃ e' ∈ x :: xs, y.hdr = e'.hdr := by
                intro t' ht' y hy
                rcases List.mem_cons.1 hy with rfl | hy
                · exact ⟨y, by simp, rfl⟩
                · obtain ⟨e', h1, h2⟩ := ihx t' h ht' y hy
                  exact ⟨e', by simp [h1], h2⟩
              split at ha
              · split at ha
                · injection ha with ha
                  subst ha
                  intro y hy
                  rcases List.mem_cons.1 hy with rfl | hy
                  · exact ⟨x, by simp, rfl⟩
                  · exact ⟨y, by simp [hy], rfl⟩
                · simp only [Option.map_eq_some_iff] at ha
                  obtain ⟨t', h1, rfl⟩ := ha
                  exact hrec t' h1
              · simp only [Option.map_eq_some_iff] at ha
                obtain ⟨t', h1, rfl⟩ := ha
                exact hrec t' h1
          intro e he
          obtain ⟨e', h1, h2⟩ := this _ _ _ ha e he
          rw [h2]; exact hg e' h1
        · exact hadd _
      · exact hadd _

theorem buildHeaders_fine (table : List Bytes) (lines : List Bytes) :
    ∀ h ∈ buildHeaders table lines, Fine h := by
  intro h hh
  have hg := buildHeaders_good table lines h hh
  refine ⟨hg, ?_⟩
  unfold buildHeaders at hh
  obtain ⟨e, he, rfl⟩ := List.mem_map.1 hh
  have h1 := foldl_fine table lines [] (by simp) e he
  unfold finishHeader at hg ⊢
  cases hc : e.comp with
  | none => exact h1
  | some sb => rw [hc] at hg; exact qualify_code hg

theorem Fine.code_iff {h : Header} (hf : Fine h) {e : Bytes × HCode} (he : e ∈ hdTypes) :
    h.code = e.2 ↔ Named h.text e.1 := by
  rw [hf.2, codeOf_iff he, hf.1.named]

/-! ### Values by name -/

/-- Values of the headers with the code. -/
def valsOf (c : HCode) (hs : List Header) : List Bytes :=
  (hs.filter (·.code == c)).map (·.rawValue)

theorem values_valsOf {e : Bytes × HCode} (he : e ∈ hdTypes) {hs : List Header} (hf : ∀ h ∈ hs, Fine h) :
    Values e.1 (hs.map (·.text)) (valsOf e.2 hs) := by
  induction hs with
  | nil => exact .nil
  | cons h t ih =>
    have hh := hf h (by simp)
    have ih := ih fun x hx => hf x (by simp [hx])
    unfold valsOf at *
    simp only [List.map_cons, List.filter_cons]
    by_cases hc : h.code = e.2
    · simp only [hc, beq_self_eq_true, if_true, List.map_cons]
      refine .hit hh.1.line ?_ ih
      rw [← codeOf_iff he, ← hh.2, hc]
    · have : (h.code == e.2) = false := by simpa using hc
      simp only [this, Bool.false_eq_true, if_false]
      exact .miss (fun hn => hc ((hh.code_iff he).2 hn)) ih

theorem values_det {name : Bytes} {ts vs vs' : List Bytes} (h : Values name ts vs) (h' : Values name ts vs') :
    vs = vs' := by
  induction h generalizing vs' with
  | nil => cases h'; rfl
  | hit hl hn _ ih =>
    cases h' with
    | hit hl' hn' h' => rw [ih h', (line_unique hl hl').2]
    | miss hnn _ => exact absurd ⟨_, _, hl, hn⟩ hnn
  | miss hnn _ ih =>
    cases h' with
    | hit hl' hn' h' => exact absurd ⟨_, _, hl', hn'⟩ hnn
    | miss _ h' => exact ih h'

theorem values_ci {a b : Bytes} (h : ciEq a b = true) {ts vs : List Bytes} (hv : Values a ts vs) :
    Values b ts vs := by
  induction hv with
  | nil => exact .nil
  | hit hl hn _ ih => exact .hit hl (ciEq_trans hn h) ih
  | miss hnn _ ih =>
    exact .miss (fun ⟨n, v, h1, h2⟩ => hnn ⟨n, v, h1, ciEq_trans h2 (ciEq_symm h)⟩) ih

theorem csLocate_isSome (v tok : Bytes) (ht : tok ≠ []) :
    (csLocate v tok true).isSome = true ↔ HasTok v tok := by
  constructor
  · intro h
    obtain ⟨p, hp⟩ := Option.isSome_iff_exists.1 h
    obtain ⟨es, e, h1, h2, -⟩ := (csLocate_iff v tok p.next true ht).1 ⟨p.at_, hp⟩
    exact ⟨es, e, _, h1, h2⟩
  · rintro ⟨es, e, rest, h1, h2⟩
    cases hc : csLocate v tok true with
    | some => rfl
    | none => exact absurd h2 ((csLocate_none_iff v tok true ht).1 hc es e rest h1)

/-! ### The header loop -/

/-- Effect of the Transfer-Encoding values. -/
def foldTE : TE → List Bytes → Option TE
  | te, [] => some te
  | te, v :: vs =>
    if te = .chunked then none
    else match csLocate v b!"chunked" true with
      | some p => if p.next ≠ [] then none else foldTE .chunked vs
      | none => foldTE .unknown vs

/-- Effect of the Content-Length values. -/
def foldCL : Int → List Bytes → Option Int
  | cl, [] => some cl
  | cl, v :: vs =>
    if cl ≠ noContentLength ∨ v.contains ch%',' then none
    else
      let n := getContentLength v .header
      if n = noContentLength then none else foldCL n vs

theorem scanHeaders_spec (hs : List Header) (hg : ∀ h ∈ hs, Good h) (s : ScanState) :
    match foldTE s.te (valsOf .transferEncoding hs), foldCL s.cl (valsOf .contentLength hs) with
    | some te, some cl => ∃ s', scanHeaders s hs = .ok s' ∧ s'.te = te ∧ s'.cl = cl ∧
        (s'.connClosed = true ↔ s.connClosed = true ∨ ∃ v ∈ valsOf .connection hs, HasTok v b!"close")
    | _, _ => scanHeaders s hs = .err .badRequest := by
  induction hs generalizing s with
  | nil => simp [valsOf, foldTE, foldCL, scanHeaders]
  | cons h t ih =>
    have hh := hg h (by simp)
    have ih := ih fun x hx => hg x (by simp [hx])
    have hv := hh.value
    -- headers other than the three kinds
    have plain : ∀ s' : ScanState, scanHeader s h = .ok s' → s'.te = s.te → s'.cl = s.cl →
        s'.connClosed = s.connClosed → h.code ≠ .transferEncoding → h.code ≠ .contentLength →
        h.code ≠ .connection →
        match foldTE s.te (valsOf .transferEncoding (h :: t)), foldCL s.cl (valsOf .contentLength (h :: t)) with
        | some te, some cl => ∃ s', scanHeaders s (h :: t) = .ok s' ∧ s'.te = te ∧ s'.cl = cl ∧
            (s'.connClosed = true ↔ s.connClosed = true ∨ ∃ v ∈ valsOf .connection (h :: t), HasTok v b!"close")
        | _, _ => scanHeaders s (h :: t) = .err .badRequest := by
      intro s' h1 h2 h3 h4 h5 h6 h7
      have := ih s'
      rw [h2, h3, h4] at this
      have e1 : valsOf .transferEncoding (h :: t) = valsOf .transferEncoding t := by simp [valsOf, h5]
      have e2 : valsOf .contentLength (h :: t) = valsOf .contentLength t := by simp [valsOf, h6]
      have e3 : valsOf .connection (h :: t) = valsOf .connection t := by simp [valsOf, h7]
      rw [e1, e2, e3]
      simp only [scanHeaders, h1]
      exact this
    cases hc : h.code with
    | illegal => exact absurd hc hh.1
    | other => exact plain { s with headers := s.headers ++ [h] } (by unfold scanHeader; simp only [hc]) rfl rfl rfl (by simp [hc]) (by simp [hc]) (by simp [hc])
    | location => exact plain { s with headers := s.headers ++ [h] } (by unfold scanHeader; simp only [hc]) rfl rfl rfl (by simp [hc]) (by simp [hc]) (by simp [hc])
    | contLocation => exact plain { s with headers := s.headers ++ [h] } (by unfold scanHeader; simp only [hc]) rfl rfl rfl (by simp [hc]) (by simp [hc]) (by simp [hc])
    | host => exact plain { s with headers := s.headers ++ [h] } (by unfold scanHeader; simp only [hc]) rfl rfl rfl (by simp [hc]) (by simp [hc]) (by simp [hc])
    | referer => exact plain { s with headers := s.headers ++ [h] } (by unfold scanHeader; simp only [hc]) rfl rfl rfl (by simp [hc]) (by simp [hc]) (by simp [hc])
    | userAgent => exact plain { s with headers := s.headers ++ [h] } (by unfold scanHeader; simp only [hc]) rfl rfl rfl (by simp [hc]) (by simp [hc]) (by simp [hc])
    | uri => exact plain { s with headers := s.headers ++ [h] } (by unfold scanHeader; simp only [hc]) rfl rfl rfl (by simp [hc]) (by simp [hc]) (by simp [hc])
    | destination => exact plain { s with headers := s.headers ++ [h] } (by unfold scanHeader; simp only [hc]) rfl rfl rfl (by simp [hc]) (by simp [hc]) (by simp [hc])
    | authorization => exact plain { s with headers := s.headers ++ [h] } (by unfold scanHeader; simp only [hc]) rfl rfl rfl (by simp [hc]) (by simp [hc]) (by simp [hc])
    | expect =>
      by_cases he : ciEq b!"100-continue" h.rawValue = true
      · exact plain s (by unfold scanHeader; simp only [hc, hv, he, if_true]) rfl rfl rfl (by simp [hc]) (by simp [hc]) (by simp [hc])
      · exact plain { s with headers := s.headers ++ [h] } (by unfold scanHeader; simp only [hc, hv]; rw [if_neg he]) rfl rfl rfl (by simp [hc]) (by simp [hc]) (by simp [hc])
    | upgrade =>
      by_cases he : (csLocate h.rawValue b!"websocket" true).isSome = true
      · exact plain { s with headers := s.headers ++ [h], ws := { s.ws with upgradeWs := true } } (by unfold scanHeader; simp only [hc, hv, he, if_true]) rfl rfl rfl (by simp [hc]) (by simp [hc]) (by simp [hc])
      · exact plain { s with headers := s.headers ++ [h] } (by unfold scanHeader; simp only [hc, hv]; rw [if_neg he]) rfl rfl rfl (by simp [hc]) (by simp [hc]) (by simp [hc])
    | connection =>
      have e1 : valsOf .transferEncoding (h :: t) = valsOf .transferEncoding t := by simp [valsOf, hc]
      have e2 : valsOf .contentLength (h :: t) = valsOf .contentLength t := by simp [valsOf, hc]
      have e3 : valsOf .connection (h :: t) = h.rawValue :: valsOf .connection t := by simp [valsOf, hc]
      have hk : ∃ s', scanHeader s h = .ok s' ∧ s'.te = s.te ∧ s'.cl = s.cl ∧
          (s'.connClosed = true ↔ s.connClosed = true ∨ HasTok h.rawValue b!"close") := by
        rw [← csLocate_isSome _ _ (by simp)]
        unfold scanHeader
        simp only [hc, hv]
        split
        · exact ⟨_, rfl, rfl, rfl, by simp_all⟩
        · split
          · exact ⟨_, rfl, rfl, rfl, by simp_all⟩
          · exact ⟨_, rfl, rfl, rfl, by simp_all⟩
      obtain ⟨s', h1, h2, h3, h4⟩ := hk
      have := ih s'
      rw [e1, e2, e3, ← h2, ← h3]
      simp only [scanHeaders, h1]
      split
      · rename_i te cl q1 q2
        rw [q1, q2] at this
        obtain ⟨s'', g1, g2, g3, g4⟩ := this
        refine ⟨s'', g1, g2, g3, ?_⟩
        rw [g4, h4, or_assoc]
        simp
      · rename_i q
        split at this
        · rename_i te cl q1 q2; exact absurd q2 (q te cl q1)
        · exact this
    | transferEncoding =>
      have e1 : valsOf .transferEncoding (h :: t) = h.rawValue :: valsOf .transferEncoding t := by simp [valsOf, hc]
      have e2 : valsOf .contentLength (h :: t) = valsOf .contentLength t := by simp [valsOf, hc]
      have e3 : valsOf .connection (h :: t) = valsOf .connection t := by simp [valsOf, hc]
      rw [e1, e2, e3]
      by_cases hte : s.te = .chunked
      · have : scanHeader s h = .err .badRequest := by
          unfold scanHeader; simp only [hc, hv, hte, if_true]
        simp [foldTE, hte, scanHeaders, this]
      · cases hl : csLocate h.rawValue b!"chunked" true with
        | none =>
          have h1 : scanHeader s h = .ok { s with headers := s.headers ++ [h], te := .unknown } := by
            unfold scanHeader; simp only [hc, hv, hte, if_false, hl]
          have := ih { s with headers := s.headers ++ [h], te := .unknown }
          simp only [foldTE, hte, if_false, hl, scanHeaders, h1]
          exact this
        | some p =>
          by_cases hn : p.next = []
          · have h1 : scanHeader s h = .ok { s with headers := s.headers ++ [h], te := .chunked } := by
              unfold scanHeader; simp only [hc, hv, hte, if_false, hl, hn, ne_eq, not_true_eq_false]
            have := ih { s with headers := s.headers ++ [h], te := .chunked }
            simp only [foldTE, hte, if_false, hl, scanHeaders, h1, hn, ne_eq, not_true_eq_false]
            exact this
          · have h1 : scanHeader s h = .err .badRequest := by
              unfold scanHeader; simp only [hc, hv, hte, if_false, hl, hn, ne_eq, not_false_eq_true, if_true]
            simp [foldTE, hte, hl, hn, scanHeaders, h1]
    | contentLength =>
      have e1 : valsOf .transferEncoding (h :: t) = valsOf .transferEncoding t := by simp [valsOf, hc]
      have e2 : valsOf .contentLength (h :: t) = h.rawValue :: valsOf .contentLength t := by simp [valsOf, hc]
      have e3 : valsOf .connection (h :: t) = valsOf .connection t := by simp [valsOf, hc]
      rw [e1, e2, e3]
      by_cases hbad : s.cl ≠ noContentLength ∨ (h.rawValue.contains ch%',') = true
      · have h1 : scanHeader s h = .err .badRequest := by
          unfold scanHeader; simp only [hc, hv]; rw [if_pos hbad]
        simp only [foldCL, scanHeaders, h1]; rw [if_pos hbad]
        split
        · simp_all
        · trivial
      · by_cases hn : getContentLength h.rawValue .header = noContentLength
        · have h1 : scanHeader s h = .err .badRequest := by
            unfold scanHeader; simp only [hc, hv]; rw [if_neg hbad, if_pos hn]
          simp only [foldCL, scanHeaders, h1]; rw [if_neg hbad, if_pos hn]
          split
          · simp_all
          · trivial
        · have h1 : scanHeader s h = .ok { s with headers := s.headers ++ [h], cl := getContentLength h.rawValue .header } := by
            unfold scanHeader; simp only [hc, hv]; rw [if_neg hbad, if_neg hn]
          have := ih { s with headers := s.headers ++ [h], cl := getContentLength h.rawValue .header }
          simp only [foldCL, scanHeaders, h1]; rw [if_neg hbad, if_neg hn]
          exact this

/-- Headers passed on. -/
def keptHdr (h : Header) : Bool := !(h.code == .expect && ciEq b!"100-continue" h.rawValue)

theorem scanHeader_headers {s s' : ScanState} {h : Header} (hg : Good h) (hk : scanHeader s h = .ok s') :
    s'.headers = s.headers ++ (if keptHdr h then [h] else []) := by
  have hv := hg.value
  have hill := hg.1
  unfold scanHeader at hk
  cases hc : h.code <;> simp only [hc, hv] at hk hill
  case illegal => exact absurd rfl hill
  case expect =>
    split at hk <;> simp only [ScanRes.ok.injEq] at hk <;> subst hk
    · rename_i he; simp [keptHdr, hc, he]
    · rename_i he
      have : keptHdr h = true := by simp only [keptHdr, hc]; simpa using he
      simp [this]
  all_goals
    have hkh : keptHdr h = true := by simp [keptHdr, hc]
    rw [hkh, if_pos rfl]
    repeat' split at hk
    all_goals first
      | (simp only [ScanRes.ok.injEq] at hk; subst hk; rfl)
      | (cases hk; done)

theorem scanHeaders_headers (hs : List Header) (hg : ∀ h ∈ hs, Good h) {s s' : ScanState}
    (hk : scanHeaders s hs = .ok s') : s'.headers = s.headers ++ hs.filter keptHdr := by
  induction hs generalizing s with
  | nil => simp [scanHeaders] at hk; subst hk; simp
  | cons h t ih =>
    unfold scanHeaders at hk
    cases hh : scanHeader s h with
    | err st => rw [hh] at hk; cases hk
    | ub => rw [hh] at hk; cases hk
    | ok s1 =>
      rw [hh] at hk
      rw [ih (fun x hx => hg x (by simp [hx])) hk, scanHeader_headers (hg h (by simp)) hh]
      cases hkh : keptHdr h <;> simp [hkh]

/-! ### Folds against the specification -/

theorem chunked_next_nil (v : Bytes) :
    (∃ p, csLocate v b!"chunked" true = some p ∧ p.next = []) ↔ EndsWithTok v b!"chunked" := by
  unfold EndsWithTok
  rw [← csLocate_iff v b!"chunked" [] true (by simp)]
  constructor
  · rintro ⟨⟨a, n⟩, h1, h2⟩; simp only at h2; subst h2; exact ⟨a, h1⟩
  · rintro ⟨a, h⟩; exact ⟨_, h, rfl⟩

theorem csLocate_none_has (v : Bytes) :
    csLocate v b!"chunked" true = none ↔ ¬ HasTok v b!"chunked" := by
  rw [← csLocate_isSome _ _ (by simp)]
  cases csLocate v b!"chunked" true <;> simp

theorem foldTE_chunked_iff (te : TE) (vs : List Bytes) (hte : te ≠ .chunked) :
    foldTE te vs = some .chunked ↔
      ∃ us v, vs = us ++ [v] ∧ (∀ x ∈ us, ¬ HasTok x b!"chunked") ∧ EndsWithTok v b!"chunked" := by
  induction vs generalizing te with
  | nil => simp [foldTE, hte]
  | cons v vs ih =>
    unfold foldTE
    rw [if_neg hte]
    cases hl : csLocate v b!"chunked" true with
    | none =>
      have hno := (csLocate_none_has v).1 hl
      simp only
      rw [ih .unknown (by simp)]
      constructor
      · rintro ⟨us, w, rfl, h1, h2⟩
        refine ⟨v :: us, w, rfl, ?_, h2⟩
        intro x hx
        rcases List.mem_cons.1 hx with rfl | hx
        · exact hno
        · exact h1 x hx
      · rintro ⟨us, w, h0, h1, h2⟩
        cases us with
        | nil =>
          simp at h0
          obtain ⟨rfl, rfl⟩ := h0
          obtain ⟨p, hp, -⟩ := (chunked_next_nil v).2 h2
          rw [hl] at hp; cases hp
        | cons u us =>
          simp at h0
          obtain ⟨rfl, rfl⟩ := h0
          exact ⟨us, w, rfl, fun x hx => h1 x (by simp [hx]), h2⟩
    | some p =>
      have hhas : HasTok v b!"chunked" := by rw [← csLocate_isSome _ _ (by simp), hl]; rfl
      simp only
      by_cases hn : p.next = []
      · simp only [hn, ne_eq, not_true_eq_false, if_false]
        constructor
        · intro h
          cases vs with
          | nil => exact ⟨[], v, rfl, by simp, (chunked_next_nil v).1 ⟨p, hl, hn⟩⟩
          | cons w vs => simp [foldTE] at h
        · rintro ⟨us, w, h0, h1, h2⟩
          cases us with
          | nil => simp at h0; obtain ⟨-, rfl⟩ := h0; rfl
          | cons u us =>
            simp at h0
            obtain ⟨rfl, -⟩ := h0
            exact absurd hhas (h1 v (by simp))
      · simp only [hn, ne_eq, not_false_eq_true, if_true]
        constructor
        · intro h; cases h
        · rintro ⟨us, w, h0, h1, h2⟩
          cases us with
          | nil =>
            simp at h0
            obtain ⟨rfl, -⟩ := h0
            obtain ⟨p', hp', hn'⟩ := (chunked_next_nil v).2 h2
            rw [hl] at hp'; cases hp'
            exact absurd hn' hn
          | cons u us =>
            simp at h0
            obtain ⟨rfl, -⟩ := h0
            exact absurd hhas (h1 v (by simp))

theorem foldTE_none_iff (te : TE) (vs : List Bytes) :
    foldTE te vs = some .none ↔ vs = [] ∧ te = .none := by
  have aux : ∀ vs te, te ≠ TE.none → foldTE te vs ≠ some .none := by
    intro vs
    induction vs with
    | nil => intro te h; simpa [foldTE] using h
    | cons v vs ih =>
      intro te h
      unfold foldTE
      split
      · simp
      · split
        · split
          · simp
          · exact ih _ (by simp)
        · exact ih _ (by simp)
  cases vs with
  | nil => simp [foldTE]
  | cons v vs =>
    simp only [reduceCtorEq, false_and, iff_false]
    unfold foldTE
    split
    · simp
    · split
      · split
        · simp
        · exact aux _ _ (by simp)
      · exact aux _ _ (by simp)

theorem declares_iff (v : Bytes) (n : Nat) :
    getContentLength v .header = n ↔ DeclaresLength v n := by
  rw [getContentLength_header_iff]
  constructor
  · rintro ⟨ws, ds, ws', h1, h2, h3, h4, h5⟩
    exact ⟨by unfold clenMax at h5; omega, ws, ds, ws', h1, h2, h3, h4⟩
  · rintro ⟨h5, ws, ds, ws', h1, h2, h3, h4⟩
    exact ⟨ws, ds, ws', h1, h2, h3, h4, by unfold clenMax; omega⟩

theorem digit_not_comma (b : Nat) : digit? b ch%',' = none := by
  unfold digit?
  rw [if_neg (by decide), if_neg (by simp), if_neg (by simp)]

theorem declares_no_comma {v : Bytes} {n : Nat} (h : DeclaresLength v n) : v.contains ch%',' = false := by
  obtain ⟨-, ws, ds, ws', rfl, h1, h2, h3⟩ := h
  cases hc : (ws ++ ds ++ ws').contains ch%',' with
  | false => rfl
  | true =>
    exfalso
    have hm : ch%',' ∈ ws ++ ds ++ ws' := by simpa using hc
    rcases List.mem_append.1 hm with hm | hm
    · rcases List.mem_append.1 hm with hm | hm
      · rcases h1 _ hm with h | h <;> revert h <;> decide
      · have := h2.2.1 _ hm; rw [digit_not_comma] at this; cases this
    · rcases h3 _ hm with h | h <;> revert h <;> decide

theorem foldCL_some_iff (vs : List Bytes) (n : Int) :
    foldCL noContentLength vs = some n ↔
      (vs = [] ∧ n = noContentLength) ∨ ∃ v, ∃ k : Nat, vs = [v] ∧ n = k ∧ DeclaresLength v k := by
  cases vs with
  | nil => simp [foldCL, eq_comm]
  | cons v vs =>
    unfold foldCL
    constructor
    · intro h
      split at h
      · cases h
      · dsimp only at h
        split at h
        · cases h
        · rename_i h1 h2
          right
          rcases getContentLength_range v .header with h' | ⟨k, h'⟩
          · exact absurd h' h2
          · cases vs with
            | nil =>
              simp only [foldCL, Option.some.injEq] at h
              exact ⟨v, k, rfl, by rw [← h, h'], (declares_iff v k).1 h'⟩
            | cons w ws =>
              unfold foldCL at h
              rw [if_pos (Or.inl h2)] at h
              cases h
    · rintro (⟨h, -⟩ | ⟨w, k, h1, rfl, h3⟩)
      · cases h
      · simp at h1
        obtain ⟨rfl, rfl⟩ := h1
        have hk := (declares_iff v k).2 h3
        rw [if_neg (by simp only [ne_eq, not_true_eq_false, false_or, declares_no_comma h3]; simp)]
        dsimp only
        rw [if_neg (by rw [hk]; unfold noContentLength; omega), hk]
        rfl

theorem mem_te : (b!"Transfer-encoding", HCode.transferEncoding) ∈ hdTypes := by decide
theorem mem_cl : (b!"Content-length", HCode.contentLength) ∈ hdTypes := by decide
theorem mem_conn : (b!"Connection", HCode.connection) ∈ hdTypes := by decide

theorem values_te {hs : List Header} (hf : ∀ h ∈ hs, Fine h) :
    Values b!"Transfer-Encoding" (hs.map (·.text)) (valsOf .transferEncoding hs) :=
  values_ci (by decide) (values_valsOf mem_te hf)

theorem values_cl {hs : List Header} (hf : ∀ h ∈ hs, Fine h) :
    Values b!"Content-Length" (hs.map (·.text)) (valsOf .contentLength hs) :=
  values_ci (by decide) (values_valsOf mem_cl hf)

theorem values_conn {hs : List Header} (hf : ∀ h ∈ hs, Fine h) :
    Values b!"Connection" (hs.map (·.text)) (valsOf .connection hs) :=
  values_valsOf mem_conn hf

/-- The kind of body a scan result stands for. -/
def kindOf (te : TE) (cl : Int) : BodyKind :=
  if te = .chunked then .chunked
  else if cl = noContentLength then .none
  else .length cl.toNat

/-- Result of loop and check together. -/
def scanAll (s : ScanState) (hs : List Header) : ScanRes ScanState :=
  match scanHeaders s hs with
  | .ok s => checkFraming s
  | .err st => .err st
  | .ub => .ub

theorem scanAll_spec {hs : List Header} (hf : ∀ h ∈ hs, Fine h) (ws : WsReq) :
    (∃ s, scanAll { ws := ws } hs = .ok s ∧ Framing (hs.map (·.text)) (kindOf s.te s.cl) ∧
        s.headers = hs.filter keptHdr ∧
        (s.cl = noContentLength ∨ ∃ n : Nat, s.cl = n) ∧ (s.te = .none ∨ s.te = .chunked) ∧
        (s.te = .chunked → s.cl = noContentLength) ∧
        (s.connClosed = true ↔ ∃ v ∈ valsOf .connection hs, HasTok v b!"close")) ∨
    ((∃ st, scanAll { ws := ws } hs = .err st ∧ (st = .badRequest ∨ st = .notImplemented)) ∧
      ∀ k, ¬ Framing (hs.map (·.text)) k) := by
  have hg : ∀ h ∈ hs, Good h := fun h hh => (hf h hh).1
  have hsc := scanHeaders_spec hs hg { ws := ws }
  have hte := values_te hf
  have hcl := values_cl hf
  have fr : ∀ k, Framing (hs.map (·.text)) k →
      (foldTE .none (valsOf .transferEncoding hs) = some .none ∨
        foldTE .none (valsOf .transferEncoding hs) = some .chunked ∧ valsOf .contentLength hs = []) ∧
      ∃ n, foldCL noContentLength (valsOf .contentLength hs) = some n := by
    intro k hk
    cases k with
    | none =>
      have h1 := values_det hte hk.1
      have h2 := values_det hcl hk.2
      exact ⟨Or.inl ((foldTE_none_iff _ _).2 ⟨h1, rfl⟩), _, (foldCL_some_iff _ _).2 (Or.inl ⟨h2, rfl⟩)⟩
    | length n =>
      obtain ⟨h1, v, h2, h3⟩ := hk
      have h1 := values_det hte h1
      have h2 := values_det hcl h2
      exact ⟨Or.inl ((foldTE_none_iff _ _).2 ⟨h1, rfl⟩), _,
        (foldCL_some_iff _ _).2 (Or.inr ⟨v, n, h2, rfl, h3⟩)⟩
    | chunked =>
      obtain ⟨h1, us, v, h2, h3, h4⟩ := hk
      have h1 := values_det hcl h1
      have h2 := values_det hte h2
      exact ⟨Or.inr ⟨(foldTE_chunked_iff _ _ (by simp)).2 ⟨us, v, h2, h3, h4⟩, h1⟩, _,
        (foldCL_some_iff _ _).2 (Or.inl ⟨h1, rfl⟩)⟩
    | untilEof => exact hk.elim
  cases h1 : foldTE .none (valsOf .transferEncoding hs) with
  | none =>
    rw [h1] at hsc
    right
    refine ⟨⟨.badRequest, ?_, Or.inl rfl⟩, ?_⟩
    · unfold scanAll; rw [hsc]
    · intro k hk; have := (fr k hk).1; rw [h1] at this; simp at this
  | some te =>
    cases h2 : foldCL noContentLength (valsOf .contentLength hs) with
    | none =>
      rw [h1] at hsc
      simp only [h2] at hsc
      right
      refine ⟨⟨.badRequest, ?_, Or.inl rfl⟩, ?_⟩
      · unfold scanAll; rw [hsc]
      · intro k hk; obtain ⟨n, hn⟩ := (fr k hk).2; rw [h2] at hn; simp at hn
    | some cl =>
      rw [h1] at hsc
      simp only [h2] at hsc
      obtain ⟨s, g1, g2, g3, g4⟩ := hsc
      have g5 := scanHeaders_headers hs hg g1
      simp only [List.nil_append] at g5
      have hcl2 := (foldCL_some_iff _ _).1 h2
      have hcl3 : cl = noContentLength ∨ ∃ n : Nat, cl = n := by
        rcases hcl2 with ⟨-, h⟩ | ⟨v, n, -, h, -⟩
        · exact Or.inl h
        · exact Or.inr ⟨n, h⟩
      simp only [Bool.false_eq_true, false_or] at g4
      cases hT : te with
      | none =>
        left
        subst hT
        refine ⟨s, ?_, ?_, g5, by rw [g3]; exact hcl3, Or.inl g2, by rw [g2]; simp, g4⟩
        · unfold scanAll; rw [g1]; simp [checkFraming, g2]
        · rw [g2, g3]
          have ht0 := ((foldTE_none_iff _ _).1 h1).1
          rw [ht0] at hte
          rcases hcl2 with ⟨hc0, rfl⟩ | ⟨v, n, hc0, rfl, hd⟩
          · rw [hc0] at hcl
            exact ⟨hte, hcl⟩
          · rw [hc0] at hcl
            have : kindOf .none (n : Int) = .length n := by
              unfold kindOf noContentLength
              rw [if_neg (by simp), if_neg (by omega)]; simp
            rw [this]
            exact ⟨hte, v, hcl, hd⟩
      | unknown =>
        right
        subst hT
        refine ⟨⟨.notImplemented, ?_, Or.inr rfl⟩, ?_⟩
        · unfold scanAll; rw [g1]; simp [checkFraming, g2]
        · intro k hk; have := (fr k hk).1; rw [h1] at this; simp at this
      | chunked =>
        subst hT
        rcases hcl2 with ⟨hc0, rfl⟩ | ⟨v, n, hc0, rfl, hd⟩
        · left
          refine ⟨s, ?_, ?_, g5, by rw [g3]; exact Or.inl rfl, Or.inr g2, fun _ => g3, g4⟩
          · unfold scanAll; rw [g1]; simp [checkFraming, g2, g3]
          · rw [g2, g3]
            obtain ⟨us, w, h3, h4, h5⟩ := (foldTE_chunked_iff _ _ (by simp)).1 h1
            rw [h3] at hte
            rw [hc0] at hcl
            exact ⟨hcl, us, w, hte, h4, h5⟩
        · right
          refine ⟨⟨.badRequest, ?_, Or.inl rfl⟩, ?_⟩
          · unfold scanAll; rw [g1]; simp [checkFraming, g2, g3]; unfold noContentLength; omega
          · intro k hk
            have := (fr k hk).1
            rw [h1, hc0] at this
            simp at this

/-- The URL is refused by the listener's pattern. -/
def urlBad (cfg : LstnCfg) (url : Bytes) : Bool :=
  match cfg.urlPat with
  | some f => !f url
  | none => false

theorem acceptRequest_eq (cfg : LstnCfg) (inp : Bytes) :
    acceptRequest cfg inp =
      match httpRequestRead cfg.table inp with
      | .err _ => .noRequest
      | .ok line hs rest =>
        match parseHttpRequest line cfg.verb with
        | .err st => .err st
        | .ok rl =>
          if urlBad cfg rl.url then .err .notImplemented
          else
            match scanAll { ws := { get := rl.meth == METH b!"GET" } } hs with
            | .err st => .err st
            | .ub => .ub
            | .ok s =>
              if cfg.maxUri > 0 ∧ rl.url.length > cfg.maxUri then .err .uriTooLong
              else if cfg.maxReq > 0 ∧ s.cl > 0 ∧ s.cl > cfg.maxReq then .err .payloadTooLarge
              else .ok ⟨line, rl, s, rest⟩ := by
  unfold acceptRequest scanAll
  cases httpRequestRead cfg.table inp with
  | err st => rfl
  | ok line hs rest =>
    dsimp only
    cases parseHttpRequest line cfg.verb with
    | err st => rfl
    | ok rl =>
      dsimp only
      cases scanHeaders { ws := { get := rl.meth == METH b!"GET" } } hs with
      | err st => rfl
      | ub => rfl
      | ok s => rfl

theorem accepted_inv {cfg : LstnCfg} {inp : Bytes} {a : Accepted} (h : acceptRequest cfg inp = .ok a) :
    ∃ hs, httpRequestRead cfg.table inp = .ok a.line hs a.rest ∧
      parseHttpRequest a.line cfg.verb = .ok a.rl ∧ (∀ x ∈ hs, Fine x) ∧
      scanAll { ws := { get := a.rl.meth == METH b!"GET" } } hs = .ok a.scan ∧
      (cfg.maxUri > 0 → a.rl.url.length ≤ cfg.maxUri) ∧
      (cfg.maxReq > 0 → a.scan.cl ≤ cfg.maxReq) ∧
      (∀ f, cfg.urlPat = some f → f a.rl.url = true) := by
  rw [acceptRequest_eq] at h
  cases hr : httpRequestRead cfg.table inp with
  | err st => rw [hr] at h; cases h
  | ok line hs rest =>
    rw [hr] at h
    simp only at h
    cases hp : parseHttpRequest line cfg.verb with
    | err st => rw [hp] at h; cases h
    | ok rl =>
      rw [hp] at h
      dsimp only at h
      generalize hup : urlBad cfg rl.url = up at h
      cases up with
      | true => cases h
      | false =>
        simp only [Bool.false_eq_true, if_false] at h
        cases hsc : scanAll { ws := { get := rl.meth == METH b!"GET" } } hs with
        | err st => rw [hsc] at h; cases h
        | ub => rw [hsc] at h; cases h
        | ok s =>
          rw [hsc] at h
          simp only at h
          split at h
          · cases h
          · split at h
            · cases h
            · rename_i h1 h2
              injection h with h
              subst h
              obtain ⟨lines, -, rfl⟩ := (httpRequestRead_iff _ _ _ _ _).1 hr
              refine ⟨_, rfl, hp, buildHeaders_fine _ _, hsc, ?_, ?_, ?_⟩
              · intro h0; simp only; omega
              · intro h0; simp only; omega
              · intro f hf
                simpa [urlBad, hf] using hup

/-! ### More on header lists -/

theorem legal_det {ts : List Bytes} {L L' : List (Bytes × Bytes × Bytes)} (h : Legal ts L) (h' : Legal ts L') :
    L = L' := by
  induction h generalizing L' with
  | nil => cases h'; rfl
  | take hl _ ih =>
    cases h' with
    | take hl' h' => obtain ⟨rfl, rfl⟩ := line_unique hl hl'; rw [ih h']
    | skip hn _ => exact absurd ⟨_, _, hl⟩ hn
  | skip hn _ ih =>
    cases h' with
    | take hl' _ => exact absurd ⟨_, _, hl'⟩ hn
    | skip _ h' => exact ih h'

theorem listAppend_fine {hs hs' : List Header} {text n v : Bytes} {m : HMode} {rc : Nat}
    (hf : ∀ h ∈ hs, Fine h) (hl : HeaderLine text n v) (h : listAppend hs text m = .ok (rc, hs')) :
    ∀ h ∈ hs', Fine h := by
  have hg : ∀ h ∈ hs, Good h := fun x hx => (hf x hx).1
  obtain ⟨hs1, h1, h2, -⟩ := listAppend_spec hg hl m
  rw [h] at h1
  simp only [Res.ok.injEq, Prod.mk.injEq] at h1
  obtain ⟨-, rfl⟩ := h1
  -- it is enough to know the codes
  intro x hx
  refine ⟨h2 x hx, ?_⟩
  have key : ∀ (i : Nat) (h0 : Header) (t : Bytes), x ∈ hs.set i (h0.change t) → x.code = codeOf x.name := by
    intro i h0 t hm
    rcases List.mem_or_eq_of_mem_set hm with hm | rfl
    · exact (hf x hm).2
    · exact qualify_code (h2 _ hx)
  unfold listAppend at h
  dsimp only at h
  repeat' split at h
  all_goals first
    | (cases h; done)
    | (simp only [Res.ok.injEq, Prod.mk.injEq] at h
       obtain ⟨-, rfl⟩ := h
       first
         | exact key _ _ _ hx
         | exact (hf x hx).2
         | (rcases List.mem_append.1 hx with hx' | hx'
            · exact (hf x hx').2
            · simp only [List.mem_singleton] at hx'; subst hx'; exact qualify_code (h2 _ hx)))

/-! ### Heads on the wire -/

theorem wireLine_crlf {l : Bytes} (ht : ∀ c ∈ l, Text c) (hl : l.length ≤ 4093) :
    WireLine 4095 (l ++ crlf) l := ⟨ht, Or.inr rfl, by simp [crlf]; omega⟩

theorem block_crlf (ls : List Bytes) (h : ∀ l ∈ ls, l ≠ [] ∧ (∀ c ∈ l, Text c) ∧ l.length ≤ 4093) :
    Block 4095 (ls.flatMap (fun l => l ++ crlf) ++ crlf) ls := by
  induction ls with
  | nil => exact .done ⟨by simp, Or.inr rfl, by decide⟩
  | cons l ls ih =>
    have h1 := h l (by simp)
    have := Block.more (wireLine_crlf h1.2.1 h1.2.2) h1.1 (ih fun x hx => h x (by simp [hx]))
    simpa using this

theorem sendHead_head (line : Bytes) (hs : List Header) (body : Bytes)
    (hl : line ≠ [] ∧ (∀ c ∈ line, Text c) ∧ line.length ≤ 4093)
    (hh : ∀ h ∈ hs, h.text ≠ [] ∧ (∀ c ∈ h.text, Text c) ∧ h.text.length ≤ 4093) :
    HeadOf (sendHead line hs ++ body) line (hs.map (·.text)) body := by
  refine ⟨[], line ++ crlf, _, .nil, wireLine_crlf hl.2.1 hl.2.2, hl.1, block_crlf _ ?_, Or.inl ?_⟩
  · intro l hm
    obtain ⟨h, hm', rfl⟩ := List.mem_map.1 hm
    exact hh h hm'
  · simp [sendHead, List.flatMap_map]

/-! ### Responses -/

theorem validate_iff (line : Bytes) (ver code : Nat) :
    httpResponseValidate line = some (ver, code) ↔ ResponseLine line ver code := by
  constructor
  · intro h
    unfold httpResponseValidate at h
    split at h
    case isFalse => cases h
    rename_i hc
    obtain ⟨h1, h2, h3⟩ := hc
    obtain ⟨v, hv⟩ : ∃ v, line[7]? = some v := by rcases h2 with h2 | h2 <;> exact ⟨_, h2⟩
    have hline : line = b!"HTTP/1." ++ [v] ++ line.drop 8 := by
      have h8 : line.drop 7 = v :: line.drop 8 := by
        rw [← List.getElem?_eq_some_iff.1 hv |>.2]
        exact (List.drop_eq_getElem_cons _)
      rw [← h1]
      have := (List.take_append_drop 7 line).symm
      rw [h8] at this
      simpa using this
    have htr : ∀ s : Bytes, ∃ ws, s = ws ++ trimWsL s ∧ Blank ws ∧ (∀ c, s.head? = some c → isWs c = true → ws ≠ []) := by
      intro s
      induction s with
      | nil => exact ⟨[], rfl, by simp [Blank], by simp⟩
      | cons c t ih =>
        unfold trimWsL
        split
        · rename_i hw
          obtain ⟨ws, e1, e2, -⟩ := ih
          refine ⟨c :: ws, by rw [List.cons_append, ← e1], ?_, by simp⟩
          intro d hd
          rcases List.mem_cons.1 hd with rfl | hd
          · exact (isWs_iff d).1 hw
          · exact e2 d hd
        · rename_i hw
          refine ⟨[], rfl, by simp [Blank], ?_⟩
          intro d hd hw'
          simp at hd; subst hd; exact absurd hw' hw
    obtain ⟨ws, e1, e2, e3⟩ := htr (line.drop 8)
    have hws : ws ≠ [] := by
      cases hd : line.drop 8 with
      | nil => rw [hd] at h3; cases h3
      | cons d t =>
        rw [hd] at h3
        refine e3 d (by rw [hd]; rfl) h3
    dsimp only at h
    split at h
    case h_2 => cases h
    rename_i a b c r hstr
    split at h
    case isFalse => cases h
    rename_i hd
    obtain ⟨d1, d2, d3, d4, d5⟩ := hd
    simp only [Option.some.injEq, Prod.mk.injEq] at h
    obtain ⟨hver, hcode⟩ := h
    have hdig : ∀ x : UInt8, isDigit x = true → ∃ k, x.toNat = 48 + k ∧ k ≤ 9 := by
      intro x hx
      have : ∀ x : UInt8, isDigit x = true → 48 ≤ x.toNat ∧ x.toNat ≤ 57 := by
        apply forall_byte; decide +kernel
      have := this x hx
      exact ⟨x.toNat - 48, by omega, by omega⟩
    have ha : ∃ k, a.toNat = 48 + k ∧ 1 ≤ k ∧ k ≤ 5 := by
      have h1 : (49 : UInt8).toNat ≤ a.toNat := UInt8.le_iff_toNat_le.1 d1
      have h2 : a.toNat ≤ (53 : UInt8).toNat := UInt8.le_iff_toNat_le.1 d2
      have e1 : (49 : UInt8).toNat = 49 := rfl
      have e2 : (53 : UInt8).toNat = 53 := rfl
      exact ⟨a.toNat - 48, by omega, by omega, by omega⟩
    obtain ⟨x, hx, hx1, hx5⟩ := ha
    obtain ⟨y, hy, hy9⟩ := hdig b d3
    obtain ⟨z, hz, hz9⟩ := hdig c d4
    refine ⟨v, a, b, c, ws, r, ?_, ?_, ?_, hws, e2, ⟨x, y, z, hx, hy, hz, hx1, hx5, hy9, hz9, ?_⟩, ?_⟩
    · rw [hline, e1, hstr]; simp
    · rw [hv] at hver h2
      simp only [Option.some.injEq, Option.getD_some] at hver h2
      rcases h2 with rfl | rfl
      · rw [← hver]; rfl
      · rw [← hver]; rfl
    · rw [hv] at hver h2
      simp only [Option.some.injEq, Option.getD_some] at hver h2
      rcases h2 with rfl | rfl
      · rw [← hver]; decide
      · rw [← hver]; decide
    · rw [← hcode, hx, hy, hz]; omega
    · cases r with
      | nil => exact Or.inl rfl
      | cons d t => exact Or.inr ⟨d, t, rfl, (isWs_iff d).1 d5⟩
  · rintro ⟨v, a, b, c, ws, tail, rfl, hv, hver, hws, hb, ⟨x, y, z, hx, hy, hz, hx1, hx5, hy9, hz9, rfl⟩, htail⟩
    have hd8 : (b!"HTTP/1." ++ [v] ++ ws ++ [a, b, c] ++ tail).drop 8 = ws ++ (a :: b :: c :: tail) := by
      simp
    have ha : isWs a = false := by
      have : ∀ a : UInt8, 49 ≤ a.toNat → isWs a = false := by apply forall_byte; decide +kernel
      exact this a (by omega)
    have htr : trimWsL (ws ++ (a :: b :: c :: tail)) = a :: b :: c :: tail := by
      clear hws hd8
      induction ws with
      | nil => simp [trimWsL, ha]
      | cons w ws ih =>
        have : isWs w = true := (isWs_iff w).2 (hb w (by simp))
        simp only [List.cons_append, trimWsL, this, if_true]
        exact ih fun x hx => hb x (by simp [hx])
    have hdig : ∀ x : UInt8, 48 ≤ x.toNat → x.toNat ≤ 57 → isDigit x = true := by
      apply forall_byte; decide +kernel
    unfold httpResponseValidate
    rw [hd8, htr]
    have h7 : (b!"HTTP/1." ++ [v] ++ ws ++ [a, b, c] ++ tail)[7]? = some v := by simp
    have ht7 : (b!"HTTP/1." ++ [v] ++ ws ++ [a, b, c] ++ tail).take 7 = b!"HTTP/1." := by simp
    rw [h7, ht7]
    have hv2 : v = 48 ∨ v = 49 := by
      rcases Nat.le_one_iff_eq_zero_or_eq_one.1 hver with rfl | rfl
      · left; exact UInt8.toNat_inj.1 hv
      · right; exact UInt8.toNat_inj.1 hv
    have hsw : startsWs false (ws ++ (a :: b :: c :: tail)) = true := by
      cases ws with
      | nil => exact absurd rfl hws
      | cons w ws => exact (isWs_iff w).2 (hb w (by simp))
    rw [if_pos ⟨rfl, by simpa using hv2, hsw⟩]
    dsimp only
    have d1 : (49 : UInt8) ≤ a := UInt8.le_iff_toNat_le.2 (by have e1 : (49 : UInt8).toNat = 49 := rfl; omega)
    have d2 : a ≤ (53 : UInt8) := UInt8.le_iff_toNat_le.2 (by have e1 : (53 : UInt8).toNat = 53 := rfl; omega)
    have hst : startsWs true tail = true := by
      rcases htail with rfl | ⟨d, t, rfl, h⟩
      · rfl
      · exact (isWs_iff d).2 h
    rw [if_pos ⟨d1, d2, hdig b (by omega) (by omega), hdig c (by omega) (by omega), hst⟩]
    have hvv : (v - 48).toNat = ver := by
      rcases Nat.le_one_iff_eq_zero_or_eq_one.1 hver with rfl | rfl
      · rw [show v = 48 from UInt8.toNat_inj.1 hv]; rfl
      · rw [show v = 49 from UInt8.toNat_inj.1 hv]; rfl
    simp only [Option.getD_some, Option.some.injEq, Prod.mk.injEq]
    exact ⟨hvv, by rw [hx, hy, hz]; omega⟩

theorem valsOf_cons (c : HCode) (h : Header) (t : List Header) :
    valsOf c (h :: t) = (if h.code = c then [h.rawValue] else []) ++ valsOf c t := by
  by_cases hc : h.code = c <;> simp [valsOf, hc]

/-- What the header loop of `backend_response` finds. -/
theorem respHeaders_spec (env : RespEnv) (hloc : ∀ c v, env.loc c v = none) (hs : List Header)
    (hg : ∀ h ∈ hs, Good h) (s : RespScan)
    (hcl : ∀ v ∈ valsOf .contentLength hs, getContentLength v .header ≠ noContentLength) :
    ∃ s', respHeaders env s hs = .ok s' ∧ s'.headers = s.headers ++ hs ∧
      (s'.chunked = true ↔ s.chunked = true ∨ ∃ v ∈ valsOf .transferEncoding hs, HasTok v b!"chunked") ∧
      (s'.noCont = true ↔ s.noCont = true ∧ ¬ ∃ v ∈ valsOf .transferEncoding hs, HasTok v b!"chunked") ∧
      s'.cl = ((valsOf .contentLength hs).map (getContentLength · .header)).getLastD s.cl ∧
      (s'.connClosed = true ↔ s.connClosed = true ∨ ∃ v ∈ valsOf .connection hs, ciEq v b!"close" = true) := by
  induction hs generalizing s with
  | nil => exact ⟨s, rfl, by simp, by simp [valsOf], by simp [valsOf], by simp [valsOf], by simp [valsOf]⟩
  | cons h t ih =>
    have hh := hg h (by simp)
    have hv := hh.value
    have ih := fun s hcl => ih (fun x hx => hg x (by simp [hx])) s hcl
    have hclt : ∀ v ∈ valsOf .contentLength t, getContentLength v .header ≠ noContentLength := by
      intro v hv; apply hcl; rw [valsOf_cons]; simp [hv]
    cases hc : h.code with
    | illegal => exact absurd hc hh.1
    | connection =>
      by_cases hcc : ciEq b!"close" h.rawValue = true
      · obtain ⟨s', h1, h2, h3, h4, h5, h6⟩ := ih { s with headers := s.headers ++ [h], connClosed := true } hclt
        refine ⟨s', ?_, ?_, ?_, ?_, ?_, ?_⟩
        · unfold respHeaders respHeader; simp only [hc, hv, hcc, if_true]; exact h1
        · rw [h2]; simp
        · rw [h3]; simp [valsOf_cons, hc]
        · rw [h4]; simp [valsOf_cons, hc]
        · rw [h5]; simp [valsOf_cons, hc]
        · rw [h6]; simp [valsOf_cons, hc, ciEq_symm hcc]
      · have hcc' : ciEq h.rawValue b!"close" = false := by
          rw [ciEq_comm]; simpa using hcc
        obtain ⟨s', h1, h2, h3, h4, h5, h6⟩ := ih
          { s with headers := s.headers ++ [h], wsConn := s.wsConn || connUpgrade true h.rawValue } hclt
        refine ⟨s', ?_, ?_, ?_, ?_, ?_, ?_⟩
        · unfold respHeaders respHeader; simp only [hc, hv, if_neg hcc]
          cases hu : connUpgrade true h.rawValue
          · rw [hu] at h1; simpa using h1
          · rw [hu] at h1; simpa using h1
        · rw [h2]; simp
        · rw [h3]; simp [valsOf_cons, hc]
        · rw [h4]; simp [valsOf_cons, hc]
        · rw [h5]; simp [valsOf_cons, hc]
        · rw [h6]; simp [valsOf_cons, hc, hcc']
    | upgrade =>
      obtain ⟨s', h1, h2, h3, h4, h5, h6⟩ := ih
        { s with headers := s.headers ++ [h], wsUpg := s.wsUpg || (csLocate h.rawValue b!"websocket" true).isSome } hclt
      refine ⟨s', ?_, ?_, ?_, ?_, ?_, ?_⟩
      · unfold respHeaders respHeader; simp only [hc, hv]
        cases hu : (csLocate h.rawValue b!"websocket" true).isSome
        · rw [hu] at h1; simpa using h1
        · rw [hu] at h1; simpa using h1
      · rw [h2]; simp
      · rw [h3]; simp [valsOf_cons, hc]
      · rw [h4]; simp [valsOf_cons, hc]
      · rw [h5]; simp [valsOf_cons, hc]
      · rw [h6]; simp [valsOf_cons, hc]
    | transferEncoding =>
      by_cases hcc : (csLocate h.rawValue b!"chunked" true).isSome = true
      · have hht := (csLocate_isSome _ _ (by simp)).1 hcc
        obtain ⟨s', h1, h2, h3, h4, h5, h6⟩ := ih
          { s with headers := s.headers ++ [h], chunked := true, noCont := false } hclt
        refine ⟨s', ?_, ?_, ?_, ?_, ?_, ?_⟩
        · unfold respHeaders respHeader; simp only [hc, hv, hcc, if_true]; exact h1
        · rw [h2]; simp
        · rw [h3]; simp [valsOf_cons, hc, hht]
        · rw [h4]; simp [valsOf_cons, hc, hht]
        · rw [h5]; simp [valsOf_cons, hc]
        · rw [h6]; simp [valsOf_cons, hc]
      · have hht : ¬ HasTok h.rawValue b!"chunked" := fun h => hcc ((csLocate_isSome _ _ (by simp)).2 h)
        obtain ⟨s', h1, h2, h3, h4, h5, h6⟩ := ih { s with headers := s.headers ++ [h] } hclt
        refine ⟨s', ?_, ?_, ?_, ?_, ?_, ?_⟩
        · unfold respHeaders respHeader; simp only [hc, hv, if_neg hcc]; exact h1
        · rw [h2]; simp
        · rw [h3]; simp [valsOf_cons, hc, hht]
        · rw [h4]; simp [valsOf_cons, hc, hht]
        · rw [h5]; simp [valsOf_cons, hc]
        · rw [h6]; simp [valsOf_cons, hc]
    | contentLength =>
      have hn : getContentLength h.rawValue .header ≠ noContentLength := by
        apply hcl; rw [valsOf_cons]; simp [hc]
      obtain ⟨s', h1, h2, h3, h4, h5, h6⟩ := ih
        { s with headers := s.headers ++ [h], cl := getContentLength h.rawValue .header } hclt
      refine ⟨s', ?_, ?_, ?_, ?_, ?_, ?_⟩
      · unfold respHeaders respHeader; simp only [hc, hv, if_neg hn]; exact h1
      · rw [h2]; simp
      · rw [h3]; simp [valsOf_cons, hc]
      · rw [h4]; simp [valsOf_cons, hc]
      · rw [h5, valsOf_cons, if_pos hc]
        cases valsOf .contentLength t with
        | nil => rfl
        | cons x l => simp [List.getLast?_cons]
      · rw [h6]; simp [valsOf_cons, hc]
    | _ =>
      obtain ⟨s', h1, h2, h3, h4, h5, h6⟩ := ih { s with headers := s.headers ++ [h] } hclt
      refine ⟨s', ?_, ?_, ?_, ?_, ?_, ?_⟩
      · unfold respHeaders respHeader; simp only [hc, hv, hloc]; exact h1
      · rw [h2]; simp
      · rw [h3]; simp [valsOf_cons, hc]
      · rw [h4]; simp [valsOf_cons, hc]
      · rw [h5]; simp [valsOf_cons, hc]
      · rw [h6]; simp [valsOf_cons, hc]

/-- A header of a response as it is sent: Location and Content-Location may have a new text. -/
def relocated (env : RespEnv) (h : Header) : Header :=
  if h.code = .location ∨ h.code = .contLocation then
    match env.loc h.code h.rawValue with
    | some t => h.change t
    | none => h
  else h

theorem relocated_none {env : RespEnv} (h : ∀ c v, env.loc c v = none) (x : Header) : relocated env x = x := by
  unfold relocated
  split
  · rw [h]
  · rfl

theorem respHeader_loc (env : RespEnv) (s s' : RespScan) (h : Header) (hg : Good h) (A : List Header)
    (hr : respHeader { env with loc := fun _ _ => none } s h = .ok s') :
    respHeader env { s with headers := A } h = .ok { s' with headers := A ++ [relocated env h] } := by
  have hv := hg.value
  unfold respHeader at hr ⊢
  unfold relocated
  cases hc : h.code <;> simp only [hc, hv] at hr ⊢
  case location =>
    simp only [Res.ok.injEq] at hr
    subst hr
    cases he : env.loc .location h.rawValue <;> simp
  case contLocation =>
    simp only [Res.ok.injEq] at hr
    subst hr
    cases he : env.loc .contLocation h.rawValue <;> simp
  all_goals
    repeat' split at hr
    all_goals first
      | (cases hr; done)
      | (simp only [Res.ok.injEq] at hr; subst hr; simp [*])

theorem respHeaders_loc (env : RespEnv) (hs : List Header) (hg : ∀ h ∈ hs, Good h) (s s' : RespScan) (A : List Header)
    (hr : respHeaders { env with loc := fun _ _ => none } s hs = .ok s') :
    respHeaders env { s with headers := A } hs = .ok { s' with headers := A ++ hs.map (relocated env) } := by
  induction hs generalizing s A with
  | nil => simp only [respHeaders, Res.ok.injEq] at hr ⊢; subst hr; simp
  | cons h t ih =>
    unfold respHeaders at hr ⊢
    cases h1 : respHeader { env with loc := fun _ _ => none } s h with
    | ub => rw [h1] at hr; cases hr
    | ok s1 =>
      rw [h1] at hr
      rw [respHeader_loc env s s1 h (hg h (by simp)) A h1]
      dsimp only
      rw [ih (fun x hx => hg x (by simp [hx])) s1 (A ++ [relocated env h]) hr]
      simp

/-- What the header loop of `backend_response` finds and what it changes. -/
theorem respHeaders_all (env : RespEnv) (hs : List Header) (hg : ∀ h ∈ hs, Good h) (s : RespScan)
    (hcl : ∀ v ∈ valsOf .contentLength hs, getContentLength v .header ≠ noContentLength) :
    ∃ s', respHeaders env s hs = .ok s' ∧ s'.headers = s.headers ++ hs.map (relocated env) ∧
      (s'.chunked = true ↔ s.chunked = true ∨ ∃ v ∈ valsOf .transferEncoding hs, HasTok v b!"chunked") ∧
      (s'.noCont = true ↔ s.noCont = true ∧ ¬ ∃ v ∈ valsOf .transferEncoding hs, HasTok v b!"chunked") ∧
      s'.cl = ((valsOf .contentLength hs).map (getContentLength · .header)).getLastD s.cl ∧
      (s'.connClosed = true ↔ s.connClosed = true ∨ ∃ v ∈ valsOf .connection hs, ciEq v b!"close" = true) := by
  obtain ⟨s', h1, -, h3, h4, h5, h6⟩ := respHeaders_spec { env with loc := fun _ _ => none } (fun _ _ => rfl) hs hg s hcl
  exact ⟨{ s' with headers := s.headers ++ hs.map (relocated env) }, respHeaders_loc env hs hg s s' s.headers h1, rfl, h3, h4, h5, h6⟩

/-- Whatever the other headers, the wish to close is noticed. -/
theorem respHeaders_closed (env : RespEnv) (hs : List Header) (hg : ∀ h ∈ hs, Good h) (s s' : RespScan)
    (h : respHeaders env s hs = .ok s') :
    s'.connClosed = true ↔ s.connClosed = true ∨ ∃ v ∈ valsOf .connection hs, ciEq v b!"close" = true := by
  induction hs generalizing s with
  | nil => simp [respHeaders] at h; subst h; simp [valsOf]
  | cons x t ih =>
    have hx := hg x (by simp)
    have hv := hx.value
    unfold respHeaders at h
    cases hr : respHeader env s x with
    | ub => rw [hr] at h; cases h
    | ok s1 =>
      rw [hr] at h
      rw [ih (fun y hy => hg y (by simp [hy])) s1 h, valsOf_cons]
      unfold respHeader at hr
      cases hc : x.code <;> simp only [hc, hv] at hr
      case connection =>
        split at hr
        · rename_i hcc
          simp only [Res.ok.injEq] at hr; subst hr
          simp [ciEq_symm hcc]
        · rename_i hcc
          have hcc' : ciEq x.rawValue b!"close" = false := by
            rw [ciEq_comm]; simpa using hcc
          split at hr <;> (simp only [Res.ok.injEq] at hr; subst hr; simp [hcc'])
      all_goals
        repeat' split at hr
        all_goals first
          | (cases hr; done)
          | (simp only [Res.ok.injEq] at hr; subst hr; simp)

theorem backendResponse_closed (env : RespEnv) (ws : WsReq) (fuel : Nat) :
    ∀ (skip noCont : Bool) (a b c : Bool) (inp out : Bytes),
    (backendResponse env ws fuel skip noCont true a b c inp out).connClosed = true := by
  induction fuel with
  | zero => intros; rfl
  | succ fuel ih =>
    intro skip noCont a b c inp out
    unfold backendResponse
    cases httpRequestRead env.table inp with
    | err st => rfl
    | ok line hs rest =>
      dsimp only
      cases httpResponseValidate line with
      | none => rfl
      | some p =>
        obtain ⟨ver, code⟩ := p
        dsimp only
        cases env.edit hs with
        | none => rfl
        | some hs' =>
          dsimp only
          cases hr : respHeaders env { noCont := noContOf noCont code, connClosed := true, wsConn := b, wsUpg := c } hs' with
          | ub => rfl
          | ok s =>
            have hmono : ∀ (hs : List Header) (s s' : RespScan), respHeaders env s hs = .ok s' →
                s.connClosed = true → s'.connClosed = true := by
              intro hs
              induction hs with
              | nil => intro s s' h h'; simp [respHeaders] at h; subst h; exact h'
              | cons x t iht =>
                intro s s' h h'
                unfold respHeaders at h
                cases hx : respHeader env s x with
                | ub => rw [hx] at h; cases h
                | ok s1 =>
                  rw [hx] at h
                  refine iht _ _ h ?_
                  unfold respHeader at hx
                  dsimp only at hx
                  repeat' split at hx
                  all_goals first
                    | (cases hx; done)
                    | (simp only [Res.ok.injEq] at hx; subst hx; first | exact h' | rfl)
            have hcl := hmono _ _ _ hr rfl
            dsimp only
            simp only [hcl]
            repeat' split
            all_goals first
              | exact ih _ _ _ _ _ _ _
              | rfl
              | simp_all

theorem forceHttp10_iff {cfg : LstnCfg} {m : Bool} : forceHttp10 cfg m = true ↔ cfg.ssl = true ∧ (cfg.noHttps11 = 1 ∨ cfg.noHttps11 = 2 ∧ m = true) := by
  unfold forceHttp10
  split
  · rename_i h; simp [h]
  · rename_i h; simp [h]
  · rename_i h1 h2
    exact ⟨fun h => (Bool.false_ne_true h).elim, fun h => (h.2.elim h1 fun h => h2 h.1).elim⟩

end Pound
