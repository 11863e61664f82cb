import Verif.Model.Forward
import Verif.Spec.Forward
import Verif.Proof.Headers
import Verif.Proof.Location
import Verif.Proof.Log

namespace Pound
open Spec

/-! ### Header lists by name -/

theorem named_iff_line {t n v : Bytes} (h : HeaderLine t n v) (m : Bytes) : Named t m ↔ ciEq n m = true := by
  constructor
  · rintro ⟨n', v', h1, h2⟩
    rw [(line_unique h h1).1]; exact h2
  · intro hc; exact ⟨_, _, h, hc⟩

theorem hn_append (n : Bytes) (a b : List Bytes) : HeadersNamed n (a ++ b) = HeadersNamed n a ++ HeadersNamed n b := by
  simp [HeadersNamed]

theorem hn_none {n : Bytes} {a : List Bytes} (h : ∀ t ∈ a, ¬ Named t n) : HeadersNamed n a = [] := by
  simpa [HeadersNamed] using h

theorem hn_cons_pos {n t : Bytes} {a : List Bytes} (h : Named t n) : HeadersNamed n (t :: a) = t :: HeadersNamed n a := by
  simp [HeadersNamed, h]

theorem hn_cons_neg {n t : Bytes} {a : List Bytes} (h : ¬ Named t n) : HeadersNamed n (t :: a) = HeadersNamed n a := by
  simp [HeadersNamed, h]

theorem hnn_append (ns : List Bytes) (a b : List Bytes) : HeadersNotNamed ns (a ++ b) = HeadersNotNamed ns a ++ HeadersNotNamed ns b := by
  simp [HeadersNotNamed]

theorem hnn_cons_neg {ns : List Bytes} {n t : Bytes} {a : List Bytes} (hn : n ∈ ns) (h : Named t n) : HeadersNotNamed ns (t :: a) = HeadersNotNamed ns a := by
  unfold HeadersNotNamed
  rw [List.filter_cons_of_neg]
  simp only [decide_eq_true_eq]
  exact fun hx => hx n hn h

/-- What adding a header does to the headers of one name, or of none of some names -/
theorem adds_replace {text n v : Bytes} {a b : List Bytes} (hl : HeaderLine text n v) (h : Adds text n v a b .replace) :
    HeadersNamed n b = text :: (HeadersNamed n a).drop 1 := by
  have ht : Named text n := (named_iff_line hl n).2 (ciEq_refl n)
  cases h with
  | new h => rw [hn_append, hn_none h, hn_cons_pos ht]; rfl
  | replace h1 h2 => rw [hn_append, hn_append, hn_none h1, hn_cons_pos ht, hn_cons_pos h2]; rfl

theorem adds_extend {text n v : Bytes} {a b : List Bytes} (hl : HeaderLine text n v) (h : Adds text n v a b .append) :
    Extended text v (HeadersNamed n a) (HeadersNamed n b) := by
  have ht : Named text n := (named_iff_line hl n).2 (ciEq_refl n)
  cases h with
  | new h => rw [hn_append, hn_none h, hn_cons_pos ht]; exact .new
  | fill h1 h2 h3 =>
    rw [hn_append, hn_append, hn_none h1, hn_cons_pos ht, hn_cons_pos ((named_iff_line h2 n).2 h3)]; exact .fill h2
  | append h1 h2 h3 h4 h5 h6 =>
    rw [hn_append, hn_append, hn_none h1, hn_cons_pos ((named_iff_line h2 n).2 h3), hn_cons_pos ((named_iff_line h5 n).2 h3)]
    exact .append h2 h4 h5 h6

theorem adds_shape {text n v : Bytes} {a b : List Bytes} {m : HowAdd} (hl : HeaderLine text n v) (h : Adds text n v a b m) :
    (b = a ∨ ∃ x y t, a = x ++ y ∧ Named t n ∧ b = x ++ t :: y) ∨ ∃ x y t t', a = x ++ t :: y ∧ b = x ++ t' :: y ∧ Named t n ∧ Named t' n := by
  have ht : Named text n := (named_iff_line hl n).2 (ciEq_refl n)
  cases h with
  | new h => exact .inl (.inr ⟨a, [], text, by simp, ht, by simp⟩)
  | keep h1 h2 => exact .inl (.inl rfl)
  | replace h1 h2 => exact .inr ⟨_, _, _, _, rfl, rfl, h2, ht⟩
  | fill h1 h2 h3 => exact .inr ⟨_, _, _, _, rfl, rfl, (named_iff_line h2 n).2 h3, ht⟩
  | append h1 h2 h3 h4 h5 h6 => exact .inr ⟨_, _, _, _, rfl, rfl, (named_iff_line h2 n).2 h3, (named_iff_line h5 n).2 h3⟩

theorem named_other {t n m : Bytes} (h : Named t n) (hc : ciEq n m = false) : ¬ Named t m := by
  rintro ⟨n', v', h1, h2⟩
  have := (named_iff_line h1 n).1 h
  rw [ciEq_congr (ciEq_symm this), h2] at hc
  cases hc

theorem adds_other {text n v m : Bytes} {a b : List Bytes} {how : HowAdd} (hl : HeaderLine text n v) (h : Adds text n v a b how) (hc : ciEq n m = false) :
    HeadersNamed m b = HeadersNamed m a := by
  rcases adds_shape hl h with (e | ⟨x, y, t, e1, e2, e3⟩) | ⟨x, y, t, t', e1, e2, e3, e4⟩
  · rw [e]
  · rw [e1, e3, hn_append, hn_append, hn_cons_neg (named_other e2 hc)]
  · rw [e1, e2, hn_append, hn_append, hn_cons_neg (named_other e3 hc), hn_cons_neg (named_other e4 hc)]

theorem adds_rest {text n v : Bytes} {ns : List Bytes} {a b : List Bytes} {how : HowAdd} (hl : HeaderLine text n v) (h : Adds text n v a b how) (hc : n ∈ ns) :
    HeadersNotNamed ns b = HeadersNotNamed ns a := by
  rcases adds_shape hl h with (e | ⟨x, y, t, e1, e2, e3⟩) | ⟨x, y, t, t', e1, e2, e3, e4⟩
  · rw [e]
  · rw [e1, e3, hnn_append, hnn_append, hnn_cons_neg hc e2]
  · rw [e1, e2, hnn_append, hnn_append, hnn_cons_neg hc e3, hnn_cons_neg hc e4]

/-! ### Adding several headers -/

/-- The texts are header lines of these names. -/
inductive Lines : List (Bytes × HMode) → List Bytes → Prop where
  | nil : Lines [] []
  | cons {t n v m L ns} : HeaderLine t n v → Lines L ns → Lines ((t, m) :: L) (n :: ns)

theorem Lines.append {A B : List (Bytes × HMode)} {a b : List Bytes} (ha : Lines A a) (hb : Lines B b) : Lines (A ++ B) (a ++ b) := by
  induction ha with
  | nil => exact hb
  | cons h _ ih => exact .cons h ih

def texts (hs : List Header) : List Bytes := hs.map (·.text)

theorem addHeaders_append {A : List (Bytes × HMode)} {a : List Bytes} (ha : Lines A a) (B : List (Bytes × HMode)) (hs : List Header) (hg : ∀ h ∈ hs, Good h) :
    ∃ hs', addHeaders A hs = .ok hs' ∧ (∀ h ∈ hs', Good h) ∧ addHeaders (A ++ B) hs = addHeaders B hs' ∧
      (∀ m, (∀ n ∈ a, ciEq n m = false) → HeadersNamed m (texts hs') = HeadersNamed m (texts hs)) ∧
      (∀ ns, (∀ n ∈ a, n ∈ ns) → HeadersNotNamed ns (texts hs') = HeadersNotNamed ns (texts hs)) := by
  induction ha generalizing hs with
  | nil => exact ⟨hs, rfl, hg, rfl, fun _ _ => rfl, fun _ _ => rfl⟩
  | cons h _ ih =>
    rename_i t n v m L ns _
    obtain ⟨h1, e1, g1, a1⟩ := listAppend_spec hg h m
    obtain ⟨h2, e2, g2, e3, o2, r2⟩ := ih h1 g1
    refine ⟨h2, ?_, g2, ?_, ?_, ?_⟩
    · simp only [addHeaders, e1]; exact e2
    · simp only [List.cons_append, addHeaders, e1]; exact e3
    · intro k hk
      rw [o2 k (fun n hn => hk n (by simp [hn]))]
      exact adds_other h a1 (hk n (by simp))
    · intro ns hns
      rw [r2 ns (fun n hn => hns n (by simp [hn]))]
      exact adds_rest h a1 (hns n (by simp))

theorem addHeaders_ok {A : List (Bytes × HMode)} {a : List Bytes} (ha : Lines A a) (hs : List Header) (hg : ∀ h ∈ hs, Good h) :
    ∃ hs', addHeaders A hs = .ok hs' ∧ (∀ h ∈ hs', Good h) ∧
      (∀ m, (∀ n ∈ a, ciEq n m = false) → HeadersNamed m (texts hs') = HeadersNamed m (texts hs)) ∧
      (∀ ns, (∀ n ∈ a, n ∈ ns) → HeadersNotNamed ns (texts hs') = HeadersNotNamed ns (texts hs)) := by
  obtain ⟨hs', e, g, -, o, r⟩ := addHeaders_append ha [] hs hg
  exact ⟨hs', e, g, o, r⟩

/-- The effect of one text among several, on the headers of its name -/
theorem addHeaders_mid {A B : List (Bytes × HMode)} {a b : List Bytes} {t n v : Bytes} {m : HMode} (ha : Lines A a) (hb : Lines B b) (hl : HeaderLine t n v)
    (hna : ∀ x ∈ a, ciEq x n = false) (hnb : ∀ x ∈ b, ciEq x n = false) {hs hs' : List Header} (hg : ∀ h ∈ hs, Good h)
    (h : addHeaders (A ++ (t, m) :: B) hs = .ok hs') :
    ∃ x y, Adds t n v x y (toHow m) ∧ HeadersNamed n x = HeadersNamed n (texts hs) ∧ HeadersNamed n y = HeadersNamed n (texts hs') := by
  obtain ⟨h1, e1, g1, f1, o1, -⟩ := addHeaders_append ha ((t, m) :: B) hs hg
  rw [f1] at h
  obtain ⟨h2, e2, g2, a2⟩ := listAppend_spec g1 hl m
  simp only [addHeaders, e2] at h
  obtain ⟨h3, e3, -, o3, -⟩ := addHeaders_ok hb h2 g2
  rw [h] at e3
  injection e3 with e3
  refine ⟨_, _, a2, o1 n hna, ?_⟩
  rw [e3]
  exact (o3 n hnb).symm

theorem addHeaders_replace {A B : List (Bytes × HMode)} {a b : List Bytes} {t n v : Bytes} (ha : Lines A a) (hb : Lines B b) (hl : HeaderLine t n v)
    (hna : ∀ x ∈ a, ciEq x n = false) (hnb : ∀ x ∈ b, ciEq x n = false) {hs hs' : List Header} (hg : ∀ h ∈ hs, Good h)
    (h : addHeaders (A ++ (t, .replace) :: B) hs = .ok hs') :
    HeadersNamed n (texts hs') = t :: (HeadersNamed n (texts hs)).drop 1 := by
  obtain ⟨x, y, h1, h2, h3⟩ := addHeaders_mid ha hb hl hna hnb hg h
  rw [← h2, ← h3]
  exact adds_replace hl h1

/-! ### The texts -/

theorem header_text {n : Bytes} (h0 : n ≠ []) (hn : ∀ c ∈ n, isTChar c = true) (r : Bytes) : HeaderLine (n ++ b!": " ++ r) n (r.dropWhile isWs) := by
  refine ⟨32 :: r.takeWhile isWs, ?_, h0, fun c hc => (isTChar_iff c).1 (hn c hc), ?_, ?_⟩
  · have := List.takeWhile_append_dropWhile (p := isWs) (l := r)
    simp only [List.append_assoc, List.cons_append, List.nil_append, this]
  · intro c hc
    rcases List.mem_cons.1 hc with rfl | hc
    · exact .inl rfl
    · exact (isWs_iff c).1 (mem_tw hc)
  · intro c hc
    obtain ⟨t, ht⟩ : ∃ t, r.dropWhile isWs = c :: t := by
      cases hx : r.dropWhile isWs with
      | nil => rw [hx] at hc; cases hc
      | cons z t => rw [hx] at hc; injection hc with e; exact ⟨t, by rw [e]⟩
    have := dw_head ht
    constructor
    · rintro rfl; exact absurd this (by decide)
    · rintro rfl; exact absurd this (by decide)

def fwdNames : List Bytes := [b!"X-Forwarded-For", b!"X-Forwarded-Proto", b!"X-Forwarded-Port"]
def sslNames : List Bytes :=
  [b!"X-SSL-cipher", b!"X-SSL-Subject", b!"X-SSL-Issuer", b!"X-SSL-notBefore", b!"X-SSL-notAfter", b!"X-SSL-serial", b!"X-SSL-certificate"]

theorem names_tchar : ∀ n ∈ fwdNames ++ sslNames ++ [b!"Host", b!"Destination"], n ≠ [] ∧ ∀ c ∈ n, isTChar c = true := by decide +kernel

theorem line_of_name {n : Bytes} (h : n ∈ fwdNames ++ sslNames ++ [b!"Host", b!"Destination"]) (r : Bytes) : HeaderLine (n ++ b!": " ++ r) n (r.dropWhile isWs) :=
  header_text (names_tchar n h).1 (names_tchar n h).2 r

/-- Header lines whose names are among the given ones -/
def LinesIn (L : List (Bytes × HMode)) (ns : List Bytes) : Prop := ∃ a, Lines L a ∧ ∀ x ∈ a, x ∈ ns

theorem LinesIn.nil (ns : List Bytes) : LinesIn [] ns := ⟨[], .nil, by simp⟩
theorem LinesIn.one {n : Bytes} {ns : List Bytes} (h : n ∈ fwdNames ++ sslNames ++ [b!"Host", b!"Destination"]) (hn : n ∈ ns) (r : Bytes) (m : HMode) :
    LinesIn [(n ++ b!": " ++ r, m)] ns := ⟨[n], .cons (line_of_name h r) .nil, by simpa using hn⟩
theorem LinesIn.append {A B : List (Bytes × HMode)} {ns : List Bytes} (ha : LinesIn A ns) (hb : LinesIn B ns) : LinesIn (A ++ B) ns := by
  obtain ⟨a, h1, h2⟩ := ha
  obtain ⟨b, h3, h4⟩ := hb
  refine ⟨a ++ b, h1.append h3, ?_⟩
  intro x hx
  rcases List.mem_append.1 hx with h | h
  · exact h2 x h
  · exact h4 x h
theorem LinesIn.mono {A : List (Bytes × HMode)} {ns ms : List Bytes} (ha : LinesIn A ns) (h : ∀ x ∈ ns, x ∈ ms) : LinesIn A ms := by
  obtain ⟨a, h1, h2⟩ := ha
  exact ⟨a, h1, fun x hx => h x (h2 x hx)⟩

theorem port_lines (p : PeerAddr) (port : Nat) : LinesIn (portTexts p port) [b!"X-Forwarded-Port"] := by
  unfold portTexts
  split
  · exact .nil _
  · exact LinesIn.one (n := b!"X-Forwarded-Port") (by decide) (by decide) _ _

theorem forwarded_lines (addr : Bytes) (tls : Bool) (peer : PeerAddr) (port : Nat) : LinesIn (forwardedTexts addr tls peer port) fwdNames := by
  unfold forwardedTexts
  refine LinesIn.append ?_ ?_
  · exact ⟨_, .cons (line_of_name (n := b!"X-Forwarded-For") (by decide) addr) (.cons (line_of_name (n := b!"X-Forwarded-Proto") (by decide) _) .nil), by decide⟩
  · exact (port_lines _ _).mono (by decide)

theorem fwd_lines {c : FwdCfg} {f : List (Bytes × HMode)} (h : fwdTexts c = .ok f) : LinesIn f fwdNames := by
  unfold fwdTexts at h
  split at h
  · split at h
    · cases h
    · injection h with h; rw [← h]; exact forwarded_lines _ _ _ _
  · injection h with h; rw [← h]; exact .nil _

theorem host_lines (n : Option Bytes) : LinesIn (hostTexts n) [b!"Host"] := by
  unfold hostTexts
  split
  · exact LinesIn.one (n := b!"Host") (by decide) (by decide) _ _
  · exact .nil _

/-- Host is always accepted. -/
theorem host_ok {hs : List Header} (hg : ∀ h ∈ hs, Good h) (n : Bytes) : ∃ hs', listAppend hs (b!"Host: " ++ n) .replace = .ok (0, hs') := by
  obtain ⟨h4, e4, -, -⟩ := listAppend_spec hg (line_of_name (n := b!"Host") (by decide) n) .replace
  exact ⟨h4, e4⟩

theorem bio_lines {n : Bytes} (bio : Bytes) (h : n ∈ fwdNames ++ sslNames ++ [b!"Host", b!"Destination"]) : LinesIn (headerFromBio n bio).1 [n] := by
  unfold headerFromBio
  split
  · exact LinesIn.one h (by simp) _ _
  all_goals exact .nil _

theorem cert_lines (c : ClientCert) : LinesIn (certTexts c) (sslNames.drop 1) := by
  unfold certTexts
  dsimp only
  refine .append (.append (.append (.append (.append ?_ ?_) ?_) ?_) ?_) ?_
  · exact (bio_lines _ (by decide)).mono (by decide)
  · exact (bio_lines _ (by decide)).mono (by decide)
  · exact (bio_lines _ (by decide)).mono (by decide)
  · exact (bio_lines _ (by decide)).mono (by decide)
  · exact LinesIn.one (n := b!"X-SSL-serial") (by decide) (by decide) _ _
  · exact LinesIn.one (n := b!"X-SSL-certificate") (by decide) (by decide) _ _

theorem cipher_lines (e : Option (Bytes × Bytes)) : LinesIn (cipherTexts e) [b!"X-SSL-cipher"] := by
  unfold cipherTexts
  split
  · rename_i v d
    have := LinesIn.one (n := b!"X-SSL-cipher") (ns := [b!"X-SSL-cipher"]) (by decide) (by decide) (v ++ b!"/" ++ stripEol d) .replace
    simpa using this
  · exact .nil _

theorem ssl_lines (e : SslEnv) : LinesIn (sslTexts e) sslNames := by
  unfold sslTexts
  refine .append ((cipher_lines _).mono (by decide)) ?_
  split
  · split
    · exact (cert_lines _).mono (by decide)
    · exact .nil _
  · exact .nil _

theorem tls_lines (c : FwdCfg) : LinesIn (tlsTexts c) sslNames := by
  unfold tlsTexts
  split
  · split
    · exact ssl_lines _
    · exact .nil _
  · exact .nil _

/-! ### Codes of headers -/

/-- The fields are those of the text. -/
def Coded (h : Header) : Prop := qualify h = h

theorem qualify_coded (h : Header) : Coded (qualify h) := by
  unfold Coded
  conv => lhs; unfold qualify
  unfold qualify
  cases hm : headerMatch h.text with
  | none => simp [hm]
  | some p => simp [hm]

theorem change_coded (h : Header) (t : Bytes) : Coded (h.change t) := qualify_coded _
theorem alloc_coded (t : Bytes) : Coded (headerAlloc t) := qualify_coded _

theorem listAppend_coded {hs hs' : List Header} {t : Bytes} {m : HMode} {rc : Nat} (hg : ∀ h ∈ hs, Coded h) (h : listAppend hs t m = .ok (rc, hs')) :
    ∀ h ∈ hs', Coded h := by
  have key : ∀ i (x : Header), Coded x → ∀ h ∈ hs.set i x, Coded h := by
    intro i x hx h hh
    rcases List.mem_or_eq_of_mem_set hh with h1 | h1
    · exact hg h h1
    · exact h1 ▸ hx
  unfold listAppend at h
  split at h
  · split at h
    · cases h
    · split at h
      · injection h with h; injection h with _ h; rw [← h]; exact hg
      · injection h with h; injection h with _ h; rw [← h]; exact key _ _ (change_coded _ _)
      · split at h
        · cases h
        · injection h with h; injection h with _ h; rw [← h]; exact key _ _ (change_coded _ _)
        · split at h
          · cases h
          · injection h with h; injection h with _ h; rw [← h]; exact key _ _ (change_coded _ _)
  · dsimp only at h
    split at h
    · injection h with h; injection h with _ h; rw [← h]; exact hg
    · injection h with h; injection h with _ h; rw [← h]
      intro x hx
      rcases List.mem_append.1 hx with h1 | h1
      · exact hg x h1
      · simp at h1; rw [h1]; exact alloc_coded _

theorem addComposed_hdr : ∀ {hs hs' : List RdHeader} {h : Header}, (∀ e ∈ hs, Coded e.hdr) → addComposed hs h = some hs' → ∀ e ∈ hs', Coded e.hdr
  | [], _, _, _, e => by cases e
  | x :: r, hs', h, hg, e => by
    have h1 := hg x (by simp)
    have h2 : ∀ e ∈ r, Coded e.hdr := fun e he => hg e (by simp [he])
    have recu : ∀ o, (addComposed r h).map (x :: ·) = some o → ∀ e ∈ o, Coded e.hdr := by
      intro o ho
      cases hr : addComposed r h with
      | none => rw [hr] at ho; cases ho
      | some r' =>
        rw [hr] at ho
        injection ho with ho
        subst ho
        intro e he
        rcases List.mem_cons.1 he with rfl | he
        · exact h1
        · exact addComposed_hdr h2 hr e he
    unfold addComposed at e
    split at e
    · split at e
      · injection e with e
        subst e
        intro e he
        rcases List.mem_cons.1 he with rfl | he
        · exact h1
        · exact h2 e he
      · exact recu _ e
    · exact recu _ e

theorem readStep_coded {table : List Bytes} {hs : List RdHeader} {l : Bytes} (hg : ∀ e ∈ hs, Coded e.hdr) : ∀ e ∈ readHeaderStep table hs l, Coded e.hdr := by
  unfold readHeaderStep
  dsimp only
  split
  · exact hg
  · split
    · split
      · rename_i h; exact addComposed_hdr hg h
      · intro e he
        rcases List.mem_append.1 he with h1 | h1
        · exact hg e h1
        · simp at h1; rw [h1]; exact alloc_coded _
    · intro e he
      rcases List.mem_append.1 he with h1 | h1
      · exact hg e h1
      · simp at h1; rw [h1]; exact alloc_coded _

theorem build_coded (table : List Bytes) (lines : List Bytes) : ∀ h ∈ buildHeaders table lines, Coded h := by
  have key : ∀ (ls : List Bytes) (hs : List RdHeader), (∀ e ∈ hs, Coded e.hdr) → ∀ e ∈ ls.foldl (readHeaderStep table) hs, Coded e.hdr := by
    intro ls
    induction ls with
    | nil => exact fun hs h => h
    | cons l r ih => exact fun hs h => ih _ (readStep_coded h)
  intro h hh
  obtain ⟨e, he, rfl⟩ := List.mem_map.1 hh
  have := key lines [] (by simp) e he
  unfold finishHeader
  split
  · exact change_coded _ _
  · exact this

theorem find_destination : ∀ n : Bytes, ((hdTypes.find? (fun t => n.length == t.1.length && ciEq n t.1)).map (·.2)) = some .destination ↔ ciEq n b!"Destination" = true := by
  intro n
  simp only [length_beq_ciEq]
  constructor
  · intro h
    cases hf : hdTypes.find? (fun t => ciEq n t.1) with
    | none => rw [hf] at h; cases h
    | some t =>
      rw [hf] at h
      have h1 := List.find?_some hf
      have h2 := List.mem_of_find?_eq_some hf
      have : ∀ t ∈ hdTypes, t.2 = .destination → t.1 = b!"Destination" := by decide
      simp only [Option.map_some, Option.some.injEq] at h
      rw [this t h2 h] at h1
      exact h1
  · intro h
    have : (fun t : Bytes × HCode => ciEq n t.1) = fun t => ciEq b!"Destination" t.1 := by
      funext t
      exact ciEq_congr h
    rw [this]
    decide

theorem code_destination {h : Header} (hg : Good h) (hc : Coded h) : h.code = .destination ↔ Named h.text b!"Destination" := by
  rw [hg.named, ← find_destination]
  obtain ⟨-, h1, h2, h3⟩ := hg
  unfold Coded qualify at hc
  rw [h3] at hc
  dsimp only at hc
  have hn : h.name = h.text.take h.nameEnd := by unfold Header.name; rw [h1]; simp
  rw [hn]
  have := congrArg Header.code hc
  dsimp only at this
  rw [← this]
  split
  · rename_i t ht; rw [ht]; simp
  · rename_i ht; rw [ht]; simp

/-- What is done to the Destination header -/
theorem changeDest_spec (be : Bytes) (tls : Bool) : ∀ (hs : List Header), (∀ h ∈ hs, Good h ∧ Coded h) →
    ∃ hs', changeDest be tls hs = .ok hs' ∧ (∀ h ∈ hs', Good h) ∧
      ((texts hs' = texts hs ∧ (HeadersNamed b!"Destination" (texts hs) = [] ∨
          ∃ t r n v, HeadersNamed b!"Destination" (texts hs) = t :: r ∧ HeaderLine t n v ∧ locationMatch v = none)) ∨
       ∃ a t b n v p q path, texts hs = a ++ t :: b ∧ (∀ x ∈ a, ¬ Named x b!"Destination") ∧ HeaderLine t n v ∧ Named t b!"Destination" ∧
        locationMatch v = some (p, q, path) ∧
        texts hs' = a ++ (b!"Destination: " ++ (if tls then b!"https" else b!"http") ++ b!"://" ++ be ++ path) :: b)
  | [], _ => ⟨[], rfl, by simp, .inl ⟨rfl, .inl rfl⟩⟩
  | h :: r, hg => by
    obtain ⟨g1, g2⟩ := hg h (by simp)
    have gr : ∀ x ∈ r, Good x ∧ Coded x := fun x hx => hg x (by simp [hx])
    unfold changeDest
    by_cases hc : h.code = .destination
    · rw [if_pos hc, g1.value]
      have hn := (code_destination g1 g2).1 hc
      dsimp only
      cases hm : locationMatch h.rawValue with
      | none =>
        refine ⟨h :: r, rfl, fun x hx => (hg x hx).1, .inl ⟨rfl, .inr ⟨h.text, HeadersNamed b!"Destination" (texts r), _, _, ?_, g1.line, hm⟩⟩⟩
        show HeadersNamed _ (h.text :: texts r) = _
        rw [hn_cons_pos hn]
      | some x =>
        obtain ⟨p, q, path⟩ := x
        have hl := line_of_name (n := b!"Destination") (by decide) ((if tls then b!"https" else b!"http") ++ b!"://" ++ be ++ path)
        have e : b!"Destination" ++ b!": " ++ ((if tls then b!"https" else b!"http") ++ b!"://" ++ be ++ path) =
            b!"Destination: " ++ (if tls then b!"https" else b!"http") ++ b!"://" ++ be ++ path := by simp
        rw [e] at hl
        refine ⟨_, rfl, ?_, .inr ⟨[], h.text, texts r, _, _, p, q, path, rfl, by simp, g1.line, hn, hm, ?_⟩⟩
        · intro x hx
          rcases List.mem_cons.1 hx with rfl | hx
          · exact (change_good hl).1
          · exact (gr x hx).1
        · simp only [texts, List.map_cons, (change_good hl).2]; rfl
    · rw [if_neg hc]
      have hn : ¬ Named h.text b!"Destination" := fun hx => hc ((code_destination g1 g2).2 hx)
      obtain ⟨hs', e, gg, hcase⟩ := changeDest_spec be tls r gr
      rw [e]
      refine ⟨h :: hs', rfl, ?_, ?_⟩
      · intro x hx
        rcases List.mem_cons.1 hx with rfl | hx
        · exact g1
        · exact gg x hx
      · have ht : ∀ l : List Header, texts (h :: l) = h.text :: texts l := fun _ => rfl
        rw [ht, ht, hn_cons_neg hn]
        rcases hcase with ⟨h1, h2⟩ | ⟨a, t, b, n, v, p, q, path, h1, h2, h3, h4, h5, h6⟩
        · exact .inl ⟨by rw [h1], h2⟩
        · refine .inr ⟨h.text :: a, t, b, n, v, p, q, path, by rw [h1]; rfl, ?_, h3, h4, h5, by rw [h6]; rfl⟩
          intro x hx
          rcases List.mem_cons.1 hx with rfl | hx
          · exact hn
          · exact h2 x hx

/-! ### All of it -/

theorem dest_line (be path : Bytes) (tls : Bool) :
    HeaderLine (b!"Destination: " ++ (if tls then b!"https" else b!"http") ++ b!"://" ++ be ++ path) b!"Destination"
      (((if tls then b!"https" else b!"http") ++ b!"://" ++ be ++ path).dropWhile isWs) := by
  have hl := line_of_name (n := b!"Destination") (by decide) ((if tls then b!"https" else b!"http") ++ b!"://" ++ be ++ path)
  have e : b!"Destination" ++ b!": " ++ ((if tls then b!"https" else b!"http") ++ b!"://" ++ be ++ path) =
      b!"Destination: " ++ (if tls then b!"https" else b!"http") ++ b!"://" ++ be ++ path := by simp
  rwa [e] at hl

theorem dest_stage (c : FwdCfg) (hs : List Header) (hg : ∀ h ∈ hs, Good h ∧ Coded h) :
    ∃ h1, ((if c.rewrDest then changeDest c.beAddr c.beTls hs else .ok hs) = .ok h1) ∧
      (∀ h ∈ h1, Good h) ∧ (∀ m, ciEq b!"Destination" m = false → HeadersNamed m (texts h1) = HeadersNamed m (texts hs)) ∧
      (∀ ns, b!"Destination" ∈ ns → HeadersNotNamed ns (texts h1) = HeadersNotNamed ns (texts hs)) := by
  by_cases hr : c.rewrDest = true
  · rw [if_pos hr]
    obtain ⟨h1, e1, g1, hc⟩ := changeDest_spec c.beAddr c.beTls hs hg
    refine ⟨h1, e1, g1, ?_, ?_⟩
    · rcases hc with ⟨e, -⟩ | ⟨a, t, b, n, v, p, q, path, e1, -, -, hn, -, e2⟩
      · intro m _; rw [e]
      · intro m hm
        have hl := dest_line c.beAddr path c.beTls
        rw [e1, e2, hn_append, hn_append, hn_cons_neg (named_other hn hm), hn_cons_neg (named_other ((named_iff_line hl _).2 (ciEq_refl _)) hm)]
    · rcases hc with ⟨e, -⟩ | ⟨a, t, b, n, v, p, q, path, e1, -, -, hn, -, e2⟩
      · intro m _; rw [e]
      · intro ns hns
        have hl := dest_line c.beAddr path c.beTls
        rw [e1, e2, hnn_append, hnn_append, hnn_cons_neg hns hn, hnn_cons_neg hns ((named_iff_line hl _).2 (ciEq_refl _))]
  · rw [if_neg hr]; exact ⟨hs, rfl, fun h hh => (hg h hh).1, fun _ _ => rfl, fun _ _ => rfl⟩

/-- Lists of headers before and after a step that adds headers of the given names -/
structure Step (ns : List Bytes) (a b : List Header) : Prop where
  good : ∀ h ∈ b, Good h
  other : ∀ m, (∀ n ∈ ns, ciEq n m = false) → HeadersNamed m (texts b) = HeadersNamed m (texts a)
  rest : ∀ ms, (∀ n ∈ ns, n ∈ ms) → HeadersNotNamed ms (texts b) = HeadersNotNamed ms (texts a)

theorem step_of {L : List (Bytes × HMode)} {ns : List Bytes} (h : LinesIn L ns) {hs : List Header} (hg : ∀ h ∈ hs, Good h) :
    ∃ hs', addHeaders L hs = .ok hs' ∧ Step ns hs hs' := by
  obtain ⟨a, h1, h2⟩ := h
  obtain ⟨hs', e, g, o, r⟩ := addHeaders_ok h1 hs hg
  exact ⟨hs', e, g, fun m hm => o m (fun n hn => hm n (h2 n hn)), fun ms hm => r ms (fun n hn => hm n (h2 n hn))⟩

/-- The preparations step by step -/
structure Stages (c : FwdCfg) (f : List (Bytes × HMode)) (hs h1 h2 h3 h4 : List Header) : Prop where
  fwd : fwdTexts c = .ok f
  e1 : (if c.rewrDest then changeDest c.beAddr c.beTls hs else .ok hs) = .ok h1
  s1 : Step [b!"Destination"] hs h1
  e2 : addHeaders f h1 = .ok h2
  s2 : Step fwdNames h1 h2
  e3 : addHeaders (tlsTexts c) h2 = .ok h3
  s3 : Step sslNames h2 h3
  e4 : addHeaders (hostTexts c.servername) h3 = .ok h4
  s4 : Step [b!"Host"] h3 h4

theorem forwardHead_stages (c : FwdCfg) (hs : List Header) (hg : ∀ h ∈ hs, Good h ∧ Coded h) {f : List (Bytes × HMode)} (hf : fwdTexts c = .ok f) :
    ∃ h1 h2 h3 h4, forwardHead c hs = .ok h4 ∧ Stages c f hs h1 h2 h3 h4 := by
  obtain ⟨h1, e1, g1, o1, r1⟩ := dest_stage c hs hg
  obtain ⟨h2, e2, s2⟩ := step_of (fwd_lines hf) g1
  obtain ⟨h3, e3, s3⟩ := step_of (tls_lines c) s2.good
  obtain ⟨h4, e4, s4⟩ := step_of (host_lines c.servername) s3.good
  refine ⟨h1, h2, h3, h4, ?_, hf, e1, ⟨g1, fun m hm => o1 m (hm _ (by simp)), fun ms hm => r1 ms (hm _ (by simp))⟩, e2, s2, e3, s3, e4, s4⟩
  unfold forwardHead
  rw [e1]
  dsimp only
  rw [hf]
  dsimp only
  rw [e2]
  dsimp only
  rw [e3]
  exact e4

theorem forwardHead_inv {c : FwdCfg} {hs hs' : List Header} (hg : ∀ h ∈ hs, Good h ∧ Coded h) (h : forwardHead c hs = .ok hs') :
    ∃ f h1 h2 h3, Stages c f hs h1 h2 h3 hs' := by
  cases hf : fwdTexts c with
  | ub =>
    obtain ⟨h1, e1, -⟩ := dest_stage c hs hg
    unfold forwardHead at h
    rw [e1] at h
    dsimp only at h
    rw [hf] at h
    cases h
  | ok f =>
    obtain ⟨h1, h2, h3, h4, e, s⟩ := forwardHead_stages c hs hg hf
    rw [h] at e
    injection e with e
    rw [e]
    exact ⟨f, h1, h2, h3, s⟩

theorem addHeaders_replace_in {A B : List (Bytes × HMode)} {as bs : List Bytes} {n r : Bytes} (ha : LinesIn A as) (hb : LinesIn B bs)
    (hn : n ∈ fwdNames ++ sslNames ++ [b!"Host", b!"Destination"])
    (hna : ∀ x ∈ as, ciEq x n = false) (hnb : ∀ x ∈ bs, ciEq x n = false) {hs hs' : List Header} (hg : ∀ h ∈ hs, Good h)
    (h : addHeaders (A ++ (n ++ b!": " ++ r, .replace) :: B) hs = .ok hs') :
    HeadersNamed n (texts hs') = (n ++ b!": " ++ r) :: (HeadersNamed n (texts hs)).drop 1 := by
  obtain ⟨a, la, ia⟩ := ha
  obtain ⟨b, lb, ib⟩ := hb
  exact addHeaders_replace la lb (line_of_name hn r) (fun x hx => hna x (ia x hx)) (fun x hx => hnb x (ib x hx)) hg h

theorem fwd_inv {c : FwdCfg} {f : List (Bytes × HMode)} (hf : c.forwarded = true) (h : fwdTexts c = .ok f) :
    ∃ addr, addr2str maxAddrBuf c.peer true = .ok addr ∧ f = forwardedTexts addr c.tls.isSome c.peer c.port := by
  unfold fwdTexts at h
  rw [if_pos hf] at h
  split at h
  · cases h
  · rename_i a ha; injection h with h; exact ⟨a, ha, h.symm⟩

theorem for_line (addr : Bytes) : HeaderLine (b!"X-Forwarded-For: " ++ addr) b!"X-Forwarded-For" (addr.dropWhile isWs) :=
  line_of_name (n := b!"X-Forwarded-For") (by decide) addr

section
variable {c : FwdCfg} {f : List (Bytes × HMode)} {hs h1 h2 h3 h4 : List Header}

theorem Stages.after2 (s : Stages c f hs h1 h2 h3 h4) {m : Bytes} (ha : ∀ n ∈ sslNames, ciEq n m = false) (hb : ciEq b!"Host" m = false) :
    HeadersNamed m (texts h4) = HeadersNamed m (texts h2) := by
  rw [s.s4.other m (by simpa using hb), s.s3.other m ha]

theorem Stages.before2 (s : Stages c f hs h1 h2 h3 h4) {m : Bytes} (hb : ciEq b!"Destination" m = false) :
    HeadersNamed m (texts h1) = HeadersNamed m (texts hs) := s.s1.other m (by simpa using hb)

theorem Stages.proto (s : Stages c f hs h1 h2 h3 h4) (hf : c.forwarded = true) :
    HeadersNamed b!"X-Forwarded-Proto" (texts h4) =
      (b!"X-Forwarded-Proto: " ++ (if c.tls.isSome then b!"https" else b!"http")) :: (HeadersNamed b!"X-Forwarded-Proto" (texts hs)).drop 1 := by
  rw [s.after2 (by decide) (by decide), ← s.before2 (by decide)]
  obtain ⟨addr, -, rfl⟩ := fwd_inv hf s.fwd
  exact addHeaders_replace_in (A := [(b!"X-Forwarded-For: " ++ addr, .append)]) (as := [b!"X-Forwarded-For"]) (B := portTexts c.peer c.port)
    (LinesIn.one (n := b!"X-Forwarded-For") (by decide) (by decide) _ _) (port_lines _ _) (n := b!"X-Forwarded-Proto")
    (r := if c.tls.isSome then b!"https" else b!"http") (by decide) (by decide) (by decide) s.s1.good s.e2

theorem Stages.port (s : Stages c f hs h1 h2 h3 h4) (hf : c.forwarded = true) (hp : ∀ p, c.peer ≠ .unix p) :
    HeadersNamed b!"X-Forwarded-Port" (texts h4) = (b!"X-Forwarded-Port: " ++ dec c.port) :: (HeadersNamed b!"X-Forwarded-Port" (texts hs)).drop 1 := by
  rw [s.after2 (by decide) (by decide), ← s.before2 (by decide)]
  obtain ⟨addr, -, rfl⟩ := fwd_inv hf s.fwd
  have e := s.e2
  have hpt : portTexts c.peer c.port = [(b!"X-Forwarded-Port: " ++ dec c.port, .replace)] := by
    unfold portTexts
    split
    · rename_i p e; exact absurd e (hp p)
    · rfl
  unfold forwardedTexts at e
  rw [hpt] at e
  exact addHeaders_replace_in (as := fwdNames.take 2)
    (A := [(b!"X-Forwarded-For: " ++ addr, .append), (b!"X-Forwarded-Proto: " ++ (if c.tls.isSome then b!"https" else b!"http"), .replace)])
    (B := []) (n := b!"X-Forwarded-Port") (r := dec c.port)
    ⟨_, .cons (for_line addr) (.cons (line_of_name (n := b!"X-Forwarded-Proto") (by decide) _) .nil), by decide⟩ (.nil []) (by decide) (by decide) (by decide) s.s1.good e

theorem Stages.noport (s : Stages c f hs h1 h2 h3 h4) (hf : c.forwarded = true) {p : Bytes} (hp : c.peer = .unix p) :
    HeadersNamed b!"X-Forwarded-Port" (texts h4) = HeadersNamed b!"X-Forwarded-Port" (texts hs) := by
  rw [s.after2 (by decide) (by decide), ← s.before2 (by decide)]
  obtain ⟨addr, -, rfl⟩ := fwd_inv hf s.fwd
  have e := s.e2
  unfold forwardedTexts portTexts at e
  rw [hp] at e
  obtain ⟨h2', e2, s2⟩ := step_of (L := [(b!"X-Forwarded-For: " ++ addr, .append), (b!"X-Forwarded-Proto: " ++ (if c.tls.isSome then b!"https" else b!"http"), .replace)] ++ [])
    (ns := fwdNames.take 2) ⟨_, .cons (for_line addr) (.cons (line_of_name (n := b!"X-Forwarded-Proto") (by decide) _) .nil), by decide⟩ s.s1.good
  have e2' := e.symm.trans e2
  injection e2' with e2'
  rw [e2']
  exact s2.other _ (by decide)

theorem Stages.for_ (s : Stages c f hs h1 h2 h3 h4) (hf : c.forwarded = true) :
    ∃ addr, addr2str maxAddrBuf c.peer true = .ok addr ∧
      Extended (b!"X-Forwarded-For: " ++ addr) (addr.dropWhile isWs) (HeadersNamed b!"X-Forwarded-For" (texts hs)) (HeadersNamed b!"X-Forwarded-For" (texts h4)) := by
  rw [s.after2 (by decide) (by decide), ← s.before2 (by decide)]
  obtain ⟨addr, ha, rfl⟩ := fwd_inv hf s.fwd
  refine ⟨addr, ha, ?_⟩
  obtain ⟨ps, hps, hin⟩ := port_lines c.peer c.port
  obtain ⟨x, y, k1, k2, k3⟩ := addHeaders_mid (A := []) .nil (.cons (line_of_name (n := b!"X-Forwarded-Proto") (by decide) _) hps) (for_line addr) (by simp)
    (by
      intro x hx
      rcases List.mem_cons.1 hx with rfl | hx
      · decide
      · have := hin x hx; simp at this; subst this; decide) s.s1.good (m := .append) s.e2
  rw [← k2, ← k3]
  exact adds_extend (for_line addr) k1

/-- With the forwarding headers off, nothing is added. -/
theorem Stages.off (s : Stages c f hs h1 h2 h3 h4) (hf : c.forwarded = false) : h2 = h1 := by
  have h := s.fwd
  unfold fwdTexts at h
  rw [if_neg (by simp [hf])] at h
  injection h with h
  have e := s.e2
  rw [← h] at e
  injection e with e
  exact e.symm

theorem Stages.host (s : Stages c f hs h1 h2 h3 h4) {n : Bytes} (hn : c.servername = some n) :
    HeadersNamed b!"Host" (texts h4) = (b!"Host: " ++ n) :: (HeadersNamed b!"Host" (texts hs)).drop 1 := by
  have e := s.e4
  rw [hn] at e
  rw [← s.before2 (by decide), ← s.s2.other _ (by decide), ← s.s3.other _ (by decide)]
  exact addHeaders_replace_in (A := []) (B := []) (as := []) (bs := []) (n := b!"Host") (.nil _) (.nil _) (by decide) (by decide) (by decide) s.s3.good e

theorem Stages.nohost (s : Stages c f hs h1 h2 h3 h4) (hn : c.servername = none) :
    HeadersNamed b!"Host" (texts h4) = HeadersNamed b!"Host" (texts hs) := by
  have e := s.e4
  rw [hn] at e
  injection e with e
  rw [← s.before2 (by decide), ← s.s2.other _ (by decide), ← s.s3.other _ (by decide), e]

theorem Stages.afterDest (s : Stages c f hs h1 h2 h3 h4) {m : Bytes} (h : ∀ n ∈ fwdNames ++ sslNames ++ [b!"Host"], ciEq n m = false) :
    HeadersNamed m (texts h4) = HeadersNamed m (texts h1) := by
  rw [s.s4.other m (fun n hn => h n (by simp only [List.mem_append]; exact .inr hn)),
    s.s3.other m (fun n hn => h n (by simp only [List.mem_append]; exact .inl (.inr hn))),
    s.s2.other m (fun n hn => h n (by simp only [List.mem_append]; exact .inl (.inl hn)))]

theorem Stages.rest (s : Stages c f hs h1 h2 h3 h4) :
    HeadersNotNamed ([b!"Destination", b!"Host"] ++ fwdNames ++ sslNames) (texts h4) = HeadersNotNamed ([b!"Destination", b!"Host"] ++ fwdNames ++ sslNames) (texts hs) := by
  rw [s.s4.rest _ (by decide +kernel), s.s3.rest _ (by decide +kernel), s.s2.rest _ (by decide +kernel), s.s1.rest _ (by decide +kernel)]

end

/-! ### Certificates -/

theorem printed_trim {s v : Bytes} (h : Printed s v) : trimWsL s = v := by
  obtain ⟨-, -, -, ws, rfl, hb, hv⟩ := h
  induction ws with
  | nil =>
    cases v with
    | nil => rfl
    | cons c t =>
      have := hv c rfl
      rw [List.nil_append]
      unfold trimWsL
      rw [if_neg]
      intro hw
      rcases (isWs_iff c).1 hw with e | e
      · exact this.1 e
      · exact this.2 e
  | cons c ws ih =>
    show trimWsL (c :: (ws ++ v)) = v
    unfold trimWsL
    rw [if_pos ((isWs_iff c).2 (hb c (by simp)))]
    exact ih (fun x hx => hb x (by simp [hx]))

theorem bio_printed {n s v : Bytes} (h : Printed s v) : headerFromBio n s = ([(n ++ b!": " ++ v, .replace)], []) := by
  have : getLine s maxBuf = .ok s [] := by
    apply getLine_ok_iff.2
    exact ⟨s ++ [10], ⟨h.2.2.1, .inl rfl, by have := h.2.1; simp [maxBuf]; omega⟩, .inr ⟨rfl, h.1, rfl⟩⟩
  unfold headerFromBio
  rw [this]
  simp only
  rw [printed_trim h]

theorem afterLF_none {s : Bytes} (h : (10 : UInt8) ∉ s) : afterLF s = [] := by
  have := afterLF_append_of_no_lf s [] (fun c hc e => h (e ▸ hc))
  rw [List.append_nil] at this
  rw [this]; rfl

theorem bio_rest {n s : Bytes} (h : (10 : UInt8) ∉ s) : (headerFromBio n s).2 = [] := by
  unfold headerFromBio
  cases hg : getLine s maxBuf with
  | ok l rest =>
    obtain ⟨w, hw, hc⟩ := getLine_ok_iff.1 hg
    rcases hc with rfl | ⟨rfl, -⟩
    · exfalso
      apply h
      rcases hw.2.1 with rfl | rfl <;> simp
    · rfl
  | eof => rfl
  | bad rest => exact (getLineLoop_bad _ _ _ _ _ hg).trans (afterLF_none h)
  | tooLong rest => exact (getLineLoop_tooLong _ _ _ _ _ hg).trans (afterLF_none h)

theorem getLineLoop_long (n : Nat) (s acc : Bytes) (ht : ∀ c ∈ s, Text c) (hn : n ≤ s.length) : ∃ r, getLineLoop n s false acc = .tooLong r := by
  induction n generalizing s acc with
  | zero => exact ⟨_, rfl⟩
  | succ n ih =>
    cases s with
    | nil => simp at hn
    | cons c s =>
      unfold getLineLoop
      have hc := (text_iff c).1 (ht c (by simp))
      simp only [Bool.false_eq_true, if_false, hc, if_true]
      exact ih s _ (fun x hx => ht x (by simp [hx])) (by simpa using hn)

theorem bio_long {n s : Bytes} (ht : ∀ c ∈ s, Text c) (hl : 4095 ≤ s.length) : (headerFromBio n s).1 = [] := by
  obtain ⟨r, hr⟩ := getLineLoop_long 4095 s [] ht hl
  unfold headerFromBio getLine maxBuf
  simp only [show 4096 - 1 = 4095 from rfl, hr]

theorem pem_spec : ∀ (ls : List Bytes) (f : Nat), (∀ l ∈ ls, (∀ c ∈ l, Text c) ∧ l.length ≤ 4094) → ls.length < f → pemLines f (ls.flatMap (· ++ [10])) = ls
  | [], f, _, hf => by
    cases f with
    | zero => omega
    | succ f =>
      unfold pemLines
      rw [List.flatMap_nil, getLine_nil _ (by decide)]
  | l :: r, f, h, hf => by
    cases f with
    | zero => omega
    | succ f =>
      have hl := h l (by simp)
      unfold pemLines
      have : getLine ((l :: r).flatMap (· ++ [10])) maxBuf = .ok l (r.flatMap (· ++ [10])) := by
        rw [List.flatMap_cons]
        exact getLine_wire ⟨hl.1, .inl rfl, by have := hl.2; simp [maxBuf]; omega⟩
      rw [this]
      simp only
      rw [pem_spec r f (fun x hx => h x (by simp [hx])) (by simp at hf; omega)]

theorem pem_length (ls : List Bytes) : ls.length ≤ (ls.flatMap (· ++ [(10 : UInt8)])).length := by
  induction ls with
  | nil => simp
  | cons l r ih => simp only [List.flatMap_cons, List.length_append, List.length_cons, List.length_nil]; omega

/-- The pieces of the texts for a certificate printed without line ends -/
theorem cert_split {x : ClientCert} (h1 : (10 : UInt8) ∉ x.subject) (h2 : (10 : UInt8) ∉ x.issuer) (h3 : (10 : UInt8) ∉ x.notBefore) (h4 : (10 : UInt8) ∉ x.notAfter) :
    certTexts x = (headerFromBio b!"X-SSL-Subject" x.subject).1 ++ (headerFromBio b!"X-SSL-Issuer" x.issuer).1 ++ (headerFromBio b!"X-SSL-notBefore" x.notBefore).1 ++
      (headerFromBio b!"X-SSL-notAfter" x.notAfter).1 ++ [(b!"X-SSL-serial: " ++ decInt x.serial, .replace)] ++
      [(b!"X-SSL-certificate: " ++ List.intercalate [13, 10, 9] (pemLines (x.pem.length + 1) x.pem), .replace)] := by
  unfold certTexts
  simp only [bio_rest h1, bio_rest h2, bio_rest h3, bio_rest h4, List.nil_append]

section
variable {c : FwdCfg} {f : List (Bytes × HMode)} {hs h1 h2 h3 h4 : List Header}

theorem Stages.around3 (s : Stages c f hs h1 h2 h3 h4) {m : Bytes} (hm : m ∈ sslNames) :
    HeadersNamed m (texts h4) = HeadersNamed m (texts h3) ∧ HeadersNamed m (texts h2) = HeadersNamed m (texts hs) := by
  have d : ∀ m ∈ sslNames, ∀ n ∈ [b!"Host", b!"Destination"] ++ fwdNames, ciEq n m = false := by decide +kernel
  constructor
  · exact s.s4.other m (fun n hn => d m hm n (by simp only [List.mem_append]; simp at hn; left; simp [hn]))
  · rw [s.s2.other m (fun n hn => d m hm n (by simp only [List.mem_append]; exact .inr hn)),
      s.s1.other m (fun n hn => d m hm n (by simp only [List.mem_append]; simp at hn; left; simp [hn]))]

/-- One of the headers made from the TLS connection, given the ones before and after it -/
theorem Stages.ssl (s : Stages c f hs h1 h2 h3 h4) {n r : Bytes} {A B : List (Bytes × HMode)} {as bs : List Bytes}
    (he : tlsTexts c = A ++ (n ++ b!": " ++ r, .replace) :: B) (ha : LinesIn A as) (hb : LinesIn B bs)
    (hn : n ∈ sslNames) (hna : ∀ x ∈ as, ciEq x n = false) (hnb : ∀ x ∈ bs, ciEq x n = false) :
    HeadersNamed n (texts h4) = (n ++ b!": " ++ r) :: (HeadersNamed n (texts hs)).drop 1 := by
  have e := s.e3
  rw [he] at e
  rw [(s.around3 hn).1, ← (s.around3 hn).2]
  exact addHeaders_replace_in ha hb (by simp only [List.mem_append]; exact .inl (.inr hn)) hna hnb s.s2.good e

theorem Stages.nossl (s : Stages c f hs h1 h2 h3 h4) {n : Bytes} {as : List Bytes} (ha : LinesIn (tlsTexts c) as) (hn : n ∈ sslNames)
    (hna : ∀ x ∈ as, ciEq x n = false) : HeadersNamed n (texts h4) = HeadersNamed n (texts hs) := by
  obtain ⟨h3', e, s3⟩ := step_of ha s.s2.good
  have e' := e.symm.trans s.e3
  injection e' with e'
  rw [(s.around3 hn).1, ← (s.around3 hn).2, ← e']
  exact s3.other n hna

end

end Pound
