import Verif.Proof.Bauth

/-!
C34: basic authentication.
-/

namespace Pound.Props
open Spec

/-- Sizes of the digests -/
structure CryptoOk (E : Crypto) : Prop where
  md5 : ∀ x, (E.md5 x).length = 16
  sha1 : ∀ x, (E.sha1 x).length = 20

/-- A library for the examples: "digests" of constant size, base64 of one text, crypt as reversal after two bytes of salt -/
def exE : Crypto where
  md5 x := (x ++ List.replicate 16 0).take 16
  sha1 x := (x ++ List.replicate 20 0).take 20
  unbase64 t := if t = b!"Ym9iOnNlY3JldA==" then some b!"bob:secret" else if t = b!"QQ==" then some b!"A" else none
  crypt p h := some (h.take 2 ++ p.reverse)

theorem exE_ok : CryptoOk exE := ⟨fun x => by simp [exE], fun x => by simp [exE]⟩

/-- The lines of a password file for which the claims hold: no NUL, and not longer than the buffer of the program -/
def PlainLines (ls : List Bytes) : Prop := ∀ l ∈ ls, (10 : UInt8) ∉ l ∧ (0 : UInt8) ∉ l ∧ l.length < 4095

/-- After any history of requests, during which the file may have been replaced or removed any number of times (each version
with its own modification time, not 0), a user is accepted if and only if the present file has a line for that user, and the hash in the first
such line accepts the password.
Missing: lines longer than 4094 bytes, versions with equal time stamps, read errors, requests served at the same time (below). -/
theorem C34_accept_partial (E : Crypto) (hE : CryptoOk E) (at_ : Nat → Bytes) (hist : List (FileNow × Option Bytes))
    (hh : ∀ x ∈ hist, Stamped at_ x.1) (m : Nat) (hm : m ≠ 0) (ls : List Bytes) (hat : at_ m = nlJoin ls) (hls : PlainLines ls)
    (user pass : Bytes) :
    (basicAuthInternal E (authHistory E ⟨0, []⟩ hist) (.file m (at_ m)) user pass).2 = .ok true ↔
      ∃ pre l post hash, ls = pre ++ l :: post ∧ EntryLine l user hash ∧ (∀ x ∈ pre, ∀ h, ¬ EntryLine x user h) ∧
        Accepts E aprText pass hash := by
  have hc := history_ok (E := E) (pf := ⟨0, []⟩) (Or.inl ⟨rfl, rfl⟩) hh
  unfold basicAuthInternal
  dsimp only
  rw [fill_current hc hm, hat, passLines_spec ls _ hls (by omega)]
  constructor
  · intro h
    split at h
    · rename_i e he
      obtain ⟨pre, l, post, rfl, h1, h2, h3⟩ := (find_filterMap _ _ _ _).mp he
      have hu : e.1 = user := by simpa using h2
      refine ⟨pre, l, post, e.2, rfl, ?_, ?_, (authMatch_iff E hE.md5 hE.sha1 _ _).mp h⟩
      · have hl := hls l (by simp)
        rw [← passLine_iff hl.1 hl.2.1, h1, ← hu]
      · intro x hx h' he'
        have hl := hls x (by simp [hx])
        have := h3 x hx (user, h') ((passLine_iff hl.1 hl.2.1 _ _).mpr he')
        simp at this
    · cases h
  · rintro ⟨pre, l, post, hash, rfl, h1, h2, h3⟩
    have hl := hls l (by simp)
    have hf : (List.filterMap passLine (pre ++ l :: post)).find? (fun e => e.1 == user) = some (user, hash) := by
      rw [find_filterMap]
      refine ⟨pre, l, post, rfl, (passLine_iff hl.1 hl.2.1 _ _).mpr h1, by simp, ?_⟩
      intro x hx c hc'
      have hx' := hls x (by simp [hx])
      simp only [beq_eq_false_iff_ne, ne_eq]
      intro e
      apply h2 x hx c.2
      rw [← passLine_iff hx'.1 hx'.2.1, hc', ← e]
    rw [hf]
    exact (authMatch_iff E hE.md5 hE.sha1 _ _).mpr h3

/-- If moreover all hashes in the file are well-formed, nothing undefined happens. -/
theorem C34_defined_partial (E : Crypto) (at_ : Nat → Bytes) (hist : List (FileNow × Option Bytes))
    (hh : ∀ x ∈ hist, Stamped at_ x.1) (m : Nat) (hm : m ≠ 0) (ls : List Bytes) (hat : at_ m = nlJoin ls) (hls : PlainLines ls)
    (hg : ∀ l ∈ ls, ∀ u h, EntryLine l u h → GoodHash E h) (user pass : Bytes) :
    ∃ b, (basicAuthInternal E (authHistory E ⟨0, []⟩ hist) (.file m (at_ m)) user pass).2 = .ok b := by
  have hc := history_ok (E := E) (pf := ⟨0, []⟩) (Or.inl ⟨rfl, rfl⟩) hh
  unfold basicAuthInternal
  dsimp only
  rw [fill_current hc hm, hat, passLines_spec ls _ hls (by omega)]
  split
  · rename_i e he
    obtain ⟨pre, l, post, rfl, h1, -, -⟩ := (find_filterMap _ _ _ _).mp he
    have hl := hls l (by simp)
    exact authMatch_defined E pass e.2 (hg l (by simp) e.1 e.2 ((passLine_iff hl.1 hl.2.1 _ _).mp h1))
  · exact ⟨_, rfl⟩

/-- While there is no file, nobody is accepted. -/
theorem C34_missing (E : Crypto) (pf : PassFile) (user pass : Bytes) :
    (basicAuthInternal E pf .missing user pass).2 = .ok false := rfl

/-- Lines that start with '#' and lines without ':' are no entries. -/
theorem C34_comments (l u h : Bytes) :
    (∀ ws t, l = ws ++ ch%'#' :: t → (∀ c ∈ ws, c = 32 ∨ c = 9) → ¬ EntryLine l u h) ∧ (ch%':' ∉ l → ¬ EntryLine l u h) := by
  constructor
  · rintro ws t rfl hw ⟨ws', e, hw', hcu, hhd⟩
    have hb : ∀ c ∈ ws, isBlank c = true := fun c hc => by rcases hw c hc with rfl | rfl <;> rfl
    have hb' : ∀ c ∈ ws', isBlank c = true := fun c hc => by rcases hw' c hc with rfl | rfl <;> rfl
    have e' := congrArg (List.dropWhile isBlank) e
    rw [dropWhile_app hb (by intro c t e; cases e; rfl), List.append_assoc, dropWhile_app hb'] at e'
    · cases u with
      | nil => cases e'
      | cons c u =>
        cases e'
        exact (hhd _ rfl).2.2 rfl
    · intro c t e
      cases u with
      | nil => cases e; rfl
      | cons d u =>
        cases e
        have := hhd _ rfl
        simp [isBlank, this.1, this.2.1]
  · rintro hn ⟨ws, rfl, -⟩
    exact hn (by simp)

/-- The request: credentials sent as "Basic BASE64" are the ones that are checked. -/
theorem C34_request (E : Crypto) (pf : PassFile) (now : FileNow) (sp tok user pass : Bytes) (hsp : ∀ c ∈ sp, isSpace c = true)
    (htok : ∀ c, tok.head? = some c → isSpace c = false ∧ c ≠ ch%'"') (hd : E.unbase64 tok = some (user ++ ch%':' :: pass))
    (hl : (user ++ ch%':' :: pass).length ≤ 4096) (hu : ch%':' ∉ user) (hu0 : (0 : UInt8) ∉ user) (hp0 : (0 : UInt8) ∉ pass)
    (word : Bytes) (hw : ciEq word b!"Basic" = true) :
    (basicAuth E pf now (some (word ++ sp ++ tok))).2 = (match (basicAuthInternal E pf now user pass).2 with
      | .ub => .ub | .ok b => .ok (some b)) ∧
    (basicAuth E pf now (some (word ++ sp ++ tok))).1 = (basicAuthInternal E pf now user pass).1 := by
  have hg : getBasicAuth E (word ++ sp ++ tok) = .creds user pass := by
    have hlen : word.length = 5 := by simpa using ciEq_length hw
    unfold getBasicAuth
    rw [List.append_assoc, List.take_left' hlen, if_neg (by simpa using hw), List.drop_left' hlen]
    dsimp only
    rw [dropWhile_app hsp (by intro c t e; subst e; exact (htok c rfl).1)]
    rw [if_neg (by intro e; exact (htok _ e).2 rfl)]
    dsimp only
    rw [hd]
    dsimp only
    rw [List.take_of_length_le (by simpa [maxBuf] using hl), if_neg (by simp), if_pos (by simp)]
    have hall : ∀ c ∈ user, (c != ch%':') = true := by
      intro c hc
      simp only [bne_iff_ne, ne_eq]
      intro e; exact hu (e ▸ hc)
    have hz : ∀ s : Bytes, (0 : UInt8) ∉ s → s.takeWhile notNul = s := by
      intro s hs
      apply takeWhile_all'
      intro c hc
      simp only [notNul, bne_iff_ne, ne_eq]
      intro e; exact hs (e ▸ hc)
    rw [takeWhile_app hall (by intro c t e; cases e; rfl), dropWhile_app hall (by intro c t e; cases e; rfl), hz _ hu0]
    rw [List.drop_one, List.tail_cons, hz _ hp0]
  unfold basicAuth
  dsimp only
  rw [hg]
  dsimp only
  generalize (basicAuthInternal E pf now user pass).2 = r
  exact ⟨by cases r <;> rfl, rfl⟩

/-- Credentials in quotes are never accepted. -/
theorem C34_quoted_fails (E : Crypto) (word : Bytes) (hw : ciEq word b!"Basic" = true) (sp tok : Bytes) (hsp : ∀ c ∈ sp, isSpace c = true) :
    getBasicAuth E (word ++ sp ++ ch%'"' :: tok) = .notBasic := by
  unfold getBasicAuth
  have hlen : word.length = 5 := by simpa using ciEq_length hw
  rw [List.append_assoc, List.take_left' hlen, if_neg (by simpa using hw), List.drop_left' hlen]
  dsimp only
  rw [dropWhile_app hsp (by intro c t e; cases e; rfl), if_pos (by rfl)]
  have h3 : tok[(rtrim tok).length]? ≠ some ch%'"' := by
    obtain ⟨b, k1, -, k3, k4, k5⟩ := takeWhile_split isSpace tok.reverse
    have e : tok = rtrim tok ++ (tok.reverse.takeWhile isSpace).reverse := by
      have := congrArg List.reverse k1
      rw [List.reverse_reverse, List.reverse_append, k3] at this
      exact this
    intro h
    have hm : ch%'"' ∈ tok.reverse.takeWhile isSpace := by
      generalize rtrim tok = r at e h
      rw [e] at h
      rw [List.getElem?_append_right (Nat.le_refl _)] at h
      have := List.mem_of_getElem? h
      simpa using this
    have := k5 _ hm
    revert this; decide
  rw [if_pos (Or.inr (by simpa using h3))]

/-- Nothing else is accepted: a request that passes carries "Basic", and the rest of the header decodes to a user and
a password that are in the file. (4096 is the size of the buffer; texts end at a NUL.) -/
theorem C34_needs_credentials (E : Crypto) (pf : PassFile) (now : FileNow) (hdr : Option Bytes)
    (h : (basicAuth E pf now hdr).2 = .ok (some true)) :
    ∃ word sp tok d u p, hdr = some (word ++ sp ++ tok) ∧ ciEq word b!"Basic" = true ∧ (∀ c ∈ sp, isSpace c = true) ∧
      E.unbase64 tok = some d ∧ d.take 4096 = u ++ ch%':' :: p ∧ ch%':' ∉ u ∧
      (basicAuthInternal E pf now (u.takeWhile (· != 0)) (p.takeWhile (· != 0))).2 = .ok true := by
  unfold basicAuth at h
  split at h
  · cases h
  rename_i v
  split at h
  · cases h
  · cases h
  rename_i user pass hg
  dsimp only at h
  have hi : (basicAuthInternal E pf now user pass).2 = .ok true := by
    generalize (basicAuthInternal E pf now user pass).2 = r at h
    cases r with
    | ub => cases h
    | ok b => cases h; rfl
  by_cases hb : ciEq (v.take 5) b!"Basic" = true
  case neg => unfold getBasicAuth at hg; rw [if_pos hb] at hg; cases hg
  obtain ⟨t, k1, k2, k3, k4, k5⟩ := takeWhile_split isSpace (v.drop 5)
  by_cases hq : ((v.drop 5).dropWhile isSpace).head? = some ch%'"'
  · exfalso
    have hv : v = v.take 5 ++ (v.drop 5).takeWhile isSpace ++ ch%'"' :: ((v.drop 5).dropWhile isSpace).tail := by
      rw [List.append_assoc]
      have : ch%'"' :: ((v.drop 5).dropWhile isSpace).tail = (v.drop 5).dropWhile isSpace := by
        cases e : (v.drop 5).dropWhile isSpace with
        | nil => rw [e] at hq; cases hq
        | cons c t => rw [e] at hq; cases hq; rfl
      rw [this, List.takeWhile_append_dropWhile, List.take_append_drop]
    rw [hv, C34_quoted_fails E _ hb _ _ k5] at hg
    cases hg
  refine ⟨v.take 5, (v.drop 5).takeWhile isSpace, (v.drop 5).dropWhile isSpace, ?_⟩
  unfold getBasicAuth at hg
  rw [if_neg (by simpa using hb)] at hg
  dsimp only at hg
  rw [if_neg hq] at hg
  dsimp only at hg
  split at hg
  · cases hg
  rename_i d hd
  split at hg
  · cases hg
  split at hg
  · rename_i hc
    cases hg
    obtain ⟨t', j1, j2, j3, j4, j5⟩ := takeWhile_split (fun x => x != ch%':') (d.take maxBuf)
    refine ⟨d, (d.take maxBuf).takeWhile (fun x => x != ch%':'), ((d.take maxBuf).dropWhile (fun x => x != ch%':')).drop 1,
      ?_, hb, k5, hd, ?_, ?_, hi⟩
    · rw [List.append_assoc, List.takeWhile_append_dropWhile, List.take_append_drop]
    · show d.take maxBuf = _
      rw [← j3]
      cases e : t' with
      | nil =>
        exfalso
        rw [e, List.append_nil] at j1
        rw [j1] at hc
        have := j5 _ hc
        revert this; decide
      | cons c t'' =>
        have : c = ch%':' := by simpa using j4 c t'' e
        rw [this] at e
        rw [e] at j1
        exact j1
    · intro hm
      have := j5 _ hm
      revert this; decide
  · cases hg

/-- An apr1 entry stands for one digest only: with the given salt, exactly the passwords of that digest are accepted. -/
theorem C34_apr1_digest (d e : Bytes) (hd : d.length = 16) (he : e.length = 16) : aprText d = aprText e ↔ d = e :=
  ⟨aprText_inj hd he, fun h => h ▸ rfl⟩

example : (basicAuth exE (authHistory exE ⟨0, []⟩ [(.file 1 b!"bob:x", some b!"Basic Ym9iOnNlY3JldA=="), (.missing, none)])
    (.file 2 (nlJoin [b!"# users", b!" \tbob:secret", b!"bob:other", []])) (some b!"basic  Ym9iOnNlY3JldA==")).2 = .ok (some true) := by
  decide +kernel
example : Stamped (fun m => if m = 1 then b!"bob:x" else b!"bob:secret") (.file 2 b!"bob:secret") := ⟨by decide, rfl⟩
example : EntryLine b!" \tbob:secret" b!"bob" b!"secret" := ⟨b!" \t", rfl, by decide, by decide, by decide⟩
example : Accepts exE aprText b!"secret" b!"secret" :=
  .plain (by decide) (by rw [hasScheme_iff]; decide) (by rw [hasScheme_iff]; decide)

/-- A hash made by crypt is itself accepted as the password: whoever has read the password file can log in. -/
theorem C34_hash_as_password_fails (E : Crypto) (h : Bytes) (hne : h ≠ []) (h1 : ¬ HasScheme b!"$apr1$" h) (h2 : ¬ HasScheme b!"{SHA}" h) :
    authMatch E h h = .ok true := by
  rw [authMatch_other E h h1 h2]
  simp [hne]
example : ¬ HasScheme b!"$apr1$" b!"$6$salt$hash" ∧ ¬ HasScheme b!"{SHA}" b!"$6$salt$hash" := by
  rw [hasScheme_iff, hasScheme_iff]; decide

/-- The end of a comment longer than the buffer is an entry. -/
theorem C34_long_comment_fails :
    (basicAuthInternal exE ⟨0, []⟩ (.file 1 (ch%'#' :: List.replicate 4094 ch%'-' ++ b!"eve:pw")) b!"eve" b!"pw").2 = .ok true := by
  decide +kernel

/-- A hash after {SHA} that is too short makes the program compare uninitialised memory. -/
theorem C34_short_sha_fails : authMatch exE b!"x" b!"{SHA}QQ==" = .ub := by decide +kernel

/-- An apr1 hash with a salt of less than seven bytes and no '$' makes it read beyond the end. -/
theorem C34_short_salt_fails (E : Crypto) (pass : Bytes) : authMatch E pass b!"$apr1$abc" = .ub := rfl

/-- A new version of the file with the same modification time is not noticed. -/
theorem C34_same_time_fails :
    (basicAuthInternal exE (passFileFill ⟨0, []⟩ (.file 7 b!"bob:old")) (.file 7 b!"bob:new") b!"bob" b!"old").2 = .ok true := by
  decide +kernel

/-- While the file cannot be read for another reason than its absence, the old content stays in force. -/
theorem C34_unreadable_fails :
    (basicAuthInternal exE (passFileFill ⟨0, []⟩ (.file 7 b!"bob:old")) .failing b!"bob" b!"old").2 = .ok true := by
  decide +kernel

/-- Two requests at the same time: one reloads the file and frees the entry the other is looking at. -/
theorem C34_race_fails : pfRun ⟨[0, 1], 2, none⟩ [.start, .look, .reload 2, .look] = .ub ∧
    pfRun ⟨[0, 1], 2, none⟩ [.start, .look, .look, .reload 2] = .ok ⟨[2, 3], 4, none⟩ := ⟨by rfl, by rfl⟩

end Pound.Props
