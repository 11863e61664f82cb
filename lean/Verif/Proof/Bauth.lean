import Verif.Model.Bauth
import Verif.Spec.Bauth
import Verif.Proof.Request
import Verif.Proof.JsonMore

namespace Pound

open Spec (nlJoin EntryLine binary apr1Start apr1Rounds HasScheme Accepts GoodHash)

/-! ### apr1 -/

theorem aprFill_spec {d : Bytes} (hd : d.length = 16) : ∀ (f i m : Nat), i < f → i ≤ m →
    aprFill d f i = ((List.replicate m d).flatten).take i
  | 0, i, m, h, _ => by omega
  | f + 1, i, m, h, hm => by
    rw [aprFill]
    by_cases hi : 0 < i
    · rw [if_pos hi]
      cases m with
      | zero => omega
      | succ m =>
        rw [List.replicate_succ, List.flatten_cons]
        rcases Nat.lt_or_ge i 17 with h16 | h16
        · rw [show i - 16 = 0 by omega]
          have : aprFill d f 0 = [] := by
            cases f
            · rfl
            · rw [aprFill, if_neg (by omega)]
          rw [this, List.append_nil, Nat.min_eq_right (by omega), List.take_append_of_le_length (by omega)]
        · rw [aprFill_spec hd f (i - 16) m (by omega) (by omega), Nat.min_eq_left (by omega), List.take_append,
            List.take_of_length_le (by omega : d.length ≤ 16), List.take_of_length_le (by omega : d.length ≤ i), hd]
    · rw [if_neg hi, show i = 0 by omega, List.take_zero]

theorem aprBits_spec (pw : Bytes) : ∀ (f i : Nat), i < f →
    aprBits pw f i = ((binary i).map fun b => if b then [0] else pw.take 1).flatten
  | 0, i, h => by omega
  | f + 1, i, h => by
    rw [aprBits]
    cases i with
    | zero => rw [binary]; simp
    | succ i =>
      rw [if_pos (by omega), binary, List.map_cons, List.flatten_cons, aprBits_spec pw f _ (by omega)]
      simp

theorem aprRounds_spec (E : Crypto) (pw salt : Bytes) (n : Nat) :
    (List.range n).foldl (aprRound E pw salt) (apr1Start E.md5 pw salt) = apr1Rounds E.md5 pw salt n := by
  induction n with
  | zero => rfl
  | succ n ih =>
    rw [List.range_succ, List.foldl_append, ih]
    simp only [List.foldl_cons, List.foldl_nil, aprRound, apr1Rounds]
    congr 1
    simp

theorem aprDigest_spec (E : Crypto) (hE : ∀ x, (E.md5 x).length = 16) (pw salt : Bytes) :
    aprDigest E pw salt = apr1Rounds E.md5 pw salt 1000 := by
  rw [← aprRounds_spec]
  unfold aprDigest apr1Start
  dsimp only
  rw [aprFill_spec (hE _) _ _ pw.length (by omega) (by omega), aprBits_spec _ _ _ (by omega)]
  rfl

theorem to64_length : ∀ n v, (to64 n v).length = n
  | 0, _ => rfl
  | n + 1, v => by rw [to64, List.length_cons, to64_length]

theorem itoa64_inj : ∀ i < 64, ∀ j < 64, itoa64.getD i 0 = itoa64.getD j 0 → i = j := by decide +kernel

theorem to64_inj : ∀ n v w, v < 64 ^ n → w < 64 ^ n → to64 n v = to64 n w → v = w
  | 0, v, w, h1, h2, _ => by simp at h1 h2; omega
  | n + 1, v, w, h1, h2, h => by
    rw [to64, to64, List.cons.injEq] at h
    have e1 := itoa64_inj _ (Nat.mod_lt v (by omega)) _ (Nat.mod_lt w (by omega)) h.1
    rw [Nat.pow_succ] at h1 h2
    have e2 := to64_inj n (v / 64) (w / 64) (Nat.div_lt_of_lt_mul (by rw [Nat.mul_comm]; exact h1))
      (Nat.div_lt_of_lt_mul (by rw [Nat.mul_comm]; exact h2)) h.2
    omega

theorem aprText_length (d : Bytes) : (aprText d).length = 22 := by
  simp [aprText, to64_length]

theorem aprText_inj {d e : Bytes} (hd : d.length = 16) (he : e.length = 16) (h : aprText d = aprText e) : d = e := by
  unfold aprText at h
  dsimp only at h
  have sp : ∀ {a b c x : Bytes}, a.length = c.length → a ++ b = c ++ x → a = c ∧ b = x := fun h1 h2 => List.append_inj h2 h1
  simp only [List.append_assoc] at h
  obtain ⟨h0, h⟩ := sp (by simp [to64_length]) h
  obtain ⟨h1, h⟩ := sp (by simp [to64_length]) h
  obtain ⟨h2, h⟩ := sp (by simp [to64_length]) h
  obtain ⟨h3, h⟩ := sp (by simp [to64_length]) h
  obtain ⟨h4, h5⟩ := sp (by simp [to64_length]) h
  have bd : ∀ i, (d.getD i 0).toNat < 256 := fun i => UInt8.toNat_lt _
  have be : ∀ i, (e.getD i 0).toNat < 256 := fun i => UInt8.toNat_lt _
  have g0 := to64_inj 4 _ _ (by have := bd 0; have := bd 6; have := bd 12; omega) (by have := be 0; have := be 6; have := be 12; omega) h0
  have g1 := to64_inj 4 _ _ (by have := bd 1; have := bd 7; have := bd 13; omega) (by have := be 1; have := be 7; have := be 13; omega) h1
  have g2 := to64_inj 4 _ _ (by have := bd 2; have := bd 8; have := bd 14; omega) (by have := be 2; have := be 8; have := be 14; omega) h2
  have g3 := to64_inj 4 _ _ (by have := bd 3; have := bd 9; have := bd 15; omega) (by have := be 3; have := be 9; have := be 15; omega) h3
  have g4 := to64_inj 4 _ _ (by have := bd 4; have := bd 10; have := bd 5; omega) (by have := be 4; have := be 10; have := be 5; omega) h4
  have g5 := to64_inj 2 _ _ (by have := bd 11; omega) (by have := be 11; omega) h5
  apply List.ext_getElem (by omega)
  intro i hi hi'
  have key : (d.getD i 0).toNat = (e.getD i 0).toNat := by
    have := bd 0; have := bd 6; have := bd 12; have := be 0; have := be 6; have := be 12
    have := bd 1; have := bd 7; have := bd 13; have := be 1; have := be 7; have := be 13
    have := bd 2; have := bd 8; have := bd 14; have := be 2; have := be 8; have := be 14
    have := bd 3; have := bd 9; have := bd 15; have := be 3; have := be 9; have := be 15
    have := bd 4; have := bd 10; have := bd 5; have := be 4; have := be 10; have := be 5
    rw [hd] at hi
    match i, hi with
    | 0, _ => omega
    | 1, _ => omega
    | 2, _ => omega
    | 3, _ => omega
    | 4, _ => omega
    | 5, _ => omega
    | 6, _ => omega
    | 7, _ => omega
    | 8, _ => omega
    | 9, _ => omega
    | 10, _ => omega
    | 11, _ => exact g5
    | 12, _ => omega
    | 13, _ => omega
    | 14, _ => omega
    | 15, _ => omega
    | n + 16, h => omega
  have := UInt8.toNat_inj.mp key
  rw [List.getD_eq_getElem?_getD, List.getD_eq_getElem?_getD, List.getElem?_eq_getElem hi, List.getElem?_eq_getElem hi'] at this
  simpa using this

/-! ### Schemes -/

theorem hasScheme_iff (pfx hash : Bytes) : HasScheme pfx hash ↔ pfx.length < hash.length ∧ hash.take pfx.length = pfx := by
  constructor
  · rintro ⟨t, ht, rfl⟩
    have := List.length_pos_iff.mpr ht
    refine ⟨by simp; omega, by simp⟩
  · rintro ⟨h1, h2⟩
    refine ⟨hash.drop pfx.length, ?_, ?_⟩
    · intro e
      have := congrArg List.length e
      simp at this
      omega
    · conv => lhs; rw [← List.take_append_drop pfx.length hash]
      rw [h2]

theorem takeWhile_length_mem {s : Bytes} {p : UInt8 → Bool} (h : (s.takeWhile p).length < s.length) :
    ∃ c t, s = s.takeWhile p ++ c :: t ∧ p c = false := by
  obtain ⟨b, h1, -, -, h4, -⟩ := takeWhile_split p s
  cases b with
  | nil =>
    rw [List.append_nil] at h1
    rw [← h1] at h
    omega
  | cons c t => exact ⟨c, t, h1, h4 c t rfl⟩

theorem aprMd5Encode_apr (E : Crypto) (pw t : Bytes) : aprMd5Encode E pw (apr1Id ++ t) =
    if ((t.take 8).takeWhile notDollar).length < min 8 t.length then
      .ok (apr1Id ++ t.take ((t.take 8).takeWhile notDollar).length ++ [ch%'$'] ++
        aprText (aprDigest E pw (t.take ((t.take 8).takeWhile notDollar).length)))
    else if t.length < 7 then .ub
    else .ok (apr1Id ++ t.take 8 ++ [ch%'$'] ++ aprText (aprDigest E pw ((t ++ [0]).take 8))) := by
  have h1 : (apr1Id ++ t).take 6 = apr1Id := rfl
  have h2 : (apr1Id ++ t).drop 6 = t := rfl
  unfold aprMd5Encode
  simp only [h1, h2, if_true]

theorem aprMd5Encode_ok (E : Crypto) (pw : Bytes) {t : Bytes} (hg : ch%'$' ∈ t ∨ 7 ≤ t.length) :
    ∃ r, aprMd5Encode E pw (apr1Id ++ t) = .ok r := by
  rw [aprMd5Encode_apr]
  split
  · exact ⟨_, rfl⟩
  · rename_i hk
    split
    · rename_i h7
      exfalso
      rcases hg with hg | hg
      · have h8 : t.take 8 = t := List.take_of_length_le (by omega)
        rw [h8] at hk
        apply hk
        rw [Nat.min_eq_right (by omega)]
        obtain ⟨b, h1, -, -, -, h5⟩ := takeWhile_split notDollar t
        cases b with
        | nil =>
          rw [List.append_nil] at h1
          rw [h1] at hg
          have := h5 _ hg
          simp [notDollar] at this
        | cons c b =>
          have := congrArg List.length h1
          rw [List.length_append, List.length_cons] at this
          omega
      · omega
    · exact ⟨_, rfl⟩

theorem authApr_iff (E : Crypto) (hE : ∀ x, (E.md5 x).length = 16) (pw t : Bytes) :
    authApr E pw (apr1Id ++ t) = .ok true ↔
      ∃ salt, ch%'$' ∉ salt ∧ salt.length ≤ 8 ∧ t = salt ++ [ch%'$'] ++ aprText (apr1Rounds E.md5 pw salt 1000) := by
  unfold authApr
  rw [aprMd5Encode_apr]
  constructor
  · intro h
    by_cases hk : ((t.take 8).takeWhile notDollar).length < min 8 t.length
    · rw [if_pos hk] at h
      simp only [Res.ok.injEq, beq_iff_eq] at h
      rw [List.append_assoc, List.append_assoc] at h
      have h' := (List.append_cancel_left h).symm
      refine ⟨t.take ((t.take 8).takeWhile notDollar).length, ?_, by simp; omega, ?_⟩
      · intro hm
        have e : t.take ((t.take 8).takeWhile notDollar).length = (t.take 8).takeWhile notDollar := by
          obtain ⟨b, h1, -, -, -, -⟩ := takeWhile_split notDollar (t.take 8)
          have : (t.take 8).take ((t.take 8).takeWhile notDollar).length = (t.take 8).takeWhile notDollar := by
            generalize (t.take 8).takeWhile notDollar = w at h1
            rw [h1, List.take_left]
          rw [List.take_take] at this
          rwa [Nat.min_eq_left (by omega)] at this
        rw [e] at hm
        have := takeWhile_mem_true _ _ hm
        simp [notDollar] at this
      · rw [← aprDigest_spec E hE, List.append_assoc]
        exact h'
    · rw [if_neg hk] at h
      by_cases h7 : t.length < 7
      · rw [if_pos h7] at h; cases h
      · rw [if_neg h7] at h
        simp only [Res.ok.injEq, beq_iff_eq] at h
        rw [List.append_assoc, List.append_assoc] at h
        have h' := (List.append_cancel_left h).symm
        have hl := congrArg List.length h'
        simp only [List.length_append, List.length_take, List.length_cons, aprText_length] at hl
        have hlen : 8 ≤ t.length := by omega
        have hall : ∀ c ∈ t.take 8, notDollar c = true := by
          obtain ⟨b, h1, -, -, -, h5⟩ := takeWhile_split notDollar (t.take 8)
          have hb : b = [] := by
            have := congrArg List.length h1
            simp only [List.length_append, List.length_take] at this
            apply List.eq_nil_of_length_eq_zero
            omega
          rw [hb, List.append_nil] at h1
          rw [h1]; exact h5
        refine ⟨t.take 8, ?_, by simp; omega, ?_⟩
        · intro hm
          have := hall _ hm
          simp [notDollar] at this
        · rw [List.append_assoc]
          conv => lhs; rw [h']
          rw [List.take_append_of_le_length (by omega), aprDigest_spec E hE]
  · rintro ⟨salt, hs, hl, rfl⟩
    have hnd : ∀ c ∈ salt, notDollar c = true := by
      intro c hc
      simp only [notDollar, bne_iff_ne, ne_eq]
      intro e; exact hs (e ▸ hc)
    have hsd : ∀ r : Bytes, (salt ++ ch%'$' :: r).takeWhile notDollar = salt := fun r =>
      takeWhile_app hnd (by intro c t e; cases e; rfl)
    rcases Nat.lt_or_ge salt.length 8 with h8 | h8
    · have e1 : (salt ++ [ch%'$'] ++ aprText (apr1Rounds E.md5 pw salt 1000)).take 8 =
          salt ++ ch%'$' :: (aprText (apr1Rounds E.md5 pw salt 1000)).take (7 - salt.length) := by
        rw [List.append_assoc, List.take_append, List.take_of_length_le (by omega)]
        congr 1
        rw [show 8 - salt.length = (7 - salt.length) + 1 by omega]
        rfl
      rw [e1, hsd, if_pos (by simp [aprText_length]; omega)]
      have e2 : (salt ++ [ch%'$'] ++ aprText (apr1Rounds E.md5 pw salt 1000)).take salt.length = salt := by
        rw [List.append_assoc, List.take_left]
      rw [e2, aprDigest_spec E hE]
      simp
    · have h8 : salt.length = 8 := by omega
      have e1 : (salt ++ [ch%'$'] ++ aprText (apr1Rounds E.md5 pw salt 1000)).take 8 = salt := by
        rw [List.append_assoc, List.take_left' h8]
      have e3 : salt.takeWhile notDollar = salt := takeWhile_all' hnd
      rw [e1, e3, if_neg (by rw [h8]; simp; omega), if_neg (by simp; omega)]
      have e4 : (salt ++ [ch%'$'] ++ aprText (apr1Rounds E.md5 pw salt 1000) ++ [0]).take 8 = salt := by
        rw [List.append_assoc, List.append_assoc, List.take_left' h8]
      rw [e4, aprDigest_spec E hE]
      simp

theorem authSha1_iff (E : Crypto) (hS : ∀ x, (E.sha1 x).length = 20) (pw t : Bytes) :
    authSha1 E pw (b!"{SHA}" ++ t) = .ok true ↔ E.unbase64 t = some (E.sha1 pw) := by
  unfold authSha1
  rw [show (b!"{SHA}" ++ t).drop 5 = t from rfl]
  constructor
  · intro h
    split at h
    · cases h
    · rename_i d hd
      split at h
      · cases h
      · split at h
        · cases h
        · split at h
          · cases h
          · simp only [Res.ok.injEq, beq_iff_eq] at h
            rw [hd, h]
  · intro h
    rw [h]
    dsimp only
    rw [if_neg (by rw [hS]; omega), if_neg (by rw [hS]; omega), if_neg (by rw [hS]; omega)]
    simp

theorem scheme_cases (h : Bytes) :
    (∃ t, t ≠ [] ∧ h = apr1Id ++ t) ∨ (∃ t, t ≠ [] ∧ h = b!"{SHA}" ++ t) ∨
    (¬ HasScheme b!"$apr1$" h ∧ ¬ HasScheme b!"{SHA}" h) := by
  by_cases h1 : HasScheme b!"$apr1$" h
  · exact Or.inl h1
  · by_cases h2 : HasScheme b!"{SHA}" h
    · exact Or.inr (Or.inl h2)
    · exact Or.inr (Or.inr ⟨h1, h2⟩)

theorem authMatch_apr (E : Crypto) (pw : Bytes) {t : Bytes} (ht : t ≠ []) :
    authMatch E pw (apr1Id ++ t) = authApr E pw (apr1Id ++ t) := by
  have := List.length_pos_iff.mpr ht
  unfold authMatch
  rw [if_pos ⟨by simp [apr1Id]; omega, by simp [apr1Id]⟩]

theorem authMatch_sha (E : Crypto) (pw : Bytes) {t : Bytes} (ht : t ≠ []) :
    authMatch E pw (b!"{SHA}" ++ t) = authSha1 E pw (b!"{SHA}" ++ t) := by
  have := List.length_pos_iff.mpr ht
  unfold authMatch
  rw [if_neg (by rintro ⟨-, h⟩; simp [apr1Id] at h), if_pos ⟨by simp; omega, by simp⟩]

theorem authMatch_other (E : Crypto) (pw : Bytes) {h : Bytes} (h1 : ¬ HasScheme b!"$apr1$" h) (h2 : ¬ HasScheme b!"{SHA}" h) :
    authMatch E pw h = .ok (decide (h ≠ []) && (E.crypt pw h == some h || pw == h)) := by
  rw [hasScheme_iff] at h1 h2
  unfold authMatch
  rw [if_neg (by simpa [apr1Id] using h1), if_neg (by simpa using h2)]
  cases h with
  | nil => simp
  | cons c h =>
    rw [if_pos (by simp)]
    unfold authCrypt authPlain
    cases E.crypt pw (c :: h) == some (c :: h) <;> simp

theorem authMatch_iff (E : Crypto) (hE : ∀ x, (E.md5 x).length = 16) (hS : ∀ x, (E.sha1 x).length = 20) (pw h : Bytes) :
    authMatch E pw h = .ok true ↔ Accepts E aprText pw h := by
  constructor
  · intro ha
    rcases scheme_cases h with ⟨t, ht, rfl⟩ | ⟨t, ht, rfl⟩ | ⟨h1, h2⟩
    · rw [authMatch_apr E pw ht, authApr_iff E hE] at ha
      obtain ⟨salt, h1, h2, rfl⟩ := ha
      have := Accepts.apr1 (E := E) (encode := aprText) (pass := pw) h1 h2
      simpa [apr1Id] using this
    · rw [authMatch_sha E pw ht, authSha1_iff E hS] at ha
      exact .sha1 ht ha
    · rw [authMatch_other E pw h1 h2] at ha
      simp only [Res.ok.injEq, Bool.and_eq_true, decide_eq_true_eq, Bool.or_eq_true, beq_iff_eq] at ha
      rcases ha with ⟨hne, hc | rfl⟩
      · exact .crypt hne h1 h2 hc
      · exact .plain hne h1 h2
  · intro ha
    cases ha with
    | @apr1 salt h1 h2 =>
      have : b!"$apr1$" ++ salt ++ [ch%'$'] ++ aprText (apr1Rounds E.md5 pw salt 1000) =
          apr1Id ++ (salt ++ [ch%'$'] ++ aprText (apr1Rounds E.md5 pw salt 1000)) := by simp [apr1Id]
      rw [this, authMatch_apr E pw (by simp), authApr_iff E hE]
      exact ⟨salt, h1, h2, rfl⟩
    | @sha1 t ht h => rw [authMatch_sha E pw ht, authSha1_iff E hS]; exact h
    | crypt hne h1 h2 hc =>
      rw [authMatch_other E pw h1 h2]
      simp [hne, hc]
    | plain hne h1 h2 =>
      rw [authMatch_other E pw h1 h2]
      simp [hne]

theorem authMatch_defined (E : Crypto) (pw h : Bytes) (hg : GoodHash E h) : ∃ b, authMatch E pw h = .ok b := by
  rcases scheme_cases h with ⟨t, ht, rfl⟩ | ⟨t, ht, rfl⟩ | ⟨h1, h2⟩
  · rw [authMatch_apr E pw ht]
    obtain ⟨r, hr⟩ := aprMd5Encode_ok E pw (hg.1 t ht rfl)
    exact ⟨_, by rw [authApr, hr]⟩
  · rw [authMatch_sha E pw ht]
    unfold authSha1
    rw [show (b!"{SHA}" ++ t).drop 5 = t from rfl]
    cases hu : E.unbase64 t with
    | none => exact ⟨_, rfl⟩
    | some d =>
      dsimp only
      rcases hg.2 t d ht rfl hu with rfl | h20
      · exact ⟨_, rfl⟩
      · split
        · exact ⟨_, rfl⟩
        · split
          · exact ⟨_, rfl⟩
          · rw [if_neg (by omega)]; exact ⟨_, rfl⟩
  · exact ⟨_, authMatch_other E pw h1 h2⟩

/-! ### The file -/

theorem fgets_line {l r : Bytes} (hn : (10 : UInt8) ∉ l) (hl : l.length < 4095) : fgets (l ++ 10 :: r) = (l ++ [10], r) := by
  have hall : ∀ c ∈ l, notNl c = true := by
    intro c hc
    simp only [notNl, bne_iff_ne, ne_eq]
    intro e; exact hn (e ▸ hc)
  have hm : maxBuf - 1 = 4095 := rfl
  unfold fgets
  dsimp only
  have e1 : (l ++ 10 :: r).take (maxBuf - 1) = l ++ 10 :: r.take (4094 - l.length) := by
    rw [hm, List.take_append, List.take_of_length_le (by omega), show 4095 - l.length = (4094 - l.length) + 1 by omega]
    rfl
  rw [e1, takeWhile_app hall (by intro c t e; cases e; rfl), if_pos (by simp)]
  have e2 : (l ++ 10 :: r).take (l.length + 1) = l ++ [10] := by
    rw [List.take_append, List.take_of_length_le (by omega)]; simp
  have e3 : (l ++ 10 :: r).drop (l.length + 1) = r := by
    rw [List.drop_append, List.drop_of_length_le (by omega)]; simp
  rw [e2, e3]

theorem fgets_last {l : Bytes} (hn : (10 : UInt8) ∉ l) (hl : l.length < 4095) : fgets l = (l, []) := by
  have hall : ∀ c ∈ l, notNl c = true := by
    intro c hc
    simp only [notNl, bne_iff_ne, ne_eq]
    intro e; exact hn (e ▸ hc)
  have hm : maxBuf - 1 = 4095 := rfl
  unfold fgets
  dsimp only
  rw [hm, List.take_of_length_le (by omega), takeWhile_all' hall, if_neg (by omega), List.drop_of_length_le (by omega)]

theorem passLine_nl {l : Bytes} (hn : (10 : UInt8) ∉ l) (h0 : (0 : UInt8) ∉ l) : passLine (l ++ [10]) = passLine l := by
  have hall : ∀ c ∈ l, notNul c = true := by
    intro c hc
    simp only [notNul, bne_iff_ne, ne_eq]
    intro e; exact h0 (e ▸ hc)
  have e1 : (l ++ [10]).takeWhile notNul = l ++ [10] :=
    takeWhile_all' (by
      intro c hc
      rcases List.mem_append.mp hc with h | h
      · exact hall c h
      · simp at h; subst h; rfl)
  have e2 : l.takeWhile notNul = l := takeWhile_all' hall
  unfold passLine
  dsimp only
  rw [e1, e2]
  obtain ⟨b, h1, -, h3, h4, h5⟩ := takeWhile_split isBlank l
  have e3 : (l ++ [10]).dropWhile isBlank = l.dropWhile isBlank ++ [10] := by
    rw [← h3]
    conv => lhs; rw [h1]
    rw [List.append_assoc, dropWhile_app h5]
    intro c t e
    cases b with
    | nil => cases e; rfl
    | cons d b => cases e; exact h4 _ _ rfl
  rw [e3]
  have hb : (10 : UInt8) ∉ l.dropWhile isBlank := by
    rw [← h3]
    intro hm
    exact hn (by rw [h1]; exact List.mem_append_right _ hm)
  generalize l.dropWhile isBlank = p at hb
  cases p with
  | nil => simp
  | cons c p =>
    have g1 : (c :: p ++ [10]).getLast? = some 10 := List.getLast?_concat
    have g2 : ¬ (c :: p).getLast? = some 10 := by
      intro h
      exact hb (List.mem_of_getLast? h)
    have g3 : (c :: p ++ [10]).head? = (c :: p).head? := rfl
    have g4 : (c :: p ++ [10]).dropLast = c :: p := List.dropLast_concat
    rw [if_pos g1, if_neg g2, g3, g4]
    simp

theorem passLine_iff {l : Bytes} (hn : (10 : UInt8) ∉ l) (h0 : (0 : UInt8) ∉ l) (u h : Bytes) :
    passLine l = some (u, h) ↔ EntryLine l u h := by
  have hall : ∀ c ∈ l, notNul c = true := by
    intro c hc
    simp only [notNul, bne_iff_ne, ne_eq]
    intro e; exact h0 (e ▸ hc)
  unfold passLine
  dsimp only
  rw [takeWhile_all' hall]
  obtain ⟨b, h1, -, h3, h4, h5⟩ := takeWhile_split isBlank l
  rw [← h3]
  have hb : (10 : UInt8) ∉ b := by
    intro hm
    exact hn (by rw [h1]; exact List.mem_append_right _ hm)
  have hlast : ¬ b.getLast? = some 10 := fun h => hb (List.mem_of_getLast? h)
  rw [if_neg hlast]
  have blank_iff : ∀ c : UInt8, isBlank c = true ↔ c = 32 ∨ c = 9 := by
    intro c; simp [isBlank]
  constructor
  · intro hp
    split at hp
    · cases hp
    · rename_i hh
      split at hp
      · cases hp
      · split at hp
        · rename_i hm
          simp only [Option.some.injEq, Prod.mk.injEq] at hp
          obtain ⟨rfl, rfl⟩ := hp
          obtain ⟨b2, k1, -, k3, k4, k5⟩ := takeWhile_split (· != ch%':') b
          cases b2 with
          | nil =>
            exfalso
            rw [List.append_nil] at k1
            rw [k1] at hm
            have := k5 _ hm
            simp at this
          | cons c b2 =>
            have hc : c = ch%':' := by simpa using k4 c b2 rfl
            subst hc
            refine ⟨l.takeWhile isBlank, ?_, fun c hc => (blank_iff c).mp (h5 c hc), ?_, ?_⟩
            · rw [← k3, List.drop_one, List.tail_cons, List.append_assoc, ← k1, ← h1]
            · intro hm'
              have := k5 _ hm'
              simp at this
            · intro c hc
              have hbc : b.head? = some c := by
                rw [k1, List.head?_append, hc]; rfl
              cases b with
              | nil => cases hbc
              | cons d b =>
                cases hbc
                have := h4 _ _ rfl
                rw [Bool.eq_false_iff, ne_eq, blank_iff] at this
                simp only [not_or] at this
                refine ⟨this.1, this.2, ?_⟩
                intro e
                exact hh (by rw [← e]; rfl)
        · cases hp
  · rintro ⟨ws, rfl, hw, hcu, hhd⟩
    have eb : b = u ++ ch%':' :: h := by
      rw [h3, List.append_assoc, dropWhile_app (fun c hc => (blank_iff c).mpr (hw c hc))]
      intro c t e
      cases u with
      | nil => cases e; rfl
      | cons d u =>
        cases e
        have := hhd _ rfl
        rw [Bool.eq_false_iff, ne_eq, blank_iff]
        simp [this.1, this.2.1]
    have hhead : ¬ b.head? = some ch%'#' := by
      rw [eb]
      cases u with
      | nil => simp
      | cons d u =>
        have := (hhd d rfl).2.2
        simpa using this
    rw [if_neg hhead, if_neg (by rw [eb]; simp), if_neg (by rw [eb]; simp), if_pos (by rw [eb]; simp)]
    have hall : ∀ c ∈ u, (c != ch%':') = true := by
      intro c hc
      simp only [bne_iff_ne, ne_eq]
      intro e; exact hcu (e ▸ hc)
    rw [eb, takeWhile_app hall (by intro c t e; cases e; rfl), dropWhile_app hall (by intro c t e; cases e; rfl)]
    rfl

theorem passLine_nil : passLine [] = none := rfl

theorem passLines_spec : ∀ (ls : List Bytes) (f : Nat), (∀ l ∈ ls, (10 : UInt8) ∉ l ∧ (0 : UInt8) ∉ l ∧ l.length < 4095) →
    (nlJoin ls).length < f → passLines f (nlJoin ls) = ls.filterMap passLine
  | [], f, _, h => by
    cases f with
    | zero => omega
    | succ f => simp [passLines, nlJoin]
  | [l], f, hl, h => by
    have hl := hl l (by simp)
    cases f with
    | zero => omega
    | succ f =>
      rw [nlJoin, passLines]
      by_cases he : l = []
      · subst he; simp [passLine_nil]
      · rw [if_neg he, fgets_last hl.1 hl.2.2]
        dsimp only
        have : passLines f [] = [] := by cases f <;> simp [passLines]
        rw [this, List.append_nil]
        cases hp : passLine l <;> simp [hp]
  | l :: l2 :: ls, f, hl, h => by
    have hl1 := hl l (by simp)
    cases f with
    | zero => omega
    | succ f =>
      have e : nlJoin (l :: l2 :: ls) = l ++ 10 :: nlJoin (l2 :: ls) := rfl
      rw [e] at h ⊢
      rw [passLines, if_neg (by simp), fgets_line hl1.1 hl1.2.2]
      dsimp only
      rw [passLine_nl hl1.1 hl1.2.1, passLines_spec (l2 :: ls) f (fun x hx => hl x (List.mem_cons_of_mem _ hx)) (by simp at h; omega)]
      cases hp : passLine l <;> simp [hp]

theorem find_filterMap {α β : Type} (g : α → Option β) (q : β → Bool) : ∀ (ls : List α) (b : β),
    (ls.filterMap g).find? q = some b ↔
      ∃ pre l post, ls = pre ++ l :: post ∧ g l = some b ∧ q b = true ∧ ∀ x ∈ pre, ∀ c, g x = some c → q c = false
  | [], b => by simp
  | a :: ls, b => by
    cases hg : g a with
    | none =>
      rw [List.filterMap_cons_none hg, find_filterMap g q ls b]
      constructor
      · rintro ⟨pre, l, post, rfl, h1, h2, h3⟩
        refine ⟨a :: pre, l, post, rfl, h1, h2, ?_⟩
        intro x hx c hc
        rcases List.mem_cons.mp hx with rfl | hx
        · rw [hg] at hc; cases hc
        · exact h3 x hx c hc
      · rintro ⟨pre, l, post, h0, h1, h2, h3⟩
        cases pre with
        | nil =>
          simp at h0
          rw [← h0.1, hg] at h1; cases h1
        | cons x pre =>
          simp at h0
          exact ⟨pre, l, post, h0.2, h1, h2, fun y hy => h3 y (List.mem_cons_of_mem _ hy)⟩
    | some v =>
      rw [List.filterMap_cons_some hg, List.find?_cons]
      cases hq : q v with
      | true =>
        constructor
        · intro h
          cases h
          exact ⟨[], a, ls, rfl, hg, hq, by simp⟩
        · rintro ⟨pre, l, post, h0, h1, h2, h3⟩
          cases pre with
          | nil =>
            simp at h0
            rw [← h0.1, hg] at h1; exact h1
          | cons x pre =>
            simp at h0
            have := h3 x List.mem_cons_self v (h0.1 ▸ hg)
            rw [hq] at this; cases this
      | false =>
        dsimp only
        rw [find_filterMap g q ls b]
        constructor
        · rintro ⟨pre, l, post, rfl, h1, h2, h3⟩
          refine ⟨a :: pre, l, post, rfl, h1, h2, ?_⟩
          intro x hx c hc
          rcases List.mem_cons.mp hx with rfl | hx
          · rw [hg] at hc; cases hc; exact hq
          · exact h3 x hx c hc
        · rintro ⟨pre, l, post, h0, h1, h2, h3⟩
          cases pre with
          | nil =>
            simp at h0
            rw [← h0.1, hg] at h1
            cases h1
            rw [hq] at h2; cases h2
          | cons x pre =>
            simp at h0
            exact ⟨pre, l, post, h0.2, h1, h2, fun y hy => h3 y (List.mem_cons_of_mem _ hy)⟩

/-! ### Histories -/

/-- The modification time tells the content. -/
def Stamped (at_ : Nat → Bytes) : FileNow → Prop
  | .missing => True
  | .failing => False
  | .file m c => m ≠ 0 ∧ c = at_ m

def CacheOk (at_ : Nat → Bytes) (pf : PassFile) : Prop :=
  (pf.mtim = 0 ∧ pf.entries = []) ∨ (pf.mtim ≠ 0 ∧ pf.entries = passLines ((at_ pf.mtim).length + 1) (at_ pf.mtim))

theorem fill_ok {at_ : Nat → Bytes} {pf : PassFile} {now : FileNow} (h : CacheOk at_ pf) (hn : Stamped at_ now) :
    CacheOk at_ (passFileFill pf now) := by
  cases now with
  | missing => exact Or.inl ⟨rfl, rfl⟩
  | failing => exact hn.elim
  | file m c =>
    obtain ⟨h0, rfl⟩ := hn
    rw [passFileFill]
    split
    · exact Or.inr ⟨h0, rfl⟩
    · exact h

theorem fill_current {at_ : Nat → Bytes} {pf : PassFile} {m : Nat} (h : CacheOk at_ pf) (h0 : m ≠ 0) :
    (passFileFill pf (.file m (at_ m))).entries = passLines ((at_ m).length + 1) (at_ m) := by
  rw [passFileFill]
  split
  · rfl
  · rename_i hm
    simp only [ne_eq, Decidable.not_not] at hm
    rcases h with ⟨h1, -⟩ | ⟨-, h2⟩
    · omega
    · rw [h2, hm]

theorem basicAuth_ok {E : Crypto} {at_ : Nat → Bytes} {pf : PassFile} {now : FileNow} {hdr : Option Bytes} (h : CacheOk at_ pf)
    (hn : Stamped at_ now) : CacheOk at_ (basicAuth E pf now hdr).1 := by
  unfold basicAuth
  split
  · exact h
  · split
    · exact h
    · exact h
    · exact fill_ok h hn

theorem history_ok {E : Crypto} {at_ : Nat → Bytes} : ∀ {hist : List (FileNow × Option Bytes)} {pf : PassFile}, CacheOk at_ pf →
    (∀ x ∈ hist, Stamped at_ x.1) → CacheOk at_ (authHistory E pf hist)
  | [], _, h, _ => h
  | (now, hdr) :: hist, pf, h, hs => by
    have h1 := basicAuth_ok (E := E) (hdr := hdr) h (hs (now, hdr) List.mem_cons_self)
    exact history_ok (hist := hist) h1 (fun x hx => hs x (List.mem_cons_of_mem _ hx))

end Pound
