import Verif.Model.Acl
import Verif.Spec.Acl
import Verif.Proof.Basic
import Verif.Proof.Request
import Verif.Proof.JsonMore

namespace Pound

open Spec (bitOf bytesOf IsAddr Net InNet decimal EntryOf AclBody commaJoin FirstWord Trusted Untrusted)

/-! ### Masks -/

theorem maskByte_bits : ∀ k < 8, ∀ j < 8,
    (UInt8.ofNat ((255 >>> (8 - k)) <<< (8 - k))).toNat.testBit (7 - j) = decide (j < k) := by decide +kernel

theorem ff_bits : ∀ j < 8, (255 : UInt8).toNat.testBit (7 - j) = true := by decide +kernel

theorem netmask_spec {n : Nat} (h : n ≤ 128) : ∃ m, masklenToNetmask n = .ok m ∧ m.length = 16 ∧
    ∀ i b, m[i]? = some b → ∀ j, j < 8 → b.toNat.testBit (7 - j) = decide (8 * i + j < n) := by
  unfold masklenToNetmask
  dsimp only
  have hq : n / 8 % 2 ^ 32 = n / 8 := Nat.mod_eq_of_lt (by omega)
  rw [hq, if_pos (show n / 8 < 2 ^ 31 by omega), if_neg (by omega)]
  by_cases h16 : n / 8 = 16
  · rw [if_pos h16]
    refine ⟨_, rfl, by simp, ?_⟩
    intro i b hb j hj
    rw [List.getElem?_replicate] at hb
    split at hb
    · cases hb
      rw [ff_bits j hj]
      simp; omega
    · cases hb
  · rw [if_neg h16]
    refine ⟨_, rfl, by simp; omega, ?_⟩
    intro i b hb j hj
    rw [List.append_assoc] at hb
    rcases Nat.lt_trichotomy i (n / 8) with hi | hi | hi
    · rw [List.getElem?_append_left (by simpa using hi), List.getElem?_replicate, if_pos hi] at hb
      cases hb
      rw [ff_bits j hj]
      simp; omega
    · rw [List.getElem?_append_right (by simp; omega)] at hb
      simp only [List.length_replicate] at hb
      rw [show i - n / 8 = 0 by omega] at hb
      simp only [List.singleton_append, List.getElem?_cons_zero, Option.some.injEq] at hb
      subst hb
      rw [maskByte_bits (n % 8) (by omega) j hj]
      simp; omega
    · rw [List.getElem?_append_right (by simp; omega)] at hb
      simp only [List.length_replicate] at hb
      rw [show i - n / 8 = (i - n / 8 - 1) + 1 by omega] at hb
      simp only [List.singleton_append, List.getElem?_cons_succ, List.getElem?_replicate] at hb
      split at hb
      · cases hb
        simp; omega
      · cases hb

theorem byte_and (x y m : UInt8) :
    x &&& m = y &&& m ↔ ∀ j, j < 8 → m.toNat.testBit (7 - j) = true →
      x.toNat.testBit (7 - j) = y.toNat.testBit (7 - j) := by
  rw [← UInt8.toNat_inj, UInt8.toNat_and, UInt8.toNat_and]
  constructor
  · intro h j _ hm
    have := congrArg (fun v => Nat.testBit v (7 - j)) h
    simpa [Nat.testBit_and, hm] using this
  · intro h
    apply Nat.eq_of_testBit_eq
    intro i
    rw [Nat.testBit_and, Nat.testBit_and]
    rcases Nat.lt_or_ge i 8 with hi | hi
    · cases hm : m.toNat.testBit i
      · simp
      · have := h (7 - i) (by omega)
        rw [show 7 - (7 - i) = i by omega] at this
        rw [this hm]
    · have : m.toNat.testBit i = false := by
        apply Nat.testBit_lt_two_pow
        have := m.toNat_lt
        calc m.toNat < 2 ^ 8 := this
          _ ≤ 2 ^ i := Nat.pow_le_pow_right (by omega) hi
      simp [this]

theorem cidrLoop_spec : ∀ (n : Nat) (x m a : Bytes), n ≤ x.length → n ≤ m.length → n ≤ a.length →
    (cidrLoop n x m a = true ↔ ∀ (i : Nat) (u v w : UInt8), i < n → x[i]? = some u → m[i]? = some v → a[i]? = some w → u = w &&& v)
  | 0, x, m, a, _, _, _ => by simp [cidrLoop]
  | n + 1, [], m, a, h, _, _ => by simp at h
  | n + 1, _ :: _, [], a, _, h, _ => by simp at h
  | n + 1, _ :: _, _ :: _, [], _, _, h => by simp at h
  | n + 1, x :: xs, m :: ms, a :: as, h1, h2, h3 => by
    rw [cidrLoop]
    have ih := cidrLoop_spec n xs ms as (by simpa using h1) (by simpa using h2) (by simpa using h3)
    by_cases he : x = a &&& m
    · rw [if_neg (by simpa using he), ih]
      constructor
      · intro h i u v w hi hu hv hw
        cases i with
        | zero => simp at hu hv hw; subst hu hv hw; exact he
        | succ i => exact h i u v w (by omega) (by simpa using hu) (by simpa using hv) (by simpa using hw)
      · intro h i u v w hi hu hv hw
        exact h (i + 1) u v w (by omega) (by simpa using hu) (by simpa using hv) (by simpa using hw)
    · rw [if_pos (by simpa using he)]
      simp only [Bool.false_eq_true, false_iff]
      intro h
      exact he (h 0 x m a (by omega) rfl rfl rfl)

/-- Matching the masked bytes is agreement on the first bits. -/
theorem masked_iff {n L : Nat} {p m a : Bytes} (hn : n ≤ 8 * L) (hL : L ≤ 16) (hp : p.length = L) (ha : a.length = L)
    (hm : masklenToNetmask n = .ok m) :
    cidrLoop L (p.zipWith (· &&& ·) m) m a = true ↔ ∀ i, i < n → bitOf a i = bitOf p i := by
  obtain ⟨m', hm', hlen, hbits⟩ := netmask_spec (n := n) (by omega)
  rw [hm] at hm'
  cases hm'
  rw [cidrLoop_spec L _ _ _ (by simp; omega) (by omega) (by omega)]
  constructor
  · intro h i hi
    have hi8 : i / 8 < L := by omega
    have h1 := h (i / 8) (p[i / 8] &&& m[i / 8]) m[i / 8] a[i / 8] hi8
      (by rw [List.getElem?_zipWith, List.getElem?_eq_getElem (by omega), List.getElem?_eq_getElem (by omega)])
      (List.getElem?_eq_getElem (by omega)) (List.getElem?_eq_getElem (by omega))
    unfold bitOf
    rw [List.getElem?_eq_getElem (show i / 8 < a.length by omega), List.getElem?_eq_getElem (show i / 8 < p.length by omega)]
    dsimp only
    refine ((byte_and _ _ _).mp h1 (i % 8) (by omega) ?_).symm
    rw [hbits (i / 8) _ (List.getElem?_eq_getElem (by omega)) (i % 8) (by omega)]
    simp; omega
  · intro h i u v w hi hu hv hw
    have hpi : p[i]? = some p[i] := List.getElem?_eq_getElem (by omega)
    rw [List.getElem?_zipWith, hpi, hv] at hu
    simp only [Option.some.injEq] at hu
    subst hu
    rw [byte_and]
    intro j hj hb
    rw [hbits i v hv j hj] at hb
    have := h (8 * i + j) (by simpa using hb)
    unfold bitOf at this
    rw [show (8 * i + j) / 8 = i by omega, show (8 * i + j) % 8 = j by omega, hw, hpi] at this
    exact this.symm

/-! ### Entries -/

theorem notSlash_take {a : Bytes} (h : ch%'/' ∉ a) (r : Bytes) (hr : r.head? = none ∨ r.head? = some ch%'/') :
    (a ++ r).takeWhile notSlash = a ∧ (a ++ r).dropWhile notSlash = r := by
  induction a with
  | nil =>
    cases r with
    | nil => exact ⟨rfl, rfl⟩
    | cons c r =>
      have : c = ch%'/' := by simpa using hr
      subst this
      exact ⟨rfl, rfl⟩
  | cons c a ih =>
    have hc : notSlash c = true := by
      simp only [notSlash, bne_iff_ne, ne_eq]
      intro e
      exact h (by rw [e]; exact List.mem_cons_self)
    have := ih (fun h' => h (List.mem_cons_of_mem _ h'))
    simp [List.takeWhile_cons, List.dropWhile_cons, hc, this]

theorem digit_props : ∀ c : UInt8, isDigit c = true → isSpace c = false ∧ c ≠ ch%'-' ∧ c ≠ ch%'+' := by
  apply forall_byte; decide +kernel

theorem strtoul10_digits {ds : Bytes} (hne : ds ≠ []) (hd : ∀ c ∈ ds, isDigit c = true) (hv : decimal ds < 2 ^ 64) :
    strtoul10 ds = (some (decimal ds), []) := by
  cases ds with
  | nil => exact absurd rfl hne
  | cons c ds =>
    have hc := digit_props c (hd c List.mem_cons_self)
    unfold strtoul10
    have h1 : (c :: ds).dropWhile isSpace = c :: ds := by simp [List.dropWhile_cons, hc.1]
    rw [h1]
    have h2 : ¬ (c :: ds).head? = some ch%'-' := by simp [hc.2.1]
    have h3 : ¬ (c :: ds).head? = some ch%'+' := by simp [hc.2.2]
    have h4 : (c :: ds).takeWhile isDigit = c :: ds := by
      exact takeWhile_all' hd
    simp only [h2, h3, or_self, if_false, h4]
    rw [if_neg (by simp)]
    unfold decimal at hv ⊢
    rw [if_pos hv]
    simp

theorem isAddr_len {sa : Sockaddr} (h : IsAddr sa) :
    ∃ L, sockaddrBytes sa = some (L, bytesOf sa) ∧ (bytesOf sa).length = L ∧ L ≤ 16 ∧ 0 < L := by
  cases sa with
  | inet a => exact ⟨4, rfl, h, by omega, by omega⟩
  | inet6 a => exact ⟨16, rfl, h, by omega, by omega⟩
  | other => exact h.elim

theorem tail?_nil : ([] : Bytes).tail? = none := rfl
theorem tail?_cons (a : UInt8) (l : Bytes) : (a :: l).tail? = some l := rfl

theorem family_len {sa sb : Sockaddr} (h : sa.family = sb.family) (ha : IsAddr sa) (hb : IsAddr sb) :
    (bytesOf sa).length = (bytesOf sb).length := by
  cases sa <;> cases sb <;> simp_all [Sockaddr.family, IsAddr, bytesOf]

/-- An entry is read as a network, matched by exactly its members. -/
theorem parseCidr_spec {N : Bytes → Option (List Sockaddr)} {s : Bytes} {net : Net} (h : EntryOf N s net) :
    ∃ c, parseCidr N s = .ok (some c) ∧ IsAddr net.addr ∧
      ∀ sa, IsAddr sa → ∀ len ap, sockaddrBytes sa = some (len, ap) →
        ((c.family == sa.family && cidrMatch c ap len) = true ↔ InNet sa net) := by
  have core : ∀ (sa0 : Sockaddr) (n : Nat), IsAddr sa0 → n ≤ 8 * (bytesOf sa0).length → ∀ m,
      masklenToNetmask n = .ok m → ∀ L, (bytesOf sa0).length = L → L ≤ 16 →
      ∀ sa, IsAddr sa → ∀ len ap, sockaddrBytes sa = some (len, ap) →
        (((⟨sa0.family, L, (bytesOf sa0).zipWith (· &&& ·) m, m⟩ : Cidr).family == sa.family &&
          cidrMatch ⟨sa0.family, L, (bytesOf sa0).zipWith (· &&& ·) m, m⟩ ap len) = true ↔ InNet sa ⟨sa0, n⟩) := by
    intro sa0 n h0 hn m hm L hL hL16 sa hsa len ap hb
    obtain ⟨L', hb', hl', -, -⟩ := isAddr_len hsa
    rw [hb] at hb'
    cases hb'
    unfold InNet cidrMatch
    dsimp only
    simp only [Bool.and_eq_true, beq_iff_eq]
    constructor
    · rintro ⟨hf, hc⟩
      have hlen := family_len hf h0 hsa
      rw [if_pos (by omega)] at hc
      refine ⟨hf.symm, ?_⟩
      exact (masked_iff (L := len) (by omega) (by omega) (by omega) (by omega) hm).mp hc
    · rintro ⟨hf, hc⟩
      have hlen := family_len hf.symm h0 hsa
      refine ⟨hf.symm, ?_⟩
      rw [if_pos (by omega)]
      exact (masked_iff (L := len) (by omega) (by omega) (by omega) (by omega) hm).mpr hc
  cases h with
  | @host a sa sas hs hN hA =>
    obtain ⟨L, hb, hl, hL16, hL0⟩ := isAddr_len hA
    obtain ⟨m, hm, -, -⟩ := netmask_spec (n := L * 8) (by omega)
    have hsp := notSlash_take hs [] (Or.inl rfl)
    rw [List.append_nil] at hsp
    refine ⟨⟨sa.family, L, (bytesOf sa).zipWith (· &&& ·) m, m⟩, ?_, hA, ?_⟩
    · unfold parseCidr
      simp only [hsp.1, hsp.2, tail?_nil, hN, hb, Option.getD_none, hm]
    · rw [show 8 * (bytesOf sa).length = L * 8 by omega]
      exact core sa (L * 8) hA (by omega) m hm L hl hL16
  | @net a ds sa sas hs hN hA hne hd hle =>
    obtain ⟨L, hb, hl, hL16, hL0⟩ := isAddr_len hA
    obtain ⟨m, hm, -, -⟩ := netmask_spec (n := decimal ds) (by omega)
    have hsp := notSlash_take hs (ch%'/' :: ds) (Or.inr rfl)
    refine ⟨⟨sa.family, L, (bytesOf sa).zipWith (· &&& ·) m, m⟩, ?_, hA, ?_⟩
    · unfold parseCidr
      simp only [hsp.1, hsp.2, tail?_cons, strtoul10_digits hne hd (by omega), if_true, hN, hb, Option.getD_some, hm]
    · exact core sa (decimal ds) hA hle m hm L hl hL16

theorem parseAclLoop_spec {N : Bytes → Option (List Sockaddr)} {ts : List CTok} {nets : List Net} {r : List CTok}
    (h : AclBody N ts nets r) : ∀ acl0 : List Cidr, ∃ acl, parseAclLoop N ts acl0 = .ok (some (acl, r)) ∧
      ∀ sa, IsAddr sa → ∀ len ap, sockaddrBytes sa = some (len, ap) →
        ((acl.any fun c => c.family == sa.family && cidrMatch c ap len) = true ↔
          (acl0.any fun c => c.family == sa.family && cidrMatch c ap len) = true ∨ ∃ n ∈ nets, InNet sa n) := by
  induction h with
  | done hs => intro acl0; exact ⟨acl0, by rw [parseAclLoop, if_pos hs], by simp⟩
  | nl _ ih =>
    intro acl0
    obtain ⟨acl, h1, h2⟩ := ih acl0
    exact ⟨acl, by rw [parseAclLoop, h1], h2⟩
  | entry hd _ ih =>
    intro acl0
    obtain ⟨c, hc, -, hm⟩ := parseCidr_spec hd
    obtain ⟨acl, h1, h2⟩ := ih (acl0 ++ [c])
    refine ⟨acl, by rw [parseAclLoop, hc]; exact h1, ?_⟩
    intro sa hsa len ap hb
    rw [h2 sa hsa len ap hb, List.any_append, Bool.or_eq_true, List.any_cons, List.any_nil, Bool.or_false, hm sa hsa len ap hb]
    simp only [List.mem_cons, exists_eq_or_imp]
    exact or_assoc

theorem parseAcl_spec {N : Bytes → Option (List Sockaddr)} {ts : List CTok} {nets : List Net} {r : List CTok}
    (h : AclBody N ts nets r) : ∃ acl, parseAcl N (.nl :: ts) = .ok (some (acl, r)) ∧
      ∀ sa, IsAddr sa → ((aclMatch acl sa = 0 ↔ ∃ n ∈ nets, InNet sa n) ∧
        (aclMatch acl sa = 1 ↔ ¬ ∃ n ∈ nets, InNet sa n)) := by
  obtain ⟨acl, h1, h2⟩ := parseAclLoop_spec h []
  refine ⟨acl, by rw [parseAcl, h1], ?_⟩
  intro sa hsa
  obtain ⟨L, hb, -, -, -⟩ := isAddr_len hsa
  have h3 := h2 sa hsa L _ hb
  simp only [List.any_nil, Bool.false_eq_true, false_or] at h3
  unfold aclMatch
  rw [hb]
  dsimp only
  rw [← h3]
  split <;> simp_all

theorem inNet_family {sa : Sockaddr} {n : Net} (h : InNet sa n) (hn : IsAddr n.addr) (ho : sa = .other) : False := by
  subst ho
  have := h.1
  cases hA : n.addr <;> simp_all [Sockaddr.family, IsAddr]

/-! ### Refused entries -/

theorem parseCidr_badHost {N : Bytes → Option (List Sockaddr)} {s : Bytes} (h : N (s.takeWhile notSlash) = none) :
    parseCidr N s = .ok none := by
  unfold parseCidr
  dsimp only
  rw [h]
  split <;> rfl

theorem strtoul10_rest (s : Bytes) {c : UInt8} (hc : c ∈ s) (hd : isDigit c = false) (hs : isSpace c = false)
    (h1 : c ≠ ch%'-') (h2 : c ≠ ch%'+') : (strtoul10 s).2 ≠ [] := by
  unfold strtoul10
  dsimp only
  have a1 : c ∈ s.dropWhile isSpace := by
    have := List.takeWhile_append_dropWhile (p := isSpace) (l := s)
    rw [← this] at hc
    rcases List.mem_append.mp hc with h | h
    · have := takeWhile_mem_true _ _ h
      rw [hs] at this; cases this
    · exact h
  generalize s.dropWhile isSpace = t at a1 ⊢
  have hu : c ∈ (if t.head? = some ch%'-' ∨ t.head? = some ch%'+' then t.drop 1 else t) := by
    split
    · cases t with
      | nil => simp at a1
      | cons x t =>
        rename_i hx
        rcases List.mem_cons.mp a1 with rfl | h
        · rcases hx with hx | hx
          · simp at hx; exact absurd hx h1
          · simp at hx; exact absurd hx h2
        · simpa using h
    · exact a1
  generalize (if t.head? = some ch%'-' ∨ t.head? = some ch%'+' then t.drop 1 else t) = u at hu
  split
  · intro e
    have e' : s = [] := e
    rw [e'] at hc
    simp at hc
  · intro e
    have e' : u.drop (u.takeWhile isDigit).length = [] := e
    obtain ⟨b, h3, h4, -, -, h5⟩ := takeWhile_split isDigit u
    rw [h4, e', List.append_nil] at h3
    rw [h3] at hu
    have := h5 c hu
    rw [hd] at this; cases this

theorem parseCidr_badMask {N : Bytes → Option (List Sockaddr)} {a m : Bytes} (ha : ch%'/' ∉ a) {c : UInt8} (hc : c ∈ m)
    (hd : isDigit c = false) (hs : isSpace c = false) (h1 : c ≠ ch%'-') (h2 : c ≠ ch%'+') :
    parseCidr N (a ++ ch%'/' :: m) = .ok none := by
  have hsp := notSlash_take ha (ch%'/' :: m) (Or.inr rfl)
  unfold parseCidr
  dsimp only
  rw [hsp.1, hsp.2, tail?_cons]
  dsimp only
  have := strtoul10_rest m hc hd hs h1 h2
  cases (strtoul10 m).1 with
  | none => rfl
  | some v => simp only [if_neg this]

/-! ### Forwarding headers -/

theorem segStart_last {pre e : Bytes} (he : ch%',' ∉ e) : ∀ k, pre.length ≤ k → k ≤ pre.length + e.length →
    segStart (pre ++ ch%',' :: e) k = pre.length
  | 0, h1, _ => by
    rw [segStart]; omega
  | k + 1, h1, h2 => by
    rw [segStart]
    rcases Nat.lt_or_ge pre.length (k + 1) with hlt | hge
    · rw [if_neg]
      · exact segStart_last he k (by omega) (by omega)
      · rw [List.getElem?_append_right (by omega), show k + 1 - pre.length = (k - pre.length) + 1 by omega, List.getElem?_cons_succ]
        intro h
        exact he (List.mem_of_getElem? h)
    · have : pre.length = k + 1 := by omega
      rw [if_pos]
      · exact this.symm
      · rw [List.getElem?_append_right (by omega), this, Nat.sub_self]
        rfl

theorem segStart_only {e : Bytes} (he : ch%',' ∉ e) : ∀ k, segStart e k = 0
  | 0 => rfl
  | k + 1 => by
    rw [segStart, if_neg]
    · exact segStart_only he k
    · intro h; exact he (List.mem_of_getElem? h)

/-- The word of an entry -/
def wordOf (e : Bytes) : Bytes := (e.dropWhile isSpace).takeWhile notSpace

theorem firstWord_iff (e w : Bytes) : FirstWord e w ↔ w = wordOf e := by
  constructor
  · rintro ⟨sp, r, rfl, h1, h2, h3, h4⟩
    unfold wordOf
    have hw : ∀ c ∈ w, notSpace c = true := fun c hc => by simp [notSpace, h2 c hc]
    have e1 : (sp ++ w ++ r).dropWhile isSpace = w ++ r := by
      rw [List.append_assoc, dropWhile_app h1]
      intro c t hct
      cases w with
      | nil => rw [h3 rfl] at hct; cases hct
      | cons d w => cases hct; exact h2 _ List.mem_cons_self
    rw [e1, takeWhile_app hw]
    intro c t hr
    have := h4 c (by rw [hr]; rfl)
    simp [notSpace, this]
  · rintro rfl
    refine ⟨e.takeWhile isSpace, (e.dropWhile isSpace).dropWhile notSpace, ?_, fun c hc => takeWhile_mem_true _ _ hc, ?_, ?_, ?_⟩
    · unfold wordOf
      rw [List.append_assoc, List.takeWhile_append_dropWhile, List.takeWhile_append_dropWhile]
    · intro c hc
      have := takeWhile_mem_true _ _ hc
      simpa [notSpace] using this
    · intro h
      cases hd : e.dropWhile isSpace with
      | nil => rfl
      | cons c t =>
        unfold wordOf at h
        rw [hd] at h
        have hc : isSpace c = false := by
          have := List.head?_dropWhile_not isSpace e
          rw [hd] at this
          simpa using this
        simp [List.takeWhile_cons, notSpace, hc] at h
    · intro c hc
      have := List.head?_dropWhile_not notSpace (e.dropWhile isSpace)
      rw [hc] at this
      simpa [notSpace] using this

theorem commaJoin_snoc {es : List Bytes} (h : es ≠ []) (e : Bytes) : commaJoin (es ++ [e]) = commaJoin es ++ ch%',' :: e := by
  induction es with
  | nil => exact absurd rfl h
  | cons a es ih =>
    cases es with
    | nil => rfl
    | cons b es =>
      have := ih (by simp)
      simp only [List.cons_append] at this ⊢
      have e1 : commaJoin (a :: b :: (es ++ [e])) = a ++ ch%',' :: commaJoin (b :: (es ++ [e])) := rfl
      have e2 : commaJoin (a :: b :: es) = a ++ ch%',' :: commaJoin (b :: es) := rfl
      rw [e1, e2, this]
      simp

theorem commaJoin_len (es : List Bytes) : es.length ≤ (commaJoin es).length + 1 := by
  induction es with
  | nil => simp
  | cons a es ih =>
    cases es with
    | nil => simp
    | cons b es =>
      rw [commaJoin]
      · simp at ih ⊢; omega
      · simp

/-- The scan, entry by entry from the right -/
def scanEntries (N : Bytes → Option (List Sockaddr)) (acl : List Cidr) : List Bytes → Option Bytes
  | [] => none
  | e :: es =>
    if aclMatchIp N acl (wordOf e) = 0 then some (wordOf e)
    else if aclMatchIp N acl (wordOf e) = 1 then scanEntries N acl es
    else none

/-- An empty text is not a numeric address. -/
theorem scanFwd_spec {N : Bytes → Option (List Sockaddr)} (hN : N [] = none) (acl : List Cidr) : ∀ (es : List Bytes) (f : Nat),
    (∀ e ∈ es, ch%',' ∉ e) → es.length ≤ f → scanFwd N acl f (commaJoin es.reverse) = scanEntries N acl es
  | [], f, _, _ => by
    cases f <;> simp [scanFwd, scanEntries, commaJoin]
  | e :: es, 0, _, h => by simp at h
  | e :: es, f + 1, hc, h => by
    have hce := hc e List.mem_cons_self
    have ih := scanFwd_spec hN acl es f (fun x hx => hc x (List.mem_cons_of_mem _ hx)) (by simpa using h)
    have hempty : aclMatchIp N acl [] = -1 := by rw [aclMatchIp, hN]
    cases hes : es with
    | nil =>
      subst hes
      simp only [List.reverse_cons, List.reverse_nil, List.nil_append, commaJoin]
      rw [scanFwd, scanEntries]
      by_cases he : e = []
      · subst he
        rw [if_pos rfl]
        have : wordOf [] = [] := rfl
        rw [this, hempty]
        simp
      · rw [if_neg he]
        dsimp only
        rw [segStart_only hce]
        have hw : segWord (e.drop 0) = wordOf e := by
          unfold segWord wordOf
          dsimp only
          rw [List.drop_zero, if_neg]
          intro h
          exact hce (List.mem_of_head? h)
        rw [hw]
        have hnil : scanFwd N acl f (e.take 0) = scanEntries N acl [] := by
          rw [List.take_zero]; exact ih
        rw [hnil]
    | cons e2 es2 =>
      rw [← hes]
      rw [List.reverse_cons, commaJoin_snoc (by simp [hes])]
      generalize hpre : commaJoin es.reverse = pre at ih
      rw [scanFwd, scanEntries, if_neg (by simp)]
      dsimp only
      have hp : segStart (pre ++ ch%',' :: e) ((pre ++ ch%',' :: e).length - 1) = pre.length := by
        apply segStart_last hce
        · simp
        · simp
      rw [hp, List.drop_left, List.take_left, ih]
      have hw : segWord (ch%',' :: e) = wordOf e := rfl
      rw [hw]

theorem aclMatchIp_spec {N : Bytes → Option (List Sockaddr)} (hA : ∀ a sas, N a = some sas → ∀ sa ∈ sas, IsAddr sa)
    {nets : List Net} {acl : List Cidr} (hacl : ∀ sa, IsAddr sa → (aclMatch acl sa = 0 ↔ ∃ n ∈ nets, InNet sa n)) (w : Bytes) :
    (aclMatchIp N acl w = 1 ↔ Trusted N nets w) ∧ (aclMatchIp N acl w = 0 ↔ Untrusted N nets w) := by
  unfold aclMatchIp Trusted Untrusted
  cases h : N w with
  | none => simp
  | some sas =>
    have key : (sas.any fun sa => aclMatch acl sa == 0) = true ↔ ∃ sa ∈ sas, ∃ n ∈ nets, InNet sa n := by
      rw [List.any_eq_true]
      constructor
      · rintro ⟨sa, hs, he⟩
        exact ⟨sa, hs, (hacl sa (hA w sas h sa hs)).mp (by simpa using he)⟩
      · rintro ⟨sa, hs, he⟩
        exact ⟨sa, hs, by simpa using (hacl sa (hA w sas h sa hs)).mpr he⟩
    dsimp only
    by_cases hk : (sas.any fun sa => aclMatch acl sa == 0) = true
    · rw [if_pos hk]
      have := key.mp hk
      refine ⟨⟨fun _ => ⟨sas, rfl, this⟩, fun _ => rfl⟩, ⟨fun h => (by cases h), ?_⟩⟩
      rintro ⟨sas', e, hn⟩
      cases e
      obtain ⟨sa, h1, n, h2, h3⟩ := this
      exact absurd h3 (hn sa h1 n h2)
    · rw [if_neg hk]
      refine ⟨⟨fun h => (by cases h), ?_⟩, ⟨fun _ => ⟨sas, rfl, fun sa h1 n h2 h3 => hk (key.mpr ⟨sa, h1, n, h2, h3⟩)⟩, fun _ => rfl⟩⟩
      rintro ⟨sas', e, hn⟩
      cases e
      exact absurd (key.mpr hn) hk

theorem scanEntries_spec {N : Bytes → Option (List Sockaddr)} (hA : ∀ a sas, N a = some sas → ∀ sa ∈ sas, IsAddr sa)
    {nets : List Net} {acl : List Cidr} (hacl : ∀ sa, IsAddr sa → (aclMatch acl sa = 0 ↔ ∃ n ∈ nets, InNet sa n)) (a : Bytes) :
    ∀ es : List Bytes, scanEntries N acl es = some a ↔
      ∃ post e pre, es = post ++ e :: pre ∧ wordOf e = a ∧ Untrusted N nets a ∧ ∀ x ∈ post, Trusted N nets (wordOf x)
  | [] => by
    simp [scanEntries]
  | e :: es => by
    have hm := aclMatchIp_spec hA hacl (wordOf e)
    rw [scanEntries]
    by_cases h0 : aclMatchIp N acl (wordOf e) = 0
    · rw [if_pos h0]
      constructor
      · intro h
        cases h
        exact ⟨[], e, es, rfl, rfl, hm.2.mp h0, by simp⟩
      · rintro ⟨post, e', pre, h1, h2, h3, h4⟩
        cases post with
        | nil => simp at h1; rw [h1.1, h2]
        | cons x post =>
          simp at h1
          have := hm.1.mpr (h1.1 ▸ h4 x List.mem_cons_self)
          rw [h0] at this; cases this
    · rw [if_neg h0]
      by_cases h1 : aclMatchIp N acl (wordOf e) = 1
      · rw [if_pos h1, scanEntries_spec hA hacl a es]
        constructor
        · rintro ⟨post, e', pre, rfl, h2, h3, h4⟩
          refine ⟨e :: post, e', pre, rfl, h2, h3, ?_⟩
          intro x hx
          rcases List.mem_cons.mp hx with rfl | hx
          · exact hm.1.mp h1
          · exact h4 x hx
        · rintro ⟨post, e', pre, h2, h3, h4, h5⟩
          cases post with
          | nil =>
            simp at h2
            rw [← h3, ← h2.1] at h4
            exact absurd (hm.2.mpr h4) h0
          | cons x post =>
            simp at h2
            exact ⟨post, e', pre, h2.2, h3, h4, fun y hy => h5 y (List.mem_cons_of_mem _ hy)⟩
      · rw [if_neg h1]
        simp only [reduceCtorEq, false_iff]
        rintro ⟨post, e', pre, h2, h3, h4, h5⟩
        cases post with
        | nil =>
          simp at h2
          rw [← h3, ← h2.1] at h4
          exact absurd (hm.2.mpr h4) h0
        | cons x post =>
          simp at h2
          exact absurd (hm.1.mpr (h2.1 ▸ h5 x List.mem_cons_self)) h1

theorem scanEntries_words {N : Bytes → Option (List Sockaddr)} {acl : List Cidr} : ∀ {es es' : List Bytes},
    es.map wordOf = es'.map wordOf → scanEntries N acl es = scanEntries N acl es'
  | [], [], _ => rfl
  | [], _ :: _, h => by simp at h
  | _ :: _, [], h => by simp at h
  | e :: es, e' :: es', h => by
    simp at h
    rw [scanEntries, scanEntries, h.1, scanEntries_words h.2]

theorem wordOf_space (e : Bytes) : wordOf (32 :: e) = wordOf e := by
  unfold wordOf
  rw [List.dropWhile_cons, if_pos (by decide)]

theorem commaJoin_append {es es' : List Bytes} (h : es ≠ []) (h' : es' ≠ []) :
    commaJoin (es ++ es') = commaJoin es ++ ch%',' :: commaJoin es' := by
  induction es with
  | nil => exact absurd rfl h
  | cons a es ih =>
    cases es with
    | nil =>
      cases es' with
      | nil => exact absurd rfl h'
      | cons b es' => rfl
    | cons b es =>
      have := ih (by simp)
      simp only [List.cons_append] at this ⊢
      have e1 : commaJoin (a :: b :: (es ++ es')) = a ++ ch%',' :: commaJoin (b :: (es ++ es')) := rfl
      have e2 : commaJoin (a :: b :: es) = a ++ ch%',' :: commaJoin (b :: es) := rfl
      rw [e1, e2, this]
      simp

theorem commaJoin_space {e : Bytes} {es : List Bytes} : 32 :: commaJoin (e :: es) = commaJoin ((32 :: e) :: es) := by
  cases es <;> rfl

/-- Several header lines read like one. -/
theorem joinValues_spec : ∀ {vss : List (List Bytes)}, (∀ es ∈ vss, commaJoin es ≠ [] ∧ ∀ e ∈ es, ch%',' ∉ e) →
    ∃ es', joinValues (vss.map commaJoin) = commaJoin es' ∧ es'.map wordOf = vss.flatten.map wordOf ∧
      (∀ e ∈ es', ch%',' ∉ e) ∧ (vss ≠ [] → es' ≠ [])
  | [], _ => ⟨[], rfl, rfl, by simp, by simp⟩
  | [es], h => ⟨es, rfl, by simp, (h es (by simp)).2, fun _ e => (h es (by simp)).1 (by rw [e]; rfl)⟩
  | es :: es2 :: vss, h => by
    obtain ⟨es', h1, h2, h3, h4⟩ := joinValues_spec (vss := es2 :: vss) (fun x hx => h x (List.mem_cons_of_mem _ hx))
    have hne := (h es (by simp)).1
    have hes : es ≠ [] := fun e => hne (by rw [e]; rfl)
    cases es' with
    | nil => exact absurd rfl (h4 (by simp))
    | cons e' es' =>
      refine ⟨es ++ (32 :: e') :: es', ?_, ?_, ?_, by simp⟩
      · have e1 : joinValues ((es :: es2 :: vss).map commaJoin) =
            commaJoin es ++ (if 0 < (commaJoin es).length then b!", " else []) ++ joinValues ((es2 :: vss).map commaJoin) := rfl
        rw [e1, if_pos (List.length_pos_iff.mpr hne), h1, commaJoin_append hes (by simp), ← commaJoin_space]
        simp
      · rw [List.map_append, List.map_cons, wordOf_space, ← List.map_cons, h2]
        simp
      · intro e he
        rcases List.mem_append.mp he with he | he
        · exact (h es (by simp)).2 e he
        · rcases List.mem_cons.mp he with rfl | he
          · have := h3 e' List.mem_cons_self
            simp only [List.mem_cons, not_or]
            exact ⟨by decide, this⟩
          · exact h3 e (List.mem_cons_of_mem _ he)

end Pound
