import Verif.Spec.Location
import Verif.Proof.Control
import Verif.Proof.Log

namespace Pound
open Spec

theorem ciEq_append {a b c d : Bytes} (h : ciEq a b = true) : ciEq (a ++ c) (b ++ d) = ciEq c d := by
  have hab := ciEq_iff.mp h
  cases hcd : ciEq c d with
  | true =>
    rw [ciEq_iff, List.map_append, List.map_append, hab, ciEq_iff.mp hcd]
  | false =>
    cases hx : ciEq (a ++ c) (b ++ d) with
    | false => rfl
    | true =>
      have := ciEq_iff.mp hx
      rw [List.map_append, List.map_append, hab, List.append_cancel_left_eq] at this
      rw [ciEq_iff.mpr this] at hcd
      cases hcd

theorem lower_punct {s : Bytes} (h : s.map toLower = b!"://") : s = b!"://" := by
  have h1 : ∀ c : UInt8, toLower c = ch%':' → c = ch%':' := by apply forall_byte; decide +kernel
  have h2 : ∀ c : UInt8, toLower c = ch%'/' → c = ch%'/' := by apply forall_byte; decide +kernel
  have hl : s.length = 3 := by have := congrArg List.length h; simpa using this
  match s, hl with
  | [a, b, c], _ =>
    simp only [List.map_cons, List.map_nil, List.cons.injEq, and_true] at h
    rw [h1 a h.1, h2 b h.2.1, h2 c h.2.2]

theorem take_len {a b : Bytes} {n : Nat} (h : a.length = n) : (a ++ b).take n = a ∧ (a ++ b).drop n = b := by
  subst h
  simp

theorem slash_split {a p : Bytes} (ha : ch%'/' ∉ a) (hp : p = [] ∨ p.head? = some ch%'/') :
    (a ++ p).takeWhile notSlash = a ∧ (a ++ p).dropWhile notSlash = p := by
  have h1 : ∀ c ∈ a, notSlash c = true := by
    intro c hc
    unfold notSlash
    simp only [bne_iff_ne, ne_eq]
    rintro rfl
    exact ha hc
  have h2 : ∀ c t, p = c :: t → notSlash c = false := by
    intro c t e
    subst e
    rcases hp with hp | hp
    · cases hp
    · simp at hp; subst hp; decide
  exact ⟨takeWhile_app h1 h2, dropWhile_app h1 h2⟩

theorem colon_split {a p : Bytes} (ha : ch%':' ∉ a) (hp : p = [] ∨ p.head? = some ch%':') :
    (a ++ p).takeWhile notColon = a ∧ (a ++ p).dropWhile notColon = p := by
  have h1 : ∀ c ∈ a, notColon c = true := by
    intro c hc
    unfold notColon
    simp only [bne_iff_ne, ne_eq]
    rintro rfl
    exact ha hc
  have h2 : ∀ c t, p = c :: t → notColon c = false := by
    intro c t e
    subst e
    rcases hp with hp | hp
    · cases hp
    · simp at hp; subst hp; decide
  exact ⟨takeWhile_app h1 h2, dropWhile_app h1 h2⟩

theorem locationAt_abs {l scheme auth path : Bytes} (h : AbsUrl l scheme auth path) : locationAt l = some (scheme, auth, path) := by
  obtain ⟨h1, h2⟩ := slash_split h.auth.2 h.path
  unfold locationAt
  rcases h.http with hs | hs
  · have hl : scheme.length = 4 := by rw [ciEq_length hs]; rfl
    have e1 : l = (scheme ++ b!"://") ++ (auth ++ path) := by rw [h.text]; simp
    have e2 : l = scheme ++ (b!"://" ++ (auth ++ path)) := by rw [h.text]; simp
    have t1 := take_len (a := scheme ++ b!"://") (b := auth ++ path) (n := 7) (by simp [hl])
    have t2 := take_len (a := scheme) (b := b!"://" ++ (auth ++ path)) hl
    rw [if_pos]
    · rw [e1, t1.2, h1, h2, ← e1, e2, t2.1]
    · rw [e1, t1.1, t1.2, h1]
      refine ⟨?_, h.auth.1⟩
      rw [show b!"http://" = b!"http" ++ b!"://" from rfl, ciEq_append hs]
      decide
  · have hl : scheme.length = 5 := by rw [ciEq_length hs]; rfl
    have e1 : l = (scheme ++ b!"://") ++ (auth ++ path) := by rw [h.text]; simp
    have e2 : l = scheme ++ (b!"://" ++ (auth ++ path)) := by rw [h.text]; simp
    have e3 : l = (scheme ++ b!":/") ++ (b!"/" ++ (auth ++ path)) := by rw [h.text]; simp
    have t1 := take_len (a := scheme ++ b!"://") (b := auth ++ path) (n := 8) (by simp [hl])
    have t2 := take_len (a := scheme) (b := b!"://" ++ (auth ++ path)) hl
    have t3 := take_len (a := scheme ++ b!":/") (b := b!"/" ++ (auth ++ path)) (n := 7) (by simp [hl])
    rw [if_neg, if_pos]
    · rw [e1, t1.2, h1, h2, ← e1, e2, t2.1]
    · rw [e1, t1.1, t1.2, h1]
      refine ⟨?_, h.auth.1⟩
      rw [show b!"https://" = b!"https" ++ b!"://" from rfl, ciEq_append hs]
      decide
    · rintro ⟨hh, -⟩
      rw [e3, t3.1] at hh
      have : ciEq (scheme ++ b!":/") (b!"https" ++ b!":/") = true := by rw [ciEq_append hs]; decide
      rw [ciEq_congr this] at hh
      revert hh; decide

theorem abs_ne {l scheme auth path : Bytes} (h : AbsUrl l scheme auth path) : ∃ c t, l = c :: t := by
  cases l with
  | cons c t => exact ⟨c, t, rfl⟩
  | nil =>
    exfalso
    have := congrArg List.length h.text
    simp at this

theorem locationMatch_abs {l scheme auth path : Bytes} (h : AbsUrl l scheme auth path) : locationMatch l = some (scheme, auth, path) := by
  obtain ⟨c, t, e⟩ := abs_ne h
  have := locationAt_abs h
  subst e
  unfold locationMatch
  rw [this]

theorem locationAt_sound {l p a r : Bytes} (h : locationAt l = some (p, a, r)) : AbsUrl l p a r := by
  have hpath : ∀ s : Bytes, s.dropWhile notSlash = [] ∨ (s.dropWhile notSlash).head? = some ch%'/' := by
    intro s
    cases hd : s.dropWhile notSlash with
    | nil => exact Or.inl rfl
    | cons z t =>
      have := dw_head hd
      right
      simp [notSlash] at this
      simp [this]
  have hns : ∀ s : Bytes, ch%'/' ∉ s.takeWhile notSlash := by
    intro s hm
    have := mem_tw hm
    revert this; decide
  have hspl : ∀ s : Bytes, s.takeWhile notSlash ++ s.dropWhile notSlash = s := fun s => List.takeWhile_append_dropWhile
  unfold locationAt at h
  split at h
  · rename_i hc
    obtain ⟨hc, hne⟩ := hc
    cases h
    have hlen : 7 ≤ l.length := by
      have := ciEq_length hc
      simp at this; omega
    have h4 : l.take 7 = l.take 4 ++ (l.drop 4).take 3 := by
      rw [show 7 = 4 + 3 from rfl, List.take_add]
    have hm := ciEq_iff.mp hc
    rw [h4, List.map_append] at hm
    have hm2 : (l.take 4).map toLower = b!"http".map toLower ∧ ((l.drop 4).take 3).map toLower = b!"://" := by
      have : (l.take 4).map toLower ++ ((l.drop 4).take 3).map toLower = b!"http" ++ b!"://" := by rw [hm]; decide
      have := List.append_inj this (by simp; omega)
      exact ⟨by rw [this.1]; decide, this.2⟩
    have h3 : (l.drop 4).take 3 = b!"://" := lower_punct hm2.2
    refine ⟨?_, Or.inl (ciEq_iff.mpr hm2.1), ⟨hne, hns _⟩, hpath _⟩
    rw [List.append_assoc, hspl, ← h3, ← h4, List.take_append_drop]
  · split at h
    · rename_i hc
      obtain ⟨hc, hne⟩ := hc
      cases h
      have hlen : 8 ≤ l.length := by
        have := ciEq_length hc
        simp at this; omega
      have h4 : l.take 8 = l.take 5 ++ (l.drop 5).take 3 := by
        rw [show 8 = 5 + 3 from rfl, List.take_add]
      have hm := ciEq_iff.mp hc
      rw [h4, List.map_append] at hm
      have hm2 : (l.take 5).map toLower = b!"https".map toLower ∧ ((l.drop 5).take 3).map toLower = b!"://" := by
        have : (l.take 5).map toLower ++ ((l.drop 5).take 3).map toLower = b!"https" ++ b!"://" := by rw [hm]; decide
        have := List.append_inj this (by simp; omega)
        exact ⟨by rw [this.1]; decide, this.2⟩
      have h3 : (l.drop 5).take 3 = b!"://" := lower_punct hm2.2
      refine ⟨?_, Or.inr (ciEq_iff.mpr hm2.1), ⟨hne, hns _⟩, hpath _⟩
      rw [List.append_assoc, hspl, ← h3, ← h4, List.take_append_drop]
    · cases h

theorem locationMatch_sound : ∀ {l p a r : Bytes}, locationMatch l = some (p, a, r) → ∃ pre u, l = pre ++ u ∧ AbsUrl u p a r := by
  intro l
  induction l with
  | nil => intro p a r h; cases h
  | cons c t ih =>
    intro p a r h
    unfold locationMatch at h
    split at h
    · rename_i x hx
      cases h
      exact ⟨[], c :: t, rfl, locationAt_sound hx⟩
    · obtain ⟨pre, u, e, hu⟩ := ih h
      exact ⟨c :: pre, u, by rw [e]; rfl, hu⟩

theorem locPort_spec {scheme auth host : Bytes} {port : Nat} (h : HostPort scheme auth host port) : auth.takeWhile notColon = host ∧ locPort scheme auth = port := by
  cases h with
  | http hc hs =>
    obtain ⟨h1, h2⟩ := colon_split (p := []) hc (Or.inl rfl)
    rw [List.append_nil] at h1 h2
    refine ⟨h1, ?_⟩
    unfold locPort isProto
    rw [h2]
    dsimp only
    rw [ciEq_congr hs]
    decide
  | https hc hs =>
    obtain ⟨h1, h2⟩ := colon_split (p := []) hc (Or.inl rfl)
    rw [List.append_nil] at h1 h2
    refine ⟨h1, ?_⟩
    unfold locPort isProto
    rw [h2]
    dsimp only
    rw [if_pos hs]
  | @port h ds hc hne hd hlt =>
    obtain ⟨h1, h2⟩ := colon_split (p := ch%':' :: ds) hc (Or.inr rfl)
    refine ⟨h1, ?_⟩
    unfold locPort
    rw [h2]
    dsimp only
    have hidx : IsIndex ds (decimal ds) := (isIndex_iff ds _).mpr ⟨hne, hd, rfl⟩
    have := strtol_index hidx (r := []) (by intro c h; cases h)
    rw [List.append_nil] at this
    unfold portOf
    rw [this, if_neg (by unfold ctlLongMax; omega)]
    unfold intOfLong
    dsimp only
    omega

/-- What `needRewrite` says of an absolute URL -/
theorem need_abs {e : LocEnv} {v l scheme auth path host : Bytes} {port : Nat} (hu : AbsUrl l scheme auth path) (hp : HostPort scheme auth host port)
    (hm : e.mode ≠ 0) (hf : e.be.addr.fam = 2 ∨ e.be.addr.fam = 10) :
    (needRewrite e v l).isSome ↔ (ToBackend e scheme host port ∨ (e.mode = 1 ∧
      (isListenerAddress ((e.lookup host).getD []) e.lstn = true ∨ ciEq host (v.takeWhile notColon) = true ∨ port ≠ e.lport ∨
        ciEq scheme (if e.ltls then b!"https" else b!"http") = false))) := by
  obtain ⟨h1, h2⟩ := locPort_spec hp
  unfold needRewrite
  rw [if_neg hm, if_neg (by rintro ⟨a, b⟩; rcases hf with h | h <;> contradiction), locationMatch_abs hu]
  dsimp only
  rw [h1, h2]
  have hb : locToBackend e scheme host port = true ↔ ToBackend e scheme host port := by
    unfold ToBackend locToBackend
    cases hl : e.lookup host with
    | some as =>
      simp only [Option.some.injEq, reduceCtorEq, false_and, or_false]
      unfold isBackendAddress
      rw [List.any_eq_true]
      constructor
      · rintro ⟨a, ha, hh⟩
        simp only [Bool.and_eq_true, beq_iff_eq] at hh
        obtain ⟨e1, e2⟩ := hh
        have hfa : a.fam = 2 ∨ a.fam = 10 := by rw [e1]; exact hf
        unfold SockA.setPort at e2
        rw [if_pos hfa] at e2
        exact ⟨as, a, rfl, ha, e1, by rw [← e2], by rw [← e2]⟩
      · rintro ⟨as', a, rfl, ha, e1, e2, e3⟩
        refine ⟨a, ha, ?_⟩
        have hfa : a.fam = 2 ∨ a.fam = 10 := by rw [e1]; exact hf
        unfold SockA.setPort
        rw [if_pos hfa]
        simp only [Bool.and_eq_true, beq_iff_eq]
        refine ⟨e1, ?_⟩
        rw [e3, e1, e2]
    | none =>
      simp only [reduceCtorEq, false_and, exists_const, true_and, false_or]
      cases hn : e.be.servername with
      | none => simp
      | some n => simp [isProto]
  have hs : ∀ (b : Bool) (p : Bytes), (if b = true then some p else none).isSome = b := by intro b p; cases b <;> rfl
  rw [hs, Bool.or_eq_true, hb]
  simp [isProto, or_assoc]

/-- The listener's address is never recognised. -/
theorem listener_never (addrs : List SockA) (l : SockA) : isListenerAddress addrs l = false := by
  unfold isListenerAddress
  rw [List.any_eq_false]
  intro a _ h
  simp only [Bool.and_eq_true, bne_iff_ne, ne_eq, beq_iff_eq] at h
  obtain ⟨h1, h2⟩ := h
  apply h1
  have hf : ∀ (b : SockA), (b.setPort 0).fam = b.fam := by intro b; unfold SockA.setPort; split <;> rfl
  rw [← hf a, h2, hf l]

theorem need_sound {e : LocEnv} {v l p : Bytes} (h : needRewrite e v l = some p) :
    e.mode ≠ 0 ∧ (e.be.addr.fam = 2 ∨ e.be.addr.fam = 10) ∧ ∃ pre u scheme auth path, l = pre ++ u ∧ AbsUrl u scheme auth path ∧ (path = b!"/" ++ p ∨ (path = [] ∧ p = [])) := by
  unfold needRewrite at h
  split at h
  · cases h
  · rename_i hm
    split at h
    · cases h
    · rename_i hf
      split at h
      · cases h
      · rename_i pr a r hl
        obtain ⟨pre, u, e1, hu⟩ := locationMatch_sound hl
        refine ⟨hm, by omega, pre, u, pr, a, r, e1, hu, ?_⟩
        dsimp only at h
        have key : ∀ (b : Bool) (q : Bytes), (if b = true then some q else none) = some p → q = p := by
          intro b q hh; cases b
          · cases hh
          · cases hh; rfl
        have hq := key _ _ h
        subst hq
        rcases hu.path with hp | hp
        · subst hp
          right; exact ⟨rfl, rfl⟩
        · left
          rw [if_pos hp]
          cases r with
          | nil => cases hp
          | cons z t => cases hp; rfl

end Pound
