import Verif.Spec.Tls
import Verif.Proof.Log

namespace Pound
open Spec

theorem loop_bits (n : Nat) : n &&& cbAcceptLoop ≠ 0 ↔ (n.testBit 0 = true ∨ n.testBit 13 = true) := by
  have h : cbAcceptLoop = 2 ^ 0 ||| 2 ^ 13 := by decide
  rw [h, Nat.and_or_distrib_left]
  have h0 := bit_and 0 n
  have h13 := bit_and 13 n
  rw [Nat.and_comm] at h0 h13
  rw [← h0, ← h13]
  constructor
  · intro hh
    by_cases e : n &&& 2 ^ 0 = 0
    · right
      intro e2
      apply hh
      rw [e, e2]; rfl
    · exact Or.inl e
  · intro hh e
    have := Nat.or_eq_zero_iff.mp e
    rcases hh with h | h
    · exact h this.1
    · exact h this.2

theorem done_bits (n : Nat) : n &&& cbHandshakeDone ≠ 0 ↔ n.testBit 5 = true := by
  rw [show cbHandshakeDone = 2 ^ 5 from rfl, Nat.and_comm]
  exact bit_and 5 n

theorem sslInfo_init (e : InfoEv) : sslInfo .init e = if e.wh.testBit 5 = true then .reject else .init := by
  unfold sslInfo
  rw [if_neg (by rintro ⟨-, h⟩; cases h)]
  by_cases h : e.wh.testBit 5 = true
  · rw [if_pos h, if_pos ⟨(done_bits _).mpr h, rfl⟩]
  · rw [if_neg h, if_neg (fun hh => h ((done_bits _).mp hh.1))]

open Classical in
theorem sslInfo_reject (e : InfoEv) : sslInfo .reject e = if HelloRead e then .abort else .reject := by
  unfold sslInfo HelloRead
  by_cases h : e.wh &&& cbAcceptLoop ≠ 0
  · rw [if_pos ⟨h, rfl⟩]
    have h' := (loop_bits _).mp h
    by_cases hs : e.state = 0x2110 ∨ e.state = 0x2210
    · rw [if_pos (by simpa [stClientHello] using hs), if_pos ⟨h', hs⟩]
    · rw [if_neg (by simpa [stClientHello] using hs), if_neg (fun hh => hs hh.2)]
  · rw [if_neg (fun hh => h hh.1), if_neg (by rintro ⟨-, hh⟩; cases hh), if_neg (fun hh => h ((loop_bits _).mpr hh.1))]

theorem sslInfo_fixed (e : InfoEv) : sslInfo .abort e = .abort ∧ sslInfo .allow e = .allow := by
  constructor
  · unfold sslInfo
    rw [if_neg (by rintro ⟨-, h⟩; cases h), if_neg (by rintro ⟨-, h⟩; cases h)]
  · unfold sslInfo
    rw [if_neg (by rintro ⟨-, h⟩; cases h), if_neg (by rintro ⟨-, h⟩; cases h)]

theorem fold_fixed (evs : List InfoEv) : evs.foldl sslInfo .abort = .abort ∧ evs.foldl sslInfo .allow = .allow := by
  induction evs with
  | nil => exact ⟨rfl, rfl⟩
  | cons e t ih => simp only [List.foldl_cons, (sslInfo_fixed e).1, (sslInfo_fixed e).2]; exact ih

theorem fold_reject (evs : List InfoEv) : evs.foldl sslInfo .reject = .abort ↔ ∃ h ∈ evs, HelloRead h := by
  induction evs with
  | nil => simp
  | cons e t ih =>
    rw [List.foldl_cons, sslInfo_reject]
    by_cases h : HelloRead e
    · rw [if_pos h, (fold_fixed t).1]
      simp [h]
    · rw [if_neg h, ih]
      simp [h]

theorem fold_init (evs : List InfoEv) : evs.foldl sslInfo .init = .abort ↔ ∃ a d b, evs = a ++ d :: b ∧ Completed d ∧ ∃ h ∈ b, HelloRead h := by
  induction evs with
  | nil => simp
  | cons e t ih =>
    rw [List.foldl_cons, sslInfo_init]
    by_cases h : e.wh.testBit 5 = true
    · rw [if_pos h, fold_reject]
      constructor
      · intro hh
        exact ⟨[], e, t, rfl, h, hh⟩
      · rintro ⟨a, d, b, h1, -, hh, h2, h3⟩
        cases a with
        | nil => cases h1; exact ⟨hh, h2, h3⟩
        | cons x a => cases h1; exact ⟨hh, by simp [h2], h3⟩
    · rw [if_neg h, ih]
      constructor
      · rintro ⟨a, d, b, h1, h2, h3⟩
        exact ⟨e :: a, d, b, by rw [h1]; rfl, h2, h3⟩
      · rintro ⟨a, d, b, h1, h2, h3⟩
        cases a with
        | nil => cases h1; exact absurd h2 h
        | cons x a => cases h1; exact ⟨a, d, b, rfl, h2, h3⟩

theorem renegotiated_iff (evs : List ConnEv) : (infos evs).foldl sslInfo .init = .abort ↔ Renegotiated evs := by
  rw [fold_init]
  unfold Renegotiated
  constructor
  · rintro ⟨a, d, b, h1, h2, h, hb, h3⟩
    obtain ⟨b1, b2, rfl⟩ := List.append_of_mem hb
    exact ⟨a, d, b1, h, b2, by rw [h1]; simp, h2, h3⟩
  · rintro ⟨a, d, b, h, c, h1, h2, h3⟩
    exact ⟨a, d, b ++ h :: c, by rw [h1]; simp, h2, h, by simp, h3⟩

theorem run_reneg : ∀ (evs : List ConnEv) (c : ConnSt), (c.run evs).1.reneg = (infos evs).foldl sslInfo c.reneg := by
  intro evs
  induction evs with
  | nil => intro c; rfl
  | cons e t ih =>
    intro c
    unfold ConnSt.run
    dsimp only
    rw [ih]
    cases e with
    | info e => rfl
    | io p => rfl

theorem run_append : ∀ (a b : List ConnEv) (c : ConnSt), c.run (a ++ b) = (((c.run a).1.run b).1, (c.run a).2 ++ ((c.run a).1.run b).2) := by
  intro a
  induction a with
  | nil => intro b c; simp [ConnSt.run]
  | cons e t ih =>
    intro b c
    have hr : ∀ l, c.run (e :: l) = (((c.step e).1.run l).1, (c.step e).2.toList ++ ((c.step e).1.run l).2) := fun _ => rfl
    rw [List.cons_append, hr, hr, ih]
    simp

/-- Time-outs stay in range. -/
def GoodTo (t : Int) : Prop := -1 ≤ t ∧ t ≤ 2147483

theorem bio_good {t : Int} (h : GoodTo t) (s : Reneg) (p : List PollRes) : GoodTo (bioCallback t s p).2 ∧
    (bioCallback t s p).1 = (if t < 0 then .timedOutBefore else if s = .abort then .aborted else if t = 0 then .go else pollLoop p) ∧
    (bioCallback t s p).2 = (if (bioCallback t s p).1 = .timedOut then -1 else t) := by
  obtain ⟨h1, h2⟩ := h
  unfold bioCallback
  rw [if_neg (by omega)]
  by_cases e1 : t < 0
  · rw [if_pos (by omega), if_pos e1]
    exact ⟨⟨h1, h2⟩, rfl, by rw [if_neg (by intro h; cases h)]⟩
  · rw [if_neg (by omega), if_neg e1]
    by_cases e2 : s = .abort
    · rw [if_pos e2, if_pos e2]
      exact ⟨⟨h1, h2⟩, rfl, by rw [if_neg (by intro h; cases h)]⟩
    · rw [if_neg e2, if_neg e2]
      by_cases e3 : t = 0
      · rw [if_pos (by omega), if_pos e3]
        exact ⟨⟨h1, h2⟩, rfl, by rw [if_neg (by intro h; cases h)]⟩
      · rw [if_neg (by omega), if_neg e3]
        dsimp only
        refine ⟨?_, rfl, rfl⟩
        split
        · exact ⟨by omega, by omega⟩
        · exact ⟨h1, h2⟩

theorem run_good : ∀ (evs : List ConnEv) (c : ConnSt), GoodTo c.timeout → GoodTo (c.run evs).1.timeout := by
  intro evs
  induction evs with
  | nil => intro c h; exact h
  | cons e t ih =>
    intro c h
    unfold ConnSt.run
    apply ih
    cases e with
    | info e => exact h
    | io p => exact (bio_good h _ _).1

theorem newConn_good {allow timeout : Nat} (h : timeout ≤ 2147483) : GoodTo (newConn allow timeout).timeout := by
  unfold newConn GoodTo
  dsimp only
  rw [if_pos (by omega)]
  omega

theorem run_aborted : ∀ (evs : List ConnEv) (c : ConnSt), c.reneg = .abort → GoodTo c.timeout → ∀ r ∈ (c.run evs).2, r = .aborted ∨ r = .timedOutBefore := by
  intro evs
  induction evs with
  | nil => intro c _ _ r hr; cases hr
  | cons e t ih =>
    intro c hc hg r hr
    unfold ConnSt.run at hr
    dsimp only at hr
    cases e with
    | info e =>
      have : (c.step (.info e)).2 = none := rfl
      rw [this, Option.toList_none, List.nil_append] at hr
      refine ih (c.step (.info e)).1 ?_ hg r hr
      show sslInfo c.reneg e = .abort
      rw [hc]; exact (sslInfo_fixed e).1
    | io p =>
      rcases List.mem_append.mp hr with hr | hr
      · have h2 : r = (bioCallback c.timeout c.reneg p).1 := by
          have : (c.step (.io p)).2 = some (bioCallback c.timeout c.reneg p).1 := rfl
          rw [this] at hr
          simpa using hr
        have h3 := (bio_good hg c.reneg p).2.1
        rw [h3, hc] at h2
        split at h2
        · exact Or.inr h2
        · rw [if_pos rfl] at h2; exact Or.inl h2
      · exact ih (c.step (.io p)).1 hc (bio_good hg _ _).1 r hr

theorem pollLoop_ne (p : List PollRes) : pollLoop p ≠ .aborted ∧ pollLoop p ≠ .timedOutBefore ∧ pollLoop p ≠ .undefined := by
  induction p with
  | nil => unfold pollLoop; decide
  | cons a r ih => cases a <;> first | exact ih | (unfold pollLoop; decide)

theorem bio_aborted {t : Int} {s : Reneg} {p : List PollRes} (h : (bioCallback t s p).1 = .aborted) : s = .abort := by
  unfold bioCallback at h
  split at h
  · cases h
  · split at h
    · cases h
    · split at h
      · assumption
      · split at h
        · cases h
        · exact absurd h (pollLoop_ne p).1

theorem run_dead : ∀ (evs : List ConnEv) (c : ConnSt), c.timeout = -1 → ∀ r ∈ (c.run evs).2, r = .timedOutBefore := by
  intro evs
  induction evs with
  | nil => intro c _ r hr; cases hr
  | cons e t ih =>
    intro c hc r hr
    unfold ConnSt.run at hr
    dsimp only at hr
    cases e with
    | info e =>
      have : (c.step (.info e)).2 = none := rfl
      rw [this, Option.toList_none, List.nil_append] at hr
      exact ih (c.step (.info e)).1 (by exact hc) r hr
    | io p =>
      have hb : bioCallback c.timeout c.reneg p = (.timedOutBefore, -1) := by
        rw [hc]; unfold bioCallback; rw [if_neg (by decide), if_pos (by decide)]
      rcases List.mem_append.mp hr with hr | hr
      · have : (c.step (.io p)).2 = some (bioCallback c.timeout c.reneg p).1 := rfl
        rw [this, hb] at hr
        simpa using hr
      · refine ih (c.step (.io p)).1 ?_ r hr
        show (bioCallback c.timeout c.reneg p).2 = -1
        rw [hb]

/-! ### Certificates -/

theorem loadCert_spec {id : Nat} {cns san : List Bytes} {pc : PoundCtx} (h : loadCert id cns san = some pc) (fnm : Bytes → Bytes → Bool) (name : Bytes) :
    pc.ctx = id ∧ ((fnm pc.name name = true ∨ pc.alt.any (fnm · name) = true) ↔ CertMatches fnm name (id, cns, san)) := by
  unfold loadCert at h
  cases cns with
  | nil => cases h
  | cons n r =>
    cases h
    refine ⟨rfl, ?_⟩
    unfold CertMatches
    simp only [List.any_eq_true, List.mem_append, List.mem_reverse, List.mem_cons]
    constructor
    · rintro (h | ⟨x, h1 | h1, h2⟩)
      · exact ⟨n, Or.inl (Or.inl rfl), h⟩
      · exact ⟨x, Or.inl (Or.inr h1), h2⟩
      · exact ⟨x, Or.inr h1, h2⟩
    · rintro ⟨x, (rfl | h1) | h1, h2⟩
      · exact Or.inl h2
      · exact Or.inr ⟨x, Or.inl h1, h2⟩
      · exact Or.inr ⟨x, Or.inr h1, h2⟩

theorem sniLoop_spec (fnm : Bytes → Bytes → Bool) (name : Bytes) : ∀ (cs : List Cert) (l : List PoundCtx), loadCerts cs = some l →
    (∀ id, sniLoop fnm name l = some id ↔ FirstMatch fnm name cs id) ∧ (sniLoop fnm name l = none ↔ ∀ c ∈ cs, ¬ CertMatches fnm name c) := by
  intro cs
  induction cs with
  | nil =>
    intro l h
    cases h
    refine ⟨fun id => ⟨fun h => (by cases h), ?_⟩, by simp [sniLoop]⟩
    rintro ⟨pre, c, post, h, -⟩
    simp at h
  | cons c cs ih =>
    intro l h
    obtain ⟨id0, cns, san⟩ := c
    unfold loadCerts at h
    split at h
    · rename_i x l' hx hl'
      cases h
      obtain ⟨h1, h2⟩ := loadCert_spec hx fnm name
      obtain ⟨ih1, ih2⟩ := ih l' hl'
      by_cases hm : CertMatches fnm name (id0, cns, san)
      · have hs : sniLoop fnm name (x :: l') = some id0 := by
          unfold sniLoop
          rcases h2.mpr hm with h | h
          · rw [if_pos h, h1]
          · by_cases hh : fnm x.name name = true
            · rw [if_pos hh, h1]
            · rw [if_neg hh, if_pos h, h1]
        rw [hs]
        refine ⟨fun id => ⟨?_, ?_⟩, ⟨fun h => (by cases h), fun h => absurd hm (h _ (by simp))⟩⟩
        · intro h; cases h
          exact ⟨[], _, cs, rfl, hm, by simp, rfl⟩
        · rintro ⟨pre, c, post, e, hc, hp, rfl⟩
          cases pre with
          | nil => cases e; rfl
          | cons q pre => cases e; exact absurd hm (hp _ (by simp))
      · have hs : sniLoop fnm name (x :: l') = sniLoop fnm name l' := by
          conv => lhs; unfold sniLoop
          rw [if_neg (fun h => hm (h2.mp (Or.inl h))), if_neg (fun h => hm (h2.mp (Or.inr h)))]
        rw [hs]
        refine ⟨fun id => ?_, ?_⟩
        · rw [ih1 id]
          constructor
          · rintro ⟨pre, c, post, e, hc, hp, hid⟩
            refine ⟨(id0, cns, san) :: pre, c, post, by rw [e]; rfl, hc, ?_, hid⟩
            intro q hq
            rcases List.mem_cons.mp hq with rfl | hq
            · exact hm
            · exact hp q hq
          · rintro ⟨pre, c, post, e, hc, hp, hid⟩
            cases pre with
            | nil => cases e; exact absurd hc hm
            | cons q pre => cases e; exact ⟨pre, c, post, rfl, hc, fun q hq => hp q (by simp [hq]), hid⟩
        · rw [ih2]
          simp [hm]
    · cases h

theorem glob_plain {n s : Bytes} (h : ch%'*' ∉ n ∧ ch%'?' ∉ n) : Glob n s ↔ n = s := by
  constructor
  · intro hg
    induction hg with
    | nil => rfl
    | star => simp at h
    | any => simp at h
    | lit c _ _ _ ih =>
      simp only [List.mem_cons, not_or] at h
      rw [ih ⟨h.1.2, h.2.2⟩]
  · rintro rfl
    induction n with
    | nil => exact .nil
    | cons c t ih =>
      simp only [List.mem_cons, not_or] at h
      exact .lit c (fun e => h.1.1 e.symm) (fun e => h.2.1 e.symm) (ih ⟨h.1.2, h.2.2⟩)

end Pound
