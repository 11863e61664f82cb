import Verif.Proof.Service
import Verif.Proof.Expand

/-! Lemmas on successive selections and on counting draws. -/

namespace Pound
open Spec

/-- The given number of successive selections from a balancer, each with at most `n` iterations and
without random numbers: what was selected, and the balancer afterwards. -/
def selections (n : Nat) : Nat → Bal → Option (List Be × Bal)
  | 0, bal => some ([], bal)
  | k + 1, bal =>
    match balSelect n [] bal with
    | .done (some b) bal => (selections n k bal).map fun r => (b :: r.1, r.2)
    | _ => none

theorem selections_add (n : Nat) : ∀ (j k : Nat) (bal : Bal) {l bal'}, selections n j bal = some (l, bal') →
    selections n (j + k) bal = (selections n k bal').map fun r => (l ++ r.1, r.2)
  | 0, k, bal, l, bal', h => by
    simp only [selections, Option.some.injEq, Prod.mk.injEq] at h
    obtain ⟨rfl, rfl⟩ := h
    rw [Nat.zero_add]
    cases selections n k bal <;> simp
  | j + 1, k, bal, l, bal', h => by
    rw [show j + 1 + k = (j + k) + 1 by omega]
    unfold selections at h
    conv => lhs; unfold selections
    split at h
    · rename_i b bal1 hb
      cases hs : selections n j bal1 with
      | none => rw [hs] at h; cases h
      | some r =>
        rw [hs] at h
        simp only [Option.map_some, Option.some.injEq, Prod.mk.injEq] at h
        obtain ⟨rfl, rfl⟩ := h
        rw [selections_add n j k bal1 (l := r.1) (bal' := r.2) (by rw [hs])]
        cases selections n k r.2 <;> simp
    · cases h

theorem balSelect_iwrr {bal : Bal} (ha : bal.algo = .iwrr) (hl : 2 ≤ bal.backends.length) (n : Nat) (rs : List Nat) :
    balSelect n rs bal = iwrrSelect n bal := by
  unfold balSelect
  match hb : bal.backends with
  | [] => rw [hb] at hl; simp at hl
  | [x] => rw [hb] at hl; simp at hl
  | x :: y :: t => simp [ha]

theorem iwrrSelect_ready {bal : Bal} (h : Ready bal) (n : Nat) : iwrrSelect n bal = iwrrLoop n bal := by
  obtain ⟨i, hi, _⟩ := h
  unfold iwrrSelect
  rw [hi]

theorem selections_hits : ∀ (l : List Be) {m : Nat} {bal : Bal}, bal.algo = .iwrr → 2 ≤ bal.backends.length → Ready bal → hits m bal = l →
    ∃ j, ∀ n, m ≤ n → selections n l.length bal = some (l, stepN j bal)
  | [], _, _, _, _, _, _ => ⟨0, fun _ _ => rfl⟩
  | b :: t, m, bal, ha, hl, hr, hh => by
    obtain ⟨j, hjm, hrun, ht⟩ := iwrrLoop_hits hr hh
    have hsame := stepN_same (j + 1) bal
    obtain ⟨j', hsel⟩ := selections_hits t (hsame.1.symm.trans ha) (by rw [← hsame.2.2.2.1]; exact hl) (hr.stepN (j + 1)) ht.symm
    refine ⟨j + 1 + j', fun n hn => ?_⟩
    simp only [List.length_cons]
    unfold selections
    rw [balSelect_iwrr ha hl, iwrrSelect_ready hr, hrun n hn]
    dsimp only
    rw [hsel n (by omega)]
    have : ∀ (a b : Nat) (bal : Bal), stepN (a + b) bal = stepN b (stepN a bal) := by
      intro a
      induction a with
      | zero => intro b bal; simp [stepN]
      | succ a ih => intro b bal; rw [show a + 1 + b = (a + b) + 1 by omega]; simp only [stepN]; exact ih b _
    simp [this]

theorem prio_le_max' {bal : Bal} (ha : bal.algo = .iwrr) (ht : Totals bal) : ∀ b ∈ bal.backends, Active b → b.prio ≤ bal.maxPri := by
  intro b hb hba
  rw [ht.max ha]; exact prio_le_max hb hba

/-- One cycle from any state. -/
theorem selections_cycle {bal : Bal} (ha : bal.algo = .iwrr) (ht : Totals bal) (hc : CursorOk bal) (hne : bal.backends ≠ []) :
    ∃ m l bal', (∀ n, m ≤ n → selections n (prioSum bal.backends) bal = some (l, bal')) ∧ l.Perm (shares bal.backends) ∧
      SameBal bal bal' ∧ CursorOk bal' := by
  match hb : bal.backends with
  | [] => exact absurd hb hne
  | [x] =>
    by_cases hx : Active x
    · refine ⟨0, List.replicate x.prio x, bal, ?_, ?_, .refl _, hc⟩
      · have hp : prioSum [x] = x.prio := by simp [prioSum, actives, hx]
        intro n _
        rw [hp]
        generalize x.prio = k
        induction k with
        | zero => rfl
        | succ k ih =>
          unfold selections balSelect
          rw [hb]; dsimp only
          rw [if_pos ((isActive_iff x).2 hx)]
          dsimp only; rw [ih]; simp [List.replicate_succ]
      · simp [shares, actives, hx]
    · refine ⟨0, [], bal, ?_, ?_, .refl _, hc⟩
      · intro n _
        have hp : prioSum [x] = 0 := by simp [prioSum, actives, hx]
        rw [hp]; rfl
      · simp [shares, actives, hx]
  | x :: y :: t =>
    rw [← hb]
    have hl : 2 ≤ bal.backends.length := by rw [hb]; simp
    obtain ⟨bal0, hr, hs, he⟩ := iwrrSelect_eq hne hc
    have hmax : ∀ b ∈ bal0.backends, Active b → b.prio ≤ bal0.maxPri := by
      rw [← hs.2.2.2.1, ← hs.2.2.2.2.2]; exact prio_le_max' ha ht
    obtain ⟨m, hp⟩ := iwrr_window hr hmax
    obtain ⟨j, hsel⟩ := selections_hits (hits m bal0) (hs.1.symm.trans ha) (by rw [← hs.2.2.2.1]; exact hl) hr rfl
    have hlen := hp.length_eq
    rw [shares_length, ← hs.2.2.2.1] at hlen
    rw [← hs.2.2.2.1] at hp
    have hsj := hs.trans (stepN_same j bal0)
    cases hps : prioSum bal.backends with
    | zero =>
      refine ⟨0, [], bal, fun n _ => rfl, ?_, .refl _, hc⟩
      have : shares bal.backends = [] := List.length_eq_zero_iff.1 (by rw [shares_length, hps])
      rw [this]
    | succ k =>
      refine ⟨m, hits m bal0, stepN j bal0, fun n hn => ?_, hp, hsj, (hr.stepN j).cursor⟩
      rw [← hps, ← hlen, ← hsel n hn, hlen, hps]
      have e1 : balSelect n [] bal = balSelect n [] bal0 := by
        rw [balSelect_iwrr ha hl, balSelect_iwrr (hs.1.symm.trans ha) (by rw [← hs.2.2.2.1]; exact hl), he, iwrrSelect_ready hr]
      unfold selections
      rw [e1]

theorem totals_same {a b : Bal} (h : SameBal a b) (ht : Totals a) : Totals b := by
  obtain ⟨h1, h2, h3, h4, h5, h6⟩ := h
  exact ⟨by rw [← h3, ← h4]; exact ht.count, by rw [← h1, ← h4, ← h5]; exact ht.sum, by rw [← h1, ← h4, ← h6]; exact ht.max⟩

/-- Any number of cycles from any state. -/
theorem selections_cycles {bal : Bal} (ha : bal.algo = .iwrr) (ht : Totals bal) (hc : CursorOk bal) (hne : bal.backends ≠ []) :
    ∀ c, ∃ m l bal', (∀ n, m ≤ n → selections n (c * prioSum bal.backends) bal = some (l, bal')) ∧
      l.Perm ((List.replicate c (shares bal.backends)).flatten) ∧ SameBal bal bal' ∧ CursorOk bal' := by
  intro c
  induction c with
  | zero => exact ⟨0, [], bal, fun n _ => by simp [selections], by simp, .refl _, hc⟩
  | succ c ih =>
    obtain ⟨m, l, bal', hr, hp, hs, hc'⟩ := ih
    obtain ⟨m', l', bal'', hr', hp', hs', hc''⟩ := selections_cycle (hs.1.symm.trans ha) (totals_same hs ht) hc'
      (by rw [← hs.2.2.2.1]; exact hne)
    rw [← hs.2.2.2.1] at hr' hp'
    refine ⟨max m m', l ++ l', bal'', fun n hn => ?_, ?_, hs.trans hs', hc''⟩
    · rw [Nat.add_mul, Nat.one_mul, selections_add n _ _ bal (hr n (by omega)), hr' n (by omega)]; rfl
    · rw [List.replicate_succ', List.flatten_append]
      simpa using hp.append hp'

theorem count_shares [DecidableEq Be] {bs : List Be} (hn : bs.Nodup) {b : Be} (hb : b ∈ bs) :
    (shares bs).count b = if Active b then b.prio else 0 := by
  unfold shares actives
  induction bs with
  | nil => simp at hb
  | cons x t ih =>
    have hn' := List.nodup_cons.1 hn
    have zero : ∀ c, c ∉ t → ((t.filter fun b => decide (Active b)).flatMap fun b => List.replicate b.prio b).count c = 0 := by
      intro c hc
      refine List.count_eq_zero.2 fun h => ?_
      obtain ⟨y, hy, hcy⟩ := List.mem_flatMap.1 h
      have := (List.mem_replicate.1 hcy).2
      subst this
      exact hc (List.mem_filter.1 hy).1
    by_cases hbx : b = x
    · subst hbx
      rw [List.filter_cons]
      by_cases ha : Active b
      · rw [if_pos (by simpa using ha), List.flatMap_cons, List.count_append, zero b hn'.1, if_pos ha]; simp
      · rw [if_neg (by simpa using ha), zero b hn'.1, if_neg ha]
    · have hbt : b ∈ t := (List.mem_cons.1 hb).resolve_left hbx
      rw [List.filter_cons]
      split
      · rw [List.flatMap_cons, List.count_append, ih hn'.2 hbt, List.count_replicate]
        have : ¬ x = b := fun h => hbx h.symm
        simp [this]
      · exact ih hn'.2 hbt

theorem hitAt_none {bal : Bal} (h : ∀ b ∈ bal.backends, ¬ Active b) : hitAt bal = none := by
  unfold hitAt
  split
  · rfl
  · split
    · rfl
    · rename_i b hb
      rw [if_neg]
      intro hh
      simp only [Bool.and_eq_true] at hh
      exact h b (List.mem_of_getElem? hb) ((isActive_iff b).1 hh.1)

/-- With nothing to find the round robin does not end. -/
theorem iwrrSelect_endless {bal : Bal} (hne : bal.backends ≠ []) (hc : CursorOk bal) (h : ∀ b ∈ bal.backends, ¬ Active b) (n : Nat) :
    iwrrSelect n bal = .more := by
  obtain ⟨bal0, hr, hs, he⟩ := iwrrSelect_eq hne hc
  rw [he]
  refine iwrrLoop_more hr fun m => hitAt_none ?_
  rw [← (hs.trans (stepN_same m bal0)).2.2.2.1]
  exact h

theorem semis_eq : ∀ v : Bytes, semis v = v.takeWhile (· ≠ ch%';') :: (match v.dropWhile (· ≠ ch%';') with | [] => [] | _ :: t => semis t)
  | [] => rfl
  | c :: t => by
    conv => lhs; unfold semis
    by_cases hc : c = ch%';'
    · simp [hc]
    · rw [if_neg hc, semis_eq t]
      simp [hc]

theorem drop_takeWhile_length (p : UInt8 → Bool) (v : Bytes) : v.drop (v.takeWhile p).length = v.dropWhile p := by
  induction v with
  | nil => rfl
  | cons c t ih =>
    by_cases hc : p c
    · simp [hc, ih]
    · simp [hc]

theorem cookieValue_nil (sid : Bytes) : cookieValue sid [] = none := by simp [cookieValue]

theorem dropWhile_takeWhile_semi (v : Bytes) : (v.takeWhile (· ≠ ch%';')).dropWhile (fun c => c == 32 || c == 9) =
    (v.dropWhile fun c => c == 32 || c == 9).takeWhile (· ≠ ch%';') ∧
    (v.dropWhile (fun c => c == 32 || c == 9)).dropWhile (· ≠ ch%';') = v.dropWhile (· ≠ ch%';') := by
  induction v with
  | nil => simp
  | cons c t ih =>
    by_cases hc : (c == 32 || c == 9) = true
    · have hne : c ≠ ch%';' := by rintro rfl; simp at hc
      simp only [List.takeWhile_cons, List.dropWhile_cons, hc, if_true]
      rw [if_pos (by simpa using hne), if_pos (by simpa using hne)]
      simp only [List.dropWhile_cons, hc, if_true]
      exact ih
    · constructor
      · rw [List.dropWhile_cons_of_neg (l := t) hc]
        by_cases hs : c = ch%';'
        · simp [hs]
        · simp only [List.takeWhile_cons]
          rw [if_pos (by simpa using hs), List.dropWhile_cons, if_neg hc]
      · rw [List.dropWhile_cons_of_neg (l := t) hc]

theorem keyCookieLoop_eq (sid : Bytes) : ∀ (n : Nat) (v : Bytes), v.length < n →
    keyCookieLoop sid n v = (cookieOf sid v).map (·.take keySize)
  | 0, _, h => by omega
  | n + 1, v, h => by
    unfold keyCookieLoop cookieOf
    rw [semis_eq]
    obtain ⟨h1, h2⟩ := dropWhile_takeWhile_semi v
    simp only [List.findSome?_cons]
    rw [h1]
    have hwl : (v.dropWhile fun c => c == 32 || c == 9).length ≤ v.length := (List.dropWhile_sublist _).length_le
    generalize v.dropWhile (fun c => c == 32 || c == 9) = w at *
    by_cases hw : w = []
    · subst hw
      rw [if_pos rfl]
      simp only [List.dropWhile_nil] at h2
      rw [← h2]
      simp [cookieValue_nil]
    · rw [if_neg hw, drop_takeWhile_length, h2]
      have hget : (w.takeWhile (· ≠ ch%';'))[sid.length]? = ((w.takeWhile (· ≠ ch%';')).drop sid.length).head? := by
        rw [List.head?_drop]
      by_cases hc : (w.takeWhile (· ≠ ch%';')).length > sid.length ∧ (w.takeWhile (· ≠ ch%';'))[sid.length]? = some ch%'=' ∧
          ciEq ((w.takeWhile (· ≠ ch%';')).take sid.length) sid
      · rw [if_pos hc]
        unfold cookieValue
        rw [if_pos ⟨hc.1, hc.2.2, by rw [← hget]; exact hc.2.1⟩]
        rfl
      · rw [if_neg hc]
        unfold cookieValue
        rw [if_neg fun hh => hc ⟨hh.1, by rw [hget]; exact hh.2.2, hh.2.1⟩]
        dsimp only
        cases hd : v.dropWhile (· ≠ ch%';') with
        | nil => simp
        | cons x t =>
          dsimp only
          have hl : t.length < n := by
            have := (List.dropWhile_sublist (l := v) (· ≠ ch%';')).length_le
            rw [hd] at this; simp at this; omega
          rw [keyCookieLoop_eq sid n t hl]
          rfl

theorem takeWhile_all_iff {p : UInt8 → Bool} : ∀ {l : Bytes}, l.takeWhile p = l ↔ ∀ x ∈ l, p x = true
  | [] => by simp
  | c :: t => by
    by_cases hc : p c
    · simp [hc, takeWhile_all_iff (l := t)]
    · simp [hc]

theorem semis_ne_nil : ∀ v : Bytes, semis v ≠ []
  | [] => by simp [semis]
  | c :: t => by
    unfold semis
    split
    · simp
    · split <;> simp

theorem semis_last : ∀ p : Bytes, (semis p).getLast? = some ((p.reverse.takeWhile (· ≠ ch%';')).reverse) ∧
    (1 < (semis p).length ↔ p.any (· == ch%';') = true)
  | [] => by simp [semis]
  | c :: t => by
    obtain ⟨h1, h2⟩ := semis_last t
    have hne := semis_ne_nil t
    unfold semis
    by_cases hc : c = ch%';'
    · rw [if_pos hc]
      constructor
      · rw [List.getLast?_cons]
        rw [h1]
        simp only [Option.getD_some, Option.some.injEq]
        subst hc
        simp only [List.reverse_cons, List.takeWhile_append]
        split
        · rename_i hl
          rw [(List.takeWhile_prefix (l := t.reverse) (· ≠ ch%';')).eq_of_length hl]; simp
        · rfl
      · have := List.length_pos_iff.2 hne
        simp [hc]; omega
    · rw [if_neg hc]
      match hs : semis t with
      | [] => exact absurd hs hne
      | [x] =>
        rw [hs] at h1 h2
        simp only [List.getLast?_singleton, Option.some.injEq] at h1
        have hno : t.any (· == ch%';') = false := by
          cases h : t.any (· == ch%';') with
          | false => rfl
          | true => have := h2.2 h; simp at this
        have hall : ∀ x ∈ t.reverse, decide (x ≠ ch%';') = true := by
          intro x hx
          have := List.any_eq_false.1 hno x (List.mem_reverse.1 hx)
          simpa using this
        have hself : t.reverse.takeWhile (· ≠ ch%';') = t.reverse := by
          rw [takeWhile_all_iff]; exact hall
        constructor
        · rw [hself] at h1
          simp only [List.getLast?_singleton, Option.some.injEq, List.reverse_cons]
          rw [List.takeWhile_append_of_pos hall]
          simp [hc, h1]
        · simp only [List.length_singleton, List.any_cons, hno]; simp [hc]
      | x :: y :: r =>
        rw [hs] at h1 h2
        have hyes : t.any (· == ch%';') = true := h2.1 (by simp)
        constructor
        · simp only [List.getLast?_cons_cons] at h1 ⊢
          rw [h1, List.reverse_cons]
          obtain ⟨z, hz, hzc⟩ := List.any_eq_true.1 hyes
          have : (t.reverse.takeWhile (· ≠ ch%';')).length ≠ t.reverse.length := by
            intro hl
            have := (List.takeWhile_prefix (l := t.reverse) (· ≠ ch%';')).eq_of_length hl
            have := takeWhile_all_iff.1 this z (List.mem_reverse.2 hz)
            simp at this hzc; exact this hzc
          rw [List.takeWhile_append, if_neg this]
        · simp [hyes]

theorem keyByHeader_spec {hs : List Header} (hg : ∀ h ∈ hs, Good h) {a : Bytes} {vs : List Bytes}
    (hv : Values a (hs.map (·.text)) vs) (f : Bytes → Option Bytes) : keyByHeader hs a f = .ok (vs.head?.bind f) := by
  have h := locateNameLen_spec hg hv
  unfold accHeader at h
  unfold keyByHeader
  cases hl : locateNameLen hs a with
  | none =>
    rw [hl] at h
    cases hh : vs.head? with
    | none => rfl
    | some v => rw [hh] at h; cases h
  | some x =>
    rw [hl] at h
    dsimp only at h ⊢
    cases hx : x.value with
    | ub => rw [hx] at h; cases hh : vs.head? <;> (rw [hh] at h; cases h)
    | ok v =>
      rw [hx] at h
      cases hh : vs.head? with
      | none => rw [hh] at h; cases h
      | some w => rw [hh] at h; cases h; rfl

theorem keyAuthbasic_eq (v : Bytes) : keyAuthbasic v = (basicCredentials v).map (·.take keySize) := by
  unfold keyAuthbasic basicCredentials
  cases hd : v.drop 5 with
  | nil => simp
  | cons c t =>
    by_cases h1 : ciEq (v.take 5) b!"Basic" = true <;> by_cases h2 : isSpace c = true <;> simp [h1, h2]

/-! ### Counting draws -/

/-- How many numbers from `a` on, below `a + n`, satisfy a test. -/
def countFrom (p : Nat → Bool) (a n : Nat) : Nat := ((List.range n).filter fun v => p (a + v)).length

theorem countFrom_add (p : Nat → Bool) (a m n : Nat) : countFrom p a (m + n) = countFrom p a m + countFrom p (a + m) n := by
  unfold countFrom
  rw [List.range_add, List.filter_append, List.length_append, List.filter_map, List.length_map]
  congr 3
  funext v
  simp [Function.comp, Nat.add_assoc]

theorem countFrom_shift {p : Nat → Bool} {s : Nat} (hp : ∀ r, p (r + s) = p r) (a : Nat) : countFrom p a s = countFrom p 0 s := by
  induction a with
  | zero => rfl
  | succ a ih =>
    rw [← ih]
    have h1 := countFrom_add p a 1 s
    have h2 := countFrom_add p a s 1
    have h3 : countFrom p (a + s) 1 = countFrom p a 1 := by
      have : p (a + s) = p a := hp a
      simp [countFrom, List.range_succ, List.filter_cons, this]
    rw [Nat.add_comm 1 s] at h1
    omega

theorem countFrom_blocks {p : Nat → Bool} {s : Nat} (hp : ∀ r, p (r + s) = p r) (a q e : Nat) :
    countFrom p a (q * s + e) = q * countFrom p 0 s + countFrom p (a + q * s) e := by
  induction q generalizing a with
  | zero => simp
  | succ q ih =>
    rw [Nat.succ_mul, Nat.add_comm (q * s) s, Nat.add_assoc, countFrom_add, countFrom_shift hp, ih]
    rw [Nat.succ_mul, ← Nat.add_assoc a]
    omega

theorem countFrom_le (p : Nat → Bool) (a : Nat) {m n : Nat} (h : m ≤ n) : countFrom p a m ≤ countFrom p a n := by
  obtain ⟨k, rfl⟩ := Nat.exists_eq_add_of_le h
  rw [countFrom_add]; omega

end Pound
