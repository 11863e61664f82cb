import Verif.Proof.Fair

/-!
Properties C20-C24 and C43: balancing, accounting, sessions, fail-over.
-/

namespace Pound.Props
open Pound Spec

/-! ## Examples -/

/-- A regular backend. -/
def exBe (id prio : Nat) (disabled alive : Bool) : Be := ⟨id, .regular, prio, disabled, alive⟩

/-- A balancer with the right numbers. -/
def exBal (algo : Algo) (weight : Int) (l : List Be) : Bal := Bal.recompute id ⟨algo, weight, 0, l, 0, 0, 0, none⟩

/-- A service with three backends, one of them for emergencies. -/
def exBals : List Bal := [exBal .random 0 [exBe 1 5 false true, exBe 2 3 false true], exBal .random 65535 [exBe 3 5 false true]]

theorem exBals_ok : BalsOk exBals := by
  refine ⟨⟨by decide, by decide, by decide, by decide⟩, ?_, ?_⟩
  · intro bal hb
    simp only [exBals, List.mem_cons, List.not_mem_nil, or_false] at hb
    rcases hb with rfl | rfl <;> exact (recompute_spec _ _).2
  · intro bal hb i hi
    simp only [exBals, List.mem_cons, List.not_mem_nil, or_false] at hb
    rcases hb with rfl | rfl <;> cases hi

/-- The same service with weighted round robin: what `LBAlgo iwrr` makes of it. -/
def exIwrr : List Bal := [exBal .iwrr 0 [exBe 1 5 false true, exBe 2 3 false true], exBal .iwrr 65535 [exBe 3 5 false true]]

theorem exIwrr_ok : BalsOk exIwrr := by
  refine ⟨⟨by decide, by decide, by decide, by decide⟩, ?_, ?_⟩
  · intro bal hb
    simp only [exIwrr, List.mem_cons, List.not_mem_nil, or_false] at hb
    rcases hb with rfl | rfl <;> exact (recompute_spec _ _).2
  · intro bal hb i hi
    simp only [exIwrr, List.mem_cons, List.not_mem_nil, or_false] at hb
    rcases hb with rfl | rfl <;> cases hi

/-- Enough random numbers for any of these. -/
theorem exDraws : Draws exBals fun _ => [1000] := by
  intro i
  exact ⟨1000, by simp, by decide⟩

/-! ## C20 Selection of a backend -/

/-- A selected backend is active, and it is one of the service's. -/
theorem C20_selected_active {n : Nat} {rnd bals b bals'} (h : lbSelect n rnd bals = .done (some b) bals') :
    Active b ∧ ∃ bal ∈ bals, b ∈ bal.backends := lbSelect_active h

/-- Selection fails only if there is no active backend. -/
theorem C20_fails_only_without {bals : List Bal} (hb : BalsOk bals) {n : Nat} {rnd bals'} (h : lbSelect n rnd bals = .done none bals') :
    ∀ bal ∈ bals, ∀ b ∈ bal.backends, ¬ Active b := lbSelect_done_none hb.sane h

/-- Selection has no undefined behaviour. -/
theorem C20_no_ub {bals : List Bal} (hb : ∀ b ∈ bals, Sane b) (n : Nat) (rnd) : lbSelect n rnd bals ≠ .ub := by
  induction bals generalizing rnd with
  | nil => simp [lbSelect]
  | cons bal t ih =>
    unfold lbSelect
    have := balSelect_no_ub (hb bal (List.mem_cons_self ..)) n (rnd 0)
    split
    · simp
    · have := ih (fun b hb' => hb b (List.mem_cons_of_mem _ hb')) fun i => rnd (i + 1)
      split
      · simp
      · rename_i hn; intro hh; exact this hh
    · simp
    · rename_i hu; exact absurd hu this

/-- If there is an active backend one is selected, from the group of the least weight that has any. It takes
`n0` steps of the round robin at most.
Missing: the round robin over several backends in a group that is not the last, see
`C20_emergency_fails`; priority 0 (excluded by `BalsOk`), see `C20_zero_priority_fails`. -/
theorem C20_found_partial {bals : List Bal} (hb : BalsOk bals) (hw : bals.Pairwise fun a b => a.weight < b.weight) (ho : SafeOrder bals)
    {rnd} (hu : UsableAll rnd bals) (ha : ∃ bal ∈ bals, ∃ b ∈ bal.backends, Active b) :
    ∃ n0 b bals', (∀ n, n0 ≤ n → lbSelect n rnd bals = .done (some b) bals') ∧ Active b ∧
      ∃ bal ∈ bals, b ∈ bal.backends ∧ ∀ x ∈ bals, (∃ c ∈ x.backends, Active c) → bal.weight ≤ x.weight := by
  obtain ⟨n0, pre, bal, post, b, bals', he, hpre, hbm, hr⟩ := lbSelect_found hb.sane ho hu ha
  refine ⟨n0, b, bals', hr, (lbSelect_active (hr n0 (Nat.le_refl _))).1, bal, by rw [he]; simp, hbm, fun x hx ⟨c, hc, hca⟩ => ?_⟩
  rw [he] at hx hw
  rcases List.mem_append.1 hx with hx | hx
  · exact absurd hca (hpre x hx c hc)
  · rcases List.mem_cons.1 hx with rfl | hx
    · exact Int.le_refl _
    · exact Int.le_of_lt ((List.pairwise_cons.1 (List.pairwise_append.1 hw).2.1).1 x hx)

example : exBals.Pairwise (fun a b => a.weight < b.weight) ∧ SafeOrder exBals ∧ UsableAll (fun _ => [1000]) exBals ∧
    (∃ bal ∈ exBals, ∃ b ∈ bal.backends, Active b) :=
  ⟨by decide, ⟨(fun _ h => by cases h), (fun h => absurd rfl h), trivial⟩, exDraws.usable,
    _, List.mem_cons_self .., exBe 1 5 false true, by decide, by decide⟩

/-- The groups of a service are in order of their weights, however they were created. -/
theorem C20_weights {bals : List Bal} (hw : bals.Pairwise fun a b => a.weight < b.weight) (w : Int) (algo : Algo) :
    (balListGet w algo bals).Pairwise (fun a b => a.weight < b.weight) ∧ (∃ b ∈ balListGet w algo bals, b.weight = w) ∧
    (∀ b ∈ bals, b ∈ balListGet w algo bals) ∧ (∀ b ∈ balListGet w algo bals, b ∈ bals ∨ (b.weight = w ∧ b.algo = algo ∧ b.backends = [])) := by
  induction bals with
  | nil => simp [balListGet]
  | cons x t ih =>
    obtain ⟨h1, h2⟩ := List.pairwise_cons.1 hw
    obtain ⟨i1, i2, i3, i4⟩ := ih h2
    unfold balListGet
    by_cases he : w = x.weight
    · rw [if_pos he]
      exact ⟨hw, ⟨x, by simp, he.symm⟩, fun _ h => h, fun _ h => .inl h⟩
    · rw [if_neg he]
      by_cases hl : w < x.weight
      · rw [if_pos hl]
        refine ⟨List.pairwise_cons.2 ⟨fun y hy => ?_, hw⟩, ⟨_, List.mem_cons_self .., rfl⟩, fun b hb => List.mem_cons_of_mem _ hb, fun b hb => ?_⟩
        · rcases List.mem_cons.1 hy with rfl | hy
          · exact hl
          · exact Int.lt_trans hl (h1 y hy)
        · rcases List.mem_cons.1 hb with rfl | hb
          · exact .inr ⟨rfl, rfl, rfl⟩
          · exact .inl hb
      · rw [if_neg hl]
        refine ⟨List.pairwise_cons.2 ⟨fun y hy => ?_, i1⟩, ?_, fun b hb => ?_, fun b hb => ?_⟩
        · rcases i4 y hy with hy | hy
          · exact h1 y hy
          · rw [hy.1]; omega
        · obtain ⟨b, hb, hbw⟩ := i2
          exact ⟨b, List.mem_cons_of_mem _ hb, hbw⟩
        · rcases List.mem_cons.1 hb with rfl | hb
          · exact List.mem_cons_self ..
          · exact List.mem_cons_of_mem _ (i3 b hb)
        · rcases List.mem_cons.1 hb with rfl | hb
          · exact .inl (List.mem_cons_self ..)
          · rcases i4 b hb with hb | hb
            · exact .inl (List.mem_cons_of_mem _ hb)
            · exact .inr hb

example : (balListGet 0 .iwrr (balListGet 65535 .iwrr [])).map (·.weight) = [0, 65535] := by decide

/-- Deviation: with weighted round robin, once both normal backends are dead the emergency backend, though active, is never
reached: the selection does not end. -/
theorem C20_emergency_fails : ∃ s : SvcSt, BalsOk s.bals ∧
    (∃ b ∈ ((s.killBe 1 .kill).killBe 2 .kill).all, Active b) ∧
    ∀ ttl now n rnd key, key = none → ((s.killBe 1 .kill).killBe 2 .kill).getBackend ttl now n rnd key = .more := by
  refine ⟨⟨exIwrr, .init, []⟩, exIwrr_ok, ⟨exBe 3 5 false true, by decide, by decide⟩, ?_⟩
  rintro ttl now n rnd key rfl
  have h0 : (((⟨exIwrr, .init, []⟩ : SvcSt).killBe 1 .kill).killBe 2 .kill).bals =
      [{ exBal .iwrr 0 [exBe 1 5 false false, exBe 2 3 false false] with maxPri := 0 }, exBal .iwrr 65535 [exBe 3 5 false true]] := by
    decide
  unfold SvcSt.getBackend SvcSt.lb SvcSt.hasBackends
  rw [h0]
  rw [if_pos (by decide)]
  dsimp only
  unfold lbSelect
  rw [balSelect_iwrr rfl (by decide), iwrrSelect_endless (by decide) (by intro i hi; cases hi) (by decide)]

/-- Deviation: with priority 0 (possible for backends from SRV records) an active backend is not found, or the
selection does not end. -/
theorem C20_zero_priority_fails : ∃ bal : Bal, Totals bal ∧ CursorOk bal ∧ (∃ b ∈ bal.backends, Active b) ∧
    (∀ n rs, balSelect n rs bal = .done none bal) ∧ ∀ n rs, balSelect n rs { bal with algo := .iwrr } = .more := by
  refine ⟨exBal .random 0 [exBe 1 0 false true, exBe 2 0 false true], (recompute_spec _ _).2, ?_, ⟨exBe 1 0 false true, by decide, by decide⟩, ?_, ?_⟩
  · intro i hi; cases hi
  · intro n rs; rfl
  · intro n rs
    rw [balSelect_iwrr rfl (by decide)]
    obtain ⟨bal0, hr, hs, he⟩ := iwrrSelect_eq
      (bal := { exBal .random 0 [exBe 1 0 false true, exBe 2 0 false true] with algo := .iwrr }) (by decide) (by intro i hi; cases hi)
    rw [he]
    refine iwrrLoop_more hr fun m => ?_
    have hb : (stepN m bal0).backends = [exBe 1 0 false true, exBe 2 0 false true] :=
      ((hs.trans (stepN_same m bal0)).2.2.2.1).symm
    unfold hitAt
    split
    · rfl
    · split
      · rfl
      · rename_i b hbi
        have hm := List.mem_of_getElem? hbi
        rw [hb] at hm
        rw [if_neg]
        intro hh
        simp only [List.mem_cons, List.not_mem_nil, or_false] at hm
        rcases hm with rfl | rfl <;> simp [exBe] at hh

/-! ## C21 Random balancing -/

/-- Every selection by random numbers gives an active backend, if there is one. -/
theorem C21_active {bal : Bal} (h : Sane bal) (ha : ∃ b ∈ bal.backends, Active b) {n rs ob bal'} (he : balSelect n rs bal = .done ob bal') :
    ∃ b, ob = some b ∧ Active b ∧ b ∈ bal.backends := by
  cases ob with
  | none =>
    obtain ⟨b, hb, hba⟩ := ha
    exact absurd hba (balSelect_done_none h he b hb)
  | some b => exact ⟨b, rfl, balSelect_active he⟩

theorem balSelect_random {bal : Bal} (h : Sane bal) (ha : bal.algo = .random) (hl : 2 ≤ bal.backends.length) {r : Nat} (hs : 2 ≤ bal.sumPri)
    (hr : 2 ^ 64 % bal.sumPri ≤ r) (n : Nat) : balSelect n [r] bal = .done (randPick ((r % bal.sumPri : Nat) : Int) bal.backends) bal := by
  unfold balSelect
  have hsum := h.totals.sum ha
  have hb := h.bound
  rw [← hsum] at hb
  match hbs : bal.backends with
  | [] => rw [hbs] at hl; simp at hl
  | [x] => rw [hbs] at hl; simp at hl
  | x :: y :: t =>
    simp only [ha]
    unfold randSelect randomInRange
    rw [hbs]
    simp only [List.isEmpty_cons, Bool.false_eq_true, if_false]
    rw [if_neg (by omega)]
    unfold randomLoop
    rw [rangeMin_eq (by omega) (by omega), if_neg (by omega)]

/-- Numbers below `2 ^ 64 mod sum` are drawn again. -/
theorem C21_redraw {bal : Bal} (h : Sane bal) (ha : bal.algo = .random) (hl : 2 ≤ bal.backends.length) {r : Nat} (hs : 2 ≤ bal.sumPri)
    (hr : r < 2 ^ 64 % bal.sumPri) (n : Nat) (rs : List Nat) : balSelect n (r :: rs) bal = balSelect n rs bal := by
  unfold balSelect
  have hsum := h.totals.sum ha
  have hb := h.bound
  rw [← hsum] at hb
  match hbs : bal.backends with
  | [] => rfl
  | [x] => rfl
  | x :: y :: t =>
    simp only [ha]
    unfold randSelect randomInRange
    simp only [if_neg (show ¬ bal.sumPri < 2 by omega)]
    conv => lhs; unfold randomLoop
    rw [rangeMin_eq (by omega) (by omega), if_pos hr]

/-- Whether a number drawn selects a backend. -/
def selectsBy (bal : Bal) (b : Be) (r : Nat) : Bool := decide (balSelect 0 [r] bal = .done (some b) bal)

theorem count_residues {bal : Bal} (h : Sane bal) (ha : bal.algo = .random) (hl : 2 ≤ bal.backends.length) (hn : bal.backends.Nodup)
    (hs : 2 ≤ bal.sumPri) {b} (hb : b ∈ bal.backends) (a q e : Nat) (hm : 2 ^ 64 % bal.sumPri ≤ a) :
    ∃ p : Nat → Bool, (∀ r, p (r + bal.sumPri) = p r) ∧ (∀ r, 2 ^ 64 % bal.sumPri ≤ r → p r = selectsBy bal b r) ∧
      countFrom p 0 bal.sumPri = (if Active b then b.prio else 0) ∧
      countFrom (selectsBy bal b) a (q * bal.sumPri + e) = q * (if Active b then b.prio else 0) + countFrom p (a + q * bal.sumPri) e := by
  have hp : ∀ r, 2 ^ 64 % bal.sumPri ≤ r → decide (randPick ((r % bal.sumPri : Nat) : Int) bal.backends = some b) = selectsBy bal b r := by
    intro r hr
    unfold selectsBy
    rw [balSelect_random h ha hl hs hr]
    simp
  have hper : ∀ r, decide (randPick (((r + bal.sumPri) % bal.sumPri : Nat) : Int) bal.backends = some b) =
      decide (randPick ((r % bal.sumPri : Nat) : Int) bal.backends = some b) := by
    intro r; rw [Nat.add_mod_right]
  have hcnt : countFrom (fun r => decide (randPick ((r % bal.sumPri : Nat) : Int) bal.backends = some b)) 0 bal.sumPri =
      if Active b then b.prio else 0 := by
    rw [← randPick_count hn hb, ← h.totals.sum ha]
    unfold countFrom
    congr 1
    refine List.filter_congr fun v hv => ?_
    dsimp only
    rw [Nat.zero_add, Nat.mod_eq_of_lt (List.mem_range.1 hv)]
  refine ⟨_, hper, hp, hcnt, ?_⟩
  rw [← hcnt, ← countFrom_blocks hper]
  unfold countFrom
  congr 1
  refine List.filter_congr fun v _ => (hp _ (by omega)).symm

/-- Of as many consecutive numbers as the sum of the priorities of active backends, whichever they are, each active backend
is selected by exactly as many as its priority, and each other by none. -/
theorem C21_counts {bal : Bal} (h : Sane bal) (ha : bal.algo = .random) (hl : 2 ≤ bal.backends.length) (hn : bal.backends.Nodup)
    (hs : 2 ≤ prioSum bal.backends) {b} (hb : b ∈ bal.backends) (a : Nat) (hm : 2 ^ 64 % prioSum bal.backends ≤ a) :
    countFrom (selectsBy bal b) a (prioSum bal.backends) = if Active b then b.prio else 0 := by
  rw [← h.totals.sum ha] at hs hm ⊢
  obtain ⟨p, _, _, _, h4⟩ := count_residues h ha hl hn hs hb a 1 0 hm
  simpa [countFrom] using h4

/-- Of all numbers `random ()` gives (up to `2 ^ 31`), each active backend is selected by its share, or by at most its
priority more.
Missing: the shares are not exactly proportional to the priorities, see `C21_uniform_fails`. -/
theorem C21_share_partial {bal : Bal} (h : Sane bal) (ha : bal.algo = .random) (hl : 2 ≤ bal.backends.length) (hn : bal.backends.Nodup)
    (hs : 2 ≤ prioSum bal.backends) {b} (hb : b ∈ bal.backends) (hba : Active b) (hlt : 2 ^ 64 % prioSum bal.backends ≤ 2 ^ 31) :
    let q := (2 ^ 31 - 2 ^ 64 % prioSum bal.backends) / prioSum bal.backends
    let c := countFrom (selectsBy bal b) (2 ^ 64 % prioSum bal.backends) (2 ^ 31 - 2 ^ 64 % prioSum bal.backends)
    q * b.prio ≤ c ∧ c ≤ (q + 1) * b.prio := by
  rw [← h.totals.sum ha] at hs hlt ⊢
  intro q c
  obtain ⟨p, h1, h2, h3, h4⟩ := count_residues h ha hl hn hs hb (2 ^ 64 % bal.sumPri) q ((2 ^ 31 - 2 ^ 64 % bal.sumPri) % bal.sumPri) (Nat.le_refl _)
  rw [show q * bal.sumPri + (2 ^ 31 - 2 ^ 64 % bal.sumPri) % bal.sumPri = 2 ^ 31 - 2 ^ 64 % bal.sumPri from Nat.div_add_mod' ..] at h4
  rw [if_pos hba] at h3 h4
  have hle : countFrom p (2 ^ 64 % bal.sumPri + q * bal.sumPri) ((2 ^ 31 - 2 ^ 64 % bal.sumPri) % bal.sumPri) ≤ b.prio := by
    rw [← h3, ← countFrom_shift h1 (2 ^ 64 % bal.sumPri + q * bal.sumPri)]
    exact countFrom_le _ _ (Nat.le_of_lt (Nat.mod_lt _ (by omega)))
  show q * b.prio ≤ countFrom _ _ _ ∧ countFrom _ _ _ ≤ (q + 1) * b.prio
  rw [h4, Nat.add_mul, Nat.one_mul]
  omega

/-- The balancer of the examples: priorities 1 and 2, and an inactive one. -/
def exRand : Bal := exBal .random 0 [exBe 1 1 false true, exBe 2 2 false true, exBe 3 4 true true]

theorem exRand_sane : Sane exRand := by
  refine ⟨by decide, (recompute_spec _ _).2, ?_, by decide, by decide⟩
  intro i hi; cases hi

example : exRand.algo = .random ∧ 2 ≤ exRand.backends.length ∧ exRand.backends.Nodup ∧ prioSum exRand.backends = 3 ∧
    (∃ b ∈ exRand.backends, Active b ∧ b.prio = 2) ∧ 2 ^ 64 % prioSum exRand.backends = 1 := by
  refine ⟨rfl, by decide, by decide, by decide, ⟨exBe 2 2 false true, by decide, by decide, rfl⟩, by decide⟩

/-- Deviation: the numbers dropped are chosen for 64-bit random numbers while `random ()` gives 31 bits, so the shares are not exactly
proportional: a backend with priority 2 gets one number more than twice those of a backend with priority 1. -/
theorem C21_uniform_fails :
    countFrom (selectsBy exRand (exBe 1 1 false true)) 1 (2 ^ 31 - 1) = 715827882 ∧
    countFrom (selectsBy exRand (exBe 2 2 false true)) 1 (2 ^ 31 - 1) = 2 * 715827882 + 1 := by
  have go : ∀ b ∈ exRand.backends, countFrom (selectsBy exRand b) 1 (2 ^ 31 - 1) =
      715827882 * (if Active b then b.prio else 0) + countFrom (selectsBy exRand b) 2147483647 1 := by
    intro b hb
    obtain ⟨p, h1, h2, h3, h4⟩ := count_residues exRand_sane rfl (by decide) (by decide) (by decide) hb 1 715827882 1 (by decide)
    rw [show exRand.sumPri = 3 by decide] at h1 h2 h4
    rw [show 1 + 715827882 * 3 = 2147483647 from rfl] at h4
    refine Eq.trans h4 (congrArg _ ?_)
    simp only [countFrom, List.range_succ, List.range_zero, List.nil_append, List.filter_cons, List.filter_nil, Nat.add_zero]
    rw [h2 2147483647 (by decide)]
  constructor
  · rw [go _ (by decide)]
    have : selectsBy exRand (exBe 1 1 false true) 2147483647 = false := by decide
    simp [countFrom, List.range_succ, this]
    decide
  · rw [go _ (by decide)]
    have : selectsBy exRand (exBe 2 2 false true) 2147483647 = true := by decide
    simp [countFrom, List.range_succ, this]
    decide

/-! ## C22 Weighted round robin -/

/-- In any state, any number of cycles terminates; a cycle being as many selections as the sum of the
priorities of active backends, each active backend is selected in each cycle exactly as often as its priority, and the others never.
Nothing but the position changes. -/
theorem C22_fair {bal : Bal} (ha : bal.algo = .iwrr) (ht : Totals bal) (hc : CursorOk bal) (hne : bal.backends ≠ [])
    (hn : bal.backends.Nodup) (cycles : Nat) :
    ∃ m l bal', (∀ n, m ≤ n → selections n (cycles * prioSum bal.backends) bal = some (l, bal')) ∧
      (∀ b ∈ bal.backends, l.count b = cycles * if Active b then b.prio else 0) ∧ (∀ b ∈ l, b ∈ bal.backends ∧ Active b) ∧
      bal'.backends = bal.backends ∧ Totals bal' ∧ CursorOk bal' := by
  obtain ⟨m, l, bal', h1, h2, h3, h4⟩ := selections_cycles ha ht hc hne cycles
  refine ⟨m, l, bal', h1, fun b hb => ?_, fun b hb => ?_, h3.2.2.2.1.symm, totals_same h3 ht, h4⟩
  · rw [h2.count_eq, ← count_shares hn hb]
    generalize shares bal.backends = sh
    clear h1 h2
    induction cycles with
    | zero => simp
    | succ c ih => rw [List.replicate_succ, List.flatten_cons, List.count_append, ih, Nat.succ_mul, Nat.add_comm]
  · have := h2.mem_iff.1 hb
    obtain ⟨l', hl', hbl⟩ := List.mem_flatten.1 this
    rw [(List.mem_replicate.1 hl').2] at hbl
    obtain ⟨y, hy, hby⟩ := List.mem_flatMap.1 hbl
    have := (List.mem_replicate.1 hby).2
    subst this
    have := List.mem_filter.1 hy
    exact ⟨this.1, by simpa using this.2⟩

/-- A selection ends if there is an active backend with a positive priority. -/
theorem C22_terminates {bal : Bal} (ha : bal.algo = .iwrr) (ht : Totals bal) (hc : CursorOk bal)
    {b} (hb : b ∈ bal.backends) (hba : Active b) (hp : 1 ≤ b.prio) (rs : List Nat) :
    ∃ n0 c bal', (∀ n, n0 ≤ n → balSelect n rs bal = .done (some c) bal') ∧ Active c ∧ c ∈ bal.backends := by
  have hne : bal.backends ≠ [] := by intro h; rw [h] at hb; simp at hb
  have hpos : 0 < prioSum bal.backends := Nat.lt_of_lt_of_le hp (prio_le_sum hb hba)
  match hbs : bal.backends with
  | [] => exact absurd hbs hne
  | [x] =>
    rw [hbs] at hb
    have : b = x := by simpa using hb
    subst this
    refine ⟨0, b, bal, fun n _ => ?_, hba, by simp⟩
    unfold balSelect
    rw [hbs]; dsimp only
    rw [if_pos ((isActive_iff b).2 hba)]
  | x :: y :: t =>
    have hl : 2 ≤ bal.backends.length := by rw [hbs]; simp
    obtain ⟨bal0, hr, hs, he⟩ := iwrrSelect_eq hne hc
    obtain ⟨n0, c, bal', hf⟩ := iwrrLoop_found hr (by rw [← hs.2.2.2.1, ← hs.2.2.2.2.2]; exact prio_le_max' ha ht) (by rw [← hs.2.2.2.1]; exact hpos)
    have hrun : ∀ n, n0 ≤ n → balSelect n rs bal = .done (some c) bal' := fun n hn => by
      rw [balSelect_iwrr ha hl, he]; exact hf n hn
    refine ⟨n0, c, bal', hrun, ?_⟩
    rw [← hbs]
    exact balSelect_active (hrun n0 (Nat.le_refl _))

/-- The balancer of the example, in the midst of a cycle. -/
def exRobin : Bal :=
  { exBal .iwrr 0 [exBe 1 1 false true, exBe 2 3 false true, exBe 3 4 true true, exBe 4 2 false true] with cur := some 3, round := 1 }

example : exRobin.algo = .iwrr ∧ Totals exRobin ∧ CursorOk exRobin ∧ exRobin.backends ≠ [] ∧ exRobin.backends.Nodup ∧
    prioSum exRobin.backends = 6 ∧ (selections 100 6 exRobin).map (fun r => r.1.map (·.id)) = some [4, 2, 1, 2, 4, 2] := by
  refine ⟨rfl, ?_, by intro i hi; cases hi; decide, by decide, by decide, by decide, by decide⟩
  have := (recompute_spec id ⟨.iwrr, 0, 0, [exBe 1 1 false true, exBe 2 3 false true, exBe 3 4 true true, exBe 4 2 false true], 0, 0, 0, none⟩).2
  exact ⟨this.count, this.sum, this.max⟩

/-! ## C23 Accounting -/

/-- A history of events. -/
def SvcSt.history (s : SvcSt) (h : List BeEv) : SvcSt := h.foldl SvcSt.event s

theorem history_ok {s : SvcSt} (hb : BalsOk s.bals) (h : List BeEv) : BalsOk (SvcSt.history s h).bals := by
  unfold SvcSt.history
  induction h generalizing s with
  | nil => exact hb
  | cons e t ih => exact ih (event_ok hb e)

/-- After any history the numbers of every balancer are those of its active backends.
Missing: that a backend is found to be up again is taken as one step with the update of the numbers; it is not, see
`C23_race_fails`. -/
theorem C23_totals_partial {s : SvcSt} (hb : BalsOk s.bals) (h : List BeEv) :
    ∀ bal ∈ (SvcSt.history s h).bals, Totals bal := (history_ok hb h).totals

/-- They are so, whatever they were, after any recomputation. -/
theorem C23_recompute (bal : Bal) (cb : Be → Be) : Totals (bal.recompute cb) := (recompute_spec _ _).2

/-- A service believes it has an active backend if and only if it has one. -/
theorem C23_believes_partial {s : SvcSt} (hb : BalsOk s.bals) (h : List BeEv) :
    (SvcSt.history s h).hasBackends = true ↔ ∃ b ∈ (SvcSt.history s h).all, Active b :=
  hasBackends_iff (history_ok hb h).totals

/-- After any history each regular backend is in the state that the events concerning it give, and otherwise what it was. -/
theorem C23_state {s : SvcSt} (hb : BalsOk s.bals) (h : List BeEv) {id b} (hf : s.be? id = some b) :
    ∃ b', (SvcSt.history s h).be? id = some b' ∧ b'.prio = b.prio ∧ b'.type = b.type ∧
      (b.type = .regular → (b'.disabled, b'.alive) = stateAfter id h (b.disabled, b.alive)) ∧ (b.type ≠ .regular → b' = b) := by
  unfold SvcSt.history
  induction h generalizing s b with
  | nil => exact ⟨b, hf, rfl, rfl, fun _ => rfl, fun _ => rfl⟩
  | cons e t ih =>
    have he : (s.event e).be? id = some (evEffect e b) := by rw [event_be? hb, hf]; rfl
    obtain ⟨b', h1, h2, h3, h4, h5⟩ := ih (event_ok hb e) he
    have hl := evEffect_light e b
    have hid : b.id = id := (be?_mem hf).2
    refine ⟨b', h1, h2.trans hl.2.1, h3.trans hl.2.2, fun ht => ?_, fun ht => ?_⟩
    · rw [h4 (by rw [hl.2.2]; exact ht)]
      have hcase : ∀ (i : Nat) (x : Be), ((if b.id = i ∧ b.type = .regular then x else b).disabled, (if b.id = i ∧ b.type = .regular then x else b).alive) =
          if i = id then (x.disabled, x.alive) else (b.disabled, b.alive) := by
        intro i x
        by_cases hi : i = id
        · rw [if_pos ⟨by rw [hid, hi], ht⟩, if_pos hi]
        · rw [if_neg (by rw [hid]; exact fun h => hi h.1.symm), if_neg hi]
      cases e <;> (unfold evEffect; dsimp only; rw [hcase]; rfl)
    · rw [h5 (by rw [hl.2.2]; exact ht)]
      cases e <;> (unfold evEffect; dsimp only; rw [if_neg (by simp [ht])])

/-- A backend is given another chance for as long as it is dead: after any history, each regular backend that is dead is one that is probed again. -/
theorem C23_probed {s : SvcSt} (hb : BalsOk s.bals) (hd : ∀ b ∈ s.all, b.type = .regular → b.alive = false → b.id ∈ s.touching) (h : List BeEv) :
    ∀ b ∈ (SvcSt.history s h).all, b.type = .regular → b.alive = false → b.id ∈ (SvcSt.history s h).touching := by
  unfold SvcSt.history
  induction h generalizing s with
  | nil => exact hd
  | cons e t ih =>
    refine ih (event_ok hb e) fun b hbm ht hal => ?_
    rw [event_all hb] at hbm
    obtain ⟨c, hc, rfl⟩ := List.mem_map.1 hbm
    have hl := evEffect_light e c
    rw [hl.2.2] at ht
    rw [hl.1]
    have hf : s.be? c.id = some c := by
      cases hq : s.be? c.id with
      | none =>
        unfold SvcSt.be? at hq
        exact absurd (decide_eq_true rfl) (List.find?_eq_none.1 hq c hc)
      | some d =>
        obtain ⟨d1, d2⟩ := be?_mem hq
        rw [mem_unique hb.cfg.distinct d1 hc d2]
    have kill : ∀ i mode, c.id ∈ s.touching ∨ (mode = .kill ∧ i = c.id) → c.id ∈ (s.killBe i mode).touching := fun i mode hm => by
      unfold SvcSt.killBe
      split
      · rename_i hn
        rcases hm with hm | ⟨-, rfl⟩
        · exact hm
        · rw [hf] at hn; cases hn
      · rename_i d hdq
        split
        · dsimp only
          split
          · rcases hm with hm | ⟨-, rfl⟩
            · exact List.mem_append_left _ hm
            · exact List.mem_append_right _ List.mem_cons_self
          · rename_i hk
            rcases hm with hm | ⟨hk', -⟩
            · exact hm
            · exact absurd hk' hk
        · rename_i hnt
          rcases hm with hm | ⟨-, rfl⟩
          · exact hm
          · rw [hf] at hdq
            cases hdq
            exact absurd ht hnt
    cases e with
    | disable i =>
      refine kill i .disable (.inl (hd c hc ht ?_))
      unfold evEffect at hal
      dsimp only at hal
      split at hal <;> exact hal
    | enable i =>
      refine kill i .enable (.inl (hd c hc ht ?_))
      unfold evEffect at hal
      dsimp only at hal
      split at hal <;> exact hal
    | kill i =>
      unfold evEffect at hal
      dsimp only at hal
      split at hal
      · rename_i hi
        exact kill i .kill (.inr ⟨rfl, hi.1.symm⟩)
      · exact kill i .kill (.inl (hd c hc ht hal))
    | probe i up =>
      unfold evEffect at hal
      dsimp only at hal
      have hdead : c.alive = false := by
        split at hal
        · exact (Bool.or_eq_false_iff.1 hal).1
        · exact hal
      have hm := hd c hc ht hdead
      by_cases hi : i = c.id
      · subst hi
        rw [if_pos ⟨rfl, ht⟩] at hal
        have hup : up = false := (Bool.or_eq_false_iff.1 hal).2
        show c.id ∈ (s.touch c.id up).touching
        unfold SvcSt.touch
        rw [hf]
        dsimp only
        rw [if_pos ht, if_neg (by rw [hdead]; decide), if_neg (by rw [hup]; decide)]
        exact hm
      · have her : c.id ∈ s.touching.erase i := (List.mem_erase_of_ne (Ne.symm hi)).2 hm
        show c.id ∈ (s.touch i up).touching
        unfold SvcSt.touch
        split
        · exact hm
        · split
          · split
            · exact her
            · split
              · dsimp only
                split <;> exact her
              · exact hm
          · exact her

example : ∀ b ∈ (⟨exBals, .init, []⟩ : SvcSt).all, b.type = .regular → b.alive = false → b.id ∈ (⟨exBals, .init, []⟩ : SvcSt).touching := by decide

example : BalsOk exBals ∧ (∃ b, (⟨exBals, .init, []⟩ : SvcSt).be? 2 = some b ∧ b.type = .regular) ∧
    (SvcSt.history ⟨exBals, .init, []⟩ [.kill 1, .disable 2, .kill 2, .probe 2 true, .kill 3, .enable 2]).touching = [1, 3] ∧
    (SvcSt.history ⟨exBals, .init, []⟩ [.kill 1, .disable 2, .kill 2, .probe 2 true, .kill 3, .enable 2]).bals.map (fun b => (b.actNum, b.sumPri)) =
      [(1, 3), (0, 0)] := ⟨exBals_ok, ⟨exBe 2 3 false true, by decide, rfl⟩, by decide, by decide⟩

/-- Deviation: the thread that finds a backend alive marks it so, and looks whether it is disabled, without lock. If it is disabled at that
moment by the administrator, it is then counted although it is disabled. The service believes it has a backend, and
with round robin the next request is never answered, holding the lock. -/
theorem C23_race_fails : ∃ s : SvcSt, BalsOk s.bals ∧ (∃ b, s.be? 1 = some b ∧ b.alive = false ∧ b.disabled = false) ∧
    let s' := ((s.setAlive 1).killBe 1 .disable).countAlive 1
    (∃ bal ∈ s'.bals, ¬ Totals bal) ∧ (∀ b ∈ s'.all, ¬ Active b) ∧ s'.hasBackends = true ∧
    ∀ ttl now n rnd key, key = none → s'.getBackend ttl now n rnd key = .more := by
  refine ⟨⟨[exBal .iwrr 0 [exBe 1 5 false false, exBe 2 5 false false]], .init, []⟩, ?_, ⟨exBe 1 5 false false, by decide, rfl, rfl⟩, ?_⟩
  · refine ⟨⟨by decide, by decide, by decide, by decide⟩, ?_, ?_⟩
    · intro bal hb
      simp only [List.mem_cons, List.not_mem_nil, or_false] at hb
      subst hb; exact (recompute_spec _ _).2
    · intro bal hb i hi
      simp only [List.mem_cons, List.not_mem_nil, or_false] at hb
      subst hb; cases hi
  · intro s'
    have h0 : s'.bals = [⟨.iwrr, 0, 1, [exBe 1 5 true true, exBe 2 5 false false], 0, 0, 5, none⟩] := by decide
    have hno : ∀ b ∈ s'.all, ¬ Active b := by unfold SvcSt.all; rw [h0]; decide
    refine ⟨⟨_, by rw [h0]; exact List.mem_cons_self .., fun h => ?_⟩, hno, ?_, ?_⟩
    · have := h.count; revert this; decide
    · unfold SvcSt.hasBackends; rw [h0]; decide
    · rintro ttl now n rnd key rfl
      unfold SvcSt.getBackend SvcSt.lb SvcSt.hasBackends
      rw [h0, if_pos (by decide)]
      dsimp only
      unfold lbSelect
      rw [balSelect_iwrr rfl (by decide), iwrrSelect_endless (by decide) (by intro i hi; cases hi) (by decide)]

/-! ## C24 Sticky sessions -/

/-- The states of a service, with the latest time at which something was done: requests and responses, events concerning backends, removal of sessions.
A response is only taken into account if its backend is still up. -/
inductive SvcReach (ttl : Nat) (bals : List Bal) (t0 : TS) : SvcSt → TS → Prop
  | init : SvcReach ttl bals t0 ⟨bals, .init, []⟩ t0
  | backend {s t} (e : BeEv) : SvcReach ttl bals t0 s t → SvcReach ttl bals t0 (s.event e) t
  | request {s t now n rnd key ob s'} : SvcReach ttl bals t0 s t → NotAfter t now → s.getBackend ttl now n rnd key = .done ob s' →
      SvcReach ttl bals t0 s' now
  | response {s t now key} {b : Be} : SvcReach ttl bals t0 s t → NotAfter t now → b ∈ s.all → Up b →
      SvcReach ttl bals t0 (s.updSession ttl now key b.id) now
  | expire {s t} (upTo : TS) : SvcReach ttl bals t0 s t → SvcReach ttl bals t0 { s with tab := (s.tab.expire upTo).1 } t
  | remove {s t} (key : Bytes) : SvcReach ttl bals t0 s t → SvcReach ttl bals t0 { s with tab := s.tab.removeKey key } t

theorem mem_expire {tab : SessTab} {now : TS} {x : Sess} (h : x ∈ (tab.expire now).1.head) : x ∈ tab.head := by
  unfold SessTab.expire at h
  rw [expireLoop_eq] at h
  exact (List.dropWhile_sublist _).subset h

theorem mem_removeKey {tab : SessTab} {key : Bytes} {x : Sess} (h : x ∈ (tab.removeKey key).head) : x ∈ tab.head := by
  unfold SessTab.removeKey at h
  dsimp only at h
  split at h
  · exact (mem_unlink.1 h).1
  · exact h

theorem svcReach_ok {ttl : Nat} {bals : List Bal} {t0 : TS} (hb : BalsOk bals) {s t} (h : SvcReach ttl bals t0 s t) : SvcOk ttl t s := by
  induction h with
  | init => exact ⟨hb, sessInv_init _, by intro x hx; simp [SessTab.init] at hx⟩
  | backend e _ ih => exact event_svcOk ih e
  | request _ hn hg ih => exact (getBackend_done (ih.later hn) hg).1
  | @response s t now key b _ hn hm hu ih =>
    have ih := ih.later hn
    unfold SvcSt.updSession
    cases key with
    | none => exact ih
    | some k =>
      dsimp only
      have hfi := sessInv_find ih.sess (NotAfter.refl now) k
      split
      · rename_i tab _ hf
        rw [hf] at hfi
        refine ⟨ih.bals, hfi, fun x hx => ?_⟩
        obtain ⟨y, hy, he⟩ := mem_find (ttl := ttl) (now := now) (key := k) (x := x) ih.sess (by rw [hf]; exact hx)
        rw [← he]; exact ih.up y hy
      · rename_i tab hf
        rw [hf] at hfi
        refine ⟨ih.bals, sessInv_add hfi (NotAfter.refl now) _ _, fun x hx => ?_⟩
        rcases mem_add hx with hx | rfl
        · obtain ⟨y, hy, he⟩ := mem_find (ttl := ttl) (now := now) (key := k) (x := x) ih.sess (by rw [hf]; exact hx)
          rw [← he]; exact ih.up y hy
        · exact ⟨b, hm, rfl, hu⟩
  | expire u _ ih => exact ⟨ih.bals, (sessInv_expire ih.sess u).1, fun x hx => ih.up x (mem_expire hx)⟩
  | remove key _ ih => exact ⟨ih.bals, (sessInv_removeKey ih.sess key).1, fun x hx => ih.up x (mem_removeKey hx)⟩

theorem svcReach_frame {ttl : Nat} {bals : List Bal} {t0 : TS} (hb : BalsOk bals) {s t} (h : SvcReach ttl bals t0 s t) :
    (SafeOrder bals → SafeOrder s.bals) ∧ ∀ rnd, Draws bals rnd → Draws s.bals rnd := by
  induction h with
  | init => exact ⟨id, fun _ => id⟩
  | backend e hr ih =>
    have hu := event_updated (svcReach_ok hb hr).bals e
    exact ⟨fun h => hu.safe (ih.1 h), fun rnd h => (ih.2 rnd h).updated (evEffect_light e) hu⟩
  | request hr hn hg ih =>
    have hs := (getBackend_done ((svcReach_ok hb hr).later hn) hg).2.1
    exact ⟨fun h => hs.safe (ih.1 h), fun rnd h => (ih.2 rnd h).same hs⟩
  | @response s t now key b _ _ _ _ ih =>
    have : (s.updSession ttl now key b.id).bals = s.bals := by
      unfold SvcSt.updSession
      cases key with
      | none => rfl
      | some k => dsimp only; split <;> rfl
    rw [this]; exact ih
  | expire _ _ ih => exact ih
  | remove _ _ ih => exact ih

/-- The session of a key: its backend, and when it ends. -/
def sessionOf (s : SvcSt) (key : Bytes) (be : Nat) (ends : TS) : Prop := ∃ x ∈ s.tab.head, x.key = key ∧ x.be = be ∧ x.expire = ends

/-- While there is a session, every request with its key is sent to its backend, which is up; the session is prolonged, and nothing else changes.
Missing: it is required that some backend is active (as is the case if the one of the session is enabled), see `C24_disabled_fails`;
and that responses of backends that were killed meanwhile do not create sessions, see `C24_late_response_fails`. -/
theorem C24_sticky_partial {ttl : Nat} {bals : List Bal} {t0 : TS} (hb : BalsOk bals) {s t now} (h : SvcReach ttl bals t0 s t) (hn : NotAfter t now)
    {key : Bytes} {be ends} (hs : sessionOf s (key.take 127) be ends) (ha : ∃ b ∈ s.all, Active b) :
    (∃ b ∈ s.all, b.id = be ∧ Up b) ∧
    ∃ s', (∀ n rnd, s.getBackend ttl now n rnd (some key) = .done (some be) s') ∧ s'.bals = s.bals ∧
      ∀ k b e, sessionOf s' k b e ↔ if k = key.take 127 then b = be ∧ e = now.addSec ttl else sessionOf s k b e := by
  have hok := (svcReach_ok hb h).later hn
  obtain ⟨x, hx, hk, hxb, hxe⟩ := hs
  refine ⟨by rw [← hxb]; exact hok.up x hx, ?_⟩
  rcases find_spec hok.sess (ttl := ttl) (now := now) (key.take keySize) with ⟨hno, _⟩ | ⟨y, hy, hky, he⟩
  · exact absurd hk (hno x hx)
  have hyx := hok.sess.key_inj hy hx (hky.trans hk.symm)
  subst hyx
  refine ⟨{ s with tab := (s.tab.find ttl now (key.take keySize)).1 }, fun n rnd => ?_, rfl, fun k b e => ?_⟩
  · unfold SvcSt.getBackend
    rw [if_pos ((hasBackends_iff hok.bals.totals).2 ha)]
    dsimp only
    unfold SvcSt.byKey
    rw [he]
    dsimp only
    rw [hxb]
  · unfold sessionOf
    rw [he]
    dsimp only
    by_cases hkk : k = key.take 127
    · rw [if_pos hkk]
      constructor
      · rintro ⟨z, hz, h1, h2, h3⟩
        rcases List.mem_append.1 hz with hz | hz
        · have hzm := mem_unlink.1 hz
          have := hok.sess.key_inj hzm.1 hx (h1.trans (hkk.trans hk.symm))
          subst this
          exact absurd rfl hzm.2
        · rw [List.mem_singleton.1 hz] at h2 h3
          exact ⟨by rw [← h2, ← hxb], h3.symm⟩
      · rintro ⟨rfl, rfl⟩
        exact ⟨_, List.mem_append.2 (.inr (List.mem_singleton.2 rfl)), hk.trans hkk.symm, hxb, rfl⟩
    · rw [if_neg hkk]
      constructor
      · rintro ⟨z, hz, h1, h2, h3⟩
        rcases List.mem_append.1 hz with hz | hz
        · exact ⟨z, (mem_unlink.1 hz).1, h1, h2, h3⟩
        · rw [List.mem_singleton.1 hz] at h1
          exact absurd (h1.symm.trans hk) hkk
      · rintro ⟨z, hz, h1, h2, h3⟩
        refine ⟨z, List.mem_append.2 (.inl (mem_unlink.2 ⟨hz, fun hp => ?_⟩)), h1, h2, h3⟩
        have := ptr_inj hok.sess.ptrs hz hx hp
        subst this
        exact hkk (h1.symm.trans hk)

/-- In particular if the backend of the session is enabled. -/
theorem C24_sticky_enabled_partial {ttl : Nat} {bals : List Bal} {t0 : TS} (hb : BalsOk bals) {s t now} (h : SvcReach ttl bals t0 s t) (hn : NotAfter t now)
    {key : Bytes} {be ends} (hs : sessionOf s (key.take 127) be ends) (ha : ∀ b ∈ s.all, b.id = be → b.disabled = false) :
    ∃ s', ∀ n rnd, s.getBackend ttl now n rnd (some key) = .done (some be) s' := by
  obtain ⟨x, hx, hk, hxb, hxe⟩ := hs
  obtain ⟨b, hbm, hbi, hu⟩ := ((svcReach_ok hb h).later hn).up x hx
  obtain ⟨_, s', hr, _⟩ := C24_sticky_partial hb h hn (be := be) (ends := ends) ⟨x, hx, hk, hxb, hxe⟩ ⟨b, hbm, ha b hbm (hbi.trans hxb), hu.1, hu.2⟩
  exact ⟨s', hr⟩

/-- A request without a key creates no session and changes none. -/
theorem C24_without_key {s s' : SvcSt} (hb : BalsOk s.bals) {ttl now n rnd ob} (h : s.getBackend ttl now n rnd none = .done ob s') :
    s'.tab = s.tab := by
  unfold SvcSt.getBackend at h
  split at h
  · exact (lb_done hb.cursor h).2.2.1
  · cases h; rfl

/-- A request with a new key is balanced, and gets a session with the backend selected; other sessions remain. -/
theorem C24_new_session_partial {ttl : Nat} {bals : List Bal} {t0 : TS} (hb : BalsOk bals) {s t now} (h : SvcReach ttl bals t0 s t) (hn : NotAfter t now)
    {key : Bytes} (hno : ∀ be ends, ¬ sessionOf s (key.take 127) be ends) {n rnd be s'}
    (hg : s.getBackend ttl now n rnd (some key) = .done (some be) s') :
    (∃ b ∈ s.all, b.id = be ∧ Active b) ∧
    ∀ k b e, sessionOf s' k b e ↔ if k = key.take 127 then b = be ∧ e = now.addSec ttl else sessionOf s k b e := by
  have hok := (svcReach_ok hb h).later hn
  have hne : ∀ x ∈ s.tab.head, x.key ≠ key.take 127 := fun x hx hk => hno _ _ ⟨x, hx, hk, rfl, rfl⟩
  rcases find_spec hok.sess (ttl := ttl) (now := now) (key.take keySize) with ⟨_, he⟩ | ⟨y, hy, hky, _⟩
  case inr => exact absurd hky (hne y hy)
  unfold SvcSt.getBackend at hg
  split at hg
  case isFalse => cases hg
  dsimp only at hg
  unfold SvcSt.byKey at hg
  rw [he] at hg
  dsimp only at hg
  split at hg
  · rename_i b s1 hl
    cases hg
    obtain ⟨h1, h2, h3, h4, h5⟩ := lb_done hok.bals.cursor hl
    refine ⟨h5 _ rfl, fun k b e => ?_⟩
    have habs := sessAbs_add (ttl := ttl) (now := now) hok.sess (f := fun k =>
      (s.tab.head.find? fun x => x.key = k).map fun x => (x.be, x.expire)) (fun k b e => ?_) (key.take keySize) be k b e
    · unfold sessionOf
      rw [h3]
      refine Iff.trans habs.symm ?_
      unfold keySize
      dsimp only
      by_cases hk : k = key.take 127
      · rw [if_pos hk, if_pos hk.symm]; simp [eq_comm]
      · rw [if_neg hk, if_neg (fun h => hk h.symm)]
        simp only [Option.map_eq_some_iff, Prod.mk.injEq]
        constructor
        · rintro ⟨x, hx, h1, h2⟩
          exact ⟨x, List.mem_of_find?_eq_some hx, by simpa using List.find?_some hx, h1, h2⟩
        · rintro ⟨x, hx, h1, h2, h3⟩
          cases hf : s.tab.head.find? fun x => x.key = k with
          | none => have := List.find?_eq_none.1 hf x hx; simp [h1] at this
          | some y =>
            have := hok.sess.key_inj (List.mem_of_find?_eq_some hf) hx ((by simpa using List.find?_some hf : y.key = k).trans h1.symm)
            subst this
            exact ⟨y, rfl, h2, h3⟩
    · simp only [Option.map_eq_some_iff, Prod.mk.injEq]
      constructor
      · rintro ⟨x, hx, h1, h2⟩
        exact ⟨x, List.mem_of_find?_eq_some hx, by simpa using List.find?_some hx, h1, h2⟩
      · rintro ⟨x, hx, h1, h2, h3⟩
        cases hf : s.tab.head.find? fun x => x.key = k with
        | none => have := List.find?_eq_none.1 hf x hx; simp [h1] at this
        | some y =>
          have := hok.sess.key_inj (List.mem_of_find?_eq_some hf) hx ((by simpa using List.find?_some hf : y.key = k).trans h1.symm)
          subst this
          exact ⟨y, rfl, h2, h3⟩
  · rename_i s1 hl
    obtain ⟨h1, h2, h3, h4, h5⟩ := lb_done hok.bals.cursor hl
    have hd := getBackend_none_of_lb hok.bals hl
    obtain ⟨_, _, _, _, k5⟩ := lb_done h2 hg
    obtain ⟨b, hb1, _, hb3⟩ := k5 _ rfl
    refine absurd hb3 (hd b ?_)
    have := h1.flat
    show b ∈ s.bals.flatMap _
    rw [← this]; exact hb1
  · rename_i hs _
    exact absurd hg (fun h => hs _ _ h)

/-- Killing a backend drops its sessions, and no others. -/
theorem C24_kill {s : SvcSt} {id : Nat} {b} (hf : s.be? id = some b) (ht : b.type = .regular) (k : Bytes) (be : Nat) (e : TS) :
    sessionOf (s.killBe id .kill) k be e ↔ sessionOf s k be e ∧ be ≠ id := by
  unfold sessionOf
  rw [killBe_kill_tab hf ht]
  unfold SessTab.removeBe
  rw [removeBeLoop_eq]
  simp only [List.mem_filter]
  constructor
  · rintro ⟨x, ⟨h1, h2⟩, h3, h4, h5⟩
    exact ⟨⟨x, h1, h3, h4, h5⟩, by rw [← h4]; simpa using h2⟩
  · rintro ⟨⟨x, h1, h3, h4, h5⟩, h2⟩
    exact ⟨x, ⟨h1, by rw [h4]; simpa using h2⟩, h3, h4, h5⟩

/-- Disabling or enabling one does not touch the sessions. -/
theorem C24_disable (s : SvcSt) (id : Nat) (m : DisableMode) (hm : m ≠ .kill) : (s.killBe id m).tab = s.tab := by
  unfold SvcSt.killBe
  split
  · rfl
  · split
    · rfl
    · rfl

/-- What the key of a request is, by type of session. -/
theorem C24_key (type : SessType) (sid addr : Bytes) (r : Req) (hs : List Header) (hg : ∀ h ∈ hs, Good h) (vals : Bytes → List Bytes)
    (hv : ∀ nm, Values nm (hs.map (·.text)) (vals nm)) :
    ∃ k, (requestKey type sid addr r hs).2 = .ok k ∧
      k.map (·.take 127) = (sessionKey sid addr r.getPath.2 (r.getParam sid).2 (fun nm => (vals nm).head?) type).map (·.take 127) := by
  cases type with
  | none => exact ⟨none, rfl, rfl⟩
  | ip => exact ⟨some addr, rfl, rfl⟩
  | cookie =>
    refine ⟨_, keyByHeader_spec hg (hv _) _, ?_⟩
    simp only [sessionKey]
    cases (vals b!"Cookie").head? with
    | none => rfl
    | some v =>
      simp only [Option.bind_some]
      unfold keyCookie
      rw [keyCookieLoop_eq sid _ v (by omega), Option.map_map]
      congr 1
      funext x
      simp [keySize, List.take_take]
  | url =>
    unfold requestKey
    simp only [sessionKey]
    rcases (r.getParam sid).2 with _ | _ | v
    · exact ⟨none, rfl, rfl⟩
    · exact ⟨none, rfl, rfl⟩
    · exact ⟨some v, rfl, rfl⟩
  | parm =>
    unfold requestKey
    simp only [sessionKey]
    obtain ⟨h1, h2⟩ := semis_last r.getPath.2
    refine ⟨_, rfl, ?_⟩
    by_cases h : r.getPath.2.any (· == ch%';') = true
    · rw [if_pos h, if_pos (h2.2 h), h1]
    · rw [if_neg h, if_neg fun h' => h (h2.1 h')]
  | header =>
    refine ⟨_, keyByHeader_spec hg (hv _) _, ?_⟩
    simp only [sessionKey]
    cases (vals sid).head? with
    | none => rfl
    | some v => simp [keySize, List.take_take]
  | basic =>
    refine ⟨_, keyByHeader_spec hg (hv _) _, ?_⟩
    simp only [sessionKey]
    cases (vals b!"Authorization").head? with
    | none => rfl
    | some v =>
      simp only [Option.bind_some, keyAuthbasic_eq, Option.map_map]
      congr 1
      funext x
      simp [keySize, List.take_take]

/-- What the key of a response is: the one a request with the same headers has. -/
theorem C24_response_key (type : SessType) (sid addr : Bytes) (r : Req) (hs : List Header) :
    responseKey type sid hs = if type = .header ∨ type = .cookie ∨ type = .basic then (requestKey type sid addr r hs).2 else .ok none := by
  cases type <;> rfl

/-- Deviation: with sessions by cookie, the response that sets the cookie creates no session, since it contains no header with the name "Cookie".  So the next request of that client,
the first one with the cookie, may be sent to any backend, and the session is with that one. -/
theorem C24_set_cookie_fails : ∃ (response request : List Header) (s1 s2 s3 : SvcSt),
    response = buildHeaders [] [b!"Set-Cookie: sid=42"] ∧ request = buildHeaders [] [b!"Cookie: sid=42"] ∧
    (⟨exBals, .init, []⟩ : SvcSt).getBackend 300 ⟨100, 0⟩ 0 (fun _ => [1000]) none = .done (some 1) s1 ∧
    responseKey .cookie b!"sid" response = .ok none ∧ s1.updSession 300 ⟨101, 0⟩ none 1 = s2 ∧
    (∀ r, (requestKey .cookie b!"sid" [] r request).2 = .ok (some b!"42")) ∧
    s2.getBackend 300 ⟨102, 0⟩ 0 (fun _ => [1007]) (some b!"42") = .done (some 2) s3 :=
  ⟨_, _, ⟨exBals, .init, []⟩, ⟨exBals, .init, []⟩, ⟨exBals, ⟨[(b!"42", 0)], [⟨0, b!"42", 2, ⟨402, 0⟩⟩], 1⟩, []⟩, rfl, rfl, by decide +kernel, by decide +kernel, by decide +kernel,
    by intro r; unfold requestKey; dsimp only; decide +kernel, by decide +kernel⟩

/-- Deviation: only the first 127 bytes of a key count, so clients whose keys have the same beginning share their session. -/
theorem C24_long_key_fails (s : SvcSt) (ttl : Nat) (now : TS) (n : Nat) (rnd : Nat → List Nat) (p a b : Bytes) (hp : 127 ≤ p.length) :
    s.getBackend ttl now n rnd (some (p ++ a)) = s.getBackend ttl now n rnd (some (p ++ b)) := by
  have : ∀ x : Bytes, (p ++ x).take keySize = p.take keySize := fun x => List.take_append_of_le_length (by unfold keySize; omega)
  simp only [SvcSt.getBackend, SvcSt.byKey, this]

example : sessionKey b!"sid" [] b!"/a;x=1;y" none (fun _ => none) .parm = some b!"y" ∧
    sessionKey b!"sid" [] b!"/" none (fun _ => some b!"a=1;  SID=2; sid=3") .cookie = some b!"2" ∧
    sessionKey b!"sid" [] b!"/" none (fun _ => some b!"basic  QWxhZGRpbg==") .basic = some b!"QWxhZGRpbg==" := by decide

/-- Example: two requests of one client. -/
example : ∃ s1, SvcReach 300 exBals ⟨100, 0⟩ s1 ⟨101, 0⟩ ∧ sessionOf s1 b!"k" 2 ⟨401, 0⟩ ∧ (∃ b ∈ s1.all, Active b) := by
  refine ⟨_, .request (n := 0) (rnd := fun _ => [1007]) (key := some b!"k") (ob := some 2) .init (by show NotAfter _ _; unfold NotAfter; decide)
    (show _ = GetRes.done (some 2) ⟨exBals, ⟨[(b!"k", 0)], [⟨0, b!"k", 2, ⟨401, 0⟩⟩], 1⟩, []⟩ by decide), ?_, ?_⟩
  · exact ⟨⟨0, b!"k", 2, ⟨401, 0⟩⟩, by decide, rfl, rfl, rfl⟩
  · exact ⟨exBe 1 5 false true, by decide, by decide⟩

/-- Deviation: if the backend of a session is disabled (and alive) and no other is active, the request is not sent to it but
refused. -/
theorem C24_disabled_fails : ∃ s t, SvcReach 300 exBals ⟨100, 0⟩ s t ∧ (∃ ends, sessionOf s b!"k" 2 ends) ∧
    (∃ b ∈ s.all, b.id = 2 ∧ b.alive = true) ∧ ∀ now n rnd, s.getBackend 300 now n rnd (some b!"k") = .done none s := by
  refine ⟨(((⟨exBals, ⟨[(b!"k", 0)], [⟨0, b!"k", 2, ⟨401, 0⟩⟩], 1⟩, []⟩ : SvcSt).event (.disable 2)).event (.kill 1)).event (.kill 3), ⟨101, 0⟩, ?_, ?_, ?_, ?_⟩
  · refine .backend _ (.backend _ (.backend _ (.request (n := 0) (rnd := fun _ => [1007]) (key := some b!"k") (ob := some 2) .init ?_ ?_)))
    · unfold NotAfter; decide
    · decide
  · exact ⟨⟨401, 0⟩, ⟨0, b!"k", 2, ⟨401, 0⟩⟩, by decide, rfl, rfl, rfl⟩
  · exact ⟨exBe 2 3 true true, by decide, rfl, rfl⟩
  · intro now n rnd
    unfold SvcSt.getBackend
    rw [if_neg (by decide)]

/-- Deviation: a response received from a backend that was killed meanwhile creates a session with it; the next request with that key
is sent to a dead backend although another is active. -/
theorem C24_late_response_fails : ∃ s : SvcSt, BalsOk s.bals ∧
    let s' := (s.killBe 2 .kill).updSession 300 ⟨100, 0⟩ (some b!"k") 2
    (∃ b ∈ s'.all, Active b) ∧ (∃ b ∈ s'.all, b.id = 2 ∧ b.alive = false) ∧
    ∀ n rnd, ∃ s'', s'.getBackend 300 ⟨101, 0⟩ n rnd (some b!"k") = .done (some 2) s'' := by
  refine ⟨⟨exBals, .init, []⟩, exBals_ok, ⟨exBe 1 5 false true, by decide, by decide⟩, ⟨exBe 2 3 false false, by decide, rfl, rfl⟩, fun n rnd => ?_⟩
  have h0 : (((⟨exBals, .init, []⟩ : SvcSt).killBe 2 .kill).updSession 300 ⟨100, 0⟩ (some b!"k") 2).tab =
      ⟨[(b!"k", 0)], [⟨0, b!"k", 2, ⟨400, 0⟩⟩], 1⟩ := by decide
  unfold SvcSt.getBackend
  rw [if_pos (by decide)]
  dsimp only
  unfold SvcSt.byKey
  rw [h0]
  exact ⟨_, rfl⟩

/-! ## C43 Fail-over -/

/-- References held for a client's connection: one on its backend, if it has one. -/
def RefsOk (l : Link) : Prop := ∀ j, l.refs j = if l.backend = some j then 1 else 0

/-- Connecting for a request, whatever happens at each attempt: it ends, within as many attempts as backends are alive, with
* the backends `R` having refused connection, in this order; each of them was alive before and tried once, and they are the ones marked
  dead at the end;
* after them possibly one that did not refuse. If the connection was set up it is used. If not (no address, or the set-up failed), 503;
* otherwise, 503 if no active backend is left; or the connection of the previous request, or a backend that needs none, is used.

References are released, each once, unless the set-up of the connection failed (the reference remains).
Missing: fail-over when the set-up fails, see `C43_setup_fails`; the round robin in a group that is not the last (`C20_emergency_fails`). -/
theorem C43_failover_partial {ttl : Nat} {bals : List Bal} {t0 : TS} (hb : BalsOk bals) (ho : SafeOrder bals) {s t now} (hr : SvcReach ttl bals t0 s t)
    (hn : NotAfter t now) (rnd : Nat → Nat → List Nat) (hd : ∀ k, Draws bals (rnd k)) (key : Option Bytes) (conn : Nat → Nat → Conn)
    (l : Link) (hl : RefsOk l) :
    ∃ fuel0 status s' l' R last, (∀ fuel, fuel0 ≤ fuel → ∀ n, (s.all.filter fun b => b.type = .regular && b.alive).length < n →
        selectBackend ttl now fuel rnd key conn n s l = .done status s' l' (R ++ last.toList)) ∧
      (R ++ last.toList).Nodup ∧ (∀ i ∈ R ++ last.toList, ∃ c ∈ s.all, c.id = i ∧ c.type = .regular ∧ c.alive = true) ∧
      (∀ j i, R[j]? = some i → conn j i = .refused) ∧ (∀ i, last = some i → conn R.length i ≠ .refused) ∧
      s'.all = s.all.map (fun c => if c.id ∈ R then { c with alive := false } else c) ∧
      (∀ i, last = some i → conn R.length i = .ok → status = none ∧ l'.isOpen = true ∧ l'.backend = some i) ∧
      (∀ i, last = some i → conn R.length i ≠ .ok → status = some .serviceUnavailable ∧ l'.isOpen = false) ∧
      (last = none → (status = none ∧ R = [] ∧ l' = l ∧ l.isOpen = true) ∨
        (status = none ∧ ∃ c ∈ s'.all, c.type ≠ .regular ∧ Up c ∧ l'.backend = some c.id) ∨
        (status = some .serviceUnavailable ∧ ∀ c ∈ s'.all, ¬ Active c)) ∧
      (∀ j, l'.refs j = (if l'.backend = some j then 1 else 0) + if last = some j ∧ conn R.length j = .openFails then 1 else 0) := by
  have hok := (svcReach_ok hb hr).later hn
  have hso := (svcReach_frame hb hr).1 ho
  have hd := fun k => (svcReach_frame hb hr).2 _ (hd k)
  obtain ⟨n0, ob, s1, hg, hgn⟩ := getBackend_total hok hso (hd 0).usable key
  have hgd := getBackend_done hok (hg n0 (Nat.le_refl _))
  cases ob with
  | none =>
    obtain ⟨rfl, hna⟩ := hgn rfl
    refine ⟨n0, some .serviceUnavailable, s1, l, [], none, fun fuel hf n _ => ?_, by simp, by simp, by simp, by simp, by simp, by simp, by simp, ?_, ?_⟩
    · unfold selectBackend
      rw [hg fuel hf]; rfl
    · exact fun _ => .inr (.inr ⟨rfl, hna⟩)
    · intro j; rw [hl j]; simp
  | some b =>
    obtain ⟨hs1, hsame, _, hbu⟩ := hgd
    obtain ⟨c, hc, hci, hcu⟩ := hbu b rfl
    subst hci
    have hall : s1.all = s.all := hsame.flat
    by_cases hreuse : l.isOpen = true ∧ l.backend = some c.id
    · refine ⟨n0, none, s1, l, [], none, fun fuel hf n _ => ?_, by simp, by simp, by simp, by simp, by simp [hall], by simp, by simp, ?_, ?_⟩
      · unfold selectBackend
        rw [hg fuel hf]; dsimp only; rw [if_pos hreuse]; rfl
      · exact fun _ => .inl ⟨rfl, rfl, rfl, hreuse.1⟩
      · intro j; rw [hl j]; simp
    · obtain ⟨f1, status, s', l', R, last, hrun, _, out⟩ := connect_spec ttl now rnd key conn (upCount s1) s1
        { l with isOpen := false, refs := addRef l.refs (some c.id) 1 } [] c hs1 (hsame.safe hso) (fun k => (hd k).same hsame)
        (by rw [hall]; exact hc) hcu rfl (Nat.le_refl _)
      have hz : ∀ j, ([] : List Nat).length + j = j := fun j => by simp
      refine ⟨max n0 f1, status, s', l', R, last, fun fuel hf n hn => ?_, out.nodup, ?_, ?_, ?_, ?_, ?_, ?_, ?_, ?_⟩
      · unfold selectBackend
        rw [hg fuel (by omega)]; dsimp only; rw [if_neg hreuse]
        rw [hrun fuel (by omega) n (by rw [upCount_same hsame]; exact hn)]
        simp
      · rw [← hall]; exact out.was
      · intro j i hi; have := out.refused j i hi; rwa [hz] at this
      · intro i hi; have := out.notRefused i hi; rwa [hz] at this
      · rw [out.dead, hall]; rfl
      · intro i hi hq; exact out.ok i hi (by rw [hz]; exact hq)
      · intro i hi hq
        have := out.bad i hi (by rw [hz]; exact hq)
        exact ⟨this.1, this.2.2⟩
      · intro hlast
        rcases out.ended hlast with ⟨h1, c, h2, h3, h4, h5, _⟩ | ⟨h1, _, _, h4⟩
        · exact .inr (.inl ⟨h1, c, h2, h3, h4, h5⟩)
        · exact .inr (.inr ⟨h1, h4⟩)
      · intro j
        have := out.refs (fun j => ?_) j
        · rw [hz] at this; exact this
        · simp only [addRef]
          by_cases hj : j = c.id
          · subst hj; rw [if_pos rfl, hl]; simp
          · rw [if_neg hj, hl]; simp [hj]

/-- Example: the first backend refuses, the second is connected. -/
example : SvcReach 300 exBals ⟨100, 0⟩ ⟨exBals, .init, []⟩ ⟨100, 0⟩ ∧ SafeOrder exBals ∧ (∀ k : Nat, Draws exBals ((fun _ _ => [1000]) k)) ∧
    RefsOk ⟨false, none, fun _ => 0⟩ ∧
    (match selectBackend 300 ⟨100, 0⟩ 10 (fun _ _ => [1000]) none (fun k _ => if k = 0 then .refused else .ok) 10 ⟨exBals, .init, []⟩ ⟨false, none, fun _ => 0⟩ with
      | .done st s l tr => decide (st = none ∧ l.backend = some 2 ∧ l.refs 1 = 0 ∧ l.refs 2 = 1 ∧ tr = [1, 2] ∧ s.all.map (·.alive) = [false, true, true])
      | _ => false) = true :=
  ⟨.init, ⟨(fun _ h => by cases h), (fun h => absurd rfl h), trivial⟩, fun _ => exDraws, fun _ => rfl, by decide⟩

/-- Deviation: if the connection is made but its set-up (TLS) fails, the request fails with 503 although another backend is active; the
backend is not marked dead; and the reference to it is never released. -/
theorem C43_setup_fails : ∃ s s' l', BalsOk s.bals ∧
    (∀ n, 0 < n → selectBackend 300 ⟨100, 0⟩ 10 (fun _ _ => [1000]) none (fun _ _ => .openFails) n s ⟨false, none, fun _ => 0⟩ =
      .done (some .serviceUnavailable) s' l' [1]) ∧
    (∃ b ∈ s'.all, b.id = 2 ∧ Active b) ∧ (∃ b ∈ s'.all, b.id = 1 ∧ Active b) ∧ l'.backend = none ∧ l'.refs 1 = 1 := by
  refine ⟨⟨exBals, .init, []⟩, ⟨exBals, .init, []⟩, ⟨false, none, fun j => if j = 1 then 1 else 0⟩, exBals_ok, fun n hn => ?_,
    ⟨exBe 2 3 false true, by decide, rfl, by decide⟩, ⟨exBe 1 5 false true, by decide, rfl, by decide⟩, rfl, rfl⟩
  obtain ⟨n, rfl⟩ : ∃ k, n = k + 1 := ⟨n - 1, by omega⟩
  rfl

end Pound.Props
