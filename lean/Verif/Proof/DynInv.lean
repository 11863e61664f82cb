import Verif.Proof.DynBe

/-!
The invariant of dynamic backends is preserved.
-/

namespace Pound

open Spec

theorem setBe_self (be : Nat → DynBe) (i : Nat) (r : DynBe) : setBe be i r i = r := by simp [setBe]

theorem setBe_ne (be : Nat → DynBe) {i j : Nat} (r : DynBe) (h : j ≠ i) : setBe be i r j = be j := by simp [setBe, h]

theorem setMtx_self (mtx : Nat → DynMtx) (i : Nat) (r : DynMtx) : setMtx mtx i r i = r := by simp [setMtx]

theorem setMtx_ne (mtx : Nat → DynMtx) {i j : Nat} (r : DynMtx) (h : j ≠ i) : setMtx mtx i r j = mtx j := by simp [setMtx, h]

theorem dinv_bals {s : DynSt} (h : DInv s) {bals : List DynBal} (hb : DynBalsOk bals) (hi : ∀ w i, InBal bals w i ↔ InBal s.bals w i) : DInv { s with bals := bals } where
  bals := hb
  mem := fun w i x => h.mem w i ((hi w i).mp x)
  tabN := h.tabN
  tabA := h.tabA
  tab := fun m i x => by
    obtain ⟨h1, h2, h3, h4⟩ := h.tab m i x
    exact ⟨h1, h2, h3, (hi _ _).mpr h4⟩
  refs := h.refs
  rem := h.rem
  freed := h.freed
  held := h.held
  jobs := h.jobs
  sessN := h.sessN
  sess := fun hl e he => by
    obtain ⟨w, hw⟩ := h.sess hl e he
    exact ⟨w, (hi _ _).mpr hw⟩
  gone := h.gone
  static := h.static

/-- The invariant does not depend on marks, states of life and (but for removed backends) disabled states. -/
theorem dinv_be {s : DynSt} (h : DInv s) {be : Nat → DynBe}
    (hs : ∀ i, (be i).addr = (s.be i).addr ∧ (be i).parent = (s.be i).parent ∧ (be i).bal = (s.be i).bal ∧ (be i).refs = (s.be i).refs ∧ (be i).freed = (s.be i).freed)
    (hd : ∀ i, (s.be i).bal = none → (be i).disabled = (s.be i).disabled) : DInv { s with be := be } := by
  have ea : (fun i => (be i).addr) = fun i => (s.be i).addr := funext fun i => (hs i).1
  have eb : ∀ i, baseRef { s with be := be } i = baseRef s i := by
    intro i
    unfold baseRef
    simp only [(hs i).2.1]
  constructor
  · exact h.bals
  · intro w i x
    obtain ⟨h1, h2, h3⟩ := h.mem w i x
    refine ⟨h1, by rw [← h2]; exact (hs i).2.2.1, ?_⟩
    intro m hm
    exact h3 m (by rw [← (hs i).2.1]; exact hm)
  · exact h.tabN
  · intro m
    show ((s.mtx m).tab.map fun i => (be i).addr).Nodup
    rw [ea]; exact h.tabA m
  · intro m i x
    obtain ⟨h1, h2, h3, h4⟩ := h.tab m i x
    exact ⟨h1, by rw [← h2]; exact (hs i).2.1, by rw [← h3]; exact (hs i).2.2.1, h4⟩
  · intro i hi
    rw [eb]
    show (be i).refs = _
    rw [(hs i).2.2.2.1]
    exact h.refs i hi
  · intro i hi
    obtain ⟨h1, h2, m, h3, h4⟩ := h.rem i hi
    exact ⟨h1, by rw [← h2]; exact (hs i).2.2.2.2, m, by rw [← h3]; exact (hs i).2.1, h4⟩
  · intro i hi
    have hi' : (s.be i).freed = true := by rw [← (hs i).2.2.2.2]; exact hi
    obtain ⟨h1, h2, m, h3, h4⟩ := h.freed i hi'
    exact ⟨h1, by rw [← h2]; exact (hs i).2.2.2.1, m, by rw [← h3]; exact (hs i).2.1, h4⟩
  · exact h.held
  · exact h.jobs
  · exact h.sessN
  · exact h.sess
  · intro i hi m hm hn
    have hm' : (s.be i).parent = some m := by rw [← (hs i).2.1]; exact hm
    obtain ⟨h1, h2, h3⟩ := h.gone i hi m hm' hn
    refine ⟨by rw [← h1]; exact (hs i).2.2.1, by rw [← h2]; exact hd i h1, ?_⟩
    rcases h3 with h3 | h3
    · exact Or.inl h3
    · exact Or.inr (by rw [← h3]; exact (hs i).2.2.2.2)
  · intro i hi hp
    have hp' : (s.be i).parent = none := by rw [← (hs i).2.1]; exact hp
    have := h.static i hi hp'
    show (be i).bal ≠ none
    rw [(hs i).2.2.1]; exact this

theorem notInBal_next {s : DynSt} (h : DInv s) (w : Nat) : ¬ InBal s.bals w s.next := by
  intro x
  exact absurd (h.mem w _ x).1 (Nat.lt_irrefl _)

/-- A new backend -/
theorem dinv_new {s : DynSt} (h : DInv s) {m : Nat} {a : Bytes} (ha : ∀ i ∈ (s.mtx m).tab, (s.be i).addr ≠ a) (hb : HasBal s.bals (s.mtx m).weight) {d : Bool} :
    DInv { s with
      be := setBe s.be s.next { addr := a, parent := some m, disabled := d, mark := false, alive := true, refs := 1, bal := some (s.mtx m).weight, freed := false }
      next := s.next + 1
      bals := balAdd (s.mtx m).weight s.next s.bals
      mtx := setMtx s.mtx m { s.mtx m with tab := (s.mtx m).tab ++ [s.next] } } := by
  have nt : ∀ k, s.next ∉ (s.mtx k).tab := fun k x => Nat.lt_irrefl _ (h.tab k _ x).1
  have tabm : ∀ k i, i ∈ (setMtx s.mtx m { s.mtx m with tab := (s.mtx m).tab ++ [s.next] } k).tab ↔ i ∈ (s.mtx k).tab ∨ k = m ∧ i = s.next := by
    intro k i
    by_cases hk : k = m
    · subst hk; rw [setMtx_self]; simp
    · rw [setMtx_ne _ _ hk]; simp [hk]
  have wm : ∀ k, (setMtx s.mtx m { s.mtx m with tab := (s.mtx m).tab ++ [s.next] } k).weight = (s.mtx k).weight := by
    intro k
    by_cases hk : k = m
    · subst hk; rw [setMtx_self]
    · rw [setMtx_ne _ _ hk]
  constructor
  · exact balAdd_ok h.bals (notInBal_next h)
  · intro w i x
    rcases (balAdd_inBal _ _ _ _ _).mp x with x | ⟨rfl, rfl, -⟩
    · obtain ⟨h1, h2, h3⟩ := h.mem w i x
      have hne : i ≠ s.next := by omega
      refine ⟨by show i < s.next + 1; omega, by show (setBe _ _ _ i).bal = _; rw [setBe_ne _ _ hne]; exact h2, ?_⟩
      intro k hk
      have hk' : (setBe s.be s.next _ i).parent = some k := hk
      rw [setBe_ne _ _ hne] at hk'
      exact (tabm k i).mpr (Or.inl (h3 k hk'))
    · refine ⟨by show s.next < s.next + 1; omega, by show (setBe _ _ _ s.next).bal = _; rw [setBe_self], ?_⟩
      intro k hk
      have hk' : (setBe s.be s.next _ s.next).parent = some k := hk
      rw [setBe_self] at hk'
      cases hk'
      exact (tabm _ _).mpr (Or.inr ⟨rfl, rfl⟩)
  · intro k
    show (setMtx _ _ _ k).tab.Nodup
    by_cases hk : k = m
    · subst hk
      rw [setMtx_self]
      refine List.nodup_append.mpr ⟨h.tabN k, by simp, ?_⟩
      rintro x hx y hy rfl
      simp only [List.mem_singleton] at hy
      subst hy
      exact nt k hx
    · rw [setMtx_ne _ _ hk]; exact h.tabN k
  · intro k
    show ((setMtx _ _ _ k).tab.map fun i => (setBe _ _ _ i).addr).Nodup
    have e : ∀ k, (s.mtx k).tab.map (fun i => (setBe s.be s.next { addr := a, parent := some m, disabled := d, mark := false, alive := true, refs := 1, bal := some (s.mtx m).weight, freed := false } i).addr) = (s.mtx k).tab.map fun i => (s.be i).addr := by
      intro k
      refine List.map_congr_left fun i hi => ?_
      have hne : i ≠ s.next := fun e => nt k (e ▸ hi)
      rw [setBe_ne _ _ hne]
    by_cases hk : k = m
    · subst hk
      rw [setMtx_self]
      dsimp only
      rw [List.map_append, e]
      refine List.nodup_append.mpr ⟨h.tabA k, by simp, ?_⟩
      rintro x hx y hy rfl
      simp only [List.map_cons, List.map_nil, List.mem_singleton, setBe_self] at hy
      subst hy
      obtain ⟨i, hi, e⟩ := List.mem_map.mp hx
      exact ha i hi e
    · rw [setMtx_ne _ _ hk, e]; exact h.tabA k
  · intro k i x
    have x' := (tabm k i).mp x
    show i < s.next + 1 ∧ (setBe _ _ _ i).parent = some k ∧ (setBe _ _ _ i).bal = some (setMtx _ _ _ k).weight ∧ InBal (balAdd _ _ _) (setMtx _ _ _ k).weight i
    rw [wm]
    rcases x' with x' | ⟨rfl, rfl⟩
    · obtain ⟨h1, h2, h3, h4⟩ := h.tab k i x'
      have hne : i ≠ s.next := by omega
      rw [setBe_ne _ _ hne]
      exact ⟨by omega, h2, h3, (balAdd_inBal _ _ _ _ _).mpr (Or.inl h4)⟩
    · rw [setBe_self]
      exact ⟨by omega, rfl, rfl, (balAdd_inBal _ _ _ _ _).mpr (Or.inr ⟨rfl, rfl, hb⟩)⟩
  · intro i hi
    have hi' : i < s.next + 1 := hi
    show (setBe _ _ _ i).refs = _
    by_cases hne : i = s.next
    · subst hne
      have hc1 : s.held.count s.next = 0 := List.count_eq_zero.mpr fun x => Nat.lt_irrefl _ (h.held _ x)
      have hc2 : s.jobs.count s.next = 0 := List.count_eq_zero.mpr fun x => Nat.lt_irrefl _ (h.jobs _ x)
      rw [setBe_self]
      unfold baseRef
      dsimp only
      rw [setBe_self]
      dsimp only
      rw [if_pos ((tabm m _).mpr (Or.inr ⟨rfl, rfl⟩)), hc1, hc2]
    · rw [setBe_ne _ _ hne, h.refs i (by omega)]
      unfold baseRef
      dsimp only
      rw [setBe_ne _ _ hne]
      cases hp : (s.be i).parent with
      | none => rfl
      | some k =>
        dsimp only
        by_cases ht : i ∈ (s.mtx k).tab
        · rw [if_pos ht, if_pos ((tabm k i).mpr (Or.inl ht))]
        · rw [if_neg ht, if_neg]
          intro x
          rcases (tabm k i).mp x with x | ⟨-, x⟩
          · exact ht x
          · exact hne x
  · intro i hi
    obtain ⟨h1, h2, k, h3, h4⟩ := h.rem i hi
    have hne : i ≠ s.next := by omega
    show i < s.next + 1 ∧ (setBe _ _ _ i).freed = false ∧ ∃ m, (setBe _ _ _ i).parent = some m ∧ _
    rw [setBe_ne _ _ hne]
    refine ⟨by omega, h2, k, h3, ?_⟩
    intro x
    rcases (tabm k i).mp x with x | ⟨-, x⟩
    · exact h4 x
    · exact hne x
  · intro i hi
    have hi' : (setBe s.be s.next _ i).freed = true := hi
    by_cases hne : i = s.next
    · subst hne; rw [setBe_self] at hi'; cases hi'
    · rw [setBe_ne _ _ hne] at hi'
      obtain ⟨h1, h2, k, h3, h4⟩ := h.freed i hi'
      show i < s.next + 1 ∧ (setBe _ _ _ i).refs = 0 ∧ ∃ m, (setBe _ _ _ i).parent = some m ∧ _
      rw [setBe_ne _ _ hne]
      refine ⟨by omega, h2, k, h3, ?_⟩
      intro x
      rcases (tabm k i).mp x with x | ⟨-, x⟩
      · exact h4 x
      · exact hne x
  · intro i hi; exact Nat.lt_succ_of_lt (h.held i hi)
  · intro i hi; exact Nat.lt_succ_of_lt (h.jobs i hi)
  · intro e he; exact Nat.lt_succ_of_lt (h.sessN e he)
  · intro hl e he
    obtain ⟨w, hw⟩ := h.sess hl e he
    exact ⟨w, (balAdd_inBal _ _ _ _ _).mpr (Or.inl hw)⟩
  · intro i hi k hk hn
    have hk' : (setBe s.be s.next _ i).parent = some k := hk
    have hi' : i < s.next + 1 := hi
    by_cases hne : i = s.next
    · subst hne
      rw [setBe_self] at hk'
      cases hk'
      exact absurd ((tabm m s.next).mpr (Or.inr ⟨rfl, rfl⟩)) hn
    · rw [setBe_ne _ _ hne] at hk'
      show (setBe _ _ _ i).bal = none ∧ (setBe _ _ _ i).disabled = true ∧ (i ∈ s.rem ∨ (setBe _ _ _ i).freed = true)
      rw [setBe_ne _ _ hne]
      exact h.gone i (by omega) k hk' fun x => hn ((tabm k i).mpr (Or.inl x))
  · intro i hi hp
    have hp' : (setBe s.be s.next _ i).parent = none := hp
    have hi' : i < s.next + 1 := hi
    show (setBe _ _ _ i).bal ≠ none
    by_cases hne : i = s.next
    · subst hne
      rw [setBe_self] at hp'
      cases hp'
    · rw [setBe_ne _ _ hne] at hp' ⊢
      exact h.static i (by omega) hp'

/-- The state after one backend has been swept -/
def swept (m i w : Nat) (s : DynSt) : DynSt :=
  { s with
    be := setBe s.be i { s.be i with disabled := true, bal := none, refs := (s.be i).refs - 1, mark := false }
    bals := balSweep w i s.bals
    mtx := setMtx s.mtx m { s.mtx m with tab := (s.mtx m).tab.erase i }
    rem := s.rem ++ [i]
    sess := sessDrop i s.sess }

theorem swept_tab {s : DynSt} (h : DInv s) (m i w k j : Nat) : j ∈ ((swept m i w s).mtx k).tab ↔ j ∈ (s.mtx k).tab ∧ ¬ (k = m ∧ j = i) := by
  show j ∈ (setMtx _ _ _ k).tab ↔ _
  by_cases hk : k = m
  · subst hk; rw [setMtx_self]
    dsimp only
    rw [(h.tabN k).mem_erase_iff]
    constructor
    · rintro ⟨h1, h2⟩; exact ⟨h2, fun x => h1 x.2⟩
    · rintro ⟨h1, h2⟩; exact ⟨fun x => h2 ⟨rfl, x⟩, h1⟩
  · rw [setMtx_ne _ _ hk]; simp [hk]

theorem swept_weight (m i w : Nat) (s : DynSt) (k : Nat) : ((swept m i w s).mtx k).weight = (s.mtx k).weight := by
  show (setMtx _ _ _ k).weight = _
  by_cases hk : k = m
  · subst hk; rw [setMtx_self]
  · rw [setMtx_ne _ _ hk]

theorem dinv_swept {s : DynSt} (h : DInv s) {m i : Nat} (hi : i ∈ (s.mtx m).tab) : DInv (swept m i (s.mtx m).weight s) := by
  obtain ⟨i1, i2, i3, i4⟩ := h.tab m i hi
  have hj : ∀ w, InBal s.bals w i → w = (s.mtx m).weight := by
    intro w x
    have := (h.mem w i x).2.1
    rw [i3] at this
    exact (Option.some.inj this).symm
  have inb := balSweep_inBal h.bals hj
  have st := swept_tab h m i (s.mtx m).weight
  have other : ∀ k, i ∈ (s.mtx k).tab → k = m := by
    intro k hk
    have := (h.tab k i hk).2.1
    rw [i2] at this
    exact (Option.some.inj this).symm
  have ieq : ∀ j, j ≠ i → (swept m i (s.mtx m).weight s).be j = s.be j := fun j hj => setBe_ne _ _ hj
  have iself : (swept m i (s.mtx m).weight s).be i = { s.be i with disabled := true, bal := none, refs := (s.be i).refs - 1, mark := false } := setBe_self _ _ _
  constructor
  · exact balSweep_ok h.bals hj
  · intro w j x
    obtain ⟨x, hne⟩ := (inb w j).mp x
    obtain ⟨h1, h2, h3⟩ := h.mem w j x
    rw [ieq j hne]
    refine ⟨h1, h2, ?_⟩
    intro k hk
    exact (st k j).mpr ⟨h3 k hk, fun e => hne e.2⟩
  · intro k
    show (setMtx _ _ _ k).tab.Nodup
    by_cases hk : k = m
    · subst hk; rw [setMtx_self]; exact (h.tabN k).erase i
    · rw [setMtx_ne _ _ hk]; exact h.tabN k
  · intro k
    have e : (fun j => ((swept m i (s.mtx m).weight s).be j).addr) = fun j => (s.be j).addr := by
      funext j
      by_cases hne : j = i
      · subst hne; rw [iself]
      · rw [ieq j hne]
    rw [e]
    show ((setMtx _ _ _ k).tab.map _).Nodup
    by_cases hk : k = m
    · subst hk; rw [setMtx_self]
      exact (h.tabA k).sublist ((List.erase_sublist).map _)
    · rw [setMtx_ne _ _ hk]; exact h.tabA k
  · intro k j x
    obtain ⟨xt, hx⟩ := (st k j).mp x
    have hne : j ≠ i := by
      intro e
      exact hx ⟨other k (e ▸ xt), e⟩
    obtain ⟨h1, h2, h3, h4⟩ := h.tab k j xt
    rw [ieq j hne, swept_weight]
    exact ⟨h1, h2, h3, (inb _ _).mpr ⟨h4, hne⟩⟩
  · intro j hjn
    have hb : baseRef s j = baseRef (swept m i (s.mtx m).weight s) j + if j = i then 1 else 0 := by
      unfold baseRef
      by_cases hne : j = i
      · subst hne
        rw [iself, if_pos rfl]
        dsimp only
        rw [i2]
        dsimp only
        rw [if_pos hi, if_neg]
        exact fun x => ((st m j).mp x).2 ⟨rfl, rfl⟩
      · rw [ieq j hne, if_neg hne]
        cases (s.be j).parent with
        | none => rfl
        | some k =>
          dsimp only
          by_cases ht : j ∈ (s.mtx k).tab
          · rw [if_pos ht, if_pos ((st k j).mpr ⟨ht, fun e => hne e.2⟩)]
          · rw [if_neg ht, if_neg]
            exact fun x => ht ((st k j).mp x).1
    have hr := h.refs j hjn
    show _ = _ + s.held.count j + s.jobs.count j
    by_cases hne : j = i
    · subst hne
      rw [iself]
      rw [if_pos rfl] at hb
      show (s.be j).refs - 1 = _
      omega
    · rw [ieq j hne]
      rw [if_neg hne] at hb
      omega
  · intro j hj
    rcases List.mem_append.mp hj with hj | hj
    · obtain ⟨h1, h2, k, h3, h4⟩ := h.rem j hj
      have hne : j ≠ i := by
        rintro rfl
        rw [i2] at h3
        cases h3
        exact h4 hi
      rw [ieq j hne]
      exact ⟨h1, h2, k, h3, fun x => h4 ((st k j).mp x).1⟩
    · simp only [List.mem_singleton] at hj
      subst hj
      rw [iself]
      refine ⟨i1, ?_, m, i2, fun x => ((st m j).mp x).2 ⟨rfl, rfl⟩⟩
      show (s.be j).freed = false
      cases hf : (s.be j).freed with
      | false => rfl
      | true =>
        obtain ⟨-, -, k, h3, h4⟩ := h.freed j hf
        rw [i2] at h3
        cases h3
        exact absurd hi h4
  · intro j hf
    have hne : j ≠ i := by
      rintro rfl
      rw [iself] at hf
      obtain ⟨-, -, k, h3, h4⟩ := h.freed j hf
      rw [i2] at h3
      cases h3
      exact h4 hi
    rw [ieq j hne] at hf ⊢
    obtain ⟨h1, h2, k, h3, h4⟩ := h.freed j hf
    exact ⟨h1, h2, k, h3, fun x => h4 ((st k j).mp x).1⟩
  · exact h.held
  · exact h.jobs
  · intro e he; exact h.sessN e (List.mem_filter.mp he).1
  · intro hl e he
    obtain ⟨he, hne⟩ := List.mem_filter.mp he
    obtain ⟨w, hw⟩ := h.sess hl e he
    exact ⟨w, (inb _ _).mpr ⟨hw, by simpa using hne⟩⟩
  · intro j hjn k hk hn
    by_cases hne : j = i
    · subst hne
      rw [iself]
      exact ⟨rfl, rfl, Or.inl (List.mem_append_right _ (List.mem_singleton.mpr rfl))⟩
    · rw [ieq j hne] at hk ⊢
      obtain ⟨h1, h2, h3⟩ := h.gone j hjn k hk fun x => hn ((st k j).mpr ⟨x, fun e => hne e.2⟩)
      refine ⟨h1, h2, ?_⟩
      rcases h3 with h3 | h3
      · exact Or.inl (List.mem_append_left _ h3)
      · exact Or.inr h3
  · intro j hjn hp
    have hne : j ≠ i := by
      rintro rfl
      rw [iself] at hp
      have hp' : (s.be j).parent = none := hp
      rw [i2] at hp'
      cases hp'
    rw [ieq j hne] at hp ⊢
    exact h.static j hjn hp

/-- The mark of a backend -/
def DynSt.marked (s : DynSt) (i : Nat) : Bool := (s.be i).mark

/-- What sweeping a list of backends of a table does -/
structure SweptAll (m : Nat) (l : List Nat) (s s' : DynSt) : Prop where
  inv : DInv s'
  tab : ∀ j, j ∈ (s'.mtx m).tab ↔ j ∈ (s.mtx m).tab ∧ ¬ (j ∈ l ∧ (s.be j).mark = true)
  mtx : ∀ k, (s'.mtx k).weight = (s.mtx k).weight ∧ (s'.mtx k).first = (s.mtx k).first ∧ (s'.mtx k).disabled = (s.mtx k).disabled ∧ (k ≠ m → s'.mtx k = s.mtx k)
  be : ∀ j, s'.be j = if j ∈ l ∧ (s.be j).mark = true then { s.be j with disabled := true, bal := none, refs := (s.be j).refs - 1, mark := false } else s.be j
  inBal : ∀ w j, InBal s'.bals w j ↔ InBal s.bals w j ∧ ¬ (j ∈ l ∧ (s.be j).mark = true)
  has : ∀ w, HasBal s'.bals w → HasBal s.bals w
  stays : ∀ w, w ≠ (s.mtx m).weight → HasBal s.bals w → HasBal s'.bals w
  same : (∀ j ∈ l, (s.be j).mark = false) → s'.bals = s.bals
  next : s'.next = s.next
  held : s'.held = s.held
  jobs : s'.jobs = s.jobs
  late : s'.late = s.late
  rem : s'.rem = s.rem ++ l.filter s.marked
  sess : ∀ e, e ∈ s'.sess ↔ e ∈ s.sess ∧ ¬ (e.2 ∈ l ∧ (s.be e.2).mark = true)

theorem sweepAll_spec (m : Nat) : ∀ (l : List Nat) (s : DynSt), DInv s → l.Nodup → (∀ i ∈ l, i ∈ (s.mtx m).tab) → ∃ s', sweepAll m l s = .ok s' ∧ SweptAll m l s s' := by
  intro l
  induction l with
  | nil =>
    intro s h _ _
    exact ⟨s, rfl, h, by simp, by simp, by simp, by simp, by simp, by simp, by simp, rfl, rfl, rfl, rfl, by simp, by simp⟩
  | cons i r ih =>
    intro s h hn hl
    have hn' := List.nodup_cons.mp hn
    have hi := hl i List.mem_cons_self
    obtain ⟨i1, i2, i3, i4⟩ := h.tab m i hi
    unfold sweepAll sweepOne
    dsimp only
    cases hm : (s.be i).mark with
    | false =>
      rw [if_pos rfl]
      obtain ⟨s', e, hs⟩ := ih s h hn'.2 (fun j hj => hl j (List.mem_cons_of_mem _ hj))
      refine ⟨s', e, ?_⟩
      have eq : ∀ j, (j ∈ i :: r ∧ (s.be j).mark = true) ↔ (j ∈ r ∧ (s.be j).mark = true) := by
        intro j
        constructor
        · rintro ⟨h1, h2⟩
          rcases List.mem_cons.mp h1 with rfl | h1
          · rw [hm] at h2; cases h2
          · exact ⟨h1, h2⟩
        · rintro ⟨h1, h2⟩; exact ⟨List.mem_cons_of_mem _ h1, h2⟩
      refine ⟨hs.inv, ?_, hs.mtx, ?_, ?_, hs.has, hs.stays, ?_, hs.next, hs.held, hs.jobs, hs.late, ?_, ?_⟩
      · intro j; rw [eq]; exact hs.tab j
      · intro j
        rw [hs.be j]
        by_cases hx : j ∈ r ∧ (s.be j).mark = true
        · rw [if_pos hx, if_pos ((eq j).mpr hx)]
        · rw [if_neg hx, if_neg fun y => hx ((eq j).mp y)]
      · intro w j; rw [eq]; exact hs.inBal w j
      · intro hx; exact hs.same fun j hj => hx j (List.mem_cons_of_mem _ hj)
      · rw [List.filter_cons_of_neg (by unfold DynSt.marked; rw [hm]; simp)]; exact hs.rem
      · intro e; rw [eq]; exact hs.sess e
    | true =>
      have hr : (s.be i).refs ≠ 0 := by
        have := h.refs i i1
        have hb : baseRef s i = 1 := by unfold baseRef; rw [i2]; dsimp only; rw [if_pos hi]
        omega
      rw [if_neg (by simp), if_neg hr, i3]
      dsimp only
      have hsw := dinv_swept h hi
      have st := swept_tab h m i (s.mtx m).weight
      have hj : ∀ w, InBal s.bals w i → w = (s.mtx m).weight := by
        intro w x
        have := (h.mem w i x).2.1
        rw [i3] at this
        exact (Option.some.inj this).symm
      have inb := balSweep_inBal h.bals hj
      have ieq : ∀ j, j ≠ i → (swept m i (s.mtx m).weight s).be j = s.be j := fun j hj => setBe_ne _ _ hj
      have iself : (swept m i (s.mtx m).weight s).be i = { s.be i with disabled := true, bal := none, refs := (s.be i).refs - 1, mark := false } := setBe_self _ _ _
      obtain ⟨s', e, hs⟩ := ih (swept m i (s.mtx m).weight s) hsw hn'.2 (fun j hj => (st m j).mpr ⟨hl j (List.mem_cons_of_mem _ hj), fun e => hn'.1 (e.2 ▸ hj)⟩)
      have eq : ∀ j, (j ∈ i :: r ∧ (s.be j).mark = true) ↔ (j = i ∨ j ∈ r ∧ ((swept m i (s.mtx m).weight s).be j).mark = true) := by
        intro j
        by_cases hji : j = i
        · subst hji; simp [hm]
        · rw [ieq j hji]; simp [hji]
      refine ⟨s', ?_, ?_⟩
      · rw [← e]; rfl
      refine ⟨hs.inv, ?_, ?_, ?_, ?_, ?_, ?_, ?_, hs.next, hs.held, hs.jobs, hs.late, ?_, ?_⟩
      · intro j
        rw [eq, hs.tab j, st m j]
        constructor
        · rintro ⟨⟨h1, h2⟩, h3⟩
          refine ⟨h1, ?_⟩
          rintro (x | x)
          · exact h2 ⟨rfl, x⟩
          · exact h3 x
        · rintro ⟨h1, h2⟩
          exact ⟨⟨h1, fun x => h2 (Or.inl x.2)⟩, fun x => h2 (Or.inr x)⟩
      · intro k
        obtain ⟨h1, h2, h3, h4⟩ := hs.mtx k
        by_cases hk : k = m
        · subst hk
          have em : (swept k i (s.mtx k).weight s).mtx k = { s.mtx k with tab := (s.mtx k).tab.erase i } := setMtx_self _ _ _
          rw [em] at h1 h2 h3
          exact ⟨h1, h2, h3, fun x => absurd rfl x⟩
        · have em : (swept m i (s.mtx m).weight s).mtx k = s.mtx k := setMtx_ne _ _ hk
          rw [em] at h1 h2 h3 h4
          exact ⟨h1, h2, h3, h4⟩
      · intro j
        rw [hs.be j]
        by_cases hji : j = i
        · subst hji
          rw [if_neg (fun x => hn'.1 x.1), if_pos ⟨List.mem_cons_self, hm⟩, iself]
        · rw [ieq j hji]
          by_cases hx : j ∈ r ∧ (s.be j).mark = true
          · rw [if_pos hx, if_pos ⟨List.mem_cons_of_mem _ hx.1, hx.2⟩]
          · rw [if_neg hx, if_neg]
            rintro ⟨h1, h2⟩
            rcases List.mem_cons.mp h1 with h1 | h1
            · exact hji h1
            · exact hx ⟨h1, h2⟩
      · intro w j
        rw [eq, hs.inBal w j]
        rw [show InBal (swept m i (s.mtx m).weight s).bals w j ↔ InBal s.bals w j ∧ j ≠ i from inb w j]
        constructor
        · rintro ⟨⟨h1, h2⟩, h3⟩
          refine ⟨h1, ?_⟩
          rintro (x | x)
          · exact h2 x
          · exact h3 x
        · rintro ⟨h1, h2⟩
          exact ⟨⟨h1, fun x => h2 (Or.inl x)⟩, fun x => h2 (Or.inr x)⟩
      · intro w x; exact balSweep_has (hs.has w x)
      · intro w hw x
        refine hs.stays w ?_ (balSweep_stays x hw)
        rw [swept_weight]; exact hw
      · intro hx
        have := hx i List.mem_cons_self
        rw [hm] at this; cases this
      · rw [hs.rem, List.filter_cons_of_pos (by unfold DynSt.marked; exact hm)]
        show (s.rem ++ [i]) ++ _ = _
        rw [List.append_assoc]
        congr 1
        show i :: _ = i :: _
        congr 1
        refine List.filter_congr fun j hj => ?_
        have hji : j ≠ i := fun x => hn'.1 (x ▸ hj)
        unfold DynSt.marked
        rw [ieq j hji]
      · intro e
        rw [eq, hs.sess e]
        rw [show e ∈ (swept m i (s.mtx m).weight s).sess ↔ e ∈ s.sess ∧ e.2 ≠ i by
          show e ∈ sessDrop i s.sess ↔ _
          unfold sessDrop; rw [List.mem_filter]; simp]
        constructor
        · rintro ⟨⟨h1, h2⟩, h3⟩
          refine ⟨h1, ?_⟩
          rintro (x | x)
          · exact h2 x
          · exact h3 x
        · rintro ⟨h1, h2⟩
          exact ⟨⟨h1, fun x => h2 (Or.inl x)⟩, fun x => h2 (Or.inr x)⟩

end Pound
