import Verif.Proof.DynInv

/-!
What an update does.
-/

namespace Pound

open Spec

/-- What providing for the addresses of an answer does -/
structure Added (m : Nat) (ans : List Bytes) (s s' : DynSt) : Prop where
  inv : DInv s'
  has : ∀ w, HasBal s'.bals w ↔ HasBal s.bals w
  inBal : ∀ w j, InBal s'.bals w j ↔ InBal s.bals w j ∨ w = (s.mtx m).weight ∧ s.next ≤ j ∧ j < s'.next
  next : s.next ≤ s'.next
  tab : ∀ j, j ∈ (s'.mtx m).tab ↔ j ∈ (s.mtx m).tab ∨ s.next ≤ j ∧ j < s'.next
  mtx : ∀ k, (s'.mtx k).weight = (s.mtx k).weight ∧ (s'.mtx k).first = (s.mtx k).first ∧ (s'.mtx k).disabled = (s.mtx k).disabled ∧ (k ≠ m → s'.mtx k = s.mtx k)
  old : ∀ j, j < s.next → s'.be j = { s.be j with mark := if j ∈ (s.mtx m).tab ∧ (s.be j).addr ∈ ans then false else (s.be j).mark }
  new : ∀ j, s.next ≤ j → j < s'.next → (s'.be j).addr ∈ ans ∧ (s'.be j).mark = false ∧ (s'.be j).parent = some m ∧ (s'.be j).disabled = (s.mtx m).disabled ∧ (s'.be j).alive = true
  found : ∀ a ∈ ans, ∃ j ∈ (s'.mtx m).tab, (s'.be j).addr = a ∧ (s'.be j).mark = false
  beyond : ∀ j, s'.next ≤ j → s'.be j = s.be j
  rem : s'.rem = s.rem
  sess : s'.sess = s.sess
  held : s'.held = s.held
  jobs : s'.jobs = s.jobs
  late : s'.late = s.late

theorem added_one {s : DynSt} (h : DInv s) {m : Nat} (hb : HasBal s.bals (s.mtx m).weight) (a : Bytes) : Added m [a] s (addAddr m s a) := by
  unfold addAddr
  dsimp only
  cases hf : tabFind s.be (s.mtx m).tab a with
  | some i =>
    dsimp only
    have hi : i ∈ (s.mtx m).tab := List.mem_of_find?_eq_some hf
    have ha : (s.be i).addr = a := by simpa using List.find?_some hf
    have hin := (h.tab m i hi).1
    refine ⟨?_, fun _ => Iff.rfl, ?_, Nat.le_refl _, ?_, fun k => ⟨rfl, rfl, rfl, fun _ => rfl⟩, ?_, ?_, ?_, ?_, rfl, rfl, rfl, rfl, rfl⟩
    · refine dinv_be h ?_ ?_
      · intro j
        by_cases hj : j = i
        · subst hj; rw [setBe_self]; exact ⟨rfl, rfl, rfl, rfl, rfl⟩
        · rw [setBe_ne _ _ hj]; exact ⟨rfl, rfl, rfl, rfl, rfl⟩
      · intro j _
        by_cases hj : j = i
        · subst hj; rw [setBe_self]
        · rw [setBe_ne _ _ hj]
    · intro w j
      constructor
      · exact Or.inl
      · rintro (x | ⟨-, h1, h2⟩)
        · exact x
        · have h2' : j < s.next := h2
          omega
    · intro j
      constructor
      · exact Or.inl
      · rintro (x | ⟨h1, h2⟩)
        · exact x
        · have h2' : j < s.next := h2
          omega
    · intro j hj
      show setBe _ _ _ j = _
      by_cases hji : j = i
      · subst hji
        rw [setBe_self, if_pos ⟨hi, by simp [ha]⟩]
      · rw [setBe_ne _ _ hji]
        rw [if_neg]
        rintro ⟨h1, h2⟩
        simp only [List.mem_singleton] at h2
        have hN := h.tabA m
        exact hji (inj_of_nodup hN h1 hi (by rw [h2, ha]))
    · intro j h1 h2
      have h2' : j < s.next := h2
      omega
    · intro a' ha'
      simp only [List.mem_singleton] at ha'
      subst ha'
      refine ⟨i, hi, ?_, ?_⟩
      · show (setBe _ _ _ i).addr = _; rw [setBe_self]; exact ha
      · show (setBe _ _ _ i).mark = _; rw [setBe_self]
    · intro j hj
      show setBe _ _ _ j = _
      have hj' : s.next ≤ j := hj
      rw [setBe_ne _ _ (by omega)]
  | none =>
    dsimp only
    have hno : ∀ i ∈ (s.mtx m).tab, (s.be i).addr ≠ a := by
      intro i hi
      have := List.find?_eq_none.mp hf i hi
      simpa using this
    have nt : s.next ∉ (s.mtx m).tab := fun x => Nat.lt_irrefl _ (h.tab m _ x).1
    refine ⟨dinv_new h hno hb, fun w => balAdd_has _ _ _ _, ?_, Nat.le_succ _, ?_, ?_, ?_, ?_, ?_, ?_, rfl, rfl, rfl, rfl, rfl⟩
    · intro w j
      rw [balAdd_inBal]
      constructor
      · rintro (x | ⟨rfl, rfl, -⟩)
        · exact Or.inl x
        · exact Or.inr ⟨rfl, Nat.le_refl _, Nat.lt_succ_self _⟩
      · rintro (x | ⟨rfl, h1, h2⟩)
        · exact Or.inl x
        · have h2' : j < s.next + 1 := h2
          exact Or.inr ⟨rfl, by omega, hb⟩
    · intro j
      show j ∈ (setMtx _ _ _ m).tab ↔ _
      rw [setMtx_self]
      simp only [List.mem_append, List.mem_singleton]
      constructor
      · rintro (x | rfl)
        · exact Or.inl x
        · exact Or.inr ⟨Nat.le_refl _, Nat.lt_succ_self _⟩
      · rintro (x | ⟨h1, h2⟩)
        · exact Or.inl x
        · have h2' : j < s.next + 1 := h2
          exact Or.inr (by omega)
    · intro k
      by_cases hk : k = m
      · subst hk
        dsimp only
        rw [setMtx_self]
        exact ⟨rfl, rfl, rfl, fun x => absurd rfl x⟩
      · dsimp only
        rw [setMtx_ne _ _ hk]
        exact ⟨rfl, rfl, rfl, fun _ => rfl⟩
    · intro j hj
      show setBe _ _ _ j = _
      rw [setBe_ne _ _ (by omega), if_neg]
      rintro ⟨h1, h2⟩
      simp only [List.mem_singleton] at h2
      exact hno j h1 h2
    · intro j h1 h2
      have h2' : j < s.next + 1 := h2
      have : j = s.next := by omega
      subst this
      dsimp only
      rw [setBe_self]
      exact ⟨by simp, rfl, rfl, rfl, rfl⟩
    · intro a' ha'
      simp only [List.mem_singleton] at ha'
      subst ha'
      refine ⟨s.next, ?_, ?_, ?_⟩
      · show _ ∈ (setMtx _ _ _ m).tab; rw [setMtx_self]; simp
      · show (setBe _ _ _ s.next).addr = _; rw [setBe_self]
      · show (setBe _ _ _ s.next).mark = _; rw [setBe_self]
    · intro j hj
      have hj' : s.next + 1 ≤ j := hj
      show setBe _ _ _ j = _
      rw [setBe_ne _ _ (by omega)]
where
  inj_of_nodup {f : Nat → Bytes} {l : List Nat} (h : (l.map f).Nodup) {i j : Nat} (hi : i ∈ l) (hj : j ∈ l) (e : f i = f j) : i = j := by
    induction l with
    | nil => cases hi
    | cons x r ih =>
      have h' := List.nodup_cons.mp h
      rcases List.mem_cons.mp hi with rfl | hi1 <;> rcases List.mem_cons.mp hj with rfl | hj1
      · rfl
      · exact absurd (List.mem_map.mpr ⟨j, hj1, e.symm⟩) h'.1
      · exact absurd (List.mem_map.mpr ⟨i, hi1, e⟩) h'.1
      · exact ih h'.2 hi1 hj1

theorem added_trans {m : Nat} {l l' : List Bytes} {s s' s'' : DynSt} (h : DInv s) (h1 : Added m l s s') (h2 : Added m l' s' s'') : Added m (l ++ l') s s'' := by
  have tlt : ∀ j ∈ (s.mtx m).tab, j < s.next := fun j x => (h.tab m j x).1
  have n1 := h1.next
  have n2 := h2.next
  obtain ⟨mw, -, md, -⟩ := h1.mtx m
  refine ⟨h2.inv, fun w => (h2.has w).trans (h1.has w), ?_, Nat.le_trans n1 n2, ?_, ?_, ?_, ?_, ?_, ?_, h2.rem.trans h1.rem, h2.sess.trans h1.sess, h2.held.trans h1.held,
    h2.jobs.trans h1.jobs, h2.late.trans h1.late⟩
  · intro w j
    rw [h2.inBal, h1.inBal, mw]
    constructor
    · rintro ((x | ⟨a, b, c⟩) | ⟨a, b, c⟩)
      · exact Or.inl x
      · exact Or.inr ⟨a, b, by omega⟩
      · exact Or.inr ⟨a, by omega, c⟩
    · rintro (x | ⟨a, b, c⟩)
      · exact Or.inl (Or.inl x)
      · by_cases hj : j < s'.next
        · exact Or.inl (Or.inr ⟨a, b, hj⟩)
        · exact Or.inr ⟨a, by omega, c⟩
  · intro j
    rw [h2.tab, h1.tab]
    constructor
    · rintro ((x | ⟨b, c⟩) | ⟨b, c⟩)
      · exact Or.inl x
      · exact Or.inr ⟨b, by omega⟩
      · exact Or.inr ⟨by omega, c⟩
    · rintro (x | ⟨b, c⟩)
      · exact Or.inl (Or.inl x)
      · by_cases hj : j < s'.next
        · exact Or.inl (Or.inr ⟨b, hj⟩)
        · exact Or.inr ⟨by omega, c⟩
  · intro k
    obtain ⟨a1, a2, a3, a4⟩ := h1.mtx k
    obtain ⟨b1, b2, b3, b4⟩ := h2.mtx k
    exact ⟨b1.trans a1, b2.trans a2, b3.trans a3, fun x => (b4 x).trans (a4 x)⟩
  · intro j hj
    rw [h2.old j (by omega), h1.old j hj]
    dsimp only
    have ht : j ∈ (s'.mtx m).tab ↔ j ∈ (s.mtx m).tab := by
      rw [h1.tab]
      constructor
      · rintro (x | ⟨x, -⟩)
        · exact x
        · omega
      · exact Or.inl
    congr 1
    simp only [ht, List.mem_append]
    by_cases c1 : j ∈ (s.mtx m).tab <;> by_cases c2 : (s.be j).addr ∈ l <;> by_cases c3 : (s.be j).addr ∈ l' <;> simp [c1, c2, c3]
  · intro j b c
    by_cases hj : j < s'.next
    · obtain ⟨x1, x2, x3, x4, x5⟩ := h1.new j b hj
      rw [h2.old j hj]
      refine ⟨List.mem_append_left _ x1, ?_, x3, x4, x5⟩
      dsimp only
      split
      · rfl
      · exact x2
    · obtain ⟨x1, x2, x3, x4, x5⟩ := h2.new j (by omega) c
      exact ⟨List.mem_append_right _ x1, x2, x3, x4.trans md, x5⟩
  · intro a ha
    rcases List.mem_append.mp ha with ha | ha
    · obtain ⟨j, hj, e1, e2⟩ := h1.found a ha
      have hjn := (h1.inv.tab m j hj).1
      refine ⟨j, (h2.tab j).mpr (Or.inl hj), ?_, ?_⟩
      · rw [h2.old j hjn]; exact e1
      · rw [h2.old j hjn]; dsimp only; split
        · rfl
        · exact e2
    · exact h2.found a ha
  · intro j hj
    rw [h2.beyond j hj, h1.beyond j (by omega)]

theorem added_all {m : Nat} : ∀ (ans : List Bytes) (s : DynSt), DInv s → HasBal s.bals (s.mtx m).weight → Added m ans s (ans.foldl (addAddr m) s) := by
  intro ans
  induction ans with
  | nil =>
    intro s h _
    refine ⟨h, fun _ => Iff.rfl, ?_, Nat.le_refl _, ?_, fun k => ⟨rfl, rfl, rfl, fun _ => rfl⟩, ?_, ?_, by simp, fun _ _ => rfl, rfl, rfl, rfl, rfl, rfl⟩
    · intro w j
      constructor
      · exact Or.inl
      · rintro (x | ⟨-, h1, h2⟩)
        · exact x
        · have h2' : j < s.next := h2
          omega
    · intro j
      constructor
      · exact Or.inl
      · rintro (x | ⟨h1, h2⟩)
        · exact x
        · have h2' : j < s.next := h2
          omega
    · intro j _; rw [if_neg (by simp)]; rfl
    · intro j h1 h2
      have h2' : j < s.next := h2
      omega
  | cons a r ih =>
    intro s h hb
    have h1 := added_one h hb a
    have h2 := ih (addAddr m s a) h1.inv (by rw [(h1.mtx m).1]; exact (h1.has _).mpr hb)
    exact added_trans h h1 h2

/-- What an update of a matrix that is not disabled does -/
structure DynUpdated (m : Nat) (ans : List Bytes) (s s' : DynSt) : Prop where
  inv : DInv s'
  mark : ∀ j, (s'.be j).mark = false
  next : s.next ≤ s'.next
  inBal : ∀ w j, InBal s'.bals w j ↔
    InBal s.bals w j ∧ ¬ ((s.be j).parent = some m ∧ (s.be j).addr ∉ ans) ∨ w = (s.mtx m).weight ∧ s.next ≤ j ∧ j < s'.next
  mtx : ∀ k, (s'.mtx k).weight = (s.mtx k).weight ∧ (s'.mtx k).first = (s.mtx k).first ∧ (s'.mtx k).disabled = (s.mtx k).disabled ∧ (k ≠ m → s'.mtx k = s.mtx k)
  tab : ∀ j, j ∈ (s'.mtx m).tab ↔ j ∈ (s.mtx m).tab ∧ (s.be j).addr ∈ ans ∨ s.next ≤ j ∧ j < s'.next
  kept : ∀ j, j < s.next → ¬ (j ∈ (s.mtx m).tab ∧ (s.be j).addr ∉ ans) → s'.be j = s.be j
  gone : ∀ j, j < s.next → (s'.be j).addr = (s.be j).addr ∧ (s'.be j).parent = (s.be j).parent ∧ (s'.be j).freed = (s.be j).freed
  new : ∀ j, s.next ≤ j → j < s'.next → (s'.be j).addr ∈ ans ∧ (s'.be j).parent = some m ∧ (s'.be j).disabled = (s.mtx m).disabled ∧ (s'.be j).alive = true
  found : ∀ a ∈ ans, ∃ j ∈ (s'.mtx m).tab, (s'.be j).addr = a
  sess : ∀ e, e ∈ s'.sess ↔ e ∈ s.sess ∧ ¬ (e.2 ∈ (s.mtx m).tab ∧ (s.be e.2).addr ∉ ans)
  held : s'.held = s.held
  jobs : s'.jobs = s.jobs
  late : s'.late = s.late
  has : HasBal s'.bals (s.mtx m).weight

theorem dinv_mark {s : DynSt} (h : DInv s) (v : Bool) (l : List Nat) : DInv { s with be := markAll v l s.be } := by
  refine dinv_be h ?_ ?_
  · intro j; unfold markAll; dsimp only; split <;> exact ⟨rfl, rfl, rfl, rfl, rfl⟩
  · intro j _; unfold markAll; dsimp only; split <;> rfl

theorem inBal_tab {s : DynSt} (h : DInv s) {m i w : Nat} (hi : InBal s.bals w i) : (s.be i).parent = some m ↔ i ∈ (s.mtx m).tab :=
  ⟨(h.mem w i hi).2.2 m, fun x => (h.tab m i x).2.1⟩

/-- The state an update is about to leave; its last step may fail. -/
theorem update_core {s : DynSt} (h : DInv s) (hm : ∀ j, (s.be j).mark = false) {m : Nat} (hd : (s.mtx m).disabled = false) (ans : List Bytes) :
    ∃ s3, dynUpdate m ans s = (if s3.bals.any (fun b => b.weight == (s.mtx m).weight) then .ok s3 else .ub) ∧
      (HasBal s3.bals (s.mtx m).weight → DynUpdated m (Wanted (s.mtx m) ans) s s3) ∧
      (¬ HasBal s3.bals (s.mtx m).weight → Wanted (s.mtx m) ans = [] ∧ ∀ j, InBal s.bals (s.mtx m).weight j → j ∈ (s.mtx m).tab) := by
  unfold dynUpdate
  dsimp only
  rw [hd]
  rw [if_neg (by simp)]
  let W := Wanted (s.mtx m) ans
  have eW : (if (s.mtx m).first = true then List.take 1 ans else ans) = W := rfl
  rw [eW]
  let s1 : DynSt := { s with bals := balGet (s.mtx m).weight s.bals, be := markAll true (s.mtx m).tab s.be }
  have h1 : DInv s1 := dinv_mark (dinv_bals h (balGet_ok h.bals _) (balGet_inBal _ _)) true (s.mtx m).tab
  have ib1 : ∀ w j, InBal s1.bals w j ↔ InBal s.bals w j := balGet_inBal _ _
  have hb1 : HasBal s1.bals (s1.mtx m).weight := balGet_has _ _
  have be1 : ∀ j, s1.be j = if j ∈ (s.mtx m).tab then { s.be j with mark := true } else s.be j := fun j => rfl
  have h2 := added_all W s1 h1 hb1
  generalize hs2 : W.foldl (addAddr m) s1 = s2 at h2
  obtain ⟨s3, e3, h3⟩ := sweepAll_spec m (s2.mtx m).tab s2 h2.inv (h2.inv.tabN m) (fun _ x => x)
  rw [e3]
  refine ⟨s3, rfl, ?_⟩
  have tlt : ∀ j ∈ (s.mtx m).tab, j < s.next := fun j x => (h.tab m j x).1
  have nn : s.next ≤ s2.next := h2.next
  -- who is removed
  have old2 : ∀ j, j < s.next → s2.be j = { s.be j with mark := decide (j ∈ (s.mtx m).tab ∧ (s.be j).addr ∉ W) } := by
    intro j hj
    rw [h2.old j hj, be1]
    by_cases ht : j ∈ (s.mtx m).tab
    · rw [if_pos ht]
      dsimp only
      by_cases ha : (s.be j).addr ∈ W
      · rw [if_pos ⟨ht, ha⟩]; simp [ha]
      · rw [if_neg (fun x => ha x.2)]; simp [ht, ha]
    · rw [if_neg ht, if_neg (fun x => ht x.1), hm j]; simp [ht]
  have mark2 : ∀ j, (j ∈ (s2.mtx m).tab ∧ (s2.be j).mark = true) ↔ (j ∈ (s.mtx m).tab ∧ (s.be j).addr ∉ W) := by
    intro j
    constructor
    · rintro ⟨ht, hmk⟩
      rcases (h2.tab j).mp ht with x | ⟨x, y⟩
      · rw [old2 j (tlt j x)] at hmk
        simpa using hmk
      · have := (h2.new j x y).2.1
        rw [this] at hmk; cases hmk
    · rintro ⟨ht, ha⟩
      refine ⟨(h2.tab j).mpr (Or.inl ht), ?_⟩
      rw [old2 j (tlt j ht)]
      simp [ht, ha]
  have be3 : ∀ j, s3.be j = if j ∈ (s.mtx m).tab ∧ (s.be j).addr ∉ W then { s2.be j with disabled := true, bal := none, refs := (s2.be j).refs - 1, mark := false } else s2.be j := by
    intro j
    rw [h3.be j]
    by_cases hx : j ∈ (s.mtx m).tab ∧ (s.be j).addr ∉ W
    · rw [if_pos hx, if_pos ((mark2 j).mpr hx)]
    · rw [if_neg hx, if_neg fun y => hx ((mark2 j).mp y)]
  have hn3 : s3.next = s2.next := h3.next
  have ib3 : ∀ w j, InBal s3.bals w j ↔ (InBal s.bals w j ∧ ¬ ((s.be j).parent = some m ∧ (s.be j).addr ∉ W)) ∨ w = (s.mtx m).weight ∧ s.next ≤ j ∧ j < s3.next := by
    intro w j
    rw [h3.inBal, h2.inBal, ib1, mark2, hn3]
    show (InBal s.bals w j ∨ w = (s.mtx m).weight ∧ s.next ≤ j ∧ j < s2.next) ∧ _ ↔ _
    constructor
    · rintro ⟨x | ⟨a, b, c⟩, y⟩
      · exact Or.inl ⟨x, fun z => y ⟨(inBal_tab h x).mp z.1, z.2⟩⟩
      · exact Or.inr ⟨a, b, c⟩
    · rintro (⟨x, y⟩ | ⟨a, b, c⟩)
      · exact ⟨Or.inl x, fun z => y ⟨(inBal_tab h x).mpr z.1, z.2⟩⟩
      · exact ⟨Or.inr ⟨a, b, c⟩, fun z => by have := tlt j z.1; omega⟩
  have t3 : ∀ j, j ∈ (s3.mtx m).tab ↔ j ∈ (s.mtx m).tab ∧ (s.be j).addr ∈ W ∨ s.next ≤ j ∧ j < s3.next := by
    intro j
    rw [h3.tab, mark2, h2.tab, hn3]
    show (j ∈ (s.mtx m).tab ∨ s.next ≤ j ∧ j < s2.next) ∧ _ ↔ _
    constructor
    · rintro ⟨x | x, y⟩
      · refine Or.inl ⟨x, ?_⟩
        by_cases ha : (s.be j).addr ∈ W
        · exact ha
        · exact absurd ⟨x, ha⟩ y
      · exact Or.inr x
    · rintro (⟨x, y⟩ | x)
      · exact ⟨Or.inl x, fun z => z.2 y⟩
      · exact ⟨Or.inr x, fun z => by have := tlt j z.1; omega⟩
  have found3 : ∀ a ∈ W, ∃ j ∈ (s3.mtx m).tab, (s3.be j).addr = a := by
    intro a ha
    obtain ⟨j, hj, e1, e2⟩ := h2.found a ha
    have hnx : ¬ (j ∈ (s.mtx m).tab ∧ (s.be j).addr ∉ W) := by
      intro x
      have := ((mark2 j).mpr x).2
      rw [e2] at this; cases this
    refine ⟨j, (h3.tab j).mpr ⟨hj, fun x => by rw [e2] at x; cases x.2⟩, ?_⟩
    rw [be3, if_neg hnx]; exact e1
  constructor
  · intro hhas
    refine ⟨h3.inv, ?_, by rw [hn3]; exact nn, ib3, ?_, t3, ?_, ?_, ?_, found3, ?_, h3.held.trans h2.held, h3.jobs.trans h2.jobs, h3.late.trans h2.late, hhas⟩
    · intro j
      rw [be3]
      split
      · rfl
      · rename_i hx
        by_cases hj : j < s.next
        · rw [old2 j hj]; simpa using hx
        · by_cases hj2 : j < s2.next
          · exact (h2.new j (by show s.next ≤ j; omega) hj2).2.1
          · rw [h2.beyond j (by omega), be1, if_neg (fun x => hj (tlt j x)), hm]
    · intro k
      obtain ⟨a1, a2, a3, a4⟩ := h2.mtx k
      obtain ⟨b1, b2, b3, b4⟩ := h3.mtx k
      exact ⟨b1.trans a1, b2.trans a2, b3.trans a3, fun x => (b4 x).trans (a4 x)⟩
    · intro j hj hx
      rw [be3, if_neg hx, old2 j hj]
      have : decide (j ∈ (s.mtx m).tab ∧ (s.be j).addr ∉ W) = (s.be j).mark := by rw [hm j]; simpa using hx
      rw [this]
    · intro j hj
      rw [be3]
      split <;> (rw [old2 j hj]; exact ⟨rfl, rfl, rfl⟩)
    · intro j b c
      rw [hn3] at c
      have hnx : ¬ (j ∈ (s.mtx m).tab ∧ (s.be j).addr ∉ W) := fun z => by have := tlt j z.1; omega
      rw [be3, if_neg hnx]
      obtain ⟨x1, x2, x3, x4, x5⟩ := h2.new j b c
      exact ⟨x1, x3, x4, x5⟩
    · intro e
      rw [h3.sess, mark2, h2.sess]
  · intro hno
    have empty : ∀ j, ¬ InBal s3.bals (s.mtx m).weight j := by
      rintro j ⟨b, hb, hw, -⟩
      exact hno ⟨b, hb, hw⟩
    have hW : W = [] := by
      cases hWc : W with
      | nil => rfl
      | cons a r =>
        obtain ⟨j, hj, -⟩ := found3 a (by rw [hWc]; exact List.mem_cons_self)
        have := (h3.inv.tab m j hj).2.2.2
        rw [(h3.mtx m).1, (h2.mtx m).1] at this
        exact absurd this (empty j)
    refine ⟨hW, ?_⟩
    intro j hj
    have hx : ¬ ¬ ((s.be j).parent = some m ∧ (s.be j).addr ∉ W) := fun x => empty j ((ib3 _ _).mpr (Or.inl ⟨hj, x⟩))
    exact (inBal_tab h hj).mp (Classical.not_not.mp hx).1

end Pound
