import Verif.Spec.Json
import Verif.Proof.Basic

namespace Pound

/-! ### strcmp -/

theorem u8_trich (a b : UInt8) : a < b ∨ a = b ∨ b < a := by
  rcases Nat.lt_trichotomy a.toNat b.toNat with h | h | h
  · exact Or.inl (UInt8.lt_iff_toNat_lt.mpr h)
  · exact Or.inr (Or.inl (UInt8.toNat_inj.mp h))
  · exact Or.inr (Or.inr (UInt8.lt_iff_toNat_lt.mpr h))

theorem u8_lt_irrefl (a : UInt8) : ¬ a < a := by
  rw [UInt8.lt_iff_toNat_lt]; omega

theorem u8_lt_trans {a b c : UInt8} (h : a < b) (h' : b < c) : a < c := by
  rw [UInt8.lt_iff_toNat_lt] at *; omega

theorem u8_lt_asymm {a b : UInt8} (h : a < b) : ¬ b < a := by
  rw [UInt8.lt_iff_toNat_lt] at *; omega

theorem strcmp_eq_iff : ∀ x y, strcmp x y = .eq ↔ x = y
  | [], [] => by simp [strcmp]
  | [], _ :: _ => by simp [strcmp]
  | _ :: _, [] => by simp [strcmp]
  | a :: x, b :: y => by
    rcases u8_trich a b with h | h | h
    · have : a ≠ b := fun e => u8_lt_irrefl _ (e ▸ h)
      simp [strcmp, h, this]
    · subst h; simp [strcmp, u8_lt_irrefl, strcmp_eq_iff x y]
    · have : a ≠ b := fun e => u8_lt_irrefl _ (e ▸ h)
      simp [strcmp, h, this, u8_lt_asymm h]

theorem strcmp_swap : ∀ x y, strcmp x y = .gt ↔ strcmp y x = .lt
  | [], [] => by simp [strcmp]
  | [], _ :: _ => by simp [strcmp]
  | _ :: _, [] => by simp [strcmp]
  | a :: x, b :: y => by
    rcases u8_trich a b with h | h | h
    · simp [strcmp, h, u8_lt_asymm h]
    · subst h; simp [strcmp, u8_lt_irrefl, strcmp_swap x y]
    · simp [strcmp, h, u8_lt_asymm h]

theorem strcmp_trans : ∀ {x y z}, strcmp x y = .lt → strcmp y z = .lt → strcmp x z = .lt
  | [], [], _ => by simp [strcmp]
  | [], _ :: _, [] => by simp [strcmp]
  | [], _ :: _, _ :: _ => by simp [strcmp]
  | _ :: _, [], _ => by simp [strcmp]
  | _ :: _, _ :: _, [] => by simp [strcmp]
  | a :: x, b :: y, c :: z => by
    intro h1 h2
    have ih := @strcmp_trans x y z
    rcases u8_trich a b with h | h | h
    · rcases u8_trich b c with h' | h' | h'
      · simp [strcmp, u8_lt_trans h h']
      · subst h'; simp [strcmp, h]
      · simp [strcmp, h', u8_lt_asymm h'] at h2
    · subst h
      rcases u8_trich a c with h' | h' | h'
      · simp [strcmp, h']
      · subst h'; simp [strcmp, u8_lt_irrefl] at *; exact ih h1 h2
      · simp [strcmp, h', u8_lt_asymm h'] at h2
    · simp [strcmp, h, u8_lt_asymm h] at h1

theorem strcmp_cases (x y : Bytes) : strcmp x y = .lt ∨ x = y ∨ strcmp y x = .lt := by
  cases h : strcmp x y
  · exact Or.inl rfl
  · exact Or.inr (Or.inl ((strcmp_eq_iff _ _).mp h))
  · exact Or.inr (Or.inr ((strcmp_swap _ _).mp h))

theorem strcmp_irrefl (x : Bytes) : strcmp x x ≠ .lt := by
  rw [(strcmp_eq_iff x x).mpr rfl]; simp

theorem strcmp_lt_iff : ∀ x y, strcmp x y = .lt ↔ Spec.LexLt x y
  | [], [] => by simp [strcmp, Spec.LexLt]
  | [], b :: y => by simp [strcmp, Spec.LexLt]
  | a :: x, [] => by simp [strcmp, Spec.LexLt]
  | a :: x, b :: y => by
    have ih := strcmp_lt_iff x y
    rcases u8_trich a b with h | h | h
    · simp only [strcmp, h, if_true, true_iff]
      exact Or.inr ⟨[], a, b, x, y, rfl, rfl, h⟩
    · subst h
      simp only [strcmp, u8_lt_irrefl, if_false, ih]
      constructor
      · rintro (⟨c, t, rfl⟩ | ⟨p, c, d, s, t, rfl, rfl, hcd⟩)
        · exact Or.inl ⟨c, t, rfl⟩
        · exact Or.inr ⟨a :: p, c, d, s, t, rfl, rfl, hcd⟩
      · rintro (⟨c, t, e⟩ | ⟨p, c, d, s, t, e1, e2, hcd⟩)
        · simp at e; exact Or.inl ⟨c, t, e⟩
        · cases p with
          | nil => simp at e1 e2; rw [← e1.1, ← e2.1] at hcd; exact absurd hcd (u8_lt_irrefl _)
          | cons q p =>
            simp at e1 e2
            exact Or.inr ⟨p, c, d, s, t, e1.2, e2.2, hcd⟩
    · simp only [strcmp, h, u8_lt_asymm h, if_true, if_false]
      simp only [reduceCtorEq, false_iff]
      rintro (⟨c, t, e⟩ | ⟨p, c, d, s, t, e1, e2, hcd⟩)
      · simp at e; exact u8_lt_irrefl _ (e.1 ▸ h)
      · cases p with
        | nil =>
          simp at e1 e2
          rw [← e1.1, ← e2.1] at hcd; exact u8_lt_asymm h hcd
        | cons q p =>
          simp at e1 e2
          rw [e1.1, e2.1] at h; exact u8_lt_irrefl _ h

/-! ### Objects -/

/-- Sorted by keys, without duplicates, and counted. -/
def JInv {V} (o : JObj V) : Prop :=
  o.count = o.pairs.length ∧ o.pairs.Pairwise (fun a b => strcmp a.1 b.1 = .lt)

theorem jinv_new {V} : JInv (jNew : JObj V) := by simp [JInv, jNew]

/-- What the search establishes -/
def FindOk {V} (ps : List (Bytes × V)) (name : Bytes) : JFind → Prop
  | .found i => ∃ v, ps[i]? = some (name, v)
  | .place none => ∀ p ∈ ps, strcmp name p.1 = .lt
  | .place (some l) => (∃ p : Bytes × V, ps[l]? = some p ∧ strcmp p.1 name = .lt) ∧
      ∀ (i : Nat) (p : Bytes × V), ps[i]? = some p → p.1 ≠ name

theorem sorted_get {V} {ps : List (Bytes × V)}
    (h : ps.Pairwise (fun a b => strcmp a.1 b.1 = .lt)) {i j : Nat} {p q}
    (hi : ps[i]? = some p) (hj : ps[j]? = some q) (hij : i < j) : strcmp p.1 q.1 = .lt := by
  rw [List.pairwise_iff_getElem] at h
  obtain ⟨hi', rfl⟩ := List.getElem?_eq_some_iff.mp hi
  obtain ⟨hj', rfl⟩ := List.getElem?_eq_some_iff.mp hj
  exact h i j hi' hj' hij

theorem jSearch_spec {V} {ps : List (Bytes × V)} {name : Bytes}
    (hs : ps.Pairwise (fun a b => strcmp a.1 b.1 = .lt)) :
    ∀ f l count, count ≤ f → 1 ≤ count → l + count ≤ ps.length →
      (∃ p, ps[l]? = some p ∧ strcmp p.1 name ≠ .gt) →
      (∀ i p, l + count ≤ i → ps[i]? = some p → strcmp name p.1 = .lt) →
      ∃ r, jSearch ps name (f + 1) l count = .ok r ∧ FindOk ps name r := by
  intro f
  induction f with
  | zero => intro l count h1 h2; omega
  | succ f ih =>
    intro l count hcf hc1 hlen hl hhi
    rw [jSearch]
    have hc0 : count ≠ 0 := by omega
    simp only [hc0, if_false]
    have hlt : l + count / 2 < ps.length := by omega
    rw [List.getElem?_eq_getElem hlt]
    generalize hm : ps[l + count / 2] = m
    have hm' : ps[l + count / 2]? = some m := by rw [List.getElem?_eq_getElem hlt, hm]
    dsimp only
    cases hc : strcmp m.1 name
    · dsimp only
      by_cases hn : count / 2 = 0
      · simp only [hn, if_true]
        have hc1' : count = 1 := by omega
        subst hc1'
        refine ⟨_, rfl, ⟨m, by simpa using hm', hc⟩, ?_⟩
        intro i p hp e
        rcases Nat.lt_trichotomy i l with h | h | h
        · have := sorted_get hs hp (by simpa using hm') h
          rw [e] at this
          exact strcmp_irrefl _ (strcmp_trans this hc)
        · subst h
          rw [show i + 1 / 2 = i from rfl, hp] at hm'
          cases hm'
          rw [e] at hc; exact strcmp_irrefl _ hc
        · have := hhi i p (by omega) hp
          rw [e] at this; exact strcmp_irrefl _ this
      · simp only [hn, if_false]
        refine ih _ _ (by omega) (by omega) (by omega) ⟨m, hm', by simp [hc]⟩ ?_
        intro i p hi; exact hhi i p (by omega)
    · dsimp only
      refine ⟨_, rfl, m.2, ?_⟩
      rw [hm', ← (strcmp_eq_iff _ _).mp hc]
    · dsimp only
      have hgt : strcmp name m.1 = .lt := (strcmp_swap _ _).mp hc
      by_cases hn : count / 2 = 0
      · obtain ⟨p, hp, hp'⟩ := hl
        rw [hn, Nat.add_zero, hp] at hm'
        cases hm'
        exact absurd hc hp'
      · simp only [hn, if_false]
        refine ih _ _ (by omega) (by omega) (by omega) hl ?_
        intro i p hi hp
        rcases Nat.lt_or_ge (l + count / 2) i with h | h
        · exact strcmp_trans hgt (sorted_get hs hm' hp h)
        · have : i = l + count / 2 := by omega
          subst this
          rw [hp] at hm'; cases hm'; exact hgt

theorem jLookup_spec {V} {o : JObj V} (h : JInv o) (name : Bytes) :
    ∃ r, jLookup o name = .ok r ∧ FindOk o.pairs name r := by
  obtain ⟨hc, hs⟩ := h
  unfold jLookup
  by_cases h0 : o.count = 0
  · rw [if_pos h0]
    have : o.pairs = [] := List.length_eq_zero_iff.mp (by omega)
    exact ⟨_, rfl, by simp [FindOk, this]⟩
  · rw [if_neg h0]
    have hpos : 0 < o.pairs.length := by omega
    have hhead : o.pairs.head? = some (o.pairs[0]) := by
      rw [List.head?_eq_getElem?, List.getElem?_eq_getElem hpos]
    rw [hhead]
    generalize ha : o.pairs[0] = a
    have ha' : o.pairs[0]? = some a := by rw [List.getElem?_eq_getElem hpos, ha]
    dsimp only
    by_cases h1 : strcmp a.1 name = .gt
    · rw [if_pos h1]
      have hlt := (strcmp_swap _ _).mp h1
      refine ⟨_, rfl, ?_⟩
      intro p hp
      obtain ⟨i, hi, rfl⟩ := List.getElem_of_mem hp
      rcases Nat.eq_zero_or_pos i with rfl | hi0
      · rw [ha]; exact hlt
      · exact strcmp_trans hlt (sorted_get hs ha' (List.getElem?_eq_getElem hi) hi0)
    · rw [if_neg h1]
      have hlast : o.pairs.getLast? = o.pairs[o.pairs.length - 1]? := List.getLast?_eq_getElem?
      rw [hlast, List.getElem?_eq_getElem (by omega)]
      generalize hz : o.pairs[o.pairs.length - 1]'(by omega) = z
      have hz' : o.pairs[o.pairs.length - 1]? = some z := by
        rw [List.getElem?_eq_getElem (by omega), hz]
      dsimp only
      by_cases h2 : strcmp z.1 name = .lt
      · rw [if_pos h2]
        refine ⟨_, rfl, ⟨z, hz', h2⟩, ?_⟩
        intro i p hp e
        obtain ⟨hi, -⟩ := List.getElem?_eq_some_iff.mp hp
        rcases Nat.lt_or_ge i (o.pairs.length - 1) with h | h
        · have := strcmp_trans (sorted_get hs hp hz' h) h2
          rw [e] at this; exact strcmp_irrefl _ this
        · have : i = o.pairs.length - 1 := by omega
          subst this
          rw [hp] at hz'; cases hz'
          rw [e] at h2; exact strcmp_irrefl _ h2
      · rw [if_neg h2]
        refine jSearch_spec hs _ _ _ (Nat.le_refl _) (by omega) (by omega) ⟨a, ha', h1⟩ ?_
        intro i p hi hp
        obtain ⟨hi', -⟩ := List.getElem?_eq_some_iff.mp hp
        omega

/-- The value of a key in a list of pairs -/
def lookupL {V} (ps : List (Bytes × V)) (k : Bytes) : Option V :=
  (ps.find? (fun p => p.1 == k)).map (·.2)

theorem lookupL_none {V} {ps : List (Bytes × V)} {k} (h : ∀ p ∈ ps, p.1 ≠ k) :
    lookupL ps k = none := by
  unfold lookupL
  rw [List.find?_eq_none.mpr]
  · rfl
  · intro p hp; simp [h p hp]

theorem lookupL_mid {V} (A B : List (Bytes × V)) (k k' : Bytes) (v : V)
    (hA : ∀ p ∈ A, p.1 ≠ k) :
    lookupL (A ++ (k, v) :: B) k' = if k' = k then some v else lookupL (A ++ B) k' := by
  unfold lookupL
  by_cases h : k' = k
  · subst h
    rw [List.find?_append, List.find?_eq_none.mpr]
    · simp
    · intro p hp; simp [hA p hp]
  · have h' : ¬ k = k' := fun e => h e.symm
    have h'' : (k == k') = false := by simpa using h'
    rw [if_neg h, List.find?_append, List.find?_append, List.find?_cons]
    simp only [h'']

theorem jGet_spec {V} {o : JObj V} (h : JInv o) (k : Bytes) :
    jGet o k = .ok (lookupL o.pairs k) := by
  obtain ⟨r, hr, hok⟩ := jLookup_spec h k
  unfold jGet
  rw [hr]
  match r, hok with
  | .found i, ⟨v, hv⟩ =>
    simp only [hv]
    obtain ⟨hi, hv'⟩ := List.getElem?_eq_some_iff.mp hv
    have e : o.pairs = o.pairs.take i ++ (k, v) :: o.pairs.drop (i + 1) := by
      rw [← hv']; simp
    have hA : ∀ p ∈ o.pairs.take i, p.1 ≠ k := by
      intro p hp ek
      obtain ⟨j, hj, rfl⟩ := List.getElem_of_mem hp
      simp at hj
      have := sorted_get h.2 (i := j) (j := i) (p := o.pairs[j]) (List.getElem?_eq_getElem (by omega))
        hv (by omega)
      simp at ek
      rw [ek] at this; exact strcmp_irrefl _ this
    rw [e, lookupL_mid _ _ _ _ _ hA]; simp
  | .place none, hok =>
    simp only
    rw [lookupL_none]
    intro p hp e
    have := hok p hp
    rw [e] at this; exact strcmp_irrefl _ this
  | .place (some l), hok =>
    simp only
    rw [lookupL_none]
    intro p hp e
    obtain ⟨j, hj, rfl⟩ := List.getElem_of_mem hp
    exact hok.2 j _ (List.getElem?_eq_getElem hj) e

theorem dropWhile_lt_sorted {V} {name : Bytes} : ∀ (ps : List (Bytes × V)),
    ps.Pairwise (fun a b => strcmp a.1 b.1 = .lt) → (∀ p ∈ ps, p.1 ≠ name) →
    ∀ p ∈ ps.dropWhile (fun p => strcmp p.1 name == .lt), strcmp name p.1 = .lt
  | [], _, _ => by simp
  | a :: ps, hs, hn => by
    intro p hp
    rw [List.dropWhile_cons] at hp
    by_cases h : strcmp a.1 name = .lt
    · simp [h] at hp
      exact dropWhile_lt_sorted ps (List.pairwise_cons.mp hs).2
        (fun q hq => hn q (List.mem_cons_of_mem _ hq)) p hp
    · have hgt : strcmp name a.1 = .lt := by
        rcases strcmp_cases a.1 name with h' | h' | h'
        · exact absurd h' h
        · exact absurd h' (hn a (List.mem_cons_self))
        · exact h'
      have hp' : p ∈ a :: ps := by
        simpa [h] using hp
      rcases List.mem_cons.mp hp' with rfl | hp''
      · exact hgt
      · exact strcmp_trans hgt ((List.pairwise_cons.mp hs).1 p hp'')

theorem takeWhile_mem_true {α} {P : α → Bool} : ∀ (l : List α), ∀ x ∈ l.takeWhile P, P x = true
  | [] => by simp
  | a :: l => by
    intro x hx
    rw [List.takeWhile_cons] at hx
    by_cases h : P a = true
    · simp [h] at hx
      rcases hx with rfl | hx
      · exact h
      · exact takeWhile_mem_true l x hx
    · simp [h] at hx

/-- Insertion between smaller and greater keys -/
theorem insert_inv {V} {A B : List (Bytes × V)} {k : Bytes} {v : V}
    (hs : (A ++ B).Pairwise (fun a b => strcmp a.1 b.1 = .lt))
    (hA : ∀ p ∈ A, strcmp p.1 k = .lt) (hB : ∀ p ∈ B, strcmp k p.1 = .lt) :
    (A ++ (k, v) :: B).Pairwise (fun a b => strcmp a.1 b.1 = .lt) := by
  rw [List.pairwise_append] at hs ⊢
  obtain ⟨h1, h2, h3⟩ := hs
  refine ⟨h1, List.pairwise_cons.mpr ⟨hB, h2⟩, ?_⟩
  intro p hp q hq
  rcases List.mem_cons.mp hq with rfl | hq
  · exact hA p hp
  · exact h3 p hp q hq

theorem jSet_spec {V} {o : JObj V} (h : JInv o) (k : Bytes) (v : V) :
    ∃ o', jSet o k v = .ok o' ∧ JInv o' ∧
      ∀ k', lookupL o'.pairs k' = if k' = k then some v else lookupL o.pairs k' := by
  obtain ⟨r, hr, hok⟩ := jLookup_spec h k
  obtain ⟨hc, hs⟩ := h
  unfold jSet
  rw [hr]
  match r, hok with
  | .found i, ⟨w, hw⟩ =>
    simp only [hw]
    refine ⟨_, rfl, ?_, ?_⟩
    · refine ⟨by simpa using hc, ?_⟩
      have : (o.pairs.set i (k, v)).map (·.1) = o.pairs.map (·.1) := by
        rw [List.map_set]
        obtain ⟨hi, hw'⟩ := List.getElem?_eq_some_iff.mp hw
        have : k = (o.pairs.map (·.1))[i]'(by simpa using hi) := by simp [hw']
        simp only
        conv => lhs; rw [this]
        exact List.set_getElem_self _
      have p1 : (o.pairs.map (·.1)).Pairwise (fun a b => strcmp a b = .lt) :=
        List.pairwise_map.mpr hs
      rw [← this] at p1
      exact List.pairwise_map.mp p1
    · obtain ⟨hi, hw'⟩ := List.getElem?_eq_some_iff.mp hw
      have e : o.pairs = o.pairs.take i ++ (k, w) :: o.pairs.drop (i + 1) := by
        rw [← hw']; simp
      have e' : o.pairs.set i (k, v) = o.pairs.take i ++ (k, v) :: o.pairs.drop (i + 1) := by
        rw [List.set_eq_take_append_cons_drop, if_pos hi]
      have hA : ∀ p ∈ o.pairs.take i, p.1 ≠ k := by
        intro p hp ek
        obtain ⟨j, hj, rfl⟩ := List.getElem_of_mem hp
        simp at hj
        have := sorted_get hs (i := j) (j := i) (p := o.pairs[j])
          (List.getElem?_eq_getElem (by omega)) hw (by omega)
        simp at ek
        rw [ek] at this; exact strcmp_irrefl _ this
      intro k'
      show lookupL (o.pairs.set i (k, v)) k' = _
      rw [e', lookupL_mid _ _ _ _ _ hA]
      conv => rhs; rw [e, lookupL_mid _ _ _ _ _ hA]
      by_cases hk : k' = k <;> simp [hk]
  | .place none, hok =>
    refine ⟨_, rfl, ⟨by simp [jInsertAt, hc], ?_⟩, ?_⟩
    · exact List.pairwise_cons.mpr ⟨hok, hs⟩
    · intro k'
      exact lookupL_mid [] o.pairs k k' v (by simp)
  | .place (some l), ⟨⟨p, hp, hplt⟩, hne⟩ =>
    simp only [jInsertAt]
    have hne' : ∀ q ∈ o.pairs, q.1 ≠ k := by
      intro q hq
      obtain ⟨j, hj, rfl⟩ := List.getElem_of_mem hq
      exact hne j _ (List.getElem?_eq_getElem hj)
    have hl := (List.getElem?_eq_some_iff.mp hp).1
    generalize hbk : o.pairs.drop (l + 1) = back
    have hsb : back.Pairwise (fun a b => strcmp a.1 b.1 = .lt) := by
      rw [← hbk]; exact hs.sublist (List.drop_sublist _ _)
    have hB : ∀ q ∈ back.dropWhile (fun p => strcmp p.1 k == .lt), strcmp k q.1 = .lt := by
      refine dropWhile_lt_sorted back hsb ?_
      intro q hq
      exact hne' q (by rw [← hbk] at hq; exact List.mem_of_mem_drop hq)
    have hA : ∀ q ∈ o.pairs.take (l + 1) ++ back.takeWhile (fun p => strcmp p.1 k == .lt),
        strcmp q.1 k = .lt := by
      intro q hq
      rcases List.mem_append.mp hq with hq | hq
      · obtain ⟨j, hj, rfl⟩ := List.getElem_of_mem hq
        simp at hj
        simp only [List.getElem_take]
        rcases Nat.lt_or_ge j l with hjl | hjl
        · exact strcmp_trans (sorted_get hs (List.getElem?_eq_getElem (by omega)) hp hjl) hplt
        · have : j = l := by omega
          subst this
          rw [(List.getElem?_eq_some_iff.mp hp).2]
          exact hplt
      · simpa using takeWhile_mem_true _ q hq
    have e : o.pairs = (o.pairs.take (l + 1) ++ back.takeWhile (fun p => strcmp p.1 k == .lt)) ++
        back.dropWhile (fun p => strcmp p.1 k == .lt) := by
      rw [List.append_assoc, List.takeWhile_append_dropWhile, ← hbk, List.take_append_drop]
    refine ⟨_, rfl, ⟨?_, ?_⟩, ?_⟩
    · have := congrArg List.length e
      simp only [List.length_append, List.length_cons] at this ⊢
      omega
    · refine insert_inv ?_ hA hB
      rw [← e]; exact hs
    · intro k'
      refine (lookupL_mid _ _ k k' v ?_).trans ?_
      · intro q hq ek
        have := hA q hq
        rw [ek] at this; exact strcmp_irrefl _ this
      · rw [← e]

/-- A history of sets -/
def jSets {V} : JObj V → List (Bytes × V) → Res (JObj V)
  | o, [] => .ok o
  | o, (k, v) :: l =>
    match jSet o k v with
    | .ub => .ub
    | .ok o => jSets o l

theorem jSets_spec {V} : ∀ (l : List (Bytes × V)) (o : JObj V), JInv o →
    ∃ o', jSets o l = .ok o' ∧ JInv o' ∧
      ∀ k, lookupL o'.pairs k = (Spec.lastSet l k).or (lookupL o.pairs k)
  | [], o, h => ⟨o, rfl, h, by simp [Spec.lastSet]⟩
  | (k, v) :: l, o, h => by
    obtain ⟨o1, h1, hi1, hl1⟩ := jSet_spec h k v
    obtain ⟨o2, h2, hi2, hl2⟩ := jSets_spec l o1 hi1
    refine ⟨o2, by simp only [jSets, h1, h2], hi2, ?_⟩
    intro k'
    rw [hl2, hl1]
    unfold Spec.lastSet
    rw [List.reverse_cons, List.find?_append]
    cases List.find? (fun p => p.1 == k') l.reverse with
    | some p => simp
    | none =>
      by_cases hk : k' = k
      · subst hk; simp
      · have : ¬ k = k' := fun e => hk e.symm
        simp [hk, this]

end Pound
