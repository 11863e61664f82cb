import Verif.Proof.HashTab

/-!
C100: Look-ups in tables find exactly what was added.  Model: /verif/lean/Verif/Model/HashTab.lean.
-/

namespace Pound.Props
open Pound Spec

/-- The comparisons of all tables are equalities, and keys that are equal have equal hash values: names of headers and aliases that differ in letter case, addresses,
host names with ports, and names and keys compared as they are. -/
theorem C100_hash : (∀ (h : Bytes → UInt64), Equality (plainNames h).same ∧ ∀ a b, (plainNames h).same a b = true → (plainNames h).hash a = (plainNames h).hash b) ∧
    (Equality headerNames.same ∧ ∀ a b, headerNames.same a b = true → headerNames.hash a = headerNames.hash b) ∧
    (Equality cnameRefs.same ∧ ∀ a b, cnameRefs.same a b = true → cnameRefs.hash a = cnameRefs.hash b) ∧
    (Equality backendsTab.same ∧ ∀ a b, backendsTab.same a b = true → backendsTab.hash a = backendsTab.hash b) :=
  ⟨fun h => ⟨(good_plainNames h).eqv, fun _ _ => (good_plainNames h).hash⟩, ⟨good_headerNames.eqv, fun _ _ => good_headerNames.hash⟩,
    ⟨good_cnameRefs.eqv, fun _ _ => good_cnameRefs.hash⟩, ⟨good_backendsTab.eqv, fun _ _ => good_backendsTab.hash⟩⟩

example : strhashCi b!"Accept-Encoding" = strhashCi b!"aCCEPT-eNCODING" ∧ strhashCi b!"Accept" ≠ strhashCi b!"Accept-Encoding" := by decide +kernel
example : beHash (.host b!"WWW.example.com" 0 80) = beHash (.host b!"www.Example.COM" 0 80) ∧ beHash (.addr [127, 0, 0, 1]) ≠ beHash (.addr [127, 0, 0, 2]) := by
  decide +kernel

/-- In every table whose hash values agree with its comparison, after every history of additions, removals and rearrangements of the nodes, each look-up gives the value
added last under an equal key unless it was removed, and no operation touches memory that was released.  The entry replaced is the one released, or nothing is added
under a key that is present. -/
theorem C100_table_partial {κ ν : Type} (K : TabKind κ) (hs : Equality K.same) (hh : ∀ a b, K.same a b = true → K.hash a = K.hash b) (d : DupRule) (fresh : Bool)
    (hd : d = .freeOld ∨ fresh = true) (hist : List (TabOp κ ν)) (s : TabSt κ ν) (h : TabRun K d fresh hist s) (k : κ) :
    tabGet K s k = .ok (lastAdded K.same hist k) ∧
    (∃ s', tabDel K s k = .ok s') ∧
    ((d = .freeOld ∨ lastAdded K.same hist k = none) → ∀ v, ∃ s', tabAdd K d s k v = .ok ((lastAdded K.same hist k).isSome, s')) := by
  have hK : GoodKind K := ⟨hs, fun {a b} e => hh a b e⟩
  have inv := tabRun_inv hK hd h
  refine ⟨tabGet_inv hK inv k, ?_, ?_⟩
  · obtain ⟨s', h1, -⟩ := tabDel_inv hK inv k
    exact ⟨s', h1⟩
  · intro hd v
    obtain ⟨s', h1, -⟩ := tabAdd_inv hK inv k v hd
    exact ⟨s', h1⟩

/-- Two sessions, one of them replaced, the other one removed -/
def exSessTab : TabSt Bytes Nat :=
  let K := plainNames strhashCi
  match tabAdd K .freeOld { } b!"k1" 1 with
  | .ok (_, s) =>
    match tabAdd K .freeOld s b!"k2" 2 with
    | .ok (_, s) =>
      match tabAdd K .freeOld s b!"k1" 3 with
      | .ok (_, s) =>
        match tabDel K s b!"k2" with
        | .ok s => s
        | .ub => { }
      | .ub => { }
    | .ub => { }
  | .ub => { }

example : TabRun (plainNames strhashCi) .freeOld false [.del b!"k2", .add b!"k1" 3, .add b!"k2" 2, .add b!"k1" 1] exSessTab :=
  .del (.add (dup := true) (.add (dup := false) (.add (dup := false) .start (by simp) rfl) (by simp) rfl) (by simp) rfl) rfl
example : tabGet (plainNames strhashCi) exSessTab b!"k1" = .ok (some 3) ∧ tabGet (plainNames strhashCi) exSessTab b!"k2" = .ok none := by decide +kernel

theorem combineAdd_inv : ∀ (names : List Bytes) (hist : List (TabOp Bytes Unit)) (s : TabSt Bytes Unit), TabInv headerNames hist s →
    (∀ n ∈ names, lastAdded headerNames.same hist n = none) → names.Pairwise (fun a b => ciEq a b = false) →
    ∃ s', combineAdd s names = .ok s' ∧ TabInv headerNames ((names.map fun n => TabOp.add n ()).reverse ++ hist) s'
  | [], hist, s, h, _, _ => ⟨s, rfl, h⟩
  | n :: r, hist, s, h, hn, hp => by
    have hn0 := hn n List.mem_cons_self
    obtain ⟨s1, h1, h2⟩ := tabAdd_inv good_headerNames (d := .freeNew) h n () (Or.inr hn0)
    rw [List.pairwise_cons] at hp
    obtain ⟨s2, h3, h4⟩ := combineAdd_inv r (.add n () :: hist) s1 h2 (by
      intro m hm
      have := hp.1 m hm
      simp only [lastAdded, headerNames, this, Bool.and_false, Bool.false_eq_true, if_false]
      exact hn m (List.mem_cons_of_mem _ hm)) hp.2
    refine ⟨s2, ?_, ?_⟩
    · unfold combineAdd
      rw [h1]
      exact h3
    · simpa using h4

theorem lastAdded_adds (names : List Bytes) (x : Bytes) : ∀ (hist : List (TabOp Bytes Unit)),
    (lastAdded headerNames.same ((names.map fun n => TabOp.add n ()).reverse ++ hist) x).isSome = (names.any (fun n => ciEq n x) || (lastAdded headerNames.same hist x).isSome) := by
  induction names with
  | nil => intro hist; simp
  | cons n r ih =>
    intro hist
    have := ih (.add n () :: hist)
    simp only [List.map_cons, List.reverse_cons, List.append_assoc, List.singleton_append, List.any_cons]
    rw [this]
    have hs : headerNames.same n x = ciEq n x := by
      unfold headerNames
      dsimp only
      cases hc : ciEq n x with
      | false => simp
      | true =>
        have : n.length = x.length := by
          have h' : n.map toLower = x.map toLower := by simpa [ciEq] using hc
          simpa using congrArg List.length h'
        simp [this]
    simp only [lastAdded, hs]
    cases ciEq n x <;> cases List.any r fun n => ciEq n x <;> simp

theorem tabInv_start : TabInv headerNames ([] : List (TabOp Bytes Unit)) { } := ⟨by simp, by simp [lastAdded], by simp⟩

/-- A header is combined exactly if its name is in CombineHeaders, whatever its letter case: for all lists of names without repetition, and all headers. -/
theorem C100_combine_partial (names : List Bytes) (hd : names.Pairwise (fun a b => ciEq a b = false)) (h : Header) :
    combineFind names h.name = .ok (isCombinable names h) := by
  obtain ⟨s, h1, h2⟩ := combineAdd_inv names [] { } tabInv_start (by simp [lastAdded]) hd
  unfold combineFind isCombinable
  rw [h1]
  dsimp only
  rw [tabGet_inv good_headerNames h2]
  dsimp only
  rw [lastAdded_adds]
  simp [lastAdded]

example : combineFind [b!"Accept", b!"Forwarded"] b!"ACCEPT" = .ok true ∧ combineFind [b!"Accept", b!"Forwarded"] b!"Host" = .ok false := by decide +kernel

theorem combineAdd_dup : ∀ (names : List Bytes) (hist : List (TabOp Bytes Unit)) (s : TabSt Bytes Unit), TabInv headerNames hist s →
    ¬ ((∀ n ∈ names, lastAdded headerNames.same hist n = none) ∧ names.Pairwise (fun a b => ciEq a b = false)) →
    ∃ n ∈ names, ∀ s', combineAdd s names = .ok s' → Poisoned headerNames n s'
  | [], hist, s, _, hc => absurd ⟨by simp, by simp⟩ hc
  | n :: r, hist, s, h, hc => by
    cases hn : lastAdded headerNames.same hist n with
    | some v =>
      refine ⟨n, List.mem_cons_self, ?_⟩
      intro s' ha
      unfold combineAdd at ha
      cases hadd : tabAdd headerNames .freeNew s n () with
      | ub => rw [hadd] at ha; cases ha
      | ok x =>
        obtain ⟨dup, s1⟩ := x
        rw [hadd] at ha
        exact combineAdd_poisoned r s1 s' (tabAdd_dup good_headerNames h (by rw [hn]; rfl) hadd) ha
    | none =>
      obtain ⟨s1, h1, h2⟩ := tabAdd_inv good_headerNames (d := .freeNew) h n () (Or.inr hn)
      obtain ⟨m, hm, hp⟩ := combineAdd_dup r (.add n () :: hist) s1 h2 (by
        rintro ⟨i1, i2⟩
        apply hc
        have hne : ∀ m ∈ r, ciEq n m = false ∧ lastAdded headerNames.same hist m = none := by
          intro m hm
          have := i1 m hm
          unfold lastAdded at this
          split at this
          · cases this
          · rename_i hs
            refine ⟨?_, this⟩
            cases hc : ciEq n m with
            | false => rfl
            | true =>
              have hl : n.length = m.length := by
                have h' : n.map toLower = m.map toLower := by simpa [ciEq] using hc
                simpa using congrArg List.length h'
              exact absurd (by simp [headerNames, hl, hc]) hs
        refine ⟨?_, List.pairwise_cons.mpr ⟨fun m hm => (hne m hm).1, i2⟩⟩
        intro m hm
        rcases List.mem_cons.mp hm with rfl | hm
        · exact hn
        · exact (hne m hm).2)
      refine ⟨m, List.mem_cons_of_mem _ hm, ?_⟩
      intro s' ha
      unfold combineAdd at ha
      rw [h1] at ha
      exact hp s' ha

/-- Defect: if a name occurs twice in CombineHeaders, in whatever letter case, then there is a name for which every message with a header of that name makes the server use
memory that was released: the entry that was stored is released, instead of the one it replaces.  So look-ups are safe exactly for lists without repetition. -/
theorem C100_combine_fails (names : List Bytes) : (¬ names.Pairwise (fun a b => ciEq a b = false) →
      ∃ n ∈ names, ∀ x, ciEq n x = true → combineFind names x = .ub) ∧
    ((∀ x, combineFind names x ≠ .ub) ↔ names.Pairwise (fun a b => ciEq a b = false)) := by
  have key : ¬ names.Pairwise (fun a b => ciEq a b = false) → ∃ n ∈ names, ∀ x, ciEq n x = true → combineFind names x = .ub := by
    intro hd
    obtain ⟨n, hn, hp⟩ := combineAdd_dup names [] { } tabInv_start (fun hc => hd hc.2)
    refine ⟨n, hn, ?_⟩
    intro x hx
    unfold combineFind
    cases ha : combineAdd { } names with
    | ub => rfl
    | ok s =>
      dsimp only
      have hl : n.length = x.length := by
        have h' : n.map toLower = x.map toLower := by simpa [ciEq] using hx
        simpa using congrArg List.length h'
      rw [tabGet_poisoned good_headerNames (hp s ha) (by simp [headerNames, hl, hx])]
  refine ⟨key, ?_, ?_⟩
  · intro h
    apply Classical.byContradiction
    intro hd
    obtain ⟨n, -, hn⟩ := key hd
    exact h n (hn n (ciEq_refl n))
  · intro hd x hx
    obtain ⟨s, h1, h2⟩ := combineAdd_inv names [] { } tabInv_start (by simp [lastAdded]) hd
    unfold combineFind at hx
    rw [h1] at hx
    dsimp only at hx
    rw [tabGet_inv good_headerNames h2] at hx
    cases hx

/-- With the names of the manual, and one of them added again in a second section -/
theorem C100_combine_twice_fails : combineFind [b!"Accept", b!"Allow", b!"Forwarded", b!"accept"] b!"Accept" = .ub := by decide +kernel

end Pound.Props
