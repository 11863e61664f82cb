import Verif.Proof.DynStep
import Verif.Spec.Srv

/-!
Proofs about dynamic backends made out of SRV records.
-/

namespace Pound

open Spec

/-! ### Groups of records -/

/-- The pairs of group and record in the order in which they are processed -/
def srvPairs (recs : List SrvRec) (sts : List SrvStat) : List (SrvStat × SrvRec) :=
  sts.flatMap fun st => ((recs.drop st.start).take st.count).map fun r => (st, r)

/-- All records, one after the other -/
def srvFold (k : Nat) : List (SrvStat × SrvRec) → SrvSt → SrvRes
  | [], s => .ok s
  | p :: rest, s =>
    match srvOne k p.1 s p.2 with
    | .ok s' => srvFold k rest s'
    | .ub => .ub
    | .abort => .abort

/-- One step after another -/
def srvBind : SrvRes → (SrvSt → SrvRes) → SrvRes
  | .ok s, f => f s
  | .ub, _ => .ub
  | .abort, _ => .abort

theorem srvFold_cons (k : Nat) (p : SrvStat × SrvRec) (l : List (SrvStat × SrvRec)) (s : SrvSt) : srvFold k (p :: l) s = srvBind (srvOne k p.1 s p.2) (srvFold k l) := by
  show (match srvOne k p.1 s p.2 with | .ok s' => srvFold k l s' | .ub => .ub | .abort => .abort) = _
  cases srvOne k p.1 s p.2 <;> rfl

theorem srvFold_append (k : Nat) (l l' : List (SrvStat × SrvRec)) : ∀ s, srvFold k (l ++ l') s = srvBind (srvFold k l s) (srvFold k l') := by
  induction l with
  | nil => intro s; rfl
  | cons p r ih =>
    intro s
    rw [List.cons_append, srvFold_cons, srvFold_cons]
    cases srvOne k p.1 s p.2 with
    | ok s' => exact ih s'
    | ub => rfl
    | abort => rfl

theorem srvGroup_fold (k : Nat) (st : SrvStat) (l : List SrvRec) : ∀ s, srvGroup k st l s = srvFold k (l.map fun r => (st, r)) s := by
  induction l with
  | nil => intro s; rfl
  | cons r rest ih =>
    intro s
    unfold srvGroup
    show _ = (match srvOne k st s r with | .ok s' => srvFold k (rest.map fun r => (st, r)) s' | .ub => .ub | .abort => .abort)
    cases srvOne k st s r with
    | ok s' => exact ih s'
    | ub => rfl
    | abort => rfl

theorem srvGroups_fold (k : Nat) (recs : List SrvRec) (sts : List SrvStat) : ∀ s, srvGroups k recs sts s = srvFold k (srvPairs recs sts) s := by
  induction sts with
  | nil => intro s; rfl
  | cons st rest ih =>
    intro s
    unfold srvGroups
    rw [show srvPairs recs (st :: rest) = ((recs.drop st.start).take st.count).map (fun r => (st, r)) ++ srvPairs recs rest from rfl, srvFold_append, srvGroup_fold]
    cases srvFold k _ s with
    | ok s' => exact ih s'
    | ub => rfl
    | abort => rfl

/-- What the groups collected so far are: consecutive parts of the records, each with the records of one priority. -/
structure StatsOk (recs : List SrvRec) (i : Nat) (acc : List SrvStat) : Prop where
  pairs : (srvPairs recs acc.reverse).map (·.2) = recs.take i
  last : ∀ g ∈ acc.head?, g.start + g.count = i
  none : acc = [] → i = 0
  prio : ∀ g ∈ acc, ∀ r ∈ (recs.drop g.start).take g.count, r.prio = g.prio
  maxw : ∀ g ∈ acc, (g.maxw = 0 ↔ ∀ r ∈ (recs.drop g.start).take g.count, r.weight = 0)

theorem take_drop_succ {α : Type} (l : List α) (a n : Nat) (r : α) (h : l[a + n]? = some r) : (l.drop a).take (n + 1) = (l.drop a).take n ++ [r] := by
  rw [List.take_succ]
  rw [List.getElem?_drop, h]
  rfl

theorem srvPairs_snoc (recs : List SrvRec) (l : List SrvStat) (g : SrvStat) :
    (srvPairs recs (l ++ [g])).map (·.2) = (srvPairs recs l).map (·.2) ++ (recs.drop g.start).take g.count := by
  unfold srvPairs
  rw [List.flatMap_append, List.map_append]
  congr 1
  simp [List.map_map, Function.comp_def]

theorem maxw_pos (w : Nat) : (if 0 < w then w else 0) = w := by split <;> omega

theorem stats_step {recs : List SrvRec} {i : Nat} {acc : List SrvStat} (h : StatsOk recs i acc) {r : SrvRec} (hr : recs[i]? = some r) :
    StatsOk recs (i + 1) (srvStatStep acc i r) := by
  have tk : recs.take (i + 1) = recs.take i ++ [r] := by rw [List.take_succ, hr]; rfl
  have one : ∀ j, recs[j]? = some r → (recs.drop j).take 1 = [r] := by
    intro j hj
    have := take_drop_succ recs j 0 r hj
    simpa using this
  unfold srvStatStep
  split
  · have hi := h.none rfl
    subst hi
    have o := one 0 hr
    refine ⟨?_, ?_, ?_, ?_, ?_⟩
    · rw [tk]
      show (srvPairs recs ([] ++ [_])).map (·.2) = _
      rw [srvPairs_snoc, o]
      rfl
    · intro g hg; simp at hg; subst hg; rfl
    · intro e; cases e
    · intro g hg
      simp only [List.mem_singleton] at hg
      subst hg
      dsimp only
      rw [o]
      intro x hx; simp only [List.mem_singleton] at hx; subst hx; rfl
    · intro g hg
      simp only [List.mem_singleton] at hg
      subst hg
      dsimp only
      rw [o, maxw_pos]
      simp
  · rename_i g rest
    have hl : g.start + g.count = i := h.last g (by simp)
    split
    · have o := one i hr
      refine ⟨?_, ?_, ?_, ?_, ?_⟩
      · rw [List.reverse_cons, srvPairs_snoc, h.pairs, tk]
        dsimp only
        rw [o]
      · intro g hg; simp at hg; subst hg; rfl
      · intro e; cases e
      · intro g' hg'
        rcases List.mem_cons.mp hg' with e | e
        · subst e
          dsimp only
          rw [o]
          intro x hx; simp only [List.mem_singleton] at hx; subst hx; rfl
        · exact h.prio g' e
      · intro g' hg'
        rcases List.mem_cons.mp hg' with e | e
        · subst e
          dsimp only
          rw [o, maxw_pos]
          simp
        · exact h.maxw g' e
    · rename_i hp
      have hp : g.prio = r.prio := by
        by_cases x : g.prio = r.prio
        · exact x
        · exact absurd x hp
      have o := take_drop_succ recs g.start g.count r (by rw [hl]; exact hr)
      refine ⟨?_, ?_, ?_, ?_, ?_⟩
      · have := h.pairs
        rw [List.reverse_cons, srvPairs_snoc] at this
        rw [List.reverse_cons, srvPairs_snoc]
        dsimp only
        rw [o, ← List.append_assoc, this, tk]
      · intro g' hg'; simp at hg'; subst hg'; dsimp only; omega
      · intro e; cases e
      · intro g' hg'
        rcases List.mem_cons.mp hg' with e | e
        · subst e
          dsimp only
          rw [o]
          intro x hx
          rcases List.mem_append.mp hx with y | y
          · exact h.prio g List.mem_cons_self x y
          · simp only [List.mem_singleton] at y; subst y; exact hp.symm
        · exact h.prio g' (List.mem_cons_of_mem _ e)
      · intro g' hg'
        rcases List.mem_cons.mp hg' with e | e
        · subst e
          dsimp only
          rw [o]
          have hm := h.maxw g List.mem_cons_self
          constructor
          · intro e0 x hx
            have : g.maxw = 0 ∧ r.weight = 0 := by split at e0 <;> omega
            rcases List.mem_append.mp hx with y | y
            · exact hm.mp this.1 x y
            · simp only [List.mem_singleton] at y; subst y; exact this.2
          · intro a
            have h1 := hm.mpr fun x hx => a x (List.mem_append_left _ hx)
            have h2 := a r (List.mem_append_right _ (List.mem_singleton.mpr rfl))
            rw [h1, h2]; rfl
        · exact h.maxw g' (List.mem_cons_of_mem _ e)

theorem stats_loop {recs : List SrvRec} : ∀ (l : List SrvRec) (i : Nat) (acc : List SrvStat), recs.drop i = l → StatsOk recs i acc → i ≤ recs.length →
    StatsOk recs recs.length (srvStatLoop acc i l) := by
  intro l
  induction l with
  | nil =>
    intro i acc hd h hi
    have : i = recs.length := by
      have := List.drop_eq_nil_iff.mp hd
      omega
    subst this
    exact h
  | cons r rest ih =>
    intro i acc hd h hi
    have hr : recs[i]? = some r := by
      have := List.getElem?_drop (xs := recs) (i := i) (j := 0)
      rw [hd] at this
      simpa using this.symm
    have hlt : i < recs.length := by
      rcases Nat.lt_or_ge i recs.length with x | x
      · exact x
      · rw [List.drop_eq_nil_iff.mpr x] at hd; cases hd
    unfold srvStatLoop
    refine ih (i + 1) _ ?_ (stats_step h hr) hlt
    rw [← List.drop_drop, hd]
    rfl

theorem stats_ok (recs : List SrvRec) : StatsOk recs recs.length (srvStatLoop [] 0 recs) := by
  refine stats_loop recs 0 [] rfl ⟨?_, ?_, ?_, ?_, ?_⟩ (Nat.zero_le _)
  · rfl
  · intro g hg; cases hg
  · intro _; rfl
  · intro g hg; cases hg
  · intro g hg; cases hg

/-- Records are processed in their order. -/
theorem srvPairs_recs (recs : List SrvRec) : (srvPairs recs (srvStats recs)).map (·.2) = recs := by
  have := (stats_ok recs).pairs
  rw [List.take_length] at this
  exact this

theorem mem_pairs {recs : List SrvRec} {sts : List SrvStat} {p : SrvStat × SrvRec} : p ∈ srvPairs recs sts ↔ p.1 ∈ sts ∧ p.2 ∈ (recs.drop p.1.start).take p.1.count := by
  unfold srvPairs
  rw [List.mem_flatMap]
  constructor
  · rintro ⟨st, hst, hp⟩
    obtain ⟨r, hr, rfl⟩ := List.mem_map.mp hp
    exact ⟨hst, hr⟩
  · rintro ⟨h1, h2⟩
    exact ⟨p.1, h1, List.mem_map.mpr ⟨p.2, h2, rfl⟩⟩

theorem srvCmp_prio {casecmp : Bytes → Bytes → Int} {a b : SrvRec} (h : srvCmp casecmp a b ≤ 0) : a.prio ≤ b.prio := by
  unfold srvCmp at h
  dsimp only at h
  split at h
  · rename_i e; omega
  · omega

theorem stat_prios {recs : List SrvRec} (hs : recs.Pairwise fun a b => a.prio ≤ b.prio) : ∀ (l : List SrvRec) (i : Nat) (acc : List SrvStat),
    recs.drop i = l → (∀ g ∈ acc.head?, ∃ r ∈ recs.take i, r.prio = g.prio) → acc.Pairwise (fun a b => b.prio < a.prio) →
    (srvStatLoop acc i l).Pairwise (fun a b => b.prio < a.prio) := by
  intro l
  induction l with
  | nil => intro i acc _ _ h; exact h
  | cons r rest ih =>
    intro i acc hd hg h
    have hr : recs[i]? = some r := by
      have := List.getElem?_drop (xs := recs) (i := i) (j := 0)
      rw [hd] at this
      simpa using this.symm
    have tk : recs.take (i + 1) = recs.take i ++ [r] := by rw [List.take_succ, hr]; rfl
    have hle : ∀ x ∈ recs.take i, x.prio ≤ r.prio := by
      intro x hx
      have : (recs.take i ++ recs.drop i).Pairwise fun a b => a.prio ≤ b.prio := by rw [List.take_append_drop]; exact hs
      rw [hd] at this
      exact (List.pairwise_append.mp this).2.2 x hx r List.mem_cons_self
    unfold srvStatLoop
    refine ih (i + 1) _ (by rw [← List.drop_drop, hd]; rfl) ?_ ?_
    · intro g hgm
      refine ⟨r, by rw [tk]; simp, ?_⟩
      unfold srvStatStep at hgm
      split at hgm
      · simp at hgm; subst hgm; rfl
      · split at hgm
        · simp at hgm; subst hgm; rfl
        · rename_i hp
          simp at hgm; subst hgm
          dsimp only
          by_cases x : r.prio = (‹SrvStat›).prio
          · exact x
          · exact absurd (Ne.symm x) hp
    · unfold srvStatStep
      split
      · exact List.pairwise_singleton _ _
      · rename_i g tl
        split
        · rename_i hp
          refine List.pairwise_cons.mpr ⟨?_, h⟩
          obtain ⟨x, hx, hxp⟩ := hg g (by simp)
          have := hle x hx
          have hlt : g.prio < r.prio := by omega
          intro b hb
          rcases List.mem_cons.mp hb with e | e
          · subst e; exact hlt
          · have := (List.pairwise_cons.mp h).1 b e
            show b.prio < r.prio
            omega
        · have := List.pairwise_cons.mp h
          exact List.pairwise_cons.mpr ⟨this.1, this.2⟩

/-- The priority a record is processed with is the documented one. -/
theorem pairs_weight {recs : List SrvRec} (hs : recs.Pairwise fun a b => a.prio ≤ b.prio) {p : SrvStat × SrvRec} (hp : p ∈ srvPairs recs (srvStats recs)) (x : SrvMtx) :
    WeightOf x.ignore x.prio recs p.2 (srvPrio x p.1 p.2) := by
  obtain ⟨h1, h2⟩ := mem_pairs.mp hp
  have ok := stats_ok recs
  have h1' : p.1 ∈ srvStatLoop [] 0 recs := List.mem_reverse.mp h1
  have hd := stat_prios hs recs 0 [] rfl (by intro g hg; cases hg) List.Pairwise.nil
  have hpp : p.2.prio = p.1.prio := ok.prio _ h1' _ h2
  have key : p.1.maxw = 0 ↔ ∀ r' ∈ recs, r'.prio = p.2.prio → r'.weight = 0 := by
    rw [ok.maxw _ h1']
    constructor
    · intro a r' hr' hpr
      rw [← srvPairs_recs recs] at hr'
      obtain ⟨q, hq, rfl⟩ := List.mem_map.mp hr'
      obtain ⟨g1, g2⟩ := mem_pairs.mp hq
      have g1' : q.1 ∈ srvStatLoop [] 0 recs := List.mem_reverse.mp g1
      have hqq : q.2.prio = q.1.prio := ok.prio _ g1' _ g2
      have hpe : q.1.prio = p.1.prio := by rw [← hqq, hpr, hpp]
      have : q.1 = p.1 := by
        have hn := hd
        clear ok hqq
        generalize srvStatLoop [] 0 recs = acc at h1' g1' hn
        clear h1 g1
        induction acc with
        | nil => cases h1'
        | cons g r ih =>
          have hn' := List.pairwise_cons.mp hn
          rcases List.mem_cons.mp h1' with e | e <;> rcases List.mem_cons.mp g1' with e' | e'
          · rw [e, e']
          · have := hn'.1 _ e'; rw [← e] at this; omega
          · have := hn'.1 _ e; rw [← e'] at this; omega
          · exact ih e e' hn'.2
      rw [this] at g2
      exact a _ g2
    · intro a r hr
      have : r ∈ recs := List.mem_of_mem_drop (List.mem_of_mem_take hr)
      exact a r this ((ok.prio _ h1' _ hr).trans hpp.symm)
  unfold WeightOf srvPrio
  split
  · rfl
  · constructor
    · intro a
      rw [if_pos (key.mpr a)]
    · rintro ⟨r', hr', e1, e2⟩
      rw [if_neg fun x => e2 (key.mp x r' hr' e1)]

end Pound
