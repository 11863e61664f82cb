import Verif.Model.Balance
import Verif.Spec.Balance
import Verif.Proof.Session

/-! Lemmas on balancing. -/

namespace Pound
open Spec

theorem isActive_iff (b : Be) : b.isActive = true ↔ Active b := by
  unfold Be.isActive Be.isAlive Active
  cases b.disabled <;> cases b.alive <;> cases h : b.type <;> simp

theorem isActive_decide (b : Be) : b.isActive = decide (Active b) := by
  rw [Bool.eq_iff_iff, isActive_iff]; simp

/-! ### Random selection -/

theorem rangeMin_eq {m : Nat} (h0 : 0 < m) (h : m ≤ 2 ^ 64) : rangeMin m = 2 ^ 64 % m := by
  unfold rangeMin
  have : (2 ^ 64 - m) % 2 ^ 64 = 2 ^ 64 - m := Nat.mod_eq_of_lt (by omega)
  rw [this]
  rw [← Nat.add_mod_right (2 ^ 64 - m) m, Nat.sub_add_cancel h]

theorem randomLoop_lt {m : Nat} (h0 : 0 < m) : ∀ {rs v}, randomLoop m rs = some v → v < m
  | [], _, h => by simp [randomLoop] at h
  | r :: t, v, h => by
    unfold randomLoop at h
    split at h
    · exact randomLoop_lt h0 h
    · cases h; exact Nat.mod_lt _ h0

theorem randomLoop_some {m : Nat} : ∀ {rs : List Nat}, (∃ r ∈ rs, rangeMin m ≤ r) → ∃ v, randomLoop m rs = some v
  | [], h => by obtain ⟨_, h, _⟩ := h; simp at h
  | r :: t, h => by
    unfold randomLoop
    split
    · rename_i hl
      obtain ⟨x, hx, hr⟩ := h
      rcases List.mem_cons.1 hx with rfl | hx
      · omega
      · exact randomLoop_some ⟨x, hx, hr⟩
    · exact ⟨_, rfl⟩

theorem randomInRange_lt {m : Nat} (h0 : 0 < m) {rs v} (h : randomInRange m rs = some v) : v < m := by
  unfold randomInRange at h
  split at h
  · cases h; omega
  · exact randomLoop_lt h0 h

theorem randomInRange_some {m : Nat} (hm : m ≤ 2 ^ 64) {rs} (h : Usable m rs) : ∃ v, randomInRange m rs = some v := by
  unfold randomInRange
  split
  · exact ⟨_, rfl⟩
  · rename_i hl
    refine randomLoop_some ?_
    rw [rangeMin_eq (by omega) hm]
    rcases h with h | h
    · exact absurd h hl
    · exact h

theorem randPick_active : ∀ {l : List Be} {pri : Int} {b}, randPick pri l = some b → Active b ∧ b ∈ l
  | [], _, _, h => by simp [randPick] at h
  | x :: t, pri, b, h => by
    unfold randPick at h
    split at h
    · rename_i ha
      split at h
      · cases h; exact ⟨(isActive_iff _).1 ha, List.mem_cons_self ..⟩
      · have := randPick_active h; exact ⟨this.1, List.mem_cons_of_mem _ this.2⟩
    · have := randPick_active h; exact ⟨this.1, List.mem_cons_of_mem _ this.2⟩

theorem prioSum_cons (b : Be) (l : List Be) : prioSum (b :: l) = (if Active b then b.prio else 0) + prioSum l := by
  unfold prioSum actives
  by_cases h : Active b <;> simp [h]

theorem prioMax_cons (b : Be) (l : List Be) : prioMax (b :: l) = if Active b then max b.prio (prioMax l) else prioMax l := by
  unfold prioMax actives
  by_cases h : Active b <;> simp [h]

/-- For each backend, the interval of values that choose it. -/
theorem randPick_some : ∀ {l : List Be} {v : Nat}, v < prioSum l → ∃ b, randPick (v : Int) l = some b
  | [], v, h => by simp [prioSum, actives] at h
  | b :: t, v, h => by
    rw [prioSum_cons] at h
    unfold randPick
    rw [isActive_decide]
    by_cases ha : Active b
    · rw [if_pos ha] at h
      rw [if_pos (decide_eq_true ha)]
      by_cases hv : v < b.prio
      · rw [if_pos (by omega)]; exact ⟨_, rfl⟩
      · rw [if_neg (by omega)]
        have : (v : Int) - b.prio = ((v - b.prio : Nat) : Int) := by omega
        rw [this]; exact randPick_some (by omega)
    · rw [if_neg ha] at h
      rw [if_neg (by simpa using ha)]
      exact randPick_some (by omega)

theorem range_add_map (a b : Nat) : List.range (a + b) = List.range a ++ (List.range b).map (a + ·) :=
  List.range_add ..

/-- How many of the values below the sum choose a given backend. -/
theorem randPick_count : ∀ {l : List Be}, l.Nodup → ∀ {b}, b ∈ l →
    ((List.range (prioSum l)).filter fun v => decide (randPick ((v : Nat) : Int) l = some b)).length =
      if Active b then b.prio else 0
  | [], _, _, h => by simp at h
  | x :: t, hn, b, hb => by
    have hn' := List.nodup_cons.1 hn
    rw [prioSum_cons]
    by_cases hx : Active x
    · rw [if_pos hx, range_add_map, List.filter_append, List.length_append, List.filter_map, List.length_map]
      have h1 : ∀ v ∈ List.range x.prio, randPick ((v : Nat) : Int) (x :: t) = some x := by
        intro v hv
        have := List.mem_range.1 hv
        unfold randPick
        rw [if_pos ((isActive_iff _).2 hx), if_pos (by omega)]
      have h2 : ∀ v, randPick (((x.prio + v : Nat)) : Int) (x :: t) = randPick ((v : Nat) : Int) t := by
        intro v
        conv => lhs; unfold randPick
        rw [if_pos ((isActive_iff _).2 hx), if_neg (by omega)]
        congr 1; omega
      have e1 : (List.range x.prio).filter (fun v => decide (randPick ((v : Nat) : Int) (x :: t) = some b)) =
          if x = b then List.range x.prio else [] := by
        split
        · rename_i h
          refine List.filter_eq_self.2 fun v hv => ?_
          rw [h1 v hv, h]; simp
        · rename_i h
          refine List.filter_eq_nil_iff.2 fun v hv => ?_
          rw [h1 v hv]; simpa using h
      have e2 : ((fun v => decide (randPick ((v : Nat) : Int) (x :: t) = some b)) ∘ (x.prio + ·)) =
          fun v => decide (randPick ((v : Nat) : Int) t = some b) := by
        funext v; simp only [Function.comp]; rw [h2]
      rw [e1, e2]
      rcases List.mem_cons.1 hb with rfl | hb'
      · rw [if_pos rfl, if_pos hx]
        have : (List.range (prioSum t)).filter (fun v => decide (randPick ((v : Nat) : Int) t = some b)) = [] := by
          refine List.filter_eq_nil_iff.2 fun v _ => ?_
          simp only [decide_eq_true_eq]
          intro h; exact hn'.1 (randPick_active h).2
        rw [this]; simp
      · rw [if_neg (by rintro rfl; exact hn'.1 hb')]
        simpa using randPick_count hn'.2 hb'
    · rw [if_neg hx, Nat.zero_add]
      have h2 : ∀ v : Nat, randPick ((v : Nat) : Int) (x :: t) = randPick ((v : Nat) : Int) t := by
        intro v
        conv => lhs; unfold randPick
        rw [if_neg (by rw [isActive_iff]; exact hx)]
      simp only [h2]
      rcases List.mem_cons.1 hb with rfl | hb'
      · rw [if_neg hx]
        have : (List.range (prioSum t)).filter (fun v => decide (randPick ((v : Nat) : Int) t = some b)) = [] := by
          refine List.filter_eq_nil_iff.2 fun v _ => ?_
          simp only [decide_eq_true_eq]
          intro h; exact hn'.1 (randPick_active h).2
        rw [this]; rfl
      · exact randPick_count hn'.2 hb'

/-! ### Weighted round robin -/

theorem iwrrNext_backends (bal : Bal) (i : Nat) : (bal.iwrrNext i).backends = bal.backends := by
  unfold Bal.iwrrNext; split <;> rfl
theorem iwrrNext_maxPri (bal : Bal) (i : Nat) : (bal.iwrrNext i).maxPri = bal.maxPri := by
  unfold Bal.iwrrNext; split <;> rfl

/-- The parts of a balancer that selections do not change. -/
def SameBal (a b : Bal) : Prop :=
  a.algo = b.algo ∧ a.weight = b.weight ∧ a.actNum = b.actNum ∧ a.backends = b.backends ∧ a.sumPri = b.sumPri ∧
    a.maxPri = b.maxPri

theorem SameBal.refl (a : Bal) : SameBal a a := ⟨rfl, rfl, rfl, rfl, rfl, rfl⟩
theorem SameBal.trans {a b c : Bal} (h : SameBal a b) (h' : SameBal b c) : SameBal a c := by
  obtain ⟨h1, h2, h3, h4, h5, h6⟩ := h
  obtain ⟨k1, k2, k3, k4, k5, k6⟩ := h'
  exact ⟨h1.trans k1, h2.trans k2, h3.trans k3, h4.trans k4, h5.trans k5, h6.trans k6⟩

theorem SameBal.symm {a b : Bal} (h : SameBal a b) : SameBal b a := by
  obtain ⟨h1, h2, h3, h4, h5, h6⟩ := h
  exact ⟨h1.symm, h2.symm, h3.symm, h4.symm, h5.symm, h6.symm⟩

theorem sameBal_next (bal : Bal) (i : Nat) : SameBal bal (bal.iwrrNext i) := by
  unfold Bal.iwrrNext; split <;> exact ⟨rfl, rfl, rfl, rfl, rfl, rfl⟩

theorem sameBal_init (bal : Bal) : SameBal bal bal.iwrrInit := by
  unfold Bal.iwrrInit; exact ⟨rfl, rfl, rfl, rfl, rfl, rfl⟩

theorem cursorOk_next (bal : Bal) {i : Nat} (h : i < bal.backends.length) : CursorOk (bal.iwrrNext i) := by
  intro j hj
  unfold Bal.iwrrNext at hj ⊢
  split at hj
  · rename_i hl; cases hj; rw [if_pos hl]; exact hl
  · rename_i hl; cases hj; rw [if_neg hl]; exact Nat.lt_of_le_of_lt (Nat.zero_le _) h

theorem iwrrLoop_sound : ∀ {n : Nat} {bal : Bal} {ob bal'}, CursorOk bal → iwrrLoop n bal = .done ob bal' →
    SameBal bal bal' ∧ CursorOk bal' ∧ ∃ b, ob = some b ∧ Active b ∧ b ∈ bal.backends
  | 0, _, _, _, _, h => by simp [iwrrLoop] at h
  | n + 1, bal, ob, bal', hc, h => by
    unfold iwrrLoop at h
    split at h
    · cases h
    · rename_i i hi
      have hlt := hc i hi
      split at h
      · cases h
      · rename_i b hb
        split at h
        · rename_i ha
          cases h
          refine ⟨sameBal_next _ _, cursorOk_next _ hlt, b, rfl, ?_, List.mem_of_getElem? hb⟩
          exact (isActive_iff _).1 (by simp at ha; exact ha.1)
        · have := iwrrLoop_sound (cursorOk_next _ hlt) h
          refine ⟨(sameBal_next _ _).trans this.1, this.2.1, ?_⟩
          have h2 := this.2.2
          rw [iwrrNext_backends] at h2; exact h2

theorem iwrrLoop_no_ub : ∀ {n : Nat} {bal : Bal}, bal.cur ≠ none → CursorOk bal → iwrrLoop n bal ≠ .ub
  | 0, _, _, _ => by simp [iwrrLoop]
  | n + 1, bal, hn, hc => by
    unfold iwrrLoop
    split
    · rename_i h; exact absurd h hn
    · rename_i i hi
      have hlt := hc i hi
      split
      · rename_i hb; rw [List.getElem?_eq_none_iff] at hb; omega
      · split
        · simp
        · refine iwrrLoop_no_ub ?_ (cursorOk_next _ hlt)
          unfold Bal.iwrrNext; split <;> simp

/-- One step of the loop: what it meets, and the next state. -/
def hitAt (bal : Bal) : Option Be :=
  match bal.cur with
  | none => none
  | some i =>
    match bal.backends[i]? with
    | none => none
    | some b => if b.isActive && decide (bal.round < b.prio) then some b else none

/-- The next state. -/
def nextOf (bal : Bal) : Bal :=
  match bal.cur with
  | none => bal
  | some i => bal.iwrrNext i

/-- What the first steps meet. -/
def hits : Nat → Bal → List Be
  | 0, _ => []
  | n + 1, bal => (hitAt bal).toList ++ hits n (nextOf bal)

/-- A state in which the loop can run. -/
def Ready (bal : Bal) : Prop := ∃ i, bal.cur = some i ∧ i < bal.backends.length

theorem Ready.next {bal : Bal} (h : Ready bal) : Ready (nextOf bal) := by
  obtain ⟨i, hi, hl⟩ := h
  unfold nextOf; rw [hi]
  show Ready (bal.iwrrNext i)
  unfold Bal.iwrrNext Ready
  split
  · rename_i h; exact ⟨_, rfl, h⟩
  · exact ⟨0, rfl, Nat.lt_of_le_of_lt (Nat.zero_le _) hl⟩

theorem Ready.cursor {bal : Bal} (h : Ready bal) : CursorOk bal := by
  obtain ⟨i, hi, hl⟩ := h
  intro j hj; rw [hi] at hj; cases hj; exact hl

theorem iwrrLoop_step {n : Nat} {bal : Bal} (h : Ready bal) : iwrrLoop (n + 1) bal =
    match hitAt bal with
    | some b => .done (some b) (nextOf bal)
    | none => iwrrLoop n (nextOf bal) := by
  obtain ⟨i, hi, hl⟩ := h
  have hb : bal.backends[i]? = some (bal.backends[i]) := List.getElem?_eq_getElem hl
  conv => lhs; unfold iwrrLoop
  unfold hitAt nextOf
  rw [hi]; dsimp only; rw [hb]; dsimp only
  split <;> rfl

theorem nextOf_same {bal : Bal} : SameBal bal (nextOf bal) := by
  unfold nextOf; split
  · exact .refl _
  · exact sameBal_next _ _

/-- The state after some steps. -/
def stepN : Nat → Bal → Bal
  | 0, bal => bal
  | n + 1, bal => stepN n (nextOf bal)

theorem Ready.stepN {bal : Bal} (h : Ready bal) : ∀ n, Ready (stepN n bal)
  | 0 => h
  | n + 1 => (Ready.next h).stepN n

theorem hits_add : ∀ (m n : Nat) (bal : Bal), hits (m + n) bal = hits m bal ++ hits n (stepN m bal)
  | 0, n, bal => by simp [hits, stepN]
  | m + 1, n, bal => by
    have : m + 1 + n = (m + n) + 1 := by omega
    rw [this]; simp only [hits, stepN, hits_add m n, List.append_assoc]

/-- The loop stops at the first hit. -/
theorem iwrrLoop_hits : ∀ {m : Nat} {bal : Bal} {b t}, Ready bal → hits m bal = b :: t →
    ∃ j, j < m ∧ (∀ n, m ≤ n → iwrrLoop n bal = .done (some b) (stepN (j + 1) bal)) ∧ t = hits (m - (j + 1)) (stepN (j + 1) bal)
  | 0, _, _, _, _, h => by simp [hits] at h
  | m + 1, bal, b, t, hr, h => by
    unfold hits at h
    cases hh : hitAt bal with
    | some x =>
      rw [hh] at h
      simp at h
      refine ⟨0, by omega, fun n hn => ?_, ?_⟩
      · obtain ⟨n, rfl⟩ : ∃ k, n = k + 1 := ⟨n - 1, by omega⟩
        rw [iwrrLoop_step hr, hh]
        simp [stepN, h.1]
      · simp [stepN, h.2]
    | none =>
      rw [hh] at h
      simp at h
      obtain ⟨j, hj, h1, h2⟩ := iwrrLoop_hits (Ready.next hr) h
      refine ⟨j + 1, by omega, fun n hn => ?_, ?_⟩
      · obtain ⟨n, rfl⟩ : ∃ k, n = k + 1 := ⟨n - 1, by omega⟩
        rw [iwrrLoop_step hr, hh]
        exact h1 n (by omega)
      · rw [h2]
        have : m + 1 - (j + 1 + 1) = m - (j + 1) := by omega
        rw [this]; rfl

/-- Without a hit, the loop goes on for ever. -/
theorem iwrrLoop_more : ∀ {n : Nat} {bal : Bal}, Ready bal → (∀ m, hitAt (stepN m bal) = none) → iwrrLoop n bal = .more
  | 0, _, _, _ => rfl
  | n + 1, bal, hr, h => by
    rw [iwrrLoop_step hr]
    have := h 0
    simp [stepN] at this
    rw [this]
    exact iwrrLoop_more hr.next fun m => by have := h (m + 1); simpa [stepN] using this

/-! #### Positions of the round robin, counted through all rounds -/

/-- What is met at a position: the quotient by the number of backends is the round. -/
def hitPos (bs : List Be) (p : Nat) : Option Be :=
  bs[p % bs.length]?.filter fun b => decide (Active b) && decide (p / bs.length < b.prio)

/-- The balancer is at that position. -/
def AtPos (bal : Bal) (p : Nat) : Prop :=
  ∃ i, bal.cur = some i ∧ i < bal.backends.length ∧ bal.round ≤ bal.maxPri ∧ p = bal.round * bal.backends.length + i

theorem AtPos.ready {bal : Bal} {p} (h : AtPos bal p) : Ready bal := by
  obtain ⟨i, h1, h2, _⟩ := h; exact ⟨i, h1, h2⟩

theorem AtPos.hit {bal : Bal} {p} (h : AtPos bal p) : hitAt bal = hitPos bal.backends p := by
  obtain ⟨i, h1, h2, _, rfl⟩ := h
  unfold hitAt hitPos
  rw [h1]; dsimp only
  have e1 : (bal.round * bal.backends.length + i) % bal.backends.length = i := by
    rw [Nat.mul_comm, Nat.mul_add_mod]; exact Nat.mod_eq_of_lt h2
  have e2 : (bal.round * bal.backends.length + i) / bal.backends.length = bal.round := by
    rw [Nat.mul_comm, Nat.mul_add_div (by omega), Nat.div_eq_of_lt h2]; omega
  rw [e1, e2, List.getElem?_eq_getElem h2]
  dsimp only [Option.filter]
  rw [isActive_decide]

theorem AtPos.lt {bal : Bal} {p} (h : AtPos bal p) : p < (bal.maxPri + 1) * bal.backends.length := by
  obtain ⟨i, _, h2, h3, rfl⟩ := h
  have : (bal.round + 1) * bal.backends.length ≤ (bal.maxPri + 1) * bal.backends.length :=
    Nat.mul_le_mul_right _ (by omega)
  rw [Nat.add_mul, Nat.one_mul] at this
  omega

theorem AtPos.next {bal : Bal} {p} (h : AtPos bal p) :
    AtPos (nextOf bal) ((p + 1) % ((bal.maxPri + 1) * bal.backends.length)) := by
  have hlt := h.lt
  obtain ⟨i, h1, h2, h3, rfl⟩ := h
  unfold nextOf; rw [h1]; dsimp only
  unfold Bal.iwrrNext
  have hm : (bal.round + 1) * bal.backends.length ≤ (bal.maxPri + 1) * bal.backends.length :=
    Nat.mul_le_mul_right _ (by omega)
  split
  · rename_i hl
    refine ⟨i + 1, rfl, hl, h3, ?_⟩
    rw [Nat.add_mul, Nat.one_mul] at hm
    rw [Nat.mod_eq_of_lt (by omega)]; show _ = bal.round * bal.backends.length + (i + 1); omega
  · rename_i hl
    have hi : i + 1 = bal.backends.length := by omega
    refine ⟨0, rfl, by show 0 < bal.backends.length; omega, ?_, ?_⟩
    · exact Nat.lt_succ_iff.1 (Nat.mod_lt (bal.round + 1) (Nat.succ_pos bal.maxPri))
    · show _ = (bal.round + 1) % (bal.maxPri + 1) * bal.backends.length + 0
      have e : bal.round * bal.backends.length + i + 1 = (bal.round + 1) * bal.backends.length := by
        rw [Nat.add_mul, Nat.one_mul]; omega
      rw [e, Nat.mul_mod_mul_right]; rfl

theorem hits_pos : ∀ (m : Nat) {bal : Bal} {p}, AtPos bal p → hits m bal =
    ((List.range m).map fun j => (p + j) % ((bal.maxPri + 1) * bal.backends.length)).flatMap fun q => (hitPos bal.backends q).toList
  | 0, _, _, _ => rfl
  | m + 1, bal, p, h => by
    have hn := hits_pos m h.next
    obtain ⟨_, _, _, hb, _, hmx⟩ := nextOf_same (bal := bal)
    rw [← hb, ← hmx] at hn
    unfold hits
    have hz : (p + 0) % ((bal.maxPri + 1) * bal.backends.length) = p := Nat.mod_eq_of_lt h.lt
    rw [hn, h.hit, List.range_succ_eq_map, List.map_cons, List.flatMap_cons, hz, List.map_map]
    congr 3
    funext j
    simp only [Function.comp]
    rw [Nat.mod_add_mod]; congr 1; omega

theorem rotate_perm {P p : Nat} (h : p < P) : List.Perm ((List.range P).map fun j => (p + j) % P) (List.range P) := by
  have e1 : List.range P = List.range (P - p) ++ (List.range p).map (P - p + ·) := by
    rw [← List.range_add]; congr 1; omega
  have e2 : List.range P = List.range p ++ (List.range (P - p)).map (p + ·) := by
    rw [← List.range_add]; congr 1; omega
  have e3 : ((List.range P).map fun j => (p + j) % P) = (List.range (P - p)).map (p + ·) ++ List.range p := by
    conv => lhs; rw [e1]
    rw [List.map_append, List.map_map]
    congr 1
    · refine List.map_congr_left fun j hj => ?_
      have := List.mem_range.1 hj
      exact Nat.mod_eq_of_lt (by omega)
    · conv => rhs; rw [← List.map_id (List.range p)]
      refine List.map_congr_left fun j hj => ?_
      have := List.mem_range.1 hj
      simp only [Function.comp, id]
      have : p + (P - p + j) = j + P := by omega
      rw [this, Nat.add_mod_right]; exact Nat.mod_eq_of_lt (by omega)
  rw [e3]
  conv => rhs; rw [e2]
  exact List.perm_append_comm

theorem flatMap_range_getElem {α} (f : α → Bool) : ∀ (l : List α),
    (List.range l.length).flatMap (fun i => (l[i]?.filter f).toList) = l.filter f
  | [] => rfl
  | a :: t => by
    rw [List.length_cons, List.range_succ_eq_map, List.flatMap_cons, List.flatMap_map]
    have := flatMap_range_getElem f t
    simp only [List.getElem?_cons_succ, List.getElem?_cons_zero]
    rw [this, List.filter_cons]
    dsimp only [Option.filter]
    split <;> simp

theorem flatMap_congr' {α β} {f g : α → List β} : ∀ {l : List α}, (∀ a ∈ l, f a = g a) → l.flatMap f = l.flatMap g
  | [], _ => rfl
  | a :: t, h => by
    rw [List.flatMap_cons, List.flatMap_cons, h a (List.mem_cons_self ..),
      flatMap_congr' fun x hx => h x (List.mem_cons_of_mem _ hx)]

theorem round_hits (bs : List Be) (r : Nat) :
    ((List.range bs.length).map (r * bs.length + ·)).flatMap (fun q => (hitPos bs q).toList) =
      bs.filter fun b => decide (Active b) && decide (r < b.prio) := by
  rw [← flatMap_range_getElem, List.flatMap_map]
  refine flatMap_congr' fun i hi => ?_
  have h2 := List.mem_range.1 hi
  unfold hitPos
  have e1 : (r * bs.length + i) % bs.length = i := by
    rw [Nat.mul_comm, Nat.mul_add_mod]; exact Nat.mod_eq_of_lt h2
  have e2 : (r * bs.length + i) / bs.length = r := by
    rw [Nat.mul_comm, Nat.mul_add_div (by omega), Nat.div_eq_of_lt h2]; omega
  rw [e1, e2]

theorem rounds_hits (bs : List Be) : ∀ M,
    (List.range (M * bs.length)).flatMap (fun q => (hitPos bs q).toList) =
      (List.range M).flatMap fun r => bs.filter fun b => decide (Active b) && decide (r < b.prio)
  | 0 => by simp
  | M + 1 => by
    rw [Nat.add_mul, Nat.one_mul, List.range_add, List.flatMap_append, rounds_hits bs M, round_hits, List.range_succ,
      List.flatMap_append]
    simp

theorem flatMap_append_perm {α β} (f g : α → List β) : ∀ l : List α,
    List.Perm (l.flatMap fun a => f a ++ g a) (l.flatMap f ++ l.flatMap g)
  | [] => .refl _
  | a :: t => by
    simp only [List.flatMap_cons]
    have h := flatMap_append_perm f g t
    calc (f a ++ g a) ++ t.flatMap (fun a => f a ++ g a)
        _ |>.Perm ((f a ++ g a) ++ (t.flatMap f ++ t.flatMap g)) := h.append_left _
        _ |>.Perm (f a ++ (t.flatMap f) ++ (g a ++ t.flatMap g)) := by
          simp only [List.append_assoc]
          refine .append_left _ ?_
          simp only [← List.append_assoc]
          exact .append_right _ List.perm_append_comm

theorem flatMap_lt_replicate {α} (b : α) (k : Nat) : ∀ M, (List.range M).flatMap (fun r => if r < k then [b] else []) =
    List.replicate (min k M) b
  | 0 => by simp
  | M + 1 => by
    rw [List.range_succ, List.flatMap_append, flatMap_lt_replicate b k M]
    by_cases h : M < k
    · have e : min k (M + 1) = min k M + 1 := by omega
      rw [e, List.replicate_succ']; simp [h]
    · have e : min k (M + 1) = min k M := by omega
      rw [e]; simp [h]

theorem rounds_perm : ∀ (bs : List Be) (M : Nat), (∀ b ∈ bs, Active b → b.prio ≤ M) →
    List.Perm ((List.range (M + 1)).flatMap fun r => bs.filter fun b => decide (Active b) && decide (r < b.prio)) (shares bs)
  | [], M, _ => by
    have : (List.range (M + 1)).flatMap (fun _ => ([] : List Be)) = [] := by simp
    simp only [List.filter_nil, this]; exact .refl _
  | b :: t, M, h => by
    have ih := rounds_perm t M fun x hx => h x (List.mem_cons_of_mem _ hx)
    have e : ∀ r : Nat, (b :: t).filter (fun b => decide (Active b) && decide (r < b.prio)) =
        (if r < (if Active b then b.prio else 0) then [b] else []) ++ t.filter (fun b => decide (Active b) && decide (r < b.prio)) := by
      intro r
      rw [List.filter_cons]
      by_cases ha : Active b <;> by_cases hr : r < b.prio <;> simp [ha, hr]
    simp only [e]
    refine (flatMap_append_perm _ _ _).trans ?_
    rw [flatMap_lt_replicate]
    have : shares (b :: t) = List.replicate (if Active b then b.prio else 0) b ++ shares t := by
      unfold shares actives
      by_cases ha : Active b <;> simp [ha]
    rw [this]
    have hm : min (if Active b then b.prio else 0) (M + 1) = if Active b then b.prio else 0 := by
      split
      · rename_i ha; have := h b (List.mem_cons_self ..) ha; omega
      · omega
    rw [hm]
    exact .append_left _ ih

theorem shares_length : ∀ bs, (shares bs).length = prioSum bs
  | [] => rfl
  | b :: t => by
    rw [prioSum_cons, ← shares_length t]
    unfold shares actives
    by_cases ha : Active b <;> simp [ha]

/-- In a period each active backend is met as often as its priority says. -/
theorem hits_period {bal : Bal} {p} (h : AtPos bal p) (hm : ∀ b ∈ bal.backends, Active b → b.prio ≤ bal.maxPri) :
    List.Perm (hits ((bal.maxPri + 1) * bal.backends.length) bal) (shares bal.backends) := by
  rw [hits_pos _ h]
  refine ((rotate_perm h.lt).flatMap_right _).trans ?_
  rw [rounds_hits]
  exact rounds_perm _ _ hm

/-- A state outside the cycle (the highest priority was lowered): nothing is met until the round ends. -/
theorem drain : ∀ (k : Nat) {bal : Bal} {i : Nat}, bal.cur = some i → i < bal.backends.length → bal.backends.length - i = k + 1 →
    bal.maxPri < bal.round → (∀ b ∈ bal.backends, Active b → b.prio ≤ bal.maxPri) →
    hits (k + 1) bal = [] ∧ ∃ p, AtPos (stepN (k + 1) bal) p
  | k, bal, i, hi, hl, hk, hr, hm => by
    have hnone : hitAt bal = none := by
      unfold hitAt; rw [hi]; dsimp only
      rw [List.getElem?_eq_getElem hl]; dsimp only
      rw [isActive_decide, if_neg]
      intro h
      simp at h
      have := hm _ (List.getElem_mem hl) h.1
      omega
    have hne : nextOf bal = bal.iwrrNext i := by unfold nextOf; rw [hi]
    cases k with
    | zero =>
      refine ⟨by simp [hits, hnone], 0 + (nextOf bal).round * bal.backends.length, ?_⟩
      simp only [stepN]
      rw [hne]
      unfold Bal.iwrrNext
      rw [if_neg (by omega)]
      exact ⟨0, rfl, by show 0 < bal.backends.length; omega, Nat.lt_succ_iff.1 (Nat.mod_lt (bal.round + 1) (Nat.succ_pos bal.maxPri)), by
        dsimp only; omega⟩
    | succ k =>
      have hb : nextOf bal = { bal with cur := some (i + 1) } := by
        rw [hne]; unfold Bal.iwrrNext; rw [if_pos (by omega)]
      have := drain k (bal := nextOf bal) (i := i + 1) (by rw [hb]) (by rw [hb]; dsimp only; omega) (by rw [hb]; dsimp only; omega)
        (by rw [hb]; exact hr) (by rw [hb]; exact hm)
      refine ⟨?_, ?_⟩
      · rw [hits, hnone, this.1]; rfl
      · exact this.2

theorem stepN_same : ∀ (n : Nat) (bal : Bal), SameBal bal (stepN n bal)
  | 0, bal => .refl _
  | n + 1, _ => nextOf_same.trans (stepN_same n _)

/-- From any state, some number of steps meets each active backend as often as its priority says. -/
theorem iwrr_window {bal : Bal} (h : Ready bal) (hm : ∀ b ∈ bal.backends, Active b → b.prio ≤ bal.maxPri) :
    ∃ m, List.Perm (hits m bal) (shares bal.backends) := by
  obtain ⟨i, hi, hl⟩ := h
  by_cases hr : bal.round ≤ bal.maxPri
  · exact ⟨_, hits_period ⟨i, hi, hl, hr, rfl⟩ hm⟩
  · obtain ⟨k, hk⟩ : ∃ k, bal.backends.length - i = k + 1 := ⟨bal.backends.length - i - 1, by omega⟩
    obtain ⟨h1, p, h2⟩ := drain k hi hl hk (by omega) hm
    obtain ⟨_, _, _, hb, _, hx⟩ := stepN_same (k + 1) bal
    refine ⟨k + 1 + ((stepN (k + 1) bal).maxPri + 1) * (stepN (k + 1) bal).backends.length, ?_⟩
    rw [hits_add, h1, List.nil_append]
    have := hits_period h2 (by rw [← hb, ← hx]; exact hm)
    rwa [← hb] at this ⊢

theorem prio_le_max : ∀ {bs : List Be} {b}, b ∈ bs → Active b → b.prio ≤ prioMax bs
  | [], _, h, _ => by simp at h
  | x :: t, b, h, ha => by
    rw [prioMax_cons]
    rcases List.mem_cons.1 h with rfl | h
    · rw [if_pos ha]; omega
    · have := prio_le_max h ha
      split <;> omega

theorem prio_le_sum : ∀ {bs : List Be} {b}, b ∈ bs → Active b → b.prio ≤ prioSum bs
  | [], _, h, _ => by simp at h
  | x :: t, b, h, ha => by
    rw [prioSum_cons]
    rcases List.mem_cons.1 h with rfl | h
    · rw [if_pos ha]; omega
    · have := prio_le_sum h ha
      split <;> omega

/-! ### Selection in a balancer -/

theorem iwrrLoop_active : ∀ {n : Nat} {bal : Bal} {b bal'}, iwrrLoop n bal = .done (some b) bal' → Active b ∧ b ∈ bal.backends
  | 0, _, _, _, h => by simp [iwrrLoop] at h
  | n + 1, bal, b, bal', h => by
    unfold iwrrLoop at h
    split at h
    · cases h
    · rename_i i hi
      split at h
      · cases h
      · rename_i x hb
        split at h
        · rename_i ha
          cases h
          exact ⟨(isActive_iff _).1 (by simp at ha; exact ha.1), List.mem_of_getElem? hb⟩
        · have := iwrrLoop_active h
          rw [iwrrNext_backends] at this; exact this

theorem balSelect_active {n : Nat} {rs} {bal : Bal} {b bal'} (h : balSelect n rs bal = .done (some b) bal') :
    Active b ∧ b ∈ bal.backends := by
  unfold balSelect at h
  split at h
  · cases h
  · rename_i x hx
    simp only [SelRes.done.injEq] at h
    obtain ⟨h, rfl⟩ := h
    split at h
    · rename_i ha; cases h; exact ⟨(isActive_iff _).1 ha, by rw [hx]; simp⟩
    · cases h
  · split at h
    · unfold randSelect at h
      split at h
      · cases h
      · split at h
        · simp only [SelRes.done.injEq] at h
          exact randPick_active h.1
        · cases h
    · unfold iwrrSelect at h
      split at h
      · exact iwrrLoop_active h
      · dsimp only at h
        split at h
        · cases h
        · have := iwrrLoop_active h
          exact this

theorem cursorOk_init (bal : Bal) : CursorOk bal.iwrrInit := by
  intro i hi
  unfold Bal.iwrrInit at hi ⊢
  dsimp only at hi ⊢
  split at hi
  · cases hi
  · rename_i h; cases hi
    cases hb : bal.backends with
    | nil => simp [hb] at h
    | cons => simp

theorem balSelect_same {n : Nat} {rs} {bal : Bal} {ob bal'} (hc : CursorOk bal) (h : balSelect n rs bal = .done ob bal') :
    SameBal bal bal' ∧ CursorOk bal' := by
  unfold balSelect at h
  split at h
  · cases h
  · cases h; exact ⟨.refl _, hc⟩
  · split at h
    · unfold randSelect at h
      split at h
      · cases h; exact ⟨.refl _, hc⟩
      · split at h
        · cases h; exact ⟨.refl _, hc⟩
        · cases h
    · unfold iwrrSelect at h
      split at h
      · have := iwrrLoop_sound hc h; exact ⟨this.1, this.2.1⟩
      · dsimp only at h
        split at h
        · cases h; exact ⟨sameBal_init _, cursorOk_init _⟩
        · have := iwrrLoop_sound (cursorOk_init _) h; exact ⟨(sameBal_init _).trans this.1, this.2.1⟩

theorem iwrrSelect_eq {bal : Bal} (hb : bal.backends ≠ []) (hc : CursorOk bal) :
    ∃ bal0, Ready bal0 ∧ SameBal bal bal0 ∧ ∀ n, iwrrSelect n bal = iwrrLoop n bal0 := by
  unfold iwrrSelect
  cases hcur : bal.cur with
  | some i => exact ⟨bal, ⟨i, hcur, hc i hcur⟩, .refl _, fun _ => rfl⟩
  | none =>
    dsimp only
    have hi : bal.iwrrInit.cur = some 0 := by
      unfold Bal.iwrrInit
      cases hx : bal.backends with
      | nil => exact absurd hx hb
      | cons => rfl
    rw [hi]
    exact ⟨bal.iwrrInit, ⟨0, hi, cursorOk_init _ _ hi⟩, sameBal_init _, fun _ => rfl⟩

theorem iwrrLoop_found {bal : Bal} (hr : Ready bal) (hm : ∀ b ∈ bal.backends, Active b → b.prio ≤ bal.maxPri)
    (hs : 0 < prioSum bal.backends) : ∃ n0 b bal', ∀ n, n0 ≤ n → iwrrLoop n bal = .done (some b) bal' := by
  obtain ⟨m, hp⟩ := iwrr_window hr hm
  have hl := hp.length_eq
  rw [shares_length] at hl
  cases hh : hits m bal with
  | nil => rw [hh] at hl; simp at hl; omega
  | cons b t =>
    obtain ⟨j, _, h1, _⟩ := iwrrLoop_hits hr hh
    exact ⟨m, b, _, h1⟩

theorem SameBal.sane {a b : Bal} (h : SameBal a b) (hs : Sane a) (hc : CursorOk b) : Sane b := by
  obtain ⟨h1, h2, h3, h4, h5, h6⟩ := h
  obtain ⟨s1, s2, s3, s4, s5⟩ := hs
  refine ⟨by rw [← h4]; exact s1, ⟨?_, ?_, ?_⟩, hc, by rw [← h4]; exact s4, by rw [← h4]; exact s5⟩
  · rw [← h3, ← h4]; exact s2.count
  · rw [← h1, ← h4, ← h5]; exact s2.sum
  · rw [← h1, ← h4, ← h6]; exact s2.max

theorem balSelect_found {bal : Bal} (h : Sane bal) (ha : ∃ b ∈ bal.backends, Active b) (rs : List Nat)
    (hu : bal.algo = .random → Usable bal.sumPri rs) :
    ∃ n0 b bal', ∀ n, n0 ≤ n → balSelect n rs bal = .done (some b) bal' := by
  obtain ⟨b, hb, hba⟩ := ha
  have hpos : 0 < prioSum bal.backends := Nat.lt_of_lt_of_le (h.prio b hb hba) (prio_le_sum hb hba)
  unfold balSelect
  match hbs : bal.backends with
  | [] => exact absurd hbs h.some
  | [x] =>
    rw [hbs] at hb
    have : b = x := by simpa using hb
    subst this
    refine ⟨0, b, bal, fun n _ => ?_⟩
    dsimp only
    rw [if_pos ((isActive_iff _).2 hba)]
  | x :: y :: t =>
    dsimp only
    cases hal : bal.algo with
    | random =>
      dsimp only
      have hsum := h.totals.sum hal
      obtain ⟨v, hv⟩ := randomInRange_some (m := bal.sumPri) (by
        have := h.bound; rw [hsum]; omega) (hu hal)
      have hlt := randomInRange_lt (by rw [hsum]; exact hpos) hv
      rw [hsum] at hlt
      obtain ⟨c, hc⟩ := randPick_some hlt
      refine ⟨0, c, bal, fun n _ => ?_⟩
      unfold randSelect
      rw [if_neg (by rw [hbs]; simp), hv]
      dsimp only
      rw [hc]
    | iwrr =>
      dsimp only
      obtain ⟨bal0, hr, hsame, he⟩ := iwrrSelect_eq h.some h.cursor
      obtain ⟨_, _, _, hbk, _, hmx⟩ := hsame
      obtain ⟨n0, c, bal', hf⟩ := iwrrLoop_found hr (by
        rw [← hbk, ← hmx, h.totals.max hal]; exact fun b hb ha => prio_le_max hb ha) (by rw [← hbk]; exact hpos)
      exact ⟨n0, c, bal', fun n hn => (he n).trans (hf n hn)⟩

theorem randPick_none : ∀ {l : List Be}, (∀ b ∈ l, ¬ Active b) → ∀ pri, randPick pri l = none
  | [], _, _ => rfl
  | b :: t, h, pri => by
    unfold randPick
    rw [if_neg (by rw [isActive_iff]; exact h b (List.mem_cons_self ..))]
    exact randPick_none (fun x hx => h x (List.mem_cons_of_mem _ hx)) pri

theorem prioSum_zero : ∀ {l : List Be}, (∀ b ∈ l, ¬ Active b) → prioSum l = 0
  | [], _ => rfl
  | b :: t, h => by
    rw [prioSum_cons, if_neg (h b (List.mem_cons_self ..)), prioSum_zero fun x hx => h x (List.mem_cons_of_mem _ hx)]

theorem balSelect_none {bal : Bal} (h : Sane bal) (ha : ∀ b ∈ bal.backends, ¬ Active b)
    (hl : bal.algo = .iwrr → bal.backends.length < 2) (n : Nat) (rs : List Nat) : balSelect n rs bal = .done none bal := by
  unfold balSelect
  match hbs : bal.backends with
  | [] => exact absurd hbs h.some
  | [x] =>
    dsimp only
    rw [if_neg]
    rw [isActive_iff]; exact ha x (by rw [hbs]; simp)
  | x :: y :: t =>
    dsimp only
    cases hal : bal.algo with
    | iwrr => have := hl hal; rw [hbs] at this; simp at this; omega
    | random =>
      dsimp only
      unfold randSelect
      rw [if_neg (by rw [hbs]; simp), h.totals.sum hal, prioSum_zero ha]
      unfold randomInRange
      rw [if_pos (by omega)]
      dsimp only
      rw [randPick_none ha]

theorem balSelect_no_ub {bal : Bal} (h : Sane bal) (n : Nat) (rs : List Nat) : balSelect n rs bal ≠ .ub := by
  unfold balSelect
  split
  · rename_i hb; exact absurd hb h.some
  · simp
  · split
    · unfold randSelect
      split
      · simp
      · split <;> simp
    · obtain ⟨bal0, hr, _, he⟩ := iwrrSelect_eq h.some h.cursor
      rw [he]
      obtain ⟨i, hi, hl⟩ := hr
      exact iwrrLoop_no_ub (by rw [hi]; simp) (Ready.cursor ⟨i, hi, hl⟩)

/-- If a balancer gives nothing, it has nothing. -/
theorem balSelect_done_none {bal : Bal} (h : Sane bal) {n : Nat} {rs : List Nat} {bal'} (he : balSelect n rs bal = .done none bal') :
    ∀ b ∈ bal.backends, ¬ Active b := by
  intro b hb hba
  have hpos : 0 < prioSum bal.backends := Nat.lt_of_lt_of_le (h.prio b hb hba) (prio_le_sum hb hba)
  unfold balSelect at he
  split at he
  · cases he
  · rename_i x hx
    rw [hx] at hb
    have : b = x := by simpa using hb
    subst this
    rw [if_pos ((isActive_iff _).2 hba)] at he; simp at he
  · split at he
    · rename_i hal
      unfold randSelect at he
      split at he
      · rename_i h0; cases hx : bal.backends with
        | nil => rw [hx] at hb; simp at hb
        | cons => rw [hx] at h0; simp at h0
      · split at he
        · rename_i v hv
          have hsum := h.totals.sum hal
          have hlt := randomInRange_lt (by rw [hsum]; exact hpos) hv
          rw [hsum] at hlt
          obtain ⟨c, hc⟩ := randPick_some hlt
          rw [hc] at he; simp at he
        · cases he
    · obtain ⟨bal0, hr, _, hq⟩ := iwrrSelect_eq h.some h.cursor
      rw [hq] at he
      obtain ⟨_, _, c, hc, _⟩ := iwrrLoop_sound hr.cursor he
      cases hc

/-! ### Selection in a service -/

theorem lbSelect_active : ∀ {bals : List Bal} {n : Nat} {rnd b bals'}, lbSelect n rnd bals = .done (some b) bals' →
    Active b ∧ ∃ bal ∈ bals, b ∈ bal.backends
  | [], _, _, _, _, h => by simp [lbSelect] at h
  | bal :: t, n, rnd, b, bals', h => by
    unfold lbSelect at h
    split at h
    · rename_i c bal' hc
      cases h
      have := balSelect_active hc
      exact ⟨this.1, bal, List.mem_cons_self .., this.2⟩
    · split at h
      · rename_i hc
        cases h
        obtain ⟨h1, bl, h2, h3⟩ := lbSelect_active hc
        exact ⟨h1, bl, List.mem_cons_of_mem _ h2, h3⟩
      · rename_i hne
        rw [h] at hne
        exact absurd rfl (hne _ _)
    · cases h
    · cases h

/-- The same balancers, up to the position of weighted round robins. -/
inductive SameBals : List Bal → List Bal → Prop
  | nil : SameBals [] []
  | cons {a b s t} : SameBal a b → SameBals s t → SameBals (a :: s) (b :: t)

theorem SameBals.refl : ∀ l, SameBals l l
  | [] => .nil
  | a :: t => .cons (.refl a) (SameBals.refl t)

theorem lbSelect_same : ∀ {bals : List Bal} {n : Nat} {rnd ob bals'}, (∀ b ∈ bals, CursorOk b) → lbSelect n rnd bals = .done ob bals' →
    SameBals bals bals' ∧ ∀ b ∈ bals', CursorOk b
  | [], _, _, _, _, _, h => by simp [lbSelect] at h; obtain ⟨_, rfl⟩ := h; exact ⟨.nil, by simp⟩
  | bal :: t, n, rnd, ob, bals', hc, h => by
    have hc0 := hc bal (List.mem_cons_self ..)
    have hct : ∀ b ∈ t, CursorOk b := fun b hb => hc b (List.mem_cons_of_mem _ hb)
    unfold lbSelect at h
    split at h
    · rename_i c bal' hb
      cases h
      have := balSelect_same hc0 hb
      refine ⟨.cons this.1 (.refl _), fun x hx => ?_⟩
      rcases List.mem_cons.1 hx with rfl | hx
      · exact this.2
      · exact hct x hx
    · rename_i bal' hb
      have := balSelect_same hc0 hb
      split at h
      · rename_i hl
        cases h
        have ih := lbSelect_same hct hl
        refine ⟨.cons this.1 ih.1, fun x hx => ?_⟩
        rcases List.mem_cons.1 hx with rfl | hx
        · exact this.2
        · exact ih.2 x hx
      · rename_i hne
        rw [h] at hne
        exact absurd rfl (hne _ _)
    · cases h
    · cases h

theorem lbSelect_done_none : ∀ {bals : List Bal} {n : Nat} {rnd bals'}, (∀ b ∈ bals, Sane b) → lbSelect n rnd bals = .done none bals' →
    ∀ bal ∈ bals, ∀ b ∈ bal.backends, ¬ Active b
  | [], _, _, _, _, _ => by simp
  | bal :: t, n, rnd, bals', hs, h => by
    unfold lbSelect at h
    split at h
    · cases h
    · rename_i bal' hb
      split at h
      · rename_i hl
        cases h
        have ih := lbSelect_done_none (fun x hx => hs x (List.mem_cons_of_mem _ hx)) hl
        intro bl hbl
        rcases List.mem_cons.1 hbl with rfl | hbl
        · exact balSelect_done_none (hs _ (List.mem_cons_self ..)) hb
        · exact ih bl hbl
      · rename_i hne
        rw [h] at hne
        exact absurd rfl (hne _ _)
    · cases h
    · cases h

theorem lbSelect_found : ∀ {bals : List Bal} {rnd}, (∀ b ∈ bals, Sane b) → SafeOrder bals → UsableAll rnd bals →
    (∃ bal ∈ bals, ∃ b ∈ bal.backends, Active b) →
    ∃ n0 pre bal post b bals', bals = pre ++ bal :: post ∧ (∀ x ∈ pre, ∀ c ∈ x.backends, ¬ Active c) ∧ b ∈ bal.backends ∧
      ∀ n, n0 ≤ n → lbSelect n rnd bals = .done (some b) bals'
  | [], _, _, _, _, h => by simp at h
  | bal :: t, rnd, hs, ho, hu, h => by
    have hs0 := hs bal (List.mem_cons_self ..)
    by_cases ha : ∃ b ∈ bal.backends, Active b
    · obtain ⟨n0, b, bal', hf⟩ := balSelect_found hs0 ha (rnd 0) (fun hr => by rw [hs0.totals.sum hr]; exact hu.1 hr)
      refine ⟨n0, [], bal, t, b, bal' :: t, rfl, by simp, (balSelect_active (hf n0 (Nat.le_refl _))).2, fun n hn => ?_⟩
      unfold lbSelect
      rw [hf n hn]
    · have ha' : ∀ b ∈ bal.backends, ¬ Active b := fun b hb h => ha ⟨b, hb, h⟩
      have ht : ∃ bl ∈ t, ∃ b ∈ bl.backends, Active b := by
        obtain ⟨bl, hbl, hx⟩ := h
        rcases List.mem_cons.1 hbl with rfl | hbl
        · exact absurd hx ha
        · exact ⟨bl, hbl, hx⟩
      have htn : t ≠ [] := by
        obtain ⟨bl, hbl, _⟩ := ht
        intro h0; rw [h0] at hbl; simp at hbl
      obtain ⟨n0, pre, bl, post, b, bals', he, hp, hb, hf⟩ :=
        lbSelect_found (fun x hx => hs x (List.mem_cons_of_mem _ hx)) ho.2 hu.2 ht
      refine ⟨n0, bal :: pre, bl, post, b, bal :: bals', by rw [he]; rfl, fun x hx => ?_, hb, fun n hn => ?_⟩
      · rcases List.mem_cons.1 hx with rfl | hx
        · exact ha'
        · exact hp x hx
      · unfold lbSelect
        rw [balSelect_none hs0 ha' (ho.1 htn)]
        dsimp only
        rw [hf n hn]

/-! ### Accounting -/

theorem actives_append (a b : List Be) : actives (a ++ b) = actives a ++ actives b := List.filter_append ..
theorem prioSum_append (a b : List Be) : prioSum (a ++ b) = prioSum a + prioSum b := by
  unfold prioSum; rw [actives_append]; simp
theorem prioMax_append (a b : List Be) : prioMax (a ++ b) = max (prioMax a) (prioMax b) := by
  induction a with
  | nil => simp [prioMax, actives]
  | cons x t ih =>
    rw [List.cons_append, prioMax_cons, prioMax_cons, ih]
    split <;> omega

/-- Parts of a balancer that the accounting does not change. -/
def SameFrame (a b : Bal) : Prop :=
  a.algo = b.algo ∧ a.weight = b.weight ∧ a.round = b.round ∧ a.cur = b.cur

theorem SameFrame.refl (a : Bal) : SameFrame a a := ⟨rfl, rfl, rfl, rfl⟩
theorem SameFrame.trans {a b c : Bal} (h : SameFrame a b) (h' : SameFrame b c) : SameFrame a c :=
  ⟨h.1.trans h'.1, h.2.1.trans h'.2.1, h.2.2.1.trans h'.2.2.1, h.2.2.2.trans h'.2.2.2⟩

theorem priUpdate_frame (bal : Bal) (b : Be) : SameFrame bal (bal.priUpdate b).1 ∧ (bal.priUpdate b).1.backends = bal.backends ∧
    (bal.priUpdate b).1.actNum = bal.actNum := by
  unfold Bal.priUpdate
  split
  · split <;> exact ⟨⟨rfl, rfl, rfl, rfl⟩, rfl, rfl⟩
  · split
    · exact ⟨⟨rfl, rfl, rfl, rfl⟩, rfl, rfl⟩
    · split <;> exact ⟨⟨rfl, rfl, rfl, rfl⟩, rfl, rfl⟩

theorem priUpdate_fail {bal : Bal} {b : Be} (h : (bal.priUpdate b).2 = true) : (bal.priUpdate b).1 = bal := by
  unfold Bal.priUpdate at h ⊢
  split
  · rename_i hr
    rw [hr] at h
    dsimp only at h
    split
    · rfl
    · rename_i hn; rw [if_neg hn] at h; cases h
  · rename_i hr
    rw [hr] at h
    dsimp only at h
    split
    · rfl
    · rename_i hn; rw [if_neg hn] at h; split at h <;> cases h

theorem priUpdate_ok {bal : Bal} {b : Be} (h : (bal.priUpdate b).2 = false) :
    (bal.algo = .random → (bal.priUpdate b).1.sumPri = bal.sumPri + b.prio) ∧
    (bal.algo = .iwrr → (bal.priUpdate b).1.maxPri = max bal.maxPri b.prio) := by
  unfold Bal.priUpdate at h ⊢
  split
  · rename_i hr
    rw [hr] at h
    dsimp only at h
    split
    · rename_i hn; rw [if_pos hn] at h; cases h
    · exact ⟨fun _ => rfl, fun h => by rw [hr] at h; cases h⟩
  · rename_i hr
    rw [hr] at h
    dsimp only at h
    split
    · rename_i hn; rw [if_pos hn] at h; cases h
    · refine ⟨fun h => (by rw [hr] at h; cases h), fun _ => ?_⟩
      split
      · dsimp only; omega
      · dsimp only; omega

theorem recomputeLoop_spec (cb : Be → Be) : ∀ (l : List Be) (bal : Bal),
    SameFrame bal (recomputeLoop cb bal l).1 ∧
    (recomputeLoop cb bal l).1.actNum = bal.actNum + (actives (recomputeLoop cb bal l).2).length ∧
    (bal.algo = .random → (recomputeLoop cb bal l).1.sumPri = bal.sumPri + prioSum (recomputeLoop cb bal l).2) ∧
    (bal.algo = .iwrr → (recomputeLoop cb bal l).1.maxPri = max bal.maxPri (prioMax (recomputeLoop cb bal l).2))
  | [], bal => by simp [recomputeLoop, actives, prioSum, prioMax, SameFrame.refl]
  | b :: t, bal => by
    unfold recomputeLoop
    dsimp only
    by_cases ha : Active (cb b)
    · rw [if_pos ((isActive_iff _).2 ha)]
      cases hu : (bal.priUpdate (cb b)).2 with
      | true =>
        rw [if_pos rfl, priUpdate_fail hu]
        have ih := recomputeLoop_spec cb t bal
        have hn : ¬ Active { cb b with disabled := true } := by unfold Active; simp
        dsimp only
        refine ⟨ih.1, ?_, fun h => ?_, fun h => ?_⟩
        · rw [ih.2.1]; simp [actives, hn]
        · rw [ih.2.2.1 h, prioSum_cons, if_neg hn]; omega
        · rw [ih.2.2.2 h, prioMax_cons, if_neg hn]
      | false =>
        rw [if_neg (by simp)]
        have ih := recomputeLoop_spec cb t { (bal.priUpdate (cb b)).1 with actNum := (bal.priUpdate (cb b)).1.actNum + 1 }
        have hf := priUpdate_frame bal (cb b)
        have ho := priUpdate_ok hu
        dsimp only
        refine ⟨hf.1.trans ih.1, ?_, fun h => ?_, fun h => ?_⟩
        · rw [ih.2.1]; simp [actives, ha, hf.2.2]; omega
        · rw [ih.2.2.1 (by rw [← h]; exact hf.1.1.symm), prioSum_cons, if_pos ha]
          dsimp only; rw [ho.1 h]; omega
        · rw [ih.2.2.2 (by rw [← h]; exact hf.1.1.symm), prioMax_cons, if_pos ha]
          dsimp only; rw [ho.2 h]; omega
    · rw [if_neg (by rw [isActive_iff]; exact ha)]
      have ih := recomputeLoop_spec cb t bal
      dsimp only
      refine ⟨ih.1, ?_, fun h => ?_, fun h => ?_⟩
      · rw [ih.2.1]; simp [actives, ha]
      · rw [ih.2.2.1 h, prioSum_cons, if_neg ha]; omega
      · rw [ih.2.2.2 h, prioMax_cons, if_neg ha]

theorem recomputeLoop_map (cb : Be → Be) : ∀ (l : List Be) (bal : Bal),
    (∀ b ∈ l, (cb b).prio < intMax) → (bal.algo = .random → bal.sumPri + (l.map fun b => (cb b).prio).sum ≤ longMax) →
    (recomputeLoop cb bal l).2 = l.map cb
  | [], _, _, _ => rfl
  | b :: t, bal, h1, h2 => by
    have h1t : ∀ x ∈ t, (cb x).prio < intMax := fun x hx => h1 x (List.mem_cons_of_mem _ hx)
    have h2t : bal.algo = .random → bal.sumPri + (cb b).prio + (t.map fun b => (cb b).prio).sum ≤ longMax := fun h => by
      have := h2 h; simp only [List.map_cons, List.sum_cons] at this; omega
    unfold recomputeLoop
    dsimp only
    split
    · have hu : (bal.priUpdate (cb b)).2 = false := by
        unfold Bal.priUpdate
        cases hal : bal.algo with
        | random =>
          dsimp only
          have := h2t hal
          rw [if_neg (by omega)]
        | iwrr =>
          dsimp only
          have := h1 b (List.mem_cons_self ..)
          rw [if_neg (by omega)]
          split <;> rfl
      rw [hu, if_neg (by simp)]
      dsimp only
      rw [recomputeLoop_map cb t _ h1t, List.map_cons]
      intro hr
      have hf := priUpdate_frame bal (cb b)
      have hal : bal.algo = .random := hf.1.1.trans hr
      dsimp only
      rw [(priUpdate_ok hu).1 hal]
      exact h2t hal
    · dsimp only
      rw [recomputeLoop_map cb t _ h1t, List.map_cons]
      intro hr
      have := h2t hr; omega

theorem priInit_spec (bal : Bal) : SameFrame bal bal.priInit ∧ bal.priInit.actNum = bal.actNum ∧
    (bal.algo = .random → bal.priInit.sumPri = 0) ∧ (bal.algo = .iwrr → bal.priInit.maxPri = 0) := by
  cases bal with
  | mk algo _ _ _ _ _ _ _ => cases algo <;> exact ⟨⟨rfl, rfl, rfl, rfl⟩, rfl, by simp [Bal.priInit], by simp [Bal.priInit]⟩

theorem recompute_spec (cb : Be → Be) (bal : Bal) : SameFrame bal (bal.recompute cb) ∧ Totals (bal.recompute cb) := by
  have h := recomputeLoop_spec cb bal.backends { bal with actNum := 0 }.priInit
  have hp : SameFrame bal { bal with actNum := 0 }.priInit ∧ ({ bal with actNum := 0 }.priInit : Bal).actNum = 0 ∧
      (bal.algo = .random → ({ bal with actNum := 0 }.priInit : Bal).sumPri = 0) ∧
      (bal.algo = .iwrr → ({ bal with actNum := 0 }.priInit : Bal).maxPri = 0) := by
    have := priInit_spec { bal with actNum := 0 }
    exact ⟨this.1, this.2.1, this.2.2⟩
  unfold Bal.recompute
  dsimp only
  obtain ⟨h1, h2, h3, h4⟩ := h
  obtain ⟨p1, p2, p3, p4⟩ := hp
  refine ⟨p1.trans h1, ⟨?_, fun hr => ?_, fun hr => ?_⟩⟩
  · dsimp only; rw [h2, p2]; omega
  · have hb : bal.algo = .random := (p1.trans h1).1.trans hr
    dsimp only
    rw [h3 (p1.1.symm.trans hb), p3 hb]; omega
  · have hb : bal.algo = .iwrr := (p1.trans h1).1.trans hr
    dsimp only
    rw [h4 (p1.1.symm.trans hb), p4 hb]; omega

/-- The priorities do not overflow the numbers kept of them. -/
def Fits (l : List Be) : Prop := (∀ b ∈ l, b.prio < intMax) ∧ (l.map (·.prio)).sum ≤ longMax

theorem recompute_backends {cb : Be → Be} (hcb : ∀ b, (cb b).prio = b.prio) {bal : Bal} (h : Fits bal.backends) :
    (bal.recompute cb).backends = bal.backends.map cb := by
  unfold Bal.recompute
  dsimp only
  refine recomputeLoop_map cb _ _ (fun b hb => by rw [hcb]; exact h.1 b hb) fun hr => ?_
  have : ({ bal with actNum := 0 }.priInit : Bal).sumPri = 0 := by
    have hp := priInit_spec { bal with actNum := 0 }
    exact hp.2.2.1 (hp.1.1.trans hr)
  rw [this]
  have e : (bal.backends.map fun b => (cb b).prio) = bal.backends.map (·.prio) := List.map_congr_left fun b _ => hcb b
  rw [e]; have := h.2; omega

end Pound
