import Verif.Spec.Workers

namespace Pound
open Spec

/-! ### Counting -/

def cnt (f : TSt → Bool) (l : List TSt) : Nat := (l.filter f).length

theorem cnt_cons (f : TSt → Bool) (a : TSt) (l : List TSt) : cnt f (a :: l) = (if f a then 1 else 0) + cnt f l := by
  unfold cnt
  rw [List.filter_cons]
  split <;> simp [Nat.add_comm]

theorem cnt_append (f : TSt → Bool) (l r : List TSt) : cnt f (l ++ r) = cnt f l + cnt f r := by simp [cnt]

theorem cnt_set (f : TSt → Bool) : ∀ (l : List TSt) (t : Nat) (o a : TSt), l[t]? = some o →
    cnt f (l.set t a) + (if f o then 1 else 0) = cnt f l + (if f a then 1 else 0)
  | [], t, o, a, h => by simp at h
  | x :: l, 0, o, a, h => by
    simp at h
    subst h
    rw [List.set_cons_zero, cnt_cons, cnt_cons]
    omega
  | x :: l, t + 1, o, a, h => by
    rw [List.set_cons_succ, cnt_cons, cnt_cons]
    have := cnt_set f l t o a h
    omega

theorem cnt_pos {f : TSt → Bool} {l : List TSt} : 0 < cnt f l ↔ ∃ (t : Nat) (s : TSt), l[t]? = some s ∧ f s = true := by
  unfold cnt
  rw [List.length_pos_iff_exists_mem]
  constructor
  · rintro ⟨s, hs⟩
    obtain ⟨h1, h2⟩ := List.mem_filter.mp hs
    obtain ⟨t, ht⟩ := List.getElem?_of_mem h1
    exact ⟨t, s, ht, h2⟩
  · rintro ⟨t, s, h1, h2⟩
    exact ⟨s, List.mem_filter.mpr ⟨List.mem_of_getElem? h1, h2⟩⟩

theorem cnt_le_of {f g : TSt → Bool} : ∀ (l l' : List TSt), l'.length = l.length →
    (∀ (i : Nat) a a', l[i]? = some a → l'[i]? = some a' → f a = true → g a' = true) → cnt f l ≤ cnt g l'
  | [], [], _, _ => Nat.le_refl _
  | [], _ :: _, h, _ => by simp at h
  | _ :: _, [], h, _ => by simp at h
  | a :: l, a' :: l', h, hi => by
    rw [cnt_cons, cnt_cons]
    have h1 := cnt_le_of l l' (by simpa using h) (fun i => hi (i + 1))
    have h2 := hi 0 a a' rfl rfl
    cases hf : f a with
    | false => simp; omega
    | true => rw [h2 hf]; simp; omega

theorem cnt_total {f g : TSt → Bool} (l : List TSt) (h : ∀ a, (f a && g a) = false) : cnt f l + cnt g l = cnt (fun a => f a || g a) l := by
  induction l with
  | nil => rfl
  | cons a l ih =>
    rw [cnt_cons, cnt_cons, cnt_cons]
    have := h a
    cases hf : f a <;> cases hg : g a <;> simp_all <;> omega

def isWaiting : TSt → Bool
  | .waiting _ => true
  | _ => false

/-- Awake and not about to terminate -/
def isUp : TSt → Bool
  | .ready => true
  | .woken false => true
  | .busy _ => true
  | _ => false

def isLate : TSt → Bool
  | .woken true => true
  | _ => false

theorem cnt_workers (l : List TSt) : cnt isWorker l = cnt isUp l + cnt isWaiting l + cnt isLate l := by
  induction l with
  | nil => rfl
  | cons a l ih =>
    simp only [cnt_cons]
    rcases a with _ | b | b | c | _
    · simp [isWorker, isUp, isWaiting, isLate]; omega
    · simp [isWorker, isUp, isWaiting, isLate]; omega
    · cases b <;> simp [isWorker, isUp, isWaiting, isLate] <;> omega
    · simp [isWorker, isUp, isWaiting, isLate]; omega
    · simp [isWorker, isUp, isWaiting, isLate]; omega

theorem cnt_busy_le (l : List TSt) : cnt isBusy l ≤ cnt isUp l :=
  cnt_le_of l l rfl (by
    intro i a a' h h' hb
    rw [h] at h'
    cases h'
    cases a <;> simp_all [isBusy, isUp])

/-! ### Signals -/

theorem sig_same {ts ts' : List TSt} (h : Signalled ts ts') {f : TSt → Bool} (hf : ∀ b, f (.waiting b) = f (.woken false)) : cnt f ts' = cnt f ts := by
  obtain ⟨h1, h2, -⟩ := h
  apply Nat.le_antisymm
  · apply cnt_le_of _ _ h1.symm
    intro i a a' ha ha' hb
    rcases h2 i with h | ⟨⟨b, h⟩, h'⟩
    · rw [ha, ha'] at h; cases h; exact hb
    · rw [ha'] at h; rw [ha] at h'; cases h; cases h'; rwa [hf]
  · apply cnt_le_of _ _ h1
    intro i a a' ha ha' hb
    rcases h2 i with h | ⟨⟨b, h⟩, h'⟩
    · rw [ha, ha'] at h; cases h; exact hb
    · rw [ha] at h; rw [ha'] at h'; cases h; cases h'; rwa [← hf]

theorem sig_up {ts ts' : List TSt} (h : Signalled ts ts') : cnt isUp ts ≤ cnt isUp ts' ∧ cnt isWaiting ts' ≤ cnt isWaiting ts ∧
    (0 < cnt isWaiting ts → 0 < cnt isUp ts') := by
  obtain ⟨h1, h2, h3⟩ := h
  refine ⟨?_, ?_, ?_⟩
  · apply cnt_le_of _ _ h1
    intro i a a' ha ha' hb
    rcases h2 i with h | ⟨⟨b, h⟩, h'⟩
    · rw [ha, ha'] at h; cases h; exact hb
    · rw [ha'] at h'; cases h'; rfl
  · apply cnt_le_of _ _ h1.symm
    intro i a a' ha ha' hb
    rcases h2 i with h | ⟨⟨b, h⟩, h'⟩
    · rw [ha, ha'] at h; cases h; exact hb
    · rw [ha'] at h; cases h; rfl
  · intro hp
    obtain ⟨t, s, hs, hw⟩ := cnt_pos.mp hp
    have : ∃ b, s = .waiting b := by cases s <;> simp_all [isWaiting]
    obtain ⟨b, rfl⟩ := this
    obtain ⟨i, b', -, h5⟩ := h3 ⟨t, b, hs⟩
    exact cnt_pos.mpr ⟨i, _, h5, rfl⟩

theorem sig_busy {ts ts' : List TSt} (h : Signalled ts ts') {t c : Nat} (ht : ts'[t]? = some (.busy c)) : ts[t]? = some (.busy c) := by
  rcases h.2.1 t with h | ⟨-, h'⟩
  · rw [← h]; exact ht
  · rw [ht] at h'; cases h'

/-! ### The invariant -/

/-- The connection a busy worker has is the last one that was handed to it. -/
def LastOut (out : List (Nat × Nat)) (t c : Nat) : Prop := ∃ a b, out = a ++ (t, c) :: b ∧ ∀ x ∈ b, x.1 ≠ t

structure PInv (min max : Nat) (p : Pool) : Prop where
  count : p.count = cnt isWorker p.thr
  active : p.active = cnt isBusy p.thr
  lo : min ≤ p.count
  hi : p.count ≤ max
  order : p.arrived = p.out.map (·.2) ++ p.queue
  done : p.done + p.active = p.out.length
  last : ∀ t c, p.thr[t]? = some (.busy c) → LastOut p.out t c
  wake : 1 ≤ min → p.queue ≠ [] → 0 < cnt isUp p.thr ∨ cnt isWaiting p.thr < min

theorem booted_inv {min max : Nat} (hm : min ≤ max) {p : Pool} (h : Booted min p) : PInv min max p := by
  have hw : ∀ l : List TSt, (∀ s ∈ l, s = .ready ∨ (∃ b, s = .waiting b) ∨ s = .woken false) → cnt isWorker l = l.length ∧ cnt isBusy l = 0 := by
    intro l
    induction l with
    | nil => intro _; exact ⟨rfl, rfl⟩
    | cons a l ih =>
      intro hl
      obtain ⟨h1, h2⟩ := ih (fun s hs => hl s (by simp [hs]))
      rw [cnt_cons, cnt_cons, h1, h2]
      rcases hl a (by simp) with rfl | ⟨b, rfl⟩ | rfl <;> simp [isWorker, isBusy, Nat.add_comm]
  obtain ⟨h1, h2⟩ := hw p.thr h.idle
  refine ⟨by rw [h1, h.count, h.threads], by rw [h2, h.active], by rw [h.count]; exact Nat.le_refl _, by rw [h.count]; exact hm, by rw [h.arrived, h.out, h.queue]; rfl,
    by rw [h.done, h.active, h.out]; rfl, ?_, ?_⟩
  · intro t c ht
    rcases h.idle _ (List.mem_of_getElem? ht) with h | ⟨b, h⟩ | h <;> cases h
  · intro _ hq; exact absurd h.queue hq

theorem sig_inv {min max : Nat} {p : Pool} {ts' : List TSt} (h : Signalled p.thr ts') (hi : PInv min max p) : PInv min max { p with thr := ts' } := by
  obtain ⟨h1, h2, h3⟩ := sig_up h
  refine ⟨?_, ?_, hi.lo, hi.hi, hi.order, hi.done, ?_, ?_⟩
  · rw [hi.count]; exact (sig_same h (fun b => rfl)).symm
  · rw [hi.active]; exact (sig_same h (fun b => rfl)).symm
  · intro t c ht; exact hi.last t c (sig_busy h ht)
  · intro hm hq
    rcases hi.wake hm hq with h | h
    · exact Or.inl (Nat.lt_of_lt_of_le h h1)
    · exact Or.inr (Nat.lt_of_le_of_lt h2 h)

theorem lastOut_set {out : List (Nat × Nat)} {thr : List TSt} {t : Nat} {s : TSt} (hs : ∀ c, s ≠ .busy c)
    (h : ∀ t c, thr[t]? = some (.busy c) → LastOut out t c) : ∀ t' c, (thr.set t s)[t']? = some (.busy c) → LastOut out t' c := by
  intro t' c h'
  rw [List.getElem?_set] at h'
  split at h'
  · split at h'
    · cases h'; exact absurd rfl (hs c)
    · cases h'
  · exact h t' c h'

theorem look_inv {min max : Nat} {p p' : Pool} {t : Nat} {o : TSt} (ho : p.thr[t]? = some o) (hb : isBusy o = false) (hw : isWorker o = true)
    (hi : PInv min max p) (h : Fin (p.look min t) p') : PInv min max p' := by
  unfold Pool.look at h
  cases hq : p.queue with
  | nil =>
    rw [hq] at h
    have h : p' = { p with queue := [], thr := p.thr.set t (.waiting (p.count != min)) } := h
    rw [← hq] at h
    subst h
    have h1 := cnt_set isWorker _ _ _ (.waiting (p.count != min)) ho
    have h2 := cnt_set isBusy _ _ _ (.waiting (p.count != min)) ho
    rw [hw] at h1
    rw [hb] at h2
    simp [isWorker, isBusy] at h1 h2
    refine ⟨?_, ?_, hi.lo, hi.hi, hi.order, hi.done, ?_, ?_⟩
    · dsimp only; rw [hi.count] at h1 ⊢; omega
    · dsimp only; rw [hi.active]; omega
    · exact lastOut_set (by intro c h; cases h) hi.last
    · intro _ h; exact absurd hq h
  | cons c r =>
    rw [hq] at h
    have h1 := cnt_set isWorker _ _ _ (.busy c) ho
    have h2 := cnt_set isBusy _ _ _ (.busy c) ho
    rw [hw] at h1
    rw [hb] at h2
    simp [isWorker, isBusy] at h1 h2
    have hlen : t < p.thr.length := (List.getElem?_eq_some_iff.mp ho).1
    have key : PInv min max { p with queue := r, thr := p.thr.set t (.busy c), active := p.active + 1, out := p.out ++ [(t, c)] } := by
      refine ⟨?_, ?_, hi.lo, hi.hi, ?_, ?_, ?_, ?_⟩
      · rw [hi.count]; dsimp only; omega
      · dsimp only; rw [hi.active]; omega
      · dsimp only; rw [hi.order, hq]; simp
      · have := hi.done; dsimp only; simp only [List.length_append, List.length_cons, List.length_nil]; omega
      · intro t' c' h'
        dsimp only at h' ⊢
        rw [List.getElem?_set] at h'
        split at h'
        · rename_i e
          subst e
          try rw [if_pos hlen] at h'
          cases h'
          exact ⟨p.out, [], rfl, by simp⟩
        · rename_i ne
          obtain ⟨a, b, e1, e2⟩ := hi.last t' c' h'
          refine ⟨a, b ++ [(t, c)], by rw [e1]; simp, ?_⟩
          intro x hx
          rcases List.mem_append.mp hx with hx | hx
          · exact e2 x hx
          · rw [List.mem_singleton.mp hx]; exact ne
      · intro _ _
        refine Or.inl (cnt_pos.mpr ⟨t, .busy c, ?_, rfl⟩)
        exact List.getElem?_set_self hlen
    unfold Fin at h
    dsimp only at h
    split at h
    · obtain ⟨ts', hs, rfl⟩ := h
      exact sig_inv hs key
    · subst h; exact key

theorem awake_inv {min max : Nat} {p p' : Pool} (hi : PInv min max p) (h : AwakeStep min p p') : PInv min max p' := by
  cases h with
  | look t ht h =>
    rcases ht with ht | ht
    · exact look_inv ht rfl rfl hi h
    · exact look_inv ht rfl rfl hi h
  | late t ht h =>
    unfold Pool.late at h
    split at h
    · exact look_inv ht rfl rfl hi h
    · rename_i hne
      have h : p' = _ := h
      subst h
      have h1 := cnt_set isWorker _ _ _ .gone ht
      have h2 := cnt_set isBusy _ _ _ .gone ht
      have h3 := cnt_set isUp _ _ _ .gone ht
      have h4 := cnt_set isWaiting _ _ _ .gone ht
      simp [isWorker, isBusy, isUp, isWaiting] at h1 h2 h3 h4
      have hlo := hi.lo
      have hcount : 0 < p.count := by omega
      have hu : udecr p.count = p.count - 1 := by unfold udecr; rw [if_neg (by omega)]
      have := hi.hi
      have := hi.count
      refine ⟨?_, ?_, ?_, ?_, hi.order, hi.done, ?_, ?_⟩
      · dsimp only; omega
      · rw [hi.active]; dsimp only; omega
      · dsimp only; omega
      · dsimp only; omega
      · exact lastOut_set (by intro c h; cases h) hi.last
      · intro hm hq
        dsimp only
        rw [h3, h4]
        exact hi.wake hm hq

theorem step_inv {min max : Nat} {p p' : Pool} (hi : PInv min max p) (h : PoolStep min max p p') : PInv min max p' := by
  cases h with
  | awake h => exact awake_inv hi h
  | arrive c h =>
    obtain ⟨ts', hs, rfl⟩ := (h : ∃ ts', Signalled _ ts' ∧ _)
    unfold Pool.enqueue at hs ⊢
    dsimp only at hs ⊢
    split
    · rename_i hc
      rw [if_pos hc] at hs
      unfold Pool.start at hs ⊢
      dsimp only at hs ⊢ hc
      have key : PInv min max { p with thr := p.thr ++ [.ready], count := p.count + 1, queue := p.queue ++ [c], arrived := p.arrived ++ [c] } := by
        have hlo := hi.lo
        refine ⟨?_, ?_, ?_, ?_, ?_, hi.done, ?_, ?_⟩
        · dsimp only; rw [cnt_append, hi.count]; rfl
        · dsimp only; rw [cnt_append, hi.active]; rfl
        · dsimp only; omega
        · dsimp only; omega
        · dsimp only; rw [hi.order, List.append_assoc]
        · intro t' c' h'
          dsimp only at h' ⊢
          rcases Nat.lt_or_ge t' p.thr.length with hlt | hge
          · rw [List.getElem?_append_left hlt] at h'; exact hi.last t' c' h'
          · rw [List.getElem?_append_right hge] at h'
            have := List.mem_of_getElem? h'
            simp at this
        · intro _ _
          dsimp only; rw [cnt_append]; left; show 0 < _ + 1; omega
      exact sig_inv hs key
    · rename_i hc
      rw [if_neg hc] at hs
      dsimp only at hs ⊢ hc
      obtain ⟨h1, h2, h3⟩ := sig_up hs
      refine ⟨?_, ?_, hi.lo, hi.hi, ?_, hi.done, ?_, ?_⟩
      · rw [hi.count]; exact (sig_same hs (fun b => rfl)).symm
      · rw [hi.active]; exact (sig_same hs (fun b => rfl)).symm
      · dsimp only; rw [hi.order, List.append_assoc]
      · intro t c ht; exact hi.last t c (sig_busy hs ht)
      · intro hm _
        dsimp only
        by_cases hw : 0 < cnt isWaiting p.thr
        · exact Or.inl (h3 hw)
        · right; omega
  | finish t c ht h =>
    subst h
    unfold Pool.finish
    have h1 := cnt_set isWorker _ _ _ .ready ht
    have h2 := cnt_set isBusy _ _ _ .ready ht
    simp [isWorker, isBusy] at h1 h2
    have hb : 0 < cnt isBusy p.thr := cnt_pos.mpr ⟨t, _, ht, rfl⟩
    have ha := hi.active
    have hu : udecr p.active = p.active - 1 := by unfold udecr; rw [if_neg (by omega)]
    have := hi.done
    refine ⟨?_, ?_, hi.lo, hi.hi, hi.order, ?_, ?_, ?_⟩
    · rw [hi.count]; dsimp only; omega
    · dsimp only; omega
    · dsimp only; omega
    · exact lastOut_set (by intro c h; cases h) hi.last
    · intro _ _
      refine Or.inl (cnt_pos.mpr ⟨t, .ready, ?_, rfl⟩)
      exact List.getElem?_set_self (List.getElem?_eq_some_iff.mp ht).1
  | timeout t ht h =>
    subst h
    have h1 := cnt_set isWorker _ _ _ (.woken true) ht
    have h2 := cnt_set isBusy _ _ _ (.woken true) ht
    have h3 := cnt_set isUp _ _ _ (.woken true) ht
    have h4 := cnt_set isWaiting _ _ _ (.woken true) ht
    simp [isWorker, isBusy, isUp, isWaiting] at h1 h2 h3 h4
    refine ⟨?_, ?_, hi.lo, hi.hi, hi.order, hi.done, ?_, ?_⟩
    · rw [hi.count]; dsimp only; omega
    · rw [hi.active]; dsimp only; omega
    · exact lastOut_set (by intro c h; cases h) hi.last
    · intro hm hq
      dsimp only
      have := hi.wake hm hq
      omega
  | spurious t b ht h =>
    subst h
    have h1 := cnt_set isWorker _ _ _ (.woken false) ht
    have h2 := cnt_set isBusy _ _ _ (.woken false) ht
    simp [isWorker, isBusy] at h1 h2
    refine ⟨?_, ?_, hi.lo, hi.hi, hi.order, hi.done, ?_, ?_⟩
    · rw [hi.count]; dsimp only; omega
    · rw [hi.active]; dsimp only; omega
    · exact lastOut_set (by intro c h; cases h) hi.last
    · intro _ _
      refine Or.inl (cnt_pos.mpr ⟨t, .woken false, ?_, rfl⟩)
      exact List.getElem?_set_self (List.getElem?_eq_some_iff.mp ht).1

theorem pool_reach_inv {min max : Nat} (hm : min ≤ max) {p : Pool} (h : PoolReach min max p) : PInv min max p := by
  induction h with
  | start h => exact booted_inv hm h
  | step _ h ih => exact step_inv ih h

/-! ### Progress -/

/-- Every signal can be delivered. -/
theorem fin_exists (r : Pool × Bool) : ∃ p', Fin r p' ∧ p'.out = r.1.out ∧ p'.queue = r.1.queue := by
  unfold Fin
  split
  · refine ⟨{ r.1 with thr := r.1.thr.map fun s => if isWaiting s then .woken false else s }, ⟨_, ⟨by simp, ?_, ?_⟩, rfl⟩, rfl, rfl⟩
    · intro i
      rw [List.getElem?_map]
      cases h : r.1.thr[i]? with
      | none => exact Or.inl rfl
      | some s =>
        cases s with
        | waiting b => exact Or.inr ⟨⟨b, rfl⟩, rfl⟩
        | _ => exact Or.inl rfl
    · rintro ⟨i, b, h⟩
      exact ⟨i, b, h, by rw [List.getElem?_map, h]; rfl⟩
  · exact ⟨r.1, rfl, rfl, rfl⟩

theorem take_run {min : Nat} {p : Pool} {t c : Nat} {r : List Nat} (hq : p.queue = c :: r)
    (ht : p.thr[t]? = some .ready ∨ p.thr[t]? = some (.woken false)) :
    ∃ p', AwakeRun min p p' ∧ p'.out = p.out ++ [(t, c)] := by
  obtain ⟨p', h1, h2, -⟩ := fin_exists (p.look min t)
  refine ⟨p', .step (.look t ht h1) (.refl _), ?_⟩
  rw [h2]
  unfold Pool.look
  rw [hq]

theorem progress {min max : Nat} (hm : 1 ≤ min) {c : Nat} {r : List Nat} : ∀ (n : Nat) (p : Pool), p.count = n → PInv min max p → p.queue = c :: r →
    (∃ (t : Nat) (c : Nat), p.thr[t]? = some (.busy c)) ∨ ∃ p' t, AwakeRun min p p' ∧ p'.out = p.out ++ [(t, c)] := by
  intro n
  induction n with
  | zero => intro p hn hi _; have := hi.lo; omega
  | succ n ih =>
    intro p hn hi hq
    rcases hi.wake hm (by rw [hq]; simp) with h | h
    · obtain ⟨t, s, hs, hu⟩ := cnt_pos.mp h
      cases s with
      | ready =>
        obtain ⟨p', h1, h2⟩ := take_run (min := min) hq (Or.inl hs)
        exact Or.inr ⟨p', t, h1, h2⟩
      | woken b =>
        cases b with
        | false =>
          obtain ⟨p', h1, h2⟩ := take_run (min := min) hq (Or.inr hs)
          exact Or.inr ⟨p', t, h1, h2⟩
        | true => cases hu
      | busy c => exact Or.inl ⟨t, c, hs⟩
      | waiting => cases hu
      | gone => cases hu
    · have hw := cnt_workers p.thr
      have hc := hi.count
      have hlo := hi.lo
      by_cases hup : 0 < cnt isUp p.thr
      · obtain ⟨t, s, hs, hu⟩ := cnt_pos.mp hup
        cases s with
        | ready =>
          obtain ⟨p', h1, h2⟩ := take_run (min := min) hq (Or.inl hs)
          exact Or.inr ⟨p', t, h1, h2⟩
        | woken b =>
          cases b with
          | false =>
            obtain ⟨p', h1, h2⟩ := take_run (min := min) hq (Or.inr hs)
            exact Or.inr ⟨p', t, h1, h2⟩
          | true => cases hu
        | busy c => exact Or.inl ⟨t, c, hs⟩
        | waiting => cases hu
        | gone => cases hu
      · have hl : 0 < cnt isLate p.thr := by omega
        obtain ⟨t, s, hs, hu⟩ := cnt_pos.mp hl
        have : s = .woken true := by
          cases s with
          | woken b => cases b with
            | true => rfl
            | false => cases hu
          | _ => cases hu
        subst this
        obtain ⟨p', h1, h2, h3⟩ := fin_exists (p.late min t)
        have hstep : AwakeStep min p p' := .late t hs h1
        by_cases hmin : p.count = min
        · refine Or.inr ⟨p', t, .step hstep (.refl _), ?_⟩
          rw [h2]
          unfold Pool.late
          rw [if_pos hmin]
          unfold Pool.look
          rw [hq]
        · have hinv := awake_inv hi hstep
          have e : p' = (p.late min t).1 := by
            unfold Pool.late at h1 ⊢
            rw [if_neg hmin] at h1 ⊢
            exact h1
          have hcount : p'.count = n := by
            rw [e]
            unfold Pool.late
            rw [if_neg hmin]
            show udecr p.count = n
            unfold udecr
            rw [if_neg (by omega)]
            omega
          have hq' : p'.queue = c :: r := by
            rw [h3]
            unfold Pool.late
            rw [if_neg hmin]
            exact hq
          have hthr : p'.thr = p.thr.set t .gone := by
            rw [e]; unfold Pool.late; rw [if_neg hmin]
          have hout : p'.out = p.out := by
            rw [e]; unfold Pool.late; rw [if_neg hmin]
          rcases ih p' hcount hinv hq' with ⟨t', c', h⟩ | ⟨p'', t', h4, h5⟩
          · rw [hthr, List.getElem?_set] at h
            split at h
            · split at h <;> cases h
            · exact Or.inl ⟨t', c', h⟩
          · exact Or.inr ⟨p'', t', .step hstep h4, by rw [h5, hout]⟩

/-! ### No worker sleeps without need -/

theorem sig_awake {ts ts' : List TSt} (h : Signalled ts ts') : cnt isAwake ts ≤ cnt isAwake ts' ∧ cnt isAsleep ts' ≤ cnt isAsleep ts ∧
    (0 < cnt isAsleep ts → cnt isAwake ts + 1 ≤ cnt isAwake ts') := by
  obtain ⟨h1, h2, h3⟩ := h
  refine ⟨?_, ?_, ?_⟩
  · apply cnt_le_of _ _ h1
    intro i a a' ha ha' hb
    rcases h2 i with h | ⟨⟨b, h⟩, h'⟩
    · rw [ha, ha'] at h; cases h; exact hb
    · rw [ha'] at h'; cases h'; rfl
  · apply cnt_le_of _ _ h1.symm
    intro i a a' ha ha' hb
    rcases h2 i with h | ⟨⟨b, h⟩, h'⟩
    · rw [ha, ha'] at h; cases h; exact hb
    · rw [ha'] at h; cases h; rfl
  · intro hp
    obtain ⟨t, s, hs, hw⟩ := cnt_pos.mp hp
    have : ∃ b, s = .waiting b := by cases s <;> simp_all [isAsleep]
    obtain ⟨b, rfl⟩ := this
    obtain ⟨i, b', h4, h5⟩ := h3 ⟨t, b, hs⟩
    have e := cnt_set isAwake _ _ _ (.waiting b') h5
    have hle : cnt isAwake ts ≤ cnt isAwake (ts'.set i (.waiting b')) := by
      apply cnt_le_of _ _ (by simpa using h1)
      intro j a a' ha ha' hb
      by_cases hj : i = j
      · subst hj
        rw [h4] at ha; cases ha; cases hb
      · rw [List.getElem?_set_ne hj] at ha'
        rcases h2 j with h | ⟨⟨b, h⟩, h'⟩
        · rw [ha, ha'] at h; cases h; exact hb
        · rw [ha'] at h'; cases h'; rfl
    simp [isAwake] at e
    omega

def NoNeed (p : Pool) : Prop := 0 < cnt isAsleep p.thr → p.queue.length ≤ cnt isAwake p.thr

theorem look_noNeed {min : Nat} {p p' : Pool} {t : Nat} {o : TSt} (ho : p.thr[t]? = some o) (hs : isAsleep o = false) (hi : NoNeed p)
    (h : Fin (p.look min t) p') : NoNeed p' := by
  unfold Pool.look at h
  cases hq : p.queue with
  | nil =>
    rw [hq] at h
    have h : p' = { p with queue := [], thr := p.thr.set t (.waiting (p.count != min)) } := h
    subst h
    intro _
    exact Nat.zero_le _
  | cons c r =>
    rw [hq] at h
    have h1 := cnt_set isAwake _ _ _ (.busy c) ho
    have h2 := cnt_set isAsleep _ _ _ (.busy c) ho
    rw [hs] at h2
    simp only [isAsleep, show isAwake (TSt.busy c) = false from rfl, Bool.false_eq_true, if_false, Nat.add_zero] at h1 h2
    have key : 0 < cnt isAsleep (p.thr.set t (.busy c)) → r.length ≤ cnt isAwake (p.thr.set t (.busy c)) := by
      intro hw
      have := hi (by omega)
      rw [hq] at this
      simp only [List.length_cons] at this
      cases ho' : isAwake o <;> rw [ho'] at h1 <;> simp at h1 <;> omega
    unfold Fin at h
    dsimp only at h
    split at h
    · obtain ⟨ts', hs, rfl⟩ := h
      obtain ⟨g1, g2, -⟩ := sig_awake hs
      intro hw
      dsimp only at hw ⊢ g1 g2
      have := key (by omega)
      omega
    · subst h; exact key

theorem step_noNeed {min max : Nat} {p p' : Pool} (hi : NoNeed p) (h : PoolStep min max p p') : NoNeed p' := by
  cases h with
  | awake h =>
    cases h with
    | look t ht h =>
      rcases ht with ht | ht
      · exact look_noNeed ht rfl hi h
      · exact look_noNeed ht rfl hi h
    | late t ht h =>
      unfold Pool.late at h
      split at h
      · exact look_noNeed ht rfl hi h
      · have h : p' = _ := h
        subst h
        have h1 := cnt_set isAwake _ _ _ .gone ht
        have h2 := cnt_set isAsleep _ _ _ .gone ht
        simp [isAwake, isAsleep] at h1 h2
        intro hw
        dsimp only at hw ⊢
        rw [h1]; exact hi (by omega)
  | arrive c h =>
    obtain ⟨ts', hs, rfl⟩ := (h : ∃ ts', Signalled _ ts' ∧ _)
    obtain ⟨g1, g2, g3⟩ := sig_awake hs
    dsimp only at g1 g2 g3
    have hq : (p.enqueue max c).queue.length = p.queue.length + 1 := by
      unfold Pool.enqueue Pool.start; dsimp only; split <;> simp
    have ha : cnt isAwake p.thr ≤ cnt isAwake (p.enqueue max c).thr ∧ cnt isAsleep (p.enqueue max c).thr = cnt isAsleep p.thr := by
      unfold Pool.enqueue Pool.start
      dsimp only
      split
      · dsimp only; rw [cnt_append, cnt_append]; exact ⟨by omega, rfl⟩
      · exact ⟨Nat.le_refl _, rfl⟩
    intro hw
    dsimp only at hw ⊢
    rw [hq]
    have := hi (by omega)
    have := g3 (by omega)
    omega
  | finish t c ht h =>
    subst h
    unfold Pool.finish
    have h1 := cnt_set isAwake _ _ _ .ready ht
    have h2 := cnt_set isAsleep _ _ _ .ready ht
    simp [isAwake, isAsleep] at h1 h2
    intro hw
    dsimp only at hw ⊢
    have := hi (by omega)
    omega
  | timeout t ht h =>
    subst h
    have h1 := cnt_set isAwake _ _ _ (.woken true) ht
    have h2 := cnt_set isAsleep _ _ _ (.woken true) ht
    simp [isAwake, isAsleep] at h1 h2
    intro hw
    dsimp only at hw ⊢
    have := hi (by omega)
    omega
  | spurious t b ht h =>
    subst h
    have h1 := cnt_set isAwake _ _ _ (.woken false) ht
    have h2 := cnt_set isAsleep _ _ _ (.woken false) ht
    simp [isAwake, isAsleep] at h1 h2
    intro hw
    dsimp only at hw ⊢
    have := hi (by omega)
    omega

theorem reach_noNeed {min max : Nat} {p : Pool} (h : PoolReach min max p) : NoNeed p := by
  induction h with
  | start h => intro _; rw [h.queue]; exact Nat.zero_le _
  | step _ hs ih => exact step_noNeed ih hs

end Pound
