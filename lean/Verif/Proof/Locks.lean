import Verif.Spec.Locks

/-! Mutexes: order, release and exclusion. -/

namespace Pound
open Spec

/-- Mutexes held afterwards -/
def heldAfter : List Mutex → List MAct → List Mutex
  | h, [] => h
  | h, .lock m :: t => heldAfter (m :: h) t
  | h, .unlock m :: t => heldAfter (h.erase m) t
  | h, _ :: t => heldAfter h t

theorem heldAfter_append : ∀ (a : List MAct) (h : List Mutex) (b : List MAct), heldAfter h (a ++ b) = heldAfter (heldAfter h a) b
  | [], _, _ => rfl
  | .lock _ :: t, _, b => heldAfter_append t _ b
  | .unlock _ :: t, _, b => heldAfter_append t _ b
  | .read _ :: t, _, b => heldAfter_append t _ b
  | .write _ :: t, _, b => heldAfter_append t _ b

/-- Locked and released -/
def Balanced (a : List MAct) : Prop := ∀ h, heldAfter h a = h

theorem Balanced.nil : Balanced [] := fun _ => rfl
theorem Balanced.append {a b : List MAct} (ha : Balanced a) (hb : Balanced b) : Balanced (a ++ b) := fun h => by rw [heldAfter_append, ha, hb]
theorem Balanced.sect {m : Mutex} {a : List MAct} (ha : Balanced a) : Balanced (sect m a) := by
  intro h
  show heldAfter (m :: h) (a ++ [.unlock m]) = h
  rw [heldAfter_append, ha]
  show (m :: h).erase m = h
  simp
theorem Balanced.flatMap {α} {f : α → List MAct} {l : List α} (hf : ∀ x ∈ l, Balanced (f x)) : Balanced (l.flatMap f) := by
  induction l with
  | nil => exact Balanced.nil
  | cons x t ih =>
    rw [List.flatMap_cons]
    exact (hf x (by simp)).append (ih fun y hy => hf y (by simp [hy]))
theorem Balanced.read {s : Nat} {a : List MAct} (ha : Balanced a) : Balanced (.read s :: a) := fun h => ha h
theorem Balanced.write {s : Nat} {a : List MAct} (ha : Balanced a) : Balanced (.write s :: a) := fun h => ha h
theorem Balanced.ite {c : Prop} [Decidable c] {a b : List MAct} (ha : Balanced a) (hb : Balanced b) : Balanced (if c then a else b) := by
  split
  · exact ha
  · exact hb

theorem bal_be (b : Nat) : Balanced (beA b) := Balanced.nil.sect
theorem bal_job : Balanced jobA := Balanced.nil.sect
theorem bal_log : Balanced logA := Balanced.nil.sect
theorem bal_w (s : Nat) : Balanced [.write s] := Balanced.nil.write
theorem bal_sweepReg (s : Nat) (k : RegKid) : Balanced (sweepRegA s k) := (Balanced.ite (bal_w s) Balanced.nil).sect
theorem bal_sweepMtx (s : Nat) (k : MtxKid) : Balanced (sweepMtxA s k) :=
  (Balanced.ite (((bal_job.append (Balanced.flatMap fun x _ => bal_be x)).append (Balanced.flatMap fun x _ => bal_sweepReg s (x, true))).append (bal_w s)) Balanced.nil).sect
theorem bal_enq (b : Nat) : Balanced (enqueueResolverA b) := (bal_be b).append bal_job
theorem bal_update (s m : Nat) (a : MtxAns) : Balanced (mtxUpdateA s m a) := by
  rcases a with (⟨d, kids, again⟩ | _ | _) | (⟨d, kids, prio, new⟩ | _ | _)
  · refine (Balanced.write (Balanced.ite Balanced.nil ?_)).sect.sect
    exact (((((Balanced.flatMap fun x _ => bal_be x).append (Balanced.flatMap fun x _ => bal_be x)).append (bal_w s)).append (Balanced.flatMap fun x _ => bal_sweepReg s x)).append
      (bal_w s)).append (bal_enq m)
  · exact bal_enq m
  · exact Balanced.nil
  · refine (Balanced.ite Balanced.nil ?_).sect.sect
    exact (((((Balanced.flatMap fun x _ => bal_be x).append (Balanced.flatMap fun x _ => bal_be x)).append (Balanced.flatMap fun x _ => bal_enq x)).append
      (Balanced.flatMap fun x _ => bal_sweepMtx s x)).append (bal_w s)).append (bal_enq m)
  · exact bal_enq m
  · exact Balanced.nil
theorem bal_session (new dup : Bool) : Balanced (sessionAddA new dup) := (Balanced.ite bal_log Balanced.nil).append (Balanced.ite bal_job Balanced.nil)

theorem bal_acts (o : LockOp) : Balanced o.acts := by
  cases o with
  | timer c => exact (Balanced.flatMap fun x _ => by cases x; exact Balanced.nil; exact bal_be _).sect
  | resolver s m a => exact (bal_update s m a).append (bal_be m)
  | expire s more => exact (Balanced.write (Balanced.ite bal_job Balanced.nil)).sect
  | touch s b alive =>
    rcases alive with _ | _ | _
    · exact bal_be b
    · exact bal_job
    · exact (bal_log.append (bal_w s).sect).append (bal_be b)
  | rsagen => exact bal_job.append Balanced.nil.sect
  | rsa => exact Balanced.nil.sect
  | remover s bes => exact (Balanced.flatMap fun x _ => (bal_be x).append (bal_w s)).sect
  | getBackend s res new dup =>
    refine (((Balanced.nil.write.read).append (bal_session new dup)).append ?_).sect
    cases res
    · exact Balanced.nil
    · exact bal_be _
  | updSession s new dup => exact (bal_session new dup).write.sect
  | killBe s b killed => exact (((Balanced.nil.write.read).append bal_log).append (Balanced.ite ((bal_be b).append bal_job) Balanced.nil)).sect
  | backend b => exact bal_be b
  | auth => exact Balanced.nil.sect
  | queue msg => exact (Balanced.ite bal_log Balanced.nil).sect
  | message => exact bal_log
  | list s bes => exact (Balanced.flatMap fun x _ => (bal_be x.1).append (Balanced.ite bal_job Balanced.nil)).read.sect
  | listOne s b time => exact ((bal_be b).append (Balanced.ite bal_job Balanced.nil)).read.sect.read
  | addSession s new dup => exact (bal_session new dup).write.sect.read
  | delSession s => exact (bal_w s).sect
  | control s b => exact ((Balanced.nil.write.read).append bal_log).sect.read
  | disableService s => exact Balanced.nil.read
  | mtxDisable s kids =>
    exact (((Balanced.flatMap fun x _ => bal_be x).read.append (Balanced.flatMap fun x _ => bal_sweepReg s (x, true))).append bal_job).append (bal_w s)
  | srvDisable s kids =>
    exact (((Balanced.flatMap fun x _ => bal_be x).read.append (Balanced.flatMap fun x _ => bal_sweepMtx s { x with marked := true })).append bal_job).append (bal_w s)
  | mtxEnable s m a => exact (bal_update s m a).read

/-! ### Order -/

/-- Ranks of mutexes -/
def mRank (kind : Nat → BeKind) : Mutex → Nat
  | .svc _ => 1
  | .be b => match kind b with | .srv => 2 | .addr => 3 | .regular => 4
  | .job => 5
  | .rsa => 5
  | .crypt => 5
  | .arg => 5
  | .log => 6

theorem mRank_le (kind : Nat → BeKind) (m : Mutex) : mRank kind m ≤ 6 := by
  cases m <;> simp only [mRank] <;> first | omega | (split <;> omega)

/-- Mutexes are locked in ascending order, or again. -/
def Ordered (kind : Nat → BeKind) : List Mutex → List MAct → Prop
  | _, [] => True
  | h, .lock m :: t => (m ∈ h ∨ ∀ x ∈ h, mRank kind x < mRank kind m) ∧ Ordered kind (m :: h) t
  | h, .unlock m :: t => Ordered kind (h.erase m) t
  | h, _ :: t => Ordered kind h t

theorem ordered_append {kind : Nat → BeKind} : ∀ (a : List MAct) (h : List Mutex) (b : List MAct), Ordered kind h (a ++ b) ↔ Ordered kind h a ∧ Ordered kind (heldAfter h a) b
  | [], _, _ => by simp [Ordered, heldAfter]
  | .lock m :: t, h, b => by simp only [List.cons_append, Ordered, heldAfter]; rw [ordered_append t]; exact and_assoc.symm
  | .unlock m :: t, h, b => by simp only [List.cons_append, Ordered, heldAfter]; exact ordered_append t _ b
  | .read _ :: t, h, b => by simp only [List.cons_append, Ordered, heldAfter]; exact ordered_append t _ b
  | .write _ :: t, h, b => by simp only [List.cons_append, Ordered, heldAfter]; exact ordered_append t _ b

/-- Balanced and ordered when started with these mutexes -/
def GoodAt (kind : Nat → BeKind) (h : List Mutex) (a : List MAct) : Prop := Balanced a ∧ Ordered kind h a

theorem GoodAt.nil {kind : Nat → BeKind} {h : List Mutex} : GoodAt kind h [] := ⟨Balanced.nil, trivial⟩
theorem GoodAt.append {kind : Nat → BeKind} {h : List Mutex} {a b : List MAct} (ha : GoodAt kind h a) (hb : GoodAt kind h b) : GoodAt kind h (a ++ b) :=
  ⟨ha.1.append hb.1, (ordered_append a h b).2 ⟨ha.2, by rw [ha.1 h]; exact hb.2⟩⟩
theorem GoodAt.sect {kind : Nat → BeKind} {h : List Mutex} {m : Mutex} {a : List MAct} (hm : m ∈ h ∨ ∀ x ∈ h, mRank kind x < mRank kind m) (ha : GoodAt kind (m :: h) a) :
    GoodAt kind h (sect m a) :=
  ⟨ha.1.sect, hm, (ordered_append a (m :: h) _).2 ⟨ha.2, trivial⟩⟩
theorem GoodAt.flatMap {kind : Nat → BeKind} {h : List Mutex} {α} {f : α → List MAct} {l : List α} (hf : ∀ x ∈ l, GoodAt kind h (f x)) : GoodAt kind h (l.flatMap f) := by
  induction l with
  | nil => exact GoodAt.nil
  | cons x t ih =>
    rw [List.flatMap_cons]
    exact (hf x (by simp)).append (ih fun y hy => hf y (by simp [hy]))
theorem GoodAt.read {kind : Nat → BeKind} {h : List Mutex} {s : Nat} {a : List MAct} (ha : GoodAt kind h a) : GoodAt kind h (.read s :: a) := ⟨ha.1.read, ha.2⟩
theorem GoodAt.write {kind : Nat → BeKind} {h : List Mutex} {s : Nat} {a : List MAct} (ha : GoodAt kind h a) : GoodAt kind h (.write s :: a) := ⟨ha.1.write, ha.2⟩
theorem GoodAt.ite {kind : Nat → BeKind} {h : List Mutex} {c : Prop} [Decidable c] {a b : List MAct} (ha : GoodAt kind h a) (hb : GoodAt kind h b) : GoodAt kind h (if c then a else b) := by
  split
  · exact ha
  · exact hb

variable {kind : Nat → BeKind}

/-- All mutexes held have lower rank. -/
def Below (kind : Nat → BeKind) (n : Nat) (h : List Mutex) : Prop := ∀ x ∈ h, mRank kind x < n

theorem Below.nil {n : Nat} : Below kind n [] := fun _ h => nomatch h
theorem Below.cons {n : Nat} {h : List Mutex} {m : Mutex} (hm : mRank kind m < n) (hb : Below kind n h) : Below kind n (m :: h) := by
  intro x hx
  rcases List.mem_cons.1 hx with rfl | hx
  · exact hm
  · exact hb x hx
theorem Below.mono {n k : Nat} {h : List Mutex} (hb : Below kind n h) (hn : n ≤ k) : Below kind k h := fun x hx => Nat.lt_of_lt_of_le (hb x hx) hn

theorem good_job {h : List Mutex} (hb : Below kind 5 h) : GoodAt kind h jobA := GoodAt.sect (Or.inr hb) GoodAt.nil
theorem good_log {h : List Mutex} (hb : Below kind 6 h) : GoodAt kind h logA := GoodAt.sect (Or.inr hb) GoodAt.nil
theorem goodAt_be {h : List Mutex} {b : Nat} (hb : .be b ∈ h ∨ Below kind (mRank kind (.be b)) h) : GoodAt kind h (beA b) := GoodAt.sect hb GoodAt.nil
theorem good_w {h : List Mutex} (s : Nat) : GoodAt kind h [.write s] := GoodAt.nil.write

theorem rank_regular {b : Nat} (h : kind b = .regular) : mRank kind (.be b) = 4 := by simp [mRank, h]
theorem rank_addr {b : Nat} (h : kind b = .addr) : mRank kind (.be b) = 3 := by simp [mRank, h]
theorem rank_srv {b : Nat} (h : kind b = .srv) : mRank kind (.be b) = 2 := by simp [mRank, h]
theorem rank_be_lt (b : Nat) : mRank kind (.be b) < 5 ∧ 1 < mRank kind (.be b) := by cases h : kind b <;> simp [mRank, h]

theorem good_sweepReg {h : List Mutex} (s : Nat) {k : RegKid} (hk : kind k.1 = .regular) (hb : Below kind 4 h) : GoodAt kind h (sweepRegA s k) :=
  GoodAt.sect (Or.inr (by rw [rank_regular hk]; exact hb)) (GoodAt.ite (good_w s) GoodAt.nil)

theorem good_sweepMtx {h : List Mutex} (s : Nat) {k : MtxKid} (hk : GoodMtxKid kind k) (hb : Below kind 3 h) : GoodAt kind h (sweepMtxA s k) := by
  have h1 : Below kind 4 (Mutex.be k.id :: h) := Below.cons (by rw [rank_addr hk.1]; omega) (hb.mono (by omega))
  refine GoodAt.sect (Or.inr (by rw [rank_addr hk.1]; exact hb)) (GoodAt.ite ?_ GoodAt.nil)
  refine (((good_job (h1.mono (by omega))).append (GoodAt.flatMap fun x hx => goodAt_be (Or.inr ?_))).append (GoodAt.flatMap fun x hx => good_sweepReg s (hk.2 x hx) h1)).append (good_w s)
  rw [rank_regular (hk.2 x hx)]
  exact h1

theorem good_enq {h : List Mutex} {b : Nat} (hb : .be b ∈ h ∨ Below kind (mRank kind (.be b)) h) (h5 : Below kind 5 h) : GoodAt kind h (enqueueResolverA b) :=
  (goodAt_be hb).append (good_job h5)

theorem good_update (s : Nat) {m : Nat} {a : MtxAns} (ha : GoodMtxAns kind m a) : GoodAt kind [] (mtxUpdateA s m a) := by
  have hm := rank_be_lt (kind := kind) m
  have hsvc : Below kind (mRank kind (.be m)) [Mutex.svc s] := Below.cons (by simp only [mRank]; exact hm.2) Below.nil
  have h5 : Below kind 5 [Mutex.be m, .svc s] := Below.cons hm.1 (hsvc.mono (by omega))
  have henq : GoodAt kind [Mutex.be m, .svc s] (enqueueResolverA m) := good_enq (Or.inl (by simp)) h5
  have hout : GoodAt kind [] (enqueueResolverA m) := good_enq (Or.inr Below.nil) Below.nil
  rcases a with (⟨d, kids, again⟩ | _ | _) | (⟨d, kids, prio, new⟩ | _ | _)
  · obtain ⟨h1, h2, h3⟩ := ha
    have hlt : mRank kind (.be m) < 4 := by cases hk : kind m <;> simp [mRank, hk]; exact absurd hk h1
    have h4 : Below kind 4 [Mutex.be m, .svc s] := Below.cons hlt (hsvc.mono (by omega))
    refine GoodAt.sect (Or.inr Below.nil) (GoodAt.sect (Or.inr hsvc) (GoodAt.write (GoodAt.ite GoodAt.nil ?_)))
    refine (((((GoodAt.flatMap fun x hx => goodAt_be (Or.inr ?_)).append (GoodAt.flatMap fun x hx => goodAt_be (Or.inr ?_))).append (good_w s)).append
      (GoodAt.flatMap fun x hx => good_sweepReg s (h2 x hx) h4)).append (good_w s)).append henq
    · obtain ⟨k, hk, rfl⟩ := List.mem_map.1 hx
      rw [rank_regular (h2 k hk)]; exact h4
    · rw [rank_regular (h3 x hx)]; exact h4
  · exact hout
  · exact GoodAt.nil
  · obtain ⟨h1, h2, h3, h4⟩ := ha
    have h3' : Below kind 3 [Mutex.be m, .svc s] := Below.cons (by rw [rank_srv h1]; omega) (hsvc.mono (by rw [rank_srv h1]; omega))
    refine GoodAt.sect (Or.inr Below.nil) (GoodAt.sect (Or.inr hsvc) (GoodAt.ite GoodAt.nil ?_))
    refine (((((GoodAt.flatMap fun x hx => goodAt_be (Or.inr ?_)).append (GoodAt.flatMap fun x hx => goodAt_be (Or.inr ?_))).append (GoodAt.flatMap fun x hx => good_enq (Or.inr ?_) h5)).append
      (GoodAt.flatMap fun x hx => good_sweepMtx s (h2 x hx) h3')).append (good_w s)).append henq
    · obtain ⟨k, hk, rfl⟩ := List.mem_map.1 hx
      rw [rank_addr (h2 k hk).1]; exact h3'
    · rw [rank_regular (h3 x hx)]; exact h3'.mono (by omega)
    · rw [rank_addr (h4 x hx)]; exact h3'
  · exact hout
  · exact GoodAt.nil

theorem good_session {h : List Mutex} (hb : Below kind 5 h) (new dup : Bool) : GoodAt kind h (sessionAddA new dup) :=
  (GoodAt.ite (good_log (hb.mono (by omega))) GoodAt.nil).append (GoodAt.ite (good_job hb) GoodAt.nil)

theorem below_svc (s : Nat) {n : Nat} (hn : 1 < n) : Below kind n [Mutex.svc s] := Below.cons hn Below.nil

theorem good_beSvc (s b : Nat) : GoodAt kind [Mutex.svc s] (beA b) := goodAt_be (Or.inr (below_svc s (rank_be_lt b).2))

theorem good_acts {o : LockOp} (hk : GoodKinds kind o) (hc : NoCancel o) : GoodAt kind [] o.acts := by
  have hj : GoodAt kind [] jobA := good_job Below.nil
  have hl : GoodAt kind [] logA := good_log Below.nil
  have hb : ∀ b, GoodAt kind [] (beA b) := fun b => goodAt_be (Or.inr Below.nil)
  have htop : ∀ {m : Mutex} {a : List MAct}, GoodAt kind [m] a → GoodAt kind [] (sect m a) := fun ha => GoodAt.sect (Or.inr Below.nil) ha
  have hjs : ∀ s, GoodAt kind [Mutex.svc s] jobA := fun s => good_job (below_svc s (by omega))
  have hls : ∀ s, GoodAt kind [Mutex.svc s] logA := fun s => good_log (below_svc s (by omega))
  cases o with
  | timer c =>
    refine htop (GoodAt.flatMap fun x hx => ?_)
    rw [hc x hx]
    exact GoodAt.nil
  | resolver s m a => exact (good_update s hk).append (hb m)
  | expire s more => exact htop (GoodAt.write (GoodAt.ite (hjs s) GoodAt.nil))
  | touch s b alive =>
    rcases alive with _ | _ | _
    · exact hb b
    · exact hj
    · exact (hl.append (htop (good_w s))).append (hb b)
  | rsagen => exact hj.append (htop GoodAt.nil)
  | rsa => exact htop GoodAt.nil
  | remover s bes => exact htop (GoodAt.flatMap fun x _ => (good_beSvc s x).append (good_w s))
  | getBackend s res new dup =>
    refine htop (((GoodAt.nil.write.read).append (good_session (below_svc s (by omega)) new dup)).append ?_)
    cases res
    · exact GoodAt.nil
    · exact good_beSvc s _
  | updSession s new dup => exact htop (good_session (below_svc s (by omega)) new dup).write
  | killBe s b killed => exact htop (((GoodAt.nil.write.read).append (hls s)).append (GoodAt.ite ((good_beSvc s b).append (hjs s)) GoodAt.nil))
  | backend b => exact hb b
  | auth => exact htop GoodAt.nil
  | queue msg => exact htop (GoodAt.ite (good_log (Below.cons (by simp [mRank]) Below.nil)) GoodAt.nil)
  | message => exact hl
  | list s bes => exact htop (GoodAt.flatMap fun x _ => (good_beSvc s x.1).append (GoodAt.ite (hjs s) GoodAt.nil)).read
  | listOne s b time => exact (htop ((good_beSvc s b).append (GoodAt.ite (hjs s) GoodAt.nil)).read).read
  | addSession s new dup => exact (htop (good_session (below_svc s (by omega)) new dup).write).read
  | delSession s => exact htop (good_w s)
  | control s b => exact (htop ((GoodAt.nil.write.read).append (hls s))).read
  | disableService s => exact GoodAt.nil.read
  | mtxDisable s kids =>
    exact (((GoodAt.flatMap fun x _ => hb x).read.append (GoodAt.flatMap fun x hx => good_sweepReg s (hk x hx) Below.nil)).append hj).append (good_w s)
  | srvDisable s kids =>
    exact (((GoodAt.flatMap fun x _ => hb x).read.append (GoodAt.flatMap fun x hx => good_sweepMtx s (k := { x with marked := true }) (hk x hx) Below.nil)).append hj).append (good_w s)
  | mtxEnable s m a => exact (good_update s hk).read

/-! ### Guarded accesses -/

/-- Accesses to tables happen while the mutex of the service is held. -/
def Guarded : List Mutex → List MAct → Prop
  | _, [] => True
  | h, .lock m :: t => Guarded (m :: h) t
  | h, .unlock m :: t => Guarded (h.erase m) t
  | h, .read s :: t => .svc s ∈ h ∧ Guarded h t
  | h, .write s :: t => .svc s ∈ h ∧ Guarded h t

theorem guarded_append : ∀ (a : List MAct) (h : List Mutex) (b : List MAct), Guarded h (a ++ b) ↔ Guarded h a ∧ Guarded (heldAfter h a) b
  | [], _, _ => by simp [Guarded, heldAfter]
  | .lock m :: t, h, b => by simp only [List.cons_append, Guarded, heldAfter]; exact guarded_append t _ b
  | .unlock m :: t, h, b => by simp only [List.cons_append, Guarded, heldAfter]; exact guarded_append t _ b
  | .read _ :: t, h, b => by simp only [List.cons_append, Guarded, heldAfter]; rw [guarded_append t]; exact and_assoc.symm
  | .write _ :: t, h, b => by simp only [List.cons_append, Guarded, heldAfter]; rw [guarded_append t]; exact and_assoc.symm

def SafeAt (h : List Mutex) (a : List MAct) : Prop := Balanced a ∧ Guarded h a

theorem SafeAt.nil {h : List Mutex} : SafeAt h [] := ⟨Balanced.nil, trivial⟩
theorem SafeAt.append {h : List Mutex} {a b : List MAct} (ha : SafeAt h a) (hb : SafeAt h b) : SafeAt h (a ++ b) :=
  ⟨ha.1.append hb.1, (guarded_append a h b).2 ⟨ha.2, by rw [ha.1 h]; exact hb.2⟩⟩
theorem SafeAt.sect {h : List Mutex} {m : Mutex} {a : List MAct} (ha : SafeAt (m :: h) a) : SafeAt h (sect m a) :=
  ⟨ha.1.sect, (guarded_append a (m :: h) _).2 ⟨ha.2, trivial⟩⟩
theorem SafeAt.flatMap {h : List Mutex} {α} {f : α → List MAct} {l : List α} (hf : ∀ x ∈ l, SafeAt h (f x)) : SafeAt h (l.flatMap f) := by
  induction l with
  | nil => exact SafeAt.nil
  | cons x t ih =>
    rw [List.flatMap_cons]
    exact (hf x (by simp)).append (ih fun y hy => hf y (by simp [hy]))
theorem SafeAt.read {h : List Mutex} {s : Nat} {a : List MAct} (hs : .svc s ∈ h) (ha : SafeAt h a) : SafeAt h (.read s :: a) := ⟨ha.1.read, hs, ha.2⟩
theorem SafeAt.write {h : List Mutex} {s : Nat} {a : List MAct} (hs : .svc s ∈ h) (ha : SafeAt h a) : SafeAt h (.write s :: a) := ⟨ha.1.write, hs, ha.2⟩
theorem SafeAt.ite {h : List Mutex} {c : Prop} [Decidable c] {a b : List MAct} (ha : SafeAt h a) (hb : SafeAt h b) : SafeAt h (if c then a else b) := by
  split
  · exact ha
  · exact hb

theorem safe_be {h : List Mutex} (b : Nat) : SafeAt h (beA b) := SafeAt.nil.sect
theorem safe_job {h : List Mutex} : SafeAt h jobA := SafeAt.nil.sect
theorem safe_log {h : List Mutex} : SafeAt h logA := SafeAt.nil.sect
theorem safe_w {h : List Mutex} {s : Nat} (hs : .svc s ∈ h) : SafeAt h [.write s] := SafeAt.nil.write hs
theorem safe_sweepReg {h : List Mutex} {s : Nat} (hs : .svc s ∈ h) (k : RegKid) : SafeAt h (sweepRegA s k) :=
  (SafeAt.ite (safe_w (List.mem_cons_of_mem _ hs)) SafeAt.nil).sect
theorem safe_sweepMtx {h : List Mutex} {s : Nat} (hs : .svc s ∈ h) (k : MtxKid) : SafeAt h (sweepMtxA s k) :=
  (SafeAt.ite (((safe_job.append (SafeAt.flatMap fun x _ => safe_be x)).append (SafeAt.flatMap fun x _ => safe_sweepReg (List.mem_cons_of_mem _ hs) (x, true))).append
    (safe_w (List.mem_cons_of_mem _ hs))) SafeAt.nil).sect
theorem safe_enq {h : List Mutex} (b : Nat) : SafeAt h (enqueueResolverA b) := (safe_be b).append safe_job
theorem safe_update {h : List Mutex} (s m : Nat) (a : MtxAns) : SafeAt h (mtxUpdateA s m a) := by
  have hs : Mutex.svc s ∈ (.be m :: .svc s :: h) := by simp
  rcases a with (⟨d, kids, again⟩ | _ | _) | (⟨d, kids, prio, new⟩ | _ | _)
  · refine (SafeAt.write hs (SafeAt.ite SafeAt.nil ?_)).sect.sect
    exact (((((SafeAt.flatMap fun x _ => safe_be x).append (SafeAt.flatMap fun x _ => safe_be x)).append (safe_w hs)).append (SafeAt.flatMap fun x _ => safe_sweepReg hs x)).append
      (safe_w hs)).append (safe_enq m)
  · exact safe_enq m
  · exact SafeAt.nil
  · refine (SafeAt.ite SafeAt.nil ?_).sect.sect
    exact (((((SafeAt.flatMap fun x _ => safe_be x).append (SafeAt.flatMap fun x _ => safe_be x)).append (SafeAt.flatMap fun x _ => safe_enq x)).append
      (SafeAt.flatMap fun x _ => safe_sweepMtx hs x)).append (safe_w hs)).append (safe_enq m)
  · exact safe_enq m
  · exact SafeAt.nil
theorem safe_session {h : List Mutex} (new dup : Bool) : SafeAt h (sessionAddA new dup) := (SafeAt.ite safe_log SafeAt.nil).append (SafeAt.ite safe_job SafeAt.nil)

theorem safe_acts {o : LockOp} (ho : NotByControl o) : SafeAt [] o.acts := by
  have hs : ∀ s, Mutex.svc s ∈ [Mutex.svc s] := fun s => by simp
  cases o with
  | timer c => exact (SafeAt.flatMap fun x _ => by cases x; exact SafeAt.nil; exact safe_be _).sect
  | resolver s m a => exact (safe_update s m a).append (safe_be m)
  | expire s more => exact (SafeAt.write (hs s) (SafeAt.ite safe_job SafeAt.nil)).sect
  | touch s b alive =>
    rcases alive with _ | _ | _
    · exact safe_be b
    · exact safe_job
    · exact (safe_log.append (safe_w (hs s)).sect).append (safe_be b)
  | rsagen => exact safe_job.append SafeAt.nil.sect
  | rsa => exact SafeAt.nil.sect
  | remover s bes => exact (SafeAt.flatMap fun x _ => (safe_be x).append (safe_w (hs s))).sect
  | getBackend s res new dup =>
    refine (((SafeAt.read (hs s) (SafeAt.write (hs s) SafeAt.nil)).append (safe_session new dup)).append ?_).sect
    cases res
    · exact SafeAt.nil
    · exact safe_be _
  | updSession s new dup => exact (SafeAt.write (hs s) (safe_session new dup)).sect
  | killBe s b killed => exact (((SafeAt.read (hs s) (SafeAt.write (hs s) SafeAt.nil)).append safe_log).append (SafeAt.ite ((safe_be b).append safe_job) SafeAt.nil)).sect
  | backend b => exact safe_be b
  | auth => exact SafeAt.nil.sect
  | queue msg => exact (SafeAt.ite safe_log SafeAt.nil).sect
  | message => exact safe_log
  | list s bes => exact (SafeAt.read (hs s) (SafeAt.flatMap fun x _ => (safe_be x.1).append (SafeAt.ite safe_job SafeAt.nil))).sect
  | delSession s => exact (safe_w (hs s)).sect
  | _ => exact ho.elim

/-! ### Executions -/

/-- A property of threads that steps of the thread keep -/
def StepClosed (P : List Mutex → List MAct → Prop) : Prop :=
  (∀ h m t, P h (.lock m :: t) → P (m :: h) t) ∧ (∀ h m t, P h (.unlock m :: t) → P (h.erase m) t) ∧ (∀ h s t, P h (.read s :: t) → P h t) ∧ (∀ h s t, P h (.write s :: t) → P h t)

theorem stepClosed_ordered : StepClosed (Ordered kind) := ⟨fun _ _ _ h => h.2, fun _ _ _ h => h, fun _ _ _ h => h, fun _ _ _ h => h⟩
theorem stepClosed_guarded : StepClosed Guarded := ⟨fun _ _ _ h => h, fun _ _ _ h => h, fun _ _ _ h => h.2, fun _ _ _ h => h.2⟩
theorem stepClosed_after : StepClosed (fun h a => heldAfter h a = []) := ⟨fun _ _ _ h => h, fun _ _ _ h => h, fun _ _ _ h => h, fun _ _ _ h => h⟩

/-- What a step does -/
theorem mStep_cases {ts us : List MThread} {i : Nat} (e : mStep ts i = some us) : ∃ t u, ts[i]? = some t ∧ us = ts.set i u ∧
    ((∃ m r, t.rest = .lock m :: r ∧ mFree ts m i ∧ u = ⟨m :: t.held, r⟩) ∨ (∃ m r, t.rest = .unlock m :: r ∧ u = ⟨t.held.erase m, r⟩) ∨
      ∃ a r, t.rest = a :: r ∧ (∃ s, a = .read s ∨ a = .write s) ∧ u = ⟨t.held, r⟩) := by
  unfold mStep at e
  cases ht : ts[i]? with
  | none => rw [ht] at e; cases e
  | some t =>
    rw [ht] at e
    dsimp only at e
    refine ⟨t, ?_⟩
    cases hr : t.rest with
    | nil => rw [hr] at e; cases e
    | cons a r =>
      rw [hr] at e
      cases a with
      | lock m =>
        dsimp only at e
        split at e
        · rename_i hf
          cases e
          exact ⟨_, rfl, rfl, Or.inl ⟨m, r, rfl, hf, rfl⟩⟩
        · cases e
      | unlock m => cases e; exact ⟨_, rfl, rfl, Or.inr (Or.inl ⟨m, r, rfl, rfl⟩)⟩
      | read s => cases e; exact ⟨_, rfl, rfl, Or.inr (Or.inr ⟨_, r, rfl, ⟨s, Or.inl rfl⟩, rfl⟩)⟩
      | write s => cases e; exact ⟨_, rfl, rfl, Or.inr (Or.inr ⟨_, r, rfl, ⟨s, Or.inr rfl⟩, rfl⟩)⟩

theorem step_keeps {P : List Mutex → List MAct → Prop} (hP : StepClosed P) {ts us : List MThread} {i : Nat} (h : ∀ t ∈ ts, P t.held t.rest) (e : mStep ts i = some us) :
    ∀ t ∈ us, P t.held t.rest := by
  obtain ⟨t, u, ht, rfl, hc⟩ := mStep_cases e
  have hPt := h t (List.mem_of_getElem? ht)
  intro v hv
  rcases List.mem_or_eq_of_mem_set hv with hv | rfl
  · exact h v hv
  · rcases hc with ⟨m, r, hr, _, rfl⟩ | ⟨m, r, hr, rfl⟩ | ⟨a, r, hr, ⟨s, rfl | rfl⟩, rfl⟩ <;> rw [hr] at hPt
    · exact hP.1 _ _ _ hPt
    · exact hP.2.1 _ _ _ hPt
    · exact hP.2.2.1 _ _ _ hPt
    · exact hP.2.2.2 _ _ _ hPt

/-- Mutexes have one owner. -/
def Exclusive (ts : List MThread) : Prop := ∀ (i j : Nat), i ≠ j → ∀ t u : MThread, ts[i]? = some t → ts[j]? = some u → ∀ m ∈ t.held, m ∉ u.held

theorem free_not_held {ts : List MThread} {m : Mutex} {i j : Nat} (hf : mFree ts m i) (hj : j ≠ i) {u : MThread} (hu : ts[j]? = some u) : m ∉ u.held := by
  obtain ⟨hl, rfl⟩ := List.getElem?_eq_some_iff.1 hu
  exact hf j hl hj

theorem step_exclusive {ts us : List MThread} {i : Nat} (h : Exclusive ts) (e : mStep ts i = some us) : Exclusive us := by
  obtain ⟨t, u, ht, rfl, hc⟩ := mStep_cases e
  have hlt : i < ts.length := (List.getElem?_eq_some_iff.1 ht).1
  -- what the thread holds now, it held before or nobody else did
  have key : ∀ j v, j ≠ i → ts[j]? = some v → ∀ m ∈ u.held, m ∉ v.held := by
    intro j v hj hv m hm
    have hold : ∀ m ∈ t.held, m ∉ v.held := fun m hm => h i j (Ne.symm hj) t v ht hv m hm
    rcases hc with ⟨m', r, hr, hf, rfl⟩ | ⟨m', r, hr, rfl⟩ | ⟨a, r, hr, _, rfl⟩
    · rcases List.mem_cons.1 hm with rfl | hm
      · exact free_not_held hf hj hv
      · exact hold m hm
    · exact hold m (List.mem_of_mem_erase hm)
    · exact hold m hm
  intro a b hab x y hx hy m hm hm'
  rw [List.getElem?_set] at hx hy
  by_cases ha : i = a
  · subst ha
    rw [if_pos rfl, if_pos hlt] at hx
    rw [if_neg hab] at hy
    cases hx
    exact key b y (Ne.symm hab) hy m hm hm'
  · rw [if_neg ha] at hx
    by_cases hb : i = b
    · subst hb
      rw [if_pos rfl, if_pos hlt] at hy
      cases hy
      exact key a x hab hx m hm' hm
    · rw [if_neg hb] at hy
      exact h a b hab x y hx hy m hm hm'

theorem start_exclusive (ops : List (List LockOp)) : Exclusive (ops.map MThread.start) := by
  intro i j _ t u ht _ m hm
  obtain ⟨o, _, rfl⟩ := List.mem_map.1 (List.mem_of_getElem? ht)
  cases hm

theorem inter_keeps {P : List Mutex → List MAct → Prop} (hP : StepClosed P) {ts us : List MThread} (h : ∀ t ∈ ts, P t.held t.rest) (hi : Interleaved ts us) : ∀ t ∈ us, P t.held t.rest := by
  induction hi with
  | start => exact h
  | step i _ e ih => exact step_keeps hP ih e

theorem inter_exclusive {ops : List (List LockOp)} {us : List MThread} (hi : Interleaved (ops.map MThread.start) us) : Exclusive us := by
  induction hi with
  | start => exact start_exclusive ops
  | step i _ e ih => exact step_exclusive ih e

theorem start_after (ops : List (List LockOp)) : ∀ t ∈ ops.map MThread.start, heldAfter t.held t.rest = [] := by
  intro t ht
  obtain ⟨o, _, rfl⟩ := List.mem_map.1 ht
  exact Balanced.flatMap (fun x _ => bal_acts x) []

theorem start_ordered {ops : List (List LockOp)} (hk : ∀ os ∈ ops, ∀ o ∈ os, GoodKinds kind o ∧ NoCancel o) : ∀ t ∈ ops.map MThread.start, Ordered kind t.held t.rest := by
  intro t ht
  obtain ⟨os, hos, rfl⟩ := List.mem_map.1 ht
  exact (GoodAt.flatMap fun o ho => good_acts (hk os hos o ho).1 (hk os hos o ho).2).2

theorem start_guarded {ops : List (List LockOp)} (hk : ∀ os ∈ ops, ∀ o ∈ os, NotByControl o) : ∀ t ∈ ops.map MThread.start, Guarded t.held t.rest := by
  intro t ht
  obtain ⟨os, hos, rfl⟩ := List.mem_map.1 ht
  exact (SafeAt.flatMap fun o ho => safe_acts (hk os hos o ho)).2

/-- Who waits for a holder who waits himself, waits for a lower rank. -/
theorem waits_rank {ts : List MThread} (ho : ∀ t ∈ ts, Ordered kind t.held t.rest) (hx : Exclusive ts) {i j k : Nat} {m n : Mutex} {u : MThread} (hu : ts[j]? = some u) (hm : m ∈ u.held)
    (hn : AboutTo ts j (.lock n)) (hk : k ≠ j) {v : MThread} (hv : ts[k]? = some v) (hnv : n ∈ v.held) : mRank kind m < mRank kind n := by
  obtain ⟨t, r, ht, hr⟩ := hn
  rw [hu] at ht
  cases ht
  have h1 := ho u (List.mem_of_getElem? hu)
  rw [hr] at h1
  rcases h1.1 with h1 | h1
  · exact absurd hnv (hx j k (Ne.symm hk) u v hu hv n h1)
  · exact h1 m hm

theorem no_circle {ts : List MThread} (ho : ∀ t ∈ ts, Ordered kind t.held t.rest) (hx : Exclusive ts) : ¬ CircularWait ts := by
  rintro ⟨is, hne, hw⟩
  -- ranks of wanted mutexes grow without bound
  have key : ∀ n : Nat, ∃ i ∈ is, ∃ m, AboutTo ts i (.lock m) ∧ n ≤ mRank kind m ∧ ∃ j ∈ is, i ≠ j ∧ ∃ u, ts[j]? = some u ∧ m ∈ u.held := by
    intro n
    induction n with
    | zero =>
      obtain ⟨i, t, rfl⟩ := List.exists_cons_of_ne_nil hne
      obtain ⟨j, hj, hij, m, hm, u, hu, hmu⟩ := hw i (by simp)
      exact ⟨i, by simp, m, hm, Nat.zero_le _, j, hj, hij, u, hu, hmu⟩
    | succ n ih =>
      obtain ⟨i, hi, m, hm, hn, j, hj, hij, u, hu, hmu⟩ := ih
      obtain ⟨k, hk, hjk, m', hm', v, hv, hmv⟩ := hw j hj
      have := waits_rank (i := i) ho hx hu hmu hm' (Ne.symm hjk) hv hmv
      exact ⟨j, hj, m', hm', by omega, k, hk, hjk, v, hv, hmv⟩
  obtain ⟨i, _, m, _, hn, _⟩ := key 7
  have := mRank_le kind m
  omega

theorem lock_progress {ts : List MThread} (ho : ∀ t ∈ ts, Ordered kind t.held t.rest) (hx : Exclusive ts) (ha : ∀ t ∈ ts, heldAfter t.held t.rest = []) : AllDone ts ∨ ∃ i us, mStep ts i = some us := by
  by_cases hd : AllDone ts
  · exact Or.inl hd
  · refine Or.inr ?_
    by_cases hs : ∃ i us, mStep ts i = some us
    · exact hs
    · exfalso
      have hstuck : ∀ i, mStep ts i = none := by
        intro i
        cases e : mStep ts i with
        | none => rfl
        | some us => exact absurd ⟨i, us, e⟩ hs
      -- every thread that is not done waits for another one, which is not done either
      have hwait : ∀ i, (∃ t, ts[i]? = some t ∧ t.rest ≠ []) → ∃ j, WaitsFor ts i j ∧ ∃ u, ts[j]? = some u ∧ u.rest ≠ [] := by
        rintro i ⟨t, ht, hr⟩
        have e := hstuck i
        unfold mStep at e
        rw [ht] at e
        dsimp only at e
        cases hrest : t.rest with
        | nil => exact absurd hrest hr
        | cons a r =>
          rw [hrest] at e
          cases a with
          | unlock m => cases e
          | read s => cases e
          | write s => cases e
          | lock m =>
            dsimp only at e
            split at e
            · cases e
            · rename_i hf
              have : ∃ j, ∃ h : j < ts.length, j ≠ i ∧ m ∈ ts[j].held := by
                by_cases hh : ∃ j, ∃ h : j < ts.length, j ≠ i ∧ m ∈ ts[j].held
                · exact hh
                · exact absurd (fun j hl hj hm => hh ⟨j, hl, hj, hm⟩) hf
              obtain ⟨j, hl, hj, hm⟩ := this
              refine ⟨j, ⟨Ne.symm hj, m, ⟨t, r, ht, hrest⟩, ts[j], List.getElem?_eq_getElem hl, hm⟩, ts[j], List.getElem?_eq_getElem hl, ?_⟩
              intro hnil
              have := ha ts[j] (List.getElem_mem hl)
              rw [hnil] at this
              rw [show ts[j].held = [] from this] at hm
              cases hm
      obtain ⟨t, ht, hr⟩ : ∃ t ∈ ts, t.rest ≠ [] := by
        by_cases hh : ∃ t ∈ ts, t.rest ≠ []
        · exact hh
        · exact absurd (fun t ht => Classical.byContradiction fun hr => hh ⟨t, ht, hr⟩) hd
      obtain ⟨i, hl, rfl⟩ := List.getElem_of_mem ht
      refine no_circle ho hx ⟨(List.range ts.length).filter fun i => decide (∃ t, ts[i]? = some t ∧ t.rest ≠ []), ?_, ?_⟩
      · intro hnil
        have : i ∈ (List.range ts.length).filter fun i => decide (∃ t, ts[i]? = some t ∧ t.rest ≠ []) := by
          rw [List.mem_filter]
          exact ⟨List.mem_range.2 hl, decide_eq_true ⟨_, List.getElem?_eq_getElem hl, hr⟩⟩
        rw [hnil] at this
        cases this
      · intro k hk
        rw [List.mem_filter] at hk
        obtain ⟨j, hw, u, hu, hur⟩ := hwait k (of_decide_eq_true hk.2)
        refine ⟨j, ?_, hw⟩
        rw [List.mem_filter]
        exact ⟨List.mem_range.2 (List.getElem?_eq_some_iff.1 hu).1, decide_eq_true ⟨u, hu, hur⟩⟩

theorem no_race {ts : List MThread} (hg : ∀ t ∈ ts, Guarded t.held t.rest) (hx : Exclusive ts) (s : Nat) : ¬ Race ts s := by
  rintro ⟨i, j, hij, ⟨t, r, ht, hr⟩, hj⟩
  have h1 := hg t (List.mem_of_getElem? ht)
  rw [hr] at h1
  have h2 : ∃ u, ts[j]? = some u ∧ Mutex.svc s ∈ u.held := by
    rcases hj with ⟨u, r', hu, hr'⟩ | ⟨u, r', hu, hr'⟩ <;> have h3 := hg u (List.mem_of_getElem? hu) <;> rw [hr'] at h3 <;> exact ⟨u, hu, h3.1⟩
  obtain ⟨u, hu, hm⟩ := h2
  exact hx i j hij t u ht hu _ h1.1 hm

end Pound
