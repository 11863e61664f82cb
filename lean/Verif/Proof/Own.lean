import Verif.Model.Own
import Verif.Proof.Exchange

/-!
Ownership: triples over the heap of Model/Own.lean.  A resource is the number of times that each block is owned; the blocks in use are those owned by the program and by the rest (the frame).
-/

namespace Pound
open Spec

abbrev Rsrc := Nat → Nat

/-- One block -/
def one (b x : Nat) : Nat := if x = b then 1 else 0

theorem one_self (b : Nat) : one b b = 1 := if_pos rfl
theorem one_ne {b x : Nat} (h : x ≠ b) : one b x = 0 := if_neg h

def optOwn : Option Nat → Rsrc
  | none, _ => 0
  | some b, x => one b x

theorem optOwn_none (x : Nat) : optOwn none x = 0 := rfl
theorem optOwn_some (b x : Nat) : optOwn (some b) x = one b x := rfl

/-- Blocks in use are known to the allocator, and are in use once. -/
structure Mem.Ok (h : Mem) : Prop where
  old : ∀ x ∈ h.live, x < h.next
  nodup : h.live.Nodup

/-- With the resource `A` the program runs without faults, its result is as `P` says, and the resource is then `R` of the result; all other blocks are left alone. `nf`: only if no allocation fails. -/
def Hoare (nf : Bool) {α : Type} (A : Rsrc) (m : HM α) (R : α → Rsrc) (P : α → Prop) : Prop :=
  ∀ (h : Mem) (F : Rsrc), h.Ok → (nf = true → ∀ k, h.oom k = false) → (∀ x, h.live.count x = A x + F x) →
    ∃ a h', m h = .ok a h' ∧ h'.Ok ∧ h'.oom = h.oom ∧ P a ∧ ∀ x, h'.live.count x = R a x + F x

/-- Nothing -/
def zr : Rsrc := fun _ => 0

theorem zr_at (x : Nat) : zr x = 0 := rfl

variable {nf : Bool} {α β : Type}

theorem Hoare.pure {A : Rsrc} {a : α} {R : α → Rsrc} {P : α → Prop} (hp : P a) (hA : ∀ x, A x = R a x) : Hoare nf A (Pure.pure a : HM α) R P :=
  fun m _ hok _ hc => ⟨a, m, rfl, hok, rfl, hp, fun x => by rw [← hA x]; exact hc x⟩

theorem Hoare.bind {A A1 : Rsrc} {m : HM α} {f : α → HM β} {R1 : α → Rsrc} {P1 : α → Prop} {R : β → Rsrc} {P : β → Prop}
    (h1 : Hoare nf A1 m R1 P1) (C : Rsrc) (hA : ∀ x, A x = A1 x + C x) (h2 : ∀ a, P1 a → Hoare nf (fun x => R1 a x + C x) (f a) R P) : Hoare nf A (m >>= f) R P := by
  intro h F hok hoom hc
  obtain ⟨a, h', e1, ok1, o1, q1, c1⟩ := h1 h (fun x => C x + F x) hok hoom (fun x => by have := hc x; have := hA x; omega)
  obtain ⟨b, h'', e2, ok2, o2, q2, c2⟩ := h2 a q1 h' F ok1 (fun hn k => by rw [o1]; exact hoom hn k) (fun x => by have := c1 x; show _ = R1 a x + C x + F x; omega)
  refine ⟨b, h'', ?_, ok2, by rw [o2, o1], q2, c2⟩
  show HM.bind m f h = _
  unfold HM.bind
  rw [e1]
  exact e2

theorem Hoare.post {A : Rsrc} {m : HM α} {R R' : α → Rsrc} {P P' : α → Prop} (h : Hoare nf A m R P) (hr : ∀ a, P a → ∀ x, R a x = R' a x) (hp : ∀ a, P a → P' a) : Hoare nf A m R' P' := by
  intro m' F hok hoom hc
  obtain ⟨a, h', e, ok, o, q, c⟩ := h m' F hok hoom hc
  exact ⟨a, h', e, ok, o, hp a q, fun x => by rw [← hr a q x]; exact c x⟩

theorem Hoare.pre {A A' : Rsrc} {m : HM α} {R : α → Rsrc} {P : α → Prop} (h : Hoare nf A m R P) (hA : ∀ x, A' x = A x) : Hoare nf A' m R P := by
  rw [show A' = A from funext hA]
  exact h

/-- The frame rule -/
theorem Hoare.frame {A A' : Rsrc} {m : HM α} {R R' : α → Rsrc} {P P' : α → Prop} (h : Hoare nf A m R P) (C : Rsrc) (hA : ∀ x, A' x = A x + C x) (hr : ∀ a, P a → ∀ x, R a x + C x = R' a x) (hp : ∀ a, P a → P' a) :
    Hoare nf A' m R' P' := by
  intro m' F hok hoom hc
  obtain ⟨a, h', e, ok, o, q, c⟩ := h m' (fun x => C x + F x) hok hoom (fun x => by have := hc x; have := hA x; omega)
  exact ⟨a, h', e, ok, o, hp a q, fun x => by have := c x; have := hr a q x; omega⟩

theorem alloc_h : Hoare nf zr allocP optOwn (fun p => nf = true → ∃ b, p = some b) := by
  intro h F hok hoom hc
  have hc : ∀ x, h.live.count x = F x := fun x => by rw [hc x]; exact Nat.zero_add _
  unfold allocP
  by_cases ho : h.oom h.next
  · rw [if_pos ho]
    refine ⟨none, _, rfl, ⟨fun x hx => Nat.lt_succ_of_lt (hok.old x hx), hok.nodup⟩, rfl, fun hn => ?_, fun x => by rw [optOwn_none, Nat.zero_add]; exact hc x⟩
    rw [hoom hn] at ho
    cases ho
  · rw [if_neg ho]
    have hnew : h.next ∉ h.live := fun hm => Nat.lt_irrefl _ (hok.old _ hm)
    refine ⟨some h.next, _, rfl, ⟨fun x hx => ?_, List.nodup_cons.2 ⟨hnew, hok.nodup⟩⟩, rfl, fun _ => ⟨_, rfl⟩, fun x => ?_⟩
    · rcases List.mem_cons.1 hx with rfl | hx
      · exact Nat.lt_succ_self _
      · exact Nat.lt_succ_of_lt (hok.old x hx)
    · show (h.next :: h.live).count x = one h.next x + F x
      have := hc x
      by_cases hx : x = h.next
      · subst hx
        rw [List.count_cons_self, one_self]
        omega
      · rw [List.count_cons_of_ne (fun e => hx e.symm), one_ne hx]
        omega

theorem use_h (b : Nat) : Hoare nf (one b) (useP b) (fun _ => one b) (fun _ => True) := by
  intro h F hok _ hc
  unfold useP
  have hb : b ∈ h.live := List.count_pos_iff.1 (by have := hc b; rw [one_self] at this; omega)
  rw [if_pos hb]
  exact ⟨(), h, rfl, hok, rfl, trivial, hc⟩

theorem free_h (p : Option Nat) : Hoare nf (optOwn p) (freeP p) (fun _ => zr) (fun _ => True) := by
  cases p with
  | none => exact Hoare.pure trivial fun _ => rfl
  | some b =>
    intro h F hok _ hc
    have hc : ∀ x, h.live.count x = one b x + F x := hc
    have hb : b ∈ h.live := List.count_pos_iff.1 (by have := hc b; rw [one_self] at this; omega)
    refine ⟨(), { h with live := h.live.erase b }, ?_, ⟨fun x hx => hok.old x (List.mem_of_mem_erase hx), hok.nodup.erase b⟩, rfl, trivial, fun x => ?_⟩
    · show (if b ∈ h.live then _ else _) = _
      rw [if_pos hb]
    · show (h.live.erase b).count x = zr x + F x
      have := hc x
      rw [zr_at]
      by_cases hx : x = b
      · subst hx
        rw [List.count_erase_self]
        rw [one_self] at this
        omega
      · rw [List.count_erase_of_ne hx]
        rw [one_ne hx] at this
        omega

/-! ### Strings -/

def strOwn : Option PStr → Rsrc
  | none, _ => 0
  | some s, x => one s.blk x

theorem strOwn_none (x : Nat) : strOwn none x = 0 := rfl
theorem strOwn_some (s : PStr) (x : Nat) : strOwn (some s) x = one s.blk x := rfl

theorem strOwn_eq (s : Option PStr) (x : Nat) : strOwn s x = optOwn (s.map (·.blk)) x := by cases s <;> rfl

theorem psbInit_base : PSb.init.base = none := rfl

/-- Sums of resources -/
macro "rs" : tactic => `(tactic| (intro x; (try simp only [zr_at, optOwn_none, optOwn_some, strOwn_none, strOwn_some, psbInit_base]) <;> omega))

theorem freeS_h (s : Option PStr) : Hoare nf (strOwn s) (freeS s) (fun _ => zr) (fun _ => True) := (free_h (s.map (·.blk))).pre fun x => strOwn_eq s x

theorem readS_h (s : PStr) : Hoare nf (one s.blk) (readS (some s)) (fun _ => one s.blk) (fun a => a = s.txt) :=
  Hoare.bind (use_h s.blk) zr (by rs) fun _ _ => Hoare.pure rfl (by rs)

theorem dupS_h (t : Bytes) : Hoare nf zr (dupS t) strOwn (fun s => (∀ s', s = some s' → s'.txt = t) ∧ (nf = true → s.isSome = true)) := by
  refine Hoare.bind alloc_h zr (by rs) fun p hp => Hoare.pure ⟨?_, fun hn => ?_⟩ ?_
  · intro s' hs
    cases p with
    | none => cases hs
    | some b => cases hs; rfl
  · obtain ⟨b, rfl⟩ := hp hn
    rfl
  · cases p <;> exact fun x => rfl

/-! ### String buffers -/

theorem sbAdd_h (sb : PSb) (d : Bytes) : Hoare nf (optOwn sb.base) (sbAddP sb d) (fun sb' => optOwn sb'.base) (fun sb' => (nf = true → sb' = ⟨sb'.base, sb.txt ++ d, false⟩) ∧ (sb'.err = false → sb'.base.isSome ∧ sb'.txt = sb.txt ++ d)) := by
  refine Hoare.bind alloc_h (optOwn sb.base) (by rs) fun p hp => ?_
  cases p with
  | none =>
    refine Hoare.pure ⟨fun hn => ?_, fun h => by cases h⟩ (by rs)
    obtain ⟨b, hb⟩ := hp hn
    cases hb
  | some b => exact Hoare.bind (free_h sb.base) (one b) (by rs) fun _ _ => Hoare.pure ⟨fun _ => rfl, fun _ => ⟨rfl, rfl⟩⟩ (by rs)

theorem sbAdds_h (ds : List Bytes) (sb : PSb) : Hoare nf (optOwn sb.base) (sbAddsP sb ds) (fun sb' => optOwn sb'.base) (fun sb' => nf = true → sb.err = false → sb' = ⟨sb'.base, sb.txt ++ ds.flatten, false⟩) := by
  induction ds generalizing sb with
  | nil => exact Hoare.pure (fun _ h => by obtain ⟨a, b, c⟩ := sb; simp_all) fun _ => rfl
  | cons d ds ih =>
    refine Hoare.bind (sbAdd_h sb d) zr (by rs) fun sb' hB => ?_
    refine Hoare.post (Hoare.pre (ih sb') (by rs)) (fun _ _ _ => rfl) fun sb'' h hn _ => ?_
    have h1 := hB.1 hn
    have h2 := h hn (by rw [h1])
    rw [h2]
    congr 1
    rw [show sb'.txt = sb.txt ++ d by rw [h1]]
    simp

theorem sbFinish_h (sb : PSb) : Hoare nf (optOwn sb.base) (sbFinishP sb) (fun r => optOwn r.1.base) (fun r => (∀ s, r.2 = some s → r.1.base = some s.blk ∧ s.txt = sb.txt ∧ sb.err = false) ∧
    (nf = true → sb.err = false → ∃ s, r.2 = some s ∧ s.txt = sb.txt)) := by
  unfold sbFinishP
  split
  · rename_i he
    exact Hoare.pure ⟨fun s h => (by cases h), fun _ h => by rw [he] at h; cases h⟩ fun _ => rfl
  · rename_i he0
    refine Hoare.bind (sbAdd_h sb []) zr (by rs) fun sb' hB => ?_
    split
    · rename_i he
      refine Hoare.pure ⟨fun s h => (by cases h), fun hn _ => ?_⟩ (by rs)
      rw [hB.1 hn] at he
      cases he
    · rename_i he
      refine Hoare.pure ⟨fun s h => ?_, fun hn _ => ?_⟩ (by rs)
      · obtain ⟨b, hb, rfl⟩ := Option.map_eq_some_iff.1 h
        exact ⟨hb, by rw [(hB.2 (by simpa using he)).2, List.append_nil], by simpa using he0⟩
      · obtain ⟨b, hb⟩ := Option.isSome_iff_exists.1 (hB.2 (by simpa using he)).1
        have := hB.1 hn
        refine ⟨⟨b, sb'.txt⟩, ?_, ?_⟩
        · show sb'.base.map _ = _
          rw [hb]
          rfl
        · rw [this]
          simp

theorem sbText_h (ds : List Bytes) : Hoare nf zr (sbTextP ds) strOwn (fun s => nf = true → ∃ s', s = some s' ∧ s'.txt = ds.flatten) := by
  refine Hoare.bind (sbAdds_h ds PSb.init) zr (by rs) fun sb hB => ?_
  refine Hoare.bind (sbFinish_h sb) zr (by rs) fun r hr => ?_
  cases hs : r.2 with
  | some s =>
    refine Hoare.pure (fun hn => ?_) fun x => by rw [(hr.1 s hs).1]; rfl
    have h1 := hB hn rfl
    obtain ⟨s', h2, h3⟩ := hr.2 hn (by rw [h1])
    rw [hs] at h2
    cases h2
    exact ⟨s, rfl, by rw [h3, h1]; rfl⟩
  | none =>
    refine Hoare.bind (free_h r.1.base) zr (by rs) fun _ _ => Hoare.pure (fun hn => ?_) (by rs)
    have h1 := hB hn rfl
    obtain ⟨s', h2, h3⟩ := hr.2 hn (by rw [h1])
    rw [hs] at h2
    cases h2

/-- A text made of one piece is whole. -/
theorem sbText1_h (d : Bytes) : Hoare nf zr (sbTextP [d]) strOwn (fun s => (∀ s', s = some s' → s'.txt = d) ∧ (nf = true → s.isSome = true)) := by
  refine Hoare.bind (A1 := zr) (R1 := fun sb => optOwn sb.base) (P1 := fun sb => (sb.err = false → sb.txt = d) ∧ (nf = true → sb.err = false)) ?_ zr (by rs) fun sb hB => ?_
  · refine Hoare.bind (sbAdd_h PSb.init d) zr (by rs) fun sb hB => Hoare.pure ⟨fun h => (hB.2 h).2, fun hn => ?_⟩ (by rs)
    rw [hB.1 hn]
  · refine Hoare.bind (sbFinish_h sb) zr (by rs) fun r hr => ?_
    cases hs : r.2 with
    | some s =>
      refine Hoare.pure ⟨fun s' h => ?_, fun _ => rfl⟩ fun x => by rw [(hr.1 s hs).1]; rfl
      cases h
      rw [(hr.1 s hs).2.1]
      exact hB.1 (hr.1 s hs).2.2
    | none =>
      refine Hoare.bind (free_h r.1.base) zr (by rs) fun _ _ => Hoare.pure ⟨fun s' h => (by cases h), fun hn => ?_⟩ (by rs)
      obtain ⟨s', h2, h3⟩ := hr.2 hn (hB.2 hn)
      rw [hs] at h2
      cases h2

/-! ### Headers -/

def PHdr.own (h : PHdr) : Rsrc := fun x => one h.blk x + one h.tblk x + strOwn h.val x

def phOwn : Option PHdr → Rsrc
  | none, _ => 0
  | some h, x => h.own x

def hdrsOwn : List PHdr → Rsrc
  | [], _ => 0
  | h :: t, x => h.own x + hdrsOwn t x

theorem own_at (h : PHdr) (x : Nat) : h.own x = one h.blk x + one h.tblk x + strOwn h.val x := rfl
theorem phOwn_none (x : Nat) : phOwn none x = 0 := rfl
theorem phOwn_some (h : PHdr) (x : Nat) : phOwn (some h) x = h.own x := rfl
theorem hdrsOwn_nil (x : Nat) : hdrsOwn [] x = 0 := rfl
theorem hdrsOwn_cons (h : PHdr) (t : List PHdr) (x : Nat) : hdrsOwn (h :: t) x = h.own x + hdrsOwn t x := rfl

theorem hdrsOwn_append (s t : List PHdr) (x : Nat) : hdrsOwn (s ++ t) x = hdrsOwn s x + hdrsOwn t x := by
  induction s with
  | nil => exact (Nat.zero_add _).symm
  | cons h s ih =>
    show h.own x + hdrsOwn (s ++ t) x = _
    rw [ih, hdrsOwn_cons]
    omega

theorem hdrsOwn_at {hs : List PHdr} {i : Nat} {h : PHdr} (hi : hs[i]? = some h) : ∃ rest : Rsrc, (∀ x, hdrsOwn hs x = h.own x + rest x) ∧ ∀ y x, hdrsOwn (hs.set i y) x = y.own x + rest x := by
  induction hs generalizing i with
  | nil => cases hi
  | cons a t ih =>
    cases i with
    | zero =>
      cases hi
      exact ⟨hdrsOwn t, fun x => rfl, fun y x => rfl⟩
    | succ i =>
      obtain ⟨rest, h1, h2⟩ := ih (i := i) hi
      refine ⟨fun x => a.own x + rest x, fun x => ?_, fun y x => ?_⟩
      · have := h1 x
        rw [hdrsOwn_cons]
        show _ = h.own x + (a.own x + rest x)
        omega
      · have := h2 y x
        show a.own x + hdrsOwn (t.set i y) x = y.own x + (a.own x + rest x)
        omega

/-- Sums of resources of headers -/
macro "rh" : tactic => `(tactic| (intro x; (try simp only [zr_at, optOwn_none, optOwn_some, strOwn_none, strOwn_some, psbInit_base, own_at, phOwn_none, phOwn_some, hdrsOwn_nil, hdrsOwn_cons, hdrsOwn_append]) <;> omega))

/-- A header line; for `cl`, if it is a Content-Length header its value is a number. -/
def TextOk (cl : Bool) (t : Bytes) : Prop :=
  (∃ n v, HeaderLine t n v) ∧ (cl = true → (headerAlloc t).code = .contentLength → getContentLength (headerAlloc t).rawValue .header ≠ noContentLength)

/-- The fields of a header are those of its text, and so is the cached value. -/
structure HOk (cl : Bool) (x : PHdr) : Prop where
  text : TextOk cl x.hdr.text
  std : x.hdr = headerAlloc x.hdr.text
  cached : ∀ v, x.val = some v → v.txt = x.hdr.rawValue

theorem change_std {h : Header} {t n v : Bytes} (hl : HeaderLine t n v) : h.change t = headerAlloc t := by
  obtain ⟨vs, a1, -⟩ := headerMatch_of_line hl
  unfold Header.change headerAlloc qualify
  simp only [a1]

theorem alloc_text {t n v : Bytes} (hl : HeaderLine t n v) : (headerAlloc t).text = t := (alloc_good hl).2

theorem HOk.good {cl : Bool} {x : PHdr} (h : HOk cl x) : Good x.hdr := by
  obtain ⟨n, v, hl⟩ := h.text.1
  rw [h.std]
  exact (alloc_good hl).1

theorem hOk_new {cl : Bool} {b t : Nat} {text : Bytes} (h : TextOk cl text) : HOk cl ⟨b, t, headerAlloc text, none⟩ := by
  obtain ⟨n, v, hl⟩ := h.1
  have ht := alloc_text hl
  exact ⟨by rw [ht]; exact h, by rw [ht], fun v hv => (by cases hv)⟩

theorem hdrAlloc_h (t : Bytes) : Hoare nf zr (hdrAllocP t) phOwn (fun o => (∀ x, o = some x → x.hdr = headerAlloc t ∧ x.val = none) ∧ (nf = true → o.isSome = true)) := by
  refine Hoare.bind alloc_h zr (by rh) fun p hp => ?_
  cases p with
  | none => exact Hoare.pure ⟨fun x h => (by cases h), fun hn => by obtain ⟨b, hb⟩ := hp hn; cases hb⟩ (by rh)
  | some b =>
    refine Hoare.bind alloc_h (one b) (by rh) fun q hq => ?_
    cases q with
    | none => exact Hoare.bind (free_h (some b)) zr (by rh) fun _ _ => Hoare.pure ⟨fun x h => (by cases h), fun hn => by obtain ⟨b, hb⟩ := hq hn; cases hb⟩ (by rh)
    | some t => exact Hoare.pure ⟨fun x h => by cases h; exact ⟨rfl, rfl⟩, fun _ => rfl⟩ (by rh)

theorem hdrFree_h (y : PHdr) : Hoare nf y.own (hdrFreeP y) (fun _ => zr) (fun _ => True) := by
  refine Hoare.bind (use_h y.blk) (fun x => one y.tblk x + strOwn y.val x) (by rh) fun _ _ => ?_
  refine Hoare.bind (free_h (some y.tblk)) (fun x => one y.blk x + strOwn y.val x) (by rh) fun _ _ => ?_
  refine Hoare.bind (freeS_h y.val) (one y.blk) (by rh) fun _ _ => ?_
  exact (free_h (some y.blk)).pre (by rh)

theorem hdrTake_h (y : PHdr) (s : PStr) : Hoare nf (fun x => y.own x + one s.blk x) (hdrTakeP y s) PHdr.own (fun z => z = ⟨y.blk, s.blk, y.hdr.change s.txt, none⟩) := by
  refine Hoare.bind (use_h y.blk) (fun x => one y.tblk x + strOwn y.val x + one s.blk x) (by rh) fun _ _ => ?_
  refine Hoare.bind (free_h (some y.tblk)) (fun x => one y.blk x + strOwn y.val x + one s.blk x) (by rh) fun _ _ => ?_
  refine Hoare.bind (freeS_h y.val) (fun x => one y.blk x + one s.blk x) (by rh) fun _ _ => ?_
  exact Hoare.bind (use_h s.blk) (one y.blk) (by rh) fun _ _ => Hoare.pure rfl (by rh)

theorem hdrChange_h (y : PHdr) (t : Bytes) : Hoare nf y.own (hdrChangeP y t) (fun r => r.1.own) (fun r => (r.2 = true ∧ ∃ b, r.1 = ⟨y.blk, b, y.hdr.change t, none⟩) ∨ (r = (y, false) ∧ nf = false)) := by
  refine Hoare.bind (dupS_h t) y.own (by rh) fun s hs => ?_
  cases s with
  | none => exact Hoare.pure (.inr ⟨rfl, by cases nf with | false => rfl | true => cases hs.2 rfl⟩) (by rh)
  | some s =>
    refine Hoare.bind (hdrTake_h y s) zr (by rh) fun z hz => Hoare.pure (.inl ⟨rfl, s.blk, ?_⟩) (by rh)
    rw [hz, hs.1 s rfl]

theorem hdrValue_h {cl : Bool} {y : PHdr} (hy : HOk cl y) : Hoare nf y.own (hdrValueP y) (fun r => r.1.own)
    (fun r => HOk cl r.1 ∧ r.1.blk = y.blk ∧ r.1.hdr = y.hdr ∧ (r.2 = some y.hdr.rawValue ∨ (r.2 = none ∧ nf = false))) := by
  refine Hoare.bind (use_h y.blk) (fun x => one y.tblk x + strOwn y.val x) (by rh) fun _ _ => ?_
  cases hv : y.val with
  | some v => exact Hoare.bind (use_h v.blk) (fun x => one y.blk x + one y.tblk x) (by rh) fun _ _ => Hoare.pure ⟨hy, rfl, rfl, .inl (by rw [hy.cached v hv])⟩ (fun x => by show _ = y.own x; rw [own_at, hv, strOwn_some]; omega)
  | none =>
    refine Hoare.bind alloc_h (fun x => one y.blk x + one y.tblk x) (by rh) fun p hp => ?_
    cases p with
    | none => exact Hoare.pure ⟨hy, rfl, rfl, .inr ⟨rfl, by cases nf with | false => rfl | true => obtain ⟨b, hb⟩ := hp rfl; cases hb⟩⟩ (fun x => by show _ = y.own x; rw [own_at, hv, strOwn_none, optOwn_none]; omega)
    | some b =>
      refine Hoare.bind (use_h y.tblk) (fun x => one y.blk x + one b x) (by rh) fun _ _ => ?_
      rw [hy.good.value]
      exact Hoare.pure ⟨⟨hy.text, hy.std, fun v hv => by cases hv; rfl⟩, rfl, rfl, .inl rfl⟩ (by rh)

theorem useHdrs_h (hs : List PHdr) : Hoare nf (hdrsOwn hs) (useHdrsP hs) (fun _ => hdrsOwn hs) (fun _ => True) := by
  induction hs with
  | nil => exact Hoare.pure trivial fun _ => rfl
  | cons y t ih =>
    refine Hoare.bind (use_h y.blk) (fun x => one y.tblk x + strOwn y.val x + hdrsOwn t x) (by rh) fun _ _ => ?_
    refine Hoare.bind (use_h y.tblk) (fun x => one y.blk x + strOwn y.val x + hdrsOwn t x) (by rh) fun _ _ => ?_
    exact Hoare.frame ih y.own (by rh) (fun _ _ => by rh) fun _ h => h

theorem listFree_h (hs : List PHdr) : Hoare nf (hdrsOwn hs) (listFreeP hs) (fun _ => zr) (fun _ => True) := by
  induction hs with
  | nil => exact Hoare.pure trivial fun _ => rfl
  | cons y t ih => exact Hoare.bind (hdrFree_h y) (hdrsOwn t) (by rh) fun _ _ => Hoare.pre ih (by rh)

theorem listFilter_h {cl : Bool} (m : Bytes → Bool) (hs : List PHdr) (hh : ∀ y ∈ hs, HOk cl y) : Hoare nf (hdrsOwn hs) (listFilterP m hs) hdrsOwn
    (fun hs' => (∀ y ∈ hs', HOk cl y) ∧ hs'.map (·.hdr) = (hs.map (·.hdr)).filter fun h => !m h.text) := by
  induction hs with
  | nil => exact Hoare.pure ⟨hh, rfl⟩ fun _ => rfl
  | cons y t ih =>
    have ih := ih fun z hz => hh z (List.mem_cons_of_mem _ hz)
    refine Hoare.bind (use_h y.blk) (fun x => one y.tblk x + strOwn y.val x + hdrsOwn t x) (by rh) fun _ _ => ?_
    refine Hoare.bind (use_h y.tblk) (fun x => one y.blk x + strOwn y.val x + hdrsOwn t x) (by rh) fun _ _ => ?_
    split
    · rename_i hm
      refine Hoare.bind (hdrFree_h y) (hdrsOwn t) (by rh) fun _ _ => Hoare.post (Hoare.pre ih (by rh)) (fun _ _ _ => rfl) fun r hr => ⟨hr.1, ?_⟩
      rw [hr.2, List.map_cons, List.filter_cons_of_neg (by simp [hm])]
    · rename_i hm
      refine Hoare.bind ih y.own (by rh) fun r hr => Hoare.pure ⟨fun z hz => ?_, ?_⟩ (by rh)
      · rcases List.mem_cons.1 hz with rfl | hz
        · exact hh z List.mem_cons_self
        · exact hr.1 z hz
      · rw [List.map_cons, hr.2, List.map_cons, List.filter_cons_of_pos (by simp [hm])]

theorem appendText_pieces {h : Header} {text t : Bytes} (ha : appendText h text = .ok t) : (appendPieces h text).flatten = t := by
  unfold appendText at ha
  split at ha
  · injection ha with ha
    rw [← ha]
    simp [appendPieces]
    cases List.drop (h.nameEnd + 1) text <;> rfl
  · cases ha

theorem map_set_hdr (hs : List PHdr) (i : Nat) (y : PHdr) : (hs.set i y).map (·.hdr) = (hs.map (·.hdr)).set i y.hdr := by rw [List.map_set]

theorem mem_set_ok {P : PHdr → Prop} {hs : List PHdr} {i : Nat} {y : PHdr} (hh : ∀ z ∈ hs, P z) (hy : P y) : ∀ z ∈ hs.set i y, P z := by
  intro z hz
  rcases List.mem_or_eq_of_mem_set hz with h | h
  · exact hh z h
  · rw [h]; exact hy

theorem listAppend_h {cl : Bool} (hs : List PHdr) (text : Bytes) (mode : HMode) (hh : ∀ y ∈ hs, HOk cl y) (ht : TextOk cl text) (hm : mode = .append → nf = true ∧ cl = false) :
    Hoare nf (hdrsOwn hs) (listAppendP hs text mode) (fun r => hdrsOwn r.2) (fun r => (∀ y ∈ r.2, HOk cl y) ∧ (nf = true → r.1 = 0 ∧ listAppend (hs.map (·.hdr)) text mode = .ok (0, r.2.map (·.hdr)))) := by
  obtain ⟨n, v, hl⟩ := ht.1
  have hgood : ∀ h ∈ hs.map (·.hdr), Good h := by
    intro h hh'
    obtain ⟨y, hy, rfl⟩ := List.mem_map.1 hh'
    exact (hh y hy).good
  refine Hoare.bind (useHdrs_h hs) zr (by rh) fun _ _ => ?_
  unfold listAppend
  rcases locate_split (hs.map (·.hdr)) text n (takeWhile_notColon hl) with ⟨h1, h2⟩ | ⟨a, h, b, e, h2, h3, h4⟩
  · rw [h1]
    dsimp only
    refine Hoare.bind (hdrAlloc_h text) (hdrsOwn hs) (by rh) fun o ho => ?_
    cases o with
    | none => exact Hoare.pure ⟨hh, fun hn => by cases ho.2 hn⟩ (by rh)
    | some y =>
      obtain ⟨hy1, hy2⟩ := ho.1 y rfl
      have hleg : y.hdr.code ≠ .illegal := by rw [hy1]; exact (alloc_good hl).1.1
      dsimp only
      rw [if_neg hleg, if_neg (by rw [← hy1]; exact hleg)]
      refine Hoare.pure ⟨fun z hz => ?_, fun _ => ⟨rfl, ?_⟩⟩ (by rh)
      · rcases List.mem_append.1 hz with hz | hz
        · exact hh z hz
        · simp only [List.mem_cons, List.not_mem_nil, or_false] at hz
          subst hz
          have := hOk_new (cl := cl) (b := z.blk) (t := z.tblk) ht
          rw [← hy1, ← hy2] at this
          exact this
      · simp [hy1]
  · have hat : (hs.map (·.hdr))[a.length]? = some h := by rw [e]; simp
    have hat' : ∃ y, hs[a.length]? = some y ∧ y.hdr = h := by
      rw [List.getElem?_map] at hat
      exact Option.map_eq_some_iff.1 hat
    obtain ⟨y, hy, rfl⟩ := hat'
    have hyok := hh y (List.mem_of_getElem? hy)
    obtain ⟨rest, r1, r2⟩ := hdrsOwn_at hy
    rw [h2]
    dsimp only
    rw [hat, hy]
    dsimp only
    have hset : ∀ z : PHdr, z.hdr = y.hdr → (hs.set a.length z).map (·.hdr) = hs.map (·.hdr) := by
      intro z hz
      rw [map_set_hdr, hz]
      exact List.ext_getElem? fun j => by
        rw [List.getElem?_set]
        split
        · rename_i hj
          subst hj
          split
          · exact hat.symm
          · rename_i hlt
            rw [List.getElem?_eq_none (by omega)]
        · rfl
    cases mode with
    | keep => exact Hoare.pure ⟨hh, fun _ => ⟨rfl, rfl⟩⟩ (by rh)
    | replace =>
      dsimp only
      refine Hoare.bind (hdrChange_h y text) rest (fun x => by have := r1 x; simp only [zr_at]; omega) fun r hr => ?_
      rcases hr with ⟨hr1, b', hr2⟩ | ⟨hr, hn⟩
      · refine Hoare.pure ⟨mem_set_ok hh ?_, fun _ => ⟨?_, ?_⟩⟩ (fun x => by have := r2 r.1 x; dsimp only; omega)
        · rw [hr2, change_std hl]
          exact hOk_new ht
        · show (if r.2 = true then (0 : Int) else -1) = 0
          rw [if_pos hr1]
        · rw [map_set_hdr, hr2]
      · refine Hoare.pure ⟨mem_set_ok hh (by rw [hr]; exact hyok), fun hn' => ?_⟩ (fun x => by have := r2 r.1 x; dsimp only; omega)
        rw [hn] at hn'
        cases hn'
    | append =>
      obtain ⟨hn, hcl⟩ := hm rfl
      subst hcl
      dsimp only
      refine Hoare.bind (hdrValue_h hyok) rest (fun x => by have := r1 x; simp only [zr_at]; omega) fun r hr => ?_
      obtain ⟨q1, q2, q3, q4⟩ := hr
      have q4 : r.2 = some y.hdr.rawValue := by
        rcases q4 with h | ⟨_, h⟩
        · exact h
        · rw [hn] at h
          cases h
      rw [q4]
      have hval := hyok.good.value
      rw [hval]
      cases hv : y.hdr.rawValue with
      | nil =>
        dsimp only
        refine Hoare.bind (hdrChange_h r.1 text) rest (fun x => rfl) fun r' hr' => ?_
        rcases hr' with ⟨hr1, b', hr2⟩ | ⟨hr', hn'⟩
        · refine Hoare.pure ⟨mem_set_ok hh ?_, fun _ => ⟨rfl, ?_⟩⟩ (fun x => by have := r2 r'.1 x; dsimp only; omega)
          · rw [hr2, change_std hl]
            exact hOk_new ht
          · rw [map_set_hdr, hr2, q3]
        · rw [hn] at hn'
          cases hn'
      | cons c cs =>
        dsimp only
        obtain ⟨t', ws, ha, hl', -⟩ := append_good hyok.good hl h4 (by rw [hv]; intro h; cases h)
        rw [q3, ha]
        dsimp only
        refine Hoare.bind (sbAdds_h (appendPieces y.hdr text) PSb.init) (fun x => r.1.own x + rest x) (by rh) fun sb hsb => ?_
        have hsb := hsb hn rfl
        refine Hoare.bind (sbFinish_h sb) (fun x => r.1.own x + rest x) (fun x => rfl) fun f hf => ?_
        obtain ⟨s, hs1, hs2⟩ := hf.2 hn (by rw [hsb])
        rw [hs1]
        have hst : s.txt = t' := by
          rw [hs2, hsb]
          show [] ++ _ = _
          rw [List.nil_append, appendText_pieces ha]
        refine Hoare.bind (hdrTake_h r.1 s) rest (fun x => by rw [(hf.1 s hs1).1, optOwn_some]; omega) fun z hz => ?_
        have hz' : z = ⟨y.blk, s.blk, headerAlloc t', none⟩ := by rw [hz, hst, change_std hl', q2]
        refine Hoare.pure ⟨mem_set_ok hh ?_, fun _ => ⟨rfl, ?_⟩⟩ (fun x => by have := r2 z x; dsimp only; omega)
        · rw [hz']
          exact hOk_new ⟨⟨_, _, hl'⟩, fun h => (by cases h)⟩
        · rw [map_set_hdr, hz', change_std hl']

end Pound
