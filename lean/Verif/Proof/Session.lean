import Verif.Proof.Jobs

namespace Pound
open Spec

theorem lookup_filter (h : List (Bytes × Nat)) (k k' : Bytes) :
    (h.filter (fun e => e.1 ≠ k)).lookup k' = if k' = k then none else h.lookup k' := by
  induction h with
  | nil => simp
  | cons e t ih =>
    rcases e with ⟨a, p⟩
    rw [List.filter_cons]
    by_cases hk : a = k
    · subst hk
      rw [if_neg (by simp), ih, List.lookup_cons]
      by_cases h2 : k' = a
      · rw [if_pos h2, if_pos h2]
      · have : (k' == a) = false := by simp [h2]
        rw [if_neg h2, if_neg h2, this]
    · rw [if_pos (by simpa using hk), List.lookup_cons, List.lookup_cons, ih]
      by_cases h2 : k' = a
      · subst h2; simp [hk]
      · have : (k' == a) = false := by simp [h2]
        simp [this]

/-- Invariant of a session table: hash table and list agree, the list is in order of expiry. -/
structure SessInv (tab : SessTab) (bound : TS) : Prop where
  ptrs : (tab.head.map (·.ptr)).Nodup
  fresh : ∀ s ∈ tab.head, s.ptr < tab.fresh
  hash : ∀ k p, tab.hash.lookup k = some p ↔ ∃ s ∈ tab.head, s.key = k ∧ s.ptr = p
  sorted : tab.head.Pairwise fun a b => NotAfter a.expire b.expire
  last : ∀ s ∈ tab.head, NotAfter s.expire bound

/-- The sessions of a table, as a map. -/
def SessAbs (tab : SessTab) (f : Bytes → Option (Nat × TS)) : Prop :=
  ∀ k b t, f k = some (b, t) ↔ ∃ s ∈ tab.head, s.key = k ∧ s.be = b ∧ s.expire = t

theorem ptr_inj {l : List Sess} (h : (l.map (·.ptr)).Nodup) {a b : Sess} (ha : a ∈ l) (hb : b ∈ l)
    (he : a.ptr = b.ptr) : a = b := by
  induction l with
  | nil => simp at ha
  | cons x t ih =>
    simp only [List.map_cons, List.nodup_cons, List.mem_map, not_exists, not_and] at h
    rcases List.mem_cons.1 ha with rfl | ha1 <;> rcases List.mem_cons.1 hb with rfl | hb1
    · rfl
    · exact absurd he.symm (h.1 b hb1)
    · exact absurd he (h.1 a (by assumption))
    · exact ih h.2 (by assumption) (by assumption)

theorem SessInv.key_inj {tab : SessTab} {bd} (h : SessInv tab bd) {a b : Sess} (ha : a ∈ tab.head) (hb : b ∈ tab.head)
    (he : a.key = b.key) : a = b := by
  have h1 := (h.hash a.key a.ptr).2 ⟨a, ha, rfl, rfl⟩
  have h2 := (h.hash a.key b.ptr).2 ⟨b, hb, he.symm, rfl⟩
  rw [h1] at h2
  exact ptr_inj h.ptrs ha hb (by simpa using h2)

theorem SessInv.keys {tab : SessTab} {bd} (h : SessInv tab bd) : (tab.head.map (·.key)).Nodup := by
  have hp := h.ptrs
  have hk : ∀ a ∈ tab.head, ∀ b ∈ tab.head, a.key = b.key → a = b := fun a ha b hb => h.key_inj ha hb
  generalize tab.head = l at hp hk
  induction l with
  | nil => simp
  | cons x t ih =>
    simp only [List.map_cons, List.nodup_cons] at hp ⊢
    refine ⟨?_, ih hp.2 fun a ha b hb => hk a (by simp [ha]) b (by simp [hb])⟩
    simp only [List.mem_map, not_exists, not_and]
    intro y hy he
    have := hk y (by simp [hy]) x (by simp) he
    subst this
    exact hp.1 (List.mem_map.2 ⟨y, hy, rfl⟩)

theorem mem_unlink {l : List Sess} {p : Nat} {s : Sess} : s ∈ sessUnlink l p ↔ s ∈ l ∧ s.ptr ≠ p := by
  simp [sessUnlink]

theorem unlink_sublist (l : List Sess) (p : Nat) : (sessUnlink l p).Sublist l := List.filter_sublist

theorem SessInv.mono {tab : SessTab} {b b'} (h : SessInv tab b) (hb : NotAfter b b') : SessInv tab b' :=
  ⟨h.ptrs, h.fresh, h.hash, h.sorted, fun s hs => NotAfter.trans (h.last s hs) hb⟩

theorem sessInv_init (b : TS) : SessInv SessTab.init b := by
  constructor <;> simp [SessTab.init]

theorem sessAbs_init : SessAbs SessTab.init fun _ => none := by
  intro k b t; simp [SessTab.init]

/-- The list of a table without the session of a key. -/
def without (tab : SessTab) (key : Bytes) : List Sess :=
  match tab.hash.lookup key with
  | some p => sessUnlink tab.head p
  | none => tab.head

theorem mem_without {tab : SessTab} {bd} (h : SessInv tab bd) {key : Bytes} {s : Sess} :
    s ∈ without tab key ↔ s ∈ tab.head ∧ s.key ≠ key := by
  unfold without
  cases hl : tab.hash.lookup key with
  | none =>
    simp only
    constructor
    · intro hs
      refine ⟨hs, fun hk => ?_⟩
      have := (h.hash key s.ptr).2 ⟨s, hs, hk, rfl⟩
      rw [hl] at this; simp at this
    · exact fun hs => hs.1
  | some p =>
    simp only [mem_unlink]
    obtain ⟨o, ho, hok, hop⟩ := (h.hash key p).1 hl
    constructor
    · rintro ⟨hs, hp⟩
      refine ⟨hs, fun hk => hp ?_⟩
      rw [h.key_inj hs ho (hk.trans hok.symm), hop]
    · rintro ⟨hs, hk⟩
      refine ⟨hs, fun hp => hk ?_⟩
      rw [ptr_inj h.ptrs hs ho (hp.trans hop.symm), hok]

theorem without_sublist (tab : SessTab) (key : Bytes) : (without tab key).Sublist tab.head := by
  unfold without; split
  · exact unlink_sublist _ _
  · exact .refl _

theorem sessInv_add {tab : SessTab} {ttl : Nat} {t now : TS} (h : SessInv tab (t.addSec ttl)) (hn : NotAfter t now)
    (key : Bytes) (be : Nat) : SessInv (tab.add ttl now key be).1 (now.addSec ttl) := by
  have h := h.mono (NotAfter.add ttl hn)
  have hd : (tab.add ttl now key be).1 = { hash := (hashInsert tab.hash key tab.fresh).1, head := without tab key ++ [⟨tab.fresh, key, be, now.addSec ttl⟩], fresh := tab.fresh + 1 } := by
    unfold SessTab.add without hashInsert
    cases tab.hash.lookup key <;> rfl
  rw [hd]
  have hs := without_sublist tab key
  refine ⟨?_, ?_, ?_, ?_, ?_⟩
  · simp only [List.map_append, List.map_cons, List.map_nil]
    refine (List.Perm.nodup_iff (List.perm_append_singleton _ _)).2 ?_
    rw [List.nodup_cons]
    refine ⟨?_, h.ptrs.sublist (hs.map _)⟩
    simp only [List.mem_map, not_exists, not_and]
    exact fun x hx => Nat.ne_of_lt (h.fresh x (hs.subset hx))
  · simp only [List.mem_append, List.mem_singleton]
    rintro s (hx | rfl)
    · exact Nat.lt_succ_of_lt (h.fresh s (hs.subset hx))
    · exact Nat.lt_succ_self _
  · intro k p
    simp only [hashInsert, List.lookup_cons, lookup_filter]
    by_cases hk : k = key
    · subst hk
      simp only [beq_self_eq_true, Option.some.injEq]
      constructor
      · rintro rfl; exact ⟨_, List.mem_append.2 (.inr (List.mem_singleton.2 rfl)), rfl, rfl⟩
      · rintro ⟨s, hm, h1, h2⟩
        rcases List.mem_append.1 hm with hm | hm
        · exact absurd h1 ((mem_without h).1 hm).2
        · simp only [List.mem_singleton] at hm; rw [hm] at h2; exact h2
    · have : (k == key) = false := by simp [hk]
      simp only [this, hk, if_false, h.hash]
      constructor
      · rintro ⟨s, h1, h2, h3⟩
        exact ⟨s, List.mem_append.2 (.inl ((mem_without h).2 ⟨h1, by rw [h2]; exact hk⟩)), h2, h3⟩
      · rintro ⟨s, hm, h1, h2⟩
        rcases List.mem_append.1 hm with hm | hm
        · exact ⟨s, ((mem_without h).1 hm).1, h1, h2⟩
        · simp only [List.mem_singleton] at hm; rw [hm] at h1; exact absurd h1.symm hk
  · rw [List.pairwise_append]
    refine ⟨h.sorted.sublist hs, by simp, fun a ha b hb => ?_⟩
    simp only [List.mem_singleton] at hb
    subst hb
    exact h.last a (hs.subset ha)
  · simp only [List.mem_append, List.mem_singleton]
    rintro s (hx | rfl)
    · exact h.last s (hs.subset hx)
    · exact NotAfter.refl _

theorem sessAbs_add {tab : SessTab} {ttl : Nat} {bd now : TS} (h : SessInv tab bd) {f} (ha : SessAbs tab f)
    (key : Bytes) (be : Nat) :
    SessAbs (tab.add ttl now key be).1 fun k => if key = k then some (be, now.addSec ttl) else f k := by
  have hd : (tab.add ttl now key be).1.head = without tab key ++ [⟨tab.fresh, key, be, now.addSec ttl⟩] := by
    unfold SessTab.add without hashInsert
    cases tab.hash.lookup key <;> rfl
  intro k b t
  rw [hd]
  by_cases hk : key = k
  · subst hk
    simp only [if_true, Option.some.injEq, Prod.mk.injEq]
    constructor
    · rintro ⟨rfl, rfl⟩; exact ⟨_, List.mem_append.2 (.inr (List.mem_singleton.2 rfl)), rfl, rfl, rfl⟩
    · rintro ⟨s, hm, h1, h2, h3⟩
      rcases List.mem_append.1 hm with hm | hm
      · exact absurd h1 ((mem_without h).1 hm).2
      · simp only [List.mem_singleton] at hm; subst hm; exact ⟨h2, h3⟩
  · simp only [hk, if_false, ha k b t]
    constructor
    · rintro ⟨s, h1, h2, h3⟩
      exact ⟨s, List.mem_append.2 (.inl ((mem_without h).2 ⟨h1, by rw [h2]; exact fun e => hk e.symm⟩)), h2, h3⟩
    · rintro ⟨s, hm, h1, h2⟩
      rcases List.mem_append.1 hm with hm | hm
      · exact ⟨s, ((mem_without h).1 hm).1, h1, h2⟩
      · simp only [List.mem_singleton] at hm; rw [hm] at h1; exact absurd h1 hk

theorem find_spec {tab : SessTab} {bd} (h : SessInv tab bd) {ttl : Nat} {now : TS} (key : Bytes) :
    ((∀ s ∈ tab.head, s.key ≠ key) ∧ tab.find ttl now key = (tab, none)) ∨
    ∃ s ∈ tab.head, s.key = key ∧ tab.find ttl now key =
      ({ tab with head := sessUnlink tab.head s.ptr ++ [{ s with expire := now.addSec ttl }] }, some s.be) := by
  unfold SessTab.find
  cases hl : tab.hash.lookup key with
  | none =>
    left
    refine ⟨fun s hs hk => ?_, rfl⟩
    have := (h.hash key s.ptr).2 ⟨s, hs, hk, rfl⟩
    rw [hl] at this; simp at this
  | some p =>
    right
    obtain ⟨s, hs, hk, hp⟩ := (h.hash key p).1 hl
    refine ⟨s, hs, hk, ?_⟩
    have hf : tab.head.find? (fun s => decide (s.ptr = p)) = some s := by
      have hps := h.ptrs
      generalize tab.head = l at hs hps
      induction l with
      | nil => simp at hs
      | cons x t ih =>
        simp only [List.map_cons, List.nodup_cons, List.mem_map, not_exists, not_and] at hps
        rcases List.mem_cons.1 hs with rfl | hs
        · simp [hp]
        · have : ¬ x.ptr = p := fun e => hps.1 s hs (by rw [hp, e])
          rw [List.find?_cons_of_neg (by simpa using this)]
          exact ih hs hps.2
    simp only [sessPromote, hf, Option.map_some, hp]

theorem sessInv_find {tab : SessTab} {ttl : Nat} {t now : TS} (h : SessInv tab (t.addSec ttl)) (hn : NotAfter t now)
    (key : Bytes) : SessInv (tab.find ttl now key).1 (now.addSec ttl) := by
  have h := h.mono (NotAfter.add ttl hn)
  rcases find_spec h (ttl := ttl) (now := now) key with ⟨_, he⟩ | ⟨s, hs, hk, he⟩
  · rw [he]; exact h
  · rw [he]
    have hsub := unlink_sublist tab.head s.ptr
    refine ⟨?_, ?_, ?_, ?_, ?_⟩
    · simp only [List.map_append, List.map_cons, List.map_nil]
      refine (List.Perm.nodup_iff (List.perm_append_singleton _ _)).2 ?_
      rw [List.nodup_cons]
      refine ⟨?_, h.ptrs.sublist (hsub.map _)⟩
      simp only [List.mem_map, not_exists, not_and]
      exact fun x hx => (mem_unlink.1 hx).2
    · simp only [List.mem_append, List.mem_singleton]
      rintro x (hx | rfl)
      · exact h.fresh x (hsub.subset hx)
      · exact h.fresh s hs
    · intro k p
      rw [h.hash]
      constructor
      · rintro ⟨x, h1, h2, h3⟩
        by_cases hx : x.ptr = s.ptr
        · have := ptr_inj h.ptrs h1 hs hx
          subst this
          exact ⟨_, List.mem_append.2 (.inr (List.mem_singleton.2 rfl)), h2, h3⟩
        · exact ⟨x, List.mem_append.2 (.inl (mem_unlink.2 ⟨h1, hx⟩)), h2, h3⟩
      · rintro ⟨x, hm, h1, h2⟩
        rcases List.mem_append.1 hm with hm | hm
        · exact ⟨x, (mem_unlink.1 hm).1, h1, h2⟩
        · simp only [List.mem_singleton] at hm; subst hm; exact ⟨s, hs, h1, h2⟩
    · rw [List.pairwise_append]
      refine ⟨h.sorted.sublist hsub, by simp, fun a ha b hb => ?_⟩
      simp only [List.mem_singleton] at hb
      subst hb
      exact h.last a (hsub.subset ha)
    · simp only [List.mem_append, List.mem_singleton]
      rintro x (hx | rfl)
      · exact h.last x (hsub.subset hx)
      · exact NotAfter.refl _

theorem sessAbs_find {tab : SessTab} {ttl : Nat} {bd now : TS} (h : SessInv tab bd) {f} (ha : SessAbs tab f) (key : Bytes) :
    SessAbs (tab.find ttl now key).1 (fun k => if key = k then (f k).map fun s => (s.1, now.addSec ttl) else f k) ∧
    (tab.find ttl now key).2 = (f key).map (·.1) := by
  rcases find_spec h (ttl := ttl) (now := now) key with ⟨hno, he⟩ | ⟨s, hs, hk, he⟩
  · have hf : f key = none := by
      cases hf : f key with
      | none => rfl
      | some v =>
        obtain ⟨s, h1, h2, _⟩ := (ha key v.1 v.2).1 (by rw [hf])
        exact absurd h2 (hno s h1)
    rw [he]
    refine ⟨fun k b t => ?_, by simp [hf]⟩
    by_cases hk : key = k
    · subst hk
      simp only [hf, if_true, Option.map_none]
      constructor
      · intro h; simp at h
      · rintro ⟨s, h1, h2, _⟩; exact absurd h2 (hno s h1)
    · simp only [hk, if_false]; exact ha k b t
  · have hf : f key = some (s.be, s.expire) := (ha _ _ _).2 ⟨s, hs, hk, rfl, rfl⟩
    rw [he]
    refine ⟨fun k b t => ?_, by simp [hf]⟩
    by_cases hk' : key = k
    · subst hk'
      simp only [hf, if_true, Option.map_some, Option.some.injEq, Prod.mk.injEq]
      constructor
      · rintro ⟨rfl, rfl⟩
        exact ⟨_, List.mem_append.2 (.inr (List.mem_singleton.2 rfl)), hk, rfl, rfl⟩
      · rintro ⟨x, hm, h1, h2, h3⟩
        rcases List.mem_append.1 hm with hm | hm
        · obtain ⟨hm, hp⟩ := mem_unlink.1 hm
          exact absurd (by rw [h.key_inj hm hs (h1.trans hk.symm)]) hp
        · simp only [List.mem_singleton] at hm; subst hm; exact ⟨h2, h3⟩
    · simp only [hk', if_false, ha k b t]
      constructor
      · rintro ⟨x, h1, h2, h3⟩
        refine ⟨x, List.mem_append.2 (.inl (mem_unlink.2 ⟨h1, fun e => hk' ?_⟩)), h2, h3⟩
        rw [← h2, ptr_inj h.ptrs h1 hs e, hk]
      · rintro ⟨x, hm, h1, h2⟩
        rcases List.mem_append.1 hm with hm | hm
        · exact ⟨x, (mem_unlink.1 hm).1, h1, h2⟩
        · simp only [List.mem_singleton] at hm; subst hm
          exact absurd (hk.symm.trans h1) hk'

theorem sessInv_removeKey {tab : SessTab} {bd : TS} (h : SessInv tab bd) (key : Bytes) : SessInv (tab.removeKey key) bd ∧
    ∀ f, SessAbs tab f → SessAbs (tab.removeKey key) fun k => if key = k then none else f k := by
  have hd : tab.removeKey key = { tab with hash := (hashDelete tab.hash key).1, head := without tab key } := by
    unfold SessTab.removeKey without hashDelete
    cases tab.hash.lookup key <;> rfl
  rw [hd]
  have hs := without_sublist tab key
  refine ⟨⟨h.ptrs.sublist (hs.map _), fun s hx => h.fresh s (hs.subset hx), ?_, h.sorted.sublist hs,
    fun s hx => h.last s (hs.subset hx)⟩, ?_⟩
  · intro k p
    simp only [hashDelete, lookup_filter]
    by_cases hk : k = key
    · subst hk
      simp only [if_true]
      constructor
      · intro h; simp at h
      · rintro ⟨s, hm, h1, _⟩; exact absurd h1 ((mem_without h).1 hm).2
    · simp only [hk, if_false, h.hash]
      constructor
      · rintro ⟨s, h1, h2, h3⟩; exact ⟨s, (mem_without h).2 ⟨h1, by rw [h2]; exact hk⟩, h2, h3⟩
      · rintro ⟨s, hm, h1, h2⟩; exact ⟨s, ((mem_without h).1 hm).1, h1, h2⟩
  · intro f ha k b t
    by_cases hk : key = k
    · subst hk
      simp only [if_true]
      constructor
      · intro h; simp at h
      · rintro ⟨s, hm, h1, _⟩; exact absurd h1 ((mem_without h).1 hm).2
    · simp only [hk, if_false, ha k b t]
      constructor
      · rintro ⟨s, h1, h2, h3⟩
        exact ⟨s, (mem_without h).2 ⟨h1, by rw [h2]; exact fun e => hk e.symm⟩, h2, h3⟩
      · rintro ⟨s, hm, h1, h2⟩; exact ⟨s, ((mem_without h).1 hm).1, h1, h2⟩

/-- Removing the sessions of a list from the hash table. -/
def hashWithout (h : List (Bytes × Nat)) : List Sess → List (Bytes × Nat)
  | [] => h
  | s :: t => hashWithout (hashDelete h s.key).1 t

theorem lookup_hashWithout (l : List Sess) (h : List (Bytes × Nat)) (k : Bytes) :
    (hashWithout h l).lookup k = if ∃ s ∈ l, s.key = k then none else h.lookup k := by
  induction l generalizing h with
  | nil => simp [hashWithout]
  | cons s t ih =>
    simp only [hashWithout, ih, hashDelete, lookup_filter]
    by_cases h1 : ∃ s ∈ t, s.key = k
    · rw [if_pos h1, if_pos]; obtain ⟨x, hx, hk⟩ := h1; exact ⟨x, by simp [hx], hk⟩
    · rw [if_neg h1]
      by_cases h2 : k = s.key
      · rw [if_pos h2, if_pos ⟨s, by simp, h2.symm⟩]
      · rw [if_neg h2, if_neg]
        rintro ⟨x, hx, hk⟩
        rcases List.mem_cons.1 hx with rfl | hx
        · exact h2 hk.symm
        · exact h1 ⟨x, hx, hk⟩

theorem expireLoop_eq (now : TS) (l : List Sess) (h : List (Bytes × Nat)) :
    expireLoop now l h = (l.dropWhile (fun s => decide (s.expire.cmp now ≤ 0)), hashWithout h (l.takeWhile fun s => decide (s.expire.cmp now ≤ 0))) := by
  induction l generalizing h with
  | nil => rfl
  | cons s t ih =>
    simp only [expireLoop]
    by_cases hc : s.expire.cmp now ≤ 0
    · simp [hc, ih, hashWithout]
    · simp [hc, hashWithout]

theorem removeBeLoop_eq (be : Nat) (l : List Sess) (h : List (Bytes × Nat)) :
    removeBeLoop be l h = (l.filter (fun s => decide (s.be ≠ be)), hashWithout h (l.filter fun s => decide (s.be = be))) := by
  induction l generalizing h with
  | nil => rfl
  | cons s t ih =>
    simp only [removeBeLoop]
    by_cases hc : s.be = be
    · simp [hc, ih, hashWithout]
    · simp [hc, ih]

theorem sorted_dropWhile {l : List Sess} (h : l.Pairwise fun a b => NotAfter a.expire b.expire) (now : TS) {s : Sess} :
    s ∈ l.dropWhile (fun s => decide (s.expire.cmp now ≤ 0)) ↔ s ∈ l ∧ ¬ NotAfter s.expire now := by
  induction l with
  | nil => simp
  | cons x t ih =>
    rw [List.pairwise_cons] at h
    by_cases hc : x.expire.cmp now ≤ 0
    · rw [List.dropWhile_cons_of_pos (by simpa using hc), ih h.2]
      have hx := (cmp_le _ _).1 hc
      constructor
      · exact fun hs => ⟨by simp [hs.1], hs.2⟩
      · rintro ⟨hm, hn⟩
        rcases List.mem_cons.1 hm with rfl | hm
        · exact absurd hx hn
        · exact ⟨hm, hn⟩
    · rw [List.dropWhile_cons_of_neg (by simpa using hc)]
      have hx : ¬ NotAfter x.expire now := fun h => hc ((cmp_le _ _).2 h)
      constructor
      · intro hm
        refine ⟨hm, fun hn => hx ?_⟩
        rcases List.mem_cons.1 hm with rfl | hm
        · exact hn
        · exact NotAfter.trans (h.1 s hm) hn
      · exact fun hs => hs.1

theorem sorted_takeWhile {l : List Sess} (h : l.Pairwise fun a b => NotAfter a.expire b.expire) (now : TS) {s : Sess} :
    s ∈ l.takeWhile (fun s => decide (s.expire.cmp now ≤ 0)) ↔ s ∈ l ∧ NotAfter s.expire now := by
  induction l with
  | nil => simp
  | cons x t ih =>
    rw [List.pairwise_cons] at h
    by_cases hc : x.expire.cmp now ≤ 0
    · rw [List.takeWhile_cons_of_pos (by simpa using hc), List.mem_cons, ih h.2, List.mem_cons]
      have hx := (cmp_le _ _).1 hc
      constructor
      · rintro (rfl | hs)
        · exact ⟨.inl rfl, hx⟩
        · exact ⟨.inr hs.1, hs.2⟩
      · rintro ⟨rfl | hm, hn⟩
        · exact .inl rfl
        · exact .inr ⟨hm, hn⟩
    · rw [List.takeWhile_cons_of_neg (by simpa using hc)]
      have hx : ¬ NotAfter x.expire now := fun h => hc ((cmp_le _ _).2 h)
      constructor
      · intro h; simp at h
      · rintro ⟨hm, hn⟩
        exfalso
        rcases List.mem_cons.1 hm with rfl | hm
        · exact hx hn
        · exact hx (NotAfter.trans (h.1 s hm) hn)

/-- Removing some sessions from both list and hash table. -/
theorem sessInv_subset {tab : SessTab} {bd : TS} (h : SessInv tab bd) {keep : Sess → Prop} {l r : List Sess}
    (hsub : l.Sublist tab.head) (hl : ∀ s, s ∈ l ↔ s ∈ tab.head ∧ keep s) (hr : ∀ s, s ∈ r ↔ s ∈ tab.head ∧ ¬ keep s) :
    SessInv { tab with head := l, hash := hashWithout tab.hash r } bd := by
  refine ⟨h.ptrs.sublist (hsub.map _), fun s hx => h.fresh s (hsub.subset hx), ?_, h.sorted.sublist hsub,
    fun s hx => h.last s (hsub.subset hx)⟩
  intro k p
  simp only [lookup_hashWithout]
  by_cases hk : ∃ s ∈ r, s.key = k
  · rw [if_pos hk]
    obtain ⟨x, hx, hxk⟩ := hk
    have hx' := (hr x).1 hx
    constructor
    · intro h; simp at h
    · rintro ⟨s, hm, h1, _⟩
      have hm' := (hl s).1 hm
      rw [h.key_inj hm'.1 hx'.1 (h1.trans hxk.symm)] at hm'
      exact absurd hm'.2 hx'.2
  · rw [if_neg hk, h.hash]
    constructor
    · rintro ⟨s, h1, h2, h3⟩
      refine ⟨s, (hl s).2 ⟨h1, Classical.byContradiction fun hn => hk ⟨s, (hr s).2 ⟨h1, hn⟩, h2⟩⟩, h2, h3⟩
    · rintro ⟨s, hm, h1, h2⟩; exact ⟨s, ((hl s).1 hm).1, h1, h2⟩

theorem sessInv_removeBe {tab : SessTab} {bd : TS} (h : SessInv tab bd) (be : Nat) : SessInv (tab.removeBe be) bd ∧
    ∀ f, SessAbs tab f → SessAbs (tab.removeBe be) fun k => (f k).filter fun s => s.1 ≠ be := by
  unfold SessTab.removeBe
  rw [removeBeLoop_eq]
  refine ⟨sessInv_subset h (keep := fun s => s.be ≠ be) List.filter_sublist (by simp) (by simp), ?_⟩
  intro f ha k b t
  simp only [List.mem_filter]
  rw [Option.filter_eq_some_iff, ha k b t]
  constructor
  · rintro ⟨⟨s, h1, h2, h3, h4⟩, h5⟩
    refine ⟨s, ⟨h1, ?_⟩, h2, h3, h4⟩
    rw [h3]; simpa using h5
  · rintro ⟨s, ⟨h1, h5⟩, h2, h3, h4⟩
    refine ⟨⟨s, h1, h2, h3, h4⟩, ?_⟩
    rw [h3] at h5; simpa using h5

theorem sessInv_expire {tab : SessTab} {bd : TS} (h : SessInv tab bd) (now : TS) : SessInv (tab.expire now).1 bd ∧
    ∀ f, SessAbs tab f → SessAbs (tab.expire now).1 fun k => (f k).filter fun s =>
      !(decide (s.2.sec < now.sec) || decide (s.2.sec = now.sec) && decide (s.2.nsec ≤ now.nsec)) := by
  unfold SessTab.expire
  rw [expireLoop_eq]
  refine ⟨sessInv_subset h (keep := fun s => ¬ NotAfter s.expire now) (List.dropWhile_sublist _)
    (fun s => sorted_dropWhile h.sorted now) (fun s => ?_), ?_⟩
  · rw [sorted_takeWhile h.sorted now, Classical.not_not]
  intro f ha k b t
  simp only [sorted_dropWhile h.sorted now]
  rw [Option.filter_eq_some_iff, ha k b t]
  have hx : ∀ x : TS, (!(decide (x.sec < now.sec) || decide (x.sec = now.sec) && decide (x.nsec ≤ now.nsec))) = true ↔
      ¬ NotAfter x now := by
    intro x; unfold NotAfter
    simp only [Bool.not_eq_true', Bool.or_eq_false_iff, decide_eq_false_iff_not, Bool.and_eq_false_iff]
    omega
  rw [hx]
  constructor
  · rintro ⟨⟨s, h1, h2, h3, h4⟩, h5⟩
    exact ⟨s, ⟨h1, by rw [h4]; exact h5⟩, h2, h3, h4⟩
  · rintro ⟨s, ⟨h1, h5⟩, h2, h3, h4⟩
    exact ⟨⟨s, h1, h2, h3, h4⟩, by rw [← h4]; exact h5⟩

end Pound
