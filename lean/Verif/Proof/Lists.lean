import Verif.Model.Lists
import Verif.Spec.Lists

namespace Pound
open Spec

/-! ### Doubly-linked segments -/

/-- The elements `xs` are linked in this order, between `p` and `n`. -/
def Seg (m : Addr → Option DNode) : Option Addr → List Addr → Option Addr → Prop
  | _, [], _ => True
  | p, x :: xs, n => m x = some ⟨p, xs.head?.or n⟩ ∧ Seg m (some x) xs n

theorem seg_append {m : Addr → Option DNode} {xs ys : List Addr} {p n} :
    Seg m p (xs ++ ys) n ↔ Seg m p xs (ys.head?.or n) ∧ Seg m (xs.getLast?.or p) ys n := by
  induction xs generalizing p with
  | nil => simp [Seg]
  | cons x xs ih =>
    simp only [List.cons_append, Seg, ih, List.head?_append, Option.or_assoc]
    have : (x :: xs).getLast?.or p = xs.getLast?.or (some x) := by
      cases xs with
      | nil => rfl
      | cons y ys => rw [List.getLast?_cons_cons]; simp [List.getLast?_cons]
    rw [this]
    constructor
    · rintro ⟨h1, h2, h3⟩; exact ⟨⟨h1, h2⟩, h3⟩
    · rintro ⟨⟨h1, h2⟩, h3⟩; exact ⟨h1, h2, h3⟩

theorem seg_frame {m m' : Addr → Option DNode} {xs : List Addr} {p n} (h : Seg m p xs n) (hm : ∀ x ∈ xs, m' x = m x) : Seg m' p xs n := by
  induction xs generalizing p with
  | nil => trivial
  | cons x xs ih => exact ⟨by rw [hm x (by simp)]; exact h.1, ih h.2 fun y hy => hm y (by simp [hy])⟩

theorem seg_next {m m' : Addr → Option DNode} {xs : List Addr} {p n n'} (h : Seg m p xs n) (hn : xs.Nodup)
    (hm : ∀ x ∈ xs, m' x = (m x).map fun d => ⟨d.prev, if xs.getLast? = some x then n' else d.next⟩) : Seg m' p xs n' := by
  induction xs generalizing p with
  | nil => trivial
  | cons x xs ih =>
    obtain ⟨hx, hn⟩ := List.nodup_cons.1 hn
    cases xs with
    | nil =>
      refine ⟨?_, trivial⟩
      rw [hm x (by simp), h.1]; simp
    | cons y ys =>
      refine ⟨?_, ih h.2 hn fun z hz => ?_⟩
      · rw [hm x (by simp), h.1, List.getLast?_cons_cons]
        have : (y :: ys).getLast? ≠ some x := fun e => hx (List.mem_of_getLast? e)
        simp [this]
      · rw [hm z (by simp [hz]), List.getLast?_cons_cons]

theorem seg_prev {m m' : Addr → Option DNode} {xs : List Addr} {p p' n} (h : Seg m p xs n) (hn : xs.Nodup)
    (hm : ∀ x ∈ xs, m' x = (m x).map fun d => ⟨if xs.head? = some x then p' else d.prev, d.next⟩) : Seg m' p' xs n := by
  cases xs with
  | nil => trivial
  | cons x xs =>
    obtain ⟨hx, hn⟩ := List.nodup_cons.1 hn
    refine ⟨?_, seg_frame h.2 fun z hz => ?_⟩
    · rw [hm x (by simp), h.1]; simp
    · rw [hm z (by simp [hz])]
      have : x ≠ z := by rintro rfl; exact hx hz
      simp [this]

theorem seg_get {m : Addr → Option DNode} {pre post : List Addr} {x : Addr} {p n} (h : Seg m p (pre ++ x :: post) n) :
    m x = some ⟨pre.getLast?.or p, post.head?.or n⟩ := (seg_append.1 h).2.1

theorem seg_live {m : Addr → Option DNode} {xs : List Addr} {x : Addr} {p n} (h : Seg m p xs n) (hx : x ∈ xs) : (m x).isSome := by
  obtain ⟨a, b, rfl⟩ := List.append_of_mem hx
  rw [seg_get h]; rfl

/-- The state represents the sequences. -/
structure DRepr (s : DSt) (q : Seqs) : Prop where
  nodup : ∀ l, (q.seq l).Nodup
  disj : ∀ l l' a, a ∈ q.seq l → a ∈ q.seq l' → l = l'
  live : ∀ a, q.live a ↔ (s.mem a).isSome
  head : ∀ l, s.heads l = ⟨(q.seq l).head?, (q.seq l).getLast?⟩
  seg : ∀ l, Seg s.mem none (q.seq l) none

theorem getLast?_mem_ne {xs : List Addr} {x y : Addr} (h : xs.getLast? = some x) (hy : y ∉ xs) : x ≠ y := by
  rintro rfl; exact hy (List.mem_of_getLast? h)

theorem head?_mem_ne {xs : List Addr} {x y : Addr} (h : xs.head? = some x) (hy : y ∉ xs) : x ≠ y := by
  rintro rfl; exact hy (List.mem_of_head? h)

theorem drepr_insert {s s' : DSt} {q : Seqs} {l : Nat} {pre post : List Addr} {e : Addr} (h : DRepr s q)
    (hl : q.seq l = pre ++ post) (he : q.Fresh e)
    (hm : ∀ x, s'.mem x = if x = e then some ⟨pre.getLast?, post.head?⟩ else
      (s.mem x).map fun d => ⟨if post.head? = some x then some e else d.prev, if pre.getLast? = some x then some e else d.next⟩)
    (hh : ∀ k, s'.heads k = if k = l then ⟨(pre ++ e :: post).head?, (pre ++ e :: post).getLast?⟩ else s.heads k) :
    DRepr s' { q with seq := upd q.seq l (pre ++ e :: post) } := by
  have hn := h.nodup l; rw [hl] at hn
  have hel := he.2 l; rw [hl, List.mem_append, not_or] at hel
  obtain ⟨hn1, hn2, hn3⟩ := List.nodup_append.1 hn
  have hs := h.seg l; rw [hl] at hs
  obtain ⟨hs1, hs2⟩ := seg_append.1 hs
  refine ⟨fun k => ?_, fun k k' a => ?_, fun a => ?_, fun k => ?_, fun k => ?_⟩ <;> dsimp only [upd]
  · by_cases hk : k = l
    · rw [if_pos hk]
      refine List.nodup_append.2 ⟨hn1, List.nodup_cons.2 ⟨hel.2, hn2⟩, fun a ha b hb => ?_⟩
      rcases List.mem_cons.1 hb with rfl | hb
      · rintro rfl; exact hel.1 ha
      · exact hn3 a ha b hb
    · rw [if_neg hk]; exact h.nodup k
  · have key : ∀ k, a ∈ (if k = l then pre ++ e :: post else q.seq k) → (a = e ∧ k = l) ∨ (a ∈ q.seq k ∧ a ≠ e) := by
      intro k ha
      by_cases hk : k = l
      · rw [if_pos hk] at ha
        by_cases hae : a = e
        · exact .inl ⟨hae, hk⟩
        · refine .inr ⟨?_, hae⟩
          rw [hk, hl]; simp only [List.mem_append, List.mem_cons, hae, false_or] at ha ⊢; exact ha
      · rw [if_neg hk] at ha
        exact .inr ⟨ha, fun hae => he.2 k (hae ▸ ha)⟩
    intro h1 h2
    rcases key k h1 with ⟨r, r'⟩ | ⟨r, r'⟩ <;> rcases key k' h2 with ⟨t, t'⟩ | ⟨t, t'⟩
    · rw [r', t']
    · exact absurd r t'
    · exact absurd t r'
    · exact h.disj k k' a r t
  · rw [h.live a, hm a]
    by_cases hae : a = e
    · subst hae; simp [(h.live a).1 he.1]
    · simp [hae]
  · rw [hh k]; by_cases hk : k = l <;> simp [hk, h.head k]
  · by_cases hk : k = l
    · rw [if_pos hk]
      refine seg_append.2 ⟨?_, ?_, ?_⟩
      · refine seg_next hs1 hn1 fun x hx => ?_
        rw [hm x, if_neg (by rintro rfl; exact hel.1 hx)]
        have : post.head? ≠ some x := fun hp => hn3 x hx x (List.mem_of_head? hp) rfl
        simp [this]
      · rw [hm e, if_pos rfl]; simp
      · refine seg_prev hs2 hn2 fun x hx => ?_
        rw [hm x, if_neg (by rintro rfl; exact hel.2 hx)]
        have : pre.getLast? ≠ some x := fun hp => hn3 x (List.mem_of_getLast? hp) x hx rfl
        simp [this]
    · rw [if_neg hk]
      refine seg_frame (h.seg k) fun x hx => ?_
      have hxl : x ∉ pre ++ post := fun hx' => hk (h.disj k l x hx (hl ▸ hx'))
      rw [List.mem_append, not_or] at hxl
      rw [hm x, if_neg (by rintro rfl; exact he.2 k hx)]
      have h1 : post.head? ≠ some x := fun hp => hxl.2 (List.mem_of_head? hp)
      have h2 : pre.getLast? ≠ some x := fun hp => hxl.1 (List.mem_of_getLast? hp)
      simp [h1, h2]

theorem drepr_remove {s s' : DSt} {q : Seqs} {l : Nat} {pre post : List Addr} {e : Addr} (h : DRepr s q)
    (hl : q.seq l = pre ++ e :: post)
    (hm : ∀ x, x ≠ e → s'.mem x =
      (s.mem x).map fun d => ⟨if post.head? = some x then pre.getLast? else d.prev, if pre.getLast? = some x then post.head? else d.next⟩)
    (hme : (s'.mem e).isSome)
    (hh : ∀ k, s'.heads k = if k = l then ⟨(pre ++ post).head?, (pre ++ post).getLast?⟩ else s.heads k) :
    DRepr s' { q with seq := upd q.seq l (pre ++ post) } := by
  have hn := h.nodup l; rw [hl] at hn
  obtain ⟨hn1, hn2', hn3⟩ := List.nodup_append.1 hn
  obtain ⟨hep, hn2⟩ := List.nodup_cons.1 hn2'
  have hs := h.seg l; rw [hl] at hs
  obtain ⟨hs1, hs2', hs2⟩ := seg_append.1 hs
  have hepre : e ∉ pre := fun hx => hn3 e hx e (by simp) rfl
  refine ⟨fun k => ?_, fun k k' a => ?_, fun a => ?_, fun k => ?_, fun k => ?_⟩ <;> dsimp only [upd]
  · by_cases hk : k = l
    · rw [if_pos hk]
      exact List.nodup_append.2 ⟨hn1, hn2, fun a ha b hb => hn3 a ha b (by simp [hb])⟩
    · rw [if_neg hk]; exact h.nodup k
  · have key : ∀ k, a ∈ (if k = l then pre ++ post else q.seq k) → a ∈ q.seq k := by
      intro k ha
      by_cases hk : k = l
      · rw [if_pos hk] at ha
        rw [hk, hl]; rcases List.mem_append.1 ha with ha | ha <;> simp [ha]
      · rwa [if_neg hk] at ha
    exact fun h1 h2 => h.disj k k' a (key k h1) (key k' h2)
  · rw [h.live a]
    by_cases hae : a = e
    · subst hae; simp [hme, hs2']
    · rw [hm a hae]; simp
  · rw [hh k]; by_cases hk : k = l <;> simp [hk, h.head k]
  · by_cases hk : k = l
    · rw [if_pos hk]
      refine seg_append.2 ⟨?_, ?_⟩
      · refine seg_next hs1 hn1 fun x hx => ?_
        rw [hm x (by rintro rfl; exact hepre hx)]
        have : post.head? ≠ some x := fun hp => hn3 x hx x (by simp [List.mem_of_head? hp]) rfl
        simp [this]
      · refine seg_prev hs2 hn2 fun x hx => ?_
        rw [hm x (by rintro rfl; exact hep hx)]
        have : pre.getLast? ≠ some x := fun hp => hn3 x (List.mem_of_getLast? hp) x (by simp [hx]) rfl
        simp [this]
    · rw [if_neg hk]
      refine seg_frame (h.seg k) fun x hx => ?_
      have hxl : x ∉ pre ++ e :: post := fun hx' => hk (h.disj k l x hx (hl ▸ hx'))
      rw [List.mem_append, List.mem_cons, not_or, not_or] at hxl
      rw [hm x hxl.2.1]
      have h1 : post.head? ≠ some x := fun hp => hxl.2.2 (List.mem_of_head? hp)
      have h2 : pre.getLast? ≠ some x := fun hp => hxl.1 (List.mem_of_getLast? hp)
      simp [h1, h2]

theorem drepr_insert' {s s' : DSt} {q : Seqs} {l : Nat} (pre post : List Addr) {e : Addr} {r : List Addr} (h : DRepr s q)
    (hr : r = pre ++ e :: post) (hl : q.seq l = pre ++ post) (he : q.Fresh e)
    (hm : ∀ x, s'.mem x = if x = e then some ⟨pre.getLast?, post.head?⟩ else
      (s.mem x).map fun d => ⟨if post.head? = some x then some e else d.prev, if pre.getLast? = some x then some e else d.next⟩)
    (hh : ∀ k, s'.heads k = if k = l then ⟨(pre ++ e :: post).head?, (pre ++ e :: post).getLast?⟩ else s.heads k) :
    DRepr s' { q with seq := upd q.seq l r } := hr ▸ drepr_insert h hl he hm hh

theorem isSome_ex {α} {o : Option α} (h : o.isSome) : ∃ a, o = some a := Option.isSome_iff_exists.1 h

theorem res_cases {α} {r : Res α} {P : α → Prop} (h1 : r ≠ .ub) (h2 : ∀ a, r = .ok a → P a) : ∃ a, r = .ok a ∧ P a := by
  cases r with
  | ok a => exact ⟨a, rfl, h2 a rfl⟩
  | ub => exact absurd rfl h1

theorem dInsertHead_spec {s : DSt} {q : Seqs} {l : Nat} {e : Addr} (h : DRepr s q) (he : q.Fresh e) :
    ∃ s', dInsertHead l e s = .ok s' ∧ DRepr s' { q with seq := upd q.seq l (e :: q.seq l) } := by
  obtain ⟨n, hn⟩ := isSome_ex ((h.live e).1 he.1)
  have hh := h.head l
  cases hq : q.seq l with
  | nil =>
    rw [hq] at hh
    refine res_cases ?_ fun s' hs' => drepr_insert (pre := []) (post := []) h (by simp [hq]) he ?_ ?_
    · simp [dInsertHead, DSt.setPrev, DSt.setNext, hn, Res.bind, hh]
    all_goals
      simp [dInsertHead, DSt.setPrev, DSt.setNext, hn, Res.bind, hh, DSt.setLast, DSt.setFirst] at hs'
      subst hs'
    · intro x; by_cases hx : x = e <;> simp [hx]
    · intro k; by_cases hk : k = l <;> simp [hk]
  | cons f t =>
    rw [hq] at hh
    have hs := h.seg l; rw [hq] at hs
    have hf := hs.1
    have hfe : f ≠ e := by rintro rfl; exact he.2 l (by simp [hq])
    refine res_cases ?_ fun s' hs' => drepr_insert (pre := []) (post := f :: t) h (by simp [hq]) he ?_ ?_
    · simp [dInsertHead, DSt.setPrev, DSt.setNext, hn, Res.bind, hh, hfe, hf]
    all_goals
      simp [dInsertHead, DSt.setPrev, DSt.setNext, hn, Res.bind, hh, DSt.setLast, DSt.setFirst, hfe, hf] at hs'
      subst hs'
    · intro x
      by_cases hx : x = e
      · subst hx; simp [Ne.symm hfe]
      · by_cases hx' : x = f
        · subst hx'; simp [hx, hf]
        · simp [hx, hx', Ne.symm hx']
    · intro k; by_cases hk : k = l <;> simp [hk]

theorem dInsertTail_spec {s : DSt} {q : Seqs} {l : Nat} {e : Addr} (h : DRepr s q) (he : q.Fresh e) :
    ∃ s', dInsertTail l e s = .ok s' ∧ DRepr s' { q with seq := upd q.seq l (q.seq l ++ [e]) } := by
  obtain ⟨n, hn⟩ := isSome_ex ((h.live e).1 he.1)
  have hh := h.head l
  rcases List.eq_nil_or_concat (q.seq l) with hq | ⟨t, f, hq⟩
  · rw [hq] at hh
    refine res_cases ?_ fun s' hs' => drepr_insert' ([]) ([]) h (by simp [hq]) (by simp [hq]) he ?_ ?_
    · simp [dInsertTail, DSt.setPrev, DSt.setNext, hn, Res.bind, hh]
    all_goals
      simp [dInsertTail, DSt.setPrev, DSt.setNext, hn, Res.bind, hh, DSt.setLast, DSt.setFirst] at hs'
      subst hs'
    · intro x; by_cases hx : x = e <;> simp [hx]
    · intro k; by_cases hk : k = l <;> simp [hk]
  · simp only [List.concat_eq_append] at hq
    rw [hq] at hh
    have hs := h.seg l; rw [hq] at hs
    have hf := seg_get hs
    have hfe : f ≠ e := by rintro rfl; exact he.2 l (by simp [hq])
    refine res_cases ?_ fun s' hs' => drepr_insert' (t ++ [f]) ([]) h (by simp [hq]) (by simp [hq]) he ?_ ?_
    · simp [dInsertTail, DSt.setPrev, DSt.setNext, hn, Res.bind, hh, hfe, hf]
    all_goals
      simp [dInsertTail, DSt.setPrev, DSt.setNext, hn, Res.bind, hh, DSt.setLast, DSt.setFirst, hfe, hf] at hs'
      subst hs'
    · intro x
      by_cases hx : x = e
      · subst hx; simp [Ne.symm hfe]
      · by_cases hx' : x = f
        · subst hx'; simp [hx, hf]
        · simp [hx, hx', Ne.symm hx']
    · intro k; by_cases hk : k = l <;> simp [hk]

theorem nodup_split {pre post : List Addr} {a : Addr} (h : (pre ++ a :: post).Nodup) : a ∉ pre ∧ a ∉ post ∧ ∀ x ∈ pre, x ∉ post := by
  obtain ⟨h1, h2, h3⟩ := List.nodup_append.1 h
  exact ⟨fun hx => h3 a hx a (by simp) rfl, (List.nodup_cons.1 h2).1, fun x hx hx' => h3 x hx x (by simp [hx']) rfl⟩

theorem dInsertAfter_spec {s : DSt} {q : Seqs} {l : Nat} {a e : Addr} {pre post : List Addr} (h : DRepr s q) (he : q.Fresh e)
    (hq : q.seq l = pre ++ a :: post) :
    ∃ s', dInsertAfter l (some a) e s = .ok s' ∧ DRepr s' { q with seq := upd q.seq l (pre ++ a :: e :: post) } := by
  obtain ⟨n, hn⟩ := isSome_ex ((h.live e).1 he.1)
  have hh := h.head l
  rw [hq] at hh
  have hs := h.seg l; rw [hq] at hs
  have ha := seg_get hs
  have hae : a ≠ e := by rintro rfl; exact he.2 l (by simp [hq])
  have hnd := h.nodup l; rw [hq] at hnd
  obtain ⟨na, nb, nc⟩ := nodup_split hnd
  cases post with
  | nil =>
    refine res_cases ?_ fun s' hs' => drepr_insert' (pre ++ [a]) ([]) h (by simp) (by simp [hq]) he ?_ ?_
    · simp [dInsertAfter, DSt.get, DSt.setPrev, DSt.setNext, hn, Res.bind, DSt.setLast, ha, hae, Ne.symm hae]
    all_goals
      simp [dInsertAfter, DSt.get, DSt.setPrev, DSt.setNext, hn, Res.bind, DSt.setLast, ha, hae, Ne.symm hae] at hs'
      subst hs'
    · intro x
      by_cases hx : x = e
      · subst hx; simp
      · by_cases hx' : x = a
        · subst hx'; simp [hx, ha]
        · simp [hx, hx', Ne.symm hx']
    · intro k; by_cases hk : k = l <;> simp [hk, hh]
  | cons f t =>
    have hf : s.mem f = some ⟨some a, t.head?⟩ := by
      have := seg_get (pre := pre ++ [a]) (x := f) (post := t) (by simpa using hs)
      simpa using this
    have hfe : f ≠ e := by rintro rfl; exact he.2 l (by simp [hq])
    have hfa : f ≠ a := by rintro rfl; simp at nb
    refine res_cases ?_ fun s' hs' => drepr_insert' (pre ++ [a]) (f :: t) h (by simp) (by simp [hq]) he ?_ ?_
    · simp [dInsertAfter, DSt.get, DSt.setPrev, DSt.setNext, hn, Res.bind, ha, hae, hf, hfe, hfa, Ne.symm hae, Ne.symm hfa, Ne.symm hfe]
    all_goals
      simp [dInsertAfter, DSt.get, DSt.setPrev, DSt.setNext, hn, Res.bind, ha, hae, hf, hfe, hfa, Ne.symm hae, Ne.symm hfa, Ne.symm hfe] at hs'
      subst hs'
    · intro x
      by_cases hx : x = e
      · subst hx; simp
      · by_cases hx' : x = a
        · subst hx'; simp [hx, ha, hfa]
        · by_cases hx2 : x = f
          · subst hx2; simp [hx, hf, hfa, Ne.symm hfa]
          · simp [hx, hx', Ne.symm hx', hx2, Ne.symm hx2]
    · intro k; by_cases hk : k = l
      · subst hk; rw [hh]; simp [List.getLast?_append, List.getLast?_cons, List.head?_append]
      · simp [hk]

theorem dInsertBefore_spec {s : DSt} {q : Seqs} {l : Nat} {a e : Addr} {pre post : List Addr} (h : DRepr s q) (he : q.Fresh e)
    (hq : q.seq l = pre ++ a :: post) :
    ∃ s', dInsertBefore l (some a) e s = .ok s' ∧ DRepr s' { q with seq := upd q.seq l (pre ++ e :: a :: post) } := by
  obtain ⟨n, hn⟩ := isSome_ex ((h.live e).1 he.1)
  have hh := h.head l
  rw [hq] at hh
  have hs := h.seg l; rw [hq] at hs
  have ha := seg_get hs
  have hae : a ≠ e := by rintro rfl; exact he.2 l (by simp [hq])
  have hnd := h.nodup l; rw [hq] at hnd
  obtain ⟨na, nb, nc⟩ := nodup_split hnd
  rcases List.eq_nil_or_concat pre with rfl | ⟨t, f, rfl⟩
  · refine res_cases ?_ fun s' hs' => drepr_insert' ([]) (a :: post) h (by simp) (by simp [hq]) he ?_ ?_
    · simp [dInsertBefore, DSt.get, DSt.setPrev, DSt.setNext, hn, Res.bind, DSt.setFirst, ha, hae, Ne.symm hae]
    all_goals
      simp [dInsertBefore, DSt.get, DSt.setPrev, DSt.setNext, hn, Res.bind, DSt.setFirst, ha, hae, Ne.symm hae] at hs'
      subst hs'
    · intro x
      by_cases hx : x = e
      · subst hx; simp
      · by_cases hx' : x = a
        · subst hx'; simp [hx, ha]
        · simp [hx, hx', Ne.symm hx']
    · intro k; by_cases hk : k = l <;> simp [hk, hh]
  · simp only [List.concat_eq_append] at *
    have hf : s.mem f = some ⟨t.getLast?, some a⟩ := by
      have := seg_get (pre := t) (x := f) (post := a :: post) (by simpa using hs)
      simpa using this
    have hfe : f ≠ e := by rintro rfl; exact he.2 l (by simp [hq])
    have hfa : f ≠ a := by rintro rfl; simp at na
    refine res_cases ?_ fun s' hs' => drepr_insert' (t ++ [f]) (a :: post) h (by simp) (by simp [hq]) he ?_ ?_
    · simp [dInsertBefore, DSt.get, DSt.setPrev, DSt.setNext, hn, Res.bind, ha, hae, hf, hfe, hfa, Ne.symm hae, Ne.symm hfa, Ne.symm hfe]
    all_goals
      simp [dInsertBefore, DSt.get, DSt.setPrev, DSt.setNext, hn, Res.bind, ha, hae, hf, hfe, hfa, Ne.symm hae, Ne.symm hfa, Ne.symm hfe] at hs'
      subst hs'
    · intro x
      by_cases hx : x = e
      · subst hx; simp
      · by_cases hx' : x = a
        · subst hx'; simp [hx, ha, hfa]
        · by_cases hx2 : x = f
          · subst hx2; simp [hx, hf, hfa, Ne.symm hfa]
          · simp [hx, hx', Ne.symm hx', hx2, Ne.symm hx2]
    · intro k; by_cases hk : k = l
      · subst hk; rw [hh]; simp [List.getLast?_append, List.getLast?_cons, List.head?_append]
      · simp [hk]

theorem dRemove_spec {s : DSt} {q : Seqs} {l : Nat} {e : Addr} {pre post : List Addr} (h : DRepr s q)
    (hq : q.seq l = pre ++ e :: post) :
    ∃ s', dRemove l e s = .ok s' ∧ DRepr s' { q with seq := upd q.seq l (pre ++ post) } := by
  have hh := h.head l
  rw [hq] at hh
  have hs := h.seg l; rw [hq] at hs
  have he := seg_get hs
  simp only [Option.or_none] at he
  have hnd := h.nodup l; rw [hq] at hnd
  obtain ⟨na, nb, nc⟩ := nodup_split hnd
  have hpm : ∀ p, pre.getLast? = some p → ∃ d, s.mem p = some ⟨d, some e⟩ ∧ p ≠ e ∧ p ∉ post := by
    intro p hp
    obtain ⟨t, rfl⟩ := List.getLast?_eq_some_iff.1 hp
    have := seg_get (pre := t) (x := p) (post := e :: post) (by simpa using hs)
    exact ⟨_, by simpa using this, by rintro rfl; simp at na, nc p (by simp)⟩
  have hqm : ∀ p, post.head? = some p → ∃ d, s.mem p = some ⟨some e, d⟩ ∧ p ≠ e ∧ p ∉ pre := by
    intro p hp
    obtain ⟨t, rfl⟩ : ∃ t, post = p :: t := by cases post with | nil => simp at hp | cons a t => simp at hp; exact ⟨t, by rw [hp]⟩
    have := seg_get (pre := pre ++ [e]) (x := p) (post := t) (by simpa using hs)
    refine ⟨_, by simpa using this, (by rintro rfl; simp at nb), fun hx => nc p hx (by simp)⟩
  cases hp : pre.getLast? with
  | none =>
    have hpre : pre = [] := List.getLast?_eq_none_iff.1 hp
    subst hpre
    cases hp' : post.head? with
    | none =>
      have hpost : post = [] := List.head?_eq_none_iff.1 hp'
      subst hpost
      refine res_cases ?_ fun s' hs' => drepr_remove h hq ?_ ?_ ?_
      · simp [dRemove, DSt.get, DSt.setFirst, Res.bind, he]
      all_goals
        simp [dRemove, DSt.get, Res.bind, DSt.setFirst, DSt.setLast, he] at hs'
        subst hs'
      · simp
      · simp [he]
      · intro k; by_cases hk : k = l <;> simp [hk]
    | some b =>
      obtain ⟨d', hd', hb, hb'⟩ := hqm b hp'
      refine res_cases ?_ fun s' hs' => drepr_remove h hq ?_ ?_ ?_
      · simp [dRemove, DSt.get, DSt.setPrev, DSt.setNext, Res.bind, DSt.setFirst, DSt.setLast, he, hp', hd']
      all_goals
        simp [dRemove, DSt.get, DSt.setPrev, DSt.setNext, Res.bind, DSt.setFirst, DSt.setLast, he, hp', hd'] at hs'
        subst hs'
      · intro x hx; by_cases hx' : x = b
        · subst hx'; simp [hd', hp']
        · simp [hp', hx', Ne.symm hx']
      · simp [he, Ne.symm hb]
      · intro k; by_cases hk : k = l
        · subst hk; cases post with
          | nil => simp at hp'
          | cons c t => simp at hp'; simp [hh, hp', List.getLast?_cons]
        · simp [hk]
  | some a =>
    obtain ⟨d, hd, hae, ha'⟩ := hpm a hp
    cases hp' : post.head? with
    | none =>
      have hpost : post = [] := List.head?_eq_none_iff.1 hp'
      subst hpost
      refine res_cases ?_ fun s' hs' => drepr_remove h hq ?_ ?_ ?_
      · simp [dRemove, DSt.get, DSt.setPrev, DSt.setNext, Res.bind, DSt.setFirst, DSt.setLast, he, hp, hd, hae, Ne.symm hae]
      all_goals
        simp [dRemove, DSt.get, DSt.setPrev, DSt.setNext, Res.bind, DSt.setFirst, DSt.setLast, he, hp, hd, hae, Ne.symm hae] at hs'
        subst hs'
      · intro x hx; by_cases hx' : x = a
        · subst hx'; simp [hd, hp]
        · simp [hp, hx', Ne.symm hx']
      · simp [he, Ne.symm hae]
      · intro k; by_cases hk : k = l
        · subst hk; cases pre with
          | nil => simp at hp
          | cons c t => simp [hh, hp]
        · simp [hk]
    | some b =>
      obtain ⟨d', hd', hb, hb'⟩ := hqm b hp'
      have hab : b ≠ a := by rintro rfl; exact hb' (List.mem_of_getLast? hp)
      refine res_cases ?_ fun s' hs' => drepr_remove h hq ?_ ?_ ?_
      · simp [dRemove, DSt.get, DSt.setPrev, DSt.setNext, Res.bind, he, hp, hd, Ne.symm hae, hp', hd', hab]
      all_goals
        simp [dRemove, DSt.get, DSt.setPrev, DSt.setNext, Res.bind, he, hp, hd, Ne.symm hae, hp', hd', hab] at hs'
        subst hs'
      · intro x hx; by_cases hx' : x = a
        · subst hx'; simp [hd, Ne.symm hab, hab, hp, hp']
        · by_cases hx2 : x = b
          · subst hx2; simp [hd', hx', Ne.symm hx', hp, hp']
          · simp [hx', Ne.symm hx', hx2, Ne.symm hx2, hp, hp']
      · simp [he, Ne.symm hae, Ne.symm hb]
      · intro k; by_cases hk : k = l
        · subst hk; cases pre with
          | nil => simp at hp
          | cons c t => cases post with
            | nil => simp at hp'
            | cons f u => simp [hh, List.getLast?_cons, List.getLast?_append]
        · simp [hk]

theorem dRemoveHead_spec {s : DSt} {q : Seqs} {l : Nat} {e : Addr} {post : List Addr} (h : DRepr s q)
    (hq : q.seq l = e :: post) :
    ∃ s', dRemoveHead l s = .ok s' ∧ DRepr s' { q with seq := upd q.seq l post } := by
  have hh := h.head l
  rw [hq] at hh
  have hs := h.seg l; rw [hq] at hs
  have he := hs.1
  have hnd := h.nodup l; rw [hq] at hnd
  cases post with
  | nil =>
    refine res_cases ?_ fun s' hs' => drepr_remove (pre := []) h hq ?_ ?_ ?_
    · simp [dRemoveHead, DSt.get, Res.bind, hh, he]
    all_goals
      simp [dRemoveHead, DSt.get, Res.bind, hh, he, DSt.setFirst, DSt.setLast] at hs'
      subst hs'
    · simp
    · simp [he]
    · intro k; by_cases hk : k = l <;> simp [hk]
  | cons b t =>
    have hb : s.mem b = some ⟨some e, t.head?⟩ := by simpa using hs.2.1
    have hbe : b ≠ e := by rintro rfl; simp at hnd
    refine res_cases ?_ fun s' hs' => drepr_remove (pre := []) h hq ?_ ?_ ?_
    · simp [dRemoveHead, DSt.get, Res.bind, hh, he, hb, DSt.setFirst, DSt.setPrev]
    all_goals
      simp [dRemoveHead, DSt.get, Res.bind, hh, he, DSt.setFirst, DSt.setLast, hb, DSt.setPrev] at hs'
      subst hs'
    · intro x hx; by_cases hx' : x = b
      · subst hx'; simp [hb]
      · simp [hx', Ne.symm hx']
    · simp [he, Ne.symm hbe]
    · intro k; by_cases hk : k = l
      · subst hk; simp [List.getLast?_cons]
      · simp [hk]

theorem drepr_init {s : DSt} {q : Seqs} {l : Nat} (h : DRepr s q) : DRepr (dInit l s) { q with seq := upd q.seq l [] } := by
  refine ⟨fun k => ?_, fun k k' a => ?_, fun a => h.live a, fun k => ?_, fun k => ?_⟩ <;> dsimp only [upd]
  · by_cases hk : k = l <;> simp [hk, h.nodup k]
  · intro h1 h2
    by_cases hk : k = l
    · simp [hk] at h1
    · by_cases hk' : k' = l
      · simp [hk'] at h2
      · rw [if_neg hk] at h1; rw [if_neg hk'] at h2; exact h.disj k k' a h1 h2
  · by_cases hk : k = l <;> simp [dInit, DSt.setFirst, DSt.setLast, hk, h.head k]
  · by_cases hk : k = l
    · simp [hk, Seg]
    · rw [if_neg hk]; exact h.seg k

theorem drepr_alloc {s : DSt} {q : Seqs} {e : Addr} {n : DNode} (h : DRepr s q) (he : ¬ q.live e) :
    DRepr (dAlloc e n s) { q with live := fun x => x = e ∨ q.live x } := by
  refine ⟨h.nodup, h.disj, fun a => ?_, h.head, fun k => seg_frame (h.seg k) fun x hx => ?_⟩
  · by_cases ha : a = e <;> simp [dAlloc, ha, h.live a]
  · have : x ≠ e := by rintro rfl; exact he ((h.live x).2 (seg_live (h.seg k) hx))
    simp [dAlloc, this]

theorem drepr_free {s : DSt} {q : Seqs} {e : Addr} (h : DRepr s q) (he : ∀ l, e ∉ q.seq l) :
    DRepr (dFree e s) { q with live := fun x => x ≠ e ∧ q.live x } := by
  refine ⟨h.nodup, h.disj, fun a => ?_, h.head, fun k => seg_frame (h.seg k) fun x hx => ?_⟩
  · by_cases ha : a = e <;> simp [dFree, ha, h.live a]
  · have : x ≠ e := by rintro rfl; exact he k hx
    simp [dFree, this]

theorem dstep_spec {s : DSt} {q q' : Seqs} {o : DOp} (h : DRepr s q) (hs : DStep o q q') :
    ∃ s', o.exec s = .ok s' ∧ DRepr s' q' := by
  cases hs with
  | init => exact ⟨_, rfl, drepr_init h⟩
  | insertHead he => exact dInsertHead_spec h he
  | insertTail he => exact dInsertTail_spec h he
  | insertAfter he hq => exact dInsertAfter_spec h he hq
  | insertAfterNull he => exact dInsertTail_spec h he
  | insertBefore he hq => exact dInsertBefore_spec h he hq
  | insertBeforeNull he => exact dInsertHead_spec h he
  | remove hq => exact dRemove_spec h hq
  | removeHead hq => exact dRemoveHead_spec h hq
  | alloc he => exact ⟨_, rfl, drepr_alloc h he⟩
  | free he => exact ⟨_, rfl, drepr_free h he.2⟩

theorem drun_spec {s : DSt} {q q' : Seqs} {os : List DOp} (h : DRepr s q) (hs : DRun os q q') :
    ∃ s', dExec os s = .ok s' ∧ DRepr s' q' := by
  induction hs generalizing s with
  | nil => exact ⟨s, rfl, h⟩
  | cons h1 _ ih =>
    obtain ⟨s1, e1, r1⟩ := dstep_spec h h1
    obtain ⟨s2, e2, r2⟩ := ih r1
    exact ⟨s2, by simp [dExec, e1, Res.bind, e2], r2⟩

theorem dwalk_seg {s : DSt} {xs : List Addr} {p : Option Addr} {fuel : Nat} (h : Seg s.mem p xs none) (hf : xs.length ≤ fuel) :
    dWalk s fuel xs.head? = .ok (some xs) := by
  induction xs generalizing fuel p with
  | nil => cases fuel <;> rfl
  | cons x xs ih =>
    obtain ⟨fuel, rfl⟩ : ∃ k, fuel = k + 1 := ⟨fuel - 1, by simp at hf; omega⟩
    have := ih h.2 (fuel := fuel) (by simpa using hf)
    simp [dWalk, DSt.get, h.1, Res.bind, this]

theorem dwalkBack_seg {s : DSt} {xs : List Addr} {n : Option Addr} {fuel : Nat} (h : Seg s.mem none xs n) (hf : xs.length ≤ fuel) :
    dWalkBack s fuel xs.getLast? = .ok (some xs.reverse) := by
  induction fuel generalizing xs n with
  | zero =>
    obtain rfl : xs = [] := by cases xs <;> simp_all
    rfl
  | succ fuel ih =>
    rcases List.eq_nil_or_concat xs with rfl | ⟨t, x, rfl⟩
    · rfl
    · simp only [List.concat_eq_append] at *
      have hx := seg_get h
      have := ih (seg_append.1 h).1 (by simpa using hf)
      simp [dWalkBack, DSt.get, hx, Res.bind, this]

theorem dTmp_seg {s : DSt} {xs : List Addr} {p : Option Addr} (h : Seg s.mem p xs none) : dTmp s xs.head? = .ok xs.tail.head? := by
  cases xs with
  | nil => rfl
  | cons x xs => simp [dTmp, DSt.get, h.1, Res.bind]

theorem upd_self {α} (f : Nat → α) (l : Nat) : upd f l (f l) = f := by
  funext k; simp only [upd]; split
  · rename_i h; rw [h]
  · rfl

theorem upd_upd {α} (f : Nat → α) (l : Nat) (a b : α) : upd (upd f l a) l b = upd f l b := by
  funext k; simp only [upd]; split <;> rfl

theorem dSweep_spec {l : Nat} {p : Addr → Bool} : ∀ {post pre : List Addr} {s : DSt} {q : Seqs} {fuel : Nat}, DRepr s q →
    q.seq l = pre ++ post → post.length ≤ fuel →
    ∃ s', dSweep l p fuel post.head? post.tail.head? s = .ok (some s') ∧
      DRepr s' ⟨upd q.seq l (pre ++ post.filter fun x => !p x), fun x => q.live x ∧ ¬ (x ∈ post ∧ p x)⟩ := by
  intro post
  induction post with
  | nil =>
    intro pre s q fuel h hq hf
    refine ⟨s, ?_, ?_⟩
    · cases fuel <;> rfl
    · have h1 : upd q.seq l (pre ++ ([].filter fun x => !p x)) = q.seq := by
        have := upd_self q.seq l; rw [hq] at this; simpa using this
      rw [h1]
      refine ⟨h.nodup, h.disj, fun a => ?_, h.head, h.seg⟩
      simpa using h.live a
  | cons a post ih =>
    intro pre s q fuel h hq hf
    obtain ⟨fuel, rfl⟩ : ∃ k, fuel = k + 1 := ⟨fuel - 1, by simp at hf; omega⟩
    have hf' : post.length ≤ fuel := by simpa using hf
    have hnd := h.nodup l; rw [hq] at hnd
    obtain ⟨na, nb, nc⟩ := nodup_split hnd
    by_cases hp : p a
    · obtain ⟨s1, e1, r1⟩ := dRemove_spec h hq
      have hfr : ∀ k, a ∉ (upd q.seq l (pre ++ post)) k := by
        intro k hk
        simp only [upd] at hk
        by_cases hkl : k = l
        · rw [if_pos hkl, List.mem_append] at hk; rcases hk with hk | hk
          · exact na hk
          · exact nb hk
        · rw [if_neg hkl] at hk
          exact hkl (h.disj k l a hk (by rw [hq]; simp))
      have r2 := drepr_free r1 hfr
      have hsg := r2.seg l
      simp only [upd, if_pos] at hsg
      have ht := dTmp_seg (seg_append.1 hsg).2
      obtain ⟨s', e', r'⟩ := ih r2 (pre := pre) (fuel := fuel) (by simp [upd]) hf'
      refine ⟨s', ?_, ?_⟩
      · simp [dSweep, hp, e1, Res.bind, ht]; simpa using e'
      · simp only [upd_upd] at r'
        have h1 : (a :: post).filter (fun x => !p x) = post.filter fun x => !p x := by simp [hp]
        rw [h1]
        refine ⟨r'.nodup, r'.disj, fun x => ?_, r'.head, r'.seg⟩
        rw [← r'.live x]
        by_cases hx : x = a
        · subst hx; simp [hp]
        · simp [hx]
    · have hsg := h.seg l
      rw [hq] at hsg
      have ht := dTmp_seg (seg_append.1 hsg).2.2
      obtain ⟨s', e', r'⟩ := ih h (pre := pre ++ [a]) (fuel := fuel) (by simp [hq]) hf'
      refine ⟨s', ?_, ?_⟩
      · simp [dSweep, hp, Res.bind, ht]; simpa using e'
      · have h1 : (a :: post).filter (fun x => !p x) = a :: post.filter fun x => !p x := by simp [hp]
        rw [h1]
        have h2 : pre ++ [a] ++ post.filter (fun x => !p x) = pre ++ a :: post.filter fun x => !p x := by simp
        rw [h2] at r'
        refine ⟨r'.nodup, r'.disj, fun x => ?_, r'.head, r'.seg⟩
        rw [← r'.live x]
        by_cases hx : x = a
        · subst hx; simp [hp]
        · simp [hx]

/-! ### Singly-linked segments -/

/-- The elements `xs` are linked in this order and end in `n`. -/
def SSeg (m : Addr → Option (Option Addr)) : List Addr → Option Addr → Prop
  | [], _ => True
  | x :: xs, n => m x = some (xs.head?.or n) ∧ SSeg m xs n

theorem sseg_append {m : Addr → Option (Option Addr)} {xs ys : List Addr} {n} :
    SSeg m (xs ++ ys) n ↔ SSeg m xs (ys.head?.or n) ∧ SSeg m ys n := by
  induction xs with
  | nil => simp [SSeg]
  | cons x xs ih =>
    simp only [List.cons_append, SSeg, ih, List.head?_append, Option.or_assoc]
    constructor
    · rintro ⟨h1, h2, h3⟩; exact ⟨⟨h1, h2⟩, h3⟩
    · rintro ⟨⟨h1, h2⟩, h3⟩; exact ⟨h1, h2, h3⟩

theorem sseg_frame {m m' : Addr → Option (Option Addr)} {xs : List Addr} {n} (h : SSeg m xs n) (hm : ∀ x ∈ xs, m' x = m x) :
    SSeg m' xs n := by
  induction xs with
  | nil => trivial
  | cons x xs ih => exact ⟨by rw [hm x (by simp)]; exact h.1, ih h.2 fun y hy => hm y (by simp [hy])⟩

theorem sseg_next {m m' : Addr → Option (Option Addr)} {xs : List Addr} {n n'} (h : SSeg m xs n) (hn : xs.Nodup)
    (hm : ∀ x ∈ xs, m' x = if xs.getLast? = some x then some n' else m x) : SSeg m' xs n' := by
  induction xs with
  | nil => trivial
  | cons x xs ih =>
    obtain ⟨hx, hn⟩ := List.nodup_cons.1 hn
    cases xs with
    | nil =>
      refine ⟨?_, trivial⟩
      rw [hm x (by simp)]; simp
    | cons y ys =>
      refine ⟨?_, ih h.2 hn fun z hz => ?_⟩
      · rw [hm x (by simp), h.1, List.getLast?_cons_cons]
        have : (y :: ys).getLast? ≠ some x := fun e => hx (List.mem_of_getLast? e)
        simp [this]
      · rw [hm z (by simp [hz]), List.getLast?_cons_cons]

theorem sseg_get {m : Addr → Option (Option Addr)} {pre post : List Addr} {x : Addr} {n} (h : SSeg m (pre ++ x :: post) n) :
    m x = some (post.head?.or n) := (sseg_append.1 h).2.1

theorem sseg_live {m : Addr → Option (Option Addr)} {xs : List Addr} {x : Addr} {n} (h : SSeg m xs n) (hx : x ∈ xs) : (m x).isSome := by
  obtain ⟨a, b, rfl⟩ := List.append_of_mem hx
  rw [sseg_get h]; rfl

/-- The state represents the sequences. -/
structure SRepr (s : SSt) (q : Seqs) : Prop where
  nodup : ∀ l, (q.seq l).Nodup
  disj : ∀ l l' a, a ∈ q.seq l → a ∈ q.seq l' → l = l'
  live : ∀ a, q.live a ↔ (s.mem a).isSome
  head : ∀ l, s.heads l = ⟨(q.seq l).head?, (q.seq l).getLast?⟩
  seg : ∀ l, SSeg s.mem (q.seq l) none

theorem srepr_insert {s s' : SSt} {q : Seqs} {l : Nat} (pre post : List Addr) {e : Addr} {r : List Addr} (h : SRepr s q)
    (hr : r = pre ++ e :: post) (hl : q.seq l = pre ++ post) (he : q.Fresh e)
    (hm : ∀ x, s'.mem x = if x = e then some post.head? else if pre.getLast? = some x then some (some e) else s.mem x)
    (hh : ∀ k, s'.heads k = if k = l then ⟨(pre ++ e :: post).head?, (pre ++ e :: post).getLast?⟩ else s.heads k) :
    SRepr s' { q with seq := upd q.seq l r } := by
  subst hr
  have hn := h.nodup l; rw [hl] at hn
  have hel := he.2 l; rw [hl, List.mem_append, not_or] at hel
  obtain ⟨hn1, hn2, hn3⟩ := List.nodup_append.1 hn
  have hs := h.seg l; rw [hl] at hs
  obtain ⟨hs1, hs2⟩ := sseg_append.1 hs
  refine ⟨fun k => ?_, fun k k' a => ?_, fun a => ?_, fun k => ?_, fun k => ?_⟩ <;> dsimp only [upd]
  · by_cases hk : k = l
    · rw [if_pos hk]
      refine List.nodup_append.2 ⟨hn1, List.nodup_cons.2 ⟨hel.2, hn2⟩, fun a ha b hb => ?_⟩
      rcases List.mem_cons.1 hb with rfl | hb
      · rintro rfl; exact hel.1 ha
      · exact hn3 a ha b hb
    · rw [if_neg hk]; exact h.nodup k
  · have key : ∀ k, a ∈ (if k = l then pre ++ e :: post else q.seq k) → (a = e ∧ k = l) ∨ (a ∈ q.seq k ∧ a ≠ e) := by
      intro k ha
      by_cases hk : k = l
      · rw [if_pos hk] at ha
        by_cases hae : a = e
        · exact .inl ⟨hae, hk⟩
        · refine .inr ⟨?_, hae⟩
          rw [hk, hl]; simp only [List.mem_append, List.mem_cons, hae, false_or] at ha ⊢; exact ha
      · rw [if_neg hk] at ha
        exact .inr ⟨ha, fun hae => he.2 k (hae ▸ ha)⟩
    intro h1 h2
    rcases key k h1 with ⟨r, r'⟩ | ⟨r, r'⟩ <;> rcases key k' h2 with ⟨t, t'⟩ | ⟨t, t'⟩
    · rw [r', t']
    · exact absurd r t'
    · exact absurd t r'
    · exact h.disj k k' a r t
  · rw [h.live a, hm a]
    by_cases hae : a = e
    · subst hae; simp [(h.live a).1 he.1]
    · simp only [hae, if_false]
      by_cases hp : pre.getLast? = some a
      · simp [hp, sseg_live hs1 (List.mem_of_getLast? hp)]
      · simp [hp]
  · rw [hh k]; by_cases hk : k = l <;> simp [hk, h.head k]
  · by_cases hk : k = l
    · rw [if_pos hk]
      refine sseg_append.2 ⟨?_, ?_, ?_⟩
      · refine sseg_next hs1 hn1 fun x hx => ?_
        rw [hm x, if_neg (by rintro rfl; exact hel.1 hx)]
        simp
      · rw [hm e, if_pos rfl]; simp
      · refine sseg_frame hs2 fun x hx => ?_
        rw [hm x, if_neg (by rintro rfl; exact hel.2 hx)]
        have : pre.getLast? ≠ some x := fun hp => hn3 x (List.mem_of_getLast? hp) x hx rfl
        simp [this]
    · rw [if_neg hk]
      refine sseg_frame (h.seg k) fun x hx => ?_
      have hxl : x ∉ pre ++ post := fun hx' => hk (h.disj k l x hx (hl ▸ hx'))
      rw [List.mem_append, not_or] at hxl
      rw [hm x, if_neg (by rintro rfl; exact he.2 k hx)]
      have h2 : pre.getLast? ≠ some x := fun hp => hxl.1 (List.mem_of_getLast? hp)
      simp [h2]

theorem sInsertHead_spec {s : SSt} {q : Seqs} {l : Nat} {e : Addr} (h : SRepr s q) (he : q.Fresh e) :
    ∃ s', sInsertHead l e s = .ok s' ∧ SRepr s' { q with seq := upd q.seq l (e :: q.seq l) } := by
  obtain ⟨n, hn⟩ := isSome_ex ((h.live e).1 he.1)
  have hh := h.head l
  refine res_cases ?_ fun s' hs' => srepr_insert [] (q.seq l) h (by simp) (by simp) he ?_ ?_
  · simp [sInsertHead, SSt.set, hn, Res.bind]
  all_goals
    simp [sInsertHead, SSt.set, hn, Res.bind, SSt.setFirst, SSt.setLast, hh] at hs'
    subst hs'
  · intro x; by_cases hx : x = e
    · subst hx; split <;> simp_all
    · split <;> simp [hx]
  · intro k; by_cases hk : k = l
    · subst hk; cases hq : q.seq k <;> simp [hh, hq, List.getLast?_cons]
    · simp only [hk, if_false]; split <;> simp [hk]

theorem sInsertTail_spec {s : SSt} {q : Seqs} {l : Nat} {e : Addr} (h : SRepr s q) (he : q.Fresh e) :
    ∃ s', sInsertTail l e s = .ok s' ∧ SRepr s' { q with seq := upd q.seq l (q.seq l ++ [e]) } := by
  obtain ⟨n, hn⟩ := isSome_ex ((h.live e).1 he.1)
  have hh := h.head l
  rcases List.eq_nil_or_concat (q.seq l) with hq | ⟨t, f, hq⟩
  · rw [hq] at hh
    refine res_cases ?_ fun s' hs' => srepr_insert [] [] h (by simp [hq]) (by simp [hq]) he ?_ ?_
    · simp [sInsertTail, SSt.set, hn, Res.bind, hh, SSt.setFirst, SSt.setLast]
    all_goals
      simp [sInsertTail, SSt.set, hn, Res.bind, hh, SSt.setFirst, SSt.setLast] at hs'
      subst hs'
    · intro x; by_cases hx : x = e <;> simp [hx]
    · intro k; by_cases hk : k = l <;> simp [hk]
  · simp only [List.concat_eq_append] at hq
    rw [hq] at hh
    have hs := h.seg l; rw [hq] at hs
    have hf := sseg_get hs
    have hfe : f ≠ e := by rintro rfl; exact he.2 l (by simp [hq])
    refine res_cases ?_ fun s' hs' => srepr_insert (t ++ [f]) [] h (by simp [hq]) (by simp [hq]) he ?_ ?_
    · simp [sInsertTail, SSt.set, hn, Res.bind, hh, SSt.setFirst, SSt.setLast, hf, Ne.symm hfe]
    all_goals
      simp [sInsertTail, SSt.set, hn, Res.bind, hh, SSt.setFirst, SSt.setLast, hf, Ne.symm hfe] at hs'
      subst hs'
    · intro x
      by_cases hx : x = e
      · subst hx; simp
      · by_cases hx' : x = f
        · subst hx'; simp [hx]
        · simp [hx, hx', Ne.symm hx']
    · intro k; by_cases hk : k = l <;> simp [hk]

theorem sInsertAfter_spec {s : SSt} {q : Seqs} {l : Nat} {a e : Addr} {pre post : List Addr} (h : SRepr s q) (he : q.Fresh e)
    (hq : q.seq l = pre ++ a :: post) :
    ∃ s', sInsertAfter l a e s = .ok s' ∧ SRepr s' { q with seq := upd q.seq l (pre ++ a :: e :: post) } := by
  obtain ⟨n, hn⟩ := isSome_ex ((h.live e).1 he.1)
  have hh := h.head l
  rw [hq] at hh
  have hs := h.seg l; rw [hq] at hs
  have ha := sseg_get hs
  have hae : a ≠ e := by rintro rfl; exact he.2 l (by simp [hq])
  refine res_cases ?_ fun s' hs' => srepr_insert (pre ++ [a]) post h (by simp) (by simp [hq]) he ?_ ?_
  · cases post <;> simp [sInsertAfter, SSt.get, SSt.set, hn, Res.bind, ha, hae, SSt.setLast]
  all_goals
    cases post <;>
    simp [sInsertAfter, SSt.get, SSt.set, hn, Res.bind, ha, hae, SSt.setLast] at hs' <;>
    subst hs'
  iterate 2
    · intro x
      by_cases hx : x = e
      · subst hx; simp [Ne.symm hae]
      · by_cases hx' : x = a
        · subst hx'; simp [hx]
        · simp [hx, hx', Ne.symm hx']
  iterate 2
    · intro k; by_cases hk : k = l
      · subst hk; simp [hh, List.head?_append, List.getLast?_append, List.getLast?_cons]
      · simp [hk]

theorem srepr_sub {s s' : SSt} {q : Seqs} {f : Nat → List Addr} (h : SRepr s q) (hsub : ∀ k, (f k).Sublist (q.seq k))
    (hm : s'.mem = s.mem) (hh : ∀ k, s'.heads k = ⟨(f k).head?, (f k).getLast?⟩) (hs : ∀ k, SSeg s.mem (f k) none) :
    SRepr s' { q with seq := f } :=
  ⟨fun k => (h.nodup k).sublist (hsub k), fun k k' a h1 h2 => h.disj k k' a ((hsub k).subset h1) ((hsub k').subset h2),
    fun a => by rw [hm]; exact h.live a, hh, fun k => by rw [hm]; exact hs k⟩

theorem sRemoveHead_spec {s : SSt} {q : Seqs} {l : Nat} {e : Addr} {post : List Addr} (h : SRepr s q)
    (hq : q.seq l = e :: post) :
    ∃ s', sRemoveHead l s = .ok s' ∧ SRepr s' { q with seq := upd q.seq l post } := by
  have hh := h.head l
  rw [hq] at hh
  have hs := h.seg l; rw [hq] at hs
  have he := hs.1
  refine res_cases ?_ fun s' hs' => srepr_sub h (fun k => ?_) ?_ (fun k => ?_) (fun k => ?_)
  · simp [sRemoveHead, hh, SSt.get, he, Res.bind]
  · simp only [upd]; split
    · rename_i hk; rw [hk, hq]; exact List.sublist_cons_self _ _
    · exact List.Sublist.refl _
  · simp [sRemoveHead, hh, SSt.get, he, Res.bind, SSt.setFirst, SSt.setLast] at hs'
    subst hs'; split <;> rfl
  · simp [sRemoveHead, hh, SSt.get, he, Res.bind, SSt.setFirst, SSt.setLast] at hs'
    subst hs'
    simp only [upd]
    by_cases hk : k = l
    · cases post <;> simp [hk, List.getLast?_cons]
    · cases post <;> simp [hk, h.head k]
  · simp only [upd]; split
    · exact hs.2
    · exact h.seg k

theorem sInit_spec {s : SSt} {q : Seqs} {l : Nat} (h : SRepr s q) : SRepr (sInit l s) { q with seq := upd q.seq l [] } := by
  refine srepr_sub h (fun k => ?_) rfl (fun k => ?_) (fun k => ?_) <;> simp only [upd]
  · split
    · exact List.nil_sublist _
    · exact List.Sublist.refl _
  · by_cases hk : k = l <;> simp [sInit, SSt.setFirst, SSt.setLast, hk, h.head k]
  · split
    · trivial
    · exact h.seg k

theorem sConcat_spec {s : SSt} {q : Seqs} {a b : Nat} (h : SRepr s q) (hab : a ≠ b) (hne : q.seq b = [] → q.seq a = []) :
    ∃ s', (sConcat a b s).bind (fun s => .ok (sInit b s)) = .ok s' ∧
      SRepr s' { q with seq := upd (upd q.seq a (q.seq a ++ q.seq b)) b [] } := by
  have ha := h.head a
  have hb := h.head b
  have hsa := h.seg a
  have hsb := h.seg b
  have hna := h.nodup a
  have hnb := h.nodup b
  have hd : ∀ x, x ∈ q.seq a → x ∈ q.seq b → False := fun x h1 h2 => hab (h.disj a b x h1 h2)
  have main : ∀ s' : SSt,
      (∀ x, s'.mem x = if (q.seq a).getLast? = some x then some (q.seq b).head? else s.mem x) →
      (∀ k, s'.heads k = if k = b then ⟨none, none⟩ else if k = a then ⟨(q.seq a ++ q.seq b).head?, (q.seq a ++ q.seq b).getLast?⟩ else s.heads k) →
      SRepr s' { q with seq := upd (upd q.seq a (q.seq a ++ q.seq b)) b [] } := by
    intro s' hm hh
    have hin : ∀ k x, x ∈ upd (upd q.seq a (q.seq a ++ q.seq b)) b [] k → (k = a ∧ (x ∈ q.seq a ∨ x ∈ q.seq b)) ∨ (k ≠ a ∧ k ≠ b ∧ x ∈ q.seq k) := by
      intro k x hx
      simp only [upd] at hx
      by_cases hkb : k = b
      · simp [hkb] at hx
      · rw [if_neg hkb] at hx
        by_cases hka : k = a
        · rw [if_pos hka] at hx; exact .inl ⟨hka, List.mem_append.1 hx⟩
        · rw [if_neg hka] at hx; exact .inr ⟨hka, hkb, hx⟩
    refine ⟨fun k => ?_, fun k k' x h1 h2 => ?_, fun x => ?_, fun k => ?_, fun k => ?_⟩
    · simp only [upd]
      split
      · exact List.nodup_nil
      · split
        · exact List.nodup_append.2 ⟨hna, hnb, fun x hx y hy e => hd x hx (e ▸ hy)⟩
        · exact h.nodup k
    · rcases hin k x h1 with ⟨e1, r1⟩ | ⟨n1, m1, r1⟩ <;> rcases hin k' x h2 with ⟨e2, r2⟩ | ⟨n2, m2, r2⟩
      · rw [e1, e2]
      · rcases r1 with r1 | r1
        · exact absurd (h.disj k' a x r2 r1) n2
        · exact absurd (h.disj k' b x r2 r1) m2
      · rcases r2 with r2 | r2
        · exact absurd (h.disj k a x r1 r2) n1
        · exact absurd (h.disj k b x r1 r2) m1
      · exact h.disj k k' x r1 r2
    · rw [h.live x, hm x]
      by_cases hp : (q.seq a).getLast? = some x
      · simp [hp, sseg_live hsa (List.mem_of_getLast? hp)]
      · simp [hp]
    · rw [hh k]; simp only [upd]; split
      · rfl
      · split
        · rfl
        · exact h.head k
    · simp only [upd]; split
      · trivial
      · split
        · refine sseg_append.2 ⟨sseg_next hsa hna fun x hx => ?_, sseg_frame hsb fun x hx => ?_⟩
          · rw [hm x]; simp
          · rw [hm x, if_neg fun hp => hd x (List.mem_of_getLast? hp) hx]
        · rename_i hkb hka
          refine sseg_frame (h.seg k) fun x hx => ?_
          rw [hm x, if_neg fun hp => hka (h.disj k a x hx (List.mem_of_getLast? hp))]
  rcases List.eq_nil_or_concat (q.seq a) with hq | ⟨t, f, hq⟩
  · rw [hq] at ha
    refine res_cases ?_ fun s' hs' => main s' ?_ ?_
    · simp [sConcat, Res.bind, ha]
    all_goals
      simp [sConcat, Res.bind, ha, hb, SSt.setFirst, SSt.setLast, sInit, Ne.symm hab] at hs'
      subst hs'
    · intro x; simp [hq]
    · intro k; by_cases hkb : k = b <;> by_cases hka : k = a <;> simp_all
  · simp only [List.concat_eq_append] at hq
    rw [hq] at ha hsa
    have hf := sseg_get hsa
    have hbne : q.seq b ≠ [] := fun e => by rw [hne e] at hq; simp at hq
    refine res_cases ?_ fun s' hs' => main s' ?_ ?_
    · simp [sConcat, Res.bind, ha, SSt.set, hf]
    all_goals
      simp [sConcat, Res.bind, ha, hb, SSt.setFirst, SSt.setLast, SSt.set, hf, sInit, Ne.symm hab] at hs'
      subst hs'
    · intro x; by_cases hx : x = f
      · simp [hq, hx]
      · simp [hq, hx, Ne.symm hx]
    · intro k
      obtain ⟨u, v, hb'⟩ : ∃ u v, q.seq b = u :: v := by cases hc : q.seq b with | nil => exact absurd hc hbne | cons u v => exact ⟨u, v, rfl⟩
      by_cases hkb : k = b
      · simp [hkb]
      · by_cases hka : k = a
        · subst hka; simp [hkb, hq, hb', ha, List.getLast?_append, List.getLast?_cons]
        · simp [hkb, hka]

theorem sstep_spec {s : SSt} {q q' : Seqs} {o : SOp} (h : SRepr s q) (hs : SStep o q q') :
    ∃ s', o.exec s = .ok s' ∧ SRepr s' q' := by
  cases hs with
  | init => exact ⟨_, rfl, sInit_spec h⟩
  | insertHead he => exact sInsertHead_spec h he
  | insertTail he => exact sInsertTail_spec h he
  | insertAfter he hq => exact sInsertAfter_spec h he hq
  | removeHead hq => exact sRemoveHead_spec h hq
  | removeHeadEmpty hq =>
    rename_i l
    have := h.head l; rw [hq] at this
    exact ⟨s, by simp [SOp.exec, sRemoveHead, this], h⟩
  | concat hab hne => exact sConcat_spec h hab hne
  | alloc he =>
    rename_i e n
    refine ⟨_, rfl, h.nodup, h.disj, fun a => ?_, h.head, fun k => sseg_frame (h.seg k) fun x hx => ?_⟩
    · by_cases ha : a = e <;> simp [ha, h.live a]
    · have : x ≠ e := by rintro rfl; exact he ((h.live x).2 (sseg_live (h.seg k) hx))
      simp [this]
  | free he =>
    rename_i e
    refine ⟨_, rfl, h.nodup, h.disj, fun a => ?_, h.head, fun k => sseg_frame (h.seg k) fun x hx => ?_⟩
    · by_cases ha : a = e <;> simp [ha, h.live a]
    · have : x ≠ e := by rintro rfl; exact he.2 k hx
      simp [this]

theorem srun_spec {s : SSt} {q q' : Seqs} {os : List SOp} (h : SRepr s q) (hs : SRun os q q') :
    ∃ s', sExec os s = .ok s' ∧ SRepr s' q' := by
  induction hs generalizing s with
  | nil => exact ⟨s, rfl, h⟩
  | cons h1 _ ih =>
    obtain ⟨s1, e1, r1⟩ := sstep_spec h h1
    obtain ⟨s2, e2, r2⟩ := ih r1
    exact ⟨s2, by simp [sExec, e1, Res.bind, e2], r2⟩

theorem swalk_seg {s : SSt} {xs : List Addr} {fuel : Nat} (h : SSeg s.mem xs none) (hf : xs.length ≤ fuel) :
    sWalk s fuel xs.head? = .ok (some xs) := by
  induction xs generalizing fuel with
  | nil => cases fuel <;> rfl
  | cons x xs ih =>
    obtain ⟨fuel, rfl⟩ : ∃ k, fuel = k + 1 := ⟨fuel - 1, by simp at hf; omega⟩
    have := ih h.2 (fuel := fuel) (by simpa using hf)
    simp [sWalk, SSt.get, h.1, Res.bind, this]

end Pound
