import Verif.Model.StringBuf
import Verif.Spec.StringBuf
import Verif.Proof.Lists

namespace Pound
open Spec

structure SbInv (sb : SBuf) : Prop where
  none : sb.base = none → sb.size = 0
  block : ∀ b, sb.base = some b → b.length = sb.size ∧ 0 < sb.size
  len : sb.len ≤ sb.size
  size : sb.size < 2 ^ 63

theorem SbInv.blockLen {sb : SBuf} (h : SbInv sb) : (sb.base.getD []).length = sb.size := by
  cases hb : sb.base with
  | none => rw [h.none hb]; rfl
  | some b => exact (h.block b hb).1

theorem SbInv.valueLen {sb : SBuf} (h : SbInv sb) : sb.value.length = sb.len := by
  simp only [SBuf.value, List.length_take, h.blockLen]
  have := h.len; omega

theorem reallocTo_length (junk : Junk) (o : Option Bytes) (n : Nat) : (reallocTo junk o n).length = n := by
  simp [reallocTo]; omega

theorem reallocTo_take (junk : Junk) (o : Option Bytes) {n k : Nat} (h1 : k ≤ n) (h2 : k ≤ (o.getD []).length) :
    (reallocTo junk o n).take k = (o.getD []).take k := by
  simp only [reallocTo]
  rw [List.take_append_of_le_length (by simp; omega), List.take_take]
  congr 1; omega

theorem growCount_one {sb : SBuf} (h : SbInv sb) :
    ∃ n, growCount sb.base.isSome sb.size 1 = some n ∧ sb.size < n ∧ 0 < n ∧ n * 1 % sizeMod = n ∧ n ≤ sb.size + (sb.size + 1) / 2 + 64 := by
  cases hb : sb.base with
  | none =>
    have := h.none hb
    exact ⟨64, by simp [growCount, this], by omega, by omega, by decide, by omega⟩
  | some b =>
    obtain ⟨h1, h2⟩ := h.block b hb
    have h3 := h.size
    have e1 : ¬ (sizeMod - 1) / 3 * 2 / 1 ≤ sb.size := by simp only [sizeMod]; omega
    have e2 : (sb.size + 1) % sizeMod = sb.size + 1 := Nat.mod_eq_of_lt (by simp only [sizeMod]; omega)
    have e3 : (sb.size + (sb.size + 1) / 2) % sizeMod = sb.size + (sb.size + 1) / 2 := Nat.mod_eq_of_lt (by simp only [sizeMod]; omega)
    refine ⟨sb.size + (sb.size + 1) / 2, by simp [growCount, e1, e2, e3]; simpa using e1, by omega, by omega, by rw [Nat.mul_one]; exact e3, by omega⟩

/-- What one enlargement does. -/
theorem grow_spec {al : Alloc} {junk : Junk} {sb : SBuf} (hal : SaneAlloc al) (h : SbInv sb) :
    ((sb.grow al junk).2 = true → SbInv (sb.grow al junk).1 ∧ sb.size < (sb.grow al junk).1.size ∧ (sb.grow al junk).1.value = sb.value ∧
      (sb.grow al junk).1.len = sb.len ∧ (sb.grow al junk).1.err = sb.err ∧ (sb.grow al junk).1.base.isSome) ∧
    ((sb.grow al junk).2 = false → SbInv (sb.grow al junk).1 ∧ (sb.grow al junk).1.value = sb.value ∧
      (sb.grow al junk).1.len = sb.len ∧ (sb.grow al junk).1.err = true) := by
  obtain ⟨n, hn, h1, h2, h3, h4⟩ := growCount_one h
  simp only [SBuf.grow, hn, h3]
  by_cases ha : al sb.calls n
  · rw [if_pos ha]
    refine ⟨fun _ => ⟨⟨(fun e => by cases e), ?_, ?_, hal _ _ ha⟩, h1, ?_, rfl, rfl, rfl⟩, fun e => by cases e⟩
    · intro b hb; cases hb; exact ⟨reallocTo_length _ _ _, h2⟩
    · have := h.len; simp only; omega
    · simp only [SBuf.value, Option.getD_some]
      exact reallocTo_take _ _ (by have := h.len; omega) (by rw [h.blockLen]; exact h.len)
  · rw [if_neg ha]
    exact ⟨(fun e => by cases e), fun _ => ⟨⟨h.none, h.block, h.len, h.size⟩, rfl, rfl, rfl⟩⟩

theorem expand_spec {al : Alloc} {junk : Junk} {n : Nat} (hal : SaneAlloc al) (hn : n < 2 ^ 63) : ∀ {fuel : Nat} {sb : SBuf}, SbInv sb →
    sizeMod ≤ fuel + sb.size →
    ∃ sb' ok, sbExpandLoop al junk n fuel sb = some (sb', ok) ∧ SbInv sb' ∧ sb'.value = sb.value ∧ sb'.len = sb.len ∧
      (ok = true → sb.len + n ≤ sb'.size ∧ sb'.err = false) ∧ (ok = false → sb'.err = true) := by
  intro fuel
  induction fuel with
  | zero =>
    intro sb h hf
    have := h.size; simp only [sizeMod] at hf; omega
  | succ fuel ih =>
    intro sb h hf
    have hmod : (sb.len + n) % sizeMod = sb.len + n := Nat.mod_eq_of_lt (by have := h.len; have := h.size; simp only [sizeMod]; omega)
    conv => enter [1, sb', 1, ok, 1]; unfold sbExpandLoop
    rw [hmod]
    by_cases hc : sb.len + n > sb.size
    · simp only [hc, if_true]
      obtain ⟨g1, g2⟩ := grow_spec (junk := junk) hal h
      cases hg : sb.grow al junk with
      | mk s' ok =>
        rw [hg] at g1 g2
        cases ok with
        | false =>
          obtain ⟨r1, r2, r3, r4⟩ := g2 rfl
          exact ⟨s', false, rfl, r1, r2, r3, (fun e => by cases e), fun _ => r4⟩
        | true =>
          obtain ⟨r1, r2, r3, r4, r5, _⟩ := g1 rfl
          simp only at r1 r2 r3 r4
          obtain ⟨t, ok', e, i1, i2, i3, i4, i5⟩ := ih r1 (by omega)
          refine ⟨t, ok', e, i1, by rw [i2, r3], by rw [i3, r4], ?_, i5⟩
          intro hok; have := i4 hok; rw [r4] at this; exact this
    · simp only [hc, if_false]
      exact ⟨_, true, rfl, ⟨h.none, h.block, h.len, h.size⟩, rfl, rfl, fun _ => ⟨by simp only; omega, rfl⟩, fun e => by cases e⟩

theorem sbexpand_spec {al : Alloc} {junk : Junk} {n : Nat} {sb : SBuf} (hal : SaneAlloc al) (hn : n < 2 ^ 63) (h : SbInv sb) :
    ∃ sb' ok, sb.expand al junk n = .ok (sb', ok) ∧ SbInv sb' ∧ sb'.value = sb.value ∧ sb'.len = sb.len ∧
      (ok = true → sb.len + n ≤ sb'.size ∧ sb'.err = false) ∧ (ok = false → sb'.err = true) := by
  obtain ⟨s', ok, e, r⟩ := expand_spec (fuel := sizeMod) hal hn (junk := junk) h (by omega)
  exact ⟨s', ok, by simp [SBuf.expand, e], r⟩

theorem poke_spec {sb : SBuf} {d : Bytes} (h : SbInv sb) (hd : sb.len + d.length ≤ sb.size) :
    ∃ b, pokeAt sb.base sb.len d = .ok b ∧ (sb.base = none → b = none) ∧ (∀ o, sb.base = some o → ∃ o', b = some o' ∧ o'.length = o.length) ∧
      (b.getD []).take (sb.len + d.length) = sb.value ++ d ∧ sb.len + d.length < sizeMod := by
  have hs := h.size
  have hlt : sb.len + d.length < sizeMod := by simp only [sizeMod]; omega
  by_cases hd0 : d = []
  · subst hd0
    exact ⟨sb.base, by simp [pokeAt], id, fun o ho => ⟨o, ho, rfl⟩, by simp [SBuf.value], hlt⟩
  · cases hb : sb.base with
    | none =>
      have := h.none hb
      have : 0 < d.length := List.length_pos_iff.2 hd0
      omega
    | some o =>
      have hol := (h.block o hb).1
      refine ⟨_, by simp [pokeAt, hd0, show sb.len + d.length ≤ o.length by omega]; rfl, (fun e => by cases e), ?_, ?_, hlt⟩
      · intro o' ho'; cases ho'
        refine ⟨_, rfl, ?_⟩
        simp; omega
      · have h1 : (o.take sb.len).length = sb.len := by simp; omega
        simp only [Option.getD_some, SBuf.value, hb]
        rw [← List.append_assoc, List.take_append_of_le_length (by simp; omega), List.take_of_length_le (by simp; omega)]

theorem poke_inv {sb : SBuf} {d : Bytes} {b : Option Bytes} {len' : Nat} (h : SbInv sb) (hb : sb.base = none → b = none)
    (hb' : ∀ o, sb.base = some o → ∃ o', b = some o' ∧ o'.length = o.length) (hl : len' ≤ sb.size) : SbInv { sb with base := b, len := len' } := by
  cases hs : sb.base with
  | none =>
    refine ⟨fun _ => h.none hs, fun o ho => ?_, hl, h.size⟩
    simp only [hb hs] at ho; cases ho
  | some o =>
    obtain ⟨o', rfl, ho'⟩ := hb' o hs
    refine ⟨(fun e => by cases e), fun x hx => ?_, hl, h.size⟩
    cases hx
    rw [ho']; exact h.block o hs

/-- Appending `d` with enough room. -/
theorem append_spec {sb : SBuf} {d : Bytes} (h : SbInv sb) (hd : sb.len + d.length ≤ sb.size) :
    ∃ b, pokeAt sb.base sb.len d = .ok b ∧ SbInv { sb with base := b, len := (sb.len + d.length) % sizeMod } ∧
      SBuf.value { sb with base := b, len := (sb.len + d.length) % sizeMod } = sb.value ++ d := by
  obtain ⟨b, e, h1, h2, h3, h4⟩ := poke_spec h hd
  rw [Nat.mod_eq_of_lt h4]
  exact ⟨b, e, poke_inv (d := d) h h1 h2 hd, h3⟩

/-- Result of an operation: a state, no UB, the content as specified. -/
def SbGood (o : SbOp) (sb : SBuf) (r : Res (SBuf × Bool)) : Prop :=
  ∃ sb' ok, r = .ok (sb', ok) ∧ SbInv sb' ∧ sb'.value = sbEffect o ok sb.value ∧ (ok = false → sb'.err = true)

theorem add_good {al : Alloc} {junk : Junk} {sb : SBuf} (hal : SaneAlloc al) (h : SbInv sb) {d : Bytes} (hd : d.length < 2 ^ 63) :
    ∃ sb' ok, sb.add al junk d = .ok (sb', ok) ∧ SbInv sb' ∧ sb'.value = (if ok then sb.value ++ d else sb.value) ∧ (ok = false → sb'.err = true) ∧
     (ok = true → sb'.err = false) := by
  obtain ⟨s1, ok, e, i, v, l, h1, h2⟩ := sbexpand_spec (junk := junk) hal hd h
  cases ok with
  | false =>
    exact ⟨s1, false, by simp [SBuf.add, e, Res.bind], i, by simp [v], h2, fun e => by cases e⟩
  | true =>
    obtain ⟨h1, h1'⟩ := h1 rfl
    obtain ⟨b, eb, ib, vb⟩ := append_spec (d := d) i (by rw [l]; exact h1)
    exact ⟨_, true, by simp only [SBuf.add, e, Res.bind]; rw [if_neg (by simp), eb], ib, by simp only [if_true]; rw [vb, v], (fun e => by cases e), fun _ => h1'⟩

theorem addChar_eq (al : Alloc) (junk : Junk) (sb : SBuf) (c : UInt8) : sb.addChar al junk c = sb.add al junk [c] := rfl

theorem replicate_nil_iff (n : Nat) (c : UInt8) : List.replicate n c = [] ↔ n = 0 := by simp

theorem set_good {al : Alloc} {junk : Junk} {sb : SBuf} (hal : SaneAlloc al) (h : SbInv sb) {c : UInt8} {n : Nat} (hn : n < 2 ^ 63) :
    SbGood (.set c n) sb (sb.set al junk c n) := by
  obtain ⟨s1, ok, e, i, v, l, h1, h2⟩ := sbexpand_spec (junk := junk) hal hn h
  cases ok with
  | false => exact ⟨s1, false, by simp [SBuf.set, e, Res.bind], i, by simp [v, sbEffect], h2⟩
  | true =>
    obtain ⟨h1, h1'⟩ := h1 rfl
    obtain ⟨b, eb, ib, vb⟩ := append_spec (d := List.replicate n c) i (by rw [l, List.length_replicate]; exact h1)
    have c1 : ¬ (s1.base = none ∧ n ≠ 0) := by rintro ⟨hb, hn⟩; have := i.none hb; omega
    have c2 : ¬ (s1.len + n > (s1.base.getD []).length) := by rw [i.blockLen, l]; omega
    rw [List.length_replicate] at ib vb
    refine ⟨_, true, ?_, ib, by rw [vb, v]; rfl, fun e => by cases e⟩
    simp only [SBuf.set, e, Res.bind]
    simp only [Bool.not_true]
    rw [if_neg (by simp), if_neg c1, if_neg c2, eb]

theorem finish_good {al : Alloc} {junk : Junk} {sb : SBuf} (hal : SaneAlloc al) (h : SbInv sb) :
    ∃ sb' r, sb.finish al junk = .ok (sb', r) ∧ SbInv sb' ∧ ((sb.err = true ∧ r = none ∧ sb' = sb) ∨
      (sb.err = false ∧ r = none ∧ sb'.value = sb.value ∧ sb'.err = true) ∨
      (sb.err = false ∧ r = some (sb.value ++ [0]) ∧ sb'.value = sb.value ++ [0] ∧ sb'.err = false)) := by
  cases he : sb.err with
  | true => exact ⟨sb, none, by simp [SBuf.finish, he], h, .inl ⟨rfl, rfl, rfl⟩⟩
  | false =>
    obtain ⟨s', ok, e, i, v, f, g⟩ := add_good (junk := junk) hal h (d := [0]) (by simp)
    rw [← addChar_eq] at e
    cases ok with
    | false => exact ⟨s', none, by simp [SBuf.finish, he, e, Res.bind], i, .inr (.inl ⟨rfl, rfl, by simpa using v, f rfl⟩)⟩
    | true =>
      simp only [if_true] at v
      refine ⟨s', some (sb.value ++ [0]), ?_, i, .inr (.inr ⟨rfl, rfl, v, g rfl⟩)⟩
      simp only [SBuf.finish, he, e, Res.bind]
      rw [← v]; rfl

theorem room_eq {sb : SBuf} (h : SbInv sb) : (sb.size + sizeMod - sb.len) % sizeMod = sb.size - sb.len := by
  have h1 := h.len
  have h2 := h.size
  have : sb.size + sizeMod - sb.len = (sb.size - sb.len) + sizeMod := by omega
  rw [this, Nat.add_mod_right, Nat.mod_eq_of_lt]
  simp only [sizeMod]; omega

theorem formatted_store {sb : SBuf} {out : Bytes} (h : SbInv sb) (hr : ¬ out.length ≥ sb.size - sb.len) :
    ∃ b, pokeAt sb.base sb.len (out ++ [0]) = .ok b ∧ SbInv { sb with base := b, len := (sb.len + out.length) % sizeMod } ∧
      SBuf.value { sb with base := b, len := (sb.len + out.length) % sizeMod } = sb.value ++ out := by
  have hl := h.len
  obtain ⟨b, e, h1, h2, h3, h4⟩ := poke_spec (d := out ++ [0]) h (by simp; omega)
  have hlt : sb.len + out.length < sizeMod := by simp at h4; omega
  rw [Nat.mod_eq_of_lt hlt]
  refine ⟨b, e, poke_inv (d := out) h h1 h2 (by omega), ?_⟩
  simp only [SBuf.value]
  have h5 := congrArg (List.take (sb.len + out.length)) h3
  rw [List.take_take, Nat.min_eq_left (by simp)] at h5
  rw [h5]
  have hv := h.valueLen
  rw [List.take_append, hv, ← SBuf.value, List.take_of_length_le (by omega), show sb.len + out.length - sb.len = out.length by omega]
  simp

theorem printf_spec {al : Alloc} {junk : Junk} {out : Bytes} (hal : SaneAlloc al) : ∀ {fuel : Nat} {sb : SBuf}, SbInv sb →
    sizeMod ≤ fuel + sb.size →
    ∃ sb' ok, printfLoop al junk out fuel sb = some (.ok (sb', ok)) ∧ SbInv sb' ∧ sb'.value = (if ok then sb.value ++ out else sb.value) ∧
      (ok = false → sb'.err = true) ∧ (ok = true → sb'.err = sb.err) := by
  intro fuel
  induction fuel with
  | zero => intro sb h hf; have := h.size; simp only [sizeMod] at hf; omega
  | succ fuel ih =>
    intro sb h hf
    conv => enter [1, sb', 1, ok, 1]; unfold printfLoop
    rw [room_eq h]
    by_cases hc : out.length ≥ 2 ^ 31 ∨ out.length ≥ sb.size - sb.len
    · simp only [hc, if_true]
      obtain ⟨g1, g2⟩ := grow_spec (junk := junk) hal h
      cases hg : sb.grow al junk with
      | mk s' ok =>
        rw [hg] at g1 g2
        cases ok with
        | false =>
          obtain ⟨r1, r2, r3, r4⟩ := g2 rfl
          exact ⟨s', false, rfl, r1, r2, fun _ => r4, fun e => by cases e⟩
        | true =>
          obtain ⟨r1, r2, r3, r4, r5, _⟩ := g1 rfl
          simp only at r1 r2 r3 r4 r5
          obtain ⟨t, ok', e, i1, i2, i3, i4⟩ := ih r1 (by omega)
          exact ⟨t, ok', e, i1, by rw [i2, r3], i3, fun e => by rw [i4 e, r5]⟩
    · simp only [hc, if_false]
      obtain ⟨b, e, i, v⟩ := formatted_store (out := out) h (fun hh => hc (.inr hh))
      rw [e]
      exact ⟨_, true, rfl, i, v, (fun e => by cases e), fun _ => rfl⟩

theorem strftime_spec {al : Alloc} {junk : Junk} {out : Bytes} (hal : SaneAlloc al) : ∀ {fuel : Nat} {sb : SBuf}, SbInv sb →
    sizeMod ≤ fuel + sb.size →
    ∃ sb' ok, strftimeLoop al junk out fuel sb = some (.ok (sb', ok)) ∧ SbInv sb' ∧ sb'.value = (if ok then sb.value ++ out else sb.value) ∧
      (ok = false → sb'.err = true) ∧ (ok = true → sb'.err = sb.err ∧ out ≠ []) := by
  intro fuel
  induction fuel with
  | zero => intro sb h hf; have := h.size; simp only [sizeMod] at hf; omega
  | succ fuel ih =>
    intro sb h hf
    conv => enter [1, sb', 1, ok, 1]; unfold strftimeLoop
    rw [room_eq h]
    by_cases hc : out = [] ∨ out.length ≥ sb.size - sb.len
    · simp only [hc, if_true]
      obtain ⟨g1, g2⟩ := grow_spec (junk := junk) hal h
      cases hg : sb.grow al junk with
      | mk s' ok =>
        rw [hg] at g1 g2
        cases ok with
        | false =>
          obtain ⟨r1, r2, r3, r4⟩ := g2 rfl
          exact ⟨s', false, rfl, r1, r2, fun _ => r4, fun e => by cases e⟩
        | true =>
          obtain ⟨r1, r2, r3, r4, r5, _⟩ := g1 rfl
          simp only at r1 r2 r3 r4 r5
          obtain ⟨t, ok', e, i1, i2, i3, i4⟩ := ih r1 (by omega)
          exact ⟨t, ok', e, i1, by rw [i2, r3], i3, fun e => ⟨by rw [(i4 e).1, r5], (i4 e).2⟩⟩
    · simp only [hc, if_false]
      obtain ⟨b, e, i, v⟩ := formatted_store (out := out) h (fun hh => hc (.inr hh))
      rw [e]
      exact ⟨_, true, rfl, i, v, (fun e => by cases e), fun _ => ⟨rfl, fun hh => hc (.inl hh)⟩⟩

theorem consume_good {sb : SBuf} (h : SbInv sb) (n : Nat) : ∃ sb', sb.consume n = .ok sb' ∧ SbInv sb' ∧ sb'.value = sb.value.drop n ∧ sb'.err = sb.err := by
  have hl := h.len
  have hbl := h.blockLen
  by_cases hn : n < sb.len
  · have hlen : (((sb.base.getD []).drop n).take (sb.len - n)).length = sb.len - n := by simp; omega
    have hv : ((sb.base.getD []).drop n).take (sb.len - n) = sb.value.drop n := by
      simp only [SBuf.value]; rw [List.drop_take]
    have h0 : SbInv { sb with len := 0 } := ⟨h.none, h.block, Nat.zero_le _, h.size⟩
    obtain ⟨b, e, h1, h2, h3, h4⟩ := poke_spec (d := ((sb.base.getD []).drop n).take (sb.len - n)) h0 (by simp only [hlen]; omega)
    refine ⟨{ sb with base := b, len := sb.len - n }, ?_, ?_, ?_, rfl⟩
    · simp only [SBuf.consume, if_pos hn]
      rw [show pokeAt sb.base 0 _ = .ok b from e]; rfl
    · exact poke_inv (d := []) h h1 h2 (by omega)
    · simp only [SBuf.value] at h3 ⊢
      rw [hlen] at h3
      simp only [Nat.zero_add] at h3
      rw [h3, hv, SBuf.value]; simp
  · refine ⟨{ sb with len := 0 }, by simp [SBuf.consume, hn], ⟨h.none, h.block, Nat.zero_le _, h.size⟩, ?_, rfl⟩
    have := h.valueLen
    rw [List.drop_of_length_le (by omega)]; simp [SBuf.value]

theorem truncate_good {al : Alloc} {junk : Junk} {sb : SBuf} (h : SbInv sb) {n : Nat} (hn : n ≤ sb.value.length) :
    SbGood (.truncate n) sb (sb.truncate al junk n) := by
  rw [h.valueLen] at hn
  have hl := h.len
  refine ⟨{ sb with len := n }, true, ?_, ⟨h.none, h.block, (by simp only; omega), h.size⟩, ?_, fun e => by cases e⟩
  · rw [SBuf.truncate, if_neg (by omega)]
  · have hb := h.blockLen
    simp only [sbEffect, SBuf.value]; simp [List.take_take]; rw [hb]; omega

theorem exec_good {al : Alloc} {junk : Junk} (hal : SaneAlloc al) {sb : SBuf} (h : SbInv sb) {o : SbOp} (ha : SbAllowed o sb.value) :
    SbGood o sb (o.exec al junk sb) := by
  cases o with
  | reset => exact ⟨_, true, rfl, ⟨h.none, h.block, Nat.zero_le _, h.size⟩, by simp [sbEffect, SBuf.reset, SBuf.value], fun e => by cases e⟩
  | truncate n => exact truncate_good h ha
  | add d =>
    obtain ⟨s', ok, e, i, v, f, _⟩ := add_good (junk := junk) hal h ha
    exact ⟨s', ok, e, i, by rw [v]; cases ok <;> rfl, f⟩
  | addChar c =>
    obtain ⟨s', ok, e, i, v, f, _⟩ := add_good (junk := junk) hal h (d := [c]) (by simp)
    exact ⟨s', ok, e, i, by rw [v]; cases ok <;> rfl, f⟩
  | set c n => exact set_good hal h ha
  | finish =>
    obtain ⟨s', r, e, i, hr⟩ := finish_good (junk := junk) hal h
    refine ⟨s', r.isSome, by simp [SbOp.exec, e, Res.bind], i, ?_, ?_⟩
    · rcases hr with ⟨_, rfl, rfl⟩ | ⟨_, rfl, v, _⟩ | ⟨_, rfl, v, _⟩
      · rfl
      · simpa [sbEffect] using v
      · simpa [sbEffect] using v
    · rcases hr with ⟨h1, rfl, rfl⟩ | ⟨_, rfl, v, h1⟩ | ⟨_, rfl, v, _⟩
      · exact fun _ => h1
      · exact fun _ => h1
      · exact fun e => by cases e
  | printf out =>
    obtain ⟨s', ok, e, i, v, f, _⟩ := printf_spec (junk := junk) (out := out) hal (fuel := sizeMod) h (by omega)
    exact ⟨s', ok, by simp [SbOp.exec, SBuf.printf, e], i, by rw [v]; cases ok <;> rfl, f⟩
  | strftime out =>
    obtain ⟨s', ok, e, i, v, f, _⟩ := strftime_spec (junk := junk) (out := out) hal (fuel := sizeMod) h (by omega)
    exact ⟨s', ok, by simp [SbOp.exec, SBuf.strftime, e], i, by rw [v]; cases ok <;> rfl, f⟩
  | consume n =>
    obtain ⟨s', e, i, v, _⟩ := consume_good h n
    exact ⟨s', true, by simp [SbOp.exec, e, Res.bind], i, v, fun e => by cases e⟩

theorem sbInit_inv : SbInv .init := ⟨fun _ => rfl, (fun b hb => by cases hb), Nat.le_refl _, by decide⟩

theorem reach_inv {al : Alloc} {junk : Junk} (hal : SaneAlloc al) {sb : SBuf} {c : Bytes} {clean : Bool} (h : SbReach al junk sb c clean) :
    SbInv sb ∧ sb.value = c := by
  induction h with
  | init => exact ⟨sbInit_inv, rfl⟩
  | step _ ha he ih =>
    obtain ⟨i, rfl⟩ := ih
    obtain ⟨s', ok, e, i', v, _⟩ := exec_good (junk := junk) hal i ha
    rw [he] at e; cases e
    exact ⟨i', v⟩

/-! ### Success -/

/-- An allocator that grants everything up to half the address space. -/
def Generous (al : Alloc) : Prop := ∀ k n, n < 2 ^ 63 → al k n = true

theorem grow_generous {al : Alloc} {junk : Junk} {sb : SBuf} (hg : Generous al) (h : SbInv sb) (hs : sb.size < 2 ^ 62) : (sb.grow al junk).2 = true := by
  obtain ⟨n, hn, h1, h2, h3, h4⟩ := growCount_one h
  simp only [SBuf.grow, hn, h3]
  rw [if_pos (hg _ _ (by omega))]

theorem expand_generous {al : Alloc} {junk : Junk} {n : Nat} (hal : SaneAlloc al) (hg : Generous al) : ∀ {fuel : Nat} {sb : SBuf}, SbInv sb →
    sb.len + n ≤ 2 ^ 62 → ∀ {r}, sbExpandLoop al junk n fuel sb = some r → r.2 = true := by
  intro fuel
  induction fuel with
  | zero =>
    intro sb h hn r hr
    unfold sbExpandLoop at hr
    split at hr
    · cases hr
    · cases hr; rfl
  | succ fuel ih =>
    intro sb h hn r hr
    unfold sbExpandLoop at hr
    split at hr
    · rename_i hc
      rw [Nat.mod_eq_of_lt (by simp only [sizeMod]; omega)] at hc
      have := grow_generous (junk := junk) hg h (by omega)
      obtain ⟨g1, _⟩ := grow_spec (junk := junk) hal h
      cases hgr : sb.grow al junk with
      | mk s' ok =>
        rw [hgr] at this g1 hr
        simp only at this; subst this
        obtain ⟨r1, r2, r3, r4, _⟩ := g1 rfl
        exact ih r1 (by rw [r4]; exact hn) hr
    · cases hr; rfl

theorem formatted_generous {al : Alloc} {junk : Junk} {out : Bytes} (hal : SaneAlloc al) (hg : Generous al) : ∀ {fuel : Nat} {sb : SBuf}, SbInv sb →
    sb.len + out.length < 2 ^ 62 → out.length < 2 ^ 31 → ∀ {r}, printfLoop al junk out fuel sb = some (.ok r) → r.2 = true := by
  intro fuel
  induction fuel with
  | zero =>
    intro sb h hn ho r hr
    unfold printfLoop at hr
    split at hr
    · cases hr
    · cases hp : pokeAt sb.base sb.len (out ++ [0]) <;> rw [hp] at hr <;> cases hr; rfl
  | succ fuel ih =>
    intro sb h hn ho r hr
    unfold printfLoop at hr
    split at hr
    · rename_i hc
      rw [room_eq h] at hc
      have hl := h.len
      have := grow_generous (junk := junk) hg h (by omega)
      obtain ⟨g1, _⟩ := grow_spec (junk := junk) hal h
      cases hgr : sb.grow al junk with
      | mk s' ok =>
        rw [hgr] at this g1 hr
        simp only at this; subst this
        obtain ⟨r1, r2, r3, r4, _⟩ := g1 rfl
        exact ih r1 (by rw [r4]; exact hn) ho hr
    · cases hp : pokeAt sb.base sb.len (out ++ [0]) <;> rw [hp] at hr <;> cases hr; rfl

theorem strftime_generous {al : Alloc} {junk : Junk} {out : Bytes} (hal : SaneAlloc al) (hg : Generous al) (hne : out ≠ []) :
    ∀ {fuel : Nat} {sb : SBuf}, SbInv sb →
    sb.len + out.length < 2 ^ 62 → ∀ {r}, strftimeLoop al junk out fuel sb = some (.ok r) → r.2 = true := by
  intro fuel
  induction fuel with
  | zero =>
    intro sb h hn r hr
    unfold strftimeLoop at hr
    split at hr
    · cases hr
    · cases hp : pokeAt sb.base sb.len (out ++ [0]) <;> rw [hp] at hr <;> cases hr; rfl
  | succ fuel ih =>
    intro sb h hn r hr
    unfold strftimeLoop at hr
    split at hr
    · rename_i hc
      rw [room_eq h] at hc
      have hl := h.len
      have := grow_generous (junk := junk) hg h (by rcases hc with hc | hc <;> first | exact absurd hc hne | omega)
      obtain ⟨g1, _⟩ := grow_spec (junk := junk) hal h
      cases hgr : sb.grow al junk with
      | mk s' ok =>
        rw [hgr] at this g1 hr
        simp only at this; subst this
        obtain ⟨r1, r2, r3, r4, _⟩ := g1 rfl
        exact ih r1 (by rw [r4]; exact hn) hr
    · cases hp : pokeAt sb.base sb.len (out ++ [0]) <;> rw [hp] at hr <;> cases hr; rfl

theorem sbexpand_generous {al : Alloc} {junk : Junk} {n : Nat} {sb : SBuf} (hal : SaneAlloc al) (hg : Generous al) (h : SbInv sb)
    (hn : sb.len + n ≤ 2 ^ 62) {r} (hr : sb.expand al junk n = .ok r) : r.2 = true := by
  simp only [SBuf.expand] at hr
  cases he : sbExpandLoop al junk n sizeMod sb with
  | none => rw [he] at hr; cases hr
  | some x => rw [he] at hr; cases hr; exact expand_generous hal hg h hn he

theorem exec_err {al : Alloc} {junk : Junk} (hal : SaneAlloc al) {sb : SBuf} (h : SbInv sb) {o : SbOp} (ha : SbAllowed o sb.value)
    (he : sb.err = false) {sb' : SBuf} (hx : o.exec al junk sb = .ok (sb', true)) : sb'.err = false := by
  cases o with
  | reset => cases hx; exact he
  | truncate n =>
    have hl := h.len
    have hv := h.valueLen
    simp only [SbAllowed] at ha
    simp only [SbOp.exec, SBuf.truncate] at hx
    rw [if_neg (by omega)] at hx
    cases hx; exact he
  | add d =>
    obtain ⟨s', ok, e, i, v, f, g⟩ := add_good (junk := junk) hal h ha
    rw [SbOp.exec, e] at hx; cases hx; exact g rfl
  | addChar c =>
    obtain ⟨s', ok, e, i, v, f, g⟩ := add_good (junk := junk) hal h (d := [c]) (by simp)
    rw [SbOp.exec, addChar_eq, e] at hx; cases hx; exact g rfl
  | set c n =>
    obtain ⟨s1, ok, e, i, v, l, h1, h2⟩ := sbexpand_spec (junk := junk) hal ha h
    simp only [SbOp.exec, SBuf.set, e, Res.bind] at hx
    cases ok with
    | false => cases hx
    | true =>
      simp only [Bool.not_true] at hx
      rw [if_neg (by simp)] at hx
      split at hx
      · cases hx
      · split at hx
        · cases hx
        · split at hx
          · cases hx; exact (h1 rfl).2
          · cases hx
  | finish =>
    obtain ⟨s', r, e, i, hr⟩ := finish_good (junk := junk) hal h
    simp only [SbOp.exec, e, Res.bind] at hx
    rcases hr with ⟨_, rfl, rfl⟩ | ⟨_, rfl, v, _⟩ | ⟨_, rfl, v, g⟩
    · cases hx
    · cases hx
    · cases hx; exact g
  | printf out =>
    obtain ⟨s', ok, e, i, v, f, g⟩ := printf_spec (junk := junk) (out := out) hal (fuel := sizeMod) h (by omega)
    simp only [SbOp.exec, SBuf.printf, e] at hx
    cases hx; rw [g rfl]; exact he
  | strftime out =>
    obtain ⟨s', ok, e, i, v, f, g⟩ := strftime_spec (junk := junk) (out := out) hal (fuel := sizeMod) h (by omega)
    simp only [SbOp.exec, SBuf.strftime, e] at hx
    cases hx; rw [(g rfl).1]; exact he
  | consume n =>
    obtain ⟨s', e, i, v, g⟩ := consume_good h n
    simp only [SbOp.exec, e, Res.bind] at hx
    cases hx; rw [g]; exact he

theorem reach_err {al : Alloc} {junk : Junk} (hal : SaneAlloc al) {sb : SBuf} {c : Bytes} {clean : Bool} (h : SbReach al junk sb c clean) :
    clean = true → sb.err = false := by
  induction h with
  | init => exact fun _ => rfl
  | step hr ha he ih =>
    intro hc
    rw [Bool.and_eq_true] at hc
    obtain ⟨i, rfl⟩ := reach_inv hal hr
    rw [hc.2] at he
    exact exec_err hal i ha (ih hc.1) he

/-- Room taken by an operation. -/
def sbCost : SbOp → Nat
  | .add d => d.length
  | .addChar _ => 1
  | .set _ n => n
  | .finish => 1
  | .printf o => o.length + 1
  | .strftime o => o.length + 1
  | _ => 0

theorem exec_succeeds {al : Alloc} {junk : Junk} (hal : SaneAlloc al) (hg : Generous al) {sb : SBuf} (h : SbInv sb) {o : SbOp}
    (ha : SbAllowed o sb.value) (he : sb.err = false) (hn : sb.value.length + sbCost o ≤ 2 ^ 62) (hp : ∀ x, o = .printf x → x.length < 2 ^ 31)
    (hs : o ≠ .strftime []) {r} (hx : o.exec al junk sb = .ok r) : r.2 = true := by
  rw [h.valueLen] at hn
  cases o with
  | reset => cases hx; rfl
  | truncate n =>
    have hl := h.len
    have hv := h.valueLen
    simp only [SbAllowed] at ha
    simp only [SbOp.exec, SBuf.truncate] at hx
    rw [if_neg (by omega)] at hx
    cases hx; rfl
  | add d =>
    obtain ⟨s1, ok, e, _⟩ := sbexpand_spec (junk := junk) hal ha h
    have := sbexpand_generous (junk := junk) hal hg h hn e
    simp only at this; subst this
    obtain ⟨s', ok, e', i, v, f, g⟩ := add_good (junk := junk) hal h ha
    rw [SbOp.exec, e'] at hx; cases hx
    simp only [SBuf.add, e, Res.bind] at e'
    rw [if_neg (by simp)] at e'
    split at e'
    · cases e'; rfl
    · cases e'
  | addChar c =>
    obtain ⟨s1, ok, e, _⟩ := sbexpand_spec (junk := junk) (n := 1) hal (by decide) h
    have := sbexpand_generous (junk := junk) hal hg h hn e
    simp only at this; subst this
    simp only [SbOp.exec, SBuf.addChar, e, Res.bind] at hx
    rw [if_neg (by simp)] at hx
    split at hx
    · cases hx; rfl
    · cases hx
  | set c n =>
    obtain ⟨s1, ok, e, _⟩ := sbexpand_spec (junk := junk) hal ha h
    have := sbexpand_generous (junk := junk) hal hg h hn e
    simp only at this; subst this
    simp only [SbOp.exec, SBuf.set, e, Res.bind] at hx
    rw [if_neg (by simp)] at hx
    split at hx
    · cases hx
    · split at hx
      · cases hx
      · split at hx
        · cases hx; rfl
        · cases hx
  | finish =>
    obtain ⟨s1, ok, e, _⟩ := sbexpand_spec (junk := junk) (n := 1) hal (by decide) h
    have := sbexpand_generous (junk := junk) hal hg h hn e
    simp only at this; subst this
    obtain ⟨s', r', e', _⟩ := finish_good (junk := junk) hal h
    simp only [SbOp.exec, e', Res.bind] at hx
    cases hx
    simp only [SBuf.finish, he, SBuf.addChar, e, Res.bind] at e'
    cases hp : pokeAt s1.base s1.len [0] <;> simp [hp] at e'
    rw [← e'.2]; rfl
  | printf out =>
    obtain ⟨s', ok, e, _⟩ := printf_spec (junk := junk) (out := out) hal (fuel := sizeMod) h (by omega)
    simp only [SbOp.exec, SBuf.printf, e] at hx
    cases hx
    exact formatted_generous hal hg h (by simp only [sbCost] at hn; omega) (hp out rfl) e
  | strftime out =>
    obtain ⟨s', ok, e, _⟩ := strftime_spec (junk := junk) (out := out) hal (fuel := sizeMod) h (by omega)
    simp only [SbOp.exec, SBuf.strftime, e] at hx
    cases hx
    exact strftime_generous hal hg (fun h => hs (by rw [h])) h (by simp only [sbCost] at hn; omega) e
  | consume n =>
    obtain ⟨s', e, i, v, g⟩ := consume_good h n
    simp only [SbOp.exec, e, Res.bind] at hx
    cases hx; rfl

end Pound
