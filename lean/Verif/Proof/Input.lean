import Verif.Spec.Input
import Verif.Proof.Lexer

namespace Pound
open Spec

/-- What a token put back is worth -/
def pbW (c : Nat) : Tok → Nat
  | .nl => 1
  | _ => c + 1

/-- What the token in the hand is worth -/
def handW (c : Nat) : Option Tok → Nat
  | none => 0
  | some .nl => 0
  | some _ => c

/-- What a file is worth, if `c` is what one of its tokens can cause -/
def inW (c : Nat) (i : Input) : Nat := i.rest.length * (c + 1) + (i.putback.map (pbW c)).sum

/-- What a stack is worth: `n` is the number of files -/
def stackW (size n : Nat) : List Input → Nat
  | [] => 0
  | i :: st => inW (inclCost size (n - (st.length + 1))) i + stackW size n st

/-- What a token at the top of the stack can cause -/
def topC (size n : Nat) (st : List Input) : Nat := inclCost size (n - st.length)

def potential (size n : Nat) (s : InSt) : Nat := stackW size n s.stack + handW (topC size n s.stack) s.hand

theorem pbW_hand (c : Nat) (t : Tok) : pbW c t = handW c (some t) + 1 := by cases t <;> rfl

theorem handW_le (c : Nat) (t : Tok) : handW c (some t) ≤ c := by cases t <;> simp [handW]

theorem input_get (c : Nat) (i : Input) : (i.gettkn.1 = .eof) ∨ inW c i.gettkn.2 + handW c (some i.gettkn.1) + 1 ≤ inW c i := by
  unfold Input.gettkn
  cases hp : i.putback with
  | cons t r =>
    right
    dsimp only
    unfold inW
    rw [hp]
    dsimp only
    rw [List.map_cons, List.sum_cons, pbW_hand]
    omega
  | nil =>
    dsimp only
    rcases lexTok_progress i.rest with h | h
    · exact Or.inl h
    · right
      unfold inW
      dsimp only
      rw [hp]
      simp only [List.map_nil, List.sum_nil, Nat.add_zero]
      have h1 := handW_le c (lexTok i.rest).tok
      have h2 : ((lexTok i.rest).rest.length + 1) * (c + 1) ≤ i.rest.length * (c + 1) := Nat.mul_le_mul_right _ h
      rw [Nat.add_mul, Nat.one_mul] at h2
      omega

theorem gettkn_spec (size n : Nat) : ∀ st : List Input, (∃ pre, st.map (·.id) = pre ++ (gettkn st).2.map (·.id)) ∧
    stackW size n (gettkn st).2 + (if (gettkn st).1 = .eof then 0 else handW (topC size n (gettkn st).2) (some (gettkn st).1) + 1) ≤ stackW size n st := by
  intro st
  induction st with
  | nil => exact ⟨⟨[], rfl⟩, by simp [gettkn]⟩
  | cons i st ih =>
    unfold gettkn
    dsimp only
    by_cases h : i.gettkn.1 = .eof
    · rw [if_pos h]
      obtain ⟨⟨pre, h1⟩, h2⟩ := ih
      refine ⟨⟨i.id :: pre, by rw [List.map_cons, h1]; rfl⟩, ?_⟩
      refine Nat.le_trans h2 ?_
      unfold stackW
      cases st with
      | nil => simp [stackW]
      | cons j st => simp [stackW]
    · rw [if_neg h]
      dsimp only
      rw [if_neg h]
      have hid : i.gettkn.2.id = i.id := by
        unfold Input.gettkn
        cases i.putback <;> rfl
      refine ⟨⟨[], by simp [hid]⟩, ?_⟩
      rcases input_get (inclCost size (n - (st.length + 1))) i with h1 | h1
      · exact absurd h1 h
      · have e1 : stackW size n (i.gettkn.2 :: st) = inW (inclCost size (n - (st.length + 1))) i.gettkn.2 + stackW size n st := rfl
        have e2 : stackW size n (i :: st) = inW (inclCost size (n - (st.length + 1))) i + stackW size n st := rfl
        have e3 : topC size n (i.gettkn.2 :: st) = inclCost size (n - (st.length + 1)) := by unfold topC; simp
        rw [e1, e2, e3]
        omega

/-- The files open are among those that exist, and none is open twice. -/
def InGood (ids : List Nat) (s : InSt) : Prop := (s.stack.map (·.id)).Nodup ∧ ∀ i ∈ s.stack, i.id ∈ ids

theorem putback_spec {t : Tok} {st st' : List Input} (h : putbackTok t st = some st') (size n : Nat) :
    st'.map (·.id) = st.map (·.id) ∧ stackW size n st' = stackW size n st + pbW (topC size n st) t ∧ topC size n st' = topC size n st := by
  unfold putbackTok at h
  cases st with
  | nil => cases h
  | cons i st =>
    dsimp only at h
    split at h
    · cases h
      refine ⟨rfl, ?_, by simp [topC]⟩
      show inW _ _ + _ = inW _ _ + _ + _
      unfold inW topC
      dsimp only
      rw [List.map_cons, List.sum_cons, List.length_cons]
      omega
    · cases h

theorem good_ids {ids : List Nat} {st st' : List Input} (pre : List Nat) (h : st.map (·.id) = pre ++ st'.map (·.id)) (hn : (st.map (·.id)).Nodup) (hi : ∀ i ∈ st, i.id ∈ ids) :
    (st'.map (·.id)).Nodup ∧ ∀ i ∈ st', i.id ∈ ids := by
  rw [h] at hn
  refine ⟨(List.nodup_append.mp hn).2.1, ?_⟩
  intro i hi'
  have : i.id ∈ st.map (·.id) := by rw [h]; exact List.mem_append_right _ (List.mem_map_of_mem hi')
  obtain ⟨j, hj, e⟩ := List.mem_map.mp this
  rw [← e]; exact hi j hj

theorem nodup_subset_len : ∀ (l m : List Nat), l.Nodup → (∀ x ∈ l, x ∈ m) → l.length ≤ m.length := by
  intro l
  induction l with
  | nil => intro m _ _; exact Nat.zero_le _
  | cons a l ih =>
    intro m hn hs
    obtain ⟨h1, h2⟩ := List.nodup_cons.mp hn
    have ha : a ∈ m := hs a (by simp)
    have h3 := ih (m.erase a) h2 (fun x hx => (List.mem_erase_of_ne (show x ≠ a from fun e => h1 (e ▸ hx))).mpr (hs x (by simp [hx])))
    rw [List.length_erase_of_mem ha] at h3
    have : 0 < m.length := List.length_pos_of_mem ha
    rw [List.length_cons]; omega

theorem good_len {ids : List Nat} {st : List Input} (hn : (st.map (·.id)).Nodup) (hi : ∀ i ∈ st, i.id ∈ ids) : st.length ≤ ids.length := by
  have : (st.map (·.id)).length ≤ ids.length := by
    refine nodup_subset_len _ _ hn ?_
    intro x hx
    obtain ⟨j, hj, e⟩ := List.mem_map.mp hx
    rw [← e]; exact hi j hj
  simpa using this

/-- One operation -/
theorem step_spec {ids : List Nat} {size : Nat} {s s' : InSt} {o : InOp} {k : Nat} (hg : InGood ids s) (ho : ∀ fs, o = .incl fs → Finite ids size fs) (h : s.step o = some (s', k)) :
    InGood ids s' ∧ potential size ids.length s' + k ≤ potential size ids.length s + backs [o] := by
  obtain ⟨hn, hi⟩ := hg
  cases o with
  | get =>
    unfold InSt.step at h
    dsimp only at h
    obtain ⟨⟨pre, h1⟩, h2⟩ := gettkn_spec size ids.length s.stack
    have hg' := good_ids pre h1 hn hi
    by_cases he : (gettkn s.stack).1 = .eof
    · rw [if_pos he] at h; cases h
      refine ⟨hg', ?_⟩
      rw [if_pos he] at h2
      show stackW size ids.length (gettkn s.stack).2 + 0 + 0 ≤ stackW _ _ _ + _ + 0
      omega
    · rw [if_neg he] at h; cases h
      refine ⟨hg', ?_⟩
      rw [if_neg he] at h2
      show stackW size ids.length (gettkn s.stack).2 + handW (topC size ids.length (gettkn s.stack).2) (some (gettkn s.stack).1) + 1 ≤ stackW _ _ _ + _ + 0
      omega
  | back =>
    unfold InSt.step at h
    dsimp only at h
    cases hh : s.hand with
    | none => rw [hh] at h; cases h
    | some t =>
      rw [hh] at h
      dsimp only at h
      cases hp : putbackTok t s.stack with
      | none => rw [hp] at h; cases h
      | some st =>
        rw [hp] at h; cases h
        obtain ⟨h1, h2, -⟩ := putback_spec hp size ids.length
        refine ⟨good_ids [] (by rw [h1]; rfl) hn hi, ?_⟩
        show stackW _ _ st + 0 + 0 ≤ stackW _ _ _ + handW _ _ + 1
        rw [h2, pbW_hand, hh]
        omega
  | backNl =>
    unfold InSt.step at h
    dsimp only at h
    cases hp : putbackTok .nl s.stack with
    | none => rw [hp] at h; cases h
    | some st =>
      rw [hp] at h; cases h
      obtain ⟨h1, h2, -⟩ := putback_spec hp size ids.length
      refine ⟨good_ids [] (by rw [h1]; rfl) hn hi, ?_⟩
      show stackW _ _ st + 0 + 0 ≤ stackW _ _ _ + handW _ _ + 1
      rw [h2]
      show _ + 1 + 0 + 0 ≤ _
      omega
  | incl fs =>
    unfold InSt.step at h
    dsimp only at h
    obtain ⟨⟨pre, h1⟩, h2⟩ := gettkn_spec size ids.length s.stack
    obtain ⟨hn', hi'⟩ := good_ids pre h1 hn hi
    cases ht : (gettkn s.stack).1 with
    | string name =>
      rw [ht] at h h2
      dsimp only at h
      rw [if_neg (by intro h; cases h)] at h2
      cases hp : pushInput fs name (gettkn s.stack).2 with
      | none => rw [hp] at h; cases h
      | some st =>
        rw [hp] at h; cases h
        unfold pushInput at hp
        cases hf : fs name with
        | none => rw [hf] at hp; cases hp
        | some x =>
          obtain ⟨id, text⟩ := x
          rw [hf] at hp
          dsimp only at hp
          split at hp
          · cases hp
          · rename_i hany
            cases hp
            obtain ⟨hid, hsz⟩ := ho fs rfl name id text hf
            have hnotin : id ∉ (gettkn s.stack).2.map (·.id) := by
              intro hm
              apply hany
              obtain ⟨j, hj, e⟩ := List.mem_map.mp hm
              exact List.any_eq_true.mpr ⟨j, hj, by simpa using e⟩
            have hgood : InGood ids ⟨⟨id, text, []⟩ :: (gettkn s.stack).2, none⟩ := by
              refine ⟨List.nodup_cons.mpr ⟨hnotin, hn'⟩, ?_⟩
              intro i hm
              rcases List.mem_cons.mp hm with rfl | hm
              · exact hid
              · exact hi' i hm
            refine ⟨hgood, ?_⟩
            have hlen := good_len hgood.1 hgood.2
            rw [List.length_cons] at hlen
            show inW (inclCost size (ids.length - ((gettkn s.stack).2.length + 1))) ⟨id, text, []⟩ + stackW _ _ _ + 0 + 1 ≤ stackW _ _ _ + _ + 0
            have e1 : topC size ids.length (gettkn s.stack).2 = size * (inclCost size (ids.length - ((gettkn s.stack).2.length + 1)) + 1) := by
              unfold topC
              have : ids.length - (gettkn s.stack).2.length = (ids.length - ((gettkn s.stack).2.length + 1)) + 1 := by omega
              rw [this]; rfl
            have e2 : inW (inclCost size (ids.length - ((gettkn s.stack).2.length + 1))) ⟨id, text, []⟩ = text.length * (inclCost size (ids.length - ((gettkn s.stack).2.length + 1)) + 1) := by
              simp [inW]
            have e3 : text.length * (inclCost size (ids.length - ((gettkn s.stack).2.length + 1)) + 1) ≤ size * (inclCost size (ids.length - ((gettkn s.stack).2.length + 1)) + 1) :=
              Nat.mul_le_mul_right _ hsz
            have e4 : handW (topC size ids.length (gettkn s.stack).2) (some (.string name)) = topC size ids.length (gettkn s.stack).2 := rfl
            rw [e4, e1] at h2
            rw [e2]
            omega
    | eof => rw [ht] at h; cases h
    | nl => rw [ht] at h; cases h
    | error => rw [ht] at h; cases h
    | ident => rw [ht] at h; cases h
    | number => rw [ht] at h; cases h
    | literal => rw [ht] at h; cases h

theorem run_spec {ids : List Nat} {size : Nat} : ∀ (ops : List InOp) {s s' : InSt} {k : Nat}, InGood ids s → (∀ fs, .incl fs ∈ ops → Finite ids size fs) → s.run ops = some (s', k) →
    InGood ids s' ∧ potential size ids.length s' + k ≤ potential size ids.length s + backs ops := by
  intro ops
  induction ops with
  | nil => intro s s' k hg _ h; cases h; exact ⟨hg, by omega⟩
  | cons o r ih =>
    intro s s' k hg ho h
    unfold InSt.run at h
    cases hs : s.step o with
    | none => rw [hs] at h; cases h
    | some x =>
      obtain ⟨s1, k1⟩ := x
      rw [hs] at h
      dsimp only at h
      cases hr : s1.run r with
      | none => rw [hr] at h; cases h
      | some y =>
        obtain ⟨s2, k2⟩ := y
        rw [hr] at h
        cases h
        obtain ⟨g1, p1⟩ := step_spec hg (fun fs e => ho fs (by rw [e]; simp)) hs
        obtain ⟨g2, p2⟩ := ih g1 (fun fs hf => ho fs (by simp [hf])) hr
        refine ⟨g2, ?_⟩
        have e : backs (o :: r) = backs [o] + backs r := by
          unfold backs
          rw [← List.singleton_append, List.filter_append, List.length_append]
        rw [e]
        dsimp only
        omega

end Pound
