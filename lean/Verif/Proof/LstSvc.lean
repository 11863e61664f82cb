import Verif.Proof.LstMeans
import Verif.Proof.SvcBes

namespace Pound

open Spec

theorem items_start {α : Type} {item : List Tok → α → Prop} (hi : ∀ t x, item t x → ∃ n a, t = .ident n :: a) {t : List Tok} {l : List α} (h : Items item t l) :
    t ≠ [] ∧ ∀ s r, t ≠ .string s :: r := by
  cases h with
  | stop _ => simp
  | blank _ => simp
  | item h1 _ =>
    obtain ⟨n, a, rfl⟩ := hi _ _ h1
    simp

theorem svcBeLine_start {e : BeEnv} {d : BeDfl} {t : List Tok} {x : SvcItem} (h : SvcBeLine e d t x) : ∃ n a, t = .ident n :: a := by
  cases h <;> exact ⟨_, _, rfl⟩

theorem svcParser_sound {e : BeEnv} {d : BeDfl} {algo : Algo} {n : Nat} {l l' : List (Option Bytes × SvcBes)} {ts r : List Tok} {er er' : Nat} {w : Bytes} (hw : ciEq b!"Service" w = true)
    (h : svcParser e d algo n ⟨l, ts, er⟩ = .ok ⟨l', r, er'⟩) : er ≤ er' ∧ (er' = er → ∃ a, ts = a ++ r ∧ SvcStmt e d algo (.ident w :: (a ++ [.nl])) l l') := by
  have go : ∀ {name : Option Bytes} {body : List Tok}, (match parseSvcBes e d algo n body er with
    | .ok s2 => .ok ⟨l ++ [(name, s2.data)], s2.toks, s2.errs⟩
    | _ => .fail) = LR.ok ⟨l', r, er'⟩ → er ≤ er' ∧ (er' = er → ∃ t items s, body = t ++ r ∧ Items (SvcBeLine e d) t items ∧ SvcMeans algo items s ∧ l' = l ++ [(name, s)]) := by
    intro name body hg
    split at hg
    · rename_i s2 h2
      obtain ⟨s, r2, e2⟩ := s2
      simp only [LR.ok.injEq, LSt.mk.injEq] at hg
      obtain ⟨h4, rfl, rfl⟩ := hg
      obtain ⟨h5, h6⟩ := (service_section e d algo n body er).1 _ _ _ h2
      refine ⟨h5, fun he => ?_⟩
      obtain ⟨t, items, h7, h8, h9⟩ := h6 he
      exact ⟨t, items, s, h7, h8, h9, h4.symm⟩
    · cases hg
  unfold svcParser at h
  dsimp only at h
  split at h
  · rename_i nm r0
    split at h
    · cases h
    · rename_i hn
      obtain ⟨h1, h2⟩ := go h
      refine ⟨h1, fun he => ?_⟩
      obtain ⟨t, items, s, rfl, h4, h5, h6⟩ := h2 he
      refine ⟨.string nm :: t, rfl, ⟨w, t, items, some nm, s, hw, h4, h5, h6, .inr ⟨nm, rfl, rfl, ?_⟩⟩⟩
      intro hm
      apply hn
      obtain ⟨y, hy, hy2⟩ := List.mem_filterMap.mp hm
      rw [List.any_eq_true]
      exact ⟨y, hy, by simp [hy2]⟩
  · obtain ⟨h1, h2⟩ := go h
    refine ⟨h1, fun he => ?_⟩
    obtain ⟨t, items, s, rfl, h4, h5, h6⟩ := h2 he
    exact ⟨t, rfl, ⟨w, t, items, none, s, hw, h4, h5, h6, .inl ⟨rfl, rfl⟩⟩⟩

theorem svcParser_ok {e : BeEnv} {d : BeDfl} {algo : Algo} {n : Nat} {s : LSt (List (Option Bytes × SvcBes))} :
    (∀ x, svcParser e d algo n s ≠ .nonl x) ∧ ∀ x, svcParser e d algo n s ≠ .fin x := by
  unfold svcParser
  dsimp only
  split
  · split
    · simp
    · split <;> simp
  · split <;> simp

theorem svcStmt_spec (e : BeEnv) (d : BeDfl) (algo : Algo) (N : Nat) : OtherSpec N (svcStmtFind e d algo N) (SvcStmt e d algo) where
  fin := by
    intro n p hf s x hp
    unfold svcStmtFind at hf
    split at hf
    · cases hf; exact svcParser_ok.2 x hp
    · cases hf
  ok := by
    intro n p hf s ts er s' r er' hp
    unfold svcStmtFind at hf
    split at hf
    · rename_i hw; cases hf; exact svcParser_sound hw hp
    · cases hf
  nonl := by
    intro n p hf s ts er s' r er' hp
    unfold svcStmtFind at hf
    split at hf
    · cases hf; exact absurd hp (svcParser_ok.1 _)
    · cases hf
  complete := by
    intro t l l' h hN
    obtain ⟨n, body, items, nm, s, h1, h2, h3, rfl, h5⟩ := h.section_
    rcases h5 with ⟨rfl, rfl⟩ | ⟨w, rfl, rfl, hm⟩
    · refine ⟨n, body ++ [.nl], svcParser e d algo N, rfl, by unfold svcStmtFind; rw [if_pos h1], .inr ⟨body, rfl, fun r er => ?_⟩⟩
      have := (service_section e d algo N (body ++ .nl :: r) er).2 body (.nl :: r) items s rfl h2 h3 (by simp at hN; omega)
      unfold svcParser
      dsimp only
      split
      · rename_i nm r0 heq
        exfalso
        obtain ⟨g1, g2⟩ := items_start (fun _ _ => svcBeLine_start) h2
        cases hb : body with
        | nil => exact g1 hb
        | cons u b => rw [hb] at heq; cases heq; exact g2 _ _ hb
      · rw [this]
    · refine ⟨n, .string w :: (body ++ [.nl]), svcParser e d algo N, rfl, by unfold svcStmtFind; rw [if_pos h1], .inr ⟨.string w :: body, rfl, fun r er => ?_⟩⟩
      have := (service_section e d algo N (body ++ .nl :: r) er).2 body (.nl :: r) items s rfl h2 h3 (by simp at hN; omega)
      unfold svcParser
      dsimp only [List.cons_append]
      rw [if_neg]
      · rw [this]
      · intro hany
        obtain ⟨y, hy, hy2⟩ := List.any_eq_true.mp hany
        apply hm
        rw [List.mem_filterMap]
        exact ⟨y, hy, by simpa using hy2⟩

theorem svcStmt_start {e : BeEnv} {d : BeDfl} {algo : Algo} {t : List Tok} {l l' : List (Option Bytes × SvcBes)} (h : SvcStmt e d algo t l l') : ∃ n a, t = .ident n :: a := by
  obtain ⟨n, body, items, nm, s, _, _, _, _, h5⟩ := h.section_
  rcases h5 with ⟨rfl, _⟩ | ⟨w, rfl, _⟩ <;> exact ⟨_, _, rfl⟩

theorem svcStmt_disj {e : BeEnv} {d : BeDfl} {algo : Algo} {N : Nat} {le : LstEnv} {ld : LstDfl} {tls : Bool} (w : Bytes) (p : LParser (List (Option Bytes × SvcBes)))
    (h : svcStmtFind e d algo N w = some p) : lstFind le ld tls w = none := by
  unfold svcStmtFind at h
  split at h
  · rename_i hw
    unfold lstFind
    have : ciEq b!"End" w = false := by rw [args_congr_end hw]; decide
    rw [this]
    simp only [Bool.false_eq_true, if_false]
    rw [kwFind_congr _ hw]
    cases tls <;> rfl
  · cases h

end Pound
