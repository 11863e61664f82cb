import Verif.Spec.JsonMem
import Verif.Proof.OwnConn
import Verif.Proof.Metrics

namespace Pound
open Spec

variable {D : Type} {nf : Bool}

/-! ### Searching and setting do not look at values -/

/-- Values mapped -/
def pmap {V W : Type} (f : V → W) (l : List (Bytes × V)) : List (Bytes × W) := l.map fun x => (x.1, f x.2)

theorem pmap_append {V W : Type} (f : V → W) (a b : List (Bytes × V)) : pmap f (a ++ b) = pmap f a ++ pmap f b := by simp [pmap]

theorem jSearch_map {V W : Type} (f : V → W) (l : List (Bytes × V)) (k : Bytes) : ∀ n i c, jSearch (pmap f l) k n i c = jSearch l k n i c
  | 0, _, _ => rfl
  | n + 1, i, c => by
    unfold jSearch
    split
    · rfl
    · have e : (pmap f l)[i + c / 2]? = (l[i + c / 2]?).map fun x => (x.1, f x.2) := by simp [pmap]
      dsimp only
      rw [e]
      cases l[i + c / 2]? with
      | none => rfl
      | some m =>
        dsimp only [Option.map_some]
        rw [jSearch_map f l k n, jSearch_map f l k n]

theorem jLookup_map {V W : Type} (f : V → W) (c : Nat) (l : List (Bytes × V)) (k : Bytes) : jLookup ⟨c, pmap f l⟩ k = jLookup ⟨c, l⟩ k := by
  unfold jLookup
  dsimp only
  have h1 : (pmap f l).head? = l.head?.map fun x => (x.1, f x.2) := by simp [pmap]
  have h2 : (pmap f l).getLast? = l.getLast?.map fun x => (x.1, f x.2) := by simp [pmap]
  have h3 : (pmap f l).length = l.length := by simp [pmap]
  rw [h1, h2, h3, jSearch_map]
  cases l.head? with
  | none => rfl
  | some a => cases l.getLast? <;> rfl

theorem keys_ne {V : Type} {A B : List (Bytes × V)} {k : Bytes} {v : V} (h : (A ++ (k, v) :: B).Pairwise (fun a b => strcmp a.1 b.1 = .lt)) : ∀ p ∈ A ++ B, p.1 ≠ k := by
  have hk : strcmp k k ≠ .lt := strcmp_irrefl k
  intro p hp e
  rw [List.pairwise_append] at h
  rcases List.mem_append.mp hp with hp | hp
  · have := h.2.2 p hp (k, v) (by simp)
    rw [e] at this
    exact hk this
  · have := (List.pairwise_cons.mp h.2.1).1 p hp
    rw [e] at this
    exact hk this

theorem pmap_while {V W : Type} (f : V → W) (p : Bytes → Bool) (q : List (Bytes × V)) :
    (pmap f q).takeWhile (fun x => p x.1) = pmap f (q.takeWhile (fun x => p x.1)) ∧ (pmap f q).dropWhile (fun x => p x.1) = pmap f (q.dropWhile (fun x => p x.1)) := by
  induction q with
  | nil => exact ⟨rfl, rfl⟩
  | cons a q ih =>
    have e : pmap f (a :: q) = (a.1, f a.2) :: pmap f q := rfl
    rw [e]
    cases ha : p a.1 <;> simp only [List.takeWhile_cons, List.dropWhile_cons, ha, ih.1, ih.2] <;> exact ⟨rfl, rfl⟩

/-- Where json_object_set puts the value -/
theorem jSet_split {V : Type} {c : Nat} {l : List (Bytes × V)} (h : JInv ⟨c, l⟩) (k : Bytes) : ∃ A B,
    (∃ at', jLookup ⟨c, l⟩ k = .ok (.place at') ∧ l = A ++ B ∧ ∀ (W : Type) (f : V → W) (v : W), jInsertAt (pmap f l) k v at' = pmap f A ++ (k, v) :: pmap f B) ∨
      ∃ i old, jLookup ⟨c, l⟩ k = .ok (.found i) ∧ l[i]? = some (k, old) ∧ l = A ++ (k, old) :: B ∧ ∀ (W : Type) (f : V → W) (v : W), (pmap f l).set i (k, v) = pmap f A ++ (k, v) :: pmap f B := by
  obtain ⟨r, hr, hok⟩ := jLookup_spec h k
  match r, hok with
  | .found i, ⟨old, ho⟩ =>
    obtain ⟨hi, he⟩ := List.getElem?_eq_some_iff.mp ho
    have hl : l = l.take i ++ (k, old) :: l.drop (i + 1) := by
      conv => lhs; rw [← List.take_append_drop i l]
      congr 1
      rw [List.drop_eq_getElem_cons hi, ← he]
    refine ⟨l.take i, l.drop (i + 1), .inr ⟨i, old, hr, ho, hl, fun W f v => ?_⟩⟩
    have h1 : (pmap f (l.take i)).length = i := by simp only [pmap, List.length_map, List.length_take]; exact Nat.min_eq_left (Nat.le_of_lt hi)
    conv => lhs; rw [hl, pmap_append]
    rw [List.set_append_right _ _ (by omega), h1, Nat.sub_self]
    rfl
  | .place none, _ => exact ⟨[], l, .inl ⟨none, hr, rfl, fun W f v => rfl⟩⟩
  | .place (some j), _ =>
    refine ⟨l.take (j + 1) ++ (l.drop (j + 1)).takeWhile (fun p => strcmp p.1 k == .lt), (l.drop (j + 1)).dropWhile (fun p => strcmp p.1 k == .lt),
      .inl ⟨some j, hr, by rw [List.append_assoc, List.takeWhile_append_dropWhile, List.take_append_drop], fun W f v => ?_⟩⟩
    unfold jInsertAt
    dsimp only
    have h1 : (pmap f l).take (j + 1) = pmap f (l.take (j + 1)) := by simp [pmap]
    have h2 : (pmap f l).drop (j + 1) = pmap f (l.drop (j + 1)) := by simp [pmap]
    have h3 := fun q : List (Bytes × V) => pmap_while f (fun a => strcmp a k == .lt) q
    rw [h1, h2, (h3 _).1, (h3 _).2, pmap_append]

/-! ### Resources of values -/

mutual
def PJ.own : PJ D → Rsrc
  | .leaf b _, x => one b x
  | .str b s, x => one b x + one s.blk x
  | .arr b a ov _ l, x => one b x + optOwn a x + optOwn ov x + PJ.owns l x
  | .obj b o _ l, x => one b x + one o x + PJ.powns l x
def PJ.owns : List (PJ D) → Rsrc
  | [], _ => 0
  | v :: l, x => v.own x + PJ.owns l x
def PJ.powns : List (Bytes × Nat × Nat × PJ D) → Rsrc
  | [], _ => 0
  | (_, m, k, v) :: l, x => one m x + one k x + v.own x + PJ.powns l x
end

mutual
/-- Arrays have their blocks. -/
def PJ.Full : PJ D → Prop
  | .leaf _ _ => True
  | .str _ _ => True
  | .arr _ a ov n l => a ≠ none ∧ (ov = none → n = 0 ∧ l = []) ∧ PJ.Fulls l
  | .obj _ _ _ l => PJ.PFulls l
def PJ.Fulls : List (PJ D) → Prop
  | [] => True
  | v :: l => v.Full ∧ PJ.Fulls l
def PJ.PFulls : List (Bytes × Nat × Nat × PJ D) → Prop
  | [] => True
  | (_, _, _, v) :: l => v.Full ∧ PJ.PFulls l
end

def jOwn : Option (PJ D) → Rsrc
  | none, _ => 0
  | some j, x => j.own x

theorem leaf_at (b : Nat) (v : JVal D) (x : Nat) : (PJ.leaf b v).own x = one b x := by rw [PJ.own]
theorem pstr_at (b : Nat) (s : PStr) (x : Nat) : (PJ.str b s : PJ D).own x = one b x + one s.blk x := by rw [PJ.own]
theorem arr_at (b : Nat) (a ov : Option Nat) (n : Nat) (l : List (PJ D)) (x : Nat) : (PJ.arr b a ov n l).own x = one b x + optOwn a x + optOwn ov x + PJ.owns l x := by rw [PJ.own]
theorem obj_at (b o c : Nat) (l : List (Bytes × Nat × Nat × PJ D)) (x : Nat) : (PJ.obj b o c l).own x = one b x + one o x + PJ.powns l x := by rw [PJ.own]
theorem owns_nil (x : Nat) : PJ.owns ([] : List (PJ D)) x = 0 := by rw [PJ.owns]
theorem owns_cons (v : PJ D) (l : List (PJ D)) (x : Nat) : PJ.owns (v :: l) x = v.own x + PJ.owns l x := by rw [PJ.owns]
theorem powns_nil (x : Nat) : PJ.powns ([] : List (Bytes × Nat × Nat × PJ D)) x = 0 := by rw [PJ.powns]
theorem powns_cons (k : Bytes) (m kb : Nat) (v : PJ D) (l : List (Bytes × Nat × Nat × PJ D)) (x : Nat) : PJ.powns ((k, m, kb, v) :: l) x = one m x + one kb x + v.own x + PJ.powns l x := by rw [PJ.powns]
theorem jOwn_none (x : Nat) : jOwn (none : Option (PJ D)) x = 0 := rfl
theorem jOwn_some (j : PJ D) (x : Nat) : jOwn (some j) x = j.own x := rfl

theorem owns_append (s t : List (PJ D)) (x : Nat) : PJ.owns (s ++ t) x = PJ.owns s x + PJ.owns t x := by
  induction s with
  | nil => rw [owns_nil, List.nil_append, Nat.zero_add]
  | cons v s ih => rw [List.cons_append, owns_cons, owns_cons, ih]; omega

theorem powns_append (s t : List (Bytes × Nat × Nat × PJ D)) (x : Nat) : PJ.powns (s ++ t) x = PJ.powns s x + PJ.powns t x := by
  induction s with
  | nil => rw [powns_nil, List.nil_append, Nat.zero_add]
  | cons v s ih =>
    obtain ⟨k, m, kb, v⟩ := v
    rw [List.cons_append, powns_cons, powns_cons, ih]; omega

theorem fulls_append (s t : List (PJ D)) : PJ.Fulls (s ++ t) ↔ PJ.Fulls s ∧ PJ.Fulls t := by
  induction s with
  | nil => simp [PJ.Fulls]
  | cons v s ih => simp only [List.cons_append, PJ.Fulls, ih, and_assoc]

theorem pfulls_append (s t : List (Bytes × Nat × Nat × PJ D)) : PJ.PFulls (s ++ t) ↔ PJ.PFulls s ∧ PJ.PFulls t := by
  induction s with
  | nil => simp [PJ.PFulls]
  | cons v s ih =>
    obtain ⟨k, m, kb, v⟩ := v
    simp only [List.cons_append, PJ.PFulls, ih, and_assoc]

/-- Sums of resources of values -/
macro "rj" : tactic => `(tactic| (intro x; (try simp only [zr_at, optOwn_none, optOwn_some, strOwn_none, strOwn_some, psbInit_base, leaf_at, pstr_at, arr_at, obj_at, owns_nil, owns_cons, powns_nil, powns_cons, jOwn_none, jOwn_some, owns_append, powns_append]) <;> omega))

mutual
theorem freeJ_h : ∀ (j : PJ D), j.Full → Hoare nf j.own (freeJ j) (fun _ => zr) (fun _ => True)
  | .leaf b v, _ => by
    unfold freeJ
    exact (free_h (some b)).pre (by rj)
  | .str b s, _ => by
    unfold freeJ
    refine Hoare.bind (use_h b) (one s.blk) (by rj) fun _ _ => ?_
    refine Hoare.bind (free_h (some s.blk)) (one b) (by rj) fun _ _ => ?_
    exact (free_h (some b)).pre (by rj)
  | .arr b a ov n l, h => by
    unfold freeJ
    rw [PJ.Full] at h
    obtain ⟨a, rfl⟩ : ∃ a', a = some a' := by
      cases a with
      | none => exact absurd rfl h.1
      | some a => exact ⟨a, rfl⟩
    refine Hoare.bind (use_h b) (fun x => one a x + optOwn ov x + PJ.owns l x) (by rj) fun _ _ => ?_
    dsimp only
    refine Hoare.bind (use_h a) (fun x => one b x + optOwn ov x + PJ.owns l x) (by rj) fun _ _ => ?_
    refine Hoare.bind (freeJs_h l h.2.2) (fun x => one b x + optOwn ov x + one a x) (by rj) fun _ _ => ?_
    refine Hoare.bind (free_h ov) (fun x => one b x + one a x) (by rj) fun _ _ => ?_
    refine Hoare.bind (free_h (some a)) (fun x => one b x) (by rj) fun _ _ => ?_
    exact (free_h (some b)).pre (by rj)
  | .obj b o c l, h => by
    unfold freeJ
    rw [PJ.Full] at h
    refine Hoare.bind (use_h b) (fun x => one o x + PJ.powns l x) (by rj) fun _ _ => ?_
    refine Hoare.bind (use_h o) (fun x => one b x + PJ.powns l x) (by rj) fun _ _ => ?_
    refine Hoare.bind (freePairs_h l h) (fun x => one b x + one o x) (by rj) fun _ _ => ?_
    refine Hoare.bind (free_h (some o)) (fun x => one b x) (by rj) fun _ _ => ?_
    exact (free_h (some b)).pre (by rj)
theorem freeJs_h : ∀ (l : List (PJ D)), PJ.Fulls l → Hoare nf (PJ.owns l) (freeJs l) (fun _ => zr) (fun _ => True)
  | [], _ => by
    unfold freeJs
    exact Hoare.pure trivial (by rj)
  | v :: l, h => by
    unfold freeJs
    rw [PJ.Fulls] at h
    refine Hoare.bind (freeJ_h v h.1) (PJ.owns l) (by rj) fun _ _ => ?_
    exact (freeJs_h l h.2).pre (by rj)
theorem freePairs_h : ∀ (l : List (Bytes × Nat × Nat × PJ D)), PJ.PFulls l → Hoare nf (PJ.powns l) (freePairs l) (fun _ => zr) (fun _ => True)
  | [], _ => by
    unfold freePairs
    exact Hoare.pure trivial (by rj)
  | (k, m, kb, v) :: l, h => by
    unfold freePairs
    rw [PJ.PFulls] at h
    refine Hoare.bind (use_h m) (fun x => one kb x + v.own x + PJ.powns l x) (by rj) fun _ _ => ?_
    refine Hoare.bind (free_h (some kb)) (fun x => one m x + v.own x + PJ.powns l x) (by rj) fun _ _ => ?_
    refine Hoare.bind (freeJ_h v h.1) (fun x => one m x + PJ.powns l x) (by rj) fun _ _ => ?_
    refine Hoare.bind (free_h (some m)) (fun x => PJ.powns l x) (by rj) fun _ _ => ?_
    exact (freePairs_h l h.2).pre (by rj)
end

mutual
theorem readJ_h : ∀ (j : PJ D), j.Full → Hoare nf j.own (readJ j) (fun _ => j.own) (fun _ => True)
  | .leaf b v, _ => by
    unfold readJ
    exact (use_h b).frame zr (by rj) (fun _ _ => by rj) fun _ h => h
  | .str b s, _ => by
    unfold readJ
    refine Hoare.bind (use_h b) (one s.blk) (by rj) fun _ _ => ?_
    exact (use_h s.blk).frame (one b) (by rj) (fun _ _ => by rj) fun _ h => h
  | .arr b a ov n l, h => by
    unfold readJ
    rw [PJ.Full] at h
    obtain ⟨a, rfl⟩ : ∃ a', a = some a' := by
      cases a with
      | none => exact absurd rfl h.1
      | some a => exact ⟨a, rfl⟩
    refine Hoare.bind (use_h b) (fun x => one a x + optOwn ov x + PJ.owns l x) (by rj) fun _ _ => ?_
    dsimp only
    refine Hoare.bind (use_h a) (fun x => one b x + optOwn ov x + PJ.owns l x) (by rj) fun _ _ => ?_
    have hs : Hoare nf (optOwn ov) (readSlots ov l) (fun _ => optOwn ov) (fun _ => True) := by
      cases l with
      | nil =>
        have : readSlots ov ([] : List (PJ D)) = Pure.pure () := by cases ov <;> rw [readSlots]
        rw [this]
        exact Hoare.pure trivial (fun _ => rfl)
      | cons v l =>
        cases ov with
        | none => exact absurd (h.2.1 rfl).2 (by simp)
        | some o => rw [readSlots]; exact (use_h o).frame zr (by rj) (fun _ _ => by rj) fun _ h => h
    refine Hoare.bind hs (fun x => one b x + one a x + PJ.owns l x) (by rj) fun _ _ => ?_
    exact (readJs_h l h.2.2).frame (fun x => one b x + optOwn ov x + one a x) (by rj) (fun _ _ => by rj) fun _ h => h
  | .obj b o c l, h => by
    unfold readJ
    rw [PJ.Full] at h
    refine Hoare.bind (use_h b) (fun x => one o x + PJ.powns l x) (by rj) fun _ _ => ?_
    refine Hoare.bind (use_h o) (fun x => one b x + PJ.powns l x) (by rj) fun _ _ => ?_
    exact (readPairs_h l h).frame (fun x => one b x + one o x) (by rj) (fun _ _ => by rj) fun _ h => h
theorem readJs_h : ∀ (l : List (PJ D)), PJ.Fulls l → Hoare nf (PJ.owns l) (readJs l) (fun _ => PJ.owns l) (fun _ => True)
  | [], _ => by
    unfold readJs
    exact Hoare.pure trivial (by rj)
  | v :: l, h => by
    unfold readJs
    rw [PJ.Fulls] at h
    refine Hoare.bind (readJ_h v h.1) (PJ.owns l) (by rj) fun _ _ => ?_
    exact (readJs_h l h.2).frame v.own (by rj) (fun _ _ => by rj) fun _ h => h
theorem readPairs_h : ∀ (l : List (Bytes × Nat × Nat × PJ D)), PJ.PFulls l → Hoare nf (PJ.powns l) (readPairs l) (fun _ => PJ.powns l) (fun _ => True)
  | [], _ => by
    unfold readPairs
    exact Hoare.pure trivial (by rj)
  | (k, m, kb, v) :: l, h => by
    unfold readPairs
    rw [PJ.PFulls] at h
    refine Hoare.bind (use_h m) (fun x => one kb x + v.own x + PJ.powns l x) (by rj) fun _ _ => ?_
    refine Hoare.bind (use_h kb) (fun x => one m x + v.own x + PJ.powns l x) (by rj) fun _ _ => ?_
    refine Hoare.bind (readJ_h v h.1) (fun x => one m x + one kb x + PJ.powns l x) (by rj) fun _ _ => ?_
    exact (readPairs_h l h.2).frame (fun x => one m x + one kb x + v.own x) (by rj) (fun _ _ => by rj) fun _ h => h
end

theorem readKeys_h : ∀ (l : List (Bytes × Nat × Nat × PJ D)), Hoare nf (PJ.powns l) (readKeys l) (fun _ => PJ.powns l) (fun _ => True)
  | [] => by
    unfold readKeys
    exact Hoare.pure trivial (by rj)
  | (k, m, kb, v) :: l => by
    unfold readKeys
    refine Hoare.bind (use_h m) (fun x => one kb x + v.own x + PJ.powns l x) (by rj) fun _ _ => ?_
    refine Hoare.bind (use_h kb) (fun x => one m x + v.own x + PJ.powns l x) (by rj) fun _ _ => ?_
    exact (readKeys_h l).frame (fun x => one m x + one kb x + v.own x) (by rj) (fun _ _ => by rj) fun _ h => h

/-! ### Making values -/

/-- With memory at hand the program makes the value. -/
def Makes (mk : HM (Option (PJ D))) (v : JVal D) : Prop := Hoare true zr mk jOwn (fun r => ∃ j, r = some j ∧ j.Full ∧ j.val = v)

theorem newLeaf_m {v : JVal D} : Makes (newLeafP v) v := by
  unfold Makes newLeafP
  refine Hoare.bind alloc_h zr (by rj) fun p hp => ?_
  obtain ⟨b, rfl⟩ := hp rfl
  exact Hoare.pure ⟨_, rfl, by simp [PJ.Full], by rw [PJ.val]⟩ (by intro x; simp only [Option.map_some]; revert x; rj)

theorem newStr_m (s : Bytes) : Makes (newStrP s : HM (Option (PJ D))) (.str s) := by
  unfold Makes newStrP
  refine Hoare.bind alloc_h zr (by rj) fun p hp => ?_
  obtain ⟨b, rfl⟩ := hp rfl
  dsimp only
  refine Hoare.bind (dupS_h s) (one b) (by rj) fun q hq => ?_
  cases q with
  | none => have := hq.2 rfl; cases this
  | some q => exact Hoare.pure ⟨_, rfl, by simp [PJ.Full], by rw [PJ.val, hq.1 q rfl]⟩ (by rj)

theorem newArr_h : Hoare true zr (newArrP : HM (Option (PJ D))) jOwn (fun r => ∃ b a, r = some (.arr b (some a) none 0 [])) := by
  unfold newArrP
  refine Hoare.bind alloc_h zr (by rj) fun p hp => ?_
  obtain ⟨b, rfl⟩ := hp rfl
  dsimp only
  refine Hoare.bind alloc_h (one b) (by rj) fun p hp => ?_
  obtain ⟨a, rfl⟩ := hp rfl
  exact Hoare.pure ⟨b, a, rfl⟩ (by rj)

theorem newVal_m (v : JVal D) : Makes (newValP v) v := by
  cases v <;> first | exact newStr_m _ | exact newLeaf_m

theorem pvals_map (l : List (Bytes × Nat × Nat × PJ D)) : PJ.pvals l = pmap (fun x : Nat × Nat × PJ D => x.2.2.val) l := by
  induction l with
  | nil => rw [PJ.pvals]; rfl
  | cons a l ih =>
    obtain ⟨k, m, kb, v⟩ := a
    rw [PJ.pvals, ih]; rfl

theorem vals_append (s t : List (PJ D)) : PJ.vals (s ++ t) = PJ.vals s ++ PJ.vals t := by
  induction s with
  | nil => rw [PJ.vals]; rfl
  | cons v s ih => rw [List.cons_append, PJ.vals, PJ.vals, ih]; rfl

/-- An object with its attributes -/
def IsObj (j : PJ D) (o : JObj (JVal D)) : Prop := ∃ b ob l, j = .obj b ob o.count l ∧ JInv ⟨o.count, l⟩ ∧ PJ.PFulls l ∧ PJ.pvals l = o.pairs

theorem isObj_full {j : PJ D} {o : JObj (JVal D)} (h : IsObj j o) : j.Full := by
  obtain ⟨b, ob, l, rfl, -, hf, -⟩ := h
  rw [PJ.Full]; exact hf

theorem isObj_val {j : PJ D} {o : JObj (JVal D)} (h : IsObj j o) : j.val = .obj o.count o.pairs := by
  obtain ⟨b, ob, l, rfl, -, -, hv⟩ := h
  rw [PJ.val, hv]

theorem newObj_h : Hoare true zr (newObjP : HM (Option (PJ D))) jOwn (fun r => ∃ j, r = some j ∧ IsObj j jNew) := by
  unfold newObjP
  refine Hoare.bind alloc_h zr (by rj) fun p hp => ?_
  obtain ⟨b, rfl⟩ := hp rfl
  dsimp only
  refine Hoare.bind alloc_h (one b) (by rj) fun p hp => ?_
  obtain ⟨o, rfl⟩ := hp rfl
  exact Hoare.pure ⟨_, rfl, b, o, [], rfl, jinv_new, by simp [PJ.PFulls], by rw [PJ.pvals]; rfl⟩ (by rj)

/-- What json_object_set leaves: the value can be exchanged for another one. -/
structure SetTo (o : JObj (JVal D)) (k : Bytes) (v j : PJ D) : Prop where
  sets : ∃ o', jSet o k v.val = .ok o' ∧ IsObj j o'
  swap : ∃ R : Rsrc, (∀ x, j.own x = R x + v.own x) ∧ ∀ w : PJ D, w.Full → (∃ o', jSet o k w.val = .ok o' ∧ IsObj (j.put k w) o') ∧ ∀ x, (j.put k w).own x = R x + w.own x

theorem put_split {A B : List (Bytes × Nat × Nat × PJ D)} {k : Bytes} (h : ∀ p ∈ A ++ B, p.1 ≠ k) (b o c m kb : Nat) (v w : PJ D) :
    (PJ.obj b o c (A ++ (k, m, kb, v) :: B)).put k w = .obj b o c (A ++ (k, m, kb, w) :: B) := by
  have hid : ∀ l : List (Bytes × Nat × Nat × PJ D), (∀ p ∈ l, p.1 ≠ k) → l.map (fun x => if x.1 = k then (x.1, x.2.1, x.2.2.1, w) else x) = l := by
    intro l hl
    conv => rhs; rw [← List.map_id l]
    apply List.map_congr_left
    intro p hp
    rw [if_neg (hl p hp)]; rfl
  unfold PJ.put
  dsimp only
  rw [List.map_append, List.map_cons, hid A (fun p hp => h p (by simp [hp])), hid B (fun p hp => h p (by simp [hp])), if_pos rfl]

/-- What a failure leaves -/
def setOwn (v : PJ D) (r : Option (PJ D) × Bool) : Rsrc := fun x => jOwn r.1 x + if r.2 then 0 else v.own x

theorem objSet_g {j v : PJ D} {o : JObj (JVal D)} (k : Bytes) (hj : IsObj j o) (hv : v.Full) :
    Hoare nf (fun x => j.own x + v.own x) (objSetP (some j) k (some v)) (setOwn v) (fun r => (∃ j', r = (some j', true) ∧ SetTo o k v j') ∨ (nf = false ∧ ∃ j', r = (some j', false) ∧ IsObj j' o)) := by
  have hj0 := hj
  obtain ⟨b, ob, l, rfl, hi, hf, hp⟩ := hj
  obtain ⟨oc, op⟩ := o
  dsimp only at hi hp
  unfold objSetP
  dsimp only
  refine Hoare.bind (use_h b) (fun x => one ob x + PJ.powns l x + v.own x) (by intro x; simp only [obj_at, PJ.blk]; omega) fun _ _ => ?_
  refine Hoare.bind (use_h ob) (fun x => one b x + PJ.powns l x + v.own x) (by rj) fun _ _ => ?_
  refine Hoare.bind (readKeys_h l) (fun x => one b x + one ob x + v.own x) (by rj) fun _ _ => ?_
  obtain ⟨A, B, hs⟩ := jSet_split hi k
  have hlk : ∀ f : (Nat × Nat × PJ D) → JVal D, jLookup ⟨oc, pmap f l⟩ k = jLookup ⟨oc, l⟩ k := fun f => jLookup_map f oc l k
  have hpm : op = pmap (fun x : Nat × Nat × PJ D => x.2.2.val) l := by rw [← hp, pvals_map]
  rcases hs with ⟨at', h1, h2, h3⟩ | ⟨i, old, h1, h2, h3, h4⟩
  · rw [h1]
    dsimp only
    refine Hoare.bind alloc_h (fun x => one b x + one ob x + PJ.powns l x + v.own x) (by rj) fun m hm => ?_
    cases m with
    | none =>
      have hn : nf = false := by cases nf with | false => rfl | true => obtain ⟨_, h⟩ := hm rfl; cases h
      exact Hoare.pure (.inr ⟨hn, _, rfl, hj0⟩) (by intro x; simp only [setOwn, jOwn_some, obj_at, optOwn_none]; rw [if_neg (by decide)]; omega)
    | some m =>
    dsimp only
    refine Hoare.bind alloc_h (fun x => one m x + one b x + one ob x + PJ.powns l x + v.own x) (by rj) fun kb hk => ?_
    cases kb with
    | none =>
      have hn : nf = false := by cases nf with | false => rfl | true => obtain ⟨_, h⟩ := hk rfl; cases h
      dsimp only
      refine Hoare.bind (free_h (some m)) (fun x => one b x + one ob x + PJ.powns l x + v.own x) (by rj) fun _ _ => ?_
      exact Hoare.pure (.inr ⟨hn, _, rfl, hj0⟩) (by intro x; simp only [setOwn, jOwn_some, obj_at, zr_at]; rw [if_neg (by decide)]; omega)
    | some kb =>
    have e : ∀ w : PJ D, jInsertAt l k (m, kb, w) at' = A ++ (k, m, kb, w) :: B := by
      intro w
      have h4 := h3 (Nat × Nat × PJ D) id (m, kb, w)
      have hid : ∀ q : List (Bytes × Nat × Nat × PJ D), pmap id q = q := fun q => by simp [pmap]
      rw [hid, hid, hid] at h4
      exact h4
    have hset : ∀ w : PJ D, jSet ⟨oc, op⟩ k w.val = .ok ⟨oc + 1, PJ.pvals (A ++ (k, m, kb, w) :: B)⟩ := by
      intro w
      unfold jSet
      rw [hpm, hlk, h1]
      dsimp only
      rw [h3, pvals_map, pmap_append]
      rfl
    have hinv : ∀ w : PJ D, JInv ⟨oc + 1, A ++ (k, m, kb, w) :: B⟩ := by
      intro w
      obtain ⟨o', ho, hio, -⟩ := jSet_spec hi k (m, kb, w)
      unfold jSet at ho
      rw [h1] at ho
      dsimp only at ho
      rw [e] at ho
      cases ho
      exact hio
    have hfull : ∀ w : PJ D, w.Full → PJ.PFulls (A ++ (k, m, kb, w) :: B) := by
      intro w hw
      rw [h2, pfulls_append] at hf
      rw [pfulls_append, PJ.PFulls]
      exact ⟨hf.1, hw, hf.2⟩
    have hne := keys_ne (hinv v).2
    dsimp only
    rw [e]
    refine Hoare.pure (.inl ⟨_, rfl, ⟨⟨_, hset v, b, ob, _, rfl, hinv v, hfull v hv, rfl⟩, fun x => one b x + one ob x + one m x + one kb x + PJ.powns A x + PJ.powns B x, by rj, fun w hw => ?_⟩⟩) (by intro x; simp only [setOwn, jOwn_some, obj_at, powns_append, powns_cons, optOwn_some]; rw [if_pos trivial, h2, powns_append]; omega)
    rw [put_split hne]
    exact ⟨⟨_, hset w, b, ob, _, rfl, hinv w, hfull w hw, rfl⟩, by rj⟩
  · rw [h1]
    dsimp only
    rw [h2]
    obtain ⟨m, kb, old⟩ := old
    dsimp only
    rw [h3, pfulls_append, PJ.PFulls] at hf
    refine Hoare.bind (freeJ_h old hf.2.1) (fun x => one b x + one ob x + one m x + one kb x + PJ.powns A x + PJ.powns B x + v.own x)
      (by intro x; rw [h3]; simp only [powns_append, powns_cons]; omega) fun _ _ => ?_
    have e : ∀ w : PJ D, l.set i (k, m, kb, w) = A ++ (k, m, kb, w) :: B := by
      intro w
      have h5 := h4 (Nat × Nat × PJ D) id (m, kb, w)
      have hid : ∀ q : List (Bytes × Nat × Nat × PJ D), pmap id q = q := fun q => by simp [pmap]
      rw [hid, hid, hid] at h5
      exact h5
    have hget : ∀ f : (Nat × Nat × PJ D) → JVal D, (pmap f l)[i]? = some (k, f (m, kb, old)) := by
      intro f
      simp [pmap, h2]
    have hset : ∀ w : PJ D, jSet ⟨oc, op⟩ k w.val = .ok ⟨oc, PJ.pvals (A ++ (k, m, kb, w) :: B)⟩ := by
      intro w
      unfold jSet
      rw [hpm, hlk, h1]
      dsimp only
      rw [hget]
      dsimp only
      rw [h4, pvals_map, pmap_append]
      rfl
    have hinv : ∀ w : PJ D, JInv ⟨oc, A ++ (k, m, kb, w) :: B⟩ := by
      intro w
      obtain ⟨o', ho, hio, -⟩ := jSet_spec hi k (m, kb, w)
      unfold jSet at ho
      rw [h1] at ho
      dsimp only at ho
      rw [h2] at ho
      dsimp only at ho
      rw [e] at ho
      cases ho
      exact hio
    have hfull : ∀ w : PJ D, w.Full → PJ.PFulls (A ++ (k, m, kb, w) :: B) := by
      intro w hw
      rw [pfulls_append, PJ.PFulls]
      exact ⟨hf.1, hw, hf.2.2⟩
    have hne := keys_ne (hinv v).2
    rw [e]
    refine Hoare.pure (.inl ⟨_, rfl, ⟨⟨_, hset v, b, ob, _, rfl, hinv v, hfull v hv, rfl⟩, fun x => one b x + one ob x + one m x + one kb x + PJ.powns A x + PJ.powns B x, by rj, fun w hw => ?_⟩⟩) (by intro x; simp only [setOwn, jOwn_some, obj_at, powns_append, powns_cons, zr_at]; rw [if_pos trivial]; omega)
    rw [put_split hne]
    exact ⟨⟨_, hset w, b, ob, _, rfl, hinv w, hfull w hw, rfl⟩, by rj⟩

theorem objSet_h {j v : PJ D} {o : JObj (JVal D)} (k : Bytes) (hj : IsObj j o) (hv : v.Full) :
    Hoare true (fun x => j.own x + v.own x) (objSetP (some j) k (some v)) (fun r => jOwn r.1) (fun r => ∃ j', r = (some j', true) ∧ SetTo o k v j') := by
  refine (objSet_g (nf := true) k hj hv).post ?_ ?_
  · rintro _ (⟨j', rfl, -⟩ | ⟨h, -⟩) x
    · simp only [setOwn]; rw [if_pos trivial]; omega
    · cases h
  · rintro _ (h | ⟨h, -⟩)
    · exact h
    · cases h

/-- Programs that make values, and the values -/
def MakesAll : List (Bytes × HM (Option (PJ D))) → List (Bytes × JVal D) → Prop
  | [], [] => True
  | (k, mk) :: r, (k', v) :: s => k = k' ∧ Makes mk v ∧ MakesAll r s
  | _, _ => False

theorem makesAll_attrs (l : List (Bytes × JVal D)) : MakesAll (attrsP l) l := by
  induction l with
  | nil => trivial
  | cons a l ih =>
    obtain ⟨k, v⟩ := a
    exact ⟨rfl, newVal_m v, ih⟩

theorem makesAll_append {r1 r2 : List (Bytes × HM (Option (PJ D)))} {s1 s2 : List (Bytes × JVal D)} (h1 : MakesAll r1 s1) (h2 : MakesAll r2 s2) : MakesAll (r1 ++ r2) (s1 ++ s2) := by
  induction r1 generalizing s1 with
  | nil => cases s1 with
    | nil => exact h2
    | cons => exact h1.elim
  | cons a r1 ih =>
    obtain ⟨k, mk⟩ := a
    cases s1 with
    | nil => exact h1.elim
    | cons b s1 =>
      obtain ⟨k', v⟩ := b
      exact ⟨h1.1, h1.2.1, ih h1.2.2⟩

theorem setAll_h : ∀ {items : List (Bytes × HM (Option (PJ D)))} {vals : List (Bytes × JVal D)} {j : PJ D} {o : JObj (JVal D)}, MakesAll items vals → IsObj j o →
    Hoare true j.own (setAllP (some j) items) (fun r => jOwn r.1) (fun r => ∃ j' o', r = (some j', true) ∧ jBuild vals o = .ok o' ∧ IsObj j' o') ∧
      Hoare true j.own (setEachP (some j) items) (fun r => jOwn r.1) (fun r => ∃ j' o', r = (some j', true) ∧ jBuild vals o = .ok o' ∧ IsObj j' o')
  | [], [], j, o, _, hj => by
    unfold setAllP setEachP
    exact ⟨Hoare.pure ⟨j, o, rfl, rfl, hj⟩ (by rj), Hoare.pure ⟨j, o, rfl, rfl, hj⟩ (by rj)⟩
  | [], _ :: _, _, _, h, _ => h.elim
  | _ :: _, [], _, _, h, _ => h.elim
  | (k, mk) :: r, (k', v) :: s, j, o, h, hj => by
    obtain ⟨rfl, hm, hr⟩ := h
    unfold setAllP setEachP
    constructor
    all_goals
      refine Hoare.bind hm j.own (by rj) fun q hq => ?_
      obtain ⟨w, rfl, hw, rfl⟩ := hq
      refine Hoare.bind (objSet_h k hj hw) zr (by rj) fun y hy => ?_
      obtain ⟨j', rfl, hset⟩ := hy
      obtain ⟨o', h1, h2⟩ := hset.sets
      have ih := setAll_h hr h2
      have hb : ∀ o'', jBuild s o' = .ok o'' → jBuild ((k, w.val) :: s) o = .ok o'' := by
        intro o'' h
        unfold jBuild
        rw [h1]
        exact h
    · dsimp only
      rw [if_pos rfl]
      refine (ih.1.pre (by rj)).post (fun _ _ _ => rfl) ?_
      rintro _ ⟨j'', o'', rfl, h3, h4⟩
      exact ⟨j'', o'', rfl, hb _ h3, h4⟩
    · dsimp only
      refine Hoare.bind ih.2 zr (by rj) ?_
      rintro _ ⟨j'', o'', rfl, h3, h4⟩
      exact Hoare.pure ⟨j'', o'', rfl, hb _ h3, h4⟩ (by rj)

/-- An array with its elements -/
def IsArr (j : PJ D) (l : List (JVal D)) : Prop := ∃ b a ov n t, j = .arr b (some a) ov n t ∧ (ov = none → n = 0 ∧ t = []) ∧ PJ.Fulls t ∧ PJ.vals t = l

theorem isArr_full {j : PJ D} {l : List (JVal D)} (h : IsArr j l) : j.Full := by
  obtain ⟨b, a, ov, n, t, rfl, h1, h2, -⟩ := h
  rw [PJ.Full]; exact ⟨by simp, h1, h2⟩

theorem isArr_val {j : PJ D} {l : List (JVal D)} (h : IsArr j l) : j.val = .arr l := by
  obtain ⟨b, a, ov, n, t, rfl, -, -, hv⟩ := h
  rw [PJ.val, hv]

theorem isArr_new (b a : Nat) : IsArr (PJ.arr b (some a) none 0 [] : PJ D) [] := ⟨b, a, none, 0, [], rfl, fun _ => ⟨rfl, rfl⟩, by simp [PJ.Fulls], by rw [PJ.vals]⟩

theorem arrAppend_h {j v : PJ D} {l : List (JVal D)} (hj : IsArr j l) (hv : v.Full) :
    Hoare true (fun x => j.own x + v.own x) (arrAppendP (some j) (some v)) (fun r => jOwn r.1)
      (fun r => ∃ j', r = (some j', true) ∧ IsArr j' (l ++ [v.val]) ∧ ∃ R : Rsrc, (∀ x, j'.own x = R x + v.own x) ∧
        ∀ w : PJ D, w.Full → IsArr (j'.setLast w) (l ++ [w.val]) ∧ ∀ x, (j'.setLast w).own x = R x + w.own x) := by
  obtain ⟨b, a, ov, n, t, rfl, h1, h2, rfl⟩ := hj
  have hres : ∀ (ov' : Option Nat) (n' : Nat), ov' ≠ none → IsArr (PJ.arr b (some a) ov' n' (t ++ [v])) (PJ.vals t ++ [v.val]) ∧
      ∃ R : Rsrc, (∀ x, (PJ.arr b (some a) ov' n' (t ++ [v])).own x = R x + v.own x) ∧
      ∀ w : PJ D, w.Full → IsArr ((PJ.arr b (some a) ov' n' (t ++ [v])).setLast w) (PJ.vals t ++ [w.val]) ∧
        ∀ x, ((PJ.arr b (some a) ov' n' (t ++ [v])).setLast w).own x = R x + w.own x := by
    intro ov' n' ho
    have hv1 : ∀ w : PJ D, w.Full → IsArr (PJ.arr b (some a) ov' n' (t ++ [w])) (PJ.vals t ++ [w.val]) := by
      intro w hw
      refine ⟨b, a, ov', n', t ++ [w], rfl, fun h => absurd h ho, ?_, ?_⟩
      · rw [fulls_append]; exact ⟨h2, by simp [PJ.Fulls, hw]⟩
      · rw [vals_append, PJ.vals, PJ.vals]
    refine ⟨hv1 v hv, fun x => one b x + one a x + optOwn ov' x + PJ.owns t x, by rj, fun w hw => ?_⟩
    have e : (PJ.arr b (some a) ov' n' (t ++ [v])).setLast w = PJ.arr b (some a) ov' n' (t ++ [w]) := by
      unfold PJ.setLast
      dsimp only
      rw [List.dropLast_concat]
    rw [e]
    exact ⟨hv1 w hw, by rj⟩
  unfold arrAppendP
  dsimp only
  refine Hoare.bind (use_h b) (fun x => one a x + optOwn ov x + PJ.owns t x + v.own x) (by intro x; simp only [arr_at, optOwn_some, PJ.blk]; omega) fun _ _ => ?_
  refine Hoare.bind (use_h a) (fun x => one b x + optOwn ov x + PJ.owns t x + v.own x) (by rj) fun _ _ => ?_
  by_cases hn : n ≤ t.length
  · rw [if_pos hn]
    refine Hoare.bind alloc_h (fun x => one a x + one b x + optOwn ov x + PJ.owns t x + v.own x) (by rj) fun p hp => ?_
    obtain ⟨p, rfl⟩ := hp rfl
    dsimp only
    refine Hoare.bind (free_h ov) (fun x => one p x + one a x + one b x + PJ.owns t x + v.own x) (by rj) fun _ _ => ?_
    exact Hoare.pure ⟨_, rfl, hres (some p) _ (by simp)⟩ (by rj)
  · rw [if_neg hn]
    exact Hoare.pure ⟨_, rfl, hres ov n (fun e => by have := (h1 e).1; omega)⟩ (by rj)

theorem done_ok {A : Rsrc} {j : Option (PJ D)} {P : Option (PJ D) → Prop} (hA : ∀ x, A x = jOwn j x) (hp : P j) : Hoare nf A (doneP (j, true)) jOwn P := by
  unfold doneP
  rw [if_pos (by rfl)]
  exact Hoare.pure hp hA

/-- An object made in one go -/
theorem makeObj_m {items : List (Bytes × HM (Option (PJ D)))} {vals : List (Bytes × JVal D)} {v : JVal D} (h : MakesAll items vals) (hv : jObject vals = .ok v) :
    Hoare true zr (do
      let o ← newObjP
      match o with
      | none => pure none
      | some o => do
        let x ← setAllP (some o) items
        doneP x) jOwn (fun r => ∃ j o, r = some j ∧ IsObj j o ∧ j.val = v ∧ jBuild vals jNew = .ok o) := by
  refine Hoare.bind newObj_h zr (by rj) ?_
  rintro _ ⟨j, rfl, hj⟩
  dsimp only
  refine Hoare.bind (setAll_h h hj).1 zr (by rj) ?_
  rintro _ ⟨j', o', rfl, h1, h2⟩
  refine done_ok (by rj) ⟨j', o', rfl, h2, ?_, h1⟩
  rw [isObj_val h2]
  unfold jObject at hv
  rw [h1] at hv
  dsimp only at hv
  injection hv

theorem makes_of {m : HM (Option (PJ D))} {v : JVal D} {Q : PJ D → JObj (JVal D) → Prop} (h : Hoare true zr m jOwn (fun r => ∃ j o, r = some j ∧ IsObj j o ∧ j.val = v ∧ Q j o)) : Makes m v :=
  h.post (fun _ _ _ => rfl) fun _ ⟨j, _, e, h1, h2, _⟩ => ⟨j, e, isObj_full h1, h2⟩

theorem jBuild_append (a b : List (Bytes × JVal D)) : ∀ {o o' : JObj (JVal D)}, jBuild a o = .ok o' → jBuild (a ++ b) o = jBuild b o' := by
  induction a with
  | nil => intro o o' h; cases h; rfl
  | cons x a ih =>
    obtain ⟨k, v⟩ := x
    intro o o' h
    unfold jBuild at h
    rw [List.cons_append]
    conv => lhs; unfold jBuild
    cases hs : jSet o k v with
    | ub => rw [hs] at h; cases h
    | ok o1 => rw [hs] at h; exact ih h

theorem isObj_obj {j : PJ D} {o : JObj (JVal D)} {l : List (Bytes × JVal D)} {v : JVal D} (h : IsObj j o) (hb : jBuild l jNew = .ok o) (hv : jObject l = .ok v) : j.val = v := by
  rw [isObj_val h]
  unfold jObject at hv
  rw [hb] at hv
  dsimp only at hv
  injection hv

theorem sessLoop_h (L : DblLib D) : ∀ (l : List JSess) {j : PJ D} {vs : List (JVal D)}, IsArr j vs →
    Hoare true j.own (sessLoopP L j l) (fun r => jOwn r.1) (fun r => ∃ j', r = (some j', true) ∧ IsArr j' (vs ++ l.map (sessShown L)))
  | [], j, vs, h => by
    unfold sessLoopP
    exact Hoare.pure ⟨j, rfl, by rw [List.map_nil, List.append_nil]; exact h⟩ (by rj)
  | x :: l, j, vs, h => by
    unfold sessLoopP
    refine Hoare.bind newObj_h j.own (by rj) ?_
    rintro _ ⟨s, rfl, hs⟩
    dsimp only
    refine Hoare.bind (arrAppend_h h (isObj_full hs)) zr (by rj) ?_
    rintro _ ⟨j', rfl, -, R, hR, hw⟩
    dsimp only
    refine Hoare.bind (setAll_h (makesAll_attrs [(b!"key", .str x.key), (b!"backend", .int (L.ofInt x.backend)), (b!"expire", .str x.expire)]) hs).1 R (fun y => by have := hR y; rw [jOwn_some, this, zr_at]; omega) ?_
    rintro _ ⟨s', o', rfl, h1, h2⟩
    dsimp only
    obtain ⟨h3, h4⟩ := hw s' (isObj_full h2)
    have e : s'.val = sessShown L x := isObj_obj h2 h1 (by with_unfolding_all rfl)
    rw [e] at h3
    refine ((sessLoop_h L l h3).pre (fun y => by rw [h4 y, jOwn_some]; omega)).post (fun _ _ _ => rfl) ?_
    rintro _ ⟨j'', rfl, h5⟩
    exact ⟨j'', rfl, by rw [List.map_cons, List.append_cons]; exact h5⟩

theorem sessions_m (L : DblLib D) (l : Option (List JSess)) : Makes (sessionsP L l) (sessionsShown L l) := by
  cases l with
  | none => exact newLeaf_m
  | some l =>
    unfold Makes sessionsP
    refine Hoare.bind newArr_h zr (by rj) ?_
    rintro _ ⟨b, a, rfl⟩
    dsimp only
    refine Hoare.bind (sessLoop_h L l (isArr_new b a)) zr (by rj) ?_
    rintro _ ⟨j, rfl, h⟩
    exact done_ok (by rj) ⟨j, rfl, isArr_full h, isArr_val h⟩

theorem stats_m (L : DblLib D) (b : MBe D) {v : JVal D} (hv : statsSerialize L b = .ok v) : Makes (statsP L b) v := by
  unfold Makes statsP
  unfold statsSerialize at hv
  refine Hoare.bind newObj_h zr (by rj) ?_
  rintro _ ⟨j, rfl, hj⟩
  dsimp only
  refine Hoare.bind (setAll_h (makesAll_attrs _) hj).2 zr (by rj) ?_
  rintro _ ⟨j', o', rfl, h1, h2⟩
  by_cases hn : b.numreq > 0
  · rw [if_pos hn] at hv ⊢
    dsimp only
    refine Hoare.bind (setAll_h (makesAll_attrs _) h2).1 zr (by rj) ?_
    rintro _ ⟨j'', o'', rfl, h3, h4⟩
    refine Hoare.pure ⟨j'', rfl, isObj_full h4, isObj_obj h4 ?_ hv⟩ (by rj)
    rw [← h3]
    exact jBuild_append [_] _ h1
  · rw [if_neg hn] at hv ⊢
    exact Hoare.pure ⟨j', rfl, isObj_full h2, isObj_obj h2 h1 hv⟩ (by rj)

theorem backend_m (L : DblLib D) (stats : Bool) (b : MBe D) {v : JVal D} (hv : mbeSerialize L stats b = .ok v) : Makes (backendP L stats b) v := by
  unfold Makes backendP
  unfold mbeSerialize at hv
  dsimp only at hv
  refine Hoare.bind newObj_h zr (by rj) ?_
  rintro _ ⟨j, rfl, hj⟩
  dsimp only
  refine Hoare.bind (setAll_h (makesAll_attrs _) hj).1 zr (by rj) ?_
  rintro _ ⟨j1, o1, rfl, h1, h2⟩
  rw [if_pos (by rfl)]
  dsimp only
  refine Hoare.bind (setAll_h (makesAll_attrs _) h2).1 zr (by rj) ?_
  rintro _ ⟨j2, o2, rfl, h3, h4⟩
  have hb : jBuild ([(b!"type", .str b.v.typeStr), (b!"priority", .int (L.ofInt b.priority)), (b!"alive", .bool b.v.alive), (b!"enabled", .bool !b.disabled),
      (b!"weight", .int (L.ofInt b.weight))] ++ b.v.attrs L) jNew = .ok o2 := by
    rw [← h3]
    exact jBuild_append [_, _, _, _] _ h1
  by_cases hs : (stats && !b.v.isMatrix) = true
  · rw [if_pos hs] at hv ⊢
    cases hst : statsSerialize L b with
    | ub => rw [hst] at hv; cases hv
    | ok sv =>
      rw [hst] at hv
      dsimp only at hv
      refine Hoare.bind (setAll_h (items := [(b!"stats", statsP L b)]) (vals := [(b!"stats", sv)]) ⟨rfl, stats_m L b hst, trivial⟩ h4).2 zr (by rj) ?_
      rintro _ ⟨j3, o3, rfl, h5, h6⟩
      refine done_ok (by rj) ⟨j3, rfl, isObj_full h6, isObj_obj h6 ?_ hv⟩
      rw [jBuild_append _ _ hb]
      exact h5
  · rw [if_neg hs] at hv ⊢
    exact done_ok (by rj) ⟨j2, rfl, isObj_full h4, isObj_obj h4 hb hv⟩

theorem besInner_h (L : DblLib D) (stats : Bool) : ∀ (l : List (MBe D)) {j : PJ D} {vs ws : List (JVal D)}, IsArr j vs → resMap (mbeSerialize L stats) l = .ok ws →
    Hoare true j.own (besInnerP L stats (some j) l) jOwn (fun r => ∃ j', r = some j' ∧ IsArr j' (vs ++ ws))
  | [], j, vs, ws, h, hw => by
    unfold besInnerP
    cases hw
    exact Hoare.pure ⟨j, rfl, by rw [List.append_nil]; exact h⟩ (by rj)
  | b :: l, j, vs, ws, h, hw => by
    unfold resMap at hw
    cases hb : mbeSerialize L stats b with
    | ub => rw [hb] at hw; cases hw
    | ok v =>
      rw [hb] at hw
      dsimp only at hw
      cases hl : resMap (mbeSerialize L stats) l with
      | ub => rw [hl] at hw; cases hw
      | ok vs' =>
        rw [hl] at hw
        cases hw
        unfold besInnerP
        refine Hoare.bind (backend_m L stats b hb) j.own (by rj) ?_
        rintro _ ⟨w, rfl, hwf, rfl⟩
        refine Hoare.bind (arrAppend_h h hwf) zr (by rj) ?_
        rintro _ ⟨j', rfl, h1, -⟩
        rw [if_pos (by rfl)]
        refine ((besInner_h L stats l h1 hl).pre (by rj)).post (fun _ _ _ => rfl) ?_
        rintro _ ⟨j'', rfl, h5⟩
        exact ⟨j'', rfl, by rw [List.append_cons]; exact h5⟩

theorem resMap_append {α β : Type} (f : α → Res β) : ∀ (a b : List α) {ws : List β}, resMap f (a ++ b) = .ok ws → ∃ w1 w2, resMap f a = .ok w1 ∧ resMap f b = .ok w2 ∧ ws = w1 ++ w2
  | [], b, ws, h => ⟨[], ws, rfl, h, rfl⟩
  | x :: a, b, ws, h => by
    rw [List.cons_append] at h
    unfold resMap at h
    cases hx : f x with
    | ub => rw [hx] at h; cases h
    | ok v =>
      rw [hx] at h
      dsimp only at h
      cases hl : resMap f (a ++ b) with
      | ub => rw [hl] at h; cases h
      | ok vs =>
        rw [hl] at h
        cases h
        obtain ⟨w1, w2, h1, h2, rfl⟩ := resMap_append f a b hl
        refine ⟨v :: w1, w2, ?_, h2, rfl⟩
        unfold resMap
        rw [hx, h1]

theorem resMap_comp {α β γ : Type} (f : β → Res γ) (g : α → β) : ∀ (l : List α), resMap f (l.map g) = resMap (fun x => f (g x)) l
  | [] => rfl
  | x :: l => by
    rw [List.map_cons]
    unfold resMap
    rw [resMap_comp f g l]

theorem besOuter_h (L : DblLib D) (stats : Bool) : ∀ (l : List (List (MBe D))) {j : PJ D} {vs ws : List (JVal D)}, IsArr j vs → resMap (mbeSerialize L stats) l.flatten = .ok ws →
    Hoare true j.own (besOuterP L stats (some j) l) jOwn (fun r => ∃ j', r = some j' ∧ IsArr j' (vs ++ ws))
  | [], j, vs, ws, h, hw => by
    unfold besOuterP
    cases hw
    exact Hoare.pure ⟨j, rfl, by rw [List.append_nil]; exact h⟩ (by rj)
  | b :: l, j, vs, ws, h, hw => by
    rw [List.flatten_cons] at hw
    obtain ⟨w1, w2, h1, h2, rfl⟩ := resMap_append _ _ _ hw
    unfold besOuterP
    refine Hoare.bind (besInner_h L stats b h h1) zr (by rj) ?_
    rintro _ ⟨j', rfl, h3⟩
    refine ((besOuter_h L stats l h3 h2).pre (by rj)).post (fun _ _ _ => rfl) ?_
    rintro _ ⟨j'', rfl, h5⟩
    exact ⟨j'', rfl, by rw [← List.append_assoc]; exact h5⟩

theorem backends_m (L : DblLib D) (stats : Bool) (bals : List (List (MBe D))) {v : JVal D} (hv : mbesSerialize L stats bals = .ok v) : Makes (backendsP L stats bals) v := by
  unfold mbesSerialize at hv
  unfold Makes backendsP
  by_cases he : bals.isEmpty = true
  · rw [if_pos he] at hv ⊢
    cases hv
    exact newLeaf_m
  · rw [if_neg he] at hv ⊢
    cases hr : resMap (mbeSerialize L stats) bals.flatten with
    | ub => rw [hr] at hv; cases hv
    | ok ws =>
      rw [hr] at hv
      cases hv
      refine Hoare.bind newArr_h zr (by rj) ?_
      rintro _ ⟨b, a, rfl⟩
      refine ((besOuter_h L stats bals (isArr_new b a) hr).pre (by rj)).post (fun _ _ _ => rfl) ?_
      rintro _ ⟨j, rfl, h⟩
      exact ⟨j, rfl, isArr_full h, isArr_val h⟩

theorem service_m (L : DblLib D) (stats : Bool) (s : JSvc D) {v : JVal D} (hv : msvcSerialize L stats (svcShown L s) = .ok v) : Makes (serviceP L stats s) v := by
  unfold msvcSerialize at hv
  cases hb : mbesSerialize L stats (svcShown L s).balancers with
  | ub => rw [hb] at hv; cases hv
  | ok bs =>
    rw [hb] at hv
    refine makes_of (makeObj_m ?_ hv)
    exact makesAll_append (makesAll_attrs [_, _, _]) ⟨rfl, sessions_m L s.sess, rfl, backends_m L stats s.balancers hb, trivial⟩

theorem appendLoop_h {α : Type} {f : α → HM (Option (PJ D))} {g : α → Res (JVal D)} (hf : ∀ x v, g x = .ok v → Makes (f x) v) : ∀ (l : List α) {j : PJ D} {vs ws : List (JVal D)},
    IsArr j vs → resMap g l = .ok ws → Hoare true j.own (appendLoopP f j true l) (fun r => r.1.own) (fun r => r.2 = true ∧ IsArr r.1 (vs ++ ws))
  | [], j, vs, ws, h, hw => by
    unfold appendLoopP
    cases hw
    exact Hoare.pure ⟨rfl, by rw [List.append_nil]; exact h⟩ (by rj)
  | b :: l, j, vs, ws, h, hw => by
    unfold resMap at hw
    cases hb : g b with
    | ub => rw [hb] at hw; cases hw
    | ok v =>
      rw [hb] at hw
      dsimp only at hw
      cases hl : resMap g l with
      | ub => rw [hl] at hw; cases hw
      | ok vs' =>
        rw [hl] at hw
        cases hw
        unfold appendLoopP
        refine Hoare.bind (hf b v hb) j.own (by rj) ?_
        rintro _ ⟨w, rfl, hwf, rfl⟩
        refine Hoare.bind (arrAppend_h h hwf) zr (by rj) ?_
        rintro _ ⟨j', rfl, h1, -⟩
        dsimp only
        refine ((appendLoop_h hf l h1 hl).pre (by rj)).post (fun _ _ _ => rfl) ?_
        rintro _ ⟨h4, h5⟩
        exact ⟨h4, by rw [List.append_cons]; exact h5⟩

theorem listener_m (L : DblLib D) (stats : Bool) (l : JLst D) {v : JVal D} (hv : mlstSerialize L stats (lstShown L l) = .ok v) : Makes (listenerP L stats l) v := by
  unfold mlstSerialize at hv
  cases hs : resMap (msvcSerialize L stats) (lstShown L l).services with
  | ub => rw [hs] at hv; cases hv
  | ok ss =>
    rw [hs] at hv
    dsimp only at hv
    have hs' : resMap (fun x => msvcSerialize L stats (svcShown L x)) l.services = .ok ss := by rw [← resMap_comp]; exact hs
    unfold Makes listenerP
    refine Hoare.bind newObj_h zr (by rj) ?_
    rintro _ ⟨j, rfl, hj⟩
    dsimp only
    refine Hoare.bind (setAll_h (makesAll_attrs _) hj).2 zr (by rj) ?_
    rintro _ ⟨j1, o1, rfl, h1, h2⟩
    refine Hoare.bind newArr_h j1.own (by rj) ?_
    rintro _ ⟨b, a, rfl⟩
    dsimp only
    refine Hoare.bind (objSet_h b!"services" h2 (isArr_full (isArr_new b a))) zr (by rj) ?_
    rintro _ ⟨j2, rfl, hset⟩
    rw [if_pos (by rfl)]
    obtain ⟨R, hR, hw⟩ := hset.swap
    refine Hoare.bind (appendLoop_h (fun x v h => service_m L stats x h) l.services (isArr_new b a) hs') R (fun y => by have := hR y; rw [zr_at]; dsimp only; rw [jOwn_some, this]; omega) ?_
    rintro ⟨z1, z2⟩ ⟨rfl, h4⟩
    obtain ⟨⟨o', h5, h6⟩, h7⟩ := hw z1 (isArr_full h4)
    refine done_ok (fun y => by simp only [Option.map_some, jOwn_some]; rw [h7 y]; omega) ⟨_, rfl, isObj_full h6, isObj_obj h6 ?_ hv⟩
    rw [isArr_val h4, List.nil_append] at h5
    refine Eq.trans (congrArg (fun q => jBuild q jNew) (?_ : _ = _ ++ [(b!"services", JVal.arr ss)])) ((jBuild_append _ [(b!"services", JVal.arr ss)] h1).trans ?_)
    · rw [List.append_assoc _ [_] [_]]
      rfl
    · unfold jBuild
      rw [h5]
      rfl

theorem workers_m (L : DblLib D) (w : MWorkers) {v : JVal D} (hv : workersSerialize L w = .ok v) : Makes (workersP L w) v :=
  makes_of (makeObj_m (makesAll_attrs _) hv)

theorem core_h (L : DblLib D) (st : JState D) {ws : JVal D} (hw : workersSerialize L st.workers = .ok ws) :
    Hoare true zr (coreP L st) jOwn (fun r => ∃ j o, r = some j ∧ IsObj j o ∧
      jBuild [(b!"version", .str st.version), (b!"pid", .int (L.ofInt st.pid)), (b!"timestamp", .str st.timestamp), (b!"queue_len", .int (L.ofInt st.queueLen)), (b!"workers", ws)] jNew = .ok o) := by
  unfold coreP
  refine Hoare.bind newObj_h zr (by rj) ?_
  rintro _ ⟨j, rfl, hj⟩
  dsimp only
  refine Hoare.bind (setAll_h (makesAll_append (makesAll_attrs [_, _, _, _]) (r2 := [(b!"workers", workersP L st.workers)]) (s2 := [(b!"workers", ws)]) ⟨rfl, workers_m L st.workers hw, trivial⟩) hj).1 zr (by rj) ?_
  rintro _ ⟨j', o', rfl, h1, h2⟩
  exact done_ok (by rj) ⟨j', o', rfl, h2, h1⟩

theorem arrayAttr_h {α : Type} {f : α → HM (Option (PJ D))} {g : α → Res (JVal D)} (hf : ∀ x v, g x = .ok v → Makes (f x) v) (k : Bytes) (l : List α) {j : PJ D} {o : JObj (JVal D)} {ws : List (JVal D)}
    (hj : IsObj j o) (hl : resMap g l = .ok ws) :
    Hoare true j.own (arrayAttrP j k f l) (fun r => r.1.own) (fun r => r.2 = true ∧ ∃ o', jSet o k (.arr ws) = .ok o' ∧ IsObj r.1 o') := by
  unfold arrayAttrP
  refine Hoare.bind newArr_h j.own (by rj) ?_
  rintro _ ⟨b, a, rfl⟩
  dsimp only
  refine Hoare.bind (objSet_h k hj (isArr_full (isArr_new b a))) zr (by rj) ?_
  rintro _ ⟨j2, rfl, hset⟩
  dsimp only
  obtain ⟨R, hR, hw⟩ := hset.swap
  refine Hoare.bind (appendLoop_h hf l (isArr_new b a) hl) R (fun y => by have := hR y; rw [zr_at, jOwn_some, this]; omega) ?_
  rintro ⟨z1, z2⟩ ⟨rfl, h4⟩
  obtain ⟨⟨o', h5, h6⟩, h7⟩ := hw z1 (isArr_full h4)
  rw [isArr_val h4, List.nil_append] at h5
  exact Hoare.pure ⟨rfl, o', h5, h6⟩ (fun y => by dsimp only; rw [h7 y]; omega)

theorem pound_m (L : DblLib D) (st : JState D) {v : JVal D} (hv : poundSerialize L (stShown L st) = .ok v) : Makes (poundP L st) v := by
  unfold poundSerialize at hv
  cases hw : workersSerialize L (stShown L st).workers with
  | ub => rw [hw] at hv; cases hv
  | ok ws =>
    cases hl : resMap (mlstSerialize L (stShown L st).stats) (stShown L st).listeners with
    | ub => rw [hw, hl] at hv; cases hv
    | ok ls =>
      cases hs : resMap (msvcSerialize L (stShown L st).stats) (stShown L st).services with
      | ub => rw [hw, hl, hs] at hv; cases hv
      | ok ss =>
        rw [hw, hl, hs] at hv
        dsimp only at hv
        have hl' : resMap (fun x => mlstSerialize L st.stats (lstShown L x)) st.listeners = .ok ls := by rw [← resMap_comp]; exact hl
        have hs' : resMap (fun x => msvcSerialize L st.stats (svcShown L x)) st.services = .ok ss := by rw [← resMap_comp]; exact hs
        unfold Makes poundP
        refine Hoare.bind (core_h L st hw) zr (by rj) ?_
        rintro _ ⟨j, o, rfl, h1, h2⟩
        dsimp only
        refine Hoare.bind (arrayAttr_h (fun x v h => listener_m L st.stats x h) b!"listeners" st.listeners h1 hl') zr (by rj) ?_
        rintro ⟨j1, z1⟩ ⟨rfl, o1, h3, h4⟩
        rw [if_pos (by rfl)]
        refine Hoare.bind (arrayAttr_h (fun x v h => service_m L st.stats x h) b!"services" st.services h4 hs') zr (by rj) ?_
        rintro ⟨j2, z2⟩ ⟨rfl, o2, h5, h6⟩
        refine done_ok (by rj) ⟨j2, rfl, isObj_full h6, isObj_obj h6 ?_ hv⟩
        have e : ∀ (a b c d e f g : Bytes × JVal D), [a, b, c, d, e, f, g] = [a, b, c, d, e] ++ [f, g] := by intros; rfl
        rw [e]
        refine (jBuild_append _ _ h2).trans ?_
        unfold jBuild
        rw [h3]
        dsimp only
        unfold jBuild
        rw [h5]
        rfl

/-- The reply and the end of the request -/
theorem controlList_h (N : NumLib D) (i : Nat) {mk : HM (Option (PJ D))} {v : JVal D} (h : Makes mk v) :
    Hoare true zr (controlListP N (some i) mk) (fun _ => zr) (fun r => r = (200, fmtVal N i 0 v)) := by
  unfold controlListP
  refine Hoare.bind h zr (by rj) ?_
  rintro _ ⟨j, rfl, hf, rfl⟩
  dsimp only
  unfold sendJsonP
  dsimp only
  refine Hoare.bind (A1 := j.own) (R1 := fun _ => j.own) (P1 := fun r => r = (200, fmtVal N i 0 j.val)) ?_ zr (by rj) ?_
  · refine Hoare.bind (readJ_h j hf) zr (by rj) fun _ _ => ?_
    refine Hoare.bind (sbAdd_h PSb.init _) j.own (by rj) fun sb hB => ?_
    refine Hoare.bind (sbFinish_h sb) j.own (by rj) fun r hr => ?_
    have h1 := hB.1 rfl
    obtain ⟨s, h2, h3⟩ := hr.2 rfl (by rw [h1])
    rw [h2]
    dsimp only
    have h4 := (hr.1 s h2).1
    refine Hoare.bind (use_h s.blk) j.own (fun x => by rw [h4, optOwn_some]) fun _ _ => ?_
    unfold sbFreeP
    refine Hoare.bind (free_h r.1.base) j.own (fun x => by rw [h4, optOwn_some]) fun _ _ => ?_
    refine Hoare.pure ?_ (by rj)
    rw [h3, h1]
    rfl
  · rintro _ rfl
    refine Hoare.bind (freeJ_h j hf) zr (by rj) fun _ _ => ?_
    exact Hoare.pure rfl (by rj)

theorem controlBad_h (N : NumLib D) {mk : HM (Option (PJ D))} {v : JVal D} (h : Makes mk v) :
    Hoare true zr (controlListP N none mk) (fun _ => zr) (fun r => r = (400, [])) := by
  unfold controlListP
  refine Hoare.bind h zr (by rj) ?_
  rintro _ ⟨j, rfl, hf, rfl⟩
  dsimp only
  unfold sendJsonP
  dsimp only
  refine Hoare.bind (Hoare.pure (A := j.own) (R := fun _ => j.own) (P := fun r => r = (400, [])) rfl (fun _ => rfl)) zr (by rj) ?_
  rintro _ rfl
  refine Hoare.bind (freeJ_h j hf) zr (by rj) fun _ _ => ?_
  exact Hoare.pure rfl (by rj)

/-! ### When memory runs out -/

/-- Runs without faults, whatever allocations fail; memory may be lost. -/
def Safe {α : Type} (A : Rsrc) (m : HM α) (R : α → Rsrc) (P : α → Prop) : Prop :=
  ∀ (h : Mem) (F : Rsrc), h.Ok → (∀ x, A x + F x ≤ h.live.count x) → ∃ a h', m h = .ok a h' ∧ h'.Ok ∧ P a ∧ ∀ x, R a x + F x ≤ h'.live.count x

theorem Hoare.safe {α : Type} {A : Rsrc} {m : HM α} {R : α → Rsrc} {P : α → Prop} (h : Hoare false A m R P) : Safe A m R P := by
  intro h0 F hok hc
  obtain ⟨a, h', e, ok, -, q, c⟩ := h h0 (fun x => h0.live.count x - A x) hok (fun h => by cases h) (fun x => by have := hc x; omega)
  exact ⟨a, h', e, ok, q, fun x => by have := c x; have := hc x; omega⟩

theorem Safe.pure {α : Type} {A : Rsrc} {a : α} {R : α → Rsrc} {P : α → Prop} (hp : P a) (hA : ∀ x, R a x ≤ A x) : Safe A (Pure.pure a : HM α) R P :=
  fun m _ hok hc => ⟨a, m, rfl, hok, hp, fun x => by have := hc x; have := hA x; omega⟩

theorem Safe.bind {α β : Type} {A A1 : Rsrc} {m : HM α} {f : α → HM β} {R1 : α → Rsrc} {P1 : α → Prop} {R : β → Rsrc} {P : β → Prop}
    (h1 : Safe A1 m R1 P1) (C : Rsrc) (hA : ∀ x, A1 x + C x ≤ A x) (h2 : ∀ a, P1 a → Safe (fun x => R1 a x + C x) (f a) R P) : Safe A (m >>= f) R P := by
  intro h F hok hc
  obtain ⟨a, h', e1, ok1, q1, c1⟩ := h1 h (fun x => C x + F x) hok (fun x => by have := hc x; have := hA x; omega)
  obtain ⟨b, h'', e2, ok2, q2, c2⟩ := h2 a q1 h' F ok1 (fun x => by have := c1 x; show R1 a x + C x + F x ≤ _; omega)
  refine ⟨b, h'', ?_, ok2, q2, c2⟩
  show (match m h with | .ok a h' => f a h' | .null => .null | .bad => .bad) = _
  rw [e1]
  exact e2

theorem Safe.pre {α : Type} {A A' : Rsrc} {m : HM α} {R : α → Rsrc} {P : α → Prop} (h : Safe A m R P) (hA : ∀ x, A x ≤ A' x) : Safe A' m R P :=
  fun m' F hok hc => h m' F hok (fun x => by have := hc x; have := hA x; omega)

theorem Safe.post {α : Type} {A : Rsrc} {m : HM α} {R : α → Rsrc} {P P' : α → Prop} (h : Safe A m R P) (hp : ∀ a, P a → P' a) : Safe A m R P' := by
  intro m' F hok hc
  obtain ⟨a, h', e, ok, q, c⟩ := h m' F hok hc
  exact ⟨a, h', e, ok, hp a q, c⟩

/-- What is made, if anything, is the value. -/
def Tries (mk : HM (Option (PJ D))) (v : JVal D) : Prop := Safe zr mk jOwn (fun r => ∀ j, r = some j → j.Full ∧ j.val = v)

theorem newLeaf_t {v : JVal D} : Tries (newLeafP v) v := by
  unfold Tries newLeafP
  refine Safe.bind alloc_h.safe zr (fun x => Nat.le_refl _) fun p _ => ?_
  cases p with
  | none => exact Safe.pure (fun j h => by cases h) (fun x => Nat.zero_le _)
  | some b => exact Safe.pure (fun j h => by cases h; exact ⟨by simp [PJ.Full], by rw [PJ.val]⟩) (by intro x; simp only [Option.map_some]; revert x; rj)

theorem newStr_t (s : Bytes) : Tries (newStrP s : HM (Option (PJ D))) (.str s) := by
  unfold Tries newStrP
  refine Safe.bind alloc_h.safe zr (fun x => Nat.le_refl _) fun p _ => ?_
  cases p with
  | none => exact Safe.pure (fun j h => by cases h) (fun x => Nat.zero_le _)
  | some b =>
    dsimp only
    refine Safe.bind (dupS_h s).safe (one b) (by rj) fun q hq => ?_
    cases q with
    | none =>
      dsimp only
      refine Safe.bind (free_h (some b)).safe zr (by rj) fun _ _ => ?_
      exact Safe.pure (fun j h => by cases h) (fun x => Nat.zero_le _)
    | some q => exact Safe.pure (fun j h => by cases h; exact ⟨by simp [PJ.Full], by rw [PJ.val, hq.1 q rfl]⟩) (by rj)

theorem newVal_t (v : JVal D) : Tries (newValP v) v := by
  cases v <;> first | exact newStr_t _ | exact newLeaf_t

theorem newObj_t : Safe zr (newObjP : HM (Option (PJ D))) jOwn (fun r => ∀ j, r = some j → IsObj j jNew) := by
  unfold newObjP
  refine Safe.bind alloc_h.safe zr (fun x => Nat.le_refl _) fun p _ => ?_
  cases p with
  | none => exact Safe.pure (fun j h => by cases h) (fun x => Nat.zero_le _)
  | some b =>
    dsimp only
    refine Safe.bind alloc_h.safe (one b) (by rj) fun p _ => ?_
    cases p with
    | none =>
      dsimp only
      refine Safe.bind (free_h (some b)).safe zr (by rj) fun _ _ => ?_
      exact Safe.pure (fun j h => by cases h) (fun x => Nat.zero_le _)
    | some o =>
      refine Safe.pure (fun j h => ?_) (by rj)
      cases h
      exact ⟨b, o, [], rfl, jinv_new, by simp [PJ.PFulls], by rw [PJ.pvals]; rfl⟩

def TriesAll : List (Bytes × HM (Option (PJ D))) → List (Bytes × JVal D) → Prop
  | [], [] => True
  | (k, mk) :: r, (k', v) :: s => k = k' ∧ Tries mk v ∧ TriesAll r s
  | _, _ => False

theorem triesAll_attrs (l : List (Bytes × JVal D)) : TriesAll (attrsP l) l := by
  induction l with
  | nil => trivial
  | cons a l ih =>
    obtain ⟨k, v⟩ := a
    exact ⟨rfl, newVal_t v, ih⟩

theorem triesAll_append {r1 r2 : List (Bytes × HM (Option (PJ D)))} {s1 s2 : List (Bytes × JVal D)} (h1 : TriesAll r1 s1) (h2 : TriesAll r2 s2) : TriesAll (r1 ++ r2) (s1 ++ s2) := by
  induction r1 generalizing s1 with
  | nil => cases s1 with
    | nil => exact h2
    | cons => exact h1.elim
  | cons a r1 ih =>
    obtain ⟨k, mk⟩ := a
    cases s1 with
    | nil => exact h1.elim
    | cons b s1 =>
      obtain ⟨k', v⟩ := b
      exact ⟨h1.1, h1.2.1, ih h1.2.2⟩

/-- There is an object; if nothing failed, it has all the attributes. -/
def SetSome (vals : List (Bytes × JVal D)) (o : JObj (JVal D)) (r : Option (PJ D) × Bool) : Prop := ∃ j' o', r.1 = some j' ∧ IsObj j' o' ∧ (r.2 = true → jBuild vals o = .ok o')

theorem objSet_t {j : PJ D} {v : Option (PJ D)} {w : JVal D} {o : JObj (JVal D)} (k : Bytes) (hj : IsObj j o) (hv : ∀ j, v = some j → j.Full ∧ j.val = w) :
    Safe (fun x => j.own x + jOwn v x) (objSetP (some j) k v) (fun r => jOwn r.1) (SetSome [(k, w)] o) := by
  cases v with
  | none =>
    obtain ⟨b, ob, l, rfl, hi, hf, hp⟩ := hj
    unfold objSetP
    dsimp only
    refine Safe.bind (use_h b).safe (fun x => one ob x + PJ.powns l x) (by rj) fun _ _ => ?_
    exact Safe.pure ⟨_, o, rfl, ⟨b, ob, l, rfl, hi, hf, hp⟩, fun h => by cases h⟩ (by rj)
  | some v =>
    obtain ⟨h1, rfl⟩ := hv v rfl
    intro h F hok hc
    obtain ⟨a, h', e, ok, q, c⟩ := (objSet_g (nf := false) k hj h1).safe h F hok hc
    refine ⟨a, h', e, ok, ?_, fun x => ?_⟩
    · rcases q with ⟨j', rfl, hs⟩ | ⟨-, j', rfl, hi⟩
      · obtain ⟨o', h2, h3⟩ := hs.sets
        refine ⟨j', o', rfl, h3, fun _ => ?_⟩
        unfold jBuild
        rw [h2]
        rfl
      · exact ⟨j', o, rfl, hi, fun h => by cases h⟩
    · have := c x
      unfold setOwn at this
      show jOwn a.1 x + F x ≤ _
      omega

theorem setAll_t : ∀ {items : List (Bytes × HM (Option (PJ D)))} {vals : List (Bytes × JVal D)} {j : PJ D} {o : JObj (JVal D)}, TriesAll items vals → IsObj j o →
    Safe j.own (setAllP (some j) items) (fun r => jOwn r.1) (SetSome vals o) ∧ Safe j.own (setEachP (some j) items) (fun r => jOwn r.1) (SetSome vals o)
  | [], [], j, o, _, hj => by
    unfold setAllP setEachP
    exact ⟨Safe.pure ⟨j, o, rfl, hj, fun _ => rfl⟩ (by rj), Safe.pure ⟨j, o, rfl, hj, fun _ => rfl⟩ (by rj)⟩
  | [], _ :: _, _, _, h, _ => h.elim
  | _ :: _, [], _, _, h, _ => h.elim
  | (k, mk) :: r, (k', v) :: s, j, o, h, hj => by
    obtain ⟨rfl, hm, hr⟩ := h
    unfold setAllP setEachP
    constructor
    all_goals
      refine Safe.bind hm j.own (by rj) fun q hq => ?_
      refine Safe.bind (objSet_t k hj hq) zr (by rj) ?_
      rintro ⟨y1, y2⟩ ⟨j', o', rfl, h1, h2⟩
      have ih := setAll_t hr h1
    · dsimp only
      cases y2 with
      | false => exact Safe.pure ⟨j', o', rfl, h1, fun h => by cases h⟩ (by rj)
      | true =>
        rw [if_pos rfl]
        refine (ih.1.pre (by rj)).post ?_
        rintro ⟨z1, z2⟩ ⟨j'', o'', rfl, h3, h4⟩
        exact ⟨j'', o'', rfl, h3, fun h => (jBuild_append [(k, v)] s (h2 rfl)).trans (h4 h)⟩
    · dsimp only
      refine Safe.bind ih.2 zr (by rj) ?_
      rintro ⟨z1, z2⟩ ⟨j'', o'', rfl, h3, h4⟩
      refine Safe.pure ⟨j'', o'', rfl, h3, fun h => ?_⟩ (by rj)
      dsimp only at h
      rw [Bool.and_eq_true] at h
      exact (jBuild_append [(k, v)] s (h2 h.1)).trans (h4 h.2)

theorem done_t {vals : List (Bytes × JVal D)} {v : JVal D} {r : Option (PJ D) × Bool} (h : SetSome vals jNew r) (hv : jObject vals = .ok v) :
    Safe (jOwn r.1) (doneP r) jOwn (fun r => ∀ j, r = some j → j.Full ∧ j.val = v) := by
  obtain ⟨r1, r2⟩ := r
  obtain ⟨j, o, rfl, h1, h2⟩ := h
  unfold doneP
  cases r2 with
  | false =>
    rw [if_neg (by intro h; cases h)]
    dsimp only
    refine Safe.bind (freeJ_h j (isObj_full h1)).safe zr (by rj) fun _ _ => ?_
    exact Safe.pure (fun j h => by cases h) (fun x => Nat.zero_le _)
  | true =>
    rw [if_pos (by rfl)]
    refine Safe.pure (fun j' h => ?_) (by rj)
    cases h
    exact ⟨isObj_full h1, isObj_obj h1 (h2 rfl) hv⟩

theorem makeObj_t {items : List (Bytes × HM (Option (PJ D)))} {vals : List (Bytes × JVal D)} {v : JVal D} (h : TriesAll items vals) (hv : jObject vals = .ok v) :
    Tries (do
      let o ← newObjP
      match o with
      | none => pure none
      | some o => do
        let x ← setAllP (some o) items
        doneP x) v := by
  refine Safe.bind newObj_t zr (by rj) fun o ho => ?_
  cases o with
  | none => exact Safe.pure (fun j h => by cases h) (fun x => Nat.zero_le _)
  | some j =>
    dsimp only
    refine Safe.bind (setAll_t h (ho j rfl)).1 zr (by rj) fun r hr => ?_
    exact (done_t hr hv).pre (fun x => by rw [zr_at]; omega)

theorem workers_t (L : DblLib D) (w : MWorkers) {v : JVal D} (hv : workersSerialize L w = .ok v) : Tries (workersP L w) v := makeObj_t (triesAll_attrs _) hv

theorem core_t (L : DblLib D) (st : JState D) {ws v : JVal D} (hw : workersSerialize L st.workers = .ok ws)
    (hv : jObject [(b!"version", .str st.version), (b!"pid", .int (L.ofInt st.pid)), (b!"timestamp", .str st.timestamp), (b!"queue_len", .int (L.ofInt st.queueLen)), (b!"workers", ws)] = .ok v) :
    Tries (coreP L st) v :=
  makeObj_t (triesAll_append (triesAll_attrs [_, _, _, _]) (r2 := [(b!"workers", workersP L st.workers)]) (s2 := [(b!"workers", ws)]) ⟨rfl, workers_t L st.workers hw, trivial⟩) hv

theorem backend_t (L : DblLib D) (b : MBe D) {v : JVal D} (hv : mbeSerialize L false b = .ok v) : Tries (backendP L false b) v := by
  unfold Tries backendP
  unfold mbeSerialize at hv
  dsimp only at hv
  rw [if_neg (by simp)] at hv
  refine Safe.bind newObj_t zr (by rj) fun o ho => ?_
  cases o with
  | none => exact Safe.pure (fun j h => by cases h) (fun x => Nat.zero_le _)
  | some j =>
    dsimp only
    refine Safe.bind (setAll_t (triesAll_attrs _) (ho j rfl)).1 zr (by rj) ?_
    rintro ⟨x1, x2⟩ ⟨j1, o1, rfl, h1, h2⟩
    cases x2 with
    | false =>
      rw [if_neg (by intro h; cases h)]
      exact (done_t (vals := _) ⟨j1, o1, rfl, h1, fun h => by cases h⟩ hv).pre (fun x => by rw [zr_at]; omega)
    | true =>
      rw [if_pos (by rfl)]
      dsimp only
      refine Safe.bind (setAll_t (triesAll_attrs _) h1).1 zr (by rj) ?_
      rintro ⟨y1, y2⟩ ⟨j2, o2, rfl, h3, h4⟩
      rw [if_neg (by simp)]
      refine (done_t (r := (some j2, y2)) ⟨j2, o2, rfl, h3, fun h => ?_⟩ hv).pre (fun x => by rw [zr_at]; omega)
      refine Eq.trans ?_ (h4 h)
      exact jBuild_append [_, _, _, _] _ (h2 rfl)

/-- The reply: whole, or an error -/
theorem controlList_t (N : NumLib D) (i : Nat) {mk : HM (Option (PJ D))} {v : JVal D} (h : Tries mk v) :
    Safe zr (controlListP N (some i) mk) (fun _ => zr) (fun r => r = (200, fmtVal N i 0 v) ∨ r = (500, [])) := by
  unfold controlListP
  refine Safe.bind h zr (by rj) fun q hq => ?_
  cases q with
  | none => exact Safe.pure (.inr rfl) (fun x => Nat.zero_le _)
  | some j =>
    obtain ⟨hf, rfl⟩ := hq j rfl
    dsimp only
    unfold sendJsonP
    dsimp only
    refine Safe.bind (A1 := j.own) (R1 := fun _ => j.own) (P1 := fun r => r = (200, fmtVal N i 0 j.val) ∨ r = (500, [])) ?_ zr (by rj) ?_
    · refine Safe.bind (readJ_h j hf).safe zr (by rj) fun _ _ => ?_
      refine Safe.bind (sbAdd_h PSb.init _).safe j.own (by rj) fun sb hB => ?_
      refine Safe.bind (sbFinish_h sb).safe j.own (by rj) fun r hr => ?_
      cases h2 : r.2 with
      | none =>
        dsimp only
        unfold sbFreeP
        refine Safe.bind (free_h r.1.base).safe j.own (by rj) fun _ _ => ?_
        exact Safe.pure (.inr rfl) (by rj)
      | some s =>
        dsimp only
        obtain ⟨h4, h5, h6⟩ := hr.1 s h2
        refine Safe.bind (use_h s.blk).safe j.own (fun x => by rw [h4, optOwn_some]; omega) fun _ _ => ?_
        unfold sbFreeP
        refine Safe.bind (free_h r.1.base).safe j.own (fun x => by rw [h4, optOwn_some]; omega) fun _ _ => ?_
        refine Safe.pure (.inl ?_) (by rj)
        rw [h5, (hB.2 h6).2]
        rfl
    · intro r hr
      refine Safe.bind (freeJ_h j hf).safe zr (by rj) fun _ _ => ?_
      exact Safe.pure hr (by rj)

end Pound
