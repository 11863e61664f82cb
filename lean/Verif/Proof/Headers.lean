import Verif.Model.Headers
import Verif.Spec.Headers
import Verif.Proof.Request
import Verif.Proof.Framing

namespace Pound
open Spec

theorem ciEq_refl (a : Bytes) : ciEq a a = true := by simp [ciEq]
theorem ciEq_symm {a b : Bytes} (h : ciEq a b = true) : ciEq b a = true :=
  ciEq_iff.2 (ciEq_iff.1 h).symm
theorem ciEq_trans {a b c : Bytes} (h : ciEq a b = true) (h' : ciEq b c = true) : ciEq a c = true :=
  ciEq_iff.2 ((ciEq_iff.1 h).trans (ciEq_iff.1 h'))
theorem ciEq_congr {a b c : Bytes} (h : ciEq a b = true) : ciEq a c = ciEq b c := by
  simp only [ciEq, ciEq_iff.1 h]
theorem ciEq_comm (a b : Bytes) : ciEq a b = ciEq b a := by
  cases h : ciEq b a with
  | true => exact ciEq_symm h
  | false =>
    cases h' : ciEq a b with
    | false => rfl
    | true => rw [ciEq_symm h'] at h; cases h

instance (c : UInt8) : Decidable (TChar c) := by unfold TChar; infer_instance

theorem isTChar_iff : ∀ c, isTChar c = true ↔ TChar c := by
  apply forall_byte; decide +kernel

theorem colon_not_tchar : isTChar ch%':' = false := by decide

theorem isTChar_notColon : ∀ c, isTChar c = true → notColon c = true := by
  apply forall_byte; decide +kernel

/-- What the match of a header line gives. -/
theorem headerMatch_of_line {t n v : Bytes} (h : HeaderLine t n v) :
    ∃ vs, headerMatch t = some (n.length, vs) ∧ t.take n.length = n ∧ t.drop vs = v ∧
      vs + v.length = t.length ∧ n.length + 1 ≤ vs ∧ n ≠ [] := by
  obtain ⟨ws, rfl, hn, htc, hws, hv⟩ := h
  have e1 : (n ++ ch%':' :: (ws ++ v)).takeWhile isTChar = n :=
    takeWhile_app (fun c hc => (isTChar_iff c).2 (htc c hc))
      (by intro c t h; injection h with h _; subst h; rfl)
  have e2 : (ws ++ v).takeWhile isWs = ws :=
    takeWhile_app (fun c hc => (isWs_iff c).2 (hws c hc))
      (by
        intro c t h
        have := hv c (by rw [h]; rfl)
        cases hw : isWs c with
        | false => rfl
        | true => rcases (isWs_iff c).1 hw with h | h <;> simp_all)
  have hl : n.length > 0 := length_pos hn
  refine ⟨n.length + 1 + ws.length, ?_, by simp, ?_, by simp; omega, by omega, hn⟩
  · unfold headerMatch
    simp only [e1, List.drop_left]
    simp [hl, e2]
  · rw [show n.length + 1 + ws.length = n.length + (1 + ws.length) from by omega, ← List.drop_drop,
      List.drop_left, ← List.drop_drop]
    simp

theorem line_of_headerMatch {t : Bytes} {ne vs : Nat} (h : headerMatch t = some (ne, vs)) :
    HeaderLine t (t.take ne) (t.drop vs) := by
  unfold headerMatch at h
  obtain ⟨b, h1, h2, -, h3, h4⟩ := takeWhile_split isTChar t
  simp only [← h2] at h
  cases b with
  | nil => simp at h
  | cons c rest =>
    simp only at h
    split at h
    · rename_i hc
      obtain ⟨hpos, rfl⟩ := hc
      injection h with h
      injection h with ha hb
      subst ha hb
      obtain ⟨b', k1, k2, -, k3, k4⟩ := takeWhile_split isWs rest
      refine ⟨rest.takeWhile isWs, ?_, ?_, ?_, ?_, ?_⟩
      · have ht : t.take (t.takeWhile isTChar).length = t.takeWhile isTChar := by
          conv => lhs; arg 2; rw [h1]
          simp
        have hd : t.drop ((t.takeWhile isTChar).length + 1 + (rest.takeWhile isWs).length) = b' := by
          rw [show (t.takeWhile isTChar).length + 1 + (rest.takeWhile isWs).length =
            (t.takeWhile isTChar).length + (1 + (rest.takeWhile isWs).length) from by omega,
            ← List.drop_drop, ← h2, ← List.drop_drop]
          simp only [List.drop_succ_cons, List.drop_zero]
          exact k2.symm
        rw [ht, hd, ← k1, ← h1]
      · intro h0
        rw [show t.take (t.takeWhile isTChar).length = t.takeWhile isTChar by
          conv => lhs; arg 2; rw [h1]
          simp] at h0
        rw [h0] at hpos; simp at hpos
      · intro c hc
        have ht : t.take (t.takeWhile isTChar).length = t.takeWhile isTChar := by
          conv => lhs; arg 2; rw [h1]
          simp
        rw [ht] at hc
        exact (isTChar_iff c).1 (h4 c hc)
      · intro c hc; exact (isWs_iff c).1 (k4 c hc)
      · have hd : t.drop ((t.takeWhile isTChar).length + 1 + (rest.takeWhile isWs).length) = b' := by
          rw [show (t.takeWhile isTChar).length + 1 + (rest.takeWhile isWs).length =
            (t.takeWhile isTChar).length + (1 + (rest.takeWhile isWs).length) from by omega,
            ← List.drop_drop, ← h2, ← List.drop_drop]
          simp only [List.drop_succ_cons, List.drop_zero]
          exact k2.symm
        rw [hd]
        intro c hc
        cases hb : b' with
        | nil => rw [hb] at hc; simp at hc
        | cons x y =>
          rw [hb] at hc; simp at hc; subst hc
          have := k3 x y hb
          constructor <;> (intro hx; subst hx; simp [isWs] at this)
    · cases h

theorem line_unique {t n v n' v' : Bytes} (h : HeaderLine t n v) (h' : HeaderLine t n' v') :
    n = n' ∧ v = v' := by
  obtain ⟨vs, a1, a2, a3, -⟩ := headerMatch_of_line h
  obtain ⟨vs', b1, b2, b3, -⟩ := headerMatch_of_line h'
  rw [a1] at b1
  injection b1 with b1
  injection b1 with c1 c2
  subst c2
  exact ⟨by rw [← a2, ← b2, c1], by rw [← a3, ← b3]⟩

theorem hdTypes_legal : ∀ t ∈ hdTypes, t.2 ≠ .illegal := by decide

/-- A header whose fields describe its text. -/
def Good (h : Header) : Prop :=
  h.code ≠ .illegal ∧ h.nameStart = 0 ∧ h.valEnd = h.text.length ∧
    headerMatch h.text = some (h.nameEnd, h.valStart)

theorem qualify_good {h : Header} {n v : Bytes} (hl : HeaderLine h.text n v) :
    Good (qualify h) ∧ (qualify h).text = h.text := by
  obtain ⟨vs, a1, a2, a3, -⟩ := headerMatch_of_line hl
  unfold qualify
  simp only [a1]
  refine ⟨⟨?_, rfl, rfl, a1⟩, trivial⟩
  simp only
  split
  · rename_i t ht; exact hdTypes_legal t (List.mem_of_find?_eq_some ht)
  · simp

theorem qualify_illegal {h : Header} : (qualify h).code = .illegal ↔ ¬ ∃ n v, HeaderLine h.text n v := by
  constructor
  · rintro hc ⟨n, v, hl⟩
    exact (qualify_good hl).1.1 hc
  · intro hn
    unfold qualify
    cases hm : headerMatch h.text with
    | none => rfl
    | some p => exact absurd ⟨_, _, line_of_headerMatch hm⟩ hn

theorem Good.line {h : Header} (hg : Good h) : HeaderLine h.text h.name h.rawValue := by
  obtain ⟨_, h1, h2, h3⟩ := hg
  have := line_of_headerMatch h3
  unfold Header.name Header.rawValue
  rw [h1, h2]
  simp only [List.drop_zero, Nat.sub_zero]
  rwa [List.take_of_length_le (l := h.text.drop h.valStart) (by simp)]

theorem Good.value {h : Header} (hg : Good h) : h.value = .ok h.rawValue := by
  obtain ⟨vs, a1, a2, a3, a4, a5, a6⟩ := headerMatch_of_line hg.line
  obtain ⟨_, h1, h2, h3⟩ := hg
  rw [h3] at a1
  injection a1 with a1
  injection a1 with _ a1
  unfold Header.value Header.rawValue
  rw [if_pos ⟨by omega, by omega⟩]

theorem Good.name_of {h : Header} (hg : Good h) {n v : Bytes} (hl : HeaderLine h.text n v) :
    h.name = n ∧ h.rawValue = v := line_unique hg.line hl

theorem Good.named {h : Header} (hg : Good h) (n : Bytes) :
    Named h.text n ↔ ciEq h.name n = true := by
  constructor
  · rintro ⟨n', v', h1, h2⟩
    rw [(hg.name_of h1).1]; exact h2
  · intro hc; exact ⟨_, _, hg.line, hc⟩

theorem takeWhile_notColon {t n v : Bytes} (h : HeaderLine t n v) : t.takeWhile notColon = n := by
  obtain ⟨ws, rfl, hn, htc, -⟩ := h
  exact takeWhile_app (fun c hc => isTChar_notColon c ((isTChar_iff c).2 (htc c hc)))
    (by intro c t h; injection h with h _; subst h; rfl)

/-- Either no header has the name, or the list is cut at the first one that has. -/
theorem locate_split (hs : List Header) (text n : Bytes) (hn : text.takeWhile notColon = n) :
    (locateName hs text = none ∧ ∀ h ∈ hs, ciEq h.name n = false) ∨
    ∃ a h b, hs = a ++ h :: b ∧ locateName hs text = some a.length ∧
      (∀ h ∈ a, ciEq h.name n = false) ∧ ciEq h.name n = true := by
  have hp : ∀ h : Header, (h.name.length == n.length && ciEq h.name n) = ciEq h.name n := by
    intro h
    cases hc : ciEq h.name n with
    | false => simp
    | true => simp [ciEq_length hc]
  unfold locateName
  simp only [hn, hp]
  induction hs with
  | nil => left; simp
  | cons x t ih =>
    cases hx : ciEq x.name n with
    | true =>
      right
      refine ⟨[], x, t, rfl, ?_, by simp, hx⟩
      simp [List.findIdx_cons, hx]
    | false =>
      rcases ih with ⟨h1, h2⟩ | ⟨a, h, b, h1, h2, h3, h4⟩
      · left
        constructor
        · simp only [List.findIdx_cons, hx, cond_false, List.length_cons]
          split at h1
          · cases h1
          · rw [if_neg (by omega)]
        · intro y hy
          rcases List.mem_cons.1 hy with rfl | hy
          · exact hx
          · exact h2 y hy
      · right
        refine ⟨x :: a, h, b, by simp [h1], ?_, ?_, h4⟩
        · simp only [List.findIdx_cons, hx, cond_false, List.length_cons]
          split at h2
          · injection h2 with h2
            rw [if_pos (by omega), h2]
          · cases h2
        · intro y hy
          rcases List.mem_cons.1 hy with rfl | hy
          · exact hx
          · exact h3 y hy

theorem set_mid {α} (a : List α) (x y : α) (b : List α) : (a ++ x :: b).set a.length y = a ++ y :: b := by
  induction a with
  | nil => rfl
  | cons z a ih => simp [ih]

theorem get_mid {α} (a : List α) (x : α) (b : List α) : (a ++ x :: b)[a.length]? = some x := by simp

def toHow : HMode → HowAdd
  | .keep => .keep | .replace => .replace | .append => .append

theorem alloc_good {t n v : Bytes} (h : HeaderLine t n v) :
    Good (headerAlloc t) ∧ (headerAlloc t).text = t := qualify_good (h := ⟨t, .other, 0, 0, 0, 0⟩) h

theorem change_good {h : Header} {t n v : Bytes} (hl : HeaderLine t n v) :
    Good (h.change t) ∧ (h.change t).text = t := qualify_good (h := { h with text := t }) hl

theorem append_good {h : Header} (hg : Good h) {text n v : Bytes} (hl : HeaderLine text n v)
    (hn : ciEq h.name n = true) (hv : h.rawValue ≠ []) :
    ∃ t' ws, appendText h text = .ok t' ∧
      HeaderLine t' h.name (h.rawValue ++ ch%',' :: (ws ++ v)) ∧ ∀ c ∈ ws, c = 32 ∨ c = 9 := by
  have hlen := ciEq_length hn
  obtain ⟨ws0, e0, n0, tc0, w0, v0⟩ := hg.line
  obtain ⟨ws1, e1, n1, tc1, w1, v1⟩ := hl
  have hne : h.nameEnd = n.length := by
    obtain ⟨vs, a1, -⟩ := headerMatch_of_line hg.line
    rw [hg.2.2.2] at a1
    injection a1 with a1
    injection a1 with a1
    omega
  have hdrop : text.drop (h.nameEnd + 1) = ws1 ++ v := by
    rw [hne, e1, ← List.drop_drop, List.drop_left]; rfl
  have htake : h.text.take (h.valEnd - h.nameStart) = h.text := by
    rw [hg.2.1, hg.2.2.1]; simp
  have hle : h.nameEnd + 1 ≤ text.length := by rw [hne, e1]; simp
  let sp : Bytes := (match ws1 ++ v with | c :: _ => if isSpace c then [] else b!" " | [] => b!" ")
  have hsp : ∀ c ∈ sp, c = 32 ∨ c = 9 := by
    intro c hc
    have : sp = [] ∨ sp = b!" " := by
      show (match ws1 ++ v with | c :: _ => if isSpace c then [] else b!" " | [] => b!" ") = [] ∨
        (match ws1 ++ v with | c :: _ => if isSpace c then [] else b!" " | [] => b!" ") = b!" "
      split
      · split <;> simp
      · simp
    rcases this with h | h
    · rw [h] at hc; cases hc
    · rw [h] at hc; simp at hc; left; exact hc
  refine ⟨h.text ++ b!"," ++ sp ++ (ws1 ++ v), sp ++ ws1, ?_, ?_, ?_⟩
  · unfold appendText
    rw [if_pos hle, hdrop, htake]
    rfl
  · refine ⟨ws0, ?_, n0, tc0, w0, ?_⟩
    · conv => lhs; rw [e0]
      simp
    · intro c hc
      cases hr : h.rawValue with
      | nil => exact absurd hr hv
      | cons x y => rw [hr] at hc; exact v0 c (by rw [hr]; simpa using hc)
  · intro c hc
    rcases List.mem_append.1 hc with hc | hc
    · exact hsp c hc
    · exact w1 c hc

theorem listAppend_spec {hs : List Header} (hg : ∀ h ∈ hs, Good h) {text n v : Bytes}
    (hl : HeaderLine text n v) (m : HMode) :
    ∃ hs', listAppend hs text m = .ok (0, hs') ∧ (∀ h ∈ hs', Good h) ∧
      Adds text n v (hs.map (·.text)) (hs'.map (·.text)) (toHow m) := by
  rcases locate_split hs text n (takeWhile_notColon hl) with ⟨h1, h2⟩ | ⟨a, h, b, rfl, h2, h3, h4⟩
  · refine ⟨hs ++ [headerAlloc text], ?_, ?_, ?_⟩
    · unfold listAppend
      simp only [h1]
      rw [if_neg (alloc_good hl).1.1]
    · intro h hh
      rcases List.mem_append.1 hh with hh | hh
      · exact hg h hh
      · simp at hh; rw [hh]; exact (alloc_good hl).1
    · simp only [List.map_append, List.map_cons, List.map_nil, (alloc_good hl).2]
      apply Adds.new
      intro t ht
      obtain ⟨h, hh, rfl⟩ := List.mem_map.1 ht
      rw [(hg h hh).named, h2 h hh]; simp
  · have hga : ∀ t ∈ a.map (·.text), ¬ Named t n := by
      intro t ht
      obtain ⟨x, hx, rfl⟩ := List.mem_map.1 ht
      rw [(hg x (by simp [hx])).named, h3 x hx]; simp
    have hgh := hg h (by simp)
    have hnh : Named h.text n := (hgh.named n).2 h4
    have good' : ∀ t', (∃ n v, HeaderLine t' n v) → ∀ x ∈ a ++ h.change t' :: b, Good x := by
      rintro t' ⟨n', v', hl'⟩ x hx
      rcases List.mem_append.1 hx with hx | hx
      · exact hg x (by simp [hx])
      · rcases List.mem_cons.1 hx with rfl | hx
        · exact (change_good hl').1
        · exact hg x (by simp [hx])
    unfold listAppend
    simp only [h2, get_mid]
    cases m with
    | keep =>
      refine ⟨_, rfl, hg, ?_⟩
      simp only [List.map_append, List.map_cons]
      exact Adds.keep hga hnh
    | replace =>
      refine ⟨a ++ h.change text :: b, by simp only [set_mid], good' _ ⟨_, _, hl⟩, ?_⟩
      simp only [List.map_append, List.map_cons, (change_good hl).2]
      exact Adds.replace hga hnh
    | append =>
      simp only [hgh.value]
      cases hv : h.rawValue with
      | nil =>
        refine ⟨a ++ h.change text :: b, by simp only [set_mid], good' _ ⟨_, _, hl⟩, ?_⟩
        simp only [List.map_append, List.map_cons, (change_good hl).2]
        exact Adds.fill hga (hv ▸ hgh.line) h4
      | cons x y =>
        have hv' : h.rawValue ≠ [] := by rw [hv]; simp
        obtain ⟨t', ws, p1, p2, p3⟩ := append_good hgh hl h4 hv'
        refine ⟨a ++ h.change t' :: b, by simp only [p1, set_mid], good' _ ⟨_, _, p2⟩, ?_⟩
        simp only [List.map_append, List.map_cons, (change_good p2).2]
        exact Adds.append hga hgh.line h4 hv' p2 p3

/-! ### Token lists -/

theorem rtrim_spec (s : Bytes) : ∃ r, s = rtrim s ++ r ∧ (∀ c ∈ r, isSpace c = true) ∧
    ∀ c, (rtrim s).getLast? = some c → isSpace c = false := by
  obtain ⟨b, h1, h2, h5, h3, h4⟩ := takeWhile_split isSpace s.reverse
  refine ⟨(s.reverse.takeWhile isSpace).reverse, ?_, ?_, ?_⟩
  · unfold rtrim
    rw [← List.reverse_append, ← h5, ← h1, List.reverse_reverse]
  · intro c hc; exact h4 c (by simpa using hc)
  · intro c hc
    unfold rtrim at hc
    rw [← h5] at hc
    cases b with
    | nil => simp at hc
    | cons x y => simp at hc; subst hc; exact h3 x y rfl

theorem trims_unique {b a a' : Bytes} (h : Trims b a) (h' : Trims b a') : a = a' := by
  obtain ⟨l, r, e, hl, hr, ha, hz⟩ := h
  obtain ⟨l', r', e', hl', hr', ha', hz'⟩ := h'
  by_cases he : a = [] ∨ a' = []
  · have hsp : ∀ c ∈ b, isSpace c = true := by
      rcases he with he | he
      · intro c hc; rw [e, he] at hc; simp at hc
        rcases hc with hc | hc
        · exact hl c hc
        · exact hr c hc
      · intro c hc; rw [e', he] at hc; simp at hc
        rcases hc with hc | hc
        · exact hl' c hc
        · exact hr' c hc
    have hn : ∀ x : Bytes, (∀ c ∈ x, c ∈ b) → (∀ c, x.head? = some c → isSpace c = false) → x = [] := by
      intro x hx hh
      cases x with
      | nil => rfl
      | cons c t =>
        have h1 := hh c rfl
        rw [hsp c (hx c (by simp))] at h1; cases h1
    rw [hn a (by intro c hc; rw [e]; simp [hc]) ha, hn a' (by intro c hc; rw [e']; simp [hc]) ha']
  · have hane : a ≠ [] := fun h => he (Or.inl h)
    have hane' : a' ≠ [] := fun h => he (Or.inr h)
    have d1 : b.dropWhile isSpace = a ++ r := by
      rw [e, List.append_assoc]
      apply dropWhile_app hl
      intro c t h
      cases a with
      | nil => exact absurd rfl hane
      | cons x y => injection h with h _; subst h; exact ha x rfl
    have d2 : b.dropWhile isSpace = a' ++ r' := by
      rw [e', List.append_assoc]
      apply dropWhile_app hl'
      intro c t h
      cases a' with
      | nil => exact absurd rfl hane'
      | cons x y => injection h with h _; subst h; exact ha' x rfl
    have rev : ∀ (x y : Bytes), x ≠ [] → (∀ c ∈ y, isSpace c = true) →
        (∀ c, x.getLast? = some c → isSpace c = false) →
        (x ++ y).reverse.dropWhile isSpace = x.reverse := by
      intro x y hx hy hl
      rw [List.reverse_append]
      apply dropWhile_app
      · intro c hc; exact hy c (by simpa using hc)
      · intro c t h
        apply hl
        rw [List.getLast?_eq_head?_reverse, h]; rfl
    have := rev a r hane hr hz
    rw [← d1, d2, rev a' r' hane' hr' hz'] at this
    exact (List.reverse_inj.1 this).symm

theorem trims_exists (b : Bytes) : Trims b (rtrim (b.dropWhile isSpace)) := by
  obtain ⟨d, h1, h2, h5, h3, h4⟩ := takeWhile_split isSpace b
  obtain ⟨r, e1, e2, e3⟩ := rtrim_spec (b.dropWhile isSpace)
  refine ⟨b.takeWhile isSpace, r, ?_, h4, e2, ?_, e3⟩
  · rw [List.append_assoc, ← e1, ← h5, ← h1]
  · intro c hc
    cases hr : rtrim (b.dropWhile isSpace) with
    | nil => rw [hr] at hc; cases hc
    | cons x y =>
      rw [hr] at hc e1
      simp at hc
      subst hc
      exact h3 x (y ++ r) (by rw [h5, e1]; rfl)

/-- The test made on an element. -/
def tokMatch (tok : Bytes) (ci : Bool) (e : Bytes) : Bool :=
  e.length == tok.length && (if ci then ciEq e tok else e == tok)

theorem tokMatch_iff (tok : Bytes) (ci : Bool) (e : Bytes) :
    tokMatch tok ci e = true ↔ (if ci then ciEq e tok = true else e = tok) := by
  unfold tokMatch
  cases ci with
  | true =>
    simp only [if_true, Bool.and_eq_true, beq_iff_eq]
    exact ⟨fun h => h.2, fun h => ⟨ciEq_length h, h⟩⟩
  | false =>
    simp only [Bool.false_eq_true, if_false, Bool.and_eq_true, beq_iff_eq]
    exact ⟨fun h => h.2, fun h => ⟨by rw [h], h⟩⟩

theorem isTok_iff (ci : Bool) (tok e : Bytes) :
    IsTok ci tok e ↔ tokMatch tok ci (rtrim (e.dropWhile isSpace)) = true := by
  rw [tokMatch_iff]
  constructor
  · rintro ⟨a, h1, h2⟩
    rw [trims_unique (trims_exists e) h1]; exact h2
  · intro h; exact ⟨_, trims_exists e, h⟩

theorem comma_cases (v : Bytes) : (ch%',' ∉ v) ∨
    ∃ e rest, v = e ++ ch%',' :: rest ∧ ch%',' ∉ e := by
  obtain ⟨b, h1, h2, -, h3, h4⟩ := takeWhile_split notComma v
  have h4' : ch%',' ∉ v.takeWhile notComma := fun hc => by simpa [notComma] using h4 _ hc
  cases b with
  | nil => left; simp at h1; rw [h1]; exact h4'
  | cons c t =>
    have hc : c = ch%',' := by simpa [notComma] using h3 c t rfl
    exact Or.inr ⟨_, t, by rw [hc] at h1; exact h1, h4'⟩

theorem dropWhile_space_comma (e rest : Bytes) :
    (e ++ ch%',' :: rest).dropWhile isSpace = e.dropWhile isSpace ++ ch%',' :: rest := by
  induction e with
  | nil => rfl
  | cons c t ih =>
    by_cases hc : isSpace c = true
    · simp [hc]; simpa using ih
    · simp [hc]

theorem notin_dropWhile {e : Bytes} (h : ch%',' ∉ e) : ∀ c ∈ e.dropWhile isSpace, notComma c = true := by
  intro c hc
  have := (List.dropWhile_suffix (l := e) isSpace).subset hc
  simp only [notComma, bne_iff_ne]
  rintro rfl; exact h this

/-- One step of the search, on a value with a comma. -/
theorem csLocate_comma {e rest tok : Bytes} {ci : Bool} (he : ch%',' ∉ e) :
    csLocate (e ++ ch%',' :: rest) tok ci =
      if tokMatch tok ci (rtrim (e.dropWhile isSpace)) then
        some ⟨e.dropWhile isSpace ++ ch%',' :: rest, rest⟩
      else csLocate rest tok ci := by
  rw [csLocate]
  have htw : (e.dropWhile isSpace ++ ch%',' :: rest).takeWhile notComma = e.dropWhile isSpace :=
    takeWhile_app (notin_dropWhile he) (by intro c t h; injection h with h _; subst h; rfl)
  split
  · rename_i h
    rw [dropWhile_space_comma] at h; simp at h
  · rename_i c t h
    rw [dropWhile_space_comma] at h
    simp only [← h, htw, List.take_left]
    rw [show (e.dropWhile isSpace ++ ch%',' :: rest).drop ((e.dropWhile isSpace).length + 1) = rest by
      rw [← List.drop_drop, List.drop_left]; rfl]
    rfl

theorem csLocate_nil (tok : Bytes) (ci : Bool) : csLocate [] tok ci = none := by
  rw [csLocate]; rfl

/-- The last element. -/
theorem csLocate_last {e tok : Bytes} {ci : Bool} (he : ch%',' ∉ e) (ht : tok ≠ []) :
    csLocate e tok ci =
      if tokMatch tok ci (rtrim (e.dropWhile isSpace)) then some ⟨e.dropWhile isSpace, []⟩ else none := by
  rw [csLocate]
  have htw : (e.dropWhile isSpace).takeWhile notComma = e.dropWhile isSpace := by
    have := takeWhile_app (p := notComma) (b := []) (notin_dropWhile he) (by simp)
    simpa using this
  split
  · rename_i h
    rw [h]
    have : tokMatch tok ci (rtrim []) = false := by
      unfold tokMatch
      have : tok.length > 0 := length_pos ht
      have h0 : (rtrim []).length = 0 := rfl
      rw [h0]
      have : ((0 : Nat) == tok.length) = false := by
        simp; intro h; exact ht (List.eq_nil_of_length_eq_zero h.symm)
      rw [this]; rfl
    rw [this]; rfl
  · rename_i c t h
    simp only [← h, htw]
    rw [List.take_length, show (e.dropWhile isSpace).drop ((e.dropWhile isSpace).length + 1) = [] from
      List.drop_of_length_le (by omega), csLocate_nil]
    rfl

/-- The search finds the first element that is the token. -/
theorem csLocate_iff (v tok rest : Bytes) (ci : Bool) (ht : tok ≠ []) :
    (∃ p, csLocate v tok ci = some ⟨p, rest⟩) ↔
      ∃ es e, ElemAt v es e rest ∧ IsTok ci tok e ∧ ∀ x ∈ es, ¬ IsTok ci tok x := by
  induction hn : v.length using Nat.strongRecOn generalizing v with
  | ind n ih =>
    rcases comma_cases v with h | ⟨e0, r0, rfl, h⟩
    · rw [csLocate_last h ht]
      constructor
      · rintro ⟨p, hp⟩
        split at hp
        · rename_i hm
          injection hp with hp
          injection hp with _ hp
          subst hp
          exact ⟨[], v, ⟨by simp, h, [], by simp, Or.inl ⟨rfl, rfl⟩⟩, (isTok_iff _ _ _).2 hm, by simp⟩
        · cases hp
      · rintro ⟨es, e, ⟨h1, h2, tail, h3, h4⟩, h5, h6⟩
        have hes : es = [] := by
          cases es with
          | nil => rfl
          | cons x y => exfalso; apply h; rw [h3]; simp
        subst hes
        have htl : tail = [] ∧ rest = [] := by
          rcases h4 with h4 | h4
          · exact h4
          · exfalso; apply h; rw [h3, h4]; simp
        obtain ⟨rfl, rfl⟩ := htl
        simp at h3
        subst h3
        rw [if_pos ((isTok_iff _ _ _).1 h5)]
        exact ⟨_, rfl⟩
    · rw [csLocate_comma h]
      by_cases hm : tokMatch tok ci (rtrim (e0.dropWhile isSpace)) = true
      · rw [if_pos hm]
        constructor
        · rintro ⟨p, hp⟩
          injection hp with hp
          injection hp with _ hp
          subst hp
          exact ⟨[], e0, ⟨by simp, h, _, by simp, Or.inr rfl⟩, (isTok_iff _ _ _).2 hm, by simp⟩
        · rintro ⟨es, e, ⟨h1, h2, tail, h3, h4⟩, h5, h6⟩
          have key : ∀ {x y : Bytes} {u w : Bytes}, ch%',' ∉ x → ch%',' ∉ y →
              x ++ ch%',' :: u = y ++ ch%',' :: w → x = y ∧ u = w := by
            intro x y u w hx hy hxy
            have t1 : (x ++ ch%',' :: u).takeWhile notComma = x := takeWhile_app
              (fun c hc => by simp only [notComma, bne_iff_ne]; rintro rfl; exact hx hc)
              (by intro c t h; injection h with h _; subst h; rfl)
            have t2 : (y ++ ch%',' :: w).takeWhile notComma = y := takeWhile_app
              (fun c hc => by simp only [notComma, bne_iff_ne]; rintro rfl; exact hy hc)
              (by intro c t h; injection h with h _; subst h; rfl)
            have : x = y := by rw [← t1, hxy, t2]
            subst this
            simpa using hxy
          cases es with
          | nil =>
            rcases h4 with ⟨rfl, rfl⟩ | rfl
            · exfalso; simp at h3; rw [← h3] at h2; simp at h2
            · simp at h3
              obtain ⟨-, rfl⟩ := key h h2 h3
              exact ⟨_, rfl⟩
          | cons x es =>
            exfalso
            simp at h3
            obtain ⟨rfl, -⟩ := key h (h1 x (by simp)) h3
            exact h6 _ (by simp) ((isTok_iff _ _ _).2 hm)
      · rw [if_neg hm, ih r0.length (by simp at hn; omega) r0 rfl]
        constructor
        · rintro ⟨es, e, ⟨h1, h2, tail, h3, h4⟩, h5, h6⟩
          refine ⟨e0 :: es, e, ⟨?_, h2, tail, by simp [h3], h4⟩, h5, ?_⟩
          · intro x hx
            rcases List.mem_cons.1 hx with rfl | hx
            · exact h
            · exact h1 x hx
          · intro x hx
            rcases List.mem_cons.1 hx with rfl | hx
            · rw [isTok_iff]; exact hm
            · exact h6 x hx
        · rintro ⟨es, e, ⟨h1, h2, tail, h3, h4⟩, h5, h6⟩
          have key : ∀ {x y : Bytes} {u w : Bytes}, ch%',' ∉ x → ch%',' ∉ y →
              x ++ ch%',' :: u = y ++ ch%',' :: w → x = y ∧ u = w := by
            intro x y u w hx hy hxy
            have t1 : (x ++ ch%',' :: u).takeWhile notComma = x := takeWhile_app
              (fun c hc => by simp only [notComma, bne_iff_ne]; rintro rfl; exact hx hc)
              (by intro c t h; injection h with h _; subst h; rfl)
            have t2 : (y ++ ch%',' :: w).takeWhile notComma = y := takeWhile_app
              (fun c hc => by simp only [notComma, bne_iff_ne]; rintro rfl; exact hy hc)
              (by intro c t h; injection h with h _; subst h; rfl)
            have : x = y := by rw [← t1, hxy, t2]
            subst this
            simpa using hxy
          cases es with
          | nil =>
            exfalso
            rcases h4 with ⟨rfl, rfl⟩ | rfl
            · simp at h3; rw [← h3] at h2; simp at h2
            · simp at h3
              obtain ⟨rfl, -⟩ := key h h2 h3
              exact hm ((isTok_iff _ _ _).1 h5)
          | cons x es =>
            simp at h3
            obtain ⟨rfl, h3'⟩ := key h (h1 x (by simp)) h3
            exact ⟨es, e, ⟨fun x hx => h1 x (by simp [hx]), h2, tail, by rw [h3', List.append_assoc], h4⟩, h5,
              fun x hx => h6 x (by simp [hx])⟩

theorem csLocate_none_iff (v tok : Bytes) (ci : Bool) (ht : tok ≠ []) :
    csLocate v tok ci = none ↔ ∀ es e rest, ElemAt v es e rest → ¬ IsTok ci tok e := by
  constructor
  · intro h es e rest he hi
    -- take the first one
    have key : ∀ n, ∀ es, es.length = n → ∀ e rest, ElemAt v es e rest → IsTok ci tok e →
        ∃ es' e' rest', ElemAt v es' e' rest' ∧ IsTok ci tok e' ∧ ∀ x ∈ es', ¬ IsTok ci tok x := by
      intro n
      induction n using Nat.strongRecOn with
      | ind n ih =>
        intro es hn e rest he hi
        by_cases hx : ∀ x ∈ es, ¬ IsTok ci tok x
        · exact ⟨es, e, rest, he, hi, hx⟩
        · have hx' : ∃ x, x ∈ es ∧ IsTok ci tok x := Classical.byContradiction fun hc =>
            hx fun x hm ht => hc ⟨x, hm, ht⟩
          obtain ⟨x, hm, hxt⟩ := hx'
          obtain ⟨a, b, rfl⟩ := List.append_of_mem hm
          obtain ⟨h1, h2, tail, h3, h4⟩ := he
          refine ih a.length (by simp at hn; omega) a rfl x
            (b.flatMap (· ++ [ch%',']) ++ e ++ tail) ⟨fun y hy => h1 y (by simp [hy]), h1 x (by simp),
              ch%',' :: (b.flatMap (· ++ [ch%',']) ++ e ++ tail), ?_, Or.inr rfl⟩ hxt
          rw [h3]; simp
    obtain ⟨es', e', rest', h'⟩ := key _ es rfl e rest he hi
    obtain ⟨p, hp⟩ := (csLocate_iff v tok rest' ci ht).2 ⟨es', e', h'⟩
    rw [h] at hp; cases hp
  · intro h
    cases hc : csLocate v tok ci with
    | none => rfl
    | some p =>
      obtain ⟨es, e, he, hi, -⟩ := (csLocate_iff v tok p.next ci ht).1 ⟨p.at_, hc⟩
      exact absurd hi (h es e _ he)

/-! ### The header block -/

/-- A line as (text, name, value); `none` if it is not a header line. -/
def asLine (t : Bytes) : Option (Bytes × Bytes × Bytes) :=
  (headerMatch t).map fun p => (t, t.take p.1, t.drop p.2)

theorem asLine_some {t : Bytes} {x : Bytes × Bytes × Bytes} (h : asLine t = some x) :
    x.1 = t ∧ HeaderLine t x.2.1 x.2.2 := by
  unfold asLine at h
  rw [Option.map_eq_some_iff] at h
  obtain ⟨⟨ne, vs⟩, h1, rfl⟩ := h
  exact ⟨rfl, line_of_headerMatch h1⟩

theorem asLine_of {t n v : Bytes} (h : HeaderLine t n v) : asLine t = some (t, n, v) := by
  obtain ⟨vs, h1, h2, h3, -⟩ := headerMatch_of_line h
  simp [asLine, h1, h2, h3]

theorem asLine_none {t : Bytes} : asLine t = none ↔ ¬ ∃ n v, HeaderLine t n v := by
  constructor
  · rintro h ⟨n, v, hl⟩; rw [asLine_of hl] at h; cases h
  · intro h
    cases hh : asLine t with
    | none => rfl
    | some x => exact absurd ⟨_, _, (asLine_some hh).2⟩ h

/-- The names in the table, up to letter case. -/
def combOf (table : List Bytes) (n : Bytes) : Bool := table.any fun m => ciEq m n

theorem combOf_congr (table : List Bytes) {a b : Bytes} (h : ciEq a b = true) :
    combOf table a = combOf table b := by
  unfold combOf
  congr 1; funext m
  rw [ciEq_comm m a, ciEq_congr h, ciEq_comm]

/-- Text of an entry after the lines `L` have been read in addition. -/
def entryText (e : RdHeader) (L : List (Bytes × Bytes × Bytes)) : Bytes :=
  match e.comp with
  | some sb => sb ++ (L.filter fun x => ciEq x.2.1 e.hdr.name).flatMap fun x => b!", " ++ x.2.2
  | none => e.hdr.text

/-- Names of the entries that have a buffer. -/
def seenOf (hs : List RdHeader) : List Bytes := (hs.filter (·.comp.isSome)).map (·.hdr.name)

theorem length_beq_ciEq (a b : Bytes) : (a.length == b.length && ciEq a b) = ciEq a b := by
  cases hc : ciEq a b with
  | false => simp
  | true => simp [ciEq_length hc]

theorem addComposed_none {hs : List RdHeader} {h : Header} :
    addComposed hs h = none ↔ (seenOf hs).any (ciEq · h.name) = false := by
  induction hs with
  | nil => simp [addComposed, seenOf]
  | cons e t ih =>
    unfold addComposed
    cases hc : e.comp with
    | none =>
      simp only [Option.map_eq_none_iff, ih]
      simp [seenOf, hc]
    | some sb =>
      simp only [length_beq_ciEq]
      cases hci : ciEq e.hdr.name h.name with
      | true => simp [seenOf, hc, hci]
      | false =>
        simp only [Bool.false_eq_true, if_false, Option.map_eq_none_iff, ih]
        simp [seenOf, hc, hci]

/-- Pairwise different names among the entries with a buffer. -/
def DistinctSeen (hs : List RdHeader) : Prop :=
  (seenOf hs).Pairwise fun a b => ciEq a b = false

theorem addComposed_some {hs hs' : List RdHeader} {h : Header} (hd : DistinctSeen hs)
    (ha : addComposed hs h = some hs') :
    seenOf hs' = seenOf hs ∧ ∀ L t n v, n = h.name → v = h.rawValue →
      hs'.map (entryText · L) = hs.map (entryText · ((t, n, v) :: L)) := by
  induction hs generalizing hs' with
  | nil => simp [addComposed] at ha
  | cons e t ih =>
    unfold addComposed at ha
    cases hc : e.comp with
    | none =>
      rw [hc] at ha
      simp only [Option.map_eq_some_iff] at ha
      obtain ⟨t', h1, rfl⟩ := ha
      have hd' : DistinctSeen t := by simpa [DistinctSeen, seenOf, hc] using hd
      obtain ⟨h2, h3⟩ := ih hd' h1
      refine ⟨by simpa [seenOf, hc] using h2, fun L t0 n v hn hv => ?_⟩
      simp only [List.map_cons, h3 L t0 n v hn hv]
      simp [entryText, hc]
    | some sb =>
      rw [hc] at ha
      simp only [length_beq_ciEq] at ha
      have hdp : (∀ a ∈ seenOf t, ciEq e.hdr.name a = false) ∧ DistinctSeen t := by
        have : DistinctSeen (e :: t) := hd
        simp only [DistinctSeen, seenOf, List.filter_cons, hc, Option.isSome_some, if_true,
          List.map_cons, List.pairwise_cons] at this
        exact this
      cases hci : ciEq e.hdr.name h.name with
      | true =>
        rw [hci] at ha
        simp only [if_true] at ha
        injection ha with ha
        subst ha
        refine ⟨by simp [seenOf, hc], fun L t0 n v hn hv => ?_⟩
        subst hn hv
        simp only [List.map_cons]
        congr 1
        · simp [entryText, hc, ciEq_symm hci]
        · apply List.map_congr_left
          intro x hx
          cases hxc : x.comp with
          | none => simp [entryText, hxc]
          | some sb' =>
            have : x.hdr.name ∈ seenOf t := by
              simp only [seenOf, List.mem_map, List.mem_filter]
              exact ⟨x, ⟨hx, by simp [hxc]⟩, rfl⟩
            have hne : ciEq h.name x.hdr.name = false := by
              rw [← ciEq_congr hci]; exact hdp.1 _ this
            simp [entryText, hxc, hne]
      | false =>
        rw [hci] at ha
        simp only [Bool.false_eq_true, if_false, Option.map_eq_some_iff] at ha
        obtain ⟨t', h1, rfl⟩ := ha
        obtain ⟨h2, h3⟩ := ih hdp.2 h1
        refine ⟨by simpa [seenOf, hc] using h2, fun L t0 n v hn hv => ?_⟩
        simp only [List.map_cons, h3 L t0 n v hn hv]
        have hne : ciEq n e.hdr.name = false := by rw [hn, ciEq_comm]; exact hci
        simp [entryText, hc, hne]

theorem intercalate_flatMap (sep v : Bytes) (l : List Bytes) :
    List.intercalate sep (v :: l) = v ++ l.flatMap (sep ++ ·) := by
  induction l generalizing v with
  | nil => simp [List.intercalate]
  | cons x l ih =>
    have : List.intercalate sep (v :: x :: l) = v ++ sep ++ List.intercalate sep (x :: l) := by
      simp [List.intercalate, List.intersperse]
    rw [this, ih]; simp

theorem combine_seen_congr (comb : Bytes → Bool) (L : List (Bytes × Bytes × Bytes)) (s s' : List Bytes)
    (h : ∀ n, s.any (ciEq · n) = s'.any (ciEq · n)) : combine comb s L = combine comb s' L := by
  induction L generalizing s s' with
  | nil => rfl
  | cons x L ih =>
    obtain ⟨t, n, v⟩ := x
    simp only [combine, h n]
    split
    · split
      · exact ih s s' h
      · rw [ih (n :: s) (n :: s') (fun m => by simp only [List.any_cons, h m])]
    · rw [ih s s' h]

theorem buildHeaders_aux (table : List Bytes) (lines : List Bytes) (hs : List RdHeader)
    (hd : DistinctSeen hs) :
    (lines.foldl (readHeaderStep table) hs).map (entryText · []) =
      hs.map (entryText · ((lines.filterMap asLine).filter fun x => combOf table x.2.1)) ++
      combine (combOf table) (seenOf hs) (lines.filterMap asLine) := by
  induction lines generalizing hs with
  | nil => simp [combine]
  | cons l lines ih =>
    simp only [List.foldl_cons]
    by_cases hleg : ∃ n v, HeaderLine l n v
    · obtain ⟨n, v, hl⟩ := hleg
      obtain ⟨hg, htext⟩ := alloc_good hl
      have hnv := hg.name_of (n := n) (v := v) (by rw [htext]; exact hl)
      have hal : (l :: lines).filterMap asLine = (l, n, v) :: lines.filterMap asLine := by
        simp [asLine_of hl]
      rw [hal]
      have hcomb : isCombinable table (headerAlloc l) = combOf table n := by
        unfold isCombinable combOf; rw [hnv.1]
      have hfil : ((l, n, v) :: lines.filterMap asLine).filter (fun x => combOf table x.2.1) =
          if combOf table n then (l, n, v) :: (lines.filterMap asLine).filter (fun x => combOf table x.2.1)
          else (lines.filterMap asLine).filter (fun x => combOf table x.2.1) := by
        simp only [List.filter_cons]
      rw [hfil]
      cases hc : combOf table n with
      | false =>
        have hstep : readHeaderStep table hs l = hs ++ [⟨headerAlloc l, none⟩] := by
          unfold readHeaderStep
          simp only [hg.1, if_false, hcomb, hc, Bool.false_eq_true]
        have hseen : seenOf (hs ++ [⟨headerAlloc l, none⟩]) = seenOf hs := by simp [seenOf]
        rw [hstep, ih _ (by unfold DistinctSeen; rw [hseen]; exact hd), hseen]
        simp only [Bool.false_eq_true, if_false, combine, hc, List.map_append, List.map_cons, List.map_nil]
        simp [entryText, htext]
      | true =>
        simp only [if_true]
        cases ha : addComposed hs (headerAlloc l) with
        | some hs' =>
          have hstep : readHeaderStep table hs l = hs' := by
            unfold readHeaderStep
            simp only [hg.1, if_false, hcomb, hc, if_true, ha]
          obtain ⟨h1, h2⟩ := addComposed_some hd ha
          rw [hstep, ih _ (by unfold DistinctSeen; rw [h1]; exact hd), h1,
            h2 _ l n v hnv.1.symm hnv.2.symm]
          congr 1
          have hany : (seenOf hs).any (ciEq · n) = true := by
            cases hx : (seenOf hs).any (ciEq · n) with
            | true => rfl
            | false => rw [← hnv.1, ← addComposed_none, ha] at hx; cases hx
          simp only [combine, hc, if_true, hany]
        | none =>
          have hany : (seenOf hs).any (ciEq · n) = false := by
            rw [← hnv.1]; exact addComposed_none.1 ha
          let e : RdHeader := ⟨headerAlloc l, some ((headerAlloc l).name ++ b!": " ++ (headerAlloc l).rawValue)⟩
          have hstep : readHeaderStep table hs l = hs ++ [e] := by
            unfold readHeaderStep
            simp only [hg.1, if_false, hcomb, hc, if_true, ha]
            rfl
          have hseen : seenOf (hs ++ [e]) = seenOf hs ++ [n] := by
            simp [seenOf, e, hnv.1]
          have hd' : DistinctSeen (hs ++ [e]) := by
            unfold DistinctSeen
            rw [hseen, List.pairwise_append]
            refine ⟨hd, by simp, ?_⟩
            intro a ha b hb
            simp at hb
            subst hb
            simpa using List.any_eq_false.1 hany a ha
          rw [hstep, ih _ hd', hseen]
          simp only [List.map_append, List.map_cons, List.map_nil, List.append_assoc,
            List.cons_append, List.nil_append, combine, hc, if_true, hany, Bool.false_eq_true, if_false]
          congr 1
          · apply List.map_congr_left
            intro x hx
            cases hxc : x.comp with
            | none => simp [entryText, hxc]
            | some sb =>
              have hm : x.hdr.name ∈ seenOf hs := by
                simp only [seenOf, List.mem_map, List.mem_filter]
                exact ⟨x, ⟨hx, by simp [hxc]⟩, rfl⟩
              have hne : ciEq n x.hdr.name = false := by
                rw [ciEq_comm]; simpa using List.any_eq_false.1 hany _ hm
              simp [entryText, hxc, hne]
          · congr 1
            · simp only [entryText, e, hnv.1, hnv.2]
              rw [intercalate_flatMap]
              simp only [List.append_assoc]
              congr 3
              rw [List.flatMap_map]
              congr 1
              rw [List.filter_filter]
              have hf : (List.filterMap asLine lines).filter
                    (fun a => ciEq a.2.1 n && combOf table a.2.1) =
                  (List.filterMap asLine lines).filter (fun a => ciEq a.2.1 n) := by
                apply List.filter_congr
                intro x _
                cases hx : ciEq x.2.1 n with
                | false => rfl
                | true => rw [combOf_congr table hx, hc]; rfl
              rw [hf]; rfl
            · apply combine_seen_congr
              intro m
              simp only [List.any_append, List.any_cons, List.any_nil, Bool.or_false]
              rw [Bool.or_comm]
    · have hal : (l :: lines).filterMap asLine = lines.filterMap asLine := by
        simp [asLine_none.2 hleg]
      have hstep : readHeaderStep table hs l = hs := by
        unfold readHeaderStep
        have : (headerAlloc l).code = .illegal := qualify_illegal.2 hleg
        simp only [this, if_true]
      rw [hstep, hal]
      exact ih hs hd

/-- Texts of the headers read. -/
theorem buildHeaders_texts (table : List Bytes) (lines : List Bytes) :
    (buildHeaders table lines).map (·.text) =
      combine (combOf table) [] (lines.filterMap asLine) := by
  have h := buildHeaders_aux table lines [] (by simp [DistinctSeen, seenOf])
  simp only [List.map_nil, List.nil_append] at h
  have hs : seenOf [] = [] := rfl
  rw [hs] at h
  rw [← h]
  unfold buildHeaders
  rw [List.map_map]
  apply List.map_congr_left
  intro e _
  simp only [Function.comp, finishHeader, entryText]
  cases e.comp with
  | none => rfl
  | some sb =>
    simp only [List.filter_nil, List.flatMap_nil, List.append_nil, Header.change]
    unfold qualify
    split <;> rfl

theorem legal_asLine (lines : List Bytes) : Legal lines (lines.filterMap asLine) := by
  induction lines with
  | nil => exact .nil
  | cons l t ih =>
    by_cases h : ∃ n v, HeaderLine l n v
    · obtain ⟨n, v, h⟩ := h
      rw [List.filterMap_cons_some (asLine_of h)]
      exact .take h ih
    · rw [List.filterMap_cons_none (asLine_none.2 h)]
      exact .skip h ih

/-! Every header read is well formed. -/

def RdGood (e : RdHeader) : Prop :=
  Good e.hdr ∧ ∀ sb, e.comp = some sb → ∃ v, sb = e.hdr.name ++ b!": " ++ v ∧
    ∀ c, v.head? = some c → c ≠ 32 ∧ c ≠ 9

theorem value_head {t n v : Bytes} (h : HeaderLine t n v) :
    ∀ c, v.head? = some c → c ≠ 32 ∧ c ≠ 9 := by
  obtain ⟨ws, -, -, -, -, h⟩ := h; exact h

theorem addComposed_good {hs hs' : List RdHeader} {h : Header} (hg : ∀ e ∈ hs, RdGood e)
    (ha : addComposed hs h = some hs') : ∀ e ∈ hs', RdGood e := by
  induction hs generalizing hs' with
  | nil => simp [addComposed] at ha
  | cons e t ih =>
    have hrec : ∀ t', addComposed t h = some t' → ∀ x ∈ e :: t', RdGood x := by
      intro t' ht' x hx
      rcases List.mem_cons.1 hx with rfl | hx
      · exact hg _ (by simp)
      · exact ih (fun y hy => hg y (by simp [hy])) ht' x hx
    unfold addComposed at ha
    cases hc : e.comp with
    | none =>
      rw [hc] at ha
      simp only [Option.map_eq_some_iff] at ha
      obtain ⟨t', h1, rfl⟩ := ha
      exact hrec t' h1
    | some sb =>
      rw [hc] at ha
      simp only at ha
      split at ha
      · injection ha with ha
        subst ha
        intro x hx
        rcases List.mem_cons.1 hx with rfl | hx
        · obtain ⟨g1, g2⟩ := hg e (by simp)
          refine ⟨g1, fun sb' hsb => ?_⟩
          obtain ⟨v, h1, h2⟩ := g2 sb hc
          injection hsb with hsb
          refine ⟨v ++ (b!", " ++ h.rawValue), by rw [← hsb, h1]; simp, ?_⟩
          cases v with
          | nil => intro c hc; simp at hc; subst hc; decide
          | cons a v => intro c hc; exact h2 c (by simpa using hc)
        · exact hg x (by simp [hx])
      · simp only [Option.map_eq_some_iff] at ha
        obtain ⟨t', h1, rfl⟩ := ha
        exact hrec t' h1

theorem readHeaderStep_good (table : List Bytes) (hs : List RdHeader) (l : Bytes)
    (hg : ∀ e ∈ hs, RdGood e) : ∀ e ∈ readHeaderStep table hs l, RdGood e := by
  unfold readHeaderStep
  dsimp only
  split
  · exact hg
  · rename_i hleg
    have hex : ∃ n v, HeaderLine l n v := by
      exact Classical.byContradiction fun h => hleg (qualify_illegal.2 h)
    obtain ⟨n, v, hl⟩ := hex
    obtain ⟨g, htext⟩ := alloc_good hl
    have hadd : ∀ c, (∀ sb, c = some sb → ∃ v, sb = (headerAlloc l).name ++ b!": " ++ v ∧
        ∀ c, v.head? = some c → c ≠ 32 ∧ c ≠ 9) → ∀ e ∈ hs ++ [⟨headerAlloc l, c⟩], RdGood e := by
      intro c hc e he
      rcases List.mem_append.1 he with he | he
      · exact hg e he
      · simp at he; subst he; exact ⟨g, hc⟩
    split
    · split
      · rename_i hs' ha; exact addComposed_good hg ha
      · apply hadd
        intro sb hsb
        injection hsb with hsb
        exact ⟨_, hsb.symm, value_head g.line⟩
    · exact hadd none (by simp)

theorem foldl_good (table : List Bytes) (lines : List Bytes) (hs : List RdHeader)
    (hg : ∀ e ∈ hs, RdGood e) : ∀ e ∈ lines.foldl (readHeaderStep table) hs, RdGood e := by
  induction lines generalizing hs with
  | nil => exact hg
  | cons l t ih => exact ih _ (readHeaderStep_good table hs l hg)

theorem buildHeaders_good (table : List Bytes) (lines : List Bytes) :
    ∀ h ∈ buildHeaders table lines, Good h := by
  intro h hh
  unfold buildHeaders at hh
  obtain ⟨e, he, rfl⟩ := List.mem_map.1 hh
  obtain ⟨g1, g2⟩ := foldl_good table lines [] (by simp) e he
  unfold finishHeader
  cases hc : e.comp with
  | none => exact g1
  | some sb =>
    obtain ⟨v, rfl, h2⟩ := g2 sb hc
    obtain ⟨ws, -, l2, l3, -, -⟩ := g1.line
    refine (change_good (n := e.hdr.name) (v := v) ⟨[32], by simp, l2, l3, by simp, h2⟩).1

/-! Reading from the wire. -/

theorem readLines_nil (fuel : Nat) (acc : List Bytes) : readLines fuel [] acc = none := by
  cases fuel with
  | zero => rfl
  | succ f => unfold readLines; rw [getLine_nil _ (by decide)]

theorem block_ne_nil {lim : Nat} {t : Bytes} {ls : List Bytes} (h : Block lim t ls) : t ≠ [] := by
  cases h with
  | done hw => exact wireLine_ne_nil hw
  | more hw _ _ => simp [wireLine_ne_nil hw]

theorem readLines_sound (fuel : Nat) (inp : Bytes) (acc ls : List Bytes) (rest : Bytes)
    (h : readLines fuel inp acc = some (ls, rest)) :
    ∃ blk ls', ls = acc ++ ls' ∧ Block 4095 blk ls' ∧ Consumed inp blk rest := by
  induction fuel generalizing inp acc with
  | zero => simp [readLines] at h
  | succ fuel ih =>
    unfold readLines at h
    cases hg : getLine inp maxBuf with
    | eof => rw [hg] at h; simp at h
    | bad r => rw [hg] at h; simp at h
    | tooLong r => rw [hg] at h; simp at h
    | ok line r =>
      rw [hg] at h
      simp only at h
      obtain ⟨w, hw, hc⟩ := getLine_ok_iff.1 hg
      by_cases hl : line = []
      · subst hl
        simp only [List.isEmpty_nil, if_true, Option.some.injEq, Prod.mk.injEq] at h
        obtain ⟨rfl, rfl⟩ := h
        refine ⟨w, [], by simp, .done hw, ?_⟩
        rcases hc with rfl | ⟨rfl, hne, rfl⟩
        · left; rfl
        · right; refine ⟨rfl, rfl, [], ?_⟩
          rcases hw.2.1 with h | h
          · simp at h; exact absurd h hne
          · have : inp ++ [10] = [13] ++ [10] := by simpa using h
            simpa using List.append_cancel_right this
      · have hemp : line.isEmpty = false := by simpa using hl
        rw [hemp] at h
        simp only [Bool.false_eq_true, if_false] at h
        obtain ⟨blk, ls', rfl, h2, h3⟩ := ih r _ h
        rcases hc with rfl | ⟨rfl, hne, rfl⟩
        · exact ⟨w ++ blk, line :: ls', by simp, .more hw hl h2, consumed_append h3⟩
        · rw [readLines_nil] at h; cases h

theorem readLines_complete {blk rest : Bytes} {ls : List Bytes} (hb : Block 4095 blk ls) (inp : Bytes)
    (hi : Consumed inp blk rest) (fuel : Nat) (acc : List Bytes) (hf : inp.length < fuel) :
    readLines fuel inp acc = some (acc ++ ls, rest) := by
  induction hb generalizing inp acc fuel with
  | done hw =>
    rename_i w
    obtain ⟨fuel, rfl⟩ : ∃ k, fuel = k + 1 := ⟨fuel - 1, by omega⟩
    unfold readLines
    have hlc : LineConsumed inp w rest := by
      rcases hi with h | ⟨h1, h2, b, rfl⟩
      · exact Or.inl h
      · exact Or.inr ⟨h1, by simp, h2⟩
    rw [show getLine inp maxBuf = .ok [] rest from getLine_ok_iff.2 ⟨_, hw, hlc⟩]
    simp
  | more hw hl ht ih =>
    rename_i w l t ls
    obtain ⟨fuel, rfl⟩ : ∃ k, fuel = k + 1 := ⟨fuel - 1, by omega⟩
    have hw0 := length_pos (wireLine_ne_nil hw)
    obtain ⟨inp', rfl, hc'⟩ := consumed_split (fun b => Or.inl (wireLine_not_cr hw b))
      (block_ne_nil ht) hi
    have hg : getLine (w ++ inp') maxBuf = .ok l inp' := getLine_wire hw
    have hemp : l.isEmpty = false := by simpa using hl
    unfold readLines
    rw [hg]
    simp only [hemp, Bool.false_eq_true, if_false]
    rw [ih inp' hc' fuel _ (by simp at hf; omega)]
    simp

theorem skipBlank_sound (fuel : Nat) (inp line rest : Bytes)
    (h : skipBlank fuel inp = .ok line rest) :
    line ≠ [] ∧ ∃ bl w, Blanks 4095 bl ∧ WireLine 4095 w line ∧
      (inp = bl ++ (w ++ rest) ∨ rest = []) := by
  induction fuel generalizing inp with
  | zero => simp [skipBlank] at h
  | succ fuel ih =>
    unfold skipBlank at h
    cases hg : getLine inp maxBuf with
    | eof => rw [hg] at h; simp at h
    | bad r => rw [hg] at h; simp at h
    | tooLong r => rw [hg] at h; simp at h
    | ok l r =>
      rw [hg] at h
      simp only at h
      obtain ⟨w, hw, hc⟩ := getLine_ok_iff.1 hg
      by_cases hl : l = []
      · subst hl
        simp only [List.isEmpty_nil, if_true] at h
        obtain ⟨h1, bl, w', h2, h3, h4⟩ := ih r h
        refine ⟨h1, ?_⟩
        rcases hc with rfl | ⟨rfl, hne, rfl⟩
        · refine ⟨w ++ bl, w', .cons hw h2, h3, ?_⟩
          rcases h4 with rfl | h4
          · left; simp
          · right; exact h4
        · -- nothing follows
          cases fuel with
          | zero => simp [skipBlank] at h
          | succ fuel => unfold skipBlank at h; rw [getLine_nil _ (by decide)] at h; simp at h
      · have hemp : l.isEmpty = false := by simpa using hl
        rw [hemp] at h
        simp only [Bool.false_eq_true, if_false, LineRes.ok.injEq] at h
        obtain ⟨rfl, rfl⟩ := h
        refine ⟨hl, [], w, .nil, hw, ?_⟩
        rcases hc with rfl | ⟨rfl, hne, rfl⟩
        · left; simp
        · right; rfl

theorem skipBlank_complete {bl w line rest : Bytes} (hb : Blanks 4095 bl) (hw : WireLine 4095 w line)
    (hl : line ≠ []) (fuel : Nat) (hf : (bl ++ (w ++ rest)).length < fuel) :
    skipBlank fuel (bl ++ (w ++ rest)) = .ok line rest := by
  have hemp : line.isEmpty = false := by simpa using hl
  induction hb generalizing fuel with
  | nil =>
    obtain ⟨fuel, rfl⟩ : ∃ k, fuel = k + 1 := ⟨fuel - 1, by omega⟩
    unfold skipBlank
    rw [List.nil_append, show getLine (w ++ rest) maxBuf = .ok line rest from getLine_wire hw]
    simp [hemp]
  | cons hw0 ht ih =>
    rename_i w0 t
    obtain ⟨fuel, rfl⟩ : ∃ k, fuel = k + 1 := ⟨fuel - 1, by omega⟩
    unfold skipBlank
    have hp := length_pos (wireLine_ne_nil hw0)
    rw [List.append_assoc,
      show getLine (w0 ++ (t ++ (w ++ rest))) maxBuf = .ok [] (t ++ (w ++ rest)) from getLine_wire hw0]
    simp only [List.isEmpty_nil, if_true]
    exact ih fuel (by simp at hf ⊢; omega)

theorem httpRequestRead_iff (table : List Bytes) (inp req rest : Bytes) (hs : List Header) :
    httpRequestRead table inp = .ok req hs rest ↔
      ∃ lines, HeadOf inp req lines rest ∧ hs = buildHeaders table lines := by
  constructor
  · intro h
    unfold httpRequestRead at h
    cases hk : skipBlank (inp.length + 1) inp with
    | eof => rw [hk] at h; cases h
    | bad r => rw [hk] at h; cases h
    | tooLong r => rw [hk] at h; cases h
    | ok line r =>
      rw [hk] at h
      simp only at h
      cases hr : readLines (r.length + 1) r [] with
      | none => rw [hr] at h; cases h
      | some p =>
        obtain ⟨lines, rest'⟩ := p
        rw [hr] at h
        simp only [ReadRes.ok.injEq] at h
        obtain ⟨rfl, rfl, rfl⟩ := h
        obtain ⟨blk, ls', h1, h2, h3⟩ := readLines_sound _ _ _ _ _ hr
        simp at h1
        subst h1
        obtain ⟨g1, bl, w, g2, g3, g4⟩ := skipBlank_sound _ _ _ _ hk
        refine ⟨lines, ⟨bl, w, blk, g2, g3, g1, h2, ?_⟩, rfl⟩
        rcases g4 with rfl | rfl
        · exact consumed_append (consumed_append h3)
        · rw [readLines_nil] at hr; cases hr
  · rintro ⟨lines, ⟨bl, w, blk, h1, h2, h3, h4, h5⟩, rfl⟩
    have hsplit : ∃ inp', inp = (bl ++ w) ++ inp' ∧ Consumed inp' blk rest := by
      rw [← List.append_assoc] at h5
      refine consumed_split (fun b => ?_) (block_ne_nil h4) h5
      left
      intro hb
      rcases h2.2.1 with h | h
      · have := congrArg List.getLast? hb; simp [h] at this
      · have := congrArg List.getLast? hb; simp [h] at this
    obtain ⟨inp', rfl, hc⟩ := hsplit
    unfold httpRequestRead
    rw [List.append_assoc, skipBlank_complete h1 h2 h3 _ (by omega)]
    simp only
    rw [readLines_complete h4 inp' hc _ _ (by omega)]
    simp

theorem isTChar_lower : ∀ c, isTChar (toLower c) = isTChar c := by
  apply forall_byte; decide +kernel

theorem tchar_of_ciEq {a b : Bytes} (ha : ∀ c ∈ a, isTChar c = true) (h : ciEq a b = true) :
    ∀ c ∈ b, isTChar c = true := by
  intro c hc
  rw [ciEq_iff] at h
  have : toLower c ∈ a.map toLower := by rw [h]; exact List.mem_map_of_mem hc
  obtain ⟨d, hd, h2⟩ := List.mem_map.1 this
  rw [← isTChar_lower, ← h2, isTChar_lower]
  exact ha d hd

end Pound
