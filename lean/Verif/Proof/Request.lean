import Verif.Model.Request
import Verif.Spec.Request
import Verif.Proof.Basic

namespace Pound
open Spec

/-! ### Lists -/

theorem takeWhile_app {p : UInt8 → Bool} {a b : Bytes} (ha : ∀ c ∈ a, p c = true)
    (hb : ∀ c t, b = c :: t → p c = false) : (a ++ b).takeWhile p = a := by
  induction a with
  | nil =>
    cases b with
    | nil => rfl
    | cons c t => simp [hb c t rfl]
  | cons x a ih =>
    simp only [List.cons_append, List.takeWhile_cons, ha x (by simp), if_true]
    rw [ih (fun c hc => ha c (by simp [hc]))]

theorem dropWhile_app {p : UInt8 → Bool} {a b : Bytes} (ha : ∀ c ∈ a, p c = true)
    (hb : ∀ c t, b = c :: t → p c = false) : (a ++ b).dropWhile p = b := by
  induction a with
  | nil =>
    cases b with
    | nil => rfl
    | cons c t => simp [hb c t rfl]
  | cons x a ih =>
    simp only [List.cons_append, List.dropWhile_cons, ha x (by simp), if_true]
    rw [ih (fun c hc => ha c (by simp [hc]))]

/-- A list is its `takeWhile` followed by a rest that starts with a stopper. -/
theorem takeWhile_split (p : UInt8 → Bool) (s : Bytes) :
    ∃ b, s = s.takeWhile p ++ b ∧ b = s.drop (s.takeWhile p).length ∧
      b = s.dropWhile p ∧
      (∀ c t, b = c :: t → p c = false) ∧ ∀ c ∈ s.takeWhile p, p c = true := by
  induction s with
  | nil => exact ⟨[], by simp⟩
  | cons x s ih =>
    by_cases hx : p x = true
    · obtain ⟨b, h1, h2, h5, h3, h4⟩ := ih
      refine ⟨b, ?_, ?_, ?_, h3, ?_⟩
      · simp only [List.takeWhile_cons, hx, if_true, List.cons_append]; rw [← h1]
      · simp only [List.takeWhile_cons, hx, if_true, List.length_cons, List.drop_succ_cons]; exact h2
      · simp only [List.dropWhile_cons, hx, if_true]; exact h5
      · intro c hc
        simp only [List.takeWhile_cons, hx, if_true, List.mem_cons] at hc
        rcases hc with rfl | hc
        · exact hx
        · exact h4 c hc
    · refine ⟨x :: s, by simp [List.takeWhile_cons, hx], by simp [List.takeWhile_cons, hx],
        by simp [List.dropWhile_cons, hx], ?_, by simp [List.takeWhile_cons, hx]⟩
      intro c t h; injection h with h1 h2; subst h1; simpa using hx

/-! ### Request line -/

/-- The table agrees with the specification: an entry is found for a name iff it is a
spelling of a method, and the entry gives its number and level. -/
theorem methods_names : methods.map (·.name) = methEnum := by decide

theorem methods_index : ∀ i (h : i < methods.length), (methods[i]).meth = i := by decide

theorem methods_level : ∀ i (h : i < methods.length), ∀ l ≤ 3,
    ((methods[i]).name ∈ methodsOfLevel l ↔ (methods[i]).group = l) := by decide

theorem methods_group : ∀ m ∈ methods, m.group ≤ 3 := by decide

theorem level_in_methods : ∀ l ≤ 3, ∀ n ∈ methodsOfLevel l, ∃ m ∈ methods, m.name = n := by decide

/-- Distinct entries have names that differ even up to letter case. -/
theorem methods_distinct : ∀ m ∈ methods, ∀ m' ∈ methods, ciEq m.name m'.name → m = m' := by
  decide +kernel

theorem ciEq_iff {a b : Bytes} : ciEq a b = true ↔ a.map toLower = b.map toLower := by
  simp [ciEq]

theorem ciEq_length {a b : Bytes} (h : ciEq a b = true) : a.length = b.length := by
  have := congrArg List.length (ciEq_iff.1 h); simpa using this

theorem findMethod_some {s : Bytes} {m : MethodDef} :
    findMethod s = some m ↔ m ∈ methods ∧ ciEq s m.name = true := by
  unfold findMethod
  constructor
  · intro h
    refine ⟨List.mem_of_find?_eq_some h, ?_⟩
    have := List.find?_some h
    simp only [Bool.and_eq_true] at this
    exact ciEq_iff.2 (ciEq_iff.1 this.2).symm
  · rintro ⟨hm, he⟩
    have hp : (s.length == m.name.length && ciEq m.name s) = true := by
      simp only [Bool.and_eq_true, beq_iff_eq]
      exact ⟨ciEq_length he, ciEq_iff.2 (ciEq_iff.1 he).symm⟩
    cases hf : methods.find? (fun m => s.length == m.name.length && ciEq m.name s) with
    | none => exact absurd hp (by simpa using List.find?_eq_none.1 hf m hm)
    | some m' =>
      have h1 := List.mem_of_find?_eq_some hf
      have h2 := List.find?_some hf
      simp only [Bool.and_eq_true] at h2
      have := methods_distinct m' h1 m hm
        (ciEq_iff.2 ((ciEq_iff.1 h2.2).trans (ciEq_iff.1 he)))
      rw [this]

theorem findMethod_none {s : Bytes} :
    findMethod s = none ↔ ∀ m ∈ methods, ciEq s m.name = false := by
  constructor
  · intro h m hm
    cases he : ciEq s m.name with
    | false => rfl
    | true => rw [findMethod_some.2 ⟨hm, he⟩] at h; cases h
  · intro h
    cases hf : findMethod s with
    | none => rfl
    | some m =>
      obtain ⟨h1, h2⟩ := findMethod_some.1 hf
      rw [h m h1] at h2; cases h2

theorem methodName_of_mem {m : MethodDef} (h : m ∈ methods) : methodName m.meth = some m.name := by
  obtain ⟨i, hi, rfl⟩ := List.mem_iff_getElem.1 h
  rw [methods_index i hi]
  simp [methodName, hi]

theorem methodName_some {i : Nat} {n : Bytes} (h : methodName i = some n) :
    ∃ m ∈ methods, m.meth = i ∧ m.name = n := by
  simp only [methodName, Option.map_eq_some_iff] at h
  obtain ⟨m, h1, h2⟩ := h
  obtain ⟨hi, h1⟩ := List.getElem?_eq_some_iff.1 h1
  refine ⟨m, h1 ▸ List.getElem_mem hi, ?_, h2⟩
  rw [← h1]; exact methods_index i hi

theorem level_of_mem {m : MethodDef} (h : m ∈ methods) (l : Nat) :
    m.name ∈ methodsOfLevel l ↔ m.group = l := by
  obtain ⟨i, hi, rfl⟩ := List.mem_iff_getElem.1 h
  by_cases hl : l ≤ 3
  · exact methods_level i hi l hl
  · have : methodsOfLevel l = [] := by
      unfold methodsOfLevel; split <;> first | omega | rfl
    have hg := methods_group _ h
    rw [this]; simp; omega

theorem mem_of_level {n : Bytes} {l : Nat} (h : n ∈ methodsOfLevel l) : ∃ m ∈ methods, m.name = n := by
  by_cases hl : l ≤ 3
  · exact level_in_methods l hl n h
  · have : methodsOfLevel l = [] := by
      unfold methodsOfLevel; split <;> first | omega | rfl
    rw [this] at h; cases h

theorem no_space_of_ciEq {s : Bytes} {m : MethodDef} (hm : m ∈ methods) (h : ciEq s m.name = true) :
    s ≠ [] ∧ ∀ c ∈ s, notSp c = true := by
  have h0 : ∀ m ∈ methods, m.name ≠ [] ∧ (32 : UInt8) ∉ m.name.map toLower := by decide
  obtain ⟨h1, h2⟩ := h0 m hm
  constructor
  · rintro rfl
    have := ciEq_length h
    exact h1 (List.eq_nil_of_length_eq_zero this.symm)
  · intro c hc
    simp only [notSp, bne_iff_ne]
    rintro rfl
    apply h2
    rw [← ciEq_iff.1 h]
    exact List.mem_map.2 ⟨32, hc, by decide⟩

theorem version_suffix {s : Bytes} :
    (s.take 7 = b!"HTTP/1." ∧ (s[7]? = some 48 ∨ s[7]? = some 49) ∧ s.length = 8) ↔
    ∃ v, v ≤ 1 ∧ s = b!"HTTP/1." ++ [UInt8.ofNat (48 + v)] := by
  constructor
  · rintro ⟨h1, h2, h3⟩
    have hs : s = s.take 7 ++ s.drop 7 := (List.take_append_drop 7 s).symm
    have hd : ∃ c, s.drop 7 = [c] := by
      have : (s.drop 7).length = 1 := by simp; omega
      exact List.length_eq_one_iff.1 this
    obtain ⟨c, hc⟩ := hd
    have hc' : s[7]? = some c := by
      have := List.getElem?_drop (xs := s) (i := 7) (j := 0)
      rw [hc] at this; simpa using this.symm
    rw [hc'] at h2
    rw [h1, hc] at hs
    rcases h2 with h2 | h2
    · exact ⟨0, by omega, by rw [hs]; injection h2 with h2; subst h2; rfl⟩
    · exact ⟨1, by omega, by rw [hs]; injection h2 with h2; subst h2; rfl⟩
  · rintro ⟨v, hv, rfl⟩
    have : v = 0 ∨ v = 1 := by omega
    rcases this with rfl | rfl <;> decide

/-- `parse_http_request` as a relation. -/
theorem parse_ok_aux {line : Bytes} {group : Nat} {name s1 url s2 : Bytes} {v : Nat} {md : MethodDef}
    (hm : md ∈ methods) (hn : ciEq name md.name = true) (hs1 : Spaces s1) (hs2 : Spaces s2)
    (hu : url ≠ []) (hus : ∀ c ∈ url, c ≠ 32) (hv : v ≤ 1)
    (hl : line = name ++ s1 ++ url ++ s2 ++ b!"HTTP/1." ++ [UInt8.ofNat (48 + v)]) :
    parseHttpRequest line group =
      if md.group > group then .err .methodNotAllowed else .ok ⟨md.meth, url, v⟩ := by
  obtain ⟨hne, hns⟩ := no_space_of_ciEq hm hn
  have hsp : ∀ s, Spaces s → ∀ x : Bytes, ∀ c t, s ++ x = c :: t → notSp c = false := by
    intro s hs x c t h
    cases s with
    | nil => exact absurd rfl hs.1
    | cons y s =>
      simp at h
      rw [← h.1, hs.2 y (by simp)]; rfl
  have hsp' : ∀ s, Spaces s → ∀ c ∈ s, isSp c = true := by
    intro s hs c hc; simp [isSp, hs.2 c hc]
  have e1 : line.takeWhile notSp = name := by
    rw [hl]; simp only [List.append_assoc]
    exact takeWhile_app hns (hsp s1 hs1 _)
  have e2 : (line.drop name.length).dropWhile isSp =
      url ++ (s2 ++ (b!"HTTP/1." ++ [UInt8.ofNat (48 + v)])) := by
    rw [hl]; simp only [List.append_assoc, List.drop_left]
    apply dropWhile_app (hsp' s1 hs1)
    intro c t h
    cases url with
    | nil => exact absurd rfl hu
    | cons y u =>
      simp at h
      have := hus y (by simp)
      rw [h.1] at this
      simp [isSp, this]
  have hus' : ∀ c ∈ url, notSp c = true := by
    intro c hc; simp [notSp, hus c hc]
  have e3 : (url ++ (s2 ++ (b!"HTTP/1." ++ [UInt8.ofNat (48 + v)]))).takeWhile notSp = url :=
    takeWhile_app hus' (hsp s2 hs2 _)
  have e4 : (s2 ++ (b!"HTTP/1." ++ [UInt8.ofNat (48 + v)])).dropWhile isSp =
      b!"HTTP/1." ++ [UInt8.ofNat (48 + v)] := by
    apply dropWhile_app (hsp' s2 hs2)
    intro c t h
    simp at h
    rw [← h.1]; rfl
  have hvs := version_suffix.2 ⟨v, hv, rfl⟩
  unfold parseHttpRequest
  simp only [e1, List.length_eq_zero_iff, hne, if_false, findMethod_some.2 ⟨hm, hn⟩, e2, e3,
    List.drop_left, e4, if_pos hvs]
  have hv01 : v = 0 ∨ v = 1 := by omega
  cases url with
  | nil => exact absurd rfl hu
  | cons y u =>
    simp only [List.cons_append]
    split <;> rcases hv01 with rfl | rfl <;> simp

theorem parse_shape {line : Bytes} {group : Nat}
    (h : parseHttpRequest line group ≠ .err .badRequest) :
    ∃ md name s1 url s2 v, md ∈ methods ∧ ciEq name md.name = true ∧ Spaces s1 ∧ Spaces s2 ∧
      url ≠ [] ∧ (∀ c ∈ url, c ≠ 32) ∧ v ≤ 1 ∧
      line = name ++ s1 ++ url ++ s2 ++ b!"HTTP/1." ++ [UInt8.ofNat (48 + v)] := by
  unfold parseHttpRequest at h
  obtain ⟨b1, a1, a2, -, a3, a4⟩ := takeWhile_split notSp line
  generalize hname : line.takeWhile notSp = name at *
  simp only [← a2] at h
  split at h
  · exact absurd rfl h
  rename_i hn0
  split at h
  · exact absurd rfl h
  rename_i md hmd
  obtain ⟨hm, hci⟩ := findMethod_some.1 hmd
  have hb1 : b1.dropWhile isSp ≠ [] := by
    intro hb; simp [hb] at h
  -- the spaces
  obtain ⟨b2, c1, c2, c5, c3, c4⟩ := takeWhile_split isSp b1
  rw [← c5] at h hb1
  generalize hs1 : b1.takeWhile isSp = s1 at *
  obtain ⟨b3, d1, d2, -, d3, d4⟩ := takeWhile_split notSp b2
  generalize hurl : b2.takeWhile notSp = url at *
  obtain ⟨b4, e1, e2, e5, e3, e4⟩ := takeWhile_split isSp b3
  simp only [hurl, ← d2, ← e5] at h
  have hver : ∃ v, v ≤ 1 ∧ b4 = b!"HTTP/1." ++ [UInt8.ofNat (48 + v)] := by
    apply version_suffix.1
    by_cases hc : (b4.take 7 = b!"HTTP/1." ∧ (b4[7]? = some 48 ∨ b4[7]? = some 49) ∧ b4.length = 8)
    · exact hc
    · simp only [hc, if_false] at h
      exact absurd rfl h
  obtain ⟨v, hv, hb4⟩ := hver
  generalize hs2 : b3.takeWhile isSp = s2 at *
  have hsps1 : Spaces s1 := by
    refine ⟨?_, fun c hc => by simpa [isSp] using c4 c hc⟩
    rintro rfl
    simp at c1
    -- then b1 = b2 starts with a space but also not
    cases hb : b2 with
    | nil => exact hb1 hb
    | cons c t =>
      have h1 := c3 c t hb
      have h2 := a3 c t (by rw [c1, hb])
      have h3 : c = 32 := by simpa [notSp] using h2
      rw [h3] at h1; cases h1
  have hurl0 : url ≠ [] := by
    rintro rfl
    simp at d1
    cases hb : b2 with
    | nil => exact hb1 hb
    | cons c t =>
      have h1 := c3 c t hb
      have h2 := d3 c t (by rw [← d1, hb])
      have h3 : c = 32 := by simpa [notSp] using h2
      rw [h3] at h1; cases h1
  have hsps2 : Spaces s2 := by
    refine ⟨?_, fun c hc => by simpa [isSp] using e4 c hc⟩
    rintro rfl
    simp at e1
    rw [← e1] at hb4
    have := d3 ch%'H' _ hb4
    simp [notSp] at this
  refine ⟨md, name, s1, url, s2, v, hm, hci, hsps1, hsps2, hurl0, ?_, hv, ?_⟩
  · intro c hc; simpa [notSp] using d4 c hc
  · rw [a1, c1, d1, e1, hb4]; simp

theorem spec_of_method {md : MethodDef} (hm : md ∈ methods) {line url : Bytes} {v : Nat} :
    RequestLine line md.name url v ↔
      ∃ name s1 s2, ciEq name md.name = true ∧ Spaces s1 ∧ Spaces s2 ∧
      url ≠ [] ∧ (∀ c ∈ url, c ≠ 32) ∧ v ≤ 1 ∧
      line = name ++ s1 ++ url ++ s2 ++ b!"HTTP/1." ++ [UInt8.ofNat (48 + v)] := by
  constructor
  · rintro ⟨name, s1, s2, h1, h2, h3, h4, h5, h6, h7⟩
    exact ⟨name, s1, s2, h2, h3, h4, h5, h6, h7, h1⟩
  · rintro ⟨name, s1, s2, h2, h3, h4, h5, h6, h7, h1⟩
    exact ⟨name, s1, s2, h1, h2, h3, h4, h5, h6, h7⟩

theorem parse_of_spec {md : MethodDef} (hm : md ∈ methods) {line url : Bytes} {v group : Nat}
    (h : RequestLine line md.name url v) :
    parseHttpRequest line group =
      if md.group > group then .err .methodNotAllowed else .ok ⟨md.meth, url, v⟩ := by
  obtain ⟨name, s1, s2, h2, h3, h4, h5, h6, h7, h1⟩ := (spec_of_method hm).1 h
  exact parse_ok_aux hm h2 h3 h4 h5 h6 h7 h1

theorem parse_to_spec {line : Bytes} {group : Nat}
    (h : parseHttpRequest line group ≠ .err .badRequest) :
    ∃ md url v, md ∈ methods ∧ RequestLine line md.name url v := by
  obtain ⟨md, name, s1, url, s2, v, hm, h2, h3, h4, h5, h6, h7, h1⟩ := parse_shape h
  exact ⟨md, url, v, hm, (spec_of_method hm).2 ⟨name, s1, s2, h2, h3, h4, h5, h6, h7, h1⟩⟩

/-! ### URL -/

theorem findQmark_none {url : Bytes} : ∀ {n}, findQmark url n = none ↔
    ∀ j, 1 ≤ j → j ≤ n → url[j]? ≠ some ch%'?' := by
  intro n
  induction n with
  | zero => simp [findQmark]; omega
  | succ n ih =>
    unfold findQmark
    by_cases h : url[n+1]? = some ch%'?'
    · simp only [h, if_true]
      constructor
      · intro h'; cases h'
      · intro h'; exact absurd h (h' (n+1) (by omega) (by omega))
    · simp only [h, if_false, ih]
      constructor
      · intro h' j h1 h2
        rcases Nat.lt_or_ge n j with h3 | h3
        · have : j = n + 1 := by omega
          rw [this]; exact h
        · exact h' j h1 h3
      · intro h' j h1 h2; exact h' j h1 (by omega)

theorem findQmark_some {url : Bytes} : ∀ {n p}, findQmark url n = some p ↔
    1 ≤ p ∧ p ≤ n ∧ url[p]? = some ch%'?' ∧ ∀ j, p < j → j ≤ n → url[j]? ≠ some ch%'?' := by
  intro n p
  induction n with
  | zero => simp [findQmark]; omega
  | succ n ih =>
    unfold findQmark
    by_cases h : url[n+1]? = some ch%'?'
    · simp only [h, if_true, Option.some.injEq]
      constructor
      · rintro rfl; exact ⟨by omega, by omega, h, fun j h1 h2 => by omega⟩
      · rintro ⟨h1, h2, h3, h4⟩
        rcases Nat.lt_or_ge p (n+1) with h5 | h5
        · exact absurd h (h4 (n+1) h5 (by omega))
        · omega
    · simp only [h, if_false, ih]
      constructor
      · rintro ⟨h1, h2, h3, h4⟩
        refine ⟨h1, by omega, h3, fun j h5 h6 => ?_⟩
        rcases Nat.lt_or_ge n j with h7 | h7
        · have : j = n + 1 := by omega
          rw [this]; exact h
        · exact h4 j h5 h7
      · rintro ⟨h1, h2, h3, h4⟩
        have : p ≠ n + 1 := by rintro rfl; exact h h3
        exact ⟨h1, by omega, h3, fun j h5 h6 => h4 j h5 (by omega)⟩

theorem doSplit_noq {r : Req} (hs : r.split = true) (h : ch%'?' ∉ r.url.drop 1) :
    r.doSplit = { r with path := r.url, query := none, params := [], split := false } := by
  have : findQmark r.url r.url.length = none := by
    rw [findQmark_none]
    intro j h1 h2 h3
    apply h
    have : (r.url.drop 1)[j-1]? = some ch%'?' := by
      rw [List.getElem?_drop]; rw [show 1 + (j-1) = j by omega]; exact h3
    exact List.mem_of_getElem? this
  simp [Req.doSplit, hs, this]

theorem doSplit_q {r : Req} {path q : Bytes} (hs : r.split = true) (hp : path ≠ [])
    (hu : r.url = path ++ ch%'?' :: q) (hq : ch%'?' ∉ q) :
    r.doSplit = { r with path := path, query := if q = [] then none else some q, params := [],
                         split := false } := by
  have hpl : path.length ≠ 0 := fun h => hp (List.eq_nil_of_length_eq_zero h)
  have : findQmark r.url r.url.length = some path.length := by
    rw [findQmark_some]
    refine ⟨by omega, by simp [hu], by simp [hu], ?_⟩
    intro j h1 h2 h3
    rw [hu, List.getElem?_append_right (by omega)] at h3
    rw [show j - path.length = (j - path.length - 1) + 1 by omega, List.getElem?_cons_succ] at h3
    exact hq (List.mem_of_getElem? h3)
  have hd : r.url.drop (path.length + 1) = q := by rw [hu]; simp
  have ht : r.url.take path.length = path := by rw [hu]; simp
  simp only [Req.doSplit, hs, if_true, this, hd, ht]
  cases q <;> simp

/-- Every URI either has no `?` after its first character or is cut at the last one. -/
theorem last_qmark (u : Bytes) : ch%'?' ∉ u.drop 1 ∨
    ∃ path q, path ≠ [] ∧ u = path ++ ch%'?' :: q ∧ ch%'?' ∉ q := by
  by_cases h : ch%'?' ∈ u.drop 1
  · right
    obtain ⟨a, b, hab, hb⟩ : ∃ a b, u.drop 1 = a ++ ch%'?' :: b ∧ ch%'?' ∉ b := by
      generalize u.drop 1 = l at h
      induction l with
      | nil => cases h
      | cons x l ih =>
        by_cases hl : ch%'?' ∈ l
        · obtain ⟨a, b, h1, h2⟩ := ih hl
          exact ⟨x :: a, b, by simp [h1], h2⟩
        · simp only [List.mem_cons, hl, or_false] at h
          exact ⟨[], l, by simp [h], hl⟩
    cases u with
    | nil => simp at h
    | cons x u =>
      simp only [List.drop_succ_cons, List.drop_zero] at hab
      exact ⟨x :: a, b, by simp, by simp [hab], hb⟩
  · exact Or.inl h

theorem doSplit_of_not {r : Req} (h : r.split = false) : r.doSplit = r := by
  simp [Req.doSplit, h]

theorem doSplit_split (r : Req) : r.doSplit.split = false := by
  unfold Req.doSplit
  split
  · dsimp only
    split <;> rfl
  · simpa using ‹¬r.split = true›

theorem doSplit_idem (r : Req) : r.doSplit.doSplit = r.doSplit :=
  doSplit_of_not (doSplit_split r)

theorem doSplit_url (r : Req) : r.doSplit.url = r.url := by
  unfold Req.doSplit
  split
  · dsimp only
    split <;> rfl
  · rfl

/-! ### Query parameters -/

/-- No `&` in a name or value and no `=` in a name. -/
def CleanParam (p : Bytes × Option Bytes) : Prop :=
  (∀ c ∈ p.1, c ≠ ch%'&' ∧ c ≠ ch%'=') ∧ ∀ v, p.2 = some v → ∀ c ∈ v, c ≠ ch%'&'

theorem parseParam_text (p : Bytes) : paramText (parseParam p) = p := by
  unfold parseParam
  obtain ⟨b, h1, h2, -, h3, h4⟩ := takeWhile_split notEq p
  simp only
  split
  · rename_i hlt
    cases b with
    | nil =>
      have := congrArg List.length h1
      simp only [List.append_nil] at this
      omega
    | cons c t =>
      have hc : c = ch%'=' := by simpa [notEq] using h3 c t rfl
      have : p.drop ((p.takeWhile notEq).length + 1) = t := by
        rw [show (p.takeWhile notEq).length + 1 = (p.takeWhile notEq).length + 1 from rfl,
          ← List.drop_drop, ← h2]; rfl
      rw [this]
      simp only [paramText]
      rw [← hc, ← h1]
  · rename_i hlt
    have : b = [] := by
      have := congrArg List.length h1
      simp at this
      cases b with
      | nil => rfl
      | cons => simp at this; omega
    simp only [paramText]
    rw [this] at h1; simpa using h1.symm

theorem parseParam_clean {p : Bytes} (h : ∀ c ∈ p, c ≠ ch%'&') : CleanParam (parseParam p) := by
  constructor
  · intro c hc
    have hc' : c ∈ p := by
      obtain ⟨b, h1, -⟩ := takeWhile_split notEq p
      rw [h1]; simp only [parseParam] at hc; simp [hc]
    obtain ⟨b, h1, h2, -, h3, h4⟩ := takeWhile_split notEq p
    exact ⟨h c hc', by simpa [notEq] using h4 c hc⟩
  · intro v hv c hc
    simp only [parseParam] at hv
    split at hv
    · injection hv with hv; subst hv
      exact h c (List.mem_of_mem_drop hc)
    · cases hv

theorem parseParam_of_text {p : Bytes × Option Bytes} (h : CleanParam p) :
    parseParam (paramText p) = p := by
  obtain ⟨n, v⟩ := p
  have hn : ∀ c ∈ n, notEq c = true := fun c hc => by simp [notEq, (h.1 c hc).2]
  cases v with
  | none =>
    have : n.takeWhile notEq = n := by
      have := takeWhile_app (b := []) hn (by simp); simpa using this
    simp [parseParam, paramText, this]
  | some v =>
    have : (n ++ ch%'=' :: v).takeWhile notEq = n :=
      takeWhile_app hn (by intro c t h; injection h with h _; subst h; rfl)
    simp only [parseParam, paramText, this]
    simp

theorem parseQuery_nil : parseQuery [] = [] := by rw [parseQuery]

theorem parseQuery_last {p : Bytes} (hp : p ≠ []) (h : ∀ c ∈ p, c ≠ ch%'&') :
    parseQuery p = [parseParam p] := by
  cases p with
  | nil => exact absurd rfl hp
  | cons c t =>
    have : (c :: t).takeWhile notAmp = c :: t := by
      have := takeWhile_app (p := notAmp) (a := c :: t) (b := [])
        (fun x hx => by simp [notAmp, h x hx]) (by simp)
      simpa using this
    rw [parseQuery]
    simp only [this]
    rw [List.drop_of_length_le (by simp), parseQuery_nil]

theorem parseQuery_amp {p q : Bytes} (h : ∀ c ∈ p, c ≠ ch%'&') :
    parseQuery (p ++ ch%'&' :: q) = parseParam p :: parseQuery q := by
  have h1 : (p ++ ch%'&' :: q).takeWhile notAmp = p :=
    takeWhile_app (fun x hx => by simp [notAmp, h x hx])
      (by intro c t h; injection h with h _; subst h; rfl)
  cases hpq : p ++ ch%'&' :: q with
  | nil => simp at hpq
  | cons c t =>
    rw [parseQuery]
    rw [← hpq, h1]
    simp

/-- Cut a query at its first ampersand. -/
theorem amp_cases (q : Bytes) : (∀ c ∈ q, c ≠ ch%'&') ∨
    ∃ p q', q = p ++ ch%'&' :: q' ∧ ∀ c ∈ p, c ≠ ch%'&' := by
  obtain ⟨b, h1, h2, -, h3, h4⟩ := takeWhile_split notAmp q
  have h4' : ∀ c ∈ q.takeWhile notAmp, c ≠ ch%'&' := fun c hc => by simpa [notAmp] using h4 c hc
  cases b with
  | nil => left; simp at h1; rw [h1]; exact h4'
  | cons c t =>
    have hc : c = ch%'&' := by simpa [notAmp] using h3 c t rfl
    exact Or.inr ⟨_, t, by rw [hc] at h1; exact h1, h4'⟩

theorem parseQuery_clean (q : Bytes) : ∀ p ∈ parseQuery q, CleanParam p := by
  induction hn : q.length using Nat.strongRecOn generalizing q with
  | ind n ih =>
    rcases amp_cases q with h | ⟨p, q', rfl, h⟩
    · by_cases hq : q = []
      · rw [hq, parseQuery_nil]; simp
      · rw [parseQuery_last hq h]; simpa using parseParam_clean h
    · rw [parseQuery_amp h]
      intro p' hp'
      rcases List.mem_cons.1 hp' with rfl | hp'
      · exact parseParam_clean h
      · exact ih q'.length (by simp at hn; omega) q' rfl p' hp'

theorem lists_parse (q : Bytes) : ∃ q0, (q = q0 ∨ q = q0 ++ [ch%'&']) ∧ Lists q0 (parseQuery q) := by
  induction hn : q.length using Nat.strongRecOn generalizing q with
  | ind n ih =>
    rcases amp_cases q with h | ⟨p, q', rfl, h⟩
    · by_cases hq : q = []
      · exact ⟨[], Or.inl hq, by rw [hq, parseQuery_nil]; exact .nil⟩
      · refine ⟨q, Or.inl rfl, ?_⟩
        rw [parseQuery_last hq h]
        have := Lists.one (parseParam q)
        rwa [parseParam_text] at this
    · rw [parseQuery_amp h]
      have e := parseParam_text p
      by_cases hq : q' = []
      · subst hq
        refine ⟨p, Or.inr rfl, ?_⟩
        rw [parseQuery_nil]
        have := Lists.one (parseParam p)
        rwa [parseParam_text] at this
      · obtain ⟨q0, h1, h2⟩ := ih q'.length (by simp at hn; omega) q' rfl
        refine ⟨p ++ ch%'&' :: q0, ?_, ?_⟩
        · rcases h1 with h1 | h1
          · left; rw [h1]
          · right; conv => lhs; rw [h1]
            simp
        · have hne : parseQuery q' ≠ [] := by
            rcases amp_cases q' with h' | ⟨p', q'', rfl, h'⟩
            · rw [parseQuery_last hq h']; simp
            · rw [parseQuery_amp h']; simp
          have := Lists.cons (parseParam p) hne h2
          rwa [parseParam_text] at this

theorem render_true (ps : Params) (h : ps ≠ []) :
    renderLoop true ps = ch%'&' :: renderLoop false ps := by
  cases ps with
  | nil => exact absurd rfl h
  | cons p t => obtain ⟨n, v⟩ := p; simp [renderLoop]

theorem render_cons (p : Bytes × Option Bytes) (t : Params) :
    renderLoop false (p :: t) = paramText p ++ renderLoop true t := by
  obtain ⟨n, v⟩ := p
  cases v <;> simp [renderLoop, paramText]

theorem lists_render (ps : Params) : Lists (renderLoop false ps) ps := by
  induction ps with
  | nil => exact .nil
  | cons p t ih =>
    rw [render_cons]
    by_cases ht : t = []
    · subst ht; simpa [renderLoop] using Lists.one p
    · rw [render_true t ht]; exact .cons p ht ih

theorem paramText_noamp {p : Bytes × Option Bytes} (h : CleanParam p) :
    ∀ c ∈ paramText p, c ≠ ch%'&' := by
  obtain ⟨n, v⟩ := p
  intro c hc
  cases v with
  | none => exact (h.1 c hc).1
  | some v =>
    simp only [paramText, List.mem_append, List.mem_cons] at hc
    rcases hc with hc | rfl | hc
    · exact (h.1 c hc).1
    · decide
    · exact h.2 v rfl c hc

theorem paramText_nil {p : Bytes × Option Bytes} (h : paramText p = []) : p = ([], none) := by
  obtain ⟨n, v⟩ := p
  cases v with
  | none => simp only [paramText] at h; rw [h]
  | some v => simp [paramText] at h

/-- Parsing a rendered list gives it back, but for a final nameless, valueless entry. -/
theorem parse_render (ps : Params) (h : ∀ p ∈ ps, CleanParam p) :
    parseQuery (renderLoop false ps) =
      if ps.getLast? = some ([], none) then ps.dropLast else ps := by
  induction ps with
  | nil => simp [renderLoop, parseQuery_nil]
  | cons p t ih =>
    have hp := h p (by simp)
    rw [render_cons]
    by_cases ht : t = []
    · subst ht
      simp only [renderLoop, List.append_nil]
      by_cases he : paramText p = []
      · have := paramText_nil he
        rw [he, this, parseQuery_nil]; simp
      · rw [parseQuery_last he (paramText_noamp hp), parseParam_of_text hp]
        have : p ≠ ([], none) := by rintro rfl; exact he rfl
        simp [this]
    · rw [render_true t ht, parseQuery_amp (paramText_noamp hp), parseParam_of_text hp,
        ih (fun p hp => h p (by simp [hp]))]
      cases t with
      | nil => exact absurd rfl ht
      | cons x t =>
        simp only [List.getLast?_cons_cons, List.dropLast_cons_cons]
        split <;> rfl

/-! ### The parameter view of a request -/

theorem lookup_eq (k : Bytes) (ps : Params) :
    (ps.find? (fun p => p.1 == k)).map (·.2) = lookup k ps := by
  induction ps with
  | nil => rfl
  | cons p t ih =>
    obtain ⟨n, v⟩ := p
    by_cases h : n = k
    · simp [List.find?, h, lookup]
    · have : (n == k) = false := by simpa using h
      simp only [List.find?, this, lookup, if_neg h]
      exact ih

theorem rebuildLine_params (r : Req) : r.rebuildLine.params = r.params := rfl

theorem loadParams_split (r : Req) : r.loadParams.split = false := by
  unfold Req.loadParams
  have := doSplit_split r
  dsimp only
  split
  · split <;> simpa using this
  · exact this

theorem loadParams_params_of {r : Req} (hs : r.split = false)
    (h : r.params = [] → ∀ q, r.query = some q → parseQuery q = []) :
    r.loadParams.params = r.params := by
  have hd : r.doSplit = r := by simp [Req.doSplit, hs]
  unfold Req.loadParams
  simp only [hd]
  cases hp : r.params with
  | nil =>
    simp only [List.isEmpty_nil, if_true]
    cases hq : r.query with
    | none => exact hp
    | some q => simp [h hp q hq]
  | cons p t => simp [hp]

theorem loadParams_params_idem (r : Req) : r.loadParams.loadParams.params = r.loadParams.params := by
  apply loadParams_params_of (loadParams_split r)
  intro hp q hq
  unfold Req.loadParams at hp hq
  simp only at hp hq
  split at hp
  · rename_i he
    simp only [he, if_true] at hq
    cases hq' : r.doSplit.query with
    | none => rw [hq'] at hq; simp only [hq'] at hq; cases hq
    | some q' =>
      simp only [hq'] at hq hp
      injection hq with hq
      subst hq
      simpa using (List.append_eq_nil_iff.1 hp).2
  · rename_i he
    exact absurd (by simp [hp]) he

theorem rebuildQuery_params (r : Req) (hs : r.split = false) :
    r.rebuildQuery.loadParams.params = r.params := by
  have : r.rebuildQuery.split = false := hs
  have h2 : r.rebuildQuery.params = r.params := rfl
  have h3 : r.rebuildQuery.query = some (renderLoop false r.params) := rfl
  rw [loadParams_params_of this, h2]
  intro hp q hq
  rw [h3] at hq
  injection hq with hq
  subst hq
  rw [h2] at hp
  rw [hp]; simp [renderLoop, parseQuery_nil]

/-- The parameters of a request, as seen through its interface. -/
def Req.paramsOf (r : Req) : Params := r.loadParams.params

/-- Effect of a set / remove on the parameter list. -/
def specSet (k : Bytes) (v : Option Bytes) (ps : Params) : Params :=
  match lookup k ps, v with
  | none, none => ps
  | none, some v => ps ++ [(k, some v)]
  | some _, none => removeFirst k ps
  | some _, some v => replaceFirst k v ps

theorem setParam_paramsOf (r : Req) (k : Bytes) (v : Option Bytes) :
    (r.setParam k v).paramsOf = specSet k v r.paramsOf := by
  unfold Req.setParam Req.getParam Req.paramsOf specSet
  simp only [lookup_eq]
  have hs := loadParams_split r
  cases hl : lookup k r.loadParams.params <;> cases v <;> simp only
  · exact loadParams_params_idem r
  · exact rebuildQuery_params _ hs
  · exact rebuildQuery_params _ hs
  · exact rebuildQuery_params _ hs

theorem lookup_none_iff (k : Bytes) (ps : Params) :
    lookup k ps = none ↔ ps.dropWhile (fun p => p.1 ≠ k) = [] := by
  induction ps with
  | nil => simp [lookup]
  | cons p t ih =>
    obtain ⟨n, v⟩ := p
    by_cases h : n = k
    · simp [lookup, h]
    · simp only [lookup, h, if_false, ih]
      simp [h]

theorem removeFirst_eq (k : Bytes) (ps : Params) : removeFirst k ps =
    ps.takeWhile (fun p => p.1 ≠ k) ++ (ps.dropWhile (fun p => p.1 ≠ k)).drop 1 := by
  induction ps with
  | nil => rfl
  | cons p t ih =>
    obtain ⟨n, v⟩ := p
    by_cases h : n = k
    · simp [removeFirst, h]
    · have h' : (n == k) = false := by simpa using h
      simp [removeFirst, h', h, ih]

theorem replaceFirst_eq (k v : Bytes) (ps : Params) (h : lookup k ps ≠ none) : replaceFirst k v ps =
    ps.takeWhile (fun p => p.1 ≠ k) ++ (k, some v) :: (ps.dropWhile (fun p => p.1 ≠ k)).drop 1 := by
  induction ps with
  | nil => exact absurd rfl h
  | cons p t ih =>
    obtain ⟨n, w⟩ := p
    by_cases hn : n = k
    · simp [replaceFirst, hn]
    · have h' : (n == k) = false := by simpa using hn
      simp only [lookup, hn, if_false] at h
      simp [replaceFirst, h', hn, ih h]

theorem specSet_eq (k : Bytes) (v : Option Bytes) (ps : Params) : specSet k v ps = update k v ps := by
  unfold specSet update
  cases hl : lookup k ps with
  | none =>
    have := (lookup_none_iff k ps).1 hl
    cases v <;> simp only [this]
  | some w =>
    cases hd : ps.dropWhile (fun p => p.1 ≠ k) with
    | nil => rw [(lookup_none_iff k ps).2 hd] at hl; cases hl
    | cons x t =>
      cases v with
      | none => simp only [removeFirst_eq, hd]; rfl
      | some v =>
        simp only [replaceFirst_eq k v ps (by rw [hl]; simp), hd]; rfl

theorem lookup_append (k : Bytes) (a b : Params) :
    lookup k (a ++ b) = (lookup k a).or (lookup k b) := by
  induction a with
  | nil => simp [lookup]
  | cons p t ih =>
    obtain ⟨n, v⟩ := p
    by_cases h : n = k <;> simp [lookup, h, ih]

theorem lookup_replace (k v : Bytes) (ps : Params) (h : lookup k ps ≠ none) :
    lookup k (replaceFirst k v ps) = some (some v) := by
  induction ps with
  | nil => exact absurd rfl h
  | cons p t ih =>
    obtain ⟨n, w⟩ := p
    by_cases hn : n = k
    · simp [replaceFirst, hn, lookup]
    · have : (n == k) = false := by simpa using hn
      simp only [lookup, hn, if_false] at h
      simp [replaceFirst, this, lookup, hn, ih h]

theorem others_replace (k v : Bytes) (ps : Params) : others k (replaceFirst k v ps) = others k ps := by
  induction ps with
  | nil => rfl
  | cons p t ih =>
    obtain ⟨n, w⟩ := p
    by_cases hn : n = k
    · simp [replaceFirst, hn, others]
    · have : (n == k) = false := by simpa using hn
      have e : ∀ x : Params, others k ((n, w) :: x) = (n, w) :: others k x := by
        intro x; simp [others, hn]
      simp [replaceFirst, this, e, ih]

theorem others_remove (k : Bytes) (ps : Params) : others k (removeFirst k ps) = others k ps := by
  induction ps with
  | nil => rfl
  | cons p t ih =>
    obtain ⟨n, w⟩ := p
    by_cases hn : n = k
    · simp [removeFirst, hn, others]
    · have : (n == k) = false := by simpa using hn
      have e : ∀ x : Params, others k ((n, w) :: x) = (n, w) :: others k x := by
        intro x; simp [others, hn]
      simp [removeFirst, this, e, ih]

theorem names_replace (k v : Bytes) (ps : Params) :
    (replaceFirst k v ps).map (·.1) = ps.map (·.1) := by
  induction ps with
  | nil => rfl
  | cons p t ih =>
    simp only [replaceFirst]
    split <;> simp [ih]

theorem valuesOf_remove (k : Bytes) (ps : Params) :
    valuesOf k (removeFirst k ps) = (valuesOf k ps).tail := by
  induction ps with
  | nil => rfl
  | cons p t ih =>
    obtain ⟨n, w⟩ := p
    by_cases hn : n = k
    · simp [removeFirst, hn, valuesOf]
    · have : (n == k) = false := by simpa using hn
      simp only [valuesOf] at ih
      simp [removeFirst, this, valuesOf, hn, ih]

theorem valuesOf_replace (k v : Bytes) (ps : Params) (h : lookup k ps ≠ none) :
    valuesOf k (replaceFirst k v ps) = some v :: (valuesOf k ps).tail := by
  induction ps with
  | nil => exact absurd rfl h
  | cons p t ih =>
    obtain ⟨n, w⟩ := p
    by_cases hn : n = k
    · simp [replaceFirst, hn, valuesOf]
    · have : (n == k) = false := by simpa using hn
      simp only [lookup, hn, if_false] at h
      have ih := ih h
      simp only [valuesOf] at ih
      simp [replaceFirst, this, valuesOf, hn, ih]

theorem lookup_none_valuesOf {k : Bytes} {ps : Params} (h : lookup k ps = none) : valuesOf k ps = [] := by
  induction ps with
  | nil => rfl
  | cons p t ih =>
    obtain ⟨n, w⟩ := p
    by_cases hn : n = k
    · simp [lookup, hn] at h
    · simp only [lookup, hn, if_false] at h
      have ih := ih h
      simp only [valuesOf] at ih
      simp [valuesOf, hn, ih]

theorem lookup_valuesOf (k : Bytes) (ps : Params) : lookup k ps = (valuesOf k ps).head? := by
  induction ps with
  | nil => rfl
  | cons p t ih =>
    obtain ⟨n, w⟩ := p
    by_cases hn : n = k
    · simp [lookup, hn, valuesOf]
    · simp only [lookup, hn, if_false, ih]
      simp [valuesOf, hn]

theorem lookup_others {k k' : Bytes} (h : k' ≠ k) (ps : Params) : lookup k' ps = lookup k' (others k ps) := by
  induction ps with
  | nil => rfl
  | cons p t ih =>
    obtain ⟨n, w⟩ := p
    by_cases hn : n = k
    · subst hn
      simp only [lookup, if_neg (fun e => h (Eq.symm e)), ih]
      simp [others]
    · simp only [others] at ih
      simp only [others, lookup, ih]
      simp [hn, lookup]

/-! ### Coherence -/

/-- The representation invariant of the request views. -/
def Coherent (r : Req) : Prop :=
  r.split = false → r.url = r.path ++ (match r.query with | some q => ch%'?' :: q | none => []) ∨
    (r.query = none ∧ r.url = r.path ++ [ch%'?'])

theorem coherent_doSplit (r : Req) (h : Coherent r) : Coherent r.doSplit := by
  by_cases hs : r.split = true
  · intro _
    rcases last_qmark r.url with hn | ⟨path, q, hp, hu, hq⟩
    · rw [doSplit_noq hs hn]; simp
    · rw [doSplit_q hs hp hu hq]
      by_cases hq' : q = []
      · subst hq'; right; exact ⟨by simp, hu⟩
      · left; simp only [hq', if_false]; exact hu
  · have : r.doSplit = r := by simp [Req.doSplit, hs]
    rw [this]; exact h

theorem coherent_rebuildUrl (r : Req) : Coherent r.rebuildUrl := by
  intro _; left
  simp only [Req.rebuildUrl, Req.rebuildLine]
  cases r.query <;> rfl

theorem coherent_loadParams (r : Req) (h : Coherent r) : Coherent r.loadParams := by
  have hd := coherent_doSplit r h
  unfold Req.loadParams
  simp only
  split
  · split
    · exact hd
    · exact hd
  · exact hd

/-- The line to be sent, for a given method, URL and version. -/
def lineOf (r : Req) : Bytes :=
  (methodName r.meth).getD [] ++ b!" " ++ r.url ++ b!" HTTP/1." ++ [UInt8.ofNat (48 + r.version)]

theorem rebuildLine_line (r : Req) : r.rebuildLine.request = lineOf r := by
  simp [Req.rebuildLine, lineOf, Nat.add_comm]

end Pound
