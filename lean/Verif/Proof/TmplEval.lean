import Verif.Proof.TmplParse
import Verif.Proof.Json

/-! What templates print -/

namespace Pound

open Spec

variable {D : Type}

/-! Values -/

theorem lookup_lookupL {V} (l : List (Bytes × V)) (k : Bytes) : l.lookup k = lookupL l k := by
  induction l with
  | nil => rfl
  | cons p l ih =>
    obtain ⟨a, v⟩ := p
    simp only [lookupL, List.lookup_cons, List.find?_cons] at ih ⊢
    by_cases h : k = a
    · subst h; simp
    · have h1 : (k == a) = false := by simpa using h
      have h2 : (a == k) = false := by simp; exact fun e => h e.symm
      simpa [h1, h2] using ih

theorem good_jinv {c : Nat} {l : List (Bytes × JVal D)} (h : TmGood (.obj c l)) :
    JInv (⟨c, l⟩ : JObj (JVal D)) := by
  obtain ⟨h1, h2, -⟩ := h
  exact ⟨h1, h2.imp (fun hab => (strcmp_lt_iff _ _).mpr hab)⟩

theorem goodP_lookup {l : List (Bytes × JVal D)} (h : TmGoodP l) {k : Bytes} {v}
    (hv : lookupL l k = some v) : TmGood v := by
  induction l with
  | nil => simp [lookupL] at hv
  | cons p l ih =>
    obtain ⟨a, w⟩ := p
    obtain ⟨h1, h2⟩ := h
    simp only [lookupL, List.find?_cons] at ih hv
    by_cases hk : (a == k) = true
    · simp [hk] at hv; subst hv; exact h1
    · simp only [Bool.not_eq_true] at hk
      simp only [hk] at hv
      exact ih h2 hv

theorem goodL_get {l : List (JVal D)} (h : TmGoodL l) {v} (hv : v ∈ l) : TmGood v := by
  induction l with
  | nil => simp at hv
  | cons w l ih =>
    obtain ⟨h1, h2⟩ := h
    rcases List.mem_cons.mp hv with rfl | hv
    · exact h1
    · exact ih h2 hv

theorem goodL_iff {l : List (JVal D)} : TmGoodL l ↔ ∀ v ∈ l, TmGood v := by
  constructor
  · exact fun h v hv => goodL_get h hv
  · intro h
    induction l with
    | nil => trivial
    | cons w l ih => exact ⟨h w (by simp), ih (fun v hv => h v (by simp [hv]))⟩

theorem goodP_get {l : List (Bytes × JVal D)} (h : TmGoodP l) {p} (hp : p ∈ l) : TmGood p.2 := by
  induction l with
  | nil => simp at hp
  | cons w l ih =>
    obtain ⟨a, w⟩ := w
    obtain ⟨h1, h2⟩ := h
    rcases List.mem_cons.mp hp with rfl | hp
    · exact h1
    · exact ih h2 hp

theorem getAttr_ok {v : JVal D} (h : TmGood v) (n : Bytes) :
    getAttr v n = .ok (tmAttr v n) ∧ TmGood (tmAttr v n) := by
  cases v with
  | obj c l =>
    have hj := jGet_spec (good_jinv h) n
    simp only [getAttr, tmAttr, lookup_lookupL, hj]
    cases hl : lookupL l n with
    | none => exact ⟨rfl, trivial⟩
    | some w => exact ⟨rfl, goodP_lookup h.2.2 hl⟩
  | _ => exact ⟨rfl, trivial⟩

theorem isEmpty_ok {N : TNum D} {v : JVal D} (h : TmGood v) {z} (hz : tmEmpty N v = some z) :
    isEmpty N v = .ok z := by
  cases v with
  | num d =>
    simp only [tmEmpty] at hz
    split at hz
    · next he => simp at hz; simp [isEmpty, ← he, hz]
    · simp at hz
  | int d =>
    simp only [tmEmpty, Option.map_eq_some_iff] at hz
    obtain ⟨n, hn, rfl⟩ := hz
    simp [isEmpty, hn, TOut.ofOpt]
  | str s =>
    simp only [tmEmpty, Option.some.injEq] at hz
    subst hz
    cases s <;> simp [isEmpty]
  | arr l =>
    simp only [tmEmpty, Option.some.injEq] at hz
    subst hz
    cases l <;> simp [isEmpty]
  | obj c l =>
    simp only [tmEmpty, Option.some.injEq] at hz
    subst hz
    rw [isEmpty, h.1]
    cases l <;> simp
  | _ => simpa [tmEmpty, isEmpty] using hz

theorem printVal_ok (N : TNum D) (v : JVal D) : printVal N v = tmShow N v := by
  cases v <;> simp [printVal, tmShow, fmtVal]

/-! Functions -/

theorem and_ok {N : TNum D} (args : List (JVal D)) (hg : ∀ v ∈ args, TmGood v) (res : Option (JVal D))
    (es : List Bool) (he : args.mapM (tmEmpty N) = some es) {v}
    (hv : ((args.zip es).find? (·.2)).elim (args.getLast?.or res) (fun p => some p.1) = some v) :
    funAnd N res args = .ok v := by
  induction args generalizing res es with
  | nil => simp at he; subst he; simp at hv; simp [funAnd, hv, TOut.ofOpt]
  | cons a args ih =>
    simp only [List.mapM_cons, Option.bind_eq_bind, Option.bind_eq_some_iff, Option.pure_def,
      Option.some.injEq] at he
    obtain ⟨z, hz, zs, hzs, rfl⟩ := he
    simp only [funAnd, isEmpty_ok (hg a (by simp)) hz, tout_bind_ok]
    cases z with
    | true => simp at hv; simp [hv]
    | false =>
      simp only [List.zip_cons_cons, List.find?_cons] at hv
      simp only [Bool.false_eq_true, if_false]
      refine ih (fun v h => hg v (by simp [h])) (some a) zs hzs ?_
      rw [← hv]
      cases h : (args.zip zs).find? (·.2) with
      | some p => rfl
      | none =>
        simp only [Option.elim]
        cases args <;> simp [List.getLast?_cons]

theorem or_ok {N : TNum D} (args : List (JVal D)) (hg : ∀ v ∈ args, TmGood v) (res : Option (JVal D))
    (es : List Bool) (he : args.mapM (tmEmpty N) = some es) {v}
    (hv : ((args.zip es).find? (fun p => !p.2)).elim (args.getLast?.or res) (fun p => some p.1)
      = some v) :
    funOr N res args = .ok v := by
  induction args generalizing res es with
  | nil => simp at he; subst he; simp at hv; simp [funOr, hv, TOut.ofOpt]
  | cons a args ih =>
    simp only [List.mapM_cons, Option.bind_eq_bind, Option.bind_eq_some_iff, Option.pure_def,
      Option.some.injEq] at he
    obtain ⟨z, hz, zs, hzs, rfl⟩ := he
    simp only [funOr, isEmpty_ok (hg a (by simp)) hz, tout_bind_ok]
    cases z with
    | false => simp at hv; simp [hv]
    | true =>
      simp only [List.zip_cons_cons, List.find?_cons] at hv
      simp only [Bool.not_true, Bool.false_eq_true, if_false]
      refine ih (fun v h => hg v (by simp [h])) (some a) zs hzs ?_
      rw [← hv]
      cases h : (args.zip zs).find? (fun p => !p.2) with
      | some p => rfl
      | none =>
        simp only [Option.elim]
        cases args <;> simp [List.getLast?_cons]

theorem pick_good {args : List (JVal D)} (hg : ∀ v ∈ args, TmGood v) {es : List Bool} {q : Bool → Bool} {v}
    (hv : ((args.zip es).find? (fun p => q p.2)).elim args.getLast? (fun p => some p.1) = some v) :
    TmGood v := by
  cases h : (args.zip es).find? (fun p => q p.2) with
  | none =>
    rw [h] at hv
    exact hg v (List.mem_of_getLast? hv)
  | some p =>
    rw [h] at hv
    simp at hv
    have := List.mem_of_find?_eq_some h
    rw [← hv]
    obtain ⟨a, b⟩ := p
    exact hg a (List.of_mem_zip this).1

theorem upTo_iff (ds : Bytes) (m : Nat) : TmUpTo ds m ↔ (ds ≠ [] ∧ ds.all isDigit = true) ∧ tmNat ds ≤ m := by
  unfold TmUpTo
  have : (∀ c ∈ ds, TmDigit c) ↔ ds.all isDigit = true := by simp [List.all_eq_true, TmDigit, isDigit]
  rw [this, and_assoc]

/-- What strtol makes of sign and digits -/
def signed (neg : Bool) (t : Bytes) : Int :=
  if t ≠ [] ∧ t.all isDigit then
    let n : Nat := t.foldl (fun (a : Nat) c => a * 10 + (c.toNat - 48)) 0
    let v : Int := if neg then -(n : Int) else n
    if v < -(2 ^ 63) ∨ 2 ^ 63 - 1 < v then 0 else v
  else 0

theorem signed_neg (t : Bytes) : signed true t = if TmUpTo t (2 ^ 63) then -(tmNat t : Int) else 0 := by
  have hu := upTo_iff t (2 ^ 63)
  unfold signed
  change (if _ then (if (-(tmNat t : Int)) < -(2 ^ 63) ∨ 2 ^ 63 - 1 < (-(tmNat t : Int)) then 0 else (-(tmNat t : Int))) else 0) = _
  by_cases h1 : t ≠ [] ∧ t.all isDigit = true
  · rw [if_pos h1]
    by_cases h2 : tmNat t ≤ 2 ^ 63
    · rw [if_pos (hu.mpr ⟨h1, h2⟩), if_neg (by omega)]
    · rw [if_neg (fun h => h2 (hu.mp h).2), if_pos (by omega)]
  · rw [if_neg h1, if_neg (fun h => h1 (hu.mp h).1)]

theorem signed_pos (t : Bytes) : signed false t = if TmUpTo t (2 ^ 63 - 1) then (tmNat t : Int) else 0 := by
  have hu := upTo_iff t (2 ^ 63 - 1)
  unfold signed
  change (if _ then (if ((tmNat t : Int)) < -(2 ^ 63) ∨ 2 ^ 63 - 1 < ((tmNat t : Int)) then 0 else ((tmNat t : Int))) else 0) = _
  by_cases h1 : t ≠ [] ∧ t.all isDigit = true
  · rw [if_pos h1]
    by_cases h2 : tmNat t ≤ 2 ^ 63 - 1
    · rw [if_pos (hu.mpr ⟨h1, h2⟩), if_neg (by omega)]
    · rw [if_neg (fun h => h2 (hu.mp h).2), if_pos (by omega)]
  · rw [if_neg h1, if_neg (fun h => h1 (hu.mp h).1)]

theorem strToInt_ok (s : Bytes) : strToInt s = tmTextInt s := by
  have hs : strToInt s = signed ((s.dropWhile isSpace).headD 0 == 45)
      (if (s.dropWhile isSpace).headD 0 == 45 || (s.dropWhile isSpace).headD 0 == 43 then (s.dropWhile isSpace).drop 1 else s.dropWhile isSpace) := rfl
  have hw : s.dropWhile (fun c => c = 32 || (9 ≤ c && c ≤ 13)) = s.dropWhile isSpace := by
    congr 1
  rw [hs]
  unfold tmTextInt
  rw [hw]
  generalize s.dropWhile isSpace = t
  match t with
  | [] => exact signed_pos []
  | c :: ds =>
    by_cases h1 : c = 45
    · subst h1; exact signed_neg ds
    · by_cases h2 : c = 43
      · subst h2; exact signed_pos ds
      · have e1 : (List.headD (c :: ds) 0 == 45) = false := by simp [h1]
        have e2 : (List.headD (c :: ds) 0 == 43) = false := by simp [h2]
        rw [e1, e2]
        rw [show (if (false || false) = true then (c :: ds).drop 1 else c :: ds) = c :: ds from rfl, signed_pos]
        generalize hx : c :: ds = x
        symm
        split
        · cases hx; exact absurd rfl h1
        · cases hx; exact absurd rfl h2
        · rfl

theorem castInt_ok {N : TNum D} {v : JVal D} {n : Int} (h : tmWhole N v = some n) : castInt N v = .ok n := by
  cases v <;> simp only [tmWhole, Option.some.injEq] at h
  all_goals simp [castInt, TOut.ofOpt, h, strToInt_ok]

theorem index_ok {N : TNum D} (ks : List (JVal D)) (v : JVal D) (hv : TmGood v) {w}
    (hw : ks.foldlM (tmIndex N) v = some w) : funIndex N v ks = .ok w ∧ TmGood w := by
  induction ks generalizing v with
  | nil => simp at hw; subst hw; exact ⟨rfl, hv⟩
  | cons k ks ih =>
    simp only [List.foldlM_cons, Option.bind_eq_bind, Option.bind_eq_some_iff] at hw
    obtain ⟨u, hu, hw⟩ := hw
    cases v with
    | arr l =>
      simp only [tmIndex, Option.bind_eq_bind, Option.bind_eq_some_iff] at hu
      obtain ⟨i, hi, hu⟩ := hu
      by_cases h0 : i < 0
      · simp [h0] at hu
      · rw [if_neg h0] at hu
        have := ih u (goodL_get hv (List.mem_of_getElem? hu)) hw
        simpa [funIndex, castInt_ok hi, h0, hu] using this
    | obj c l =>
      cases k with
      | str s =>
        simp only [tmIndex, lookup_lookupL] at hu
        have := ih u (goodP_lookup hv.2.2 hu) hw
        simpa [funIndex, castStr, jGet_spec (good_jinv hv), hu] using this
      | _ => simp [tmIndex] at hu
    | _ => cases k <;> simp [tmIndex] at hu

theorem cmp_ok {N : TNum D} {a b : JVal D} {o} (h : tmCompare N a b = some o) :
    jsonCmp N a b = .ok o := by
  cases a <;> cases b <;> simp only [tmCompare, reduceCtorEq] at h
  · simp at h; subst h; rfl
  · simp only [Option.bind_eq_bind, Option.bind_eq_some_iff] at h
    obtain ⟨i, hi, j, hj, h⟩ := h
    simp at h
    subst h
    simp only [jsonCmp, hi, hj, TOut.ofOpt, tout_bind_ok, tout_pure]
    congr 1
    show _ = compareOfLessAndEq i j
    simp only [compareOfLessAndEq]
    by_cases h1 : i < j
    · simp [h1]
    · by_cases h2 : i = j
      · simp [h2]
      · have : j < i := by omega
        simp [h1, h2, this]
  · next s t =>
    simp at h
    subst h
    simp only [jsonCmp]
    congr 1
    by_cases h1 : s = t
    · subst h1; simp [(strcmp_eq_iff s s).mpr rfl]
    · rw [if_neg h1]
      cases hs : strcmp s t with
      | lt => simp
      | eq => exact absurd ((strcmp_eq_iff s t).mp hs) h1
      | gt => simp

theorem fold_go {op : D → D → D} (l : List (JVal D)) (ds : List D) (h : tmNums l = some ds) (n : D) :
    funFold.go op n l = .ok (ds.foldl op n) := by
  induction l generalizing n ds with
  | nil => simp [tmNums] at h; subst h; rfl
  | cons a l ih =>
    cases a <;> simp only [tmNums, Option.map_eq_some_iff, reduceCtorEq] at h
    all_goals
      obtain ⟨es, he, rfl⟩ := h
      simp [funFold.go, numOf, ih es he]

theorem fold_ok {op : D → D → D} (l : List (JVal D)) {v} (h : tmFold op l = some v) :
    funFold op l = .ok v ∧ TmGood v := by
  cases l with
  | nil => simp [tmFold, tmNums] at h
  | cons a l =>
    simp only [tmFold] at h
    cases a <;> simp only [tmNums, reduceCtorEq] at h
    all_goals
      cases hl : tmNums l with
      | none => simp [hl] at h
      | some ds =>
        simp [hl] at h
        subst h
        exact ⟨by simp [funFold, numOf, fold_go l ds hl], trivial⟩

/-- Printing with the format: what is asked of `pf` -/
def PfOk (N : TNum D) (pf : Bytes → List (JVal D) → Option Bytes) : Prop :=
  ∀ fmt args o, (∀ v ∈ args, TmGood v) → pf fmt args = some o →
    funPrintf N (.str fmt :: args) = .ok (.str o)

theorem two_cmp {N : TNum D} {args : List (JVal D)} {t t' : Ordering → Bool} {v}
    (h : (match (generalizing := false) args with
      | [a, b] => (tmCompare N a b).map (fun o => (JVal.bool (t' o) : JVal D))
      | _ => none) = some v) (ht : ∀ o, t' o = t o) :
    twoArgs args (fun a b => do
      let o ← jsonCmp N a b
      pure (.bool (t o))) = .ok v ∧ TmGood v := by
  match args, h with
  | [a, b], h =>
    simp only [Option.map_eq_some_iff] at h
    obtain ⟨o, ho, rfl⟩ := h
    exact ⟨by simp [twoArgs, cmp_ok ho, ht], trivial⟩

theorem apply_ok {N : TNum D} {pf} (hpf : PfOk N pf) (f : TFun) (args : List (JVal D))
    (hg : ∀ v ∈ args, TmGood v) {v} (h : tmApply N pf f args = some v) :
    applyFun N f args = .ok v ∧ TmGood v := by
  have hand : args.getLast? = args.getLast?.or none := by simp
  cases f with
  | and =>
    simp only [tmApply, Option.bind_eq_bind, Option.bind_eq_some_iff] at h
    obtain ⟨es, he, h⟩ := h
    exact ⟨and_ok args hg none es he (by rw [← hand]; exact h), pick_good (q := id) hg h⟩
  | or =>
    simp only [tmApply, Option.bind_eq_bind, Option.bind_eq_some_iff] at h
    obtain ⟨es, he, h⟩ := h
    exact ⟨or_ok args hg none es he (by rw [← hand]; exact h), pick_good (q := (!·)) hg h⟩
  | index =>
    cases args with
    | nil => simp [tmApply] at h
    | cons a as => exact index_ok as a (hg a (by simp)) h
  | len =>
    match args, hg, h with
    | [.null], _, h => simp [tmApply] at h; subst h; exact ⟨rfl, trivial⟩
    | [.str s], _, h => simp [tmApply] at h; subst h; exact ⟨rfl, trivial⟩
    | [.arr l], _, h => simp [tmApply] at h; subst h; exact ⟨rfl, trivial⟩
    | [.obj c l], hg, h =>
      simp [tmApply] at h; subst h
      have := (hg (.obj c l) (by simp)).1
      exact ⟨by simp [applyFun, oneArg, funLen, this], trivial⟩
    | [], _, h => simp [tmApply] at h
    | [.bool _], _, h => simp [tmApply] at h
    | [.num _], _, h => simp [tmApply] at h
    | [.int _], _, h => simp [tmApply] at h
    | _ :: _ :: _, _, h => simp [tmApply] at h
  | not =>
    match args, hg, h with
    | [a], hg, h =>
      simp only [tmApply, Option.map_eq_some_iff] at h
      obtain ⟨z, hz, rfl⟩ := h
      exact ⟨by simp [applyFun, oneArg, isEmpty_ok (hg a (by simp)) hz], trivial⟩
    | [], _, h => simp [tmApply] at h
    | _ :: _ :: _, _, h => simp [tmApply] at h
  | eq => exact two_cmp h (fun o => by cases o <;> rfl)
  | ne => exact two_cmp h (fun o => by cases o <;> rfl)
  | lt => exact two_cmp h (fun o => by cases o <;> rfl)
  | le => exact two_cmp h (fun o => by cases o <;> rfl)
  | gt => exact two_cmp h (fun o => by cases o <;> rfl)
  | ge => exact two_cmp h (fun o => by cases o <;> rfl)
  | even =>
    match args, h with
    | [v], h =>
      simp only [tmApply, Option.map_eq_some_iff] at h
      obtain ⟨n, hn, rfl⟩ := h
      refine ⟨?_, trivial⟩
      simp only [applyFun, oneArg, castInt_ok hn, tout_bind_ok, tout_pure]
      congr 2
      by_cases hd : (2 : Int) ∣ n
      · have : n % 2 = 0 := by omega
        simp [hd, this]
      · have : n % 2 ≠ 0 := by omega
        simp [hd, this]
    | [], h => simp [tmApply] at h
    | _ :: _ :: _, h => simp [tmApply] at h
  | printf =>
    match args, hg, h with
    | .str fmt :: as, hg, h =>
      simp only [tmApply, Option.map_eq_some_iff] at h
      obtain ⟨o, ho, rfl⟩ := h
      exact ⟨hpf fmt as o (fun v hv => hg v (by simp [hv])) ho, trivial⟩
    | [], _, h => simp [tmApply] at h
    | .null :: _, _, h => simp [tmApply] at h
    | .bool _ :: _, _, h => simp [tmApply] at h
    | .num _ :: _, _, h => simp [tmApply] at h
    | .int _ :: _, _, h => simp [tmApply] at h
    | .arr _ :: _, _, h => simp [tmApply] at h
    | .obj _ _ :: _, _, h => simp [tmApply] at h
  | typeof =>
    match args, h with
    | [a], h =>
      simp [tmApply] at h
      subst h
      exact ⟨by cases a <;> rfl, trivial⟩
    | [], h => simp [tmApply] at h
    | _ :: _ :: _, h => simp [tmApply] at h
  | «exists» =>
    match args, hg, h with
    | [.obj c l, .str k], hg, h =>
      simp [tmApply] at h
      subst h
      refine ⟨?_, trivial⟩
      simp only [applyFun, twoArgs, jGet_spec (good_jinv (hg (.obj c l) (by simp))), TOut.ofRes,
        tout_bind_ok, tout_pure]
      congr 2
      rw [lookupL, Option.isSome_map, List.isSome_find?]
    | [], _, h => simp [tmApply] at h
    | [_], _, h => simp [tmApply] at h
    | _ :: _ :: _ :: _, _, h => simp [tmApply] at h
    | [.null, _], _, h => simp [tmApply] at h
    | [.bool _, _], _, h => simp [tmApply] at h
    | [.num _, _], _, h => simp [tmApply] at h
    | [.int _, _], _, h => simp [tmApply] at h
    | [.str _, _], _, h => simp [tmApply] at h
    | [.arr _, _], _, h => simp [tmApply] at h
    | [.obj _ _, .null], _, h => simp [tmApply] at h
    | [.obj _ _, .bool _], _, h => simp [tmApply] at h
    | [.obj _ _, .num _], _, h => simp [tmApply] at h
    | [.obj _ _, .int _], _, h => simp [tmApply] at h
    | [.obj _ _, .arr _], _, h => simp [tmApply] at h
    | [.obj _ _, .obj _ _], _, h => simp [tmApply] at h
  | add => exact fold_ok args h
  | sub => exact fold_ok args h
  | mul => exact fold_ok args h
  | div =>
    match args, h with
    | [a, b], h =>
      simp only [tmApply, tmFold] at h
      cases a <;> cases b <;> simp [tmNums] at h <;> subst h <;> exact ⟨rfl, trivial⟩
    | [], h => simp [tmApply] at h
    | [_], h => simp [tmApply] at h
    | _ :: _ :: _ :: _, h => simp [tmApply] at h

/-! Pipelines -/

/-- The environment of the program has what the environment of the text has. -/
structure EnvRel (e : TmEnv D) (env : TEnv D) : Prop where
  dot : env.dot = e.dot
  good : TmGood e.dot
  inv : JInv env.vars
  vars : ∀ n x, e.vars n = some x → lookupL env.vars.pairs n = some x ∧ TmGood x

theorem fields_val {N : TNum D} {env : TEnv D} (fs : List Bytes) (c : TCmd) (first prev) {v}
    (hc : ∀ prev first, evalCmd N env prev first c = .ok v) (hv : TmGood v) :
    evalCmd N env prev first (compFields c fs) = .ok (fs.foldl tmAttr v) ∧
      TmGood (fs.foldl tmAttr v) := by
  induction fs generalizing c v with
  | nil => exact ⟨hc _ _, hv⟩
  | cons f fs ih =>
    obtain ⟨h1, h2⟩ := getAttr_ok hv f
    refine ih (.withdot [c] [.attr f]) ?_ h2
    intro prev first
    simp [evalCmd, evalPipe, hc, h1]

mutual
theorem arg_val {N : TNum D} {pf} (hpf : PfOk N pf) {e : TmEnv D} {env} (he : EnvRel e env)
    (a : TmArg) (first prev) {v} (h : a.val N pf e = some v) :
    evalCmd N env prev first (compArg a) = .ok v ∧ TmGood v := by
  match a, h with
  | .int neg ds, h => simp [TmArg.val] at h; subst h; exact ⟨rfl, trivial⟩
  | .str ps, h => simp [TmArg.val] at h; subst h; exact ⟨rfl, trivial⟩
  | .bool b, h => simp [TmArg.val] at h; subst h; exact ⟨rfl, trivial⟩
  | .dot, h =>
    simp [TmArg.val] at h
    subst h
    exact ⟨by simp [compArg, evalCmd, he.dot], he.good⟩
  | .attr a fs, h =>
    simp [TmArg.val] at h
    subst h
    obtain ⟨h1, h2⟩ := getAttr_ok he.good a
    exact fields_val fs (.attr a) first prev (fun _ _ => by rw [evalCmd, he.dot, h1]) h2
  | .var x fs, h =>
    simp only [TmArg.val, Option.map_eq_some_iff] at h
    obtain ⟨w, hw, rfl⟩ := h
    obtain ⟨h1, h2⟩ := he.vars x w hw
    refine fields_val fs (.var x) first prev (fun _ _ => ?_) h2
    simp [evalCmd, jGet_spec he.inv, TOut.ofRes, h1]
  | .paren _ p _ fs, h =>
    simp only [TmArg.val, Option.map_eq_some_iff] at h
    obtain ⟨w, hw, rfl⟩ := h
    obtain ⟨h1, h2⟩ := pipe_val hpf he p none hw (by simp)
    refine fields_val fs (.pipe (compPipe p)) first prev (fun _ _ => ?_) h2
    simpa [evalCmd] using h1
theorem args_val {N : TNum D} {pf} (hpf : PfOk N pf) {e : TmEnv D} {env} (he : EnvRel e env)
    (as : TmArgs) {vs} (h : as.val N pf e = some vs) :
    evalArgs N env (compArgs as) = .ok vs ∧ ∀ v ∈ vs, TmGood v := by
  match as, h with
  | .nil, h => simp [TmArgs.val] at h; subst h; exact ⟨rfl, by simp⟩
  | .cons _ a as, h =>
    simp only [TmArgs.val, Option.bind_eq_bind, Option.bind_eq_some_iff, Option.some.injEq] at h
    obtain ⟨v, hv, ws, hw, rfl⟩ := h
    obtain ⟨h1, h2⟩ := arg_val hpf he a true .null hv
    obtain ⟨h3, h4⟩ := args_val hpf he as hw
    exact ⟨by simp [compArgs, evalArgs, evalPipe, h1, h3], by simpa using ⟨h2, h4⟩⟩
theorem cmd_val {N : TNum D} {pf} (hpf : PfOk N pf) {e : TmEnv D} {env} (he : EnvRel e env)
    (c : TmCmd) (prev : Option (JVal D)) {v} (h : c.val N pf e prev = some v)
    (hp : ∀ x, prev = some x → TmGood x) :
    evalCmd N env (prev.getD .null) prev.isNone (compCmd c) = .ok v ∧ TmGood v := by
  match c, h with
  | .arg a, h => exact arg_val hpf he a _ _ h
  | .call f as, h =>
    simp only [TmCmd.val, Option.bind_eq_bind, Option.bind_eq_some_iff] at h
    obtain ⟨vs, hv, h⟩ := h
    obtain ⟨h1, h2⟩ := args_val hpf he as hv
    have hg : ∀ x ∈ vs ++ prev.toList, TmGood x := by
      intro x hx
      rcases List.mem_append.mp hx with hx | hx
      · exact h2 x hx
      · exact hp x (by simpa using hx)
    obtain ⟨h3, h4⟩ := apply_ok hpf f _ hg h
    refine ⟨?_, h4⟩
    cases prev <;> simpa [compCmd, evalCmd, h1] using h3
theorem pipe_val {N : TNum D} {pf} (hpf : PfOk N pf) {e : TmEnv D} {env} (he : EnvRel e env)
    (p : TmPipe) (prev : Option (JVal D)) {v} (h : p.val N pf e prev = some v)
    (hp : ∀ x, prev = some x → TmGood x) :
    evalPipe N env (prev.getD .null) prev.isNone (compPipe p) = .ok v ∧ TmGood v := by
  match p, h with
  | .one c, h =>
    obtain ⟨h1, h2⟩ := cmd_val hpf he c prev h hp
    exact ⟨by simp [compPipe, evalPipe, h1], h2⟩
  | .more c _ _ p, h =>
    simp only [TmPipe.val, Option.bind_eq_bind, Option.bind_eq_some_iff] at h
    obtain ⟨w, hw, h⟩ := h
    obtain ⟨h1, h2⟩ := cmd_val hpf he c prev hw hp
    obtain ⟨h3, h4⟩ := pipe_val hpf he p (some w) h (by rintro x ⟨⟩; exact h2)
    exact ⟨by simpa [compPipe, evalPipe, h1] using h3, h4⟩
end

/-! Actions -/

/-- The actions print `o`, and tell whether to break. -/
def TEv (N : TNum D) (defs : List (Bytes × List TAct)) (env : TEnv D) (as : List TAct) (o : Bytes)
    (fl : Bool) : Prop := ∃ M, ∀ f, M ≤ f → evalActs N defs f env as = (o, .ok fl)

/-- The same for one action -/
def EvA (N : TNum D) (defs : List (Bytes × List TAct)) (env : TEnv D) (a : TAct) (o : Bytes)
    (fl : Bool) : Prop := ∃ M, ∀ f, M ≤ f → evalAct N defs f env a = (o, .ok fl)

variable {N : TNum D} {defs : List (Bytes × List TAct)}

theorem TEv.nil {env : TEnv D} : TEv N defs env [] [] false := by
  refine ⟨1, fun f hf => ?_⟩
  obtain ⟨f, rfl⟩ : ∃ g, f = g + 1 := ⟨f - 1, by omega⟩
  rfl

theorem TEv.cons {env : TEnv D} {a as o o' fl} (ha : EvA N defs env a o false)
    (hb : a ≠ .brk) (hc : a ≠ .cont) (h : TEv N defs env as o' fl) :
    TEv N defs env (a :: as) (o ++ o') fl := by
  obtain ⟨M1, h1⟩ := ha
  obtain ⟨M2, h2⟩ := h
  refine ⟨M1 + M2 + 1, fun f hf => ?_⟩
  obtain ⟨f, rfl⟩ : ∃ g, f = g + 1 := ⟨f - 1, by omega⟩
  cases a <;> first
    | exact absurd rfl hb
    | exact absurd rfl hc
    | simp [evalActs, h1 f (by omega), h2 f (by omega), runThen]

theorem TEv.stop {env : TEnv D} {a as o} (ha : EvA N defs env a o true)
    (hb : a ≠ .brk) (hc : a ≠ .cont) : TEv N defs env (a :: as) o true := by
  obtain ⟨M1, h1⟩ := ha
  refine ⟨M1 + 1, fun f hf => ?_⟩
  obtain ⟨f, rfl⟩ : ∃ g, f = g + 1 := ⟨f - 1, by omega⟩
  cases a <;> first
    | exact absurd rfl hb
    | exact absurd rfl hc
    | simp [evalActs, h1 f (by omega), runThen]

theorem TEv.text {env : TEnv D} {as o fl} (x : Bytes) (h : TEv N defs env as o fl) :
    TEv N defs env (compText x ++ as) (x ++ o) fl := by
  unfold compText
  split
  · next hx => simpa [hx] using h
  · refine TEv.cons ⟨1, fun f hf => ?_⟩ (by simp) (by simp) h
    obtain ⟨f, rfl⟩ : ∃ g, f = g + 1 := ⟨f - 1, by omega⟩
    rfl

/-- What is asked of the calls of other templates -/
def CallOk (N : TNum D) (defs : List (Bytes × List TAct)) (call : Bytes → JVal D → Option Bytes) :
    Prop :=
  ∀ n v o, call n v = some o → TmGood v → ∃ as, tmplLookup defs n = some as ∧
    ∀ env : TEnv D, JInv env.vars → env.dot = v → ∃ fl, TEv N defs env as o fl

/-- The environment during the iterations of range -/
structure LoopRel (e : TmEnv D) (v : Option TmVars) (env : TEnv D) : Prop where
  dot : v.isSome → env.dot = e.dot
  good : TmGood e.dot
  inv : JInv env.vars
  vars : ∀ n x, e.vars n = some x → TmGood x ∧
    ((∀ w, v = some w → n ≠ w.index ∧ n ≠ w.element) → lookupL env.vars.pairs n = some x)

theorem EnvRel.loop {e : TmEnv D} {env} (h : EnvRel e env) (v) : LoopRel e v env :=
  ⟨fun _ => h.dot, h.good, h.inv, fun n x hx => ⟨(h.vars n x hx).2, fun _ => (h.vars n x hx).1⟩⟩

theorem iter_ok {e : TmEnv D} {env} {v : Option TmVars} (h : LoopRel e v env) {k x : JVal D}
    (hk : TmGood k) (hx : TmGood x) :
    ∃ env', iterEnv env (v.map (·.index)) (v.map (·.element)) k x = .ok env' ∧
      EnvRel (tmIter e v k x) env' ∧ LoopRel e v env' := by
  cases v with
  | none =>
    refine ⟨{ env with dot := x }, rfl, ⟨rfl, hx, h.inv, fun n y hy => ?_⟩,
      ⟨by simp, h.good, h.inv, h.vars⟩⟩
    exact ⟨(h.vars n y hy).2 (by simp), (h.vars n y hy).1⟩
  | some w =>
    obtain ⟨o1, h1, i1, l1⟩ := jSet_spec h.inv w.index k
    obtain ⟨o2, h2, i2, l2⟩ := jSet_spec i1 w.element x
    refine ⟨{ env with vars := o2 }, ?_, ⟨h.dot rfl, h.good, i2, fun n y hy => ?_⟩,
      ⟨fun _ => h.dot rfl, h.good, i2, fun n y hy => ⟨(h.vars n y hy).1, fun hw => ?_⟩⟩⟩
    · simp [iterEnv, setVar, h1, h2, TOut.ofRes]
    · simp only [tmIter] at hy
      show lookupL o2.pairs n = some y ∧ _
      rw [l2, l1]
      by_cases he : n = w.element
      · simp only [he, if_true, Option.some.injEq] at hy ⊢
        subst hy
        exact ⟨rfl, hx⟩
      · rw [if_neg he] at hy ⊢
        by_cases hi : n = w.index
        · simp only [hi, if_true, Option.some.injEq] at hy ⊢
          subst hy
          exact ⟨rfl, hk⟩
        · rw [if_neg hi] at hy ⊢
          refine ⟨(h.vars n y hy).2 ?_, (h.vars n y hy).1⟩
          rintro w' ⟨⟩
          exact ⟨hi, he⟩
    · show lookupL o2.pairs n = some y
      rw [l2, l1, if_neg (hw w rfl).2, if_neg (hw w rfl).1]
      exact (h.vars n y hy).2 hw

theorem elements_ok {v : JVal D} (hv : TmGood v) :
    rangeItems N v = tmElements N v ∧ ∀ p ∈ tmElements N v, TmGood p.1 ∧ TmGood p.2 := by
  cases v with
  | arr l =>
    refine ⟨rfl, fun p hp => ?_⟩
    simp only [tmElements, List.mem_map] at hp
    obtain ⟨q, hq, rfl⟩ := hp
    obtain ⟨a, i⟩ := q
    exact ⟨trivial, goodL_get hv (List.mem_of_getElem? (List.mk_mem_zipIdx_iff_getElem?.mp hq))⟩
  | obj c l =>
    refine ⟨rfl, fun p hp => ?_⟩
    simp only [tmElements, List.mem_map] at hp
    obtain ⟨q, hq, rfl⟩ := hp
    exact ⟨trivial, goodP_get hv.2.2 hq⟩
  | _ => exact ⟨rfl, by simp [tmElements]⟩

theorem loop_ok {e : TmEnv D} {v : Option TmVars} {body : JVal D → JVal D → Option (Bytes × TmEnd)}
    {as : List TAct}
    (hb : ∀ k x o z, body k x = some (o, z) → ∀ env, EnvRel (tmIter e v k x) env →
      TEv N defs env as o (z = .brk)) :
    ∀ (items : List (JVal D × JVal D)), (∀ p ∈ items, TmGood p.1 ∧ TmGood p.2) →
      ∀ env, LoopRel e v env → ∀ o, tmLoop body items = some o →
      ∃ M, ∀ f, M ≤ f → evalRange N defs f env (v.map (·.index)) (v.map (·.element)) as items =
        (o, .ok false) := by
  intro items
  induction items with
  | nil =>
    intro _ env _ o ho
    simp [tmLoop] at ho
    subst ho
    refine ⟨1, fun f hf => ?_⟩
    obtain ⟨f, rfl⟩ : ∃ g, f = g + 1 := ⟨f - 1, by omega⟩
    rfl
  | cons p items ih =>
    obtain ⟨k, x⟩ := p
    intro hg env hl o ho
    simp only [tmLoop, Option.bind_eq_bind, Option.bind_eq_some_iff] at ho
    obtain ⟨⟨o1, z⟩, h1, ho⟩ := ho
    obtain ⟨env', i1, i2, i3⟩ := iter_ok hl (hg (k, x) (by simp)).1 (hg (k, x) (by simp)).2
    obtain ⟨M1, hM1⟩ := hb k x o1 z h1 env' i2
    by_cases hz : z = .brk
    · simp [hz] at ho
      subst ho
      refine ⟨M1 + 1, fun f hf => ?_⟩
      obtain ⟨f, rfl⟩ : ∃ g, f = g + 1 := ⟨f - 1, by omega⟩
      simp [evalRange, i1, runWith, hM1 f (by omega), runThen, hz]
    · simp only [hz, if_false, Option.bind_eq_some_iff, Option.some.injEq] at ho
      obtain ⟨o2, ho2, rfl⟩ := ho
      obtain ⟨M2, hM2⟩ := ih (fun p hp => hg p (by simp [hp])) env' i3 o2 ho2
      refine ⟨M1 + M2 + 1, fun f hf => ?_⟩
      obtain ⟨f, rfl⟩ : ∃ g, f = g + 1 := ⟨f - 1, by omega⟩
      simp [evalRange, i1, runWith, hM1 f (by omega), runThen, hz, hM2 f (by omega)]

/-- What one action of the text does to the actions after it -/
def ItemOk (N : TNum D) (defs : List (Bytes × List TAct)) (env : TEnv D) (pl : TmPlace)
    (acts : List TAct) (o : Bytes) (z : TmEnd) : Prop :=
  (z = .cont → pl = .direct) ∧
  match z with
  | .norm => ∀ as o' fl, TEv N defs env as o' fl → TEv N defs env (acts ++ as) (o ++ o') fl
  | .brk => ∀ as, TEv N defs env (acts ++ as) o true
  | .cont => ∀ as, TEv N defs env (acts ++ as) o false

theorem itemOk_act {env : TEnv D} {pl a o z} (hb : a ≠ .brk) (hc : a ≠ .cont)
    (hz : z ≠ .cont) (h : EvA N defs env a o (z = .brk)) : ItemOk N defs env pl [a] o z := by
  refine ⟨fun h => absurd h hz, ?_⟩
  cases z with
  | norm => exact fun as o' fl has => TEv.cons (by simpa using h) hb hc has
  | brk => exact fun as => TEv.stop (by simpa using h) hb hc
  | cont => exact absurd rfl hz

theorem eva_pre {env : TEnv D} {a as o fl} {env' : TEnv D} (h : TEv N defs env' as o fl)
    (ha : ∀ f, evalAct N defs (f + 1) env a = evalActs N defs f env' as) :
    EvA N defs env a o fl := by
  obtain ⟨M, hM⟩ := h
  refine ⟨M + 1, fun f hf => ?_⟩
  obtain ⟨f, rfl⟩ : ∃ g, f = g + 1 := ⟨f - 1, by omega⟩
  rw [ha, hM f (by omega)]

variable {pf : Bytes → List (JVal D) → Option Bytes} {call : Bytes → JVal D → Option Bytes}

theorem inner_cont {pl : TmPlace} : pl.inner ≠ .direct := by cases pl <;> simp [TmPlace.inner]

mutual
theorem body_run (hpf : PfOk N pf) (hcl : CallOk N defs call) (b : TmBody) (pl ns)
    (hb : b.Ok pl ns) (e : TmEnv D) (env : TEnv D) (he : EnvRel e env) (l r : Bool) (o z)
    (h : b.run N pf call e l r = some (o, z)) :
    TEv N defs env (compBody l r b) o (z = .brk) ∧ (z = .cont → pl = .direct) := by
  match b, hb, h with
  | .done t, hb, h =>
    simp [TmBody.run] at h
    obtain ⟨rfl, rfl⟩ := h
    refine ⟨?_, by simp⟩
    have := TEv.text (N := N) (defs := defs) (env := env) (tmTrim l r t) TEv.nil
    simpa [compBody] using this
  | .item t i b, hb, h =>
    obtain ⟨-, hi, hb⟩ := hb
    simp only [TmBody.run, Option.bind_eq_bind, Option.bind_eq_some_iff] at h
    obtain ⟨⟨o1, z1⟩, h1, h⟩ := h
    obtain ⟨hc, hI⟩ := titem_run hpf hcl i pl ns hi e env he o1 z1 h1
    cases z1 with
    | norm =>
      simp only [if_true, Option.bind_eq_some_iff] at h
      obtain ⟨⟨o2, z2⟩, h2, h⟩ := h
      simp at h
      obtain ⟨rfl, rfl⟩ := h
      obtain ⟨h3, h4⟩ := body_run hpf hcl b pl _ hb e env he _ r o2 z2 h2
      refine ⟨?_, h4⟩
      have := TEv.text (tmTrim l i.trimsBefore t) (hI _ _ _ h3)
      simpa [compBody] using this
    | brk =>
      simp at h
      obtain ⟨rfl, rfl⟩ := h
      refine ⟨?_, by simp⟩
      have := TEv.text (tmTrim l i.trimsBefore t) (hI (compBody i.trimsAfter r b))
      simpa [compBody] using this
    | cont =>
      simp at h
      obtain ⟨rfl, rfl⟩ := h
      refine ⟨?_, hc⟩
      have := TEv.text (tmTrim l i.trimsBefore t) (hI (compBody i.trimsAfter r b))
      simpa [compBody] using this
theorem titem_run (hpf : PfOk N pf) (hcl : CallOk N defs call) (i : TmItem) (pl ns)
    (hi : i.Ok pl ns) (e : TmEnv D) (env : TEnv D) (he : EnvRel e env) (o z)
    (h : i.run N pf call e = some (o, z)) :
    ItemOk N defs env pl (compItem i) o z := by
  have hnil : ItemOk N defs env pl [] [] .norm := ⟨by simp, fun as o' fl h => h⟩
  match i, hi, h with
  | .empty _ _, _, h => simp [TmItem.run] at h; obtain ⟨rfl, rfl⟩ := h; exact hnil
  | .trims _, _, h => simp [TmItem.run] at h; obtain ⟨rfl, rfl⟩ := h; exact hnil
  | .define _ _ _ _ _ _ _, _, h => simp [TmItem.run] at h; obtain ⟨rfl, rfl⟩ := h; exact hnil
  | .print _ p _, _, h =>
    simp only [TmItem.run, Option.bind_eq_bind, Option.bind_eq_some_iff, Option.some.injEq,
      Prod.mk.injEq] at h
    obtain ⟨v, hv, rfl, rfl⟩ := h
    obtain ⟨h1, -⟩ := pipe_val hpf he p none hv (by simp)
    refine itemOk_act (by simp) (by simp) (by simp) ⟨1, fun f hf => ?_⟩
    obtain ⟨f, rfl⟩ : ∃ g, f = g + 1 := ⟨f - 1, by omega⟩
    simp at h1
    simp [evalAct, h1, runWith, printVal_ok]
  | .cond _ _ p c b t, hi, h =>
    obtain ⟨-, -, -, -, hb, ht⟩ := hi
    simp only [TmItem.run, Option.bind_eq_bind, Option.bind_eq_some_iff] at h
    obtain ⟨v, hv, y, hy, h⟩ := h
    obtain ⟨h1, h2⟩ := pipe_val hpf he p none hv (by simp)
    have h3 := isEmpty_ok h2 hy
    simp at h1
    cases y with
    | true =>
      simp at h
      obtain ⟨h4, h5⟩ := tail_run hpf hcl t _ _ ht e env he o z h
      exact itemOk_act (by simp) (by simp) (fun hz => inner_cont (h5 hz))
        (eva_pre h4 (fun f => by simp [evalAct, h1, h3, runWith]))
    | false =>
      simp at h
      obtain ⟨h4, h5⟩ := body_run hpf hcl b _ _ hb e env he _ _ o z h
      exact itemOk_act (by simp) (by simp) (fun hz => inner_cont (h5 hz))
        (eva_pre h4 (fun f => by simp [evalAct, h1, h3, runWith]))
  | .wth _ _ v p c b t, hi, h =>
    obtain ⟨-, -, -, -, -, hb, ht, -⟩ := hi
    simp only [TmItem.run, Option.bind_eq_bind, Option.bind_eq_some_iff] at h
    obtain ⟨x, hx, y, hy, h⟩ := h
    obtain ⟨h1, h2⟩ := pipe_val hpf he p none hx (by simp)
    have h3 := isEmpty_ok h2 hy
    simp at h1
    cases y with
    | true =>
      simp at h
      obtain ⟨h4, h5⟩ := tail_run hpf hcl t _ _ ht e env he o z h
      exact itemOk_act (by simp) (by simp) (fun hz => inner_cont (h5 hz))
        (eva_pre h4 (fun f => by simp [evalAct, h1, h3, runWith]))
    | false =>
      simp only [Bool.false_eq_true, if_false] at h
      cases v with
      | none =>
        obtain ⟨h4, h5⟩ := body_run hpf hcl b _ _ hb { e with dot := x } { env with dot := x }
          ⟨rfl, h2, he.inv, he.vars⟩ _ _ o z h
        exact itemOk_act (by simp) (by simp) (fun hz => inner_cont (h5 hz))
          (eva_pre h4 (fun f => by simp [evalAct, h1, h3, runWith]))
      | some v =>
        obtain ⟨o1, s1, s2, s3⟩ := jSet_spec he.inv v.name x
        obtain ⟨h4, h5⟩ := body_run hpf hcl b _ _ hb
          { e with vars := fun n => if n = v.name then some x else e.vars n }
          { env with vars := o1 } ⟨he.dot, he.good, s2, (by
            intro n y hy
            show lookupL o1.pairs n = some y ∧ _
            rw [s3]
            by_cases hn : n = v.name
            · simp only [hn, if_true, Option.some.injEq] at hy ⊢
              subst hy
              exact ⟨rfl, h2⟩
            · simp only [hn, if_false] at hy ⊢
              exact he.vars n y hy)⟩ _ _ o z h
        exact itemOk_act (by simp) (by simp) (fun hz => inner_cont (h5 hz))
          (eva_pre h4 (fun f => by simp [evalAct, h1, h3, runWith, setVar, s1, TOut.ofRes]))
  | .range _ _ v p c b t, hi, h =>
    obtain ⟨-, -, -, -, -, hb, ht, -⟩ := hi
    simp only [TmItem.run, Option.bind_eq_bind, Option.bind_eq_some_iff] at h
    obtain ⟨x, hx, h⟩ := h
    obtain ⟨h1, h2⟩ := pipe_val hpf he p none hx (by simp)
    simp at h1
    obtain ⟨hel, hgd⟩ := elements_ok (N := N) h2
    cases hE : tmElements N x with
    | nil =>
      simp only [hE, List.isEmpty_nil, if_true] at h
      obtain ⟨h4, h5⟩ := tail_run hpf hcl t _ _ ht e env he o z h
      exact itemOk_act (by simp) (by simp) (fun hz => inner_cont (h5 hz))
        (eva_pre h4 (fun f => by simp [evalAct, h1, runWith, hel, hE]))
    | cons q qs =>
      simp only [hE, List.isEmpty_cons, Bool.false_eq_true, if_false, Option.bind_eq_some_iff,
        Option.some.injEq, Prod.mk.injEq] at h
      obtain ⟨o1, ho1, rfl, rfl⟩ := h
      rw [hE] at hgd hel
      obtain ⟨M, hM⟩ := loop_ok (N := N) (defs := defs) (e := e) (v := v)
        (as := compBody c.trims t.trimsBefore b)
        (fun k y o z hbr env' he' => (body_run hpf hcl b .direct _ hb _ env' he' _ _ o z hbr).1)
        (q :: qs) hgd env (he.loop v) o1 ho1
      refine itemOk_act (by simp) (by simp) (by simp) ⟨M + 1, fun f hf => ?_⟩
      obtain ⟨f, rfl⟩ : ∃ g, f = g + 1 := ⟨f - 1, by omega⟩
      simp [evalAct, h1, runWith, hel, hM f (by omega)]
  | .block _ _ n _ p _ _ _ _, _, h =>
    simp only [TmItem.run, Option.bind_eq_bind, Option.bind_eq_some_iff, Option.some.injEq,
      Prod.mk.injEq] at h
    obtain ⟨v, hv, o1, ho1, rfl, rfl⟩ := h
    obtain ⟨h1, h2⟩ := pipe_val hpf he p none hv (by simp)
    simp at h1
    obtain ⟨as, hl, hE⟩ := hcl _ _ _ ho1 h2
    obtain ⟨fl, M, hM⟩ := hE { env with dot := v } he.inv rfl
    refine itemOk_act (by simp) (by simp) (by simp) ⟨M + 1, fun f hf => ?_⟩
    obtain ⟨f, rfl⟩ : ∃ g, f = g + 1 := ⟨f - 1, by omega⟩
    simp [evalAct, h1, runWith, hl, hM f (by omega), runThen]
  | .template _ _ n _ p _, _, h =>
    simp only [TmItem.run, Option.bind_eq_bind, Option.bind_eq_some_iff, Option.some.injEq,
      Prod.mk.injEq] at h
    obtain ⟨v, hv, o1, ho1, rfl, rfl⟩ := h
    obtain ⟨h1, h2⟩ := pipe_val hpf he p none hv (by simp)
    simp at h1
    obtain ⟨as, hl, hE⟩ := hcl _ _ _ ho1 h2
    obtain ⟨fl, M, hM⟩ := hE { env with dot := v } he.inv rfl
    refine itemOk_act (by simp) (by simp) (by simp) ⟨M + 1, fun f hf => ?_⟩
    obtain ⟨f, rfl⟩ : ∃ g, f = g + 1 := ⟨f - 1, by omega⟩
    simp [evalAct, h1, runWith, hl, hM f (by omega), runThen]
  | .brk _ _, _, h =>
    simp [TmItem.run] at h
    obtain ⟨rfl, rfl⟩ := h
    refine ⟨by simp, fun as => ⟨1, fun f hf => ?_⟩⟩
    obtain ⟨f, rfl⟩ : ∃ g, f = g + 1 := ⟨f - 1, by omega⟩
    rfl
  | .cont _ _, hi, h =>
    simp [TmItem.run] at h
    obtain ⟨rfl, rfl⟩ := h
    refine ⟨fun _ => hi.2.2, fun as => ⟨1, fun f hf => ?_⟩⟩
    obtain ⟨f, rfl⟩ : ∃ g, f = g + 1 := ⟨f - 1, by omega⟩
    rfl
theorem tail_run (hpf : PfOk N pf) (hcl : CallOk N defs call) (t : TmTail) (pl ns)
    (ht : t.Ok pl ns) (e : TmEnv D) (env : TEnv D) (he : EnvRel e env) (o z)
    (h : t.run N pf call e = some (o, z)) :
    TEv N defs env (compTail t) o (z = .brk) ∧ (z = .cont → pl = .direct) := by
  match t, ht, h with
  | .fin _ _, _, h =>
    simp [TmTail.run] at h
    obtain ⟨rfl, rfl⟩ := h
    exact ⟨TEv.nil, by simp⟩
  | .els _ c b o' _, ht, h =>
    obtain ⟨-, -, hb, -, -⟩ := ht
    exact body_run hpf hcl b _ _ hb e env he _ _ o z h
  | .elif _ _ _ p c b t, ht, h =>
    obtain ⟨-, -, -, -, -, hb, ht⟩ := ht
    simp only [TmTail.run, Option.bind_eq_bind, Option.bind_eq_some_iff] at h
    obtain ⟨v, hv, y, hy, h⟩ := h
    obtain ⟨h1, h2⟩ := pipe_val hpf he p none hv (by simp)
    have h3 := isEmpty_ok h2 hy
    simp at h1
    have one : ∀ {oo g g' acts}, TEv N defs env acts o (z = .brk) →
        acts = (if y then compTail t else compBody c.trims t.trimsBefore b) →
        TEv N defs env (compTail (.elif oo g g' p c b t)) o (z = .brk) := by
      intro oo g g' acts hev hac
      have hE := eva_pre (a := .cond (compPipe p) (compTail t) (compBody c.trims t.trimsBefore b))
        (env := env) hev (fun f => by simp [evalAct, h1, h3, runWith, hac])
      cases z with
      | norm =>
        have := TEv.cons (by simpa using hE) (by simp) (by simp) (TEv.nil (N := N) (defs := defs))
        simpa [compTail] using this
      | brk => exact TEv.stop (as := []) (by simpa using hE) (by simp) (by simp)
      | cont =>
        have := TEv.cons (by simpa using hE) (by simp) (by simp) (TEv.nil (N := N) (defs := defs))
        simpa [compTail] using this
    cases y with
    | true =>
      simp at h
      obtain ⟨h4, h5⟩ := tail_run hpf hcl t _ _ ht e env he o z h
      exact ⟨one h4 rfl, h5⟩
    | false =>
      simp at h
      obtain ⟨h4, h5⟩ := body_run hpf hcl b _ _ hb e env he _ _ o z h
      exact ⟨one h4 rfl, h5⟩
end

/-! Named templates -/

theorem lookup_after (ds : List TmDef) (d : List (Bytes × List TAct)) (n : Bytes) :
    tmplLookup (defsAfter d ds) n =
      ((tmDefOf ds n).map (fun t => compBody t.l t.r t.body)).or (tmplLookup d n) := by
  induction ds generalizing d with
  | nil => simp [defsAfter, tmDefOf]
  | cons t ds ih =>
    have h1 : tmDefOf (t :: ds) n = (tmDefOf ds n).or (if t.name == n then some t else none) := by
      simp only [tmDefOf, List.reverse_cons, List.find?_append, List.find?_singleton]
    rw [show defsAfter d (t :: ds) = defsAfter (tmplDefine d t.name (compBody t.l t.r t.body)) ds
      from rfl, ih, lookup_define, h1]
    cases tmDefOf ds n with
    | some a => simp
    | none =>
      by_cases h : n = t.name
      · subst h; simp
      · have : (t.name == n) = false := by simp; exact fun e => h e.symm
        simp [h, this]

mutual
theorem body_defs (b : TmBody) (pl ns) (hb : b.Ok pl ns) :
    ∀ d ∈ b.defs, ∃ ns', d.body.Ok .out ns' := by
  match b, hb with
  | .done t, _ => simp [TmBody.defs]
  | .item t i b, hb =>
    intro d hd
    rcases List.mem_append.mp hd with hd | hd
    · exact item_defs i pl ns hb.2.1 d hd
    · exact body_defs b pl _ hb.2.2 d hd
theorem item_defs (i : TmItem) (pl ns) (hi : i.Ok pl ns) :
    ∀ d ∈ i.defs, ∃ ns', d.body.Ok .out ns' := by
  match i, hi with
  | .empty _ _, _ => simp [TmItem.defs]
  | .trims _, _ => simp [TmItem.defs]
  | .print _ _ _, _ => simp [TmItem.defs]
  | .template _ _ _ _ _ _, _ => simp [TmItem.defs]
  | .brk _ _, _ => simp [TmItem.defs]
  | .cont _ _, _ => simp [TmItem.defs]
  | .cond _ _ _ _ b t, hi =>
    obtain ⟨-, -, -, -, hb, ht⟩ := hi
    intro d hd
    rcases List.mem_append.mp hd with hd | hd
    · exact body_defs b _ _ hb d hd
    · exact tail_defs t _ _ ht d hd
  | .wth _ _ _ _ _ b t, hi =>
    obtain ⟨-, -, -, -, -, hb, ht, -⟩ := hi
    intro d hd
    rcases List.mem_append.mp hd with hd | hd
    · exact body_defs b _ _ hb d hd
    · exact tail_defs t _ _ ht d hd
  | .range _ _ _ _ _ b t, hi =>
    obtain ⟨-, -, -, -, -, hb, ht, -⟩ := hi
    intro d hd
    rcases List.mem_append.mp hd with hd | hd
    · exact body_defs b _ _ hb d hd
    · exact tail_defs t _ _ ht d hd
  | .define _ _ n c b o' _, hi =>
    obtain ⟨-, -, -, -, hb, -, -⟩ := hi
    intro d hd
    rcases List.mem_append.mp hd with hd | hd
    · exact body_defs b _ _ hb d hd
    · simp at hd; subst hd; exact ⟨ns, hb⟩
  | .block _ _ n _ _ c b o' _, hi =>
    obtain ⟨-, -, -, -, -, -, -, hb, -, -⟩ := hi
    intro d hd
    rcases List.mem_append.mp hd with hd | hd
    · exact body_defs b _ _ hb d hd
    · simp at hd; subst hd; exact ⟨ns, hb⟩
theorem tail_defs (t : TmTail) (pl ns) (ht : t.Ok pl ns) :
    ∀ d ∈ t.defs, ∃ ns', d.body.Ok .out ns' := by
  match t, ht with
  | .fin _ _, _ => simp [TmTail.defs]
  | .els _ _ b _ _, ht => exact body_defs b _ _ ht.2.2.1
  | .elif _ _ _ _ _ b t, ht =>
    obtain ⟨-, -, -, -, -, hb, ht⟩ := ht
    intro d hd
    rcases List.mem_append.mp hd with hd | hd
    · exact body_defs b _ _ hb d hd
    · exact tail_defs t _ _ ht d hd
end

theorem call_ok (hpf : PfOk N pf) (ds : List TmDef) (hds : ∀ d ∈ ds, ∃ ns', d.body.Ok .out ns') :
    ∀ k, CallOk N (defsAfter [] ds) (tmCall N pf ds k)
  | 0 => by intro n v o h; simp [tmCall] at h
  | k + 1 => by
    intro n v o h hv
    simp only [tmCall, Option.bind_eq_bind, Option.bind_eq_some_iff] at h
    obtain ⟨t, ht, ⟨o1, z⟩, h1, h2⟩ := h
    simp at h2
    subst h2
    refine ⟨compBody t.l t.r t.body, by simp [lookup_after, ht], fun env hi hd => ?_⟩
    have hm : t ∈ ds := by
      have := List.mem_of_find?_eq_some ht
      simpa using this
    obtain ⟨ns, hok⟩ := hds t hm
    exact ⟨_, (body_run hpf (call_ok hpf ds hds k) t.body _ _ hok _ env
      ⟨hd, hv, hi, by simp⟩ _ _ _ _ h1).1⟩

/-- A well-formed template prints what it should. -/
theorem template_prints (hpf : PfOk N pf) (b : TmBody) (hb : b.Ok .out []) (v : JVal D)
    (hv : TmGood v) (out : Bytes) (h : TmPrints N pf b v out) :
    ∃ M fl, ∀ f, M ≤ f →
      templateRun N f (defsAfter [] b.defs) (compBody false false b) v = (out, .ok fl) := by
  obtain ⟨d, z, h⟩ := h
  obtain ⟨⟨M, hM⟩, -⟩ := body_run hpf (call_ok hpf b.defs (body_defs b _ _ hb) d) b _ _ hb _
    ⟨v, jNew⟩ ⟨rfl, hv, jinv_new, by simp⟩ _ _ _ _ h
  exact ⟨M, _, hM⟩

end Pound
