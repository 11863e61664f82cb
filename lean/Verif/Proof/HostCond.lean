import Verif.Spec.HostCond
import Verif.Proof.Bauth
import Verif.Proof.Headers
import Verif.Proof.Lexer

namespace Pound

open Spec

/-! ### Tokens of expressions -/

theorem ereTok_shorter {s r : Bytes} {t : ETok} (h : ereTok s = some (t, r)) : r.length < s.length := by
  unfold ereTok at h
  split at h
  · cases h
  · rename_i c r0
    repeat' split at h
    all_goals first
      | (cases h; done)
      | (have := (Prod.mk.inj (Option.some.inj h)).2; subst this; simp; try omega)

theorem ereToks_fuel : ∀ (f : Nat) (s : Bytes), s.length ≤ f → ereToks f s = ereToks s.length s := by
  intro f
  induction f using Nat.strongRecOn with
  | _ f ih =>
    intro s h
    cases s with
    | nil => cases f <;> rfl
    | cons c t =>
      obtain ⟨f, rfl⟩ : ∃ f', f = f' + 1 := ⟨f - 1, by simp at h; omega⟩
      have e : (c :: t).length = t.length + 1 := rfl
      rw [e]
      unfold ereToks
      rw [if_neg (by simp), if_neg (by simp)]
      cases ht : ereTok (c :: t) with
      | none => rfl
      | some x =>
        obtain ⟨tk, r⟩ := x
        have hl := ereTok_shorter ht
        dsimp only
        simp at hl h
        rw [ih f (by omega) r (by omega)]
        by_cases hf : t.length < f + 1
        · rw [ih t.length hf r (by omega)]
        · omega

/-- All tokens of a text -/
def ereAll (s : Bytes) : Option (List ETok) := ereToks s.length s

theorem ereAll_nil : ereAll [] = some [] := rfl

theorem ereAll_step {s r : Bytes} {t : ETok} (h : ereTok s = some (t, r)) : ereAll s = (ereAll r).map (t :: ·) := by
  have hl := ereTok_shorter h
  cases s with
  | nil => cases h
  | cons c u =>
    unfold ereAll
    have e : (c :: u).length = u.length + 1 := rfl
    rw [e]
    conv => lhs; unfold ereToks
    rw [if_neg (by simp), h]
    dsimp only
    rw [ereToks_fuel u.length r (by simp at hl; omega)]

theorem ereAll_prefix (x : Bytes) : ereAll (b!"^Host:[[:space:]]*" ++ x) =
    (ereAll x).map ([.bol, .atom (.chr 72), .atom (.chr 111), .atom (.chr 115), .atom (.chr 116), .atom (.chr 58), .atom .space, .star] ++ ·) := by
  have h1 : ereTok (b!"^Host:[[:space:]]*" ++ x) = some (.bol, b!"Host:[[:space:]]*" ++ x) := rfl
  have h2 : ereTok (b!"Host:[[:space:]]*" ++ x) = some (.atom (.chr 72), b!"ost:[[:space:]]*" ++ x) := rfl
  have h3 : ereTok (b!"ost:[[:space:]]*" ++ x) = some (.atom (.chr 111), b!"st:[[:space:]]*" ++ x) := rfl
  have h4 : ereTok (b!"st:[[:space:]]*" ++ x) = some (.atom (.chr 115), b!"t:[[:space:]]*" ++ x) := rfl
  have h5 : ereTok (b!"t:[[:space:]]*" ++ x) = some (.atom (.chr 116), b!":[[:space:]]*" ++ x) := rfl
  have h6 : ereTok (b!":[[:space:]]*" ++ x) = some (.atom (.chr 58), b!"[[:space:]]*" ++ x) := rfl
  have h7 : ereTok (b!"[[:space:]]*" ++ x) = some (.atom .space, b!"*" ++ x) := rfl
  have h8 : ereTok (b!"*" ++ x) = some (.star, x) := rfl
  rw [ereAll_step h1, ereAll_step h2, ereAll_step h3, ereAll_step h4, ereAll_step h5, ereAll_step h6, ereAll_step h7, ereAll_step h8]
  cases ereAll x <;> rfl

theorem ereAll_prefix_any (x : Bytes) : ereAll (b!"^Host:[[:space:]]*.*" ++ x) =
    (ereAll x).map ([.bol, .atom (.chr 72), .atom (.chr 111), .atom (.chr 115), .atom (.chr 116), .atom (.chr 58), .atom .space, .star, .atom .any, .star] ++ ·) := by
  have e : b!"^Host:[[:space:]]*.*" ++ x = b!"^Host:[[:space:]]*" ++ (b!".*" ++ x) := rfl
  have h1 : ereTok (b!".*" ++ x) = some (.atom .any, b!"*" ++ x) := rfl
  have h2 : ereTok (b!"*" ++ x) = some (.star, x) := rfl
  rw [e, ereAll_prefix, ereAll_step h1, ereAll_step h2]
  cases ereAll x <;> rfl

theorem ereTok_ord {c : UInt8} (hs : isEreSpecial c = false) (h1 : c ≠ ch%'^') (h2 : c ≠ ch%'$') (h3 : c ≠ ch%'|') (r : Bytes) :
    ereTok (c :: r) = some (.atom (.chr c), r) := by
  have hn : ∀ d, isEreSpecial d = true → c ≠ d := by
    intro d hd e
    rw [e, hd] at hs
    cases hs
  unfold ereTok
  dsimp only
  rw [if_neg (hn _ (by decide)), if_neg (hn _ (by decide)), if_neg (hn _ (by decide)), if_neg (hn _ (by decide)), if_neg h1, if_neg h2, if_neg h3, if_neg]
  rintro (h | h | h | h | h)
  all_goals exact hn _ (by decide) h

theorem ereAll_escape (n : Bytes) (h : ∀ c ∈ n, c ≠ ch%'^' ∧ c ≠ ch%'$' ∧ c ≠ ch%'|') (x : Bytes) :
    ereAll (escapeRegex n ++ x) = (ereAll x).map (n.map (fun c => .atom (.chr c)) ++ ·) := by
  induction n with
  | nil => cases hx : ereAll x <;> simp [escapeRegex, hx]
  | cons c t ih =>
    have ih' := ih fun c hc => h c (by simp [hc])
    obtain ⟨h1, h2, h3⟩ := h c (by simp)
    have e : escapeRegex (c :: t) ++ x = (if isEreSpecial c then [ch%'\\', c] else [c]) ++ (escapeRegex t ++ x) := by
      unfold escapeRegex; simp [List.flatMap_cons]
    rw [e]
    have hst : ereTok ((if isEreSpecial c then [ch%'\\', c] else [c]) ++ (escapeRegex t ++ x)) = some (.atom (.chr c), escapeRegex t ++ x) := by
      by_cases hs : isEreSpecial c = true
      · rw [if_pos hs]; rfl
      · rw [if_neg hs]
        exact ereTok_ord (by simpa using hs) h1 h2 h3 _
    rw [ereAll_step hst, ih']
    cases ereAll x <;> rfl

/-! ### Branches -/

/-- A branch with further parts -/
def consItems (is : List EItem) : List (List EItem) → List (List EItem)
  | [] => [is]
  | b :: r => (is ++ b) :: r

theorem branches_ones (n : Bytes) (r : List ETok) (hr : r.head? ≠ some .star) (bs : List (List EItem)) (hb : ereBranches r = some bs) (hne : bs ≠ []) :
    ereBranches (n.map (fun c => .atom (.chr c)) ++ r) = some (consItems (n.map fun c => .one (.chr c)) bs) := by
  induction n with
  | nil =>
    cases bs with
    | nil => exact absurd rfl hne
    | cons b bs => exact hb
  | cons c t ih =>
    have e : (c :: t).map (fun c => ETok.atom (.chr c)) ++ r = .atom (.chr c) :: (t.map (fun c => .atom (.chr c)) ++ r) := rfl
    rw [e]
    have hstar : ∀ u, t.map (fun c => ETok.atom (.chr c)) ++ r ≠ .star :: u := by
      intro u hu
      cases t with
      | nil => exact hr (by rw [show r = ETok.star :: u from hu]; rfl)
      | cons d t => cases hu
    have : ereBranches (.atom (.chr c) :: (t.map (fun c => .atom (.chr c)) ++ r)) = (ereBranches (t.map (fun c => .atom (.chr c)) ++ r)).map (consItem (.one (.chr c))) := by
      rw [ereBranches.eq_7]
      intro u hu
      exact hstar u hu
    rw [this, ih]
    cases bs <;> rfl

/-! ### Matching -/

theorem seq_flag {ic : Bool} {is : List EItem} {b : Bool} {s : Bytes} (h : EreSeq ic is b s) (hb : EItem.bol ∉ is) : ∀ b', EreSeq ic is b' s := by
  induction h with
  | nil => intro b'; exact .nil
  | one h1 h2 ih => intro b'; exact .one h1 h2
  | stop h ih => intro b'; exact .stop (ih (by simp at hb; exact hb) b')
  | more h1 h2 ih => intro b'; exact .more h1 h2
  | bol => simp at hb
  | eol h ih => intro b'; exact .eol (ih (by simp at hb; exact hb) b')

theorem chr_ok (ic : Bool) (c d : UInt8) : (EAtom.chr c).ok ic d = true ↔ SameName ic [c] [d] := by
  unfold EAtom.ok SameName
  cases ic with
  | true => simp [ciEq]
  | false => simp

theorem same_cons {ic : Bool} {c d : UInt8} {a b : Bytes} : SameName ic (c :: a) (d :: b) ↔ SameName ic [c] [d] ∧ SameName ic a b := by
  unfold SameName
  cases ic with
  | true => simp
  | false => simp

theorem same_nil {ic : Bool} {b : Bytes} : SameName ic [] b ↔ b = [] := by
  unfold SameName
  cases ic with
  | true => simp
  | false => simp

theorem seq_ones {ic : Bool} {r : List EItem} (hb : EItem.bol ∉ r) (n : Bytes) : ∀ (b : Bool) (s : Bytes),
    EreSeq ic (n.map (fun c => .one (.chr c)) ++ r) b s ↔ ∃ v s', s = v ++ s' ∧ SameName ic n v ∧ EreSeq ic r false s' := by
  induction n with
  | nil =>
    intro b s
    constructor
    · intro h; exact ⟨[], s, rfl, by rw [same_nil], seq_flag h hb false⟩
    · rintro ⟨v, s', rfl, hv, h⟩
      rw [same_nil] at hv
      subst hv
      exact seq_flag h hb b
  | cons c t ih =>
    intro b s
    constructor
    · intro h
      cases h with
      | one h1 h2 =>
        rename_i d s
        obtain ⟨v, s', rfl, hv, h⟩ := (ih false s).mp h2
        exact ⟨d :: v, s', rfl, same_cons.mpr ⟨(chr_ok ic c d).mp h1, hv⟩, h⟩
    · rintro ⟨v, s', rfl, hv, h⟩
      cases v with
      | nil =>
        unfold SameName at hv
        cases ic <;> simp at hv
      | cons d v =>
        obtain ⟨h1, h2⟩ := same_cons.mp hv
        exact .one ((chr_ok ic c d).mpr h1) ((ih false _).mpr ⟨v, s', rfl, h2, h⟩)

theorem seq_star {ic : Bool} {r : List EItem} (hb : EItem.bol ∉ r) (a : EAtom) (b : Bool) (s : Bytes) :
    EreSeq ic (.star a :: r) b s ↔ ∃ v s', s = v ++ s' ∧ (∀ c ∈ v, a.ok ic c = true) ∧ EreSeq ic r false s' := by
  constructor
  · intro h
    generalize hi : EItem.star a :: r = is at h
    induction h with
    | stop h ih =>
      cases hi
      exact ⟨[], _, rfl, by simp, seq_flag h hb false⟩
    | more h1 h2 ih =>
      rename_i a' c r' b' s'
      cases hi
      obtain ⟨v, s2, rfl, hv, h⟩ := ih rfl
      refine ⟨c :: v, s2, rfl, ?_, h⟩
      intro d hd
      rcases List.mem_cons.mp hd with rfl | hd
      · exact h1
      · exact hv d hd
    | _ => cases hi
  · rintro ⟨v, s', rfl, hv, h⟩
    have : ∀ (v : Bytes) (b : Bool), (∀ c ∈ v, a.ok ic c = true) → EreSeq ic (.star a :: r) b (v ++ s') := by
      intro v
      induction v with
      | nil => intro b _; exact .stop (seq_flag h hb b)
      | cons c t ih => intro b hv; exact .more (hv c (by simp)) (ih false fun d hd => hv d (by simp [hd]))
    exact this v b hv

/-- The parts every expression begins with -/
def hostItems : List EItem := [.one (.chr 72), .one (.chr 111), .one (.chr 115), .one (.chr 116), .one (.chr 58), .star .space]

theorem exec_host {ic : Bool} {r : List EItem} (hb : EItem.bol ∉ r) (h : Bytes) :
    EreExec ic [.bol :: (hostItems ++ r)] h ↔ ∃ n ws s', h = n ++ ws ++ s' ∧ SameName ic b!"Host:" n ∧ SpaceRun ws ∧ EreSeq ic r false s' := by
  have e : hostItems ++ r = b!"Host:".map (fun c => EItem.one (.chr c)) ++ (.star .space :: r) := rfl
  have hb' : EItem.bol ∉ EItem.star .space :: r := by simp [hb]
  constructor
  · rintro ⟨br, hbr, pre, suf, rfl, hs⟩
    simp only [List.mem_singleton] at hbr
    subst hbr
    generalize hp : pre.isEmpty = b at hs
    cases hs with
    | bol hs =>
      have : pre = [] := by simpa using hp
      subst this
      rw [e] at hs
      obtain ⟨n, s1, rfl, hn, h1⟩ := (seq_ones hb' b!"Host:" true suf).mp hs
      obtain ⟨ws, s2, rfl, hw, h2⟩ := (seq_star hb .space false s1).mp h1
      exact ⟨n, ws, s2, by simp, hn, hw, h2⟩
  · rintro ⟨n, ws, s', rfl, hn, hw, hs⟩
    refine ⟨_, List.mem_singleton.mpr rfl, [], _, rfl, .bol ?_⟩
    rw [e]
    exact (seq_ones hb' b!"Host:" true _).mpr ⟨n, ws ++ s', by simp, hn, (seq_star hb .space false _).mpr ⟨ws, s', rfl, hw, hs⟩⟩

/-! ### Conditions -/

theorem comp_exact {n : Bytes} (hn : PlainName n) : ereComp (b!"^Host:[[:space:]]*" ++ escapeRegex n) =
    some [.bol :: (hostItems ++ n.map fun c => .one (.chr c))] := by
  have e : ereComp (b!"^Host:[[:space:]]*" ++ escapeRegex n) = (ereAll (b!"^Host:[[:space:]]*" ++ (escapeRegex n ++ []))).bind ereBranches := by
    rw [List.append_nil]; rfl
  rw [e, ereAll_prefix, ereAll_escape n hn, ereAll_nil]
  have h := branches_ones n [] (by simp) [[]] rfl (by simp)
  have h2 : ereBranches (n.map (fun c => .atom (.chr c)) ++ []) = some [n.map fun c => .one (.chr c)] := by
    rw [h]; simp [consItems]
  show ereBranches (.bol :: .atom (.chr 72) :: .atom (.chr 111) :: .atom (.chr 115) :: .atom (.chr 116) :: .atom (.chr 58) :: .atom .space :: .star ::
    (n.map (fun c => .atom (.chr c)) ++ [])) = _
  simp only [ereBranches, h2, Option.map_some, consItem, hostItems]
  rfl

theorem comp_contain {n : Bytes} (hn : PlainName n) : ereComp (b!"^Host:[[:space:]]*.*" ++ escapeRegex n) =
    some [.bol :: (hostItems ++ (.star .any :: n.map fun c => .one (.chr c)))] := by
  have e : ereComp (b!"^Host:[[:space:]]*.*" ++ escapeRegex n) = (ereAll (b!"^Host:[[:space:]]*.*" ++ (escapeRegex n ++ []))).bind ereBranches := by
    rw [List.append_nil]; rfl
  rw [e, ereAll_prefix_any, ereAll_escape n hn, ereAll_nil]
  have h := branches_ones n [] (by simp) [[]] rfl (by simp)
  have h2 : ereBranches (n.map (fun c => .atom (.chr c)) ++ []) = some [n.map fun c => .one (.chr c)] := by
    rw [h]; simp [consItems]
  show ereBranches (.bol :: .atom (.chr 72) :: .atom (.chr 111) :: .atom (.chr 115) :: .atom (.chr 116) :: .atom (.chr 58) :: .atom .space :: .star :: .atom .any :: .star ::
    (n.map (fun c => .atom (.chr c)) ++ [])) = _
  simp only [ereBranches, h2, Option.map_some, consItem, hostItems]
  rfl

theorem comp_suffix {n : Bytes} (hn : PlainName n) : ereComp (b!"^Host:[[:space:]]*.*" ++ escapeRegex n ++ b!"$") =
    some [.bol :: (hostItems ++ (.star .any :: (n.map (fun c => .one (.chr c)) ++ [.eol])))] := by
  have e : ereComp (b!"^Host:[[:space:]]*.*" ++ escapeRegex n ++ b!"$") = (ereAll (b!"^Host:[[:space:]]*.*" ++ (escapeRegex n ++ b!"$"))).bind ereBranches := by
    rw [List.append_assoc]; rfl
  have hd : ereAll b!"$" = some [.eol] := rfl
  rw [e, ereAll_prefix_any, ereAll_escape n hn, hd]
  have h := branches_ones n [.eol] (by simp) [[.eol]] rfl (by simp)
  have h2 : ereBranches (n.map (fun c => .atom (.chr c)) ++ [.eol]) = some [n.map (fun c => .one (.chr c)) ++ [.eol]] := by
    rw [h]; rfl
  show ereBranches (.bol :: .atom (.chr 72) :: .atom (.chr 111) :: .atom (.chr 115) :: .atom (.chr 116) :: .atom (.chr 58) :: .atom .space :: .star :: .atom .any :: .star ::
    (n.map (fun c => .atom (.chr c)) ++ [.eol])) = _
  simp only [ereBranches, h2, Option.map_some, consItem, hostItems]
  rfl

theorem ones_nobol (n : Bytes) : EItem.bol ∉ n.map fun c => EItem.one (.chr c) := by simp

/-! ### Names taken as expressions -/

/-- A character of a host name as part of an expression -/
def dotItem (c : UInt8) : EAtom := if c = ch%'.' then .any else .chr c

theorem hostChar_cases : ∀ c : UInt8, (isAlpha c = true ∨ isDigit c = true ∨ c ∈ b!"-._:") →
    c = ch%'.' ∨ (isEreSpecial c = false ∧ c ≠ ch%'^' ∧ c ≠ ch%'$' ∧ c ≠ ch%'|') := by
  apply forall_byte; decide +kernel

theorem ereAll_host (n : Bytes) (h : HostChars n) : ereAll n = some (n.map fun c => .atom (dotItem c)) := by
  induction n with
  | nil => rfl
  | cons c t ih =>
    have ih' := ih fun c hc => h c (by simp [hc])
    have hst : ereTok (c :: t) = some (.atom (dotItem c), t) := by
      rcases hostChar_cases c (h c (by simp)) with rfl | ⟨h1, h2, h3, h4⟩
      · rfl
      · have : c ≠ ch%'.' := by
          rintro rfl; cases h1
        rw [ereTok_ord h1 h2 h3 h4]
        unfold dotItem
        rw [if_neg this]
    rw [ereAll_step hst, ih']
    rfl

theorem branches_atoms (l : List EAtom) : ereBranches (l.map .atom) = some [l.map .one] := by
  induction l with
  | nil => rfl
  | cons a t ih =>
    have : ereBranches ((a :: t).map .atom) = (ereBranches (t.map .atom)).map (consItem (.one a)) := by
      show ereBranches (.atom a :: t.map .atom) = _
      rw [ereBranches.eq_7]
      intro u hu
      cases t <;> cases hu
    rw [this, ih]
    rfl

theorem comp_posix {n : Bytes} (hn : HostChars n) : ereComp (b!"^Host:[[:space:]]*" ++ n) = some [.bol :: (hostItems ++ n.map fun c => .one (dotItem c))] := by
  have e : ereComp (b!"^Host:[[:space:]]*" ++ n) = (ereAll (b!"^Host:[[:space:]]*" ++ n)).bind ereBranches := rfl
  rw [e, ereAll_prefix, ereAll_host n hn]
  have h2 : ereBranches (n.map fun c => .atom (dotItem c)) = some [n.map fun c => .one (dotItem c)] := by
    have := branches_atoms (n.map dotItem)
    rw [List.map_map, List.map_map] at this
    exact this
  show ereBranches (.bol :: .atom (.chr 72) :: .atom (.chr 111) :: .atom (.chr 115) :: .atom (.chr 116) :: .atom (.chr 58) :: .atom .space :: .star ::
    (n.map fun c => .atom (dotItem c))) = _
  simp only [ereBranches, h2, Option.map_some, consItem, hostItems]
  rfl

theorem seq_dots {ic : Bool} (n : Bytes) : ∀ (b : Bool) (s : Bytes),
    EreSeq ic (n.map fun c => .one (dotItem c)) b s ↔ ∃ v s', s = v ++ s' ∧ DotMatch ic n v := by
  induction n with
  | nil =>
    intro b s
    exact ⟨fun _ => ⟨[], s, rfl, .nil⟩, fun _ => .nil⟩
  | cons c t ih =>
    intro b s
    constructor
    · intro h
      cases h with
      | one h1 h2 =>
        rename_i d s
        obtain ⟨v, s', rfl, hv⟩ := (ih false s).mp h2
        refine ⟨d :: v, s', rfl, ?_⟩
        unfold dotItem at h1
        by_cases hc : c = ch%'.'
        · subst hc; exact .dot hv
        · rw [if_neg hc] at h1
          exact .chr hc ((chr_ok ic c d).mp h1) hv
    · rintro ⟨v, s', rfl, hv⟩
      cases hv with
      | dot hv => exact .one rfl ((ih false _).mpr ⟨_, s', rfl, hv⟩)
      | chr hc hs hv =>
        refine .one ?_ ((ih false _).mpr ⟨_, s', rfl, hv⟩)
        unfold dotItem
        rw [if_neg hc]
        exact (chr_ok ic _ _).mpr hs

/-! ### Files -/

theorem regexes_cons (m : PatKind) (e : Bytes) (r : List Bytes) : hostRegexes m (e :: r) = (hostRegex m e).1 :: r.map fun x => (hostRegex .posix x).1 := by
  have hp : ∀ m e, (hostRegex m e).2 = .posix := by intro m e; cases m <;> rfl
  have hr : ∀ r, hostRegexes .posix r = r.map fun x => (hostRegex .posix x).1 := by
    intro r
    induction r with
    | nil => rfl
    | cons e r ih => unfold hostRegexes; rw [hp, ih]; rfl
  unfold hostRegexes
  rw [hp, hr]

theorem blank_iff {c : UInt8} : isBlank c = true ↔ c = 32 ∨ c = 9 := by unfold isBlank; simp
theorem blankNl_iff {c : UInt8} : isBlankNl c = true ↔ c = 32 ∨ c = 9 ∨ c = 10 := by unfold isBlankNl; simp [or_assoc]

theorem patLine_spec {line : Bytes} (h0 : 0 ∉ line) (hn : 10 ∉ line) (p : Option Bytes) (h : PatternLine line p) (e : Bytes) (he : e = [] ∨ e = [10]) : patLine (line ++ e) = p := by
  obtain ⟨a, w, b, rfl, ha, hb, hw⟩ := h
  have hz : (a ++ w ++ b ++ e).takeWhile notNul = a ++ w ++ b ++ e := by
    refine cText_id ?_
    rcases he with rfl | rfl
    · simpa using h0
    · intro h
      rcases List.mem_append.mp h with h | h
      · exact h0 h
      · simp at h
  have ha' : ∀ c ∈ a, isBlank c = true := fun c hc => blank_iff.mpr (ha c hc)
  have hb' : ∀ c ∈ b, isBlankNl c = true := fun c hc => blankNl_iff.mpr (by rcases hb c hc with h | h <;> simp [h])
  have he' : ∀ c ∈ e, isBlankNl c = true := by
    rcases he with rfl | rfl
    · simp
    · intro c hc; simp at hc; rw [hc]; rfl
  unfold patLine
  dsimp only
  rw [hz]
  rcases hw with ⟨rfl, rfl⟩ | ⟨⟨c, t, hw1, hc1, hc2⟩, ⟨d, u, hw2, hd1, hd2⟩, rfl⟩
  · have hp : ∀ x ∈ (a ++ [] ++ b ++ e).dropWhile isBlank, isBlankNl x = true := by
      intro x hx
      have := (List.dropWhile_sublist (l := a ++ [] ++ b ++ e) isBlank).subset hx
      simp at this
      rcases this with h | h | h
      · exact blankNl_iff.mpr (by rcases ha x h with h | h <;> simp [h])
      · exact hb' x h
      · exact he' x h
    have hq : ((a ++ [] ++ b ++ e).dropWhile isBlank).reverse.dropWhile isBlankNl = [] := by
      have := dropWhile_app (p := isBlankNl) (a := ((a ++ [] ++ b ++ e).dropWhile isBlank).reverse) (b := []) (by intro x hx; exact hp x (by simpa using hx)) (by intro c t h; cases h)
      simpa using this
    rw [hq]
    simp
  · have hcn : c ∉ [(10 : UInt8)] := by
      intro h
      simp at h
      subst h
      exact hn (by rw [hw1]; simp)
    have hdn : d ≠ 10 := by
      rintro rfl
      exact hn (by rw [hw2]; simp)
    have hp : (a ++ w ++ b ++ e).dropWhile isBlank = w ++ b ++ e := by
      have e1 : a ++ w ++ b ++ e = a ++ (w ++ b ++ e) := by simp
      rw [e1]
      refine dropWhile_app ha' ?_
      intro x t' hx
      rw [hw1] at hx
      simp at hx
      rw [← hx.1]
      have := mt blank_iff.mp (by simp [hc1, hc2] : ¬ (c = 32 ∨ c = 9))
      simpa using this
    rw [hp]
    have hq : (w ++ b ++ e).reverse.dropWhile isBlankNl = w.reverse := by
      have e1 : (w ++ b ++ e).reverse = (e.reverse ++ b.reverse) ++ w.reverse := by simp
      rw [e1]
      refine dropWhile_app ?_ ?_
      · intro x hx
        simp at hx
        rcases hx with h | h
        · exact he' x h
        · exact hb' x h
      · intro x t' hx
        rw [hw2] at hx
        simp at hx
        rw [← hx.1]
        have := mt blankNl_iff.mp (by simp [hd1, hd2, hdn] : ¬ (d = 32 ∨ d = 9 ∨ d = 10))
        simpa using this
    rw [hq]
    have hh : (w ++ b ++ e).head? = w.head? := by rw [hw1]; rfl
    rw [hh]
    simp only [List.reverse_reverse]
    have hne : w ≠ [] := by rw [hw1]; simp
    simp only [hne, false_or]

theorem patLines_spec {text : Bytes} {ps : List (Option Bytes)} (h : PatternFile text ps) : ∀ f, text.length ≤ f → patLines f text = ps.filterMap id := by
  induction h with
  | last hl h0 hn hlen =>
    rename_i l p
    intro f hf
    have hp := patLine_spec h0 hn p hl [] (Or.inl rfl)
    rw [List.append_nil] at hp
    cases l with
    | nil =>
      have : p = none := by rw [← hp]; rfl
      subst this
      cases f <;> rfl
    | cons c t =>
      obtain ⟨f, rfl⟩ : ∃ f', f = f' + 1 := ⟨f - 1, by simp at hf; omega⟩
      unfold patLines
      rw [if_neg (by simp), fgets_last hn hlen]
      dsimp only
      rw [hp]
      have : patLines f [] = [] := by cases f <;> rfl
      rw [this]
      cases p <;> rfl
  | line hl h0 hn hlen _ ih =>
    rename_i l r q ps _
    intro f hf
    obtain ⟨f, rfl⟩ : ∃ f', f = f' + 1 := ⟨f - 1, by simp at hf; omega⟩
    unfold patLines
    rw [if_neg (by simp), fgets_line hn hlen]
    dsimp only
    rw [patLine_spec h0 hn q hl [10] (Or.inr rfl), ih f (by simp at hf; omega)]
    cases q <;> rfl

end Pound
