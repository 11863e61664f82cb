import Verif.Spec.Exchange
import Verif.Spec.Request

/-!
Specification of string expansion (/repo/doc/pound.texi, "String Expansions") and of
percent-encoding.
-/

namespace Pound.Spec

/-- What `%[name]` stands for: no such accessor, nothing, or a text. -/
inductive AccVal where
  | unknown
  | nothing
  | text (v : Bytes)

/-- What templates refer to: the groups of the `m`-th latest match (`none`: it failed, or there
was none), and the accessors, unless they are not interpreted. -/
structure Env where
  groups : Nat → Option (List Bytes)
  accessor : Option (Bytes → AccVal → Prop)

/-- Decimal digit. -/
def Digit (c : UInt8) : Prop := 48 ≤ c.toNat ∧ c.toNat ≤ 57
/-- Hexadecimal digit. -/
def HexDigit (c : UInt8) : Prop :=
  (48 ≤ c.toNat ∧ c.toNat ≤ 57) ∨ (65 ≤ c.toNat ∧ c.toNat ≤ 70) ∨ (97 ≤ c.toNat ∧ c.toNat ≤ 102)

/-- `t` does not start with a character of the given kind. -/
def NotAt (p : UInt8 → Prop) (t : Bytes) : Prop := ∀ c, t.head? = some c → ¬ p c

/-- The text `w`, followed by `t`, is a reference to group `g` of the `m`-th latest match. -/
inductive Ref : Bytes → Bytes → Nat → Nat → Prop
  | plain {ds t g} : Denotes 10 ds g → NotAt (fun c => Digit c ∨ c = ch%'(') t →
      Ref (ch%'$' :: ds) t g 0
  | braced {ds t g} : Denotes 10 ds g → Ref (b!"${" ++ ds ++ b!"}") t g 0
  | hist {ds ms t g m} : Denotes 10 ds g → Denotes 10 ms m →
      Ref (b!"$" ++ ds ++ b!"(" ++ ms ++ b!")") t g m
  | bracedHist {ds ms t g m} : Denotes 10 ds g → Denotes 10 ms m →
      Ref (b!"${" ++ ds ++ b!"(" ++ ms ++ b!")}") t g m
  | old {d t g} : Denotes 10 [d] g → NotAt HexDigit t → Ref [ch%'%', d] t g 1
  | oldBraced {ds t g} : Denotes 10 ds g → Ref (b!"%{" ++ ds ++ b!"}") t g 1

/-- Which constructs are considered: `pct`, the notation `$%`; `num g`, the group number `g` in
erroneous references; `bad g m`, references to a group `g` of the match `m` that is not there. -/
structure Scope where
  pct : Prop
  num : Nat → Prop
  bad : Nat → Nat → Prop

/-- Everything documented. -/
def Scope.all : Scope := ⟨True, fun _ => True, fun _ _ => True⟩

/-- Everything but: the notation `$%`, group numbers of 2^64 and more, and references
to the group after the last one. -/
def okScope (E : Env) : Scope :=
  ⟨False, fun g => g < 2 ^ 64, fun g m => ∀ gs, E.groups m = some gs → g ≠ gs.length⟩

/-- The text `w`, followed by `t`, is one construct of a template: it expands to a text
and counts for 0 or 1 expansions, or it is an error (`none`). -/
inductive Item (E : Env) (S : Scope) : Bytes → Bytes → Option (Bytes × Nat) → Prop
  | text {c t} : c ≠ ch%'$' → c ≠ ch%'%' → Item E S [c] t (some ([c], 0))
  | dollar {t} : Item E S b!"$$" t (some (b!"$", 0))
  | percent {t} : S.pct → Item E S b!"$%" t (some (b!"%", 0))
  | escape {a b t} : HexDigit a → HexDigit b → Item E S [ch%'%', a, b] t (some ([ch%'%', a, b], 0))
  | group {w t g m gs s} : Ref w t g m → E.groups m = some gs → gs[g]? = some s →
      Item E S w t (some (s, 1))
  | noGroup {w t g m} : Ref w t g m → (∀ gs, E.groups m = some gs → gs.length ≤ g) → S.num g → S.bad g m →
      Item E S w t none
  | accText {nm t h v} : E.accessor = some h → ch%']' ∉ nm → h nm (.text v) →
      Item E S (b!"%[" ++ nm ++ b!"]") t (some (v, 1))
  | accNothing {nm t h} : E.accessor = some h → ch%']' ∉ nm → h nm .nothing →
      Item E S (b!"%[" ++ nm ++ b!"]") t (some ([], 0))
  | accUnknown {nm t h} : E.accessor = some h → ch%']' ∉ nm → h nm .unknown →
      Item E S (b!"%[" ++ nm ++ b!"]") t (some (b!"%[" ++ nm ++ b!"]", 0))
  | accUnclosed {t} : E.accessor.isSome → ch%']' ∉ t → Item E S b!"%[" t none
  | strayDollar {d t} : d ≠ ch%'$' → d ≠ ch%'%' → d ≠ ch%'{' → ¬ Digit d →
      Item E S b!"$" (d :: t) none
  | strayPercent {d t} : ¬ (HexDigit d ∧ ¬ NotAt HexDigit t) → ¬ (E.accessor.isSome ∧ d = ch%'[') →
      d ≠ ch%'{' → ¬ Digit d → Item E S b!"%" (d :: t) none
  | badBrace {c t} : c = ch%'$' ∨ c = ch%'%' →
      NotAt (fun x => Digit x ∨ isSpace x ∨ x = ch%'+' ∨ x = ch%'-' ∨ x = ch%'}' ∨ x = ch%'(') t →
      Item E S [c, ch%'{'] t none
  | unclosedBrace {c ds g t} : c = ch%'$' ∨ c = ch%'%' → Denotes 10 ds g → S.num g →
      NotAt (fun x => Digit x ∨ x = ch%'}' ∨ x = ch%'(') t →
      Item E S ([c, ch%'{'] ++ ds) t none
  | unclosedParen {ds ms g m t} : Denotes 10 ds g → Denotes 10 ms m → S.num g →
      NotAt (fun x => Digit x ∨ x = ch%')') t →
      Item E S (b!"$" ++ ds ++ b!"(" ++ ms) t none

/-- The expansion of a template: its text and the number of expansions, or an error. -/
inductive Expands (E : Env) (S : Scope) : Bytes → Option (Bytes × Nat) → Prop
  | nil : Expands E S [] (some ([], 0))
  | cons {w t x y} : Item E S w t x → Expands E S t y →
      Expands E S (w ++ t)
        (match x, y with
         | some (s, k), some (o, n) => some (s ++ o, k + n)
         | _, _ => none)

/-- `gs` are the texts of the groups with the given offsets in the subject; a group that took
no part in the match has the same start and end, usually -1, and is empty. -/
inductive GroupsAt (subject : Bytes) : List (Int × Int) → List Bytes → Prop
  | nil : GroupsAt subject [] []
  | unset {os gs k} : GroupsAt subject os gs → GroupsAt subject ((k, k) :: os) ([] :: gs)
  | set {a g b os gs} : subject = a ++ g ++ b → GroupsAt subject os gs →
      GroupsAt subject ((a.length, a.length + g.length) :: os) (g :: gs)

/-- Value of a request accessor, for a request with the given URL, path, query, parameters and
header lines.  `%[host]` is the host part of the `Host` header, `%[port]` the rest of it. -/
inductive Accesses (url path : Bytes) (query : Option Bytes)
    (param : Bytes → Option (Option Bytes)) (headers : List Bytes) : Bytes → AccVal → Prop
  | url {l r} : Blank l → Blank r → Accesses url path query param headers (l ++ b!"url" ++ r) (.text url)
  | path {l r} : Blank l → Blank r →
      Accesses url path query param headers (l ++ b!"path" ++ r) (.text path)
  | query {l r q} : Blank l → Blank r → query = some q →
      Accesses url path query param headers (l ++ b!"query" ++ r) (.text q)
  | param {l ws a v} : Blank l → Blank ws → ws ≠ [] → a ≠ [] → Trims a a → param a = some (some v) →
      Accesses url path query param headers (l ++ b!"param" ++ ws ++ a) (.text v)
  | noParam {l ws a} : Blank l → Blank ws → ws ≠ [] → a ≠ [] → Trims a a →
      (param a = none ∨ param a = some none) →
      Accesses url path query param headers (l ++ b!"param" ++ ws ++ a) .nothing
  | header {l ws a v vs} : Blank l → Blank ws → ws ≠ [] → a ≠ [] → Trims a a → Values a headers (v :: vs) →
      Accesses url path query param headers (l ++ b!"header" ++ ws ++ a) (.text v)
  | noHeader {l ws a} : Blank l → Blank ws → ws ≠ [] → a ≠ [] → Trims a a → Values a headers [] →
      Accesses url path query param headers (l ++ b!"header" ++ ws ++ a) .nothing
  | host {l r h p vs} : Blank l → Blank r → Values b!"Host" headers ((h ++ p) :: vs) →
      ch%':' ∉ h → (p = [] ∨ ∃ t, p = ch%':' :: t) →
      Accesses url path query param headers (l ++ b!"host" ++ r) (.text h)
  | port {l r h p vs} : Blank l → Blank r → Values b!"Host" headers ((h ++ p) :: vs) →
      ch%':' ∉ h → (p = [] ∨ ∃ t, p = ch%':' :: t) →
      Accesses url path query param headers (l ++ b!"port" ++ r) (.text p)
  | noHost {l n r} : Blank l → Blank r → (n = b!"host" ∨ n = b!"port") → Values b!"Host" headers [] →
      Accesses url path query param headers (l ++ n ++ r) .nothing
  | unknown {l n r} : Blank l → n ≠ [] → (∀ c ∈ n, c ≠ 32 ∧ c ≠ 9) → (r = [] ∨ ∃ c t, r = c :: t ∧ (c = 32 ∨ c = 9)) →
      n ∉ [b!"url", b!"path", b!"query", b!"param", b!"header", b!"host", b!"port"] →
      Accesses url path query param headers (l ++ n ++ r) .unknown

/-- `e` percent-encodes `s`. -/
inductive PctEncodes : Bytes → Bytes → Prop
  | nil : PctEncodes [] []
  | plain {c s e} : c ≠ ch%'%' → PctEncodes s e → PctEncodes (c :: s) (c :: e)
  | esc {c a b x y s e} : digit? 16 a = some x → digit? 16 b = some y → c.toNat = 16 * x + y →
      PctEncodes s e → PctEncodes (c :: s) (ch%'%' :: a :: b :: e)

/-- Characters that may appear in the location of a redirect. -/
def LocationChar (c : UInt8) : Prop :=
  Digit c ∨ (65 ≤ c.toNat ∧ c.toNat ≤ 90) ∨ (97 ≤ c.toNat ∧ c.toNat ≤ 122) ∨ c ∈ b!"_.:/?&;-=%"

end Pound.Spec
