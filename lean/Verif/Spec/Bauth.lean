import Verif.Model.Bauth

/-! Password files and hash schemes. -/

namespace Pound.Spec

open Pound

/-- Lines separated by newlines (the last one may be empty) -/
def nlJoin : List Bytes → Bytes
  | [] => []
  | [l] => l
  | l :: ls => l ++ 10 :: nlJoin ls

/-- A line "USER:HASH", possibly indented with spaces and tabs.  A user name does not start with a space, a tab or '#' and does not
contain ':'. -/
def EntryLine (l user hash : Bytes) : Prop :=
  ∃ ws, l = ws ++ user ++ ch%':' :: hash ∧ (∀ c ∈ ws, c = 32 ∨ c = 9) ∧ ch%':' ∉ user ∧
    ∀ c, user.head? = some c → c ≠ 32 ∧ c ≠ 9 ∧ c ≠ ch%'#'

/-- The binary digits of a number, the least significant first -/
def binary : Nat → List Bool
  | 0 => []
  | n + 1 => ((n + 1) % 2 == 1) :: binary ((n + 1) / 2)
termination_by n => n
decreasing_by omega

/-- The "apr1" digest of Apache: a first digest, then 1000 rounds. -/
def apr1Start (md5 : Bytes → Bytes) (pw salt : Bytes) : Bytes :=
  let alt := md5 (pw ++ salt ++ pw)
  md5 (pw ++ b!"$apr1$" ++ salt ++ ((List.replicate pw.length alt).flatten).take pw.length ++
    ((binary pw.length).map fun b => if b then [0] else pw.take 1).flatten)

def apr1Rounds (md5 : Bytes → Bytes) (pw salt : Bytes) : Nat → Bytes
  | 0 => apr1Start md5 pw salt
  | n + 1 =>
    let d := apr1Rounds md5 pw salt n
    let odd := n % 2 == 1
    md5 ((if odd then pw else d) ++ (if n % 3 == 0 then [] else salt) ++ (if n % 7 == 0 then [] else pw) ++ (if odd then d else pw))

/-- The hash text belongs to the scheme with the given prefix. -/
def HasScheme (pfx hash : Bytes) : Prop := ∃ t, t ≠ [] ∧ hash = pfx ++ t

/-- The password is right under the scheme of the hash.  `encode` writes an apr1 digest. -/
inductive Accepts (E : Crypto) (encode : Bytes → Bytes) (pass : Bytes) : Bytes → Prop
  | apr1 {salt} : ch%'$' ∉ salt → salt.length ≤ 8 →
      Accepts E encode pass (b!"$apr1$" ++ salt ++ [ch%'$'] ++ encode (apr1Rounds E.md5 pass salt 1000))
  | sha1 {t} : t ≠ [] → E.unbase64 t = some (E.sha1 pass) → Accepts E encode pass (b!"{SHA}" ++ t)
  | crypt {h} : h ≠ [] → ¬ HasScheme b!"$apr1$" h → ¬ HasScheme b!"{SHA}" h → E.crypt pass h = some h → Accepts E encode pass h
  | plain : pass ≠ [] → ¬ HasScheme b!"$apr1$" pass → ¬ HasScheme b!"{SHA}" pass → Accepts E encode pass pass

/-- The hash of an apr1 or SHA1 entry is well-formed. -/
def GoodHash (E : Crypto) (h : Bytes) : Prop :=
  (∀ t, t ≠ [] → h = b!"$apr1$" ++ t → ch%'$' ∈ t ∨ 7 ≤ t.length) ∧
  (∀ t d, t ≠ [] → h = b!"{SHA}" ++ t → E.unbase64 t = some d → d = [] ∨ 20 ≤ d.length)

end Pound.Spec
