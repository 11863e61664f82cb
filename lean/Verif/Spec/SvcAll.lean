import Verif.Spec.TopCfg
import Verif.Model.SvcAll

/-!
What the statements of a service other than conditions and modifications of requests are: /repo/doc/pound.8:1700-1840, 2149-2190.
-/

namespace Pound.Spec

/-- Settings of sessions -/
inductive SessArgs : Bytes → List Tok → SessSetting → Prop
  | ip {w : Bytes} : ciEq b!"IP" w = true → SessArgs b!"Type" [.ident w] (.type .ip)
  | basic {w : Bytes} : ciEq b!"BASIC" w = true → SessArgs b!"Type" [.ident w] (.type .basic)
  | url {w : Bytes} : ciEq b!"URL" w = true → SessArgs b!"Type" [.ident w] (.type .url)
  | parm {w : Bytes} : ciEq b!"PARM" w = true → SessArgs b!"Type" [.ident w] (.type .parm)
  | cookie {w : Bytes} : ciEq b!"COOKIE" w = true → SessArgs b!"Type" [.ident w] (.type .cookie)
  | header {w : Bytes} : ciEq b!"HEADER" w = true → SessArgs b!"Type" [.ident w] (.type .header)
  | ttl {u : Tok} {v : Nat} : assignUnsigned u = .ok (some v) → SessArgs b!"TTL" [u] (.ttl v)
  | id {s : Bytes} : SessArgs b!"ID" [.string s] (.id s)

/-- What other statements in a service say -/
inductive RestItem where
  | be (x : SvcItem)
  | session (l : List SessSetting)
  | fwd (s : Bytes)
  | trusted (a : CTest)
  | suppress (mask : Nat)
deriving DecidableEq, Repr

/-- The statements, each with the newline at its end: backends, sessions, ForwardedHeader, TrustedIP with a name or with networks, and LogSuppress with classes of replies
(for the mask they stand for see C59) -/
inductive RestLine (e : CfgEnv) (be : BeEnv) (d : BeDfl) : List Tok → RestItem → Prop
  | be {t : List Tok} {x : SvcItem} : SvcBeLine be d t x → RestLine e be d t (.be x)
  | session {n : Bytes} {t : List Tok} {l : List SessSetting} : ciEq b!"Session" n = true → Settings SessArgs t l → RestLine e be d (.ident n :: (t ++ [.nl])) (.session l)
  | fwd {n s : Bytes} : ciEq b!"ForwardedHeader" n = true → RestLine e be d [.ident n, .string s, .nl] (.fwd s)
  | trusted {n s : Bytes} : ciEq b!"TrustedIP" n = true → e.acl s = true → RestLine e be d [.ident n, .string s, .nl] (.trusted (.acl s))
  | nets {n w : Bytes} {t : List Tok} {l : List Bytes} : ciEq b!"TrustedIP" n = true → Nets e t l → ciEq b!"End" w = true →
      RestLine e be d (.ident n :: .nl :: (t ++ [.ident w, .nl])) (.trusted (.aclOf l))
  | suppress {n : Bytes} {us : List Tok} {m : Nat} : ciEq b!"LogSuppress" n = true → us ≠ [] → (∀ u ∈ us, ∃ s, u = .ident s ∨ u = .number s ∨ u = .literal s) →
      suppressMask 0 (us.map Tok.text) = some m → RestLine e be d (.ident n :: (us ++ [.nl])) (.suppress m)

def beItem : RestItem → Option SvcItem
  | .be x => some x
  | _ => none

def sessItem : RestItem → List SessSetting
  | .session l => l
  | _ => []

def fwdItem : RestItem → Option Bytes
  | .fwd s => some s
  | _ => none

def trustedItem : RestItem → Option CTest
  | .trusted a => some a
  | _ => none

def suppressItem : RestItem → Option Nat
  | .suppress m => some m
  | _ => none

def typeSet : SessSetting → Option SessType
  | .type k => some k
  | _ => none

def sessTtlSet : SessSetting → Option Nat
  | .ttl n => some n
  | _ => none

def idSet : SessSetting → Option Bytes
  | .id s => some s
  | _ => none

/-- Settings of sessions that are complete: there is a type and a time, and a name for the types that look for something by its name. -/
structure SessComplete (l : List SessSetting) : Prop where
  type : ∃ k, (l.filterMap typeSet).getLast? = some k ∧ k ≠ .none ∧ (k = .url ∨ k = .cookie ∨ k = .header → l.filterMap idSet ≠ [])
  ttl : ∃ n, (l.filterMap sessTtlSet).getLast? = some n ∧ 0 < n

/-- Where a Session section ends, the settings so far are complete. -/
def SessOrder (l : List RestItem) : Prop := ∀ pre s post, l = pre ++ .session s :: post → SessComplete (pre.flatMap sessItem ++ s)

/-- What a service is, by its statements: the last one of each kind counts. -/
structure RestMeans (algo : Algo) (l : List RestItem) (r : SvcRest) : Prop where
  bes : SvcMeans algo (l.filterMap beItem) r.bes
  type : r.sess.type = lastOr .none ((l.flatMap sessItem).filterMap typeSet)
  ttl : r.sess.ttl = lastOr 0 ((l.flatMap sessItem).filterMap sessTtlSet)
  id : r.sess.id = ((l.flatMap sessItem).filterMap idSet).getLast?
  fwd : r.fwd = (l.filterMap fwdItem).getLast?
  trusted : r.trusted = (l.filterMap trustedItem).getLast?
  suppress : r.suppress = lastOr 0 (l.filterMap suppressItem)

end Pound.Spec
