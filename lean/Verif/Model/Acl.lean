import Verif.Model.Expand

/-!
Access control lists (/repo/src/config.c:322-631) and the address of the client as derived from a forwarding
header (/repo/src/log.c:143-315).

`getaddrinfo` with AI_NUMERICHOST is a parameter `N`: `none` if it fails, otherwise the (non-empty) list of
addresses it returns.  Memory allocation succeeds.
-/

namespace Pound

/-- struct sockaddr: address families other than the two of Internet are not distinguished. -/
inductive Sockaddr where
  | inet (a : Bytes)
  | inet6 (a : Bytes)
  | other
deriving DecidableEq, Repr

/-- sa_family -/
inductive Family where
  | inet
  | inet6
  | other
deriving DecidableEq, Repr

def Sockaddr.family : Sockaddr → Family
  | .inet _ => .inet
  | .inet6 _ => .inet6
  | .other => .other

/-- sockaddr_bytes, /repo/src/config.c:376-393: length and bytes, `none` for -1 -/
def sockaddrBytes : Sockaddr → Option (Nat × Bytes)
  | .inet a => some (4, a)
  | .inet6 a => some (16, a)
  | .other => none

/-- struct cidr, /repo/src/config.c:329-336 -/
structure Cidr where
  family : Family
  len : Nat
  addr : Bytes
  mask : Bytes
deriving DecidableEq, Repr

/-- The loop of cidr_match, /repo/src/config.c:362-366, for `n` remaining bytes -/
def cidrLoop : Nat → Bytes → Bytes → Bytes → Bool
  | 0, _, _, _ => true
  | n + 1, x :: addr, m :: mask, a :: ap => if x != a &&& m then false else cidrLoop n addr mask ap
  | _ + 1, _, _, _ => false

/-- cidr_match, /repo/src/config.c:355-369; true stands for 0.  (All arrays have at least `len` bytes.) -/
def cidrMatch (c : Cidr) (ap : Bytes) (len : Nat) : Bool :=
  if c.len = len then cidrLoop len c.addr c.mask ap else true

/-- acl_match, /repo/src/config.c:399-416 -/
def aclMatch (acl : List Cidr) (sa : Sockaddr) : Int :=
  match sockaddrBytes sa with
  | none => -1
  | some (len, ap) => if acl.any fun c => c.family == sa.family && cidrMatch c ap len then 0 else 1

/-- masklen_to_netmask, /repo/src/config.c:418-432.  `masklen / 8` is converted to int; the loop writes that many
bytes, beyond the end of the mask if there are more than 16. -/
def masklenToNetmask (masklen : Nat) : Res Bytes :=
  let q := masklen / 8 % 2 ^ 32
  let i := if q < 2 ^ 31 then q else 0
  if 16 < i then .ub
  else if i = 16 then .ok (List.replicate 16 255)
  else
    let cnt := 8 - masklen % 8
    .ok (List.replicate i (255 : UInt8) ++ [UInt8.ofNat ((255 >>> cnt) <<< cnt)] ++ List.replicate (15 - i) 0)

def notSlash (c : UInt8) : Bool := c != ch%'/'

/-- parse_cidr, /repo/src/config.c:435-496, for the text of a string token; `none` is CFGPARSER_FAIL. -/
def parseCidr (N : Bytes → Option (List Sockaddr)) (tok : Bytes) : Res (Option Cidr) :=
  let host := tok.takeWhile notSlash
  let mask := (tok.dropWhile notSlash).tail?
  let ml : Option (Option Nat) :=
    match mask with
    | none => some none
    | some m =>
      let r := strtoul10 m
      match r.1 with
      | none => none
      | some v => if r.2 = [] then some (some v) else none
  match ml with
  | none => .ok none
  | some ml =>
    match N host with
    | none => .ok none
    | some [] => .ub
    | some (sa :: _) =>
      match sockaddrBytes sa with
      | none => .ok none
      | some (len, p) =>
        match masklenToNetmask (ml.getD (len * 8)) with
        | .ub => .ub
        | .ok mask => .ok (some ⟨sa.family, len, p.zipWith (· &&& ·) mask, mask⟩)

/-- Tokens of the configuration file, as far as ACLs need them -/
inductive CTok where
  | nl
  | ident (s : Bytes)
  | str (s : Bytes)
  | bad
deriving DecidableEq, Repr

/-- The loop of parse_acl, /repo/src/config.c:539-563.  SLIST_PUSH adds at the tail.  After "Include" the tokens
come from the included file: the list of tokens is the one with the files included, hence that case is left out. -/
def parseAclLoop (N : Bytes → Option (List Sockaddr)) : List CTok → List Cidr → Res (Option (List Cidr × List CTok))
  | [], _ => .ok none
  | .nl :: ts, acl => parseAclLoop N ts acl
  | .ident s :: ts, acl => if ciEq s b!"end" then .ok (some (acl, ts)) else .ok none
  | .bad :: _, _ => .ok none
  | .str s :: ts, acl =>
    match parseCidr N s with
    | .ub => .ub
    | .ok none => .ok none
    | .ok (some c) => parseAclLoop N ts (acl ++ [c])

/-- parse_acl, /repo/src/config.c:525-565 -/
def parseAcl (N : Bytes → Option (List Sockaddr)) : List CTok → Res (Option (List Cidr × List CTok))
  | .nl :: ts => parseAclLoop N ts []
  | _ => .ok none

/-! ### Forwarding headers -/

/-- acl_match_ip, /repo/src/log.c:143-164: 1 if some of the addresses matches, 0 if none, -1 on failure -/
def aclMatchIp (N : Bytes → Option (List Sockaddr)) (acl : List Cidr) (ip : Bytes) : Int :=
  match N ip with
  | none => -1
  | some sas => if sas.any fun sa => aclMatch acl sa == 0 then 1 else 0

/-- /repo/src/log.c:182-183: the index of the last comma at or below the given index, 0 if none -/
def segStart (h : Bytes) : Nat → Nat
  | 0 => 0
  | k + 1 => if h[k + 1]? = some ch%',' then k + 1 else segStart h k

def notSpace (c : UInt8) : Bool := !isSpace c

/-- /repo/src/log.c:200-212: the word copied from the segment -/
def segWord (seg : Bytes) : Bytes :=
  let s := if seg.head? = some ch%',' then seg.drop 1 else seg
  (s.dropWhile isSpace).takeWhile notSpace

/-- The loop of scan_forwarded_header, /repo/src/log.c:176-230; `h` is the text from `hdr` to `end`. -/
def scanFwd (N : Bytes → Option (List Sockaddr)) (acl : List Cidr) : Nat → Bytes → Option Bytes
  | 0, _ => none
  | f + 1, h =>
    if h = [] then none
    else
      let p := segStart h (h.length - 1)
      let w := segWord (h.drop p)
      let rc := aclMatchIp N acl w
      if rc = 0 then some w
      else if rc = 1 then scanFwd N acl f (h.take p)
      else none

/-- scan_forwarded_header, /repo/src/log.c:166-231 -/
def scanForwarded (N : Bytes → Option (List Sockaddr)) (hdr : Option Bytes) (acl : Option (List Cidr)) : Option Bytes :=
  match hdr, acl with
  | some h, some a => scanFwd N a (h.length + 1) h
  | _, _ => none

/-- The values joined by save_forwarded_header, /repo/src/log.c:277-293 -/
def joinValues : List Bytes → Bytes
  | [] => []
  | [v] => v
  | v :: vs => v ++ (if 0 < v.length then b!", " else []) ++ joinValues vs

/-- save_forwarded_header, /repo/src/log.c:257-298, for a header that is not declared as combinable (for a combinable one
all values have been combined when reading the request, and the value of the first header is used). -/
def saveForwarded (hs : List Header) (nm : Bytes) : Option Bytes :=
  match hs.filter fun h => h.name.length == nm.length && ciEq h.name nm with
  | [] => none
  | h :: r => some (joinValues ((h :: r).map Header.rawValue))

end Pound
