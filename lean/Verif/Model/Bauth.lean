import Verif.Model.Exchange
import Verif.Model.Expand

/-!
Basic authentication: /repo/src/bauth.c and /repo/src/http.c:2810-2929.

The library functions are parameters: MD5, SHA1, decoding of base64 by OpenSSL's BIO_f_base64 (the data it delivers, `none`
if nothing) and crypt (`none` for NULL).  Memory allocation succeeds.  `char` arguments of isspace are in the C locale.
-/

namespace Pound

/-- Library functions -/
structure Crypto where
  md5 : Bytes → Bytes
  sha1 : Bytes → Bytes
  unbase64 : Bytes → Option Bytes
  crypt : Bytes → Bytes → Option Bytes

/-- auth_plain, /repo/src/bauth.c:26-30 (true stands for 0) -/
def authPlain (pass hash : Bytes) : Bool := pass == hash

/-- auth_crypt, /repo/src/bauth.c:32-44 -/
def authCrypt (E : Crypto) (pass hash : Bytes) : Bool := E.crypt pass hash == some hash

/-- itoa64, /repo/src/bauth.c:51-52 -/
def itoa64 : Bytes := b!"./0123456789ABCDEFGHIJKLMNOPQRSTUVWXYZabcdefghijklmnopqrstuvwxyz"

/-- to64, /repo/src/bauth.c:48-60 -/
def to64 : Nat → Nat → Bytes
  | 0, _ => []
  | n + 1, v => itoa64.getD (v % 64) 0 :: to64 n (v / 64)

def apr1Id : Bytes := b!"$apr1$"

/-- The loop of /repo/src/bauth.c:121-123: what is added to the digest for the remaining `i` bytes -/
def aprFill (final : Bytes) : Nat → Nat → Bytes
  | 0, _ => []
  | f + 1, i => if 0 < i then final.take (min 16 i) ++ aprFill final f (i - 16) else []

/-- The loop of /repo/src/bauth.c:127-128; `final` is all zeros. -/
def aprBits (pw : Bytes) : Nat → Nat → Bytes
  | 0, _ => []
  | f + 1, i => if i ≠ 0 then (if i % 2 = 1 then [0] else pw.take 1) ++ aprBits pw f (i / 2) else []

/-- One round of the loop /repo/src/bauth.c:142-166 -/
def aprRound (E : Crypto) (pw salt final : Bytes) (i : Nat) : Bytes :=
  E.md5 ((if i % 2 = 1 then pw else final) ++ (if i % 3 ≠ 0 then salt else []) ++ (if i % 7 ≠ 0 then pw else []) ++
    (if i % 2 = 1 then final else pw))

/-- The encoding of the digest, /repo/src/bauth.c:173-178 -/
def aprText (d : Bytes) : Bytes :=
  let b := fun i => (d.getD i 0).toNat
  to64 4 (b 0 * 65536 + b 6 * 256 + b 12) ++ to64 4 (b 1 * 65536 + b 7 * 256 + b 13) ++
  to64 4 (b 2 * 65536 + b 8 * 256 + b 14) ++ to64 4 (b 3 * 65536 + b 9 * 256 + b 15) ++
  to64 4 (b 4 * 65536 + b 10 * 256 + b 5) ++ to64 2 (b 11)

/-- The digest computed by apr_md5_encode, /repo/src/bauth.c:98-166 -/
def aprDigest (E : Crypto) (pw salt : Bytes) : Bytes :=
  let alt := E.md5 (pw ++ salt ++ pw)
  let first := E.md5 (pw ++ apr1Id ++ salt ++ aprFill alt (pw.length + 1) pw.length ++ aprBits pw (pw.length + 1) pw.length)
  (List.range 1000).foldl (aprRound E pw salt) first

def notDollar (c : UInt8) : Bool := c != ch%'$'

/-- apr_md5_encode, /repo/src/bauth.c:78-190.  memchr and the digest access eight bytes of the salt if there is no '$' in them: that is out of
bounds if the string, with its terminating NUL, is shorter.  The result always fits in the buffer of auth_apr. -/
def aprMd5Encode (E : Crypto) (pw hash : Bytes) : Res Bytes :=
  let salt := if hash.take 6 = apr1Id then hash.drop 6 else hash
  let k := ((salt.take 8).takeWhile notDollar).length
  if k < min 8 salt.length then
    .ok (apr1Id ++ salt.take k ++ [ch%'$'] ++ aprText (aprDigest E pw (salt.take k)))
  else if salt.length < 7 then .ub
  else .ok (apr1Id ++ salt.take 8 ++ [ch%'$'] ++ aprText (aprDigest E pw ((salt ++ [0]).take 8)))

/-- auth_apr, /repo/src/bauth.c:192-198 -/
def authApr (E : Crypto) (pass hash : Bytes) : Res Bool :=
  match aprMd5Encode E pass hash with
  | .ub => .ub
  | .ok t => .ok (t == hash)

/-- auth_sha1, /repo/src/bauth.c:201-251.  At most 20 bytes are read; memcmp compares 20 bytes of `hashbuf` even if fewer were read. -/
def authSha1 (E : Crypto) (pass hash : Bytes) : Res Bool :=
  match E.unbase64 (hash.drop 5) with
  | none => .ok false
  | some d =>
    if d.length = 0 then .ok false
    else if 20 < d.length then .ok false
    else if d.length < 20 then .ub
    else .ok (E.sha1 pass == d)

/-- auth_match, /repo/src/bauth.c:271-289, with the table of :260-269 unrolled -/
def authMatch (E : Crypto) (pass hash : Bytes) : Res Bool :=
  if 6 < hash.length ∧ hash.take 6 = apr1Id then authApr E pass hash
  else if 5 < hash.length ∧ hash.take 5 = b!"{SHA}" then authSha1 E pass hash
  else if 0 < hash.length then
    if authCrypt E pass hash then .ok true else .ok (authPlain pass hash)
  else .ok false

/-! ### The password file -/

def notNl (c : UInt8) : Bool := c != 10

/-- fgets with a buffer of MAXBUF bytes: the text read (not empty) and the rest -/
def fgets (s : Bytes) : Bytes × Bytes :=
  let w := s.take (maxBuf - 1)
  let k := (w.takeWhile notNl).length
  if k < w.length then (s.take (k + 1), s.drop (k + 1)) else (w, s.drop w.length)

def isBlank (c : UInt8) : Bool := c == 32 || c == 9

def notNul (c : UInt8) : Bool := c != 0

/-- One iteration of the loop of pass_file_fill, /repo/src/bauth.c:354-385: user and password -/
def passLine (buf : Bytes) : Option (Bytes × Bytes) :=
  let p := (buf.takeWhile notNul).dropWhile isBlank
  if p.head? = some ch%'#' then none
  else if p = [] then none
  else
    let p := if p.getLast? = some 10 then p.dropLast else p
    if p = [] then none
    else if ch%':' ∈ p then some (p.takeWhile (· != ch%':'), (p.dropWhile (· != ch%':')).drop 1)
    else none

/-- The loop of pass_file_fill, /repo/src/bauth.c:354-385 -/
def passLines : Nat → Bytes → List (Bytes × Bytes)
  | 0, _ => []
  | f + 1, s =>
    if s = [] then []
    else
      let r := fgets s
      (passLine r.1).toList ++ passLines f r.2

/-- The file as found when a request comes: `fopen` fails with ENOENT, or fails otherwise (or `fstat` fails), or
modification time and content. -/
inductive FileNow where
  | missing
  | failing
  | file (mtime : Nat) (content : Bytes)

/-- struct pass_file, /repo/src/pound.h:676-683; modification times are numbers, 0 for the zeroed structure. -/
structure PassFile where
  mtim : Nat
  entries : List (Bytes × Bytes)

/-- pass_file_fill, /repo/src/bauth.c:321-389, with pass_file_changed, :302-319 -/
def passFileFill (pf : PassFile) : FileNow → PassFile
  | .missing => ⟨0, []⟩
  | .failing => pf
  | .file mtime content =>
    if pf.mtim ≠ mtime then ⟨mtime, passLines (content.length + 1) content⟩ else pf

/-- basic_auth_internal, /repo/src/bauth.c:391-404; `true` stands for 0. -/
def basicAuthInternal (E : Crypto) (pf : PassFile) (now : FileNow) (user pass : Bytes) : PassFile × Res Bool :=
  let pf := passFileFill pf now
  (pf, match pf.entries.find? fun e => e.1 == user with
    | some e => authMatch E pass e.2
    | none => .ok false)

/-! ### The request -/

/-- Result of get_basic_auth -/
inductive BAuth where
  | creds (user pass : Bytes)
  | notBasic
  | error
deriving DecidableEq, Repr

/-- get_basic_auth, /repo/src/http.c:2822-2906.  User and password are C strings: they end at a NUL. -/
def getBasicAuth (E : Crypto) (val : Bytes) : BAuth :=
  if ¬ ciEq (val.take 5) b!"Basic" then .notBasic
  else
    let v := (val.drop 5).dropWhile isSpace
    let t : Option Bytes :=
      if v.head? = some ch%'"' then
        let w := v.drop 1
        let len := (rtrim w).length
        if len = 0 ∨ w[len]? ≠ some ch%'"' then none else some (w.take (len - 1))
      else some v
    match t with
    | none => .notBasic
    | some t =>
      match E.unbase64 t with
      | none => .error
      | some d =>
        let buf := d.take maxBuf
        if buf = [] then .error
        else if ch%':' ∈ buf then
          .creds ((buf.takeWhile (· != ch%':')).takeWhile notNul) (((buf.dropWhile (· != ch%':')).drop 1).takeWhile notNul)
        else .error

/-- http_request_get_basic_auth, /repo/src/http.c:2914-2929, and basic_auth, /repo/src/bauth.c:406-421; the result is `none` for -1.
`hdr` is the value of the first Authorization header. -/
def basicAuth (E : Crypto) (pf : PassFile) (now : FileNow) (hdr : Option Bytes) : PassFile × Res (Option Bool) :=
  match hdr with
  | none => (pf, .ok (some false))
  | some v =>
    match getBasicAuth E v with
    | .notBasic => (pf, .ok (some false))
    | .error => (pf, .ok none)
    | .creds u p =>
      let r := basicAuthInternal E pf now u p
      (r.1, match r.2 with | .ub => .ub | .ok b => .ok (some b))

/-- Requests served one after the other: at each the file is found in some state. -/
def authHistory (E : Crypto) (pf : PassFile) : List (FileNow × Option Bytes) → PassFile
  | [] => pf
  | (now, hdr) :: r => authHistory E (basicAuth E pf now hdr).1 r

/-! ### Concurrent requests -/

/-- The list of entries as shared by all threads: addresses of the entries (no lock is held in /repo/src/bauth.c:391-404 or by its caller,
/repo/src/http.c:3117-3122), the next unused address, and where a thread is in the loop of :397-401. -/
structure SharedPf where
  entries : List Nat
  fresh : Nat
  cursor : Option Nat

/-- Steps of two threads: one walks the list, the other finds that the file has changed and replaces the `n` entries. -/
inductive PfStep where
  | start
  | look
  | reload (n : Nat)

/-- /repo/src/bauth.c:397-401 and :351-385 -/
def pfStep (s : SharedPf) : PfStep → Res SharedPf
  | .start => .ok { s with cursor := s.entries.head? }
  | .look =>
    match s.cursor with
    | none => .ok s
    | some a => if a ∈ s.entries then .ok { s with cursor := (s.entries.dropWhile (· != a)).tail.head? } else .ub
  | .reload n => .ok { s with entries := (List.range n).map (s.fresh + ·), fresh := s.fresh + n }

def pfRun (s : SharedPf) : List PfStep → Res SharedPf
  | [] => .ok s
  | e :: es => match pfStep s e with | .ub => .ub | .ok s => pfRun s es

end Pound
