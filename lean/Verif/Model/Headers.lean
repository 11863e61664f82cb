import Verif.Model.Framing

/-!
Model of header storage (/repo/src/http.c): recognition of header lines, look-up,
adding of headers, reading of the header block, token search.

The regular expression HEADER (/repo/src/pound.c:1128-1130), matched by the libc, is
modelled by the direct scan `headerMatch`; texts are assumed to contain no LF
(they come from `get_line`, or from one line of the configuration).
-/

namespace Pound

/-- Bracket expression in HEADER (/repo/src/pound.c:1129), with REG_ICASE. -/
def isTChar (c : UInt8) : Bool :=
  isAlnum c || (b!"!#$%&'*+.^_`|~-").contains c

/-- Header codes (/repo/src/pound.h:321-338). -/
inductive HCode where
  | illegal | other | transferEncoding | contentLength | connection | location
  | contLocation | host | referer | userAgent | uri | destination | expect | upgrade
  | authorization
deriving DecidableEq, Repr

/-- `struct http_header` (/repo/src/pound.h:340-350). The cached `value` is a function of the
other fields and not modelled. -/
structure Header where
  text : Bytes
  code : HCode
  nameStart : Nat
  nameEnd : Nat
  valStart : Nat
  valEnd : Nat
deriving DecidableEq, Repr

/-- Match of HEADER (/repo/src/pound.c:1128-1130): `some (nameEnd, valStart)`; the name starts
at 0 and the value, by the leftmost-longest rule, extends to the end of the text. -/
def headerMatch (text : Bytes) : Option (Nat × Nat) :=
  let name := text.takeWhile isTChar
  match text.drop name.length with
  | c :: rest =>
    if name.length > 0 ∧ c = ch%':' then
      some (name.length, name.length + 1 + (rest.takeWhile isWs).length)
    else none
  | [] => none

/-- The table `hd_types` of `qualify_header` (/repo/src/http.c:1881-1902). -/
def hdTypes : List (Bytes × HCode) :=
  [(b!"Transfer-encoding", .transferEncoding),
   (b!"Content-length", .contentLength),
   (b!"Connection", .connection),
   (b!"Location", .location),
   (b!"Content-location", .contLocation),
   (b!"Host", .host),
   (b!"Referer", .referer),
   (b!"User-agent", .userAgent),
   (b!"Destination", .destination),
   (b!"Expect", .expect),
   (b!"Upgrade", .upgrade),
   (b!"Authorization", .authorization)]

/-- `qualify_header` (/repo/src/http.c:1878-1923). If the text is not a header line the offsets
keep their old values. -/
def qualify (h : Header) : Header :=
  match headerMatch h.text with
  | some (ne, vs) =>
    let name := h.text.take ne
    let code := match hdTypes.find? (fun t => name.length == t.1.length && ciEq name t.1) with
      | some t => t.2
      | none => .other
    { h with nameStart := 0, nameEnd := ne, valStart := vs, valEnd := h.text.length, code := code }
  | none => { h with code := .illegal }

/-- `http_header_alloc` (/repo/src/http.c:1923-1944). `calloc` and `strdup` do not fail. -/
def headerAlloc (text : Bytes) : Header := qualify ⟨text, .other, 0, 0, 0, 0⟩

/-- `http_header_change` (/repo/src/http.c:1954-1975). -/
def Header.change (h : Header) (text : Bytes) : Header := qualify { h with text := text }

/-- `http_header_name_ptr`, `http_header_name_len` (/repo/src/pound.h:352-362). -/
def Header.name (h : Header) : Bytes := (h.text.drop h.nameStart).take (h.nameEnd - h.nameStart)

/-- `http_header_get_value` with `http_header_copy_value` (/repo/src/http.c:1978-2013): undefined
if the offsets do not lie in the text (with its terminating NUL). -/
def Header.value (h : Header) : Res Bytes :=
  if h.valStart ≤ h.valEnd ∧ h.valEnd ≤ h.text.length then
    .ok ((h.text.drop h.valStart).take (h.valEnd - h.valStart))
  else .ub

/-- Not a colon; `strcspn (s, ":")` is the length of `s.takeWhile notColon`. -/
def notColon (c : UInt8) : Bool := c != ch%':'

/-- Position of the header found by `http_header_list_locate_name` with `len == 0`
(/repo/src/http.c:2026-2040). -/
def locateName (hs : List Header) (text : Bytes) : Option Nat :=
  let nm := text.takeWhile notColon
  let i := hs.findIdx fun h => h.name.length == nm.length && ciEq h.name nm
  if i < hs.length then some i else none

/-- Modes of adding (/repo/src/pound.h:366-372). -/
inductive HMode where
  | keep | replace | append
deriving DecidableEq, Repr

/-- New text in mode H_APPEND (/repo/src/http.c:2084-2102); `val = text + hdr->name_end + 1` is
undefined when it points beyond the NUL of `text`. -/
def appendText (h : Header) (text : Bytes) : Res Bytes :=
  if h.nameEnd + 1 ≤ text.length then
    let val := text.drop (h.nameEnd + 1)
    .ok (h.text.take (h.valEnd - h.nameStart) ++ b!"," ++
      (match val with | c :: _ => if isSpace c then [] else b!" " | [] => b!" ") ++ val)
  else .ub

/-- `http_header_list_append` (/repo/src/http.c:2066-2116). The number is the return value
(0 or 1); allocation does not fail. -/
def listAppend (hs : List Header) (text : Bytes) (mode : HMode) : Res (Nat × List Header) :=
  match locateName hs text with
  | some i =>
    match hs[i]? with
    | none => .ub -- not reachable
    | some h =>
      match mode with
      | .keep => .ok (0, hs)
      | .replace => .ok (0, hs.set i (h.change text))
      | .append =>
        match h.value with
        | .ub => .ub
        | .ok [] => .ok (0, hs.set i (h.change text))
        | .ok (_ :: _) =>
          match appendText h text with
          | .ub => .ub
          | .ok t => .ok (0, hs.set i (h.change t))
  | none =>
    let h := headerAlloc text
    if h.code = .illegal then .ok (1, hs) else .ok (0, hs ++ [h])

/-- Result of `cs_locate_token` when the token is found: the pointers `subj` and `next`,
as the rests of the string they point to. -/
structure TokPos where
  at_ : Bytes
  next : Bytes
deriving DecidableEq, Repr

/-- Not a comma; `strcspn (s, ",")` is the length of `s.takeWhile notComma`. -/
def notComma (c : UInt8) : Bool := c != ch%','

/-- Drop trailing white space (`for (i = len; i > 0; i--)`, /repo/src/http.c:1862-1864). -/
def rtrim (s : Bytes) : Bytes := (s.reverse.dropWhile isSpace).reverse

/-- `cs_locate_token` (/repo/src/http.c:1846-1876); `none` is NULL. -/
def csLocate (subj tok : Bytes) (ci : Bool) : Option TokPos :=
  match hs : subj.dropWhile isSpace with
  | [] => none
  | c :: t =>
    let s := c :: t
    let len := (s.takeWhile notComma).length
    let e := rtrim (s.take len)
    let next := s.drop (len + 1)
    if e.length == tok.length && (if ci then ciEq e tok else e == tok) then some ⟨s, next⟩
    else csLocate next tok ci
termination_by subj.length
decreasing_by
  have h1 := (List.dropWhile_suffix (l := subj) isSpace).length_le
  rw [hs] at h1
  simp only [List.length_drop, List.length_cons] at *
  omega

/-- An entry while the header block is read: the header, and the string buffer of the
COMPOSE_HEADER that refers to it, if any. -/
structure RdHeader where
  hdr : Header
  comp : Option Bytes
deriving DecidableEq, Repr

/-- The value part of a header, `hdr->header + val_start`, `val_end - val_start` bytes
(/repo/src/http.c:2742-2743, 2770-2771); only used on headers just qualified. -/
def Header.rawValue (h : Header) : Bytes := (h.text.drop h.valStart).take (h.valEnd - h.valStart)

/-- `is_combinable_header` (/repo/src/http.c:1826-1835): the table is a hash of names, compared
without regard to letter case. -/
def isCombinable (table : List Bytes) (h : Header) : Bool := table.any fun n => ciEq n h.name

/-- `COMPOSE_HEADER_RETRIEVE` followed by the extension of its buffer
(/repo/src/http.c:2746-2764): at most one entry per name has a buffer. -/
def addComposed (hs : List RdHeader) (h : Header) : Option (List RdHeader) :=
  match hs with
  | [] => none
  | e :: t =>
    match e.comp with
    | some sb =>
      if e.hdr.name.length == h.name.length && ciEq e.hdr.name h.name then
        some ({ e with comp := some (sb ++ b!", " ++ h.rawValue) } :: t)
      else (addComposed t h).map (e :: ·)
    | none => (addComposed t h).map (e :: ·)

/-- One header line in `http_request_read` (/repo/src/http.c:2719-2784). -/
def readHeaderStep (table : List Bytes) (hs : List RdHeader) (line : Bytes) : List RdHeader :=
  let h := headerAlloc line
  if h.code = .illegal then hs
  else if isCombinable table h then
    match addComposed hs h with
    | some hs' => hs'
    | none => hs ++ [⟨h, some (h.name ++ b!": " ++ h.rawValue)⟩]
  else hs ++ [⟨h, none⟩]

/-- `compose_header_finish` (/repo/src/http.c:2646-2665) on every entry. -/
def finishHeader (e : RdHeader) : Header :=
  match e.comp with
  | some sb => e.hdr.change sb
  | none => e.hdr

/-- The header list built by `http_request_read` (/repo/src/http.c:2706-2801) from the lines of
the header block. -/
def buildHeaders (table : List Bytes) (lines : List Bytes) : List Header :=
  (lines.foldl (readHeaderStep table) []).map finishHeader

/-- Result of `http_request_read`: HTTP_STATUS_OK with request line, headers and the
unread input; or an error. -/
inductive ReadRes where
  | ok (request : Bytes) (headers : List Header) (rest : Bytes)
  | err (st : Status)
deriving DecidableEq, Repr

/-- The header loop of `http_request_read` (/repo/src/http.c:2706-2717): collect lines up to an
empty one. `none`: any result of `get_line` other than COPY_OK. -/
def readLines : Nat → Bytes → List Bytes → Option (List Bytes × Bytes)
  | 0, _, _ => none
  | fuel + 1, inp, acc =>
    match getLine inp maxBuf with
    | .ok line rest => if line.isEmpty then some (acc, rest) else readLines fuel rest (acc ++ [line])
    | _ => none

/-- The loop skipping empty lines in front of a request (/repo/src/http.c:2685-2690). -/
def skipBlank : Nat → Bytes → LineRes
  | 0, _ => .eof
  | fuel + 1, inp =>
    match getLine inp maxBuf with
    | .ok line rest => if line.isEmpty then skipBlank fuel rest else .ok line rest
    | r => r

/-- `http_request_read` (/repo/src/http.c:2668-2808). At end of file the request line is the
empty string and the header loop fails. -/
def httpRequestRead (table : List Bytes) (inp : Bytes) : ReadRes :=
  match skipBlank (inp.length + 1) inp with
  | .bad _ => .err .badRequest
  | .tooLong _ => .err .badRequest
  | .eof => .err .internalError
  | .ok line rest =>
    match readLines (rest.length + 1) rest [] with
    | none => .err .internalError
    | some (lines, rest) => .ok line (buildHeaders table lines) rest

/-- `parse_header_text` (/repo/src/http.c:1051-1083): add each line of a text in mode H_REPLACE;
`none` when one is refused. -/
def parseHeaderText : Nat → List Header → Bytes → Option (Res (List Header))
  | 0, hs, _ => some (.ok hs)
  | fuel + 1, hs, text =>
    let line := text.takeWhile (fun c => c != 13 && c != 10)
    if line.length = 0 then some (.ok hs) else
    match listAppend hs line .replace with
    | .ub => some .ub
    | .ok (rc, hs') =>
      if rc ≠ 0 then none else
      let t := text.drop line.length
      let t := if t.head? = some 13 then t.drop 1 else t
      let t := if t.head? = some 10 then t.drop 1 else t
      parseHeaderText fuel hs' t

end Pound
