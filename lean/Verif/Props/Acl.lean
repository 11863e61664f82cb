import Verif.Proof.Acl

/-!
C32: access control lists.  C38: the address of the client from forwarding headers.
-/

namespace Pound.Props
open Spec

/-- A body of an ACL that lists networks (addresses with or without a mask length that fits) is accepted, and an address
matches the resulting ACL exactly if it is in one of the networks. -/
theorem C32_acl (N : Bytes → Option (List Sockaddr)) (ts : List CTok) (nets : List Net) (r : List CTok) (h : AclBody N ts nets r) :
    ∃ acl, parseAcl N (.nl :: ts) = .ok (some (acl, r)) ∧
      ∀ sa, IsAddr sa → ((aclMatch acl sa = 0 ↔ ∃ n ∈ nets, InNet sa n) ∧ (aclMatch acl sa = 1 ↔ ¬ ∃ n ∈ nets, InNet sa n)) :=
  parseAcl_spec h

/-- Addresses used in the examples -/
def exN (a : Bytes) : Option (List Sockaddr) :=
  if a = b!"10.1.0.0" then some [.inet [10, 1, 0, 0], .inet [10, 1, 0, 0]]
  else if a = b!"10.1.7.9" then some [.inet [10, 1, 7, 9]]
  else if a = b!"192.0.2.1" then some [.inet [192, 0, 2, 1]]
  else if a = b!"2001:db8::" then some [.inet6 [0x20, 1, 0x0d, 0xb8, 0, 0, 0, 0, 0, 0, 0, 0, 0, 0, 0, 0]]
  else none

theorem exBody : AclBody exN [.str b!"10.1.0.0/17", .nl, .str b!"2001:db8::/29", .nl, .str b!"192.0.2.1", .ident b!"End", .nl]
    [⟨.inet [10, 1, 0, 0], 17⟩, ⟨.inet6 [0x20, 1, 0x0d, 0xb8, 0, 0, 0, 0, 0, 0, 0, 0, 0, 0, 0, 0], 29⟩, ⟨.inet [192, 0, 2, 1], 32⟩] [.nl] :=
  .entry (.net (a := b!"10.1.0.0") (ds := b!"17") (by decide) rfl rfl (by decide) (by decide) (by decide))
    (.nl (.entry (.net (a := b!"2001:db8::") (ds := b!"29") (by decide) rfl rfl (by decide) (by decide) (by decide))
      (.nl (.entry (.host (a := b!"192.0.2.1") (by decide) rfl rfl) (.done (by decide))))))

/-- Entries whose address is not numeric are refused, and so are entries whose mask has a character other than digits,
spaces and signs.  Missing: other malformed masks (below). -/
theorem C32_refused_partial (N : Bytes → Option (List Sockaddr)) (a m : Bytes) (ha : ch%'/' ∉ a) :
    (N a = none → parseCidr N a = .ok none ∧ parseCidr N (a ++ ch%'/' :: m) = .ok none) ∧
    ((∃ c ∈ m, isDigit c = false ∧ isSpace c = false ∧ c ≠ ch%'-' ∧ c ≠ ch%'+') → parseCidr N (a ++ ch%'/' :: m) = .ok none) := by
  refine ⟨fun h => ⟨parseCidr_badHost ?_, parseCidr_badHost ?_⟩, ?_⟩
  · have := (notSlash_take ha [] (Or.inl rfl)).1
    rw [List.append_nil] at this
    rw [this]; exact h
  · rw [(notSlash_take ha (ch%'/' :: m) (Or.inr rfl)).1]; exact h
  · rintro ⟨c, hc, hd, hs, h1, h2⟩
    exact parseCidr_badMask ha hc hd hs h1 h2

example : parseCidr exN b!"10.1.0.0/1x" = .ok none ∧ parseCidr exN b!"example.com/8" = .ok none := by decide +kernel

/-- A refused entry makes the whole ACL refused. -/
theorem C32_refused_acl (N : Bytes → Option (List Sockaddr)) (s : Bytes) (hs : parseCidr N s = .ok none) (ts : List CTok) :
    ∀ (pre : List CTok) (acl : List Cidr), (∀ t ∈ pre, t = .nl ∨ ∃ x c, t = .str x ∧ parseCidr N x = .ok (some c)) →
      parseAclLoop N (pre ++ .str s :: ts) acl = .ok none
  | [], acl, _ => by simp only [List.nil_append, parseAclLoop, hs]
  | t :: pre, acl, h => by
    have ih := fun acl => C32_refused_acl N s hs ts pre acl (fun x hx => h x (List.mem_cons_of_mem _ hx))
    rcases h t List.mem_cons_self with rfl | ⟨x, c, rfl, hx⟩
    · rw [List.cons_append, parseAclLoop]; exact ih acl
    · rw [List.cons_append, parseAclLoop, hx]; exact ih _

/-- Not all malformed masks are refused.  An empty one makes the entry match everything of its family; -1 is taken for 7 bits;
numbers above 32 are accepted for IPv4; numbers from 136 on make the program write beyond the mask. -/
theorem C32_refused_fails :
    (∃ c, parseCidr exN b!"10.1.0.0/" = .ok (some c) ∧ aclMatch [c] (.inet [192, 0, 2, 1]) = 0) ∧
    (∃ c, parseCidr exN b!"10.1.0.0/-1" = .ok (some c) ∧ aclMatch [c] (.inet [11, 2, 3, 4]) = 0) ∧
    (∃ c, parseCidr exN b!"10.1.0.0/33" = .ok (some c)) ∧
    parseCidr exN b!"10.1.0.0/136" = .ub := by
  refine ⟨⟨⟨.inet, 4, [0, 0, 0, 0], List.replicate 16 0⟩, by decide +kernel, by decide +kernel⟩,
    ⟨⟨.inet, 4, [10, 0, 0, 0], 254 :: List.replicate 15 0⟩, by decide +kernel, by decide +kernel⟩,
    ⟨⟨.inet, 4, [10, 1, 0, 0], List.replicate 4 255 ++ 128 :: List.replicate 11 0⟩, by decide +kernel⟩, by decide +kernel⟩

/-- What is assumed of getaddrinfo for numeric hosts: only Internet addresses, and none for the empty text. -/
structure NumericOk (N : Bytes → Option (List Sockaddr)) : Prop where
  addr : ∀ a sas, N a = some sas → ∀ sa ∈ sas, IsAddr sa
  empty : N [] = none

theorem exN_ok : NumericOk exN := by
  refine ⟨?_, rfl⟩
  intro a sas h sa hs
  unfold exN at h
  split at h
  · cases h; simp at hs; subst hs; rfl
  · split at h
    · cases h; simp at hs; subst hs; rfl
    · split at h
      · cases h; simp at hs; subst hs; rfl
      · split at h
        · cases h; simp at hs; subst hs; rfl
        · cases h

/-- The address derived from a forwarding header is `a` exactly if some entry of the header has `a` as its (first) word, `a` is a numeric
address outside the trusted networks, and all entries to the right of it are addresses in the trusted networks. -/
theorem C38_forwarded (N : Bytes → Option (List Sockaddr)) (hN : NumericOk N) (ts : List CTok) (nets : List Net) (r : List CTok)
    (h : AclBody N ts nets r) (acl : List Cidr) (hacl : parseAcl N (.nl :: ts) = .ok (some (acl, r)))
    (es : List Bytes) (hes : ∀ e ∈ es, ch%',' ∉ e) (a : Bytes) :
    scanForwarded N (some (commaJoin es)) (some acl) = some a ↔
      ∃ pre e post, es = pre ++ e :: post ∧ FirstWord e a ∧ Untrusted N nets a ∧
        ∀ x ∈ post, ∃ w, FirstWord x w ∧ Trusted N nets w := by
  obtain ⟨acl', h1, h2⟩ := parseAcl_spec h
  rw [hacl] at h1
  cases h1
  rw [scanForwarded]
  have := scanFwd_spec hN.empty acl es.reverse ((commaJoin es).length + 1) (by simpa using hes)
    (by rw [List.length_reverse]; exact commaJoin_len es)
  rw [List.reverse_reverse] at this
  rw [this, scanEntries_spec hN.addr (fun sa hsa => (h2 sa hsa).1)]
  constructor
  · rintro ⟨post, e, pre, h3, h4, h5, h6⟩
    refine ⟨pre.reverse, e, post.reverse, ?_, (firstWord_iff _ _).mpr h4.symm, h5, ?_⟩
    · have := congrArg List.reverse h3
      simpa using this
    · intro x hx
      exact ⟨_, (firstWord_iff _ _).mpr rfl, h6 x (by simpa using hx)⟩
  · rintro ⟨pre, e, post, rfl, h4, h5, h6⟩
    refine ⟨post.reverse, e, pre.reverse, by simp, ((firstWord_iff _ _).mp h4).symm, h5, ?_⟩
    intro x hx
    obtain ⟨w, hw, ht⟩ := h6 x (by simpa using hx)
    rwa [(firstWord_iff _ _).mp hw] at ht

/-- Entries added on the left cannot change it. -/
theorem C38_prepend (N : Bytes → Option (List Sockaddr)) (hN : NumericOk N) (ts : List CTok) (nets : List Net) (r : List CTok)
    (h : AclBody N ts nets r) (acl : List Cidr) (hacl : parseAcl N (.nl :: ts) = .ok (some (acl, r)))
    (es es' : List Bytes) (hes : ∀ e ∈ es, ch%',' ∉ e) (hes' : ∀ e ∈ es', ch%',' ∉ e) (a : Bytes)
    (ha : scanForwarded N (some (commaJoin es)) (some acl) = some a) :
    scanForwarded N (some (commaJoin (es' ++ es))) (some acl) = some a := by
  rw [C38_forwarded N hN ts nets r h acl hacl es hes] at ha
  rw [C38_forwarded N hN ts nets r h acl hacl _ (fun e he => (List.mem_append.mp he).elim (hes' e) (hes e))]
  obtain ⟨pre, e, post, rfl, h1⟩ := ha
  exact ⟨es' ++ pre, e, post, by simp, h1⟩

/-- Several header lines count like one with all their entries. -/
theorem C38_lines (N : Bytes → Option (List Sockaddr)) (hN : NumericOk N) (ts : List CTok) (nets : List Net) (r : List CTok)
    (h : AclBody N ts nets r) (acl : List Cidr) (hacl : parseAcl N (.nl :: ts) = .ok (some (acl, r)))
    (vss : List (List Bytes)) (hv : ∀ es ∈ vss, commaJoin es ≠ [] ∧ ∀ e ∈ es, ch%',' ∉ e) :
    scanForwarded N (some (joinValues (vss.map commaJoin))) (some acl) = scanForwarded N (some (commaJoin vss.flatten)) (some acl) := by
  obtain ⟨es', h1, h2, h3, -⟩ := joinValues_spec hv
  have hf : ∀ e ∈ vss.flatten, ch%',' ∉ e := by
    intro e he
    obtain ⟨es, h4, h5⟩ := List.mem_flatten.mp he
    exact (hv es h4).2 e h5
  have key : ∀ es : List Bytes, (∀ e ∈ es, ch%',' ∉ e) →
      scanForwarded N (some (commaJoin es)) (some acl) = scanEntries N acl es.reverse := by
    intro es hes
    rw [scanForwarded]
    have := scanFwd_spec hN.empty acl es.reverse ((commaJoin es).length + 1) (by simpa using hes)
      (by rw [List.length_reverse]; exact commaJoin_len es)
    rw [List.reverse_reverse] at this
    exact this
  rw [h1, key es' h3, key _ hf]
  apply scanEntries_words
  rw [List.map_reverse, h2, List.map_reverse]

/-- What the lines are: the values of all headers of that name. -/
theorem C38_values (hs : List Header) (nm : Bytes) :
    (saveForwarded hs nm = none ↔ ∀ h ∈ hs, ciEq h.name nm = false) ∧
    ∀ v, saveForwarded hs nm = some v →
      v = joinValues ((hs.filter fun h => ciEq h.name nm).map Header.rawValue) := by
  have hf : (hs.filter fun h => h.name.length == nm.length && ciEq h.name nm) = hs.filter fun h => ciEq h.name nm := by
    congr 1
    funext h
    cases hc : ciEq h.name nm
    · simp
    · simp [ciEq_length hc]
  unfold saveForwarded
  rw [hf]
  constructor
  · split
    · rename_i he
      rw [List.filter_eq_nil_iff] at he
      exact ⟨fun _ h hh => by simpa using he h hh, fun _ => rfl⟩
    · rename_i h r he
      refine ⟨fun h => (by cases h), fun hn => ?_⟩
      have : h ∈ hs.filter fun h => ciEq h.name nm := by rw [he]; exact List.mem_cons_self
      have := List.mem_filter.mp this
      rw [hn h this.1] at this
      simp at this
  · intro v hv
    split at hv
    · cases hv
    · rename_i he
      cases hv
      rw [he]

/-- No header or no list of trusted addresses: none -/
theorem C38_none (N : Bytes → Option (List Sockaddr)) (hdr : Option Bytes) (acl : Option (List Cidr)) (h : hdr = none ∨ acl = none) :
    scanForwarded N hdr acl = none := by
  rcases h with rfl | rfl
  · cases acl <;> rfl
  · cases hdr <;> rfl

def exAcl : List Cidr :=
  match parseAcl exN (.nl :: [.str b!"10.1.0.0/17", .ident b!"End"]) with
  | .ok (some (acl, _)) => acl
  | _ => []
example : scanForwarded exN (some (commaJoin [b!"junk", b!" 192.0.2.1", b!" 10.1.7.9"])) (some exAcl) = some b!"192.0.2.1" ∧
    scanForwarded exN (some (commaJoin [b!"192.0.2.1", b!"junk", b!" 10.1.7.9"])) (some exAcl) = none ∧
    scanForwarded exN (some (joinValues [b!"192.0.2.1 x", b!"10.1.7.9"])) (some exAcl) = some b!"192.0.2.1" := by decide +kernel

end Pound.Props
