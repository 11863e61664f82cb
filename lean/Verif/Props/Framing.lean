import Verif.Proof.Framing

/-!
Properties C01-C04 and C51: lengths, lines and bodies.
-/

namespace Pound.Props
open Pound Spec

/-! ## C01 Declared body lengths are read exactly or refused -/

/-- A Content-Length value is accepted as `n` exactly if it is a digit string
denoting `n < 2^63`, surrounded by optional blanks. -/
theorem C01_content_length (s : Bytes) (n : Nat) :
    getContentLength s .header = n ↔
      n < 2 ^ 63 ∧ ∃ ws ds ws', s = ws ++ ds ++ ws' ∧ Blank ws ∧ Denotes 10 ds n ∧ Blank ws' := by
  rw [getContentLength_header_iff]
  constructor
  · rintro ⟨ws, ds, ws', h1, h2, h3, h4, h5⟩
    exact ⟨by unfold clenMax at h5; omega, ws, ds, ws', h1, h2, h3, h4⟩
  · rintro ⟨h5, ws, ds, ws', h1, h2, h3, h4⟩
    exact ⟨ws, ds, ws', h1, h2, h3, h4, by unfold clenMax; omega⟩

/-- A chunk-size line is accepted as `n` exactly if it consists of hex digits
denoting `n < 2^63`, optional blanks and an optional extension. -/
theorem C01_chunk_size (s : Bytes) (n : Nat) :
    getContentLength s .chunk = n ↔ n < 2 ^ 63 ∧ SizeLine s n := by
  rw [getContentLength_chunk_iff]
  constructor
  · rintro ⟨h1, h2⟩; exact ⟨by unfold clenMax at h2; omega, h1⟩
  · rintro ⟨h1, h2⟩; exact ⟨h2, by unfold clenMax; omega⟩

/-- Everything else is refused with the distinguished value -1: no other
(negative, wrapped) value is ever produced. -/
theorem C01_refused_otherwise (s : Bytes) (m : ClMode)
    (h : ∀ n : Nat, getContentLength s m ≠ n) : getContentLength s m = -1 := by
  rcases getContentLength_range s m with h' | ⟨n, h'⟩
  · exact h'
  · exact absurd h' (h n)

example : getContentLength b!"  9223372036854775807 " .header = ((2 ^ 63 - 1 : Nat) : Int) := by decide
example : getContentLength b!"9223372036854775808" .header = -1 := by decide
example : getContentLength b!"7fffffffffffffff;x=1" .chunk = ((2 ^ 63 - 1 : Nat) : Int) := by decide
example : ∀ n : Nat, getContentLength b!"12a" .header ≠ n := by
  intro n h
  have h' : getContentLength b!"12a" .header = -1 := by decide
  rw [h'] at h; omega

/-! ## C02 Chunked bodies are framed exactly -/

/-- Soundness, with the laxness of the code made explicit (`Chunked false`):
when relaying succeeds, exactly one chunked body was taken from the stream, what
was written is a chunked body with the same payload, and `*res_bytes` grew by
its length.  Missing for the full property: text between the data of a chunk and
the end of line is accepted and relayed, see `C02_strict_framing_fails`. -/
theorem C02_chunked_sound_partial (sched : Nat → Nat) (nw : Bool) (mx : Int) (inp : Bytes)
    (h : (copyChunks sched nw mx inp).fin = .status .ok) :
    ∃ wire payload, Chunked false 4095 wire payload ∧
      Consumed inp wire (copyChunks sched nw mx inp).rest ∧
      (copyChunks sched nw mx inp).count = payload.length ∧
      (if nw then (copyChunks sched nw mx inp).out = []
       else Chunked false 4096 (copyChunks sched nw mx inp).out payload) := by
  obtain ⟨wire, payload, o, h1, h2, h3, h4, h5, _⟩ :=
    (copyChunksLoop_sound sched (inp.length + 1) inp [] 0 nw mx 0 (by omega)
      ⟨by decide, by decide⟩ _ rfl).2 h
  refine ⟨wire, payload, h1, h2, by rw [copyChunks, h4]; simp, ?_⟩
  simp only [List.nil_append] at h3
  cases nw
  · simp only [Bool.false_eq_true, if_false]; rw [copyChunks, h3]; exact h5.2 rfl
  · simp only [if_true]; rw [copyChunks, h3]; exact h5.1 rfl

/-- Completeness: every chunked body (with lines below the buffer size and a
payload within the counter and the configured maximum), followed by anything, is
relayed, and exactly what follows is left. -/
theorem C02_chunked_complete (sched : Nat → Nat) (nw : Bool) (mx : Int)
    (wire payload rest : Bytes) (h : Chunked true 4095 wire payload)
    (hlen : payload.length < 2 ^ 63) (hmx : 0 < mx → payload.length ≤ mx) :
    (copyChunks sched nw mx (wire ++ rest)).fin = .status .ok ∧
    (copyChunks sched nw mx (wire ++ rest)).rest = rest := by
  have lax : ∀ {w p : Bytes}, Chunked true 4095 w p → Chunked false 4095 w p := by
    intro w p h
    induction h with
    | last a b c => exact .last a b c
    | chunk a b c d e _ _ ih => exact .chunk a b c d e (by simp) ih
  exact copyChunksLoop_complete sched (lax h) _ _ _ _ nw mx 0 (by omega) (by omega)
    (Or.inl rfl) (by unfold clenMax; omega) (by simpa using hmx)

/-- The model's fuel always suffices: relaying a chunked body terminates. -/
theorem C02_terminates (sched : Nat → Nat) (nw : Bool) (mx : Int) (inp : Bytes) :
    (copyChunks sched nw mx inp).fin ≠ .stuck :=
  (copyChunksLoop_sound sched (inp.length + 1) inp [] 0 nw mx 0 (by omega)
      ⟨by decide, by decide⟩ _ rfl).1

/-- The stream `1 CRLF aX CRLF 0 CRLF CRLF`: one byte of data followed by junk. -/
def junkStream : Bytes := b!"1\r\naX\r\n0\r\n\r\n"

/-- The code accepts (and relays) a stream that is not a chunked body. -/
theorem C02_strict_framing_fails :
    (copyChunks (fun _ => 1) false 0 junkStream).fin = .status .ok ∧
    (copyChunks (fun _ => 1) false 0 junkStream).out = junkStream ∧
    ¬ ∃ wire payload, Chunked true 4095 wire payload ∧ Consumed junkStream wire [] := by
  refine ⟨by decide, by decide, ?_⟩
  rintro ⟨wire, payload, hch, hc⟩
  have hw : wire = junkStream := by
    rcases hc with h | ⟨_, _, b, h⟩
    · simpa using h.symm
    · exfalso
      have := congrArg List.getLast? h
      simp [junkStream] at this
  cases hch with
  | last h1 h2 h3 =>
    rename_i w l t
    have hg := getLine_wire (n := maxBuf) (rest := t) h1
    rw [hw] at hg
    have hg' : getLine junkStream maxBuf = .ok b!"1" b!"aX\r\n0\r\n\r\n" := by decide
    rw [hg'] at hg
    simp at hg
    obtain ⟨rfl, _⟩ := hg
    have h0 := sizeLine_det h2 (by decide)
    revert h0; decide
  | chunk h1 h2 h3 h4 h5 h6 h7 =>
    rename_i w l n data wj j wire payload
    have hg := getLine_wire (n := maxBuf) (rest := data ++ (wj ++ wire)) h1
    rw [hw] at hg
    have hg' : getLine junkStream maxBuf = .ok b!"1" b!"aX\r\n0\r\n\r\n" := by decide
    rw [hg'] at hg
    simp at hg
    obtain ⟨rfl, hg⟩ := hg
    have hn : n = 1 := by
      obtain ⟨ds, ws, ext, e1, e2, e3, e4⟩ := h2
      have hle : n < 2 ^ 63 := by
        obtain ⟨_, _, e⟩ := e2
        have : ds.length ≤ 1 := by
          have := congrArg List.length e1; simp at this; omega
        have hv : ∀ ds : Bytes, ds.length ≤ 1 →
            ds.foldl (fun a c => a * 16 + (digit? 16 c).getD 0) 0 < 16 := by
          intro ds hd
          cases ds with
          | nil => decide
          | cons c t =>
            cases t with
            | nil =>
              have : ∀ c : UInt8, (digit? 16 c).getD 0 < 16 := by apply forall_byte; decide +kernel
              simpa using this c
            | cons => simp at hd
        rw [e]; have := hv ds this; omega
      have h0 := sizeLine_det ⟨ds, ws, ext, e1, e2, e3, e4⟩ (by unfold clenMax; omega)
      have h1 : getContentLength [49] .chunk = 1 := by decide
      rw [h1] at h0; omega
    subst hn
    obtain ⟨d, rfl⟩ : ∃ d, data = [d] := by
      match data, h4 with
      | [d], _ => exact ⟨d, rfl⟩
    simp at hg
    have hj := h6 rfl
    subst hj
    rcases h5.2.1 with rfl | rfl <;> simp at hg

/-- Non-vacuity: a two-chunk body with extension and trailer, followed by the
start of another request. -/
example : (copyChunks (fun _ => 2) false 10
    b!"5;a=b\r\nhello\r\n3\nfoo\r\n0\r\nT: x\r\n\r\nGET").fin = .status .ok ∧
    (copyChunks (fun _ => 2) false 10
    b!"5;a=b\r\nhello\r\n3\nfoo\r\n0\r\nT: x\r\n\r\nGET").rest = b!"GET" := by decide

example : Chunked true 4095 (b!"1\r\n" ++ (b!"a" ++ (b!"\r\n" ++ (b!"0\r\n" ++ b!"\r\n")))) (b!"a" ++ []) := by
  refine .chunk (l := b!"1") (n := 1) (j := []) ⟨?_, Or.inr rfl, by decide⟩
    ⟨b!"1", [], [], rfl, ⟨by decide, by decide, by decide⟩, by unfold Blank; decide, Or.inl rfl⟩
    (by decide) rfl ⟨by simp, Or.inr rfl, by decide⟩ (by simp) ?_
  · unfold Text; decide
  · refine .last (l := b!"0") ⟨?_, Or.inr rfl, by decide⟩
      ⟨b!"0", [], [], rfl, ⟨by decide, by decide, by decide⟩, by unfold Blank; decide, Or.inl rfl⟩
      (.done ⟨by simp, Or.inr rfl, by decide⟩)
    unfold Text; decide

/-! ## C03 Fixed-length bodies are framed exactly -/

/-- Relaying `n` bytes: success exactly if they are available, and then exactly
these bytes are delivered in order and the rest is untouched, whatever the sizes
in which the network delivers them. -/
theorem C03_fixed_length (sched : Nat → Nat) (inp : Bytes) (n : Nat) :
    ((copyBin sched inp n false).ok = true ↔ n ≤ inp.length) ∧
    (n ≤ inp.length → (copyBin sched inp n false).out = inp.take n ∧
      (copyBin sched inp n false).rest = inp.drop n ∧
      (copyBin sched inp n false).count = n) ∧
    (inp.length < n → (copyBin sched inp n false).out = inp) := by
  rw [copyBin_spec]
  by_cases h : n ≤ inp.length
  · simp [h]; omega
  · simp [h]

example : (copyBin (fun k => k % 3) b!"hello, world" 5 false).out = b!"hello" := by decide

/-! ## C04 Input lines -/

/-- A line is delivered exactly if the stream starts with it (ended by LF, CRLF
or the end of the stream), it has no control characters and fits the buffer. -/
theorem C04_line_exact (inp line rest : Bytes) (bufsize : Nat) :
    getLine inp bufsize = .ok line rest ↔
      ∃ w, WireLine (bufsize - 1) w line ∧ LineConsumed inp w rest := getLine_ok_iff

/-- A delivered line contains no CR, LF, NUL or other control character. -/
theorem C04_no_control (inp line rest : Bytes) (bufsize : Nat)
    (h : getLine inp bufsize = .ok line rest) :
    ∀ c ∈ line, c = 9 ∨ (32 ≤ c.toNat ∧ c.toNat ≠ 127) := by
  obtain ⟨w, hw, _⟩ := getLine_ok_iff.1 h
  exact hw.1

/-- It is shorter than the buffer (there is room for the terminating NUL). -/
theorem C04_fits (inp line rest : Bytes) (bufsize : Nat)
    (h : getLine inp bufsize = .ok line rest) : line.length + 1 < bufsize := by
  obtain ⟨w, hw, _⟩ := getLine_ok_iff.1 h
  have h1 := hw.2.2
  rcases hw.2.1 with rfl | rfl <;> simp at h1 <;> omega

/-- After an error the reader is positioned right after the next LF, so the rest
of the offending line is never taken for another line. -/
theorem C04_resync (inp rest : Bytes) (bufsize : Nat)
    (h : getLine inp bufsize = .bad rest ∨ getLine inp bufsize = .tooLong rest) :
    rest = afterLF inp := by
  rcases h with h | h
  · exact getLineLoop_bad _ _ _ _ _ h
  · exact getLineLoop_tooLong _ _ _ _ _ h

/-- "Line too long" is reported only for lines that do not fit. -/
theorem C04_tooLong_only_if (inp rest : Bytes) (bufsize : Nat)
    (h : getLine inp bufsize = .tooLong rest) :
    bufsize - 1 ≤ inp.length ∧ ∀ c ∈ inp.take (bufsize - 1), c ≠ 10 :=
  getLineLoop_tooLong_len _ _ _ _ _ h

example : getLine b!"Host: x\r\nA: b\r\n" 4096 = .ok b!"Host: x" b!"A: b\r\n" := by decide
example : getLine b!"Ho\rst: x\r\nA: b\r\n" 4096 = .bad b!"A: b\r\n" := by decide
example : getLine b!"Host: x\r\nA: b\r\n" 5 = .tooLong b!"A: b\r\n" := by decide

/-! ## C51 The request size limit holds for chunked bodies -/

/-- Unless the size counter overflows, at most `max` bytes of payload are relayed.
Missing for the full property: see `C51_limit_fails`. -/
theorem C51_limit_partial (sched : Nat → Nat) (nw : Bool) (mx : Int) (inp : Bytes) (hmx : 0 < mx)
    : ((copyChunks sched nw mx inp).count : Int) ≤ mx :=
  copyChunksLoop_count sched _ _ _ _ nw mx 0 hmx (by simp) (by omega)

/-- A one-byte chunk followed by a chunk of size 2^63-1 overflows the signed
counter: undefined behaviour (on usual hardware the counter becomes negative and
the limit, here 10, no longer applies). -/
theorem C51_limit_fails :
    (copyChunks (fun _ => 1) false 10 b!"1\r\na\r\n7fffffffffffffff\r\nxxxx").fin = .ub := by decide

example : (copyChunks (fun _ => 1) false 10 b!"1\r\na\r\na\r\nbbbbbbbbbb\r\n0\r\n\r\n").fin
    = .status .payloadTooLarge := by decide

end Pound.Props
