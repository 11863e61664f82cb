import Verif.Proof.LexNum
import Verif.Proof.BeFinal

/-! Backends in the configuration. -/

namespace Pound.Props

open Spec

/-! ### C74 -/

/-- A Backend section that is accepted without complaint is a list of settings, and the backend has the properties they give it. -/
theorem C74_section_sound {e : BeEnv} {d : BeDfl} {n : Nat} {ts r : List Tok} {er : Nat} {b : BeSt} (h : parseBackendInternal e d n ts er = .ok ⟨b, r, er⟩) :
    ∃ t, ts = t ++ r ∧ ∃ l, Items (BeLine e) t l ∧ TlsOrder l ∧ BeMeans d l b := ((backend_section e d n ts er).1 b r er h).2 rfl

/-- Each such list of settings is accepted. -/
theorem C74_section_complete {e : BeEnv} {d : BeDfl} {n : Nat} {t : List Tok} {l : List BeSetting} {b : BeSt} (hl : Items (BeLine e) t l) (ho : TlsOrder l)
    (hm : BeMeans d l b) (hn : t.length ≤ n) (r : List Tok) (er : Nat) : parseBackendInternal e d n (t ++ r) er = .ok ⟨b, r, er⟩ :=
  (backend_section e d n (t ++ r) er).2 t r b rfl ⟨l, hl, ho, hm⟩ hn

/-- There is a backend with given properties for each list of settings, and only one. -/
theorem C74_meaning (d : BeDfl) (l : List BeSetting) (ho : TlsOrder l) : (∃ b, BeMeans d l b) ∧ ∀ a b, BeMeans d l a → BeMeans d l b → a = b := by
  refine ⟨?_, fun a b => beMeans_unique⟩
  obtain ⟨b, hb⟩ := applyAll_total l (beInit d) fun pre x post hl hx => Or.inl (ho pre x post hl hx)
  exact ⟨b, applyAll_means hb⟩

/-- The backends of a service are those written in its section: one of the listed statements on each line, no others, in this order. -/
theorem C74_service_sound {e : BeEnv} {d : BeDfl} {dfl : Algo} {n : Nat} {ts r : List Tok} {er : Nat} {s : SvcBes} (h : parseSvcBes e d dfl n ts er = .ok ⟨s, r, er⟩) :
    ∃ t l, ts = t ++ r ∧ Items (SvcBeLine e d) t l ∧ SvcMeans dfl l s := ((service_section e d dfl n ts er).1 s r er h).2 rfl

/-- Each such section is accepted. -/
theorem C74_service_complete {e : BeEnv} {d : BeDfl} {dfl : Algo} {n : Nat} {t : List Tok} {l : List SvcItem} {s : SvcBes} (hl : Items (SvcBeLine e d) t l)
    (hs : SvcMeans dfl l s) (hn : t.length ≤ n) (r : List Tok) (er : Nat) : parseSvcBes e d dfl n (t ++ r) er = .ok ⟨s, r, er⟩ :=
  (service_section e d dfl n (t ++ r) er).2 t r l s rfl hl hs hn

/-- A named backend is added to the others; a name that is taken is refused. -/
theorem C74_named_sound {e : BeEnv} {d : BeDfl} {n : Nat} {tab tab' : List NamedBe} {ts r : List Tok} {er : Nat} (h : namedParser e d n ⟨tab, ts, er⟩ = .ok ⟨tab', r, er⟩) :
    ∃ name t b, ts = .string name :: (t ++ r) ∧ BeSection e d t b ∧ (∀ x ∈ tab, x.name ≠ name) ∧ tab' = ⟨name, b.prio, b.disabled, b.m⟩ :: tab :=
  ((named_section e d n tab ts er).1 tab' r er h).2 rfl

theorem C74_named_complete {e : BeEnv} {d : BeDfl} {n : Nat} {tab : List NamedBe} {name : Bytes} {t : List Tok} {b : BeSt} (hb : BeSection e d t b)
    (hx : ∀ x ∈ tab, x.name ≠ name) (hn : t.length ≤ n) (r : List Tok) (er : Nat) :
    namedParser e d n ⟨tab, .string name :: (t ++ r), er⟩ = .ok ⟨⟨name, b.prio, b.disabled, b.m⟩ :: tab, r, er⟩ :=
  (named_section e d n tab _ er).2 name t r b rfl hb hx hn

/-- An environment for examples -/
def beEnv0 : BeEnv := ⟨fun s => if s = b!"8080" then some 8080 else if s = b!"http" then some 80 else none, fun s => s = b!"/etc/c.pem", fun s => if s = b!"e.html" then some b!"gone" else none⟩

/-- "Address 10.0.0.1", "Port 8080", an empty line, "HTTPS", "Ciphers "HIGH"", "Priority 3", "priority 7", "End" -/
def beToks0 : List Tok :=
  [.nl, .ident b!"Address", .literal b!"10.0.0.1", .nl, .ident b!"Port", .number b!"8080", .nl, .nl, .ident b!"HTTPS", .nl, .ident b!"Ciphers", .string b!"HIGH", .nl,
   .ident b!"Priority", .number b!"3", .nl, .ident b!"priority", .number b!"7", .nl, .ident b!"End"]

def beRes0 : BeSt := ⟨7, 0, ⟨some b!"10.0.0.1", 8080, .any, .immediate, 0, false, 0, 15, 10, 600, some [.ciphers b!"HIGH"], none⟩⟩

example : parseBackendInternal beEnv0 ⟨15, 10, 600⟩ 30 (beToks0 ++ [.nl]) 0 = .ok ⟨beRes0, [.nl], 0⟩ := by decide +kernel

/-- A service with a backend, a redirection and one for emergencies -/
def svcToks0 : List Tok :=
  [.nl, .ident b!"Emergency", .nl, .ident b!"Address", .string b!"/run/s", .nl, .ident b!"End", .nl, .ident b!"Backend"] ++ beToks0 ++
    [.nl, .ident b!"Redirect", .number b!"301", .string b!"https://a.b/", .nl, .ident b!"Balancer", .ident b!"IWRR", .nl, .ident b!"End"]

example : ∃ s, parseSvcBes beEnv0 ⟨15, 10, 600⟩ .random 60 svcToks0 0 = .ok ⟨s, [], 0⟩ ∧ s.algo = .iwrr ∧ s.groups.map (·.weight) = [0, 65535] ∧
    s.groups.map (fun g => g.bes.map (·.v)) = [[.mtx beRes0.m, .redirect 301 b!"https://a.b" 1], [.mtx ⟨some b!"/run/s", 0, .any, .immediate, 0, false, 0, 120, 120, 120, none, none⟩]] := by
  refine ⟨⟨.iwrr, [⟨0, [⟨7, 0, .mtx beRes0.m⟩, ⟨1, 0, .redirect 301 b!"https://a.b" 1⟩]⟩,
    ⟨65535, [⟨5, 0, .mtx ⟨some b!"/run/s", 0, .any, .immediate, 0, false, 0, 120, 120, 120, none, none⟩⟩]⟩]⟩, ?_, rfl, rfl, rfl⟩
  decide +kernel

/-- ServerName is documented to be allowed only after HTTPS; it is accepted without. -/
theorem C74_sni_fails : ∃ b, parseBackendInternal beEnv0 ⟨15, 10, 600⟩ 9
    [.ident b!"Address", .literal b!"10.0.0.1", .nl, .ident b!"ServerName", .string b!"a.b", .nl, .ident b!"End"] 0 = .ok ⟨b, [], 0⟩ ∧ b.m.ctx = none ∧ b.m.sni = some b!"a.b" :=
  ⟨⟨5, 0, ⟨some b!"10.0.0.1", 0, .any, .immediate, 0, false, 0, 15, 10, 600, none, some b!"a.b"⟩⟩, by decide +kernel, rfl, rfl⟩

/-- The priority 0 is documented to be allowed; it is refused. -/
theorem C74_priority_fails : parseBackendInternal beEnv0 ⟨15, 10, 600⟩ 9 [.ident b!"Priority", .number b!"0", .nl, .ident b!"End"] 0 = .fail := by rfl

/-- A second HTTPS discards the certificate and other settings that were given before. -/
theorem C74_https_fails : ∃ b, parseBackendInternal beEnv0 ⟨15, 10, 600⟩ 9
    [.ident b!"HTTPS", .nl, .ident b!"Cert", .string b!"/etc/c.pem", .nl, .ident b!"HTTPS", .nl, .ident b!"End"] 0 = .ok ⟨b, [], 0⟩ ∧ b.m.ctx = some [] :=
  ⟨⟨5, 0, ⟨none, 0, .any, .immediate, 0, false, 0, 15, 10, 600, some [], none⟩⟩, by decide +kernel, rfl⟩

/-- The status of an Error backend, or of an ErrorFile statement: the number has to be one of those for which there is a page.  Missing for the full property: numbers
from 2^31 on, see `C74_error_code_fails`. -/
theorem C74_error_code_partial (s : Bytes) (n : Nat) (h : IsIndex s n) (hn : n < 2 ^ 31) (c : Nat) :
    errorCode s = some c ↔ c = n ∧ c ∈ [200, 400, 401, 403, 404, 405, 413, 414, 500, 501, 503] := by
  have hv : intOfLong (strtol10 s).1 = n := by
    rw [strtol_num h, if_neg (by unfold ctlLongMax; omega)]
    unfold intOfLong
    dsimp only
    omega
  unfold errorCode
  rw [hv]
  constructor
  · intro hf
    have h1 := List.find?_some hf
    have h2 := List.mem_of_find?_eq_some hf
    have h1 : (c : Int) = n := by simpa using h1
    exact ⟨by omega, h2⟩
  · rintro ⟨rfl, hm⟩
    cases hf : List.find? (fun x : Nat => decide ((x : Int) = (c : Int))) [200, 400, 401, 403, 404, 405, 413, 414, 500, 501, 503] with
    | none =>
      have := List.find?_eq_none.1 hf c hm
      simp at this
    | some x =>
      have h1 := List.find?_some hf
      have h1 : (x : Int) = c := by simpa using h1
      have : x = c := by omega
      rw [this]

/-- Larger numbers are taken modulo 2^32. -/
theorem C74_error_code_fails : errorCode b!"4294967696" = some 400 := by decide +kernel

example : errorCode b!"503" = some 503 := by decide +kernel
example : errorCode b!"502" = none := by decide +kernel

/-! ### C75 -/

/-- A service is accepted at the end if each of its backends can be set up and those that have to be alone are; the result is then the one described. -/
theorem C75_final (e : FinEnv) (tab : List NamedBe) (ht : NamedOk tab) (gs : List CGrp) :
    (∀ fs, serviceFinalize e tab gs = .ok (some fs) ↔ Each (GroupFinal e tab) gs fs) ∧
    (serviceFinalize e tab gs = .ok none ↔ ¬ ∃ fs, Each (GroupFinal e tab) gs fs) := by
  obtain ⟨x, hx, hx'⟩ := serviceFinalize_spec e tab ht gs
  rw [hx]
  constructor
  · intro fs
    rw [Res.ok.injEq]
    exact hx' fs
  · rw [Res.ok.injEq]
    constructor
    · rintro rfl ⟨fs, hf⟩
      have := (hx' fs).mpr hf
      cases this
    · intro h
      cases x with
      | none => rfl
      | some fs => exact absurd ⟨fs, (hx' fs).mp rfl⟩ h

/-- The result is determined. -/
theorem C75_unique (e : FinEnv) (tab : List NamedBe) (ht : NamedOk tab) (gs : List CGrp) (f f' : List FGrp) (h : Each (GroupFinal e tab) gs f)
    (h' : Each (GroupFinal e tab) gs f') : f = f' := by
  have h1 := ((C75_final e tab ht gs).1 f).mpr h
  have h2 := ((C75_final e tab ht gs).1 f').mpr h'
  rw [h1] at h2
  cases h2
  rfl

/-- A reference to a named backend with settings is the backend whose definition has these settings at its end. -/
theorem C75_reference {e : BeEnv} {d : BeDfl} {fe : FinEnv} {tab : List NamedBe} {name : Bytes} {t0 t : List Tok} {l0 l : List BeSetting} {b0 b : BeSt}
    (hl0 : Items (BeLine e) t0 l0) (hb0 : BeMeans d l0 b0) (hg : namedGet tab name = some ⟨name, b0.prio, b0.disabled, b0.m⟩) (ha : b0.m.host ≠ none)
    (hl : Items (RefLine e) t l) (hb : BeMeans d (l0 ++ l) b) :
    backendFinalize fe tab ⟨lastOr (-1) (l.filterMap prioSet), lastOr (-1) (l.filterMap disabledSet), .ref name⟩ = backendFinalize fe tab ⟨b.prio, b.disabled, .mtx b.m⟩ := by
  have hform : ∀ x ∈ l, (∃ v, x = .prio v) ∨ ∃ v, x = .disabled v := by
    clear hb
    induction hl with
    | stop _ => intro x hx; cases hx
    | blank _ ih => exact ih
    | item hx _ ih =>
      intro y hy
      rcases List.mem_cons.mp hy with rfl | hy
      · cases hx with
        | prio _ => exact Or.inl ⟨_, rfl⟩
        | disabled _ => exact Or.inr ⟨_, rfl⟩
      · exact ih y hy
  have hnil : ∀ {α : Type} (g : BeSetting → Option α), (∀ v, g (.prio v) = none) → (∀ v, g (.disabled v) = none) → l.filterMap g = [] := by
    intro α g h1 h2
    rw [List.filterMap_eq_nil_iff]
    intro x hx
    rcases hform x hx with ⟨v, rfl⟩ | ⟨v, rfl⟩
    · exact h1 v
    · exact h2 v
  have hh : ∀ {α : Type} (g : BeSetting → Option α), (∀ v, g (.prio v) = none) → (∀ v, g (.disabled v) = none) → (l0 ++ l).filterMap g = l0.filterMap g := by
    intro α g h1 h2
    rw [List.filterMap_append, hnil g h1 h2, List.append_nil]
  have hns : .https ∉ l := by
    intro hx
    rcases hform _ hx with ⟨v, h⟩ | ⟨v, h⟩ <;> cases h
  have hm : b.m = b0.m := by
    have hc : b.m.ctx = b0.m.ctx := by
      by_cases hs : .https ∈ l0
      · obtain ⟨pre, post, h1, h2⟩ := last_https hs
        rw [hb0.tls pre post h1 h2, hb.tls pre (post ++ l) (by rw [h1, List.append_assoc]; rfl) (by simp [h2, hns]), List.filterMap_append,
          hnil ctxSet (fun _ => rfl) (fun _ => rfl), List.append_nil]
      · rw [hb0.plain hs, hb.plain (by simp [hs, hns])]
    have h1 := hb.host; rw [hh hostSet (fun _ => rfl) (fun _ => rfl), ← hb0.host] at h1
    have h2 := hb.port; rw [hh portSet (fun _ => rfl) (fun _ => rfl), ← hb0.port] at h2
    have h3 := hb.family; rw [hh familySet (fun _ => rfl) (fun _ => rfl), ← hb0.family] at h3
    have h4 := hb.resolve; rw [hh resolveSet (fun _ => rfl) (fun _ => rfl), ← hb0.resolve] at h4
    have h5 := hb.retry; rw [hh retrySet (fun _ => rfl) (fun _ => rfl), ← hb0.retry] at h5
    have h6 := hb.ignoreWeight; rw [hh ignoreWeightSet (fun _ => rfl) (fun _ => rfl), ← hb0.ignoreWeight] at h6
    have h7 := hb.ttl; rw [hh ttlSet (fun _ => rfl) (fun _ => rfl), ← hb0.ttl] at h7
    have h8 := hb.to; rw [hh toSet (fun _ => rfl) (fun _ => rfl), ← hb0.to] at h8
    have h9 := hb.connTo; rw [hh connToSet (fun _ => rfl) (fun _ => rfl), ← hb0.connTo] at h9
    have h10 := hb.wsTo; rw [hh wsToSet (fun _ => rfl) (fun _ => rfl), ← hb0.wsTo] at h10
    have h11 := hb.sni; rw [hh sniSet (fun _ => rfl) (fun _ => rfl), ← hb0.sni] at h11
    obtain ⟨_, _, ⟨a1, a2, a3, a4, a5, a6, a7, a8, a9, a10, a11, a12⟩⟩ := b
    obtain ⟨_, _, ⟨b1, b2, b3, b4, b5, b6, b7, b8, b9, b10, b11, b12⟩⟩ := b0
    dsimp only at hc h1 h2 h3 h4 h5 h6 h7 h8 h9 h10 h11
    subst hc h1 h2 h3 h4 h5 h6 h7 h8 h9 h10 h11
    rfl
  have last : ∀ {α : Type} (dd : α) (u w : List α), lastOr dd (u ++ w) = if w = [] then lastOr dd u else lastOr dd w := by
    intro α dd u w
    unfold lastOr
    by_cases hw : w = []
    · subst hw; simp
    · rw [if_neg hw, List.getLast?_append]
      cases hg : w.getLast? with
      | none => exact absurd (List.getLast?_eq_none_iff.mp hg) hw
      | some y => rfl
  have hp : (if lastOr (-1) (l.filterMap prioSet) = -1 then b0.prio else lastOr (-1) (l.filterMap prioSet)) = b.prio := by
    rw [hb.prio, hb0.prio, List.filterMap_append, last]
    by_cases hw : l.filterMap prioSet = []
    · rw [hw, if_pos rfl]; rfl
    · rw [if_neg hw]
      have hmem : lastOr (-1) (l.filterMap prioSet) ∈ l.filterMap prioSet ∧ lastOr 5 (l.filterMap prioSet) = lastOr (-1) (l.filterMap prioSet) := by
        unfold lastOr
        cases hg : (l.filterMap prioSet).getLast? with
        | none => exact absurd (List.getLast?_eq_none_iff.mp hg) hw
        | some y => exact ⟨List.mem_of_getLast? hg, rfl⟩
      have := refItems_prio hl _ hmem.1
      rw [if_neg (by omega), hmem.2]
  have hd : (if lastOr (-1) (l.filterMap disabledSet) = -1 then b0.disabled else lastOr (-1) (l.filterMap disabledSet)) = b.disabled := by
    rw [hb.disabled, hb0.disabled, List.filterMap_append, last]
    by_cases hw : l.filterMap disabledSet = []
    · rw [hw, if_pos rfl]; rfl
    · rw [if_neg hw]
      have hmem : lastOr (-1) (l.filterMap disabledSet) ∈ l.filterMap disabledSet ∧ lastOr 0 (l.filterMap disabledSet) = lastOr (-1) (l.filterMap disabledSet) := by
        unfold lastOr
        cases hg : (l.filterMap disabledSet).getLast? with
        | none => exact absurd (List.getLast?_eq_none_iff.mp hg) hw
        | some y => exact ⟨List.mem_of_getLast? hg, rfl⟩
      have h01 : lastOr (-1) (l.filterMap disabledSet) ≠ -1 := by
        obtain ⟨x, _, hx⟩ := List.mem_filterMap.mp hmem.1
        cases x with
        | disabled v =>
          simp only [disabledSet, Option.some.injEq] at hx
          rw [← hx]
          cases v <;> decide
        | _ => cases hx
      rw [if_neg h01, hmem.2]
  unfold backendFinalize
  dsimp only
  rw [hg]
  dsimp only
  rw [if_neg ha, hp, hd, hm]

/-- The balancers of a service that was read and accepted are as selection needs them: see C20 and C23.  `tab`: named backends, none of which has a priority below 1. -/
theorem C75_balancers {e : BeEnv} {d : BeDfl} {dfl : Algo} {n : Nat} {ts r : List Tok} {er : Nat} {s : SvcBes} (h : parseSvcBes e d dfl n ts er = .ok ⟨s, r, er⟩)
    {fe : FinEnv} {tab : List NamedBe} (ht : NamedOk tab) (hp : ∀ nb ∈ tab, 1 ≤ nb.prio) {fs : List FGrp} (hf : serviceFinalize fe tab s.groups = .ok (some fs))
    (hl : ∀ g ∈ fs, g.bes.length ≤ 2 ^ 47) :
    BalsOk (finalBals s.algo 0 fs) ∧ ((finalBals s.algo 0 fs).Pairwise fun a b => a.weight < b.weight) ∧ ∀ bal ∈ finalBals s.algo 0 fs, bal.algo = s.algo := by
  obtain ⟨t, l, _, hi, hs⟩ := C74_service_sound h
  have hfe := ((C75_final fe tab ht s.groups).1 fs).mp hf
  obtain ⟨h1, h2⟩ := final_groups hi hs hp hfe
  obtain ⟨b1, b2, b3⟩ := finalBals_spec s.algo 0 fs fun g hg => ⟨(h1 g hg).1, hl g hg, (h1 g hg).2⟩
  refine ⟨⟨⟨?_, fun bal hb => (b3 bal hb).2.2.2.1, fun bal hb => (b3 bal hb).2.2.2.2.1, fun bal hb => (b3 bal hb).2.2.2.2.2⟩, fun bal hb => (b3 bal hb).2.1,
    fun bal hb => (b3 bal hb).2.2.1⟩, ?_, fun bal hb => (b3 bal hb).1⟩
  · rw [b1]
    exact List.nodup_range'
  · have : ((finalBals s.algo 0 fs).map (·.weight)).Pairwise (· < ·) := by
      rw [b2, List.pairwise_map]
      exact h2.imp fun h => by omega
    rwa [List.pairwise_map] at this

/-- Every backend of the service is a member of the balancer of its group, in order, with its priority; it can be selected from the beginning unless it was declared disabled or stands for
the addresses that a name will have at run time. -/
theorem C75_members {e : BeEnv} {d : BeDfl} {dfl : Algo} {n : Nat} {ts r : List Tok} {er : Nat} {s : SvcBes} (h : parseSvcBes e d dfl n ts er = .ok ⟨s, r, er⟩)
    {fe : FinEnv} {tab : List NamedBe} (ht : NamedOk tab) (hp : ∀ nb ∈ tab, 1 ≤ nb.prio) {fs : List FGrp} (hf : serviceFinalize fe tab s.groups = .ok (some fs))
    (hl : ∀ g ∈ fs, g.bes.length ≤ 2 ^ 47) :
    (finalBals s.algo 0 fs).map (fun bal => (bal.weight, bal.backends.map fun x => ((x.prio : Int), x.isActive))) =
      fs.map fun g => ((g.weight : Int), g.bes.map fun b => (b.prio, readyAtStart b)) := by
  obtain ⟨t, l, _, hi, hs⟩ := C74_service_sound h
  have hfe := ((C75_final fe tab ht s.groups).1 fs).mp hf
  obtain ⟨h1, h2⟩ := final_groups hi hs hp hfe
  exact finalBals_members s.algo 0 fs fun g hg => ⟨hl g hg, (h1 g hg).2⟩

/-- Named backends that were read: their names are distinct and their priorities at least 1. -/
theorem C75_named {e : BeEnv} {d : BeDfl} {n : Nat} {tab tab' : List NamedBe} {ts r : List Tok} {er : Nat} (h : namedParser e d n ⟨tab, ts, er⟩ = .ok ⟨tab', r, er⟩)
    (hd : (tab.map (·.name)).Nodup) (hp : ∀ nb ∈ tab, 1 ≤ nb.prio) : (tab'.map (·.name)).Nodup ∧ ∀ nb ∈ tab', 1 ≤ nb.prio := by
  obtain ⟨name, t, b, _, hb, hx, rfl⟩ := C74_named_sound h
  constructor
  · rw [List.map_cons, List.nodup_cons]
    refine ⟨fun hm => ?_, hd⟩
    obtain ⟨x, h1, h2⟩ := List.mem_map.mp hm
    exact hx x h1 h2
  · intro nb hm
    rcases List.mem_cons.mp hm with rfl | hm
    · exact beSection_prio hb
    · exact hp nb hm

/-- Which texts are taken for addresses, so that they are never looked up at run time: some of version 6 ... -/
theorem C75_address_partial (h : Bytes) : strIsIp 0 h = true ↔ Ip6 h := strIsIp_spec h

/-- ... but no addresses of version 4: with "Resolve first", such a backend is created only when a query for the address is answered. -/
theorem C75_address_fails : (∀ h : Bytes, ch%':' ∉ h → strIsIp 0 h = false) ∧ strIsIp 0 b!"::1" = false ∧
    ∃ m, parseBackendInternal beEnv0 ⟨15, 10, 600⟩ 9 [.ident b!"Address", .literal b!"127.0.0.1", .nl, .ident b!"Resolve", .ident b!"first", .nl, .ident b!"End"] 0 = .ok ⟨m, [], 0⟩ ∧
      ∃ m', ∀ e : FinEnv, e.dns = true → matrixFinalize e m.m = some (.matrix m') := by
  refine ⟨fun h hc => ?_, by decide, ⟨5, 0, ⟨some b!"127.0.0.1", 0, .any, .first, 0, false, 0, 15, 10, 600, none, none⟩⟩, by decide +kernel,
    ⟨some b!"127.0.0.1", 80, .any, .first, 0, false, 0, 15, 10, 600, none, none⟩, fun e he => ?_⟩
  · cases hs : strIsIp 0 h with
    | false => rfl
    | true => exact absurd ((strIsIp_spec h).mp hs) (not_ip6 hc)
  · have hs : strIsIp 0 b!"127.0.0.1" = false := by decide
    simp [matrixFinalize, hs, he]

/-- UseBackend is documented to have the effect of the definition of the backend; the priority given there, and that the backend is disabled, is lost. -/
theorem C75_use_fails : ∃ tab nb f, namedGet tab b!"x" = some nb ∧ nb.prio = 9 ∧ nb.disabled = 1 ∧
    (∃ s, parseSvcBes beEnv0 ⟨15, 10, 600⟩ .random 9 [.ident b!"UseBackend", .string b!"x", .nl, .ident b!"End"] 0 = .ok ⟨s, [], 0⟩ ∧
      serviceFinalize ⟨fun h _ => some h, true⟩ tab s.groups = .ok (some [⟨0, [f]⟩])) ∧ f.prio = 5 ∧ f.disabled = false :=
  ⟨[⟨b!"x", 9, 1, beRes0.m⟩], _, ⟨5, false, .regular (.inet b!"10.0.0.1") 8080 15 10 600 (some [.ciphers b!"HIGH"]) none⟩, rfl, rfl, rfl,
    ⟨⟨.random, [⟨0, [⟨5, 0, .ref b!"x"⟩]⟩]⟩, by decide +kernel, by decide +kernel⟩, rfl, rfl⟩

/-- A reference to a named backend for which no address is given has undefined behaviour. -/
theorem C75_noaddr_fails (e : FinEnv) : ∃ tab, namedParser beEnv0 ⟨15, 10, 600⟩ 9 ⟨[], [.string b!"x", .nl, .ident b!"End", .nl], 0⟩ = .ok ⟨tab, [.nl], 0⟩ ∧
    backendFinalize e tab ⟨5, 0, .ref b!"x"⟩ = .ub := by
  refine ⟨[⟨b!"x", 5, 0, ⟨none, 0, .any, .immediate, 0, false, 0, 15, 10, 600, none, none⟩⟩], by rfl, by rfl⟩

example : NamedOk [⟨b!"x", 9, 1, beRes0.m⟩] := ⟨by simp, by decide⟩

/-- The service of the example, and what becomes of it -/
example : ∃ s fs, parseSvcBes beEnv0 ⟨15, 10, 600⟩ .random 60 svcToks0 0 = .ok ⟨s, [], 0⟩ ∧ serviceFinalize ⟨fun h _ => if h.length = 8 then some h else none, true⟩ [] s.groups = .ok (some fs) ∧
    fs = [⟨0, [⟨7, false, .regular (.inet b!"10.0.0.1") 8080 15 10 600 (some [.ciphers b!"HIGH"]) none⟩, ⟨1, false, .redirect 301 b!"https://a.b" 1⟩]⟩,
      ⟨65535, [⟨5, false, .regular (.path b!"/run/s") 80 120 120 120 none none⟩]⟩] := by
  refine ⟨⟨.iwrr, [⟨0, [⟨7, 0, .mtx beRes0.m⟩, ⟨1, 0, .redirect 301 b!"https://a.b" 1⟩]⟩,
    ⟨65535, [⟨5, 0, .mtx ⟨some b!"/run/s", 0, .any, .immediate, 0, false, 0, 120, 120, 120, none, none⟩⟩]⟩]⟩, _, ?_, ?_, rfl⟩
  · decide +kernel
  · decide +kernel

end Pound.Props
