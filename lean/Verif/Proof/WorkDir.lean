import Verif.Spec.WorkDir

/-! Working directories: names and references -/

namespace Pound
open Spec

theorem wdAbs_eq (cwd n : Bytes) : wdAbs cwd [] n = inDir cwd n := by
  unfold wdAbs inDir Absolute
  by_cases h : n.head? = some ch%'/'
  · rw [if_pos h]; exact (if_pos h).symm
  · rw [if_neg h]
    refine Eq.trans ?_ (if_neg h).symm
    simp

theorem inDir_abs {n : Bytes} (h : Absolute n) (d : Bytes) : inDir d n = n := if_pos h

theorem wdAbs_rel {n : Bytes} (hn : ¬ Absolute n) (c r : Bytes) : wdAbs c r n = inDir c n := by
  unfold wdAbs
  refine (if_neg hn).trans ?_
  unfold inDir
  rw [if_neg hn]
  simp

/-- Joining twice -/
theorem inDir_join {cwd d n : Bytes} (hd : d ≠ []) (hn : ¬ Absolute n) : inDir cwd (d ++ b!"/" ++ n) = inDir (inDir cwd d) n := by
  have h1 : Absolute (d ++ b!"/" ++ n) ↔ Absolute d := by
    cases d with
    | nil => exact absurd rfl hd
    | cons x t => exact Iff.rfl
  conv => rhs; rw [inDir, if_neg hn]
  unfold inDir
  by_cases h : Absolute d
  · rw [if_pos (h1.2 h), if_pos h]; simp
  · rw [if_neg fun h' => h (h1.1 h'), if_neg h]; simp

/-- What is known of directories while the configuration is read -/
structure WdNames (c : Bytes) (s : WdSt) : Prop where
  cwd : s.cwd = c
  root : s.root = []
  name : ∀ w ∈ s.wds, w.name ≠ [] ∧ (w.fd = .cwd ∧ w.name = c ∨ w.fd = .dir (inDir c w.name))
  bound : ∀ i, s.inc = some i → i < s.wds.length

/-- The include directory is `d`. -/
structure WdInv (c : Bytes) (incDir : Option Bytes) (d : Bytes) (s : WdSt) : Prop where
  names : WdNames c s
  atNone : s.inc = none → d = startDir c incDir
  atSome : ∀ (i : Nat) (w : Wd), s.inc = some i → s.wds[i]? = some w → w.freed = false → inDir c w.name = d

/-- What the descriptor of a directory stands for -/
theorem wdAt_name {cwd : Bytes} (hc : Absolute cwd) {s : WdSt} (h : WdNames cwd s) {w : Wd} (hw : w ∈ s.wds) (n : Bytes) : wdAt s w.fd n = inDir (inDir cwd w.name) n := by
  unfold wdAt
  rw [h.root]
  rcases (h.name w hw).2 with ⟨h1, h2⟩ | h1
  · rw [h1]
    show wdAbs s.cwd [] n = _
    rw [wdAbs_eq, h.cwd, h2, inDir_abs hc]
  · rw [h1]
    exact wdAbs_eq _ _

/-- One more reference to directory `i`, which may be new -/
structure WdMore (s s' : WdSt) (i : Nat) : Prop where
  inc : s'.inc = s.inc
  keep : ∀ (j : Nat) (w : Wd), s.wds[j]? = some w → s'.wds[j]? = some { w with refs := w.refs + if j = i then 1 else 0 }
  new : ∀ (j : Nat) (w' : Wd), s'.wds[j]? = some w' → s.wds[j]? = none → j = i ∧ w'.refs = 1 ∧ w'.freed = false

theorem wdGet_spec {cwd : Bytes} (hc : Absolute cwd) {isDir : Bytes → Bool} {name : Option Bytes} {s s' : WdSt} {i : Nat} (h : WdNames cwd s) (e : wdGet isDir name s = .ok (i, s')) :
    WdNames cwd s' ∧ WdMore s s' i ∧ ∃ w, s'.wds[i]? = some w ∧ w.freed = false ∧ w.name = name.getD cwd ∧ inDir cwd w.name = startDir cwd name := by
  have hcne : cwd ≠ [] := fun h => by subst h; cases hc
  have happ : ∀ (w0 : Wd), w0.refs = 1 → w0.freed = false → WdMore s { s with wds := s.wds ++ [w0] } s.wds.length := by
    intro w0 hr hf
    refine ⟨rfl, fun j w hj => ?_, fun j w' hj hn => ?_⟩
    · have hlt := (List.getElem?_eq_some_iff.1 hj).1
      show (s.wds ++ [w0])[j]? = _
      rw [List.getElem?_append_left hlt, hj, if_neg (by omega)]
      simp
    · have hge := List.getElem?_eq_none_iff.1 hn
      have hj : (s.wds ++ [w0])[j]? = some w' := hj
      rw [List.getElem?_append_right hge] at hj
      cases hk : j - s.wds.length with
      | zero =>
        rw [hk] at hj
        cases hj
        exact ⟨by omega, hr, hf⟩
      | succ k => rw [hk] at hj; cases hj
  have hlast : ∀ w0 : Wd, (s.wds ++ [w0])[s.wds.length]? = some w0 := fun w0 => by simp
  have hnames : ∀ w0 : Wd, w0.name ≠ [] → (w0.fd = .cwd ∧ w0.name = cwd ∨ w0.fd = .dir (inDir cwd w0.name)) → WdNames cwd { s with wds := s.wds ++ [w0] } := by
    intro w0 h1 h2
    refine ⟨h.cwd, h.root, fun w hw => ?_, fun i hi => Nat.lt_of_lt_of_le (h.bound i hi) (by simp)⟩
    rcases List.mem_append.1 hw with hw | hw
    · exact h.name w hw
    · rw [List.mem_singleton] at hw; subst hw; exact ⟨h1, h2⟩
  unfold wdGet at e
  dsimp only at e
  cases hf : s.wds.findIdx? (fun w => decide (w.freed = false ∧ w.name = name.getD s.cwd)) with
  | some k =>
    rw [hf] at e
    cases e
    obtain ⟨hlt, h1, _⟩ := List.findIdx?_eq_some_iff_getElem.1 hf
    have h1 := of_decide_eq_true h1
    refine ⟨⟨h.cwd, h.root, fun w hw => ?_, fun i' hi => Nat.lt_of_lt_of_le (h.bound i' hi) (by simp)⟩, ⟨rfl, fun j w hj => ?_, fun j w' hj hn => ?_⟩, { s.wds[i] with refs := s.wds[i].refs + 1 }, ?_, h1.1, h1.2.trans (by rw [h.cwd]), ?_⟩
    · obtain ⟨j, hj⟩ := List.getElem?_of_mem hw
      have hj : (s.wds.modify i fun w => { w with refs := w.refs + 1 })[j]? = some w := hj
      rw [List.getElem?_modify] at hj
      obtain ⟨w0, hw0, rfl⟩ := Option.map_eq_some_iff.1 hj
      have := h.name w0 (List.mem_of_getElem? hw0)
      split <;> exact this
    · show (s.wds.modify i fun w => { w with refs := w.refs + 1 })[j]? = _
      rw [List.getElem?_modify, hj]
      by_cases hjk : i = j
      · subst hjk; simp
      · rw [if_neg (Ne.symm hjk)]; simp [hjk]
    · have hj : (s.wds.modify i fun w => { w with refs := w.refs + 1 })[j]? = some w' := hj
      rw [List.getElem?_modify, hn] at hj
      cases hj
    · show (s.wds.modify i fun w => { w with refs := w.refs + 1 })[i]? = _
      rw [List.getElem?_modify, List.getElem?_eq_getElem hlt]
      simp
    · show inDir cwd s.wds[i].name = _
      rw [h1.2]
      cases name with
      | none => show inDir cwd s.cwd = cwd; rw [h.cwd, inDir_abs hc]
      | some n => rfl
  | none =>
    rw [hf] at e
    cases name with
    | none =>
      cases e
      rw [show (none : Option Bytes).getD s.cwd = cwd from h.cwd]
      exact ⟨hnames _ hcne (Or.inl ⟨rfl, rfl⟩), happ _ rfl rfl, _, hlast _, rfl, rfl, inDir_abs hc _⟩
    | some n =>
      dsimp only at e
      split at e
      · rename_i hn
        cases e
        have e1 : wdAbs s.cwd s.root n = inDir cwd n := by rw [h.root, h.cwd, wdAbs_eq]
        rw [e1]
        exact ⟨hnames _ hn.1 (Or.inr rfl), happ _ rfl rfl, _, hlast _, rfl, rfl, rfl⟩
      · cases e

/-- Directories that can be opened are. -/
theorem wdGet_ok {cwd : Bytes} {isDir : Bytes → Bool} {name : Option Bytes} {s : WdSt} (h : WdNames cwd s) (hd : ∀ n, name = some n → n ≠ [] ∧ isDir (inDir cwd n) = true) :
    ∃ i s', wdGet isDir name s = .ok (i, s') := by
  unfold wdGet
  dsimp only
  split
  · exact ⟨_, _, rfl⟩
  · cases name with
    | none => exact ⟨_, _, rfl⟩
    | some n =>
      dsimp only
      rw [if_pos (by rw [h.root, h.cwd, wdAbs_eq]; exact hd n rfl)]
      exact ⟨_, _, rfl⟩

theorem WdMore.inv {cwd : Bytes} {incDir : Option Bytes} {d : Bytes} {s s' : WdSt} {i : Nat} (h : WdInv cwd incDir d s) (hn : WdNames cwd s') (hm : WdMore s s' i) :
    WdInv cwd incDir d s' := by
  refine ⟨hn, fun e => h.atNone (hm.inc.symm.trans e), fun j w hj hw hf => ?_⟩
  rw [hm.inc] at hj
  obtain ⟨w0, hold⟩ : ∃ w0, s.wds[j]? = some w0 := ⟨_, List.getElem?_eq_getElem (h.names.bound j hj)⟩
  have := hm.keep j w0 hold
  rw [hw] at this
  have := Option.some.inj this
  subst this
  exact (h.atSome j w0 hj hold hf :)

/-- Directories keep their names. -/
def WdExt (s s' : WdSt) : Prop := ∀ (j : Nat) (w : Wd), s.wds[j]? = some w → ∃ w', s'.wds[j]? = some w' ∧ w'.name = w.name

theorem WdExt.refl (s : WdSt) : WdExt s s := fun _ w h => ⟨w, h, rfl⟩

theorem WdExt.trans {a b c : WdSt} (h : WdExt a b) (g : WdExt b c) : WdExt a c := fun j w hw => by
  obtain ⟨w', h1, h2⟩ := h j w hw
  obtain ⟨w'', h3, h4⟩ := g j w' h1
  exact ⟨w'', h3, h4.trans h2⟩

theorem WdMore.ext {s s' : WdSt} {i : Nat} (hm : WdMore s s' i) : WdExt s s' := fun j w hw => ⟨_, hm.keep j w hw, rfl⟩

/-- Setting the include directory -/
theorem WdInv.setInc {cwd : Bytes} {incDir : Option Bytes} {d : Bytes} {s : WdSt} {i : Nat} {w : Wd} (h : WdNames cwd s) (hw : s.wds[i]? = some w) (hd : inDir cwd w.name = d) :
    WdInv cwd incDir d { s with inc := some i } := by
  refine ⟨⟨h.cwd, h.root, h.name, fun j hj => ?_⟩, nofun, fun j w' hj hw' _ => ?_⟩
  · cases hj; exact (List.getElem?_eq_some_iff.1 hw).1
  · cases hj
    rw [show s.wds[i]? = some w' from hw'] at hw
    cases hw
    exact hd

theorem wdInc_spec {cwd : Bytes} (hc : Absolute cwd) {isDir : Bytes → Bool} {incDir : Option Bytes} {d : Bytes} {s s' : WdSt} {i : Nat} (h : WdInv cwd incDir d s) (e : wdInc isDir incDir s = .ok (i, s')) :
    WdInv cwd incDir d s' ∧ s'.inc = some i ∧ WdExt s s' := by
  unfold wdInc at e
  cases hi : s.inc with
  | some k =>
    rw [hi] at e
    cases e
    exact ⟨h, hi, WdExt.refl _⟩
  | none =>
    rw [hi] at e
    dsimp only at e
    cases hg : wdGet isDir incDir s with
    | ub => rw [hg] at e; cases e
    | fail => rw [hg] at e; cases e
    | ok p =>
      rw [hg] at e
      cases e
      obtain ⟨h1, h2, w, hw, _, _, hd⟩ := wdGet_spec hc h.names hg
      exact ⟨WdInv.setInc h1 hw (hd.trans (h.atNone hi).symm), rfl, h2.ext⟩

theorem bind_ok {α β} {r : WdRes α} {f : α → WdRes β} {b : β} (e : r.bind f = .ok b) : ∃ a, r = .ok a ∧ f a = .ok b := by
  cases r with
  | ub => cases e
  | fail => cases e
  | ok a => exact ⟨a, rfl, e⟩

theorem wdDeref_ok {s : WdSt} {i : Nat} {w : Wd} (e : wdDeref s i = .ok w) : s.wds[i]? = some w ∧ w.freed = false := by
  unfold wdDeref at e
  cases h : s.wds[i]? with
  | none => rw [h] at e; cases e
  | some w0 =>
    rw [h] at e
    dsimp only at e
    split at e
    · cases e
    · rename_i hx; cases e; exact ⟨rfl, Bool.eq_false_iff.2 hx⟩

theorem wdFopen_inc {cwd : Bytes} (hc : Absolute cwd) {incDir : Option Bytes} {d : Bytes} {s : WdSt} {i : Nat} {n f : Bytes} (h : WdInv cwd incDir d s) (hi : s.inc = some i) (e : wdFopen s (some i) n = .ok f) :
    f = inDir d n := by
  obtain ⟨w, h1, h2⟩ := bind_ok e
  obtain ⟨h3, h4⟩ := wdDeref_ok h1
  cases h2
  rw [wdAt_name hc h.names (List.mem_of_getElem? h3), h.atSome i w hi h3 h4]

theorem wdOpenInc_spec {cwd : Bytes} (hc : Absolute cwd) {isDir : Bytes → Bool} {incDir : Option Bytes} {d : Bytes} {s s' : WdSt} {n f : Bytes} (h : WdInv cwd incDir d s) (e : wdOpenInc isDir incDir n s = .ok (f, s')) :
    f = inDir d n ∧ WdInv cwd incDir d s' ∧ WdExt s s' := by
  obtain ⟨⟨i, s1⟩, h1, h2⟩ := bind_ok e
  obtain ⟨f', h3, h4⟩ := bind_ok h2
  cases h4
  obtain ⟨h5, h6, h7⟩ := wdInc_spec hc h h1
  exact ⟨wdFopen_inc hc h5 h6 h3, h5, h7⟩

theorem wdPush_spec {cwd : Bytes} (hc : Absolute cwd) {isDir : Bytes → Bool} {incDir : Option Bytes} {d : Bytes} {s s' : WdSt} {n f g : Bytes} (h : WdInv cwd incDir d s)
    (e : wdPush isDir incDir n s = .ok ((f, g), s')) : f = inDir d n ∧ g = inDir d n ∧ WdInv cwd incDir d s' ∧ WdExt s s' := by
  unfold wdPush at e
  split at e
  · rename_i hn
    obtain ⟨⟨f', s1⟩, h1, h2⟩ := bind_ok e
    cases h2
    obtain ⟨h3, h4, h5⟩ := wdOpenInc_spec hc h h1
    refine ⟨?_, h3, h4, h5⟩
    show wdAbs s.cwd s.root n = _
    rw [h.names.root, wdAbs_eq, inDir_abs hn, inDir_abs hn]
  · obtain ⟨⟨i, s1⟩, h1, h2⟩ := bind_ok e
    obtain ⟨w, h3, h4⟩ := bind_ok h2
    obtain ⟨⟨f', s2⟩, h5, h6⟩ := bind_ok h4
    cases h6
    obtain ⟨h7, h8, h9⟩ := wdInc_spec hc h h1
    obtain ⟨h10, h11, h12⟩ := wdOpenInc_spec hc h7 h5
    obtain ⟨h13, h14⟩ := wdDeref_ok h3
    refine ⟨?_, h10, h11, h9.trans h12⟩
    show wdAt s1 w.fd n = _
    rw [wdAt_name hc h7.names (List.mem_of_getElem? h13), h7.atSome i w h8 h13 h14]

/-- References and releases do not change names. -/
theorem WdInv.modify {cwd : Bytes} {incDir : Option Bytes} {d : Bytes} {s : WdSt} (h : WdInv cwd incDir d s) (i : Nat) (f : Wd → Wd) (hf : ∀ w, (f w).name = w.name ∧ (f w).fd = w.fd ∧ (w.freed = true → (f w).freed = true)) :
    WdInv cwd incDir d { s with wds := s.wds.modify i f } ∧ WdExt s { s with wds := s.wds.modify i f } := by
  refine ⟨⟨⟨h.names.cwd, h.names.root, fun w hw => ?_, fun j hj => Nat.lt_of_lt_of_le (h.names.bound j hj) (by simp)⟩, h.atNone, fun j w hj hw hfr => ?_⟩, fun j w hw => ?_⟩
  · obtain ⟨j, hj⟩ := List.getElem?_of_mem hw
    have hj : (s.wds.modify i f)[j]? = some w := hj
    rw [List.getElem?_modify] at hj
    obtain ⟨w0, hw0, rfl⟩ := Option.map_eq_some_iff.1 hj
    have := h.names.name w0 (List.mem_of_getElem? hw0)
    split
    · rw [(hf w0).1, (hf w0).2.1]; exact this
    · exact this
  · have hw : (s.wds.modify i f)[j]? = some w := hw
    rw [List.getElem?_modify] at hw
    obtain ⟨w0, hw0, rfl⟩ := Option.map_eq_some_iff.1 hw
    split at hfr
    · rw [if_pos ‹_›, (hf w0).1]
      refine h.atSome j w0 hj hw0 ?_
      cases hx : w0.freed with
      | false => rfl
      | true => rw [(hf w0).2.2 hx] at hfr; cases hfr
    · rw [if_neg ‹_›]
      exact h.atSome j w0 hj hw0 hfr
  · refine ⟨if i = j then f w else w, ?_, by split; exact (hf w).1; rfl⟩
    show (s.wds.modify i f)[j]? = _
    rw [List.getElem?_modify, hw]
    rfl

/-- The include directory after a statement -/
def wdNext (cwd d : Bytes) : WdStmt → Bytes
  | .includeDir n => inDir cwd n
  | _ => d

/-- The file that a statement uses -/
def wdWant (d : Bytes) : WdStmt → Option Bytes
  | .include n => some (inDir d n)
  | .file n => some (inDir d n)
  | .cert n => some (inDir d n)
  | _ => none

theorem wanted_cons (cwd d : Bytes) (o : WdStmt) (t : List WdStmt) : wanted cwd d (o :: t) = wdWant d o :: wanted cwd (wdNext cwd d o) t := by
  cases o <;> rfl

theorem lastDir_cons (cwd d : Bytes) (o : WdStmt) (t : List WdStmt) : lastDir cwd d (o :: t) = lastDir cwd (wdNext cwd d o) t := by
  cases o <;> rfl

theorem wdResolve_spec {cwd : Bytes} (hc : Absolute cwd) {isDir : Bytes → Bool} {incDir : Option Bytes} {d : Bytes} {s s' : WdSt} {n f : Bytes} (h : WdInv cwd incDir d s)
    (e : wdResolve isDir incDir n s = .ok (f, s')) : inDir cwd f = inDir d n ∧ WdInv cwd incDir d s' := by
  unfold wdResolve at e
  split at e
  · rename_i hn
    cases e
    exact ⟨by rw [inDir_abs hn, inDir_abs hn], h⟩
  · rename_i hn
    obtain ⟨⟨i, s1⟩, h1, h2⟩ := bind_ok e
    obtain ⟨w, h3, h4⟩ := bind_ok h2
    obtain ⟨s2, h5, h6⟩ := bind_ok h4
    cases h6
    obtain ⟨_, h7, h8⟩ := bind_ok h5
    cases h8
    obtain ⟨h9, h10, _⟩ := wdInc_spec hc h h1
    obtain ⟨h13, h14⟩ := wdDeref_ok h3
    refine ⟨?_, (h9.modify i (fun w => { w with refs := w.refs - 1 }) fun w => ⟨rfl, rfl, id⟩).1⟩
    rw [inDir_join (h9.names.name w (List.mem_of_getElem? h13)).1 hn, h9.atSome i w h10 h13 h14]

theorem wdStmt_spec {cwd : Bytes} (hc : Absolute cwd) {isDir : Bytes → Bool} {incDir : Option Bytes} {d : Bytes} {s s' : WdSt} {o : WdStmt} {f : Option Bytes} (h : WdInv cwd incDir d s)
    (e : wdStmt isDir incDir s o = .ok (f, s')) : f = wdWant d o ∧ WdInv cwd incDir (wdNext cwd d o) s' := by
  cases o with
  | includeDir n =>
    obtain ⟨s1, h1, h2⟩ := bind_ok e
    cases h2
    refine ⟨rfl, ?_⟩
    obtain ⟨⟨i, s2⟩, h3, h4⟩ := bind_ok h1
    obtain ⟨h5, h6, w, hw, hwf, hwn, hd⟩ := wdGet_spec hc h.names h3
    dsimp only at h4
    cases hi : s2.inc with
    | none => rw [hi] at h4; cases h4
    | some k =>
      rw [hi] at h4
      obtain ⟨s3, h7, h8⟩ := bind_ok h4
      cases h8
      obtain ⟨w1, h9, h10⟩ := bind_ok h7
      split at h10
      · cases h10
        have h11 := (h6.inv h h5).modify k (fun w => { w with freed := true }) fun w => ⟨rfl, rfl, fun _ => rfl⟩
        obtain ⟨w', hw', hn'⟩ := h11.2 i w hw
        exact WdInv.setInc h11.1.names hw' (by rw [hn']; exact hd)
      · cases h10
        exact WdInv.setInc h5 hw hd
  | «include» n =>
    obtain ⟨⟨⟨f', g⟩, s1⟩, h1, h2⟩ := bind_ok e
    cases h2
    obtain ⟨_, h3, h4, _⟩ := wdPush_spec hc h h1
    exact ⟨congrArg some h3, h4⟩
  | file n =>
    obtain ⟨⟨f', s1⟩, h1, h2⟩ := bind_ok e
    cases h2
    obtain ⟨h3, h4, _⟩ := wdOpenInc_spec hc h h1
    exact ⟨congrArg some h3, h4⟩
  | cert n =>
    obtain ⟨⟨f', s1⟩, h1, h2⟩ := bind_ok e
    cases h2
    obtain ⟨h3, h4⟩ := wdResolve_spec hc h h1
    refine ⟨congrArg some ?_, h4⟩
    rw [h.names.root, h.names.cwd, wdAbs_eq]
    exact h3
  | passwd n => cases e; exact ⟨rfl, h⟩

theorem wdStmts_spec {cwd : Bytes} (hc : Absolute cwd) {isDir : Bytes → Bool} {incDir : Option Bytes} (l : List WdStmt) {d : Bytes} {s s' : WdSt} {fs : List (Option Bytes)} (h : WdInv cwd incDir d s)
    (e : wdStmts isDir incDir l s = .ok (fs, s')) : fs = wanted cwd d l ∧ WdInv cwd incDir (lastDir cwd d l) s' := by
  induction l generalizing d s fs with
  | nil => cases e; exact ⟨rfl, h⟩
  | cons o t ih =>
    obtain ⟨⟨f, s1⟩, h1, h2⟩ := bind_ok e
    obtain ⟨⟨fs', s2⟩, h3, h4⟩ := bind_ok h2
    cases h4
    obtain ⟨h5, h6⟩ := wdStmt_spec hc h h1
    obtain ⟨h7, h8⟩ := ih h6 h3
    rw [wanted_cons, lastDir_cons]
    exact ⟨by rw [h5, h7], h8⟩

theorem dropWhile_slash {l : Bytes} (h : ch%'/' ∈ l) : l.dropWhile (· ≠ ch%'/') = ch%'/' :: (l.dropWhile (· ≠ ch%'/')).tail := by
  induction l with
  | nil => cases h
  | cons x t ih =>
    by_cases hx : x = ch%'/'
    · subst hx; simp [List.dropWhile]
    · have ht : ch%'/' ∈ t := by
        rcases List.mem_cons.1 h with h | h
        · exact absurd h.symm hx
        · exact h
      rw [List.dropWhile_cons_of_pos (by simpa using hx)]
      exact ih ht

theorem takeWhile_slash (l : Bytes) : ch%'/' ∉ l.takeWhile (· ≠ ch%'/') := by
  induction l with
  | nil => exact nofun
  | cons x t ih =>
    by_cases hx : x = ch%'/'
    · subst hx; simp [List.takeWhile]
    · rw [List.takeWhile_cons_of_pos (by simpa using hx)]
      intro h
      rcases List.mem_cons.1 h with h | h
      · exact hx h.symm
      · exact ih h

theorem wdSplit_join {n : Bytes} (h : ch%'/' ∈ n) : n = (wdSplit n).1 ++ ch%'/' :: (wdSplit n).2 := by
  have h1 := List.takeWhile_append_dropWhile (p := (· ≠ ch%'/')) (l := n.reverse)
  have h2 := dropWhile_slash (List.mem_reverse.2 h)
  rw [h2] at h1
  have h3 := congrArg List.reverse h1
  rw [List.reverse_append, List.reverse_reverse, List.reverse_cons, List.append_assoc] at h3
  unfold wdSplit
  exact h3.symm

theorem wdSplit_base (n : Bytes) : ch%'/' ∉ (wdSplit n).2 := fun h => takeWhile_slash _ (List.mem_reverse.1 h)

/-- A password file whose directory is known -/
def WdPwOk (cwd d : Bytes) (jail : Bool) (s : WdSt) (p : WdPw) (n : Bytes) : Prop :=
  match p.wd with
  | none => jail = false ∧ p.name = n ∧ Absolute n
  | some i => ¬ Absolute p.name ∧ ∃ w, s.wds[i]? = some w ∧ inDir (inDir cwd w.name) p.name = inDir d n

theorem WdPwOk.ext {cwd d : Bytes} {jail : Bool} {s s' : WdSt} {p : WdPw} {n : Bytes} (h : WdPwOk cwd d jail s p n) (he : WdExt s s') : WdPwOk cwd d jail s' p n := by
  unfold WdPwOk at *
  cases hp : p.wd with
  | none => rw [hp] at h; exact h
  | some i =>
    rw [hp] at h
    obtain ⟨h1, w, h2, h3⟩ := h
    obtain ⟨w', h4, h5⟩ := he i w h2
    exact ⟨h1, w', h4, by rw [h5]; exact h3⟩

theorem not_abs_of {b : Bytes} (h : ch%'/' ∉ b) : ¬ Absolute b := by
  intro h'
  cases b with
  | nil => cases h'
  | cons x t =>
    cases h'
    exact h List.mem_cons_self

theorem wdFixup_spec {cwd : Bytes} (hc : Absolute cwd) {isDir : Bytes → Bool} {incDir : Option Bytes} {jail : Bool} {d : Bytes} {s s' : WdSt} {n : Bytes} {p : WdPw} (h : WdInv cwd incDir d s)
    (e : wdFixup isDir incDir jail n s = .ok (p, s')) : WdInv cwd incDir d s' ∧ WdExt s s' ∧ WdPwOk cwd d jail s' p n := by
  unfold wdFixup at e
  split at e
  · rename_i hn
    split at e
    · obtain ⟨⟨i, s1⟩, h1, h2⟩ := bind_ok e
      cases h2
      obtain ⟨h5, h6, w, hw, hwf, hwn, hd⟩ := wdGet_spec hc h.names h1
      refine ⟨h6.inv h h5, h6.ext, not_abs_of (wdSplit_base n), w, hw, ?_⟩
      rw [hd]
      have hm : ch%'/' ∈ n := by
        cases n with
        | nil => cases hn
        | cons x t => cases hn; exact List.mem_cons_self
      have hj := wdSplit_join hm
      rw [inDir_abs hn]
      show inDir (inDir cwd (wdSplit n).1) (wdSplit n).2 = n
      have hne : (wdSplit n).1 ≠ [] := by
        have := (h5.name w (List.mem_of_getElem? hw)).1
        rw [hwn] at this
        exact this
      have ha : Absolute (wdSplit n).1 := by
        cases hs : (wdSplit n).1 with
        | nil => exact absurd hs hne
        | cons x t =>
          have h7 : n.head? = some 47 := hn
          rw [hj, hs] at h7
          exact h7
      rw [inDir_abs ha]
      unfold inDir
      rw [if_neg (not_abs_of (wdSplit_base n))]
      exact hj.symm
    · cases e
      rename_i hjl; exact ⟨h, WdExt.refl _, Bool.eq_false_iff.2 hjl, rfl, hn⟩
  · rename_i hn
    obtain ⟨⟨i, s1⟩, h1, h2⟩ := bind_ok e
    obtain ⟨w, h3, h4⟩ := bind_ok h2
    cases h4
    obtain ⟨h9, h10, h11⟩ := wdInc_spec hc h h1
    obtain ⟨h13, h14⟩ := wdDeref_ok h3
    have h15 := h9.modify i (fun w => { w with refs := w.refs + 1 }) fun w => ⟨rfl, rfl, id⟩
    refine ⟨h15.1, h11.trans h15.2, hn, ?_⟩
    obtain ⟨w', h16, h17⟩ := h15.2 i w h13
    exact ⟨w', h16, by rw [h17, h9.atSome i w h10 h13 h14]⟩

theorem wdPasswds_eq (l : List WdStmt) : wdPasswds l = passwds l := by
  induction l with
  | nil => rfl
  | cons o t ih => cases o <;> simp [wdPasswds, passwds, ih] <;> rfl

theorem wdFixups_spec {cwd : Bytes} (hc : Absolute cwd) {isDir : Bytes → Bool} {incDir : Option Bytes} {jail : Bool} {d : Bytes} (l : List Bytes) {s s' : WdSt} {ps : List WdPw} (h : WdInv cwd incDir d s)
    (e : wdFixups isDir incDir jail l s = .ok (ps, s')) : WdInv cwd incDir d s' ∧ WdExt s s' ∧ ps.length = l.length ∧ ∀ x ∈ ps.zip l, WdPwOk cwd d jail s' x.1 x.2 := by
  induction l generalizing s ps with
  | nil => cases e; exact ⟨h, WdExt.refl _, rfl, nofun⟩
  | cons n t ih =>
    obtain ⟨⟨p, s1⟩, h1, h2⟩ := bind_ok e
    obtain ⟨⟨ps', s2⟩, h3, h4⟩ := bind_ok h2
    cases h4
    obtain ⟨h5, h6, h7⟩ := wdFixup_spec hc h h1
    obtain ⟨h8, h9, h10, h11⟩ := ih h5 h3
    refine ⟨h8, h6.trans h9, by simp [h10], fun x hx => ?_⟩
    rw [List.zip_cons_cons] at hx
    rcases List.mem_cons.1 hx with rfl | hx
    · exact h7.ext h9
    · exact h11 x hx

theorem wdFinish_spec {cwd : Bytes} {incDir : Option Bytes} {d : Bytes} {keep : Bool} {s s' : WdSt} (h : WdInv cwd incDir d s) (e : wdFinish keep s = .ok s') :
    ∃ s1, WdNames cwd s1 ∧ WdExt s s1 ∧ s'.wds = s1.wds.map (wdClean keep cwd) ∧ s'.cwd = cwd ∧ s'.root = [] := by
  unfold wdFinish at e
  cases hi : s.inc with
  | none =>
    rw [hi] at e
    cases e
    exact ⟨s, h.names, WdExt.refl _, by rw [h.names.cwd], h.names.cwd, h.names.root⟩
  | some i =>
    rw [hi] at e
    dsimp only at e
    obtain ⟨s1, h1, h2⟩ := bind_ok e
    obtain ⟨w, _, h4⟩ := bind_ok h2
    obtain ⟨_, _, h5⟩ := bind_ok h1
    have h6 := h.modify i (fun w => { w with refs := w.refs - 1 }) fun w => ⟨rfl, rfl, id⟩
    cases h5
    cases h4
    exact ⟨_, h6.1.names, h6.2, congrArg (fun c => List.map (wdClean keep c) _) h.names.cwd, h.names.cwd, h.names.root⟩

/-- What a kept directory stands for after the process has left -/
theorem wdClean_at {cwd : Bytes} (hc : Absolute cwd) {s s' : WdSt} {w : Wd} {jail : Option Bytes} {daemon : Bool} {n : Bytes} (h : WdNames cwd s) (hw : w ∈ s.wds) (hn : ¬ Absolute n) (hs : s'.cwd = cwd)
    (hf : (wdClean (jail.isSome || daemon) cwd w).freed = false) : wdAt (wdLeave jail daemon s') (wdClean (jail.isSome || daemon) cwd w).fd n = inDir (inDir cwd w.name) n := by
  have hd : ∀ p (s : WdSt), wdAt s (.dir p) n = inDir p n := fun p s => by
    exact wdAbs_rel hn _ _
  have hname := (h.name w hw).2
  unfold wdClean at hf ⊢
  split at hf
  · rename_i hx; rw [hx] at hf; cases hf
  · split at hf
    · cases hf
    · rename_i h1 h2
      rw [if_neg h1, if_neg h2]
      split
      · rename_i h3
        rw [hd]
        rcases hname with ⟨_, h5⟩ | h5
        · rw [h5, inDir_abs hc]
        · rw [h5] at h3; cases h3.1
      · rename_i h3
        rcases hname with ⟨h4, h5⟩ | h5
        · have hk : (jail.isSome || daemon) = false := by
            cases hk : (jail.isSome || daemon) with
            | false => rfl
            | true => exact absurd ⟨h4, hk⟩ h3
          cases jail with
          | some _ => cases hk
          | none =>
            cases daemon with
            | true => cases hk
            | false =>
              rw [h4]
              show wdAbs s'.cwd s'.root n = _
              rw [hs, h5, inDir_abs hc]
              exact wdAbs_rel hn _ _
        · rw [h5, hd]

theorem wdDeref_cases (s : WdSt) (i : Nat) : wdDeref s i = .ub ∨ ∃ w, wdDeref s i = .ok w := by
  unfold wdDeref
  split
  · exact Or.inl rfl
  · split
    · exact Or.inl rfl
    · exact Or.inr ⟨_, rfl⟩

theorem wdLeave_wds (jail : Option Bytes) (daemon : Bool) (s : WdSt) : (wdLeave jail daemon s).wds = s.wds ∧ (wdLeave jail daemon s).inc = s.inc := by
  unfold wdLeave
  split
  · exact ⟨rfl, rfl⟩
  · split <;> exact ⟨rfl, rfl⟩

theorem wdDeref_leave (jail : Option Bytes) (daemon : Bool) (s : WdSt) (i : Nat) : wdDeref (wdLeave jail daemon s) i = wdDeref s i := by
  unfold wdDeref
  rw [(wdLeave_wds jail daemon s).1]

/-- The directories that a password file needs are there. -/
def WdLive (s : WdSt) (p : WdPw) : Prop := ∀ i, (p.wd.orElse fun _ => s.inc) = some i → ∃ w, s.wds[i]? = some w ∧ w.freed = false

theorem wdPassFile_spec {cwd : Bytes} (hc : Absolute cwd) {incDir : Option Bytes} {d : Bytes} {jail : Option Bytes} {daemon : Bool} {s s' : WdSt} (h : WdInv cwd incDir d s)
    (e : wdFinish (jail.isSome || daemon) s = .ok s') {p : WdPw} {n : Bytes} (hp : WdPwOk cwd d jail.isSome s p n) :
    (wdPassFile (wdLeave jail daemon s') p = .ub ∨ wdPassFile (wdLeave jail daemon s') p = .ok (inDir d n)) ∧ (WdLive s' p → wdPassFile (wdLeave jail daemon s') p ≠ .ub) := by
  obtain ⟨s1, h1, h2, h3, h4, h5⟩ := wdFinish_spec h e
  refine ⟨?_, ?_⟩
  · unfold WdPwOk at hp
    unfold wdPassFile wdFopen
    cases hw : p.wd with
    | none =>
      rw [hw] at hp
      obtain ⟨hj, hn, ha⟩ := hp
      have hroot : (wdLeave jail daemon s').root = [] := by
        unfold wdLeave
        cases jail with
        | some _ => cases hj
        | none =>
          dsimp only
          split <;> exact h5
      have hat : ∀ fd, wdAt (wdLeave jail daemon s') fd p.name = inDir d n := by
        intro fd
        rw [inDir_abs ha, hn]
        unfold wdAt
        rw [hroot]
        cases fd with
        | cwd => exact (wdAbs_eq _ _).trans (inDir_abs ha _)
        | dir q => exact (wdAbs_eq _ _).trans (inDir_abs ha _)
      cases hi : (wdLeave jail daemon s').inc with
      | none => exact Or.inr (congrArg WdRes.ok (hat _))
      | some i =>
        show (wdDeref _ i).bind _ = _ ∨ (wdDeref _ i).bind _ = _
        rcases wdDeref_cases (wdLeave jail daemon s') i with hd | ⟨w', hd⟩
        · rw [hd]; exact Or.inl rfl
        · rw [hd]; exact Or.inr (congrArg WdRes.ok (hat _))
    | some i =>
      rw [hw] at hp
      obtain ⟨ha, w, h6, h7⟩ := hp
      show (wdDeref _ i).bind _ = _ ∨ (wdDeref _ i).bind _ = _
      rcases wdDeref_cases (wdLeave jail daemon s') i with hd | ⟨w', hd⟩
      · rw [hd]; exact Or.inl rfl
      · rw [hd]
        refine Or.inr (congrArg WdRes.ok ?_)
        rw [wdDeref_leave] at hd
        obtain ⟨h8, h9⟩ := wdDeref_ok hd
        obtain ⟨w1, h10, h11⟩ := h2 i w h6
        rw [h3, List.getElem?_map, h10] at h8
        cases h8
        rw [wdClean_at hc h1 (List.mem_of_getElem? h10) ha h4 h9, h11, h7]
  · intro hl hu
    unfold wdPassFile wdFopen at hu
    rw [(wdLeave_wds jail daemon s').2] at hu
    unfold WdLive at hl
    cases ho : (p.wd.orElse fun _ => s'.inc) with
    | none => rw [ho] at hu; cases hu
    | some i =>
      rw [ho] at hu
      obtain ⟨w, h6, h7⟩ := hl i ho
      dsimp only at hu
      rw [wdDeref_leave] at hu
      unfold wdDeref at hu
      rw [h6] at hu
      dsimp only at hu
      rw [if_neg (by rw [h7]; exact nofun)] at hu
      cases hu

theorem wdOpenMain_eq (isDir : Bytes → Bool) (incDir : Option Bytes) (n cwd : Bytes) :
    wdOpenMain isDir incDir n ⟨[], none, cwd, []⟩ = .ok ((inDir cwd n, inDir cwd n), ⟨[⟨cwd, 0, .cwd, false⟩], none, cwd, []⟩) := by
  have h : wdPush isDir incDir n ⟨[⟨cwd, 1, .cwd, false⟩], some 0, cwd, []⟩ = .ok ((wdAbs cwd [] n, wdAbs cwd [] n), ⟨[⟨cwd, 1, .cwd, false⟩], some 0, cwd, []⟩) := by
    unfold wdPush
    split <;> rfl
  show (wdPush isDir incDir n ⟨[⟨cwd, 1, .cwd, false⟩], some 0, cwd, []⟩).bind _ = _
  rw [h, wdAbs_eq]
  rfl

theorem wdStart_inv {cwd : Bytes} (hc : Absolute cwd) (incDir : Option Bytes) : WdInv cwd incDir (startDir cwd incDir) ⟨[⟨cwd, 0, .cwd, false⟩], none, cwd, []⟩ := by
  refine ⟨⟨rfl, rfl, fun w hw => ?_, nofun⟩, fun _ => rfl, nofun⟩
  have hw : w ∈ [(⟨cwd, 0, .cwd, false⟩ : Wd)] := hw
  rw [List.mem_singleton] at hw
  subst hw
  exact ⟨fun h => (by have h : cwd = [] := h; subst h; cases hc), Or.inl ⟨rfl, rfl⟩⟩

theorem wdConfig_spec {cwd : Bytes} (hc : Absolute cwd) {isDir : Bytes → Bool} {incDir : Option Bytes} {main m : Bytes} {stmts : List WdStmt} {jail : Option Bytes} {daemon : Bool} {fs : List (Option Bytes)}
    {ps : List WdPw} {s : WdSt} (e : wdConfig isDir incDir main stmts jail daemon cwd = .ok ((m, fs, ps), s)) :
    m = inDir cwd main ∧ fs = wanted cwd (startDir cwd incDir) stmts ∧ ps.length = (passwds stmts).length ∧
      ∀ x ∈ ps.zip (passwds stmts), wdPassFile s x.1 = .ub ∨ wdPassFile s x.1 = .ok (inDir (lastDir cwd (startDir cwd incDir) stmts) x.2) := by
  unfold wdConfig at e
  rw [wdOpenMain_eq] at e
  obtain ⟨_, h0, e⟩ := bind_ok e
  cases h0
  obtain ⟨⟨fs', s1⟩, h1, h2⟩ := bind_ok e
  obtain ⟨⟨ps', s2⟩, h3, h4⟩ := bind_ok h2
  obtain ⟨s3, h5, h6⟩ := bind_ok h4
  cases h6
  obtain ⟨h7, h8⟩ := wdStmts_spec hc stmts (wdStart_inv hc incDir) h1
  obtain ⟨h9, _, h10, h11⟩ := wdFixups_spec hc _ h8 h3
  rw [wdPasswds_eq] at h10 h11
  exact ⟨rfl, h7, h10, fun x hx => (wdPassFile_spec hc h9 h5 (h11 x hx)).1⟩

/-- Nothing is released, and each directory has references for the include directory and for `u`. -/
structure WdSafe (c : Bytes) (incDir : Option Bytes) (d : Bytes) (u : Nat → Nat) (s : WdSt) : Prop where
  inv : WdInv c incDir d s
  live : ∀ (j : Nat) (w : Wd), s.wds[j]? = some w → w.freed = false ∧ ((if s.inc = some j then 1 else 0) + u j : Int) ≤ w.refs
  out : ∀ j, s.wds.length ≤ j → u j = 0

/-- One more reference that is not used yet -/
theorem WdMore.live {c : Bytes} {incDir : Option Bytes} {d : Bytes} {u : Nat → Nat} {s s' : WdSt} {i : Nat} (h : WdSafe c incDir d u s) (hm : WdMore s s' i) (j : Nat) (w : Wd)
    (hw : s'.wds[j]? = some w) : w.freed = false ∧ ((if s.inc = some j then 1 else 0) + u j + (if j = i then 1 else 0) : Int) ≤ w.refs := by
  cases hold : s.wds[j]? with
  | some w0 =>
    have h1 := hm.keep j w0 hold
    rw [hw] at h1
    obtain ⟨h2, h3⟩ := h.live j w0 hold
    have h1 := Option.some.inj h1
    subst h1
    refine ⟨h2, ?_⟩
    show _ ≤ w0.refs + _
    split <;> simp_all <;> omega
  | none =>
    obtain ⟨h1, h2, h3⟩ := hm.new j w hw hold
    refine ⟨h3, ?_⟩
    rw [h2, h.out j (List.getElem?_eq_none_iff.1 hold), if_pos h1, if_neg]
    · simp
    · intro h4
      have := h.inv.names.bound j h4
      have := List.getElem?_eq_none_iff.1 hold
      omega

theorem WdExt.len {s s' : WdSt} (h : WdExt s s') : s.wds.length ≤ s'.wds.length := by
  rcases Nat.lt_or_ge s'.wds.length s.wds.length with hlt | hge
  · obtain ⟨w', h1, _⟩ := h _ _ (List.getElem?_eq_getElem hlt)
    have := (List.getElem?_eq_some_iff.1 h1).1
    omega
  · exact hge

theorem wdDeref_safe {c : Bytes} {incDir : Option Bytes} {d : Bytes} {u : Nat → Nat} {s : WdSt} (h : WdSafe c incDir d u s) {i : Nat} (hi : i < s.wds.length) : ∃ w, wdDeref s i = .ok w ∧ s.wds[i]? = some w := by
  have h1 := List.getElem?_eq_getElem hi
  refine ⟨s.wds[i], ?_, h1⟩
  unfold wdDeref
  rw [h1]
  dsimp only
  rw [if_neg (by rw [(h.live i _ h1).1]; exact nofun)]

/-- Directories that the configuration names can be opened. -/
def WdDirs (isDir : Bytes → Bool) (cwd : Bytes) (n : Bytes) : Prop := n ≠ [] ∧ isDir (inDir cwd n) = true

theorem wdInc_safe {cwd : Bytes} (hc : Absolute cwd) {isDir : Bytes → Bool} {incDir : Option Bytes} (hd : ∀ n, incDir = some n → WdDirs isDir cwd n) {d : Bytes} {u : Nat → Nat} {s : WdSt} (h : WdSafe cwd incDir d u s) :
    ∃ i s', wdInc isDir incDir s = .ok (i, s') ∧ WdSafe cwd incDir d u s' ∧ s'.inc = some i := by
  cases hi : s.inc with
  | some i =>
    refine ⟨i, s, ?_, h, hi⟩
    unfold wdInc
    rw [hi]
  | none =>
    obtain ⟨i, s', hg⟩ := wdGet_ok h.inv.names (isDir := isDir) hd
    have he : wdInc isDir incDir s = .ok (i, { s' with inc := some i }) := by
      unfold wdInc
      rw [hi]
      dsimp only
      rw [hg]
      rfl
    refine ⟨i, _, he, ⟨(wdInc_spec hc h.inv he).1, fun j w hw => ?_, fun j hj => ?_⟩, rfl⟩
    · obtain ⟨h1, h2, _⟩ := wdGet_spec hc h.inv.names hg
      obtain ⟨h3, h4⟩ := h2.live h j w hw
      refine ⟨h3, ?_⟩
      rw [hi] at h4
      show ((if some i = some j then 1 else 0) + u j : Int) ≤ _
      by_cases hij : j = i
      · subst hij; simp at h4 ⊢; omega
      · rw [if_neg (fun e => hij (Option.some.inj e).symm)]
        simp [hij] at h4
        omega
    · refine h.out j (Nat.le_trans ?_ hj)
      exact (wdInc_spec hc h.inv he).2.2.len

theorem wdOpenInc_safe {cwd : Bytes} (hc : Absolute cwd) {isDir : Bytes → Bool} {incDir : Option Bytes} (hd : ∀ n, incDir = some n → WdDirs isDir cwd n) {d : Bytes} {u : Nat → Nat} {s : WdSt} (h : WdSafe cwd incDir d u s)
    (n : Bytes) : ∃ f s', wdOpenInc isDir incDir n s = .ok (f, s') ∧ WdSafe cwd incDir d u s' ∧ s'.inc ≠ none := by
  obtain ⟨i, s', h1, h2, h3⟩ := wdInc_safe hc hd h
  obtain ⟨w, h4, _⟩ := wdDeref_safe h2 (h2.inv.names.bound i h3)
  refine ⟨wdAt s' w.fd n, s', ?_, h2, by rw [h3]; exact nofun⟩
  unfold wdOpenInc
  rw [h1]
  show ((wdDeref s' i).bind _).bind _ = _
  rw [h4]
  rfl

theorem wdPush_safe {cwd : Bytes} (hc : Absolute cwd) {isDir : Bytes → Bool} {incDir : Option Bytes} (hd : ∀ n, incDir = some n → WdDirs isDir cwd n) {d : Bytes} {u : Nat → Nat} {s : WdSt} (h : WdSafe cwd incDir d u s)
    (n : Bytes) : ∃ f s', wdPush isDir incDir n s = .ok (f, s') ∧ WdSafe cwd incDir d u s' ∧ s'.inc ≠ none := by
  unfold wdPush
  split
  · obtain ⟨f, s', h1, h2, h3⟩ := wdOpenInc_safe hc hd h n
    exact ⟨_, s', by rw [h1]; rfl, h2, h3⟩
  · obtain ⟨i, s', h1, h2, h3⟩ := wdInc_safe hc hd h
    obtain ⟨w, h4, _⟩ := wdDeref_safe h2 (h2.inv.names.bound i h3)
    obtain ⟨f, s'', h5, h6, h7⟩ := wdOpenInc_safe hc hd h2 n
    refine ⟨(wdAt s' w.fd n, f), s'', ?_, h6, h7⟩
    rw [h1]
    show (wdDeref s' i).bind _ = _
    rw [h4]
    show (wdOpenInc isDir incDir n s').bind _ = _
    rw [h5]
    rfl

theorem wdStmt_safe {cwd : Bytes} (hc : Absolute cwd) {isDir : Bytes → Bool} {incDir : Option Bytes} (hd : ∀ n, incDir = some n → WdDirs isDir cwd n) {d : Bytes} {u : Nat → Nat} {s : WdSt} (h : WdSafe cwd incDir d u s)
    (o : WdStmt) (h1 : ∀ n, o = .includeDir n → s.inc ≠ none ∧ WdDirs isDir cwd n) (h2 : ∀ n, o = .cert n → Absolute n) :
    ∃ r s', wdStmt isDir incDir s o = .ok (r, s') ∧ WdSafe cwd incDir (wdNext cwd d o) u s' ∧ (s.inc ≠ none → s'.inc ≠ none) ∧
      (s'.inc ≠ none ∨ (∃ n, o = .cert n) ∨ ∃ n, o = .passwd n) := by
  cases o with
  | includeDir n =>
    obtain ⟨h3, h4⟩ := h1 n rfl
    obtain ⟨i, s', hg⟩ := wdGet_ok (name := some n) h.inv.names (isDir := isDir) (fun m e => by cases e; exact h4)
    obtain ⟨h5, h6, w0, h7, _⟩ := wdGet_spec hc h.inv.names hg
    cases hk : s'.inc with
    | none => exact absurd (h6.inc.symm.trans hk) h3
    | some k =>
      have hks := h6.inc.symm.trans hk
      obtain ⟨w, hw⟩ : ∃ w, s'.wds[k]? = some w := ⟨_, List.getElem?_eq_getElem (h5.bound k hk)⟩
      obtain ⟨h8, h9⟩ := h6.live h k w hw
      rw [if_pos hks] at h9
      have hne : w.refs ≠ 0 := by split at h9 <;> omega
      have he : wdStmt isDir incDir s (.includeDir n) = .ok (none, { s' with inc := some i }) := by
        show (wdIncludeDir isDir n s).bind _ = _
        unfold wdIncludeDir
        rw [hg]
        show (match s'.inc with | none => _ | some i => _ : WdRes _).bind _ = _
        rw [hk]
        dsimp only
        unfold wdFree wdDeref
        rw [hw]
        dsimp only
        rw [if_neg (by rw [h8]; exact nofun)]
        show (WdRes.bind (.ok (if w.refs = 0 then _ else s')) _).bind _ = _
        rw [if_neg hne]
        rfl
      refine ⟨_, _, he, ⟨(wdStmt_spec hc h.inv he).2, fun j w hw => ?_, fun j hj => h.out j (Nat.le_trans h6.ext.len hj)⟩, fun _ => nofun, Or.inl nofun⟩
      obtain ⟨h3, h4⟩ := h6.live h j w hw
      refine ⟨h3, ?_⟩
      show ((if some i = some j then 1 else 0) + u j : Int) ≤ _
      by_cases hij : j = i
      · subst hij
        simp at h4 ⊢
        split at h4 <;> omega
      · rw [if_neg (fun e => hij (Option.some.inj e).symm)]
        simp [hij] at h4
        split at h4 <;> omega
  | «include» n =>
    obtain ⟨f, s', h3, h4, h5⟩ := wdPush_safe hc hd h n
    exact ⟨some f.2, s', by show (wdPush isDir incDir n s).bind _ = _; rw [h3]; rfl, h4, fun _ => h5, Or.inl h5⟩
  | file n =>
    obtain ⟨f, s', h3, h4, h5⟩ := wdOpenInc_safe hc hd h n
    exact ⟨some f, s', by show (wdOpenInc isDir incDir n s).bind _ = _; rw [h3]; rfl, h4, fun _ => h5, Or.inl h5⟩
  | cert n =>
    refine ⟨some (wdAbs s.cwd s.root n), s, ?_, h, id, Or.inr (Or.inl ⟨n, rfl⟩)⟩
    show (wdResolve isDir incDir n s).bind _ = _
    unfold wdResolve
    rw [if_pos (show n.head? = some ch%'/' from h2 n rfl)]
    rfl
  | passwd n => exact ⟨none, s, rfl, h, id, Or.inr (Or.inr ⟨n, rfl⟩)⟩

theorem wdStmts_safe {cwd : Bytes} (hc : Absolute cwd) {isDir : Bytes → Bool} {incDir : Option Bytes} (hd : ∀ n, incDir = some n → WdDirs isDir cwd n) (l : List WdStmt) {d : Bytes} {u : Nat → Nat} {s : WdSt}
    (h : WdSafe cwd incDir d u s) (h0 : FileFirst l ∨ s.inc ≠ none) (h1 : ∀ n, .includeDir n ∈ l → WdDirs isDir cwd n) (h2 : CertsAbsolute l) :
    ∃ r s', wdStmts isDir incDir l s = .ok (r, s') ∧ WdSafe cwd incDir (lastDir cwd d l) u s' := by
  induction l generalizing d s with
  | nil => exact ⟨[], s, rfl, h⟩
  | cons o t ih =>
    obtain ⟨r, s', h3, h4, h5, h6⟩ := wdStmt_safe hc hd h o
      (fun n e => ⟨by
        subst e
        rcases h0 with h0 | h0
        · exact h0.elim
        · exact h0, h1 n (by rw [e]; exact List.mem_cons_self)⟩)
      (fun n e => h2 n (by rw [e]; exact List.mem_cons_self))
    have h7 : FileFirst t ∨ s'.inc ≠ none := by
      rcases h0 with h0 | h0
      · rcases h6 with h6 | ⟨n, rfl⟩ | ⟨n, rfl⟩
        · exact Or.inr h6
        · exact Or.inl h0
        · exact Or.inl h0
      · exact Or.inr (h5 h0)
    obtain ⟨r', s'', h8, h9⟩ := ih h4 h7 (fun n hn => h1 n (List.mem_cons_of_mem _ hn)) (fun n hn => h2 n (List.mem_cons_of_mem _ hn))
    refine ⟨r :: r', s'', ?_, by rw [lastDir_cons]; exact h9⟩
    show (wdStmt isDir incDir s o).bind _ = _
    rw [h3]
    show (wdStmts isDir incDir t s').bind _ = _
    rw [h8]
    rfl

/-- Password files can be set up, each with a reference to its directory. -/
theorem wdFixup_safe {cwd : Bytes} (hc : Absolute cwd) {isDir : Bytes → Bool} {incDir : Option Bytes} (hd : ∀ n, incDir = some n → WdDirs isDir cwd n) {d : Bytes} {u : Nat → Nat} {s : WdSt} {jail : Bool}
    (h : WdSafe cwd incDir d u s) (n : Bytes) (hn : jail = true → Absolute n → WdDirs isDir cwd (wdSplit n).1) :
    ∃ p s' u', wdFixup isDir incDir jail n s = .ok (p, s') ∧ WdSafe cwd incDir d u' s' ∧ (∀ j, u j ≤ u' j) ∧ ∀ i, p.wd = some i → 1 ≤ u' i := by
  by_cases ha : Absolute n
  · cases jail with
    | true =>
      obtain ⟨i, s', hg⟩ := wdGet_ok (name := some (wdSplit n).1) h.inv.names (isDir := isDir) (fun m e => by cases e; exact hn rfl ha)
      obtain ⟨h5, h6, w0, h7, _⟩ := wdGet_spec hc h.inv.names hg
      refine ⟨⟨some i, (wdSplit n).2⟩, s', fun j => u j + if j = i then 1 else 0, ?_, ⟨h6.inv h.inv h5, fun j w hw => ?_, fun j hj => ?_⟩, fun j => Nat.le_add_right _ _, fun k hk => ?_⟩
      · unfold wdFixup
        rw [if_pos (show n.head? = some ch%'/' from ha), if_pos rfl, hg]
        rfl
      · obtain ⟨h3, h4⟩ := h6.live h j w hw
        refine ⟨h3, ?_⟩
        rw [h6.inc]
        refine Int.le_trans ?_ h4
        split <;> split <;> simp <;> omega
      · have := (List.getElem?_eq_some_iff.1 h7).1
        show u j + (if j = i then 1 else 0) = 0
        rw [h.out j (Nat.le_trans h6.ext.len hj), if_neg (by omega)]
      · cases hk; simp
    | false =>
      refine ⟨⟨none, n⟩, s, u, ?_, h, fun _ => Nat.le_refl _, nofun⟩
      unfold wdFixup
      rw [if_pos (show n.head? = some ch%'/' from ha), if_neg nofun]
  · obtain ⟨i, s', h1, h2, h3⟩ := wdInc_safe hc hd h
    obtain ⟨w, h4, h5⟩ := wdDeref_safe h2 (h2.inv.names.bound i h3)
    have he : wdFixup isDir incDir jail n s = .ok (⟨some i, n⟩, { s' with wds := s'.wds.modify i fun w => { w with refs := w.refs + 1 } }) := by
      unfold wdFixup
      refine (if_neg ha).trans ?_
      rw [h1]
      show (wdDeref s' i).bind _ = _
      rw [h4]
      rfl
    refine ⟨_, _, fun j => u j + if j = i then 1 else 0, he, ⟨(wdFixup_spec hc h.inv he).1, fun j w hw => ?_, fun j hj => ?_⟩, fun j => Nat.le_add_right _ _, fun k hk => ?_⟩
    · have hw : (s'.wds.modify i fun w => { w with refs := w.refs + 1 })[j]? = some w := hw
      rw [List.getElem?_modify] at hw
      obtain ⟨w0, hw0, rfl⟩ := Option.map_eq_some_iff.1 hw
      obtain ⟨h6, h7⟩ := h2.live j w0 hw0
      by_cases hij : i = j
      · subst hij
        simp only [if_true]
        refine ⟨h6, ?_⟩
        simp at h7 ⊢
        omega
      · rw [if_neg hij]
        refine ⟨h6, ?_⟩
        simp [Ne.symm hij] at h7 ⊢
        exact h7
    · have hj : (s'.wds.modify i fun w => { w with refs := w.refs + 1 }).length ≤ j := hj
      rw [List.length_modify] at hj
      have := h2.inv.names.bound i h3
      show u j + (if j = i then 1 else 0) = 0
      rw [h2.out j hj, if_neg (by omega)]
    · cases hk; simp

theorem wdFixups_safe {cwd : Bytes} (hc : Absolute cwd) {isDir : Bytes → Bool} {incDir : Option Bytes} (hd : ∀ n, incDir = some n → WdDirs isDir cwd n) {d : Bytes} {jail : Bool} (l : List Bytes)
    (hn : jail = true → ∀ n ∈ l, Absolute n → WdDirs isDir cwd (wdSplit n).1) {u : Nat → Nat} {s : WdSt} (h : WdSafe cwd incDir d u s) :
    ∃ ps s' u', wdFixups isDir incDir jail l s = .ok (ps, s') ∧ WdSafe cwd incDir d u' s' ∧ (∀ j, u j ≤ u' j) ∧ ∀ p ∈ ps, ∀ i, p.wd = some i → 1 ≤ u' i := by
  induction l generalizing u s with
  | nil => exact ⟨[], s, u, rfl, h, fun _ => Nat.le_refl _, nofun⟩
  | cons n t ih =>
    obtain ⟨p, s1, u1, h1, h2, h3, h4⟩ := wdFixup_safe hc hd h n (fun hj => hn hj n List.mem_cons_self)
    obtain ⟨ps, s2, u2, h5, h6, h7, h8⟩ := ih (fun hj m hm => hn hj m (List.mem_cons_of_mem _ hm)) h2
    refine ⟨p :: ps, s2, u2, ?_, h6, fun j => Nat.le_trans (h3 j) (h7 j), fun q hq i hi => ?_⟩
    · show (wdFixup isDir incDir jail n s).bind _ = _
      rw [h1]
      show (wdFixups isDir incDir jail t s1).bind _ = _
      rw [h5]
      rfl
    · rcases List.mem_cons.1 hq with rfl | hq
      · exact Nat.le_trans (h4 i hi) (h7 i)
      · exact h8 q hq i hi

theorem wdClean_live {keep : Bool} {c : Bytes} {w : Wd} (h : w.freed = false) (hr : w.refs ≠ 0) : (wdClean keep c w).freed = false := by
  unfold wdClean
  rw [if_neg (by rw [h]; exact nofun), if_neg hr]
  split <;> exact h

theorem wdFinish_safe {cwd : Bytes} {incDir : Option Bytes} {d : Bytes} {u : Nat → Nat} {s : WdSt} (h : WdSafe cwd incDir d u s) (keep : Bool) :
    ∃ s', wdFinish keep s = .ok s' ∧ ∀ p : WdPw, (∀ i, p.wd = some i → 1 ≤ u i) → WdLive s' p := by
  have hin : ∀ {j}, 1 ≤ u j → j < s.wds.length := fun {j} hj => by
    rcases Nat.lt_or_ge j s.wds.length with h1 | h1
    · exact h1
    · rw [h.out j h1] at hj; omega
  unfold wdFinish
  cases hi : s.inc with
  | none =>
    refine ⟨_, rfl, fun p hp i hpi => ?_⟩
    have hpi : (p.wd.orElse fun _ => (none : Option Nat)) = some i := hpi
    cases hw : p.wd with
    | none => rw [hw] at hpi; cases hpi
    | some k =>
      rw [hw] at hpi
      cases hpi
      have h1 := List.getElem?_eq_getElem (hin (hp i hw))
      obtain ⟨h2, h3⟩ := h.live i _ h1
      refine ⟨_, by show (s.wds.map _)[i]? = _; rw [List.getElem?_map, h1]; rfl, wdClean_live h2 ?_⟩
      have := hp i hw
      split at h3 <;> omega
  | some k =>
    obtain ⟨w, h4, h5⟩ := wdDeref_safe h (h.inv.names.bound k hi)
    obtain ⟨h6, h7⟩ := h.live k w h5
    dsimp only
    have h8 : wdUnref k s = .ok { s with wds := s.wds.modify k fun w => { w with refs := w.refs - 1 } } := by
      unfold wdUnref
      rw [h4]
      rfl
    have h9 : (s.wds.modify k fun w => { w with refs := w.refs - 1 })[k]? = some { w with refs := w.refs - 1 } := by
      rw [List.getElem?_modify, h5]
      simp
    have h10 : wdDeref { s with wds := s.wds.modify k fun w => { w with refs := w.refs - 1 } } k = .ok { w with refs := w.refs - 1 } := by
      unfold wdDeref
      rw [h9]
      dsimp only
      rw [if_neg (by rw [h6]; exact nofun)]
    refine ⟨{ s with wds := (s.wds.modify k fun w => { w with refs := w.refs - 1 }).map (wdClean keep s.cwd), inc := if w.refs - 1 = 0 then none else some k }, ?_, ?_⟩
    · rw [h8]
      show (wdDeref _ k).bind _ = _
      rw [h10]
      rfl
    · intro p hp i hpi
      have hpi : (p.wd.orElse fun _ => if w.refs - 1 = 0 then none else some k) = some i := hpi
      have key : ∀ w1, (s.wds.modify k fun w => { w with refs := w.refs - 1 })[i]? = some w1 → w1.freed = false → w1.refs ≠ 0 →
          ∃ w', ((s.wds.modify k fun w => { w with refs := w.refs - 1 }).map (wdClean keep s.cwd))[i]? = some w' ∧ w'.freed = false := fun w1 e1 e2 e3 =>
        ⟨_, by rw [List.getElem?_map, e1]; rfl, wdClean_live e2 e3⟩
      cases hw : p.wd with
      | none =>
        rw [hw] at hpi
        have hpi : (if w.refs - 1 = 0 then none else some k) = some i := hpi
        split at hpi
        · cases hpi
        · rename_i hr
          cases hpi
          exact key _ h9 h6 hr
      | some j =>
        rw [hw] at hpi
        cases hpi
        obtain ⟨w2, h1⟩ : ∃ w2, s.wds[i]? = some w2 := ⟨_, List.getElem?_eq_getElem (hin (hp i hw))⟩
        obtain ⟨h2, h3⟩ := h.live i _ h1
        have := hp i hw
        by_cases hik : k = i
        · subst hik
          rw [h5] at h1
          have h1 := Option.some.inj h1
          refine key _ h9 h6 ?_
          rw [if_pos hi] at h7
          show w.refs - 1 ≠ 0
          omega
        · refine key w2 ?_ h2 ?_
          · rw [List.getElem?_modify, h1]
            simp [hik]
          · split at h3 <;> omega

theorem wdSplit_eq {d b : Bytes} (h : ch%'/' ∉ b) : wdSplit (d ++ ch%'/' :: b) = (d, b) := by
  have h1 : ∀ (x y : Bytes), ch%'/' ∉ x → (x ++ ch%'/' :: y).dropWhile (· ≠ ch%'/') = ch%'/' :: y ∧ (x ++ ch%'/' :: y).takeWhile (· ≠ ch%'/') = x := by
    intro x y hx
    induction x with
    | nil => simp [List.dropWhile, List.takeWhile]
    | cons a t ih =>
      have ha : a ≠ ch%'/' := fun e => hx (by rw [e]; exact List.mem_cons_self)
      obtain ⟨h2, h3⟩ := ih fun hm => hx (List.mem_cons_of_mem _ hm)
      rw [List.cons_append, List.dropWhile_cons_of_pos (by simpa using ha), List.takeWhile_cons_of_pos (by simpa using ha), h2, h3]
      exact ⟨rfl, rfl⟩
  unfold wdSplit
  have h2 : (d ++ ch%'/' :: b).reverse = b.reverse ++ ch%'/' :: d.reverse := by simp
  rw [h2, (h1 _ _ (fun hm => h (List.mem_reverse.1 hm))).1, (h1 _ _ (fun hm => h (List.mem_reverse.1 hm))).2]
  simp

theorem mem_passwds {n : Bytes} {l : List WdStmt} (h : n ∈ passwds l) : .passwd n ∈ l := by
  unfold passwds at h
  obtain ⟨o, h1, h2⟩ := List.mem_filterMap.1 h
  cases o with
  | passwd m => cases h2; exact h1
  | _ => cases h2

theorem wdConfig_safe {cwd : Bytes} (hc : Absolute cwd) {isDir : Bytes → Bool} {incDir : Option Bytes} (main : Bytes) {stmts : List WdStmt} {jail : Option Bytes} (daemon : Bool)
    (hd : DirsExist isDir cwd incDir stmts jail.isSome) (hcert : CertsAbsolute stmts) (hff : FileFirst stmts) :
    ∃ m fs ps s, wdConfig isDir incDir main stmts jail daemon cwd = .ok ((m, fs, ps), s) ∧
      ∀ x ∈ ps.zip (passwds stmts), wdPassFile s x.1 = .ok (inDir (lastDir cwd (startDir cwd incDir) stmts) x.2) := by
  have hd1 : ∀ n, incDir = some n → WdDirs isDir cwd n := fun n e => hd.1 n (Or.inl e)
  have h0 : WdSafe cwd incDir (startDir cwd incDir) (fun _ => 0) ⟨[⟨cwd, 0, .cwd, false⟩], none, cwd, []⟩ := by
    refine ⟨wdStart_inv hc incDir, fun j w hw => ?_, fun _ _ => rfl⟩
    have hw : w ∈ [(⟨cwd, 0, .cwd, false⟩ : Wd)] := List.mem_of_getElem? hw
    rw [List.mem_singleton] at hw
    subst hw
    exact ⟨rfl, by simp⟩
  obtain ⟨fs, s1, h1, h2⟩ := wdStmts_safe hc hd1 stmts h0 (Or.inl hff) (fun n hn => hd.1 n (Or.inr hn)) hcert
  obtain ⟨ps, s2, u, h3, h4, _, h5⟩ := wdFixups_safe hc hd1 (jail := jail.isSome) (wdPasswds stmts) (fun hj n hn ha => by
    rw [wdPasswds_eq] at hn
    obtain ⟨d, b, e, hb, hda, hdd⟩ := hd.2 hj n (mem_passwds hn) ha
    rw [e, wdSplit_eq hb]
    exact ⟨fun e => (by have e : d = [] := e; subst e; cases hda), by rw [inDir_abs hda]; exact hdd⟩) h2
  obtain ⟨s3, h6, h7⟩ := wdFinish_safe h4 (jail.isSome || daemon)
  refine ⟨inDir cwd main, fs, ps, wdLeave jail daemon s3, ?_, fun x hx => ?_⟩
  · unfold wdConfig
    rw [wdOpenMain_eq]
    show (wdStmts _ _ _ _).bind _ = _
    rw [h1]
    show (wdFixups _ _ _ _ _).bind _ = _
    rw [h3]
    show (wdFinish _ _).bind _ = _
    rw [h6]
    rfl
  · obtain ⟨_, _, _, h11⟩ := wdFixups_spec hc _ h2.inv h3
    rw [wdPasswds_eq] at h11
    obtain ⟨h12, h13⟩ := wdPassFile_spec hc h4.inv h6 (h11 x hx)
    exact h12.resolve_left (h13 (h7 x.1 (h5 x.1 (List.of_mem_zip hx).1)))

end Pound
