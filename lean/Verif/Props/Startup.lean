import Verif.Proof.Startup

/-! C89: starting and leaving -/

namespace Pound.Props

open Pound Spec

/-- Examples: the process of the superuser, in directory /home, with standard descriptors open -/
def c89p : SuProc := ⟨⟨0, 0, 0, 0, 0, 0, [0]⟩, 18, b!"/home", [], 100, [some (.other 0), some (.other 1), some (.other 2)], [], [], []⟩

/-- A listener for port 80, and a control socket -/
def c89c : SuCfg := ⟨[⟨false, 2, [], 0, false⟩, ⟨false, 1, b!"/run/pound.ctl", 384, true⟩], some b!"www", some b!"web", true, some b!"/var/jail", some b!"/run/pound.pid", some (b!"/run/pound.ctl", true)⟩

def c89e : SuEnv :=
  ⟨fun n => if n = b!"www" then some 33 else none, fun n => if n = b!"web" then some 34 else none, fun _ => true, fun _ u => u == 0, fun _ => true, fun _ => true, some 101, true, true, true, fun _ => true, fun _ => true,
    true, true, true⟩

theorem c89_run : suMain c89e c89c c89p = some ⟨⟨33, 33, 33, 34, 34, 34, [0]⟩, 63, b!"/var/jail", b!"/var/jail", 101, [some .null, some .null, some .null, some .dir, some (.sock 0 true), some (.sock 1 true), some .dir], [4, 5],
    [.loc b!"/run" b!"pound.pid", .loc b!"/run" b!"pound.ctl"],
    [.bind 0 0 none, .unlink b!"/run/pound.ctl", .bind 1 0 (some (b!"/run/pound.ctl", 384)), .chown b!"/run/pound.ctl" (some 33) (some 34), .write b!"/run/pound.pid" 101 384]⟩ := by
  decide +kernel

theorem c89_fresh : Fresh c89p := ⟨rfl, rfl, rfl⟩

/-- Requests are served as the user and group of the configuration file, if they are given; all identifiers of the process are changed if it was started by the superuser. -/
theorem C89_user (e : SuEnv) (c : SuCfg) (p0 p : SuProc) (h : suMain e c p0 = some p) (hf : Fresh p0) :
    (∀ n, c.user = some n → ∃ u, e.getpw n = some u ∧ p.cred.euid = u ∧ (p0.cred.euid = 0 → p.cred.ruid = u ∧ p.cred.suid = u)) ∧
      (∀ n, c.group = some n → ∃ g, e.getgr n = some g ∧ p.cred.egid = g ∧ (p0.cred.euid = 0 → p.cred.rgid = g ∧ p.cred.sgid = g)) ∧
      (c.user = none → p.cred.euid = p0.cred.euid) ∧ (c.group = none → p.cred.egid = p0.cred.egid) := by
  obtain ⟨user, group, h1, h2, h3, _⟩ := (suMain_ok h hf).names
  obtain ⟨g1, g2, g3, g4, _⟩ := suCred_user h3
  refine ⟨fun n hn => ?_, fun n hn => ?_, fun hn => ?_, fun hn => ?_⟩
  · rw [hn] at h1
    obtain ⟨u, e1, e2⟩ := Option.map_eq_some_iff.1 h1
    exact ⟨u, e1, g1 u e2.symm⟩
  · rw [hn] at h2
    obtain ⟨u, e1, e2⟩ := Option.map_eq_some_iff.1 h2
    exact ⟨u, e1, g3 u e2.symm⟩
  · rw [hn] at h1
    exact (g2 (Option.some.inj h1).symm).2.1
  · rw [hn] at h2
    exact (g4 (Option.some.inj h2).symm).2.1

/-- Privileges are given up for good: if the process was started by the superuser and the user of the configuration is another one, no sequence of attempts to change the user makes it the superuser again. -/
theorem C89_regain (e : SuEnv) (c : SuCfg) (p0 p : SuProc) (h : suMain e c p0 = some p) (hf : Fresh p0) (hr : p0.cred.euid = 0) (n : Bytes) (u : Nat) (hn : c.user = some n) (hu : e.getpw n = some u) (h0 : u ≠ 0)
    (l : List (Bool × Nat)) : (attempts l p.cred).euid ≠ 0 := by
  obtain ⟨u', e1, e2, e3⟩ := (C89_user e c p0 p h hf).1 n hn
  rw [hu] at e1
  cases e1
  rw [(attempts_ne l p.cred u ⟨(e3 hr).1, e2, (e3 hr).2⟩ h0).2.1]
  exact h0

/-- Supplementary groups are kept, however: a server that was started by the superuser still has the access rights of the group with number 0. -/
theorem C89_groups_fails : ∃ e c p0 p, suMain e c p0 = some p ∧ Fresh p0 ∧ c.user.isSome ∧ c.group.isSome ∧ p.cred.egid ≠ 0 ∧ 0 ∈ p.cred.groups := ⟨c89e, c89c, c89p, _, c89_run, c89_fresh, rfl, rfl, by decide, by decide⟩

/-- Whatever the configuration, supplementary groups are those of the start. -/
theorem C89_groups (e : SuEnv) (c : SuCfg) (p0 p : SuProc) (h : suMain e c p0 = some p) (hf : Fresh p0) : p.cred.groups = p0.cred.groups := by
  obtain ⟨user, group, h1, h2, h3, _⟩ := (suMain_ok h hf).names
  exact (suCred_user h3).2.2.2.2

/-- Listeners are bound with the privileges of the start, and only then are these given up. The file of a UNIX socket has the mode that was configured; its owner is changed if so configured. -/
theorem C89_bind (e : SuEnv) (c : SuCfg) (p0 p : SuProc) (h : suMain e c p0 = some p) (hf : Fresh p0) :
    (∀ (i : Nat) (l : SuLst), c.listeners[i]? = some l → l.fromSock = false →
      .bind i p0.cred.euid (if l.family = 1 then some (located p0.cwd p0.root l.path, l.mode % 512) else none) ∈ p.ev) ∧
    (∀ i u f, .bind i u f ∈ p.ev → u = p0.cred.euid) ∧
    (∀ (i : Nat) (l : SuLst), c.listeners[i]? = some l → l.fromSock = false → l.family = 1 → l.chown = true →
      .chown (located p0.cwd p0.root l.path) (c.user.bind e.getpw) (c.group.bind e.getgr) ∈ p.ev) := by
  obtain ⟨user, group, h1, h2, h3, t, h4, h5, h6, h7⟩ := (suMain_ok h hf).names
  have hl : ∀ {get : Bytes → Option Nat} {n : Option Bytes} {o : Option Nat}, suLookup get n = some o → o = n.bind get := fun {get n o} h => by
    cases n with
    | none => cases h; rfl
    | some n =>
      obtain ⟨u, e1, e2⟩ := Option.map_eq_some_iff.1 h
      rw [← e2, Option.bind_some, e1]
  rw [hl h1, hl h2] at h6
  rw [h4]
  refine ⟨fun i l hi hfs => List.mem_append_left _ (h6 i l hi hfs).1, fun i u f hx => ?_, fun i l hi hfs hfam hch => List.mem_append_left _ ((h6 i l hi hfs).2 hfam hch)⟩
  rcases List.mem_append.1 hx with hx | hx
  · exact h7 _ hx i u f rfl
  · split at hx
    · split at hx
      · cases List.mem_singleton.1 hx
      · cases hx
    · cases hx

/-- The mask for new files is 077 when requests are served, whatever the modes of UNIX sockets. -/
theorem C89_umask (e : SuEnv) (c : SuCfg) (p0 p : SuProc) (h : suMain e c p0 = some p) (hf : Fresh p0) : p.umask = 63 := (suMain_ok h hf).umask

/-- In the background, standard input, output and error are /dev/null, whatever was open. -/
theorem C89_std (e : SuEnv) (c : SuCfg) (p0 p : SuProc) (h : suMain e c p0 = some p) (hf : Fresh p0) (hd : c.daemon = true) (k : Nat) (hk : k < 3) : p.fds[k]? = some (some .null) := (suMain_ok h hf).std hd k hk

/-- Each listener has a listening socket of its own when requests are served, if the program stays in the foreground or standard descriptors were open when it was started. -/
theorem C89_sockets_partial (e : SuEnv) (c : SuCfg) (p0 p : SuProc) (h : suMain e c p0 = some p) (hf : Fresh p0) (hs : c.daemon = false ∨ StdOpen p0) (i : Nat) (hi : i < c.listeners.length) : HasSocket p i :=
  (suMain_ok h hf).socks hs i hi

example : StdOpen c89p := fun k hk => by
  match k, hk with
  | 0, _ => exact ⟨_, rfl⟩
  | 1, _ => exact ⟨_, rfl⟩
  | 2, _ => exact ⟨_, rfl⟩

/-- If they were closed, the sockets of the listeners take their place and are closed on the way to the background. -/
theorem C89_sockets_fails : ∃ e c p0 p, suMain e c p0 = some p ∧ Fresh p0 ∧ ∃ i, i < c.listeners.length ∧ ¬ HasSocket p i := by
  refine ⟨c89e, ⟨[⟨false, 2, [], 0, false⟩], none, none, true, none, none, none⟩, { c89p with fds := [] },
    { c89p with umask := 63, fds := [some .null, some .null, some .null], cwd := [], pid := 101, socks := [0], ev := [.bind 0 0 none] }, by decide +kernel, ⟨rfl, rfl, rfl⟩, 0, by decide, ?_⟩
  rintro ⟨fd, h1, h2⟩
  cases h1
  cases h2

/-- The program runs in its jail, if one is configured, and its current directory is the root of it; without jail, that of the background is the root directory. -/
theorem C89_jail (e : SuEnv) (c : SuCfg) (p0 p : SuProc) (h : suMain e c p0 = some p) (hf : Fresh p0) :
    (∀ j, c.jail = some j → p.root = located (workCwd c p0) p0.root j ∧ p.cwd = p.root) ∧ (c.jail = none → p.root = p0.root ∧ p.cwd = workCwd c p0) := by
  have := (suMain_ok h hf).dirs
  refine ⟨fun j hj => ?_, fun hj => ?_⟩ <;> rw [hj] at this <;> exact this

/-- The file for the process identifier has that of the process which goes on to serve requests (or to supervise those that do), and only its owner may read it; it is made in the current directory of that process. -/
theorem C89_pid (e : SuEnv) (c : SuCfg) (p0 p : SuProc) (h : suMain e c p0 = some p) (hf : Fresh p0) :
    (∀ n, c.pidfile = some n → e.create (located (workCwd c p0) p0.root n) = true → .write (located (workCwd c p0) p0.root n) p.pid 384 ∈ p.ev) ∧
      ∀ f k m, .write f k m ∈ p.ev → ∃ n, c.pidfile = some n ∧ f = located (workCwd c p0) p0.root n ∧ k = p.pid ∧ m = 384 := by
  obtain ⟨user, group, h1, h2, h3, t, h4, h5, h6, h7⟩ := (suMain_ok h hf).names
  rw [h4]
  refine ⟨fun n hn hc => List.mem_append_right _ ?_, fun f k m hx => ?_⟩
  · rw [hn]
    dsimp only
    rw [if_pos (show e.create (wdAbs _ _ _) = true from hc)]
    exact List.mem_singleton.2 rfl
  · rcases List.mem_append.1 hx with hx | hx
    · exact absurd rfl (h5 _ hx f k m)
    · split at hx
      · rename_i n hn
        split at hx
        · cases List.mem_singleton.1 hx
          exact ⟨n, hn, rfl, rfl, rfl⟩
        · cases hx
      · cases hx

/-- At the end, the file for the process identifier and the control socket are removed, and nothing else is, if they can be kept: in a jail, RootJail has to come before the control socket, and neither file may be in the
root directory; otherwise, the name of the control socket has to be absolute if the program goes into the background. -/
theorem C89_removed_partial (e : SuEnv) (c : SuCfg) (p0 p : SuProc) (h : suMain e c p0 = some p) (hf : Fresh p0) (hk : ∀ n j, c.control = some (n, j) → ControlKept e c p0 n j) :
    (∀ n, c.pidfile = some n → e.create (located (workCwd c p0) p0.root n) = true → (c.jail.isSome = true → Keepable e (workCwd c p0) p0.root n) → located (workCwd c p0) p0.root n ∈ suCleanup p) ∧
      (∀ n j, c.control = some (n, j) → located p0.cwd p0.root n ∈ suCleanup p) ∧
      ∀ f ∈ suCleanup p, (∃ n, c.pidfile = some n ∧ .write f p.pid 384 ∈ p.ev) ∨ ∃ n j, c.control = some (n, j) ∧ f = located p0.cwd p0.root n := by
  have hd := suMain_ok h hf
  have hp := C89_pid e c p0 p h hf
  have hx := hd.exits
  have hdirs := hd.dirs
  rw [suCleanup_eq, hx]
  -- the two parts
  have h1 : ∀ n, c.pidfile = some n → ∀ x ∈ suKept e c.jail.isSome n (workCwd c p0) p0.root, suTarget p.cwd p.root x = located (workCwd c p0) p0.root n := by
    intro n _ x hx
    cases hj : c.jail with
    | none =>
      rw [hj] at hx hdirs
      cases List.mem_singleton.1 (show x ∈ [.name n] from hx)
      show wdAbs p.cwd p.root n = _
      rw [hdirs.1, hdirs.2]
      rfl
    | some j =>
      rw [hj] at hx
      exact suKept_jail hx _ _
  have h2 : ∀ n j, c.control = some (n, j) → ∀ x ∈ suKept e (c.jail.isSome && j) n p0.cwd p0.root, suTarget p.cwd p.root x = located p0.cwd p0.root n := by
    intro n j hc x hx
    have hk := hk n j hc
    unfold ControlKept at hk
    cases hj : c.jail with
    | none =>
      rw [hj] at hx hdirs hk
      rw [if_neg nofun] at hk
      cases List.mem_singleton.1 (show x ∈ [.name n] from hx)
      show wdAbs p.cwd p.root n = _
      rw [hdirs.1, hdirs.2]
      rcases hk with hk | hk
      · unfold wdAbs located; rw [if_pos hk, if_pos hk]
      · unfold workCwd; rw [hk]; rfl
    | some r =>
      rw [hj, if_pos (by rfl)] at hk
      rw [hj, hk.1] at hx
      exact suKept_jail hx _ _
  refine ⟨fun n hn hc hkp => ?_, fun n j hc => ?_, fun f hfm => ?_⟩
  · rw [hn]
    dsimp only
    rw [if_pos (show e.create (wdAbs _ _ _) = true from hc)]
    have : ∃ x, x ∈ suKept e c.jail.isSome n (workCwd c p0) p0.root := by
      cases hj : c.jail with
      | none => exact ⟨.name n, List.mem_singleton.2 rfl⟩
      | some r => exact suKept_some (hkp (by rw [hj]; rfl))
    obtain ⟨x, hx⟩ := this
    exact List.mem_map.2 ⟨x, List.mem_append_left _ hx, h1 n hn x hx⟩
  · have : ∃ x, x ∈ suKept e (c.jail.isSome && j) n p0.cwd p0.root := by
      have hk := hk n j hc
      unfold ControlKept at hk
      cases hj : c.jail with
      | none => exact ⟨.name n, List.mem_singleton.2 rfl⟩
      | some r =>
        rw [hj, if_pos (by rfl)] at hk
        rw [hk.1]
        exact suKept_some hk.2
    obtain ⟨x, hx⟩ := this
    rw [hc]
    exact List.mem_map.2 ⟨x, List.mem_append_right _ hx, h2 n j hc x hx⟩
  · obtain ⟨x, hx, e1⟩ := List.mem_map.1 hfm
    rcases List.mem_append.1 hx with hx | hx
    · split at hx
      · rename_i n hn
        split at hx
        · rename_i hc
          left
          refine ⟨n, hn, ?_⟩
          rw [← e1, h1 n hn x hx]
          exact hp.1 n hn hc
        · cases hx
      · cases hx
    · split at hx
      · rename_i n j hc
        right
        exact ⟨n, j, hc, by rw [← e1, h2 n j hc x hx]⟩
      · cases hx

example : ∀ n j, c89c.control = some (n, j) → ControlKept c89e c89c c89p n j := by
  intro n j h
  cases h
  exact ⟨rfl, Or.inr ⟨b!"/run", b!"pound.ctl", rfl, by decide, by decide, rfl⟩⟩

/-- A control socket with a relative name is not removed by a server in the background: a file of the root directory is removed instead. -/
theorem C89_control_fails : ∃ e c p0 p n, suMain e c p0 = some p ∧ Fresh p0 ∧ c.jail = none ∧ c.control = some (n, true) ∧ located p0.cwd p0.root n ∉ suCleanup p ∧ located p0.root p0.root n ∈ suCleanup p :=
  ⟨c89e, ⟨[⟨false, 1, b!"ctl", 384, false⟩], none, none, true, none, none, some (b!"ctl", true)⟩, c89p,
    { c89p with umask := 63, fds := [some .null, some .null, some .null, some (.sock 0 true)], cwd := [], pid := 101, socks := [3], exits := [.name b!"ctl"], ev := [.unlink b!"/home/ctl", .bind 0 0 (some (b!"/home/ctl", 384))] },
    b!"ctl", by decide +kernel, c89_fresh, rfl, rfl, by decide +kernel, by decide +kernel⟩

/-- Nor is one that is named before RootJail: a file in the jail is removed instead. -/
theorem C89_order_fails : ∃ e c p0 p n, suMain e c p0 = some p ∧ Fresh p0 ∧ c.control = some (n, false) ∧ n.head? = some ch%'/' ∧ located p0.cwd p0.root n ∉ suCleanup p ∧ p.root ++ n ∈ suCleanup p :=
  ⟨c89e, ⟨[], none, none, false, some b!"/var/jail", none, some (b!"/ctl", false)⟩, c89p, { c89p with umask := 63, cwd := b!"/var/jail", root := b!"/var/jail", exits := [.name b!"/ctl"] }, b!"/ctl", by decide +kernel, c89_fresh, rfl,
    rfl, by decide +kernel, by decide +kernel⟩

/-- Nor is a file for the process identifier in the root directory, with RootJail. -/
theorem C89_rootdir_fails : ∃ e c p0 p n, suMain e c p0 = some p ∧ Fresh p0 ∧ c.pidfile = some n ∧ .write (located p0.cwd p0.root n) p.pid 384 ∈ p.ev ∧ suCleanup p = [] :=
  ⟨c89e, ⟨[], none, none, false, some b!"/var/jail", some b!"/pound.pid", none⟩, c89p, { c89p with umask := 63, cwd := b!"/var/jail", root := b!"/var/jail", ev := [.write b!"/pound.pid" 100 384] }, b!"/pound.pid", by decide +kernel,
    c89_fresh, rfl, by decide +kernel, by decide +kernel⟩

/-- Started by the superuser, the program gets to serve requests if names are known and calls succeed: giving up the group first leaves the right to give up the user. -/
theorem C89_starts (e : SuEnv) (c : SuCfg) (p0 : SuProc) (h : AllWell e c) (hr : p0.cred.euid = 0) : ∃ p, suMain e c p0 = some p := suMain_some h hr

example : AllWell c89e c89c := by
  refine ⟨fun n h => ?_, fun n h => ?_, ?_, fun i => ⟨rfl, rfl, rfl, rfl⟩, ⟨rfl, rfl, rfl, rfl⟩, ⟨rfl, rfl⟩, rfl⟩
  · cases h; exact ⟨33, rfl⟩
  · cases h; exact ⟨34, rfl⟩
  · show ∀ l ∈ c89c.listeners, _
    unfold c89c
    simp

/-- A user or group that is not known ends the program. -/
theorem C89_unknown (e : SuEnv) (c : SuCfg) (p0 : SuProc) (h : (∃ n, c.user = some n ∧ e.getpw n = none) ∨ ∃ n, c.group = some n ∧ e.getgr n = none) : suMain e c p0 = none := by
  unfold suMain
  rcases h with ⟨n, h1, h2⟩ | ⟨n, h1, h2⟩
  · rw [h1]
    unfold suLookup
    dsimp only
    rw [h2]
    rfl
  · rw [h1]
    have : suLookup e.getgr (some n) = none := by unfold suLookup; dsimp only; rw [h2]; rfl
    rw [this]
    cases suLookup e.getpw c.user <;> rfl

/-- What was opened for a listener was opened without an error. -/
theorem suListeners_calls {e : SuEnv} {user group : Option Nat} : ∀ (ls : List SuLst) (k : Nat) (p q : SuProc), suListeners e user group ls k p = some q →
    ∀ (i : Nat) (l : SuLst), ls[i]? = some l → e.socket (k + i) = true ∧ if l.fromSock then e.recv (k + i) = true else e.bind (k + i) p.cred.euid = true ∧ e.listen (k + i) = true
  | [], _, _, _, _, i, l, hl => by cases i <;> cases hl
  | x :: t, k, p, q, h, i, l, hl => by
    unfold suListeners at h
    obtain ⟨p1, h1, h2⟩ := Option.bind_eq_some_iff.1 h
    have hx : (e.socket k = true ∧ if x.fromSock then e.recv k = true else e.bind k p.cred.euid = true ∧ e.listen k = true) ∧ p1.cred = p.cred := by
      split at h1
      · rename_i hs
        unfold suFrom at h1
        split at h1
        · rename_i hc
          rw [Bool.and_eq_true] at hc
          cases h1
          rw [if_pos hs]
          exact ⟨hc, rfl⟩
        · cases h1
      · rename_i hs
        rw [if_neg hs]
        unfold suInit at h1
        split at h1
        · split at h1
          · rename_i hc
            rw [Bool.and_eq_true, Bool.and_eq_true] at hc
            cases h1
            exact ⟨⟨hc.1.1, hc.1.2, hc.2⟩, rfl⟩
          · cases h1
        · split at h1
          · dsimp only at h1
            split at h1
            · rename_i hc
              rw [Bool.and_eq_true, Bool.and_eq_true] at hc
              cases h1
              exact ⟨⟨hc.1.1, hc.1.2, hc.2⟩, rfl⟩
            · cases h1
          · cases h1
    cases i with
    | zero =>
      rw [List.getElem?_cons_zero] at hl
      cases hl
      exact hx.1
    | succ i =>
      rw [List.getElem?_cons_succ] at hl
      have := suListeners_calls t (k + 1) p1 q h2 i l hl
      rw [hx.2, show k + 1 + i = k + (i + 1) by omega] at this
      exact this

/-- No request is served if something of the start failed: a listener that could not be opened, a jail that could not be entered, a user that could not be changed to, or a step on the way to the background. -/
theorem C89_failed (e : SuEnv) (c : SuCfg) (p0 p : SuProc) (h : suMain e c p0 = some p) :
    (∀ (i : Nat) (l : SuLst), c.listeners[i]? = some l → e.socket i = true ∧ if l.fromSock then e.recv i = true else e.bind i p0.cred.euid = true ∧ e.listen i = true) ∧
      (c.daemon = true → e.fork.isSome = true ∧ e.setsid = true ∧ e.chdir = true ∧ e.null = true) ∧ (c.jail.isSome = true → e.chroot = true ∧ e.chdirJail = true) ∧ (c.user.isSome = true → e.setuid = true) := by
  unfold suMain at h
  dsimp only at h
  obtain ⟨user, hu, h⟩ := Option.bind_eq_some_iff.1 h
  obtain ⟨group, hg, h⟩ := Option.bind_eq_some_iff.1 h
  obtain ⟨p2, h2, h⟩ := Option.bind_eq_some_iff.1 h
  obtain ⟨p3, h3, h⟩ := Option.bind_eq_some_iff.1 h
  obtain ⟨p5, h5, h⟩ := Option.bind_eq_some_iff.1 h
  obtain ⟨cr, h6, h7⟩ := Option.map_eq_some_iff.1 h
  refine ⟨fun i l hl => ?_, fun hd => ?_, fun hj => ?_, fun hn => ?_⟩
  · have := suListeners_calls _ _ _ _ h2 i l hl
    rw [Nat.zero_add] at this
    cases hc : c.control with
    | none => rw [hc] at this; exact this
    | some x =>
      obtain ⟨n, j⟩ := x
      rw [hc] at this
      obtain ⟨f, y, e1, _⟩ := suAtExit_same e (c.jail.isSome && j) n { p0 with umask := 63 }
      dsimp only at this
      rw [e1] at this
      exact this
  · rw [if_pos hd] at h3
    unfold suDetach at h3
    split at h3
    · cases h3
    · rename_i pid hp
      split at h3
      · rename_i hc
        rw [Bool.and_eq_true, Bool.and_eq_true] at hc
        exact ⟨by rw [hp]; rfl, hc.1.1, hc.1.2, hc.2⟩
      · cases h3
  · unfold suJail at h5
    split at h5
    · rename_i hc
      rw [hc] at hj
      cases hj
    · split at h5
      · rename_i hc
        rw [Bool.and_eq_true] at hc
        exact hc
      · cases h5
  · unfold suCred at h6
    obtain ⟨c1, _, h8⟩ := Option.bind_eq_some_iff.1 h6
    unfold suLookup at hu
    split at hu
    · rename_i hc
      rw [hc] at hn
      cases hn
    · obtain ⟨u, _, e2⟩ := Option.map_eq_some_iff.1 hu
      rw [← e2] at h8
      unfold suSetUser at h8
      dsimp only at h8
      split at h8
      · assumption
      · cases h8

example : suMain c89e c89c c89p ≠ none ∧ c89c.jail.isSome ∧ suMain { c89e with chroot := false } c89c c89p = none ∧ suMain { c89e with bind := fun _ u => u != 0 } c89c c89p = none := by decide +kernel

end Pound.Props
