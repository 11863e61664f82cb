import Verif.Spec.Startup
import Verif.Proof.WorkDir

namespace Pound

open Spec

theorem located_eq (cwd root n : Bytes) : wdAbs cwd root n = located cwd root n := rfl

/-! ### Descriptors -/

theorem suAlloc_get (x : SuFd) (l : List (Option SuFd)) : (suAlloc x l).2[(suAlloc x l).1]? = some (some x) := by
  induction l with
  | nil => rfl
  | cons a l ih =>
    cases a with
    | none => rfl
    | some y => exact ih

theorem suAlloc_keep (x : SuFd) (l : List (Option SuFd)) (k : Nat) (y : SuFd) (h : l[k]? = some (some y)) : (suAlloc x l).2[k]? = some (some y) ∧ k ≠ (suAlloc x l).1 := by
  induction l generalizing k with
  | nil => cases h
  | cons a l ih =>
    cases a with
    | none =>
      cases k with
      | zero => cases h
      | succ k => exact ⟨h, nofun⟩
    | some z =>
      cases k with
      | zero => exact ⟨h, nofun⟩
      | succ k => exact ⟨(ih k h).1, fun e => (ih k h).2 (Nat.succ.inj e)⟩

/-- What was open stays open. -/
def SuExt (p q : SuProc) : Prop := ∀ (k : Nat) (x : SuFd), p.fds[k]? = some (some x) → q.fds[k]? = some (some x)

theorem SuExt.trans {p q r} (h : SuExt p q) (h' : SuExt q r) : SuExt p r := fun k x hx => h' k x (h k x hx)

theorem suAtExit_same (e : SuEnv) (j : Bool) (n : Bytes) (p : SuProc) : ∃ f x, suAtExit e j n p = { p with fds := f, exits := x } ∧ SuExt p (suAtExit e j n p) := by
  unfold suAtExit
  split
  · split
    · split
      · exact ⟨_, _, rfl, fun k x h => (suAlloc_keep _ _ k x h).1⟩
      · exact ⟨_, _, rfl, fun k x h => h⟩
    · split
      · exact ⟨_, _, rfl, fun k x h => (suAlloc_keep _ _ k x h).1⟩
      · exact ⟨_, _, rfl, fun k x h => h⟩
  · exact ⟨_, _, rfl, fun k x h => h⟩

/-- The sockets of the listeners; `S`: standard descriptors were open. -/
structure SuSocks (S : Prop) (p : SuProc) : Prop where
  own : ∀ (j fd : Nat), p.socks[j]? = some fd → p.fds[fd]? = some (some (.sock j true))
  std : S → StdOpen p
  high : S → ∀ fd ∈ p.socks, 3 ≤ fd

theorem SuSocks.ext {S p q} (h : SuSocks S p) (he : SuExt p q) (hs : q.socks = p.socks) : SuSocks S q :=
  ⟨fun j fd hj => he _ _ (h.own j fd (by rw [← hs]; exact hj)), fun s k hk => (h.std s k hk).imp fun x hx => he k x hx, fun s => by rw [hs]; exact h.high s⟩

theorem SuSocks.alloc {S p} (h : SuSocks S p) {q : SuProc} (hf : q.fds = (suAlloc (.sock p.socks.length true) p.fds).2) (hs : q.socks = p.socks ++ [(suAlloc (.sock p.socks.length true) p.fds).1]) : SuSocks S q := by
  have he : SuExt p q := fun k x hx => by rw [hf]; exact (suAlloc_keep _ _ k x hx).1
  refine ⟨fun j fd hj => ?_, fun s k hk => (h.std s k hk).imp fun x hx => he k x hx, fun s fd hfd => ?_⟩
  · rw [hs] at hj
    by_cases hl : j < p.socks.length
    · rw [List.getElem?_append_left hl] at hj
      exact he _ _ (h.own j fd hj)
    · rw [List.getElem?_append_right (Nat.le_of_not_lt hl)] at hj
      have hj0 : j - p.socks.length = 0 := by
        rcases Nat.eq_zero_or_pos (j - p.socks.length) with h0 | h0
        · exact h0
        · rw [List.getElem?_eq_none (by simp; omega)] at hj; cases hj
      rw [hj0] at hj
      cases hj
      have : j = p.socks.length := by omega
      rw [hf, this]
      exact suAlloc_get _ _
  · rw [hs] at hfd
    rcases List.mem_append.1 hfd with hfd | hfd
    · exact h.high s fd hfd
    · cases List.mem_singleton.1 hfd
      rcases Nat.lt_or_ge (suAlloc (.sock p.socks.length true) p.fds).1 3 with h3 | h3
      · obtain ⟨x, hx⟩ := h.std s _ h3
        exact absurd rfl (suAlloc_keep (.sock p.socks.length true) _ _ x hx).2
      · exact h3

/-! ### Listeners -/

theorem suMode_mask (m : Nat) : suMode 511 (suUmask m) = m % 512 := by
  unfold suMode suUmask
  have key : ∀ x : Nat, 511 &&& x = x % 512 := fun x => by rw [Nat.and_comm]; exact Nat.and_two_pow_sub_one_eq_mod x 9
  apply Nat.eq_of_testBit_eq
  intro i
  have e : m % 512 = m % 2 ^ 9 := rfl
  have e5 : (511 : Nat) = 2 ^ 9 - 1 := rfl
  rw [e, Nat.testBit_mod_two_pow]
  simp only [Nat.testBit_and, Nat.testBit_xor]
  rw [e5, Nat.testBit_two_pow_sub_one]
  by_cases hi : i < 9
  · simp [hi]
  · simp [hi]

/-- What a listener does to the process -/
structure SuStep (user group : Option Nat) (i : Nat) (l : SuLst) (p q : SuProc) : Prop where
  cred : q.cred = p.cred
  umask : q.umask = p.umask
  cwd : q.cwd = p.cwd
  root : q.root = p.root
  pid : q.pid = p.pid
  exits : q.exits = p.exits
  ev : ∃ t, q.ev = p.ev ++ t ∧ (∀ x ∈ t, ∀ f k m, x ≠ .write f k m) ∧
    (l.fromSock = false → .bind i p.cred.euid (if l.family = 1 then some (located p.cwd p.root l.path, l.mode % 512) else none) ∈ t ∧
      (l.family = 1 → l.chown = true → .chown (located p.cwd p.root l.path) user group ∈ t)) ∧ ∀ x ∈ t, ∀ j u f, x = .bind j u f → u = p.cred.euid

theorem suStep {S : Prop} {e : SuEnv} {user group : Option Nat} {i : Nat} {l : SuLst} {p q : SuProc} (h : (if l.fromSock then suFrom e i p else suInit e user group i l p) = some q)
    (hi : p.socks.length = i) (hs : SuSocks S p) : SuStep user group i l p q ∧ SuSocks S q ∧ SuExt p q ∧ q.socks.length = i + 1 := by
  subst hi
  split at h
  · rename_i hf
    unfold suFrom at h
    split at h
    · cases h
      have h1 : SuSocks S { p with fds := (suAlloc (.conn p.socks.length) p.fds).2 } := hs.ext (fun k x hx => (suAlloc_keep _ _ k x hx).1) rfl
      refine ⟨⟨rfl, rfl, rfl, rfl, rfl, rfl, [], (List.append_nil _).symm, nofun, ?_, nofun⟩, h1.alloc rfl rfl, fun k x hx => (suAlloc_keep _ _ k x (suAlloc_keep _ _ k x hx).1).1, by simp⟩
      intro h'
      rw [hf] at h'; cases h'
    · cases h
  · rename_i hf
    unfold suInit at h
    split at h
    · rename_i hfam
      split at h
      · cases h
        refine ⟨⟨rfl, rfl, rfl, rfl, rfl, rfl, _, rfl, ?_, fun _ => ⟨?_, fun h1 => ?_⟩, ?_⟩, hs.alloc rfl rfl, fun k x hx => (suAlloc_keep _ _ k x hx).1, by simp⟩
        · intro x hx f k m
          cases List.mem_singleton.1 hx; exact nofun
        · rw [if_neg (by omega)]; exact List.mem_singleton.2 rfl
        · omega
        · intro x hx j u f hb
          cases List.mem_singleton.1 hx; cases hb; rfl
      · cases h
    · split at h
      · rename_i hfam
        dsimp only at h
        split at h
        · cases h
          refine ⟨⟨rfl, rfl, rfl, rfl, rfl, rfl, [.unlink (wdAbs p.cwd p.root l.path)] ++ ([.bind p.socks.length p.cred.euid (some (wdAbs p.cwd p.root l.path, suMode 511 (suUmask l.mode)))] ++
              if l.chown then [.chown (wdAbs p.cwd p.root l.path) user group] else []), ?_, ?_, fun _ => ⟨?_, fun _ hc => ?_⟩, ?_⟩, hs.alloc rfl rfl, fun k x hx => (suAlloc_keep _ _ k x hx).1, by simp⟩
          · simp
          · intro x hx f k m
            rcases List.mem_append.1 hx with hx | hx
            · cases List.mem_singleton.1 hx; exact nofun
            · rcases List.mem_append.1 hx with hx | hx
              · cases List.mem_singleton.1 hx; exact nofun
              · split at hx
                · cases List.mem_singleton.1 hx; exact nofun
                · cases hx
          · rw [if_pos hfam, suMode_mask]
            exact List.mem_append_right _ (List.mem_append_left _ (List.mem_singleton.2 rfl))
          · rw [if_pos hc]
            exact List.mem_append_right _ (List.mem_append_right _ (List.mem_singleton.2 rfl))
          · intro x hx j u f hb
            subst hb
            rcases List.mem_append.1 hx with hx | hx
            · cases List.mem_singleton.1 hx
            · rcases List.mem_append.1 hx with hx | hx
              · cases List.mem_singleton.1 hx; rfl
              · split at hx
                · cases List.mem_singleton.1 hx
                · cases hx
        · cases h
      · cases h

/-- What all listeners do to the process -/
structure SuSteps (user group : Option Nat) (i : Nat) (ls : List SuLst) (p q : SuProc) : Prop where
  cred : q.cred = p.cred
  umask : q.umask = p.umask
  cwd : q.cwd = p.cwd
  root : q.root = p.root
  pid : q.pid = p.pid
  exits : q.exits = p.exits
  ev : ∃ t, q.ev = p.ev ++ t ∧ (∀ x ∈ t, ∀ f k m, x ≠ .write f k m) ∧
    (∀ (j : Nat) (l : SuLst), ls[j]? = some l → l.fromSock = false → .bind (i + j) p.cred.euid (if l.family = 1 then some (located p.cwd p.root l.path, l.mode % 512) else none) ∈ t ∧
      (l.family = 1 → l.chown = true → .chown (located p.cwd p.root l.path) user group ∈ t)) ∧ ∀ x ∈ t, ∀ j u f, x = .bind j u f → u = p.cred.euid

theorem suListeners_ok {S : Prop} {e : SuEnv} {user group : Option Nat} (ls : List SuLst) {i : Nat} {p q : SuProc} (h : suListeners e user group ls i p = some q) (hi : p.socks.length = i) (hs : SuSocks S p) :
    SuSteps user group i ls p q ∧ SuSocks S q ∧ SuExt p q ∧ q.socks.length = i + ls.length := by
  induction ls generalizing i p with
  | nil =>
    cases h
    exact ⟨⟨rfl, rfl, rfl, rfl, rfl, rfl, [], (List.append_nil _).symm, nofun, nofun, nofun⟩, hs, fun k x h => h, hi⟩
  | cons l t ih =>
    unfold suListeners at h
    obtain ⟨p1, h1, h2⟩ := Option.bind_eq_some_iff.1 h
    obtain ⟨s1, s2, s3, s4⟩ := suStep h1 hi hs
    obtain ⟨r1, r2, r3, r4⟩ := ih h2 s4 s2
    refine ⟨⟨r1.cred.trans s1.cred, r1.umask.trans s1.umask, r1.cwd.trans s1.cwd, r1.root.trans s1.root, r1.pid.trans s1.pid, r1.exits.trans s1.exits, ?_⟩, r2, s3.trans r3, by rw [r4, List.length_cons]; omega⟩
    obtain ⟨t1, a1, a2, a3, a4⟩ := s1.ev
    obtain ⟨t2, b1, b2, b3, b4⟩ := r1.ev
    refine ⟨t1 ++ t2, by rw [b1, a1, List.append_assoc], fun x hx => (List.mem_append.1 hx).elim (a2 x) (b2 x), fun j l' hj hf => ?_, fun x hx j u f e => ?_⟩
    · cases j with
      | zero =>
        cases hj
        exact ⟨List.mem_append_left _ (a3 hf).1, fun h1 h2 => List.mem_append_left _ ((a3 hf).2 h1 h2)⟩
      | succ j =>
        have := b3 j l' hj hf
        rw [s1.cred, s1.cwd, s1.root, show i + 1 + j = i + (j + 1) by omega] at this
        exact ⟨List.mem_append_right _ this.1, fun h1 h2 => List.mem_append_right _ (this.2 h1 h2)⟩
    · rcases List.mem_append.1 hx with hx | hx
      · exact a4 x hx j u f e
      · rw [b4 x hx j u f e, s1.cred]

/-! ### detach -/

theorem suStd (f : List (Option SuFd)) : ∃ r, (suAlloc .null (suAlloc .null (((f.set 0 none).set 1 none).set 2 none)).2).2 = some .null :: some .null :: r ∧ (r = [] ∨ ∃ r', r = none :: r' ∧ r' = f.drop 3) := by
  match f with
  | [] => exact ⟨[], rfl, Or.inl rfl⟩
  | [_] => exact ⟨[], rfl, Or.inl rfl⟩
  | [_, _] => exact ⟨[], rfl, Or.inl rfl⟩
  | _ :: _ :: _ :: r => exact ⟨none :: r, rfl, Or.inr ⟨r, rfl, rfl⟩⟩

theorem suDetach_ok {e : SuEnv} {p q : SuProc} (h : suDetach e p = some q) :
    ∃ pid f, q = { p with pid := pid, cwd := p.root, fds := f } ∧ (∀ k : Nat, k < 3 → f[k]? = some (some .null)) ∧ ∀ (k : Nat) (x : SuFd), 3 ≤ k → p.fds[k]? = some (some x) → f[k]? = some (some x) := by
  unfold suDetach at h
  cases hf : e.fork with
  | none => rw [hf] at h; cases h
  | some pid =>
    rw [hf] at h
    dsimp only at h
    split at h
    · obtain ⟨r, h1, h2⟩ := suStd p.fds
      rw [h1] at h
      dsimp only [List.getElem?_cons_succ, List.getElem?_cons_zero] at h
      cases h
      rcases h2 with rfl | ⟨r', rfl, h3⟩
      · refine ⟨pid, _, rfl, fun k hk => ?_, fun k x hk hx => ?_⟩
        · match k, hk with
          | 0, _ => rfl
          | 1, _ => rfl
          | 2, _ => rfl
        · -- fewer than three entries
          exfalso
          match hp : p.fds, hx with
          | [], hx => cases hx
          | [_], hx => rw [List.getElem?_eq_none (by simp; omega)] at hx; cases hx
          | [_, _], hx => rw [List.getElem?_eq_none (by simp; omega)] at hx; cases hx
          | a :: b :: c :: r, _ =>
            rw [hp] at h1
            cases h1
      · refine ⟨pid, _, rfl, fun k hk => ?_, fun k x hk hx => ?_⟩
        · match k, hk with
          | 0, _ => rfl
          | 1, _ => rfl
          | 2, _ => rfl
        · obtain ⟨k, rfl⟩ : ∃ j, k = j + 3 := ⟨k - 3, by omega⟩
          show r'[k]? = _
          rw [h3, List.getElem?_drop, Nat.add_comm]
          exact hx
    · cases h

theorem suDetach_some (e : SuEnv) (p : SuProc) (h : e.fork.isSome = true ∧ e.setsid = true ∧ e.chdir = true ∧ e.null = true) : ∃ q, suDetach e p = some q := by
  obtain ⟨h1, h2, h3, h4⟩ := h
  obtain ⟨pid, hp⟩ := Option.isSome_iff_exists.1 h1
  obtain ⟨r, h5, _⟩ := suStd p.fds
  unfold suDetach
  rw [hp]
  dsimp only
  rw [h2, h3, h4, if_pos (by rfl), h5]
  exact ⟨_, rfl⟩

/-! ### Credentials -/

theorem suCred_user {e : SuEnv} {user group : Option Nat} {c d : SuCred} (h : suCred e user group c = some d) :
    (∀ u, user = some u → d.euid = u ∧ (c.euid = 0 → d.ruid = u ∧ d.suid = u)) ∧ (user = none → d.ruid = c.ruid ∧ d.euid = c.euid ∧ d.suid = c.suid) ∧
      (∀ g, group = some g → d.egid = g ∧ (c.euid = 0 → d.rgid = g ∧ d.sgid = g)) ∧ (group = none → d.rgid = c.rgid ∧ d.egid = c.egid ∧ d.sgid = c.sgid) ∧ d.groups = c.groups := by
  unfold suCred at h
  obtain ⟨c1, h1, h2⟩ := Option.bind_eq_some_iff.1 h
  have hg : c1.ruid = c.ruid ∧ c1.euid = c.euid ∧ c1.suid = c.suid ∧ c1.groups = c.groups ∧ (∀ g, group = some g → c1.egid = g ∧ (c.euid = 0 → c1.rgid = g ∧ c1.sgid = g)) ∧
      (group = none → c1.rgid = c.rgid ∧ c1.egid = c.egid ∧ c1.sgid = c.sgid) := by
    cases group with
    | none => cases h1; exact ⟨rfl, rfl, rfl, rfl, nofun, fun _ => ⟨rfl, rfl, rfl⟩⟩
    | some g =>
      obtain ⟨c2, h3, h4⟩ := Option.bind_eq_some_iff.1 h1
      unfold suSetgid at h3
      unfold suSetegid at h4
      split at h4
      · cases h4
        split at h3
        · cases h3
          exact ⟨rfl, rfl, rfl, rfl, fun g' e => by cases e; exact ⟨rfl, fun _ => ⟨rfl, rfl⟩⟩, nofun⟩
        · rename_i hn
          split at h3
          · cases h3
            exact ⟨rfl, rfl, rfl, rfl, fun g' e => by cases e; exact ⟨rfl, fun h => absurd h hn⟩, nofun⟩
          · cases h3
      · cases h4
  obtain ⟨g1, g2, g3, g4, g5, g6⟩ := hg
  cases user with
  | none =>
    cases h2
    exact ⟨nofun, fun _ => ⟨g1, g2, g3⟩, g5, g6, g4⟩
  | some u =>
    unfold suSetUser at h2
    dsimp only at h2
    split at h2
    · obtain ⟨c2, h3, h4⟩ := Option.bind_eq_some_iff.1 h2
      unfold suSetuid at h3
      unfold suSeteuid at h4
      split at h4
      · cases h4
        split at h3
        · cases h3
          exact ⟨fun u' e => by cases e; exact ⟨rfl, fun _ => ⟨rfl, rfl⟩⟩, nofun, g5, g6, g4⟩
        · rename_i hn
          split at h3
          · cases h3
            exact ⟨fun u' e => by cases e; exact ⟨rfl, fun h => absurd (g2.trans h) hn⟩, nofun, g5, g6, g4⟩
          · cases h3
      · cases h4
    · cases h2

theorem suCred_root (e : SuEnv) (user group : Option Nat) (c : SuCred) (h : c.euid = 0) (he : e.setuid = true) : ∃ d, suCred e user group c = some d := by
  have h1 : ∃ c1, suSetGroup group c = some c1 ∧ c1.euid = 0 := by
    cases group with
    | none => exact ⟨c, rfl, h⟩
    | some g =>
      unfold suSetGroup suSetgid
      dsimp only
      rw [if_pos h]
      unfold suSetegid
      rw [Option.bind_some, if_pos (Or.inl h)]
      exact ⟨_, rfl, h⟩
  obtain ⟨c1, h2, h3⟩ := h1
  unfold suCred
  rw [h2, Option.bind_some]
  cases user with
  | none => exact ⟨_, rfl⟩
  | some u =>
    unfold suSetUser
    dsimp only
    rw [he, if_pos rfl]
    unfold suSetuid
    rw [if_pos h3, Option.bind_some]
    unfold suSeteuid
    rw [if_pos (Or.inr (Or.inl rfl))]
    exact ⟨_, rfl⟩

theorem attempts_ne (l : List (Bool × Nat)) (c : SuCred) (u : Nat) (h : c.ruid = u ∧ c.euid = u ∧ c.suid = u) (hu : u ≠ 0) : (attempts l c).ruid = u ∧ (attempts l c).euid = u ∧ (attempts l c).suid = u := by
  induction l generalizing c with
  | nil => exact h
  | cons x t ih =>
    obtain ⟨b, v⟩ := x
    obtain ⟨h1, h2, h3⟩ := h
    refine ih _ ?_
    have hne : ¬ c.euid = 0 := fun e => hu (by rw [← h2, e])
    cases b with
    | true =>
      rw [if_pos rfl]
      unfold suSetuid
      rw [if_neg hne]
      split
      · rename_i hv
        refine ⟨h1, ?_, h3⟩
        show v = u
        rcases hv with hv | hv
        · rw [hv, h1]
        · rw [hv, h3]
      · exact ⟨h1, h2, h3⟩
    | false =>
      rw [if_neg nofun]
      unfold suSeteuid
      split
      · rename_i hv
        refine ⟨h1, ?_, h3⟩
        show v = u
        rcases hv with hv | hv | hv | hv
        · exact absurd hv hne
        · rw [hv, h1]
        · rw [hv, h2]
        · rw [hv, h3]
      · exact ⟨h1, h2, h3⟩

/-! ### The whole -/

/-- The entry that unlink_at_exit makes -/
def suKept (e : SuEnv) (jail : Bool) (name cwd root : Bytes) : List SuExit :=
  if jail then
    if ch%'/' ∈ name then
      if (wdSplit name).1 ≠ [] ∧ e.openDir (wdAbs cwd root (wdSplit name).1) then [.loc (wdAbs cwd root (wdSplit name).1) (wdSplit name).2] else []
    else if e.openDir cwd then [.loc cwd name] else []
  else [.name name]

theorem suAtExit_exits (e : SuEnv) (j : Bool) (n : Bytes) (p : SuProc) : (suAtExit e j n p).exits = suKept e j n p.cwd p.root ++ p.exits := by
  unfold suAtExit suKept
  split
  · split
    · split <;> rfl
    · split <;> rfl
  · rfl

/-- The registration of the control socket -/
def suControl (e : SuEnv) (c : SuCfg) (p : SuProc) : SuProc :=
  match c.control with
  | none => p
  | some (n, j) => suAtExit e (c.jail.isSome && j) n p

/-- What a start that succeeds did -/
structure SuDone (e : SuEnv) (c : SuCfg) (p0 p : SuProc) : Prop where
  names : ∃ user group, suLookup e.getpw c.user = some user ∧ suLookup e.getgr c.group = some group ∧ suCred e user group p0.cred = some p.cred ∧
    ∃ t, p.ev = t ++ (match c.pidfile with | some n => if e.create (wdAbs (workCwd c p0) p0.root n) then [.write (wdAbs (workCwd c p0) p0.root n) p.pid 384] else [] | none => []) ∧
      (∀ x ∈ t, ∀ f k m, x ≠ .write f k m) ∧
      (∀ (j : Nat) (l : SuLst), c.listeners[j]? = some l → l.fromSock = false → .bind j p0.cred.euid (if l.family = 1 then some (located p0.cwd p0.root l.path, l.mode % 512) else none) ∈ t ∧
        (l.family = 1 → l.chown = true → .chown (located p0.cwd p0.root l.path) user group ∈ t)) ∧ ∀ x ∈ t, ∀ j u f, x = .bind j u f → u = p0.cred.euid
  umask : p.umask = 63
  dirs : match c.jail with | none => p.root = p0.root ∧ p.cwd = workCwd c p0 | some j => p.root = wdAbs (workCwd c p0) p0.root j ∧ p.cwd = p.root
  pid : p.pid = if c.daemon then e.fork.getD 0 else p0.pid
  std : c.daemon = true → ∀ k : Nat, k < 3 → p.fds[k]? = some (some .null)
  socks : c.daemon = false ∨ StdOpen p0 → ∀ i, i < c.listeners.length → HasSocket p i
  exits : p.exits = (match c.pidfile with | some n => if e.create (wdAbs (workCwd c p0) p0.root n) then suKept e c.jail.isSome n (workCwd c p0) p0.root else [] | none => []) ++
    (match c.control with | some (n, j) => suKept e (c.jail.isSome && j) n p0.cwd p0.root | none => [])

theorem suMain_ok {e : SuEnv} {c : SuCfg} {p0 p : SuProc} (h : suMain e c p0 = some p) (hf : Fresh p0) : SuDone e c p0 p := by
  have hm : suMain e c p0 = (suLookup e.getpw c.user).bind fun user => (suLookup e.getgr c.group).bind fun group => (suListeners e user group c.listeners 0 (suControl e c { p0 with umask := 63 })).bind fun p =>
      (if c.daemon then suDetach e p else some p).bind fun p => (suJail e c.jail (suPidfile e c.jail.isSome c.pidfile p)).bind fun p => (suCred e user group p.cred).map fun cr => { p with cred := cr } := by
    unfold suMain suControl
    cases c.control with
    | none => rfl
    | some x => rfl
  rw [hm] at h
  obtain ⟨user, hu, h⟩ := Option.bind_eq_some_iff.1 h
  obtain ⟨group, hg, h⟩ := Option.bind_eq_some_iff.1 h
  obtain ⟨p2, h2, h⟩ := Option.bind_eq_some_iff.1 h
  obtain ⟨p3, h3, h⟩ := Option.bind_eq_some_iff.1 h
  obtain ⟨p5, h5, h⟩ := Option.bind_eq_some_iff.1 h
  obtain ⟨cr, h6, h7⟩ := Option.map_eq_some_iff.1 h
  have hc : ∃ f x, suControl e c { p0 with umask := 63 } = { p0 with umask := 63, fds := f, exits := x } ∧ SuExt p0 (suControl e c { p0 with umask := 63 }) ∧
      x = (match c.control with | some (n, j) => suKept e (c.jail.isSome && j) n p0.cwd p0.root | none => []) := by
    unfold suControl
    cases c.control with
    | none => exact ⟨_, _, rfl, fun k x h => h, hf.exits⟩
    | some y =>
      obtain ⟨n, j⟩ := y
      obtain ⟨f, x, e1, e2⟩ := suAtExit_same e (c.jail.isSome && j) n { p0 with umask := 63 }
      have e3 := suAtExit_exits e (c.jail.isSome && j) n { p0 with umask := 63 }
      refine ⟨f, x, e1, e2, ?_⟩
      rw [e1] at e3
      have e3 : x = suKept e (c.jail.isSome && j) n p0.cwd p0.root ++ p0.exits := e3
      rw [e3, hf.exits, List.append_nil]
  obtain ⟨f, x, e1, e2, e3⟩ := hc
  rw [e1] at h2 e2
  have hs1 : SuSocks (StdOpen p0) { p0 with umask := 63, fds := f, exits := x } := by
    refine ⟨fun j fd hj => ?_, fun s k hk => (s k hk).imp fun y hy => e2 k y hy, fun _ fd hfd => ?_⟩
    · have hj : p0.socks[j]? = some fd := hj
      rw [hf.socks] at hj; cases hj
    · have hfd : fd ∈ p0.socks := hfd
      rw [hf.socks] at hfd; cases hfd
  obtain ⟨s1, s2, s3, s4⟩ := suListeners_ok c.listeners h2 (by show p0.socks.length = 0; rw [hf.socks]; rfl) hs1
  have h3' : p3.cred = p2.cred ∧ p3.umask = p2.umask ∧ p3.root = p2.root ∧ p3.cwd = (if c.daemon then p2.root else p2.cwd) ∧ p3.pid = (if c.daemon then e.fork.getD 0 else p2.pid) ∧ p3.exits = p2.exits ∧ p3.ev = p2.ev ∧
      (c.daemon = true → ∀ k : Nat, k < 3 → p3.fds[k]? = some (some .null)) ∧ (c.daemon = false ∨ StdOpen p0 → ∀ i, i < c.listeners.length → HasSocket p3 i) := by
    have hl2 : ∀ i, i < c.listeners.length → ∃ fd : Nat, p2.socks[i]? = some fd ∧ p2.fds[fd]? = some (some (.sock i true)) := fun i hi => by
      have hi : i < p2.socks.length := by rw [s4]; omega
      obtain ⟨fd, hfd⟩ : ∃ fd, p2.socks[i]? = some fd := ⟨_, List.getElem?_eq_getElem hi⟩
      exact ⟨fd, hfd, s2.own i fd hfd⟩
    cases hd : c.daemon with
    | false =>
      rw [hd, if_neg nofun] at h3
      cases h3
      exact ⟨rfl, rfl, rfl, rfl, rfl, rfl, rfl, nofun, fun _ => hl2⟩
    | true =>
      rw [hd, if_pos rfl] at h3
      have hpid : p3.pid = e.fork.getD 0 := by
        unfold suDetach at h3
        split at h3
        · cases h3
        · rename_i pid hp
          rw [hp]
          dsimp only at h3
          split at h3
          · split at h3
            · cases h3; rfl
            · cases h3
          · cases h3
      obtain ⟨pid, f', d1, d2, d3⟩ := suDetach_ok h3
      subst d1
      refine ⟨rfl, rfl, rfl, rfl, hpid, rfl, rfl, fun _ => d2, fun hst i hi => ?_⟩
      rcases hst with hst | hst
      · cases hst
      · obtain ⟨fd, g1, g2⟩ := hl2 i hi
        exact ⟨fd, g1, d3 fd _ (s2.high hst fd (List.mem_of_getElem? g1)) g2⟩
  obtain ⟨a1, a2, a3, a4, a5, a6, a7, a8, a9⟩ := h3'
  have b1 : p2.cred = p0.cred := s1.cred
  have b2 : p2.umask = 63 := s1.umask
  have b3 : p2.cwd = p0.cwd := s1.cwd
  have b4 : p2.root = p0.root := s1.root
  have b5 : p2.pid = p0.pid := s1.pid
  have b6 : p2.exits = x := s1.exits
  have b7 : p3.cwd = workCwd c p0 := by rw [a4, b3, b4]; rfl
  have hp : (suPidfile e c.jail.isSome c.pidfile p3).cred = p3.cred ∧ (suPidfile e c.jail.isSome c.pidfile p3).umask = p3.umask ∧ (suPidfile e c.jail.isSome c.pidfile p3).root = p3.root ∧
      (suPidfile e c.jail.isSome c.pidfile p3).cwd = p3.cwd ∧ (suPidfile e c.jail.isSome c.pidfile p3).pid = p3.pid ∧ (suPidfile e c.jail.isSome c.pidfile p3).socks = p3.socks ∧
      SuExt p3 (suPidfile e c.jail.isSome c.pidfile p3) ∧
      (suPidfile e c.jail.isSome c.pidfile p3).ev = p3.ev ++ (match c.pidfile with | some n => if e.create (wdAbs (workCwd c p0) p0.root n) then [.write (wdAbs (workCwd c p0) p0.root n) p3.pid 384] else [] | none => []) ∧
      (suPidfile e c.jail.isSome c.pidfile p3).exits =
        (match c.pidfile with | some n => if e.create (wdAbs (workCwd c p0) p0.root n) then suKept e c.jail.isSome n (workCwd c p0) p0.root else [] | none => []) ++ p3.exits := by
    unfold suPidfile
    cases c.pidfile with
    | none => exact ⟨rfl, rfl, rfl, rfl, rfl, rfl, fun k x h => h, (List.append_nil _).symm, rfl⟩
    | some n =>
      dsimp only
      rw [← b7, ← a3.trans b4]
      split
      · obtain ⟨f', x', g1, g2⟩ := suAtExit_same e c.jail.isSome n { p3 with ev := p3.ev ++ [.write (wdAbs p3.cwd p3.root n) p3.pid (suMode 438 p3.umask)] }
        have g3 := suAtExit_exits e c.jail.isSome n { p3 with ev := p3.ev ++ [.write (wdAbs p3.cwd p3.root n) p3.pid (suMode 438 p3.umask)] }
        refine ⟨by rw [g1], by rw [g1], by rw [g1], by rw [g1], by rw [g1], by rw [g1], g2, ?_, ?_⟩
        · rw [g1]
          show p3.ev ++ [.write _ _ (suMode 438 p3.umask)] = _
          rw [a2, b2]
          rfl
        · rw [g3]
      · exact ⟨rfl, rfl, rfl, rfl, rfl, rfl, fun k x h => h, (List.append_nil _).symm, rfl⟩
  obtain ⟨c1, c2, c3, c4, c5, c6, c7, c8, c9⟩ := hp
  generalize suPidfile e c.jail.isSome c.pidfile p3 = p4 at h5 c1 c2 c3 c4 c5 c6 c7 c8 c9
  have hj : p5.cred = p4.cred ∧ p5.umask = p4.umask ∧ p5.pid = p4.pid ∧ p5.socks = p4.socks ∧ p5.fds = p4.fds ∧ p5.ev = p4.ev ∧ p5.exits = p4.exits ∧
      (match c.jail with | none => p5.root = p4.root ∧ p5.cwd = p4.cwd | some j => p5.root = wdAbs p4.cwd p4.root j ∧ p5.cwd = p5.root) := by
    unfold suJail at h5
    cases hjl : c.jail with
    | none => rw [hjl] at h5; cases h5; exact ⟨rfl, rfl, rfl, rfl, rfl, rfl, rfl, rfl, rfl⟩
    | some j =>
      rw [hjl] at h5
      dsimp only at h5
      split at h5
      · cases h5; exact ⟨rfl, rfl, rfl, rfl, rfl, rfl, rfl, rfl, rfl⟩
      · cases h5
  obtain ⟨j1, j2, j3, j4, j5, j6, j7, j8⟩ := hj
  subst h7
  refine ⟨⟨user, group, hu, hg, ?_, ?_⟩, ?_, ?_, ?_, fun hd k hk => ?_, fun hst i hi => ?_, ?_⟩
  · rw [← b1, ← a1, ← c1, ← j1]; exact h6
  · obtain ⟨t, t1, t2, t3, t4⟩ := s1.ev
    refine ⟨t, ?_, t2, fun j l hjl hfr => ?_, t4⟩
    · show p5.ev = _
      rw [j6, c8, a7, t1]
      show p0.ev ++ t ++ _ = _
      rw [hf.ev]
      show t ++ _ = t ++ _
      have : p5.pid = p3.pid := j3.trans c5
      rw [← this]
    · have := t3 j l hjl hfr
      rw [Nat.zero_add] at this
      exact this
  · show p5.umask = 63
    rw [j2, c2, a2, b2]
  · show match c.jail with | none => p5.root = p0.root ∧ p5.cwd = workCwd c p0 | some j => p5.root = wdAbs (workCwd c p0) p0.root j ∧ p5.cwd = p5.root
    have e4 : p4.root = p0.root := c3.trans (a3.trans b4)
    have e5 : p4.cwd = workCwd c p0 := c4.trans b7
    rw [e4, e5] at j8
    exact j8
  · show p5.pid = _
    rw [j3, c5, a5, b5]
  · show p5.fds[k]? = _
    rw [j5]
    exact c7 k _ (a8 hd k hk)
  · obtain ⟨fd, g1, g2⟩ := a9 hst i hi
    refine ⟨fd, ?_, ?_⟩
    · show p5.socks[i]? = _
      rw [j4, c6]; exact g1
    · show p5.fds[fd]? = _
      rw [j5]
      exact c7 fd _ g2
  · show p5.exits = _
    rw [j7, c9, a6, b6, e3]

/-! ### A start as root -/

theorem suListeners_some {e : SuEnv} {user group : Option Nat} (ls : List SuLst) (i : Nat) (p : SuProc) (hp : p.cred.euid = 0) (hl : ∀ l ∈ ls, l.fromSock = true ∨ l.family = 1 ∨ l.family = 2 ∨ l.family = 10)
    (hc : ∀ i, e.socket i = true ∧ e.bind i 0 = true ∧ e.listen i = true ∧ e.recv i = true) : ∃ q, suListeners e user group ls i p = some q ∧ q.cred = p.cred := by
  induction ls generalizing i p with
  | nil => exact ⟨p, rfl, rfl⟩
  | cons l t ih =>
    have h1 : ∃ q, (if l.fromSock then suFrom e i p else suInit e user group i l p) = some q ∧ q.cred = p.cred := by
      obtain ⟨c1, c2, c3, c4⟩ := hc i
      split
      · unfold suFrom
        rw [c1, c4, if_pos (by rfl)]
        exact ⟨_, rfl, rfl⟩
      · rename_i hf
        unfold suInit
        dsimp only
        rw [c1, c3, hp, c2]
        rcases hl l List.mem_cons_self with h | h | h | h
        · exact absurd h hf
        · rw [if_neg (by omega), if_pos h, if_pos (by rfl)]; exact ⟨_, rfl, rfl⟩
        · rw [if_pos (Or.inl h), if_pos (by rfl)]; exact ⟨_, rfl, rfl⟩
        · rw [if_pos (Or.inr h), if_pos (by rfl)]; exact ⟨_, rfl, rfl⟩
    obtain ⟨q, h2, h3⟩ := h1
    unfold suListeners
    rw [h2, Option.bind_some]
    obtain ⟨r, h4, h5⟩ := ih (i + 1) q (by rw [h3]; exact hp) fun l hl' => hl l (List.mem_cons_of_mem _ hl')
    exact ⟨r, h4, h5.trans h3⟩

theorem suLookup_some {get : Bytes → Option Nat} {n : Option Bytes} (h : ∀ m, n = some m → ∃ u, get m = some u) : ∃ o, suLookup get n = some o := by
  unfold suLookup
  cases n with
  | none => exact ⟨_, rfl⟩
  | some m =>
    obtain ⟨u, hu⟩ := h m rfl
    dsimp only
    rw [hu]
    exact ⟨_, rfl⟩

theorem suMain_some {e : SuEnv} {c : SuCfg} {p0 : SuProc} (h : AllWell e c) (hr : p0.cred.euid = 0) : ∃ p, suMain e c p0 = some p := by
  unfold suMain
  dsimp only
  obtain ⟨u, hu⟩ := suLookup_some h.user
  obtain ⟨g, hg⟩ := suLookup_some h.group
  rw [hu, Option.bind_some, hg, Option.bind_some]
  have hx : ∀ (j : Bool) n p, (suAtExit e j n p).cred = p.cred := fun j n p => by
    obtain ⟨f, x, h1, _⟩ := suAtExit_same e j n p
    rw [h1]
  have h1 : ∃ p1, (match c.control with | none => { p0 with umask := 63 } | some (n, j) => suAtExit e (c.jail.isSome && j) n { p0 with umask := 63 }) = p1 ∧ p1.cred = p0.cred := by
    cases c.control with
    | none => exact ⟨_, rfl, rfl⟩
    | some x => exact ⟨_, rfl, hx _ _ _⟩
  obtain ⟨p1, e1, c1⟩ := h1
  obtain ⟨p2, h2, c2⟩ := suListeners_some (e := e) (user := u) (group := g) c.listeners 0 p1 (by rw [c1]; exact hr) h.family h.calls
  have h3 : ∃ p3, (if c.daemon then suDetach e p2 else some p2) = some p3 ∧ p3.cred = p2.cred := by
    split
    · obtain ⟨q, hq⟩ := suDetach_some e p2 h.detach
      obtain ⟨_, _, hd, _⟩ := suDetach_ok hq
      exact ⟨q, hq, by rw [hd]⟩
    · exact ⟨_, rfl, rfl⟩
  obtain ⟨p3, h4, c3⟩ := h3
  have h5 : ∃ p5, suJail e c.jail (suPidfile e c.jail.isSome c.pidfile p3) = some p5 ∧ p5.cred = p3.cred := by
    have hp : (suPidfile e c.jail.isSome c.pidfile p3).cred = p3.cred := by
      unfold suPidfile
      split
      · rfl
      · split
        · exact hx _ _ _
        · rfl
    unfold suJail
    split
    · exact ⟨_, rfl, hp⟩
    · rw [h.jail.1, h.jail.2, if_pos (by rfl)]
      exact ⟨_, rfl, hp⟩
  obtain ⟨p5, h6, c5⟩ := h5
  obtain ⟨cr, h7⟩ := suCred_root e u g p5.cred (by rw [c5, c3, c2, c1]; exact hr) h.setuid
  refine ⟨{ p5 with cred := cr }, ?_⟩
  have hm : ∀ p1', p1' = p1 → (suListeners e u g c.listeners 0 p1').bind (fun p => (if c.daemon then suDetach e p else some p).bind fun p =>
      (suJail e c.jail (suPidfile e c.jail.isSome c.pidfile p)).bind fun p => (suCred e u g p.cred).map fun cr => { p with cred := cr }) = some { p5 with cred := cr } := by
    intro p1' h
    subst h
    rw [h2, Option.bind_some, h4, Option.bind_some, h6, Option.bind_some, h7]
    rfl
  refine hm _ ?_
  rw [← e1]
  cases c.control <;> rfl

/-! ### Files that are removed -/

theorem head_none {b : Bytes} (hb : ch%'/' ∉ b) : b.head? ≠ some ch%'/' := by
  cases b with
  | nil => exact nofun
  | cons x t =>
    intro e
    cases e
    exact hb List.mem_cons_self

/-- The file that an entry stands for -/
def suTarget (cwd root : Bytes) : SuExit → Bytes
  | .name n => wdAbs cwd root n
  | .loc d b => wdAbs d root b

theorem suCleanup_eq (p : SuProc) : suCleanup p = p.exits.map (suTarget p.cwd p.root) := rfl

theorem suKept_jail {e : SuEnv} {n cwd root : Bytes} {x : SuExit} (h : x ∈ suKept e true n cwd root) (cwd' root' : Bytes) : suTarget cwd' root' x = located cwd root n := by
  unfold suKept at h
  rw [if_pos rfl] at h
  split at h
  · rename_i hs
    split at h
    · rename_i hd
      cases List.mem_singleton.1 h
      have hj := wdSplit_join hs
      have hb := wdSplit_base n
      generalize wdSplit n = q at hj hb hd
      obtain ⟨d, b⟩ := q
      show wdAbs (wdAbs cwd root d) root' b = _
      unfold wdAbs located
      dsimp only at hj hb hd
      rw [if_neg (head_none hb)]
      have hh : n.head? = d.head? := by
        rw [hj]
        cases d with
        | nil => exact absurd rfl hd.1
        | cons a t => rfl
      rw [hh]
      split
      · rw [hj]; simp
      · rw [hj]; simp
    · cases h
  · rename_i hs
    split at h
    · cases List.mem_singleton.1 h
      show wdAbs cwd root' n = _
      unfold wdAbs located
      rw [if_neg (head_none hs), if_neg (head_none hs)]
    · cases h

theorem suKept_some {e : SuEnv} {n cwd root : Bytes} (h : Keepable e cwd root n) : ∃ x, x ∈ suKept e true n cwd root := by
  unfold suKept
  rw [if_pos rfl]
  rcases h with ⟨h1, h2⟩ | ⟨d, b, h1, h2, h3, h4⟩
  · rw [if_neg h1, if_pos h2]
    exact ⟨_, List.mem_singleton.2 rfl⟩
  · rw [if_pos (by rw [h1]; simp)]
    have : wdSplit n = (d, b) := by rw [h1]; exact wdSplit_eq h2
    rw [this, if_pos ⟨h3, h4⟩]
    exact ⟨_, List.mem_singleton.2 rfl⟩

end Pound
