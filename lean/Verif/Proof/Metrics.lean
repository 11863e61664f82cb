import Verif.Spec.Metrics
import Verif.Proof.Json

/-!
The exposition made from the serialized state holds, family by family, the samples of all objects.
-/

namespace Pound

open Spec

/-! ### Objects -/

/-- A field of an object made with `jObject` -/
def fld {D} (l : List (Bytes × JVal D)) (k : Bytes) : JFld D := match lastSet l k with | some w => .found w | none => .enoent

theorem jBuild_sets {D} : ∀ (l : List (Bytes × JVal D)) (o : JObj (JVal D)), jBuild l o = jSets o l
  | [], _ => rfl
  | (k, v) :: l, o => by
    unfold jBuild jSets
    cases jSet o k v with
    | ub => rfl
    | ok o => exact jBuild_sets l o

theorem jObject_fields {D} (l : List (Bytes × JVal D)) :
    ∃ c ps, jObject l = .ok (.obj c ps) ∧ ∀ k, jField (.obj c ps) k = .ok (fld l k) := by
  obtain ⟨o, h, hi, hl⟩ := jSets_spec l jNew jinv_new
  refine ⟨o.count, o.pairs, ?_, ?_⟩
  · unfold jObject; rw [jBuild_sets, h]
  · intro k
    unfold jField fld
    have := hl k
    rw [show lookupL (jNew (V := JVal D)).pairs k = none from rfl, Option.or_none] at this
    dsimp only
    rw [jGet_spec (show JInv ⟨o.count, o.pairs⟩ from hi) k]
    rw [show lookupL (JObj.mk o.count o.pairs).pairs k = lastSet l k from this]
    cases lastSet l k <;> rfl

theorem resMap_map {α β} {f : α → Res β} {g : α → β} (h : ∀ x, f x = .ok (g x)) (l : List α) : resMap f l = .ok (l.map g) := by
  induction l with
  | nil => rfl
  | cons a r ih => unfold resMap; rw [h a]; dsimp only; rw [ih]; rfl

/-! ### Expositions -/

/-- The samples of a family -/
def samplesIn {D} (e : Expo D) (f : Fam) : List (Sample D) :=
  match e with
  | [] => []
  | (g, l) :: r => if g = f then l else samplesIn r f

def expoKeys {D} (e : Expo D) : List Fam := e.map (·.1)

def addKey (ks : List Fam) (f : Fam) : List Fam := if f ∈ ks then ks else ks ++ [f]

def addKeys (ks fs : List Fam) : List Fam := fs.foldl addKey ks

theorem expoAdd_keys {D} (f : Fam) (ss : List (Sample D)) (e : Expo D) : expoKeys (e.add f ss) = addKey (expoKeys e) f := by
  induction e with
  | nil => rfl
  | cons m r ih =>
    obtain ⟨g, l⟩ := m
    unfold Expo.add
    by_cases h : g = f
    · rw [if_pos h]; subst h; simp [expoKeys, addKey]
    · rw [if_neg h]
      show g :: expoKeys (Expo.add f ss r) = _
      rw [ih]
      unfold addKey
      have : f ∈ expoKeys ((g, l) :: r) ↔ f ∈ expoKeys r := by
        simp [expoKeys, Ne.symm h]
      by_cases hm : f ∈ expoKeys r
      · rw [if_pos hm, if_pos (this.mpr hm)]; rfl
      · rw [if_neg hm, if_neg (fun x => hm (this.mp x))]; rfl

theorem expoAdd_samples {D} (f : Fam) (ss : List (Sample D)) (e : Expo D) (g : Fam) :
    samplesIn (e.add f ss) g = samplesIn e g ++ if g = f then ss else [] := by
  induction e with
  | nil => 
    unfold Expo.add samplesIn
    by_cases h : f = g
    · rw [if_pos h, if_pos h.symm]; rfl
    · rw [if_neg h, if_neg (Ne.symm h)]; rfl
  | cons m r ih =>
    obtain ⟨k, l⟩ := m
    unfold Expo.add
    by_cases h : k = f
    · rw [if_pos h]
      unfold samplesIn
      by_cases hk : k = g
      · rw [if_pos hk, if_pos hk, if_pos (hk ▸ h)]
      · rw [if_neg hk, if_neg hk, if_neg (fun e => hk (h.trans e.symm)), List.append_nil]
    · rw [if_neg h]
      unfold samplesIn
      by_cases hk : k = g
      · rw [if_pos hk, if_pos hk, if_neg (fun e => h (hk.trans e)), List.append_nil]
      · rw [if_neg hk, if_neg hk, ih]

/-- The samples added to each family -/
def Grew {D} (e e' : Expo D) (s : Fam → List (Sample D)) : Prop := ∀ f, samplesIn e' f = samplesIn e f ++ s f

theorem Grew.refl {D} (e : Expo D) : Grew e e (fun _ => []) := fun f => (List.append_nil _).symm

theorem Grew.trans {D} {a b c : Expo D} {s t} (h : Grew a b s) (k : Grew b c t) : Grew a c (fun f => s f ++ t f) := by
  intro f; rw [k f, h f, List.append_assoc]

theorem Grew.congr {D} {a b : Expo D} {s t : Fam → List (Sample D)} (h : Grew a b s) (e : ∀ f, s f = t f) : Grew a b t := by
  intro f; rw [h f, e f]

theorem applyFamily_ok {D} (L : DblLib D) (pfx : MLabels) (obj : JVal D) (s : Fam → List (Sample D)) : ∀ (fs : List Fam), fs.Nodup → ∀ (e : Expo D),
    (∀ f ∈ fs, f.gen L pfx obj = .ok (some (s f))) →
    ∃ e', applyFamily L pfx obj fs e = .ok (some e') ∧ Grew e e' (fun f => if f ∈ fs then s f else []) ∧ expoKeys e' = addKeys (expoKeys e) fs := by
  intro fs
  induction fs with
  | nil => intro _ e _; exact ⟨e, rfl, (Grew.refl e).congr (fun f => by simp), rfl⟩
  | cons f r ih =>
    intro hn e h
    obtain ⟨e', h1, h2, h3⟩ := ih (List.nodup_cons.mp hn).2 (e.add f (s f)) (fun g hg => h g (List.mem_cons_of_mem _ hg))
    refine ⟨e', ?_, ?_, ?_⟩
    · unfold applyFamily
      rw [h f (List.mem_cons_self ..)]
      exact h1
    · intro g
      rw [h2 g, expoAdd_samples, List.append_assoc]
      congr 1
      by_cases hg : g = f
      · subst hg
        simp [(List.nodup_cons.mp hn).1]
      · simp [hg]
    · rw [h3, expoAdd_keys]; rfl

theorem applyFamily_fail {D} (L : DblLib D) (pfx : MLabels) (obj : JVal D) (s : Fam → List (Sample D)) : ∀ (fs : List Fam) (e : Expo D),
    (∀ f ∈ fs, f.gen L pfx obj = .ok (some (s f)) ∨ f.gen L pfx obj = .ok none) → (∃ f ∈ fs, f.gen L pfx obj = .ok none) →
    applyFamily L pfx obj fs e = .ok none := by
  intro fs
  induction fs with
  | nil => rintro e - ⟨f, hf, -⟩; cases hf
  | cons f r ih =>
    intro e h hx
    unfold applyFamily
    rcases h f (List.mem_cons_self ..) with hf | hf
    · rw [hf]
      refine ih _ (fun g hg => h g (List.mem_cons_of_mem _ hg)) ?_
      obtain ⟨g, hg, hn⟩ := hx
      rcases List.mem_cons.mp hg with rfl | hg
      · rw [hf] at hn; cases hn
      · exact ⟨g, hg, hn⟩
    · rw [hf]; rfl

/-- The loop over objects, when no step fails: `P` is what is known about the families that have been seen -/
theorem iterLoop_ok {D α} (step : MLabels → JVal D → Expo D → Res (Option (Expo D))) (label : Bytes) (g : α → JVal D)
    (s : MLabels → α → Fam → List (Sample D)) (P : List Fam → Prop) :
    ∀ (xs : List α),
    (∀ x ∈ xs, ∀ pfx e, P (expoKeys e) → ∃ e', step pfx (g x) e = .ok (some e') ∧ Grew e e' (s pfx x) ∧ P (expoKeys e')) →
    ∀ (i : Nat) (pfx : MLabels) (e : Expo D), P (expoKeys e) →
    ∃ e', iterLoop step label (xs.map g) i pfx e = .ok (some e') ∧
      Grew e e' (fun f => (xs.zipIdx i).flatMap fun p => s (pfx ++ [(label, dec p.2)]) p.1 f) ∧ P (expoKeys e') := by
  intro xs
  induction xs with
  | nil => intro _ i pfx e hp; exact ⟨e, rfl, (Grew.refl e).congr (fun f => by simp), hp⟩
  | cons x r ih =>
    intro hs i pfx e hp
    obtain ⟨e1, h1, u1, p1⟩ := hs x (List.mem_cons_self ..) (pfx ++ [(label, dec i)]) e hp
    obtain ⟨e2, h2, u2, p2⟩ := ih (fun y hy => hs y (List.mem_cons_of_mem _ hy)) (i + 1) pfx e1 p1
    refine ⟨e2, ?_, ?_, p2⟩
    · rw [List.map_cons]
      unfold iterLoop
      dsimp only
      rw [h1, List.dropLast_concat]
      exact h2
    · exact (u1.trans u2).congr (fun f => by simp [List.zipIdx_cons])

theorem iterLoop_fail {D α} (step : MLabels → JVal D → Expo D → Res (Option (Expo D))) (label : Bytes) (g : α → JVal D)
    (P : List Fam → Prop) (bad : α → Prop) :
    ∀ (xs : List α),
    (∀ x ∈ xs, ¬ bad x → ∀ pfx e, P (expoKeys e) → ∃ e', step pfx (g x) e = .ok (some e') ∧ P (expoKeys e')) →
    (∀ x ∈ xs, bad x → ∀ pfx e, P (expoKeys e) → step pfx (g x) e = .ok none) →
    ∀ (i : Nat) (pfx : MLabels) (e : Expo D), P (expoKeys e) → (∃ x ∈ xs, bad x) →
    iterLoop step label (xs.map g) i pfx e = .ok none := by
  intro xs
  induction xs with
  | nil => rintro - - i pfx e - ⟨x, hx, -⟩; cases hx
  | cons x r ih =>
    intro hs hb i pfx e hp hx
    rw [List.map_cons]
    unfold iterLoop
    dsimp only
    rcases Classical.em (bad x) with hbx | hbx
    · rw [hb x (List.mem_cons_self ..) hbx _ e hp]; rfl
    · obtain ⟨e1, h1, p1⟩ := hs x (List.mem_cons_self ..) hbx (pfx ++ [(label, dec i)]) e hp
      rw [h1, List.dropLast_concat]
      refine ih (fun y hy => hs y (List.mem_cons_of_mem _ hy)) (fun y hy => hb y (List.mem_cons_of_mem _ hy)) (i + 1) pfx e1 p1 ?_
      obtain ⟨y, hy, hby⟩ := hx
      rcases List.mem_cons.mp hy with rfl | hy
      · exact absurd hby hbx
      · exact ⟨y, hy, hby⟩

/-! ### Which families have been seen -/

def LF : List Fam := [.listenerEnabled, .listenerInfo]
def SF : List Fam := [.serviceInfo, .serviceEnabled, .backends]
def BF : List Fam := [.backendState, .backendRequests, .backendAvg, .backendStddev]

def keyShape (a b c : Bool) : List Fam := [Fam.workers] ++ (if a then LF else []) ++ (if b then SF else []) ++ (if c then BF else [])

theorem shape_BF : ∀ a c, addKeys (keyShape a true c) BF = keyShape a true true := by decide
theorem shape_SF : ∀ a b c : Bool, (c → b) → addKeys (keyShape a b c) SF = keyShape a true c := by decide
theorem shape_LF : ∀ a b c : Bool, (b → a) → (c → b) → addKeys (keyShape a b c) LF = keyShape true b c := by decide

def PB (a : Bool) (ks : List Fam) : Prop := ∃ c, ks = keyShape a true c
def PS (a : Bool) (ks : List Fam) : Prop := ∃ b c : Bool, (c → b) ∧ ks = keyShape a b c
def PL (ks : List Fam) : Prop := ∃ a b c : Bool, (b → a) ∧ (c → b) ∧ ks = keyShape a b c

/-! ### Backends -/

/-- The samples of one backend -/
def beSamples {D} (L : DblLib D) (stats : Bool) (pfx : MLabels) (b : MBe D) : Fam → List (Sample D)
  | .backendState => [⟨pfx ++ [(b!"state", b!"alive")], flag L (isAlive b)⟩, ⟨pfx ++ [(b!"state", b!"enabled")], flag L (isEnabled b)⟩]
  | .backendRequests => if stats && hasStats b then [⟨pfx, L.ofInt b.numreq⟩] else []
  | .backendAvg => if stats && hasStats b && decide (b.numreq > 0) then [⟨pfx, b.avgtime⟩] else []
  | .backendStddev => if stats && hasStats b && decide (b.numreq > 0) then [⟨pfx, L.dev b.avgsqtime b.avgtime⟩] else []
  | _ => []

theorem isAlive_eq {D} (b : MBe D) : isAlive b = b.v.alive := by unfold isAlive MBeV.alive; cases b.v <;> rfl
theorem hasStats_eq {D} (b : MBe D) : hasStats b = !b.v.isMatrix := by unfold hasStats MBeV.isMatrix; cases b.v <;> rfl

theorem getBool_of {D} {v : JVal D} {k : Bytes} {b : Bool} (h : jField v k = .ok (.found (.bool b))) : getBool v k = .ok (some b) := by
  unfold getBool; rw [h]
theorem getStr_of {D} {v : JVal D} {k s : Bytes} (h : jField v k = .ok (.found (.str s))) : getStr v k = .ok (some s) := by
  unfold getStr; rw [h]
theorem getNumber_of {D} {v : JVal D} {k : Bytes} {d : D} (h : jField v k = .ok (.found (.num d))) : getNumber v k = .ok (some d) := by
  unfold getNumber; rw [h]
theorem getArr_of {D} {v : JVal D} {k : Bytes} {l : List (JVal D)} (h : jField v k = .ok (.found (.arr l))) : getArr v k = .ok (some l) := by
  unfold getArr; rw [h]
theorem getName_of {D} {v : JVal D} {n : Option Bytes} (h : jField v b!"name" = .ok (.found (jOpt n))) : getName v = .ok (some (n.getD [])) := by
  unfold getName; rw [h]; cases n <;> rfl

/-- What the metrics read of a serialized backend -/
structure BeJson {D} (L : DblLib D) (stats : Bool) (b : MBe D) (v : JVal D) : Prop where
  alive : jField v b!"alive" = .ok (.found (.bool (isAlive b)))
  enabled : jField v b!"enabled" = .ok (.found (.bool !b.disabled))
  stats : if stats && hasStats b then
      ∃ c ps, jField v b!"stats" = .ok (.found (.obj c ps)) ∧ jField (.obj c ps) b!"request_count" = .ok (.found (.num (L.ofInt b.numreq))) ∧
        jField (.obj c ps) b!"request_time_avg" = .ok (if b.numreq > 0 then .found (.num b.avgtime) else .enoent) ∧
        jField (.obj c ps) b!"request_time_stddev" = .ok (if b.numreq > 0 then .found (.num (L.dev b.avgsqtime b.avgtime)) else .enoent)
    else jField v b!"stats" = .ok .enoent

theorem mbeSerialize_spec {D} (L : DblLib D) (stats : Bool) (b : MBe D) : ∃ v, mbeSerialize L stats b = .ok v ∧ BeJson L stats b v := by
  unfold mbeSerialize
  dsimp only
  rw [← hasStats_eq]
  by_cases h : (stats && hasStats b) = true
  · rw [if_pos h]
    unfold statsSerialize
    obtain ⟨c, ps, h1, h2⟩ := jObject_fields ((b!"request_count", (.num (L.ofInt b.numreq) : JVal D)) ::
      if b.numreq > 0 then [(b!"request_time_avg", .num b.avgtime), (b!"request_time_stddev", .num (L.dev b.avgsqtime b.avgtime))] else [])
    rw [h1]
    dsimp only
    obtain ⟨c', ps', h3, h4⟩ := jObject_fields ([(b!"type", (.str b.v.typeStr : JVal D)), (b!"priority", .int (L.ofInt b.priority)),
      (b!"alive", .bool b.v.alive), (b!"enabled", .bool !b.disabled), (b!"weight", .int (L.ofInt b.weight))] ++ b.v.attrs L ++ [(b!"stats", .obj c ps)])
    refine ⟨_, h3, ?_, ?_, ?_⟩
    · rw [h4]
      obtain ⟨v, _, _, _, _, _, _⟩ := b
      cases v with
      | matrix h m f sn dyn => cases dyn <;> rfl
      | regular a io c w ht sn dyn al => cases dyn <;> rfl
      | _ => rfl
    · rw [h4]
      obtain ⟨v, _, _, _, _, _, _⟩ := b
      cases v with
      | matrix h m f sn dyn => cases dyn <;> rfl
      | regular a io c w ht sn dyn al => cases dyn <;> rfl
      | _ => rfl
    · rw [if_pos h]
      refine ⟨c, ps, ?_, ?_, ?_, ?_⟩
      · rw [h4]
        unfold fld lastSet
        rw [List.reverse_append]
        rfl
      · rw [h2]; split <;> rfl
      · rw [h2]; split <;> rfl
      · rw [h2]; split <;> rfl
  · rw [if_neg h]
    obtain ⟨c', ps', h3, h4⟩ := jObject_fields ([(b!"type", (.str b.v.typeStr : JVal D)), (b!"priority", .int (L.ofInt b.priority)),
      (b!"alive", .bool b.v.alive), (b!"enabled", .bool !b.disabled), (b!"weight", .int (L.ofInt b.weight))] ++ b.v.attrs L)
    refine ⟨_, h3, ?_, ?_, ?_⟩
    · rw [h4]
      obtain ⟨v, _, _, _, _, _, _⟩ := b
      cases v with
      | matrix h m f sn dyn => cases dyn <;> rfl
      | regular a io c w ht sn dyn al => cases dyn <;> rfl
      | _ => rfl
    · rw [h4]
      obtain ⟨v, _, _, _, _, _, _⟩ := b
      cases v with
      | matrix h m f sn dyn => cases dyn <;> rfl
      | regular a io c w ht sn dyn al => cases dyn <;> rfl
      | _ => rfl
    · rw [if_neg h, h4]
      obtain ⟨v, _, _, _, _, _, _⟩ := b
      cases v with
      | matrix h m f sn dyn => cases dyn <;> rfl
      | regular a io c w ht sn dyn al => cases dyn <;> rfl
      | _ => rfl

theorem be_gen {D} (L : DblLib D) (stats : Bool) (b : MBe D) (v : JVal D) (h : BeJson L stats b v) (pfx : MLabels) :
    ∀ f ∈ BF, f.gen L pfx v = .ok (some (beSamples L stats pfx b f)) := by
  obtain ⟨h1, h2, h3⟩ := h
  have hstat : ∀ attr d, (if stats && hasStats b then
      ∃ c ps, jField v b!"stats" = .ok (.found (.obj c ps)) ∧ jField (.obj c ps) attr = .ok (if b.numreq > 0 then .found (.num d) else .enoent)
      else jField v b!"stats" = .ok .enoent) →
      genStats attr pfx v = .ok (some (if stats && hasStats b && decide (b.numreq > 0) then [⟨pfx, d⟩] else [])) := by
    intro attr d hh
    unfold genStats
    by_cases hs : (stats && hasStats b) = true
    · rw [if_pos hs] at hh
      obtain ⟨c, ps, e1, e2⟩ := hh
      rw [e1]; dsimp only; rw [e2]
      by_cases hn : b.numreq > 0
      · rw [if_pos hn]; simp [hs, hn]
      · rw [if_neg hn]; simp [hn]
    · rw [if_neg hs] at hh
      rw [hh, if_neg (by simp only [Bool.and_eq_true]; exact fun x => hs (by simpa using x.1))]
  intro f hf
  simp only [BF, List.mem_cons, List.not_mem_nil, or_false] at hf
  rcases hf with rfl | rfl | rfl | rfl
  · show genBackendState L pfx v = _
    unfold genBackendState
    rw [getBool_of h1, getBool_of h2]
    rfl
  · show genStats _ pfx v = _
    unfold genStats beSamples
    by_cases hs : (stats && hasStats b) = true
    · rw [if_pos hs] at h3
      obtain ⟨c, ps, e1, e2, -⟩ := h3
      rw [e1]; dsimp only; rw [e2, if_pos hs]
    · rw [if_neg hs] at h3
      rw [h3, if_neg hs]
  · refine hstat _ _ ?_
    by_cases hs : (stats && hasStats b) = true
    · rw [if_pos hs] at h3 ⊢
      obtain ⟨c, ps, e1, -, e2, -⟩ := h3
      exact ⟨c, ps, e1, e2⟩
    · rw [if_neg hs] at h3 ⊢; exact h3
  · refine hstat _ _ ?_
    by_cases hs : (stats && hasStats b) = true
    · rw [if_pos hs] at h3 ⊢
      obtain ⟨c, ps, e1, -, -, e2⟩ := h3
      exact ⟨c, ps, e1, e2⟩
    · rw [if_neg hs] at h3 ⊢; exact h3

/-- The serialized form of each backend -/
theorem beJson_fun {D} (L : DblLib D) (stats : Bool) : ∃ g : MBe D → JVal D, ∀ b, mbeSerialize L stats b = .ok (g b) ∧ BeJson L stats b (g b) :=
  ⟨fun b => Classical.choose (mbeSerialize_spec L stats b), fun b => Classical.choose_spec (mbeSerialize_spec L stats b)⟩

theorem backends_iter {D} (L : DblLib D) (stats : Bool) (g : MBe D → JVal D) (hg : ∀ b, BeJson L stats b (g b)) (bs : List (MBe D)) (v : JVal D)
    (hv : jField v b!"backends" = .ok (.found (.arr (bs.map g)))) (a : Bool) (pfx : MLabels) (e : Expo D) (hp : PB a (expoKeys e)) :
    ∃ e', expoIterate L [backendDefn] pfx v e = .ok (some e') ∧
      Grew e e' (fun f => (placed pfx b!"backend" bs).flatMap fun p => beSamples L stats p.1 p.2 f) ∧ PB a (expoKeys e') := by
  unfold expoIterate
  rw [show backendDefn.attr = b!"backends" from rfl, hv]
  dsimp only
  let step := fun (pfx : MLabels) (v : JVal D) (e : Expo D) => (applyFamily L pfx v backendDefn.families e).bindO fun e => expoIterate L [] pfx v e
  have hstep : ∀ b ∈ bs, ∀ pfx e, PB a (expoKeys e) → ∃ e', step pfx (g b) e = .ok (some e') ∧ Grew e e' (beSamples L stats pfx b) ∧ PB a (expoKeys e') := by
    rintro b - pfx e ⟨c, hc⟩
    obtain ⟨e', h1, h2, h3⟩ := applyFamily_ok L pfx (g b) (beSamples L stats pfx b) BF (by decide) e (be_gen L stats b (g b) (hg b) pfx)
    refine ⟨e', ?_, h2.congr ?_, ⟨true, ?_⟩⟩
    · show (applyFamily L pfx (g b) BF e).bindO _ = _
      rw [h1]; rfl
    · intro f
      cases f <;> rfl
    · rw [h3, hc, shape_BF]
  obtain ⟨e', h1, h2, h3⟩ := iterLoop_ok step backendDefn.label g (fun pfx b f => beSamples L stats pfx b f) (PB a) bs hstep 0 pfx e hp
  refine ⟨e', h1, h2.congr ?_, h3⟩
  intro f
  unfold placed
  rw [List.flatMap_map]
  rfl

/-! ### Services -/

/-- What the metrics read of a serialized service -/
structure SvcJson {D} (g : MBe D → JVal D) (s : MSvc D) (v : JVal D) : Prop where
  name : jField v b!"name" = .ok (.found (jOpt s.name))
  enabled : jField v b!"enabled" = .ok (.found (.bool !s.disabled))
  backends : jField v b!"backends" = .ok (.found (if s.balancers.isEmpty then .null else .arr (s.balancers.flatten.map g)))

theorem msvcSerialize_spec {D} (L : DblLib D) (stats : Bool) (g : MBe D → JVal D) (hg : ∀ b, mbeSerialize L stats b = .ok (g b)) (s : MSvc D) :
    ∃ v, msvcSerialize L stats s = .ok v ∧ SvcJson g s v := by
  unfold msvcSerialize
  have hb : mbesSerialize L stats s.balancers = .ok (if s.balancers.isEmpty then .null else .arr (s.balancers.flatten.map g)) := by
    unfold mbesSerialize
    split
    · rfl
    · rw [resMap_map hg]
  rw [hb]
  dsimp only
  obtain ⟨c, ps, h1, h2⟩ := jObject_fields [(b!"name", (jOpt s.name : JVal D)), (b!"enabled", .bool !s.disabled), (b!"session_type", .str s.sessType),
    (b!"sessions", s.sessions), (b!"backends", if s.balancers.isEmpty then .null else .arr (s.balancers.flatten.map g))]
  refine ⟨_, h1, ?_, ?_, ?_⟩ <;> rw [h2] <;> rfl

/-- The samples of one service, without its backends -/
def svcSamples {D} (L : DblLib D) (pfx : MLabels) (s : MSvc D) : Fam → List (Sample D)
  | .serviceInfo => [⟨pfx ++ [(b!"name", s.name.getD [])], L.ofInt 1⟩]
  | .serviceEnabled => [⟨pfx, flag L !s.disabled⟩]
  | .backends =>
      let bs := s.balancers.flatten
      [⟨pfx ++ [(b!"state", b!"total")], L.ofInt bs.length⟩,
       ⟨pfx ++ [(b!"state", b!"enabled")], L.ofInt (bs.filter isEnabled).length⟩,
       ⟨pfx ++ [(b!"state", b!"alive")], L.ofInt (bs.filter isAlive).length⟩,
       ⟨pfx ++ [(b!"state", b!"active")], L.ofInt (bs.filter fun b => isAlive b && isEnabled b).length⟩]
  | _ => []

theorem countLoop_spec {D} (L : DblLib D) (stats : Bool) (g : MBe D → JVal D) (hg : ∀ b, BeJson L stats b (g b)) : ∀ (bs : List (MBe D)) (x y z : Nat),
    countLoop (bs.map g) x y z = .ok (x + (bs.filter isEnabled).length, y + (bs.filter isAlive).length,
      z + (bs.filter fun b => isAlive b && isEnabled b).length) := by
  intro bs
  induction bs with
  | nil => intro x y z; rfl
  | cons b r ih =>
    intro x y z
    rw [List.map_cons]
    unfold countLoop
    rw [getBool_of (hg b).enabled, getBool_of (hg b).alive]
    dsimp only
    cases hd : b.disabled <;> cases ha : isAlive b <;>
      simp [ih, isEnabled, hd, ha] <;> omega

theorem svc_gen {D} (L : DblLib D) (stats : Bool) (g : MBe D → JVal D) (hg : ∀ b, BeJson L stats b (g b)) (s : MSvc D) (v : JVal D) (h : SvcJson g s v)
    (pfx : MLabels) : ∀ f ∈ SF, f.gen L pfx v = .ok (if f = .backends ∧ s.balancers = [] then none else some (svcSamples L pfx s f)) := by
  intro f hf
  simp only [SF, List.mem_cons, List.not_mem_nil, or_false] at hf
  rcases hf with rfl | rfl | rfl
  · show genServiceInfo L pfx v = _
    unfold genServiceInfo
    rw [getName_of h.name]
    rfl
  · show genEnabled L pfx v = _
    unfold genEnabled
    rw [getBool_of h.enabled]
    rfl
  · show genBackends L pfx v = _
    unfold genBackends
    have hb := h.backends
    by_cases hn : s.balancers = []
    · rw [if_pos ⟨rfl, hn⟩]
      rw [hn] at hb
      unfold getArr
      rw [hb]
      rfl
    · rw [if_neg (fun x => hn x.2)]
      have : s.balancers.isEmpty = false := by simpa using hn
      rw [this] at hb
      rw [getArr_of hb]
      show (match countLoop (s.balancers.flatten.map g) 0 0 0 with | .ub => _ | .ok (ne, na, nb) => _) = _
      rw [countLoop_spec L stats g hg]
      simp only [svcSamples, List.length_map, Nat.zero_add]

/-- The samples of one service and its backends -/
def svcAll {D} (L : DblLib D) (stats : Bool) (pfx : MLabels) (s : MSvc D) (f : Fam) : List (Sample D) :=
  svcSamples L pfx s f ++ (placed pfx b!"backend" s.balancers.flatten).flatMap fun p => beSamples L stats p.1 p.2 f

/-- One step of the loop over services -/
def svcStep {D} (L : DblLib D) (pfx : MLabels) (v : JVal D) (e : Expo D) : Res (Option (Expo D)) :=
  (applyFamily L pfx v serviceDefn.families e).bindO fun e => expoIterate L [backendDefn] pfx v e

theorem svc_step_ok {D} (L : DblLib D) (stats : Bool) (g : MBe D → JVal D) (hg : ∀ b, BeJson L stats b (g b)) (s : MSvc D) (v : JVal D) (h : SvcJson g s v)
    (hne : s.balancers ≠ []) (a : Bool) (pfx : MLabels) (e : Expo D) (hp : PS a (expoKeys e)) :
    ∃ e', svcStep L pfx v e = .ok (some e') ∧ Grew e e' (svcAll L stats pfx s) ∧ PS a (expoKeys e') := by
  obtain ⟨b, c, hbc, hk⟩ := hp
  obtain ⟨e1, h1, u1, k1⟩ := applyFamily_ok L pfx v (svcSamples L pfx s) SF (by decide) e (fun f hf => by
    rw [svc_gen L stats g hg s v h pfx f hf, if_neg (fun x => hne x.2)])
  have hb := h.backends
  rw [if_neg (by simpa using hne)] at hb
  obtain ⟨e2, h2, u2, c2, k2⟩ := backends_iter L stats g hg s.balancers.flatten v hb a pfx e1 ⟨c, by rw [k1, hk, shape_SF a b c hbc]⟩
  refine ⟨e2, ?_, (u1.trans u2).congr ?_, ⟨true, c2, fun _ => rfl, k2⟩⟩
  · show (applyFamily L pfx v SF e).bindO _ = _
    rw [h1]; exact h2
  · intro f
    unfold svcAll
    congr 1
    cases f <;> rfl

theorem svc_step_fail {D} (L : DblLib D) (stats : Bool) (g : MBe D → JVal D) (hg : ∀ b, BeJson L stats b (g b)) (s : MSvc D) (v : JVal D) (h : SvcJson g s v)
    (he : s.balancers = []) (pfx : MLabels) (e : Expo D) : svcStep L pfx v e = .ok none := by
  show (applyFamily L pfx v SF e).bindO _ = _
  rw [applyFamily_fail L pfx v (svcSamples L pfx s) SF e]
  · rfl
  · intro f hf
    rw [svc_gen L stats g hg s v h pfx f hf]
    split
    · exact .inr rfl
    · exact .inl rfl
  · refine ⟨.backends, by decide, ?_⟩
    rw [svc_gen L stats g hg s v h pfx _ (by decide), if_pos ⟨rfl, he⟩]

theorem svcs_iter_eq {D} (L : DblLib D) (l : List (JVal D)) (v : JVal D) (hv : jField v b!"services" = .ok (.found (.arr l))) (pfx : MLabels) (e : Expo D) :
    expoIterate L [serviceDefn, backendDefn] pfx v e = iterLoop (svcStep L) b!"service" l 0 pfx e := by
  rw [expoIterate]
  rw [show serviceDefn.attr = b!"services" from rfl, hv]
  rfl

theorem svcs_iter_ok {D} (L : DblLib D) (stats : Bool) (g : MBe D → JVal D) (hg : ∀ b, BeJson L stats b (g b)) (gs : MSvc D → JVal D)
    (hgs : ∀ s, SvcJson g s (gs s)) (ss : List (MSvc D)) (hne : ∀ s ∈ ss, s.balancers ≠ []) (v : JVal D)
    (hv : jField v b!"services" = .ok (.found (.arr (ss.map gs)))) (a : Bool) (pfx : MLabels) (e : Expo D) (hp : PS a (expoKeys e)) :
    ∃ e', expoIterate L [serviceDefn, backendDefn] pfx v e = .ok (some e') ∧
      Grew e e' (fun f => (placed pfx b!"service" ss).flatMap fun p => svcAll L stats p.1 p.2 f) ∧ PS a (expoKeys e') := by
  rw [svcs_iter_eq L _ v hv]
  obtain ⟨e', h1, h2, h3⟩ := iterLoop_ok (svcStep L) b!"service" gs (svcAll L stats) (PS a) ss
    (fun s hs pfx e hp => svc_step_ok L stats g hg s (gs s) (hgs s) (hne s hs) a pfx e hp) 0 pfx e hp
  refine ⟨e', h1, h2.congr ?_, h3⟩
  intro f
  unfold placed
  rw [List.flatMap_map]

theorem svcs_iter_fail {D} (L : DblLib D) (stats : Bool) (g : MBe D → JVal D) (hg : ∀ b, BeJson L stats b (g b)) (gs : MSvc D → JVal D)
    (hgs : ∀ s, SvcJson g s (gs s)) (ss : List (MSvc D)) (hex : ∃ s ∈ ss, s.balancers = []) (v : JVal D)
    (hv : jField v b!"services" = .ok (.found (.arr (ss.map gs)))) (a : Bool) (pfx : MLabels) (e : Expo D) (hp : PS a (expoKeys e)) :
    expoIterate L [serviceDefn, backendDefn] pfx v e = .ok none := by
  rw [svcs_iter_eq L _ v hv]
  refine iterLoop_fail (svcStep L) b!"service" gs (PS a) (fun s => s.balancers = []) ss ?_ ?_ 0 pfx e hp hex
  · intro s _ hs pfx e hp
    obtain ⟨e', h1, -, h3⟩ := svc_step_ok L stats g hg s (gs s) (hgs s) hs a pfx e hp
    exact ⟨e', h1, h3⟩
  · intro s _ hs pfx e _
    exact svc_step_fail L stats g hg s (gs s) (hgs s) hs pfx e

/-! ### Listeners -/

/-- What the metrics read of a serialized listener -/
structure LstJson {D} (gs : MSvc D → JVal D) (l : MLst D) (v : JVal D) : Prop where
  name : jField v b!"name" = .ok (.found (jOpt l.name))
  address : jField v b!"address" = .ok (.found (.str l.address))
  protocol : jField v b!"protocol" = .ok (.found (.str (if l.https then b!"https" else b!"http")))
  enabled : jField v b!"enabled" = .ok (.found (.bool !l.disabled))
  services : jField v b!"services" = .ok (.found (.arr (l.services.map gs)))

theorem mlstSerialize_spec {D} (L : DblLib D) (stats : Bool) (gs : MSvc D → JVal D) (hgs : ∀ s, msvcSerialize L stats s = .ok (gs s)) (l : MLst D) :
    ∃ v, mlstSerialize L stats l = .ok v ∧ LstJson gs l v := by
  unfold mlstSerialize
  rw [resMap_map hgs]
  dsimp only
  obtain ⟨c, ps, h1, h2⟩ := jObject_fields ([(b!"name", (jOpt l.name : JVal D)), (b!"address", .str l.address),
      (b!"protocol", .str (if l.https then b!"https" else b!"http"))] ++ (if l.https then [(b!"nohttps11", .int (L.ofInt l.noHttps11))] else []) ++
      [(b!"enabled", .bool !l.disabled), (b!"services", .arr (l.services.map gs))])
  obtain ⟨_, _, https, _, _, _⟩ := l
  refine ⟨_, h1, ?_, ?_, ?_, ?_, ?_⟩ <;> rw [h2] <;> cases https <;> rfl

/-- The samples of one listener, without its services -/
def lstSamples {D} (L : DblLib D) (pfx : MLabels) (l : MLst D) : Fam → List (Sample D)
  | .listenerEnabled => [⟨pfx, flag L !l.disabled⟩]
  | .listenerInfo =>
    [⟨pfx ++ [(b!"name", l.name.getD []), (b!"address", l.address), (b!"protocol", if l.https then b!"https" else b!"http")], L.ofInt 1⟩]
  | _ => []

theorem lst_gen {D} (L : DblLib D) (gs : MSvc D → JVal D) (l : MLst D) (v : JVal D) (h : LstJson gs l v) (pfx : MLabels) :
    ∀ f ∈ LF, f.gen L pfx v = .ok (some (lstSamples L pfx l f)) := by
  intro f hf
  simp only [LF, List.mem_cons, List.not_mem_nil, or_false] at hf
  rcases hf with rfl | rfl
  · show genEnabled L pfx v = _
    unfold genEnabled
    rw [getBool_of h.enabled]
    rfl
  · show genListenerInfo L pfx v = _
    unfold genListenerInfo
    rw [getName_of h.name, getStr_of h.address, getStr_of h.protocol]
    simp [Res.bindO, lstSamples]

/-- The samples of one listener and its services -/
def lstAll {D} (L : DblLib D) (stats : Bool) (pfx : MLabels) (l : MLst D) (f : Fam) : List (Sample D) :=
  lstSamples L pfx l f ++ (placed pfx b!"service" l.services).flatMap fun p => svcAll L stats p.1 p.2 f

/-- One step of the loop over listeners -/
def lstStep {D} (L : DblLib D) (pfx : MLabels) (v : JVal D) (e : Expo D) : Res (Option (Expo D)) :=
  (applyFamily L pfx v listenerDefn.families e).bindO fun e => expoIterate L [serviceDefn, backendDefn] pfx v e

theorem lst_head {D} (L : DblLib D) (gs : MSvc D → JVal D) (l : MLst D) (v : JVal D) (h : LstJson gs l v) (pfx : MLabels) (e : Expo D)
    (hp : PL (expoKeys e)) : ∃ e', applyFamily L pfx v LF e = .ok (some e') ∧ Grew e e' (lstSamples L pfx l) ∧ PS true (expoKeys e') := by
  obtain ⟨a, b, c, hab, hbc, hk⟩ := hp
  obtain ⟨e1, h1, u1, k1⟩ := applyFamily_ok L pfx v (lstSamples L pfx l) LF (by decide) e (lst_gen L gs l v h pfx)
  refine ⟨e1, h1, u1.congr ?_, ⟨b, c, hbc, by rw [k1, hk, shape_LF a b c hab hbc]⟩⟩
  intro f; cases f <;> rfl

theorem PS_PL {ks : List Fam} (h : PS true ks) : PL ks := by
  obtain ⟨b, c, h1, h2⟩ := h
  exact ⟨true, b, c, fun _ => rfl, h1, h2⟩

theorem lst_step_ok {D} (L : DblLib D) (stats : Bool) (g : MBe D → JVal D) (hg : ∀ b, BeJson L stats b (g b)) (gs : MSvc D → JVal D)
    (hgs : ∀ s, SvcJson g s (gs s)) (l : MLst D) (v : JVal D) (h : LstJson gs l v) (hne : ∀ s ∈ l.services, s.balancers ≠ []) (pfx : MLabels)
    (e : Expo D) (hp : PL (expoKeys e)) : ∃ e', lstStep L pfx v e = .ok (some e') ∧ Grew e e' (lstAll L stats pfx l) ∧ PL (expoKeys e') := by
  obtain ⟨e1, h1, u1, k1⟩ := lst_head L gs l v h pfx e hp
  obtain ⟨e2, h2, u2, k2⟩ := svcs_iter_ok L stats g hg gs hgs l.services hne v h.services true pfx e1 k1
  refine ⟨e2, ?_, u1.trans u2, PS_PL k2⟩
  show (applyFamily L pfx v LF e).bindO _ = _
  rw [h1]; exact h2

theorem lst_step_fail {D} (L : DblLib D) (stats : Bool) (g : MBe D → JVal D) (hg : ∀ b, BeJson L stats b (g b)) (gs : MSvc D → JVal D)
    (hgs : ∀ s, SvcJson g s (gs s)) (l : MLst D) (v : JVal D) (h : LstJson gs l v) (hex : ∃ s ∈ l.services, s.balancers = []) (pfx : MLabels)
    (e : Expo D) (hp : PL (expoKeys e)) : lstStep L pfx v e = .ok none := by
  obtain ⟨e1, h1, u1, k1⟩ := lst_head L gs l v h pfx e hp
  show (applyFamily L pfx v LF e).bindO _ = _
  rw [h1]
  exact svcs_iter_fail L stats g hg gs hgs l.services hex v h.services true pfx e1 k1

theorem lsts_iter_eq {D} (L : DblLib D) (l : List (JVal D)) (v : JVal D) (hv : jField v b!"listeners" = .ok (.found (.arr l))) (pfx : MLabels) (e : Expo D) :
    expoIterate L [listenerDefn, serviceDefn, backendDefn] pfx v e = iterLoop (lstStep L) b!"listener" l 0 pfx e := by
  rw [expoIterate]
  rw [show listenerDefn.attr = b!"listeners" from rfl, hv]
  rfl

/-! ### The whole exposition -/

theorem workers_gen {D} (L : DblLib D) (w : MWorkers) : ∃ c ps, workersSerialize L w = .ok (.obj c ps) ∧
    Fam.gen L [] (.obj c ps) .workers = .ok (some [⟨[(b!"type", b!"active")], L.ofInt w.active⟩, ⟨[(b!"type", b!"count")], L.ofInt w.count⟩,
      ⟨[(b!"type", b!"max")], L.ofInt w.max⟩, ⟨[(b!"type", b!"min")], L.ofInt w.min⟩]) := by
  unfold workersSerialize
  obtain ⟨c, ps, h1, h2⟩ := jObject_fields [(b!"min", (.num (L.ofInt w.min) : JVal D)), (b!"max", .num (L.ofInt w.max)), (b!"timeout", .num (L.ofInt w.timeout)),
    (b!"count", .num (L.ofInt w.count)), (b!"active", .num (L.ofInt w.active))]
  refine ⟨c, ps, h1, ?_⟩
  show genWorkers [] _ = _
  unfold genWorkers
  simp only [genWorkersLoop]
  rw [getNumber_of (d := L.ofInt w.active) ((h2 _).trans rfl), getNumber_of (d := L.ofInt w.count) ((h2 _).trans rfl),
    getNumber_of (d := L.ofInt w.max) ((h2 _).trans rfl), getNumber_of (d := L.ofInt w.min) ((h2 _).trans rfl)]
  rfl

/-- All samples of a family, in the order of the walk -/
def walkSamples {D} (L : DblLib D) (st : MState D) (f : Fam) : List (Sample D) :=
  (if f = .workers then samplesOf L st .workers else []) ++
  ((placed [] b!"listener" st.listeners).flatMap (fun p => lstAll L st.stats p.1 p.2 f) ++
   (placed [] b!"service" st.services).flatMap fun p => svcAll L st.stats p.1 p.2 f)

theorem metrics_fill {D} (L : DblLib D) (st : MState D) : ∃ v, poundSerialize L st = .ok v ∧
    ((AllHaveBackends st ∧ ∃ e a, expoFill L v = .ok (some e) ∧ (∀ f, samplesIn e f = walkSamples L st f) ∧ PS a (expoKeys e)) ∨
     (¬ AllHaveBackends st ∧ expoFill L v = .ok none)) := by
  obtain ⟨g, hg⟩ := beJson_fun L st.stats
  obtain ⟨gs, hgs⟩ : ∃ gs : MSvc D → JVal D, ∀ s, msvcSerialize L st.stats s = .ok (gs s) ∧ SvcJson g s (gs s) :=
    ⟨fun s => Classical.choose (msvcSerialize_spec L st.stats g (fun b => (hg b).1) s), fun s => Classical.choose_spec (msvcSerialize_spec L st.stats g (fun b => (hg b).1) s)⟩
  obtain ⟨gl, hgl⟩ : ∃ gl : MLst D → JVal D, ∀ s, mlstSerialize L st.stats s = .ok (gl s) ∧ LstJson gs s (gl s) :=
    ⟨fun s => Classical.choose (mlstSerialize_spec L st.stats gs (fun b => (hgs b).1) s), fun s => Classical.choose_spec (mlstSerialize_spec L st.stats gs (fun b => (hgs b).1) s)⟩
  obtain ⟨c, ps, hw1, hw2⟩ := workers_gen L st.workers
  obtain ⟨c', ps', h1, h2⟩ := jObject_fields [(b!"version", (.str st.version : JVal D)), (b!"pid", .int (L.ofInt st.pid)), (b!"timestamp", .str st.timestamp),
    (b!"queue_len", .int (L.ofInt st.queueLen)), (b!"workers", .obj c ps), (b!"listeners", .arr (st.listeners.map gl)), (b!"services", .arr (st.services.map gs))]
  have hl : jField (.obj c' ps') b!"listeners" = .ok (.found (.arr (st.listeners.map gl))) := (h2 _).trans rfl
  have hs : jField (.obj c' ps') b!"services" = .ok (.found (.arr (st.services.map gs))) := (h2 _).trans rfl
  have hw : jField (.obj c' ps') b!"workers" = .ok (.found (.obj c ps)) := (h2 _).trans rfl
  refine ⟨.obj c' ps', ?_, ?_⟩
  · unfold poundSerialize
    rw [hw1, resMap_map (fun x => (hgl x).1), resMap_map (fun x => (hgs x).1)]
    exact h1
  · have hfill : expoFill L (.obj c' ps') = (iterLoop (lstStep L) b!"listener" (st.listeners.map gl) 0 [] [(Fam.workers, samplesOf L st .workers)]).bindO
        fun e => expoIterate L [serviceDefn, backendDefn] [] (.obj c' ps') e := by
      unfold expoFill
      rw [hw]
      dsimp only
      rw [show applyFamily L [] (.obj c ps) [.workers] [] = .ok (some [(Fam.workers, samplesOf L st .workers)]) by
        unfold applyFamily; rw [hw2]; rfl]
      show (expoIterate L [listenerDefn, serviceDefn, backendDefn] [] (.obj c' ps') _).bindO _ = _
      rw [lsts_iter_eq L _ _ hl]
    have hp0 : PL (expoKeys [(Fam.workers, samplesOf L st .workers)]) := ⟨false, false, false, id, id, rfl⟩
    have hserv : ∀ s : MSvc D, (∃ ls, (ls, s) ∈ allServices st) ↔ ((∃ l ∈ st.listeners, s ∈ l.services) ∨ s ∈ st.services) := by
      intro s
      have hpl : ∀ {α} (pfx : MLabels) (lab : Bytes) (l : List α) (x : α), (∃ ls, (ls, x) ∈ placed pfx lab l) ↔ x ∈ l := by
        intro α pfx lab l x
        unfold placed
        constructor
        · rintro ⟨ls, h⟩
          obtain ⟨p, hp, he⟩ := List.mem_map.mp h
          cases he
          exact (List.mem_zipIdx' hp).2 ▸ List.getElem_mem _
        · intro h
          obtain ⟨i, hi, rfl⟩ := List.getElem_of_mem h
          exact ⟨pfx ++ [(lab, dec i)], List.mem_map.mpr ⟨(l[i], i), by simp [List.mem_zipIdx_iff_getElem?, hi], rfl⟩⟩
      unfold allServices
      constructor
      · rintro ⟨ls, h⟩
        rcases List.mem_append.mp h with h | h
        · obtain ⟨l, hl, hx⟩ := List.mem_flatMap.mp h
          exact .inl ⟨l.2, (hpl [] b!"listener" st.listeners l.2).mp ⟨l.1, hl⟩, (hpl _ _ _ _).mp ⟨_, hx⟩⟩
        · exact .inr ((hpl _ _ _ _).mp ⟨_, h⟩)
      · rintro (⟨l, hl, hx⟩ | h)
        · obtain ⟨ls, hls⟩ := (hpl [] b!"listener" st.listeners l).mpr hl
          obtain ⟨ls', hls'⟩ := (hpl ls b!"service" l.services s).mpr hx
          exact ⟨ls', List.mem_append_left _ (List.mem_flatMap.mpr ⟨_, hls, hls'⟩)⟩
        · obtain ⟨ls, hls⟩ := (hpl [] b!"service" st.services s).mpr h
          exact ⟨ls, List.mem_append_right _ hls⟩
    have hall : AllHaveBackends st ↔ (∀ l ∈ st.listeners, ∀ s ∈ l.services, s.balancers ≠ []) ∧ ∀ s ∈ st.services, s.balancers ≠ [] := by
      constructor
      · intro h
        have h' : ∀ s : MSvc D, (∃ ls, (ls, s) ∈ allServices st) → s.balancers ≠ [] := fun s ⟨ls, hx⟩ => h _ hx
        exact ⟨fun l hl s hs => h' s ((hserv s).mpr (.inl ⟨l, hl, hs⟩)), fun s hs => h' s ((hserv s).mpr (.inr hs))⟩
      · rintro ⟨h3, h4⟩ s hs
        rcases (hserv s.2).mp ⟨s.1, hs⟩ with ⟨l, hl, hx⟩ | hx
        · exact h3 l hl _ hx
        · exact h4 _ hx
    rcases Classical.em (∀ l ∈ st.listeners, ∀ s ∈ l.services, s.balancers ≠ []) with hL | hL
    · obtain ⟨e1, i1, u1, k1⟩ := iterLoop_ok (lstStep L) b!"listener" gl (lstAll L st.stats) PL st.listeners
        (fun l hl pfx e hp => lst_step_ok L st.stats g (fun b => (hg b).2) gs (fun s => (hgs s).2) l (gl l) (hgl l).2 (hL l hl) pfx e hp) 0 [] _ hp0
      obtain ⟨a, b, c0, -, hbc, k1⟩ := k1
      have hps : PS a (expoKeys e1) := ⟨b, c0, hbc, k1⟩
      rcases Classical.em (∀ s ∈ st.services, s.balancers ≠ []) with hS | hS
      · obtain ⟨e2, i2, u2, k2⟩ := svcs_iter_ok L st.stats g (fun b => (hg b).2) gs (fun s => (hgs s).2) st.services hS _ hs a [] e1 hps
        refine .inl ⟨hall.mpr ⟨hL, hS⟩, e2, a, ?_, ?_, k2⟩
        · rw [hfill, i1]; exact i2
        · intro f
          rw [u2 f, u1 f]
          unfold walkSamples
          rw [← List.append_assoc]
          congr 1
          congr 1
          · cases f <;> rfl
          · unfold placed; rw [List.flatMap_map]
      · refine .inr ⟨fun h => hS (hall.mp h).2, ?_⟩
        rw [hfill, i1]
        refine svcs_iter_fail L st.stats g (fun b => (hg b).2) gs (fun s => (hgs s).2) st.services ?_ _ hs a [] e1 hps
        refine Classical.byContradiction fun hc => hS fun s hs he => hc ⟨s, hs, he⟩
    · refine .inr ⟨fun h => hL (hall.mp h).1, ?_⟩
      have hbad : ∃ l ∈ st.listeners, ∃ s ∈ l.services, s.balancers = [] :=
        Classical.byContradiction fun hc => hL fun l hl s hs he => hc ⟨l, hl, s, hs, he⟩
      rw [hfill, iterLoop_fail (lstStep L) b!"listener" gl PL (fun l => ∃ s ∈ l.services, s.balancers = []) st.listeners ?_ ?_ 0 [] _ hp0 hbad]
      · rfl
      · intro l _ hn pfx e hp
        obtain ⟨e', x1, -, x3⟩ := lst_step_ok L st.stats g (fun b => (hg b).2) gs (fun s => (hgs s).2) l (gl l) (hgl l).2
          (fun s hs he => hn ⟨s, hs, he⟩) pfx e hp
        exact ⟨e', x1, x3⟩
      · intro l _ hb pfx e hp
        exact lst_step_fail L st.stats g (fun b => (hg b).2) gs (fun s => (hgs s).2) l (gl l) (hgl l).2 hb pfx e hp

end Pound
