import Verif.Spec.Log
import Verif.Proof.Request
import Verif.Proof.Headers

namespace Pound
open Spec

theorem dw_head {p : UInt8 → Bool} {s t : Bytes} {z : UInt8} (h : s.dropWhile p = z :: t) : p z = false := by
  obtain ⟨b, -, -, h1, h2, -⟩ := takeWhile_split p s
  exact h2 z t (by rw [h1, h])

theorem mem_tw {p : UInt8 → Bool} {s : Bytes} {c : UInt8} (h : c ∈ s.takeWhile p) : p c = true := by
  obtain ⟨b, -, -, -, -, h2⟩ := takeWhile_split p s
  exact h2 c h

theorem head_lit {p : UInt8 → Bool} {z : UInt8} {r : Bytes} (h : p z = false) : ∀ c t, z :: r = c :: t → p c = false := by
  intro c t e; cases e; exact h

def outOf (x : LogCtx) (p : List LInstr) : Bytes := p.flatMap (LInstr.print x)

/-- The instructions of an item (none if it is not valid) -/
def itemInstrs : LItem → List LInstr
  | .text s => litInstr s
  | .respLine => [mkInstr .status false (some b!"1")]
  | .conv arg c =>
    match findSpec c with
    | none => []
    | some s => (specInstr c s arg).1.toList

/-- The item is known, and its argument is right. -/
def itemOk : LItem → Bool
  | .text _ => true
  | .respLine => true
  | .conv arg c =>
    match findSpec c with
    | none => false
    | some s => (specInstr c s arg).1.isSome

theorem out_lit (x : LogCtx) (s : Bytes) : outOf x (litInstr s) = s := by
  unfold outOf litInstr
  split
  · rename_i h; rw [h]; rfl
  · rename_i h
    simp [mkInstr, LInstr.print, printStr, h]

theorem out_append (x : LogCtx) (p q : List LInstr) : outOf x (p ++ q) = outOf x p ++ outOf x q := by simp [outOf]

theorem findSpec_cases (c : UInt8) : (∃ e ∈ logSpec, e.1 = c ∧ findSpec c = some e.2) ∨ ((∀ e ∈ logSpec, e.1 ≠ c) ∧ findSpec c = none) := by
  unfold findSpec
  cases h : logSpec.find? (·.1 == c) with
  | none =>
    right
    refine ⟨?_, rfl⟩
    intro e he h'
    have := List.find?_eq_none.mp h e he
    simp [h'] at this
  | some e =>
    left
    exact ⟨e, List.mem_of_find?_eq_some h, by simpa using List.find?_some h, rfl⟩

theorem brace_unknown : findSpec ch%'{' = none ∧ findSpec ch%'>' = none := by decide

/-! ### The loop -/

theorem takeWhile_lit {t r : Bytes} (h : ch%'%' ∉ t) : (t ++ ch%'%' :: r).takeWhile notPct = t ∧ (t ++ ch%'%' :: r).dropWhile notPct = ch%'%' :: r := by
  have : ∀ c ∈ t, notPct c = true := by
    intro c hc
    unfold notPct
    simp only [bne_iff_ne, ne_eq]
    rintro rfl
    exact h hc
  exact ⟨takeWhile_app this (head_lit (by decide)), dropWhile_app this (head_lit (by decide))⟩

theorem takeWhile_only {t : Bytes} (h : ch%'%' ∉ t) : t.takeWhile notPct = t ∧ t.dropWhile notPct = [] := by
  have : ∀ c ∈ t, notPct c = true := by
    intro c hc
    unfold notPct
    simp only [bne_iff_ne, ne_eq]
    rintro rfl
    exact h hc
  have h1 := takeWhile_app (b := []) this (by simp)
  have h2 := dropWhile_app (b := []) this (by simp)
  rw [List.append_nil] at h1 h2
  exact ⟨h1, h2⟩

theorem logArg_conv {arg : Option Bytes} {c : UInt8} {r : Bytes} (hw : (LItem.conv arg c).Writable) (hc : (findSpec c).isSome) :
    logArg ((LItem.conv arg c).render.drop 1 ++ r) = some (arg, c :: r) := by
  cases arg with
  | none =>
    have h1 : c ≠ ch%'>' := by rintro rfl; revert hc; decide
    have h2 : c ≠ ch%'{' := by rintro rfl; revert hc; decide
    show logArg (c :: r) = _
    unfold logArg
    rw [if_neg (by simp [h1]), if_neg (by simp [h2])]
  | some a =>
    have hr : (LItem.conv (some a) c).render.drop 1 ++ r = ch%'{' :: (a ++ ch%'}' :: c :: r) := by
      unfold LItem.render
      show (ch%'{' :: a ++ [ch%'}', c]) ++ r = _
      simp
    have hw : ch%'}' ∉ a := hw
    have ha : ∀ c ∈ a, notRbrace c = true := by
      intro c hc
      unfold notRbrace
      simp only [bne_iff_ne, ne_eq]
      rintro rfl
      exact hw hc
    rw [hr]
    unfold logArg
    rw [if_neg (by simp), if_pos (by simp)]
    have h1 : (ch%'{' :: (a ++ ch%'}' :: c :: r)).drop 1 = a ++ ch%'}' :: c :: r := rfl
    rw [h1, takeWhile_app ha (head_lit (by decide)), dropWhile_app ha (head_lit (by decide)), if_neg (by simp)]
    rfl

/-- One round for a valid specifier after literal text -/
theorem loop_item {i : LItem} {t r : Bytes} {f : Nat} {prog : List LInstr} {diags : List Bool} (ht : ch%'%' ∉ t) (hw : i.Writable) (hok : itemOk i = true)
    (hi : ∀ s, i ≠ .text s) :
    ∃ D, (∀ d ∈ D, d = false) ∧
      compileLoop (f + 1) (t ++ (i.render ++ r)) prog diags = compileLoop f r (prog ++ litInstr t ++ itemInstrs i) (diags ++ D) := by
  cases i with
  | text s => exact absurd rfl (hi s)
  | respLine =>
    refine ⟨[], by simp, ?_⟩
    have hr : t ++ (LItem.respLine.render ++ r) = t ++ ch%'%' :: (b!">s" ++ r) := rfl
    rw [hr]
    conv => lhs; unfold compileLoop
    obtain ⟨h1, h2⟩ := takeWhile_lit (r := b!">s" ++ r) ht
    have h3 : logArg (b!">s" ++ r) = some (some b!"1", ch%'s' :: r) := rfl
    simp only [h1, h2, h3]
    have h4 : findSpec ch%'s' = some (.opt, .prt .status) := rfl
    simp only [h4]
    have h5 : specInstr ch%'s' (.opt, .prt .status) (some b!"1") = (some (mkInstr .status false (some b!"1")), false) := by decide
    simp only [h5, List.append_nil]
    rfl
  | conv arg c =>
    unfold itemOk at hok
    dsimp only at hok
    cases hs : findSpec c with
    | none => rw [hs] at hok; cases hok
    | some s =>
      rw [hs] at hok
      dsimp only at hok
      have hr : t ++ ((LItem.conv arg c).render ++ r) = t ++ ch%'%' :: ((LItem.conv arg c).render.drop 1 ++ r) := by
        cases arg <;> rfl
      rw [hr]
      conv => rhs; intro D; rhs; lhs; unfold compileLoop
      obtain ⟨h1, h2⟩ := takeWhile_lit (r := (LItem.conv arg c).render.drop 1 ++ r) ht
      have h3 := logArg_conv (r := r) hw (by rw [hs]; rfl)
      simp only [h1, h2, h3, hs, itemInstrs]
      generalize hsp : specInstr c s arg = q at hok ⊢
      obtain ⟨oi, w⟩ := q
      cases oi with
      | none => cases hok
      | some i =>
        cases w with
        | true => exact ⟨[false], by simp, rfl⟩
        | false => exact ⟨[], by simp, by simp⟩

theorem pct_split {f : Nat} {t : Bytes} {prog : List LInstr} {diags : List Bool} (ht : ch%'%' ∉ t) :
    compileLoop (f + 1) t prog diags = .ok ⟨some (prog ++ litInstr t), diags⟩ := by
  unfold compileLoop
  obtain ⟨h1, h2⟩ := takeWhile_only ht
  simp only [h1, h2]

theorem render_length {i : LItem} (hi : ∀ s, i ≠ .text s) : 2 ≤ i.render.length := by
  cases i with
  | text s => exact absurd rfl (hi s)
  | respLine => simp [LItem.render]
  | conv arg c =>
    cases arg with
    | none => simp [LItem.render]
    | some a => simp [LItem.render]

/-- Valid items are worked off one after the other. -/
theorem log_items (tail : Bytes) : ∀ (is : List LItem) (t : Bytes) (f : Nat) (prog : List LInstr) (diags : List Bool),
    ch%'%' ∉ t → (∀ i ∈ is, i.Writable ∧ itemOk i = true) → (t ++ (renderAll is ++ tail)).length < f →
    ∃ f' t' P D, ch%'%' ∉ t' ∧ (t' ++ tail).length < f' ∧ (∀ d ∈ D, d = false) ∧
      compileLoop f (t ++ (renderAll is ++ tail)) prog diags = compileLoop f' (t' ++ tail) (prog ++ P) (diags ++ D) ∧
      ∀ x, outOf x P ++ t' = t ++ is.flatMap (fun i => outOf x (itemInstrs i)) := by
  intro is
  induction is with
  | nil =>
    intro t f prog diags ht _ hf
    exact ⟨f, t, [], [], ht, by simpa [renderAll] using hf, by simp, by simp [renderAll], fun x => by simp [outOf]⟩
  | cons i is ih =>
    intro t f prog diags ht his hf
    obtain ⟨hw, hok⟩ := his i (by simp)
    have his' : ∀ i ∈ is, i.Writable ∧ itemOk i = true := fun j hj => his j (by simp [hj])
    have hr : t ++ (renderAll (i :: is) ++ tail) = t ++ (i.render ++ (renderAll is ++ tail)) := by simp [renderAll]
    rw [hr] at hf ⊢
    by_cases hi : ∃ s, i = .text s
    · obtain ⟨s, rfl⟩ := hi
      have hs : ch%'%' ∉ s := hw
      have ht' : ch%'%' ∉ t ++ s := by simp [ht, hs]
      have e : t ++ ((LItem.text s).render ++ (renderAll is ++ tail)) = (t ++ s) ++ (renderAll is ++ tail) := by simp [LItem.render]
      rw [e] at hf ⊢
      obtain ⟨f', t', P, D, h1, h2, h3, h4, h5⟩ := ih (t ++ s) f prog diags ht' his' hf
      refine ⟨f', t', P, D, h1, h2, h3, h4, ?_⟩
      intro x
      rw [h5 x, List.flatMap_cons]
      simp [itemInstrs, out_lit]
    · have hi : ∀ s, i ≠ .text s := fun s e => hi ⟨s, e⟩
      obtain ⟨g, rfl⟩ : ∃ g, f = g + 1 := ⟨f - 1, by omega⟩
      obtain ⟨D, hD, hl⟩ := loop_item (r := renderAll is ++ tail) (f := g) (prog := prog) (diags := diags) ht hw hok hi
      have hlen := render_length hi
      obtain ⟨f', t', P, D', h1, h2, h3, h4, h5⟩ := ih [] g (prog ++ litInstr t ++ itemInstrs i) (diags ++ D) (by simp) his' (by
        simp only [List.length_append, List.nil_append] at hf ⊢; omega)
      refine ⟨f', t', litInstr t ++ itemInstrs i ++ P, D ++ D', h1, h2, ?_, ?_, ?_⟩
      · intro d hd
        rcases List.mem_append.mp hd with h | h
        · exact hD d h
        · exact h3 d h
      · rw [hl]
        rw [List.nil_append] at h4
        rw [h4]
        simp
      · intro x
        have := h5 x
        rw [List.nil_append] at this
        rw [out_append, out_append, List.append_assoc, this, out_lit, List.flatMap_cons]
        simp

/-! ### What is accepted -/

theorem loop_sound : ∀ (f : Nat) (cur : Bytes) (prog : List LInstr) (diags : List Bool) (r : Compiled),
    compileLoop f cur prog diags = .ok r → ∃ D, r.diags = diags ++ D ∧
      ((∀ d ∈ D, d = false) → ∃ is, cur = renderAll is ∧ ∀ i ∈ is, i.Writable ∧ itemOk i = true) := by
  intro f
  induction f with
  | zero => intro cur prog diags r h; cases h
  | succ f ih =>
    intro cur prog diags r h
    unfold compileLoop at h
    have hlit : ch%'%' ∉ cur.takeWhile notPct := by
      intro hm
      have := mem_tw hm
      revert this; decide
    have htext : (LItem.text (cur.takeWhile notPct)).Writable ∧ itemOk (.text (cur.takeWhile notPct)) = true := ⟨hlit, rfl⟩
    dsimp only at h
    cases hd : cur.dropWhile notPct with
    | nil =>
      rw [hd] at h
      cases h
      refine ⟨[], by simp, fun _ => ⟨[.text (cur.takeWhile notPct)], ?_, ?_⟩⟩
      · have : cur = cur.takeWhile notPct ++ cur.dropWhile notPct := (List.takeWhile_append_dropWhile).symm
        rw [hd, List.append_nil] at this
        simpa [renderAll, LItem.render] using this
      · intro i hi
        rw [List.mem_singleton.mp hi]; exact htext
    | cons z p =>
      rw [hd] at h
      have hz : z = ch%'%' := by
        have := dw_head hd
        simpa [notPct] using this
      subst hz
      have hcur : cur = cur.takeWhile notPct ++ ch%'%' :: p := by
        have : cur = cur.takeWhile notPct ++ cur.dropWhile notPct := (List.takeWhile_append_dropWhile).symm
        rwa [hd] at this
      dsimp only at h
      cases ha : logArg p with
      | none =>
        rw [ha] at h
        obtain ⟨D, h1, -⟩ := ih _ _ _ _ h
        exact ⟨true :: D, by simp [h1], fun hall => absurd (hall true (by simp)) (by decide)⟩
      | some q =>
        obtain ⟨arg, p'⟩ := q
        rw [ha] at h
        dsimp only at h
        cases p' with
        | nil => cases h
        | cons c rest =>
          dsimp only at h
          cases hs : findSpec c with
          | none =>
            rw [hs] at h
            obtain ⟨D, h1, -⟩ := ih _ _ _ _ h
            exact ⟨true :: D, by simp [h1], fun hall => absurd (hall true (by simp)) (by decide)⟩
          | some s =>
            rw [hs] at h
            dsimp only at h
            have hsp : ∃ oi w, specInstr c s arg = (oi, w) := ⟨_, _, rfl⟩
            obtain ⟨oi, w, hsp⟩ := hsp
            rw [hsp] at h
            cases oi with
            | none =>
              cases h
              exact ⟨[true], rfl, fun hall => absurd (hall true (by simp)) (by decide)⟩
            | some i =>
              dsimp only at h
              obtain ⟨D, h1, h2⟩ := ih _ _ _ _ h
              -- the item that was read
              have hitem : ∃ it : LItem, it.Writable ∧ itemOk it = true ∧ ch%'%' :: p = it.render ++ rest := by
                unfold logArg at ha
                split at ha
                · rename_i hp
                  obtain ⟨hp1, hp2⟩ := hp
                  cases ha' : p with
                  | nil => rw [ha'] at hp1; cases hp1
                  | cons y p2 =>
                    rw [ha'] at hp1 hp2 ha
                    cases hp1
                    have : p2 = c :: rest := by
                      have := ha
                      simp only [Option.some.injEq, Prod.mk.injEq] at this
                      exact this.2
                    subst this
                    simp at hp2
                    subst hp2
                    exact ⟨.respLine, trivial, rfl, rfl⟩
                · split at ha
                  · rename_i hp
                    split at ha
                    · cases ha
                    · rename_i hne
                      cases ha' : p with
                      | nil => rw [ha'] at hp; cases hp
                      | cons y p2 =>
                        rw [ha'] at hp hne ha
                        cases hp
                        simp only [List.drop_one, List.tail_cons, Option.some.injEq, Prod.mk.injEq] at ha hne
                        obtain ⟨rfl, ha2⟩ := ha
                        have hnb : ch%'}' ∉ p2.takeWhile notRbrace := by
                          intro hm
                          have := mem_tw hm
                          revert this; decide
                        refine ⟨.conv (some (p2.takeWhile notRbrace)) c, hnb, ?_, ?_⟩
                        · unfold itemOk; dsimp only; rw [hs]; dsimp only; rw [hsp]; rfl
                        · cases hdb : p2.dropWhile notRbrace with
                          | nil => exact absurd hdb hne
                          | cons b p3 =>
                            rw [hdb] at ha2
                            have hb : b = ch%'}' := by
                              have := dw_head hdb
                              simpa [notRbrace] using this
                            subst hb
                            simp only [List.tail_cons] at ha2
                            have hp2 : p2 = p2.takeWhile notRbrace ++ ch%'}' :: c :: rest := by
                              have : p2 = p2.takeWhile notRbrace ++ p2.dropWhile notRbrace := (List.takeWhile_append_dropWhile).symm
                              rwa [hdb, ha2] at this
                            show ch%'%' :: ch%'{' :: p2 = (b!"%{" ++ p2.takeWhile notRbrace ++ [ch%'}', c]) ++ rest
                            conv => lhs; rw [hp2]
                            simp
                  · simp only [Option.some.injEq, Prod.mk.injEq] at ha
                    obtain ⟨rfl, rfl⟩ := ha
                    refine ⟨.conv none c, trivial, ?_, rfl⟩
                    unfold itemOk; dsimp only; rw [hs]; dsimp only; rw [hsp]; rfl
              obtain ⟨it, hw, hok, hit⟩ := hitem
              have concl : (∀ d ∈ D, d = false) → ∃ is, cur = renderAll is ∧ ∀ i ∈ is, i.Writable ∧ itemOk i = true := by
                intro hall
                obtain ⟨is, h3, h4⟩ := h2 hall
                refine ⟨.text (cur.takeWhile notPct) :: it :: is, ?_, ?_⟩
                · rw [hcur, hit, h3]
                  have : (cur.takeWhile notPct ++ (it.render ++ renderAll is)).takeWhile notPct = cur.takeWhile notPct := by
                    rw [← h3, ← hit]; exact (takeWhile_lit hlit).1
                  rw [this]
                  rfl
                · intro j hj
                  rcases List.mem_cons.mp hj with rfl | hj
                  · exact htext
                  · rcases List.mem_cons.mp hj with rfl | hj
                    · exact ⟨hw, hok⟩
                    · exact h4 j hj
              cases w with
              | false => exact ⟨D, by simpa using h1, concl⟩
              | true => exact ⟨false :: D, by simpa using h1, fun hall => concl (fun d hd => hall d (by simp [hd]))⟩

/-- The only way to read past the end -/
theorem loop_ub : ∀ (f : Nat) (cur : Bytes) (prog : List LInstr) (diags : List Bool), cur.length < f →
    compileLoop f cur prog diags = .ub → ∃ pre, cur = pre ++ b!"%" ∨ ∃ a, cur = pre ++ b!"%{" ++ a ++ b!"}" := by
  intro f
  induction f with
  | zero => intro cur prog diags hf; omega
  | succ f ih =>
    intro cur prog diags hf h
    unfold compileLoop at h
    dsimp only at h
    have step : ∀ (a rest : Bytes), cur = a ++ rest → (∃ pre, rest = pre ++ b!"%" ∨ ∃ a, rest = pre ++ b!"%{" ++ a ++ b!"}") →
        ∃ pre, cur = pre ++ b!"%" ∨ ∃ a, cur = pre ++ b!"%{" ++ a ++ b!"}" := by
      rintro a rest e ⟨pre, h | ⟨b, h⟩⟩
      · exact ⟨a ++ pre, Or.inl (by rw [e, h]; simp)⟩
      · exact ⟨a ++ pre, Or.inr ⟨b, by rw [e, h]; simp⟩⟩
    have hcur0 : cur = cur.takeWhile notPct ++ cur.dropWhile notPct := (List.takeWhile_append_dropWhile).symm
    cases hd : cur.dropWhile notPct with
    | nil => rw [hd] at h; cases h
    | cons z p =>
      rw [hd] at h hcur0
      have hz : z = ch%'%' := by
        have := dw_head hd
        simpa [notPct] using this
      subst hz
      have hplen : p.length < cur.length := by rw [hcur0]; simp; omega
      dsimp only at h
      cases ha : logArg p with
      | none =>
        rw [ha] at h
        refine step (cur.takeWhile notPct ++ ch%'%' :: p.take 1) (p.drop 1) ?_ (ih _ _ _ (by simp; omega) h)
        conv => lhs; rw [hcur0]
        rw [List.append_assoc, List.cons_append, List.take_append_drop]
      | some q =>
        obtain ⟨arg, p'⟩ := q
        rw [ha] at h
        dsimp only at h
        have hsuf : ∃ a, p = a ++ p' ∧ (p' = [] → (a = [] ∨ ∃ b, a = b!"{" ++ b ++ b!"}")) := by
          unfold logArg at ha
          split at ha
          · rename_i hp
            simp only [Option.some.injEq, Prod.mk.injEq] at ha
            obtain ⟨-, rfl⟩ := ha
            refine ⟨p.take 1, (List.take_append_drop 1 p).symm, ?_⟩
            intro e
            have : p[1]? = none := by
              have h1 : p.length ≤ 1 := List.drop_eq_nil_iff.mp e
              simp [h1]
            rw [this] at hp
            simp at hp
          · split at ha
            · rename_i hp
              split at ha
              · cases ha
              · rename_i hne
                cases ha' : p with
                | nil => rw [ha'] at hp; cases hp
                | cons y p2 =>
                  rw [ha'] at hp hne ha
                  cases hp
                  simp only [List.drop_one, List.tail_cons, Option.some.injEq, Prod.mk.injEq] at ha hne
                  cases hdb : p2.dropWhile notRbrace with
                  | nil => exact absurd hdb hne
                  | cons b p3 =>
                    obtain ⟨-, ha2⟩ := ha
                    rw [hdb] at ha2
                    simp only [List.tail_cons] at ha2
                    have hb : b = ch%'}' := by
                      have := dw_head hdb
                      simpa [notRbrace] using this
                    subst hb
                    have : p2 = p2.takeWhile notRbrace ++ p2.dropWhile notRbrace := (List.takeWhile_append_dropWhile).symm
                    rw [hdb, ha2] at this
                    refine ⟨b!"{" ++ p2.takeWhile notRbrace ++ b!"}", ?_, fun _ => Or.inr ⟨_, rfl⟩⟩
                    conv => lhs; rw [this]
                    simp
            · simp only [Option.some.injEq, Prod.mk.injEq] at ha
              exact ⟨[], by simp [ha.2], fun _ => Or.inl rfl⟩
        obtain ⟨a, hp, hend⟩ := hsuf
        cases p' with
        | nil =>
          rcases hend rfl with rfl | ⟨b, rfl⟩
          · refine ⟨cur.takeWhile notPct, Or.inl ?_⟩
            rw [hp] at hcur0
            simpa using hcur0
          · refine ⟨cur.takeWhile notPct, Or.inr ⟨b, ?_⟩⟩
            rw [hp] at hcur0
            conv => lhs; rw [hcur0]
            simp
        | cons c rest =>
          have hrest : cur = (cur.takeWhile notPct ++ ch%'%' :: a ++ [c]) ++ rest := by
            conv => lhs; rw [hcur0, hp]
            simp
          have hlen : rest.length < f := by
            have : p.length = a.length + (rest.length + 1) := by rw [hp]; simp
            omega
          dsimp only at h
          cases hs : findSpec c with
          | none =>
            rw [hs] at h
            exact step _ _ hrest (ih _ _ _ hlen h)
          | some s =>
            rw [hs] at h
            dsimp only at h
            have hsp : ∃ oi w, specInstr c s arg = (oi, w) := ⟨_, _, rfl⟩
            obtain ⟨oi, w, hsp⟩ := hsp
            rw [hsp] at h
            cases oi with
            | none => cases h
            | some i => exact step _ _ hrest (ih _ _ _ hlen h)

/-! ### Values of items -/

theorem conv_cases (c : UInt8) (h : findSpec c ≠ none) : c ∈ logSpec.map (·.1) := by
  rcases findSpec_cases c with ⟨e, he, h1, -⟩ | ⟨-, h2⟩
  · exact List.mem_map.mpr ⟨e, he, h1⟩
  · exact absurd h2 h

theorem value_unknown (x : LogCtx) (arg : Option Bytes) (c : UInt8) (h : c ∉ logSpec.map (·.1)) : (LItem.conv arg c).value x = none := by
  have hm : ∀ z ∈ logSpec.map (·.1), c ≠ z := fun z hz e => h (e ▸ hz)
  unfold LItem.value
  dsimp only
  rw [if_neg (hm _ (by decide)), if_neg (hm _ (by decide)), if_neg (hm _ (by decide)), if_neg (hm _ (by decide)), if_neg (hm _ (by decide)), if_neg (hm _ (by decide)),
    if_neg (hm _ (by decide)), if_neg (hm _ (by decide)), if_neg (hm _ (by decide)), if_neg (hm _ (by decide)), if_neg (hm _ (by decide)), if_neg (hm _ (by decide)),
    if_neg (hm _ (by decide)), if_neg (hm _ (by decide)), if_neg (hm _ (by decide)), if_neg (hm _ (by decide)), if_neg (hm _ (by decide)), if_neg (hm _ (by decide)),
    if_neg (hm _ (by decide)), if_neg (hm _ (by decide)), if_neg (hm _ (by decide)), if_neg (hm _ (by decide))]

theorem decInt_nat (n : Nat) : decInt (n : Int) = dec n := by
  unfold decInt
  rw [if_neg (by omega), Int.toNat_natCast]

theorem decInt_eq {n : Int} {m : Nat} (h : n = m) : decInt n = dec m := by rw [h, decInt_nat]

theorem tdiv_nat {n : Int} (h : 0 ≤ n) (k : Nat) : n.tdiv k = ((n.toNat / k : Nat) : Int) := by
  obtain ⟨m, rfl⟩ := Int.eq_ofNat_of_zero_le h
  rw [Int.toNat_natCast]
  rfl

/-- The difference of the times, in terms of the time elapsed -/
theorem sub_elapsed {x : LogCtx} (h : GoodCtx x) : (x.fin.sub x.start).sec = ((elapsed x / 1000000000 : Nat) : Int) ∧
    (x.fin.sub x.start).nsec = ((elapsed x % 1000000000 : Nat) : Int) := by
  obtain ⟨h1, h2, h3⟩ := h.start
  obtain ⟨h4, h5, h6⟩ := h.fin
  have h7 := h.order
  unfold TS.sub elapsed
  dsimp only
  split <;> constructor <;> dsimp only <;> omega

theorem took_print {x : LogCtx} (h : GoodCtx x) (u : Bytes) : (took x u) = (argprtFind proctimeprt u).map fun p => (mkInstr p false none).print x := by
  obtain ⟨h1, h2⟩ := sub_elapsed h
  have e : elapsed x = elapsed x / 1000000000 * 1000000000 + elapsed x % 1000000000 := by omega
  have h3 : decInt ((x.fin.sub x.start).sec) = dec (elapsed x / 1000000000) := decInt_eq h1
  have hn : ∀ k : Nat, (x.fin.sub x.start).nsec.tdiv k = ((elapsed x % 1000000000 / k : Nat) : Int) := by
    intro k; rw [h2]; rfl
  have h4 : decInt ((x.fin.sub x.start).sec * 1000 + (x.fin.sub x.start).nsec.tdiv 1000000) = dec (elapsed x / 1000000) := by
    apply decInt_eq
    have := hn 1000000
    rw [h1]
    simp only [Int.cast_ofNat_Int] at this
    rw [this]
    omega
  have h5 : decInt ((x.fin.sub x.start).sec * 1000000 + (x.fin.sub x.start).nsec.tdiv 1000) = dec (elapsed x / 1000) := by
    apply decInt_eq
    have := hn 1000
    rw [h1]
    simp only [Int.cast_ofNat_Int] at this
    rw [this]
    omega
  have h6 : decInt ((x.fin.sub x.start).nsec.tdiv 1000000) = dec (elapsed x % 1000000000 / 1000000) := by
    apply decInt_eq
    have := hn 1000000
    simpa only [Int.cast_ofNat_Int] using this
  unfold took argprtFind proctimeprt
  by_cases e1 : u = b!"s"
  · subst e1
    simp only [if_true]
    show _ = some (decInt _)
    rw [h3]
  · by_cases e2 : u = b!"f"
    · subst e2
      show some _ = some (decInt _ ++ _ :: padTo 48 3 (decInt _))
      rw [h3, h6]
      rfl
    · by_cases e3 : u = b!"ms"
      · subst e3
        show some _ = some (decInt _)
        rw [h4]
      · by_cases e4 : u = b!"us"
        · subst e4
          show some _ = some (decInt _)
          rw [h5]
        · rw [if_neg e1, if_neg e3, if_neg e4, if_neg e2]
          have : ∀ v : Bytes, u ≠ v → (v == u) = false := fun v hv => by simpa using fun h => hv h.symm
          simp only [List.find?_cons, List.find?_nil, this _ e1, this _ e2, this _ e3, this _ e4, Option.map_none]

theorem take_prefix {p a : Bytes} (n : Nat) (hn : p.length = n) : a.take n = p ↔ p <+: a := by
  subst hn
  exact ⟨fun e => List.prefix_iff_eq_take.mpr e.symm, fun e => (List.prefix_iff_eq_take.mp e).symm⟩

theorem whichTime_eq (x : LogCtx) (a : Bytes) : whichTime x a = (x.timeAt (timePrefix a).1, (timePrefix a).2) := by
  unfold whichTime timePrefix
  by_cases h1 : b!"begin:" <+: a
  · rw [if_pos h1, if_pos ((take_prefix 6 rfl).mpr h1)]; rfl
  · rw [if_neg h1, if_neg (fun h => h1 ((take_prefix 6 rfl).mp h))]
    by_cases h2 : b!"end:" <+: a
    · rw [if_pos h2, if_pos ((take_prefix 4 rfl).mpr h2)]; rfl
    · rw [if_neg h2, if_neg (fun h => h2 ((take_prefix 4 rfl).mp h))]; rfl

theorem time_print {x : LogCtx} (h : GoodCtx x) (a : Bytes) (ho : (timePrefix a).2 ≠ b!"sec") (hs : (timePrefix a).2 ≠ b!"s") :
    (pTime (some a)).print x = timeText x a := by
  have hg : ∀ b : Bool, 0 ≤ (x.timeAt b).sec ∧ 0 ≤ (x.timeAt b).nsec := by
    intro b; cases b
    · exact ⟨h.start.1, h.start.2.1⟩
    · exact ⟨h.fin.1, h.fin.2.1⟩
  obtain ⟨h1, h2⟩ := hg (timePrefix a).1
  unfold pTime timeText
  rw [whichTime_eq]
  dsimp only
  generalize hts : x.timeAt (timePrefix a).1 = ts at h1 h2 ⊢
  generalize hr : (timePrefix a).2 = r at ho hs ⊢
  have hn : ∀ k : Nat, ts.nsec.tdiv k = ((ts.nsec.toNat / k : Nat) : Int) := fun k => tdiv_nat h2 k
  by_cases e0 : r = []
  · rw [if_pos e0, if_pos e0]
    show x.strftime clfTime (x.timeAt (timePrefix a).1).sec = _
    rw [hts]
  · rw [if_neg e0, if_neg e0, if_neg ho]
    unfold argprtFind timeprt
    by_cases e1 : r = b!"msec"
    · subst e1
      rw [if_pos rfl]
      show decInt ((x.timeAt (timePrefix a).1).sec * 1000 + (x.timeAt (timePrefix a).1).nsec.tdiv 1000000) = _
      rw [hts]
      apply decInt_eq
      have := hn 1000000
      simp only [Int.cast_ofNat_Int] at this
      rw [this]
      omega
    · by_cases e2 : r = b!"usec"
      · subst e2
        rw [if_neg (by decide), if_pos rfl]
        show decInt ((x.timeAt (timePrefix a).1).sec * 1000000 + (x.timeAt (timePrefix a).1).nsec.tdiv 1000) = _
        rw [hts]
        apply decInt_eq
        have := hn 1000
        simp only [Int.cast_ofNat_Int] at this
        rw [this]
        omega
      · by_cases e3 : r = b!"msec_frac"
        · subst e3
          rw [if_neg (by decide), if_neg (by decide), if_pos rfl]
          show padTo 48 3 (decInt ((x.timeAt (timePrefix a).1).nsec.tdiv 1000000)) = _
          rw [hts]
          have := hn 1000000
          simp only [Int.cast_ofNat_Int] at this
          rw [this, decInt_nat]
          rfl
        · by_cases e4 : r = b!"usec_frac"
          · subst e4
            rw [if_neg (by decide), if_neg (by decide), if_neg (by decide), if_pos rfl]
            show padTo 48 6 (decInt ((x.timeAt (timePrefix a).1).nsec.tdiv 1000)) = _
            rw [hts]
            have := hn 1000
            simp only [Int.cast_ofNat_Int] at this
            rw [this, decInt_nat]
            rfl
          · rw [if_neg e1, if_neg e2, if_neg e3, if_neg e4]
            have : ∀ v : Bytes, r ≠ v → (v == r) = false := fun v hv => by simpa using fun h => hv h.symm
            simp only [List.find?_cons, List.find?_nil, this _ hs, this _ e1, this _ e2, this _ e3, this _ e4, Option.map_none]
            rw [← hts]
            unfold mkInstr
            rw [if_neg (by simpa using e0)]
            rfl

theorem dec_three {n : Nat} (h : 100 ≤ n) : 3 ≤ (dec n).length := by
  unfold dec
  obtain ⟨g, hg⟩ : ∃ g, n + 1 = g + 1 + 1 + 1 := ⟨n - 2, by omega⟩
  rw [hg]
  simp only [decAux, List.length_append, List.length_singleton]
  rw [if_neg (by omega), if_neg (by omega)]
  simp only [List.length_append, List.length_singleton]
  omega

/-! ### The whole table -/

theorem took_some (x : LogCtx) (u : Bytes) : (took x u).isSome = (argprtFind proctimeprt u).isSome := by
  unfold took argprtFind proctimeprt
  by_cases e1 : u = b!"s"
  · subst e1; rfl
  · by_cases e2 : u = b!"f"
    · subst e2; rfl
    · by_cases e3 : u = b!"ms"
      · subst e3; rfl
      · by_cases e4 : u = b!"us"
        · subst e4; rfl
        · rw [if_neg e1, if_neg e3, if_neg e4, if_neg e2]
          have : ∀ v : Bytes, u ≠ v → (v == u) = false := fun v hv => by simpa using fun h => hv h.symm
          simp only [List.find?_cons, List.find?_nil, this _ e1, this _ e2, this _ e3, this _ e4, Option.map_none]
          rfl

theorem obj_cases (tab : List (Bytes × Prt)) (pb ps pl : Prt) (ht : tab = [(b!"backend", pb), (b!"service", ps), (b!"listener", pl)]) (a : Bytes) :
    argprtFind tab a = if a = b!"listener" then some pl else if a = b!"service" then some ps else if a = b!"backend" then some pb else none := by
  subst ht
  unfold argprtFind
  by_cases e1 : a = b!"listener"
  · subst e1; rfl
  · by_cases e2 : a = b!"service"
    · subst e2; rfl
    · by_cases e3 : a = b!"backend"
      · subst e3; rfl
      · rw [if_neg e1, if_neg e2, if_neg e3]
        have : ∀ v : Bytes, a ≠ v → (v == a) = false := fun v hv => by simpa using fun h => hv h.symm
        simp only [List.find?_cons, List.find?_nil, this _ e1, this _ e2, this _ e3, Option.map_none]

theorem name_cases (a : Bytes) : argprtFind nameprt a = if a = b!"listener" then some .listener else if a = b!"service" then some .service else if a = b!"backend" then some .backend else none :=
  obj_cases _ _ _ _ rfl a

theorem loc_cases (a : Bytes) : argprtFind locprt a = if a = b!"listener" then some .listenerLocus else if a = b!"service" then some .serviceLocus else if a = b!"backend" then some .backendLocus else none :=
  obj_cases _ _ _ _ rfl a

theorem item_ok_iff (x : LogCtx) (i : LItem) : (i.value x).isSome = itemOk i := by
  cases i with
  | text s => rfl
  | respLine => rfl
  | conv arg c =>
    by_cases hc : c ∈ logSpec.map (·.1)
    · have key : ∀ z, z ∈ logSpec.map (·.1) → ((LItem.conv arg z).value x).isSome = itemOk (.conv arg z) := by
        intro z hz
        simp only [logSpec, List.map_cons, List.map_nil, List.mem_cons, List.not_mem_nil, or_false] at hz
        rcases hz with rfl | rfl | rfl | rfl | rfl | rfl | rfl | rfl | rfl | rfl | rfl | rfl | rfl | rfl | rfl | rfl | rfl | rfl | rfl | rfl | rfl | rfl
        all_goals rcases arg with _ | a
        all_goals try rfl
        · show (if some a = some b!"listener" then some (dash x.lstnLocus) else if some a = some b!"service" then some (dash x.svcLocus)
              else if some a = some b!"backend" then some (dash x.beLocus) else none).isSome = ((argprtFind locprt a).map _).isSome
          rw [loc_cases]
          simp only [Option.some.injEq]
          repeat' split
          all_goals rfl
        · show (if some a = some b!"listener" then some (dash x.lstnName) else if some a = some b!"service" then some (serviceText x)
              else if some a = some b!"backend" then some x.backendName else none).isSome = ((argprtFind nameprt a).map _).isSome
          rw [name_cases]
          simp only [Option.some.injEq]
          repeat' split
          all_goals rfl
        · show (took x a).isSome = ((argprtFind proctimeprt a).map _).isSome
          rw [took_some]
          simp
      exact key c hc
    · rw [value_unknown x arg c hc]
      unfold itemOk
      dsimp only
      rcases findSpec_cases c with ⟨e, he, h1, -⟩ | ⟨-, h2⟩
      · exact absurd (List.mem_map.mpr ⟨e, he, h1⟩) hc
      · rw [h2]; rfl

theorem one_out (x : LogCtx) (i : LInstr) : outOf x [i] = i.print x := by simp [outOf]

theorem oddTime_prefix {a : Bytes} (h : (LItem.conv (some a) ch%'t').oddTime = false) : (timePrefix a).2 ≠ b!"sec" ∧ (timePrefix a).2 ≠ b!"s" := by
  have hh : a ≠ b!"sec" ∧ a ≠ b!"begin:sec" ∧ a ≠ b!"end:sec" ∧ a ≠ b!"s" ∧ a ≠ b!"begin:s" ∧ a ≠ b!"end:s" := by
    simpa [LItem.oddTime, and_assoc] using h
  obtain ⟨h1, h2, h3, h4, h5, h6⟩ := hh
  have key : ∀ n (p : Bytes), a.take n = p → ∀ q, p ++ q ≠ [] → a.drop n = q → a = p ++ q := by
    intro n p e q _ e2
    rw [← e, ← e2, List.take_append_drop]
  unfold timePrefix
  split
  · rename_i e
    exact ⟨fun e2 => h2 (key _ _ e _ (by simp) e2), fun e2 => h5 (key _ _ e _ (by simp) e2)⟩
  · split
    · rename_i e
      exact ⟨fun e2 => h3 (key _ _ e _ (by simp) e2), fun e2 => h6 (key _ _ e _ (by simp) e2)⟩
    · exact ⟨h1, h4⟩

theorem status_print {x : LogCtx} (h : GoodCtx x) : padTo 32 3 (dec x.respCode) = dec x.respCode := by
  unfold padTo
  have := dec_three h.code
  rw [show 3 - (dec x.respCode).length = 0 by omega]
  rfl

theorem hdr_arg {x : LogCtx} (h : GoodCtx x) (a : Bytes) (p : Prt) : (mkInstr p false (some a)).arg.bind x.header = x.header a := by
  unfold mkInstr
  dsimp only
  by_cases e : a = []
  · subst e
    rw [if_pos rfl, h.header]; rfl
  · rw [if_neg (by simpa using e)]; rfl

theorem clientIp_eq (x : LogCtx) : x.remoteIp = clientIp x := by
  unfold LogCtx.remoteIp clientIp
  cases x.remote with
  | none => rfl
  | some a =>
    dsimp only
    cases x.anonymise <;> rfl

theorem serviceText_eq (x : LogCtx) : x.serviceName = serviceText x := by
  unfold LogCtx.serviceName serviceText
  cases x.beKind <;> rfl

theorem item_print {x : LogCtx} (h : GoodCtx x) {i : LItem} {v : Bytes} (hv : i.value x = some v) (ho : i.odd = false) : outOf x (itemInstrs i) = v := by
  cases i with
  | text s => cases hv; exact out_lit x _
  | respLine =>
    cases hv
    exact one_out x _
  | conv arg c =>
    have hc : c ∈ logSpec.map (·.1) := by
      by_cases hc : c ∈ logSpec.map (·.1)
      · exact hc
      · rw [value_unknown x arg c hc] at hv; cases hv
    simp only [logSpec, List.map_cons, List.map_nil, List.mem_cons, List.not_mem_nil, or_false] at hc
    rcases hc with rfl | rfl | rfl | rfl | rfl | rfl | rfl | rfl | rfl | rfl | rfl | rfl | rfl | rfl | rfl | rfl | rfl | rfl | rfl | rfl | rfl | rfl
    · cases hv; cases arg <;> rfl
    · cases hv
      have : itemInstrs (.conv arg ch%'a') = [mkInstr .forwardedIp false none] := by cases arg <;> rfl
      rw [this, one_out]
      show (match x.forwarded with | some ip => ip | none => x.remoteIp) = _
      rw [clientIp_eq]
      cases x.forwarded <;> rfl
    · cases hv
      have : itemInstrs (.conv arg ch%'A') = [mkInstr .localIp false none] := by cases arg <;> rfl
      rw [this, one_out]; rfl
    · cases hv
      have : itemInstrs (.conv arg ch%'B') = [mkInstr .responseSize false none] := by cases arg <;> rfl
      rw [this, one_out]; rfl
    · cases hv
      have : itemInstrs (.conv arg ch%'b') = [mkInstr .responseSizeClf false none] := by cases arg <;> rfl
      rw [this, one_out]
      show (if 0 < x.resBytes then dec x.resBytes else b!"-") = _
      by_cases e : x.resBytes = 0
      · rw [if_neg (by omega), if_pos e]
      · rw [if_pos (by omega), if_neg e]
    · exfalso
      have : (LItem.conv arg ch%'D').odd = true := by cases arg <;> rfl
      rw [this] at ho; cases ho
    · cases hv
      have : itemInstrs (.conv arg ch%'h') = [mkInstr .remoteIp false none] := by cases arg <;> rfl
      rw [this, one_out]
      exact clientIp_eq x
    · cases hv
      have : itemInstrs (.conv arg ch%'H') = [mkInstr .protocol false none] := by cases arg <;> rfl
      rw [this, one_out]; rfl
    · cases arg with
      | none => cases hv
      | some a =>
        cases hv
        have : itemInstrs (.conv (some a) ch%'i') = [mkInstr .header false (some a)] := rfl
        rw [this, one_out]
        show ((mkInstr .header false (some a)).arg.bind x.header).getD [] = _
        rw [hdr_arg h]
    · cases arg with
      | none => cases hv
      | some a =>
        cases hv
        have : itemInstrs (.conv (some a) ch%'I') = [mkInstr .headerClf false (some a)] := rfl
        rw [this, one_out]
        show printStr ((mkInstr .headerClf false (some a)).arg.bind x.header) = _
        rw [hdr_arg h]
        rfl
    · cases arg with
      | none => cases hv
      | some a =>
        have hv : (if some a = some b!"listener" then some (dash x.lstnLocus) else if some a = some b!"service" then some (dash x.svcLocus)
              else if some a = some b!"backend" then some (dash x.beLocus) else none) = some v := hv
        have : itemInstrs (.conv (some a) ch%'L') = ((argprtFind locprt a).map fun p => mkInstr p false none).toList := rfl
        rw [this, loc_cases]
        simp only [Option.some.injEq] at hv
        split at hv
        · rename_i e; cases hv; rw [if_pos e]; exact one_out x _
        · rename_i e; rw [if_neg e]
          split at hv
          · rename_i e; cases hv; rw [if_pos e]; exact one_out x _
          · rename_i e; rw [if_neg e]
            split at hv
            · rename_i e; cases hv; rw [if_pos e]; exact one_out x _
            · cases hv
    · cases arg with
      | none => cases hv
      | some a =>
        have hv : (if some a = some b!"listener" then some (dash x.lstnName) else if some a = some b!"service" then some (serviceText x)
              else if some a = some b!"backend" then some x.backendName else none) = some v := hv
        have : itemInstrs (.conv (some a) ch%'N') = ((argprtFind nameprt a).map fun p => mkInstr p false none).toList := rfl
        rw [this, name_cases]
        simp only [Option.some.injEq] at hv
        split at hv
        · rename_i e; cases hv; rw [if_pos e]; exact one_out x _
        · rename_i e; rw [if_neg e]
          split at hv
          · rename_i e; cases hv; rw [if_pos e, ← serviceText_eq]; exact one_out x _
          · rename_i e; rw [if_neg e]
            split at hv
            · rename_i e; cases hv; rw [if_pos e]; exact one_out x _
            · cases hv
    · cases hv
      have : itemInstrs (.conv arg ch%'m') = [mkInstr .method false none] := by cases arg <;> rfl
      rw [this, one_out]; rfl
    · cases hv
      have : itemInstrs (.conv arg ch%'P') = [mkInstr .tid false none] := by cases arg <;> rfl
      rw [this, one_out]; rfl
    · cases hv
      have : itemInstrs (.conv arg ch%'q') = [mkInstr .query false none] := by cases arg <;> rfl
      rw [this, one_out]
      show (match x.query with | some q => ch%'?' :: q | none => []) = _
      cases x.query <;> rfl
    · cases hv
      have : itemInstrs (.conv arg ch%'r') = [mkInstr .request false none] := by cases arg <;> rfl
      rw [this, one_out]; rfl
    · cases hv
      have : itemInstrs (.conv arg ch%'s') = [mkInstr .status false arg] := by cases arg <;> rfl
      rw [this, one_out]
      show (if (mkInstr .status false arg).arg.isSome then x.respLine else padTo 32 3 (dec x.respCode)) = _
      rw [status_print h]
      cases arg with
      | none => rfl
      | some a =>
        by_cases e : a = []
        · subst e; rfl
        · have h1 : (mkInstr .status false (some a)).arg = some a := by
            unfold mkInstr; dsimp only; rw [if_neg (by simpa using e)]
          rw [h1, if_neg (c := some a = none ∨ some a = some []) (by simpa using e)]
          rfl
    · cases hv
      have : itemInstrs (.conv arg ch%'t') = [pTime arg] := by cases arg <;> rfl
      rw [this, one_out]
      cases arg with
      | none =>
        show x.strftime b!"[%d/%b/%Y:%H:%M:%S %z]" x.start.sec = timeText x []
        rfl
      | some a =>
        have ho : (LItem.conv (some a) ch%'t').oddTime = false := ho
        obtain ⟨h1, h2⟩ := oddTime_prefix ho
        exact time_print h a h1 h2
    · have : itemInstrs (.conv arg ch%'T') = (pProcessTime arg).toList := by cases arg <;> rfl
      rw [this]
      cases arg with
      | none =>
        have hv : took x b!"s" = some v := hv
        rw [took_print h] at hv
        cases hv
        exact one_out x _
      | some a =>
        have hv : took x a = some v := hv
        rw [took_print h] at hv
        show outOf x ((argprtFind proctimeprt a).map fun p => mkInstr p false none).toList = v
        cases hp : argprtFind proctimeprt a with
        | none => rw [hp] at hv; cases hv
        | some p =>
          rw [hp] at hv
          cases hv
          exact one_out x _
    · cases hv
      have : itemInstrs (.conv arg ch%'u') = [mkInstr .userName false none] := by cases arg <;> rfl
      rw [this, one_out]; rfl
    · cases hv
      have : itemInstrs (.conv arg ch%'U') = [mkInstr .url false none] := by cases arg <;> rfl
      rw [this, one_out]; rfl
    · cases hv
      have : itemInstrs (.conv arg ch%'v') = [mkInstr .listenerName false none] := by cases arg <;> rfl
      rw [this, one_out]; rfl

/-! ### LogSuppress -/

theorem digit_word {w : Bytes} (h : w.length = 1 ∧ w.all isDigit = true) : w = b!"0" ∨ w = b!"1" ∨ w = b!"2" ∨ w = b!"3" ∨ w = b!"4" ∨ w = b!"5" ∨ w = b!"6" ∨ w = b!"7" ∨ w = b!"8" ∨ w = b!"9" := by
  obtain ⟨h1, h2⟩ := h
  match w, h1 with
  | [c], _ =>
    have hc : isDigit c = true := by simpa using h2
    revert hc
    have : ∀ c : UInt8, isDigit c = true → [c] = b!"0" ∨ [c] = b!"1" ∨ [c] = b!"2" ∨ [c] = b!"3" ∨ [c] = b!"4" ∨ [c] = b!"5" ∨ [c] = b!"6" ∨ [c] = b!"7" ∨ [c] = b!"8" ∨ [c] = b!"9" := by
      apply forall_byte; decide +kernel
    exact this c

/-- The words that are not digits -/
theorem word_table (w : Bytes) (hd : ¬ (w.length = 1 ∧ w.all isDigit = true)) :
    (ciEq w b!"all" = true ∧ suppressWord w = some 62) ∨ (ciEq w b!"info" = true ∧ suppressWord w = some 2) ∨ (ciEq w b!"success" = true ∧ suppressWord w = some 4) ∨
    (ciEq w b!"redirect" = true ∧ suppressWord w = some 8) ∨ (ciEq w b!"clterr" = true ∧ suppressWord w = some 16) ∨ (ciEq w b!"srverr" = true ∧ suppressWord w = some 32) ∨
    (ciEq w b!"all" = false ∧ ciEq w b!"info" = false ∧ ciEq w b!"success" = false ∧ ciEq w b!"redirect" = false ∧ ciEq w b!"clterr" = false ∧ ciEq w b!"srverr" = false ∧
      suppressWord w = none) := by
  unfold suppressWord statusTable
  rw [if_neg hd]
  simp only [ciEq_comm w]
  simp only [List.find?_cons, List.find?_nil]
  cases ciEq b!"all" w
  · cases ciEq b!"info" w
    · cases ciEq b!"success" w
      · cases ciEq b!"redirect" w
        · cases ciEq b!"clterr" w
          · cases ciEq b!"srverr" w <;> simp
          · simp
        · simp
      · simp
    · simp
  · simp

/-- No word has two meanings. -/
theorem ci_excl {w a b : Bytes} (h : ciEq w a = true) (hab : ciEq a b = false) : ciEq w b = false := by
  rw [ciEq_congr h]; exact hab

theorem word_bits {w : Bytes} {n : Nat} (h : suppressWord w = some n) (k : Nat) (hk : 1 ≤ k ∧ k ≤ 5) : n.testBit k = true ↔ suppressClass w k := by
  have hk' : k = 1 ∨ k = 2 ∨ k = 3 ∨ k = 4 ∨ k = 5 := by omega
  by_cases hd : w.length = 1 ∧ w.all isDigit = true
  · have hn : n = (suppressWord w).getD 0 := by rw [h]; rfl
    rcases digit_word hd with rfl | rfl | rfl | rfl | rfl | rfl | rfl | rfl | rfl | rfl
    all_goals first
      | exact absurd h (by decide)
      | subst hn
        clear h hd
        rcases hk' with rfl | rfl | rfl | rfl | rfl <;> (unfold suppressClass; decide +kernel)
  · have hne : ∀ c : UInt8, isDigit c = true → w ≠ [c] := by
      rintro c hc rfl
      exact hd ⟨rfl, by simpa using hc⟩
    have d1 := hne ch%'1' (by decide)
    have d2 := hne ch%'2' (by decide)
    have d3 := hne ch%'3' (by decide)
    have d4 := hne ch%'4' (by decide)
    have d5 := hne ch%'5' (by decide)
    unfold suppressClass
    rcases word_table w hd with ⟨e, e'⟩ | ⟨e, e'⟩ | ⟨e, e'⟩ | ⟨e, e'⟩ | ⟨e, e'⟩ | ⟨e, e'⟩ | ⟨-, -, -, -, -, -, e'⟩
    all_goals (rw [e'] at h; cases h)
    · simp only [e, true_or, iff_true]
      rcases hk' with rfl | rfl | rfl | rfl | rfl <;> decide
    all_goals
      simp only [e, d1, d2, d3, d4, d5, ci_excl (b := b!"all") e (by decide), false_or, or_false]
      rcases hk' with rfl | rfl | rfl | rfl | rfl
      all_goals first
        | (simp [e, Nat.testBit]; done)
        | (simp [Nat.testBit]; exact ci_excl e (by decide))

theorem mask_bits : ∀ (ws : List Bytes) (m0 m : Nat), suppressMask m0 ws = some m → ∀ k, (1 ≤ k ∧ k ≤ 5) →
    (m.testBit k = true ↔ m0.testBit k = true ∨ ∃ w ∈ ws, suppressClass w k) := by
  intro ws
  induction ws with
  | nil => intro m0 m h k _; cases h; simp
  | cons w ws ih =>
    intro m0 m h k hk
    unfold suppressMask at h
    cases hw : suppressWord w with
    | none => rw [hw] at h; cases h
    | some n =>
      rw [hw] at h
      rw [ih _ _ h k hk, Nat.testBit_or]
      simp only [Bool.or_eq_true, word_bits hw k hk, List.mem_cons, exists_eq_or_imp]
      rw [or_assoc]

theorem bit_and (k m : Nat) : (2 ^ k &&& m) ≠ 0 ↔ m.testBit k = true := by
  have hb : ∀ i, (2 ^ k &&& m).testBit i = (decide (k = i) && m.testBit i) := fun i => by rw [Nat.testBit_and, Nat.testBit_two_pow]
  constructor
  · intro h
    cases hm : m.testBit k with
    | true => rfl
    | false =>
      exfalso
      apply h
      apply Nat.eq_of_testBit_eq
      intro i
      rw [hb, Nat.zero_testBit]
      by_cases e : k = i
      · subst e; simp [hm]
      · simp [e]
  · intro h e
    have := hb k
    rw [e, Nat.zero_testBit, h] at this
    simp at this

theorem word_accepted (w : Bytes) : (suppressWord w).isSome ↔ w = b!"6" ∨ ∃ k, suppressClass w k := by
  constructor
  · intro h
    obtain ⟨n, hn⟩ := Option.isSome_iff_exists.mp h
    by_cases hd : w.length = 1 ∧ w.all isDigit = true
    · clear hn
      rcases digit_word hd with rfl | rfl | rfl | rfl | rfl | rfl | rfl | rfl | rfl | rfl
      all_goals first
        | (exfalso; revert h; decide)
        | exact Or.inl rfl
        | exact Or.inr ⟨1, by unfold suppressClass; decide⟩
        | exact Or.inr ⟨2, by unfold suppressClass; decide⟩
        | exact Or.inr ⟨3, by unfold suppressClass; decide⟩
        | exact Or.inr ⟨4, by unfold suppressClass; decide⟩
        | exact Or.inr ⟨5, by unfold suppressClass; decide⟩
    · right
      rcases word_table w hd with ⟨e, e'⟩ | ⟨e, e'⟩ | ⟨e, e'⟩ | ⟨e, e'⟩ | ⟨e, e'⟩ | ⟨e, e'⟩ | ⟨-, -, -, -, -, -, e'⟩
      · exact ⟨1, Or.inl e⟩
      · exact ⟨1, by unfold suppressClass; simp [e]⟩
      · exact ⟨2, by unfold suppressClass; simp [e]⟩
      · exact ⟨3, by unfold suppressClass; simp [e]⟩
      · exact ⟨4, by unfold suppressClass; simp [e]⟩
      · exact ⟨5, by unfold suppressClass; simp [e]⟩
      · rw [e'] at hn; cases hn
  · rintro (rfl | ⟨k, h⟩)
    · decide
    · by_cases hd : w.length = 1 ∧ w.all isDigit = true
      · rcases digit_word hd with rfl | rfl | rfl | rfl | rfl | rfl | rfl | rfl | rfl | rfl
        all_goals first
          | decide
          | (exfalso; revert h; unfold suppressClass; simp; refine ⟨by decide, fun _ => by decide, fun _ => by decide, fun _ => by decide, fun _ => by decide, fun _ => by decide⟩)
      · rcases word_table w hd with ⟨e, e'⟩ | ⟨e, e'⟩ | ⟨e, e'⟩ | ⟨e, e'⟩ | ⟨e, e'⟩ | ⟨e, e'⟩ | ⟨e1, e2, e3, e4, e5, e6, e'⟩
        all_goals first
          | (rw [e']; rfl)
          | skip
        exfalso
        have hne : ∀ c : UInt8, isDigit c = true → w ≠ [c] := by
          rintro c hc rfl
          exact hd ⟨rfl, by simpa using hc⟩
        unfold suppressClass at h
        simp [e1, e2, e3, e4, e5, e6, hne ch%'1' (by decide), hne ch%'2' (by decide), hne ch%'3' (by decide), hne ch%'4' (by decide), hne ch%'5' (by decide)] at h

end Pound
