import Verif.Bc.Spec
import Verif.Fort.Loops
import Mathlib.Tactic.Ring
import Mathlib.Tactic.SplitIfs

set_option autoImplicit false
set_option linter.unusedSimpArgs false

namespace Fclaw.Bc

open Fclaw.Fort

/-- A loop of assignments `q(dst) = f q(src)` that never reads what it writes. -/
theorem copyLoop {ι : Type} (d : Dims) (step : ι → Grid ℚ → Option (Grid ℚ)) (dst src : ι → Cell)
    (f : ℚ → ℚ) (hstep : ∀ k q, step k q = match rd d q (src k) with
      | some v => wr d q (dst k) (f v)
      | none => none) (W : Cell → Cell) (ks : List ι) :
    (∀ k ∈ ks, inBox d (dst k) = true ∧ inBox d (src k) = true ∧ src k = W (dst k)) →
    (∀ k ∈ ks, ∀ k' ∈ ks, src k ≠ dst k') → ∀ q : Grid ℚ,
    ∃ q', loop ks step q = some q' ∧ (∀ k ∈ ks, q' (dst k) = f (q (W (dst k)))) ∧
      ∀ c, (∀ k ∈ ks, c ≠ dst k) → q' c = q c := by
  induction ks with
  | nil =>
    intro _ _ q
    exact ⟨q, rfl, fun k hk => by simp at hk, fun _ _ => rfl⟩
  | cons k ks ih =>
    intro hb hs q
    obtain ⟨b1, b2, b3⟩ := hb k (by simp)
    have e1 : step k q = some (fun c' => if c' = dst k then f (q (src k)) else q c') := by
      rw [hstep]
      simp only [rd, b2, if_true, wr, b1]
    obtain ⟨q', e, h1, h2⟩ := ih (fun x hx => hb x (List.mem_cons_of_mem _ hx))
      (fun x hx y hy => hs x (List.mem_cons_of_mem _ hx) y (List.mem_cons_of_mem _ hy))
      (fun c' => if c' = dst k then f (q (src k)) else q c')
    refine ⟨q', by simp only [loop, e1, Option.bind_some, e], ?_, ?_⟩
    · intro x hx
      by_cases hm : ∃ y ∈ ks, dst y = dst x
      · obtain ⟨y, hy, hyx⟩ := hm
        rw [← hyx, h1 y hy]
        rw [if_neg]
        rw [← (hb y (List.mem_cons_of_mem _ hy)).2.2]
        exact hs y (List.mem_cons_of_mem _ hy) k (by simp)
      · rcases List.mem_cons.1 hx with rfl | hx
        · rw [h2 _ (fun y hy h => hm ⟨y, hy, h.symm⟩), if_pos rfl, b3]
        · exact absurd ⟨x, hx, rfl⟩ hm
    · intro c hc
      rw [h2 c (fun y hy => hc y (List.mem_cons_of_mem _ hy)), if_neg (hc k (by simp))]

/-- The three nested loops. -/
theorem tripleLoop (d : Dims) (step : ℤ → ℤ → ℤ → Grid ℚ → Option (Grid ℚ))
    (dst src : ℤ → ℤ → ℤ → Cell) (f : ℚ → ℚ) (hstep : ∀ a b c q, step a b c q = match rd d q (src a b c) with
      | some v => wr d q (dst a b c) (f v)
      | none => none) (W : Cell → Cell) (l1 h1 l2 h2 l3 h3 : ℤ)
    (hb : ∀ a b c, (l1 ≤ a ∧ a ≤ h1) → (l2 ≤ b ∧ b ≤ h2) → (l3 ≤ c ∧ c ≤ h3) →
      inBox d (dst a b c) = true ∧ inBox d (src a b c) = true ∧ src a b c = W (dst a b c))
    (hs : ∀ a b c a' b' c', (l1 ≤ a ∧ a ≤ h1) → (l2 ≤ b ∧ b ≤ h2) → (l3 ≤ c ∧ c ≤ h3) →
      (l1 ≤ a' ∧ a' ≤ h1) → (l2 ≤ b' ∧ b' ≤ h2) → (l3 ≤ c' ∧ c' ≤ h3) → src a b c ≠ dst a' b' c')
    (q : Grid ℚ) :
    ∃ q', doLoop l1 h1 (fun a => doLoop l2 h2 fun b => doLoop l3 h3 fun c => step a b c) q = some q' ∧
      (∀ a b c, (l1 ≤ a ∧ a ≤ h1) → (l2 ≤ b ∧ b ≤ h2) → (l3 ≤ c ∧ c ≤ h3) →
        q' (dst a b c) = f (q (W (dst a b c)))) ∧
      ∀ x, (∀ a b c, (l1 ≤ a ∧ a ≤ h1) → (l2 ≤ b ∧ b ≤ h2) → (l3 ≤ c ∧ c ≤ h3) → x ≠ dst a b c) →
        q' x = q x := by
  have key := copyLoop d (fun k : (ℤ × ℤ) × ℤ => step k.1.1 k.1.2 k.2) (fun k => dst k.1.1 k.1.2 k.2)
    (fun k => src k.1.1 k.1.2 k.2) f (fun k q => hstep _ _ _ q) W
    (((range l1 h1).flatMap fun a => (range l2 h2).map fun b => (a, b)).flatMap fun x =>
      (range l3 h3).map fun c => (x, c))
  have hmem : ∀ k : (ℤ × ℤ) × ℤ, k ∈ (((range l1 h1).flatMap fun a => (range l2 h2).map fun b => (a, b)).flatMap
      fun x => (range l3 h3).map fun c => (x, c)) ↔
      ((l1 ≤ k.1.1 ∧ k.1.1 ≤ h1) ∧ (l2 ≤ k.1.2 ∧ k.1.2 ≤ h2)) ∧ (l3 ≤ k.2 ∧ k.2 ≤ h3) := by
    intro k
    rw [mem_flat, mem_flat, mem_range, mem_range, mem_range]
  obtain ⟨q', e, g1, g2⟩ := key
    (fun k hk => by
      obtain ⟨⟨ha, hb'⟩, hc⟩ := (hmem k).1 hk
      exact hb _ _ _ ha hb' hc)
    (fun k hk k' hk' => by
      obtain ⟨⟨ha, hb'⟩, hc⟩ := (hmem k).1 hk
      obtain ⟨⟨ha', hb''⟩, hc'⟩ := (hmem k').1 hk'
      exact hs _ _ _ _ _ _ ha hb' hc ha' hb'' hc') q
  refine ⟨q', ?_, ?_, ?_⟩
  · rw [← e]
    unfold doLoop
    rw [← loop_flat ((range l1 h1).flatMap fun a => (range l2 h2).map fun b => (a, b)) (range l3 h3)
      (fun x c => step x.1 x.2 c),
      ← loop_flat (range l1 h1) (range l2 h2) (fun a b => loop (range l3 h3) fun c => step a b c)]
  · intro a b c ha hb' hc
    exact g1 ((a, b), c) ((hmem _).2 ⟨⟨ha, hb'⟩, hc⟩)
  · intro x hx
    refine g2 x fun k hk => ?_
    obtain ⟨⟨ha, hb'⟩, hc⟩ := (hmem k).1 hk
    exact hx _ _ _ ha hb' hc

theorem bind_some_id {σ : Type} (x : Option σ) : (x.bind fun s => some s) = x := by cases x <;> rfl

theorem xSide_spec (d : Dims) (dst src w : ℤ → ℤ) (S : ℤ → Prop)
    (hS : ∀ i : ℤ, 1 - (d.mbc : ℤ) ≤ i → i ≤ d.mx + d.mbc → (S i ↔ ∃ b : ℤ, (1 ≤ b ∧ b ≤ d.mbc) ∧ i = dst b))
    (hd : ∀ b : ℤ, 1 ≤ b → b ≤ d.mbc → 1 - (d.mbc : ℤ) ≤ dst b ∧ dst b ≤ d.mx + d.mbc)
    (hs : ∀ b : ℤ, 1 ≤ b → b ≤ d.mbc → 1 ≤ src b ∧ src b ≤ d.mx)
    (hw : ∀ b : ℤ, 1 ≤ b → b ≤ d.mbc → src b = w (dst b))
    (hne : ∀ b b' : ℤ, (1 ≤ b ∧ b ≤ d.mbc) → (1 ≤ b' ∧ b' ≤ d.mbc) → src b ≠ dst b') (q : Grid ℚ) :
    ∃ q', xSide d dst src q = some q' ∧
      (∀ c, inBox d c = true → S c.1 → q' c = q (w c.1, c.2.1, c.2.2)) ∧
      ∀ c, inBox d c = true → ¬ S c.1 → q' c = q c := by
  obtain ⟨q', e, h1, h2⟩ := tripleLoop d (fun m b j => copy d (dst b, j, m) (src b, j, m))
    (fun m b j => (dst b, j, m)) (fun m b j => (src b, j, m)) (fun v => v)
    (fun a b c q => rfl) (fun c => (w c.1, c.2.1, c.2.2)) 1 d.meqn 1 d.mbc (1 - d.mbc)
    (d.my + d.mbc)
    (by
      intro m b j hm hb hj
      have := hd b hb.1 hb.2
      have := hs b hb.1 hb.2
      refine ⟨(inBox_iff d _ _ _).2 ⟨by omega, by omega, by omega⟩, (inBox_iff d _ _ _).2 ⟨by omega, by omega, by omega⟩, ?_⟩
      rw [hw b hb.1 hb.2])
    (by
      intro m b j m' b' j' _ hb _ _ hb' _ h
      simp only [Prod.mk.injEq] at h
      exact hne b b' hb hb' h.1) q
  refine ⟨q', e, ?_, ?_⟩
  · rintro ⟨i, j, m⟩ hc hi
    obtain ⟨h3, h4, h5⟩ := (inBox_iff d i j m).1 hc
    obtain ⟨b, hb, hib⟩ := (hS _ h3.1 h3.2).1 hi
    subst hib
    exact h1 m b j h5 hb h4
  · rintro ⟨i, j, m⟩ hc hi
    obtain ⟨h3, h4, h5⟩ := (inBox_iff d i j m).1 hc
    refine h2 _ fun m' b j' _ hb _ h => hi ?_
    simp only [Prod.mk.injEq] at h
    exact (hS _ h3.1 h3.2).2 ⟨b, hb, h.1⟩

theorem xNegate_spec (d : Dims) (hmeqn : 2 ≤ d.meqn) (dst src w : ℤ → ℤ) (S : ℤ → Prop)
    (hS : ∀ i : ℤ, 1 - (d.mbc : ℤ) ≤ i → i ≤ d.mx + d.mbc → (S i ↔ ∃ b : ℤ, (1 ≤ b ∧ b ≤ d.mbc) ∧ i = dst b))
    (hd : ∀ b : ℤ, 1 ≤ b → b ≤ d.mbc → 1 - (d.mbc : ℤ) ≤ dst b ∧ dst b ≤ d.mx + d.mbc)
    (hs : ∀ b : ℤ, 1 ≤ b → b ≤ d.mbc → 1 ≤ src b ∧ src b ≤ d.mx)
    (hw : ∀ b : ℤ, 1 ≤ b → b ≤ d.mbc → src b = w (dst b))
    (hne : ∀ b b' : ℤ, (1 ≤ b ∧ b ≤ d.mbc) → (1 ≤ b' ∧ b' ≤ d.mbc) → src b ≠ dst b') (q : Grid ℚ) :
    ∃ q', xNegate d dst src q = some q' ∧
      (∀ c, inBox d c = true → S c.1 → c.2.2 = 2 → q' c = - q (w c.1, c.2.1, c.2.2)) ∧
      ∀ c, inBox d c = true → ¬ (S c.1 ∧ c.2.2 = 2) → q' c = q c := by
  obtain ⟨q', e, h1, h2⟩ := tripleLoop d (fun m b j => negate d (dst b, j, m) (src b, j, m))
    (fun m b j => (dst b, j, m)) (fun m b j => (src b, j, m)) (fun v => -v)
    (fun a b c q => rfl) (fun c => (w c.1, c.2.1, c.2.2)) 2 2 1 d.mbc (1 - d.mbc)
    (d.my + d.mbc)
    (by
      intro m b j hm hb hj
      have := hd b hb.1 hb.2
      have := hs b hb.1 hb.2
      refine ⟨(inBox_iff d _ _ _).2 ⟨by omega, by omega, by omega⟩, (inBox_iff d _ _ _).2 ⟨by omega, by omega, by omega⟩, ?_⟩
      rw [hw b hb.1 hb.2])
    (by
      intro m b j m' b' j' _ hb _ _ hb' _ h
      simp only [Prod.mk.injEq] at h
      exact hne b b' hb hb' h.1) q
  refine ⟨q', ?_, ?_, ?_⟩
  · rw [← e]
    have : range 2 2 = [2] := by decide
    conv_rhs => unfold doLoop
    rw [this]
    simp only [loop, Option.bind_some]
    rw [bind_some_id]
    rfl
  · rintro ⟨i, j, m⟩ hc hi hm
    obtain ⟨h3, h4, h5⟩ := (inBox_iff d i j m).1 hc
    obtain ⟨b, hb, hib⟩ := (hS _ h3.1 h3.2).1 hi
    dsimp only at hib hm
    subst hib
    subst hm
    exact h1 2 b j ⟨le_refl _, le_refl _⟩ hb h4
  · rintro ⟨i, j, m⟩ hc hi
    obtain ⟨h3, h4, h5⟩ := (inBox_iff d i j m).1 hc
    refine h2 _ fun m' b j' hm hb _ h => hi ?_
    simp only [Prod.mk.injEq] at h
    refine ⟨(hS _ h3.1 h3.2).2 ⟨b, hb, h.1⟩, ?_⟩
    have := h.2.2
    dsimp only
    omega

/-- The wall: mirror images, then the sign of one component. -/
theorem xWall_spec (d : Dims) (hmeqn : 2 ≤ d.meqn) (dst src w : ℤ → ℤ) (S : ℤ → Prop)
    (hS : ∀ i : ℤ, 1 - (d.mbc : ℤ) ≤ i → i ≤ d.mx + d.mbc → (S i ↔ ∃ b : ℤ, (1 ≤ b ∧ b ≤ d.mbc) ∧ i = dst b))
    (hd : ∀ b : ℤ, 1 ≤ b → b ≤ d.mbc → 1 - (d.mbc : ℤ) ≤ dst b ∧ dst b ≤ d.mx + d.mbc)
    (hs : ∀ b : ℤ, 1 ≤ b → b ≤ d.mbc → 1 ≤ src b ∧ src b ≤ d.mx)
    (hw : ∀ b : ℤ, 1 ≤ b → b ≤ d.mbc → src b = w (dst b))
    (hne : ∀ b b' : ℤ, (1 ≤ b ∧ b ≤ d.mbc) → (1 ≤ b' ∧ b' ≤ d.mbc) → src b ≠ dst b') (q : Grid ℚ) :
    ∃ q', seq (xSide d dst src) (xNegate d dst src) q = some q' ∧
      (∀ c, inBox d c = true → S c.1 → q' c = (if c.2.2 = 2 then -1 else 1) * q (w c.1, c.2.1, c.2.2)) ∧
      ∀ c, inBox d c = true → ¬ S c.1 → q' c = q c := by
  obtain ⟨q1, e1, a1, b1⟩ := xSide_spec d dst src w S hS hd hs hw hne q
  obtain ⟨q2, e2, a2, b2⟩ := xNegate_spec d hmeqn dst src w S hS hd hs hw hne q1
  refine ⟨q2, by unfold seq; rw [e1, Option.bind_some, e2], ?_, ?_⟩
  · rintro ⟨i, j, m⟩ hc hi
    by_cases hm : m = 2
    · rw [a2 _ hc hi hm, if_pos hm, neg_one_mul]
      obtain ⟨h3, h4, h5⟩ := (inBox_iff d i j m).1 hc
      obtain ⟨b, hb, hib⟩ := (hS _ h3.1 h3.2).1 hi
      dsimp only at hib ⊢
      have hsb := hs b hb.1 hb.2
      have hws := hw b hb.1 hb.2
      rw [hib, ← hws]
      rw [b1 _ ((inBox_iff d _ _ _).2 ⟨by omega, h4, h5⟩)]
      intro h
      obtain ⟨b', hb', e⟩ := (hS (src b) (by omega) (by omega)).1 h
      exact hne b b' hb hb' e
    · rw [b2 _ hc (fun h => hm h.2), if_neg hm, one_mul]
      exact a1 _ hc hi
  · intro c hc hi
    rw [b2 c hc (fun h => hi h.1), b1 c hc hi]

theorem ySide_spec (d : Dims) (dst src w : ℤ → ℤ) (S : ℤ → Prop)
    (hS : ∀ i : ℤ, 1 - (d.mbc : ℤ) ≤ i → i ≤ d.my + d.mbc → (S i ↔ ∃ b : ℤ, (1 ≤ b ∧ b ≤ d.mbc) ∧ i = dst b))
    (hd : ∀ b : ℤ, 1 ≤ b → b ≤ d.mbc → 1 - (d.mbc : ℤ) ≤ dst b ∧ dst b ≤ d.my + d.mbc)
    (hs : ∀ b : ℤ, 1 ≤ b → b ≤ d.mbc → 1 ≤ src b ∧ src b ≤ d.my)
    (hw : ∀ b : ℤ, 1 ≤ b → b ≤ d.mbc → src b = w (dst b))
    (hne : ∀ b b' : ℤ, (1 ≤ b ∧ b ≤ d.mbc) → (1 ≤ b' ∧ b' ≤ d.mbc) → src b ≠ dst b') (q : Grid ℚ) :
    ∃ q', ySide d dst src q = some q' ∧
      (∀ c, inBox d c = true → S c.2.1 → q' c = q (c.1, w c.2.1, c.2.2)) ∧
      ∀ c, inBox d c = true → ¬ S c.2.1 → q' c = q c := by
  obtain ⟨q', e, h1, h2⟩ := tripleLoop d (fun m b j => copy d (j, dst b, m) (j, src b, m))
    (fun m b j => (j, dst b, m)) (fun m b j => (j, src b, m)) (fun v => v)
    (fun a b c q => rfl) (fun c => (c.1, w c.2.1, c.2.2)) 1 d.meqn 1 d.mbc (1 - d.mbc)
    (d.mx + d.mbc)
    (by
      intro m b j hm hb hj
      have := hd b hb.1 hb.2
      have := hs b hb.1 hb.2
      refine ⟨(inBox_iff d _ _ _).2 ⟨by omega, by omega, by omega⟩, (inBox_iff d _ _ _).2 ⟨by omega, by omega, by omega⟩, ?_⟩
      rw [hw b hb.1 hb.2])
    (by
      intro m b j m' b' j' _ hb _ _ hb' _ h
      simp only [Prod.mk.injEq] at h
      exact hne b b' hb hb' h.2.1) q
  refine ⟨q', e, ?_, ?_⟩
  · rintro ⟨i, j, m⟩ hc hi
    obtain ⟨h3, h4, h5⟩ := (inBox_iff d i j m).1 hc
    obtain ⟨b, hb, hib⟩ := (hS _ h4.1 h4.2).1 hi
    subst hib
    exact h1 m b i h5 hb h3
  · rintro ⟨i, j, m⟩ hc hi
    obtain ⟨h3, h4, h5⟩ := (inBox_iff d i j m).1 hc
    refine h2 _ fun m' b j' _ hb _ h => hi ?_
    simp only [Prod.mk.injEq] at h
    exact (hS _ h4.1 h4.2).2 ⟨b, hb, h.2.1⟩

theorem yNegate_spec (d : Dims) (hmeqn : 3 ≤ d.meqn) (dst src w : ℤ → ℤ) (S : ℤ → Prop)
    (hS : ∀ i : ℤ, 1 - (d.mbc : ℤ) ≤ i → i ≤ d.my + d.mbc → (S i ↔ ∃ b : ℤ, (1 ≤ b ∧ b ≤ d.mbc) ∧ i = dst b))
    (hd : ∀ b : ℤ, 1 ≤ b → b ≤ d.mbc → 1 - (d.mbc : ℤ) ≤ dst b ∧ dst b ≤ d.my + d.mbc)
    (hs : ∀ b : ℤ, 1 ≤ b → b ≤ d.mbc → 1 ≤ src b ∧ src b ≤ d.my)
    (hw : ∀ b : ℤ, 1 ≤ b → b ≤ d.mbc → src b = w (dst b))
    (hne : ∀ b b' : ℤ, (1 ≤ b ∧ b ≤ d.mbc) → (1 ≤ b' ∧ b' ≤ d.mbc) → src b ≠ dst b') (q : Grid ℚ) :
    ∃ q', yNegate d dst src q = some q' ∧
      (∀ c, inBox d c = true → S c.2.1 → c.2.2 = 3 → q' c = - q (c.1, w c.2.1, c.2.2)) ∧
      ∀ c, inBox d c = true → ¬ (S c.2.1 ∧ c.2.2 = 3) → q' c = q c := by
  obtain ⟨q', e, h1, h2⟩ := tripleLoop d (fun m b j => negate d (j, dst b, m) (j, src b, m))
    (fun m b j => (j, dst b, m)) (fun m b j => (j, src b, m)) (fun v => -v)
    (fun a b c q => rfl) (fun c => (c.1, w c.2.1, c.2.2)) 3 3 1 d.mbc (1 - d.mbc)
    (d.mx + d.mbc)
    (by
      intro m b j hm hb hj
      have := hd b hb.1 hb.2
      have := hs b hb.1 hb.2
      refine ⟨(inBox_iff d _ _ _).2 ⟨by omega, by omega, by omega⟩, (inBox_iff d _ _ _).2 ⟨by omega, by omega, by omega⟩, ?_⟩
      rw [hw b hb.1 hb.2])
    (by
      intro m b j m' b' j' _ hb _ _ hb' _ h
      simp only [Prod.mk.injEq] at h
      exact hne b b' hb hb' h.2.1) q
  refine ⟨q', ?_, ?_, ?_⟩
  · rw [← e]
    have : range 3 3 = [3] := by decide
    conv_rhs => unfold doLoop
    rw [this]
    simp only [loop, Option.bind_some]
    rw [bind_some_id]
    rfl
  · rintro ⟨i, j, m⟩ hc hi hm
    obtain ⟨h3, h4, h5⟩ := (inBox_iff d i j m).1 hc
    obtain ⟨b, hb, hib⟩ := (hS _ h4.1 h4.2).1 hi
    dsimp only at hib hm
    subst hib
    subst hm
    exact h1 3 b i ⟨le_refl _, le_refl _⟩ hb h3
  · rintro ⟨i, j, m⟩ hc hi
    obtain ⟨h3, h4, h5⟩ := (inBox_iff d i j m).1 hc
    refine h2 _ fun m' b j' hm hb _ h => hi ?_
    simp only [Prod.mk.injEq] at h
    refine ⟨(hS _ h4.1 h4.2).2 ⟨b, hb, h.2.1⟩, ?_⟩
    have := h.2.2
    dsimp only
    omega

/-- The wall: mirror images, then the sign of one component. -/
theorem yWall_spec (d : Dims) (hmeqn : 3 ≤ d.meqn) (dst src w : ℤ → ℤ) (S : ℤ → Prop)
    (hS : ∀ i : ℤ, 1 - (d.mbc : ℤ) ≤ i → i ≤ d.my + d.mbc → (S i ↔ ∃ b : ℤ, (1 ≤ b ∧ b ≤ d.mbc) ∧ i = dst b))
    (hd : ∀ b : ℤ, 1 ≤ b → b ≤ d.mbc → 1 - (d.mbc : ℤ) ≤ dst b ∧ dst b ≤ d.my + d.mbc)
    (hs : ∀ b : ℤ, 1 ≤ b → b ≤ d.mbc → 1 ≤ src b ∧ src b ≤ d.my)
    (hw : ∀ b : ℤ, 1 ≤ b → b ≤ d.mbc → src b = w (dst b))
    (hne : ∀ b b' : ℤ, (1 ≤ b ∧ b ≤ d.mbc) → (1 ≤ b' ∧ b' ≤ d.mbc) → src b ≠ dst b') (q : Grid ℚ) :
    ∃ q', seq (ySide d dst src) (yNegate d dst src) q = some q' ∧
      (∀ c, inBox d c = true → S c.2.1 → q' c = (if c.2.2 = 3 then -1 else 1) * q (c.1, w c.2.1, c.2.2)) ∧
      ∀ c, inBox d c = true → ¬ S c.2.1 → q' c = q c := by
  obtain ⟨q1, e1, a1, b1⟩ := ySide_spec d dst src w S hS hd hs hw hne q
  obtain ⟨q2, e2, a2, b2⟩ := yNegate_spec d hmeqn dst src w S hS hd hs hw hne q1
  refine ⟨q2, by unfold seq; rw [e1, Option.bind_some, e2], ?_, ?_⟩
  · rintro ⟨i, j, m⟩ hc hi
    by_cases hm : m = 3
    · rw [a2 _ hc hi hm, if_pos hm, neg_one_mul]
      obtain ⟨h3, h4, h5⟩ := (inBox_iff d i j m).1 hc
      obtain ⟨b, hb, hib⟩ := (hS _ h4.1 h4.2).1 hi
      dsimp only at hib ⊢
      have hsb := hs b hb.1 hb.2
      have hws := hw b hb.1 hb.2
      rw [hib, ← hws]
      rw [b1 _ ((inBox_iff d _ _ _).2 ⟨h3, by omega, h5⟩)]
      intro h
      obtain ⟨b', hb', e⟩ := (hS (src b) (by omega) (by omega)).1 h
      exact hne b b' hb hb' e
    · rw [b2 _ hc (fun h => hm h.2), if_neg hm, one_mul]
      exact a1 _ hc hi
  · intro c hc hi
    rw [b2 c hc (fun h => hi h.1), b1 c hc hi]

/-- What a side does, for its kind. -/
theorem left_spec (d : Dims) (hn : 1 ≤ d.mx ∧ d.mbc ≤ d.mx) (mth : ℤ) (k : Kind)
    (hk : (k = .none ∧ mth = -1) ∨ (k = .extrap ∧ mth = 1) ∨ (k = .wall ∧ mth = 3 ∧ 2 ≤ d.meqn)) (q : Grid ℚ) :
    ∃ q', left d mth q = .ok q' ∧ ∀ c, inBox d c = true →
      q' c = sign d.mx k .none c.1 c.2.2 2 * q (image d.mx k .none c.1, c.2.1, c.2.2) := by
  have hS : ∀ i : ℤ, 1 - (d.mbc : ℤ) ≤ i → i ≤ d.mx + d.mbc →
      ((fun i => i < 1) i ↔ ∃ b : ℤ, (1 ≤ b ∧ b ≤ d.mbc) ∧ i = 1 - b) := by
    intro i h1 h2
    constructor
    · intro h
      exact ⟨1 - i, by omega, by omega⟩
    · rintro ⟨b, hb, rfl⟩
      omega
  rcases hk with ⟨rfl, rfl⟩ | ⟨rfl, rfl⟩ | ⟨rfl, rfl, hm⟩
  · refine ⟨q, rfl, ?_⟩
    rintro ⟨i, j, m⟩ hc
    have e1 : sign d.mx Kind.none Kind.none i m 2 = 1 := by
      unfold sign behindWall; simp
    have e2 : image d.mx Kind.none Kind.none i = i := by
      unfold image; dsimp only; split_ifs <;> rfl
    rw [e1, e2, one_mul]
  · obtain ⟨q', e, g1, g2⟩ := xSide_spec d (fun b => 1 - b) (fun _ => 1) (fun _ => 1) ((fun i => i < 1)) hS
      (by intro b h1 h2; omega) (by intro b h1 h2; omega) (by intro b h1 h2; rfl)
      (by intro b b' h1 h2; omega) q
    refine ⟨q', ?_, ?_⟩
    · unfold left select
      rw [if_neg (by decide), if_pos rfl, e]; rfl
    · rintro ⟨i, j, m⟩ hc
      have e1 : sign d.mx Kind.extrap Kind.none i m 2 = 1 := by
        unfold sign behindWall; simp
      rw [e1, one_mul]
      by_cases h : i < 1
      · rw [g1 _ hc h]
        have e2 : image d.mx Kind.extrap Kind.none i = 1 := by
          unfold image; dsimp only; split_ifs <;> first | rfl | omega
        rw [e2]
      · rw [g2 _ hc h]
        have e2 : image d.mx Kind.extrap Kind.none i = i := by
          unfold image; dsimp only; split_ifs <;> first | rfl | omega
        rw [e2]
  · obtain ⟨q', e, g1, g2⟩ := xWall_spec d hm (fun b => 1 - b) (fun b => b) (fun i => 1 - i) ((fun i => i < 1)) hS
      (by intro b h1 h2; omega) (by intro b h1 h2; omega)
      (by intro b h1 h2; omega)
      (by intro b b' h1 h2; omega) q
    refine ⟨q', ?_, ?_⟩
    · unfold left select
      rw [if_neg (by decide), if_neg (by decide), if_neg (by decide), if_pos rfl, e]; rfl
    · rintro ⟨i, j, m⟩ hc
      by_cases h : i < 1
      · rw [g1 _ hc h]
        have e1 : sign d.mx Kind.wall Kind.none i m 2 = if m = 2 then -1 else 1 := by
          have hb : behindWall d.mx Kind.wall Kind.none i := by unfold behindWall; simp; omega
          unfold sign; simp [hb]
        have e2 : image d.mx Kind.wall Kind.none i = 1 - i := by
          unfold image; dsimp only; split_ifs <;> first | rfl | omega
        dsimp only
        rw [e1, e2]
      · rw [g2 _ hc h]
        have e1 : sign d.mx Kind.wall Kind.none i m 2 = 1 := by
          have hb : ¬ behindWall d.mx Kind.wall Kind.none i := by unfold behindWall; simp; omega
          unfold sign; simp [hb]
        have e2 : image d.mx Kind.wall Kind.none i = i := by
          unfold image; dsimp only; split_ifs <;> first | rfl | omega
        dsimp only
        rw [e1, e2, one_mul]

/-- What a side does, for its kind. -/
theorem right_spec (d : Dims) (hn : 1 ≤ d.mx ∧ d.mbc ≤ d.mx) (mth : ℤ) (k : Kind)
    (hk : (k = .none ∧ mth = -1) ∨ (k = .extrap ∧ mth = 1) ∨ (k = .wall ∧ mth = 3 ∧ 2 ≤ d.meqn)) (q : Grid ℚ) :
    ∃ q', right d mth q = .ok q' ∧ ∀ c, inBox d c = true →
      q' c = sign d.mx .none k c.1 c.2.2 2 * q (image d.mx .none k c.1, c.2.1, c.2.2) := by
  have hS : ∀ i : ℤ, 1 - (d.mbc : ℤ) ≤ i → i ≤ d.mx + d.mbc →
      ((fun i => (d.mx : ℤ) < i) i ↔ ∃ b : ℤ, (1 ≤ b ∧ b ≤ d.mbc) ∧ i = (d.mx : ℤ) + b) := by
    intro i h1 h2
    constructor
    · intro h
      exact ⟨i - d.mx, by omega, by omega⟩
    · rintro ⟨b, hb, rfl⟩
      omega
  rcases hk with ⟨rfl, rfl⟩ | ⟨rfl, rfl⟩ | ⟨rfl, rfl, hm⟩
  · refine ⟨q, rfl, ?_⟩
    rintro ⟨i, j, m⟩ hc
    have e1 : sign d.mx Kind.none Kind.none i m 2 = 1 := by
      unfold sign behindWall; simp
    have e2 : image d.mx Kind.none Kind.none i = i := by
      unfold image; dsimp only; split_ifs <;> rfl
    rw [e1, e2, one_mul]
  · obtain ⟨q', e, g1, g2⟩ := xSide_spec d (fun b => (d.mx : ℤ) + b) (fun _ => (d.mx : ℤ)) (fun _ => (d.mx : ℤ)) ((fun i => (d.mx : ℤ) < i)) hS
      (by intro b h1 h2; omega) (by intro b h1 h2; omega) (by intro b h1 h2; rfl)
      (by intro b b' h1 h2; omega) q
    refine ⟨q', ?_, ?_⟩
    · unfold right select
      rw [if_neg (by decide), if_pos rfl, e]; rfl
    · rintro ⟨i, j, m⟩ hc
      have e1 : sign d.mx Kind.none Kind.extrap i m 2 = 1 := by
        unfold sign behindWall; simp
      rw [e1, one_mul]
      by_cases h : (d.mx : ℤ) < i
      · rw [g1 _ hc h]
        have e2 : image d.mx Kind.none Kind.extrap i = (d.mx : ℤ) := by
          unfold image; dsimp only; split_ifs <;> first | rfl | omega
        rw [e2]
      · rw [g2 _ hc h]
        have e2 : image d.mx Kind.none Kind.extrap i = i := by
          unfold image; dsimp only; split_ifs <;> first | rfl | omega
        rw [e2]
  · obtain ⟨q', e, g1, g2⟩ := xWall_spec d hm (fun b => (d.mx : ℤ) + b) (fun b => (d.mx : ℤ) + 1 - b) (fun i => 2 * (d.mx : ℤ) + 1 - i) ((fun i => (d.mx : ℤ) < i)) hS
      (by intro b h1 h2; omega) (by intro b h1 h2; omega)
      (by intro b h1 h2; omega)
      (by intro b b' h1 h2; omega) q
    refine ⟨q', ?_, ?_⟩
    · unfold right select
      rw [if_neg (by decide), if_neg (by decide), if_neg (by decide), if_pos rfl, e]; rfl
    · rintro ⟨i, j, m⟩ hc
      by_cases h : (d.mx : ℤ) < i
      · rw [g1 _ hc h]
        have e1 : sign d.mx Kind.none Kind.wall i m 2 = if m = 2 then -1 else 1 := by
          have hb : behindWall d.mx Kind.none Kind.wall i := by unfold behindWall; simp; omega
          unfold sign; simp [hb]
        have e2 : image d.mx Kind.none Kind.wall i = 2 * (d.mx : ℤ) + 1 - i := by
          unfold image; dsimp only; split_ifs <;> first | rfl | omega
        dsimp only
        rw [e1, e2]
      · rw [g2 _ hc h]
        have e1 : sign d.mx Kind.none Kind.wall i m 2 = 1 := by
          have hb : ¬ behindWall d.mx Kind.none Kind.wall i := by unfold behindWall; simp; omega
          unfold sign; simp [hb]
        have e2 : image d.mx Kind.none Kind.wall i = i := by
          unfold image; dsimp only; split_ifs <;> first | rfl | omega
        dsimp only
        rw [e1, e2, one_mul]

/-- What a side does, for its kind. -/
theorem bottom_spec (d : Dims) (hn : 1 ≤ d.my ∧ d.mbc ≤ d.my) (mth : ℤ) (k : Kind)
    (hk : (k = .none ∧ mth = -1) ∨ (k = .extrap ∧ mth = 1) ∨ (k = .wall ∧ mth = 3 ∧ 3 ≤ d.meqn)) (q : Grid ℚ) :
    ∃ q', bottom d mth q = .ok q' ∧ ∀ c, inBox d c = true →
      q' c = sign d.my k .none c.2.1 c.2.2 3 * q (c.1, image d.my k .none c.2.1, c.2.2) := by
  have hS : ∀ i : ℤ, 1 - (d.mbc : ℤ) ≤ i → i ≤ d.my + d.mbc →
      ((fun i => i < 1) i ↔ ∃ b : ℤ, (1 ≤ b ∧ b ≤ d.mbc) ∧ i = 1 - b) := by
    intro i h1 h2
    constructor
    · intro h
      exact ⟨1 - i, by omega, by omega⟩
    · rintro ⟨b, hb, rfl⟩
      omega
  rcases hk with ⟨rfl, rfl⟩ | ⟨rfl, rfl⟩ | ⟨rfl, rfl, hm⟩
  · refine ⟨q, rfl, ?_⟩
    rintro ⟨i, j, m⟩ hc
    have e1 : sign d.my Kind.none Kind.none j m 3 = 1 := by
      unfold sign behindWall; simp
    have e2 : image d.my Kind.none Kind.none j = j := by
      unfold image; dsimp only; split_ifs <;> rfl
    rw [e1, e2, one_mul]
  · obtain ⟨q', e, g1, g2⟩ := ySide_spec d (fun b => 1 - b) (fun _ => 1) (fun _ => 1) ((fun i => i < 1)) hS
      (by intro b h1 h2; omega) (by intro b h1 h2; omega) (by intro b h1 h2; rfl)
      (by intro b b' h1 h2; omega) q
    refine ⟨q', ?_, ?_⟩
    · unfold bottom select
      rw [if_neg (by decide), if_pos rfl, e]; rfl
    · rintro ⟨i, j, m⟩ hc
      have e1 : sign d.my Kind.extrap Kind.none j m 3 = 1 := by
        unfold sign behindWall; simp
      rw [e1, one_mul]
      by_cases h : j < 1
      · rw [g1 _ hc h]
        have e2 : image d.my Kind.extrap Kind.none j = 1 := by
          unfold image; dsimp only; split_ifs <;> first | rfl | omega
        rw [e2]
      · rw [g2 _ hc h]
        have e2 : image d.my Kind.extrap Kind.none j = j := by
          unfold image; dsimp only; split_ifs <;> first | rfl | omega
        rw [e2]
  · obtain ⟨q', e, g1, g2⟩ := yWall_spec d hm (fun b => 1 - b) (fun b => b) (fun i => 1 - i) ((fun i => i < 1)) hS
      (by intro b h1 h2; omega) (by intro b h1 h2; omega)
      (by intro b h1 h2; omega)
      (by intro b b' h1 h2; omega) q
    refine ⟨q', ?_, ?_⟩
    · unfold bottom select
      rw [if_neg (by decide), if_neg (by decide), if_neg (by decide), if_pos rfl, e]; rfl
    · rintro ⟨i, j, m⟩ hc
      by_cases h : j < 1
      · rw [g1 _ hc h]
        have e1 : sign d.my Kind.wall Kind.none j m 3 = if m = 3 then -1 else 1 := by
          have hb : behindWall d.my Kind.wall Kind.none j := by unfold behindWall; simp; omega
          unfold sign; simp [hb]
        have e2 : image d.my Kind.wall Kind.none j = 1 - j := by
          unfold image; dsimp only; split_ifs <;> first | rfl | omega
        dsimp only
        rw [e1, e2]
      · rw [g2 _ hc h]
        have e1 : sign d.my Kind.wall Kind.none j m 3 = 1 := by
          have hb : ¬ behindWall d.my Kind.wall Kind.none j := by unfold behindWall; simp; omega
          unfold sign; simp [hb]
        have e2 : image d.my Kind.wall Kind.none j = j := by
          unfold image; dsimp only; split_ifs <;> first | rfl | omega
        dsimp only
        rw [e1, e2, one_mul]

/-- What a side does, for its kind. -/
theorem top_spec (d : Dims) (hn : 1 ≤ d.my ∧ d.mbc ≤ d.my) (mth : ℤ) (k : Kind)
    (hk : (k = .none ∧ mth = -1) ∨ (k = .extrap ∧ mth = 1) ∨ (k = .wall ∧ mth = 3 ∧ 3 ≤ d.meqn)) (q : Grid ℚ) :
    ∃ q', top d mth q = .ok q' ∧ ∀ c, inBox d c = true →
      q' c = sign d.my .none k c.2.1 c.2.2 3 * q (c.1, image d.my .none k c.2.1, c.2.2) := by
  have hS : ∀ i : ℤ, 1 - (d.mbc : ℤ) ≤ i → i ≤ d.my + d.mbc →
      ((fun i => (d.my : ℤ) < i) i ↔ ∃ b : ℤ, (1 ≤ b ∧ b ≤ d.mbc) ∧ i = (d.my : ℤ) + b) := by
    intro i h1 h2
    constructor
    · intro h
      exact ⟨i - d.my, by omega, by omega⟩
    · rintro ⟨b, hb, rfl⟩
      omega
  rcases hk with ⟨rfl, rfl⟩ | ⟨rfl, rfl⟩ | ⟨rfl, rfl, hm⟩
  · refine ⟨q, rfl, ?_⟩
    rintro ⟨i, j, m⟩ hc
    have e1 : sign d.my Kind.none Kind.none j m 3 = 1 := by
      unfold sign behindWall; simp
    have e2 : image d.my Kind.none Kind.none j = j := by
      unfold image; dsimp only; split_ifs <;> rfl
    rw [e1, e2, one_mul]
  · obtain ⟨q', e, g1, g2⟩ := ySide_spec d (fun b => (d.my : ℤ) + b) (fun _ => (d.my : ℤ)) (fun _ => (d.my : ℤ)) ((fun i => (d.my : ℤ) < i)) hS
      (by intro b h1 h2; omega) (by intro b h1 h2; omega) (by intro b h1 h2; rfl)
      (by intro b b' h1 h2; omega) q
    refine ⟨q', ?_, ?_⟩
    · unfold top select
      rw [if_neg (by decide), if_pos rfl, e]; rfl
    · rintro ⟨i, j, m⟩ hc
      have e1 : sign d.my Kind.none Kind.extrap j m 3 = 1 := by
        unfold sign behindWall; simp
      rw [e1, one_mul]
      by_cases h : (d.my : ℤ) < j
      · rw [g1 _ hc h]
        have e2 : image d.my Kind.none Kind.extrap j = (d.my : ℤ) := by
          unfold image; dsimp only; split_ifs <;> first | rfl | omega
        rw [e2]
      · rw [g2 _ hc h]
        have e2 : image d.my Kind.none Kind.extrap j = j := by
          unfold image; dsimp only; split_ifs <;> first | rfl | omega
        rw [e2]
  · obtain ⟨q', e, g1, g2⟩ := yWall_spec d hm (fun b => (d.my : ℤ) + b) (fun b => (d.my : ℤ) + 1 - b) (fun i => 2 * (d.my : ℤ) + 1 - i) ((fun i => (d.my : ℤ) < i)) hS
      (by intro b h1 h2; omega) (by intro b h1 h2; omega)
      (by intro b h1 h2; omega)
      (by intro b b' h1 h2; omega) q
    refine ⟨q', ?_, ?_⟩
    · unfold top select
      rw [if_neg (by decide), if_neg (by decide), if_neg (by decide), if_pos rfl, e]; rfl
    · rintro ⟨i, j, m⟩ hc
      by_cases h : (d.my : ℤ) < j
      · rw [g1 _ hc h]
        have e1 : sign d.my Kind.none Kind.wall j m 3 = if m = 3 then -1 else 1 := by
          have hb : behindWall d.my Kind.none Kind.wall j := by unfold behindWall; simp; omega
          unfold sign; simp [hb]
        have e2 : image d.my Kind.none Kind.wall j = 2 * (d.my : ℤ) + 1 - j := by
          unfold image; dsimp only; split_ifs <;> first | rfl | omega
        dsimp only
        rw [e1, e2]
      · rw [g2 _ hc h]
        have e1 : sign d.my Kind.none Kind.wall j m 3 = 1 := by
          have hb : ¬ behindWall d.my Kind.none Kind.wall j := by unfold behindWall; simp; omega
          unfold sign; simp [hb]
        have e2 : image d.my Kind.none Kind.wall j = j := by
          unfold image; dsimp only; split_ifs <;> first | rfl | omega
        dsimp only
        rw [e1, e2, one_mul]

end Fclaw.Bc
