import Verif.Bc3.Spec
import Verif.Fort.Loops
import Mathlib.Tactic.Ring
import Mathlib.Tactic.SplitIfs

set_option autoImplicit false
set_option linter.unusedSimpArgs false
set_option linter.unusedVariables false

namespace Fclaw.Bc3

open Fclaw.Fort Fclaw.Extrude
open Bc (Out ofOption)

/-- A loop of assignments `q(dst) = f q(src)` that never reads what it writes. -/
theorem copyLoop {ι : Type} (D : Dims3) (step : ι → Grid3 ℚ → Option (Grid3 ℚ)) (dst src : ι → Cell3)
    (f : ℚ → ℚ) (hstep : ∀ k q, step k q = (rd3 D q (src k)).bind fun v => wr3 D q (dst k) (f v)) (ks : List ι) :
    (∀ k ∈ ks, inBox3 D (dst k) = true ∧ inBox3 D (src k) = true) →
    (∀ k ∈ ks, ∀ k' ∈ ks, src k ≠ dst k') → (∀ k ∈ ks, ∀ k' ∈ ks, dst k = dst k' → src k = src k') → ∀ q : Grid3 ℚ,
    ∃ q', loop ks step q = some q' ∧ (∀ k ∈ ks, q' (dst k) = f (q (src k))) ∧
      ∀ c, (∀ k ∈ ks, c ≠ dst k) → q' c = q c := by
  induction ks with
  | nil =>
    intro _ _ _ q
    exact ⟨q, rfl, fun k hk => by simp at hk, fun _ _ => rfl⟩
  | cons k ks ih =>
    intro hb hs hu q
    obtain ⟨b1, b2⟩ := hb k (by simp)
    have e1 : step k q = some (fun c' => if c' = dst k then f (q (src k)) else q c') := by
      rw [hstep]
      simp only [rd3, b2, if_true, wr3, b1, Option.bind_some]
    obtain ⟨q', e, h1, h2⟩ := ih (fun x hx => hb x (List.mem_cons_of_mem _ hx))
      (fun x hx y hy => hs x (List.mem_cons_of_mem _ hx) y (List.mem_cons_of_mem _ hy))
      (fun x hx y hy => hu x (List.mem_cons_of_mem _ hx) y (List.mem_cons_of_mem _ hy))
      (fun c' => if c' = dst k then f (q (src k)) else q c')
    refine ⟨q', by simp only [loop, e1, Option.bind_some, e], ?_, ?_⟩
    · intro x hx
      by_cases hm : ∃ y ∈ ks, dst y = dst x
      · obtain ⟨y, hy, hyx⟩ := hm
        rw [← hyx, h1 y hy, if_neg (hs y (List.mem_cons_of_mem _ hy) k (by simp)), hu y (List.mem_cons_of_mem _ hy) x hx hyx]
      · rcases List.mem_cons.1 hx with rfl | hx
        · rw [h2 _ (fun y hy h => hm ⟨y, hy, h.symm⟩), if_pos rfl]
        · exact absurd ⟨x, hx, rfl⟩ hm
    · intro c hc
      rw [h2 c (fun y hy => hc y (List.mem_cons_of_mem _ hy)), if_neg (hc k (by simp))]

theorem inBox3_iff (D : Dims3) (i j k m : ℤ) : inBox3 D (i, j, k, m) = true ↔
    (1 - (D.mbc : ℤ) ≤ i ∧ i ≤ D.mx + D.mbc) ∧ (1 - (D.mbc : ℤ) ≤ j ∧ j ≤ D.my + D.mbc) ∧
      (1 - (D.mbc : ℤ) ≤ k ∧ k ≤ D.mz + D.mbc) ∧ 1 ≤ m ∧ m ≤ D.meqn := by
  unfold inBox3
  simp only [Bool.and_eq_true, decide_eq_true_eq]
  omega

theorem cell_box (D : Dims3) (ax : Axis) (a u v m : ℤ) : inBox3 D (ax.cell a u v m) = true ↔
    (1 - (D.mbc : ℤ) ≤ a ∧ a ≤ ax.size D + D.mbc) ∧ (1 - (D.mbc : ℤ) ≤ u ∧ u ≤ ax.usize D + D.mbc) ∧
      (1 - (D.mbc : ℤ) ≤ v ∧ v ≤ ax.vsize D + D.mbc) ∧ 1 ≤ m ∧ m ≤ D.meqn := by
  cases ax <;> simp only [Axis.cell, Axis.size, Axis.usize, Axis.vsize, inBox3_iff] <;> omega

theorem cell_inj (ax : Axis) (a u v m a' u' v' m' : ℤ) :
    ax.cell a u v m = ax.cell a' u' v' m' ↔ a = a' ∧ u = u' ∧ v = v' ∧ m = m' := by
  cases ax <;> simp only [Axis.cell, Prod.mk.injEq] <;> tauto

theorem cell_surj (ax : Axis) (c : Cell3) : ∃ a u v m, c = ax.cell a u v m := by
  obtain ⟨i, j, k, m⟩ := c
  cases ax
  · exact ⟨i, j, k, m, rfl⟩
  · exact ⟨j, i, k, m, rfl⟩
  · exact ⟨k, i, j, m, rfl⟩

/-- The four nested loops. -/
theorem fourLoops (D : Dims3) (ax : Axis) (dst src : ℤ → ℤ) (f : ℚ → ℚ) (l1 h1 : ℤ)
    (step : ℤ → ℤ → ℤ → ℤ → Grid3 ℚ → Option (Grid3 ℚ))
    (hstep : ∀ m b u v q, step m b u v q = (rd3 D q (ax.cell (src b) u v m)).bind fun w => wr3 D q (ax.cell (dst b) u v m) (f w))
    (hm : 1 ≤ l1 ∧ h1 ≤ D.meqn)
    (hd : ∀ b : ℤ, 1 ≤ b → b ≤ D.mbc → 1 - (D.mbc : ℤ) ≤ dst b ∧ dst b ≤ ax.size D + D.mbc)
    (hinj : ∀ b b' : ℤ, dst b = dst b' → src b = src b')
    (hs : ∀ b : ℤ, 1 ≤ b → b ≤ D.mbc → 1 ≤ src b ∧ src b ≤ ax.size D)
    (hne : ∀ b : ℤ, 1 ≤ b → b ≤ D.mbc → dst b < 1 ∨ (ax.size D : ℤ) < dst b) (q : Grid3 ℚ) :
    ∃ q', doLoop l1 h1 (fun m => doLoop 1 D.mbc fun b => doLoop (1 - D.mbc) (ax.usize D + D.mbc) fun u =>
        doLoop (1 - D.mbc) (ax.vsize D + D.mbc) fun v => step m b u v) q = some q' ∧
      (∀ b u v m, (1 ≤ b ∧ b ≤ (D.mbc : ℤ)) → inBox3 D (ax.cell (dst b) u v m) = true → (l1 ≤ m ∧ m ≤ h1) →
        q' (ax.cell (dst b) u v m) = f (q (ax.cell (src b) u v m))) ∧
      ∀ a u v m, ¬((∃ b, (1 ≤ b ∧ b ≤ (D.mbc : ℤ)) ∧ a = dst b) ∧ l1 ≤ m ∧ m ≤ h1) →
        q' (ax.cell a u v m) = q (ax.cell a u v m) := by
  set R1 := (range l1 h1).flatMap fun a => (range 1 D.mbc).map fun b => (a, b)
  set R2 := R1.flatMap fun x => (range (1 - D.mbc) (ax.usize D + D.mbc)).map fun c => (x, c)
  set R3 := R2.flatMap fun x => (range (1 - D.mbc) (ax.vsize D + D.mbc)).map fun c => (x, c)
  have hmem : ∀ k : ((ℤ × ℤ) × ℤ) × ℤ, k ∈ R3 ↔ (((l1 ≤ k.1.1.1 ∧ k.1.1.1 ≤ h1) ∧ (1 ≤ k.1.1.2 ∧ k.1.1.2 ≤ (D.mbc : ℤ))) ∧
      (1 - (D.mbc : ℤ) ≤ k.1.2 ∧ k.1.2 ≤ ax.usize D + D.mbc)) ∧ (1 - (D.mbc : ℤ) ≤ k.2 ∧ k.2 ≤ ax.vsize D + D.mbc) := by
    intro k
    rw [mem_flat, mem_flat, mem_flat, mem_range, mem_range, mem_range, mem_range]
  obtain ⟨q', e, g1, g2⟩ := copyLoop D (fun k : ((ℤ × ℤ) × ℤ) × ℤ => step k.1.1.1 k.1.1.2 k.1.2 k.2)
    (fun k => ax.cell (dst k.1.1.2) k.1.2 k.2 k.1.1.1) (fun k => ax.cell (src k.1.1.2) k.1.2 k.2 k.1.1.1) f
    (fun k q => hstep _ _ _ _ q) R3
    (fun k hk => by
      have hk := (hmem k).1 hk
      have := hd k.1.1.2 hk.1.1.2.1 hk.1.1.2.2
      have := hs k.1.1.2 hk.1.1.2.1 hk.1.1.2.2
      exact ⟨(cell_box D ax _ _ _ _).2 (by omega), (cell_box D ax _ _ _ _).2 (by omega)⟩)
    (fun k hk k' hk' h => by
      have hk := (hmem k).1 hk
      have hk' := (hmem k').1 hk'
      have := hs k.1.1.2 hk.1.1.2.1 hk.1.1.2.2
      have := hne k'.1.1.2 hk'.1.1.2.1 hk'.1.1.2.2
      have := ((cell_inj ax _ _ _ _ _ _ _ _).1 h).1
      omega)
    (fun k hk k' hk' h => by
      obtain ⟨h1, h2, h3, h4⟩ := (cell_inj ax _ _ _ _ _ _ _ _).1 h
      rw [hinj _ _ h1, h2, h3, h4]) q
  refine ⟨q', ?_, ?_, ?_⟩
  · rw [← e]
    unfold doLoop
    rw [← loop_flat R2 (range (1 - D.mbc) (ax.vsize D + D.mbc)) (fun x c => step x.1.1 x.1.2 x.2 c),
      ← loop_flat R1 (range (1 - D.mbc) (ax.usize D + D.mbc))
        (fun x c => loop (range (1 - D.mbc) (ax.vsize D + D.mbc)) fun v => step x.1 x.2 c v),
      ← loop_flat (range l1 h1) (range 1 D.mbc) (fun a b => loop (range (1 - D.mbc) (ax.usize D + D.mbc)) fun u =>
        loop (range (1 - D.mbc) (ax.vsize D + D.mbc)) fun v => step a b u v)]
  · intro b u v m hb hbox hm'
    have := (cell_box D ax _ _ _ _).1 hbox
    exact g1 (((m, b), u), v) ((hmem _).2 ⟨⟨⟨hm', hb⟩, this.2.1⟩, this.2.2.1⟩)
  · intro a u v m hn
    refine g2 _ fun k hk h => hn ?_
    have hk := (hmem k).1 hk
    obtain ⟨h1, h2, h3, h4⟩ := (cell_inj ax _ _ _ _ _ _ _ _).1 h
    exact ⟨⟨k.1.1.2, hk.1.1.2, h1⟩, by omega⟩

theorem bind_some_id {σ : Type} (x : Option σ) : (x.bind fun s => some s) = x := by cases x <;> rfl

section
variable (D : Dims3) (ax : Axis) (dst src : ℤ → ℤ)
  (hd : ∀ b : ℤ, 1 ≤ b → b ≤ D.mbc → 1 - (D.mbc : ℤ) ≤ dst b ∧ dst b ≤ ax.size D + D.mbc)
  (hinj : ∀ b b' : ℤ, dst b = dst b' → src b = src b')
  (hs : ∀ b : ℤ, 1 ≤ b → b ≤ D.mbc → 1 ≤ src b ∧ src b ≤ ax.size D)
  (hne : ∀ b : ℤ, 1 ≤ b → b ≤ D.mbc → dst b < 1 ∨ (ax.size D : ℤ) < dst b)
include hd hinj hs hne

theorem copySide_spec (q : Grid3 ℚ) : ∃ q', copySide D ax dst src q = some q' ∧
      (∀ b u v m, (1 ≤ b ∧ b ≤ (D.mbc : ℤ)) → inBox3 D (ax.cell (dst b) u v m) = true →
        q' (ax.cell (dst b) u v m) = q (ax.cell (src b) u v m)) ∧
      ∀ a u v m, ¬(∃ b, (1 ≤ b ∧ b ≤ (D.mbc : ℤ)) ∧ a = dst b) → q' (ax.cell a u v m) = q (ax.cell a u v m) := by
  obtain ⟨q', e, h1, h2⟩ := fourLoops D ax dst src (fun v => v) 1 D.meqn
    (fun m b u v => copy D (ax.cell (dst b) u v m) (ax.cell (src b) u v m)) (fun _ _ _ _ _ => rfl) ⟨le_refl _, le_refl _⟩ hd hinj hs hne q
  exact ⟨q', e, fun b u v m hb hbox => h1 b u v m hb hbox ((cell_box D ax _ _ _ _).1 hbox).2.2.2,
    fun a u v m hn => h2 a u v m fun h => hn h.1⟩

theorem negateSide_spec (hN : 1 ≤ ax.normal ∧ ax.normal ≤ (D.meqn : ℤ)) (q : Grid3 ℚ) : ∃ q', negateSide D ax dst src q = some q' ∧
      (∀ b u v, (1 ≤ b ∧ b ≤ (D.mbc : ℤ)) → inBox3 D (ax.cell (dst b) u v ax.normal) = true →
        q' (ax.cell (dst b) u v ax.normal) = -q (ax.cell (src b) u v ax.normal)) ∧
      ∀ a u v m, ¬((∃ b, (1 ≤ b ∧ b ≤ (D.mbc : ℤ)) ∧ a = dst b) ∧ m = ax.normal) →
        q' (ax.cell a u v m) = q (ax.cell a u v m) := by
  obtain ⟨q', e, h1, h2⟩ := fourLoops D ax dst src (fun v => -v) ax.normal ax.normal
    (fun m b u v => negate D (ax.cell (dst b) u v m) (ax.cell (src b) u v m)) (fun _ _ _ _ _ => rfl) hN hd hinj hs hne q
  refine ⟨q', ?_, fun b u v hb hbox => h1 b u v _ hb hbox ⟨le_refl _, le_refl _⟩,
    fun a u v m hn => h2 a u v m fun h => hn ⟨h.1, le_antisymm h.2.2 h.2.1⟩⟩
  rw [← e]
  have : range ax.normal ax.normal = [ax.normal] := by cases ax <;> decide
  conv_rhs => unfold doLoop
  rw [this]
  simp only [loop, Option.bind_some]
  rw [bind_some_id]
  rfl

/-- The wall: mirror images, then the sign of one component. -/
theorem wall_spec (hN : 1 ≤ ax.normal ∧ ax.normal ≤ (D.meqn : ℤ)) (q : Grid3 ℚ) :
    ∃ q', (copySide D ax dst src q).bind (negateSide D ax dst src) = some q' ∧
      (∀ b u v m, (1 ≤ b ∧ b ≤ (D.mbc : ℤ)) → inBox3 D (ax.cell (dst b) u v m) = true →
        q' (ax.cell (dst b) u v m) = (if m = ax.normal then -1 else 1) * q (ax.cell (src b) u v m)) ∧
      ∀ a u v m, ¬(∃ b, (1 ≤ b ∧ b ≤ (D.mbc : ℤ)) ∧ a = dst b) → q' (ax.cell a u v m) = q (ax.cell a u v m) := by
  obtain ⟨q1, e1, a1, b1⟩ := copySide_spec D ax dst src hd hinj hs hne q
  obtain ⟨q2, e2, a2, b2⟩ := negateSide_spec D ax dst src hd hinj hs hne hN q1
  refine ⟨q2, by rw [e1, Option.bind_some, e2], ?_, ?_⟩
  · intro b u v m hb hbox
    by_cases hm : m = ax.normal
    · subst hm
      rw [a2 b u v hb hbox, if_pos rfl, neg_one_mul, b1]
      rintro ⟨b', hb', h⟩
      have := hs b hb.1 hb.2
      have := hne b' hb'.1 hb'.2
      omega
    · rw [b2 _ _ _ _ fun h => hm h.2, if_neg hm, one_mul, a1 b u v m hb hbox]
  · intro a u v m hn
    rw [b2 _ _ _ _ fun h => hn h.1, b1 _ _ _ _ hn]

end

/-- When a side with this code is of this kind. -/
def Fits (D : Dims3) (ax : Axis) (mth : ℤ) (k : Kind) : Prop :=
  (k = .none ∧ mth = -1) ∨ (k = .extrap ∧ mth = 1) ∨ (k = .periodic ∧ mth = 2 ∧ ax = .z) ∨
    (k = .wall ∧ mth = 3 ∧ ax.normal ≤ (D.meqn : ℤ))

theorem normal_pos (ax : Axis) : 1 ≤ ax.normal := by cases ax <;> decide

/-- What the lower side does, for its kind. -/
theorem lower_spec (D : Dims3) (ax : Axis) (hn : 1 ≤ ax.size D ∧ D.mbc ≤ ax.size D) (mth : ℤ) (k : Kind) (hk : Fits D ax mth k) (q : Grid3 ℚ) :
    ∃ q', lower D ax mth q = .ok q' ∧ ∀ a u v m, inBox3 D (ax.cell a u v m) = true →
      q' (ax.cell a u v m) = sign (ax.size D) k .none a m ax.normal * q (ax.cell (image (ax.size D) k .none a) u v m) := by
  have up : ∀ a : ℤ, ¬ a < 1 → image (ax.size D) k .none a = a ∧ ∀ m, sign (ax.size D) k .none a m ax.normal = 1 := by
    intro a ha
    refine ⟨by unfold image; simp [ha], fun m => ?_⟩
    unfold sign behindWall
    rw [if_neg]
    rintro ⟨h | h, -⟩
    · exact ha h.1
    · exact absurd h.2 (by decide)
  have ghost : ∀ a u v m : ℤ, inBox3 D (ax.cell a u v m) = true → a < 1 → ∃ b, (1 ≤ b ∧ b ≤ (D.mbc : ℤ)) ∧ a = 1 - b := by
    intro a u v m hbox ha
    have := (cell_box D ax _ _ _ _).1 hbox
    exact ⟨1 - a, by omega, by omega⟩
  have noghost : ∀ a : ℤ, ¬ a < 1 → ¬∃ b, (1 ≤ b ∧ b ≤ (D.mbc : ℤ)) ∧ a = 1 - b := by
    rintro a ha ⟨b, hb, h⟩
    omega
  unfold lower side
  rcases hk with ⟨rfl, rfl⟩ | ⟨rfl, rfl⟩ | ⟨rfl, rfl, rfl⟩ | ⟨rfl, rfl, hN⟩
  · refine ⟨q, by simp, fun a u v m hbox => ?_⟩
    unfold sign behindWall image
    simp
  · obtain ⟨q', e, h1, h2⟩ := copySide_spec D ax (fun b => 1 - b) (fun _ => 1) (fun b _ _ => by omega) (fun _ _ _ => rfl)
      (fun _ _ _ => by omega) (fun b _ _ => by omega) q
    refine ⟨q', by rw [if_neg (by decide), if_pos rfl, e]; rfl, fun a u v m hbox => ?_⟩
    by_cases ha : a < 1
    · obtain ⟨b, hb, rfl⟩ := ghost a u v m hbox ha
      rw [h1 b u v m hb hbox]
      unfold sign behindWall image
      simp [ha]
    · rw [h2 _ _ _ _ (noghost a ha), (up a ha).1, (up a ha).2, one_mul]
  · obtain ⟨q', e, h1, h2⟩ := copySide_spec D .z (fun b => 1 - b) (fun b => D.mz + 1 - b) (fun b _ _ => by omega) (fun _ _ h => by omega)
      (fun b _ _ => by show 1 ≤ (D.mz : ℤ) + 1 - b ∧ _ ≤ (D.mz : ℤ); have := hn.2; simp only [Axis.size] at this; omega) (fun b _ _ => by omega) q
    refine ⟨q', by simp only [Axis.size]; rw [if_neg (by decide), if_neg (by decide), if_pos trivial, e]; rfl, fun a u v m hbox => ?_⟩
    by_cases ha : a < 1
    · obtain ⟨b, hb, rfl⟩ := ghost a u v m hbox ha
      rw [h1 b u v m hb hbox]
      unfold sign behindWall image
      rw [if_pos ha, if_neg (by simp), one_mul]
      show q _ = q (Axis.z.cell (1 - b + D.mz) u v m)
      congr 2
      ring
    · rw [h2 _ _ _ _ (noghost a ha), (up a ha).1, (up a ha).2, one_mul]
  · obtain ⟨q', e, h1, h2⟩ := wall_spec D ax (fun b => 1 - b) (fun b => b) (fun b _ _ => by omega) (fun _ _ h => by omega)
      (fun b _ _ => by omega) (fun b _ _ => by omega) ⟨normal_pos ax, hN⟩ q
    refine ⟨q', by rw [if_neg (by decide), if_neg (by decide), if_neg (by decide), if_pos rfl, e]; rfl, fun a u v m hbox => ?_⟩
    by_cases ha : a < 1
    · obtain ⟨b, hb, rfl⟩ := ghost a u v m hbox ha
      rw [h1 b u v m hb hbox]
      unfold sign behindWall image
      rw [if_pos ha]
      simp only [ha, true_and, true_or, and_true]
      show _ = _ * q (ax.cell (1 - (1 - b)) u v m)
      rw [sub_sub_cancel]
    · rw [h2 _ _ _ _ (noghost a ha), (up a ha).1, (up a ha).2, one_mul]

/-- What the upper side does, for its kind. -/
theorem upper_spec (D : Dims3) (ax : Axis) (hn : 1 ≤ ax.size D ∧ D.mbc ≤ ax.size D) (mth : ℤ) (k : Kind) (hk : Fits D ax mth k) (q : Grid3 ℚ) :
    ∃ q', upper D ax mth q = .ok q' ∧ ∀ a u v m, inBox3 D (ax.cell a u v m) = true →
      q' (ax.cell a u v m) = sign (ax.size D) .none k a m ax.normal * q (ax.cell (image (ax.size D) .none k a) u v m) := by
  have up : ∀ a : ℤ, ¬ (ax.size D : ℤ) < a → image (ax.size D) .none k a = a ∧ ∀ m, sign (ax.size D) .none k a m ax.normal = 1 := by
    intro a ha
    refine ⟨by unfold image; simp [ha], fun m => ?_⟩
    unfold sign behindWall
    rw [if_neg]
    rintro ⟨h | h, -⟩
    · exact absurd h.2 (by decide)
    · exact ha h.1
  have ghost : ∀ a u v m : ℤ, inBox3 D (ax.cell a u v m) = true → (ax.size D : ℤ) < a →
      ∃ b, (1 ≤ b ∧ b ≤ (D.mbc : ℤ)) ∧ a = ax.size D + b := by
    intro a u v m hbox ha
    have := (cell_box D ax _ _ _ _).1 hbox
    exact ⟨a - ax.size D, by omega, by omega⟩
  have noghost : ∀ a : ℤ, ¬ (ax.size D : ℤ) < a → ¬∃ b, (1 ≤ b ∧ b ≤ (D.mbc : ℤ)) ∧ a = ax.size D + b := by
    rintro a ha ⟨b, hb, h⟩
    omega
  have low : ∀ a : ℤ, (ax.size D : ℤ) < a → ¬ a < 1 := by intro a ha; omega
  unfold upper side
  rcases hk with ⟨rfl, rfl⟩ | ⟨rfl, rfl⟩ | ⟨rfl, rfl, rfl⟩ | ⟨rfl, rfl, hN⟩
  · refine ⟨q, by simp, fun a u v m hbox => ?_⟩
    unfold sign behindWall image
    simp
  · obtain ⟨q', e, h1, h2⟩ := copySide_spec D ax (fun b => ax.size D + b) (fun _ => ax.size D) (fun b _ _ => by omega) (fun _ _ _ => rfl)
      (fun _ _ _ => by omega) (fun b _ _ => by omega) q
    refine ⟨q', by rw [if_neg (by decide), if_pos rfl, e]; rfl, fun a u v m hbox => ?_⟩
    by_cases ha : (ax.size D : ℤ) < a
    · have hl := low a ha
      obtain ⟨b, hb, rfl⟩ := ghost a u v m hbox ha
      rw [h1 b u v m hb hbox]
      unfold sign behindWall image
      rw [if_neg hl, if_pos ha, if_neg (by simp), one_mul]
    · rw [h2 _ _ _ _ (noghost a ha), (up a ha).1, (up a ha).2, one_mul]
  · obtain ⟨q', e, h1, h2⟩ := copySide_spec D .z (fun b => D.mz + b) (fun b => b) (fun b _ _ => by simp only [Axis.size]; omega)
      (fun _ _ h => by omega)
      (fun b _ _ => by show 1 ≤ b ∧ b ≤ (D.mz : ℤ); have := hn.2; simp only [Axis.size] at this; omega)
      (fun b _ _ => by simp only [Axis.size]; omega) q
    refine ⟨q', by simp only [Axis.size]; rw [if_neg (by decide), if_neg (by decide), if_pos trivial, e]; rfl, fun a u v m hbox => ?_⟩
    by_cases ha : (Axis.z.size D : ℤ) < a
    · have hl := low a ha
      obtain ⟨b, hb, rfl⟩ := ghost a u v m hbox ha
      have := h1 b u v m hb hbox
      simp only [Axis.size] at this ha hl ⊢
      rw [this]
      unfold sign behindWall image
      rw [if_neg hl, if_pos ha, if_neg (by simp), one_mul]
      show q _ = q (Axis.z.cell ((D.mz : ℤ) + b - D.mz) u v m)
      rw [add_sub_cancel_left]
    · rw [h2 _ _ _ _ (noghost a ha), (up a ha).1, (up a ha).2, one_mul]
  · obtain ⟨q', e, h1, h2⟩ := wall_spec D ax (fun b => ax.size D + b) (fun b => ax.size D + 1 - b) (fun b _ _ => by omega) (fun _ _ h => by omega)
      (fun b _ _ => by omega) (fun b _ _ => by omega) ⟨normal_pos ax, hN⟩ q
    refine ⟨q', by rw [if_neg (by decide), if_neg (by decide), if_neg (by decide), if_pos rfl, e]; rfl, fun a u v m hbox => ?_⟩
    by_cases ha : (ax.size D : ℤ) < a
    · have hl := low a ha
      obtain ⟨b, hb, rfl⟩ := ghost a u v m hbox ha
      rw [h1 b u v m hb hbox]
      unfold sign behindWall image
      rw [if_neg hl, if_pos ha]
      simp only [ha, hl, true_and, false_and, false_or, true_or, and_true]
      show _ = _ * q (ax.cell (2 * (ax.size D : ℤ) + 1 - (ax.size D + b)) u v m)
      congr 3
      ring
    · rw [h2 _ _ _ _ (noghost a ha), (up a ha).1, (up a ha).2, one_mul]

/-- Both sides of an axis. -/
theorem image_comp (n mbc : Nat) (hn : 1 ≤ n ∧ mbc ≤ n) (lo hi : Kind) (i : ℤ)
    (h : i ≤ n + mbc) :
    image n lo .none (image n .none hi i) = image n lo hi i := by
  unfold image
  by_cases h1 : i < 1
  · simp [h1]
  · by_cases h2 : (n : ℤ) < i
    · cases hi with
      | none => simp [h1, h2]
      | extrap =>
        simp only [h1, h2, if_true, if_false]
        rw [if_neg (by omega), if_neg (by omega)]
      | periodic =>
        simp only [h1, h2, if_true, if_false]
        rw [if_neg (by omega), if_neg (by omega)]
      | wall =>
        simp only [h1, h2, if_true, if_false]
        rw [if_neg (by omega), if_neg (by omega)]
    · simp [h1, h2]

theorem sign_comp (n mbc : Nat) (hn : 1 ≤ n ∧ mbc ≤ n) (lo hi : Kind) (i m k : ℤ)
    (h : i ≤ n + mbc) :
    sign n .none hi i m k * sign n lo .none (image n .none hi i) m k = sign n lo hi i m k := by
  have in1 : ∀ x : ℤ, 1 ≤ x → sign n lo .none x m k = 1 := by
    intro x hx
    unfold sign behindWall
    rw [if_neg]
    rintro ⟨h | h, -⟩
    · omega
    · exact absurd h.2 (by decide)
  by_cases h2 : (n : ℤ) < i
  · have h1 : ¬ i < 1 := by omega
    rw [in1 _ (by unfold image; rw [if_neg h1, if_pos h2]; cases hi <;> dsimp only <;> omega), mul_one]
    unfold sign behindWall
    simp only [h1, false_and, false_or]
  · have e : image n .none hi i = i := by unfold image; simp [h2]
    rw [e]
    unfold sign behindWall
    simp only [h2, false_and, or_false, reduceCtorEq, and_false, if_false, one_mul]

theorem image_inBox (n mbc : Nat) (hn : 1 ≤ n ∧ mbc ≤ n) (lo hi : Kind) (i : ℤ)
    (h1 : 1 - (mbc : ℤ) ≤ i) (h2 : i ≤ n + mbc) :
    1 - (mbc : ℤ) ≤ image n lo hi i ∧ image n lo hi i ≤ n + mbc := by
  unfold image
  cases lo <;> cases hi <;> dsimp only <;> split_ifs <;> omega

theorem axis_spec (D : Dims3) (ax : Axis) (hn : 1 ≤ ax.size D ∧ D.mbc ≤ ax.size D) (m1 m2 : ℤ) (lo hi : Kind) (hl : Fits D ax m1 lo)
    (hh : Fits D ax m2 hi) (q : Grid3 ℚ) : ∃ q1 q', lower D ax m1 q = .ok q1 ∧ upper D ax m2 q1 = .ok q' ∧
      ∀ a u v m, inBox3 D (ax.cell a u v m) = true →
        q' (ax.cell a u v m) = sign (ax.size D) lo hi a m ax.normal * q (ax.cell (image (ax.size D) lo hi a) u v m) := by
  obtain ⟨q1, e1, h1⟩ := lower_spec D ax hn m1 lo hl q
  obtain ⟨q2, e2, h2⟩ := upper_spec D ax hn m2 hi hh q1
  refine ⟨q1, q2, e1, e2, fun a u v m hbox => ?_⟩
  have hb := (cell_box D ax _ _ _ _).1 hbox
  have hi' := image_inBox (ax.size D) D.mbc hn .none hi a hb.1.1 hb.1.2
  rw [h2 a u v m hbox, h1 _ u v m ((cell_box D ax _ _ _ _).2 ⟨hi', hb.2⟩), image_comp _ D.mbc hn _ _ _ hb.1.2,
    ← mul_assoc, sign_comp _ D.mbc hn _ _ _ _ _ hb.1.2]

end Fclaw.Bc3
