import Verif.Mapping.Cubed
/-
Five blocks: a centre block and four blocks around it, each of which is a copy of one sector.
-/
set_option autoImplicit false
set_option linter.unusedVariables false
namespace Fclaw.Mapping

noncomputable section

open Real

/-- Five blocks with centre block of size `c` and sector `h`. -/
def five (c : ℝ) (h : ℝ → ℝ → ℝ × ℝ) (b : ℤ) (xc yc : ℝ) : Option P3 :=
  if b = 2 then some ⟨(2 * xc - 1) * c, (2 * yc - 1) * c, 0⟩
  else if b = 0 then some ⟨(h xc (1 - yc)).1, -(h xc (1 - yc)).2, 0⟩
  else if b = 1 then some ⟨-(h yc (1 - xc)).2, (h yc (1 - xc)).1, 0⟩
  else if b = 3 then some ⟨(h yc xc).2, (h yc xc).1, 0⟩
  else if b = 4 then some ⟨(h xc yc).1, (h xc yc).2, 0⟩
  else none

theorem fivepatch_five (b : ℤ) (s t α : ℝ) : fivepatch b s t α = five α (bilinearHelp α) b s t := rfl

theorem squareddisk_five (b : ℤ) (s t α : ℝ) :
    squareddisk b s t α = five (α / Real.sqrt 2) (squareddiskHelp α) b s t := by
  unfold squareddisk five
  rw [mul_div_assoc, mul_div_assoc]

/-- What is needed of a sector: the second coordinate is `Y`, the first one `a * Y`. -/
structure Sector (c : ℝ) (h : ℝ → ℝ → ℝ × ℝ) (a Y : ℝ → ℝ → ℝ) : Prop where
  cpos : 0 < c
  eq : ∀ ξ η, h ξ η = (a ξ η * Y ξ η, Y ξ η)
  low : ∀ ξ η, I01 ξ → I01 η → c ≤ Y ξ η
  inner : ∀ ξ η, I01 ξ → I01 η → (Y ξ η = c ↔ η = 0)
  ainner : ∀ ξ, a ξ 0 = 2 * ξ - 1
  aabs : ∀ ξ η, I01 ξ → I01 η → |a ξ η| ≤ 1
  aone : ∀ ξ η, I01 ξ → I01 η → (a ξ η = 1 ↔ ξ = 1)
  anegone : ∀ ξ η, I01 ξ → I01 η → (a ξ η = -1 ↔ ξ = 0)
  sym : ∀ η, Y 1 η = Y 0 η
  edge : ∀ η η', I01 η → I01 η' → Y 0 η = Y 0 η' → η = η'

theorem I01.flip {t : ℝ} (h : I01 t) : I01 (1 - t) := ⟨by have := h.2; linarith, by have := h.1; linarith⟩
theorem i01_zero : I01 0 := ⟨le_refl _, by norm_num⟩
theorem i01_one : I01 1 := ⟨by norm_num, le_refl _⟩

section
variable {c : ℝ} {h : ℝ → ℝ → ℝ × ℝ} {a Y : ℝ → ℝ → ℝ} (S : Sector c h a Y)
include S

theorem Sector.pos {ξ η : ℝ} (h1 : I01 ξ) (h2 : I01 η) : 0 < Y ξ η := lt_of_lt_of_le S.cpos (S.low _ _ h1 h2)

theorem Sector.five2 (s t : ℝ) : five c h 2 s t = some ⟨(2 * s - 1) * c, (2 * t - 1) * c, 0⟩ := by
  unfold five; rw [if_pos rfl]
theorem Sector.five0 (s t : ℝ) : five c h 0 s t = some ⟨a s (1 - t) * Y s (1 - t), -Y s (1 - t), 0⟩ := by
  unfold five; rw [if_neg (by norm_num), if_pos rfl, S.eq]
theorem Sector.five1 (s t : ℝ) : five c h 1 s t = some ⟨-Y t (1 - s), a t (1 - s) * Y t (1 - s), 0⟩ := by
  unfold five; rw [if_neg (by norm_num), if_neg (by norm_num), if_pos rfl, S.eq]
theorem Sector.five3 (s t : ℝ) : five c h 3 s t = some ⟨Y t s, a t s * Y t s, 0⟩ := by
  unfold five; rw [if_neg (by norm_num), if_neg (by norm_num), if_neg (by norm_num), if_pos rfl, S.eq]
theorem Sector.five4 (s t : ℝ) : five c h 4 s t = some ⟨a s t * Y s t, Y s t, 0⟩ := by
  unfold five
  rw [if_neg (by norm_num), if_neg (by norm_num), if_neg (by norm_num), if_neg (by norm_num), if_pos rfl, S.eq]

end

/-- Two sectors meet in the diagonal. -/
theorem diag {p q u v : ℝ} (hu : 0 < u) (hv : 0 < v) (hp : |p| ≤ 1) (hq : |q| ≤ 1) (h1 : p * u = v)
    (h2 : u = q * v) : p = 1 ∧ q = 1 ∧ u = v := by
  rw [abs_le] at hp hq
  have e : u = v := by
    apply le_antisymm
    · rw [h2]; nlinarith
    · rw [← h1]; nlinarith
  subst e
  refine ⟨?_, ?_, rfl⟩
  · exact mul_right_cancel₀ hu.ne' (by rw [h1, one_mul])
  · exact mul_right_cancel₀ hu.ne' (by rw [← h2, one_mul])

/-- A sector and the centre meet in the inner edge. -/
theorem centre {p u c x y : ℝ} (hc : 0 < c) (hu : c ≤ u) (hy : y ≤ 1) (h1 : p * u = x * c) (h2 : u = y * c) :
    u = c ∧ y = 1 ∧ p = x := by
  have e : u = c := by
    apply le_antisymm _ hu
    rw [h2]; nlinarith
  subst e
  refine ⟨rfl, ?_, ?_⟩
  · exact mul_right_cancel₀ hc.ne' (by rw [← h2, one_mul])
  · exact mul_right_cancel₀ hc.ne' h1

theorem some_p3 {x y x' y' : ℝ} : (some (⟨x, y, 0⟩ : P3) = some ⟨x', y', 0⟩) ↔ x = x' ∧ y = y' := by
  constructor
  · intro h
    have := Option.some.inj h
    exact ⟨congrArg P3.x this, congrArg P3.y this⟩
  · rintro ⟨rfl, rfl⟩; rfl

section
variable {c : ℝ} {h : ℝ → ℝ → ℝ × ℝ} {a Y : ℝ → ℝ → ℝ} (S : Sector c h a Y)
include S

/-- Places that are glued together are mapped to the same point. -/
theorem Sector.glue {p q : Place} (g : Glue5 p q) (hp : InBlocks 5 p) (hq : InBlocks 5 q) :
    five c h p.1 p.2.1 p.2.2 = five c h q.1 q.2.1 q.2.2 := by
  have ai := S.ainner
  have hi {ξ : ℝ} (h1 : I01 ξ) : Y ξ 0 = c := (S.inner ξ 0 h1 i01_zero).mpr rfl
  have a1 {η : ℝ} (h1 : I01 η) : a 1 η = 1 := (S.aone 1 η i01_one h1).mpr rfl
  have a0 {η : ℝ} (h1 : I01 η) : a 0 η = -1 := (S.anegone 0 η i01_zero h1).mpr rfl
  obtain ⟨_, _, p1, p2⟩ := hp
  obtain ⟨_, _, q1, q2⟩ := hq
  cases g with
  | below s =>
    dsimp only at *
    rw [S.five0, S.five2, some_p3, sub_self, ai, hi p1]; constructor <;> ring
  | left t =>
    dsimp only at *
    rw [S.five1, S.five2, some_p3, sub_self, ai, hi p2]; constructor <;> ring
  | right t =>
    dsimp only at *
    rw [S.five3, S.five2, some_p3, ai, hi p2]; constructor <;> ring
  | above s =>
    dsimp only at *
    rw [S.five4, S.five2, some_p3, ai, hi p1]; constructor <;> ring
  | belowLeft t =>
    dsimp only at *
    rw [S.five0, S.five1, some_p3, a0 p2.flip]; constructor <;> ring
  | belowRight t =>
    dsimp only at *
    rw [S.five0, S.five3, some_p3, a0 p2.flip, a1 p2.flip, S.sym]; constructor <;> ring
  | aboveLeft t =>
    dsimp only at *
    rw [S.five4, S.five1, some_p3, show 1 - (1 - t) = t by ring, a0 p2, a1 p2, S.sym]; constructor <;> ring
  | aboveRight t =>
    dsimp only at *
    rw [S.five4, S.five3, some_p3, a1 p2]; constructor <;> ring

/-- Different blocks meet only where they are glued together; the block with the smaller rank is `b`. -/
theorem Sector.meet {b b' : ℤ} {s t s' t' : ℝ} (h1 : I01 s) (h2 : I01 t) (h1' : I01 s') (h2' : I01 t')
    (hb : (b, b') = (0, 2) ∨ (b, b') = (1, 2) ∨ (b, b') = (3, 2) ∨ (b, b') = (4, 2) ∨ (b, b') = (0, 1) ∨
      (b, b') = (0, 3) ∨ (b, b') = (4, 1) ∨ (b, b') = (4, 3) ∨ (b, b') = (0, 4) ∨ (b, b') = (1, 3))
    (e : five c h b s t = five c h b' s' t') : Glue5 (b, s, t) (b', s', t') := by
  have f1 := h1.flip
  have f2 := h2.flip
  have f1' := h1'.flip
  have f2' := h2'.flip
  have cp := S.cpos
  simp only [Prod.mk.injEq] at hb
  rcases hb with ⟨rfl, rfl⟩ | ⟨rfl, rfl⟩ | ⟨rfl, rfl⟩ | ⟨rfl, rfl⟩ | ⟨rfl, rfl⟩ | ⟨rfl, rfl⟩ | ⟨rfl, rfl⟩ |
    ⟨rfl, rfl⟩ | ⟨rfl, rfl⟩ | ⟨rfl, rfl⟩
  · rw [S.five0, S.five2, some_p3] at e
    obtain ⟨k1, k2, k3⟩ := centre (y := -(2 * t' - 1)) cp (S.low _ _ h1 f2) (by have := h2'.1; linarith) e.1
      (by linarith [e.2])
    rw [S.inner _ _ h1 f2] at k1
    obtain rfl : t = 1 := by linarith
    obtain rfl : t' = 0 := by linarith
    rw [sub_self, S.ainner] at k3
    obtain rfl : s = s' := by linarith
    exact Glue5.below s
  · rw [S.five1, S.five2, some_p3] at e
    obtain ⟨k1, k2, k3⟩ := centre (y := -(2 * s' - 1)) cp (S.low _ _ h2 f1) (by have := h1'.1; linarith) e.2
      (by linarith [e.1])
    rw [S.inner _ _ h2 f1] at k1
    obtain rfl : s = 1 := by linarith
    obtain rfl : s' = 0 := by linarith
    rw [sub_self, S.ainner] at k3
    obtain rfl : t = t' := by linarith
    exact Glue5.left t
  · rw [S.five3, S.five2, some_p3] at e
    obtain ⟨k1, k2, k3⟩ := centre (y := 2 * s' - 1) cp (S.low _ _ h2 h1) (by have := h1'.2; linarith) e.2 e.1
    rw [S.inner _ _ h2 h1] at k1
    subst k1
    obtain rfl : s' = 1 := by linarith
    rw [S.ainner] at k3
    obtain rfl : t = t' := by linarith
    exact Glue5.right t
  · rw [S.five4, S.five2, some_p3] at e
    obtain ⟨k1, k2, k3⟩ := centre (y := 2 * t' - 1) cp (S.low _ _ h1 h2) (by have := h2'.2; linarith) e.1 e.2
    rw [S.inner _ _ h1 h2] at k1
    subst k1
    obtain rfl : t' = 1 := by linarith
    rw [S.ainner] at k3
    obtain rfl : s = s' := by linarith
    exact Glue5.above s
  · rw [S.five0, S.five1, some_p3] at e
    obtain ⟨k1, k2, k3⟩ := diag (p := -a s (1 - t)) (q := -a t' (1 - s')) (S.pos h1 f2) (S.pos h2' f1')
      (by rw [abs_neg]; exact S.aabs _ _ h1 f2) (by rw [abs_neg]; exact S.aabs _ _ h2' f1')
      (by linarith [e.1]) (by linarith [e.2])
    have k1' := (S.anegone _ _ h1 f2).mp (by linarith)
    have k2' := (S.anegone _ _ h2' f1').mp (by linarith)
    subst k1' k2'
    have := S.edge _ _ f2 f1' k3
    obtain rfl : t = s' := by linarith
    exact Glue5.belowLeft t
  · rw [S.five0, S.five3, some_p3] at e
    obtain ⟨k1, k2, k3⟩ := diag (p := a s (1 - t)) (q := -a t' s') (S.pos h1 f2) (S.pos h2' h1')
      (S.aabs _ _ h1 f2) (by rw [abs_neg]; exact S.aabs _ _ h2' h1')
      (by linarith [e.1]) (by linarith [e.2])
    have k1' := (S.aone _ _ h1 f2).mp (by linarith)
    have k2' := (S.anegone _ _ h2' h1').mp (by linarith)
    subst k1' k2'
    rw [S.sym] at k3
    have := S.edge _ _ f2 h1' k3
    subst this
    exact Glue5.belowRight t
  · rw [S.five4, S.five1, some_p3] at e
    obtain ⟨k1, k2, k3⟩ := diag (p := -a s t) (q := a t' (1 - s')) (S.pos h1 h2) (S.pos h2' f1')
      (by rw [abs_neg]; exact S.aabs _ _ h1 h2) (S.aabs _ _ h2' f1')
      (by linarith [e.1]) (by linarith [e.2])
    have k1' := (S.anegone _ _ h1 h2).mp (by linarith)
    have k2' := (S.aone _ _ h2' f1').mp (by linarith)
    subst k1' k2'
    rw [S.sym] at k3
    have := S.edge _ _ h2 f1' k3
    obtain rfl : s' = 1 - t := by linarith
    exact Glue5.aboveLeft t
  · rw [S.five4, S.five3, some_p3] at e
    obtain ⟨k1, k2, k3⟩ := diag (p := a s t) (q := a t' s') (S.pos h1 h2) (S.pos h2' h1')
      (S.aabs _ _ h1 h2) (S.aabs _ _ h2' h1')
      (by linarith [e.1]) (by linarith [e.2])
    have k1' := (S.aone _ _ h1 h2).mp (by linarith)
    have k2' := (S.aone _ _ h2' h1').mp (by linarith)
    subst k1' k2'
    rw [S.sym, S.sym] at k3
    have := S.edge _ _ h2 h1' k3
    subst this
    exact Glue5.aboveRight t
  · rw [S.five0, S.five4, some_p3] at e
    have := S.pos h1 f2
    have := S.pos h1' h2'
    linarith [e.2]
  · rw [S.five1, S.five3, some_p3] at e
    have := S.pos h2 f1
    have := S.pos h2' h1'
    linarith [e.1]

/-- Different blocks: the same point exactly when glued. -/
theorem Sector.iff {p q : Place} (hp : InBlocks 5 p) (hq : InBlocks 5 q) (hn : p.1 ≠ q.1) :
    five c h p.1 p.2.1 p.2.2 = five c h q.1 q.2.1 q.2.2 ↔ Glue5 p q ∨ Glue5 q p := by
  constructor
  · intro e
    obtain ⟨b, s, t⟩ := p
    obtain ⟨b', s', t'⟩ := q
    obtain ⟨p0, p5, p1, p2⟩ := hp
    obtain ⟨q0, q5, q1, q2⟩ := hq
    dsimp only at *
    have hb : b = 0 ∨ b = 1 ∨ b = 2 ∨ b = 3 ∨ b = 4 := by omega
    have hb' : b' = 0 ∨ b' = 1 ∨ b' = 2 ∨ b' = 3 ∨ b' = 4 := by omega
    rcases hb with rfl | rfl | rfl | rfl | rfl <;> rcases hb' with rfl | rfl | rfl | rfl | rfl <;>
      first
      | exact absurd rfl hn
      | (refine Or.inl (S.meet p1 p2 q1 q2 ?_ e); simp; done)
      | (refine Or.inr (S.meet q1 q2 p1 p2 ?_ e.symm); simp; done)
  · rintro (g | g)
    · exact S.glue g hp hq
    · exact (S.glue g hq hp).symm

end

/-! ### The square -/

theorem bilinearHelp_eq (α ξ η : ℝ) :
    bilinearHelp α ξ η = ((2 * ξ - 1) * (α + (1 - α) * η), α + (1 - α) * η) := by
  unfold bilinearHelp
  ext <;> dsimp only <;> ring

theorem squareSector {α : ℝ} (h0 : 0 < α) (h1 : α < 1) :
    Sector α (bilinearHelp α) (fun ξ _ => 2 * ξ - 1) (fun _ η => α + (1 - α) * η) where
  cpos := h0
  eq ξ η := bilinearHelp_eq α ξ η
  low ξ η hξ hη := by have := hη.1; nlinarith
  inner ξ η hξ hη := by
    constructor
    · intro h
      have h2 : (1 - α) * η = 0 := by linarith
      rcases mul_eq_zero.mp h2 with h | h
      · linarith
      · exact h
    · rintro rfl; simp
  ainner ξ := rfl
  aabs ξ η hξ hη := abs_coord hξ
  aone ξ η hξ hη := by constructor <;> intro h <;> linarith
  anegone ξ η hξ hη := by constructor <;> intro h <;> linarith
  sym η := rfl
  edge η η' hη hη' h := by
    have h2 : (1 - α) * (η - η') = 0 := by linarith
    rcases mul_eq_zero.mp h2 with h | h <;> linarith

/-- In the square each block is mapped one to one. -/
theorem fivepatch_inj {α : ℝ} (h0 : 0 < α) (h1 : α < 1) {b : ℤ} {s t s' t' : ℝ} (hb0 : 0 ≤ b) (hb5 : b < 5)
    (e : fivepatch b s t α = fivepatch b s' t' α) (i2 : I01 t) (i1 : I01 s) (i2' : I01 t') (i1' : I01 s') :
    s = s' ∧ t = t' := by
  have S := squareSector h0 h1
  rw [fivepatch_five, fivepatch_five] at e
  have hb : b = 0 ∨ b = 1 ∨ b = 2 ∨ b = 3 ∨ b = 4 := by omega
  have fin {ξ η ξ' η' : ℝ} (iη : I01 η) (k1 : (2 * ξ - 1) * (α + (1 - α) * η) = (2 * ξ' - 1) * (α + (1 - α) * η'))
      (k2 : α + (1 - α) * η = α + (1 - α) * η') : ξ = ξ' ∧ η = η' := by
    rw [← k2] at k1
    have hp : 0 < α + (1 - α) * η := by have := iη.1; nlinarith
    have := mul_right_cancel₀ hp.ne' k1
    have k3 : (1 - α) * (η - η') = 0 := by linarith
    constructor
    · linarith
    · rcases mul_eq_zero.mp k3 with h | h <;> linarith
  rcases hb with rfl | rfl | rfl | rfl | rfl
  · rw [S.five0, S.five0, some_p3] at e
    have := fin i2.flip e.1 (by linarith [e.2])
    exact ⟨this.1, by linarith [this.2]⟩
  · rw [S.five1, S.five1, some_p3] at e
    have := fin i1.flip e.2 (by linarith [e.1])
    exact ⟨by linarith [this.2], this.1⟩
  · rw [S.five2, S.five2, some_p3] at e
    have k1 := mul_right_cancel₀ h0.ne' e.1
    have k2 := mul_right_cancel₀ h0.ne' e.2
    constructor <;> linarith
  · rw [S.five3, S.five3, some_p3] at e
    have := fin i1 e.2 e.1
    exact ⟨this.2, this.1⟩
  · rw [S.five4, S.five4, some_p3] at e
    exact fin i2 e.1 e.2

/-- In the square, one sector. -/
theorem sector_surj {α : ℝ} (h0 : 0 < α) (h1 : α < 1) {x y : ℝ} (hx : |x| ≤ y) (hy : α ≤ y) (hy1 : y ≤ 1) :
    ∃ ξ η, I01 ξ ∧ I01 η ∧ (2 * ξ - 1) * (α + (1 - α) * η) = x ∧ α + (1 - α) * η = y := by
  have hyp : 0 < y := by linarith
  have h1α : (0 : ℝ) < 1 - α := by linarith
  rw [abs_le] at hx
  have e : α + (1 - α) * ((y - α) / (1 - α)) = y := by field_simp; ring
  refine ⟨(x / y + 1) / 2, (y - α) / (1 - α), ⟨?_, ?_⟩, ⟨?_, ?_⟩, ?_, e⟩
  · have : -1 ≤ x / y := by rw [le_div_iff₀ hyp]; linarith
    linarith
  · have : x / y ≤ 1 := by rw [div_le_iff₀ hyp]; linarith
    linarith
  · exact div_nonneg (by linarith) h1α.le
  · rw [div_le_iff₀ h1α]; linarith
  · rw [e]; field_simp; ring

/-- The five blocks cover the square. -/
theorem fivepatch_surj {α : ℝ} (h0 : 0 < α) (h1 : α < 1) {p : P3} (hp : InSquare p) :
    ∃ a : Place, InBlocks 5 a ∧ fivepatch a.1 a.2.1 a.2.2 α = some p := by
  have S := squareSector h0 h1
  obtain ⟨x, y, z⟩ := p
  obtain ⟨hx0, hx1, hy0, hy1, hz⟩ := hp
  dsimp only at *
  subst hz
  by_cases hc : |x| ≤ α ∧ |y| ≤ α
  · rw [abs_le, abs_le] at hc
    refine ⟨(2, (x / α + 1) / 2, (y / α + 1) / 2), ⟨by norm_num, by norm_num, ⟨?_, ?_⟩, ⟨?_, ?_⟩⟩, ?_⟩ <;>
      dsimp only
    · have : -1 ≤ x / α := by rw [le_div_iff₀ h0]; linarith [hc.1.1]
      linarith
    · have : x / α ≤ 1 := by rw [div_le_iff₀ h0]; linarith [hc.1.2]
      linarith
    · have : -1 ≤ y / α := by rw [le_div_iff₀ h0]; linarith [hc.2.1]
      linarith
    · have : y / α ≤ 1 := by rw [div_le_iff₀ h0]; linarith [hc.2.2]
      linarith
    · rw [fivepatch_five, S.five2, some_p3]
      constructor <;> field_simp <;> ring
  · by_cases hxy : |x| ≤ |y|
    · have hα : α < |y| := by
        by_contra hn; rw [not_lt] at hn; exact hc ⟨le_trans hxy hn, hn⟩
      rcases abs_cases y with ⟨hy, _⟩ | ⟨hy, _⟩
      · rw [hy] at hxy hα
        obtain ⟨ξ, η, i1, i2, k1, k2⟩ := sector_surj h0 h1 hxy hα.le hy1
        exact ⟨(4, ξ, η), ⟨by norm_num, by norm_num, i1, i2⟩, by
          rw [fivepatch_five, S.five4, some_p3]; exact ⟨k1, k2⟩⟩
      · rw [hy] at hxy hα
        obtain ⟨ξ, η, i1, i2, k1, k2⟩ := sector_surj h0 h1 hxy hα.le (by linarith)
        refine ⟨(0, ξ, 1 - η), ⟨by norm_num, by norm_num, i1, i2.flip⟩, ?_⟩
        rw [fivepatch_five, S.five0, some_p3, show 1 - (1 - η) = η by ring]
        exact ⟨k1, by linarith⟩
    · rw [not_le] at hxy
      have hα : α < |x| := by
        by_contra hn; rw [not_lt] at hn; exact hc ⟨hn, le_trans hxy.le hn⟩
      rcases abs_cases x with ⟨hx, _⟩ | ⟨hx, _⟩
      · rw [hx] at hxy hα
        obtain ⟨ξ, η, i1, i2, k1, k2⟩ := sector_surj h0 h1 hxy.le hα.le hx1
        exact ⟨(3, η, ξ), ⟨by norm_num, by norm_num, i2, i1⟩, by
          rw [fivepatch_five, S.five3, some_p3]; exact ⟨k2, k1⟩⟩
      · rw [hx] at hxy hα
        obtain ⟨ξ, η, i1, i2, k1, k2⟩ := sector_surj h0 h1 hxy.le hα.le (by linarith)
        refine ⟨(1, 1 - η, ξ), ⟨by norm_num, by norm_num, i2.flip, i1⟩, ?_⟩
        rw [fivepatch_five, S.five1, some_p3, show 1 - (1 - η) = η by ring]
        exact ⟨by linarith, k1⟩

/-- A bound for the coordinates in terms of the sector. -/
theorem Sector.bound {c : ℝ} {h : ℝ → ℝ → ℝ × ℝ} {a Y : ℝ → ℝ → ℝ} (S : Sector c h a Y) (P : ℝ → ℝ → Prop)
    (hc : ∀ u v : ℝ, |u| ≤ 1 → |v| ≤ 1 → P (u * c) (v * c))
    (hs : ∀ ξ η, I01 ξ → I01 η → P (a ξ η * Y ξ η) (Y ξ η))
    (hneg : ∀ x y, P x y → P x (-y)) (hswap : ∀ x y, P x y → P y x) {q : Place} (hq : InBlocks 5 q) :
    ∃ p : P3, five c h q.1 q.2.1 q.2.2 = some p ∧ P p.x p.y ∧ p.z = 0 := by
  obtain ⟨b, s, t⟩ := q
  obtain ⟨q0, q5, q1, q2⟩ := hq
  dsimp only at *
  have hb : b = 0 ∨ b = 1 ∨ b = 2 ∨ b = 3 ∨ b = 4 := by omega
  rcases hb with rfl | rfl | rfl | rfl | rfl
  · rw [S.five0]; exact ⟨_, rfl, hneg _ _ (hs _ _ q1 q2.flip), rfl⟩
  · rw [S.five1]; exact ⟨_, rfl, hswap _ _ (hneg _ _ (hs _ _ q2 q1.flip)), rfl⟩
  · rw [S.five2]; exact ⟨_, rfl, hc _ _ (abs_coord q1) (abs_coord q2), rfl⟩
  · rw [S.five3]; exact ⟨_, rfl, hswap _ _ (hs _ _ q2 q1), rfl⟩
  · rw [S.five4]; exact ⟨_, rfl, hs _ _ q1 q2, rfl⟩

/-! ### The disk -/

/-- The slope of the squared disk. -/
def dA (ξ η : ℝ) : ℝ := 2 * (1 - η) * (ξ - 1 / 2) + η * tq (2 * ξ - 1)

/-- The second coordinate of the squared disk. -/
def dY (α ξ η : ℝ) : ℝ := α ^ (1 - η) / Real.sqrt (2 + η * (tq (2 * ξ - 1) ^ 2 - 1))

theorem squareddiskHelp_eq (α ξ η : ℝ) : squareddiskHelp α ξ η = (dA ξ η * dY α ξ η, dY α ξ η) := by
  unfold squareddiskHelp dA dY
  rw [tq_coord]
  dsimp only
  rw [mul_comm]

theorem tq_coord_sq {ξ : ℝ} (h : I01 ξ) : tq (2 * ξ - 1) ^ 2 ≤ 1 := by
  have := tq_abs_le (abs_coord h)
  rw [← sq_abs]
  nlinarith [abs_nonneg (tq (2 * ξ - 1))]

theorem root_range {ξ η : ℝ} (h1 : I01 ξ) (h2 : I01 η) :
    1 ≤ 2 + η * (tq (2 * ξ - 1) ^ 2 - 1) ∧ 2 + η * (tq (2 * ξ - 1) ^ 2 - 1) ≤ 2 := by
  have := tq_coord_sq h1
  have h3 := sq_nonneg (tq (2 * ξ - 1))
  obtain ⟨h4, h5⟩ := h2
  constructor <;> nlinarith

theorem diskSector {α : ℝ} (h0 : 0 < α) (h1 : α < 1) :
    Sector (α / Real.sqrt 2) (squareddiskHelp α) dA (dY α) where
  cpos := by positivity
  eq ξ η := squareddiskHelp_eq α ξ η
  low ξ η hξ hη := by
    obtain ⟨r1, r2⟩ := root_range hξ hη
    unfold dY
    have p1 : 0 < Real.sqrt (2 + η * (tq (2 * ξ - 1) ^ 2 - 1)) := Real.sqrt_pos.mpr (by linarith)
    apply div_le_div₀ (by positivity) _ p1 (Real.sqrt_le_sqrt r2)
    calc α = α ^ (1 : ℝ) := (Real.rpow_one α).symm
      _ ≤ α ^ (1 - η) := Real.rpow_le_rpow_of_exponent_ge h0 h1.le (by linarith [hη.1])
  inner ξ η hξ hη := by
    obtain ⟨r1, r2⟩ := root_range hξ hη
    constructor
    · intro h
      by_contra hne
      have hp : 0 < η := lt_of_le_of_ne hη.1 (Ne.symm hne)
      have k : α < α ^ (1 - η) := by
        calc α = α ^ (1 : ℝ) := (Real.rpow_one α).symm
          _ < α ^ (1 - η) := Real.rpow_lt_rpow_of_exponent_gt h0 h1 (by linarith)
      have p1 : 0 < Real.sqrt (2 + η * (tq (2 * ξ - 1) ^ 2 - 1)) := Real.sqrt_pos.mpr (by linarith)
      have : α / Real.sqrt 2 < dY α ξ η := by
        unfold dY
        exact div_lt_div₀ k (Real.sqrt_le_sqrt r2) (by positivity) p1
      linarith
    · rintro rfl
      unfold dY
      simp
  ainner ξ := by unfold dA; ring
  aabs ξ η hξ hη := by
    have t1 := abs_le.mp (tq_abs_le (abs_coord hξ))
    obtain ⟨h4, h5⟩ := hη
    obtain ⟨h6, h7⟩ := hξ
    unfold dA
    rw [abs_le]
    constructor <;> nlinarith
  aone ξ η hξ hη := by
    have t1 := abs_le.mp (tq_abs_le (abs_coord hξ))
    obtain ⟨h4, h5⟩ := hη
    obtain ⟨h6, h7⟩ := hξ
    unfold dA
    constructor
    · intro h
      by_contra hne
      have hlt : ξ < 1 := lt_of_le_of_ne h7 hne
      have t2 : tq (2 * ξ - 1) < 1 := by
        apply lt_of_le_of_ne t1.2
        intro ht
        have := tq_inj (abs_coord ⟨h6, h7⟩) (by simp) (ht.trans tq_one.symm)
        linarith
      rcases eq_or_lt_of_le h4 with h8 | h8
      · rw [← h8] at h; linarith
      · nlinarith
    · rintro rfl
      rw [show (2 * 1 - 1 : ℝ) = 1 by norm_num, tq_one]; ring
  anegone ξ η hξ hη := by
    have t1 := abs_le.mp (tq_abs_le (abs_coord hξ))
    obtain ⟨h4, h5⟩ := hη
    obtain ⟨h6, h7⟩ := hξ
    unfold dA
    constructor
    · intro h
      by_contra hne
      have hlt : 0 < ξ := lt_of_le_of_ne h6 (Ne.symm hne)
      have t2 : -1 < tq (2 * ξ - 1) := by
        apply lt_of_le_of_ne t1.1
        intro ht
        have := tq_inj (abs_coord ⟨h6, h7⟩) (by simp) (ht.symm.trans tq_neg_one.symm)
        linarith
      rcases eq_or_lt_of_le h4 with h8 | h8
      · rw [← h8] at h; linarith
      · nlinarith
    · rintro rfl
      rw [show (2 * 0 - 1 : ℝ) = -1 by norm_num, tq_neg_one]; ring
  sym η := by
    unfold dY
    rw [show (2 * 1 - 1 : ℝ) = 1 by norm_num, tq_one, show (2 * 0 - 1 : ℝ) = -1 by norm_num, tq_neg_one]
    norm_num
  edge η η' hη hη' h := by
    unfold dY at h
    rw [show (2 * 0 - 1 : ℝ) = -1 by norm_num, tq_neg_one] at h
    norm_num at h
    have := (Real.strictAnti_rpow_of_base_lt_one h0 h1).injective h
    linarith

theorem disk_in {α : ℝ} (h0 : 0 < α) (h1 : α < 1) {ξ η : ℝ} (hξ : I01 ξ) (hη : I01 η) :
    (dA ξ η * dY α ξ η) ^ 2 + dY α ξ η ^ 2 ≤ 1 := by
  obtain ⟨r1, r2⟩ := root_range hξ hη
  have hR : α ^ (1 - η) ≤ 1 := Real.rpow_le_one h0.le h1.le (by linarith [hη.2])
  have hR0 : 0 ≤ α ^ (1 - η) := Real.rpow_nonneg h0.le _
  have hY : dY α ξ η ^ 2 = (α ^ (1 - η)) ^ 2 / (2 + η * (tq (2 * ξ - 1) ^ 2 - 1)) := by
    unfold dY
    rw [div_pow, Real.sq_sqrt (by linarith)]
  have hA : dA ξ η ^ 2 + 1 ≤ 2 + η * (tq (2 * ξ - 1) ^ 2 - 1) := by
    unfold dA
    obtain ⟨h4, h5⟩ := hη
    obtain ⟨h6, h7⟩ := hξ
    generalize tq (2 * ξ - 1) = τ
    have e : (2 * (1 - η) * (ξ - 1 / 2) + η * τ) ^ 2
        = (1 - η) * (2 * ξ - 1) ^ 2 + η * τ ^ 2 - η * (1 - η) * (2 * ξ - 1 - τ) ^ 2 := by ring
    have : 0 ≤ η * (1 - η) * (2 * ξ - 1 - τ) ^ 2 := by
      apply mul_nonneg _ (sq_nonneg _); apply mul_nonneg h4; linarith
    have k : (2 * ξ - 1) ^ 2 ≤ 1 := by nlinarith
    nlinarith
  have e : (dA ξ η * dY α ξ η) ^ 2 + dY α ξ η ^ 2
      = (α ^ (1 - η)) ^ 2 * ((dA ξ η ^ 2 + 1) / (2 + η * (tq (2 * ξ - 1) ^ 2 - 1))) := by
    rw [mul_pow, hY]; ring
  rw [e]
  have k1 : (dA ξ η ^ 2 + 1) / (2 + η * (tq (2 * ξ - 1) ^ 2 - 1)) ≤ 1 := by
    rw [div_le_one (by linarith)]; exact hA
  have k2 : 0 ≤ (dA ξ η ^ 2 + 1) / (2 + η * (tq (2 * ξ - 1) ^ 2 - 1)) := by
    apply div_nonneg (by positivity); linarith
  have k3 : (α ^ (1 - η)) ^ 2 ≤ 1 := by nlinarith
  nlinarith [sq_nonneg (α ^ (1 - η))]

theorem disk_outer {α : ℝ} (h0 : 0 < α) {ξ : ℝ} (hξ : I01 ξ) :
    (dA ξ 1 * dY α ξ 1) ^ 2 + dY α ξ 1 ^ 2 = 1 := by
  have hp : 0 < tq (2 * ξ - 1) ^ 2 + 1 := by positivity
  have hY : dY α ξ 1 ^ 2 = 1 / (tq (2 * ξ - 1) ^ 2 + 1) := by
    unfold dY
    rw [div_pow, show 2 + 1 * (tq (2 * ξ - 1) ^ 2 - 1) = tq (2 * ξ - 1) ^ 2 + 1 by ring, Real.sq_sqrt hp.le,
      sub_self, Real.rpow_zero, one_pow]
  have hA : dA ξ 1 = tq (2 * ξ - 1) := by unfold dA; ring
  rw [mul_pow, hY, hA]
  field_simp

/-- Points inside of the disk that are not on an outer edge. -/
theorem disk_strict {α : ℝ} (h0 : 0 < α) (h1 : α < 1) {ξ η : ℝ} (hξ : I01 ξ) (hη : I01 η) (hne : η ≠ 1) :
    (dA ξ η * dY α ξ η) ^ 2 + dY α ξ η ^ 2 < 1 := by
  obtain ⟨r1, r2⟩ := root_range hξ hη
  have hlt : η < 1 := lt_of_le_of_ne hη.2 hne
  have hR : α ^ (1 - η) < 1 := Real.rpow_lt_one h0.le h1 (by linarith)
  have hR0 : 0 < α ^ (1 - η) := Real.rpow_pos_of_pos h0 _
  have h := disk_in (α := 1 / 2 + α / 2) (by linarith) (by linarith) hξ hη
  have hY : ∀ β : ℝ, dY β ξ η ^ 2 = (β ^ (1 - η)) ^ 2 / (2 + η * (tq (2 * ξ - 1) ^ 2 - 1)) := by
    intro β
    unfold dY
    rw [div_pow, Real.sq_sqrt (by linarith)]
  have k : α ^ (1 - η) < (1 / 2 + α / 2) ^ (1 - η) :=
    Real.rpow_lt_rpow h0.le (by linarith) (by linarith)
  have hq : dY α ξ η ^ 2 < dY (1 / 2 + α / 2) ξ η ^ 2 := by
    rw [hY, hY]
    apply div_lt_div_of_pos_right _ (by linarith)
    nlinarith
  rw [mul_pow] at h ⊢
  nlinarith [sq_nonneg (dA ξ η)]

end

end Fclaw.Mapping
