/-
The rectangles of the patches.
-/
import Verif.Tikz.Spec
import Verif.PowInt.Props
import Verif.Output.Dist
import Mathlib.Tactic.FieldSimp
import Mathlib.Tactic.Ring
import Mathlib.Tactic.NormNum
import Mathlib.Tactic.Linarith

set_option autoImplicit false
set_option linter.unusedSimpArgs false

namespace Fclaw.Tikz

open Fclaw.ParFile (Distribution Outcome)
open Fclaw.Output
open Fclaw.PowInt (cmul powInt intMin intMax)

theorem isDouble_div (N k : Nat) (h : N < 2 ^ 53) : IsDouble ((N : ℚ) / 2 ^ k) := by
  refine ⟨N, -k, ?_, ?_⟩
  · rw [abs_of_nonneg (by omega)]; exact_mod_cast h
  · rw [zpow_neg, zpow_natCast, div_eq_mul_inv]; push_cast; rfl

theorem finest_eq {m lmax : Nat} (hl : lmax ≤ 15) (h : m * 2 ^ lmax < 2 ^ 31) :
    finest m lmax = .ok ((m * 2 ^ lmax : Nat) : Int) := by
  have h1 : 1 ≤ 2 ^ lmax := Nat.one_le_two_pow
  have hm : m ≤ m * 2 ^ lmax := Nat.le_mul_of_pos_right m h1
  have e1 : cmul (m : Int) 1 = some (m : Int) := by
    unfold cmul intMin intMax
    rw [mul_one, if_pos (by omega)]
  have e2 : cmul (m : Int) (2 ^ lmax) = some ((m * 2 ^ lmax : Nat) : Int) := by
    have e : (m : Int) * 2 ^ lmax = ((m * 2 ^ lmax : Nat) : Int) := by push_cast; rfl
    unfold cmul intMin intMax
    rw [e, if_pos (by omega)]
  unfold finest
  rw [PowInt.C05_powInt_two lmax hl]
  simp only [defined, bind_ok, e1, e2]

theorem toInt_nat {N : Nat} (h : N < 2 ^ 31) : toInt (N : ℚ) = .ok (N : Int) := by
  unfold toInt
  have h0 : ¬ ((N : ℚ) < 0) := not_lt.2 (Nat.cast_nonneg N)
  simp only [h0, if_false, Int.floor_natCast]
  unfold intMin intMax
  rw [if_pos (by omega)]

theorem edges_eq {fl : ℚ → ℚ} (hfl : Faithful fl) {isBrick : Bool} {corner low : ℚ}
    {m a lmax level N : Nat} (hm : m = 2 ^ a) (hl : lmax ≤ 15) (hlev : level ≤ lmax)
    (hfit : m * 2 ^ lmax < 2 ^ 31) (hN : N < m * 2 ^ level)
    (hc : convertBrick fl isBrick corner m low = (N : ℚ) / 2 ^ (level + a)) :
    edges fl isBrick corner m lmax level low
      = .ok (((N * 2 ^ (lmax - level) : Nat) : Int),
          ((N * 2 ^ (lmax - level) + 2 ^ (lmax - level) : Nat) : Int)) := by
  have hpow : 2 ^ lmax = 2 ^ level * 2 ^ (lmax - level) := by
    rw [← pow_add]; congr 1; omega
  have hw : 1 ≤ 2 ^ (lmax - level) := Nat.one_le_two_pow
  have hup : N * 2 ^ (lmax - level) + 2 ^ (lmax - level) ≤ m * 2 ^ lmax := by
    rw [hpow, ← Nat.mul_assoc]
    calc N * 2 ^ (lmax - level) + 2 ^ (lmax - level) = (N + 1) * 2 ^ (lmax - level) := by ring
      _ ≤ (m * 2 ^ level) * 2 ^ (lmax - level) := Nat.mul_le_mul_right _ hN
  have e0 : (lmax : Int) - level = ((lmax - level : Nat) : Int) := by omega
  have e1 : cmul 1 ((2 : Int) ^ (lmax - level)) = some ((2 ^ (lmax - level) : Nat) : Int) := by
    have e : (2 : Int) ^ (lmax - level) = ((2 ^ (lmax - level) : Nat) : Int) := by push_cast; rfl
    unfold cmul intMin intMax
    rw [e, one_mul, if_pos (by omega)]
  have hd : fl (1 / (((m * 2 ^ lmax : Nat) : Int) : ℚ)) = 1 / 2 ^ (a + lmax) := by
    have e : (1 : ℚ) / (((m * 2 ^ lmax : Nat) : Int) : ℚ) = ((1 : Nat) : ℚ) / 2 ^ (a + lmax) := by
      rw [hm, pow_add]; push_cast; rfl
    rw [e, hfl _ (isDouble_div 1 _ (by norm_num))]; push_cast; rfl
  have hq : fl (((N : ℚ) / 2 ^ (level + a)) / (1 / 2 ^ (a + lmax)))
      = ((N * 2 ^ (lmax - level) : Nat) : ℚ) := by
    have e : ((N : ℚ) / 2 ^ (level + a)) / (1 / 2 ^ (a + lmax))
        = ((N * 2 ^ (lmax - level) : Nat) : ℚ) / 2 ^ 0 := by
      have e3 : (2 : ℚ) ^ (a + lmax) = 2 ^ (level + a) * 2 ^ (lmax - level) := by
        rw [← pow_add]; congr 1; omega
      rw [e3]
      push_cast
      have : (2 : ℚ) ^ (level + a) ≠ 0 := by positivity
      have : (2 : ℚ) ^ (lmax - level) ≠ 0 := by positivity
      field_simp
    rw [e, hfl _ (isDouble_div _ 0 (by omega))]
    simp
  unfold edges
  rw [e0, PowInt.C05_powInt_two (lmax - level) (by omega), finest_eq hl hfit]
  simp only [defined, bind_ok, e1, hc, hd, hq]
  rw [toInt_nat (by omega)]
  simp only [bind_ok]
  unfold cadd intMin intMax
  rw [← Nat.cast_add, if_pos (by omega)]
  rfl

theorem convert_brick {fl : ℚ → ℚ} (hfl : Faithful fl) {c i a level : Nat}
    (hN : c * 2 ^ level + i < 2 ^ 53) :
    convertBrick fl true (c : ℚ) (2 ^ a) (i / 2 ^ level)
      = ((c * 2 ^ level + i : Nat) : ℚ) / 2 ^ (level + a) := by
  unfold convertBrick
  rw [if_pos rfl]
  have e1 : (c : ℚ) + i / 2 ^ level = ((c * 2 ^ level + i : Nat) : ℚ) / 2 ^ level := by
    push_cast; field_simp
  have e2 : ((c * 2 ^ level + i : Nat) : ℚ) / 2 ^ level / ((2 ^ a : Nat) : ℚ)
      = ((c * 2 ^ level + i : Nat) : ℚ) / 2 ^ (level + a) := by
    rw [pow_add, div_div]; push_cast; rfl
  rw [e1, hfl _ (isDouble_div _ _ hN), e2, hfl _ (isDouble_div _ _ hN)]

theorem edges_place {fl : ℚ → ℚ} (hfl : Faithful fl) {c i a lmax level : Nat}
    (hl : lmax ≤ 15) (hlev : level ≤ lmax) (hfit : 2 ^ a * 2 ^ lmax < 2 ^ 31) (hc : c < 2 ^ a)
    (hi : i < 2 ^ level) :
    edges fl true (c : ℚ) (2 ^ a) lmax level (i / 2 ^ level)
      = .ok ((((c * 2 ^ level + i) * 2 ^ (lmax - level) : Nat) : Int),
          (((c * 2 ^ level + i) * 2 ^ (lmax - level) + 2 ^ (lmax - level) : Nat) : Int)) := by
  have hN : c * 2 ^ level + i < 2 ^ a * 2 ^ level := by
    calc c * 2 ^ level + i < c * 2 ^ level + 2 ^ level := by omega
      _ = (c + 1) * 2 ^ level := by ring
      _ ≤ 2 ^ a * 2 ^ level := Nat.mul_le_mul_right _ hc
  have hle : 2 ^ a * 2 ^ level ≤ 2 ^ a * 2 ^ lmax :=
    Nat.mul_le_mul_left _ (Nat.pow_le_pow_right (by omega) hlev)
  exact edges_eq hfl rfl hl hlev hfit hN (convert_brick hfl (by omega))

theorem edges_single {fl : ℚ → ℚ} (hfl : Faithful fl) {i lmax level : Nat} (corner : ℚ)
    (hl : lmax ≤ 15) (hlev : level ≤ lmax) (hfit : 1 * 2 ^ lmax < 2 ^ 31) (hi : i < 2 ^ level) :
    edges fl false corner 1 lmax level (i / 2 ^ level)
      = .ok (((i * 2 ^ (lmax - level) : Nat) : Int),
          ((i * 2 ^ (lmax - level) + 2 ^ (lmax - level) : Nat) : Int)) :=
  edges_eq hfl (a := 0) rfl hl hlev hfit (by simpa using hi) (by simp [convertBrick])

/-- The text of patch `g`. -/
def textOf (X : Setting) (r g : Nat) (x : Nat × Square) : Text :=
  patchText x.2.level g r (rectOf X x.1 x.2).x0 (rectOf X x.1 x.2).y0
    (rectOf X x.1 x.2).x1 (rectOf X x.1 x.2).y1

theorem patches_block {α : Type} (F : Forest α) : ∀ (k : Nat) (x : Nat × α),
    x ∈ Forest.patches k F → x.1 < k + F.length := by
  induction F with
  | nil => intro k x hx; simp [Forest.patches] at hx
  | cons b bs ih =>
    intro k x hx
    simp only [Forest.patches, List.mem_append, List.mem_map] at hx
    rw [List.length_cons]
    rcases hx with ⟨p, _, rfl⟩ | hx
    · simp
    · have := ih _ _ hx; omega

theorem cb_eq {fl : ℚ → ℚ} (hfl : Faithful fl) {X : Setting} (hX : Fits X) {x : Nat × Square}
    (hx : x ∈ Forest.patches 0 X.F) (r before : Nat) (b : LocalBlock Patch) (j : Nat) :
    cbTikz fl X.P r before x.1 b j (patchOf x.2)
      = .ok (textOf X r (before + (b.numPatchesBefore + j)) x) := by
  obtain ⟨h1, h2, h3⟩ := hX.squares x hx
  have hb : x.1 < X.F.length := by simpa using patches_block X.F 0 x hx
  have hmi := hX.mi
  have hmj := hX.mj
  unfold cbTikz patchOf
  cases hX.placed with
  | brick q1 q2 q3 q4 =>
    obtain ⟨a, ha⟩ := q2
    obtain ⟨a', ha'⟩ := q3
    obtain ⟨c1, c2, c3, c4⟩ := q4 x.1 hb
    rw [ha] at hmi c2
    rw [ha'] at hmj c4
    rw [q1, c1, c3, ha, ha']
    simp only
    rw [edges_place hfl hX.maxlevel h1 hmi c2 h2, edges_place hfl hX.maxlevel h1 hmj c4 h3]
    simp only [bind_ok]
    rfl
  | single q1 q2 q3 q4 q5 q6 =>
    have h0 : x.1 = 0 := by omega
    rw [q2] at hmi
    rw [q3] at hmj
    rw [q1, q2, q3]
    simp only
    rw [edges_single hfl _ hX.maxlevel h1 hmi h2, edges_single hfl _ hX.maxlevel h1 hmj h3]
    simp only [bind_ok]
    unfold textOf rectOf
    rw [h0, q5, q6]
    simp

end Fclaw.Tikz
