import Verif.PowInt.Model
import Mathlib.Tactic.Ring
import Mathlib.Tactic.Linarith
import Mathlib.Tactic.Positivity
/- Helper lemmas for property C05. -/
set_option autoImplicit false
namespace Fclaw.PowInt

/-- number of binary digits of `e` (`0` for `e = 0`). -/
def bits (e : Nat) : Nat := if e = 0 then 0 else Nat.log2 e + 1

theorem bits_half (e : Nat) (h : e ≠ 0) : bits e = bits (e / 2) + 1 := by
  unfold bits
  rw [Nat.log2_def e]
  by_cases h2 : 2 ≤ e
  · have : e / 2 ≠ 0 := by omega
    simp [h, h2, this]
  · have : e = 1 := by omega
    subst this; simp

theorem cmul_of_natAbs (a b : Int) (h : (a * b).natAbs ≤ 2147483647) : cmul a b = some (a * b) := by
  unfold cmul intMin intMax
  rw [if_pos]
  omega

theorem loop_some (e : Nat) : ∀ (r b : Int),
    (max 1 b.natAbs) ^ (2 ^ bits e) ≤ 2147483647 →
    r.natAbs * (max 1 b.natAbs) ^ (2 ^ bits e - 1) ≤ 2147483647 →
    loop r b e = some (r * b ^ e) := by
  induction e using Nat.strongRecOn with
  | ind e ih =>
    intro r b h1 h2
    unfold loop
    by_cases he : e = 0
    · simp [he]
    · simp only [he, ↓reduceDIte]
      rw [bits_half e he] at h1 h2
      generalize hA : max 1 b.natAbs = A at h1 h2
      generalize hk : bits (e / 2) = k at h1 h2
      have hA1 : 1 ≤ A := by omega
      have hbA : b.natAbs ≤ A := by omega
      have hpow1 : 1 ≤ 2 ^ k := Nat.one_le_two_pow
      have hsq : (max 1 (b * b).natAbs) = A ^ 2 := by
        rw [← hA, Int.natAbs_mul, pow_two]
        rcases Nat.eq_zero_or_pos b.natAbs with h0 | h0
        · simp [h0]
        · have e1 : max 1 b.natAbs = b.natAbs := by omega
          have e2 : 1 ≤ b.natAbs * b.natAbs := Nat.mul_pos h0 h0
          rw [e1]; omega
      have hbb : cmul b b = some (b * b) := by
        apply cmul_of_natAbs
        have : (b * b).natAbs ≤ A ^ 2 := by rw [← hsq]; omega
        have h3 : A ^ 2 ≤ A ^ (2 ^ (k + 1)) := Nat.pow_le_pow_right hA1 (by rw [pow_succ]; omega)
        omega
      have hA2 : (A ^ 2) ^ (2 ^ k) = A ^ (2 ^ (k + 1)) := by
        rw [← pow_mul]; congr 1; ring
      have hA3 : (A ^ 2) ^ (2 ^ k - 1) * A = A ^ (2 ^ (k + 1) - 1) := by
        rw [← pow_mul, ← pow_succ]; congr 1
        rw [pow_succ]; omega
      have main : ∀ r' : Int, r'.natAbs ≤ r.natAbs * A →
          loop r' (b * b) (e / 2) = some (r' * (b * b) ^ (e / 2)) := by
        intro r' hr'
        apply ih (e / 2) (by omega)
        · rw [hsq, hk, hA2]; exact h1
        · rw [hsq, hk]
          calc r'.natAbs * (A ^ 2) ^ (2 ^ k - 1) ≤ (r.natAbs * A) * (A ^ 2) ^ (2 ^ k - 1) :=
                Nat.mul_le_mul_right _ hr'
            _ = r.natAbs * A ^ (2 ^ (k + 1) - 1) := by rw [← hA3]; ring
            _ ≤ _ := h2
      have hrA : r.natAbs ≤ r.natAbs * A := Nat.le_mul_of_pos_right _ hA1
      have hrb : (r * b).natAbs ≤ r.natAbs * A := by
        rw [Int.natAbs_mul]; exact Nat.mul_le_mul_left _ hbA
      have hbe : b ^ e = b ^ (e % 2) * (b * b) ^ (e / 2) := by
        rw [← pow_two, ← pow_mul, ← pow_add]; congr 1; omega
      by_cases hodd : e % 2 = 1
      · have hmul : cmul r b = some (r * b) := by
          apply cmul_of_natAbs
          have h4 : A ≤ A ^ (2 ^ (k + 1) - 1) := by
            conv_lhs => rw [← pow_one A]
            exact Nat.pow_le_pow_right hA1 (by rw [pow_succ]; omega)
          have h5 := Nat.mul_le_mul_left r.natAbs h4
          omega
        simp only [hodd, ↓reduceIte, hmul, hbb]
        rw [main _ hrb, hbe, hodd, pow_one, mul_assoc]
      · have h0 : e % 2 = 0 := by omega
        simp only [hodd, ↓reduceIte, hbb]
        rw [main _ hrA, hbe, h0, pow_zero, one_mul]

theorem loop_none (e : Nat) : ∀ (r b : Int), e ≠ 0 →
    2147483647 < b ^ (2 ^ bits e) → loop r b e = none := by
  induction e using Nat.strongRecOn with
  | ind e ih =>
    intro r b he h
    unfold loop
    simp only [he, ↓reduceDIte]
    split
    · rfl
    · split
      · rfl
      · rename_i b' hb'
        have hbb : b' = b * b := by
          unfold cmul at hb'; split at hb' <;> simp_all
        rw [bits_half e he] at h
        by_cases h0 : e / 2 = 0
        · exfalso
          simp only [h0, bits, ↓reduceIte, zero_add, pow_one] at h
          unfold cmul intMax at hb'
          split at hb'
          · rename_i hc; rw [pow_two] at h; omega
          · simp at hb'
        · apply ih (e / 2) (by omega) _ _ h0
          rw [hbb, ← pow_two, ← pow_mul]
          have : 2 * 2 ^ bits (e / 2) = 2 ^ (bits (e / 2) + 1) := by ring
          rwa [this]

end Fclaw.PowInt
