import Verif.PowInt.Lemmas
/-
Property C05: `pow_int(base, exp)` returns base^exp whenever that value fits in an int.

The code violates this: the squaring `base *= base` is executed once more than needed, so signed
overflow (undefined behaviour) occurs for base 2 already at exponent 16, although 2^16 fits.
`C05_powInt_iff` gives the exact set of safe arguments.
-/
set_option autoImplicit false
namespace Fclaw.PowInt

/-- Exact characterisation: for a positive exponent with `n` binary digits, `pow_int` is defined
exactly if base^(2^n) fits in an `int`, and then it returns base^exp. -/
theorem C05_powInt_iff (b : Int) (e : Nat) (he : 0 < e) :
    powInt b e = if b ^ (2 ^ (Nat.log2 e + 1)) ≤ intMax then some (b ^ e) else none := by
  have hne : e ≠ 0 := by omega
  have hbits : bits e = Nat.log2 e + 1 := by simp [bits, hne]
  unfold powInt
  rw [if_neg (by omega), Int.toNat_natCast, ← hbits]
  have heven : (b.natAbs : Int) ^ (2 ^ bits e) = b ^ (2 ^ bits e) := by
    rw [hbits, pow_succ, Nat.mul_comm, pow_mul, pow_mul, Int.natAbs_sq]
  split
  · rename_i h
    have hA : (max 1 b.natAbs) ^ (2 ^ bits e) ≤ 2147483647 := by
      rcases Nat.eq_zero_or_pos b.natAbs with h0 | h0
      · simp [h0]
      · have e1 : max 1 b.natAbs = b.natAbs := by omega
        rw [e1]
        have : ((b.natAbs ^ (2 ^ bits e) : Nat) : Int) ≤ 2147483647 := by
          rw [Nat.cast_pow, heven]; exact h
        exact_mod_cast this
    have := loop_some e 1 b hA (by
      simp only [Int.natAbs_one, one_mul]
      refine le_trans (Nat.pow_le_pow_right (by omega) (Nat.sub_le _ _)) hA)
    simpa using this
  · rename_i h
    apply loop_none e 1 b hne
    unfold intMax at h; omega

/-- `pow_int(base, 0)` is 1, also for base 0. -/
theorem C05_powInt_zero (b : Int) : powInt b 0 = some 1 := by
  simp [powInt, loop]

/-- The part of C05 that holds: whenever the result of the (superfluous) last squaring fits,
`pow_int` returns base^exp. Missing: arguments where base^exp fits but base^(2^n) does not. -/
theorem C05_powInt_partial (b : Int) (e : Nat)
    (hfit : b ^ (2 ^ (Nat.log2 e + 1)) ≤ intMax) : powInt b e = some (b ^ e) := by
  rcases Nat.eq_zero_or_pos e with h | h
  · subst h; simpa using C05_powInt_zero b
  · rw [C05_powInt_iff b e h, if_pos hfit]

/-- The refinement factors used by ForestClaw: 2^level is exact for levels 0 to 15. -/
theorem C05_powInt_two (level : Nat) (h : level ≤ 15) : powInt 2 level = some (2 ^ level) := by
  apply C05_powInt_partial
  have hl : Nat.log2 level + 1 ≤ 4 := by
    rcases Nat.eq_zero_or_pos level with h0 | h0
    · subst h0; decide
    · have : Nat.log2 level < 4 := (Nat.log2_lt (by omega)).2 (by omega)
      omega
  have h1 : 2 ^ (Nat.log2 level + 1) ≤ 2 ^ 4 := Nat.pow_le_pow_right (by omega) hl
  calc (2 : Int) ^ (2 ^ (Nat.log2 level + 1)) ≤ 2 ^ (2 ^ 4) :=
        pow_le_pow_right₀ (by norm_num) h1
    _ ≤ intMax := by decide

/-- C05 as stated fails: 2^level fits in an `int` for every level from 16 to 30, but the
computation has undefined behaviour. -/
theorem C05_powInt_counterexample (level : Nat) (h1 : 16 ≤ level) (h2 : level ≤ 30) :
    (intMin ≤ (2 : Int) ^ level ∧ (2 : Int) ^ level ≤ intMax) ∧ powInt 2 level = none := by
  refine ⟨⟨?_, ?_⟩, ?_⟩
  · have : (0 : Int) < 2 ^ level := by positivity
    unfold intMin; omega
  · calc (2 : Int) ^ level ≤ 2 ^ 30 := pow_le_pow_right₀ (by norm_num) h2
      _ ≤ intMax := by decide
  · rw [C05_powInt_iff 2 level (by omega), if_neg]
    have hl : 4 ≤ Nat.log2 level := (Nat.le_log2 (by omega)).2 (by omega)
    have h3 : 2 ^ 5 ≤ 2 ^ (Nat.log2 level + 1) := Nat.pow_le_pow_right (by omega) (by omega)
    have : (2 : Int) ^ (2 ^ 5) ≤ 2 ^ (2 ^ (Nat.log2 level + 1)) :=
      pow_le_pow_right₀ (by norm_num) h3
    unfold intMax
    norm_num at this ⊢
    omega

/-- Non-vacuity of `C05_powInt_partial`. -/
example : (3 : Int) ^ (2 ^ (Nat.log2 7 + 1)) ≤ intMax ∧ powInt 3 7 = some 2187 := by
  refine ⟨by decide, C05_powInt_partial 3 7 (by decide)⟩

end Fclaw.PowInt
