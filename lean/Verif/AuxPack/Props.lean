/-
C114: the auxiliary data of a patch reach the processes that need them.
-/
import Verif.AuxPack.Lemmas

set_option autoImplicit false
set_option linter.unusedVariables false

namespace Fclaw.AuxPack

open Fclaw.GhostPack
open Fort

/-- The number of values that are sent: all auxiliary fields in ghost cells and in the outermost four layers. -/
def size (d : Dims) : ℤ := ((4 + (d.mx : ℤ)) * (4 + d.my) - (d.mx - 8) * (d.my - 8)) * d.meqn

/-- Two layers of ghost cells, at least eight cells in both directions. The sender's part of the buffer, `size` values
from `k0` on, is filled, and nothing else changes. A process that gets these values has the auxiliary data of the sender
in all ghost cells and in the outermost four layers afterwards, and nothing else changes.

The modes are those of `clawpatch_ghost_comm`: even for packing, odd for unpacking. Missing: other numbers of ghost
cells, see `C114_one_counterexample` and `C114_more_counterexample`, and smaller patches. -/
theorem C114_roundtrip_partial {α : Type} (d : Dims) (hb : d.mbc = 2) (hx : 8 ≤ d.mx) (hy : 8 ≤ d.my) (ha : 1 ≤ d.meqn)
    (user n k0 area : ℤ) (hk : 0 ≤ k0) (hn : k0 + size d ≤ n) (harea : area = 0 ∨ area = 1) (data : Data α)
    (buf : Buf α) :
    ∃ buf', commAux d 2 (numExtra true d.meqn user) n (2 * area) ⟨k0, data, buf⟩ = some ⟨k0 + size d, data, buf'⟩ ∧
      (∀ p, p < k0 ∨ k0 + size d ≤ p → buf' p = buf p) ∧
      ∀ got : Buf α, (∀ p, k0 ≤ p → p < k0 + size d → got p = buf' p) → ∀ ghost : Data α,
        ∃ ghost', commAux d 2 (numExtra true d.meqn user) n (2 * area + 1) ⟨k0, ghost, got⟩ =
            some ⟨k0 + size d, ghost', got⟩ ∧
          (∀ i j mq : ℤ, Outer d 4 i j → 1 ≤ mq → mq ≤ d.meqn → ghost' (.q i j mq) = data (.q i j mq)) ∧
          ∀ l, (∀ i j mq : ℤ, l = .q i j mq → ¬ (Outer d 4 i j ∧ 1 ≤ mq ∧ mq ≤ d.meqn)) → ghost' l = ghost l := by
  have hmint : (2 : ℤ) * (d.mbc : ℤ) = 4 := by omega
  have hd : two d = d := by
    unfold two
    rw [← hb]
  have hlen : ((auxLocs d 4).length : ℤ) = size d := by
    rw [length_auxLocs d 4 (by omega) (by omega) (by omega)]
    unfold size
    ring
  have hval := auxLocs_valid d 4 (by omega) (by omega) (by omega) (by omega)
  have hpos : 0 < size d := by
    have := size_pos d.mx d.my 4 4 (by omega) (by omega) (by omega) (by omega)
    unfold size
    have h1 : (1 : ℤ) ≤ d.meqn := by exact_mod_cast ha
    nlinarith
  have hcomm : ∀ (mode : ℤ) (s : St α), (mode = 0 ∨ mode = 1 ∨ mode = 2 ∨ mode = 3) →
      ∀ s', loop (auxLocs d 4) (move d n (decide (mode = 0 ∨ mode = 2))) s = some s' → s'.k = s.k + size d →
        commAux d 2 (numExtra true d.meqn user) n mode s = some ⟨s.k + size d, s'.data, s'.buf⟩ := by
    intro mode s hmode s' he hk'
    have es : ((2 * (d.mbc : ℤ) + d.mx) * (2 * d.mbc + d.my) -
        ((d.mx : ℤ) - 2 * (2 * d.mbc)) * (d.my - 2 * (2 * d.mbc))) * (d.meqn : ℤ) = size d := by
      rw [hmint]
      unfold size
      ring
    unfold commAux numExtra
    simp only [if_true]
    rw [if_pos (by omega), es, if_neg (by omega), hmint, localGhostPackAux_eq d 4 _ n mode s hmode, he]
    simp [hk']
  have hlist : ∀ l, l ∈ auxLocs d 4 ↔ ∃ i j mq, l = .q i j mq ∧ Outer d 4 i j ∧ 1 ≤ mq ∧ mq ≤ (d.meqn : ℤ) := by
    intro l
    rw [mem_auxLocs, hd]
    constructor
    · rintro ⟨i, j, mq, hr, hm, e⟩
      exact ⟨i, j, mq, e, (inRing_outer d 4 i j (by omega) (by omega) (by omega)).1 hr, hm.1, hm.2⟩
    · rintro ⟨i, j, mq, e, hr, h1, h2⟩
      exact ⟨i, j, mq, (inRing_outer d 4 i j (by omega) (by omega) (by omega)).2 hr, ⟨h1, h2⟩, e⟩
  obtain ⟨s1, e1, k1, d1, b1, r1⟩ := pack_list d n (auxLocs d 4) ⟨k0, data, buf⟩ hval hk (by rw [hlen]; exact hn)
  have m1 : decide (2 * area = 0 ∨ 2 * area = 2) = true := by
    rw [decide_eq_true_eq]; omega
  have m2 : decide (2 * area + 1 = 0 ∨ 2 * area + 1 = 2) = false := by
    rw [decide_eq_false_iff_not]; omega
  refine ⟨s1.buf, ?_, ?_, ?_⟩
  · have := hcomm (2 * area) ⟨k0, data, buf⟩ (by omega) s1 (by rw [m1]; exact e1) (by rw [k1, hlen])
    rw [this, d1]
  · intro p hp
    exact r1 p (by rw [hlen]; exact hp)
  · intro got hgot ghost
    obtain ⟨s2, e2, k2, b2, d2, r2⟩ := unpack_list d n data (auxLocs d 4) ⟨k0, ghost, got⟩ hval hk
      (by rw [hlen]; exact hn) (by
        intro p hp
        exact (hgot (k0 + p) (by omega) (by omega)).trans (b1 p hp))
    refine ⟨s2.data, ?_, ?_, ?_⟩
    · have := hcomm (2 * area + 1) ⟨k0, ghost, got⟩ (by omega) s2 (by rw [m2]; exact e2) (by rw [k2, hlen])
      rw [this, b2]
    · intro i j mq ho h1 h2
      exact d2 _ ((hlist _).2 ⟨i, j, mq, rfl, ho, h1, h2⟩)
    · intro l hl
      apply r2
      intro hm
      obtain ⟨i, j, mq, e, ho⟩ := (hlist _).1 hm
      exact hl i j mq e ho

/-- With one layer of ghost cells, packing and unpacking access memory outside of the auxiliary data. -/
theorem C114_one_counterexample {α : Type} (d : Dims) (hb : d.mbc = 1) (hx : 4 ≤ d.mx) (hy : 4 ≤ d.my) (ha : 1 ≤ d.meqn)
    (auxsize n mode : ℤ) (hm : mode = 0 ∨ mode = 1 ∨ mode = 2 ∨ mode = 3) (s : St α) :
    localGhostPackAux d (2 * d.mbc) auxsize n mode s = none := by
  rw [localGhostPackAux_eq d _ _ n mode s hm, loop_invalid d n _ (.q (-1) (-1) 1)]
  · rfl
  · simp [valid, inBox, hb]
  · rw [mem_auxLocs]
    refine ⟨-1, -1, 1, Or.inl ?_, by omega, rfl⟩
    simp only [two]
    omega

/-- With three layers of ghost cells or more, the sizes do not agree and the program ends. -/
theorem C114_more_counterexample {α : Type} (d : Dims) (hb : 3 ≤ d.mbc) (hx : 4 * d.mbc ≤ d.mx) (hy : 4 * d.mbc ≤ d.my)
    (ha : 1 ≤ d.meqn) (user n mode : ℤ) (s : St α) :
    commAux d 2 (numExtra true d.meqn user) n mode s = none := by
  unfold commAux numExtra
  simp only [if_true]
  rw [if_pos (by omega)]
  split
  · rfl
  · by_cases hm : mode = 0 ∨ mode = 1 ∨ mode = 2 ∨ mode = 3
    · rw [localGhostPackAux_eq d _ _ n mode s hm]
      cases hl : loop (auxLocs d (2 * d.mbc)) (move d n (decide (mode = 0 ∨ mode = 2))) s with
      | none => rfl
      | some s' =>
        have h1 := loop_k d n _ _ s s' hl
        have h2 := length_auxLocs d (2 * d.mbc) (by omega) (by omega) (by omega)
        have h3 : s'.k - s.k ≠ ((2 * (d.mbc : ℤ) + d.mx) * (2 * d.mbc + d.my) -
            ((d.mx : ℤ) - 2 * (2 * d.mbc)) * (d.my - 2 * (2 * d.mbc))) * (d.meqn : ℤ) := by
          rw [h1, h2]
          have hb' : (3 : ℤ) ≤ d.mbc := by exact_mod_cast hb
          have ha' : (1 : ℤ) ≤ d.meqn := by exact_mod_cast ha
          have hx' : (0 : ℤ) ≤ d.mx := by positivity
          have hy' : (0 : ℤ) ≤ d.my := by positivity
          have key : (4 + (d.mx : ℤ)) * (4 + d.my) < (2 * (d.mbc : ℤ) + d.mx) * (2 * d.mbc + d.my) := by nlinarith
          intro e
          have : ((4 + (d.mx : ℤ)) * (4 + d.my) - (2 * (d.mbc : ℤ) + d.mx) * (2 * d.mbc + d.my)) * d.meqn = 0 := by
            linarith
          rcases mul_eq_zero.1 this with h | h <;> omega
        simp [h3]
    · unfold localGhostPackAux
      rw [if_pos (by omega)]
      rfl

/-! ### The hypotheses can be met -/

/-- A patch with 8 × 10 cells and two auxiliary fields. -/
def dimsX : Dims := ⟨8, 10, 2, 2⟩

example : dimsX.mbc = 2 ∧ 8 ≤ dimsX.mx ∧ 8 ≤ dimsX.my ∧ 1 ≤ dimsX.meqn ∧ (0 : ℤ) + size dimsX ≤ 400 ∧ size dimsX = 336 := by
  decide
example : Outer dimsX 4 (-1) 12 ∧ Outer dimsX 4 4 5 := by
  unfold Outer dimsX
  refine ⟨⟨⟨?_, ?_, ?_, ?_⟩, ?_⟩, ⟨⟨?_, ?_, ?_, ?_⟩, ?_⟩⟩ <;> norm_num
example : ¬ Outer ⟨10, 10, 2, 2⟩ 4 5 5 := by unfold Outer; norm_num
example : (⟨4, 4, 1, 1⟩ : Dims).mbc = 1 ∧ 4 ≤ (⟨4, 4, 1, 1⟩ : Dims).mx := by decide
example : 3 ≤ (⟨12, 12, 3, 1⟩ : Dims).mbc ∧ 4 * (⟨12, 12, 3, 1⟩ : Dims).mbc ≤ (⟨12, 12, 3, 1⟩ : Dims).mx := by decide

end Fclaw.AuxPack
