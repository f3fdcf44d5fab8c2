/-
Where the cells of a coarse patch are in the numbering of a half-size neighbour.
-/
import Verif.Correction.Steps
import Verif.Transform.Props
import Verif.CopyGhost.Lemmas

set_option autoImplicit false
set_option linter.unusedSimpArgs false
set_option linter.unusedVariables false
namespace Fclaw.Correction

open Fort Transform CopyGhost

variable {d : Dims}

theorem half_axis (lo lo' : ℚ) (l m : Nat) (hm : 1 ≤ m) (i i' e C : ℤ) (b : Nat) (k : ℚ)
    (h : lo' + ((i' : ℚ) - (1 : Nat) + 1 / 2) / (m * 2 ^ (l + 1)) =
      e * (lo + ((i : ℚ) - (1 : Nat) + 1 / 4 + b / 2) / (m * 2 ^ l)) + k)
    (hc : lo' + (1 / 2 + (0 : ℤ)) / 2 ^ (l + 1) = e * (lo + ((C : ℚ) / 4) / 2 ^ l) + k) :
    2 * i' - 1 - m = e * (4 * i - 3 + 2 * b - C * m) := by
  have hm' : (m : ℚ) ≠ 0 := by
    have : (0 : ℚ) < m := by exact_mod_cast hm
    exact ne_of_gt this
  have hw : (2 : ℚ) ^ l ≠ 0 := by positivity
  have h3 : ((i' : ℚ) - 1 + 1 / 2) / (m * (2 ^ l * 2)) - (1 / 2) / (2 ^ l * 2) =
      e * (((i : ℚ) - 1 + 1 / 4 + b / 2) / (m * 2 ^ l) - ((C : ℚ) / 4) / 2 ^ l) := by
    rw [pow_succ] at h hc
    push_cast at h hc
    linarith
  field_simp at h3
  have h4 : (2 : ℚ) * i' - 1 - m = e * (4 * i - 3 + 2 * b - C * m) := by linarith
  exact_mod_cast h4

/-- Coordinate `a`. -/
def ax (p : ℤ × ℤ) (a : Nat) : ℤ := if a = 0 then p.1 else p.2

/-- Bit of child `k` along axis `a`. -/
def bitAt (k a : Nat) : ℤ := ((k / 2 ^ a % 2 : Nat) : ℤ)

def eT (ft : Nat → Nat) : ℤ := if backwards ft then -1 else 1
def eN (ft : Nat → Nat) (f : Nat) : ℤ := if f % 2 = otherFace ft f % 2 then -1 else 1

/-- Facts about the two faces. -/
theorem faces (ft : Nat → Nat) (f g : Nat) (hf : f < 4) (ip op : Patch) (hl : HalfLink d ft f g ip op) :
    otherFace ft f < 4 ∧ len d (otherFace ft f) = len d f ∧
      sizes d (otherFace ft f / 2) = sizes d (f / 2) := by
  have h := hl.place
  unfold otherFace
  by_cases h4 : ft 8 / 4 % 2 = 1
  · rw [if_pos h4] at h
    simp only [if_pos h4]
    have : f = 0 ∨ f = 1 ∨ f = 2 ∨ f = 3 := by omega
    rcases this with rfl | rfl | rfl | rfl <;> exact ⟨by decide, rfl, rfl⟩
  · rw [if_neg h4] at h
    simp only [if_neg h4]
    obtain ⟨G, hs, h2, h8, _⟩ := h
    obtain ⟨a, b⟩ := gluing_axes G
    obtain ⟨s0, _, s2⟩ := hs
    have hf' : f / 2 = 0 ∨ f / 2 = 1 := by omega
    rcases a with ⟨a0, a2⟩ | ⟨a0, a2⟩ <;> rcases b with ⟨b0, b2⟩ | ⟨b0, b2⟩ <;>
      rw [a0, b0] at s0 <;> rw [a2, b2] at s2 <;> rw [a2] at h2 <;> rw [b2] <;>
      refine ⟨by omega, ?_, ?_⟩ <;> simp only [← h2, len, show (2 * 1 + ft 8 % 2) / 2 = 1 by omega,
        show (2 * 0 + ft 8 % 2) / 2 = 0 by omega, sizes0, sizes1] at * <;> simp_all

theorem bits_at (k a : Nat) (hk : k < 4) (ha : a < 2) : ((bits (k % 2) (k / 2) 0 a : Nat) : ℤ) = bitAt k a := by
  have hk' : k = 0 ∨ k = 1 ∨ k = 2 ∨ k = 3 := by omega
  have ha' : a = 0 ∨ a = 1 := by omega
  rcases hk' with rfl | rfl | rfl | rfl <;> rcases ha' with rfl | rfl <;> rfl

theorem childNo_bits (k : Nat) (hk : k < 4) : childNo (bits (k % 2) (k / 2) 0) = k := by
  have : k = 0 ∨ k = 1 ∨ k = 2 ∨ k = 3 := by omega
  rcases this with rfl | rfl | rfl | rfl <;> rfl

theorem isChild_bits (k : Nat) (hk : k < 4) : IsChild false (bits (k % 2) (k / 2) 0) :=
  ⟨k % 2, k / 2, 0, rfl, by omega, by omega, by simp⟩

theorem clawHalf_of {td : TData} {i j : ℤ} {out : Nat → Option (Nat → ℤ)}
    (h : transformFace2 false td.this td.neighbor td.transform (sizes d) 1 (index i j) (td.junk i j) = some out)
    (P : Nat → ℤ × ℤ → Prop) (hP : ∀ k < 4, ∃ x, out k = some x ∧ P k (x 0, x 1)) :
    ∃ o, clawHalf d td i j = some o ∧ ∀ k < 4, P k (o k) := by
  obtain ⟨x0, e0, p0⟩ := hP 0 (by omega)
  obtain ⟨x1, e1, p1⟩ := hP 1 (by omega)
  obtain ⟨x2, e2, p2⟩ := hP 2 (by omega)
  obtain ⟨x3, e3, p3⟩ := hP 3 (by omega)
  unfold clawHalf
  rw [h]
  simp only [Option.bind_some, e0, e1, e2, e3]
  refine ⟨_, rfl, ?_⟩
  intro k hk
  have : k = 0 ∨ k = 1 ∨ k = 2 ∨ k = 3 := by omega
  rcases this with rfl | rfl | rfl | rfl
  · simpa using p0
  · simpa using p1
  · simpa using p2
  · simpa using p3

/-- Child `k` of cell `(i, j)` is the cell `p` of the neighbour: an equation for each axis. -/
def HalfAt (d : Dims) (ft : Nat → Nat) (f g : Nat) (i j : ℤ) (k : Nat) (p : ℤ × ℤ) : Prop :=
  2 * ax p (1 - otherFace ft f / 2) - 1 - len d f =
    eT ft * (4 * ax (i, j) (1 - f / 2) - 3 + 2 * bitAt k (1 - f / 2) - (1 + 2 * (g : ℤ)) * len d f) ∧
  2 * ax p (otherFace ft f / 2) - 1 - sizes d (f / 2) =
    eN ft f * (4 * ax (i, j) (f / 2) - 3 + 2 * bitAt k (f / 2) -
      (if f % 2 = 1 then 5 else -1) * sizes d (f / 2))

/-- What the half-size transformation does. -/
theorem clawHalf_spec (hd : Sized d) (td : TData) (f g : Nat) (hf : f < 4)
    (hl : HalfLink d td.transform f g td.this td.neighbor) (i j : ℤ) :
    ∃ o, clawHalf d td i j = some o ∧ ∀ k < 4, HalfAt d td.transform f g i j k (o k) := by
  have hp := sized_pos hd
  have hs : Sizes false (sizes d) 1 := ⟨by omega, by
    intro a ha
    simp [axes] at ha
    rcases ha with rfl | rfl
    · exact hp.1
    · exact hp.2⟩
  obtain ⟨hlev, hi, ho, hpl⟩ := hl
  by_cases h4 : td.transform 8 / 4 % 2 = 1
  · rw [if_pos h4] at hpl
    obtain ⟨hv, hc⟩ := hpl
    obtain ⟨out, e, hch, _⟩ := C14_face2_same_block false td.transform hv h4 td.this td.neighbor hlev hi ho (sizes d) 1 hs
      (index i j) (td.junk i j)
    refine clawHalf_of e (HalfAt d td.transform f g i j) ?_
    intro k hk
    obtain ⟨x, ex, hx⟩ := hch _ (isChild_bits k hk)
    rw [childNo_bits k hk] at ex
    refine ⟨x, ex, ?_⟩
    unfold HalfAt
    have key : ∀ a < 2, ∀ C : ℤ, halfCentre td.this f g a = td.this.lower a + ((C : ℚ) / 4) / 2 ^ td.this.level →
        2 * x a - 1 - sizes d a = 1 * (4 * index i j a - 3 + 2 * bitAt k a - C * sizes d a) := by
      intro a ha C hC
      have ha' : a ∈ axes false := by simp [axes]; omega
      have c := hc a ha'
      have h := hx a ha'
      have pos := hs.2 a ha'
      rw [← bits_at k a hk ha]
      refine half_axis (td.this.lower a) (td.neighbor.lower a) td.this.level (sizes d a) pos (index i j a) (x a) 1 C _ 0 ?_ ?_
      · unfold cellCentre childCentre at h
        rw [hlev, h]
        push_cast
        ring
      · rw [hC] at c
        unfold patchCentre at c
        rw [hlev, c]
        push_cast
        ring
    have e1 : eT td.transform = 1 := by unfold eT backwards; simp [h4]
    have e2 : eN td.transform f = 1 := by
      unfold eN otherFace
      rw [if_pos h4]
      split <;> · rw [if_neg]; omega
    have e3 : otherFace td.transform f / 2 = f / 2 := by
      unfold otherFace
      rw [if_pos h4]
      split <;> omega
    rw [e1, e2, e3]
    have hf' : f = 0 ∨ f = 1 ∨ f = 2 ∨ f = 3 := by omega
    have kt := key (1 - f / 2) (by omega) (1 + 2 * g) (by
      unfold halfCentre
      rw [if_neg (by omega)]
      push_cast
      ring)
    have kn := key (f / 2) (by omega) (if f % 2 = 1 then 5 else -1) (by
      unfold halfCentre
      rw [if_pos rfl]
      split <;> · push_cast; ring)
    have x0 : ax (x 0, x 1) (1 - f / 2) = x (1 - f / 2) ∧ ax (x 0, x 1) (f / 2) = x (f / 2) ∧
        ax (i, j) (1 - f / 2) = index i j (1 - f / 2) ∧ ax (i, j) (f / 2) = index i j (f / 2) ∧
        sizes d (1 - f / 2) = len d f := by
      rcases hf' with rfl | rfl | rfl | rfl <;> exact ⟨rfl, rfl, rfl, rfl, rfl⟩
    obtain ⟨x1, x2, x3, x4, x5⟩ := x0
    rw [x5] at kt
    rw [x1, x2, x3, x4]
    exact ⟨kt, kn⟩
  · rw [if_neg h4] at hpl
    obtain ⟨G, hm, h2, h8, hc⟩ := hpl
    obtain ⟨out, e, hch, _⟩ := C14_face2_children false td.transform G td.this td.neighbor hlev hi ho (sizes d) 1 hs hm
      (index i j) (td.junk i j)
    refine clawHalf_of e (HalfAt d td.transform f g i j) ?_
    intro k hk
    obtain ⟨x, ex, hx⟩ := hch _ (isChild_bits k hk)
    rw [childNo_bits k hk] at ex
    refine ⟨x, ex, ?_⟩
    unfold HalfAt
    obtain ⟨a1, a2⟩ := gluing_axes G
    have o1 : otherFace td.transform f / 2 = td.transform 5 := by
      unfold otherFace; rw [if_neg h4]; omega
    have o2 : otherFace td.transform f % 2 = td.transform 8 % 2 := by
      unfold otherFace; rw [if_neg h4]; omega
    have b0 : td.transform 0 = 1 - f / 2 := by omega
    have b3 : td.transform 3 = 1 - td.transform 5 := by omega
    rw [o1]
    obtain ⟨m0, _, m2⟩ := hm
    have x0 : ax (x 0, x 1) (1 - td.transform 5) = x (td.transform 3) ∧ ax (x 0, x 1) (td.transform 5) = x (td.transform 5) ∧
        ax (i, j) (1 - f / 2) = index i j (td.transform 0) ∧ ax (i, j) (f / 2) = index i j (td.transform 2) ∧
        sizes d (td.transform 0) = len d f := by
      rw [b3, ← h2, b0, ← h2]
      have : len d f = sizes d (1 - td.transform 2) := by
        rw [h2]
        unfold len
        have : f / 2 = 0 ∨ f / 2 = 1 := by omega
        rcases this with e | e <;> rw [e] <;> rfl
      rw [this]
      rcases a1 with ⟨_, e⟩ | ⟨_, e⟩ <;> rcases a2 with ⟨_, e'⟩ | ⟨_, e'⟩ <;> rw [e, e'] <;> exact ⟨rfl, rfl, rfl, rfl, rfl⟩
    obtain ⟨x1, x2, x3, x4, x5⟩ := x0
    rw [x1, x2, x3, x4, ← x5, ← b0, ← h2]
    have pos : ∀ a < 2, 1 ≤ sizes d a := by
      intro a ha
      have ha' : a ∈ axes false := by simp [axes]; omega
      exact hs.2 a ha'
    constructor
    · have h := hx.trans0
      have c := hc.trans0
      have hC : halfCentre td.this f g (td.transform 0) = td.this.lower (td.transform 0) + (((1 + 2 * g : ℤ) : ℚ) / 4) / 2 ^ td.this.level := by
        unfold halfCentre
        rw [if_neg (by omega)]
        push_cast
        ring
      rw [hC] at c
      rw [← bits_at k _ hk (by omega)]
      unfold cellCentre childCentre at h
      unfold patchCentre at c
      rw [← m0, ← hlev] at h
      rw [← hlev] at c
      unfold eT backwards
      have r6 := G.r0
      have : td.transform 6 = 0 ∨ td.transform 6 = 1 := by omega
      rcases this with e6 | e6
      · rw [if_pos e6] at h c
        rw [if_neg (by simp [e6])]
        refine half_axis (td.this.lower (td.transform 0)) (td.neighbor.lower (td.transform 3)) td.this.level (sizes d (td.transform 0)) (pos _ (by omega)) _ _ 1 _ _ 0 ?_ ?_
        · rw [h]; push_cast; ring
        · rw [c]; push_cast; ring
      · rw [if_neg (by omega)] at h c
        rw [if_pos (by simp [e6]; omega)]
        refine half_axis (td.this.lower (td.transform 0)) (td.neighbor.lower (td.transform 3)) td.this.level (sizes d (td.transform 0)) (pos _ (by omega)) _ _ (-1) _ _ 1 ?_ ?_
        · rw [h]; push_cast; ring
        · rw [c]; push_cast; ring
    · have h := hx.norm
      have c := hc.norm
      have hC : halfCentre td.this f g (td.transform 2) = td.this.lower (td.transform 2) +
          ((((if f % 2 = 1 then 5 else -1) : ℤ) : ℚ) / 4) / 2 ^ td.this.level := by
        unfold halfCentre
        rw [if_pos h2]
        split <;> · push_cast; ring
      rw [hC] at c
      rw [← bits_at k _ hk (by omega)]
      unfold cellCentre childCentre at h
      unfold patchCentre at c
      rw [← m2, ← hlev] at h
      rw [← hlev] at c
      unfold eN
      rw [o2, ← h8]
      have r8 := G.r2
      have h8' : td.transform 8 = 0 ∨ td.transform 8 = 1 ∨ td.transform 8 = 2 ∨ td.transform 8 = 3 := by omega
      rcases h8' with e8 | e8 | e8 | e8 <;>
        simp only [e8, inside, outside, show (0 : Nat) % 2 = 0 by rfl, show (1 : Nat) % 2 = 1 by rfl, show (2 : Nat) % 2 = 0 by rfl,
          show (3 : Nat) % 2 = 1 by rfl, show (0 : Nat) / 2 = 0 by rfl, show (1 : Nat) / 2 = 0 by rfl,
          show (2 : Nat) / 2 = 1 by rfl, show (3 : Nat) / 2 = 1 by rfl, show ¬ (0 : Nat) = 1 by omega, if_true, if_false,
          decide_true, decide_false, Bool.false_eq_true, show ¬ (1 : Nat) = 0 by omega, ← h8] at h c ⊢
      · refine half_axis (td.this.lower (td.transform 2)) (td.neighbor.lower (td.transform 5)) td.this.level (sizes d (td.transform 2)) (pos _ (by omega)) _ _ (-1) _ _ 0 ?_ ?_
        · rw [h]; push_cast; ring
        · rw [c]; push_cast; ring
      · refine half_axis (td.this.lower (td.transform 2)) (td.neighbor.lower (td.transform 5)) td.this.level (sizes d (td.transform 2)) (pos _ (by omega)) _ _ 1 _ _ 1 ?_ ?_
        · push_cast; linarith
        · push_cast; push_cast at c; linarith
      · refine half_axis (td.this.lower (td.transform 2)) (td.neighbor.lower (td.transform 5)) td.this.level (sizes d (td.transform 2)) (pos _ (by omega)) _ _ 1 _ _ (-1) ?_ ?_
        · rw [h]; push_cast; ring
        · rw [c]; push_cast; ring
      · refine half_axis (td.this.lower (td.transform 2)) (td.neighbor.lower (td.transform 5)) td.this.level (sizes d (td.transform 2)) (pos _ (by omega)) _ _ (-1) _ _ 2 ?_ ?_
        · push_cast; linarith
        · push_cast; push_cast at c; linarith

end Fclaw.Correction
