import Verif.Elliptic.Rhs
/-
What the routine for inhomogeneous boundary conditions subtracts from the right-hand side.
-/
set_option autoImplicit false
set_option linter.unusedSimpArgs false
set_option linter.unusedVariables false
namespace Fclaw.Elliptic

open Fort
open Transfer (divide)

variable {I : Info}

/-- The value for the ghost cell `c` along side `k`. -/
def bcValue (I : Info) (bctype : Nat → ℤ) (g : Nat → ℤ → ℚ) (k : Nat) (c : Cell) : ℚ :=
  lift (bctype k) (I.h k) (g k (place k c.1 c.2.1))

/-- Ghost cells along side `k`, first field. -/
def Layer1 (I : Info) (k : Nat) (c : Cell) : Prop := Layer I k c ∧ c.2.2 = 1

instance (I : Info) (k : Nat) (c : Cell) : Decidable (Layer I k c) := by
  unfold Layer; split <;> infer_instance

instance (I : Info) (k : Nat) (c : Cell) : Decidable (Layer1 I k c) := by unfold Layer1; infer_instance

/-- The array `q` when the sides in `on` have been filled. -/
def qOf (I : Info) (bctype : Nat → ℤ) (g : Nat → ℤ → ℚ) (on : Nat → Bool) (c : Cell) : ℚ :=
  ∑ k ∈ Finset.range 4, if on k = true ∧ Layer1 I k c then bcValue I bctype g k c else 0

theorem bcFill_eq (hm : 1 ≤ I.d.mbc) (hx : I.dx ≠ 0) (hy : I.dy ≠ 0) (hf : Field I 1) (bctype : Nat → ℤ) (g : Nat → ℤ → ℚ)
    (k : Nat) (hk : k < 4) (hb : bctype k = 1 ∨ bctype k = 2) (s : BcState) :
    ∃ s', bcFill I bctype g k s = some s' ∧ s'.rhs = s.rhs ∧
      (∀ c, Layer1 I k c → s'.q c = bcValue I bctype g k c) ∧ ∀ c, ¬ Layer1 I k c → s'.q c = s.q c := by
  unfold Field at hf
  have hh : (if k / 2 = 0 then I.dx else I.dy) = I.h k := rfl
  have hk0 : I.h k ≠ 0 := by unfold Info.h; split; exacts [hx, hy]
  obtain ⟨d, hd0, hd, e⟩ : ∃ d : ℚ, d ≠ 0 ∧ (∀ x, x / d = lift (bctype k) (I.h k) x) ∧ ∃ ab : ℚ × ℚ,
      (if bctype k = 1 then some (1, 0) else if bctype k = 2 then some (0, 1) else s.ab) = some ab ∧
      divide ab.2 (I.h k) = some (d - ab.1 / 2) := by
    rcases hb with hb | hb
    · refine ⟨1 / 2, by norm_num, fun x => ?_, (1, 0), ?_, ?_⟩
      · unfold lift; rw [if_pos hb]; ring
      · rw [if_pos hb]
      · rw [divide_eq _ _ hk0]; norm_num
    · refine ⟨1 / I.h k, by simpa using hk0, fun x => ?_, (0, 1), ?_, ?_⟩
      · unfold lift; rw [if_neg (by rw [hb]; decide)]; field_simp
      · rw [if_neg (by rw [hb]; decide), if_pos hb]
      · rw [divide_eq _ _ hk0]; norm_num
  obtain ⟨ab, e1, e2⟩ := e
  have hw : Writes (Layer1 I k) (bcValue I bctype g k)
      (fun q => if k = 0 then doLoop 1 I.d.my (fun j q => (divide (g k j) d).bind fun v => wr I.d q (0, j, 1) v) q
       else if k = 1 then
        doLoop 1 I.d.my (fun j q => (divide (g k j) d).bind fun v => wr I.d q (I.d.mx + 1, j, 1) v) q
       else if k = 2 then
        doLoop 1 I.d.mx (fun i q => (divide (g k i) d).bind fun v => wr I.d q (i, 0, 1) v) q
       else
        doLoop 1 I.d.mx (fun i q => (divide (g k i) d).bind fun v => wr I.d q (i, I.d.my + 1, 1) v) q) := by
    interval_cases k
    · simp only [if_true]
      refine Writes.congr (Writes.doLoop _ _ _ _ _ fun j j1 j2 => Writes.assign I.d (0, j, 1) _ _ ?_ ?_) ?_
      · rw [inBox_iff]; omega
      · rw [divide_eq _ _ hd0, hd]; rfl
      · rintro ⟨a, b, c⟩
        simp only [Layer1, Layer, Field, Prod.mk.injEq]
        constructor
        · rintro ⟨j, h⟩; omega
        · intro h; exact ⟨b, by omega⟩
    · simp only [if_true, one_ne_zero, if_false]
      refine Writes.congr (Writes.doLoop _ _ _ _ _ fun j j1 j2 => Writes.assign I.d (I.d.mx + 1, j, 1) _ _ ?_ ?_) ?_
      · rw [inBox_iff]; omega
      · rw [divide_eq _ _ hd0, hd]; rfl
      · rintro ⟨a, b, c⟩
        simp only [Layer1, Layer, Field, Prod.mk.injEq]
        constructor
        · rintro ⟨j, h⟩; omega
        · intro h; exact ⟨b, by omega⟩
    · simp only [if_true, OfNat.ofNat_ne_zero, OfNat.ofNat_ne_one, if_false]
      refine Writes.congr (Writes.doLoop _ _ _ _ _ fun j j1 j2 => Writes.assign I.d (j, 0, 1) _ _ ?_ ?_) ?_
      · rw [inBox_iff]; omega
      · rw [divide_eq _ _ hd0, hd]; rfl
      · rintro ⟨a, b, c⟩
        simp only [Layer1, Layer, Field, Prod.mk.injEq]
        constructor
        · rintro ⟨j, h⟩; omega
        · intro h; exact ⟨a, by omega⟩
    · simp only [OfNat.ofNat_ne_zero, OfNat.ofNat_ne_one, if_false, Nat.reduceEqDiff]
      refine Writes.congr (Writes.doLoop _ _ _ _ _ fun j j1 j2 => Writes.assign I.d (j, I.d.my + 1, 1) _ _ ?_ ?_) ?_
      · rw [inBox_iff]; omega
      · rw [divide_eq _ _ hd0, hd]; rfl
      · rintro ⟨a, b, c⟩
        simp only [Layer1, Layer, Field, Prod.mk.injEq]
        constructor
        · rintro ⟨j, h⟩; omega
        · intro h; exact ⟨a, by omega⟩
  obtain ⟨q', f1, f2, f3⟩ := hw s.q
  beta_reduce at f1
  refine ⟨{ s with q := q', ab := some ab }, ?_, rfl, f2, f3⟩
  unfold bcFill
  simp only [hh, e1, e2, Option.bind_some, add_sub_cancel, if_neg hd0]
  rw [f1]
  rfl

theorem sum_cells (X Y : Nat) (c : Cell) (v : ℤ → ℤ → ℚ) :
    (∑ i ∈ Finset.Icc 1 (X : ℤ), ∑ j ∈ Finset.Icc 1 (Y : ℤ), if c = (i, j, 1) then v i j else 0) =
    if ((1 ≤ c.1 ∧ c.1 ≤ X) ∧ 1 ≤ c.2.1 ∧ c.2.1 ≤ Y) ∧ c.2.2 = 1 then v c.1 c.2.1 else 0 := by
  obtain ⟨a, b, m⟩ := c
  have : ∀ i j : ℤ, (if ((a, b, m) : Cell) = (i, j, 1) then v i j else 0) =
      if i = a then (if j = b then (if m = 1 then v a b else 0) else 0) else 0 := by
    intro i j
    simp only [Prod.mk.injEq]
    by_cases h1 : i = a
    · by_cases h2 : j = b
      · simp [h1, h2]
      · simp [h1, h2, Ne.symm h2]
    · simp [h1, Ne.symm h1]
  simp only [this]
  have : ∀ i : ℤ, (∑ j ∈ Finset.Icc 1 (Y : ℤ), if i = a then (if j = b then (if m = 1 then v a b else 0) else 0) else 0) =
      if i = a then (if 1 ≤ b ∧ b ≤ Y then (if m = 1 then v a b else 0) else 0) else 0 := by
    intro i
    by_cases h1 : i = a
    · simp only [h1, if_true, Finset.sum_ite_eq', Finset.mem_Icc]
    · simp [h1]
  simp only [this, Finset.sum_ite_eq', Finset.mem_Icc]
  by_cases h1 : 1 ≤ a ∧ a ≤ X <;> by_cases h2 : 1 ≤ b ∧ b ≤ Y <;> by_cases h3 : m = 1 <;> simp [h1, h2, h3]

/-- The five-point formula. -/
def lap (I : Info) (q : Grid ℚ) (i j : ℤ) : ℚ :=
  ∑ k ∈ Finset.range 4, (q ((next k i j).1, (next k i j).2, 1) - q (i, j, 1)) / I.h k ^ 2

theorem bcSubtract_adds (hm : 1 ≤ I.d.mbc) (hx : I.dx ≠ 0) (hy : I.dy ≠ 0) (hf : Field I 1) (q : Grid ℚ) :
    AddsTo (fun c => if Inside I c.1 c.2.1 ∧ c.2.2 = 1 then -lap I q c.1 c.2.1 else 0) (bcSubtract I q) := by
  refine AddsTo.congr (AddsTo.doLoop fun i i1 i2 => AddsTo.doLoop fun j j1 j2 =>
    AddsTo.add (I := I) (σ := -lap I q i j) (c0 := (i, j, 1)) ?_ _ ?_) ?_
  · exact (box_of hm (i := i) (j := j) ⟨⟨i1, i2⟩, j1, j2⟩ hf).1
  · intro rhs
    obtain ⟨b1, b2, b3, b4, b5⟩ := box_of hm (i := i) (j := j) ⟨⟨i1, i2⟩, j1, j2⟩ hf
    simp only [rd_eq _ _ b1, rd_eq _ _ b2, rd_eq _ _ b3, rd_eq _ _ b4, rd_eq _ _ b5, Option.bind_some,
      divide_eq _ _ (mul_ne_zero hx hx), divide_eq _ _ (mul_ne_zero hy hy)]
    congr 1
    unfold lap
    simp only [Finset.sum_range_succ, Finset.sum_range_zero, next]
    have h0 : I.h 0 = I.dx := rfl
    have h1 : I.h 1 = I.dx := rfl
    have h2 : I.h 2 = I.dy := rfl
    have h3 : I.h 3 = I.dy := rfl
    rw [h0, h1, h2, h3]
    ring
  · intro c
    rw [sum_cells I.d.mx I.d.my c fun i j => -lap I q i j]
    rfl

theorem lap_qOf (hc : Cells I) (hf : Field I 1) (bctype : Nat → ℤ) (g : Nat → ℤ → ℚ) (on : Nat → Bool) (i j : ℤ)
    (h : Inside I i j) : lap I (qOf I bctype g on) i j =
      ∑ k ∈ Finset.range 4, if on k = true then share I bctype g k i j else 0 := by
  have hbody : ∀ i j : ℤ, Inside I i j → qOf I bctype g on (i, j, 1) = 0 := by
    intro i j h
    refine Finset.sum_eq_zero fun k hk => ?_
    rw [if_neg]
    rintro ⟨-, hl, -⟩
    exact body_not_layer (Finset.mem_range.1 hk) (c := (i, j, 1)) ⟨h, hf⟩ hl
  refine Finset.sum_congr rfl fun k hk => ?_
  rw [Finset.mem_range] at hk
  rw [hbody i j h, sub_zero]
  by_cases ha : AtSide I k i j
  · obtain ⟨hl, -⟩ := next_layer hk h hf ha
    have : qOf I bctype g on ((next k i j).1, (next k i j).2, 1) =
        if on k = true then lift (bctype k) (I.h k) (g k (place k i j)) else 0 := by
      unfold qOf
      rw [Finset.sum_eq_single k]
      · have hp : bcValue I bctype g k ((next k i j).1, (next k i j).2, 1) = lift (bctype k) (I.h k) (g k (place k i j)) := by
          unfold bcValue
          congr 1
          interval_cases k <;> rfl
        rw [hp]
        by_cases ho : on k = true
        · rw [if_pos ⟨ho, hl, rfl⟩, if_pos ho]
        · rw [if_neg (fun h => ho h.1), if_neg ho]
      · intro l hl4 hne
        rw [if_neg]
        rintro ⟨-, hll, -⟩
        exact hne (layer_unique hc l k _ (Finset.mem_range.1 hl4) hk hll hl)
      · intro h; exact absurd (Finset.mem_range.2 hk) h
    rw [this]
    unfold share
    rw [if_pos ha]
    by_cases ho : on k = true
    · rw [if_pos ho, if_pos ho]
    · rw [if_neg ho, if_neg ho, zero_div]
  · unfold share
    rw [if_neg ha, ite_self]
    have : Inside I (next k i j).1 (next k i j).2 := by
      unfold Inside at h ⊢
      interval_cases k <;> simp only [AtSide, next] at ha ⊢ <;> omega
    rw [hbody _ _ this, zero_div]

/-- What is subtracted when the sides in `on` have been filled. -/
def portion (I : Info) (bctype : Nat → ℤ) (g : Nat → ℤ → ℚ) (on : Nat → Bool) (c : Cell) : ℚ :=
  if Inside I c.1 c.2.1 ∧ c.2.2 = 1 then
    ∑ k ∈ Finset.range 4, (if on k = true then share I bctype g k c.1 c.2.1 else 0) else 0

/-- The sides before `n` at the boundary. -/
def before (bdry : Nat → Bool) (n : Nat) (k : Nat) : Bool := decide (k < n) && bdry k

theorem bc_step (hm : 1 ≤ I.d.mbc) (hx : I.dx ≠ 0) (hy : I.dy ≠ 0) (hc : Cells I) (hf : Field I 1) (bdry : Nat → Bool)
    (bctype : Nat → ℤ) (g : Nat → ℤ → ℚ) (hb : ∀ k < 4, bdry k = true → bctype k = 1 ∨ bctype k = 2)
    (k : Nat) (hk : k < 4) (s : BcState) (hq : s.q = qOf I bctype g (before bdry k)) :
    ∃ s', (if bdry k then (bcFill I bctype g k s).bind fun s => (bcSubtract I s.q s.rhs).bind fun rhs => some { s with rhs := rhs }
      else some s) = some s' ∧ s'.q = qOf I bctype g (before bdry (k + 1)) ∧
      s'.rhs = fun c => s.rhs c - if bdry k then portion I bctype g (before bdry (k + 1)) c else 0 := by
  cases hbk : bdry k with
  | false =>
    refine ⟨s, by simp, ?_, by simp⟩
    rw [hq]
    congr 1
    funext l
    unfold before
    by_cases hl : l = k
    · subst hl; simp [hbk]
    · have : l < k ↔ l < k + 1 := by omega
      simp only [this]
  | true =>
    obtain ⟨s1, e1, r1, a1, b1⟩ := bcFill_eq hm hx hy hf bctype g k hk (hb k hk hbk) s
    have hq1 : s1.q = qOf I bctype g (before bdry (k + 1)) := by
      funext c
      by_cases hl : Layer1 I k c
      · rw [a1 c hl]
        unfold qOf
        rw [Finset.sum_eq_single k]
        · rw [if_pos ⟨by simp [before, hbk], hl⟩]
        · intro l hl4 hne
          rw [if_neg]
          rintro ⟨-, hll, -⟩
          exact hne (layer_unique hc l k _ (Finset.mem_range.1 hl4) hk hll hl.1)
        · intro h; exact absurd (Finset.mem_range.2 hk) h
      · rw [b1 c hl, hq]
        refine Finset.sum_congr rfl fun l hl4 => ?_
        by_cases hlk : l = k
        · subst hlk
          rw [if_neg (fun h => hl h.2), if_neg (fun h => hl h.2)]
        · have : before bdry k l = before bdry (k + 1) l := by
            unfold before
            have : l < k ↔ l < k + 1 := by omega
            simp only [this]
          rw [this]
    refine ⟨{ s1 with rhs := fun c => s1.rhs c + if Inside I c.1 c.2.1 ∧ c.2.2 = 1 then -lap I s1.q c.1 c.2.1 else 0 },
      ?_, hq1, ?_⟩
    · simp only [if_true, e1, Option.bind_some, bcSubtract_adds hm hx hy hf s1.q s1.rhs]
    · funext c
      show s1.rhs c + _ = _
      rw [r1, sub_eq_add_neg]
      congr 1
      unfold portion
      simp only [if_true]
      by_cases h : Inside I c.1 c.2.1 ∧ c.2.2 = 1
      · rw [if_pos h, if_pos h, hq1, lap_qOf hc hf _ _ _ _ _ h.1]
      · rw [if_neg h, if_neg h, neg_zero]

theorem applyBc_eq (hm : 1 ≤ I.d.mbc) (hx : I.dx ≠ 0) (hy : I.dy ≠ 0) (hc : Cells I) (hf : Field I 1)
    (bctype : Nat → ℤ) (g : Nat → ℤ → ℚ) (hb : ∀ k < 4, I.nbr k = false → bctype k = 1 ∨ bctype k = 2) (rhs : Grid ℚ) :
    applyBc I (fun k => !I.nbr k) bctype g rhs = some fun c => rhs c - if Inside I c.1 c.2.1 ∧ c.2.2 = 1 then
      ∑ k ∈ Finset.range 4, (if I.nbr k = false then times I k * share I bctype g k c.1 c.2.1 else 0) else 0 := by
  have hb' : ∀ k < 4, (fun k => !I.nbr k) k = true → bctype k = 1 ∨ bctype k = 2 := fun k hk h => hb k hk (by simpa using h)
  have h0 : (fun _ => 0 : Grid ℚ) = qOf I bctype g (before (fun k => !I.nbr k) 0) := by
    funext c
    symm
    refine Finset.sum_eq_zero fun k _ => ?_
    rw [if_neg]
    rintro ⟨h, -⟩
    simp [before] at h
  obtain ⟨s1, e1, q1, r1⟩ := bc_step hm hx hy hc hf _ bctype g hb' 0 (by omega) ⟨fun _ => 0, rhs, none⟩ h0
  obtain ⟨s2, e2, q2, r2⟩ := bc_step hm hx hy hc hf _ bctype g hb' 1 (by omega) s1 q1
  obtain ⟨s3, e3, q3, r3⟩ := bc_step hm hx hy hc hf _ bctype g hb' 2 (by omega) s2 q2
  obtain ⟨s4, e4, q4, r4⟩ := bc_step hm hx hy hc hf _ bctype g hb' 3 (by omega) s3 q3
  unfold applyBc
  simp only [Fort.loop]
  rw [e1, Option.bind_some, e2, Option.bind_some, e3, Option.bind_some, e4, Option.bind_some, Option.bind_some]
  congr 1
  rw [r4, r3, r2, r1]
  funext c
  dsimp only
  by_cases h : Inside I c.1 c.2.1 ∧ c.2.2 = 1
  · simp only [portion, if_pos h, Finset.sum_range_succ, Finset.sum_range_zero, times, before]
    rcases Bool.eq_false_or_eq_true (I.nbr 0) with n0 | n0 <;> rcases Bool.eq_false_or_eq_true (I.nbr 1) with n1 | n1 <;>
      rcases Bool.eq_false_or_eq_true (I.nbr 2) with n2 | n2 <;> rcases Bool.eq_false_or_eq_true (I.nbr 3) with n3 | n3 <;>
      simp [n0, n1, n2, n3] <;> try ring
  · simp [portion, if_neg h]

end Fclaw.Elliptic
