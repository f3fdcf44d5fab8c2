import Verif.Wave3.Wrap
import Verif.Wave3.Theory
import Mathlib.Tactic.FieldSimp
import Mathlib.Tactic.NormNum
import Mathlib.Algebra.BigOperators.Group.Finset.Sigma
import Mathlib.Algebra.BigOperators.Ring.Finset
/-
C88: what one step of the solver in three dimensions computes.
-/
set_option autoImplicit false
set_option linter.unusedSimpArgs false
set_option linter.unusedVariables false
namespace Fclaw.Wave3

open Wave (Vec comps atCorner cornerNo)

variable {z : Shape} {o : Method} {dx dy dz : ℚ} {aux : QArr}

/-- **C88.** A step of a patch succeeds; the work array is exactly as large as needed. Afterwards every cell of the
patch has the value that the formula gives from the values before, other cells, except for those at corners where three
blocks meet, have the values that they had, and the largest Courant number is returned. -/
theorem C88_step (R : Solver) (count : ℤ → ℤ) (dt : ℚ) (q : QArr) (h : Ready z o dx dy dz aux) :
    ∃ q' c, step3Wrap z o R count dx dy dz dt q aux = some (q', c) ∧
      (∀ i j k m, inside z i j k m →
        q' (i, j, k, m) = newValue (scheme z o R dx dy dz dt true) (fieldOf z o count q aux) i j k m) ∧
      (∀ i j k m, ¬inside z i j k m → ¬(atCorner z.plane i j ∧ count (cornerNo z.plane i j) = 3) →
        q' (i, j, k, m) = q (i, j, k, m)) ∧
      Wave.IsMax (patchCourant z (scheme z o R dx dy dz dt true) (fieldOf z o count q aux)) c := by
  obtain ⟨q', c, h1, h2, h3, h4⟩ := step3Wrap_spec h R count dt q
  refine ⟨q', c, h1, h2, fun i j k m hn hc => ?_, h4⟩
  have f1 := fixCorners_spec z h.fitx h.fity false count q q (fun _ _ _ _ _ => rfl) fun _ _ _ _ _ => rfl
  have f2 := fixCorners_spec z h.fitx h.fity true count (fixCorners z 0 count q) q
    (fun i j k m hc => f1.2 i j k m fun h => hc h.1) fun i j k m hc => f1.2 i j k m fun h => hc h.2
  rw [h3 i j k m hn]
  exact f2.2 i j k m hc

theorem step_value {R : Solver} {count : ℤ → ℤ} {dt : ℚ} {q q' : QArr} {c : ℚ} (h : Ready z o dx dy dz aux)
    (hs : step3Wrap z o R count dx dy dz dt q aux = some (q', c)) {i j k m : ℤ} (hin : inside z i j k m) :
    q' (i, j, k, m) = newValue (scheme z o R dx dy dz dt true) (fieldOf z o count q aux) i j k m := by
  obtain ⟨q2, c2, h1, h2, _⟩ := C88_step R count dt q h
  rw [hs] at h1
  injection h1 with h1
  obtain ⟨rfl, rfl⟩ := Prod.mk.inj h1
  exact h2 i j k m hin

theorem step_courant {R : Solver} {count : ℤ → ℤ} {dt : ℚ} {q q' : QArr} {c : ℚ} (h : Ready z o dx dy dz aux)
    (hs : step3Wrap z o R count dx dy dz dt q aux = some (q', c)) :
    Wave.IsMax (patchCourant z (scheme z o R dx dy dz dt true) (fieldOf z o count q aux)) c := by
  obtain ⟨q2, c2, h1, _, _, h4⟩ := C88_step R count dt q h
  rw [hs] at h1
  injection h1 with h1
  obtain ⟨rfl, rfl⟩ := Prod.mk.inj h1
  exact h4

/-- When the step is the one of the method: waves are not propagated twice, or correction waves are not, and all cells have
the same capacity. -/
def Plain (z : Shape) (o : Method) (count : ℤ → ℤ) (q aux : QArr) : Prop :=
  (o.trans < 10 ∨ o.trans % 10 = 0) ∨
    (o.trans % 10 ≠ 2 ∧ ∀ i j k i' j' k', (fieldOf z o count q aux).cap i j k = (fieldOf z o count q aux).cap i' j' k')

theorem plain_double {R : Solver} {count : ℤ → ℤ} {dt : ℚ} {q : QArr} (hp : Plain z o count q aux) :
    (scheme z o R dx dy dz dt true).double ≤ 0 ∨ ((scheme z o R dx dy dz dt true).double ≠ 2 ∧
      ∀ i j k i' j' k', (fieldOf z o count q aux).cap i j k = (fieldOf z o count q aux).cap i' j' k') := by
  rcases hp with hp | ⟨hp, hc⟩
  · left
    show (if o.trans < 10 then 0 else o.trans % 10) ≤ 0
    split <;> omega
  · right
    refine ⟨?_, hc⟩
    show (if o.trans < 10 then 0 else o.trans % 10) ≠ 2
    split <;> omega

/-- **C88.** The new values are those of the wave propagation method (all directions treated alike, all capacities those
of the cell that a wave enters), if waves are not propagated twice, or correction waves are not, and the cells have the
same capacity. Missing: the default order "2 2 2", and capacity functions together with double propagation; there it does
not hold, see below. -/
theorem C88_method_partial (R : Solver) (count : ℤ → ℤ) (dt : ℚ) (q : QArr) (h : Ready z o dx dy dz aux)
    (hp : Plain z o count q aux) : ∃ q' c, step3Wrap z o R count dx dy dz dt q aux = some (q', c) ∧
      ∀ i j k m, inside z i j k m →
        q' (i, j, k, m) = newValue (scheme z o R dx dy dz dt false) (fieldOf z o count q aux) i j k m := by
  obtain ⟨q', c, h1, h2, _⟩ := C88_step R count dt q h
  refine ⟨q', c, h1, fun i j k m hin => ?_⟩
  rw [h2 i j k m hin, ← newValue_proper _ _ (plain_double hp)]
  rfl

/-- **C88.** The new value in a cell depends on the data in the five by five by five cells around it only: with the
same data there, patches of any size and with any neighbours get the same value. -/
theorem C88_local (R : Solver) {z' : Shape} (hz : z'.meqn = z.meqn ∧ z'.mwaves = z.mwaves ∧ z'.maux = z.maux) (count count' : ℤ → ℤ) (dt : ℚ)
    {aux' q q' r r' : QArr} {c c' : ℚ} (h : Ready z o dx dy dz aux) (h' : Ready z' o dx dy dz aux')
    (hs : step3Wrap z o R count dx dy dz dt q aux = some (r, c)) (hs' : step3Wrap z' o R count' dx dy dz dt q' aux' = some (r', c'))
    {i j k m : ℤ} (hin : inside z i j k m) (hin' : inside z' i j k m)
    (ha : Agree (nearby i j k) (fieldOf z o count q aux) (fieldOf z' o count' q' aux')) :
    r' (i, j, k, m) = r (i, j, k, m) := by
  rw [step_value h hs hin, step_value h' hs' hin', newValue_congr _ _ _ _ _ ha]
  have : scheme z' o R dx dy dz dt true = scheme z o R dx dy dz dt true := by
    unfold scheme; rw [hz.1, hz.2.1, hz.2.2]
  rw [this]

/-- **C88.** Where all values are the same, nothing happens. -/
theorem C88_constant (R : Solver) (count : ℤ → ℤ) (dt : ℚ) {q q' : QArr} {c : ℚ} (h : Ready z o dx dy dz aux)
    (hs : step3Wrap z o R count dx dy dz dt q aux = some (q', c)) (u : Vec) (hR : Quiet R (comps z.meqn u))
    (hq : ∀ i j k m, inArray z i j k → 1 ≤ m → m ≤ (z.meqn : ℤ) → q (i, j, k, m) = u m)
    {i j k m : ℤ} (hin : inside z i j k m) : q' (i, j, k, m) = u m := by
  have mb := h.mbc
  have hfx := h.fitx
  have hfy := h.fity
  rw [step_value h hs hin, newValue_const (S := scheme z o R dx dy dz dt true) hR i j k m ?_]
  · exact if_pos hin.2.2.2
  · intro d i' j' k' hn
    funext m'
    show comps z.meqn (fun m => _) m' = comps z.meqn u m'
    unfold comps
    by_cases hm' : 1 ≤ m' ∧ m' ≤ (z.meqn : ℤ)
    swap
    · rw [if_neg hm', if_neg hm']
    rw [if_pos hm', if_pos hm']
    refine hq _ _ _ _ ?_ hm'.1 hm'.2
    have hg : z.plane.inGrid i' j' := by
      simp only [nearby, inside, Wave.Shape.inGrid, Shape.plane] at hn hin ⊢; omega
    have hk' : 1 - (z.mbc : ℤ) ≤ k' ∧ k' ≤ z.mz + z.mbc := by
      simp only [nearby, inside] at hn hin; omega
    have hg' : ∀ y, z.plane.inGrid (Wave.sweepCell z.plane i' j' count (Wave.ixyOf y)).1 (Wave.sweepCell z.plane i' j' count (Wave.ixyOf y)).2 := by
      intro y
      unfold Wave.sweepCell
      by_cases hc : atCorner z.plane i' j' ∧ count (cornerNo z.plane i' j') = 3
      · rw [if_pos hc]; exact (Wave.turned_inside (z := z.plane) hfx hfy (y := y) hg hc.1).1
      · rw [if_neg hc]; exact hg
    unfold sweepCell
    by_cases hd : d = .x
    · rw [if_pos hd]; exact ⟨(hg' false).1, (hg' false).2, hk'⟩
    · rw [if_neg hd]; exact ⟨(hg' true).1, (hg' true).2, hk'⟩

theorem tele (G : ℤ → ℚ) (n : Nat) : ∑ i ∈ Finset.Icc 1 (n : ℤ), (G (i + 1) - G i) = G (n + 1) - G 1 := by
  induction n with
  | zero => simp
  | succ n ih =>
    have e : Finset.Icc (1 : ℤ) ((n + 1 : ℕ) : ℤ) = insert ((n : ℤ) + 1) (Finset.Icc 1 (n : ℤ)) := by
      ext x; simp only [Finset.mem_Icc, Finset.mem_insert]; omega
    rw [e, Finset.sum_insert (by simp), ih]
    push_cast
    ring

/-- The mass of component `m` in the patch. -/
def mass (z : Shape) (cap : ℤ → ℤ → ℤ → ℚ) (vol : ℚ) (q : QArr) (m : ℤ) : ℚ :=
  ∑ i ∈ Finset.Icc 1 (z.mx : ℤ), ∑ j ∈ Finset.Icc 1 (z.my : ℤ), ∑ k ∈ Finset.Icc 1 (z.mz : ℤ), cap i j k * vol * q (i, j, k, m)

/-- The flux through the boundary of the patch. -/
def throughBoundary (z : Shape) (dx dy dz : ℚ) (N : Dir → ℤ → ℤ → ℤ → ℚ) : ℚ :=
  dy * dz * ∑ j ∈ Finset.Icc 1 (z.my : ℤ), ∑ k ∈ Finset.Icc 1 (z.mz : ℤ), (N .x (z.mx + 1) j k - N .x 1 j k) +
  dx * dz * ∑ i ∈ Finset.Icc 1 (z.mx : ℤ), ∑ k ∈ Finset.Icc 1 (z.mz : ℤ), (N .y (z.my + 1) k i - N .y 1 k i) +
  dx * dy * ∑ i ∈ Finset.Icc 1 (z.mx : ℤ), ∑ j ∈ Finset.Icc 1 (z.my : ℤ), (N .z (z.mz + 1) i j - N .z 1 i j)

/-- **C88.** With a conservative Riemann solver the mass of a patch changes by the fluxes through its boundary only,
whatever the options, the limiters and the transverse solvers; it is conserved also where the method is not followed. -/
theorem C88_conservation (R : Solver) (count : ℤ → ℤ) (dt : ℚ) {q q' : QArr} {c : ℚ} (h : Ready z o dx dy dz aux)
    (hs : step3Wrap z o R count dx dy dz dt q aux = some (q', c)) (f : Dir → Vec → Vec) (hR : ConservativeSolver R z.meqn f)
    {m : ℤ} (hm : 1 ≤ m ∧ m ≤ (z.meqn : ℤ)) :
    mass z (fieldOf z o count q aux).cap (dx * dy * dz) q' m = mass z (fieldOf z o count q aux).cap (dx * dy * dz) q m -
      dt * throughBoundary z dx dy dz fun d a b c =>
        faceFlux (scheme z o R dx dy dz dt true) (fieldOf z o count q aux) f d a b c m := by
  have mb := h.mbc
  have hdx := h.dx
  have hdy := h.dy
  have hdz := h.dz
  set F := fieldOf z o count q aux with hF
  set S := scheme z o R dx dy dz dt true with hS
  set N : Dir → ℤ → ℤ → ℤ → ℚ := fun d a b c => faceFlux S F f d a b c m with hN
  have cell : ∀ i ∈ Finset.Icc 1 (z.mx : ℤ), ∀ j ∈ Finset.Icc 1 (z.my : ℤ), ∀ k ∈ Finset.Icc 1 (z.mz : ℤ),
      F.cap i j k * (dx * dy * dz) * q' (i, j, k, m) = F.cap i j k * (dx * dy * dz) * q (i, j, k, m) -
        (dt * (dy * dz) * (N .x (i + 1) j k - N .x i j k) + dt * (dx * dz) * (N .y (j + 1) k i - N .y j k i) +
          dt * (dx * dy) * (N .z (k + 1) i j - N .z k i j)) := by
    intro i hi j hj k hk
    rw [Finset.mem_Icc] at hi hj hk
    have hc : F.cap i j k ≠ 0 := by
      show (if o.mcapa = 0 then (1 : ℚ) else aux (i, j, k, o.mcapa)) ≠ 0
      split
      · exact one_ne_zero
      · rename_i h0
        exact h.capa0 h0 i j k (by unfold inArray; omega)
    have hq : F.Q .x i j k m = q (i, j, k, m) := by
      have hnc : ¬(atCorner z.plane i j ∧ count (cornerNo z.plane i j) = 3) := by simp only [atCorner, Shape.plane]; omega
      show comps z.meqn (fun m => q ((sweepCell z count .x i j).1, (sweepCell z count .x i j).2, k, m)) m = _
      have e : sweepCell z count .x i j = (i, j) := by unfold sweepCell Wave.sweepCell; rw [if_neg hnc]
      rw [e]
      exact if_pos hm
    rw [step_value h hs ⟨hi, hj, hk, hm⟩]
    unfold newValue
    rw [← hF, ← hS, hq, outflow_flux (S := S) (f := f) hR i j k m hm]
    show F.cap i j k * (dx * dy * dz) * (q (i, j, k, m) - (dt / dx * (N .x (i + 1) j k - N .x i j k) +
      dt / dy * (N .y (j + 1) k i - N .y j k i) + dt / dz * (N .z (k + 1) i j - N .z k i j)) / F.cap i j k) = _
    field_simp
  unfold mass
  rw [Finset.sum_congr rfl fun i hi => Finset.sum_congr rfl fun j hj => Finset.sum_congr rfl fun k hk => cell i hi j hj k hk]
  simp only [Finset.sum_sub_distrib, Finset.sum_add_distrib]
  have t1 : ∑ i ∈ Finset.Icc 1 (z.mx : ℤ), ∑ j ∈ Finset.Icc 1 (z.my : ℤ), ∑ k ∈ Finset.Icc 1 (z.mz : ℤ),
        dt * (dy * dz) * (N .x (i + 1) j k - N .x i j k) =
      dt * (dy * dz) * ∑ j ∈ Finset.Icc 1 (z.my : ℤ), ∑ k ∈ Finset.Icc 1 (z.mz : ℤ), (N .x (z.mx + 1) j k - N .x 1 j k) := by
    rw [Finset.sum_comm, Finset.mul_sum]
    refine Finset.sum_congr rfl fun j _ => ?_
    rw [Finset.sum_comm, Finset.mul_sum]
    refine Finset.sum_congr rfl fun k _ => ?_
    rw [← Finset.mul_sum, tele (fun i => N .x i j k) z.mx]
  have t2 : ∑ i ∈ Finset.Icc 1 (z.mx : ℤ), ∑ j ∈ Finset.Icc 1 (z.my : ℤ), ∑ k ∈ Finset.Icc 1 (z.mz : ℤ),
        dt * (dx * dz) * (N .y (j + 1) k i - N .y j k i) =
      dt * (dx * dz) * ∑ i ∈ Finset.Icc 1 (z.mx : ℤ), ∑ k ∈ Finset.Icc 1 (z.mz : ℤ), (N .y (z.my + 1) k i - N .y 1 k i) := by
    rw [Finset.mul_sum]
    refine Finset.sum_congr rfl fun i _ => ?_
    rw [Finset.sum_comm, Finset.mul_sum]
    refine Finset.sum_congr rfl fun k _ => ?_
    rw [← Finset.mul_sum, tele (fun j => N .y j k i) z.my]
  have t3 : ∑ i ∈ Finset.Icc 1 (z.mx : ℤ), ∑ j ∈ Finset.Icc 1 (z.my : ℤ), ∑ k ∈ Finset.Icc 1 (z.mz : ℤ),
        dt * (dx * dy) * (N .z (k + 1) i j - N .z k i j) =
      dt * (dx * dy) * ∑ i ∈ Finset.Icc 1 (z.mx : ℤ), ∑ j ∈ Finset.Icc 1 (z.my : ℤ), (N .z (z.mz + 1) i j - N .z 1 i j) := by
    rw [Finset.mul_sum]
    refine Finset.sum_congr rfl fun i _ => ?_
    rw [Finset.mul_sum]
    refine Finset.sum_congr rfl fun j _ => ?_
    rw [← Finset.mul_sum, tele (fun k => N .z k i j) z.mz]
  rw [t1, t2, t3]
  unfold throughBoundary
  ring

/-! ### The names of the axes -/

/-- A patch whose axes x, y, z are y, z, x of the other. -/
def Shape.rot (z : Shape) : Shape := { z with mx := z.my, my := z.mz, mz := z.mx }
def QArr.rot (q : QArr) : QArr := fun l => q (l.2.2.1, l.1, l.2.1, l.2.2.2)

/-- A patch whose axes x, y, z are x, z, y of the other. -/
def Shape.swap (z : Shape) : Shape := { z with my := z.mz, mz := z.my }
def QArr.swap (q : QArr) : QArr := fun l => q (l.1, l.2.2.1, l.2.1, l.2.2.2)

/-- No corner where three blocks meet. -/
def Regular (count : ℤ → ℤ) : Prop := ∀ n, count n ≠ 3

theorem regular_cell {count : ℤ → ℤ} (h : Regular count) (d : Dir) (i j : ℤ) : sweepCell z count d i j = (i, j) := by
  unfold sweepCell Wave.sweepCell
  rw [if_neg fun hh => h _ hh.2]

theorem fieldOf_rot {count count' : ℤ → ℤ} (h : Regular count) (h' : Regular count') (q : QArr) :
    fieldOf z.rot o count' q.rot aux.rot = (fieldOf z o count q aux).rot := by
  unfold fieldOf Field.rot
  simp only [regular_cell h, regular_cell h']
  rfl

theorem fieldOf_swap {count count' : ℤ → ℤ} (h : Regular count) (h' : Regular count') (q : QArr) :
    fieldOf z.swap o count' q.swap aux.swap = (fieldOf z o count q aux).swap := by
  unfold fieldOf Field.swap
  simp only [regular_cell h, regular_cell h']
  rfl

theorem scheme_rot (R : Solver) (dt : ℚ) (b : Bool) : scheme z.rot o R.rot dy dz dx dt b = (scheme z o R dx dy dz dt b).rot := by
  unfold scheme Scheme.rot
  congr 1
  funext d
  cases d <;> rfl

theorem scheme_swap (R : Solver) (dt : ℚ) (b : Bool) : scheme z.swap o R.swap dx dz dy dt b = (scheme z o R dx dy dz dt b).swap := by
  unfold scheme Scheme.swap
  congr 1
  funext d
  cases d <;> rfl

theorem rowCourant_rot (S : Scheme) (F : Field) (d : Dir) (n b c : ℤ) (x : ℚ) :
    rowCourant S.rot F.rot d n b c x ↔ rowCourant S F d.next n b c x := by
  unfold rowCourant
  simp only [lam_rot, speed_rot]
  rfl

theorem rowCourant_swap (S : Scheme) (F : Field) (d : Dir) (n b c : ℤ) (x : ℚ) :
    rowCourant S.swap F.swap d n b c x ↔ rowCourant S F d.swap n c b x := by
  unfold rowCourant
  simp only [lam_swap0, speed_swap]
  rfl

theorem isMax_unique {P P' : ℚ → Prop} (h : ∀ x, P x ↔ P' x) {c c' : ℚ} (hc : Wave.IsMax P c) (hc' : Wave.IsMax P' c') : c' = c := by
  obtain ⟨a1, a2, a3⟩ := hc
  obtain ⟨b1, b2, b3⟩ := hc'
  refine le_antisymm ?_ ?_
  · rcases b3 with b3 | b3
    · rw [b3]; exact a1
    · exact a2 _ ((h _).2 b3)
  · rcases a3 with a3 | a3
    · rw [a3]; exact b1
    · exact b2 _ ((h _).1 a3)

/-- **C88.** The axes can be renamed cyclically: the same data with axes y, z, x in place of x, y, z, and the solver
for these, give the same new values and the same Courant number. -/
theorem C88_rotation (R : Solver) (count count' : ℤ → ℤ) (hc : Regular count) (hc' : Regular count') (dt : ℚ) {q r r' : QArr} {c c' : ℚ}
    (h : Ready z o dx dy dz aux) (h' : Ready z.rot o dy dz dx aux.rot)
    (hs : step3Wrap z o R count dx dy dz dt q aux = some (r, c))
    (hs' : step3Wrap z.rot o R.rot count' dy dz dx dt q.rot aux.rot = some (r', c')) :
    (∀ i j k m, inside z i j k m → r' (j, k, i, m) = r (i, j, k, m)) ∧ c' = c := by
  constructor
  · intro i j k m hin
    have hin' : inside z.rot j k i m := ⟨hin.2.1, hin.2.2.1, hin.1, hin.2.2.2⟩
    rw [step_value h hs hin, step_value h' hs' hin', fieldOf_rot hc hc', scheme_rot]
    refine newValue_rot _ _ _ _ _ _ ?_
    unfold fieldOf
    simp only [regular_cell hc]
  · refine isMax_unique (fun x => ?_) (step_courant h hs) (step_courant h' hs')
    rw [fieldOf_rot hc hc', scheme_rot]
    unfold patchCourant
    simp only [rowCourant_rot]
    constructor
    · rintro (a | a | a)
      · exact Or.inr (Or.inr a)
      · exact Or.inl a
      · exact Or.inr (Or.inl a)
    · rintro (a | a | a)
      · exact Or.inr (Or.inl a)
      · exact Or.inr (Or.inr a)
      · exact Or.inl a

/-- **C88.** y and z can be exchanged, where the step is the one of the method. Missing: the default order "2 2 2", and
capacity functions together with double propagation; with these it does not hold, see below. -/
theorem C88_exchange_partial (R : Solver) (count count' : ℤ → ℤ) (hc : Regular count) (hc' : Regular count') (dt : ℚ) {q r r' : QArr} {c c' : ℚ}
    (h : Ready z o dx dy dz aux) (h' : Ready z.swap o dx dz dy aux.swap) (hp : Plain z o count q aux)
    (hs : step3Wrap z o R count dx dy dz dt q aux = some (r, c))
    (hs' : step3Wrap z.swap o R.swap count' dx dz dy dt q.swap aux.swap = some (r', c')) :
    (∀ i j k m, inside z i j k m → r' (i, k, j, m) = r (i, j, k, m)) ∧ c' = c := by
  constructor
  · intro i j k m hin
    have hin' : inside z.swap i k j m := ⟨hin.1, hin.2.2.1, hin.2.1, hin.2.2.2⟩
    have hp' : Plain z.swap o count' q.swap aux.swap := by
      rcases hp with hp | ⟨hp, hcap⟩
      · exact Or.inl hp
      · refine Or.inr ⟨hp, ?_⟩
        rw [fieldOf_swap hc hc']
        intro i j k i' j' k'
        exact hcap _ _ _ _ _ _
    rw [step_value h hs hin, step_value h' hs' hin', ← newValue_proper _ _ (plain_double hp), ← newValue_proper _ _ (plain_double hp'),
      fieldOf_swap hc hc', scheme_swap]
    exact newValue_swap (Scheme.proper _) rfl _ _ _ _ _
  · refine isMax_unique (fun x => ?_) (step_courant h hs) (step_courant h' hs')
    rw [fieldOf_swap hc hc', scheme_swap]
    unfold patchCourant
    simp only [rowCourant_swap]
    have sw : ∀ (P Q : ℤ → Prop) (A : ℤ → ℤ → Prop), (∃ a b, (P a ∧ Q b) ∧ A a b) ↔ ∃ b a, (Q b ∧ P a) ∧ A a b := by
      intro P Q A
      constructor
      · rintro ⟨a, b, ⟨h1, h2⟩, h3⟩; exact ⟨b, a, ⟨h2, h1⟩, h3⟩
      · rintro ⟨b, a, ⟨h1, h2⟩, h3⟩; exact ⟨a, b, ⟨h2, h1⟩, h3⟩
    refine or_congr (sw _ _ _) ?_
    constructor
    · rintro (a | a)
      · exact Or.inr ((sw _ _ _).1 a)
      · exact Or.inl ((sw _ _ _).1 a)
    · rintro (a | a)
      · exact Or.inr ((sw _ _ _).1 a)
      · exact Or.inl ((sw _ _ _).1 a)

/-! ### Advection -/

def velocity (u v w : ℚ) : Dir → ℚ | .x => u | .y => v | .z => w

/-- Advection with velocity `(u, v, w)`: one wave, the jump. -/
def advection (u v w : ℚ) : Solver :=
  { wave := fun _ ql qr _ _ _ m => qr m - ql m
    s := fun d _ _ _ _ _ => velocity u v w d
    amdq := fun d ql qr _ _ m => min (velocity u v w d) 0 * (qr m - ql m)
    apdq := fun d ql qr _ _ m => max (velocity u v w d) 0 * (qr m - ql m)
    down := fun d t _ _ _ _ _ dq m => min (velocity u v w (d.turn (t - 1))) 0 * dq m
    up := fun d t _ _ _ _ _ dq m => max (velocity u v w (d.turn (t - 1))) 0 * dq m
    down2 := fun d t _ _ _ _ _ _ dq m => min (velocity u v w (d.turn (t - 1))) 0 * dq m
    up2 := fun d t _ _ _ _ _ _ dq m => max (velocity u v w (d.turn (t - 1))) 0 * dq m }

theorem advection_conservative (u v w : ℚ) (n : Nat) :
    ConservativeSolver (advection u v w) n (fun d q m => velocity u v w d * q m) := by
  intro d ql qr al ar m _ _
  have : min (velocity u v w d) 0 + max (velocity u v w d) 0 = velocity u v w d := by rw [min_add_max, add_zero]
  show min (velocity u v w d) 0 * (qr m - ql m) + max (velocity u v w d) 0 * (qr m - ql m) = _
  rw [← add_mul, this]
  ring

theorem advection_quiet (u v w : ℚ) (q : Vec) : Quiet (advection u v w) q := by
  constructor <;> intros <;> simp [advection]

/-! ### Examples -/

abbrev exShape : Shape := { mx := 4, my := 3, mz := 3, mbc := 2, meqn := 1, maux := 1, mwaves := 1 }
/-- Second order; how waves are propagated, and the capacity. -/
abbrev exMethod (trans mcapa : ℤ) : Method := { order := 2, trans := trans, lim := fun _ => 0, mcapa := mcapa, fw := false }
/-- A value in one cell; cells with `i ≤ 0` have twice the capacity. -/
def exQ : QArr := fun l => if l.1 = 1 ∧ l.2.1 = 1 ∧ l.2.2.1 = 1 then 1 else 0
def exAux : QArr := fun l => if l.1 ≤ 0 then 2 else 1

theorem exReady (trans mcapa : ℤ) (ht : trans = 11 ∨ trans = 22) (hc : mcapa = 0 ∨ mcapa = 1) :
    Ready exShape (exMethod trans mcapa) (1 / 4) (1 / 4) (1 / 4) exAux := by
  refine ⟨⟨Or.inr rfl, ?_, fun w _ _ => ⟨by simp, by simp⟩⟩, by decide, by decide, by decide, by norm_num, by norm_num, by norm_num, ?_, ?_⟩
  · show trans ≤ 0 ∨ trans = 10 ∨ trans = 11 ∨ _ ∧ (trans = 20 ∨ trans = 21 ∨ trans = 22)
    rcases ht with rfl | rfl
    · exact Or.inr (Or.inr (Or.inl rfl))
    · exact Or.inr (Or.inr (Or.inr ⟨rfl, Or.inr (Or.inr rfl)⟩))
  · show 0 ≤ mcapa ∧ mcapa ≤ 1
    omega
  · intro _ i j k _
    show (if i ≤ 0 then (2 : ℚ) else 1) ≠ 0
    split <;> norm_num

/-- The value of the formula in an example. -/
def exValue (u v w : ℚ) (trans mcapa : ℤ) (quirks : Bool) (i j k : ℤ) : ℚ :=
  newValue (scheme exShape (exMethod trans mcapa) (advection u v w) (1 / 4) (1 / 4) (1 / 4) (1 / 8) quirks)
    (fieldOf exShape (exMethod trans mcapa) (fun _ => 4) exQ exAux) i j k 1

/-- **C88** does not hold for the default order "2 2 2" (fc3d_clawpack46_options.c), even on a uniform grid: a step of
advection gives a value that is not that of the method, -/
theorem C88_default_order_counterexample : ∃ q' c,
    step3Wrap exShape (exMethod 22 0) (advection 1 1 1) (fun _ => 4) (1 / 4) (1 / 4) (1 / 4) (1 / 8) exQ exAux = some (q', c) ∧
      q' (1, 1, 1, 1) = 7 / 32 ∧ exValue 1 1 1 22 0 false 1 1 1 = 5 / 16 := by
  obtain ⟨q', c, h1, h2, _⟩ := C88_step (advection 1 1 1) (fun _ => 4) (1 / 8) exQ (exReady 22 0 (Or.inr rfl) (Or.inl rfl))
  refine ⟨q', c, h1, ?_, by decide +kernel⟩
  rw [h2 1 1 1 1 (by unfold inside; decide)]
  show exValue 1 1 1 22 0 true 1 1 1 = 7 / 32
  decide +kernel

/-- nor with a capacity function (order "2 1 1"). -/
theorem C88_capacity_counterexample : ∃ q' c,
    step3Wrap exShape (exMethod 11 1) (advection 1 1 1) (fun _ => 4) (1 / 4) (1 / 4) (1 / 4) (1 / 8) exQ exAux = some (q', c) ∧
      q' (1, 2, 1, 1) = -1 / 96 ∧ exValue 1 1 1 11 1 false 1 2 1 = 0 := by
  obtain ⟨q', c, h1, h2, _⟩ := C88_step (advection 1 1 1) (fun _ => 4) (1 / 8) exQ (exReady 11 1 (Or.inl rfl) (Or.inr rfl))
  refine ⟨q', c, h1, ?_, by decide +kernel⟩
  rw [h2 1 2 1 1 (by unfold inside; decide)]
  show exValue 1 1 1 11 1 true 1 2 1 = -1 / 96
  decide +kernel

/-- y and z cannot be exchanged then: for advection with velocities 1, 1 and 1/2 a cell gets another value if the axes
are named differently. -/
theorem C88_exchange_counterexample : ∃ r c r' c',
    step3Wrap exShape (exMethod 11 1) (advection 1 1 (1 / 2)) (fun _ => 4) (1 / 4) (1 / 4) (1 / 4) (1 / 8) exQ exAux = some (r, c) ∧
    step3Wrap exShape.swap (exMethod 11 1) (advection 1 1 (1 / 2)).swap (fun _ => 4) (1 / 4) (1 / 4) (1 / 4) (1 / 8) exQ.swap exAux.swap = some (r', c') ∧
      r (1, 2, 1, 1) = 11 / 192 ∧ r' (1, 1, 2, 1) = 1 / 16 := by
  have h := exReady 11 1 (Or.inl rfl) (Or.inr rfl)
  have h' : Ready exShape.swap (exMethod 11 1) (1 / 4) (1 / 4) (1 / 4) exAux.swap := by
    refine ⟨⟨h.usable.1, h.usable.2, h.usable.3⟩, by decide, by decide, by decide, h.dx, h.dy, h.dz, h.capa, fun h0 i j k _ => ?_⟩
    show (if i ≤ 0 then (2 : ℚ) else 1) ≠ 0
    split <;> norm_num
  obtain ⟨r, c, h1, h2, _⟩ := C88_step (advection 1 1 (1 / 2)) (fun _ => 4) (1 / 8) exQ h
  obtain ⟨r', c', h1', h2', _⟩ := C88_step (advection 1 1 (1 / 2)).swap (fun _ => 4) (1 / 8) exQ.swap h'
  refine ⟨r, c, r', c', h1, h1', ?_, ?_⟩
  · rw [h2 1 2 1 1 (by unfold inside; decide)]
    decide +kernel
  · rw [h2' 1 1 2 1 (by unfold inside; decide)]
    decide +kernel

/-- **C88** does not hold for the default `mcapa`, -1 (fc3d_clawpack46_options.c): there is no step. -/
theorem C88_default_capacity_counterexample (z : Shape) (o : Method) (ho : o.mcapa = -1) (R : Solver) (count : ℤ → ℤ) (dx dy dz dt : ℚ) (q aux : QArr) :
    step3Wrap z o R count dx dy dz dt q aux = none := by
  unfold step3Wrap
  dsimp only
  have : o.mcapa < 0 ∨ (z.maux : ℤ) < o.mcapa := by omega
  split_ifs <;> rfl

/-- The hypotheses of the theorems above can be met; the new value is not trivial. -/
example : Ready exShape (exMethod 22 1) (1 / 4) (1 / 4) (1 / 4) exAux ∧
    ConservativeSolver (advection 1 1 1) exShape.meqn (fun d q m => velocity 1 1 1 d * q m) ∧ exValue 1 1 1 22 1 true 2 2 2 ≠ 0 :=
  ⟨exReady 22 1 (Or.inr rfl) (Or.inr rfl), advection_conservative _ _ _ _, by decide +kernel⟩

example : Plain exShape (exMethod 11 0) (fun _ => 4) exQ exAux ∧ Ready exShape (exMethod 11 0) (1 / 4) (1 / 4) (1 / 4) exAux ∧
    exValue 1 1 1 11 0 true 2 2 2 = exValue 1 1 1 11 0 false 2 2 2 ∧ exValue 1 1 1 11 0 false 2 2 2 ≠ 0 :=
  ⟨Or.inr ⟨by decide, fun _ _ _ _ _ _ => rfl⟩, exReady 11 0 (Or.inl rfl) (Or.inl rfl), by decide +kernel, by decide +kernel⟩

/-- Patches with other names of the axes. -/
example : Ready exShape.rot (exMethod 11 1) (1 / 4) (1 / 4) (1 / 4) exAux.rot ∧ Ready exShape.swap (exMethod 11 1) (1 / 4) (1 / 4) (1 / 4) exAux.swap ∧
    Regular fun _ => 4 := by
  have h := exReady 11 1 (Or.inl rfl) (Or.inr rfl)
  refine ⟨⟨⟨h.usable.1, h.usable.2, h.usable.3⟩, by decide, by decide, by decide, h.dx, h.dy, h.dz, h.capa, fun h0 i j k _ => ?_⟩,
    ⟨⟨h.usable.1, h.usable.2, h.usable.3⟩, by decide, by decide, by decide, h.dx, h.dy, h.dz, h.capa, fun h0 i j k _ => ?_⟩, fun _ => by norm_num⟩
  · show (if k ≤ 0 then (2 : ℚ) else 1) ≠ 0
    split <;> norm_num
  · show (if i ≤ 0 then (2 : ℚ) else 1) ≠ 0
    split <;> norm_num

/-- A constant state. -/
example : Quiet (advection 1 2 3) (comps exShape.meqn fun _ => 5) := advection_quiet _ _ _ _

/-- The same data around a cell in patches of different size. -/
example : Agree (nearby 2 2 2) (fieldOf exShape (exMethod 22 1) (fun _ => 4) exQ exAux)
    (fieldOf { exShape with mx := 8 } (exMethod 22 1) (fun _ => 4) (fun l => if l.1 < 6 then exQ l else 7) exAux) := by
  have hr : Regular fun _ => (4 : ℤ) := fun _ => by norm_num
  refine ⟨fun d i j k hn => ?_, fun _ _ _ _ => rfl, fun _ _ _ _ => rfl⟩
  funext m
  simp only [fieldOf, regular_cell hr, comps]
  unfold nearby at hn
  rw [if_pos (show i < 6 by omega)]

end Fclaw.Wave3
