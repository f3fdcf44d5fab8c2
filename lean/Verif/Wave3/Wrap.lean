import Verif.Wave3.Step
import Verif.Wave3.Stencil
/-
The whole step, and Courant numbers.
-/
set_option autoImplicit false
set_option linter.unusedSimpArgs false
set_option linter.unusedVariables false
namespace Fclaw.Wave3

open Wave (Vec comps dot IsMax atCorner cornerNo ixyOf)

/-! ### Courant numbers -/

section
variable {z : Shape} {o : Method} {R : Solver} {S : Scheme} {F : Field} {d : Dir} {b c : ℤ} {L : Slice}

theorem cfl1d_max (hS : Same z o R S) (h : Fits z S F d b c L) : IsMax (rowCourant S F d L.n b c) (cfl1d z R d L) := by
  have := loop_max (lo := 1) (hi := (z.mwaves : ℤ)) (P := fun mw x => ∃ i, (1 ≤ i ∧ i ≤ L.n + 1) ∧
      x = max (L.dt1 i * sp z R d L mw i) (-L.dt1 (i - 1) * sp z R d L mw i))
    (f := fun mw => loop 1 (L.n + 1) fun i c => max (max c (L.dt1 i * sp z R d L mw i)) (-L.dt1 (i - 1) * sp z R d L mw i))
    (fun mw _ _ c => loop_max (fun i _ _ c => by
      refine ⟨le_trans (le_max_left _ _) (le_max_left _ _), ?_, ?_⟩
      · rintro x rfl
        exact max_le (le_trans (le_max_right _ _) (le_max_left _ _)) (le_max_right _ _)
      · rw [max_assoc]
        rcases max_choice c (max (L.dt1 i * sp z R d L mw i) (-L.dt1 (i - 1) * sp z R d L mw i)) with h | h
        · exact Or.inl h
        · exact Or.inr h) c) 0
  have e : ∀ x, rowCourant S F d L.n b c x ↔ ∃ mw, (1 ≤ mw ∧ mw ≤ (z.mwaves : ℤ)) ∧ ∃ i, (1 ≤ i ∧ i ≤ L.n + 1) ∧
      x = max (L.dt1 i * sp z R d L mw i) (-L.dt1 (i - 1) * sp z R d L mw i) := by
    intro x
    unfold rowCourant
    rw [hS.mwaves]
    constructor
    · rintro ⟨i, w, ⟨hi, hw⟩, hx⟩
      exact ⟨w, hw, i, hi, by rw [hx, h.dt1, h.dt1, sp_eq hS h]⟩
    · rintro ⟨w, hw, i, hi, hx⟩
      exact ⟨i, w, ⟨hi, hw⟩, by rw [hx, h.dt1, h.dt1, sp_eq hS h]⟩
  unfold Wave.IsMax
  simp only [e]
  exact this

end

/-- The largest Courant number of many rows. -/
theorem rows_max {Q : ℤ → ℤ → ℚ → Prop} {g : ℤ → ℤ → ℚ} (hQ : ∀ k j, IsMax (Q k j) (g k j)) (lo hi lo' hi' : ℤ) (c : ℚ) (hc : 0 ≤ c) (r : ℚ)
    (hr : r = loop lo hi (fun k => loop lo' hi' fun j c => max c (g k j)) c) :
    c ≤ r ∧
    (∀ x, (∃ k, (lo ≤ k ∧ k ≤ hi) ∧ ∃ j, (lo' ≤ j ∧ j ≤ hi') ∧ Q k j x) → x ≤ r) ∧
    (r = c ∨
      ∃ k, (lo ≤ k ∧ k ≤ hi) ∧ ∃ j, (lo' ≤ j ∧ j ≤ hi') ∧ (Q k j (r))) := by
  have := loop_max (lo := lo) (hi := hi) (P := fun k x => ∃ j, (lo' ≤ j ∧ j ≤ hi') ∧ (Q k j x ∨ x = 0))
    (f := fun k => loop lo' hi' fun j c => max c (g k j)) (fun k _ _ c => loop_max (fun j _ _ c => by
      obtain ⟨h1, h2, h3⟩ := hQ k j
      refine ⟨le_max_left _ _, ?_, ?_⟩
      · rintro x (hx | rfl)
        · exact le_trans (h2 x hx) (le_max_right _ _)
        · exact le_trans h1 (le_max_right _ _)
      · rcases max_choice c (g k j) with h | h
        · exact Or.inl h
        · rw [h]
          rcases h3 with h3 | h3
          · exact Or.inr (Or.inr h3)
          · exact Or.inr (Or.inl h3)) c) c
  rw [← hr] at this
  obtain ⟨h1, h2, h3⟩ := this
  refine ⟨h1, fun x ⟨k, hk, j, hj, hx⟩ => h2 x ⟨k, hk, j, hj, Or.inl hx⟩, ?_⟩
  rcases h3 with h3 | ⟨k, hk, j, hj, hx | hx⟩
  · exact Or.inl h3
  · exact Or.inr ⟨k, hk, j, hj, hx⟩
  · left; rw [hx] at h1 ⊢; exact le_antisymm hc h1

theorem cfl_seen (z : Shape) (o : Method) (R : Solver) (dx dy dz dt : ℚ) (q1 q2 aux : QArr) (hu : Usable z o) :
    IsMax (patchCourant z (scheme z o R dx dy dz dt true) (seen z o q1 q2 aux))
      (cflZ z o R ⟨dt / dx, dt / dy, dt / dz⟩ q2 aux (cflY z o R ⟨dt / dx, dt / dy, dt / dz⟩ q2 aux
        (cflX z o R ⟨dt / dx, dt / dy, dt / dz⟩ q1 aux 0))) := by
  have hS := same_scheme z o R dx dy dz dt hu
  have hx := rows_max (fun k j => cfl1d_max hS (xSlice_fits z o R dx dy dz dt q1 q2 aux true j k)) 0 (z.mz + 1) 0 (z.my + 1) 0 (le_refl _)
    (cflX z o R ⟨dt / dx, dt / dy, dt / dz⟩ q1 aux 0) rfl
  generalize cflX z o R ⟨dt / dx, dt / dy, dt / dz⟩ q1 aux 0 = X at hx ⊢
  have hy := rows_max (fun k i => cfl1d_max hS (ySlice_fits z o R dx dy dz dt q1 q2 aux true i k)) 0 (z.mz + 1) 0 (z.mx + 1)
    X hx.1 (cflY z o R ⟨dt / dx, dt / dy, dt / dz⟩ q2 aux X) rfl
  generalize cflY z o R ⟨dt / dx, dt / dy, dt / dz⟩ q2 aux X = Y at hy ⊢
  have hz := rows_max (fun j i => cfl1d_max hS (zSlice_fits z o R dx dy dz dt q1 q2 aux true i j)) 0 (z.my + 1) 0 (z.mx + 1)
    Y (le_trans hx.1 hy.1) (cflZ z o R ⟨dt / dx, dt / dy, dt / dz⟩ q2 aux Y) rfl
  generalize cflZ z o R ⟨dt / dx, dt / dy, dt / dz⟩ q2 aux Y = Z at hz ⊢
  obtain ⟨x1, x2, x3⟩ := hx
  obtain ⟨y1, y2, y3⟩ := hy
  obtain ⟨z1, z2, z3⟩ := hz
  refine ⟨le_trans x1 (le_trans y1 z1), ?_, ?_⟩
  · rintro x (⟨j, k, ⟨hj, hk⟩, hr⟩ | ⟨k, i, ⟨hk, hi⟩, hr⟩ | ⟨i, j, ⟨hi, hj⟩, hr⟩)
    · exact le_trans (x2 x ⟨k, hk, j, hj, hr⟩) (le_trans y1 z1)
    · exact le_trans (y2 x ⟨k, hk, i, hi, hr⟩) z1
    · exact z2 x ⟨j, hj, i, hi, hr⟩
  · rcases z3 with z3 | ⟨j, hj, i, hi, hr⟩
    · rw [z3]
      rcases y3 with y3 | ⟨k, hk, i, hi, hr⟩
      · rw [y3]
        rcases x3 with x3 | ⟨k, hk, j, hj, hr⟩
        · exact Or.inl x3
        · exact Or.inr (Or.inl ⟨j, k, ⟨hj, hk⟩, hr⟩)
      · exact Or.inr (Or.inr (Or.inl ⟨k, i, ⟨hk, hi⟩, hr⟩))
    · exact Or.inr (Or.inr (Or.inr ⟨i, j, ⟨hi, hj⟩, hr⟩))

/-! ### The program -/

theorem seen_agree (z : Shape) (o : Method) (count : ℤ → ℤ) (q aux : QArr) (h1 : z.mbc ≤ z.mx) (h2 : z.mbc ≤ z.my) :
    Agree (inArray z) (seen z o (fixCorners z 0 count q) (fixCorners z 1 count (fixCorners z 0 count q)) aux) (fieldOf z o count q aux) := by
  have f1 := fixCorners_spec z h1 h2 false count q q (fun _ _ _ _ _ => rfl) fun _ _ _ _ _ => rfl
  have f2 := fixCorners_spec z h1 h2 true count (fixCorners z 0 count q) q
    (fun i j k m hc => f1.2 i j k m fun h => hc h.1) fun i j k m hc => f1.2 i j k m fun h => hc h.2
  refine ⟨fun d i j k hp => ?_, fun _ _ _ _ => rfl, fun _ _ _ _ => rfl⟩
  obtain ⟨hi, hj, hk⟩ := hp
  have hg : z.plane.inGrid i j := ⟨hi, hj⟩
  funext m
  show comps z.meqn (fun m => _) m = comps z.meqn (fun m => _) m
  unfold comps
  by_cases hm : 1 ≤ m ∧ m ≤ (z.meqn : ℤ)
  swap
  · rw [if_neg hm, if_neg hm]
  rw [if_pos hm, if_pos hm]
  unfold sweepCell
  by_cases hd : d = .x
  · rw [if_pos hd, if_pos hd]
    exact f1.1 i j k m hg hk hm
  · rw [if_neg hd, if_neg hd]
    exact f2.1 i j k m hg hk hm

theorem pieces_fit (z : Shape) : mwork z - (wrapPieces z).sum = (stepPieces z).sum ∧ (wrapPieces z).sum ≤ mwork z := by
  have hn : (0 : ℤ) ≤ z.maxm + 2 * z.mbc := by positivity
  have e : mwork z - (wrapPieces z).sum = (stepPieces z).sum := by
    unfold mwork wrapPieces stepPieces
    simp only [List.sum_cons, List.sum_nil, List.sum_append, List.sum_replicate, nsmul_eq_mul]
    push_cast
    ring
  refine ⟨e, ?_⟩
  have : 0 ≤ (stepPieces z).sum := by
    unfold stepPieces
    simp only [List.sum_cons, List.sum_nil, List.sum_append, List.sum_replicate, nsmul_eq_mul]
    have a1 := mul_nonneg hn (Int.natCast_nonneg z.meqn)
    have a2 := mul_nonneg hn (Int.natCast_nonneg z.mwaves)
    have a3 := mul_nonneg a1 (Int.natCast_nonneg z.mwaves)
    push_cast
    linarith
  omega

theorem step3Wrap_some {z : Shape} {o : Method} {dx dy dz : ℚ} {aux : QArr} (h : Ready z o dx dy dz aux) (R : Solver) (count : ℤ → ℤ) (dt : ℚ) (q : QArr) :
    step3Wrap z o R count dx dy dz dt q aux =
      some (update z o ⟨dt / dx, dt / dy, dt / dz⟩ aux (step3 z o R count ⟨dt / dx, dt / dy, dt / dz⟩ q aux).2.1
        (step3 z o R count ⟨dt / dx, dt / dy, dt / dz⟩ q aux).1, (step3 z o R count ⟨dt / dx, dt / dy, dt / dz⟩ q aux).2.2) := by
  have hp := pieces_fit z
  have hmb := h.mbc
  unfold step3Wrap
  dsimp only
  rw [if_neg (by simp [h.dx, h.dy, h.dz]), if_neg (by omega), if_neg (by omega), if_neg (by omega),
    usable_set z o h.usable]
  simp only [Bool.false_eq_true, if_false]
  rw [if_neg (by have := h.capa; omega)]

theorem rowCourant_congr {S : Scheme} {F G : Field} {P : ℤ → ℤ → ℤ → Prop} (h : Agree P F G) {d : Dir} {n b c : ℤ} {x : ℚ}
    (hp : ∀ i, 0 ≤ i → i ≤ n + 1 → place P d i b c) : rowCourant S F d n b c x ↔ rowCourant S G d n b c x := by
  unfold rowCourant
  refine exists_congr fun i => exists_congr fun w => and_congr_right fun hw => ?_
  have e1 := lam_congr (S := S) h (hp i (by omega) (by omega)) 0
  have e2 := lam_congr (S := S) h (hp (i - 1) (by omega) (by omega)) 0
  have e3 := speed_congr (S := S) h (hp (i - 1) (by omega) (by omega)) (hp i (by omega) (by omega)) w
  rw [e1, e2, e3]

theorem patchCourant_congr {z : Shape} {S : Scheme} {F G : Field} (h : Agree (inArray z) F G) (hb : 2 ≤ z.mbc) (x : ℚ) :
    patchCourant z S F x ↔ patchCourant z S G x := by
  unfold patchCourant
  refine or_congr ?_ (or_congr ?_ ?_)
  all_goals
    refine exists_congr fun u => exists_congr fun v => and_congr_right fun hw => rowCourant_congr h fun i hi hi' => ?_
    simp only [place, inArray]
    omega

/-- What a step does. -/
theorem step3Wrap_spec {z : Shape} {o : Method} {dx dy dz : ℚ} {aux : QArr} (h : Ready z o dx dy dz aux) (R : Solver) (count : ℤ → ℤ) (dt : ℚ)
    (q : QArr) : ∃ q' c, step3Wrap z o R count dx dy dz dt q aux = some (q', c) ∧
      (∀ i j k m, inside z i j k m →
        q' (i, j, k, m) = newValue (scheme z o R dx dy dz dt true) (fieldOf z o count q aux) i j k m) ∧
      (∀ i j k m, ¬inside z i j k m → q' (i, j, k, m) = fixCorners z 1 count (fixCorners z 0 count q) (i, j, k, m)) ∧
      IsMax (patchCourant z (scheme z o R dx dy dz dt true) (fieldOf z o count q aux)) c := by
  have ha := seen_agree z o count q aux h.fitx h.fity
  have hmb := h.mbc
  refine ⟨_, _, step3Wrap_some h R count dt q, ?_, ?_, ?_⟩
  · intro i j k m hin
    have f1 := fixCorners_spec z h.fitx h.fity false count q q (fun _ _ _ _ _ => rfl) fun _ _ _ _ _ => rfl
    have f2 := fixCorners_spec z h.fitx h.fity true count (fixCorners z 0 count q) q
      (fun i j k m hc => f1.2 i j k m fun h => hc h.1) fun i j k m hc => f1.2 i j k m fun h => hc h.2
    have hc : ¬(atCorner z.plane i j ∧ count (cornerNo z.plane i j) = 3) := by
      obtain ⟨hi, hj, hk, hm⟩ := hin
      simp only [atCorner, Shape.plane]
      omega
    refine (step_seen z o R dx dy dz dt (fixCorners z 0 count q) (fixCorners z 1 count (fixCorners z 0 count q)) aux h.usable hmb
      i j k m hin ((f1.2 i j k m hc).trans (f2.2 i j k m hc).symm)).trans ?_
    refine newValue_congr _ i j k m ⟨fun d i' j' k' hp => ha.Q _ _ _ _ ?_, fun i' j' k' hp => ha.A _ _ _ ?_, fun i' j' k' hp => ha.cap _ _ _ ?_⟩
    all_goals
      simp only [nearby, inside, inArray] at hp hin ⊢
      omega
  · intro i j k m hn
    exact (update_eq ..).2 hn
  · have := cfl_seen z o R dx dy dz dt (fixCorners z 0 count q) (fixCorners z 1 count (fixCorners z 0 count q)) aux h.usable
    unfold Wave.IsMax at this ⊢
    simp only [patchCourant_congr ha hmb] at this
    exact this

end Fclaw.Wave3
