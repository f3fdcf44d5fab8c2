import Verif.DtopoRead.Spec
import Verif.TopoRead.Lemmas
import Verif.Dtopo.Props
import Mathlib.Data.Nat.ModEq
/-
Lemmas for C103.
-/
set_option autoImplicit false
set_option linter.unusedSimpArgs false
set_option linter.unusedVariables false
namespace Fclaw.DtopoRead

open Fort TopoRead Dtopo

/-- Nodes of one time. -/
def Motion.S (M : Motion) : ℕ := M.rows * M.cols

/-- All nodes and times. -/
def Motion.N (M : Motion) : ℕ := M.times * M.S

theorem S_pos (M : Motion) (hM : M.Valid) : 0 < M.S := Nat.mul_pos (by have := hM.rows; omega) (by have := hM.cols; omega)

/-- The line at a position. -/
noncomputable def Motion.line (M : Motion) (n : ℕ) : Line :=
  ⟨M.t (n / M.S), M.x (n % M.S % M.cols), M.y (n % M.S / M.cols), M.d (n / M.S) (n % M.S / M.cols) (n % M.S % M.cols)⟩

theorem txyz_eq (M : Motion) (hM : M.Valid) : M.txyz = (List.range M.N).map M.line := by
  have hc := hM.cols
  unfold Motion.txyz
  have : ∀ k : ℕ, ((List.range M.rows).flatMap fun j => (List.range M.cols).map fun i => (⟨M.t k, M.x i, M.y j, M.d k j i⟩ : Line)) =
      (List.range M.S).map fun n => (⟨M.t k, M.x (n % M.cols), M.y (n / M.cols), M.d k (n / M.cols) (n % M.cols)⟩ : Line) :=
    fun k => flat_range (fun j i => (⟨M.t k, M.x i, M.y j, M.d k j i⟩ : Line)) M.cols (by omega) M.rows
  simp only [this]
  exact flat_range (fun k n => (⟨M.t k, M.x (n % M.cols), M.y (n / M.cols), M.d k (n / M.cols) (n % M.cols)⟩ : Line)) M.S (S_pos M hM) M.times

theorem column_eq (M : Motion) (hM : M.Valid) : M.column = (List.range M.N).map fun n => [(M.line n).d] := by
  have hc := hM.cols
  unfold Motion.column Motion.row
  simp only [List.map_map]
  have : ∀ k : ℕ, ((List.range M.rows).flatMap fun j => (List.range M.cols).map ((fun v => [v]) ∘ fun i => M.d k j i)) =
      (List.range M.S).map fun n => [M.d k (n / M.cols) (n % M.cols)] :=
    fun k => flat_range (fun j i => [M.d k j i]) M.cols (by omega) M.rows
  simp only [this]
  exact flat_range (fun k n => [M.d k (n / M.cols) (n % M.cols)]) M.S (S_pos M hM) M.times

theorem last_div (a b : ℕ) (ha : 0 < a) (hb : 0 < b) : (a * b - 1) / b = a - 1 ∧ (a * b - 1) % b = b - 1 := by
  have : a * b - 1 = (b - 1) + (a - 1) * b := by
    rw [Nat.sub_mul]
    have : b ≤ a * b := Nat.le_mul_of_pos_left _ ha
    omega
  rw [this, Nat.add_mul_div_right _ _ hb, Nat.div_eq_of_lt (by omega), Nat.zero_add, Nat.add_mul_mod_self_right,
    Nat.mod_eq_of_lt (by omega)]
  exact ⟨rfl, rfl⟩

theorem y_inj (M : Motion) (hM : M.Valid) (j j' : ℕ) (h : M.y j = M.y j') : j = j' := by
  unfold Motion.y at h
  have h1 := hM.dy
  have h2 : ((j : ℝ) - j') * M.dy = 0 := by linarith
  rcases mul_eq_zero.mp h2 with h3 | h3
  · have : (j : ℝ) = j' := by linarith
    exact_mod_cast this
  · linarith

theorem t_first (M : Motion) (n : ℕ) (h : n < M.S) : (M.line n).t = M.t 0 := by
  show M.t (n / M.S) = _
  rw [Nat.div_eq_of_lt h]

theorem y_first (M : Motion) (n : ℕ) (h : n < M.S) : (M.line n).y = M.y (n / M.cols) := by
  show M.y (n % M.S / M.cols) = _
  rw [Nat.mod_eq_of_lt h]

/-- The loop over the lines of the first time. -/
theorem firstTime_run (M : Motion) (hM : M.Valid) (tail : List Line) : ∀ (rem n : ℕ) (last : Option Line), n + rem = M.S → 1 ≤ n →
    ∃ last', firstTime (M.t 0) ((List.range rem).map (fun q => M.line (n + q)) ++ tail) last (M.y ((n - 1) / M.cols))
        (((n - 1) / M.cols : ℕ) + 1) n =
      firstTime (M.t 0) tail last' (M.y ((M.S - 1) / M.cols)) (((M.S - 1) / M.cols : ℕ) + 1) M.S ∧
      (0 < rem → last' = some (M.line (M.S - 1))) ∧ (rem = 0 → last' = last) := by
  intro rem
  induction rem with
  | zero =>
    intro n last h h1
    have : n = M.S := by omega
    subst this
    exact ⟨last, by simp, by omega, fun _ => rfl⟩
  | succ rem ih =>
    intro n last h h1
    have hn : n < M.S := by omega
    rw [List.range_succ_eq_map, List.map_cons, List.map_map]
    simp only [List.cons_append, firstTime, Nat.add_zero]
    rw [t_first M n hn, y_first M n hn]
    simp only [if_true, and_true]
    obtain ⟨n', rfl⟩ : ∃ n', n = n' + 1 := ⟨n - 1, by omega⟩
    have hd : (n' + 1) / M.cols = n' / M.cols + if M.cols ∣ n' + 1 then 1 else 0 := Nat.succ_div
    obtain ⟨last', e, g1, g2⟩ := ih (n' + 1 + 1) (some (M.line (n' + 1))) (by omega) (by omega)
    have hf : ((fun q => M.line (n' + 1 + q)) ∘ Nat.succ) = fun q => M.line (n' + 1 + 1 + q) := by
      funext q; simp only [Function.comp]; congr 1; omega
    rw [hf]
    have ey : (if M.y ((n' + 1) / M.cols) ≠ M.y ((n' + 1 - 1) / M.cols) then M.y ((n' + 1) / M.cols) else M.y ((n' + 1 - 1) / M.cols)) =
        M.y ((n' + 1 + 1 - 1) / M.cols) := by
      simp only [Nat.add_sub_cancel]
      split
      · rfl
      · next h => exact (not_not.mp h).symm
    have em : (if M.y ((n' + 1) / M.cols) ≠ M.y ((n' + 1 - 1) / M.cols) then (((n' + 1 - 1) / M.cols : ℕ) : ℤ) + 1 + 1
        else (((n' + 1 - 1) / M.cols : ℕ) : ℤ) + 1) = (((n' + 1 + 1 - 1) / M.cols : ℕ) : ℤ) + 1 := by
      simp only [Nat.add_sub_cancel]
      split
      · next h =>
        have : (n' + 1) / M.cols = n' / M.cols + 1 := by
          rw [hd]
          split
          · rfl
          · next h' => exact absurd (by rw [hd, if_neg h', Nat.add_zero]) h
        rw [this]; push_cast; ring
      · next h => rw [y_inj M hM _ _ (not_not.mp h)]
    have es : (((n' + 1 : ℕ) : ℤ) + 1) = ((n' + 1 + 1 : ℕ) : ℤ) := by push_cast; ring
    rw [ey, em, es]
    refine ⟨last', e, fun _ => ?_, by omega⟩
    by_cases hr : 0 < rem
    · exact g1 hr
    · rw [g2 (by omega)]
      congr 2
      omega

theorem otherTimes_eq : ∀ (ls : List Line) (a : Line) (s : ℤ),
    otherTimes ls (some a) s = (s + ls.length + 1, some ((a :: ls).getLast (by simp))) := by
  intro ls
  induction ls with
  | nil => intro a s; simp [otherTimes]
  | cons l ls ih =>
    intro a s
    rw [otherTimes, ih]
    simp only [List.length_cons, List.getLast_cons_cons]
    push_cast
    congr 1
    ring

/-- `dt`. -/
noncomputable def Motion.step (M : Motion) : ℝ := if M.times = 1 then 0 else M.dt

theorem line_last (M : Motion) (hM : M.Valid) : (M.line (M.N - 1)).x = M.x (M.cols - 1) ∧ (M.line (M.N - 1)).y = M.y (M.rows - 1) ∧
    (M.line (M.N - 1)).t = M.t (M.times - 1) := by
  have h1 := last_div M.times M.S (by have := hM.times; omega) (S_pos M hM)
  have h2 := last_div M.rows M.cols (by have := hM.rows; omega) (by have := hM.cols; omega)
  unfold Motion.line Motion.N
  rw [h1.1, h1.2]
  unfold Motion.S
  rw [h2.1, h2.2]
  exact ⟨rfl, rfl, rfl⟩

theorem header1_eq (M : Motion) (hM : M.Valid) :
    header1 M.txyz = some ⟨M.cols, M.rows, M.times, M.west, M.south, M.t0, M.west + M.dx * ((M.cols : ℝ) - 1),
      M.south + M.dy * ((M.rows : ℝ) - 1), M.t0 + M.step * ((M.times : ℝ) - 1), M.dx, M.dy, M.step⟩ := by
  have hc := hM.cols
  have hr := hM.rows
  have ht := hM.times
  have hS := S_pos M hM
  have hS2 : 2 ≤ M.S := le_trans hc (Nat.le_mul_of_pos_left _ (by omega))
  have hrow : (M.S - 1) / M.cols = M.rows - 1 := (last_div M.rows M.cols (by omega) (by omega)).1
  obtain ⟨lx, ly, lt⟩ := line_last M hM
  have f0 : M.line 0 = ⟨M.t 0, M.x 0, M.y 0, (M.line 0).d⟩ := by
    unfold Motion.line; simp
  -- the quotients
  have c1 : ((M.cols : ℝ) - 1) ≠ 0 := by
    have : (2 : ℝ) ≤ M.cols := by exact_mod_cast hc
    intro h; linarith
  have r1 : ((M.rows : ℝ) - 1) ≠ 0 := by
    have : (2 : ℝ) ≤ M.rows := by exact_mod_cast hr
    intro h; linarith
  have x0 : M.x 0 = M.west := by unfold Motion.x; simp
  have t0 : M.t 0 = M.t0 := by unfold Motion.t; simp
  have y0 : M.y 0 = M.south + M.dy * ((M.rows : ℝ) - 1) := by unfold Motion.y; push_cast; ring
  have x1 : M.x (M.cols - 1) = M.west + M.dx * ((M.cols : ℝ) - 1) := by
    unfold Motion.x; rw [Nat.cast_sub (by omega)]; push_cast; ring
  have y1 : M.y (M.rows - 1) = M.south := by
    unfold Motion.y; rw [Nat.cast_sub (by omega)]; push_cast; ring
  have t1 : M.t (M.times - 1) = M.t0 + M.step * ((M.times : ℝ) - 1) := by
    unfold Motion.t Motion.step
    rw [Nat.cast_sub (by omega)]
    by_cases h : M.times = 1
    · rw [if_pos h, h]; push_cast; ring
    · rw [if_neg h]; push_cast; ring
  have hdx : (M.x (M.cols - 1) - M.x 0) / (((M.cols : ℤ) - 1 : ℤ) : ℝ) = M.dx := by
    rw [x1, x0]; push_cast; rw [div_eq_iff c1]; ring
  have hdy : (M.y 0 - M.y (M.rows - 1)) / (((M.rows : ℤ) - 1 : ℤ) : ℝ) = M.dy := by
    rw [y1, y0]; push_cast; rw [div_eq_iff r1]; ring
  have hdt : (M.t (M.times - 1) - M.t 0) / (((M.times : ℤ) - 1 : ℤ) : ℝ) = M.step := by
    rw [t1, t0]
    by_cases h : M.times = 1
    · unfold Motion.step; rw [if_pos h, h]; simp
    · have : ((M.times : ℝ) - 1) ≠ 0 := by
        have : (2 : ℝ) ≤ M.times := by exact_mod_cast (by omega : 2 ≤ M.times)
        intro h; linarith
      push_cast; rw [div_eq_iff this]; ring
  have hmx : ((M.S : ℤ) + 1 - 1).tdiv M.rows = M.cols := by
    unfold Motion.S
    push_cast
    rw [add_sub_cancel_right, Int.mul_tdiv_cancel_left _ (by omega)]
  have hmt : ((M.N : ℤ) + 1 - 1).tdiv ((M.rows : ℤ) * M.cols) = M.times := by
    unfold Motion.N Motion.S
    push_cast
    rw [add_sub_cancel_right, Int.mul_tdiv_cancel _ (by positivity)]
  have hne : (M.rows : ℤ) * M.cols ≠ 0 := by positivity
  have hN : M.N = 1 + ((M.S - 1) + (M.times - 1) * M.S) := by
    unfold Motion.N
    obtain ⟨k, hk⟩ : ∃ k, M.times = k + 1 := ⟨M.times - 1, by omega⟩
    rw [hk, Nat.add_sub_cancel, Nat.succ_mul]
    omega
  have hsplit : M.txyz = M.line 0 :: ((List.range (M.S - 1)).map (fun q => M.line (1 + q)) ++
      (List.range ((M.times - 1) * M.S)).map fun q => M.line (M.S + q)) := by
    rw [txyz_eq M hM, hN, List.range_add, List.map_append, List.range_add (n := M.S - 1), List.map_append, List.map_append]
    simp only [List.map_map, List.range_one, List.map_cons, List.map_nil, List.singleton_append, Function.comp_def]
    have : ∀ q, 1 + (M.S - 1 + q) = M.S + q := fun q => by omega
    simp only [this]
  rw [hsplit]
  simp only [header1]
  obtain ⟨last', e, g1, -⟩ := firstTime_run M hM ((List.range ((M.times - 1) * M.S)).map fun q => M.line (M.S + q)) (M.S - 1) 1 none
    (by omega) (le_refl _)
  have e0 : (1 - 1) / M.cols = 0 := by simp
  rw [e0] at e
  have ft : (M.line 0).t = M.t 0 := by rw [f0]
  have fx : (M.line 0).x = M.x 0 := by rw [f0]
  have fy : (M.line 0).y = M.y 0 := by rw [f0]
  rw [ft, fx, fy]
  simp only [Nat.cast_zero, zero_add, Nat.cast_one] at e
  rw [e, hrow, g1 (by omega)]
  have hmy : ((M.rows - 1 : ℕ) : ℤ) + 1 = M.rows := by omega
  rw [hmy]
  by_cases h1 : M.times = 1
  · have hS1 : M.S = M.N := by unfold Motion.N; rw [h1, Nat.one_mul]
    rw [h1]
    simp only [Nat.sub_self, Nat.zero_mul, List.range_zero, List.map_nil, firstTime, if_true, Option.bind_some]
    rw [hmx, if_neg hne, if_neg (by omega)]
    have hmt' : ((M.S : ℤ) + 1 - 1).tdiv ((M.rows : ℤ) * M.cols) = M.times := by rw [hS1]; exact hmt
    rw [hmt', hS1, lx, ly, lt, hdx, hdy, hdt, x0, y0, t0, x1, y1, t1, h1]
  · have hpos : 0 < (M.times - 1) * M.S := Nat.mul_pos (by omega) hS
    obtain ⟨L, hL⟩ : ∃ L, (M.times - 1) * M.S = L + 1 := ⟨_, (Nat.succ_pred_eq_of_pos hpos).symm⟩
    have htS : (M.line M.S).t ≠ M.t 0 := by
      show M.t (M.S / M.S) ≠ _
      rw [Nat.div_self hS]
      unfold Motion.t
      have := hM.dt
      push_cast
      intro h
      linarith
    have hlist : ((List.range ((M.times - 1) * M.S)).map fun q => M.line (M.S + q)) =
        M.line M.S :: (List.range L).map fun q => M.line (M.S + (1 + q)) := by
      rw [hL, Nat.add_comm L 1, List.range_add]
      simp [Function.comp_def]
    rw [hlist]
    simp only [firstTime, if_neg htS, and_false, if_false, Bool.false_eq_true]
    rw [otherTimes_eq]
    have hlast : (M.line M.S :: (List.range L).map fun q => M.line (M.S + (1 + q))).getLast (by simp) = M.line (M.N - 1) := by
      rw [← List.getLast_congr (by simp [hL]) (by simp) hlist]
      simp only [hL, List.range_succ, List.map_append, List.map_cons, List.map_nil, List.getLast_append_singleton]
      congr 1
      omega
    rw [hlast]
    simp only [Option.bind_some, List.length_map, List.length_range]
    have hsz : (M.S : ℤ) + 1 + (L : ℤ) + 1 = (M.N : ℤ) + 1 := by omega
    have hif : (if (M.line M.S).y ≠ M.y (M.rows - 1) ∧ (M.line M.S).t = M.t 0 then (M.rows : ℤ) + 1 else M.rows) = M.rows :=
      if_neg fun h => htS h.2
    rw [hif, hsz, hmx, if_neg hne, if_neg (by omega), hmt, lx, ly, lt, hdx, hdy, hdt, x0, y0, t0, x1, y1, t1]

/-! ### The values -/

/-- The value at position `a` of the array. -/
noncomputable def Motion.val (M : Motion) (a : ℤ) : ℝ := (M.line (a - 1).toNat).d

theorem val_succ (M : Motion) (k : ℕ) : M.val ((k : ℤ) + 1) = (M.line k).d := by
  unfold Motion.val
  have : ((k : ℤ) + 1 - 1).toNat = k := by omega
  rw [this]

theorem read1_eq (M : Motion) (hM : M.Valid) (w : ℤ → ℝ) :
    ∃ v, read1 M.N M.txyz w = some v ∧ ∀ a : ℤ, 1 ≤ a → a ≤ M.N → v a = M.val a := by
  have hx := txyz_eq M hM
  have hlen : M.txyz.length = M.N := by rw [hx]; simp
  obtain ⟨s, e, h1, h2⟩ := doLoop_inv (read1Line (M.N : ℤ))
    (fun k s => s.1 = M.txyz.drop k ∧ ∀ a : ℤ, 1 ≤ a → a ≤ k → s.2 a = M.val a) M.N (by
      intro k hk s ⟨hs1, hs2⟩
      have hd : M.txyz.drop k = M.line k :: M.txyz.drop (k + 1) := by
        rw [List.drop_eq_getElem_cons (by rw [hlen]; exact hk)]
        congr 1
        simp only [hx, List.getElem_map, List.getElem_range]
      unfold read1Line
      rw [hs1, hd]
      simp only
      rw [put_eq _ _ _ _ (by constructor <;> omega)]
      refine ⟨_, rfl, rfl, ?_⟩
      intro a h1 h2
      show (if a = (k : ℤ) + 1 then (M.line k).d else s.2 a) = M.val a
      split
      · next h => rw [h, val_succ]
      · next h => exact hs2 a h1 (by push_cast at h2; omega)) (M.txyz, w) ⟨by simp, fun a h1 h2 => by push_cast at h2; omega⟩
  refine ⟨s.2, ?_, fun a h3 h4 => h2 a h3 h4⟩
  unfold read1
  rw [e]; rfl

theorem read2_eq (M : Motion) (hM : M.Valid) (more : List (List ℝ)) (w : ℤ → ℝ) :
    ∃ v, read2 M.N (M.column ++ more) w = some v ∧ ∀ a : ℤ, 1 ≤ a → a ≤ M.N → v a = M.val a := by
  have hx := column_eq M hM
  have hlen : M.column.length = M.N := by rw [hx]; simp
  obtain ⟨s, e, h1, h2⟩ := doLoop_inv (read2Value (M.N : ℤ))
    (fun k s => s.1 = M.column.drop k ++ more ∧ ∀ a : ℤ, 1 ≤ a → a ≤ k → s.2 a = M.val a) M.N (by
      intro k hk s ⟨hs1, hs2⟩
      have hd : M.column.drop k = [(M.line k).d] :: M.column.drop (k + 1) := by
        rw [List.drop_eq_getElem_cons (by rw [hlen]; exact hk)]
        congr 1
        simp only [hx, List.getElem_map, List.getElem_range]
      unfold read2Value
      rw [hs1, hd]
      simp only [List.cons_append, readItems, List.length_cons, List.length_nil, Nat.zero_add, le_refl, if_true, List.take_succ_cons,
        List.take_zero, Option.bind_some]
      rw [put_eq _ _ _ _ (by constructor <;> omega)]
      refine ⟨_, rfl, rfl, ?_⟩
      intro a h1 h2
      show (if a = (k : ℤ) + 1 then (M.line k).d else s.2 a) = M.val a
      split
      · next h => rw [h, val_succ]
      · next h => exact hs2 a h1 (by push_cast at h2; omega)) (M.column ++ more, w)
        ⟨by simp, fun a h1 h2 => by push_cast at h2; omega⟩
  refine ⟨s.2, ?_, fun a h3 h4 => h2 a h3 h4⟩
  unfold read2
  rw [e]; rfl

theorem line_at (M : Motion) (hM : M.Valid) (k j i : ℕ) (hj : j < M.rows) (hi : i < M.cols) :
    (M.line (k * M.S + (j * M.cols + i))).d = M.d k j i := by
  have h1 : j * M.cols + i < M.S := by
    have : (j + 1) * M.cols ≤ M.rows * M.cols := Nat.mul_le_mul_right _ (by omega)
    rw [Nat.succ_mul] at this
    unfold Motion.S
    omega
  unfold Motion.line
  have e1 : (k * M.S + (j * M.cols + i)) / M.S = k := by
    rw [Nat.add_comm, Nat.add_mul_div_right _ _ (S_pos M hM), Nat.div_eq_of_lt h1, Nat.zero_add]
  have e2 : (k * M.S + (j * M.cols + i)) % M.S = j * M.cols + i := by
    rw [Nat.add_comm, Nat.add_mul_mod_self_right, Nat.mod_eq_of_lt h1]
  have e3 : (j * M.cols + i) / M.cols = j := by
    rw [Nat.add_comm, Nat.add_mul_div_right _ _ (by omega), Nat.div_eq_of_lt hi, Nat.zero_add]
  have e4 : (j * M.cols + i) % M.cols = i := by
    rw [Nat.add_comm, Nat.add_mul_mod_self_right, Nat.mod_eq_of_lt hi]
  rw [e1, e2, e3, e4]

theorem read3_eq (M : Motion) (hM : M.Valid) (lines more : List (List ℝ)) (hl : M.IsRows lines) (w : ℤ → ℝ) :
    ∃ v, read3 M.cols M.rows M.times (lines ++ more) w = some v ∧ ∀ a : ℤ, 1 ≤ a → a ≤ M.N → v a = M.val a := by
  obtain ⟨rec, hrec, rfl⟩ := hl
  have hc := hM.cols
  have hn : (M.cols : ℤ) * M.rows * M.times = (M.N : ℤ) := by unfold Motion.N Motion.S; push_cast; ring
  obtain ⟨s, e, h1, h2⟩ := doLoop_inv (fun k s => doLoop 1 (M.rows : ℤ) (fun j s => read3Row M.cols M.rows M.times k j s) s)
    (fun k (s : List (List ℝ) × (ℤ → ℝ)) =>
      s.1 = ((List.range M.times).drop k).flatMap (fun k => (List.range M.rows).flatMap (rec k)) ++ more ∧
      ∀ a : ℤ, 1 ≤ a → a ≤ (k * M.S : ℕ) → s.2 a = M.val a) M.times (by
      intro k hk s ⟨hs1, hs2⟩
      have hd : (List.range M.times).drop k = k :: (List.range M.times).drop (k + 1) := by
        rw [List.drop_eq_getElem_cons (by simpa using hk)]
        simp
      rw [hd, List.flatMap_cons, List.append_assoc] at hs1
      have hkS : (k + 1) * M.S ≤ M.N := Nat.mul_le_mul_right _ (by omega)
      obtain ⟨s', e', p1, p2⟩ := doLoop_inv (fun j s => read3Row M.cols M.rows M.times ((k : ℤ) + 1) j s)
        (fun j (s : List (List ℝ) × (ℤ → ℝ)) =>
          s.1 = ((List.range M.rows).drop j).flatMap (rec k) ++
            (((List.range M.times).drop (k + 1)).flatMap (fun k => (List.range M.rows).flatMap (rec k)) ++ more) ∧
          ∀ a : ℤ, 1 ≤ a → a ≤ (k * M.S + j * M.cols : ℕ) → s.2 a = M.val a) M.rows (by
          intro j hj s1 ⟨q1, q2⟩
          have hd' : (List.range M.rows).drop j = j :: (List.range M.rows).drop (j + 1) := by
            rw [List.drop_eq_getElem_cons (by simpa using hj)]
            simp
          obtain ⟨hrow, hne⟩ := hrec k hk j hj
          have hlen : (rec k j).flatten.length = M.cols := by rw [hrow]; unfold Motion.row; simp
          have hlr : (M.row k j).length = M.cols := by unfold Motion.row; simp
          have hjS : (j + 1) * M.cols ≤ M.S := Nat.mul_le_mul_right _ (by omega)
          have hle : k * M.S + (j + 1) * M.cols ≤ M.N := by rw [Nat.succ_mul] at hkS; omega
          show ∃ s', read3Row M.cols M.rows M.times ((k : ℤ) + 1) ((j : ℤ) + 1) s1 = some s' ∧ _
          unfold read3Row
          rw [q1, hd', List.flatMap_cons, List.append_assoc, Int.toNat_natCast,
            readItems_chunk _ (rec k j) M.cols hne hlen (by omega)]
          simp only [Option.bind_some, hrow]
          have epos : ((k : ℤ) + 1 - 1) * M.cols * M.rows + ((j : ℤ) + 1 - 1) * M.cols + 1 = ((k * M.S + j * M.cols : ℕ) : ℤ) + 1 := by
            unfold Motion.S; push_cast; ring
          rw [epos, hn]
          obtain ⟨t, et, ht1, ht2⟩ := putRow_eq (M.N : ℤ) (M.row k j) (((k * M.S + j * M.cols : ℕ) : ℤ) + 1) s1.2 (by omega)
            (by rw [hlr]; rw [Nat.succ_mul] at hle; omega)
          rw [et]
          refine ⟨_, rfl, rfl, ?_⟩
          intro a ha1 ha2
          show t a = M.val a
          by_cases hlt : a < ((k * M.S + j * M.cols : ℕ) : ℤ) + 1
          · rw [ht1 a hlt]
            exact q2 a ha1 (by omega)
          · rw [Nat.succ_mul] at ha2
            obtain ⟨i, hi⟩ : ∃ i : ℕ, a = ((k * M.S + j * M.cols : ℕ) : ℤ) + 1 + i :=
              ⟨(a - (((k * M.S + j * M.cols : ℕ) : ℤ) + 1)).toNat, by omega⟩
            have hic : i < M.cols := by omega
            rw [hi, ht2 i (by rw [hlr]; exact hic)]
            have : ((k * M.S + j * M.cols : ℕ) : ℤ) + 1 + i = ((k * M.S + (j * M.cols + i) : ℕ) : ℤ) + 1 := by push_cast; ring
            rw [this, val_succ, line_at M hM k j i hj hic]
            unfold Motion.row
            simp) s ⟨by simpa using hs1, fun a ha1 ha2 => hs2 a ha1 (by simpa using ha2)⟩
      refine ⟨s', e', ?_, ?_⟩
      · rw [p1, List.drop_of_length_le (by simp)]
        simp
      · intro a ha1 ha2
        exact p2 a ha1 (by rw [Nat.succ_mul] at ha2; exact ha2))
    (((List.range M.times).flatMap fun k => (List.range M.rows).flatMap (rec k)) ++ more, w)
    ⟨by simp, fun a h1 h2 => by simp at h2; omega⟩
  refine ⟨s.2, ?_, fun a h3 h4 => h2 a h3 h4⟩
  unfold read3
  rw [e]; rfl

/-! ### Files that are too short -/

theorem read2_short (n : ℤ) (lines : List (List ℝ)) (w : ℤ → ℝ) (h0 : 0 < n) (hn : (lines.flatten.length : ℤ) < n) :
    read2 n lines w = none := by
  unfold read2
  cases e : doLoop 1 n (read2Value n) (lines, w) with
  | none => rfl
  | some s' =>
    exfalso
    obtain ⟨n', hnn⟩ : ∃ n' : ℕ, n = n' := ⟨n.toNat, by omega⟩
    subst hnn
    have := doLoop_after _ (fun k (s' : List (List ℝ) × (ℤ → ℝ)) => s'.1.flatten.length + k ≤ lines.flatten.length)
      (fun k s1 s2 h1 h2 => by
        unfold read2Value at h2
        cases e1 : readItems 1 s1.1 with
        | none => rw [e1] at h2; simp at h2
        | some r =>
          rw [e1] at h2
          simp only [Option.bind_some] at h2
          have hl := readItems_length s1.1 1 r.1 r.2 e1
          cases e2 : r.1 with
          | nil => rw [e2] at h2; simp at h2
          | cons v vs =>
            rw [e2] at h2
            simp only at h2
            cases e3 : put (n' : ℤ) s1.2 ((k : ℤ) + 1) v with
            | none => rw [e3] at h2; simp at h2
            | some t =>
              rw [e3] at h2
              simp only [Option.map_some, Option.some.injEq] at h2
              rw [← h2]
              show r.2.flatten.length + (k + 1) ≤ _
              have h1' : s1.1.flatten.length + k ≤ lines.flatten.length := h1
              omega) n' (lines, w) s' (by simp) e
    have h' : s'.1.flatten.length + n' ≤ lines.flatten.length := this
    omega

theorem read3_short (mx my mt : ℤ) (lines : List (List ℝ)) (w : ℤ → ℝ) (hmx : 0 < mx) (hmy : 0 < my) (hmt : 0 < mt)
    (hn : (lines.flatten.length : ℤ) < mx * my * mt) : read3 mx my mt lines w = none := by
  unfold read3
  cases e : doLoop 1 mt (fun k s => doLoop 1 my (fun j s => read3Row mx my mt k j s) s) (lines, w) with
  | none => rfl
  | some s' =>
    exfalso
    obtain ⟨a, ha⟩ : ∃ a : ℕ, mx = a := ⟨mx.toNat, by omega⟩
    obtain ⟨b, hb⟩ : ∃ b : ℕ, my = b := ⟨my.toNat, by omega⟩
    obtain ⟨c, hc⟩ : ∃ c : ℕ, mt = c := ⟨mt.toNat, by omega⟩
    subst ha hb hc
    have := doLoop_after _ (fun k (s' : List (List ℝ) × (ℤ → ℝ)) => s'.1.flatten.length + k * (b * a) ≤ lines.flatten.length)
      (fun k s1 s2 h1 h2 => by
        have h3 := doLoop_after _ (fun j (u : List (List ℝ) × (ℤ → ℝ)) => u.1.flatten.length + j * a ≤ s1.1.flatten.length)
          (fun j u u' g1 g2 => by
            unfold read3Row at g2
            rw [Int.toNat_natCast] at g2
            cases e1 : readItems a u.1 with
            | none => rw [e1] at g2; simp at g2
            | some r =>
              rw [e1] at g2
              simp only [Option.bind_some] at g2
              have hl := readItems_length u.1 a r.1 r.2 e1
              cases e2 : putRow ((a : ℤ) * b * c) r.1 (((k : ℤ) + 1 - 1) * a * b + ((j : ℤ) + 1 - 1) * a + 1) u.2 with
              | none => rw [e2] at g2; simp at g2
              | some t =>
                rw [e2] at g2
                simp only [Option.map_some, Option.some.injEq] at g2
                rw [← g2]
                show r.2.flatten.length + (j + 1) * a ≤ _
                have g1' : u.1.flatten.length + j * a ≤ s1.1.flatten.length := g1
                rw [Nat.succ_mul]
                omega) b s1 s2 (by simp) h2
        have h3' : s2.1.flatten.length + b * a ≤ s1.1.flatten.length := h3
        have h1' : s1.1.flatten.length + k * (b * a) ≤ lines.flatten.length := h1
        show s2.1.flatten.length + (k + 1) * (b * a) ≤ _
        rw [Nat.succ_mul]
        omega) c (lines, w) s' (by simp) e
    have h' : s'.1.flatten.length + c * (b * a) ≤ lines.flatten.length := this
    have : ((c * (b * a) : ℕ) : ℤ) = (a : ℤ) * b * c := by push_cast; ring
    omega

/-! ### Displacements at the nodes -/

theorem lerp_zero (a b : ℝ) : lerp a b 0 = a := by unfold lerp; ring
theorem lerp_one (a b : ℝ) : lerp a b 1 = b := by unfold lerp; ring

/-- A file with area, times and values of the motion. -/
theorem gives (M : Motion) (hM : M.Valid) (v : ℤ → ℝ) (dt : ℝ) (hdt : 0 ≤ dt) (hdt' : M.times ≠ 1 → dt = M.dt)
    (hv : ∀ a : ℤ, 1 ≤ a → a ≤ M.N → v a = M.val a) :
    M.Gives ⟨M.cols, M.rows, M.times, M.west, M.west + M.dx * ((M.cols : ℝ) - 1), M.south, M.south + M.dy * ((M.rows : ℝ) - 1), M.t0,
      M.t0 + dt * ((M.times : ℝ) - 1), M.dx, M.dy, dt, v⟩ := by
  have hc := hM.cols
  have hr := hM.rows
  have ht := hM.times
  have hx := hM.dx
  have hy := hM.dy
  set m : Move := ⟨M.cols, M.rows, M.times, M.west, M.west + M.dx * ((M.cols : ℝ) - 1), M.south, M.south + M.dy * ((M.rows : ℝ) - 1), M.t0,
      M.t0 + dt * ((M.times : ℝ) - 1), M.dx, M.dy, dt, v⟩ with hm
  have hval : m.Valid := ⟨hc, hr, ht, hx, hy, hdt, fun h => by show 0 < dt; rw [hdt' h]; exact hM.dt, rfl, rfl, rfl⟩
  have hvalue : ∀ k j i : ℕ, k < M.times → j < M.rows → i < M.cols → m.value (k + 1) (j + 1) (i + 1) = M.d k j i := by
    intro k j i hk hj hi
    unfold Move.value
    have : (1 : ℤ) + ((k : ℤ) + 1 - 1) * ((m.mx : ℤ) * m.my) + ((j : ℤ) + 1 - 1) * m.mx + ((i : ℤ) + 1 - 1) =
        ((k * M.S + (j * M.cols + i) : ℕ) : ℤ) + 1 := by
      show (1 : ℤ) + ((k : ℤ) + 1 - 1) * ((M.cols : ℤ) * M.rows) + ((j : ℤ) + 1 - 1) * M.cols + ((i : ℤ) + 1 - 1) = _
      unfold Motion.S; push_cast; ring
    rw [this]
    have h1 : j * M.cols + i + 1 ≤ M.S := by
      have : (j + 1) * M.cols ≤ M.rows * M.cols := Nat.mul_le_mul_right _ (by omega)
      rw [Nat.succ_mul] at this
      unfold Motion.S
      omega
    have h2 : (k + 1) * M.S ≤ M.N := Nat.mul_le_mul_right _ (by omega)
    rw [Nat.succ_mul] at h2
    show v _ = _
    rw [hv _ (by omega) (by omega), val_succ, line_at M hM k j i hj hi]
  have hcol : ∀ i : ℕ, m.col (i + 1) = M.x i := by
    intro i
    show M.west + ((((i : ℤ) + 1 : ℤ) : ℝ) - 1) * M.dx = M.west + _
    push_cast; ring
  have hrowp : ∀ j : ℕ, m.row (j + 1) = M.y j := by
    intro j
    show M.south + M.dy * ((M.rows : ℝ) - 1) - ((((j : ℤ) + 1 : ℤ) : ℝ) - 1) * M.dy = M.south + ((M.rows : ℝ) - 1 - j) * M.dy
    push_cast; ring
  refine ⟨hval, ⟨⟨?_, ?_⟩, ?_, ?_⟩, ⟨rfl, rfl⟩, ⟨?_, ?_⟩, ?_⟩
  · show M.west = _; unfold Motion.x; simp
  · show M.west + M.dx * ((M.cols : ℝ) - 1) = _
    unfold Motion.x; rw [Nat.cast_sub (by omega)]; push_cast; ring
  · show M.south = _
    unfold Motion.y; rw [Nat.cast_sub (by omega)]; push_cast; ring
  · show M.south + M.dy * ((M.rows : ℝ) - 1) = _
    unfold Motion.y; push_cast; ring
  · show M.t0 = _; unfold Motion.t; simp
  · show M.t0 + dt * ((M.times : ℝ) - 1) = _
    unfold Motion.t
    by_cases h : M.times = 1
    · rw [h]; simp
    · rw [hdt' h, Nat.cast_sub (by omega)]; push_cast; ring
  · intro k j i hk hj hi
    have hi' : (i : ℝ) ≤ (M.cols : ℝ) - 1 := by
      have : ((i + 1 : ℕ) : ℝ) ≤ M.cols := by exact_mod_cast hi
      push_cast at this; linarith
    have hj' : (j : ℝ) ≤ (M.rows : ℝ) - 1 := by
      have : ((j + 1 : ℕ) : ℝ) ≤ M.rows := by exact_mod_cast hj
      push_cast at this; linarith
    have hi0 : (0 : ℝ) ≤ i := Nat.cast_nonneg i
    have hj0 : (0 : ℝ) ≤ j := Nat.cast_nonneg j
    have hcov : m.Covers (M.x i) (M.y j) := by
      refine ⟨⟨?_, ?_⟩, ?_, ?_⟩
      · show M.west ≤ M.west + (i : ℝ) * M.dx
        nlinarith
      · show M.west + (i : ℝ) * M.dx ≤ M.west + M.dx * ((M.cols : ℝ) - 1)
        nlinarith
      · show M.south ≤ M.south + ((M.rows : ℝ) - 1 - j) * M.dy
        nlinarith
      · show M.south + ((M.rows : ℝ) - 1 - j) * M.dy ≤ M.south + M.dy * ((M.rows : ℝ) - 1)
        nlinarith
    have htk : m.t0 ≤ M.t k := by
      show M.t0 ≤ M.t0 + (k : ℝ) * M.dt
      have := hM.dt
      have : (0 : ℝ) ≤ (k : ℝ) * M.dt := by positivity
      linarith
    obtain ⟨d, e, hd, -⟩ := C100_displacement m hval (M.x i) (M.y j) (M.t k) hcov htk
    rw [e]
    congr 1
    have hcell := hd.2.2 hcov htk
    -- a cell with the node as a corner
    have hcx : ∃ i' : ℕ, i' + 1 < M.cols ∧ ((i' = i ∧ (M.x i - m.col (i' + 1)) / m.dx = 0) ∨
        (i' + 1 = i ∧ (M.x i - m.col (i' + 1)) / m.dx = 1)) := by
      by_cases h : i + 1 < M.cols
      · refine ⟨i, h, Or.inl ⟨rfl, ?_⟩⟩
        rw [hcol i]; simp
      · refine ⟨i - 1, by omega, Or.inr ⟨by omega, ?_⟩⟩
        rw [hcol (i - 1)]
        show (M.west + (i : ℝ) * M.dx - (M.west + ((i - 1 : ℕ) : ℝ) * M.dx)) / M.dx = 1
        rw [Nat.cast_sub (by omega), div_eq_one_iff_eq (ne_of_gt hx)]
        push_cast; ring
    have hcy : ∃ j' : ℕ, j' + 1 < M.rows ∧ ((j' = j ∧ (m.row (j' + 1) - M.y j) / m.dy = 0) ∨
        (j' + 1 = j ∧ (m.row (j' + 1) - M.y j) / m.dy = 1)) := by
      by_cases h : j + 1 < M.rows
      · refine ⟨j, h, Or.inl ⟨rfl, ?_⟩⟩
        rw [hrowp j]; simp
      · refine ⟨j - 1, by omega, Or.inr ⟨by omega, ?_⟩⟩
        rw [hrowp (j - 1)]
        show (M.south + ((M.rows : ℝ) - 1 - ((j - 1 : ℕ) : ℝ)) * M.dy - (M.south + ((M.rows : ℝ) - 1 - j) * M.dy)) / M.dy = 1
        rw [Nat.cast_sub (by omega), div_eq_one_iff_eq (ne_of_gt hy)]
        push_cast; ring
    obtain ⟨i', hi1, hi2⟩ := hcx
    obtain ⟨j', hj1, hj2⟩ := hcy
    have hplane : ∀ k : ℕ, k < M.times → m.plane (k + 1) (j' + 1) (i' + 1) (M.x i) (M.y j) = M.d k j i := by
      intro k hk
      unfold Move.plane
      have c2 : ((i' : ℤ) + 1 + 1) = (((i' + 1 : ℕ) : ℤ) + 1) := by push_cast; ring
      have r2 : ((j' : ℤ) + 1 + 1) = (((j' + 1 : ℕ) : ℤ) + 1) := by push_cast; ring
      rw [c2, r2]
      rcases hi2 with ⟨a1, a2⟩ | ⟨a1, a2⟩ <;> rcases hj2 with ⟨b1, b2⟩ | ⟨b1, b2⟩ <;> rw [a2, b2]
      · rw [lerp_zero, lerp_zero, hvalue k j' i' hk (by omega) (by omega), a1, b1]
      · rw [lerp_one, lerp_zero, hvalue k (j' + 1) i' hk (by omega) (by omega), a1, b1]
      · rw [lerp_zero, lerp_one, hvalue k j' (i' + 1) hk (by omega) (by omega), a1, b1]
      · rw [lerp_one, lerp_one, hvalue k (j' + 1) (i' + 1) hk (by omega) (by omega), a1, b1]
    have x1 : m.col ((i' : ℤ) + 1) ≤ M.x i := by
      rw [hcol i']
      show M.west + (i' : ℝ) * M.dx ≤ M.west + (i : ℝ) * M.dx
      have : (i' : ℝ) ≤ i := by exact_mod_cast (by omega : i' ≤ i)
      nlinarith
    have x2 : M.x i ≤ m.col ((i' : ℤ) + 1 + 1) := by
      have c2 : ((i' : ℤ) + 1 + 1) = (((i' + 1 : ℕ) : ℤ) + 1) := by push_cast; ring
      rw [c2, hcol (i' + 1)]
      show M.west + (i : ℝ) * M.dx ≤ M.west + ((i' + 1 : ℕ) : ℝ) * M.dx
      have : (i : ℝ) ≤ ((i' + 1 : ℕ) : ℝ) := by exact_mod_cast (by omega : i ≤ i' + 1)
      nlinarith
    have y1 : m.row ((j' : ℤ) + 1 + 1) ≤ M.y j := by
      have r2 : ((j' : ℤ) + 1 + 1) = (((j' + 1 : ℕ) : ℤ) + 1) := by push_cast; ring
      rw [r2, hrowp (j' + 1)]
      show M.south + ((M.rows : ℝ) - 1 - ((j' + 1 : ℕ) : ℝ)) * M.dy ≤ M.south + ((M.rows : ℝ) - 1 - j) * M.dy
      have : (j : ℝ) ≤ ((j' + 1 : ℕ) : ℝ) := by exact_mod_cast (by omega : j ≤ j' + 1)
      nlinarith
    have y2 : M.y j ≤ m.row ((j' : ℤ) + 1) := by
      rw [hrowp j']
      show M.south + ((M.rows : ℝ) - 1 - j) * M.dy ≤ M.south + ((M.rows : ℝ) - 1 - j') * M.dy
      have : (j' : ℝ) ≤ j := by exact_mod_cast (by omega : j' ≤ j)
      nlinarith
    obtain ⟨g1, g2⟩ := hcell ((i' : ℤ) + 1) ((j' : ℤ) + 1) (by omega) (by show _ < (M.cols : ℤ); omega) (by omega)
      (by show _ < (M.rows : ℤ); omega) x1 x2 y1 y2
    by_cases hlast : k + 1 = M.times
    · have htf : m.tf ≤ M.t k := by
        show M.t0 + dt * ((M.times : ℝ) - 1) ≤ M.t0 + (k : ℝ) * M.dt
        by_cases h : M.times = 1
        · have : k = 0 := by omega
          rw [h, this]; simp
        · rw [hdt' h, ← hlast]; push_cast; linarith
      rw [g1 htf]
      have : ((m.mt : ℕ) : ℤ) = (k : ℤ) + 1 := by show ((M.times : ℕ) : ℤ) = _; omega
      rw [this, hplane k hk]
    · have hne : M.times ≠ 1 := by omega
      have hdtp := hM.dt
      have hat : m.at ((k : ℤ) + 1) = M.t k := by
        show M.t0 + ((((k : ℤ) + 1 : ℤ) : ℝ) - 1) * dt = M.t0 + (k : ℝ) * M.dt
        rw [hdt' hne]; push_cast; ring
      have hat2 : M.t k ≤ m.at ((k : ℤ) + 1 + 1) := by
        show M.t0 + (k : ℝ) * M.dt ≤ M.t0 + ((((k : ℤ) + 1 + 1 : ℤ) : ℝ) - 1) * dt
        rw [hdt' hne]; push_cast; nlinarith
      rw [g2 ((k : ℤ) + 1) (by omega) (by show _ < ((M.times : ℕ) : ℤ); omega) (le_of_eq hat) hat2, hat, sub_self, zero_div, lerp_zero,
        hplane k hk]

end Fclaw.DtopoRead
