import Verif.TopoRead.Spec
import Verif.Fort.Loops
import Verif.Topo.Props
/-
Lemmas for C102.
-/
set_option autoImplicit false
set_option linter.unusedSimpArgs false
set_option linter.unusedVariables false
namespace Fclaw.TopoRead

open Fort

/-- An invariant of a loop. -/
theorem doLoop_inv {σ : Type} (f : ℤ → σ → Option σ) (P : ℕ → σ → Prop) :
    ∀ n : ℕ, (∀ k : ℕ, k < n → ∀ s, P k s → ∃ s', f ((k : ℤ) + 1) s = some s' ∧ P (k + 1) s') →
      ∀ s, P 0 s → ∃ s', doLoop 1 n f s = some s' ∧ P n s' := by
  intro n
  induction n with
  | zero =>
    intro _ s h
    refine ⟨s, ?_, h⟩
    unfold doLoop range
    simp [loop]
  | succ n ih =>
    intro hf s h
    obtain ⟨s1, e1, h1⟩ := ih (fun k hk => hf k (by omega)) s h
    obtain ⟨s2, e2, h2⟩ := hf n (by omega) s1 h1
    refine ⟨s2, ?_, h2⟩
    unfold doLoop at e1 ⊢
    rw [range_one_succ, loop_append, e1]
    have : (((n + 1 : ℕ)) : ℤ) = (n : ℤ) + 1 := by push_cast; ring
    simp only [Option.bind_some, loop, this, e2]

theorem flat_range {α : Type} (g : ℕ → ℕ → α) (c : ℕ) (hc : 0 < c) : ∀ r : ℕ,
    ((List.range r).flatMap fun j => (List.range c).map (g j)) = (List.range (r * c)).map fun n => g (n / c) (n % c) := by
  intro r
  induction r with
  | zero => simp
  | succ r ih =>
    rw [List.range_succ, List.flatMap_append, ih, Nat.succ_mul, List.range_add, List.map_append]
    congr 1
    rw [List.flatMap_cons, List.flatMap_nil, List.append_nil, List.map_map]
    apply List.map_congr_left
    intro i hi
    rw [List.mem_range] at hi
    simp only [Function.comp]
    rw [Nat.add_comm (r * c) i, Nat.add_mul_div_right _ _ hc, Nat.div_eq_of_lt hi, Nat.zero_add, Nat.add_mul_mod_self_right,
      Nat.mod_eq_of_lt hi]

/-- The value at position `a` of the array. -/
noncomputable def Raster.val (R : Raster) (a : ℤ) : ℝ := R.z ((a - 1).toNat / R.cols) ((a - 1).toNat % R.cols)

theorem xyz_eq (R : Raster) (hR : R.Valid) : R.xyz = (List.range (R.rows * R.cols)).map fun n =>
    (⟨R.x (n % R.cols), R.y (n / R.cols), R.z (n / R.cols) (n % R.cols)⟩ : Line) :=
  flat_range (fun j i => (⟨R.x i, R.y j, R.z j i⟩ : Line)) R.cols (by have := hR.cols; omega) R.rows

theorem column_eq (R : Raster) (hR : R.Valid) : R.column = (List.range (R.rows * R.cols)).map fun n =>
    [R.z (n / R.cols) (n % R.cols)] := by
  unfold Raster.column Raster.row
  simp only [List.map_map]
  exact flat_range (fun j i => [R.z j i]) R.cols (by have := hR.cols; omega) R.rows

/-! ### The header -/

theorem firstRow_run (yhi : ℝ) (m : Line) (rest : List Line) (hm : yhi ≠ m.y) :
    ∀ (run : List Line) (s k : ℤ), (∀ l ∈ run, l.y = yhi) →
      firstRow yhi (run ++ m :: rest) s k = some ((s + run.length + 1, k + run.length + 1), m, rest) := by
  intro run
  induction run with
  | nil =>
    intro s k _
    simp only [List.nil_append, firstRow, if_neg hm, List.length_nil, Nat.cast_zero, add_zero]
  | cons l run ih =>
    intro s k h
    have e : yhi = l.y := (h l (by simp)).symm
    simp only [List.cons_append, firstRow, if_pos e]
    rw [ih _ _ (fun l hl => h l (by simp [hl]))]
    simp only [List.length_cons]
    push_cast
    congr 3 <;> ring

theorem otherRows_eq : ∀ (ls : List Line) (last : Line) (s : ℤ),
    otherRows last ls s = ((last :: ls).getLast (by simp), s + ls.length) := by
  intro ls
  induction ls with
  | nil => intro last s; simp [otherRows]
  | cons l ls ih =>
    intro last s
    rw [otherRows, ih]
    simp only [List.length_cons, List.getLast_cons_cons]
    push_cast
    congr 1
    ring

theorem y_ne (R : Raster) (hR : R.Valid) (j : ℕ) (h : 0 < j) : R.y 0 ≠ R.y j := by
  intro e
  unfold Raster.y at e
  have h1 := hR.dy
  have h2 : (0 : ℝ) < j := by exact_mod_cast h
  have : (j : ℝ) * R.dy = 0 := by push_cast at e; linarith
  nlinarith [mul_pos h2 h1]

theorem header1_eq (R : Raster) (hR : R.Valid) :
    header1 R.xyz = some ⟨R.cols, R.rows, R.west, R.south, R.west + ((R.cols : ℝ) - 1) * R.dx,
      R.south + ((R.rows : ℝ) - 1) * R.dy, R.dx, R.dy⟩ := by
  have hc := hR.cols
  have hr := hR.rows
  have hdx := hR.dx
  have hdy := hR.dy
  obtain ⟨c, ec⟩ : ∃ c, R.cols = c + 2 := ⟨R.cols - 2, by omega⟩
  obtain ⟨r, er⟩ : ∃ r, R.rows = r + 2 := ⟨R.rows - 2, by omega⟩
  set g : ℕ → Line := fun n => ⟨R.x (n % R.cols), R.y (n / R.cols), R.z (n / R.cols) (n % R.cols)⟩ with hg
  have hN : R.rows * R.cols = 1 + ((c + 1) + (1 + (r * R.cols + (c + 1)))) := by rw [er, ec]; ring
  have hsplit : R.xyz = g 0 :: (((List.range (c + 1)).map fun n => g (1 + n)) ++ g R.cols ::
      (List.range (r * R.cols + (c + 1))).map fun n => g (1 + (c + 1 + (1 + n)))) := by
    rw [xyz_eq R hR, hN, List.range_add, List.map_append, List.range_add (n := c + 1), List.map_append, List.map_append,
      List.range_add (n := 1), List.map_append, List.map_append, List.map_append]
    simp only [List.map_map, List.range_one, List.map_cons, List.map_nil, List.singleton_append, Function.comp_def]
    have : 1 + (c + 1 + 0) = R.cols := by omega
    rw [this]
  have y0 : ∀ n, n < R.cols → (g n).y = R.y 0 := fun n hn => by
    show R.y (n / R.cols) = _
    rw [Nat.div_eq_of_lt hn]
  rw [hsplit]
  simp only [header1]
  have h0 : (g 0).y = R.y 0 := y0 0 (by omega)
  rw [firstRow_run _ (g R.cols) _ (by
    rw [h0]
    show R.y 0 ≠ R.y (R.cols / R.cols)
    rw [Nat.div_self (by omega)]
    exact y_ne R hR 1 (by omega)) _ _ _ (by
      intro l hl
      rw [List.mem_map] at hl
      obtain ⟨n, hn, rfl⟩ := hl
      rw [List.mem_range] at hn
      rw [y0 _ (by omega), h0])]
  simp only [Option.bind_some]
  rw [otherRows_eq]
  have hlast : (g R.cols :: (List.range (r * R.cols + (c + 1))).map fun n => g (1 + (c + 1 + (1 + n)))).getLast (by simp)
      = g (R.rows * R.cols - 1) := by
    rw [← Nat.add_assoc (r * R.cols) c 1, List.range_succ]
    simp only [List.map_append, List.map_cons, List.map_nil]
    rw [List.getLast_cons (by simp), List.getLast_append_singleton]
    congr 1
    omega
  rw [hlast]
  have hmod : (R.rows * R.cols - 1) % R.cols = R.cols - 1 := by
    have : R.rows * R.cols - 1 = (R.cols - 1) + (R.rows - 1) * R.cols := by
      rw [Nat.sub_mul]
      have : R.cols ≤ R.rows * R.cols := Nat.le_mul_of_pos_left _ (by omega)
      omega
    rw [this, Nat.add_mul_mod_self_right, Nat.mod_eq_of_lt (by omega)]
  have hdiv : (R.rows * R.cols - 1) / R.cols = R.rows - 1 := by
    have : R.rows * R.cols - 1 = (R.cols - 1) + (R.rows - 1) * R.cols := by
      rw [Nat.sub_mul]
      have : R.cols ≤ R.rows * R.cols := Nat.le_mul_of_pos_left _ (by omega)
      omega
    rw [this, Nat.add_mul_div_right _ _ (by omega), Nat.div_eq_of_lt (by omega), Nat.zero_add]
  have ex : (g (R.rows * R.cols - 1)).x = R.west + ((R.cols : ℝ) - 1) * R.dx := by
    show R.x ((R.rows * R.cols - 1) % R.cols) = _
    rw [hmod]
    unfold Raster.x
    rw [Nat.cast_sub (by omega)]
    push_cast
    ring
  have ey : (g (R.rows * R.cols - 1)).y = R.south := by
    show R.y ((R.rows * R.cols - 1) / R.cols) = _
    rw [hdiv]
    unfold Raster.y
    rw [Nat.cast_sub (by omega)]
    push_cast
    ring
  have e0 : (g 0).x = R.west := by
    show R.x (0 % R.cols) = _
    unfold Raster.x
    simp
  have ey0 : (g 0).y = R.south + ((R.rows : ℝ) - 1) * R.dy := by
    rw [h0]; unfold Raster.y; push_cast; ring
  simp only [List.length_map, List.length_range]
  have hmx : (1 : ℤ) + ((c + 1 : ℕ) : ℤ) + 1 - 1 = R.cols := by rw [ec]; push_cast; ring
  have hsz : (1 : ℤ) + ((c + 1 : ℕ) : ℤ) + 1 + ((r * R.cols + (c + 1) : ℕ) : ℤ) = (R.rows : ℤ) * R.cols := by
    have : ((R.rows * R.cols : ℕ) : ℤ) = _ := congrArg Nat.cast hN
    push_cast at this ⊢
    linarith
  rw [hmx, hsz, Int.mul_tdiv_cancel _ (by omega), if_neg (by omega), ex, ey, e0, ey0]
  have c1 : ((R.cols : ℝ) - 1) ≠ 0 := by
    have : (2 : ℝ) ≤ R.cols := by exact_mod_cast hc
    intro h; linarith
  have r1 : ((R.rows : ℝ) - 1) ≠ 0 := by
    have : (2 : ℝ) ≤ R.rows := by exact_mod_cast hr
    intro h; linarith
  congr 2
  · push_cast
    rw [div_eq_iff c1]; ring
  · push_cast
    rw [div_eq_iff r1]; ring

theorem header23_eq (R : Raster) (h : Head) (hh : R.HasHead h) :
    header23 h = ⟨R.cols, R.rows, R.west, R.south, R.west + ((R.cols : ℝ) - 1) * R.dx,
      R.south + ((R.rows : ℝ) - 1) * R.dy, R.dx, R.dy⟩ := by
  have hy : h.dy = R.dy := by
    unfold Head.dy
    rcases hh.dy with e | ⟨e, e'⟩
    · rw [e]
    · rw [e, hh.dx, e']
  have ex : (if h.xcorner = true then h.xll + 1 / 2 * R.dx else h.xll) = R.west := by
    rw [hh.xll]
    cases h.xcorner
    · simp
    · simp only [if_true]; ring
  have ey : (if h.ycorner = true then h.yll + 1 / 2 * R.dy else h.yll) = R.south := by
    rw [hh.yll]
    cases h.ycorner
    · simp
    · simp only [if_true]; ring
  unfold header23
  simp only
  rw [hy, hh.dx, ex, ey, hh.mx, hh.my]
  push_cast
  rfl

/-! ### The heights -/

theorem put_eq (n : ℤ) (topo : ℤ → ℝ) (i : ℤ) (v : ℝ) (h : 1 ≤ i ∧ i ≤ n) :
    put n topo i v = some (fun a => if a = i then v else topo a) := by
  unfold put; rw [if_pos h]

theorem read1_eq (R : Raster) (hR : R.Valid) (topo : ℤ → ℝ) :
    ∃ t, read1 R.cols R.rows R.xyz topo = some t ∧ ∀ a : ℤ, 1 ≤ a → a ≤ (R.rows : ℤ) * R.cols → t a = R.val a := by
  set g : ℕ → Line := fun n => ⟨R.x (n % R.cols), R.y (n / R.cols), R.z (n / R.cols) (n % R.cols)⟩ with hg
  have hx : R.xyz = (List.range (R.rows * R.cols)).map g := xyz_eq R hR
  have hlen : R.xyz.length = R.rows * R.cols := by rw [hx]; simp
  have hn : (R.cols : ℤ) * R.rows = ((R.rows * R.cols : ℕ) : ℤ) := by push_cast; ring
  obtain ⟨s, e, h1, h2⟩ := doLoop_inv (read1Line ((R.cols : ℤ) * R.rows))
    (fun k s => s.1 = R.xyz.drop k ∧ ∀ a : ℤ, 1 ≤ a → a ≤ k → s.2 a = R.val a) (R.rows * R.cols) (by
      intro k hk s ⟨hs1, hs2⟩
      have hd : R.xyz.drop k = g k :: R.xyz.drop (k + 1) := by
        rw [List.drop_eq_getElem_cons (by rw [hlen]; exact hk)]
        congr 1
        simp only [hx, List.getElem_map, List.getElem_range]
      unfold read1Line
      rw [hs1, hd]
      simp only
      rw [put_eq _ _ _ _ (by rw [hn]; constructor <;> omega)]
      refine ⟨_, rfl, rfl, ?_⟩
      intro a h1 h2
      show (if a = (k : ℤ) + 1 then (g k).z else s.2 a) = R.val a
      split
      · next h =>
        subst h
        unfold Raster.val
        have : ((k : ℤ) + 1 - 1).toNat = k := by omega
        rw [this]
      · next h => exact hs2 a h1 (by push_cast at h2; omega)) (R.xyz, topo) ⟨by simp, fun a h1 h2 => by push_cast at h2; omega⟩
  refine ⟨s.2, ?_, ?_⟩
  · unfold read1
    rw [hn] at e ⊢
    rw [e]; rfl
  · intro a ha1 ha2
    exact h2 a ha1 (by push_cast; exact ha2)

/-- What holds when positions up to `k` have been read. -/
def Upto (R : Raster) (noData topoMissing : ℝ) (k : ℕ) (s : Reading) : Prop :=
  (∀ a : ℤ, 1 ≤ a → a ≤ k → s.topo a = filled noData topoMissing (R.val a)) ∧ 0 ≤ s.missing ∧
  (0 < s.missing ↔ ∃ a : ℤ, 1 ≤ a ∧ a ≤ k ∧ R.val a = noData)

theorem replaceMissing_eq (R : Raster) (noData topoMissing : ℝ) (n : ℤ) (k : ℕ) (hk : (k : ℤ) + 1 ≤ n) (s : Reading)
    (hs : Upto R noData topoMissing k s) (hv : s.topo (k + 1) = R.val (k + 1)) :
    ∃ s', replaceMissing n noData topoMissing ((k : ℤ) + 1) s = some s' ∧ Upto R noData topoMissing (k + 1) s' ∧
      s'.lines = s.lines ∧ ∀ a : ℤ, (k : ℤ) + 1 < a → s'.topo a = s.topo a := by
  obtain ⟨h1, h2, h3⟩ := hs
  unfold replaceMissing
  rw [if_pos (by omega)]
  by_cases hm : s.topo ((k : ℤ) + 1) = noData
  · rw [if_pos hm, put_eq _ _ _ _ (by omega)]
    refine ⟨_, rfl, ⟨?_, ?_, ?_⟩, rfl, ?_⟩
    · intro a ha1 ha2
      show (if a = (k : ℤ) + 1 then topoMissing else s.topo a) = _
      split
      · next h =>
        subst h
        rw [hv] at hm
        unfold filled
        rw [if_pos hm]
      · next h => exact h1 a ha1 (by push_cast at ha2; omega)
    · show 0 ≤ s.missing + 1
      omega
    · show 0 < s.missing + 1 ↔ _
      constructor
      · intro _
        exact ⟨(k : ℤ) + 1, by omega, by push_cast; omega, by rw [← hv]; exact hm⟩
      · intro _; omega
    · intro a ha
      show (if a = (k : ℤ) + 1 then topoMissing else s.topo a) = _
      rw [if_neg (by omega)]
  · rw [if_neg hm]
    refine ⟨s, rfl, ⟨?_, h2, ?_⟩, rfl, fun _ _ => rfl⟩
    · intro a ha1 ha2
      by_cases h : a = (k : ℤ) + 1
      · subst h
        rw [hv] at hm ⊢
        unfold filled
        rw [if_neg hm]
      · exact h1 a ha1 (by push_cast at ha2; omega)
    · rw [h3]
      constructor
      · rintro ⟨a, ha1, ha2, ha3⟩
        exact ⟨a, ha1, by push_cast; omega, ha3⟩
      · rintro ⟨a, ha1, ha2, ha3⟩
        by_cases h : a = (k : ℤ) + 1
        · subst h; exact absurd (hv.trans ha3) hm
        · exact ⟨a, ha1, by push_cast at ha2; omega, ha3⟩

theorem read2_eq (R : Raster) (hR : R.Valid) (more : List (List ℝ)) (noData topoMissing : ℝ) (topo : ℤ → ℝ) :
    ∃ s, read2 R.cols R.rows noData topoMissing ⟨R.column ++ more, 0, topo⟩ = some s ∧
      Upto R noData topoMissing (R.rows * R.cols) s := by
  have hx := column_eq R hR
  have hlen : R.column.length = R.rows * R.cols := by rw [hx]; simp
  have hn : (R.cols : ℤ) * R.rows = ((R.rows * R.cols : ℕ) : ℤ) := by push_cast; ring
  obtain ⟨s, e, h1, h2⟩ := doLoop_inv (read2Value ((R.cols : ℤ) * R.rows) noData topoMissing)
    (fun k s => s.lines = R.column.drop k ++ more ∧ Upto R noData topoMissing k s) (R.rows * R.cols) (by
      intro k hk s ⟨hs1, hs2⟩
      have hd : R.column.drop k = [R.val (k + 1)] :: R.column.drop (k + 1) := by
        rw [List.drop_eq_getElem_cons (by rw [hlen]; exact hk)]
        congr 1
        simp only [hx, List.getElem_map, List.getElem_range]
        unfold Raster.val
        have : ((k : ℤ) + 1 - 1).toNat = k := by omega
        rw [this]
      unfold read2Value
      rw [hs1, hd]
      simp only [List.cons_append, readItems, List.length_cons, List.length_nil, Nat.zero_add, le_refl, if_true, List.take_succ_cons,
        List.take_zero, Option.bind_some]
      rw [put_eq _ _ _ _ (by rw [hn]; constructor <;> omega)]
      simp only [Option.bind_some]
      obtain ⟨s', e', hu, hl, _⟩ := replaceMissing_eq R noData topoMissing ((R.cols : ℤ) * R.rows) k (by rw [hn]; omega)
        { s with
          lines := R.column.drop (k + 1) ++ more
          topo := fun a => if a = (k : ℤ) + 1 then R.val (k + 1) else s.topo a }
        ⟨by
          intro a ha1 ha2
          show (if a = (k : ℤ) + 1 then _ else s.topo a) = _
          rw [if_neg (by omega)]
          exact hs2.1 a ha1 ha2, hs2.2⟩ (by
          show (if (k : ℤ) + 1 = (k : ℤ) + 1 then _ else _) = _
          rw [if_pos rfl])
      exact ⟨s', e', hl, hu⟩) ⟨R.column ++ more, 0, topo⟩ ⟨by simp, fun a h1 h2 => by push_cast at h2; omega, le_refl _,
        by
          simp only [lt_self_iff_false, false_iff]
          rintro ⟨a, h1, h2, _⟩
          push_cast at h2
          omega⟩
  refine ⟨s, ?_, h2⟩
  unfold read2
  rw [hn] at e ⊢
  exact e

/-- Lines that hold exactly the numbers that are read. -/
theorem readItems_chunk (more : List (List ℝ)) : ∀ (c : List (List ℝ)) (n : ℕ), (∀ r ∈ c, r ≠ []) → c.flatten.length = n → 0 < n →
    readItems n (c ++ more) = some (c.flatten, more) := by
  intro c
  induction c with
  | nil => intro n _ h hn; simp at h; omega
  | cons r c ih =>
    intro n hne hl hn
    simp only [List.flatten_cons, List.length_append] at hl
    simp only [List.cons_append, readItems]
    by_cases h : n ≤ r.length
    · rw [if_pos h]
      have h0 : c.flatten.length = 0 := by omega
      have hc : c = [] := by
        cases c with
        | nil => rfl
        | cons r' c =>
          have := hne r' (by simp)
          have h1 : 0 < r'.length := List.length_pos_iff.mpr this
          simp at h0
          exact absurd h0.1 this
      subst hc
      simp only [List.flatten_cons, List.flatten_nil, List.append_nil, List.nil_append]
      rw [List.take_of_length_le (by simp at hl; omega)]
    · rw [if_neg h, ih (n - r.length) (fun r hr => hne r (by simp [hr])) (by omega) (by omega)]
      rfl

theorem putRow_eq (n : ℤ) : ∀ (vs : List ℝ) (i : ℤ) (topo : ℤ → ℝ), 1 ≤ i → i + vs.length - 1 ≤ n →
    ∃ t, putRow n vs i topo = some t ∧ (∀ a : ℤ, a < i → t a = topo a) ∧
      ∀ k : ℕ, ∀ h : k < vs.length, t (i + k) = vs[k] := by
  intro vs
  induction vs with
  | nil => intro i topo _ _; exact ⟨topo, rfl, fun _ _ => rfl, fun k h => by simp at h⟩
  | cons v vs ih =>
    intro i topo h1 h2
    simp only [List.length_cons] at h2
    push_cast at h2
    obtain ⟨t, e, ha, hb⟩ := ih (i + 1) (fun a => if a = i then v else topo a) (by omega) (by omega)
    refine ⟨t, ?_, ?_, ?_⟩
    · simp only [putRow]
      rw [put_eq _ _ _ _ (by omega)]
      exact e
    · intro a h
      rw [ha a (by omega)]
      exact if_neg (by omega)
    · intro k h
      cases k with
      | zero =>
        simp only [Nat.cast_zero, add_zero, List.getElem_cons_zero]
        rw [ha i (by omega)]
        exact if_pos rfl
      | succ k =>
        simp only [List.getElem_cons_succ]
        rw [← hb k (by simpa using h)]
        congr 1
        push_cast
        ring

theorem read3_eq (R : Raster) (hR : R.Valid) (lines more : List (List ℝ)) (hl : R.IsRows lines) (noData topoMissing : ℝ) (topo : ℤ → ℝ) :
    ∃ s, read3 R.cols R.rows noData topoMissing ⟨lines ++ more, 0, topo⟩ = some s ∧
      Upto R noData topoMissing (R.rows * R.cols) s := by
  obtain ⟨rec, hrec, rfl⟩ := hl
  have hc := hR.cols
  have hn : (R.cols : ℤ) * R.rows = ((R.rows * R.cols : ℕ) : ℤ) := by push_cast; ring
  obtain ⟨s, e, h1, h2⟩ := doLoop_inv (fun j (s : Reading) =>
    (readItems (R.cols : ℤ).toNat s.lines).bind fun r =>
    (putRow ((R.cols : ℤ) * R.rows) r.1 ((j - 1) * R.cols + 1) s.topo).bind fun t =>
    doLoop 1 (R.cols : ℤ) (fun i s => replaceMissing ((R.cols : ℤ) * R.rows) noData topoMissing ((j - 1) * R.cols + i) s) { s with
      lines := r.2
      topo := t })
    (fun k s => s.lines = ((List.range R.rows).drop k).flatMap rec ++ more ∧ Upto R noData topoMissing (k * R.cols) s) R.rows (by
      intro k hk s ⟨hs1, hs2⟩
      have hd : (List.range R.rows).drop k = k :: (List.range R.rows).drop (k + 1) := by
        rw [List.drop_eq_getElem_cons (by simpa using hk)]
        simp
      have hrow := (hrec k hk).1
      have hlen : (rec k).flatten.length = R.cols := by rw [hrow]; unfold Raster.row; simp
      have hmul : (k + 1) * R.cols ≤ R.rows * R.cols := Nat.mul_le_mul_right _ (by omega)
      have hmul' : ((k : ℤ) + 1) * R.cols ≤ (R.cols : ℤ) * R.rows := by
        have : (((k + 1) * R.cols : ℕ) : ℤ) ≤ ((R.rows * R.cols : ℕ) : ℤ) := by exact_mod_cast hmul
        push_cast at this; linarith
      have hk0 : 0 ≤ (k : ℤ) * R.cols := by positivity
      rw [hs1, hd, List.flatMap_cons, List.append_assoc, Int.toNat_natCast,
        readItems_chunk _ (rec k) R.cols (hrec k hk).2 hlen (by omega)]
      simp only [Option.bind_some, hrow]
      have e1 : ((k : ℤ) + 1 - 1) * R.cols = (k : ℤ) * R.cols := by ring
      rw [e1]
      have hlr : (R.row k).length = R.cols := by unfold Raster.row; simp
      obtain ⟨t, et, ht1, ht2⟩ := putRow_eq ((R.cols : ℤ) * R.rows) (R.row k) ((k : ℤ) * R.cols + 1) s.topo (by omega)
        (by rw [hlr]; linarith)
      rw [et]
      simp only [Option.bind_some]
      have htv : ∀ i : ℕ, i < R.cols → t ((k : ℤ) * R.cols + 1 + i) = R.val ((k : ℤ) * R.cols + 1 + i) := by
        intro i hi
        rw [ht2 i (by rw [hlr]; exact hi)]
        unfold Raster.row Raster.val
        simp only [List.getElem_map, List.getElem_range]
        have : ((k : ℤ) * R.cols + 1 + i - 1).toNat = i + k * R.cols := by
          have : (k : ℤ) * R.cols + 1 + i - 1 = ((i + k * R.cols : ℕ) : ℤ) := by push_cast; ring
          rw [this, Int.toNat_natCast]
        rw [this, Nat.add_mul_div_right _ _ (by omega), Nat.div_eq_of_lt hi, Nat.zero_add, Nat.add_mul_mod_self_right,
          Nat.mod_eq_of_lt hi]
      obtain ⟨s', e', hu, hl', _⟩ := doLoop_inv
        (fun i s => replaceMissing ((R.cols : ℤ) * R.rows) noData topoMissing ((k : ℤ) * R.cols + i) s)
        (fun i s' => Upto R noData topoMissing (k * R.cols + i) s' ∧
          s'.lines = ((List.range R.rows).drop (k + 1)).flatMap rec ++ more ∧
          ∀ i' : ℕ, i ≤ i' → i' < R.cols → s'.topo ((k : ℤ) * R.cols + 1 + i') = R.val ((k : ℤ) * R.cols + 1 + i')) R.cols (by
          intro i hi s1 ⟨g1, g2, g3⟩
          have eq : (k : ℤ) * R.cols + ((i : ℤ) + 1) = ((k * R.cols + i : ℕ) : ℤ) + 1 := by push_cast; ring
          have eq2 : ((k * R.cols + i : ℕ) : ℤ) + 1 = (k : ℤ) * R.cols + 1 + i := by push_cast; ring
          obtain ⟨s2, e2, p1, p2, p3⟩ := replaceMissing_eq R noData topoMissing ((R.cols : ℤ) * R.rows) (k * R.cols + i) (by
            have : ((k : ℤ) + 1) * R.cols = (k : ℤ) * R.cols + R.cols := by ring
            push_cast
            omega) s1 g1 (by rw [eq2]; exact g3 i (le_refl _) hi)
          refine ⟨s2, ?_, p1, by rw [p2]; exact g2, ?_⟩
          · show replaceMissing _ _ _ ((k : ℤ) * R.cols + ((i : ℤ) + 1)) s1 = _
            rw [eq]; exact e2
          · intro i' h1 h2
            rw [p3 _ (by rw [eq2]; omega)]
            exact g3 i' (by omega) h2)
        { s with
          lines := ((List.range R.rows).drop (k + 1)).flatMap rec ++ more
          topo := t }
        ⟨⟨by
          intro a ha1 ha2
          show t a = _
          push_cast at ha2
          rw [ht1 a (by omega)]
          exact hs2.1 a ha1 (by push_cast; omega), by simpa using hs2.2⟩, rfl, fun i' _ h => htv i' h⟩
      refine ⟨s', e', hl', ?_⟩
      rw [Nat.succ_mul]
      exact hu) ⟨(List.range R.rows).flatMap rec ++ more, 0, topo⟩ ⟨by simp, fun a h1 h2 => by push_cast at h2; omega, le_refl _,
        by
          simp only [lt_self_iff_false, false_iff]
          rintro ⟨a, h1, h2, _⟩
          push_cast at h2
          omega⟩
  exact ⟨s, e, h2⟩

/-! ### Files that are too short -/

theorem doLoop_after {σ : Type} (f : ℤ → σ → Option σ) (P : ℕ → σ → Prop)
    (hf : ∀ k : ℕ, ∀ s s', P k s → f ((k : ℤ) + 1) s = some s' → P (k + 1) s') :
    ∀ (n : ℕ) (s s' : σ), P 0 s → doLoop 1 n f s = some s' → P n s' := by
  intro n
  induction n with
  | zero =>
    intro s s' h e
    unfold doLoop range at e
    simp [loop] at e
    rwa [← e]
  | succ n ih =>
    intro s s' h e
    unfold doLoop at e ih
    rw [range_one_succ, loop_append] at e
    cases e1 : loop (range 1 (n : ℤ)) f s with
    | none => rw [e1] at e; simp at e
    | some s1 =>
      rw [e1] at e
      have hc : (((n + 1 : ℕ)) : ℤ) = (n : ℤ) + 1 := by push_cast; ring
      simp only [Option.bind_some, loop, hc] at e
      cases e2 : f ((n : ℤ) + 1) s1 with
      | none => rw [e2] at e; simp at e
      | some s2 =>
        rw [e2] at e
        simp only [Option.bind_some, loop, Option.some.injEq] at e
        rw [← e]
        exact hf n s1 s2 (ih s s1 h e1) e2

theorem readItems_length : ∀ (lines : List (List ℝ)) (n : ℕ) (vs : List ℝ) (rest : List (List ℝ)),
    readItems n lines = some (vs, rest) → rest.flatten.length + n ≤ lines.flatten.length := by
  intro lines
  induction lines with
  | nil => intro n vs rest h; simp [readItems] at h
  | cons r rs ih =>
    intro n vs rest h
    simp only [readItems] at h
    by_cases hr : n ≤ r.length
    · rw [if_pos hr] at h
      simp only [Option.some.injEq, Prod.mk.injEq] at h
      rw [← h.2]
      simp only [List.flatten_cons, List.length_append]
      omega
    · rw [if_neg hr] at h
      cases e : readItems (n - r.length) rs with
      | none => rw [e] at h; simp at h
      | some p =>
        rw [e] at h
        simp only [Option.map_some, Option.some.injEq, Prod.mk.injEq] at h
        have := ih (n - r.length) p.1 p.2 e
        rw [← h.2]
        simp only [List.flatten_cons, List.length_append]
        omega

theorem replaceMissing_lines (n : ℤ) (noData tm : ℝ) (i : ℤ) (s s' : Reading) (h : replaceMissing n noData tm i s = some s') :
    s'.lines = s.lines := by
  unfold replaceMissing at h
  split at h
  · split at h
    · cases e : put n s.topo i tm with
      | none => rw [e] at h; simp at h
      | some t => rw [e] at h; simp only [Option.map_some, Option.some.injEq] at h; rw [← h]
    · simp only [Option.some.injEq] at h; rw [h]
  · simp at h

theorem read2Value_lines (n : ℤ) (noData tm : ℝ) (i : ℤ) (s s' : Reading) (h : read2Value n noData tm i s = some s') :
    s'.lines.flatten.length + 1 ≤ s.lines.flatten.length := by
  unfold read2Value at h
  cases e : readItems 1 s.lines with
  | none => rw [e] at h; simp at h
  | some r =>
    rw [e] at h
    simp only [Option.bind_some] at h
    have hl := readItems_length s.lines 1 r.1 r.2 e
    cases e1 : r.1 with
    | nil => rw [e1] at h; simp at h
    | cons v vs =>
      rw [e1] at h
      simp only at h
      cases e2 : put n s.topo i v with
      | none => rw [e2] at h; simp at h
      | some t =>
        rw [e2] at h
        simp only [Option.bind_some] at h
        rw [replaceMissing_lines _ _ _ _ _ _ h]
        exact hl

theorem read2_short (mx my : ℤ) (noData tm : ℝ) (s : Reading) (hmx : 0 < mx) (hmy : 0 < my)
    (hn : (s.lines.flatten.length : ℤ) < mx * my) : read2 mx my noData tm s = none := by
  cases e : read2 mx my noData tm s with
  | none => rfl
  | some s' =>
    exfalso
    have hpos : 0 < mx * my := mul_pos hmx hmy
    obtain ⟨n, hnn⟩ : ∃ n : ℕ, mx * my = n := ⟨(mx * my).toNat, by omega⟩
    unfold read2 at e
    rw [hnn] at e
    have := doLoop_after _ (fun k s' => s'.lines.flatten.length + k ≤ s.lines.flatten.length)
      (fun k s1 s2 h1 h2 => by
        have := read2Value_lines _ _ _ _ _ _ h2
        show s2.lines.flatten.length + (k + 1) ≤ _
        have h1' : s1.lines.flatten.length + k ≤ s.lines.flatten.length := h1
        omega) n s s' (by simp) e
    have h' : s'.lines.flatten.length + n ≤ s.lines.flatten.length := this
    omega

theorem read3_short (mx my : ℤ) (noData tm : ℝ) (s : Reading) (hmx : 0 < mx) (hmy : 0 < my)
    (hn : (s.lines.flatten.length : ℤ) < mx * my) : read3 mx my noData tm s = none := by
  cases e : read3 mx my noData tm s with
  | none => rfl
  | some s' =>
    exfalso
    obtain ⟨m, hm⟩ : ∃ m : ℕ, mx = m := ⟨mx.toNat, by omega⟩
    obtain ⟨n, hnn⟩ : ∃ n : ℕ, my = n := ⟨my.toNat, by omega⟩
    unfold read3 at e
    subst hm hnn
    have := doLoop_after _ (fun k s' => s'.lines.flatten.length + k * m ≤ s.lines.flatten.length)
      (fun k s1 s2 h1 h2 => by
        rw [Int.toNat_natCast] at h2
        cases e1 : readItems m s1.lines with
        | none => rw [e1] at h2; simp at h2
        | some r =>
          rw [e1] at h2
          simp only [Option.bind_some] at h2
          have hl := readItems_length s1.lines m r.1 r.2 e1
          cases e2 : putRow ((m : ℤ) * n) r.1 (((k : ℤ) + 1 - 1) * m + 1) s1.topo with
          | none => rw [e2] at h2; simp at h2
          | some t =>
            rw [e2] at h2
            simp only [Option.bind_some] at h2
            have h3 := doLoop_after _ (fun _ s' => s'.lines = r.2)
              (fun k' u u' hu hu' => by
                show u'.lines = r.2
                rw [replaceMissing_lines _ _ _ _ _ _ hu']
                exact hu) m _ s2 rfl h2
            have h4 : s2.lines = r.2 := h3
            rw [h4, Nat.succ_mul]
            omega) n s s' (by simp) e
    have h' : s'.lines.flatten.length + n * m ≤ s.lines.flatten.length := this
    have : ((n * m : ℕ) : ℤ) = (m : ℤ) * n := by push_cast; ring
    omega

/-! ### The ground at the nodes -/

theorem height_node (T : Topo.File) (hT : T.Valid) (i j : ℤ) (hi : 0 ≤ i ∧ i < T.mx) (hj : 0 ≤ j ∧ j < T.my) :
    T.height (T.xlow + (i : ℝ) * T.dx, T.ylow + (j : ℝ) * T.dy) = T.node i j := by
  have hmx := hT.mx
  have hmy := hT.my
  have dx := hT.dx
  have dy := hT.dy
  have key : ∀ (a : ℤ), 0 ≤ a → ∃ b : ℤ, 0 ≤ b ∧ (b = a ∨ b + 1 = a) := fun a ha => ⟨a, ha, Or.inl rfl⟩
  rw [Topo.File.height_eq T hT i j hi.1 hj.1 _ ⟨by simp, by simp only; nlinarith⟩ ⟨by simp, by simp only; nlinarith⟩]
  unfold Topo.File.bilinear
  simp only
  have e1 : (T.xlow + (i : ℝ) * T.dx - T.xlow) / T.dx - i = 0 := by
    rw [add_sub_cancel_left, mul_div_assoc, div_self (ne_of_gt dx)]; ring
  have e2 : (T.ylow + (j : ℝ) * T.dy - T.ylow) / T.dy - j = 0 := by
    rw [add_sub_cancel_left, mul_div_assoc, div_self (ne_of_gt dy)]; ring
  rw [e1, e2]
  ring

/-- A file with the header of the grid and values in the order of the rows. -/
theorem gives (R : Raster) (hR : R.Valid) (v : ℕ → ℕ → ℝ) (t : ℤ → ℝ)
    (ht : ∀ i j : ℕ, i < R.cols → j < R.rows → t ((j : ℤ) * R.cols + (i + 1)) = v j i) :
    R.Gives v ⟨R.cols, R.rows, R.west, R.west + ((R.cols : ℝ) - 1) * R.dx, R.south, R.south + ((R.rows : ℝ) - 1) * R.dy, R.dx, R.dy,
      fun c => t ((c.2 - 1) * R.cols + c.1)⟩ := by
  have hc := hR.cols
  have hr := hR.rows
  set T : Topo.File := ⟨R.cols, R.rows, R.west, R.west + ((R.cols : ℝ) - 1) * R.dx, R.south, R.south + ((R.rows : ℝ) - 1) * R.dy, R.dx, R.dy,
      fun c => t ((c.2 - 1) * R.cols + c.1)⟩ with hTdef
  have hT : T.Valid := ⟨hc, hr, hR.dx, hR.dy, rfl, rfl⟩
  refine ⟨hT, ⟨rfl, rfl⟩, ?_, ?_⟩
  · unfold Topo.File.extent
    have e1 : R.x 0 = T.xlow := by show R.west + _ = R.west; simp
    have e2 : R.x (R.cols - 1) = T.xhi := by
      show R.west + ((R.cols - 1 : ℕ) : ℝ) * R.dx = _
      rw [Nat.cast_sub (by omega)]; push_cast; rfl
    have e3 : R.y (R.rows - 1) = T.ylow := by
      show R.south + ((R.rows : ℝ) - 1 - ((R.rows - 1 : ℕ) : ℝ)) * R.dy = R.south
      rw [Nat.cast_sub (by omega)]; push_cast; ring
    have e4 : R.y 0 = T.yhi := by
      show R.south + ((R.rows : ℝ) - 1 - ((0 : ℕ) : ℝ)) * R.dy = R.south + ((R.rows : ℝ) - 1) * R.dy
      push_cast; ring
    rw [e1, e2, e3, e4]
  · intro i j hi hj
    have e1 : R.x i = T.xlow + ((i : ℤ) : ℝ) * T.dx := by show R.west + _ = R.west + _; push_cast; rfl
    have e2 : R.y j = T.ylow + (((R.rows - 1 - j : ℤ)) : ℝ) * T.dy := by
      show R.south + _ = R.south + _
      push_cast; rfl
    rw [e1, e2, height_node T hT i (R.rows - 1 - j) ⟨by omega, by show (i : ℤ) < (R.cols : ℤ); omega⟩
      ⟨by omega, by show _ < (R.rows : ℤ); omega⟩]
    unfold Topo.File.node
    show t (((R.rows : ℤ) - (R.rows - 1 - j) - 1) * R.cols + (i + 1)) = _
    rw [← ht i j hi hj]
    congr 1
    ring

theorem pos_range (R : Raster) (i j : ℕ) (hi : i < R.cols) (hj : j < R.rows) :
    1 ≤ (j : ℤ) * R.cols + (i + 1) ∧ (j : ℤ) * R.cols + (i + 1) ≤ (R.rows : ℤ) * R.cols := by
  have h1 : 0 ≤ (j : ℤ) * R.cols := by positivity
  have h2 : ((j : ℤ) + 1) * R.cols ≤ (R.rows : ℤ) * R.cols := mul_le_mul_of_nonneg_right (by omega) (by omega)
  have h3 : ((j : ℤ) + 1) * R.cols = (j : ℤ) * R.cols + R.cols := by ring
  omega

theorem val_pos (R : Raster) (i j : ℕ) (hi : i < R.cols) : R.val ((j : ℤ) * R.cols + (i + 1)) = R.z j i := by
  unfold Raster.val
  have : ((j : ℤ) * R.cols + (i + 1) - 1).toNat = i + j * R.cols := by
    have : (j : ℤ) * R.cols + (i + 1) - 1 = ((i + j * R.cols : ℕ) : ℤ) := by push_cast; ring
    rw [this, Int.toNat_natCast]
  rw [this, Nat.add_mul_div_right _ _ (by omega), Nat.div_eq_of_lt hi, Nat.zero_add, Nat.add_mul_mod_self_right, Nat.mod_eq_of_lt hi]

theorem gap_iff (R : Raster) (hR : R.Valid) (noData : ℝ) :
    (∃ a : ℤ, 1 ≤ a ∧ a ≤ ((R.rows * R.cols : ℕ) : ℤ) ∧ R.val a = noData) ↔ R.Gap noData := by
  have hc := hR.cols
  constructor
  · rintro ⟨a, h1, h2, h3⟩
    refine ⟨(a - 1).toNat % R.cols, (a - 1).toNat / R.cols, Nat.mod_lt _ (by omega), ?_, h3⟩
    rw [Nat.div_lt_iff_lt_mul (by omega)]
    omega
  · rintro ⟨i, j, hi, hj, h⟩
    have := pos_range R i j hi hj
    exact ⟨_, this.1, by push_cast; exact this.2, by rw [val_pos R i j hi]; exact h⟩

end Fclaw.TopoRead
