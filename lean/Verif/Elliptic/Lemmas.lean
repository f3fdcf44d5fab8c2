import Verif.Elliptic.Spec
import Verif.Fort.Loops
import Mathlib.Tactic.Ring
import Mathlib.Tactic.FieldSimp
import Mathlib.Tactic.Linarith
import Mathlib.Tactic.IntervalCases
/-
What the loops over the sides, the stencil and the corrections of the right-hand side do.
-/
set_option autoImplicit false
set_option linter.unusedSimpArgs false
set_option linter.unusedVariables false
namespace Fclaw.Elliptic

open Fort
open Transfer (divide)

variable {I : Info} {op : Op}

theorem divide_eq (x y : ℚ) (h : y ≠ 0) : divide x y = some (x / y) := by
  unfold Transfer.divide; rw [if_neg h]

theorem at_eq (u : Grid ℚ) (i j m : ℤ) (h : inBox I.d (i + 1, j + 1, m + 1) = true) :
    at' I u i j m = some (u (i + 1, j + 1, m + 1)) := by
  unfold at' rd; rw [if_pos h]

theorem set_eq (u : Grid ℚ) (i j m : ℤ) (v : ℚ) (h : inBox I.d (i + 1, j + 1, m + 1) = true) :
    set' I u i j m v = some (fun c => if c = (i + 1, j + 1, m + 1) then v else u c) := by
  unfold set' wr; rw [if_pos h]

/-! ### Filling ghost cells -/

/-- Programs that write to elements outside of `T`, whose values depend on what the elements in `T` hold. -/
def Fills (T : Cell → Prop) (u : Grid ℚ) (S : Cell → Prop) (w : Cell → ℚ) (f : Grid ℚ → Option (Grid ℚ)) : Prop :=
  ∀ q, (∀ c, T c → q c = u c) → ∃ q', f q = some q' ∧ (∀ c, T c → q' c = u c) ∧ (∀ c, S c → q' c = w c) ∧
    ∀ c, ¬ S c → q' c = q c

variable {T S S' : Cell → Prop} {u : Grid ℚ} {w : Cell → ℚ}

theorem Fills.congr {f : Grid ℚ → Option (Grid ℚ)} (h : Fills T u S w f) (hs : ∀ c, S c ↔ S' c) : Fills T u S' w f := by
  have : S = S' := funext fun c => propext (hs c)
  rw [← this]; exact h

theorem Fills.skip : Fills T u (fun _ => False) w (fun q => some q) :=
  fun q hq => ⟨q, rfl, hq, fun _ h => h.elim, fun _ _ => rfl⟩

theorem Fills.loop {ι : Type} {S : ι → Cell → Prop} {f : ι → Grid ℚ → Option (Grid ℚ)} (ks : List ι)
    (h : ∀ k ∈ ks, Fills T u (S k) w (f k)) : Fills T u (fun c => ∃ k ∈ ks, S k c) w (Fort.loop ks f) := by
  induction ks with
  | nil => exact fun q hq => ⟨q, rfl, hq, fun c ⟨k, hk, _⟩ => by simp at hk, fun _ _ => rfl⟩
  | cons k ks ih =>
    intro q hq
    obtain ⟨q1, e1, t1, a1, b1⟩ := h k (List.mem_cons_self ..) q hq
    obtain ⟨q2, e2, t2, a2, b2⟩ := ih (fun k' hk' => h k' (List.mem_cons_of_mem _ hk')) q1 t1
    refine ⟨q2, by simp [Fort.loop, e1, e2], t2, ?_, ?_⟩
    · rintro c ⟨k', hk', hs⟩
      by_cases hc : ∃ k ∈ ks, S k c
      · exact a2 c hc
      · rw [b2 c hc]
        rcases List.mem_cons.1 hk' with rfl | hk'
        · exact a1 c hs
        · exact absurd ⟨k', hk', hs⟩ hc
    · intro c hc
      rw [b2 c (fun ⟨k', hk', hs⟩ => hc ⟨k', List.mem_cons_of_mem _ hk', hs⟩),
        b1 c (fun hs => hc ⟨k, List.mem_cons_self .., hs⟩)]

theorem Fills.doLoop {lo hi : ℤ} {S : ℤ → Cell → Prop} {f : ℤ → Grid ℚ → Option (Grid ℚ)}
    (h : ∀ k, lo ≤ k → k ≤ hi → Fills T u (S k) w (f k)) :
    Fills T u (fun c => ∃ k, (lo ≤ k ∧ k ≤ hi) ∧ S k c) w (Fort.doLoop lo hi f) := by
  refine (Fills.loop (S := S) (range lo hi) fun k hk => ?_).congr fun c => ?_
  · rw [mem_range] at hk; exact h k hk.1 hk.2
  · simp only [mem_range]

/-- One assignment `ghosts(j,m) = s*u(…)`. -/
theorem Fills.one (i j i' j' m : ℤ) (s : ℚ) (hb : inBox I.d (i + 1, j + 1, m + 1) = true)
    (hb' : inBox I.d (i' + 1, j' + 1, m + 1) = true) (hT : T (i + 1, j + 1, m + 1)) (hT' : ¬ T (i' + 1, j' + 1, m + 1))
    (hw : w (i' + 1, j' + 1, m + 1) = s * u (i + 1, j + 1, m + 1)) :
    Fills T u (fun c => c = (i' + 1, j' + 1, m + 1)) w
      (fun q => (at' I q i j m).bind fun v => set' I q i' j' m (s * v)) := by
  intro q hq
  refine ⟨fun c => if c = (i' + 1, j' + 1, m + 1) then s * q (i + 1, j + 1, m + 1) else q c, ?_, ?_, ?_, ?_⟩
  · beta_reduce
    rw [at_eq q i j m hb]
    exact set_eq q i' j' m _ hb'
  · intro c hc
    have : c ≠ (i' + 1, j' + 1, m + 1) := by rintro rfl; exact hT' hc
    beta_reduce
    rw [if_neg this]; exact hq c hc
  · rintro c rfl
    beta_reduce
    rw [if_pos rfl, hq _ hT, hw]
  · intro c hc
    beta_reduce
    rw [if_neg hc]

/-- The cells of the patch. -/
def Body (I : Info) (c : Cell) : Prop := Inside I c.1 c.2.1 ∧ Field I c.2.2

/-- The ghost cells along side `k`. -/
def Layer (I : Info) (k : Nat) (c : Cell) : Prop :=
  Field I c.2.2 ∧ match k with
  | 0 => c.1 = 0 ∧ 1 ≤ c.2.1 ∧ c.2.1 ≤ I.d.my
  | 1 => c.1 = I.d.mx + 1 ∧ 1 ≤ c.2.1 ∧ c.2.1 ≤ I.d.my
  | 2 => c.2.1 = 0 ∧ 1 ≤ c.1 ∧ c.1 ≤ I.d.mx
  | _ => c.2.1 = I.d.my + 1 ∧ 1 ≤ c.1 ∧ c.1 ≤ I.d.mx

/-- The cell of the patch that a ghost cell along side `k` touches. -/
def inner (I : Info) (k : Nat) (c : Cell) : Cell :=
  match k with
  | 0 => (1, c.2.1, c.2.2)
  | 1 => ((I.d.mx : ℤ), c.2.1, c.2.2)
  | 2 => (c.1, 1, c.2.2)
  | _ => (c.1, (I.d.my : ℤ), c.2.2)

theorem fillSide_fills (hm : 1 ≤ I.d.mbc) (hc : Cells I) (k : Nat) (hk : k < 4) (s : ℚ) (w : Cell → ℚ)
    (hw : ∀ c, Layer I k c → w c = s * u (inner I k c)) :
    Fills (Body I) u (Layer I k) w (fillSide I s k) := by
  have hx := hc.mx
  have hy := hc.my
  interval_cases k
  · refine Fills.congr (Fills.doLoop fun m m1 m2 => Fills.doLoop fun j j1 j2 =>
      Fills.one 0 j (-1) j m s ?_ ?_ ?_ ?_ ?_) ?_
    · rw [inBox_iff]; omega
    · rw [inBox_iff]; omega
    · simp only [Body, Inside, Field]; omega
    · simp only [Body, Inside, Field]; omega
    · rw [hw]
      · simp [inner]
      · simp only [Layer, Field]; omega
    · rintro ⟨a, b, c⟩
      simp only [Layer, Field, Prod.mk.injEq]
      constructor
      · rintro ⟨m, hm, j, hj, h⟩; omega
      · intro h; exact ⟨c - 1, by omega, b - 1, by omega, by omega⟩
  · refine Fills.congr (Fills.doLoop fun m m1 m2 => Fills.doLoop fun j j1 j2 =>
      Fills.one (I.d.mx - 1) j I.d.mx j m s ?_ ?_ ?_ ?_ ?_) ?_
    · rw [inBox_iff]; omega
    · rw [inBox_iff]; omega
    · simp only [Body, Inside, Field]; omega
    · simp only [Body, Inside, Field]; omega
    · rw [hw]
      · simp [inner]
      · simp only [Layer, Field]; refine ⟨by omega, trivial, by omega, by omega⟩
    · rintro ⟨a, b, c⟩
      simp only [Layer, Field, Prod.mk.injEq]
      constructor
      · rintro ⟨m, hm, j, hj, h⟩; omega
      · intro h; exact ⟨c - 1, by omega, b - 1, by omega, by omega⟩
  · refine Fills.congr (Fills.doLoop fun m m1 m2 => Fills.doLoop fun j j1 j2 =>
      Fills.one j 0 j (-1) m s ?_ ?_ ?_ ?_ ?_) ?_
    · rw [inBox_iff]; omega
    · rw [inBox_iff]; omega
    · simp only [Body, Inside, Field]; omega
    · simp only [Body, Inside, Field]; omega
    · rw [hw]
      · simp [inner]
      · simp only [Layer, Field]; omega
    · rintro ⟨a, b, c⟩
      simp only [Layer, Field, Prod.mk.injEq]
      constructor
      · rintro ⟨m, hm, j, hj, h⟩; omega
      · intro h; exact ⟨c - 1, by omega, a - 1, by omega, by omega⟩
  · refine Fills.congr (Fills.doLoop fun m m1 m2 => Fills.doLoop fun j j1 j2 =>
      Fills.one j (I.d.my - 1) j I.d.my m s ?_ ?_ ?_ ?_ ?_) ?_
    · rw [inBox_iff]; omega
    · rw [inBox_iff]; omega
    · simp only [Body, Inside, Field]; omega
    · simp only [Body, Inside, Field]; omega
    · rw [hw]
      · simp [inner]
      · simp only [Layer, Field]; refine ⟨by omega, trivial, by omega, by omega⟩
    · rintro ⟨a, b, c⟩
      simp only [Layer, Field, Prod.mk.injEq]
      constructor
      · rintro ⟨m, hm, j, hj, h⟩; omega
      · intro h; exact ⟨c - 1, by omega, a - 1, by omega, by omega⟩

theorem layer_unique (hc : Cells I) (k l : Nat) (c : Cell) (hk : k < 4) (hl : l < 4) (h : Layer I k c) (h' : Layer I l c) : k = l := by
  have := hc.mx; have := hc.my
  interval_cases k <;> interval_cases l <;> simp only [Layer] at h h' <;> omega

/-- What a ghost cell along one of the sides gets. -/
def filled (I : Info) (s : Nat → ℚ) (u : Grid ℚ) (c : Cell) : ℚ :=
  if c.1 = 0 then s 0 * u (inner I 0 c) else if c.1 = I.d.mx + 1 then s 1 * u (inner I 1 c)
  else if c.2.1 = 0 then s 2 * u (inner I 2 c) else s 3 * u (inner I 3 c)

theorem filled_eq (s : Nat → ℚ) (k : Nat) (hk : k < 4) (c : Cell) (h : Layer I k c) :
    filled I s u c = s k * u (inner I k c) := by
  unfold filled
  interval_cases k <;> simp only [Layer] at h
  · rw [if_pos h.2.1]
  · rw [if_neg (by omega), if_pos h.2.1]
  · rw [if_neg (by omega), if_neg (by omega), if_pos h.2.1]
  · rw [if_neg (by omega), if_neg (by omega), if_neg (by omega)]

theorem fillSides_spec (hm : 1 ≤ I.d.mbc) (hc : Cells I) (on : Nat → Bool) (s : Nat → ℚ) (u : Grid ℚ) :
    ∃ u', fillSides I on s u = some u' ∧
      (∀ k < 4, on k = true → ∀ c, Layer I k c → u' c = s k * u (inner I k c)) ∧
      (∀ c, (∀ k < 4, on k = true → ¬ Layer I k c) → u' c = u c) := by
  have h : Fills (Body I) u (fun c => ∃ k ∈ [0, 1, 2, 3], on k = true ∧ Layer I k c) (filled I s u)
      (Fort.loop [0, 1, 2, 3] (fun k u => if on k then fillSide I (s k) k u else some u)) := by
    refine Fills.loop (S := fun k c => on k = true ∧ Layer I k c) _ fun k hk => ?_
    have hk4 : k < 4 := by simp at hk; omega
    cases ho : on k with
    | false =>
      refine (Fills.skip (T := Body I) (u := u)).congr fun c => ?_
      simp
    | true =>
      simp only [if_true, true_and]
      exact fillSide_fills hm hc k hk4 (s k) _ fun c hcc => filled_eq s k hk4 c hcc
  obtain ⟨u', e, -, a, b⟩ := h u fun _ _ => rfl
  refine ⟨u', e, ?_, ?_⟩
  · intro k hk ho c hl
    rw [a c ⟨k, by interval_cases k <;> simp, ho, hl⟩, filled_eq s k hk c hl]
  · intro c hcc
    refine b c ?_
    rintro ⟨k, hk, ho, hl⟩
    exact hcc k (by simp at hk; omega) ho hl

/-! ### The stencil -/

theorem box_of (hm : 1 ≤ I.d.mbc) {i j m : ℤ} (h : Inside I i j) (hf : Field I m) :
    inBox I.d (i, j, m) = true ∧ inBox I.d (i - 1, j, m) = true ∧ inBox I.d (i + 1, j, m) = true ∧
      inBox I.d (i, j - 1, m) = true ∧ inBox I.d (i, j + 1, m) = true := by
  unfold Inside at h
  unfold Field at hf
  refine ⟨?_, ?_, ?_, ?_, ?_⟩ <;> rw [inBox_iff] <;> omega

theorem rd_eq (u : Grid ℚ) (c : Cell) (h : inBox I.d c = true) : rd I.d u c = some (u c) := by
  unfold rd; rw [if_pos h]

/-- The sum over the sides with the values that stand in the array. -/
def plain (I : Info) (op : Op) (u : Grid ℚ) (i j m : ℤ) : ℚ :=
  (∑ k ∈ Finset.range 4, op.coeff k i j * (u ((next k i j).1, (next k i j).2, m) - u (i, j, m)) / I.h k ^ 2) +
    op.lambda * u (i, j, m)

theorem stencil_eq (hok : Ok I op) (u : Grid ℚ) (i j m : ℤ) (h : Inside I (i + 1) (j + 1)) (hf : Field I (m + 1)) :
    stencil I op u i j m = some (plain I op u (i + 1) (j + 1) (m + 1)) := by
  have hf1 : Field I 1 := by unfold Field at hf ⊢; omega
  obtain ⟨b1, b2, b3, b4, b5⟩ := box_of hok.mbc h hf
  obtain ⟨d1, d2, d3, d4, d5⟩ := box_of hok.mbc h hf1
  have hdx := hok.dx
  have hdy := hok.dy
  have e1 : i - 1 + 1 = i + 1 - 1 := by ring
  have e2 : j - 1 + 1 = j + 1 - 1 := by ring
  unfold stencil at'
  simp only [e1, e2, zero_add, rd_eq u _ b1, rd_eq u _ b2, rd_eq u _ b3, rd_eq u _ b4, rd_eq u _ b5, Option.bind_some]
  cases op with
  | fivePoint =>
    simp only [divide_eq _ _ (mul_ne_zero hdx hdx), divide_eq _ _ (mul_ne_zero hdy hdy), Option.bind_some,
      Option.some.injEq]
    simp only [plain, Finset.sum_range_succ, Finset.sum_range_zero, Op.coeff, Op.lambda, next, Info.h]
    norm_num
    ring
  | heat lambda bc =>
    simp only [divide_eq _ _ (mul_ne_zero hdx hdx), divide_eq _ _ (mul_ne_zero hdy hdy), Option.bind_some,
      Option.some.injEq]
    simp only [plain, Finset.sum_range_succ, Finset.sum_range_zero, Op.coeff, Op.lambda, next, Info.h]
    norm_num
    ring
  | varPoisson beta =>
    simp only [rd_eq beta _ d1, rd_eq beta _ d2, rd_eq beta _ d3, rd_eq beta _ d4, rd_eq beta _ d5,
      divide_eq _ _ (mul_ne_zero (mul_ne_zero two_ne_zero hdx) hdx),
      divide_eq _ _ (mul_ne_zero (mul_ne_zero two_ne_zero hdy) hdy), Option.bind_some, Option.some.injEq]
    simp only [plain, Finset.sum_range_succ, Finset.sum_range_zero, Op.coeff, Op.lambda, next, Info.h]
    norm_num
    field_simp
    ring

theorem Ok.check (hok : Ok I op) : op.check = true := by
  have := hok.lambda
  cases op <;> simp_all [Op.check, Op.lambda]

theorem apply_loop (hok : Ok I op) (u f : Grid ℚ) :
    ∃ f', doLoop 0 (I.d.meqn - 1) (fun m => doLoop 0 (I.d.my - 1) fun j => doLoop 0 (I.d.mx - 1) fun i f =>
      (stencil I op u i j m).bind fun v => set' I f i j m v) f = some f' ∧
      (∀ i j m, Inside I i j → Field I m → f' (i, j, m) = plain I op u i j m) ∧
      ∀ c, ¬ Body I c → f' c = f c := by
  have hm := hok.mbc
  have hw : Writes (Body I) (fun c => plain I op u c.1 c.2.1 c.2.2)
      (doLoop 0 (I.d.meqn - 1) (fun m => doLoop 0 (I.d.my - 1) fun j => doLoop 0 (I.d.mx - 1) fun i f =>
      (stencil I op u i j m).bind fun v => set' I f i j m v)) := by
    refine Writes.congr (Writes.doLoop _ _ _ _ _ fun m m1 m2 => Writes.doLoop _ _ _ _ _ fun j j1 j2 =>
      Writes.doLoop _ _ _ _ _ fun i i1 i2 => Writes.assign I.d (i + 1, j + 1, m + 1) _ _ ?_ ?_) ?_
    · rw [inBox_iff]; omega
    · refine stencil_eq hok u i j m ?_ ?_
      · unfold Inside; omega
      · unfold Field; omega
    · rintro ⟨a, b, c⟩
      simp only [Body, Inside, Field, Prod.mk.injEq]
      constructor
      · rintro ⟨m, m1, m2, j, j1, j2, i, i1, i2, h⟩; omega
      · intro h
        exact ⟨c - 1, by omega, by omega, b - 1, by omega, by omega, a - 1, by omega, by omega, by omega⟩
  obtain ⟨f', e, a, b⟩ := hw f
  exact ⟨f', e, fun i j m h hf => a (i, j, m) ⟨h, hf⟩, b⟩

/-- If the ghost cells hold `G`, the plain sum is the discrete operator. -/
theorem plain_eq (hc : Cells I) (G : Ghosts) (u u' : Grid ℚ) (i j m : ℤ) (h : Inside I i j) (hf : Field I m)
    (h0 : ∀ i j, Inside I i j → u' (i, j, m) = u (i, j, m))
    (hg : ∀ k < 4, AtSide I k i j → u' ((next k i j).1, (next k i j).2, m) = G k i j m) :
    plain I op u' i j m = discrete I op G u i j m := by
  unfold plain discrete
  rw [h0 i j h]
  congr 1
  refine Finset.sum_congr rfl fun k hk => ?_
  rw [Finset.mem_range] at hk
  congr 3
  unfold across
  by_cases ha : AtSide I k i j
  · rw [if_pos ha, hg k hk ha]
  · rw [if_neg ha, h0]
    unfold Inside at h ⊢
    interval_cases k <;> simp only [AtSide, next] at ha ⊢ <;> omega

theorem next_layer {k : Nat} (hk : k < 4) {i j m : ℤ} (h : Inside I i j) (hf : Field I m) (ha : AtSide I k i j) :
    Layer I k ((next k i j).1, (next k i j).2, m) ∧ inner I k ((next k i j).1, (next k i j).2, m) = (i, j, m) := by
  unfold Inside at h
  interval_cases k <;> simp only [AtSide] at ha <;> subst ha
  · exact ⟨⟨hf, by show (1 : ℤ) - 1 = 0; norm_num, h.2⟩, rfl⟩
  · exact ⟨⟨hf, rfl, h.2⟩, rfl⟩
  · exact ⟨⟨hf, by show (1 : ℤ) - 1 = 0; norm_num, h.1⟩, rfl⟩
  · exact ⟨⟨hf, rfl, h.1⟩, rfl⟩

theorem body_not_layer {k : Nat} (hk : k < 4) {c : Cell} (h : Body I c) : ¬ Layer I k c := by
  intro hl
  simp only [Body, Inside] at h
  interval_cases k <;> simp only [Layer] at hl <;> omega

theorem applySinglePatch_spec (hok : Ok I op) (hc : Cells I) (u f : Grid ℚ) :
    ∃ u' f', applySinglePatch I op u f = some (u', f') ∧
      (∀ i j m, Inside I i j → Field I m → f' (i, j, m) = discrete I op (outer I op u) u i j m) ∧
      (∀ c, ¬ Body I c → f' c = f c) ∧ (∀ c, Body I c → u' c = u c) := by
  obtain ⟨u', e1, a, b⟩ := fillSides_spec hok.mbc hc (fun k => !I.nbr k) op.sign u
  obtain ⟨f', e2, c1, c2⟩ := apply_loop hok u' f
  have hb : ∀ c, Body I c → u' c = u c := fun c hcc => b c fun k hk _ => body_not_layer hk hcc
  refine ⟨u', f', ?_, ?_, c2, hb⟩
  · unfold applySinglePatch
    simp only [e1, Option.bind_some, hok.check, Bool.not_true, Bool.false_eq_true, if_false, e2]
  · intro i j m h hf
    rw [c1 i j m h hf]
    refine plain_eq hc _ u u' i j m h hf (fun i j h => hb _ ⟨h, hf⟩) fun k hk ha => ?_
    obtain ⟨hl, hi⟩ := next_layer hk h hf ha
    unfold outer
    cases hn : I.nbr k with
    | false =>
      rw [a k hk (by simp [hn]) _ hl, hi]
      simp
    | true =>
      simp only [if_true]
      refine b _ fun l hl4 hon hll => ?_
      have := layer_unique hc k l _ hk hl4 hl hll
      subst this
      simp [hn] at hon

theorem applyInternal_spec (hok : Ok I op) (hc : Cells I) (u f : Grid ℚ) :
    ∃ u' f', applyInternal I op u f = some (u', f') ∧
      (∀ i j m, Inside I i j → Field I m → f' (i, j, m) = discrete I op (alone I op u) u i j m) ∧
      (∀ c, ¬ Body I c → f' c = f c) ∧ (∀ c, Body I c → u' c = u c) := by
  obtain ⟨v, e1, a, b⟩ := fillSides_spec hok.mbc hc I.nbr (fun _ => -1) u
  obtain ⟨u', f', e2, c1, c2, c3⟩ := applySinglePatch_spec hok hc v f
  have hb : ∀ c, Body I c → v c = u c := fun c hcc => b c fun k hk _ => body_not_layer hk hcc
  refine ⟨u', f', ?_, ?_, c2, fun c hcc => (c3 c hcc).trans (hb c hcc)⟩
  · unfold applyInternal
    rw [e1]
    exact e2
  · intro i j m h hf
    rw [c1 i j m h hf]
    unfold discrete
    rw [hb (i, j, m) ⟨h, hf⟩]
    congr 1
    refine Finset.sum_congr rfl fun k hk => ?_
    rw [Finset.mem_range] at hk
    congr 3
    unfold across
    by_cases ha : AtSide I k i j
    · rw [if_pos ha, if_pos ha]
      obtain ⟨hl, hi⟩ := next_layer hk h hf ha
      unfold outer alone
      cases hn : I.nbr k with
      | false => simp only [Bool.false_eq_true, if_false]; rw [hb _ ⟨h, hf⟩]
      | true =>
        simp only [if_true]
        rw [a k hk hn _ hl, hi]; ring
    · rw [if_neg ha, if_neg ha, hb]
      unfold Body Inside at *
      refine ⟨?_, hf⟩
      interval_cases k <;> simp only [AtSide, next] at ha ⊢ <;> omega

end Fclaw.Elliptic
