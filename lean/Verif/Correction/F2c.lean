/-
The correction of a coarse patch from a fine one.
-/
import Verif.Correction.Index
import Mathlib.Tactic.IntervalCases
import Mathlib.Tactic.Tauto

set_option autoImplicit false
set_option linter.unusedSimpArgs false
set_option linter.unusedVariables false
namespace Fclaw.Correction

open Fort Transform CopyGhost

variable {d : Dims}

/-! ### Cells seen from the neighbour -/

/-- The cell behind `cellAt d f t`. -/
def behind (d : Dims) (f : Nat) (t : ℤ) : ℤ × ℤ :=
  if f = 0 then (2, t) else if f = 1 then ((d.mx : ℤ) - 1, t) else if f = 2 then (t, 2) else (t, (d.my : ℤ) - 1)

/-- Ghost layers `2 s + 1` and `2 s + 2` at face `F`. -/
def layers (m F : Nat) (s ν : ℤ) : Prop :=
  if F % 2 = 0 then -1 - 2 * s ≤ ν ∧ ν ≤ -(2 * s) else (m : ℤ) + 1 + 2 * s ≤ ν ∧ ν ≤ m + 2 + 2 * s

theorem bitAt_two (k a : Nat) : bitAt k a = 0 ∨ bitAt k a = 1 := by unfold bitAt; omega

theorem len_even (hd : Sized d) (f : Nat) : len d f % 2 = 0 ∧ 2 ≤ len d f := by
  unfold len; split
  · exact ⟨hd.my, hd.my2⟩
  · exact ⟨hd.mx, hd.mx2⟩

/-- Tangential part. -/
theorem place_eq (hd : Sized d) (ft : Nat → Nat) (f g : Nat) (hg : g < 2) (t x b : ℤ)
    (h : 2 * x - 1 - len d f = eT ft * (4 * t - 3 + 2 * b - (1 + 2 * (g : ℤ)) * len d f)) :
    x = finePlace ft (len d f) g t b := by
  obtain ⟨he, _⟩ := len_even hd f
  unfold finePlace
  dsimp only
  unfold eT at h
  have : g = 0 ∨ g = 1 := by omega
  rcases this with rfl | rfl <;> split at h <;> (first | rw [if_pos (by assumption)] | rw [if_neg (by assumption)]) <;>
    push_cast at h ⊢ <;> omega

theorem half_cells (hd : Sized d) (td : TData) (f g : Nat) (hf : f < 4) (hg : g < 2)
    (hl : HalfLink d td.transform f g td.this td.neighbor) (t : ℤ) :
    (∃ o, clawHalf d td (cellAt d f t).1 (cellAt d f t).2 = some o ∧ ∀ k < 4,
      ax (o k) (1 - otherFace td.transform f / 2) = finePlace td.transform (len d f) g t (bitAt k (1 - f / 2)) ∧
      layers (sizes d (f / 2)) (otherFace td.transform f) 0 (ax (o k) (otherFace td.transform f / 2))) ∧
    ∃ o, clawHalf d td (behind d f t).1 (behind d f t).2 = some o ∧ ∀ k < 4,
      ax (o k) (1 - otherFace td.transform f / 2) = finePlace td.transform (len d f) g t (bitAt k (1 - f / 2)) ∧
      layers (sizes d (f / 2)) (otherFace td.transform f) 1 (ax (o k) (otherFace td.transform f / 2)) := by
  have hf' : f = 0 ∨ f = 1 ∨ f = 2 ∨ f = 3 := by omega
  have tan1 : ax (cellAt d f t) (1 - f / 2) = t := by rcases hf' with rfl | rfl | rfl | rfl <;> rfl
  have tan2 : ax (behind d f t) (1 - f / 2) = t := by rcases hf' with rfl | rfl | rfl | rfl <;> rfl
  have n1 : ax (cellAt d f t) (f / 2) = if f % 2 = 0 then 1 else (sizes d (f / 2) : ℤ) := by
    rcases hf' with rfl | rfl | rfl | rfl <;> rfl
  have n2 : ax (behind d f t) (f / 2) = if f % 2 = 0 then 2 else (sizes d (f / 2) : ℤ) - 1 := by
    rcases hf' with rfl | rfl | rfl | rfl <;> rfl
  constructor
  · obtain ⟨o, e, h⟩ := clawHalf_spec hd td f g hf hl (cellAt d f t).1 (cellAt d f t).2
    refine ⟨o, e, fun k hk => ?_⟩
    obtain ⟨h1, h2⟩ := h k hk
    rw [tan1] at h1
    rw [n1] at h2
    refine ⟨place_eq hd _ f g hg t _ _ h1, ?_⟩
    have hb := bitAt_two k (f / 2)
    unfold layers
    unfold eN at h2
    have p1 : f % 2 = 0 ∨ f % 2 = 1 := by omega
    have p2 : otherFace td.transform f % 2 = 0 ∨ otherFace td.transform f % 2 = 1 := by omega
    rcases p1 with e1 | e1 <;> rcases p2 with e2 | e2 <;> rw [e1, e2] at h2 <;> rw [e2] <;> simp at h2 ⊢ <;> omega
  · obtain ⟨o, e, h⟩ := clawHalf_spec hd td f g hf hl (behind d f t).1 (behind d f t).2
    refine ⟨o, e, fun k hk => ?_⟩
    obtain ⟨h1, h2⟩ := h k hk
    rw [tan2] at h1
    rw [n2] at h2
    refine ⟨place_eq hd _ f g hg t _ _ h1, ?_⟩
    have hb := bitAt_two k (f / 2)
    unfold layers
    unfold eN at h2
    have p1 : f % 2 = 0 ∨ f % 2 = 1 := by omega
    have p2 : otherFace td.transform f % 2 = 0 ∨ otherFace td.transform f % 2 = 1 := by omega
    rcases p1 with e1 | e1 <;> rcases p2 with e2 | e2 <;> rw [e1, e2] at h2 <;> rw [e2] <;> simp at h2 ⊢ <;> omega

/-- Both fine places exist exactly for coarse places in the half. -/
theorem inHalf_iff (hd : Sized d) (ft : Nat → Nat) (f g : Nat) (hg : g < 2) (t : ℤ) :
    inHalf (len d f) g t ↔ (1 ≤ finePlace ft (len d f) g t 0 ∧ finePlace ft (len d f) g t 0 ≤ len d f) ∧
      1 ≤ finePlace ft (len d f) g t 1 ∧ finePlace ft (len d f) g t 1 ≤ len d f := by
  obtain ⟨he, _⟩ := len_even hd f
  unfold finePlace inHalf
  dsimp only
  have : g = 0 ∨ g = 1 := by omega
  rcases this with rfl | rfl <;> split <;> push_cast <;> omega

theorem skip_iff (hd : Sized d) (td : TData) (f g : Nat) (hf : f < 4) (hg : g < 2)
    (hl : HalfLink d td.transform f g td.this td.neighbor) (t : ℤ) (o : Nat → ℤ × ℤ)
    (h : ∀ k < 4, ax (o k) (1 - otherFace td.transform f / 2) = finePlace td.transform (len d f) g t (bitAt k (1 - f / 2)) ∧
      layers (sizes d (f / 2)) (otherFace td.transform f) 0 (ax (o k) (otherFace td.transform f / 2))) :
    skipThisGrid d o = true ↔ ¬ inHalf (len d f) g t := by
  obtain ⟨F4, eL, eS⟩ := faces td.transform f g hf _ _ hl
  have key : ∀ k < 4, isValidCorrect d (o k) = true ↔
      1 ≤ finePlace td.transform (len d f) g t (bitAt k (1 - f / 2)) ∧
        finePlace td.transform (len d f) g t (bitAt k (1 - f / 2)) ≤ len d f := by
    intro k hk
    obtain ⟨h1, h2⟩ := h k hk
    rw [← h1, ← eL]
    generalize otherFace td.transform f = F at *
    rw [← eS] at h2
    have : F = 0 ∨ F = 1 ∨ F = 2 ∨ F = 3 := by omega
    unfold isValidCorrect
    rcases this with rfl | rfl | rfl | rfl <;> simp [layers, ax, len, sizes] at h2 ⊢
    · have n1 : ¬ (1 ≤ (o k).1) := by omega
      simp [n1]
    · have n1 : ¬ ((o k).1 ≤ d.mx) := by omega
      simp [n1]
    · have n1 : ¬ (1 ≤ (o k).2) := by omega
      simp [n1]
    · have n1 : ¬ ((o k).2 ≤ d.my) := by omega
      simp [n1]
  rw [inHalf_iff hd td.transform f g hg t]
  unfold skipThisGrid
  have r4 : List.range 4 = [0, 1, 2, 3] := by decide
  rw [r4]
  simp only [List.any_cons, List.any_nil, Bool.or_false, Bool.or_eq_true, Bool.not_eq_true', ← Bool.not_eq_true,
    key 0 (by omega), key 1 (by omega), key 2 (by omega), key 3 (by omega)]
  have : f = 0 ∨ f = 1 ∨ f = 2 ∨ f = 3 := by omega
  rcases this with rfl | rfl | rfl | rfl <;> simp [bitAt] <;> omega

/-! ### The dummy array -/

theorem Writes.seq {α : Type} {S T : Cell → Prop} {w : Cell → α} {f g : Grid α → Option (Grid α)}
    (hf : Writes S w f) (hg : Writes T w g) : Writes (fun c => S c ∨ T c) w (fun q => (f q).bind g) := by
  intro q
  obtain ⟨q1, e1, a1, b1⟩ := hf q
  obtain ⟨q2, e2, a2, b2⟩ := hg q1
  refine ⟨q2, by dsimp only; rw [e1]; exact e2, ?_, ?_⟩
  · intro c hc
    by_cases ht : T c
    · exact a2 c ht
    · rw [b2 c ht]
      exact a1 c (hc.resolve_right ht)
  · intro c hc
    rw [b2 c fun h => hc (Or.inr h), b1 c fun h => hc (Or.inl h)]

/-- Sum over the pair that place `τ` belongs to. -/
def pr (g : ℤ → ℚ) (τ : ℤ) : ℚ := g (2 * ((τ - 1) / 2) + 1) + g (2 * ((τ - 1) / 2) + 2)

/-- What is put into the dummy array. -/
def dval (d : Dims) (fine : Regs) (c : Cell) : ℚ :=
  let (i, j, m) := c
  if 1 ≤ j ∧ j ≤ d.my then
    if i ≤ 0 then (if -1 ≤ i then pr (fun t => fine.fm 0 t m) j else pr (fun t => fine.ef 0 t m 1) j)
    else (if i ≤ d.mx + 2 then pr (fun t => fine.fp 1 t m) j else pr (fun t => fine.ef 1 t m 1) j)
  else
    if j ≤ 0 then (if -1 ≤ j then pr (fun t => fine.gm 0 t m) i else pr (fun t => fine.ef 2 t m 1) i)
    else (if j ≤ d.my + 2 then pr (fun t => fine.gp 1 t m) i else pr (fun t => fine.ef 3 t m 1) i)

theorem put_writes (c1 c2 : Cell) (v e : ℚ) (w : Cell → ℚ) (h1 : inBox (wide d) c1 = true) (h2 : inBox (wide d) c2 = true)
    (e1 : v = w c1) (e2 : e = w c2) : Writes (fun c => c = c1 ∨ c = c2) w (put d c1 c2 v e) :=
  Writes.seq (Writes.wr (wide d) c1 v w h1 e1) (Writes.wr (wide d) c2 e w h2 e2)

theorem inWide (hd : Sized d) (i j m : ℤ) (hm : comp d m) (hi : -3 ≤ i) (hi' : i ≤ d.mx + 4) (hj : -3 ≤ j)
    (hj' : j ≤ d.my + 4) : inBox (wide d) (i, j, m) = true := by
  rw [inBox_iff]
  unfold wide
  have := hd.mbc
  obtain ⟨_, _⟩ := hm
  dsimp only
  push_cast
  omega

theorem get_some (n : Nat) (a : ℤ → ℤ → ℚ) (t m : ℤ) (h1 : 1 ≤ t) (h2 : t ≤ n) (hm : comp d m) :
    get n d.meqn a t m = some (a t m) := by
  unfold get
  obtain ⟨_, _⟩ := hm
  rw [if_pos ⟨h1, h2, by assumption, by assumption⟩]

/-- Everything is written, and inside the dummy array. -/
theorem fillDummy_spec (hd : Sized d) (fine : Regs) (z : Grid ℚ) :
    ∃ dum, fillDummy d fine z = some dum ∧ ∀ F < 4, ∀ s : ℤ, s = 0 ∨ s = 1 → ∀ ν τ m : ℤ, layers (sizes d (F / 2)) F s ν →
      1 ≤ τ → τ ≤ len d F → comp d m →
      dum (if F / 2 = 0 then (ν, τ, m) else (τ, ν, m)) =
        dval d fine (if F / 2 = 0 then (ν, τ, m) else (τ, ν, m)) := by
  have h2x := hd.mx
  have h2y := hd.my
  have hx2 := hd.mx2
  have hy2 := hd.my2
  have pairx : ∀ (k jj : ℤ) (g : ℤ → ℚ), 2 * (k - 1) + 1 ≤ jj → jj ≤ 2 * (k - 1) + 2 →
      pr g jj = g (2 * (k - 1) + 1) + g (2 * (k - 1) + 2) := by
    intro k jj g h1 h2
    unfold pr
    have : (jj - 1) / 2 = k - 1 := by omega
    rw [this]
  have H : Writes (fun c => ∃ m, 1 ≤ m ∧ m ≤ (d.meqn : ℤ) ∧
      ((∃ k, 1 ≤ k ∧ k ≤ (d.my : ℤ) / 2 ∧
        ((∃ jj, 2 * (k - 1) + 1 ≤ jj ∧ jj ≤ 2 * (k - 1) + 2 ∧ ∃ ii, -1 ≤ ii ∧ ii ≤ 0 ∧ (c = (ii, jj, m) ∨ c = (ii - 2, jj, m))) ∨
         (∃ jj, 2 * (k - 1) + 1 ≤ jj ∧ jj ≤ 2 * (k - 1) + 2 ∧ ∃ ii, 1 ≤ ii ∧ ii ≤ 2 ∧
           (c = ((d.mx : ℤ) + ii, jj, m) ∨ c = ((d.mx : ℤ) + ii + 2, jj, m))))) ∨
       (∃ k, 1 ≤ k ∧ k ≤ (d.mx : ℤ) / 2 ∧
        ((∃ ii, 2 * (k - 1) + 1 ≤ ii ∧ ii ≤ 2 * (k - 1) + 2 ∧ ∃ jj, -1 ≤ jj ∧ jj ≤ 0 ∧ (c = (ii, jj, m) ∨ c = (ii, jj - 2, m))) ∨
         (∃ ii, 2 * (k - 1) + 1 ≤ ii ∧ ii ≤ 2 * (k - 1) + 2 ∧ ∃ jj, 1 ≤ jj ∧ jj ≤ 2 ∧
           (c = (ii, (d.my : ℤ) + jj, m) ∨ c = (ii, (d.my : ℤ) + jj + 2, m)))))))
      (dval d fine) (fillDummy d fine) := by
    unfold fillDummy
    dsimp only
    refine Writes.doLoop _ _ _ _ _ fun m m1 m2 => ?_
    have hm : comp d m := ⟨m1, m2⟩
    refine Writes.seq (Writes.doLoop _ _ _ _ _ fun k k1 k2 => ?_) (Writes.doLoop _ _ _ _ _ fun k k1 k2 => ?_)
    · simp only [get_some d.my _ (2 * (k - 1) + 1) m (by omega) (by omega) hm,
        get_some d.my _ (2 * (k - 1) + 2) m (by omega) (by omega) hm, Option.bind_some]
      refine Writes.seq (Writes.doLoop _ _ _ _ _ fun jj j1 j2 => Writes.doLoop _ _ _ _ _ fun ii i1 i2 => ?_)
        (Writes.doLoop _ _ _ _ _ fun jj j1 j2 => Writes.doLoop _ _ _ _ _ fun ii i1 i2 => ?_)
      · refine put_writes _ _ _ _ _ (inWide hd _ _ _ hm ?_ ?_ ?_ ?_) (inWide hd _ _ _ hm ?_ ?_ ?_ ?_) ?_ ?_ <;> try omega
        · simp only [dval]
          rw [if_pos (by omega), if_pos (by omega), if_pos (by omega), pairx k jj _ j1 j2]
        · simp only [dval]
          rw [if_pos (by omega), if_pos (by omega), if_neg (by omega), pairx k jj _ j1 j2]
      · refine put_writes _ _ _ _ _ (inWide hd _ _ _ hm ?_ ?_ ?_ ?_) (inWide hd _ _ _ hm ?_ ?_ ?_ ?_) ?_ ?_ <;> try omega
        · simp only [dval]
          rw [if_pos (by omega), if_neg (by omega), if_pos (by omega), pairx k jj _ j1 j2]
        · simp only [dval]
          rw [if_pos (by omega), if_neg (by omega), if_neg (by omega), pairx k jj _ j1 j2]
    · simp only [get_some d.mx _ (2 * (k - 1) + 1) m (by omega) (by omega) hm,
        get_some d.mx _ (2 * (k - 1) + 2) m (by omega) (by omega) hm, Option.bind_some]
      refine Writes.seq (Writes.doLoop _ _ _ _ _ fun ii i1 i2 => Writes.doLoop _ _ _ _ _ fun jj j1 j2 => ?_)
        (Writes.doLoop _ _ _ _ _ fun ii i1 i2 => Writes.doLoop _ _ _ _ _ fun jj j1 j2 => ?_)
      · refine put_writes _ _ _ _ _ (inWide hd _ _ _ hm ?_ ?_ ?_ ?_) (inWide hd _ _ _ hm ?_ ?_ ?_ ?_) ?_ ?_ <;> try omega
        · simp only [dval]
          rw [if_neg (by omega), if_pos (by omega), if_pos (by omega), pairx k ii _ i1 i2]
        · simp only [dval]
          rw [if_neg (by omega), if_pos (by omega), if_neg (by omega), pairx k ii _ i1 i2]
      · refine put_writes _ _ _ _ _ (inWide hd _ _ _ hm ?_ ?_ ?_ ?_) (inWide hd _ _ _ hm ?_ ?_ ?_ ?_) ?_ ?_ <;> try omega
        · simp only [dval]
          rw [if_neg (by omega), if_neg (by omega), if_pos (by omega), pairx k ii _ i1 i2]
        · simp only [dval]
          rw [if_neg (by omega), if_neg (by omega), if_neg (by omega), pairx k ii _ i1 i2]
  obtain ⟨dum, e, h, _⟩ := H z
  refine ⟨dum, e, ?_⟩
  intro F hF s hs ν τ m hν t1 t2 hm
  refine h _ ⟨m, hm.1, hm.2, ?_⟩
  have : F = 0 ∨ F = 1 ∨ F = 2 ∨ F = 3 := by omega
  rcases this with rfl | rfl | rfl | rfl <;> simp [layers, len, sizes] at hν t2 ⊢
  · refine Or.inl ⟨(τ - 1) / 2 + 1, by omega, by omega, Or.inl ⟨τ, by omega, by omega, ν + 2 * s, by omega, by omega, ?_⟩⟩
    rcases hs with rfl | rfl <;> simp
  · refine Or.inl ⟨(τ - 1) / 2 + 1, by omega, by omega, Or.inr ⟨τ, by omega, by omega, ν - d.mx - 2 * s, by omega, by omega, ?_⟩⟩
    rcases hs with rfl | rfl <;> simp <;> omega
  · refine Or.inr ⟨(τ - 1) / 2 + 1, by omega, by omega, Or.inl ⟨τ, by omega, by omega, ν + 2 * s, by omega, by omega, ?_⟩⟩
    rcases hs with rfl | rfl <;> simp
  · refine Or.inr ⟨(τ - 1) / 2 + 1, by omega, by omega, Or.inr ⟨τ, by omega, by omega, ν - d.my - 2 * s, by omega, by omega, ?_⟩⟩
    rcases hs with rfl | rfl <;> simp <;> omega

/-! ### The correction -/

/-- The fluctuation that leaves a patch through its face. -/
def fluct (r : Regs) (F : Nat) (t m : ℤ) : ℚ := if F % 2 = 0 then minus r F t m else plus r F t m

/-- … and the one that enters it. -/
def fluctIn (r : Regs) (F : Nat) (t m : ℤ) : ℚ := if F % 2 = 0 then plus r F t m else minus r F t m

theorem dval_face (hd : Sized d) (fine : Regs) (F : Nat) (hF : F < 4) (s : ℤ) (hs : s = 0 ∨ s = 1) (ν τ m : ℤ)
    (h : layers (sizes d (F / 2)) F s ν) (h1 : 1 ≤ τ) (h2 : τ ≤ len d F) :
    dval d fine (if F / 2 = 0 then (ν, τ, m) else (τ, ν, m)) =
      if s = 0 then pr (fun t => fluct fine F t m) τ else pr (fun t => fine.ef F t m 1) τ := by
  have : F = 0 ∨ F = 1 ∨ F = 2 ∨ F = 3 := by omega
  have hx := hd.mx2
  have hy := hd.my2
  rcases this with rfl | rfl | rfl | rfl <;> simp [layers, len, sizes] at h h2 <;> rcases hs with rfl | rfl <;>
    simp only [dval, Nat.reduceDiv, if_true, if_false, show ¬ (1 : Nat) = 0 by omega, show ¬ (1 : ℤ) = 0 by omega] <;>
    (first | rw [if_pos (by omega)] | rw [if_neg (by omega)]) <;>
    (first | rw [if_pos (by omega)] | rw [if_neg (by omega)]) <;>
    (first | rw [if_pos (by omega)] | rw [if_neg (by omega)]) <;>
    simp [fluct, minus, plus]

theorem pr_place (hd : Sized d) (ft : Nat → Nat) (f g : Nat) (hg : g < 2) (t b : ℤ) (hb : b = 0 ∨ b = 1) (v : ℤ → ℚ) :
    pr v (finePlace ft (len d f) g t b) = v (finePlace ft (len d f) g t 0) + v (finePlace ft (len d f) g t 1) := by
  obtain ⟨he, _⟩ := len_even hd f
  have key : (2 * ((finePlace ft (len d f) g t b - 1) / 2) + 1 = finePlace ft (len d f) g t 0 ∧
      2 * ((finePlace ft (len d f) g t b - 1) / 2) + 2 = finePlace ft (len d f) g t 1) ∨
      (2 * ((finePlace ft (len d f) g t b - 1) / 2) + 1 = finePlace ft (len d f) g t 1 ∧
      2 * ((finePlace ft (len d f) g t b - 1) / 2) + 2 = finePlace ft (len d f) g t 0) := by
    unfold finePlace
    dsimp only
    have : g = 0 ∨ g = 1 := by omega
    rcases this with rfl | rfl <;> split <;> push_cast <;> omega
  unfold pr
  rcases key with ⟨e1, e2⟩ | ⟨e1, e2⟩
  · rw [e1, e2]
  · rw [e1, e2, add_comm]

/-- Sum over the two fine places at a coarse one. -/
def two (ft : Nat → Nat) (n g : Nat) (t : ℤ) (v : ℤ → ℚ) : ℚ := v (finePlace ft n g t 0) + v (finePlace ft n g t 1)

theorem pair_ax (p : ℤ × ℤ) (F : Nat) (hF : F < 4) (m : ℤ) :
    (p.1, p.2, m) = if F / 2 = 0 then (ax p (F / 2), ax p (1 - F / 2), m) else (ax p (1 - F / 2), ax p (F / 2), m) := by
  have : F / 2 = 0 ∨ F / 2 = 1 := by omega
  rcases this with e | e <;> rw [e] <;> simp [ax]

theorem face_inWide (hd : Sized d) (F : Nat) (hF : F < 4) (s : ℤ) (hs : s = 0 ∨ s = 1) (ν τ m : ℤ) (hm : comp d m)
    (h : layers (sizes d (F / 2)) F s ν) (h1 : 1 ≤ τ) (h2 : τ ≤ len d F) :
    inBox (wide d) (if F / 2 = 0 then (ν, τ, m) else (τ, ν, m)) = true := by
  have : F = 0 ∨ F = 1 ∨ F = 2 ∨ F = 3 := by omega
  rcases this with rfl | rfl | rfl | rfl <;> simp [layers, len, sizes] at h h2 ⊢ <;>
    refine inWide hd _ _ _ hm ?_ ?_ ?_ ?_ <;> omega

theorem peek_eq (hd : Sized d) (td : TData) (f g : Nat) (hf : f < 4) (hg : g < 2)
    (hl : HalfLink d td.transform f g td.this td.neighbor) (fine : Regs) (dum : Grid ℚ)
    (hdum : ∀ F < 4, ∀ s : ℤ, s = 0 ∨ s = 1 → ∀ ν τ m : ℤ, layers (sizes d (F / 2)) F s ν →
      1 ≤ τ → τ ≤ len d F → comp d m →
      dum (if F / 2 = 0 then (ν, τ, m) else (τ, ν, m)) =
        dval d fine (if F / 2 = 0 then (ν, τ, m) else (τ, ν, m)))
    (sc t mq : ℤ) (hm : comp d mq) :
    peek d td dum sc (cellAt d f t).1 (cellAt d f t).2 (behind d f t).1 (behind d f t).2 mq =
      some (if inHalf (len d f) g t then
        some (two td.transform (len d f) g t (fun t => fluct fine (otherFace td.transform f) t mq),
          sc * two td.transform (len d f) g t (fun t => fine.ef (otherFace td.transform f) t mq 1))
        else none) := by
  obtain ⟨⟨o, e, ho⟩, ⟨o', e', ho'⟩⟩ := half_cells hd td f g hf hg hl t
  obtain ⟨F4, eL, eS⟩ := faces td.transform f g hf _ _ hl
  have hsk := skip_iff hd td f g hf hg hl t o ho
  unfold peek
  rw [e]
  simp only [Option.bind_some]
  by_cases hh : inHalf (len d f) g t
  · rw [if_pos hh, if_neg (fun hc => hsk.1 hc hh)]
    obtain ⟨⟨p1, p2⟩, p3, p4⟩ := (inHalf_iff hd td.transform f g hg t).1 hh
    obtain ⟨a1, a2⟩ := ho 0 (by omega)
    obtain ⟨b1, b2⟩ := ho' 0 (by omega)
    have hb := bitAt_two 0 (1 - f / 2)
    have in1 : 1 ≤ finePlace td.transform (len d f) g t (bitAt 0 (1 - f / 2)) ∧
        finePlace td.transform (len d f) g t (bitAt 0 (1 - f / 2)) ≤ len d f := by
      rcases hb with e | e <;> rw [e] <;> exact ⟨by assumption, by assumption⟩
    have r : ∀ (x : ℤ × ℤ) (s : ℤ), s = 0 ∨ s = 1 →
        ax x (1 - otherFace td.transform f / 2) = finePlace td.transform (len d f) g t (bitAt 0 (1 - f / 2)) →
        layers (sizes d (f / 2)) (otherFace td.transform f) s (ax x (otherFace td.transform f / 2)) →
        rd (wide d) dum (x.1, x.2, mq) = some (if s = 0 then
          two td.transform (len d f) g t (fun t => fluct fine (otherFace td.transform f) t mq) else
          two td.transform (len d f) g t (fun t => fine.ef (otherFace td.transform f) t mq 1)) := by
      intro x s hs h1 h2
      rw [← eS] at h2
      rw [pair_ax x (otherFace td.transform f) F4 mq]
      have hin := face_inWide hd _ F4 s hs _ (ax x (1 - otherFace td.transform f / 2)) mq hm h2 (by rw [h1]; exact in1.1)
        (by rw [h1, eL]; exact in1.2)
      unfold rd
      rw [if_pos hin, hdum _ F4 s hs _ _ mq h2 (by rw [h1]; exact in1.1) (by rw [h1, eL]; exact in1.2) hm,
        dval_face hd fine _ F4 s hs _ _ mq h2 (by rw [h1]; exact in1.1) (by rw [h1, eL]; exact in1.2), h1,
        pr_place hd _ f g hg t _ hb, pr_place hd _ f g hg t _ hb]
      rfl
    rw [r (o 0) 0 (Or.inl rfl) a1 a2, e']
    simp only [Option.bind_some]
    rw [r (o' 0) 1 (Or.inr rfl) b1 b2]
    simp
  · rw [if_neg hh, if_pos (hsk.2 hh)]

/-- What the correction should be: the opposite of what both sides have gained. -/
def owed (d : Dims) (ft : Nat → Nat) (f g : Nat) (coarse fine : Regs) (t m : ℤ) : ℚ :=
  if inHalf (len d f) g t then
    -(gain coarse f t m + two ft (len d f) g t (fun t => gain fine (otherFace ft f) t m))
  else 0

theorem gain_of_balanced (fine : Regs) (hb : Balanced d fine) (F : Nat) (hF : F < 4) (t m : ℤ) (h1 : 1 ≤ t)
    (h2 : t ≤ len d F) (hm : comp d m) :
    gain fine F t m = if F % 2 = 0 then fine.ef F t m 1 + fluct fine F t m else -(fine.ef F t m 1) + fluct fine F t m := by
  have h := hb F hF t (by rw [mem_upTo]; exact ⟨h1, h2⟩) m hm
  unfold gain fluct
  by_cases e : F % 2 = 0
  · rw [if_pos e, if_pos e, if_pos e]
    rw [if_pos e] at h
    linarith
  · rw [if_neg e, if_neg e, if_neg e]
    rw [if_neg e] at h
    linarith

theorem delta_eq (hd : Sized d) (td : TData) (f g : Nat) (hf : f < 4) (hg : g < 2)
    (hl : HalfLink d td.transform f g td.this td.neighbor) (coarse fine : Regs) (hb : Balanced d fine)
    (t mq : ℤ) (h1 : 1 ≤ t) (h2 : t ≤ len d f) (hm : comp d mq) :
    delta (decide (f % 2 = 0))
      (if inHalf (len d f) g t then
        some (two td.transform (len d f) g t (fun t => fluct fine (otherFace td.transform f) t mq),
          (eN td.transform f : ℚ) * two td.transform (len d f) g t (fun t => fine.ef (otherFace td.transform f) t mq 1))
        else none)
      (get (len d f) d.meqn (fun t m => coarse.ef f t m 0) t mq)
      (get (len d f) d.meqn (fluctIn coarse f) t mq) = some (owed d td.transform f g coarse fine t mq) := by
  obtain ⟨F4, eL, eS⟩ := faces td.transform f g hf _ _ hl
  rw [get_some _ _ t mq h1 h2 hm, get_some _ _ t mq h1 h2 hm]
  unfold owed
  by_cases hh : inHalf (len d f) g t
  · rw [if_pos hh, if_pos hh]
    obtain ⟨⟨p1, p2⟩, p3, p4⟩ := (inHalf_iff hd td.transform f g hg t).1 hh
    simp only [delta, Option.bind_some]
    unfold two
    dsimp only
    rw [gain_of_balanced fine hb _ F4 _ mq p1 (by rw [eL]; exact p2) hm,
      gain_of_balanced fine hb _ F4 _ mq p3 (by rw [eL]; exact p4) hm]
    unfold gain fluctIn eN
    have c1 : f % 2 = 0 ∨ f % 2 = 1 := by omega
    have c2 : otherFace td.transform f % 2 = 0 ∨ otherFace td.transform f % 2 = 1 := by omega
    rcases c1 with c1 | c1 <;> rcases c2 with c2 | c2 <;> rw [c1, c2] <;> simp <;> ring
  · rw [if_neg hh, if_neg hh]
    rfl

/-- The sign of the normal direction. -/
theorem build_sign (hd : Sized d) (td : TData) (f g : Nat) (hf : f < 4) (hg : g < 2)
    (hl : HalfLink d td.transform f g td.this td.neighbor) :
    ∃ A, buildTransform d td = some A ∧
      (if f / 2 = 0 then (A.a11 + A.a21).tdiv 2 else (A.a12 + A.a22).tdiv 2) = eN td.transform f := by
  obtain ⟨F4, eL, eS⟩ := faces td.transform f g hf _ _ hl
  obtain ⟨o, e, ho⟩ := clawHalf_spec hd td f g hf hl 0 0
  obtain ⟨x, ex, hx⟩ := clawHalf_spec hd td f g hf hl 1 0
  obtain ⟨y, ey, hy⟩ := clawHalf_spec hd td f g hf hl 0 1
  unfold buildTransform
  rw [e, ex, ey]
  refine ⟨_, rfl, ?_⟩
  dsimp only
  obtain ⟨o1, o2⟩ := ho 0 (by omega)
  obtain ⟨x1, x2⟩ := hx 0 (by omega)
  obtain ⟨y1, y2⟩ := hy 0 (by omega)
  have en : eN td.transform f = 1 ∨ eN td.transform f = -1 := by unfold eN; split <;> simp
  have et : eT td.transform = 1 ∨ eT td.transform = -1 := by unfold eT; split <;> simp
  generalize eN td.transform f = n at *
  generalize eT td.transform = τ at *
  generalize otherFace td.transform f = F at *
  have sum : ∀ p q : ℤ × ℤ, (p.1 - q.1) + (p.2 - q.2) = (ax p (F / 2) - ax q (F / 2)) + (ax p (1 - F / 2) - ax q (1 - F / 2)) := by
    intro p q
    have : F / 2 = 0 ∨ F / 2 = 1 := by omega
    rcases this with e | e <;> rw [e] <;> simp [ax] <;> ring
  rw [sum, sum]
  have fin : ∀ X : ℤ, X = 2 * n → X.tdiv 2 = n := by
    intro X h
    rcases en with rfl | rfl <;> rw [h] <;> rfl
  generalize ax (o 0) (F / 2) = on at *
  generalize ax (o 0) (1 - F / 2) = ot at *
  generalize ax (x 0) (F / 2) = xn at *
  generalize ax (x 0) (1 - F / 2) = xt at *
  generalize ax (y 0) (F / 2) = yn at *
  generalize ax (y 0) (1 - F / 2) = yt at *
  generalize bitAt 0 (1 - f / 2) = bt at *
  generalize bitAt 0 (f / 2) = bn at *
  generalize (1 + 2 * (g : ℤ)) * (len d f : ℤ) = L at *
  generalize ((if f % 2 = 1 then 5 else -1) : ℤ) * (sizes d (f / 2) : ℤ) = S at *
  have : f / 2 = 0 ∨ f / 2 = 1 := by omega
  rcases this with e0 | e0 <;> simp only [e0, ax, Nat.sub_zero, Nat.sub_self, if_true, if_false, show ¬ (1 : Nat) = 0 by omega] at x1 x2 y1 y2 o1 o2 ⊢ <;> apply fin <;>
    rcases en with rfl | rfl <;> rcases et with rfl | rfl <;> omega

theorem cellAt_inBox (hd : 1 ≤ d.mx ∧ 1 ≤ d.my) (f : Nat) (t m : ℤ) (h1 : 1 ≤ t) (h2 : t ≤ len d f) (hm : comp d m) :
    inBox d ((cellAt d f t).1, (cellAt d f t).2, m) = true := by
  obtain ⟨_, _⟩ := hd
  rw [inBox_iff]
  obtain ⟨_, _⟩ := hm
  unfold len at h2
  unfold cellAt
  split at h2 <;> split
  all_goals first
    | (dsimp only; omega)
    | (split
       · dsimp only; omega
       · split <;> (dsimp only; omega))

/-- Place of a cell along face `f`. -/
def along (f : Nat) (c : Cell) : ℤ := if f / 2 = 0 then c.2.1 else c.1

/-- Adding to the cell at place `t`. -/
theorem add_acts (f : Nat) (hf : f < 4) (t m : ℤ) (v : ℤ → ℤ → ℚ)
    (hin : inBox d ((cellAt d f t).1, (cellAt d f t).2, m) = true) :
    Acts (fun c => c = ((cellAt d f t).1, (cellAt d f t).2, m)) (fun q c => q c + v (along f c) c.2.2)
      (fun q => add d q ((cellAt d f t).1, (cellAt d f t).2, m) (v t m)) := by
  intro q
  have hal : along f ((cellAt d f t).1, (cellAt d f t).2, m) = t := by
    have : f = 0 ∨ f = 1 ∨ f = 2 ∨ f = 3 := by omega
    rcases this with rfl | rfl | rfl | rfl <;> rfl
  unfold add rd wr
  dsimp only
  rw [if_pos hin]
  simp only [Option.bind_some]
  rw [if_pos hin]
  refine ⟨_, rfl, ?_, ?_⟩
  · rintro c rfl
    rw [if_pos rfl, hal]
  · intro c hc
    rw [if_neg hc]

theorem loop_acts (hd : 1 ≤ d.mx ∧ 1 ≤ d.my) (f : Nat) (hf : f < 4) (v : ℤ → ℤ → ℚ) (body : ℤ → ℤ → Grid ℚ → Option (Grid ℚ))
    (h : ∀ m t : ℤ, comp d m → 1 ≤ t → t ≤ len d f → body m t = fun q => add d q ((cellAt d f t).1, (cellAt d f t).2, m) (v t m)) :
    Acts (fun c => ∃ m, 1 ≤ m ∧ m ≤ (d.meqn : ℤ) ∧ ∃ t, 1 ≤ t ∧ t ≤ (len d f : ℤ) ∧ c = ((cellAt d f t).1, (cellAt d f t).2, m))
      (fun q c => q c + v (along f c) c.2.2) (doLoop 1 d.meqn fun m => doLoop 1 (len d f) (body m)) := by
  have hal : ∀ t m, along f ((cellAt d f t).1, (cellAt d f t).2, m) = t := by
    intro t m
    have : f = 0 ∨ f = 1 ∨ f = 2 ∨ f = 3 := by omega
    rcases this with rfl | rfl | rfl | rfl <;> rfl
  have loc : ∀ S : Cell → Prop, LocalOn S (fun (q : Grid ℚ) c => q c + v (along f c) c.2.2) := by
    intro S q1 q2 h c hc
    show q1 c + _ = q2 c + _
    rw [h c hc]
  refine Acts.doLoop _ _ _ _ _ (fun m m1 m2 => ?_) (fun _ _ _ => loc _) ?_
  · refine Acts.doLoop _ _ _ _ _ (fun t t1 t2 => ?_) (fun _ _ _ => loc _) ?_
    · rw [h m t ⟨m1, m2⟩ t1 t2]
      exact add_acts f hf t m v (cellAt_inBox hd f t m t1 t2 ⟨m1, m2⟩)
    · intro t t' hne c hc hc'
      apply hne
      rw [← hal t m, ← hal t' m, ← hc, ← hc']
  · rintro m m' hne c ⟨t, _, _, hc⟩ ⟨t', _, _, hc'⟩
    apply hne
    rw [hc] at hc'
    exact (Prod.mk.inj (Prod.mk.inj hc').2).2

/-- What happens to one cell. -/
def oneCell (d : Dims) (td : TData) (f : Nat) (dum : Grid ℚ) (sc : ℤ) (coarse : Regs) (m t : ℤ) (q : Grid ℚ) :
    Option (Grid ℚ) :=
  (peek d td dum sc (cellAt d f t).1 (cellAt d f t).2 (behind d f t).1 (behind d f t).2 m).bind fun w =>
  (delta (decide (f % 2 = 0)) w (get (len d f) d.meqn (fun t m => coarse.ef f t m 0) t m)
    (get (len d f) d.meqn (fluctIn coarse f) t m)).bind fun v =>
  add d q ((cellAt d f t).1, (cellAt d f t).2, m) (v / coarse.area f t)

theorem f2c_loop (td : TData) (f : Nat) (hf : f < 4) (match' : ℤ) (coarse fine : Regs) (q : Grid ℚ) (A : Affine)
    (eA : buildTransform d td = some A) (dum : Grid ℚ) (eD : fillDummy d fine (fun _ => 0) = some dum)
    (hs : (if f / 2 = 0 then (A.a11 + A.a21).tdiv 2 else (A.a12 + A.a22).tdiv 2) = if match' = 0 then -1 else 1) :
    f2c d td f match' coarse fine q =
      (doLoop 1 d.meqn fun m => doLoop 1 (len d f) (oneCell d td f dum (if match' = 0 then -1 else 1) coarse m)) q := by
  unfold f2c
  dsimp only
  rw [eA]
  simp only [Option.bind_some]
  rw [hs, if_neg (by simp), eD]
  simp only [Option.bind_some]
  have hf' : f = 0 ∨ f = 1 ∨ f = 2 ∨ f = 3 := by omega
  rcases hf' with rfl | rfl | rfl | rfl <;> rfl

theorem f2c_spec (hd : Sized d) (td : TData) (f g : Nat) (hf : f < 4) (hg : g < 2)
    (hl : HalfLink d td.transform f g td.this td.neighbor) (qtfi : ℤ) (hq : MeshFace td.transform f qtfi)
    (coarse fine : Regs) (hb : Balanced d fine) (q : Grid ℚ) :
    ∃ q', f2c d td f (normalMatch f qtfi) coarse fine q = some q' ∧
      (∀ t ∈ upTo (len d f), ∀ m, comp d m →
        q' ((cellAt d f t).1, (cellAt d f t).2, m) = q ((cellAt d f t).1, (cellAt d f t).2, m) +
          owed d td.transform f g coarse fine t m / coarse.area f t) ∧
      ∀ c, (¬ ∃ t ∈ upTo (len d f), ∃ m, comp d m ∧ c = ((cellAt d f t).1, (cellAt d f t).2, m)) → q' c = q c := by
  obtain ⟨A, eA, sA⟩ := build_sign hd td f g hf hg hl
  obtain ⟨dum, eD, hD⟩ := fillDummy_spec hd fine (fun _ => 0)
  have hmatch : (if normalMatch f qtfi = 0 then (-1 : ℤ) else 1) = eN td.transform f := by
    unfold normalMatch eN
    have hq' : qtfi % 4 = otherFace td.transform f := hq
    by_cases h : f % 2 = otherFace td.transform f % 2
    · rw [if_pos h, if_pos (by omega)]
    · rw [if_neg h, if_neg (by omega)]
  have hal : ∀ t m, along f ((cellAt d f t).1, (cellAt d f t).2, m) = t := by
    intro t m
    have : f = 0 ∨ f = 1 ∨ f = 2 ∨ f = 3 := by omega
    rcases this with rfl | rfl | rfl | rfl <;> rfl
  obtain ⟨q', e', h1, h2⟩ := loop_acts (sized_pos hd) f hf (fun t m => owed d td.transform f g coarse fine t m / coarse.area f t)
    (oneCell d td f dum (if normalMatch f qtfi = 0 then -1 else 1) coarse) (by
      intro m t hm h1 h2
      funext q
      unfold oneCell
      rw [hmatch, peek_eq hd td f g hf hg hl fine dum hD (eN td.transform f) t m hm]
      simp only [Option.bind_some]
      rw [delta_eq hd td f g hf hg hl coarse fine hb t m h1 h2 hm]
      rfl) q
  refine ⟨q', (f2c_loop td f hf _ coarse fine q A eA dum eD (sA.trans hmatch.symm)).trans e', ?_, ?_⟩
  · intro t ht m hm
    rw [mem_upTo] at ht
    have := h1 ((cellAt d f t).1, (cellAt d f t).2, m) ⟨m, hm.1, hm.2, t, ht.1, ht.2, rfl⟩
    rw [this]
    dsimp only
    rw [hal]
  · intro c hc
    refine h2 c ?_
    rintro ⟨m, m1, m2, t, t1, t2, e⟩
    exact hc ⟨t, by rw [mem_upTo]; exact ⟨t1, t2⟩, m, ⟨m1, m2⟩, e⟩

end Fclaw.Correction
