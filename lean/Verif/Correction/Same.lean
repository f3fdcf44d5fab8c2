/-
The correction between patches of the same size.
-/
import Verif.Correction.F2c
import Mathlib.Tactic.SplitIfs

set_option autoImplicit false
set_option linter.unusedSimpArgs false
set_option linter.unusedVariables false
namespace Fclaw.Correction

open Fort Transform CopyGhost

variable {d : Dims}

theorem faces_same (ft : Nat → Nat) (f : Nat) (hf : f < 4) (ip op : Patch) (hl : SameLink d ft f ip op) :
    otherFace ft f < 4 ∧ len d (otherFace ft f) = len d f ∧
      sizes d (otherFace ft f / 2) = sizes d (f / 2) := by
  obtain ⟨⟨_, h⟩, h'⟩ := hl
  unfold otherFace
  by_cases h4 : ft 8 / 4 % 2 = 1
  · simp only [if_pos h4]
    have : f = 0 ∨ f = 1 ∨ f = 2 ∨ f = 3 := by omega
    rcases this with rfl | rfl | rfl | rfl <;> exact ⟨by decide, rfl, rfl⟩
  · rw [if_neg h4] at h
    simp only [if_neg h4]
    obtain ⟨G, hs, _⟩ := h
    obtain ⟨h2, h8⟩ := h' h4
    obtain ⟨a, b⟩ := gluing_axes G
    obtain ⟨s0, _, s2⟩ := hs
    have hf' : f / 2 = 0 ∨ f / 2 = 1 := by omega
    rcases a with ⟨a0, a2⟩ | ⟨a0, a2⟩ <;> rcases b with ⟨b0, b2⟩ | ⟨b0, b2⟩ <;>
      rw [a0, b0] at s0 <;> rw [a2, b2] at s2 <;> rw [a2] at h2 <;> rw [b2] <;>
      refine ⟨by omega, ?_, ?_⟩ <;> simp only [← h2, len, show (2 * 1 + ft 8 % 2) / 2 = 1 by omega,
        show (2 * 0 + ft 8 % 2) / 2 = 0 by omega, sizes0, sizes1] at * <;> simp_all

/-- The equations for the two axes. -/
def SameAt (d : Dims) (ft : Nat → Nat) (f : Nat) (i j : ℤ) (p : ℤ × ℤ) : Prop :=
  2 * ax p (1 - otherFace ft f / 2) - 1 - len d f = eT ft * (2 * ax (i, j) (1 - f / 2) - 1 - len d f) ∧
  2 * ax p (otherFace ft f / 2) - 1 - sizes d (f / 2) =
    eN ft f * (2 * (ax (i, j) (f / 2) - (if f % 2 = 1 then 1 else -1) * sizes d (f / 2)) - 1 - sizes d (f / 2))

theorem clawFace_at (hd : Proper d) (td : TData) (f : Nat) (hf : f < 4)
    (hl : SameLink d td.transform f td.this td.neighbor) (i j : ℤ) :
    ∃ o, clawFace d td i j = some o ∧ SameAt d td.transform f i j o := by
  obtain ⟨T, hT, _, hS⟩ := clawFace_spec hd td f hl.1
  refine ⟨T i j, hT i j, ?_⟩
  obtain ⟨⟨⟨hlev, _, _⟩, hpl⟩, h'⟩ := hl
  have pos : ∀ a < 2, 1 ≤ sizes d a := by
    intro a ha
    have : a = 0 ∨ a = 1 := by omega
    rcases this with rfl | rfl
    · exact hd.1
    · exact hd.2.1
  have h := hS i j
  unfold FaceSame at h
  dsimp only at h
  unfold SameAt
  have hf' : f = 0 ∨ f = 1 ∨ f = 2 ∨ f = 3 := by omega
  by_cases h4 : td.transform 8 / 4 % 2 = 1
  · rw [if_pos h4] at h hpl
    obtain ⟨hv, hc⟩ := hpl
    have e1 : eT td.transform = 1 := by unfold eT backwards; simp [h4]
    have e2 : eN td.transform f = 1 := by
      unfold eN otherFace
      rw [if_pos h4]
      split <;> · rw [if_neg]; omega
    have e3 : otherFace td.transform f / 2 = f / 2 := by
      unfold otherFace
      rw [if_pos h4]
      split <;> omega
    rw [e1, e2, e3]
    have key : ∀ a < 2, 2 * index (T i j).1 (T i j).2 a - 1 - sizes d a =
        1 * (2 * (index i j a - faceStep f a * sizes d a) - 1 - sizes d a) := by
      intro a ha
      have ha' : a ∈ axes false := by simp [axes]; omega
      have c := hc a ha'
      have l := h a ha'
      unfold location at l
      rw [← hlev] at l
      refine axis_rigid (td.this.lower a) (td.neighbor.lower a) td.this.level (sizes d a) (pos a ha) _ _ _ 1 0 ?_ ?_
      · push_cast at l ⊢; linarith
      · rw [c]; push_cast; ring
    have k0 := key 0 (by omega)
    have k1 := key 1 (by omega)
    rcases hf' with rfl | rfl | rfl | rfl <;> simp [ax, faceStep, len, index, sizes] at k0 k1 ⊢ <;> constructor <;> omega
  · rw [if_neg h4] at h hpl
    obtain ⟨G, hm, hc⟩ := hpl
    obtain ⟨h2, h8⟩ := h' h4
    obtain ⟨a1, a2⟩ := gluing_axes G
    have o1 : otherFace td.transform f / 2 = td.transform 5 := by
      unfold otherFace; rw [if_neg h4]; omega
    have o2 : otherFace td.transform f % 2 = td.transform 8 % 2 := by
      unfold otherFace; rw [if_neg h4]; omega
    have b0 : td.transform 0 = 1 - f / 2 := by omega
    have b3 : td.transform 3 = 1 - td.transform 5 := by omega
    obtain ⟨m0, _, m2⟩ := hm
    have x0 : ax (T i j) (1 - td.transform 5) = index (T i j).1 (T i j).2 (td.transform 3) ∧
        ax (T i j) (td.transform 5) = index (T i j).1 (T i j).2 (td.transform 5) ∧
        ax (i, j) (1 - f / 2) = index i j (td.transform 0) ∧ ax (i, j) (f / 2) = index i j (td.transform 2) ∧
        sizes d (td.transform 0) = len d f := by
      rw [b3, ← h2, b0, ← h2]
      have : len d f = sizes d (1 - td.transform 2) := by
        rw [h2]
        unfold len
        have : f / 2 = 0 ∨ f / 2 = 1 := by omega
        rcases this with e | e <;> rw [e] <;> rfl
      rw [this]
      rcases a1 with ⟨_, e⟩ | ⟨_, e⟩ <;> rcases a2 with ⟨_, e'⟩ | ⟨_, e'⟩ <;> rw [e, e'] <;> exact ⟨rfl, rfl, rfl, rfl, rfl⟩
    obtain ⟨x1, x2, x3, x4, x5⟩ := x0
    rw [o1, x1, x2, x3, x4, ← x5, ← h2]
    constructor
    · have l := h.trans0
      have c := hc.trans0
      unfold location at l
      unfold patchCentre at c
      rw [← m0, ← hlev] at l
      rw [← hlev] at c
      have hs0 : faceStep f (td.transform 0) = 0 := by unfold faceStep; rw [if_neg (by omega)]
      rw [hs0] at c
      have goal' : ∀ e : ℤ, eT td.transform = e → 2 * index (T i j).1 (T i j).2 (td.transform 3) - 1 - (sizes d (td.transform 0) : ℤ) =
          e * (2 * (index i j (td.transform 0) - 0 * (sizes d (td.transform 0) : ℤ)) - 1 - sizes d (td.transform 0)) →
          2 * index (T i j).1 (T i j).2 (td.transform 3) - 1 - (sizes d (td.transform 0) : ℤ) =
          eT td.transform * (2 * index i j (td.transform 0) - 1 - sizes d (td.transform 0)) := by
        intro e he h
        rw [he, h]
        ring
      have r6 := G.r0
      have : td.transform 6 = 0 ∨ td.transform 6 = 1 := by omega
      rcases this with e6 | e6
      · rw [if_pos e6] at l c
        refine goal' 1 (by unfold eT backwards; simp [e6]) ?_
        refine axis_rigid (td.this.lower (td.transform 0)) (td.neighbor.lower (td.transform 3)) td.this.level
          (sizes d (td.transform 0)) (pos _ (by omega)) _ _ _ 1 0 ?_ ?_
        · push_cast at l ⊢; linarith
        · rw [c]; push_cast; ring
      · rw [if_neg (by omega)] at l c
        refine goal' (-1) (by unfold eT backwards; simp [e6, h4]) ?_
        refine axis_rigid (td.this.lower (td.transform 0)) (td.neighbor.lower (td.transform 3)) td.this.level
          (sizes d (td.transform 0)) (pos _ (by omega)) _ _ _ (-1) 1 ?_ ?_
        · push_cast at l ⊢; linarith
        · rw [c]; push_cast; ring
    · have l := h.norm
      have c := hc.norm
      have hsn : faceStep f (td.transform 2) = if f % 2 = 1 then 1 else -1 := by unfold faceStep; rw [if_pos h2]
      unfold location at l
      unfold patchCentre at c
      rw [← m2, ← hlev] at l
      rw [← hlev, hsn] at c
      unfold eN
      rw [o2, ← h8]
      rw [← h8] at c
      have r8 := G.r2
      have h8' : td.transform 8 = 0 ∨ td.transform 8 = 1 ∨ td.transform 8 = 2 ∨ td.transform 8 = 3 := by omega
      rcases h8' with e8 | e8 | e8 | e8 <;>
        simp only [e8, inside, outside, show (0 : Nat) % 2 = 0 by rfl, show (1 : Nat) % 2 = 1 by rfl, show (2 : Nat) % 2 = 0 by rfl,
          show (3 : Nat) % 2 = 1 by rfl, show (0 : Nat) / 2 = 0 by rfl, show (1 : Nat) / 2 = 0 by rfl,
          show (2 : Nat) / 2 = 1 by rfl, show (3 : Nat) / 2 = 1 by rfl, show ¬ (0 : Nat) = 1 by omega, if_true, if_false,
          decide_true, decide_false, Bool.false_eq_true, show ¬ (1 : Nat) = 0 by omega] at l c ⊢
      · refine axis_rigid (td.this.lower (td.transform 2)) (td.neighbor.lower (td.transform 5)) td.this.level
          (sizes d (td.transform 2)) (pos _ (by omega)) _ _ _ (-1) 0 ?_ ?_
        · push_cast at l ⊢; linarith
        · push_cast at c ⊢; linarith
      · refine axis_rigid (td.this.lower (td.transform 2)) (td.neighbor.lower (td.transform 5)) td.this.level
          (sizes d (td.transform 2)) (pos _ (by omega)) _ _ _ 1 1 ?_ ?_
        · push_cast at l ⊢; linarith
        · push_cast at c ⊢; linarith
      · refine axis_rigid (td.this.lower (td.transform 2)) (td.neighbor.lower (td.transform 5)) td.this.level
          (sizes d (td.transform 2)) (pos _ (by omega)) _ _ _ 1 (-1) ?_ ?_
        · push_cast at l ⊢; linarith
        · push_cast at c ⊢; linarith
      · refine axis_rigid (td.this.lower (td.transform 2)) (td.neighbor.lower (td.transform 5)) td.this.level
          (sizes d (td.transform 2)) (pos _ (by omega)) _ _ _ (-1) 2 ?_ ?_
        · push_cast at l ⊢; linarith
        · push_cast at c ⊢; linarith

/-- Ghost layer `s + 1` at face `F`. -/
def layer (m F : Nat) (s ν : ℤ) : Prop := if F % 2 = 0 then ν = -s else ν = (m : ℤ) + 1 + s

theorem same_cells (hd : Proper d) (td : TData) (f : Nat) (hf : f < 4)
    (hl : SameLink d td.transform f td.this td.neighbor) (t : ℤ) :
    (∃ o, clawFace d td (cellAt d f t).1 (cellAt d f t).2 = some o ∧
      ax o (1 - otherFace td.transform f / 2) = samePlace td.transform (len d f) t ∧
      layer (sizes d (f / 2)) (otherFace td.transform f) 0 (ax o (otherFace td.transform f / 2))) ∧
    ∃ o, clawFace d td (behind d f t).1 (behind d f t).2 = some o ∧
      ax o (1 - otherFace td.transform f / 2) = samePlace td.transform (len d f) t ∧
      layer (sizes d (f / 2)) (otherFace td.transform f) 1 (ax o (otherFace td.transform f / 2)) := by
  have hf' : f = 0 ∨ f = 1 ∨ f = 2 ∨ f = 3 := by omega
  have tan1 : ax (cellAt d f t) (1 - f / 2) = t := by rcases hf' with rfl | rfl | rfl | rfl <;> rfl
  have tan2 : ax (behind d f t) (1 - f / 2) = t := by rcases hf' with rfl | rfl | rfl | rfl <;> rfl
  have n1 : ax (cellAt d f t) (f / 2) = if f % 2 = 0 then 1 else (sizes d (f / 2) : ℤ) := by
    rcases hf' with rfl | rfl | rfl | rfl <;> rfl
  have n2 : ax (behind d f t) (f / 2) = if f % 2 = 0 then 2 else (sizes d (f / 2) : ℤ) - 1 := by
    rcases hf' with rfl | rfl | rfl | rfl <;> rfl
  have pl : ∀ x : ℤ, 2 * x - 1 - len d f = eT td.transform * (2 * t - 1 - len d f) → x = samePlace td.transform (len d f) t := by
    intro x h
    unfold eT at h
    unfold samePlace
    split at h <;> (first | rw [if_pos (by assumption)] | rw [if_neg (by assumption)]) <;> omega
  have p1 : f % 2 = 0 ∨ f % 2 = 1 := by omega
  have p2 : otherFace td.transform f % 2 = 0 ∨ otherFace td.transform f % 2 = 1 := by omega
  constructor
  · obtain ⟨o, e, h1, h2⟩ := clawFace_at hd td f hf hl (cellAt d f t).1 (cellAt d f t).2
    rw [tan1] at h1
    rw [n1] at h2
    refine ⟨o, e, pl _ h1, ?_⟩
    unfold layer
    unfold eN at h2
    rcases p1 with e1 | e1 <;> rcases p2 with e2 | e2 <;> rw [e1, e2] at h2 <;> rw [e2] <;> simp at h2 ⊢ <;> omega
  · obtain ⟨o, e, h1, h2⟩ := clawFace_at hd td f hf hl (behind d f t).1 (behind d f t).2
    rw [tan2] at h1
    rw [n2] at h2
    refine ⟨o, e, pl _ h1, ?_⟩
    unfold layer
    unfold eN at h2
    rcases p1 with e1 | e1 <;> rcases p2 with e2 | e2 <;> rw [e1, e2] at h2 <;> rw [e2] <;> simp at h2 ⊢ <;> omega

/-- What is put into the dummy array. -/
def sval (d : Dims) (nbr : Regs) (c : Cell) : ℚ :=
  let (i, j, m) := c
  if 1 ≤ j ∧ j ≤ d.my then
    if i ≤ 0 then (if i = 0 then nbr.fm 0 j m else nbr.ef 0 j m 1)
    else (if i = d.mx + 1 then nbr.fp 1 j m else nbr.ef 1 j m 1)
  else
    if j ≤ 0 then (if j = 0 then nbr.gm 0 i m else nbr.ef 2 i m 1)
    else (if j = d.my + 1 then nbr.gp 1 i m else nbr.ef 3 i m 1)

theorem inSame (h2 : 2 ≤ d.mbc) (i j m : ℤ) (hm : comp d m) (hi : -1 ≤ i) (hi' : i ≤ d.mx + 2) (hj : -1 ≤ j)
    (hj' : j ≤ d.my + 2) : inBox d (i, j, m) = true := by
  rw [inBox_iff]
  obtain ⟨_, _⟩ := hm
  omega

theorem fillSame_spec (hd : Proper d) (h2 : 2 ≤ d.mbc) (nbr : Regs) (z : Grid ℚ) :
    ∃ dum, fillSame d nbr z = some dum ∧ ∀ F < 4, ∀ s : ℤ, s = 0 ∨ s = 1 → ∀ ν τ m : ℤ, layer (sizes d (F / 2)) F s ν →
      1 ≤ τ → τ ≤ len d F → comp d m →
      dum (if F / 2 = 0 then (ν, τ, m) else (τ, ν, m)) =
        if s = 0 then fluct nbr F τ m else nbr.ef F τ m 1 := by
  have H : Writes (fun c => ∃ m, 1 ≤ m ∧ m ≤ (d.meqn : ℤ) ∧
      ((∃ j, 1 ≤ j ∧ j ≤ (d.my : ℤ) ∧ (c = (0, j, m) ∨ c = (-1, j, m) ∨ c = ((d.mx : ℤ) + 1, j, m) ∨ c = ((d.mx : ℤ) + 2, j, m))) ∨
       (∃ i, 1 ≤ i ∧ i ≤ (d.mx : ℤ) ∧ (c = (i, 0, m) ∨ c = (i, -1, m) ∨ c = (i, (d.my : ℤ) + 1, m) ∨ c = (i, (d.my : ℤ) + 2, m)))))
      (sval d nbr) (fillSame d nbr) := by
    obtain ⟨hx, hy, _, _⟩ := hd
    unfold fillSame
    dsimp only
    refine Writes.doLoop _ _ _ _ _ fun m m1 m2 => ?_
    have hm : comp d m := ⟨m1, m2⟩
    refine Writes.seq (Writes.doLoop _ _ _ _ _ fun j j1 j2 => ?_) (Writes.doLoop _ _ _ _ _ fun i i1 i2 => ?_)
    · simp only [get_some d.my _ j m j1 j2 hm, Option.bind_some]
      refine Writes.seq (Writes.wr d _ _ _ (inSame h2 _ _ _ hm ?_ ?_ ?_ ?_) ?_)
        (Writes.seq (Writes.wr d _ _ _ (inSame h2 _ _ _ hm ?_ ?_ ?_ ?_) ?_)
        (Writes.seq (Writes.wr d _ _ _ (inSame h2 _ _ _ hm ?_ ?_ ?_ ?_) ?_)
        (Writes.wr d _ _ _ (inSame h2 _ _ _ hm ?_ ?_ ?_ ?_) ?_))) <;> first | omega | skip
      · simp only [sval]
        split_ifs <;> first | rfl | omega | simp_all
      · simp only [sval]
        split_ifs <;> first | rfl | omega | simp_all
      · simp only [sval]
        split_ifs <;> first | rfl | omega | simp_all
      · simp only [sval]
        split_ifs <;> first | rfl | omega | simp_all
    · simp only [get_some d.mx _ i m i1 i2 hm, Option.bind_some]
      refine Writes.seq (Writes.wr d _ _ _ (inSame h2 _ _ _ hm ?_ ?_ ?_ ?_) ?_)
        (Writes.seq (Writes.wr d _ _ _ (inSame h2 _ _ _ hm ?_ ?_ ?_ ?_) ?_)
        (Writes.seq (Writes.wr d _ _ _ (inSame h2 _ _ _ hm ?_ ?_ ?_ ?_) ?_)
        (Writes.wr d _ _ _ (inSame h2 _ _ _ hm ?_ ?_ ?_ ?_) ?_))) <;> first | omega | skip
      · simp only [sval]
        split_ifs <;> first | rfl | omega | simp_all
      · simp only [sval]
        split_ifs <;> first | rfl | omega | simp_all
      · simp only [sval]
        split_ifs <;> first | rfl | omega | simp_all
      · simp only [sval]
        split_ifs <;> first | rfl | omega | simp_all
  obtain ⟨dum, e, h, _⟩ := H z
  obtain ⟨hx, hy, _, _⟩ := hd
  refine ⟨dum, e, ?_⟩
  intro F hF s hs ν τ m hν t1 t2 hm
  have : F = 0 ∨ F = 1 ∨ F = 2 ∨ F = 3 := by omega
  rw [h]
  · rcases this with rfl | rfl | rfl | rfl <;> simp [layer, len, sizes] at hν t2 <;> rcases hs with rfl | rfl <;>
      simp only [sval, Nat.reduceDiv, if_true, if_false, show ¬ (1 : Nat) = 0 by omega, show ¬ (1 : ℤ) = 0 by omega] <;>
      (first | rw [if_pos (by omega)] | rw [if_neg (by omega)]) <;>
      (first | rw [if_pos (by omega)] | rw [if_neg (by omega)]) <;>
      (first | rw [if_pos (by omega)] | rw [if_neg (by omega)]) <;>
      simp [fluct, minus, plus]
  · refine ⟨m, hm.1, hm.2, ?_⟩
    rcases this with rfl | rfl | rfl | rfl <;> simp [layer, len, sizes] at hν t2 ⊢ <;> rcases hs with rfl | rfl
    · exact Or.inl ⟨τ, t1, t2, by first | (simp [hν]; done) | (simp [hν]; omega)⟩
    · exact Or.inl ⟨τ, t1, t2, by first | (simp [hν]; done) | (simp [hν]; omega)⟩
    · exact Or.inl ⟨τ, t1, t2, by first | (simp [hν]; done) | (simp [hν]; omega)⟩
    · exact Or.inl ⟨τ, t1, t2, by first | (simp [hν]; done) | (simp [hν]; omega)⟩
    · exact Or.inr ⟨τ, t1, t2, by first | (simp [hν]; done) | (simp [hν]; omega)⟩
    · exact Or.inr ⟨τ, t1, t2, by first | (simp [hν]; done) | (simp [hν]; omega)⟩
    · exact Or.inr ⟨τ, t1, t2, by first | (simp [hν]; done) | (simp [hν]; omega)⟩
    · exact Or.inr ⟨τ, t1, t2, by first | (simp [hν]; done) | (simp [hν]; omega)⟩

theorem place_in (ft : Nat → Nat) (n : Nat) (t : ℤ) (h1 : 1 ≤ t) (h2 : t ≤ n) :
    1 ≤ samePlace ft n t ∧ samePlace ft n t ≤ n := by
  unfold samePlace
  split <;> omega

theorem peekSame_eq (hd : Proper d) (h2 : 2 ≤ d.mbc) (td : TData) (f : Nat) (hf : f < 4)
    (hl : SameLink d td.transform f td.this td.neighbor) (nbr : Regs) (dum : Grid ℚ)
    (hdum : ∀ F < 4, ∀ s : ℤ, s = 0 ∨ s = 1 → ∀ ν τ m : ℤ, layer (sizes d (F / 2)) F s ν →
      1 ≤ τ → τ ≤ len d F → comp d m →
      dum (if F / 2 = 0 then (ν, τ, m) else (τ, ν, m)) =
        if s = 0 then fluct nbr F τ m else nbr.ef F τ m 1)
    (sc t mq : ℤ) (t1 : 1 ≤ t) (t2 : t ≤ len d f) (hm : comp d mq) :
    peekSame d td dum sc (cellAt d f t).1 (cellAt d f t).2 (behind d f t).1 (behind d f t).2 mq =
      some (some (fluct nbr (otherFace td.transform f) (samePlace td.transform (len d f) t) mq,
          sc * nbr.ef (otherFace td.transform f) (samePlace td.transform (len d f) t) mq 1)) := by
  obtain ⟨⟨o, e, a1, a2⟩, ⟨o', e', b1, b2⟩⟩ := same_cells hd td f hf hl t
  obtain ⟨F4, eL, eS⟩ := faces_same td.transform f hf _ _ hl
  obtain ⟨in1, in2⟩ := place_in td.transform (len d f) t t1 t2
  have r : ∀ (x : ℤ × ℤ) (s : ℤ), s = 0 ∨ s = 1 →
      ax x (1 - otherFace td.transform f / 2) = samePlace td.transform (len d f) t →
      layer (sizes d (f / 2)) (otherFace td.transform f) s (ax x (otherFace td.transform f / 2)) →
      rd d dum (x.1, x.2, mq) = some (if s = 0 then
        fluct nbr (otherFace td.transform f) (samePlace td.transform (len d f) t) mq else
        nbr.ef (otherFace td.transform f) (samePlace td.transform (len d f) t) mq 1) := by
    intro x s hs h1 h3
    rw [← eS] at h3
    rw [pair_ax x (otherFace td.transform f) F4 mq]
    rw [← h1] at in1 in2
    rw [← eL] at in2
    unfold rd
    rw [if_pos ?_, hdum _ F4 s hs _ _ mq h3 in1 in2 hm, h1]
    generalize otherFace td.transform f = F at *
    have : F = 0 ∨ F = 1 ∨ F = 2 ∨ F = 3 := by omega
    rcases this with rfl | rfl | rfl | rfl <;> simp [layer, len, sizes] at h3 in1 in2 ⊢ <;>
      refine inSame h2 _ _ _ hm ?_ ?_ ?_ ?_ <;> omega
  unfold peekSame
  rw [e]
  simp only [Option.bind_some]
  rw [r o 0 (Or.inl rfl) a1 a2, e']
  simp only [Option.bind_some]
  rw [r o' 1 (Or.inr rfl) b1 b2]
  simp

/-- What the correction should be. -/
def owedSame (d : Dims) (ft : Nat → Nat) (f : Nat) (this nbr : Regs) (t m : ℤ) : ℚ :=
  -(gain this f t m + gain nbr (otherFace ft f) (samePlace ft (len d f) t) m)

theorem deltaSame_eq (td : TData) (f : Nat) (hf : f < 4)
    (hl : SameLink d td.transform f td.this td.neighbor) (this nbr : Regs) (hb : Balanced d nbr)
    (t mq : ℤ) (h1 : 1 ≤ t) (h2 : t ≤ len d f) (hm : comp d mq) :
    delta (decide (f % 2 = 0))
      (some (fluct nbr (otherFace td.transform f) (samePlace td.transform (len d f) t) mq,
          (eN td.transform f : ℚ) * nbr.ef (otherFace td.transform f) (samePlace td.transform (len d f) t) mq 1))
      (get (len d f) d.meqn (fun t m => this.ef f t m 0) t mq)
      (get (len d f) d.meqn (fluctIn this f) t mq) = some (owedSame d td.transform f this nbr t mq) := by
  obtain ⟨F4, eL, eS⟩ := faces_same td.transform f hf _ _ hl
  obtain ⟨in1, in2⟩ := place_in td.transform (len d f) t h1 h2
  rw [get_some _ _ t mq h1 h2 hm, get_some _ _ t mq h1 h2 hm]
  unfold owedSame
  simp only [delta, Option.bind_some]
  rw [gain_of_balanced nbr hb _ F4 _ mq in1 (by rw [eL]; exact in2) hm]
  unfold gain fluctIn eN
  have c1 : f % 2 = 0 ∨ f % 2 = 1 := by omega
  have c2 : otherFace td.transform f % 2 = 0 ∨ otherFace td.transform f % 2 = 1 := by omega
  rcases c1 with c1 | c1 <;> rcases c2 with c2 | c2 <;> rw [c1, c2] <;> simp <;> ring

theorem build_signSame (hd : Proper d) (td : TData) (f : Nat) (hf : f < 4)
    (hl : SameLink d td.transform f td.this td.neighbor) :
    ∃ A, buildTransformSame d td = some A ∧
      (if f / 2 = 0 then A.a11 + A.a21 else A.a12 + A.a22) = eN td.transform f := by
  obtain ⟨F4, eL, eS⟩ := faces_same td.transform f hf _ _ hl
  obtain ⟨o, e, o1, o2⟩ := clawFace_at hd td f hf hl 0 0
  obtain ⟨x, ex, x1, x2⟩ := clawFace_at hd td f hf hl 1 0
  obtain ⟨y, ey, y1, y2⟩ := clawFace_at hd td f hf hl 0 1
  unfold buildTransformSame
  rw [e, ex, ey]
  refine ⟨_, rfl, ?_⟩
  dsimp only
  have en : eN td.transform f = 1 ∨ eN td.transform f = -1 := by unfold eN; split <;> simp
  have et : eT td.transform = 1 ∨ eT td.transform = -1 := by unfold eT; split <;> simp
  generalize eN td.transform f = n at *
  generalize eT td.transform = τ at *
  generalize otherFace td.transform f = F at *
  have sum : ∀ p q : ℤ × ℤ, (p.1 - q.1) + (p.2 - q.2) = (ax p (F / 2) - ax q (F / 2)) + (ax p (1 - F / 2) - ax q (1 - F / 2)) := by
    intro p q
    have : F / 2 = 0 ∨ F / 2 = 1 := by omega
    rcases this with e | e <;> rw [e] <;> simp [ax] <;> ring
  rw [sum, sum]
  generalize ax o (F / 2) = on at *
  generalize ax o (1 - F / 2) = ot at *
  generalize ax x (F / 2) = xn at *
  generalize ax x (1 - F / 2) = xt at *
  generalize ax y (F / 2) = yn at *
  generalize ax y (1 - F / 2) = yt at *
  generalize ((if f % 2 = 1 then 1 else -1) : ℤ) * (sizes d (f / 2) : ℤ) = S at *
  have : f / 2 = 0 ∨ f / 2 = 1 := by omega
  rcases this with e0 | e0 <;> simp only [e0, ax, Nat.sub_zero, Nat.sub_self, if_true, if_false, show ¬ (1 : Nat) = 0 by omega] at x1 x2 y1 y2 o1 o2 ⊢ <;>
    rcases en with rfl | rfl <;> rcases et with rfl | rfl <;> omega

/-- What happens to one cell. -/
def oneSame (d : Dims) (td : TData) (f : Nat) (dum : Grid ℚ) (sc : ℤ) (this : Regs) (m t : ℤ) (q : Grid ℚ) :
    Option (Grid ℚ) :=
  (peekSame d td dum sc (cellAt d f t).1 (cellAt d f t).2 (behind d f t).1 (behind d f t).2 m).bind fun w =>
  (delta (decide (f % 2 = 0)) w (get (len d f) d.meqn (fun t m => this.ef f t m 0) t m)
    (get (len d f) d.meqn (fluctIn this f) t m)).bind fun v =>
  add d q ((cellAt d f t).1, (cellAt d f t).2, m) (1 / 2 * v / this.area f t)

theorem same_loop (td : TData) (f : Nat) (hf : f < 4) (this nbr : Regs) (q : Grid ℚ) (A : Affine)
    (eA : buildTransformSame d td = some A) (dum : Grid ℚ) (eD : fillSame d nbr (fun _ => 0) = some dum) :
    samesize d td f this nbr q = (doLoop 1 d.meqn fun m => doLoop 1 (len d f)
      (oneSame d td f dum (if f / 2 = 0 then A.a11 + A.a21 else A.a12 + A.a22) this m)) q := by
  unfold samesize
  dsimp only
  rw [eA]
  simp only [Option.bind_some]
  rw [eD]
  simp only [Option.bind_some]
  have hf' : f = 0 ∨ f = 1 ∨ f = 2 ∨ f = 3 := by omega
  rcases hf' with rfl | rfl | rfl | rfl <;> rfl

theorem samesize_spec (hd : Proper d) (h2' : 2 ≤ d.mbc) (td : TData) (f : Nat) (hf : f < 4)
    (hl : SameLink d td.transform f td.this td.neighbor)
    (this nbr : Regs) (hb : Balanced d nbr) (q : Grid ℚ) :
    ∃ q', samesize d td f this nbr q = some q' ∧
      (∀ t ∈ upTo (len d f), ∀ m, comp d m →
        q' ((cellAt d f t).1, (cellAt d f t).2, m) = q ((cellAt d f t).1, (cellAt d f t).2, m) +
          1 / 2 * owedSame d td.transform f this nbr t m / this.area f t) ∧
      ∀ c, (¬ ∃ t ∈ upTo (len d f), ∃ m, comp d m ∧ c = ((cellAt d f t).1, (cellAt d f t).2, m)) → q' c = q c := by
  obtain ⟨A, eA, sA⟩ := build_signSame hd td f hf hl
  obtain ⟨dum, eD, hD⟩ := fillSame_spec hd h2' nbr (fun _ => 0)
  have hal : ∀ t m, along f ((cellAt d f t).1, (cellAt d f t).2, m) = t := by
    intro t m
    have : f = 0 ∨ f = 1 ∨ f = 2 ∨ f = 3 := by omega
    rcases this with rfl | rfl | rfl | rfl <;> rfl
  obtain ⟨q', e', h1, h2⟩ := loop_acts ⟨hd.1, hd.2.1⟩ f hf (fun t m => 1 / 2 * owedSame d td.transform f this nbr t m / this.area f t)
    (oneSame d td f dum (if f / 2 = 0 then A.a11 + A.a21 else A.a12 + A.a22) this) (by
      intro m t hm h1 h2
      funext q
      unfold oneSame
      rw [sA, peekSame_eq hd h2' td f hf hl nbr dum hD (eN td.transform f) t m h1 h2 hm]
      simp only [Option.bind_some]
      rw [deltaSame_eq td f hf hl this nbr hb t m h1 h2 hm]
      rfl) q
  refine ⟨q', (same_loop td f hf this nbr q A eA dum eD).trans e', ?_, ?_⟩
  · intro t ht m hm
    rw [mem_upTo] at ht
    have := h1 ((cellAt d f t).1, (cellAt d f t).2, m) ⟨m, hm.1, hm.2, t, ht.1, ht.2, rfl⟩
    rw [this]
    dsimp only
    rw [hal]
  · intro c hc
    refine h2 c ?_
    rintro ⟨m, m1, m2, t, t1, t2, e⟩
    exact hc ⟨t, by rw [mem_upTo]; exact ⟨t1, t2⟩, m, ⟨m1, m2⟩, e⟩

end Fclaw.Correction
