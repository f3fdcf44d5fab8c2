import Verif.Transfer.Lemmas
/-
Helpers for C38: the correction on mapped grids, and interpolation to all four children.
-/
set_option autoImplicit false
set_option linter.unusedSimpArgs false
set_option linter.unusedVariables false
namespace Fclaw.Transfer

open Fort CopyGhost

/-- Mass of four fine cells. -/
def sum4 (kf : Area) (q : Grid ℚ) (i j m : ℤ) : ℚ :=
  kf (2 * i - 1, 2 * j - 1) * q (2 * i - 1, 2 * j - 1, m) + kf (2 * i - 1, 2 * j) * q (2 * i - 1, 2 * j, m) +
  kf (2 * i, 2 * j - 1) * q (2 * i, 2 * j - 1, m) + kf (2 * i, 2 * j) * q (2 * i, 2 * j, m)

/-- A fine value after the correction. -/
def corrected (d : Dims) (kc kf : Area) (g : ℤ) (qco : Grid ℚ) (q : Grid ℚ) (c : Cell) : ℚ :=
  let i := (c.1 + 1) / 2
  let j := (c.2.1 + 1) / 2
  let I := i + g % 2 * ((d.mx : ℤ) / 2)
  let J := j + g / 2 * ((d.my : ℤ) / 2)
  q c + (qco (I, J, c.2.2) * kc (I, J) - sum4 kf q i j c.2.2) / 4 / kf (c.1, c.2.1)

/-- The four cells. -/
def inBlock4 (i j m : ℤ) (c : Cell) : Prop :=
  (c.1 = 2 * i - 1 ∨ c.1 = 2 * i) ∧ (c.2.1 = 2 * j - 1 ∨ c.2.1 = 2 * j) ∧ c.2.2 = m

theorem local4 (d : Dims) (kc kf : Area) (g : ℤ) (qco : Grid ℚ) (i j m : ℤ) :
    LocalOn (inBlock4 i j m) (corrected d kc kf g qco) := by
  rintro q1 q2 h ⟨a, b, m'⟩ hc
  have hc' := hc
  obtain ⟨h1, h2, h3⟩ := hc
  dsimp only at h1 h2 h3
  subst h3
  unfold corrected sum4
  dsimp only
  rw [show (a + 1) / 2 = i by omega, show (b + 1) / 2 = j by omega, h _ hc',
    h (2 * i - 1, 2 * j - 1, m') ⟨Or.inl rfl, Or.inl rfl, rfl⟩, h (2 * i - 1, 2 * j, m') ⟨Or.inl rfl, Or.inr rfl, rfl⟩,
    h (2 * i, 2 * j - 1, m') ⟨Or.inr rfl, Or.inl rfl, rfl⟩, h (2 * i, 2 * j, m') ⟨Or.inr rfl, Or.inr rfl, rfl⟩]

theorem fineSum_eq (d : Dims) (kf : Area) (i j m : ℤ) (q : Grid ℚ) (hi : 1 ≤ i ∧ 2 * i ≤ d.mx) (hj : 1 ≤ j ∧ 2 * j ≤ d.my)
    (hm : comp d m) : fineSum d kf i j m q = some (sum4 kf q i j m) := by
  have a0 : 1 ≤ 2 * i - 1 ∧ 2 * i - 1 ≤ (d.mx : ℤ) := by omega
  have a1 : 1 ≤ 2 * i ∧ 2 * i ≤ (d.mx : ℤ) := by omega
  have b0 : 1 ≤ 2 * j - 1 ∧ 2 * j - 1 ≤ (d.my : ℤ) := by omega
  have b1 : 1 ≤ 2 * j ∧ 2 * j ≤ (d.my : ℤ) := by omega
  unfold fineSum
  simp only [doLoop_one_two]
  rw [show (i - 1) * 2 + 1 = 2 * i - 1 by ring, show (i - 1) * 2 + 2 = 2 * i by ring,
    show (j - 1) * 2 + 1 = 2 * j - 1 by ring, show (j - 1) * 2 + 2 = 2 * j by ring]
  simp only [rd_interior _ a0 b0 hm, rd_interior _ a1 b0 hm, rd_interior _ a0 b1 hm,
    rd_interior _ a1 b1 hm, rdArea_interior _ a0 b0, rdArea_interior _ a1 b0, rdArea_interior _ a0 b1,
    rdArea_interior _ a1 b1, Option.bind_some]
  congr 1
  unfold sum4
  ring

theorem spread_acts (d : Dims) (kf : Area) (i j m : ℤ) (cd : ℚ) (hi : 1 ≤ i ∧ 2 * i ≤ d.mx) (hj : 1 ≤ j ∧ 2 * j ≤ d.my)
    (hm : comp d m) (hk : ∀ a b : ℤ, 1 ≤ a ∧ a ≤ d.mx → 1 ≤ b ∧ b ≤ d.my → kf (a, b) ≠ 0) :
    Acts (inBlock4 i j m) (fun q c => q c + cd / kf (c.1, c.2.1)) (spread d kf i j m cd) := by
  unfold spread
  refine (Acts.doLoop (fun ii c => ∃ jj, 1 ≤ jj ∧ jj ≤ 2 ∧ c = ((i - 1) * 2 + ii, (j - 1) * 2 + jj, m)) _ _ _ _
    ?_ ?_ ?_).congr ?_
  · intro ii h1 h2
    refine Acts.doLoop (fun jj c => c = ((i - 1) * 2 + ii, (j - 1) * 2 + jj, m)) _ _ _ _ ?_ ?_ ?_
    · intro jj h3 h4 q
      have a0 : 1 ≤ (i - 1) * 2 + ii ∧ (i - 1) * 2 + ii ≤ (d.mx : ℤ) := by omega
      have b0 : 1 ≤ (j - 1) * 2 + jj ∧ (j - 1) * 2 + jj ≤ (d.my : ℤ) := by omega
      have hin : inBox d ((i - 1) * 2 + ii, (j - 1) * 2 + jj, m) = true := by
        rw [inBox_iff]; unfold comp at hm; omega
      simp only [rd_interior _ a0 b0 hm, rdArea_interior _ a0 b0, Option.bind_some, divide, if_neg (hk _ _ a0 b0),
        wr, hin, if_true]
      refine ⟨_, rfl, ?_, ?_⟩
      · rintro c rfl
        simp
      · intro c hc
        simp [hc]
    · rintro jj _ _ q1 q2 h c hc
      show q1 c + _ = q2 c + _
      rw [h c hc]
    · rintro jj jj' hne c rfl hc
      simp only [Prod.mk.injEq, true_and, and_true] at hc
      omega
  · rintro ii _ _ q1 q2 h c hc
    show q1 c + _ = q2 c + _
    rw [h c hc]
  · rintro ii ii' hne c ⟨jj, _, _, rfl⟩ ⟨jj', _, _, hc⟩
    simp only [Prod.mk.injEq, true_and, and_true] at hc
    omega
  · rintro ⟨a, b, m'⟩
    unfold inBlock4
    simp only [Prod.mk.injEq]
    constructor
    · rintro ⟨ii, _, _, jj, _, _, rfl, rfl, rfl⟩
      omega
    · rintro ⟨h1, h2, rfl⟩
      exact ⟨a - (i - 1) * 2, by omega, by omega, b - (j - 1) * 2, by omega, by omega, by omega, by omega, rfl⟩

/-- The cells corrected: all interior ones. -/
def inFine (d : Dims) (c : Cell) : Prop := comp d c.2.2 ∧ (1 ≤ c.1 ∧ c.1 ≤ d.mx) ∧ 1 ≤ c.2.1 ∧ c.2.1 ≤ d.my

theorem fixcapaq2_acts (d : Dims) (hE : Even2 d) (kc kf : Area) (g : ℤ) (hg : 0 ≤ g ∧ g ≤ 3) (qco : Grid ℚ)
    (hk : ∀ a b : ℤ, 1 ≤ a ∧ a ≤ d.mx → 1 ≤ b ∧ b ≤ d.my → kf (a, b) ≠ 0) :
    Acts (inFine d) (corrected d kc kf g qco) (fixcapaq2 d kc kf g qco) := by
  have e1 := ig_eq g d.mx hg hE.2.2.1
  have e2 := jg_eq g d.my hg hE.2.2.2
  have hE' := hE
  obtain ⟨E1, E2, E3, E4⟩ := hE
  unfold fixcapaq2
  dsimp only
  rw [e1, e2]
  have loc2 : ∀ m i : ℤ, LocalOn (fun c => ∃ j, 1 ≤ j ∧ j ≤ (d.my : ℤ) / 2 ∧ inBlock4 i j m c) (corrected d kc kf g qco) :=
    fun m i => LocalOn.union (fun j => inBlock4 i j m) _ _ _ fun j _ _ => local4 d kc kf g qco i j m
  have loc3 : ∀ m : ℤ, LocalOn (fun c => ∃ i, 1 ≤ i ∧ i ≤ (d.mx : ℤ) / 2 ∧ ∃ j, 1 ≤ j ∧ j ≤ (d.my : ℤ) / 2 ∧ inBlock4 i j m c)
      (corrected d kc kf g qco) :=
    fun m => LocalOn.union (fun i c => ∃ j, 1 ≤ j ∧ j ≤ (d.my : ℤ) / 2 ∧ inBlock4 i j m c) _ _ _ fun i _ _ => loc2 m i
  refine (Acts.doLoop (fun m c => ∃ i, 1 ≤ i ∧ i ≤ (d.mx : ℤ) / 2 ∧ ∃ j, 1 ≤ j ∧ j ≤ (d.my : ℤ) / 2 ∧ inBlock4 i j m c) _ _ _ _
    ?_ (fun m _ _ => loc3 m) ?_).congr ?_
  · intro m m1 m2
    refine Acts.doLoop (fun i c => ∃ j, 1 ≤ j ∧ j ≤ (d.my : ℤ) / 2 ∧ inBlock4 i j m c) _ _ _ _ ?_ (fun i _ _ => loc2 m i) ?_
    · intro i i1 i2
      refine Acts.doLoop (fun j => inBlock4 i j m) _ _ _ _ ?_ (fun j _ _ => local4 d kc kf g qco i j m) ?_
      · intro j j1 j2 q
        have hC : (i + g % 2 * ((d.mx : ℤ) / 2), j + g / 2 * ((d.my : ℤ) / 2)) ∈ coarseCells d := by
          have := parent_mem d hE' (g, 2 * i, 2 * j) (by rw [mem_fineCells]; omega)
          unfold parent at this
          dsimp only at this
          rw [show (2 * i + 1) / 2 = i by omega, show (2 * j + 1) / 2 = j by omega] at this
          rwa [add_comm i, add_comm j]
        obtain ⟨c1, c2⟩ := (mem_coarseCells d _ _).1 hC
        have hm : comp d m := ⟨m1, m2⟩
        simp only [fineSum_eq d kf i j m q (by omega) (by omega) hm]
        simp only [Option.bind_some, rdArea_interior kc c1 c2, rd_interior qco c1 c2 hm]
        obtain ⟨q', h1, h2, h3⟩ := spread_acts d kf i j m
          ((qco (i + g % 2 * ((d.mx : ℤ) / 2), j + g / 2 * ((d.my : ℤ) / 2), m) *
            kc (i + g % 2 * ((d.mx : ℤ) / 2), j + g / 2 * ((d.my : ℤ) / 2)) - sum4 kf q i j m) / 4)
          (by omega) (by omega) hm hk q
        refine ⟨q', h1, ?_, h3⟩
        rintro ⟨a, b, m'⟩ hc
        rw [h2 _ hc]
        obtain ⟨x1, x2, x3⟩ := hc
        dsimp only at x1 x2 x3
        subst x3
        unfold corrected
        dsimp only
        rw [show (a + 1) / 2 = i by omega, show (b + 1) / 2 = j by omega]
      · rintro j j' hne c ⟨_, h1, _⟩ ⟨_, h2, _⟩
        omega
    · rintro i i' hne c ⟨j, _, _, h1, _⟩ ⟨j', _, _, h2, _⟩
      omega
  · rintro m m' hne c ⟨i, _, _, j, _, _, _, _, h1⟩ ⟨i', _, _, j', _, _, _, _, h2⟩
    omega
  · rintro ⟨a, b, m⟩
    unfold inFine comp inBlock4
    dsimp only
    constructor
    · rintro ⟨m', h1, h2, i, h3, h4, j, h5, h6, h7, h8, rfl⟩
      omega
    · rintro ⟨⟨h1, h2⟩, ⟨h3, h4⟩, h5, h6⟩
      exact ⟨m, h1, h2, (a + 1) / 2, by omega, by omega, (b + 1) / 2, by omega, by omega, by omega, by omega, rfl⟩

/-- The value in a fine cell after refinement. -/
def refined (d : Dims) (kc : Area) (kf : ℤ → Area) (manifold : ℤ) (q : Grid ℚ) (g : ℤ) : Grid ℚ :=
  if manifold = 0 then interpValue d q g else corrected d kc (kf g) g q (interpValue d q g)

theorem interpolate2fine_sets (d : Dims) (hE : Even2 d) (hb : 2 ≤ d.mbc) (kc : Area) (kf : ℤ → Area) (manifold : ℤ)
    (hA : Areas d manifold kc kf) (g : ℤ) (hg : 0 ≤ g ∧ g ≤ 3) (q qf : Grid ℚ) :
    ∃ q', interpolate2fine d kc (kf g) g manifold q qf = some q' ∧
      ∀ c, inFine d c → q' c = refined d kc kf manifold q g c := by
  obtain ⟨q1, e1, a1, b1⟩ := interpolate_writes d hE hb g hg q qf
  have hin : ∀ c, inFine d c → interpCells d g c := by
    rintro c ⟨h1, h2, h3⟩
    refine ⟨h1, ?_, ?_⟩ <;> omega
  unfold interpolate2fine
  rw [e1]
  simp only [Option.bind_some]
  by_cases hm : manifold = 0
  · refine ⟨q1, by simp [hm], ?_⟩
    intro c hc
    rw [a1 c (hin c hc)]
    simp [refined, hm]
  · obtain ⟨q2, e2, a2, b2⟩ := fixcapaq2_acts d hE kc (kf g) g hg q (fun a b ha hb' =>
      ne_of_gt (hA.2.1 (g, a, b) ((mem_fineCells ..).2 ⟨hg, ha, hb'⟩))) q1
    refine ⟨q2, by simp [hm, e2], ?_⟩
    rintro ⟨a, b, m⟩ hc
    rw [a2 _ hc]
    have hc0 := hc
    obtain ⟨h1, h2, h3⟩ := hc
    dsimp only at h1 h2 h3
    have E := hE
    obtain ⟨E1, E2, E3, E4⟩ := E
    unfold refined
    rw [if_neg hm]
    have key : ∀ c, inBlock4 ((a + 1) / 2) ((b + 1) / 2) m c → q1 c = interpValue d q g c := by
      rintro ⟨x, y, z⟩ ⟨k1, k2, k3⟩
      dsimp only at k1 k2 k3
      subst k3
      refine a1 _ (hin _ ⟨h1, ?_, ?_⟩) <;> dsimp only <;> omega
    refine local4 d kc (kf g) g q ((a + 1) / 2) ((b + 1) / 2) m q1 (interpValue d q g) key (a, b, m) ⟨?_, ?_, rfl⟩ <;>
      dsimp only <;> omega

/-- All four children. -/
theorem refine_sets (d : Dims) (hE : Even2 d) (hb : 2 ≤ d.mbc) (kc : Area) (kf : ℤ → Area) (manifold : ℤ)
    (hA : Areas d manifold kc kf) (q : Grid ℚ) (qf : ℤ → Grid ℚ) :
    ∃ fs, refine d kc kf manifold q qf = some fs ∧
      ∀ g, 0 ≤ g ∧ g ≤ 3 → ∀ c, inFine d c → fs g c = refined d kc kf manifold q g c := by
  have step := fun (g : ℤ) (hg : 0 ≤ g ∧ g ≤ 3) (qf : Grid ℚ) =>
    interpolate2fine_sets d hE hb kc kf manifold hA g hg q qf
  unfold refine
  rw [doLoop_zero_three]
  obtain ⟨q0, e0, a0⟩ := step 0 (by omega) (qf 0)
  obtain ⟨q1, e1, a1⟩ := step 1 (by omega) (qf 1)
  obtain ⟨q2, e2, a2⟩ := step 2 (by omega) (qf 2)
  obtain ⟨q3, e3, a3⟩ := step 3 (by omega) (qf 3)
  refine ⟨fun g => if g = 3 then q3 else if g = 2 then q2 else if g = 1 then q1 else if g = 0 then q0 else qf g, ?_, ?_⟩
  · simp [e0, e1, e2, e3]
  · rintro g ⟨g0, g1⟩ c hc
    interval_cases g
    · simpa using a0 c hc
    · simpa using a1 c hc
    · simpa using a2 c hc
    · simpa using a3 c hc

end Fclaw.Transfer
