import Verif.Dtopo.Lemmas
/-
The invariant of the calls of `topo_update`, for C100.
-/
set_option autoImplicit false
set_option linter.unusedVariables false
namespace Fclaw.Dtopo

open Fort

noncomputable section

/-- The heights of a file are the initial ones plus the sum of displacements. -/
def Setup.Good (S : Setup) (f : ℤ) (t : ℝ) (w : ℤ → ℝ) : Prop :=
  ∀ i j : ℤ, 1 ≤ i → i ≤ (S.file f).mx → 1 ≤ j → j ≤ (S.file f).my →
    w (node (S.file f).mx j i) = (S.file f).topo0 (node (S.file f).mx j i) +
      S.moves.total ((S.file f).xlow + ((i : ℝ) - 1) * (S.file f).dx)
        ((S.file f).yhi - ((j : ℝ) - 1) * (S.file f).dy) t

theorem good_groundAt (S : Setup) (hM : S.moves.Valid) (f : ℤ) (t : ℝ) (w : ℤ → ℝ) (h : S.Good f t w) :
    S.GroundAt f t w := by
  intro i j h1 h2 h3 h4
  refine ⟨fun m => (S.moves.move m).disp ((S.file f).xlow + ((i : ℝ) - 1) * (S.file f).dx)
    ((S.file f).yhi - ((j : ℝ) - 1) * (S.file f).dy) t, ?_, h i j h1 h2 h3 h4⟩
  intro m hm1 hm2
  exact disp_displaces _ (hM m hm1 hm2) _ _ _

theorem total_same (M : Moves) (x y t t' : ℝ)
    (h : ∀ m : ℤ, 1 ≤ m → m ≤ M.n → (M.move m).disp x y t = (M.move m).disp x y t') : M.total x y t = M.total x y t' := by
  unfold Moves.total
  refine Finset.sum_congr rfl ?_
  intro m hm
  rw [Finset.mem_Icc] at hm
  exact h m hm.1 hm.2

theorem good_congr (S : Setup) (f : ℤ) (t t' : ℝ) (w : ℤ → ℝ)
    (h : ∀ x y, ∀ m : ℤ, 1 ≤ m → m ≤ S.moves.n → (S.moves.move m).disp x y t = (S.moves.move m).disp x y t')
    (hg : S.Good f t w) : S.Good f t' w := by
  intro i j h1 h2 h3 h4
  rw [hg i j h1 h2 h3 h4, total_same _ _ _ t t' (h _ _)]

theorem disp_before (m : Move) (x y t : ℝ) (h : t < m.t0) : m.disp x y t = 0 := by
  unfold Move.disp
  rw [if_neg (fun h' => absurd h'.2 (not_le.2 h))]

/-- After the loop over the files. -/
theorem files_loop (S : Setup) (hM : S.moves.Valid) (t : ℝ) (l : List ℤ) (hn : l.Nodup) :
    ∀ s : State, (∀ f ∈ l, (S.save f > 0 → s.time f = t → S.Good f t (s.work f)) ∧
        (S.save f ≤ 0 → s.work f = (S.file f).topo0)) →
      ∃ s', loop l (fun mt s => S.fileUpdate t mt s) s = some s' ∧ s'.finalized = s.finalized ∧
        (∀ f ∈ l, s'.time f = t ∧ (S.save f > 0 → S.Good f t (s'.work f)) ∧
          (S.save f ≤ 0 → s'.work f = (S.file f).topo0)) ∧
        ∀ f, f ∉ l → s'.time f = s.time f ∧ s'.work f = s.work f := by
  induction l with
  | nil => intro s _; exact ⟨s, rfl, rfl, by simp, by simp⟩
  | cons k l ih =>
    intro s hs
    rw [List.nodup_cons] at hn
    obtain ⟨s1, e1, f1, p1, q1⟩ : ∃ s1, S.fileUpdate t k s = some s1 ∧ s1.finalized = s.finalized ∧
        (s1.time k = t ∧ (S.save k > 0 → S.Good k t (s1.work k)) ∧
          (S.save k ≤ 0 → s1.work k = (S.file k).topo0)) ∧
        ∀ f, f ≠ k → s1.time f = s.time f ∧ s1.work f = s.work f := by
      unfold Setup.fileUpdate
      by_cases h1 : S.save k ≤ 0
      · rw [if_pos h1]
        refine ⟨_, rfl, rfl, ⟨if_pos rfl, fun h => absurd h (not_lt.2 h1), fun h => ?_⟩, fun f hf => ⟨if_neg hf, rfl⟩⟩
        exact (hs k List.mem_cons_self).2 h
      · rw [if_neg h1]
        by_cases h2 : s.time k = t
        · rw [if_pos h2]
          exact ⟨s, rfl, rfl, ⟨h2, fun h => (hs k List.mem_cons_self).1 h h2, fun h => absurd h h1⟩, fun f hf => ⟨rfl, rfl⟩⟩
        · rw [if_neg h2]
          obtain ⟨w', e, hw⟩ := fileNodes_eq S hM t k (s.work k)
          rw [e, Option.bind_some]
          refine ⟨_, rfl, rfl, ⟨if_pos rfl, fun _ => ?_, fun h => absurd h h1⟩, fun f hf => ⟨if_neg hf, if_neg hf⟩⟩
          dsimp only
          rw [if_pos rfl]
          exact hw
    obtain ⟨s2, e2, f2, p2, q2⟩ := ih hn.2 s1 (by
      intro f hf
      have hne : f ≠ k := fun h => hn.1 (h ▸ hf)
      rw [(q1 f hne).1, (q1 f hne).2]
      exact hs f (List.mem_cons_of_mem _ hf))
    refine ⟨s2, ?_, f2.trans f1, ?_, ?_⟩
    · simp only [loop]; rw [e1, Option.bind_some, e2]
    · intro f hf
      rcases List.mem_cons.1 hf with rfl | hf
      · rw [(q2 f hn.1).1, (q2 f hn.1).2]; exact p1
      · exact p2 f hf
    · intro f hf
      rw [List.mem_cons, not_or] at hf
      rw [(q2 f hf.2).1, (q2 f hf.2).2]
      exact q1 f hf.1

/-- What holds between calls; `T` is the time of the last one. -/
structure Setup.Inv (S : Setup) (huge : ℝ) (s : State) (T : ℝ) : Prop where
  ground : ∀ f : ℤ, 1 ≤ f → f ≤ S.nfiles → S.save f > 0 → S.Good f T (s.work f)
  still : ∀ f : ℤ, 1 ≤ f → f ≤ S.nfiles → S.save f ≤ 0 → s.work f = (S.file f).topo0
  fin : s.finalized = true → ∀ m : ℤ, 1 ≤ m → m ≤ S.moves.n → (S.moves.move m).tf ≤ T
  times : s.finalized = false →
    ((∀ f : ℤ, 1 ≤ f → f ≤ S.nfiles → s.time f = -huge) ∧ ∀ m : ℤ, 1 ≤ m → m ≤ S.moves.n → T < (S.moves.move m).t0) ∨
    ((∀ f : ℤ, 1 ≤ f → f ≤ S.nfiles → s.time f = T) ∧ ∃ m : ℤ, 1 ≤ m ∧ m ≤ S.moves.n ∧ (S.moves.move m).t0 ≤ T)

theorem inv_start (S : Setup) (huge : ℝ) (hh : ∀ m : ℤ, 1 ≤ m → m ≤ S.moves.n → -huge < (S.moves.move m).t0) :
    S.Inv huge (S.start huge) (-huge) where
  ground := by
    intro f _ _ _ i j _ _ _ _
    unfold Setup.start Moves.total
    rw [Finset.sum_eq_zero, add_zero]
    intro m hm
    rw [Finset.mem_Icc] at hm
    exact disp_before _ _ _ _ (hh m hm.1 hm.2)
  still := fun _ _ _ _ => rfl
  fin := by
    intro h m h1 h2
    unfold Setup.start at h
    simp only [decide_eq_true_eq] at h
    omega
  times := fun _ => Or.inl ⟨fun _ _ _ => rfl, hh⟩

theorem inv_update (S : Setup) (hM : S.moves.Valid) (hn : S.moves.n ≤ S.nfiles) (huge : ℝ) (s : State) (T t : ℝ)
    (hT : -huge ≤ T) (hTt : T ≤ t) (h : S.Inv huge s T) : ∃ s', S.update t s = some s' ∧ S.Inv huge s' t := by
  unfold Setup.update
  by_cases hf : s.finalized = true
  · rw [if_pos hf]
    refine ⟨s, rfl, ?_, h.still, ?_, fun h' => absurd hf (by rw [h']; simp)⟩
    · intro f f1 f2 f3
      refine good_congr S f T t _ ?_ (h.ground f f1 f2 f3)
      intro x y m m1 m2
      have := h.fin hf m m1 m2
      exact disp_end _ (hM m m1 m2) _ _ _ _ this (this.trans hTt)
    · intro _ m m1 m2; exact (h.fin hf m m1 m2).trans hTt
  · rw [if_neg hf]
    have hf' : s.finalized = false := by simpa using hf
    unfold Setup.topoUpdate
    by_cases c1 : (∀ m ∈ range 1 S.moves.n, t < (S.moves.move m).t0) ∨ s.finalized = true
    · rw [if_pos c1]
      have c1 : ∀ m : ℤ, 1 ≤ m → m ≤ S.moves.n → t < (S.moves.move m).t0 := by
        rcases c1 with c1 | c1
        · intro m m1 m2; exact c1 m (by rw [mem_range]; exact ⟨m1, m2⟩)
        · exact absurd c1 hf
      refine ⟨s, rfl, ?_, h.still, fun h' => absurd h' hf, ?_⟩
      · intro f f1 f2 f3
        refine good_congr S f T t _ ?_ (h.ground f f1 f2 f3)
        intro x y m m1 m2
        have := c1 m m1 m2
        rw [disp_before _ _ _ _ this, disp_before _ _ _ _ (lt_of_le_of_lt hTt this)]
      · intro _
        left
        rcases h.times hf' with ⟨a, b⟩ | ⟨a, m, m1, m2, m3⟩
        · exact ⟨a, c1⟩
        · exact absurd (c1 m m1 m2) (not_lt.2 (m3.trans hTt))
    · rw [if_neg c1]
      push Not at c1
      obtain ⟨⟨m0, hm0, hm0'⟩, _⟩ := c1
      rw [mem_range] at hm0
      have hnf : (1 : ℤ) ≤ S.nfiles := by omega
      by_cases c2 : ∀ f ∈ range 1 S.nfiles, ∀ m ∈ range 1 S.moves.n, (S.moves.move m).tf ≤ s.time f
      · rw [if_pos c2]
        have c3 : ∀ m : ℤ, 1 ≤ m → m ≤ S.moves.n → (S.moves.move m).tf ≤ T := by
          rcases h.times hf' with ⟨a, b⟩ | ⟨a, _⟩
          · exfalso
            have := c2 1 (by rw [mem_range]; omega) m0 (by rw [mem_range]; exact hm0)
            rw [a 1 le_rfl hnf] at this
            have := b m0 hm0.1 hm0.2
            have := t0_le_tf _ (hM m0 hm0.1 hm0.2)
            linarith
          · intro m m1 m2
            have := c2 1 (by rw [mem_range]; omega) m (by rw [mem_range]; exact ⟨m1, m2⟩)
            rwa [a 1 le_rfl hnf] at this
        refine ⟨_, rfl, ?_, h.still, fun _ m m1 m2 => (c3 m m1 m2).trans hTt, fun h' => by simp at h'⟩
        intro f f1 f2 f3
        refine good_congr S f T t _ ?_ (h.ground f f1 f2 f3)
        intro x y m m1 m2
        have := c3 m m1 m2
        exact disp_end _ (hM m m1 m2) _ _ _ _ this (this.trans hTt)
      · rw [if_neg c2]
        obtain ⟨s', e, e2, p, _⟩ := files_loop S hM t (range 1 S.nfiles) (range_nodup _ _) s (by
          intro f hf1
          rw [mem_range] at hf1
          refine ⟨fun hs ht => ?_, fun hs => h.still f hf1.1 hf1.2 hs⟩
          rcases h.times hf' with ⟨a, b⟩ | ⟨a, _⟩
          · exfalso
            rw [a f hf1.1 hf1.2] at ht
            have := b m0 hm0.1 hm0.2
            linarith
          · rw [← ht, a f hf1.1 hf1.2]; exact h.ground f hf1.1 hf1.2 hs)
        have p' : ∀ f : ℤ, 1 ≤ f → f ≤ S.nfiles → s'.time f = t ∧ (S.save f > 0 → S.Good f t (s'.work f)) ∧
          (S.save f ≤ 0 → s'.work f = (S.file f).topo0) := fun f f1 f2 => p f (by rw [mem_range]; exact ⟨f1, f2⟩)
        refine ⟨s', e, fun f f1 f2 => (p' f f1 f2).2.1, fun f f1 f2 => (p' f f1 f2).2.2,
          fun h' => absurd (e2 ▸ h') hf, fun _ => Or.inr ⟨fun f f1 f2 => (p' f f1 f2).1, m0, hm0.1, hm0.2, hm0'⟩⟩

theorem inv_updates (S : Setup) (hM : S.moves.Valid) (hn : S.moves.n ≤ S.nfiles) (huge : ℝ) :
    ∀ (ts : List ℝ) (s : State) (T t : ℝ), -huge ≤ T → (T :: (ts ++ [t])).Pairwise (· ≤ ·) → S.Inv huge s T →
      ∃ s', S.updates (ts ++ [t]) s = some s' ∧ S.Inv huge s' t := by
  intro ts
  induction ts with
  | nil =>
    intro s T t hT hp h
    obtain ⟨s', e, h'⟩ := inv_update S hM hn huge s T t hT (by simp at hp; exact hp) h
    refine ⟨s', ?_, h'⟩
    show (S.update t s).bind (S.updates []) = some s'
    rw [e]
    rfl
  | cons u ts ih =>
    intro s T t hT hp h
    have hp' : (T :: u :: (ts ++ [t])).Pairwise (· ≤ ·) := hp
    have hTu : T ≤ u := (List.pairwise_cons.1 hp').1 u List.mem_cons_self
    obtain ⟨s1, e1, h1⟩ := inv_update S hM hn huge s T u hT hTu h
    obtain ⟨s', e, h'⟩ := ih s1 u t (hT.trans hTu) (List.pairwise_cons.1 hp').2 h1
    refine ⟨s', ?_, h'⟩
    show (S.update u s).bind (S.updates (ts ++ [t])) = some s'
    rw [e1]
    exact e

/-! ### Displacements are determined by their description -/

theorem cell_spec (m : Move) (hm : m.Valid) (x y : ℝ) (hc : m.Covers x y) :
    ∃ i j : ℤ, 1 ≤ i ∧ i < m.mx ∧ 1 ≤ j ∧ j < m.my ∧
    m.col i ≤ x ∧ x ≤ m.col (i + 1) ∧ m.row (j + 1) ≤ y ∧ y ≤ m.row j := by
  obtain ⟨⟨a1, a2⟩, b1, b2⟩ := hc
  have one : ∀ (u : ℝ) (n : ℕ), 2 ≤ n → 0 ≤ u → u ≤ (n : ℝ) - 1 →
      ∃ i : ℤ, 1 ≤ i ∧ i < n ∧ (i : ℝ) - 1 ≤ u ∧ u ≤ i := by
    intro u n hn h0 h1
    have f0 : 0 ≤ ⌊u⌋ := Int.floor_nonneg.2 h0
    by_cases h : ⌊u⌋ + 1 < n
    · refine ⟨⌊u⌋ + 1, by omega, h, ?_, ?_⟩
      · push_cast; have := Int.floor_le u; linarith
      · push_cast; exact (Int.lt_floor_add_one u).le
    · refine ⟨n - 1, by omega, by omega, ?_, by push_cast; linarith⟩
      have hh : ((n : ℤ) - 1 : ℤ) ≤ ⌊u⌋ := by omega
      have h2 := Int.le_floor.1 hh
      push_cast at h2 ⊢
      linarith
  have hdx := hm.dx
  have hdy := hm.dy
  have ex := hm.xhi
  have ey := hm.yhi
  obtain ⟨i, i1, i2, i3, i4⟩ := one ((x - m.xlow) / m.dx) m.mx hm.mx (div_nonneg (by linarith) hdx.le)
    (by rw [div_le_iff₀ hdx]; linarith)
  obtain ⟨j, j1, j2, j3, j4⟩ := one ((m.yhi - y) / m.dy) m.my hm.my (div_nonneg (by linarith) hdy.le)
    (by rw [div_le_iff₀ hdy]; linarith)
  rw [le_div_iff₀ hdx] at i3
  rw [div_le_iff₀ hdx] at i4
  rw [le_div_iff₀ hdy] at j3
  rw [div_le_iff₀ hdy] at j4
  refine ⟨i, j, i1, i2, j1, j2, ?_, ?_, ?_, ?_⟩
  · unfold Move.col; linarith
  · unfold Move.col; push_cast; linarith
  · unfold Move.row; push_cast; linarith
  · unfold Move.row; linarith

theorem displaces_unique (m : Move) (hm : m.Valid) (x y t d d' : ℝ) (h : m.Displaces x y t d)
    (h' : m.Displaces x y t d') : d = d' := by
  by_cases hc : m.Covers x y
  · by_cases ht : m.t0 ≤ t
    · obtain ⟨i, j, i1, i2, j1, j2, c1, c2, c3, c4⟩ := cell_spec m hm x y hc
      have g := h.2.2 hc ht i j i1 i2 j1 j2 c1 c2 c3 c4
      have g' := h'.2.2 hc ht i j i1 i2 j1 j2 c1 c2 c3 c4
      by_cases htf : m.tf ≤ t
      · rw [g.1 htf, g'.1 htf]
      · have htf := not_le.1 htf
        have hmt : m.mt ≠ 1 := by
          intro h1
          have := hm.tf
          rw [h1] at this
          push_cast at this
          linarith
        have hdt := hm.dtpos hmt
        have e := hm.tf
        have f0 : 0 ≤ ⌊(t - m.t0) / m.dt⌋ := Int.floor_nonneg.2 (div_nonneg (by linarith) hdt.le)
        have f1 := Int.floor_le ((t - m.t0) / m.dt)
        have f2 := Int.lt_floor_add_one ((t - m.t0) / m.dt)
        have f3 : (t - m.t0) / m.dt < (m.mt : ℝ) - 1 := by rw [div_lt_iff₀ hdt]; linarith
        have f4 : ⌊(t - m.t0) / m.dt⌋ < (m.mt : ℤ) - 1 := by rw [Int.floor_lt]; push_cast; exact f3
        rw [le_div_iff₀ hdt] at f1
        rw [div_lt_iff₀ hdt] at f2
        have k1 : m.at (⌊(t - m.t0) / m.dt⌋ + 1) ≤ t := by unfold Move.at; push_cast; linarith
        have k2 : t ≤ m.at (⌊(t - m.t0) / m.dt⌋ + 1 + 1) := by unfold Move.at; push_cast; linarith
        rw [g.2 _ (by omega) (by omega) k1 k2, g'.2 _ (by omega) (by omega) k1 k2]
    · rw [h.2.1 (not_le.1 ht), h'.2.1 (not_le.1 ht)]
  · rw [h.1 hc, h'.1 hc]

theorem groundAt_good (S : Setup) (hM : S.moves.Valid) (f : ℤ) (t : ℝ) (w : ℤ → ℝ) (h : S.GroundAt f t w) :
    S.Good f t w := by
  intro i j h1 h2 h3 h4
  obtain ⟨d, hd, e⟩ := h i j h1 h2 h3 h4
  rw [e]
  congr 1
  unfold Moves.total
  refine Finset.sum_congr rfl ?_
  intro m hm
  rw [Finset.mem_Icc] at hm
  exact displaces_unique _ (hM m hm.1 hm.2) _ _ _ _ _ (hd m hm.1 hm.2) (disp_displaces _ (hM m hm.1 hm.2) _ _ _)

end

end Fclaw.Dtopo
