import Verif.Friction.Spec
import Verif.Fort.Loops
import Verif.TopoRead.Lemmas
/-
Lemmas for C106.
-/
set_option autoImplicit false
set_option linter.unusedSimpArgs false
set_option linter.unusedVariables false
namespace Fclaw.Friction

open Fort

noncomputable section

theorem at1_nat {α : Type} (l : List α) (k : ℕ) : at1 l ((k : ℤ) + 1) = l[k]? := by
  unfold at1
  rw [if_pos (by omega)]
  congr 1
  omega

theorem down_get (l : List EReal) (h : l.Pairwise (· ≥ ·)) (a b : ℕ) (hab : a ≤ b) (x y : EReal) (hx : l[a]? = some x) (hy : l[b]? = some y) :
    y ≤ x := by
  rcases Nat.eq_or_lt_of_le hab with e | e
  · subst e
    rw [hx] at hy
    exact le_of_eq (Option.some.inj hy).symm
  · obtain ⟨ha, rfl⟩ := List.getElem?_eq_some_iff.1 hx
    obtain ⟨hb, rfl⟩ := List.getElem?_eq_some_iff.1 hy
    exact List.pairwise_iff_getElem.1 h a b ha hb e

/-- The interval with number `k` contains `h`, and has the coefficient `c`. -/
def Region.Level (R : Region) (h : ℝ) (k : ℕ) (c : ℝ) : Prop :=
  ∃ hi lo : EReal, R.depths[k]? = some hi ∧ R.depths[k + 1]? = some lo ∧ R.coefficients[k]? = some c ∧ lo ≤ h ∧ (h : EReal) < hi

theorem level_unique (R : Region) (hR : R.Valid) (h : ℝ) (k k' : ℕ) (c c' : ℝ) (h1 : R.Level h k c) (h2 : R.Level h k' c') : k = k' ∧ c = c' := by
  have key : ∀ (k k' : ℕ) (c c' : ℝ), R.Level h k c → R.Level h k' c' → ¬ k < k' := by
    rintro k k' c c' ⟨hi, lo, a1, a2, a3, a4, a5⟩ ⟨hi', lo', b1, b2, b3, b4, b5⟩ hlt
    have := down_get R.depths hR.down (k + 1) k' hlt lo hi' a2 b1
    exact absurd (lt_of_lt_of_le b5 (this.trans a4)) (lt_irrefl _)
  have e : k = k' := by
    have a := key k k' c c' h1 h2
    have b := key k' k c' c h2 h1
    omega
  subst e
  obtain ⟨_, _, _, _, a3, _⟩ := h1
  obtain ⟨_, _, _, _, b3, _⟩ := h2
  rw [a3] at b3
  exact ⟨rfl, Option.some.inj b3⟩

theorem gives_unique (R : Region) (hR : R.Valid) (h c c' : ℝ) (h1 : R.Gives h c) (h2 : R.Gives h c') : c = c' := by
  obtain ⟨k, a⟩ := h1
  obtain ⟨k', b⟩ := h2
  exact (level_unique R hR h k k' c c' a b).2

open Classical in
/-- What a region makes of a coefficient. -/
def Region.value (R : Region) (h v : ℝ) : ℝ := if e : ∃ c, R.Gives h c then e.choose else v

theorem value_of (R : Region) (hR : R.Valid) (h v c : ℝ) (hc : R.Gives h c) : R.value h v = c := by
  unfold Region.value
  rw [dif_pos ⟨c, hc⟩]
  exact gives_unique R hR h _ _ (Exists.choose_spec (⟨c, hc⟩ : ∃ c, R.Gives h c)) hc

theorem value_none (R : Region) (h v : ℝ) (hc : ¬ ∃ c, R.Gives h c) : R.value h v = v := by
  unfold Region.value
  rw [dif_neg hc]

theorem inBox_of (P : Topo.Patch) (i j m : ℤ) (hc : P.HasCell i j) (h1 : 1 ≤ m) (h2 : m ≤ P.d.meqn) : inBox P.d (i, j, m) = true := by
  rw [inBox_iff]
  obtain ⟨a, b, c, d⟩ := hc
  omega

/-- The loop over `k`. -/
theorem levels_eq (S : Settings) (P : Topo.Patch) (hS : S.Valid P) (R : Region) (hR : R.Valid) (i j : ℤ) (hc : P.HasCell i j) (aux : Grid ℝ) :
    ∃ aux', doLoop 1 ((R.depths.length : ℤ) - 1) (setLevel S P R i j) aux = some aux' ∧
      aux' (i, j, S.index) = R.value (aux (i, j, 1) - S.seaLevel) (aux (i, j, S.index)) ∧ ∀ c, c ≠ (i, j, S.index) → aux' c = aux c := by
  have hidx := hS.index
  have hne : ((i, j, 1) : Cell) ≠ (i, j, S.index) := by intro e; simp at e; omega
  have b1 := inBox_of P i j 1 hc (le_refl _) (by omega)
  have b2 := inBox_of P i j S.index hc (by omega) hidx.2
  have hsz := hR.size
  have hl : (R.depths.length : ℤ) - 1 = ((R.coefficients.length : ℕ) : ℤ) := by omega
  rw [hl]
  obtain ⟨aux', e, h1, h2, h3⟩ := TopoRead.doLoop_inv (setLevel S P R i j) (fun n a =>
      (∀ c, c ≠ (i, j, S.index) → a c = aux c) ∧
      (∀ k c, k < n → R.Level (aux (i, j, 1) - S.seaLevel) k c → a (i, j, S.index) = c) ∧
      ((∀ k c, k < n → ¬ R.Level (aux (i, j, 1) - S.seaLevel) k c) → a (i, j, S.index) = aux (i, j, S.index))) R.coefficients.length
    (by
      rintro k hk a ⟨g1, g2, g3⟩
      obtain ⟨c0, e0⟩ : ∃ c0, R.coefficients[k]? = some c0 := ⟨_, List.getElem?_eq_getElem hk⟩
      obtain ⟨hi, e1⟩ : ∃ hi, R.depths[k]? = some hi := ⟨_, List.getElem?_eq_getElem (by omega)⟩
      obtain ⟨lo, e2⟩ : ∃ lo, R.depths[k + 1]? = some lo := ⟨_, List.getElem?_eq_getElem (by omega)⟩
      unfold setLevel
      have e2' : at1 R.depths ((k : ℤ) + 1 + 1) = some lo := by
        have := at1_nat R.depths (k + 1)
        rw [e2] at this
        rw [← this]; push_cast; rfl
      rw [e2', at1_nat, e1]
      simp only [Option.bind_some, rd, b1, if_true]
      rw [g1 _ hne]
      by_cases hcond : lo ≤ ((aux (i, j, 1) - S.seaLevel : ℝ) : EReal) ∧ hi > ((aux (i, j, 1) - S.seaLevel : ℝ) : EReal)
      · have hlev : R.Level (aux (i, j, 1) - S.seaLevel) k c0 := ⟨hi, lo, e1, e2, e0, hcond.1, hcond.2⟩
        rw [if_pos hcond, at1_nat, e0]
        simp only [Option.bind_some, wr, b2, if_true]
        refine ⟨_, rfl, ?_, ?_, ?_⟩
        · intro c h
          simp only [if_neg h]
          exact g1 c h
        · intro k' c' _ hl'
          simp only [if_true]
          exact (level_unique R hR _ k k' c0 c' hlev hl').2
        · intro hno
          exact absurd hlev (hno k c0 (by omega))
      · rw [if_neg hcond]
        refine ⟨a, rfl, g1, ?_, ?_⟩
        · intro k' c' hk' hl'
          rcases Nat.lt_succ_iff_lt_or_eq.1 hk' with h | h
          · exact g2 k' c' h hl'
          · subst h
            obtain ⟨hi', lo', a1, a2, _, a4, a5⟩ := hl'
            rw [e1] at a1; rw [e2] at a2
            obtain rfl := Option.some.inj a1
            obtain rfl := Option.some.inj a2
            exact absurd ⟨a4, a5⟩ hcond
        · intro hno
          exact g3 (fun k' c' hk' => hno k' c' (by omega)))
    aux ⟨fun _ _ => rfl, fun _ _ h => absurd h (Nat.not_lt_zero _), fun _ => rfl⟩
  refine ⟨aux', e, ?_, h1⟩
  by_cases hg : ∃ c, R.Gives (aux (i, j, 1) - S.seaLevel) c
  · obtain ⟨c, k, hk⟩ := hg
    rw [value_of R hR _ _ c ⟨k, hk⟩]
    have hlt : k < R.coefficients.length := by
      obtain ⟨_, _, _, _, a3, _⟩ := hk
      obtain ⟨h, _⟩ := List.getElem?_eq_some_iff.1 a3
      exact h
    exact h2 k c hlt hk
  · rw [value_none R _ _ hg]
    exact h3 (fun k c _ hk => hg ⟨c, k, hk⟩)

open Classical in
/-- What a region does to a cell. -/
def upd (S : Settings) (P : Topo.Patch) (R : Region) (aux : Grid ℝ) (c : Cell) : ℝ :=
  if c.2.2 = S.index ∧ P.skip c.1 c.2.1 = false ∧ centre P c.1 c.2.1 ∈ R.set then R.value (aux (c.1, c.2.1, 1) - S.seaLevel) (aux c) else aux c

theorem setCell_acts (S : Settings) (P : Topo.Patch) (hS : S.Valid P) (R : Region) (hR : R.Valid) (i j : ℤ) (hc : P.HasCell i j) :
    Acts (fun c => c.1 = i ∧ c.2.1 = j) (upd S P R) (setCell S P R i j) := by
  intro aux
  unfold setCell
  by_cases hs : P.skip i j = true
  · rw [if_pos hs]
    refine ⟨aux, rfl, ?_, fun _ _ => rfl⟩
    rintro ⟨a, b, m⟩ ⟨rfl, rfl⟩
    unfold upd
    rw [if_neg]
    rintro ⟨_, h, _⟩
    simp only at h hs
    rw [hs] at h
    exact absurd h (by decide)
  · rw [if_neg hs]
    simp only
    have hs' : P.skip i j = false := by simpa using hs
    by_cases hin : R.xlo < P.xlow + ((i : ℝ) - 1 / 2) * P.dx ∧ R.ylo < P.ylow + ((j : ℝ) - 1 / 2) * P.dy ∧
        R.xhi ≥ P.xlow + ((i : ℝ) - 1 / 2) * P.dx ∧ R.yhi ≥ P.ylow + ((j : ℝ) - 1 / 2) * P.dy
    · rw [if_pos hin]
      have hmem : centre P i j ∈ R.set := ⟨⟨hin.1, hin.2.2.1⟩, ⟨hin.2.1, hin.2.2.2⟩⟩
      obtain ⟨aux', e, h1, h2⟩ := levels_eq S P hS R hR i j hc aux
      refine ⟨aux', e, ?_, ?_⟩
      · rintro ⟨a, b, m⟩ ⟨rfl, rfl⟩
        unfold upd
        by_cases hm : m = S.index
        · subst hm
          rw [if_pos ⟨rfl, hs', hmem⟩]
          exact h1
        · rw [if_neg (fun h => hm h.1)]
          exact h2 _ (by intro e; simp at e; exact hm e)
      · intro c hn
        exact h2 c (by rintro rfl; exact hn ⟨rfl, rfl⟩)
    · rw [if_neg hin]
      refine ⟨aux, rfl, ?_, fun _ _ => rfl⟩
      rintro ⟨a, b, m⟩ ⟨rfl, rfl⟩
      unfold upd
      rw [if_neg]
      rintro ⟨_, _, ⟨h1, h2⟩, h3, h4⟩
      exact hin ⟨h1, h3, h2, h4⟩

/-- Loops over all cells, in any order of the two directions. -/
theorem cells_acts (P : Topo.Patch) (G : Grid ℝ → Cell → ℝ) (f : ℤ → ℤ → Grid ℝ → Option (Grid ℝ))
    (hl : ∀ S : Cell → Prop, (∀ c m, S c → S (c.1, c.2.1, m)) → LocalOn S G)
    (hf : ∀ i j, P.HasCell i j → Acts (fun c => c.1 = i ∧ c.2.1 = j) G (f i j)) :
    Acts (fun c => P.HasCell c.1 c.2.1) G (doLoop (1 - (P.d.mbc : ℤ)) (P.d.mx + P.d.mbc) (fun i =>
      doLoop (1 - (P.d.mbc : ℤ)) (P.d.my + P.d.mbc) (fun j => f i j))) ∧
    Acts (fun c => P.HasCell c.1 c.2.1) G (P.cells f) := by
  constructor
  · refine Acts.congr (Acts.doLoop (fun i c => ∃ j, 1 - (P.d.mbc : ℤ) ≤ j ∧ j ≤ P.d.my + P.d.mbc ∧ (c.1 = i ∧ c.2.1 = j)) _ _ _ _ ?_ ?_ ?_) ?_
    · intro i hi1 hi2
      apply Acts.doLoop (fun j c => c.1 = i ∧ c.2.1 = j)
      · intro j hj1 hj2
        exact hf i j ⟨hi1, hi2, hj1, hj2⟩
      · intro _ _ _; exact hl _ (fun _ _ h => h)
      · rintro j j' hne c ⟨_, h⟩ ⟨_, h'⟩
        exact hne (h.symm.trans h')
    · intro _ _ _; exact hl _ (fun _ _ h => h)
    · rintro i i' hne c ⟨_, _, _, h, _⟩ ⟨_, _, _, h', _⟩
      exact hne (h.symm.trans h')
    · intro c
      unfold Topo.Patch.HasCell
      constructor
      · rintro ⟨i, h1, h2, j, h3, h4, rfl, rfl⟩
        exact ⟨h1, h2, h3, h4⟩
      · rintro ⟨h1, h2, h3, h4⟩
        exact ⟨_, h1, h2, _, h3, h4, rfl, rfl⟩
  · unfold Topo.Patch.cells
    refine Acts.congr (Acts.doLoop (fun j c => ∃ i, 1 - (P.d.mbc : ℤ) ≤ i ∧ i ≤ P.d.mx + P.d.mbc ∧ (c.1 = i ∧ c.2.1 = j)) _ _ _ _ ?_ ?_ ?_) ?_
    · intro j hj1 hj2
      apply Acts.doLoop (fun i c => c.1 = i ∧ c.2.1 = j)
      · intro i hi1 hi2
        exact hf i j ⟨hi1, hi2, hj1, hj2⟩
      · intro _ _ _; exact hl _ (fun _ _ h => h)
      · rintro i i' hne c ⟨h, _⟩ ⟨h', _⟩
        exact hne (h.symm.trans h')
    · intro _ _ _; exact hl _ (fun _ _ h => h)
    · rintro i i' hne c ⟨_, _, _, _, h⟩ ⟨_, _, _, _, h'⟩
      exact hne (h.symm.trans h')
    · intro c
      unfold Topo.Patch.HasCell
      constructor
      · rintro ⟨j, h1, h2, i, h3, h4, rfl, rfl⟩
        exact ⟨h3, h4, h1, h2⟩
      · rintro ⟨h1, h2, h3, h4⟩
        exact ⟨_, h3, h4, _, h1, h2, rfl, rfl⟩

theorem setRegion_acts (S : Settings) (P : Topo.Patch) (hS : S.Valid P) (R : Region) (hR : R.Valid) :
    Acts (fun c => P.HasCell c.1 c.2.1) (upd S P R) (setRegion S P R) := by
  refine (cells_acts P (upd S P R) (fun i j => setCell S P R i j) ?_ (fun i j hc => setCell_acts S P hS R hR i j hc)).1
  intro T hT q1 q2 h c hc
  unfold upd
  rw [h c hc, h _ (hT c 1 hc)]

open Classical in
theorem clear_acts (S : Settings) (P : Topo.Patch) (hS : S.Valid P) :
    Acts (fun c => P.HasCell c.1 c.2.1) (fun aux c => if c.2.2 = S.index ∧ P.skip c.1 c.2.1 = false then 0 else aux c) (clear S P) := by
  have e : clear S P = P.cells (fun ii jj aux => if P.skip ii jj then some aux else wr P.d aux (ii, jj, S.index) 0) := by
    funext aux
    unfold clear
    rw [if_pos hS.useRegions]
  rw [e]
  refine (cells_acts P _ _ ?_ ?_).2
  · intro T hT q1 q2 h c hc
    simp only
    rw [h c hc]
  · intro i j hc aux
    have hidx := hS.index
    have b2 := inBox_of P i j S.index hc (by omega) hidx.2
    by_cases hs : P.skip i j = true
    · simp only [if_pos hs]
      refine ⟨aux, rfl, ?_, fun _ _ => rfl⟩
      rintro ⟨a, b, m⟩ ⟨rfl, rfl⟩
      rw [if_neg]
      rintro ⟨_, h⟩
      simp only at h hs
      rw [hs] at h
      exact absurd h (by decide)
    · simp only [if_neg hs, wr, b2, if_true]
      have hs' : P.skip i j = false := by simpa using hs
      refine ⟨_, rfl, ?_, ?_⟩
      · rintro ⟨a, b, m⟩ ⟨rfl, rfl⟩
        simp only
        by_cases hm : m = S.index
        · subst hm
          rw [if_pos rfl, if_pos ⟨rfl, hs'⟩]
        · rw [if_neg (by intro e; simp at e; exact hm e), if_neg (fun h => hm h.1)]
      · intro c hn
        rw [if_neg]
        rintro rfl; exact hn ⟨rfl, rfl⟩

/-- All regions. -/
theorem regions_eq (S : Settings) (P : Topo.Patch) (hS : S.Valid P) (aux : Grid ℝ) :
    ∃ aux', setFrictionField S P aux = some aux' ∧
      (∀ c : Cell, ¬ (P.HasCell c.1 c.2.1 ∧ P.skip c.1 c.2.1 = false ∧ c.2.2 = S.index) → aux' c = aux c) ∧
      ∀ i j, P.HasCell i j → P.skip i j = false →
        (∀ m c, S.Says (centre P i j) (aux (i, j, 1) - S.seaLevel) m c →
          (∀ m' c', m < m' → ¬ S.Says (centre P i j) (aux (i, j, 1) - S.seaLevel) m' c') → aux' (i, j, S.index) = c) ∧
        ((∀ m c, ¬ S.Says (centre P i j) (aux (i, j, 1) - S.seaLevel) m c) → aux' (i, j, S.index) = aux (i, j, S.index)) := by
  have hidx := hS.index
  obtain ⟨aux', e, h1, h2⟩ := TopoRead.doLoop_inv (fun m aux => (at1 S.regions m).bind fun R => setRegion S P R aux) (fun n a =>
      (∀ c : Cell, ¬ (P.HasCell c.1 c.2.1 ∧ P.skip c.1 c.2.1 = false ∧ c.2.2 = S.index) → a c = aux c) ∧
      ∀ i j, P.HasCell i j → P.skip i j = false →
        (∀ m c, m < n → S.Says (centre P i j) (aux (i, j, 1) - S.seaLevel) m c →
          (∀ m' c', m < m' → m' < n → ¬ S.Says (centre P i j) (aux (i, j, 1) - S.seaLevel) m' c') → a (i, j, S.index) = c) ∧
        ((∀ m c, m < n → ¬ S.Says (centre P i j) (aux (i, j, 1) - S.seaLevel) m c) → a (i, j, S.index) = aux (i, j, S.index)))
    S.regions.length
    (by
      rintro n hn a ⟨g1, g2⟩
      have eR : S.regions[n]? = some S.regions[n] := List.getElem?_eq_getElem hn
      have hR := hS.regions S.regions[n] (List.getElem_mem hn)
      rw [at1_nat, eR]
      simp only [Option.bind_some]
      generalize S.regions[n] = R at eR hR
      obtain ⟨a', e, k1, k2⟩ := setRegion_acts S P hS R hR a
      refine ⟨a', e, ?_, ?_⟩
      · intro c hc
        by_cases hh : P.HasCell c.1 c.2.1
        · rw [k1 c hh]
          unfold upd
          rw [if_neg (fun h => hc ⟨hh, h.2.1, h.1⟩)]
          exact g1 c hc
        · rw [k2 c hh]
          exact g1 c hc
      · intro i j hc hs
        obtain ⟨g3, g4⟩ := g2 i j hc hs
        have hg : a (i, j, 1) = aux (i, j, 1) := g1 (i, j, 1) (by rintro ⟨_, _, h⟩; simp only at h; omega)
        have hv := k1 (i, j, S.index) hc
        unfold upd at hv
        simp only [hg] at hv
        by_cases hsay : ∃ c, S.Says (centre P i j) (aux (i, j, 1) - S.seaLevel) n c
        · obtain ⟨c0, R', eR', hm, hgv⟩ := hsay
          rw [eR] at eR'
          obtain rfl := Option.some.inj eR'
          rw [if_pos ⟨rfl, hs, hm⟩, value_of R hR _ _ c0 hgv] at hv
          constructor
          · intro m c hmn hsm hlast
            rcases Nat.lt_succ_iff_lt_or_eq.1 hmn with h | h
            · exact absurd ⟨R, eR, hm, hgv⟩ (hlast n c0 h (by omega))
            · subst h
              obtain ⟨R', eR', _, hgv'⟩ := hsm
              rw [eR] at eR'
              obtain rfl := Option.some.inj eR'
              rw [hv]
              exact gives_unique R hR _ _ _ hgv hgv'
          · intro hno
            exact absurd ⟨R, eR, hm, hgv⟩ (hno n c0 (by omega))
        · have hsame : a' (i, j, S.index) = a (i, j, S.index) := by
            rw [hv]
            split
            · next hm =>
              rw [value_none]
              rintro ⟨c, hgv⟩
              exact hsay ⟨c, R, eR, hm.2.2, hgv⟩
            · rfl
          rw [hsame]
          constructor
          · intro m c hmn hsm hlast
            rcases Nat.lt_succ_iff_lt_or_eq.1 hmn with h | h
            · exact g3 m c h hsm (fun m' c' h1 h2 => hlast m' c' h1 (by omega))
            · subst h
              exact absurd ⟨c, hsm⟩ hsay
          · intro hno
            exact g4 (fun m c h => hno m c (by omega)))
    aux ⟨fun _ _ => rfl, fun _ _ _ _ => ⟨fun _ _ h => absurd h (Nat.not_lt_zero _), fun _ => rfl⟩⟩
  have hb : ∀ p h m c, S.Says p h m c → m < S.regions.length := by
    rintro p h m c ⟨R, eR, _⟩
    exact (List.getElem?_eq_some_iff.1 eR).1
  refine ⟨aux', ?_, h1, ?_⟩
  · unfold setFrictionField
    rw [if_pos hS.useRegions, e]
    simp only [Option.bind_some]
    rw [if_neg (by have := hS.files; omega)]
  · intro i j hc hs
    obtain ⟨g3, g4⟩ := h2 i j hc hs
    exact ⟨fun m c hsm hlast => g3 m c (hb _ _ _ _ hsm) hsm (fun m' c' h _ => hlast m' c' h), fun hno => g4 (fun m c _ => hno m c)⟩

end

end Fclaw.Friction
