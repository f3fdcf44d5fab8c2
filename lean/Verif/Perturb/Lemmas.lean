import Verif.Perturb.Spec
import Verif.Topo.Props
import Verif.TopoRead.Props
/-
Lemmas for C105.
-/
set_option autoImplicit false
set_option linter.unusedSimpArgs false
set_option linter.unusedVariables false
namespace Fclaw.Perturb

open Fort Fclaw.Topo MeasureTheory

noncomputable section

/-! ### The file -/

theorem firstRow_size (y : ℝ) : ∀ (ls : List TopoRead.Line) (s m : ℤ) (r : (ℤ × ℤ) × TopoRead.Line × List TopoRead.Line),
    TopoRead.firstRow y ls s m = some r → r.1.1 + r.2.2.length = s + ls.length := by
  intro ls
  induction ls with
  | nil => intro s m r h; simp [TopoRead.firstRow] at h
  | cons l ls ih =>
    intro s m r h
    simp only [TopoRead.firstRow] at h
    split at h
    · have := ih _ _ _ h
      simp only [List.length_cons]; push_cast; omega
    · obtain rfl := Option.some.inj h
      simp only [List.length_cons]; push_cast; omega

theorem read_eq (R : TopoRead.Raster) (hR : R.Valid) (w : ℤ → ℝ) :
    ∃ T, readQinit R.xyz w = some T ∧ R.Gives R.z T := by
  have hh := TopoRead.header1_eq R hR
  obtain ⟨t, et, ht⟩ := TopoRead.read1_eq R hR w
  have hlen : R.xyz.length = R.rows * R.cols := by rw [TopoRead.xyz_eq R hR]; simp
  refine ⟨⟨R.cols, R.rows, R.west, R.west + ((R.cols : ℝ) - 1) * R.dx, R.south, R.south + ((R.rows : ℝ) - 1) * R.dy, R.dx, R.dy,
    fun p => t ((p.2 - 1) * R.cols + p.1)⟩, ?_, ?_⟩
  · cases hx : R.xyz with
    | nil => rw [hx] at hh; simp [TopoRead.header1] at hh
    | cons first lines =>
      rw [hx] at hh hlen
      simp only [TopoRead.header1] at hh
      simp only [readQinit]
      cases hf : TopoRead.firstRow first.y lines 1 1 with
      | none => rw [hf] at hh; simp at hh
      | some r =>
        rw [hf] at hh
        simp only [Option.bind_some] at hh ⊢
        have hs := firstRow_size first.y lines 1 1 r hf
        have hn : (TopoRead.otherRows r.2.1 r.2.2 r.1.1).2 = ((R.rows * R.cols : ℕ) : ℤ) := by
          rw [TopoRead.otherRows_eq]
          simp only [List.length_cons] at hlen
          simp only
          rw [← hlen]; push_cast; omega
        by_cases hz : r.1.2 - 1 - 1 = 0 ∨ (TopoRead.otherRows r.2.1 r.2.2 r.1.1).2.tdiv (r.1.2 - 1) - 1 = 0
        · rw [if_pos hz] at hh; simp at hh
        · rw [if_neg hz] at hh ⊢
          have he := Option.some.inj hh
          injection he with a1 a2 a3 a4 a5 a6 a7 a8
          have e1 := et
          unfold TopoRead.read1 at e1
          rw [hx, show (R.cols : ℤ) * R.rows = (TopoRead.otherRows r.2.1 r.2.2 r.1.1).2 by rw [hn]; push_cast; ring] at e1
          rw [Option.map_eq_some_iff] at e1
          obtain ⟨s, e2, e3⟩ := e1
          rw [e2]
          simp only [Option.map_some, a7, a8]
          simp only [a2]
          simp only [a1, a3, a4, a5, a6, Int.toNat_natCast, e3]
  · apply TopoRead.gives R hR
    intro i j hi hj
    have hp := TopoRead.pos_range R i j hi hj
    rw [ht _ hp.1 hp.2, TopoRead.val_pos R i j hi]

/-! ### A cell -/

/-- The part of a cell in the area of the file. -/
def clip (P : Topo.Patch) (T : File) (i j : ℤ) : Rect := (intersection (cell P i j) T.rect).rect

theorem clip_eq (P : Topo.Patch) (T : File) (i j : ℤ) : clip P T i j =
    ⟨max (cell P i j).xlo T.xlow, min (cell P i j).xhi T.xhi, max (cell P i j).ylo T.ylow, min (cell P i j).yhi T.yhi⟩ := by
  unfold clip intersection File.rect
  simp only
  split <;> rfl

/-- The mean that the program computes. -/
def mean (G : Settings) (P : Topo.Patch) (aux : Grid ℝ) (i j : ℤ) : ℝ :=
  let R := clip P G.file i j
  (∫ p in R.set, G.file.height p * G.world.element p) /
    (if G.world.coord = 2 then (R.xhi - R.xlo) * (R.yhi - R.ylo) * aux (i, j, P.mcapa) else (R.xhi - R.xlo) * (R.yhi - R.ylo))

open Classical in
/-- What happens to a cell. -/
def upd (G : Settings) (P : Topo.Patch) (aux q : Grid ℝ) (c : Cell) : ℝ :=
  if Apart (cell P c.1 c.2.1) G.file then q c
  else if G.qinitType = 4 then if c.2.2 = 1 then max (mean G P aux c.1 c.2.1 - aux (c.1, c.2.1, 1)) 0 else q c
  else if c.2.2 = G.qinitType ∧ aux (c.1, c.2.1, 1) ≤ G.seaLevel then q c + mean G P aux c.1 c.2.1 else q c

theorem clip_inside (P : Topo.Patch) (T : File) (hT : T.Valid) (hdx : 0 < P.dx) (hdy : 0 < P.dy) (i j : ℤ) (h : ¬ Apart (cell P i j) T) :
    Inside (clip P T i j) T := by
  have hx : T.xlow < T.xhi := by
    have h1 := hT.dx
    have h2 : (2 : ℝ) ≤ T.mx := by exact_mod_cast hT.mx
    rw [hT.xhi]; nlinarith
  have hy : T.ylow < T.yhi := by
    have h1 := hT.dy
    have h2 : (2 : ℝ) ≤ T.my := by exact_mod_cast hT.my
    rw [hT.yhi]; nlinarith
  unfold Apart at h
  push Not at h
  obtain ⟨h1, h2, h3, h4⟩ := h
  rw [clip_eq]
  have c1 : (cell P i j).xlo < (cell P i j).xhi := by unfold cell; simp only; nlinarith
  have c2 : (cell P i j).ylo < (cell P i j).yhi := by unfold cell; simp only; nlinarith
  exact ⟨le_max_right _ _, max_lt (lt_min c1 h2) (lt_min h1 hx), min_le_right _ _, le_max_right _ _, max_lt (lt_min c2 h4) (lt_min h3 hy),
    min_le_right _ _⟩

theorem inBox_aux (P : Topo.Patch) (i j m : ℤ) (hc : P.HasCell i j) (h1 : 1 ≤ m) (h2 : m ≤ P.d.meqn) : inBox P.d (i, j, m) = true := by
  rw [inBox_iff]
  obtain ⟨a, b, c, d⟩ := hc
  omega

theorem inBox_q (P : Topo.Patch) (meqn : ℕ) (i j m : ℤ) (hc : P.HasCell i j) (h1 : 1 ≤ m) (h2 : m ≤ meqn) :
    inBox (qDims P meqn) (i, j, m) = true := by
  rw [inBox_iff]
  obtain ⟨a, b, c, d⟩ := hc
  exact ⟨⟨a, b⟩, ⟨c, d⟩, h1, h2⟩

theorem addTo_eq (G : Settings) (P : Topo.Patch) (meqn : ℕ) (aux : Grid ℝ) (hF : Fits G P meqn) (i j : ℤ) (hc : P.HasCell i j) (a : ℝ) (q : Grid ℝ) :
    ∃ q', addTo G P meqn aux i j a q = some q' ∧ (∀ m, q' (i, j, m) =
      if G.qinitType = 4 then if m = 1 then max (a - aux (i, j, 1)) 0 else q (i, j, m)
      else if m = G.qinitType ∧ aux (i, j, 1) ≤ G.seaLevel then q (i, j, m) + a else q (i, j, m)) ∧
      ∀ c : Cell, ¬ (c.1 = i ∧ c.2.1 = j) → q' c = q c := by
  have hk := hF.kind
  have hm := hF.meqn
  have hma := hF.maux
  have b1 := inBox_aux P i j 1 hc (le_refl _) (by omega)
  unfold addTo
  by_cases h4 : G.qinitType = 4
  · rw [if_neg (by omega), if_pos h4]
    have b2 := inBox_q P meqn i j 1 hc (le_refl _) (by omega)
    simp only [rd, b1, if_true, Option.bind_some, wr, b2]
    refine ⟨_, rfl, ?_, ?_⟩
    · intro m
      simp only [if_pos h4]
      by_cases h1 : m = 1
      · subst h1; simp
      · have : ((i, j, m) : Cell) ≠ (i, j, 1) := by intro e; simp at e; exact h1 e
        rw [if_neg this, if_neg h1]
    · intro c hn
      have : c ≠ (i, j, 1) := by rintro rfl; exact hn ⟨rfl, rfl⟩
      simp only [if_neg this]
  · rw [if_pos (by omega)]
    have b2 := inBox_q P meqn i j G.qinitType hc hk.1 (by omega)
    simp only [rd, b1, if_true, Option.bind_some]
    by_cases hb : aux (i, j, 1) ≤ G.seaLevel
    · rw [if_pos hb]
      simp only [b2, if_true, Option.bind_some, wr]
      refine ⟨_, rfl, ?_, ?_⟩
      · intro m
        simp only [if_neg h4]
        by_cases h1 : m = G.qinitType
        · subst h1; simp [hb]
        · have : ((i, j, m) : Cell) ≠ (i, j, G.qinitType) := by intro e; simp at e; exact h1 e
          rw [if_neg this, if_neg (fun h => h1 h.1)]
      · intro c hn
        have : c ≠ (i, j, G.qinitType) := by rintro rfl; exact hn ⟨rfl, rfl⟩
        simp only [if_neg this]
    · rw [if_neg hb]
      refine ⟨q, rfl, ?_, fun _ _ => rfl⟩
      intro m
      rw [if_neg h4, if_neg (fun h => hb h.2)]

theorem addCell_acts (G : Settings) (P : Topo.Patch) (meqn : ℕ) (aux : Grid ℝ) (hF : Fits G P meqn) (i j : ℤ) (hc : P.HasCell i j) :
    Acts (fun c => c.1 = i ∧ c.2.1 = j) (upd G P aux) (addCell G P meqn aux i j) := by
  intro q
  have e1 : P.xlow + ((i : ℝ) - 1 / 2) * P.dx - 1 / 2 * P.dx = (cell P i j).xlo := by unfold cell; simp only; ring
  have e2 : P.xlow + ((i : ℝ) - 1 / 2) * P.dx + 1 / 2 * P.dx = (cell P i j).xhi := by unfold cell; simp only; ring
  have e3 : P.ylow + ((j : ℝ) - 1 / 2) * P.dy - 1 / 2 * P.dy = (cell P i j).ylo := by unfold cell; simp only; ring
  have e4 : P.ylow + ((j : ℝ) - 1 / 2) * P.dy + 1 / 2 * P.dy = (cell P i j).yhi := by unfold cell; simp only; ring
  unfold addCell
  simp only [e1, e2, e3, e4]
  by_cases h : Apart (cell P i j) G.file
  · rw [if_neg]
    · refine ⟨q, rfl, ?_, fun _ _ => rfl⟩
      rintro ⟨a, b, m⟩ ⟨rfl, rfl⟩
      unfold upd
      rw [if_pos h]
    · rintro ⟨h1, h2, h3, h4⟩
      rcases h with h | h | h | h <;> linarith
  · have hin := clip_inside P G.file hF.file hF.dx hF.dy i j h
    rw [if_pos]
    · rw [← clip_eq, topointegral_eq G.world (by rcases hF.coord with h | h; exact Or.inl h; exact Or.inr h.1) _ _ hF.file hin]
      simp only [Option.bind_some]
      have hp : perCell G P aux i j (clip P G.file i j) (∫ p in (clip P G.file i j).set, G.file.height p * G.world.element p)
          = some (mean G P aux i j) := by
        unfold perCell mean
        rcases hF.coord with h1 | ⟨h2, h3, h4⟩
        · rw [if_neg (by rw [h1]; decide)]
          simp only [h1]
          rw [if_neg (by decide)]
        · have b := inBox_aux P i j P.mcapa hc h3 h4
          simp only [rd, b, if_true, Option.bind_some, h2]
      rw [hp]
      simp only [Option.bind_some]
      obtain ⟨q', e, k1, k2⟩ := addTo_eq G P meqn aux hF i j hc (mean G P aux i j) q
      refine ⟨q', e, ?_, k2⟩
      rintro ⟨a, b, m⟩ ⟨rfl, rfl⟩
      rw [k1]
      unfold upd
      rw [if_neg h]
    · unfold Apart at h
      push Not at h
      exact ⟨h.1, h.2.1, h.2.2.1, h.2.2.2⟩

theorem upd_local (G : Settings) (P : Topo.Patch) (aux : Grid ℝ) (S : Cell → Prop) : LocalOn S (upd G P aux) := by
  intro q1 q2 h c hc
  unfold upd
  rw [h c hc]

theorem add_acts (G : Settings) (P : Topo.Patch) (meqn : ℕ) (aux : Grid ℝ) (hF : Fits G P meqn) :
    Acts (fun c => P.HasCell c.1 c.2.1) (upd G P aux) (addPerturbation G P meqn aux) := by
  have e : addPerturbation G P meqn aux = doLoop (1 - (P.d.mbc : ℤ)) (P.d.mx + P.d.mbc) (fun i =>
      doLoop (1 - (P.d.mbc : ℤ)) (P.d.my + P.d.mbc) (fun j => addCell G P meqn aux i j)) := by
    funext q
    unfold addPerturbation
    rw [if_pos (by have := hF.kind; omega)]
  rw [e]
  refine Acts.congr (Acts.doLoop (fun i c => ∃ j, 1 - (P.d.mbc : ℤ) ≤ j ∧ j ≤ P.d.my + P.d.mbc ∧ (c.1 = i ∧ c.2.1 = j)) _ _ _ _ ?_ ?_ ?_) ?_
  · intro i hi1 hi2
    apply Acts.doLoop (fun j c => c.1 = i ∧ c.2.1 = j)
    · intro j hj1 hj2
      exact addCell_acts G P meqn aux hF i j ⟨hi1, hi2, hj1, hj2⟩
    · intro _ _ _; exact upd_local G P aux _
    · rintro j j' hne c ⟨_, h⟩ ⟨_, h'⟩
      exact hne (h.symm.trans h')
  · intro _ _ _; exact upd_local G P aux _
  · rintro i i' hne c ⟨_, _, _, h, _⟩ ⟨_, _, _, h', _⟩
    exact hne (h.symm.trans h')
  · intro c
    unfold Topo.Patch.HasCell
    constructor
    · rintro ⟨i, h1, h2, j, h3, h4, rfl, rfl⟩
      exact ⟨h1, h2, h3, h4⟩
    · rintro ⟨h1, h2, h3, h4⟩
      exact ⟨_, h1, h2, _, h3, h4, rfl, rfl⟩

end

end Fclaw.Perturb
