import Verif.Wave.Loops
import Verif.Wave.Model
import Mathlib.Tactic.Ring
/-
What each loop of `clawpack46_flux2` does.
-/
set_option autoImplicit false
set_option linter.unusedSimpArgs false
namespace Fclaw.Wave

open Fort

/-- Bounds. -/
macro "bnd" : tactic => `(tactic| (simp only [Shape.has, Shape.inLine, Shape.inGrid, Shape.eqn, Shape.wav, Shape.auxn] <;> omega))
/-- Different elements. -/
macro "na" : tactic => `(tactic| (simp <;> omega))

variable (z : Shape) (n : ℤ)

/-- The slice fits. -/
structure Fit : Prop where
  n0 : 0 ≤ n
  nm : n ≤ z.maxm
  mbc : 2 ≤ z.mbc

variable {z n}

theorem clear_acts (h : Fit z n) : Acts (fun l => ∃ k, (1 ≤ k ∧ k ≤ 2) ∧ ∃ m, (1 ≤ m ∧ m ≤ (z.meqn : ℤ)) ∧
    ∃ i, (1 - (z.mbc : ℤ) ≤ i ∧ i ≤ n + z.mbc) ∧
      (l = .faddm i m ∨ l = .faddp i m ∨ l = .gaddm i m k ∨ l = .gaddp i m k)) (fun _ _ => 0) (clear z n) := by
  have := h.n0; have := h.nm; have := h.mbc
  refine Acts.doConst (w := fun _ => 0) _ _ _ _ fun k h1 h2 => ?_
  refine Acts.doConst (w := fun _ => 0) _ _ _ _ fun m h3 h4 => ?_
  refine Acts.doConst (w := fun _ => 0) _ _ _ _ fun i h5 h6 => ?_
  rw [seq_cons, seq_cons, seq_cons, seq_one]
  refine Acts.seq2Const (Acts.asg (by bnd) fun M => rfl) ?_
  refine Acts.seq2Const (Acts.asg (by bnd) fun M => rfl) ?_
  exact Acts.seq2Const (Acts.asg (by bnd) fun M => rfl) (Acts.asg (by bnd) fun M => rfl)

def godunovG (M : Mem) : Loc → ℚ
  | .faddp i m => M (.faddp i m) - M (.apdq i m)
  | .faddm i m => M (.faddm i m) + M (.amdq i m)
  | _ => 0

theorem godunov_acts (h : Fit z n) {lo hi : ℤ} (hlo : 2 - (z.mbc : ℤ) ≤ lo) (hhi : hi ≤ n + z.mbc) :
    Acts (fun l => ∃ i m, (lo ≤ i ∧ i ≤ hi) ∧
    (1 ≤ m ∧ m ≤ (z.meqn : ℤ)) ∧ (l = .faddp i m ∨ l = .faddm i m)) godunovG (godunov z lo hi) := by
  have := h.n0; have := h.nm; have := h.mbc
  refine Acts.do2 _ godunovG _ _ _ _ _ ?_ ?_
  · intro i m h1 h2 h3 h4
    rw [seq_cons, seq_one]
    refine Acts.seq2 (Acts.asg (by bnd) fun M => ?_) (Acts.asg (by bnd) fun M => ?_) ⟨?_, ?_⟩
    · show _ = some (M (.faddp i m) - M (.apdq i m)); ev <;> bnd
    · show _ = some (M (.faddm i m) + M (.amdq i m)); ev <;> bnd
    · rintro l rfl; na
    · rintro M1 M2 hM l rfl
      simp only [godunovG]
      rw [hM _ (by na), hM _ (by na)]
  · intro a b a' b' hne
    have hne' : ¬ (a = a' ∧ b = b') := by simpa using hne
    constructor
    · rintro l (rfl | rfl) <;> na
    · rintro M1 M2 hM l (rfl | rfl) <;> simp only [godunovG]
      · rw [hM _ (by na), hM _ (by na)]
      · rw [hM _ (by na), hM _ (by na)]

def addCorrG (M : Mem) : Loc → ℚ
  | .amdq i m => M (.amdq i m) + M (.cqxx i m)
  | .apdq i m => M (.apdq i m) - M (.cqxx i m)
  | _ => 0

theorem addCorr_acts (h : Fit z n) {lo hi : ℤ} (hlo : 2 - (z.mbc : ℤ) ≤ lo) (hhi : hi ≤ n + z.mbc) :
    Acts (fun l => ∃ i m, (lo ≤ i ∧ i ≤ hi) ∧
    (1 ≤ m ∧ m ≤ (z.meqn : ℤ)) ∧ (l = .amdq i m ∨ l = .apdq i m)) addCorrG (addCorr z lo hi) := by
  have := h.n0; have := h.nm; have := h.mbc
  refine Acts.do2 _ addCorrG _ _ _ _ _ ?_ ?_
  · intro i m h1 h2 h3 h4
    rw [seq_cons, seq_one]
    refine Acts.seq2 (Acts.asg (by bnd) fun M => ?_) (Acts.asg (by bnd) fun M => ?_) ⟨?_, ?_⟩
    · show _ = some (M (.amdq i m) + M (.cqxx i m)); ev <;> bnd
    · show _ = some (M (.apdq i m) - M (.cqxx i m)); ev <;> bnd
    · rintro l rfl; na
    · rintro M1 M2 hM l rfl
      simp only [addCorrG]
      rw [hM _ (by na), hM _ (by na)]
  · intro a b a' b' hne
    have hne' : ¬ (a = a' ∧ b = b') := by simpa using hne
    constructor
    · rintro l (rfl | rfl) <;> na
    · rintro M1 M2 hM l (rfl | rfl) <;> simp only [addCorrG]
      · rw [hM _ (by na), hM _ (by na)]
      · rw [hM _ (by na), hM _ (by na)]

/-! ### Courant number -/

/-- Not an element that the routines for the fluxes change. -/
def NotScratch (l : Loc) : Prop := (∀ i' m, l ≠ .faddm i' m) ∧ (∀ i' m, l ≠ .faddp i' m) ∧ (∀ i' m k, l ≠ .gaddm i' m k) ∧
    (∀ i' m k, l ≠ .gaddp i' m k) ∧ (∀ i' m w, l ≠ .wave i' m w) ∧ (∀ i' w, l ≠ .s i' w) ∧
    (∀ i' m, l ≠ .amdq i' m) ∧ (∀ i' m, l ≠ .apdq i' m) ∧ (∀ i' m, l ≠ .cqxx i' m) ∧
    (∀ i' m, l ≠ .bmasdq i' m) ∧ (∀ i' m, l ≠ .bpasdq i' m) ∧ l ≠ .cfl1d

/-- An array for `dtdx1d`. -/
structure DtArray (z : Shape) (dt : ℤ → Loc) : Prop where
  has : ∀ i, z.inLine i → z.has (dt i)
  apart : ∀ i, NotScratch (dt i)

theorem dtx_array (z : Shape) : DtArray z .dtdx1d := ⟨fun i h => h, fun i => by simp [NotScratch]⟩
theorem dty_array (z : Shape) : DtArray z .dtdy1d := ⟨fun i h => h, fun i => by simp [NotScratch]⟩

/-- The Courant numbers of a slice: of a wave at an edge. -/
def courants (M : Mem) (dt : ℤ → Loc) (i w : ℤ) : ℚ := max (M (dt i) * M (.s i w)) (-M (dt (i - 1)) * M (.s i w))

/-- `c` is the largest of the numbers `f i w` that are not negative, or zero. -/
def Largest (f : ℤ → ℤ → ℚ) (P : ℤ → ℤ → Prop) (c : ℚ) : Prop :=
  0 ≤ c ∧ (∀ i w, P i w → f i w ≤ c) ∧ (c = 0 ∨ ∃ i w, P i w ∧ c = f i w)

theorem Largest.max {f : ℤ → ℤ → ℚ} {P Q : ℤ → ℤ → Prop} {c c' : ℚ} (h : Largest f P c) (i w : ℤ) (e : c' = max c (f i w))
    (hQ : ∀ i' w', Q i' w' ↔ P i' w' ∨ (i' = i ∧ w' = w)) : Largest f Q c' := by
  obtain ⟨h1, h2, h3⟩ := h
  subst e
  refine ⟨le_trans h1 (le_max_left _ _), ?_, ?_⟩
  · intro i' w' h
    rcases (hQ i' w').1 h with h | ⟨rfl, rfl⟩
    · exact le_trans (h2 i' w' h) (le_max_left _ _)
    · exact le_max_right _ _
  · rcases le_total c (f i w) with hc | hc
    · rw [max_eq_right hc]; exact Or.inr ⟨i, w, (hQ i w).2 (Or.inr ⟨rfl, rfl⟩), rfl⟩
    · rw [max_eq_left hc]
      rcases h3 with h3 | ⟨i', w', hp, he⟩
      · exact Or.inl h3
      · exact Or.inr ⟨i', w', (hQ i' w').2 (Or.inl hp), he⟩

theorem courant_spec (h : Fit z n) {dt : ℤ → Loc} (hd : DtArray z dt) (M : Mem) :
    ∃ M', courant z n dt M = some M' ∧ (∀ l, l ≠ .cfl1d → M' l = M l) ∧
      Largest (courants M dt) (fun i w => (1 ≤ i ∧ i ≤ n + 1) ∧ 1 ≤ w ∧ w ≤ (z.mwaves : ℤ)) (M' .cfl1d) := by
  have := h.n0; have := h.nm; have := h.mbc
  let M0 : Mem := fun l => if l = .cfl1d then 0 else M l
  have e0 : asg z .cfl1d (.lit 0) M = some M0 := asg_eval trivial (lit_eval _ _)
  have h0 : (∀ l, l ≠ .cfl1d → M0 l = M l) := fun l hl => if_neg hl
  obtain ⟨M', e, hf, hL⟩ := doLoop_inv
    (fun k (s : Mem) => (∀ l, l ≠ .cfl1d → s l = M l) ∧
      Largest (courants M dt) (fun i w => (1 ≤ i ∧ i ≤ n + 1) ∧ 1 ≤ w ∧ w < k) (s .cfl1d)) 1 z.mwaves
    (fun mw => doLoop 1 (n + 1) fun i =>
      asg z .cfl1d (max (max (rd z .cfl1d) (rd z (dt i) * rd z (.s i mw))) (-rd z (dt (i - 1)) * rd z (.s i mw))))
    (by omega) (by
      intro mw s hw1 hw2 ⟨hs1, hs2⟩
      obtain ⟨s', e, hf, hL⟩ := doLoop_inv
        (fun k (s : Mem) => (∀ l, l ≠ .cfl1d → s l = M l) ∧
          Largest (courants M dt) (fun i w => ((1 ≤ i ∧ i ≤ n + 1) ∧ 1 ≤ w ∧ w < mw) ∨ (1 ≤ i ∧ i < k ∧ w = mw)) (s .cfl1d))
        1 (n + 1) (fun i =>
          asg z .cfl1d (max (max (rd z .cfl1d) (rd z (dt i) * rd z (.s i mw))) (-rd z (dt (i - 1)) * rd z (.s i mw))))
        (by omega) (by
          intro i s hi1 hi2 ⟨hf, hL⟩
          refine ⟨fun l => if l = .cfl1d then max (max (s .cfl1d) (s (dt i) * s (.s i mw))) (-s (dt (i - 1)) * s (.s i mw))
            else s l, ?_, ?_, ?_⟩
          · refine asg_eval trivial ?_
            have : (max (max (rd z .cfl1d) (rd z (dt i) * rd z (.s i mw))) (-rd z (dt (i - 1)) * rd z (.s i mw))) s
                = some (max (max (s .cfl1d) (s (dt i) * s (.s i mw))) (-s (dt (i - 1)) * s (.s i mw))) := by
              ev
              · bnd
              · exact hd.has _ (by simp only [Shape.inLine]; omega)
              · bnd
              · exact hd.has _ (by simp only [Shape.inLine]; omega)
              · bnd
            exact this
          · intro l hl; dsimp only; rw [if_neg hl]; exact hf l hl
          · dsimp only
            rw [if_pos rfl]
            refine hL.max i mw ?_ ?_
            · rw [max_assoc]
              congr 1
              unfold courants
              rw [hf _ (hd.apart i).2.2.2.2.2.2.2.2.2.2.2, hf _ (hd.apart (i - 1)).2.2.2.2.2.2.2.2.2.2.2, hf _ (by simp)]
            · intro i' w'; constructor
              · rintro (h | h)
                · exact Or.inl (Or.inl h)
                · by_cases hh : i' = i
                  · exact Or.inr ⟨hh, h.2.2⟩
                  · exact Or.inl (Or.inr (by omega))
              · rintro ((h | h) | h)
                · exact Or.inl h
                · exact Or.inr (by omega)
                · exact Or.inr (by omega))
        s ⟨hs1, by
          have : (fun i w => (1 ≤ i ∧ i ≤ n + 1) ∧ 1 ≤ w ∧ w < mw) = (fun i w => ((1 ≤ i ∧ i ≤ n + 1) ∧ 1 ≤ w ∧ w < mw) ∨ (1 ≤ i ∧ i < 1 ∧ w = mw)) := by
            funext i w; apply propext; constructor
            · exact Or.inl
            · rintro (h | h)
              · exact h
              · omega
          rwa [this] at hs2⟩
      refine ⟨s', e, hf, ?_⟩
      have : (fun i w => ((1 ≤ i ∧ i ≤ n + 1) ∧ 1 ≤ w ∧ w < mw) ∨ (1 ≤ i ∧ i < n + 1 + 1 ∧ w = mw)) =
          (fun i w => (1 ≤ i ∧ i ≤ n + 1) ∧ 1 ≤ w ∧ w < mw + 1) := by
        funext i w; apply propext; omega
      rwa [this] at hL)
    M0 ⟨h0, by
      refine ⟨?_, ?_, Or.inl ?_⟩
      · show (0 : ℚ) ≤ if Loc.cfl1d = Loc.cfl1d then 0 else _; simp
      · intro i w h; omega
      · show (if Loc.cfl1d = Loc.cfl1d then (0 : ℚ) else _) = 0; simp⟩
  refine ⟨M', ?_, hf, ?_⟩
  · unfold courant
    rw [seq_cons, seq_one]
    show (asg z .cfl1d (.lit 0) M).bind _ = _
    rw [e0]; exact e
  · have : (fun i w => (1 ≤ i ∧ i ≤ n + 1) ∧ 1 ≤ w ∧ w < (z.mwaves : ℤ) + 1) =
        (fun i w => (1 ≤ i ∧ i ≤ n + 1) ∧ 1 ≤ w ∧ w ≤ (z.mwaves : ℤ)) := by
      funext i w; apply propext; omega
    rwa [this] at hL

/-! ### Transverse terms -/

def spillG (dt : ℤ → Loc) (e : ℤ) (M : Mem) : Loc → ℚ
  | .gaddm c m k => M (.gaddm c m k) - 1 / 2 * M (dt c) * M (if k = 1 then .bmasdq (c + e) m else .bpasdq (c + e) m)
  | .gaddp c m k => M (.gaddp c m k) - 1 / 2 * M (dt c) * M (if k = 1 then .bmasdq (c + e) m else .bpasdq (c + e) m)
  | _ => 0

theorem gupdate_acts {dt : ℤ → Loc} (hd : ∀ i, NotScratch (dt i)) (c m e : ℤ) (hdt : z.has (dt c)) (k : ℤ) (hk : k = 1 ∨ k = 2) (hc : z.inLine c)
    (he : z.inLine (c + e)) (hm : z.eqn m) (b : Loc) (hb : b = if k = 1 then .bmasdq (c + e) m else .bpasdq (c + e) m) :
    Acts (fun l => l = .gaddm c m k ∨ l = .gaddp c m k) (spillG dt e) (gupdate z (dt c) b c m k) := by
  unfold gupdate
  rw [seq_cons, seq_one]
  have hbb : z.has b := by
    subst hb
    rcases hk with rfl | rfl <;> simp [Shape.has, he, hm]
  have hk2 : 1 ≤ k ∧ k ≤ 2 := by omega
  refine Acts.seq2 (Acts.asg ⟨hc, hm, hk2⟩ fun M => ?_) (Acts.asg ⟨hc, hm, hk2⟩ fun M => ?_) ⟨?_, ?_⟩
  · show _ = some (M (.gaddm c m k) - 1 / 2 * M (dt c) * M (if k = 1 then .bmasdq (c + e) m else .bpasdq (c + e) m))
    rw [← hb]
    ev
    · exact ⟨hc, hm, hk2⟩
    · exact hdt
    · exact hbb
  · show _ = some (M (.gaddp c m k) - 1 / 2 * M (dt c) * M (if k = 1 then .bmasdq (c + e) m else .bpasdq (c + e) m))
    rw [← hb]
    ev
    · exact ⟨hc, hm, hk2⟩
    · exact hdt
    · exact hbb
  · rintro l rfl; simp
  · rintro M1 M2 hM l rfl
    simp only [spillG]
    rw [hM _ (by simp), hM (dt c) ((hd c).2.2.1 _ _ _), hM _ (by split_ifs <;> simp)]

theorem spill_apart {dt : ℤ → Loc} (hd : ∀ i, NotScratch (dt i)) (e : ℤ) (c m k c' m' k' : ℤ) (hne : ¬ (c = c' ∧ m = m' ∧ k = k')) :
    Apart (fun l => l = .gaddm c m k ∨ l = .gaddp c m k) (fun l => l = .gaddm c' m' k' ∨ l = .gaddp c' m' k') (spillG dt e) := by
  constructor
  · rintro l (rfl | rfl) <;> simp <;> omega
  · rintro M1 M2 hM l (rfl | rfl) <;> simp only [spillG]
    · rw [hM _ (by simp; omega), hM (dt c) (by have := hd c; simp [this.2.2.1, this.2.2.2.1]), hM _ (by split_ifs <;> simp)]
    · rw [hM _ (by simp; omega), hM (dt c) (by have := hd c; simp [this.2.2.1, this.2.2.2.1]), hM _ (by split_ifs <;> simp)]

theorem Apart.union {S S' T T' : Loc → Prop} {G : Mem → Loc → ℚ} (h1 : Apart S T G) (h2 : Apart S T' G) (h3 : Apart S' T G)
    (h4 : Apart S' T' G) : Apart (fun l => S l ∨ S' l) (fun l => T l ∨ T' l) G := by
  constructor
  · rintro l (h | h) (h' | h')
    · exact h1.1 l h h'
    · exact h2.1 l h h'
    · exact h3.1 l h h'
    · exact h4.1 l h h'
  · intro M1 M2 hM l hl
    -- change the memory in two steps
    classical
    let M3 : Mem := fun l => if T l then M2 l else M1 l
    have e1 : ∀ l, ¬ T l → M1 l = M3 l := fun l h => (if_neg h).symm
    have e2 : ∀ l, ¬ T' l → M3 l = M2 l := by
      intro l h
      show (if T l then M2 l else M1 l) = M2 l
      split_ifs with ht
      · rfl
      · exact hM l (by rintro (h' | h'); exacts [ht h', h h'])
    rcases hl with hl | hl
    · rw [h1.2 M1 M3 e1 l hl, h2.2 M3 M2 e2 l hl]
    · rw [h3.2 M1 M3 e1 l hl, h4.2 M3 M2 e2 l hl]

theorem spillLeft_acts (h : Fit z n) {dt : ℤ → Loc} (hd : DtArray z dt) {lo hi : ℤ} (hlo : 2 - (z.mbc : ℤ) ≤ lo)
    (hhi : hi ≤ n + z.mbc) :
    Acts (fun l => ∃ m i, (1 ≤ m ∧ m ≤ (z.meqn : ℤ)) ∧ (lo ≤ i ∧ i ≤ hi) ∧
      ((l = .gaddm (i - 1) m 1 ∨ l = .gaddp (i - 1) m 1) ∨ (l = .gaddm (i - 1) m 2 ∨ l = .gaddp (i - 1) m 2)))
      (spillG dt 1) (spillLeft z lo hi dt) := by
  have := h.n0; have := h.nm; have := h.mbc
  refine Acts.do2 _ (spillG dt 1) _ _ _ _ _ ?_ ?_
  · intro m i h1 h2 h3 h4
    have l1 : z.inLine (i - 1) := by simp only [Shape.inLine]; omega
    have l2 : z.inLine (i - 1 + 1) := by simp only [Shape.inLine]; omega
    rw [seq_cons, seq_one]
    refine Acts.seq2 (gupdate_acts hd.apart (i - 1) m 1 (hd.has _ l1) 1 (Or.inl rfl) l1 l2 ⟨h1, h2⟩ _ (by rw [if_pos rfl, sub_add_cancel]))
      (gupdate_acts hd.apart (i - 1) m 1 (hd.has _ l1) 2 (Or.inr rfl) l1 l2 ⟨h1, h2⟩ _ (by rw [if_neg (by decide), sub_add_cancel])) ?_
    exact spill_apart hd.apart _ _ _ _ _ _ _ (by omega)
  · intro a b a' b' hne
    have hne' : ¬ (a = a' ∧ b = b') := by simpa using hne
    refine Apart.union ?_ ?_ ?_ ?_ <;> exact spill_apart hd.apart _ _ _ _ _ _ _ (by omega)

theorem spillRight_acts (h : Fit z n) {dt : ℤ → Loc} {lo hi : ℤ} (hlo : 2 - (z.mbc : ℤ) ≤ lo)
    (hhi : hi ≤ n + z.mbc) (hd : ∀ i, NotScratch (dt i)) (hdt : ∀ i, lo ≤ i → i ≤ hi → z.has (dt i)) :
    Acts (fun l => ∃ m i, (1 ≤ m ∧ m ≤ (z.meqn : ℤ)) ∧ (lo ≤ i ∧ i ≤ hi) ∧
      ((l = .gaddm i m 1 ∨ l = .gaddp i m 1) ∨ (l = .gaddm i m 2 ∨ l = .gaddp i m 2)))
      (spillG dt 0) (spillRight z lo hi dt) := by
  have := h.n0; have := h.nm; have := h.mbc
  refine Acts.do2 _ (spillG dt 0) _ _ _ _ _ ?_ ?_
  · intro m i h1 h2 h3 h4
    have l1 : z.inLine i := by simp only [Shape.inLine]; omega
    have l2 : z.inLine (i + 0) := by simp only [Shape.inLine]; omega
    rw [seq_cons, seq_one]
    refine Acts.seq2 (gupdate_acts hd i m 0 (hdt i h3 h4) 1 (Or.inl rfl) l1 l2 ⟨h1, h2⟩ _ (by rw [if_pos rfl, add_zero]))
      (gupdate_acts hd i m 0 (hdt i h3 h4) 2 (Or.inr rfl) l1 l2 ⟨h1, h2⟩ _ (by rw [if_neg (by decide), add_zero])) ?_
    exact spill_apart hd _ _ _ _ _ _ _ (by omega)
  · intro a b a' b' hne
    have hne' : ¬ (a = a' ∧ b = b') := by simpa using hne
    refine Apart.union ?_ ?_ ?_ ?_ <;> exact spill_apart hd _ _ _ _ _ _ _ (by omega)

end Fclaw.Wave
