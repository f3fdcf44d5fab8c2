import Verif.Extrude.Lens
/-
The routines treat every layer by itself, as the routines in two dimensions do.
-/
set_option autoImplicit false
set_option linter.unusedSimpArgs false
set_option linter.unusedVariables false
namespace Fclaw.Extrude

open Fort Transform CopyGhost Transfer

theorem Sep.ite {S T : Type} {L : Lens S T} {lo hi : ℤ} {c : Prop} [Decidable c] {F G : S → Option S} {f g : ℤ → T → Option T}
    (h : Sep L F (rng lo hi f)) (h' : Sep L G (rng lo hi g)) :
    Sep L (fun s => if c then F s else G s) (rng lo hi fun k t => if c then f k t else g k t) := by
  by_cases hc : c
  · simp only [if_pos hc]; exact h
  · simp only [if_neg hc]; exact h'

/-- The areas of layer `k`. -/
def areas (v : Vol) (k : ℤ) : Area := fun c => v (c.1, c.2, k)

theorem rdVol_areas {D : Dims3} {k : ℤ} (hk : Has D k) (v : Vol) (i j : ℤ) :
    rdVol D v i j k = rdArea D.toDims (areas v k) i j := rdVol_eq hk ..

/-! ### Copies -/

theorem copyCell3_on {α : Type} {D : Dims3} {k : ℤ} (hk : Has D k) (A : Affine) (qn : Grid3 α) (mq j i : ℤ) :
    On (gridL α) k (copyCell3 D A qn mq k j i) (copyCell D.toDims A (layer qn k) mq j i) :=
  On.bind _ _ (rd3_eq hk ..) fun v => wr3_on hk _ _ _ _

theorem copyFace3_sep {α : Type} {D : Dims3} (hz : 1 ≤ D.mz) (td : TData) (iface : Nat) (qn : Grid3 α) :
    Sep (gridL α) (copyFace3 D td iface qn) (rng 1 D.mz fun k => copyFace D.toDims td iface (layer qn k)) := by
  refine Sep.bind (by omega) (buildTransformSame D.toDims td) fun A => ?_
  refine Sep.ite ?_ (Sep.ite ?_ (Sep.ite ?_ (Sep.ite ?_ (Sep.rsome _ _ _))))
  all_goals exact Sep.doLoop fun mq _ _ => Sep.layers fun k h1 h2 => On.doLoop fun j _ _ => On.doLoop fun i _ _ =>
    copyCell3_on (has_inner h1 h2) _ _ _ _ _

theorem copyCorner3_sep {α : Type} {D : Dims3} (td : TData) (c : Nat) (qn : Grid3 α) :
    Sep (gridL α) (copyCorner3 D td c qn) (rng 1 D.mz fun k => copyCorner D.toDims td c (layer qn k)) :=
  Sep.doLoop fun mq _ _ => Sep.layers fun k h1 h2 => On.doLoop fun ibc _ _ => On.doLoop fun jbc _ _ =>
    On.bind _ _ rfl fun c2 => On.bind _ _ (rd3_eq (has_inner h1 h2) ..) fun v => wr3_on (has_inner h1 h2) _ _ _ _

/-! ### Ghost cells from smaller patches -/

theorem averageCell3_eq {D : Dims3} {k : ℤ} (hk : Has D k) (vf : Vol) (mf : Bool) (qf : Grid3 ℚ) (c2 : ℤ → ℤ × ℤ) (mq : ℤ) :
    averageCell3 D vf mf qf c2 mq k = CoarseFine.averageCell D.toDims (areas vf k) mf (layer qf k) c2 mq := by
  unfold averageCell3 CoarseFine.averageCell
  simp only [rd3_eq hk, rdVol_areas hk]

theorem averageFaceBody3_on {D : Dims3} {k : ℤ} (hk : Has D k) (td : TData) (vf : Vol) (mf : Bool) (qf : Grid3 ℚ) (mq ic jc : ℤ) :
    On (gridL ℚ) k (averageFaceBody3 D td vf mf qf mq k ic jc)
      (CoarseFine.averageFaceBody D.toDims td (areas vf k) mf (layer qf k) mq ic jc) :=
  On.bind _ _ rfl fun c2 => On.ite (On.bind _ _ (averageCell3_eq hk ..) fun v => wr3_on hk _ _ _ _) (On.some _ _)

theorem averageFace3_sep {D : Dims3} (td : TData) (f : Nat) (vf : Vol) (mf : Bool) (qf : Grid3 ℚ) :
    Sep (gridL ℚ) (averageFace3 D td f vf mf qf)
      (rng 1 D.mz fun k => CoarseFine.averageFace D.toDims td f (areas vf k) mf (layer qf k)) := by
  by_cases hf : f / 2 = 0
  · refine (Sep.doLoop (f := fun mq k => doLoop 1 D.my fun jc => doLoop 1 D.mbc fun ibc =>
      CoarseFine.averageFaceBody D.toDims td (areas vf k) mf (layer qf k) mq (if f = 0 then 1 - ibc else D.mx + ibc) jc)
      fun mq _ _ => Sep.layers fun k h1 h2 => ?_).rcongr fun k t _ _ => ?_
    · rw [if_pos hf]
      exact On.doLoop fun j _ _ => On.doLoop fun i _ _ => averageFaceBody3_on (has_inner h1 h2) _ _ _ _ _ _ _
    · unfold CoarseFine.averageFace
      rw [if_pos hf]
  · refine (Sep.doLoop (f := fun mq k => doLoop 1 D.mbc fun jbc => doLoop 1 D.mx fun ic =>
      CoarseFine.averageFaceBody D.toDims td (areas vf k) mf (layer qf k) mq ic (if f = 2 then 1 - jbc else D.my + jbc))
      fun mq _ _ => Sep.layers fun k h1 h2 => ?_).rcongr fun k t _ _ => ?_
    · rw [if_neg hf]
      exact On.doLoop fun j _ _ => On.doLoop fun i _ _ => averageFaceBody3_on (has_inner h1 h2) _ _ _ _ _ _ _
    · unfold CoarseFine.averageFace
      rw [if_neg hf]

theorem cornerCell_inj (d : Dims) (c : Nat) (a b a' b' : ℤ) (h : cornerCell d c a b = cornerCell d c a' b') :
    a = a' ∧ b = b' := by
  unfold cornerCell at h
  split at h
  · simp only [Prod.mk.injEq] at h; omega
  · split at h
    · simp only [Prod.mk.injEq] at h; omega
    · split at h <;> simp only [Prod.mk.injEq] at h <;> omega

/-- In two dimensions the loop over the components is the innermost one. -/
theorem averageCorner_outer (d : Dims) (hm : 1 ≤ d.meqn) (td : TData) (c : Nat) (af : Area) (mf : Bool) (qf g : Grid ℚ) :
    doLoop 1 d.meqn (fun mq => doLoop 1 d.mbc fun ibc => doLoop 1 d.mbc fun jbc => fun q =>
      (CoarseFine.clawCornerHalf d td (cornerCell d c ibc jbc).1 (cornerCell d c ibc jbc).2).bind fun c2 =>
      (CoarseFine.averageCell d af mf qf c2 mq).bind fun v =>
        wr d q ((cornerCell d c ibc jbc).1, (cornerCell d c ibc jbc).2, mq) v) g =
    CoarseFine.averageCorner d td c af mf qf g := by
  have hc : ∀ a b mq a' b' mq', mq ≠ mq' →
      Layout.Comm (fun q : Grid ℚ =>
        (CoarseFine.clawCornerHalf d td (cornerCell d c a b).1 (cornerCell d c a b).2).bind fun c2 =>
        (CoarseFine.averageCell d af mf qf c2 mq).bind fun v =>
          wr d q ((cornerCell d c a b).1, (cornerCell d c a b).2, mq) v)
        (fun q : Grid ℚ =>
        (CoarseFine.clawCornerHalf d td (cornerCell d c a' b').1 (cornerCell d c a' b').2).bind fun c2 =>
        (CoarseFine.averageCell d af mf qf c2 mq').bind fun v =>
          wr d q ((cornerCell d c a' b').1, (cornerCell d c a' b').2, mq') v) := by
    intro a b mq a' b' mq' hne
    refine Layout.comm_bind fun c2 c2' => Layout.comm_bind fun v v' => Layout.comm_wr d _ _ v v' ?_
    intro h
    simp only [Prod.mk.injEq] at h
    exact hne h.2.2
  rw [Layout.doLoop_swap]
  · show _ = doLoop 1 d.mbc (fun ibc => doLoop 1 d.mbc fun jbc => fun q => _) g
    congr 1
    funext ibc
    rw [Layout.doLoop_swap]
    · congr 1
      funext jbc q
      show doLoop 1 (d.meqn : ℤ) _ q = Option.bind _ _
      cases e : CoarseFine.clawCornerHalf d td (cornerCell d c ibc jbc).1 (cornerCell d c ibc jbc).2 with
      | none =>
        have : range 1 (d.meqn : ℤ) ≠ [] := by
          intro h
          have h1 : (1 : ℤ) ∈ range 1 (d.meqn : ℤ) := by rw [mem_range]; omega
          rw [h] at h1
          simp at h1
        unfold doLoop
        cases hr : range 1 (d.meqn : ℤ) with
        | nil => exact absurd hr this
        | cons m ms => rfl
      | some c2 => rfl
    · intro mq mq' b b' _ _ _ _ _ _ _ _ hne _
      exact hc _ _ _ _ _ _ hne
  · intro mq mq' a a' _ _ _ _ _ _ _ _ hne _
    exact Layout.Comm.doLoop fun b _ _ => (Layout.Comm.doLoop fun b' _ _ => (hc _ _ _ _ _ _ hne).symm).symm

theorem averageCorner3_sep {D : Dims3} (hm : 1 ≤ D.meqn) (td : TData) (c : Nat) (vf : Vol) (mf : Bool) (qf : Grid3 ℚ) :
    Sep (gridL ℚ) (averageCorner3 D td c vf mf qf)
      (rng 1 D.mz fun k => CoarseFine.averageCorner D.toDims td c (areas vf k) mf (layer qf k)) := by
  refine (Sep.doLoop (f := fun mq k => doLoop 1 D.mbc fun ibc => doLoop 1 D.mbc fun jbc => fun q =>
      (CoarseFine.clawCornerHalf D.toDims td (cornerCell D.toDims c ibc jbc).1 (cornerCell D.toDims c ibc jbc).2).bind fun c2 =>
      (CoarseFine.averageCell D.toDims (areas vf k) mf (layer qf k) c2 mq).bind fun v =>
        wr D.toDims q ((cornerCell D.toDims c ibc jbc).1, (cornerCell D.toDims c ibc jbc).2, mq) v)
      fun mq _ _ => Sep.layers fun k h1 h2 => ?_).rcongr fun k t _ _ => ?_
  · exact On.doLoop fun ibc _ _ => On.doLoop fun jbc _ _ => On.bind _ _ rfl fun c2 =>
      On.bind _ _ (averageCell3_eq (has_inner h1 h2) ..) fun v => wr3_on (has_inner h1 h2) _ _ _ _
  · exact averageCorner_outer D.toDims hm td c (areas vf k) mf (layer qf k) t

/-! ### Ghost cells from larger patches -/

theorem slopes3_eq {D : Dims3} {k : ℤ} (hk : Has D k) (q : Grid3 ℚ) (ic jc mq : ℤ) :
    slopes3 D q ic jc k mq = slopes D.toDims (layer q k) ic jc mq := by
  unfold slopes3 slopes
  simp only [rd3_eq hk]

theorem spreadCell3_on {D : Dims3} {k : ℤ} (hk : Has D k) (A : CoarseFine.Matrix) (c2 : ℤ → ℤ × ℤ) (mq : ℤ) (s : ℚ × ℚ × ℚ) :
    On (gridL ℚ) k (spreadCell3 D A c2 mq k s) (CoarseFine.spreadCell D.toDims A c2 mq s) :=
  On.doLoop fun m _ _ => wr3_on hk _ _ _ _

theorem interpFaceBody3_on {D : Dims3} {k : ℤ} (hk : Has D k) (td : TData) (A : CoarseFine.Matrix) (qc : Grid3 ℚ) (mq ic jc : ℤ) :
    On (gridL ℚ) k (interpFaceBody3 D td A qc mq k ic jc)
      (CoarseFine.interpFaceBody D.toDims td A (layer qc k) mq ic jc) :=
  On.bind _ _ rfl fun c2 => On.ite (On.bind _ _ (slopes3_eq hk ..) fun s => spreadCell3_on hk _ _ _ _) (On.some _ _)

theorem interpolateFace3_sep {D : Dims3} (hz : 1 ≤ D.mz) (td : TData) (f : Nat) (qc : Grid3 ℚ) :
    Sep (gridL ℚ) (interpolateFace3 D td f qc) (rng 1 D.mz fun k => CoarseFine.interpolateFace D.toDims td f (layer qc k)) := by
  refine Sep.bind (by omega) (CoarseFine.buildTransform D.toDims td) fun A => ?_
  by_cases hf : f / 2 = 0
  · simp only [if_pos hf]
    exact Sep.doLoop fun mq _ _ => Sep.layers fun k h1 h2 => On.doLoop fun j _ _ => On.doLoop fun i _ _ =>
      interpFaceBody3_on (has_inner h1 h2) _ _ _ _ _ _
  · simp only [if_neg hf]
    exact Sep.doLoop fun mq _ _ => Sep.layers fun k h1 h2 => On.doLoop fun j _ _ => On.doLoop fun i _ _ =>
      interpFaceBody3_on (has_inner h1 h2) _ _ _ _ _ _

theorem interpolateCorner3_sep {D : Dims3} (hz : 1 ≤ D.mz) (td : TData) (c : Nat) (qc : Grid3 ℚ) :
    Sep (gridL ℚ) (interpolateCorner3 D td c qc) (rng 1 D.mz fun k => CoarseFine.interpolateCorner D.toDims td c (layer qc k)) :=
  Sep.bind (by omega) (CoarseFine.buildTransform D.toDims td) fun A =>
    Sep.doLoop fun ibc _ _ => Sep.doLoop fun jbc _ _ => Sep.bind (by omega) _ fun c2 =>
      Sep.doLoop fun mq _ _ => Sep.layers fun k h1 h2 =>
        On.bind _ _ (slopes3_eq (has_inner h1 h2) ..) fun s => spreadCell3_on (has_inner h1 h2) _ _ _ _

/-! ### Refinement -/

theorem interpolate3_sep {D : Dims3} (g : ℤ) (qc : Grid3 ℚ) :
    Sep (gridL ℚ) (interpolate3 D g qc) (rng 1 D.mz fun k => interpolate D.toDims g (layer qc k)) :=
  Sep.doLoop fun mq _ _ => Sep.layers fun k h1 h2 => On.doLoop fun j _ _ => On.doLoop fun i _ _ =>
    On.bind _ _ (slopes3_eq (has_inner h1 h2) ..) fun s => On.doLoop fun ii _ _ => On.doLoop fun jj _ _ =>
      wr3_on (has_inner h1 h2) _ _ _ _

theorem fineSum3_eq {D : Dims3} {k : ℤ} (hk : Has D k) (vf : Vol) (i j m : ℤ) (q : Grid3 ℚ) :
    fineSum3 D vf i j k m q = fineSum D.toDims (areas vf k) i j m (layer q k) := by
  unfold fineSum3 fineSum fixDz
  simp only [rd3_eq hk, rdVol_areas hk, mul_one]

theorem spread3_on {D : Dims3} {k : ℤ} (hk : Has D k) (vf : Vol) (i j m : ℤ) (x : ℚ) :
    On (gridL ℚ) k (spread3 D vf i j k m x) (spread D.toDims (areas vf k) i j m x) :=
  On.doLoop fun ii _ _ => On.doLoop fun jj _ _ => On.bind _ _ (rdVol_eq hk ..) fun kf =>
    On.read (fun s => rd3_eq hk s _ _ _) fun qf => On.bind _ _ (by unfold fixDz; rw [mul_one]) fun c => wr3_on hk _ _ _ _

theorem fixcapaq3_sep {D : Dims3} (vc vf : Vol) (g : ℤ) (qc : Grid3 ℚ) :
    Sep (gridL ℚ) (fixcapaq3 D vc vf g qc)
      (rng 1 D.mz fun k => fixcapaq2 D.toDims (areas vc k) (areas vf k) g (layer qc k)) :=
  Sep.doLoop fun mq _ _ => Sep.layers fun k h1 h2 => On.doLoop fun i _ _ => On.doLoop fun j _ _ =>
    On.read (fun s => fineSum3_eq (has_inner h1 h2) ..) fun sum =>
    On.bind _ _ (rdVol_eq (has_inner h1 h2) ..) fun kc =>
    On.bind _ _ (rd3_eq (has_inner h1 h2) ..) fun qc => by
      unfold fixDz
      rw [mul_one]
      exact spread3_on (has_inner h1 h2) _ _ _ _ _

theorem interpolate2fine3_sep {D : Dims3} (vc vf : Vol) (g mf : ℤ) (qc : Grid3 ℚ) :
    Sep (gridL ℚ) (interpolate2fine3 D vc vf g mf qc)
      (rng 1 D.mz fun k => interpolate2fine D.toDims (areas vc k) (areas vf k) g mf (layer qc k)) :=
  Sep.rseq (interpolate3_sep g qc) (Sep.ite (fixcapaq3_sep vc vf g qc) (Sep.rsome _ _ _))

/-- A program on one member of a family. -/
theorem Sep.member {S T ι : Type} [DecidableEq ι] {L : Lens S T} {lo hi : ℤ} (a : ι) {F : S → Option S} {f : ℤ → T → Option T}
    (h : Sep L F (rng lo hi f)) :
    Sep (funL ι L) (fun s => (F (s a)).map fun x => fun b => if b = a then x else s b)
      (rng lo hi fun k t => (f k (t a)).map fun x => fun b => if b = a then x else t b) := by
  intro s
  beta_reduce
  rcases h (s a) with ⟨x, e, hx⟩ | ⟨e, k, hx⟩
  · left
    refine ⟨_, by rw [e]; rfl, fun k => ?_⟩
    have hk := hx k
    unfold rng at hk ⊢
    by_cases hr : lo ≤ k ∧ k ≤ hi
    · rw [if_pos hr] at hk ⊢
      show (f k (L.get (s a) k)).map _ = _
      rw [hk, Option.map_some]
      congr 1
      funext b
      show (if b = a then _ else L.get (s b) k) = L.get (if b = a then x else s b) k
      split <;> rfl
    · rw [if_neg hr] at hk ⊢
      rw [Option.some.injEq] at hk ⊢
      funext b
      show L.get (s b) k = L.get (if b = a then x else s b) k
      by_cases hb : b = a
      · subst hb; rw [if_pos rfl, hk]
      · rw [if_neg hb]
  · right
    refine ⟨by rw [e]; rfl, k, ?_⟩
    unfold rng at hx ⊢
    by_cases hr : lo ≤ k ∧ k ≤ hi
    · rw [if_pos hr] at hx ⊢
      show (f k (L.get (s a) k)).map _ = none
      rw [hx]; rfl
    · rw [if_neg hr] at hx; cases hx

theorem refine3_sep {D : Dims3} (vc : Vol) (vf : ℤ → Vol) (mf : ℤ) (qc : Grid3 ℚ) :
    Sep (funL ℤ (gridL ℚ)) (refine3 D vc vf mf qc)
      (rng 1 D.mz fun k => refine D.toDims (areas vc k) (fun g => areas (vf g) k) mf (layer qc k)) :=
  Sep.doLoop fun g _ _ => Sep.member g (interpolate2fine3_sep vc (vf g) g mf qc)

/-! ### Coarsening -/

theorem doLoop03 {σ : Type} (f : ℤ → σ → Option σ) (s : σ) :
    doLoop 0 3 f s = (f 0 s).bind fun s => (f 1 s).bind fun s => (f 2 s).bind fun s => f 3 s := doLoop_zero_three f s

theorem childCell_eq {D : Dims3} {k : ℤ} (hk : Has D k) (qf : Grid3 ℚ) (vf : Vol) (mf i j mq g : ℤ)
    (hb : -(D.mbc : ℤ) ≤ i + g % 2 * D.mx / 2 ∧ i + g % 2 * D.mx / 2 ≤ D.mx + D.mbc + 1 ∧
      -(D.mbc : ℤ) ≤ j + (g - g % 2) / 2 * D.mx / 2 ∧ j + (g - g % 2) / 2 * D.mx / 2 ≤ D.my + D.mbc + 1) :
    childCell3 D qf vf mf i j k mq =
      Transfer.averageCell D.toDims (layer qf k) (sums D.toDims (areas vf k) g) (areas vf k) mf
        (i + g % 2 * D.mx / 2) (j + (g - g % 2) / 2 * D.mx / 2) i j mq := by
  unfold childCell3 Transfer.averageCell
  by_cases hmf : mf = 1
  · rw [if_pos hmf, if_pos hmf]
    simp only [rd3_eq hk, rdVol_areas hk, doLoop03]
    have hs : rdArea D.toDims (sums D.toDims (areas vf k) g) (i + g % 2 * D.mx / 2) (j + (g - g % 2) / 2 * D.mx / 2) =
        some (sums D.toDims (areas vf k) g (i + g % 2 * D.mx / 2, j + (g - g % 2) / 2 * D.mx / 2)) := by
      unfold rdArea
      rw [if_pos hb]
    rw [hs]
    have hv : sums D.toDims (areas vf k) g (i + g % 2 * D.mx / 2, j + (g - g % 2) / 2 * D.mx / 2) =
        areas vf k (fineI i 0, fineJ j 0) + areas vf k (fineI i 1, fineJ j 1) + areas vf k (fineI i 2, fineJ j 2) +
          areas vf k (fineI i 3, fineJ j 3) := by
      unfold sums fineI fineJ
      dsimp only
      have e1 : i + g % 2 * D.mx / 2 - g % 2 * D.mx / 2 = i := by ring
      have e2 : j + (g - g % 2) / 2 * D.mx / 2 - (g - g % 2) / 2 * D.mx / 2 = j := by ring
      rw [e1, e2]
      norm_num
      have a1 : 2 * i - 1 = (i - 1) * 2 + 1 := by ring
      have a2 : 2 * i = (i - 1) * 2 + 2 := by ring
      have a3 : 2 * j - 1 = (j - 1) * 2 + 1 := by ring
      have a4 : 2 * j = (j - 1) * 2 + 2 := by ring
      rw [a1, a2, a3, a4]
    rw [hv]
    have ra : ∀ m : ℤ, ∀ x, rdArea D.toDims (areas vf k) (fineI i m) (fineJ j m) = some x →
        x = areas vf k (fineI i m, fineJ j m) := by
      intro m x hx
      unfold rdArea at hx
      split at hx
      · rw [Option.some.injEq] at hx; exact hx.symm
      · cases hx
    cases rd D.toDims (layer qf k) (fineI i 0, fineJ j 0, mq) with
    | none => rfl
    | some q0 =>
    cases h0 : rdArea D.toDims (areas vf k) (fineI i 0) (fineJ j 0) with
    | none => rfl
    | some a0 =>
    cases e1 : rd D.toDims (layer qf k) (fineI i 1, fineJ j 1, mq) with
    | none => simp only [Option.bind_some, e1, Option.bind_none]
    | some q1 =>
    cases h1 : rdArea D.toDims (areas vf k) (fineI i 1) (fineJ j 1) with
    | none => simp only [Option.bind_some, e1, h1, Option.bind_none]
    | some a1 =>
    cases e2 : rd D.toDims (layer qf k) (fineI i 2, fineJ j 2, mq) with
    | none => simp only [Option.bind_some, e1, h1, e2, Option.bind_none]
    | some q2 =>
    cases h2 : rdArea D.toDims (areas vf k) (fineI i 2) (fineJ j 2) with
    | none => simp only [Option.bind_some, e1, h1, e2, h2, Option.bind_none]
    | some a2 =>
    cases e3 : rd D.toDims (layer qf k) (fineI i 3, fineJ j 3, mq) with
    | none => simp only [Option.bind_some, e1, h1, e2, h2, e3, Option.bind_none]
    | some q3 =>
    cases h3 : rdArea D.toDims (areas vf k) (fineI i 3) (fineJ j 3) with
    | none => simp only [Option.bind_some, e1, h1, e2, h2, e3, h3, Option.bind_none]
    | some a3 =>
      simp only [Option.bind_some, e1, h1, e2, h2, e3, h3]
      rw [ra 0 a0 h0, ra 1 a1 h1, ra 2 a2 h2, ra 3 a3 h3]
      congr 1
      ring
  · rw [if_neg hmf, if_neg hmf]
    simp only [rd3_eq hk]

theorem average2coarse3_sep {D : Dims3} (vf : Vol) (g mf : ℤ) (qf : Grid3 ℚ) :
    Sep (gridL ℚ) (average2coarse3 D vf g mf qf)
      (rng 1 D.mz fun k => average2coarse D.toDims (sums D.toDims (areas vf k) g) (areas vf k) g mf (layer qf k)) := by
  refine Sep.doLoop fun mq _ _ => Sep.layers fun k h1 h2 => On.doLoop fun j _ _ => On.doLoop fun i _ _ => ?_
  have hk := has_inner h1 h2
  by_cases hb : -(D.mbc : ℤ) ≤ i + g % 2 * D.mx / 2 ∧ i + g % 2 * D.mx / 2 ≤ D.mx + D.mbc + 1 ∧
      -(D.mbc : ℤ) ≤ j + (g - g % 2) / 2 * D.mx / 2 ∧ j + (g - g % 2) / 2 * D.mx / 2 ≤ D.my + D.mbc + 1
  · exact On.bind _ _ (childCell_eq hk qf vf mf i j mq g hb) fun v => wr3_on hk _ _ _ _
  · have hbox : inBox D.toDims (i + g % 2 * D.mx / 2, j + (g - g % 2) / 2 * D.mx / 2, mq) = false := by
      rw [← Bool.not_eq_true, inBox_iff]
      intro h
      apply hb
      omega
    intro q
    have n1 : ∀ v, wr3 D q (i + g % 2 * D.mx / 2, j + (g - g % 2) / 2 * D.mx / 2, k, mq) v = none := by
      intro v; unfold wr3; rw [inBox3_eq hk, hbox]; rfl
    have n2 : ∀ (q' : Grid ℚ) v, wr D.toDims q' (i + g % 2 * D.mx / 2, j + (g - g % 2) / 2 * D.mx / 2, mq) v = none := by
      intro q' v; unfold wr; rw [hbox]; rfl
    simp only [n1, n2]
    cases childCell3 D qf vf mf i j k mq <;>
      cases Transfer.averageCell D.toDims (layer qf k) (sums D.toDims (areas vf k) g) (areas vf k) mf
        (i + g % 2 * D.mx / 2) (j + (g - g % 2) / 2 * D.mx / 2) i j mq <;> rfl

theorem coarsen3_sep {D : Dims3} (vf : ℤ → Vol) (mf : ℤ) (qf : ℤ → Grid3 ℚ) :
    Sep (gridL ℚ) (coarsen3 D vf mf qf)
      (rng 1 D.mz fun k => coarsenSums D.toDims (fun g => areas (vf g) k) mf fun g => layer (qf g) k) :=
  Sep.doLoop fun g _ _ => average2coarse3_sep (vf g) g mf (qf g)

/-! ### Pillow sphere -/

theorem On.fst {S T : Type} {L : Lens S T} {k : ℤ} {F : S → Option S} {f : T → Option T} (h : On L k F f) :
    On (pairL L) k (fun s => (F s.1).map fun x => (x, s.2)) (fun t => (f t.1).map fun x => (x, t.2)) := by
  intro s
  show (F s.1).map _ = ((f (L.get s.1 k)).map _).map _
  rw [h s.1]
  cases f (L.get s.1 k) with
  | none => rfl
  | some x => simp only [Option.map_some, pairL, L.set_get]

theorem On.snd {S T : Type} {L : Lens S T} {k : ℤ} {F : S → Option S} {f : T → Option T} (h : On L k F f) :
    On (pairL L) k (fun s => (F s.2).map fun x => (s.1, x)) (fun t => (f t.2).map fun x => (t.1, x)) := by
  intro s
  show (F s.2).map _ = ((f (L.get s.2 k)).map _).map _
  rw [h s.2]
  cases f (L.get s.2 k) with
  | none => rfl
  | some x => simp only [Option.map_some, pairL, L.set_get]

theorem pillowCell3 {α : Type} (D : Dims3) (k mq : ℤ) (g m : ℤ × ℤ) (Q : Grid3 α × Grid3 α) :
    ((rd3 D Q.2 (m.1, m.2, k, mq)).bind fun v => (wr3 D Q.1 (g.1, g.2, k, mq) v).bind fun qt =>
      (rd3 D qt (m.1, m.2, k, mq)).bind fun v => (wr3 D Q.2 (g.1, g.2, k, mq) v).bind fun qn => some (qt, qn)) =
    (((rd3 D Q.2 (m.1, m.2, k, mq)).bind fun v => (wr3 D Q.1 (g.1, g.2, k, mq) v).map fun x => (x, Q.2)).bind
      fun Q => (rd3 D Q.1 (m.1, m.2, k, mq)).bind fun v => (wr3 D Q.2 (g.1, g.2, k, mq) v).map fun x => (Q.1, x)) := by
  cases rd3 D Q.2 (m.1, m.2, k, mq) with
  | none => rfl
  | some v =>
    cases h : wr3 D Q.1 (g.1, g.2, k, mq) v with
    | none => simp only [Option.bind_some, h]; rfl
    | some qt =>
      simp only [Option.bind_some, h, Option.map_some]
      cases rd3 D qt (m.1, m.2, k, mq) with
      | none => rfl
      | some v' =>
        simp only [Option.bind_some]
        cases wr3 D Q.2 (g.1, g.2, k, mq) v' <;> rfl

theorem pillowCell2 {α : Type} (d : Dims) (mq : ℤ) (g m : ℤ × ℤ) (Q : Grid α × Grid α) :
    ((rd d Q.2 (m.1, m.2, mq)).bind fun v => (wr d Q.1 (g.1, g.2, mq) v).bind fun qt =>
      (rd d qt (m.1, m.2, mq)).bind fun v => (wr d Q.2 (g.1, g.2, mq) v).bind fun qn => some (qt, qn)) =
    (((rd d Q.2 (m.1, m.2, mq)).bind fun v => (wr d Q.1 (g.1, g.2, mq) v).map fun x => (x, Q.2)).bind
      fun Q => (rd d Q.1 (m.1, m.2, mq)).bind fun v => (wr d Q.2 (g.1, g.2, mq) v).map fun x => (Q.1, x)) := by
  cases rd d Q.2 (m.1, m.2, mq) with
  | none => rfl
  | some v =>
    cases h : wr d Q.1 (g.1, g.2, mq) v with
    | none => simp only [Option.bind_some, h]; rfl
    | some qt =>
      simp only [Option.bind_some, h, Option.map_some]
      cases rd d qt (m.1, m.2, mq) with
      | none => rfl
      | some v' =>
        simp only [Option.bind_some]
        cases wr d Q.2 (g.1, g.2, mq) v' <;> rfl

theorem copyBlockCorner3_sep {α : Type} {D : Dims3} (c : Nat) :
    Sep (pairL (gridL α)) (copyBlockCorner3 D c) (rng 1 D.mz fun _ => Pillow.copyBlockCorner D.toDims c) := by
  refine Sep.doLoop fun mq _ _ => Sep.layers fun k h1 h2 => On.doLoop fun ibc _ _ => On.doLoop fun jbc _ _ => ?_
  have hk := has_inner h1 h2
  intro Q
  show ((rd3 D Q.2 _).bind _) = ((rd D.toDims (layer Q.2 k) _).bind _).map _
  rw [pillowCell3]
  refine Eq.trans ?_ (congrArg (Option.map ((pairL (gridL α)).set Q k)) (pillowCell2 D.toDims mq
    (cornerCell D.toDims c ibc jbc) (Pillow.mirrorCell D.toDims c ibc jbc) (layer Q.1 k, layer Q.2 k)).symm)
  exact (On.seq (L := pairL (gridL α))
    (On.read (e := fun Q : Grid3 α × Grid3 α => rd3 D Q.2 ((Pillow.mirrorCell D.toDims c ibc jbc).1,
        (Pillow.mirrorCell D.toDims c ibc jbc).2, k, mq))
        (e' := fun Q : Grid α × Grid α => rd D.toDims Q.2 ((Pillow.mirrorCell D.toDims c ibc jbc).1,
        (Pillow.mirrorCell D.toDims c ibc jbc).2, mq)) (fun s => rd3_eq hk s.2 _ _ _)
      fun v => On.fst (wr3_on hk _ _ _ _))
    (On.read (e := fun Q : Grid3 α × Grid3 α => rd3 D Q.1 ((Pillow.mirrorCell D.toDims c ibc jbc).1,
        (Pillow.mirrorCell D.toDims c ibc jbc).2, k, mq))
        (e' := fun Q : Grid α × Grid α => rd D.toDims Q.1 ((Pillow.mirrorCell D.toDims c ibc jbc).1,
        (Pillow.mirrorCell D.toDims c ibc jbc).2, mq)) (fun s => rd3_eq hk s.1 _ _ _)
      fun v => On.snd (wr3_on hk _ _ _ _))) Q

theorem interpolateBlockCorner3_sep {D : Dims3} (c : Nat) (qc : Grid3 ℚ) :
    Sep (gridL ℚ) (interpolateBlockCorner3 D c qc)
      (rng 1 D.mz fun k => Pillow.interpolateBlockCorner D.toDims c (layer qc k)) :=
  Sep.doLoop fun mq _ _ => Sep.layers fun k h1 h2 => On.bind _ _ (slopes3_eq (has_inner h1 h2) ..) fun s =>
    On.doLoop fun ibc _ _ => On.doLoop fun jbc _ _ => wr3_on (has_inner h1 h2) _ _ _ _

/-! ### Interpolation in time -/

/-- Without the counter. -/
def cellq3 (D : Dims3) (qcurr qlast : Grid3 ℚ) (alpha : ℚ) (c : Cell3) (q : Grid3 ℚ) : Option (Grid3 ℚ) :=
  (rd3 D qlast c).bind fun l => (rd3 D qcurr c).bind fun r => wr3 D q c (l + alpha * (r - l))

def cellq (d : Dims) (qcurr qlast : Grid ℚ) (alpha : ℚ) (c : Cell) (q : Grid ℚ) : Option (Grid ℚ) :=
  (rd d qlast c).bind fun l => (rd d qcurr c).bind fun r => wr d q c (l + alpha * (r - l))

def around {σ : Type} (d : Dims) (f : ℤ → ℤ → σ → Option σ) (s : σ) : Option σ :=
  (doLoop 1 (d.my - d.mbc) (fun j => doLoop 1 d.mbc fun i => f i j) s).bind fun s =>
  (doLoop 1 d.mbc (fun j => doLoop (d.mbc + 1) d.mx fun i => f i j) s).bind fun s =>
  (doLoop (d.mbc + 1) d.my (fun j => doLoop (d.mx - d.mbc + 1) d.mx fun i => f i j) s).bind fun s =>
  doLoop (d.my - d.mbc + 1) d.my (fun j => doLoop 1 (d.mx - d.mbc) fun i => f i j) s

theorem around_rel {σ τ : Type} {R : σ → τ → Prop} (d : Dims) {f : ℤ → ℤ → σ → Option σ} {g : ℤ → ℤ → τ → Option τ}
    (h : ∀ i j s t, R s t → Layout.OptRel R (f i j s) (g i j t)) :
    ∀ s t, R s t → Layout.OptRel R (around d f s) (around d g t) := by
  intro s t hs
  refine Layout.OptRel.bind (Layout.doLoop_rel (fun j _ _ => Layout.doLoop_rel fun i _ _ => h i j) _ _ hs) fun s t hs => ?_
  refine Layout.OptRel.bind (Layout.doLoop_rel (fun j _ _ => Layout.doLoop_rel fun i _ _ => h i j) _ _ hs) fun s t hs => ?_
  refine Layout.OptRel.bind (Layout.doLoop_rel (fun j _ _ => Layout.doLoop_rel fun i _ _ => h i j) _ _ hs) fun s t hs => ?_
  exact Layout.doLoop_rel (fun j _ _ => Layout.doLoop_rel fun i _ _ => h i j) _ _ hs

theorem around_on {S T : Type} {L : Lens S T} {k : ℤ} (d : Dims) {F : ℤ → ℤ → S → Option S} {f : ℤ → ℤ → T → Option T}
    (h : ∀ i j, On L k (F i j) (f i j)) : On L k (around d F) (around d f) :=
  On.seq (On.doLoop fun j _ _ => On.doLoop fun i _ _ => h i j)
    (On.seq (On.doLoop fun j _ _ => On.doLoop fun i _ _ => h i j)
      (On.seq (On.doLoop fun j _ _ => On.doLoop fun i _ _ => h i j)
        (On.doLoop fun j _ _ => On.doLoop fun i _ _ => h i j)))

theorem optRel_map {σ τ ρ : Type} {p : σ → τ} {x : Option σ} {y : Option τ} (h : Layout.OptRel (fun s t => p s = t) x y)
    (f : σ → ρ) (g : τ → ρ) (e : ∀ s, f s = g (p s)) : x.map f = y.map g := by
  cases x <;> cases y
  · rfl
  · exact h.elim
  · exact h.elim
  · rename_i s t
    have h' : p s = t := h
    rw [Option.map_some, Option.map_some, e, h']

theorem timeinterp3_eq (D : Dims3) (psize : ℤ) (qcurr qlast : Grid3 ℚ) (alpha : ℚ) (q : Grid3 ℚ) :
    (timeinterp3 D psize qcurr qlast alpha q).map Prod.fst =
      doLoop 1 D.meqn (fun m => doLoop 1 D.mz fun k => around D.toDims fun i j => cellq3 D qcurr qlast alpha (i, j, k, m)) q := by
  have h : Layout.OptRel (fun (s : St3) t => s.q = t)
      (doLoop 1 (D.meqn : ℤ) (fun m => doLoop 1 (D.mz : ℤ) fun k => around D.toDims fun i j =>
        cell3 D qcurr qlast alpha (i, j, k, m)) ⟨q, 1⟩)
      (doLoop 1 (D.meqn : ℤ) (fun m => doLoop 1 (D.mz : ℤ) fun k => around D.toDims fun i j =>
        cellq3 D qcurr qlast alpha (i, j, k, m)) q) := by
    refine Layout.doLoop_rel (fun m _ _ => Layout.doLoop_rel fun k _ _ => around_rel _ fun i j s t hs => ?_) _ _ rfl
    subst hs
    refine Layout.OptRel.rbind _ fun l => Layout.OptRel.rbind _ fun r => ?_
    cases wr3 D s.q (i, j, k, m) (l + alpha * (r - l)) with
    | none => trivial
    | some x => rfl
  have e := optRel_map h (fun s => s.q) id fun _ => rfl
  rw [Option.map_id_fun, id] at e
  rw [← e]
  show Option.map Prod.fst ((doLoop 1 (D.meqn : ℤ) (fun m => doLoop 1 (D.mz : ℤ) fun k => around D.toDims fun i j =>
        cell3 D qcurr qlast alpha (i, j, k, m)) ⟨q, 1⟩).bind _) = _
  cases doLoop 1 (D.meqn : ℤ) (fun m => doLoop 1 (D.mz : ℤ) fun k => around D.toDims fun i j =>
        cell3 D qcurr qlast alpha (i, j, k, m)) ⟨q, 1⟩ <;> rfl

theorem timeinterp_eq (d : Dims) (psize : ℤ) (qcurr qlast : Grid ℚ) (alpha : ℚ) (q : Grid ℚ) :
    (TimeInterp.timeinterp d psize qcurr qlast alpha q).map Prod.fst =
      doLoop 1 d.meqn (fun m => around d fun i j => cellq d qcurr qlast alpha (i, j, m)) q := by
  have h : Layout.OptRel (fun (s : TimeInterp.St) t => s.q = t)
      (doLoop 1 (d.meqn : ℤ) (fun m => around d fun i j => TimeInterp.cell d qcurr qlast alpha (i, j, m)) ⟨q, 1⟩)
      (doLoop 1 (d.meqn : ℤ) (fun m => around d fun i j => cellq d qcurr qlast alpha (i, j, m)) q) := by
    refine Layout.doLoop_rel (fun m _ _ => around_rel _ fun i j s t hs => ?_) _ _ rfl
    subst hs
    refine Layout.OptRel.rbind _ fun l => Layout.OptRel.rbind _ fun r => ?_
    cases wr d s.q (i, j, m) (l + alpha * (r - l)) with
    | none => trivial
    | some x => rfl
  have e := optRel_map h (fun s => s.q) id fun _ => rfl
  rw [Option.map_id_fun, id] at e
  rw [← e]
  show Option.map Prod.fst ((doLoop 1 (d.meqn : ℤ) (fun m => around d fun i j =>
        TimeInterp.cell d qcurr qlast alpha (i, j, m)) ⟨q, 1⟩).bind _) = _
  cases doLoop 1 (d.meqn : ℤ) (fun m => around d fun i j => TimeInterp.cell d qcurr qlast alpha (i, j, m)) ⟨q, 1⟩ <;> rfl

theorem announced3_eq (D : Dims3) (hz : 1 ≤ D.mz) (w : Nat) :
    announced3 D w = (TimeInterp.announced D.toDims w).map fun n => n * (D.mz : ℤ) := by
  have hz' : (0 : ℤ) < D.mz := by omega
  unfold announced3 TimeInterp.announced
  dsimp only
  generalize ((D.mx : ℤ) - 2 * ((w / 2 + 1 : Nat) : ℤ)) * (D.my - 2 * ((w / 2 + 1 : Nat) : ℤ)) = h
  by_cases h0 : h < 0
  · rw [if_pos h0, if_pos (mul_neg_of_neg_of_pos h0 hz')]; rfl
  · rw [if_neg h0, if_neg (not_lt.2 (mul_nonneg (not_lt.1 h0) hz'.le))]
    have e : ((D.mx : ℤ) * D.my * D.mz - h * D.mz) * D.meqn = ((D.mx : ℤ) * D.my - h) * D.meqn * D.mz := by ring
    rw [e]
    by_cases h1 : 0 < ((D.mx : ℤ) * D.my - h) * D.meqn
    · rw [if_neg (not_not.2 (mul_pos h1 hz')), if_neg (not_not.2 h1)]; rfl
    · rw [if_pos h1, if_pos (not_lt.2 (mul_nonpos_of_nonpos_of_nonneg (not_lt.1 h1) hz'.le))]; rfl

theorem setupTimeinterp3_sep {D : Dims3} (hz : 1 ≤ D.mz) (w : Nat) (qcurr qlast : Grid3 ℚ) (alpha : ℚ) :
    Sep (gridL ℚ) (fun q => (setupTimeinterp3 D w qcurr qlast alpha q).map Prod.fst)
      (rng 1 D.mz fun k q =>
        (TimeInterp.setupTimeinterp D.toDims w (layer qcurr k) (layer qlast k) alpha q).map Prod.fst) := by
  have hs := Sep.bind (L := gridL ℚ) (lo := 1) (hi := (D.mz : ℤ)) (by omega) (TimeInterp.announced D.toDims w)
    (F := fun _ => doLoop 1 D.meqn fun m => doLoop 1 D.mz fun k => around D.toDims fun i j =>
      cellq3 D qcurr qlast alpha (i, j, k, m))
    (f := fun _ k => doLoop 1 D.meqn fun m => around D.toDims fun i j =>
      cellq D.toDims (layer qcurr k) (layer qlast k) alpha (i, j, m))
    fun _ => Sep.doLoop fun m _ _ => Sep.layers fun k h1 h2 => around_on _ fun i j =>
      On.bind _ _ (rd3_eq (has_inner h1 h2) ..) fun l => On.bind _ _ (rd3_eq (has_inner h1 h2) ..) fun r =>
        wr3_on (has_inner h1 h2) _ _ _ _
  have e3 : ∀ q, (setupTimeinterp3 D w qcurr qlast alpha q).map Prod.fst = (TimeInterp.announced D.toDims w).bind fun _ =>
      doLoop 1 D.meqn (fun m => doLoop 1 D.mz fun k => around D.toDims fun i j => cellq3 D qcurr qlast alpha (i, j, k, m)) q := by
    intro q
    unfold setupTimeinterp3
    rw [announced3_eq D hz]
    cases TimeInterp.announced D.toDims w with
    | none => rfl
    | some n => exact timeinterp3_eq ..
  refine Sep.rcongr (Sep.congr hs (fun q => ?_) fun _ _ => rfl) fun k q _ _ => ?_
  · exact (e3 q).symm
  · unfold TimeInterp.setupTimeinterp
    cases TimeInterp.announced D.toDims w with
    | none => rfl
    | some n => exact (timeinterp_eq ..).symm

end Fclaw.Extrude
