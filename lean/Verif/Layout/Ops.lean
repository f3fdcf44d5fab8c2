import Verif.Layout.Sim
import Verif.Layout.Spec
/-
The operations that move solutions between patches do the same in both layouts.
-/
set_option autoImplicit false
set_option linter.unusedSimpArgs false
namespace Fclaw.Layout

open Fort Transform CopyGhost Transfer CoarseFine

/-- `m` holds `q`; outside of the array it is `m0`. -/
def SimQ {α : Type} (d : Dims) (m0 : Mem α) (m : Mem α) (q : Grid α) : Prop :=
  Holds d m q ∧ ∀ x, ¬ (0 ≤ x ∧ x < size d) → m x = m0 x

theorem SimQ.start {α : Type} {d : Dims} {m : Mem α} {q : Grid α} (h : Holds d m q) : SimQ d m m q :=
  ⟨h, fun _ _ => rfl⟩

theorem rd5_eq {α : Type} {d : Dims} {m : Mem α} {q : Grid α} (h : Holds d m q) (mq i j : ℤ) :
    rd5 d m mq i j = rd d q (i, j, mq) := by
  unfold rd5 rd
  by_cases hb : inBox d (i, j, mq) = true
  · rw [if_pos hb, if_pos hb, h _ hb]
  · rw [if_neg hb, if_neg hb]

theorem wr_rel {α : Type} {d : Dims} {m0 m : Mem α} {q : Grid α} (h : SimQ d m0 m q) (mq i j : ℤ) (v : α) :
    OptRel (SimQ d m0) (wr5 d m mq i j v) (wr d q (i, j, mq) v) := by
  unfold wr5 wr
  by_cases hb : inBox d (i, j, mq) = true
  · rw [if_pos hb, if_pos hb]
    refine ⟨fun c hc => ?_, fun x hx => ?_⟩
    · by_cases e : c = (i, j, mq)
      · subst e
        show (if pos5 d (i, j, mq) = pos5 d (i, j, mq) then v else _) = if (i, j, mq) = (i, j, mq) then v else _
        rw [if_pos rfl, if_pos rfl]
      · have e' : pos5 d c ≠ pos5 d (i, j, mq) := fun he => e (pos5_inj hc hb he)
        show (if pos5 d c = pos5 d (i, j, mq) then v else m (pos5 d c)) = if c = (i, j, mq) then v else q c
        rw [if_neg e, if_neg e', h.1 c hc]
    · have e' : x ≠ pos5 d (i, j, mq) := fun he => hx (he ▸ pos5_range hb)
      show (if x = pos5 d (i, j, mq) then v else m x) = m0 x
      rw [if_neg e', h.2 x hx]
  · rw [if_neg hb, if_neg hb]
    trivial

/-! ### Copies -/

theorem comm_copyCell {α : Type} (d : Dims) (A : Affine) (qn : Grid α) (mq j i mq' j' i' : ℤ)
    (h : (i, j, mq) ≠ (i', j', mq')) : Comm (copyCell d A qn mq j i) (copyCell d A qn mq' j' i') :=
  comm_bind (f := fun v q => wr d q (i, j, mq) v) (g := fun v q => wr d q (i', j', mq') v)
    fun r r' => comm_wr d _ _ r r' h

/-- The loop over the components may be the innermost one. -/
theorem copy_order {α : Type} (d : Dims) (A : Affine) (qn : Grid α) (n jl jh il ih : ℤ) :
    doLoop 1 n (fun mq => doLoop jl jh fun j => doLoop il ih fun i => copyCell d A qn mq j i) =
    doLoop jl jh (fun j => doLoop il ih fun i => doLoop 1 n fun mq => copyCell d A qn mq j i) := by
  rw [doLoop_swap (fun mq j => doLoop il ih fun i => copyCell d A qn mq j i) ?_]
  · congr 1
    funext j
    refine doLoop_swap (fun mq i => copyCell d A qn mq j i) ?_
    intro a a' b b' _ _ _ _ _ _ _ _ hab _
    exact comm_copyCell d A qn _ _ _ _ _ _ (by simp only [ne_eq, Prod.mk.injEq, not_and]; intros; exact hab)
  · intro a a' b b' _ _ _ _ _ _ _ _ hab _
    refine Comm.doLoop fun i _ _ => Comm.symm (Comm.doLoop fun i' _ _ => Comm.symm ?_)
    exact comm_copyCell d A qn _ _ _ _ _ _ (by simp only [ne_eq, Prod.mk.injEq, not_and]; intros; exact hab)

theorem copyFace_rel {α : Type} {d : Dims} (td : TData) (iface : Nat) {mn m : Mem α} {qn q : Grid α}
    (hn : Holds d mn qn) (h : Holds d m q) :
    OptRel (SimQ d m) (copyFace5 d td iface mn m) (copyFace d td iface qn q) := by
  unfold copyFace5 copyFace
  refine OptRel.rbind _ fun A => ?_
  have key : ∀ jl jh il ih : ℤ, OptRel (SimQ d m)
      (doLoop jl jh (fun j => doLoop il ih fun i => doLoop 1 d.meqn fun mq => copyCell5 d A mn j i mq) m)
      (doLoop 1 d.meqn (fun mq => doLoop jl jh fun j => doLoop il ih fun i => copyCell d A qn mq j i) q) := by
    intro jl jh il ih
    rw [copy_order]
    refine doLoop_rel (fun j _ _ => doLoop_rel fun i _ _ => doLoop_rel fun mq _ _ => ?_) _ _ (SimQ.start h)
    intro s t hs
    unfold copyCell5 copyCell
    dsimp only
    rw [rd5_eq hn]
    exact OptRel.rbind _ fun v => wr_rel hs ..
  dsimp only
  by_cases h0 : iface = 0
  · rw [if_pos h0, if_pos h0]; exact key ..
  rw [if_neg h0, if_neg h0]
  by_cases h1 : iface = 1
  · rw [if_pos h1, if_pos h1]; exact key ..
  rw [if_neg h1, if_neg h1]
  by_cases h2 : iface = 2
  · rw [if_pos h2, if_pos h2]; exact key ..
  rw [if_neg h2, if_neg h2]
  by_cases h3 : iface = 3
  · rw [if_pos h3, if_pos h3]; exact key ..
  rw [if_neg h3, if_neg h3]
  exact SimQ.start h

theorem copyCorner_rel {α : Type} {d : Dims} (td : TData) (icorner : Nat) {mn m : Mem α} {qn q : Grid α}
    (hn : Holds d mn qn) (h : Holds d m q) :
    OptRel (SimQ d m) (copyCorner5 d td icorner mn m) (copyCorner d td icorner qn q) := by
  unfold copyCorner5 copyCorner
  refine doLoop_rel (fun mq _ _ => doLoop_rel fun ibc _ _ => doLoop_rel fun jbc _ _ => ?_) _ _ (SimQ.start h)
  intro s t hs
  dsimp only
  refine OptRel.rbind _ fun c2 => ?_
  rw [rd5_eq hn]
  exact OptRel.rbind _ fun v => wr_rel hs ..

/-! ### Averaging -/

theorem averageCell_eq {d : Dims} (area : Area) (mf : Bool) {mn : Mem ℚ} {qn : Grid ℚ} (hn : Holds d mn qn)
    (c2 : ℤ → ℤ × ℤ) (mq : ℤ) : averageCell5 d area mf mn c2 mq = CoarseFine.averageCell d area mf qn c2 mq := by
  simp only [averageCell5, CoarseFine.averageCell, rd5_eq hn]

theorem averageBody_rel {d : Dims} (td : TData) (area : Area) (mf : Bool) {mn : Mem ℚ} {qn : Grid ℚ}
    (hn : Holds d mn qn) (mq ic jc : ℤ) {m0 m : Mem ℚ} {q : Grid ℚ} (h : SimQ d m0 m q) :
    OptRel (SimQ d m0) (averageFaceBody5 d td area mf mn mq ic jc m) (averageFaceBody d td area mf qn mq ic jc q) := by
  unfold averageFaceBody5 averageFaceBody
  refine OptRel.rbind _ fun c2 => ?_
  split
  · rw [averageCell_eq area mf hn]
    exact OptRel.rbind _ fun v => wr_rel h ..
  · exact h

theorem averageFace_rel {d : Dims} (td : TData) (iface : Nat) (area : Area) (mf : Bool) {mn m : Mem ℚ}
    {qn q : Grid ℚ} (hn : Holds d mn qn) (h : Holds d m q) :
    OptRel (SimQ d m) (averageFace5 d td iface area mf mn m) (averageFace d td iface area mf qn q) := by
  unfold averageFace5 averageFace
  by_cases hf : iface / 2 = 0
  · rw [if_pos hf, if_pos hf]
    refine doLoop_rel (fun mq _ _ => doLoop_rel fun jc _ _ => doLoop_rel fun ibc _ _ => ?_) _ _ (SimQ.start h)
    intro s t hs
    exact averageBody_rel td area mf hn _ _ _ hs
  · rw [if_neg hf, if_neg hf]
    refine doLoop_rel (fun mq _ _ => doLoop_rel fun jbc _ _ => doLoop_rel fun ic _ _ => ?_) _ _ (SimQ.start h)
    intro s t hs
    exact averageBody_rel td area mf hn _ _ _ hs

theorem averageCorner_rel {d : Dims} (td : TData) (k : Nat) (area : Area) (mf : Bool) {mn m : Mem ℚ}
    {qn q : Grid ℚ} (hn : Holds d mn qn) (h : Holds d m q) :
    OptRel (SimQ d m) (averageCorner5 d td k area mf mn m) (averageCorner d td k area mf qn q) := by
  unfold averageCorner5 averageCorner
  refine doLoop_rel (fun ibc _ _ => doLoop_rel fun jbc _ _ s t hs => ?_) _ _ (SimQ.start h)
  dsimp only
  refine OptRel.rbind _ fun c2 => ?_
  refine doLoop_rel (fun mq _ _ s t hs => ?_) _ _ hs
  rw [averageCell_eq area mf hn]
  exact OptRel.rbind _ fun v => wr_rel hs ..

theorem averageChild_eq {d : Dims} (ac af : Area) (mf : ℤ) {mn : Mem ℚ} {qn : Grid ℚ} (hn : Holds d mn qn)
    (i1 j1 i j mq : ℤ) :
    averageChild5 d mn ac af mf i1 j1 i j mq = Transfer.averageCell d qn ac af mf i1 j1 i j mq := by
  simp only [averageChild5, Transfer.averageCell, rd5_eq hn]

theorem average2coarse_rel {d : Dims} (ac af : Area) (igrid mf : ℤ) {mn : Mem ℚ} {qn : Grid ℚ}
    (hn : Holds d mn qn) {m0 m : Mem ℚ} {q : Grid ℚ} (h : SimQ d m0 m q) :
    OptRel (SimQ d m0) (average2coarse5 d ac af igrid mf mn m) (average2coarse d ac af igrid mf qn q) := by
  unfold average2coarse5 average2coarse
  refine doLoop_rel (fun mq _ _ => doLoop_rel fun j _ _ => doLoop_rel fun i _ _ s t hs => ?_) _ _ h
  rw [averageChild_eq ac af mf hn]
  exact OptRel.rbind _ fun v => wr_rel hs ..

theorem coarsen_rel {d : Dims} (ac : Area) (af : ℤ → Area) (mf : ℤ) {mn : ℤ → Mem ℚ} {qn : ℤ → Grid ℚ}
    (hn : ∀ g, Holds d (mn g) (qn g)) {m : Mem ℚ} {q : Grid ℚ} (h : Holds d m q) :
    OptRel (SimQ d m) (coarsen5 d ac af mf mn m) (coarsen d ac af mf qn q) :=
  doLoop_rel (fun g _ _ _ _ hs => average2coarse_rel ac (af g) g mf (hn g) hs) _ _ (SimQ.start h)

/-! ### Interpolation -/

theorem slopes_eq {d : Dims} {mn : Mem ℚ} {qn : Grid ℚ} (hn : Holds d mn qn) (ic jc mq : ℤ) :
    slopes5 d mn ic jc mq = slopes d qn ic jc mq := by
  simp only [slopes5, slopes, rd5_eq hn]

theorem spreadCell_rel {d : Dims} (A : CoarseFine.Matrix) (c2 : ℤ → ℤ × ℤ) (mq : ℤ) (s : ℚ × ℚ × ℚ) {m0 m : Mem ℚ}
    {q : Grid ℚ} (h : SimQ d m0 m q) :
    OptRel (SimQ d m0) (spreadCell5 d A c2 mq s m) (spreadCell d A c2 mq s q) :=
  doLoop_rel (fun _ _ _ _ _ hs => wr_rel hs ..) _ _ h

theorem interpBody_rel {d : Dims} (td : TData) (A : CoarseFine.Matrix) {mn : Mem ℚ} {qn : Grid ℚ}
    (hn : Holds d mn qn) (mq ic jc : ℤ) {m0 m : Mem ℚ} {q : Grid ℚ} (h : SimQ d m0 m q) :
    OptRel (SimQ d m0) (interpFaceBody5 d td A mn mq ic jc m) (interpFaceBody d td A qn mq ic jc q) := by
  unfold interpFaceBody5 interpFaceBody
  refine OptRel.rbind _ fun c2 => ?_
  split
  · rw [slopes_eq hn]
    exact OptRel.rbind _ fun v => spreadCell_rel A c2 mq v h
  · exact h

/-- A loop with one pass. -/
theorem doLoop_one {σ : Type} (f : ℤ → σ → Option σ) (s : σ) : doLoop 1 1 f s = f 1 s := by
  show (f 1 s).bind some = f 1 s
  cases f 1 s <;> rfl

theorem half_mbc {d : Dims} (hb : d.mbc / 2 = 1) : (d.mbc : ℤ) / 2 = 1 := by omega

theorem interpFace_rel {d : Dims} (hb : d.mbc / 2 = 1) (td : TData) (iface : Nat) {mn m : Mem ℚ}
    {qn q : Grid ℚ} (hn : Holds d mn qn) (h : Holds d m q) :
    OptRel (SimQ d m) (interpolateFace5 d td iface mn m) (interpolateFace d td iface qn q) := by
  unfold interpolateFace5 interpolateFace
  refine OptRel.rbind _ fun A => ?_
  rw [half_mbc hb]
  by_cases hf : iface / 2 = 0
  · simp only [if_pos hf]
    refine doLoop_rel (fun mq _ _ s t hs => ?_) _ _ (SimQ.start h)
    rw [doLoop_one]
    refine doLoop_rel (fun jc _ _ s t hs => ?_) _ _ hs
    have e : (if iface = 0 then (1 : ℤ) else d.mx - 1 + 1) = if iface = 0 then (1 : ℤ) else d.mx := by split <;> omega
    rw [e]
    exact interpBody_rel td A hn _ _ _ hs
  · simp only [if_neg hf]
    refine doLoop_rel (fun mq _ _ s t hs => ?_) _ _ (SimQ.start h)
    rw [doLoop_one]
    refine doLoop_rel (fun jc _ _ s t hs => ?_) _ _ hs
    have e : (if iface = 2 then (1 : ℤ) else d.my - 1 + 1) = if iface = 2 then (1 : ℤ) else d.my := by split <;> omega
    rw [e]
    exact interpBody_rel td A hn _ _ _ hs

theorem innerCell_one (d : Dims) (k : Nat) : innerCell d k 1 1 = innerCell5 d k := by
  unfold innerCell innerCell5
  repeat' split
  all_goals simp only [Prod.mk.injEq, true_and, and_true]
  all_goals omega

theorem interpCorner_rel {d : Dims} (hb : d.mbc / 2 = 1) (td : TData) (k : Nat) {mn m : Mem ℚ}
    {qn q : Grid ℚ} (hn : Holds d mn qn) (h : Holds d m q) :
    OptRel (SimQ d m) (interpolateCorner5 d td k mn m) (interpolateCorner d td k qn q) := by
  unfold interpolateCorner5 interpolateCorner
  refine OptRel.rbind _ fun A => ?_
  rw [half_mbc hb, doLoop_one, doLoop_one]
  dsimp only
  rw [innerCell_one]
  refine OptRel.rbind _ fun c2 => ?_
  refine doLoop_rel (fun mq _ _ s t hs => ?_) _ _ (SimQ.start h)
  rw [slopes_eq hn]
  exact OptRel.rbind _ fun v => spreadCell_rel A c2 mq v hs

/-- The body of the loops of `interpolate2fine`. -/
def fillFour (d : Dims) (qc : Grid ℚ) (ic jc mq j i : ℤ) (q : Grid ℚ) : Option (Grid ℚ) :=
  (slopes d qc ic jc mq).bind fun s =>
    doLoop 1 2 (fun ii => doLoop 1 2 fun jj => fun q =>
      wr d q ((i - 1) * 2 + ii, (j - 1) * 2 + jj, mq) (s.1 + shift ii * s.2.1 + shift jj * s.2.2)) q

theorem comm_fillFour (d : Dims) (qc : Grid ℚ) (ic jc ic' jc' mq j i j' i' : ℤ) (h : i ≠ i') :
    Comm (fillFour d qc ic jc mq j i) (fillFour d qc ic' jc' mq j' i') := by
  refine comm_bind (f := fun (s : ℚ × ℚ × ℚ) q => doLoop 1 2 (fun ii => doLoop 1 2 fun jj => fun q =>
      wr d q ((i - 1) * 2 + ii, (j - 1) * 2 + jj, mq) (s.1 + shift ii * s.2.1 + shift jj * s.2.2)) q)
    (g := fun (s : ℚ × ℚ × ℚ) q => doLoop 1 2 (fun ii => doLoop 1 2 fun jj => fun q =>
      wr d q ((i' - 1) * 2 + ii, (j' - 1) * 2 + jj, mq) (s.1 + shift ii * s.2.1 + shift jj * s.2.2)) q)
    fun r r' => ?_
  refine Comm.doLoop fun ii h1 h2 => Comm.doLoop fun jj _ _ => Comm.symm ?_
  refine Comm.doLoop fun ii' h3 h4 => Comm.doLoop fun jj' _ _ => ?_
  refine comm_wr d _ _ _ _ ?_
  simp only [ne_eq, Prod.mk.injEq, not_and]
  intro e
  omega

theorem interpolate_rel {d : Dims} (igrid : ℤ) {mn m : Mem ℚ} {qn q : Grid ℚ} (hn : Holds d mn qn) {m0 : Mem ℚ}
    (h : SimQ d m0 m q) : OptRel (SimQ d m0) (interpolate5 d igrid mn m) (interpolate d igrid qn q) := by
  unfold interpolate5 interpolate
  dsimp only
  refine doLoop_rel (fun mq _ _ s t hs => ?_) _ _ h
  have e := doLoop_swap (lo := 1 - (igrid - igrid % 2) / 2) (hi := (d.my : ℤ) / 2 + (1 - (igrid - igrid % 2) / 2))
    (lo' := 1 - igrid % 2) (hi' := (d.mx : ℤ) / 2 + (1 - igrid % 2))
    (fun j i => fillFour d qn (i + igrid % 2 * d.mx / 2) (j + (igrid - igrid % 2) / 2 * d.my / 2) mq j i)
    (fun a a' b b' _ _ _ _ _ _ _ _ _ hb => comm_fillFour d qn _ _ _ _ mq _ _ _ _ hb)
  unfold fillFour at e
  rw [e]
  refine doLoop_rel (fun i _ _ => doLoop_rel fun j _ _ s t hs => ?_) _ _ hs
  rw [slopes_eq hn]
  refine OptRel.rbind _ fun v => ?_
  exact doLoop_rel (fun _ _ _ => doLoop_rel fun _ _ _ _ _ hs => wr_rel hs ..) _ _ hs

theorem fineSum_eq {d : Dims} (af : Area) {mn : Mem ℚ} {qn : Grid ℚ} (hn : Holds d mn qn) (i j m : ℤ) :
    fineSum5 d af i j m mn = fineSum d af i j m qn := by
  simp only [fineSum5, fineSum, rd5_eq hn]

theorem spread_rel {d : Dims} (af : Area) (i j mq : ℤ) (x : ℚ) {m0 m : Mem ℚ} {q : Grid ℚ} (h : SimQ d m0 m q) :
    OptRel (SimQ d m0) (spread5 d af i j mq x m) (spread d af i j mq x q) := by
  unfold spread5 spread
  refine doLoop_rel (fun ii _ _ => doLoop_rel fun jj _ _ s t hs => ?_) _ _ h
  refine OptRel.rbind _ fun kf => ?_
  rw [rd5_eq hs.1]
  exact OptRel.rbind _ fun qf => OptRel.rbind _ fun c => wr_rel hs ..

theorem fixcapaq_rel {d : Dims} (ac af : Area) (igrid : ℤ) {mn m : Mem ℚ} {qn q : Grid ℚ} (hn : Holds d mn qn)
    {m0 : Mem ℚ} (h : SimQ d m0 m q) :
    OptRel (SimQ d m0) (fixcapaq5 d ac af igrid mn m) (fixcapaq2 d ac af igrid qn q) := by
  unfold fixcapaq5 fixcapaq2
  dsimp only
  refine doLoop_rel (fun mq _ _ => doLoop_rel fun i _ _ => doLoop_rel fun j _ _ s t hs => ?_) _ _ h
  rw [fineSum_eq af hs.1, rd5_eq hn]
  exact OptRel.rbind _ fun sum => OptRel.rbind _ fun kc => OptRel.rbind _ fun qc => spread_rel af _ _ _ _ hs

theorem interpolate2fine_rel {d : Dims} (ac af : Area) (igrid mf : ℤ) {mn m : Mem ℚ} {qn q : Grid ℚ}
    (hn : Holds d mn qn) {m0 : Mem ℚ} (h : SimQ d m0 m q) :
    OptRel (SimQ d m0) (interpolate2fine5 d ac af igrid mf mn m) (interpolate2fine d ac af igrid mf qn q) := by
  unfold interpolate2fine5 interpolate2fine
  refine (interpolate_rel igrid hn h).bind fun s t hs => ?_
  split
  · exact fixcapaq_rel ac af igrid hn hs
  · exact hs

theorem refine_rel {d : Dims} (ac : Area) (af : ℤ → Area) (mf : ℤ) {mn : Mem ℚ} {qn : Grid ℚ}
    (hn : Holds d mn qn) {m : ℤ → Mem ℚ} {q : ℤ → Grid ℚ} (h : ∀ g, Holds d (m g) (q g)) :
    OptRel (fun (m' : ℤ → Mem ℚ) (q' : ℤ → Grid ℚ) => ∀ g : ℤ, SimQ d (m g) (m' g) (q' g)) (refine5 d ac af mf mn m) (refine d ac af mf qn q) := by
  unfold refine5 refine
  refine doLoop_rel (R := fun (m' : ℤ → Mem ℚ) (q' : ℤ → Grid ℚ) => ∀ g : ℤ, SimQ d (m g) (m' g) (q' g)) (fun g _ _ s t hs => ?_) _ _
    fun g => SimQ.start (h g)
  refine OptRel.map (interpolate2fine_rel ac (af g) g mf hn (hs g)) fun s' t' hs' g' => ?_
  by_cases e : g' = g
  · subst e; simpa using hs'
  · simpa [e] using hs g'

/-! ### Interpolation in time -/

theorem timeinterp_rel {d : Dims} (hb : d.mbc = 2) (psize : ℤ) (alpha : ℚ) {mc ml m : Mem ℚ} {qc ql q : Grid ℚ}
    (hc : Holds d mc qc) (hl : Holds d ml ql) (h : Holds d m q) :
    OptRel (fun (s : Mem ℚ × ℤ) (t : Grid ℚ × ℤ) => SimQ d m s.1 t.1 ∧ s.2 = t.2)
      (timeinterp5 d psize mc ml alpha m) (TimeInterp.timeinterp d psize qc ql alpha q) := by
  unfold timeinterp5 TimeInterp.timeinterp
  let R : TimeSt → TimeInterp.St → Prop := fun s t => SimQ d m s.q t.q ∧ s.k = t.k
  have cell : ∀ (mq i j : ℤ) s t, R s t →
      OptRel R (timeCell5 d mc ml alpha mq i j s) (TimeInterp.cell d qc ql alpha (i, j, mq) t) := by
    intro mq i j s t hs
    unfold timeCell5 TimeInterp.cell
    rw [rd5_eq hl, rd5_eq hc]
    refine OptRel.rbind _ fun l => OptRel.rbind _ fun r => ?_
    refine (wr_rel hs.1 mq i j _).bind fun s' t' hs' => ?_
    exact ⟨hs', by rw [hs.2]⟩
  have e : (d.mbc : ℤ) = 2 := by omega
  simp only [e, Int.sub_zero, Int.add_zero]
  refine OptRel.bind (R := R) ?_ fun s t hs => ⟨hs.1, by dsimp only; rw [hs.2]⟩
  refine doLoop_rel (fun mq _ _ s t hs => ?_) _ _ ⟨SimQ.start h, rfl⟩
  refine OptRel.bind (R := R) (doLoop_rel (fun j _ _ => doLoop_rel fun i _ _ => cell mq i j) _ _ hs) fun s t hs => ?_
  refine OptRel.bind (R := R) (doLoop_rel (fun j _ _ => doLoop_rel fun i _ _ => cell mq i j) _ _ hs) fun s t hs => ?_
  refine OptRel.bind (R := R) (doLoop_rel (fun j _ _ => doLoop_rel fun i _ _ => cell mq i j) _ _ hs) fun s t hs => ?_
  exact doLoop_rel (fun j _ _ => doLoop_rel fun i _ _ => cell mq i j) _ _ hs

end Fclaw.Layout
