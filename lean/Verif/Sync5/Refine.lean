import Verif.Sync5.Lemmas
import Verif.Conserve.Props
/-
A step, the corrections and a synchronisation do the same with both solvers; histories.
-/
set_option autoImplicit false
set_option linter.unusedSimpArgs false
set_option linter.unusedVariables false
namespace Fclaw.Sync5

open Fort CopyGhost Correction GhostFill TimeSync Conserve Layout

variable {d : Dims}

theorem SameRegs.refl (r : Regs) : SameRegs d r r := ⟨rfl, rfl, fun _ _ => rfl⟩

/-! ### A step -/

theorem store_same (hb : 1 ≤ d.mbc) (maux : Nat) (q aux : Read) (gq ga : Grid ℚ) (hq : Reads d q gq)
    (ha : Reads (auxDims d maux) aux ga) (junk : ℤ → ℚ) (rpn : Rpn) (hl : LocalRpn d maux rpn) (dt : ℚ) (r r' : Regs)
    (h : SameRegs d r r') : ∃ r5, storeFluxLoops d maux q aux junk rpn dt r = some r5 ∧
      SameRegs d r5 (storeFlux d rpn dt gq ga r') ∧ ∀ x, ¬ Exists d x → value r5 x = value r x := by
  obtain ⟨r5, e, k, a, b⟩ := storeFluxLoops_adds hb maux q aux gq ga hq ha junk rpn hl dt r.area r.el r rfl
  have k' : r5.area = r.area ∧ r5.el = r.el := by injection k with k1 k2; exact ⟨k1, k2⟩
  refine ⟨r5, e, ⟨k'.1.trans h.area, k'.2.trans h.el, ?_⟩, fun x hx => b x fun hx' => hx hx'.1⟩
  intro x hx
  rw [value_storeFlux rpn dt gq ga r' x hx, ← h.el, ← h.value x hx]
  by_cases hs : ∃ f t m k, x = Addr.ef f t m k
  · exact a x ⟨hx, hs⟩
  · rw [b x fun hx' => hs hx'.2]
    cases x with
    | ef f t m k => exact absurd ⟨f, t, m, k, rfl⟩ hs
    | _ => simp [fluxPart]

theorem accumulate_same (hb : 1 ≤ d.mbc) (dx dy dt : ℚ) (fp fm gp gm : Read) (w : Waves) (h1 : Reads d fp w.fp) (h2 : Reads d fm w.fm)
    (h3 : Reads d gp w.gp) (h4 : Reads d gm w.gm) (r r' : Regs) (h : SameRegs d r r') :
    ∃ r5, accumulateLoops d dx dy dt fp fm gp gm r = some r5 ∧ SameRegs d r5 (accumulateWaves d dx dy dt w r') ∧
      ∀ x, ¬ Exists d x → value r5 x = value r x := by
  obtain ⟨r5, e, k, a, b⟩ := accumulate_adds hb dx dy dt fp fm gp gm w h1 h2 h3 h4 (fixed r) r rfl
  have k' : r5.area = r.area ∧ r5.el = r.el := by
    have k1 := congrArg Prod.fst k
    have k2 := congrArg Prod.snd k
    exact ⟨k1, k2⟩
  refine ⟨r5, e, ⟨k'.1.trans h.area, k'.2.trans h.el, ?_⟩, fun x hx => b x fun hx' => hx hx'.1⟩
  intro x hx
  rw [value_accumulate dx dy dt w r' x, ← h.value x hx]
  by_cases hs : ∃ f t m k, x = Addr.ef f t m k
  · rw [b x fun hx' => hx'.2 hs]
    obtain ⟨f, t, m, k, rfl⟩ := hs
    simp [wavePart]
  · exact a x ⟨hx, hs⟩

theorem update_same (hb : 1 ≤ d.mbc) (maux mcapa : Nat) (dx dy dt : ℚ) (hx : dx ≠ 0) (hy : dy ≠ 0) (aux : Mem ℚ) (ga : Grid ℚ)
    (ha : Holds (auxDims d maux) aux ga) (w : Waves5) (gw : Waves) (hw : HoldsWaves d w gw) (capa : ℤ → ℤ → ℚ)
    (hc : CapaIs d maux mcapa ga capa) (q : Mem ℚ) (gq : Grid ℚ) (hq : Holds d q gq) :
    ∃ q5, updateQ5 d maux mcapa dx dy dt aux w q = some q5 ∧ Holds d q5 (updateQ d dx dy dt capa gw gq) ∧
      ∀ p, ¬ (0 ≤ p ∧ p < size d) → q5 p = q p := by
  obtain ⟨q5, e, k, a, b⟩ := updateQ5_adds hb maux mcapa dx dy dt hx hy aux ga ha w gw hw capa hc (outside d q) q rfl
  refine ⟨q5, e, ?_, ?_⟩
  · rintro ⟨i, j, m⟩ hbx
    have hm : comp d m := by rw [inBox_iff] at hbx; exact hbx.2.2
    have e1 : elem d q5 (i, j, m) = q5 (pos5 d (i, j, m)) := by unfold elem; rw [if_pos hbx]
    have e2 : elem d q (i, j, m) = gq (i, j, m) := by unfold elem; rw [if_pos hbx, hq _ hbx]
    rw [← e1]
    show _ = if 1 ≤ i ∧ i ≤ d.mx ∧ 1 ≤ j ∧ j ≤ d.my then _ else _
    by_cases hi : 1 ≤ i ∧ i ≤ d.mx ∧ 1 ≤ j ∧ j ≤ d.my
    · rw [if_pos hi, a (i, j, m) ⟨hi, hm⟩, e2]
      simp only [qPart]
      ring
    · rw [if_neg hi, b (i, j, m) fun h => hi h.1, e2]
  · intro p hp
    have := congrFun k p
    unfold outside at this
    rw [if_neg hp, if_neg hp] at this
    exact this

/-! ### Corrections -/

theorem add5_rel {m0 m : Mem ℚ} {q : Grid ℚ} (h : SimQ d m0 m q) (c : Cell) (v : ℚ) :
    OptRel (SimQ d m0) (add5 d m c v) (add d q c v) := by
  obtain ⟨i, j, mq⟩ := c
  unfold add5 add
  rw [rd5_eq h.1]
  exact OptRel.rbind _ fun x => wr_rel h mq i j _

theorem peek5_eq (td : TData) (dummy : Grid ℚ) (sc i j i' j' mq : ℤ) :
    peek5 d td dummy sc i j i' j' mq = peek d td dummy sc i j i' j' mq := rfl

theorem get_same (n : Nat) (a b : ℤ → ℤ → ℚ) (h : ∀ t m : ℤ, (1 ≤ t ∧ t ≤ n) → comp d m → a t m = b t m) :
    Correction.get n d.meqn a = Correction.get n d.meqn b := by
  funext t m
  unfold Correction.get
  split
  · rename_i hh
    rw [h t m ⟨hh.1, hh.2.1⟩ ⟨hh.2.2.1, hh.2.2.2⟩]
  · rfl

section
variable {r r' : Regs} (h : SameRegs d r r')
include h

theorem get_fp (s : Nat) (hs : s < 2) : get d.my d.meqn (r.fp s) = get d.my d.meqn (r'.fp s) :=
  get_same _ _ _ fun t m ht hm => h.value (.fp s t m) ⟨hs, ht, hm⟩
theorem get_fm (s : Nat) (hs : s < 2) : get d.my d.meqn (r.fm s) = get d.my d.meqn (r'.fm s) :=
  get_same _ _ _ fun t m ht hm => h.value (.fm s t m) ⟨hs, ht, hm⟩
theorem get_gp (s : Nat) (hs : s < 2) : get d.mx d.meqn (r.gp s) = get d.mx d.meqn (r'.gp s) :=
  get_same _ _ _ fun t m ht hm => h.value (.gp s t m) ⟨hs, ht, hm⟩
theorem get_gm (s : Nat) (hs : s < 2) : get d.mx d.meqn (r.gm s) = get d.mx d.meqn (r'.gm s) :=
  get_same _ _ _ fun t m ht hm => h.value (.gm s t m) ⟨hs, ht, hm⟩
theorem get_efy (f : Nat) (hf : f < 2) (k : ℤ) (hk : k = 0 ∨ k = 1) :
    get d.my d.meqn (fun t m => r.ef f t m k) = get d.my d.meqn (fun t m => r'.ef f t m k) :=
  get_same _ _ _ fun t m ht hm => h.value (.ef f t m k)
    ⟨by omega, by have : len d f = d.my := by unfold len; rw [if_pos (by omega)]
                  rw [this]; exact ht, hm, hk⟩
theorem get_efx (f : Nat) (hf : 2 ≤ f ∧ f < 4) (k : ℤ) (hk : k = 0 ∨ k = 1) :
    get d.mx d.meqn (fun t m => r.ef f t m k) = get d.mx d.meqn (fun t m => r'.ef f t m k) :=
  get_same _ _ _ fun t m ht hm => h.value (.ef f t m k)
    ⟨by omega, by have : len d f = d.mx := by unfold len; rw [if_neg (by omega)]
                  rw [this]; exact ht, hm, hk⟩

theorem fillDummy_same (z : Grid ℚ) : fillDummy d r z = fillDummy d r' z := by
  unfold fillDummy
  simp only [get_fm h 0 (by decide), get_fp h 1 (by decide), get_gm h 0 (by decide), get_gp h 1 (by decide),
    get_efy h 0 (by decide) 1 (by decide), get_efy h 1 (by decide) 1 (by decide), get_efx h 2 (by decide) 1 (by decide),
    get_efx h 3 (by decide) 1 (by decide)]

theorem fillSame_same (z : Grid ℚ) : fillSame d r z = fillSame d r' z := by
  unfold fillSame
  simp only [get_fm h 0 (by decide), get_fp h 1 (by decide), get_gm h 0 (by decide), get_gp h 1 (by decide),
    get_efy h 0 (by decide) 1 (by decide), get_efy h 1 (by decide) 1 (by decide), get_efx h 2 (by decide) 1 (by decide),
    get_efx h 3 (by decide) 1 (by decide)]

end

theorem opt_ite {σ τ : Type} {R : σ → τ → Prop} {c : Prop} [Decidable c] {x y : Option σ} {x' y' : Option τ}
    (h : c → OptRel R x x') (h' : ¬ c → OptRel R y y') : OptRel R (if c then x else y) (if c then x' else y') := by
  by_cases hc : c
  · rw [if_pos hc, if_pos hc]; exact h hc
  · rw [if_neg hc, if_neg hc]; exact h' hc

theorem f2c_rel (td : TData) (iface : Nat) (match' : ℤ) {c c' f f' : Regs} (hc : SameRegs d c c') (hf : SameRegs d f f')
    {m0 m : Mem ℚ} {q : Grid ℚ} (h : SimQ d m0 m q) :
    OptRel (SimQ d m0) (f2c5 d td iface match' c f m) (f2c d td iface match' c' f' q) := by
  unfold f2c5 f2c
  simp only [peek5_eq, fillDummy_same hf, get_fp hc 0 (by decide), get_fm hc 1 (by decide), get_gp hc 0 (by decide),
    get_gm hc 1 (by decide), get_efy hc 0 (by decide) 0 (by decide), get_efy hc 1 (by decide) 0 (by decide),
    get_efx hc 2 (by decide) 0 (by decide), get_efx hc 3 (by decide) 0 (by decide), hc.area]
  refine OptRel.rbind _ fun A => ?_
  split
  · refine opt_ite (fun _ => trivial) fun _ => ?_
    refine OptRel.rbind _ fun dummy => ?_
    refine doLoop_rel (fun mq _ _ => doLoop_rel fun t _ _ m q h => ?_) _ _ h
    split <;> exact OptRel.rbind _ fun w => OptRel.rbind _ fun v => add5_rel h _ _
  · refine opt_ite (fun _ => trivial) fun _ => ?_
    refine OptRel.rbind _ fun dummy => ?_
    refine doLoop_rel (fun mq _ _ => doLoop_rel fun t _ _ m q h => ?_) _ _ h
    split <;> exact OptRel.rbind _ fun w => OptRel.rbind _ fun v => add5_rel h _ _

theorem samesize_rel (td : TData) (iface : Nat) {c c' f f' : Regs} (hc : SameRegs d c c') (hf : SameRegs d f f')
    {m0 m : Mem ℚ} {q : Grid ℚ} (h : SimQ d m0 m q) :
    OptRel (SimQ d m0) (samesize5 d td iface c f m) (samesize d td iface c' f' q) := by
  unfold samesize5 samesize
  simp only [fillSame_same hf, get_fp hc 0 (by decide), get_fm hc 1 (by decide), get_gp hc 0 (by decide),
    get_gm hc 1 (by decide), get_efy hc 0 (by decide) 0 (by decide), get_efy hc 1 (by decide) 0 (by decide),
    get_efx hc 2 (by decide) 0 (by decide), get_efx hc 3 (by decide) 0 (by decide), hc.area]
  refine OptRel.rbind _ fun A => OptRel.rbind _ fun dummy => ?_
  split
  · refine doLoop_rel (fun mq _ _ => doLoop_rel fun t _ _ m q h => ?_) _ _ h
    split <;> exact OptRel.rbind _ fun w => OptRel.rbind _ fun v => add5_rel h _ _
  · refine doLoop_rel (fun mq _ _ => doLoop_rel fun t _ _ m q h => ?_) _ _ h
    split <;> exact OptRel.rbind _ fun w => OptRel.rbind _ fun v => add5_rel h _ _

theorem clear_same {r r' : Regs} (h : SameRegs d r r') (k : Nat) : SameRegs d (clearFace r k) (clearFace r' k) := by
  refine ⟨by rw [clear_area, clear_area, h.area], ?_, ?_⟩
  · unfold clearFace
    split <;> exact h.el
  · intro x hx
    have := h.value x hx
    unfold clearFace
    split <;> cases x <;> simp only [value] at this ⊢ <;> first | exact this | (split <;> first | rfl | exact this)

/-! ### Synchronisation -/

/-- The same state of a process. -/
structure SameP (d : Dims) (s : PState5) (t : PState) : Prop where
  reg : ∀ x, SameRegs d (s.reg x) (t.reg x)
  q : ∀ x, Holds d (s.q x) (t.q x)

theorem act_rel (M : Mesh) (L : Links) {s : PState5} {t : PState} (h : SameP d s t) (a : Step) :
    OptRel (SameP d) (act5 d M L s a) (act d M L t a) := by
  cases a with
  | use x f y g =>
    have put : ∀ m q, Holds d m q → SameP d { s with q := fun z => if z = x then m else s.q z }
        { t with q := fun z => if z = x then q else t.q z } := by
      intro m q hm
      refine ⟨h.reg, fun z => ?_⟩
      by_cases e : z = x
      · simp only [e, if_true]; exact hm
      · simp only [e, if_false]; exact h.q z
    unfold act5 act
    dsimp only
    cases M.face x f with
    | half y0 y1 rf => exact (f2c_rel _ _ _ (h.reg x) (h.reg y) (SimQ.start (h.q x))).bind fun m q hm => put m q hm.1
    | same y' rf => exact (samesize_rel _ _ (h.reg x) (h.reg y) (SimQ.start (h.q x))).bind fun m q hm => put m q hm.1
    | _ => trivial
  | clear x f =>
    refine (show SameP d _ _ from ⟨fun z => ?_, h.q⟩)
    by_cases e : z = x
    · simp only [e, if_true]; exact clear_same (h.reg x) f
    · simp only [e, if_false]; exact h.reg z

theorem actAll_rel (M : Mesh) (L : Links) (ss : List Step) : ∀ {s : PState5} {t : PState}, SameP d s t →
    OptRel (SameP d) (actAll5 d M L s ss) (actAll d M L t ss) := by
  induction ss with
  | nil => intro s t h; exact h
  | cons a ss ih => intro s t h; exact (act_rel M L h a).bind fun s t h => ih h

end Fclaw.Sync5
