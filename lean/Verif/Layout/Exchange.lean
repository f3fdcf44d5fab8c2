import Verif.Layout.Ops
/-
Packing and physical boundary conditions do the same in both layouts.
-/
set_option autoImplicit false
set_option linter.unusedSimpArgs false
namespace Fclaw.Layout

open Fort
open GhostPack (Loc Data Buf)
open Bc (Out ofOption)

/-! ### Packing -/

/-- The same patch; memory outside of the solution is that of `m0`. -/
def SimP {α : Type} (d : Dims) (m0 : Mem α) (p : Patch5 α) (x : Data α) : Prop :=
  SamePatch d p x ∧ ∀ a, ¬ (0 ≤ a ∧ a < size d) → p.q a = m0 a

/-- The same state of packing. -/
def SimS {α : Type} (d : Dims) (m0 : Mem α) (s : PackSt α) (t : GhostPack.St α) : Prop :=
  s.k = t.k ∧ s.buf = t.buf ∧ SimP d m0 s.data t.data

theorem get_eq {α : Type} {d : Dims} {p : Patch5 α} {x : Data α} (h : SamePatch d p x) {l : Loc}
    (hl : GhostPack.valid d l = true) : p.get d l = x l := by
  cases l with
  | q i j mq => exact h.1 (i, j, mq) hl
  | _ => exact h.2 _ rfl

theorem set_q {α : Type} {d : Dims} {m0 : Mem α} {p : Patch5 α} {x : Data α} (h : SimP d m0 p x) {i j mq : ℤ}
    (hl : inBox d (i, j, mq) = true) (v : α) :
    SimP d m0 (p.set d (.q i j mq) v) (fun l' => if l' = .q i j mq then v else x l') := by
  refine ⟨⟨fun c hc => ?_, fun l' hl' => ?_⟩, fun a ha => ?_⟩
  · obtain ⟨i', j', mq'⟩ := c
    show (if pos5 d (i', j', mq') = pos5 d (i, j, mq) then v else p.q _) =
      if Loc.q i' j' mq' = Loc.q i j mq then v else x _
    by_cases e : (i', j', mq') = (i, j, mq)
    · have e2 : Loc.q i' j' mq' = Loc.q i j mq := by
        simp only [Prod.mk.injEq] at e
        simp only [Loc.q.injEq]
        exact e
      rw [if_pos (by rw [e]), if_pos e2]
    · have e2 : Loc.q i' j' mq' ≠ Loc.q i j mq := by
        simp only [ne_eq, Loc.q.injEq]
        simpa only [Prod.mk.injEq] using e
      rw [if_neg fun he => e (pos5_inj hc hl he), if_neg e2]
      exact h.1.1 _ hc
  · have e : l' ≠ Loc.q i j mq := by
      intro e
      rw [e] at hl'
      exact absurd hl' (by simp [IsQ])
    show p.rest l' = if l' = Loc.q i j mq then v else x l'
    rw [if_neg e]
    exact h.1.2 _ hl'
  · show (if a = pos5 d (i, j, mq) then v else p.q a) = m0 a
    rw [if_neg fun he : a = pos5 d (i, j, mq) => ha (he ▸ pos5_range hl)]
    exact h.2 a ha

theorem set_other {α : Type} {d : Dims} {m0 : Mem α} {p : Patch5 α} {x : Data α} (h : SimP d m0 p x) (l : Loc)
    (hl : IsQ l = false) (v : α) :
    SimP d m0 { p with rest := fun l' => if l' = l then v else p.rest l' } (fun l' => if l' = l then v else x l') := by
  refine ⟨⟨fun c hc => ?_, fun l' hl' => ?_⟩, h.2⟩
  · show p.q (pos5 d c) = if Loc.q c.1 c.2.1 c.2.2 = l then v else x _
    rw [if_neg fun e => by rw [← e] at hl; exact absurd hl (by simp [IsQ])]
    exact h.1.1 c hc
  · show (if l' = l then v else p.rest l') = if l' = l then v else x l'
    rw [h.1.2 l' hl']

theorem set_eq {α : Type} {d : Dims} {m0 : Mem α} {p : Patch5 α} {x : Data α} (h : SimP d m0 p x) {l : Loc}
    (hl : GhostPack.valid d l = true) (v : α) :
    SimP d m0 (p.set d l v) (fun l' => if l' = l then v else x l') := by
  cases l with
  | q i j mq => exact set_q h hl v
  | _ => exact set_other h _ rfl v

theorem move_rel {α : Type} {d : Dims} (n : ℤ) (pack : Bool) (l : Loc) {m0 : Mem α} {s : PackSt α}
    {t : GhostPack.St α} (h : SimS d m0 s t) :
    OptRel (SimS d m0) (move5 d n pack l s) (GhostPack.move d n pack l t) := by
  obtain ⟨k, p, b⟩ := s
  obtain ⟨k', x, b'⟩ := t
  obtain ⟨h1, h2, h3⟩ := h
  dsimp only at h1 h2 h3
  subst h1 h2
  unfold move5 GhostPack.move
  dsimp only
  by_cases hv : GhostPack.valid d l = true ∧ 0 ≤ k ∧ k < n
  · rw [if_pos hv, if_pos hv]
    cases pack with
    | true =>
      refine ⟨rfl, ?_, h3⟩
      dsimp only
      rw [get_eq h3.1 hv.1]
    | false => exact ⟨rfl, rfl, set_eq h3 hv.1 _⟩
  · rw [if_neg hv, if_neg hv]
    trivial

theorem ring_rel {α : Type} {d : Dims} (hb : d.mbc = 2) (mint n : ℤ) (pack : Bool) (mk : ℤ → ℤ → Loc)
    {m0 : Mem α} {s : PackSt α} {t : GhostPack.St α} (h : SimS d m0 s t) :
    OptRel (SimS d m0) (ring5 d 2 mint n pack mk s) (GhostPack.ring d mint n pack mk t) := by
  unfold ring5 GhostPack.ring
  have e : (d.mbc : ℤ) = 2 := by omega
  simp only [e]
  have key : ∀ (lo hi lo' hi' : ℤ) (s : PackSt α) (t : GhostPack.St α), SimS d m0 s t → OptRel (SimS d m0)
      (doLoop lo hi (fun j => doLoop lo' hi' fun i => move5 d n pack (mk i j)) s)
      (doLoop lo hi (fun j => doLoop lo' hi' fun i => GhostPack.move d n pack (mk i j)) t) := by
    intro lo hi lo' hi'
    refine doLoop_rel fun j _ _ => doLoop_rel fun i _ _ => ?_
    intro s t hs
    exact move_rel n pack (mk i j) hs
  refine OptRel.bind (key _ _ _ _ _ _ h) fun s t hs => ?_
  refine OptRel.bind (key _ _ _ _ _ _ hs) fun s t hs => ?_
  refine OptRel.bind (key _ _ _ _ _ _ hs) fun s t hs => ?_
  exact key _ _ _ _ _ _ hs

/-- The state and the error code. -/
def SimE {α : Type} (d : Dims) (m0 : Mem α) (s : PackSt α × ℤ) (t : GhostPack.St α × ℤ) : Prop :=
  SimS d m0 s.1 t.1 ∧ s.2 = t.2

theorem localGhostPack_rel {α : Type} {d : Dims} (hb : d.mbc = 2) (mint psize n packmode : ℤ)
    {m0 : Mem α} {s : PackSt α} {t : GhostPack.St α} (h : SimS d m0 s t) :
    OptRel (SimE d m0) (localGhostPack5 d mint psize n packmode s) (GhostPack.localGhostPack d mint psize n packmode t) := by
  unfold localGhostPack5 GhostPack.localGhostPack
  by_cases hp : packmode ≠ 0 ∧ packmode ≠ 1 ∧ packmode ≠ 2 ∧ packmode ≠ 3
  · rw [if_pos hp, if_pos hp]
    exact ⟨h, rfl⟩
  rw [if_neg hp, if_neg hp]
  dsimp only
  refine OptRel.bind (R := SimS d m0) (doLoop_rel (fun mq _ _ => ?_) _ _ h) fun s t hs => ?_
  · intro s t hs
    exact ring_rel hb mint n _ _ hs
  by_cases hq : packmode ≠ 2 ∧ packmode ≠ 3
  · rw [if_pos hq, if_pos hq]
    exact ⟨hs, by rw [hs.1]⟩
  rw [if_neg hq, if_neg hq]
  refine OptRel.bind (R := SimS d m0) (ring_rel hb mint n _ _ hs) fun s t hs => ?_
  exact ⟨hs, by rw [hs.1]⟩

theorem packRegisters_rel {α : Type} {d : Dims} (frsize n : ℤ) (pack : Bool) {m0 : Mem α} {s : PackSt α}
    {t : GhostPack.St α} (h : SimS d m0 s t) :
    OptRel (SimE d m0) (packRegisters5 d frsize n pack s) (GhostPack.packRegisters d frsize n pack t) := by
  unfold packRegisters5 GhostPack.packRegisters
  dsimp only
  refine OptRel.bind (R := SimS d m0) (doLoop_rel (fun k _ _ s t hs => ?_) _ _ h) fun s' t' hs => ⟨hs, by rw [hs.1, h.1]⟩
  by_cases h0 : k / 2 = 0
  · rw [if_pos h0, if_pos h0]
    refine OptRel.bind (R := SimS d m0) (doLoop_rel (fun j _ _ s t hs => ?_) _ _ hs) fun s t hs => ?_
    · refine OptRel.bind (move_rel n pack _ hs) fun s t hs => ?_
      refine OptRel.bind (move_rel n pack _ hs) fun s t hs => ?_
      refine OptRel.bind (move_rel n pack _ hs) fun s t hs => ?_
      exact move_rel n pack _ hs
    · refine doLoop_rel (fun j _ _ s t hs => ?_) _ _ hs
      exact OptRel.bind (move_rel n pack _ hs) fun s t hs => move_rel n pack _ hs
  rw [if_neg h0, if_neg h0]
  by_cases h1 : k / 2 = 1
  · rw [if_pos h1, if_pos h1]
    refine OptRel.bind (R := SimS d m0) (doLoop_rel (fun j _ _ s t hs => ?_) _ _ hs) fun s t hs => ?_
    · refine OptRel.bind (move_rel n pack _ hs) fun s t hs => ?_
      refine OptRel.bind (move_rel n pack _ hs) fun s t hs => ?_
      refine OptRel.bind (move_rel n pack _ hs) fun s t hs => ?_
      exact move_rel n pack _ hs
    · refine doLoop_rel (fun j _ _ s t hs => ?_) _ _ hs
      exact OptRel.bind (move_rel n pack _ hs) fun s t hs => move_rel n pack _ hs
  rw [if_neg h1, if_neg h1]
  exact hs

theorem ghostComm_rel {α : Type} {d : Dims} (hb : d.mbc = 2) (o : GhostPack.Opts) (packmode : ℤ) {m0 : Mem α}
    {p : Patch5 α} {x : Data α} (h : SimP d m0 p x) (buf : Buf α) :
    OptRel (fun (s : Patch5 α × Buf α) (t : Data α × Buf α) => SimP d m0 s.1 t.1 ∧ s.2 = t.2)
      (ghostComm5 d o packmode p buf) (GhostPack.ghostComm d o packmode x buf) := by
  unfold ghostComm5 GhostPack.ghostComm
  dsimp only
  refine OptRel.rbind _ fun n => ?_
  by_cases c1 : GhostPack.hole d o < 0
  · rw [if_pos c1, if_pos c1]; trivial
  rw [if_neg c1, if_neg c1]
  split
  · trivial
  split
  · trivial
  refine OptRel.bind (localGhostPack_rel hb _ _ _ _ ⟨rfl, rfl, h⟩) fun s t hs => ?_
  obtain ⟨s, e⟩ := s
  obtain ⟨t, e'⟩ := t
  obtain ⟨hs, he⟩ := hs
  dsimp only at hs he ⊢
  subst he
  by_cases c2 : e ≠ 0
  · rw [if_pos c2, if_pos c2]; trivial
  rw [if_neg c2, if_neg c2]
  by_cases c3 : o.timeSync = true
  · rw [if_pos c3, if_pos c3]
    split
    · trivial
    refine OptRel.bind (packRegisters_rel _ _ _ ⟨rfl, hs.2.1, hs.2.2⟩) fun s t hs => ?_
    obtain ⟨s, e⟩ := s
    obtain ⟨t, e'⟩ := t
    obtain ⟨hs, he⟩ := hs
    dsimp only at hs he ⊢
    subst he
    by_cases c2 : e ≠ 0
    · rw [if_pos c2, if_pos c2]; trivial
    rw [if_neg c2, if_neg c2]
    exact ⟨hs.2.2, hs.2.1⟩
  · rw [if_neg c3, if_neg c3]
    exact ⟨hs.2.2, hs.2.1⟩

/-! ### Outcomes -/

theorem OutRel.bind {σ τ σ' τ' : Type} {R : σ → τ → Prop} {R' : σ' → τ' → Prop} {x : Out σ} {y : Out τ}
    {f : σ → Out σ'} {g : τ → Out τ'} (h : OutRel R x y) (hf : ∀ s t, R s t → OutRel R' (f s) (g t)) :
    OutRel R' (x.bind f) (y.bind g) := by
  cases x <;> cases y <;> first | exact h.elim | exact hf _ _ h | trivial

theorem OutRel.ofOption {σ τ : Type} {R : σ → τ → Prop} {x : Option σ} {y : Option τ} (h : OptRel R x y) :
    OutRel R (ofOption x) (Bc.ofOption y) := by
  cases x <;> cases y <;> first | exact h.elim | exact h

/-! ### Boundary conditions -/

theorem copy_rel {d : Dims} {m0 : Mem ℚ} (m i j i' j' : ℤ) {s : Mem ℚ} {t : Grid ℚ} (h : SimQ d m0 s t) :
    OptRel (SimQ d m0) (copy5 d m i j i' j' s) (Bc.copy d (i, j, m) (i', j', m) t) := by
  unfold copy5 Bc.copy
  rw [rd5_eq h.1]
  cases rd d t (i', j', m) with
  | none => trivial
  | some v => exact wr_rel h ..

theorem negate_rel {d : Dims} {m0 : Mem ℚ} (m i j i' j' : ℤ) {s : Mem ℚ} {t : Grid ℚ} (h : SimQ d m0 s t) :
    OptRel (SimQ d m0) (negate5 d m i j i' j' s) (Bc.negate d (i, j, m) (i', j', m) t) := by
  unfold negate5 Bc.negate
  rw [rd5_eq h.1]
  cases rd d t (i', j', m) with
  | none => trivial
  | some v => exact wr_rel h ..

theorem xSide_rel {d : Dims} {m0 : Mem ℚ} (dst src : ℤ → ℤ) : ∀ (s : Mem ℚ) (t : Grid ℚ), SimQ d m0 s t →
    OptRel (SimQ d m0) (xSide5 d dst src s) (Bc.xSide d dst src t) :=
  doLoop_rel fun _ _ _ => doLoop_rel fun _ _ _ => doLoop_rel fun _ _ _ _ _ h => copy_rel _ _ _ _ _ h

theorem ySide_rel {d : Dims} {m0 : Mem ℚ} (dst src : ℤ → ℤ) : ∀ (s : Mem ℚ) (t : Grid ℚ), SimQ d m0 s t →
    OptRel (SimQ d m0) (ySide5 d dst src s) (Bc.ySide d dst src t) :=
  doLoop_rel fun _ _ _ => doLoop_rel fun _ _ _ => doLoop_rel fun _ _ _ _ _ h => copy_rel _ _ _ _ _ h

theorem xNegate_rel {d : Dims} {m0 : Mem ℚ} (dst src : ℤ → ℤ) : ∀ (s : Mem ℚ) (t : Grid ℚ), SimQ d m0 s t →
    OptRel (SimQ d m0) (xNegate5 d dst src s) (Bc.xNegate d dst src t) :=
  doLoop_rel fun _ _ _ => doLoop_rel fun _ _ _ _ _ h => negate_rel _ _ _ _ _ h

theorem yNegate_rel {d : Dims} {m0 : Mem ℚ} (dst src : ℤ → ℤ) : ∀ (s : Mem ℚ) (t : Grid ℚ), SimQ d m0 s t →
    OptRel (SimQ d m0) (yNegate5 d dst src s) (Bc.yNegate d dst src t) :=
  doLoop_rel fun _ _ _ => doLoop_rel fun _ _ _ _ _ h => negate_rel _ _ _ _ _ h

theorem select_rel {d : Dims} {m0 : Mem ℚ} (mth : ℤ) {e w : Mem ℚ → Option (Mem ℚ)} {e' w' : Grid ℚ → Option (Grid ℚ)}
    (he : ∀ s t, SimQ d m0 s t → OptRel (SimQ d m0) (e s) (e' t))
    (hw : ∀ s t, SimQ d m0 s t → OptRel (SimQ d m0) (w s) (w' t)) {s : Mem ℚ} {t : Grid ℚ} (h : SimQ d m0 s t) :
    OutRel (SimQ d m0) (select5 mth e w s) (Bc.select mth e' w' t) := by
  unfold select5 Bc.select
  split
  · trivial
  split
  · exact OutRel.ofOption (he _ _ h)
  split
  · trivial
  split
  · exact OutRel.ofOption (hw _ _ h)
  exact h

theorem bc_rel {d : Dims} (mthbc : Nat → ℤ) {m : Mem ℚ} {q : Grid ℚ} (h : Holds d m q) :
    OutRel (SimQ d m) (bc2Default5 d mthbc m) (Bc.bc2Default d mthbc q) := by
  unfold bc2Default5 Bc.bc2Default
  refine OutRel.bind (select_rel _ (xSide_rel _ _) (fun s t hs =>
    OptRel.bind (xSide_rel _ _ s t hs) (xNegate_rel _ _)) (SimQ.start h)) fun s t hs => ?_
  refine OutRel.bind (select_rel _ (xSide_rel _ _) (fun s t hs =>
    OptRel.bind (xSide_rel _ _ s t hs) (xNegate_rel _ _)) hs) fun s t hs => ?_
  refine OutRel.bind (select_rel _ (ySide_rel _ _) (fun s t hs =>
    OptRel.bind (ySide_rel _ _ s t hs) (yNegate_rel _ _)) hs) fun s t hs => ?_
  exact select_rel _ (ySide_rel _ _) (fun s t hs =>
    OptRel.bind (ySide_rel _ _ s t hs) (yNegate_rel _ _)) hs

/-! ### One operation, and histories -/

/-- The same patches; memory outside is that of `P0`. -/
def SimAll (d : Dims) (P0 P : Nat → Patch5 ℚ) (X : Nat → Data ℚ) : Prop := ∀ a, SimP d (P0 a).q (P a) (X a)

theorem SimP.holds {d : Dims} {m0 : Mem ℚ} {p : Patch5 ℚ} {x : Data ℚ} (h : SimP d m0 p x) :
    Holds d p.q (gridOf x) := h.1.1

theorem SimP.area {d : Dims} {m0 : Mem ℚ} {p : Patch5 ℚ} {x : Data ℚ} (h : SimP d m0 p x) :
    areaOf5 p = areaOf x := by
  funext c
  exact h.1.2 _ rfl

theorem SimP.put {d : Dims} {m0 : Mem ℚ} {p : Patch5 ℚ} {x : Data ℚ} (h : SimP d m0 p x) {m : Mem ℚ} {g : Grid ℚ}
    (hm : SimQ d p.q m g) : SimP d m0 { p with q := m } (setGrid x g) := by
  refine ⟨⟨fun c hc => hm.1 c hc, fun l hl => ?_⟩, fun a ha => (hm.2 a ha).trans (h.2 a ha)⟩
  cases l with
  | q i j mq => exact absurd hl (by simp [IsQ])
  | _ => exact h.1.2 _ hl

theorem SimAll.put {d : Dims} {P0 P : Nat → Patch5 ℚ} {X : Nat → Data ℚ} (h : SimAll d P0 P X) (a : Nat)
    {m : Mem ℚ} {g : Grid ℚ} (hm : Holds d m g ∧ ∀ x, ¬ (0 ≤ x ∧ x < size d) → m x = (P0 a).q x) :
    SimAll d P0 (putMem P a m) (putGrid X a g) := by
  intro b
  unfold putMem putGrid
  by_cases e : b = a
  · subst e
    simp only [if_true]
    exact (h b).put ⟨hm.1, fun x hx => (hm.2 x hx).trans ((h b).2 x hx).symm⟩
  · simp only [if_neg e]
    exact h b

theorem SimAll.put_step {d : Dims} {P0 P : Nat → Patch5 ℚ} {X : Nat → Data ℚ} (h : SimAll d P0 P X) (a : Nat)
    {x : Option (Mem ℚ)} {y : Option (Grid ℚ)} (hx : OptRel (SimQ d (P a).q) x y) :
    OutRel (SimAll d P0) (ofOption (x.map (putMem P a))) (ofOption (y.map (putGrid X a))) :=
  OutRel.ofOption (OptRel.map hx fun m g hm =>
    h.put a ⟨hm.1, fun x hx => (hm.2 x hx).trans ((h a).2 x hx)⟩)

theorem step_rel {d : Dims} {P0 : Nat → Patch5 ℚ} (op : Op) (hop : op.Fits d) {P : Nat → Patch5 ℚ}
    {X : Nat → Data ℚ} (h : SimAll d P0 P X) : OutRel (SimAll d P0) (step5 d op P) (step46 d op X) := by
  cases op with
  | copyFace a b td f => exact h.put_step a (copyFace_rel td f (h b).holds (h a).holds)
  | copyCorner a b td k => exact h.put_step a (copyCorner_rel td k (h b).holds (h a).holds)
  | averageFace a b td f mf =>
    simp only [step5, step46]
    rw [(h b).area]
    exact h.put_step a (averageFace_rel td f _ mf (h b).holds (h a).holds)
  | averageCorner a b td k mf =>
    simp only [step5, step46]
    rw [(h b).area]
    exact h.put_step a (averageCorner_rel td k _ mf (h b).holds (h a).holds)
  | interpFace a b td f => exact h.put_step b (interpFace_rel hop td f (h a).holds (h b).holds)
  | interpCorner a b td k => exact h.put_step b (interpCorner_rel hop td k (h a).holds (h b).holds)
  | coarsen a fine mf =>
    unfold step5 step46
    have e : (fun g => areaOf5 (P (fine g))) = fun g => areaOf (X (fine g)) := funext fun g => (h _).area
    dsimp only
    rw [(h a).area, e]
    exact h.put_step a (coarsen_rel _ _ mf (fun g => (h (fine g)).holds) (h a).holds)
  | refine a fine mf =>
    unfold step5 step46
    have e : (fun g => areaOf5 (P (fine g))) = fun g => areaOf (X (fine g)) := funext fun g => (h _).area
    dsimp only
    rw [(h a).area, e]
    refine OutRel.ofOption (OptRel.map (refine_rel _ _ mf (h a).holds fun g => (h (fine g)).holds) fun m g hm => ?_)
    have hm' : ∀ k, Holds d (m k) (g k) ∧ ∀ x, ¬ (0 ≤ x ∧ x < size d) → m k x = (P0 (fine k)).q x :=
      fun k => ⟨(hm k).1, fun x hx => ((hm k).2 x hx).trans ((h _).2 x hx)⟩
    exact ((((h.put _ (hm' 0)).put _ (hm' 1)).put _ (hm' 2)).put _ (hm' 3))
  | timeInterp c l i alpha w =>
    refine OutRel.ofOption (OptRel.map
      (R := fun (s : Mem ℚ × ℤ) (t : Grid ℚ × ℤ) => SimQ d (P i).q s.1 t.1 ∧ s.2 = t.2) ?_ fun m g hm => ?_)
    · exact OptRel.rbind _ fun psize => timeinterp_rel hop psize alpha (h c).holds (h l).holds (h i).holds
    · exact h.put i ⟨hm.1.1, fun x hx => (hm.1.2 x hx).trans ((h i).2 x hx)⟩
  | exchange a b o buf =>
    refine OutRel.ofOption (OptRel.bind (ghostComm_rel hop o _ (h a) buf) fun s t hs => ?_)
    rw [hs.2]
    refine OptRel.map (ghostComm_rel hop o _ (h b) t.2) fun s t hs => ?_
    intro c
    dsimp only
    by_cases e : c = b
    · subst e
      simp only [if_true]
      exact hs.1
    · simp only [if_neg e]
      exact h c
  | bc a mthbc =>
    refine OutRel.bind (bc_rel mthbc (h a).holds) fun m g hm => ?_
    exact h.put a ⟨hm.1, fun x hx => (hm.2 x hx).trans ((h a).2 x hx)⟩

theorem run_rel {d : Dims} {P0 : Nat → Patch5 ℚ} : ∀ (ops : List Op) (_ : ∀ op ∈ ops, op.Fits d)
    {P : Nat → Patch5 ℚ} {X : Nat → Data ℚ} (_ : SimAll d P0 P X),
    OutRel (SimAll d P0) (run (step5 d) ops P) (run (step46 d) ops X)
  | [], _, _, _, h => h
  | op :: ops, ho, _, _, h =>
    OutRel.bind (step_rel op (ho op (List.mem_cons_self ..)) h) fun _ _ hs =>
      run_rel ops (fun op' h' => ho op' (List.mem_cons_of_mem _ h')) hs

end Fclaw.Layout
