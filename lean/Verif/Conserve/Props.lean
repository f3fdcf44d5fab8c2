/-
C63: the whole mesh conserves mass.
-/
import Verif.Conserve.Pairing
import Verif.GhostFill.Example
import Mathlib.Tactic.IntervalCases
import Mathlib.Tactic.NormNum

set_option autoImplicit false
set_option linter.unusedSimpArgs false
set_option linter.unusedVariables false
namespace Fclaw.Conserve

open Fort CopyGhost Correction GhostFill TimeSync Transform

variable {d : Dims}

/-- From any registers that are in order. -/
theorem history_general (hd : Sized d) (hp : Proper d) (M : Mesh) (hM : M.Ok) (hn : M.patches.Nodup) (L : Links) (hL : Linked d M L)
    (G : Nat → Geom d) (rpn : Rpn) (top : Int) (htop : ∀ x ∈ M.patches, M.level x ≤ top) (W0 W : World) (B : ℤ → ℚ)
    (hb0 : ∀ x ∈ M.patches, Balanced d (W0.r x)) (ha0 : ∀ x ∈ M.patches, HasAreas d (G x) (W0.r x)) (h : History d M L G rpn top W0 W B) :
    (∀ x ∈ M.patches, Balanced d (W.r x)) ∧ (∀ x ∈ M.patches, HasAreas d (G x) (W.r x)) ∧
    ∀ m, comp d m → totalMass M G W m - totalMass M G W0 m = B m + (pending d M W m - pending d M W0 m) := by
  induction h with
  | start =>
    exact ⟨hb0, ha0, fun m hm => by ring⟩
  | steps W B x q r _ hx hev ih =>
    obtain ⟨i1, i2, i3⟩ := ih
    obtain ⟨s1, s2, s3⟩ := C36_steps hp.1 hp.2.1 (G x) rpn _ _ _ _ hev (i1 x hx)
    refine ⟨?_, ?_, ?_⟩
    · intro z hz
      by_cases e : z = x
      · simp only [World.set, e, if_true]; exact s2
      · simp only [World.set, e, if_false]; exact i1 z hz
    · intro z hz
      by_cases e : z = x
      · subst e
        simp only [World.set, if_true]
        intro f hf t ht
        rw [s3]; exact i2 z hz f hf t ht
      · simp only [World.set, e, if_false]; exact i2 z hz
    · intro m hm
      have hx' : x ∈ M.patches.toFinset := List.mem_toFinset.2 hx
      have e1 : totalMass M G (W.set x q r) m - totalMass M G W m =
          Correction.mass d (G x).area q m - Correction.mass d (G x).area (W.q x) m := by
        unfold totalMass
        rw [← Finset.sum_sub_distrib, Finset.sum_eq_single_of_mem x hx']
        · simp [World.set]
        · intro z _ hz
          simp [World.set, hz]
      have e2 : pending d M (W.set x q r) m - pending d M W m =
          ∑ f ∈ (Finset.range 4).filter (fun f => isBoundary (M.face x f) = false), gainFace d r f m -
          ∑ f ∈ (Finset.range 4).filter (fun f => isBoundary (M.face x f) = false), gainFace d (W.r x) f m := by
        unfold pending
        rw [← Finset.sum_sub_distrib, Finset.sum_eq_single_of_mem x hx']
        · simp [World.set]
        · intro z _ hz
          simp [World.set, hz]
      have e3 : ∀ r' : Regs, ∑ f ∈ Finset.range 4, gainFace d r' f m = inflow (d := d) M x r' m +
          ∑ f ∈ (Finset.range 4).filter (fun f => isBoundary (M.face x f) = false), gainFace d r' f m := by
        intro r'
        unfold inflow
        rw [← Finset.sum_filter_add_sum_filter_not (Finset.range 4) (fun f => isBoundary (M.face x f) = true)]
        simp
      have := i3 m hm
      have := s1 m hm
      rw [Finset.sum_sub_distrib, e3, e3] at this
      linarith
  | sync W W' B minl _ hs ih =>
    obtain ⟨i1, i2, i3⟩ := ih
    obtain ⟨s1, s2, _, s3⟩ := sync_mass hd hp M hM hn L hL G minl top htop W W' i1 i2 hs
    refine ⟨s1, s2, ?_⟩
    intro m hm
    have := i3 m hm
    have := s3 m hm
    linarith

theorem history_spec (hd : Sized d) (hp : Proper d) (M : Mesh) (hM : M.Ok) (hn : M.patches.Nodup) (L : Links) (hL : Linked d M L)
    (G : Nat → Geom d) (rpn : Rpn) (top : Int) (htop : ∀ x ∈ M.patches, M.level x ≤ top) (W0 W : World) (B : ℤ → ℚ)
    (h0 : Fresh d M G W0) (h : History d M L G rpn top W0 W B) :
    (∀ x ∈ M.patches, Balanced d (W.r x)) ∧ (∀ x ∈ M.patches, HasAreas d (G x) (W.r x)) ∧
    ∀ m, comp d m → totalMass M G W m - totalMass M G W0 m = B m + pending d M W m := by
  have e0 : ∀ m, pending d M W0 m = 0 := by
    intro m
    refine Finset.sum_eq_zero fun x hx => Finset.sum_eq_zero fun f hf => ?_
    obtain ⟨area, el, e, _⟩ := h0 x (List.mem_toFinset.1 hx)
    rw [e]; exact empty_gain area el f m
  obtain ⟨h1, h2, h3⟩ := history_general hd hp M hM hn L hL G rpn top htop W0 W B
    (fun x hx => by obtain ⟨area, el, e, _⟩ := h0 x hx; rw [e]; exact empty_balanced area el)
    (fun x hx => (h0 x hx).choose_spec.choose_spec.2) h
  exact ⟨h1, h2, fun m hm => by rw [h3 m hm, e0]; ring⟩

/-- **C63**. At any time in the history of a mesh, that is after any steps of any patches and any
synchronisations of levels, the total mass has changed by exactly what entered through the physical boundary,
and what the registers at faces between patches still hold. -/
theorem C63 (hd : Sized d) (hp : Proper d) (M : Mesh) (hM : M.Ok) (hn : M.patches.Nodup) (L : Links) (hL : Linked d M L)
    (G : Nat → Geom d) (rpn : Rpn) (top : Int) (htop : ∀ x ∈ M.patches, M.level x ≤ top) (W0 W : World) (B : ℤ → ℚ)
    (h0 : Fresh d M G W0) (h : History d M L G rpn top W0 W B) (m : ℤ) (hm : comp d m) :
    totalMass M G W m - totalMass M G W0 m = B m + pending d M W m :=
  (history_spec hd hp M hM hn L hL G rpn top htop W0 W B h0 h).2.2 m hm

/-- A synchronisation is always possible: no correction fails or leaves the bounds of an array. -/
theorem C63_progress (hd : Sized d) (hp : Proper d) (M : Mesh) (hM : M.Ok) (hn : M.patches.Nodup) (L : Links) (hL : Linked d M L)
    (G : Nat → Geom d) (rpn : Rpn) (top : Int) (htop : ∀ x ∈ M.patches, M.level x ≤ top) (W0 W : World) (B : ℤ → ℚ)
    (h0 : Fresh d M G W0) (h : History d M L G rpn top W0 W B) (minl : Int) :
    (∀ p s, (∀ x, Has M p x → s.reg x = W.r x) → (∀ x ∈ M.patches, M.owner x = p → s.q x = W.q x) →
      ∃ s', syncProcess d M L p minl top s = some s') ∧ ∃ W', Synced d M L minl top W W' := by
  obtain ⟨i1, i2, _⟩ := history_spec hd hp M hM hn L hL G rpn top htop W0 W B h0 h
  refine ⟨?_, ?_⟩
  · intro p s hs hq
    obtain ⟨s', e, _⟩ := process_spec hd hp M hM hn L hL G minl top htop p W i1 i2 s hs hq
    exact ⟨s', e⟩
  · have : ∀ p, ∃ s', syncProcess d M L p minl top ⟨W.r, W.q⟩ = some s' := by
      intro p
      obtain ⟨s', e, _⟩ := process_spec hd hp M hM hn L hL G minl top htop p W i1 i2 ⟨W.r, W.q⟩ (fun _ _ => rfl) (fun _ _ _ => rfl)
      exact ⟨s', e⟩
    choose S hS using this
    refine ⟨⟨fun x => (S (M.owner x)).q x, fun x => (S (M.owner x)).reg x⟩, ⟨fun p => ⟨⟨W.r, W.q⟩, S p, fun _ _ => rfl,
      fun _ _ _ => rfl, hS p, ?_⟩⟩⟩
    rintro x _ rfl
    exact ⟨rfl, rfl⟩

/-- When all levels have been synchronised, no register holds anything back: the mass has changed by exactly
what entered through the physical boundary. Without a physical boundary it has not changed at all. -/
theorem C63_conserved (hd : Sized d) (hp : Proper d) (M : Mesh) (hM : M.Ok) (hn : M.patches.Nodup) (L : Links) (hL : Linked d M L)
    (G : Nat → Geom d) (rpn : Rpn) (top : Int) (htop : ∀ x ∈ M.patches, M.level x ≤ top) (W0 W W' : World) (B : ℤ → ℚ)
    (h0 : Fresh d M G W0) (h : History d M L G rpn top W0 W B) (minl : Int) (hmin : ∀ x ∈ M.patches, minl ≤ M.level x)
    (hs : Synced d M L minl top W W') (m : ℤ) (hm : comp d m) :
    totalMass M G W' m - totalMass M G W0 m = B m ∧
    ((∀ x ∈ M.patches, ∀ f < 4, M.face x f ≠ .boundary) → totalMass M G W' m = totalMass M G W0 m) := by
  obtain ⟨i1, i2, i3⟩ := history_spec hd hp M hM hn L hL G rpn top htop W0 W B h0 h
  obtain ⟨_, _, s, s'⟩ := sync_mass hd hp M hM hn L hL G minl top htop W W' i1 i2 hs
  have hpend : pending d M W' m = 0 := by
    refine Finset.sum_eq_zero fun x hx => Finset.sum_eq_zero fun f hf => ?_
    rw [List.mem_toFinset] at hx
    rw [Finset.mem_filter, Finset.mem_range] at hf
    refine s x hx f hf.1 ⟨hmin x hx, ?_⟩ m
    intro y rf g hk e
    refine hmin y (hM.closed x hx y ?_)
    unfold nbrs
    rw [List.mem_append]
    left
    rw [List.mem_flatMap]
    exact ⟨f, (mem_numbers _).2 hf.1, by rw [e]; simp [faceList]⟩
  have main : totalMass M G W' m - totalMass M G W0 m = B m := by
    have := i3 m hm
    have := s' m hm
    linarith
  refine ⟨main, ?_⟩
  intro hc
  have hB : B m = 0 := by
    clear main hpend s s' i1 i2 i3 hs
    induction h with
    | start => rfl
    | sync W W' B minl _ _ ih => exact ih
    | steps W B x q r _ hx _ ih =>
      have none : (Finset.range 4).filter (fun f => isBoundary (M.face x f) = true) = ∅ := by
        rw [Finset.filter_eq_empty_iff]
        intro f hf h
        have := hc x hx f (Finset.mem_range.1 hf)
        cases e : M.face x f <;> rw [e] at h <;> simp [isBoundary] at h
        exact this e
      show B m + (inflow (d := d) M x r m - inflow (d := d) M x (W.r x) m) = 0
      unfold inflow
      rw [none, ih]
      simp
  linarith

/-! ### Example: the mesh with three coarse and four fine patches -/

def lPatch (x : Nat) : Patch := match x with
  | 0 => ⟨1, fun _ => 0⟩
  | 1 => ⟨1, fun a => if a = 0 then 1 / 2 else 0⟩
  | 2 => ⟨1, fun a => if a = 0 then 0 else 1 / 2⟩
  | 3 => ⟨2, fun _ => 1 / 2⟩
  | 4 => ⟨2, fun a => if a = 0 then 3 / 4 else 1 / 2⟩
  | 5 => ⟨2, fun a => if a = 0 then 1 / 2 else 3 / 4⟩
  | _ => ⟨2, fun _ => 3 / 4⟩

def lLinks : Links where
  td x _ y := ⟨lPatch x, lPatch y, fun k => if k = 8 then 4 else 0, 0, false, -1, fun _ _ _ => 0⟩
  qtfi _ f := if f % 2 = 0 then f + 1 else f - 1

theorem lPatch_lattice (x : Nat) : OnLattice (lPatch x) := by
  intro a
  by_cases h : a = 0
  · unfold lPatch
    split
    · exact ⟨0, by simp [h]⟩
    · exact ⟨1, by simp [h]⟩
    · exact ⟨0, by simp [h]⟩
    · exact ⟨2, by simp [h]; norm_num⟩
    · exact ⟨3, by simp [h]; norm_num⟩
    · exact ⟨2, by simp [h]; norm_num⟩
    · exact ⟨3, by simp [h]; norm_num⟩
  · unfold lPatch
    split
    · exact ⟨0, by simp [h]⟩
    · exact ⟨0, by simp [h]⟩
    · exact ⟨1, by simp [h]⟩
    · exact ⟨2, by simp [h]; norm_num⟩
    · exact ⟨2, by simp [h]; norm_num⟩
    · exact ⟨3, by simp [h]; norm_num⟩
    · exact ⟨3, by simp [h]; norm_num⟩

/-- The transformation between patches in one block. -/
def lFt : Nat → Nat := fun k => if k = 8 then 4 else 0

/-- The two faces of all pairs of neighbours are in the same place. -/
def lCheck (x f : Nat) : Bool := match lMesh.face x f with
  | .same y rf => decide ((lPatch x).level = (lPatch y).level) && decide (otherFace lFt f = rf) &&
    (axes false).all fun a => decide ((lPatch y).lower a = (lPatch x).lower a + faceStep f a / 2 ^ (lPatch x).level)
  | .half y0 y1 rf => decide (otherFace lFt f = rf) && decide (lLinks.qtfi x f % 4 = otherFace lFt f) && [0, 1].all fun g =>
    decide ((lPatch x).level + 1 = (lPatch (pick y0 y1 g)).level) &&
    (axes false).all fun a => decide (patchCentre (lPatch (pick y0 y1 g)) (fun _ => 0) a = halfCentre (lPatch x) f g a)
  | _ => true

theorem lChecked : ∀ x < 7, ∀ f < 4, lCheck x f = true := by decide +kernel

theorem lRange : ∀ x ∈ lMesh.patches, x < 7 := by decide

theorem lLinked : Linked exD lMesh lLinks := by
  constructor
  · intro x hx f hf y rf e
    have c := lChecked x (lRange x hx) f hf
    unfold lCheck at c
    rw [e] at c
    simp only [Bool.and_eq_true, decide_eq_true_eq, List.all_eq_true] at c
    obtain ⟨⟨c1, c2⟩, c3⟩ := c
    refine ⟨⟨⟨⟨c1, lPatch_lattice _, lPatch_lattice _⟩, ?_⟩, fun h => absurd (show lFt 8 / 4 % 2 = 1 by decide) h⟩, c2⟩
    have t : (lLinks.td x f y).transform 8 / 4 % 2 = 1 := show lFt 8 / 4 % 2 = 1 by decide
    rw [if_pos t]
    exact ⟨show valid false lFt = true by decide, c3⟩
  · intro x hx f hf y0 y1 rf e g hg
    have c := lChecked x (lRange x hx) f hf
    unfold lCheck at c
    rw [e] at c
    simp only [Bool.and_eq_true, decide_eq_true_eq, List.all_eq_true] at c
    obtain ⟨⟨c1, c2⟩, c3⟩ := c
    have c3 := c3 g (by simp; omega)
    refine ⟨⟨c3.1, lPatch_lattice _, lPatch_lattice _, ?_⟩, c1, c2⟩
    have t : (lLinks.td x f (pick y0 y1 g)).transform 8 / 4 % 2 = 1 := show lFt 8 / 4 % 2 = 1 by decide
    rw [if_pos t]
    exact ⟨show valid false lFt = true by decide, c3.2⟩

def lWorld : World := ⟨fun x c => x + c.1, fun _ => Regs.empty (fun _ _ => 1 / 16) exEl⟩

/-- The hypotheses hold for it; patch 0 makes two steps, and all levels are synchronised. -/
example : ∃ W B W', Sized exD ∧ Proper exD ∧ lMesh.Ok ∧ lMesh.patches.Nodup ∧ Linked exD lMesh lLinks ∧
    Fresh exD lMesh (fun _ => exGeom) lWorld ∧ History exD lMesh lLinks (fun _ => exGeom) exRpn 2 lWorld W B ∧
    Synced exD lMesh lLinks 1 2 W W' ∧ (∀ x ∈ lMesh.patches, 1 ≤ lMesh.level x ∧ lMesh.level x ≤ 2) ∧ comp exD 1 := by
  have hf : Fresh exD lMesh (fun _ => exGeom) lWorld := fun x _ => ⟨_, _, rfl, fun _ _ _ _ => rfl⟩
  have hp : Proper exD := by unfold Proper; decide
  have hl : ∀ x ∈ lMesh.patches, 1 ≤ lMesh.level x ∧ lMesh.level x ≤ 2 := by decide
  obtain ⟨q, r, h⟩ := exEvolves (lWorld.q 0)
  have hh := History.steps lWorld _ 0 q r (History.start (d := exD) (M := lMesh) (L := lLinks) (G := fun _ => exGeom) (rpn := exRpn)
    (top := 2) (W0 := lWorld)) (by decide) h
  obtain ⟨W', hW⟩ := (C63_progress exSized hp lMesh lMesh_ok (by decide) lLinks lLinked (fun _ => exGeom) exRpn 2 (fun x hx => (hl x hx).2)
    lWorld _ _ hf hh 1).2
  exact ⟨_, _, W', exSized, hp, lMesh_ok, by decide, lLinked, hf, hh, hW, hl, by unfold comp; decide⟩

end Fclaw.Conserve
