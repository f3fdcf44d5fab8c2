import Verif.GhostAll.Exec
import Verif.GhostAll.Unique
import Verif.CopyGhost.Props
import Verif.GhostFill.Props
import Verif.GhostPack.Props
/-
C69: after a ghost update all ghost cells hold the values that follow from the interiors of all patches,
however patches are distributed among processes.
-/
set_option autoImplicit false
set_option linter.unusedSimpArgs false
set_option linter.unusedVariables false
namespace Fclaw.GhostAll

open Fort Transform GhostFill CopyGhost CoarseFine

/-- Valid interiors remain so. -/
theorem run_interior (M : Mesh) (os : List Op) : ∀ (V : Valid) (x : Nat) (t : Bool),
    run M V os ⟨x, t, .interior⟩ = V ⟨x, t, .interior⟩ := by
  induction os with
  | nil => intro V x t; rfl
  | cons o os ih =>
    intro V x t
    have : run M V (o :: os) = run M (apply M V o) os := rfl
    rw [this, ih]
    unfold apply
    rw [List.find?_eq_none.2]
    intro e he
    have := effects_noninterior M o e he
    simp only [decide_eq_true_eq]
    intro h; rw [h] at this; exact this rfl

/-- The states at all stages of an update. -/
theorem update_agree (d : Dims) (hS : Sizes d) (M : Mesh) (hM : M.Ok) (S : Setup) (hF : Fits d M S)
    (recv : Grid ℚ → Grid ℚ) (hR : Received d recv) (minl maxl : Int) (hle : minl ≤ maxl)
    (htop : ∀ x ∈ M.patches, M.level x ≤ maxl) (ti : Bool) (p : Nat) (init : Nat → State ℚ) :
    (∃ fin, Update d M S recv minl maxl ti p init fin) ∧
    ∀ fin, Update d M S recv minl maxl ti p init fin →
      Agree d M S minl ti (fun x t => init (M.owner x) x t) p fin (ghostUpdate M minl maxl ti p) := by
  have X : Ctx M minl maxl := ⟨hM, hle, htop⟩
  have L2 : ∀ o ∈ ops M p (step2 M p minl maxl ti), Legit M minl ti p o := by
    intro o ho
    simp only [step2, ops_append, List.mem_append] at ho
    rcases ho with (ho | ho) | ho
    · exact legit_fill2 X ti p o ho
    · exact legit_interp2 X ti p o ho
    · exact legit_phys2 X ti p o ho
  have L3 : ∀ o ∈ ops M p (step3 M p minl maxl ti), Legit M minl ti p o := by
    intro o ho
    simp only [step3, ops_append, List.mem_append] at ho
    rcases ho with (ho | ho) | ho
    · exact legit_fill3 X ti p o ho
    · exact legit_interp3 X ti p o ho
    · exact legit_phys3 X ti p o ho
  have A0 : ∀ q, Agree d M S minl ti (fun x t => init (M.owner x) x t) q (init q) (start M minl ti q) := by
    intro q x t r hv _ i j mq hi _ hm
    simp only [start, Bool.and_eq_true, decide_eq_true_eq] at hv
    obtain ⟨⟨rfl, ho⟩, _⟩ := hv
    subst ho
    exact Expected.interior (I := fun x t => init (M.owner x) x t) x t i j mq hi
  have R1 := fun q => execAll_agree hS hM hF (ops M q (step1 M q minl maxl ti)) (legit_step1 X ti q) (init q) _ (A0 q)
  have R2 := fun s A => execAll_agree (I := fun x t => init (M.owner x) x t) hS hM hF _ L2 s (afterStep1 M minl maxl ti p) A
  have Ex : ∀ (s1 : Nat → State ℚ) (s2 : State ℚ),
      (∀ q, Agree d M S minl ti (fun x t => init (M.owner x) x t) q (s1 q) (afterStep1 M minl maxl ti q)) →
      Agree d M S minl ti (fun x t => init (M.owner x) x t) p s2 (afterStep2 M minl maxl ti p) →
      Agree d M S minl ti (fun x t => init (M.owner x) x t) p (exchange M minl ti recv p s1 s2)
        (afterExchange M minl maxl ti p) := by
    intro s1 s2 A1 A2 x t r hv hr i j mq hi hn hm
    unfold afterExchange at hv
    by_cases hg : isGhost M p x = true
    · simp only [hg, if_true, Bool.and_eq_true] at hv
      have : exchange M minl ti recv p s1 s2 x t = recv (s1 (M.owner x) x t) := by simp [exchange, hg, hv.1]
      rw [this, hR]
      · exact A1 _ x t r hv.2 hr i j mq hi (fun _ h => absurd rfl h) hm
      · cases r with
        | interior => exact Or.inl (hn rfl (isGhost_owner hg))
        | strip f h => exact Or.inr (Or.inl ⟨f, strip_lt hi.1, hi.1⟩)
        | corner k => exact Or.inr (Or.inr ⟨k, hr, hi⟩)
      · exact hm
    · have hg' : isGhost M p x = false := by simpa using hg
      simp only [hg', Bool.false_eq_true, if_false] at hv
      have : exchange M minl ti recv p s1 s2 x t = s2 x t := by simp [exchange, hg']
      rw [this]
      exact A2 x t r hv hr i j mq hi hn hm
  have Ri := fun s A => execAll_agree (I := fun x t => init (M.owner x) x t) hS hM hF _ (legit_indirect M hM p minl ti) s (afterExchange M minl maxl ti p) A
  have R3 := fun s A => execAll_agree (I := fun x t => init (M.owner x) x t) hS hM hF _ L3 s (afterIndirect M minl maxl ti p) A
  constructor
  · choose s1 e1 A1 using R1
    obtain ⟨s2, e2, A2⟩ := R2 (s1 p) (A1 p)
    obtain ⟨s3, e3, A3⟩ := Ri _ (Ex s1 s2 A1 A2)
    obtain ⟨fin, e4, _⟩ := R3 s3 A3
    exact ⟨fin, s1, e1, s2, e2, s3, e3, e4⟩
  · rintro fin ⟨s1, e1, s2, e2, s3, e3, e4⟩
    have A1 : ∀ q, Agree d M S minl ti (fun x t => init (M.owner x) x t) q (s1 q) (afterStep1 M minl maxl ti q) := by
      intro q
      obtain ⟨s', e, r⟩ := R1 q
      rw [e1 q] at e; cases e; exact r
    obtain ⟨s', e, A2⟩ := R2 (s1 p) (A1 p)
    rw [e2] at e; cases e
    obtain ⟨s', e, A3⟩ := Ri _ (Ex s1 s2 A1 A2)
    rw [e3] at e; cases e
    obtain ⟨s', e, A4⟩ := R3 s3 A3
    rw [e4] at e; cases e
    exact A4

theorem due_valid (d : Dims) (M : Mesh) (hM : M.Ok) (minl maxl : Int) (hle : minl ≤ maxl)
    (htop : ∀ x ∈ M.patches, M.level x ≤ maxl) (ti : Bool) (p x : Nat) (hx : x ∈ M.patches) (ho : M.owner x = p)
    (hl : minl ≤ M.level x) (i j : ℤ) (hd : interior d i j ∨ Due d M minl ti x i j) :
    ∃ r, RegOk r ∧ inRegion d r i j ∧ (r = .interior → M.owner x ≠ p → near2 d i j) ∧
      ghostUpdate M minl maxl ti p ⟨x, false, r⟩ = true := by
  rcases hd with hi | ⟨f, hf, hs, hd⟩ | ⟨k, hk, hs, hd⟩
  · refine ⟨.interior, trivial, hi, fun _ h => absurd ho h, ?_⟩
    have hg : isGhost M p x = false := by
      cases h : isGhost M p x with
      | false => rfl
      | true => exact absurd ho (isGhost_owner h)
    have hc : current M minl ti x false = true := by
      rw [current_iff]
      unfold cur tl
      refine ⟨by split <;> omega, ?_⟩
      cases ti <;> simp; omega
    unfold ghostUpdate afterIndirect
    rw [run_interior, run_interior]
    unfold afterExchange
    rw [if_neg (by rw [hg]; simp)]
    unfold afterStep2 afterStep1
    rw [run_interior, run_interior]
    simp [start, ho, hc]
  · obtain ⟨h, hh, hr⟩ := strip_half hs
    exact ⟨.strip f h, trivial, hr, (fun h => by cases h),
      (C32_filled M minl maxl ti p hM hle htop x hx ho hl).1 f h hf hh hd⟩
  · exact ⟨.corner k, hk, hs, (fun h => by cases h),
      (C32_filled M minl maxl ti p hM hle htop x hx ho hl).2 k hk hd⟩

/-- C69: a ghost update runs to the end without access outside of arrays. Afterwards, in every patch of the
process on the levels of the update, interior cells have the values they had, and every ghost cell that is
to be filled (see C32) has the value that follows from what the owners of patches had in their interiors:
next to a patch of the same size that of the cell in the same place, next to smaller patches the mean, next
to a larger patch the linear reconstruction, beyond the physical boundary what the boundary conditions say,
and where these meet, one from the other. -/
theorem C69_values (d : Dims) (hS : Sizes d) (M : Mesh) (hM : M.Ok) (S : Setup) (hF : Fits d M S)
    (recv : Grid ℚ → Grid ℚ) (hR : Received d recv) (minl maxl : Int) (hle : minl ≤ maxl)
    (htop : ∀ x ∈ M.patches, M.level x ≤ maxl) (ti : Bool) (p : Nat) (init : Nat → State ℚ) :
    (∃ fin, Update d M S recv minl maxl ti p init fin) ∧
    ∀ fin, Update d M S recv minl maxl ti p init fin →
      ∀ x ∈ M.patches, M.owner x = p → minl ≤ M.level x → ∀ i j mq, comp d mq →
        (interior d i j → fin x false (i, j, mq) = init p x false (i, j, mq)) ∧
        (Due d M minl ti x i j →
          Expected d M S minl ti (fun y t => init (M.owner y) y t) x false i j mq (fin x false (i, j, mq))) := by
  obtain ⟨h1, h2⟩ := update_agree d hS M hM S hF recv hR minl maxl hle htop ti p init
  refine ⟨h1, fun fin hU x hx ho hl i j mq hm => ?_⟩
  have key : interior d i j ∨ Due d M minl ti x i j →
      Expected d M S minl ti (fun y t => init (M.owner y) y t) x false i j mq (fin x false (i, j, mq)) := by
    intro hd
    obtain ⟨r, hr, hi, hn, hv⟩ := due_valid d M hM minl maxl hle htop ti p x hx ho hl i j hd
    exact h2 fin hU x false r hv hr i j mq hi hn hm
  refine ⟨fun hi => ?_, fun hd => key (Or.inr hd)⟩
  have := expected_interior hM hi (key (Or.inl hi))
  rw [this, ho]

/-- The expected value is unique, so that C69 determines the ghost cells. -/
theorem C69_unique (d : Dims) (hS : Sizes d) (M : Mesh) (hM : M.Ok) (S : Setup) (hF : Fits d M S) (minl : Int)
    (ti : Bool) (I : State ℚ) (x : Nat) (t : Bool) (i j mq : ℤ) (v v' : ℚ)
    (h : Expected d M S minl ti I x t i j mq v) (h' : Expected d M S minl ti I x t i j mq v') : v = v' :=
  expected_unique hS hM hF h v' h'

theorem owner_ok {M : Mesh} (h : M.Ok) (o : Nat → Nat) : Mesh.Ok {M with owner := o} :=
  ⟨h.sameSym, h.halfSym, h.doubleSym, h.sameCorner, h.halfCorner, h.doubleCorner, h.sameLevel, h.halfLevel,
    h.sameCornerLevel, h.halfCornerLevel, h.closed, h.balFace, h.balCorner, h.siblings, h.meetFace, h.meetCornerX,
    h.meetCornerY, h.hangingNone⟩

theorem owner_fits {d : Dims} {M : Mesh} {S : Setup} (h : Fits d M S) (o : Nat → Nat) : Fits d {M with owner := o} S :=
  ⟨h.face, h.corner, h.half, h.halfCorner, h.oneFace, h.area, h.bc⟩

/-- C69: the result does not depend on the distribution of patches among processes, nor on what was in ghost
cells and ghost patches before. Take two distributions, `M.owner` and `owner'`, and two states in which the
owners of patches have the same values in the interiors. Then patch `x` has the same values after the update. -/
theorem C69_distribution (d : Dims) (hS : Sizes d) (M : Mesh) (hM : M.Ok) (S : Setup) (hF : Fits d M S)
    (recv recv' : Grid ℚ → Grid ℚ) (hR : Received d recv) (hR' : Received d recv') (minl maxl : Int)
    (hle : minl ≤ maxl) (htop : ∀ x ∈ M.patches, M.level x ≤ maxl) (ti : Bool) (owner' : Nat → Nat)
    (init init' : Nat → State ℚ)
    (hI : ∀ x t i j mq, interior d i j → init (M.owner x) x t (i, j, mq) = init' (owner' x) x t (i, j, mq))
    (x : Nat) (hx : x ∈ M.patches) (hl : minl ≤ M.level x) (fin fin' : State ℚ)
    (hU : Update d M S recv minl maxl ti (M.owner x) init fin)
    (hU' : Update d {M with owner := owner'} S recv' minl maxl ti (owner' x) init' fin') :
    ∀ i j mq, comp d mq → interior d i j ∨ Due d M minl ti x i j →
      fin x false (i, j, mq) = fin' x false (i, j, mq) := by
  intro i j mq hm hd
  have A := (C69_values d hS M hM S hF recv hR minl maxl hle htop ti (M.owner x) init).2 fin hU x hx rfl hl i j mq hm
  have B := (C69_values d hS {M with owner := owner'} (owner_ok hM owner') S (owner_fits hF owner') recv' hR' minl maxl
    hle htop ti (owner' x) init').2 fin' hU' x hx rfl hl i j mq hm
  rcases hd with hi | hd
  · rw [A.1 hi, B.1 hi]
    exact hI x false i j mq hi
  · refine expected_unique hS (owner_ok hM owner') (owner_fits hF owner')
      (expected_congr (fun x t i j h => hI x t i j mq h) (expected_owner owner' (A.2 hd))) _ (B.2 hd)

/-- The hypothesis `Received` holds for what is packed and unpacked, whatever the ghost patch held before, if
patches are not too small (C41). -/
theorem C69_received (d : Dims) (o : GhostPack.Opts) (hA : GhostPack.Accepted d o) (hm : 1 ≤ d.mbc)
    (hx : 4 * d.mbc ≤ d.mx) (hy : 4 * d.mbc ≤ d.my) (rest ghost : GhostPack.Data ℚ) (buf : GhostPack.Buf ℚ)
    (recv : Grid ℚ → Grid ℚ)
    (hrecv : ∀ q, ∃ data' buf' ghost' buf'',
      GhostPack.localPack d o (fun l => match l with | .q i j mq => q (i, j, mq) | l => rest l) buf = some (data', buf') ∧
      GhostPack.remoteUnpack d o ghost buf' = some (ghost', buf'') ∧
      ∀ i j mq, recv q (i, j, mq) = ghost' (.q i j mq)) :
    Received d recv := by
  intro q i j mq hn hc
  obtain ⟨data', buf', ghost', buf'', e1, e2, e3⟩ := hrecv q
  obtain ⟨n, hnn, msg, h1, h2⟩ :=
    GhostPack.C41_partial d o hA hm hx hy (fun l => match l with | .q i j mq => q (i, j, mq) | l => rest l)
  obtain ⟨b, e4, hb, _⟩ := h1 buf
  rw [e4, Option.some.injEq, Prod.mk.injEq] at e1
  obtain ⟨g, e5, hg, _⟩ := h2 buf' (e1.2 ▸ hb) ghost
  rw [e5, Option.some.injEq, Prod.mk.injEq] at e2
  rw [e3, ← e2.1, hg]
  have hbox : (1 - (d.mbc : ℤ) ≤ i ∧ i ≤ d.mx + d.mbc ∧ 1 - (d.mbc : ℤ) ≤ j ∧ j ≤ d.my + d.mbc) ∧
      (i ≤ 2 * d.mbc ∨ (d.mx : ℤ) - 2 * d.mbc < i ∨ j ≤ 2 * d.mbc ∨ (d.my : ℤ) - 2 * d.mbc < j) := by
    rcases hn with ⟨hn, h⟩ | ⟨f, hf, hs⟩ | ⟨k, hk, hs⟩
    · unfold interior at hn; omega
    · rcases four hf with rfl | rfl | rfl | rfl <;> simp [inStrip] at hs <;> omega
    · rcases four hk with rfl | rfl | rfl | rfl <;> simp [inCorner] at hs <;> omega
  exact ⟨⟨⟨by omega, by omega, by omega, by omega⟩, by omega⟩, hc⟩

/-! ### Example: the mesh of seven patches of C32, on three processes -/

/-- Areas all one; a solid wall at the left, extrapolation elsewhere. -/
def exSetup : Setup := ⟨exGeo, fun _ _ => 1, true, fun f => if f = 0 then 3 else 1⟩

theorem ex_half : ∀ x f y0 y1 rf g, f < 4 → g < 2 → lMesh.face x f = .half y0 y1 rf →
    HalfFaceLink exDims (exSetup.geo.faceT x f) f g (exSetup.geo.patch x) (exSetup.geo.patch (pick y0 y1 g)) ∧
    touching (exSetup.geo.faceT x f) f = rf ∧
    ∀ hk, lMesh.face (pick y0 y1 g) rf = .double x f g hk → CoarseFine.hanging (exSetup.geo.faceT x f) f g = hk := by
  intro x f y0 y1 rf g hf hg h
  refine ⟨⟨⟨?_, ex_lattice x, ex_lattice _⟩, ?_⟩, ?_, ?_⟩
  · unfold lMesh at h; dsimp only at h
    rcases two hg with rfl | rfl <;> split at h <;> first | (cases h; rfl) | cases h
  · rw [if_pos (show exSetup.geo.faceT x f 8 / 4 % 2 = 1 from (by decide : Transform.intra 8 / 4 % 2 = 1))]
    refine ⟨(by decide : valid false Transform.intra = true), ?_⟩
    unfold lMesh at h; dsimp only at h
    rcases two hg with rfl | rfl <;> split at h <;> first
      | (cases h; intro a ha; simp [axes] at ha
         rcases ha with rfl | rfl <;>
           simp [exSetup, exGeo, exPatch, faceHalfStep, patchCentre, halfCentre, pick] <;> norm_num)
      | cases h
  · unfold lMesh at h; dsimp only at h
    split at h <;> first | (cases h; rfl) | cases h
  · intro hk h2
    unfold lMesh at h h2; dsimp only at h h2
    rcases two hg with rfl | rfl <;> split at h <;> first | (cases h; cases h2; rfl) | cases h

theorem ex_halfCorner : ∀ x k y rk, k < 4 → cornerNbr lMesh x k = .half y rk →
    HalfCornerLink exDims (cornerData exSetup.geo x k y) k ∧ touchingCorner (cornerData exSetup.geo x k y) k = rk := by
  intro x k y rk hk h
  have h' : lMesh.corner x k = .half y rk := by
    unfold cornerNbr at h; split at h
    · cases h
    · exact h
  refine ⟨⟨⟨?_, ex_lattice x, ex_lattice y⟩, rfl, (by decide : (-1 : ℤ) ≤ -1), ?_⟩, ?_⟩
  · unfold lMesh at h'; dsimp only at h'
    split at h' <;> first | (cases h'; rfl) | cases h'
  · rw [if_neg (show ¬ 0 ≤ (cornerData exSetup.geo x k y).blockIface from (by decide : ¬ (0 : ℤ) ≤ -1)),
      if_neg (show ¬ (cornerData exSetup.geo x k y).isBlockCorner = true from (by decide : ¬ false = true))]
    refine ⟨(by decide : valid false Transform.intra = true), (by decide : Transform.intra 8 / 4 % 2 = 1), ?_⟩
    unfold lMesh at h'; dsimp only at h'
    split at h' <;> first
      | (cases h'; intro a ha; simp [axes] at ha
         rcases ha with rfl | rfl <;>
           simp [cornerData, exSetup, exGeo, exPatch, cornerHalfStep, patchCentre, halfCentre] <;> norm_num)
      | cases h'
  · unfold lMesh at h'; dsimp only at h'
    split at h' <;> first | (cases h'; rfl) | cases h'

theorem ex_oneFace : ∀ x f y rf g f' y' rf' g' hk, f < 4 → f' < 4 → lMesh.face x f = .double y rf g hk →
    lMesh.face x f' = .double y' rf' g' hk → f = f' := by
  intro x f y rf g f' y' rf' g' hk _ _ h h'
  unfold lMesh at h h'; dsimp only at h h'
  split at h <;> first | (cases h; done) | (cases h; split at h' <;> first | rfl | (cases h'; done) | simp_all)

theorem exS_fits : Fits exDims lMesh exSetup where
  face := CopyGhost.ex_fits.face
  corner := CopyGhost.ex_fits.corner
  half := ex_half
  halfCorner := ex_halfCorner
  oneFace := ex_oneFace
  area := fun _ x i j _ => by simp [exSetup]
  bc := fun x => by
    refine ⟨by decide, by decide, ?_, ?_, ?_⟩
    · intro k _ _
      by_cases h : k = 0
      · right; simp [exSetup, h]
      · left; simp [exSetup, h]
    · intro k _ _ _; decide
    · intro k _ _ _ _; decide

theorem exS_sizes : Sizes exDims :=
  ⟨⟨by decide, by decide, by decide, by decide, by decide, by decide⟩, by decide, by decide⟩

/-- The hypotheses of the theorems, with patches of different size on different processes, with and without
time interpolation; ghost cells of all kinds that are to be filled. -/
example : Sizes exDims ∧ lMesh.Ok ∧ Fits exDims lMesh exSetup ∧ Received exDims (fun q => q) ∧
    (∀ x ∈ lMesh.patches, lMesh.level x ≤ 2) ∧ 3 ∈ lMesh.patches ∧ 1 ≤ lMesh.level 3 ∧
    lMesh.face 3 2 = .double 1 3 0 1 ∧ lMesh.owner 3 ≠ lMesh.owner 1 ∧
    Due exDims lMesh 1 false 3 0 5 ∧ Due exDims lMesh 2 true 3 0 5 ∧ Due exDims lMesh 1 false 3 0 9 ∧
    Due exDims lMesh 1 false 0 0 5 ∧ Due exDims lMesh 1 false 0 0 0 := by
  refine ⟨exS_sizes, lMesh_ok, exS_fits, fun _ _ _ _ _ _ => rfl, by decide, by decide, by decide, by decide, by decide,
    ?_, ?_, ?_, ?_, ?_⟩
  · exact Or.inl ⟨0, by decide, by simp [inStrip, exDims], fun _ => Or.inl (by decide)⟩
  · exact Or.inl ⟨0, by decide, by simp [inStrip, exDims], fun _ => Or.inr rfl⟩
  · exact Or.inr ⟨2, by decide, by simp [inCorner, exDims], ⟨0, 2, 1, 0, by decide, rfl, Or.inl (by decide)⟩⟩
  · exact Or.inl ⟨0, by decide, by simp [inStrip, exDims], fun h => by cases h⟩
  · exact Or.inr ⟨0, by decide, by simp [inCorner, exDims], trivial⟩

/-- … and of two distributions and initial states: all values one on the process that owns a patch, ghost
patches at first with different values. -/
example : ∀ x t i j mq, interior exDims i j →
    (fun p x _ _ => if lMesh.owner x = p then 1 else 7 : Nat → State ℚ) (lMesh.owner x) x t (i, j, mq) =
    (fun p x _ _ => if x % 2 = p then 1 else 8 : Nat → State ℚ) (x % 2) x t (i, j, mq) := by
  intro x t i j mq _; simp

/-- The hypotheses of `C69_received` for the default sizes: packing and unpacking succeed for all values. -/
example (rest ghost : GhostPack.Data ℚ) (buf : GhostPack.Buf ℚ) :
    GhostPack.Accepted exDims ⟨2, true, true, true⟩ ∧ 4 * exDims.mbc ≤ exDims.mx ∧ 4 * exDims.mbc ≤ exDims.my ∧
    ∃ recv : Grid ℚ → Grid ℚ, ∀ q, ∃ data' buf' ghost' buf'',
      GhostPack.localPack exDims ⟨2, true, true, true⟩
        (fun l => match l with | .q i j mq => q (i, j, mq) | l => rest l) buf = some (data', buf') ∧
      GhostPack.remoteUnpack exDims ⟨2, true, true, true⟩ ghost buf' = some (ghost', buf'') ∧
      ∀ i j mq, recv q (i, j, mq) = ghost' (.q i j mq) := by
  have hA : GhostPack.Accepted exDims ⟨2, true, true, true⟩ := ⟨rfl, by decide, by decide⟩
  refine ⟨hA, by decide, by decide, ?_⟩
  have key : ∀ q : Grid ℚ, ∃ g : Grid ℚ, ∃ data' buf' ghost' buf'',
      GhostPack.localPack exDims ⟨2, true, true, true⟩
        (fun l => match l with | .q i j mq => q (i, j, mq) | l => rest l) buf = some (data', buf') ∧
      GhostPack.remoteUnpack exDims ⟨2, true, true, true⟩ ghost buf' = some (ghost', buf'') ∧
      ∀ i j mq, g (i, j, mq) = ghost' (.q i j mq) := by
    intro q
    obtain ⟨n, _, msg, h1, h2⟩ := GhostPack.C41_partial exDims ⟨2, true, true, true⟩ hA (by decide) (by decide)
      (by decide) (fun l => match l with | .q i j mq => q (i, j, mq) | l => rest l)
    obtain ⟨b, e, hb, _⟩ := h1 buf
    obtain ⟨g, e', _, _⟩ := h2 b hb ghost
    exact ⟨fun c => g (.q c.1 c.2.1 c.2.2), _, _, _, _, e, e', fun _ _ _ => rfl⟩
  exact ⟨fun q => (key q).choose, fun q => (key q).choose_spec⟩

end Fclaw.GhostAll
