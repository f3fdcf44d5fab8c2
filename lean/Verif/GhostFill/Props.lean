/-
C32: ghost filling leaves nothing unfilled and interpolates from filled regions only.
C33: every patch is treated once.
C62: remote data is read only after the exchange: false for copies between faces; true for everything else.
-/
import Verif.GhostFill.Final
import Verif.GhostFill.Count
import Verif.GhostFill.Example

set_option autoImplicit false
namespace Fclaw.GhostFill

variable (M : Mesh) (minl maxl : Int) (ti : Bool) (p : Nat)

/-- C32: after a ghost update every ghost region of every patch of the process on the levels of the
update that has a source holds values computed in this update from interiors at the right time. -/
theorem C32_filled (hM : M.Ok) (hle : minl ≤ maxl) (htop : ∀ x ∈ M.patches, M.level x ≤ maxl)
    (x : Nat) (hx : x ∈ M.patches) (ho : M.owner x = p) (hl : minl ≤ M.level x) :
    (∀ f h, f < 4 → h < 2 → DueStrip M minl ti x f →
      ghostUpdate M minl maxl ti p ⟨x, false, .strip f h⟩ = true) ∧
    (∀ k, k < 4 → DueCorner M minl ti x k →
      ghostUpdate M minl maxl ti p ⟨x, false, .corner k⟩ = true) := by
  have X : Ctx M minl maxl := ⟨hM, hle, htop⟩
  refine ⟨fun f h hf hh hd => strip_final X ti p ⟨hx, ho⟩ hl hf hh hd, ?_⟩
  intro k hk hd
  unfold DueCorner at hd
  cases hbx : isBoundary (M.face x (faceX k)) <;> cases hby : isBoundary (M.face x (faceY k)) <;>
    simp only [hbx, hby] at hd
  · have hcn : cornerNbr M x k = M.corner x k := by simp [cornerNbr, hbx, hby]
    cases hc : M.corner x k with
    | same y rk => exact corner_fill X ti p ⟨hx, ho⟩ hl hk (Or.inl (hcn.trans hc))
    | half y rk => exact corner_fill X ti p ⟨hx, ho⟩ hl hk (Or.inr (hcn.trans hc))
    | double c kc => rw [hc] at hd; exact corner_double X ti p ⟨hx, ho⟩ hl hk (hcn.trans hc) hd
    | none =>
      rw [hc] at hd
      obtain ⟨f, c, fc, g, hf, h1, h2⟩ := hd
      exact corner_hanging X ti p ⟨hx, ho⟩ hl hk hf h1 h2
  · exact corner_phys X ti p ⟨hx, ho⟩ hl hk (Or.inr hby) (fun _ => hd) (fun h => by rw [hby] at h; cases h)
  · exact corner_phys X ti p ⟨hx, ho⟩ hl hk (Or.inl hbx) (fun h => by rw [hbx] at h; cases h) (fun _ => hd)
  · exact corner_phys X ti p ⟨hx, ho⟩ hl hk (Or.inl hbx) (fun h => by rw [hbx] at h; cases h)
      (fun h => by rw [hby] at h; cases h)

/-- C32: averaging and interpolation, in whatever step, read valid regions only. -/
theorem C32_reads (hM : M.Ok) (hle : minl ≤ maxl) (htop : ∀ x ∈ M.patches, M.level x ≤ maxl) :
    ∀ ob ∈ updateTrace M minl maxl ti p, ob.1.isInterp = true ∨ ob.1.isAverage = true → ob.2 = true := by
  have X : Ctx M minl maxl := ⟨hM, hle, htop⟩
  intro ob hob hk
  have h1 : ob.1.isFaceCopy = false ∧ ob.1.isPhys = false := by
    cases h : ob.1 <;> rw [h] at hk <;> simp [Op.isInterp, Op.isAverage, Op.isFaceCopy, Op.isPhys] at hk ⊢
  unfold updateTrace at hob
  rw [List.append_assoc, List.mem_append] at hob
  rcases hob with hob | hob
  · exact before_exchange X ti p ob hob h1
  · exact after_exchange X ti p ob hob h1.2

/-- C32: once the exchange is complete, no copy, average or interpolation at all reads a region that is
not valid. -/
theorem C32_after_exchange (hM : M.Ok) (hle : minl ≤ maxl) (htop : ∀ x ∈ M.patches, M.level x ≤ maxl) :
    ∀ ob ∈ trace M (afterExchange M minl maxl ti p) (indirectOps M p minl ti) ++
        trace M (afterIndirect M minl maxl ti p) (ops M p (step3 M p minl maxl ti)),
      ob.1.isPhys = false → ob.2 = true :=
  after_exchange ⟨hM, hle, htop⟩ ti p

example : lMesh.Ok ∧ (1 : Int) ≤ 2 ∧ (∀ x ∈ lMesh.patches, lMesh.level x ≤ 2) ∧
    3 ∈ lMesh.patches ∧ lMesh.owner 3 = 1 ∧ 1 ≤ lMesh.level 3 ∧
    DueStrip lMesh 1 false 3 0 ∧ DueStrip lMesh 2 true 3 2 := by
  refine ⟨lMesh_ok, by decide, by decide, by decide, by decide, by decide, ?_, ?_⟩
  · intro _; left; decide
  · intro _; right; rfl

example : DueCorner lMesh 1 false 3 0 ∧ DueCorner lMesh 1 false 3 1 ∧ DueCorner lMesh 1 false 4 1 := by
  refine ⟨?_, ?_, ?_⟩
  · exact (Or.inl (by decide) : coarserInUse lMesh 1 false 3)
  · exact ⟨2, 1, 3, 0, by decide, rfl, Or.inl (by decide)⟩
  · intro _; left; decide

/-- There are interpolations and averages to speak of. -/
example : (updateTrace lMesh 1 2 false 1).any (fun ob => ob.1.isInterp) = true ∧
    (updateTrace lMesh 1 2 false 1).any (fun ob => ob.1.isAverage) = true := by
  decide +kernel

/-- C33: the two passes, over the patches inside and over those at the parallel boundary, together treat
every patch of the process on the levels of the update once for each kind of filling. -/
theorem C33_once (hn : M.patches.Nodup) (hle : minl ≤ maxl) (x : Nat) (hx : x ∈ M.patches) (ho : M.owner x = p) :
    let passes := step2 M p minl maxl ti ++ step3 M p minl maxl ti
    let copies := if inRange minl maxl ti (M.level x) then 1 else 0
    let asCoarse := if inRange minl (maxl - 1) ti (M.level x) && onInterface M x then 1 else 0
    let asFine := if inRange minl (maxl - 1) ti (M.level x - 1) && onInterface M x then 1 else 0
    (passes.countP (faceVisit .copy true x) = copies ∧ passes.countP (cornerVisit .copy true x) = copies) ∧
    (passes.countP (faceVisit .average true x) = asCoarse ∧ passes.countP (cornerVisit .average true x) = asCoarse) ∧
    (passes.countP (faceVisit .interp true x) = asCoarse ∧ passes.countP (cornerVisit .interp true x) = asCoarse) ∧
    (passes.countP (faceVisit .interp false x) = asFine ∧ passes.countP (cornerVisit .interp false x) = asFine) := by
  intro passes copies asCoarse asFine
  have hi1 : minl - 1 ≤ maxl - 1 := by omega
  have hi0 : minl - 1 ≤ maxl := by omega
  have hmode : ∀ c : Nat, (if modeOk M p .interiorOnly x = true then c else 0) +
      (if modeOk M p .ghostOnly x = true then c else 0) = c := by
    intro c
    simp only [modeOk]
    by_cases hb : onBoundary M p x = true <;> simp [hb]
  have coarse : ∀ w kind, passes.countP (which w kind true x) =
      match kind with | .copy => copies | .average => asCoarse | .interp => asCoarse := by
    intro w kind
    simp only [passes, step2, step3, fillCoarse, List.countP_append, count_physPhase,
      count_copyPhase hn hx ho minl maxl ti _ _ hi0, count_averageCoarse hn hx ho minl (maxl - 1) ti _ _ hi1,
      count_interpCoarse hn hx ho minl (maxl - 1) ti _ _ hi1, copies, asCoarse]
    cases kind <;> cases onInterface M x <;> cases inRange minl maxl ti (M.level x) <;>
      cases inRange minl (maxl - 1) ti (M.level x) <;> simp [hmode]
  have fine : ∀ w, passes.countP (which w .interp false x) = asFine := by
    intro w
    simp only [passes, step2, step3, fillCoarse, List.countP_append, count_physPhase,
      count_copyPhase hn hx ho minl maxl ti _ _ hi0,
      count_averageFine hn hx ho minl (maxl - 1) ti _ _ hi1 w .interp (by decide),
      count_interpFine hn hx ho minl (maxl - 1) ti _ _ hi1, asFine]
    cases onInterface M x <;> cases inRange minl (maxl - 1) ti (M.level x - 1) <;> simp [hmode]
  exact ⟨⟨coarse .face .copy, coarse .corner .copy⟩, ⟨coarse .face .average, coarse .corner .average⟩,
    ⟨coarse .face .interp, coarse .corner .interp⟩, ⟨fine .face, fine .corner⟩⟩

/-- C33: before data is sent, exactly the patches at the parallel boundary are treated, once each. -/
theorem C33_before_sending (hn : M.patches.Nodup) (hle : minl ≤ maxl) (x : Nat) (hx : x ∈ M.patches)
    (ho : M.owner x = p) :
    (step1 M p minl maxl ti).countP (faceVisit .copy true x) =
      (if inRange minl maxl ti (M.level x) && onBoundary M p x then 1 else 0) ∧
    (step1 M p minl maxl ti).countP (faceVisit .average true x) =
      (if inRange minl (maxl - 1) ti (M.level x) && onBoundary M p x && onInterface M x then 1 else 0) ∧
    (step1 M p minl maxl ti).countP (faceVisit .interp true x) = 0 := by
  have hi1 : minl - 1 ≤ maxl - 1 := by omega
  have hi0 : minl - 1 ≤ maxl := by omega
  have key : ∀ kind, (step1 M p minl maxl ti).countP (which .face kind true x) =
      match kind with
      | .copy => (if inRange minl maxl ti (M.level x) && onBoundary M p x then 1 else 0)
      | .average => (if inRange minl (maxl - 1) ti (M.level x) && onBoundary M p x && onInterface M x then 1 else 0)
      | .interp => 0 := by
    intro kind
    simp only [step1, fillCoarse, List.countP_append, count_physPhase,
      count_copyPhase hn hx ho minl maxl ti _ _ hi0, count_averageCoarse hn hx ho minl (maxl - 1) ti _ _ hi1]
    by_cases hb : onBoundary M p x = true <;> cases kind <;> cases onInterface M x <;>
      cases inRange minl maxl ti (M.level x) <;> cases inRange minl (maxl - 1) ti (M.level x) <;> simp [modeOk, hb]
  exact ⟨key .copy, key .average, key .interp⟩

/-- C33: no patch of another process is treated. -/
theorem C33_local (hle : minl ≤ maxl) :
    ∀ v ∈ step1 M p minl maxl ti ++ step2 M p minl maxl ti ++ step3 M p minl maxl ti, ∀ x,
      (match v with | .face _ y => y = x | .corner _ y => y = x | .phys _ y => y = x) →
      x ∈ M.patches ∧ M.owner x = p := by
  intro v hv x hx
  have h : LegitVisit M minl ti p v := by
    simp only [step1, step2, step3, List.mem_append] at hv
    rcases hv with (hv | (hv | hv) | hv) | (hv | hv) | hv
    · exact legit_fillCoarse M p _ _ minl maxl _ ti hle (by omega) v hv
    · exact legit_fillCoarse M p _ _ minl maxl _ ti hle (by omega) v hv
    · exact legit_interp M p _ _ minl _ ti (by omega) v hv
    · exact legit_phys M p _ minl _ _ ti v hv
    · exact legit_fillCoarse M p _ _ minl maxl _ ti hle (by omega) v hv
    · exact legit_interp M p _ _ minl _ ti (by omega) v hv
    · exact legit_phys M p _ minl _ _ ti v hv
  cases v with
  | face e y => simp only at hx; subst hx; exact ⟨h.2.1, h.1⟩
  | corner e y => simp only at hx; subst hx; exact ⟨h.2.1, h.1⟩
  | phys t y => simp only at hx; subst hx; exact ⟨h.2, h.1⟩

example : lMesh.patches.Nodup ∧ (1 : Int) ≤ 2 ∧ 1 ∈ lMesh.patches ∧ lMesh.owner 1 = 0 ∧
    inRange 1 1 false (lMesh.level 1) = true ∧ onInterface lMesh 1 = true ∧ onBoundary lMesh 0 1 = true := by
  decide

/-- C62 does not hold: in the part before the exchange a face copy reads the ghost patch of the other
process, which holds what an earlier update left there, or nothing. -/
theorem C62_counterexample :
    (Op.copyFace false 0 1 1, false) ∈
      trace twoMesh (start twoMesh 0 false 0) (ops twoMesh 0 (step1 twoMesh 0 0 0 false)) ∧
    twoMesh.owner 1 ≠ 0 ∧ twoMesh.Ok := by
  refine ⟨by decide +kernel, by decide, twoMesh_ok⟩

/-- C62 holds for corner copies, averages and interpolation: before the exchange they read regions of the
own patches that are valid. (What is missing: copies at faces, see above. Their result is overwritten
later, C32.) -/
theorem C62_partial (hM : M.Ok) (hle : minl ≤ maxl) (htop : ∀ x ∈ M.patches, M.level x ≤ maxl) :
    ∀ ob ∈ trace M (start M minl ti p) (ops M p (step1 M p minl maxl ti)) ++
        trace M (afterStep1 M minl maxl ti p) (ops M p (step2 M p minl maxl ti)),
      ob.1.isFaceCopy = false ∧ ob.1.isPhys = false → ob.2 = true :=
  before_exchange ⟨hM, hle, htop⟩ ti p

example : (trace lMesh (afterStep1 lMesh 1 2 false 0) (ops lMesh 0 (step2 lMesh 0 1 2 false)) ++
    trace lMesh (start lMesh 1 false 2) (ops lMesh 2 (step1 lMesh 2 1 2 false))).any
      (fun ob => !ob.1.isFaceCopy && !ob.1.isPhys) = true := by
  decide +kernel

end Fclaw.GhostFill
