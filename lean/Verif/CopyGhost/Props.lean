/-
C34: after a ghost update, ghost cells next to a patch of the same size hold what that patch has in the
cell at the same place.
-/
import Verif.CopyGhost.UpdateLemmas
import Verif.GhostFill.Example
import Verif.Transform.Props

set_option autoImplicit false
set_option linter.unusedSimpArgs false
namespace Fclaw.CopyGhost

open Fort Transform GhostFill

/-- C34: one copy across a face. It succeeds; each ghost cell of that face gets the value of the interior
cell of the neighbour in the same place, and no other cell changes. -/
theorem C34_copy_face {α : Type} (d : Dims) (hd : Proper d) (td : TData) (f : Nat) (hf : f < 4)
    (L : FaceLink d td.transform f td.this td.neighbor) (qn q : Grid α) :
    ∃ q', copyFace d td f qn q = some q' ∧
      (∀ i j mq, inStrip d f i j → comp d mq → ∃ i' j', interior d i' j' ∧
        FaceSame d td.transform td.this td.neighbor i j i' j' ∧ q' (i, j, mq) = qn (i', j', mq)) ∧
      ∀ i j mq, ¬ (inStrip d f i j ∧ comp d mq) → q' (i, j, mq) = q (i, j, mq) := by
  obtain ⟨T, h1, h2, h3⟩ := clawFace_spec hd td f L
  obtain ⟨A, hA, hAT⟩ := build_spec td T h1 h2
  have hn : ∀ i j, inStrip d f i j → near d (T i j).1 (T i j).2 := fun i j hs => strip_near f T h2 hd i j hs
  obtain ⟨q', e, a, b⟩ := copyFace_writes td f hf qn T A hA hAT hn q
  refine ⟨q', e, ?_, fun i j mq hc => b (i, j, mq) hc⟩
  intro i j mq hs hm
  exact ⟨(T i j).1, (T i j).2, (hn i j hs).1, h3 i j, a (i, j, mq) ⟨hs, hm⟩⟩

/-- C34: one copy across a corner. -/
theorem C34_copy_corner {α : Type} (d : Dims) (hd : Proper d) (td : TData) (k : Nat) (hk : k < 4)
    (L : CornerLink d td k) (qn q : Grid α) :
    ∃ q', copyCorner d td k qn q = some q' ∧
      (∀ i j mq, inCorner d k i j → comp d mq → ∃ i' j', interior d i' j' ∧
        CornerSame d td i j i' j' ∧ q' (i, j, mq) = qn (i', j', mq)) ∧
      ∀ i j mq, ¬ (inCorner d k i j ∧ comp d mq) → q' (i, j, mq) = q (i, j, mq) := by
  obtain ⟨T, h1, h2, h3⟩ := clawCorner_spec hd td k L
  have hn : ∀ i j, inCorner d k i j → near d (T i j).1 (T i j).2 := fun i j hs => corner_near k hk T h2 hd i j hs
  obtain ⟨q', e, a, b⟩ := copyCorner_writes td k hk qn T h1 hn q
  refine ⟨q', e, ?_, fun i j mq hc => b (i, j, mq) hc⟩
  intro i j mq hs hm
  exact ⟨(T i j).1, (T i j).2, (hn i j hs).1, h3 i j, a (i, j, mq) ⟨hs, hm⟩⟩

/-- C34: a whole ghost update, on any number of processes, of a mesh that may but need not be uniform.
It runs to the end. For every patch `x` of the process on the levels of the update, its interior is
unchanged, and its ghost cells at every face and corner where the neighbour `y` has the same size hold
the value that the owner of `y` had in `y` in the same place, whatever process that is. -/
theorem C34_update {α : Type} (d : Dims) (hd : Proper d) (M : Mesh) (hM : M.Ok) (G : Geometry) (hG : Fits d M G)
    (oth : Op → State α → State α) (hF : Framed d M oth) (recv : Grid α → Grid α) (hR : Received d recv)
    (minl maxl : Int) (hle : minl ≤ maxl) (htop : ∀ x ∈ M.patches, M.level x ≤ maxl) (ti : Bool) (p : Nat)
    (init : Nat → State α) :
    (∃ fin, Update d M G oth recv minl maxl ti p init fin) ∧
    ∀ fin, Update d M G oth recv minl maxl ti p init fin →
      ∀ x ∈ M.patches, M.owner x = p → minl ≤ M.level x →
        (∀ i j mq, interior d i j → fin x false (i, j, mq) = init p x false (i, j, mq)) ∧
        (∀ f y rf, f < 4 → M.face x f = .same y rf → ∀ i j mq, inStrip d f i j → comp d mq →
          ∃ i' j', interior d i' j' ∧ FaceSame d (G.faceT x f) (G.patch x) (G.patch y) i j i' j' ∧
            fin x false (i, j, mq) = init (M.owner y) y false (i', j', mq)) ∧
        (∀ k y rk, k < 4 → cornerNbr M x k = .same y rk → ∀ i j mq, inCorner d k i j → comp d mq →
          ∃ i' j', interior d i' j' ∧ CornerSame d (cornerData G x k y) i j i' j' ∧
            fin x false (i, j, mq) = init (M.owner y) y false (i', j', mq)) := by
  have X : Ctx M minl maxl := ⟨hM, hle, htop⟩
  have L2 : ∀ o ∈ ops M p (step2 M p minl maxl ti), Legit M minl ti p o := by
    intro o ho
    simp only [step2, ops_append, List.mem_append] at ho
    rcases ho with (ho | ho) | ho
    · exact legit_fill2 X ti p o ho
    · exact legit_interp2 X ti p o ho
    · exact legit_phys2 X ti p o ho
  have L3 : ∀ o ∈ ops M p (step3 M p minl maxl ti), Legit M minl ti p o := by
    intro o ho
    simp only [step3, ops_append, List.mem_append] at ho
    rcases ho with (ho | ho) | ho
    · exact legit_fill3 X ti p o ho
    · exact legit_interp3 X ti p o ho
    · exact legit_phys3 X ti p o ho
  have R1 := fun q => execAll_run hd hG hM hF (ops M q (step1 M q minl maxl ti)) (legit_step1 X ti q) (init q)
  have R2 := execAll_run hd hG hM hF _ L2
  have Ri := execAll_run hd hG hM hF _ (legit_indirect M hM p minl ti)
  have R3 := execAll_run hd hG hM hF _ L3
  constructor
  · choose s1 e1 _ using R1
    obtain ⟨s2, e2, _⟩ := R2 (s1 p)
    obtain ⟨s3, e3, _⟩ := Ri (exchange M minl ti recv p s1 s2)
    obtain ⟨fin, e4, _⟩ := R3 s3
    exact ⟨fin, s1, e1, s2, e2, s3, e3, e4⟩
  · rintro fin ⟨s1, e1, s2, e2, s3, e3, e4⟩ x hx ho hl
    have r1 : ∀ q, Run d M G (ops M q (step1 M q minl maxl ti)) (init q) (s1 q) := by
      intro q
      obtain ⟨s', e, r⟩ := R1 q
      rw [e1 q] at e; cases e; exact r
    obtain ⟨s', e, r2⟩ := R2 (s1 p)
    rw [e2] at e; cases e
    obtain ⟨s', e, ri⟩ := Ri (exchange M minl ti recv p s1 s2)
    rw [e3] at e; cases e
    obtain ⟨s', e, r3⟩ := R3 s3
    rw [e4] at e; cases e
    -- local patches are not touched by the exchange
    have hex : ∀ y t, M.owner y = p → exchange M minl ti recv p s1 s2 y t = s2 y t := by
      intro y t hy
      have : isGhost M p y = false := by
        cases h : isGhost M p y with
        | false => rfl
        | true => exact absurd hy (isGhost_owner h)
      simp [exchange, this]
    have htl : tl minl ti (M.level x) = false := by
      unfold tl; cases ti <;> simp; omega
    have hc : cur M minl ti (M.level x) := by
      unfold cur; split <;> omega
    -- near cells of neighbours, at each stage
    have n1 : ∀ y, NearEq d (s1 (M.owner y) y false) (init (M.owner y) y false) := fun y =>
      nearEq_of_inter (fun i j mq hi => (r1 _).inter y false i j mq hi) fun _ _ _ _ _ => rfl
    have n2 : ∀ y, M.owner y = p → NearEq d (s2 y false) (init (M.owner y) y false) := fun y hy =>
      nearEq_of_inter (fun i j mq hi => r2.inter y false i j mq hi) (by have := n1 y; rwa [hy] at this ⊢)
    have n3 : ∀ y, (M.owner y = p ∨ isGhost M p y = true) → M.level y = M.level x →
        NearEq d (exchange M minl ti recv p s1 s2 y false) (init (M.owner y) y false) := by
      intro y hy hly
      by_cases h : M.owner y = p
      · rw [hex y false h]; exact n2 y h
      · have hg := hy.resolve_left h
        have hcur : current M minl ti y false = true := by
          rw [current_iff, hly]; exact ⟨hc, htl.symm⟩
        intro i j mq hn hm
        have : exchange M minl ti recv p s1 s2 y false = recv (s1 (M.owner y) y false) := by
          simp [exchange, hg, hcur]
        rw [this, hR _ i j mq hn hm]
        exact n1 y i j mq hn hm
    have n4 : ∀ y, (M.owner y = p ∨ isGhost M p y = true) → M.level y = M.level x →
        NearEq d (s3 y false) (init (M.owner y) y false) := fun y hy hly =>
      nearEq_of_inter (fun i j mq hi => ri.inter y false i j mq hi) (n3 y hy hly)
    have hnb : ∀ y ∈ nbrs M x, M.owner y = p ∨ isGhost M p y = true := by
      intro y hy
      by_cases h : M.owner y = p
      · exact Or.inl h
      · exact Or.inr (ghost_of_nbr hx ho hy h)
    refine ⟨?_, ?_, ?_⟩
    · intro i j mq hi
      rw [r3.inter x false i j mq hi, ri.inter x false i j mq hi, hex x false ho, r2.inter x false i j mq hi,
        (r1 p).inter x false i j mq hi]
    · intro f y rf hf hface
      have hny : y ∈ nbrs M x := mem_nbrs_face hf (by rw [hface]; simp [faceList])
      have hly := hM.sameLevel x f y rf hf hface
      have good : GoodStrip d G x f y (init (M.owner y) y false) (fin x false) := by
        refine r3.strip false x f y rf _ hf hface (n4 y (hnb y hny) hly) ?_
        cases hb : onBoundary M p x with
        | true =>
          right
          have := occ_copy (p := p) (rp := true) (m := .ghostOnly) (hi := maxl) hle
            (⟨hx, ho, by simp [modeOk, hb]⟩) hc (htop x hx) hf hface
          rw [htl] at this
          simp only [step3, ops_append, List.mem_append]
          exact Or.inl (Or.inl this)
        | false =>
          left
          have hoy := notBoundary_nbr hb hny
          refine ri.strip false x f y rf _ hf hface (n3 y (hnb y hny) hly) (Or.inl ?_)
          rw [hex x false ho]
          refine r2.strip false x f y rf _ hf hface (by have := n1 y; rwa [hoy] at this ⊢) (Or.inr ?_)
          have := occ_copy (p := p) (rp := false) (m := .interiorOnly) (hi := maxl - 1) hle
            (⟨hx, ho, by simp [modeOk, hb]⟩) hc (htop x hx) hf hface
          rw [htl] at this
          simp only [step2, ops_append, List.mem_append]
          exact Or.inl (Or.inl this)
      intro i j mq hs hm
      obtain ⟨i', j', a, b, c⟩ := good i j mq hs hm
      exact ⟨i', j', a.1, b, c⟩
    · intro k y rk hk hcor
      have hny : y ∈ nbrs M x := mem_nbrs_corner hk (by rw [hcor]; simp [cornerList])
      have hly := hM.sameCornerLevel x k y rk hk hcor
      have good : GoodCorner d G x k y (init (M.owner y) y false) (fin x false) := by
        refine r3.corner false x k y rk _ hk hcor (n4 y (hnb y hny) hly) ?_
        cases hb : onBoundary M p x with
        | true =>
          right
          have := occ_copyCorner (p := p) (rp := true) (m := .ghostOnly) (hi := maxl) hle
            (⟨hx, ho, by simp [modeOk, hb]⟩) hc (htop x hx) hk hcor (Or.inr rfl)
          rw [htl] at this
          simp only [step3, ops_append, List.mem_append]
          exact Or.inl (Or.inl this)
        | false =>
          left
          have hoy := notBoundary_nbr hb hny
          refine ri.corner false x k y rk _ hk hcor (n3 y (hnb y hny) hly) (Or.inl ?_)
          rw [hex x false ho]
          refine r2.corner false x k y rk _ hk hcor (by have := n1 y; rwa [hoy] at this ⊢) (Or.inr ?_)
          have := occ_copyCorner (p := p) (rp := false) (m := .interiorOnly) (hi := maxl - 1) hle
            (⟨hx, ho, by simp [modeOk, hb]⟩) hc (htop x hx) hk hcor (Or.inl hoy)
          rw [htl] at this
          simp only [step2, ops_append, List.mem_append]
          exact Or.inl (Or.inl this)
      intro i j mq hs hm
      obtain ⟨i', j', a, b, c⟩ := good i j mq hs hm
      exact ⟨i', j', a.1, b, c⟩

/-! ### Examples -/

def exDims : Dims := ⟨8, 8, 2, 3⟩

/-- The patches of `lMesh` in the unit square. -/
def exPatch (x : Nat) : Patch :=
  ⟨if x ≤ 2 then 1 else 2, fun a => if a = 0
    then (if x = 0 ∨ x = 2 then 0 else if x = 4 ∨ x = 6 then 3 / 4 else 1 / 2)
    else (if x ≤ 1 then 0 else if x = 5 ∨ x = 6 then 3 / 4 else 1 / 2)⟩

def exGeo : Geometry :=
  ⟨exPatch, fun _ _ => intra, fun _ _ => intra, fun _ _ => false, fun _ _ => -1, fun _ _ _ => 0⟩

theorem ex_lattice (x : Nat) : OnLattice (exPatch x) := by
  intro a
  by_cases h : x ≤ 2
  · by_cases ha : a = 0
    · by_cases h0 : x = 0 ∨ x = 2
      · exact ⟨0, by simp [exPatch, h, ha, h0]⟩
      · exact ⟨1, by simp [exPatch, h, ha, h0, show ¬ (x = 4 ∨ x = 6) by omega]⟩
    · by_cases h0 : x ≤ 1
      · exact ⟨0, by simp [exPatch, h, ha, h0]⟩
      · exact ⟨1, by simp [exPatch, h, ha, h0, show ¬ (x = 5 ∨ x = 6) by omega]⟩
  · by_cases ha : a = 0
    · by_cases h0 : x = 4 ∨ x = 6
      · exact ⟨3, by simp [exPatch, h, ha, h0, show ¬ (x = 0 ∨ x = 2) by omega]; norm_num⟩
      · exact ⟨2, by simp [exPatch, h, ha, h0, show ¬ (x = 0 ∨ x = 2) by omega]; norm_num⟩
    · by_cases h0 : x = 5 ∨ x = 6
      · exact ⟨3, by simp [exPatch, h, ha, h0, show ¬ (x ≤ 1) by omega]; norm_num⟩
      · exact ⟨2, by simp [exPatch, h, ha, h0, show ¬ (x ≤ 1) by omega]; norm_num⟩

theorem ex_fits : Fits exDims lMesh exGeo := by
  constructor
  · intro x f y rf hf h
    refine ⟨⟨?_, ex_lattice x, ex_lattice y⟩, ?_⟩
    · unfold lMesh at h; dsimp only at h
      split at h <;> first | (cases h; rfl) | cases h
    · rw [if_pos (show exGeo.faceT x f 8 / 4 % 2 = 1 from (by decide : intra 8 / 4 % 2 = 1))]
      refine ⟨(by decide : valid false intra = true), ?_⟩
      unfold lMesh at h; dsimp only at h
      split at h <;> first
        | (cases h; intro a ha; simp [axes] at ha
           rcases ha with rfl | rfl <;> simp [exGeo, exPatch, faceStep] <;> norm_num)
        | cases h
  · intro x k y rk hk h
    have h' : lMesh.corner x k = .same y rk := by
      unfold cornerNbr at h; split at h
      · cases h
      · exact h
    refine ⟨⟨?_, ex_lattice x, ex_lattice y⟩, rfl, (by decide : (-1 : ℤ) ≤ -1), ?_⟩
    · unfold lMesh at h'; dsimp only at h'
      split at h' <;> first | (cases h'; rfl) | cases h'
    · rw [if_neg (show ¬ 0 ≤ (cornerData exGeo x k y).blockIface from (by decide : ¬ (0 : ℤ) ≤ -1)),
        if_neg (show ¬ (cornerData exGeo x k y).isBlockCorner = true from (by decide : ¬ false = true))]
      unfold lMesh at h'; dsimp only at h'
      split at h' <;> first
        | (cases h'; intro a ha; simp [axes] at ha
           rcases ha with rfl | rfl <;> simp [cornerData, exGeo, exPatch, cornerStep] <;> norm_num)
        | cases h'

/-- The hypotheses of `C34_update`, with two neighbours of the same size on different processes. -/
example : Proper exDims ∧ lMesh.Ok ∧ Fits exDims lMesh exGeo ∧
    Framed exDims lMesh (fun _ (s : State ℚ) => s) ∧ Received exDims (fun q : Grid ℚ => q) ∧
    (∀ x ∈ lMesh.patches, lMesh.level x ≤ 2) ∧
    lMesh.face 3 1 = .same 4 0 ∧ lMesh.owner 3 ≠ lMesh.owner 4 ∧ cornerNbr lMesh 3 3 = .same 6 0 ∧
    inStrip exDims 1 9 3 ∧ inCorner exDims 3 10 9 ∧ comp exDims 2 := by
  refine ⟨⟨by decide, by decide, by decide, by decide⟩, lMesh_ok, ex_fits, fun _ _ _ _ _ _ _ _ _ _ => rfl,
    fun _ _ _ _ _ _ => rfl, by decide, by decide, by decide, by decide, ?_, ?_, ?_⟩
  · simp [inStrip, exDims]
  · simp [inCorner, exDims]
  · simp [comp, exDims]

/-- A face between two blocks, the second turned against the first. -/
example : FaceLink exDims (expand2 1 7) 1 exIp exOp := by
  refine ⟨⟨rfl, ?_, ?_⟩, ?_⟩
  · intro a
    by_cases h : a = 0
    · exact ⟨1, by simp [exIp, h]⟩
    · exact ⟨0, by simp [exIp, h]⟩
  · intro a; exact ⟨1, by simp [exOp]⟩
  · rw [if_neg (by decide)]
    refine ⟨(C13_gluing_2d 1 7 (by omega) (by omega)).1, by simp [SizesMatch, sizes, exDims, expand2], ?_⟩
    constructor
    · simp [expand2, patchCentre, exIp, exOp, faceStep]; norm_num
    · simp
    · simp [expand2, patchCentre, exIp, exOp, faceStep, inside, outside]; norm_num

/-- What the copy does there: ghost cell (9, 3) gets the value of cell (6, 8). -/
example : (copyFace exDims ⟨exIp, exOp, expand2 1 7, 0, false, -1, fun _ _ _ => 0⟩ 1
    (fun c : Cell => c) (fun c => c)).map (fun q => q (9, 3, 2)) = some (6, 8, 2) := by decide +kernel

end Fclaw.CopyGhost
