/-
Helpers for C32: what is valid at the end, and what operations read.
-/
import Verif.GhostFill.Stages
import Mathlib.Tactic.ByContra

set_option autoImplicit false
set_option linter.unusedSimpArgs false
set_option linter.unusedVariables false
namespace Fclaw.GhostFill

section Final

variable {M : Mesh} {minl maxl : Int} (X : Ctx M minl maxl) (ti : Bool) (p : Nat)

include X

theorem cur_of_le {x : Nat} (h : minl ≤ M.level x) :
    cur M minl ti (M.level x) ∧ tl minl ti (M.level x) = false := by
  unfold cur tl
  cases ti <;> simp <;> omega

/-- A larger neighbour of a patch whose strip is due takes part. -/
theorem cur_coarser {x c : Nat} (h : minl ≤ M.level x) (hu : coarserInUse M minl ti x)
    (hl : M.level x = M.level c + 1) : cur M minl ti (M.level c) := by
  unfold cur
  rcases hu with hu | hu
  · split <;> omega
  · rw [if_pos hu]; omega

theorem base3_face {x f c fc g hk : Nat} (hx : loc M p x) (hf : f < 4) (hd : M.face x f = .double c fc g hk)
    (hc : cur M minl ti (M.level c)) :
    ∀ r ∈ faceReads c (tl minl ti (M.level c)) fc g, PS M minl ti (A3 M p) (S3 M maxl p) r := by
  obtain ⟨h1, h2, y0, y1, h3, h4⟩ := X.ok.doubleSym x f c fc g hk hf hd
  exact reads3_face X ti p h1 h2 h3 hc (by rw [h4]; exact hx)

theorem base2_face {x f c fc g hk : Nat} (hf : f < 4) (hd : M.face x f = .double c fc g hk)
    (hc : cur M minl ti (M.level c)) (hx : loc M p c) (hb : onBoundary M p c = false) :
    ∀ r ∈ faceReads c (tl minl ti (M.level c)) fc g, PS M minl ti (loc M p) (S2 M maxl p) r := by
  obtain ⟨h1, h2, y0, y1, h3, h4⟩ := X.ok.doubleSym x f c fc g hk hf hd
  exact reads2_face X ti p h1 h2 h3 hc hx hb

theorem closed_mem {x f c fc g hk : Nat} (hx : x ∈ M.patches) (hf : f < 4) (hd : M.face x f = .double c fc g hk) :
    c ∈ nbrs M x ∧ c ∈ M.patches := by
  have h : c ∈ nbrs M x := mem_nbrs_face hf (by rw [hd]; simp [faceList])
  exact ⟨h, X.ok.closed x hx c h⟩

/-- What interpolation at a face fills, after step 3. -/
theorem interp_valid {x f c fc g hk : Nat} (hx : loc M p x) (hlx : minl ≤ M.level x) (hf : f < 4)
    (hd : M.face x f = .double c fc g hk) (hc : cur M minl ti (M.level c)) (r : Region)
    (hr : ∀ t, ∃ e ∈ effects M (.interpFace t c fc g x f), e.1 = ⟨x, false, r⟩)
    (hb3 : Base M minl ti (A3 M p) (S3 M maxl p) ⟨x, false, r⟩)
    (hb2 : loc M p c → onBoundary M p c = false → Base M minl ti (loc M p) (S2 M maxl p) ⟨x, false, r⟩) :
    r3b M minl maxl ti p ⟨x, false, r⟩ = true := by
  obtain ⟨hn, hmem⟩ := closed_mem X hx.1 hf hd
  have hl := double_level M X.ok x f c fc g hk hf hd
  have htop := X.top x hx.1
  by_cases ho : M.owner c = p
  · by_cases hb : onBoundary M p c = true
    · refine run_base M X.ok minl ti p _ _ _ (legit_interp3 X ti p) _ (r3a_PS X ti p) _ hb3 (Or.inr ?_)
      exact ⟨_, occ_interp (m := .ghostOnly) X.ok X.le hf hd hc (by omega) hx.2 (Or.inl ⟨hmem, ho, hb⟩), hr _⟩
    · have hb' : onBoundary M p c = false := by simpa using hb
      refine keep2 X ti p _ hx.2 (hb2 ⟨hmem, ho⟩ hb') ?_
      refine run_base M X.ok minl ti p _ _ _ (legit_interp2 X ti p) _ (r2a_PS X ti p) _ (hb2 ⟨hmem, ho⟩ hb') (Or.inr ?_)
      exact ⟨_, occ_interp (m := .interiorOnly) X.ok X.le hf hd hc (by omega) hx.2
        (Or.inl ⟨hmem, ho, by simp [modeOk, hb']⟩), hr _⟩
  · refine run_base M X.ok minl ti p _ _ _ (legit_interp3 X ti p) _ (r3a_PS X ti p) _ hb3 (Or.inr ?_)
    exact ⟨_, occ_interp (m := .ghostOnly) X.ok X.le hf hd hc (by omega) hx.2
      (Or.inr ⟨ho, rfl, hx.1, hx.2, boundary_of_nbr hn ho⟩), hr _⟩

/-- Strips away from physical boundaries, before the last setting of boundary conditions. -/
theorem strip_r3b {x f h : Nat} (hx : loc M p x) (hlx : minl ≤ M.level x) (hf : f < 4) (hh : h < 2)
    (hd : DueStrip M minl ti x f) (hb : isBoundary (M.face x f) = false) :
    Base M minl ti (A3 M p) (S3 M maxl p) ⟨x, false, .strip f h⟩ ∧
      r3b M minl maxl ti p ⟨x, false, .strip f h⟩ = true := by
  obtain ⟨hc, ht⟩ := cur_of_le X ti hlx
  have hCur : Cur M minl ti ⟨x, false, .strip f h⟩ := ⟨hc, ht.symm⟩
  have hasrc : ∀ y, across M x f h = some y →
      Base M minl ti (A3 M p) (S3 M maxl p) ⟨x, false, .strip f h⟩ ∧
      r3b M minl maxl ti p ⟨x, false, .strip f h⟩ = true := by
    intro y ha
    have hs : Src M (A3 M p) x f h := Or.inr ⟨y, ha, A3_nbr X.ok hx (across_nbrs hf ha)⟩
    have hps : PS M minl ti (A3 M p) (S3 M maxl p) ⟨x, false, .strip f h⟩ :=
      ⟨hCur, hf, hh, hs, ⟨fun h => absurd (hb.symm.trans h) (by simp), Or.inl hx.2⟩⟩
    exact ⟨PS_base M minl ti _ _ _ hps (by simp), r3b_PS X ti p _ hps⟩
  cases hface : M.face x f with
  | boundary => rw [hface] at hb; simp [isBoundary] at hb
  | same y rf => exact hasrc y (by simp [across, hface])
  | half y0 y1 rf => exact hasrc (pick y0 y1 h) (by simp only [across, hface])
  | double c fc g hk =>
    have hl := double_level M X.ok x f c fc g hk hf hface
    have hcc := cur_coarser X ti hlx (hd (by rw [hface]; rfl)) hl
    have hb3 : Base M minl ti (A3 M p) (S3 M maxl p) ⟨x, false, .strip f h⟩ :=
      ⟨hCur, hf, hh, Or.inr ⟨c, fc, g, hk, hface, base3_face X ti p hx hf hface hcc⟩⟩
    refine ⟨hb3, interp_valid X ti p hx hlx hf hface hcc _ ?_ hb3 ?_⟩
    · intro t
      have : h = 0 ∨ h = 1 := by omega
      rcases this with rfl | rfl
      · exact ⟨_, List.mem_cons_self .., rfl⟩
      · exact ⟨_, List.mem_cons_of_mem _ (List.mem_cons_self ..), rfl⟩
    · intro h1 h2
      exact ⟨hCur, hf, hh, Or.inr ⟨c, fc, g, hk, hface, base2_face X ti p hf hface hcc h1 h2⟩⟩

theorem final_base (k : Key) (hb : Base M minl ti (A3 M p) (S3 M maxl p) k)
    (hv : r3b M minl maxl ti p k = true ∨
      ∃ o ∈ ops M p (overLevels (setphysical M p .all) minl maxl ti), ∃ e ∈ effects M o, e.1 = k) :
    ghostUpdate M minl maxl ti p k = true := by
  rw [ghostUpdate_eq]
  exact run_base M X.ok minl ti p _ _ _ (legit_phys3 X ti p) _ (r3b_PS X ti p) k hb hv

/-- All strips at the end. -/
theorem strip_final {x f h : Nat} (hx : loc M p x) (hlx : minl ≤ M.level x) (hf : f < 4) (hh : h < 2)
    (hd : DueStrip M minl ti x f) : ghostUpdate M minl maxl ti p ⟨x, false, .strip f h⟩ = true := by
  have hle := X.le
  by_cases hb : isBoundary (M.face x f) = true
  · obtain ⟨hc, ht⟩ := cur_of_le X ti hlx
    refine final_base X ti p _ ⟨⟨hc, ht.symm⟩, hf, hh, Or.inl (Or.inl ⟨hb, hx.1, Or.inl hx.2⟩)⟩ (Or.inr ?_)
    refine ⟨_, occ_phys (m := .all) (hi := maxl) ⟨hx.1, hx.2, rfl⟩ hc (X.top x hx.1) (by omega), ?_⟩
    rw [ht]
    refine ⟨(⟨x, false, .strip f h⟩, [⟨x, false, .interior⟩]), ?_, rfl⟩
    simp only [effects, List.mem_append, List.mem_flatMap, mem_numbers]
    left
    refine ⟨f, hf, ?_⟩
    rw [if_pos hb]
    have : h = 0 ∨ h = 1 := by omega
    rcases this with rfl | rfl <;> simp
  · obtain ⟨h1, h2⟩ := strip_r3b X ti p hx hlx hf hh hd (by simpa using hb)
    exact final_base X ti p _ h1 (Or.inl h2)

/-- A corner with a neighbour of the same or half the size. -/
theorem corner_fill {x k y rk : Nat} (hx : loc M p x) (hlx : minl ≤ M.level x) (hk : k < 4)
    (hcn : cornerNbr M x k = .same y rk ∨ cornerNbr M x k = .half y rk) :
    ghostUpdate M minl maxl ti p ⟨x, false, .corner k⟩ = true := by
  have hle := X.le
  obtain ⟨hc, ht⟩ := cur_of_le X ti hlx
  have hy : y ∈ nbrs M x :=
    mem_nbrs_corner hk (by rcases hcn with h | h <;> rw [h] <;> simp [cornerList])
  have hb3 : Base M minl ti (A3 M p) (S3 M maxl p) ⟨x, false, .corner k⟩ :=
    ⟨⟨hc, ht.symm⟩, hk, Or.inl ⟨y, rk, hcn, A3_nbr X.ok hx hy⟩⟩
  refine final_base X ti p _ hb3 (Or.inl ?_)
  by_cases hb : onBoundary M p x = true
  · have h1 : r3a M minl maxl ti p ⟨x, tl minl ti (M.level x), .corner k⟩ = true :=
      fill_corner X (by omega) (A := A3 M p) (fun _ h => h.1) _ (indirect_PS3 X ti p) (m := .ghostOnly)
        ⟨hx.1, hx.2, hb⟩ hc hk hcn (A3_nbr X.ok hx hy) (Or.inr rfl)
    rw [ht] at h1
    exact run_base M X.ok minl ti p _ _ _ (legit_interp3 X ti p) _ (r3a_PS X ti p) _ hb3 (Or.inl h1)
  · have hb' : onBoundary M p x = false := by simpa using hb
    have hyl : loc M p y := ⟨X.ok.closed x hx.1 y hy, notBoundary_nbr hb' hy⟩
    have hb2 : Base M minl ti (loc M p) (S2 M maxl p) ⟨x, false, .corner k⟩ :=
      ⟨⟨hc, ht.symm⟩, hk, Or.inl ⟨y, rk, hcn, hyl⟩⟩
    have h1 : r2a M minl maxl ti p ⟨x, tl minl ti (M.level x), .corner k⟩ = true :=
      fill_corner X (by omega) (A := loc M p) (fun _ h => h.1) _ (step1_PS X ti p) (m := .interiorOnly)
        ⟨hx.1, hx.2, by simp [modeOk, hb']⟩ hc hk hcn hyl (Or.inl hyl.2)
    rw [ht] at h1
    exact keep2 X ti p _ hx.2 hb2
      (run_base M X.ok minl ti p _ _ _ (legit_interp2 X ti p) _ (r2a_PS X ti p) _ hb2 (Or.inl h1))

theorem corner_double {x k c kc : Nat} (hx : loc M p x) (hlx : minl ≤ M.level x) (hk : k < 4)
    (hcn : cornerNbr M x k = .double c kc) (hu : coarserInUse M minl ti x) :
    ghostUpdate M minl maxl ti p ⟨x, false, .corner k⟩ = true := by
  have hle := X.le
  obtain ⟨hc, ht⟩ := cur_of_le X ti hlx
  obtain ⟨hkc, hh⟩ := X.ok.doubleCorner x k c kc hk hcn
  have hl := X.ok.halfCornerLevel c kc x k hkc hh
  have hcc := cur_coarser X ti hlx hu hl
  have hn : c ∈ nbrs M x := mem_nbrs_corner hk (by rw [hcn]; simp [cornerList])
  have hmem := X.ok.closed x hx.1 c hn
  have htop := X.top x hx.1
  have hb3 : Base M minl ti (A3 M p) (S3 M maxl p) ⟨x, false, .corner k⟩ :=
    ⟨⟨hc, ht.symm⟩, hk, Or.inr (Or.inl ⟨c, kc, hcn, reads3_corner X ti p hkc hh hcc hx⟩)⟩
  refine final_base X ti p _ hb3 (Or.inl ?_)
  by_cases ho : M.owner c = p
  · by_cases hb : onBoundary M p c = true
    · refine run_base M X.ok minl ti p _ _ _ (legit_interp3 X ti p) _ (r3a_PS X ti p) _ hb3 (Or.inr ?_)
      exact ⟨_, occ_interpCorner (m := .ghostOnly) X.ok X.le hk hcn hcc (by omega) hx.2 (Or.inl ⟨hmem, ho, hb⟩),
        _, List.mem_cons_self .., rfl⟩
    · have hb' : onBoundary M p c = false := by simpa using hb
      have hb2 : Base M minl ti (loc M p) (S2 M maxl p) ⟨x, false, .corner k⟩ :=
        ⟨⟨hc, ht.symm⟩, hk, Or.inr (Or.inl ⟨c, kc, hcn, reads2_corner X ti p hkc hh hcc ⟨hmem, ho⟩ hb'⟩)⟩
      refine keep2 X ti p _ hx.2 hb2 ?_
      refine run_base M X.ok minl ti p _ _ _ (legit_interp2 X ti p) _ (r2a_PS X ti p) _ hb2 (Or.inr ?_)
      exact ⟨_, occ_interpCorner (m := .interiorOnly) X.ok X.le hk hcn hcc (by omega) hx.2
        (Or.inl ⟨hmem, ho, by simp [modeOk, hb']⟩), _, List.mem_cons_self .., rfl⟩
  · refine run_base M X.ok minl ti p _ _ _ (legit_interp3 X ti p) _ (r3a_PS X ti p) _ hb3 (Or.inr ?_)
    exact ⟨_, occ_interpCorner (m := .ghostOnly) X.ok X.le hk hcn hcc (by omega) hx.2
      (Or.inr ⟨ho, rfl, hx.1, hx.2, boundary_of_nbr hn ho⟩), _, List.mem_cons_self .., rfl⟩

/-- A corner in the middle of a larger patch's face. -/
theorem corner_hanging {x k f c fc g : Nat} (hx : loc M p x) (hlx : minl ≤ M.level x) (hk : k < 4) (hf : f < 4)
    (hd : M.face x f = .double c fc g k) (hu : coarserInUse M minl ti x) :
    ghostUpdate M minl maxl ti p ⟨x, false, .corner k⟩ = true := by
  obtain ⟨hc, ht⟩ := cur_of_le X ti hlx
  have hl := double_level M X.ok x f c fc g k hf hd
  have hcc := cur_coarser X ti hlx hu hl
  have hb3 : Base M minl ti (A3 M p) (S3 M maxl p) ⟨x, false, .corner k⟩ := by
    refine ⟨⟨hc, ht.symm⟩, hk, Or.inr (Or.inr ⟨f, c, fc, g, hf, hd, ?_⟩)⟩
    intro f' c' fc' g' hf' hd'
    exact base3_face X ti p hx hf' hd' (cur_coarser X ti hlx hu (double_level M X.ok x f' c' fc' g' k hf' hd'))
  refine final_base X ti p _ hb3 (Or.inl ?_)
  -- If all larger patches around the corner are inside this process, step 2 does it; otherwise step 3
  -- does it (again).
  by_cases hall : ∀ f' c' fc' g', f' < 4 → M.face x f' = .double c' fc' g' k →
      M.owner c' = p ∧ onBoundary M p c' = false
  · refine interp_valid X ti p hx hlx hf hd hcc _ ?_ hb3 ?_
    · intro t
      refine ⟨_, List.mem_cons_of_mem _ (List.mem_cons_of_mem _ (List.mem_map.2 ⟨k, ?_, rfl⟩)), rfl⟩
      simp [hanging, hd]
    · intro h1 h2
      refine ⟨⟨hc, ht.symm⟩, hk, Or.inr (Or.inr ⟨f, c, fc, g, hf, hd, ?_⟩)⟩
      intro f' c' fc' g' hf' hd'
      have h3 := hall f' c' fc' g' hf' hd'
      exact base2_face X ti p hf' hd' (cur_coarser X ti hlx hu (double_level M X.ok x f' c' fc' g' k hf' hd'))
        ⟨(closed_mem X hx.1 hf' hd').2, h3.1⟩ h3.2
  · have : ∃ f' c' fc' g', f' < 4 ∧ M.face x f' = .double c' fc' g' k ∧
        ¬ (M.owner c' = p ∧ onBoundary M p c' = false) := by
      by_contra hne
      apply hall
      intro f' c' fc' g' h1 h2
      by_contra h3
      exact hne ⟨f', c', fc', g', h1, h2, h3⟩
    obtain ⟨f', c', fc', g', hf', hd', hno⟩ := this
    have hl' := double_level M X.ok x f' c' fc' g' k hf' hd'
    have hcc' := cur_coarser X ti hlx hu hl'
    have htop := X.top x hx.1
    obtain ⟨hn, hmem⟩ := closed_mem X hx.1 hf' hd'
    refine run_base M X.ok minl ti p _ _ _ (legit_interp3 X ti p) _ (r3a_PS X ti p) _ hb3 (Or.inr ?_)
    have heff : ∀ t, ∃ e ∈ effects M (.interpFace t c' fc' g' x f'), e.1 = ⟨x, false, .corner k⟩ := by
      intro t
      refine ⟨_, List.mem_cons_of_mem _ (List.mem_cons_of_mem _ (List.mem_map.2 ⟨k, ?_, rfl⟩)), rfl⟩
      simp [hanging, hd']
    by_cases ho : M.owner c' = p
    · have hb : onBoundary M p c' = true := by
        by_contra hb
        exact hno ⟨ho, by simpa using hb⟩
      exact ⟨_, occ_interp (m := .ghostOnly) X.ok X.le hf' hd' hcc' (by omega) hx.2 (Or.inl ⟨hmem, ho, hb⟩), heff _⟩
    · exact ⟨_, occ_interp (m := .ghostOnly) X.ok X.le hf' hd' hcc' (by omega) hx.2
        (Or.inr ⟨ho, rfl, hx.1, hx.2, boundary_of_nbr hn ho⟩), heff _⟩

/-- Corners at a physical boundary. -/
theorem corner_phys {x k : Nat} (hx : loc M p x) (hlx : minl ≤ M.level x) (hk : k < 4)
    (hbd : isBoundary (M.face x (faceX k)) = true ∨ isBoundary (M.face x (faceY k)) = true)
    (hdx : isBoundary (M.face x (faceX k)) = false → DueStrip M minl ti x (faceX k))
    (hdy : isBoundary (M.face x (faceY k)) = false → DueStrip M minl ti x (faceY k)) :
    ghostUpdate M minl maxl ti p ⟨x, false, .corner k⟩ = true := by
  have hle := X.le
  obtain ⟨hc, ht⟩ := cur_of_le X ti hlx
  let P : Key → Prop := fun κ => PS M minl ti (A3 M p) (S3 M maxl p) κ ∨
    (Base M minl ti (A3 M p) (S3 M maxl p) κ ∧ r3b M minl maxl ti p κ = true)
  rw [ghostUpdate_eq]
  refine run_add M P _ _ _ ?_ ?_ ?_ (Or.inr ?_)
  · intro o ho e he hp r hr
    left
    have hb : Base M minl ti (A3 M p) (S3 M maxl p) e.1 := by
      rcases hp with hp | hp
      · exact PS_base M minl ti _ _ _ hp (effects_noninterior M o e he)
      · exact hp.1
    exact good_writer M X.ok minl ti p _ _ o (legit_phys3 X ti p o ho) e he hb r hr
  · intro κ hκ
    rcases hκ with hκ | hκ
    · exact r3b_PS X ti p κ hκ
    · exact hκ.2
  · intro o ho e he hek r hr
    unfold ops at ho
    rw [List.mem_flatMap] at ho
    obtain ⟨v, hv, ho⟩ := ho
    rw [mem_physPhase M p .all minl maxl ti v (by omega)] at hv
    obtain ⟨x', hx', _, _, rfl⟩ := hv
    simp only [opsOf, List.mem_singleton] at ho
    subst ho
    simp only [effects, List.mem_append, List.mem_flatMap, mem_numbers] at he
    rcases he with ⟨f, hf, he⟩ | ⟨k', hk', he⟩
    · split at he
      · simp only [List.mem_cons, List.not_mem_nil, or_false] at he
        rcases he with rfl | rfl <;> simp at hek
      · simp at he
    · obtain ⟨e1, e2⟩ := physCorner_mem M _ _ k' e he
      rw [e1] at hek
      simp only [Key.mk.injEq, Region.corner.injEq] at hek
      obtain ⟨rfl, ht2, rfl⟩ := hek
      rw [ht] at e2
      rcases e2 with ⟨_, _, e2⟩ | ⟨_, h2, e2⟩ | ⟨h2, _, e2⟩
      · rw [e2] at hr; simp only [List.mem_singleton] at hr; subst hr
        exact Or.inl ⟨⟨hc, ht.symm⟩, hx.1, Or.inl hx.2⟩
      · rw [e2] at hr; simp only [List.mem_singleton] at hr; subst hr
        exact Or.inr (strip_r3b X ti p hx hlx (by unfold faceY; omega) (by omega) (hdy h2) h2)
      · rw [e2] at hr; simp only [List.mem_singleton] at hr; subst hr
        exact Or.inr (strip_r3b X ti p hx hlx (by unfold faceX; omega) (by omega) (hdx h2) h2)
  · refine ⟨_, occ_phys (m := .all) (hi := maxl) ⟨hx.1, hx.2, rfl⟩ hc (X.top x hx.1) (by omega), ?_⟩
    rw [ht]
    have : ∃ e ∈ physCorner M x false k, e.1 = ⟨x, false, .corner k⟩ := by
      unfold physCorner
      cases hx2 : isBoundary (M.face x (faceX k)) <;> cases hy2 : isBoundary (M.face x (faceY k)) <;>
        simp [hx2, hy2] at hbd ⊢
    obtain ⟨e, he, hek⟩ := this
    refine ⟨e, ?_, hek⟩
    simp only [effects, List.mem_append, List.mem_flatMap, mem_numbers]
    exact Or.inr ⟨k, hk, he⟩

/-! ### What is read -/

/-- Operations of the parts of steps 1 and 2 that do not interpolate. -/
theorem fill_avg_local {m : Mode} {hi : Int} (hhi : minl - 1 ≤ hi) :
    ∀ o ∈ ops M p (fillCoarse M p false m minl maxl hi ti), o.isInterp = false ∧
      (o.isFaceCopy = false ∧ o.isPhys = false → ∀ e ∈ effects M o, ∀ r ∈ e.2, PS M minl ti (loc M p) none3 r) := by
  intro o ho
  have hle := X.le
  unfold ops at ho
  rw [List.mem_flatMap] at ho
  obtain ⟨v, hv, ho⟩ := ho
  unfold fillCoarse at hv
  simp only [List.mem_append] at hv
  rcases hv with (hv | hv) | hv
  · rw [mem_averagePhase M p false m minl (maxl - 1) ti v (by omega)] at hv
    rcases hv with ⟨x, hx, _, hc, _, rfl | rfl⟩ | ⟨h, _⟩
    · simp only [opsOf, List.mem_flatMap, mem_numbers] at ho
      obtain ⟨f, hf, ho⟩ := ho
      unfold faceOps at ho
      cases hface : M.face x f with
      | boundary => rw [hface] at ho; simp at ho
      | same y rf => rw [hface] at ho; simp at ho
      | double y rf g hk => rw [hface] at ho; simp at ho
      | half y0 y1 rf =>
        rw [hface] at ho
        simp only [if_true, List.mem_flatMap] at ho
        obtain ⟨g, hg, ho⟩ := ho
        by_cases hown : M.owner (pick y0 y1 g) = p
        · simp [hown] at ho
          subst ho
          refine ⟨rfl, fun _ e he r hr => ?_⟩
          simp only [effects, List.mem_singleton] at he
          subst he
          simp only [List.mem_singleton] at hr
          subst hr
          have hl := half_level M X.ok x f y0 y1 rf g hf hface
          obtain ⟨h5, h6⟩ := cur_succ M minl ti _ hc
          refine ⟨⟨by dsimp only; rw [hl]; exact h5, by dsimp only; rw [hl, h6]⟩, ?_, hown⟩
          refine X.ok.closed x hx.mem _ (mem_nbrs_face hf ?_)
          rw [hface]; exact pick_mem y0 y1 g
        · simp [hown] at ho
    · simp only [opsOf, List.mem_flatMap, mem_numbers] at ho
      obtain ⟨k, hk, ho⟩ := ho
      unfold cornerOps at ho
      cases hcn : cornerNbr M x k with
      | none => rw [hcn] at ho; simp at ho
      | same y rk => rw [hcn] at ho; simp at ho
      | double y rk => rw [hcn] at ho; simp at ho
      | half y rk =>
        rw [hcn] at ho
        by_cases hown : M.owner y = p
        · simp [hown] at ho
          subst ho
          refine ⟨rfl, fun _ e he r hr => ?_⟩
          simp only [effects, List.mem_singleton] at he
          subst he
          simp only [List.mem_singleton] at hr
          subst hr
          have hl := X.ok.halfCornerLevel x k y rk hk hcn
          obtain ⟨h5, h6⟩ := cur_succ M minl ti _ hc
          refine ⟨⟨by dsimp only; rw [hl]; exact h5, by dsimp only; rw [hl, h6]⟩, ?_, hown⟩
          exact X.ok.closed x hx.mem _ (mem_nbrs_corner hk (by rw [hcn]; simp [cornerList]))
        · simp [hown] at ho
    · cases h
  · rw [mem_copyPhase M p false m minl maxl ti v (by omega)] at hv
    obtain ⟨x, hx, hc, _, rfl | rfl⟩ := hv
    · simp only [opsOf, List.mem_flatMap, mem_numbers] at ho
      obtain ⟨f, hf, ho⟩ := ho
      unfold faceOps at ho
      cases hface : M.face x f with
      | boundary => rw [hface] at ho; simp at ho
      | double y rf g hk => rw [hface] at ho; simp at ho
      | half y0 y1 rf => rw [hface] at ho; simp at ho
      | same y rf =>
        rw [hface] at ho
        dsimp only at ho
        rw [if_pos (by rfl)] at ho
        rcases List.mem_cons.1 ho with rfl | ho
        · exact ⟨rfl, fun h => by simp [Op.isFaceCopy, Op.isPhys] at h⟩
        · split at ho
          · simp only [List.mem_singleton] at ho; subst ho
            exact ⟨rfl, fun h => by simp [Op.isFaceCopy, Op.isPhys] at h⟩
          · simp at ho
    · simp only [opsOf, List.mem_flatMap, mem_numbers] at ho
      obtain ⟨k, hk, ho⟩ := ho
      unfold cornerOps at ho
      cases hcn : cornerNbr M x k with
      | none => rw [hcn] at ho; simp at ho
      | double y rk => rw [hcn] at ho; simp at ho
      | half y rk => rw [hcn] at ho; simp at ho
      | same y rk =>
        rw [hcn] at ho
        dsimp only at ho
        by_cases hown : M.owner y = p
        · simp [hown] at ho
          subst ho
          refine ⟨rfl, fun _ e he r hr => ?_⟩
          simp only [effects, List.mem_singleton] at he
          subst he
          simp only [List.mem_singleton] at hr
          subst hr
          have hl := X.ok.sameCornerLevel x k y rk hk hcn
          refine ⟨⟨by dsimp only; rw [hl]; exact hc, by dsimp only; rw [hl]⟩, ?_, hown⟩
          exact X.ok.closed x hx.mem _ (mem_nbrs_corner hk (by rw [hcn]; simp [cornerList]))
        · simp [hown] at ho
  · rw [mem_physPhase M p m minl hi ti v hhi] at hv
    obtain ⟨x, hx, hc, _, rfl⟩ := hv
    simp only [opsOf, List.mem_singleton] at ho
    subst ho
    exact ⟨rfl, fun h => by simp [Op.isFaceCopy, Op.isPhys] at h⟩

/-- Interpolation in step 2 is from patches inside the process, and there is nothing else in that part. -/
theorem interp2_reads : ∀ o ∈ ops M p (overLevels (interpolate2ghost M p false .interiorOnly) minl (maxl - 1) ti),
    o.isInterp = true ∧ ∀ e ∈ effects M o, ∀ r ∈ e.2, PS M minl ti (loc M p) (S2 M maxl p) r := by
  intro o ho
  have hle := X.le
  unfold ops at ho
  rw [List.mem_flatMap] at ho
  obtain ⟨v, hv, ho⟩ := ho
  rw [mem_interpPhase M p false .interiorOnly minl (maxl - 1) ti v (by omega)] at hv
  rcases hv with ⟨x, hx, _, hc, _, rfl | rfl⟩ | ⟨x, hx, _, hc, _, rfl | rfl⟩
  · have hb : onBoundary M p x = false := by simpa [modeOk] using hx.mode
    simp only [opsOf, List.mem_flatMap, mem_numbers] at ho
    obtain ⟨f, hf, ho⟩ := ho
    unfold faceOps at ho
    cases hface : M.face x f with
    | boundary => rw [hface] at ho; simp at ho
    | same y rf => rw [hface] at ho; simp at ho
    | double y rf g hk => rw [hface] at ho; simp at ho
    | half y0 y1 rf =>
      rw [hface] at ho
      simp only [if_true, List.mem_flatMap] at ho
      obtain ⟨g, hg, ho⟩ := ho
      by_cases hown : M.owner (pick y0 y1 g) = p
      · simp [hown] at ho
        subst ho
        refine ⟨rfl, fun e he => ?_⟩
        have hrd := reads2_face X ti p hf (by simp at hg; omega : g < 2) hface hc ⟨hx.mem, hx.own⟩ hb
        simp only [effects, List.mem_cons, List.mem_map] at he
        rcases he with rfl | rfl | ⟨_, _, rfl⟩ <;> exact hrd
      · simp [hown] at ho
  · have hb : onBoundary M p x = false := by simpa [modeOk] using hx.mode
    simp only [opsOf, List.mem_flatMap, mem_numbers] at ho
    obtain ⟨k, hk, ho⟩ := ho
    unfold cornerOps at ho
    cases hcn : cornerNbr M x k with
    | none => rw [hcn] at ho; simp at ho
    | same y rk => rw [hcn] at ho; simp at ho
    | double y rk => rw [hcn] at ho; simp at ho
    | half y rk =>
      rw [hcn] at ho
      by_cases hown : M.owner y = p
      · simp [hown] at ho
        subst ho
        refine ⟨rfl, fun e he => ?_⟩
        have hrd := reads2_corner X ti p hk hcn hc ⟨hx.mem, hx.own⟩ hb
        simp only [effects, List.mem_singleton] at he
        subst he
        exact hrd
      · simp [hown] at ho
  · simp only [opsOf, List.mem_flatMap, mem_numbers] at ho
    obtain ⟨f, hf, ho⟩ := ho
    unfold faceOps at ho
    cases hface : M.face x f <;> rw [hface] at ho <;> simp at ho
  · simp only [opsOf, List.mem_flatMap, mem_numbers] at ho
    obtain ⟨k, hk, ho⟩ := ho
    unfold cornerOps at ho
    cases hcn : cornerNbr M x k <;> rw [hcn] at ho <;> simp at ho

theorem phys_ops {m : Mode} {lo hi : Int} :
    ∀ o ∈ ops M p (overLevels (setphysical M p m) lo hi ti), ∃ t x, o = .phys t x := by
  intro o ho
  unfold ops at ho
  rw [List.mem_flatMap] at ho
  obtain ⟨v, hv, ho⟩ := ho
  rw [mem_overLevels] at hv
  rcases hv with ⟨l, _, _, hv⟩ | ⟨_, hv⟩ <;>
  · simp only [setphysical, List.mem_map] at hv
    obtain ⟨x, _, rfl⟩ := hv
    simp only [opsOf, List.mem_singleton] at ho
    exact ⟨_, _, ho⟩

/-- Interpolation after the exchange reads strips that are valid by then. -/
theorem interp3_reads : ∀ o ∈ ops M p (overLevels (interpolate2ghost M p true .ghostOnly) minl (maxl - 1) ti),
    o.isInterp = true ∧ ∀ e ∈ effects M o, ∀ r ∈ e.2, PS M minl ti (A3 M p) (S3 M maxl p) r := by
  intro o ho
  have hle := X.le
  unfold ops at ho
  rw [List.mem_flatMap] at ho
  obtain ⟨v, hv, ho⟩ := ho
  rw [mem_interpPhase M p true .ghostOnly minl (maxl - 1) ti v (by omega)] at hv
  have fc : ∀ c f g y0 y1 rf, f < 4 → g < 2 → M.face c f = .half y0 y1 rf → cur M minl ti (M.level c) →
      loc M p (pick y0 y1 g) → ∀ e ∈ effects M (.interpFace (tl minl ti (M.level c)) c f g (pick y0 y1 g) rf),
      ∀ r ∈ e.2, PS M minl ti (A3 M p) (S3 M maxl p) r := by
    intro c f g y0 y1 rf hf hg hface hc hy e he
    have hrd := reads3_face X ti p hf hg hface hc hy
    simp only [effects, List.mem_cons, List.mem_map] at he
    rcases he with rfl | rfl | ⟨_, _, rfl⟩ <;> exact hrd
  have cc : ∀ c k y rk, k < 4 → cornerNbr M c k = .half y rk → cur M minl ti (M.level c) →
      loc M p y → ∀ e ∈ effects M (.interpCorner (tl minl ti (M.level c)) c k y rk),
      ∀ r ∈ e.2, PS M minl ti (A3 M p) (S3 M maxl p) r := by
    intro c k y rk hk hcn hc hy e he
    have hrd := reads3_corner X ti p hk hcn hc hy
    simp only [effects, List.mem_singleton] at he
    subst he
    exact hrd
  rcases hv with ⟨x, hx, _, hc, _, rfl | rfl⟩ | ⟨x, hx, _, hc, _, rfl | rfl⟩
  · simp only [opsOf, List.mem_flatMap, mem_numbers] at ho
    obtain ⟨f, hf, ho⟩ := ho
    unfold faceOps at ho
    cases hface : M.face x f with
    | boundary => rw [hface] at ho; simp at ho
    | same y rf => rw [hface] at ho; simp at ho
    | double y rf g hk => rw [hface] at ho; simp at ho
    | half y0 y1 rf =>
      rw [hface] at ho
      simp only [if_true, List.mem_flatMap] at ho
      obtain ⟨g, hg, ho⟩ := ho
      by_cases hown : M.owner (pick y0 y1 g) = p
      · simp [hown] at ho
        subst ho
        refine ⟨rfl, fc x f g y0 y1 rf hf (by simp at hg; omega) hface hc ⟨?_, hown⟩⟩
        refine X.ok.closed x hx.mem _ (mem_nbrs_face hf ?_)
        rw [hface]; exact pick_mem y0 y1 g
      · simp [hown] at ho
  · simp only [opsOf, List.mem_flatMap, mem_numbers] at ho
    obtain ⟨k, hk, ho⟩ := ho
    unfold cornerOps at ho
    cases hcn : cornerNbr M x k with
    | none => rw [hcn] at ho; simp at ho
    | same y rk => rw [hcn] at ho; simp at ho
    | double y rk => rw [hcn] at ho; simp at ho
    | half y rk =>
      rw [hcn] at ho
      by_cases hown : M.owner y = p
      · simp [hown] at ho
        subst ho
        refine ⟨rfl, cc x k y rk hk hcn hc ⟨?_, hown⟩⟩
        exact X.ok.closed x hx.mem _ (mem_nbrs_corner hk (by rw [hcn]; simp [cornerList]))
      · simp [hown] at ho
  · simp only [opsOf, List.mem_flatMap, mem_numbers] at ho
    obtain ⟨f, hf, ho⟩ := ho
    unfold faceOps at ho
    cases hface : M.face x f with
    | boundary => rw [hface] at ho; simp at ho
    | same y rf => rw [hface] at ho; simp at ho
    | half y0 y1 rf => rw [hface] at ho; simp at ho
    | double c fc' g hk =>
      rw [hface] at ho
      by_cases hown : M.owner c = p
      · simp [hown] at ho
      · simp [hown] at ho
        subst ho
        obtain ⟨h1, h2, y0, y1, h3, h4⟩ := X.ok.doubleSym x f c fc' g hk hf hface
        have hl := double_level M X.ok x f c fc' g hk hf hface
        rw [show M.level x - 1 = M.level c by omega] at hc ⊢
        refine ⟨rfl, ?_⟩
        have := fc c fc' g y0 y1 f h1 h2 h3 hc (by rw [h4]; exact ⟨hx.mem, hx.own⟩)
        rw [h4] at this
        exact this
  · simp only [opsOf, List.mem_flatMap, mem_numbers] at ho
    obtain ⟨k, hk, ho⟩ := ho
    unfold cornerOps at ho
    cases hcn : cornerNbr M x k with
    | none => rw [hcn] at ho; simp at ho
    | same y rk => rw [hcn] at ho; simp at ho
    | half y rk => rw [hcn] at ho; simp at ho
    | double c kc =>
      rw [hcn] at ho
      by_cases hown : M.owner c = p
      · simp [hown] at ho
      · simp [hown] at ho
        subst ho
        obtain ⟨h1, h2⟩ := X.ok.doubleCorner x k c kc hk hcn
        have hl := X.ok.halfCornerLevel c kc x k h1 h2
        rw [show M.level x - 1 = M.level c by omega] at hc ⊢
        exact ⟨rfl, cc c kc x k h1 h2 hc ⟨hx.mem, hx.own⟩⟩

/-- Copies and averages after the exchange read interiors that are there. -/
def ReadsA3 (M : Mesh) (minl : Int) (ti : Bool) (p : Nat) (o : Op) : Prop :=
  ∀ e ∈ effects M o, ∀ r ∈ e.2, PS M minl ti (A3 M p) none3 r

theorem readsA3_one {t : Bool} {y : Nat} (hy : A3 M p y) (hc : cur M minl ti (M.level y))
    (ht : t = tl minl ti (M.level y)) : PS M minl ti (A3 M p) none3 ⟨y, t, .interior⟩ := ⟨⟨hc, ht⟩, hy⟩

theorem indirect_reads : ∀ o ∈ indirectOps M p minl ti, o.isInterp = false ∧ ReadsA3 M minl ti p o := by
  intro o ho
  unfold indirectOps at ho
  simp only [List.mem_flatMap, List.mem_filter, mem_numbers] at ho
  obtain ⟨c, ⟨hmem, hg⟩, f, hf, ho⟩ := ho
  rw [Bool.and_eq_true] at hg
  have hc : cur M minl ti (M.level c) := by simpa [cur] using hg.2
  unfold indirectFace at ho
  cases hface : M.face c f with
  | boundary => rw [hface] at ho; simp at ho
  | double y rf g hk => rw [hface] at ho; simp at ho
  | same y rf =>
    rw [hface] at ho
    dsimp only at ho
    split at ho
    · rename_i hfound
      rw [Bool.and_eq_true] at hfound
      simp only [List.mem_singleton] at ho; subst ho
      have hl := X.ok.sameLevel c f y rf hf hface
      have hy : A3 M p y := ⟨X.ok.closed c hmem y (mem_nbrs_face hf (by rw [hface]; simp [faceList])), Or.inr hfound.1⟩
      refine ⟨rfl, fun e he r hr => ?_⟩
      have : r = ⟨y, ti && decide (M.level c = minl - 1), .interior⟩ := by
        simp only [effects, List.mem_cons, List.not_mem_nil, or_false] at he
        rcases he with rfl | rfl <;> simpa using hr
      subst this
      exact readsA3_one X ti p hy (by rw [hl]; exact hc) (by rw [hl]; rfl)
    · simp at ho
  | half y0 y1 rf =>
    rw [hface] at ho
    simp only [List.mem_flatMap] at ho
    obtain ⟨g, hg2, ho⟩ := ho
    split at ho
    · rename_i hfound
      rw [Bool.and_eq_true] at hfound
      simp only [List.mem_singleton] at ho; subst ho
      have hl := half_level M X.ok c f y0 y1 rf g hf hface
      obtain ⟨h5, h6⟩ := cur_succ M minl ti _ hc
      have hy : A3 M p (pick y0 y1 g) :=
        ⟨X.ok.closed c hmem _ (mem_nbrs_face hf (by rw [hface]; exact pick_mem y0 y1 g)), Or.inr hfound.1⟩
      refine ⟨rfl, fun e he r hr => ?_⟩
      simp only [effects, List.mem_singleton] at he
      subst he
      simp only [List.mem_singleton] at hr
      subst hr
      exact readsA3_one X ti p hy (by rw [hl]; exact h5) (by rw [hl, h6])
    · simp at ho

theorem fill3_reads : ∀ o ∈ ops M p (fillCoarse M p true .ghostOnly minl maxl maxl ti),
    o.isInterp = false ∧ (o.isPhys = false → ReadsA3 M minl ti p o) := by
  intro o ho
  have hle := X.le
  unfold ops at ho
  rw [List.mem_flatMap] at ho
  obtain ⟨v, hv, ho⟩ := ho
  unfold fillCoarse at hv
  simp only [List.mem_append] at hv
  have avg : ∀ x f g y, A3 M p y → cur M minl ti (M.level x) → M.level y = M.level x + 1 →
      ReadsA3 M minl ti p (.avgFace (tl minl ti (M.level x)) x f g y) := by
    intro x f g y hy hc hl e he r hr
    simp only [effects, List.mem_singleton] at he
    subst he
    simp only [List.mem_singleton] at hr
    subst hr
    obtain ⟨h5, h6⟩ := cur_succ M minl ti _ hc
    exact readsA3_one X ti p hy (by rw [hl]; exact h5) (by rw [hl, h6])
  have cpy : ∀ t x f y, A3 M p y → cur M minl ti (M.level y) → t = tl minl ti (M.level y) →
      ReadsA3 M minl ti p (.copyFace t x f y) := by
    intro t x f y hy hc ht e he r hr
    have : r = ⟨y, t, .interior⟩ := by
      simp only [effects, List.mem_cons, List.not_mem_nil, or_false] at he
      rcases he with rfl | rfl <;> simpa using hr
    subst this
    exact readsA3_one X ti p hy hc ht
  rcases hv with (hv | hv) | hv
  · rw [mem_averagePhase M p true .ghostOnly minl (maxl - 1) ti v (by omega)] at hv
    rcases hv with ⟨x, hx, _, hc, _, rfl | rfl⟩ | ⟨_, x, hx, _, hc, _, rfl⟩
    · simp only [opsOf, List.mem_flatMap, mem_numbers] at ho
      obtain ⟨f, hf, ho⟩ := ho
      unfold faceOps at ho
      cases hface : M.face x f with
      | boundary => rw [hface] at ho; simp at ho
      | same y rf => rw [hface] at ho; simp at ho
      | double y rf g hk => rw [hface] at ho; simp at ho
      | half y0 y1 rf =>
        rw [hface] at ho
        simp only [if_true, List.mem_flatMap] at ho
        obtain ⟨g, hg, ho⟩ := ho
        simp at ho
        subst ho
        refine ⟨rfl, fun _ => avg _ _ _ _ ?_ hc (half_level M X.ok x f y0 y1 rf g hf hface)⟩
        refine A3_nbr X.ok ⟨hx.mem, hx.own⟩ (mem_nbrs_face hf ?_)
        rw [hface]; exact pick_mem y0 y1 g
    · simp only [opsOf, List.mem_flatMap, mem_numbers] at ho
      obtain ⟨k, hk, ho⟩ := ho
      unfold cornerOps at ho
      cases hcn : cornerNbr M x k with
      | none => rw [hcn] at ho; simp at ho
      | same y rk => rw [hcn] at ho; simp at ho
      | double y rk => rw [hcn] at ho; simp at ho
      | half y rk =>
        rw [hcn] at ho
        simp at ho
        subst ho
        refine ⟨rfl, fun _ e he r hr => ?_⟩
        simp only [effects, List.mem_singleton] at he
        subst he
        simp only [List.mem_singleton] at hr
        subst hr
        have hl := X.ok.halfCornerLevel x k y rk hk hcn
        obtain ⟨h5, h6⟩ := cur_succ M minl ti _ hc
        exact readsA3_one X ti p (A3_nbr X.ok ⟨hx.mem, hx.own⟩ (mem_nbrs_corner hk (by rw [hcn]; simp [cornerList])))
          (by rw [hl]; exact h5) (by rw [hl, h6])
    · simp only [opsOf, List.mem_flatMap, mem_numbers] at ho
      obtain ⟨f, hf, ho⟩ := ho
      unfold faceOps at ho
      cases hface : M.face x f with
      | boundary => rw [hface] at ho; simp at ho
      | same y rf => rw [hface] at ho; simp at ho
      | half y0 y1 rf => rw [hface] at ho; simp at ho
      | double c fc g hk =>
        rw [hface] at ho
        have hl := double_level M X.ok x f c fc g hk hf hface
        by_cases hown : M.owner c = p
        · simp [hown] at ho
        · simp [hown] at ho
          subst ho
          rw [show M.level x - 1 = M.level c by omega] at hc ⊢
          exact ⟨rfl, fun _ => avg _ _ _ _ ⟨hx.mem, Or.inl hx.own⟩ hc hl⟩
  · rw [mem_copyPhase M p true .ghostOnly minl maxl ti v (by omega)] at hv
    obtain ⟨x, hx, hc, _, rfl | rfl⟩ := hv
    · simp only [opsOf, List.mem_flatMap, mem_numbers] at ho
      obtain ⟨f, hf, ho⟩ := ho
      unfold faceOps at ho
      cases hface : M.face x f with
      | boundary => rw [hface] at ho; simp at ho
      | double y rf g hk => rw [hface] at ho; simp at ho
      | half y0 y1 rf => rw [hface] at ho; simp at ho
      | same y rf =>
        rw [hface] at ho
        dsimp only at ho
        rw [if_pos (by rfl)] at ho
        have hl := X.ok.sameLevel x f y rf hf hface
        rcases List.mem_cons.1 ho with rfl | ho
        · exact ⟨rfl, fun _ => cpy _ _ _ _ (A3_nbr X.ok ⟨hx.mem, hx.own⟩ (mem_nbrs_face hf (by rw [hface]; simp [faceList])))
            (by rw [hl]; exact hc) (by rw [hl])⟩
        · split at ho
          · simp only [List.mem_singleton] at ho; subst ho
            exact ⟨rfl, fun _ => cpy _ _ _ _ ⟨hx.mem, Or.inl hx.own⟩ hc rfl⟩
          · simp at ho
    · simp only [opsOf, List.mem_flatMap, mem_numbers] at ho
      obtain ⟨k, hk, ho⟩ := ho
      unfold cornerOps at ho
      cases hcn : cornerNbr M x k with
      | none => rw [hcn] at ho; simp at ho
      | double y rk => rw [hcn] at ho; simp at ho
      | half y rk => rw [hcn] at ho; simp at ho
      | same y rk =>
        rw [hcn] at ho
        simp at ho
        subst ho
        refine ⟨rfl, fun _ e he r hr => ?_⟩
        simp only [effects, List.mem_singleton] at he
        subst he
        simp only [List.mem_singleton] at hr
        subst hr
        have hl := X.ok.sameCornerLevel x k y rk hk hcn
        exact readsA3_one X ti p (A3_nbr X.ok ⟨hx.mem, hx.own⟩ (mem_nbrs_corner hk (by rw [hcn]; simp [cornerList])))
          (by rw [hl]; exact hc) (by rw [hl])
  · rw [mem_physPhase M p .ghostOnly minl maxl ti v (by omega)] at hv
    obtain ⟨x, hx, hc, _, rfl⟩ := hv
    simp only [opsOf, List.mem_singleton] at ho
    subst ho
    exact ⟨rfl, fun h => by simp [Op.isPhys] at h⟩

theorem run_r2a_trace : trace M (afterStep1 M minl maxl ti p) (ops M p (step2 M p minl maxl ti)) =
    trace M (afterStep1 M minl maxl ti p) (ops M p (fillCoarse M p false .interiorOnly minl maxl (maxl - 1) ti)) ++
    trace M (r2a M minl maxl ti p) (ops M p (overLevels (interpolate2ghost M p false .interiorOnly) minl (maxl - 1) ti)) ++
    trace M (r2b M minl maxl ti p) (ops M p (overLevels (setphysical M p .interiorOnly) (minl + 1) maxl ti)) := by
  unfold step2 r2b r2a
  rw [ops_append, ops_append, trace_append, trace_append, run_append]

theorem run_r3a_trace : trace M (afterIndirect M minl maxl ti p) (ops M p (step3 M p minl maxl ti)) =
    trace M (afterIndirect M minl maxl ti p) (ops M p (fillCoarse M p true .ghostOnly minl maxl maxl ti)) ++
    trace M (r3a M minl maxl ti p) (ops M p (overLevels (interpolate2ghost M p true .ghostOnly) minl (maxl - 1) ti)) ++
    trace M (r3b M minl maxl ti p) (ops M p (overLevels (setphysical M p .all) minl maxl ti)) := by
  unfold step3 r3b r3a
  rw [ops_append, ops_append, trace_append, trace_append, run_append]

theorem before_exchange : ∀ ob ∈
    trace M (start M minl ti p) (ops M p (step1 M p minl maxl ti)) ++
    trace M (afterStep1 M minl maxl ti p) (ops M p (step2 M p minl maxl ti)),
    ob.1.isFaceCopy = false ∧ ob.1.isPhys = false → ob.2 = true := by
  intro ob hob hk
  have hle := X.le
  rw [run_r2a_trace X] at hob
  simp only [List.mem_append] at hob
  rcases hob with hob | (hob | hob) | hob
  · obtain ⟨h1, h2⟩ := trace_ok M _ _ _ (closed_PS M X.ok minl ti p (loc M p) none3 _ (legit_step1 X ti p))
      (start_PS M minl ti p) ob hob
    obtain ⟨h3, h4⟩ := fill_avg_local X ti p (m := .ghostOnly) (hi := maxl - 1) (by omega) ob.1 h1
    exact h2 (h4 hk)
  · obtain ⟨h1, h2⟩ := trace_ok M _ _ _ (closed_PS M X.ok minl ti p (loc M p) none3 _ (legit_fill2 X ti p))
      (step1_PS X ti p) ob hob
    obtain ⟨h3, h4⟩ := fill_avg_local X ti p (m := .interiorOnly) (hi := maxl - 1) (by omega) ob.1 h1
    exact h2 (h4 hk)
  · obtain ⟨h1, h2⟩ := trace_ok M _ _ _ (closed_PS M X.ok minl ti p (loc M p) (S2 M maxl p) _ (legit_interp2 X ti p))
      (r2a_PS X ti p) ob hob
    exact h2 (interp2_reads X ti p ob.1 h1).2
  · obtain ⟨h1, _⟩ := trace_ok M _ _ _ (closed_PS M X.ok minl ti p (loc M p) (S2 M maxl p) _ (legit_phys2 X ti p))
      (r2b_PS X ti p) ob hob
    obtain ⟨t, x, h⟩ := phys_ops X ti p ob.1 h1
    rw [h] at hk; simp [Op.isPhys] at hk

theorem after_exchange : ∀ ob ∈
    trace M (afterExchange M minl maxl ti p) (indirectOps M p minl ti) ++
    trace M (afterIndirect M minl maxl ti p) (ops M p (step3 M p minl maxl ti)),
    ob.1.isPhys = false → ob.2 = true := by
  intro ob hob hk
  rw [run_r3a_trace X] at hob
  simp only [List.mem_append] at hob
  rcases hob with hob | (hob | hob) | hob
  · obtain ⟨h1, h2⟩ := trace_ok M _ _ _ (closed_PS M X.ok minl ti p (A3 M p) none3 _ (legit_indirect M X.ok p minl ti))
      (exchange_PS3 X ti p) ob hob
    exact h2 (indirect_reads X ti p ob.1 h1).2
  · obtain ⟨h1, h2⟩ := trace_ok M _ _ _ (closed_PS M X.ok minl ti p (A3 M p) none3 _ (legit_fill3 X ti p))
      (indirect_PS3 X ti p) ob hob
    exact h2 ((fill3_reads X ti p ob.1 h1).2 hk)
  · obtain ⟨h1, h2⟩ := trace_ok M _ _ _ (closed_PS M X.ok minl ti p (A3 M p) (S3 M maxl p) _ (legit_interp3 X ti p))
      (r3a_PS X ti p) ob hob
    exact h2 (interp3_reads X ti p ob.1 h1).2
  · obtain ⟨h1, _⟩ := trace_ok M _ _ _ (closed_PS M X.ok minl ti p (A3 M p) (S3 M maxl p) _ (legit_phys3 X ti p))
      (r3b_PS X ti p) ob hob
    obtain ⟨t, x, h⟩ := phys_ops X ti p ob.1 h1
    rw [h] at hk; simp [Op.isPhys] at hk

end Final

end Fclaw.GhostFill
