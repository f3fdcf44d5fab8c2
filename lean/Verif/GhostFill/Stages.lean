/-
Helpers for C32: what is valid after each part of an update.
-/
import Verif.GhostFill.Lemmas

set_option autoImplicit false
set_option linter.unusedSimpArgs false
set_option linter.unusedVariables false
namespace Fclaw.GhostFill

/-! ### Which operations do occur -/

section Occur

variable {M : Mesh} {p : Nat} {rp : Bool} {m : Mode} {minl maxl hi : Int} {ti : Bool}

theorem mem_ops {vs : List Visit} {o : Op} (v : Visit) (h1 : v ∈ vs) (h2 : o ∈ opsOf M p v) : o ∈ ops M p vs :=
  List.mem_flatMap.2 ⟨v, h1, h2⟩

theorem onInterface_face {x f : Nat} (hf : f < 4) (h : finerOrCoarser (M.face x f) = true) : onInterface M x = true := by
  unfold onInterface
  rw [Bool.or_eq_true]; left
  rw [List.any_eq_true]
  exact ⟨f, (mem_numbers f).2 hf, h⟩

theorem onInterface_corner {x k : Nat} (hk : k < 4) (h : finerOrCoarserCorner (cornerNbr M x k) = true) :
    onInterface M x = true := by
  unfold onInterface
  rw [Bool.or_eq_true]; right
  rw [List.any_eq_true]
  exact ⟨k, (mem_numbers k).2 hk, h⟩

theorem occ_copy (hm : minl ≤ maxl) {x f y rf : Nat} (hx : Vis M p m x) (hc : cur M minl ti (M.level x))
    (hl : M.level x ≤ maxl) (hf : f < 4) (h : M.face x f = .same y rf) :
    Op.copyFace (tl minl ti (M.level x)) x f y ∈ ops M p (fillCoarse M p rp m minl maxl hi ti) := by
  refine mem_ops (.face ⟨.copy, true, tl minl ti (M.level x), rp⟩ x) ?_ ?_
  · unfold fillCoarse
    simp only [List.mem_append]
    left; right
    rw [mem_copyPhase M p rp m minl maxl ti _ (by omega)]
    exact ⟨x, hx, hc, hl, Or.inl rfl⟩
  · simp only [opsOf, List.mem_flatMap, mem_numbers]
    exact ⟨f, hf, by simp [faceOps, h]⟩

theorem occ_copyRemote (hm : minl ≤ maxl) {x f y rf : Nat} (hx : Vis M p m x) (hc : cur M minl ti (M.level x))
    (hl : M.level x ≤ maxl) (hf : f < 4) (h : M.face x f = .same y rf) (ho : M.owner y ≠ p) :
    Op.copyFace (tl minl ti (M.level x)) y rf x ∈ ops M p (fillCoarse M p rp m minl maxl hi ti) := by
  refine mem_ops (.face ⟨.copy, true, tl minl ti (M.level x), rp⟩ x) ?_ ?_
  · unfold fillCoarse
    simp only [List.mem_append]
    left; right
    rw [mem_copyPhase M p rp m minl maxl ti _ (by omega)]
    exact ⟨x, hx, hc, hl, Or.inl rfl⟩
  · simp only [opsOf, List.mem_flatMap, mem_numbers]
    exact ⟨f, hf, by simp [faceOps, h, ho]⟩

theorem occ_copyCorner (hm : minl ≤ maxl) {x k y rk : Nat} (hx : Vis M p m x) (hc : cur M minl ti (M.level x))
    (hl : M.level x ≤ maxl) (hk : k < 4) (h : cornerNbr M x k = .same y rk) (ho : M.owner y = p ∨ rp = true) :
    Op.copyCorner (tl minl ti (M.level x)) x k y ∈ ops M p (fillCoarse M p rp m minl maxl hi ti) := by
  refine mem_ops (.corner ⟨.copy, true, tl minl ti (M.level x), rp⟩ x) ?_ ?_
  · unfold fillCoarse
    simp only [List.mem_append]
    left; right
    rw [mem_copyPhase M p rp m minl maxl ti _ (by omega)]
    exact ⟨x, hx, hc, hl, Or.inr rfl⟩
  · simp only [opsOf, List.mem_flatMap, mem_numbers]
    refine ⟨k, hk, ?_⟩
    rcases ho with ho | ho <;> simp [cornerOps, h, ho]

theorem occ_avg (hm : minl ≤ maxl) {x f y0 y1 rf g : Nat} (hx : Vis M p m x) (hc : cur M minl ti (M.level x))
    (hl : M.level x ≤ maxl - 1) (hf : f < 4) (hg : g < 2) (h : M.face x f = .half y0 y1 rf)
    (ho : M.owner (pick y0 y1 g) = p ∨ rp = true) :
    Op.avgFace (tl minl ti (M.level x)) x f g (pick y0 y1 g) ∈ ops M p (fillCoarse M p rp m minl maxl hi ti) := by
  refine mem_ops (.face ⟨.average, true, tl minl ti (M.level x), rp⟩ x) ?_ ?_
  · unfold fillCoarse
    simp only [List.mem_append]
    left; left
    rw [mem_averagePhase M p rp m minl (maxl - 1) ti _ (by omega)]
    exact Or.inl ⟨x, hx, onInterface_face hf (by rw [h]; rfl), hc, hl, Or.inl rfl⟩
  · simp only [opsOf, List.mem_flatMap, mem_numbers]
    refine ⟨f, hf, ?_⟩
    simp only [faceOps, h, if_true, List.mem_flatMap]
    refine ⟨g, by have : g = 0 ∨ g = 1 := by omega
                  rcases this with rfl | rfl <;> simp, ?_⟩
    rcases ho with ho | ho <;> simp [ho]

theorem occ_avgFine (hm : minl ≤ maxl) {x f y rf g hk : Nat} (hy : Vis M p m y) (hc : cur M minl ti (M.level y - 1))
    (hl : M.level y - 1 ≤ maxl - 1) (hf : rf < 4) (h : M.face y rf = .double x f g hk)
    (ho : M.owner x ≠ p) :
    Op.avgFace (tl minl ti (M.level y - 1)) x f g y ∈ ops M p (fillCoarse M p true m minl maxl hi ti) := by
  refine mem_ops (.face ⟨.average, false, tl minl ti (M.level y - 1), true⟩ y) ?_ ?_
  · unfold fillCoarse
    simp only [List.mem_append]
    left; left
    rw [mem_averagePhase M p true m minl (maxl - 1) ti _ (by omega)]
    exact Or.inr ⟨rfl, y, hy, onInterface_face hf (by rw [h]; rfl), hc, hl, rfl⟩
  · simp only [opsOf, List.mem_flatMap, mem_numbers]
    exact ⟨rf, hf, by simp [faceOps, h, ho]⟩

theorem occ_avgCorner (hm : minl ≤ maxl) {x k y rk : Nat} (hx : Vis M p m x) (hc : cur M minl ti (M.level x))
    (hl : M.level x ≤ maxl - 1) (hk : k < 4) (h : cornerNbr M x k = .half y rk) (ho : M.owner y = p ∨ rp = true) :
    Op.avgCorner (tl minl ti (M.level x)) x k y ∈ ops M p (fillCoarse M p rp m minl maxl hi ti) := by
  refine mem_ops (.corner ⟨.average, true, tl minl ti (M.level x), rp⟩ x) ?_ ?_
  · unfold fillCoarse
    simp only [List.mem_append]
    left; left
    rw [mem_averagePhase M p rp m minl (maxl - 1) ti _ (by omega)]
    exact Or.inl ⟨x, hx, onInterface_corner hk (by rw [h]; rfl), hc, hl, Or.inr rfl⟩
  · simp only [opsOf, List.mem_flatMap, mem_numbers]
    refine ⟨k, hk, ?_⟩
    rcases ho with ho | ho <;> simp [cornerOps, h, ho]

theorem occ_phys {x : Nat} (hx : Vis M p m x) (hc : cur M minl ti (M.level x))
    (hl : M.level x ≤ hi) (hh : minl - 1 ≤ hi) :
    Op.phys (tl minl ti (M.level x)) x ∈ ops M p (overLevels (setphysical M p m) minl hi ti) := by
  refine mem_ops (.phys (tl minl ti (M.level x)) x) ?_ (by simp [opsOf])
  rw [mem_physPhase M p m minl hi ti _ hh]
  exact ⟨x, hx, hc, hl, rfl⟩

theorem occ_physFill {x : Nat} (hx : Vis M p m x) (hc : cur M minl ti (M.level x))
    (hl : M.level x ≤ hi) (hh : minl - 1 ≤ hi) :
    Op.phys (tl minl ti (M.level x)) x ∈ ops M p (fillCoarse M p rp m minl maxl hi ti) := by
  refine mem_ops (.phys (tl minl ti (M.level x)) x) ?_ (by simp [opsOf])
  unfold fillCoarse
  rw [List.mem_append]; right
  rw [mem_physPhase M p m minl hi ti _ hh]
  exact ⟨x, hx, hc, hl, rfl⟩

/-- Interpolation from `c` to the strip `fy` of `y` occurs. -/
theorem occ_interp (hM : M.Ok) (hm : minl ≤ maxl) {c f y g fy hk : Nat} (hfy : fy < 4)
    (h : M.face y fy = .double c f g hk) (hc : cur M minl ti (M.level c)) (hl : M.level c ≤ maxl - 1)
    (hown : M.owner y = p)
    (hv : Vis M p m c ∨ (M.owner c ≠ p ∧ rp = true ∧ Vis M p m y)) :
    Op.interpFace (tl minl ti (M.level c)) c f g y fy ∈
      ops M p (overLevels (interpolate2ghost M p rp m) minl (maxl - 1) ti) := by
  obtain ⟨hf, hg, y0, y1, h3, h4⟩ := hM.doubleSym y fy c f g hk hfy h
  have hlv := double_level M hM y fy c f g hk hfy h
  rcases hv with hv | ⟨ho, hrp, hv⟩
  · refine mem_ops (.face ⟨.interp, true, tl minl ti (M.level c), rp⟩ c) ?_ ?_
    · rw [mem_interpPhase M p rp m minl (maxl - 1) ti _ (by omega)]
      exact Or.inl ⟨c, hv, onInterface_face hf (by rw [h3]; rfl), hc, hl, Or.inl rfl⟩
    · simp only [opsOf, List.mem_flatMap, mem_numbers]
      refine ⟨f, hf, ?_⟩
      simp only [faceOps, h3, if_true, List.mem_flatMap]
      refine ⟨g, by have : g = 0 ∨ g = 1 := by omega
                    rcases this with rfl | rfl <;> simp, ?_⟩
      simp [h4, hown]
  · subst hrp
    refine mem_ops (.face ⟨.interp, false, tl minl ti (M.level y - 1), true⟩ y) ?_ ?_
    · rw [mem_interpPhase M p true m minl (maxl - 1) ti _ (by omega)]
      refine Or.inr ⟨y, hv, onInterface_face hfy (by rw [h]; rfl), ?_, by omega, Or.inl rfl⟩
      rw [show M.level y - 1 = M.level c by omega]; exact hc
    · simp only [opsOf, List.mem_flatMap, mem_numbers]
      refine ⟨fy, hfy, ?_⟩
      rw [show M.level y - 1 = M.level c by omega]
      simp [faceOps, h, ho]

theorem occ_interpCorner (hM : M.Ok) (hm : minl ≤ maxl) {c k y ky : Nat} (hky : ky < 4)
    (h : cornerNbr M y ky = .double c k) (hc : cur M minl ti (M.level c)) (hl : M.level c ≤ maxl - 1)
    (hown : M.owner y = p)
    (hv : Vis M p m c ∨ (M.owner c ≠ p ∧ rp = true ∧ Vis M p m y)) :
    Op.interpCorner (tl minl ti (M.level c)) c k y ky ∈
      ops M p (overLevels (interpolate2ghost M p rp m) minl (maxl - 1) ti) := by
  obtain ⟨hk, h3⟩ := hM.doubleCorner y ky c k hky h
  have hlv := hM.halfCornerLevel c k y ky hk h3
  rcases hv with hv | ⟨ho, hrp, hv⟩
  · refine mem_ops (.corner ⟨.interp, true, tl minl ti (M.level c), rp⟩ c) ?_ ?_
    · rw [mem_interpPhase M p rp m minl (maxl - 1) ti _ (by omega)]
      exact Or.inl ⟨c, hv, onInterface_corner hk (by rw [h3]; rfl), hc, hl, Or.inr rfl⟩
    · simp only [opsOf, List.mem_flatMap, mem_numbers]
      exact ⟨k, hk, by simp [cornerOps, h3, hown]⟩
  · subst hrp
    refine mem_ops (.corner ⟨.interp, false, tl minl ti (M.level y - 1), true⟩ y) ?_ ?_
    · rw [mem_interpPhase M p true m minl (maxl - 1) ti _ (by omega)]
      refine Or.inr ⟨y, hv, onInterface_corner hky (by rw [h]; rfl), ?_, by omega, Or.inr rfl⟩
      rw [show M.level y - 1 = M.level c by omega]; exact hc
    · simp only [opsOf, List.mem_flatMap, mem_numbers]
      refine ⟨ky, hky, ?_⟩
      rw [show M.level y - 1 = M.level c by omega]
      simp [cornerOps, h, ho]

end Occur

/-! ### Neighbours -/

theorem mem_nbrs_face {M : Mesh} {x f y : Nat} (hf : f < 4) (h : y ∈ faceList (M.face x f)) : y ∈ nbrs M x := by
  unfold nbrs
  rw [List.mem_append]; left
  exact List.mem_flatMap.2 ⟨f, (mem_numbers f).2 hf, h⟩

theorem mem_nbrs_corner {M : Mesh} {x k y : Nat} (hk : k < 4) (h : y ∈ cornerList (cornerNbr M x k)) :
    y ∈ nbrs M x := by
  unfold nbrs
  rw [List.mem_append]; right
  exact List.mem_flatMap.2 ⟨k, (mem_numbers k).2 hk, h⟩

theorem pick_mem (y0 y1 g : Nat) : pick y0 y1 g ∈ [y0, y1] := by
  unfold pick; split <;> simp

theorem across_nbrs {M : Mesh} {x f h y : Nat} (hf : f < 4) (ha : across M x f h = some y) : y ∈ nbrs M x := by
  refine mem_nbrs_face hf ?_
  unfold across at ha
  cases hface : M.face x f with
  | boundary => rw [hface] at ha; simp at ha
  | double y rf g hk => rw [hface] at ha; simp at ha
  | same y' rf => rw [hface] at ha; cases ha; simp [faceList]
  | half y0 y1 rf =>
    rw [hface] at ha
    simp only [Option.some.injEq] at ha
    subst ha; exact pick_mem y0 y1 h

/-- Being next to each other is mutual for what lies across a strip. -/
theorem across_sym {M : Mesh} (hM : M.Ok) {x f h y : Nat} (hf : f < 4) (hh : h < 2)
    (ha : across M x f h = some y) : x ∈ nbrs M y := by
  unfold across at ha
  cases hface : M.face x f with
  | boundary => rw [hface] at ha; simp at ha
  | double y rf g hk => rw [hface] at ha; simp at ha
  | same y' rf =>
    rw [hface] at ha; cases ha
    obtain ⟨h1, h2⟩ := hM.sameSym x f y rf hf hface
    exact mem_nbrs_face h1 (by rw [h2]; simp [faceList])
  | half y0 y1 rf =>
    rw [hface] at ha
    simp only [Option.some.injEq] at ha
    subst ha
    obtain ⟨h1, hk, h2⟩ := half_double M hM x f y0 y1 rf h hf hh hface
    exact mem_nbrs_face h1 (by rw [h2]; simp [faceList])

theorem notBoundary_nbr {M : Mesh} {p x y : Nat} (h : onBoundary M p x = false) (hy : y ∈ nbrs M x) :
    M.owner y = p := by
  unfold onBoundary at h
  rw [List.any_eq_false] at h
  simpa using h y hy

theorem boundary_of_nbr {M : Mesh} {p x y : Nat} (hy : y ∈ nbrs M x) (ho : M.owner y ≠ p) :
    onBoundary M p x = true := by
  unfold onBoundary
  rw [List.any_eq_true]
  exact ⟨y, hy, by simpa using ho⟩

theorem ghost_of_nbr {M : Mesh} {p x y : Nat} (hx : x ∈ M.patches) (ho : M.owner x = p) (hy : y ∈ nbrs M x)
    (hn : M.owner y ≠ p) : isGhost M p y = true := by
  unfold isGhost
  rw [Bool.and_eq_true]
  refine ⟨by simpa using hn, ?_⟩
  rw [List.any_eq_true]
  exact ⟨x, hx, by simp [ho, hy]⟩

theorem isGhost_owner {M : Mesh} {p y : Nat} (h : isGhost M p y = true) : M.owner y ≠ p := by
  unfold isGhost at h
  rw [Bool.and_eq_true] at h
  simpa using h.1

/-! ### Filling -/

def loc (M : Mesh) (p x : Nat) : Prop := x ∈ M.patches ∧ M.owner x = p

def none3 : Nat → Nat → Nat → Prop := fun _ _ _ => False

structure Ctx (M : Mesh) (minl maxl : Int) : Prop where
  ok : M.Ok
  le : minl ≤ maxl
  top : ∀ x ∈ M.patches, M.level x ≤ maxl

theorem isBoundary_iff (F : FaceNbr) : isBoundary F = true ↔ F = .boundary := by
  cases F <;> simp [isBoundary]

/-- The part of a step that fills what needs no interpolation. -/
theorem fill_strip {M : Mesh} {minl maxl : Int} (X : Ctx M minl maxl) {ti : Bool} {p : Nat} {rp : Bool} {m : Mode}
    {hi : Int} (hhi : minl - 1 ≤ hi) {A : Nat → Prop} (hA : ∀ x, A x → x ∈ M.patches)
    (V : Valid) (hV : ∀ k, PS M minl ti A none3 k → V k = true)
    {x f h : Nat} (hx : Vis M p m x) (hc : cur M minl ti (M.level x)) (hf : f < 4) (hh : h < 2)
    (hs : Src M A x f h) (hb : isBoundary (M.face x f) = true → M.level x ≤ hi)
    (hown : ∀ y, across M x f h = some y → M.owner y = p ∨ rp = true) :
    run M V (ops M p (fillCoarse M p rp m minl maxl hi ti)) ⟨x, tl minl ti (M.level x), .strip f h⟩ = true := by
  refine run_base M X.ok minl ti p A none3 _
    (legit_ops M X.ok minl ti p _ (legit_fillCoarse M p rp m minl maxl hi ti X.le hhi)) V hV _
    ⟨⟨hc, rfl⟩, hf, hh, Or.inl hs⟩ (Or.inr ?_)
  have h01 : h = 0 ∨ h = 1 := by omega
  rcases hs with ⟨h1, _⟩ | ⟨y, h1, hAy⟩
  · refine ⟨_, occ_physFill hx hc (hb h1) hhi, ?_⟩
    refine ⟨(⟨x, tl minl ti (M.level x), .strip f h⟩, [⟨x, tl minl ti (M.level x), .interior⟩]), ?_, rfl⟩
    simp only [effects, List.mem_append, List.mem_flatMap, mem_numbers]
    left
    refine ⟨f, hf, ?_⟩
    rw [if_pos h1]
    rcases h01 with rfl | rfl <;> simp
  · unfold across at h1
    cases hface : M.face x f with
    | boundary => rw [hface] at h1; simp at h1
    | double y rf g hk => rw [hface] at h1; simp at h1
    | same y' rf =>
      rw [hface] at h1; cases h1
      refine ⟨_, occ_copy X.le hx hc (X.top x hx.mem) hf hface, ?_⟩
      rcases h01 with rfl | rfl
      · exact ⟨_, List.mem_cons_self .., rfl⟩
      · exact ⟨_, List.mem_cons_of_mem _ (List.mem_cons_self ..), rfl⟩
    | half y0 y1 rf =>
      rw [hface] at h1
      simp only [Option.some.injEq] at h1
      subst h1
      have hl := half_level M X.ok x f y0 y1 rf h hf hface
      have := X.top _ (hA _ hAy)
      refine ⟨_, occ_avg X.le hx hc (by omega) hf hh hface (hown _ (by simp [across, hface])), ?_⟩
      exact ⟨_, List.mem_cons_self .., rfl⟩

theorem fill_corner {M : Mesh} {minl maxl : Int} (X : Ctx M minl maxl) {ti : Bool} {p : Nat} {rp : Bool} {m : Mode}
    {hi : Int} (hhi : minl - 1 ≤ hi) {A : Nat → Prop} (hA : ∀ x, A x → x ∈ M.patches)
    (V : Valid) (hV : ∀ k, PS M minl ti A none3 k → V k = true)
    {x k y rk : Nat} (hx : Vis M p m x) (hc : cur M minl ti (M.level x)) (hk : k < 4)
    (hs : cornerNbr M x k = .same y rk ∨ cornerNbr M x k = .half y rk) (hAy : A y)
    (hown : M.owner y = p ∨ rp = true) :
    run M V (ops M p (fillCoarse M p rp m minl maxl hi ti)) ⟨x, tl minl ti (M.level x), .corner k⟩ = true := by
  refine run_base M X.ok minl ti p A none3 _
    (legit_ops M X.ok minl ti p _ (legit_fillCoarse M p rp m minl maxl hi ti X.le hhi)) V hV _
    ⟨⟨hc, rfl⟩, hk, Or.inl ⟨y, rk, hs, hAy⟩⟩ (Or.inr ?_)
  rcases hs with h | h
  · exact ⟨_, occ_copyCorner X.le hx hc (X.top x hx.mem) hk h hown, _, List.mem_cons_self .., rfl⟩
  · have hl := X.ok.halfCornerLevel x k y rk hk h
    have := X.top _ (hA _ hAy)
    exact ⟨_, occ_avgCorner X.le hx hc (by omega) hk h hown, _, List.mem_cons_self .., rfl⟩

theorem start_PS (M : Mesh) (minl : Int) (ti : Bool) (p : Nat) :
    ∀ k, PS M minl ti (loc M p) none3 k → start M minl ti p k = true := by
  rintro ⟨x, t, reg⟩ ⟨⟨h1, h2⟩, h3⟩
  cases reg with
  | interior =>
    simp only [start]
    rw [(current_iff M minl ti x t).2 ⟨h1, h2⟩]
    have := h3.2
    simp at this
    simp [this]
  | strip f h => exact (h3.2.2.2).elim
  | corner k => exact h3.elim

theorem legit_step1 {M : Mesh} {minl maxl : Int} (X : Ctx M minl maxl) (ti : Bool) (p : Nat) :
    ∀ o ∈ ops M p (step1 M p minl maxl ti), Legit M minl ti p o :=
  legit_ops M X.ok minl ti p _ (legit_fillCoarse M p false .ghostOnly minl maxl (maxl - 1) ti X.le (by have := X.le; omega))

theorem step1_PS {M : Mesh} {minl maxl : Int} (X : Ctx M minl maxl) (ti : Bool) (p : Nat) :
    ∀ k, PS M minl ti (loc M p) none3 k → afterStep1 M minl maxl ti p k = true :=
  run_PS M X.ok minl ti p _ _ _ (legit_step1 X ti p) _ (start_PS M minl ti p)

/-- Strips sent with a patch at the parallel boundary. -/
theorem step1_strip {M : Mesh} {minl maxl : Int} (X : Ctx M minl maxl) (ti : Bool) (q : Nat) {x f h : Nat}
    (hx : loc M q x) (hb : onBoundary M q x = true) (hc : cur M minl ti (M.level x)) (hf : f < 4) (hh : h < 2)
    (hs : Src M (loc M q) x f h) (hl : isBoundary (M.face x f) = true → M.level x ≤ maxl - 1) :
    afterStep1 M minl maxl ti q ⟨x, tl minl ti (M.level x), .strip f h⟩ = true := by
  have := X.le
  refine fill_strip X (by omega) (A := loc M q) (fun _ h => h.1) _ (start_PS M minl ti q)
    (m := .ghostOnly) ⟨hx.1, hx.2, hb⟩ hc hf hh hs hl ?_
  intro y hy
  left
  rcases hs with ⟨h1, _⟩ | ⟨y', h1, h2⟩
  · rw [isBoundary_iff] at h1; simp [across, h1] at hy
  · rw [hy] at h1; cases h1; exact h2.2

/-! ### Step 2 -/

def S2 (M : Mesh) (maxl : Int) (p : Nat) (x f _h : Nat) : Prop :=
  loc M p x ∧ onBoundary M p x = false ∧ (isBoundary (M.face x f) = true → M.level x ≤ maxl - 1)

def r2a (M : Mesh) (minl maxl : Int) (ti : Bool) (p : Nat) : Valid :=
  run M (afterStep1 M minl maxl ti p) (ops M p (fillCoarse M p false .interiorOnly minl maxl (maxl - 1) ti))

def r2b (M : Mesh) (minl maxl : Int) (ti : Bool) (p : Nat) : Valid :=
  run M (r2a M minl maxl ti p) (ops M p (overLevels (interpolate2ghost M p false .interiorOnly) minl (maxl - 1) ti))

theorem ops_append (M : Mesh) (p : Nat) (a b : List Visit) : ops M p (a ++ b) = ops M p a ++ ops M p b := by
  simp [ops]

theorem afterStep2_eq (M : Mesh) (minl maxl : Int) (ti : Bool) (p : Nat) :
    afterStep2 M minl maxl ti p =
      run M (r2b M minl maxl ti p) (ops M p (overLevels (setphysical M p .interiorOnly) (minl + 1) maxl ti)) := by
  unfold afterStep2 step2 r2b r2a
  rw [ops_append, ops_append, run_append, run_append]

section Step2

variable {M : Mesh} {minl maxl : Int} (X : Ctx M minl maxl) (ti : Bool) (p : Nat)

include X

theorem legit_fill2 : ∀ o ∈ ops M p (fillCoarse M p false .interiorOnly minl maxl (maxl - 1) ti), Legit M minl ti p o :=
  legit_ops M X.ok minl ti p _ (legit_fillCoarse M p false .interiorOnly minl maxl (maxl - 1) ti X.le
    (by have := X.le; omega))

theorem legit_interp2 : ∀ o ∈ ops M p (overLevels (interpolate2ghost M p false .interiorOnly) minl (maxl - 1) ti),
    Legit M minl ti p o :=
  legit_ops M X.ok minl ti p _ (legit_interp M p false .interiorOnly minl (maxl - 1) ti (by have := X.le; omega))

theorem legit_phys2 : ∀ o ∈ ops M p (overLevels (setphysical M p .interiorOnly) (minl + 1) maxl ti),
    Legit M minl ti p o :=
  legit_ops M X.ok minl ti p _ (legit_phys M p .interiorOnly minl (minl + 1) maxl ti)

theorem r2a_PS : ∀ k, PS M minl ti (loc M p) (S2 M maxl p) k → r2a M minl maxl ti p k = true := by
  rintro ⟨x, t, reg⟩ ⟨⟨h1, h2⟩, h3⟩
  dsimp only at *
  have := X.le
  cases reg with
  | interior =>
    exact run_PS M X.ok minl ti p (loc M p) none3 _ (legit_fill2 X ti p) _ (step1_PS X ti p) _ ⟨⟨h1, h2⟩, h3⟩
  | corner k => exact h3.elim
  | strip f h =>
    obtain ⟨hf, hh, hs, hx, hb, hl⟩ := h3
    subst h2
    refine fill_strip X (by omega) (A := loc M p) (fun _ h => h.1) _ (step1_PS X ti p)
      (m := .interiorOnly) ⟨hx.1, hx.2, by simp [modeOk, hb]⟩ h1 hf hh hs hl ?_
    intro y hy
    exact Or.inl (notBoundary_nbr hb (across_nbrs hf hy))

theorem r2b_PS : ∀ k, PS M minl ti (loc M p) (S2 M maxl p) k → r2b M minl maxl ti p k = true :=
  run_PS M X.ok minl ti p _ _ _ (legit_interp2 X ti p) _ (r2a_PS X ti p)

theorem step2_PS : ∀ k, PS M minl ti (loc M p) (S2 M maxl p) k → afterStep2 M minl maxl ti p k = true := by
  rw [afterStep2_eq]
  exact run_PS M X.ok minl ti p _ _ _ (legit_phys2 X ti p) _ (r2b_PS X ti p)

theorem PS_loc {S : Nat → Nat → Nat → Prop} (hS : ∀ x f h, S x f h → M.owner x = p) (k : Key)
    (h : PS M minl ti (loc M p) S k) : M.owner k.x = p := by
  obtain ⟨_, h2⟩ := h
  cases hr : k.reg with
  | interior => rw [hr] at h2; exact h2.2
  | strip f hh => rw [hr] at h2; exact hS _ _ _ h2.2.2.2
  | corner kk => rw [hr] at h2; exact h2.elim

theorem exchange_local (k : Key) (h : M.owner k.x = p) :
    afterExchange M minl maxl ti p k = afterStep2 M minl maxl ti p k := by
  unfold afterExchange
  rw [if_neg]
  intro hg
  exact isGhost_owner hg h

theorem exchange_PS2 : ∀ k, PS M minl ti (loc M p) (S2 M maxl p) k → afterExchange M minl maxl ti p k = true := by
  intro k hk
  rw [exchange_local X ti p k (PS_loc X ti p (fun x f h hs => hs.1.2) k hk)]
  exact step2_PS X ti p k hk

theorem indirect_PS2 : ∀ k, PS M minl ti (loc M p) (S2 M maxl p) k → afterIndirect M minl maxl ti p k = true :=
  run_PS M X.ok minl ti p _ _ _ (legit_indirect M X.ok p minl ti) _ (exchange_PS2 X ti p)

end Step2

/-! ### Step 3 -/

/-- Interiors on process `p` after the exchange. -/
def A3 (M : Mesh) (p x : Nat) : Prop := x ∈ M.patches ∧ (M.owner x = p ∨ isGhost M p x = true)

/-- Strips of `c` that are read when interpolating to a patch of process `p`. -/
def Needed (M : Mesh) (p c f h : Nat) : Prop :=
  ∃ y, loc M p y ∧
    ((∃ f' y0 y1 rf g, f' < 4 ∧ g < 2 ∧ M.face c f' = .half y0 y1 rf ∧ pick y0 y1 g = y ∧
        (f = f' ∨ (f = side f' g ∧ h = f' % 2))) ∨
     (∃ k rk, k < 4 ∧ cornerNbr M c k = .half y rk ∧
        ((f = faceX k ∧ h = k / 2) ∨ (f = faceY k ∧ h = k % 2))))

def S3 (M : Mesh) (maxl : Int) (p : Nat) (x f h : Nat) : Prop :=
  (isBoundary (M.face x f) = true → M.level x ≤ maxl - 1) ∧ (M.owner x = p ∨ Needed M p x f h)

theorem A3_nbr {M : Mesh} (hM : M.Ok) {p x y : Nat} (hx : loc M p x) (hy : y ∈ nbrs M x) : A3 M p y := by
  refine ⟨hM.closed x hx.1 y hy, ?_⟩
  by_cases h : M.owner y = p
  · exact Or.inl h
  · exact Or.inr (ghost_of_nbr hx.1 hx.2 hy h)

theorem needed_nbr {M : Mesh} (hM : M.Ok) {p c f h : Nat} (hn : Needed M p c f h) :
    ∃ y, loc M p y ∧ y ∈ nbrs M c ∧ c ∈ nbrs M y := by
  obtain ⟨y, hy, ⟨f', y0, y1, rf, g, hf', hg, hface, hp, _⟩ | ⟨k, rk, hk, hc, _⟩⟩ := hn
  · obtain ⟨h1, hk, h2⟩ := half_double M hM c f' y0 y1 rf g hf' hg hface
    rw [hp] at h2
    refine ⟨y, hy, mem_nbrs_face hf' ?_, mem_nbrs_face h1 ?_⟩
    · rw [hface, ← hp]; exact pick_mem y0 y1 g
    · rw [h2]; simp [faceList]
  · obtain ⟨h1, h2⟩ := hM.halfCorner c k y rk hk hc
    exact ⟨y, hy, mem_nbrs_corner hk (by rw [hc]; simp [cornerList]), mem_nbrs_corner h1 (by rw [h2]; simp [cornerList])⟩

def r3a (M : Mesh) (minl maxl : Int) (ti : Bool) (p : Nat) : Valid :=
  run M (afterIndirect M minl maxl ti p) (ops M p (fillCoarse M p true .ghostOnly minl maxl maxl ti))

def r3b (M : Mesh) (minl maxl : Int) (ti : Bool) (p : Nat) : Valid :=
  run M (r3a M minl maxl ti p) (ops M p (overLevels (interpolate2ghost M p true .ghostOnly) minl (maxl - 1) ti))

theorem ghostUpdate_eq (M : Mesh) (minl maxl : Int) (ti : Bool) (p : Nat) :
    ghostUpdate M minl maxl ti p =
      run M (r3b M minl maxl ti p) (ops M p (overLevels (setphysical M p .all) minl maxl ti)) := by
  unfold ghostUpdate step3 r3b r3a
  rw [ops_append, ops_append, run_append, run_append]

section Step3

variable {M : Mesh} {minl maxl : Int} (X : Ctx M minl maxl) (ti : Bool) (p : Nat)

include X

theorem legit_fill3 : ∀ o ∈ ops M p (fillCoarse M p true .ghostOnly minl maxl maxl ti), Legit M minl ti p o :=
  legit_ops M X.ok minl ti p _ (legit_fillCoarse M p true .ghostOnly minl maxl maxl ti X.le
    (by have := X.le; omega))

theorem legit_interp3 : ∀ o ∈ ops M p (overLevels (interpolate2ghost M p true .ghostOnly) minl (maxl - 1) ti),
    Legit M minl ti p o :=
  legit_ops M X.ok minl ti p _ (legit_interp M p true .ghostOnly minl (maxl - 1) ti (by have := X.le; omega))

theorem legit_phys3 : ∀ o ∈ ops M p (overLevels (setphysical M p .all) minl maxl ti),
    Legit M minl ti p o :=
  legit_ops M X.ok minl ti p _ (legit_phys M p .all minl minl maxl ti)

theorem exchange_PS3 : ∀ k, PS M minl ti (A3 M p) none3 k → afterExchange M minl maxl ti p k = true := by
  rintro ⟨x, t, reg⟩ ⟨⟨h1, h2⟩, h3⟩
  cases reg with
  | strip f h => exact (h3.2.2.2).elim
  | corner k => exact h3.elim
  | interior =>
    obtain ⟨hx, ho⟩ := h3
    dsimp only at *
    unfold afterExchange
    dsimp only
    by_cases hg : isGhost M p x = true
    · rw [if_pos hg, (current_iff M minl ti x t).2 ⟨h1, h2⟩, Bool.true_and]
      exact step1_PS X ti (M.owner x) _ ⟨⟨h1, h2⟩, hx, rfl⟩
    · rw [if_neg hg]
      exact step2_PS X ti p _ ⟨⟨h1, h2⟩, hx, by simpa [hg] using ho⟩

theorem indirect_PS3 : ∀ k, PS M minl ti (A3 M p) none3 k → afterIndirect M minl maxl ti p k = true :=
  run_PS M X.ok minl ti p _ _ _ (legit_indirect M X.ok p minl ti) _ (exchange_PS3 X ti p)

/-- Strips of ghost patches that come with the exchange. -/
theorem exchange_ghostStrip {c f h : Nat} (hg : isGhost M p c = true) (hmem : c ∈ M.patches)
    (hc : cur M minl ti (M.level c)) (hb : onBoundary M (M.owner c) c = true) (hf : f < 4) (hh : h < 2)
    (hs : Src M (loc M (M.owner c)) c f h) (hl : isBoundary (M.face c f) = true → M.level c ≤ maxl - 1) :
    afterExchange M minl maxl ti p ⟨c, tl minl ti (M.level c), .strip f h⟩ = true := by
  unfold afterExchange
  dsimp only
  rw [if_pos hg, (current_iff M minl ti c _).2 ⟨hc, rfl⟩, Bool.true_and]
  exact step1_strip X ti (M.owner c) ⟨hmem, rfl⟩ hb hc hf hh hs hl

theorem occ_indirect {c f h y : Nat} (hg : isGhost M p c = true) (hmem : c ∈ M.patches)
    (hc : cur M minl ti (M.level c)) (hf : f < 4) (hh : h < 2) (ha : across M c f h = some y)
    (hy : isGhost M p y = true) (ho : M.owner y ≠ M.owner c) :
    ∃ o ∈ indirectOps M p minl ti, ∃ e ∈ effects M o, e.1 = ⟨c, tl minl ti (M.level c), .strip f h⟩ := by
  have h01 : h = 0 ∨ h = 1 := by omega
  have key : ∀ o, o ∈ indirectFace M p (tl minl ti (M.level c)) c f → o ∈ indirectOps M p minl ti := by
    intro o ho
    unfold indirectOps
    rw [List.mem_flatMap]
    refine ⟨c, ?_, List.mem_flatMap.2 ⟨f, (mem_numbers f).2 hf, ho⟩⟩
    rw [List.mem_filter]
    refine ⟨hmem, ?_⟩
    rw [Bool.and_eq_true]
    exact ⟨hg, by simpa [cur] using hc⟩
  unfold across at ha
  cases hface : M.face c f with
  | boundary => rw [hface] at ha; simp at ha
  | double y rf g hk => rw [hface] at ha; simp at ha
  | same y' rf =>
    rw [hface] at ha; cases ha
    refine ⟨.copyFace (tl minl ti (M.level c)) c f y, key _ (by simp [indirectFace, hface, hy, ho]), ?_⟩
    rcases h01 with rfl | rfl
    · exact ⟨_, List.mem_cons_self .., rfl⟩
    · exact ⟨_, List.mem_cons_of_mem _ (List.mem_cons_self ..), rfl⟩
  | half y0 y1 rf =>
    rw [hface] at ha
    simp only [Option.some.injEq] at ha
    subst ha
    refine ⟨.avgFace (tl minl ti (M.level c)) c f h (pick y0 y1 h), key _ ?_, _, List.mem_cons_self .., rfl⟩
    simp only [indirectFace, hface, List.mem_flatMap]
    exact ⟨h, by rcases h01 with rfl | rfl <;> simp, by simp [hy, ho]⟩

/-- A strip of a ghost patch whose source is a patch of process `p`. -/
theorem occ_remote {c f h y : Nat} (hg : M.owner c ≠ p) (hmem : c ∈ M.patches)
    (hc : cur M minl ti (M.level c)) (hf : f < 4) (hh : h < 2) (ha : across M c f h = some y)
    (hy : loc M p y) :
    ∃ o ∈ ops M p (fillCoarse M p true .ghostOnly minl maxl maxl ti), ∃ e ∈ effects M o,
      e.1 = ⟨c, tl minl ti (M.level c), .strip f h⟩ := by
  have h01 : h = 0 ∨ h = 1 := by omega
  have hvis : Vis M p .ghostOnly y :=
    ⟨hy.1, hy.2, boundary_of_nbr (across_sym X.ok hf hh ha) hg⟩
  unfold across at ha
  cases hface : M.face c f with
  | boundary => rw [hface] at ha; simp at ha
  | double y rf g hk => rw [hface] at ha; simp at ha
  | same y' rf =>
    rw [hface] at ha; cases ha
    obtain ⟨h1, h2⟩ := X.ok.sameSym c f y rf hf hface
    have hl := X.ok.sameLevel c f y rf hf hface
    have hc2 := hc
    rw [← hl] at hc2
    have := occ_copyRemote (rp := true) (hi := maxl) X.le hvis hc2 (X.top y hy.1) h1 h2 hg
    rw [hl] at this
    refine ⟨_, this, ?_⟩
    rcases h01 with rfl | rfl
    · exact ⟨_, List.mem_cons_self .., rfl⟩
    · exact ⟨_, List.mem_cons_of_mem _ (List.mem_cons_self ..), rfl⟩
  | half y0 y1 rf =>
    rw [hface] at ha
    simp only [Option.some.injEq] at ha
    subst ha
    obtain ⟨h1, hk, h2⟩ := half_double M X.ok c f y0 y1 rf h hf hh hface
    have hl := half_level M X.ok c f y0 y1 rf h hf hface
    have hl2 : M.level (pick y0 y1 h) - 1 = M.level c := by omega
    have htop := X.top _ hy.1
    have := occ_avgFine (hi := maxl) X.le hvis (by rw [hl2]; exact hc) (by omega) h1 h2 hg
    rw [hl2] at this
    exact ⟨_, this, _, List.mem_cons_self .., rfl⟩

theorem r3a_PS : ∀ k, PS M minl ti (A3 M p) (S3 M maxl p) k → r3a M minl maxl ti p k = true := by
  rintro ⟨x, t, reg⟩ ⟨⟨h1, h2⟩, h3⟩
  dsimp only at *
  have hle := X.le
  have hi3 := legit_indirect M X.ok p minl ti
  have hf3 := legit_fill3 X ti p
  cases reg with
  | interior =>
    exact run_PS M X.ok minl ti p (A3 M p) none3 _ hf3 _ (indirect_PS3 X ti p) _ ⟨⟨h1, h2⟩, h3⟩
  | corner k => exact h3.elim
  | strip f h =>
    obtain ⟨hf, hh, hs, hbl, hx⟩ := h3
    subst h2
    have hbase : Base M minl ti (A3 M p) none3 ⟨x, tl minl ti (M.level x), .strip f h⟩ :=
      ⟨⟨h1, rfl⟩, hf, hh, Or.inl hs⟩
    -- keep what is valid after the indirect operations, and write what is written
    have fin : (afterIndirect M minl maxl ti p ⟨x, tl minl ti (M.level x), .strip f h⟩ = true ∨
        ∃ o ∈ ops M p (fillCoarse M p true .ghostOnly minl maxl maxl ti), ∃ e ∈ effects M o,
          e.1 = ⟨x, tl minl ti (M.level x), .strip f h⟩) →
        r3a M minl maxl ti p ⟨x, tl minl ti (M.level x), .strip f h⟩ = true :=
      fun he => run_base M X.ok minl ti p (A3 M p) none3 _ hf3 _ (indirect_PS3 X ti p) _ hbase he
    have ind : (afterExchange M minl maxl ti p ⟨x, tl minl ti (M.level x), .strip f h⟩ = true ∨
        ∃ o ∈ indirectOps M p minl ti, ∃ e ∈ effects M o,
          e.1 = ⟨x, tl minl ti (M.level x), .strip f h⟩) →
        afterIndirect M minl maxl ti p ⟨x, tl minl ti (M.level x), .strip f h⟩ = true :=
      fun he => run_base M X.ok minl ti p (A3 M p) none3 _ hi3 _ (exchange_PS3 X ti p) _ hbase he
    by_cases hown : M.owner x = p
    · -- a patch of this process
      have hmem : x ∈ M.patches ∨ ∃ y, across M x f h = some y ∧ A3 M p y := by
        rcases hs with ⟨_, h⟩ | h
        · exact Or.inl h.1
        · exact Or.inr h
      have hmem : x ∈ M.patches := by
        rcases hmem with h | ⟨y, h, hy⟩
        · exact h
        · exact X.ok.closed y hy.1 x (across_sym X.ok hf hh h)
      by_cases hb : onBoundary M p x = true
      · exact fill_strip X (by omega) (A := A3 M p) (fun _ h => h.1) _ (indirect_PS3 X ti p)
          (m := .ghostOnly) ⟨hmem, hown, hb⟩ h1 hf hh hs (fun _ => X.top x hmem) (fun _ _ => Or.inr rfl)
      · refine fin (Or.inl (indirect_PS2 X ti p _ ⟨⟨h1, rfl⟩, hf, hh, ?_, ⟨hmem, hown⟩, by simpa using hb, hbl⟩))
        rcases hs with ⟨h4, _⟩ | ⟨y, h4, hy⟩
        · exact Or.inl ⟨h4, hmem, hown⟩
        · exact Or.inr ⟨y, h4, hy.1, notBoundary_nbr (by simpa using hb) (across_nbrs hf h4)⟩
    · -- a ghost patch
      have hn : Needed M p x f h := by
        rcases hx with hx | hx
        · exact absurd hx hown
        · exact hx
      obtain ⟨y', hy', hy1, hy2⟩ := needed_nbr X.ok hn
      have hgh : isGhost M p x = true := ghost_of_nbr hy'.1 hy'.2 hy2 hown
      have hmem : x ∈ M.patches := X.ok.closed y' hy'.1 x hy2
      have hb : onBoundary M (M.owner x) x = true := by
        refine boundary_of_nbr hy1 ?_
        rw [hy'.2]; exact fun h => hown h.symm
      rcases hs with ⟨h4, _⟩ | ⟨y, h4, hy⟩
      · exact fin (Or.inl (ind (Or.inl (exchange_ghostStrip X ti p hgh hmem h1 hb hf hh
          (Or.inl ⟨h4, hmem, rfl⟩) hbl))))
      · by_cases ho : M.owner y = M.owner x
        · exact fin (Or.inl (ind (Or.inl (exchange_ghostStrip X ti p hgh hmem h1 hb hf hh
            (Or.inr ⟨y, h4, hy.1, ho⟩) hbl))))
        · by_cases hp : M.owner y = p
          · exact fin (Or.inr (occ_remote X ti p hown hmem h1 hf hh h4 ⟨hy.1, hp⟩))
          · have hyg : isGhost M p y = true := by
              rcases hy.2 with h5 | h5
              · exact absurd h5 hp
              · exact h5
            exact fin (Or.inl (ind (Or.inr (occ_indirect X ti p hgh hmem h1 hf hh h4 hyg ho))))

theorem r3b_PS : ∀ k, PS M minl ti (A3 M p) (S3 M maxl p) k → r3b M minl maxl ti p k = true :=
  run_PS M X.ok minl ti p _ _ _ (legit_interp3 X ti p) _ (r3a_PS X ti p)

/-- What was valid in step 2 stays so. -/
theorem keep2 (k : Key) (ho : M.owner k.x = p) (hb : Base M minl ti (loc M p) (S2 M maxl p) k)
    (hv : r2b M minl maxl ti p k = true) : r3b M minl maxl ti p k = true := by
  have h1 : afterStep2 M minl maxl ti p k = true := by
    rw [afterStep2_eq]
    exact run_base M X.ok minl ti p _ _ _ (legit_phys2 X ti p) _ (r2b_PS X ti p) k hb (Or.inl hv)
  have h2 : afterExchange M minl maxl ti p k = true := by rw [exchange_local X ti p k ho]; exact h1
  have h3 : afterIndirect M minl maxl ti p k = true :=
    run_base M X.ok minl ti p _ _ _ (legit_indirect M X.ok p minl ti) _ (exchange_PS2 X ti p) k hb (Or.inl h2)
  have h4 : r3a M minl maxl ti p k = true :=
    run_base M X.ok minl ti p _ _ _ (legit_fill3 X ti p) _ (indirect_PS2 X ti p) k hb (Or.inl h3)
  exact run_base M X.ok minl ti p _ _ _ (legit_interp3 X ti p) _
    (run_PS M X.ok minl ti p _ _ _ (legit_fill3 X ti p) _ (indirect_PS2 X ti p)) k hb (Or.inl h4)

/-! ### Interpolation reads valid regions -/

theorem reads_face (A : Nat → Prop) (S : Nat → Nat → Nat → Prop) {c f y0 y1 rf g : Nat} (hf : f < 4) (hg : g < 2)
    (hface : M.face c f = .half y0 y1 rf) (hc : cur M minl ti (M.level c)) (hA : A c)
    (h0 : A y0) (h1 : A y1) (hn : ∀ n, across M c (side f g) (f % 2) = some n → A n)
    (hS0 : S c f 0) (hS1 : S c f 1) (hSs : S c (side f g) (f % 2)) :
    ∀ r ∈ faceReads c (tl minl ti (M.level c)) f g, PS M minl ti A S r := by
  intro r hr
  simp only [faceReads, List.mem_cons, List.not_mem_nil, or_false] at hr
  rcases hr with rfl | rfl | rfl | rfl
  · exact ⟨⟨hc, rfl⟩, hA⟩
  · exact ⟨⟨hc, rfl⟩, hf, by omega, Or.inr ⟨y0, by simp [across, hface, pick], h0⟩, hS0⟩
  · exact ⟨⟨hc, rfl⟩, hf, by omega, Or.inr ⟨y1, by simp [across, hface, pick], h1⟩, hS1⟩
  · refine ⟨⟨hc, rfl⟩, ?_, by omega, ?_, hSs⟩
    · unfold side; split <;> omega
    · have hd := X.ok.balFace c f y0 y1 rf g hf hg hface
      cases hs : M.face c (side f g) with
      | boundary => exact Or.inl ⟨by dsimp only; rw [hs]; rfl, hA⟩
      | double y rf g hk => rw [hs] at hd; simp [isDouble] at hd
      | same y rf' =>
        have ha : across M c (side f g) (f % 2) = some y := by simp [across, hs]
        exact Or.inr ⟨y, ha, hn y ha⟩
      | half a b rf' =>
        have ha : across M c (side f g) (f % 2) = some (pick a b (f % 2)) := by simp [across, hs]
        exact Or.inr ⟨_, ha, hn _ ha⟩

theorem reads_corner (A : Nat → Prop) (S : Nat → Nat → Nat → Prop) {c k y rk : Nat} (hk : k < 4)
    (hcn : cornerNbr M c k = .half y rk) (hc : cur M minl ti (M.level c)) (hA : A c)
    (hx : ∀ n, across M c (faceX k) (k / 2) = some n → A n)
    (hy : ∀ n, across M c (faceY k) (k % 2) = some n → A n)
    (hSx : S c (faceX k) (k / 2)) (hSy : S c (faceY k) (k % 2)) :
    ∀ r ∈ cornerReads c (tl minl ti (M.level c)) k, PS M minl ti A S r := by
  have hne := cornerNbr_ne M c k (by rw [hcn]; simp)
  obtain ⟨hdx, hdy⟩ := X.ok.balCorner c k y rk hk hcn
  have key : ∀ f h, isBoundary (M.face c f) = false → isDouble (M.face c f) = false →
      (∀ n, across M c f h = some n → A n) → Src M A c f h := by
    intro f h hb hd hn
    cases hs : M.face c f with
    | boundary => rw [hs] at hb; simp [isBoundary] at hb
    | double y rf g hk => rw [hs] at hd; simp [isDouble] at hd
    | same y rf' =>
      have ha : across M c f h = some y := by simp [across, hs]
      exact Or.inr ⟨y, ha, hn y ha⟩
    | half a b rf' =>
      have ha : across M c f h = some (pick a b h) := by simp [across, hs]
      exact Or.inr ⟨_, ha, hn _ ha⟩
  intro r hr
  simp only [cornerReads, List.mem_cons, List.not_mem_nil, or_false] at hr
  rcases hr with rfl | rfl | rfl
  · exact ⟨⟨hc, rfl⟩, hA⟩
  · exact ⟨⟨hc, rfl⟩, by unfold faceX; omega, by omega, key _ _ hne.1 hdx hx, hSx⟩
  · exact ⟨⟨hc, rfl⟩, by unfold faceY; omega, by omega, key _ _ hne.2.1 hdy hy, hSy⟩

/-- … in step 2, -/
theorem reads2_face {c f y0 y1 rf g : Nat} (hf : f < 4) (hg : g < 2)
    (hface : M.face c f = .half y0 y1 rf) (hc : cur M minl ti (M.level c)) (hx : loc M p c)
    (hb : onBoundary M p c = false) :
    ∀ r ∈ faceReads c (tl minl ti (M.level c)) f g, PS M minl ti (loc M p) (S2 M maxl p) r := by
  have hn : ∀ n ∈ nbrs M c, loc M p n := fun n hn => ⟨X.ok.closed c hx.1 n hn, notBoundary_nbr hb hn⟩
  have h0 : y0 ∈ nbrs M c := mem_nbrs_face hf (by rw [hface]; simp [faceList])
  have h1 : y1 ∈ nbrs M c := mem_nbrs_face hf (by rw [hface]; simp [faceList])
  have hl := X.top _ (hn _ h0).1
  have hl2 := (X.ok.halfLevel c f y0 y1 rf hf hface).1
  have hS : ∀ f h, S2 M maxl p c f h := fun f h => ⟨hx, hb, fun _ => by omega⟩
  refine reads_face X ti (loc M p) (S2 M maxl p) hf hg hface hc hx (hn _ h0) (hn _ h1) ?_ (hS _ _) (hS _ _) (hS _ _)
  intro n ha
  exact hn n (across_nbrs (by unfold side; split <;> omega) ha)

theorem reads2_corner {c k y rk : Nat} (hk : k < 4) (hcn : cornerNbr M c k = .half y rk)
    (hc : cur M minl ti (M.level c)) (hx : loc M p c) (hb : onBoundary M p c = false) :
    ∀ r ∈ cornerReads c (tl minl ti (M.level c)) k, PS M minl ti (loc M p) (S2 M maxl p) r := by
  have hn : ∀ n ∈ nbrs M c, loc M p n := fun n hn => ⟨X.ok.closed c hx.1 n hn, notBoundary_nbr hb hn⟩
  have h0 : y ∈ nbrs M c := mem_nbrs_corner hk (by rw [hcn]; simp [cornerList])
  have hl := X.top _ (hn _ h0).1
  have hl2 := X.ok.halfCornerLevel c k y rk hk hcn
  have hS : ∀ f h, S2 M maxl p c f h := fun f h => ⟨hx, hb, fun _ => by omega⟩
  refine reads_corner X ti (loc M p) (S2 M maxl p) hk hcn hc hx ?_ ?_ (hS _ _) (hS _ _)
  · intro n ha; exact hn n (across_nbrs (by unfold faceX; omega) ha)
  · intro n ha; exact hn n (across_nbrs (by unfold faceY; omega) ha)

/-- … and in step 3. -/
theorem reads3_face {c f y0 y1 rf g : Nat} (hf : f < 4) (hg : g < 2)
    (hface : M.face c f = .half y0 y1 rf) (hc : cur M minl ti (M.level c))
    (hy : loc M p (pick y0 y1 g)) :
    ∀ r ∈ faceReads c (tl minl ti (M.level c)) f g, PS M minl ti (A3 M p) (S3 M maxl p) r := by
  obtain ⟨hrf, hk, hd⟩ := half_double M X.ok c f y0 y1 rf g hf hg hface
  have hl := X.top _ hy.1
  have hl2 := half_level M X.ok c f y0 y1 rf g hf hface
  have hcn : c ∈ nbrs M (pick y0 y1 g) := mem_nbrs_face hrf (by rw [hd]; simp [faceList])
  have hsib := X.ok.siblings c f y0 y1 rf hf hface
  have hA3 : ∀ n ∈ nbrs M (pick y0 y1 g), A3 M p n := fun n hn => A3_nbr X.ok hy hn
  have hself : A3 M p (pick y0 y1 g) := ⟨hy.1, Or.inl hy.2⟩
  have h01 : A3 M p y0 ∧ A3 M p y1 := by
    rcases pick_cases y0 y1 g hg with ⟨_, e⟩ | ⟨_, e⟩ <;> rw [e] at hA3 hself
    · exact ⟨hself, hA3 _ hsib.2⟩
    · exact ⟨hA3 _ hsib.1, hself⟩
  refine reads_face X ti (A3 M p) (S3 M maxl p) hf hg hface hc (hA3 _ hcn) h01.1 h01.2 ?_ ?_ ?_ ?_
  · intro n ha; exact hA3 n (X.ok.meetFace c f y0 y1 rf g n hf hg hface ha)
  · exact ⟨fun _ => by omega, Or.inr ⟨_, hy, Or.inl ⟨f, y0, y1, rf, g, hf, hg, hface, rfl, Or.inl rfl⟩⟩⟩
  · exact ⟨fun _ => by omega, Or.inr ⟨_, hy, Or.inl ⟨f, y0, y1, rf, g, hf, hg, hface, rfl, Or.inl rfl⟩⟩⟩
  · exact ⟨fun _ => by omega, Or.inr ⟨_, hy, Or.inl ⟨f, y0, y1, rf, g, hf, hg, hface, rfl, Or.inr ⟨rfl, rfl⟩⟩⟩⟩

theorem reads3_corner {c k y rk : Nat} (hk : k < 4) (hcn : cornerNbr M c k = .half y rk)
    (hc : cur M minl ti (M.level c)) (hy : loc M p y) :
    ∀ r ∈ cornerReads c (tl minl ti (M.level c)) k, PS M minl ti (A3 M p) (S3 M maxl p) r := by
  obtain ⟨hrk, hd⟩ := X.ok.halfCorner c k y rk hk hcn
  have hl := X.top _ hy.1
  have hl2 := X.ok.halfCornerLevel c k y rk hk hcn
  have hcm : c ∈ nbrs M y := mem_nbrs_corner hrk (by rw [hd]; simp [cornerList])
  have hA3 : ∀ n ∈ nbrs M y, A3 M p n := fun n hn => A3_nbr X.ok hy hn
  refine reads_corner X ti (A3 M p) (S3 M maxl p) hk hcn hc (hA3 _ hcm) ?_ ?_ ?_ ?_
  · intro n ha; exact hA3 n (X.ok.meetCornerX c k y rk n hk hcn ha)
  · intro n ha; exact hA3 n (X.ok.meetCornerY c k y rk n hk hcn ha)
  · exact ⟨fun _ => by omega, Or.inr ⟨_, hy, Or.inr ⟨k, rk, hk, hcn, Or.inl ⟨rfl, rfl⟩⟩⟩⟩
  · exact ⟨fun _ => by omega, Or.inr ⟨_, hy, Or.inr ⟨k, rk, hk, hcn, Or.inr ⟨rfl, rfl⟩⟩⟩⟩

end Step3

end Fclaw.GhostFill
