import Verif.CopyGhost.Update
import Verif.CopyGhost.Lemmas
import Verif.GhostFill.Final
/-
Helpers for C34: what holds during a ghost update.
-/
set_option autoImplicit false
set_option linter.unusedSimpArgs false
set_option linter.unusedVariables false
namespace Fclaw.CopyGhost

open Fort Transform GhostFill

variable {α : Type} {d : Dims} {M : Mesh} {G : Geometry} {oth : Op → State α → State α}
  {recv : Grid α → Grid α} {minl maxl : Int} {ti : Bool}

/-- Two grids agree in the outermost layers of the interior. -/
def NearEq (d : Dims) (q q' : Grid α) : Prop := ∀ i j mq, near d i j → comp d mq → q (i, j, mq) = q' (i, j, mq)

/-- Strip `f` of `q` holds the values of the neighbour's data `Q`. -/
def GoodStrip (d : Dims) (G : Geometry) (x f y : Nat) (Q q : Grid α) : Prop :=
  ∀ i j mq, inStrip d f i j → comp d mq → ∃ i' j', near d i' j' ∧
    FaceSame d (G.faceT x f) (G.patch x) (G.patch y) i j i' j' ∧ q (i, j, mq) = Q (i', j', mq)

def GoodCorner (d : Dims) (G : Geometry) (x k y : Nat) (Q q : Grid α) : Prop :=
  ∀ i j mq, inCorner d k i j → comp d mq → ∃ i' j', near d i' j' ∧
    CornerSame d (cornerData G x k y) i j i' j' ∧ q (i, j, mq) = Q (i', j', mq)

/-- A face copy: never fails, changes the strip only, and fills it. -/
theorem exec_face (hd : Proper d) (hG : Fits d M G) {x f y rf : Nat} (hf : f < 4) (h : M.face x f = .same y rf)
    (s : State α) (t : Bool) :
    ∃ q, copyFace d (faceData G x f y) f (s y t) (s x t) = some q ∧
      (∀ Q, NearEq d (s y t) Q → GoodStrip d G x f y Q q) ∧
      ∀ i j mq, ¬ (inStrip d f i j ∧ comp d mq) → q (i, j, mq) = s x t (i, j, mq) := by
  have L := hG.face x f y rf hf h
  obtain ⟨T, h1, h2, h3⟩ := clawFace_spec hd (faceData G x f y) f L
  obtain ⟨A, hA, hAT⟩ := build_spec (faceData G x f y) T h1 h2
  have hn : ∀ i j, inStrip d f i j → near d (T i j).1 (T i j).2 := fun i j hs => strip_near f T h2 hd i j hs
  obtain ⟨q, e, a, b⟩ := copyFace_writes (faceData G x f y) f hf (s y t) T A hA hAT hn (s x t)
  refine ⟨q, e, ?_, fun i j mq hc => b (i, j, mq) hc⟩
  intro Q hQ i j mq hs hm
  refine ⟨(T i j).1, (T i j).2, hn i j hs, h3 i j, ?_⟩
  rw [a (i, j, mq) ⟨hs, hm⟩]
  exact hQ _ _ _ (hn i j hs) hm

theorem exec_corner (hd : Proper d) (hG : Fits d M G) {x k y rk : Nat} (hk : k < 4) (h : cornerNbr M x k = .same y rk)
    (s : State α) (t : Bool) :
    ∃ q, copyCorner d (cornerData G x k y) k (s y t) (s x t) = some q ∧
      (∀ Q, NearEq d (s y t) Q → GoodCorner d G x k y Q q) ∧
      ∀ i j mq, ¬ (inCorner d k i j ∧ comp d mq) → q (i, j, mq) = s x t (i, j, mq) := by
  have L := hG.corner x k y rk hk h
  obtain ⟨T, h1, h2, h3⟩ := clawCorner_spec hd (cornerData G x k y) k L
  have hn : ∀ i j, inCorner d k i j → near d (T i j).1 (T i j).2 := fun i j hs => corner_near k hk T h2 hd i j hs
  obtain ⟨q, e, a, b⟩ := copyCorner_writes (cornerData G x k y) k hk (s y t) T h1 hn (s x t)
  refine ⟨q, e, ?_, fun i j mq hc => b (i, j, mq) hc⟩
  intro Q hQ i j mq hs hm
  refine ⟨(T i j).1, (T i j).2, hn i j hs, h3 i j, ?_⟩
  rw [a (i, j, mq) ⟨hs, hm⟩]
  exact hQ _ _ _ (hn i j hs) hm

/-! ### Regions do not overlap -/

theorem strip_not_interior {f : Nat} {i j : ℤ} (h : inStrip d f i j) : ¬ interior d i j := by
  unfold interior
  unfold inStrip at h
  split at h <;> first | omega | exact absurd h id

theorem corner_not_interior {k : Nat} {i j : ℤ} (h : inCorner d k i j) : ¬ interior d i j := by
  unfold interior
  obtain ⟨h1, h2⟩ := h
  split at h1 <;> split at h2 <;> omega

theorem strip_disjoint {f f' : Nat} {i j : ℤ} (h : inStrip d f i j) (h' : inStrip d f' i j) : f = f' := by
  unfold inStrip at h h'
  split at h <;> split at h' <;> first | rfl | omega | exact absurd h id | exact absurd h' id

theorem strip_not_corner {f k : Nat} {i j : ℤ} (h : inStrip d f i j) : ¬ inCorner d k i j := by
  rintro ⟨h1, h2⟩
  unfold inStrip at h
  split at h <;> split at h1 <;> split at h2 <;> first | omega | exact absurd h id

theorem corner_disjoint {k k' : Nat} (hk : k < 4) (hk' : k' < 4) {i j : ℤ} (h : inCorner d k i j)
    (h' : inCorner d k' i j) : k = k' := by
  obtain ⟨h1, h2⟩ := h
  obtain ⟨h3, h4⟩ := h'
  split at h1 <;> split at h2 <;> split at h3 <;> split at h4 <;> omega

/-- Each cell of a strip is in one of its halves. -/
theorem strip_half {f : Nat} {i j : ℤ} (h : inStrip d f i j) : ∃ hh, hh < 2 ∧ inRegion d (.strip f hh) i j := by
  by_cases hf : f / 2 = 0
  · by_cases hj : 2 * j ≤ d.my
    · exact ⟨0, by omega, h, by rw [if_pos hf]; simp [hj], by omega⟩
    · exact ⟨1, by omega, h, by rw [if_pos hf]; simp [hj], by omega⟩
  · by_cases hj : 2 * i ≤ d.mx
    · exact ⟨0, by omega, h, by rw [if_neg hf]; simp [hj], by omega⟩
    · exact ⟨1, by omega, h, by rw [if_neg hf]; simp [hj], by omega⟩

/-! ### One operation -/

/-- Which operations may write the strip at a neighbour of the same size: only copies. -/
theorem strip_writer (hM : M.Ok) {p x f y rf : Nat} (hf : f < 4) (h : M.face x f = .same y rf) (t : Bool) (hh : Nat)
    (o : Op) (ho : Legit M minl ti p o) (hnc : ∀ t' x' f' y', o ≠ .copyFace t' x' f' y') :
    ∀ e ∈ effects M o, e.1 ≠ ⟨x, t, .strip f hh⟩ := by
  intro e he heq
  cases o with
  | copyFace t' x' f' y' => exact hnc _ _ _ _ rfl
  | avgFace t' x' f' g y' =>
    obtain ⟨_, _, ⟨y0, y1, rf', hfa, _⟩, _⟩ := ho
    simp only [effects, List.mem_singleton] at he
    subst he
    simp only [Key.mk.injEq, Region.strip.injEq] at heq
    obtain ⟨rfl, _, rfl, _⟩ := heq
    rw [h] at hfa; cases hfa
  | interpFace t' c f' g y' fy =>
    obtain ⟨_, _, _, _, ⟨hk, hfa⟩, _⟩ := ho
    simp only [effects, List.mem_cons, List.mem_map] at he
    rcases he with rfl | rfl | ⟨a, _, rfl⟩
    · simp only [Key.mk.injEq, Region.strip.injEq] at heq
      obtain ⟨rfl, _, rfl, _⟩ := heq
      rw [h] at hfa; cases hfa
    · simp only [Key.mk.injEq, Region.strip.injEq] at heq
      obtain ⟨rfl, _, rfl, _⟩ := heq
      rw [h] at hfa; cases hfa
    · simp at heq
  | copyCorner t' x' k' y' => simp only [effects, List.mem_singleton] at he; subst he; simp at heq
  | avgCorner t' x' k' y' => simp only [effects, List.mem_singleton] at he; subst he; simp at heq
  | interpCorner t' c k' y' ky => simp only [effects, List.mem_singleton] at he; subst he; simp at heq
  | phys t' x' =>
    simp only [effects, List.mem_append, List.mem_flatMap] at he
    rcases he with ⟨f', hf', he⟩ | ⟨k', hk', he⟩
    · split at he
      · rename_i hb
        simp only [List.mem_cons, List.not_mem_nil, or_false] at he
        rcases he with rfl | rfl <;> simp only [Key.mk.injEq, Region.strip.injEq] at heq <;>
          obtain ⟨rfl, _, rfl, _⟩ := heq <;> rw [h] at hb <;> simp [isBoundary] at hb
      · simp at he
    · have := (physCorner_mem M x' t' k' e he).1
      rw [this] at heq; simp at heq

/-- … and the corner. -/
theorem corner_writer (hM : M.Ok) {p x k y rk : Nat} (hk : k < 4) (h : cornerNbr M x k = .same y rk) (t : Bool)
    (o : Op) (ho : Legit M minl ti p o) (hnc : ∀ t' x' f' y', o ≠ .copyCorner t' x' f' y') :
    ∀ e ∈ effects M o, e.1 ≠ ⟨x, t, .corner k⟩ := by
  obtain ⟨hbx, hby, hcc⟩ := cornerNbr_ne M x k (by rw [h]; simp)
  intro e he heq
  cases o with
  | copyCorner t' x' k' y' => exact hnc _ _ _ _ rfl
  | copyFace t' x' f' y' =>
    simp only [effects, List.mem_cons, List.not_mem_nil, or_false] at he
    rcases he with rfl | rfl <;> simp at heq
  | avgFace t' x' f' g y' => simp only [effects, List.mem_singleton] at he; subst he; simp at heq
  | interpFace t' c f' g y' fy =>
    obtain ⟨_, _, hfy, _, ⟨hk', hfa⟩, _⟩ := ho
    simp only [effects, List.mem_cons, List.mem_map] at he
    rcases he with rfl | rfl | ⟨a, ha, rfl⟩
    · simp at heq
    · simp at heq
    · simp only [Key.mk.injEq, Region.corner.injEq] at heq
      obtain ⟨rfl, _, rfl⟩ := heq
      simp only [hanging, hfa, List.mem_singleton] at ha
      subst ha
      have := (hM.hangingNone y' fy c f' g a hfy hfa hk).1
      rw [hcc, h] at this; cases this
  | avgCorner t' x' k' y' =>
    obtain ⟨_, ⟨rk', hc⟩, _⟩ := ho
    simp only [effects, List.mem_singleton] at he
    subst he
    simp only [Key.mk.injEq, Region.corner.injEq] at heq
    obtain ⟨rfl, _, rfl⟩ := heq
    rw [h] at hc; cases hc
  | interpCorner t' c k' y' ky =>
    obtain ⟨_, _, hc, _⟩ := ho
    simp only [effects, List.mem_singleton] at he
    subst he
    simp only [Key.mk.injEq, Region.corner.injEq] at heq
    obtain ⟨rfl, _, rfl⟩ := heq
    rw [h] at hc; cases hc
  | phys t' x' =>
    simp only [effects, List.mem_append, List.mem_flatMap] at he
    rcases he with ⟨f', hf', he⟩ | ⟨k', hk', he⟩
    · split at he
      · simp only [List.mem_cons, List.not_mem_nil, or_false] at he
        rcases he with rfl | rfl <;> simp at heq
      · simp at he
    · obtain ⟨h1, h2⟩ := physCorner_mem M x' t' k' e he
      rw [h1] at heq
      simp only [Key.mk.injEq, Region.corner.injEq] at heq
      obtain ⟨rfl, _, rfl⟩ := heq
      rcases h2 with ⟨a, _⟩ | ⟨a, _⟩ | ⟨_, a, _⟩
      · rw [hbx] at a; cases a
      · rw [hbx] at a; cases a
      · rw [hby] at a; cases a

/-- What one operation does to everything of interest. -/
structure Step (d : Dims) (M : Mesh) (G : Geometry) (o : Op) (s s' : State α) : Prop where
  inter : ∀ x t i j mq, interior d i j → s' x t (i, j, mq) = s x t (i, j, mq)
  strip : ∀ t x f y rf Q, f < 4 → M.face x f = .same y rf → NearEq d (s y t) Q →
    GoodStrip d G x f y Q (s x t) ∨ o = .copyFace t x f y → GoodStrip d G x f y Q (s' x t)
  corner : ∀ t x k y rk Q, k < 4 → cornerNbr M x k = .same y rk → NearEq d (s y t) Q →
    GoodCorner d G x k y Q (s x t) ∨ o = .copyCorner t x k y → GoodCorner d G x k y Q (s' x t)

theorem goodStrip_congr {x f y : Nat} {Q q q' : Grid α} (h : GoodStrip d G x f y Q q)
    (he : ∀ i j mq, inStrip d f i j → comp d mq → q' (i, j, mq) = q (i, j, mq)) : GoodStrip d G x f y Q q' := by
  intro i j mq hs hm
  obtain ⟨i', j', a, b, c⟩ := h i j mq hs hm
  exact ⟨i', j', a, b, by rw [he i j mq hs hm]; exact c⟩

theorem goodCorner_congr {x f y : Nat} {Q q q' : Grid α} (h : GoodCorner d G x f y Q q)
    (he : ∀ i j mq, inCorner d f i j → comp d mq → q' (i, j, mq) = q (i, j, mq)) : GoodCorner d G x f y Q q' := by
  intro i j mq hs hm
  obtain ⟨i', j', a, b, c⟩ := h i j mq hs hm
  exact ⟨i', j', a, b, by rw [he i j mq hs hm]; exact c⟩

theorem put_same (s : State α) (x : Nat) (t : Bool) (q : Grid α) : put s x t q x t = q := by simp [put]
theorem put_other (s : State α) (x : Nat) (t : Bool) (q : Grid α) {x' : Nat} {t' : Bool} (h : ¬ (x' = x ∧ t' = t)) :
    put s x t q x' t' = s x' t' := by simp only [put]; rw [if_neg h]

theorem exec_step (hd : Proper d) (hG : Fits d M G) (hM : M.Ok) (hF : Framed d M oth) {p : Nat} (o : Op)
    (ho : Legit M minl ti p o) (s : State α) : ∃ s', exec d G oth s o = some s' ∧ Step d M G o s s' := by
  have other : (∀ t' x' f' y', o ≠ .copyFace t' x' f' y') → (∀ t' x' f' y', o ≠ .copyCorner t' x' f' y') →
      Step d M G o s (oth o s) := by
    intro hnf hnc
    refine ⟨?_, ?_, ?_⟩
    · intro x t i j mq hi
      refine hF o s x t .interior i j mq hi ?_
      intro e he heq
      have := effects_noninterior M o e he
      rw [heq] at this
      exact this rfl
    · intro t x f y rf Q hf hface hQ hg
      rcases hg with hg | hg
      · refine goodStrip_congr hg ?_
        intro i j mq hs hm
        obtain ⟨hh, _, hr⟩ := strip_half hs
        exact hF o s x t _ i j mq hr (strip_writer hM hf hface t hh o ho hnf)
      · exact absurd hg (hnf _ _ _ _)
    · intro t x k y rk Q hk hc hQ hg
      rcases hg with hg | hg
      · refine goodCorner_congr hg ?_
        intro i j mq hs hm
        exact hF o s x t (.corner k) i j mq hs (corner_writer hM hk hc t o ho hnc)
      · exact absurd hg (hnc _ _ _ _)
  cases o with
  | copyFace t x f y =>
    obtain ⟨hf, ⟨rf, hface⟩, _⟩ := ho
    obtain ⟨q, e, good, keep⟩ := exec_face hd hG hf hface s t
    refine ⟨put s x t q, by simp [exec, e], ?_, ?_, ?_⟩
    · intro x' t' i j mq hi
      by_cases hxt : x' = x ∧ t' = t
      · obtain ⟨rfl, rfl⟩ := hxt
        rw [put_same]
        exact keep i j mq fun hc => strip_not_interior hc.1 hi
      · rw [put_other _ _ _ _ hxt]
    · intro t' x' f' y' rf' Q hf' hface' hQ hg
      by_cases hxt : x' = x ∧ t' = t
      · obtain ⟨rfl, rfl⟩ := hxt
        rw [put_same]
        by_cases hff : f' = f
        · subst hff
          rw [hface] at hface'; cases hface'
          exact good Q hQ
        · rcases hg with hg | hg
          · exact goodStrip_congr hg fun i j mq hs _ => keep i j mq fun hc => hff (strip_disjoint hs hc.1)
          · simp only [Op.copyFace.injEq] at hg; exact absurd hg.2.2.1.symm hff
      · rw [put_other _ _ _ _ hxt]
        rcases hg with hg | hg
        · exact hg
        · simp only [Op.copyFace.injEq] at hg; exact absurd ⟨hg.2.1.symm, hg.1.symm⟩ hxt
    · intro t' x' k' y' rk' Q hk' hc' hQ hg
      by_cases hxt : x' = x ∧ t' = t
      · obtain ⟨rfl, rfl⟩ := hxt
        rw [put_same]
        rcases hg with hg | hg
        · exact goodCorner_congr hg fun i j mq hs _ => keep i j mq fun hc => strip_not_corner hc.1 hs
        · cases hg
      · rw [put_other _ _ _ _ hxt]
        rcases hg with hg | hg
        · exact hg
        · cases hg
  | copyCorner t x k y =>
    obtain ⟨hk, ⟨rk, hcor⟩, _⟩ := ho
    obtain ⟨q, e, good, keep⟩ := exec_corner hd hG hk hcor s t
    refine ⟨put s x t q, by simp [exec, e], ?_, ?_, ?_⟩
    · intro x' t' i j mq hi
      by_cases hxt : x' = x ∧ t' = t
      · obtain ⟨rfl, rfl⟩ := hxt
        rw [put_same]
        exact keep i j mq fun hc => corner_not_interior hc.1 hi
      · rw [put_other _ _ _ _ hxt]
    · intro t' x' f' y' rf' Q hf' hface' hQ hg
      by_cases hxt : x' = x ∧ t' = t
      · obtain ⟨rfl, rfl⟩ := hxt
        rw [put_same]
        rcases hg with hg | hg
        · exact goodStrip_congr hg fun i j mq hs _ => keep i j mq fun hc => strip_not_corner hs hc.1
        · cases hg
      · rw [put_other _ _ _ _ hxt]
        rcases hg with hg | hg
        · exact hg
        · cases hg
    · intro t' x' k' y' rk' Q hk' hc' hQ hg
      by_cases hxt : x' = x ∧ t' = t
      · obtain ⟨rfl, rfl⟩ := hxt
        rw [put_same]
        by_cases hff : k' = k
        · subst hff
          rw [hcor] at hc'; cases hc'
          exact good Q hQ
        · rcases hg with hg | hg
          · exact goodCorner_congr hg fun i j mq hs _ => keep i j mq fun hc => hff (corner_disjoint hk' hk hs hc.1)
          · simp only [Op.copyCorner.injEq] at hg; exact absurd hg.2.2.1.symm hff
      · rw [put_other _ _ _ _ hxt]
        rcases hg with hg | hg
        · exact hg
        · simp only [Op.copyCorner.injEq] at hg; exact absurd ⟨hg.2.1.symm, hg.1.symm⟩ hxt
  | avgFace t x f g y => exact ⟨_, rfl, other (by simp) (by simp)⟩
  | interpFace t c f g y fy => exact ⟨_, rfl, other (by simp) (by simp)⟩
  | avgCorner t x k y => exact ⟨_, rfl, other (by simp) (by simp)⟩
  | interpCorner t c k y ky => exact ⟨_, rfl, other (by simp) (by simp)⟩
  | phys t x => exact ⟨_, rfl, other (by simp) (by simp)⟩

/-! ### Sequences of operations -/

structure Run (d : Dims) (M : Mesh) (G : Geometry) (os : List Op) (s s' : State α) : Prop where
  inter : ∀ x t i j mq, interior d i j → s' x t (i, j, mq) = s x t (i, j, mq)
  strip : ∀ t x f y rf Q, f < 4 → M.face x f = .same y rf → NearEq d (s y t) Q →
    GoodStrip d G x f y Q (s x t) ∨ .copyFace t x f y ∈ os → GoodStrip d G x f y Q (s' x t)
  corner : ∀ t x k y rk Q, k < 4 → cornerNbr M x k = .same y rk → NearEq d (s y t) Q →
    GoodCorner d G x k y Q (s x t) ∨ .copyCorner t x k y ∈ os → GoodCorner d G x k y Q (s' x t)

theorem nearEq_of_inter {q q' Q : Grid α} (h : ∀ i j mq, interior d i j → q' (i, j, mq) = q (i, j, mq))
    (hQ : NearEq d q Q) : NearEq d q' Q := by
  intro i j mq hn hm
  rw [h i j mq hn.1]
  exact hQ i j mq hn hm

theorem execAll_run (hd : Proper d) (hG : Fits d M G) (hM : M.Ok) (hF : Framed d M oth) {p : Nat} (os : List Op) :
    (∀ o ∈ os, Legit M minl ti p o) → ∀ s : State α, ∃ s', execAll d G oth os s = some s' ∧ Run d M G os s s' := by
  induction os with
  | nil =>
    intro _ s
    refine ⟨s, rfl, fun _ _ _ _ _ _ => rfl, ?_, ?_⟩
    · intro t x f y rf Q _ _ _ hg; rcases hg with hg | hg
      · exact hg
      · simp at hg
    · intro t x f y rf Q _ _ _ hg; rcases hg with hg | hg
      · exact hg
      · simp at hg
  | cons o os ih =>
    intro ho s
    obtain ⟨s1, e1, S⟩ := exec_step hd hG hM hF o (ho o (List.mem_cons_self ..)) s
    obtain ⟨s2, e2, R⟩ := ih (fun o' h => ho o' (List.mem_cons_of_mem _ h)) s1
    refine ⟨s2, by unfold execAll at *; simp [loop, e1, e2], ?_, ?_, ?_⟩
    · intro x t i j mq hi
      rw [R.inter x t i j mq hi, S.inter x t i j mq hi]
    · intro t x f y rf Q hf hface hQ hg
      have hQ' := nearEq_of_inter (fun i j mq hi => S.inter y t i j mq hi) hQ
      rcases hg with hg | hg
      · exact R.strip t x f y rf Q hf hface hQ' (Or.inl (S.strip t x f y rf Q hf hface hQ (Or.inl hg)))
      · rcases List.mem_cons.1 hg with hg | hg
        · exact R.strip t x f y rf Q hf hface hQ' (Or.inl (S.strip t x f y rf Q hf hface hQ (Or.inr hg.symm)))
        · exact R.strip t x f y rf Q hf hface hQ' (Or.inr hg)
    · intro t x f y rf Q hf hface hQ hg
      have hQ' := nearEq_of_inter (fun i j mq hi => S.inter y t i j mq hi) hQ
      rcases hg with hg | hg
      · exact R.corner t x f y rf Q hf hface hQ' (Or.inl (S.corner t x f y rf Q hf hface hQ (Or.inl hg)))
      · rcases List.mem_cons.1 hg with hg | hg
        · exact R.corner t x f y rf Q hf hface hQ' (Or.inl (S.corner t x f y rf Q hf hface hQ (Or.inr hg.symm)))
        · exact R.corner t x f y rf Q hf hface hQ' (Or.inr hg)

end Fclaw.CopyGhost
