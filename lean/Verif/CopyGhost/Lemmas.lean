import Verif.CopyGhost.Spec
import Verif.Transform.Props
/-
Helpers for C34: the transformations are rigid motions of index space.
-/
set_option autoImplicit false
set_option linter.unusedSimpArgs false
set_option linter.unusedVariables false
namespace Fclaw.CopyGhost

open Fort Transform

/-- A map of indices that carries the square displaced by `s` onto the patch, rigidly. -/
def Rigid (d : Dims) (s : Nat → ℤ) (T : ℤ → ℤ → ℤ × ℤ) : Prop :=
  ∃ e0 e1 : ℤ, (e0 = 1 ∨ e0 = -1) ∧ (e1 = 1 ∨ e1 = -1) ∧
    ((∀ i j, 2 * (T i j).1 - 1 - d.mx = e0 * (2 * (i - s 0 * d.mx) - 1 - d.mx) ∧
             2 * (T i j).2 - 1 - d.my = e1 * (2 * (j - s 1 * d.my) - 1 - d.my)) ∨
     (d.mx = d.my ∧ ∀ i j, 2 * (T i j).1 - 1 - d.mx = e0 * (2 * (j - s 1 * d.my) - 1 - d.my) ∧
             2 * (T i j).2 - 1 - d.my = e1 * (2 * (i - s 0 * d.mx) - 1 - d.mx)))

/-- One axis: if positions and patch centres correspond by `x ↦ e x + k` then so do indices. -/
theorem axis_rigid (lo lo' : ℚ) (l m : Nat) (hm : 1 ≤ m) (i i' s e : ℤ) (k : ℚ)
    (h : lo' + ((i' : ℚ) - 1 / 2) / (m * 2 ^ l) = e * (lo + ((i : ℚ) - 1 / 2) / (m * 2 ^ l)) + k)
    (hc : lo' + (1 / 2 + (0 : ℤ)) / 2 ^ l = e * (lo + (1 / 2 + (s : ℚ)) / 2 ^ l) + k) :
    2 * i' - 1 - m = e * (2 * (i - s * m) - 1 - m) := by
  have hm' : (m : ℚ) ≠ 0 := by
    have : (0 : ℚ) < m := by exact_mod_cast hm
    exact ne_of_gt this
  have hw : (2 : ℚ) ^ l ≠ 0 := by positivity
  have h3 : ((i' : ℚ) - 1 / 2) / (m * 2 ^ l) - (1 / 2 + (0 : ℤ)) / 2 ^ l =
      e * (((i : ℚ) - 1 / 2) / (m * 2 ^ l) - (1 / 2 + (s : ℚ)) / 2 ^ l) := by linarith
  field_simp at h3
  have : ((2 * i' - 1 - m : ℤ) : ℚ) = ((e * (2 * (i - s * m) - 1 - m) : ℤ) : ℚ) := by
    push_cast
    push_cast at h3
    linarith
  exact_mod_cast this

theorem sizes0 (d : Dims) : sizes d 0 = d.mx := rfl
theorem sizes1 (d : Dims) : sizes d 1 = d.my := rfl
theorem index0 (i j : ℤ) : index i j 0 = i := rfl
theorem index1 (i j : ℤ) : index i j 1 = j := rfl

theorem proper_sizes {d : Dims} (hd : Proper d) : Sizes false (sizes d) 1 := by
  refine ⟨by omega, ?_⟩
  intro a ha
  simp [axes] at ha
  rcases ha with rfl | rfl
  · exact hd.1
  · exact hd.2.1

theorem location_congr (p : Patch) (m : Nat → Nat) (b : Nat) (idx idx' : Nat → ℤ) (a : Nat)
    (h : idx a = idx' a) : location p m b idx a = location p m b idx' a := by
  unfold location; rw [h]

/-- In 2D the normal and the tangential axis are 0 and 1 in one of two orders. -/
theorem gluing_axes {ft : Nat → Nat} (g : Gluing false ft) :
    ((ft 0 = 0 ∧ ft 2 = 1) ∨ (ft 0 = 1 ∧ ft 2 = 0)) ∧ ((ft 3 = 0 ∧ ft 5 = 1) ∨ (ft 3 = 1 ∧ ft 5 = 0)) := by
  have h0 := g.my0; have h2 := g.my2; have h3 := g.t0; have h5 := g.t2
  have a := g.my02; have b := g.t02
  simp at h0 h2 h3 h5
  omega

theorem samePoint_congr {ft : Nat → Nat} (g : Gluing false ft) {p q p' q' : Nat → ℚ}
    (hp : p 0 = q 0 ∧ p 1 = q 1) (hp' : p' 0 = q' 0 ∧ p' 1 = q' 1) (h : SamePoint false ft p p') :
    SamePoint false ft q q' := by
  obtain ⟨h1, h2⟩ := gluing_axes g
  obtain ⟨a, b, c⟩ := h
  refine ⟨?_, by simp, ?_⟩
  · rcases h1 with ⟨e0, e2⟩ | ⟨e0, e2⟩ <;> rcases h2 with ⟨e3, e5⟩ | ⟨e3, e5⟩ <;>
      rw [e0, e3] at a <;> rw [e0, e3] <;> simp only [← hp.1, ← hp.2, ← hp'.1, ← hp'.2] <;> exact a
  · rcases h1 with ⟨e0, e2⟩ | ⟨e0, e2⟩ <;> rcases h2 with ⟨e3, e5⟩ | ⟨e3, e5⟩ <;>
      rw [e2, e5] at c <;> rw [e2, e5] <;> simp only [← hp.1, ← hp.2, ← hp'.1, ← hp'.2] <;> exact c

/-- The same point, as two affine maps that depend on the gluing only. -/
theorem samePoint_affine {ft : Nat → Nat} (g : Gluing false ft) :
    ∃ (e0 e1 : ℤ) (k0 k1 : ℚ), (e0 = 1 ∨ e0 = -1) ∧ (e1 = 1 ∨ e1 = -1) ∧
      ∀ p p' : Nat → ℚ, SamePoint false ft p p' →
        p' (ft 3) = e0 * p (ft 0) + k0 ∧ p' (ft 5) = e1 * p (ft 2) + k1 := by
  have h8 := g.r2
  have h8' : ft 8 = 0 ∨ ft 8 = 1 ∨ ft 8 = 2 ∨ ft 8 = 3 := by omega
  have ht : ∃ (e0 : ℤ) (k0 : ℚ), (e0 = 1 ∨ e0 = -1) ∧
      ∀ p p' : Nat → ℚ, SamePoint false ft p p' → p' (ft 3) = e0 * p (ft 0) + k0 := by
    by_cases h6 : ft 6 = 0
    · refine ⟨1, 0, Or.inl rfl, fun p p' h => ?_⟩
      have := h.trans0; rw [if_pos h6] at this; simp [this]
    · refine ⟨-1, 1, Or.inr rfl, fun p p' h => ?_⟩
      have := h.trans0; rw [if_neg h6] at this; rw [this]; push_cast; ring
  have hn : ∃ (e0 : ℤ) (k0 : ℚ), (e0 = 1 ∨ e0 = -1) ∧
      ∀ p p' : Nat → ℚ, SamePoint false ft p p' → p' (ft 5) = e0 * p (ft 2) + k0 := by
    rcases h8' with e | e | e | e
    · refine ⟨-1, 0, Or.inr rfl, fun p p' h => ?_⟩
      have := h.norm; simp [e, inside, outside] at this; rw [this]; push_cast; ring
    · refine ⟨1, 1, Or.inl rfl, fun p p' h => ?_⟩
      have := h.norm; simp [e, inside, outside] at this; push_cast; linarith
    · refine ⟨1, -1, Or.inl rfl, fun p p' h => ?_⟩
      have := h.norm; simp [e, inside, outside] at this; push_cast; linarith
    · refine ⟨-1, 2, Or.inr rfl, fun p p' h => ?_⟩
      have := h.norm; simp [e, inside, outside] at this; push_cast; linarith
  obtain ⟨e0, k0, a, b⟩ := ht
  obtain ⟨e1, k1, c, dd⟩ := hn
  exact ⟨e0, e1, k0, k1, a, c, fun p p' h => ⟨b p p' h, dd p p' h⟩⟩

/-- A family of index maps that respect positions across a gluing is rigid. -/
theorem rigid_of_samePoint {d : Dims} (hd : Proper d) {ft : Nat → Nat} (g : Gluing false ft)
    (hm : SizesMatch false ft (sizes d)) {s : Nat → ℤ} {ip op : Patch} (hl : ip.level = op.level)
    (hc : SamePoint false ft (patchCentre ip s) (patchCentre op fun _ => 0)) (T : ℤ → ℤ → ℤ × ℤ)
    (hT : ∀ i j, SamePoint false ft (location ip (sizes d) 1 (index i j))
      (location op (sizes d) 1 (index (T i j).1 (T i j).2))) : Rigid d s T := by
  obtain ⟨e0, e1, k0, k1, he0, he1, hA⟩ := samePoint_affine g
  obtain ⟨hc0, hc1⟩ := hA _ _ hc
  obtain ⟨h1, h2⟩ := gluing_axes g
  obtain ⟨m0, _, m2⟩ := hm
  have P := hd.1
  have Q := hd.2.1
  have tang : ∀ i j, 2 * (index (T i j).1 (T i j).2 (ft 3)) - 1 - (sizes d (ft 3) : ℤ) =
      e0 * (2 * (index i j (ft 0) - s (ft 0) * sizes d (ft 0)) - 1 - sizes d (ft 0)) := by
    intro i j
    have h := (hA _ _ (hT i j)).1
    unfold location at h
    unfold patchCentre at hc0
    rw [m0, ← hl] at h
    rw [← hl] at hc0
    rw [m0]
    refine axis_rigid _ _ ip.level (sizes d (ft 3)) ?_ _ _ _ e0 k0 (by simpa using h) (by simpa using hc0)
    rcases h2 with ⟨e, _⟩ | ⟨e, _⟩ <;> rw [e]
    · exact P
    · exact Q
  have norm : ∀ i j, 2 * (index (T i j).1 (T i j).2 (ft 5)) - 1 - (sizes d (ft 5) : ℤ) =
      e1 * (2 * (index i j (ft 2) - s (ft 2) * sizes d (ft 2)) - 1 - sizes d (ft 2)) := by
    intro i j
    have h := (hA _ _ (hT i j)).2
    unfold location at h
    unfold patchCentre at hc1
    rw [m2, ← hl] at h
    rw [← hl] at hc1
    rw [m2]
    refine axis_rigid _ _ ip.level (sizes d (ft 5)) ?_ _ _ _ e1 k1 (by simpa using h) (by simpa using hc1)
    rcases h2 with ⟨_, e⟩ | ⟨_, e⟩ <;> rw [e]
    · exact Q
    · exact P
  rcases h1 with ⟨f0, f2⟩ | ⟨f0, f2⟩ <;> rcases h2 with ⟨f3, f5⟩ | ⟨f3, f5⟩ <;>
    rw [f0, f3] at tang m0 <;> rw [f2, f5] at norm m2 <;>
    simp only [sizes0, sizes1, index0, index1] at tang norm m0 m2
  · exact ⟨e0, e1, he0, he1, Or.inl fun i j => ⟨tang i j, norm i j⟩⟩
  · exact ⟨e1, e0, he1, he0, Or.inr ⟨m0, fun i j => ⟨norm i j, tang i j⟩⟩⟩
  · exact ⟨e0, e1, he0, he1, Or.inr ⟨m2, fun i j => ⟨tang i j, norm i j⟩⟩⟩
  · exact ⟨e1, e0, he1, he0, Or.inl fun i j => ⟨norm i j, tang i j⟩⟩

/-- … and so is one that respects positions up to a shift. -/
theorem rigid_of_shift {d : Dims} (hd : Proper d) {s : Nat → ℤ} {ip op : Patch} (hl : ip.level = op.level)
    (k : Nat → ℚ) (hc : ∀ a ∈ axes false, op.lower a = ip.lower a + s a / 2 ^ ip.level + k a)
    (T : ℤ → ℤ → ℤ × ℤ)
    (hT : ∀ i j, ∀ a ∈ axes false, location op (sizes d) 1 (index (T i j).1 (T i j).2) a =
      location ip (sizes d) 1 (index i j) a + k a) : Rigid d s T := by
  refine ⟨1, 1, Or.inl rfl, Or.inl rfl, Or.inl fun i j => ⟨?_, ?_⟩⟩
  · have h := hT i j 0 (by simp [axes])
    have c := hc 0 (by simp [axes])
    unfold location at h
    simp only [sizes0, index0] at h
    rw [← hl] at h
    refine axis_rigid (ip.lower 0) (op.lower 0) ip.level d.mx hd.1 i _ (s 0) 1 (k 0) (by simpa using h) ?_
    rw [c]; push_cast; ring
  · have h := hT i j 1 (by simp [axes])
    have c := hc 1 (by simp [axes])
    unfold location at h
    simp only [sizes1, index1] at h
    rw [← hl] at h
    refine axis_rigid (ip.lower 1) (op.lower 1) ip.level d.my hd.2.1 j _ (s 1) 1 (k 1) (by simpa using h) ?_
    rw [c]; push_cast; ring

theorem choose2 {α : Type} {P : ℤ → ℤ → α → Prop} (h : ∀ i j, ∃ a, P i j a) : ∃ T : ℤ → ℤ → α, ∀ i j, P i j (T i j) :=
  ⟨fun i j => Classical.choose (h i j), fun i j => Classical.choose_spec (h i j)⟩

/-- What the face transformation does. -/
theorem clawFace_spec {d : Dims} (hd : Proper d) (td : TData) (f : Nat)
    (h : FaceLink d td.transform f td.this td.neighbor) :
    ∃ T : ℤ → ℤ → ℤ × ℤ, (∀ i j, clawFace d td i j = some (T i j)) ∧ Rigid d (faceStep f) T ∧
      ∀ i j, FaceSame d td.transform td.this td.neighbor i j (T i j).1 (T i j).2 := by
  obtain ⟨⟨hl, hi, ho⟩, h⟩ := h
  have hs := proper_sizes hd
  by_cases h4 : td.transform 8 / 4 % 2 = 1
  · rw [if_pos h4] at h
    obtain ⟨hv, hb⟩ := h
    have H : ∀ i j : ℤ, ∃ t : ℤ × ℤ, clawFace d td i j = some t ∧
        ∀ a ∈ axes false, location td.neighbor (sizes d) 1 (index t.1 t.2) a =
          location td.this (sizes d) 1 (index i j) a := by
      intro i j
      obtain ⟨idx', h1, h2⟩ := C13_same_block false td.transform hv h4 td.this td.neighbor hl hi ho (sizes d) 1 hs
        (index i j) (td.junk i j)
      refine ⟨(idx' 0, idx' 1), by simp [clawFace, h1], ?_⟩
      intro a ha
      rw [← h2 a ha]
      apply location_congr
      simp [axes] at ha
      rcases ha with rfl | rfl <;> rfl
    obtain ⟨T, hT⟩ := choose2 H
    refine ⟨T, fun i j => (hT i j).1, ?_, ?_⟩
    · refine rigid_of_shift hd hl (fun _ => 0) ?_ T ?_
      · intro a ha; simpa using hb a ha
      · intro i j a ha; simpa using (hT i j).2 a ha
    · intro i j
      unfold FaceSame
      rw [if_pos h4]
      exact (hT i j).2
  · rw [if_neg h4] at h
    obtain ⟨g, hm, hc⟩ := h
    have H : ∀ i j : ℤ, ∃ t : ℤ × ℤ, clawFace d td i j = some t ∧
        SamePoint false td.transform (location td.this (sizes d) 1 (index i j))
          (location td.neighbor (sizes d) 1 (index t.1 t.2)) := by
      intro i j
      obtain ⟨idx', h1, h2⟩ := C13_face_point false td.transform g td.this td.neighbor hl hi ho (sizes d) 1 hs hm
        (index i j) (td.junk i j)
      exact ⟨(idx' 0, idx' 1), by simp [clawFace, h1], samePoint_congr g ⟨rfl, rfl⟩
        ⟨location_congr _ _ _ idx' _ _ rfl, location_congr _ _ _ idx' _ _ rfl⟩ h2⟩
    obtain ⟨T, hT⟩ := choose2 H
    refine ⟨T, fun i j => (hT i j).1, rigid_of_samePoint hd g hm hl hc T fun i j => (hT i j).2, ?_⟩
    intro i j
    unfold FaceSame
    rw [if_neg h4]
    exact (hT i j).2

theorem cornerSame_shift {k : Nat} {bd : Bool} {p p' : Nat → ℚ} (h : CornerSamePoint false k bd p p') :
    ∀ a ∈ axes false, p' a = p a + shift k bd a := by
  intro a ha
  have h1 := h a ha
  cases bd with
  | false => simpa [shift] using h1
  | true =>
    have : k / 2 ^ a % 2 = 0 ∨ k / 2 ^ a % 2 = 1 := by omega
    rcases this with e | e <;> simp [shift, e, inside, outside] at h1 ⊢ <;> linarith

/-- What the corner transformation does. -/
theorem clawCorner_spec {d : Dims} (hd : Proper d) (td : TData) (k : Nat) (h : CornerLink d td k) :
    ∃ T : ℤ → ℤ → ℤ × ℤ, (∀ i j, clawCorner d td i j = some (T i j)) ∧ Rigid d (cornerStep k) T ∧
      ∀ i j, CornerSame d td i j (T i j).1 (T i j).2 := by
  obtain ⟨⟨hl, hi, ho⟩, hk, hbi, h⟩ := h
  have hs := proper_sizes hd
  by_cases hb : 0 ≤ td.blockIface
  · rw [if_pos hb] at h
    obtain ⟨h4, g, hm, hc⟩ := h
    have H : ∀ i j : ℤ, ∃ t : ℤ × ℤ, clawFace d td i j = some t ∧
        SamePoint false td.transform (location td.this (sizes d) 1 (index i j))
          (location td.neighbor (sizes d) 1 (index t.1 t.2)) := by
      intro i j
      obtain ⟨idx', h1, h2⟩ := C13_face_point false td.transform g td.this td.neighbor hl hi ho (sizes d) 1 hs hm
        (index i j) (td.junk i j)
      exact ⟨(idx' 0, idx' 1), by simp [clawFace, h1], samePoint_congr g ⟨rfl, rfl⟩
        ⟨location_congr _ _ _ idx' _ _ rfl, location_congr _ _ _ idx' _ _ rfl⟩ h2⟩
    obtain ⟨T, hT⟩ := choose2 H
    refine ⟨T, fun i j => by rw [clawCorner, if_pos hb]; exact (hT i j).1,
      rigid_of_samePoint hd g hm hl hc T fun i j => (hT i j).2, ?_⟩
    intro i j
    unfold CornerSame
    rw [if_pos hb]
    exact (hT i j).2
  · rw [if_neg hb] at h
    have hbi' : ¬ (td.blockIface ≠ -1) := by omega
    have hop : td.isBlockCorner = true → InOppositeCorner false td.icorner td.neighbor := by
      intro e
      rw [if_pos e] at h
      rw [hk]; exact h.1
    have H : ∀ i j : ℤ, ∃ t : ℤ × ℤ, clawCorner d td i j = some t ∧
        CornerSamePoint false td.icorner td.isBlockCorner (location td.this (sizes d) 1 (index i j))
          (location td.neighbor (sizes d) 1 (index t.1 t.2)) := by
      intro i j
      obtain ⟨idx', h1, h2⟩ := C15_corner_point false td.this td.neighbor td.icorner td.isBlockCorner hl hi ho
        (sizes d) 1 hs hop (index i j)
      refine ⟨(idx' 0, idx' 1), by simp [clawCorner, hb, hbi', h1], ?_⟩
      intro a ha
      have h3 := h2 a ha
      rw [location_congr td.neighbor (sizes d) 1 (index (idx' 0) (idx' 1)) idx' a]
      · exact h3
      · simp [axes] at ha
        rcases ha with rfl | rfl <;> rfl
    obtain ⟨T, hT⟩ := choose2 H
    refine ⟨T, fun i j => (hT i j).1, ?_, ?_⟩
    · refine rigid_of_shift hd hl (shift td.icorner td.isBlockCorner) ?_ T ?_
      · intro a ha
        cases hbc : td.isBlockCorner with
        | true =>
          rw [hbc, if_pos rfl] at h
          have := cornerSame_shift h.2 a ha
          unfold patchCentre at this
          rw [← hl] at this
          rw [hk]
          push_cast at this
          have e1 : (1 / 2 + (cornerStep k a : ℚ)) / 2 ^ td.this.level =
            (1 / 2) / 2 ^ td.this.level + (cornerStep k a : ℚ) / 2 ^ td.this.level := by ring
          rw [e1, add_zero] at this
          linarith
        | false =>
          rw [hbc] at h
          simp only [Bool.false_eq_true, if_false] at h
          have := h a ha
          simp [shift, this]
      · intro i j a ha
        exact cornerSame_shift (hT i j).2 a ha
    · intro i j
      unfold CornerSame
      rw [if_neg hb]
      exact (hT i j).2

/-- A rigid map is recovered from three values. -/
theorem build_spec {d : Dims} (td : TData) {s : Nat → ℤ} (T : ℤ → ℤ → ℤ × ℤ)
    (hT : ∀ i j, clawFace d td i j = some (T i j)) (hr : Rigid d s T) :
    ∃ A : Affine, buildTransformSame d td = some A ∧ ∀ i j : ℤ,
      A.a11 * i + A.a12 * j + A.f1 = (T i j).1 ∧ A.a21 * i + A.a22 * j + A.f2 = (T i j).2 := by
  refine ⟨⟨(T 1 0).1 - (T 0 0).1, (T 0 1).1 - (T 0 0).1, (T 1 0).2 - (T 0 0).2, (T 0 1).2 - (T 0 0).2,
    (T 0 0).1, (T 0 0).2⟩, by simp [buildTransformSame, hT], ?_⟩
  intro i j
  obtain ⟨e0, e1, he0, he1, h⟩ := hr
  dsimp only
  rcases h with h | ⟨hm, h⟩
  · obtain ⟨p0, q0⟩ := h 0 0
    obtain ⟨p1, q1⟩ := h 1 0
    obtain ⟨p2, q2⟩ := h 0 1
    obtain ⟨p3, q3⟩ := h i j
    generalize s 0 * (d.mx : ℤ) = u at *
    generalize s 1 * (d.my : ℤ) = v at *
    generalize (T 0 0).1 = x0 at *
    generalize (T 1 0).1 = x1 at *
    generalize (T 0 1).1 = x2 at *
    generalize (T i j).1 = x3 at *
    generalize (T 0 0).2 = y0 at *
    generalize (T 1 0).2 = y1 at *
    generalize (T 0 1).2 = y2 at *
    generalize (T i j).2 = y3 at *
    have e1' : x1 - x0 = e0 := by rcases he0 with rfl | rfl <;> omega
    have e2' : x2 - x0 = 0 := by rcases he0 with rfl | rfl <;> omega
    have e3' : y1 - y0 = 0 := by rcases he1 with rfl | rfl <;> omega
    have e4' : y2 - y0 = e1 := by rcases he1 with rfl | rfl <;> omega
    rw [e1', e2', e3', e4']
    constructor
    · rcases he0 with rfl | rfl <;> omega
    · rcases he1 with rfl | rfl <;> omega
  · obtain ⟨p0, q0⟩ := h 0 0
    obtain ⟨p1, q1⟩ := h 1 0
    obtain ⟨p2, q2⟩ := h 0 1
    obtain ⟨p3, q3⟩ := h i j
    generalize s 0 * (d.mx : ℤ) = u at *
    generalize s 1 * (d.my : ℤ) = v at *
    generalize (T 0 0).1 = x0 at *
    generalize (T 1 0).1 = x1 at *
    generalize (T 0 1).1 = x2 at *
    generalize (T i j).1 = x3 at *
    generalize (T 0 0).2 = y0 at *
    generalize (T 1 0).2 = y1 at *
    generalize (T 0 1).2 = y2 at *
    generalize (T i j).2 = y3 at *
    have e1' : x1 - x0 = 0 := by rcases he0 with rfl | rfl <;> omega
    have e2' : x2 - x0 = e0 := by rcases he0 with rfl | rfl <;> omega
    have e3' : y1 - y0 = e1 := by rcases he1 with rfl | rfl <;> omega
    have e4' : y2 - y0 = 0 := by rcases he1 with rfl | rfl <;> omega
    rw [e1', e2', e3', e4']
    constructor
    · rcases he0 with rfl | rfl <;> omega
    · rcases he1 with rfl | rfl <;> omega

/-- Ghost cells at a face are carried to the outermost layers of the neighbour. -/
theorem strip_near {d : Dims} (f : Nat) (T : ℤ → ℤ → ℤ × ℤ) (hr : Rigid d (faceStep f) T) (hd : Proper d) (i j : ℤ)
    (h : inStrip d f i j) : near d (T i j).1 (T i j).2 := by
  obtain ⟨e0, e1, he0, he1, hh⟩ := hr
  obtain ⟨_, _, b1, b2⟩ := hd
  unfold near interior
  have hf : f = 0 ∨ f = 1 ∨ f = 2 ∨ f = 3 := by
    by_contra hc
    unfold inStrip at h
    split at h <;> simp_all
  rcases hh with hh | ⟨hm, hh⟩ <;> obtain ⟨p, q⟩ := hh i j <;>
    rcases hf with rfl | rfl | rfl | rfl <;> simp [faceStep] at p q <;> simp only [inStrip] at h <;>
    rcases he0 with rfl | rfl <;> rcases he1 with rfl | rfl <;> omega

theorem corner_near {d : Dims} (k : Nat) (hk : k < 4) (T : ℤ → ℤ → ℤ × ℤ) (hr : Rigid d (cornerStep k) T)
    (hd : Proper d) (i j : ℤ) (h : inCorner d k i j) : near d (T i j).1 (T i j).2 := by
  obtain ⟨e0, e1, he0, he1, hh⟩ := hr
  obtain ⟨_, _, b1, b2⟩ := hd
  unfold near interior
  have hf : k = 0 ∨ k = 1 ∨ k = 2 ∨ k = 3 := by omega
  rcases hh with hh | ⟨hm, hh⟩ <;> obtain ⟨p, q⟩ := hh i j <;>
    rcases hf with rfl | rfl | rfl | rfl <;> simp [cornerStep] at p q <;> simp [inCorner] at h <;>
    rcases he0 with rfl | rfl <;> rcases he1 with rfl | rfl <;> omega

/-! ### The copies -/

theorem near_inBox {d : Dims} {i j mq : ℤ} (h : near d i j) (hm : comp d mq) : inBox d (i, j, mq) = true := by
  rw [inBox_iff]
  obtain ⟨⟨_, _, _, _⟩, _⟩ := h
  obtain ⟨_, _⟩ := hm
  omega

theorem strip_inBox {d : Dims} {f : Nat} {i j mq : ℤ} (h : inStrip d f i j) (hm : comp d mq) :
    inBox d (i, j, mq) = true := by
  rw [inBox_iff]
  obtain ⟨_, _⟩ := hm
  unfold inStrip at h
  split at h
  · omega
  · omega
  · omega
  · omega
  · exact absurd h id

theorem corner_inBox {d : Dims} {k : Nat} {i j mq : ℤ} (h : inCorner d k i j) (hm : comp d mq) :
    inBox d (i, j, mq) = true := by
  rw [inBox_iff]
  obtain ⟨_, _⟩ := hm
  unfold inCorner at h
  obtain ⟨h1, h2⟩ := h
  split at h1 <;> split at h2 <;> omega

theorem copyFace_writes {α : Type} {d : Dims} (td : TData) (f : Nat) (hf : f < 4) (qn : Grid α)
    (T : ℤ → ℤ → ℤ × ℤ) (A : Affine) (hA : buildTransformSame d td = some A)
    (hAT : ∀ i j : ℤ, A.a11 * i + A.a12 * j + A.f1 = (T i j).1 ∧ A.a21 * i + A.a22 * j + A.f2 = (T i j).2)
    (hn : ∀ i j, inStrip d f i j → near d (T i j).1 (T i j).2) :
    Writes (fun c => inStrip d f c.1 c.2.1 ∧ comp d c.2.2)
      (fun c => qn ((T c.1 c.2.1).1, (T c.1 c.2.1).2, c.2.2)) (copyFace d td f qn) := by
  have cell : ∀ i j mq, inStrip d f i j → comp d mq →
      Writes (fun c => c = (i, j, mq)) (fun c => qn ((T c.1 c.2.1).1, (T c.1 c.2.1).2, c.2.2))
        (copyCell d A qn mq j i) := by
    intro i j mq hs hm
    unfold copyCell
    refine Writes.assign d (i, j, mq) _ _ (strip_inBox hs hm) ?_
    rw [(hAT i j).1, (hAT i j).2]
    simp [rd, near_inBox (hn i j hs) hm]
  have hf' : f = 0 ∨ f = 1 ∨ f = 2 ∨ f = 3 := by omega
  rcases hf' with rfl | rfl | rfl | rfl <;>
    (unfold copyFace
     simp only [hA, Option.bind_some, if_true, show ¬ (1 = 0) by decide, show ¬ (2 = 0) by decide, show ¬ (3 = 0) by decide,
      show ¬ (2 = 1) by decide, show ¬ (3 = 1) by decide, show ¬ (3 = 2) by decide, if_false]
     refine (Writes.doLoop _ _ _ _ _ fun mq m1 m2 => Writes.doLoop _ _ _ _ _ fun j j1 j2 =>
       Writes.doLoop _ _ _ _ _ fun i i1 i2 => cell i j mq (by simp only [inStrip]; omega) ⟨m1, m2⟩).congr ?_
     rintro ⟨i, j, mq⟩
     simp only [Prod.mk.injEq, inStrip, comp]
     constructor
     · rintro ⟨mq', h1, h2, j', h3, h4, i', h5, h6, rfl, rfl, rfl⟩
       omega
     · rintro ⟨h1, h2⟩
       exact ⟨mq, by omega, by omega, j, by omega, by omega, i, by omega, by omega, rfl, rfl, rfl⟩)

theorem cornerCell_in {d : Dims} {k : Nat} (hk : k < 4) {ibc jbc : ℤ} (h1 : 1 ≤ ibc) (h2 : ibc ≤ d.mbc) (h3 : 1 ≤ jbc)
    (h4 : jbc ≤ d.mbc) : inCorner d k (cornerCell d k ibc jbc).1 (cornerCell d k ibc jbc).2 := by
  have hf : k = 0 ∨ k = 1 ∨ k = 2 ∨ k = 3 := by omega
  rcases hf with rfl | rfl | rfl | rfl <;> simp [inCorner, cornerCell] <;> omega

theorem cornerCell_onto {d : Dims} {k : Nat} (hk : k < 4) {i j : ℤ} (h : inCorner d k i j) :
    ∃ ibc jbc : ℤ, 1 ≤ ibc ∧ ibc ≤ d.mbc ∧ 1 ≤ jbc ∧ jbc ≤ d.mbc ∧ cornerCell d k ibc jbc = (i, j) := by
  have hf : k = 0 ∨ k = 1 ∨ k = 2 ∨ k = 3 := by omega
  rcases hf with rfl | rfl | rfl | rfl <;> simp [inCorner] at h
  · exact ⟨1 - i, 1 - j, by omega, by omega, by omega, by omega, by simp [cornerCell]⟩
  · exact ⟨i - d.mx, 1 - j, by omega, by omega, by omega, by omega, by simp [cornerCell]⟩
  · exact ⟨1 - i, j - d.my, by omega, by omega, by omega, by omega, by simp [cornerCell]⟩
  · exact ⟨i - d.mx, j - d.my, by omega, by omega, by omega, by omega, by simp [cornerCell]⟩

theorem copyCorner_writes {α : Type} {d : Dims} (td : TData) (k : Nat) (hk : k < 4) (qn : Grid α)
    (T : ℤ → ℤ → ℤ × ℤ) (hT : ∀ i j, clawCorner d td i j = some (T i j))
    (hn : ∀ i j, inCorner d k i j → near d (T i j).1 (T i j).2) :
    Writes (fun c => inCorner d k c.1 c.2.1 ∧ comp d c.2.2)
      (fun c => qn ((T c.1 c.2.1).1, (T c.1 c.2.1).2, c.2.2)) (copyCorner d td k qn) := by
  unfold copyCorner
  refine (Writes.doLoop (fun mq c => ∃ ibc : ℤ, 1 ≤ ibc ∧ ibc ≤ d.mbc ∧ ∃ jbc : ℤ, 1 ≤ jbc ∧ jbc ≤ d.mbc ∧
      c = ((cornerCell d k ibc jbc).1, (cornerCell d k ibc jbc).2, mq)) _ _ _ _ fun mq m1 m2 =>
    Writes.doLoop (fun ibc c => ∃ jbc : ℤ, 1 ≤ jbc ∧ jbc ≤ d.mbc ∧
      c = ((cornerCell d k ibc jbc).1, (cornerCell d k ibc jbc).2, mq)) _ _ _ _ fun ibc i1 i2 =>
    Writes.doLoop (fun jbc c => c = ((cornerCell d k ibc jbc).1, (cornerCell d k ibc jbc).2, mq)) _ _ _ _
      fun jbc j1 j2 => ?_).congr ?_
  · have hin := cornerCell_in (d := d) hk i1 i2 j1 j2
    intro q
    dsimp only
    rw [hT, Option.bind_some]
    refine Writes.assign d _ _ _ (corner_inBox hin ⟨m1, m2⟩) ?_ q
    simp [rd, near_inBox (hn _ _ hin) ⟨m1, m2⟩]
  · rintro ⟨i, j, mq⟩
    dsimp only
    constructor
    · rintro ⟨mq', h1, h2, ibc, h3, h4, jbc, h5, h6, he⟩
      simp only [Prod.mk.injEq] at he
      obtain ⟨rfl, rfl, rfl⟩ := he
      exact ⟨cornerCell_in hk h3 h4 h5 h6, h1, h2⟩
    · rintro ⟨h1, h2, h3⟩
      obtain ⟨ibc, jbc, a, b, c, e, he⟩ := cornerCell_onto hk h1
      exact ⟨mq, h2, h3, ibc, a, b, jbc, c, e, by rw [he]⟩

end Fclaw.CopyGhost
