import Verif.CoarseFine.Model
import Verif.CoarseFine.Spec
import Verif.CopyGhost.Lemmas
import Verif.Transfer.Lemmas
import Mathlib.Tactic.FieldSimp
import Mathlib.Tactic.Positivity
import Mathlib.Tactic.IntervalCases
/-
Helpers for C67 and C68: the quarters of the cells of the large patch are numbered like the cells of a
patch of half its size, and the transformations are rigid motions of these numbers.
-/
set_option autoImplicit false
set_option linter.unusedSimpArgs false
set_option linter.unusedVariables false
namespace Fclaw.CoarseFine

open Fort Transform CopyGhost Transfer

/-! ### Rigid motions -/

def flip (e m x : ℤ) : ℤ := if e = 1 then x else m + 1 - x

structure Orient where
  swap : Bool
  e0 : ℤ
  e1 : ℤ

/-- Number of the cell of the small patch at quarter `(I, J)`. -/
def Orient.map (o : Orient) (d : Dims) (s : Nat → ℤ) (I J : ℤ) : ℤ × ℤ :=
  if o.swap then (flip o.e0 d.mx (J - s 1 * d.my), flip o.e1 d.my (I - s 0 * d.mx))
  else (flip o.e0 d.mx (I - s 0 * d.mx), flip o.e1 d.my (J - s 1 * d.my))

def Orient.ok (o : Orient) (d : Dims) : Prop :=
  (o.e0 = 1 ∨ o.e0 = -1) ∧ (o.e1 = 1 ∨ o.e1 = -1) ∧ (o.swap = true → d.mx = d.my)

def straight : Orient := ⟨false, 1, 1⟩

/-- Signs along the tangential and the normal axis. -/
def et (ft : Nat → Nat) : ℤ := if ft 6 = 0 then 1 else -1
def en (ft : Nat → Nat) : ℤ := if ft 8 / 2 = ft 8 % 2 then -1 else 1

def turned (ft : Nat → Nat) : Orient :=
  ⟨decide (ft 2 ≠ ft 5), if ft 5 = 0 then en ft else et ft, if ft 5 = 0 then et ft else en ft⟩

def faceOrient (ft : Nat → Nat) : Orient := if ft 8 / 4 % 2 = 1 then straight else turned ft

def cornerOrient (td : TData) : Orient := if 0 ≤ td.blockIface then turned td.transform else straight

theorem et_sign (ft : Nat → Nat) : et ft = 1 ∨ et ft = -1 := by unfold et; split <;> simp
theorem en_sign (ft : Nat → Nat) : en ft = 1 ∨ en ft = -1 := by unfold en; split <;> simp

theorem straight_ok (d : Dims) : straight.ok d := ⟨Or.inl rfl, Or.inl rfl, by simp [straight]⟩

theorem turned_ok {d : Dims} {ft : Nat → Nat} (g : Gluing false ft) (hm : SizesMatch false ft (sizes d)) :
    (turned ft).ok d := by
  obtain ⟨m0, _, m2⟩ := hm
  obtain ⟨h1, h2⟩ := gluing_axes g
  refine ⟨?_, ?_, ?_⟩
  · unfold turned; dsimp only; split
    · exact en_sign ft
    · exact et_sign ft
  · unfold turned; dsimp only; split
    · exact et_sign ft
    · exact en_sign ft
  · intro h
    simp [turned] at h
    rcases h1 with ⟨f0, f2⟩ | ⟨f0, f2⟩ <;> rcases h2 with ⟨f3, f5⟩ | ⟨f3, f5⟩ <;>
      rw [f2, f5] at m2 h <;> simp [sizes] at m2 h
    · exact m2.symm
    · exact m2

theorem samePoint_signs {ft : Nat → Nat} (g : Gluing false ft) :
    ∃ (k0 k1 : ℚ), ∀ p p' : Nat → ℚ, SamePoint false ft p p' →
        p' (ft 3) = et ft * p (ft 0) + k0 ∧ p' (ft 5) = en ft * p (ft 2) + k1 := by
  have h8 := g.r2
  have h8' : ft 8 = 0 ∨ ft 8 = 1 ∨ ft 8 = 2 ∨ ft 8 = 3 := by omega
  have ht : ∃ (k0 : ℚ), ∀ p p' : Nat → ℚ, SamePoint false ft p p' → p' (ft 3) = et ft * p (ft 0) + k0 := by
    unfold et
    by_cases h6 : ft 6 = 0
    · refine ⟨0, fun p p' h => ?_⟩
      have := h.trans0; rw [if_pos h6] at this; simp [this, h6]
    · refine ⟨1, fun p p' h => ?_⟩
      have := h.trans0; rw [if_neg h6] at this; rw [this, if_neg h6]; push_cast; ring
  have hn : ∃ (k0 : ℚ), ∀ p p' : Nat → ℚ, SamePoint false ft p p' → p' (ft 5) = en ft * p (ft 2) + k0 := by
    unfold en
    rcases h8' with e | e | e | e
    · refine ⟨0, fun p p' h => ?_⟩
      have := h.norm; simp [e, inside, outside] at this; rw [this, e]; push_cast; simp
    · refine ⟨1, fun p p' h => ?_⟩
      have := h.norm; simp [e, inside, outside] at this; rw [e]; push_cast; simp; linarith
    · refine ⟨-1, fun p p' h => ?_⟩
      have := h.norm; simp [e, inside, outside] at this; rw [e]; push_cast; simp; linarith
    · refine ⟨2, fun p p' h => ?_⟩
      have := h.norm; simp [e, inside, outside] at this; rw [e]; push_cast; simp; linarith
  obtain ⟨k0, b⟩ := ht
  obtain ⟨k1, dd⟩ := hn
  exact ⟨k0, k1, fun p p' h => ⟨b p p' h, dd p p' h⟩⟩

theorem flip_of (e m i' x : ℤ) (he : e = 1 ∨ e = -1) (h : 2 * i' - 1 - m = e * (2 * x - 1 - m)) :
    i' = flip e m x := by
  unfold flip
  rcases he with rfl | rfl
  · simp; omega
  · rw [if_neg (by omega)]; omega

/-! ### Quarters -/

/-- Number of quarter `x` of cell `i`. -/
def quarter (i : ℤ) (x : Nat) : ℤ := 2 * i - 1 + x

theorem axis_half (lo lo' : ℚ) (l m : Nat) (hm : 1 ≤ m) (i i' s e : ℤ) (x : Nat) (k : ℚ)
    (h : lo' + ((i' : ℚ) - 1 + 1 / 2) / (m * 2 ^ (l + 1)) =
      e * (lo + ((i : ℚ) - 1 + 1 / 4 + (x : ℚ) / 2) / (m * 2 ^ l)) + k)
    (hc : lo' + (1 / 2 + ((0 : ℤ) : ℚ)) / 2 ^ (l + 1) = e * (lo + (1 / 4 + (s : ℚ) / 2) / 2 ^ l) + k) :
    2 * i' - 1 - m = e * (2 * (quarter i x - s * m) - 1 - m) := by
  have hm' : (m : ℚ) ≠ 0 := by
    have : (0 : ℚ) < m := by exact_mod_cast hm
    exact ne_of_gt this
  have hw : (2 : ℚ) ^ l ≠ 0 := by positivity
  refine axis_rigid lo lo' (l + 1) m hm (quarter i x) i' s e k ?_ ?_
  · have e1 : (((quarter i x : ℤ) : ℚ) - 1 / 2) / (m * 2 ^ (l + 1)) =
        ((i : ℚ) - 1 + 1 / 4 + (x : ℚ) / 2) / (m * 2 ^ l) := by
      unfold quarter
      push_cast
      rw [pow_succ]
      field_simp
      ring
    have e2 : ((i' : ℚ) - 1 / 2) = ((i' : ℚ) - 1 + 1 / 2) := by ring
    rw [e1, e2]; exact h
  · have e1 : (1 / 2 + (s : ℚ)) / 2 ^ (l + 1) = (1 / 4 + (s : ℚ) / 2) / 2 ^ l := by
      rw [pow_succ]; field_simp; ring
    rw [e1]; exact hc

theorem bits0 (x y z : Nat) : bits x y z 0 = x := rfl
theorem bits1 (x y z : Nat) : bits x y z 1 = y := rfl

theorem isChild_bits {x y : Nat} (hx : x < 2) (hy : y < 2) : IsChild false (bits x y 0) :=
  ⟨x, y, 0, rfl, hx, hy, by simp⟩

/-- Positions that agree across a gluing determine the numbers. -/
theorem samePoint_map {d : Dims} (hd : Proper d) {ft : Nat → Nat} (g : Gluing false ft)
    (hm : SizesMatch false ft (sizes d)) {s : Nat → ℤ} {ip op : Patch} (hl : ip.level + 1 = op.level)
    (hc : SamePoint false ft (halfCentre ip s) (patchCentre op fun _ => 0)) (i j i' j' : ℤ) (x y : Nat)
    (h : SamePoint false ft (childCentre ip (sizes d) 1 (index i j) (bits x y 0))
      (cellCentre op (sizes d) 1 (index i' j'))) :
    (i', j') = (turned ft).map d s (quarter i x) (quarter j y) := by
  obtain ⟨k0, k1, hA⟩ := samePoint_signs g
  obtain ⟨hc0, hc1⟩ := hA _ _ hc
  obtain ⟨h0, h1⟩ := hA _ _ h
  obtain ⟨a1, a2⟩ := gluing_axes g
  obtain ⟨m0, _, m2⟩ := hm
  have P := hd.1
  have Q := hd.2.1
  have s0 := et_sign ft
  have s1 := en_sign ft
  unfold halfCentre patchCentre at hc0 hc1
  unfold childCentre cellCentre at h0 h1
  rw [← hl] at h0 h1 hc0 hc1
  unfold turned Orient.map
  rcases a1 with ⟨f0, f2⟩ | ⟨f0, f2⟩ <;> rcases a2 with ⟨f3, f5⟩ | ⟨f3, f5⟩ <;>
    rw [f0, f3] at h0 hc0 m0 <;> rw [f2, f5] at h1 hc1 m2 <;>
    simp only [sizes0, sizes1, index0, index1, bits0, bits1, Nat.cast_one] at h0 h1 hc0 hc1 m0 m2 <;>
    simp [f2, f5]
  · exact ⟨flip_of _ _ _ _ s0 (axis_half _ _ _ _ P _ _ _ _ _ _ h0 (by simpa using hc0)),
      flip_of _ _ _ _ s1 (axis_half _ _ _ _ Q _ _ _ _ _ _ h1 (by simpa using hc1))⟩
  · rw [m2] at h1
    rw [m0] at h0
    have u := axis_half _ _ _ _ P _ _ _ _ _ _ h1 (by simpa using hc1)
    have v := axis_half _ _ _ _ Q _ _ _ _ _ _ h0 (by simpa using hc0)
    rw [m2, m0] at *
    exact ⟨flip_of _ _ _ _ s1 u, flip_of _ _ _ _ s0 v⟩
  · rw [m2] at h1
    rw [m0] at h0
    have u := axis_half _ _ _ _ P _ _ _ _ _ _ h0 (by simpa using hc0)
    have v := axis_half _ _ _ _ Q _ _ _ _ _ _ h1 (by simpa using hc1)
    have e : (d.mx : ℤ) = d.my := by exact_mod_cast m2
    exact ⟨flip_of _ _ _ _ s0 (by rw [← e]; exact u), flip_of _ _ _ _ s1 (by rw [e]; exact v)⟩
  · exact ⟨flip_of _ _ _ _ s1 (axis_half _ _ _ _ P _ _ _ _ _ _ h1 (by simpa using hc1)),
      flip_of _ _ _ _ s0 (axis_half _ _ _ _ Q _ _ _ _ _ _ h0 (by simpa using hc0))⟩

/-- … and so do positions that agree up to a shift. -/
theorem shift_map {d : Dims} (hd : Proper d) {s : Nat → ℤ} {ip op : Patch} (hl : ip.level + 1 = op.level)
    (k : Nat → ℚ) (hc : ∀ a ∈ axes false, patchCentre op (fun _ => 0) a = halfCentre ip s a + k a)
    (i j i' j' : ℤ) (x y : Nat)
    (h : ∀ a ∈ axes false, cellCentre op (sizes d) 1 (index i' j') a =
      childCentre ip (sizes d) 1 (index i j) (bits x y 0) a + k a) :
    (i', j') = straight.map d s (quarter i x) (quarter j y) := by
  have P := hd.1
  have Q := hd.2.1
  have h0 := h 0 (by simp [axes])
  have h1 := h 1 (by simp [axes])
  have c0 := hc 0 (by simp [axes])
  have c1 := hc 1 (by simp [axes])
  unfold halfCentre patchCentre at c0 c1
  unfold childCentre cellCentre at h0 h1
  rw [← hl] at h0 h1 c0 c1
  simp only [sizes0, sizes1, index0, index1, bits0, bits1, Nat.cast_one] at h0 h1
  unfold straight Orient.map
  simp only [Bool.false_eq_true, if_false, Prod.mk.injEq]
  constructor
  · exact flip_of _ _ _ _ (Or.inl rfl) (axis_half _ _ _ _ P i i' _ 1 x (k 0) (by simpa using h0) (by simpa using c0))
  · exact flip_of _ _ _ _ (Or.inl rfl) (axis_half _ _ _ _ Q j j' _ 1 y (k 1) (by simpa using h1) (by simpa using c1))

/-! ### The four entries -/

theorem entries_spec {out : Nat → Option (Nat → ℤ)} {P : Nat → Nat → (Nat → ℤ) → Prop}
    (h : ∀ b, IsChild false b → ∃ idx', out (childNo b) = some idx' ∧ P (b 0) (b 1) idx') :
    ∃ c2, entries out = some c2 ∧ ∀ x y : Nat, x < 2 → y < 2 → ∃ idx', c2 (x + 2 * y) = (idx' 0, idx' 1) ∧ P x y idx' := by
  obtain ⟨a, ha, pa⟩ := h (bits 0 0 0) (isChild_bits (by omega) (by omega))
  obtain ⟨b, hb, pb⟩ := h (bits 1 0 0) (isChild_bits (by omega) (by omega))
  obtain ⟨c, hc, pc⟩ := h (bits 0 1 0) (isChild_bits (by omega) (by omega))
  obtain ⟨e, he, pe⟩ := h (bits 1 1 0) (isChild_bits (by omega) (by omega))
  rw [show childNo (bits 0 0 0) = 0 from rfl] at ha
  rw [show childNo (bits 1 0 0) = 1 from rfl] at hb
  rw [show childNo (bits 0 1 0) = 2 from rfl] at hc
  rw [show childNo (bits 1 1 0) = 3 from rfl] at he
  refine ⟨fun m => if m = 0 then (a 0, a 1) else if m = 1 then (b 0, b 1) else if m = 2 then (c 0, c 1) else (e 0, e 1),
    by simp only [entries, ha, hb, hc, he, Option.bind_some], ?_⟩
  intro x y hx hy
  interval_cases x <;> interval_cases y
  · exact ⟨a, rfl, pa⟩
  · exact ⟨c, rfl, pc⟩
  · exact ⟨b, rfl, pb⟩
  · exact ⟨e, rfl, pe⟩

/-- The transformation maps quarters by the motion `o`. -/
def Maps (d : Dims) (s : Nat → ℤ) (o : Orient) (F : ℤ → ℤ → Option (ℤ → ℤ × ℤ)) : Prop :=
  ∀ i j, ∃ c2, F i j = some c2 ∧ ∀ x y : Nat, x < 2 → y < 2 →
    c2 (x + 2 * y) = o.map d s (quarter i x) (quarter j y)

theorem cellCentre_congr (p : Patch) (m : Nat → Nat) (b : Nat) (idx idx' : Nat → ℤ) (a : Nat)
    (h : idx a = idx' a) : cellCentre p m b idx a = cellCentre p m b idx' a := by
  unfold cellCentre; rw [h]

theorem childCentre_congr (p : Patch) (m : Nat → Nat) (b : Nat) (idx : Nat → ℤ) (x y : Nat → Nat) (a : Nat)
    (h : x a = y a) : childCentre p m b idx x a = childCentre p m b idx y a := by
  unfold childCentre; rw [h]

theorem axes_two {P : Nat → Prop} (h0 : P 0) (h1 : P 1) : ∀ a ∈ axes false, P a := by
  intro a ha
  simp [axes] at ha
  rcases ha with rfl | rfl
  · exact h0
  · exact h1

theorem intra_spec {d : Dims} (hd : Proper d) (td : TData) (hf : FinerLevel td.this td.neighbor)
    (h4 : td.transform 8 / 4 % 2 = 1) (hv : valid false td.transform = true) (i j : ℤ) :
    ∃ c2, clawFaceHalf d td i j = some c2 ∧ ∀ x y : Nat, x < 2 → y < 2 →
      ∀ a ∈ axes false, cellCentre td.neighbor (sizes d) 1 (index (c2 (x + 2 * y)).1 (c2 (x + 2 * y)).2) a =
        childCentre td.this (sizes d) 1 (index i j) (bits x y 0) a := by
  obtain ⟨hl, hi, ho⟩ := hf
  obtain ⟨out, h1, h2, _⟩ := C14_face2_same_block false td.transform hv h4 td.this td.neighbor hl hi ho (sizes d) 1
    (proper_sizes hd) (index i j) (td.junk i j)
  obtain ⟨c2, h3, h5⟩ := entries_spec (P := fun x y idx' => ∀ a ∈ axes false,
    cellCentre td.neighbor (sizes d) 1 idx' a = childCentre td.this (sizes d) 1 (index i j) (bits x y 0) a) (by
      intro b hb
      obtain ⟨idx', u, v⟩ := h2 b hb
      refine ⟨idx', u, axes_two ?_ ?_⟩
      · rw [v 0 (by simp [axes])]; exact childCentre_congr _ _ _ _ _ _ _ rfl
      · rw [v 1 (by simp [axes])]; exact childCentre_congr _ _ _ _ _ _ _ rfl)
  refine ⟨c2, by simp [clawFaceHalf, h1, h3], ?_⟩
  intro x y hx hy
  obtain ⟨idx', u, v⟩ := h5 x y hx hy
  rw [u]
  refine axes_two ?_ ?_
  · rw [← v 0 (by simp [axes])]; exact cellCentre_congr _ _ _ _ _ _ rfl
  · rw [← v 1 (by simp [axes])]; exact cellCentre_congr _ _ _ _ _ _ rfl

theorem glued_spec {d : Dims} (hd : Proper d) (td : TData) (hf : FinerLevel td.this td.neighbor)
    (g : Gluing false td.transform) (hm : SizesMatch false td.transform (sizes d)) (i j : ℤ) :
    ∃ c2, clawFaceHalf d td i j = some c2 ∧ ∀ x y : Nat, x < 2 → y < 2 →
      SamePoint false td.transform (childCentre td.this (sizes d) 1 (index i j) (bits x y 0))
        (cellCentre td.neighbor (sizes d) 1 (index (c2 (x + 2 * y)).1 (c2 (x + 2 * y)).2)) := by
  obtain ⟨hl, hi, ho⟩ := hf
  obtain ⟨out, h1, h2, _⟩ := C14_face2_children false td.transform g td.this td.neighbor hl hi ho (sizes d) 1
    (proper_sizes hd) hm (index i j) (td.junk i j)
  obtain ⟨c2, h3, h5⟩ := entries_spec (P := fun x y idx' =>
    SamePoint false td.transform (childCentre td.this (sizes d) 1 (index i j) (bits x y 0))
      (cellCentre td.neighbor (sizes d) 1 idx')) (by
      intro b hb
      obtain ⟨idx', u, v⟩ := h2 b hb
      refine ⟨idx', u, samePoint_congr g ⟨?_, ?_⟩ ⟨rfl, rfl⟩ v⟩ <;> exact childCentre_congr _ _ _ _ _ _ _ rfl)
  refine ⟨c2, by simp [clawFaceHalf, h1, h3], ?_⟩
  intro x y hx hy
  obtain ⟨idx', u, v⟩ := h5 x y hx hy
  rw [u]
  refine samePoint_congr g ⟨rfl, rfl⟩ ⟨?_, ?_⟩ v <;> exact cellCentre_congr _ _ _ _ _ _ rfl

/-- What the face transformation does. -/
theorem faceHalf_spec {d : Dims} (hd : Proper d) (td : TData) (f g : Nat)
    (h : HalfFaceLink d td.transform f g td.this td.neighbor) :
    Maps d (faceHalfStep f g) (faceOrient td.transform) (clawFaceHalf d td) ∧
    (faceOrient td.transform).ok d ∧
    ∀ i j (x y : Nat), x < 2 → y < 2 →
      HalfFaceSame d td.transform td.this td.neighbor i j x y
        ((faceOrient td.transform).map d (faceHalfStep f g) (quarter i x) (quarter j y)).1
        ((faceOrient td.transform).map d (faceHalfStep f g) (quarter i x) (quarter j y)).2 := by
  obtain ⟨hf, h⟩ := h
  by_cases h4 : td.transform 8 / 4 % 2 = 1
  · rw [if_pos h4] at h
    obtain ⟨hv, hc⟩ := h
    have ho : faceOrient td.transform = straight := by unfold faceOrient; rw [if_pos h4]
    rw [ho]
    have key : ∀ i j, ∃ c2, clawFaceHalf d td i j = some c2 ∧ ∀ x y : Nat, x < 2 → y < 2 →
        c2 (x + 2 * y) = straight.map d (faceHalfStep f g) (quarter i x) (quarter j y) ∧
        HalfFaceSame d td.transform td.this td.neighbor i j x y (c2 (x + 2 * y)).1 (c2 (x + 2 * y)).2 := by
      intro i j
      obtain ⟨c2, h1, h2⟩ := intra_spec hd td hf h4 hv i j
      refine ⟨c2, h1, ?_⟩
      intro x y hx hy
      refine ⟨shift_map hd hf.level (fun _ => 0) ?_ i j _ _ x y ?_, ?_⟩
      · intro a ha; simpa using hc a ha
      · intro a ha; simpa using h2 x y hx hy a ha
      · unfold HalfFaceSame
        rw [if_pos h4]
        exact h2 x y hx hy
    refine ⟨?_, straight_ok d, ?_⟩
    · intro i j
      obtain ⟨c2, h1, h2⟩ := key i j
      exact ⟨c2, h1, fun x y hx hy => (h2 x y hx hy).1⟩
    · intro i j x y hx hy
      obtain ⟨c2, h1, h2⟩ := key i j
      have := (h2 x y hx hy).2
      rw [(h2 x y hx hy).1] at this
      exact this
  · rw [if_neg h4] at h
    obtain ⟨⟨gl, hm, hc⟩, _, _⟩ := h
    have ho : faceOrient td.transform = turned td.transform := by unfold faceOrient; rw [if_neg h4]
    rw [ho]
    have key : ∀ i j, ∃ c2, clawFaceHalf d td i j = some c2 ∧ ∀ x y : Nat, x < 2 → y < 2 →
        c2 (x + 2 * y) = (turned td.transform).map d (faceHalfStep f g) (quarter i x) (quarter j y) ∧
        HalfFaceSame d td.transform td.this td.neighbor i j x y (c2 (x + 2 * y)).1 (c2 (x + 2 * y)).2 := by
      intro i j
      obtain ⟨c2, h1, h2⟩ := glued_spec hd td hf gl hm i j
      refine ⟨c2, h1, ?_⟩
      intro x y hx hy
      refine ⟨samePoint_map hd gl hm hf.level hc i j _ _ x y (h2 x y hx hy), ?_⟩
      unfold HalfFaceSame
      rw [if_neg h4]
      exact h2 x y hx hy
    refine ⟨?_, turned_ok gl hm, ?_⟩
    · intro i j
      obtain ⟨c2, h1, h2⟩ := key i j
      exact ⟨c2, h1, fun x y hx hy => (h2 x y hx hy).1⟩
    · intro i j x y hx hy
      obtain ⟨c2, h1, h2⟩ := key i j
      have := (h2 x y hx hy).2
      rw [(h2 x y hx hy).1] at this
      exact this

/-- What the corner transformation does. -/
theorem cornerHalf_spec {d : Dims} (hd : Proper d) (td : TData) (k : Nat) (h : HalfCornerLink d td k) :
    Maps d (cornerHalfStep k) (cornerOrient td) (clawCornerHalf d td) ∧
    (cornerOrient td).ok d ∧
    ∀ i j (x y : Nat), x < 2 → y < 2 →
      HalfCornerSame d td i j x y
        ((cornerOrient td).map d (cornerHalfStep k) (quarter i x) (quarter j y)).1
        ((cornerOrient td).map d (cornerHalfStep k) (quarter i x) (quarter j y)).2 := by
  obtain ⟨hf, hk, hbi, h⟩ := h
  by_cases hb : 0 ≤ td.blockIface
  · rw [if_pos hb] at h
    obtain ⟨h4, ⟨gl, hm, hc⟩, _⟩ := h
    have ho : cornerOrient td = turned td.transform := by unfold cornerOrient; rw [if_pos hb]
    rw [ho]
    have key : ∀ i j, ∃ c2, clawCornerHalf d td i j = some c2 ∧ ∀ x y : Nat, x < 2 → y < 2 →
        c2 (x + 2 * y) = (turned td.transform).map d (cornerHalfStep k) (quarter i x) (quarter j y) ∧
        HalfCornerSame d td i j x y (c2 (x + 2 * y)).1 (c2 (x + 2 * y)).2 := by
      intro i j
      obtain ⟨c2, h1, h2⟩ := glued_spec hd td hf gl hm i j
      refine ⟨c2, by unfold clawCornerHalf; rw [if_pos hb]; exact h1, ?_⟩
      intro x y hx hy
      refine ⟨samePoint_map hd gl hm hf.level hc i j _ _ x y (h2 x y hx hy), ?_⟩
      unfold HalfCornerSame
      rw [if_pos hb]
      exact h2 x y hx hy
    refine ⟨?_, turned_ok gl hm, ?_⟩
    · intro i j
      obtain ⟨c2, h1, h2⟩ := key i j
      exact ⟨c2, h1, fun x y hx hy => (h2 x y hx hy).1⟩
    · intro i j x y hx hy
      obtain ⟨c2, h1, h2⟩ := key i j
      have := (h2 x y hx hy).2
      rw [(h2 x y hx hy).1] at this
      exact this
  · rw [if_neg hb] at h
    obtain ⟨_, _, h⟩ := h
    have hbi' : ¬ (td.blockIface ≠ -1) := by omega
    have hop : td.isBlockCorner = true → InOppositeCorner false td.icorner td.neighbor := by
      intro e
      rw [if_pos e] at h
      rw [hk]; exact h.1
    have ho : cornerOrient td = straight := by unfold cornerOrient; rw [if_neg hb]
    rw [ho]
    have key : ∀ i j, ∃ c2, clawCornerHalf d td i j = some c2 ∧ ∀ x y : Nat, x < 2 → y < 2 →
        c2 (x + 2 * y) = straight.map d (cornerHalfStep k) (quarter i x) (quarter j y) ∧
        HalfCornerSame d td i j x y (c2 (x + 2 * y)).1 (c2 (x + 2 * y)).2 := by
      intro i j
      obtain ⟨out, h1, h2, _⟩ := C15_corner2_children false td.this td.neighbor td.icorner td.isBlockCorner hf.level
        hf.latticeI hf.latticeO (sizes d) 1 (proper_sizes hd) hop (index i j)
      obtain ⟨c2, h3, h5⟩ := entries_spec (P := fun x y idx' =>
        CornerSamePoint false td.icorner td.isBlockCorner (childCentre td.this (sizes d) 1 (index i j) (bits x y 0))
          (cellCentre td.neighbor (sizes d) 1 idx')) (by
          intro b hb
          obtain ⟨idx', u, v⟩ := h2 b hb
          refine ⟨idx', u, ?_⟩
          intro a ha
          have w := v a ha
          rw [childCentre_congr td.this (sizes d) 1 (index i j) (bits (b 0) (b 1) 0) b a]
          · exact w
          · simp [axes] at ha
            rcases ha with rfl | rfl <;> rfl)
      refine ⟨c2, by simp [clawCornerHalf, hb, hbi', h1, h3], ?_⟩
      intro x y hx hy
      obtain ⟨idx', u, v⟩ := h5 x y hx hy
      have v' : CornerSamePoint false td.icorner td.isBlockCorner
          (childCentre td.this (sizes d) 1 (index i j) (bits x y 0))
          (cellCentre td.neighbor (sizes d) 1 (index (idx' 0) (idx' 1))) := by
        intro a ha
        have w := v a ha
        rw [cellCentre_congr td.neighbor (sizes d) 1 (index (idx' 0) (idx' 1)) idx' a]
        · exact w
        · simp [axes] at ha
          rcases ha with rfl | rfl <;> rfl
      rw [u]
      refine ⟨?_, ?_⟩
      · refine shift_map hd hf.level (Transform.shift td.icorner td.isBlockCorner) ?_ i j _ _ x y ?_
        · cases hbc : td.isBlockCorner with
          | true =>
            rw [hbc, if_pos rfl] at h
            rw [hk]
            exact cornerSame_shift h.2
          | false =>
            rw [hbc] at h
            simp only [Bool.false_eq_true, if_false] at h
            intro a ha
            rw [h a ha]; simp [Transform.shift]
        · exact cornerSame_shift v'
      · unfold HalfCornerSame
        rw [if_neg hb]
        exact v'
    refine ⟨?_, straight_ok d, ?_⟩
    · intro i j
      obtain ⟨c2, h1, h2⟩ := key i j
      exact ⟨c2, h1, fun x y hx hy => (h2 x y hx hy).1⟩
    · intro i j x y hx hy
      obtain ⟨c2, h1, h2⟩ := key i j
      have := (h2 x y hx hy).2
      rw [(h2 x y hx hy).1] at this
      exact this

end Fclaw.CoarseFine
