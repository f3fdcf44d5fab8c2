import Verif.CoarseFine.Lemmas
import Mathlib.Tactic.Linarith
/-
Helpers for C67 and C68: which cells a rigid motion carries where.
-/
set_option autoImplicit false
set_option linter.unusedSimpArgs false
set_option linter.unusedVariables false
namespace Fclaw.CoarseFine

open Fort Transform CopyGhost Transfer

theorem EvenDims.proper {d : Dims} (h : EvenDims d) : Proper d := ⟨h.mx1, h.my1, by have := h.bx; omega, by have := h.by'; omega⟩

theorem four {f : Nat} (h : f < 4) : f = 0 ∨ f = 1 ∨ f = 2 ∨ f = 3 := by omega
theorem two {f : Nat} (h : f < 2) : f = 0 ∨ f = 1 := by omega

/-! ### Averages -/

theorem half_interior {d : Dims} (hd : EvenDims d) {f g : Nat} (hf : f < 4) (hg : g < 2) {o : Orient} (ho : o.ok d)
    {i j : ℤ} (h : inHalfStrip d f g i j) {x y : Nat} (hx : x < 2) (hy : y < 2) :
    interior d (o.map d (faceHalfStep f g) (quarter i x) (quarter j y)).1
      (o.map d (faceHalfStep f g) (quarter i x) (quarter j y)).2 := by
  obtain ⟨a, b, c, e, u, v⟩ := hd
  obtain ⟨sw, e0, e1⟩ := o
  obtain ⟨h0, h1, hs⟩ := ho
  dsimp only at h0 h1 hs
  obtain ⟨h, h'⟩ := h
  unfold Orient.map flip interior quarter faceHalfStep
  cases sw <;> rcases h0 with rfl | rfl <;> rcases h1 with rfl | rfl <;>
    rcases four hf with rfl | rfl | rfl | rfl <;> rcases two hg with rfl | rfl <;>
    simp [inStrip] at h h' hs ⊢ <;> omega

theorem other_half {d : Dims} (hd : EvenDims d) {f g : Nat} (hf : f < 4) (hg : g < 2) {o : Orient} (ho : o.ok d)
    {i j : ℤ} (h : inStrip d f i j) (h' : ¬ inHalfStrip d f g i j) :
    ¬ interior d (o.map d (faceHalfStep f g) (quarter i 0) (quarter j 0)).1
      (o.map d (faceHalfStep f g) (quarter i 0) (quarter j 0)).2 := by
  obtain ⟨a, b, c, e, u, v⟩ := hd
  obtain ⟨sw, e0, e1⟩ := o
  obtain ⟨h0, h1, hs⟩ := ho
  dsimp only at h0 h1 hs
  have h'' : ¬ (if f / 2 = 0 then (if g = 0 then 2 * j ≤ d.my else (d.my : ℤ) < 2 * j)
    else (if g = 0 then 2 * i ≤ d.mx else (d.mx : ℤ) < 2 * i)) := fun hh => h' ⟨h, hh⟩
  unfold Orient.map flip interior quarter faceHalfStep
  cases sw <;> rcases h0 with rfl | rfl <;> rcases h1 with rfl | rfl <;>
    rcases four hf with rfl | rfl | rfl | rfl <;> rcases two hg with rfl | rfl <;>
    simp [inStrip] at h h'' hs ⊢ <;> omega

theorem corner_interior {d : Dims} (hd : EvenDims d) {k : Nat} (hk : k < 4) {o : Orient} (ho : o.ok d)
    {i j : ℤ} (h : inCorner d k i j) {x y : Nat} (hx : x < 2) (hy : y < 2) :
    interior d (o.map d (cornerHalfStep k) (quarter i x) (quarter j y)).1
      (o.map d (cornerHalfStep k) (quarter i x) (quarter j y)).2 := by
  obtain ⟨a, b, c, e, u, v⟩ := hd
  obtain ⟨sw, e0, e1⟩ := o
  obtain ⟨h0, h1, hs⟩ := ho
  dsimp only at h0 h1 hs
  unfold Orient.map flip interior quarter cornerHalfStep
  cases sw <;> rcases h0 with rfl | rfl <;> rcases h1 with rfl | rfl <;>
    rcases four hk with rfl | rfl | rfl | rfl <;>
    simp [inCorner] at h hs ⊢ <;> omega

/-! ### Interpolation -/

/-- The quarter at cell `(i', j')` of the small patch. -/
def Orient.inv (o : Orient) (d : Dims) (s : Nat → ℤ) (i' j' : ℤ) : ℤ × ℤ :=
  if o.swap then (flip o.e1 d.my j' + s 0 * d.mx, flip o.e0 d.mx i' + s 1 * d.my)
  else (flip o.e0 d.mx i' + s 0 * d.mx, flip o.e1 d.my j' + s 1 * d.my)

theorem flip_flip {e : ℤ} (he : e = 1 ∨ e = -1) (m x : ℤ) : flip e m (flip e m x) = x := by
  unfold flip
  rcases he with rfl | rfl <;> simp

theorem inv_map {d : Dims} {o : Orient} (ho : o.ok d) (s : Nat → ℤ) (I J : ℤ) :
    o.inv d s (o.map d s I J).1 (o.map d s I J).2 = (I, J) := by
  obtain ⟨h0, h1, _⟩ := ho
  unfold Orient.inv Orient.map
  split <;> simp [flip_flip h0, flip_flip h1]

theorem map_inv {d : Dims} {o : Orient} (ho : o.ok d) (s : Nat → ℤ) (i' j' : ℤ) :
    o.map d s (o.inv d s i' j').1 (o.inv d s i' j').2 = (i', j') := by
  obtain ⟨h0, h1, _⟩ := ho
  unfold Orient.inv Orient.map
  split <;> simp [flip_flip h0, flip_flip h1]

/-- Cell and quarter with a given number. -/
def cellOf (I : ℤ) : ℤ := (I + 1) / 2
def partOf (I : ℤ) : Nat := ((I + 1) % 2).toNat

theorem quarter_of (I : ℤ) : quarter (cellOf I) (partOf I) = I := by unfold quarter cellOf partOf; omega
theorem partOf_lt (I : ℤ) : partOf I < 2 := by unfold partOf; omega
theorem cellOf_quarter (i : ℤ) {x : Nat} (hx : x < 2) : cellOf (quarter i x) = i := by
  unfold quarter cellOf; omega
theorem partOf_quarter (i : ℤ) {x : Nat} (hx : x < 2) : partOf (quarter i x) = x := by
  unfold quarter partOf; omega

/-- Which end of the small patch, in its own coordinates. -/
def turnBit (e : ℤ) (u : Nat) : Nat := if e = 1 then u else 1 - u

/-- `touching`, `hanging` and `touchingCorner` for a motion. -/
def touchO (o : Orient) (f : Nat) : Nat :=
  let a := if o.swap then 1 - f / 2 else f / 2
  2 * a + turnBit (if a = 0 then o.e0 else o.e1) (1 - f % 2)

def cornerAt (o : Orient) (u0 u1 : Nat) : Nat :=
  if o.swap then turnBit o.e0 u1 + 2 * turnBit o.e1 u0 else turnBit o.e0 u0 + 2 * turnBit o.e1 u1

def hangO (o : Orient) (f g : Nat) : Nat :=
  if f / 2 = 0 then cornerAt o (1 - f % 2) (1 - g) else cornerAt o (1 - g) (1 - f % 2)

def touchCornerO (o : Orient) (k : Nat) : Nat := cornerAt o (1 - k % 2) (1 - k / 2 % 2)

/-- The cells of the large patch that are interpolated from at face `f`. -/
def inLayer (d : Dims) (f : Nat) (i j : ℤ) : Prop :=
  interior d i j ∧
  (if f = 0 then i ≤ (d.mbc : ℤ) / 2 else if f = 1 then (d.mx : ℤ) - d.mbc / 2 < i
   else if f = 2 then j ≤ (d.mbc : ℤ) / 2 else (d.my : ℤ) - d.mbc / 2 < j)

/-- … and at corner `k`. -/
def inInner (d : Dims) (k : Nat) (i j : ℤ) : Prop :=
  interior d i j ∧ (if k % 2 = 0 then i ≤ (d.mbc : ℤ) / 2 else (d.mx : ℤ) - d.mbc / 2 < i) ∧
  (if k / 2 = 0 then j ≤ (d.mbc : ℤ) / 2 else (d.my : ℤ) - d.mbc / 2 < j)

def box (d : Dims) (c : ℤ × ℤ) : Prop :=
  1 - (d.mbc : ℤ) ≤ c.1 ∧ c.1 ≤ d.mx + d.mbc ∧ 1 - (d.mbc : ℤ) ≤ c.2 ∧ c.2 ≤ d.my + d.mbc

set_option maxHeartbeats 2000000 in
theorem layer_ghost {d : Dims} (hd : EvenDims d) (hb : d.mbc % 2 = 0) {f g : Nat} (hf : f < 4) (hg : g < 2)
    {o : Orient} (ho : o.ok d) {i j : ℤ} (h : inLayer d f i j) {x y : Nat} (hx : x < 2) (hy : y < 2)
    (hbox : box d (o.map d (faceHalfStep f g) (quarter i x) (quarter j y))) :
    inStrip d (touchO o f) (o.map d (faceHalfStep f g) (quarter i x) (quarter j y)).1
      (o.map d (faceHalfStep f g) (quarter i x) (quarter j y)).2 ∨
    inCorner d (hangO o f g) (o.map d (faceHalfStep f g) (quarter i x) (quarter j y)).1
      (o.map d (faceHalfStep f g) (quarter i x) (quarter j y)).2 := by
  obtain ⟨a, b, c, e, u, v⟩ := hd
  obtain ⟨sw, e0, e1⟩ := o
  obtain ⟨h0, h1, hs⟩ := ho
  dsimp only at h0 h1 hs
  obtain ⟨h, h'⟩ := h
  unfold interior at h
  unfold Orient.map flip quarter faceHalfStep box at hbox
  unfold Orient.map flip quarter faceHalfStep touchO hangO cornerAt turnBit
  cases sw <;> rcases h0 with rfl | rfl <;> rcases h1 with rfl | rfl <;>
    rcases four hf with rfl | rfl | rfl | rfl <;> rcases two hg with rfl | rfl <;>
    simp [inStrip, inCorner] at h h' hs hbox ⊢ <;> omega

set_option maxHeartbeats 2000000 in
theorem ghost_layer {d : Dims} (hd : EvenDims d) (hb : d.mbc % 2 = 0) {f g : Nat} (hf : f < 4) (hg : g < 2)
    {o : Orient} (ho : o.ok d) {i' j' : ℤ} (h : inStrip d (touchO o f) i' j' ∨ inCorner d (hangO o f g) i' j') :
    inLayer d f (cellOf (o.inv d (faceHalfStep f g) i' j').1) (cellOf (o.inv d (faceHalfStep f g) i' j').2) ∧
    ∀ x y : Nat, x < 2 → y < 2 → box d (o.map d (faceHalfStep f g)
      (quarter (cellOf (o.inv d (faceHalfStep f g) i' j').1) x)
      (quarter (cellOf (o.inv d (faceHalfStep f g) i' j').2) y)) := by
  obtain ⟨a, b, c, e, u, v⟩ := hd
  obtain ⟨sw, e0, e1⟩ := o
  obtain ⟨h0, h1, hs⟩ := ho
  dsimp only at h0 h1 hs
  unfold touchO hangO cornerAt turnBit at h
  unfold inLayer interior Orient.inv Orient.map flip quarter faceHalfStep box cellOf
  cases sw <;> rcases h0 with rfl | rfl <;> rcases h1 with rfl | rfl <;>
    rcases four hf with rfl | rfl | rfl | rfl <;> rcases two hg with rfl | rfl <;>
    simp [inStrip, inCorner] at h hs ⊢ <;> refine ⟨by omega, ?_⟩ <;> intro x y hx hy <;> omega

theorem inner_ghost {d : Dims} (hd : EvenDims d) (hb : d.mbc % 2 = 0) {k : Nat} (hk : k < 4)
    {o : Orient} (ho : o.ok d) {i j : ℤ} (h : inInner d k i j) {x y : Nat} (hx : x < 2) (hy : y < 2) :
    inCorner d (touchCornerO o k) (o.map d (cornerHalfStep k) (quarter i x) (quarter j y)).1
      (o.map d (cornerHalfStep k) (quarter i x) (quarter j y)).2 := by
  obtain ⟨a, b, c, e, u, v⟩ := hd
  obtain ⟨sw, e0, e1⟩ := o
  obtain ⟨h0, h1, hs⟩ := ho
  dsimp only at h0 h1 hs
  obtain ⟨h, h', h''⟩ := h
  unfold interior at h
  unfold Orient.map flip quarter cornerHalfStep touchCornerO cornerAt turnBit
  cases sw <;> rcases h0 with rfl | rfl <;> rcases h1 with rfl | rfl <;>
    rcases four hk with rfl | rfl | rfl | rfl <;>
    simp [inCorner] at h h' h'' hs ⊢ <;> omega

theorem ghost_inner {d : Dims} (hd : EvenDims d) (hb : d.mbc % 2 = 0) {k : Nat} (hk : k < 4)
    {o : Orient} (ho : o.ok d) {i' j' : ℤ} (h : inCorner d (touchCornerO o k) i' j') :
    inInner d k (cellOf (o.inv d (cornerHalfStep k) i' j').1) (cellOf (o.inv d (cornerHalfStep k) i' j').2) := by
  obtain ⟨a, b, c, e, u, v⟩ := hd
  obtain ⟨sw, e0, e1⟩ := o
  obtain ⟨h0, h1, hs⟩ := ho
  dsimp only at h0 h1 hs
  unfold touchCornerO cornerAt turnBit at h
  unfold inInner interior Orient.inv flip cornerHalfStep cellOf
  cases sw <;> rcases h0 with rfl | rfl <;> rcases h1 with rfl | rfl <;>
    rcases four hk with rfl | rfl | rfl | rfl <;>
    simp [inCorner] at h hs ⊢ <;> omega

/-! ### The names of faces and corners -/

theorem en_eq (ft : Nat → Nat) : en ft = if ft 8 / 2 = ft 8 % 2 then -1 else 1 := rfl

theorem touch_eq {d : Dims} {ft : Nat → Nat} {f g : Nat} {ip op : Patch} (hf : f < 4)
    (h : HalfFaceLink d ft f g ip op) : touching ft f = touchO (faceOrient ft) f := by
  obtain ⟨_, h⟩ := h
  unfold touching touchO faceOrient
  by_cases h4 : ft 8 / 4 % 2 = 1
  · simp only [if_pos h4]
    rcases four hf with rfl | rfl | rfl | rfl <;> simp [straight, turnBit]
  · simp only [if_neg h4]
    rw [if_neg h4] at h
    obtain ⟨⟨gl, _, _⟩, h2, h8⟩ := h
    obtain ⟨a1, a2⟩ := gluing_axes gl
    have r2 := gl.r2
    unfold turned
    rw [en_eq, h2, h8]
    have hb : ft 8 % 2 = 0 ∨ ft 8 % 2 = 1 := by omega
    rcases hb with hb | hb <;> rcases four hf with rfl | rfl | rfl | rfl <;> rcases a2 with ⟨f3, f5⟩ | ⟨f3, f5⟩ <;>
      simp [f5, hb, turnBit]

theorem hang_eq {d : Dims} {ft : Nat → Nat} {f g : Nat} {ip op : Patch} (hf : f < 4) (hg : g < 2)
    (h : HalfFaceLink d ft f g ip op) : hanging ft f g = hangO (faceOrient ft) f g := by
  have ht := touch_eq hf h
  obtain ⟨_, h⟩ := h
  unfold hanging hangO cornerAt
  rw [ht]
  unfold touchO faceOrient
  by_cases h4 : ft 8 / 4 % 2 = 1
  · simp only [if_pos h4]
    rcases four hf with rfl | rfl | rfl | rfl <;> rcases two hg with rfl | rfl <;> simp [straight, turnBit, h4]
  · simp only [if_neg h4]
    rw [if_neg h4] at h
    obtain ⟨⟨gl, _, _⟩, h2, h8⟩ := h
    obtain ⟨a1, a2⟩ := gluing_axes gl
    have r0 := gl.r0
    have r2 := gl.r2
    unfold turned et
    rw [en_eq, h2, h8]
    have hb : ft 8 % 2 = 0 ∨ ft 8 % 2 = 1 := by omega
    have h6 : ft 6 = 0 ∨ ft 6 = 1 := by omega
    rcases hb with hb | hb <;> rcases h6 with h6 | h6 <;> rcases four hf with rfl | rfl | rfl | rfl <;>
      rcases two hg with rfl | rfl <;> rcases a2 with ⟨f3, f5⟩ | ⟨f3, f5⟩ <;>
      simp [f5, hb, h6, h4, turnBit]

theorem corner_eq {d : Dims} {td : TData} {k : Nat} (hk : k < 4) (h : HalfCornerLink d td k) :
    touchingCorner td k = touchCornerO (cornerOrient td) k := by
  obtain ⟨_, _, _, h⟩ := h
  unfold touchingCorner touchCornerO cornerOrient cornerAt
  by_cases hb : 0 ≤ td.blockIface
  · simp only [if_pos hb]
    rw [if_pos hb] at h
    obtain ⟨h4, ⟨gl, _, _⟩, h8⟩ := h
    obtain ⟨a1, a2⟩ := gluing_axes gl
    have r0 := gl.r0
    have r2 := gl.r2
    unfold turned et
    rw [en_eq, h8]
    have h8' : td.transform 8 % 2 = 0 ∨ td.transform 8 % 2 = 1 := by omega
    have h6 : td.transform 6 = 0 ∨ td.transform 6 = 1 := by omega
    rcases h8' with h8' | h8' <;> rcases h6 with h6 | h6 <;> rcases four hk with rfl | rfl | rfl | rfl <;>
      rcases a1 with ⟨f0, f2⟩ | ⟨f0, f2⟩ <;> rcases a2 with ⟨f3, f5⟩ | ⟨f3, f5⟩ <;>
      simp [f0, f2, f5, h8', h6, turnBit]
  · simp only [if_neg hb]
    rcases four hk with rfl | rfl | rfl | rfl <;> simp [straight, turnBit]

end Fclaw.CoarseFine
