import Verif.GhostAll.Cells
import Verif.CoarseFine.Props
import Verif.Bc.Props
/-
Helpers for C69: what one operation does.
-/
set_option autoImplicit false
set_option linter.unusedSimpArgs false
set_option linter.unusedVariables false
namespace Fclaw.GhostAll

open Fort Transform GhostFill CopyGhost CoarseFine

variable {d : Dims} {M : Mesh} {S : Setup} {minl : Int} {ti : Bool}

/-! ### Regions -/

/-- Names of regions in use. -/
def RegOk : Region → Prop
  | .corner k => k < 4
  | _ => True

theorem reg_strip {r : Region} {f : Nat} {i j : ℤ} (hr : inRegion d r i j) (h : inStrip d f i j) :
    ∃ hh, hh < 2 ∧ r = .strip f hh := by
  cases r with
  | interior => exact absurd hr (strip_not_interior h)
  | strip f' hh => exact ⟨hh, hr.2.2, by rw [strip_disjoint h hr.1]⟩
  | corner k => exact absurd hr (strip_not_corner h)

theorem reg_half {r : Region} {f g : Nat} {i j : ℤ} (hr : inRegion d r i j) (h : inRegion d (.strip f g) i j) :
    r = .strip f g := by
  obtain ⟨hh, hlt, rfl⟩ := reg_strip hr h.1
  obtain ⟨_, h1, _⟩ := hr
  obtain ⟨_, h2, h3⟩ := h
  have : hh = g := by
    by_cases hf : f / 2 = 0
    · rw [if_pos hf] at h1 h2
      have := h1.trans h2.symm
      omega
    · rw [if_neg hf] at h1 h2
      have := h1.trans h2.symm
      omega
  rw [this]

theorem reg_corner {r : Region} {k : Nat} (hk : k < 4) {i j : ℤ} (ho : RegOk r) (hr : inRegion d r i j)
    (h : inCorner d k i j) : r = .corner k := by
  cases r with
  | interior => exact absurd hr (corner_not_interior h)
  | strip f hh => exact absurd h (strip_not_corner hr.1)
  | corner k' => rw [corner_disjoint ho hk hr h]

theorem strip_lt {f : Nat} {i j : ℤ} (h : inStrip d f i j) : f < 4 := by
  unfold inStrip at h
  split at h <;> first | omega | exact absurd h id

theorem corner_lt_mod {k : Nat} (hk : k < 4) : k / 2 < 2 ∧ k % 2 < 2 ∧ k = k % 2 + 2 * (k / 2) := by omega

/-! ### Images beyond the boundary -/

theorem sides_eq (x f : Nat) : sides M x f = isBoundary (M.face x f) := rfl

theorem kinds_none {x f : Nat} (h : isBoundary (M.face x f) = false) : kinds M S x f = .none := by
  unfold kinds Bc.kind sides
  rw [h]; simp

theorem kinds_some {x f : Nat} (h : isBoundary (M.face x f) = true) : kinds M S x f = .extrap ∨ kinds M S x f = .wall := by
  unfold kinds Bc.kind sides
  rw [h]
  by_cases h1 : S.mthbc f = 1
  · left; simp [h1]
  · right; simp [h1]

theorem image_self {n : ℤ} {lo hi : Bc.Kind} {i : ℤ} (h1 : i < 1 → lo = .none) (h2 : n < i → hi = .none) :
    Bc.image n lo hi i = i := by
  unfold Bc.image
  by_cases a : i < 1
  · rw [if_pos a, h1 a]
  · rw [if_neg a]
    by_cases b : n < i
    · rw [if_pos b, h2 b]
    · rw [if_neg b]

theorem sign_one {n : ℤ} {lo hi : Bc.Kind} {i m nn : ℤ} (h1 : i < 1 → lo = .none) (h2 : n < i → hi = .none) :
    Bc.sign n lo hi i m nn = 1 := by
  unfold Bc.sign Bc.behindWall
  rw [if_neg]
  rintro ⟨⟨a, b⟩ | ⟨a, b⟩, _⟩
  · rw [h1 a] at b; cases b
  · rw [h2 a] at b; cases b

theorem image_low {n : ℤ} {m : Nat} {lo hi : Bc.Kind} {i : ℤ} (h : lo = .extrap ∨ lo = .wall) (h0 : 1 - (m : ℤ) ≤ i)
    (h1 : i < 1) : 1 ≤ Bc.image n lo hi i ∧ Bc.image n lo hi i ≤ m := by
  unfold Bc.image
  rw [if_pos h1]
  rcases h with rfl | rfl <;> dsimp only <;> omega

theorem image_high {n : ℤ} {m : Nat} {lo hi : Bc.Kind} {i : ℤ} (hn : 1 ≤ n) (h : hi = .extrap ∨ hi = .wall)
    (h0 : n < i) (h1 : i ≤ n + m) : n - m < Bc.image n lo hi i ∧ Bc.image n lo hi i ≤ n := by
  unfold Bc.image
  rw [if_neg (by omega), if_pos h0]
  rcases h with rfl | rfl <;> dsimp only <;> omega

/-- Nothing beyond the boundary. -/
def Inside (d : Dims) (M : Mesh) (x : Nat) (i j : ℤ) : Prop :=
  (i < 1 → isBoundary (M.face x 0) = false) ∧ ((d.mx : ℤ) < i → isBoundary (M.face x 1) = false) ∧
  (j < 1 → isBoundary (M.face x 2) = false) ∧ ((d.my : ℤ) < j → isBoundary (M.face x 3) = false)

theorem mirror_self {x : Nat} {i j : ℤ} (h : Inside d M x i j) : mirror d M S x i j = (i, j) := by
  obtain ⟨a, b, c, e⟩ := h
  unfold mirror
  rw [image_self (fun h => kinds_none (a h)) (fun h => kinds_none (b h)),
    image_self (fun h => kinds_none (c h)) (fun h => kinds_none (e h))]

theorem mirrorSign_one {x : Nat} {i j mq : ℤ} (h : Inside d M x i j) : mirrorSign d M S x i j mq = 1 := by
  obtain ⟨a, b, c, e⟩ := h
  unfold mirrorSign
  rw [sign_one (fun h => kinds_none (a h)) (fun h => kinds_none (b h)),
    sign_one (fun h => kinds_none (c h)) (fun h => kinds_none (e h)), one_mul]

theorem inside_interior {x : Nat} {i j : ℤ} (h : interior d i j) : Inside d M x i j := by
  unfold interior at h
  exact ⟨fun _ => by omega, fun _ => by omega, fun _ => by omega, fun _ => by omega⟩

theorem inside_strip {x f : Nat} {i j : ℤ} (h : inStrip d f i j) (hb : isBoundary (M.face x f) = false) :
    Inside d M x i j := by
  rcases four (strip_lt h) with rfl | rfl | rfl | rfl <;> simp [inStrip] at h <;>
    refine ⟨fun _ => ?_, fun _ => ?_, fun _ => ?_, fun _ => ?_⟩ <;> first | exact hb | omega

theorem inside_corner {x k : Nat} (hk : k < 4) {i j : ℤ} (h : inCorner d k i j)
    (hx : isBoundary (M.face x (faceX k)) = false) (hy : isBoundary (M.face x (faceY k)) = false) :
    Inside d M x i j := by
  rcases four hk with rfl | rfl | rfl | rfl <;> simp [inCorner, faceX, faceY] at h hx hy <;>
    refine ⟨fun _ => ?_, fun _ => ?_, fun _ => ?_, fun _ => ?_⟩ <;> first | exact hx | exact hy | omega

/-- What is beyond the boundary has its image closer by. -/
theorem mirror_strip (hS : Sizes d) {x f : Nat} {i j : ℤ} (h : inStrip d f i j) (hb : isBoundary (M.face x f) = true) :
    near2 d (mirror d M S x i j).1 (mirror d M S x i j).2 ∧ mirror d M S x i j ≠ (i, j) := by
  obtain ⟨a, b, c, e, u, v⟩ := hS.even
  have hk := kinds_some (S := S) hb
  rcases four (strip_lt h) with rfl | rfl | rfl | rfl <;> simp [inStrip] at h
  · have A := image_low (n := d.mx) (m := d.mbc) (hi := kinds M S x 1) hk (i := i) (by omega) (by omega)
    have B : Bc.image d.my (kinds M S x 2) (kinds M S x 3) j = j := image_self (by omega) (by omega)
    unfold near2 interior mirror
    rw [B]
    refine ⟨by dsimp only; omega, fun h => ?_⟩
    have := congrArg Prod.fst h
    dsimp only at this; omega
  · have A := image_high (n := d.mx) (m := d.mbc) (lo := kinds M S x 0) (by omega) hk (i := i) (by omega) (by omega)
    have B : Bc.image d.my (kinds M S x 2) (kinds M S x 3) j = j := image_self (by omega) (by omega)
    unfold near2 interior mirror
    rw [B]
    refine ⟨by dsimp only; omega, fun h => ?_⟩
    have := congrArg Prod.fst h
    dsimp only at this; omega
  · have A := image_low (n := d.my) (m := d.mbc) (hi := kinds M S x 3) hk (i := j) (by omega) (by omega)
    have B : Bc.image d.mx (kinds M S x 0) (kinds M S x 1) i = i := image_self (by omega) (by omega)
    unfold near2 interior mirror
    rw [B]
    refine ⟨by dsimp only; omega, fun h => ?_⟩
    have := congrArg Prod.snd h
    dsimp only at this; omega
  · have A := image_high (n := d.my) (m := d.mbc) (lo := kinds M S x 2) (by omega) hk (i := j) (by omega) (by omega)
    have B : Bc.image d.mx (kinds M S x 0) (kinds M S x 1) i = i := image_self (by omega) (by omega)
    unfold near2 interior mirror
    rw [B]
    refine ⟨by dsimp only; omega, fun h => ?_⟩
    have := congrArg Prod.snd h
    dsimp only at this; omega

/-- The image in one direction of a cell at a corner. -/
theorem image_end {n m : Nat} {lo hi : Bc.Kind} {b : Nat} {i : ℤ} (hn : 1 ≤ n)
    (h : if b = 0 then 1 - (m : ℤ) ≤ i ∧ i ≤ 0 else (n : ℤ) + 1 ≤ i ∧ i ≤ n + m)
    (hk : (if b = 0 then lo else hi) = .extrap ∨ (if b = 0 then lo else hi) = .wall) (hm : m ≤ n) :
    (if b = 0 then 1 ≤ Bc.image n lo hi i ∧ Bc.image n lo hi i ≤ m
      else (n : ℤ) - m < Bc.image n lo hi i ∧ Bc.image n lo hi i ≤ n) ∧ Bc.image n lo hi i ≠ i := by
  by_cases hb : b = 0
  · rw [if_pos hb] at h hk ⊢
    have := image_low (n := n) (hi := hi) hk h.1 (by omega)
    exact ⟨this, by omega⟩
  · rw [if_neg hb] at h hk ⊢
    have := image_high (n := (n : ℤ)) (lo := lo) (by omega) hk (by omega) h.2
    exact ⟨this, by omega⟩

theorem mirror_cornerX (hS : Sizes d) {x k : Nat} (hk4 : k < 4) {i j : ℤ} (h : inCorner d k i j)
    (hx : isBoundary (M.face x (faceX k)) = true) (hy : isBoundary (M.face x (faceY k)) = false) :
    inRegion d (.strip (faceY k) (k % 2)) (mirror d M S x i j).1 (mirror d M S x i j).2 ∧
      mirror d M S x i j ≠ (i, j) := by
  obtain ⟨a, b, c, e, u, v⟩ := hS.even
  have hk := kinds_some (S := S) hx
  have hn := kinds_none (S := S) hy
  unfold mirror
  rcases four hk4 with rfl | rfl | rfl | rfl <;> simp [inCorner, faceX, faceY] at h hk hn ⊢
  · have A := image_low (n := d.mx) (m := d.mbc) (hi := kinds M S x 1) hk (i := i) (by omega) (by omega)
    have B : Bc.image d.my (kinds M S x 2) (kinds M S x 3) j = j := image_self (fun _ => hn) (by omega)
    rw [B]
    simp [inRegion, inStrip]; omega
  · have A := image_high (n := d.mx) (m := d.mbc) (lo := kinds M S x 0) (by omega) hk (i := i) (by omega) (by omega)
    have B : Bc.image d.my (kinds M S x 2) (kinds M S x 3) j = j := image_self (fun _ => hn) (by omega)
    rw [B]
    simp [inRegion, inStrip]; omega
  · have A := image_low (n := d.mx) (m := d.mbc) (hi := kinds M S x 1) hk (i := i) (by omega) (by omega)
    have B : Bc.image d.my (kinds M S x 2) (kinds M S x 3) j = j := image_self (by omega) (fun _ => hn)
    rw [B]
    simp [inRegion, inStrip]; omega
  · have A := image_high (n := d.mx) (m := d.mbc) (lo := kinds M S x 0) (by omega) hk (i := i) (by omega) (by omega)
    have B : Bc.image d.my (kinds M S x 2) (kinds M S x 3) j = j := image_self (by omega) (fun _ => hn)
    rw [B]
    simp [inRegion, inStrip]; omega

theorem mirror_cornerY (hS : Sizes d) {x k : Nat} (hk4 : k < 4) {i j : ℤ} (h : inCorner d k i j)
    (hx : isBoundary (M.face x (faceX k)) = false) (hy : isBoundary (M.face x (faceY k)) = true) :
    inRegion d (.strip (faceX k) (k / 2)) (mirror d M S x i j).1 (mirror d M S x i j).2 ∧
      mirror d M S x i j ≠ (i, j) := by
  obtain ⟨a, b, c, e, u, v⟩ := hS.even
  have hk := kinds_some (S := S) hy
  have hn := kinds_none (S := S) hx
  unfold mirror
  rcases four hk4 with rfl | rfl | rfl | rfl <;> simp [inCorner, faceX, faceY] at h hk hn ⊢
  · have A := image_low (n := d.my) (m := d.mbc) (hi := kinds M S x 3) hk (i := j) (by omega) (by omega)
    have B : Bc.image d.mx (kinds M S x 0) (kinds M S x 1) i = i := image_self (fun _ => hn) (by omega)
    rw [B]
    simp [inRegion, inStrip]; omega
  · have A := image_low (n := d.my) (m := d.mbc) (hi := kinds M S x 3) hk (i := j) (by omega) (by omega)
    have B : Bc.image d.mx (kinds M S x 0) (kinds M S x 1) i = i := image_self (by omega) (fun _ => hn)
    rw [B]
    simp [inRegion, inStrip]; omega
  · have A := image_high (n := d.my) (m := d.mbc) (lo := kinds M S x 2) (by omega) hk (i := j) (by omega) (by omega)
    have B : Bc.image d.mx (kinds M S x 0) (kinds M S x 1) i = i := image_self (fun _ => hn) (by omega)
    rw [B]
    simp [inRegion, inStrip]; omega
  · have A := image_high (n := d.my) (m := d.mbc) (lo := kinds M S x 2) (by omega) hk (i := j) (by omega) (by omega)
    have B : Bc.image d.mx (kinds M S x 0) (kinds M S x 1) i = i := image_self (by omega) (fun _ => hn)
    rw [B]
    simp [inRegion, inStrip]; omega

theorem mirror_corner (hS : Sizes d) {x k : Nat} (hk4 : k < 4) {i j : ℤ} (h : inCorner d k i j)
    (hx : isBoundary (M.face x (faceX k)) = true) (hy : isBoundary (M.face x (faceY k)) = true) :
    near2 d (mirror d M S x i j).1 (mirror d M S x i j).2 ∧ mirror d M S x i j ≠ (i, j) := by
  obtain ⟨a, b, c, e, u, v⟩ := hS.even
  have hk := kinds_some (S := S) hx
  have hk' := kinds_some (S := S) hy
  unfold mirror near2 interior
  rcases four hk4 with rfl | rfl | rfl | rfl <;> simp [inCorner, faceX, faceY] at h hk hk' ⊢
  · have A := image_low (n := d.mx) (m := d.mbc) (hi := kinds M S x 1) hk (i := i) (by omega) (by omega)
    have B := image_low (n := d.my) (m := d.mbc) (hi := kinds M S x 3) hk' (i := j) (by omega) (by omega)
    omega
  · have A := image_high (n := d.mx) (m := d.mbc) (lo := kinds M S x 0) (by omega) hk (i := i) (by omega) (by omega)
    have B := image_low (n := d.my) (m := d.mbc) (hi := kinds M S x 3) hk' (i := j) (by omega) (by omega)
    omega
  · have A := image_low (n := d.mx) (m := d.mbc) (hi := kinds M S x 1) hk (i := i) (by omega) (by omega)
    have B := image_high (n := d.my) (m := d.mbc) (lo := kinds M S x 2) (by omega) hk' (i := j) (by omega) (by omega)
    omega
  · have A := image_high (n := d.mx) (m := d.mbc) (lo := kinds M S x 0) (by omega) hk (i := i) (by omega) (by omega)
    have B := image_high (n := d.my) (m := d.mbc) (lo := kinds M S x 2) (by omega) hk' (i := j) (by omega) (by omega)
    omega

theorem physical_spec (hF : Fits d M S) (x : Nat) (q : Grid ℚ) :
    ∃ q', physical d M S x q = some q' ∧ ∀ i j mq, inBox d (i, j, mq) = true →
      q' (i, j, mq) = mirrorSign d M S x i j mq * q ((mirror d M S x i j).1, (mirror d M S x i j).2, mq) := by
  obtain ⟨q', e, h⟩ := Bc.bc2Default_spec d S.mthbc (sides M x) (hF.bc x) q
  refine ⟨q', by unfold physical; rw [e], fun i j mq hb => ?_⟩
  rw [h _ hb]
  rfl

/-! ### Sources of interior cells -/

theorem same_ghost {x : Nat} {i j : ℤ} {y : Nat} {i' j' : ℤ} (h : SameSource d M S x i j y i' j') :
    ¬ interior d i j ∧ Inside d M x i j := by
  obtain ⟨_, ⟨f, rf, hf, hface, hs, _⟩ | ⟨k, rk, hk, hc, hs, _⟩⟩ := h
  · exact ⟨strip_not_interior hs, inside_strip hs (by rw [hface]; rfl)⟩
  · obtain ⟨hx, hy, _⟩ := cornerNbr_ne M x k (by rw [hc]; simp)
    exact ⟨corner_not_interior hs, inside_corner hk hs hx hy⟩

theorem half_ghost {x : Nat} {i j : ℤ} {y : Nat} {c : Nat → Nat → ℤ × ℤ} (h : HalfSource d M S x i j y c) :
    ¬ interior d i j ∧ Inside d M x i j := by
  obtain ⟨_, ⟨f, g, y0, y1, rf, hf, hg, hface, _, hs, _⟩ | ⟨k, rk, hk, hc, hs, _⟩⟩ := h
  · exact ⟨strip_not_interior hs.1, inside_strip hs.1 (by rw [hface]; rfl)⟩
  · obtain ⟨hx, hy, _⟩ := cornerNbr_ne M x k (by rw [hc]; simp)
    exact ⟨corner_not_interior hs, inside_corner hk hs hx hy⟩

/-- The corner in the middle of a face. -/
theorem hk_lt (hM : M.Ok) {x f c fc g hk : Nat} (hf : f < 4) (h : M.face x f = .double c fc g hk) : hk < 4 := by
  obtain ⟨hfc, hg, y0, y1, h1, h2⟩ := hM.doubleSym x f c fc g hk hf h
  obtain ⟨_, ⟨k0, l0, e0⟩, k1, l1, e1⟩ := hM.halfSym c fc y0 y1 f hfc h1
  rcases pick_cases y0 y1 g hg with ⟨rfl, e⟩ | ⟨rfl, e⟩
  · rw [← h2, e, e0] at h; cases h; exact l0
  · rw [← h2, e, e1] at h; cases h; exact l1

theorem double_ghost (hM : M.Ok) {x : Nat} {i j : ℤ} {c : Nat} {ic jc : ℤ} {a b : Nat}
    (h : DoubleSource d M S x i j c ic jc a b) : ¬ interior d i j ∧ Inside d M x i j := by
  obtain ⟨_, _, _, ⟨f, fc, g, hk, hf, hface, hs, _⟩ | ⟨k, rk, hk, hc, hs, _⟩⟩ := h
  · rcases hs with hs | hs
    · exact ⟨strip_not_interior hs, inside_strip hs (by rw [hface]; rfl)⟩
    · have := hk_lt hM hf hface
      obtain ⟨_, hx, hy⟩ := hM.hangingNone x f c fc g hk hf hface this
      exact ⟨corner_not_interior hs, inside_corner this hs hx hy⟩
  · obtain ⟨hx, hy, _⟩ := cornerNbr_ne M x k (by rw [hc]; simp)
    exact ⟨corner_not_interior hs, inside_corner hk hs hx hy⟩

/-- The value of an interior cell. -/
theorem expected_interior (hM : M.Ok) {I : State ℚ} {x : Nat} {t : Bool} {i j mq : ℤ} {v : ℚ} (hi : interior d i j)
    (h : Expected d M S minl ti I x t i j mq v) : v = I x t (i, j, mq) := by
  cases h with
  | interior _ _ _ _ _ _ => rfl
  | same _ _ _ _ _ y i' j' h => exact absurd hi (same_ghost h).1
  | half _ _ _ _ _ y c h => exact absurd hi (half_ghost h).1
  | double _ _ _ _ c t ic jc a b Q h _ _ => exact absurd hi (double_ghost hM h).1
  | boundary _ _ _ _ _ v h _ => exact absurd (mirror_self (inside_interior hi)) h

end Fclaw.GhostAll
