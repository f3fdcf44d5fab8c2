/-
Reading the arrays of the file.
-/
import Verif.Vtk.Header

set_option autoImplicit false
set_option linter.unusedSimpArgs false
set_option linter.unusedVariables false

namespace Fclaw.Vtk

open Fclaw.ParFile (Byte File Outcome Distribution)

theorem payload_split {R : Type} {F : Forest R} {D : Distribution F.count} (es : List (FE R)) :
    ∀ off, Chained F.count off es → (∀ e ∈ es, e.Ok F D) → ∀ e ∈ es,
    ∃ pre rest, payload F es = pre ++ (e.image F ++ rest) ∧ off + pre.length = e.f.offset := by
  induction es with
  | nil => intro off _ _ e he; simp at he
  | cons a es ih =>
    intro off hc hok e he
    rcases List.mem_cons.1 he with rfl | he
    · exact ⟨[], payload F es, by simp [payload], by simp [hc.1]⟩
    · obtain ⟨pre, rest, h1, h2⟩ := ih _ hc.2 (fun e he => hok e (by simp [he])) e he
      refine ⟨a.image F ++ pre, rest, ?_, ?_⟩
      · simp only [payload, List.flatMap_cons] at h1 ⊢
        rw [h1, List.append_assoc]
      · rw [List.length_append, FE.image_length (hok a (by simp))]; omega

theorem appended_eq {R : Type} {F : Forest R} {D : Distribution F.count} {es : List (FE R)}
    (hc : Chained F.count 0 es) (hok : ∀ e ∈ es, e.Ok F D) {e : FE R} (he : e ∈ es)
    (hsmall : e.f.psize * F.count < 256 ^ 8) {a : DataArray} (ha : a.offset = e.f.offset) :
    appended (payload F es) a = some (e.all F) := by
  obtain ⟨pre, rest, h1, h2⟩ := payload_split es 0 hc hok e he
  have hlen := FE.all_length (hok e he)
  have hp : pre.length = a.offset := by omega
  have e1 : payload F es = pre ++ (le 8 (e.f.psize * F.count) ++ (e.all F ++ rest)) := by
    rw [h1, FE.image, List.append_assoc]
  have e2 : payload F es = (pre ++ le 8 (e.f.psize * F.count)) ++ (e.all F ++ rest) := by
    rw [e1, List.append_assoc]
  have s1 : slice (payload F es) a.offset 8 = some (le 8 (e.f.psize * F.count)) := by
    have := slice_of_split (o := 0) (m := 8) e1 hp (by rw [le_length])
    rw [Nat.add_zero] at this
    rw [this]
    have h8 := slice_all (le 8 (e.f.psize * F.count))
    rwa [le_length] at h8
  unfold appended
  rw [s1]
  simp only [Option.bind_some, ofLe_le 8 _ hsmall]
  have hp2 : (pre ++ le 8 (e.f.psize * F.count)).length = a.offset + 8 := by
    rw [List.length_append, le_length, hp]
  have := slice_of_split (o := 0) (m := e.f.psize * F.count) e2 hp2 (by omega)
  rw [Nat.add_zero] at this
  rw [this, ← hlen, slice_all]

theorem slice_all_piece {R : Type} {F : Forest R} {D : Distribution F.count} {e : FE R}
    (h : e.Ok F D) {g : Nat} {x : Nat × Patch R} (hx : (Forest.patches 0 F)[g]? = some x)
    {α : Type} {L : List α} {f : α → List Byte} {M W : Nat} (hE : e.E g x = L.flatMap f)
    (hM : L.length = M) (hW : ∀ y ∈ L, (f y).length = W) (hps : e.f.psize = M * W)
    {c : Nat} {y : α} (hy : L[c]? = some y) :
    slice (e.all F) ((g * M + c) * W) W = some (f y) := by
  obtain ⟨pre, rest, h1, h2⟩ := split_flatIdx e.E e.f.psize (Forest.patches 0 F) 0 g x
    (fun j x hj => by simpa using h.len j x hj) hx
  have hc : c < L.length := by
    by_contra hc
    rw [List.getElem?_eq_none (by omega)] at hy
    exact absurd hy (by simp)
  have hcW : c * W + W ≤ e.f.psize := by
    calc c * W + W = (c + 1) * W := by ring
      _ ≤ M * W := Nat.mul_le_mul_right _ (by omega)
      _ = e.f.psize := hps.symm
  rw [Nat.zero_add] at h1
  have s1 := slice_of_split (o := c * W) (m := W) h1 h2 (by rw [h.len g x hx]; exact hcW)
  have e1 : (g * M + c) * W = g * e.f.psize + c * W := by rw [hps]; ring
  rw [e1, FE.all, s1, hE]
  obtain ⟨pre', rest', h3, h4⟩ := split_flatMap f W L c y hW hy
  have hyl : (f y).length = W := hW y (List.mem_of_getElem? hy)
  have s2 := slice_of_split (o := 0) (m := W) h3 h4 (by omega)
  rw [Nat.add_zero] at s2
  rw [s2]
  have := slice_all (f y)
  rwa [hyl] at this

theorem mapM_some {α β : Type} (f : α → Option β) (g : α → β) (l : List α)
    (h : ∀ x ∈ l, f x = some (g x)) : l.mapM f = some (l.map g) := by
  induction l with
  | nil => rfl
  | cons x xs ih =>
    rw [List.mapM_cons, h x (by simp), ih (fun y hy => h y (by simp [hy]))]
    rfl

theorem mapM_range' {β : Type} (f : Nat → Option β) (l : List β) : ∀ s,
    (∀ t, t < l.length → f (s + t) = l[t]?) → (List.range' s l.length).mapM f = some l := by
  induction l with
  | nil => intro s _; rfl
  | cons x xs ih =>
    intro s h
    have h0 := h 0 (by simp)
    have h1 := ih (s + 1) (fun t ht => by
      have := h (t + 1) (by simpa using ht)
      rw [show s + 1 + t = s + (t + 1) by omega, this]; simp)
    rw [List.length_cons, List.range'_succ, List.mapM_cons, h1]
    simp only [Nat.add_zero, List.getElem?_cons_zero] at h0
    rw [h0]
    rfl

theorem mapM_range {β : Type} (f : Nat → Option β) (l : List β) (M : Nat) (hM : l.length = M)
    (h : ∀ t, t < M → f t = l[t]?) : (List.range M).mapM f = some l := by
  subst hM
  rw [List.range_eq_range']
  exact mapM_range' f l 0 (fun t ht => by rw [Nat.zero_add]; exact h t ht)

theorem chunks_flatMap {α : Type} (f : α → List Byte) (w : Nat) (l : List α)
    (h : ∀ x ∈ l, (f x).length = w) : chunks w l.length (l.flatMap f) = l.map f := by
  induction l with
  | nil => rfl
  | cons x xs ih =>
    have hx := h x (by simp)
    rw [List.length_cons, chunks, List.flatMap_cons, List.take_append_of_le_length (by omega),
      List.take_of_length_le (by omega), List.drop_append, List.drop_eq_nil_of_le (by omega)]
    rw [List.nil_append, hx, Nat.sub_self, List.drop_zero, ih (fun y hy => h y (by simp [hy]))]
    rfl

/-! ### The arrays of the file -/

theorem int_width (p : Params) (n : Nat) :
    width (if fits p n then "Int32" else "Int64") = some (isz p n) := by
  unfold isz
  cases fits p n <;> decide

theorem pow256 : (256 : Nat) ^ 8 = 18446744073709551616 := by norm_num

/-- Numbers that are read back. -/
theorem int_bound {p : Params} {n v : Nat} (hfit : Fits p n) (h32 : fits p n = true → v ≤ intMax)
    (h64 : v < 9223372036854775808) : v < 256 ^ isz p n := by
  unfold isz
  by_cases hf : fits p n = true
  · rw [if_pos hf]
    have := h32 hf
    simp only [intMax] at this
    norm_num; omega
  · rw [if_neg hf, pow256]; omega

/-- What is known of the file. -/
structure Ctx {R : Type} (N : Arith R) (p : Params) (F : Forest R) (D : Distribution F.count) :
    Prop where
  arith : N.Ok
  fit : Fits p F.count
  patch : ∀ blk ∈ F, ∀ pt ∈ blk, pt.Ok p
  procs : D.mpisize ≤ 2147483648
  blocks : F.length ≤ 2147483648

variable {R : Type} {N : Arith R} {p : Params} {F : Forest R} {D : Distribution F.count}

theorem Ctx.mem (h : Ctx N p F D) {g : Nat} {x : Nat × Patch R}
    (hx : (Forest.patches 0 F)[g]? = some x) : g < F.count ∧ x.1 ≤ intMax ∧ x.2.Ok p := by
  have hg : g < F.count := by
    rw [← patches_length F 0]
    by_contra hc
    rw [List.getElem?_eq_none (by omega)] at hx
    exact absurd hx (by simp)
  obtain ⟨h1, h2, blk, hblk, hpt⟩ := patches_mem F 0 x (List.mem_of_getElem? hx)
  have := h.blocks
  exact ⟨hg, by simp only [intMax]; omega, h.patch blk hblk x.2 hpt⟩

theorem Ctx.ok (h : Ctx N p F D) : ∀ e ∈ arrays N p F D, e.Ok F D :=
  arrays_ok h.arith D h.fit h.patch h.procs h.blocks

/-- Bounds for the sizes of the arrays. -/
theorem Ctx.totals (h : Ctx N p F D) :
    p.points * 3 * 8 * F.count < 9223372036854775808 ∧
    p.cells * p.corners * 8 * F.count < 9223372036854775808 ∧
    p.cells * p.meqn * 4 * F.count < 9223372036854775808 ∧
    p.points * F.count < 9223372036854775808 ∧
    p.cells * 8 * F.count < 9223372036854775808 ∧
    p.cells * 4 * F.count < 9223372036854775808 ∧
    p.cells * isz p F.count * F.count < 9223372036854775808 ∧
    p.cells * p.corners * isz p F.count * F.count < 9223372036854775808 ∧
    p.corners * (p.cells * F.count) < 9223372036854775808 := by
  have ht := h.fit.total
  have hc := corners_le p
  have e1 : F.count * (p.points * 24) = p.points * 3 * 8 * F.count := by ring
  have e2 : F.count * (p.cells * p.corners * 8) = p.cells * p.corners * 8 * F.count := by ring
  have e3 : F.count * (p.cells * p.meqn * 4) = p.cells * p.meqn * 4 * F.count := by ring
  have e4 : p.points * 3 * 8 * F.count = p.points * F.count * 24 := by ring
  have e5 : p.cells * p.corners * 8 * F.count = p.corners * (p.cells * F.count) * 8 := by ring
  have e6 : p.cells * 8 * F.count = p.cells * F.count * 8 := by ring
  have e7 : p.cells * 4 * F.count = p.cells * F.count * 4 := by ring
  have l1 : 4 * (p.cells * F.count) ≤ p.corners * (p.cells * F.count) :=
    Nat.mul_le_mul_right _ hc.1
  rw [e1, e2, e3] at ht
  refine ⟨by omega, by omega, by omega, by omega, by omega, by omega, ?_, ?_, by omega⟩
  · rcases isz_cases p F.count with hw | hw <;> rw [hw] <;> omega
  · rcases isz_cases p F.count with hw | hw <;> rw [hw]
    · have : p.cells * p.corners * 4 * F.count = p.corners * (p.cells * F.count) * 4 := by ring
      omega
    · omega

/-- The file has the array `a` with the pieces of `e`. -/
structure Has (N : Arith R) (p : Params) (F : Forest R) (D : Distribution F.count)
    (a : DataArray) (e : FE R) (w : Nat) : Prop where
  app : appended (payload F (arrays N p F D)) a = some (e.all F)
  width : width a.type = some w
  ok : e.Ok F D

theorem entry_eq {a : DataArray} {e : FE R} {w W : Nat} (h : Has N p F D a e w)
    (hW : w * a.components.getD 1 = W) (n : Nat) :
    entry (payload F (arrays N p F D)) a n = slice (e.all F) (n * W) W := by
  unfold entry
  rw [h.app, h.width]
  simp only [Option.bind_some, hW]

theorem hasEntries {a : DataArray} {e : FE R} {w W n M : Nat} (h : Has N p F D a e w)
    (hW : w * a.components.getD 1 = W) (hps : e.f.psize = M * W) (hn : n = M * F.count) :
    HasEntries (payload F (arrays N p F D)) a n := by
  refine ⟨_, _, h.app, h.width, ?_⟩
  rw [FE.all_length h.ok, hW, hps, hn]; ring

/-- One of the arrays. -/
theorem has_of (h : Ctx N p F D) {a : DataArray} {e : FE R} {w : Nat}
    (he : e ∈ arrays N p F D) (ha : a.offset = e.f.offset) (hw : width a.type = some w)
    (hs : e.f.psize * F.count < 9223372036854775808) : Has N p F D a e w :=
  ⟨appended_eq (arrays_chained N p F D) h.ok he (by rw [pow256]; omega) ha, hw, h.ok e he⟩

def ePosition (N : Arith R) (p : Params) (F : Forest R) (D : Distribution F.count) : FE R :=
  (arrays N p F D)[0]'(by simp [arrays])
def eConn (N : Arith R) (p : Params) (F : Forest R) (D : Distribution F.count) : FE R :=
  (arrays N p F D)[1]'(by simp [arrays])
def eOffsets (N : Arith R) (p : Params) (F : Forest R) (D : Distribution F.count) : FE R :=
  (arrays N p F D)[2]'(by simp [arrays])
def eTypes (N : Arith R) (p : Params) (F : Forest R) (D : Distribution F.count) : FE R :=
  (arrays N p F D)[3]'(by simp [arrays])
def eMpirank (N : Arith R) (p : Params) (F : Forest R) (D : Distribution F.count) : FE R :=
  (arrays N p F D)[4]'(by simp [arrays])
def eBlockno (N : Arith R) (p : Params) (F : Forest R) (D : Distribution F.count) : FE R :=
  (arrays N p F D)[5]'(by simp [arrays])
def ePatchno (N : Arith R) (p : Params) (F : Forest R) (D : Distribution F.count) : FE R :=
  (arrays N p F D)[6]'(by simp [arrays])
def eMeqn (N : Arith R) (p : Params) (F : Forest R) (D : Distribution F.count) : FE R :=
  (arrays N p F D)[7]'(by simp [arrays])

theorem Ctx.position (h : Ctx N p F D) :
    Has N p F D (vtuOf p F.count).position (ePosition N p F D) 8 :=
  has_of h (List.getElem_mem _) rfl (show width "Float64" = some 8 by decide) h.totals.1

theorem Ctx.conn (h : Ctx N p F D) :
    Has N p F D (vtuOf p F.count).connectivity (eConn N p F D) (isz p F.count) :=
  has_of h (List.getElem_mem _) rfl (int_width p F.count) h.totals.2.2.2.2.2.2.2.1

theorem Ctx.offsets (h : Ctx N p F D) :
    Has N p F D (vtuOf p F.count).offsets (eOffsets N p F D) (isz p F.count) :=
  has_of h (List.getElem_mem _) rfl (int_width p F.count) h.totals.2.2.2.2.2.2.1

theorem Ctx.types (h : Ctx N p F D) :
    Has N p F D (vtuOf p F.count).types (eTypes N p F D) 1 :=
  has_of h (List.getElem_mem _) rfl (show width "UInt8" = some 1 by decide) (by
    have := h.totals.2.2.2.2.2.1
    change p.cells * 1 * F.count < _
    have e1 : p.cells * 4 * F.count = p.cells * F.count * 4 := by ring
    have e2 : p.cells * 1 * F.count = p.cells * F.count := by ring
    omega)

theorem Ctx.mpirank (h : Ctx N p F D) :
    Has N p F D (vtuOf p F.count).mpirank (eMpirank N p F D) 4 :=
  has_of h (List.getElem_mem _) rfl (show width "Int32" = some 4 by decide) h.totals.2.2.2.2.2.1

theorem Ctx.blockno (h : Ctx N p F D) :
    Has N p F D (vtuOf p F.count).blockno (eBlockno N p F D) 4 :=
  has_of h (List.getElem_mem _) rfl (show width "Int32" = some 4 by decide) h.totals.2.2.2.2.2.1

theorem Ctx.patchno (h : Ctx N p F D) :
    Has N p F D (vtuOf p F.count).patchno (ePatchno N p F D) (isz p F.count) :=
  has_of h (List.getElem_mem _) rfl (int_width p F.count) h.totals.2.2.2.2.2.2.1

theorem Ctx.meqn (h : Ctx N p F D) :
    Has N p F D (vtuOf p F.count).meqn (eMeqn N p F D) 4 :=
  has_of h (List.getElem_mem _) rfl (show width "Float32" = some 4 by decide) h.totals.2.2.1

theorem meqn_components (p : Params) (n : Nat) :
    (vtuOf p n).meqn.components.getD 1 = p.meqn := by
  change (if p.meqn = 1 then none else some p.meqn).getD 1 = p.meqn
  by_cases h : p.meqn = 1
  · rw [if_pos h, h]; rfl
  · rw [if_neg h]; rfl

/-- The arrays are complete. -/
theorem Ctx.complete (h : Ctx N p F D) :
    (vtuOf p F.count).Complete p (payload F (arrays N p F D)) where
  position := hasEntries h.position (W := 24) (M := p.points) rfl
    (by change p.points * 3 * 8 = _; ring) rfl
  connectivity := hasEntries h.conn (W := isz p F.count) (M := p.cells * p.corners)
    (Nat.mul_one _) rfl (by change p.cells * F.count * p.corners = _; ring)
  offsets := hasEntries h.offsets (W := isz p F.count) (M := p.cells) (Nat.mul_one _) rfl rfl
  types := hasEntries h.types (W := 1) (M := p.cells) rfl rfl rfl
  mpirank := hasEntries h.mpirank (W := 4) (M := p.cells) rfl rfl rfl
  blockno := hasEntries h.blockno (W := 4) (M := p.cells) rfl rfl rfl
  patchno := hasEntries h.patchno (W := isz p F.count) (M := p.cells) (Nat.mul_one _) rfl rfl
  meqn := hasEntries h.meqn (W := 4 * p.meqn) (M := p.cells)
    (by rw [meqn_components])
    (by change p.cells * p.meqn * 4 = _; ring) rfl

theorem patches_get {F : Forest R} {g : Nat} (hg : g < F.count) :
    ∃ x, (Forest.patches 0 F)[g]? = some x :=
  ⟨_, List.getElem?_eq_getElem (by rw [patches_length]; exact hg)⟩

/-- Entry `n` of the array of offsets. -/
theorem Ctx.read_offsets (h : Ctx N p F D) {n : Nat} (hn : n < p.cells * F.count) :
    intAt (payload F (arrays N p F D)) (vtuOf p F.count).offsets n
      = some (p.corners * (n + 1)) := by
  have hc : 0 < p.cells := by
    rcases Nat.eq_zero_or_pos p.cells with h0 | h0
    · rw [h0, Nat.zero_mul] at hn; omega
    · exact h0
  have hg : n / p.cells < F.count := (Nat.div_lt_iff_lt_mul hc).2 (by rw [Nat.mul_comm]; exact hn)
  obtain ⟨x, hx⟩ := patches_get hg
  have hm : n % p.cells < p.cells := Nat.mod_lt _ hc
  have hdiv : n / p.cells * p.cells + n % p.cells = n := by
    rw [Nat.mul_comm]; exact Nat.div_add_mod n p.cells
  have := slice_all_piece h.offsets.ok hx (L := List.range p.cells)
    (f := fun c => le (isz p F.count) (p.corners * (n / p.cells * p.cells + c + 1)))
    (M := p.cells) (W := isz p F.count) rfl (by simp) (fun y _ => le_length _ _) rfl
    (c := n % p.cells) (y := n % p.cells) (by simp [hm])
  unfold intAt
  rw [entry_eq h.offsets (Nat.mul_one _)]
  rw [hdiv] at this
  rw [this, Option.map_some]
  have h2 : p.corners * (n + 1) ≤ p.corners * (p.cells * F.count) :=
    Nat.mul_le_mul_left _ (by omega)
  rw [ofLe_le _ _ (int_bound h.fit (fun hf => by
    have h1 := (fits_iff hf).2
    have h3 : p.corners * (p.cells * F.count) ≤ p.corners * (p.cells * F.count + 1) :=
      Nat.mul_le_mul_left _ (by omega)
    omega) (by have := h.totals.2.2.2.2.2.2.2.2; omega))]

/-- The same number for all cells of a patch. -/
theorem read_same {a : DataArray} {e : FE R} {w v : Nat} (h : Has N p F D a e w)
    (hcomp : a.components = none) {g : Nat} {x : Nat × Patch R}
    (hx : (Forest.patches 0 F)[g]? = some x) (hE : e.E g x = dSame p w v)
    (hps : e.f.psize = p.cells * w) {c : Nat} (hc : c < p.cells) (hv : v < 256 ^ w) :
    intAt (payload F (arrays N p F D)) a (g * p.cells + c) = some v := by
  have := slice_all_piece h.ok hx (L := List.range p.cells) (f := fun _ => le w v)
    (M := p.cells) (W := w) hE (by simp) (fun y _ => le_length _ _) hps (c := c) (y := c)
    (by simp [hc])
  unfold intAt
  rw [entry_eq h (W := w) (by rw [hcomp]; exact Nat.mul_one _), this, Option.map_some,
    ofLe_le w v hv]

/-- The coordinates of a point. -/
theorem Ctx.read_point (h : Ctx N p F D) {g : Nat} {x : Nat × Patch R}
    (hx : (Forest.patches 0 F)[g]? = some x) {c : Nat × Nat × Nat} (h1 : c.1 < p.mx + 1)
    (h2 : c.2.1 < p.my + 1) (h3 : c.2.2 < pointLayers p) :
    entry (payload F (arrays N p F D)) (vtuOf p F.count).position (pointId p g c)
      = some (bytes3 N (pointAt N p x.1 x.2 c)) := by
  rw [entry_eq h.position (W := 24) rfl]
  exact slice_all_piece h.position.ok hx (L := box (p.mx + 1) (p.my + 1) (pointLayers p))
    (f := fun c => bytes3 N (pointAt N p x.1 x.2 c)) (M := p.points) (W := 24) rfl
    (by rw [box_length, ← points_eq]) (fun y _ => bytes3_length h.arith _)
    (by change p.points * 3 * 8 = _; ring) (box_get h1 h2 h3)

/-- The number of a cell within its patch. -/
theorem cell_lt {i j k : Nat} (hi : i < p.mx) (hj : j < p.my) (hk : k < p.layers) :
    i + p.mx * (j + p.my * k) < p.cells := by
  have := box_get hi hj hk
  by_contra hc
  rw [List.getElem?_eq_none (by rw [box_length, ← cells_eq]; omega)] at this
  exact absurd this (by simp)

/-- A corner of a cell. -/
theorem Ctx.read_corner (h : Ctx N p F D) {g : Nat} {x : Nat × Patch R}
    (hx : (Forest.patches 0 F)[g]? = some x) {i j k : Nat} (hi : i < p.mx) (hj : j < p.my)
    (hk : k < p.layers) {t : Nat} {q : Nat × Nat × Nat}
    (hq : (cornersOf p i j k)[t]? = some q) (ht : t < p.corners) :
    intAt (payload F (arrays N p F D)) (vtuOf p F.count).connectivity
      (p.corners * (g * p.cells + (i + p.mx * (j + p.my * k))) + t)
      = some (pointId p g q) := by
  have hE : (eConn N p F D).E g x
      = ((box p.mx p.my p.layers).flatMap fun c => cornersOf p c.1 c.2.1 c.2.2).flatMap
          (fun q => le (isz p F.count) (pointId p g q)) := by
    change dConn p (isz p F.count) g = _
    unfold dConn
    rw [List.flatMap_assoc]
  have hL : ((box p.mx p.my p.layers).flatMap fun c => cornersOf p c.1 c.2.1 c.2.2).length
      = p.cells * p.corners := by
    rw [List.length_flatMap]
    simp only [cornersOf_length]
    simp [box_length, ← cells_eq]
  have hget : ((box p.mx p.my p.layers).flatMap fun c => cornersOf p c.1 c.2.1 c.2.2)[
      (i + p.mx * (j + p.my * k)) * p.corners + t]? = some q := by
    rw [getElem_flatMap (fun c => cornersOf p c.1 c.2.1 c.2.2) p.corners _ _ t (i, j, k)
      (fun c _ => cornersOf_length p _ _ _) (box_get hi hj hk) ht]
    exact hq
  have := slice_all_piece h.conn.ok hx hE hL (fun y _ => le_length _ _) rfl hget
  unfold intAt
  rw [entry_eq h.conn (Nat.mul_one _)]
  rw [show p.corners * (g * p.cells + (i + p.mx * (j + p.my * k))) + t
    = g * (p.cells * p.corners) + ((i + p.mx * (j + p.my * k)) * p.corners + t) by ring]
  rw [this, Option.map_some]
  obtain ⟨h1, h2, h3⟩ := corner_lt hi hj hk (List.mem_of_getElem? hq)
  have hlt := pointId_lt (h.mem hx).1 h1 h2 h3
  rw [ofLe_le _ _ (int_bound h.fit (fun hf => by
    have := (fits_iff hf).1; omega) (by have := h.totals.2.2.2.1; omega))]

/-- The values of a cell. -/
theorem Ctx.read_values (h : Ctx N p F D) {g : Nat} {x : Nat × Patch R}
    (hx : (Forest.patches 0 F)[g]? = some x) {i j k : Nat} (hi : i < p.mx) (hj : j < p.my)
    (hk : k < p.layers) :
    entry (payload F (arrays N p F D)) (vtuOf p F.count).meqn
      (g * p.cells + (i + p.mx * (j + p.my * k)))
      = some ((List.range p.meqn).flatMap fun m => valueAt N p x.2 (i, j, k) m) := by
  have hpt := (h.mem hx).2.2
  rw [entry_eq h.meqn (W := p.meqn * 4) (by rw [meqn_components, Nat.mul_comm])]
  exact slice_all_piece h.meqn.ok hx (L := box p.mx p.my p.layers)
    (f := fun c => (List.range p.meqn).flatMap fun m => valueAt N p x.2 c m) (M := p.cells)
    (W := p.meqn * 4) rfl (by rw [box_length, ← cells_eq])
    (fun c hc => dValues_piece_length h.arith hpt hc)
    (by change p.cells * p.meqn * 4 = _; ring) (box_get hi hj hk)

theorem Ctx.read_cell (h : Ctx N p F D) {g : Nat} {x : Nat × Patch R}
    (hx : (Forest.patches 0 F)[g]? = some x) {r : Nat} (hr : r < D.mpisize)
    (hr1 : D.gfq r ≤ g) (hr2 : g < D.gfq (r + 1)) {i j k : Nat} (hi : i < p.mx) (hj : j < p.my)
    (hk : k < p.layers) :
    readCell (vtuOf p F.count) (payload F (arrays N p F D))
      (g * p.cells + i + p.mx * (j + p.my * k)) = some (cellOf N p r x.1 g x.2 i j k) := by
  have hcl := cell_lt hi hj hk
  have hmem := h.mem hx
  have hprocs := h.procs
  rw [Nat.add_assoc]
  generalize hc : i + p.mx * (j + p.my * k) = c at hcl
  have hn : g * p.cells + c < p.cells * F.count := by
    calc g * p.cells + c < g * p.cells + p.cells := by omega
      _ = p.cells * (g + 1) := by ring
      _ ≤ p.cells * F.count := Nat.mul_le_mul_left _ hmem.1
  have hfirst : firstCorner (vtuOf p F.count) (payload F (arrays N p F D)) (g * p.cells + c)
      = some (p.corners * (g * p.cells + c)) := by
    cases hz : g * p.cells + c with
    | zero => rfl
    | succ m => exact h.read_offsets (by omega)
  have hkind : kindOf p < 256 := by unfold kindOf; cases p.mz <;> simp
  have htypes := read_same h.types rfl hx (v := kindOf p) rfl rfl hcl (by simpa using hkind)
  have hrank := read_same h.mpirank rfl hx (v := r) (by
    change dSame p 4 (ownerOf D g) = _
    rw [ownerOf_eq D hr hr1 hr2]) rfl hcl (by norm_num; omega)
  have hblock := read_same h.blockno rfl hx (v := x.1) rfl rfl hcl (by
    have := hmem.2.1; simp only [intMax] at this; norm_num; omega)
  have hgp : g < p.points * F.count :=
    lt_of_lt_of_le hmem.1 (Nat.le_mul_of_pos_left _ (points_pos p))
  have hpatch := read_same h.patchno rfl hx (v := g) rfl rfl hcl
    (int_bound h.fit (fun hf => by have := (fits_iff hf).1; omega)
      (by have := h.totals.2.2.2.1; omega))
  have hvalues := h.read_values hx hi hj hk
  rw [hc] at hvalues
  have hcorners : (List.range (p.corners * (g * p.cells + c + 1)
      - p.corners * (g * p.cells + c))).mapM (fun t =>
        (intAt (payload F (arrays N p F D)) (vtuOf p F.count).connectivity
          (p.corners * (g * p.cells + c) + t)).bind fun id =>
            entry (payload F (arrays N p F D)) (vtuOf p F.count).position id)
      = some ((cornersOf p i j k).map fun q => bytes3 N (pointAt N p x.1 x.2 q)) := by
    rw [show p.corners * (g * p.cells + c + 1) - p.corners * (g * p.cells + c) = p.corners by
      rw [Nat.mul_succ]; omega]
    apply mapM_range
    · rw [List.length_map, cornersOf_length]
    · intro t ht
      have htl : t < (cornersOf p i j k).length := by rw [cornersOf_length]; exact ht
      have hq : (cornersOf p i j k)[t]? = some (cornersOf p i j k)[t] :=
        List.getElem?_eq_getElem htl
      have := h.read_corner hx hi hj hk hq ht
      rw [hc] at this
      obtain ⟨h1, h2, h3⟩ := corner_lt hi hj hk (List.mem_of_getElem? hq)
      rw [this, Option.bind_some, h.read_point hx h1 h2 h3, List.getElem?_map, hq]
      rfl
  unfold readCell
  rw [hfirst, Option.bind_some, h.read_offsets hn, Option.bind_some, hcorners, Option.bind_some,
    htypes, Option.bind_some, hrank, Option.bind_some, hblock, Option.bind_some, hpatch,
    Option.bind_some, hvalues, Option.bind_some, meqn_components]
  unfold cellOf
  congr 1
  have hv : chunks 4 p.meqn ((List.range p.meqn).flatMap fun m => valueAt N p x.2 (i, j, k) m)
      = (List.range p.meqn).filterMap fun m => (x.2.q[fortIndex p i j k m]?).map N.flt := by
    have hbox : (i, j, k) ∈ box p.mx p.my p.layers := List.mem_of_getElem? (box_get hi hj hk)
    have := chunks_flatMap (fun m => valueAt N p x.2 (i, j, k) m) 4 (List.range p.meqn)
      (fun m hm => valueAt_length h.arith hmem.2.2 hbox (List.mem_range.1 hm))
    rw [List.length_range] at this
    rw [this, ← List.filterMap_eq_map]
    apply List.filterMap_congr
    intro m hm
    obtain ⟨v, hv⟩ := value_some hmem.2.2 hi hj hk (List.mem_range.1 hm)
    simp [valueAt, hv]
  rw [hv]
  rfl

end Fclaw.Vtk
