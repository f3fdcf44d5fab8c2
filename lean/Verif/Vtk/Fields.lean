/-
The eight arrays: sizes, offsets, and the pieces that the callbacks deliver.
-/
import Verif.Vtk.Write

set_option autoImplicit false
set_option linter.unusedSimpArgs false
set_option linter.unusedVariables false

namespace Fclaw.Vtk

open Fclaw.ParFile (Byte File Outcome Distribution)

theorem ckInt_ok {n : Nat} (h : n ≤ intMax) : ckInt n = .ok n := by
  unfold ckInt; rw [if_pos h]

theorem children_eq (p : Params) : children p = p.corners := rfl

theorem corners_le (p : Params) : 4 ≤ p.corners ∧ p.corners ≤ 8 := by
  unfold Params.corners; cases p.mz <;> simp

/-- Whether 32 bits are enough for all numbers in the file. -/
def fits (p : Params) (n : Nat) : Bool :=
  decide (p.points * n ≤ intMax ∧ p.corners * (p.cells * n + 1) ≤ intMax)

/-- The size of the integers in the file. -/
def isz (p : Params) (n : Nat) : Nat := if fits p n then 4 else 8

theorem isz_cases (p : Params) (n : Nat) : isz p n = 4 ∨ isz p n = 8 := by
  unfold isz; split_ifs <;> simp

/-- The state that `setup` computes. -/
def stateOf (p : Params) (n : Nat) : State :=
  let w := isz p n
  let o1 := 8 + 0 + p.points * 3 * 8 * n
  let o2 := 8 + o1 + p.cells * p.corners * w * n
  let o3 := 8 + o2 + p.cells * w * n
  let o4 := 8 + o3 + p.cells * 1 * n
  let o5 := 8 + o4 + p.cells * 4 * n
  let o6 := 8 + o5 + p.cells * 4 * n
  let o7 := 8 + o6 + p.cells * w * n
  let o8 := 8 + o7 + p.cells * p.meqn * 4 * n
  { pointsPerPatch := p.points, cellsPerPatch := p.cells, fits32 := fits p n, intsize := w,
    globalNumPoints := p.points * n, globalNumCells := p.cells * n,
    psizePosition := p.points * 3 * 8, psizeConnectivity := p.cells * p.corners * w,
    psizeOffsets := p.cells * w, psizeTypes := p.cells * 1, psizeMpirank := p.cells * 4,
    psizeBlockno := p.cells * 4, psizePatchno := p.cells * w,
    psizeMeqn := p.cells * p.meqn * 4,
    offsetPosition := 0, offsetConnectivity := o1, offsetOffsets := o2, offsetTypes := o3,
    offsetMpirank := o4, offsetBlockno := o5, offsetPatchno := o6, offsetMeqn := o7,
    offsetEnd := o8 }

/-- The bounds on the sizes of the pieces. -/
theorem sizes {p : Params} {n : Nat} (h : Fits p n) (w : Nat) (hw : w = 4 ∨ w = 8) :
    p.points * 3 ≤ intMax ∧ p.points * 3 * 8 ≤ intMax ∧ p.cells * p.corners ≤ intMax ∧
    p.cells * p.corners * w ≤ intMax ∧ p.cells * w ≤ intMax ∧ p.cells ≤ intMax ∧
    p.cells * 4 ≤ intMax ∧ p.cells * p.meqn ≤ intMax ∧ p.cells * p.meqn * 4 ≤ intMax := by
  have h1 := h.points
  have h2 := h.cells
  have h3 := h.values
  have hc := corners_le p
  have h4 : p.cells * 4 ≤ p.cells * p.corners := Nat.mul_le_mul_left _ hc.1
  generalize p.cells * p.corners = a at *
  generalize p.cells * p.meqn = b at *
  simp only [intMax]
  rcases hw with rfl | rfl <;> omega

theorem setup_eq {p : Params} {n : Nat} (h : Fits p n) : setup p n = .ok (stateOf p n) := by
  obtain ⟨s1, s2, s3, s4, s5, s6, s7, s8, s9⟩ := sizes h (isz p n) (isz_cases p n)
  have hp : p.points = (match p.mz with
      | none => (p.mx + 1) * (p.my + 1) | some mz => (p.mx + 1) * (p.my + 1) * (mz + 1)) := by
    unfold Params.points; cases p.mz <;> simp
  have hc : p.cells = (match p.mz with
      | none => p.mx * p.my | some mz => p.mx * p.my * mz) := by
    unfold Params.cells; cases p.mz <;> simp
  have hle : (p.mx + 1) * (p.my + 1) ≤ p.points := by
    rw [hp]
    cases p.mz with
    | none => exact le_refl _
    | some mz => exact Nat.le_mul_of_pos_right _ (by omega)
  have hle2 : p.mx * p.my ≤ (p.mx + 1) * (p.my + 1) :=
    Nat.mul_le_mul (Nat.le_succ _) (Nat.le_succ _)
  have b1 : (p.mx + 1) * (p.my + 1) ≤ intMax := by omega
  have b2 : p.mx * p.my ≤ intMax := by omega
  have b3 : p.points ≤ intMax := by omega
  have e : isz p n = if decide (p.points * n ≤ intMax ∧ p.corners * (p.cells * n + 1) ≤ intMax)
      = true then 4 else 8 := rfl
  have e' : fits p n = decide (p.points * n ≤ intMax ∧ p.corners * (p.cells * n + 1) ≤ intMax) :=
    rfl
  rw [e] at s4 s5
  unfold setup
  rw [ckInt_ok b1, ckInt_ok b2]
  simp only [bind_ok]
  have m1 : ckInt (match p.mz with
      | none => (p.mx + 1) * (p.my + 1) | some mz => (p.mx + 1) * (p.my + 1) * (mz + 1))
      = .ok p.points := by rw [← hp, ckInt_ok b3]
  have m2 : ckInt (match p.mz with | none => p.mx * p.my | some mz => p.mx * p.my * mz)
      = .ok p.cells := by rw [← hc, ckInt_ok s6]
  refine Eq.trans (congrArg (fun x => Outcome.bind x _) m1) ?_
  simp only [bind_ok]
  refine Eq.trans (congrArg (fun x => Outcome.bind x _) m2) ?_
  simp only [bind_ok, children_eq, ckInt_ok s1, ckInt_ok s3, ckInt_ok s7, ckInt_ok s8]
  refine Eq.trans (congrArg (fun x => Outcome.bind x _) (ckInt_ok s4)) ?_
  simp only [bind_ok]
  refine Eq.trans (congrArg (fun x => Outcome.bind x _) (ckInt_ok s5)) ?_
  simp only [bind_ok]
  refine Eq.trans (congrArg (fun x => Outcome.bind x _) (ckInt_ok s5)) ?_
  rfl

/-! ### The pieces -/

/-- The three coordinates of a point. -/
def bytes3 {R : Type} (N : Arith R) (x : R × R × R) : List Byte :=
  N.dbl x.1 ++ N.dbl x.2.1 ++ N.dbl x.2.2

def dPosition {R : Type} (N : Arith R) (p : Params) (k : Nat) (pt : Patch R) : List Byte :=
  (box (p.mx + 1) (p.my + 1) (pointLayers p)).flatMap fun c => bytes3 N (pointAt N p k pt c)

/-- The number of a point in the file. -/
def pointId (p : Params) (g : Nat) (c : Nat × Nat × Nat) : Nat :=
  g * p.points + (c.1 + (p.mx + 1) * (c.2.1 + (p.my + 1) * c.2.2))

def dConn (p : Params) (w g : Nat) : List Byte :=
  (box p.mx p.my p.layers).flatMap fun c =>
    (cornersOf p c.1 c.2.1 c.2.2).flatMap fun q => le w (pointId p g q)

def dOffsets (p : Params) (w g : Nat) : List Byte :=
  (List.range p.cells).flatMap fun c => le w (p.corners * (g * p.cells + c + 1))

/-- The type of the cells. -/
def kindOf (p : Params) : Nat := match p.mz with | none => 9 | some _ => 12

/-- The same integer for all cells. -/
def dSame (p : Params) (w v : Nat) : List Byte :=
  (List.range p.cells).flatMap fun _ => le w v

def valueAt {R : Type} (N : Arith R) (p : Params) (pt : Patch R) (c : Nat × Nat × Nat) (m : Nat) :
    List Byte :=
  match pt.q[fortIndex p c.1 c.2.1 c.2.2 m]? with
  | some v => N.flt v
  | none => []

def dValues {R : Type} (N : Arith R) (p : Params) (pt : Patch R) : List Byte :=
  (box p.mx p.my p.layers).flatMap fun c => (List.range p.meqn).flatMap fun m => valueAt N p pt c m

theorem flatMap_length {α : Type} (l : List α) (f : α → List Byte) (P : Nat)
    (h : ∀ x ∈ l, (f x).length = P) : (l.flatMap f).length = l.length * P := by
  rw [List.length_flatMap]
  have : l.map (fun a => (f a).length) = List.replicate l.length P := by
    rw [List.eq_replicate_iff]
    refine ⟨by simp, ?_⟩
    intro b hb
    obtain ⟨a, ha, rfl⟩ := List.mem_map.1 hb
    exact h a ha
  rw [this]; simp

theorem bytes3_length {R : Type} {N : Arith R} (hN : N.Ok) (x : R × R × R) :
    (bytes3 N x).length = 24 := by
  simp [bytes3, hN.dbl]

theorem dPosition_length {R : Type} {N : Arith R} (hN : N.Ok) (p : Params) (k : Nat)
    (pt : Patch R) : (dPosition N p k pt).length = p.points * 3 * 8 := by
  unfold dPosition
  rw [flatMap_length _ _ 24 (fun x _ => bytes3_length hN _), box_length, ← points_eq]
  ring

theorem cornersOf_length (p : Params) (i j k : Nat) : (cornersOf p i j k).length = p.corners := by
  unfold cornersOf Params.corners; cases p.mz <;> rfl

theorem dConn_piece_length (p : Params) (w g : Nat) (c : Nat × Nat × Nat) :
    ((cornersOf p c.1 c.2.1 c.2.2).flatMap fun q => le w (pointId p g q)).length
      = p.corners * w := by
  rw [flatMap_length _ _ w (fun x _ => le_length _ _), cornersOf_length]

theorem dConn_length (p : Params) (w g : Nat) :
    (dConn p w g).length = p.cells * p.corners * w := by
  unfold dConn
  rw [flatMap_length _ _ (p.corners * w) (fun c _ => dConn_piece_length p w g c), box_length,
    ← cells_eq]
  ring

theorem dOffsets_length (p : Params) (w g : Nat) : (dOffsets p w g).length = p.cells * w := by
  unfold dOffsets
  rw [flatMap_length _ _ w (fun x _ => le_length _ _)]; simp

theorem dSame_length (p : Params) (w v : Nat) : (dSame p w v).length = p.cells * w := by
  unfold dSame
  rw [flatMap_length _ _ w (fun x _ => le_length _ _)]; simp

/-- The cells of a patch are inside of its array. -/
theorem fortIndex_lt {p : Params} {i j k m : Nat} (hi : i < p.mx) (hj : j < p.my)
    (hk : k < p.layers) (hm : m < p.meqn) :
    fortIndex p i j k m < (p.mx + 2 * p.mbc) * ((p.my + 2 * p.mbc)
      * ((match p.mz with | none => 1 | some mz => mz + 2 * p.mbc) * p.meqn)) := by
  have step : ∀ {a A b B : Nat}, a < A → b < B → a + A * b < A * B := by
    intro a A b B ha hb
    calc a + A * b < A + A * b := by omega
      _ = A * (b + 1) := by ring
      _ ≤ A * B := Nat.mul_le_mul_left _ hb
  unfold fortIndex
  unfold Params.layers at hk
  cases hz : p.mz with
  | none =>
    simp only [Nat.one_mul]
    exact step (by omega) (step (by omega) hm)
  | some mz =>
    rw [hz] at hk
    simp only at hk
    simp only
    exact step (by omega) (step (by omega) (step (by omega) hm))

theorem value_some {R : Type} {p : Params} {pt : Patch R} (hpt : pt.Ok p) {i j k m : Nat}
    (hi : i < p.mx) (hj : j < p.my) (hk : k < p.layers) (hm : m < p.meqn) :
    ∃ v, pt.q[fortIndex p i j k m]? = some v := by
  have := fortIndex_lt hi hj hk hm
  have hlt : fortIndex p i j k m < pt.q.length := by
    unfold Patch.Ok at hpt
    rw [hpt]; exact this
  exact ⟨_, List.getElem?_eq_getElem hlt⟩

theorem valueAt_length {R : Type} {N : Arith R} (hN : N.Ok) {p : Params} {pt : Patch R}
    (hpt : pt.Ok p) {c : Nat × Nat × Nat} {m : Nat}
    (hc : c ∈ box p.mx p.my p.layers) (hm : m < p.meqn) : (valueAt N p pt c m).length = 4 := by
  obtain ⟨h1, h2, h3⟩ := mem_box hc
  obtain ⟨v, hv⟩ := value_some hpt h1 h2 h3 hm
  unfold valueAt
  rw [hv]; exact hN.flt v

theorem dValues_piece_length {R : Type} {N : Arith R} (hN : N.Ok) {p : Params} {pt : Patch R}
    (hpt : pt.Ok p) {c : Nat × Nat × Nat} (hc : c ∈ box p.mx p.my p.layers) :
    ((List.range p.meqn).flatMap fun m => valueAt N p pt c m).length = p.meqn * 4 := by
  rw [flatMap_length _ _ 4 (fun m hm => valueAt_length hN hpt hc (List.mem_range.1 hm))]; simp

theorem dValues_length {R : Type} {N : Arith R} (hN : N.Ok) {p : Params} {pt : Patch R}
    (hpt : pt.Ok p) : (dValues N p pt).length = p.cells * p.meqn * 4 := by
  unfold dValues
  rw [flatMap_length _ _ (p.meqn * 4) (fun c hc => dValues_piece_length hN hpt hc), box_length,
    ← cells_eq]
  ring

/-! ### The callbacks -/

theorem coordinateCb_eq {R : Type} (N : Arith R) (p : Params) (k : Nat) (pt : Patch R) :
    coordinateCb N p k pt = dPosition N p k pt := by
  unfold coordinateCb dPosition
  rw [kPoints_eq, ← box_flatMap (p.mx + 1) (p.my + 1) (pointLayers p)
    (fun i j l => bytes3 N (pointAt N p k pt (i, j, l)))]
  simp only [bytes3, pointAt]
  cases hz : p.mz <;> cases hm : p.manifold <;> simp

theorem intEntry_ok {p : Params} {n v : Nat} (h : fits p n = true → v ≤ intMax) :
    intEntry (stateOf p n) v = .ok (le (isz p n) v) := by
  unfold intEntry
  change (if fits p n = true then _ else _) = _
  unfold isz
  by_cases hf : fits p n = true
  · rw [if_pos hf, if_pos hf, ckInt_ok (h hf)]; rfl
  · rw [if_neg hf, if_neg hf]

theorem fits_iff {p : Params} {n : Nat} (h : fits p n = true) :
    p.points * n ≤ intMax ∧ p.corners * (p.cells * n + 1) ≤ intMax := by
  simpa [fits] using h

theorem corner_lt {p : Params} {i j k : Nat} (hi : i < p.mx) (hj : j < p.my) (hk : k < p.layers)
    {q : Nat × Nat × Nat} (hq : q ∈ cornersOf p i j k) :
    q.1 < p.mx + 1 ∧ q.2.1 < p.my + 1 ∧ q.2.2 < pointLayers p := by
  unfold cornersOf at hq
  unfold Params.layers at hk
  unfold pointLayers
  cases hz : p.mz with
  | none =>
    rw [hz] at hq
    simp only [List.mem_cons, List.not_mem_nil, or_false] at hq
    rcases hq with rfl | rfl | rfl | rfl <;> simp only <;> omega
  | some mz =>
    rw [hz] at hq hk
    simp only at hk
    simp only [List.mem_cons, List.not_mem_nil, or_false] at hq
    rcases hq with rfl | rfl | rfl | rfl | rfl | rfl | rfl | rfl <;> simp only <;> omega

theorem local_lt {p : Params} {c : Nat × Nat × Nat} (h1 : c.1 < p.mx + 1) (h2 : c.2.1 < p.my + 1)
    (h3 : c.2.2 < pointLayers p) :
    c.1 + (p.mx + 1) * (c.2.1 + (p.my + 1) * c.2.2) < p.points := by
  have step : ∀ {a A b B : Nat}, a < A → b < B → a + A * b < A * B := by
    intro a A b B ha hb
    calc a + A * b < A + A * b := by omega
      _ = A * (b + 1) := by ring
      _ ≤ A * B := Nat.mul_le_mul_left _ hb
  rw [points_eq, Nat.mul_assoc]
  exact step h1 (step h2 h3)

theorem pointId_lt {p : Params} {n g : Nat} (hg : g < n) {c : Nat × Nat × Nat}
    (h1 : c.1 < p.mx + 1) (h2 : c.2.1 < p.my + 1) (h3 : c.2.2 < pointLayers p) :
    pointId p g c < p.points * n := by
  have := local_lt h1 h2 h3
  unfold pointId
  calc _ < g * p.points + p.points := by omega
    _ = p.points * (g + 1) := by ring
    _ ≤ p.points * n := Nat.mul_le_mul_left _ hg

theorem connectivityCb_eq {R : Type} {p : Params} {n : Nat} (d : Dom R) (b : LocalBlock R)
    (patchno g : Nat) (hg : gpno d b patchno = g) (hgn : g < n) :
    connectivityCb p (stateOf p n) d b patchno = .ok (dConn p (isz p n) g) := by
  unfold connectivityCb dConn
  rw [hg, kCells_eq]
  simp only
  rw [box_flatMap]
  have key : ∀ c ∈ box p.mx p.my p.layers,
      (let l := (stateOf p n).pointsPerPatch * g + c.1 + c.2.1 * (p.mx + 1)
        + (match p.mz with | none => 0 | some _ => c.2.2 * (p.my + 1) * (p.mx + 1))
       let up := (p.mx + 1) * (p.my + 1)
       [intEntry (stateOf p n) l, intEntry (stateOf p n) (l + 1),
        intEntry (stateOf p n) (l + (p.mx + 2)), intEntry (stateOf p n) (l + (p.mx + 1))]
      ++ (match p.mz with
          | none => []
          | some _ => [intEntry (stateOf p n) (l + up), intEntry (stateOf p n) (l + up + 1),
              intEntry (stateOf p n) (l + up + (p.mx + 2)),
              intEntry (stateOf p n) (l + up + (p.mx + 1))]))
      = ((cornersOf p c.1 c.2.1 c.2.2).map fun q => le (isz p n) (pointId p g q)).map
          Outcome.ok := by
    intro c hc
    obtain ⟨hi, hj, hk⟩ := mem_box hc
    have hE : ∀ q ∈ cornersOf p c.1 c.2.1 c.2.2,
        intEntry (stateOf p n) (pointId p g q) = .ok (le (isz p n) (pointId p g q)) := by
      intro q hq
      obtain ⟨h1, h2, h3⟩ := corner_lt hi hj hk hq
      exact intEntry_ok (fun hf => by
        have := pointId_lt hgn h1 h2 h3
        have := (fits_iff hf).1
        omega)
    rw [List.map_map]
    have : (cornersOf p c.1 c.2.1 c.2.2).map
        (Outcome.ok ∘ fun q => le (isz p n) (pointId p g q))
        = (cornersOf p c.1 c.2.1 c.2.2).map fun q => intEntry (stateOf p n) (pointId p g q) := by
      apply List.map_congr_left
      intro q hq
      rw [hE q hq]; rfl
    rw [this]
    have hpp : (stateOf p n).pointsPerPatch = p.points := rfl
    unfold cornersOf pointId
    simp only [hpp]
    cases hz : p.mz with
    | none =>
      simp only [List.map_cons, List.map_nil, List.append_nil, List.cons.injEq, and_true]
      refine ⟨?_, ?_, ?_, ?_⟩ <;> (congr 1; ring)
    | some mz =>
      simp only [List.map_cons, List.map_nil, List.cons_append, List.nil_append, List.cons.injEq,
        and_true]
      refine ⟨?_, ?_, ?_, ?_, ?_, ?_, ?_, ?_⟩ <;> (congr 1; ring)
  refine Eq.trans (congrArg cat (List.flatMap_congr key)) ?_
  rw [← List.map_flatMap, cat_ok]
  congr 1
  simp only [List.flatMap_def, List.flatten_flatten, List.map_map]
  congr 1

theorem range_flatMap_succ {β : Type} (c : Nat) (f : Nat → List β) :
    (List.range (c + 1)).flatMap f = f 0 ++ (List.range c).flatMap fun i => f (i + 1) := by
  rw [List.range_succ_eq_map, List.flatMap_cons, List.flatMap_map]

theorem offsetsLoop_eq {p : Params} {n : Nat} (c : Nat) : ∀ k,
    (fits p n = true → k + p.corners * c ≤ intMax) →
    offsetsLoop p (stateOf p n) k c
      = .ok ((List.range c).flatMap fun i => le (isz p n) (k + p.corners * i)) := by
  induction c with
  | zero => intro k _; rfl
  | succ c ih =>
    intro k hk
    have hk' : fits p n = true → k + p.corners + p.corners * c ≤ intMax := by
      intro hf
      have := hk hf
      rw [Nat.mul_succ] at this
      omega
    have hif : (if (stateOf p n).fits32 = true then ckInt (k + children p)
        else .ok (k + children p)) = .ok (k + p.corners) := by
      change (if fits p n = true then ckInt (k + p.corners) else .ok (k + p.corners)) = _
      by_cases hf : fits p n = true
      · rw [if_pos hf, ckInt_ok (by have := hk' hf; omega)]
      · rw [if_neg hf]
    unfold offsetsLoop
    rw [intEntry_ok (fun hf => by have := hk hf; omega), bind_ok, hif, bind_ok, ih _ hk', bind_ok,
      range_flatMap_succ]
    congr 2
    apply List.flatMap_congr
    intro i _
    congr 1
    ring

theorem offsetsCb_eq {R : Type} {p : Params} {n : Nat} (d : Dom R) (b : LocalBlock R)
    (patchno g : Nat) (hg : gpno d b patchno = g) (hgn : g < n) :
    offsetsCb p (stateOf p n) d b patchno = .ok (dOffsets p (isz p n) g) := by
  have hb : fits p n = true →
      p.corners * (p.cells * g + 1) + p.corners * p.cells ≤ intMax := by
    intro hf
    have h1 := (fits_iff hf).2
    have h2 : p.cells * (g + 1) ≤ p.cells * n := Nat.mul_le_mul_left _ hgn
    have h3 : p.corners * (p.cells * (g + 1) + 1) ≤ p.corners * (p.cells * n + 1) :=
      Nat.mul_le_mul_left _ (by omega)
    have h4 : p.corners * (p.cells * g + 1) + p.corners * p.cells
        = p.corners * (p.cells * (g + 1) + 1) := by ring
    omega
  unfold offsetsCb
  rw [hg]
  change (if fits p n = true then ckInt (p.corners * (p.cells * g + 1))
    else .ok (p.corners * (p.cells * g + 1))).bind
    (fun k => offsetsLoop p (stateOf p n) k p.cells) = _
  have hif : (if fits p n = true then ckInt (p.corners * (p.cells * g + 1))
      else .ok (p.corners * (p.cells * g + 1))) = .ok (p.corners * (p.cells * g + 1)) := by
    by_cases hf : fits p n = true
    · rw [if_pos hf, ckInt_ok (by have := hb hf; omega)]
    · rw [if_neg hf]
  rw [hif, bind_ok, offsetsLoop_eq _ _ hb]
  unfold dOffsets
  congr 1
  apply List.flatMap_congr
  intro i _
  congr 1
  ring

theorem replicate_flatten {β : Type} (c : Nat) (x : List β) :
    (List.replicate c x).flatten = (List.range c).flatMap fun _ => x := by
  induction c with
  | zero => rfl
  | succ c ih => rw [List.replicate_succ, List.flatten_cons, ih, range_flatMap_succ]

theorem typesCb_eq (p : Params) (n : Nat) : typesCb p (stateOf p n) = dSame p 1 (kindOf p) := by
  unfold typesCb dSame kindOf
  change List.replicate p.cells _ = _
  have : ∀ (c : Nat) (b : Byte), List.replicate c b = (List.range c).flatMap fun _ => [b] := by
    intro c b
    rw [← replicate_flatten]
    induction c with
    | zero => rfl
    | succ c ih => rw [List.replicate_succ, List.replicate_succ, List.flatten_cons, ← ih]; rfl
  rw [this]
  apply List.flatMap_congr
  intro _ _
  cases p.mz <;> rfl

theorem sameIntCb_eq (p : Params) (n v : Nat) (hv : v ≤ intMax) :
    sameIntCb (stateOf p n) v = .ok (dSame p 4 v) := by
  unfold sameIntCb dSame
  rw [ckInt_ok hv, bind_ok, replicate_flatten]
  rfl

theorem patchnoCb_eq {R : Type} {p : Params} {n : Nat} (hpts : 0 < p.points) (d : Dom R)
    (b : LocalBlock R) (patchno g : Nat) (hg : gpno d b patchno = g) (hgn : g < n) :
    patchnoCb (stateOf p n) d b patchno = .ok (dSame p (isz p n) g) := by
  unfold patchnoCb dSame
  rw [hg, intEntry_ok (fun hf => by
    have h1 := (fits_iff hf).1
    have h2 : n ≤ p.points * n := Nat.le_mul_of_pos_left _ hpts
    omega), bind_ok, replicate_flatten]
  rfl

theorem points_pos (p : Params) : 0 < p.points := by
  rw [points_eq]
  have : 0 < pointLayers p := by unfold pointLayers; cases p.mz <;> simp
  positivity

theorem valueCb_eq {R : Type} (N : Arith R) {p : Params} {pt : Patch R} (hpt : pt.Ok p) :
    valueCb N p pt = .ok (dValues N p pt) := by
  unfold valueCb dValues
  rw [kCells_eq]
  simp only
  rw [box_flatMap]
  have key : ∀ c ∈ box p.mx p.my p.layers,
      ((List.range p.meqn).map fun m =>
        (match pt.q[(match p.mz with
            | none => (m * (p.my + 2 * p.mbc) + c.2.1 + p.mbc) * (p.mx + 2 * p.mbc) + c.1 + p.mbc
            | some mz => m * (mz + 2 * p.mbc) * (p.my + 2 * p.mbc) * (p.mx + 2 * p.mbc)
                + (c.2.2 + p.mbc) * (p.my + 2 * p.mbc) * (p.mx + 2 * p.mbc)
                + (c.2.1 + p.mbc) * (p.mx + 2 * p.mbc) + c.1 + p.mbc : Nat)]? with
          | some v => Outcome.ok (N.flt v)
          | none => .ub))
      = ((List.range p.meqn).map fun m => valueAt N p pt c m).map Outcome.ok := by
    intro c hc
    rw [List.map_map]
    apply List.map_congr_left
    intro m hm
    obtain ⟨hi, hj, hk⟩ := mem_box hc
    obtain ⟨v, hv⟩ := value_some hpt hi hj hk (List.mem_range.1 hm)
    have hidx : (match p.mz with
        | none => (m * (p.my + 2 * p.mbc) + c.2.1 + p.mbc) * (p.mx + 2 * p.mbc) + c.1 + p.mbc
        | some mz => m * (mz + 2 * p.mbc) * (p.my + 2 * p.mbc) * (p.mx + 2 * p.mbc)
            + (c.2.2 + p.mbc) * (p.my + 2 * p.mbc) * (p.mx + 2 * p.mbc)
            + (c.2.1 + p.mbc) * (p.mx + 2 * p.mbc) + c.1 + p.mbc : Nat)
        = fortIndex p c.1 c.2.1 c.2.2 m := by
      unfold fortIndex
      cases p.mz <;> simp only <;> ring
    rw [hidx]
    simp only [Function.comp, valueAt]
    rw [hv]
  refine Eq.trans (congrArg cat (List.flatMap_congr key)) ?_
  rw [← List.map_flatMap, cat_ok]
  congr 1
  simp only [List.flatMap_def, List.flatten_flatten, List.map_map]
  congr 1

/-! ### The arrays of the file -/

/-- The process that a patch belongs to. -/
def ownerOf {n : Nat} (D : Distribution n) (g : Nat) : Nat :=
  ((List.range D.mpisize).find? fun r => decide (D.gfq r ≤ g ∧ g < D.gfq (r + 1))).getD 0

theorem ownerOf_eq {n : Nat} (D : Distribution n) {g r : Nat} (hr : r < D.mpisize)
    (h1 : D.gfq r ≤ g) (h2 : g < D.gfq (r + 1)) : ownerOf D g = r := by
  unfold ownerOf
  cases hf : (List.range D.mpisize).find? fun r => decide (D.gfq r ≤ g ∧ g < D.gfq (r + 1)) with
  | none =>
    have := List.find?_eq_none.1 hf r (List.mem_range.2 hr)
    simp [h1, h2] at this
  | some t =>
    have ht := List.find?_some hf
    simp only [decide_eq_true_eq] at ht
    have htm := List.mem_range.1 (List.mem_of_find?_eq_some hf)
    simp only [Option.getD_some]
    by_contra hne
    rcases Nat.lt_or_gt_of_ne hne with hlt | hgt
    · have := gfq_mono D (r := t + 1) (t := r) (by omega) (by omega); omega
    · have := gfq_mono D (r := r + 1) (t := t) (by omega) (by omega); omega

/-- The eight arrays with their pieces. -/
def arrays {R : Type} (N : Arith R) (p : Params) (F : Forest R) (D : Distribution F.count) :
    List (FE R) :=
  let n := F.count
  let s := stateOf p n
  [ ⟨⟨s.offsetPosition, s.psizePosition, fun _ blockno _ _ pt => .ok (coordinateCb N p blockno pt)⟩,
      fun _ x => dPosition N p x.1 x.2⟩,
    ⟨⟨s.offsetConnectivity, s.psizeConnectivity, fun d _ b patchno _ => connectivityCb p s d b patchno⟩,
      fun g _ => dConn p (isz p n) g⟩,
    ⟨⟨s.offsetOffsets, s.psizeOffsets, fun d _ b patchno _ => offsetsCb p s d b patchno⟩,
      fun g _ => dOffsets p (isz p n) g⟩,
    ⟨⟨s.offsetTypes, s.psizeTypes, fun _ _ _ _ _ => .ok (typesCb p s)⟩,
      fun _ _ => dSame p 1 (kindOf p)⟩,
    ⟨⟨s.offsetMpirank, s.psizeMpirank, fun d _ _ _ _ => sameIntCb s d.mpirank⟩,
      fun g _ => dSame p 4 (ownerOf D g)⟩,
    ⟨⟨s.offsetBlockno, s.psizeBlockno, fun _ blockno _ _ _ => sameIntCb s blockno⟩,
      fun _ x => dSame p 4 x.1⟩,
    ⟨⟨s.offsetPatchno, s.psizePatchno, fun d _ b patchno _ => patchnoCb s d b patchno⟩,
      fun g _ => dSame p (isz p n) g⟩,
    ⟨⟨s.offsetMeqn, s.psizeMeqn, fun _ _ _ _ pt => valueCb N p pt⟩,
      fun _ x => dValues N p x.2⟩ ]

theorem arrays_fields {R : Type} (N : Arith R) (p : Params) (F : Forest R)
    (D : Distribution F.count) :
    (arrays N p F D).map FE.f = fields N p (stateOf p F.count) := rfl

theorem arrays_ok {R : Type} {N : Arith R} (hN : N.Ok) {p : Params} {F : Forest R}
    (D : Distribution F.count) (hfit : Fits p F.count) (hq : ∀ blk ∈ F, ∀ pt ∈ blk, pt.Ok p)
    (hP : D.mpisize ≤ 2147483648) (hB : F.length ≤ 2147483648) :
    ∀ e ∈ arrays N p F D, e.Ok F D := by
  obtain ⟨s1, s2, s3, s4, s5, s6, s7, s8, s9⟩ := sizes hfit (isz p F.count) (isz_cases _ _)
  have hmem : ∀ (g : Nat) (x : Nat × Patch R), (Forest.patches 0 F)[g]? = some x →
      g < F.count ∧ x.1 ≤ intMax ∧ x.2.Ok p := by
    intro g x hx
    have hg : g < F.count := by
      rw [← patches_length F 0]
      by_contra hc
      rw [List.getElem?_eq_none (by omega)] at hx
      exact absurd hx (by simp)
    obtain ⟨h1, h2, blk, hblk, hpt⟩ := patches_mem F 0 x (List.mem_of_getElem? hx)
    exact ⟨hg, by simp only [intMax]; omega, hq blk hblk x.2 hpt⟩
  intro e he
  simp only [arrays, List.mem_cons, List.not_mem_nil, or_false] at he
  rcases he with rfl | rfl | rfl | rfl | rfl | rfl | rfl | rfl
  · exact ⟨fun r _ lb j g x _ _ _ _ => by simp only [coordinateCb_eq],
      fun g x _ => dPosition_length hN p _ _, s2⟩
  · exact ⟨fun r _ lb j g x hg _ _ hx => connectivityCb_eq _ _ _ _ hg (hmem g x hx).1,
      fun g x _ => dConn_length p _ g, s4⟩
  · exact ⟨fun r _ lb j g x hg _ _ hx => offsetsCb_eq _ _ _ _ hg (hmem g x hx).1,
      fun g x _ => dOffsets_length p _ g, s5⟩
  · exact ⟨fun r _ lb j g x hg _ _ hx => by simp only [typesCb_eq],
      fun g x _ => dSame_length p _ _, by change p.cells * 1 ≤ intMax; omega⟩
  · refine ⟨fun r hr lb j g x hg h1 h2 hx => ?_, fun g x _ => dSame_length p _ _, s7⟩
    simp only
    rw [ownerOf_eq D hr h1 h2]
    exact sameIntCb_eq p _ r (by simp only [intMax]; omega)
  · exact ⟨fun r _ lb j g x hg _ _ hx => sameIntCb_eq p _ _ (hmem g x hx).2.1,
      fun g x _ => dSame_length p _ _, s7⟩
  · exact ⟨fun r _ lb j g x hg _ _ hx => patchnoCb_eq (points_pos p) _ _ _ _ hg (hmem g x hx).1,
      fun g x _ => dSame_length p _ _, s5⟩
  · exact ⟨fun r _ lb j g x hg _ _ hx => valueCb_eq N (hmem g x hx).2.2,
      fun g x hx => dValues_length hN (hmem g x hx).2.2, s9⟩

theorem arrays_chained {R : Type} (N : Arith R) (p : Params) (F : Forest R)
    (D : Distribution F.count) : Chained F.count 0 (arrays N p F D) := by
  simp only [arrays, Chained, stateOf, and_true]
  refine ⟨trivial, ?_, ?_, ?_, ?_, ?_, ?_, ?_⟩ <;> omega

theorem arrays_end {R : Type} (N : Arith R) (p : Params) (F : Forest R)
    (D : Distribution F.count) : (stateOf p F.count).offsetEnd
      = ((arrays N p F D).map fun e => 8 + e.f.psize * F.count).sum := by
  simp only [arrays, stateOf, List.map_cons, List.map_nil, List.sum_cons, List.sum_nil]
  omega

/-! ### The header -/

/-- The header of the file. -/
def vtuOf (p : Params) (n : Nat) : Vtu :=
  let s := stateOf p n
  let int := if fits p n then "Int32" else "Int64"
  { points := p.points * n
    cells := p.cells * n
    position := ⟨"Float64", "Position", some 3, s.offsetPosition⟩
    connectivity := ⟨int, "connectivity", none, s.offsetConnectivity⟩
    offsets := ⟨int, "offsets", none, s.offsetOffsets⟩
    types := ⟨"UInt8", "types", none, s.offsetTypes⟩
    mpirank := ⟨"Int32", "mpirank", none, s.offsetMpirank⟩
    blockno := ⟨"Int32", "blockno", none, s.offsetBlockno⟩
    patchno := ⟨int, "patchno", none, s.offsetPatchno⟩
    meqn := ⟨"Float32", "meqn", if p.meqn = 1 then none else some p.meqn, s.offsetMeqn⟩ }

end Fclaw.Vtk
