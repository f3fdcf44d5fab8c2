import Verif.FaceNbr.Spec
import Mathlib.Tactic.Ring
/-
Properties C12 (face neighbours, face swap) and C58 (corner neighbours).
-/
set_option autoImplicit false
namespace Fclaw.FaceNbr

theorem encodeNeighbor_where (M : Mesh) (h : M.Ok) (w : Where) (hw : w.exists M) :
    encodeNeighbor M (w.id M) = some ((w.proc M : Int), (w.block M : Int), (w.patchno : Int)) := by
  cases w with
  | here b p =>
    have h1 := h.inRange b p hw
    have h2 := h.tree b p hw
    simp only [encodeNeighbor, Where.id, h2]
    rw [if_neg (by omega), if_pos h1, if_pos ⟨by omega, by simp only [Where.exists] at hw; omega⟩]
    simp [Where.proc, Where.block, Where.patchno]
  | ghost g =>
    simp only [Where.exists] at hw
    rw [show (Where.ghost g).id M = M.localNum + g from rfl]
    simp only [encodeNeighbor]
    rw [if_neg (by omega), if_neg (by omega)]
    simp [Where.proc, Where.block, Where.patchno]

theorem halfLoop_eq (M : Mesh) (h : M.Ok) (qth : Nat → Nat) (ws : List Where) (k : Nat)
    (prev : Option Int)
    (hex : ∀ w ∈ ws, w.exists M)
    (hid : ∀ (i : Nat) (w : Where), ws[i]? = some w → qth (k + i) = w.id M)
    (hblk : ∀ w ∈ ws, ∀ w' ∈ ws, w.block M = w'.block M)
    (hprev : prev = none ∨ ∀ w ∈ ws, prev = some (w.block M : Int)) :
    halfLoop M qth ws.length k prev =
      some (ws.map (fun w => (w.proc M : Int)), ws.map (fun w => (w.patchno : Int)),
        match ws.head? with | none => prev | some w => some (w.block M : Int)) := by
  induction ws generalizing k prev with
  | nil => rfl
  | cons w ws ih =>
    simp only [List.length_cons, halfLoop]
    have h0 := hid 0 w (by simp)
    rw [Nat.add_zero] at h0
    rw [h0, encodeNeighbor_where M h w (hex w (by simp))]
    simp only
    have hp : prev = none ∨ prev = some (w.block M : Int) := by
      rcases hprev with hp | hp
      · exact Or.inl hp
      · exact Or.inr (hp w (by simp))
    rw [if_pos hp]
    rw [ih (k + 1) (some (w.block M : Int)) (fun x hx => hex x (by simp [hx]))
      (by intro i x hx; rw [← hid (i + 1) x (by simpa using hx)]; congr 1; omega)
      (fun x hx y hy => hblk x (by simp [hx]) y (by simp [hy]))
      (Or.inr (by intro x hx; rw [hblk x (by simp [hx]) w (by simp)]))]
    simp only [List.map_cons, List.head?_cons]
    congr 3
    cases hws : ws with
    | nil => rfl
    | cons y ys =>
      simp only [List.head?_cons]
      rw [hblk y (by simp [hws]) w (by simp)]

/-- C12: whatever lies behind a face, the query answers exactly what the mesh encodes. Valid for
any dimension with at least two subfaces per face, in particular 2D and 3D. -/
theorem C12_face_neighbors (D : Dim) (hhalf : 2 ≤ D.half) (M : Mesh) (h : M.Ok)
    (b p f : Nat) (hp : p < M.num b) (hf : f < D.faces) (n : Neighbor)
    (hn : Encodes D M (M.before b + p) f n) :
    faceNeighbors D M b p f = some (answer D M b p f n) := by
  have hleaf := h.inRange b p hp
  have hno : D.numOrient = D.faces * D.half := rfl
  unfold faceNeighbors
  rw [if_neg (by omega)]
  simp only []
  rw [if_neg (by omega)]
  have hpos : 0 < D.faces * D.half := Nat.mul_pos (by omega) (by omega)
  have code : ∀ face orient, face < D.faces → orient < D.half →
      orient * D.faces + face < D.faces * D.half := by
    intro face orient h1 h2
    have : (orient + 1) * D.faces ≤ D.half * D.faces := Nat.mul_le_mul_right _ h2
    rw [Nat.succ_mul, Nat.mul_comm D.half] at this
    omega
  cases n with
  | boundary =>
    obtain ⟨h1, h2⟩ := hn
    rw [if_pos ⟨h1, h2⟩]; rfl
  | half ws face orient =>
    obtain ⟨hlen, hface, hor, hex, hblk, hq, hids⟩ := hn
    have hc := code face orient hface hor
    have hneg : M.quadToFace (M.before b + p) f < 0 := by
      rw [hq]
      have : ((orient * D.faces + face : Nat) : Int) < ((D.faces * D.half : Nat) : Int) := by exact_mod_cast hc
      push_cast at this; omega
    rw [if_neg (by rintro ⟨_, h2⟩; omega), if_pos hneg]
    have hl := halfLoop_eq M h (M.quadToHalf (M.quadToQuad (M.before b + p) f)) ws 0 none hex
      (by intro i w hw; rw [Nat.zero_add]; exact hids i w hw) hblk (Or.inl rfl)
    rw [hlen] at hl
    cases ws with
    | nil => simp only [List.length_nil] at hlen; omega
    | cons w ws =>
      simp only [List.head?_cons] at hl
      rw [hl]
      simp only
      have hsum : M.quadToFace (M.before b + p) f + (D.numOrient : Int) = ((orient * D.faces + face : Nat) : Int) := by
        rw [hq, hno]; push_cast; omega
      rw [hsum, if_neg (by omega)]
      simp [answer]
  | same w face orient =>
    obtain ⟨hface, hor, hex, hne, hqq, hq⟩ := hn
    have hc := code face orient hface hor
    have hq' : M.quadToFace (M.before b + p) f = ((orient * D.faces + face : Nat) : Int) := by
      rw [hq]; push_cast; rfl
    rw [hqq, hq']
    rw [if_neg (by rintro ⟨h1, h2⟩; exact hne ⟨h1, by omega⟩), if_neg (by omega)]
    rw [encodeNeighbor_where M h w hex]
    simp only
    rw [if_pos (by rw [hno]; exact_mod_cast hc)]
    rfl
  | double w face orient sub =>
    obtain ⟨hface, hor, hsub, hex, hqq, hq⟩ := hn
    have hc := code face orient hface hor
    have hfle : D.faces ≤ D.faces * D.half := Nat.le_mul_of_pos_right _ (by omega)
    have hq' : M.quadToFace (M.before b + p) f
        = (((orient * D.faces + face) + (D.faces * D.half) * (sub + 1) : Nat) : Int) := by
      rw [hq]; push_cast
      rw [Int.mul_add, Int.mul_comm (sub : Int)]
      omega
    have hbig : D.faces * D.half ≤ (D.faces * D.half) * (sub + 1) := Nat.le_mul_of_pos_right _ (by omega)
    rw [hqq, hq']
    rw [if_neg (by rintro ⟨_, h2⟩; omega), if_neg (by omega)]
    rw [encodeNeighbor_where M h w hex]
    simp only
    rw [if_neg (by rw [hno]; omega)]
    have hdiv : ((orient * D.faces + face) + (D.faces * D.half) * (sub + 1)) / (D.faces * D.half) = sub + 1 := by
      rw [Nat.add_mul_div_left _ _ hpos, Nat.div_eq_of_lt hc]; omega
    have hmod : ((orient * D.faces + face) + (D.faces * D.half) * (sub + 1)) % (D.faces * D.half)
        = orient * D.faces + face := by
      rw [Nat.add_mul_mod_self_left, Nat.mod_eq_of_lt hc]
    rw [hno, ← Int.natCast_ediv, ← Int.natCast_emod, hdiv, hmod]
    have e1 : ((sub + 1 : Nat) : Int) - 1 = (sub : Int) := by omega
    rw [e1, if_pos ⟨by omega, by exact_mod_cast hsub⟩]
    have e2 : (List.replicate (D.half - 1) (-1 : Int)).tail = List.replicate (D.half - 2) (-1) := by
      rw [List.tail_replicate]; congr 1
    rw [e2]; rfl

/-- C12: the list of boundary faces marks exactly the faces with no neighbour. -/
theorem C12_boundary_type (D : Dim) (hhalf : 2 ≤ D.half) (M : Mesh) (h : M.Ok) (b p : Nat)
    (hp : p < M.num b) (nbr : Nat → Neighbor)
    (hn : ∀ f, f < D.faces → Encodes D M (M.before b + p) f (nbr f)) (f : Nat) (hf : f < D.faces) :
    (boundaryType D M b p)[f]? = some true ↔ nbr f = .boundary := by
  have hget : (boundaryType D M b p)[f]? = some (decide (M.quadToQuad (M.before b + p) f = M.before b + p
      ∧ M.quadToFace (M.before b + p) f = f)) := by
    simp only [boundaryType]
    rw [List.getElem?_map, List.getElem?_range hf]
    rfl
  rw [hget, Option.some.injEq, decide_eq_true_iff]
  constructor
  · intro hb
    have h1 := C12_face_neighbors D hhalf M h b p f hp hf (nbr f) (hn f hf)
    have h2 := C12_face_neighbors D hhalf M h b p f hp hf .boundary hb
    rw [h1] at h2
    cases hx : nbr f with
    | boundary => rfl
    | half _ _ _ => rw [hx] at h2; simp [answer] at h2
    | same _ _ _ => rw [hx] at h2; simp [answer] at h2
    | double _ _ _ _ => rw [hx] at h2; simp [answer] at h2
  · intro hb
    have := hn f hf
    rw [hb] at this
    exact this

/-- C12: `normal_match` is true exactly if this face and the neighbour's face have different
parity, that is, if the normal coordinate runs in the same direction on both sides. -/
theorem C12_normal_match (D : Dim) (heven : D.faces % 2 = 0) (M : Mesh) (b p f : Nat) (n : Neighbor)
    (hn : Encodes D M (M.before b + p) f n) (face : Nat)
    (hface : match n with
      | .boundary => face = f
      | .half _ g _ => face = g
      | .same _ g _ => face = g
      | .double _ g _ _ => face = g) :
    normalMatch M b p f = 1 ↔ f % 2 ≠ face % 2 := by
  obtain ⟨c, hc⟩ : ∃ c, D.faces = 2 * c := ⟨D.faces / 2, by omega⟩
  have key : ∃ z : Int, M.quadToFace (M.before b + p) f = face + 2 * z := by
    cases n with
    | boundary => exact ⟨0, by simp only at hface; rw [hn.2, hface]; omega⟩
    | half ws g o =>
      obtain ⟨_, _, _, _, _, hq, _⟩ := hn
      simp only at hface
      subst hface
      refine ⟨o * c - c * D.half, ?_⟩
      rw [hq, hc]; push_cast
      rw [Int.mul_sub, Int.mul_left_comm 2, Int.mul_assoc 2]
      omega
    | same w g o =>
      obtain ⟨_, _, _, _, _, hq⟩ := hn
      simp only at hface
      subst hface
      refine ⟨o * c, ?_⟩
      rw [hq, hc]; push_cast
      rw [Int.mul_left_comm 2]
      omega
    | double w g o s =>
      obtain ⟨_, _, _, _, _, hq⟩ := hn
      simp only at hface
      subst hface
      refine ⟨c * D.half + s * (c * D.half) + o * c, ?_⟩
      rw [hq, hc]; push_cast
      ring
  obtain ⟨z, hz⟩ := key
  unfold normalMatch
  rw [hz]
  omega

/-- C12: swapping face and remote face is defined on all valid pairs, yields a valid pair with the
roles of the two faces exchanged and the same orientation, and is its own inverse. -/
theorem C12_face_swap (D : Dim) (face rface orient : Nat) (h1 : face < D.faces)
    (h2 : rface < D.faces) (h3 : orient < D.half) :
    faceSwap D (face, rface + D.faces * orient) = some (rface, face + D.faces * orient) ∧
    ((faceSwap D (face, rface + D.faces * orient)).bind (faceSwap D)
      = some (face, rface + D.faces * orient)) := by
  have key : ∀ a r, a < D.faces → r < D.faces →
      faceSwap D (a, r + D.faces * orient) = some (r, a + D.faces * orient) := by
    intro a r ha hr
    have hle : D.faces * (orient + 1) ≤ D.faces * D.half := Nat.mul_le_mul_left _ h3
    rw [Nat.mul_succ, Nat.mul_comm D.faces D.half] at hle
    have hd : (r + D.faces * orient) / D.faces = orient := by
      rw [Nat.add_mul_div_left _ _ (by omega), Nat.div_eq_of_lt hr]; omega
    have hm : (r + D.faces * orient) % D.faces = r := by
      rw [Nat.add_mul_mod_self_left, Nat.mod_eq_of_lt hr]
    simp only [faceSwap, hd, hm]
    rw [if_pos ⟨ha, by omega, h3⟩, if_pos ⟨hr, by omega⟩]
  constructor
  · exact key _ _ h1 h2
  · rw [key _ _ h1 h2]
    exact key _ _ h2 h1

/-- Every valid pair has the form used in `C12_face_swap`. -/
theorem C12_face_swap_all (D : Dim) (f r : Nat) (hf : f < D.faces) (hr : r < D.half * D.faces) :
    (faceSwap D (f, r)).bind (faceSwap D) = some (f, r) := by
  have h := (C12_face_swap D f (r % D.faces) (r / D.faces) hf (Nat.mod_lt _ (by omega))
    (by rw [Nat.div_lt_iff_lt_mul (by omega)]; exact hr)).2
  rw [Nat.mod_add_div] at h
  exact h

theorem relOfLevels_eq {mine other : Int} {r : Rel} (h : SizeRel mine other r) :
    relOfLevels other mine = some r := by
  cases h with
  | same => simp [relOfLevels]
  | half => simp only [relOfLevels]; rw [if_neg (by omega), if_neg (by omega), if_pos (by omega)]
  | double => simp only [relOfLevels]; rw [if_pos (by omega)]

theorem corner_result (D : Dim) (M : Mesh) (h : M.Ok) (b p c : Nat) (hp : p < M.num b)
    (hc : c < D.children) (w : Where) (hw : w.exists M) (rc : Nat) (r : Rel)
    (hq : cornerQuad D M (M.before b + p) c = some (some (w.id M, rc)))
    (hrel : SizeRel (M.level (M.before b + p)) (w.level M) r) :
    cornerNeighbors D M b p c = some ⟨r, some (w.proc M), w.block M, some w.patchno, rc⟩ := by
  unfold cornerNeighbors
  rw [if_neg (by omega)]
  simp only [hq]
  clear hq
  cases w with
  | here b' p' =>
    have h1 := h.inRange b' p' hw
    have h2 := h.tree b' p' hw
    simp only [Where.exists] at hw
    simp only [Where.id, h2]
    rw [if_pos h1, if_pos ⟨by omega, by omega⟩]
    rw [show M.level (M.before b' + p') = (Where.here b' p').level M from rfl, relOfLevels_eq hrel]
    simp [Where.proc, Where.block, Where.patchno]
  | ghost g =>
    simp only [Where.exists] at hw
    have e : M.localNum + g - M.localNum = g := by omega
    rw [show (Where.ghost g).id M = M.localNum + g from rfl]
    rw [if_neg (by omega)]
    simp only [e]
    rw [if_pos ⟨hw, h.remote g hw⟩]
    rw [show M.ghostLevel g = (Where.ghost g).level M from rfl, relOfLevels_eq hrel]
    simp [Where.proc, Where.block, Where.patchno]

/-- C58: the corner query reports the neighbour that the mesh encodes, with its process, block,
patch number, corner and relative size. -/
theorem C58_corner_found (D : Dim) (M : Mesh) (h : M.Ok) (b p c : Nat) (hp : p < M.num b)
    (hc : c < D.children) (w : Where) (r : Rel)
    (hrel : SizeRel (M.level (M.before b + p)) (w.level M) r) :
    (EncodesCorner D M (M.before b + p) c (.inside w) →
      cornerNeighbors D M b p c =
        some ⟨r, some (w.proc M), w.block M, some w.patchno, (D.children - 1 - c : Nat)⟩) ∧
    (∀ rc, EncodesCorner D M (M.before b + p) c (.across w rc) →
      cornerNeighbors D M b p c = some ⟨r, some (w.proc M), w.block M, some w.patchno, rc⟩) := by
  have hlt : w.exists M → w.id M < M.localNum + M.ghostNum := by
    intro hw
    cases w with
    | here b' p' => have := h.inRange b' p' hw; simp only [Where.id]; omega
    | ghost g => simp only [Where.exists] at hw; simp only [Where.id]; omega
  constructor
  · rintro ⟨hw, hq⟩
    refine corner_result D M h b p c hp hc w hw _ r ?_ hrel
    have := hlt hw
    simp only [cornerQuad, hq]
    rw [if_neg (by omega), Int.toNat_natCast, if_neg (by omega)]
  · rintro rc ⟨hw, hrc, k, hq, hoff, hquad, hcor⟩
    refine corner_result D M h b p c hp hc w hw _ r ?_ hrel
    simp only [cornerQuad, hq]
    have e : M.localNum + M.ghostNum + k - (M.localNum + M.ghostNum) = k := by omega
    rw [if_neg (by omega), Int.toNat_natCast, if_pos (by omega), e, hoff, if_neg (by omega),
      if_pos rfl, hcor, if_pos hrc, hquad]

/-- C58: at the physical boundary, and where five or more blocks meet (not supported), the query
reports a boundary. -/
theorem C58_corner_boundary (D : Dim) (M : Mesh) (b p c : Nat) (hp : p < M.num b)
    (hc : c < D.children)
    (hn : EncodesCorner D M (M.before b + p) c .none ∨ EncodesCorner D M (M.before b + p) c .several) :
    cornerNeighbors D M b p c = some ⟨.boundary, none, b, none, -1⟩ := by
  have : cornerQuad D M (M.before b + p) c = some none := by
    rcases hn with hn | ⟨k, hq, hoff⟩
    · simp only [EncodesCorner] at hn; simp only [cornerQuad]; rw [if_pos hn]
    · simp only [cornerQuad, hq]
      have e : M.localNum + M.ghostNum + k - (M.localNum + M.ghostNum) = k := by omega
      rw [if_neg (by omega), Int.toNat_natCast, if_pos (by omega), e, if_pos hoff]
  unfold cornerNeighbors
  rw [if_neg (by omega)]
  simp only [this]

/-! A concrete mesh: one block with two local patches and one ghost. -/

def exMesh : Mesh where
  rank := 1
  localNum := 3
  ghostNum := 2
  quadToQuad := fun leaf f => if leaf = 0 ∧ f = 1 then 7 else if leaf = 0 ∧ f = 2 then 3 else leaf
  quadToFace := fun leaf f => if leaf = 0 ∧ f = 1 then -8 else if leaf = 0 ∧ f = 2 then 19 else f
  quadToHalf := fun _ k => if k = 0 then 1 else 4
  quadToTree := fun q => if q < 1 then 0 else 1
  ghostToProc := fun _ => 0
  ghostTree := fun g => if g = 0 then 0 else 1
  before := fun b => if b = 0 then 0 else 1
  num := fun b => if b = 0 then 1 else if b = 1 then 2 else 0
  quadToCorner := fun leaf c => if leaf = 0 ∧ c = 3 then 2 else if leaf = 0 ∧ c = 0 then 5 else -1
  cornerOffset := fun k => k
  cornerQuad := fun _ => 3
  cornerCorner := fun _ => 1
  level := fun _ => 2
  ghostLevel := fun _ => 1

theorem exMesh_ok : exMesh.Ok where
  inRange := by
    intro b p hp
    simp only [exMesh] at hp ⊢
    split at hp <;> rename_i h <;> simp only [h] <;> simp_all
    split at hp <;> omega
  tree := by
    intro b p hp
    simp only [exMesh] at hp ⊢
    by_cases h0 : b = 0
    · simp [h0] at hp ⊢; omega
    · by_cases h1 : b = 1
      · simp [h1]
      · simp [h0, h1] at hp
  remote := by intro g _; simp [exMesh]

/-- Half-size neighbours, one of them a ghost, and a double-size ghost neighbour across a rotated
block face. -/
example : Encodes dim2 exMesh (exMesh.before 0 + 0) 1 (.half [.here 1 0, .ghost 1] 0 0) ∧
    Encodes dim2 exMesh (exMesh.before 0 + 0) 2 (.double (.ghost 0) 3 0 1) ∧
    faceNeighbors dim2 exMesh 0 0 1 = some ⟨.halfSize, [1, 0], 1, [0, 1], 0⟩ ∧
    faceNeighbors dim2 exMesh 0 0 2 = some ⟨.doubleSize, [0, 1], 0, [0, -1], 3⟩ := by
  refine ⟨?_, ?_, rfl, rfl⟩
  · refine ⟨rfl, by decide, by decide, ?_, ?_, rfl, ?_⟩
    · intro w hw
      simp only [List.mem_cons, List.not_mem_nil, or_false] at hw
      rcases hw with rfl | rfl
      · show 0 < 2; decide
      · show 1 < 2; decide
    · intro w hw w' hw'
      simp only [List.mem_cons, List.not_mem_nil, or_false] at hw hw'
      rcases hw with rfl | rfl <;> rcases hw' with rfl | rfl <;> rfl
    · intro k w hw
      match k, hw with
      | 0, hw => simp at hw; subst hw; rfl
      | 1, hw => simp at hw; subst hw; rfl
      | k + 2, hw => simp at hw
  · exact ⟨by decide, by decide, by decide, by show 0 < 2; decide, rfl, rfl⟩

/-- A corner neighbour inside the block and one across a block corner. -/
example : EncodesCorner dim2 exMesh 0 3 (.inside (.here 1 1)) ∧
    EncodesCorner dim2 exMesh 0 0 (.across (.ghost 0) 1) ∧
    cornerNeighbors dim2 exMesh 0 0 3 = some ⟨.sameSize, some 1, 1, some 1, 0⟩ ∧
    cornerNeighbors dim2 exMesh 0 0 0 = some ⟨.doubleSize, some 0, 0, some 0, 1⟩ := by
  refine ⟨⟨by show 1 < 2; decide, rfl⟩, ⟨by show 0 < 2; decide, by decide, 0, rfl, rfl, rfl, rfl⟩, ?_, ?_⟩
  · rfl
  · rfl

end Fclaw.FaceNbr
