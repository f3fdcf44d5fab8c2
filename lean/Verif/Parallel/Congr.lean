import Verif.Parallel.Model
import Verif.GhostAll.Props
/-
Helpers for C72: which interior cells the values of ghost cells depend on, and what a ghost update does not change.
-/
set_option autoImplicit false
set_option linter.unusedSimpArgs false
set_option linter.unusedVariables false
namespace Fclaw.Parallel

open Fort Transform GhostFill CopyGhost CoarseFine GhostAll

variable {d : Dims} {M : Mesh} {S : GhostAll.Setup} {minl : Int} {ti : Bool}

set_option maxHeartbeats 2000000 in
/-- The cells that interpolation at a face reads. -/
theorem face_cross (hd : EvenDims d) (hb : d.mbc % 2 = 0) (hp : 1 ≤ d.mbc) {f g : Nat} (hf : f < 4)
    (hg : g < 2) {o : Orient} (ho : o.ok d) {i j : ℤ} {x y : Nat} (hx : x < 2) (hy : y < 2) (hin : interior d i j)
    (h : inStrip d (touchO o f) (o.map d (faceHalfStep f g) (quarter i x) (quarter j y)).1
        (o.map d (faceHalfStep f g) (quarter i x) (quarter j y)).2 ∨
      inCorner d (hangO o f g) (o.map d (faceHalfStep f g) (quarter i x) (quarter j y)).1
        (o.map d (faceHalfStep f g) (quarter i x) (quarter j y)).2) :
    ∀ δ ∈ cross, near d (i + δ.1) (j + δ.2) ∨ inStrip d f (i + δ.1) (j + δ.2) ∨
      inRegion d (.strip (side f g) (f % 2)) (i + δ.1) (j + δ.2) := by
  have hl : inLayer d f i j ∧ (if f / 2 = 0 then (if g = 0 then 2 * j ≤ d.my + d.mbc else (d.my : ℤ) + 2 - d.mbc ≤ 2 * j)
      else (if g = 0 then 2 * i ≤ d.mx + d.mbc else (d.mx : ℤ) + 2 - d.mbc ≤ 2 * i)) := by
    obtain ⟨a, b, c, e, u, v⟩ := hd
    obtain ⟨sw, e0, e1⟩ := o
    obtain ⟨h0, h1, hs⟩ := ho
    dsimp only at h0 h1 hs
    unfold interior at hin
    unfold Orient.map CoarseFine.flip quarter faceHalfStep touchO hangO cornerAt turnBit at h
    unfold inLayer interior
    cases sw <;> rcases h0 with rfl | rfl <;> rcases h1 with rfl | rfl <;>
      rcases four hf with rfl | rfl | rfl | rfl <;> rcases two hg with rfl | rfl <;>
      simp [inStrip, inCorner] at h hs ⊢ <;> omega
  obtain ⟨⟨_, hl⟩, ht⟩ := hl
  obtain ⟨a, b, c, e, u, v⟩ := hd
  intro δ hδ
  unfold interior at hin
  unfold near interior
  simp only [cross, List.mem_cons, List.not_mem_nil, or_false] at hδ
  rcases hδ with rfl | rfl | rfl | rfl | rfl <;> rcases four hf with rfl | rfl | rfl | rfl <;>
    rcases two hg with rfl | rfl <;> simp [inStrip, inRegion, side] at hl ht ⊢ <;> omega

set_option maxHeartbeats 2000000 in
/-- … and at a corner. -/
theorem corner_cross (hd : EvenDims d) (hb : d.mbc % 2 = 0) (hp : 1 ≤ d.mbc) {k : Nat} (hk : k < 4)
    {o : Orient} (ho : o.ok d) {i j : ℤ} {x y : Nat} (hx : x < 2) (hy : y < 2) (hin : interior d i j)
    (h : inCorner d (touchCornerO o k) (o.map d (cornerHalfStep k) (quarter i x) (quarter j y)).1
        (o.map d (cornerHalfStep k) (quarter i x) (quarter j y)).2) :
    ∀ δ ∈ cross, near d (i + δ.1) (j + δ.2) ∨ inRegion d (.strip (faceX k) (k / 2)) (i + δ.1) (j + δ.2) ∨
      inRegion d (.strip (faceY k) (k % 2)) (i + δ.1) (j + δ.2) := by
  have hl : inInner d k i j := by
    have := ghost_inner hd hb hk ho h
    rw [inv_map ho, cellOf_quarter _ hx, cellOf_quarter _ hy] at this
    exact this
  obtain ⟨_, hl, ht⟩ := hl
  obtain ⟨a, b, c, e, u, v⟩ := hd
  intro δ hδ
  unfold interior at hin
  unfold near interior
  simp only [cross, List.mem_cons, List.not_mem_nil, or_false] at hδ
  rcases hδ with rfl | rfl | rfl | rfl | rfl <;> rcases four hk with rfl | rfl | rfl | rfl <;>
    simp [inStrip, inRegion, faceX, faceY] at hl ht ⊢ <;> omega

theorem mirror_near (hS : Sizes d) {x f : Nat} {i j : ℤ} (h : inStrip d f i j) (hb : isBoundary (M.face x f) = true) :
    near d (mirror d M S x i j).1 (mirror d M S x i j).2 := by
  obtain ⟨a, b, c, e, u, v⟩ := hS.even
  have hk := kinds_some (S := S) hb
  rcases four (strip_lt h) with rfl | rfl | rfl | rfl <;> simp [inStrip] at h
  · have A := image_low (n := d.mx) (m := d.mbc) (hi := kinds M S x 1) hk (i := i) (by omega) (by omega)
    have B : Bc.image d.my (kinds M S x 2) (kinds M S x 3) j = j := image_self (by omega) (by omega)
    unfold near interior mirror
    rw [B]; dsimp only; omega
  · have A := image_high (n := d.mx) (m := d.mbc) (lo := kinds M S x 0) (by omega) hk (i := i) (by omega) (by omega)
    have B : Bc.image d.my (kinds M S x 2) (kinds M S x 3) j = j := image_self (by omega) (by omega)
    unfold near interior mirror
    rw [B]; dsimp only; omega
  · have A := image_low (n := d.my) (m := d.mbc) (hi := kinds M S x 3) hk (i := j) (by omega) (by omega)
    have B : Bc.image d.mx (kinds M S x 0) (kinds M S x 1) i = i := image_self (by omega) (by omega)
    unfold near interior mirror
    rw [B]; dsimp only; omega
  · have A := image_high (n := d.my) (m := d.mbc) (lo := kinds M S x 2) (by omega) hk (i := j) (by omega) (by omega)
    have B : Bc.image d.mx (kinds M S x 0) (kinds M S x 1) i = i := image_self (by omega) (by omega)
    unfold near interior mirror
    rw [B]; dsimp only; omega

/-! ### Neighbours -/

theorem nbrs_cases {x y : Nat} (h : y ∈ nbrs M x) :
    (∃ f, f < 4 ∧ y ∈ faceList (M.face x f)) ∨ ∃ k, k < 4 ∧ y ∈ cornerList (cornerNbr M x k) := by
  unfold nbrs at h
  rw [List.mem_append, List.mem_flatMap, List.mem_flatMap] at h
  rcases h with ⟨f, hf, h⟩ | ⟨k, hk, h⟩
  · exact Or.inl ⟨f, (mem_numbers f).1 hf, h⟩
  · exact Or.inr ⟨k, (mem_numbers k).1 hk, h⟩

/-- A neighbour of a patch on a coarser level has finer neighbours. -/
theorem hasFine_of_nbr (hM : M.Ok) {x y : Nat} (h : y ∈ nbrs M x) (hl : M.level y < M.level x) : hasFine M y := by
  rcases nbrs_cases h with ⟨f, hf, h⟩ | ⟨k, hk, h⟩
  · cases e : M.face x f with
    | boundary => rw [e] at h; simp [faceList] at h
    | same z rf =>
      rw [e] at h; simp [faceList] at h; subst h
      have := hM.sameLevel x f y rf hf e; omega
    | half z0 z1 rf =>
      rw [e] at h; simp [faceList] at h
      have := hM.halfLevel x f z0 z1 rf hf e
      rcases h with rfl | rfl <;> omega
    | double z rf g hk =>
      rw [e] at h; simp [faceList] at h; subst h
      obtain ⟨h1, h2, y0, y1, h3, h4⟩ := hM.doubleSym x f y rf g hk hf e
      exact Or.inl ⟨rf, y0, y1, f, h1, h3⟩
  · cases e : cornerNbr M x k with
    | none => rw [e] at h; simp [cornerList] at h
    | same z rk =>
      rw [e] at h; simp [cornerList] at h; subst h
      have := hM.sameCornerLevel x k y rk hk e; omega
    | half z rk =>
      rw [e] at h; simp [cornerList] at h; subst h
      have := hM.halfCornerLevel x k y rk hk e; omega
    | double z rk =>
      rw [e] at h; simp [cornerList] at h; subst h
      obtain ⟨h1, h2⟩ := hM.doubleCorner x k y rk hk e
      exact Or.inr ⟨rk, x, k, h1, h2⟩

theorem same_near (hS : Sizes d) (hF : Fits d M S) {x f y rf : Nat} (hf : f < 4) (h : M.face x f = .same y rf)
    {i j i' j' : ℤ} (hs : inStrip d f i j)
    (he : FaceSame d (S.geo.faceT x f) (S.geo.patch x) (S.geo.patch y) i j i' j') : near d i' j' := by
  have L := hF.face x f y rf hf h
  have hd := hS.even.proper
  obtain ⟨T, h1, h2, h3⟩ := clawFace_spec hd (faceData S.geo x f y) f L
  have hn := strip_near f T h2 hd i j hs
  obtain ⟨a, b⟩ := faceSame_unique hd L he (h3 i j)
  rw [a, b]; exact hn

/-! ### What the values of ghost cells depend on -/

section
variable {I I' : State ℚ} {mq : ℤ}

/-- Interiors of the solution agree … -/
def Solutions (d : Dims) (M : Mesh) (I I' : State ℚ) (mq : ℤ) : Prop :=
  ∀ x ∈ M.patches, ∀ i j, interior d i j → I x false (i, j, mq) = I' x false (i, j, mq)

/-- … and so does what is interpolated in time on the level below. -/
def Interpolated (d : Dims) (M : Mesh) (minl : Int) (I I' : State ℚ) (mq : ℤ) : Prop :=
  ∀ x ∈ M.patches, M.level x = minl - 1 → hasFine M x → ∀ i j, near d i j → I x true (i, j, mq) = I' x true (i, j, mq)

/-- A cell of the coarser patch, in a region that interpolation reads. -/
theorem cell_congr (hS : Sizes d) (hM : M.Ok) (hF : Fits d M S) (h0 : Solutions d M I I' mq)
    (h1 : Interpolated d M minl I I' mq) {c : Nat} (hc : c ∈ M.patches) (hl : M.level c = minl - 1)
    (hfine : hasFine M c) {i j : ℤ} {v : ℚ}
    (hreg : near d i j ∨ ∃ f, f < 4 ∧ inStrip d f i j ∧ ∀ y rf, M.face c f = .same y rf → hasFine M y)
    (h : Expected d M S minl ti I c true i j mq v) : Expected d M S minl ti I' c true i j mq v := by
  rcases hreg with hn | ⟨f, hf, hs, hy⟩
  · rw [expected_interior hM hn.1 h, h1 c hc hl hfine i j hn]
    exact .interior _ _ _ _ _ hn.1
  · cases h with
    | interior _ _ _ _ _ hi => exact absurd hi (strip_not_interior hs)
    | same _ _ _ _ _ y i' j' h =>
      have hh := h
      obtain ⟨hin, ⟨f', rf, hf', hface, hs', he⟩ | ⟨k, rk, hk, hcor, hs', he⟩⟩ := h
      · cases strip_disjoint hs hs'
        have hl' := hM.sameLevel c f y rf hf hface
        rw [h1 y (hM.closed c hc y (mem_nbrs_face hf (by rw [hface]; simp [faceList]))) (by omega) (hy y rf hface) i' j'
          (same_near hS hF hf hface hs he)]
        exact .same _ _ _ _ _ _ _ _ hh
      · exact absurd hs' (strip_not_corner hs)
    | half _ _ _ _ _ y cc h =>
      have hh := h
      obtain ⟨hin, ⟨f', g, y0, y1, rf, hf', hg, hface, rfl, hs', he⟩ | ⟨k, rk, hk, hcor, hs', he⟩⟩ := h
      · have hp : pick y0 y1 g ∈ M.patches :=
          hM.closed c hc _ (mem_nbrs_face hf' (by rw [hface]; exact pick_mem y0 y1 g))
        rw [mean_congr (q' := I' (pick y0 y1 g) false) (c' := cc) (fun _ _ _ _ => rfl)
          fun a b ha hb => h0 _ hp _ _ (hin a b ha hb)]
        exact .half _ _ _ _ _ _ _ hh
      · exact absurd hs' (strip_not_corner hs)
    | boundary _ _ _ _ _ v hne hv =>
      have hb : isBoundary (M.face c f) = true := by
        cases hb : isBoundary (M.face c f) with
        | true => rfl
        | false => exact absurd (mirror_self (inside_strip hs hb)) hne
      have hn := mirror_near (S := S) hS hs hb
      refine .boundary _ _ _ _ _ _ hne ?_
      rw [expected_interior hM hn.1 hv, h1 c hc hl hfine _ _ hn]
      exact .interior _ _ _ _ _ hn.1

/-- The cells that interpolation reads. -/
theorem cross_congr (hS : Sizes d) (hM : M.Ok) (hF : Fits d M S) (h0 : Solutions d M I I' mq)
    (h1 : Interpolated d M minl I I' mq) {x c : Nat} (hx : x ∈ M.patches) {i j ic jc : ℤ} {a b : Nat}
    (hD : DoubleSource d M S x i j c ic jc a b) (hl : M.level c = minl - 1) {δ : ℤ × ℤ} (hδ : δ ∈ cross) {v : ℚ}
    (h : Expected d M S minl ti I c true (ic + δ.1) (jc + δ.2) mq v) :
    Expected d M S minl ti I' c true (ic + δ.1) (jc + δ.2) mq v := by
  obtain ⟨hin, ha, hb, ⟨f, fc, g, hk, hf, hface, hs, he⟩ | ⟨k, kc, hk, hcor, hs, he⟩⟩ := hD
  · obtain ⟨hfc, hg, y0, y1, e1, rfl⟩ := hM.doubleSym x f c fc g hk hf hface
    have hlx := double_level M hM _ f c fc g hk hf hface
    have hcp : c ∈ M.patches := hM.closed _ hx c (mem_nbrs_face hf (by rw [hface]; simp [faceList]))
    have hfine : hasFine M c := Or.inl ⟨fc, y0, y1, f, hfc, e1⟩
    obtain ⟨L, htouch, hhang⟩ := hF.half c fc y0 y1 f g hfc hg e1
    have hhk := hhang hk hface
    have ok := (faceHalf_spec hS.even.proper (faceData S.geo c fc (pick y0 y1 g)) fc g L).2.1
    have T := touch_eq hfc L
    have H := hang_eq hfc hg L
    rw [htouch] at T
    rw [hhk] at H
    have hmap := halfFace_map hS.even.proper L he
    have hp : 1 ≤ d.mbc := by
      rcases hs with hs | hs
      · exact strip_pos hs
      · exact corner_pos hs
    rw [T, H, show i = ((faceOrient (S.geo.faceT c fc)).map d (faceHalfStep fc g) (quarter ic a) (quarter jc b)).1 by
        rw [← hmap], show j = ((faceOrient (S.geo.faceT c fc)).map d (faceHalfStep fc g) (quarter ic a) (quarter jc b)).2 by
        rw [← hmap]] at hs
    refine cell_congr hS hM hF h0 h1 hcp hl hfine ?_ h
    rcases face_cross hS.even hS.layers hp hfc hg ok ha hb hin hs δ hδ with hn | hn | hn
    · exact Or.inl hn
    · exact Or.inr ⟨fc, hfc, hn, fun y rf hy => by rw [e1] at hy; cases hy⟩
    · refine Or.inr ⟨_, strip_lt hn.1, hn.1, fun y rf hy => ?_⟩
      have hm := hM.meetFace c fc y0 y1 f g y hfc hg e1 (by unfold across; rw [hy])
      have := hM.sameLevel c (side fc g) y rf (strip_lt hn.1) hy
      exact hasFine_of_nbr hM hm (by omega)
  · obtain ⟨hkc, e1⟩ := hM.doubleCorner x k c kc hk hcor
    have hlx := hM.halfCornerLevel c kc x k hkc e1
    have hcp : c ∈ M.patches := hM.closed _ hx c (mem_nbrs_corner hk (by rw [hcor]; simp [cornerList]))
    have hfine : hasFine M c := Or.inr ⟨kc, x, k, hkc, e1⟩
    obtain ⟨L, htouch⟩ := hF.halfCorner c kc x k hkc e1
    have ok := (cornerHalf_spec hS.even.proper (cornerData S.geo c kc x) kc L).2.1
    have T := corner_eq hkc L
    rw [htouch] at T
    have hmap := halfCorner_map hS.even.proper L he
    have hp : 1 ≤ d.mbc := corner_pos hs
    rw [T, show i = ((cornerOrient (cornerData S.geo c kc x)).map d (cornerHalfStep kc) (quarter ic a) (quarter jc b)).1 by
        rw [← hmap], show j = ((cornerOrient (cornerData S.geo c kc x)).map d (cornerHalfStep kc) (quarter ic a)
          (quarter jc b)).2 by rw [← hmap]] at hs
    refine cell_congr hS hM hF h0 h1 hcp hl hfine ?_ h
    rcases corner_cross hS.even hS.layers hp hkc ok ha hb hin hs δ hδ with hn | hn | hn
    · exact Or.inl hn
    · refine Or.inr ⟨_, strip_lt hn.1, hn.1, fun y rf hy => ?_⟩
      have hm := hM.meetCornerX c kc x k y hkc e1 (by unfold across; rw [hy])
      have := hM.sameLevel c (faceX kc) y rf (strip_lt hn.1) hy
      exact hasFine_of_nbr hM hm (by omega)
    · refine Or.inr ⟨_, strip_lt hn.1, hn.1, fun y rf hy => ?_⟩
      have hm := hM.meetCornerY c kc x k y hkc e1 (by unfold across; rw [hy])
      have := hM.sameLevel c (faceY kc) y rf (strip_lt hn.1) hy
      exact hasFine_of_nbr hM hm (by omega)

theorem double_nbr (hM : M.Ok) {x c : Nat} {i j ic jc : ℤ} {a b : Nat} (hD : DoubleSource d M S x i j c ic jc a b) :
    c ∈ nbrs M x := by
  obtain ⟨hin, ha, hb, ⟨f, fc, g, hk, hf, hface, hs, he⟩ | ⟨k, kc, hk, hcor, hs, he⟩⟩ := hD
  · exact mem_nbrs_face hf (by rw [hface]; simp [faceList])
  · exact mem_nbrs_corner hk (by rw [hcor]; simp [cornerList])

/-- What a ghost cell of the solution depends on. -/
theorem expected_depends (hS : Sizes d) (hM : M.Ok) (hF : Fits d M S) (h0 : Solutions d M I I' mq)
    (h1 : ti = true → Interpolated d M minl I I' mq) {x : Nat} {t : Bool} {i j : ℤ} {v : ℚ}
    (hx : x ∈ M.patches) (ht : t = false)
    (h : Expected d M S minl ti I x t i j mq v) : Expected d M S minl ti I' x t i j mq v := by
  induction h with
  | interior x t i j mq hi => subst ht; rw [h0 x hx i j hi]; exact .interior _ _ _ _ _ hi
  | same x t i j mq y i1 j1 h =>
    subst ht
    have hh := h
    obtain ⟨hin, ⟨f', rf, hf', hface, hs', he⟩ | ⟨k, rk, hk, hcor, hs', he⟩⟩ := h
    · rw [h0 y (hM.closed x hx y (mem_nbrs_face hf' (by rw [hface]; simp [faceList]))) i1 j1 hin]
      exact .same _ _ _ _ _ _ _ _ hh
    · rw [h0 y (hM.closed x hx y (mem_nbrs_corner hk (by rw [hcor]; simp [cornerList]))) i1 j1 hin]
      exact .same _ _ _ _ _ _ _ _ hh
  | half x t i j mq y c h =>
    have hh := h
    have hp : y ∈ M.patches := by
      obtain ⟨hin, ⟨f', g, y0, y1, rf, hf', hg, hface, rfl, hs', he⟩ | ⟨k, rk, hk, hcor, hs', he⟩⟩ := h
      · exact hM.closed x hx _ (mem_nbrs_face hf' (by rw [hface]; exact pick_mem y0 y1 g))
      · exact hM.closed x hx _ (mem_nbrs_corner hk (by rw [hcor]; simp [cornerList]))
    rw [mean_congr (q' := I' y false) (c' := c) (fun _ _ _ _ => rfl) fun a b ha hb => h0 _ hp _ _ (h.1 a b ha hb)]
    exact .half _ _ _ _ _ _ _ hh
  | double x i j mq c t ic jc a b Q h hc hQ ih =>
    have hcp := hM.closed x hx c (double_nbr hM h)
    refine .double _ _ _ _ _ _ _ _ _ _ _ h hc fun δ hδ => ?_
    cases t with
    | false => exact ih δ hδ h0 h1 hcp rfl
    | true =>
      obtain ⟨_, h2⟩ := (current_iff ..).1 hc
      unfold tl at h2
      have h3 := h2.symm
      simp only [Bool.and_eq_true, decide_eq_true_eq] at h3
      exact cross_congr hS hM hF h0 (h1 h3.1) hx h h3.2 hδ (hQ δ hδ)
  | boundary x t i j mq v hne _ ih => exact .boundary _ _ _ _ _ _ hne (ih h0 h1 hx ht)

end

/-! ### What a ghost update does not change -/

/-- Interiors of the patches of the process. -/
theorem update_frame (hS : Sizes d) (hM : M.Ok) (hF : Fits d M S) (recv : Grid ℚ → Grid ℚ) (maxl : Int)
    (hle : minl ≤ maxl) (htop : ∀ x ∈ M.patches, M.level x ≤ maxl) (p : Nat) (init : Nat → State ℚ) (fin : State ℚ)
    (h : Update d M S recv minl maxl ti p init fin) (x : Nat) (ho : M.owner x = p) (t : Bool) (i j mq : ℤ)
    (hi : interior d i j) (hm : comp d mq) : fin x t (i, j, mq) = init p x t (i, j, mq) := by
  have X : Ctx M minl maxl := ⟨hM, hle, htop⟩
  have L2 : ∀ o ∈ ops M p (step2 M p minl maxl ti), Legit M minl ti p o := by
    intro o ho
    simp only [step2, ops_append, List.mem_append] at ho
    rcases ho with (ho | ho) | ho
    · exact legit_fill2 X ti p o ho
    · exact legit_interp2 X ti p o ho
    · exact legit_phys2 X ti p o ho
  have L3 : ∀ o ∈ ops M p (step3 M p minl maxl ti), Legit M minl ti p o := by
    intro o ho
    simp only [step3, ops_append, List.mem_append] at ho
    rcases ho with (ho | ho) | ho
    · exact legit_fill3 X ti p o ho
    · exact legit_interp3 X ti p o ho
    · exact legit_phys3 X ti p o ho
  have key : ∀ (os : List Op), (∀ o ∈ os, Legit M minl ti p o) → ∀ s s', GhostAll.execAll d M S os s = some s' →
      s' x t (i, j, mq) = s x t (i, j, mq) := by
    intro os hL s s' he
    let V : Valid := fun k => decide (k = ⟨x, t, .interior⟩)
    have A0 : Agree d M S minl ti s p s V := by
      intro x' t' r hv _ i j mq hi _ hm
      simp only [V, decide_eq_true_eq] at hv
      cases hv
      exact Expected.interior (I := s) x t i j mq hi
    obtain ⟨s'', e, A⟩ := execAll_agree hS hM hF os hL s V A0
    rw [he] at e; cases e
    have := A x t .interior (by rw [run_interior]; simp [V]) trivial i j mq hi (fun _ h => absurd ho h) hm
    exact expected_interior hM hi this
  obtain ⟨s1, e1, s2, e2, s3, e3, e4⟩ := h
  rw [key _ L3 _ _ e4, key _ (legit_indirect M hM p minl ti) _ _ e3]
  have hg : isGhost M p x = false := by
    cases h : isGhost M p x with
    | false => rfl
    | true => exact absurd ho (isGhost_owner h)
  have : exchange M minl ti recv p s1 s2 x t = s2 x t := by simp [exchange, hg]
  rw [this, key _ L2 _ _ e2, key _ (legit_step1 X ti p) _ _ (e1 p)]

end Fclaw.Parallel
