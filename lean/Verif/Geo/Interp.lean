import Verif.Geo.Ops
/-
Helpers for C82: what interpolation, and the transfer between a patch and its four children, write.
-/
set_option autoImplicit false
set_option linter.unusedSimpArgs false
set_option linter.unusedVariables false
namespace Fclaw.Geo

open Fort Transform CopyGhost Transfer CoarseFine

theorem Writes.value {α : Type} {S : Cell → Prop} {w w' : Cell → α} {f : Grid α → Option (Grid α)}
    (h : Writes S w f) (hw : ∀ c, S c → w c = w' c) : Writes S w' f := by
  intro q
  obtain ⟨q', h1, h2, h3⟩ := h q
  exact ⟨q', h1, fun c hc => (h2 c hc).trans (hw c hc), h3⟩

theorem doLoop_three {σ : Type} (f : ℤ → σ → Option σ) (s : σ) :
    Fort.doLoop (-1) 1 f s = (f (-1) s).bind fun s => (f 0 s).bind fun s => f 1 s := by
  have : range (-1) 1 = [-1, 0, 1] := by decide
  unfold Fort.doLoop
  rw [this]
  simp [Fort.loop]

theorem surfaces_spec {d : Dims} {P : Params} (hs : Sizes d P) (q aux : Grid ℚ) {i j : ℤ}
    (h : ∀ a b : ℤ, -1 ≤ a → a ≤ 1 → -1 ≤ b → b ≤ 1 → inPatch d (i + a) (j + b)) :
    ∃ E, surfaces d P q aux i j = some E ∧ ∀ x y : Nat,
      (surfaceSlopes E).1 + ((x : ℚ) / 2 - 1 / 4) * (surfaceSlopes E).2.1 + ((y : ℚ) / 2 - 1 / 4) * (surfaceSlopes E).2.2 =
        reconstruct (surface P q aux) i j 1 x y := by
  have m := hs.meqn
  have a := hs.maux
  have R : ∀ a b : ℤ, -1 ≤ a → a ≤ 1 → -1 ≤ b → b ≤ 1 → rd d q (i + a, j + b, 1) = some (q (i + a, j + b, 1)) ∧
      rdAux d P aux 1 (i + a) (j + b) = some (aux (i + a, j + b, 1)) := fun a b h1 h2 h3 h4 =>
    ⟨rd_in q (h a b h1 h2 h3 h4) (by omega) (by omega), rdAux_in aux (h a b h1 h2 h3 h4) (by omega) (by omega)⟩
  obtain ⟨r1, s1⟩ := R (-1) (-1) (by omega) (by omega) (by omega) (by omega)
  obtain ⟨r2, s2⟩ := R (-1) 0 (by omega) (by omega) (by omega) (by omega)
  obtain ⟨r3, s3⟩ := R (-1) 1 (by omega) (by omega) (by omega) (by omega)
  obtain ⟨r4, s4⟩ := R 0 (-1) (by omega) (by omega) (by omega) (by omega)
  obtain ⟨r5, s5⟩ := R 0 0 (by omega) (by omega) (by omega) (by omega)
  obtain ⟨r6, s6⟩ := R 0 1 (by omega) (by omega) (by omega) (by omega)
  obtain ⟨r7, s7⟩ := R 1 (-1) (by omega) (by omega) (by omega) (by omega)
  obtain ⟨r8, s8⟩ := R 1 0 (by omega) (by omega) (by omega) (by omega)
  obtain ⟨r9, s9⟩ := R 1 1 (by omega) (by omega) (by omega) (by omega)
  unfold surfaces
  simp only [doLoop_three, r1, r2, r3, r4, r5, r6, r7, r8, r9, s1, s2, s3, s4, s5, s6, s7, s8, s9, Option.bind_some]
  refine ⟨_, rfl, ?_⟩
  intro x y
  unfold surfaceSlopes reconstruct
  simp only [limited_eq]
  unfold surface
  simp [sub_eq_add_neg]

/-- Value of the cell `c` of the small patch. -/
def geoFine (o : Orient) (d : Dims) (s : Nat → ℤ) (P : Params) (q auxC auxF : Grid ℚ) (c : Cell) : ℚ :=
  if c.2.2 = 1 then max (fineValue o d s (surface P q auxC) c - auxF (c.1, c.2.1, 1)) 0 else fineValue o d s q c

theorem spreadDepth_writes {d : Dims} {P : Params} (hz : Sizes d P) {o : Orient} (ho : o.ok d) (s : Nat → ℤ) (A : Matrix)
    (hA : ∀ x y : Nat, x < 2 → y < 2 → df A (x + 2 * y) = delta o x y) (q auxC auxF : Grid ℚ) (i j : ℤ)
    (c2 : ℤ → ℤ × ℤ) (hc : c2 0 = o.map d s (quarter i 0) (quarter j 0)) (sl : ℚ × ℚ × ℚ)
    (hs : ∀ x y : Nat, sl.1 + ((x : ℚ) / 2 - 1 / 4) * sl.2.1 + ((y : ℚ) / 2 - 1 / 4) * sl.2.2 =
      reconstruct (surface P q auxC) i j 1 x y)
    (hbox : ∀ x y : Nat, x < 2 → y < 2 → box d (o.map d s (quarter i x) (quarter j y))) :
    Writes (fun c => ∃ x y : Nat, x < 2 ∧ y < 2 ∧ c = ((o.map d s (quarter i x) (quarter j y)).1,
        (o.map d s (quarter i x) (quarter j y)).2, 1)) (geoFine o d s P q auxC auxF)
      (spreadDepth d P A auxF c2 sl) := by
  have hmq := hz.meqn
  have hax := hz.maux
  unfold spreadDepth
  have one : ∀ m : ℤ, 0 ≤ m → m ≤ 3 → ∃ x y : Nat, x < 2 ∧ y < 2 ∧ m = x + 2 * y := by
    intro m h1 h2
    exact ⟨(m % 2).toNat, (m / 2).toNat, by omega, by omega, by omega⟩
  refine (Writes.doLoop (fun m c => c = ((c2 0).1 + (df A m).1, (c2 0).2 + (df A m).2, 1)) _ _ _ _ ?_).congr ?_
  · intro m h1 h2
    obtain ⟨x, y, hx, hy, rfl⟩ := one m h1 h2
    have e := map_delta ho s i j x y
    rw [hA x y hx hy, hc]
    have e1 := congrArg Prod.fst e
    have e2 := congrArg Prod.snd e
    dsimp only at e1 e2
    rw [e1, e2]
    have hb := hbox x y hx hy
    have hin : inPatch d (o.map d s (quarter i x) (quarter j y)).1 (o.map d s (quarter i x) (quarter j y)).2 := by
      obtain ⟨_, _, _, _⟩ := hb
      unfold inPatch; omega
    dsimp only
    rw [rdAux_in auxF hin (by omega) (by omega : (1 : ℤ) ≤ P.maux)]
    simp only [Option.bind_some]
    refine Writes.wr d _ _ _ ?_ ?_
    · rw [inBox_iff]
      obtain ⟨_, _, _, _⟩ := hb
      omega
    · unfold geoFine
      rw [if_pos rfl, fineValue_map ho s (surface P q auxC) i j 1 hx hy, ← hs x y]
      have ex : ((x : ℤ) + 2 * y) % 2 = x := by omega
      have ey : ((x : ℤ) + 2 * y) / 2 = y := by omega
      rw [ex, ey]
      unfold shiftHalf
      congr 1
      push_cast
      ring
  · intro c
    constructor
    · rintro ⟨m, h1, h2, h⟩
      obtain ⟨x, y, hx, hy, rfl⟩ := one m h1 h2
      refine ⟨x, y, hx, hy, ?_⟩
      have e := map_delta ho s i j x y
      rw [hA x y hx hy, hc] at h
      have e1 := congrArg Prod.fst e
      have e2 := congrArg Prod.snd e
      dsimp only at e1 e2
      rw [e1, e2] at h
      exact h
    · rintro ⟨x, y, hx, hy, h⟩
      refine ⟨x + 2 * y, by omega, by omega, ?_⟩
      have e := map_delta ho s i j x y
      rw [hA x y hx hy, hc]
      have e1 := congrArg Prod.fst e
      have e2 := congrArg Prod.snd e
      dsimp only at e1 e2
      rw [e1, e2]
      exact h

theorem spreadCell_writes {d : Dims} {P : Params} (hz : Sizes d P) (hb : 1 ≤ d.mbc) {o : Orient} (ho : o.ok d) (s : Nat → ℤ)
    (A : Matrix) (hA : ∀ x y : Nat, x < 2 → y < 2 → df A (x + 2 * y) = delta o x y) (q auxC auxF : Grid ℚ) {i j mq : ℤ}
    (h : interior d i j) (hm : comp d mq) (c2 : ℤ → ℤ × ℤ) (hc : c2 0 = o.map d s (quarter i 0) (quarter j 0))
    (hbox : ∀ x y : Nat, x < 2 → y < 2 → box d (o.map d s (quarter i x) (quarter j y))) :
    Writes (fun c => ∃ x y : Nat, x < 2 ∧ y < 2 ∧ c = ((o.map d s (quarter i x) (quarter j y)).1,
        (o.map d s (quarter i x) (quarter j y)).2, mq)) (geoFine o d s P q auxC auxF)
      (spreadCell d P A q auxC auxF c2 mq i j) := by
  unfold spreadCell
  by_cases h1 : mq = 1
  · subst h1
    simp only [if_true]
    obtain ⟨E, e1, e2⟩ := surfaces_spec hz q auxC (i := i) (j := j) (by
      intro a b h1 h2 h3 h4
      obtain ⟨_, _, _, _⟩ := h
      unfold inPatch; omega)
    rw [e1]
    simp only [Option.bind_some]
    exact spreadDepth_writes hz ho s A hA q auxC auxF i j c2 hc _ e2 hbox
  · simp only [if_neg h1]
    obtain ⟨sl, e1, e2⟩ := slopes_spec hb q h hm
    rw [e1]
    simp only [Option.bind_some]
    refine Writes.value (spread_writes ho s A hA q i j mq hm c2 hc sl e2 hbox) ?_
    rintro c ⟨x, y, _, _, rfl⟩
    unfold geoFine
    rw [if_neg h1]

theorem interpFaceBody_writes {d : Dims} {P : Params} (hz : Sizes d P) (hb : 1 ≤ d.mbc) (td : TData) {s : Nat → ℤ}
    {o : Orient} (ho : o.ok d) (hM : Maps d s o (clawFaceHalf d td)) (A : Matrix)
    (hA : ∀ x y : Nat, x < 2 → y < 2 → df A (x + 2 * y) = delta o x y) (q auxC auxF : Grid ℚ) {i j mq : ℤ}
    (h : interior d i j) (hm : comp d mq) :
    Writes (fun c => ∃ x y : Nat, x < 2 ∧ y < 2 ∧ c = ((o.map d s (quarter i x) (quarter j y)).1,
        (o.map d s (quarter i x) (quarter j y)).2, mq) ∧
        ∀ x y : Nat, x < 2 → y < 2 → box d (o.map d s (quarter i x) (quarter j y)))
      (geoFine o d s P q auxC auxF) (interpFaceBody d td P A q auxC auxF mq i j) := by
  obtain ⟨c2, e, h2⟩ := hM i j
  have c0 := h2 0 0 (by omega) (by omega)
  have c1 := h2 1 0 (by omega) (by omega)
  have c2' := h2 0 1 (by omega) (by omega)
  have c3 := h2 1 1 (by omega) (by omega)
  simp only [Nat.cast_zero, Nat.cast_one, mul_zero, mul_one, zero_add, add_zero] at c0 c1 c2' c3
  norm_num at c3
  unfold interpFaceBody
  simp only [e, Option.bind_some]
  by_cases hh : ∀ x y : Nat, x < 2 → y < 2 → box d (o.map d s (quarter i x) (quarter j y))
  · have v0 := (validInterp_iff d _).2 (hh 0 0 (by omega) (by omega))
    have v1 := (validInterp_iff d _).2 (hh 1 0 (by omega) (by omega))
    have v2 := (validInterp_iff d _).2 (hh 0 1 (by omega) (by omega))
    have v3 := (validInterp_iff d _).2 (hh 1 1 (by omega) (by omega))
    rw [c0, c1, c2', c3, v0, v1, v2, v3]
    simp only [Bool.and_self, if_true]
    refine (spreadCell_writes hz hb ho s A hA q auxC auxF h hm c2 c0 hh).congr ?_
    intro c
    constructor
    · rintro ⟨x, y, hx, hy, h⟩; exact ⟨x, y, hx, hy, h, hh⟩
    · rintro ⟨x, y, hx, hy, h, _⟩; exact ⟨x, y, hx, hy, h⟩
  · have nv : ¬ ((validInterp d (c2 0).1 (c2 0).2 && validInterp d (c2 1).1 (c2 1).2 &&
        validInterp d (c2 2).1 (c2 2).2 && validInterp d (c2 3).1 (c2 3).2) = true) := by
      intro hv
      rw [c0, c1, c2', c3] at hv
      simp only [Bool.and_eq_true] at hv
      obtain ⟨⟨⟨v0, v1⟩, v2⟩, v3⟩ := hv
      apply hh
      intro x y hx hy
      rcases two hx with rfl | rfl <;> rcases two hy with rfl | rfl
      · exact (validInterp_iff d _).1 v0
      · exact (validInterp_iff d _).1 v2
      · exact (validInterp_iff d _).1 v1
      · exact (validInterp_iff d _).1 v3
    simp only [nv, Bool.false_eq_true, if_false]
    exact CoarseFine.Writes.skip _ _ fun c ⟨x, y, _, _, _, h⟩ => hh h

theorem interpolateFace_writes {d : Dims} {P : Params} (hz : Sizes d P) (hd : EvenDims d) (hb : d.mbc = 2) (td : TData)
    {f g : Nat} (hf : f < 4) (hg : g < 2) (hsq : f / 2 = 0 → d.mx = d.my) {o : Orient} (ho : o.ok d)
    (hM : Maps d (faceHalfStep f g) o (clawFaceHalf d td)) (q auxC auxF : Grid ℚ) :
    Writes (fun c => (inStrip d (touchO o f) c.1 c.2.1 ∨ inCorner d (hangO o f g) c.1 c.2.1) ∧ comp d c.2.2)
      (geoFine o d (faceHalfStep f g) P q auxC auxF) (interpolateFace d td P f q auxC auxF) := by
  have hb2 : d.mbc % 2 = 0 := by omega
  obtain ⟨A, hA1, hA2⟩ := build_half ho hM
  have body := fun i j mq h hm =>
    interpFaceBody_writes hz (by omega) td ho hM A hA2 q auxC auxF (i := i) (j := j) (mq := mq) h hm
  -- the cells written are the ghost cells
  have set_eq : ∀ c : Cell, (∃ i j : ℤ, inLayer d f i j ∧ comp d c.2.2 ∧
      ∃ x y : Nat, x < 2 ∧ y < 2 ∧ c = ((o.map d (faceHalfStep f g) (quarter i x) (quarter j y)).1,
        (o.map d (faceHalfStep f g) (quarter i x) (quarter j y)).2, c.2.2) ∧
        ∀ x y : Nat, x < 2 → y < 2 → box d (o.map d (faceHalfStep f g) (quarter i x) (quarter j y))) ↔
      ((inStrip d (touchO o f) c.1 c.2.1 ∨ inCorner d (hangO o f g) c.1 c.2.1) ∧ comp d c.2.2) := by
    rintro ⟨i', j', mq⟩
    constructor
    · rintro ⟨i, j, hl, hm, x, y, hx, hy, e, hbx⟩
      have e1 := congrArg Prod.fst e
      have e2 := congrArg (fun c : Cell => c.2.1) e
      dsimp only at e1 e2 hm ⊢
      refine ⟨?_, hm⟩
      rw [e1, e2]
      exact layer_ghost hd hb2 hf hg ho hl hx hy (hbx x y hx hy)
    · rintro ⟨h, hm⟩
      dsimp only at h hm
      obtain ⟨h1, h2⟩ := ghost_layer hd hb2 hf hg ho h
      refine ⟨_, _, h1, hm, partOf (o.inv d (faceHalfStep f g) i' j').1, partOf (o.inv d (faceHalfStep f g) i' j').2,
        partOf_lt _, partOf_lt _, ?_, h2⟩
      rw [quarter_of, quarter_of, map_inv ho]
  unfold interpolateFace
  simp only [hA1, Option.bind_some]
  have hmx := hd.bx
  have hmy := hd.by'
  by_cases h2 : f / 2 = 0
  · simp only [if_pos h2]
    have hm := hsq h2
    have key : ∀ jc : ℤ, 1 ≤ jc → jc ≤ d.mx → inLayer d f (if f = 0 then 1 else d.mx) jc := by
      intro jc c e
      rcases four hf with rfl | rfl | rfl | rfl <;> simp [inLayer, interior] at h2 ⊢ <;> omega
    refine ((Writes.doLoop _ _ _ _ _ fun mq m1 m2 =>
      Writes.doLoop _ _ _ _ _ fun jc j1 j2 => body _ _ mq (key jc j1 j2).1 ⟨m1, m2⟩).congr ?_).congr set_eq
    rintro ⟨i', j', mq⟩
    constructor
    · rintro ⟨mq', m1, m2, jc, j1, j2, x, y, hx, hy, e, hbx⟩
      have := congrArg (fun c : Cell => c.2.2) e
      dsimp only at this
      subst this
      exact ⟨_, _, key jc j1 j2, ⟨m1, m2⟩, x, y, hx, hy, e, hbx⟩
    · rintro ⟨i, j, hl, ⟨m1, m2⟩, x, y, hx, hy, e, hbx⟩
      dsimp only at m1 m2 e
      have hi : i = (if f = 0 then 1 else (d.mx : ℤ)) := by
        rcases four hf with rfl | rfl | rfl | rfl <;> simp [inLayer, interior] at h2 hl ⊢ <;> omega
      subst hi
      refine ⟨mq, m1, m2, j, ?_, ?_, x, y, hx, hy, e, hbx⟩
      · obtain ⟨⟨_, _, _, _⟩, _⟩ := hl; omega
      · obtain ⟨⟨_, _, _, _⟩, _⟩ := hl; omega
  · simp only [if_neg h2]
    have key : ∀ ic : ℤ, 1 ≤ ic → ic ≤ d.mx → inLayer d f ic (if f = 2 then 1 else d.my) := by
      intro jc c e
      rcases four hf with rfl | rfl | rfl | rfl <;> simp [inLayer, interior] at h2 ⊢ <;> omega
    refine ((Writes.doLoop _ _ _ _ _ fun mq m1 m2 =>
      Writes.doLoop _ _ _ _ _ fun ic j1 j2 => body _ _ mq (key ic j1 j2).1 ⟨m1, m2⟩).congr ?_).congr set_eq
    rintro ⟨i', j', mq⟩
    constructor
    · rintro ⟨mq', m1, m2, ic, j1, j2, x, y, hx, hy, e, hbx⟩
      have := congrArg (fun c : Cell => c.2.2) e
      dsimp only at this
      subst this
      exact ⟨_, _, key ic j1 j2, ⟨m1, m2⟩, x, y, hx, hy, e, hbx⟩
    · rintro ⟨i, j, hl, ⟨m1, m2⟩, x, y, hx, hy, e, hbx⟩
      dsimp only at m1 m2 e
      have hj : j = (if f = 2 then 1 else (d.my : ℤ)) := by
        rcases four hf with rfl | rfl | rfl | rfl <;> simp [inLayer, interior] at h2 hl ⊢ <;> omega
      subst hj
      refine ⟨mq, m1, m2, i, ?_, ?_, x, y, hx, hy, e, hbx⟩
      · obtain ⟨⟨_, _, _, _⟩, _⟩ := hl; omega
      · obtain ⟨⟨_, _, _, _⟩, _⟩ := hl; omega

theorem interpolateCorner_writes {d : Dims} {P : Params} (hz : Sizes d P) (hd : EvenDims d) (hb : d.mbc = 2) (td : TData)
    {k : Nat} (hk : k < 4) {o : Orient} (ho : o.ok d) (hM : Maps d (cornerHalfStep k) o (clawCornerHalf d td))
    {s' : Nat → ℤ} (hM' : Maps d s' o (clawFaceHalf d td)) (q auxC auxF : Grid ℚ) :
    Writes (fun c => inCorner d (touchCornerO o k) c.1 c.2.1 ∧ comp d c.2.2)
      (geoFine o d (cornerHalfStep k) P q auxC auxF) (interpolateCorner d td P k q auxC auxF) := by
  have hb2 : d.mbc % 2 = 0 := by omega
  obtain ⟨A, hA1, hA2⟩ := build_half ho hM'
  have hmx := hd.bx
  have hmy := hd.by'
  have hin : inInner d k (innerCell d k).1 (innerCell d k).2 := by
    rcases four hk with rfl | rfl | rfl | rfl <;> simp [inInner, interior, innerCell] <;> omega
  unfold interpolateCorner
  simp only [hA1, Option.bind_some]
  obtain ⟨c2, e, h2⟩ := hM (innerCell d k).1 (innerCell d k).2
  have c0 := h2 0 0 (by omega) (by omega)
  simp only [Nat.cast_zero, mul_zero, add_zero] at c0
  simp only [e, Option.bind_some]
  refine (Writes.doLoop (fun mq c => ∃ x y : Nat, x < 2 ∧ y < 2 ∧
      c = ((o.map d (cornerHalfStep k) (quarter (innerCell d k).1 x) (quarter (innerCell d k).2 y)).1,
      (o.map d (cornerHalfStep k) (quarter (innerCell d k).1 x) (quarter (innerCell d k).2 y)).2, mq))
      _ _ _ _ fun mq m1 m2 => ?_).congr ?_
  · refine spreadCell_writes hz (by omega) ho (cornerHalfStep k) A hA2 q auxC auxF hin.1 ⟨m1, m2⟩ c2 c0 ?_
    intro x y hx hy
    have := inner_ghost hd hb2 hk ho hin hx hy
    have hbx := corner_inBox this (d := d) (mq := mq) ⟨m1, m2⟩
    rw [inBox_iff] at hbx
    unfold box
    omega
  · rintro ⟨i', j', mq⟩
    constructor
    · rintro ⟨mq', m1, m2, x, y, hx, hy, e⟩
      have := inner_ghost hd hb2 hk ho hin hx hy
      have e1 := congrArg Prod.fst e
      have e2 := congrArg (fun c : Cell => c.2.1) e
      have e3 := congrArg (fun c : Cell => c.2.2) e
      dsimp only at e1 e2 e3 ⊢
      rw [e1, e2, e3]
      exact ⟨this, m1, m2⟩
    · rintro ⟨h, m1, m2⟩
      dsimp only at h m1 m2
      have hin := ghost_inner hd hb2 hk ho h
      have hq : ((o.map d (cornerHalfStep k) (o.inv d (cornerHalfStep k) i' j').1 (o.inv d (cornerHalfStep k) i' j').2).1,
        (o.map d (cornerHalfStep k) (o.inv d (cornerHalfStep k) i' j').1 (o.inv d (cornerHalfStep k) i' j').2).2, mq) =
        (i', j', mq) := by rw [map_inv ho]
      generalize (o.inv d (cornerHalfStep k) i' j').1 = I at hin hq
      generalize (o.inv d (cornerHalfStep k) i' j').2 = J at hin hq
      have ex : innerCell d k = (cellOf I, cellOf J) := by
        generalize cellOf I = a at hin
        generalize cellOf J = b at hin
        rcases four hk with rfl | rfl | rfl | rfl <;> simp [inInner, interior] at hin <;> simp [innerCell] <;> omega
      refine ⟨mq, m1, m2, partOf I, partOf J, partOf_lt _, partOf_lt _, ?_⟩
      rw [ex]
      dsimp only
      rw [quarter_of, quarter_of]
      exact hq.symm

end Fclaw.Geo
