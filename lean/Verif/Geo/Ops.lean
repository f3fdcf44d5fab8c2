import Verif.Geo.Merge
import Verif.CoarseFine.Ops
import Verif.Transfer.Lemmas
import Mathlib.Tactic.Cases
/-
Helpers for C82: what the operations write.
-/
set_option autoImplicit false
set_option linter.unusedSimpArgs false
set_option linter.unusedVariables false
namespace Fclaw.Geo

open Fort Transform CopyGhost Transfer CoarseFine

/-! ### The value for a coarse cell -/

theorem rd_in {d : Dims} (q : Grid ℚ) {i j mq : ℤ} (h : inPatch d i j) (h1 : 1 ≤ mq) (h2 : mq ≤ d.meqn) :
    rd d q (i, j, mq) = some (q (i, j, mq)) := by
  unfold rd
  rw [if_pos]
  rw [inBox_iff]
  obtain ⟨_, _, _, _⟩ := h
  omega

theorem rdAux_in {d : Dims} {P : Params} (aux : Grid ℚ) {i j m : ℤ} (h : inPatch d i j) (h1 : 1 ≤ m)
    (h2 : m ≤ P.maux) : rdAux d P aux m i j = some (aux (i, j, m)) := by
  unfold rdAux
  exact rd_in (d := auxDims d P) aux h h1 h2

theorem capacity_in {d : Dims} {P : Params} (hs : Sizes d P) (aux : Grid ℚ) {i j : ℤ} (h : inPatch d i j) :
    capacity d P aux i j = some (groundAt P aux (i, j)).κ := by
  unfold capacity groundAt
  dsimp only
  by_cases h0 : P.mcapa = 0
  · rw [if_pos h0, if_pos h0]
  · rw [if_neg h0, if_neg h0]
    have := hs.mcapa.resolve_left h0
    exact rdAux_in aux h this.1 this.2

/-- One more fine cell. -/
def add (tol : ℚ) (w : Water) (g : Ground) (s : Sums) : Sums :=
  ⟨s.eta + (if Wet tol w g then w.h * g.κ + g.b * g.κ else 0), s.h + w.h * g.κ,
   s.hu + (if Wet tol w g then w.hu * g.κ else 0), s.hv + (if Wet tol w g then w.hv * g.κ else 0),
   s.nwet + (if Wet tol w g then 1 else 0)⟩

theorem addFine_spec {d : Dims} {P : Params} (hs : Sizes d P) (q aux : Grid ℚ) {i j : ℤ} (h : inPatch d i j) (s : Sums) :
    addFine d P q aux i j s = some (add P.dryTolerance (waterAt q (i, j)) (groundAt P aux (i, j)) s) := by
  have m := hs.meqn
  have a := hs.maux
  unfold addFine
  rw [capacity_in hs aux h, rd_in q h (by omega) (by omega), rdAux_in aux h (by omega) (by omega),
    rd_in q h (by omega) (by omega), rd_in q h (by omega) (by omega)]
  simp only [Option.bind_some]
  have e : (P.dryTolerance < q (i, j, 1) * (groundAt P aux (i, j)).κ) =
      Wet P.dryTolerance (waterAt q (i, j)) (groundAt P aux (i, j)) := rfl
  unfold add
  by_cases hw : Wet P.dryTolerance (waterAt q (i, j)) (groundAt P aux (i, j))
  · rw [if_pos (e ▸ hw)]
    simp only [if_pos hw]
    rfl
  · rw [if_neg (e ▸ hw)]
    simp only [if_neg hw, add_zero]
    rfl

theorem wetCells_nat (tol : ℚ) (w : Nat → Nat → Water) (g : Nat → Nat → Ground) :
    wetCells tol w g = (((0 + (if Wet tol (w 0 0) (g 0 0) then 1 else 0) + (if Wet tol (w 1 0) (g 1 0) then 1 else 0) +
      (if Wet tol (w 0 1) (g 0 1) then 1 else 0) + (if Wet tol (w 1 1) (g 1 1) then 1 else 0) : ℤ)) : ℚ) := by
  unfold wetCells wetSum sum4
  push_cast
  simp only [zero_add]

theorem averageCell_spec {d : Dims} {P : Params} (hs : Sizes d P) (auxC auxF qf : Grid ℚ) (c2 : ℤ → ℤ × ℤ)
    (c : Nat → Nat → ℤ × ℤ) (hc : ∀ x y : Nat, x < 2 → y < 2 → c2 (x + 2 * y) = c x y)
    (hi : All4 fun x y => inPatch d (c x y).1 (c x y).2) {i j : ℤ} (hij : inPatch d i j)
    (hk : (groundAt P auxC (i, j)).κ ≠ 0)
    (ht : wetCells P.dryTolerance (fun x y => waterAt qf (c x y)) (fun x y => groundAt P auxF (c x y)) ≠ 0 →
      (sum4 fun x y => (waterAt qf (c x y)).h * (groundAt P auxF (c x y)).κ) ≠ 0) :
    averageCell d P auxC auxF qf c2 i j =
      some ((merged P.dryTolerance (fun x y => waterAt qf (c x y)) (fun x y => groundAt P auxF (c x y)) (groundAt P auxC (i, j))).h,
       (merged P.dryTolerance (fun x y => waterAt qf (c x y)) (fun x y => groundAt P auxF (c x y)) (groundAt P auxC (i, j))).hu,
       (merged P.dryTolerance (fun x y => waterAt qf (c x y)) (fun x y => groundAt P auxF (c x y)) (groundAt P auxC (i, j))).hv) := by
  have c0 : c2 0 = c 0 0 := hc 0 0 (by omega) (by omega)
  have c1 : c2 1 = c 1 0 := hc 1 0 (by omega) (by omega)
  have c2' : c2 2 = c 0 1 := hc 0 1 (by omega) (by omega)
  have c3 : c2 3 = c 1 1 := hc 1 1 (by omega) (by omega)
  obtain ⟨i0, i1, i2, i3⟩ := all4 hi
  unfold averageCell
  rw [capacity_in hs auxC hij]
  simp only [Option.bind_some, doLoop_zero_three, c0, c1, c2', c3, addFine_spec hs qf auxF i0, addFine_spec hs qf auxF i1,
    addFine_spec hs qf auxF i2, addFine_spec hs qf auxF i3, Prod.mk.eta]
  generalize hw : (fun x y => waterAt qf (c x y)) = w at ht ⊢
  generalize hg : (fun x y => groundAt P auxF (c x y)) = g at ht ⊢
  have w0 : ∀ x y, waterAt qf (c x y) = w x y := fun x y => by rw [← hw]
  have g0 : ∀ x y, groundAt P auxF (c x y) = g x y := fun x y => by rw [← hg]
  simp only [w0, g0] at ht ⊢
  generalize hG : groundAt P auxC (i, j) = G at hk ⊢
  generalize hS : add P.dryTolerance (w 1 1) (g 1 1) (add P.dryTolerance (w 0 1) (g 0 1)
    (add P.dryTolerance (w 1 0) (g 1 0) (add P.dryTolerance (w 0 0) (g 0 0) ⟨0, 0, 0, 0, 0⟩))) = S
  have sh : S.h = sum4 fun x y => (w x y).h * (g x y).κ := by rw [← hS]; simp only [add, sum4, zero_add]
  have se : S.eta = wetSum P.dryTolerance w g fun x y => (w x y).h * (g x y).κ + (g x y).b * (g x y).κ := by
    rw [← hS]; simp only [add, wetSum, sum4, zero_add]
  have su : S.hu = wetSum P.dryTolerance w g fun x y => (w x y).hu * (g x y).κ := by
    rw [← hS]; simp only [add, wetSum, sum4, zero_add]
  have sv : S.hv = wetSum P.dryTolerance w g fun x y => (w x y).hv * (g x y).κ := by
    rw [← hS]; simp only [add, wetSum, sum4, zero_add]
  have sn : (S.nwet : ℚ) = wetCells P.dryTolerance w g := by rw [wetCells_nat, ← hS]; simp only [add]
  have snn : 0 ≤ S.nwet := by rw [← hS]; simp only [add]; split_ifs <;> omega
  unfold merged
  dsimp only
  rw [← sn, ← se, ← su, ← sv, ← sh]
  rw [← sn, ← sh] at ht
  have m := hs.meqn
  have a := hs.maux
  by_cases hn : S.nwet = 0
  · simp only [hn, lt_self_iff_false, if_false, Option.bind_some, Int.cast_zero, if_true, divide, hk, zero_div,
      zero_mul]
  · have hn' : (S.nwet : ℚ) ≠ 0 := by exact_mod_cast hn
    have hp : 0 < S.nwet := by omega
    have hb : auxC (i, j, 1) = G.b := by rw [← hG]; rfl
    rw [if_pos hp, rdAux_in auxC hij (by omega) (by omega), hb]
    simp only [Option.bind_some, divide, if_neg (ht hn'), if_neg hk, if_neg hn']
    congr 1
    have ht' := ht hn'
    ext
    · rfl
    · dsimp only; field_simp
    · dsimp only; field_simp

theorem store_writes {d : Dims} (hm : 3 ≤ d.meqn) {i j : ℤ} (h : inPatch d i j) (v : Cell → ℚ) (w : ℚ × ℚ × ℚ)
    (h1 : v (i, j, 1) = w.1) (h2 : v (i, j, 2) = w.2.1) (h3 : v (i, j, 3) = w.2.2) :
    Writes (fun c => c.1 = i ∧ c.2.1 = j ∧ 1 ≤ c.2.2 ∧ c.2.2 ≤ 3) v (store d i j w) := by
  have bx : ∀ m : ℤ, 1 ≤ m → m ≤ 3 → inBox d (i, j, m) := by
    intro m a b
    rw [inBox_iff]
    obtain ⟨_, _, _, _⟩ := h
    omega
  intro q
  unfold store wr
  simp only [bx 1 (by omega) (by omega), bx 2 (by omega) (by omega), bx 3 (by omega) (by omega), if_true, Option.bind_some]
  refine ⟨_, rfl, ?_, ?_⟩
  · rintro ⟨a, b, m⟩ ⟨rfl, rfl, m1, m2⟩
    dsimp only at m1 m2
    have : m = 1 ∨ m = 2 ∨ m = 3 := by omega
    rcases this with rfl | rfl | rfl <;> simp [*]
  · rintro ⟨a, b, m⟩ hn
    dsimp only at hn ⊢
    have n1 : ¬ (a, b, m) = (i, j, 1) := by rintro ⟨⟩; exact hn ⟨rfl, rfl, by omega, by omega⟩
    have n2 : ¬ (a, b, m) = (i, j, 2) := by rintro ⟨⟩; exact hn ⟨rfl, rfl, by omega, by omega⟩
    have n3 : ¬ (a, b, m) = (i, j, 3) := by rintro ⟨⟩; exact hn ⟨rfl, rfl, by omega, by omega⟩
    simp [n1, n2, n3]

/-! ### Averaging -/

/-- Enough that the means are defined. -/
structure Safe (d : Dims) (P : Params) (qf auxF auxC : Grid ℚ) (S : ℤ → ℤ → Prop) : Prop where
  sizes : Sizes d P
  tol : 0 ≤ P.dryTolerance
  fine : Sound P qf auxF (interior d)
  coarse : ∀ i j, S i j → 0 < (groundAt P auxC (i, j)).κ

theorem interior_inPatch {d : Dims} {i j : ℤ} (h : interior d i j) : inPatch d i j := by
  obtain ⟨_, _, _, _⟩ := h
  unfold inPatch
  omega

/-- The water expected in a coarse cell. -/
def expected (P : Params) (auxC auxF qf : Grid ℚ) (c : ℤ → ℤ → Nat → Nat → ℤ × ℤ) (i j : ℤ) : Water :=
  merged P.dryTolerance (fun x y => waterAt qf (c i j x y)) (fun x y => groundAt P auxF (c i j x y)) (groundAt P auxC (i, j))

/-- One of the components. -/
def Water.comp (w : Water) (m : ℤ) : ℚ := if m = 1 then w.h else if m = 2 then w.hu else w.hv

theorem averageStore_writes {d : Dims} {P : Params} {auxC auxF qf : Grid ℚ} {S : ℤ → ℤ → Prop}
    (hs : Safe d P qf auxF auxC S) (c2 : ℤ → ℤ × ℤ) (c : ℤ → ℤ → Nat → Nat → ℤ × ℤ) {i j : ℤ}
    (hc : ∀ x y : Nat, x < 2 → y < 2 → c2 (x + 2 * y) = c i j x y)
    (hi : ∀ x y : Nat, x < 2 → y < 2 → interior d (c i j x y).1 (c i j x y).2) (hij : inPatch d i j) (hS : S i j) :
    Writes (fun e => e.1 = i ∧ e.2.1 = j ∧ 1 ≤ e.2.2 ∧ e.2.2 ≤ 3)
      (fun e => (expected P auxC auxF qf c e.1 e.2.1).comp e.2.2)
      (fun q => (averageCell d P auxC auxF qf c2 i j).bind fun w => store d i j w q) := by
  rw [averageCell_spec hs.sizes auxC auxF qf c2 (c i j) hc (fun x y hx hy => interior_inPatch (hi x y hx hy)) hij
    (ne_of_gt (hs.coarse i j hS))]
  · simp only [Option.bind_some]
    exact store_writes hs.sizes.meqn hij _ _ rfl rfl rfl
  · intro hn
    exact ne_of_gt (total_pos hs.tol (w := fun x y => waterAt qf (c i j x y)) (g := fun x y => groundAt P auxF (c i j x y))
      (fun x y hx hy => hs.fine.depth _ _ (hi x y hx hy)) (fun x y hx hy => hs.fine.capacity _ _ (hi x y hx hy)) hn)

theorem strip_inPatch {d : Dims} {f : Nat} {i j : ℤ} (h : inStrip d f i j) : inPatch d i j := by
  have := strip_inBox (d := { d with meqn := 1 }) (mq := 1) h ⟨by omega, by simp⟩
  rw [inBox_iff] at this
  unfold inPatch
  simp only at this
  omega

theorem corner_inPatch {d : Dims} {k : Nat} {i j : ℤ} (h : inCorner d k i j) : inPatch d i j := by
  have := corner_inBox (d := { d with meqn := 1 }) (mq := 1) h ⟨by omega, by simp⟩
  rw [inBox_iff] at this
  unfold inPatch
  simp only at this
  omega

theorem averageFaceBody_writes {d : Dims} (hd : EvenDims d) (td : TData) {f g : Nat} (hf : f < 4) (hg : g < 2)
    {o : Orient} (ho : o.ok d) (hM : Maps d (faceHalfStep f g) o (clawFaceHalf d td)) {P : Params} {auxC auxF qf : Grid ℚ}
    (hs : Safe d P qf auxF auxC (inHalfStrip d f g)) {i j : ℤ} (h : inStrip d f i j) :
    Writes (fun e => (e.1 = i ∧ e.2.1 = j ∧ 1 ≤ e.2.2 ∧ e.2.2 ≤ 3) ∧ inHalfStrip d f g i j)
      (fun e => (expected P auxC auxF qf (cells o d (faceHalfStep f g)) e.1 e.2.1).comp e.2.2)
      (averageFaceBody d td P auxC auxF qf i j) := by
  obtain ⟨c2, e, h2⟩ := hM i j
  have c0 := h2 0 0 (by omega) (by omega)
  have c1 := h2 1 0 (by omega) (by omega)
  have c2' := h2 0 1 (by omega) (by omega)
  have c3 := h2 1 1 (by omega) (by omega)
  simp only [Nat.cast_zero, Nat.cast_one, mul_zero, mul_one, zero_add, add_zero] at c0 c1 c2' c3
  norm_num at c3
  unfold averageFaceBody
  simp only [e, Option.bind_some]
  by_cases hh : inHalfStrip d f g i j
  · have H : ∀ x y : Nat, x < 2 → y < 2 → interior d (cells o d (faceHalfStep f g) i j x y).1
        (cells o d (faceHalfStep f g) i j x y).2 := fun x y hx hy => half_interior hd hf hg ho hh hx hy
    have v0 := (validAverage_iff d _ _).2 (H 0 0 (by omega) (by omega))
    have v1 := (validAverage_iff d _ _).2 (H 1 0 (by omega) (by omega))
    have v2 := (validAverage_iff d _ _).2 (H 0 1 (by omega) (by omega))
    have v3 := (validAverage_iff d _ _).2 (H 1 1 (by omega) (by omega))
    unfold cells at v0 v1 v2 v3
    rw [c0, c1, c2', c3, v0, v1, v2, v3]
    simp only [Bool.and_self, if_true]
    refine (averageStore_writes hs c2 _ h2 H (strip_inPatch h) hh).congr ?_
    intro c; exact ⟨fun h => ⟨h, hh⟩, fun h => h.1⟩
  · have nv : ¬ (validAverage d (o.map d (faceHalfStep f g) (quarter i 0) (quarter j 0)).1
        (o.map d (faceHalfStep f g) (quarter i 0) (quarter j 0)).2 = true) := by
      rw [validAverage_iff]; exact other_half hd hf hg ho h hh
    rw [c0]
    simp only [nv, Bool.false_and, Bool.false_eq_true, if_false]
    exact CoarseFine.Writes.skip _ _ fun c h => hh h.2

theorem averageFace_writes {d : Dims} (hd : EvenDims d) (td : TData) {f g : Nat} (hf : f < 4) (hg : g < 2)
    {o : Orient} (ho : o.ok d) (hM : Maps d (faceHalfStep f g) o (clawFaceHalf d td)) {P : Params} {auxC auxF qf : Grid ℚ}
    (hs : Safe d P qf auxF auxC (inHalfStrip d f g)) :
    Writes (fun e => inHalfStrip d f g e.1 e.2.1 ∧ 1 ≤ e.2.2 ∧ e.2.2 ≤ 3)
      (fun e => (expected P auxC auxF qf (cells o d (faceHalfStep f g)) e.1 e.2.1).comp e.2.2)
      (averageFace d td P f auxC auxF qf) := by
  have body := fun i j h => averageFaceBody_writes hd td hf hg ho hM hs (i := i) (j := j) h
  unfold averageFace
  by_cases h2 : f / 2 = 0
  · simp only [if_pos h2]
    have key : ∀ jc ibc : ℤ, 1 ≤ jc → jc ≤ d.my → 1 ≤ ibc → ibc ≤ d.mbc →
        inStrip d f (if f = 0 then 1 - ibc else d.mx + ibc) jc := by
      intro jc ibc a b c e
      rcases four hf with rfl | rfl | rfl | rfl <;> simp [inStrip] at h2 ⊢ <;> omega
    refine (Writes.doLoop _ _ _ _ _ fun jc j1 j2 =>
      Writes.doLoop _ _ _ _ _ fun ibc i1 i2 => body _ _ (key jc ibc j1 j2 i1 i2)).congr ?_
    rintro ⟨i, j, mq⟩
    constructor
    · rintro ⟨jc, j1, j2, ibc, i1, i2, ⟨e1, e2, m1, m2⟩, h⟩
      dsimp only at e1 e2 m1 m2 ⊢
      rw [e1, e2]
      exact ⟨h, m1, m2⟩
    · rintro ⟨h, m1, m2⟩
      have hs := h.1
      dsimp only at h hs m1 m2
      refine ⟨j, ?_, ?_, if f = 0 then 1 - i else i - d.mx, ?_, ?_, ⟨?_, rfl, m1, m2⟩, ?_⟩
      all_goals rcases four hf with rfl | rfl | rfl | rfl <;> simp [inStrip] at h2 hs ⊢ <;> first | omega | exact h
  · simp only [if_neg h2]
    have key : ∀ jbc ic : ℤ, 1 ≤ jbc → jbc ≤ d.mbc → 1 ≤ ic → ic ≤ d.mx →
        inStrip d f ic (if f = 2 then 1 - jbc else d.my + jbc) := by
      intro jc ibc a b c e
      rcases four hf with rfl | rfl | rfl | rfl <;> simp [inStrip] at h2 ⊢ <;> omega
    refine (Writes.doLoop _ _ _ _ _ fun jbc j1 j2 =>
      Writes.doLoop _ _ _ _ _ fun ic i1 i2 => body _ _ (key jbc ic j1 j2 i1 i2)).congr ?_
    rintro ⟨i, j, mq⟩
    constructor
    · rintro ⟨jc, j1, j2, ibc, i1, i2, ⟨e1, e2, m1, m2⟩, h⟩
      dsimp only at e1 e2 m1 m2 ⊢
      rw [e1, e2]
      exact ⟨h, m1, m2⟩
    · rintro ⟨h, m1, m2⟩
      have hs := h.1
      dsimp only at h hs m1 m2
      refine ⟨if f = 2 then 1 - j else j - d.my, ?_, ?_, i, ?_, ?_, ⟨rfl, ?_, m1, m2⟩, ?_⟩
      all_goals rcases four hf with rfl | rfl | rfl | rfl <;> simp [inStrip] at h2 hs ⊢ <;> first | omega | exact h

theorem averageCorner_writes {d : Dims} (hd : EvenDims d) (td : TData) {k : Nat} (hk : k < 4)
    {o : Orient} (ho : o.ok d) (hM : Maps d (cornerHalfStep k) o (clawCornerHalf d td)) {P : Params} {auxC auxF qf : Grid ℚ}
    (hs : Safe d P qf auxF auxC (inCorner d k)) :
    Writes (fun e => inCorner d k e.1 e.2.1 ∧ 1 ≤ e.2.2 ∧ e.2.2 ≤ 3)
      (fun e => (expected P auxC auxF qf (cells o d (cornerHalfStep k)) e.1 e.2.1).comp e.2.2)
      (averageCorner d td P k auxC auxF qf) := by
  unfold averageCorner
  refine (Writes.doLoop (fun ibc e => ∃ jbc : ℤ, 1 ≤ jbc ∧ jbc ≤ d.mbc ∧
    (e.1 = (cornerCell d k ibc jbc).1 ∧ e.2.1 = (cornerCell d k ibc jbc).2 ∧ 1 ≤ e.2.2 ∧ e.2.2 ≤ 3)) _ _ _ _ fun ibc i1 i2 =>
    Writes.doLoop (fun jbc e => e.1 = (cornerCell d k ibc jbc).1 ∧ e.2.1 = (cornerCell d k ibc jbc).2 ∧
      1 ≤ e.2.2 ∧ e.2.2 ≤ 3) _ _ _ _ fun jbc j1 j2 => ?_).congr ?_
  · have hin : inCorner d k (cornerCell d k ibc jbc).1 (cornerCell d k ibc jbc).2 := by
      rcases four hk with rfl | rfl | rfl | rfl <;> simp [inCorner, cornerCell] <;> omega
    obtain ⟨c2, e, h2⟩ := hM (cornerCell d k ibc jbc).1 (cornerCell d k ibc jbc).2
    simp only [e, Option.bind_some]
    exact averageStore_writes hs c2 _ h2 (fun x y hx hy => corner_interior hd hk ho hin hx hy) (corner_inPatch hin) hin
  · rintro ⟨i, j, mq⟩
    constructor
    · rintro ⟨ibc, i1, i2, jbc, j1, j2, e1, e2, m1, m2⟩
      dsimp only at e1 e2 m1 m2 ⊢
      refine ⟨?_, m1, m2⟩
      rw [e1, e2]
      rcases four hk with rfl | rfl | rfl | rfl <;> simp [inCorner, cornerCell] <;> omega
    · rintro ⟨h, m1, m2⟩
      dsimp only at h m1 m2
      rcases four hk with rfl | rfl | rfl | rfl <;> simp [inCorner] at h
      · exact ⟨1 - i, by omega, by omega, 1 - j, by omega, by omega, by simp [cornerCell], by simp [cornerCell], m1, m2⟩
      · exact ⟨i - d.mx, by omega, by omega, 1 - j, by omega, by omega, by simp [cornerCell], by simp [cornerCell], m1, m2⟩
      · exact ⟨1 - i, by omega, by omega, j - d.my, by omega, by omega, by simp [cornerCell], by simp [cornerCell], m1, m2⟩
      · exact ⟨i - d.mx, by omega, by omega, j - d.my, by omega, by omega, by simp [cornerCell], by simp [cornerCell], m1, m2⟩

end Fclaw.Geo
