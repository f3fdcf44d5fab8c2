/-
C36: corrections restore conservation.
-/
import Verif.Correction.Interface
import Verif.Transform.Props
import Mathlib.Tactic.NormNum

set_option autoImplicit false
set_option linter.unusedSimpArgs false
set_option linter.unusedVariables false
namespace Fclaw.Correction

open Fort Transform CopyGhost

variable {d : Dims}

/-- Between synchronisations: the mass of a patch changes by what its registers say it gained through its four
faces, for any number of steps of any lengths, any ghost values, and any conservative Riemann solver. -/
theorem C36_steps (hx : 1 ≤ d.mx) (hy : 1 ≤ d.my) (G : Geom d) (rpn : Rpn) (q0 q : Grid ℚ) (r0 r : Regs)
    (h : Evolves d G rpn q0 r0 q r) (hb : Balanced d r0) :
    (∀ m, comp d m → mass d G.area q m - mass d G.area q0 m =
      ∑ f ∈ Finset.range 4, (gainFace d r f m - gainFace d r0 f m)) ∧
    Balanced d r ∧ r.area = r0.area := by
  induction h with
  | start => exact ⟨fun m hm => by simp, hb, rfl⟩
  | step q q' r dt aux w _ hq hc ih =>
    obtain ⟨i1, i2, i3⟩ := ih
    refine ⟨?_, balanced_step G rpn q' aux w r dt hx hy hc i2, i3⟩
    intro m hm
    have s := mass_step hx hy G rpn q' aux w r dt hc m hm
    have i := i1 m hm
    rw [mass_congr G.area q q' m hq] at s
    unfold totalGain at s
    rw [Finset.sum_sub_distrib] at i ⊢
    linarith

theorem empty_balanced (area el : Nat → ℤ → ℚ) : Balanced d (Regs.empty area el) := by
  intro f hf t ht m hm
  unfold plus minus Regs.empty
  simp

theorem empty_gain (area el : Nat → ℤ → ℚ) (f : Nat) (m : ℤ) : gainFace d (Regs.empty area el) f m = 0 := by
  unfold gainFace gain plus minus Regs.empty
  simp

/-- The correction from a fine patch: in each cell of the coarse patch that touches the fine patch, mass
changes by the opposite of what the coarse cell gained and of what the two fine cells next to it gained
through the face. Nothing else changes, and no access is out of bounds. -/
theorem C36_f2c (hd : Sized d) (td : TData) (f g : Nat) (hf : f < 4) (hg : g < 2)
    (hl : HalfLink d td.transform f g td.this td.neighbor) (qtfi : ℤ) (hq : MeshFace td.transform f qtfi)
    (coarse fine : Regs) (hb : Balanced d fine) (hpos : ∀ t ∈ upTo (len d f), 0 < coarse.area f t) (q : Grid ℚ) :
    ∃ q', f2c d td f (normalMatch f qtfi) coarse fine q = some q' ∧
      (∀ t ∈ upTo (len d f), inHalf (len d f) g t → ∀ m, comp d m →
        coarse.area f t * (q' ((cellAt d f t).1, (cellAt d f t).2, m) - q ((cellAt d f t).1, (cellAt d f t).2, m)) =
          -(gain coarse f t m + gain fine (otherFace td.transform f) (finePlace td.transform (len d f) g t 0) m +
            gain fine (otherFace td.transform f) (finePlace td.transform (len d f) g t 1) m)) ∧
      ∀ c, (¬ ∃ t ∈ upTo (len d f), inHalf (len d f) g t ∧ ∃ m, comp d m ∧ c = ((cellAt d f t).1, (cellAt d f t).2, m)) →
        q' c = q c := by
  obtain ⟨q', e, h1, h2⟩ := f2c_spec hd td f g hf hg hl qtfi hq coarse fine hb q
  refine ⟨q', e, ?_, ?_⟩
  · intro t ht hh m hm
    have hp := hpos t ht
    rw [h1 t ht m hm]
    unfold owed two
    rw [if_pos hh]
    field_simp
    ring
  · intro c hc
    by_cases h : ∃ t ∈ upTo (len d f), ∃ m, comp d m ∧ c = ((cellAt d f t).1, (cellAt d f t).2, m)
    · obtain ⟨t, ht, m, hm, rfl⟩ := h
      rw [h1 t ht m hm]
      unfold owed
      rw [if_neg fun hh => hc ⟨t, ht, hh, m, hm, rfl⟩]
      simp
    · exact h2 c h

/-- The correction from a patch of the same size: each of the two patches makes half of it. -/
theorem C36_samesize (hd : Proper d) (h2 : 2 ≤ d.mbc) (td : TData) (f : Nat) (hf : f < 4)
    (hl : SameLink d td.transform f td.this td.neighbor)
    (this nbr : Regs) (hb : Balanced d nbr) (hpos : ∀ t ∈ upTo (len d f), 0 < this.area f t) (q : Grid ℚ) :
    ∃ q', samesize d td f this nbr q = some q' ∧
      (∀ t ∈ upTo (len d f), ∀ m, comp d m →
        this.area f t * (q' ((cellAt d f t).1, (cellAt d f t).2, m) - q ((cellAt d f t).1, (cellAt d f t).2, m)) =
          -(gain this f t m + gain nbr (otherFace td.transform f) (samePlace td.transform (len d f) t) m) / 2) ∧
      ∀ c, (¬ ∃ t ∈ upTo (len d f), ∃ m, comp d m ∧ c = ((cellAt d f t).1, (cellAt d f t).2, m)) → q' c = q c := by
  obtain ⟨q', e, h1, h2⟩ := samesize_spec hd h2 td f hf hl this nbr hb q
  refine ⟨q', e, ?_, h2⟩
  intro t ht m hm
  have hp := hpos t ht
  rw [h1 t ht m hm]
  unfold owedSame
  field_simp
  ring

theorem cellAt_mem (hd : 1 ≤ d.mx ∧ 1 ≤ d.my) (f : Nat) (t : ℤ) (ht : t ∈ upTo (len d f)) :
    (cellAt d f t).1 ∈ upTo d.mx ∧ (cellAt d f t).2 ∈ upTo d.my := by
  obtain ⟨_, _⟩ := hd
  rw [mem_upTo] at ht
  rw [mem_upTo, mem_upTo]
  unfold len at ht
  unfold cellAt
  split at ht <;> split
  all_goals first
    | (dsimp only; omega)
    | (split
       · dsimp only; omega
       · split <;> (dsimp only; omega))

/-- Mass added by a correction from a fine patch. -/
theorem f2c_mass (hd : Sized d) (G : Geom d) (td : TData) (f g : Nat) (hf : f < 4) (hg : g < 2)
    (hl : HalfLink d td.transform f g td.this td.neighbor) (qtfi : ℤ) (hq : MeshFace td.transform f qtfi)
    (coarse fine : Regs) (hb : Balanced d fine) (ha : HasAreas d G coarse) (q : Grid ℚ) :
    ∃ q', f2c d td f (normalMatch f qtfi) coarse fine q = some q' ∧ ∀ m, comp d m →
      mass d G.area q' m - mass d G.area q m =
        -(∑ t ∈ upTo (len d f), (if inHalf (len d f) g t then gain coarse f t m else 0)) -
          gainFace d fine (otherFace td.transform f) m := by
  obtain ⟨q', e, h1, h2⟩ := f2c_spec hd td f g hf hg hl qtfi hq coarse fine hb q
  refine ⟨q', e, ?_⟩
  intro m hm
  obtain ⟨F4, eL, eS⟩ := faces td.transform f g hf _ _ hl
  rw [mass_add (sized_pos hd) f hf G.area G.areapos q q' m (fun t => owed d td.transform f g coarse fine t m)
    (fun t ht => by rw [h1 t ht m hm, ha f hf t ht])
    (fun i j h => h2 _ (by
      rintro ⟨t, ht, m', _, e⟩
      refine h ⟨t, ht, ?_⟩
      obtain ⟨e1, e2⟩ := Prod.mk.inj e
      rw [e1, (Prod.mk.inj e2).1]))]
  unfold gainFace
  rw [eL, ← sum_two (len d f) g (len_even hd f).1 hg td.transform (fun t => gain fine (otherFace td.transform f) t m),
    ← Finset.sum_neg_distrib, ← Finset.sum_sub_distrib]
  refine Finset.sum_congr rfl fun t ht => ?_
  unfold owed
  split <;> ring

/-- Mass added by a correction from a patch of the same size. -/
theorem samesize_mass (hd : Proper d) (h2 : 2 ≤ d.mbc) (G : Geom d) (td : TData) (f : Nat) (hf : f < 4)
    (hl : SameLink d td.transform f td.this td.neighbor)
    (this nbr : Regs) (hb : Balanced d nbr) (ha : HasAreas d G this) (q : Grid ℚ) :
    ∃ q', samesize d td f this nbr q = some q' ∧ ∀ m, comp d m →
      mass d G.area q' m - mass d G.area q m =
        -(gainFace d this f m + gainFace d nbr (otherFace td.transform f) m) / 2 := by
  obtain ⟨q', e, h1, h2⟩ := samesize_spec hd h2 td f hf hl this nbr hb q
  refine ⟨q', e, ?_⟩
  intro m hm
  obtain ⟨F4, eL, eS⟩ := faces_same td.transform f hf _ _ hl
  rw [mass_add ⟨hd.1, hd.2.1⟩ f hf G.area G.areapos q q' m (fun t => 1 / 2 * owedSame d td.transform f this nbr t m)
    (fun t ht => by rw [h1 t ht m hm, ha f hf t ht])
    (fun i j h => h2 _ (by
      rintro ⟨t, ht, m', _, e⟩
      refine h ⟨t, ht, ?_⟩
      obtain ⟨e1, e2⟩ := Prod.mk.inj e
      rw [e1, (Prod.mk.inj e2).1]))]
  unfold gainFace
  rw [eL, ← sum_same td.transform (len d f) (fun t => gain nbr (otherFace td.transform f) t m), ← Finset.mul_sum]
  unfold owedSame
  rw [Finset.sum_neg_distrib, Finset.sum_add_distrib]
  ring

/-- **C36**. A coarse patch and a fine one at half `g` of its face `f` have each made any steps since the
registers were last empty. After the correction the coarse patch has gained, through that half of its face,
exactly what the fine patch has lost through its own face: its mass has changed by what it gained through its
other faces and the other half, minus the fine patch's gain. -/
theorem C36 (hd : Sized d) (G G' : Geom d) (rpn rpn' : Rpn) (td : TData) (f g : Nat) (hf : f < 4) (hg : g < 2)
    (hl : HalfLink d td.transform f g td.this td.neighbor) (qtfi : ℤ) (hq : MeshFace td.transform f qtfi)
    (q0 q p0 p : Grid ℚ) (area el area' el' : Nat → ℤ → ℚ) (coarse fine : Regs)
    (hc : Evolves d G rpn q0 (Regs.empty area el) q coarse) (hf' : Evolves d G' rpn' p0 (Regs.empty area' el') p fine)
    (ha : HasAreas d G (Regs.empty area el)) :
    ∃ q', f2c d td f (normalMatch f qtfi) coarse fine q = some q' ∧ ∀ m, comp d m →
      mass d G.area q' m - mass d G.area q0 m =
        ∑ f' ∈ (Finset.range 4).erase f, gainFace d coarse f' m +
        ∑ t ∈ (upTo (len d f)).filter (fun t => ¬ inHalf (len d f) g t), gain coarse f t m -
        gainFace d fine (otherFace td.transform f) m ∧
      mass d G'.area p m - mass d G'.area p0 m = ∑ f' ∈ Finset.range 4, gainFace d fine f' m := by
  obtain ⟨hx, hy⟩ := sized_pos hd
  obtain ⟨c1, c2, c3⟩ := C36_steps hx hy G rpn q0 q _ coarse hc (empty_balanced _ _)
  obtain ⟨f1, f2, f3⟩ := C36_steps hx hy G' rpn' p0 p _ fine hf' (empty_balanced _ _)
  obtain ⟨q', e, h⟩ := f2c_mass hd G td f g hf hg hl qtfi hq coarse fine f2
    (fun f hf t ht => by rw [c3]; exact ha f hf t ht) q
  refine ⟨q', e, ?_⟩
  intro m hm
  have k := c1 m hm
  have k' := f1 m hm
  simp only [empty_gain, sub_zero] at k k'
  refine ⟨?_, k'⟩
  have h := h m hm
  rw [← Finset.add_sum_erase _ _ (Finset.mem_range.2 hf)] at k
  have split' : gainFace d coarse f m = ∑ t ∈ upTo (len d f), (if inHalf (len d f) g t then gain coarse f t m else 0) +
      ∑ t ∈ (upTo (len d f)).filter (fun t => ¬ inHalf (len d f) g t), gain coarse f t m := by
    unfold gainFace
    rw [← Finset.sum_filter, Finset.sum_filter_add_sum_filter_not]
  linarith

/-! ### Examples -/

def exD : Dims := ⟨4, 4, 2, 1⟩

theorem exSized : Sized exD := ⟨rfl, rfl, by decide, by decide, by decide⟩

def exGeom : Geom exD := ⟨1 / 4, 1 / 4, fun _ _ => 1 / 16, by norm_num, by norm_num, fun _ _ _ _ => by norm_num⟩

/-- A patch at the right end of its block, next to the upper end of another block that is turned. -/
def exThis : Patch := ⟨1, fun a => if a = 0 then 1 / 2 else 0⟩
def exFine : Patch := ⟨2, fun _ => 3 / 4⟩
def exTd : TData := ⟨exThis, exFine, expand2 1 7, 0, false, -1, fun _ _ _ => 0⟩

theorem exHalf : HalfLink exD exTd.transform 1 0 exTd.this exTd.neighbor := by
  refine ⟨rfl, ?_, ?_, ?_⟩
  · intro a
    by_cases h : a = 0
    · exact ⟨1, by simp [exTd, exThis, h]⟩
    · exact ⟨0, by simp [exTd, exThis, h]⟩
  · intro a; exact ⟨3, by simp [exTd, exFine]; norm_num⟩
  · rw [if_neg (by decide)]
    refine ⟨(C13_gluing_2d 1 7 (by omega) (by omega)).1, by simp [SizesMatch, sizes, exD, exTd, expand2], by decide, by decide, ?_⟩
    constructor
    · simp [expand2, patchCentre, exTd, exThis, exFine, halfCentre]; norm_num
    · simp
    · simp [expand2, patchCentre, exTd, exThis, exFine, halfCentre, inside, outside]; norm_num

/-- Advection to the right with speed 1, by upwinding. -/
def exRpn : Rpn := fun dir _ q _ _ m => if dir = 0 then q m else 0

def exWaves (q : Grid ℚ) : Waves :=
  ⟨fun c => -(q c - q (c.1 - 1, c.2.1, c.2.2)), fun _ => 0, fun _ => 0, fun _ => 0⟩

def exEl : Nat → ℤ → ℚ := fun _ _ => 1 / 4

theorem exConservative (q aux : Grid ℚ) : Conservative exD exGeom exRpn q aux (exWaves q) exEl := by
  refine ⟨fun k i j m => if k < 2 then 1 / 4 * q (i, j, m) else 0, ?_⟩
  intro m hm
  refine ⟨?_, ?_, ?_, ?_, ?_⟩
  · intro i j _ _ _ _
    simp [exGeom, exWaves]
    ring
  · intro i j _ _ _ _
    simp [exGeom, exWaves]
  · intro i j _ _ _ _
    simp
  · intro j _ _
    simp [exEl, exRpn, vec]
  · intro i _ _
    simp [exEl, exRpn, vec]

/-- Two steps. -/
theorem exEvolves (q : Grid ℚ) : ∃ q' r, Evolves exD exGeom exRpn q (Regs.empty (fun _ _ => 1 / 16) exEl) q' r :=
  ⟨_, _, .step _ _ _ (1 / 8) (fun _ => 0) (exWaves _) (.step _ q _ (1 / 16) (fun _ => 0) (exWaves q) .start
    (fun _ _ _ _ => rfl) (exConservative q _)) (fun _ _ _ _ => rfl) (exConservative _ _)⟩

example : Sized exD ∧ HalfLink exD exTd.transform 1 0 exTd.this exTd.neighbor ∧ MeshFace exTd.transform 1 (-1) ∧
    HasAreas exD exGeom (Regs.empty (fun _ _ => 1 / 16) exEl) ∧ comp exD 1 ∧ otherFace exTd.transform 1 = 3 ∧
    backwards exTd.transform = true :=
  ⟨exSized, exHalf, by unfold MeshFace; decide, fun _ _ _ _ => rfl, by unfold comp; decide, by decide, by decide⟩

/-- A neighbour of the same size in the same block. -/
example : SameLink exD (fun k => if k = 8 then 4 else 0) 1 ⟨1, fun _ => 0⟩ ⟨1, fun a => if a = 0 then 1 / 2 else 0⟩ := by
  refine ⟨⟨⟨rfl, fun a => ⟨0, by simp⟩, fun a => ?_⟩, ?_⟩, fun h => absurd (by decide) h⟩
  · by_cases h : a = 0
    · exact ⟨1, by simp [h]⟩
    · exact ⟨0, by simp [h]⟩
  · rw [if_pos (by decide)]
    refine ⟨by decide, ?_⟩
    intro a ha
    simp [axes] at ha
    rcases ha with rfl | rfl <;> simp [faceStep]

/-- With one layer of ghost cells, the array that the fine values are copied to is too small: the correction
writes out of bounds. -/
theorem C36_mbc1_counterexample :
    f2c ⟨2, 2, 1, 1⟩ exTd 1 (normalMatch 1 (-1)) (Regs.empty (fun _ _ => 1) fun _ _ => 1)
      (Regs.empty (fun _ _ => 1) fun _ _ => 1) (fun _ => 0) = none := by
  have h : (f2c ⟨2, 2, 1, 1⟩ exTd 1 (normalMatch 1 (-1)) (Regs.empty (fun _ _ => 1) fun _ _ => 1)
      (Regs.empty (fun _ _ => 1) fun _ _ => 1) (fun _ => 0)).isNone = true := by decide +kernel
  simpa using h

end Fclaw.Correction
