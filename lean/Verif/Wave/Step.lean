import Verif.Wave.Slice
import Mathlib.Tactic.IntervalCases
/-
The sweeps, the corners and the update.
-/
set_option autoImplicit false
set_option linter.unusedSimpArgs false
namespace Fclaw.Wave

open Fort

variable {z : Shape} {o : Method}

/-! ### A sweep -/

structure SweepOut (z : Shape) (S : Scheme) (F : Field) (y : Bool) (M M' : Mem) : Prop where
  fm : ∀ a b m, 1 ≤ a → a ≤ len z y + 1 → 1 ≤ b → b ≤ len z (!y) → z.eqn m →
    M' (fmL y a b m) = M (fmL y a b m) + (left S F (ixyOf y) a b m + secondOrder S F (ixyOf y) a b m)
  fp : ∀ a b m, 1 ≤ a → a ≤ len z y + 1 → 1 ≤ b → b ≤ len z (!y) → z.eqn m →
    M' (fpL y a b m) = M (fpL y a b m) + (-right S F (ixyOf y) a b m + secondOrder S F (ixyOf y) a b m)
  gm : ∀ a b m, 1 ≤ a → a ≤ len z y → 1 ≤ b → b ≤ len z (!y) + 1 → z.eqn m →
    M' (gmL y a b m) = M (gmL y a b m) + (cross S F (ixyOf y) a b false m + cross S F (ixyOf y) a (b - 1) true m)
  gp : ∀ a b m, 1 ≤ a → a ≤ len z y → 1 ≤ b → b ≤ len z (!y) + 1 → z.eqn m →
    M' (gpL y a b m) = M (gpL y a b m) + (cross S F (ixyOf y) a b false m + cross S F (ixyOf y) a (b - 1) true m)
  keepQ : ∀ i j m, M' (.q i j m) = M (.q i j m)
  keepA : ∀ i j m, M' (.aux i j m) = M (.aux i j m)
  keepD : ∀ i, M' (dtL (!y) i) = M (dtL (!y) i)
  cfl : ∃ c, IsMax (fun x => ∃ b, (2 - (z.mbc : ℤ) ≤ b ∧ b ≤ len z (!y) + z.mbc - 1) ∧ rowCourant z S F (ixyOf y) (len z y) b x) c ∧
    M' .cflgrid = max (M .cflgrid) c

theorem HoldsData.keep {F : Field} {y : Bool} {M M' : Mem} (h : HoldsData z o F y M)
    (hq : ∀ i j m, M' (.q i j m) = M (.q i j m)) (ha : ∀ i j m, M' (.aux i j m) = M (.aux i j m)) : HoldsData z o F y M' := by
  constructor
  · intro i j hg; rw [← h.q i j hg]; simp only [hq]
  · intro i j hg; rw [← h.aux i j hg]; simp only [ha]
  · intro i j hg; rw [h.cap i j hg]; simp only [ha]

theorem Holds.keepAll {S : Scheme} {F : Field} {y : Bool} {M M' : Mem} (h : Holds z o S F y M)
    (hq : ∀ i j m, M' (.q i j m) = M (.q i j m)) (ha : ∀ i j m, M' (.aux i j m) = M (.aux i j m))
    (hd : o.mcapa = 0 → ∀ i, M' (dtL y i) = M (dtL y i)) : Holds z o S F y M' :=
  ⟨h.toHoldsData.keep hq ha, fun hc i hi => by rw [hd hc, h.dt hc i hi]⟩

/-- A sweep, whatever the routine for a slice looks like; `I` is kept. -/
theorem sweep_gen {S : Scheme} {F : Field} {f : ℤ → Prog} (y : Bool) (mb : 2 ≤ z.mbc) (I : Mem → Prop)
    (hf : ∀ k s, 2 - (z.mbc : ℤ) ≤ k → k ≤ len z (!y) + z.mbc - 1 → I s → ∃ s', f k s = some s' ∧ SliceOut z S F y k s s' ∧ I s')
    (M : Mem) (hI : I M) (hc0 : 0 ≤ M .cflgrid) :
    ∃ M', doLoop (2 - (z.mbc : ℤ)) (len z (!y) + z.mbc - 1) f M = some M' ∧ SweepOut z S F y M M' ∧ I M' := by
  have n0 := len_nonneg (z := z) (!y)
  obtain ⟨M', e, p1, p2, p3, p4, p5, p6, p7, pI, p9⟩ := doLoop_inv (fun k (s : Mem) =>
      (∀ a b m, 1 ≤ a → a ≤ len z y + 1 → 1 ≤ b → z.eqn m →
        s (fmL y a b m) = M (fmL y a b m) + if b < k then left S F (ixyOf y) a b m + secondOrder S F (ixyOf y) a b m else 0) ∧
      (∀ a b m, 1 ≤ a → a ≤ len z y + 1 → 1 ≤ b → z.eqn m →
        s (fpL y a b m) = M (fpL y a b m) + if b < k then -right S F (ixyOf y) a b m + secondOrder S F (ixyOf y) a b m else 0) ∧
      (∀ a b m, 1 ≤ a → a ≤ len z y → 1 ≤ b → z.eqn m →
        s (gmL y a b m) = M (gmL y a b m) + ((if b < k then cross S F (ixyOf y) a b false m else 0) +
          if b - 1 < k then cross S F (ixyOf y) a (b - 1) true m else 0)) ∧
      (∀ a b m, 1 ≤ a → a ≤ len z y → 1 ≤ b → z.eqn m →
        s (gpL y a b m) = M (gpL y a b m) + ((if b < k then cross S F (ixyOf y) a b false m else 0) +
          if b - 1 < k then cross S F (ixyOf y) a (b - 1) true m else 0)) ∧
      (∀ i j m, s (.q i j m) = M (.q i j m)) ∧ (∀ i j m, s (.aux i j m) = M (.aux i j m)) ∧
      (∀ i, s (dtL (!y) i) = M (dtL (!y) i)) ∧ I s ∧
      ∃ c, IsMax (fun x => ∃ b, (2 - (z.mbc : ℤ) ≤ b ∧ b < k) ∧ rowCourant z S F (ixyOf y) (len z y) b x) c ∧
        s .cflgrid = max (M .cflgrid) c)
    (2 - (z.mbc : ℤ)) (len z (!y) + z.mbc - 1) f (by omega) (by
      intro k s hk1 hk2 ⟨p1, p2, p3, p4, p5, p6, p7, pI, c, p9, p10⟩
      obtain ⟨s', e, hO, hI'⟩ := hf k s hk1 hk2 pI
      refine ⟨s', e, ?_, ?_, ?_, ?_, ?_, ?_, ?_, ?_, ?_⟩
      · intro a b m x1 x2 x3 hm
        by_cases hb : b = k
        · subst hb
          rw [hO.fm a m x1 x2 hm, p1 a b m x1 x2 x3 hm, if_neg (by omega), if_pos (by omega), add_zero]
        · rw [(hO.fmO a b m hb).1, p1 a b m x1 x2 x3 hm]
          congr 1
          by_cases hlt : b < k
          · rw [if_pos hlt, if_pos (by omega)]
          · rw [if_neg hlt, if_neg (by omega)]
      · intro a b m x1 x2 x3 hm
        by_cases hb : b = k
        · subst hb
          rw [hO.fp a m x1 x2 hm, p2 a b m x1 x2 x3 hm, if_neg (by omega), if_pos (by omega), add_zero]
        · rw [(hO.fmO a b m hb).2, p2 a b m x1 x2 x3 hm]
          congr 1
          by_cases hlt : b < k
          · rw [if_pos hlt, if_pos (by omega)]
          · rw [if_neg hlt, if_neg (by omega)]
      · intro a b m x1 x2 x3 hm
        by_cases hb : b = k
        · subst hb
          rw [hO.gm1 a m x1 x2 hm, p3 a b m x1 x2 x3 hm, if_neg (by omega), if_pos (by omega), if_pos (by omega), if_pos (by omega)]
          ring
        · by_cases hb' : b = k + 1
          · subst hb'
            rw [hO.gm2 a m x1 x2 hm, p3 a (k + 1) m x1 x2 x3 hm, if_neg (by omega), if_neg (by omega), if_neg (by omega), if_pos (by omega),
              add_sub_cancel_right]
            ring
          · rw [(hO.gmO a b m hb hb').1, p3 a b m x1 x2 x3 hm]
            congr 2
            · by_cases hlt : b < k
              · rw [if_pos hlt, if_pos (by omega)]
              · rw [if_neg hlt, if_neg (by omega)]
            · by_cases hlt : b - 1 < k
              · rw [if_pos hlt, if_pos (by omega)]
              · rw [if_neg hlt, if_neg (by omega)]
      · intro a b m x1 x2 x3 hm
        by_cases hb : b = k
        · subst hb
          rw [hO.gp1 a m x1 x2 hm, p4 a b m x1 x2 x3 hm, if_neg (by omega), if_pos (by omega), if_pos (by omega), if_pos (by omega)]
          ring
        · by_cases hb' : b = k + 1
          · subst hb'
            rw [hO.gp2 a m x1 x2 hm, p4 a (k + 1) m x1 x2 x3 hm, if_neg (by omega), if_neg (by omega), if_neg (by omega), if_pos (by omega),
              add_sub_cancel_right]
            ring
          · rw [(hO.gmO a b m hb hb').2, p4 a b m x1 x2 x3 hm]
            congr 2
            · by_cases hlt : b < k
              · rw [if_pos hlt, if_pos (by omega)]
              · rw [if_neg hlt, if_neg (by omega)]
            · by_cases hlt : b - 1 < k
              · rw [if_pos hlt, if_pos (by omega)]
              · rw [if_neg hlt, if_neg (by omega)]
      · intro i j m; rw [hO.keepQ, p5]
      · intro i j m; rw [hO.keepA, p6]
      · intro i; rw [hO.keepD, p7]
      · exact hI'
      · obtain ⟨d, hd, he⟩ := hO.cfl
        refine ⟨max c d, (p9.max hd).congr ?_, by rw [he, p10, max_assoc]⟩
        intro x
        constructor
        · rintro (⟨b, hb, h⟩ | h)
          · exact ⟨b, by omega, h⟩
          · exact ⟨k, by omega, h⟩
        · rintro ⟨b, hb, h⟩
          by_cases hbk : b = k
          · subst hbk; exact Or.inr h
          · exact Or.inl ⟨b, by omega, h⟩)
    M (by
      refine ⟨?_, ?_, ?_, ?_, fun _ _ _ => rfl, fun _ _ _ => rfl, fun _ => rfl, hI, ?_⟩
      · intro a b m x1 x2 x3 hm; rw [if_neg (by omega), add_zero]
      · intro a b m x1 x2 x3 hm; rw [if_neg (by omega), add_zero]
      · intro a b m x1 x2 x3 hm; rw [if_neg (by omega), if_neg (by omega), add_zero, add_zero]
      · intro a b m x1 x2 x3 hm; rw [if_neg (by omega), if_neg (by omega), add_zero, add_zero]
      · exact ⟨0, ⟨le_rfl, fun x ⟨b, hb, _⟩ => by omega, Or.inl rfl⟩, (max_eq_left hc0).symm⟩)
  refine ⟨M', e, ?_, pI⟩
  constructor
  · intro a b m x1 x2 x3 x4 hm
    rw [p1 a b m x1 x2 x3 hm, if_pos (by omega)]
  · intro a b m x1 x2 x3 x4 hm
    rw [p2 a b m x1 x2 x3 hm, if_pos (by omega)]
  · intro a b m x1 x2 x3 x4 hm
    rw [p3 a b m x1 x2 x3 hm, if_pos (by omega), if_pos (by omega)]
  · intro a b m x1 x2 x3 x4 hm
    rw [p4 a b m x1 x2 x3 hm, if_pos (by omega), if_pos (by omega)]
  · exact p5
  · exact p6
  · exact p7
  · obtain ⟨c, h1, h2⟩ := p9
    exact ⟨c, h1.congr fun x => ⟨fun ⟨b, hb, h⟩ => ⟨b, by omega, h⟩, fun ⟨b, hb, h⟩ => ⟨b, by omega, h⟩⟩, h2⟩

theorem sweep_spec {S : Scheme} {F : Field} {flux : Flux} (y : Bool) (hset : Setting z o) (hflux : FluxOk z S F flux)
    (rat : ℚ) (hrat : rat = S.ratio (ixyOf y)) (M : Mem) (hH : Holds z o S F y M) (hnz : ∀ i j, z.inGrid i j → F.cap i j ≠ 0)
    (hc0 : 0 ≤ M .cflgrid) :
    ∃ M', doLoop (2 - (z.mbc : ℤ)) (len z (!y) + z.mbc - 1) (gslice z o flux y rat) M = some M' ∧ SweepOut z S F y M M' := by
  obtain ⟨M', e, h, _⟩ := sweep_gen (z := z) (S := S) (F := F) y hset.mbc (Holds z o S F y) (by
    intro k s hk1 hk2 hs
    obtain ⟨s', e, hO, hD⟩ := gslice_spec (z := z) (o := o) (y := y) (b := k) hset hflux hk1 hk2 rat hrat s hs hnz
    exact ⟨s', e, hO, hs.keepAll hO.keepQ hO.keepA hD⟩) M hH hc0
  exact ⟨M', e, h⟩

/-! ### Corners -/

def dirOf (y : Bool) : Nat := ixyOf y

/-- The corner ghost cells that are filled. -/
def CornerSet (z : Shape) (count : ℤ → ℤ) (l : Loc) : Prop :=
  ∃ i j m, (z.inGrid i j ∧ z.eqn m) ∧ atCorner z i j ∧ count (cornerNo z i j) = 3 ∧ l = .q i j m

def cornerG (z : Shape) (y : Bool) (M : Mem) : Loc → ℚ
  | .q i j m => M (.q (turned z i j (ixyOf y)).1 (turned z i j (ixyOf y)).2 m)
  | l => M l

theorem turned_inside (h1 : z.mbc ≤ z.mx) (h2 : z.mbc ≤ z.my) {y : Bool} {i j : ℤ} (hg : z.inGrid i j) (hc : atCorner z i j) :
    z.inGrid (turned z i j (ixyOf y)).1 (turned z i j (ixyOf y)).2 ∧
      ¬ atCorner z (turned z i j (ixyOf y)).1 (turned z i j (ixyOf y)).2 := by
  obtain ⟨⟨g1, g2⟩, g3, g4⟩ := hg
  obtain ⟨c1, c2⟩ := hc
  unfold turned ixyOf depthX depthY atCorner Shape.inGrid
  cases y <;> simp only [if_true, if_false, Bool.false_eq_true, OfNat.ofNat_ne_one] <;> split_ifs <;> (try dsimp only) <;> omega

theorem corner_apart (h1 : z.mbc ≤ z.mx) (h2 : z.mbc ≤ z.my) (y : Bool) {S T : Loc → Prop}
    (hS : ∀ l, S l → ∃ i j m, l = .q i j m ∧ z.inGrid i j ∧ atCorner z i j)
    (hT : ∀ l, T l → ∃ i j m, l = .q i j m ∧ z.inGrid i j ∧ atCorner z i j)
    (hd : ∀ l, S l → ¬ T l) : Apart S T (cornerG z y) := by
  refine ⟨hd, ?_⟩
  intro M1 M2 hM l hl
  obtain ⟨i, j, m, rfl, hg, hc⟩ := hS l hl
  refine hM _ fun ht => ?_
  obtain ⟨i', j', m', e, _, hc'⟩ := hT _ ht
  injection e with e1 e2 _
  rw [← e1, ← e2] at hc'
  exact (turned_inside h1 h2 hg hc).2 hc'

def cornerI (z : Shape) (k ibc : ℤ) : ℤ := if k = 0 ∨ k = 2 then 1 - ibc else z.mx + ibc
def cornerJ (z : Shape) (k jbc : ℤ) : ℤ := if k = 0 ∨ k = 1 then 1 - jbc else z.my + jbc

theorem corner_cell {k a b : ℤ} (hk : 0 ≤ k ∧ k ≤ 3) (ha : 1 ≤ a ∧ a ≤ z.mbc) (hb : 1 ≤ b ∧ b ≤ z.mbc) :
    z.inGrid (cornerI z k a) (cornerJ z k b) ∧ atCorner z (cornerI z k a) (cornerJ z k b) ∧
      cornerNo z (cornerI z k a) (cornerJ z k b) = k := by
  obtain ⟨h1, h2⟩ := hk
  unfold cornerI cornerJ atCorner Shape.inGrid cornerNo
  interval_cases k <;> simp <;> refine ⟨?_, ?_, ?_⟩ <;> (try split_ifs) <;> omega

theorem corner_inj {k a b k' a' b' : ℤ} (hk : 0 ≤ k ∧ k ≤ 3) (ha : 1 ≤ a ∧ a ≤ z.mbc) (hb : 1 ≤ b ∧ b ≤ z.mbc)
    (hk' : 0 ≤ k' ∧ k' ≤ 3) (ha' : 1 ≤ a' ∧ a' ≤ z.mbc) (hb' : 1 ≤ b' ∧ b' ≤ z.mbc)
    (e1 : cornerI z k a = cornerI z k' a') (e2 : cornerJ z k b = cornerJ z k' b') : k = k' ∧ a = a' ∧ b = b' := by
  have h1 := (corner_cell hk ha hb).2.2
  have h2 := (corner_cell hk' ha' hb').2.2
  rw [e1, e2, h2] at h1
  refine ⟨h1.symm, ?_⟩
  subst h1
  unfold cornerI at e1
  unfold cornerJ at e2
  constructor
  · split_ifs at e1 <;> omega
  · split_ifs at e2 <;> omega

theorem corner_surj {i j : ℤ} (hg : z.inGrid i j) (hc : atCorner z i j) :
    (0 ≤ cornerNo z i j ∧ cornerNo z i j ≤ 3) ∧ ∃ a b : ℤ, (1 ≤ a ∧ a ≤ z.mbc) ∧ (1 ≤ b ∧ b ≤ z.mbc) ∧
      i = cornerI z (cornerNo z i j) a ∧ j = cornerJ z (cornerNo z i j) b := by
  obtain ⟨⟨g1, g2⟩, g3, g4⟩ := hg
  obtain ⟨c1, c2⟩ := hc
  refine ⟨by unfold cornerNo; split_ifs <;> omega, depthX z i, depthY z j, ?_⟩
  unfold cornerI cornerJ cornerNo depthX depthY
  split_ifs <;> omega

theorem fixCorners_acts (h1 : z.mbc ≤ z.mx) (h2 : z.mbc ≤ z.my) (y : Bool) (count : ℤ → ℤ) :
    Acts (CornerSet z count) (cornerG z y) (fixCorners z (if y then 1 else 0) count) := by
  have hI : ∀ (k a b m : ℤ), ((0 ≤ k ∧ k ≤ 3) ∧ (1 ≤ a ∧ a ≤ (z.mbc : ℤ)) ∧ (1 ≤ b ∧ b ≤ (z.mbc : ℤ))) →
      ∃ i j m', Loc.q (cornerI z k a) (cornerJ z k b) m = .q i j m' ∧ z.inGrid i j ∧ atCorner z i j := fun k a b m h =>
    ⟨_, _, _, rfl, (corner_cell h.1 h.2.1 h.2.2).1, (corner_cell h.1 h.2.1 h.2.2).2.1⟩
  unfold fixCorners
  refine (Acts.do1 (fun k l => count k = 3 ∧ ∃ a b m, ((0 ≤ k ∧ k ≤ 3) ∧ (1 ≤ a ∧ a ≤ (z.mbc : ℤ)) ∧ (1 ≤ b ∧ b ≤ (z.mbc : ℤ))) ∧
      z.eqn m ∧ l = Loc.q (cornerI z k a) (cornerJ z k b) m) (cornerG z y) _ 0 3 ?_ ?_).congr ?_
  · intro k k1 k2
    by_cases hc : count k = 3
    swap
    · intro M
      dsimp only
      rw [if_pos hc]
      exact ⟨M, rfl, fun l h => absurd h.1 hc, fun _ _ => rfl⟩
    have : ∀ (A B : Prog), (fun M => if count k ≠ 3 then A M else B M) = B := by
      intro A B; funext M; rw [if_neg (by simp [hc])]
    dsimp only
    rw [this some]
    refine (Acts.do2 (fun a b l => ∃ m, ((0 ≤ k ∧ k ≤ 3) ∧ (1 ≤ a ∧ a ≤ (z.mbc : ℤ)) ∧ (1 ≤ b ∧ b ≤ (z.mbc : ℤ))) ∧
      z.eqn m ∧ l = Loc.q (cornerI z k a) (cornerJ z k b) m) (cornerG z y) _ 1 z.mbc 1 z.mbc ?_ ?_).congr ?_
    · intro a b a1 a2 b1 b2
      have hcell := corner_cell (z := z) ⟨k1, k2⟩ ⟨a1, a2⟩ ⟨b1, b2⟩
      have hin := turned_inside h1 h2 (y := y) hcell.1 hcell.2.1
      refine (Acts.do1 (fun m l => l = Loc.q (cornerI z k a) (cornerJ z k b) m) (cornerG z y) _ 1 z.meqn ?_ ?_).congr ?_
      · intro m m1 m2
        have e : ∀ X Y : ℤ, X = (turned z (cornerI z k a) (cornerJ z k b) (ixyOf y)).1 →
            Y = (turned z (cornerI z k a) (cornerJ z k b) (ixyOf y)).2 →
            Acts (fun l => l = Loc.q (cornerI z k a) (cornerJ z k b) m) (cornerG z y)
              (asg z (.q (cornerI z k a) (cornerJ z k b) m) (rd z (.q X Y m))) := by
          rintro X Y rfl rfl
          exact Acts.asg (show z.has (.q _ _ m) from ⟨hcell.1, m1, m2⟩) fun M => rd_eval (show z.has (.q _ _ m) from ⟨hin.1, m1, m2⟩) M
        apply e
        · unfold turned cornerI cornerJ depthX depthY ixyOf
          clear this e hI hcell hin hc
          interval_cases k <;> cases y <;> simp <;> split_ifs <;> omega
        · unfold turned cornerI cornerJ depthX depthY ixyOf
          clear this e hI hcell hin hc
          interval_cases k <;> cases y <;> simp <;> split_ifs <;> omega
      · intro m m' hm
        refine corner_apart h1 h2 y ?_ ?_ ?_
        · rintro l rfl; exact hI k a b _ ⟨⟨k1, k2⟩, ⟨a1, a2⟩, b1, b2⟩
        · rintro l rfl; exact hI k a b _ ⟨⟨k1, k2⟩, ⟨a1, a2⟩, b1, b2⟩
        · rintro l rfl e; injection e with _ _ e; exact hm e.symm
      · intro l
        constructor
        · rintro ⟨m, hm, rfl⟩; exact ⟨m, ⟨⟨k1, k2⟩, ⟨a1, a2⟩, b1, b2⟩, hm, rfl⟩
        · rintro ⟨m, _, hm, rfl⟩; exact ⟨m, hm, rfl⟩
    · intro a b a' b' hne
      refine corner_apart h1 h2 y ?_ ?_ ?_
      · rintro l ⟨m, h, _, rfl⟩; exact hI _ _ _ _ h
      · rintro l ⟨m, h, _, rfl⟩; exact hI _ _ _ _ h
      · rintro l ⟨m, h, _, rfl⟩ ⟨m', h', _, e⟩
        injection e with e1 e2 _
        obtain ⟨_, h3, h4⟩ := corner_inj h.1 h.2.1 h.2.2 h'.1 h'.2.1 h'.2.2 e1 e2
        exact hne (by rw [h3, h4])
    · intro l
      constructor
      · rintro ⟨a, b, _, _, m, h⟩; exact ⟨hc, a, b, m, h⟩
      · rintro ⟨_, a, b, m, h⟩; exact ⟨a, b, h.1.2.1, h.1.2.2, m, h⟩
  · intro k k' hne
    refine corner_apart h1 h2 y ?_ ?_ ?_
    · rintro l ⟨_, a, b, m, h, _, rfl⟩; exact hI _ _ _ _ h
    · rintro l ⟨_, a, b, m, h, _, rfl⟩; exact hI _ _ _ _ h
    · rintro l ⟨_, a, b, m, h, _, rfl⟩ ⟨_, a', b', m', h', _, e⟩
      injection e with e1 e2 _
      exact hne (corner_inj h.1 h.2.1 h.2.2 h'.1 h'.2.1 h'.2.2 e1 e2).1.symm
  · intro l
    constructor
    · rintro ⟨k, _, hc, a, b, m, h, hm, rfl⟩
      have := corner_cell (z := z) h.1 h.2.1 h.2.2
      exact ⟨_, _, m, ⟨this.1, hm⟩, this.2.1, by rw [this.2.2]; exact hc, rfl⟩
    · rintro ⟨i, j, m, ⟨hg, hm⟩, hc, h3, rfl⟩
      obtain ⟨hk, a, b, ha, hb, e1, e2⟩ := corner_surj hg hc
      exact ⟨_, hk, h3, a, b, m, ⟨hk, ha, hb⟩, hm, by rw [← e1, ← e2]⟩

/-- What the sweeps see. -/
theorem fixCorners_spec (h1 : z.mbc ≤ z.mx) (h2 : z.mbc ≤ z.my) (y : Bool) (count : ℤ → ℤ) (M M0 : Mem)
    (hM : ∀ i j m, ¬ (atCorner z i j ∧ count (cornerNo z i j) = 3) → M (.q i j m) = M0 (.q i j m)) :
    ∃ M', fixCorners z (if y then 1 else 0) count M = some M' ∧
      (∀ i j m, z.inGrid i j → z.eqn m → M' (.q i j m) =
        M0 (.q (sweepCell z i j count (ixyOf y)).1 (sweepCell z i j count (ixyOf y)).2 m)) ∧
      (∀ i j m, ¬ (atCorner z i j ∧ count (cornerNo z i j) = 3) → M' (.q i j m) = M0 (.q i j m)) ∧
      ∀ l, (∀ i j m, l ≠ .q i j m) → M' l = M l := by
  obtain ⟨M', e, a, b⟩ := fixCorners_acts h1 h2 y count M
  refine ⟨M', e, ?_, ?_, ?_⟩
  · intro i j m hg hm
    unfold sweepCell
    by_cases hc : atCorner z i j ∧ count (cornerNo z i j) = 3
    · rw [if_pos hc, a _ ⟨i, j, m, ⟨hg, hm⟩, hc.1, hc.2, rfl⟩]
      exact hM _ _ _ fun h => (turned_inside h1 h2 hg hc.1).2 h.1
    · rw [if_neg hc, b, hM _ _ _ hc]
      rintro ⟨i', j', m', _, h3, h4, e⟩
      injection e with e1 e2 _
      rw [← e1, ← e2] at h3 h4
      exact hc ⟨h3, h4⟩
  · intro i j m hc
    rw [b, hM _ _ _ hc]
    rintro ⟨i', j', m', _, h3, h4, e⟩
    injection e with e1 e2 _
    rw [← e1, ← e2] at h3 h4
    exact hc ⟨h3, h4⟩
  · intro l hl
    rw [b]
    rintro ⟨i', j', m', _, h3, h4, e⟩
    exact hl _ _ _ e

end Fclaw.Wave
