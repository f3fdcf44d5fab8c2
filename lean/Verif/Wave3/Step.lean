import Verif.Wave3.Sweep
import Verif.Wave3.Corners
/-
The step, for the values that the sweeps see.
-/
set_option autoImplicit false
set_option linter.unusedSimpArgs false
set_option linter.unusedVariables false
namespace Fclaw.Wave3

open Wave (Vec comps dot)
open Fort (range mem_range range_nodup)

/-! ### Options -/

theorem same_scheme (z : Shape) (o : Method) (R : Solver) (dx dy dz dt : ℚ) (hu : Usable z o) :
    Same z o R (scheme z o R dx dy dz dt true) := by
  refine ⟨rfl, rfl, rfl, rfl, rfl, rfl, rfl, rfl, ?_, ?_, ?_⟩
  · unfold scheme m3; dsimp only
    rcases hu.trans with h | h | h | ⟨_, h | h | h⟩
    · rw [if_pos (by omega)]; split_ifs <;> omega
    all_goals rw [h]; decide
  · unfold scheme m3; dsimp only
    rcases hu.trans with h | h | h | ⟨_, h | h | h⟩
    · rw [if_pos (by omega)]; constructor <;> intro h0 <;> exfalso <;> (try split_ifs at h0) <;> omega
    all_goals rw [h]; decide
  · unfold scheme m3 m4; dsimp only
    rcases hu.trans with h | h | h | ⟨_, h | h | h⟩
    · intro h0; exfalso; split_ifs at h0 <;> omega
    all_goals rw [h]; decide

theorem usable_set (z : Shape) (o : Method) (hu : Usable z o) : unset o = false := by
  unfold unset m3 m4
  rw [decide_eq_false_iff_not]
  rcases hu.trans with h | h | h | ⟨h2, h | h | h⟩
  · by_cases h0 : o.trans < 0
    · simp [h0]
    · have : o.trans = 0 := by omega
      simp [this]
  · rw [h]; simp
  · rw [h]; simp
  all_goals rw [h2, h]; decide

/-! ### Slices -/

/-- The data that the sweeps find in the arrays. -/
def seen (z : Shape) (o : Method) (q1 q2 aux : QArr) : Field :=
  { Q := fun d i j k => comps z.meqn fun m => (if d = .x then q1 else q2) (i, j, k, m)
    A := fun i j k => comps z.maux fun m => aux (i, j, k, m)
    cap := fun i j k => if o.mcapa = 0 then 1 else aux (i, j, k, o.mcapa) }

section
variable (z : Shape) (o : Method) (R : Solver) (dx dy dz dt : ℚ) (q1 q2 aux : QArr)

theorem ratio_eq (r : ℚ) (i j k : ℤ) : ratio o aux r i j k = r / (seen z o q1 q2 aux).cap i j k := by
  unfold ratio seen
  dsimp only
  split <;> simp

theorem xSlice_fits (quirks : Bool) (j k : ℤ) :
    Fits z (scheme z o R dx dy dz dt quirks) (seen z o q1 q2 aux) .x j k (xSlice z o ⟨dt / dx, dt / dy, dt / dz⟩ q1 aux j k) := by
  refine ⟨by simp [xSlice], fun i => rfl, fun i => ?_, fun i => ratio_eq z o q1 q2 aux _ _ _ _, fun i => ratio_eq z o q1 q2 aux _ _ _ _,
    fun i => ratio_eq z o q1 q2 aux _ _ _ _⟩
  funext r s m
  unfold avs around Field.auxAt place seen xSlice comps
  dsimp only
  have e1 : (j + if r = 1 then (-1 : ℤ) else if r = 2 then 0 else 1) = if r = 1 then j - 1 else if r = 2 then j else j + 1 := by
    split_ifs <;> omega
  have e2 : (k + if s = 1 then (-1 : ℤ) else if s = 2 then 0 else 1) = if s = 1 then k - 1 else if s = 2 then k else k + 1 := by
    split_ifs <;> omega
  rw [e1, e2]

theorem ySlice_fits (quirks : Bool) (i k : ℤ) :
    Fits z (scheme z o R dx dy dz dt quirks) (seen z o q1 q2 aux) .y k i (ySlice z o ⟨dt / dx, dt / dy, dt / dz⟩ q2 aux i k) := by
  refine ⟨by simp [ySlice], fun i => rfl, fun a => ?_, fun i => ratio_eq z o q1 q2 aux _ _ _ _, fun i => ratio_eq z o q1 q2 aux _ _ _ _,
    fun i => ratio_eq z o q1 q2 aux _ _ _ _⟩
  funext r s m
  unfold avs around Field.auxAt place seen ySlice comps
  dsimp only
  have e1 : (k + if r = 1 then (-1 : ℤ) else if r = 2 then 0 else 1) = if r = 1 then k - 1 else if r = 2 then k else k + 1 := by
    split_ifs <;> omega
  have e2 : (i + if s = 1 then (-1 : ℤ) else if s = 2 then 0 else 1) = if s = 1 then i - 1 else if s = 2 then i else i + 1 := by
    split_ifs <;> omega
  rw [e1, e2]

theorem zSlice_fits (quirks : Bool) (i j : ℤ) :
    Fits z (scheme z o R dx dy dz dt quirks) (seen z o q1 q2 aux) .z i j (zSlice z o ⟨dt / dx, dt / dy, dt / dz⟩ q2 aux i j) := by
  refine ⟨by simp [zSlice], fun i => rfl, fun a => ?_, fun i => ratio_eq z o q1 q2 aux _ _ _ _, fun i => ratio_eq z o q1 q2 aux _ _ _ _,
    fun i => ratio_eq z o q1 q2 aux _ _ _ _⟩
  funext r s m
  unfold avs around Field.auxAt place seen zSlice comps
  dsimp only
  have e1 : (i + if r = 1 then (-1 : ℤ) else if r = 2 then 0 else 1) = if r = 1 then i - 1 else if r = 2 then i else i + 1 := by
    split_ifs <;> omega
  have e2 : (j + if s = 1 then (-1 : ℤ) else if s = 2 then 0 else 1) = if s = 1 then j - 1 else if s = 2 then j else j + 1 := by
    split_ifs <;> omega
  rw [e1, e2]

/-! ### Fluxes -/

/-- The fluxes after the three sweeps. -/
def allFluxes : Fluxes :=
  zSweep z o R ⟨dt / dx, dt / dy, dt / dz⟩ q2 aux (ySweep z o R ⟨dt / dx, dt / dy, dt / dz⟩ q2 aux
    (xSweep z o R ⟨dt / dx, dt / dy, dt / dz⟩ q1 aux fun _ => 0))

end

section
variable {z : Shape} {o : Method} {R : Solver} {dx dy dz dt : ℚ} {q1 q2 aux : QArr}

/-- One slice's part of the fluxes across. -/
theorem across {S : Scheme} {F : Field} {d : Dir} {b c b' c' : ℤ → ℤ} {L L' : ℤ → Slice} (hS : Same z o R S) (hu : Usable z o)
    (h : ∀ s, Fits z S F d (b s) (c s) (L s)) (h' : ∀ s, Fits z S F d (b' s) (c' s) (L' s)) (n : ℤ) (hn : ∀ s, (L s).n = n)
    (hn' : ∀ s, (L' s).n = n) (i m : ℤ) (hi : 1 ≤ i) (hi' : i ≤ n) (hm : 1 ≤ m) (hm' : m ≤ (z.meqn : ℤ)) :
    (∑ s ∈ ({-1, 0, 1} : Finset ℤ), (flux3 z o R d (L s) (.gadd i m 1 s) + flux3 z o R d (L' s) (.gadd i m 2 s))) =
      (if 0 < S.single then ∑ s ∈ ({-1, 0, 1} : Finset ℤ),
        (spill S F d i (b s) (c s) 1 false s m + spill S F d i (b' s) (c' s) 1 true s m) else 0) ∧
    (∑ s ∈ ({-1, 0, 1} : Finset ℤ), (flux3 z o R d (L s) (.hadd i m 1 s) + flux3 z o R d (L' s) (.hadd i m 2 s))) =
      (if 0 < S.single then ∑ s ∈ ({-1, 0, 1} : Finset ℤ),
        (spill S F d i (b s) (c s) 2 false s m + spill S F d i (b' s) (c' s) 2 true s m) else 0) := by
  by_cases h3 : 0 < m3 o
  · rw [if_pos (hS.single.2 h3), if_pos (hS.single.2 h3)]
    constructor
    · refine Finset.sum_congr rfl fun s hs => ?_
      have hs' : s = -1 ∨ s = 0 ∨ s = 1 := by simpa using hs
      rw [← flux3_gadd hS (h s) hu h3 i m hi (by rw [hn]; exact hi') hm hm' false s hs',
        ← flux3_gadd hS (h' s) hu h3 i m hi (by rw [hn']; exact hi') hm hm' true s hs']
      rfl
    · refine Finset.sum_congr rfl fun s hs => ?_
      have hs' : s = -1 ∨ s = 0 ∨ s = 1 := by simpa using hs
      rw [← flux3_hadd hS (h s) hu h3 i m hi (by rw [hn]; exact hi') hm hm' false s hs',
        ← flux3_hadd hS (h' s) hu h3 i m hi (by rw [hn']; exact hi') hm hm' true s hs']
      rfl
  · have h4 : ¬0 < S.single := fun h => h3 (hS.single.1 h)
    rw [if_neg h4, if_neg h4]
    constructor
    · exact Finset.sum_eq_zero fun s _ => by rw [(flux3_none hS h3 _ _ _ _).1, (flux3_none hS h3 _ _ _ _).1, add_zero]
    · exact Finset.sum_eq_zero fun s _ => by rw [(flux3_none hS h3 _ _ _ _).2, (flux3_none hS h3 _ _ _ _).2, add_zero]

end

section
variable (z : Shape) (o : Method) (R : Solver) (dx dy dz dt : ℚ) (q1 q2 aux : QArr)

theorem transverse_parts (S : Scheme) (F : Field) (d : Dir) (a b c m : ℤ) : transverse S F d a b c m =
    (if 0 < S.single then ∑ s ∈ ({-1, 0, 1} : Finset ℤ),
      (spill S F d.next b (c - s) a 2 false s m + spill S F d.next b (c - s) (a - 1) 2 true s m) else 0) +
    if 0 < S.single then ∑ s ∈ ({-1, 0, 1} : Finset ℤ),
      (spill S F d.next.next c a (b - s) 1 false s m + spill S F d.next.next c (a - 1) (b - s) 1 true s m) else 0 := by
  unfold transverse
  split
  · rw [← Finset.sum_add_distrib]
    exact Finset.sum_congr rfl fun s _ => by ring
  · ring

theorem fluxes_x (hu : Usable z o) (hb : 2 ≤ z.mbc) (i j k m : ℤ) (hi : 1 ≤ i) (hi' : i ≤ (z.mx : ℤ) + 1) (hj : 1 ≤ j) (hj' : j ≤ (z.my : ℤ)) (hk : 1 ≤ k) (hk' : k ≤ (z.mz : ℤ))
    (hm : 1 ≤ m) (hm' : m ≤ (z.meqn : ℤ)) :
    allFluxes z o R dx dy dz dt q1 q2 aux (.fm i j k m) =
      fluxMinus (scheme z o R dx dy dz dt true) (seen z o q1 q2 aux) .x i j k m ∧
    allFluxes z o R dx dy dz dt q1 q2 aux (.fp i j k m) =
      fluxPlus (scheme z o R dx dy dz dt true) (seen z o q1 q2 aux) .x i j k m := by
  have hS := same_scheme z o R dx dy dz dt hu
  have h0 := xSlice_fits z o R dx dy dz dt q1 q2 aux true j k
  have h1 := (across hS hu (fun s => ySlice_fits z o R dx dy dz dt q1 q2 aux true i (k - s))
    (fun s => ySlice_fits z o R dx dy dz dt q1 q2 aux true (i - 1) (k - s)) z.my (fun _ => rfl) (fun _ => rfl) j m hj hj' hm hm').2
  have h2 := (across hS hu (fun s => zSlice_fits z o R dx dy dz dt q1 q2 aux true i (j - s))
    (fun s => zSlice_fits z o R dx dy dz dt q1 q2 aux true (i - 1) (j - s)) z.mz (fun _ => rfl) (fun _ => rfl) k m hk hk' hm hm').1
  have ht := transverse_parts (scheme z o R dx dy dz dt true) (seen z o q1 q2 aux) .x i j k m
  dsimp only [Dir.next] at ht
  rw [← h1, ← h2] at ht
  unfold allFluxes fluxMinus fluxPlus
  rw [ht]
  constructor
  · rw [zSweep_fm z o R _ q2 aux hb _ i j k m hi hi' hj hj' hk hk' hm hm', ySweep_fm z o R _ q2 aux hb _ i j k m hi hi' hj hj' hk hk' hm hm', xSweep_fm z o R _ q1 aux hb _ i j k m hi hi' hj hj' hk hk' hm hm',
      flux3_faddm hS h0 hu i m hi hi' hm hm']
    ring
  · rw [zSweep_fp z o R _ q2 aux hb _ i j k m hi hi' hj hj' hk hk' hm hm', ySweep_fp z o R _ q2 aux hb _ i j k m hi hi' hj hj' hk hk' hm hm', xSweep_fp z o R _ q1 aux hb _ i j k m hi hi' hj hj' hk hk' hm hm',
      flux3_faddp hS h0 hu i m hi hi' hm hm']
    ring

theorem fluxes_y (hu : Usable z o) (hb : 2 ≤ z.mbc) (i j k m : ℤ) (hi : 1 ≤ i) (hi' : i ≤ (z.mx : ℤ)) (hj : 1 ≤ j) (hj' : j ≤ (z.my : ℤ) + 1) (hk : 1 ≤ k) (hk' : k ≤ (z.mz : ℤ))
    (hm : 1 ≤ m) (hm' : m ≤ (z.meqn : ℤ)) :
    allFluxes z o R dx dy dz dt q1 q2 aux (.gm i j k m) =
      fluxMinus (scheme z o R dx dy dz dt true) (seen z o q1 q2 aux) .y j k i m ∧
    allFluxes z o R dx dy dz dt q1 q2 aux (.gp i j k m) =
      fluxPlus (scheme z o R dx dy dz dt true) (seen z o q1 q2 aux) .y j k i m := by
  have hS := same_scheme z o R dx dy dz dt hu
  have h0 := ySlice_fits z o R dx dy dz dt q1 q2 aux true i k
  have h1 := (across hS hu (fun s => zSlice_fits z o R dx dy dz dt q1 q2 aux true (i - s) j)
    (fun s => zSlice_fits z o R dx dy dz dt q1 q2 aux true (i - s) (j - 1)) z.mz (fun _ => rfl) (fun _ => rfl) k m hk hk' hm hm').2
  have h2 := (across hS hu (fun s => xSlice_fits z o R dx dy dz dt q1 q2 aux true j (k - s))
    (fun s => xSlice_fits z o R dx dy dz dt q1 q2 aux true (j - 1) (k - s)) z.mx (fun _ => rfl) (fun _ => rfl) i m hi hi' hm hm').1
  have ht := transverse_parts (scheme z o R dx dy dz dt true) (seen z o q1 q2 aux) .y j k i m
  dsimp only [Dir.next] at ht
  rw [← h1, ← h2] at ht
  unfold allFluxes fluxMinus fluxPlus
  rw [ht]
  constructor
  · rw [zSweep_gm z o R _ q2 aux hb _ i j k m hi hi' hj hj' hk hk' hm hm', ySweep_gm z o R _ q2 aux hb _ i j k m hi hi' hj hj' hk hk' hm hm', xSweep_gm z o R _ q1 aux hb _ i j k m hi hi' hj hj' hk hk' hm hm',
      flux3_faddm hS h0 hu j m hj hj' hm hm']
    ring
  · rw [zSweep_gp z o R _ q2 aux hb _ i j k m hi hi' hj hj' hk hk' hm hm', ySweep_gp z o R _ q2 aux hb _ i j k m hi hi' hj hj' hk hk' hm hm', xSweep_gp z o R _ q1 aux hb _ i j k m hi hi' hj hj' hk hk' hm hm',
      flux3_faddp hS h0 hu j m hj hj' hm hm']
    ring

theorem fluxes_z (hu : Usable z o) (hb : 2 ≤ z.mbc) (i j k m : ℤ) (hi : 1 ≤ i) (hi' : i ≤ (z.mx : ℤ)) (hj : 1 ≤ j) (hj' : j ≤ (z.my : ℤ)) (hk : 1 ≤ k) (hk' : k ≤ (z.mz : ℤ) + 1)
    (hm : 1 ≤ m) (hm' : m ≤ (z.meqn : ℤ)) :
    allFluxes z o R dx dy dz dt q1 q2 aux (.hm i j k m) =
      fluxMinus (scheme z o R dx dy dz dt true) (seen z o q1 q2 aux) .z k i j m ∧
    allFluxes z o R dx dy dz dt q1 q2 aux (.hp i j k m) =
      fluxPlus (scheme z o R dx dy dz dt true) (seen z o q1 q2 aux) .z k i j m := by
  have hS := same_scheme z o R dx dy dz dt hu
  have h0 := zSlice_fits z o R dx dy dz dt q1 q2 aux true i j
  have h1 := (across hS hu (fun s => xSlice_fits z o R dx dy dz dt q1 q2 aux true (j - s) k)
    (fun s => xSlice_fits z o R dx dy dz dt q1 q2 aux true (j - s) (k - 1)) z.mx (fun _ => rfl) (fun _ => rfl) i m hi hi' hm hm').2
  have h2 := (across hS hu (fun s => ySlice_fits z o R dx dy dz dt q1 q2 aux true (i - s) k)
    (fun s => ySlice_fits z o R dx dy dz dt q1 q2 aux true (i - s) (k - 1)) z.my (fun _ => rfl) (fun _ => rfl) j m hj hj' hm hm').1
  have ht := transverse_parts (scheme z o R dx dy dz dt true) (seen z o q1 q2 aux) .z k i j m
  dsimp only [Dir.next] at ht
  rw [← h1, ← h2] at ht
  unfold allFluxes fluxMinus fluxPlus
  rw [ht]
  constructor
  · rw [zSweep_hm z o R _ q2 aux hb _ i j k m hi hi' hj hj' hk hk' hm hm', ySweep_hm z o R _ q2 aux hb _ i j k m hi hi' hj hj' hk hk' hm hm', xSweep_hm z o R _ q1 aux hb _ i j k m hi hi' hj hj' hk hk' hm hm',
      flux3_faddm hS h0 hu k m hk hk' hm hm']
    ring
  · rw [zSweep_hp z o R _ q2 aux hb _ i j k m hi hi' hj hj' hk hk' hm hm', ySweep_hp z o R _ q2 aux hb _ i j k m hi hi' hj hj' hk hk' hm hm', xSweep_hp z o R _ q1 aux hb _ i j k m hi hi' hj hj' hk hk' hm hm',
      flux3_faddp hS h0 hu k m hk hk' hm hm']
    ring

end

/-! ### Update -/

/-- The program changes elements in `D`, using the old value. -/
def Updates {α : Type} (D : α → Prop) (v : α → ℚ → ℚ) (f : (α → ℚ) → α → ℚ) : Prop :=
  ∀ M l, (D l → f M l = v l (M l)) ∧ (¬D l → f M l = M l)

theorem loop_updates {α : Type} {v : α → ℚ → ℚ} {lo hi : ℤ} {D : ℤ → α → Prop} {f : ℤ → (α → ℚ) → α → ℚ}
    (hD : ∀ k k' l, D k l → D k' l → k = k') (h : ∀ k, lo ≤ k → k ≤ hi → Updates (D k) v (f k)) :
    Updates (fun l => ∃ k, (lo ≤ k ∧ k ≤ hi) ∧ D k l) v (loop lo hi f) := by
  unfold loop
  have hm : ∀ k, k ∈ range lo hi ↔ lo ≤ k ∧ k ≤ hi := mem_range lo hi
  suffices g : ∀ (ks : List ℤ), ks.Nodup → (∀ k ∈ ks, lo ≤ k ∧ k ≤ hi) →
      Updates (fun l => ∃ k ∈ ks, D k l) v fun M => ks.foldl (fun s k => f k s) M by
    have := g (range lo hi) (range_nodup lo hi) fun k hk => (hm k).1 hk
    simp only [hm] at this
    exact this
  intro ks
  induction ks with
  | nil => intro _ _ M l; simp
  | cons k ks ih =>
    intro hnd hks M l
    have hk := hks k (List.mem_cons_self ..)
    rw [List.nodup_cons] at hnd
    have h1 := h k hk.1 hk.2 M l
    have h2 := ih hnd.2 (fun k' hk' => hks k' (List.mem_cons_of_mem _ hk')) (f k M) l
    beta_reduce at h2
    simp only [List.foldl_cons]
    constructor
    · rintro ⟨k', hk', hD'⟩
      by_cases hkl : D k l
      · have : ¬∃ k ∈ ks, D k l := by
          rintro ⟨k2, hk2, hD2⟩
          have := hD _ _ _ hkl hD2
          exact hnd.1 (this ▸ hk2)
        rw [h2.2 this, h1.1 hkl]
      · rcases List.mem_cons.1 hk' with rfl | hk'
        · exact absurd hD' hkl
        · rw [h2.1 ⟨k', hk', hD'⟩, h1.2 hkl]
    · intro hno
      rw [h2.2 fun ⟨k', hk', hD'⟩ => hno ⟨k', List.mem_cons_of_mem _ hk', hD'⟩,
        h1.2 fun hD' => hno ⟨k, List.mem_cons_self .., hD'⟩]

theorem update_eq (z : Shape) (o : Method) (ρ : Ratios) (aux : QArr) (F : Fluxes) (q : QArr) (i j k m : ℤ) :
    (inside z i j k m → update z o ρ aux F q (i, j, k, m) = q (i, j, k, m) -
      (ρ.x * (F (.fm (i + 1) j k m) - F (.fp i j k m)) + ρ.y * (F (.gm i (j + 1) k m) - F (.gp i j k m))
          + ρ.z * (F (.hm i j (k + 1) m) - F (.hp i j k m))) / (if o.mcapa = 0 then 1 else aux (i, j, k, o.mcapa))) ∧
    (¬inside z i j k m → update z o ρ aux F q (i, j, k, m) = q (i, j, k, m)) := by
  have : Updates (fun l => ∃ m, (1 ≤ m ∧ m ≤ (z.meqn : ℤ)) ∧ ∃ i, (1 ≤ i ∧ i ≤ (z.mx : ℤ)) ∧ ∃ j, (1 ≤ j ∧ j ≤ (z.my : ℤ)) ∧
      ∃ k, (1 ≤ k ∧ k ≤ (z.mz : ℤ)) ∧ l = (i, j, k, m))
      (fun l old => old - (ρ.x * (F (.fm (l.1 + 1) l.2.1 l.2.2.1 l.2.2.2) - F (.fp l.1 l.2.1 l.2.2.1 l.2.2.2)) +
        ρ.y * (F (.gm l.1 (l.2.1 + 1) l.2.2.1 l.2.2.2) - F (.gp l.1 l.2.1 l.2.2.1 l.2.2.2))
          + ρ.z * (F (.hm l.1 l.2.1 (l.2.2.1 + 1) l.2.2.2) - F (.hp l.1 l.2.1 l.2.2.1 l.2.2.2))) /
            (if o.mcapa = 0 then 1 else aux (l.1, l.2.1, l.2.2.1, o.mcapa))) (update z o ρ aux F) := by
    unfold update
    refine loop_updates ?_ fun m _ _ => loop_updates ?_ fun i _ _ => loop_updates ?_ fun j _ _ => loop_updates ?_ fun k _ _ => ?_
    · rintro m m' l ⟨i, _, j, _, k, _, rfl⟩ ⟨i', _, j', _, k', _, e⟩; simp only [Prod.mk.injEq] at e; exact e.2.2.2
    · rintro i i' l ⟨j, _, k, _, rfl⟩ ⟨j', _, k', _, e⟩; simp only [Prod.mk.injEq] at e; exact e.1
    · rintro j j' l ⟨k, _, rfl⟩ ⟨k', _, e⟩; simp only [Prod.mk.injEq] at e; exact e.2.1
    · rintro k k' l rfl e; simp only [Prod.mk.injEq] at e; exact e.2.2.1
    intro M l
    unfold assign
    constructor
    · rintro rfl
      beta_reduce
      rw [if_pos rfl]
      dsimp only
      split <;> ring
    · intro hl
      beta_reduce at hl ⊢
      rw [if_neg hl]
  constructor
  · rintro ⟨hi, hj, hk, hm⟩
    exact (this q (i, j, k, m)).1 ⟨m, hm, i, hi, j, hj, k, hk, rfl⟩
  · intro hn
    refine (this q (i, j, k, m)).2 ?_
    rintro ⟨m', hm, i', hi, j', hj, k', hk, e⟩
    simp only [Prod.mk.injEq] at e
    obtain ⟨rfl, rfl, rfl, rfl⟩ := e
    exact hn ⟨hi, hj, hk, hm⟩

/-- The step in terms of what the sweeps see. -/
theorem step_seen (z : Shape) (o : Method) (R : Solver) (dx dy dz dt : ℚ) (q1 q2 aux : QArr) (hu : Usable z o) (hb : 2 ≤ z.mbc)
    (i j k m : ℤ) (hin : inside z i j k m) (hq : q1 (i, j, k, m) = q2 (i, j, k, m)) :
    update z o ⟨dt / dx, dt / dy, dt / dz⟩ aux (allFluxes z o R dx dy dz dt q1 q2 aux) q2 (i, j, k, m) =
      newValue (scheme z o R dx dy dz dt true) (seen z o q1 q2 aux) i j k m := by
  rw [(update_eq ..).1 hin]
  obtain ⟨⟨i1, i2⟩, ⟨j1, j2⟩, ⟨k1, k2⟩, m1, m2⟩ := hin
  have fx := fluxes_x z o R dx dy dz dt q1 q2 aux hu hb
  have fy := fluxes_y z o R dx dy dz dt q1 q2 aux hu hb
  have fz := fluxes_z z o R dx dy dz dt q1 q2 aux hu hb
  rw [(fx (i + 1) j k m (by omega) (by omega) j1 j2 k1 k2 m1 m2).1, (fx i j k m i1 (by omega) j1 j2 k1 k2 m1 m2).2,
    (fy i (j + 1) k m i1 i2 (by omega) (by omega) k1 k2 m1 m2).1, (fy i j k m i1 i2 j1 (by omega) k1 k2 m1 m2).2,
    (fz i j (k + 1) m i1 i2 j1 j2 (by omega) (by omega) m1 m2).1, (fz i j k m i1 i2 j1 j2 k1 (by omega) m1 m2).2]
  unfold newValue outflow
  show _ = comps z.meqn (fun m => q1 (i, j, k, m)) m - _
  have e : comps z.meqn (fun m => q1 (i, j, k, m)) m = q2 (i, j, k, m) := by
    rw [← hq]; exact if_pos ⟨m1, m2⟩
  rw [e]
  rfl

end Fclaw.Wave3
