import Verif.Extrude.Exchange
/-
From routines to operations on patches, and to histories.
-/
set_option autoImplicit false
set_option linter.unusedSimpArgs false
set_option linter.unusedVariables false
namespace Fclaw.Extrude

open Fort CopyGhost

abbrev stateL : Lens (Nat → Patch3) (Nat → Patch2) := funL Nat patchL

theorem slice_put3 (P : Nat → Patch3) (a : Nat) (q : Grid3 ℚ) (k : ℤ) :
    stateL.get (put3 P a q) k = put2 (stateL.get P k) a (layer q k) := by
  funext b
  show (put3 P a q b).slice k = _
  unfold put3 put2
  by_cases h : b = a
  · rw [if_pos h, if_pos h]; rfl
  · rw [if_neg h, if_neg h]; rfl

theorem put2_same (S : Nat → Patch2) (a : Nat) : put2 S a (S a).q = S := by
  funext b
  unfold put2
  by_cases h : b = a
  · rw [if_pos h, h]
  · rw [if_neg h]

theorem slice_putFour3 (P : Nat → Patch3) (fine : ℤ → Nat) (g : ℤ → Grid3 ℚ) (k : ℤ) :
    stateL.get (putFour3 P fine g) k = putFour2 (stateL.get P k) fine fun i => layer (g i) k := by
  unfold putFour3 putFour2
  rw [slice_put3, slice_put3, slice_put3, slice_put3]

theorem putFour2_same (S : Nat → Patch2) (fine : ℤ → Nat) : putFour2 S fine (fun i => (S (fine i)).q) = S := by
  unfold putFour2
  rw [put2_same, put2_same, put2_same, put2_same]

theorem rng_apply {T : Type} (lo hi : ℤ) (f : ℤ → T → Option T) (k : ℤ) (t : T) :
    rng lo hi f k t = if lo ≤ k ∧ k ≤ hi then f k t else some t := by
  unfold rng; split <;> rfl

/-- A program that computes something from the state and stores it. -/
theorem sep_store {A B : Type} {L : Lens A B} {lo hi : ℤ} (P : Nat → Patch3) (e : Option A) (f : ℤ → Option B)
    (x : ℤ → B) (put : A → Nat → Patch3) (put' : B → (Nat → Patch2) → Nat → Patch2)
    (h : (∃ s', e = some s' ∧ ∀ k, (if lo ≤ k ∧ k ≤ hi then f k else some (x k)) = some (L.get s' k)) ∨
      (e = none ∧ ∃ k, (if lo ≤ k ∧ k ≤ hi then f k else some (x k)) = none))
    (h1 : ∀ s k, stateL.get (put s) k = put' (L.get s k) (stateL.get P k))
    (h2 : ∀ k, put' (x k) (stateL.get P k) = stateL.get P k) :
    (∃ P', e.map put = some P' ∧ ∀ k, (if lo ≤ k ∧ k ≤ hi then (f k).map fun b => put' b (stateL.get P k) else some (stateL.get P k)) =
        some (stateL.get P' k)) ∨
      (e.map put = none ∧ ∃ k, (if lo ≤ k ∧ k ≤ hi then (f k).map fun b => put' b (stateL.get P k) else some (stateL.get P k)) = none) := by
  rcases h with ⟨s', e', hk⟩ | ⟨e', k, hk⟩
  · left
    refine ⟨put s', by rw [e']; rfl, fun k => ?_⟩
    have := hk k
    by_cases hr : lo ≤ k ∧ k ≤ hi
    · rw [if_pos hr] at this ⊢
      rw [this, Option.map_some, h1]
    · rw [if_neg hr] at this ⊢
      rw [Option.some.injEq] at this
      rw [h1, ← this, h2]
  · right
    refine ⟨by rw [e']; rfl, k, ?_⟩
    by_cases hr : lo ≤ k ∧ k ≤ hi
    · rw [if_pos hr] at hk ⊢
      rw [hk]; rfl
    · rw [if_neg hr] at hk; cases hk

theorem sep_put {lo hi : ℤ} (P : Nat → Patch3) (a : Nat) (F : Grid3 ℚ → Option (Grid3 ℚ)) (f : ℤ → Grid ℚ → Option (Grid ℚ))
    (h : Sep (gridL ℚ) F (rng lo hi f)) :
    (∃ P', (F (P a).q).map (put3 P a) = some P' ∧
        ∀ k, (if lo ≤ k ∧ k ≤ hi then (f k (layer (P a).q k)).map (put2 (stateL.get P k) a) else some (stateL.get P k)) = some (stateL.get P' k)) ∨
      ((F (P a).q).map (put3 P a) = none ∧
        ∃ k, (if lo ≤ k ∧ k ≤ hi then (f k (layer (P a).q k)).map (put2 (stateL.get P k) a) else some (stateL.get P k)) = none) := by
  have h' := h (P a).q
  simp only [rng_apply] at h'
  exact sep_store (L := gridL ℚ) P (F (P a).q) (fun k => f k (layer (P a).q k)) (fun k => layer (P a).q k) (put3 P a)
    (fun q S => put2 S a q) h' (fun q k => slice_put3 P a q k) (fun k => put2_same (stateL.get P k) a)

theorem step_inner (D : Dims3) (hz : 1 ≤ D.mz) (hm : 1 ≤ D.meqn) (op : Op) (h : op.isExchange = false) :
    Sep stateL (step3 D op) (rng 1 D.mz fun _ => step2 D.toDims op) := by
  intro P
  simp only [rng_apply]
  cases op with
  | copyFace a b td f => exact sep_put P a _ _ (copyFace3_sep hz td f (P b).q)
  | copyCorner a b td c => exact sep_put P a _ _ (copyCorner3_sep td c (P b).q)
  | averageFace a b td f mf => exact sep_put P a _ _ (averageFace3_sep td f (P b).vol mf (P b).q)
  | averageCorner a b td c mf => exact sep_put P a _ _ (averageCorner3_sep hm td c (P b).vol mf (P b).q)
  | interpFace a b td f => exact sep_put P b _ _ (interpolateFace3_sep hz td f (P a).q)
  | interpCorner a b td c => exact sep_put P b _ _ (interpolateCorner3_sep hz td c (P a).q)
  | coarsen a fine mf => exact sep_put P a _ _ (coarsen3_sep (fun g => (P (fine g)).vol) mf fun g => (P (fine g)).q)
  | refine a fine mf =>
    have h' := refine3_sep (D := D) (P a).vol (fun g => (P (fine g)).vol) mf (P a).q fun g => (P (fine g)).q
    simp only [rng_apply] at h'
    exact sep_store (L := funL ℤ (gridL ℚ)) P _ _ (fun k i => layer (P (fine i)).q k) (putFour3 P fine)
      (fun g S => putFour2 S fine g)
      h'
      (fun g k => slice_putFour3 P fine g k) (fun k => putFour2_same (stateL.get P k) fine)
  | timeInterp c l i alpha w =>
    have := sep_put P i _ _ (setupTimeinterp3_sep hz w (P c).q (P l).q alpha)
    simp only [Option.map_map] at this
    exact this
  | exchange a b o buf => cases h
  | pillowCopy a b c =>
    have h' := copyBlockCorner3_sep (D := D) c ((P a).q, (P b).q)
    simp only [rng_apply] at h'
    exact sep_store (L := pairL (gridL ℚ)) P (copyBlockCorner3 D c ((P a).q, (P b).q))
      (fun k => Pillow.copyBlockCorner D.toDims c (layer (P a).q k, layer (P b).q k))
      (fun k => (layer (P a).q k, layer (P b).q k)) (fun r => put3 (put3 P a r.1) b r.2)
      (fun r S => put2 (put2 S a r.1) b r.2) h'
      (fun r k => by rw [slice_put3, slice_put3]; rfl)
      (fun k => by
        show put2 (put2 (stateL.get P k) a (stateL.get P k a).q) b (stateL.get P k b).q = _
        rw [put2_same, put2_same])
  | pillowInterp a b c => exact sep_put P b _ _ (interpolateBlockCorner3_sep c (P a).q)

/-! ### Exchange -/

theorem sized_of_fits (D : Dims3) (hm : 1 ≤ D.meqn) (o : GhostPack.Opts) (hr : o.refratio = 2) (h1 : 1 ≤ D.mbc)
    (hx : 4 * D.mbc ≤ D.mx) (hy : 4 * D.mbc ≤ D.my) : GhostPack.Sized D.toDims o :=
  GhostPack.sized_large D.toDims o ⟨hr, by show 2 * D.mbc ≤ D.mx; omega,
    ⟨by show 1 ≤ D.mx; omega, by show 1 ≤ D.my; omega, hm⟩⟩ h1 hx hy

theorem step_exchange (D : Dims3) (hz : 1 ≤ D.mz) (hm : 1 ≤ D.meqn) (a b : Nat) (o : GhostPack.Opts) (buf : Buf)
    (hr : o.refratio = 2) (ht : o.timeSync = false) (h1 : 1 ≤ D.mbc) (hx : 4 * D.mbc ≤ D.mx) (hy : 4 * D.mbc ≤ D.my) :
    Sep stateL (step3 D (.exchange a b o buf))
      (rng (1 - D.mbc) (D.mz + D.mbc) fun _ => step2 D.toDims (.exchange a b o buf)) := by
  have hS := sized_of_fits D hm o hr h1 hx hy
  have hx' : o.refratio * (D.mbc : ℤ) ≤ D.mx := by rw [hr]; omega
  have hy' : o.refratio * (D.mbc : ℤ) ≤ D.my := by rw [hr]; omega
  intro P
  obtain ⟨buf', G, e1, e2, g1, g2⟩ := exchange3 D hz o hS ht hx' hy' (P a) (P b) buf
  left
  refine ⟨fun c => if c = b then G else P c, ?_, fun k => ?_⟩
  · show (localPack3 D o (P a) buf).bind _ = _
    rw [e1, Option.bind_some]
    dsimp only
    rw [e2]
    rfl
  · have hq : ∀ i j mq, G.q (i, j, k, mq) = if Loc3.q i j k mq ∈ locs3 D o then (P a).q (i, j, k, mq) else (P b).q (i, j, k, mq) := by
      intro i j mq
      split
      · next h => exact g1 _ h
      · next h => exact g2 _ h
    have hv : ∀ i j, G.vol (i, j, k) = if Loc3.vol i j k ∈ locs3 D o then (P a).vol (i, j, k) else (P b).vol (i, j, k) := by
      intro i j
      split
      · next h => exact g1 _ h
      · next h => exact g2 _ h
    unfold rng
    by_cases hk : 1 - (D.mbc : ℤ) ≤ k ∧ k ≤ D.mz + D.mbc
    · rw [if_pos hk]
      obtain ⟨buf2, y, f1, f2, y1, y2⟩ := exchange2 D.toDims o hS hx' hy' (stateL.get P k a).data (stateL.get P k b).data buf
      show (GhostPack.localPack D.toDims o (stateL.get P k a).data buf).bind _ = _
      rw [f1, Option.bind_some]
      dsimp only
      rw [f2, Option.map_some]
      congr 1
      funext c
      show (if c = b then Patch2.ofData y else stateL.get P k c) = (if c = b then G else P c).slice k
      by_cases hc : c = b
      · rw [if_pos hc, if_pos hc]
        unfold Patch2.ofData Patch3.slice
        rw [Patch2.mk.injEq]
        constructor
        · funext ⟨i, j, mq⟩
          dsimp only
          rw [hq]
          by_cases hl : Loc3.q i j k mq ∈ locs3 D o
          · rw [if_pos hl]
            rw [q_mem_locs3] at hl
            exact y1 _ ((GhostPack.mem_locs ..).2 (Or.inl ⟨i, j, mq, hl.1, hl.2.1, rfl⟩))
          · rw [if_neg hl]
            refine y2 _ fun h => hl ?_
            rw [GhostPack.mem_locs] at h
            rcases h with ⟨i', j', mq', h1, h2, h3⟩ | ⟨i', j', h1, h2, h3⟩ | ⟨h, _⟩
            · cases h3
              exact (q_mem_locs3 ..).2 ⟨h1, h2, hk⟩
            · cases h3
            · cases h
        · funext ⟨i, j⟩
          dsimp only
          rw [hv]
          by_cases hl : Loc3.vol i j k ∈ locs3 D o
          · rw [if_pos hl]
            rw [vol_mem_locs3] at hl
            exact y1 _ ((GhostPack.mem_locs ..).2 (Or.inr (Or.inl ⟨i, j, hl.1, hl.2.1, rfl⟩)))
          · rw [if_neg hl]
            refine y2 _ fun h => hl ?_
            rw [GhostPack.mem_locs] at h
            rcases h with ⟨i', j', mq', h1, h2, h3⟩ | ⟨i', j', h1, h2, h3⟩ | ⟨h, _⟩
            · cases h3
            · cases h3
              exact (vol_mem_locs3 ..).2 ⟨h1, h2, hk⟩
            · cases h
      · rw [if_neg hc, if_neg hc]; rfl
    · rw [if_neg hk]
      congr 1
      funext c
      show (P c).slice k = (if c = b then G else P c).slice k
      by_cases hc : c = b
      · rw [if_pos hc, hc]
        unfold Patch3.slice
        rw [Patch2.mk.injEq]
        constructor
        · funext ⟨i, j, mq⟩
          dsimp only
          rw [hq, if_neg]
          intro h
          exact hk ((q_mem_locs3 ..).1 h).2.2
        · funext ⟨i, j⟩
          dsimp only
          rw [hv, if_neg]
          intro h
          exact hk ((vol_mem_locs3 ..).1 h).2.2
      · rw [if_neg hc]

/-! ### Histories -/

theorem run_sep (D : Dims3) (hz : 1 ≤ D.mz) (hm : 1 ≤ D.meqn) (ops : List Op) (h : ∀ op ∈ ops, op.Fits D) :
    Sep stateL (run (step3 D) ops) fun k => run (step2 D.toDims) (seen D k ops) := by
  induction ops with
  | nil =>
    refine (Sep.some stateL).congr (fun _ => rfl) fun k S => ?_
    have : seen D k [] = [] := by unfold seen; split <;> simp
    rw [this]
    rfl
  | cons op ops ih =>
    have hrest := ih fun o ho => h o (List.mem_cons_of_mem _ ho)
    have hop := h op (List.mem_cons_self ..)
    by_cases hx : op.isExchange = true
    · cases op with
      | exchange a b o buf =>
        refine (Sep.seq (step_exchange D hz hm a b o buf hop.1 hop.2.1 hop.2.2.1 hop.2.2.2.1 hop.2.2.2.2) hrest).congr
          (fun _ => rfl) fun k S => ?_
        unfold rng seen
        by_cases h1 : 1 ≤ k ∧ k ≤ (D.mz : ℤ)
        · rw [if_pos h1, if_pos (by omega), if_pos h1]; rfl
        · rw [if_neg h1, if_neg h1]
          by_cases h2 : 1 - (D.mbc : ℤ) ≤ k ∧ k ≤ D.mz + D.mbc
          · rw [if_pos h2, if_pos h2, if_pos h2, List.filter_cons_of_pos hx]; rfl
          · rw [if_neg h2, if_neg h2, if_neg h2]; rfl
      | _ => cases hx
    · rw [Bool.not_eq_true] at hx
      refine (Sep.seq (step_inner D hz hm op hx) hrest).congr (fun _ => rfl) fun k S => ?_
      unfold rng seen
      by_cases h1 : 1 ≤ k ∧ k ≤ (D.mz : ℤ)
      · rw [if_pos h1, if_pos h1, if_pos h1]; rfl
      · rw [if_neg h1, if_neg h1, if_neg h1]
        by_cases h2 : 1 - (D.mbc : ℤ) ≤ k ∧ k ≤ D.mz + D.mbc
        · rw [if_pos h2, if_pos h2, List.filter_cons_of_neg (by rw [hx]; decide)]; rfl
        · rw [if_neg h2, if_neg h2]; rfl

end Fclaw.Extrude
