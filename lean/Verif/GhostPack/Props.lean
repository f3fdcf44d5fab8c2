/-
C41: a patch that is packed and unpacked by another process arrives complete: true if there are at least
`4 mbc` cells in both directions, false for all smaller grids that the options allow.
-/
import Verif.GhostPack.Lemmas
import Verif.CopyGhost.Update

set_option autoImplicit false
set_option linter.unusedSimpArgs false
namespace Fclaw.GhostPack

open Fort

theorem sized_large (d : Dims) (o : Opts) (hA : Accepted d o) (hm : 1 ≤ d.mbc) (hx : 4 * d.mbc ≤ d.mx)
    (hy : 4 * d.mbc ≤ d.my) : Sized d o := by
  have e : hole d o = ((d.mx : ℤ) - 4 * d.mbc) * ((d.my : ℤ) - 4 * d.mbc) := by
    unfold hole; rw [hA.ref]; ring
  refine ⟨?_, ⟨hA.pos.2.2, hA.pos.1, hA.pos.2.1⟩, ?_, ?_⟩
  · rw [e]; apply mul_nonneg <;> omega
  · rw [hA.ref]; omega
  · rw [e]
    unfold whole
    have h1 : ((d.mx : ℤ) - 4 * d.mbc) * ((d.my : ℤ) - 4 * d.mbc) ≤ d.mx * ((d.my : ℤ) - 4 * d.mbc) :=
      mul_le_mul_of_nonneg_right (by omega) (by omega)
    have h2 : (d.mx : ℤ) * ((d.my : ℤ) - 4 * d.mbc) < (2 * d.mbc + d.mx) * (2 * d.mbc + d.my) := by
      have a : 0 < (d.mbc : ℤ) := by omega
      have b : 0 ≤ (d.mx : ℤ) * d.mbc := by positivity
      have c : 0 ≤ (d.my : ℤ) * d.mbc := by positivity
      have e : 0 < (d.mbc : ℤ) * d.mbc := by positivity
      nlinarith
    omega

theorem sized_small (d : Dims) (o : Opts) (hA : Accepted d o) (hm : 1 ≤ d.mbc) (hx : d.mx < 4 * d.mbc)
    (hy : d.my < 4 * d.mbc) (hy2 : 2 * d.mbc ≤ d.my) : Sized d o := by
  have h2x := hA.mbc
  have e : hole d o = (4 * (d.mbc : ℤ) - d.mx) * (4 * (d.mbc : ℤ) - d.my) := by
    unfold hole; rw [hA.ref]; ring
  refine ⟨?_, ⟨hA.pos.2.2, hA.pos.1, hA.pos.2.1⟩, ?_, ?_⟩
  · rw [e]; apply mul_nonneg <;> omega
  · rw [hA.ref]; omega
  · rw [e]
    unfold whole
    have h1 : (4 * (d.mbc : ℤ) - d.mx) * (4 * (d.mbc : ℤ) - d.my) ≤ (2 * d.mbc) * (4 * (d.mbc : ℤ) - d.my) :=
      mul_le_mul_of_nonneg_right (by omega) (by omega)
    have h2 : (2 * (d.mbc : ℤ)) * (4 * (d.mbc : ℤ) - d.my) ≤ (2 * d.mbc) * (2 * d.mbc) :=
      mul_le_mul_of_nonneg_left (by omega) (by omega)
    have h3 : (2 * (d.mbc : ℤ)) * (2 * d.mbc) < (2 * d.mbc + d.mx) * (2 * d.mbc + d.my) :=
      mul_lt_mul'' (by omega) (by omega) (by omega) (by omega)
    omega

theorem needed_iff (d : Dims) (o : Opts) (hr : o.refratio = 2) (hx : 4 * d.mbc ≤ d.mx) (hy : 4 * d.mbc ≤ d.my) (l : Loc) :
    l ∈ locs d o ↔ Needed d o l := by
  have hi : ∀ i j, InRing d (2 * d.mbc) i j ↔ Outer d (2 * d.mbc) i j :=
    fun i j => inRing_outer d _ i j (by omega) (by omega) (by omega)
  rw [mem_locs, hr]
  cases l with
  | q i j mq =>
    simp only [Needed, isReg, Bool.false_eq_true, false_and, or_false, reduceCtorEq, and_false, exists_false, Loc.q.injEq]
    constructor
    · rintro ⟨i, j, mq, h, hm, rfl, rfl, rfl⟩; exact ⟨(hi _ _).1 h, hm⟩
    · rintro ⟨h, hm⟩; exact ⟨i, j, mq, (hi _ _).2 h, hm, rfl, rfl, rfl⟩
  | area i j =>
    simp only [Needed, isReg, Bool.false_eq_true, false_and, or_false, reduceCtorEq, and_false, exists_false, false_or,
      Loc.area.injEq]
    constructor
    · rintro ⟨i, j, h, ha, rfl, rfl⟩; exact ⟨(hi _ _).1 h, ha⟩
    · rintro ⟨h, ha⟩; exact ⟨i, j, (hi _ _).2 h, ha, rfl, rfl⟩
  | _ => simp [Needed, isReg]

theorem roundtrip {α : Type} (d : Dims) (o : Opts) (hS : Sized d o) (hx : o.refratio * d.mbc ≤ d.mx)
    (hy : o.refratio * d.mbc ≤ d.my) (data : Data α) :
    ∃ n : ℤ, packElems d o = some n ∧ ∃ msg : Buf α,
      (∀ buf, ∃ buf', localPack d o data buf = some (data, buf') ∧
        (∀ p, 0 ≤ p → p < n → buf' p = msg p) ∧ ∀ p, p < 0 ∨ n ≤ p → buf' p = buf p) ∧
      ∀ buf, (∀ p, 0 ≤ p → p < n → buf p = msg p) → ∀ ghost, ∃ ghost', remoteUnpack d o ghost buf = some (ghost', buf) ∧
        (∀ l ∈ locs d o, ghost' l = data l) ∧ ∀ l, l ∉ locs d o → ghost' l = ghost l := by
  have hval := locs_valid d o hS.ref.1 hx hy
  refine ⟨_, length_locs d o hS, fun p => if h : p.toNat < (locs d o).length then data (locs d o)[p.toNat] else data (.q 0 0 0), ?_, ?_⟩
  · intro buf
    obtain ⟨s', e, hk, hd, hb, hr⟩ := pack_list d (locs d o).length (locs d o) ⟨0, data, buf⟩ hval (by simp) (by simp)
    refine ⟨s'.buf, ?_, ?_, ?_⟩
    · have := ghostComm_eq d o hS true data buf
      unfold localPack
      rw [show 2 * o.area = mode o true from rfl, this, e, Option.map_some, hd]
    · intro p h0 hp
      have hpn : p.toNat < (locs d o).length := by omega
      dsimp only
      rw [dif_pos hpn]
      have := hb p.toNat hpn
      dsimp only at this
      rw [← this]
      congr 1
      omega
    · intro p hp
      exact hr p (by dsimp only; omega)
  · intro buf hbuf ghost
    obtain ⟨s', e, hk, hb, hd, hr⟩ := unpack_list d (locs d o).length data (locs d o) ⟨0, ghost, buf⟩ hval (by simp) (by simp) (by
      intro p hp
      dsimp only
      rw [zero_add, hbuf p (by omega) (by omega)]
      have : (p : ℤ).toNat < (locs d o).length := by omega
      dsimp only
      rw [dif_pos this]
      simp)
    refine ⟨s'.data, ?_, hd, hr⟩
    have := ghostComm_eq d o hS false ghost buf
    unfold remoteUnpack
    rw [show 2 * o.area + 1 = mode o false from rfl, this, e, Option.map_some, hb]

/-- C41 for grids with at least `4 mbc` cells in both directions. There are an announced size `n` and a
message of `n` values such that

* packing the patch succeeds, fills exactly the first `n` places of any buffer with the message, touches
  no others, and does not change the patch;
* unpacking a buffer with the message into any ghost patch succeeds; then the ghost patch agrees with the
  patch everywhere where it is needed, and elsewhere it is unchanged.

Missing: grids with less than `4 mbc` cells in some direction, for which this is false
(`C41_small_counterexample`, `C41_assertion_counterexample`). -/
theorem C41_partial {α : Type} (d : Dims) (o : Opts) (hA : Accepted d o) (hm : 1 ≤ d.mbc) (hx : 4 * d.mbc ≤ d.mx)
    (hy : 4 * d.mbc ≤ d.my) (data : Data α) :
    ∃ n : ℤ, packElems d o = some n ∧ ∃ msg : Buf α,
      (∀ buf, ∃ buf', localPack d o data buf = some (data, buf') ∧
        (∀ p, 0 ≤ p → p < n → buf' p = msg p) ∧ ∀ p, p < 0 ∨ n ≤ p → buf' p = buf p) ∧
      ∀ buf, (∀ p, 0 ≤ p → p < n → buf p = msg p) → ∀ ghost, ∃ ghost', remoteUnpack d o ghost buf = some (ghost', buf) ∧
        (∀ l, Needed d o l → ghost' l = data l) ∧ ∀ l, ¬ Needed d o l → ghost' l = ghost l := by
  obtain ⟨n, hn, msg, h1, h2⟩ := roundtrip d o (sized_large d o hA hm hx hy) (by rw [hA.ref]; omega)
    (by rw [hA.ref]; omega) data
  refine ⟨n, hn, msg, h1, fun buf hbuf ghost => ?_⟩
  obtain ⟨g, e, a, b⟩ := h2 buf hbuf ghost
  exact ⟨g, e, fun l hl => a l ((needed_iff d o hA.ref hx hy l).2 hl),
    fun l hl => b l fun h => hl ((needed_iff d o hA.ref hx hy l).1 h)⟩

/-- The default sizes meet the hypotheses. -/
example : Accepted ⟨8, 8, 2, 1⟩ ⟨2, true, true, true⟩ := ⟨rfl, by decide, by decide⟩
example : 4 * (⟨8, 8, 2, 1⟩ : Dims).mbc ≤ (⟨8, 8, 2, 1⟩ : Dims).mx := by decide

/-- The hypothesis `Received` of C34 holds for the solution of a patch that was packed and unpacked: whatever
the ghost patch held before. -/
theorem C41_received {α : Type} (d : Dims) (o : Opts) (hA : Accepted d o) (hm : 1 ≤ d.mbc) (hx : 4 * d.mbc ≤ d.mx)
    (hy : 4 * d.mbc ≤ d.my) (rest ghost : Data α) (buf : Buf α) (recv : Grid α → Grid α)
    (hrecv : ∀ q, ∃ data' buf' ghost' buf'',
      localPack d o (fun l => match l with | .q i j mq => q (i, j, mq) | l => rest l) buf = some (data', buf') ∧
      remoteUnpack d o ghost buf' = some (ghost', buf'') ∧
      ∀ i j mq, recv q (i, j, mq) = ghost' (.q i j mq)) :
    CopyGhost.Received d recv := by
  intro q i j mq hn hc
  obtain ⟨data', buf', ghost', buf'', e1, e2, e3⟩ := hrecv q
  obtain ⟨n, hnn, msg, h1, h2⟩ := C41_partial d o hA hm hx hy (fun l => match l with | .q i j mq => q (i, j, mq) | l => rest l)
  obtain ⟨b, e4, hb, _⟩ := h1 buf
  rw [e4, Option.some.injEq, Prod.mk.injEq] at e1
  obtain ⟨g, e5, hg, _⟩ := h2 buf' (e1.2 ▸ hb) ghost
  rw [e5, Option.some.injEq, Prod.mk.injEq] at e2
  rw [e3, ← e2.1, hg]
  unfold CopyGhost.near CopyGhost.interior at hn
  refine ⟨⟨⟨by omega, by omega, by omega, by omega⟩, by omega⟩, hc⟩

/-- C41 is false for all grids with `2 mbc ≤ mx, my < 4 mbc`, for example for 4 by 4 cells and two layers of
ghost cells: packing and unpacking succeed without complaint, but some interior cell of the patch, one of
those that are needed, never reaches the other process. -/
theorem C41_small_counterexample (d : Dims) (o : Opts) (hA : Accepted d o) (hm : 1 ≤ d.mbc)
    (hx : d.mx < 4 * d.mbc) (hy : d.my < 4 * d.mbc) (hy2 : 2 * d.mbc ≤ d.my) :
    ∃ i j, CopyGhost.interior d i j ∧ Needed d o (.q i j 1) ∧ ∀ (data ghost : Data ℤ) (buf : Buf ℤ),
      ∃ buf' ghost', localPack d o data buf = some (data, buf') ∧ remoteUnpack d o ghost buf' = some (ghost', buf') ∧
        ghost' (.q i j 1) = ghost (.q i j 1) := by
  have h2x := hA.mbc
  have hp := hA.pos
  refine ⟨d.mx - 2 * d.mbc + 1, d.my - 2 * d.mbc + 1, ?_, ?_, ?_⟩
  · unfold CopyGhost.interior; omega
  · unfold Needed Outer; omega
  · intro data ghost buf
    obtain ⟨n, hn, msg, h1, h2⟩ := roundtrip d o (sized_small d o hA hm hx hy hy2) (by rw [hA.ref]; omega)
      (by rw [hA.ref]; omega) data
    obtain ⟨buf', e1, hb, _⟩ := h1 buf
    obtain ⟨ghost', e2, _, b⟩ := h2 buf' hb ghost
    refine ⟨buf', ghost', e1, e2, b _ ?_⟩
    rw [mem_locs, hA.ref]
    simp only [isReg, Bool.false_eq_true, false_and, or_false, reduceCtorEq, and_false, exists_false, Loc.q.injEq]
    rintro ⟨i, j, mq, h, _, h1, h2, _⟩
    unfold InRing at h
    omega

example : Accepted ⟨4, 4, 2, 1⟩ ⟨2, false, false, false⟩ := ⟨rfl, by decide, by decide⟩

/-- … and if only one of the two sizes is less than `4 mbc`, and the other one is greater, an assertion fails. -/
theorem C41_assertion_counterexample (d : Dims) (o : Opts) (hA : Accepted d o)
    (h : (d.mx < 4 * d.mbc ∧ 4 * d.mbc < d.my) ∨ (4 * d.mbc < d.mx ∧ d.my < 4 * d.mbc)) (data : Data ℤ) (buf : Buf ℤ) :
    localPack d o data buf = none := by
  have hneg : hole d o < 0 := by
    have e : hole d o = ((d.mx : ℤ) - 4 * d.mbc) * ((d.my : ℤ) - 4 * d.mbc) := by unfold hole; rw [hA.ref]; ring
    rw [e]
    rcases h with h | h
    · exact mul_neg_of_neg_of_pos (by omega) (by omega)
    · exact mul_neg_of_pos_of_neg (by omega) (by omega)
  have : packElems d o = none := by unfold packElems; rw [if_pos hneg]
  unfold localPack ghostComm
  simp only [this, Option.bind_none]

example : Accepted ⟨4, 16, 2, 1⟩ ⟨2, false, false, false⟩ := ⟨rfl, by decide, by decide⟩

end Fclaw.GhostPack
