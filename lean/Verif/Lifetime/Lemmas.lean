/-
Helpers for C75.
-/
import Verif.Lifetime.Spec
import Verif.Repopulate.Props
import Verif.Partition.General
import Verif.Conserve.Props

set_option autoImplicit false
set_option linter.unusedSimpArgs false
set_option linter.unusedVariables false
set_option linter.unusedSectionVars false
namespace Fclaw.Lifetime

open Fort CopyGhost Transfer Adapt Metric Repopulate
open Fclaw.Domain (Path)
open Fclaw.Partition (localPart blockStart)

variable {K P : Type} [Field K] [CharZero K]

/-! ### Repartitioning -/

theorem items_get (qs : List (List (Path 4))) (D : Repopulate.World) (i : Nat) :
    (items qs D)[i]? = (qs[i]?).map fun l => l.map fun q => ⟨i, q, some (D i q)⟩ := by
  unfold items
  rw [List.getElem?_map, List.getElem?_zipIdx]
  cases qs[i]? <;> simp

theorem items_lengths (qs : List (List (Path 4))) (D : Repopulate.World) : (items qs D).map List.length = qs.map List.length := by
  apply List.ext_getElem?
  intro i
  rw [List.getElem?_map, List.getElem?_map, items_get]
  cases qs[i]? <;> simp

theorem items_start (qs : List (List (Path 4))) (D : Repopulate.World) (i : Nat) : blockStart (items qs D) i = blockStart qs i := by
  unfold blockStart
  rw [List.map_take, List.map_take, items_lengths]

theorem items_local (qs : List (List (Path 4))) (D : Repopulate.World) (c e i : Nat) :
    ((localPart c e 0 (items qs D))[i]?.getD []) = ((localPart c e 0 qs)[i]?.getD []).map fun q => ⟨i, q, some (D i q)⟩ := by
  rw [Partition.localPart_getElem?, Partition.localPart_getElem?, items_get, items_start]
  cases qs[i]? with
  | none => rfl
  | some l => simp [List.map_take, List.map_drop]

/-- What can happen to a patch. -/
def Moves (S : Setting K P) (i : Nat) (q : Path 4) (p p' : Patch) : Prop :=
  p' = p ∨ (p'.q = p.q ∧ Valid S i q p' ∧ FreshReg S i q p')

theorem unpack_spec (S : Setting K P) (hS : S.Ok) (mem : Nat → Path 4 → Memory P) (i : Nat) (q : Path 4) (hl : q.length ≤ S.maxlevel)
    (p : Patch) : ∃ p', unpack S mem (pack ⟨i, q, some p⟩) = ⟨i, q, some p'⟩ ∧ p'.q = p.q ∧ Valid S i q p' ∧ FreshReg S i q p' := by
  obtain ⟨r, e, h1, h2⟩ := buildPatch_spec S hS i q hl (mem i q)
  refine ⟨{ r with q := p.q }, ?_, rfl, h1, h2⟩
  unfold unpack pack
  simp only [Option.map_some, Option.bind_some, e]

theorem cut_mono {cut : Nat → Nat} (h : ∀ p, cut p ≤ cut (p + 1)) : ∀ a b, a ≤ b → cut a ≤ cut b := by
  intro a b hab
  induction b with
  | zero => have : a = 0 := by omega
            subst this; exact Nat.le_refl _
  | succ b ih =>
    by_cases h' : a = b + 1
    · subst h'; exact Nat.le_refl _
    · exact Nat.le_trans (ih (by omega)) (h b)

theorem cut_find {cut : Nat → Nat} (n g : Nat) (h0 : cut 0 ≤ g) (hg : g < cut n) : ∃ p < n, cut p ≤ g ∧ g < cut (p + 1) := by
  induction n with
  | zero => omega
  | succ n ih =>
    by_cases h : g < cut n
    · obtain ⟨p, hp, h1⟩ := ih h
      exact ⟨p, by omega, h1⟩
    · exact ⟨n, by omega, by omega, hg⟩

theorem flatten_len (qs : List (List (Path 4))) (i : Nat) (l : List (Path 4)) (h : qs[i]? = some l) :
    blockStart qs i + l.length ≤ qs.flatten.length := by
  have := Partition.flatten_length qs i l h
  omega

/-- Every patch is somewhere. -/
theorem located {nproc : Nat} {qs : List (List (Path 4))} {cut : Nat → Nat} (hc : Cuts nproc qs cut) (i : Nat) (q : Path 4)
    (hq : q ∈ qs[i]?.getD []) : ∃ p < nproc, ∃ j : Nat, ((localPart (cut p) (cut (p + 1)) 0 qs)[i]?.getD [])[j]? = some q := by
  cases hi : qs[i]? with
  | none => rw [hi] at hq; cases hq
  | some l =>
    rw [hi] at hq
    obtain ⟨k, hk⟩ := List.getElem?_of_mem (show q ∈ l from hq)
    have hkl := (List.getElem?_eq_some_iff.1 hk).1
    have := flatten_len qs i l hi
    obtain ⟨p, hp, h1, h2⟩ := cut_find (cut := cut) nproc (blockStart qs i + k) (by rw [hc.first]; omega) (by rw [hc.last]; omega)
    refine ⟨p, hp, blockStart qs i + k - max (cut p) (blockStart qs i), ?_⟩
    rw [Partition.local_entry (cut p) (cut (p + 1)) qs i _ l hi (by omega)]
    rw [show max (cut p) (blockStart qs i) + (blockStart qs i + k - max (cut p) (blockStart qs i)) = blockStart qs i + k by omega]
    rw [Partition.flatten_getElem? qs i k l hi hkl, hk]

theorem local_mem (qs : List (List (Path 4))) (c e i j : Nat) (q : Path 4) (h : ((localPart c e 0 qs)[i]?.getD [])[j]? = some q) :
    q ∈ qs[i]?.getD [] := by
  rw [Partition.localPart_getElem?] at h
  cases hi : qs[i]? with
  | none => rw [hi] at h; simp at h
  | some l =>
    rw [hi] at h
    have := List.mem_of_getElem? h
    simp only [Option.map_some, Option.getD_some] at this
    exact List.mem_of_mem_drop (List.mem_of_mem_take this)

theorem moved (S : Setting K P) (hS : S.Ok) (mem : Nat → Path 4 → Memory P) {nproc : Nat} {qs : List (List (Path 4))} {cut cut' : Nat → Nat}
    (hc : Cuts nproc qs cut) (hc' : Cuts nproc qs cut') (hl : ∀ i : Nat, ∀ q ∈ qs[i]?.getD [], q.length ≤ S.maxlevel) (D N : Repopulate.World)
    (h : Repartitioned S mem nproc cut cut' qs D N) (i : Nat) : ∀ q ∈ qs[i]?.getD [], Moves S i q (D i q) (N i q) := by
  intro q hq
  obtain ⟨p, hp, j, hj⟩ := located hc' i q hq
  obtain ⟨s, e, hn⟩ := h p hp
  obtain ⟨s', e', hn'⟩ := Partition.process_general pack (unpack S mem) (items qs D) (cut p) (cut (p + 1)) (cut' p) (cut' (p + 1))
    (hc.mono p) (hc'.mono p) 0 0
  unfold repartition at e
  rw [e] at e'
  cases e'
  have h1 := hn i j
  have h2 := hn' i j
  rw [h1, items_local, List.getElem?_map, hj] at h2
  simp only [Option.map_some, Option.some.injEq] at h2
  split at h2
  · left
    simp only [Item.mk.injEq, true_and, Option.some.injEq] at h2
    exact h2
  · right
    obtain ⟨p', e1, h3⟩ := unpack_spec S hS mem i q (hl i q hq) (D i q)
    rw [e1] at h2
    simp only [Item.mk.injEq, true_and, Option.some.injEq] at h2
    rw [h2]
    exact h3

/-! ### Sums over the mesh -/

theorem sum_places (qs : List (List (Path 4))) (hn : ∀ i : Nat, (qs[i]?.getD []).Nodup) (M : GhostFill.Mesh) (place : Nat → Nat × Path 4)
    (inj : ∀ x ∈ M.patches, ∀ y ∈ M.patches, place x = place y → x = y)
    (all : ∀ (i : Nat) (q : Path 4), q ∈ qs[i]?.getD [] ↔ ∃ x ∈ M.patches, place x = (i, q)) (F : Nat → Path 4 → ℚ) :
    ∑ x ∈ M.patches.toFinset, F (place x).1 (place x).2 = ∑ i ∈ Finset.range qs.length, ((qs[i]?.getD []).map fun q => F i q).sum := by
  have e : ∀ i : Nat, ((qs[i]?.getD []).map fun q => F i q).sum = ∑ q ∈ (qs[i]?.getD []).toFinset, F i q := by
    intro i
    rw [List.sum_toFinset _ (hn i)]
  rw [Finset.sum_congr rfl (fun i _ => e i), Finset.sum_sigma']
  refine Finset.sum_bij (fun x _ => ⟨(place x).1, (place x).2⟩) ?_ ?_ ?_ ?_
  · intro x hx
    rw [List.mem_toFinset] at hx
    have := (all (place x).1 (place x).2).2 ⟨x, hx, rfl⟩
    rw [Finset.mem_sigma]
    refine ⟨?_, List.mem_toFinset.2 this⟩
    rw [Finset.mem_range]
    by_contra hlt
    dsimp only at hlt
    rw [List.getElem?_eq_none (by omega)] at this
    cases this
  · intro x hx y hy h
    rw [List.mem_toFinset] at hx hy
    refine inj x hx y hy ?_
    have h1 : (place x).1 = (place y).1 := by injection h
    have h2 : (place x).2 = (place y).2 := by
      injection h
    exact Prod.ext h1 h2
  · rintro ⟨i, q⟩ hx
    rw [Finset.mem_sigma, List.mem_toFinset] at hx
    obtain ⟨x, hx, e⟩ := (all i q).1 hx.2
    refine ⟨x, List.mem_toFinset.2 hx, ?_⟩
    rw [e]
  · intro x hx
    rfl

theorem mass_eq (S : Setting K P) (q : Path 4) (p : Patch) (area : ℤ → ℤ → ℚ) (g : Grid ℚ)
    (ha : ∀ c ∈ coarseCells S.d, area c.1 c.2 = areaOf S q p c)
    (hg : ∀ a b m, interior S.d a b → g (a, b, m) = p.q (a, b, m)) (m : ℤ) :
    Correction.mass S.d area g m = patchMass S q p m := by
  unfold Correction.mass patchMass
  have e : coarseCells S.d = Correction.upTo S.d.mx ×ˢ Correction.upTo S.d.my := rfl
  rw [e, Finset.sum_product]
  refine Finset.sum_congr rfl fun a ha' => Finset.sum_congr rfl fun b hb' => ?_
  have hm : (a, b) ∈ coarseCells S.d := by rw [e, Finset.mem_product]; exact ⟨ha', hb'⟩
  have h1 := ha (a, b) hm
  dsimp only at h1
  rw [mem_coarseCells] at hm
  unfold coarseMass
  rw [h1, hg a b m ⟨hm.1.1, hm.1.2, hm.2⟩]

theorem total_eq (S : Setting K P) (bd : Nat → Path 4 → Nat → Bool) (qs : List (List (Path 4))) (hn : ∀ i : Nat, (qs[i]?.getD []).Nodup)
    (D D' : Repopulate.World) (M : GhostFill.Mesh) (place : Nat → Nat × Path 4) (G : Nat → Correction.Geom S.d)
    (h : Shows S bd qs D M place G) (W : Conserve.World)
    (hW : ∀ x ∈ M.patches, (D' (place x).1 (place x).2).area = (D (place x).1 (place x).2).area ∧ W.q x = (D' (place x).1 (place x).2).q) (m : ℤ) :
    Conserve.totalMass M G W m = meshMass S qs D' m := by
  unfold Conserve.totalMass meshMass
  rw [← sum_places qs hn M place h.inj h.all (fun i q => patchMass S q (D' i q) m)]
  refine Finset.sum_congr rfl fun x hx => ?_
  rw [List.mem_toFinset] at hx
  obtain ⟨h1, h2⟩ := hW x hx
  refine mass_eq S _ _ _ _ ?_ ?_ m
  · intro c hc
    rw [h.areas x hx c hc]
    unfold areaOf
    rw [h1]
  · intro a b m _
    rw [h2]

theorem mesh_congr (S : Setting K P) (qs : List (List (Path 4))) (D D' : Repopulate.World) (m : ℤ)
    (h : ∀ i : Nat, ∀ q ∈ qs[i]?.getD [], patchMass S q (D' i q) m = patchMass S q (D i q) m) : meshMass S qs D' m = meshMass S qs D m := by
  unfold meshMass
  refine Finset.sum_congr rfl fun i _ => ?_
  congr 1
  exact List.map_congr_left fun q hq => h i q hq

theorem patchMass_congr (S : Setting K P) (q : Path 4) (p p' : Patch) (m : ℤ) (ha : ∀ c ∈ coarseCells S.d, areaOf S q p' c = areaOf S q p c)
    (hq : ∀ a b m, interior S.d a b → p'.q (a, b, m) = p.q (a, b, m)) : patchMass S q p' m = patchMass S q p m := by
  unfold patchMass coarseMass
  refine Finset.sum_congr rfl ?_
  rintro ⟨a, b⟩ hc
  have hc' := (mem_coarseCells ..).1 hc
  dsimp only
  rw [ha _ hc, hq a b m ⟨hc'.1.1, hc'.1.2, hc'.2⟩]

/-! ### Invariant -/

/-- The registers of a patch when nothing is pending. -/
structure Settled (S : Setting K P) (q : Path 4) (p : Patch) : Prop where
  balanced : Correction.Balanced S.d p.reg
  areas : ∀ f < 4, ∀ t ∈ Correction.upTo (Correction.len S.d f), p.reg.area f t = areaOf S q p (Correction.cellAt S.d f t)
  zero : ∀ f < 4, ∀ m, Correction.gainFace S.d p.reg f m = 0

structure Inv (S : Setting K P) (qs : List (List (Path 4))) (D : Repopulate.World) : Prop where
  once : ∀ i : Nat, (qs[i]?.getD []).Nodup
  level : ∀ i : Nat, ∀ q ∈ qs[i]?.getD [], q.length ≤ S.maxlevel
  valid : ∀ i : Nat, ∀ q ∈ qs[i]?.getD [], Valid S i q (D i q)
  settled : ∀ i : Nat, ∀ q ∈ qs[i]?.getD [], Settled S q (D i q)

theorem fresh_settled {S : Setting K P} {i : Nat} {q : Path 4} {p : Patch} (h : FreshReg S i q p) : Settled S q p := by
  unfold FreshReg at h
  refine ⟨?_, ?_, ?_⟩
  · rw [h]; exact Correction.empty_balanced _ _
  · intro f hf t ht
    rw [h]
    unfold Correction.upTo at ht
    rw [Finset.mem_Icc] at ht
    show alongFaces S.d _ f t = _
    unfold alongFaces
    rw [if_pos ht]
  · intro f _ m
    rw [h]; exact Correction.empty_gain _ _ f m

theorem cellAt_mem (d : Dims) (hE : Even2 d) (f : Nat) (hf : f < 4) (t : ℤ) (ht : t ∈ Correction.upTo (Correction.len d f)) :
    Correction.cellAt d f t ∈ coarseCells d := by
  obtain ⟨h1, h2, _, _⟩ := hE
  unfold Correction.upTo at ht
  rw [Finset.mem_Icc] at ht
  unfold Correction.len at ht
  unfold Correction.cellAt
  interval_cases f <;> simp at ht ⊢ <;> rw [mem_coarseCells] <;> omega

theorem no_inflow {d : Dims} {M : GhostFill.Mesh} {L : Conserve.Links} {G : Nat → Correction.Geom d} {rpn : Correction.Rpn} {top : Int}
    {W0 W : Conserve.World} {B : ℤ → ℚ} (h : Conserve.History d M L G rpn top W0 W B)
    (hc : ∀ x ∈ M.patches, ∀ f < 4, GhostFill.isBoundary (M.face x f) = false) (m : ℤ) : B m = 0 := by
  induction h with
  | start => rfl
  | sync W W' B minl _ _ ih => exact ih
  | steps W B x q r _ hx _ ih =>
    have none : (Finset.range 4).filter (fun f => GhostFill.isBoundary (M.face x f) = true) = ∅ := by
      rw [Finset.filter_eq_empty_iff]
      intro f hf h
      rw [hc x hx f (Finset.mem_range.1 hf)] at h
      cases h
    show B m + (Conserve.inflow (d := d) M x r m - Conserve.inflow (d := d) M x (W.r x) m) = 0
    unfold Conserve.inflow
    rw [none, ih]
    simp

end Fclaw.Lifetime
