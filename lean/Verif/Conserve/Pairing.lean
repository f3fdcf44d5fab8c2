/-
Corrections on both sides of all faces add up to what the registers held.
-/
import Verif.Conserve.Lemmas

set_option autoImplicit false
set_option linter.unusedSimpArgs false
set_option linter.unusedVariables false
namespace Fclaw.Conserve

open Fort CopyGhost Correction GhostFill TimeSync

variable {d : Dims}

/-- What face `a` and face `b` exchange in a synchronisation. -/
def flow (M : Mesh) (minl : Int) (g : Nat × Nat → ℚ) (a b : Nat × Nat) : ℚ :=
  match M.face a.1 a.2 with
  | .boundary => 0
  | .same y rf => if minl ≤ M.level a.1 ∧ b = (y, rf) then (g a - g b) / 2 else 0
  | .half y0 y1 rf => if minl ≤ M.level a.1 ∧ (b = (y0, rf) ∨ b = (y1, rf)) then -g b else 0
  | .double y rf _ _ => if minl ≤ M.level y ∧ b = (y, rf) then g a else 0

theorem flow_back (M : Mesh) (hM : M.Ok) (minl : Int) (g : Nat × Nat → ℚ) (a b : Nat × Nat) (ha : a.2 < 4)
    (h : flow M minl g a b ≠ 0) : flow M minl g b a = -flow M minl g a b := by
  obtain ⟨x, f⟩ := a
  dsimp only at ha
  unfold flow at h ⊢
  cases e : M.face x f with
  | boundary => simp [e] at h
  | same y rf =>
    simp only [e] at h ⊢
    by_cases h1 : minl ≤ M.level x ∧ b = (y, rf)
    · obtain ⟨h1, rfl⟩ := h1
      have s := hM.sameSym x f y rf ha e
      have l := hM.sameLevel x f y rf ha e
      simp only [s.2, l, h1, and_self, if_true]
      ring
    · rw [if_neg h1] at h; exact absurd rfl h
  | half y0 y1 rf =>
    simp only [e] at h ⊢
    by_cases h1 : minl ≤ M.level x ∧ (b = (y0, rf) ∨ b = (y1, rf))
    · obtain ⟨_, ⟨_, _, s0⟩, ⟨_, _, s1⟩⟩ := hM.halfSym x f y0 y1 rf ha e
      rw [if_pos h1]
      obtain ⟨h1, rfl | rfl⟩ := h1
      · simp only [s0, h1, and_self, if_true, neg_neg]
      · simp only [s1, h1, and_self, if_true, neg_neg]
    · rw [if_neg h1] at h; exact absurd rfl h
  | double y rf k hk =>
    simp only [e] at h ⊢
    by_cases h1 : minl ≤ M.level y ∧ b = (y, rf)
    · obtain ⟨h1, rfl⟩ := h1
      obtain ⟨_, hk2, y0, y1, s, s'⟩ := hM.doubleSym x f y rf k hk ha e
      simp only [s]
      have o : (x, f) = (y0, f) ∨ (x, f) = (y1, f) := by
        rw [← s']
        unfold pick
        split
        · exact Or.inl rfl
        · exact Or.inr rfl
      rw [if_pos ⟨h1, o⟩, if_pos ⟨h1, trivial⟩]
    · rw [if_neg h1] at h; exact absurd rfl h

theorem flow_sum (M : Mesh) (hM : M.Ok) (minl : Int) (g : Nat × Nat → ℚ) (I : Finset (Nat × Nat)) (hI : ∀ a ∈ I, a.2 < 4) :
    ∑ a ∈ I, ∑ b ∈ I, flow M minl g a b = 0 := by
  have anti : ∀ a ∈ I, ∀ b ∈ I, flow M minl g a b = -flow M minl g b a := by
    intro a ha b hb
    by_cases h : flow M minl g a b = 0
    · by_cases h' : flow M minl g b a = 0
      · rw [h, h']; simp
      · exact flow_back M hM minl g b a (hI b hb) h'
    · rw [flow_back M hM minl g a b (hI a ha) h, neg_neg]
  have h : ∑ a ∈ I, ∑ b ∈ I, flow M minl g a b = -∑ a ∈ I, ∑ b ∈ I, flow M minl g a b := by
    conv_rhs => rw [Finset.sum_comm]
    rw [← Finset.sum_neg_distrib]
    refine Finset.sum_congr rfl fun a ha => ?_
    rw [← Finset.sum_neg_distrib]
    exact Finset.sum_congr rfl fun b hb => anti a ha b hb
  linarith

/-- All faces. -/
def faceSet (M : Mesh) : Finset (Nat × Nat) := M.patches.toFinset ×ˢ Finset.range 4

theorem mem_faceSet (M : Mesh) (x f : Nat) : (x, f) ∈ faceSet M ↔ x ∈ M.patches ∧ f < 4 := by
  simp [faceSet]

noncomputable instance (M : Mesh) (minl : Int) (x f : Nat) : Decidable (Done M minl x f) :=
  Classical.propDecidable _

/-- The mass added at a face, and what is cleared there. -/
noncomputable def turnover (d : Dims) (M : Mesh) (minl : Int) (R : Nat → Regs) (m : ℤ) (x f : Nat) : ℚ :=
  ((if minl ≤ M.level x then due M (fun z k => gains d (R z) k) x f else []).map fun e => amount M e m).sum +
  if isBoundary (M.face x f) = true then 0 else if Done M minl x f then gainFace d (R x) f m else 0

theorem turnover_eq (hd : Sized d) (M : Mesh) (hM : M.Ok) (minl : Int) (R : Nat → Regs) (m : ℤ) (x f : Nat)
    (hx : x ∈ M.patches) (hf : f < 4) :
    turnover d M minl R m x f = ∑ b ∈ faceSet M, flow M minl (fun c => gainFace d (R c.1) c.2 m) (x, f) b := by
  unfold turnover flow
  cases e : M.face x f with
  | boundary => simp [due, e, isBoundary]
  | same y rf =>
    have hy := (hM.closed x hx y (nbr_same M x f y rf hf e))
    have hs := hM.sameSym x f y rf hf e
    have hD : Done M minl x f ↔ minl ≤ M.level x := by
      unfold Done
      rw [e]
      simp
    by_cases hm : minl ≤ M.level x
    · simp only [hm, true_and, if_true, due, e, isBoundary, Bool.false_eq_true, if_false, hD]
      rw [Finset.sum_ite_eq' (faceSet M) (y, rf), if_pos ((mem_faceSet ..).2 ⟨hy, hs.1⟩)]
      simp [amount, e, gains]
      ring
    · simp [hm, hD, isBoundary]
  | half y0 y1 rf =>
    have hy := nbr_half M x f y0 y1 rf hf e
    have hy0 := hM.closed x hx y0 hy.1
    have hy1 := hM.closed x hx y1 hy.2
    have hs := hM.halfSym x f y0 y1 rf hf e
    have hne : y1 ≠ y0 := by
      rintro rfl
      obtain ⟨_, ⟨_, _, h0⟩, ⟨_, _, h1⟩⟩ := hs
      rw [h0] at h1
      simp at h1
    have hD : Done M minl x f ↔ minl ≤ M.level x := by
      unfold Done
      rw [e]
      simp
    by_cases hm : minl ≤ M.level x
    · simp only [hm, true_and, if_true, due, e, isBoundary, Bool.false_eq_true, if_false, hD]
      have split' : ∀ b : Nat × Nat, (if b = (y0, rf) ∨ b = (y1, rf) then -gainFace d (R b.1) b.2 m else 0) =
          (if b = (y0, rf) then -gainFace d (R b.1) b.2 m else 0) + (if b = (y1, rf) then -gainFace d (R b.1) b.2 m else 0) := by
        intro b
        by_cases h0 : b = (y0, rf)
        · have : ¬ b = (y1, rf) := by
            rw [h0]
            intro h
            exact hne (Prod.mk.inj h).1.symm
          rw [if_pos (Or.inl h0), if_pos h0, if_neg this, add_zero]
        · by_cases h1 : b = (y1, rf)
          · rw [if_pos (Or.inr h1), if_neg h0, if_pos h1, zero_add]
          · rw [if_neg (by tauto), if_neg h0, if_neg h1, add_zero]
      rw [Finset.sum_congr rfl fun b _ => split' b, Finset.sum_add_distrib, Finset.sum_ite_eq' (faceSet M) (y0, rf),
        Finset.sum_ite_eq' (faceSet M) (y1, rf), if_pos ((mem_faceSet ..).2 ⟨hy0, hs.1⟩),
        if_pos ((mem_faceSet ..).2 ⟨hy1, hs.1⟩)]
      have hh := sum_halves (len d f) (len_even hd f).1 (fun t => gain (R x) f t m)
      have hg : gainFace d (R x) f m = ∑ t ∈ upTo (len d f), gain (R x) f t m := rfl
      simp only [List.map_cons, List.map_nil, List.sum_cons, List.sum_nil, amount, e, if_true, if_neg hne, gains,
        show ¬ (1 : Nat) = 0 by omega, show ¬ (2 : Nat) = 0 by omega, if_false, Nat.reduceSub]
      linarith
    · simp [hm, hD, isBoundary]
  | double y rf k hk =>
    have hlv := double_level M hM x f y rf k hk hf e
    obtain ⟨hf', hk2, y0, y1, s, s'⟩ := hM.doubleSym x f y rf k hk hf e
    have hy : y ∈ M.patches := by
      refine hM.closed x hx y ?_
      unfold nbrs
      rw [List.mem_append]
      left
      rw [List.mem_flatMap]
      exact ⟨f, (mem_numbers _).2 hf, by rw [e]; simp [faceList]⟩
    have hD : Done M minl x f ↔ minl ≤ M.level y := by
      unfold Done
      rw [e]
      constructor
      · intro h; exact h.2 _ _ _ _ rfl
      · intro h
        refine ⟨by omega, ?_⟩
        intro y' rf' g' hk' h'
        rw [FaceNbr.double.injEq] at h'
        rw [← h'.1]; exact h
    by_cases hm : minl ≤ M.level y
    · simp only [hm, true_and, if_true, isBoundary, Bool.false_eq_true, if_false, hD]
      rw [Finset.sum_ite_eq' (faceSet M) (y, rf), if_pos ((mem_faceSet ..).2 ⟨hy, hf'⟩)]
      simp [due, e]
    · simp [hm, hD, isBoundary, due, e]

/-- Everything that is added is what the registers lose. -/
theorem turnover_sum (hd : Sized d) (M : Mesh) (hM : M.Ok) (minl : Int) (R : Nat → Regs) (m : ℤ) :
    ∑ x ∈ M.patches.toFinset, ∑ f ∈ Finset.range 4, turnover d M minl R m x f = 0 := by
  rw [← flow_sum M hM minl (fun c => gainFace d (R c.1) c.2 m) (faceSet M)
    (by rintro ⟨x, f⟩ h; rw [mem_faceSet] at h; exact h.2)]
  rw [faceSet, Finset.sum_product]
  refine Finset.sum_congr rfl fun x hx => Finset.sum_congr rfl fun f hf => ?_
  exact turnover_eq hd M hM minl R m x f (List.mem_toFinset.1 hx) (Finset.mem_range.1 hf)

theorem sync_mass (hd : Sized d) (hp : Proper d) (M : Mesh) (hM : M.Ok) (hn : M.patches.Nodup) (L : Links) (hL : Linked d M L)
    (G : Nat → Geom d) (minl top : Int) (htop : ∀ x ∈ M.patches, M.level x ≤ top) (W W' : World)
    (hb : ∀ x ∈ M.patches, Balanced d (W.r x)) (ha : ∀ x ∈ M.patches, HasAreas d (G x) (W.r x))
    (h : Synced d M L minl top W W') :
    (∀ x ∈ M.patches, Balanced d (W'.r x)) ∧ (∀ x ∈ M.patches, HasAreas d (G x) (W'.r x)) ∧
    (∀ x ∈ M.patches, ∀ f < 4, Done M minl x f → ∀ m, gainFace d (W'.r x) f m = 0) ∧
    ∀ m, comp d m → totalMass M G W' m - totalMass M G W m = pending d M W' m - pending d M W m := by
  have each : ∀ x ∈ M.patches, Balanced d (W'.r x) ∧ HasAreas d (G x) (W'.r x) ∧
      (∀ f < 4, ∀ m, (Done M minl x f → gainFace d (W'.r x) f m = 0) ∧
        (¬ Done M minl x f → gainFace d (W'.r x) f m = gainFace d (W.r x) f m)) ∧
      ∀ m, comp d m → Correction.mass d (G x).area (W'.q x) m - Correction.mass d (G x).area (W.q x) m =
        ∑ f ∈ Finset.range 4, ((if minl ≤ M.level x then due M (fun z k => gains d (W.r z) k) x f else []).map
          fun e => amount M e m).sum := by
    intro x hx
    obtain ⟨s, s', h1, h2, h3, h4⟩ := h.each (M.owner x)
    obtain ⟨s'', e, k⟩ := process_spec hd hp M hM hn L hL G minl top htop (M.owner x) W hb ha s h1 h2
    rw [h3] at e
    obtain rfl := Option.some.inj e
    rw [(h4 x hx rfl).1, (h4 x hx rfl).2]
    exact k x hx rfl
  refine ⟨fun x hx => (each x hx).1, fun x hx => (each x hx).2.1, fun x hx f hf h m => ((each x hx).2.2.1 f hf m).1 h, ?_⟩
  intro m hm
  have t := turnover_sum hd M hM minl W.r m
  unfold totalMass pending
  rw [← Finset.sum_sub_distrib, ← Finset.sum_sub_distrib, ← sub_eq_zero, ← Finset.sum_sub_distrib, ← t]
  refine Finset.sum_congr rfl fun x hx => ?_
  rw [List.mem_toFinset] at hx
  obtain ⟨_, _, k1, k2⟩ := each x hx
  rw [k2 m hm, ← Finset.sum_sub_distrib, Finset.sum_filter, ← Finset.sum_sub_distrib]
  refine Finset.sum_congr rfl fun f hf => ?_
  rw [Finset.mem_range] at hf
  unfold turnover
  have k := k1 f hf m
  rw [sub_eq_add_neg]
  congr 1
  cases isBoundary (M.face x f)
  · simp only [if_true, Bool.false_eq_true, if_false]
    by_cases hD : Done M minl x f
    · rw [if_pos hD, k.1 hD]; ring
    · rw [if_neg hD, k.2 hD]; ring
  · simp

end Fclaw.Conserve
