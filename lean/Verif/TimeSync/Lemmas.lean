/-
Lemmas for C35: which steps there are, in which order.
-/
import Verif.TimeSync.Model
import Verif.GhostFill.Lemmas
import Mathlib.Data.List.Nodup

set_option autoImplicit false
set_option linter.unusedSimpArgs false
set_option linter.unusedVariables false
namespace Fclaw.TimeSync

open GhostFill

/-! ### Lists -/

theorem pairwise_all {α : Type} (R : α → α → Prop) (l : List α) : (∀ a ∈ l, ∀ b ∈ l, R a b) → l.Pairwise R := by
  induction l with
  | nil => intro _; exact List.Pairwise.nil
  | cons a l ih =>
    intro h
    rw [List.pairwise_cons]
    exact ⟨fun b hb => h a (List.mem_cons_self ..) b (List.mem_cons_of_mem _ hb),
      ih fun x hx y hy => h x (List.mem_cons_of_mem _ hx) y (List.mem_cons_of_mem _ hy)⟩

theorem flatMap_empty {α β : Type} (g : α → List β) (l : List α) : (∀ a ∈ l, g a = []) → l.flatMap g = [] := by
  intro h
  rw [List.flatMap_eq_nil_iff]
  exact h

theorem flatMap_single {α β : Type} (g : α → List β) (a0 : α) (l : List α) :
    l.Nodup → a0 ∈ l → (∀ a ∈ l, a ≠ a0 → g a = []) → l.flatMap g = g a0 := by
  induction l with
  | nil => intro _ h; simp at h
  | cons a l ih =>
    intro hn hm h
    rw [List.nodup_cons] at hn
    rw [List.flatMap_cons]
    by_cases e : a = a0
    · subst e
      rw [flatMap_empty g l fun b hb => h b (List.mem_cons_of_mem _ hb) fun e => hn.1 (e ▸ hb), List.append_nil]
    · rw [h a (List.mem_cons_self ..) e, List.nil_append]
      rcases List.mem_cons.1 hm with rfl | hm
      · exact absurd rfl e
      · exact ih hn.2 hm fun b hb => h b (List.mem_cons_of_mem _ hb)

theorem mem_downTo (hi lo l : Int) : l ∈ downTo hi lo ↔ lo ≤ l ∧ l ≤ hi := by
  unfold downTo
  rw [List.mem_map]
  constructor
  · rintro ⟨n, hn, rfl⟩
    rw [List.mem_range] at hn
    omega
  · intro h
    exact ⟨(hi - l).toNat, by rw [List.mem_range]; omega, by omega⟩

theorem nodup_downTo (hi lo : Int) : (downTo hi lo).Nodup := by
  unfold downTo
  refine List.Nodup.map ?_ List.nodup_range
  intro a b h
  dsimp only at h
  omega

/-! ### Running steps -/

/-- The step makes use of these registers. -/
def touches : Step → Nat → Nat → Prop
  | .use x f y rf, x', f' => (x' = x ∧ f' = f) ∨ (x' = y ∧ f' = rf)
  | .clear _ _, _, _ => False

/-- `b` may come after `a`: it does not use what `a` cleared. -/
def Safe (a b : Step) : Prop := ∀ x f, a = .clear x f → ¬ touches b x f

def ev {V : Type} (R : Nat → Nat → V) : Step → Option (Event V)
  | .use x f y rf => some ⟨x, f, y, rf, R x f, R y rf⟩
  | .clear _ _ => none

theorem run_reg {V : Type} [Zero V] (ss : List Step) (s : State V) (x f : Nat) :
    (run s ss).reg x f = if Step.clear x f ∈ ss then 0 else s.reg x f := by
  unfold run
  induction ss generalizing s with
  | nil => simp
  | cons a ss ih =>
    rw [List.foldl_cons, ih]
    cases a with
    | use x' f' y rf => simp [exec]
    | clear x' f' =>
      by_cases h : Step.clear x f ∈ ss
      · rw [if_pos h, if_pos (List.mem_cons_of_mem _ h)]
      · rw [if_neg h]
        by_cases e : x = x' ∧ f = f'
        · rw [if_pos (by rw [e.1, e.2]; exact List.mem_cons_self ..)]
          simp [exec, e]
        · rw [if_neg]
          · simp only [exec, if_neg e]
          · simp only [List.mem_cons, Step.clear.injEq, h, or_false]
            exact e

theorem run_log {V : Type} [Zero V] (ss : List Step) (s : State V) (hs : ss.Pairwise Safe) :
    (run s ss).log = s.log ++ ss.filterMap (ev s.reg) := by
  unfold run
  induction ss generalizing s with
  | nil => simp
  | cons a ss ih =>
    rw [List.pairwise_cons] at hs
    rw [List.foldl_cons, ih _ hs.2]
    cases a with
    | use x f y rf => simp [exec, ev]
    | clear x f =>
      simp only [exec, ev, List.filterMap_cons]
      congr 1
      refine List.filterMap_congr fun b hb => ?_
      have := hs.1 b hb x f rfl
      cases b with
      | clear _ _ => rfl
      | use x' f' y' rf' =>
        simp only [touches, not_or] at this
        simp only [ev]
        rw [if_neg (by rintro ⟨rfl, rfl⟩; exact this.1 ⟨rfl, rfl⟩), if_neg (by rintro ⟨rfl, rfl⟩; exact this.2 ⟨rfl, rfl⟩)]

/-- Does the step correct `x` at `f`? -/
def corrects (x f : Nat) : Step → Bool
  | .use x' f' _ _ => decide (x' = x ∧ f' = f)
  | .clear _ _ => false

theorem filter_ev {V : Type} (R : Nat → Nat → V) (x f : Nat) (ss : List Step) :
    (ss.filterMap (ev R)).filter (fun e => decide (e.x = x ∧ e.f = f)) = (ss.filter (corrects x f)).filterMap (ev R) := by
  induction ss with
  | nil => rfl
  | cons a ss ih =>
    cases a with
    | clear _ _ =>
      rw [List.filterMap_cons, List.filter_cons]
      exact ih
    | use x' f' y rf =>
      rw [List.filterMap_cons, List.filter_cons]
      by_cases h : x' = x ∧ f' = f
      · simp only [ev, corrects, h, List.filter_cons, List.filterMap_cons, and_self, decide_true, if_true, ih]
      · simp only [ev, corrects, h, List.filter_cons, decide_false, Bool.false_eq_true, if_false, ih]

/-! ### Membership -/

variable {M : Mesh}

theorem mem_localPatches (p : Nat) (l : Int) (x : Nat) :
    x ∈ localPatches M p l ↔ x ∈ M.patches ∧ M.owner x = p ∧ M.level x = l := by
  simp [localPatches]

theorem mem_reset (p : Nat) (cl : Int) (r : Reset) (s : Step) : s ∈ timeSyncReset M p cl r ↔
    ∃ x f, s = .clear x f ∧ x ∈ M.patches ∧ M.owner x = p ∧ f < 4 ∧ resetFlux M r cl x f = true ∧
      (M.level x = cl ∨ (r = .f2c ∧ M.level x = cl + 1)) := by
  have key : ∀ l, s ∈ (localPatches M p l).flatMap (resetPatch M r cl) ↔
      ∃ x f, s = .clear x f ∧ x ∈ M.patches ∧ M.owner x = p ∧ f < 4 ∧ resetFlux M r cl x f = true ∧ M.level x = l := by
    intro l
    rw [List.mem_flatMap]
    constructor
    · rintro ⟨x, hx, h⟩
      rw [mem_localPatches] at hx
      unfold resetPatch at h
      rw [List.mem_flatMap] at h
      obtain ⟨f, hf, h⟩ := h
      rw [mem_numbers] at hf
      split at h
      · rename_i hr
        rw [List.mem_singleton] at h
        exact ⟨x, f, h, hx.1, hx.2.1, hf, hr, hx.2.2⟩
      · simp at h
    · rintro ⟨x, f, rfl, h1, h2, h3, h4, h5⟩
      refine ⟨x, (mem_localPatches ..).2 ⟨h1, h2, h5⟩, ?_⟩
      unfold resetPatch
      rw [List.mem_flatMap]
      exact ⟨f, (mem_numbers _).2 h3, by rw [if_pos h4]; exact List.mem_singleton.2 rfl⟩
  unfold timeSyncReset
  rw [List.mem_append, key]
  constructor
  · rintro (⟨x, f, h1, h2, h3, h4, h5, h6⟩ | h)
    · exact ⟨x, f, h1, h2, h3, h4, h5, Or.inl h6⟩
    · split at h
      · rename_i hr
        rw [key] at h
        obtain ⟨x, f, h1, h2, h3, h4, h5, h6⟩ := h
        exact ⟨x, f, h1, h2, h3, h4, h5, Or.inr ⟨hr, h6⟩⟩
      · simp at h
  · rintro ⟨x, f, h1, h2, h3, h4, h5, h6 | ⟨h6, h7⟩⟩
    · exact Or.inl ⟨x, f, h1, h2, h3, h4, h5, h6⟩
    · refine Or.inr ?_
      rw [if_pos h6, key]
      exact ⟨x, f, h1, h2, h3, h4, h5, h7⟩

/-- The registers that are used and cleared on level `l`. -/
def AtSame (M : Mesh) (l : Int) (x f : Nat) : Prop := isSame (M.face x f) = true ∧ M.level x = l

def AtF2c (M : Mesh) (l : Int) (x f : Nat) : Prop :=
  (isHalf (M.face x f) = true ∧ M.level x = l) ∨ (isDoubleSize (M.face x f) = true ∧ M.level x = l + 1)

theorem atSame_atF2c (l l' : Int) (x f : Nat) (h : AtSame M l x f) (h' : AtF2c M l' x f) : False := by
  unfold AtSame at h
  unfold AtF2c at h'
  cases e : M.face x f <;> rw [e] at h h' <;> simp [isSame, isHalf, isDoubleSize] at h h'

theorem atF2c_atF2c (l l' : Int) (x f : Nat) (h : AtF2c M l x f) (h' : AtF2c M l' x f) : l = l' := by
  unfold AtF2c at h h'
  cases e : M.face x f <;> rw [e] at h h' <;> simp [isSame, isHalf, isDoubleSize] at h h' <;> omega

theorem faceSync_use (p : Nat) (e : Exchange) (x f : Nat) (s : Step) (h : s ∈ faceSync M p e x f) :
    ∃ a b c d, s = .use a b c d := by
  unfold faceSync at h
  split at h
  · simp at h
  · rw [List.mem_flatMap] at h
    obtain ⟨g, _, h⟩ := h
    split at h
    · exact ⟨_, _, _, _, List.mem_singleton.1 h⟩
    · simp at h
  · split at h
    · rcases List.mem_cons.1 h with h | h
      · exact ⟨_, _, _, _, h⟩
      · split at h
        · exact ⟨_, _, _, _, List.mem_singleton.1 h⟩
        · simp at h
    · simp at h
  · simp at h

theorem mem_sweep (p : Nat) (e : Exchange) (l : Int) (s : Step) : s ∈ sweep M p e l ↔
    ∃ x f, x ∈ M.patches ∧ M.owner x = p ∧ M.level x = l ∧ f < 4 ∧ s ∈ faceSync M p e x f := by
  unfold sweep
  simp only [List.mem_flatMap, mem_localPatches, mem_numbers]
  constructor
  · rintro ⟨x, ⟨h1, h2, h3⟩, f, h4, h5⟩; exact ⟨x, f, h1, h2, h3, h4, h5⟩
  · rintro ⟨x, f, h1, h2, h3, h4, h5⟩; exact ⟨x, ⟨h1, h2, h3⟩, f, h4, h5⟩

theorem sweep_same (hM : M.Ok) (p : Nat) (l : Int) (s : Step) (h : s ∈ sweep M p .samesize l) (x' f' : Nat)
    (ht : touches s x' f') : AtSame M l x' f' := by
  rw [mem_sweep] at h
  obtain ⟨x, f, _, _, hl, hf, h⟩ := h
  unfold faceSync at h
  unfold AtSame
  split at h
  · simp at h
  · simp at h
  · rename_i y rf e
    have hs := hM.sameSym x f y rf hf e
    have hlv := hM.sameLevel x f y rf hf e
    have hx : isSame (M.face x f) = true ∧ M.level x = l := ⟨by rw [e]; rfl, hl⟩
    have hy : isSame (M.face y rf) = true ∧ M.level y = l := ⟨by rw [hs.2]; rfl, by rw [hlv, hl]⟩
    rw [if_pos rfl] at h
    rcases List.mem_cons.1 h with rfl | h
    · rcases ht with ⟨rfl, rfl⟩ | ⟨rfl, rfl⟩
      · exact hx
      · exact hy
    · split at h
      · rw [List.mem_singleton] at h
        subst h
        rcases ht with ⟨rfl, rfl⟩ | ⟨rfl, rfl⟩
        · exact hy
        · exact hx
      · simp at h
  · simp at h

theorem sweep_f2c (hM : M.Ok) (p : Nat) (l : Int) (s : Step) (h : s ∈ sweep M p .f2c l) (x' f' : Nat)
    (ht : touches s x' f') : AtF2c M l x' f' := by
  rw [mem_sweep] at h
  obtain ⟨x, f, _, _, hl, hf, h⟩ := h
  unfold faceSync at h
  unfold AtF2c
  split at h
  · simp at h
  · rename_i y0 y1 rf e
    rw [List.mem_flatMap] at h
    obtain ⟨g, hg, h⟩ := h
    rw [if_pos rfl, List.mem_singleton] at h
    subst h
    have hs := hM.halfSym x f y0 y1 rf hf e
    have hlv := hM.halfLevel x f y0 y1 rf hf e
    obtain ⟨_, ⟨k0, _, d0⟩, ⟨k1, _, d1⟩⟩ := hs
    rcases ht with ⟨rfl, rfl⟩ | ⟨rfl, rfl⟩
    · left; exact ⟨by rw [e]; rfl, hl⟩
    · right
      simp only [List.mem_cons, List.not_mem_nil, or_false] at hg
      rcases hg with rfl | rfl
      · simp only [pick, if_true]
        exact ⟨by rw [d0]; rfl, by omega⟩
      · simp only [pick, show ¬ (1 : Nat) = 0 by omega, if_false]
        exact ⟨by rw [d1]; rfl, by omega⟩
  · simp at h
  · simp at h

theorem reset_same (p : Nat) (l : Int) (x f : Nat) (h : Step.clear x f ∈ timeSyncReset M p l .samesize) : AtSame M l x f := by
  rw [mem_reset] at h
  obtain ⟨x', f', e, _, _, _, h, _⟩ := h
  rw [Step.clear.injEq] at e
  rw [e.1, e.2]
  simpa [resetFlux, AtSame] using h

theorem reset_f2c (p : Nat) (l : Int) (x f : Nat) (h : Step.clear x f ∈ timeSyncReset M p l .f2c) : AtF2c M l x f := by
  rw [mem_reset] at h
  obtain ⟨x', f', e, _, _, _, h, _⟩ := h
  rw [Step.clear.injEq] at e
  rw [e.1, e.2]
  simpa [resetFlux, AtF2c] using h

theorem sweep_no_clear (p : Nat) (e : Exchange) (l : Int) (x f : Nat) : Step.clear x f ∉ sweep M p e l := by
  rw [mem_sweep]
  rintro ⟨_, _, _, _, _, _, h⟩
  obtain ⟨a, b, c, d, h⟩ := faceSync_use p e _ _ _ h
  simp at h

theorem reset_no_touch (p : Nat) (l : Int) (r : Reset) (s : Step) (h : s ∈ timeSyncReset M p l r) (x f : Nat) :
    ¬ touches s x f := by
  rw [mem_reset] at h
  obtain ⟨x', f', rfl, _⟩ := h
  exact id

/-- What is used or cleared in the part of the loop for level `l`. -/
theorem atLevel_touch (hM : M.Ok) (p : Nat) (top l : Int) (s : Step) (h : s ∈ atLevel M p top l) (x f : Nat)
    (ht : touches s x f) : AtSame M l x f ∨ AtF2c M l x f := by
  unfold atLevel at h
  rw [List.mem_append, List.mem_append] at h
  rcases h with (h | h) | h
  · exact Or.inl (sweep_same hM p l s h x f ht)
  · exact absurd ht (reset_no_touch p l _ s h x f)
  · split at h
    · rcases List.mem_append.1 h with h | h
      · exact Or.inr (sweep_f2c hM p l s h x f ht)
      · exact absurd ht (reset_no_touch p l _ s h x f)
    · simp at h

theorem atLevel_clear (p : Nat) (top l : Int) (x f : Nat) (h : Step.clear x f ∈ atLevel M p top l) :
    AtSame M l x f ∨ AtF2c M l x f := by
  unfold atLevel at h
  rw [List.mem_append, List.mem_append] at h
  rcases h with (h | h) | h
  · exact absurd h (sweep_no_clear _ _ _ _ _)
  · exact Or.inl (reset_same p l x f h)
  · split at h
    · rcases List.mem_append.1 h with h | h
      · exact absurd h (sweep_no_clear _ _ _ _ _)
      · exact Or.inr (reset_f2c p l x f h)
    · simp at h

/-- No register is used after it has been cleared. -/
theorem timeSync_safe (hM : M.Ok) (p : Nat) (minl top : Int) : (timeSync M p minl top).Pairwise Safe := by
  unfold timeSync
  have phys : ∀ s ∈ (downTo top minl).flatMap (fun l => timeSyncReset M p l .phys), ∀ x f, ¬ touches s x f := by
    intro s hs x f
    rw [List.mem_flatMap] at hs
    obtain ⟨l, _, hs⟩ := hs
    exact reset_no_touch p l _ s hs x f
  rw [List.pairwise_append]
  refine ⟨?_, pairwise_all _ _ fun a _ b hb x f _ => phys b hb x f, fun a _ b hb x f _ => phys b hb x f⟩
  rw [List.pairwise_flatMap]
  constructor
  · intro l _
    unfold atLevel
    rw [List.pairwise_append]
    refine ⟨?_, ?_, ?_⟩
    · rw [List.pairwise_append]
      refine ⟨pairwise_all _ _ fun a ha b _ x f e => ?_, pairwise_all _ _ fun a _ b hb x f _ => reset_no_touch p l _ b hb x f,
        fun a _ b hb x f _ => reset_no_touch p l _ b hb x f⟩
      subst e; exact absurd ha (sweep_no_clear _ _ _ _ _)
    · split
      · rw [List.pairwise_append]
        refine ⟨pairwise_all _ _ fun a ha b _ x f e => ?_, pairwise_all _ _ fun a _ b hb x f _ => reset_no_touch p l _ b hb x f,
          fun a _ b hb x f _ => reset_no_touch p l _ b hb x f⟩
        subst e; exact absurd ha (sweep_no_clear _ _ _ _ _)
      · exact List.Pairwise.nil
    · intro a ha b hb x f e ht
      subst e
      split at hb
      · rcases List.mem_append.1 hb with hb | hb
        · rcases List.mem_append.1 ha with ha | ha
          · exact absurd ha (sweep_no_clear _ _ _ _ _)
          · exact atSame_atF2c l l x f (reset_same p l x f ha) (sweep_f2c hM p l b hb x f ht)
        · exact reset_no_touch p l _ b hb x f ht
      · simp at hb
  · refine (nodup_downTo top minl).imp ?_
    intro l l' hne a ha b hb x f e ht
    subst e
    rcases atLevel_clear p top l x f ha with h | h <;> rcases atLevel_touch hM p top l' b hb x f ht with h' | h'
    · exact hne (h.2.symm.trans h'.2)
    · exact atSame_atF2c _ _ x f h h'
    · exact atSame_atF2c _ _ x f h' h
    · exact hne (atF2c_atF2c _ _ x f h h')

/-! ### All steps that correct one face -/

theorem reset_corrects (p : Nat) (l : Int) (r : Reset) (x f : Nat) :
    (timeSyncReset M p l r).filter (corrects x f) = [] := by
  rw [List.filter_eq_nil_iff]
  intro s hs
  rw [mem_reset] at hs
  obtain ⟨x', f', rfl, _⟩ := hs
  simp [corrects]

theorem sweep_filter (hn : M.patches.Nodup) (p : Nat) (e : Exchange) (l : Int) (a b x f : Nat)
    (hx : x ∈ M.patches) (ho : M.owner x = p) (hf : f < 4)
    (h : ∀ z f', z ∈ M.patches → M.owner z = p → f' < 4 → ¬ (z = x ∧ f' = f) → (faceSync M p e z f').filter (corrects a b) = []) :
    (sweep M p e l).filter (corrects a b) =
      if M.level x = l then (faceSync M p e x f).filter (corrects a b) else [] := by
  unfold sweep
  rw [List.filter_flatMap]
  simp only [List.filter_flatMap]
  by_cases hl : M.level x = l
  · rw [if_pos hl, flatMap_single _ x]
    · rw [flatMap_single _ f]
      · decide
      · exact (mem_numbers _).2 hf
      · intro f' hf' hne
        exact h x f' hx ho ((mem_numbers _).1 hf') fun e => hne e.2
    · exact hn.filter _
    · exact (mem_localPatches ..).2 ⟨hx, ho, hl⟩
    · intro z hz hne
      rw [mem_localPatches] at hz
      exact flatMap_empty _ _ fun f' hf' => h z f' hz.1 hz.2.1 ((mem_numbers _).1 hf') fun e => hne e.1
  · rw [if_neg hl]
    refine flatMap_empty _ _ fun z hz => flatMap_empty _ _ fun f' hf' => ?_
    rw [mem_localPatches] at hz
    exact h z f' hz.1 hz.2.1 ((mem_numbers _).1 hf') fun e => hl (e.1 ▸ hz.2.2)

theorem timeSync_filter (hn : M.patches.Nodup) (p : Nat) (minl top : Int) (a b x f : Nat)
    (hx : x ∈ M.patches) (ho : M.owner x = p) (hf : f < 4) (htop : M.level x ≤ top)
    (h : ∀ e z f', z ∈ M.patches → M.owner z = p → f' < 4 → ¬ (z = x ∧ f' = f) → (faceSync M p e z f').filter (corrects a b) = []) :
    (timeSync M p minl top).filter (corrects a b) =
      if minl ≤ M.level x then (faceSync M p .samesize x f).filter (corrects a b) ++
        (if M.level x < top then (faceSync M p .f2c x f).filter (corrects a b) else []) else [] := by
  unfold timeSync
  rw [List.filter_append, List.filter_flatMap, List.filter_flatMap]
  rw [flatMap_empty (fun l => (timeSyncReset M p l .phys).filter (corrects a b)) _ fun l _ => reset_corrects .., List.append_nil]
  have lev : ∀ l, (atLevel M p top l).filter (corrects a b) =
      if M.level x = l then (faceSync M p .samesize x f).filter (corrects a b) ++
        (if l < top then (faceSync M p .f2c x f).filter (corrects a b) else []) else [] := by
    intro l
    unfold atLevel
    rw [List.filter_append, List.filter_append, reset_corrects, List.append_nil,
      sweep_filter hn p .samesize l a b x f hx ho hf (h .samesize)]
    by_cases ht : l < top
    · rw [if_pos ht, if_pos ht, List.filter_append, reset_corrects, List.append_nil,
        sweep_filter hn p .f2c l a b x f hx ho hf (h .f2c)]
      by_cases e : M.level x = l
      · simp only [if_pos e]
      · simp only [if_neg e, List.append_nil]
    · rw [if_neg ht, if_neg ht, List.append_nil, List.filter_nil, List.append_nil]
  simp only [lev]
  by_cases hm : minl ≤ M.level x
  · rw [if_pos hm, flatMap_single _ (M.level x) _ (nodup_downTo ..) ((mem_downTo ..).2 ⟨hm, htop⟩)]
    · rw [if_pos rfl]
    · intro l _ hne
      rw [if_neg fun e => hne e.symm]
  · rw [if_neg hm]
    refine flatMap_empty _ _ fun l hl => ?_
    rw [mem_downTo] at hl
    rw [if_neg (by omega)]

end Fclaw.TimeSync
