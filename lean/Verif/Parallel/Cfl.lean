import Verif.Parallel.Serial
/-
Helpers for C72: the CFL number that a process reports is the largest Courant number of its patches; the events of
a schedule, in general.
-/
set_option autoImplicit false
set_option linter.unusedSimpArgs false
set_option linter.unusedVariables false
namespace Fclaw.Parallel

open Fort Transform GhostFill CopyGhost Advance

section
variable {B : Problem} {M : Mesh} {P : Nat}

def IsTop (M : Mesh) (p : Nat) (s : Proc) (v : ℚ) : Prop :=
  Wave.IsMax (fun y => ∃ x ∈ M.patches, M.owner x = p ∧ y = s.cfl x) v

theorem isTop_same {p : Nat} {s s' : Proc} {v : ℚ} (h : IsTop M p s v) (he : ∀ x ∈ M.patches, s'.cfl x = s.cfl x) : IsTop M p s' v := by
  obtain ⟨a0, a1, a2⟩ := h
  refine ⟨a0, ?_, ?_⟩
  · rintro y ⟨x, hx, ho, rfl⟩
    rw [he x hx]; exact a1 _ ⟨x, hx, ho, rfl⟩
  · rcases a2 with a2 | ⟨x, hx, ho, e⟩
    · exact Or.inl a2
    · exact Or.inr ⟨x, hx, ho, by rw [he x hx]; exact e⟩

theorem isTop_local {p : Nat} {e : Ev} {s s' : Proc} {v : ℚ} (h : Local B M p e s s') (ht : IsTop M p s v) :
    IsTop M p s' (max v (maxCfl [e])) := by
  have h0 := ht.1
  cases e with
  | update l t dt c =>
    obtain ⟨⟨κ, h1, m0, m1, m2⟩, h2⟩ := h
    have hc : maxCfl [.update l t dt c] = c := by simp [maxCfl, m0]
    rw [hc]
    obtain ⟨_, a1, a2⟩ := ht
    have val : ∀ x, Mine M p l x → s'.cfl x = max (s.cfl x) (κ x) := by
      intro x hx
      obtain ⟨m, n, _, _, _, _, _, _, e1, e2⟩ := h1 x hx
      exact e2
    refine ⟨le_trans h0 (le_max_left _ _), ?_, ?_⟩
    · rintro y ⟨x, hx, ho, rfl⟩
      by_cases hm : Mine M p l x
      · rw [val x hm]
        exact max_le_max (a1 _ ⟨x, hx, ho, rfl⟩) (m1 _ ⟨x, hm, rfl⟩)
      · rw [(h2 x hm).2.2]
        exact le_trans (a1 _ ⟨x, hx, ho, rfl⟩) (le_max_left _ _)
    · rcases le_or_gt c v with hcv | hcv
      · rw [max_eq_left hcv]
        rcases a2 with a2 | ⟨x, hx, ho, e⟩
        · exact Or.inl a2
        · refine Or.inr ⟨x, hx, ho, ?_⟩
          by_cases hm : Mine M p l x
          · rw [val x hm, ← e, max_eq_left (le_trans (m1 _ ⟨x, hm, rfl⟩) hcv)]
          · rw [(h2 x hm).2.2]; exact e
      · rw [max_eq_right hcv.le]
        rcases m2 with m2 | ⟨x, hm, e⟩
        · rw [m2] at hcv; exact absurd (lt_of_le_of_lt h0 hcv) (lt_irrefl _)
        · refine Or.inr ⟨x, hm.1, hm.2.1, ?_⟩
          rw [val x hm, ← e, max_eq_right (le_trans (a1 _ ⟨x, hm.1, hm.2.1, rfl⟩) hcv.le)]
  | interp l α =>
    have hc : max v (maxCfl [.interp l α]) = v := by simp [maxCfl, h0]
    rw [hc]
    refine isTop_same ht fun x hx => ?_
    by_cases hm : Mine M p l x ∧ hasFine M x
    · obtain ⟨_, _, _, _, _, _, e⟩ := h.1 x hm.1 hm.2
      exact e
    · exact (h.2 x hm).2.2
  | ghost lo hi t ti => exact h.elim
  | sync lo hi => exact h.elim

theorem maxCfl_nn (L : List Ev) : 0 ≤ maxCfl L := by
  induction L with
  | nil => exact le_refl _
  | cons e L ih => cases e <;> simp only [maxCfl] <;> first | exact ih | exact le_trans ih (le_max_right _ _)

theorem maxCfl_cons (e : Ev) (L : List Ev) : maxCfl (e :: L) = max (maxCfl [e]) (maxCfl L) := by
  have := maxCfl_nn L
  cases e <;> simp only [maxCfl]
  · rw [max_assoc, max_eq_right this]
  all_goals exact (max_eq_right this).symm

theorem maxCfl_append (L L' : List Ev) : maxCfl (L ++ L') = max (maxCfl L) (maxCfl L') := by
  induction L with
  | nil => exact (max_eq_right (maxCfl_nn _)).symm
  | cons e L ih => rw [List.cons_append, maxCfl_cons, ih, maxCfl_cons e L, max_assoc]

theorem isTop_locals {p : Nat} (L : List Ev) : ∀ {s s' : Proc} {v : ℚ}, Locals B M p L s s' → IsTop M p s v →
    IsTop M p s' (max v (maxCfl L)) := by
  induction L with
  | nil => intro s s' v h ht; rw [show s' = s from h, show maxCfl [] = 0 from rfl, max_eq_left ht.1]; exact ht
  | cons e L ih =>
    rintro s s' v ⟨s1, h1, h2⟩ ht
    have := ih h2 (isTop_local h1 ht)
    rwa [max_assoc, ← maxCfl_cons] at this

theorem isTop_rounds {logs : Nat → List Ev} {w w' : Nat → Proc} (h : Rounds B M P logs w w') {p : Nat} (hp : p < P) :
    ∀ {v : ℚ}, IsTop M p (w p) v → IsTop M p (w' p) (max v (maxCfl (logs p))) := by
  induction h with
  | last logs w w' h => intro v ht; exact isTop_locals _ (h p hp) ht
  | round logs L rest e w w1 w2 w' hl h1 h2 _ ih =>
    intro v ht
    have t1 := isTop_locals _ (h1 p hp) ht
    have t2 : IsTop M p (w2 p) (max v (maxCfl (L p))) := by
      refine isTop_same t1 fun x _ => ?_
      cases e with
      | ghost lo hi t ti => rw [(h2 p hp).2.2]
      | update => exact h2.elim
      | interp => exact h2.elim
      | sync => exact h2.elim
    have t3 := ih t2
    have he : maxCfl [e] = 0 := by
      cases e with
      | ghost lo hi t ti => rfl
      | update => exact h2.elim
      | interp => exact h2.elim
      | sync => exact h2.elim
    rw [hl p hp, maxCfl_append, maxCfl_cons, he, max_eq_right (maxCfl_nn (rest p)), ← max_assoc]
    exact t3

/-- The largest of what is reported is the largest of all patches. -/
theorem largest_patch (hP : ∀ x ∈ M.patches, M.owner x < P) {logs : Nat → List Ev} {w w' : Nat → Proc}
    (h : Rounds B M P logs w w') (h0 : ∀ p, p < P → ∀ x, (w p).cfl x = 0) {c : ℚ}
    (hc : Wave.IsMax (fun v => ∃ p, p < P ∧ v = maxCfl (logs p)) c) :
    Wave.IsMax (fun v => ∃ x ∈ M.patches, v = (view M w' x).cfl) c := by
  have top : ∀ p, p < P → IsTop M p (w' p) (maxCfl (logs p)) := by
    intro p hp
    have := isTop_rounds h hp (v := 0) ⟨le_refl _, by rintro y ⟨x, _, _, rfl⟩; rw [h0 p hp x], Or.inl rfl⟩
    rwa [max_eq_right (maxCfl_nn _)] at this
  obtain ⟨c0, c1, c2⟩ := hc
  refine ⟨c0, ?_, ?_⟩
  · rintro y ⟨x, hx, rfl⟩
    exact le_trans ((top _ (hP x hx)).2.1 _ ⟨x, hx, rfl, rfl⟩) (c1 _ ⟨_, hP x hx, rfl⟩)
  · rcases c2 with c2 | ⟨p, hp, e⟩
    · exact Or.inl c2
    · rcases (top p hp).2.2 with h' | ⟨x, hx, ho, h'⟩
      · exact Or.inl (e.trans h')
      · exact Or.inr ⟨x, hx, by rw [e, h', ← ho]; rfl⟩

end

/-! ### Events of a schedule -/

section
variable {S : Setup} {cfl : List Ev → ℚ} {Q : List Ev → Ev → Prop}
  (hu : ∀ pre l t dt, Q pre (.update l t dt (cfl pre))) (hi : ∀ pre l α, Q pre (.interp l α))
  (hg : ∀ pre lo hi t ti, Q pre (.ghost lo hi t ti)) (hy : S.timeSync = true → ∀ pre lo hi, Q pre (.sync lo hi))
include hu hi

theorem advanceLevel_events : ∀ {l k : Nat} {mc mc' : ℚ} {s s' : St}, advanceLevel S cfl l k mc s = some (s', mc') →
    Always Q s.log → Always Q s'.log := by
  intro l
  have step : ∀ {l : Nat} {mc mc' : ℚ} {s s' : St}, stepLevel cfl l mc s = some (s', mc') → Always Q s.log → Always Q s'.log := by
    intro l mc mc' s s' h h1
    obtain ⟨c, a1, a2, a3⟩ := stepLevel_some h
    rw [a3]
    exact always_snoc _ _ _ h1 (hu _ _ _ _)
  induction l with
  | zero => intro k mc mc' s s' h h1; exact step h h1
  | succ l ih =>
    intro k mc mc' s s' h h1
    obtain ⟨s1, m1, e1, h⟩ := advanceLevel_some h
    have g1 := step e1 h1
    rcases h with ⟨_, rfl⟩ | ⟨hlm, cc, hcc, ⟨_, rfl⟩ | ⟨hk, s2, m2, e2, h⟩⟩
    · exact g1
    · exact g1
    · have g2 := ih e2 g1
      rcases h with ⟨_, rfl⟩ | ⟨_, al, _, rfl⟩
      · exact g2
      · exact always_snoc _ _ _ g2 (hi _ _ _)

include hg hy

theorem tail_events {log : List Ev} {lo hi : Nat} {t : ℚ} {ti : Bool} (h : Always Q log) :
    Always Q (log ++ [.ghost lo hi t ti] ++ (if S.timeSync then [.sync lo hi] else [])) := by
  have g := always_snoc _ _ _ h (hg log lo hi t ti)
  cases hs : S.timeSync with
  | false => simpa using g
  | true => exact always_snoc _ _ _ g (hy hs _ _ _)

theorem fineLoop_events : ∀ {n k : Nat} {mc mc' : ℚ} {s s' : St}, fineLoop S cfl n k mc s = some (s', mc') →
    Always Q s.log → Always Q s'.log := by
  intro n
  induction n with
  | zero =>
    intro k mc mc' s s' h h1
    simp only [fineLoop, Option.some.injEq, Prod.mk.injEq] at h
    rw [← h.1]; exact h1
  | succ n ih =>
    intro k mc mc' s s' h h1
    obtain ⟨s1, m1, c, s2, m2, a1, a2, a3, a4⟩ := fineLoop_some h
    have g1 := advanceLevel_events hu hi a1 h1
    refine ih a4 ?_
    rcases a3 with ⟨_, a3⟩ | ⟨_, rfl⟩
    · unfold intermediate at a3
      cases hsub : S.subcycle with
      | true =>
        rw [if_pos hsub] at a3
        cases hM : S.globalMaxlevel with
        | zero => rw [hM] at a3; simp at a3
        | succ m =>
          rw [hM] at a3
          dsimp only at a3
          cases ht : timeinterpLevel s1.ts c.lastStep m with
          | none => rw [ht] at a3; simp at a3
          | some ti =>
            rw [ht] at a3
            simp only [Option.some.injEq] at a3
            rw [← a3]
            exact tail_events (S := S) hu hi hg hy g1
      | false =>
        rw [if_neg (by rw [hsub]; simp)] at a3
        simp only [Option.some.injEq] at a3
        rw [← a3]
        exact tail_events (S := S) hu hi hg hy g1
    · exact g1

theorem advanceAll_events {t dt : ℚ} {log : List Ev} {mc : ℚ} (h : advanceAllLevels S cfl t dt = some (log, mc)) : Always Q log := by
  obtain ⟨c0, s, m, c, e1, e2, e3, rfl⟩ := advanceAll_some h
  exact tail_events (S := S) hu hi hg hy (fineLoop_events hu hi hg hy e2 (always_nil _))

end

/-- Updates report what `cfl` says. -/
theorem advanceAll_cfl {S : Setup} {cfl : List Ev → ℚ} {t dt : ℚ} {log : List Ev} {mc : ℚ}
    (h : advanceAllLevels S cfl t dt = some (log, mc)) :
    Always (fun pre e => ∀ l t dt c, e = .update l t dt c → c = cfl pre) log :=
  advanceAll_events (Q := fun pre e => ∀ l t dt c, e = .update l t dt c → c = cfl pre)
    (by intro pre l t dt l' t' dt' c h; cases h; rfl) (by intro pre l α l' t' dt' c h; cases h)
    (by intro pre lo hi t ti l' t' dt' c h; cases h) (by intro _ pre lo hi l' t' dt' c h; cases h) h

theorem advanceAll_nosync {S : Setup} (hS : S.timeSync = false) {cfl : List Ev → ℚ} {t dt : ℚ} {log : List Ev} {mc : ℚ}
    (h : advanceAllLevels S cfl t dt = some (log, mc)) : ∀ lo hi, Ev.sync lo hi ∉ log := by
  have := advanceAll_events (Q := fun pre e => ∀ lo hi, e ≠ .sync lo hi) (by intros; simp) (by intros; simp) (by intros; simp)
    (by intro h; rw [hS] at h; cases h) h
  intro lo hi hm
  obtain ⟨a, b, e⟩ := List.append_of_mem hm
  exact this a _ b e lo hi rfl

end Fclaw.Parallel
