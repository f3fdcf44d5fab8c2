/-
C20: serialized sections.
-/
import Verif.Serial.Model

set_option autoImplicit false
namespace Fclaw.Serial

/-- Rank `r` is between enter and leave of section `k`. -/
def Inside (s : St) (r k : Nat) : Prop := s.pos r = 2 * k + 1
/-- Rank `r` has left section `k`. -/
def Left (s : St) (r k : Nat) : Prop := 2 * k + 2 ≤ s.pos r
/-- Rank `r` has not entered section `k`. -/
def NotEntered (s : St) (r k : Nat) : Prop := s.pos r ≤ 2 * k

structure Inv (n K : Nat) (s : St) : Prop where
  bound : ∀ r, r < n → s.pos r ≤ 2 * K
  tok : ∀ r, r + 1 < n → (s.pos (r + 1) + 1) / 2 + s.tok (r + 1) = s.pos r / 2

theorem inv_step (n K : Nat) (s t : St) (h : Inv n K s) (hs : Step n K s t) : Inv n K t := by
  obtain ⟨hb, ht⟩ := h
  cases hs with
  | enter r t he =>
    unfold enter at he
    split at he
    · rename_i hc
      obtain ⟨c1, c2, c3⟩ := hc
      split at he
      · rename_i h0
        subst h0
        simp only [Option.some.injEq] at he
        subst he
        refine ⟨?_, ?_⟩
        · intro x hx
          have := hb x hx
          simp only [upd]
          split
          · omega
          · exact this
        · intro x hx
          have := ht x hx
          simp only [upd]
          split
          · omega
          · split
            · rename_i h0; subst h0; omega
            · exact this
      · rename_i h0
        split at he
        · rename_i h1
          simp only [Option.some.injEq] at he
          subst he
          refine ⟨?_, ?_⟩
          · intro x hx
            have := hb x hx
            simp only [upd]
            split
            · omega
            · exact this
          · intro x hx
            have := ht x hx
            simp only [upd]
            by_cases e1 : x + 1 = r
            · subst e1
              simp only [if_true]
              split
              · omega
              · omega
            · simp only [if_neg e1]
              split
              · rename_i e2; subst e2; omega
              · exact this
        · simp at he
    · simp at he
  | leave r t he =>
    unfold leave at he
    split at he
    · rename_i hc
      obtain ⟨c1, c2⟩ := hc
      have hbr := hb r c1
      split at he
      · rename_i h1
        simp only [Option.some.injEq] at he
        subst he
        refine ⟨?_, ?_⟩
        · intro x hx
          have := hb x hx
          simp only [upd]
          split
          · omega
          · exact this
        · intro x hx
          have := ht x hx
          simp only [upd]
          by_cases e1 : x = r
          · subst e1
            simp only [if_true, if_neg (show ¬ x + 1 = x by omega)]
            omega
          · simp only [if_neg e1, if_neg (show ¬ x + 1 = r + 1 by omega)]
            split
            · rename_i e2; subst e2; omega
            · exact this
      · rename_i h1
        simp only [Option.some.injEq] at he
        subst he
        refine ⟨?_, ?_⟩
        · intro x hx
          have := hb x hx
          simp only [upd]
          split
          · omega
          · exact this
        · intro x hx
          have := ht x hx
          simp only [upd]
          by_cases e1 : x = r
          · omega
          · simp only [if_neg e1]
            split
            · rename_i e2; subst e2; omega
            · exact this
    · simp at he
  | handover r t he =>
    unfold handover at he
    split at he
    · rename_i hc
      obtain ⟨c1, c2, c3, c4⟩ := hc
      have hbr := hb r (by omega)
      simp only [Option.some.injEq] at he
      subst he
      refine ⟨?_, ?_⟩
      · intro x hx
        have := hb x hx
        simp only [upd]
        split
        · omega
        · split
          · omega
          · exact this
      · intro x hx
        have := ht x hx
        simp only [upd]
        by_cases e1 : x = r
        · subst e1
          simp only [if_true, if_neg (show ¬ x = x + 1 by omega)]
          omega
        · by_cases e2 : x = r + 1
          · subst e2
            simp only [if_true, if_neg (show ¬ r + 1 + 1 = r + 1 by omega),
              if_neg (show ¬ r + 1 + 1 = r by omega)]
            omega
          · by_cases e3 : x + 1 = r
            · subst e3
              simp only [if_neg e2, if_neg e1, if_neg (show ¬ x + 1 = x + 1 + 1 by omega), if_true]
              omega
            · simp only [if_neg e1, if_neg e2, if_neg e3, if_neg (show ¬ x + 1 = r + 1 by omega)]
              exact this
    · simp at he

theorem inv_reach (n K m : Nat) (s : St) (h : Reach n K m s) : Inv n K s := by
  induction h with
  | start => exact ⟨fun r _ => by simp [start], fun r _ => by simp [start]⟩
  | step m s t _ hs ih => exact inv_step n K s t ih hs

theorem chain (n K : Nat) (s : St) (h : Inv n K s) : ∀ d r, r + d + 1 < n →
    (s.pos (r + d + 1) + 1) / 2 ≤ s.pos r / 2
  | 0, r, hr => by have := h.tok r (by omega); simp only [Nat.add_zero] at *; omega
  | d + 1, r, hr => by
    have h1 := chain n K s h d r (by omega)
    have h2 := h.tok (r + d + 1) (by omega)
    rw [show r + (d + 1) + 1 = r + d + 1 + 1 by omega]
    omega

/-- **C20, order and exclusion.** In every state of every schedule of `n` processes that run
through `K` serialized sections: if rank `r` is inside section `k`, all lower ranks have left this
section and no higher rank has entered it. -/
theorem C20_one_at_a_time (n K m : Nat) (s : St) (h : Reach n K m s) (r k : Nat) (hr : r < n)
    (hin : Inside s r k) :
    (∀ p, p < r → Left s p k) ∧ (∀ p, r < p → p < n → NotEntered s p k) := by
  have hi := inv_reach n K m s h
  unfold Inside at hin
  constructor
  · intro p hp
    have := chain n K s hi (r - p - 1) p (by omega)
    rw [show p + (r - p - 1) + 1 = r by omega] at this
    unfold Left
    omega
  · intro p hp hpn
    have := chain n K s hi (p - r - 1) r (by omega)
    rw [show r + (p - r - 1) + 1 = p by omega] at this
    unfold NotEntered
    omega

/-- **C20, single section.** With one section at most one process is inside at any time. -/
theorem C20_exclusive (n m : Nat) (s : St) (h : Reach n 1 m s) (r p : Nat) (hr : r < n) (hp : p < n)
    (h1 : s.pos r % 2 = 1) (h2 : s.pos p % 2 = 1) : r = p := by
  have hi := inv_reach n 1 m s h
  have b1 := hi.bound r hr
  have b2 := hi.bound p hp
  have e1 : Inside s r 0 := by unfold Inside; omega
  have e2 : Inside s p 0 := by unfold Inside; omega
  have g := C20_one_at_a_time n 1 m s h r 0 hr e1
  rcases Nat.lt_trichotomy r p with hlt | he | hlt
  · have := g.2 p hlt hp
    unfold NotEntered at this
    unfold Inside at e2
    omega
  · exact he
  · have := g.1 p hlt
    unfold Left at this
    unfold Inside at e2
    omega

theorem odd_enabled (n K : Nat) (s : St) (h : Inv n K s) : ∀ d r, r + d + 1 = n → s.pos r % 2 = 1 →
    (∃ p t, handover n K s p = some t) ∨ (∃ t, leave n s (n - 1) = some t)
  | 0, r, hr, ho => by
    right
    rw [show n - 1 = r by omega]
    unfold leave
    rw [if_pos ⟨by omega, ho⟩, if_neg (by omega)]
    exact ⟨_, rfl⟩
  | d + 1, r, hr, ho => by
    have h1 := h.tok r (by omega)
    have h2 := h.bound r (by omega)
    by_cases he : s.pos (r + 1) % 2 = 0
    · left
      refine ⟨r, ?_⟩
      unfold handover
      rw [if_pos ⟨by omega, ho, he, by omega⟩]
      exact ⟨_, rfl⟩
    · exact odd_enabled n K s h d (r + 1) (by omega) (by omega)

/-- **C20, no deadlock.** As long as some process has not left its last section, some call can
return, even if no message is ever stored by MPI: rank 0 enters, a stored message is received, a
message is handed over directly, or the last rank, which sends nothing, leaves. -/
theorem C20_no_deadlock (n K m : Nat) (s : St) (h : Reach n K m s) (r : Nat) (hr : r < n)
    (hnot : s.pos r ≠ 2 * K) :
    (∃ p t, enter n K s p = some t) ∨ (∃ p t, handover n K s p = some t) ∨
    (∃ t, leave n s (n - 1) = some t) := by
  have hi := inv_reach n K m s h
  by_cases hodd : ∃ p, p < n ∧ s.pos p % 2 = 1
  · obtain ⟨p, hp, ho⟩ := hodd
    right
    exact odd_enabled n K s hi (n - p - 1) p (by omega) ho
  · left
    have heven : ∀ p, p < n → s.pos p % 2 = 0 := by
      intro p hp
      have : ¬ s.pos p % 2 = 1 := fun ho => hodd ⟨p, hp, ho⟩
      omega
    -- the first process that is not done
    have hfirst : ∀ d, d ≤ r → (∃ p, p ≤ d ∧ s.pos p ≠ 2 * K ∧ ∀ q, q < p → s.pos q = 2 * K) ∨
        ∀ q, q ≤ d → s.pos q = 2 * K := by
      intro d
      induction d with
      | zero =>
        intro _
        by_cases h0 : s.pos 0 = 2 * K
        · right; intro q hq; rw [show q = 0 by omega]; exact h0
        · left; exact ⟨0, Nat.le_refl _, h0, by intro q hq; omega⟩
      | succ d ih =>
        intro hd
        rcases ih (by omega) with ⟨p, h1, h2, h3⟩ | hall
        · exact Or.inl ⟨p, by omega, h2, h3⟩
        · by_cases h0 : s.pos (d + 1) = 2 * K
          · right
            intro q hq
            by_cases hqd : q = d + 1
            · rw [hqd]; exact h0
            · exact hall q (by omega)
          · left; exact ⟨d + 1, Nat.le_refl _, h0, fun q hq => hall q (by omega)⟩
    rcases hfirst r (Nat.le_refl _) with ⟨p, h1, h2, h3⟩ | hall
    · refine ⟨p, ?_⟩
      have hb := hi.bound p (by omega)
      have he := heven p (by omega)
      unfold enter
      rw [if_pos ⟨by omega, he, by omega⟩]
      by_cases h0 : p = 0
      · rw [if_pos h0]; exact ⟨_, rfl⟩
      · rw [if_neg h0]
        have ht := hi.tok (p - 1) (by omega)
        rw [show p - 1 + 1 = p by omega, h3 (p - 1) (by omega)] at ht
        rw [if_pos (by omega)]
        exact ⟨_, rfl⟩
    · exact absurd (hall r (Nat.le_refl _)) hnot

/-- Sum of the first `n` positions. -/
def total (f : Nat → Nat) : Nat → Nat
  | 0 => 0
  | n + 1 => total f n + f n

theorem total_upd (f : Nat → Nat) (r v : Nat) : ∀ n,
    total (upd f r v) n + (if r < n then f r else 0) = total f n + (if r < n then v else 0)
  | 0 => by simp [total]
  | n + 1 => by
    have ih := total_upd f r v n
    simp only [total, upd]
    by_cases h1 : n = r
    · subst h1
      simp only [Nat.lt_irrefl, if_false, if_true, Nat.lt_succ_self] at ih ⊢
      omega
    · by_cases h2 : r < n
      · simp only [if_neg h1, if_pos h2, if_pos (show r < n + 1 by omega)] at ih ⊢
        omega
      · simp only [if_neg h1, if_neg h2, if_neg (show ¬ r < n + 1 by omega)] at ih ⊢
        omega

theorem total_le (f : Nat → Nat) (b : Nat) : ∀ n, (∀ r, r < n → f r ≤ b) → total f n ≤ n * b
  | 0, _ => by simp [total]
  | n + 1, h => by
    have h1 := total_le f b n (fun r hr => h r (by omega))
    have h2 := h n (by omega)
    simp only [total, Nat.succ_mul]
    omega

/-- **C20, termination.** Every schedule ends after at most 2·n·K steps, so by the absence of
deadlock every process leaves its last section. -/
theorem C20_bounded (n K m : Nat) (s : St) (h : Reach n K m s) : m ≤ n * (2 * K) := by
  have hm : m ≤ total s.pos n := by
    induction h with
    | start => exact Nat.zero_le _
    | step m s t _ hs ih =>
      cases hs with
      | enter r t he =>
        unfold enter at he
        split at he
        · rename_i hc
          have hu := total_upd s.pos r (s.pos r + 1) n
          simp only [if_pos hc.1] at hu
          split at he
          · simp only [Option.some.injEq] at he; subst he; dsimp only; omega
          · split at he
            · simp only [Option.some.injEq] at he; subst he; dsimp only; omega
            · simp at he
        · simp at he
      | leave r t he =>
        unfold leave at he
        split at he
        · rename_i hc
          have hu := total_upd s.pos r (s.pos r + 1) n
          simp only [if_pos hc.1] at hu
          split at he
          · simp only [Option.some.injEq] at he; subst he; dsimp only; omega
          · simp only [Option.some.injEq] at he; subst he; dsimp only; omega
        · simp at he
      | handover r t he =>
        unfold handover at he
        split at he
        · rename_i hc
          have hu := total_upd s.pos r (s.pos r + 1) n
          have hu2 := total_upd (upd s.pos r (s.pos r + 1)) (r + 1) (s.pos (r + 1) + 1) n
          have hv : upd s.pos r (s.pos r + 1) (r + 1) = s.pos (r + 1) := by
            simp [upd]
          rw [hv] at hu2
          simp only [if_pos (show r < n by omega)] at hu
          simp only [if_pos hc.1] at hu2
          simp only [Option.some.injEq] at he
          subst he
          dsimp only
          omega
        · simp at he
  exact Nat.le_trans hm (total_le s.pos (2 * K) n (inv_reach n K m s h).bound)

/-- Two consecutive sections without a barrier in between may overlap: rank 0 can be inside the
second section while rank 1 is still inside the first. -/
theorem C20_consecutive_sections_counterexample :
    ∃ m s, Reach 2 2 m s ∧ Inside s 0 1 ∧ Inside s 1 0 := by
  refine ⟨4, _, .step 3 _ _ (.step 2 _ _ (.step 1 _ _ (.step 0 _ _ .start
    (.enter 0 _ rfl)) (.leave 0 _ rfl)) (.enter 0 _ rfl)) (.enter 1 _ rfl), rfl, rfl⟩

/-- Example: a reachable state with three processes in which rank 1 is inside. -/
example : ∃ m s, Reach 3 1 m s ∧ Inside s 1 0 ∧ Left s 0 0 ∧ NotEntered s 2 0 := by
  refine ⟨2, _, .step 1 _ _ (.step 0 _ _ .start (.enter 0 _ rfl)) (.handover 0 _ rfl), rfl, ?_, ?_⟩
  · exact Nat.le_refl 2
  · exact Nat.le_refl 0

end Fclaw.Serial
