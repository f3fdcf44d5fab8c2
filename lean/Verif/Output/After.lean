/-
The order of the operations of all processes in one frame, when operations follow
after leave.
-/
import Verif.Output.Sched

set_option autoImplicit false
set_option linter.unusedSimpArgs false

namespace Fclaw.Output

open Fclaw.ParFile (Outcome)

/-- The operations of process `r` so far. -/
structure Done1 {Op S : Type} (inside after : Nat → Nat → Outcome (List Op)) (w : World Op S)
    (r : Nat) (d : List Op) : Prop where
  before : w.ser.pos r = 0 → d = [] ∧ w.todo r = []
  now : w.ser.pos r = 1 → inside 0 r = .ok (d ++ w.todo r)
  past : 2 ≤ w.ser.pos r → ∃ i a b, inside 0 r = .ok i ∧ after 0 r = .ok a ∧ d = i ++ b ∧
    a = b ++ w.todo r

/-- The history of a run: each operation with its process. -/
structure Hist1 {Op S : Type} (n : Nat) (apply : S → Op → S)
    (inside after : Nat → Nat → Outcome (List Op)) (fs0 : S) (w : World Op S)
    (h : List (Nat × Op)) (d : Nat → List Op) : Prop where
  fs : w.fs = (h.map Prod.snd).foldl apply fs0
  done : ∀ r, r < n → Done1 inside after w r (d r)
  proj : ∀ r, r < n → (h.filter fun x => decide (x.1 = r)).map Prod.snd = d r
  ranks : ∀ x ∈ h, x.1 < n
  alone : w.ser.pos 0 ≤ 1 → ∀ x ∈ h, x.1 = 0
  first : 2 ≤ w.ser.pos 0 → ∃ i t, inside 0 0 = .ok i ∧ h = i.map (fun o => (0, o)) ++ t

theorem map_zero {Op : Type} (h : List (Nat × Op)) (hz : ∀ x ∈ h, x.1 = 0) :
    h = (h.map Prod.snd).map fun o => (0, o) := by
  induction h with
  | nil => rfl
  | cons x xs ih =>
    have := hz x List.mem_cons_self
    rw [List.map_cons, List.map_cons, ← ih fun y hy => hz y (List.mem_cons_of_mem _ hy), ← this]

theorem filter_zero {Op : Type} (h : List (Nat × Op)) (hz : ∀ x ∈ h, x.1 = 0) :
    (h.filter fun x => decide (x.1 = 0)) = h := by
  rw [List.filter_eq_self]
  intro x hx
  simpa using hz x hx

/-- Nobody has entered before process 0 has left. -/
theorem first_alone {n : Nat} {s : Serial.St} (h : Serial.Inv n 1 s) (h0 : s.pos 0 ≤ 1) {r : Nat}
    (hr : r < n) (hr0 : 0 < r) : s.pos r = 0 := by
  have := Serial.chain n 1 s h (r - 1) 0 (by omega)
  rw [show 0 + (r - 1) + 1 = r by omega] at this
  omega

theorem hist1_exists {Op S : Type} {n : Nat} {apply : S → Op → S}
    {inside after : Nat → Nat → Outcome (List Op)} {fs0 : S} {w : World Op S} (hn : 0 < n)
    (h : Reach n 1 apply inside after fs0 w) :
    ∃ hist d, Hist1 n apply inside after fs0 w hist d := by
  induction h with
  | start =>
    refine ⟨[], fun _ => [], rfl, fun r _ => ⟨fun _ => ⟨rfl, rfl⟩, fun hp => ?_, fun hp => ?_⟩,
      fun r _ => rfl, fun x hx => by simp at hx, fun _ x hx => by simp at hx, fun hp => ?_⟩
    · simp [Serial.start] at hp
    · simp [Serial.start] at hp
    · simp [Serial.start] at hp
  | step w w' hr hs ih =>
    obtain ⟨hist, d, H⟩ := ih
    have hinv := ser_inv hr
    -- entering and leaving, for one process
    have hentered : ∀ (w' : World Op S) (p : Nat) (l : List Op), p < n → w.ser.pos p % 2 = 0 →
        w.ser.pos p < 2 * 1 → w'.ser.pos p = w.ser.pos p + 1 → w'.todo p = l →
        inside (w.ser.pos p / 2) p = .ok l → Done1 inside after w' p (d p) := by
      intro w' p l hp e2 e3 e4 e5 hl
      have h0 : w.ser.pos p = 0 := by omega
      obtain ⟨D1, D2⟩ := (H.done p hp).before h0
      rw [h0] at hl e4
      refine ⟨fun hb => by omega, fun _ => ?_, fun hb => by omega⟩
      rw [D1, e5, List.nil_append]; exact hl
    have hleft : ∀ (w' : World Op S) (p : Nat) (l : List Op), p < n → w.ser.pos p % 2 = 1 →
        w'.ser.pos p = w.ser.pos p + 1 → w.todo p = [] → w'.todo p = l →
        after (w.ser.pos p / 2) p = .ok l → Done1 inside after w' p (d p) := by
      intro w' p l hp e2 e4 e1 e5 hl
      have hb := hinv.bound p hp
      have h1 : w.ser.pos p = 1 := by omega
      rw [h1] at hl e4
      have D := (H.done p hp).now h1
      rw [e1, List.append_nil] at D
      exact ⟨fun hb => by omega, fun hb => by omega, fun _ =>
        ⟨d p, l, [], D, hl, (List.append_nil _).symm, by rw [e5, List.nil_append]⟩⟩
    have hsame : ∀ (w' : World Op S) (p : Nat), p < n → w'.ser.pos p = w.ser.pos p →
        w'.todo p = w.todo p → Done1 inside after w' p (d p) := by
      intro w' p hp e1 e2
      have D := H.done p hp
      refine ⟨fun hb => ?_, fun hb => ?_, fun hb => ?_⟩ <;> rw [e1] at hb <;> rw [e2]
      · exact D.before hb
      · exact D.now hb
      · exact D.past hb
    have hfirst : w.ser.pos 0 = 1 → w.todo 0 = [] →
        ∃ i t, inside 0 0 = .ok i ∧ hist = i.map (fun o => (0, o)) ++ t := by
      intro h1 h2
      have D := (H.done 0 hn).now h1
      rw [h2, List.append_nil] at D
      refine ⟨d 0, [], D, ?_⟩
      have hz := H.alone (by omega)
      have hp := H.proj 0 hn
      rw [filter_zero hist hz] at hp
      rw [List.append_nil, ← hp]
      exact map_zero hist hz
    cases hs with
    | enter r t l h1 h2 h3 =>
      obtain ⟨e1, e2, e3, e4⟩ := enter_eq h2
      refine ⟨hist, d, H.fs, fun p hp => ?_, H.proj, H.ranks, fun hp => ?_, fun hp => ?_⟩
      · by_cases hpr : p = r
        · subst hpr
          exact hentered _ p l hp e2 e3 (by simp only [e4, upd_same]) (by simp only [set_same]) h3
        · exact hsame _ p hp (by simp only [e4, upd_other _ _ hpr])
            (by simp only [set_other _ _ hpr])
      · by_cases hr0 : 0 = r
        · subst hr0; exact H.alone (by omega)
        · simp only [e4, upd_other _ _ hr0] at hp; exact H.alone hp
      · by_cases hr0 : 0 = r
        · subst hr0; simp only [e4, upd_same] at hp; exact H.first (by omega)
        · simp only [e4, upd_other _ _ hr0] at hp; exact H.first hp
    | leave r t l h1 h2 h3 =>
      obtain ⟨e1, e2, e4⟩ := leave_eq h2
      refine ⟨hist, d, H.fs, fun p hp => ?_, H.proj, H.ranks, fun hp => ?_, fun hp => ?_⟩
      · by_cases hpr : p = r
        · subst hpr
          exact hleft _ p l hp e2 (by simp only [e4, upd_same]) h1 (by simp only [set_same]) h3
        · exact hsame _ p hp (by simp only [e4, upd_other _ _ hpr])
            (by simp only [set_other _ _ hpr])
      · by_cases hr0 : 0 = r
        · subst hr0; simp only [e4, upd_same] at hp; omega
        · simp only [e4, upd_other _ _ hr0] at hp; exact H.alone hp
      · by_cases hr0 : 0 = r
        · subst hr0
          have hb := hinv.bound 0 hn
          exact hfirst (by omega) h1
        · simp only [e4, upd_other _ _ hr0] at hp; exact H.first hp
    | handover r t l l' h1 h1' h2 h3 h3' =>
      obtain ⟨e1, e2, e2', e3, e4⟩ := handover_eq h2
      have hne : r ≠ r + 1 := by omega
      refine ⟨hist, d, H.fs, fun p hp => ?_, H.proj, H.ranks, fun hp => ?_, fun hp => ?_⟩
      · by_cases hpr : p = r + 1
        · subst hpr
          exact hentered _ (r + 1) l' hp e2' e3 (by simp only [e4, upd_same])
            (by simp only [set_same]) h3'
        · by_cases hpr' : p = r
          · subst hpr'
            exact hleft _ p l hp e2 (by simp only [e4, upd_other _ _ hpr, upd_same]) h1
              (by simp only [set_other _ _ hpr, set_same]) h3
          · exact hsame _ p hp (by simp only [e4, upd_other _ _ hpr, upd_other _ _ hpr'])
              (by simp only [set_other _ _ hpr, set_other _ _ hpr'])
      · by_cases hr0 : 0 = r
        · subst hr0; simp only [e4, upd_other _ _ hne, upd_same] at hp; omega
        · simp only [e4, upd_other _ _ (show 0 ≠ r + 1 by omega), upd_other _ _ hr0] at hp
          exact H.alone hp
      · by_cases hr0 : 0 = r
        · subst hr0
          have hb := hinv.bound 0 hn
          exact hfirst (by omega) h1
        · simp only [e4, upd_other _ _ (show 0 ≠ r + 1 by omega), upd_other _ _ hr0] at hp
          exact H.first hp
    | op r o l h1 h2 =>
      refine ⟨hist ++ [(r, o)], fun p => if p = r then d p ++ [o] else d p, ?_, ?_, ?_, ?_, ?_, ?_⟩
      · simp only [List.map_append, List.map_cons, List.map_nil, List.foldl_append,
          List.foldl_cons, List.foldl_nil, ← H.fs]
      · intro p hp
        by_cases hpr : p = r
        · subst hpr
          have D := H.done p hp
          simp only [if_pos]
          refine ⟨fun hb => ?_, fun hb => ?_, fun hb => ?_⟩
          · have := (D.before hb).2
            rw [h2] at this
            exact absurd this (by simp)
          · have := D.now hb
            rw [h2] at this
            simp only [set_same]
            rw [this]; simp
          · obtain ⟨i, a, b, d1, d2, d3, d4⟩ := D.past hb
            refine ⟨i, a, b ++ [o], d1, d2, by rw [d3]; simp, ?_⟩
            simp only [set_same]
            rw [d4, h2]; simp
        · simp only [if_neg hpr]
          exact hsame _ p hp rfl (by simp only [set_other _ _ hpr])
      · intro p hp
        rw [List.filter_append, List.map_append, H.proj p hp]
        by_cases hpr : p = r
        · subst hpr; simp
        · have : ¬ r = p := fun hc => hpr hc.symm
          simp [hpr, this]
      · intro x hx
        rw [List.mem_append] at hx
        rcases hx with hx | hx
        · exact H.ranks x hx
        · simp only [List.mem_singleton] at hx; rw [hx]; exact h1
      · intro hp x hx
        rw [List.mem_append] at hx
        rcases hx with hx | hx
        · exact H.alone hp x hx
        · simp only [List.mem_singleton] at hx
          rw [hx]
          by_contra hc
          have hr0 := first_alone hinv hp h1 (Nat.pos_of_ne_zero hc)
          rw [((H.done r h1).before hr0).2] at h2
          exact absurd h2 (by simp)
      · intro hp
        obtain ⟨i, t, q1, q2⟩ := H.first hp
        exact ⟨i, t ++ [(r, o)], q1, by rw [q2]; simp⟩

/-- After a complete run: the operations that process 0 performs inside come
first, and each process performs what it has to in this order. -/
theorem complete_hist {Op S : Type} {n : Nat} {apply : S → Op → S}
    {inside after : Nat → Nat → Outcome (List Op)} {fs0 : S} {w : World Op S} (hn : 0 < n)
    (h : Reach n 1 apply inside after fs0 w) (hfin : ∀ r, r < n → Finished w 0 r) :
    ∃ (i : Nat → List Op) (a : Nat → List Op) (t : List (Nat × Op)),
      (∀ r, r < n → inside 0 r = .ok (i r) ∧ after 0 r = .ok (a r)) ∧
      w.fs = (t.map Prod.snd).foldl apply ((i 0).foldl apply fs0) ∧
      (∀ x ∈ t, x.1 < n) ∧
      (∀ r, r < n → (t.filter fun x => decide (x.1 = r)).map Prod.snd
        = (if r = 0 then [] else i r) ++ a r) := by
  obtain ⟨hist, d, H⟩ := hist1_exists hn h
  have hinv := ser_inv h
  have hpos : ∀ r, r < n → w.ser.pos r = 2 ∧ w.todo r = [] := by
    intro r hr
    have := hinv.bound r hr
    rcases hfin r hr with h1 | ⟨h1, h2⟩
    · omega
    · exact ⟨by omega, h2⟩
  have hex : ∀ r, ∃ i a, r < n → inside 0 r = .ok i ∧ after 0 r = .ok a ∧ d r = i ++ a := by
    intro r
    by_cases hr : r < n
    · obtain ⟨h1, h2⟩ := hpos r hr
      obtain ⟨i, a, b, q1, q2, q3, q4⟩ := (H.done r hr).past (by omega)
      rw [h2, List.append_nil] at q4
      exact ⟨i, a, fun _ => ⟨q1, q2, by rw [q3, q4]⟩⟩
    · exact ⟨[], [], fun hc => absurd hc hr⟩
  choose i a hia using hex
  obtain ⟨i0, t, q1, q2⟩ := H.first (by have := (hpos 0 hn).1; omega)
  have hi0 : i0 = i 0 := by
    have := (hia 0 hn).1
    rw [q1] at this
    simpa using this
  subst hi0
  refine ⟨i, a, t, fun r hr => ⟨(hia r hr).1, (hia r hr).2.1⟩, ?_, ?_, ?_⟩
  · rw [H.fs, q2, List.map_append, List.foldl_append]
    congr 1
    rw [List.map_map]
    congr 1
    rw [show (Prod.snd ∘ fun o : Op => ((0 : Nat), o)) = id from rfl, List.map_id]
  · intro x hx
    exact H.ranks x (by rw [q2]; exact List.mem_append_right _ hx)
  · intro r hr
    have hp := H.proj r hr
    rw [q2, List.filter_append, List.map_append, (hia r hr).2.2] at hp
    by_cases hr0 : r = 0
    · subst hr0
      rw [filter_zero _ (by intro x hx; simp only [List.mem_map] at hx; obtain ⟨o, _, rfl⟩ := hx; rfl),
        List.map_map] at hp
      rw [show (Prod.snd ∘ fun o : Op => ((0 : Nat), o)) = id from rfl, List.map_id] at hp
      rw [if_pos rfl, List.nil_append]
      exact List.append_cancel_left hp
    · have e : (((i 0).map fun o => ((0 : Nat), o)).filter fun x => decide (x.1 = r)) = [] := by
        rw [List.filter_eq_nil_iff]
        intro x hx
        simp only [List.mem_map] at hx
        obtain ⟨o, _, rfl⟩ := hx
        simp only [decide_eq_true_eq]
        omega
      rw [e, List.map_nil, List.nil_append] at hp
      rw [if_neg hr0, hp]

end Fclaw.Output
