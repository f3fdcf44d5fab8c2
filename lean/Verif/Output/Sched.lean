/-
The order of the operations of all processes.
-/
import Verif.Output.Spec
import Verif.Serial.Props
import Mathlib.Data.List.Basic
import Mathlib.Logic.Function.Basic
import Mathlib.Algebra.Order.BigOperators.Group.Finset
import Mathlib.Algebra.BigOperators.Group.Finset.Basic
import Mathlib.Algebra.BigOperators.Group.Finset.Piecewise
import Mathlib.Algebra.Order.Group.Nat

set_option autoImplicit false
set_option linter.unusedSimpArgs false

namespace Fclaw.Output

open Fclaw.ParFile (Outcome)

theorem set_same {α : Type} (f : Nat → α) (k : Nat) (v : α) : set f k v k = v := by simp [set]

theorem set_other {α : Type} (f : Nat → α) {k x : Nat} (v : α) (h : x ≠ k) :
    set f k v x = f x := by simp [set, h]

/-- The calls of enter and leave. -/
theorem ser_step {Op S : Type} {n K : Nat} {apply : S → Op → S}
    {inside after : Nat → Nat → Outcome (List Op)} {w w' : World Op S}
    (h : Step n K apply inside after w w') : w'.ser = w.ser ∨ Serial.Step n K w.ser w'.ser := by
  cases h with
  | enter r t l _ he _ => exact Or.inr (.enter r t he)
  | leave r t l _ he _ => exact Or.inr (.leave r t he)
  | handover r t l l' _ _ he _ _ => exact Or.inr (.handover r t he)
  | op r o l _ _ => exact Or.inl rfl

theorem ser_inv {Op S : Type} {n K : Nat} {apply : S → Op → S}
    {inside after : Nat → Nat → Outcome (List Op)} {fs0 : S} {w : World Op S}
    (h : Reach n K apply inside after fs0 w) : Serial.Inv n K w.ser := by
  induction h with
  | start => exact ⟨fun r _ => by simp [Serial.start], fun r _ => by simp [Serial.start]⟩
  | step w w' _ hs ih =>
    rcases ser_step hs with he | he
    · rw [he]; exact ih
    · exact Serial.inv_step n K _ _ ih he

theorem ser_reach {Op S : Type} {n K : Nat} {apply : S → Op → S}
    {inside after : Nat → Nat → Outcome (List Op)} {fs0 : S} {w : World Op S}
    (h : Reach n K apply inside after fs0 w) : ∃ m, Serial.Reach n K m w.ser := by
  induction h with
  | start => exact ⟨0, .start⟩
  | step w w' _ hs ih =>
    obtain ⟨m, hm⟩ := ih
    rcases ser_step hs with he | he
    · rw [he]; exact ⟨m, hm⟩
    · exact ⟨m + 1, .step m _ _ hm he⟩

/-- What enter does. -/
theorem enter_eq {n K r : Nat} {s t : Serial.St} (h : Serial.enter n K s r = some t) :
    r < n ∧ s.pos r % 2 = 0 ∧ s.pos r < 2 * K ∧ t.pos = Serial.upd s.pos r (s.pos r + 1) := by
  unfold Serial.enter at h
  split at h
  · rename_i hc
    split at h
    · simp only [Option.some.injEq] at h; subst h; exact ⟨hc.1, hc.2.1, hc.2.2, rfl⟩
    · split at h
      · simp only [Option.some.injEq] at h; subst h; exact ⟨hc.1, hc.2.1, hc.2.2, rfl⟩
      · simp at h
  · simp at h

/-- What leave does. -/
theorem leave_eq {n r : Nat} {s t : Serial.St} (h : Serial.leave n s r = some t) :
    r < n ∧ s.pos r % 2 = 1 ∧ t.pos = Serial.upd s.pos r (s.pos r + 1) := by
  unfold Serial.leave at h
  split at h
  · rename_i hc
    split at h
    · simp only [Option.some.injEq] at h; subst h; exact ⟨hc.1, hc.2, rfl⟩
    · simp only [Option.some.injEq] at h; subst h; exact ⟨hc.1, hc.2, rfl⟩
  · simp at h

/-- What handing over does. -/
theorem handover_eq {n K r : Nat} {s t : Serial.St} (h : Serial.handover n K s r = some t) :
    r + 1 < n ∧ s.pos r % 2 = 1 ∧ s.pos (r + 1) % 2 = 0 ∧ s.pos (r + 1) < 2 * K ∧
    t.pos = Serial.upd (Serial.upd s.pos r (s.pos r + 1)) (r + 1) (s.pos (r + 1) + 1) := by
  unfold Serial.handover at h
  split at h
  · rename_i hc
    simp only [Option.some.injEq] at h; subst h; exact ⟨hc.1, hc.2.1, hc.2.2.1, hc.2.2.2, rfl⟩
  · simp at h

/-- The operations performed so far in frame `k` by process `r`. -/
structure Done {Op S : Type} (inside : Nat → Nat → Outcome (List Op)) (w : World Op S)
    (k r : Nat) (d : List Op) : Prop where
  before : w.ser.pos r ≤ 2 * k → d = []
  now : w.ser.pos r = 2 * k + 1 → inside k r = .ok (d ++ w.todo r)
  past : 2 * k + 2 ≤ w.ser.pos r → inside k r = .ok d

/-- Only one process is inside of a section. -/
theorem alone {n K : Nat} {s : Serial.St} (h : Serial.Inv n K s) {r p k : Nat} (hin : s.pos r = 2 * k + 1)
    (hp : r < p) (hpn : p < n) : s.pos p ≤ 2 * k := by
  have := Serial.chain n K s h (p - r - 1) r (by omega)
  rw [show r + (p - r - 1) + 1 = p by omega] at this
  omega

theorem flatMap_append_last {γ : Type} (f f' : Nat → List γ) (o : List γ) (n r : Nat) (hr : r < n)
    (hf : f' r = f r ++ o) (hlow : ∀ p, p < r → f' p = f p)
    (hhigh : ∀ p, r < p → p < n → f p = [] ∧ f' p = []) :
    (List.range n).flatMap f' = (List.range n).flatMap f ++ o := by
  have hlow' : (List.range r).flatMap f' = (List.range r).flatMap f := by
    apply List.flatMap_congr
    intro p hp
    exact hlow p (List.mem_range.1 hp)
  have key : ∀ d, r + 1 + d ≤ n →
      (List.range (r + 1 + d)).flatMap f' = (List.range (r + 1 + d)).flatMap f ++ o := by
    intro d
    induction d with
    | zero =>
      intro _
      simp only [Nat.add_zero, List.range_succ, List.flatMap_append, List.flatMap_cons,
        List.flatMap_nil, List.append_nil, hlow', hf, List.append_assoc]
    | succ d ih =>
      intro hd
      have h1 := hhigh (r + 1 + d) (by omega) (by omega)
      rw [show r + 1 + (d + 1) = r + 1 + d + 1 by omega, List.range_succ]
      simp only [List.flatMap_append, List.flatMap_cons, List.flatMap_nil, List.append_nil,
        h1.1, h1.2, ih (by omega)]
  have := key (n - r - 1) (by omega)
  rw [show r + 1 + (n - r - 1) = n by omega] at this
  exact this

/-- The history of a run: each operation with its frame. -/
structure Hist {Op S : Type} (n K : Nat) (apply : S → Op → S)
    (inside : Nat → Nat → Outcome (List Op)) (fs0 : S) (w : World Op S)
    (h : List (Nat × Op)) (d : Nat → Nat → List Op) : Prop where
  fs : w.fs = (h.map Prod.snd).foldl apply fs0
  done : ∀ k r, r < n → Done inside w k r (d k r)
  order : ∀ k : Nat, (h.filter fun x => decide (x.1 = k)).map Prod.snd
    = (List.range n).flatMap (d k)
  idle : ∀ r, r < n → w.ser.pos r % 2 = 0 → w.todo r = []

theorem upd_same (f : Nat → Nat) (k v : Nat) : Serial.upd f k v k = v := by simp [Serial.upd]
theorem upd_other (f : Nat → Nat) {k x : Nat} (v : Nat) (h : x ≠ k) :
    Serial.upd f k v x = f x := by simp [Serial.upd, h]

theorem hist_exists {Op S : Type} {n K : Nat} {apply : S → Op → S}
    {inside : Nat → Nat → Outcome (List Op)} {fs0 : S} {w : World Op S}
    (h : Reach n K apply inside (fun _ _ => .ok []) fs0 w) :
    ∃ hist d, Hist n K apply inside fs0 w hist d := by
  induction h with
  | start =>
    refine ⟨[], fun _ _ => [], rfl, fun k r _ => ⟨fun _ => rfl, fun hp => ?_, fun hp => ?_⟩,
      fun k => by simp, fun r _ _ => rfl⟩
    · simp [Serial.start] at hp
    · simp [Serial.start] at hp
  | step w w' hr hs ih =>
    obtain ⟨hist, d, H⟩ := ih
    have hinv := ser_inv hr
    cases hs with
    | enter r t l h1 h2 h3 =>
      obtain ⟨e1, e2, e3, e4⟩ := enter_eq h2
      refine ⟨hist, d, H.fs, fun k p hp => ?_, H.order, fun p hp hpos => ?_⟩
      · by_cases hpr : p = r
        · subst hpr
          have D := H.done k p hp
          refine ⟨fun hb => ?_, fun hb => ?_, fun hb => ?_⟩ <;>
            simp only [e4, upd_same] at hb
          · exact D.before (by omega)
          · rw [D.before (by omega), List.nil_append]
            simp only [set_same]
            rw [← h3]
            congr 1
            omega
          · exact D.past (by omega)
        · have D := H.done k p hp
          refine ⟨fun hb => ?_, fun hb => ?_, fun hb => ?_⟩ <;>
            simp only [e4, upd_other _ _ hpr] at hb
          · exact D.before hb
          · simp only [set_other _ _ hpr]; exact D.now hb
          · exact D.past hb
      · by_cases hpr : p = r
        · subst hpr; simp only [e4, upd_same] at hpos; omega
        · simp only [e4, upd_other _ _ hpr] at hpos
          simp only [set_other _ _ hpr]; exact H.idle p hp hpos
    | leave r t l h1 h2 h3 =>
      obtain ⟨e1, e2, e4⟩ := leave_eq h2
      have hl : l = [] := by simpa using h3.symm
      subst hl
      refine ⟨hist, d, H.fs, fun k p hp => ?_, H.order, fun p hp hpos => ?_⟩
      · by_cases hpr : p = r
        · subst hpr
          have D := H.done k p hp
          refine ⟨fun hb => ?_, fun hb => ?_, fun hb => ?_⟩ <;>
            simp only [e4, upd_same] at hb
          · exact D.before (by omega)
          · omega
          · by_cases hc : w.ser.pos p = 2 * k + 1
            · have := D.now hc
              rw [h1, List.append_nil] at this
              exact this
            · exact D.past (by omega)
        · have D := H.done k p hp
          refine ⟨fun hb => ?_, fun hb => ?_, fun hb => ?_⟩ <;>
            simp only [e4, upd_other _ _ hpr] at hb
          · exact D.before hb
          · simp only [set_other _ _ hpr]; exact D.now hb
          · exact D.past hb
      · by_cases hpr : p = r
        · subst hpr; simp only [set_same]
        · simp only [e4, upd_other _ _ hpr] at hpos
          simp only [set_other _ _ hpr]; exact H.idle p hp hpos
    | handover r t l l' h1 h1' h2 h3 h3' =>
      obtain ⟨e1, e2, e2', e3, e4⟩ := handover_eq h2
      have hl : l = [] := by simpa using h3.symm
      subst hl
      refine ⟨hist, d, H.fs, fun k p hp => ?_, H.order, fun p hp hpos => ?_⟩
      · by_cases hpr : p = r + 1
        · subst hpr
          have D := H.done k (r + 1) hp
          refine ⟨fun hb => ?_, fun hb => ?_, fun hb => ?_⟩ <;>
            simp only [e4, upd_same] at hb
          · exact D.before (by omega)
          · rw [D.before (by omega), List.nil_append]
            simp only [set_same]
            rw [← h3']
            congr 1
            omega
          · exact D.past (by omega)
        · by_cases hpr' : p = r
          · subst hpr'
            have D := H.done k p hp
            refine ⟨fun hb => ?_, fun hb => ?_, fun hb => ?_⟩ <;>
              simp only [e4, upd_other _ _ hpr, upd_same] at hb
            · exact D.before (by omega)
            · omega
            · by_cases hc : w.ser.pos p = 2 * k + 1
              · have := D.now hc
                rw [h1, List.append_nil] at this
                exact this
              · exact D.past (by omega)
          · have D := H.done k p hp
            refine ⟨fun hb => ?_, fun hb => ?_, fun hb => ?_⟩ <;>
              simp only [e4, upd_other _ _ hpr, upd_other _ _ hpr'] at hb
            · exact D.before hb
            · simp only [set_other _ _ hpr, set_other _ _ hpr']; exact D.now hb
            · exact D.past hb
      · by_cases hpr : p = r + 1
        · subst hpr; simp only [e4, upd_same] at hpos; omega
        · by_cases hpr' : p = r
          · subst hpr'; simp only [set_other _ _ hpr, set_same]
          · simp only [e4, upd_other _ _ hpr, upd_other _ _ hpr'] at hpos
            simp only [set_other _ _ hpr, set_other _ _ hpr']; exact H.idle p hp hpos
    | op r o l h1 h2 =>
      have hodd : w.ser.pos r % 2 = 1 := by
        by_contra hc
        rw [H.idle r h1 (by omega)] at h2
        simp at h2
      have hin : w.ser.pos r = 2 * (w.ser.pos r / 2) + 1 := by omega
      refine ⟨hist ++ [(w.ser.pos r / 2, o)],
        fun k p => if k = w.ser.pos r / 2 ∧ p = r then d k p ++ [o] else d k p, ?_, ?_, ?_, ?_⟩
      · simp only [List.map_append, List.map_cons, List.map_nil, List.foldl_append,
          List.foldl_cons, List.foldl_nil, ← H.fs]
      · intro k p hp
        have D := H.done k p hp
        by_cases hpr : p = r
        · subst hpr
          by_cases hk : k = w.ser.pos p / 2
          · rw [if_pos ⟨hk, rfl⟩]
            refine ⟨fun hb => ?_, fun hb => ?_, fun hb => ?_⟩
            · simp only at hb; omega
            · simp only [set_same]
              have := D.now (by omega)
              rw [h2] at this
              rw [this]
              simp
            · simp only at hb; omega
          · rw [if_neg (fun hc => hk hc.1)]
            refine ⟨fun hb => D.before hb, fun hb => ?_, fun hb => D.past hb⟩
            simp only at hb; omega
        · rw [if_neg (fun hc => hpr hc.2)]
          refine ⟨fun hb => D.before hb, fun hb => ?_, fun hb => D.past hb⟩
          simp only [set_other _ _ hpr]
          exact D.now hb
      · intro k
        rw [List.filter_append, List.map_append, H.order k]
        by_cases hk : w.ser.pos r / 2 = k
        · have e : ((List.filter (fun x : Nat × Op => decide (x.1 = k))
              [(w.ser.pos r / 2, o)]).map Prod.snd) = [o] := by simp [hk]
          rw [e]
          symm
          apply flatMap_append_last (d k) _ [o] n r h1
          · simp [hk]
          · intro p hp
            rw [if_neg (by omega)]
          · intro p hp hpn
            have hz := (H.done k p hpn).before (by
              have := alone hinv hin hp hpn
              omega)
            exact ⟨hz, by rw [if_neg (by omega), hz]⟩
        · have e : ((List.filter (fun x : Nat × Op => decide (x.1 = k))
              [(w.ser.pos r / 2, o)]).map Prod.snd) = [] := by simp [hk]
          rw [e, List.append_nil]
          apply List.flatMap_congr
          intro p _
          rw [if_neg (fun hc => hk hc.1.symm)]
      · intro p hp hpos
        by_cases hpr : p = r
        · subst hpr; simp only at hpos; omega
        · simp only [set_other _ _ hpr]
          exact H.idle p hp hpos

/-- As long as a process is not finished, some process can go on. -/
theorem progress {Op S : Type} {n K : Nat} {apply : S → Op → S}
    {inside after : Nat → Nat → Outcome (List Op)} {fs0 : S} {w : World Op S}
    (h : Reach n K apply inside after fs0 w)
    (hin : ∀ k r, k < K → r < n → ∃ l, inside k r = .ok l)
    (hafter : ∀ k r, k < K → r < n → ∃ l, after k r = .ok l)
    {r : Nat} (hr : r < n) (hnot : w.ser.pos r ≠ 2 * K ∨ w.todo r ≠ []) :
    ∃ w', Step n K apply inside after w w' := by
  by_cases ht : ∃ p, p < n ∧ w.todo p ≠ []
  · obtain ⟨p, hp, hne⟩ := ht
    obtain ⟨o, l, hol⟩ := List.exists_cons_of_ne_nil hne
    exact ⟨_, .op p o l hp hol⟩
  · have hall : ∀ p, p < n → w.todo p = [] := fun p hp => by
      by_contra hc; exact ht ⟨p, hp, hc⟩
    have hpos : w.ser.pos r ≠ 2 * K := by
      rcases hnot with hc | hc
      · exact hc
      · exact absurd (hall r hr) hc
    have hinv := ser_inv h
    obtain ⟨m, hm⟩ := ser_reach h
    rcases Serial.C20_no_deadlock n K m w.ser hm r hr hpos with ⟨p, t, he⟩ | ⟨p, t, he⟩ | ⟨t, he⟩
    · obtain ⟨e1, e2, e3, _⟩ := enter_eq he
      obtain ⟨l, hl⟩ := hin (w.ser.pos p / 2) p (by omega) e1
      exact ⟨_, .enter p t l (hall p e1) he hl⟩
    · obtain ⟨e1, e2, e2', e3, _⟩ := handover_eq he
      have hb := hinv.bound p (by omega)
      obtain ⟨l, hl⟩ := hafter (w.ser.pos p / 2) p (by omega) (by omega)
      obtain ⟨l', hl'⟩ := hin (w.ser.pos (p + 1) / 2) (p + 1) (by omega) e1
      exact ⟨_, .handover p t l l' (hall p (by omega)) (hall (p + 1) e1) he hl hl'⟩
    · obtain ⟨e1, e2, _⟩ := leave_eq he
      have hb := hinv.bound (n - 1) (by omega)
      obtain ⟨l, hl⟩ := hafter (w.ser.pos (n - 1) / 2) (n - 1) (by omega) (by omega)
      exact ⟨_, .leave (n - 1) t l (hall (n - 1) e1) he hl⟩

/-- The number of operations. -/
def len {Op : Type} : Outcome (List Op) → Nat
  | .ok l => l.length
  | _ => 0

/-- The steps process `r` still has to make. -/
def rest {Op S : Type} (K : Nat) (inside after : Nat → Nat → Outcome (List Op)) (w : World Op S)
    (r : Nat) : Nat :=
  (2 * K - w.ser.pos r) + (w.todo r).length
    + ((Finset.range K).sum fun k => if w.ser.pos r ≤ 2 * k then len (inside k r) else 0)
    + ((Finset.range K).sum fun k => if w.ser.pos r ≤ 2 * k + 1 then len (after k r) else 0)

theorem sum_le_ite {K : Nat} (f : Nat → Nat) (p q : Nat → Prop) [DecidablePred p] [DecidablePred q]
    (h : ∀ k, q k → p k) : ((Finset.range K).sum fun k => if q k then f k else 0)
      ≤ (Finset.range K).sum fun k => if p k then f k else 0 := by
  apply Finset.sum_le_sum
  intro k _
  by_cases hq : q k
  · rw [if_pos hq, if_pos (h k hq)]
  · rw [if_neg hq]; exact Nat.zero_le _

theorem sum_drop {K k0 : Nat} (hk0 : k0 < K) (f : Nat → Nat) (p q : Nat → Prop) [DecidablePred p]
    [DecidablePred q] (h : ∀ k, q k → p k) (h0 : p k0) (h0' : ¬ q k0) :
    f k0 + ((Finset.range K).sum fun k => if q k then f k else 0)
      ≤ (Finset.range K).sum fun k => if p k then f k else 0 := by
  have e : f k0 = (Finset.range K).sum fun k => if k = k0 then f k else 0 := by
    rw [Finset.sum_ite_eq' (Finset.range K) k0 f, if_pos (Finset.mem_range.2 hk0)]
  rw [e, ← Finset.sum_add_distrib]
  apply Finset.sum_le_sum
  intro k _
  by_cases hk : k = k0
  · subst hk; rw [if_pos rfl, if_neg h0', if_pos h0]; omega
  · rw [if_neg hk]
    by_cases hq : q k
    · rw [if_pos hq, if_pos (h k hq)]; omega
    · rw [if_neg hq]; exact Nat.zero_le _

theorem rest_enter {Op S : Type} {K : Nat} {inside after : Nat → Nat → Outcome (List Op)}
    {w w' : World Op S} {r : Nat} {l : List Op} (hev : w.ser.pos r % 2 = 0)
    (hlt : w.ser.pos r < 2 * K) (hp : w'.ser.pos r = w.ser.pos r + 1) (ht : w'.todo r = l)
    (hl : inside (w.ser.pos r / 2) r = .ok l) :
    rest K inside after w' r < rest K inside after w r := by
  unfold rest
  rw [hp, ht]
  have h1 := sum_drop (K := K) (k0 := w.ser.pos r / 2) (by omega) (fun k => len (inside k r))
    (fun k => w.ser.pos r ≤ 2 * k) (fun k => w.ser.pos r + 1 ≤ 2 * k) (fun k hk => by omega)
    (by omega) (by omega)
  have h2 := sum_le_ite (K := K) (fun k => len (after k r))
    (fun k => w.ser.pos r ≤ 2 * k + 1) (fun k => w.ser.pos r + 1 ≤ 2 * k + 1) (fun k hk => by omega)
  simp only [hl, len] at h1
  simp only [len] at h2
  simp only [len]
  omega

theorem rest_leave {Op S : Type} {K : Nat} {inside after : Nat → Nat → Outcome (List Op)}
    {w w' : World Op S} {r : Nat} {l : List Op} (hodd : w.ser.pos r % 2 = 1)
    (hle : w.ser.pos r ≤ 2 * K) (hp : w'.ser.pos r = w.ser.pos r + 1) (ht : w'.todo r = l)
    (hl : after (w.ser.pos r / 2) r = .ok l) :
    rest K inside after w' r < rest K inside after w r := by
  unfold rest
  rw [hp, ht]
  have h1 := sum_drop (K := K) (k0 := w.ser.pos r / 2) (by omega) (fun k => len (after k r))
    (fun k => w.ser.pos r ≤ 2 * k + 1) (fun k => w.ser.pos r + 1 ≤ 2 * k + 1) (fun k hk => by omega)
    (by omega) (by omega)
  have h2 := sum_le_ite (K := K) (fun k => len (inside k r))
    (fun k => w.ser.pos r ≤ 2 * k) (fun k => w.ser.pos r + 1 ≤ 2 * k) (fun k hk => by omega)
  simp only [hl, len] at h1
  simp only [len] at h2
  simp only [len]
  omega

theorem rest_same {Op S : Type} {K : Nat} {inside after : Nat → Nat → Outcome (List Op)}
    {w w' : World Op S} {r : Nat} (hp : w'.ser.pos r = w.ser.pos r) (ht : w'.todo r = w.todo r) :
    rest K inside after w' r = rest K inside after w r := by
  unfold rest; rw [hp, ht]

/-- All steps to come. -/
def restAll {Op S : Type} (n K : Nat) (inside after : Nat → Nat → Outcome (List Op))
    (w : World Op S) : Nat := (Finset.range n).sum (rest K inside after w)

theorem restAll_lt {Op S : Type} {n K : Nat} {inside after : Nat → Nat → Outcome (List Op)}
    {w w' : World Op S} (hle : ∀ p, p < n → rest K inside after w' p ≤ rest K inside after w p)
    {r : Nat} (hr : r < n) (hlt : rest K inside after w' r < rest K inside after w r) :
    restAll n K inside after w' < restAll n K inside after w :=
  Finset.sum_lt_sum (fun p hp => hle p (Finset.mem_range.1 hp)) ⟨r, Finset.mem_range.2 hr, hlt⟩

theorem restAll_step {Op S : Type} {n K : Nat} {apply : S → Op → S}
    {inside after : Nat → Nat → Outcome (List Op)} {w w' : World Op S}
    (hinv : Serial.Inv n K w.ser) (hs : Step n K apply inside after w w') :
    restAll n K inside after w' < restAll n K inside after w := by
  cases hs with
  | enter r t l h1 h2 h3 =>
    obtain ⟨e1, e2, e3, e4⟩ := enter_eq h2
    have hlt : rest K inside after ⟨t, w.fs, set w.todo r l⟩ r < rest K inside after w r :=
      rest_enter e2 e3 (by simp only [e4, upd_same]) (by simp only [set_same]) h3
    refine restAll_lt (fun p _ => ?_) e1 hlt
    by_cases hpr : p = r
    · subst hpr; exact Nat.le_of_lt hlt
    · exact Nat.le_of_eq (rest_same (by simp only [e4, upd_other _ _ hpr])
        (by simp only [set_other _ _ hpr]))
  | leave r t l h1 h2 h3 =>
    obtain ⟨e1, e2, e4⟩ := leave_eq h2
    have hlt : rest K inside after ⟨t, w.fs, set w.todo r l⟩ r < rest K inside after w r :=
      rest_leave e2 (hinv.bound r e1) (by simp only [e4, upd_same]) (by simp only [set_same]) h3
    refine restAll_lt (fun p _ => ?_) e1 hlt
    by_cases hpr : p = r
    · subst hpr; exact Nat.le_of_lt hlt
    · exact Nat.le_of_eq (rest_same (by simp only [e4, upd_other _ _ hpr])
        (by simp only [set_other _ _ hpr]))
  | handover r t l l' h1 h1' h2 h3 h3' =>
    obtain ⟨e1, e2, e2', e3, e4⟩ := handover_eq h2
    have hne : r ≠ r + 1 := by omega
    have hlt : rest K inside after ⟨t, w.fs, set (set w.todo r l) (r + 1) l'⟩ r
        < rest K inside after w r :=
      rest_leave e2 (hinv.bound r (by omega)) (by simp only [e4, upd_other _ _ hne, upd_same])
        (by simp only [set_other _ _ hne, set_same]) h3
    have hlt' : rest K inside after ⟨t, w.fs, set (set w.todo r l) (r + 1) l'⟩ (r + 1)
        < rest K inside after w (r + 1) :=
      rest_enter e2' e3 (by simp only [e4, upd_same]) (by simp only [set_same]) h3'
    refine restAll_lt (fun p _ => ?_) e1 hlt'
    by_cases hpr : p = r
    · subst hpr; exact Nat.le_of_lt hlt
    · by_cases hpr' : p = r + 1
      · subst hpr'; exact Nat.le_of_lt hlt'
      · exact Nat.le_of_eq (rest_same (by simp only [e4, upd_other _ _ hpr, upd_other _ _ hpr'])
          (by simp only [set_other _ _ hpr, set_other _ _ hpr']))
  | op r o l h1 h2 =>
    have hlt : rest K inside after ⟨w.ser, apply w.fs o, set w.todo r l⟩ r
        < rest K inside after w r := by
      unfold rest
      simp only [set_same, h2, List.length_cons]
      omega
    refine restAll_lt (fun p _ => ?_) h1 hlt
    by_cases hpr : p = r
    · subst hpr; exact Nat.le_of_lt hlt
    · exact Nat.le_of_eq (rest_same rfl (by simp only [set_other _ _ hpr]))

theorem reach_steps {Op S : Type} {n K : Nat} {apply : S → Op → S}
    {inside after : Nat → Nat → Outcome (List Op)} {fs0 : S} {w w' : World Op S}
    (h : Reach n K apply inside after fs0 w) (hs : Steps n K apply inside after w w') :
    Reach n K apply inside after fs0 w' := by
  induction hs with
  | none => exact h
  | more w1 w2 _ h2 ih => exact .step _ _ ih h2

theorem steps_head {Op S : Type} {n K : Nat} {apply : S → Op → S}
    {inside after : Nat → Nat → Outcome (List Op)} {w w1 w' : World Op S}
    (h : Step n K apply inside after w w1) (hs : Steps n K apply inside after w1 w') :
    Steps n K apply inside after w w' := by
  induction hs with
  | none => exact .more _ _ .none h
  | more w2 w3 _ h2 ih => exact .more _ _ ih h2

/-- No run goes on for ever. -/
theorem no_infinite {Op S : Type} {n K : Nat} {apply : S → Op → S}
    {inside after : Nat → Nat → Outcome (List Op)} {fs0 : S} (f : Nat → World Op S)
    (h : Reach n K apply inside after fs0 (f 0))
    (hs : ∀ i, Step n K apply inside after (f i) (f (i + 1))) : False := by
  have hr : ∀ i, Reach n K apply inside after fs0 (f i) := by
    intro i
    induction i with
    | zero => exact h
    | succ i ih => exact .step _ _ ih (hs i)
  have key : ∀ i, restAll n K inside after (f i) + i ≤ restAll n K inside after (f 0) := by
    intro i
    induction i with
    | zero => exact Nat.le_refl _
    | succ i ih =>
      have := restAll_step (ser_inv (hr i)) (hs i)
      omega
  have := key (restAll n K inside after (f 0) + 1)
  omega

/-- Every run can be completed. -/
theorem completes {Op S : Type} {n K : Nat} {apply : S → Op → S}
    {inside after : Nat → Nat → Outcome (List Op)} {fs0 : S}
    (hin : ∀ k r, k < K → r < n → ∃ l, inside k r = .ok l)
    (hafter : ∀ k r, k < K → r < n → ∃ l, after k r = .ok l) : ∀ (m : Nat) (w : World Op S),
    Reach n K apply inside after fs0 w → restAll n K inside after w ≤ m →
    ∃ w', Steps n K apply inside after w w' ∧
      ∀ r, r < n → w'.ser.pos r = 2 * K ∧ w'.todo r = [] := by
  intro m
  induction m with
  | zero =>
    intro w h hm
    refine ⟨w, .none, fun r hr => ?_⟩
    by_contra hc
    obtain ⟨w', hs⟩ := progress h hin hafter hr (by
      by_cases h1 : w.ser.pos r = 2 * K
      · exact Or.inr fun h2 => hc ⟨h1, h2⟩
      · exact Or.inl h1)
    have := restAll_step (ser_inv h) hs
    omega
  | succ m ih =>
    intro w h hm
    by_cases hall : ∀ r, r < n → w.ser.pos r = 2 * K ∧ w.todo r = []
    · exact ⟨w, .none, hall⟩
    · have : ∃ r, r < n ∧ ¬ (w.ser.pos r = 2 * K ∧ w.todo r = []) := by
        by_contra hc
        exact hall fun r hr => by
          by_contra h2
          exact hc ⟨r, hr, h2⟩
      obtain ⟨r, hr, hc⟩ := this
      obtain ⟨w1, hs⟩ := progress h hin hafter hr (by
        by_cases h1 : w.ser.pos r = 2 * K
        · exact Or.inr fun h2 => hc ⟨h1, h2⟩
        · exact Or.inl h1)
      have hlt := restAll_step (ser_inv h) hs
      obtain ⟨w', h1, h2⟩ := ih w1 (.step _ _ h hs) (by omega)
      exact ⟨w', steps_head hs h1, h2⟩

end Fclaw.Output
