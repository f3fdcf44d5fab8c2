/-
All events on one process.
-/
import Verif.Repopulate.Lemmas

set_option autoImplicit false
set_option linter.unusedSimpArgs false
set_option linter.unusedVariables false
set_option linter.unusedSectionVars false
namespace Fclaw.Repopulate

open Fort CopyGhost Transfer Adapt Metric
open Fclaw.Domain (Path)
open Fclaw.Partition (set2)

variable {K P : Type} [Field K] [CharZero K]

theorem repopulateAll_append (S : Setting K P) (pos : Nat → Nat → Option Quad) (mem : Nat → Nat → Memory P) (init : Bool)
    (cs cs' : List Call) : ∀ st, repopulateAll S pos mem init (cs ++ cs') st =
      (repopulateAll S pos mem init cs st).bind fun st => repopulateAll S pos mem init cs' st := by
  induction cs with
  | nil => intro st; rfl
  | cons c cs ih =>
    intro st
    simp only [List.cons_append, repopulateAll]
    cases repopulate S pos mem init st c with
    | none => rfl
    | some st' => simp [ih]

theorem did_congr (S : Setting K P) (init : Bool) (i : Nat) (e : Event 4) (a a' b b' : Nat → Option Patch)
    (ha : ∀ n < e.old.length, a n = a' n) (hb : ∀ n < e.new.length, b n = b' n) (h : Did S init i e a b) : Did S init i e a' b' := by
  cases e with
  | keep q =>
    have h1 := ha 0 (by simp [Event.old])
    have h2 := hb 0 (by simp [Event.new])
    show b' 0 = a' 0
    rw [← h1, ← h2]
    exact h
  | refine q =>
    have h1 := ha 0 (by simp [Event.old])
    have h2 : ∀ n < 4, b n = b' n := fun n hn => hb n (by simpa [Event.new, children_length] using hn)
    intro c hc
    rw [← h1] at hc
    obtain ⟨f, ⟨e0, e1, e2, e3⟩, hf⟩ := h c hc
    refine ⟨f, ?_, hf⟩
    rw [← h2 0 (by omega), ← h2 1 (by omega), ← h2 2 (by omega), ← h2 3 (by omega)]
    exact ⟨e0, e1, e2, e3⟩
  | coarsen q =>
    have h1 : ∀ n < 4, a n = a' n := fun n hn => ha n (by simpa [Event.old, children_length] using hn)
    have h2 := hb 0 (by simp [Event.new])
    intro f hf
    rw [← h1 0 (by omega), ← h1 1 (by omega), ← h1 2 (by omega), ← h1 3 (by omega)] at hf
    obtain ⟨c, e, hc⟩ := h f hf
    exact ⟨c, by rw [← h2]; exact e, hc⟩

/-- The events of one block. -/
theorem block_spec (S : Setting K P) (hS : S.Ok) (pos : Nat → Nat → Option Quad) (mem : Nat → Nat → Memory P) (init : Bool)
    (D : Path 4 → Patch) (i : Nat) (es : List (Event 4)) : ∀ (oj nj : Nat) (st : State),
    (∀ n < (oldPatches es).length, st.old i (oj + n) = ((oldPatches es)[n]?).map D) →
    (∀ n < (newPatches es).length, pos i (nj + n) = ((newPatches es)[n]?).map quadAt) →
    (∀ q ∈ oldPatches es, Valid S i q (D q)) → (∀ q ∈ oldPatches es, q.length ≤ S.maxlevel) →
    (∀ q ∈ newPatches es, q.length ≤ S.maxlevel) →
    ∃ st', repopulateAll S pos mem init (wantedFrom i oj nj es) st = some st' ∧
      (∀ (k : Nat) (e : Event 4), es[k]? = some e → Did S init i e (fun n => (e.old[n]?).map D)
        (fun n => st'.new i (nj + (newPatches (es.take k)).length + n))) ∧
      Changed i oj (oldPatches es).length st.old st'.old ∧ Changed i nj (newPatches es).length st.new st'.new ∧
      Cleared i oj (oldPatches es).length st'.old := by
  induction es with
  | nil =>
    intro oj nj st _ _ _ _ _
    refine ⟨st, rfl, fun k e h => by simp at h, fun _ _ _ => rfl, fun _ _ _ => rfl, fun k hk => by simp [oldPatches] at hk⟩
  | cons e es ih =>
    intro oj nj st hold hpos hv hlo hl
    have eo : oldPatches (e :: es) = e.old ++ oldPatches es := by simp [oldPatches]
    have en : newPatches (e :: es) = e.new ++ newPatches es := by simp [newPatches]
    rw [eo] at hold hv hlo
    rw [en] at hpos hl
    have hold1 : ∀ n < e.old.length, st.old i (oj + n) = (e.old[n]?).map D := by
      intro n hn
      rw [hold n (by simp; omega), List.getElem?_append_left hn]
    have hpos1 : ∀ n < e.new.length, pos i (nj + n) = (e.new[n]?).map quadAt := by
      intro n hn
      rw [hpos n (by simp; omega), List.getElem?_append_left hn]
    obtain ⟨st1, e1, did, co, cn, cl⟩ := event_spec S hS pos mem init D i oj nj e st hold1 hpos1
      (fun q hq => hv q (by simp [hq])) (fun q hq => hlo q (by simp [hq])) (fun q hq => hl q (by simp [hq]))
    have hold2 : ∀ n < (oldPatches es).length, st1.old i (oj + e.old.length + n) = ((oldPatches es)[n]?).map D := by
      intro n hn
      rw [co i _ (by omega), Nat.add_assoc, hold _ (by simp; omega), List.getElem?_append_right (by omega)]
      simp
    have hpos2 : ∀ n < (newPatches es).length, pos i (nj + e.new.length + n) = ((newPatches es)[n]?).map quadAt := by
      intro n hn
      rw [Nat.add_assoc, hpos _ (by simp; omega), List.getElem?_append_right (by omega)]
      simp
    obtain ⟨st2, e2, did2, co2, cn2, cl2⟩ := ih (oj + e.old.length) (nj + e.new.length) st1 hold2 hpos2
      (fun q hq => hv q (by simp [hq])) (fun q hq => hlo q (by simp [hq])) (fun q hq => hl q (by simp [hq]))
    refine ⟨st2, ?_, ?_, ?_, ?_, ?_⟩
    · simp only [wantedFrom, repopulateAll, e1, Option.bind_some]
      exact e2
    · intro k e' hk
      cases k with
      | zero =>
        simp only [List.getElem?_cons_zero, Option.some.injEq] at hk
        subst hk
        refine did_congr S init i e _ _ _ _ hold1 ?_ did
        intro n hn
        simp only [List.take_zero, newPatches, List.flatMap_nil, List.length_nil, Nat.add_zero]
        rw [cn2 i _ (by omega)]
      | succ k =>
        rw [List.getElem?_cons_succ] at hk
        have := did2 k e' hk
        simp only [List.take_succ_cons, newPatches, List.flatMap_cons, List.length_append] at this ⊢
        rw [Nat.add_assoc] at this
        exact this
    · intro x y h
      rw [eo, List.length_append] at h
      rw [co2 x y (by omega), co x y (by omega)]
    · intro x y h
      rw [en, List.length_append] at h
      rw [cn2 x y (by omega), cn x y (by omega)]
    · intro k hk
      rw [eo, List.length_append] at hk
      by_cases h : k < e.old.length
      · rw [co2 i _ (by omega)]
        exact cl k h
      · have := cl2 (k - e.old.length) (by omega)
        rwa [Nat.add_assoc, Nat.add_sub_cancel' (by omega)] at this

/-- The events of all blocks. -/
theorem blocks_spec (S : Setting K P) (hS : S.Ok) (pos : Nat → Nat → Option Quad) (mem : Nat → Nat → Memory P) (init : Bool)
    (D : World) (bes : List (List (Event 4))) : ∀ (i0 : Nat) (st : State),
    (∀ i n : Nat, n < (oldPatches (bes[i]?.getD [])).length → st.old (i0 + i) n = ((oldPatches (bes[i]?.getD []))[n]?).map (D (i0 + i))) →
    (∀ i n : Nat, n < (newPatches (bes[i]?.getD [])).length → pos (i0 + i) n = ((newPatches (bes[i]?.getD []))[n]?).map quadAt) →
    (∀ i : Nat, ∀ q ∈ oldPatches (bes[i]?.getD []), Valid S (i0 + i) q (D (i0 + i) q)) →
    (∀ i : Nat, ∀ q ∈ oldPatches (bes[i]?.getD []), q.length ≤ S.maxlevel) →
    (∀ i : Nat, ∀ q ∈ newPatches (bes[i]?.getD []), q.length ≤ S.maxlevel) →
    ∃ st', repopulateAll S pos mem init ((bes.zipIdx i0).flatMap fun x => wanted x.2 x.1) st = some st' ∧
      (∀ (i k : Nat) (e : Event 4), (bes[i]?.getD [])[k]? = some e → Did S init (i0 + i) e (fun n => (e.old[n]?).map (D (i0 + i)))
        (fun n => st'.new (i0 + i) ((newPatches ((bes[i]?.getD []).take k)).length + n))) ∧
      (∀ x y, (x < i0 ∨ (oldPatches (bes[x - i0]?.getD [])).length ≤ y) → st'.old x y = st.old x y) ∧
      (∀ x y, (x < i0 ∨ (newPatches (bes[x - i0]?.getD [])).length ≤ y) → st'.new x y = st.new x y) ∧
      (∀ i y : Nat, y < (oldPatches (bes[i]?.getD [])).length → st'.old (i0 + i) y = none) := by
  induction bes with
  | nil =>
    intro i0 st _ _ _ _ _
    exact ⟨st, rfl, fun i k e h => by simp at h, fun _ _ _ => rfl, fun _ _ _ => rfl, fun i y h => by simp [oldPatches] at h⟩
  | cons es bes ih =>
    intro i0 st hold hpos hv hlo hl
    obtain ⟨st1, e1, did, co, cn, cl⟩ := block_spec S hS pos mem init (D i0) i0 es 0 0 st
      (fun n hn => by simpa using hold 0 n (by simpa using hn)) (fun n hn => by simpa using hpos 0 n (by simpa using hn))
      (by simpa using hv 0) (by simpa using hlo 0) (by simpa using hl 0)
    have sh : ∀ i : Nat, i0 + (i + 1) = i0 + 1 + i := fun i => by omega
    obtain ⟨st2, e2, did2, co2, cn2, cl2⟩ := ih (i0 + 1) st1
      (fun i n hn => by
        rw [co _ _ (by omega), ← sh]
        simpa using hold (i + 1) n (by simpa using hn))
      (fun i n hn => by rw [← sh]; simpa using hpos (i + 1) n (by simpa using hn))
      (fun i => by rw [← sh]; simpa using hv (i + 1)) (fun i => by simpa using hlo (i + 1)) (fun i => by simpa using hl (i + 1))
    refine ⟨st2, ?_, ?_, ?_, ?_, ?_⟩
    · rw [List.zipIdx_cons, List.flatMap_cons, repopulateAll_append, wanted_eq, e1]
      exact e2
    · intro i k e hk
      cases i with
      | zero =>
        simp only [List.getElem?_cons_zero, Option.getD_some, Nat.add_zero] at hk ⊢
        have := did k e hk
        simp only [Nat.zero_add] at this
        refine did_congr S init i0 e _ _ _ _ (fun _ _ => rfl) (fun n _ => ?_) this
        rw [cn2 i0 _ (Or.inl (by omega))]
      | succ i =>
        simp only [List.getElem?_cons_succ] at hk ⊢
        rw [sh]
        exact did2 i k e hk
    · intro x y h
      rw [co2 x y ?_, co x y ?_]
      · rintro ⟨rfl, _, h2⟩
        simp at h
        omega
      · rcases h with h | h
        · left; omega
        · by_cases hx : x < i0 + 1
          · left; exact hx
          · right
            rwa [show x - i0 = x - (i0 + 1) + 1 by omega, List.getElem?_cons_succ] at h
    · intro x y h
      rw [cn2 x y ?_, cn x y ?_]
      · rintro ⟨rfl, _, h2⟩
        simp at h
        omega
      · rcases h with h | h
        · left; omega
        · by_cases hx : x < i0 + 1
          · left; exact hx
          · right
            rwa [show x - i0 = x - (i0 + 1) + 1 by omega, List.getElem?_cons_succ] at h
    · intro i y hy
      cases i with
      | zero =>
        simp only [List.getElem?_cons_zero, Option.getD_some, Nat.add_zero] at hy ⊢
        rw [co2 i0 y (Or.inl (by omega))]
        simpa using cl y hy
      | succ i =>
        simp only [List.getElem?_cons_succ] at hy
        rw [sh]
        exact cl2 i y hy

/-- One process. -/
theorem process_spec (S : Setting K P) (hS : S.Ok) (mem : Nat → Nat → Memory P) (init : Bool) (D : World) (bes : List (List (Event 4)))
    (hv : ∀ i : Nat, ∀ q ∈ oldPatches (bes[i]?.getD []), Valid S i q (D i q))
    (hlo : ∀ i : Nat, ∀ q ∈ oldPatches (bes[i]?.getD []), q.length ≤ S.maxlevel)
    (hl : ∀ i : Nat, ∀ q ∈ newPatches (bes[i]?.getD []), q.length ≤ S.maxlevel) :
    ∃ st, regrid S init (bes.map oldPatches) (bes.map newPatches)
        (fun i j => ((oldPatches (bes[i]?.getD []))[j]?).map (D i)) mem = some st ∧
      (∀ (i k : Nat) (e : Event 4), (bes[i]?.getD [])[k]? = some e → Did S init i e (fun n => (e.old[n]?).map (D i))
        (fun n => st.new i ((newPatches ((bes[i]?.getD []).take k)).length + n))) ∧
      (∀ i j, st.old i j = none) ∧
      (∀ i j, (newPatches (bes[i]?.getD [])).length ≤ j → st.new i j = none) := by
  have hC := blocksLoop_events (C := 4) (by omega) bes 0
  have hnew : ∀ i : Nat, ((bes.map newPatches)[i]?.getD []) = newPatches (bes[i]?.getD []) := by
    intro i
    rw [List.getElem?_map]
    cases bes[i]? <;> rfl
  obtain ⟨st, e, did, co, cn, cl⟩ := blocks_spec S hS (fun i j => (((bes.map newPatches)[i]?.getD [])[j]?).map quadAt) mem init D bes 0
    ⟨fun i j => ((oldPatches (bes[i]?.getD []))[j]?).map (D i), fun _ _ => none⟩
    (fun i n hn => by simp) (fun i n hn => by rw [Nat.zero_add, hnew]) (by simpa using hv) hlo hl
  simp only [Nat.zero_add] at did cl
  refine ⟨st, ?_, did, ?_, ?_⟩
  · unfold regrid iterateAdapted
    rw [hC]
    exact e
  · intro i j
    by_cases h : j < (oldPatches (bes[i]?.getD [])).length
    · exact cl i j h
    · rw [co i j (Or.inr (by simpa using h))]
      simp only
      rw [List.getElem?_eq_none (by omega)]
      rfl
  · intro i j h
    rw [cn i j (Or.inr (by simpa using h))]

end Fclaw.Repopulate
