import Verif.Rays.Lemmas
/-
C101: the cycle of diagnostics, and what is reported for rays.
-/
set_option autoImplicit false
set_option linter.unusedVariables false
set_option linter.unusedSimpArgs false
namespace Fclaw.Rays

open Search (Forest)

/-! ### The cycle -/

open Classical in
/-- C101: whatever else takes part, each component sees one initialization, then for each time that diagnostics are gathered a computation, a
gathering with the flag of this time and a reset, and then one finalization, except for functions that are not set and, for the user's, if
they are not asked for. -/
theorem C101_component (vt : Table) (flags : List ℤ) (c : Comp) :
    (vt.run flags).filter (fun e => decide (e.comp = c)) =
      ([⟨c, .init, 0⟩] ++ (flags.flatMap fun f => [⟨c, .compute, 0⟩, ⟨c, .gather, f⟩, ⟨c, .reset, 0⟩]) ++
        [⟨c, .finalize, 0⟩] : List Ev).filter (fun e => decide (vt.Enabled c e.kind)) := by
  have hc : ∀ c' k f, (vt.call c' k f).filter (fun e => decide (e.comp = c)) =
      if c' = c then vt.call c' k f else [] := by
    intro c' k f
    unfold Table.call
    by_cases h1 : vt.set c' k = true <;> by_cases h2 : c' = c <;> simp [h1, h2]
  have hu : ∀ k f, (vt.callUser k f).filter (fun e => decide (e.comp = c)) =
      if Comp.user = c then vt.callUser k f else [] := by
    intro k f
    unfold Table.callUser
    by_cases h1 : vt.runUser ≠ 0 ∧ vt.set .user k = true
    · by_cases h2 : Comp.user = c <;> simp [h1, h2]
    · rw [if_neg h1]
      simp
  have he : ∀ k f, ([⟨c, k, f⟩] : List Ev).filter (fun e => decide (vt.Enabled c e.kind)) =
      if c = .user then vt.callUser k f else vt.call c k f := by
    intro k f
    unfold Table.Enabled Table.callUser Table.call
    by_cases h0 : c = .user
    · subst h0
      by_cases h1 : vt.runUser ≠ 0 <;> by_cases h2 : vt.set .user k = true <;> simp [h1, h2]
    · by_cases h2 : vt.set c k = true <;> simp [h0, h2]
  have hg : ∀ f, (vt.gather f).filter (fun e => decide (e.comp = c)) =
      ([⟨c, .compute, 0⟩, ⟨c, .gather, f⟩, ⟨c, .reset, 0⟩] : List Ev).filter (fun e => decide (vt.Enabled c e.kind)) := by
    intro f
    have : ([⟨c, .compute, 0⟩, ⟨c, .gather, f⟩, ⟨c, .reset, 0⟩] : List Ev) =
        [⟨c, .compute, 0⟩] ++ [⟨c, .gather, f⟩] ++ [⟨c, .reset, 0⟩] := rfl
    rw [this, List.filter_append, List.filter_append, he, he, he]
    unfold Table.gather Table.reset
    simp only [List.filter_append, hc, hu]
    cases c <;> simp
  have hi : vt.initialize.filter (fun e => decide (e.comp = c)) =
      ([⟨c, .init, 0⟩] : List Ev).filter (fun e => decide (vt.Enabled c e.kind)) := by
    rw [he]
    unfold Table.initialize
    simp only [List.filter_append, hc, hu]
    cases c <;> simp
  have hf : vt.finalize.filter (fun e => decide (e.comp = c)) =
      ([⟨c, .finalize, 0⟩] : List Ev).filter (fun e => decide (vt.Enabled c e.kind)) := by
    rw [he]
    unfold Table.finalize
    simp only [List.filter_append, hc, hu]
    cases c <;> simp
  unfold Table.run
  rw [List.filter_append, List.filter_append, List.filter_append, List.filter_append, hi, hf]
  congr 2
  induction flags with
  | nil => rfl
  | cons f flags ih =>
    rw [List.flatMap_cons, List.flatMap_cons, List.filter_append, List.filter_append, hg, ih]

/-- C101: nobody gathers before all have computed, and nobody resets before all have gathered. -/
theorem C101_phases (vt : Table) (f : ℤ) :
    ∃ l1 l2 l3, vt.gather f = l1 ++ l2 ++ l3 ∧ (∀ e ∈ l1, e.kind = .compute) ∧
      (∀ e ∈ l2, e.kind = .gather ∧ e.flag = f) ∧ ∀ e ∈ l3, e.kind = .reset := by
  have hc : ∀ c k g, ∀ e ∈ vt.call c k g, e.kind = k ∧ e.flag = g := by
    intro c k g e he
    unfold Table.call at he
    split at he
    · rw [List.mem_singleton.1 he]; exact ⟨rfl, rfl⟩
    · cases he
  have hu : ∀ k g, ∀ e ∈ vt.callUser k g, e.kind = k ∧ e.flag = g := by
    intro k g e he
    unfold Table.callUser at he
    split at he
    · rw [List.mem_singleton.1 he]; exact ⟨rfl, rfl⟩
    · cases he
  have all : ∀ k g, ∀ e ∈ vt.call .patch k g ++ vt.call .gauges k g ++ vt.call .rays k g ++ vt.call .solver k g ++
      vt.callUser k g, e.kind = k ∧ e.flag = g := by
    intro k g e he
    simp only [List.mem_append] at he
    rcases he with (((he | he) | he) | he) | he
    · exact hc _ _ _ e he
    · exact hc _ _ _ e he
    · exact hc _ _ _ e he
    · exact hc _ _ _ e he
    · exact hu _ _ e he
  exact ⟨_, _, vt.reset, rfl, fun e he => (all .compute 0 e he).1, fun e he => all .gather f e he,
    fun e he => (all .reset 0 e he).1⟩

/-- Gauges and the user's functions, which are asked for. -/
def exTable : Table := ⟨fun c _ => decide (c = .gauges ∨ c = .user), 1⟩

example : exTable.run [1, 0] =
    [⟨.gauges, .init, 0⟩, ⟨.user, .init, 0⟩,
     ⟨.gauges, .compute, 0⟩, ⟨.user, .compute, 0⟩, ⟨.gauges, .gather, 1⟩, ⟨.user, .gather, 1⟩, ⟨.gauges, .reset, 0⟩, ⟨.user, .reset, 0⟩,
     ⟨.gauges, .compute, 0⟩, ⟨.user, .compute, 0⟩, ⟨.gauges, .gather, 0⟩, ⟨.user, .gather, 0⟩, ⟨.gauges, .reset, 0⟩, ⟨.user, .reset, 0⟩,
     ⟨.gauges, .finalize, 0⟩, ⟨.user, .finalize, 0⟩] := by decide +kernel

/-! ### Rays -/

section
variable {Q U : Type}

/-- C101: every time that diagnostics are gathered, the report for rays has, for each ray that the user has defined and in this order, its number
and the sum of the contributions of all patches of all processes at this time, after a warning exactly if a process has marked the ray this
time. Earlier times have no influence, and no value is used before it is set. `P` processes; the callback reports no miss above a patch that
contributes. -/
theorem C101_rays (P : ℕ) (hP : 1 ≤ P) (defs : List (ℤ × U))
    (ws : List ((Q → Option Nat → U → Answer) × List (Forest Q)))
    (hw : ∀ w ∈ ws, w.2.length = P ∧ ∀ d ∈ defs, ∀ F ∈ w.2, Search.SoundStop (asIntersect w.1) d.2 F) :
    ∃ a, rayInit true (some defs) = some a ∧
      rayRun ws (List.replicate P a) = some (ws.map fun w => report w.1 w.2 defs) := by
  refine ⟨_, rfl, ?_⟩
  by_cases hd : defs = []
  · subst hd
    generalize hA : List.replicate P _ = as
    have h0 : ∀ a ∈ as, a.numRays = 0 := by
      intro a ha
      rw [← hA] at ha
      rw [List.eq_of_mem_replicate ha]
      rfl
    clear hA hw
    induction ws with
    | nil => rfl
    | cons w ws ih =>
      simp only [rayRun, cycle_empty w.1 w.2 as h0, List.map_cons]
      rw [ih]
      rfl
  · have key : ∀ as : List (Acc U), Ready defs as → as.length = P →
        rayRun ws as = some (ws.map fun w => report w.1 w.2 defs) := by
      induction ws with
      | nil => intro as _ _; rfl
      | cons w ws ih =>
        intro as h1 h2
        obtain ⟨w1, w2⟩ := hw w List.mem_cons_self
        have hW : w.2 ≠ [] := by
          intro h
          rw [h] at w1
          simp only [List.length_nil] at w1
          omega
        obtain ⟨bs, e, hb1, hb2⟩ := cycle_ready w.1 w.2 defs as h1 (h2.trans w1.symm) hW hd w2
        simp only [rayRun, e, List.map_cons]
        rw [ih (fun w' hw' => hw w' (List.mem_cons_of_mem _ hw')) bs hb1 (hb2.trans w1)]
        rfl
    refine key _ ?_ List.length_replicate
    intro a ha
    rw [List.eq_of_mem_replicate ha]
    refine ⟨rfl, _, rfl, ?_⟩
    unfold ids
    rw [List.map_map]
    have : ((fun r : Ray U => (r.num, r.data)) ∘ fun d : ℤ × U => (⟨d.1, d.2, none, false⟩ : Ray U)) = id := rfl
    rw [this, List.map_id]

/-- C101: without `output_rays` nothing is reported, and the user's functions for rays are not needed. -/
theorem C101_off (P : ℕ) (define : Option (List (ℤ × U))) (ws : List ((Q → Option Nat → U → Answer) × List (Forest Q))) :
    ∃ a, rayInit false define = some a ∧ rayRun ws (List.replicate P a) = some (ws.map fun _ => []) := by
  refine ⟨_, rfl, ?_⟩
  generalize hA : List.replicate P _ = as
  have h0 : ∀ a ∈ as, a.numRays = 0 := by
    intro a ha
    rw [← hA] at ha
    rw [List.eq_of_mem_replicate ha]
  clear hA
  induction ws with
  | nil => rfl
  | cons w ws ih =>
    simp only [rayRun, cycle_empty w.1 w.2 as h0, List.map_cons]
    rw [ih]
    rfl

theorem marked_leaves (cb : Q → Option Nat → U → Answer) (u : U) : ∀ F : Forest Q, MarksLeaves cb u F →
    ((∃ v ∈ reached (fun q => (cb q none u).hit) F, (cb v.1 v.2 u).mark = true) ↔
      ∃ l ∈ F.leaves, (cb l.1 (some l.2) u).mark = true)
  | .nil, _ => by simp [reached, Search.Forest.leaves]
  | .leaf q n rest, h => by
    have ih := marked_leaves cb u rest h
    simp only [reached, Search.Forest.leaves, List.mem_cons, exists_eq_or_imp]
    rw [ih]
  | .node q kids rest, h => by
    obtain ⟨h1, h2, h3, h4⟩ := h
    have ik := marked_leaves cb u kids h3
    have ir := marked_leaves cb u rest h4
    simp only [reached, Search.Forest.leaves, List.mem_cons, exists_eq_or_imp, List.mem_append, or_and_right, exists_or]
    have hq : ¬ ∃ x : Q × Option Nat, x = (q, none) ∧ (cb x.1 x.2 u).mark = true := by
      rintro ⟨x, rfl, hx⟩
      rw [h1] at hx
      cases hx
    rw [ir]
    by_cases hh : (cb q none u).hit = true
    · rw [if_pos hh, ik]
      exact ⟨fun h => h.resolve_left hq, Or.inr⟩
    · rw [if_neg hh]
      have hn := h2 (by simpa using hh)
      constructor
      · rintro (h | ⟨v, hv, _⟩ | h)
        · exact absurd h hq
        · cases hv
        · exact Or.inr h
      · rintro (⟨l, hl, hm⟩ | h)
        · rw [hn l hl] at hm; cases hm
        · exact Or.inr (Or.inr h)

/-- C101: the report does not depend on how the patches are distributed over processes, if the callback marks rays on patches only (not on
larger quadrants), reports no miss above a patch on which it contributes or marks, and does not look at the number of a patch. -/
theorem C101_distribution (cb : Q → Option Nat → U → Answer) (defs : List (ℤ × U)) (W W' : List (Forest Q))
    (hloc : ∀ q m n u, cb q (some m) u = cb q (some n) u)
    (hs : ∀ d ∈ defs, ∀ F ∈ W ++ W', Search.SoundStop (asIntersect cb) d.2 F ∧ MarksLeaves cb d.2 F)
    (hl : ((W.flatMap Forest.leaves).map Prod.fst).Perm ((W'.flatMap Forest.leaves).map Prod.fst)) :
    report cb W defs = report cb W' defs := by
  have htot : ∀ d ∈ defs, Search.totalIntegral (asIntersect cb) W d.2 = Search.totalIntegral (asIntersect cb) W' d.2 := by
    intro d hd
    have h := Search.C18_distribution (asIntersect cb) (fun q m n u => by unfold asIntersect; rw [hloc q m n u]) W W' [d.2] 0 d.2 rfl
      (fun F hF => (hs d hd F (List.mem_append_left _ hF)).1) (fun F hF => (hs d hd F (List.mem_append_right _ hF)).1) hl
    rwa [Search.C18_integrate_rays (asIntersect cb) W [d.2] 0 d.2 rfl (fun F hF => (hs d hd F (List.mem_append_left _ hF)).1),
      Search.C18_integrate_rays (asIntersect cb) W' [d.2] 0 d.2 rfl (fun F hF => (hs d hd F (List.mem_append_right _ hF)).1)] at h
  have hm1 : ∀ d ∈ defs, ∀ V : List (Forest Q), (∀ F ∈ V, MarksLeaves cb d.2 F) →
      (Marked cb V d.2 ↔ ∃ q ∈ (V.flatMap Forest.leaves).map Prod.fst, (cb q (some 0) d.2).mark = true) := by
    intro d hd V hV
    unfold Marked
    constructor
    · rintro ⟨F, hF, h⟩
      obtain ⟨l, hl', hm⟩ := (marked_leaves cb d.2 F (hV F hF)).1 h
      refine ⟨l.1, List.mem_map.2 ⟨l, List.mem_flatMap.2 ⟨F, hF, hl'⟩, rfl⟩, ?_⟩
      rw [hloc l.1 0 l.2]
      exact hm
    · rintro ⟨q, hq, hm⟩
      obtain ⟨l, hl', rfl⟩ := List.mem_map.1 hq
      obtain ⟨F, hF, hl''⟩ := List.mem_flatMap.1 hl'
      refine ⟨F, hF, (marked_leaves cb d.2 F (hV F hF)).2 ⟨l, hl'', ?_⟩⟩
      rw [hloc l.1 l.2 0]
      exact hm
  unfold report
  rw [List.flatMap_def, List.flatMap_def]
  congr 1
  refine List.map_congr_left ?_
  intro d hd
  rw [htot d hd]
  congr 1
  have e : Marked cb W d.2 ↔ Marked cb W' d.2 := by
    rw [hm1 d hd W (fun F hF => (hs d hd F (List.mem_append_left _ hF)).2),
      hm1 d hd W' (fun F hF => (hs d hd F (List.mem_append_right _ hF)).2)]
    constructor
    · rintro ⟨q, hq, h⟩; exact ⟨q, hl.mem_iff.1 hq, h⟩
    · rintro ⟨q, hq, h⟩; exact ⟨q, hl.mem_iff.2 hq, h⟩
  by_cases h : Marked cb W d.2
  · rw [if_pos h, if_pos (e.1 h)]
  · rw [if_neg h, if_neg (fun h' => h (e.2 h'))]

end

/-! ### Example: quadrants are numbers, a ray is a number that hits quadrants up to it and marks quadrant 3 -/

def exCb (q : ℕ) (n : Option Nat) (u : ℕ) : Answer :=
  ⟨decide (q ≤ u), if n.isSome ∧ q ≤ u then (q : ℚ) else 0, decide (n.isSome ∧ q = 3 ∧ q ≤ u)⟩

def exW : List (Forest ℕ) := [.node 1 (.leaf 2 0 (.leaf 3 1 .nil)) .nil, .leaf 4 0 .nil]
def exW' : List (Forest ℕ) := [.leaf 2 0 .nil, .node 1 (.leaf 3 0 (.leaf 4 1 .nil)) .nil]

theorem exSound (u : ℕ) (hu : 1 ≤ u) : ∀ F ∈ exW ++ exW', Search.SoundStop (asIntersect exCb) u F ∧ MarksLeaves exCb u F := by
  intro F hF
  simp only [exW, exW', List.cons_append, List.nil_append, List.mem_cons, List.not_mem_nil, or_false] at hF
  have h1 : ¬ (decide (1 ≤ u) = false) := by simp; omega
  rcases hF with rfl | rfl | rfl | rfl
  · exact ⟨⟨fun h => absurd h h1, trivial, trivial⟩, by simp [exCb], fun h => absurd h h1, trivial, trivial⟩
  · exact ⟨trivial, trivial⟩
  · exact ⟨trivial, trivial⟩
  · exact ⟨⟨fun h => absurd h h1, trivial, trivial⟩, by simp [exCb], fun h => absurd h h1, trivial, trivial⟩

example : ∀ w ∈ [(exCb, exW), (exCb, exW')], w.2.length = 2 ∧ ∀ d ∈ [((7 : ℤ), 5), (8, 2)], ∀ F ∈ w.2,
    Search.SoundStop (asIntersect w.1) d.2 F := by
  intro w hw
  simp only [List.mem_cons, List.not_mem_nil, or_false] at hw
  have hs : ∀ d ∈ [((7 : ℤ), 5), (8, 2)], ∀ F ∈ exW ++ exW', Search.SoundStop (asIntersect exCb) d.2 F := by
    intro d hd F hF
    simp only [List.mem_cons, List.not_mem_nil, or_false] at hd
    rcases hd with rfl | rfl
    · exact (exSound 5 (by omega) F hF).1
    · exact (exSound 2 (by omega) F hF).1
  rcases hw with rfl | rfl
  · exact ⟨rfl, fun d hd F hF => hs d hd F (List.mem_append_left _ hF)⟩
  · exact ⟨rfl, fun d hd F hF => hs d hd F (List.mem_append_right _ hF)⟩

/-- A ray that hits all patches and is marked, and one that hits the first patch. -/
example : (rayInit true (some [((7 : ℤ), 5), (8, 2)])).bind
    (fun a => rayRun [(exCb, exW), (exCb, exW')] (List.replicate 2 a)) =
    some [[.warning 7, .value 7 9, .value 8 2], [.warning 7, .value 7 9, .value 8 2]] := by decide +kernel

example : (∀ q m n u, exCb q (some m) u = exCb q (some n) u) ∧
    ((exW.flatMap Forest.leaves).map Prod.fst).Perm ((exW'.flatMap Forest.leaves).map Prod.fst) :=
  ⟨fun _ _ _ _ => rfl, List.Perm.refl _⟩

end Fclaw.Rays
