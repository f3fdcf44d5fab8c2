import Verif.Adapt.Lemmas
/-
Property C08: old/new patch matching after refinement and coarsening is exact.

`bes` lists, for every block, what happened to the local patches of the block, in order: `keep`,
`refine` (one patch replaced by its C children) or `coarsen` (C siblings replaced by the parent).
-/
set_option autoImplicit false
namespace Fclaw.Adapt
open Fclaw.Domain (Path)

variable {C : Nat}

/-- C08: the callbacks are exactly one per event, in order, with the right relation and indices;
no assertion fails. -/
theorem C08_callbacks (hC : 0 < C) (bes : List (List (Event C))) :
    iterateAdapted C (bes.map oldPatches) (bes.map newPatches)
      = some (bes.zipIdx.flatMap fun x => wanted x.2 x.1) :=
  blocksLoop_events hC bes 0

/-- C08: the indices given for an event are those of its patches: from `oldPatchno` on the old
block holds exactly the patches the event consumed, and likewise for the new block. -/
theorem C08_right_patches (i : Nat) (es : List (Event C)) (k : Nat) (e : Event C)
    (hk : es[k]? = some e) :
    ∃ c, (wanted i es)[k]? = some c ∧ c.blockno = i ∧ c.newsize = e.relation ∧
      ((oldPatches es).drop c.oldPatchno).take e.old.length = e.old ∧
      ((newPatches es).drop c.newPatchno).take e.new.length = e.new := by
  have hsplit : es = es.take k ++ e :: es.drop (k + 1) := by
    obtain ⟨h1, h2⟩ := List.getElem?_eq_some_iff.1 hk
    rw [← h2]; simp
  refine ⟨_, by rw [wanted_getElem?, hk]; rfl, rfl, rfl, ?_, ?_⟩
  · conv => lhs; rw [show oldPatches es = oldPatches (es.take k) ++ (e.old ++ oldPatches (es.drop (k + 1))) by
      conv => lhs; rw [hsplit]
      simp [oldPatches]]
    simp
  · conv => lhs; rw [show newPatches es = newPatches (es.take k) ++ (e.new ++ newPatches (es.drop (k + 1))) by
      conv => lhs; rw [hsplit]
      simp [newPatches]]
    simp

/-- C08: every old patch and every new patch of a block is covered by exactly one callback: patch
`j` of the old (new) block belongs to exactly one event position `k`. -/
theorem C08_covered_once (es : List (Event C)) (j : Nat) :
    (j < (oldPatches es).length → ∃! k, ∃ e, es[k]? = some e ∧
      (oldPatches (es.take k)).length ≤ j ∧ j < (oldPatches (es.take k)).length + e.old.length) ∧
    (j < (newPatches es).length → ∃! k, ∃ e, es[k]? = some e ∧
      (newPatches (es.take k)).length ≤ j ∧ j < (newPatches (es.take k)).length + e.new.length) := by
  constructor
  · exact cover_unique Event.old es j
  · exact cover_unique Event.new es j

/-- C08: one adaptation of a refinement tree (every leaf kept or split once, families of leaves
merged or not) is described by such an event list, so that the theorems above apply to it. -/
theorem C08_tree {t t' : Tree C} (h : Adapts t t') :
    ∃ es : List (Event C), t.leaves [] = oldPatches es ∧ t'.leaves [] = newPatches es :=
  adapts_events h []

/-- C08, whole forests on one process: for every forest of trees and every legal adaptation the
matching succeeds, with one callback per event. -/
theorem C08_forest (hC : 0 < C) (ts : List (Tree C × Tree C)) (h : ∀ p ∈ ts, Adapts p.1 p.2) :
    ∃ bes : List (List (Event C)),
      bes.map oldPatches = ts.map (fun p => p.1.leaves []) ∧
      bes.map newPatches = ts.map (fun p => p.2.leaves []) ∧
      iterateAdapted C (ts.map fun p => p.1.leaves []) (ts.map fun p => p.2.leaves [])
        = some (bes.zipIdx.flatMap fun x => wanted x.2 x.1) := by
  have : ∃ bes : List (List (Event C)),
      bes.map oldPatches = ts.map (fun p => p.1.leaves []) ∧
      bes.map newPatches = ts.map (fun p => p.2.leaves []) := by
    induction ts with
    | nil => exact ⟨[], rfl, rfl⟩
    | cons p ts ih =>
      obtain ⟨bes, h1, h2⟩ := ih (fun x hx => h x (by simp [hx]))
      obtain ⟨es, h3, h4⟩ := C08_tree (h p (by simp))
      exact ⟨es :: bes, by simp [h1, h3], by simp [h2, h4]⟩
  obtain ⟨bes, h1, h2⟩ := this
  exact ⟨bes, h1, h2, by rw [← h1, ← h2]; exact C08_callbacks hC bes⟩

/-! Non-vacuity: keep, refine, coarsen in one 2D block, and an empty second block. -/
def sampleEvents : List (Event 4) := [.keep [0], .refine [1], .coarsen [2], .keep [3]]

example : iterateAdapted 4 ([sampleEvents, []].map oldPatches) ([sampleEvents, []].map newPatches)
    = some [⟨.sameSize, 0, 0, 0⟩, ⟨.halfSize, 0, 1, 1⟩, ⟨.doubleSize, 0, 2, 5⟩, ⟨.sameSize, 0, 6, 6⟩] := by
  rw [C08_callbacks (by decide)]
  decide

example : Adapts (.node fun k : Fin 4 => if k = 2 then .node fun _ => .leaf else .leaf)
    (.node fun k : Fin 4 => if k = 1 then .node fun _ => .leaf else .leaf) := by
  apply Adapts.node
  intro k
  by_cases h1 : k = 2
  · subst h1; exact Adapts.coarsen
  · by_cases h2 : k = 1
    · subst h2; exact Adapts.refine
    · simp only [h1, h2, ↓reduceIte]; exact Adapts.keep

end Fclaw.Adapt
