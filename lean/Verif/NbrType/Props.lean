/-
C51: the neighbour summaries of patches agree with their neighbours.
-/
import Verif.NbrType.Spec
import Mathlib.Data.List.Induction

set_option autoImplicit false
set_option linter.unusedSimpArgs false

namespace Fclaw.NbrType

/-! ### Lemmas -/

theorem look_fields (nt : Relation) (p : PatchData) :
    (look nt p).faceNeighbors = p.faceNeighbors ∧ (look nt p).edgeNeighbors = p.edgeNeighbors ∧
    (look nt p).cornerNeighbors = p.cornerNeighbors ∧ (look nt p).corners = p.corners ∧
    ((look nt p).hasFinegrid = true ↔ p.hasFinegrid = true ∨ nt = .halfsize) ∧
    ((look nt p).onCoarsefine = true ↔
      p.onCoarsefine = true ∨ nt = .halfsize ∨ nt = .doublesize) := by
  unfold look
  cases nt <;> simp

/-- A loop over neighbours. -/
theorem fold_look (cond : PatchData → Nat → Bool) (typ : PatchData → Nat → Relation)
    (hc : ∀ nt p, cond (look nt p) = cond p) (ht : ∀ nt p, typ (look nt p) = typ p)
    (l : List Nat) : ∀ p : PatchData,
    let p' := l.foldl (fun p k => if cond p k then look (typ p k) p else p) p
    p'.faceNeighbors = p.faceNeighbors ∧ p'.edgeNeighbors = p.edgeNeighbors ∧
    p'.cornerNeighbors = p.cornerNeighbors ∧ p'.corners = p.corners ∧
    (p'.hasFinegrid = true ↔ p.hasFinegrid = true ∨
      ∃ k ∈ l, cond p k = true ∧ typ p k = .halfsize) ∧
    (p'.onCoarsefine = true ↔ p.onCoarsefine = true ∨
      ∃ k ∈ l, cond p k = true ∧ (typ p k = .halfsize ∨ typ p k = .doublesize)) := by
  induction l with
  | nil => intro p; simp
  | cons a l ih =>
    intro p
    dsimp only [List.foldl_cons]
    by_cases ha : cond p a = true
    · rw [if_pos ha]
      have h := ih (look (typ p a) p)
      obtain ⟨l1, l2, l3, l4, l5, l6⟩ := look_fields (typ p a) p
      dsimp only at h
      obtain ⟨h1, h2, h3, h4, h5, h6⟩ := h
      refine ⟨h1.trans l1, h2.trans l2, h3.trans l3, h4.trans l4, ?_, ?_⟩
      · rw [h5, l5, hc, ht]
        simp only [List.mem_cons, exists_eq_or_imp, ha, true_and, or_assoc]
      · rw [h6, l6, hc, ht]
        simp only [List.mem_cons, exists_eq_or_imp, ha, true_and, or_assoc]
    · rw [if_neg ha]
      have h := ih p
      dsimp only at h
      obtain ⟨h1, h2, h3, h4, h5, h6⟩ := h
      refine ⟨h1, h2, h3, h4, ?_, ?_⟩
      · rw [h5]
        simp only [List.mem_cons, exists_eq_or_imp, ha, false_and, false_or, Bool.false_eq_true]
      · rw [h6]
        simp only [List.mem_cons, exists_eq_or_imp, ha, false_and, false_or, Bool.false_eq_true]

theorem look_rel (sh : Shape) (debug : Bool) (p : PatchData) (h : p.neighborsSet = false) :
    ∃ p', neighborsSet sh debug p = some p' ∧ p'.neighborsSet = true ∧
      p'.faceNeighbors = p.faceNeighbors ∧ p'.edgeNeighbors = p.edgeNeighbors ∧
      p'.cornerNeighbors = p.cornerNeighbors ∧ p'.corners = p.corners ∧
      (p'.hasFinegrid = true ↔ SomeNeighbor sh p (· = .halfsize)) ∧
      (p'.onCoarsefine = true ↔
        SomeNeighbor sh p fun t => t = .halfsize ∨ t = .doublesize) := by
  unfold neighborsSet
  rw [if_neg (by rw [h]; simp)]
  refine ⟨_, rfl, rfl, ?_⟩
  dsimp only
  generalize hp0 : ({ p with hasFinegrid := false, onCoarsefine := false } : PatchData) = p0
  have e1 := fold_look (fun _ _ => true) (fun p k => p.faceNeighbors k) (fun _ _ => rfl)
    (fun nt p => (look_fields nt p).1) (List.range sh.faces) p0
  simp only [if_true, true_and] at e1
  generalize hp1 : (List.range sh.faces).foldl (fun p k => look (p.faceNeighbors k) p) p0 = p1
    at e1 ⊢
  have e2 := fold_look (fun _ _ => true) (fun p k => p.edgeNeighbors k) (fun _ _ => rfl)
    (fun nt p => (look_fields nt p).2.1) (List.range sh.edges) p1
  simp only [if_true, true_and] at e2
  generalize hp2 : (List.range sh.edges).foldl (fun p k => look (p.edgeNeighbors k) p) p1 = p2
    at e2 ⊢
  have e3 := fold_look (fun p k => p.corners k) (fun p k => p.cornerNeighbors k)
    (fun nt p => (look_fields nt p).2.2.2.1) (fun nt p => (look_fields nt p).2.2.1)
    (List.range sh.corners) p2
  dsimp only at e3
  generalize hp3 : (List.range sh.corners).foldl
    (fun p k => if p.corners k then look (p.cornerNeighbors k) p else p) p2 = p3 at e3 ⊢
  obtain ⟨a1, a2, a3, a4, a5, a6⟩ := e1
  obtain ⟨b1, b2, b3, b4, b5, b6⟩ := e2
  obtain ⟨c1, c2, c3, c4, c5, c6⟩ := e3
  have z1 : p0.faceNeighbors = p.faceNeighbors := by rw [← hp0]
  have z2 : p0.edgeNeighbors = p.edgeNeighbors := by rw [← hp0]
  have z3 : p0.cornerNeighbors = p.cornerNeighbors := by rw [← hp0]
  have z4 : p0.corners = p.corners := by rw [← hp0]
  have z5 : p0.hasFinegrid = false := by rw [← hp0]
  have z6 : p0.onCoarsefine = false := by rw [← hp0]
  refine ⟨by rw [c1, b1, a1, z1], by rw [c2, b2, a2, z2], by rw [c3, b3, a3, z3],
    by rw [c4, b4, a4, z4], ?_, ?_⟩
  · rw [c5, b5, a5, z5, b4, a4, z4, b3, a3, z3, a2, z2, z1]
    simp only [SomeNeighbor, List.mem_range, Bool.false_eq_true, false_or, or_assoc]
  · rw [c6, b6, a6, z6, b4, a4, z4, b3, a3, z3, a2, z2, z1]
    simp only [SomeNeighbor, List.mem_range, Bool.false_eq_true, false_or, or_assoc]

theorem range4 : List.range 4 = [0, 1, 2, 3] := rfl

theorem cb_agrees (debug : Bool) (m : MeshView) (p : PatchData) (h : p.neighborsSet = false) :
    ∃ p', cbSetNeighborTypes debug m p = some p' ∧ Agrees m p' := by
  unfold cbSetNeighborTypes
  dsimp only
  generalize hp1 : (List.range 4).foldl (fun p k => setFaceType p k (m.face k)) p = p1
  generalize hp2 : (List.range 4).foldl (fun p k =>
    if m.cornerExists k then setCornerType p k (m.cornerType k)
    else setMissingCorner (setCornerType p k (m.cornerType k)) k) p1 = p2
  have f1 : ∀ k, k < 4 → p1.faceNeighbors k = m.face k := by
    intro k hk
    rw [← hp1]
    rcases (by omega : k = 0 ∨ k = 1 ∨ k = 2 ∨ k = 3) with rfl | rfl | rfl | rfl <;>
      simp [range4, setFaceType]
  have n1 : p1.neighborsSet = false := by
    rw [← hp1]; simpa [range4, setFaceType] using h
  have n2 : p2.neighborsSet = false ∧ p2.faceNeighbors = p1.faceNeighbors := by
    rw [← hp2]
    simp only [range4, List.foldl_cons, List.foldl_nil]
    have key : ∀ (p : PatchData) (k : Nat), p.neighborsSet = false →
        p.faceNeighbors = p1.faceNeighbors →
        (if m.cornerExists k then setCornerType p k (m.cornerType k)
          else setMissingCorner (setCornerType p k (m.cornerType k)) k).neighborsSet = false ∧
        (if m.cornerExists k then setCornerType p k (m.cornerType k)
          else setMissingCorner (setCornerType p k (m.cornerType k)) k).faceNeighbors
            = p1.faceNeighbors := by
      intro p k h1 h2
      split <;> exact ⟨h1, h2⟩
    have k0 := key p1 0 n1 rfl
    have k1 := key _ 1 k0.1 k0.2
    have k2 := key _ 2 k1.1 k1.2
    exact key _ 3 k2.1 k2.2
  have c2 : ∀ k, k < 4 → p2.corners k = m.cornerExists k ∧
      p2.cornerNeighbors k = m.cornerType k := by
    intro k hk
    rw [← hp2]
    simp only [range4, List.foldl_cons, List.foldl_nil]
    cases h0 : m.cornerExists 0 <;> cases h1 : m.cornerExists 1 <;>
      cases h2 : m.cornerExists 2 <;> cases h3 : m.cornerExists 3 <;>
      rcases (by omega : k = 0 ∨ k = 1 ∨ k = 2 ∨ k = 3) with rfl | rfl | rfl | rfl <;>
      simp [setCornerType, setMissingCorner, h0, h1, h2, h3]
  obtain ⟨p', e, h1, h2, h3, h4, h5, h6, h7⟩ :=
    look_rel { faces := 4, edges := 0, corners := 4 } debug p2 n2.1
  refine ⟨p', e, ?_⟩
  have hs : ∀ R : Relation → Prop,
      SomeNeighbor { faces := 4, edges := 0, corners := 4 } p2 R ↔ m.Some R := by
    intro R
    unfold SomeNeighbor MeshView.Some
    constructor
    · rintro (⟨k, hk, h⟩ | ⟨k, hk, _⟩ | ⟨k, hk, hc, h⟩)
      · exact Or.inl ⟨k, hk, by rw [← f1 k hk, ← n2.2]; exact h⟩
      · exact absurd hk (Nat.not_lt_zero k)
      · exact Or.inr ⟨k, hk, by rw [← (c2 k hk).1]; exact hc, by rw [← (c2 k hk).2]; exact h⟩
    · rintro (⟨k, hk, h⟩ | ⟨k, hk, hc, h⟩)
      · exact Or.inl ⟨k, hk, by rw [n2.2, f1 k hk]; exact h⟩
      · exact Or.inr (Or.inr ⟨k, hk, by rw [(c2 k hk).1]; exact hc,
          by rw [(c2 k hk).2]; exact h⟩)
  exact
    { set := h1
      face := fun k hk => by rw [h2, n2.2, f1 k hk]
      corner := fun k hk => by rw [h5, (c2 k hk).1]
      cornerType := fun k hk _ => by rw [h4, (c2 k hk).2]
      finer := by rw [h6, hs]
      coarsefine := by rw [h7, hs] }

theorem setNeighborTypes_agrees (debug : Bool) (views : Nat → MeshView) :
    ∀ (ps : List PatchData) (i : Nat), (∀ p ∈ ps, p.neighborsSet = false) →
      ∃ ps', setNeighborTypes debug views i ps = some ps' ∧ ps'.length = ps.length ∧
        ∀ k p, ps'[k]? = some p → Agrees (views (i + k)) p
  | [], i, _ => ⟨[], rfl, rfl, by simp⟩
  | p :: ps, i, h => by
    obtain ⟨p', e, ha⟩ := cb_agrees debug (views i) p (h p (by simp))
    obtain ⟨ps', es, hl, hk⟩ := setNeighborTypes_agrees debug views ps (i + 1)
      (fun x hx => h x (List.mem_cons_of_mem _ hx))
    refine ⟨p' :: ps', by simp only [setNeighborTypes, e, es], by simp [hl], ?_⟩
    intro k x hx
    cases k with
    | zero =>
      simp only [List.getElem?_cons_zero, Option.some.injEq] at hx
      rw [← hx]; exact ha
    | succ k =>
      rw [List.getElem?_cons_succ] at hx
      have := hk k x hx
      rwa [show i + 1 + k = i + (k + 1) by omega] at this

theorem repopulate_unset : ∀ (cs : List Change) (ps : List PatchData),
    ∀ p ∈ repopulate cs ps, p.neighborsSet = false
  | [], _, p, h => by simp [repopulate] at h
  | .same :: cs, [], p, h => by simp [repopulate] at h
  | .same :: cs, x :: ps, p, h => by
    rw [repopulate, List.mem_cons] at h
    rcases h with rfl | h
    · rfl
    · exact repopulate_unset cs ps p h
  | .refined mem :: cs, [], p, h => by simp [repopulate] at h
  | .refined mem :: cs, x :: ps, p, h => by
    rw [repopulate, List.cons_append, List.mem_cons, List.mem_append, List.mem_map] at h
    rcases h with rfl | ⟨i, _, rfl⟩ | h
    · rfl
    · rfl
    · exact repopulate_unset cs ps p h
  | .coarsened mem :: cs, ps, p, h => by
    rw [repopulate, List.mem_cons] at h
    rcases h with rfl | h
    · rfl
    · exact repopulate_unset cs _ p h

theorem repartition_unset (ps : List PatchData) (hps : ∀ p ∈ ps, p.neighborsSet = false) :
    ∀ os : List Origin, (∀ o ∈ os, ∀ i, o = .kept i → i < ps.length) →
      ∃ qs, repartition ps os = some qs ∧ qs.length = os.length ∧
        ∀ p ∈ qs, p.neighborsSet = false
  | [], _ => ⟨[], rfl, rfl, by simp⟩
  | .kept i :: os, h => by
    obtain ⟨qs, e, hl, hq⟩ := repartition_unset ps hps os
      (fun o ho => h o (List.mem_cons_of_mem _ ho))
    have hi := h (.kept i) (by simp) i rfl
    refine ⟨ps[i] :: qs, by simp only [repartition, List.getElem?_eq_getElem hi, e],
      by simp [hl], ?_⟩
    intro p hp
    rcases List.mem_cons.1 hp with rfl | hp
    · exact hps _ (List.getElem_mem hi)
    · exact hq p hp
  | .received mem :: os, h => by
    obtain ⟨qs, e, hl, hq⟩ := repartition_unset ps hps os
      (fun o ho => h o (List.mem_cons_of_mem _ ho))
    refine ⟨patchDataNew mem :: qs, by simp only [repartition, e, Option.map_some],
      by simp [hl], ?_⟩
    intro p hp
    rcases List.mem_cons.1 hp with rfl | hp
    · rfl
    · exact hq p hp

/-! ### C51 -/

/-- C51.  For every assignment of neighbour types and missing corners, in two
and three dimensions: a patch is flagged as having finer neighbours exactly if
a face, edge or existing corner neighbour is half-size, and as lying on a
coarse-fine interface exactly if one is half- or double-size. -/
theorem C51 (sh : Shape) (debug : Bool) (p : PatchData) (h : p.neighborsSet = false) :
    ∃ p', neighborsSet sh debug p = some p' ∧
      (p'.hasFinegrid = true ↔ SomeNeighbor sh p (· = .halfsize)) ∧
      (p'.onCoarsefine = true ↔
        SomeNeighbor sh p fun t => t = .halfsize ∨ t = .doublesize) := by
  obtain ⟨p', e, _, _, _, _, _, h6, h7⟩ := look_rel sh debug p h
  exact ⟨p', e, h6, h7⟩

def exData : PatchData :=
  { faceNeighbors := fun _ => .samesize, edgeNeighbors := fun _ => .samesize,
    cornerNeighbors := fun k => if k = 2 then .halfsize else .boundary,
    corners := fun k => decide (k = 1), onCoarsefine := true, hasFinegrid := true,
    neighborsSet := true }

example : (patchDataNew exData).neighborsSet = false ∧
    ¬ SomeNeighbor { faces := 4, edges := 0, corners := 4 } (patchDataNew exData)
      (· = .halfsize) := by
  refine ⟨rfl, ?_⟩
  rintro (⟨k, _, h⟩ | ⟨k, _, h⟩ | ⟨k, _, hc, h⟩)
  · cases h
  · cases h
  · have : k = 1 := of_decide_eq_true hc
    subst this
    cases h

/-- C51 for runs: after the start and after any number of regriddings with
adaptation and partition, whatever the memory of new records held, the
assertion that the neighbours of a patch are not yet set never fails, and the
record of every patch agrees with the current mesh. -/
theorem C51_run (debug : Bool) (mem : List PatchData) (views : Nat → MeshView)
    (rs : List Regrid) (hv : Valid debug mem views rs) :
    ∃ ps, history debug mem views rs = some ps ∧
      ∀ k p, ps[k]? = some p →
        Agrees ((rs.getLast?.map (·.views)).getD views k) p := by
  induction rs using List.reverseRecOn with
  | nil =>
    obtain ⟨ps, e, _, hk⟩ := setNeighborTypes_agrees debug views (mem.map patchDataNew) 0 (by
      intro p hp
      obtain ⟨_, _, rfl⟩ := List.mem_map.1 hp
      rfl)
    refine ⟨ps, e, fun k p hp => ?_⟩
    have := hk k p hp
    rwa [Nat.zero_add] at this
  | append_singleton rs r ih =>
    obtain ⟨ps, e, _⟩ := ih (fun pre r' hpre => hv pre r' (hpre.trans (List.prefix_append _ _)))
    have hvr := hv rs r (List.prefix_refl _) ps e
    obtain ⟨qs, eq, _, hq⟩ := repartition_unset _ (repopulate_unset r.changes ps) r.origins hvr
    obtain ⟨ps', es, _, hk⟩ := setNeighborTypes_agrees debug r.views qs 0 hq
    refine ⟨ps', ?_, fun k p hp => ?_⟩
    · unfold history at e ⊢
      rw [List.foldl_append, e]
      show doRegrid debug ps r = some ps'
      unfold doRegrid
      rw [eq]
      exact es
    · have := hk k p hp
      rw [Nat.zero_add] at this
      simpa using this

def exView : MeshView :=
  { face := fun k => if k = 0 then .doublesize else .samesize,
    cornerExists := fun k => decide (k ≠ 3), cornerType := fun _ => .boundary }

example : Valid true [exData, exData] (fun _ => exView)
    [{ changes := [.same, .refined fun _ => exData],
       origins := [.kept 0, .kept 4, .received exData], views := fun _ => exView }] := by
  intro pre r hpre ps hps
  obtain ⟨rest, hrest⟩ := hpre
  have hpre0 : pre = [] := by
    cases pre with
    | nil => rfl
    | cons a l =>
      have := congrArg List.length hrest
      simp at this
  subst hpre0
  obtain ⟨ps', e, hl, _⟩ := setNeighborTypes_agrees true (fun _ => exView)
    ([exData, exData].map patchDataNew) 0 (by
      intro p hp
      obtain ⟨_, _, rfl⟩ := List.mem_map.1 hp
      rfl)
  rw [show history true [exData, exData] (fun _ => exView) []
    = setNeighborTypes true (fun _ => exView) 0 ([exData, exData].map patchDataNew) from rfl,
    e] at hps
  obtain rfl := Option.some.inj hps
  simp only [List.nil_append, List.cons_append, List.cons.injEq] at hrest
  obtain ⟨rfl, _⟩ := hrest
  have h2 : ps'.length = 2 := hl
  obtain ⟨a, b, rfl⟩ : ∃ a b, ps' = [a, b] := by
    match ps', h2 with
    | [a, b], _ => exact ⟨a, b, rfl⟩
  intro o ho i hi
  simp only [List.mem_cons, List.not_mem_nil, or_false] at ho
  rcases ho with rfl | rfl | rfl
  · obtain rfl := Origin.kept.inj hi
    simp [repopulate, List.range_succ]
  · obtain rfl := Origin.kept.inj hi
    simp [repopulate, List.range_succ]
  · cases hi

end Fclaw.NbrType
