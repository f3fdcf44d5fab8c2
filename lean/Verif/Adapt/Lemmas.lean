import Verif.Adapt.Spec
import Mathlib.Logic.ExistsUnique
/- Helper lemmas for property C08. -/
set_option autoImplicit false
namespace Fclaw.Adapt
open Fclaw.Domain (Path)

variable {C : Nat}

theorem children_levels (q : Path C) : (children q).map List.length = List.replicate C (q.length + 1) := by
  unfold children
  rw [List.map_map]
  apply List.ext_getElem <;> simp

theorem children_length (q : Path C) : (children q).length = C := by simp [children]

/-- `wanted` with starting offsets. -/
def wantedFrom (i : Nat) : Nat → Nat → List (Event C) → List Call
  | _, _, [] => []
  | oj, nj, e :: es =>
    ⟨e.relation, i, oj, nj⟩ :: wantedFrom i (oj + e.old.length) (nj + e.new.length) es

theorem wantedFrom_getElem? (i : Nat) (es : List (Event C)) : ∀ (oj nj k : Nat),
    (wantedFrom i oj nj es)[k]? = es[k]?.map fun e =>
      ⟨e.relation, i, oj + (oldPatches (es.take k)).length, nj + (newPatches (es.take k)).length⟩ := by
  induction es with
  | nil => intro oj nj k; simp [wantedFrom]
  | cons e es ih =>
    intro oj nj k
    cases k with
    | zero => simp [wantedFrom, oldPatches, newPatches]
    | succ k =>
      simp only [wantedFrom, List.getElem?_cons_succ, ih, List.take_succ_cons]
      congr 1
      funext e'
      simp [oldPatches, newPatches, Nat.add_assoc]

theorem wanted_getElem? (i : Nat) (es : List (Event C)) (k : Nat) :
    (wanted i es)[k]? = es[k]?.map fun e =>
      ⟨e.relation, i, (oldPatches (es.take k)).length, (newPatches (es.take k)).length⟩ := by
  have h : wanted i es = es.zipIdx.map fun x =>
      ⟨x.1.relation, i, (oldPatches (es.take x.2)).length, (newPatches (es.take x.2)).length⟩ := by
    unfold wanted
    apply List.ext_getElem?
    intro k
    have : ∀ (m : Nat), m ≤ es.length →
      (List.range m).filterMap (fun k =>
        es[k]?.map fun e => (⟨e.relation, i, (oldPatches (es.take k)).length,
          (newPatches (es.take k)).length⟩ : Call))
      = (es.zipIdx.take m).map fun x =>
          ⟨x.1.relation, i, (oldPatches (es.take x.2)).length, (newPatches (es.take x.2)).length⟩ := by
      intro m
      induction m with
      | zero => intro _; rfl
      | succ m ih =>
        intro hm
        rw [List.range_succ, List.filterMap_append, ih (by omega), List.take_add_one, List.map_append]
        have : es[m]? = some es[m] := List.getElem?_eq_getElem (by omega)
        simp [List.getElem?_zipIdx, this]
    rw [this es.length (Nat.le_refl _), List.take_of_length_le (by simp)]
  rw [h]
  simp [List.getElem?_zipIdx, Option.map_map, Function.comp_def]

theorem wanted_eq (i : Nat) (es : List (Event C)) : wanted i es = wantedFrom i 0 0 es := by
  apply List.ext_getElem?
  intro k
  rw [wanted_getElem?, wantedFrom_getElem?]
  simp

theorem blockLoop_events (hC : 0 < C) (i : Nat) (es : List (Event C)) : ∀ (oj nj : Nat),
    blockLoop C i oj nj ((oldPatches es).map List.length) ((newPatches es).map List.length)
      = some (wantedFrom i oj nj es) := by
  induction es with
  | nil => intro oj nj; simp [oldPatches, newPatches, blockLoop, wantedFrom]
  | cons e es ih =>
    intro oj nj
    obtain ⟨C', rfl⟩ := Nat.exists_eq_succ_of_ne_zero (Nat.pos_iff_ne_zero.1 hC)
    simp only [oldPatches, newPatches, List.flatMap_cons, List.map_append] at ih ⊢
    cases e with
    | keep q =>
      simp only [Event.old, Event.new, List.map_cons, List.map_nil, List.singleton_append]
      rw [blockLoop.eq_4]
      simp [classify, ih, wantedFrom, Event.relation, Event.old, Event.new]
    | refine q =>
      simp only [Event.old, Event.new, List.map_cons, List.map_nil, List.singleton_append]
      rw [children_levels, List.replicate_succ, List.cons_append, blockLoop.eq_4]
      have h1 : ¬ (q.length + 1 < q.length + 1 ∨ q.length + 1 + 1 < q.length) := by omega
      rw [if_neg h1]
      have hc : classify (C' + 1) q.length (q.length + 1) = (.halfSize, 1, C' + 1) := by
        simp [classify]
      simp only [hc]
      rw [if_neg (by simp), dif_neg (by simp)]
      simp only [List.drop_succ_cons, List.drop_zero]
      rw [List.drop_append_of_le_length (by simp)]
      simp only [List.drop_replicate, Nat.sub_self, List.replicate_zero, List.nil_append]
      rw [ih]
      simp [wantedFrom, Event.relation, Event.old, Event.new, children_length]
    | coarsen p =>
      simp only [Event.old, Event.new, List.map_cons, List.map_nil, List.singleton_append]
      rw [children_levels, List.replicate_succ, List.cons_append, blockLoop.eq_4]
      have h1 : ¬ (p.length + 1 + 1 < p.length ∨ p.length + 1 < p.length + 1) := by omega
      rw [if_neg h1]
      have hc : classify (C' + 1) (p.length + 1) p.length = (.doubleSize, C' + 1, 1) := by
        simp [classify]
      simp only [hc]
      rw [if_neg (by simp), dif_neg (by simp)]
      simp only [List.drop_succ_cons, List.drop_zero]
      rw [List.drop_append_of_le_length (by simp)]
      simp only [List.drop_replicate, Nat.sub_self, List.replicate_zero, List.nil_append]
      rw [ih]
      simp [wantedFrom, Event.relation, Event.old, Event.new, children_length]

theorem blocksLoop_events (hC : 0 < C) (bes : List (List (Event C))) : ∀ (i : Nat),
    blocksLoop C i ((bes.map oldPatches).map fun qs => qs.map List.length)
      ((bes.map newPatches).map fun qs => qs.map List.length)
      = some ((bes.zipIdx i).flatMap fun x => wanted x.2 x.1) := by
  induction bes with
  | nil => intro i; rfl
  | cons es bes ih =>
    intro i
    simp only [List.map_cons, blocksLoop, blockLoop_events hC i es 0 0, ih (i + 1),
      List.zipIdx_cons, List.flatMap_cons, wanted_eq]

theorem flatMap_choose {α β : Type} {P : α → List β → Prop} (l : List α)
    (h : ∀ a ∈ l, ∃ bs, P a bs) : ∃ f : List (List β), f.length = l.length ∧
      ∀ (k : Nat) (a : α), l[k]? = some a → ∃ bs, f[k]? = some bs ∧ P a bs := by
  induction l with
  | nil => exact ⟨[], rfl, by simp⟩
  | cons a l ih =>
    obtain ⟨bs, hbs⟩ := h a (by simp)
    obtain ⟨f, hf, hp⟩ := ih (fun x hx => h x (by simp [hx]))
    refine ⟨bs :: f, by simp [hf], ?_⟩
    intro k x hx
    cases k with
    | zero => simp at hx; subst hx; exact ⟨bs, rfl, hbs⟩
    | succ k => exact hp k x (by simpa using hx)

theorem node_events (l : List (Fin C)) (g g' : Fin C → List (Path C))
    (h : ∀ k, ∃ es : List (Event C), g k = oldPatches es ∧ g' k = newPatches es) :
    ∃ es : List (Event C), l.flatMap g = oldPatches es ∧ l.flatMap g' = newPatches es := by
  induction l with
  | nil => exact ⟨[], rfl, rfl⟩
  | cons a l ih =>
    obtain ⟨e1, h1, h2⟩ := h a
    obtain ⟨e2, h3, h4⟩ := ih
    exact ⟨e1 ++ e2, by simp [h1, h3, oldPatches], by simp [h2, h4, newPatches]⟩

theorem adapts_events {t t' : Tree C} (h : Adapts t t') : ∀ q : Path C,
    ∃ es : List (Event C), t.leaves q = oldPatches es ∧ t'.leaves q = newPatches es := by
  induction h with
  | keep => intro q; exact ⟨[.keep q], by simp [Tree.leaves, oldPatches, Event.old],
      by simp [Tree.leaves, newPatches, Event.new]⟩
  | refine => intro q; exact ⟨[.refine q], by simp [Tree.leaves, oldPatches, Event.old],
      by simp [Tree.leaves, newPatches, Event.new, children, List.map_eq_flatMap]⟩
  | coarsen => intro q; exact ⟨[.coarsen q],
      by simp [Tree.leaves, oldPatches, Event.old, children, List.map_eq_flatMap],
      by simp [Tree.leaves, newPatches, Event.new]⟩
  | node kids kids' _ ih =>
    intro q
    exact node_events (List.finRange C) _ _ (fun k => ih k (q ++ [k]))


/-- In a concatenation of non-overlapping pieces every position belongs to one piece. -/
theorem cover_unique {α β : Type} (f : α → List β) (es : List α) (j : Nat)
    (hj : j < (es.flatMap f).length) :
    ∃! k, ∃ e, es[k]? = some e ∧ ((es.take k).flatMap f).length ≤ j ∧
      j < ((es.take k).flatMap f).length + (f e).length := by
  induction es generalizing j with
  | nil => simp at hj
  | cons a es ih =>
    simp only [List.flatMap_cons, List.length_append] at hj
    by_cases h : j < (f a).length
    · refine ⟨0, ⟨a, rfl, by simp, by simpa using h⟩, ?_⟩
      rintro k ⟨e, he, h1, h2⟩
      cases k with
      | zero => rfl
      | succ k => simp at h1; omega
    · obtain ⟨k, ⟨e, he, h1, h2⟩, hu⟩ := ih (j - (f a).length) (by omega)
      refine ⟨k + 1, ⟨e, by simpa using he, by
        simp only [List.take_succ_cons, List.flatMap_cons, List.length_append]; omega, by
        simp only [List.take_succ_cons, List.flatMap_cons, List.length_append]; omega⟩, ?_⟩
      rintro k' ⟨e', he', h1', h2'⟩
      cases k' with
      | zero => simp at he' h1' h2'; subst he'; omega
      | succ k' =>
        congr 1
        apply hu
        refine ⟨e', by simpa using he', ?_, ?_⟩
        · simp only [List.take_succ_cons, List.flatMap_cons, List.length_append] at h1'; omega
        · simp only [List.take_succ_cons, List.flatMap_cons, List.length_append] at h2'; omega

end Fclaw.Adapt
