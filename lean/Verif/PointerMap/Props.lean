import Verif.PointerMap.Lemmas
/-
Property C04: the pointer map is a last-writer-wins map which runs the destructor of every
inserted value exactly once.
-/
set_option linter.unusedSectionVars false
set_option linter.unusedSimpArgs false
set_option autoImplicit false
namespace Fclaw.PointerMap

variable {K P : Type} [DecidableEq K]

/-- `get` returns the pointer last inserted under the key, or NULL. -/
theorem C04_get_last (ops : List (Op K P)) (key : K) :
    get (run ops) key = lastInserted ops key := by
  rw [← (inv_run ops).lookupEq key, get]
  cases lookup (run ops).entries key <;> rfl

/-- Iteration visits each inserted key exactly once with its current pointer, whatever order
the hash table uses, and `size` is the number of visits. -/
theorem C04_iterate (ops : List (Op K P)) (order : List (K × Value P))
    (horder : order.Perm (run ops).entries) :
    ((iterate order).map (·.1)).Nodup ∧
    (∀ k p, (k, p) ∈ iterate order ↔ lastInserted ops k = some p) ∧
    size order = (iterate order).length := by
  have hi := inv_run ops
  have hkeys : ((iterate order).map (·.1)) = order.map (·.1) := by simp [iterate]
  refine ⟨?_, ?_, ?_⟩
  · rw [hkeys]; exact ((horder.map _).nodup_iff).2 hi.keysNodup
  · intro k p
    rw [← hi.lookupEq k]
    have hmem : (k, p) ∈ iterate order ↔ ∃ v, (k, v) ∈ (run ops).entries ∧ v.pointer = p := by
      simp only [iterate, List.mem_map, Prod.mk.injEq, Prod.exists]
      constructor
      · rintro ⟨a, b, h, rfl, rfl⟩; exact ⟨b, (horder.mem_iff).1 h, rfl⟩
      · rintro ⟨v, h, rfl⟩; exact ⟨k, v, (horder.mem_iff).2 h, rfl, rfl⟩
    rw [hmem]
    have hl : ∀ (es : List (K × Value P)), (es.map (·.1)).Nodup → ∀ v,
        ((k, v) ∈ es ↔ lookup es k = some v) := by
      intro es
      induction es with
      | nil => simp [lookup]
      | cons e es ih =>
        obtain ⟨k', w⟩ := e
        intro hn v
        simp only [List.map_cons, List.nodup_cons] at hn
        simp only [lookup, List.mem_cons, Prod.mk.injEq]
        by_cases h : k' = k
        · subst h
          simp only [true_and, ↓reduceIte, Option.some.injEq]
          constructor
          · rintro (h | h)
            · exact h.symm
            · exact absurd (List.mem_map_of_mem (f := (·.1)) h) hn.1
          · intro h; exact Or.inl h.symm
        · have : ¬ k = k' := fun h' => h h'.symm
          simp [h, this, ih hn.2]
    constructor
    · rintro ⟨v, hv, rfl⟩; rw [(hl _ hi.keysNodup v).1 hv]; rfl
    · intro h
      cases hv : lookup (run ops).entries k with
      | none => simp [hv] at h
      | some v => exact ⟨v, (hl _ hi.keysNodup v).2 hv, by simpa [hv] using h⟩
  · have : ∀ (l : List (K × Value P)) n, l.foldl (fun n _ => n + 1) n = n + l.length := by
      intro l
      induction l with
      | nil => simp
      | cons a l ih => intro n; simp [ih]; omega
    simp [size, iterate, this]

/-- When the map is destroyed, the destructor calls made during the whole life of the map are,
as a multiset, exactly one call per insert with a non-NULL destructor. -/
theorem C04_destroy_once (ops : List (Op K P)) (order : List (K × Value P))
    (horder : order.Perm (run ops).entries) :
    (destroy (run ops) order).Perm (owed ops) := by
  rw [destroy, foldl_calls]
  exact (List.Perm.append_left _ (horder.flatMap_right _)).trans (inv_run ops).ledger

/-- An insert under a key which already holds a pointer with a destructor calls this destructor
right then, and no other insert calls any destructor. -/
theorem C04_overwrite_destroys_now (ops : List (Op K P)) (o : Op K P) :
    (run (ops ++ [o])).log = (run ops).log ++
      (match ops.reverse.find? (fun p => decide (p.key = o.key)) with
       | some p => (p.destroy.map (fun f => (⟨f, p.pointer⟩ : Call P))).toList
       | none => []) := by
  have h := lookup_run ops o.key
  rw [run_snoc]
  unfold insert
  cases hf : ops.reverse.find? (fun p => decide (p.key = o.key)) with
  | none => simp [hf] at h; simp [h]
  | some p =>
    simp [hf] at h
    simp only [h, callOf]
    cases p.destroy <;> simp

/-- Non-vacuity: a history that overwrites a key; both destructors run. -/
example : destroy (run [⟨"a", 1, some 7⟩, ⟨"b", 2, none⟩, ⟨"a", 3, some 7⟩])
    [("b", ⟨2, none⟩), ("a", ⟨3, some 7⟩)] = [⟨7, 1⟩, ⟨7, 3⟩] := by decide

end Fclaw.PointerMap
