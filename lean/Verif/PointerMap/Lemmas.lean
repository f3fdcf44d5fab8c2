import Verif.PointerMap.Spec
/- Helper lemmas for property C04. -/
set_option linter.unusedSectionVars false
set_option linter.unusedSimpArgs false
set_option autoImplicit false
namespace Fclaw.PointerMap

variable {K P : Type} [DecidableEq K]

theorem lookup_append (es : List (K × Value P)) (k' key : K) (v : Value P) :
    lookup (es ++ [(k', v)]) key = (lookup es key).or (if k' = key then some v else none) := by
  induction es with
  | nil => simp [lookup]
  | cons e es ih => obtain ⟨k, w⟩ := e; simp only [List.cons_append, lookup]; split <;> simp_all

theorem lookup_overwrite (es : List (K × Value P)) (k' key : K) (v : Value P) :
    lookup (overwrite es k' v) key =
      if k' = key ∧ (lookup es key).isSome then some v else lookup es key := by
  induction es with
  | nil => simp [lookup, overwrite]
  | cons e es ih =>
    obtain ⟨k, w⟩ := e
    simp only [overwrite]
    by_cases h1 : k = k'
    · subst h1
      by_cases h2 : k = key <;> simp [lookup, h2]
    · by_cases h2 : k = key
      · subst h2
        have : ¬ (k' = k) := fun h => h1 h.symm
        simp [lookup, h1, this]
      · simp [lookup, h1, h2, ih]

theorem lookup_isSome_iff (es : List (K × Value P)) (key : K) :
    (lookup es key).isSome ↔ key ∈ es.map (·.1) := by
  induction es with
  | nil => simp [lookup]
  | cons e es ih =>
    obtain ⟨k, w⟩ := e
    simp only [lookup]
    by_cases h : k = key
    · simp [h]
    · have : ¬ key = k := fun h' => h h'.symm
      simp [h, this, ih]

theorem overwrite_keys (es : List (K × Value P)) (key : K) (v : Value P) :
    (overwrite es key v).map (·.1) = es.map (·.1) := by
  induction es with
  | nil => rfl
  | cons e es ih => obtain ⟨k, w⟩ := e; simp only [overwrite]; split <;> simp_all

/-- overwriting replaces exactly one value: the owed calls are exchanged. -/
theorem overwrite_calls (es : List (K × Value P)) (key : K) (v old : Value P)
    (h : lookup es key = some old) :
    ((overwrite es key v).flatMap (fun e => callOf e.2) ++ callOf old).Perm
      (es.flatMap (fun e => callOf e.2) ++ callOf v) := by
  induction es with
  | nil => simp [lookup] at h
  | cons e es ih =>
    obtain ⟨k, w⟩ := e
    simp only [lookup, overwrite] at h ⊢
    by_cases hk : k = key
    · simp only [hk, ↓reduceIte, Option.some.injEq] at h ⊢
      subst h
      simp only [List.flatMap_cons]
      -- v ++ rest ++ w ~ w ++ rest ++ v
      rw [List.append_assoc, List.append_assoc]
      refine (List.perm_append_comm).trans ?_
      rw [List.append_assoc]
      refine (List.perm_append_comm (l₁ := es.flatMap fun e => callOf e.2)).trans ?_
      rw [List.append_assoc]
      exact List.Perm.append_left _ List.perm_append_comm
    · simp only [hk, ↓reduceIte] at h ⊢
      simp only [List.flatMap_cons, List.append_assoc]
      exact List.Perm.append_left _ (ih h)

theorem foldl_calls (order : List (K × Value P)) (log : List (Call P)) :
    order.foldl (fun log e => log ++ callOf e.2) log = log ++ order.flatMap (fun e => callOf e.2) := by
  induction order generalizing log with
  | nil => simp
  | cons e es ih => simp [ih, List.append_assoc]

/-- The invariant of a history. -/
structure Inv (ops : List (Op K P)) (s : State K P) : Prop where
  keysNodup : (s.entries.map (·.1)).Nodup
  keysMem : ∀ k, k ∈ s.entries.map (·.1) ↔ ∃ o ∈ ops, o.key = k
  lookupEq : ∀ k, (lookup s.entries k).map (·.pointer) = lastInserted ops k
  ledger : (s.log ++ s.entries.flatMap (fun e => callOf e.2)).Perm (owed ops)

theorem lastInserted_snoc (ops : List (Op K P)) (o : Op K P) (k : K) :
    lastInserted (ops ++ [o]) k = if o.key = k then some o.pointer else lastInserted ops k := by
  simp only [lastInserted, List.reverse_append, List.reverse_cons, List.reverse_nil, List.nil_append,
    List.singleton_append, List.find?_cons, beq_iff_eq]
  by_cases h : o.key = k
  · simp [h]
  · have : decide (o.key = k) = false := by simpa using h
    simp [h, this]

theorem owed_snoc (ops : List (Op K P)) (o : Op K P) :
    owed (ops ++ [o]) = owed ops ++ callOf ⟨o.pointer, o.destroy⟩ := by
  simp only [owed, List.filterMap_append, List.append_cancel_left_eq]
  cases h : o.destroy <;> simp [callOf, h]

theorem inv_step (ops : List (Op K P)) (s : State K P) (o : Op K P) (hi : Inv ops s) :
    Inv (ops ++ [o]) (insert s o.key o.pointer o.destroy) := by
  unfold insert
  split
  · rename_i old hold
    have hmem : o.key ∈ s.entries.map (·.1) := by
      rw [← lookup_isSome_iff, hold]; rfl
    refine ⟨?_, ?_, ?_, ?_⟩
    · simpa only [overwrite_keys] using hi.keysNodup
    · intro k
      rw [overwrite_keys, hi.keysMem k]
      constructor
      · rintro ⟨x, hx, hk⟩; exact ⟨x, List.mem_append_left _ hx, hk⟩
      · rintro ⟨x, hx, hk⟩
        rcases List.mem_append.1 hx with hx | hx
        · exact ⟨x, hx, hk⟩
        · rw [List.mem_singleton.1 hx] at hk
          rw [← hi.keysMem k, ← hk]; exact hmem
    · intro k
      rw [lookup_overwrite, lastInserted_snoc]
      by_cases h : o.key = k
      · subst h; simp [hold]
      · simp [h, hi.lookupEq]
    · rw [owed_snoc]
      have h1 := overwrite_calls s.entries o.key ⟨o.pointer, o.destroy⟩ old hold
      have h2 := hi.ledger
      simp only
      rw [List.append_assoc]
      refine (List.Perm.append_left s.log (List.perm_append_comm.trans h1)).trans ?_
      rw [← List.append_assoc]
      exact h2.append_right _
  · rename_i hnone
    have hmem : o.key ∉ s.entries.map (·.1) := by
      rw [← lookup_isSome_iff, hnone]; simp
    refine ⟨?_, ?_, ?_, ?_⟩
    · simp only [List.map_append, List.map_cons, List.map_nil]
      rw [List.nodup_append]
      refine ⟨hi.keysNodup, by simp, ?_⟩
      intro a ha b hb hab
      simp only [List.mem_singleton] at hb
      subst hb; subst hab; exact hmem ha
    · intro k
      simp only [List.map_append, List.map_cons, List.map_nil, List.mem_append, List.mem_singleton]
      have := hi.keysMem k
      constructor
      · rintro (h | h)
        · obtain ⟨x, hx, hk⟩ := this.1 h; exact ⟨x, Or.inl hx, hk⟩
        · exact ⟨o, Or.inr rfl, h.symm⟩
      · rintro ⟨x, hx | hx, hk⟩
        · exact Or.inl (this.2 ⟨x, hx, hk⟩)
        · subst hx; exact Or.inr hk.symm
    · intro k
      simp only [lookup_append, lastInserted_snoc]
      by_cases h : o.key = k
      · subst h; simp [hnone]
      · simp [h, hi.lookupEq]
    · rw [owed_snoc]
      simp only [List.flatMap_append, List.flatMap_cons, List.flatMap_nil, List.append_nil]
      rw [← List.append_assoc]
      exact hi.ledger.append_right _

theorem inv_run (ops : List (Op K P)) : Inv ops (run ops) := by
  have key : ∀ (rest pre : List (Op K P)) (s : State K P), Inv pre s →
      Inv (pre ++ rest) (rest.foldl (fun s o => insert s o.key o.pointer o.destroy) s) := by
    intro rest
    induction rest with
    | nil => intro pre s h; simpa using h
    | cons o rest ih =>
      intro pre s h
      have := ih (pre ++ [o]) _ (inv_step pre s o h)
      simpa [List.append_assoc] using this
  have h0 : Inv ([] : List (Op K P)) new := ⟨by simp [new], by simp [new], by simp [new, lookup, lastInserted], by simp [new, owed]⟩
  simpa [run] using key ops [] new h0

theorem run_snoc (ops : List (Op K P)) (o : Op K P) :
    run (ops ++ [o]) = insert (run ops) o.key o.pointer o.destroy := by
  simp [run, List.foldl_append]

theorem lookup_insert (s : State K P) (key k : K) (p : P) (d : Destroy) :
    lookup (insert s key p d).entries k =
      if key = k then some ⟨p, d⟩ else lookup s.entries k := by
  unfold insert
  split
  · rename_i old hold
    simp only [lookup_overwrite]
    by_cases hk : key = k
    · subst hk; simp [hold]
    · simp [hk]
  · rename_i hnone
    simp only [lookup_append]
    by_cases hk : key = k
    · subst hk; simp [hnone]
    · simp [hk]

/-- the stored value is the whole last insert, not only its pointer -/
theorem lookup_run (ops : List (Op K P)) (k : K) : lookup (run ops).entries k =
    (ops.reverse.find? (fun p => decide (p.key = k))).map (fun p => ⟨p.pointer, p.destroy⟩) := by
  induction h : ops.reverse generalizing ops with
  | nil =>
    have : ops = [] := by simpa using h
    subst this; simp [run, new, lookup]
  | cons x xs ih =>
    have hops : ops = xs.reverse ++ [x] := by
      have := congrArg List.reverse h; simpa using this
    have hrec := ih xs.reverse (by simp)
    subst hops
    rw [run_snoc, lookup_insert, List.find?_cons]
    by_cases hk : x.key = k
    · simp [hk]
    · have : decide (x.key = k) = false := by simpa using hk
      simp [hk, this, hrec]

end Fclaw.PointerMap
