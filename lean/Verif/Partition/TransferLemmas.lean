import Verif.Partition.Lemmas
import Mathlib.Data.List.Nodup
/- Helper lemmas for property C10. -/
set_option autoImplicit false
namespace Fclaw.Partition

variable {U D : Type}

/-- The new local patches as (block, patch) pairs, in order. -/
def positions {α : Type} (g : List (List α)) (c d : Nat) : List (Nat × Nat) :=
  (List.range g.length).flatMap fun i =>
    (List.range (min d (blockStart g i + (g[i]?.getD []).length) - max c (blockStart g i))).map
      fun j => (i, j)

/-- The callback for a new patch. -/
def callAt {α : Type} (g : List (List α)) (a b c : Nat) (p : Nat × Nat) : TCall :=
  ⟨p.1, if a ≤ max c (blockStart g p.1) + p.2 ∧ max c (blockStart g p.1) + p.2 < b
    then some (max c (blockStart g p.1) + p.2 - max a (blockStart g p.1)) else none, p.2⟩

theorem wantedFrom_positions {α : Type} (g : List (List α)) (a b c d : Nat) :
    wantedFrom a b c d 0 0 g = (positions g c d).map (callAt g a b c) := by
  rw [wantedFrom_eq]
  unfold positions
  rw [List.map_flatMap]
  congr 1
  funext i
  simp only [Nat.zero_add, blockSpec, List.map_map]
  apply List.map_congr_left
  intro j _
  rfl

theorem positions_nodup {α : Type} (g : List (List α)) (c d : Nat) : (positions g c d).Nodup := by
  unfold positions
  rw [List.nodup_flatMap]
  constructor
  · intro i _
    exact List.Nodup.map (fun x y h => by simpa using h) List.nodup_range
  · apply List.nodup_range.imp_of_mem
    intro i j _ _ hij
    rw [Function.onFun, List.disjoint_left]
    rintro ⟨x, y⟩ h1 h2
    simp only [List.mem_map, Prod.mk.injEq, List.mem_range] at h1 h2
    obtain ⟨_, _, rfl, _⟩ := h1
    obtain ⟨_, _, rfl, _⟩ := h2
    exact hij rfl

theorem mem_positions {α : Type} (g : List (List α)) (c d : Nat) (p : Nat × Nat) :
    p ∈ positions g c d ↔ ∃ blk, g[p.1]? = some blk ∧
      p.2 < min d (blockStart g p.1 + blk.length) - max c (blockStart g p.1) := by
  unfold positions
  simp only [List.mem_flatMap, List.mem_range, List.mem_map]
  constructor
  · rintro ⟨i, hi, j, hj, rfl⟩
    refine ⟨g[i], List.getElem?_eq_getElem hi, ?_⟩
    rw [List.getElem?_eq_getElem hi] at hj
    exact hj
  · rintro ⟨blk, h1, h2⟩
    refine ⟨p.1, (List.getElem?_eq_some_iff.1 h1).1, p.2, ?_, rfl⟩
    rw [h1]; exact h2

/-- The effect of all callbacks, if no new and no old patch occurs twice. -/
theorem transfer_spec (unpack : D → U) (before : Nat → Nat) (buf : Nat → Option D)
    (F : Nat × Nat → TCall) (hF : ∀ p, (F p).blockno = p.1 ∧ (F p).newPatchno = p.2) :
    ∀ (P : List (Nat × Nat)) (s : TState U), P.Nodup →
    (∀ p ∈ P, ∀ p' ∈ P, ∀ o, p.1 = p'.1 → (F p).oldPatchno = some o → (F p').oldPatchno = some o →
      p = p') →
    (∀ p, (transferAll unpack before buf s (P.map F)).new p.1 p.2 =
      if p ∈ P then
        (match (F p).oldPatchno with
         | some o => s.old p.1 o
         | none => (buf (before p.1 + p.2)).map unpack)
      else s.new p.1 p.2) ∧
    (∀ i o, (transferAll unpack before buf s (P.map F)).old i o =
      if ∃ p ∈ P, p.1 = i ∧ (F p).oldPatchno = some o then none else s.old i o) ∧
    (transferAll unpack before buf s (P.map F)).newSet = s.newSet + P.length ∧
    (transferAll unpack before buf s (P.map F)).oldSet = s.oldSet ∧
    (transferAll unpack before buf s (P.map F)).oldDelete
      = s.oldDelete + (P.countP fun p => (F p).oldPatchno.isSome) := by
  intro P
  induction P with
  | nil => intro s _ _; simp [transferAll]
  | cons q P ih =>
    intro s hnd hinj
    rw [List.nodup_cons] at hnd
    have hstep := ih (transferOne unpack before buf s (F q)) hnd.2
      (fun p hp p' hp' => hinj p (by simp [hp]) p' (by simp [hp']))
    obtain ⟨h1, h2, h3, h4, h5⟩ := hstep
    have hall : ∀ s', transferAll unpack before buf s' ((q :: P).map F)
        = transferAll unpack before buf (transferOne unpack before buf s' (F q)) (P.map F) :=
      fun _ => rfl
    rw [hall]
    obtain ⟨hq1, hq2⟩ := hF q
    refine ⟨?_, ?_, ?_, ?_, ?_⟩
    · intro p
      rw [h1]
      by_cases hp : p ∈ P
      · simp only [hp, ↓reduceIte, List.mem_cons, or_true]
        have hne : p ≠ q := fun e => hnd.1 (e ▸ hp)
        split
        · rename_i o ho
          -- the old entry was not touched by the first callback
          cases hqo : (F q).oldPatchno with
          | none => simp [transferOne, hqo]
          | some o' =>
            simp only [transferOne, hqo, set2, hq1]
            rw [if_neg]
            rintro ⟨e1, e2⟩
            subst e2
            exact hne (hinj p (by simp [hp]) q (by simp) _ e1 ho hqo)
        · rfl
      · simp only [hp, ↓reduceIte, List.mem_cons, or_false]
        by_cases hpq : p = q
        · subst hpq
          simp only [↓reduceIte]
          cases hqo : (F p).oldPatchno with
          | none => simp [transferOne, hqo, set2, hq1, hq2]
          | some o' => simp [transferOne, hqo, set2, hq1, hq2]
        · simp only [hpq, ↓reduceIte]
          have hne : ¬ (p.1 = q.1 ∧ p.2 = q.2) := fun e => hpq (Prod.ext e.1 e.2)
          cases hqo : (F q).oldPatchno with
          | none => simp [transferOne, hqo, set2, hq1, hq2, hne]
          | some o' => simp [transferOne, hqo, set2, hq1, hq2, hne]
    · intro i o
      rw [h2]
      by_cases hex : ∃ p ∈ P, p.1 = i ∧ (F p).oldPatchno = some o
      · rw [if_pos hex, if_pos]
        obtain ⟨p, hp, hr⟩ := hex
        exact ⟨p, by simp [hp], hr⟩
      · rw [if_neg hex]
        cases hqo : (F q).oldPatchno with
        | none =>
          rw [if_neg]
          · simp [transferOne, hqo]
          · rintro ⟨p, hp, hr⟩
            rcases List.mem_cons.1 hp with rfl | hp
            · rw [hqo] at hr; simp at hr
            · exact hex ⟨p, hp, hr⟩
        | some o' =>
          simp only [transferOne, hqo, set2, hq1]
          by_cases hm : i = q.1 ∧ o = o'
          · rw [if_pos hm, if_pos]
            exact ⟨q, by simp, hm.1.symm, by rw [hqo, hm.2]⟩
          · rw [if_neg hm, if_neg]
            rintro ⟨p, hp, hr1, hr2⟩
            rcases List.mem_cons.1 hp with rfl | hp
            · rw [hqo] at hr2
              exact hm ⟨hr1.symm, by simpa using hr2.symm⟩
            · exact hex ⟨p, hp, hr1, hr2⟩
    · rw [h3]
      cases hqo : (F q).oldPatchno <;> simp [transferOne, hqo] <;> omega
    · rw [h4]
      cases hqo : (F q).oldPatchno <;> simp [transferOne, hqo]
    · rw [h5, List.countP_cons]
      cases hqo : (F q).oldPatchno <;> simp [transferOne, hqo] <;> omega

theorem callAt_inj {α : Type} (g : List (List α)) (a b c d : Nat) :
    ∀ p ∈ positions g c d, ∀ p' ∈ positions g c d, ∀ o, p.1 = p'.1 →
      (callAt g a b c p).oldPatchno = some o → (callAt g a b c p').oldPatchno = some o → p = p' := by
  intro p _ p' _ o h1 h2 h3
  unfold callAt at h2 h3
  simp only at h2 h3
  rw [h1] at h2
  split at h2
  · split at h3
    · have e : p.2 = p'.2 := by
        simp only [Option.some.injEq] at h2 h3
        omega
      exact Prod.ext h1 e
    · simp at h3
  · simp at h2

theorem infos_before {α : Type} (g : List (List α)) (c d : Nat) (hcd : c ≤ d) : ∀ (B i : Nat) (blk : List α),
    g[i]? = some blk →
    ((infos (min d B - min c B) (localPart c d B g))[i]?).map BlockInfo.before
      = some (min d (B + blockStart g i) - min c (B + blockStart g i)) := by
  induction g with
  | nil => intro B i blk h; simp at h
  | cons x g ih =>
    intro B i blk h
    cases i with
    | zero => simp [localPart, infos, blockStart]
    | succ i =>
      have := ih (B + x.length) i blk (by simpa using h)
      simp only [localPart, infos, List.getElem?_cons_succ, slice_length x c d B hcd]
      have e1 : min d B - min c B + (min d (B + x.length) - max c B)
        = min d (B + x.length) - min c (B + x.length) := by omega
      have e2 : B + x.length + blockStart g i = B + blockStart (x :: g) (i + 1) := by
        simp [blockStart]; omega
      rw [e1, this, e2]

theorem flatten_length {α : Type} (g : List (List α)) (i : Nat) (blk : List α) (h : g[i]? = some blk) :
    blockStart g i + blk.length ≤ g.flatten.length := by
  induction g generalizing i with
  | nil => simp at h
  | cons x g ih =>
    cases i with
    | zero => simp at h; subst h; simp [blockStart]
    | succ i =>
      have := ih i (by simpa using h)
      simp [blockStart] at this ⊢
      omega

theorem users_getElem {U : Type} (data : List (List U)) (a b i j : Nat) :
    users data a b i j =
      match data[i]? with
      | none => none
      | some blk =>
        if j < min b (blockStart data i + blk.length) - max a (blockStart data i)
        then data.flatten[max a (blockStart data i) + j]? else none := by
  unfold users
  cases hi : data[i]? with
  | none => rw [localPart_getElem? a b data 0 i, hi]; simp
  | some blk =>
    simp only
    by_cases hj : j < min b (blockStart data i + blk.length) - max a (blockStart data i)
    · rw [if_pos hj]; exact local_entry a b data i j blk hi hj
    · rw [if_neg hj, localPart_getElem? a b data 0 i, hi]
      simp only [Nat.zero_add, Option.map_some, Option.getD_some]
      apply List.getElem?_eq_none
      simp only [List.length_take]
      omega

theorem foldl_count {α : Type} (f : α → Bool) (l : List α) (n : Int) :
    l.foldl (fun n p => if f p then n + 1 else n) n = n + l.countP f := by
  induction l generalizing n with
  | nil => simp
  | cons a l ih =>
    simp only [List.foldl_cons, ih, List.countP_cons]
    split <;> simp <;> omega

end Fclaw.Partition
