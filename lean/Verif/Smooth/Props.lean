/-
C22: smooth refinement.
-/
import Verif.Smooth.Spec

set_option autoImplicit false
set_option linter.unusedSimpArgs false
set_option linter.unusedVariables false
namespace Fclaw.Smooth

theorem foldl_last (f : Bool → Int) : ∀ (l : List Bool) (a : Int),
    l.foldl (fun _ c => f c) a = match l.getLast? with | none => a | some c => f c
  | [], a => rfl
  | [c], a => rfl
  | c :: d :: l, a => by
    simp only [List.foldl_cons]
    rw [← List.foldl_cons (f := fun _ c => f c) (b := f c) (a := d) (l := l)]
    rw [foldl_last f (d :: l) (f c)]
    simp [List.getLast?_cons_cons]
    cases h : (d :: l).getLast? with
    | none => simp at h
    | some c => rfl

section
variable {G : Type} (qmax : Int) (W : List (Proc G)) (F : Forest G)

theorem target_eq (hD : Distributes W F) (r b i : Nat) (p : Patch G)
    (hp : localPatch W r b i = some p) :
    targetLevel qmax p.level p.calls = F.target qmax p.id := by
  have h1 := hD.level r b i p hp
  have h2 := hD.request r b i p hp
  unfold targetLevel Forest.target
  rw [foldl_last, ← h2, ← h1]
  unfold lastRequest
  cases p.calls.getLast? with
  | none => rfl
  | some c => cases c <;> rfl

theorem nbrLevels_eq (hD : Distributes W F) (r : Nat) (n : Nbr) (g : G)
    (hn : resolve W r n = some g) : nbrLevels qmax W r n = some (F.level g, F.target qmax g) := by
  unfold resolve at hn
  unfold nbrLevels
  split at hn
  · rename_i hne
    rw [if_pos hne]
    cases hP : W[r]? with
    | none => rw [hP] at hn; simp at hn
    | some P =>
      rw [hP] at hn
      simp only [Option.map_eq_some_iff] at hn
      obtain ⟨gh, h1, h2⟩ := hn
      simp only [h1]
      have hm := List.mem_of_getElem? h1
      have hPm := List.mem_of_getElem? hP
      obtain ⟨p, hp, hid⟩ := hD.ghostOwner P hPm gh hm
      unfold ghostTarget
      rw [hp]
      simp only [Option.map_some]
      rw [target_eq qmax W F hD _ _ _ p hp, hD.ghostLevel P hPm gh hm, hid, h2]
  · rename_i hne
    rw [if_neg hne]
    simp only [Option.map_eq_some_iff] at hn
    obtain ⟨p, h1, h2⟩ := hn
    rw [h1]
    simp only [Option.map_some]
    rw [target_eq qmax W F hD _ _ _ p h1, hD.level _ _ _ p h1, h2]

theorem maxWith_eq (hD : Distributes W F) (sl : Int) (r : Nat) (mx : Int) (n : Nbr) (g : G)
    (hn : resolve W r n = some g) : maxWith qmax W sl r mx n =
      some (if F.level g ≥ sl then max mx (F.target qmax g) else mx) := by
  unfold maxWith
  rw [nbrLevels_eq qmax W F hD r n g hn]
  rfl

/-- `mx'` is the maximum of `mx` and the targets of the neighbours in the list that count. -/
def MaxOver (sl mx : Int) (l : List G) (mx' : Int) : Prop :=
  mx ≤ mx' ∧ (∀ g ∈ l, sl ≤ F.level g → F.target qmax g ≤ mx') ∧
  (mx' = mx ∨ ∃ g ∈ l, sl ≤ F.level g ∧ F.target qmax g = mx')

theorem maxOver_one (sl mx : Int) (g : G) :
    MaxOver qmax F sl mx [g] (if F.level g ≥ sl then max mx (F.target qmax g) else mx) := by
  unfold MaxOver
  by_cases h : F.level g ≥ sl
  · rw [if_pos h]
    refine ⟨by omega, by simp; intro; omega, ?_⟩
    rcases Int.le_total (F.target qmax g) mx with h1 | h1
    · left; omega
    · right; exact ⟨g, by simp, h, by omega⟩
  · rw [if_neg h]
    refine ⟨by omega, by simp; intro; omega, Or.inl rfl⟩

theorem maxOver_trans (sl a b c : Int) (l m : List G) (h1 : MaxOver qmax F sl a l b)
    (h2 : MaxOver qmax F sl b m c) : MaxOver qmax F sl a (l ++ m) c := by
  obtain ⟨a1, a2, a3⟩ := h1
  obtain ⟨b1, b2, b3⟩ := h2
  refine ⟨by omega, ?_, ?_⟩
  · intro g hg hs
    rcases List.mem_append.mp hg with hg | hg
    · have := a2 g hg hs; omega
    · exact b2 g hg hs
  · rcases b3 with h | ⟨g, hg, hs, ht⟩
    · rcases a3 with h' | ⟨g, hg, hs, ht⟩
      · left; omega
      · right; exact ⟨g, by simp [hg], hs, by omega⟩
    · right; exact ⟨g, by simp [hg], hs, ht⟩

theorem foldM_max (hD : Distributes W F) (sl : Int) (r : Nat) : ∀ (ns : List Nbr) (gs : List G)
    (mx : Int), ns.map (resolve W r) = gs.map some →
    ∃ mx', ns.foldlM (maxWith qmax W sl r) mx = some mx' ∧ MaxOver qmax F sl mx gs mx'
  | [], gs, mx, h => by
    cases gs with
    | nil => exact ⟨mx, rfl, by simp [MaxOver]⟩
    | cons g gs => simp at h
  | n :: ns, gs, mx, h => by
    cases gs with
    | nil => simp at h
    | cons g gs =>
      simp only [List.map_cons, List.cons.injEq] at h
      rw [List.foldlM_cons, maxWith_eq qmax W F hD sl r mx n g h.1]
      obtain ⟨mx', h1, h2⟩ := foldM_max hD sl r ns gs
        (if F.level g ≥ sl then max mx (F.target qmax g) else mx) h.2
      exact ⟨mx', h1, maxOver_trans qmax F sl mx _ mx' [g] gs (maxOver_one qmax F sl mx g) h2⟩

/-- The loops compute the maximum, or stop with a value above the level that is attained. -/
def LoopResult (sl level mx : Int) (l : List G) (mx' : Int) : Prop :=
  mx ≤ mx' ∧ (mx' ≤ level → ∀ g ∈ l, sl ≤ F.level g → F.target qmax g ≤ mx') ∧
  (mx' = mx ∨ ∃ g ∈ l, sl ≤ F.level g ∧ F.target qmax g = mx')

theorem loop_step (sl level a b c : Int) (l m : List G) (h1 : MaxOver qmax F sl a l b)
    (h2 : LoopResult qmax F sl level b m c) : LoopResult qmax F sl level a (l ++ m) c := by
  obtain ⟨a1, a2, a3⟩ := h1
  obtain ⟨b1, b2, b3⟩ := h2
  refine ⟨by omega, ?_, ?_⟩
  · intro hc g hg hs
    rcases List.mem_append.mp hg with hg | hg
    · have := a2 g hg hs; omega
    · exact b2 hc g hg hs
  · rcases b3 with h | ⟨g, hg, hs, ht⟩
    · rcases a3 with h' | ⟨g, hg, hs, ht⟩
      · left; omega
      · right; exact ⟨g, by simp [hg], hs, by omega⟩
    · right; exact ⟨g, by simp [hg], hs, ht⟩

theorem split_map {α β : Type} (f : α → Option β) : ∀ (xs ys : List α) (gs : List β),
    (xs ++ ys).map f = gs.map some →
    ∃ g1 g2 : List β, gs = g1 ++ g2 ∧ xs.map f = g1.map some ∧ ys.map f = g2.map some
  | [], ys, gs, h => ⟨[], gs, rfl, rfl, h⟩
  | x :: xs, ys, gs, h => by
    cases gs with
    | nil => simp at h
    | cons g gs =>
      simp only [List.cons_append, List.map_cons, List.cons.injEq] at h
      obtain ⟨g1, g2, h1, h2, h3⟩ := split_map f xs ys gs h.2
      exact ⟨g :: g1, g2, by rw [h1]; rfl, by simp [h.1, h2], h3⟩

theorem faceLoop_eq (hD : Distributes W F) (sl level : Int) (r : Nat) : ∀ (as : List FaceAns)
    (gs : List G) (mx : Int), (as.flatMap FaceAns.nbrs).map (resolve W r) = gs.map some →
    ∃ mx', faceLoop qmax W sl level r as mx = some mx' ∧ LoopResult qmax F sl level mx gs mx'
  | [], gs, mx, h => by
    cases gs with
    | nil => exact ⟨mx, rfl, by simp [LoopResult]⟩
    | cons g gs => simp at h
  | a :: as, gs, mx, h => by
    rw [List.flatMap_cons] at h
    obtain ⟨g1, g2, hg, h1, h2⟩ := split_map _ _ _ _ h
    subst hg
    unfold faceLoop
    by_cases hle : mx ≤ level
    · rw [if_pos hle]
      have hm : ∃ mx', faceStep qmax W sl r mx a = some mx' ∧ MaxOver qmax F sl mx g1 mx' := by
        have hf := foldM_max qmax W F hD sl r a.nbrs g1 mx h1
        cases a with
        | same n => simpa [FaceAns.nbrs, faceStep] using hf
        | double n => simpa [FaceAns.nbrs, faceStep] using hf
        | half ns => simpa [FaceAns.nbrs, faceStep] using hf
        | boundary => simpa [FaceAns.nbrs, faceStep] using hf
      obtain ⟨m1, hm1, hm2⟩ := hm
      obtain ⟨m2, hm3, hm4⟩ := faceLoop_eq hD sl level r as g2 m1 h2
      refine ⟨m2, ?_, loop_step qmax F sl level mx m1 m2 g1 g2 hm2 hm4⟩
      simp only [hm1]
      exact hm3
    · rw [if_neg hle]
      exact ⟨mx, rfl, Int.le_refl _, fun h => absurd h hle, Or.inl rfl⟩

theorem cornerLoop_eq (hD : Distributes W F) (sl level : Int) (r : Nat) :
    ∀ (as : List (Option Nbr)) (gs : List G) (mx : Int),
    (as.filterMap id).map (resolve W r) = gs.map some →
    ∃ mx', cornerLoop qmax W sl level r as mx = some mx' ∧ LoopResult qmax F sl level mx gs mx'
  | [], gs, mx, h => by
    cases gs with
    | nil => exact ⟨mx, rfl, by simp [LoopResult]⟩
    | cons g gs => simp at h
  | a :: as, gs, mx, h => by
    unfold cornerLoop
    by_cases hle : mx ≤ level
    · rw [if_pos hle]
      cases a with
      | none =>
        simp only [List.filterMap_cons, id_eq] at h
        exact cornerLoop_eq hD sl level r as gs mx h
      | some n =>
        simp only [List.filterMap_cons, id_eq, List.map_cons] at h
        cases gs with
        | nil => simp at h
        | cons g gs =>
          simp only [List.map_cons, List.cons.injEq] at h
          simp only [maxWith_eq qmax W F hD sl r mx n g h.1]
          obtain ⟨m2, hm3, hm4⟩ := cornerLoop_eq hD sl level r as gs
            (if F.level g ≥ sl then max mx (F.target qmax g) else mx) h.2
          exact ⟨m2, hm3, loop_step qmax F sl level mx _ m2 [g] gs (maxOver_one qmax F sl mx g) hm4⟩
    · rw [if_neg hle]
      exact ⟨mx, rfl, Int.le_refl _, fun h => absurd h hle, Or.inl rfl⟩

/-- **C22.** For every distribution of the forest over processes, every patch is marked as the
requests for itself and for its face and corner neighbours demand. -/
theorem C22_smooth (hD : Distributes W F) (sl : Int) (r b i : Nat) (p : Patch G)
    (hp : localPatch W r b i = some p) :
    ∃ m, smoothMark qmax W sl r b i = some m ∧ F.IsMark qmax sl p.id m := by
  obtain ⟨P, hP⟩ : ∃ P, W[r]? = some P := by
    unfold localPatch at hp
    cases h : W[r]? with
    | none => rw [h] at hp; simp at hp
    | some P => exact ⟨P, rfl⟩
  unfold smoothMark
  rw [hP, hp]
  simp only
  rw [target_eq qmax W F hD r b i p hp]
  have hl := hD.level r b i p hp
  rw [hl]
  obtain ⟨m1, hm1, a1, a2, a3⟩ := faceLoop_eq qmax W F hD sl (F.level p.id) r (P.face b i)
    (F.faceNbrs p.id) (F.target qmax p.id) (hD.face r b i p P hP hp)
  obtain ⟨m2, hm2, b1, b2, b3⟩ := cornerLoop_eq qmax W F hD sl (F.level p.id) r (P.corner b i)
    (F.cornerNbrs p.id) m1 (hD.corner r b i p P hP hp)
  simp only [hm1, hm2]
  -- the final maximum is attained, and complete unless above the level
  have hatt : m2 = F.target qmax p.id ∨ ∃ g, (g ∈ F.faceNbrs p.id ∨ g ∈ F.cornerNbrs p.id) ∧
      sl ≤ F.level g ∧ F.target qmax g = m2 := by
    rcases b3 with h | ⟨g, hg, hs, ht⟩
    · rcases a3 with h' | ⟨g, hg, hs, ht⟩
      · left; omega
      · right; exact ⟨g, Or.inl hg, hs, by omega⟩
    · right; exact ⟨g, Or.inr hg, hs, ht⟩
  have hall : m2 ≤ F.level p.id → ∀ g, (g ∈ F.faceNbrs p.id ∨ g ∈ F.cornerNbrs p.id) →
      sl ≤ F.level g → F.target qmax g ≤ m2 := by
    intro hle g hg hs
    rcases hg with hg | hg
    · have := a2 (by omega) g hg hs; omega
    · exact b2 hle g hg hs
  have hself : F.target qmax p.id ≤ m2 := by omega
  unfold Forest.IsMark Forest.pushed
  by_cases h1 : m2 < F.level p.id
  · rw [if_pos h1]
    refine ⟨_, rfl, ?_, ?_⟩
    · simp only [reduceCtorEq, false_iff, not_or, not_exists, not_and]
      refine ⟨by omega, ?_⟩
      intro g hg hs
      have := hall (by omega) g hg hs
      omega
    · simp only [true_iff, not_exists, not_and]
      refine ⟨by omega, ?_⟩
      intro g hg hs
      have := hall (by omega) g hg hs
      omega
  · rw [if_neg h1]
    by_cases h2 : m2 > F.level p.id
    · rw [if_pos h2]
      refine ⟨_, rfl, ?_, ?_⟩
      · simp only [true_iff]
        rcases hatt with h | ⟨g, hg, hs, ht⟩
        · left; omega
        · right; exact ⟨g, hg, hs, by omega⟩
      · simp only [reduceCtorEq, false_iff, not_and]
        intro h3 h4
        rcases hatt with h | ⟨g, hg, hs, ht⟩
        · omega
        · exact h4 ⟨g, hg, hs, by omega⟩
    · rw [if_neg h2]
      refine ⟨_, rfl, ?_, ?_⟩
      · simp only [reduceCtorEq, false_iff, not_or, not_exists, not_and]
        refine ⟨by omega, ?_⟩
        intro g hg hs
        have := hall (by omega) g hg hs
        omega
      · simp only [reduceCtorEq, false_iff, not_and]
        intro h3 h4
        rcases hatt with h | ⟨g, hg, hs, ht⟩
        · omega
        · exact h4 ⟨g, hg, hs, by omega⟩
end

/-- **C22, independence.** Two distributions of the same forest, with any order of patches, give the
same patch the same mark. -/
theorem C22_independent {G : Type} (qmax : Int) (F : Forest G) (W W' : List (Proc G))
    (hD : Distributes W F) (hD' : Distributes W' F) (sl : Int) (r b i r' b' i' : Nat)
    (p p' : Patch G) (hp : localPatch W r b i = some p) (hp' : localPatch W' r' b' i' = some p')
    (hid : p.id = p'.id) :
    smoothMark qmax W sl r b i = smoothMark qmax W' sl r' b' i' := by
  obtain ⟨m, h1, h2⟩ := C22_smooth qmax W F hD sl r b i p hp
  obtain ⟨m', h1', h2'⟩ := C22_smooth qmax W' F hD' sl r' b' i' p' hp'
  rw [h1, h1']
  rw [hid] at h2
  have e1 : m = .refine ↔ m' = .refine := h2.1.trans h2'.1.symm
  have e2 : m = .coarsen ↔ m' = .coarsen := h2.2.trans h2'.2.symm
  cases m <;> cases m' <;> simp at e1 e2 ⊢

/-! ### Example: three patches in a row, the first two on process 0, the third on process 1 -/

/-- Patches 0, 1, 2 at level 3; patch 2 wants refinement, patches 0 and 1 coarsening. -/
def exF : Forest Nat :=
  ⟨fun _ => 3, fun g => if g = 2 then .refine else .coarsen,
   fun g => if g = 0 then [1] else if g = 1 then [0, 2] else [1], fun _ => []⟩

def exW : List (Proc Nat) :=
  [⟨[[⟨0, 3, [true, false]⟩, ⟨1, 3, [false]⟩]], [⟨2, 3, 1, 0, 0⟩],
    fun _ i => if i = 0 then [.boundary, .same ⟨0, 0, 1⟩] else [.same ⟨0, 0, 0⟩, .same ⟨1, 0, 0⟩],
    fun _ _ => [none]⟩,
   ⟨[[⟨2, 3, [true]⟩]], [⟨1, 3, 0, 0, 1⟩], fun _ _ => [.same ⟨0, 0, 0⟩, .boundary],
    fun _ _ => [none]⟩]

theorem ex_local (r b i : Nat) (p : Patch Nat) (h : localPatch exW r b i = some p) :
    (r = 0 ∧ b = 0 ∧ i = 0 ∧ p = ⟨0, 3, [true, false]⟩) ∨ (r = 0 ∧ b = 0 ∧ i = 1 ∧ p = ⟨1, 3, [false]⟩) ∨
    (r = 1 ∧ b = 0 ∧ i = 0 ∧ p = ⟨2, 3, [true]⟩) := by
  rcases r with _ | _ | r
  · rcases b with _ | b
    · rcases i with _ | _ | i <;> simp [localPatch, exW] at h <;> simp [h]
    · simp [localPatch, exW] at h
  · rcases b with _ | b
    · rcases i with _ | i <;> simp [localPatch, exW] at h <;> simp [h]
    · simp [localPatch, exW] at h
  · simp [localPatch, exW] at h

theorem exW_distributes : Distributes exW exF := by
  refine ⟨?_, ?_, ?_, ?_, ?_, ?_⟩
  · intro r b i p h
    rcases ex_local r b i p h with ⟨_, _, _, rfl⟩ | ⟨_, _, _, rfl⟩ | ⟨_, _, _, rfl⟩ <;> rfl
  · intro r b i p h
    rcases ex_local r b i p h with ⟨_, _, _, rfl⟩ | ⟨_, _, _, rfl⟩ | ⟨_, _, _, rfl⟩ <;> rfl
  · intro P hP g hg
    simp only [exW, List.mem_cons, List.not_mem_nil, or_false] at hP
    rcases hP with rfl | rfl <;> simp at hg <;> subst hg <;> rfl
  · intro P hP g hg
    simp only [exW, List.mem_cons, List.not_mem_nil, or_false] at hP
    rcases hP with rfl | rfl <;> simp at hg <;> subst hg <;> exact ⟨_, rfl, rfl⟩
  · intro r b i p P hP h
    rcases ex_local r b i p h with ⟨rfl, rfl, rfl, rfl⟩ | ⟨rfl, rfl, rfl, rfl⟩ | ⟨rfl, rfl, rfl, rfl⟩ <;>
      simp [exW] at hP <;> subst hP <;> rfl
  · intro r b i p P hP h
    rcases ex_local r b i p h with ⟨rfl, rfl, rfl, rfl⟩ | ⟨rfl, rfl, rfl, rfl⟩ | ⟨rfl, rfl, rfl, rfl⟩ <;>
      simp [exW] at hP <;> subst hP <;> rfl

example : smoothMark 29 exW 0 0 0 0 = some .coarsen := by decide
example : smoothMark 29 exW 0 0 0 1 = some .refine := by decide
/-- With a smoothing level above the neighbour's level, its wish does not count. -/
example : smoothMark 29 exW 4 0 0 1 = some .coarsen := by decide

end Fclaw.Smooth
