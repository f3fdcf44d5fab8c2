/-
C17: every point is reported by exactly one process, or by none. C18: ray integrals are the sum
over all leaves.
-/
import Verif.Search.Lemmas

set_option autoImplicit false
set_option linter.unusedSimpArgs false
set_option linter.unusedVariables false
namespace Fclaw.Search

/-- Patch `p` of block `jb` of the process contains `x`. -/
def LocalHas {d : Nat} (M : Nat) (P : Proc d) (b p : Nat) (x : Fin d → ℚ) : Prop :=
  ∃ (qs : List (Quad d)) (q : Quad d), P.blocks[b]? = some qs ∧ qs[p]? = some q ∧ InBox M q x

theorem local_result {d : Nat} (M : Nat) (P : Proc d) (hP : P.Ok M) (offsets : List Nat)
    (hmono : (0 :: offsets).Pairwise (· ≤ ·)) (co : Nat → Fin d → ℚ) (jb ip b e : Nat)
    (hb : (0 :: offsets)[jb]? = some b) (he : offsets[jb]? = some e) (hip : b ≤ ip ∧ ip < e) :
    let w := searchPointsLocal M P offsets co ip;
    -1 ≤ w ∧ (w < 0 → ∀ p, ¬ LocalHas M P jb p (co ip)) ∧
    (∀ p, LocalHas M P jb p (co ip) → 0 ≤ w ∧ w ≤ p) ∧
    (0 ≤ w → LocalHas M P jb w.toNat (co ip)) := by
  have hmem : (jb, ip) ∈ makePoints offsets 0 0 :=
    (makePoints_mem offsets 0 0 jb ip hmono).mpr ⟨jb, by omega, e, he, hip.2, b, hb, hip.1⟩
  have hw : searchPointsLocal M P offsets co ip =
      P.allPatches.foldl (fun v l => if (decide (jb = l.1.tree) && quadContains M l.1 (co ip)) = true
        then minStep v ((l.2 : Int) - numPatchesBefore P jb) else v) (-1) := by
    unfold searchPointsLocal
    rw [searchPointFn_keyed]
    have := searchLocal_in Prod.snd (pointFn M P co) P.forest (makePoints offsets 0 0)
      (fun _ => -1) (jb, ip) (makePoints_keys offsets 0 0 hmono).1 hmem
    simp only at this
    rw [this, search1_leaves _ (fun q v => pointFn_none M P co (jb, ip) q v) _
      (pointFn_sound M P co (jb, ip) _ hP.nested), hP.leaves]
    congr 1
    funext v l
    rw [pointFn_some]
    simp only [Bool.and_eq_true, decide_eq_true_eq]
  have htest : ∀ l ∈ P.allPatches,
      (decide (jb = l.1.tree) && quadContains M l.1 (co ip)) = true →
      ∃ p : Nat, (l.2 : Int) - numPatchesBefore P jb = p ∧ LocalHas M P jb p (co ip) := by
    rintro ⟨q, n⟩ hl ht
    simp only [Bool.and_eq_true, decide_eq_true_eq] at ht
    obtain ⟨b', p, qs, h1, h2, h3⟩ := (mem_flatten_zipIdx P.blocks 0 q n).mp hl
    have htr := hP.trees b' qs h1 q (List.mem_of_getElem? h2)
    have hbb : b' = jb := by rw [← htr, ht.1]
    subst hbb
    refine ⟨p, ?_, qs, q, h1, h2, (inBox_iff M q _).mp ht.2⟩
    simp only [numPatchesBefore]
    omega
  have hconv : ∀ p, LocalHas M P jb p (co ip) → ∃ l ∈ P.allPatches,
      (decide (jb = l.1.tree) && quadContains M l.1 (co ip)) = true ∧
      (l.2 : Int) - numPatchesBefore P jb = p := by
    rintro p ⟨qs, q, h1, h2, h3⟩
    refine ⟨(q, numPatchesBefore P jb + p), (mem_flatten_zipIdx P.blocks 0 _ _).mpr
      ⟨jb, p, qs, h1, h2, by simp [numPatchesBefore]⟩, ?_, by push_cast; omega⟩
    simp only [Bool.and_eq_true, decide_eq_true_eq]
    exact ⟨(hP.trees jb qs h1 q (List.mem_of_getElem? h2)).symm, (inBox_iff M q _).mpr h3⟩
  have hf := fold_min (fun l : Quad d × Nat => decide (jb = l.1.tree) && quadContains M l.1 (co ip))
    (fun l => (l.2 : Int) - numPatchesBefore P jb) P.allPatches
    (by
      intro a ha ht
      obtain ⟨p, hp, _⟩ := htest a ha ht
      omega) (-1) (Int.le_refl _)
  simp only at hf
  rw [← hw] at hf
  obtain ⟨f1, f2, f3, f4, f5⟩ := hf
  refine ⟨f1, ?_, ?_, ?_⟩
  · intro hneg p hp
    obtain ⟨l, hl, ht, _⟩ := hconv p hp
    have := (f5 hneg).2 l hl
    rw [this] at ht
    simp at ht
  · intro p hp
    obtain ⟨l, hl, ht, hv⟩ := hconv p hp
    have h1 := f2 l hl ht
    refine ⟨?_, by omega⟩
    by_contra hneg
    have := (f5 (by omega)).2 l hl
    rw [this] at ht
    simp at ht
  · intro h0
    rcases f4 h0 with h | ⟨l, hl, ht, hv⟩
    · omega
    · obtain ⟨p, hp, hh⟩ := htest l hl ht
      rw [hv, hp]
      exact hh

/-- **C17.** Point `ip` is in the section of block `jb` of the points. Rank `r` reports patch `p`
for it exactly if `r` is the smallest rank that has a patch containing the point, and `p` is its
smallest such patch; otherwise it reports -1. -/
theorem C17_search_points {d : Nat} (M : Nat) (W : List (Proc d)) (hW : ∀ P ∈ W, P.Ok M)
    (offsets : List Nat) (hmono : (0 :: offsets).Pairwise (· ≤ ·)) (co : Nat → Fin d → ℚ)
    (jb ip b e : Nat) (hb : (0 :: offsets)[jb]? = some b) (he : offsets[jb]? = some e)
    (hip : b ≤ ip ∧ ip < e) (r : Nat) (hr : r < W.length) :
    (∀ p : Nat, searchPoints M W offsets co r ip = p ↔
      PatchHas M W r jb p (co ip) ∧ (∀ p', PatchHas M W r jb p' (co ip) → p ≤ p') ∧
      ∀ r' p', PatchHas M W r' jb p' (co ip) → r ≤ r') ∧
    (searchPoints M W offsets co r ip = -1 ∨ ∃ p : Nat, searchPoints M W offsets co r ip = p) := by
  have hres := fun (P : Proc d) (hP : P ∈ W) =>
    local_result M P (hW P hP) offsets hmono co jb ip b e hb he hip
  simp only at hres
  have hhas : ∀ (r' : Nat) (P : Proc d), W[r']? = some P → ∀ p,
      (PatchHas M W r' jb p (co ip) ↔ LocalHas M P jb p (co ip)) := by
    intro r' P hP p
    constructor
    · rintro ⟨P', qs, q, h0, h1, h2, h3⟩
      rw [hP] at h0
      cases h0
      exact ⟨qs, q, h1, h2, h3⟩
    · rintro ⟨qs, q, h1, h2, h3⟩
      exact ⟨P, qs, q, hP, h1, h2, h3⟩
  obtain ⟨P, hP⟩ : ∃ P, W[r]? = some P := ⟨W[r], List.getElem?_eq_getElem hr⟩
  have hPm : P ∈ W := List.mem_of_getElem? hP
  obtain ⟨l1, l2, l3, l4⟩ := hres P hPm
  -- the ranks contributed to the reduction
  let found := W.mapIdx fun rank P =>
    if searchPointsLocal M P offsets co ip < 0 then W.length else rank
  have hfound : ∀ (r' : Nat) (P' : Proc d), W[r']? = some P' → found[r']? =
      some (if searchPointsLocal M P' offsets co ip < 0 then W.length else r') := by
    intro r' P' h
    simp only [found, List.getElem?_mapIdx, h, Option.map_some]
  have hval : searchPoints M W offsets co r ip =
      if allreduceMin found ≠ r then -1 else searchPointsLocal M P offsets co ip := by
    unfold searchPoints
    simp only [hP]
    rfl
  have hne : found ≠ [] := by
    intro h
    have := hfound r P hP
    rw [h] at this
    simp at this
  -- the reduction returns r exactly if r has the point and no smaller rank has it
  have hmin : allreduceMin found = r ↔ (∃ p, LocalHas M P jb p (co ip)) ∧
      ∀ r' p', PatchHas M W r' jb p' (co ip) → r ≤ r' := by
    constructor
    · intro h
      have hle := fun (r' : Nat) (P' : Proc d) (hP' : W[r']? = some P') =>
        allreduceMin_le found _ (List.mem_of_getElem? (hfound r' P' hP'))
      constructor
      · by_contra hno
        have hm := allreduceMin_mem found hne
        rw [h] at hm
        obtain ⟨k, hk⟩ := List.mem_iff_getElem?.mp hm
        have hkl : k < W.length := by
          have := (List.getElem?_eq_some_iff.mp hk).1
          simpa [found] using this
        obtain ⟨P', hP'⟩ : ∃ P', W[k]? = some P' := ⟨W[k], List.getElem?_eq_getElem hkl⟩
        have h2 := hfound k P' hP'
        rw [hk] at h2
        simp only [Option.some.injEq] at h2
        split at h2
        · omega
        · rename_i hn
          subst h2
          rw [hP] at hP'
          cases hP'
          exact hno ⟨_, l4 (by omega)⟩
      · intro r' p' hp'
        obtain ⟨P', qs, q, h0, h1, h2, h3⟩ := hp'
        have hl' := hres P' (List.mem_of_getElem? h0)
        have := (hl'.2.2.1 p' ⟨qs, q, h1, h2, h3⟩).1
        have hle' := hle r' P' h0
        rw [h, if_neg (by omega)] at hle'
        exact hle'
    · rintro ⟨⟨p, hp⟩, hmin⟩
      have h0 := (l3 p hp).1
      apply Nat.le_antisymm
      · have := allreduceMin_le found _ (List.mem_of_getElem? (hfound r P hP))
        rw [if_neg (by omega)] at this
        exact this
      · have hm := allreduceMin_mem found hne
        obtain ⟨k, hk⟩ := List.mem_iff_getElem?.mp hm
        have hkl : k < W.length := by
          have := (List.getElem?_eq_some_iff.mp hk).1
          simpa [found] using this
        obtain ⟨P', hP'⟩ : ∃ P', W[k]? = some P' := ⟨W[k], List.getElem?_eq_getElem hkl⟩
        have h2 := hfound k P' hP'
        rw [hk] at h2
        simp only [Option.some.injEq] at h2
        rw [h2]
        split
        · omega
        · rename_i hn
          have hl' := hres P' (List.mem_of_getElem? hP')
          exact hmin k _ ((hhas k P' hP' _).mpr (hl'.2.2.2 (by omega)))
  rw [hval]
  constructor
  · intro p
    simp only [hhas r P hP]
    constructor
    · intro h
      split at h
      · omega
      · rename_i hm
        have hm' := hmin.mp (by simpa using hm)
        refine ⟨?_, ?_, hm'.2⟩
        · have := l4 (by omega)
          rw [h] at this
          simpa using this
        · intro p' hp'
          have := (l3 p' hp').2
          omega
    · rintro ⟨hp, hpm, hrm⟩
      rw [if_neg (by simpa using hmin.mpr ⟨⟨p, hp⟩, hrm⟩)]
      have h1 := l3 p hp
      have h2 := hpm _ (l4 h1.1)
      omega
  · split
    · exact Or.inl rfl
    · rcases Int.lt_or_le (searchPointsLocal M P offsets co ip) 0 with h | h
      · left; omega
      · right; exact ⟨(searchPointsLocal M P offsets co ip).toNat, by omega⟩

/-- **C17, existence.** A point contained in some patch of its block is reported by exactly one
process, with one patch that contains it; a point in no patch of its block is reported by none. -/
theorem C17_found_once {d : Nat} (M : Nat) (W : List (Proc d)) (hW : ∀ P ∈ W, P.Ok M)
    (offsets : List Nat) (hmono : (0 :: offsets).Pairwise (· ≤ ·)) (co : Nat → Fin d → ℚ)
    (jb ip b e : Nat) (hb : (0 :: offsets)[jb]? = some b) (he : offsets[jb]? = some e)
    (hip : b ≤ ip ∧ ip < e) :
    ((∃ r p, PatchHas M W r jb p (co ip)) →
      ∃ r p : Nat, r < W.length ∧ PatchHas M W r jb p (co ip) ∧
        searchPoints M W offsets co r ip = p ∧
        ∀ r', r' < W.length → r' ≠ r → searchPoints M W offsets co r' ip = -1) ∧
    ((¬ ∃ r p, PatchHas M W r jb p (co ip)) →
      ∀ r, r < W.length → searchPoints M W offsets co r ip = -1) := by
  have hC := fun r hr => C17_search_points M W hW offsets hmono co jb ip b e hb he hip r hr
  constructor
  · intro hex
    classical
    let r := Nat.find hex
    have hr : ∃ p, PatchHas M W r jb p (co ip) := Nat.find_spec hex
    let p := Nat.find hr
    have hp : PatchHas M W r jb p (co ip) := Nat.find_spec hr
    have hrl : r < W.length := by
      obtain ⟨P, qs, q, h0, _⟩ := hp
      exact (List.getElem?_eq_some_iff.mp h0).1
    have hrmin : ∀ r' p', PatchHas M W r' jb p' (co ip) → r ≤ r' :=
      fun r' p' h => Nat.find_min' hex ⟨p', h⟩
    refine ⟨r, p, hrl, hp, ((hC r hrl).1 p).mpr ⟨hp, fun p' h => Nat.find_min' hr h, hrmin⟩, ?_⟩
    intro r' hr' hne
    rcases (hC r' hr').2 with h | ⟨p', h⟩
    · exact h
    · obtain ⟨h1, _, h3⟩ := ((hC r' hr').1 p').mp h
      have := h3 r p hp
      have := hrmin r' p' h1
      omega
  · intro hno r hr
    rcases (hC r hr).2 with h | ⟨p, h⟩
    · exact h
    · exact absurd ⟨r, p, (((hC r hr).1 p).mp h).1⟩ hno

/-- **C18.** Whatever the forest is split into, every process gets for each ray the sum of the
contributions of all leaves, provided that the callback never reports a miss above a leaf that
contributes. -/
theorem C18_integrate_rays {Q R : Type} (intersect : Q → Option Nat → R → Bool × ℚ)
    (W : List (Forest Q)) (rays : List R) (i : Nat) (ray : R) (hi : rays[i]? = some ray)
    (hs : ∀ F ∈ W, SoundStop intersect ray F) :
    integrateRays intersect W rays i = totalIntegral intersect W ray := by
  unfold integrateRays totalIntegral
  induction W with
  | nil => simp
  | cons F W ih =>
    simp only [List.map_cons, List.sum_cons, List.flatMap_cons, List.map_append, List.sum_append]
    rw [ih (fun F' h => hs F' (by simp [h]))]
    congr 1
    rw [integrateRayFn_keyed]
    have hmem : (ray, i) ∈ rays.zipIdx := List.mk_mem_zipIdx_iff_getElem?.mpr hi
    have hnd : (rays.zipIdx.map Prod.snd).Nodup := by
      rw [List.zipIdx_map_snd]
      exact List.nodup_range'
    have := searchLocal_in Prod.snd (rayFn intersect) F rays.zipIdx (fun _ => 0) (ray, i) hnd hmem
    simp only at this
    rw [this, search1_leaves _ (fun q v => rfl) _ (rayFn_sound intersect ray i F (hs F (by simp)))]
    have h2 := foldl_add (fun l : Q × Nat => (intersect l.1 (some l.2) ray).2) F.leaves 0
    rw [zero_add] at h2
    rw [← h2]
    rfl

/-- The distribution does not matter: forests with the same leaves give the same integrals. -/
theorem C18_distribution {Q R : Type} (intersect : Q → Option Nat → R → Bool × ℚ)
    (hloc : ∀ q m n ray, intersect q (some m) ray = intersect q (some n) ray)
    (W W' : List (Forest Q)) (rays : List R) (i : Nat) (ray : R) (hi : rays[i]? = some ray)
    (hs : ∀ F ∈ W, SoundStop intersect ray F) (hs' : ∀ F ∈ W', SoundStop intersect ray F)
    (hl : ((W.flatMap Forest.leaves).map Prod.fst).Perm ((W'.flatMap Forest.leaves).map Prod.fst)) :
    integrateRays intersect W rays i = integrateRays intersect W' rays i := by
  rw [C18_integrate_rays intersect W rays i ray hi hs, C18_integrate_rays intersect W' rays i ray hi hs']
  unfold totalIntegral
  have hf : ∀ L : List (Q × Nat), L.map (fun l => (intersect l.1 (some l.2) ray).2) =
      (L.map Prod.fst).map (fun q => (intersect q (some 0) ray).2) := by
    intro L
    rw [List.map_map]
    apply List.map_congr_left
    intro l _
    simp only [Function.comp]
    rw [hloc l.1 l.2 0]
  rw [hf, hf]
  exact (hl.map _).sum_eq

/-! ### Example: one block of level 1 in 2D on two processes, with a point on the common face -/

def exQ (x y l : Nat) : Quad 2 := ⟨0, fun i => if i = 0 then x else y, l⟩
/-- Maximum level 2: the root has length 4, its children length 2. -/
def exW : List (Proc 2) :=
  [⟨[[exQ 0 0 1]], .leaf (exQ 0 0 1) 0 .nil⟩,
   ⟨[[exQ 2 0 1, exQ 0 2 1, exQ 2 2 1]],
    .node (exQ 0 0 0) (.leaf (exQ 2 0 1) 0 (.leaf (exQ 0 2 1) 1 (.leaf (exQ 2 2 1) 2 .nil))) .nil⟩]

theorem exW_ok : ∀ P ∈ exW, P.Ok 2 := by
  intro P hP
  simp only [exW, List.mem_cons, List.not_mem_nil, or_false] at hP
  rcases hP with rfl | rfl
  · refine ⟨by rfl, trivial, ?_⟩
    intro b qs h q hq
    match b, h with
    | 0, h => simp at h; subst h; simp at hq; subst hq; rfl
  · refine ⟨by rfl, ⟨?_, trivial, trivial⟩, ?_⟩
    · intro l hl
      simp only [Forest.leaves, List.mem_cons, List.not_mem_nil, or_false] at hl
      rcases hl with rfl | rfl | rfl <;> exact ⟨rfl, by decide⟩
    · intro b qs h q hq
      match b, h with
      | 0, h => simp at h; subst h; simp at hq; rcases hq with rfl | rfl | rfl <;> rfl

/-- Points: the centre of the square, a point in the upper right patch, a point outside. -/
def exCo (ip : Nat) : Fin 2 → ℚ := fun _ => if ip = 0 then 1/2 else if ip = 1 then 3/4 else 2

example : (List.range 2).map (fun r => (List.range 3).map (searchPoints 2 exW [3] exCo r)) =
    [[0, -1, -1], [-1, 2, -1]] := by decide +kernel
example : (0 :: [3]).Pairwise (· ≤ ·) := by decide

/-- A callback that counts one for every leaf of level 1. -/
def exInt : Quad 2 → Option Nat → Unit → Bool × ℚ := fun q n _ => (true, if n.isSome then q.level else 0)
example : integrateRays exInt (exW.map Proc.forest) [(), ()] 1 = 4 := by decide +kernel
example : ∀ F ∈ exW.map Proc.forest, SoundStop exInt () F := by
  intro F hF
  simp only [exW, List.map_cons, List.map_nil, List.mem_cons, List.not_mem_nil, or_false] at hF
  rcases hF with rfl | rfl
  · trivial
  · exact ⟨by simp [exInt], trivial, trivial⟩

end Fclaw.Search
