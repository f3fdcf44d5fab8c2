import Verif.Search.Spec
import Mathlib.Tactic.Ring
import Mathlib.Tactic.Linarith
import Mathlib.Tactic.FieldSimp
import Mathlib.Tactic.Positivity

set_option autoImplicit false
set_option linter.unusedSimpArgs false
set_option linter.unusedVariables false
namespace Fclaw.Search

/-- The search for a single point with its own value. -/
def search1 {Q V : Type} (c : Q → Option Nat → V → V × Bool) : Forest Q → V → V
  | .nil, v => v
  | .leaf q n rest, v => search1 c rest (c q (some n) v).1
  | .node q kids rest, v =>
    let r := c q none v
    search1 c rest (if r.2 then search1 c kids r.1 else r.1)

section
variable {Q P V : Type} (key : P → Nat) (c : P → Q → Option Nat → V → V × Bool)

/-- A callback that only reads and writes the entry of its point. -/
def keyed (q : Q) (n : Option Nat) (s : Nat → V) (p : P) : (Nat → V) × Bool :=
  let r := c p q n (s (key p))
  (upd s (key p) r.1, r.2)

theorem runPoints_notin (q : Q) (n : Option Nat) (k : Nat) :
    ∀ (pts : List P) (s : Nat → V), (∀ p ∈ pts, key p ≠ k) →
      (runPoints (keyed key c q n) s pts).1 k = s k
  | [], s, _ => rfl
  | p :: ps, s, h => by
    simp only [runPoints]
    rw [runPoints_notin q n k ps _ (fun p' hp' => h p' (by simp [hp']))]
    have := h p (by simp)
    simp [keyed, upd, Ne.symm this]

theorem runPoints_sub (q : Q) (n : Option Nat) :
    ∀ (pts : List P) (s : Nat → V), (runPoints (keyed key c q n) s pts).2.Sublist pts
  | [], s => by simp [runPoints]
  | p :: ps, s => by
    simp only [runPoints]
    split
    · exact (runPoints_sub q n ps _).cons₂ _
    · exact (runPoints_sub q n ps _).cons _

theorem runPoints_in (q : Q) (n : Option Nat) :
    ∀ (pts : List P) (s : Nat → V) (p : P), (pts.map key).Nodup → p ∈ pts →
      (runPoints (keyed key c q n) s pts).1 (key p) = (c p q n (s (key p))).1 ∧
      (p ∈ (runPoints (keyed key c q n) s pts).2 ↔ (c p q n (s (key p))).2 = true)
  | [], s, p, _, h => by simp at h
  | a :: ps, s, p, hn, hp => by
    simp only [List.map_cons, List.nodup_cons] at hn
    simp only [runPoints]
    have hsub := runPoints_sub key c q n ps (keyed key c q n s a).1
    by_cases hpa : p = a
    · subst hpa
      have hnot : p ∉ ps := fun h => hn.1 (List.mem_map_of_mem h)
      constructor
      · have hk : ∀ p' ∈ ps, key p' ≠ key p := by
          intro p' hp' he
          apply hn.1
          rw [← he]
          exact List.mem_map_of_mem hp'
        rw [runPoints_notin key c q n _ ps _ hk]
        simp [keyed, upd]
      · split
        · rename_i h
          simpa [keyed] using h
        · rename_i h
          have : (c p q n (s (key p))).2 = false := by simpa [keyed] using h
          constructor
          · intro h'
            exact absurd (hsub.subset h') hnot
          · intro h'
            rw [this] at h'
            simp at h'
    · have hp' : p ∈ ps := by simpa [hpa] using hp
      have hk : key p ≠ key a := fun h => hn.1 (h ▸ List.mem_map_of_mem hp')
      have ih := runPoints_in q n ps (keyed key c q n s a).1 p hn.2 hp'
      have hv : (keyed key c q n s a).1 (key p) = s (key p) := by simp [keyed, upd, hk]
      rw [hv] at ih
      refine ⟨ih.1, ?_⟩
      split
      · simp [hpa, ih.2]
      · exact ih.2

theorem searchLocal_notin (k : Nat) : ∀ (F : Forest Q) (pts : List P) (s : Nat → V),
    (∀ p ∈ pts, key p ≠ k) → searchLocal (keyed key c) F pts s k = s k
  | .nil, _, s, _ => rfl
  | .leaf q n rest, pts, s, h => by
    simp only [searchLocal]
    rw [searchLocal_notin k rest pts _ h, runPoints_notin key c q _ k pts s h]
  | .node q kids rest, pts, s, h => by
    simp only [searchLocal]
    rw [searchLocal_notin k rest pts _ h, searchLocal_notin k kids _ _
      (fun p hp => h p ((runPoints_sub key c q none pts s).subset hp)),
      runPoints_notin key c q _ k pts s h]

/-- Points do not influence each other. -/
theorem searchLocal_in : ∀ (F : Forest Q) (pts : List P) (s : Nat → V) (p : P),
    (pts.map key).Nodup → p ∈ pts →
    searchLocal (keyed key c) F pts s (key p) = search1 (c p) F (s (key p))
  | .nil, _, s, _, _, _ => rfl
  | .leaf q n rest, pts, s, p, hn, hp => by
    simp only [searchLocal, search1]
    rw [searchLocal_in rest pts _ p hn hp, (runPoints_in key c q _ pts s p hn hp).1]
  | .node q kids rest, pts, s, p, hn, hp => by
    simp only [searchLocal, search1]
    rw [searchLocal_in rest pts _ p hn hp]
    have hr := runPoints_in key c q none pts s p hn hp
    have hsub := runPoints_sub key c q none pts s
    by_cases hh : (c p q none (s (key p))).2 = true
    · rw [if_pos hh, searchLocal_in kids _ _ p ((hsub.map key).nodup hn) (hr.2.mpr hh), hr.1]
    · rw [if_neg hh, searchLocal_notin, hr.1]
      intro p' hp' hk
      have hp'' := hsub.subset hp'
      have : p' = p := by
        by_contra hne
        exact absurd (List.inj_on_of_nodup_map hn hp'' hp hk) hne
      subst this
      exact hh (hr.2.mp hp')
end

/-- Where a point may be dropped at an ancestor. -/
def SoundStop1 {Q V : Type} (c : Q → Option Nat → V → V × Bool) : Forest Q → Prop
  | .nil => True
  | .leaf _ _ rest => SoundStop1 c rest
  | .node q kids rest =>
    (∀ v, (c q none v).2 = false → ∀ l ∈ kids.leaves, (c l.1 (some l.2) v).1 = v) ∧
    SoundStop1 c kids ∧ SoundStop1 c rest

theorem foldl_fixed {α V : Type} (f : V → α → V) (v : V) : ∀ (l : List α),
    (∀ a ∈ l, f v a = v) → l.foldl f v = v
  | [], _ => rfl
  | a :: l, h => by
    simp only [List.foldl_cons]
    rw [h a (by simp)]
    exact foldl_fixed f v l (fun b hb => h b (by simp [hb]))

/-- The search for one point applies the callback to all leaves. -/
theorem search1_leaves {Q V : Type} (c : Q → Option Nat → V → V × Bool)
    (hnode : ∀ q v, (c q none v).1 = v) :
    ∀ (F : Forest Q), SoundStop1 c F → ∀ v,
      search1 c F v = F.leaves.foldl (fun v l => (c l.1 (some l.2) v).1) v
  | .nil, _, v => rfl
  | .leaf q n rest, h, v => by
    simp only [search1, Forest.leaves, List.foldl_cons]
    exact search1_leaves c hnode rest h _
  | .node q kids rest, h, v => by
    obtain ⟨h1, h2, h3⟩ := h
    simp only [search1, Forest.leaves, List.foldl_append]
    rw [search1_leaves c hnode rest h3, hnode]
    congr 1
    by_cases hh : (c q none v).2 = true
    · rw [if_pos hh]
      exact search1_leaves c hnode kids h2 v
    · rw [if_neg hh]
      exact (foldl_fixed _ v _ (h1 v (by simpa using hh))).symm

/-! ### Points -/

theorem inBox_iff {d : Nat} (M : Nat) (q : Quad d) (x : Fin d → ℚ) :
    quadContains M q x = true ↔ InBox M q x := by
  have hp : (0 : ℚ) < 2 ^ M := by positivity
  simp only [quadContains, InBox, List.all_eq_true, List.mem_finRange, true_implies,
    Bool.not_eq_true', Bool.or_eq_false_iff, decide_eq_false_iff_not, not_lt, gt_iff_lt]
  refine forall_congr' fun i => ?_
  simp only [quadLen, smallestH]
  push_cast
  rw [mul_one_div, mul_one_div]

theorem inBox_under {d : Nat} (M : Nat) (k q : Quad d) (x : Fin d → ℚ) (hu : k.Under M q)
    (h : InBox M k x) : InBox M q x := by
  have hp : (0 : ℚ) < 2 ^ M := by positivity
  intro i
  have h1 := (hu.2 i).1
  have h2 := (hu.2 i).2
  have hc1 : (q.coord i : ℚ) ≤ k.coord i := by exact_mod_cast h1
  have hc2 : (k.coord i : ℚ) + 2 ^ (M - k.level) ≤ q.coord i + 2 ^ (M - q.level) := by
    exact_mod_cast h2
  exact ⟨le_trans (div_le_div_of_nonneg_right hc1 hp.le) (h i).1,
    le_trans (h i).2 (div_le_div_of_nonneg_right hc2 hp.le)⟩

/-- What `search_point_fn` does to the entry of its point. -/
def pointFn {d : Nat} (M : Nat) (P : Proc d) (coordinates : Nat → Fin d → ℚ) (pe : Nat × Nat)
    (q : Quad d) (n : Option Nat) (v : Int) : Int × Bool :=
  if pe.1 ≠ q.tree then (v, false)
  else if quadContains M q (coordinates pe.2) = false then (v, false)
  else match n with
    | none => (v, true)
    | some n =>
      ((if v ≥ 0 then min v ((n : Int) - numPatchesBefore P pe.1)
        else (n : Int) - numPatchesBefore P pe.1), true)

theorem upd_self {V : Type} (s : Nat → V) (k : Nat) : upd s k (s k) = s := by
  funext x
  simp only [upd]
  split
  · rename_i h; rw [h]
  · rfl

theorem searchPointFn_keyed {d : Nat} (M : Nat) (P : Proc d) (co : Nat → Fin d → ℚ) :
    searchPointFn M P co = keyed Prod.snd (pointFn M P co) := by
  funext q n s pe
  simp only [searchPointFn, keyed, pointFn]
  by_cases h1 : pe.1 ≠ q.tree
  · simp only [if_pos h1, upd_self]
  · simp only [if_neg h1]
    by_cases h2 : quadContains M q (co pe.2) = false
    · simp only [if_pos h2, upd_self]
    · simp only [if_neg h2]
      cases n with
      | none => simp only [upd_self]
      | some n =>
        dsimp only
        generalize (if s pe.2 ≥ 0 then min (s pe.2) ((n : Int) - numPatchesBefore P pe.1)
          else (n : Int) - numPatchesBefore P pe.1) = w
        by_cases hw : w = s pe.2
        · subst hw; simp [upd_self]
        · simp [hw]

/-- Adding one containing leaf. -/
def minStep (v : Int) (w : Int) : Int := if v ≥ 0 then min v w else w

theorem pointFn_some {d : Nat} (M : Nat) (P : Proc d) (co : Nat → Fin d → ℚ) (pe : Nat × Nat)
    (q : Quad d) (n : Nat) (v : Int) :
    (pointFn M P co pe q (some n) v).1 =
      if pe.1 = q.tree ∧ quadContains M q (co pe.2) = true then
        minStep v ((n : Int) - numPatchesBefore P pe.1) else v := by
  unfold pointFn minStep
  by_cases h1 : pe.1 = q.tree
  · by_cases h2 : quadContains M q (co pe.2) = true
    · rw [if_neg (by simpa using h1), if_neg (by simp [h2]), if_pos ⟨h1, h2⟩]
    · rw [if_neg (by simpa using h1), if_pos (by simpa using h2), if_neg (by simp [h2])]
  · rw [if_pos h1, if_neg (by simp [h1])]

theorem pointFn_none {d : Nat} (M : Nat) (P : Proc d) (co : Nat → Fin d → ℚ) (pe : Nat × Nat)
    (q : Quad d) (v : Int) : (pointFn M P co pe q none v).1 = v := by
  unfold pointFn
  split
  · rfl
  · split <;> rfl

theorem pointFn_sound {d : Nat} (M : Nat) (P : Proc d) (co : Nat → Fin d → ℚ) (pe : Nat × Nat) :
    ∀ (F : Forest (Quad d)), F.Nested M → SoundStop1 (pointFn M P co pe) F
  | .nil, _ => trivial
  | .leaf _ _ rest, h => pointFn_sound M P co pe rest h
  | .node q kids rest, h => by
    obtain ⟨h1, h2, h3⟩ := h
    refine ⟨?_, pointFn_sound M P co pe kids h2, pointFn_sound M P co pe rest h3⟩
    intro v hv l hl
    rw [pointFn_some, if_neg]
    rintro ⟨ht, hc⟩
    have hu := h1 l hl
    have hq : quadContains M q (co pe.2) = true :=
      (inBox_iff M q _).mpr (inBox_under M _ _ _ hu ((inBox_iff M _ _).mp hc))
    unfold pointFn at hv
    rw [if_neg (by rw [ht, hu.1]; simp), if_neg (by simp [hq])] at hv
    simp at hv

/-- The minimum of the leaf numbers collected by the search. -/
theorem fold_min {α : Type} (test : α → Bool) (val : α → Int) : ∀ (l : List α),
    (∀ a ∈ l, test a = true → 0 ≤ val a) → ∀ v : Int, -1 ≤ v →
    let w := l.foldl (fun v a => if test a = true then minStep v (val a) else v) v
    (-1 ≤ w) ∧ (∀ a ∈ l, test a = true → w ≤ val a) ∧ (0 ≤ v → w ≤ v ∧ 0 ≤ w) ∧
    (0 ≤ w → w = v ∨ ∃ a ∈ l, test a = true ∧ w = val a) ∧
    (w < 0 → v < 0 ∧ ∀ a ∈ l, test a = false)
  | [], _, v, hv => by
    simp only [List.foldl_nil]
    refine ⟨hv, by simp, fun h => ⟨Int.le_refl _, h⟩, by simp, fun h => ⟨h, by simp⟩⟩
  | a :: l, h, v, hv => by
    simp only [List.foldl_cons]
    by_cases ht : test a = true
    · simp only [if_pos ht]
      have hva := h a (by simp) ht
      have hm0 : 0 ≤ minStep v (val a) := by unfold minStep; split <;> omega
      have hm1 : minStep v (val a) ≤ val a := by unfold minStep; split <;> omega
      have hm2 : 0 ≤ v → minStep v (val a) ≤ v := by intro h; unfold minStep; split <;> omega
      have hm3 : minStep v (val a) = v ∨ minStep v (val a) = val a := by
        unfold minStep; split <;> omega
      have ih := fold_min test val l (fun b hb => h b (by simp [hb])) (minStep v (val a)) (by omega)
      simp only at ih
      obtain ⟨i1, i2, i3, i4, i5⟩ := ih
      generalize hw : l.foldl _ (minStep v (val a)) = w at *
      refine ⟨i1, ?_, ?_, ?_, ?_⟩
      · intro b hb htb
        rcases List.mem_cons.mp hb with rfl | hb
        · exact le_trans (i3 hm0).1 hm1
        · exact i2 b hb htb
      · intro hv0
        exact ⟨le_trans (i3 hm0).1 (hm2 hv0), (i3 hm0).2⟩
      · intro hw0
        rcases i4 hw0 with e | ⟨b, hb, hb1, hb2⟩
        · rcases hm3 with e2 | e2
          · exact Or.inl (by omega)
          · exact Or.inr ⟨a, by simp, ht, by omega⟩
        · exact Or.inr ⟨b, by simp [hb], hb1, hb2⟩
      · intro hw0
        have := (i3 hm0).2
        omega
    · simp only [if_neg ht]
      have ih := fold_min test val l (fun b hb => h b (by simp [hb])) v hv
      simp only at ih
      obtain ⟨i1, i2, i3, i4, i5⟩ := ih
      generalize hw : l.foldl _ v = w at *
      refine ⟨i1, ?_, i3, ?_, ?_⟩
      · intro b hb htb
        rcases List.mem_cons.mp hb with rfl | hb
        · exact absurd htb ht
        · exact i2 b hb htb
      · intro hw0
        rcases i4 hw0 with e | ⟨b, hb, hb1, hb2⟩
        · exact Or.inl e
        · exact Or.inr ⟨b, by simp [hb], hb1, hb2⟩
      · intro hw0
        refine ⟨(i5 hw0).1, ?_⟩
        intro b hb
        rcases List.mem_cons.mp hb with rfl | hb
        · simpa using ht
        · exact (i5 hw0).2 b hb

/-! ### Numbering -/

theorem mem_flatten_zipIdx {α : Type} : ∀ (L : List (List α)) (k : Nat) (q : α) (n : Nat),
    (q, n) ∈ L.flatten.zipIdx k ↔
      ∃ (b p : Nat) (qs : List α), L[b]? = some qs ∧ qs[p]? = some q ∧
        n = k + ((L.take b).map List.length).sum + p
  | [], k, q, n => by simp
  | a :: L, k, q, n => by
    rw [List.flatten_cons, List.zipIdx_append, List.mem_append, mem_flatten_zipIdx L]
    constructor
    · rintro (h | ⟨b, p, qs, h1, h2, h3⟩)
      · rw [List.mk_mem_zipIdx_iff_le_and_getElem?_sub] at h
        refine ⟨0, n - k, a, rfl, h.2, ?_⟩
        simp
        omega
      · refine ⟨b + 1, p, qs, by simpa using h1, h2, ?_⟩
        simp only [List.take_succ_cons, List.map_cons, List.sum_cons]
        omega
    · rintro ⟨b, p, qs, h1, h2, h3⟩
      cases b with
      | zero =>
        left
        simp only [List.getElem?_cons_zero, Option.some.injEq] at h1
        subst h1
        rw [List.mk_mem_zipIdx_iff_le_and_getElem?_sub]
        simp only [List.take_zero, List.map_nil, List.sum_nil] at h3
        refine ⟨by omega, ?_⟩
        rw [show n - k = p by omega]
        exact h2
      | succ b =>
        right
        refine ⟨b, p, qs, by simpa using h1, h2, ?_⟩
        simp only [List.take_succ_cons, List.map_cons, List.sum_cons] at h3
        omega

theorem makePoints_mem (offsets : List Nat) : ∀ (jb0 pb jb ip : Nat),
    (pb :: offsets).Pairwise (· ≤ ·) →
    ((jb, ip) ∈ makePoints offsets jb0 pb ↔
      ∃ k, jb = jb0 + k ∧ ∃ e, offsets[k]? = some e ∧ ip < e ∧
        ∃ b, (pb :: offsets)[k]? = some b ∧ b ≤ ip) := by
  induction offsets with
  | nil => intro jb0 pb jb ip _; simp [makePoints]
  | cons e more ih =>
    intro jb0 pb jb ip h
    have h' := (List.pairwise_cons.mp h).2
    simp only [makePoints, List.mem_append, List.mem_map, Prod.mk.injEq, ih _ _ _ _ h']
    constructor
    · rintro (⟨a, ha, rfl, rfl⟩ | ⟨k, rfl, e', h1, h2, b, h3, h4⟩)
      · rw [List.mem_range'_1] at ha
        exact ⟨0, rfl, e, rfl, by omega, pb, rfl, ha.1⟩
      · exact ⟨k + 1, by omega, e', by simpa using h1, h2, b, by simpa using h3, h4⟩
    · rintro ⟨k, rfl, e', h1, h2, b, h3, h4⟩
      cases k with
      | zero =>
        left
        simp only [List.getElem?_cons_zero, Option.some.injEq] at h1 h3
        subst h1 h3
        exact ⟨ip, List.mem_range'_1.mpr (by omega), rfl, rfl⟩
      | succ k =>
        right
        exact ⟨k, by omega, e', by simpa using h1, h2, b, by simpa using h3, h4⟩

theorem makePoints_keys (offsets : List Nat) : ∀ (jb0 pb : Nat),
    (pb :: offsets).Pairwise (· ≤ ·) →
    ((makePoints offsets jb0 pb).map Prod.snd).Nodup ∧
    ∀ p ∈ makePoints offsets jb0 pb, pb ≤ p.2 := by
  induction offsets with
  | nil => intro jb0 pb _; simp [makePoints]
  | cons e more ih =>
    intro jb0 pb h
    have h' := (List.pairwise_cons.mp h).2
    have hpe : pb ≤ e := (List.pairwise_cons.mp h).1 e (by simp)
    obtain ⟨i1, i2⟩ := ih (jb0 + 1) e h'
    simp only [makePoints, List.map_append, List.map_map]
    constructor
    · rw [List.nodup_append]
      refine ⟨?_, i1, ?_⟩
      · have : (Prod.snd ∘ fun ip => (jb0, ip)) = (id : Nat → Nat) := rfl
        rw [this, List.map_id]
        exact List.nodup_range'
      · intro a ha b hb
        simp only [List.mem_map, Function.comp] at ha hb
        obtain ⟨a', ha', rfl⟩ := ha
        obtain ⟨b', hb', rfl⟩ := hb
        have := i2 b' hb'
        rw [List.mem_range'_1] at ha'
        omega
    · intro p hp
      rw [List.mem_append] at hp
      rcases hp with hp | hp
      · simp only [List.mem_map] at hp
        obtain ⟨a, ha, rfl⟩ := hp
        exact (List.mem_range'_1.mp ha).1
      · exact le_trans hpe (i2 p hp)

theorem allreduceMin_le : ∀ (l : List Nat) (a : Nat), a ∈ l → allreduceMin l ≤ a
  | [], a, h => by simp at h
  | [b], a, h => by simp at h; simp [allreduceMin, h]
  | b :: c :: l, a, h => by
    simp only [allreduceMin]
    rcases List.mem_cons.mp h with rfl | h
    · exact Nat.min_le_left _ _
    · exact le_trans (Nat.min_le_right _ _) (allreduceMin_le (c :: l) a h)

theorem allreduceMin_mem : ∀ (l : List Nat), l ≠ [] → allreduceMin l ∈ l
  | [], h => absurd rfl h
  | [b], _ => by simp [allreduceMin]
  | b :: c :: l, _ => by
    have := allreduceMin_mem (c :: l) (by simp)
    simp only [allreduceMin]
    rcases Nat.le_total b (allreduceMin (c :: l)) with h | h
    · rw [Nat.min_eq_left h]; simp
    · rw [Nat.min_eq_right h]; exact List.mem_cons_of_mem _ this

/-! ### Rays -/

def rayFn {Q R : Type} (intersect : Q → Option Nat → R → Bool × ℚ) (ri : R × Nat)
    (q : Q) (n : Option Nat) (v : ℚ) : ℚ × Bool :=
  let r := intersect q n ri.1
  (if n.isSome then v + r.2 else v, r.1)

theorem integrateRayFn_keyed {Q R : Type} (intersect : Q → Option Nat → R → Bool × ℚ) :
    integrateRayFn intersect = keyed Prod.snd (rayFn intersect) := by
  funext q n s ri
  cases n with
  | none => simp [integrateRayFn, keyed, rayFn, upd_self]
  | some n => simp [integrateRayFn, keyed, rayFn]

theorem rayFn_sound {Q R : Type} (intersect : Q → Option Nat → R → Bool × ℚ) (ray : R) (i : Nat) :
    ∀ (F : Forest Q), SoundStop intersect ray F → SoundStop1 (rayFn intersect (ray, i)) F
  | .nil, _ => trivial
  | .leaf _ _ rest, h => rayFn_sound intersect ray i rest h
  | .node q kids rest, h => by
    obtain ⟨h1, h2, h3⟩ := h
    refine ⟨?_, rayFn_sound intersect ray i kids h2, rayFn_sound intersect ray i rest h3⟩
    intro v hv l hl
    simp only [rayFn] at hv ⊢
    rw [h1 hv l hl]
    simp

theorem foldl_add {α : Type} (f : α → ℚ) : ∀ (l : List α) (v : ℚ),
    l.foldl (fun v a => v + f a) v = v + (l.map f).sum
  | [], v => by simp
  | a :: l, v => by
    simp only [List.foldl_cons, List.map_cons, List.sum_cons]
    rw [foldl_add f l]
    ring

end Fclaw.Search
