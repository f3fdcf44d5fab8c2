import Verif.Partition.Spec
/- Helper lemmas for properties C09 and C10. -/
set_option autoImplicit false
namespace Fclaw.Partition

variable {α : Type}

theorem split_range {β : Type} (F : Nat → β) (p s n : Nat) (h1 : p ≤ s) (h2 : s ≤ n) :
    (List.range n).map F = (List.range p).map F ++ ((List.range (s - p)).map fun k => F (p + k))
      ++ ((List.range (n - s)).map fun k => F (s + k)) := by
  have e : n = p + (s - p) + (n - s) := by omega
  conv => lhs; rw [e, List.range_add, List.range_add]
  simp only [List.map_append, List.map_map, Function.comp_def]
  rw [show p + (s - p) = s by omega]

/-- Callbacks for one block that starts at global number `B` and has `n` patches. -/
def blockSpec (a b c d i B n : Nat) : List TCall :=
  (List.range (min d (B + n) - max c B)).map fun nj =>
    ⟨i, if a ≤ max c B + nj ∧ max c B + nj < b then some (max c B + nj - max a B) else none, nj⟩

theorem window_eq (first length : Nat) (bi : BlockInfo) :
    window first length bi
      = (min (first - bi.before) bi.num, min (first + length - bi.before) bi.num) := by
  unfold window
  simp only
  split
  · congr 1 <;> omega
  · congr 1; omega

/-- The window, in global numbers: `[m, M)` within the owned range `[c, d)`. -/
theorem window_new (c d m M B n : Nat) (h1 : c ≤ m) (h2 : m ≤ M) (h3 : M ≤ d)
    (h0 : min d (B + n) - max c B ≠ 0) :
    window (m - c) (M - m) ⟨min d (B + n) - max c B, min d B - min c B⟩
      = (min (m - max c B) (min d (B + n) - max c B), min (M - max c B) (min d (B + n) - max c B)) := by
  rw [window_eq]
  simp only
  have e : min d B - min c B = max c B - c := by omega
  rw [e]
  congr 1 <;> congr 1 <;> omega

theorem unchanged_eq (a b c d : Nat) (h : max a c < min b d) :
    unchanged a b c d = (max a c - c, min b d - max a c, max a c - a) := by
  unfold unchanged
  rw [if_pos (by omega)]
  split
  · rw [show max a c = c by omega]; simp
  · rw [show max a c = a by omega]; simp

theorem unchanged_eq0 (a b c d : Nat) (hab : a ≤ b) (hcd : c ≤ d) (h : ¬ max a c < min b d) :
    unchanged a b c d = (0, 0, 0) ∨ (unchanged a b c d).2.1 = 0 ∧ (a = b ∨ c = d) := by
  unfold unchanged
  split
  · right
    split
    · exact ⟨by simp only; omega, by omega⟩
    · exact ⟨by simp only; omega, by omega⟩
  · left; rfl

set_option maxHeartbeats 1000000 in
theorem window_key (a b c d B n : Nat) (hab : a ≤ b) (hcd : c ≤ d)
    (h0 : min d (B + n) - max c B ≠ 0) :
    ∃ n1 n2 o1 o2,
      window (unchanged a b c d).1 (unchanged a b c d).2.1
        ⟨min d (B + n) - max c B, min d B - min c B⟩ = (n1, n2) ∧
      window (unchanged a b c d).2.2 (unchanged a b c d).2.1
        ⟨min b (B + n) - max a B, min b B - min a B⟩ = (o1, o2) ∧
      n1 ≤ n2 ∧ n2 ≤ min d (B + n) - max c B ∧
      (n1 < min d (B + n) - max c B → o1 ≤ o2 ∧ o2 - o1 = n2 - n1) ∧
      (∀ j, j < n1 → ¬ (a ≤ max c B + j ∧ max c B + j < b)) ∧
      (∀ j, n1 ≤ j → j < n2 → (a ≤ max c B + j ∧ max c B + j < b) ∧
          o1 + (j - n1) = max c B + j - max a B) ∧
      (∀ j, n2 ≤ j → j < min d (B + n) - max c B → ¬ (a ≤ max c B + j ∧ max c B + j < b)) := by
  by_cases hov : max a c < min b d
  · rw [unchanged_eq a b c d hov]
    simp only
    rw [window_new c d (max a c) (min b d) B n (by omega) (by omega) (by omega) h0]
    have hlo : max c B ≤ max (max a c) B := by omega
    have hlo' : max a B ≤ max (max a c) B := by omega
    have hlom : max (max a c) B = max (max a c) (max c B) := by omega
    have hlom' : max (max a c) B = max (max a c) (max a B) := by omega
    have hhi : min (min b d) (B + n) = min (min b d) (min d (B + n)) := by omega
    have hhi' : min (min b d) (B + n) = min (min b d) (min b (B + n)) := by omega
    have hcond : ∀ x, max c B ≤ x → x < min d (B + n) →
        ((a ≤ x ∧ x < b) ↔ (max (max a c) B ≤ x ∧ x < min (min b d) (B + n))) := by
      intro x h1 h2; omega
    have hmc : c ≤ max a c := by omega
    by_cases h0' : min b (B + n) - max a B = 0
    · have hwo : window (max a c - a) (min b d - max a c)
          ⟨min b (B + n) - max a B, min b B - min a B⟩ = (0, 0) := by
        rw [window_eq]; simp only [h0', Nat.min_zero]
      have hempty : min (min b d) (B + n) ≤ max (max a c) B := by omega
      generalize max (max a c) B = s at *
      generalize min (min b d) (B + n) = e at *
      generalize min d (B + n) = hi at *
      generalize max c B = lo at *
      generalize max a c = m at *
      generalize min b d = M at *
      refine ⟨_, _, 0, 0, rfl, hwo, ?_, ?_, ?_, ?_, ?_, ?_⟩
      · omega
      · omega
      · intro _; omega
      · intro j hj; rw [hcond _ (by omega) (by omega)]; omega
      · intro j h1 h2; omega
      · intro j h1 h2; rw [hcond _ (by omega) (by omega)]; omega
    · rw [window_new a b (max a c) (min b d) B n (by omega) (by omega) (by omega) h0']
      generalize max (max a c) B = s at *
      generalize min (min b d) (B + n) = e at *
      generalize min d (B + n) = hi at *
      generalize max c B = lo at *
      generalize min b (B + n) = hi' at *
      generalize max a B = lo' at *
      generalize max a c = m at *
      generalize min b d = M at *
      refine ⟨_, _, _, _, rfl, rfl, ?_, ?_, ?_, ?_, ?_, ?_⟩
      · omega
      · omega
      · clear hcond; intro _; omega
      · intro j hj; rw [hcond _ (by omega) (by omega)]; omega
      · intro j h1 h2; rw [hcond _ (by omega) (by omega)]; clear hcond; omega
      · intro j h1 h2; rw [hcond _ (by omega) (by omega)]; omega
  · have hz : (unchanged a b c d).2.1 = 0 := by
      rcases unchanged_eq0 a b c d hab hcd hov with h | h
      · rw [h]
      · exact h.1
    rw [window_eq, window_eq, hz]
    dsimp only
    refine ⟨_, _, _, _, rfl, rfl, ?_, ?_, ?_, ?_, ?_, ?_⟩
    · simp
    · omega
    · simp
    · intro j hj; omega
    · intro j h1 h2; simp only [Nat.add_zero] at h1 h2; omega
    · intro j h1 h2; clear h1; clear hz; omega

theorem blockCalls_eq (a b c d i B n : Nat) (hab : a ≤ b) (hcd : c ≤ d) :
    blockCalls (unchanged a b c d).1 (unchanged a b c d).2.1 (unchanged a b c d).2.2 i
      ⟨min d (B + n) - max c B, min d B - min c B⟩ ⟨min b (B + n) - max a B, min b B - min a B⟩
      = some (blockSpec a b c d i B n) := by
  by_cases h0 : min d (B + n) - max c B = 0
  · simp [blockCalls, blockSpec, h0]
  obtain ⟨n1, n2, o1, o2, hw, how, h12, h2, ho, hA, hB, hC⟩ := window_key a b c d B n hab hcd h0
  simp only [blockCalls, hw, how, h0, ↓reduceIte]
  rw [if_neg (by omega)]
  generalize hcnt : min d (B + n) - max c B = cnt at *
  unfold blockSpec
  rw [hcnt]
  by_cases hfull : n1 = cnt
  · rw [if_pos hfull]
    congr 1
    rw [hfull]
    apply List.map_congr_left
    intro j hj
    rw [if_neg (hA j (by rw [hfull]; exact List.mem_range.1 hj))]
  · rw [if_neg hfull]
    obtain ⟨ho1, ho2⟩ := ho (by omega)
    rw [if_neg (by omega)]
    congr 1
    rw [split_range _ n1 n2 cnt h12 h2]
    congr 1
    · congr 1
      · apply List.map_congr_left
        intro j hj
        rw [if_neg (hA j (List.mem_range.1 hj))]
      · apply List.map_congr_left
        intro k hk
        have hk' := List.mem_range.1 hk
        obtain ⟨hc, he⟩ := hB (n1 + k) (by omega) (by omega)
        rw [if_pos hc, ← he]
        congr 2; omega
    · apply List.map_congr_left
      intro k hk
      have hk' := List.mem_range.1 hk
      rw [if_neg (hC (n2 + k) (by omega) (by omega))]

/-- The wanted callbacks, recursively over the blocks. -/
def wantedFrom (a b c d : Nat) : Nat → Nat → List (List α) → List TCall
  | _, _, [] => []
  | i, B, blk :: rest =>
    blockSpec a b c d i B blk.length ++ wantedFrom a b c d (i + 1) (B + blk.length) rest

theorem slice_length (blk : List α) (a b B : Nat) (hab : a ≤ b) :
    ((blk.drop (a - B)).take (min b (B + blk.length) - max a B)).length
      = min b (B + blk.length) - max a B := by
  simp only [List.length_take, List.length_drop]
  omega

theorem blocksCalls_eq (a b c d : Nat) (hab : a ≤ b) (hcd : c ≤ d) (g : List (List α)) :
    ∀ (i B : Nat),
    blocksCalls (unchanged a b c d).1 (unchanged a b c d).2.1 (unchanged a b c d).2.2 i
      (infos (min d B - min c B) (localPart c d B g))
      (infos (min b B - min a B) (localPart a b B g))
      = some (wantedFrom a b c d i B g) := by
  induction g with
  | nil => intro i B; rfl
  | cons blk g ih =>
    intro i B
    simp only [localPart, infos, blocksCalls, slice_length blk a b B hab, slice_length blk c d B hcd,
      blockCalls_eq a b c d i B blk.length hab hcd]
    have e1 : min d B - min c B + (min d (B + blk.length) - max c B)
        = min d (B + blk.length) - min c (B + blk.length) := by omega
    have e2 : min b B - min a B + (min b (B + blk.length) - max a B)
        = min b (B + blk.length) - min a (B + blk.length) := by omega
    rw [e1, e2, ih (i + 1) (B + blk.length)]
    rfl

theorem filter_range' (a b s n : Nat) :
    (List.range' s n).filter (fun x => decide (a ≤ x ∧ x < b))
      = List.range' (max a s) (min b (s + n) - max a s) := by
  induction n generalizing s with
  | zero =>
    have : min b (s + 0) - max a s = 0 := by omega
    rw [this]; rfl
  | succ n ih =>
    rw [List.range'_succ, List.filter_cons, ih]
    by_cases h : a ≤ s ∧ s < b
    · simp only [h, and_self, decide_true, ↓reduceIte]
      rw [show max a (s + 1) = s + 1 by omega, show max a s = s by omega,
        show min b (s + (n + 1)) - s = (min b (s + 1 + n) - (s + 1)) + 1 by omega, List.range'_succ]
    · simp only [h, decide_false, Bool.false_eq_true, ↓reduceIte]
      by_cases ha : a ≤ s
      · have e1 : min b (s + 1 + n) - max a (s + 1) = 0 := by omega
        have e2 : min b (s + (n + 1)) - max a s = 0 := by omega
        rw [e1, e2]; rfl
      · rw [show max a (s + 1) = max a s by omega, show s + 1 + n = s + (n + 1) by omega]

theorem globalNumbers_eq (g : List (List α)) (a b i : Nat) :
    globalNumbers g a b i = List.range' (max a (blockStart g i))
      (min b (blockStart g i + (g[i]?.getD []).length) - max a (blockStart g i)) :=
  filter_range' _ _ _ _

theorem idxOf_range' (s n x : Nat) (h1 : s ≤ x) (h2 : x < s + n) :
    (List.range' s n).idxOf x = x - s := by
  induction n generalizing s with
  | zero => omega
  | succ n ih =>
    rw [List.range'_succ, List.idxOf_cons]
    by_cases h : s = x
    · subst h; simp
    · have hb : (s == x) = false := by simpa using h
      rw [hb]
      simp only [cond_false, ih (s + 1) (by omega) (by omega)]
      omega

/-- One block of `wanted`. -/
theorem wanted_block (g : List (List α)) (a b c d i : Nat) :
    ((globalNumbers g c d i).zipIdx.map fun x =>
      (⟨i, if a ≤ x.1 ∧ x.1 < b then some ((globalNumbers g a b i).idxOf x.1) else none, x.2⟩ : TCall))
      = blockSpec a b c d i (blockStart g i) ((g[i]?.getD []).length) := by
  rw [globalNumbers_eq, globalNumbers_eq]
  unfold blockSpec
  apply List.ext_getElem?
  intro j
  simp only [List.getElem?_map, List.getElem?_zipIdx, Option.map_map]
  generalize blockStart g i = B
  generalize (g[i]?.getD []).length = n
  by_cases hj : j < min d (B + n) - max c B
  · rw [List.getElem?_range' hj, List.getElem?_range hj]
    simp only [Nat.one_mul, Option.map_some, Function.comp, Nat.zero_add]
    congr 2
    by_cases hc : a ≤ max c B + j ∧ max c B + j < b
    · rw [if_pos hc, if_pos hc, idxOf_range']
      · omega
      · omega
    · rw [if_neg hc, if_neg hc]
  · rw [List.getElem?_eq_none (by simp; omega), List.getElem?_eq_none (by simp; omega)]
    rfl

theorem wantedFrom_eq (a b c d : Nat) (g : List (List α)) : ∀ (i B : Nat),
    wantedFrom a b c d i B g = (List.range g.length).flatMap fun k =>
      blockSpec a b c d (i + k) (B + blockStart g k) ((g[k]?.getD []).length) := by
  induction g with
  | nil => intro i B; rfl
  | cons blk g ih =>
    intro i B
    simp only [wantedFrom, List.length_cons, List.range_succ_eq_map, List.flatMap_cons,
      List.flatMap_map, Nat.add_zero]
    rw [show B + blockStart (blk :: g) 0 = B by simp [blockStart]]
    have hrest : wantedFrom a b c d (i + 1) (B + blk.length) g
        = (List.range g.length).flatMap fun k => blockSpec a b c d (i + (k + 1))
            (B + blockStart (blk :: g) (k + 1)) (((blk :: g)[k + 1]?.getD []).length) := by
      rw [ih]
      congr 1
      funext k
      have e1 : i + 1 + k = i + (k + 1) := by omega
      have e2 : B + blk.length + blockStart g k = B + blockStart (blk :: g) (k + 1) := by
        simp [blockStart]; omega
      rw [e1, e2]
      simp
    rw [hrest]
    simp

theorem wanted_eq (g : List (List α)) (a b c d : Nat) :
    wanted g a b c d = wantedFrom a b c d 0 0 g := by
  unfold wanted
  rw [wantedFrom_eq]
  congr 1
  funext i
  rw [wanted_block]
  simp

/-- Entry `j` of the local part of block `i` is the patch with global number
`max a (blockStart i) + j`. -/
theorem localPart_getElem? (a b : Nat) (g : List (List α)) : ∀ (B i : Nat),
    (localPart a b B g)[i]? = (g[i]?).map fun blk =>
      (blk.drop (a - (B + blockStart g i))).take
        (min b (B + blockStart g i + blk.length) - max a (B + blockStart g i)) := by
  induction g with
  | nil => intro B i; simp [localPart]
  | cons blk g ih =>
    intro B i
    cases i with
    | zero => simp [localPart, blockStart]
    | succ i =>
      simp only [localPart, List.getElem?_cons_succ, ih]
      have : B + blk.length + blockStart g i = B + blockStart (blk :: g) (i + 1) := by
        simp [blockStart]; omega
      rw [this]

theorem flatten_getElem? (g : List (List α)) : ∀ (i j : Nat) (blk : List α), g[i]? = some blk →
    j < blk.length → g.flatten[blockStart g i + j]? = blk[j]? := by
  induction g with
  | nil => intro i j blk h; simp at h
  | cons x g ih =>
    intro i j blk h hj
    cases i with
    | zero =>
      simp at h; subst h
      simp only [blockStart, List.take_zero, List.map_nil, List.sum_nil, Nat.zero_add, List.flatten_cons]
      rw [List.getElem?_append_left hj]
    | succ i =>
      have := ih i j blk (by simpa using h) hj
      have e : blockStart (x :: g) (i + 1) + j = x.length + (blockStart g i + j) := by
        simp [blockStart]; omega
      rw [e, List.flatten_cons, List.getElem?_append_right (by omega)]
      simpa using this

/-- Entry `j` of local block `i` of the process owning `[a, b)`, by global number. -/
theorem local_entry (a b : Nat) (g : List (List α)) (i j : Nat) (blk : List α)
    (hi : g[i]? = some blk)
    (hj : j < min b (blockStart g i + blk.length) - max a (blockStart g i)) :
    ((localPart a b 0 g)[i]?.getD [])[j]? = g.flatten[max a (blockStart g i) + j]? := by
  rw [localPart_getElem? a b g 0 i, hi]
  simp only [Nat.zero_add, Option.map_some, Option.getD_some]
  rw [List.getElem?_take_of_lt hj, List.getElem?_drop]
  have := flatten_getElem? g i (a - blockStart g i + j) blk hi (by omega)
  rw [← this]
  congr 1; omega

end Fclaw.Partition
