import Verif.Exchange.Spec
set_option autoImplicit false
namespace Fclaw.Exchange

theorem ghostPtrs_length (s n m : Nat) : (ghostPtrs s n m).length = n := by
  induction n generalizing m with
  | zero => rfl
  | succ n ih => simp [ghostPtrs, ih]

theorem ghostPtrs_get (s n m i : Nat) (h : i < n) : (ghostPtrs s n m)[i]? = some (m + i * s) := by
  induction n generalizing m i with
  | zero => omega
  | succ n ih =>
    cases i with
    | zero => simp [ghostPtrs]
    | succ i =>
      simp only [ghostPtrs, List.getElem?_cons_succ]
      rw [ih _ _ (by omega), Nat.succ_mul]
      congr 1; omega

/-! Packing loops. -/

def flagged (ps : List Patch) : List Patch := ps.filter (·.flag)

def packFlag (minlevel : Int) (ti : Bool) (q : Patch) : Bool :=
  ti && decide (q.level = minlevel - 1)

theorem set_drop_aux {α : Type} (l : List α) (k : Nat) (x : α) (h : k < l.length) :
    (l.set k x).take (k + 1) = l.take k ++ [x] ∧ (l.set k x).drop (k + 1) = l.drop (k + 1) := by
  constructor
  · rw [List.take_set]
    rw [List.take_succ_eq_append_getElem h]
    rw [List.set_append_right _ _ (by simp; omega)]
    simp [Nat.min_eq_left (Nat.le_of_lt h)]
  · rw [List.drop_set]
    simp

theorem packBlock_eq (mn mx : Int) (ti : Bool) (ps : List Patch) (k : Nat) (l : List (List UInt8))
    (hlev : ∀ q ∈ ps, q.flag = true → q.level ≤ mx)
    (hlen : k + (flagged ps).length ≤ l.length) :
    packBlock mn mx ti ps (k, l) = some (k + (flagged ps).length,
      l.take k ++ (flagged ps).map (fun q => q.packed (packFlag mn ti q))
        ++ l.drop (k + (flagged ps).length)) := by
  induction ps generalizing k l with
  | nil => simp [packBlock, flagged]
  | cons q ps ih =>
    by_cases hq : q.flag = true
    · have hf : flagged (q :: ps) = q :: flagged ps := by simp [flagged, hq]
      rw [hf] at hlen ⊢
      simp only [List.length_cons] at hlen
      have h1 : ¬ mx < q.level := by
        have := hlev q (by simp) hq
        omega
      have h2 : ¬ l.length ≤ k := by omega
      simp only [packBlock, hq, h1, h2, if_true, if_false]
      have hs := set_drop_aux l k (q.packed (ti && decide (q.level = mn - 1))) (by omega)
      rw [ih (k + 1) _ (fun x hx => hlev x (by simp [hx])) (by simp; omega)]
      rw [hs.1]
      have e1 : k + 1 + (flagged ps).length = k + (q :: flagged ps).length := by
        simp only [List.length_cons]; omega
      have h3 : (l.set k (q.packed (ti && decide (q.level = mn - 1)))).drop (k + 1 + (flagged ps).length)
          = l.drop (k + 1 + (flagged ps).length) := by
        rw [← List.drop_drop, hs.2, List.drop_drop]
      rw [h3, e1]
      simp [packFlag]
    · have hf : flagged (q :: ps) = flagged ps := by simp [flagged, hq]
      rw [hf] at hlen ⊢
      simp only [packBlock, hq]
      exact ih k l (fun x hx => hlev x (by simp [hx])) hlen

theorem flagged_append (a b : List Patch) : flagged (a ++ b) = flagged a ++ flagged b := by
  simp [flagged]

theorem packBlocks_eq (mn mx : Int) (ti : Bool) (bs : List (List Patch)) (k : Nat)
    (l : List (List UInt8))
    (hlev : ∀ q ∈ bs.flatten, q.flag = true → q.level ≤ mx)
    (hlen : k + (flagged bs.flatten).length ≤ l.length) :
    packBlocks mn mx ti bs (k, l) = some (k + (flagged bs.flatten).length,
      l.take k ++ (flagged bs.flatten).map (fun q => q.packed (packFlag mn ti q))
        ++ l.drop (k + (flagged bs.flatten).length)) := by
  induction bs generalizing k l with
  | nil => simp [packBlocks, flagged]
  | cons b bs ih =>
    simp only [List.flatten_cons, flagged_append, List.length_append] at hlen ⊢
    simp only [packBlocks]
    rw [packBlock_eq mn mx ti b k l (fun q hq => hlev q (by simp [hq])) (by omega)]
    simp only [Option.bind_some]
    have hpl : (List.take k l ++ (flagged b).map (fun q => q.packed (packFlag mn ti q))).length
        = k + (flagged b).length := by
      simp; omega
    rw [ih _ _ (fun q hq => hlev q (by simp only [List.flatten_cons, List.mem_append]; exact Or.inr hq))
      (by rw [List.length_append, hpl, List.length_drop]; omega)]
    congr 1
    have t1 := List.take_left (l₁ := (List.take k l ++ (flagged b).map (fun q => q.packed (packFlag mn ti q))))
      (l₂ := List.drop (k + (flagged b).length) l)
    rw [hpl] at t1
    rw [t1]
    have t2 : List.drop (k + (flagged b).length + (flagged bs.flatten).length)
        (List.take k l ++ (flagged b).map (fun q => q.packed (packFlag mn ti q))
          ++ List.drop (k + (flagged b).length) l) =
        List.drop (k + (flagged b).length + (flagged bs.flatten).length) l := by
      rw [← List.drop_drop]
      have t3 := List.drop_left (l₁ := (List.take k l ++ (flagged b).map (fun q => q.packed (packFlag mn ti q))))
        (l₂ := List.drop (k + (flagged b).length) l)
      rw [hpl] at t3
      rw [t3, List.drop_drop]
    rw [t2]
    simp [Nat.add_assoc]

/-! Mirrors. -/

theorem flagged_mirrors (ps : List Patch) (k : Nat) (ms : List Nat) (hs : ms.Pairwise (· < ·))
    (hr : ∀ m ∈ ms, k ≤ m ∧ m < k + ps.length)
    (hf : ∀ n q, ps[n]? = some q → (q.flag = true ↔ k + n ∈ ms)) :
    (flagged ps).map some = ms.map (fun m => ps[m - k]?) := by
  induction ps generalizing k ms with
  | nil =>
    cases ms with
    | nil => rfl
    | cons m ms =>
      have := hr m (by simp)
      simp only [List.length_nil] at this
      omega
  | cons q ps ih =>
    by_cases hq : q.flag = true
    · have hk : k ∈ ms := by
        have := (hf 0 q (by simp)).1 hq
        simpa using this
      cases ms with
      | nil => simp at hk
      | cons m ms =>
        have hmk : m = k := by
          have h1 := (hr m (by simp)).1
          rcases List.mem_cons.1 hk with h | h
          · exact h.symm
          · have := (List.pairwise_cons.1 hs).1 k h
            omega
        subst hmk
        have hms := (List.pairwise_cons.1 hs).1
        have hfl : flagged (q :: ps) = q :: flagged ps := by simp [flagged, hq]
        rw [hfl]
        simp only [List.map_cons, Nat.sub_self, List.getElem?_cons_zero]
        congr 1
        rw [ih (m + 1) ms (List.pairwise_cons.1 hs).2]
        · apply List.map_congr_left
          intro x hx
          have := hms x hx
          rw [show x - m = (x - (m + 1)) + 1 by omega, List.getElem?_cons_succ]
        · intro x hx
          have h1 := hms x hx
          have h2 := (hr x (by simp [hx])).2
          simp only [List.length_cons] at h2
          omega
        · intro n p hp
          rw [hf (n + 1) p (by simpa using hp)]
          simp only [List.mem_cons]
          constructor
          · rintro (h | h)
            · omega
            · rwa [show m + 1 + n = m + (n + 1) by omega]
          · intro h
            right
            rwa [show m + (n + 1) = m + 1 + n by omega]
    · have hk : k ∉ ms := by
        intro h
        exact hq ((hf 0 q (by simp)).2 (by simpa using h))
      have hfl : flagged (q :: ps) = flagged ps := by simp [flagged, hq]
      rw [hfl, ih (k + 1) ms hs]
      · apply List.map_congr_left
        intro x hx
        have h1 := (hr x hx).1
        have : x ≠ k := by rintro rfl; exact hk hx
        rw [show x - k = (x - (k + 1)) + 1 by omega, List.getElem?_cons_succ]
      · intro x hx
        have h1 := hr x hx
        have : x ≠ k := by rintro rfl; exact hk hx
        simp only [List.length_cons] at h1
        omega
      · intro n p hp
        rw [hf (n + 1) p (by simpa using hp)]
        rw [show k + (n + 1) = k + 1 + n by omega]

/-! Memory. -/

theorem writeAt_length (mem : List UInt8) (off : Nat) (b : List UInt8)
    (h : off + b.length ≤ mem.length) : (writeAt mem off b).length = mem.length := by
  simp [writeAt]; omega

theorem writeAt_read_same (mem : List UInt8) (off : Nat) (b : List UInt8) (h : off ≤ mem.length) :
    ((writeAt mem off b).drop off).take b.length = b := by
  have hl : (mem.take off).length = off := by simp [h]
  unfold writeAt
  rw [List.append_assoc]
  have := List.drop_left (l₁ := mem.take off) (l₂ := b ++ mem.drop (off + b.length))
  rw [hl] at this
  rw [this]
  simp

theorem writeAt_get (mem : List UInt8) (off : Nat) (b : List UInt8)
    (h : off + b.length ≤ mem.length) (x : Nat) (hx : x < off ∨ off + b.length ≤ x) :
    (writeAt mem off b)[x]? = mem[x]? := by
  unfold writeAt
  have hl : (mem.take off).length = off := by simp; omega
  rcases hx with hx | hx
  · rw [List.append_assoc, List.getElem?_append_left (by omega), List.getElem?_take]
    simp [hx]
  · rw [List.getElem?_append_right (by simp; omega)]
    rw [List.length_append, hl, List.getElem?_drop]
    congr 1; omega

theorem read_ext (m1 m2 : List UInt8) (o s : Nat)
    (h : ∀ x, o ≤ x → x < o + s → m1[x]? = m2[x]?) :
    (m1.drop o).take s = (m2.drop o).take s := by
  apply List.ext_getElem?
  intro i
  simp only [List.getElem?_take, List.getElem?_drop]
  split
  · exact h _ (by omega) (by omega)
  · rfl

theorem deliver_length (s : Nat) (mir : Nat → List Nat) (sent : Nat → List (List UInt8))
    (rg : Option (Int × Int)) (gs : List Ghost) (k : Nat) (mem : List UInt8)
    (hd : ∀ g ∈ gs, inRange rg g.level = true →
      ((sent g.owner)[(mir g.owner).idxOf g.localNum]?.getD []).length = s)
    (hm : (k + gs.length) * s ≤ mem.length) :
    (deliver s mir sent rg k gs mem).length = mem.length := by
  induction gs generalizing k mem with
  | nil => rfl
  | cons g gs ih =>
    have hks : k * s + s ≤ mem.length := by
      have h1 : (k + 1) * s ≤ (k + (g :: gs).length) * s := Nat.mul_le_mul_right _ (by simp)
      rw [Nat.succ_mul] at h1; omega
    simp only [deliver]
    have key : (if inRange rg g.level = true then
        writeAt mem (k * s) ((sent g.owner)[(mir g.owner).idxOf g.localNum]?.getD [])
        else mem).length = mem.length := by
      split
      · rename_i hin
        apply writeAt_length
        rw [hd g (by simp) hin]; exact hks
      · rfl
    rw [ih (k + 1) _ (fun x hx => hd x (by simp [hx])) ?_, key]
    rw [key]
    simp only [List.length_cons] at hm
    rw [show k + 1 + gs.length = k + (gs.length + 1) by omega]; exact hm

/-- Slots before `k` are not touched, slot `k + i` gets its data. -/
theorem deliver_read (s : Nat) (mir : Nat → List Nat) (sent : Nat → List (List UInt8))
    (rg : Option (Int × Int)) (gs : List Ghost) (k : Nat) (mem : List UInt8)
    (hd : ∀ g ∈ gs, inRange rg g.level = true →
      ((sent g.owner)[(mir g.owner).idxOf g.localNum]?.getD []).length = s)
    (hm : (k + gs.length) * s ≤ mem.length) :
    (∀ x, x < k * s → (deliver s mir sent rg k gs mem)[x]? = mem[x]?) ∧
    (∀ i g, gs[i]? = some g → inRange rg g.level = true →
      ((deliver s mir sent rg k gs mem).drop ((k + i) * s)).take s =
        (sent g.owner)[(mir g.owner).idxOf g.localNum]?.getD []) ∧
    (∀ i g, gs[i]? = some g → inRange rg g.level = false →
      ((deliver s mir sent rg k gs mem).drop ((k + i) * s)).take s =
        (mem.drop ((k + i) * s)).take s) := by
  induction gs generalizing k mem with
  | nil => simp [deliver]
  | cons g gs ih =>
    have hks : k * s + s ≤ mem.length := by
      have h1 : (k + 1) * s ≤ (k + (g :: gs).length) * s := Nat.mul_le_mul_right _ (by simp)
      rw [Nat.succ_mul] at h1; omega
    have hkk : (k + 1) * s = k * s + s := Nat.succ_mul k s
    simp only [deliver]
    generalize hmem : (if inRange rg g.level = true then
        writeAt mem (k * s) ((sent g.owner)[(mir g.owner).idxOf g.localNum]?.getD [])
        else mem) = mem'
    have hlen : mem'.length = mem.length := by
      rw [← hmem]
      split
      · rename_i hin
        apply writeAt_length
        rw [hd g (by simp) hin]; exact hks
      · rfl
    have hout : ∀ x, x < k * s ∨ k * s + s ≤ x → mem'[x]? = mem[x]? := by
      intro x hx
      rw [← hmem]
      split
      · rename_i hin
        have hl := hd g (by simp) hin
        apply writeAt_get
        · rw [hl]; exact hks
        · rw [hl]; exact hx
      · rfl
    obtain ⟨i1, i2, i3⟩ := ih (k + 1) mem' (fun x hx => hd x (by simp [hx])) (by
      rw [hlen]
      simp only [List.length_cons] at hm
      rw [show k + 1 + gs.length = k + (gs.length + 1) by omega]; exact hm)
    refine ⟨?_, ?_, ?_⟩
    · intro x hx
      rw [i1 x (by omega), hout x (Or.inl hx)]
    · intro i g' hg' hin
      cases i with
      | zero =>
        simp only [List.getElem?_cons_zero, Option.some.injEq] at hg'
        subst hg'
        simp only [Nat.add_zero]
        rw [read_ext _ mem' (k * s) s (fun x h1 h2 => i1 x (by omega))]
        rw [← hmem]
        rw [if_pos hin]
        have hl := hd g (by simp) hin
        have := writeAt_read_same mem (k * s) ((sent g.owner)[(mir g.owner).idxOf g.localNum]?.getD []) (by omega)
        rw [hl] at this
        exact this
      | succ i =>
        simp only [List.getElem?_cons_succ] at hg'
        have := i2 i g' hg' hin
        rw [show k + (i + 1) = k + 1 + i by omega]
        exact this
    · intro i g' hg' hin
      cases i with
      | zero =>
        simp only [List.getElem?_cons_zero, Option.some.injEq] at hg'
        subst hg'
        simp only [Nat.add_zero]
        rw [read_ext _ mem' (k * s) s (fun x h1 h2 => i1 x (by omega))]
        rw [← hmem, if_neg (by simp [hin])]
      | succ i =>
        simp only [List.getElem?_cons_succ] at hg'
        have := i3 i g' hg' hin
        rw [show k + (i + 1) = k + 1 + i by omega, this]
        apply read_ext
        intro x h1 h2
        apply hout
        right
        have : (k + 1) * s ≤ (k + 1 + i) * s := Nat.mul_le_mul_right _ (by omega)
        omega

/-! Unpacking. -/

theorem unpackLoop_lt (e : Exch) (mn : Int) (ti : Bool) (gs : List Ghost) (k : Nat) :
    ∀ c ∈ unpackLoop e mn ti k gs, k ≤ c.ghostNo := by
  induction gs generalizing k with
  | nil => simp [unpackLoop]
  | cons g gs ih =>
    intro c hc
    simp only [unpackLoop] at hc
    split at hc
    · rcases List.mem_cons.1 hc with h | h
      · subst h; simp
      · have := ih _ c h; omega
    · have := ih _ c hc; omega

theorem unpackLoop_filter (e : Exch) (mn : Int) (ti : Bool) (gs : List Ghost) (k i : Nat) (g : Ghost)
    (hg : gs[i]? = some g) :
    (unpackLoop e mn ti k gs).filter (fun c => decide (c.ghostNo = k + i)) =
      if mn - 1 ≤ g.level then
        [⟨k + i, (e.memory.drop (e.ghostData[k + i]?.getD 0)).take e.dataSize,
          ti && decide (g.level = mn - 1)⟩]
      else [] := by
  induction gs generalizing k i with
  | nil => simp at hg
  | cons a gs ih =>
    cases i with
    | zero =>
      simp only [List.getElem?_cons_zero, Option.some.injEq] at hg
      subst hg
      have hnone : (unpackLoop e mn ti (k + 1) gs).filter (fun c => decide (c.ghostNo = k + 0)) = [] := by
        rw [List.filter_eq_nil_iff]
        intro c hc
        have := unpackLoop_lt e mn ti gs (k + 1) c hc
        simp; omega
      simp only [unpackLoop]
      split
      · rw [List.filter_cons_of_pos (by simp), hnone]; rfl
      · exact hnone
    | succ i =>
      simp only [List.getElem?_cons_succ] at hg
      have h := ih (k + 1) i hg
      rw [show k + 1 + i = k + (i + 1) by omega] at h
      simp only [unpackLoop]
      split
      · rw [List.filter_cons_of_neg (by simp)]
        exact h
      · exact h

end Fclaw.Exchange
