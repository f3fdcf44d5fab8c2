import Verif.TeVector.Lemmas
import Mathlib.Tactic.NormNum
/-
C109: the vectors of the elliptic solver.
-/
set_option autoImplicit false
namespace Fclaw.TeVector

open Fort

theorem number_nodup (C : Config) : ((patches C).map fun x => C.before x.1 + x.2).Nodup := by
  refine nodup_map_on _ _ (patches_nodup C) ?_
  intro x hx y hy e
  have := number_inj C ((mem_patches C x).1 hx).2 ((mem_patches C y).1 hy).2 e
  exact Prod.ext this.1 this.2

/-- **C109.** The elliptic solver sees the data of each patch of the process: patches are numbered through all blocks, each number belongs to a
patch, and element `(i,j,e)` of patch `b, p` of the vector, counted from 0 without ghost cells, is element
`(i+1,j+1,e+1)` of the array of this patch: its right-hand side, or its solution. -/
theorem C109_get (C : Config) (ch : Choice) : ∃ V, C.getVector ch = some V ∧
    (V.n0 = C.mx ∧ V.n1 = C.my ∧ V.n2 = C.fields (fieldOf ch) ∧ V.ghost = C.mbc) ∧
    (∀ k, k < V.num ↔ ∃ b p, IsPatch C b p ∧ k = C.before b + p) ∧
    ∀ b p, IsPatch C b p → ∀ i j e : ℤ, IsCell C (C.fields (fieldOf ch)) i j e →
      V.address (C.before b + p) i j e = some (((b, p), fieldOf ch), element C (i + 1) (j + 1) (e + 1)) ∧
      0 ≤ element C (i + 1) (j + 1) (e + 1) ∧ element C (i + 1) (j + 1) (e + 1) < C.size (fieldOf ch) := by
  obtain ⟨s, e, h, _⟩ := loop_set (patches C) (fun x => C.before x.1 + x.2) (fun x => some (x, fieldOf ch))
    (fun x => C.setStart ch x.1 x.2) (by
      intro x hx s
      have := (mem_patches C x).1 hx
      unfold Config.setStart
      rw [if_pos (before_lt C this.1 this.2), getData_fields]) (number_nodup C) fun _ => none
  refine ⟨_, by unfold Config.getVector; rw [loop_patches]; erw [e]; rfl, ?_, ?_, ?_⟩
  · exact ⟨rfl, rfl, by cases ch <;> rfl, rfl⟩
  · intro k
    constructor
    · intro hk
      obtain ⟨b, p, h1, h2, h3⟩ := number_surj C _ k hk
      exact ⟨b, p, ⟨h1, h2⟩, h3⟩
    · rintro ⟨b, p, hp, rfl⟩
      exact before_lt C hp.1 hp.2
  · intro b p hp i j e' hc
    have el := element_cell C _ i j e' hc
    refine ⟨?_, el.2.1, ?_⟩
    · unfold Vec.address
      have hs := h (b, p) ((mem_patches C _).2 hp)
      dsimp only at hs ⊢
      rw [if_pos (before_lt C hp.1 hp.2), hs, Option.map_some, el.1]
      congr 2
      ring
    · have := el.2.2
      unfold Config.size
      push_cast
      exact this

/-- **C109.** Storing a vector gives each cell of each patch, ghost cells too, the value that the vector has for it, and changes
nothing else: no other array and nothing around the arrays. -/
theorem C109_store {α : Type} (C : Config) (ch : Choice) (view : ℕ → ℤ → ℤ → ℤ → α) (mem : Mem α) :
    ∃ mem', C.storeVector ch view mem = some mem' ∧
      (∀ b p, IsPatch C b p → ∀ i j e : ℤ, IsCell C (C.fields (fieldOf ch)) i j e →
        mem' (b, p) (fieldOf ch) (element C (i + 1) (j + 1) (e + 1)) = view (C.before b + p) i j e) ∧
      ∀ (x : Ptr) (F : Field) (o : ℤ),
        ¬ (IsPatch C x.1 x.2 ∧ F = fieldOf ch ∧ ∃ i j e : ℤ, IsCell C (C.fields F) i j e ∧ o = element C (i + 1) (j + 1) (e + 1)) →
        mem' x F o = mem x F o := by
  have key : ∀ (l : List Ptr), l.Nodup → ∀ mem : Mem α, ∃ mem',
      loop l (fun x mem => (C.storePatch ch (view (C.before x.1 + x.2)) (mem (x.1, x.2) (C.getData ch).1)).map fun arr =>
        fun y G => if y = (x.1, x.2) ∧ G = (C.getData ch).1 then arr else mem y G) mem = some mem' ∧
      ∀ (x : Ptr) (F : Field) (o : ℤ), mem' x F o =
        if x ∈ l ∧ F = fieldOf ch ∧ 0 ≤ o ∧ o < (C.size F : ℤ) then valueAt C (view (C.before x.1 + x.2)) o else mem x F o := by
    intro l
    induction l with
    | nil => intro _ mem; exact ⟨mem, rfl, by intro x F o; simp⟩
    | cons y l ih =>
      intro hn mem
      rw [List.nodup_cons] at hn
      obtain ⟨arr, ea, ha⟩ := storePatch_spec C ch (view (C.before y.1 + y.2)) (mem (y.1, y.2) (fieldOf ch))
      obtain ⟨mem', e, h⟩ := ih hn.2 (fun z G => if z = (y.1, y.2) ∧ G = fieldOf ch then arr else mem z G)
      refine ⟨mem', ?_, ?_⟩
      · simp only [loop, getData_fields] at e ⊢
        rw [ea]
        simp only [Option.map_some, Option.bind_some]
        exact e
      · intro x F o
        rw [h x F o]
        by_cases hx : x = y
        · subst hx
          rw [if_neg (fun q => hn.1 q.1)]
          by_cases hF : F = fieldOf ch
          · subst hF
            rw [if_pos ⟨rfl, rfl⟩, ha o]
            simp
          · rw [if_neg (fun q => hF q.2), if_neg (fun q => hF q.2.1)]
        · have : ¬ (x = (y.1, y.2) ∧ F = fieldOf ch) := fun q => hx q.1
          rw [if_neg this]
          simp [hx]
  obtain ⟨mem', e, h⟩ := key (patches C) (patches_nodup C) mem
  refine ⟨mem', ?_, ?_, ?_⟩
  · unfold Config.storeVector
    exact (loop_patches _ _ _ _).trans e
  · intro b p hp i j e' hc
    have el := element_cell C _ i j e' hc
    rw [h, if_pos ⟨(mem_patches C _).2 hp, rfl, el.2.1, by unfold Config.size; push_cast; exact el.2.2⟩, el.1]
    obtain ⟨hi, hj, _⟩ := hc
    exact value_cell C _ i j e' _ _ rfl rfl (by omega) (by omega)
  · intro x F o hx
    rw [h, if_neg]
    rintro ⟨h1, h2, h3, h4⟩
    refine hx ⟨(mem_patches C _).1 h1, h2, position_cell C _ o h3 ?_⟩
    unfold Config.size at h4
    push_cast at h4
    exact h4

/-- What a vector contains. -/
def Vec.read {α : Type} (V : Vec) (mem : Mem α) (k : ℕ) (i j e : ℤ) : Option α := (V.address k i j e).map fun a => mem a.1.1 a.1.2 a.2

/-- **C109.** After a vector has been stored, the vector that the solver is given has the same elements. -/
theorem C109_again {α : Type} (C : Config) (ch : Choice) (view : ℕ → ℤ → ℤ → ℤ → α) (mem : Mem α) :
    ∃ V mem', C.getVector ch = some V ∧ C.storeVector ch view mem = some mem' ∧
      ∀ k, k < V.num → ∀ i j e : ℤ, IsCell C (C.fields (fieldOf ch)) i j e → V.read mem' k i j e = some (view k i j e) := by
  obtain ⟨V, e1, _, hk, ha⟩ := C109_get C ch
  obtain ⟨mem', e2, hs, _⟩ := C109_store C ch view mem
  refine ⟨V, mem', e1, e2, ?_⟩
  intro k hk' i j e hc
  obtain ⟨b, p, hp, rfl⟩ := (hk k).1 hk'
  unfold Vec.read
  rw [(ha b p hp i j e hc).1, Option.map_some, hs b p hp i j e hc]

/-- **C109.** Storing what the vector of the solver contains changes nothing. -/
theorem C109_same {α : Type} (C : Config) (ch : Choice) (mem : Mem α) (view : ℕ → ℤ → ℤ → ℤ → α)
    (hv : ∀ V, C.getVector ch = some V → ∀ k, k < V.num → ∀ i j e : ℤ, IsCell C (C.fields (fieldOf ch)) i j e →
      V.read mem k i j e = some (view k i j e)) :
    C.storeVector ch view mem = some mem := by
  obtain ⟨V, e1, _, hk, ha⟩ := C109_get C ch
  obtain ⟨mem', e2, hs, ho⟩ := C109_store C ch view mem
  rw [e2]
  congr 1
  funext x F o
  by_cases h : IsPatch C x.1 x.2 ∧ F = fieldOf ch ∧ ∃ i j e : ℤ, IsCell C (C.fields F) i j e ∧ o = element C (i + 1) (j + 1) (e + 1)
  · obtain ⟨hp, rfl, i, j, e, hc, rfl⟩ := h
    have h1 := hs x.1 x.2 hp i j e hc
    have h2 := hv V e1 _ ((hk _).2 ⟨x.1, x.2, hp, rfl⟩) i j e hc
    unfold Vec.read at h2
    rw [(ha x.1 x.2 hp i j e hc).1, Option.map_some] at h2
    exact h1.trans (Option.some.inj h2).symm
  · exact ho x F o h

/-! Two blocks with two patches and one, 4 by 3 cells, 2 layers of ghost cells. -/

def exC : Config := ⟨4, 3, 2, 1, 2, 2, fun b => if b = 0 then 2 else 1⟩

example : IsPatch exC 1 0 ∧ exC.before 1 + 0 = 2 ∧ IsCell exC 2 (-2) 4 1 ∧ element exC (-1) 5 2 = 104 := by
  refine ⟨⟨by decide, by decide⟩, by decide, ?_, by decide⟩
  unfold IsCell
  decide

example : ∃ mem', exC.storeVector .rhs (fun k i j e => (k : ℤ) * 1000 + e * 100 + j * 10 + i) (fun _ _ _ => 0) = some mem' ∧
    mem' (1, 0) .rhs 104 = 2138 ∧ mem' (1, 0) .soln 104 = 0 := by
  obtain ⟨mem', e, h1, h2⟩ := C109_store exC .rhs (fun k i j e => (k : ℤ) * 1000 + e * 100 + j * 10 + i) (fun _ _ _ => 0)
  refine ⟨mem', e, ?_, ?_⟩
  · have h := h1 1 0 ⟨by decide, by decide⟩ (-2) 4 1 (by unfold IsCell; decide)
    have e1 : element exC (-2 + 1) (4 + 1) (1 + 1) = 104 := by decide
    have e2 : exC.before 1 + 0 = 2 := by decide
    rw [e1, e2] at h
    rw [show Field.rhs = fieldOf .rhs from rfl, h]
    norm_num
  · refine h2 (1, 0) .soln 104 ?_
    rintro ⟨_, h, _⟩
    cases h

end Fclaw.TeVector
