/-
C113: the ASCII files of GeoClaw hold solution and surface of all patches.
-/
import Verif.GeoAscii.Lemmas

set_option autoImplicit false
set_option linter.unusedSimpArgs false

namespace Fclaw.GeoAscii

open Fclaw.ParFile (Outcome)
open Fclaw.Ascii
open Fclaw.GeoAscii.Spec

variable {R : Type}

/-- A patch with up to four equations: header, and one line for each cell with its components and the height of the
surface. `C113_five_counterexample` shows what is missing. -/
theorem C113_patch_partial (A : Fmt R) (add : R → R → R) (p : Patch R) (hm : 1 ≤ p.meqn) (h4 : p.meqn ≤ 4)
    (ha : 1 ≤ p.maux) :
    ∃ q', writeFile A add p =
      .ok (Spec.head A p.num p.level p.blockno p.mpirank p.mx p.my p.xlower p.ylower p.dx p.dy ++
        Spec.body A add p.mx p.my p.meqn p.q p.aux, q') := by
  refine ⟨Spec.after A p.mx p.my p.meqn p.q, ?_⟩
  rw [writeFile_eq A add p hm (by omega) ha, lines_eq A add p h4, gridHeader_eq]

/-- Output changes the solution only where values are too small to be written, and only in the cells of the patch. -/
theorem C113_after (A : Fmt R) (add : R → R → R) (p : Patch R) (hm : 1 ≤ p.meqn) (ha : 1 ≤ p.maux)
    (ls : List Line) (q' : Nat → Int → Int → R) (h : writeFile A add p = .ok (ls, q')) :
    q' = Spec.after A p.mx p.my p.meqn p.q := by
  by_cases h5 : p.meqn ≤ 5
  · rw [writeFile_eq A add p hm h5 ha] at h
    injection h with h
    injection h with _ h
    exact h.symm
  · unfold writeFile at h
    rw [if_pos (by omega)] at h
    exact absurd h (by simp)

/-- The run stops if and only if there are more than five equations. -/
theorem C113_stop (A : Fmt R) (add : R → R → R) (p : Patch R) (hm : 1 ≤ p.meqn) (ha : 1 ≤ p.maux) :
    writeFile A add p = .abort ↔ 5 < p.meqn := by
  constructor
  · intro h
    by_contra h5
    rw [writeFile_eq A add p hm (by omega) ha] at h
    exact absurd h (by simp)
  · intro h
    unfold writeFile
    rw [if_pos h]

/-- With five equations each cell takes two lines: the height of the surface stands alone on the second one. -/
theorem C113_five_counterexample (A : Fmt R) (add : R → R → R) (p : Patch R) (h5 : p.meqn = 5) (ha : 1 ≤ p.maux)
    (hx : p.mx = 1) (hy : p.my = 1) :
    ∃ first q', writeFile A add p =
      .ok (Spec.head A p.num p.level p.blockno p.mpirank 1 1 p.xlower p.ylower p.dx p.dy ++
        [first, A.e26 (shown A (add (shown A (p.q 1 1 1)) (p.aux 1 1 1))), [' ', ' ']], q') := by
  refine ⟨((upTo 5).flatMap fun m => A.e26 (shown A (p.q m 1 1))), Spec.after A p.mx p.my p.meqn p.q, ?_⟩
  rw [writeFile_eq A add p (by omega) (by omega) ha, gridHeader_eq, hx, hy]
  congr 2
  simp [lines, hx, hy, h5, values, upTo, format5, List.range']

/-- The files of a frame with up to four equations, whatever the files held before: sizes, the sections of all patches
in their order, and no other file is touched. -/
theorem C113_files_partial (A : Fmt R) (add : R → R → R) (iframe : Nat) (time : R) (meqn maux : Nat)
    (hm : 1 ≤ meqn) (h4 : meqn ≤ 4) (ha : 1 ≤ maux) (ps : List (Patch R))
    (hp : ∀ p ∈ ps, p.meqn = meqn ∧ p.maux = maux) (fs : Files) :
    ∃ ops, outputAscii A add iframe time meqn maux ps = .ok ops ∧
      ops.foldl apply fs (frameName 't' iframe) = some (Spec.timeFile A time (meqn + 1) ps.length maux) ∧
      ops.foldl apply fs (frameName 'q' iframe) = some (ps.flatMap fun p =>
        Spec.head A p.num p.level p.blockno p.mpirank p.mx p.my p.xlower p.ylower p.dx p.dy ++
          Spec.body A add p.mx p.my p.meqn p.q p.aux) ∧
      ∀ x, x ≠ frameName 't' iframe → x ≠ frameName 'q' iframe → ops.foldl apply fs x = fs x := by
  have hw : ∀ ps : List (Patch R), (∀ p ∈ ps, p.meqn = meqn ∧ p.maux = maux) →
      writePatches A add iframe ps = .ok ((ps.flatMap fun p =>
        Spec.head A p.num p.level p.blockno p.mpirank p.mx p.my p.xlower p.ylower p.dx p.dy ++
          Spec.body A add p.mx p.my p.meqn p.q p.aux).map (Op.append (frameName 'q' iframe))) := by
    intro ps
    induction ps with
    | nil => intro _; rfl
    | cons p ps ih =>
      intro hp
      obtain ⟨e1, e2⟩ := hp p (by simp)
      obtain ⟨q', hq⟩ := C113_patch_partial A add p (by omega) (by omega) (by omega)
      unfold writePatches
      rw [hq, ih (fun p h => hp p (by simp [h])), List.flatMap_cons, List.map_append]
      rfl
  have hne := frameName_ne iframe
  refine ⟨_, by unfold outputAscii; rw [hw ps hp]; rfl, ?_, ?_, ?_⟩
  · rw [List.foldl_append, appends]
    simp only [hne.symm, false_and, if_false]
    simp [writeHeader, apply, hne.symm, Spec.timeFile, gap17, gap4]
  · rw [List.foldl_append, appends]
    by_cases he : (ps.flatMap fun p =>
        Spec.head A p.num p.level p.blockno p.mpirank p.mx p.my p.xlower p.ylower p.dx p.dy ++
          Spec.body A add p.mx p.my p.meqn p.q p.aux) = []
    · rw [he]
      simp [writeHeader, apply]
    · beta_reduce
      rw [if_pos ⟨rfl, he⟩]
      simp [writeHeader, apply]
  · intro x ht hq
    rw [List.foldl_append, appends]
    simp [writeHeader, apply, ht, hq]

/-- Up to 10000 frames have files of their own. `C113_names_counterexample` shows what is missing. -/
theorem C113_names_partial (k l : Nat) (hk : k < 10000) (hl : l < 10000) (c d : Char)
    (h : frameName c k = frameName d l) : c = d ∧ k = l := by
  simp only [frameName, List.cons.injEq, and_true, true_and] at h
  obtain ⟨hc, h3, h2, h1, h0⟩ := h
  have := digit_inj _ _ h3
  have := digit_inj _ _ h2
  have := digit_inj _ _ h1
  have := digit_inj _ _ h0
  exact ⟨hc, by omega⟩

/-- A frame 10000 later replaces the files of this one. -/
theorem C113_names_counterexample (c : Char) (k : Nat) : frameName c (k + 10000) = frameName c k := by
  have h3 : (k + 10000) / 10 / 10 / 10 % 10 = k / 10 / 10 / 10 % 10 := by omega
  have h2 : (k + 10000) / 10 / 10 % 10 = k / 10 / 10 % 10 := by omega
  have h1 : (k + 10000) / 10 % 10 = k / 10 % 10 := by omega
  have h0 : (k + 10000) % 10 = k % 10 := by omega
  simp only [frameName, digitAt, h3, h2, h1, h0]

/-! ### The hypotheses can be met -/

/-- A format for integers: a letter in 26 columns. -/
def fmtX : Fmt Int where
  zero := 0
  tiny v := v = 1
  e24 _ := List.replicate 24 'x'
  e26 v := List.replicate 25 ' ' ++ [if v = 0 then 'z' else if v < 0 then 'm' else 'p']
  e30 _ := List.replicate 30 'x'

/-- Two cells: depths 1 (too small) and 5 over the ground at -5. -/
def patchX (meqn : Nat) : Patch Int where
  mx := 2
  my := 1
  meqn := meqn
  maux := 1
  xlower := 0
  ylower := 0
  dx := 1
  dy := 1
  q := fun m i _ => if m = 1 then (if i = 1 then 1 else 5) else 7
  aux := fun _ _ _ => -5
  num := 3
  level := 1
  blockno := 0
  mpirank := 0

example : 1 ≤ (patchX 3).meqn ∧ (patchX 3).meqn ≤ 4 ∧ 1 ≤ (patchX 3).maux := by decide
example : Spec.body fmtX (· + ·) 2 1 3 (patchX 3).q (patchX 3).aux =
    [List.replicate 25 ' ' ++ ['z'] ++ List.replicate 25 ' ' ++ ['p'] ++ List.replicate 25 ' ' ++ ['p'] ++
       List.replicate 25 ' ' ++ ['m'],
     List.replicate 25 ' ' ++ ['p'] ++ List.replicate 25 ' ' ++ ['p'] ++ List.replicate 25 ' ' ++ ['p'] ++
       List.replicate 25 ' ' ++ ['z'],
     [' ', ' ']] := by decide +kernel
example : Spec.after fmtX 2 1 3 (patchX 3).q 1 1 1 = 0 ∧ Spec.after fmtX 2 1 3 (patchX 3).q 1 0 1 = 5 ∧
    (patchX 3).q 1 1 1 = 1 := by decide
example : 5 < (patchX 6).meqn ∧ 1 ≤ (patchX 6).maux := by decide
example : ({ patchX 5 with mx := 1 } : Patch Int).meqn = 5 ∧ ({ patchX 5 with mx := 1 } : Patch Int).mx = 1 ∧
    ({ patchX 5 with mx := 1 } : Patch Int).my = 1 := by decide
example : ∀ p ∈ [patchX 3, patchX 3], p.meqn = 3 ∧ p.maux = 1 := by decide
example : frameName 'q' 42 = "fort.q0042".toList ∧ frameName 't' 9999 = "fort.t9999".toList ∧
    frameName 'q' 10042 = "fort.q0042".toList := by decide +kernel

end Fclaw.GeoAscii
