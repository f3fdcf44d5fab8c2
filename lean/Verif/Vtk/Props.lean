/-
C77: the VTK file of an AMR solution shows the solution, whoever owns the patches.
-/
import Verif.Vtk.File

set_option autoImplicit false

namespace Fclaw.Vtk

open Fclaw.ParFile (Byte File Outcome Distribution fileOf)

/-- **C77, with MPI I/O.**  Whatever the forest, however its patches are
distributed over the processes and in whatever order their bytes reach the
file: the file is a header with the eight arrays in their place, the arrays,
and the end of the XML text.  Each array has as many entries as there are cells
(or points), and reading the file by the rules of the format gives every cell
of every patch: its corners in the order of VTK, its owner, block and global
patch number, and its values.  What is missing from the full property: the data
of one patch must be less than two gigabytes (`Fits`), see the
counterexamples below. -/
theorem C77_parallel_partial {R : Type} (N : Arith R) (p : Params) (F : Forest R)
    (D : Distribution F.count) (h : Valid N p F D) (debug : Bool)
    (sched : List (Nat × Byte) → List (Nat × Byte)) (hs : ∀ l, (sched l).Perm l) :
    ∃ (v : Vtu) (payload : List Byte),
      writeFileMpiio N p debug false false sched F.count (localDoms F D)
        = .ok (fileOf (v.xml ++ payload ++ trailer)) ∧
      v.Named p.meqn ∧ v.Complete p payload ∧ Shows N p F D v payload :=
  ⟨_, _, file_of h debug sched hs, named p _, h.ctx.complete, shows h⟩

/-- **C77, another distribution.**  Two runs with the same patches on different
numbers of processes, or with the patches distributed in another way, write
files with the same header and the same arrays, except for the one that says
who owns a cell. -/
theorem C77_same_partial {R : Type} (N : Arith R) (p : Params) (F : Forest R)
    (D E : Distribution F.count) (hD : Valid N p F D) (hE : Valid N p F E) (debug debug' : Bool)
    (sched sched' : List (Nat × Byte) → List (Nat × Byte)) (hs : ∀ l, (sched l).Perm l)
    (hs' : ∀ l, (sched' l).Perm l) :
    ∃ (v : Vtu) (payload payload' : List Byte),
      writeFileMpiio N p debug false false sched F.count (localDoms F D)
        = .ok (fileOf (v.xml ++ payload ++ trailer)) ∧
      writeFileMpiio N p debug' false false sched' F.count (localDoms F E)
        = .ok (fileOf (v.xml ++ payload' ++ trailer)) ∧
      v.Named p.meqn ∧ payload.length = payload'.length ∧
      ∀ a ∈ [v.position, v.connectivity, v.offsets, v.types, v.blockno, v.patchno, v.meqn],
        (appended payload a).isSome ∧ appended payload a = appended payload' a := by
  refine ⟨_, _, _, file_of hD debug sched hs, file_of hE debug' sched' hs', named p _, ?_, ?_⟩
  · rw [payload_length _ hD.ctx.ok, payload_length _ hE.ctx.ok]
    rfl
  · have key : ∀ (a : DataArray) (e e' : FE R) (w w' : Nat), Has N p F D a e w → Has N p F E a e' w' →
        e.all F = e'.all F → (appended (payload F (arrays N p F D)) a).isSome ∧
          appended (payload F (arrays N p F D)) a = appended (payload F (arrays N p F E)) a := by
      intro a e e' w w' h h' hee
      rw [h.app, h'.app, hee]
      exact ⟨rfl, rfl⟩
    intro a ha
    simp only [List.mem_cons, List.not_mem_nil, or_false] at ha
    rcases ha with rfl | rfl | rfl | rfl | rfl | rfl | rfl
    · exact key _ _ _ _ _ hD.ctx.position hE.ctx.position rfl
    · exact key _ _ _ _ _ hD.ctx.conn hE.ctx.conn rfl
    · exact key _ _ _ _ _ hD.ctx.offsets hE.ctx.offsets rfl
    · exact key _ _ _ _ _ hD.ctx.types hE.ctx.types rfl
    · exact key _ _ _ _ _ hD.ctx.blockno hE.ctx.blockno rfl
    · exact key _ _ _ _ _ hD.ctx.patchno hE.ctx.patchno rfl
    · exact key _ _ _ _ _ hD.ctx.meqn hE.ctx.meqn rfl

/-- **C77, failure.**  If process 0 cannot write the header or the footer, all
processes return an error. -/
theorem C77_failure {R : Type} (N : Arith R) (p : Params) (F : Forest R)
    (D : Distribution F.count) (h : Valid N p F D) (debug headerFails footerFails : Bool)
    (hf : headerFails = true ∨ footerFails = true)
    (sched : List (Nat × Byte) → List (Nat × Byte)) :
    writeFileMpiio N p debug headerFails footerFails sched F.count (localDoms F D) = .err 1 := by
  unfold writeFileMpiio
  rw [setup_eq h.fits]
  cases headerFails with
  | true => rfl
  | false =>
    have hft : footerFails = true := by simpa using hf
    subst hft
    have hw := allWrites_eq debug
      (Fclaw.ParFile.writeAt emptyFile 0 (headerText p (stateOf p F.count))).size
      (arrays N p F D) h.ctx.ok (List.range D.mpisize) (fun r hr => List.mem_range.1 hr)
    rw [arrays_fields] at hw
    unfold localDoms
    simp only [bind_ok, Bool.false_eq_true, if_false, if_true, hw]

/-- **C77, without MPI I/O.**  A single process writes the same file when the
library was built without MPI I/O. -/
theorem C77_serial_partial {R : Type} (N : Arith R) (p : Params) (F : Forest R)
    (D : Distribution F.count) (h : Valid N p F D) (hP : D.mpisize = 1)
    (hcells : 0 < p.cells) (hmeqn : 0 < p.meqn) (debug : Bool)
    (sched : List (Nat × Byte) → List (Nat × Byte)) (hs : ∀ l, (sched l).Perm l) :
    writeFileSerial N p false false F.count (localDoms F D)
      = writeFileMpiio N p debug false false sched F.count (localDoms F D) := by
  rw [file_of h debug sched hs]
  have hz := nonempty h.ctx.fit hcells hmeqn (N := N) (D := D)
  have hd : localDoms F D = [localDom F D 0] := by
    unfold localDoms; rw [hP]; rfl
  have hser := dataSerial_eq hP (arrays N p F D) h.ctx.ok hz
  rw [arrays_fields] at hser
  unfold writeFileSerial
  rw [setup_eq h.fits, hd, ← headerText_eq]
  have hr : (localDom F D 0).mpirank = 0 := rfl
  simp only [Outcome.bind, Bool.false_eq_true, if_false, List.any_cons, List.any_nil, hr,
    Nat.lt_irrefl, decide_false, Bool.false_and, Bool.or_false, gt_iff_lt, hser]
  have h0 := Fclaw.ParFile.holds_writeAt
    (headerText p (stateOf p F.count) ++ payload F (arrays N p F D) ++ footerText)
    holds_empty (le_refl 0)
  simp only [List.length_nil, List.nil_append, Nat.zero_add, Nat.zero_max, zero_le,
    sup_of_le_right] at h0
  exact congrArg Outcome.ok (Fclaw.ParFile.holds_fileOf h0)

/-! ### Where the code does not do this -/

/-- Two processes, one patch each. -/
def twoForest : Forest Nat :=
  [[⟨0, 0, 0, 1, 1, 1, List.replicate 9 7⟩], [⟨1, 0, 0, 1, 1, 1, List.replicate 9 8⟩]]

def twoProcs : Distribution twoForest.count where
  mpisize := 2
  gfq := fun r => min r 2
  first := rfl
  last := rfl
  mono := fun r _ => by omega

/-- Integers in place of doubles. -/
def natArith : Arith Nat where
  zero := 0
  lin := fun a i d => a + i * d
  dbl := le 8
  flt := le 4
  c2m2 := fun _ x y => (x, y, 0)
  c2m3 := fun _ x y z => (x, y, z)

/-- One cell in each patch, one layer of ghost cells, one equation. -/
def oneCell : Params := ⟨1, 1, none, 1, 1, false⟩

theorem two_valid : Valid natArith oneCell twoForest twoProcs where
  arith := ⟨fun x => le_length _ x, fun x => le_length _ x⟩
  fits := ⟨by decide, by decide, by decide, by decide⟩
  patches := by
    intro blk hb pt hp
    simp only [twoForest, List.mem_cons, List.not_mem_nil, or_false] at hb
    rcases hb with rfl | rfl <;>
      · simp only [List.mem_cons, List.not_mem_nil, or_false] at hp
        subst hp
        unfold Patch.Ok
        simp [oneCell]
  some := by decide
  procs := by decide
  blocks := by decide

/-- **Without MPI I/O and with two processes** the file is written through a file
pointer that process 1 never set. -/
theorem C77_noMpiio_counterexample :
    ∃ (N : Arith Nat) (p : Params) (F : Forest Nat) (D : Distribution F.count), Valid N p F D ∧
      0 < p.cells ∧ 0 < p.meqn ∧
      writeFileSerial N p false false F.count (localDoms F D) = .ub :=
  ⟨natArith, oneCell, twoForest, twoProcs, two_valid, by decide, by decide, rfl⟩

/-- **Large patches**: with eight patches of 8192 times 8192 cells the numbers of
the points need 64 bits, and the size of the connectivity of a patch, computed
with type `int`, overflows. -/
theorem C77_large_counterexample (R : Type) (N : Arith R) (mbc : Nat) (debug : Bool)
    (sched : List (Nat × Byte) → List (Nat × Byte)) (doms : List (Dom R)) :
    writeFileMpiio N ⟨8192, 8192, none, mbc, 1, false⟩ debug false false sched 8 doms = .ub := by
  have : setup ⟨8192, 8192, none, mbc, 1, false⟩ 8 = .ub :=
    setup_overflow 8192 8192 mbc 1 8 false (by decide) (by decide) (by decide) (by decide)
  unfold writeFileMpiio
  rw [this]
  rfl

/-- **No equations**: without MPI I/O a patch with nothing to write is taken for
a failure to write, and the program is aborted. -/
theorem C77_empty_counterexample :
    ∃ (N : Arith Nat) (p : Params) (F : Forest Nat) (D : Distribution F.count), Valid N p F D ∧
      D.mpisize = 1 ∧ writeFileSerial N p false false F.count (localDoms F D) = .abort := by
  refine ⟨natArith, ⟨1, 1, none, 1, 0, false⟩, [[⟨0, 0, 0, 1, 1, 1, []⟩]],
    ⟨1, fun r => min r 1, rfl, rfl, fun r _ => by omega⟩, ?_, rfl, rfl⟩
  exact {
    arith := ⟨fun x => le_length _ x, fun x => le_length _ x⟩
    fits := ⟨by decide, by decide, by decide, by decide⟩
    patches := by
      intro blk hb pt hp
      simp only [List.mem_cons, List.not_mem_nil, or_false] at hb
      subst hb
      simp only [List.mem_cons, List.not_mem_nil, or_false] at hp
      subst hp
      unfold Patch.Ok
      simp
    some := by decide
    procs := by decide
    blocks := by decide }

/-! ### The hypotheses can be met -/

/-- Two patches in two blocks on two processes, the bytes written in reverse
order, debug assertions on: the second cell of the file belongs to process 1,
block 1, patch 1; it has the four corners of the square from (1, 0) to (2, 1)
and the value 8. -/
example : ∃ (v : Vtu) (payload : List Byte),
    writeFileMpiio natArith oneCell true false false List.reverse 2 (localDoms twoForest twoProcs)
      = .ok (fileOf (v.xml ++ payload ++ trailer)) ∧
    readCell v payload 1 = some
      { corners := [le 8 1 ++ le 8 0 ++ le 8 0, le 8 2 ++ le 8 0 ++ le 8 0,
                    le 8 2 ++ le 8 1 ++ le 8 0, le 8 1 ++ le 8 1 ++ le 8 0]
        kind := 9, rank := 1, block := 1, patch := 1, values := [le 4 8] } := by
  obtain ⟨v, payload, h, -, -, hs⟩ := C77_parallel_partial natArith oneCell twoForest twoProcs
    two_valid true List.reverse (fun l => List.reverse_perm l)
  refine ⟨v, payload, h, ?_⟩
  have := hs.cells 1 1 ⟨1, 0, 0, 1, 1, 1, List.replicate 9 8⟩ rfl 1 (by decide) (by decide)
    (by decide) 0 0 0 (by decide) (by decide) (by decide)
  exact this

/-- The same forest on one process. -/
def oneProc : Distribution twoForest.count :=
  ⟨1, fun r => if r = 0 then 0 else 2, rfl, rfl, fun r hr => by split <;> omega⟩

theorem one_valid : Valid natArith oneCell twoForest oneProc :=
  { two_valid with some := by decide, procs := by decide }

example : ∃ (v : Vtu) (payload payload' : List Byte),
    writeFileMpiio natArith oneCell true false false List.reverse 2 (localDoms twoForest twoProcs)
      = .ok (fileOf (v.xml ++ payload ++ trailer)) ∧
    writeFileMpiio natArith oneCell false false false id 2 (localDoms twoForest oneProc)
      = .ok (fileOf (v.xml ++ payload' ++ trailer)) ∧
    appended payload v.meqn = appended payload' v.meqn := by
  obtain ⟨v, a, b, h1, h2, -, -, h⟩ := C77_same_partial natArith oneCell twoForest twoProcs oneProc
    two_valid one_valid true false List.reverse id (fun l => List.reverse_perm l)
    (fun l => List.Perm.refl l)
  exact ⟨v, a, b, h1, h2, (h v.meqn (by simp)).2⟩

example : writeFileSerial natArith oneCell false false 2 (localDoms twoForest oneProc)
    = writeFileMpiio natArith oneCell false false false id 2 (localDoms twoForest oneProc) :=
  C77_serial_partial natArith oneCell twoForest oneProc one_valid rfl (by decide) (by decide) false id
    (fun l => List.Perm.refl l)

example : writeFileMpiio natArith oneCell true false true id 2 (localDoms twoForest twoProcs)
    = .err 1 :=
  C77_failure natArith oneCell twoForest twoProcs two_valid true false true (Or.inr rfl) id

end Fclaw.Vtk
