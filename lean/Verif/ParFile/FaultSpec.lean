/-
When the failure of a collective file function is reported consistently.
-/
import Verif.ParFile.FaultModel

set_option autoImplicit false

namespace Fclaw.ParFile.Fault

/-- All processes return, and they return the same: NULL with one and the same
error if something failed, the context and success otherwise. -/
def Consistent (C : Codes) (failed : Prop) (P : Nat) (res : Result) : Prop :=
  ∃ rets : List Ret, res = .returned rets ∧ rets.length = P ∧
    ((failed ∧ ∃ code, code ≠ 0 ∧ code ≠ C.success ∧
        ∀ r ∈ rets, r = { null := true, errcode := code }) ∨
     (¬ failed ∧ ∀ r ∈ rets, r = { null := false, errcode := C.success }))

/-- Some operation fails on some of the `P` processes. -/
def CreateFaults.Failed (P : Nat) (F : CreateFaults) : Prop :=
  (∃ r, r < P ∧ F.openRes r ≠ 0) ∨ F.header ≠ .ok

def BlockFaults.Failed (P : Nat) (F : BlockFaults) : Prop :=
  (∃ r, r < P ∧ F.setSize r ≠ 0) ∨ F.header ≠ .ok ∨ F.data ≠ .ok ∨ F.pad ≠ .ok

def FieldFaults.Failed (P : Nat) (F : FieldFaults) : Prop :=
  (∃ r, r < P ∧ F.setSize r ≠ 0) ∨ F.header ≠ .ok ∨ (∃ r, r < P ∧ F.all r ≠ .ok) ∨
    F.pad ≠ .ok

/-- MPI codes are positive and below sc_MPI_ERR_LASTCODE; their classes are
file errors other than success and the count error. -/
structure Codes.Ok (C : Codes) : Prop where
  last_pos : 1 < C.last
  cls_pos : ∀ e, 0 < C.cls e
  cls_lt : ∀ e, C.cls e < 20
  cls_ne : ∀ e, C.cls e ≠ 18

/-- A result of a write by process 0 whose code is an MPI error. -/
def IoRes.Ok (C : Codes) : IoRes → Prop
  | .mpi e => 0 < e ∧ e < C.last
  | _ => True

/-- Codes of collective calls are success (0) or MPI errors. -/
def CodesOf (C : Codes) (f : Nat → Nat) : Prop := ∀ r, f r < C.last

/-- All processes get an error from a collective call, of the same class. -/
def AllFail (C : Codes) (P : Nat) (f : Nat → Nat) : Prop :=
  ∀ r, r < P → f r ≠ 0 ∧ C.translate (f r) = C.translate (f 0)

end Fclaw.ParFile.Fault
