/-
Model of the error handling of the parallel file functions of
`src/fclaw2d_file.c`: the sequence of collective calls that every process
makes when file operations fail, and what each process returns.

What is simplified.
* A process is a tree of collective calls.  All processes have to meet in the
  same kind of call; if they do not, some of them wait for ever (`waiting`).
  Broadcasts and reductions use the communicator, the calls on the file the
  file handle; both are collective over all processes.
* Calls that only process 0 makes (`sc_io_write_at`) succeed, fail with an MPI
  error, or write too few bytes.  The collective calls on the file return a
  code of their own on each process.
* The configuration with MPI I/O is modelled (P4EST_ENABLE_MPIIO).
* Numbers of error codes: `last` is sc_MPI_ERR_LASTCODE and `cls` sends an MPI
  code to the position of its class in the list of fclaw2d file errors.
-/
import Mathlib.Data.List.Basic

set_option autoImplicit false

namespace Fclaw.ParFile.Fault

/-- The kinds of collective calls: `sc_MPI_Bcast` from process 0,
`sc_MPI_Allreduce` (logical or), `sc_io_open`, `MPI_File_set_size`,
`sc_io_write_at_all` and `MPI_File_close`. -/
inductive Kind where
  | bcast | allreduce | open_ | setSize | writeAll | close
  deriving DecidableEq

/-- What a process returns: whether the returned context is NULL, and the
error code. -/
structure Ret where
  null : Bool
  errcode : Nat
  deriving DecidableEq

/-- A process: it has returned, its behaviour is undefined, or it enters a
collective call with a value and goes on with the result. -/
inductive Proc where
  | done (r : Ret)
  | ub
  | coll (kind : Kind) (value : Nat) (next : Nat → Proc)

def Proc.isUb : Proc → Bool
  | .ub => true
  | _ => false

def Proc.isDone : Proc → Bool
  | .done _ => true
  | _ => false

def Proc.kind : Proc → Option Kind
  | .coll k _ _ => some k
  | _ => none

def Proc.value : Proc → Nat
  | .coll _ v _ => v
  | _ => 0

def Proc.ret : Proc → Ret
  | .done r => r
  | _ => { null := true, errcode := 0 }

def Proc.resume (v : Nat) : Proc → Proc
  | .coll _ _ k => k v
  | p => p

/-- The result of a collective function on all processes. -/
inductive Result where
  | returned (rets : List Ret)
  | waiting
  | undefined

/-- What a collective call gives to process `r` of `P`: a broadcast the value
of process 0, a reduction the disjunction, a call on the file the code of the
process itself. -/
def collValue (P : Nat) (ps : Nat → Proc) (r : Nat) : Nat :=
  match (ps 0).kind with
  | some .bcast => (ps 0).value
  | some .allreduce => if (List.range P).any (fun q => decide ((ps q).value ≠ 0)) then 1 else 0
  | _ => (ps r).value

/-- The processes run from one collective call to the next. -/
def run (P : Nat) : Nat → (Nat → Proc) → Result
  | 0, _ => .waiting
  | fuel + 1, ps =>
    if (List.range P).any (fun r => (ps r).isUb) then .undefined
    else if (List.range P).all (fun r => (ps r).isDone) then
      .returned ((List.range P).map fun r => (ps r).ret)
    else if (List.range P).all (fun r => decide ((ps r).kind = (ps 0).kind)) then
      run P fuel (fun r => (ps r).resume (collValue P ps r))
    else .waiting

/-- The numbers of the error codes, `src/fclaw2d_file.c` 135–163: the fclaw2d
codes follow on sc_MPI_ERR_LASTCODE.  `cls` is the table of
`fclaw2d_file_error_code_v1` (2183–2259): the file errors 1–11, 12 for
FCLAW2D_FILE_ERR_IO_V1 and 19 for FCLAW2D_FILE_ERR_UNKNOWN_V1. -/
structure Codes where
  last : Nat
  cls : Nat → Nat

/-- FCLAW2D_FILE_ERR_SUCCESS_V1. -/
def Codes.success (C : Codes) : Nat := C.last
/-- FCLAW2D_FILE_ERR_COUNT_V1. -/
def Codes.errCount (C : Codes) : Nat := C.last + 18
/-- FCLAW2D_FILE_ERR_LASTCODE_V1. -/
def Codes.lastV1 (C : Codes) : Nat := C.last + 20

/-- FCLAW2D_FILE_IS_SUCCESS_V1, `src/fclaw2d_file.c` 216–217. -/
def Codes.isSuccess (C : Codes) (e : Nat) : Bool := decide (e = 0 ∨ e = C.success)

/-- `src/fclaw2d_file.c` 2183–2259 (`fclaw2d_file_error_code_v1`). -/
def Codes.translate (C : Codes) (e : Nat) : Nat :=
  if C.success ≤ e ∧ e < C.lastV1 then e
  else if e = 0 then C.success
  else C.last + C.cls e

/-- The outcome of a write that only process 0 makes. -/
inductive IoRes where
  | ok
  | mpi (e : Nat)
  | short
  deriving DecidableEq

/-- `fclaw2d_file_error_cleanup_v1` (508–549) closes the file, which is
collective; then the function returns NULL. -/
def failWith (code : Nat) : Proc :=
  .coll .close 0 fun _ => .done { null := true, errcode := code }

/-- FCLAW2D_FILE_CHECK_NULL_V1, `src/fclaw2d_file.c` 266–273: a decision of the
single process. -/
def checkNull (C : Codes) (e : Nat) (k : Proc) : Proc :=
  if C.isSuccess e then k else failWith (C.translate (C.translate e))

/-- FCLAW2D_HANDLE_MPI_ERROR_V1, `src/fclaw2d_file.c` 291–300. -/
def handleMpiError (C : Codes) (mpiret : Nat) (k : Proc) : Proc :=
  .coll .bcast mpiret fun m =>
    if C.isSuccess m then k else failWith (C.translate m)

/-- FCLAW2D_HANDLE_MPI_COUNT_ERROR_V1, `src/fclaw2d_file.c` 340–348. -/
def handleCountError (C : Codes) (countError : Nat) (k : Proc) : Proc :=
  .coll .bcast countError fun c =>
    if c ≠ 0 then failWith C.errCount else k

/-- FCLAW2D_FILE_CHECK_COUNT_V1, `src/fclaw2d_file.c` 306–327: the error code
is set from the flag of the process itself. -/
def checkCount (C : Codes) (short : Bool) (k : Proc) : Proc :=
  .coll .allreduce (if short then 1 else 0) fun g =>
    if g ≠ 0 then failWith (if short then C.errCount else 0) else k

/-- The normal return. -/
def succeed (C : Codes) : Proc := .done { null := false, errcode := C.success }

/-- After a write by process 0 in the first part of a function, with
FCLAW2D_FILE_CHECK_MPI_V1 and FCLAW2D_FILE_CHECK_COUNT_SERIAL_V1
(`src/fclaw2d_file.c` 282–284, 329–332): an MPI error (translated in place by
FCLAW2D_FILE_CHECK_VERBOSE_V1, 232–240) jumps to the MPI error label, a short
write jumps *over* it to the label of the count error.  The other processes,
whose values do not matter, pass both labels. -/
def firstPart (C : Codes) (rank : Nat) (res : IoRes) (k : Proc) : Proc :=
  if rank = 0 then
    match res with
    | .mpi e => handleMpiError C (C.translate e) (handleCountError C 0 k)
    | .short => handleCountError C 1 k
    | .ok => handleMpiError C 0 (handleCountError C 0 k)
  else handleMpiError C 0 (handleCountError C 0 k)

/-- A write by process 0 after those labels: an error jumps *back* to them.
Process 0 receives its own value there and always leaves through the error
branch; the continuation is never used. -/
def laterPart (C : Codes) (rank : Nat) (res : IoRes) (k : Proc) : Proc :=
  if rank = 0 then
    match res with
    | .mpi e => handleMpiError C (C.translate e) .ub
    | .short => handleCountError C 1 .ub
    | .ok => k
  else k

/-- Failures during `fclaw2d_file_open_create_v1`. -/
structure CreateFaults where
  openRes : Nat → Nat
  header : IoRes

/-- `src/fclaw2d_file.c` 626–717 (`fclaw2d_file_open_create_v1`), for valid
arguments.  After a failed `sc_io_open` (FCLAW2D_FILE_CHECK_OPEN_V1, 245–252)
the file handle is taken to be MPI_FILE_NULL, so that there is nothing to
close.  A short
write of the header jumps to a broadcast over `file_context->mpicomm`, which is
set only after that point. -/
def openCreate (C : Codes) (F : CreateFaults) (rank : Nat) : Proc :=
  .coll .open_ (F.openRes rank) fun e =>
    if C.isSuccess e then
      if rank = 0 ∧ F.header = .short then .ub
      else firstPart C rank F.header (succeed C)
    else .done { null := true, errcode := C.translate (C.translate e) }

/-- Failures during `fclaw2d_file_write_block_v1`. -/
structure BlockFaults where
  setSize : Nat → Nat
  header : IoRes
  data : IoRes
  pad : IoRes

/-- `src/fclaw2d_file.c` 929–1054 (`fclaw2d_file_write_block_v1`), for valid
arguments. -/
def writeBlock (C : Codes) (F : BlockFaults) (rank : Nat) : Proc :=
  .coll .setSize (F.setSize rank) fun e =>
    checkNull C e
      (firstPart C rank F.header
        (laterPart C rank F.data
          (laterPart C rank F.pad (succeed C))))

/-- Failures during `fclaw2d_file_write_field_v1`; `all r` is the result of the
collective write on process `r`. -/
structure FieldFaults where
  setSize : Nat → Nat
  header : IoRes
  all : Nat → IoRes
  pad : IoRes

/-- The code and the short flag of a collective write on one process. -/
def IoRes.code : IoRes → Nat
  | .mpi e => e
  | _ => 0

def IoRes.isShort : IoRes → Bool
  | .short => true
  | _ => false

/-- `src/fclaw2d_file.c` 1464–1602 (`fclaw2d_file_write_field_v1`), for valid
arguments. -/
def writeField (C : Codes) (F : FieldFaults) (rank : Nat) : Proc :=
  .coll .setSize (F.setSize rank) fun e =>
    checkNull C e
      (firstPart C rank F.header
        (.coll .writeAll (F.all rank).code fun e =>
          checkNull C e
            (checkCount C (F.all rank).isShort
              (laterPart C rank F.pad (succeed C)))))

/-- Enough turns for each of these functions. -/
def fuel : Nat := 10

end Fclaw.ParFile.Fault
