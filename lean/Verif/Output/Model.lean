/-
Model of output by all processes in turn: `src/forestclaw2d.c` 2398–2427
(`fclaw2d_domain_serialization_enter`, `fclaw2d_domain_serialization_leave`,
`Verif.Serial.Model`) around operations on shared files, for a number of output
frames one after the other, and of the loop over the patches of a process.

What is simplified: a process that fails inside of a section never leaves it
(there is no step); the operations of a process are those that it computes from
its own patches, so that they are known when it enters.
-/
import Verif.Serial.Model
import Verif.ParFile.Model

set_option autoImplicit false

namespace Fclaw.Output

open Fclaw.ParFile (Outcome)

/-- All processes with the shared state: calls of enter and leave so far
(`Verif.Serial.Model`), the shared files, and the operations each process still
has to perform before its next call. -/
structure World (Op S : Type) where
  ser : Serial.St
  fs : S
  todo : Nat → List Op

/-- Replace one entry. -/
def set {α : Type} (f : Nat → α) (k : Nat) (v : α) : Nat → α := fun x => if x = k then v else f x

/-- One step of one process (or two, if a message is handed over).  In frame `k`
process `r` performs the operations `inside k r` after enter has returned and
the operations `after k r` after leave has returned. -/
inductive Step {Op S : Type} (n K : Nat) (apply : S → Op → S)
    (inside after : Nat → Nat → Outcome (List Op)) (w : World Op S) : World Op S → Prop where
  | enter (r : Nat) (t : Serial.St) (l : List Op) : w.todo r = [] →
      Serial.enter n K w.ser r = some t → inside (w.ser.pos r / 2) r = .ok l →
      Step n K apply inside after w ⟨t, w.fs, set w.todo r l⟩
  | leave (r : Nat) (t : Serial.St) (l : List Op) : w.todo r = [] →
      Serial.leave n w.ser r = some t → after (w.ser.pos r / 2) r = .ok l →
      Step n K apply inside after w ⟨t, w.fs, set w.todo r l⟩
  | handover (r : Nat) (t : Serial.St) (l l' : List Op) : w.todo r = [] → w.todo (r + 1) = [] →
      Serial.handover n K w.ser r = some t → after (w.ser.pos r / 2) r = .ok l →
      inside (w.ser.pos (r + 1) / 2) (r + 1) = .ok l' →
      Step n K apply inside after w ⟨t, w.fs, set (set w.todo r l) (r + 1) l'⟩
  | op (r : Nat) (o : Op) (l : List Op) : r < n → w.todo r = o :: l →
      Step n K apply inside after w ⟨w.ser, apply w.fs o, set w.todo r l⟩

/-- What `n` processes can reach in `K` frames from the files `fs0`. -/
inductive Reach {Op S : Type} (n K : Nat) (apply : S → Op → S)
    (inside after : Nat → Nat → Outcome (List Op)) (fs0 : S) : World Op S → Prop where
  | start : Reach n K apply inside after fs0 ⟨Serial.start, fs0, fun _ => []⟩
  | step (w w' : World Op S) : Reach n K apply inside after fs0 w →
      Step n K apply inside after w w' → Reach n K apply inside after fs0 w'

/-- Process `r` has nothing left to do for frame `k`. -/
def Finished {Op S : Type} (w : World Op S) (k r : Nat) : Prop :=
  2 * k + 2 < w.ser.pos r ∨ 2 * k + 2 = w.ser.pos r ∧ w.todo r = []

/-- A block of the local domain: `src/forestclaw2d.h` 122–151. -/
structure LocalBlock (α : Type) where
  patches : List α
  numPatchesBefore : Nat

/-- The local domain: `src/forestclaw2d.h` 171–215. -/
structure Dom (α : Type) where
  mpirank : Nat
  globalNumPatches : Nat
  globalNumPatchesBefore : Nat
  blocks : List (LocalBlock α)

/-- `fclaw2d_domain_iterate_patches`, `src/forestclaw2d.c` 247–263, with the
operations of the callback for each patch. -/
def catIdx {α γ : Type} (f : Nat → α → Outcome (List γ)) : Nat → List α → Outcome (List γ)
  | _, [] => .ok []
  | n, x :: xs => (f n x).bind fun a => (catIdx f (n + 1) xs).bind fun b => .ok (a ++ b)

def iteratePatches {α γ : Type} (cb : Nat → LocalBlock α → Nat → α → Outcome (List γ))
    (d : Dom α) : Outcome (List γ) :=
  catIdx (fun blockno b => catIdx (fun patchno pt => cb blockno b patchno pt) 0 b.patches) 0 d.blocks

end Fclaw.Output
