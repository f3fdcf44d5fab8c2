/-
Model of serialized sections: `fclaw2d_domain_serialization_enter` and `..._leave`,
src/forestclaw2d.c:2398-2427, called `K` times in turn by each of `n` processes.

`pos r` counts the calls that have returned on rank `r`: the value 2k means that it is outside
and has left k sections, 2k+1 that it is inside section k (counted from 0). `tok r` is the number
of messages sent from rank r-1 to rank r that have not been received. MPI_Send may either store
the message and return (`leave`), or wait for the matching receive (`handover`); an implementation
may choose each time.
-/
set_option autoImplicit false
namespace Fclaw.Serial

structure St where
  pos : Nat → Nat
  tok : Nat → Nat

def upd (f : Nat → Nat) (k v : Nat) : Nat → Nat := fun x => if x = k then v else f x

def start : St := ⟨fun _ => 0, fun _ => 0⟩

/-- `serialization_enter` returns on rank `r`: rank 0 does not wait, others receive the message
of the rank below (src/forestclaw2d.c:2398-2413). `none` if it cannot return now. -/
def enter (n K : Nat) (s : St) (r : Nat) : Option St :=
  if r < n ∧ s.pos r % 2 = 0 ∧ s.pos r < 2 * K then
    if r = 0 then some ⟨upd s.pos r (s.pos r + 1), s.tok⟩
    else if 0 < s.tok r then some ⟨upd s.pos r (s.pos r + 1), upd s.tok r (s.tok r - 1)⟩
    else none
  else none

/-- `serialization_leave` returns on rank `r` (src/forestclaw2d.c:2415-2427); the message to the
next rank, if there is one, is stored. -/
def leave (n : Nat) (s : St) (r : Nat) : Option St :=
  if r < n ∧ s.pos r % 2 = 1 then
    if r + 1 < n then some ⟨upd s.pos r (s.pos r + 1), upd s.tok (r + 1) (s.tok (r + 1) + 1)⟩
    else some ⟨upd s.pos r (s.pos r + 1), s.tok⟩
  else none

/-- `serialization_leave` on rank `r` passes its message directly to the waiting rank `r + 1`:
both calls return. -/
def handover (n K : Nat) (s : St) (r : Nat) : Option St :=
  if r + 1 < n ∧ s.pos r % 2 = 1 ∧ s.pos (r + 1) % 2 = 0 ∧ s.pos (r + 1) < 2 * K then
    some ⟨upd (upd s.pos r (s.pos r + 1)) (r + 1) (s.pos (r + 1) + 1), s.tok⟩
  else none

inductive Step (n K : Nat) (s : St) : St → Prop where
  | enter (r : Nat) (t : St) : enter n K s r = some t → Step n K s t
  | leave (r : Nat) (t : St) : leave n s r = some t → Step n K s t
  | handover (r : Nat) (t : St) : handover n K s r = some t → Step n K s t

/-- States that a schedule can lead to, with the number of steps taken. -/
inductive Reach (n K : Nat) : Nat → St → Prop where
  | start : Reach n K 0 start
  | step (m : Nat) (s t : St) : Reach n K m s → Step n K s t → Reach n K (m + 1) t

end Fclaw.Serial
