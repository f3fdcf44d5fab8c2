/-
Model of the overlap exchange, src/fclaw2d_convenience.c:1286-1992, as run by all processes.

Every process is consumer and producer. `Pt` is the user's point type (copied as bytes), `Q` a
quadrant. The user's callback is a function of the patch and the point; as documented
(fclaw2d_convenience.h:265-330) it changes the point only on leaves of the producer side.
The order in which `MPI_Waitsome` delivers messages is a parameter; messages are matched by
source, as each pair of processes exchanges at most one message per tag.
p4est's searches are modelled as in `Verif.Search`: in the partition search the leaves are the
quadrants that belong to one process, and their number is the rank of that process.
-/
import Verif.Search.Model

set_option autoImplicit false
namespace Fclaw.Overlap
open Fclaw.Search

/-- The consumer's data during the partition search: the marks `op->rank` (-1 is `none`),
`send_buffer` and `query_indices`, src/fclaw2d_convenience.c:1296-1350. -/
structure Cons (Pt : Type) where
  mark : Nat → Option Nat
  sendBuffer : List (Nat × List Pt)
  queryIndices : List (Nat × List Nat)

/-- `overlap_consumer_add`, src/fclaw2d_convenience.c:1358-1399, for the point number `id` (its
content is `point id`). A buffer is pushed if there is none or the last one has a smaller
rank; the assertion that the last rank is not larger is left out, as in an optimised build. -/
def consumerAdd {Pt : Type} (point : Nat → Pt) (s : Cons Pt) (id rank : Nat) : Cons Pt :=
  let mark := fun k => if k = id then some rank else s.mark k
  match s.sendBuffer.getLast?, s.queryIndices.getLast? with
  | some sb, some qi =>
    if sb.1 < rank then
      ⟨mark, s.sendBuffer ++ [(rank, [point id])], s.queryIndices ++ [(rank, [id])]⟩
    else
      ⟨mark, s.sendBuffer.dropLast ++ [(sb.1, sb.2 ++ [point id])],
        s.queryIndices.dropLast ++ [(qi.1, qi.2 ++ [id])]⟩
  | _, _ => ⟨mark, s.sendBuffer ++ [(rank, [point id])], s.queryIndices ++ [(rank, [id])]⟩

/-- `interpolate_partition_fn`, src/fclaw2d_convenience.c:1401-1457; `hit` is the user's callback
on the artificial patches of the consumer side. -/
def partitionFn {Q Pt : Type} (hit : Q → Option Nat → Pt → Bool) (point : Nat → Pt)
    (q : Q) (proc : Option Nat) (s : Cons Pt) (id : Nat) : Cons Pt × Bool :=
  if (s.mark id).isSome then (s, false)
  else if hit q proc (point id) = false then (s, false)
  else
    match proc with
    | none => (s, true)
    | some r => (consumerAdd point s id r, true)

/-- The partition search of a consumer, src/fclaw2d_convenience.c:1931-1955. -/
def partitionSearch {Q Pt : Type} (hit : Q → Option Nat → Pt → Bool) (part : Forest Q)
    (point : Nat → Pt) (num : Nat) : Cons Pt :=
  searchLocal (partitionFn hit point) part (List.range num) ⟨fun _ => none, [], []⟩

/-- `interpolate_local_fn`, src/fclaw2d_convenience.c:1459-1497; the state is the array of points
that is searched with. -/
def localFn {Q Pt : Type} (interp : Q → Option Nat → Pt → Pt × Bool)
    (q : Q) (localNum : Option Nat) (s : Nat → Pt) (i : Nat) : (Nat → Pt) × Bool :=
  let r := interp q localNum (s i)
  (upd s i r.1, r.2)

/-- `p4est_search_local (.., interpolate_local_fn, ops)`: the array of points afterwards. -/
def localSearch {Q Pt : Type} [Inhabited Pt] (interp : Q → Option Nat → Pt → Pt × Bool)
    (F : Forest Q) (ops : List Pt) : List Pt :=
  (List.range ops.length).map
    (searchLocal (localFn interp) F (List.range ops.length) (fun i => ops.getD i default))

/-- One process: its query points and its part of the producer's forest. -/
structure OProc (Q Pt : Type) where
  queries : List Pt
  forest : Forest Q

section
variable {Q Pt : Type} [Inhabited Pt]
variable (hit : Q → Option Nat → Pt → Bool) (interp : Q → Option Nat → Pt → Pt × Bool)
variable (part : Forest Q) (W : List (OProc Q Pt))

def queriesOf (c : Nat) : List Pt := (W[c]?.map OProc.queries).getD []
def forestOf (p : Nat) : Forest Q := (W[p]?.map OProc.forest).getD .nil

/-- The consumer data of process `c` after the partition search. -/
def consOf (c : Nat) : Cons Pt :=
  partitionSearch hit part (fun i => (queriesOf W c).getD i default) (queriesOf W c).length

/-- `recv_buffer` of producer `p` after `sc_notify_ext` and the receives,
src/fclaw2d_convenience.c:1499-1567: one entry for each process with a buffer for `p`; the entry of
`p` itself stays empty. -/
def producerRecv (p : Nat) : List (Nat × List Pt) :=
  (List.range W.length).filterMap fun c =>
    ((consOf hit part W c).sendBuffer.find? (fun b => decide (b.1 = p))).map
      fun b => (c, if c = p then [] else b.2)

/-- `producer_interpolate`, src/fclaw2d_convenience.c:1634-1700: the messages sent back, as
(receiver, points); `order` is the order of the completed receives. -/
def producerSend (p : Nat) (order : List Nat) : List (Nat × List Pt) :=
  order.filterMap fun i =>
    (producerRecv hit part W p)[i]?.map fun rb => (rb.1, localSearch interp (forestOf W p) rb.2)

/-- `consumer_update_from_buffer`, src/fclaw2d_convenience.c:1703-1727. -/
def updateFromBuffer (ops : List Pt) (oqs : List Nat) (queryPoints : Nat → Pt) : Nat → Pt :=
  (ops.zip oqs).foldl (fun qp e => upd qp e.2 e.1) queryPoints

/-- Body of the receive loop of `consumer_update_query_points`, lines 1729-1763, for the completed
receive with index `i`; `none` if the awaited message is never sent. -/
def consumerStep (c : Nat) (prodOrder : Nat → List Nat) (queryPoints : Nat → Pt) (i : Nat) :
    Option (Nat → Pt) :=
  match (consOf hit part W c).sendBuffer[i]?, (consOf hit part W c).queryIndices[i]? with
  | some sb, some qi =>
    match (producerSend hit interp part W sb.1 (prodOrder sb.1)).find?
        (fun m => decide (m.1 = c)) with
    | some m => some (updateFromBuffer m.2 qi.2 queryPoints)
    | none => none
  | _, _ => none

/-- `consumer_producer_update_local`, lines 1871-1888. -/
def updateLocal (c : Nat) (queryPoints : Nat → Pt) : Nat → Pt :=
  let s := consOf hit part W c
  match s.sendBuffer.findIdx? (fun b => decide (b.1 = c)) with
  | none => queryPoints
  | some i =>
    match s.sendBuffer[i]?, s.queryIndices[i]? with
    | some sb, some qi =>
      updateFromBuffer (localSearch interp (forestOf W c) sb.2) qi.2 queryPoints
    | _, _ => queryPoints

/-- `fclaw2d_overlap_exchange`, lines 1890-1992: the query points of process `c` at the end.
`prodOrder p` and `consOrder c` are the orders in which messages arrive. -/
def overlapExchange (prodOrder consOrder : Nat → List Nat) (c : Nat) : Option (Nat → Pt) :=
  ((consOrder c).foldlM (consumerStep hit interp part W c prodOrder)
    (fun i => (queriesOf W c).getD i default)).map (updateLocal hit interp part W c)
end

end Fclaw.Overlap
