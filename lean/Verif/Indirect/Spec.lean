import Verif.Indirect.Model
import Verif.FaceNbr.Spec
import Mathlib.Data.List.Forall2
/-
What an indirect query must answer, in terms of patch identities: a patch is identified by the
process that owns it and its number there.
-/
set_option autoImplicit false
namespace Fclaw.Indirect
open FaceNbr

/-- Consistency of the views of all processes (p4est): local numbering, ghosts sorted by owner as
described by `proc_offsets`, ghosts are distinct patches of existing other processes with numbers
that fit into an `int`. -/
structure Net.Ok (N : Net) : Prop where
  mesh : ∀ p, (N.mesh p).Ok
  rank : ∀ p, (N.mesh p).rank = p
  mono : ∀ p i j, i ≤ j → N.offsets p i ≤ N.offsets p j
  first : ∀ p, N.offsets p 0 = 0
  total : ∀ p, N.offsets p N.nproc = (N.mesh p).ghostNum
  sorted : ∀ p g, g < (N.mesh p).ghostNum →
    N.offsets p ((N.mesh p).ghostToProc g) ≤ g ∧ g < N.offsets p ((N.mesh p).ghostToProc g + 1)
  proc : ∀ p g, g < (N.mesh p).ghostNum → (N.mesh p).ghostToProc g < N.nproc
  small : N.nproc ≤ 2147483648
  num : ∀ p g, g < (N.mesh p).ghostNum → N.localNumOf p g < 2147483648
  distinct : ∀ p g g', g < (N.mesh p).ghostNum → g' < (N.mesh p).ghostNum →
    (N.mesh p).ghostToProc g = (N.mesh p).ghostToProc g' → N.localNumOf p g = N.localNumOf p g' → g = g'

/-- Patch `w`, as seen by process `o`, belongs to a third process and is ghost number `g'` on `r`. -/
def VisibleAs (N : Net) (o r : Nat) : Where → Nat → Prop
  | .here _ _, _ => False
  | .ghost g, g' => (N.mesh o).ghostToProc g ≠ r ∧ g' < (N.mesh r).ghostNum ∧
      (N.mesh r).ghostToProc g' = (N.mesh o).ghostToProc g ∧ N.localNumOf r g' = N.localNumOf o g

/-- The process and patch number that `r` must report for the patch `w` seen by `o`. -/
inductive Sees (N : Net) (o r : Nat) : Where → Int × Int → Prop
  | visible (w : Where) (g' : Nat) : VisibleAs N o r w g' → Sees N o r w ((N.mesh r).ghostToProc g', g')
  | hidden (w : Where) : (∀ g', ¬ VisibleAs N o r w g') → Sees N o r w (-1, -1)

/-- The answer to an indirect face query, given what lies behind the face `f` of patch `(b, p)` of
the owner `o`. -/
def IndirectAnswer (D : Dim) (N : Net) (o r b p f : Nat) (res : FaceResult) : Neighbor → Prop
  | .boundary => res = ⟨.boundary, List.replicate D.half (-1), b, List.replicate D.half (-1), f⟩
  | .half ws face orient => ∃ prs : List (Int × Int), List.Forall₂ (Sees N o r) ws prs ∧
      res = ⟨if prs.all (fun x => decide (x = (-1, -1))) then .boundary else .halfSize,
        prs.map Prod.fst, ((ws.head?.map (Where.block (N.mesh o))).getD 0 : Nat), prs.map Prod.snd,
        (orient * D.faces + face : Nat)⟩
  | .same w face orient => ∃ pr, Sees N o r w pr ∧
      res = ⟨if pr = (-1, -1) then .boundary else .sameSize,
        pr.1 :: List.replicate (D.half - 1) (-1), (w.block (N.mesh o) : Nat),
        pr.2 :: List.replicate (D.half - 1) (-1), (orient * D.faces + face : Nat)⟩
  | .double w face orient sub => ∃ pr, Sees N o r w pr ∧
      res = ⟨if pr = (-1, -1) then .boundary else .doubleSize,
        if pr = (-1, -1) then List.replicate D.half (-1)
          else pr.1 :: (sub : Int) :: List.replicate (D.half - 2) (-1),
        (w.block (N.mesh o) : Nat), pr.2 :: List.replicate (D.half - 1) (-1),
        (orient * D.faces + face : Nat)⟩

/-- The size relation of a corner neighbour. -/
def CornerSize (M : Mesh) (leaf : Nat) : CornerNeighbor → Rel → Prop
  | .inside w, rel => SizeRel (M.level leaf) (w.level M) rel
  | .across w _, rel => SizeRel (M.level leaf) (w.level M) rel
  | _, _ => True

/-- The answer to an indirect corner query, given what lies behind the corner. -/
def IndirectCornerAnswer (D : Dim) (N : Net) (o r b c : Nat) (rel : Rel) (res : Rel × CornerWords) :
    CornerNeighbor → Prop
  | .none => res = (.boundary, ⟨-1, b, -1, c⟩)
  | .several => res = (.boundary, ⟨-1, b, -1, c⟩)
  | .inside w => ∃ pr, Sees N o r w pr ∧
      res = (if pr = (-1, -1) then .boundary else rel,
        ⟨pr.1, (w.block (N.mesh o) : Nat), pr.2, (D.children - 1 - c : Nat)⟩)
  | .across w rc => ∃ pr, Sees N o r w pr ∧
      res = (if pr = (-1, -1) then .boundary else rel, ⟨pr.1, (w.block (N.mesh o) : Nat), pr.2, rc⟩)

/-- The mesh of process `o` describes the surroundings of patch `(b, p)`: every face and corner has
an entry that stands for something. -/
structure Described (D : Dim) (M : Mesh) (b p : Nat) : Prop where
  patch : p < M.num b
  faces : ∀ f, f < D.faces → ∃ n, Encodes D M (M.before b + p) f n
  corners : ∀ c, c < D.children → ∃ n rel, EncodesCorner D M (M.before b + p) c n ∧
    CornerSize M (M.before b + p) n rel

end Fclaw.Indirect
