/-
Reading back what is written.
-/
import Verif.Ascii.Cells
import Verif.Output.Dist

set_option autoImplicit false
set_option linter.unusedSimpArgs false

namespace Fclaw.Ascii

open Fclaw.Output (flatIdx)

/-- The patch that the reader finds. -/
def gridOf {R : Type} (A : Fmt R) (P : Params) (s : Sol R) (g blockno rank : Nat) : Grid where
  number := g
  level := s.level
  block := blockno
  rank := rank
  mx := P.mx
  my := P.my
  mz := if is3 P.writer then P.mz else 1
  low := if is3 P.writer then [A.e24 s.low.1, A.e24 s.low.2.1, A.e24 s.low.2.2]
    else [A.e24 s.low.1, A.e24 s.low.2.1]
  delta := if is3 P.writer then [A.e24 s.delta.1, A.e24 s.delta.2.1, A.e24 s.delta.2.2]
    else [A.e24 s.delta.1, A.e24 s.delta.2.1]
  cells := cellTexts A P s.u

theorem nonblank_head2 {R : Type} (A : Fmt R) (P : Params) (pt : Patch R) (g l b r : Nat) :
    nonblank (gridHeader2 A P pt g l b r) =
  [i5 g ++ gap17 ++ "grid_number".toList,
   i5 l ++ gap17 ++ "AMR_level".toList,
   i5 b ++ gap17 ++ "block_number".toList,
   i5 r ++ gap17 ++ "mpi_rank".toList,
   i5 P.mx ++ gap17 ++ "mx".toList,
   i5 P.my ++ gap17 ++ "my".toList,
   A.e24 pt.xlower ++ gap4 ++ "xlow".toList,
   A.e24 pt.ylower ++ gap4 ++ "ylow".toList,
   A.e24 pt.dx ++ gap4 ++ "dx".toList,
   A.e24 pt.dy ++ gap4 ++ "dy".toList] := by
  unfold gridHeader2
  rw [nonblank_cons_of (label_nonblank _ _ (by decide)),
    nonblank_cons_of (label_nonblank _ _ (by decide)),
    nonblank_cons_of (label_nonblank _ _ (by decide)),
    nonblank_cons_of (label_nonblank _ _ (by decide)),
    nonblank_cons_of (label_nonblank _ _ (by decide)),
    nonblank_cons_of (label_nonblank _ _ (by decide)),
    nonblank_cons_of (label_nonblank _ _ (by decide)),
    nonblank_cons_of (label_nonblank _ _ (by decide)),
    nonblank_cons_of (label_nonblank _ _ (by decide)),
    nonblank_cons_of (label_nonblank _ _ (by decide)),
    nonblank_cons_blank (by decide)]
  rfl

theorem nonblank_head3 {R : Type} (A : Fmt R) (P : Params) (pt : Patch R) (g l b r : Nat) :
    nonblank (gridHeader3 A P pt g l b r) =
  [i5 g ++ gap17 ++ "grid_number".toList,
   i5 l ++ gap17 ++ "AMR_level".toList,
   i5 b ++ gap17 ++ "block_number".toList,
   i5 r ++ gap17 ++ "mpi_rank".toList,
   i5 P.mx ++ gap17 ++ "mx".toList,
   i5 P.my ++ gap17 ++ "my".toList,
   i5 P.mz ++ gap17 ++ "mz".toList,
   A.e24 pt.xlower ++ gap4 ++ "xlow".toList,
   A.e24 pt.ylower ++ gap4 ++ "ylow".toList,
   A.e24 pt.zlower ++ gap4 ++ "zlow".toList,
   A.e24 pt.dx ++ gap4 ++ "dx".toList,
   A.e24 pt.dy ++ gap4 ++ "dy".toList,
   A.e24 pt.dz ++ gap4 ++ "dz".toList] := by
  unfold gridHeader3
  rw [nonblank_cons_of (label_nonblank _ _ (by decide)),
    nonblank_cons_of (label_nonblank _ _ (by decide)),
    nonblank_cons_of (label_nonblank _ _ (by decide)),
    nonblank_cons_of (label_nonblank _ _ (by decide)),
    nonblank_cons_of (label_nonblank _ _ (by decide)),
    nonblank_cons_of (label_nonblank _ _ (by decide)),
    nonblank_cons_of (label_nonblank _ _ (by decide)),
    nonblank_cons_blank (by decide),
    nonblank_cons_of (label_nonblank _ _ (by decide)),
    nonblank_cons_of (label_nonblank _ _ (by decide)),
    nonblank_cons_of (label_nonblank _ _ (by decide)),
    nonblank_cons_of (label_nonblank _ _ (by decide)),
    nonblank_cons_of (label_nonblank _ _ (by decide)),
    nonblank_cons_of (label_nonblank _ _ (by decide)),
    nonblank_cons_blank (by decide)]
  rfl

theorem bind_step {α β : Type} {x : Option α} {a : α} {f : α → Option β} (h : x = some a) :
    (x >>= f) = f a := by rw [h]; rfl

/-- One patch. -/
theorem readGrid_eq {R : Type} {A : Fmt R} (hA : A.Wide) {P : Params} (hm : 0 < P.meqn)
    (hx : P.mx < 100000) (hy : P.my < 100000) (hz : P.mz < 100000) (s : Sol R)
    {g blockno rank : Nat} (hg : g < 100000) (hl : s.level < 100000) (hb : blockno < 100000)
    (hr : rank < 100000) (rest : List Line) :
    (if (if is3 P.writer then 3 else 2) = 2 then
        readGrid2 P.meqn (nonblank (headLines A P s g blockno rank ++ bodyLines A P s.u) ++ rest)
      else readGrid3 P.meqn (nonblank (headLines A P s g blockno rank ++ bodyLines A P s.u) ++ rest))
      = some (gridOf A P s g blockno rank, rest) := by
  have hc := readCells_eq hA P s.u rest (interior P)
  rw [interior_length] at hc
  rw [nonblank_append, nonblank_body hA hm, List.append_assoc]
  unfold headLines
  by_cases h3 : is3 P.writer = true
  · rw [if_pos h3] at hc
    rw [if_pos h3, if_pos h3, if_neg (by decide), nonblank_head3]
    simp only [List.cons_append, List.nil_append]
    unfold readGrid3
    rw [bind_step (readInt_line hg _ _)]; dsimp only
    rw [bind_step (readInt_line hl _ _)]; dsimp only
    rw [bind_step (readInt_line hb _ _)]; dsimp only
    rw [bind_step (readInt_line hr _ _)]; dsimp only
    rw [bind_step (readInt_line hx _ _)]; dsimp only
    rw [bind_step (readInt_line hy _ _)]; dsimp only
    rw [bind_step (readInt_line hz _ _)]; dsimp only
    rw [bind_step (readReal_line (hA.e24 _) _ _)]; dsimp only
    rw [bind_step (readReal_line (hA.e24 _) _ _)]; dsimp only
    rw [bind_step (readReal_line (hA.e24 _) _ _)]; dsimp only
    rw [bind_step (readReal_line (hA.e24 _) _ _)]; dsimp only
    rw [bind_step (readReal_line (hA.e24 _) _ _)]; dsimp only
    rw [bind_step (readReal_line (hA.e24 _) _ _)]; dsimp only
    rw [bind_step hc]
    simp only [gridOf, if_pos h3, cellTexts, patchOf, Option.pure_def]
  · rw [if_neg h3] at hc
    rw [if_neg h3, if_neg h3, if_pos rfl, nonblank_head2]
    simp only [readGrid2, List.cons_append, List.nil_append]
    simp only [readInt_line hg, readInt_line hl, readInt_line hb, readInt_line hr, readInt_line hx,
      readInt_line hy, readInt_line hz, readReal_line (hA.e24 _), hc, Option.bind_eq_bind,
      Option.bind_some, Option.pure_def]
    simp only [gridOf, if_neg h3, cellTexts, patchOf]

/-- The lines of patch `x` with number `g` on process `rank`. -/
def patchLines {R : Type} (A : Fmt R) (P : Params) (rank : Nat → Nat) (g : Nat) (x : Nat × Sol R) :
    List Line :=
  headLines A P x.2 g x.1 (rank g) ++ bodyLines A P x.2.u

/-- All patches. -/
theorem readGrids_eq {R : Type} {A : Fmt R} (hA : A.Wide) {P : Params} (hm : 0 < P.meqn)
    (hx : P.mx < 100000) (hy : P.my < 100000) (hz : P.mz < 100000) (rank : Nat → Nat)
    (l : List (Nat × Sol R)) : ∀ n, n + l.length ≤ 100000 →
    (∀ j x, l[j]? = some x → rank (n + j) < 100000 ∧ x.1 < 100000 ∧ x.2.level < 100000) →
    readGrids (if is3 P.writer then 3 else 2) P.meqn l.length
      (nonblank (flatIdx (patchLines A P rank) n l))
      = some (l.mapIdx fun j x => gridOf A P x.2 (n + j) x.1 (rank (n + j)), []) := by
  induction l with
  | nil => intro n _ _; simp [readGrids, flatIdx, nonblank]
  | cons x xs ih =>
    intro n hn h
    obtain ⟨h1, h2, h3⟩ := h 0 x rfl
    rw [Nat.add_zero] at h1
    rw [List.length_cons] at hn
    simp only [flatIdx, List.length_cons, readGrids]
    rw [nonblank_append, show patchLines A P rank n x
      = headLines A P x.2 n x.1 (rank n) ++ bodyLines A P x.2.u from rfl,
      readGrid_eq hA hm hx hy hz x.2 (by omega) h3 h2 h1, Option.bind_some,
      ih (n + 1) (by omega) (fun j y hj => by
        have := h (j + 1) y (by simpa using hj)
        rw [show n + 1 + j = n + (j + 1) by omega]
        exact this)]
    simp only [Option.map_some, List.mapIdx_cons, Nat.add_zero]
    congr 3
    apply congrArg (fun f => List.mapIdx f xs)
    funext j y
    rw [show n + 1 + j = n + (j + 1) by omega]

/-- The time header. -/
def timeLines {R : Type} (A : Fmt R) (P : Params) (time : R) (ngrids : Nat) : List Line :=
  [A.e30 time ++ gap4 ++ "time".toList,
   i5 P.meqn ++ gap17 ++ "meqn".toList,
   i5 ngrids ++ gap17 ++ "ngrids".toList,
   i5 P.maux ++ gap17 ++ "num_aux".toList,
   i5 (numDim P.writer) ++ gap17 ++ "num_dim".toList]

theorem nonblank_time {R : Type} (A : Fmt R) (P : Params) (time : R) (ngrids : Nat) :
    nonblank (timeLines A P time ngrids) = timeLines A P time ngrids := by
  unfold timeLines
  rw [nonblank_cons_of (label_nonblank _ _ (by decide)),
    nonblank_cons_of (label_nonblank _ _ (by decide)),
    nonblank_cons_of (label_nonblank _ _ (by decide)),
    nonblank_cons_of (label_nonblank _ _ (by decide)),
    nonblank_cons_of (label_nonblank _ _ (by decide))]
  rfl

theorem numDim_eq (w : Writer) : numDim w = if is3 w then 3 else 2 := by cases w <;> rfl

/-- The two files of a frame. -/
theorem readFrame_eq {R : Type} {A : Fmt R} (hA : A.Wide) {P : Params} (hm : 0 < P.meqn)
    (hm' : P.meqn < 100000) (hx : P.mx < 100000) (hy : P.my < 100000) (hz : P.mz < 100000)
    (ha : P.maux < 100000) (time : R) (rank : Nat → Nat) (l : List (Nat × Sol R))
    (hn : l.length < 100000)
    (h : ∀ j x, l[j]? = some x → rank j < 100000 ∧ x.1 < 100000 ∧ x.2.level < 100000) :
    readFrame (timeLines A P time l.length) (flatIdx (patchLines A P rank) 0 l)
      = some ⟨A.e30 time, P.meqn, P.maux, if is3 P.writer then 3 else 2,
          l.mapIdx fun j x => gridOf A P x.2 j x.1 (rank j)⟩ := by
  have hg := readGrids_eq hA hm hx hy hz rank l 0 (by omega) (fun j x hj => by
    rw [Nat.zero_add]; exact h j x hj)
  have hd : numDim P.writer < 100000 := by cases P.writer <;> decide
  unfold readFrame
  rw [nonblank_time]
  simp only [timeLines, readInt_line hm', readInt_line hn, readInt_line ha, readInt_line hd,
    readReal_line (hA.e30 _), Option.bind_eq_bind, Option.bind_some, Option.pure_def]
  rw [numDim_eq, hg]
  simp only [Option.bind_some, Nat.zero_add, and_self, if_true]

theorem readInt_rest {label : String} {l : Line} {rest : List Line} {x : Nat × List Line}
    (h : readInt label (l :: rest) = some x) : x.2 = rest := by
  simp only [readInt] at h
  split at h
  · cases hn : readNat (l.take 5) with
    | none => rw [hn] at h; simp at h
    | some n => rw [hn] at h; simp only [Option.map_some, Option.some.injEq] at h; rw [← h]
  · simp at h

/-- A frame with too many patches. -/
theorem readFrame_stars {R : Type} {A : Fmt R} (hA : A.Wide) {P : Params}
    (time : R) (n : Nat) (hn : 100000 ≤ n) (q : List Line) :
    readFrame (timeLines A P time n) q = none := by
  unfold readFrame
  rw [nonblank_time]
  simp only [timeLines, readReal_line (hA.e30 _), Option.bind_eq_bind, Option.bind_some,
    Option.pure_def]
  cases hx : readInt "meqn" ((i5 P.meqn ++ gap17 ++ "meqn".toList) ::
    [i5 n ++ gap17 ++ "ngrids".toList, i5 P.maux ++ gap17 ++ "num_aux".toList,
     i5 (numDim P.writer) ++ gap17 ++ "num_dim".toList]) with
  | none => rfl
  | some x =>
    obtain ⟨m, r⟩ := x
    have := readInt_rest hx
    simp only at this
    subst this
    simp only [Option.bind_some, readInt_stars hn, Option.bind_none]

end Fclaw.Ascii
