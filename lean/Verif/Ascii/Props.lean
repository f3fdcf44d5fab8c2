/-
C78: the ASCII files of a frame show the solution, for every number of
processes, every distribution of the patches and every order in which the
processes proceed.
-/
import Verif.Ascii.Files

set_option autoImplicit false
set_option linter.unusedSimpArgs false
set_option linter.unusedVariables false

namespace Fclaw.Ascii

open Fclaw.ParFile (Distribution Outcome)
open Fclaw.Output

variable {R : Type} {A : Fmt R} {X X' : Nat → Setting R} {n n' K : Nat} {fs0 fs0' : Files}
  {w w' : World Op Files}

/-- C78 (files): after any run over `K` frames with different numbers, in which
all processes are done with frame `k` (some may be in later frames already), a
reader of the two files of frame `k` finds the time, the sizes and all patches in
global order, each with its number, level, block, owner, coordinates and the
values of all cells. -/
theorem C78_frame_partial (hA : A.Wide) (hn : 0 < n)
    (hsize : ∀ k, k < K → (X k).D.mpisize = n) (hf : ∀ k, k < K → Fits (X k))
    (hdist : ∀ k k', k < K → k' < K → (X k).iframe = (X k').iframe → k = k')
    (h : Reach n K apply (inside A X) afterward fs0 w) {k : Nat} (hk : k < K)
    (hdone : ∀ r, r < n → Finished w k r) :
    ∃ (t q : List Line) (f : Frame), w.fs (tName (X k).iframe) = some t ∧
      w.fs (qName (X k).iframe) = some q ∧ readFrame t q = some f ∧ ShowsFrame A (X k) f := by
  have hF := hf k hk
  obtain ⟨h1, h2⟩ := files_eq hn hsize (fun k hk => (hf k hk).named) hdist h hk hdone
  have hlen := patches_length (X k).F 0
  have hm' : (X k).P.meqn < 100000 := by
    have := hF.named.meqn
    by_cases h3 : is3 (X k).P.writer = true
    · rw [if_pos h3] at this; omega
    · rw [if_neg h3] at this; omega
  have hentry : ∀ j x, (Forest.patches 0 (X k).F)[j]? = some x →
      owner (X k).D j < 100000 ∧ x.1 < 100000 ∧ x.2.level < 100000 := by
    intro j x hj
    have hlt : j < (X k).F.count := by
      rw [← hlen]; exact (List.getElem?_eq_some_iff.1 hj).1
    have hmem : x ∈ Forest.patches 0 (X k).F := List.mem_of_getElem? hj
    have ho := owner_owns (D := (X k).D) hlt
    have hb := patches_block (X k).F 0 x hmem
    have := hF.ranks
    have := hF.blocks
    have := ho.1
    exact ⟨by omega, by omega, hF.level x hmem⟩
  have hread := readFrame_eq hA hF.meqn hm' hF.mx hF.my hF.mz hF.maux (X k).time
    (owner (X k).D) (Forest.patches 0 (X k).F) (by rw [hlen]; exact hF.count) hentry
  rw [hlen] at hread
  refine ⟨_, _, _, h1, h2, hread, rfl, ⟨rfl, rfl, rfl⟩, by simp [hlen], fun g x hg => ?_⟩
  have hlt : g < (X k).F.count := by
    rw [← hlen]; exact (List.getElem?_eq_some_iff.1 hg).1
  refine ⟨gridOf A (X k).P x.2 g x.1 (owner (X k).D g), ?_, ?_, owner_owns hlt⟩
  · simp [List.getElem?_mapIdx, hg]
  · exact ⟨rfl, rfl, rfl, ⟨rfl, rfl, rfl⟩, rfl, rfl, rfl⟩

/-- C78 (other files): no other file is touched, at any time. -/
theorem C78_others_partial (hsize : ∀ k, k < K → (X k).D.mpisize = n)
    (hf : ∀ k, k < K → Named (X k)) (h : Reach n K apply (inside A X) afterward fs0 w) {x : Name}
    (hx : ∀ k, k < K → x ≠ tName (X k).iframe ∧ x ≠ qName (X k).iframe) : w.fs x = fs0 x :=
  files_other hsize hf h hx

/-- C78 (distribution): two runs of the same frames on different numbers of
processes with different distributions show the same, apart from the ranks. -/
theorem C78_same_partial (hA : A.Wide) (hn : 0 < n) (hn' : 0 < n')
    (D : (k : Nat) → Distribution (X k).F.count)
    (hsize : ∀ k, k < K → (X k).D.mpisize = n) (hsize' : ∀ k, k < K → (D k).mpisize = n')
    (hf : ∀ k, k < K → Fits (X k)) (hf' : n' ≤ 100000)
    (hdist : ∀ k k', k < K → k' < K → (X k).iframe = (X k').iframe → k = k')
    (h : Reach n K apply (inside A X) afterward fs0 w)
    (h' : Reach n' K apply (inside A fun k => { X k with D := D k }) afterward fs0' w')
    {k : Nat} (hk : k < K) (hdone : ∀ r, r < n → Finished w k r)
    (hdone' : ∀ r, r < n' → Finished w' k r) :
    ∃ (t q t' q' : List Line) (f f' : Frame),
      w.fs (tName (X k).iframe) = some t ∧ w.fs (qName (X k).iframe) = some q ∧
      w'.fs (tName (X k).iframe) = some t' ∧ w'.fs (qName (X k).iframe) = some q' ∧
      readFrame t q = some f ∧ readFrame t' q' = some f' ∧ f.withoutRanks = f'.withoutRanks := by
  obtain ⟨t, q, f, h1, h2, h3, S⟩ := C78_frame_partial hA hn hsize hf hdist h hk hdone
  have hfits' : ∀ k, k < K → Fits ({ X k with D := D k } : Setting R) := fun k hk =>
    ⟨⟨(hf k hk).named.pre, (hf k hk).named.iframe, (hf k hk).named.meqn⟩, (hf k hk).meqn,
      (hf k hk).maux, (hf k hk).mx, (hf k hk).my, (hf k hk).mz, (hf k hk).count, (hf k hk).blocks,
      by have := hsize' k hk; simp only; omega, (hf k hk).level⟩
  obtain ⟨t', q', f', h1', h2', h3', S'⟩ := C78_frame_partial
    (X := fun k => { X k with D := D k }) hA hn' hsize' hfits' hdist h' hk hdone'
  refine ⟨t, q, t', q', f, f', h1, h2, h1', h2', h3, h3', ?_⟩
  obtain ⟨a1, ⟨a2, a3, a4⟩, a5, a6⟩ := S
  obtain ⟨b1, ⟨b2, b3, b4⟩, b5, b6⟩ := S'
  have hgrids : (f.grids.map fun G => { G with rank := 0 })
      = f'.grids.map fun G => { G with rank := 0 } := by
    apply List.ext_getElem?
    intro g
    rw [List.getElem?_map, List.getElem?_map]
    by_cases hg : g < (X k).F.count
    · have hlt : g < (Forest.patches 0 (X k).F).length := by rw [patches_length]; exact hg
      obtain ⟨G, g1, g2, _⟩ := a6 g _ (List.getElem?_eq_getElem hlt)
      obtain ⟨G', g1', g2', _⟩ := b6 g _ (List.getElem?_eq_getElem hlt)
      rw [g1, g1']
      obtain ⟨p1, p2, p3, ⟨p4, p5, p6⟩, p7, p8, p9⟩ := g2
      obtain ⟨r1, r2, r3, ⟨r4, r5, r6⟩, r7, r8, r9⟩ := g2'
      simp only at r1 r2 r3 r4 r5 r6 r7 r8 r9
      simp only [Option.map_some, Option.some.injEq, Grid.mk.injEq]
      exact ⟨by rw [p1, r1], by rw [p2, r2], by rw [p3, r3], trivial, by rw [p4, r4], by rw [p5, r5],
        by rw [p6, r6], by rw [p7, r7], by rw [p8, r8], by rw [p9, r9]⟩
    · simp only at b5
      rw [List.getElem?_eq_none (by omega), List.getElem?_eq_none (by omega)]
  simp only at b1 b2 b3 b4
  unfold Frame.withoutRanks
  rw [hgrids, Frame.mk.injEq]
  exact ⟨by rw [a1, b1], by rw [a2, b2], by rw [a3, b3], by rw [a4, b4], rfl⟩

/-- C78 (progress): from wherever a run has got, all frames can be completed, and
no run goes on for ever; so a run stops only when all frames are complete. -/
theorem C78_completes_partial (hsize : ∀ k, k < K → (X k).D.mpisize = n)
    (hf : ∀ k, k < K → Named (X k)) (h : Reach n K apply (inside A X) afterward fs0 w) :
    (∃ w', Steps n K apply (inside A X) afterward w w' ∧
      ∀ k r, k < K → r < n → Finished w' k r) ∧
    (∀ run : Nat → World Op Files, run 0 = w →
      ¬ ∀ i, Step n K apply (inside A X) afterward (run i) (run (i + 1))) ∧
    ((∀ w', ¬ Step n K apply (inside A X) afterward w w') →
      ∀ k r, k < K → r < n → Finished w k r) := by
  have hin := inside_all_ok (A := A) hsize hf
  have haf : ∀ k r, k < K → r < n → ∃ l, afterward k r = .ok l := fun _ _ _ _ => ⟨[], rfl⟩
  have hfin : ∀ w' : World Op Files, (∀ r, r < n → w'.ser.pos r = 2 * K ∧ w'.todo r = []) →
      ∀ k r, k < K → r < n → Finished w' k r := by
    intro w' hall k r hk hr
    obtain ⟨h1, h2⟩ := hall r hr
    by_cases hc : 2 * k + 2 < w'.ser.pos r
    · exact Or.inl hc
    · exact Or.inr ⟨by omega, h2⟩
  refine ⟨?_, ?_, ?_⟩
  · obtain ⟨w', h1, h2⟩ := completes hin haf _ w h (Nat.le_refl _)
    exact ⟨w', h1, hfin w' h2⟩
  · intro run h0 hs
    exact no_infinite run (by rw [h0]; exact h) hs
  · intro hstop
    apply hfin
    intro r hr
    by_contra hc
    obtain ⟨w', hs⟩ := progress h hin haf hr (by
      by_cases h1 : w.ser.pos r = 2 * K
      · exact Or.inr fun h2 => hc ⟨h1, h2⟩
      · exact Or.inl h1)
    exact hstop w' hs

/-- C78 (solution): writing a patch leaves the solution alone, except that values
below 1d-99 may become zero. -/
theorem C78_solution_partial (P : Params) (s : Sol R) (g l b r : Nat)
    (hm : P.meqn ≤ if is3 P.writer then 5 else 20) :
    ∃ (ls : List Line) (q : List R), outputPatch A P (patchOf P s) g s.level b r = .ok (ls, q) ∧
      q.length = (patchOf P s).q.length ∧
      (∀ (x : Nat) (v : R), (patchOf P s).q[x]? = some v → q[x]? = some v ∨ A.tiny v = true ∧ q[x]? = some A.zero) ∧
      ((∀ v ∈ (patchOf P s).q, A.tiny v = false) → q = (patchOf P s).q) := by
  refine ⟨_, _, outputPatch_eq A P s g b r hm, by simp [fl, patchOf], ?_, ?_⟩
  · intro x v hx
    rw [show (patchOf P s).q = memory P s.u from rfl] at hx
    rw [fl_get, hx, Option.map_some]
    by_cases hv : x ∈ visited P
    · rw [if_pos hv]
      unfold flush
      by_cases ht : A.tiny v = true
      · rw [if_pos ht]; exact Or.inr ⟨ht, rfl⟩
      · rw [if_neg ht]; exact Or.inl rfl
    · rw [if_neg hv]; exact Or.inl rfl
  · intro hall
    apply List.ext_getElem?
    intro x
    rw [fl_get, show (patchOf P s).q = memory P s.u from rfl]
    cases hx : (memory P s.u)[x]? with
    | none => rfl
    | some v =>
      have := hall v (List.mem_of_getElem? hx)
      rw [Option.map_some]
      unfold flush
      simp [this]

/-! ### Where the code falls short -/

/-- C78 fails with 100000 patches: the format i5 cannot hold their number, and
the files of the frame cannot be read. -/
theorem C78_manyPatches_counterexample (hA : A.Wide) (hn : 0 < n)
    (hsize : ∀ k, k < K → (X k).D.mpisize = n) (hf : ∀ k, k < K → Named (X k))
    (hdist : ∀ k k', k < K → k' < K → (X k).iframe = (X k').iframe → k = k')
    (h : Reach n K apply (inside A X) afterward fs0 w) {k : Nat} (hk : k < K)
    (hdone : ∀ r, r < n → Finished w k r) (hmany : 100000 ≤ (X k).F.count) :
    ∃ t q : List Line, w.fs (tName (X k).iframe) = some t ∧
      w.fs (qName (X k).iframe) = some q ∧ readFrame t q = none := by
  obtain ⟨h1, h2⟩ := files_eq hn hsize hf hdist h hk hdone
  exact ⟨_, _, h1, h2, readFrame_stars hA _ _ hmany _⟩

/-- C78 fails from frame 10000 on: the name of the file overflows its buffer on
process 0. -/
theorem C78_frameNumber_counterexample (k : Nat) (hi : 10000 ≤ (X k).iframe) :
    inside A X k 0 = .ub := by
  have hd := digits_ge (n := (X k).iframe) (k := 4) (by omega)
  have hm : matname 'q' (X k).iframe = .ub := by
    refine if_neg ?_
    rw [List.length_append]
    unfold d4
    rw [List.length_append]
    simp only [List.length_cons, List.length_nil, List.length_replicate]
    omega
  unfold inside outputAscii
  have e : ((localDom (X k).F (X k).D 0).map (patchOf (X k).P)).mpirank = 0 := rfl
  rw [if_pos e]
  unfold timeHeader
  rw [hm]
  rfl

/-! ### A small case -/

/-- Numbers with their last digit as text; 1 is the only number below 1d-99. -/
def exFmt : Fmt Nat where
  zero := 0
  tiny v := decide (v = 1)
  e24 v := List.replicate 23 ' ' ++ [Char.ofNat (48 + v % 10)]
  e26 v := List.replicate 25 ' ' ++ [Char.ofNat (48 + v % 10)]
  e30 v := List.replicate 29 ' ' ++ [Char.ofNat (48 + v % 10)]

theorem exFmt_wide : exFmt.Wide := by
  refine ⟨fun v => by simp [exFmt], fun v => by simp [exFmt], fun v => by simp [exFmt], fun v => ?_⟩
  exact ⟨Char.ofNat (48 + v % 10), by simp [exFmt], ofNat_ne_blank _ (Nat.mod_lt _ (by omega))⟩

def exSol (l : Nat) : Sol Nat where
  level := l
  low := (0, 1, 2)
  delta := (3, 4, 5)
  u i j k m := 2 + i + j + k + m

def exParams (wr : Writer) (pre : String) : Params where
  writer := wr
  mx := 2
  my := 2
  mz := 2
  mbc := 1
  meqn := 2
  maux := 1
  pre := pre.toList

/-- Three patches in two blocks. -/
abbrev exForest : Forest (Sol Nat) := [[exSol 1, exSol 2], [exSol 0]]

/-- One patch on process 0 and two on process 1. -/
def exTwo : Distribution exForest.count where
  mpisize := 2
  gfq r := if r = 0 then 0 else if r = 1 then 1 else 3
  first := rfl
  last := by decide
  mono r hr := by
    have : r = 0 ∨ r = 1 := by omega
    rcases this with rfl | rfl <;> decide

/-- All patches on one process. -/
def exOne (c : Nat) : Distribution c where
  mpisize := 1
  gfq r := if r = 0 then 0 else c
  first := rfl
  last := rfl
  mono r hr := by
    have : r = 0 := by omega
    subst this
    simp

def exSetting (wr : Writer) (k : Nat) : Setting Nat := ⟨exParams wr "fort", k, k, exForest, exTwo⟩

theorem exFits (wr : Writer) (k : Nat) (hk : k < 2) : Fits (exSetting wr k) := by
  refine ⟨⟨rfl, by simp only [exSetting]; omega, ?_⟩, by simp [exSetting, exParams],
    by simp [exSetting, exParams], by simp [exSetting, exParams], by simp [exSetting, exParams],
    by simp [exSetting, exParams], by simp [exSetting, Forest.count],
    by simp [exSetting], by simp [exSetting, exTwo], ?_⟩
  · cases wr <;> simp [exSetting, exParams, is3]
  · intro x hx
    simp only [exSetting, Forest.patches, List.map_cons, List.map_nil, List.cons_append,
      List.nil_append, List.append_nil, List.mem_cons, List.not_mem_nil, or_false] at hx
    rcases hx with rfl | rfl | rfl <;> simp [exSol]

/-- There is a complete run. -/
theorem exRun {R : Type} (A : Fmt R) (X : Nat → Setting R) {n K : Nat} (fs0 : Files)
    (hsize : ∀ k, k < K → (X k).D.mpisize = n) (hf : ∀ k, k < K → Named (X k)) :
    ∃ w, Reach n K apply (inside A X) afterward fs0 w ∧ ∀ k r, k < K → r < n → Finished w k r := by
  obtain ⟨⟨w, h1, h2⟩, _⟩ := C78_completes_partial (A := A) hsize hf
    (Reach.start (apply := apply) (fs0 := fs0))
  exact ⟨w, reach_steps .start h1, h2⟩

/-- The hypotheses of `C78_frame_partial`: two frames on two processes. -/
example (wr : Writer) : ∃ w, (∀ k, k < 2 → Fits (exSetting wr k)) ∧
    Reach 2 2 apply (inside exFmt (exSetting wr)) afterward (fun _ => none) w ∧
    (∀ k r, k < 2 → r < 2 → Finished w k r) := by
  obtain ⟨w, h1, h2⟩ := exRun exFmt (exSetting wr) (n := 2) (K := 2) (fun _ => none)
    (fun _ _ => rfl) (fun k hk => (exFits wr k hk).named)
  exact ⟨w, fun k hk => exFits wr k hk, h1, h2⟩

/-- What a reader finds then. -/
example (wr : Writer) : ∃ (w : World Op Files) (t q : List Line) (f : Frame),
    w.fs (tName 1) = some t ∧ w.fs (qName 1) = some q ∧ readFrame t q = some f ∧
    ShowsFrame exFmt (exSetting wr 1) f := by
  obtain ⟨w, h1, h2⟩ := exRun exFmt (exSetting wr) (n := 2) (K := 2) (fun _ => none)
    (fun _ _ => rfl) (fun k hk => (exFits wr k hk).named)
  exact ⟨w, C78_frame_partial (X := exSetting wr) (n := 2) (K := 2) exFmt_wide (by omega) (fun _ _ => rfl)
    (fun k hk => exFits wr k hk) (fun _ _ _ _ h => h) h1 (k := 1) (by omega)
    (fun r hr => h2 1 r (by omega) hr)⟩

/-- The hypotheses of `C78_same_partial`. -/
example (wr : Writer) : ∃ w w', Reach 2 2 apply (inside exFmt (exSetting wr)) afterward
      (fun _ => none) w ∧
    Reach 1 2 apply (inside exFmt fun k => { exSetting wr k with D := exOne _ }) afterward
      (fun _ => none) w' ∧
    (∀ k r, k < 2 → r < 2 → Finished w k r) ∧ (∀ k r, k < 2 → r < 1 → Finished w' k r) := by
  obtain ⟨w, h1, h2⟩ := exRun exFmt (exSetting wr) (n := 2) (K := 2) (fun _ => none)
    (fun _ _ => rfl) (fun k hk => (exFits wr k hk).named)
  obtain ⟨w', h1', h2'⟩ := exRun exFmt (fun k => { exSetting wr k with D := exOne _ })
    (n := 1) (K := 2) (fun _ => none) (fun _ _ => rfl)
    (fun k hk => ⟨(exFits wr k hk).named.pre, (exFits wr k hk).named.iframe,
      (exFits wr k hk).named.meqn⟩)
  exact ⟨w, w', h1, h1', h2, h2'⟩

/-- A forest with too many patches. -/
def exMany (m : Nat) : Setting Nat :=
  ⟨exParams .v46 "fort", 0, 0, [List.replicate m (exSol 0)], exOne _⟩

/-- The hypotheses of `C78_manyPatches_counterexample`. -/
example (m : Nat) (hm : 100000 ≤ m) : ∃ w,
    Reach 1 1 apply (inside exFmt fun _ => exMany m) afterward (fun _ => none) w ∧
    (∀ k r, k < 1 → r < 1 → Finished w k r) ∧ 100000 ≤ (exMany m).F.count := by
  obtain ⟨w, h1, h2⟩ := exRun exFmt (fun _ => exMany m) (n := 1) (K := 1) (fun _ => none)
    (fun _ _ => rfl) (fun k hk => ⟨rfl, by simp [exMany], by simp [exMany, exParams, is3]⟩)
  refine ⟨w, h1, h2, ?_⟩
  simpa [exMany, Forest.count] using hm

/-- C78 fails with another prefix: process 0 clears "fort.q0000", the patches are
appended to the file with the prefix.  The former keeps no patch; the latter
keeps what an earlier run has left. -/
theorem C78_prefix_counterexample (old : List Line) :
    ∃ (Y : Setting Nat) (fs0 : Files) (w : World Op Files) (t new : List Line),
      Y.F.count = 3 ∧ Y.P.pre = "out".toList ∧ fs0 "out.q0000".toList = some old ∧
      Reach 1 1 apply (inside exFmt fun _ => Y) afterward fs0 w ∧ Finished w 0 0 ∧
      w.fs (tName 0) = some t ∧ w.fs (qName 0) = some [] ∧ readFrame t [] = none ∧
      w.fs "out.q0000".toList = some (old ++ new) := by
  let Y : Setting Nat := ⟨exParams .v46 "out", 0, 0, exForest, exOne _⟩
  let fs0 : Files := fun x => if x = "out.q0000".toList then some old else none
  have hin : ∀ k r, k < 1 → r < 1 → ∃ l, inside exFmt (fun _ => Y) k r = .ok l := fun k r _ hr =>
    ⟨_, inside_ok exFmt (fun _ => Y) k (by simp [Y]) (by simp [Y, exParams, is3]) hr⟩
  obtain ⟨w, h1, h2⟩ := completes (S := Files) (apply := apply) (fs0 := fs0)
    (after := afterward) (K := 1) (n := 1) hin
    (fun _ _ _ _ => ⟨[], rfl⟩) _ _ .start (Nat.le_refl _)
  have hr : Reach 1 1 apply (inside exFmt fun _ => Y) afterward fs0 w := reach_steps .start h1
  have hfin : ∀ r, r < 1 → Finished w 0 r := fun r hr => Or.inr ⟨by have := (h2 r hr).1; omega, (h2 r hr).2⟩
  obtain ⟨hist, d, H⟩ := hist_exists hr
  have hframe := hist_frame H (k := 0) (by omega) rfl (by simp [Y]) (by simp [Y, exParams, is3]) hfin
  have hall : ∀ y ∈ hist, y.1 = 0 := by
    intro y hy
    obtain ⟨r, l, h1, _⟩ := hist_mem H (ser_inv hr) hy
    omega
  have hpn : patchName Y.P Y.iframe = "out.q0000".toList := by decide
  have hq : qName Y.iframe ≠ "out.q0000".toList := by decide
  have ht : tName Y.iframe ≠ "out.q0000".toList := by decide
  have hfile : ∀ x, w.fs x = (headOps exFmt Y ++ (flatIdx (patchLines exFmt Y.P (owner Y.D)) 0
      (Forest.patches 0 Y.F)).map (Op.append "out.q0000".toList)).foldl (act x) (fs0 x) := by
    intro x
    rw [H.fs, fold_act, fold_frame hist (k := 0) (fun y hy hne => absurd (hall y hy) hne), hframe, hpn]
  have hfs0 : fs0 "out.q0000".toList = some old := if_pos rfl
  refine ⟨Y, fs0, w, timeLines exFmt Y.P Y.time Y.F.count,
    flatIdx (patchLines exFmt Y.P (owner Y.D)) 0 (Forest.patches 0 Y.F), by decide, rfl, hfs0, hr,
    hfin 0 (by omega), ?_, ?_, ?_, ?_⟩
  · have := hfile (tName 0)
    rw [List.foldl_append, show tName 0 = tName Y.iframe from rfl, fold_head_t] at this
    rw [show tName 0 = tName Y.iframe from rfl, this]
    refine fold_other (fun o ho => ?_) _
    obtain ⟨l, _, rfl⟩ := List.mem_map.1 ho
    exact Ne.symm ht
  · have := hfile (qName 0)
    rw [List.foldl_append, show qName 0 = qName Y.iframe from rfl, fold_head_q] at this
    rw [show qName 0 = qName Y.iframe from rfl, this]
    refine fold_other (fun o ho => ?_) _
    obtain ⟨l, _, rfl⟩ := List.mem_map.1 ho
    exact Ne.symm hq
  · have e : Y.F.count = 3 := by decide
    rw [e]
    decide
  · rw [hfile, List.foldl_append, hfs0]
    have : (headOps exFmt Y).foldl (act "out.q0000".toList) (some old) = some old := by
      refine fold_other (fun o ho => ?_) _
      simp only [headOps, headerAscii, List.mem_cons, List.not_mem_nil, or_false] at ho
      rcases ho with rfl | rfl | rfl | rfl | rfl | rfl | rfl <;> simp only [opName] <;> first
        | exact hq
        | exact ht
    rw [this, fold_append]

/-- C78 fails with a long prefix: Fortran sees eleven characters, and all frames
share one file. -/
theorem C78_longPrefix_counterexample (wr : Writer) (i j : Nat) :
    patchName (exParams wr "longprefix") i = patchName (exParams wr "longprefix") j := by
  have e : ∀ i, patchName (exParams wr "longprefix") i = "longprefix.".toList := by
    intro i
    unfold patchName
    rw [show (exParams wr "longprefix").pre ++ ['.', 'q'] ++ d4 i
      = "longprefix.".toList ++ ('q' :: d4 i) by simp [exParams]]
    exact List.take_left' (by decide)
  rw [e, e]

/-- C78 fails with more components than the format has columns for: the program stops. -/
theorem C78_components_counterexample (P : Params) (pt : Patch R) (g l b r : Nat)
    (hm : (if is3 P.writer then 5 else 20) < P.meqn) : outputPatch A P pt g l b r = .abort :=
  outputPatch_abort A P pt g l b r hm

/-- Output may change the solution: a value below 1d-99 becomes zero. -/
theorem C78_solution_counterexample :
    ∃ (P : Params) (s : Sol Nat) (ls : List Line) (q : List Nat),
      outputPatch exFmt P (patchOf P s) 0 s.level 0 0 = .ok (ls, q) ∧ q ≠ (patchOf P s).q := by
  refine ⟨{ exParams .v46 "fort" with mx := 1, my := 1, mbc := 0, meqn := 1 },
    { exSol 0 with u := fun _ _ _ _ => 1 }, _, _, outputPatch_eq _ _ _ 0 0 0 (by decide), ?_⟩
  decide

end Fclaw.Ascii
