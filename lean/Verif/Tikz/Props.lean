/-
C79: the TikZ file draws the mesh, for every distribution of the patches over the
processes and every interleaving of the processes.

The serialized section does not protect the file: what a process prints stays in
the buffer of its stream, and the rest is written by `fclose` after the section.
So the property holds if the text of each process fits in the buffer (then the
processes may stand in any order), or if there is one process; otherwise lines
can be torn apart.  Moreover the rectangles are computed by truncating a rounded
quotient, which is right if the numbers of blocks in a brick are powers of two.
-/
import Verif.Tikz.Two
import Verif.Tikz.Round

set_option autoImplicit false
set_option linter.unusedSimpArgs false

namespace Fclaw.Tikz

open Fclaw.ParFile (Distribution Outcome)
open Fclaw.Output
open Fclaw.Ascii (owner owner_owns)

variable {lib : Stdio} {A : Fmt} {fl : ℚ → ℚ} {X : Setting} {fs0 fs : Files}

theorem expected_rects (X : Setting) : (((Forest.patches 0 X.F).mapIdx fun g x =>
    entryOf X (owner X.D g) g x).map Entry.rect) = rects X := by
  unfold rects
  apply List.ext_getElem?
  intro g
  rw [List.getElem?_map, List.getElem?_mapIdx, List.getElem?_map, Option.map_map]
  rfl

theorem draws_of_perm (hX : Fits X) {pre file : Text} {es : List Entry}
    (hfile : file = pre ++ loopStart X.P.maxlevel ++ es.flatMap entryText ++ loopEnd)
    (hp : es.Perm ((Forest.patches 0 X.F).mapIdx fun g x => entryOf X (owner X.D g) g x)) :
    DrawsMesh X file es := by
  refine ⟨⟨pre, _, hfile, readEntries_text es⟩, ?_, ?_, ?_⟩
  · rw [hp.length_eq, List.length_mapIdx, patches_length]
  · intro g x hx
    have hlt : g < X.F.count := by
      rw [← patches_length X.F 0]; exact (List.getElem?_eq_some_iff.1 hx).1
    refine ⟨owner X.D g, owner_owns hlt, hp.mem_iff.2 ?_⟩
    apply List.mem_of_getElem? (i := g)
    rw [List.getElem?_mapIdx, hx]
    rfl
  · refine (picture_perm hp).trans ?_
    rw [← expected_rects]
    apply picture_all
    intro e he
    obtain ⟨g, hg⟩ := List.mem_iff_getElem?.1 he
    rw [List.getElem?_mapIdx] at hg
    obtain ⟨x, hx, rfl⟩ := Option.map_eq_some_iff.1 hg
    exact (hX.squares x (List.mem_of_getElem? hx)).1

theorem blockwise_join (size : Nat) : ∀ (f : Nat) (t : Text),
    (fullBlocks size f t).flatten ++ lastBlock size f t = t := by
  intro f
  induction f with
  | zero => intro t; rfl
  | succ f ih =>
    intro t
    simp only [fullBlocks, lastBlock]
    split
    · rw [List.flatten_cons, List.append_assoc, ih, List.take_append_drop]
    · rfl

/-- Libraries that write whole buffers are among those considered. -/
theorem blockwise_lawful (size : Nat) : (blockwise size).Lawful where
  join t := blockwise_join size t.length t
  small t h := by
    unfold blockwise at *
    cases t with
    | nil => rfl
    | cons c cs =>
      simp only [List.length_cons] at h ⊢
      simp only [fullBlocks, List.length_cons]
      rw [if_neg (by omega)]

/-- C79 (mesh): if what each process prints fits in the buffer of its stream, the
file draws the mesh after every complete run: each patch once, at its place, with
its number, level and owner. -/
theorem C79_mesh_partial (hlib : lib.Lawful) (hfl : Faithful fl) (hX : Fits X)
    (hsmall : ∀ r, r < X.D.mpisize → ∀ t, printed fl X r = .ok t → t.length ≤ lib.size)
    (h : Completes lib A fl X fs0 fs) :
    ∃ file es, fs (fileName X.iframe) = some file ∧ DrawsMesh X file es := by
  obtain ⟨hd, T, ts, h1, h2, h3, h4, h5, _⟩ := complete_chunks hX.procs h
  obtain ⟨pre, hpre⟩ := header_eq (A := A) (fl := fl) hX
  have hhd : hd = pre ++ loopStart X.P.maxlevel := by rw [h1] at hpre; simpa using hpre
  have hT : ∀ r, r < X.D.mpisize → T r = (entriesOf X r).flatMap entryText := by
    intro r hr
    have := h2 r hr
    rw [printed_eq hfl hX hr] at this
    simpa using this.symm
  have hp : ∀ r, r < X.D.mpisize → (ts.filter fun x => decide (x.1 = r)).map Prod.snd
      = if T r = [] then [] else [T r] := by
    intro r hr
    rw [h4 r hr]
    have hs := hlib.small (T r) (hsmall r hr _ (h2 r hr))
    have hj := hlib.join (T r)
    rw [hs, List.flatten_nil, List.nil_append] at hj
    unfold pieces
    rw [hs, hj, List.nil_append]
  obtain ⟨q1, q2⟩ := one_piece h3 hp
  refine ⟨_, (ts.map Prod.fst).flatMap (entriesOf X), h5, draws_of_perm hX (pre := pre) ?_ ?_⟩
  · rw [hhd, q1, footer_eq, List.flatMap_assoc]
    congr 2
    apply List.flatMap_congr
    intro r hr
    have := (q2.mem_iff.1 hr)
    exact hT r (List.mem_range.1 (List.mem_filter.1 this).1)
  · refine (q2.flatMap_right _).trans ?_
    rw [flatMap_filter_ne, entries_all, flatIdx_single]
    · simp
    · intro r hr hc
      have hz : T r = [] := by simpa using hc
      rw [hT r (List.mem_range.1 hr), List.flatMap_eq_nil_iff] at hz
      rw [List.eq_nil_iff_forall_not_mem]
      intro e he
      exact entryText_ne e (hz e he)

/-- C79 (one process): the file draws the mesh, in the global order of the
patches, however much is printed. -/
theorem C79_serial_partial (hlib : lib.Lawful) (hfl : Faithful fl) (hX : Fits X)
    (hone : X.D.mpisize = 1) (h : Completes lib A fl X fs0 fs) :
    ∃ file es, fs (fileName X.iframe) = some file ∧ DrawsMesh X file es ∧
      es.map Entry.number = List.range X.F.count := by
  obtain ⟨hd, T, ts, h1, h2, h3, h4, h5, _⟩ := complete_chunks hX.procs h
  obtain ⟨pre, hpre⟩ := header_eq (A := A) (fl := fl) hX
  have hhd : hd = pre ++ loopStart X.P.maxlevel := by rw [h1] at hpre; simpa using hpre
  have h0 : T 0 = (entriesOf X 0).flatMap entryText := by
    have := h2 0 hX.procs
    rw [printed_eq hfl hX hX.procs] at this
    simpa using this.symm
  have hts : (ts.map Prod.snd).flatten = T 0 := by
    have := h4 0 hX.procs
    rw [filter_zero ts (fun x hx => by have := h3 x hx; omega)] at this
    rw [this, pieces_join hlib]
  have hes : entriesOf X 0
      = (Forest.patches 0 X.F).mapIdx fun g x => entryOf X (owner X.D g) g x := by
    have := entries_all X
    rw [hone, flatIdx_single] at this
    simpa using this
  refine ⟨_, entriesOf X 0, h5, draws_of_perm hX (pre := pre) ?_ (by rw [hes]), ?_⟩
  · rw [hhd, hts, h0, footer_eq]
  · rw [hes]
    apply List.ext_getElem?
    intro g
    rw [List.getElem?_map, List.getElem?_mapIdx]
    by_cases hg : g < X.F.count
    · rw [List.getElem?_range hg, List.getElem?_eq_getElem (by rw [patches_length]; exact hg)]
      rfl
    · rw [List.getElem?_eq_none (by rw [patches_length]; omega),
        List.getElem?_eq_none (by simp; omega)]
      rfl

/-- C79 (pieces): in every case, also for texts of any size, the file consists of
the beginning, the pieces that the library has handed over, and the end; the
pieces of each process are all there and in order.  No other file is touched. -/
theorem C79_pieces_partial (hlib : lib.Lawful) (hn : 0 < X.D.mpisize)
    (h : Completes lib A fl X fs0 fs) :
    ∃ (hd : Text) (ts : List (Nat × Text)),
      header A fl X.P X.iframe = .ok hd ∧
      fs (fileName X.iframe) = some (hd ++ (ts.map Prod.snd).flatten ++ loopEnd) ∧
      (∀ x ∈ ts, x.1 < X.D.mpisize) ∧
      (∀ r, r < X.D.mpisize → ∃ t, printed fl X r = .ok t ∧
        ((ts.filter fun x => decide (x.1 = r)).map Prod.snd).flatten = t) ∧
      ∀ x, x ≠ fileName X.iframe → fs x = fs0 x := by
  obtain ⟨hd, T, ts, h1, h2, h3, h4, h5, h6⟩ := complete_chunks hn h
  refine ⟨hd, ts, h1, h5, h3, fun r hr => ⟨T r, h2 r hr, ?_⟩, h6⟩
  rw [h4 r hr, pieces_join hlib]

theorem inside_ok (hfl : Faithful fl) (hX : Fits X) {r : Nat} (hr : r < X.D.mpisize) (k : Nat) :
    (∃ l, inside lib A fl X k r = .ok l) ∧ ∃ l, afterward lib fl X k r = .ok l := by
  obtain ⟨pre, hpre⟩ := header_eq (A := A) (fl := fl) hX
  have h := printed_eq hfl hX hr
  exact ⟨⟨_, before_eq hX.iframe hpre h⟩, ⟨_, after_eq hX.iframe h⟩⟩

/-- C79 (progress): from wherever a run has got, all processes can get to the
barrier, and no run goes on for ever; so a run stops only there. -/
theorem C79_completes_partial (hfl : Faithful fl) (hX : Fits X) {w : World Op Files}
    (h : Reach X.D.mpisize 1 apply (inside lib A fl X) (afterward lib fl X) fs0 w) :
    (∃ w', Steps X.D.mpisize 1 apply (inside lib A fl X) (afterward lib fl X) w w' ∧
      ∀ r, r < X.D.mpisize → Finished w' 0 r) ∧
    (∀ run : Nat → World Op Files, run 0 = w →
      ¬ ∀ i, Step X.D.mpisize 1 apply (inside lib A fl X) (afterward lib fl X) (run i) (run (i + 1)))
    ∧ ((∀ w', ¬ Step X.D.mpisize 1 apply (inside lib A fl X) (afterward lib fl X) w w') →
      ∀ r, r < X.D.mpisize → Finished w 0 r) ∧
    ∀ fs, ∃ fs', finish X.iframe fs = .ok fs' := by
  have hin : ∀ k r, k < 1 → r < X.D.mpisize → ∃ l, inside lib A fl X k r = .ok l :=
    fun k r _ hr => (inside_ok (lib := lib) (A := A) hfl hX hr k).1
  have haf : ∀ k r, k < 1 → r < X.D.mpisize → ∃ l, afterward lib fl X k r = .ok l :=
    fun k r _ hr => (inside_ok (lib := lib) (A := A) hfl hX hr k).2
  refine ⟨?_, ?_, ?_, fun fs => ⟨_, finish_eq hX.iframe fs⟩⟩
  · obtain ⟨w', h1, h2⟩ := completes hin haf _ w h (Nat.le_refl _)
    exact ⟨w', h1, fun r hr => Or.inr ⟨by rw [(h2 r hr).1], (h2 r hr).2⟩⟩
  · intro run h0 hs
    exact no_infinite run (by rw [h0]; exact h) hs
  · intro hstop r hr
    by_contra hc
    obtain ⟨w', hs⟩ := progress h hin haf hr (by
      by_cases h1 : w.ser.pos r = 2 * 1
      · exact Or.inr fun h2 => hc (Or.inr ⟨by rw [h1], h2⟩)
      · exact Or.inl h1)
    exact hstop w' hs

/-! ### Where the property fails -/

/-- C79 fails for a level from 16 on: `pow_int` has undefined behaviour (C05), so
process 0 does not even get through the beginning of the file. -/
theorem C79_level_counterexample (hi : X.iframe < 10 ^ 10) (h1 : 16 ≤ X.P.maxlevel)
    (h2 : X.P.maxlevel ≤ 30) : inside lib A fl X 0 0 = .ub := by
  have h3 := (PowInt.C05_powInt_counterexample X.P.maxlevel h1 h2).2
  have h4 : ∀ m, finest m X.P.maxlevel = .ub := by
    intro m; unfold finest; rw [h3]; rfl
  have h5 : header A fl X.P X.iframe = .ub := by
    unfold header; rw [h4]; rfl
  unfold inside beforeLeave
  rw [fname_eq hi]
  simp only [bind_ok]
  rw [if_pos (show ((localDom X.F X.D 0).map patchOf).mpirank = 0 from rfl), h5]
  rfl

/-- Five blocks in a row, one patch each. -/
def five : Params where
  mi := 5
  mj := 1
  maxlevel := 0
  meshOnly := true
  plotPrefix := "plot".toList
  plotSuffix := "png".toList
  figsize := (8, 6)
  isBrick := true
  xv b := b
  yv _ := 0

/-- C79 fails for five blocks in a row: with rounding to nearest, the quotient for
the fourth block is slightly less than 3, so its patch is drawn from 2 to 3, on
top of the third one, instead of from 3 to 4. -/
theorem C79_brick_counterexample (hfl : Nearest fl) (r before : Nat) (b : LocalBlock Patch)
    (j : Nat) :
    cbTikz fl five r before 3 b j (patchOf ⟨0, 0, 0⟩)
      = .ok (patchText 0 (before + (b.numPatchesBefore + j)) r 2 0 3 1) := by
  have h1 : edges fl true ((3 : Nat) : ℚ) 5 0 0 (((0 : Nat) : ℚ) / 2 ^ 0) = .ok (2, 3) := by
    have := edges_five hfl
    simpa using this
  have h2 : edges fl true ((0 : Nat) : ℚ) (2 ^ 0) 0 0 (((0 : Nat) : ℚ) / 2 ^ 0) = .ok (0, 1) := by
    have := edges_place (c := 0) (i := 0) (a := 0) (lmax := 0) (level := 0)
      (nearest_faithful hfl) (by omega) (by omega) (by norm_num) (by norm_num) (by norm_num)
    simpa using this
  unfold cbTikz patchOf five
  simp only
  rw [h1, show ((0 : ℚ)) = ((0 : Nat) : ℚ) by simp]
  rw [show (1 : Nat) = 2 ^ 0 from rfl] at *
  rw [h2]
  rfl

/-- Four patches on one block, three of them on process 0. -/
def four : Setting where
  P := { five with mi := 1, maxlevel := 1, isBrick := false }
  iframe := 7
  col _ := 0
  row _ := 0
  F := [[⟨1, 0, 0⟩, ⟨1, 1, 0⟩, ⟨1, 0, 1⟩, ⟨1, 1, 1⟩]]
  D := { mpisize := 2
         gfq := fun r => if r = 0 then 0 else if r = 1 then 3 else 4
         first := rfl
         last := rfl
         mono := fun r hr => by
          rcases (by omega : r = 0 ∨ r = 1) with rfl | rfl <;> decide }

theorem four_fits : Fits four where
  placed := .single rfl rfl rfl (by decide) rfl rfl
  maxlevel := by decide
  mi := by decide
  mj := by decide
  iframe := by decide
  procs := by decide
  squares := by decide

/-- What the processes print. -/
def four0 : Text :=
  ([⟨1, 0, 0, 0, 0, 1, 1⟩, ⟨1, 1, 0, 1, 0, 2, 1⟩, ⟨1, 2, 0, 0, 1, 1, 2⟩] : List Entry).flatMap entryText
def four1 : Text := ([⟨1, 3, 1, 1, 1, 2, 2⟩] : List Entry).flatMap entryText

theorem entriesOf_rank (X : Setting) {r : Nat} (hr : r < X.D.mpisize) :
    entriesOf X r = part X.F X.D (fun g x => [entryOf X r g x]) r := by
  unfold entriesOf part
  apply flatIdx_congr
  intro j x hj
  obtain ⟨h1, h2⟩ := window_get hj
  have : Owns X.D r (X.D.gfq r + j) := ⟨hr, by omega, by omega⟩
  rw [Ascii.owner_eq this]

theorem four_printed (hfl : Faithful fl) :
    printed fl four 0 = .ok four0 ∧ printed fl four 1 = .ok four1 := by
  have h0 : (0 : Nat) < four.D.mpisize := by decide
  have h1 : (1 : Nat) < four.D.mpisize := by decide
  refine ⟨?_, ?_⟩
  · rw [printed_eq hfl four_fits h0, entriesOf_rank _ h0]
    have : part four.F four.D (fun g x => [entryOf four 0 g x]) 0
      = [⟨1, 0, 0, 0, 0, 1, 1⟩, ⟨1, 1, 0, 1, 0, 2, 1⟩, ⟨1, 2, 0, 0, 1, 1, 2⟩] := by decide +kernel
    rw [this]
    rfl
  · rw [printed_eq hfl four_fits h1, entriesOf_rank _ h1]
    have : part four.F four.D (fun g x => [entryOf four 1 g x]) 1 = [⟨1, 3, 1, 1, 1, 2, 2⟩] := by
      decide +kernel
    rw [this]
    rfl

theorem four_header : header A fl four.P four.iframe = .ok (headerText A fl four.P 7 2 2) := by
  unfold header
  rw [finest_eq four_fits.maxlevel four_fits.mi, finest_eq four_fits.maxlevel four_fits.mj]
  rfl

/-- C79 does not fix the order: although everything fits in the buffers, process 1
may come before process 0 in the file. -/
theorem C79_order_counterexample (hlib : lib.Lawful) (hsize : 4096 ≤ lib.size) (hfl : Faithful fl) :
    ∃ fs fs' : Files, Completes lib A fl four fs0 fs ∧ Completes lib A fl four fs0 fs' ∧
      fs (fileName 7) ≠ fs' (fileName 7) := by
  obtain ⟨p0, p1⟩ := four_printed hfl
  obtain ⟨⟨fs, c1, e1⟩, ⟨fs', c2, e2⟩⟩ := two_files (lib := lib) (A := A) (X := four) rfl (by decide)
    four_header p0 p1 fs0
  have hl0 : four0.length ≤ 4096 := by decide +kernel
  have hl1 : four1.length ≤ 4096 := by decide +kernel
  have f0 := hlib.small four0 (by omega)
  have f1 := hlib.small four1 (by omega)
  have r0 := hlib.join four0
  have r1 := hlib.join four1
  rw [f0, List.flatten_nil, List.nil_append] at r0
  rw [f1, List.flatten_nil, List.nil_append] at r1
  rw [f0, f1, r0, r1, List.flatten_nil, List.append_nil, List.append_nil] at e1 e2
  refine ⟨fs, fs', c1, c2, ?_⟩
  rw [show fileName 7 = fileName four.iframe from rfl, e1, e2]
  intro hc
  have hc := Option.some.inj hc
  have hc := List.append_cancel_right hc
  rw [List.append_assoc, List.append_assoc] at hc
  have hc := List.append_cancel_left hc
  revert hc
  decide +kernel

/-- What follows behind each occurrence of a text. -/
def behind (p : Text) : Text → List Text
  | [] => (skip p []).toList
  | c :: cs => (skip p (c :: cs)).toList ++ behind p cs

theorem mem_behind (p : Text) (pre s : Text) : s ∈ behind p (pre ++ p ++ s) := by
  induction pre with
  | nil =>
    rw [List.nil_append]
    have h := skip_append p s
    cases hps : p ++ s with
    | nil => rw [hps] at h; simp [behind, h]
    | cons c cs => rw [hps] at h; simp [behind, h]
  | cons c pre ih => simp only [List.cons_append, behind, List.mem_append]; exact Or.inr ih

/-- Some formats. -/
def someFmt : Fmt := ⟨fun _ => "1.0".toList, fun _ => "0.5".toList⟩

/-- The body of a torn file. -/
def tornBody : Text := four0.take 300 ++ four1 ++ four0.drop 300

/-- C79 fails if a process prints more than fits in the buffer: here process 1
writes into the middle of a patch of process 0, and the file cannot be read. -/
theorem C79_torn_counterexample (hfl : Faithful fl) :
    ∃ (fs : Files) (file : Text), Completes (blockwise 300) someFmt fl four fs0 fs ∧
      fs (fileName 7) = some file ∧ ¬ ∃ es, DrawsMesh four file es := by
  obtain ⟨p0, p1⟩ := four_printed hfl
  obtain ⟨_, ⟨fs, c, e⟩⟩ := two_files (lib := blockwise 300) (A := someFmt) (X := four) rfl (by decide)
    four_header p0 p1 fs0
  have q0 : ((blockwise 300).full four0).flatten = four0.take 300 := by decide +kernel
  have q1 : ((blockwise 300).full four1).flatten = [] := by decide +kernel
  have q2 : (blockwise 300).rest four0 = four0.drop 300 := by decide +kernel
  have q3 : (blockwise 300).rest four1 = four1 := by decide +kernel
  rw [q0, q1, q2, q3] at e
  have hhead : headerText someFmt fl four.P 7 2 2 = headerText someFmt id four.P 7 2 2 := rfl
  rw [hhead] at e
  refine ⟨fs, _, c, e, ?_⟩
  rintro ⟨es, D⟩
  obtain ⟨pre, body, h1, h2⟩ := D.text
  have hm := mem_behind (loopStart four.P.maxlevel) pre (body ++ loopEnd)
  rw [← List.append_assoc, ← h1] at hm
  have hb : behind (loopStart four.P.maxlevel) (headerText someFmt id four.P 7 2 2 ++ four0.take 300 ++ [] ++
      four1 ++ four0.drop 300 ++ footer) = [tornBody ++ loopEnd] := by decide +kernel
  rw [hb, List.mem_singleton] at hm
  have hbody := List.append_cancel_right hm
  have hnone : readEntries tornBody = none := by decide +kernel
  rw [hbody, hnone] at h2
  simp at h2

/-! ### The hypotheses can be met -/

example : Faithful id := fun _ _ => rfl

example : ∃ fl, Nearest fl := nearest_exists

example : Fits four := four_fits

/-- Two blocks side by side, refined differently. -/
def pair : Setting where
  P := { five with mi := 2, maxlevel := 1 }
  iframe := 12
  col b := b
  row _ := 0
  F := [[⟨0, 0, 0⟩], [⟨1, 0, 0⟩, ⟨1, 1, 0⟩, ⟨1, 0, 1⟩, ⟨1, 1, 1⟩]]
  D := { mpisize := 3
         gfq := fun r => if r = 0 then 0 else if r = 1 then 2 else if r = 2 then 3 else 5
         first := rfl
         last := rfl
         mono := fun r hr => by
          rcases (by omega : r = 0 ∨ r = 1 ∨ r = 2) with rfl | rfl | rfl <;> decide }

theorem pair_fits : Fits pair where
  placed := .brick rfl ⟨1, rfl⟩ ⟨0, rfl⟩ (by
    intro b hb
    have : b < 2 := hb
    rcases (by omega : b = 0 ∨ b = 1) with rfl | rfl <;>
      exact ⟨rfl, by decide, by simp [pair, five], by decide⟩)
  maxlevel := by decide
  mi := by decide
  mj := by decide
  iframe := by decide
  procs := by decide
  squares := by decide

/-- The right block's fine patches, and the left block's coarse patch. -/
example : rects pair = [⟨0, 0, 2, 2⟩, ⟨2, 0, 3, 1⟩, ⟨3, 0, 4, 1⟩, ⟨2, 1, 3, 2⟩, ⟨3, 1, 4, 2⟩] := by
  decide +kernel

/-- Complete runs exist, and what is printed fits in a buffer of 4096 characters. -/
example : (∃ fs, Completes (blockwise 4096) someFmt id four (fun _ => none) fs) ∧
    ∀ r, r < four.D.mpisize → ∀ t, printed id four r = .ok t → t.length ≤ (blockwise 4096).size := by
  have hfl : Faithful id := fun _ _ => rfl
  obtain ⟨p0, p1⟩ := four_printed hfl
  refine ⟨?_, ?_⟩
  · obtain ⟨⟨fs, c, _⟩, _⟩ := two_files (lib := blockwise 4096) (A := someFmt) (X := four) rfl
      (by decide) four_header p0 p1 fun _ => none
    exact ⟨fs, c⟩
  · intro r hr t ht
    have : r < 2 := hr
    have hl0 : four0.length ≤ 4096 := by decide +kernel
    have hl1 : four1.length ≤ 4096 := by decide +kernel
    rcases (by omega : r = 0 ∨ r = 1) with rfl | rfl
    · rw [p0] at ht; rw [← Outcome.ok.inj ht]; exact hl0
    · rw [p1] at ht; rw [← Outcome.ok.inj ht]; exact hl1

end Fclaw.Tikz
