/-
The properties C48, C49 and C50 of the parallel data files.
-/
import Verif.ParFile.ReadLemmas

set_option autoImplicit false
set_option linter.unusedSimpArgs false

namespace Fclaw.ParFile

/-! ### Examples used below -/

/-- Three elements on two processes. -/
def exDist : Distribution 3 where
  mpisize := 2
  gfq := fun r => if r = 0 then 0 else if r = 1 then 1 else 3
  first := rfl
  last := rfl
  mono := by
    intro r hr
    have : r = 0 ∨ r = 1 := by omega
    rcases this with rfl | rfl <;> decide

/-- Three elements on one process. -/
def exDist1 : Distribution 3 where
  mpisize := 1
  gfq := fun r => if r = 0 then 0 else 3
  first := rfl
  last := rfl
  mono := by
    intro r hr
    obtain rfl : r = 0 := by omega
    decide

/-- A block and a field of two bytes per element. -/
def exSections : List Section :=
  [.block [97, 98] [1, 2, 3], .field [99] 2 [10, 11, 20, 21, 30, 31]]

/-! ### C48 -/

/-- C48.  The outcome of writing a file, including every byte of the file,
is the same for any two distributions of the elements over processes and any
two orders in which the bytes of a collective write reach the file. -/
theorem C48 (debug : Bool) {n : Nat} (dist dist' : Distribution n)
    (sched sched' : List (Nat × Byte) → List (Nat × Byte)) (hs : Schedule sched)
    (hs' : Schedule sched') (u : List Byte) (ss : List Section)
    (hfit : ∀ s ∈ ss, s.Fits n) :
    writeFile debug sched dist.mpisize dist.gfq n u (ss.map (callOf dist.gfq))
      = writeFile debug sched' dist'.mpisize dist'.gfq n u (ss.map (callOf dist'.gfq)) := by
  rw [writeFile_eq debug hs dist u ss hfit, writeFile_eq debug hs' dist' u ss hfit]

example : Schedule List.reverse ∧ Schedule id ∧ (∀ s ∈ exSections, s.Fits 3) :=
  ⟨fun l => l.reverse_perm, fun l => List.Perm.refl l, by
    intro s hs
    simp only [exSections, List.mem_cons, List.not_mem_nil, or_false] at hs
    rcases hs with rfl | rfl
    · trivial
    · rfl⟩

/-- C48, what the bytes are: sections that are accepted and whose length is
not 15 modulo 16 are written, and the file is the documented layout of the
global data. -/
theorem C48_layout (debug : Bool) {n : Nat} (dist : Distribution n)
    (sched : List (Nat × Byte) → List (Nat × Byte)) (hs : Schedule sched) (u : List Byte)
    (hu : u.length ≤ 47) (hn : n ≤ 9999999999999999) (ss : List Section)
    (hfit : ∀ s ∈ ss, s.Fits n) (hv : ∀ s ∈ ss, s.Valid ∧ s.bytes % 16 ≠ 15) :
    writeFile debug sched dist.mpisize dist.gfq n u (ss.map (callOf dist.gfq))
      = .ok (fileOf (fileImage n u ss)) := by
  rw [writeFile_eq debug hs dist u ss hfit, if_pos ⟨hu, hn⟩, sectionsOutcome_of_valid ss hv]
  rfl

example : (∀ s ∈ exSections, s.Valid ∧ s.bytes % 16 ≠ 15) := by
  intro s hs
  simp only [exSections, List.mem_cons, List.not_mem_nil, or_false] at hs
  rcases hs with rfl | rfl <;> exact ⟨⟨by decide, by decide⟩, by decide⟩

/-- C48 for the public function `fclaw2d_file_open_write`: it completes for
every forest and distribution, and its file depends only on the serialised
connectivity and the elements in global order, provided that the length of the
serialised connectivity is not 15 modulo 16. -/
theorem C48_open_write (debug : Bool) {n : Nat} (dist : Distribution n)
    (sched : List (Nat × Byte) → List (Nat × Byte)) (hs : Schedule sched) (u : List Byte)
    (hu : u.length ≤ 47) (hn : n ≤ 9999999999999999)
    (connSize conn pertree quads : List Byte) (trees quadSize : Nat)
    (h1 : connSize.length = 8) (h2 : conn.length ≤ 9999999999999) (h2' : conn.length % 16 ≠ 15)
    (h3 : pertree.length = 8 * (trees + 1)) (h3' : pertree.length ≤ 9999999999999)
    (h4 : quadSize = 12 ∨ quadSize = 16) (h5 : quads.length = n * quadSize) :
    writeFile debug sched dist.mpisize dist.gfq n u
        (openWriteCalls connSize conn pertree quadSize (localData dist.gfq quadSize quads))
      = .ok (fileOf (fileImage n u [.block strConnSize connSize, .block strConn conn,
          .block strPertree pertree, .field strQuads quadSize quads,
          .block strWriteData [48]])) := by
  have hq : quads.length % 16 ≠ 15 := by
    rw [h5]; rcases h4 with rfl | rfl <;> omega
  have := C48_layout debug dist sched hs u hu hn [.block strConnSize connSize,
    .block strConn conn, .block strPertree pertree, .field strQuads quadSize quads,
    .block strWriteData [48]] (by
      intro s hs
      simp only [List.mem_cons, List.not_mem_nil, or_false] at hs
      rcases hs with rfl | rfl | rfl | rfl | rfl <;> first | exact h5 | trivial) (by
      intro s hs
      simp only [List.mem_cons, List.not_mem_nil, or_false] at hs
      rcases hs with rfl | rfl | rfl | rfl | rfl
      · exact ⟨⟨by decide +kernel, by omega⟩, by simp only [Section.bytes]; omega⟩
      · exact ⟨⟨by decide +kernel, h2⟩, h2'⟩
      · exact ⟨⟨by decide +kernel, h3'⟩, by simp only [Section.bytes]; omega⟩
      · exact ⟨⟨by decide +kernel, by omega⟩, hq⟩
      · exact ⟨⟨by decide +kernel, by decide⟩, by decide⟩)
  exact this

example : ([1, 2, 3] : List Byte).length % 16 ≠ 15 ∧
    (List.replicate 36 (7 : Byte)).length = 3 * 12 := by decide

/-! ### C49 -/

/-- C49, partial.  Whenever a file has been written, the listing of the file gives the
types, sizes and user strings (padded with blanks to 47 characters, as
documented) of all its sections in order, and reading the sections one after
the other, by any number of processes with any partition, gives user string
and data of each section and ends exactly at the end of the file.  Missing:
sections whose length is 15 modulo 16, which cannot be written at all
(`C50_write_counterexample`), and a user string of 47 characters in the file
header (`C49_header_counterexample`). -/
theorem C49_partial (debug : Bool) {n : Nat} (dist : Distribution n)
    (sched : List (Nat × Byte) → List (Nat × Byte)) (hs : Schedule sched) (u : List Byte)
    (ss : List Section) (hfit : ∀ s ∈ ss, s.Fits n) (hu0 : CString u)
    (h0 : ∀ s ∈ ss, CString s.userString) (f : File)
    (hw : writeFile debug sched dist.mpisize dist.gfq n u (ss.map (callOf dist.gfq)) = .ok f) :
    (∃ w, fileInfo f n = some (w, ss.map Section.metaOf)) ∧
    ∀ reader : Distribution n, ReadsBack f n reader.mpisize reader.gfq 0 ss := by
  rw [writeFile_eq debug hs dist u ss hfit] at hw
  by_cases hun : u.length ≤ 47 ∧ n ≤ maxGlobalQuad
  swap
  · rw [if_neg hun] at hw; cases hw
  rw [if_pos hun] at hw
  obtain ⟨rfl, hv⟩ := sectionsOutcome_ok ss hw
  have hall : ∀ s ∈ ss, s.Valid ∧ s.Fits n ∧ CString s.userString :=
    fun s hs => ⟨(hv s hs).1, hfit s hs, h0 s hs⟩
  have hl := headerImage_length (n := n) hun.1
  refine ⟨⟨(padRight 47 u).take 46, ?_⟩, fun reader => ?_⟩
  · unfold fileInfo
    rw [readAt_fileOf]
    have e : ((headerImage n u ++ ss.flatMap Section.image).drop 0).take metadataBytes
        = (headerImage n u).take 96 := by
      rw [List.drop_zero]
      exact List.take_append_of_le_length (by rw [hl]; decide)
    have hl96 : ((headerImage n u).take 96).length = 96 := by
      rw [List.length_take, hl]; rfl
    simp only [e, hl96, checkFileMetadata_header hun.1 hu0 hun.2]
    have hlen : ss.length ≤ (fileOf (headerImage n u ++ ss.flatMap Section.image)).size := by
      have : ss.length ≤ (ss.flatMap Section.image).length := by
        clear hw e hall hfit h0
        induction ss with
        | nil => simp
        | cons s ss ih =>
          have h1 := image_length (hv s (by simp)).1
          have h2 := ih (fun x hx => hv x (List.mem_cons_of_mem _ hx))
          simp only [List.length_cons, List.flatMap_cons, List.length_append]
          omega
      simp only [fileOf, List.length_append]; omega
    have hloop := infoLoop_sections n ss (headerImage n u)
      (fileOf (headerImage n u ++ ss.flatMap Section.image)).size hlen hall
    rw [hl] at hloop
    rw [if_neg (fun h => h rfl), if_neg (fun h => h rfl)]
    exact congrArg (fun x => some (_, x)) hloop
  · exact readsBack_sections n reader ss (headerImage n u) 0 (by rw [hl]) hall

example : ∃ f, writeFile true List.reverse exDist.mpisize exDist.gfq 3 [102]
      (exSections.map (callOf exDist.gfq)) = .ok f ∧
    CString [102] ∧ ∀ s ∈ exSections, CString s.userString := by
  refine ⟨_, C48_layout true exDist List.reverse (fun l => l.reverse_perm) [102] (by decide)
    (by decide) exSections ?_ ?_, ?_, ?_⟩
  · intro s hs
    simp only [exSections, List.mem_cons, List.not_mem_nil, or_false] at hs
    rcases hs with rfl | rfl
    · trivial
    · rfl
  · intro s hs
    simp only [exSections, List.mem_cons, List.not_mem_nil, or_false] at hs
    rcases hs with rfl | rfl <;> exact ⟨⟨by decide, by decide⟩, by decide⟩
  · intro c hc; simp at hc; rw [hc]; decide
  · intro s hs c hc
    simp only [exSections, List.mem_cons, List.not_mem_nil, or_false] at hs
    rcases hs with rfl | rfl <;> simp [Section.userString] at hc
    · rcases hc with rfl | rfl <;> decide
    · rw [hc]; decide

/-- C49, the user string itself: what is read differs from the string given
to the writing function only by blanks at its end. -/
theorem C49_user_string (u : List Byte) :
    ∃ k, padRight 47 u = u ++ List.replicate k blank := ⟨_, rfl⟩

/-- C49 for the user string in the file header, partial: strings of at most 46
characters are read back, padded with blanks to 46 characters.  Missing: a
string of 47 characters, see the counterexample. -/
theorem C49_header_partial (debug : Bool) {n : Nat} (dist : Distribution n)
    (sched : List (Nat × Byte) → List (Nat × Byte)) (hs : Schedule sched) (u : List Byte)
    (hu : u.length ≤ 46) (hu0 : CString u) (f : File)
    (hw : writeFile debug sched dist.mpisize dist.gfq n u [] = .ok f) :
    fileInfo f n = some (padRight 46 u, []) := by
  have h := writeFile_eq debug hs dist u [] (by simp)
  rw [List.map_nil, hw] at h
  by_cases hun : u.length ≤ 47 ∧ n ≤ maxGlobalQuad
  swap
  · rw [if_neg hun] at h; cases h
  rw [if_pos hun] at h
  simp only [sectionsOutcome] at h
  obtain rfl := Outcome.ok.inj h
  have hl := headerImage_length (n := n) hun.1
  unfold fileInfo
  rw [readAt_fileOf]
  have e : ((headerImage n u).drop 0).take metadataBytes = (headerImage n u).take 96 := rfl
  have hl96 : ((headerImage n u).take 96).length = 96 := by rw [List.length_take, hl]; rfl
  simp only [e, hl96, checkFileMetadata_header hun.1 hu0 hun.2]
  have hloop := infoLoop_sections n [] (headerImage n u) (fileOf (headerImage n u)).size
    (by simp) (by simp)
  rw [hl] at hloop
  simp only [List.flatMap_nil, List.append_nil, List.map_nil] at hloop
  rw [if_neg (fun h => h rfl), if_neg (fun h => h rfl)]
  have hp : (padRight 47 u).take 46 = padRight 46 u := by
    unfold padRight
    rw [List.take_append, List.take_of_length_le hu, List.take_replicate]
    have e : min (46 - u.length) (47 - u.length) = 46 - u.length := by omega
    rw [e]
  rw [hp]
  exact congrArg (fun x => some (_, x)) hloop

example : ∃ f, writeFile true id exDist.mpisize exDist.gfq 3 [102] [] = .ok f ∧
    ([102] : List Byte).length ≤ 46 :=
  ⟨_, C48_layout true exDist id (fun l => List.Perm.refl l) [102] (by decide) (by decide) []
    (by simp) (by simp), by decide⟩

/-- C49 fails for a user string of 47 characters in the file header: it is
accepted and written, but the reading code gives only its first 46 characters
(`src/fclaw2d_file.c` 464: the copy is told that its buffer has 47 bytes
including the NUL). -/
theorem C49_header_counterexample :
    (List.replicate 47 (120 : Byte)).length ≤ 47 ∧
    ∃ f, writeFile true id exDist.mpisize exDist.gfq 3 (List.replicate 47 120) [] = .ok f ∧
      fileInfo f 3 = some (List.replicate 46 120, []) := by
  have hu : (List.replicate 47 (120 : Byte)).length ≤ 47 := by decide
  have hw : writeFile true id exDist.mpisize exDist.gfq 3 (List.replicate 47 120) []
      = .ok (fileOf (fileImage 3 (List.replicate 47 120) [])) :=
    C48_layout true exDist id (fun l => List.Perm.refl l) _ hu (by decide) []
      (by simp) (by simp)
  refine ⟨hu, _, hw, ?_⟩
  have hl := headerImage_length (n := 3) hu
  have e0 : fileImage 3 (List.replicate 47 120) [] = headerImage 3 (List.replicate 47 120) := by
    simp [fileImage]
  rw [e0]
  unfold fileInfo
  rw [readAt_fileOf]
  have e : ((headerImage 3 (List.replicate 47 120)).drop 0).take metadataBytes
      = (headerImage 3 (List.replicate 47 120)).take 96 := rfl
  have hl96 : ((headerImage 3 (List.replicate 47 120)).take 96).length = 96 := by
    rw [List.length_take, hl]; rfl
  have hc0 : CString (List.replicate 47 (120 : Byte)) := by
    intro c hc
    rw [List.eq_of_mem_replicate hc]; decide
  simp only [e, hl96, checkFileMetadata_header hu hc0 (by decide : 3 ≤ maxGlobalQuad)]
  have hloop := infoLoop_sections 3 [] (headerImage 3 (List.replicate 47 120))
    (fileOf (headerImage 3 (List.replicate 47 120))).size (by simp) (by simp)
  rw [hl] at hloop
  simp only [List.flatMap_nil, List.append_nil, List.map_nil] at hloop
  rw [if_neg (fun h => h rfl), if_neg (fun h => h rfl)]
  have hp : (padRight 47 (List.replicate 47 (120 : Byte))).take 46 = List.replicate 46 120 := by
    decide
  rw [hp]
  exact congrArg (fun x => some (_, x)) hloop

/-! ### C50 -/

/-- C50, partial: unless the length is 15 modulo 16 the padding fits its
buffer of 17 bytes (with the terminating NUL), consists of between 2 and 16
bytes that begin and end with a newline and are blank otherwise, and completes
the section to a multiple of 16 bytes.  Missing: lengths that are 15 modulo
16, see the counterexample. -/
theorem C50_partial (debug : Bool) (n : Nat) (h : n % 16 ≠ 15) :
    ∃ pad, getPadding debug n maxNumPadBytes = .ok pad ∧ 2 ≤ pad.length ∧ pad.length ≤ 16 ∧
      16 ∣ n + pad.length ∧ getNumPad debug n = .ok pad.length ∧
      ∃ k, pad = [nl] ++ List.replicate k blank ++ [nl] := by
  have hb := numPad_bounds n
  have hle := (numPad_le_iff n).2 h
  refine ⟨padText (numPad n), ?_, ?_, ?_, ?_, ?_, ⟨numPad n - 2, rfl⟩⟩
  · rw [getPadding_eq, if_neg h]
  · rw [padText_length hb.1]; exact hb.1
  · rw [padText_length hb.1]; exact hle
  · rw [padText_length hb.1]; exact numPad_div n
  · rw [padText_length hb.1]
    unfold getNumPad
    dsimp only
    rw [if_neg]
    rintro ⟨_, h2⟩
    exact h2 ⟨by omega, hle⟩

example : (112 : Nat) % 16 ≠ 15 ∧ (14 : Nat) % 16 ≠ 15 ∧ (0 : Nat) % 16 ≠ 15 := by decide

/-- C50 fails for every length that is 15 modulo 16: a debug build stops at an
assertion on all processes, another build writes one byte more than the buffer
has. -/
theorem C50_counterexample (n : Nat) (h : n % 16 = 15) :
    getPadding true n maxNumPadBytes = .abort ∧ getPadding false n maxNumPadBytes = .ub ∧
    getNumPad true n = .abort := by
  refine ⟨by rw [getPadding_eq, if_pos h]; rfl, by rw [getPadding_eq, if_pos h]; rfl, ?_⟩
  unfold getNumPad
  dsimp only
  rw [if_pos]
  refine ⟨rfl, fun h2 => ?_⟩
  exact ((numPad_le_iff n).1 h2.2) h

example : (15 : Nat) % 16 = 15 := by decide

/-- C50, what this means for a file: a section of 15 data bytes cannot be
written. -/
theorem C50_write_counterexample (dist : Distribution 3) :
    writeFile true id dist.mpisize dist.gfq 3 [] [.block [] (List.replicate 15 7)] = .abort ∧
    writeFile false id dist.mpisize dist.gfq 3 [] [.block [] (List.replicate 15 7)] = .ub := by
  have h := fun debug => writeFile_eq debug (sched := id) (fun l => List.Perm.refl l) dist []
    [.block [] (List.replicate 15 7)] (by
      intro s hs; simp only [List.mem_singleton] at hs; subst hs; trivial)
  refine ⟨(h true).trans ?_, (h false).trans ?_⟩
  · rfl
  · rfl

end Fclaw.ParFile
