/-
What the writing functions leave in a file, as a function of the global data.
-/
import Verif.ParFile.Lemmas

set_option autoImplicit false
set_option linter.unusedSimpArgs false
set_option linter.unusedVariables false

namespace Fclaw.ParFile

/-- The outcome of writing one section and the bytes it adds. -/
def sectionOutcome (debug : Bool) (s : Section) : Outcome (List Byte) :=
  match s with
  | .block u d =>
    if ¬ u.length ≤ 47 then .err errInData
    else if ¬ d.length ≤ maxBlockSize then .err errInData
    else if d.length % 16 = 15 then (if debug = true then .abort else .ub)
    else .ok s.image
  | .field u es d =>
    if ¬ u.length ≤ 47 then .err errInData
    else if ¬ es ≤ maxFieldEntrySize then .err errInData
    else if d.length % 16 = 15 then (if debug = true then .abort else .ub)
    else .ok s.image

/-- The outcome of writing sections behind the bytes `img`. -/
def sectionsOutcome (debug : Bool) : List Byte → List Section → Outcome File
  | img, [] => .ok (fileOf img)
  | img, s :: ss =>
    (sectionOutcome debug s).bind fun bs => sectionsOutcome debug (img ++ bs) ss

/-- The header of a section. -/
def sectionHeader (t : Byte) (n : Nat) (u : List Byte) : List Byte :=
  [t, blank] ++ digits 13 n ++ [nl] ++ padRight 47 u ++ [nl]

theorem sectionHeader_length {t : Byte} {n : Nat} {u : List Byte} (hu : u.length ≤ 47) :
    (sectionHeader t n u).length = 64 := by
  unfold sectionHeader
  simp [digits_length, padRight_length hu]

theorem headerImage_length {n : Nat} {u : List Byte} (hu : u.length ≤ 47) :
    (headerImage n u).length = 112 := by
  unfold headerImage
  simp only [List.length_append, padRight_length hu, digits_length,
    padRight_length (w := 23) (s := headerString) (by decide),
    padRight_length (w := 14) (s := []) (by decide)]
  rfl

theorem three_writes {f : File} {img : List Byte} (hf : f = fileOf img)
    (h d p : List Byte) (m : Nat) (hm : m = img.length + d.length + h.length) :
    writeAt (writeAt (writeAt (setSize f m) img.length h) (img.length + h.length) d)
      (img.length + h.length + d.length) p = fileOf (img ++ (h ++ d ++ p)) := by
  have h0 : Holds (setSize f m) img m :=
    holds_setSize m (by rw [hf]; exact holds_of_fileOf img) (by omega)
  have h1 := holds_writeAt h h0 (by omega)
  have h2 := holds_writeAt d h1 (by simp only [List.length_append]; omega)
  have h3 := holds_writeAt p h2 (by simp only [List.length_append]; omega)
  simp only [List.length_append] at h3
  have e : img ++ h ++ d ++ p = img ++ (h ++ d ++ p) := by simp
  rw [e] at h3
  apply holds_fileOf
  have e2 : max (max (max m (img.length + h.length)) (img.length + h.length + d.length))
      (img.length + h.length + d.length + p.length)
      = (img ++ (h ++ d ++ p)).length := by
    simp only [List.length_append]; omega
  rw [e2] at h3
  exact h3

/-- The context during writing: the file holds `img`. -/
structure WCtx (c : Ctx) (n : Nat) (dist : Distribution n) (img : List Byte) : Prop where
  size : c.mpisize = dist.mpisize
  gfq : c.gfq = dist.gfq
  num : c.globalNum = n
  file : c.file = fileOf img
  pos : img.length = 112 + c.accessed

theorem snprintf_header {t : Byte} {n : Nat} {u : List Byte} (hu : u.length ≤ 47) :
    (snprintf (fieldHeaderBytes + 1)
      ([t, blank] ++ digits 13 n ++ [nl] ++ padRight 47 u ++ [nl])).take fieldHeaderBytes
      = sectionHeader t n u := by
  have hl := sectionHeader_length (t := t) (n := n) hu
  unfold snprintf
  change ((sectionHeader t n u).take 64).take 64 = _
  rw [List.take_take, List.take_of_length_le]
  omega

theorem writeBlock_eq (debug : Bool) {c : Ctx} {n : Nat} {dist : Distribution n}
    {img : List Byte} (hc : WCtx c n dist img) (u d : List Byte) :
    (∃ c', writeBlock debug c d u = .ok c' ∧
      sectionOutcome debug (.block u d) = .ok (Section.block u d).image ∧
      WCtx c' n dist (img ++ (Section.block u d).image)) ∨
    (∃ e, writeBlock debug c d u = .err e ∧ sectionOutcome debug (.block u d) = .err e) ∨
    (writeBlock debug c d u = .abort ∧ sectionOutcome debug (.block u d) = .abort) ∨
    (writeBlock debug c d u = .ub ∧ sectionOutcome debug (.block u d) = .ub) := by
  by_cases hu : u.length ≤ 47
  swap
  · have hcu : checkUserString u = false := by
      rw [← Bool.not_eq_true, checkUserString_iff]; exact hu
    exact Or.inr (Or.inl ⟨errInData, by simp [writeBlock, hcu], by simp [sectionOutcome, hu]⟩)
  have hcu : checkUserString u = true := (checkUserString_iff u).2 hu
  by_cases hd : d.length ≤ maxBlockSize
  swap
  · refine Or.inr (Or.inl ⟨errInData, ?_, ?_⟩)
    · simp only [writeBlock, hcu]; simp; omega
    · simp only [sectionOutcome, hu]; simp; omega
  by_cases h15 : d.length % 16 = 15
  · have hd' : ¬ ¬ d.length ≤ maxBlockSize := not_not.2 hd
    have hu' : ¬ ¬ u.length ≤ 47 := not_not.2 hu
    cases debug
    · refine Or.inr (Or.inr (Or.inr ⟨?_, ?_⟩))
      · simp only [writeBlock, hcu, if_neg hd', getPadding_eq, if_pos h15]; rfl
      · simp only [sectionOutcome, if_neg hd', if_neg hu', if_pos h15]; rfl
    · refine Or.inr (Or.inr (Or.inl ⟨?_, ?_⟩))
      · simp only [writeBlock, hcu, if_neg hd', getPadding_eq, if_pos h15]; rfl
      · simp only [sectionOutcome, if_neg hd', if_neg hu', if_pos h15]; rfl
  · have hd' : ¬ ¬ d.length ≤ maxBlockSize := not_not.2 hd
    have hu' : ¬ ¬ u.length ≤ 47 := not_not.2 hu
    left
    have hpl : (padText (numPad d.length)).length = numPad d.length :=
      padText_length (numPad_bounds _).1
    have htk : (padText (numPad d.length)).take (numPad d.length)
        = padText (numPad d.length) := List.take_of_length_le (by omega)
    have hHl := sectionHeader_length (t := chB) (n := d.length) hu
    have h3 := three_writes hc.file (sectionHeader chB d.length u) d
      (padText (numPad d.length)) (metadataBytes + byteDiv + d.length + fieldHeaderBytes
        + c.accessed) (by rw [hHl, hc.pos]; simp only [metadataBytes, byteDiv,
          fieldHeaderBytes, arrayMetadataBytes, userStringBytes]; omega)
    rw [hHl, show img.length = c.accessed + metadataBytes + byteDiv by
      rw [hc.pos]; simp only [metadataBytes, byteDiv]; omega] at h3
    refine ⟨_, by
      simp only [writeBlock, hcu, if_neg hd', getPadding_eq, if_neg h15, Outcome.bind]
      rw [if_neg (by simp)], ?_, ?_⟩
    · simp only [sectionOutcome, if_neg hd', if_neg hu', if_neg h15]
    · refine ⟨hc.size, hc.gfq, hc.num, ?_, ?_⟩
      · simp only [snprintf_header hu, htk]
        exact h3
      · have him : (Section.block u d).image
            = sectionHeader chB d.length u ++ d ++ padText (numPad d.length) := by
          simp [Section.image, sectionHeader]
        simp only [him, List.length_append, hHl, hpl, hc.pos, fieldHeaderBytes,
          arrayMetadataBytes, userStringBytes]
        omega

theorem writeField_eq (debug : Bool) {sched : List (Nat × Byte) → List (Nat × Byte)}
    (hs : Schedule sched) {c : Ctx} {n : Nat} {dist : Distribution n}
    {img : List Byte} (hc : WCtx c n dist img) (u : List Byte) (es : Nat) (d : List Byte)
    (hfit : d.length = n * es) :
    (∃ c', writeField debug sched c es (localData dist.gfq es d) u = .ok c' ∧
      sectionOutcome debug (.field u es d) = .ok (Section.field u es d).image ∧
      WCtx c' n dist (img ++ (Section.field u es d).image)) ∨
    (∃ e, writeField debug sched c es (localData dist.gfq es d) u = .err e ∧
      sectionOutcome debug (.field u es d) = .err e) ∨
    (writeField debug sched c es (localData dist.gfq es d) u = .abort ∧
      sectionOutcome debug (.field u es d) = .abort) ∨
    (writeField debug sched c es (localData dist.gfq es d) u = .ub ∧
      sectionOutcome debug (.field u es d) = .ub) := by
  by_cases hu : u.length ≤ 47
  swap
  · have hcu : checkUserString u = false := by
      rw [← Bool.not_eq_true, checkUserString_iff]; exact hu
    exact Or.inr (Or.inl ⟨errInData, by simp [writeField, hcu], by simp [sectionOutcome, hu]⟩)
  have hcu : checkUserString u = true := (checkUserString_iff u).2 hu
  by_cases hd : es ≤ maxFieldEntrySize
  swap
  · refine Or.inr (Or.inl ⟨errInData, ?_, ?_⟩)
    · simp only [writeField, hcu]; simp; omega
    · simp only [sectionOutcome, hu]; simp; omega
  have hd' : ¬ ¬ es ≤ maxFieldEntrySize := not_not.2 hd
  have hu' : ¬ ¬ u.length ≤ 47 := not_not.2 hu
  have hsz : c.globalNum * es = d.length := by rw [hc.num, hfit]
  by_cases h15 : d.length % 16 = 15
  · cases debug
    · refine Or.inr (Or.inr (Or.inr ⟨?_, ?_⟩))
      · simp only [writeField, hcu, if_neg hd', hsz, getPadding_eq, if_pos h15]; rfl
      · simp only [sectionOutcome, if_neg hd', if_neg hu', if_pos h15]; rfl
    · refine Or.inr (Or.inr (Or.inl ⟨?_, ?_⟩))
      · simp only [writeField, hcu, if_neg hd', hsz, getPadding_eq, if_pos h15]; rfl
      · simp only [sectionOutcome, if_neg hd', if_neg hu', if_pos h15]; rfl
  · left
    have hpl : (padText (numPad d.length)).length = numPad d.length :=
      padText_length (numPad_bounds _).1
    have htk : (padText (numPad d.length)).take (numPad d.length)
        = padText (numPad d.length) := List.take_of_length_le (by omega)
    have hHl := sectionHeader_length (t := chF) (n := es) hu
    have hbase : img.length = c.accessed + metadataBytes + byteDiv := by
      rw [hc.pos]; simp only [metadataBytes, byteDiv]; omega
    have hw : fieldWrites c es (localData dist.gfq es d)
        = writesAt (img.length + 64) d := by
      have h1 := fieldWrites_eq dist.gfq es d (img.length + 64) dist.first dist.mpisize
        dist.mono (by rw [dist.last, hfit])
      rw [dist.last, ← hfit, List.take_length] at h1
      rw [← h1]
      unfold fieldWrites
      rw [hc.size, hc.gfq]
      congr 1
      funext r
      have e : c.accessed + (metadataBytes + byteDiv + dist.gfq r * es) + fieldHeaderBytes
          = img.length + 64 + dist.gfq r * es := by
        rw [hbase]
        simp only [metadataBytes, byteDiv, fieldHeaderBytes, arrayMetadataBytes,
          userStringBytes]
        generalize dist.gfq r * es = z
        omega
      dsimp only
      rw [e]
    have hperm : ∀ f, applyWrites f (sched (fieldWrites c es (localData dist.gfq es d)))
        = writeAt f (img.length + 64) d := by
      intro f
      rw [hw]
      exact applyWrites_perm (hs _) (writesAt_nodup _ _) f
    have h3 := three_writes hc.file (sectionHeader chF es u) d
      (padText (numPad d.length)) (metadataBytes + byteDiv + d.length + fieldHeaderBytes
        + c.accessed) (by rw [hHl, hc.pos]; simp only [metadataBytes, byteDiv,
          fieldHeaderBytes, arrayMetadataBytes, userStringBytes]; omega)
    rw [hHl] at h3
    refine ⟨_, by
      simp only [writeField, hcu, if_neg hd', hsz, getPadding_eq, if_neg h15, Outcome.bind]
      rw [if_neg (by simp)], ?_, ?_⟩
    · simp only [sectionOutcome, if_neg hd', if_neg hu', if_neg h15]
    · refine ⟨hc.size, hc.gfq, hc.num, ?_, ?_⟩
      · simp only [snprintf_header hu, htk, hperm, hc.gfq, dist.first]
        have e1 : c.accessed + (metadataBytes + byteDiv + 0 * es) = img.length := by
          rw [hbase]; omega
        have e2 : c.accessed + metadataBytes + byteDiv + d.length + fieldHeaderBytes
            = img.length + 64 + d.length := by
          rw [hbase]
          simp only [fieldHeaderBytes, arrayMetadataBytes, userStringBytes]; omega
        rw [e1, e2]
        exact h3
      · have him : (Section.field u es d).image
            = sectionHeader chF es u ++ d ++ padText (numPad d.length) := by
          simp [Section.image, sectionHeader]
        simp only [him, List.length_append, hHl, hpl, hc.pos, fieldHeaderBytes,
          arrayMetadataBytes, userStringBytes, Nat.mul_comm es, hsz]
        omega

theorem doCalls_eq (debug : Bool) {sched : List (Nat × Byte) → List (Nat × Byte)}
    (hs : Schedule sched) {n : Nat} {dist : Distribution n} (ss : List Section) :
    ∀ {c : Ctx} {img : List Byte}, WCtx c n dist img → (∀ s ∈ ss, s.Fits n) →
    ((doCalls debug sched c (ss.map (callOf dist.gfq))).bind fun c' => .ok c'.file)
      = sectionsOutcome debug img ss := by
  induction ss with
  | nil =>
    intro c img hc _
    simp only [List.map_nil, doCalls, Outcome.bind, sectionsOutcome, hc.file]
  | cons s ss ih =>
    intro c img hc hfit
    have hrest : ∀ x ∈ ss, x.Fits n := fun x hx => hfit x (List.mem_cons_of_mem _ hx)
    have key : (∃ c', doCall debug sched c (callOf dist.gfq s) = .ok c' ∧
          sectionOutcome debug s = .ok s.image ∧ WCtx c' n dist (img ++ s.image)) ∨
        (∃ e, doCall debug sched c (callOf dist.gfq s) = .err e ∧
          sectionOutcome debug s = .err e) ∨
        (doCall debug sched c (callOf dist.gfq s) = .abort ∧
          sectionOutcome debug s = .abort) ∨
        (doCall debug sched c (callOf dist.gfq s) = .ub ∧ sectionOutcome debug s = .ub) := by
      cases s with
      | block u d => exact writeBlock_eq debug hc u d
      | field u es d =>
        exact writeField_eq debug hs hc u es d (hfit (.field u es d) (by simp))
    simp only [List.map_cons, doCalls, sectionsOutcome]
    rcases key with ⟨c', h1, h2, h3⟩ | ⟨e, h1, h2⟩ | ⟨h1, h2⟩ | ⟨h1, h2⟩
    · rw [h1, h2]; exact ih h3 hrest
    · rw [h1, h2]; rfl
    · rw [h1, h2]; rfl
    · rw [h1, h2]; rfl

/-- The outcome of writing a whole file, as a function of the global data. -/
theorem writeFile_eq (debug : Bool) {sched : List (Nat × Byte) → List (Nat × Byte)}
    (hs : Schedule sched) {n : Nat} (dist : Distribution n) (u : List Byte)
    (ss : List Section) (hfit : ∀ s ∈ ss, s.Fits n) :
    writeFile debug sched dist.mpisize dist.gfq n u (ss.map (callOf dist.gfq))
      = if u.length ≤ 47 ∧ n ≤ maxGlobalQuad then sectionsOutcome debug (headerImage n u) ss
        else .err errInData := by
  unfold writeFile openCreate
  by_cases hu : u.length ≤ 47
  swap
  · have hcu : checkUserString u = false := by
      rw [← Bool.not_eq_true, checkUserString_iff]; exact hu
    simp [hcu, hu, Outcome.bind]
  have hcu : checkUserString u = true := (checkUserString_iff u).2 hu
  by_cases hn : n ≤ maxGlobalQuad
  swap
  · rw [if_neg (by simp [hcu]), if_pos hn, if_neg (fun h => hn h.2)]; rfl
  rw [if_neg (by simp [hcu]), if_neg (not_not.2 hn), if_pos ⟨hu, hn⟩]
  simp only [Outcome.bind]
  have hl := headerImage_length (n := n) hu
  refine doCalls_eq debug hs (dist := dist) ss (img := headerImage n u)
    ⟨rfl, rfl, rfl, ?_, ?_⟩ hfit
  · have e : (snprintf (metadataBytes + byteDiv + 1)
      (magic.take 7 ++ [nl] ++ padRight 23 headerString ++ [nl] ++ padRight 47 u
        ++ [nl] ++ digits 16 n ++ [nl] ++ padRight 14 [] ++ [nl])).take
        (metadataBytes + byteDiv) = headerImage n u := by
      unfold snprintf
      change ((headerImage n u).take 112).take 112 = _
      rw [List.take_take, List.take_of_length_le]
      omega
    simp only [e]
    have h0 : Holds { size := 0, at_ := fun _ => none } [] 0 := ⟨rfl, fun i => by simp⟩
    have h1 := holds_writeAt (headerImage n u) h0 (by simp)
    simp only [List.length_nil, List.nil_append, Nat.zero_add, Nat.zero_max] at h1
    exact holds_fileOf h1
  · exact hl

theorem sectionOutcome_ok {debug : Bool} {s : Section} {bs : List Byte}
    (h : sectionOutcome debug s = .ok bs) :
    bs = s.image ∧ s.Valid ∧ s.bytes % 16 ≠ 15 := by
  cases s <;> simp only [sectionOutcome] at h <;> split_ifs at h with h1 h2 h3 h4 <;>
    simp only [Outcome.ok.injEq] at h <;>
    exact ⟨h.symm, ⟨h1, h2⟩, h3⟩

theorem sectionOutcome_of_valid {debug : Bool} {s : Section} (hv : s.Valid)
    (h15 : s.bytes % 16 ≠ 15) : sectionOutcome debug s = .ok s.image := by
  cases s <;> simp only [Section.Valid] at hv <;> simp only [Section.bytes] at h15 <;>
    simp only [sectionOutcome] <;>
    rw [if_neg (not_not.2 hv.1), if_neg (not_not.2 hv.2), if_neg h15]

theorem sectionsOutcome_ok {debug : Bool} (ss : List Section) : ∀ {img : List Byte} {f : File},
    sectionsOutcome debug img ss = .ok f →
    f = fileOf (img ++ ss.flatMap Section.image) ∧
    ∀ s ∈ ss, s.Valid ∧ s.bytes % 16 ≠ 15 := by
  induction ss with
  | nil =>
    intro img f h
    simp only [sectionsOutcome, Outcome.ok.injEq] at h
    exact ⟨by simp [h], by simp⟩
  | cons s ss ih =>
    intro img f h
    simp only [sectionsOutcome] at h
    cases ho : sectionOutcome debug s with
    | ok bs =>
      rw [ho] at h
      obtain ⟨h1, h2, h3⟩ := sectionOutcome_ok ho
      obtain ⟨h4, h5⟩ := ih h
      refine ⟨by rw [h4, h1]; simp, ?_⟩
      intro x hx
      rcases List.mem_cons.1 hx with rfl | hx
      · exact ⟨h2, h3⟩
      · exact h5 x hx
    | err e => rw [ho] at h; cases h
    | abort => rw [ho] at h; cases h
    | ub => rw [ho] at h; cases h

theorem sectionsOutcome_of_valid {debug : Bool} (ss : List Section) : ∀ {img : List Byte},
    (∀ s ∈ ss, s.Valid ∧ s.bytes % 16 ≠ 15) →
    sectionsOutcome debug img ss = .ok (fileOf (img ++ ss.flatMap Section.image)) := by
  induction ss with
  | nil => intro img _; simp [sectionsOutcome]
  | cons s ss ih =>
    intro img h
    have hs := h s (by simp)
    simp only [sectionsOutcome, sectionOutcome_of_valid hs.1 hs.2, Outcome.bind]
    rw [ih (fun x hx => h x (List.mem_cons_of_mem _ hx))]
    simp

end Fclaw.ParFile
