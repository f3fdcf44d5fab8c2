/-
Reading a file that has the documented layout.
-/
import Verif.ParFile.WriteLemmas
import Mathlib.Data.List.TakeWhile

set_option autoImplicit false
set_option linter.unusedSimpArgs false
set_option linter.unusedVariables false

namespace Fclaw.ParFile

theorem readBytes_fileOf (l : List Byte) : ∀ (n off : Nat), off + n ≤ l.length →
    readBytes (fileOf l) off n = some ((l.drop off).take n) := by
  intro n
  induction n with
  | zero => intro off _; simp [readBytes]
  | succ n ih =>
    intro off h
    have hlt : off < l.length := by omega
    have h1 : (fileOf l).at_ off = some l[off] := by
      simp [fileOf, List.getElem?_eq_getElem hlt]
    simp only [readBytes, h1, ih (off + 1) (by omega)]
    rw [List.drop_eq_getElem_cons hlt, List.take_succ_cons]

theorem readAt_fileOf (l : List Byte) (off n : Nat) :
    readAt (fileOf l) off n = some ((l.drop off).take n) := by
  unfold readAt
  have hs : (fileOf l).size = l.length := rfl
  rw [hs]
  by_cases h : off ≤ l.length
  · rw [readBytes_fileOf l _ off (by omega)]
    congr 1
    have : (l.drop off).length = l.length - off := List.length_drop
    by_cases hn : n ≤ l.length - off
    · rw [Nat.min_eq_left hn]
    · rw [Nat.min_eq_right (by omega), List.take_of_length_le (by omega),
        List.take_of_length_le (by omega)]
  · have e : min n (l.length - off) = 0 := by omega
    rw [e, List.drop_eq_nil_of_le (by omega)]
    simp [readBytes]

/-- Reading a part in the middle of a file. -/
theorem readAt_mid (a b c : List Byte) :
    readAt (fileOf (a ++ (b ++ c))) a.length b.length = some b := by
  rw [readAt_fileOf]; simp

theorem readAt_mid' {l a b c : List Byte} {off n : Nat} (hl : l = a ++ (b ++ c))
    (ho : off = a.length) (hn : n = b.length) : readAt (fileOf l) off n = some b := by
  subst hl ho hn; exact readAt_mid a b c

theorem ofNat_digit (d : Nat) (h : d < 10) : (UInt8.ofNat (48 + d)).toNat = 48 + d := by
  simp only [UInt8.toNat_ofNat']; omega

theorem digits_isDigit (w : Nat) : ∀ n, ∀ c ∈ digits w n, 48 ≤ c.toNat ∧ c.toNat ≤ 57 := by
  induction w with
  | zero => intro n c hc; simp [digits] at hc
  | succ w ih =>
    intro n c hc
    simp only [digits, List.mem_append, List.mem_singleton] at hc
    rcases hc with hc | rfl
    · exact ih _ c hc
    · rw [ofNat_digit _ (Nat.mod_lt _ (by omega))]
      have := Nat.mod_lt n (show 10 > 0 by omega)
      omega

theorem digits_foldl (w : Nat) : ∀ n, n < 10 ^ w →
    (digits w n).foldl (fun a (c : Byte) => 10 * a + (c.toNat - 48)) 0 = n := by
  induction w with
  | zero => intro n h; simp at h; simp [digits, h]
  | succ w ih =>
    intro n h
    simp only [digits, List.foldl_append, List.foldl_cons, List.foldl_nil]
    rw [ih (n / 10) (by rw [Nat.div_lt_iff_lt_mul (by omega)]; rw [Nat.pow_succ] at h; exact h),
      ofNat_digit _ (Nat.mod_lt _ (by omega))]
    omega

theorem atol_digits {w n : Nat} (h : n < 10 ^ w) : atol (digits w n) = n := by
  unfold atol
  rw [List.takeWhile_eq_self_iff.2]
  · exact digits_foldl w n h
  · intro c hc
    simpa using digits_isDigit w n c hc

theorem digits_ne_zero (w n : Nat) : ∀ c ∈ digits w n, c ≠ 0 := by
  intro c hc h0
  have := digits_isDigit w n c hc
  rw [h0] at this
  simp at this

theorem cstr_of_ne_zero {l : List Byte} (h : ∀ c ∈ l, c ≠ 0) : cstr l = l := by
  unfold cstr
  rw [List.takeWhile_eq_self_iff.2]
  intro c hc
  simpa using h c hc

theorem padRight_ne_zero {w : Nat} {u : List Byte} (h : ∀ c ∈ u, c ≠ 0) :
    ∀ c ∈ padRight w u, c ≠ 0 := by
  intro c hc
  simp only [padRight, List.mem_append, List.mem_replicate] at hc
  rcases hc with hc | ⟨_, rfl⟩
  · exact h c hc
  · decide

theorem strcopy_user {u : List Byte} (hu : u.length ≤ 47) (h0 : ∀ c ∈ u, c ≠ 0) :
    strcopy userStringBytes (padRight 47 u) = padRight 47 u := by
  unfold strcopy
  rw [cstr_of_ne_zero (padRight_ne_zero h0), List.take_of_length_le]
  rw [padRight_length hu]; decide

/-- The parts of a section header at their positions. -/
theorem sectionHeader_parts {t : Byte} {n : Nat} {u : List Byte} (hu : u.length ≤ 47) :
    (sectionHeader t n u)[0]? = some t ∧
    (sectionHeader t n u)[arrayMetadataBytes + 1]? = some nl ∧
    (sectionHeader t n u)[fieldHeaderBytes - 1]? = some nl ∧
    ((sectionHeader t n u).take (arrayMetadataBytes + 1)).drop 2 = digits 13 n ∧
    ((sectionHeader t n u).take (fieldHeaderBytes - 1)).drop (arrayMetadataBytes + 2)
      = padRight 47 u := by
  have hA := digits_length 13 n
  have hB := padRight_length (w := 47) hu
  generalize hAe : digits 13 n = A at hA
  generalize hBe : padRight 47 u = B at hB
  have hform : sectionHeader t n u = t :: blank :: (A ++ nl :: (B ++ [nl])) := by
    simp [sectionHeader, hAe, hBe]
  rw [hform]
  refine ⟨rfl, ?_, ?_, ?_, ?_⟩
  · change (A ++ nl :: (B ++ [nl]))[13]? = some nl
    rw [List.getElem?_append_right (by omega), hA]; rfl
  · change (A ++ nl :: (B ++ [nl]))[61]? = some nl
    rw [List.getElem?_append_right (by omega), hA]
    change (B ++ [nl])[47]? = some nl
    rw [List.getElem?_append_right (by omega), hB]; rfl
  · change ((t :: blank :: (A ++ nl :: (B ++ [nl]))).take (13 + 1 + 1)).drop (1 + 1) = A
    simp only [List.take_succ_cons, List.drop_succ_cons, List.drop_zero]
    rw [← hA, List.take_left']
    rfl
  · change ((t :: blank :: (A ++ nl :: (B ++ [nl]))).take (61 + 1 + 1)).drop (14 + 1 + 1) = B
    simp only [List.take_succ_cons, List.drop_succ_cons, List.drop_zero]
    have : A ++ nl :: (B ++ [nl]) = (A ++ [nl]) ++ (B ++ [nl]) := by simp
    rw [this]
    have hl : (A ++ [nl]).length = 14 := by simp [hA]
    rw [List.drop_take, List.drop_left' hl]
    rw [List.take_left' (by omega)]

theorem padText_ends {k : Nat} (h : 2 ≤ k) (buf : List Byte) :
    (overlay buf (padText k))[0]? = some nl ∧ (overlay buf (padText k))[k - 1]? = some nl := by
  unfold overlay
  refine ⟨by simp [padText], ?_⟩
  rw [List.getElem?_append_left (by rw [padText_length h]; omega)]
  unfold padText
  rw [List.getElem?_append_right (by simp; omega)]
  simp only [List.length_append, List.length_cons, List.length_nil, List.length_replicate]
  have : k - 1 - (0 + 1 + (k - 2)) = 0 := by omega
  rw [this]; rfl

/-- A section as header, data and padding. -/
def Section.type : Section → Byte
  | .block _ _ => chB
  | .field _ _ _ => chF

def Section.headSize : Section → Nat
  | .block _ d => d.length
  | .field _ es _ => es

def Section.data : Section → List Byte
  | .block _ d => d
  | .field _ _ d => d

theorem image_eq (s : Section) : s.image
    = sectionHeader s.type s.headSize s.userString
        ++ (s.data ++ padText (numPad s.data.length)) := by
  cases s <;> simp [Section.image, sectionHeader, Section.type, Section.headSize,
    Section.userString, Section.data]

theorem image_length {s : Section} (hv : s.Valid) :
    s.image.length = 64 + s.data.length + numPad s.data.length := by
  rw [image_eq]
  have hu : s.userString.length ≤ 47 := by cases s <;> exact hv.1
  simp only [List.length_append, sectionHeader_length hu,
    padText_length (numPad_bounds _).1]
  omega

theorem Section.Valid.user {s : Section} (hv : s.Valid) : s.userString.length ≤ 47 := by
  cases s <;> exact hv.1

theorem Section.Valid.headSize {s : Section} (hv : s.Valid) : s.headSize < 10 ^ 13 := by
  cases s <;> simp only [Section.Valid] at hv <;> simp only [Section.headSize] <;> omega

/-- Without stray NUL bytes in the user string. -/
def CString (u : List Byte) : Prop := ∀ c ∈ u, c ≠ 0

theorem infoStep_section {pre post : List Byte} {s : Section} {n : Nat} (hv : s.Valid)
    (hfit : s.Fits n) (h0 : CString s.userString) :
    infoStep (fileOf (pre ++ (s.image ++ post))) n pre.length
      = some (s.metaOf, pre.length + s.image.length) := by
  have hu := hv.user
  have hHl := sectionHeader_length (t := s.type) (n := s.headSize) hu
  obtain ⟨p0, p15, p63, pd, pu⟩ := sectionHeader_parts (t := s.type) (n := s.headSize) hu
  have hP := padText_length (numPad_bounds s.data.length).1
  have r1 : readAt (fileOf (pre ++ (s.image ++ post))) pre.length fieldHeaderBytes
      = some (sectionHeader s.type s.headSize s.userString) := by
    refine readAt_mid' (a := pre)
      (c := s.data ++ padText (numPad s.data.length) ++ post) ?_ rfl ?_
    · rw [image_eq]; simp
    · rw [hHl]; rfl
  have hsize : (if (some s.type) = some chF then n * s.headSize else s.headSize)
      = s.data.length := by
    cases s with
    | block u d =>
      have : ¬ some (Section.block u d).type = some chF := by
        simp only [Section.type, Option.some.injEq]; decide
      rw [if_neg this]; rfl
    | field u es d =>
      simp only [Section.Fits] at hfit
      simp [Section.type, Section.headSize, Section.data, hfit]
  have r2 : readAt (fileOf (pre ++ (s.image ++ post)))
      (pre.length + fieldHeaderBytes + s.data.length) (numPad s.data.length)
      = some (padText (numPad s.data.length)) := by
    refine readAt_mid' (a := pre ++ sectionHeader s.type s.headSize s.userString ++ s.data)
      (c := post) ?_ ?_ hP.symm
    · rw [image_eq]; simp
    · simp only [List.length_append, hHl]; rfl
  obtain ⟨e0, e1⟩ := padText_ends (numPad_bounds s.data.length).1
    (sectionHeader s.type s.headSize s.userString)
  have hty : s.type = chB ∨ s.type = chF := by cases s <;> simp [Section.type]
  have hHl' : (sectionHeader s.type s.headSize s.userString).length = fieldHeaderBytes := hHl
  unfold infoStep
  rw [r1]
  simp only [hHl', p0, p15, p63, pd, pu, atol_digits hv.headSize, strcopy_user hu h0, hsize, r2,
    e0, e1]
  have hm : Meta.mk (if some s.type = some chF then chF else chB) s.headSize
      (padRight 47 s.userString) = s.metaOf := by
    cases s with
    | block u d =>
      have : ¬ some (Section.block u d).type = some chF := by
        simp only [Section.type, Option.some.injEq]; decide
      rw [if_neg this]; rfl
    | field u es d => rw [if_pos (by rfl)]; rfl
  have ht : ¬ (some s.type ≠ some chB ∧ some s.type ≠ some chF) := by
    rcases hty with h | h <;> rw [h] <;> simp
  have hpos : pre.length + fieldHeaderBytes + s.data.length + numPad s.data.length
      = pre.length + s.image.length := by
    rw [image_length hv]
    simp only [fieldHeaderBytes, arrayMetadataBytes, userStringBytes]
    omega
  rw [hm, if_neg (fun h => h rfl), if_neg ht, if_neg (fun h => h rfl),
    if_neg (fun h => h rfl), if_neg (fun h => h.elim (fun h => h rfl) (fun h => h rfl)), hpos]

theorem infoStep_end (l : List Byte) (n : Nat) : infoStep (fileOf l) n l.length = none := by
  unfold infoStep
  rw [readAt_fileOf]
  simp

theorem infoLoop_sections (n : Nat) (ss : List Section) : ∀ (pre : List Byte) (fuel : Nat),
    ss.length ≤ fuel → (∀ s ∈ ss, s.Valid ∧ s.Fits n ∧ CString s.userString) →
    infoLoop (fileOf (pre ++ ss.flatMap Section.image)) n fuel pre.length
      = ss.map Section.metaOf := by
  induction ss with
  | nil =>
    intro pre fuel _ _
    simp only [List.flatMap_nil, List.append_nil, List.map_nil]
    cases fuel with
    | zero => rfl
    | succ k => simp [infoLoop, infoStep_end]
  | cons s ss ih =>
    intro pre fuel hf h
    obtain ⟨k, rfl⟩ : ∃ k, fuel = k + 1 := ⟨fuel - 1, by simp at hf; omega⟩
    obtain ⟨hv, hfit, h0⟩ := h s (by simp)
    simp only [List.flatMap_cons, infoLoop,
      infoStep_section (post := ss.flatMap Section.image) hv hfit h0, List.map_cons]
    congr 1
    have := ih (pre ++ s.image) k (by simp at hf; omega)
      (fun x hx => h x (List.mem_cons_of_mem _ hx))
    rw [List.append_assoc, List.length_append] at this
    exact this

theorem readBlockMetadata_section {pre post : List Byte} {s : Section} {n acc : Nat}
    (hv : s.Valid) (hfit : s.Fits n) (h0 : CString s.userString)
    (hacc : acc + 112 = pre.length) :
    readBlockMetadata (fileOf (pre ++ (s.image ++ post))) n acc s.headSize s.type
      = some (padRight 47 s.userString) := by
  have hu := hv.user
  have hHl := sectionHeader_length (t := s.type) (n := s.headSize) hu
  obtain ⟨p0, p15, p63, pd, pu⟩ := sectionHeader_parts (t := s.type) (n := s.headSize) hu
  have hP := padText_length (numPad_bounds s.data.length).1
  have r1 : readAt (fileOf (pre ++ (s.image ++ post))) (acc + metadataBytes + byteDiv)
      fieldHeaderBytes = some (sectionHeader s.type s.headSize s.userString) := by
    refine readAt_mid' (a := pre)
      (c := s.data ++ padText (numPad s.data.length) ++ post) ?_ ?_ ?_
    · rw [image_eq]; simp
    · simp only [metadataBytes, byteDiv]; omega
    · rw [hHl]; rfl
  have hsize : (if (some s.type) = some chF then s.headSize * n else s.headSize)
      = s.data.length := by
    cases s with
    | block u d =>
      have : ¬ some (Section.block u d).type = some chF := by
        simp only [Section.type, Option.some.injEq]; decide
      rw [if_neg this]; rfl
    | field u es d =>
      simp only [Section.Fits] at hfit
      simp [Section.type, Section.headSize, Section.data, hfit, Nat.mul_comm]
  have r2 : readAt (fileOf (pre ++ (s.image ++ post)))
      (acc + metadataBytes + byteDiv + fieldHeaderBytes + s.data.length)
      (numPad s.data.length) = some (padText (numPad s.data.length)) := by
    refine readAt_mid' (a := pre ++ sectionHeader s.type s.headSize s.userString ++ s.data)
      (c := post) ?_ ?_ hP.symm
    · rw [image_eq]; simp
    · simp only [List.length_append, hHl, metadataBytes, byteDiv, fieldHeaderBytes,
        arrayMetadataBytes, userStringBytes]; omega
  obtain ⟨e0, e1⟩ := padText_ends (numPad_bounds s.data.length).1
    (sectionHeader s.type s.headSize s.userString)
  have hHl' : (sectionHeader s.type s.headSize s.userString).length = fieldHeaderBytes := hHl
  unfold readBlockMetadata
  rw [r1]
  simp only [hHl', p0, p15, p63, pd, pu, atol_digits hv.headSize, strcopy_user hu h0, hsize, r2,
    hP, e0, e1]
  simp

theorem readBlock_section {pre post : List Byte} {u d : List Byte} {n acc : Nat}
    (hv : (Section.block u d).Valid) (h0 : CString u) (hacc : acc + 112 = pre.length) :
    readBlock (fileOf (pre ++ ((Section.block u d).image ++ post))) n acc d.length
      = some (padRight 47 u, d, acc + (Section.block u d).image.length) := by
  have hu : u.length ≤ 47 := hv.1
  have hm := readBlockMetadata_section (pre := pre) (post := post) (n := n) hv trivial h0 hacc
  have hHl := sectionHeader_length (t := chB) (n := d.length) hu
  have hil := image_length hv
  simp only [Section.data] at hil
  have r : readAt (fileOf (pre ++ ((Section.block u d).image ++ post)))
      (acc + metadataBytes + fieldHeaderBytes + byteDiv) d.length = some d := by
    refine readAt_mid' (a := pre ++ sectionHeader chB d.length u)
      (c := padText (numPad d.length) ++ post) ?_ ?_ rfl
    · rw [image_eq]
      simp [Section.type, Section.headSize, Section.userString, Section.data]
    · simp only [List.length_append, hHl, metadataBytes, byteDiv, fieldHeaderBytes,
        arrayMetadataBytes, userStringBytes]; omega
  have hsz : ¬ (fileOf (pre ++ ((Section.block u d).image ++ post))).size - metadataBytes
      - byteDiv - fieldHeaderBytes < d.length := by
    simp only [fileOf, List.length_append, hil, metadataBytes, byteDiv, fieldHeaderBytes,
      arrayMetadataBytes, userStringBytes]
    omega
  unfold readBlock
  simp only [Section.headSize, Section.type, Section.userString] at hm
  rw [if_neg hsz, hm]
  simp only [r]
  rw [if_neg (by simp), hil]
  congr 3
  simp only [fieldHeaderBytes, arrayMetadataBytes, userStringBytes]
  omega

theorem readField_section {pre post : List Byte} {u d : List Byte} {es n acc : Nat}
    (hv : (Section.field u es d).Valid) (hfit : d.length = n * es) (h0 : CString u)
    (hacc : acc + 112 = pre.length) (dist : Distribution n) {r : Nat}
    (hr : r < dist.mpisize) :
    readField (fileOf (pre ++ ((Section.field u es d).image ++ post))) n acc es dist.gfq r
      = some (padRight 47 u, localData dist.gfq es d r,
          acc + (Section.field u es d).image.length) := by
  have hu : u.length ≤ 47 := hv.1
  have hm := readBlockMetadata_section (pre := pre) (post := post) (n := n) hv hfit h0 hacc
  have hHl := sectionHeader_length (t := chF) (n := es) hu
  have hil := image_length hv
  simp only [Section.data] at hil
  have hmono : ∀ k, r + 1 + k ≤ dist.mpisize → dist.gfq (r + 1) ≤ dist.gfq (r + 1 + k) := by
    intro k
    induction k with
    | zero => intro _; exact le_refl _
    | succ k ih =>
      intro hk
      exact le_trans (ih (by omega)) (dist.mono (r + 1 + k) (by omega))
  have hle : dist.gfq (r + 1) ≤ n := by
    have h1 := hmono (dist.mpisize - (r + 1)) (by omega)
    have e : r + 1 + (dist.mpisize - (r + 1)) = dist.mpisize := by omega
    rw [e, dist.last] at h1
    exact h1
  have hsum : dist.gfq r * es + (dist.gfq (r + 1) - dist.gfq r) * es ≤ d.length := by
    rw [← Nat.add_mul, hfit]
    apply Nat.mul_le_mul_right
    have := dist.mono r hr
    omega
  have hll : (localData dist.gfq es d r).length = (dist.gfq (r + 1) - dist.gfq r) * es := by
    unfold localData
    rw [List.length_take, List.length_drop]
    omega
  have hd : d = d.take (dist.gfq r * es) ++ (localData dist.gfq es d r
      ++ (d.drop (dist.gfq r * es)).drop ((dist.gfq (r + 1) - dist.gfq r) * es)) := by
    unfold localData
    rw [List.take_append_drop, List.take_append_drop]
  have rr : readAt (fileOf (pre ++ ((Section.field u es d).image ++ post)))
      (acc + metadataBytes + fieldHeaderBytes + byteDiv + dist.gfq r * es)
      ((dist.gfq (r + 1) - dist.gfq r) * es) = some (localData dist.gfq es d r) := by
    refine readAt_mid' (a := pre ++ sectionHeader chF es u ++ d.take (dist.gfq r * es))
      (c := (d.drop (dist.gfq r * es)).drop ((dist.gfq (r + 1) - dist.gfq r) * es)
        ++ padText (numPad d.length) ++ post) ?_ ?_ hll.symm
    · rw [image_eq]
      simp only [Section.type, Section.headSize, Section.userString, Section.data]
      generalize padText (numPad d.length) = pt
      conv_lhs => rw [hd]
      simp
    · simp only [List.length_append, hHl, List.length_take, metadataBytes, byteDiv,
        fieldHeaderBytes, arrayMetadataBytes, userStringBytes]
      omega
  have hsz : ¬ (fileOf (pre ++ ((Section.field u es d).image ++ post))).size - metadataBytes
      - byteDiv - fieldHeaderBytes < (dist.gfq (r + 1) - dist.gfq r) * es := by
    simp only [fileOf, List.length_append, hil, metadataBytes, byteDiv, fieldHeaderBytes,
      arrayMetadataBytes, userStringBytes]
    omega
  unfold readField
  simp only [Section.headSize, Section.type, Section.userString] at hm
  dsimp only
  rw [if_neg hsz, hm]
  simp only [rr]
  rw [if_neg (by rw [hll]; simp), hil]
  congr 3
  rw [Nat.mul_comm es n, ← hfit]
  simp only [fieldHeaderBytes, arrayMetadataBytes, userStringBytes]
  omega

theorem readsBack_sections (n : Nat) (dist : Distribution n) (ss : List Section) :
    ∀ (pre : List Byte) (acc : Nat), acc + 112 = pre.length →
    (∀ s ∈ ss, s.Valid ∧ s.Fits n ∧ CString s.userString) →
    ReadsBack (fileOf (pre ++ ss.flatMap Section.image)) n dist.mpisize dist.gfq acc ss := by
  induction ss with
  | nil =>
    intro pre acc hacc _
    simp [ReadsBack, fileOf, hacc]
  | cons s ss ih =>
    intro pre acc hacc h
    obtain ⟨hv, hfit, h0⟩ := h s (by simp)
    have hrest := ih (pre ++ s.image) (acc + s.image.length)
      (by rw [List.length_append]; omega) (fun x hx => h x (List.mem_cons_of_mem _ hx))
    rw [List.append_assoc] at hrest
    simp only [List.flatMap_cons]
    cases s with
    | block u d => exact ⟨_, readBlock_section hv h0 hacc, hrest⟩
    | field u es d =>
      exact ⟨_, fun r hr => readField_section hv hfit h0 hacc dist hr, hrest⟩

/-- The file header is recognised; its user string loses the 47th character. -/
theorem checkFileMetadata_header {n : Nat} {u : List Byte} (hu : u.length ≤ 47)
    (h0 : CString u) (hn : n ≤ maxGlobalQuad) :
    checkFileMetadata ((headerImage n u).take 96) = some ((padRight 47 u).take 46, n) := by
  have hB := padRight_length (w := 47) hu
  have hB0 := padRight_ne_zero (w := 47) h0
  have hD := digits_length 16 n
  have hD0 := digits_ne_zero 16 n
  have hat : atol (digits 16 n) = n := atol_digits (by simp only [maxGlobalQuad] at hn; omega)
  generalize hBe : padRight 47 u = B at hB hB0
  generalize hDe : digits 16 n = D at hD hD0 hat
  have hV : padRight 23 headerString = headerString ++ List.replicate 5 blank := rfl
  have hform : (headerImage n u).take 96
      = (magic ++ [nl] ++ (headerString ++ List.replicate 5 blank) ++ [nl])
        ++ (B ++ ([nl] ++ D)) := by
    unfold headerImage
    rw [hBe, hDe, hV]
    have e : magic ++ [nl] ++ (headerString ++ List.replicate 5 blank) ++ [nl] ++ B ++ [nl] ++ D
        ++ [nl] ++ padRight 14 [] ++ [nl]
        = (magic ++ [nl] ++ (headerString ++ List.replicate 5 blank) ++ [nl]
          ++ (B ++ ([nl] ++ D))) ++ ([nl] ++ padRight 14 [] ++ [nl]) := by simp
    rw [e, List.take_left']
    simp only [List.length_append, hB, hD]; rfl
  have hlen : ((magic ++ [nl] ++ (headerString ++ List.replicate 5 blank) ++ [nl])
        ++ (B ++ ([nl] ++ D))).length = 96 := by
    simp only [List.length_append, hB, hD]; rfl
  rw [hform]
  have h32 : (magic ++ [nl] ++ (headerString ++ List.replicate 5 blank) ++ [nl]).length = 32 := rfl
  have g7 : ((magic ++ [nl] ++ (headerString ++ List.replicate 5 blank) ++ [nl])
        ++ (B ++ ([nl] ++ D)))[7]? = some nl := by
    rw [List.getElem?_append_left (by rw [h32]; omega)]; rfl
  have g31 : ((magic ++ [nl] ++ (headerString ++ List.replicate 5 blank) ++ [nl])
        ++ (B ++ ([nl] ++ D)))[8 + 24 - 1]? = some nl := by
    rw [List.getElem?_append_left (by rw [h32]; omega)]; rfl
  have g79 : ((magic ++ [nl] ++ (headerString ++ List.replicate 5 blank) ++ [nl])
        ++ (B ++ ([nl] ++ D)))[8 + 24 + 48 - 1]? = some nl := by
    rw [List.getElem?_append_right (by rw [h32]; omega), h32,
      List.getElem?_append_right (by omega), hB]; rfl
  have t7 : cstr (((magic ++ [nl] ++ (headerString ++ List.replicate 5 blank) ++ [nl])
        ++ (B ++ ([nl] ++ D))).take 7) = magic := by
    rw [List.take_append_of_le_length (by rw [h32]; omega)]; rfl
  have t23 : (cstr ((((magic ++ [nl] ++ (headerString ++ List.replicate 5 blank) ++ [nl])
        ++ (B ++ ([nl] ++ D))).drop 8).take 23)).length = 24 - 1 := by
    rw [List.drop_append_of_le_length (by rw [h32]; omega),
      List.take_append_of_le_length (by decide)]
    rfl
  have d32 : ((magic ++ [nl] ++ (headerString ++ List.replicate 5 blank) ++ [nl])
        ++ (B ++ ([nl] ++ D))).drop (8 + 24) = B ++ ([nl] ++ D) := List.drop_left' h32
  have d80 : (((magic ++ [nl] ++ (headerString ++ List.replicate 5 blank) ++ [nl])
        ++ (B ++ ([nl] ++ D))).take metadataBytes).drop (8 + 24 + 48) = D := by
    rw [List.take_of_length_le (by rw [hlen]), ← List.append_assoc B, ← List.append_assoc]
    apply List.drop_left'
    simp only [List.length_append, hB]; rfl
  have hstr : strcopy (userStringBytes - 1) (B ++ ([nl] ++ D)) = B.take 46 := by
    unfold strcopy
    rw [cstr_of_ne_zero]
    · rw [List.take_append_of_le_length (by rw [hB]; decide)]; rfl
    · intro c hc
      simp only [List.mem_append, List.mem_singleton] at hc
      rcases hc with hc | rfl | hc
      · exact hB0 c hc
      · decide
      · exact hD0 c hc
  unfold checkFileMetadata
  dsimp only
  rw [g7, g31, g79, t7, t23, d32, d80, hstr, cstr_of_ne_zero hD0, hD, hat]
  simp

end Fclaw.ParFile
