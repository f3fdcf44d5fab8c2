/-
What the processes write together, for any list of arrays whose callbacks
deliver the pieces they should.
-/
import Verif.Vtk.Lemmas

set_option autoImplicit false
set_option linter.unusedSimpArgs false
set_option linter.unusedVariables false

namespace Fclaw.Vtk

open Fclaw.ParFile (Byte File Outcome Distribution writesAt applyWrites writeAt writesAt_append
  writesAt_nodup applyWrites_perm Holds holds_writeAt fileOf holds_fileOf)

/-- An array together with the piece that belongs to each patch. -/
structure FE (R : Type) where
  f : Field R
  E : Nat → Nat × Patch R → List Byte

/-- The callback delivers the right piece on every process. -/
structure FE.Ok {R : Type} (F : Forest R) (D : Distribution F.count) (e : FE R) : Prop where
  cb : ∀ r, r < D.mpisize → ∀ (lb : LocalBlock R) (j g : Nat) (x : Nat × Patch R),
    D.gfq r + lb.numPatchesBefore + j = g → D.gfq r ≤ g → g < D.gfq (r + 1) →
    (Forest.patches 0 F)[g]? = some x → e.f.cb (localDom F D r) x.1 lb j x.2 = .ok (e.E g x)
  len : ∀ (g : Nat) (x : Nat × Patch R), (Forest.patches 0 F)[g]? = some x →
    (e.E g x).length = e.f.psize
  small : e.f.psize ≤ intMax

/-- All data of an array. -/
def FE.all {R : Type} (F : Forest R) (e : FE R) : List Byte :=
  flatIdx e.E 0 (Forest.patches 0 F)

/-- An array in the file: the number of bytes, and the bytes. -/
def FE.image {R : Type} (F : Forest R) (e : FE R) : List Byte :=
  le 8 (e.f.psize * F.count) ++ e.all F

theorem FE.all_length {R : Type} {F : Forest R} {D : Distribution F.count} {e : FE R}
    (h : e.Ok F D) : (e.all F).length = e.f.psize * F.count := by
  unfold FE.all
  rw [flatIdx_length _ e.f.psize _ 0 (fun j x hj => by simpa using h.len j x hj), patches_length,
    Nat.mul_comm]

theorem FE.image_length {R : Type} {F : Forest R} {D : Distribution F.count} {e : FE R}
    (h : e.Ok F D) : (e.image F).length = 8 + e.f.psize * F.count := by
  unfold FE.image
  rw [List.length_append, le_length, FE.all_length h]

theorem gfq_mono {n : Nat} (D : Distribution n) {r t : Nat} (h : r ≤ t) (ht : t ≤ D.mpisize) :
    D.gfq r ≤ D.gfq t := by
  induction t with
  | zero => have : r = 0 := by omega
            subst this; exact le_refl _
  | succ t ih =>
    by_cases hr : r = t + 1
    · subst hr; exact le_refl _
    · exact le_trans (ih (by omega) (by omega)) (D.mono t (by omega))

theorem gfq_le {n : Nat} (D : Distribution n) {r : Nat} (h : r ≤ D.mpisize) : D.gfq r ≤ n := by
  have h1 := gfq_mono D h (le_refl _)
  have h2 := D.last
  omega

theorem writeBuffer_mpiio {psize : Nat} {data : List Byte} (h : data.length = psize)
    (hs : psize ≤ intMax) : writeBuffer true psize data = .ok data := by
  have h1 : psize % 4294967296 = psize := Nat.mod_eq_of_lt (by simp only [intMax] at hs; omega)
  have h2 : intCount psize = some psize := by
    unfold intCount; rw [h1, if_pos hs]
  unfold writeBuffer
  rw [if_neg (by simpa using h), if_pos rfl, h2]
  simp only
  rw [List.take_of_length_le (by omega)]

theorem writeBuffer_serial {psize : Nat} {data : List Byte} (h : data.length = psize)
    (hs : psize ≠ 0) : writeBuffer false psize data = .ok data := by
  unfold writeBuffer
  rw [if_neg (by simpa using h)]
  simp [hs]

/-- The part of an array that belongs to process `r`. -/
def FE.part {R : Type} (F : Forest R) (D : Distribution F.count) (e : FE R) (r : Nat) : List Byte :=
  flatIdx e.E (D.gfq r) (window (D.gfq r) (D.gfq (r + 1)) 0 (Forest.patches 0 F))

theorem bodyOf_eq {R : Type} {F : Forest R} {D : Distribution F.count} {e : FE R}
    (h : e.Ok F D) (mpiio : Bool) (hm : mpiio = true ∨ e.f.psize ≠ 0) {r : Nat}
    (hr : r < D.mpisize) : bodyOf mpiio (localDom F D r) e.f = .ok (e.part F D r) := by
  have := body_eq (D.gfq r) (D.gfq (r + 1))
    (fun blockno b patchno pt => (e.f.cb (localDom F D r) blockno b patchno pt).bind
      fun data => writeBuffer mpiio e.f.psize data) e.E (D.mono r hr) F 0 0 0 (by simp)
    (fun lb j g x hg hs ha hb hx => by
      simp only [Nat.sub_zero] at hx
      rw [h.cb r hr lb j g x hg ha hb hx, bind_ok]
      rcases hm with rfl | hm
      · exact writeBuffer_mpiio (h.len g x hx) h.small
      · cases mpiio
        · exact writeBuffer_serial (h.len g x hx) hm
        · exact writeBuffer_mpiio (h.len g x hx) h.small)
  unfold bodyOf FE.part
  simpa [localDom] using this

theorem part_length {R : Type} {F : Forest R} {D : Distribution F.count} {e : FE R}
    (h : e.Ok F D) {r : Nat} (hr : r < D.mpisize) :
    (e.part F D r).length = (D.gfq (r + 1) - D.gfq r) * e.f.psize := by
  unfold FE.part
  rw [flatIdx_length _ e.f.psize]
  · have := gfq_le D (r := r + 1) (by omega)
    rw [window_length, patches_length]
    congr 1
    omega
  · intro j x hj
    obtain ⟨h1, h2⟩ := window_get hj
    exact h.len _ x (by simpa using h1)

/-- The beginnings of the array up to process `P`. -/
theorem parts_eq {R : Type} {F : Forest R} {D : Distribution F.count} (e : FE R) : ∀ P,
    P ≤ D.mpisize → (List.range P).flatMap (fun r => e.part F D r)
      = flatIdx e.E 0 ((Forest.patches 0 F).take (D.gfq P)) := by
  intro P
  induction P with
  | zero => intro _; simp [D.first, flatIdx]
  | succ P ih =>
    intro hP
    have hm := D.mono P (by omega)
    rw [List.range_succ, List.flatMap_append, ih (by omega)]
    simp only [List.flatMap_cons, List.flatMap_nil, List.append_nil]
    have hw : window (D.gfq P) (D.gfq (P + 1)) 0 (Forest.patches 0 F)
        = ((Forest.patches 0 F).drop (D.gfq P)).take (D.gfq (P + 1) - D.gfq P) := by
      simp [window, List.drop_take]
    have hsplit : (Forest.patches 0 F).take (D.gfq (P + 1))
        = (Forest.patches 0 F).take (D.gfq P)
          ++ ((Forest.patches 0 F).drop (D.gfq P)).take (D.gfq (P + 1) - D.gfq P) := by
      conv_lhs => rw [show D.gfq (P + 1) = D.gfq P + (D.gfq (P + 1) - D.gfq P) by omega]
      rw [List.take_add]
    rw [hsplit, flatIdx_append, FE.part, hw]
    congr 2
    have := gfq_le D (r := P) (by omega)
    rw [List.length_take, patches_length]
    omega

theorem parts_all {R : Type} {F : Forest R} {D : Distribution F.count} (e : FE R) :
    (List.range D.mpisize).flatMap (fun r => e.part F D r) = e.all F := by
  rw [parts_eq e _ (le_refl _), D.last, FE.all, List.take_of_length_le (by rw [patches_length])]

/-- The bytes that process `r` writes for an array. -/
def FE.local {R : Type} (F : Forest R) (D : Distribution F.count) (e : FE R) (r : Nat) : List Byte :=
  (if r = 0 then le 8 (e.f.psize * F.count) else []) ++ e.part F D r

theorem fieldBytes_eq {R : Type} {F : Forest R} {D : Distribution F.count} {e : FE R}
    (h : e.Ok F D) (mpiio : Bool) (hm : mpiio = true ∨ e.f.psize ≠ 0) {r : Nat}
    (hr : r < D.mpisize) : fieldBytes mpiio (localDom F D r) e.f = .ok (e.local F D r) := by
  unfold fieldBytes
  rw [bodyOf_eq h mpiio hm hr]
  rfl

theorem localBlocks_count {R : Type} (a b : Nat) (hab : a ≤ b) (F : Forest R) : ∀ s nb,
    ((localBlocks a b s nb F).map fun lb => lb.patches.length).sum
      = min b (s + F.count) - max a s := by
  induction F with
  | nil => intro s nb; simp [localBlocks, Forest.count]
  | cons blk rest ih =>
    intro s nb
    simp only [localBlocks, List.map_cons, List.sum_cons, ih]
    simp only [List.length_drop, List.length_take, Forest.count, List.map_cons, List.sum_cons]
    omega

/-- The writes of all processes to one array are those of the array from its
beginning to its end. -/
theorem field_writes {R : Type} {F : Forest R} {D : Distribution F.count} {e : FE R}
    (h : e.Ok F D) (m : Nat) : ∀ P, 0 < P → P ≤ D.mpisize →
    (List.range P).flatMap (fun r => writesAt (fieldPos m (localDom F D r) e.f) (e.local F D r))
      = writesAt (m + e.f.offset) (le 8 (e.f.psize * F.count)
          ++ (List.range P).flatMap (fun r => e.part F D r)) := by
  intro P
  induction P with
  | zero => intro h; omega
  | succ P ih =>
    intro _ hP
    by_cases hP0 : P = 0
    · subst hP0
      simp [fieldPos, localDom, FE.local]
    · rw [List.range_succ, List.flatMap_append, ih (by omega) (by omega), List.flatMap_append]
      simp only [List.flatMap_cons, List.flatMap_nil, List.append_nil]
      rw [← List.append_assoc, writesAt_append (_ ++ _)]
      congr 1
      have hl : (e.local F D P) = e.part F D P := by simp [FE.local, hP0]
      have hlen : ((List.range P).flatMap fun r => e.part F D r).length = e.f.psize * D.gfq P := by
        rw [parts_eq e P (by omega), flatIdx_length _ e.f.psize]
        · have := gfq_le D (r := P) (by omega)
          rw [List.length_take, patches_length, min_eq_left this, Nat.mul_comm]
        · intro j x hj
          have hj' : (Forest.patches 0 F)[j]? = some x := by
            have hlt : j < D.gfq P := by
              by_contra hc
              rw [List.getElem?_take] at hj
              simp [hc] at hj
            rw [List.getElem?_take_of_lt hlt] at hj
            exact hj
          simpa using h.len j x hj'
      rw [hl, List.length_append, le_length, hlen]
      congr 1
      have hp : P > 0 := by omega
      have hr : (localDom F D P).mpirank > 0 := hp
      have hb : (localDom F D P).globalNumPatchesBefore = D.gfq P := rfl
      simp only [fieldPos, if_pos hr, ndsize, hb]

/-- The arrays follow each other without gap from `off` on. -/
def Chained {R : Type} (n : Nat) : Nat → List (FE R) → Prop
  | _, [] => True
  | off, e :: es => e.f.offset = off ∧ Chained n (off + (8 + e.f.psize * n)) es

/-- The appended data. -/
def payload {R : Type} (F : Forest R) (es : List (FE R)) : List Byte :=
  es.flatMap fun e => e.image F

theorem all_field_writes {R : Type} {F : Forest R} {D : Distribution F.count} (hP : 0 < D.mpisize)
    (m : Nat) (es : List (FE R)) : ∀ off, Chained F.count off es → (∀ e ∈ es, e.Ok F D) →
    es.flatMap (fun e => (List.range D.mpisize).flatMap fun r =>
      writesAt (fieldPos m (localDom F D r) e.f) (e.local F D r))
      = writesAt (m + off) (payload F es) := by
  induction es with
  | nil => intro off _ _; simp [payload, writesAt]
  | cons e es ih =>
    intro off hc hok
    have he := hok e (by simp)
    simp only [List.flatMap_cons, payload]
    rw [ih _ hc.2 (fun e he => hok e (by simp [he])), writesAt_append, field_writes he m _ hP
      (le_refl _), parts_all, hc.1, FE.image_length he]
    simp only [FE.image, payload]
    congr 2
    omega

theorem dataWrites_eq {R : Type} {F : Forest R} {D : Distribution F.count} (debug : Bool) (m : Nat)
    (es : List (FE R)) (hok : ∀ e ∈ es, e.Ok F D) {r : Nat} (hr : r < D.mpisize) :
    dataWrites debug m (localDom F D r) (es.map FE.f)
      = .ok (es.flatMap fun e => writesAt (fieldPos m (localDom F D r) e.f) (e.local F D r)) := by
  induction es with
  | nil => rfl
  | cons e es ih =>
    have he := hok e (by simp)
    have hlen := part_length he hr
    have hmono := D.mono r hr
    have hle := gfq_le D (r := r + 1) (by omega)
    have hcount := localBlocks_count (D.gfq r) (D.gfq (r + 1)) hmono F 0 0
    have hdebug : debugOk m (localDom F D r) e.f (e.local F D r).length = true := by
      unfold debugOk
      simp only [Bool.and_eq_true, decide_eq_true_eq]
      have hl : (e.local F D r).length
          = (if r = 0 then 8 else 0) + (D.gfq (r + 1) - D.gfq r) * e.f.psize := by
        unfold FE.local
        rw [List.length_append, hlen]
        split_ifs <;> simp [le_length]
      constructor
      · rw [hl]
        change _ = (if r = 0 then ndsize else 0)
          + ((localBlocks (D.gfq r) (D.gfq (r + 1)) 0 0 F).map fun b => b.patches.length).sum
            * e.f.psize
        rw [hcount]
        congr 2
        omega
      · by_cases hlast : r + 1 < D.mpisize
        · exact Or.inl hlast
        · right
          have hr1 : r + 1 = D.mpisize := by omega
          rw [hl, hr1, D.last]
          have hmul : F.count * e.f.psize
              = D.gfq r * e.f.psize + (F.count - D.gfq r) * e.f.psize := by
            rw [← Nat.add_mul]; congr 1
            have := gfq_le D (r := r) (by omega); omega
          have hc1 : e.f.psize * D.gfq r = D.gfq r * e.f.psize := Nat.mul_comm _ _
          have hc2 : e.f.psize * F.count = F.count * e.f.psize := Nat.mul_comm _ _
          by_cases h0 : r = 0
          · subst h0
            simp only [fieldPos, localDom, D.first, if_true, ndsize] at *
            simp only [gt_iff_lt, lt_self_iff_false, if_false]
            rw [hc2]
            omega
          · have hp : r > 0 := by omega
            simp only [fieldPos, localDom, if_pos hp, if_neg h0, ndsize, hc1, hc2]
            omega
    simp only [List.map_cons, dataWrites, fieldBytes_eq he true (Or.inl rfl) hr, bind_ok, hdebug,
      ih (fun e he => hok e (by simp [he])), List.flatMap_cons]
    simp

theorem allWrites_eq {R : Type} {F : Forest R} {D : Distribution F.count} (debug : Bool) (m : Nat)
    (es : List (FE R)) (hok : ∀ e ∈ es, e.Ok F D) (rs : List Nat) (hrs : ∀ r ∈ rs, r < D.mpisize) :
    allWrites debug m (es.map FE.f) (rs.map (localDom F D))
      = .ok (rs.flatMap fun r => es.flatMap fun e =>
          writesAt (fieldPos m (localDom F D r) e.f) (e.local F D r)) := by
  induction rs with
  | nil => rfl
  | cons r rs ih =>
    simp only [List.map_cons, allWrites, dataWrites_eq debug m es hok (hrs r (by simp)), bind_ok,
      ih (fun r hr => hrs r (by simp [hr])), List.flatMap_cons]

theorem holds_preallocate {f : File} {img : List Byte} {n : Nat} (m : Nat) (h : Holds f img n) :
    Holds (preallocate f m) img (max n m) :=
  ⟨by simp [preallocate, h.1], h.2⟩

theorem holds_empty : Holds emptyFile [] 0 := ⟨rfl, fun i => by simp [emptyFile]⟩

theorem payload_length {R : Type} {F : Forest R} {D : Distribution F.count} (es : List (FE R)) :
    (∀ e ∈ es, e.Ok F D) →
    (payload F es).length = (es.map fun e => 8 + e.f.psize * F.count).sum := by
  intro hok
  induction es with
  | nil => rfl
  | cons e es ih =>
    have := ih (fun e he => hok e (by simp [he]))
    simp only [payload, List.flatMap_cons, List.length_append, List.map_cons, List.sum_cons] at *
    rw [this, FE.image_length (hok e (by simp))]

/-- The whole file. -/
theorem file_eq {R : Type} {F : Forest R} {D : Distribution F.count} (hP : 0 < D.mpisize)
    (debug : Bool) (sched : List (Nat × Byte) → List (Nat × Byte)) (hs : ∀ l, (sched l).Perm l)
    (es : List (FE R)) (hok : ∀ e ∈ es, e.Ok F D) (hc : Chained F.count 0 es)
    (header footer : List Byte) (offsetEnd : Nat)
    (hend : offsetEnd = (es.map fun e => 8 + e.f.psize * F.count).sum) :
    (let f0 := writeAt emptyFile 0 header
     let f1 := preallocate f0 (f0.size + offsetEnd)
     (allWrites debug f0.size (es.map FE.f) (localDoms F D)).bind fun ws =>
       let f2 := applyWrites f1 (sched ws)
       Outcome.ok (writeAt f2 f2.size footer))
      = .ok (fileOf (header ++ payload F es ++ footer)) := by
  have h0 := holds_writeAt header holds_empty (le_refl 0)
  simp only [List.length_nil, List.nil_append, Nat.zero_add, Nat.zero_max, zero_le,
    sup_of_le_right] at h0
  have hsz : (writeAt emptyFile 0 header).size = header.length := h0.1
  have hpl := payload_length es hok
  have h1 := holds_preallocate (header.length + offsetEnd) h0
  simp only
  rw [hsz, localDoms, allWrites_eq debug _ es hok _ (fun r hr => List.mem_range.1 hr), bind_ok]
  have hperm : ((List.range D.mpisize).flatMap fun r => es.flatMap fun e =>
      writesAt (fieldPos header.length (localDom F D r) e.f) (e.local F D r)).Perm
      (writesAt header.length (payload F es)) := by
    have := flatMap_swap (List.range D.mpisize) es (fun r e =>
      writesAt (fieldPos header.length (localDom F D r) e.f) (e.local F D r))
    rw [all_field_writes hP header.length es 0 hc hok] at this
    exact this
  have h2 : applyWrites (preallocate (writeAt emptyFile 0 header) (header.length + offsetEnd))
      (sched ((List.range D.mpisize).flatMap fun r => es.flatMap fun e =>
        writesAt (fieldPos header.length (localDom F D r) e.f) (e.local F D r)))
      = writeAt (preallocate (writeAt emptyFile 0 header) (header.length + offsetEnd))
        header.length (payload F es) :=
    applyWrites_perm ((hs _).trans hperm) (writesAt_nodup _ _) _
  rw [h2]
  have h3 := holds_writeAt (payload F es) h1 (by omega)
  have hsz3 : (writeAt (preallocate (writeAt emptyFile 0 header) (header.length + offsetEnd))
      header.length (payload F es)).size = (header ++ payload F es).length := by
    rw [h3.1, List.length_append, hpl, ← hend]; omega
  rw [hsz3]
  have h3' : Holds (writeAt (preallocate (writeAt emptyFile 0 header) (header.length + offsetEnd))
      header.length (payload F es)) (header ++ payload F es) (header ++ payload F es).length :=
    ⟨hsz3, h3.2⟩
  have h4 := holds_writeAt footer h3' (le_refl _)
  congr 1
  apply holds_fileOf
  refine ⟨?_, h4.2⟩
  rw [h4.1]
  simp only [List.length_append]
  omega

theorem dataSerial_eq {R : Type} {F : Forest R} {D : Distribution F.count} (hP : D.mpisize = 1)
    (es : List (FE R)) (hok : ∀ e ∈ es, e.Ok F D) (hz : ∀ e ∈ es, e.f.psize ≠ 0) :
    dataSerial (localDom F D 0) (es.map FE.f) = .ok (payload F es) := by
  induction es with
  | nil => rfl
  | cons e es ih =>
    have he := hok e (by simp)
    have hpart : e.part F D 0 = e.all F := by
      have := parts_all (D := D) e
      rw [hP] at this
      simpa using this
    simp only [List.map_cons, dataSerial, payload, List.flatMap_cons,
      fieldBytes_eq he false (Or.inr (hz e (by simp))) (r := 0) (by omega), bind_ok,
      ih (fun e he => hok e (by simp [he])) (fun e he => hz e (by simp [he]))]
    simp [FE.local, hpart, FE.image, payload]

end Fclaw.Vtk
