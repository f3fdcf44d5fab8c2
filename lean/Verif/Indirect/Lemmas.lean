import Verif.Indirect.Spec
import Verif.FaceNbr.Props
import Mathlib.Data.List.Nodup
set_option autoImplicit false
set_option linter.unusedSimpArgs false
set_option linter.unusedVariables false
namespace Fclaw.Indirect
open FaceNbr

/-! Flag bits. -/

theorem bit_small {x : Int} (h0 : 0 ≤ x) (h1 : x < 2 ^ 26) : bit 26 x = false ∧ bit 27 x = false := by
  simp only [bit, decide_eq_false_iff_not]
  norm_num at *
  omega

theorem bit_half {x : Int} (h0 : 0 ≤ x) (h1 : x < 2 ^ 26) :
    bit 26 (x + 2 ^ 26) = true ∧ bit 27 (x + 2 ^ 26) = false := by
  simp only [bit, decide_eq_false_iff_not, decide_eq_true_eq]
  norm_num at *
  omega

theorem bit_double {x : Int} (h0 : 0 ≤ x) (h1 : x < 2 ^ 26) :
    bit 26 (x + 2 ^ 27) = false ∧ bit 27 (x + 2 ^ 27) = true := by
  simp only [bit, decide_eq_false_iff_not, decide_eq_true_eq]
  norm_num at *
  omega

/-- The word stored for a relation and a small number. -/
def flagged (r : Rel) (x : Int) : Int :=
  match r with
  | .halfSize => x + 2 ^ 26
  | .doubleSize => x + 2 ^ 27
  | _ => x

theorem flagOf_eq (r : Rel) {x : Int} (h0 : 0 ≤ x) (h1 : x < 2 ^ 26) : flagOf r x = flagged r x := by
  obtain ⟨a, b⟩ := bit_small h0 h1
  cases r <;> simp [flagOf, flagged, orBit, a, b]

theorem bit26_flagged (r : Rel) {x : Int} (h0 : 0 ≤ x) (h1 : x < 2 ^ 26) :
    bit 26 (flagged r x) = decide (r = .halfSize) := by
  cases r
  · exact (bit_small h0 h1).1
  · exact (bit_half h0 h1).1
  · exact (bit_small h0 h1).1
  · exact (bit_double h0 h1).1

theorem bit27_flagged (r : Rel) {x : Int} (h0 : 0 ≤ x) (h1 : x < 2 ^ 26) :
    bit 27 (flagged r x) = decide (r = .doubleSize) := by
  cases r
  · exact (bit_small h0 h1).2
  · exact (bit_half h0 h1).2
  · exact (bit_small h0 h1).2
  · exact (bit_double h0 h1).2

theorem clear_flagged (r : Rel) {x : Int} (h0 : 0 ≤ x) (h1 : x < 2 ^ 26) :
    clearFlags (flagged r x) = x := by
  have hs := bit_small h0 h1
  have hh := bit_half h0 h1
  have hd := bit_double h0 h1
  cases r
  · simp [clearFlags, clearBit, flagged, hs.1, hs.2]
  · rw [show flagged .halfSize x = x + 2 ^ 26 from rfl, clearFlags,
      show clearBit 26 (x + 2 ^ 26) = x by rw [clearBit, if_pos hh.1, Int.add_sub_cancel],
      clearBit, if_neg (by simp [hs.2])]
  · simp [clearFlags, clearBit, flagged, hs.1, hs.2]
  · rw [show flagged .doubleSize x = x + 2 ^ 27 from rfl, clearFlags,
      show clearBit 26 (x + 2 ^ 27) = x + 2 ^ 27 by rw [clearBit, if_neg (by rw [hd.1]; exact Bool.false_ne_true)],
      clearBit, if_pos hd.2, Int.add_sub_cancel]

/-! The keys. -/

theorem proc_unique (N : Net) (h : N.Ok) (r p g : Nat) (hg : g < (N.mesh r).ghostNum)
    (h1 : N.offsets r p ≤ g) (h2 : g < N.offsets r (p + 1)) : (N.mesh r).ghostToProc g = p := by
  obtain ⟨h3, h4⟩ := h.sorted r g hg
  by_contra hne
  rcases Nat.lt_or_gt_of_ne hne with hlt | hgt
  · have := h.mono r ((N.mesh r).ghostToProc g + 1) p hlt
    omega
  · have := h.mono r (p + 1) ((N.mesh r).ghostToProc g) hgt
    omega

theorem ghostLoop_eq (N : Net) (h : N.Ok) (r : Nat) : ∀ n p, p + n ≤ N.nproc →
    ghostLoop (N.offsets r) n p (N.offsets r p) =
      (List.range (N.offsets r (p + n) - N.offsets r p)).map
        (fun i => ((N.mesh r).ghostToProc (N.offsets r p + i), N.offsets r p + i)) := by
  intro n
  induction n with
  | zero => intro p _; simp [ghostLoop]
  | succ n ih =>
    intro p hp
    have m1 := h.mono r p (p + 1) (by omega)
    have m2 := h.mono r (p + 1) (p + 1 + n) (by omega)
    have m3 := h.mono r (p + 1 + n) N.nproc (by omega)
    rw [h.total] at m3
    simp only [ghostLoop]
    rw [Nat.max_eq_right m1, ih (p + 1) (by omega)]
    have e : N.offsets r (p + (n + 1)) - N.offsets r p
        = (N.offsets r (p + 1) - N.offsets r p) + (N.offsets r (p + 1 + n) - N.offsets r (p + 1)) := by
      have : p + (n + 1) = p + 1 + n := by omega
      rw [this]; omega
    rw [e, List.range_add, List.map_append, List.map_map]
    congr 1
    · apply List.map_congr_left
      intro i hi
      rw [List.mem_range] at hi
      rw [proc_unique N h r p (N.offsets r p + i) (by omega) (by omega) (by omega)]
    · apply List.map_congr_left
      intro i _
      simp only [Function.comp]
      have : N.offsets r p + (N.offsets r (p + 1) - N.offsets r p + i) = N.offsets r (p + 1) + i := by
        omega
      rw [this]

/-- Key of a ghost. -/
def keyOf (N : Net) (r g : Nat) : Nat := makeKey ((N.mesh r).ghostToProc g) (N.localNumOf r g)

theorem keys_with (mk : Nat → Nat → Nat) (N : Net) (h : N.Ok) (r : Nat) :
    (ghostLoop (N.offsets r) N.nproc 0 0).map (fun x => mk x.1 (N.localNumOf r x.2)) =
      (List.range (N.mesh r).ghostNum).map
        (fun g => mk ((N.mesh r).ghostToProc g) (N.localNumOf r g)) := by
  have := ghostLoop_eq N h r N.nproc 0 (by omega)
  rw [h.first] at this
  rw [this, Nat.zero_add, h.total, Nat.sub_zero, List.map_map]
  apply List.map_congr_left
  intro i _
  simp only [Function.comp, Nat.zero_add]

theorem keys_eq (N : Net) (h : N.Ok) (r : Nat) :
    keys N r = (List.range (N.mesh r).ghostNum).map (keyOf N r) := keys_with makeKey N h r

theorem makeKey_inj {p q a b : Nat} (hp : p < 2147483648) (hq : q < 2147483648) (ha : a < 2147483648) (hb : b < 2147483648)
    (h : makeKey p a = makeKey q b) : p = q ∧ a = b := by
  unfold makeKey at h
  omega

theorem keyOf_inj (N : Net) (h : N.Ok) (r : Nat) {g g' : Nat} (hg : g < (N.mesh r).ghostNum)
    (hg' : g' < (N.mesh r).ghostNum) (he : keyOf N r g = keyOf N r g') : g = g' := by
  have h1 := h.proc r g hg
  have h2 := h.proc r g' hg'
  have h3 := h.small
  have := makeKey_inj (by omega) (by omega) (h.num r g hg) (h.num r g' hg') he
  exact h.distinct r g g' hg hg' this.1 this.2

theorem keys_nodup (N : Net) (h : N.Ok) (r : Nat) : (keys N r).Nodup := by
  rw [keys_eq N h]
  apply List.Nodup.map_on
  · intro x hx y hy he
    exact keyOf_inj N h r (List.mem_range.1 hx) (List.mem_range.1 hy) he
  · exact List.nodup_range

theorem keys_length (N : Net) (h : N.Ok) (r : Nat) : (keys N r).length = (N.mesh r).ghostNum := by
  rw [keys_eq N h]; simp

theorem keys_idxOf (N : Net) (h : N.Ok) (r g : Nat) (hg : g < (N.mesh r).ghostNum) :
    (keys N r).idxOf (keyOf N r g) = g := by
  have hnd := keys_nodup N h r
  have hl : g < (keys N r).length := by rw [keys_length N h]; exact hg
  have he : (keys N r)[g] = keyOf N r g := by simp [keys_eq N h]
  rw [← he]
  exact hnd.idxOf_getElem g hl

/-- Encoding on the owner followed by decoding on the receiver. -/
theorem see_core (N : Net) (h : N.Ok) (o r : Nat) (ho : o < N.nproc) (hor : o ≠ r) (w : Where)
    (hw : w.exists (N.mesh o)) :
    ∃ a q, encode N o (w.proc (N.mesh o)) w.patchno = some (a, q) ∧ a ≠ o ∧
      ∃ a' q' g, decode (keys N r) N.nproc r a q = some (a', q', g) ∧ Sees N o r w (a', q') ∧
        (g = !decide ((a', q') = ((-1 : Int), (-1 : Int)))) := by
  cases w with
  | here b p =>
    refine ⟨-1, -1, ?_, by omega, -1, -1, false, ?_, ?_, by simp⟩
    · rw [show (Where.here b p).proc (N.mesh o) = (N.mesh o).rank from rfl, h.rank]
      simp [encode, ho]
    · simp only [decode]
      rw [if_neg (show ¬ ((-1 : Int) = r) by omega)]
      simp
    · exact Sees.hidden _ (fun g' hv => hv)
  | ghost g =>
    simp only [Where.exists] at hw
    have hp := h.proc o g hw
    have hrem := (h.mesh o).remote g hw
    rw [h.rank] at hrem
    obtain ⟨s1, s2⟩ := h.sorted o g hw
    have hnum := h.num o g hw
    have hsm := h.small
    refine ⟨(N.mesh o).ghostToProc g, N.localNumOf o g, ?_, by omega, ?_⟩
    · rw [show (Where.ghost g).proc (N.mesh o) = (N.mesh o).ghostToProc g from rfl,
        show (Where.ghost g).patchno = g from rfl]
      have e1 : (0 : Int) ≤ ((N.mesh o).ghostToProc g : Nat) ∧
          (((N.mesh o).ghostToProc g : Nat) : Int) < N.nproc := by omega
      have e2 : ¬ ((((N.mesh o).ghostToProc g : Nat) : Int) = o) := by omega
      have e3 : ((N.offsets o ((N.mesh o).ghostToProc g) : Nat) : Int) ≤ g ∧
          (g : Int) < ((N.offsets o ((N.mesh o).ghostToProc g + 1) : Nat) : Int) := by omega
      unfold encode
      rw [if_pos e1, if_neg e2, Int.toNat_natCast, if_pos e3, Int.toNat_natCast]
    · by_cases hr : (N.mesh o).ghostToProc g = r
      · refine ⟨-1, -1, false, ?_, ?_, by simp⟩
        · simp only [decode]
          rw [if_pos (show (((N.mesh o).ghostToProc g : Nat) : Int) = r by omega)]
          simp
        · apply Sees.hidden
          rintro g' ⟨hne, _⟩
          exact hne hr
      · have hdec : ∀ res, (if makeKey ((N.mesh o).ghostToProc g) (N.localNumOf o g) ∈ keys N r then
            some ((((N.mesh o).ghostToProc g : Nat) : Int),
              (((keys N r).idxOf (makeKey ((N.mesh o).ghostToProc g) (N.localNumOf o g)) : Nat) : Int), true)
            else some (-1, -1, false)) = res →
            decode (keys N r) N.nproc r ((N.mesh o).ghostToProc g : Nat) (N.localNumOf o g : Nat) = res := by
          intro res hres
          simp only [decode]
          rw [if_neg (show ¬ ((((N.mesh o).ghostToProc g : Nat) : Int) = r) by omega)]
          simp only []
          rw [if_pos (by omega), if_pos (by omega)]
          simpa using hres
        by_cases hmem : makeKey ((N.mesh o).ghostToProc g) (N.localNumOf o g) ∈ keys N r
        · -- visible
          have hmem' := hmem
          rw [keys_eq N h, List.mem_map] at hmem'
          obtain ⟨g', hg', hk⟩ := hmem'
          rw [List.mem_range] at hg'
          have hp' := h.proc r g' hg'
          have := makeKey_inj (by omega) (by omega) (h.num r g' hg') hnum hk
          refine ⟨_, _, _, hdec _ (if_pos hmem), ?_, ?_⟩
          · rw [← hk]
            have hi := keys_idxOf N h r g' hg'
            unfold keyOf at hi hk ⊢
            rw [hi, ← this.1]
            exact Sees.visible _ g' ⟨hr, hg', this.1, this.2⟩
          · simp
        · refine ⟨_, _, _, hdec _ (if_neg hmem), ?_, by simp⟩
          apply Sees.hidden
          rintro g' ⟨_, hg', h3, h4⟩
          apply hmem
          rw [keys_eq N h, List.mem_map]
          exact ⟨g', List.mem_range.2 hg', by unfold keyOf; rw [h3, h4]⟩

/-- The same for the first entries of the arrays. -/
theorem see_list (N : Net) (h : N.Ok) (o r : Nat) (ho : o < N.nproc) (hor : o ≠ r) (tp tq : List Int) :
    ∀ ws : List Where, (∀ w ∈ ws, w.exists (N.mesh o)) →
    ∃ es : List (Int × Int), encodeUpTo N o ws.length (ws.map (fun w => (w.proc (N.mesh o) : Int)) ++ tp)
        (ws.map (fun w => (w.patchno : Int)) ++ tq) = some (es.map Prod.fst ++ tp, es.map Prod.snd ++ tq) ∧
      es.length = ws.length ∧
      ∃ ds : List (Int × Int), decodeUpTo (keys N r) N.nproc r o ws.length (es.map Prod.fst ++ tp) (es.map Prod.snd ++ tq)
        = some (ds.map Prod.fst ++ tp, ds.map Prod.snd ++ tq,
            !ds.all (fun x => decide (x = ((-1 : Int), (-1 : Int))))) ∧
        List.Forall₂ (Sees N o r) ws ds := by
  intro ws
  induction ws with
  | nil =>
    intro _
    exact ⟨[], rfl, rfl, [], rfl, List.Forall₂.nil⟩
  | cons w ws ih =>
    intro hw
    obtain ⟨es, he, hel, ds, hd, hf⟩ := ih (fun x hx => hw x (by simp [hx]))
    obtain ⟨a, q, h1, h2, a', q', g, h3, h4, h5⟩ := see_core N h o r ho hor w (hw w (by simp))
    refine ⟨(a, q) :: es, ?_, by simp [hel], (a', q') :: ds, ?_, List.Forall₂.cons h4 hf⟩
    · simp [encodeUpTo, h1, he]
    · simp only [List.length_cons, List.map_cons, List.cons_append, decodeUpTo, h3, hd]
      rw [if_neg h2, h5]
      simp [Bool.not_and]

/-! Words in memory. -/

theorem readFace_write (D : Dim) (w : FaceWords) (h1 : w.rproc.length = D.half)
    (h2 : w.rpatchno.length = D.half) : readFace D w.write = w := by
  obtain ⟨a, b, c, d⟩ := w
  simp only at h1 h2
  unfold readFace FaceWords.write
  simp only [FaceWords.mk.injEq]
  refine ⟨?_, ?_, ?_, ?_⟩
  · simp [← h1]
  · rw [List.append_assoc, List.append_assoc, List.getElem?_append_right (by omega)]
    simp [h1]
  · have : D.half + 1 = (a ++ [b]).length := by simp [h1]
    rw [this, List.append_assoc, List.drop_left]
    simp [← h2]
  · have e : D.half + 1 + D.half = (a ++ [b] ++ c).length := by simp [h1, h2]; omega
    rw [e, List.getElem?_append_right (by omega)]
    simp

theorem write_length (D : Dim) (w : FaceWords) (h1 : w.rproc.length = D.half)
    (h2 : w.rpatchno.length = D.half) : w.write.length = 2 + 2 * D.half := by
  simp [FaceWords.write, h1, h2]; omega

theorem readFace_take (D : Dim) (l : List Int) : readFace D (l.take (2 + 2 * D.half)) = readFace D l := by
  unfold readFace
  simp only [FaceWords.mk.injEq]
  refine ⟨?_, ?_, ?_, ?_⟩
  · rw [List.take_take, Nat.min_eq_left (by omega)]
  · rw [List.getElem?_take, if_pos (by omega)]
  · rw [List.drop_take, List.take_take, Nat.min_eq_left (by omega)]
  · rw [List.getElem?_take, if_pos (by omega)]

theorem readCorner_write (w : CornerWords) : readCorner w.write = w := by
  cases w; rfl

theorem readCorner_take (l : List Int) : readCorner (l.take 4) = readCorner l := by
  unfold readCorner
  simp [List.getElem?_take]

/-! Loops over items of equal size. -/

theorem concatLoop_spec (f : Nat → Option (List Int)) (sz : Nat) : ∀ n s,
    (∀ k, k < n → ∃ c, f (s + k) = some c ∧ c.length = sz) →
    ∃ l, concatLoop f n s = some l ∧ l.length = n * sz ∧
      ∀ k, k < n → f (s + k) = some ((l.drop (k * sz)).take sz) := by
  intro n
  induction n with
  | zero => intro s _; exact ⟨[], rfl, by simp, by simp⟩
  | succ n ih =>
    intro s h
    obtain ⟨c, hc, hcl⟩ := h 0 (by omega)
    obtain ⟨l, hl, hll, hk⟩ := ih (s + 1) (by
      intro k hk
      have := h (k + 1) (by omega)
      rwa [show s + 1 + k = s + (k + 1) by omega])
    refine ⟨c ++ l, ?_, ?_, ?_⟩
    · have hc' : f s = some c := hc
      simp only [concatLoop, hc', hl]
    · simp [hcl, hll, Nat.succ_mul]; omega
    · intro k hkn
      cases k with
      | zero =>
        rw [hc]
        simp [← hcl]
      | succ k =>
        rw [show s + (k + 1) = s + 1 + k by omega, hk k (by omega)]
        rw [Nat.succ_mul, Nat.add_comm, ← List.drop_drop]
        congr 3
        rw [← hcl, List.drop_left]

theorem rewriteLoop_spec (dec : List Int → Option (List Int)) (sz : Nat) : ∀ n l,
    l.length = n * sz →
    (∀ k, k < n → ∃ c, dec ((l.drop (k * sz)).take sz) = some c ∧ c.length = sz) →
    ∃ l', rewriteLoop dec sz n l = some l' ∧ l'.length = n * sz ∧
      ∀ k, k < n → dec ((l.drop (k * sz)).take sz) = some ((l'.drop (k * sz)).take sz) := by
  intro n
  induction n with
  | zero => intro l hl _; exact ⟨l, rfl, hl, by simp⟩
  | succ n ih =>
    intro l hl h
    obtain ⟨c, hc, hcl⟩ := h 0 (by omega)
    have e : ∀ k, (l.drop sz).drop (k * sz) = l.drop ((k + 1) * sz) := by
      intro k
      rw [List.drop_drop, Nat.succ_mul, Nat.add_comm]
    obtain ⟨l', hl', hll, hk⟩ := ih (l.drop sz) (by
      rw [List.length_drop, hl, Nat.succ_mul]; omega) (by
      intro k hk
      rw [e]
      exact h (k + 1) (by omega))
    simp only [Nat.zero_mul, List.drop_zero] at hc
    refine ⟨c ++ l', ?_, ?_, ?_⟩
    · simp only [rewriteLoop, hc, hl']
    · simp [hcl, hll, Nat.succ_mul]; omega
    · intro k hkn
      cases k with
      | zero =>
        simp only [Nat.zero_mul, List.drop_zero, hc]
        simp [← hcl]
      | succ k =>
        have := hk k (by omega)
        rw [e] at this
        rw [this, Nat.succ_mul, Nat.add_comm, ← List.drop_drop]
        congr 3
        rw [← hcl, List.drop_left]

end Fclaw.Indirect
