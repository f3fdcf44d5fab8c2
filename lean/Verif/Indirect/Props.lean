import Verif.Indirect.Lemmas
/-
C16: the indirect face and corner neighbour queries.
-/
set_option autoImplicit false
set_option linter.unusedSimpArgs false
set_option linter.unusedVariables false
namespace Fclaw.Indirect
open FaceNbr

theorem sees_proc {N : Net} {o r : Nat} {w : Where} {d : Int × Int} (h : Sees N o r w d)
    (hd : d ≠ (-1, -1)) : d.1 ≠ -1 := by
  cases h with
  | visible g' hv => simp only; omega
  | hidden hv => exact absurd rfl hd

theorem sees_here {N : Net} {o r b p : Nat} {d : Int × Int} (h : Sees N o r (.here b p) d) :
    d = (-1, -1) := by
  cases h with
  | visible g' hv => exact absurd hv (fun h => h)
  | hidden hv => rfl

/-- One neighbour behind the face. -/
theorem single_item (D : Dim) (hhalf : 2 ≤ D.half) (N : Net) (h : N.Ok) (o r : Nat) (ho : o < N.nproc)
    (hor : o ≠ r) (w : Where) (hw : w.exists (N.mesh o)) (rel : Rel) (hrel : rel ≠ .halfSize) (blk x : Int)
    (h0 : 0 ≤ x) (h1 : x < 2 ^ 26) (h2 : x < D.faces * D.half) (tp tq : List Int)
    (htp : tp.length = D.half - 1) (htq : tq.length = D.half - 1) :
    ∃ ps qs, encodeUpTo N o 1 ((w.proc (N.mesh o) : Int) :: tp) ((w.patchno : Int) :: tq) = some (ps, qs) ∧
      ps.length = D.half ∧ qs.length = D.half ∧
      ∃ d, Sees N o r w d ∧
        decodeFace D (keys N r) N.nproc r o (FaceWords.write ⟨ps, blk, qs, flagOf rel x⟩) =
          some (FaceWords.write (if d = (-1, -1) then
            ⟨List.replicate D.half (-1), blk, List.replicate D.half (-1), x⟩
            else ⟨d.1 :: tp, blk, d.2 :: tq, flagged rel x⟩)) := by
  obtain ⟨es, he, hel, ds, hd, hf⟩ := see_list N h o r ho hor tp tq [w] (by simpa using hw)
  obtain ⟨e, rfl⟩ : ∃ e, es = [e] := List.length_eq_one_iff.1 hel
  obtain ⟨d, rfl⟩ : ∃ d, ds = [d] := List.length_eq_one_iff.1 hf.length_eq.symm
  simp only [List.map_cons, List.map_nil, List.cons_append, List.nil_append, List.length_cons,
    List.length_nil, List.all_cons, List.all_nil, Bool.and_true] at he hd
  have hsees : Sees N o r w d := by cases hf with | cons h _ => exact h
  refine ⟨_, _, he, by simp [htp]; omega, by simp [htq]; omega, d, hsees, ?_⟩
  unfold decodeFace
  rw [readFace_write D _ (by simp [htp]; omega) (by simp [htq]; omega)]
  simp only []
  rw [flagOf_eq rel h0 h1, bit26_flagged rel h0 h1]
  simp only [hrel, decide_false, Bool.false_eq_true, if_false, hd]
  by_cases hdd : d = (-1, -1)
  · subst hdd
    have hrep : List.replicate D.half (-1 : Int) = (-1) :: List.replicate (D.half - 1) (-1) := by
      rw [← List.replicate_succ]; congr 1; omega
    simp [clear_flagged rel h0 h1, hrep]
  · simp [hdd]

/-- What the words of one face become and how they are answered. -/
theorem face_item (D : Dim) (hhalf : 2 ≤ D.half) (hsmall : (D.faces * D.half : Int) < 2 ^ 26) (N : Net)
    (h : N.Ok) (o r : Nat) (ho : o < N.nproc) (hor : o ≠ r) (b p f : Nat) (hp : p < (N.mesh o).num b)
    (hf : f < D.faces) (n : Neighbor) (hn : Encodes D (N.mesh o) ((N.mesh o).before b + p) f n) :
    ∃ c c', faceChunk D N o b p f = some c ∧ c.length = 2 + 2 * D.half ∧
      decodeFace D (keys N r) N.nproc r o c = some c' ∧ c'.length = 2 + 2 * D.half ∧
      ∃ res, queryFace D (readFace D c') = some res ∧ IndirectAnswer D N o r b p f res n := by
  have hq := C12_face_neighbors D hhalf (N.mesh o) (h.mesh o) b p f hp hf n hn
  have code : ∀ face orient, face < D.faces → orient < D.half →
      ((orient * D.faces + face : Nat) : Int) < D.faces * D.half := by
    intro face orient h1 h2
    have : (orient + 1) * D.faces ≤ D.half * D.faces := Nat.mul_le_mul_right _ h2
    rw [Nat.succ_mul, Nat.mul_comm D.half] at this
    have h3 : orient * D.faces + face < D.faces * D.half := by omega
    exact_mod_cast h3
  have hfc : (f : Int) < D.faces * D.half := by
    have := code f 0 hf (by omega)
    simpa using this
  unfold faceChunk
  rw [hq]
  have hrepl : (List.replicate (D.half - 1) (-1 : Int)).length = D.half - 1 := by simp
  have hrep : List.replicate D.half (-1 : Int) = (-1) :: List.replicate (D.half - 1) (-1) := by
    rw [← List.replicate_succ]; congr 1; omega
  -- a single neighbour
  have single : ∀ (w : Where), w.exists (N.mesh o) → ∀ (rel rel' : Rel), rel ≠ .halfSize →
      (rel' = rel ∨ (rel' = .boundary)) → ∀ (blk x : Int), 0 ≤ x →
      x < D.faces * D.half → ∀ (tp tq : List Int), tp.length = D.half - 1 → tq.length = D.half - 1 →
      ∃ c c', (match encodeUpTo N o (if rel = .halfSize then D.half else 1)
            ((w.proc (N.mesh o) : Int) :: tp) ((w.patchno : Int) :: tq) with
          | none => none
          | some (ps, qs) => some (FaceWords.write ⟨ps, blk, qs, flagOf rel x⟩)) = some c ∧
        c.length = 2 + 2 * D.half ∧
        decodeFace D (keys N r) N.nproc r o c = some c' ∧ c'.length = 2 + 2 * D.half ∧
        ∃ d, Sees N o r w d ∧ (d = (-1, -1) → queryFace D (readFace D c') =
            some ⟨.boundary, List.replicate D.half (-1), blk, List.replicate D.half (-1), x⟩) ∧
          (d ≠ (-1, -1) → rel ≠ .boundary → queryFace D (readFace D c') =
            some ⟨rel, d.1 :: tp, blk, d.2 :: tq, x⟩) := by
    intro w hw rel _ hrel _ blk x h0 hx tp tq htp htq
    have h1 : x < 2 ^ 26 := by omega
    obtain ⟨ps, qs, he, hpl, hql, d, hs, hdec⟩ := single_item D hhalf N h o r ho hor w hw rel hrel blk x
      h0 h1 hx tp tq htp htq
    rw [if_neg hrel, he]
    refine ⟨_, _, rfl, write_length D _ hpl hql, hdec, ?_, d, hs, ?_, ?_⟩
    · split
      · exact write_length D _ (by simp) (by simp)
      · exact write_length D _ (by simp [htp]; omega) (by simp [htq]; omega)
    · intro hdd
      rw [if_pos hdd, readFace_write D _ (by simp) (by simp)]
      have hb := bit_small h0 h1
      unfold queryFace
      simp only []
      have hcl : clearFlags x = x := clear_flagged .sameSize h0 h1
      rw [hcl, if_pos ⟨h0, hx⟩, hb.1, hb.2, hrep]
      simp
    · intro hdd hnb
      rw [if_neg hdd, readFace_write D _ (by simp [htp]; omega) (by simp [htq]; omega)]
      unfold queryFace
      simp only []
      rw [clear_flagged rel h0 h1, if_pos ⟨h0, hx⟩, bit26_flagged rel h0 h1, bit27_flagged rel h0 h1]
      have hd1 := sees_proc hs hdd
      cases rel with
      | boundary => exact absurd rfl hnb
      | halfSize => exact absurd rfl hrel
      | sameSize => simp [hd1]
      | doubleSize => simp
  cases n with
  | boundary =>
    have hw : (Where.here b p).exists (N.mesh o) := hp
    obtain ⟨c, c', hc, hcl, hd, hcl', d, hs, hq1, _⟩ := single (.here b p) hw .boundary .boundary (by simp)
      (by simp) b f (by omega) hfc _ _ hrepl hrepl
    refine ⟨c, c', ?_, hcl, hd, hcl', _, hq1 (sees_here hs), ?_⟩
    · exact hc
    · rfl
  | same w face orient =>
    obtain ⟨hface, hor', hw, _, _, _⟩ := hn
    obtain ⟨c, c', hc, hcl, hd, hcl', d, hs, hq1, hq2⟩ := single w hw .sameSize .boundary (by simp)
      (by simp) (w.block (N.mesh o) : Nat) (orient * D.faces + face : Nat) (by omega)
      (code face orient hface hor') _ _ hrepl hrepl
    by_cases hdd : d = (-1, -1)
    · refine ⟨c, c', hc, hcl, hd, hcl', _, hq1 hdd, d, hs, ?_⟩
      rw [if_pos hdd, hdd, hrep]
    · refine ⟨c, c', hc, hcl, hd, hcl', _, hq2 hdd (by simp), d, hs, ?_⟩
      rw [if_neg hdd]
  | double w face orient sub =>
    obtain ⟨hface, hor', hsub, hw, _, _⟩ := hn
    obtain ⟨c, c', hc, hcl, hd, hcl', d, hs, hq1, hq2⟩ := single w hw .doubleSize .boundary (by simp)
      (by simp) (w.block (N.mesh o) : Nat) (orient * D.faces + face : Nat) (by omega)
      (code face orient hface hor') ((sub : Int) :: List.replicate (D.half - 2) (-1))
      (List.replicate (D.half - 1) (-1)) (by simp; omega) hrepl
    by_cases hdd : d = (-1, -1)
    · refine ⟨c, c', hc, hcl, hd, hcl', _, hq1 hdd, d, hs, ?_⟩
      rw [if_pos hdd, if_pos hdd, hdd, hrep]
    · refine ⟨c, c', hc, hcl, hd, hcl', _, hq2 hdd (by simp), d, hs, ?_⟩
      rw [if_neg hdd, if_neg hdd]
  | half ws face orient =>
    obtain ⟨hlen, hface, hor', hex, hblk, hqf, hids⟩ := hn
    have hx := code face orient hface hor'
    obtain ⟨es, he, hel, ds, hd, hfa⟩ := see_list N h o r ho hor [] [] ws hex
    simp only [List.append_nil] at he hd
    have hdl : ds.length = D.half := by rw [← hfa.length_eq, hlen]
    have h0 : (0 : Int) ≤ ((orient * D.faces + face : Nat) : Int) := by omega
    have h1 : ((orient * D.faces + face : Nat) : Int) < 2 ^ 26 := by omega
    let blk : Int := ((ws.head?.map (Where.block (N.mesh o))).getD 0 : Nat)
    let X : Int := ((orient * D.faces + face : Nat) : Int)
    have h0' : 0 ≤ X := h0
    have h1' : X < 2 ^ 26 := h1
    have hx' : X < D.faces * D.half := hx
    have hel' : es.length = D.half := by rw [hel, hlen]
    have hc : (match some (answer D (N.mesh o) b p f (.half ws face orient)) with
        | none => none
        | some r =>
          match encodeUpTo N o (if r.rel = Rel.halfSize then D.half else 1) r.rproc r.rpatchno with
          | none => none
          | some (ps, qs) => some (FaceWords.write ⟨ps, r.rblockno, qs, flagOf r.rel r.rfaceno⟩))
        = some (FaceWords.write ⟨es.map Prod.fst, blk, es.map Prod.snd, flagOf .halfSize X⟩) := by
      show (match encodeUpTo N o (if Rel.halfSize = Rel.halfSize then D.half else 1)
          (ws.map (fun w => (w.proc (N.mesh o) : Int))) (ws.map (fun w => (w.patchno : Int))) with
          | none => none
          | some (ps, qs) => some (FaceWords.write ⟨ps, blk, qs, flagOf .halfSize X⟩)) = _
      rw [if_pos rfl, ← hlen, he]
    have hdec : decodeFace D (keys N r) N.nproc r o
        (FaceWords.write ⟨es.map Prod.fst, blk, es.map Prod.snd, flagOf .halfSize X⟩) =
        some (FaceWords.write (if ds.all (fun x => decide (x = ((-1 : Int), (-1 : Int)))) then
            ⟨List.replicate D.half (-1), blk, List.replicate D.half (-1), X⟩
          else ⟨ds.map Prod.fst, blk, ds.map Prod.snd, flagged .halfSize X⟩)) := by
      unfold decodeFace
      rw [readFace_write D _ (by simp [hel']) (by simp [hel'])]
      simp only []
      rw [flagOf_eq _ h0' h1', bit26_flagged _ h0' h1']
      simp only [decide_true, if_true]
      rw [← hlen, hd]
      simp only []
      cases hall : ds.all (fun x => decide (x = ((-1 : Int), (-1 : Int)))) with
      | false => simp [hall]
      | true =>
        have hh : ∃ d ds', ds = d :: ds' := by
          cases ds with
          | nil => simp at hdl; omega
          | cons d ds' => exact ⟨d, ds', rfl⟩
        obtain ⟨d, ds', rfl⟩ := hh
        have hd1 : d = (-1, -1) := by simp at hall; exact hall.1
        subst hd1
        simp [hlen, clear_flagged _ h0' h1', hrep]
    refine ⟨_, _, hc, write_length D _ (by simp [hel']) (by simp [hel']), hdec, ?_, ?_⟩
    · split
      · exact write_length D _ (by simp) (by simp)
      · exact write_length D _ (by simp [hdl]) (by simp [hdl])
    · cases hall : ds.all (fun x => decide (x = ((-1 : Int), (-1 : Int)))) with
      | true =>
        have hb := bit_small h0' h1'
        refine ⟨⟨.boundary, List.replicate D.half (-1), blk, List.replicate D.half (-1), X⟩, ?_, ds, hfa, ?_⟩
        · rw [if_pos rfl, readFace_write D _ (by simp) (by simp)]
          unfold queryFace
          simp only []
          have hcl : clearFlags X = X := clear_flagged .sameSize h0' h1'
          rw [hcl, if_pos ⟨h0', hx'⟩, hb.1, hb.2, hrep]
          simp
        · rw [hall]
          have hds : ds = List.replicate D.half ((-1 : Int), (-1 : Int)) := by
            rw [List.eq_replicate_iff]
            refine ⟨hdl, ?_⟩
            intro x hx
            have := List.all_eq_true.1 hall x hx
            simpa using this
          rw [hds]
          simp [blk, X]
      | false =>
        refine ⟨⟨.halfSize, ds.map Prod.fst, blk, ds.map Prod.snd, X⟩, ?_, ds, hfa, ?_⟩
        · rw [if_neg Bool.false_ne_true, readFace_write D _ (by simp [hdl]) (by simp [hdl])]
          unfold queryFace
          simp only []
          rw [clear_flagged _ h0' h1', if_pos ⟨h0', hx'⟩, bit26_flagged _ h0' h1', bit27_flagged _ h0' h1']
          simp
        · rw [hall]
          simp [blk, X]

/-- What the words of one corner become and how they are answered. -/
theorem corner_item (D : Dim) (hsmall : (D.children : Int) < 2 ^ 26) (N : Net)
    (h : N.Ok) (o r : Nat) (ho : o < N.nproc) (hor : o ≠ r) (b p c : Nat) (hp : p < (N.mesh o).num b)
    (hc : c < D.children) (n : CornerNeighbor) (rel : Rel)
    (hn : EncodesCorner D (N.mesh o) ((N.mesh o).before b + p) c n)
    (hrel : CornerSize (N.mesh o) ((N.mesh o).before b + p) n rel) :
    ∃ ch ch', cornerChunk D N o b p c = some ch ∧ ch.length = 4 ∧
      decodeCorner (keys N r) N.nproc r o ch = some ch' ∧ ch'.length = 4 ∧
      ∃ res, queryCorner D (readCorner ch') = some res ∧ IndirectCornerAnswer D N o r b c rel res n := by
  have bnd : cornerNeighbors D (N.mesh o) b p c = some ⟨.boundary, none, b, none, -1⟩ →
      ∃ ch ch', cornerChunk D N o b p c = some ch ∧ ch.length = 4 ∧
      decodeCorner (keys N r) N.nproc r o ch = some ch' ∧ ch'.length = 4 ∧
      queryCorner D (readCorner ch') = some (.boundary, ⟨-1, b, -1, c⟩) := by
    intro hq
    have h0 : (0 : Int) ≤ c := by omega
    have h1 : (c : Int) < 2 ^ 26 := by omega
    have hb := bit_small h0 h1
    have hcl : clearFlags (c : Int) = c := clear_flagged .sameSize h0 h1
    refine ⟨CornerWords.write ⟨-1, b, -1, c⟩, CornerWords.write ⟨-1, b, -1, c⟩, ?_, rfl, ?_, rfl, ?_⟩
    · unfold cornerChunk
      rw [hq]
    · unfold decodeCorner
      rw [readCorner_write]
      have hdec : decode (keys N r) N.nproc r (-1) (-1) = some (-1, -1, false) := by
        unfold decode
        have e : (if (-1 : Int) = (r : Int) then ((-1 : Int), (-1 : Int)) else (-1, -1)) = (-1, -1) := by
          split <;> rfl
        rw [e]
        simp
      simp only [hdec]
      rw [if_neg (by omega)]
      simp [hcl]
    · rw [readCorner_write]
      unfold queryCorner
      simp only [hcl]
      rw [if_pos (by omega), hb.1, hb.2]
      simp
  have found : ∀ (w : Where) (rc : Nat), w.exists (N.mesh o) → rc < D.children →
      rel ≠ .boundary →
      cornerNeighbors D (N.mesh o) b p c =
        some ⟨rel, some (w.proc (N.mesh o)), w.block (N.mesh o), some w.patchno, rc⟩ →
      ∃ ch ch', cornerChunk D N o b p c = some ch ∧ ch.length = 4 ∧
      decodeCorner (keys N r) N.nproc r o ch = some ch' ∧ ch'.length = 4 ∧
      ∃ d, Sees N o r w d ∧ queryCorner D (readCorner ch') = some (if d = (-1, -1) then .boundary else rel,
        ⟨d.1, (w.block (N.mesh o) : Nat), d.2, rc⟩) := by
    intro w rc hw hrc hnb hq
    have h0 : (0 : Int) ≤ rc := by omega
    have h1 : (rc : Int) < 2 ^ 26 := by omega
    have hb := bit_small h0 h1
    have hcl : clearFlags (rc : Int) = rc := clear_flagged .sameSize h0 h1
    obtain ⟨a, q, e1, e2, a', q', g, e3, e4, e5⟩ := see_core N h o r ho hor w hw
    refine ⟨CornerWords.write ⟨a, (w.block (N.mesh o) : Nat), q, flagged rel rc⟩,
      CornerWords.write ⟨a', (w.block (N.mesh o) : Nat), q',
        if (a', q') = (-1, -1) then (rc : Int) else flagged rel rc⟩, ?_, rfl, ?_, rfl, (a', q'), e4, ?_⟩
    · unfold cornerChunk
      rw [hq]
      cases rel with
      | boundary => exact absurd rfl hnb
      | halfSize => simp only [e1]; rw [flagOf_eq _ h0 h1]
      | sameSize => simp only [e1]; rw [flagOf_eq _ h0 h1]
      | doubleSize => simp only [e1]; rw [flagOf_eq _ h0 h1]
    · unfold decodeCorner
      rw [readCorner_write]
      simp only [e3]
      rw [if_neg e2, e5]
      by_cases hdd : ((a', q') : Int × Int) = (-1, -1)
      · have e6 : a' = -1 ∧ q' = -1 := by simpa using hdd
        rw [clear_flagged rel h0 h1]
        simp [e6.1, e6.2]
      · simp [hdd]
    · rw [readCorner_write]
      unfold queryCorner
      by_cases hdd : ((a', q') : Int × Int) = (-1, -1)
      · have e6 : a' = -1 ∧ q' = -1 := by simpa using hdd
        rw [if_pos hdd, if_pos hdd]
        simp only [hcl]
        rw [if_pos (by omega), hb.1, hb.2]
        simp [e6.1, e6.2]
      · rw [if_neg hdd, if_neg hdd]
        simp only []
        rw [clear_flagged rel h0 h1, if_pos (by omega), bit26_flagged rel h0 h1, bit27_flagged rel h0 h1]
        have hd1 := sees_proc e4 hdd
        cases rel with
        | boundary => exact absurd rfl hnb
        | halfSize => simp
        | sameSize => simp at hd1; simp [hd1]
        | doubleSize => simp
  have nb : ∀ m o', SizeRel m o' rel → rel ≠ .boundary := by
    intro m o' hs; cases hs <;> simp
  cases n with
  | none =>
    obtain ⟨ch, ch', a1, a2, a3, a4, a5⟩ := bnd (C58_corner_boundary D _ b p c hp hc (Or.inl hn))
    exact ⟨ch, ch', a1, a2, a3, a4, _, a5, rfl⟩
  | several =>
    obtain ⟨ch, ch', a1, a2, a3, a4, a5⟩ := bnd (C58_corner_boundary D _ b p c hp hc (Or.inr hn))
    exact ⟨ch, ch', a1, a2, a3, a4, _, a5, rfl⟩
  | inside w =>
    have := (C58_corner_found D _ (h.mesh o) b p c hp hc w rel hrel).1 hn
    obtain ⟨ch, ch', a1, a2, a3, a4, d, a5, a6⟩ := found w _ hn.1 (by omega) (nb _ _ hrel) this
    exact ⟨ch, ch', a1, a2, a3, a4, _, a6, d, a5, rfl⟩
  | across w rc =>
    have := (C58_corner_found D _ (h.mesh o) b p c hp hc w rel hrel).2 rc hn
    obtain ⟨ch, ch', a1, a2, a3, a4, d, a5, a6⟩ := found w rc hn.1 hn.2.1 (nb _ _ hrel) this
    exact ⟨ch, ch', a1, a2, a3, a4, _, a6, d, a5, rfl⟩

/-- The words stored for a ghost: every item can be read off and answers its query. -/
theorem ghost_items (D : Dim) (hhalf : 2 ≤ D.half) (hsmall : (D.faces * D.half : Int) < 2 ^ 26)
    (hsmall' : (D.children : Int) < 2 ^ 26) (N : Net) (h : N.Ok) (r g : Nat)
    (hg : g < (N.mesh r).ghostNum) (b p : Nat)
    (hleaf : N.localNumOf r g = (N.mesh ((N.mesh r).ghostToProc g)).before b + p)
    (hdesc : Described D (N.mesh ((N.mesh r).ghostToProc g)) b p) :
    ∃ l, ghostRecord D N r g = some l ∧
      (∀ f n, f < D.faces →
        Encodes D (N.mesh ((N.mesh r).ghostToProc g))
          ((N.mesh ((N.mesh r).ghostToProc g)).before b + p) f n →
        ∃ res, queryFace D (readFace D (l.drop ((2 + 2 * D.half) * f))) = some res ∧
          IndirectAnswer D N ((N.mesh r).ghostToProc g) r b p f res n) ∧
      (∀ c n rel, c < D.children →
        EncodesCorner D (N.mesh ((N.mesh r).ghostToProc g))
          ((N.mesh ((N.mesh r).ghostToProc g)).before b + p) c n →
        CornerSize (N.mesh ((N.mesh r).ghostToProc g))
          ((N.mesh ((N.mesh r).ghostToProc g)).before b + p) n rel →
        ∃ res, queryCorner D (readCorner (l.drop ((2 + 2 * D.half) * D.faces + 4 * c))) = some res ∧
          IndirectCornerAnswer D N ((N.mesh r).ghostToProc g) r b c rel res n) := by
  have ho := h.proc r g hg
  have hor := (h.mesh r).remote g hg
  rw [h.rank] at hor
  generalize hO : (N.mesh r).ghostToProc g = o at *
  obtain ⟨hp, hfaces, hcorners⟩ := hdesc
  have htree := (h.mesh o).tree b p hp
  have fi := fun f n hf hn => face_item D hhalf hsmall N h o r ho hor b p f hp hf n hn
  have ci := fun c n rel hc hn hr => corner_item D hsmall' N h o r ho hor b p c hp hc n rel hn hr
  obtain ⟨lf, hlf, hlfl, hlfk⟩ := concatLoop_spec (faceChunk D N o b p) (2 + 2 * D.half) D.faces 0 (by
    intro k hk
    obtain ⟨n, hn⟩ := hfaces k hk
    obtain ⟨c, c', h1, h2, _⟩ := fi k n hk hn
    exact ⟨c, by rw [Nat.zero_add]; exact h1, h2⟩)
  obtain ⟨lc, hlc, hlcl, hlck⟩ := concatLoop_spec (cornerChunk D N o b p) 4 D.children 0 (by
    intro k hk
    obtain ⟨n, rel, hn, hr⟩ := hcorners k hk
    obtain ⟨c, c', h1, h2, _⟩ := ci k n rel hk hn hr
    exact ⟨c, by rw [Nat.zero_add]; exact h1, h2⟩)
  simp only [Nat.zero_add] at hlfk hlck
  obtain ⟨mf, hmf, hmfl, hmfk⟩ := rewriteLoop_spec (decodeFace D (keys N r) N.nproc r o) (2 + 2 * D.half)
    D.faces lf hlfl (by
      intro k hk
      obtain ⟨n, hn⟩ := hfaces k hk
      obtain ⟨c, c', h1, h2, h3, h4, _⟩ := fi k n hk hn
      have := hlfk k hk
      rw [h1] at this
      simp only [Option.some.injEq] at this
      exact ⟨c', by rw [← this]; exact h3, h4⟩)
  obtain ⟨mc, hmc, hmcl, hmck⟩ := rewriteLoop_spec (decodeCorner (keys N r) N.nproc r o) 4
    D.children lc hlcl (by
      intro k hk
      obtain ⟨n, rel, hn, hr⟩ := hcorners k hk
      obtain ⟨c, c', h1, h2, h3, h4, _⟩ := ci k n rel hk hn hr
      have := hlck k hk
      rw [h1] at this
      simp only [Option.some.injEq] at this
      exact ⟨c', by rw [← this]; exact h3, h4⟩)
  refine ⟨mf ++ mc, ?_, ?_, ?_⟩
  · unfold ghostRecord
    simp only [hO, hleaf, htree, Nat.add_sub_cancel_left]
    rw [if_pos ⟨keys_nodup N h r, keys_length N h r⟩]
    have hrec : record D N o b p = some (lf ++ lc) := by
      unfold record
      rw [hlf, hlc]
    rw [hrec]
    simp only []
    unfold decodeRecord
    simp only []
    have e : (2 + 2 * D.half) * D.faces = lf.length := by rw [hlfl, Nat.mul_comm]
    rw [e, List.take_left, List.drop_left, hmf, hmc]
  · intro f n hf hn
    obtain ⟨c, c', h1, h2, h3, h4, res, h5, h6⟩ := fi f n hf hn
    refine ⟨res, ?_, h6⟩
    have e1 := hlfk f hf
    rw [h1] at e1
    simp only [Option.some.injEq] at e1
    have e2 := hmfk f hf
    rw [← e1, h3] at e2
    simp only [Option.some.injEq] at e2
    rw [e2, readFace_take] at h5
    rw [← h5, ← readFace_take, ← readFace_take D (mf.drop _)]
    congr 2
    rw [Nat.mul_comm (2 + 2 * D.half) f]
    have hle : f * (2 + 2 * D.half) + (2 + 2 * D.half) ≤ mf.length := by
      rw [hmfl, ← Nat.succ_mul]
      exact Nat.mul_le_mul_right _ hf
    rw [List.drop_append_of_le_length (by omega), List.take_append_of_le_length (by
      rw [List.length_drop]; omega)]
  · intro c n rel hc hn hr
    obtain ⟨ch, ch', h1, h2, h3, h4, res, h5, h6⟩ := ci c n rel hc hn hr
    refine ⟨res, ?_, h6⟩
    have e1 := hlck c hc
    rw [h1] at e1
    simp only [Option.some.injEq] at e1
    have e2 := hmck c hc
    rw [← e1, h3] at e2
    simp only [Option.some.injEq] at e2
    rw [e2, readCorner_take] at h5
    rw [← h5]
    congr 2
    rw [show (2 + 2 * D.half) * D.faces = mf.length by rw [hmfl, Nat.mul_comm], ← List.drop_drop,
      List.drop_left, Nat.mul_comm]

/-- C16, faces: the answer to an indirect face query of ghost `g` on process `r`. Let the ghost be
patch `(b, p)` of its owner, and let `n` be what lies behind face `f` in the owner's mesh. Then the
query returns the size relation, block and face of the owner's view, with each neighbour that belongs
to a third process and is a ghost of `r` given by its number on `r` and each other neighbour by -1;
if all are -1 it returns a boundary. -/
theorem C16_indirect_face (D : Dim) (hD : D = dim2 ∨ D = dim3) (N : Net) (h : N.Ok) (r g : Nat)
    (hg : g < (N.mesh r).ghostNum) (b p f : Nat) (n : Neighbor)
    (hleaf : N.localNumOf r g = (N.mesh ((N.mesh r).ghostToProc g)).before b + p)
    (hdesc : Described D (N.mesh ((N.mesh r).ghostToProc g)) b p) (hf : f < D.faces)
    (hn : Encodes D (N.mesh ((N.mesh r).ghostToProc g))
      ((N.mesh ((N.mesh r).ghostToProc g)).before b + p) f n) :
    ∃ res, indirectFace D N r g f = some res ∧
      IndirectAnswer D N ((N.mesh r).ghostToProc g) r b p f res n := by
  have hd : 2 ≤ D.half ∧ (D.faces * D.half : Int) < 2 ^ 26 ∧ (D.children : Int) < 2 ^ 26 := by
    rcases hD with rfl | rfl <;> decide
  obtain ⟨l, hl, hfa, _⟩ := ghost_items D hd.1 hd.2.1 hd.2.2 N h r g hg b p hleaf hdesc
  obtain ⟨res, h1, h2⟩ := hfa f n hf hn
  exact ⟨res, by unfold indirectFace; rw [hl]; exact h1, h2⟩

/-- C16, corners. -/
theorem C16_indirect_corner (D : Dim) (hD : D = dim2 ∨ D = dim3) (N : Net) (h : N.Ok) (r g : Nat)
    (hg : g < (N.mesh r).ghostNum) (b p c : Nat) (n : CornerNeighbor) (rel : Rel)
    (hleaf : N.localNumOf r g = (N.mesh ((N.mesh r).ghostToProc g)).before b + p)
    (hdesc : Described D (N.mesh ((N.mesh r).ghostToProc g)) b p) (hc : c < D.children)
    (hn : EncodesCorner D (N.mesh ((N.mesh r).ghostToProc g))
      ((N.mesh ((N.mesh r).ghostToProc g)).before b + p) c n)
    (hrel : CornerSize (N.mesh ((N.mesh r).ghostToProc g))
      ((N.mesh ((N.mesh r).ghostToProc g)).before b + p) n rel) :
    ∃ res, indirectCorner D N r g c = some res ∧
      IndirectCornerAnswer D N ((N.mesh r).ghostToProc g) r b c rel res n := by
  have hd : 2 ≤ D.half ∧ (D.faces * D.half : Int) < 2 ^ 26 ∧ (D.children : Int) < 2 ^ 26 := by
    rcases hD with rfl | rfl <;> decide
  obtain ⟨l, hl, _, hco⟩ := ghost_items D hd.1 hd.2.1 hd.2.2 N h r g hg b p hleaf hdesc
  obtain ⟨res, h1, h2⟩ := hco c n rel hc hn hrel
  exact ⟨res, by unfold indirectCorner; rw [hl]; exact h1, h2⟩

/-! A case meeting the hypotheses: one block with four patches 0..3 in z-order, owned by the processes
0, 1, 2, 2. Process 0 sees the ghosts 1, 2, 3. Behind face 3 of its ghost 0 (patch 1 of process 1)
lies patch 3, which is ghost number 2 on process 0. -/

def exOwner (q : Nat) : Nat := if q = 0 then 0 else if q = 1 then 1 else 2
def exLocal (p : Nat) : List Nat := if p = 0 then [0] else if p = 1 then [1] else if p = 2 then [2, 3] else []
def exGhosts (p : Nat) : List Nat :=
  if p = 0 then [1, 2, 3] else if p = 1 then [0, 2, 3] else if p = 2 then [0, 1] else []
/-- Number of patch `q` in the mesh of process `p`. -/
def exId (p q : Nat) : Nat :=
  if q ∈ exLocal p then (exLocal p).idxOf q else (exLocal p).length + (exGhosts p).idxOf q
/-- The patch behind a face, if any. -/
def exFace (q f : Nat) : Option Nat :=
  if f = 0 then (if q % 2 = 1 then some (q - 1) else none)
  else if f = 1 then (if q % 2 = 0 then some (q + 1) else none)
  else if f = 2 then (if 2 ≤ q then some (q - 2) else none)
  else (if q < 2 then some (q + 2) else none)

def exNet : Net where
  nproc := 3
  mesh p :=
    { rank := p, localNum := (exLocal p).length, ghostNum := (exGhosts p).length
      quadToQuad := fun leaf f =>
        match exFace ((exLocal p)[leaf]?.getD 0) f with | some q => exId p q | none => leaf
      quadToFace := fun leaf f =>
        match exFace ((exLocal p)[leaf]?.getD 0) f with
        | some _ => ((if f % 2 = 0 then f + 1 else f - 1 : Nat) : Int) | none => f
      quadToHalf := fun _ _ => 0, quadToTree := fun _ => 0
      ghostToProc := fun g => exOwner ((exGhosts p)[g]?.getD 0), ghostTree := fun _ => 0
      before := fun _ => 0, num := fun b => if b = 0 then (exLocal p).length else 0
      quadToCorner := fun leaf c =>
        let q := (exLocal p)[leaf]?.getD 0
        if q = 3 - c then (exId p (3 - q) : Int) else -1
      cornerOffset := fun _ => 0, cornerQuad := fun _ => 0, cornerCorner := fun _ => 0
      level := fun _ => 1, ghostLevel := fun _ => 1 }
  localNumOf p g :=
    let q := (exGhosts p)[g]?.getD 0
    (exLocal (exOwner q)).idxOf q
  offsets p i := (exGhosts p).countP (fun q => decide (exOwner q < i))

theorem exNet_ok : exNet.Ok := by
  have hp : ∀ p, p = 0 ∨ p = 1 ∨ p = 2 ∨ exGhosts p = [] := by
    intro p
    by_cases h0 : p = 0
    · exact Or.inl h0
    · by_cases h1 : p = 1
      · exact Or.inr (Or.inl h1)
      · by_cases h2 : p = 2
        · exact Or.inr (Or.inr (Or.inl h2))
        · exact Or.inr (Or.inr (Or.inr (by simp [exGhosts, h0, h1, h2])))
  have hg : ∀ p g, g < (exNet.mesh p).ghostNum → (p = 0 ∨ p = 1 ∨ p = 2) ∧ (g = 0 ∨ g = 1 ∨ g = 2) := by
    intro p g h
    have h' : g < (exGhosts p).length := h
    rcases hp p with rfl | rfl | rfl | he
    · simp [exGhosts] at h'; omega
    · simp [exGhosts] at h'; omega
    · simp [exGhosts] at h'; omega
    · simp [he] at h'
  refine ⟨?_, fun _ => rfl, ?_, ?_, ?_, ?_, ?_, ?_, ?_, ?_⟩
  · intro p
    refine ⟨?_, ?_, ?_⟩
    · intro b q h
      by_cases hb : b = 0
      · simp [exNet, hb] at h ⊢; exact h
      · simp [exNet, hb] at h
    · intro b q h
      by_cases hb : b = 0
      · simp [exNet, hb]
      · simp [exNet, hb] at h
    · intro g h
      obtain ⟨h1, h2⟩ := hg p g h
      rcases h1 with rfl | rfl | rfl <;> rcases h2 with rfl | rfl | rfl <;>
        first | decide | (exact absurd h (by decide))
  · intro p i j hij
    exact List.countP_mono_left (fun q _ h => by simp at h ⊢; omega)
  · intro p
    rcases hp p with rfl | rfl | rfl | he
    · decide
    · decide
    · decide
    · simp [exNet, he]
  · intro p
    rcases hp p with rfl | rfl | rfl | he
    · decide
    · decide
    · decide
    · simp [exNet, he]
  · intro p g h
    obtain ⟨h1, h2⟩ := hg p g h
    rcases h1 with rfl | rfl | rfl <;> rcases h2 with rfl | rfl | rfl <;>
      first | decide | (exact absurd h (by decide))
  · intro p g h
    obtain ⟨h1, h2⟩ := hg p g h
    rcases h1 with rfl | rfl | rfl <;> rcases h2 with rfl | rfl | rfl <;>
      first | decide | (exact absurd h (by decide))
  · decide
  · intro p g h
    obtain ⟨h1, h2⟩ := hg p g h
    rcases h1 with rfl | rfl | rfl <;> rcases h2 with rfl | rfl | rfl <;>
      first | decide | (exact absurd h (by decide))
  · intro p g g' h h'
    obtain ⟨h1, h2⟩ := hg p g h
    obtain ⟨_, h2'⟩ := hg p g' h'
    rcases h1 with rfl | rfl | rfl <;> rcases h2 with rfl | rfl | rfl <;>
      rcases h2' with rfl | rfl | rfl <;>
      first | decide | (exact absurd h (by decide)) | (exact absurd h' (by decide))

example : Described dim2 (exNet.mesh 1) 0 0 ∧
    Encodes dim2 (exNet.mesh 1) ((exNet.mesh 1).before 0 + 0) 3 (.same (.ghost 2) 2 0) := by
  refine ⟨⟨by decide, ?_, ?_⟩, ?_⟩
  · intro f hf
    have : f = 0 ∨ f = 1 ∨ f = 2 ∨ f = 3 := by simp [dim2] at hf; omega
    rcases this with rfl | rfl | rfl | rfl
    · exact ⟨.same (.ghost 0) 1 0, by decide, by decide, (show 0 < (exGhosts 1).length by decide), by decide +kernel, by decide +kernel, by decide +kernel⟩
    · exact ⟨.boundary, by decide +kernel, by decide +kernel⟩
    · exact ⟨.boundary, by decide +kernel, by decide +kernel⟩
    · exact ⟨.same (.ghost 2) 2 0, by decide, by decide, (show 2 < (exGhosts 1).length by decide), by decide +kernel, by decide +kernel, by decide +kernel⟩
  · intro c hc
    have : c = 0 ∨ c = 1 ∨ c = 2 ∨ c = 3 := by simp [dim2] at hc; omega
    rcases this with rfl | rfl | rfl | rfl
    · exact ⟨.none, .sameSize, by show _ < (0 : Int); decide +kernel, trivial⟩
    · exact ⟨.none, .sameSize, by show _ < (0 : Int); decide +kernel, trivial⟩
    · exact ⟨.inside (.ghost 1), .sameSize, ⟨(show 1 < (exGhosts 1).length by decide), by decide +kernel⟩, SizeRel.same⟩
    · exact ⟨.none, .sameSize, by show _ < (0 : Int); decide +kernel, trivial⟩
  · exact ⟨by decide, by decide, (show 2 < (exGhosts 1).length by decide), by decide +kernel,
      by decide +kernel, by decide +kernel⟩

example : indirectFace dim2 exNet 0 0 3 = some ⟨.sameSize, [2, -1], 0, [2, -1], 2⟩ := by decide +kernel
example : indirectFace dim2 exNet 0 0 0 = some ⟨.boundary, [-1, -1], 0, [-1, -1], 1⟩ := by decide +kernel
example : indirectCorner dim2 exNet 0 0 2 = some (.sameSize, ⟨2, 0, 1, 1⟩) := by decide +kernel

end Fclaw.Indirect
