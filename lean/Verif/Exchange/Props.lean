import Verif.Exchange.Lemmas
/-
Property C11: the exchange of ghost patch data.
-/
set_option autoImplicit false
namespace Fclaw.Exchange

/-- C11 (buffers): the slots of the ghost patches lie inside the allocated memory and do not
overlap, and the structure is ready for an exchange. -/
theorem C11_slots (dataSize numExchange numGhost : Nat) (junk : List UInt8) (junkMem : Nat → UInt8) :
    let e := allocateBeforeExchange dataSize numExchange numGhost junk junkMem
    e.ghostData.length = numGhost ∧
    (∀ (i a : Nat), e.ghostData[i]? = some a → a + dataSize ≤ e.memory.length) ∧
    (∀ (i j a b : Nat), i < j → e.ghostData[i]? = some a → e.ghostData[j]? = some b →
      a + dataSize ≤ b) := by
  intro e
  have hlen : e.ghostData.length = numGhost := ghostPtrs_length _ _ _
  have hget : ∀ (i a : Nat), e.ghostData[i]? = some a → i < numGhost ∧ a = i * dataSize := by
    intro i a h
    have hi : i < numGhost := by
      have := (List.getElem?_eq_some_iff.1 h).1
      omega
    have h2 : (ghostPtrs dataSize numGhost 0)[i]? = some a := h
    rw [ghostPtrs_get _ _ _ _ hi] at h2
    simp only [Option.some.injEq] at h2
    exact ⟨hi, by omega⟩
  refine ⟨hlen, ?_, ?_⟩
  · intro i a h
    obtain ⟨hi, rfl⟩ := hget i a h
    have : (i + 1) * dataSize ≤ numGhost * dataSize := Nat.mul_le_mul_right _ hi
    rw [Nat.succ_mul] at this
    have hm : e.memory.length = numGhost * dataSize := by simp [e, allocateBeforeExchange]
    omega
  · intro i j a b hij ha hb
    obtain ⟨_, rfl⟩ := hget i a ha
    obtain ⟨_, rfl⟩ := hget j b hb
    have : (i + 1) * dataSize ≤ j * dataSize := Nat.mul_le_mul_right _ hij
    rw [Nat.succ_mul] at this
    omega

/-- C11 (setup): freshly allocated structures are ready. -/
theorem C11_setup_ready (w : World) (junk : Nat → List UInt8) (junkMem : Nat → Nat → UInt8) (p : Nat) :
    Ready w (fun p => allocateBeforeExchange w.dataSize (w.mirrors p).length (w.ghosts p).length
      (junk p) (junkMem p)) p := by
  have h := C11_slots w.dataSize (w.mirrors p).length (w.ghosts p).length (junk p) (junkMem p)
  refine ⟨rfl, by simp [allocateBeforeExchange], h.1, h.2.1, ?_, rfl, rfl⟩
  intro i o ho
  have hi : i < (w.ghosts p).length := by
    have := (List.getElem?_eq_some_iff.1 ho).1
    have h1 := h.1
    simp only [allocateBeforeExchange] at this h1
    omega
  have h2 : (ghostPtrs w.dataSize (w.ghosts p).length 0)[i]? = some o := ho
  rw [ghostPtrs_get _ _ _ _ hi] at h2
  simp only [Option.some.injEq] at h2
  omega

/-- What the begin on a process yields. -/
theorem beginOn_eq (w : World) (hw : Consistent w) (e : Nat → Exch) (mn mx : Int) (ti : Bool)
    (p : Nat) (hr : Ready w e p)
    (hlev : ∀ q ∈ (w.blocks p).flatten, q.flag = true → q.level ≤ mx) :
    ∃ rg bl, beginOn w e mn mx ti p = some
      { e p with
        patchData := (flagged (w.blocks p).flatten).map (fun q => q.packed (packFlag mn ti q))
        byLevels := bl, insideAsync := true
        sent := some ((flagged (w.blocks p).flatten).map (fun q => q.packed (packFlag mn ti q)), rg) } ∧
      rg = (if (if ti then mn - 1 else mn) ≤ w.globalMin ∧ w.globalMax ≤ mx then none
            else some (if ti then mn - 1 else mn, mx)) := by
  have hcount : (flagged (w.blocks p).flatten).length = (e p).patchData.length := by
    have h := flagged_mirrors (w.blocks p).flatten 0 (w.mirrors p) (hw.mirrorsSorted p)
      (by intro m hm; have := hw.mirrorsRange p m hm; omega)
      (by intro n q hq; rw [hw.flags p n q hq, Nat.zero_add])
    have := congrArg List.length h
    simp only [List.length_map] at this
    rw [this, hr.sends]
  have hp := packBlocks_eq mn mx ti (w.blocks p) 0 (e p).patchData hlev (by omega)
  have hd : List.drop (0 + (flagged (w.blocks p).flatten).length) (e p).patchData = [] := by
    rw [List.drop_eq_nil_iff]; omega
  rw [hd] at hp
  unfold beginOn ghostPatchesBegin
  rw [hp]
  simp only [Option.bind_some, List.take_zero, List.nil_append, List.append_nil]
  unfold exchangeBegin
  simp only [hr.idle.1, hr.idle.2, Option.isSome_none, Bool.or_self, Bool.false_eq_true, if_false]
  generalize (if ti = true then mn - 1 else mn) = lo
  split
  · exact ⟨_, _, rfl, rfl⟩
  · exact ⟨_, _, rfl, rfl⟩

/-- C11: if all exchange patches are at most of level `maxlevel`, the exchange over the levels
`minlevel..maxlevel` (from `minlevel - 1` with time interpolation) runs without a failed assertion,
and on each process `r` every ghost patch `i` with a level in that range is unpacked exactly once,
from exactly the bytes that its owner packed for this patch; the time-interpolated data is packed
and unpacked exactly for ghosts of level `minlevel - 1`. Afterwards the structure is ready again. -/
theorem C11_exchange (w : World) (hw : Consistent w) (e : Nat → Exch)
    (hr : ∀ p, Ready w e p) (minlevel maxlevel : Int) (ti : Bool)
    (hlev : ∀ p, ∀ q ∈ (w.blocks p).flatten, q.flag = true → q.level ≤ maxlevel) (r : Nat) :
    ∃ e' calls, exchange w e minlevel maxlevel ti r = some (e', calls) ∧
      Ready w (fun _ => e') r ∧
      ∀ (i : Nat) (g : Ghost), (w.ghosts r)[i]? = some g →
        (if ti then minlevel - 1 else minlevel) ≤ g.level →
        ∃ q, (w.blocks g.owner).flatten[g.localNum]? = some q ∧ q.level = g.level ∧
          calls.filter (fun c => decide (c.ghostNo = i)) =
            [⟨i, q.packed (ti && decide (g.level = minlevel - 1)),
              ti && decide (g.level = minlevel - 1)⟩] := by
  have hb := fun p => beginOn_eq w hw e minlevel maxlevel ti p (hr p) (hlev p)
  unfold exchange
  rw [if_pos (by
    rw [List.all_eq_true]
    intro p _
    obtain ⟨rg, bl, h, _⟩ := hb p
    rw [h]; rfl)]
  obtain ⟨rg, bl, hbr, hrg⟩ := hb r
  rw [hbr]
  simp only [Option.bind_some]
  unfold exchangeEnd
  simp only [if_true, Option.map_some, Option.some.injEq, Prod.mk.injEq]
  -- the sent data of every process
  have hsent : (fun p => (((beginOn w e minlevel maxlevel ti p).bind Exch.sent).map Prod.fst).getD [])
      = fun p => (flagged (w.blocks p).flatten).map (fun q => q.packed (packFlag minlevel ti q)) := by
    funext p
    obtain ⟨rg', bl', h, _⟩ := hb p
    rw [h]; rfl
  rw [hsent]
  -- data of one ghost
  have hdata : ∀ g ∈ w.ghosts r, ∃ q, (w.blocks g.owner).flatten[g.localNum]? = some q ∧
      q.level = g.level ∧
      ((flagged (w.blocks g.owner).flatten).map (fun q => q.packed (packFlag minlevel ti q)))[
        (w.mirrors g.owner).idxOf g.localNum]? = some (q.packed (packFlag minlevel ti q)) := by
    intro g hg
    have hmem := hw.ghostMirror r g hg
    have hlt := hw.mirrorsRange g.owner _ hmem
    refine ⟨(w.blocks g.owner).flatten[g.localNum], List.getElem?_eq_getElem hlt,
      hw.ghostLevel r g hg _ (List.getElem?_eq_getElem hlt), ?_⟩
    have h := flagged_mirrors (w.blocks g.owner).flatten 0 (w.mirrors g.owner)
      (hw.mirrorsSorted g.owner)
      (by intro m hm; have := hw.mirrorsRange g.owner m hm; omega)
      (by intro n q hq; rw [hw.flags g.owner n q hq, Nat.zero_add])
    have hidx : (w.mirrors g.owner)[(w.mirrors g.owner).idxOf g.localNum]? = some g.localNum := by
      have := List.idxOf_lt_length_of_mem hmem
      rw [List.getElem?_eq_getElem this, List.getElem_idxOf]
    have h2 := congrArg (fun l => l[(w.mirrors g.owner).idxOf g.localNum]?) h
    simp only [List.getElem?_map, hidx, Option.map_some, Nat.sub_zero] at h2
    rw [List.getElem?_eq_getElem hlt] at h2
    rw [List.getElem?_map]
    cases hf : (flagged (w.blocks g.owner).flatten)[(w.mirrors g.owner).idxOf g.localNum]? with
    | none => rw [hf] at h2; simp at h2
    | some q =>
      rw [hf] at h2
      simp only [Option.map_some, Option.some.injEq] at h2
      rw [← h2]; rfl
  have hsize : ∀ g ∈ w.ghosts r, inRange rg g.level = true →
      (((flagged (w.blocks g.owner).flatten).map (fun q => q.packed (packFlag minlevel ti q)))[
        (w.mirrors g.owner).idxOf g.localNum]?.getD []).length = w.dataSize := by
    intro g hg _
    obtain ⟨q, hq, _, hs⟩ := hdata g hg
    rw [hs]
    exact hw.size g.owner q (List.mem_of_getElem? hq) _
  have hmemlen : (0 + (w.ghosts r).length) * w.dataSize ≤ (e r).memory.length := by
    rw [Nat.zero_add]
    by_cases hn : (w.ghosts r).length = 0
    · rw [hn, Nat.zero_mul]; omega
    · have hlt : (w.ghosts r).length - 1 < (e r).ghostData.length := by rw [(hr r).slots]; omega
      have h1 := List.getElem?_eq_getElem hlt
      have h2 := (hr r).inside _ _ h1
      rw [(hr r).slotAt _ _ h1] at h2
      have h3 : (w.ghosts r).length * w.dataSize
          = ((w.ghosts r).length - 1) * w.dataSize + w.dataSize := by
        rw [← Nat.succ_mul]; congr 1; omega
      omega
  have hdl := deliver_length w.dataSize w.mirrors
    (fun p => (flagged (w.blocks p).flatten).map (fun q => q.packed (packFlag minlevel ti q)))
    rg (w.ghosts r) 0 (e r).memory hsize hmemlen
  have hdr := deliver_read w.dataSize w.mirrors
    (fun p => (flagged (w.blocks p).flatten).map (fun q => q.packed (packFlag minlevel ti q)))
    rg (w.ghosts r) 0 (e r).memory hsize hmemlen
  refine ⟨_, _, ⟨rfl, rfl⟩, ?_, ?_⟩
  · refine ⟨(hr r).dataSize, ?_, (hr r).slots, ?_, (hr r).slotAt, rfl, rfl⟩
    · have h := flagged_mirrors (w.blocks r).flatten 0 (w.mirrors r) (hw.mirrorsSorted r)
        (by intro m hm; have := hw.mirrorsRange r m hm; omega)
        (by intro n q hq; rw [hw.flags r n q hq, Nat.zero_add])
      have := congrArg List.length h
      simpa using this
    · intro i o ho
      dsimp only at ho ⊢
      rw [(hr r).dataSize, hdl]
      exact (hr r).inside i o ho
  · intro i g hg hlo
    have hgm : g ∈ w.ghosts r := List.mem_of_getElem? hg
    obtain ⟨q, hq, hql, hs⟩ := hdata g hgm
    refine ⟨q, hq, hql, ?_⟩
    have hf := unpackLoop_filter
      { e r with
        patchData := (flagged (w.blocks r).flatten).map (fun q => q.packed (packFlag minlevel ti q))
        byLevels := bl, insideAsync := false, sent := none
        memory := deliver (e r).dataSize w.mirrors
          (fun p => (flagged (w.blocks p).flatten).map (fun q => q.packed (packFlag minlevel ti q)))
          rg 0 (w.ghosts r) (e r).memory }
      minlevel ti (w.ghosts r) 0 i g hg
    simp only [Nat.zero_add] at hf
    rw [hf]
    have hlo2 : minlevel - 1 ≤ g.level := by
      cases ti
      · simp only [Bool.false_eq_true, if_false] at hlo; omega
      · simpa using hlo
    rw [if_pos hlo2]
    have hflag : q.flag = true := by
      rw [hw.flags g.owner g.localNum q hq]
      exact hw.ghostMirror r g hgm
    have hin : inRange rg g.level = true := by
      rw [hrg]
      generalize (if ti = true then minlevel - 1 else minlevel) = lo at hlo ⊢
      split
      · rfl
      · simp only [inRange, Bool.and_eq_true, decide_eq_true_eq]
        refine ⟨hlo, ?_⟩
        rw [← hql]
        exact hlev g.owner q (List.mem_of_getElem? hq) hflag
    have hlt : i < (e r).ghostData.length := by
      rw [(hr r).slots]
      exact (List.getElem?_eq_some_iff.1 hg).1
    have hoff := (hr r).slotAt _ _ (List.getElem?_eq_getElem hlt)
    rw [List.getElem?_eq_getElem hlt, Option.getD_some, hoff, (hr r).dataSize]
    have := hdr.2.1 i g hg hin
    rw [Nat.zero_add] at this
    rw [this, hs]
    simp only [Option.getD_some, packFlag, hql]

/-! A concrete case: two processes, each with one patch that is a ghost on the other one. -/

def exPatch (l : Int) (b : UInt8) : Patch := ⟨l, true, fun t => if t then [b, 1] else [b, 0]⟩

def exWorld : World where
  nproc := 2
  blocks := fun p => if p = 0 then [[exPatch 1 7]] else if p = 1 then [[], [exPatch 2 9]] else []
  mirrors := fun p => if p < 2 then [0] else []
  ghosts := fun p => if p = 0 then [⟨1, 0, 2⟩] else if p = 1 then [⟨0, 0, 1⟩] else []
  globalMin := 1
  globalMax := 2
  dataSize := 2

theorem exWorld_blocks (p : Nat) : (exWorld.blocks p).flatten =
    if p = 0 then [exPatch 1 7] else if p = 1 then [exPatch 2 9] else [] := by
  simp only [exWorld]
  split
  · rfl
  · split <;> rfl

theorem exWorld_consistent : Consistent exWorld where
  mirrorsSorted := by intro p; simp only [exWorld]; split <;> simp
  mirrorsRange := by
    intro p m hm
    rw [exWorld_blocks]
    simp only [exWorld] at hm
    split at hm
    · rename_i h
      simp only [List.mem_singleton] at hm
      subst hm
      have : p = 0 ∨ p = 1 := by omega
      rcases this with rfl | rfl <;> simp
    · simp at hm
  flags := by
    intro p n q hq
    rw [exWorld_blocks] at hq
    simp only [exWorld]
    split at hq
    · rename_i h
      subst h
      cases n with
      | zero => simp only [List.getElem?_cons_zero, Option.some.injEq] at hq; subst hq; simp [exPatch]
      | succ n => simp at hq
    · split at hq
      · rename_i h
        subst h
        cases n with
        | zero => simp only [List.getElem?_cons_zero, Option.some.injEq] at hq; subst hq; simp [exPatch]
        | succ n => simp at hq
      · simp at hq
  ghostOwner := by
    intro r g hg
    simp only [exWorld] at hg ⊢
    split at hg
    · simp only [List.mem_singleton] at hg; subst hg; decide
    · split at hg
      · simp only [List.mem_singleton] at hg; subst hg; decide
      · simp at hg
  ghostMirror := by
    intro r g hg
    simp only [exWorld] at hg ⊢
    split at hg
    · simp only [List.mem_singleton] at hg; subst hg; decide
    · split at hg
      · simp only [List.mem_singleton] at hg; subst hg; decide
      · simp at hg
  ghostLevel := by
    intro r g hg q hq
    rw [exWorld_blocks] at hq
    simp only [exWorld] at hg
    split at hg
    · simp only [List.mem_singleton] at hg; subst hg
      simp at hq; subst hq; rfl
    · split at hg
      · simp only [List.mem_singleton] at hg; subst hg
        simp at hq; subst hq; rfl
      · simp at hg
  levels := by
    intro p q hq
    rw [exWorld_blocks] at hq
    split at hq
    · simp only [List.mem_singleton] at hq; subst hq; simp [exWorld, exPatch]
    · split at hq
      · simp only [List.mem_singleton] at hq; subst hq; simp [exWorld, exPatch]
      · simp at hq
  size := by
    intro p q hq b
    rw [exWorld_blocks] at hq
    split at hq
    · simp only [List.mem_singleton] at hq; subst hq; cases b <;> simp [exWorld, exPatch]
    · split at hq
      · simp only [List.mem_singleton] at hq; subst hq; cases b <;> simp [exWorld, exPatch]
      · simp at hq

/-- The hypotheses of `C11_exchange` are met, with a proper level range and time interpolation. -/
example : ∃ e : Nat → Exch, Consistent exWorld ∧ (∀ p, Ready exWorld e p) ∧
    (∀ p, ∀ q ∈ (exWorld.blocks p).flatten, q.flag = true → q.level ≤ 2) ∧
    (exchange exWorld e 2 2 true 1).map Prod.snd = some [⟨0, [7, 1], true⟩] ∧
    (exchange exWorld e 2 2 true 0).map Prod.snd = some [⟨0, [9, 0], false⟩] :=
  ⟨_, exWorld_consistent, C11_setup_ready exWorld (fun _ => []) (fun _ _ => 0),
    fun p q hq _ => (exWorld_consistent.levels p q hq).2, rfl, rfl⟩

/-- Ghost patches of level `minlevel - 1` are also unpacked without time interpolation although
this level has not been exchanged: they then hold what an earlier exchange left in the slot (here:
the initial junk). Levels outside the requested range are therefore not left alone; the callers in
the library always pass the global minimum level when time interpolation is off. -/
example : ∃ e : Nat → Exch, (∀ p, Ready exWorld e p) ∧
    (exchange exWorld e 2 2 false 1).map Prod.snd = some [⟨0, [55, 55], false⟩] :=
  ⟨_, C11_setup_ready exWorld (fun _ => []) (fun _ _ => 55), rfl⟩

end Fclaw.Exchange
