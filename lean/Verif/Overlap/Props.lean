/-
C19: the overlap exchange answers every query point in place, for any order of messages.
-/
import Verif.Overlap.Lemmas

set_option autoImplicit false
set_option linter.unusedSimpArgs false
set_option linter.unusedVariables false
namespace Fclaw.Overlap
open Fclaw.Search

theorem fold_updates {Pt : Type} (ids : Nat → List Nat) (f : Nat → Nat → Pt) (id : Nat) (v : Pt) :
    ∀ (order : List Nat) (qp : Nat → Pt), (∀ i ∈ order, id ∈ ids i → f i id = v) →
    ((∃ i ∈ order, id ∈ ids i) →
      order.foldl (fun qp i => updateFromBuffer ((ids i).map (f i)) (ids i) qp) qp id = v) ∧
    ((¬ ∃ i ∈ order, id ∈ ids i) →
      order.foldl (fun qp i => updateFromBuffer ((ids i).map (f i)) (ids i) qp) qp id = qp id)
  | [], qp, _ => by simp
  | i :: order, qp, h => by
    simp only [List.foldl_cons]
    have ih := fold_updates ids f id v order (updateFromBuffer ((ids i).map (f i)) (ids i) qp)
      (fun j hj => h j (by simp [hj]))
    constructor
    · intro hex
      by_cases hr : ∃ j ∈ order, id ∈ ids j
      · exact ih.1 hr
      · rw [ih.2 hr]
        obtain ⟨j, hj, hm⟩ := hex
        rcases List.mem_cons.mp hj with rfl | hj
        · rw [update_in _ _ _ _ hm]
          exact h j (by simp) hm
        · exact absurd ⟨j, hj, hm⟩ hr
    · intro hno
      rw [ih.2 (fun ⟨j, hj, hm⟩ => hno ⟨j, by simp [hj], hm⟩)]
      exact update_notin id _ _ _ (fun hm => hno ⟨i, by simp, hm⟩)

theorem foldlM_some {α β : Type} (f : β → α → Option β) (g : β → α → β) : ∀ (l : List α) (b : β),
    (∀ a ∈ l, ∀ b, f b a = some (g b a)) → l.foldlM f b = some (l.foldl g b)
  | [], b, _ => rfl
  | a :: l, b, h => by
    simp only [List.foldlM_cons, List.foldl_cons]
    rw [h a (by simp)]
    exact foldlM_some f g l _ (fun a' ha' => h a' (by simp [ha']))

section
variable {Q Pt : Type} [Inhabited Pt]
variable (hit : Q → Option Nat → Pt → Bool) (interp : Q → Option Nat → Pt → Pt × Bool)
variable (part : Forest Q) (W : List (OProc Q Pt))

/-- The point number `i` of process `c`. -/
def pointOf (c i : Nat) : Pt := (queriesOf W c).getD i default

theorem reply (hpart : PartitionOk hit W.length part)
    (hinterp : ∀ P ∈ W, InterpOk interp P.forest) (c r : Nat) (hc : c < W.length)
    (hr : r < W.length) (hne : r ≠ c) (prodOrder : List Nat)
    (hord : ArrivalOrder r (producerRecv hit part W r) prodOrder) (i : Nat) (sb : Nat × List Pt)
    (hi : (consOf hit part W c).sendBuffer[i]? = some sb) (hsb : sb.1 = r) :
    (producerSend hit interp part W r prodOrder).find? (fun m => decide (m.1 = c)) =
      some (c, sb.2.map (answer interp (forestOf W r).leaves)) := by
  have hinv := (cons_inv hit W.length part hpart (fun i => pointOf W c i) (queriesOf W c).length).1
  have hsorted : ((consOf hit part W c).sendBuffer.map Prod.fst).Pairwise (· < ·) := by
    have h1 := hinv.copy
    have h2 := hinv.sorted
    have h3 : ((consOf hit part W c).sendBuffer.map Prod.fst) =
        (consOf hit part W c).queryIndices.map Prod.fst := by
      show ((partitionSearch hit part (fun i => pointOf W c i) (queriesOf W c).length).sendBuffer.map
        Prod.fst) = _
      rw [h1, List.map_map]
      rfl
    rw [h3]
    exact h2
  have hfind := (find_sorted _ hsorted i sb hi r hsb).1
  have hok : InterpOk interp (forestOf W r) := by
    unfold forestOf
    rw [List.getElem?_eq_getElem hr]
    exact hinterp _ (List.getElem_mem hr)
  -- the entry of process c in the producer's receive buffer
  have hrecv : (c, sb.2) ∈ producerRecv hit part W r := by
    unfold producerRecv
    rw [List.mem_filterMap]
    refine ⟨c, by simpa using hc, ?_⟩
    rw [hfind]
    simp [Ne.symm hne]
  have huniq : ∀ b ∈ producerRecv hit part W r, b.1 = c → b = (c, sb.2) := by
    intro b hb hbc
    unfold producerRecv at hb
    rw [List.mem_filterMap] at hb
    obtain ⟨c', _, hb'⟩ := hb
    simp only [Option.map_eq_some_iff] at hb'
    obtain ⟨b', h1, h2⟩ := hb'
    subst h2
    simp only at hbc
    subst hbc
    rw [hfind] at h1
    cases h1
    simp [Ne.symm hne]
  obtain ⟨j, hj⟩ := List.mem_iff_getElem?.mp hrecv
  have hjo : j ∈ prodOrder := (hord.2 j).mpr ⟨(c, sb.2), hj, Ne.symm hne⟩
  have hmem : (c, sb.2.map (answer interp (forestOf W r).leaves)) ∈
      producerSend hit interp part W r prodOrder := by
    unfold producerSend
    rw [List.mem_filterMap]
    refine ⟨j, hjo, ?_⟩
    rw [hj]
    simp only [Option.map_some]
    rw [localSearch_eq interp _ hok]
  cases hf : (producerSend hit interp part W r prodOrder).find? (fun m => decide (m.1 = c)) with
  | none =>
    rw [List.find?_eq_none] at hf
    have := hf _ hmem
    simp at this
  | some m =>
    have hm1 : m.1 = c := by simpa using List.find?_some hf
    have hm2 := List.mem_of_find?_eq_some hf
    unfold producerSend at hm2
    rw [List.mem_filterMap] at hm2
    obtain ⟨k, _, hk⟩ := hm2
    simp only [Option.map_eq_some_iff] at hk
    obtain ⟨rb, h1, h2⟩ := hk
    subst h2
    have := huniq rb (List.mem_of_getElem? h1) hm1
    subst this
    rw [localSearch_eq interp _ hok]

/-- **C19.** For every order in which the messages arrive, the exchange completes, and each query
point of each process has, in its own place, received the contributions of all local patches of
its producer process; a point with no producer is unchanged. -/
theorem C19_overlap (hpart : PartitionOk hit W.length part)
    (hinterp : ∀ P ∈ W, InterpOk interp P.forest) (prodOrder consOrder : Nat → List Nat)
    (hprod : ∀ p, p < W.length → ArrivalOrder p (producerRecv hit part W p) (prodOrder p))
    (c : Nat) (hc : c < W.length)
    (hcons : ArrivalOrder c (consOf hit part W c).sendBuffer (consOrder c)) :
    ∃ out, overlapExchange hit interp part W prodOrder consOrder c = some out ∧
      ∀ id x, (queriesOf W c)[id]? = some x →
        (∀ r, IsProducer hit part x r → out id = answer interp (forestOf W r).leaves x) ∧
        ((¬ ∃ r, IsProducer hit part x r) → out id = x) := by
  have hci := cons_inv hit W.length part hpart (fun i => pointOf W c i) (queriesOf W c).length
  have hdef : partitionSearch hit part (fun i => pointOf W c i) (queriesOf W c).length =
    consOf hit part W c := rfl
  rw [hdef] at hci
  obtain ⟨hinv, hrank⟩ := hci
  generalize hs : consOf hit part W c = s at hinv hrank hcons
  -- ids and answers of buffer i
  let ids : Nat → List Nat := fun i => (s.queryIndices[i]?.map Prod.snd).getD []
  let rk : Nat → Nat := fun i => (s.queryIndices[i]?.map Prod.fst).getD 0
  let f : Nat → Nat → Pt := fun i id => answer interp (forestOf W (rk i)).leaves (pointOf W c id)
  have hget : ∀ i sb, s.sendBuffer[i]? = some sb → s.queryIndices[i]? = some (sb.1, ids i) ∧
      sb.2 = (ids i).map (pointOf W c) ∧ rk i = sb.1 ∧ sb.1 < W.length := by
    intro i sb h
    rw [hinv.copy] at h
    simp only [List.getElem?_map, Option.map_eq_some_iff] at h
    obtain ⟨b, h1, h2⟩ := h
    subst h2
    simp only [ids, rk, h1, Option.map_some, Option.getD_some]
    exact ⟨trivial, trivial, trivial, hrank b.1 (List.mem_map_of_mem (List.mem_of_getElem? h1))⟩
  have hsorted : (s.sendBuffer.map Prod.fst).Pairwise (· < ·) := by
    rw [hinv.copy, List.map_map]
    exact hinv.sorted
  have hfold : (consOrder c).foldlM (consumerStep hit interp part W c prodOrder)
      (fun i => (queriesOf W c).getD i default) =
      some ((consOrder c).foldl (fun qp i => updateFromBuffer ((ids i).map (f i)) (ids i) qp)
        (fun i => (queriesOf W c).getD i default)) := by
    apply foldlM_some
    intro i hi qp
    obtain ⟨sb, hsb, hne⟩ := (hcons.2 i).mp hi
    obtain ⟨g1, g2, g3, g4⟩ := hget i sb hsb
    unfold consumerStep
    rw [hs, hsb, g1]
    simp only
    rw [reply hit interp part W hpart hinterp c sb.1 hc g4 hne _ (hprod sb.1 g4) i sb
      (by rw [hs]; exact hsb) rfl]
    simp only [g2, List.map_map, Option.some.injEq]
    congr 1
    apply List.map_congr_left
    intro id _
    simp only [Function.comp, f, g3]
  unfold overlapExchange
  rw [hfold]
  refine ⟨_, rfl, ?_⟩
  intro id x hx
  have hid : id < (queriesOf W c).length := (List.getElem?_eq_some_iff.mp hx).1
  have hpt : pointOf W c id = x := by
    unfold pointOf
    rw [List.getD_eq_getElem?_getD, hx]
    rfl
  have hmark : ∀ r, s.mark id = some r ↔ IsProducer hit part x r := by
    intro r
    have := mark_iff hit W.length part hpart (fun i => pointOf W c i) _ id hid r
    rw [hdef, hs, hpt] at this
    exact this
  generalize hqp : (consOrder c).foldl _ _ = qp
  have hord := fun v => fold_updates ids f id v (consOrder c) (fun i => (queriesOf W c).getD i default)
  simp only [hqp] at hord
  have hinit : (queriesOf W c).getD id default = x := hpt
  rw [hinit] at hord
  have hidrk : ∀ i, id ∈ ids i → s.mark id = some (rk i) := by
    intro i hm
    simp only [ids, rk] at hm ⊢
    cases hq : s.queryIndices[i]? with
    | none => simp [hq] at hm
    | some b =>
      simp only [hq, Option.map_some, Option.getD_some] at hm ⊢
      exact hinv.marked b.1 b.2 id (List.mem_of_getElem? hq) hm
  have hf : ∀ r, s.mark id = some r → ∀ i, id ∈ ids i →
      f i id = answer interp (forestOf W r).leaves x := by
    intro r hr i hm
    have h1 := hidrk i hm
    rw [hr] at h1
    simp only [Option.some.injEq] at h1
    simp only [f]
    rw [← h1, hpt]
  have hokc : InterpOk interp (forestOf W c) := by
    unfold forestOf
    rw [List.getElem?_eq_getElem hc]
    exact hinterp _ (List.getElem_mem hc)
  -- the local update
  have hlocal : (s.mark id = some c → updateLocal hit interp part W c qp id =
        answer interp (forestOf W c).leaves x) ∧
      (s.mark id ≠ some c → updateLocal hit interp part W c qp id = qp id) := by
    unfold updateLocal
    rw [hs]
    constructor
    · intro hm
      obtain ⟨is, hb, hmem⟩ := hinv.listed id c hm
      obtain ⟨i, hi⟩ := List.mem_iff_getElem?.mp hb
      have hsb : s.sendBuffer[i]? = some (c, is.map (pointOf W c)) := by
        rw [hinv.copy, List.getElem?_map, hi]
        rfl
      rw [(find_sorted _ hsorted i _ hsb c rfl).2]
      simp only [hsb, hi]
      rw [localSearch_eq interp _ hokc, List.map_map]
      rw [update_in _ _ _ _ hmem]
      simp only [Function.comp, hpt]
    · intro hm
      cases hfi : s.sendBuffer.findIdx? (fun b => decide (b.1 = c)) with
      | none => rfl
      | some i =>
        obtain ⟨hlt, hp, _⟩ := List.findIdx?_eq_some_iff_getElem.mp hfi
        have h1 : s.sendBuffer[i]? = some s.sendBuffer[i] := List.getElem?_eq_getElem hlt
        obtain ⟨g1, -, -, -⟩ := hget i _ h1
        simp only [h1, g1]
        apply update_notin
        intro hmem
        have := hinv.marked _ _ id (List.mem_of_getElem? g1) hmem
        have hb : s.sendBuffer[i].1 = c := by simpa using hp
        rw [this, hb] at hm
        exact hm rfl
  constructor
  · intro r hr
    have hm := (hmark r).mpr hr
    by_cases hrc : r = c
    · subst hrc
      exact hlocal.1 hm
    · rw [hlocal.2 (by rw [hm]; simpa using hrc)]
      obtain ⟨is, hb, hmem⟩ := hinv.listed id r hm
      obtain ⟨i, hi⟩ := List.mem_iff_getElem?.mp hb
      have hsb : s.sendBuffer[i]? = some (r, is.map (pointOf W c)) := by
        rw [hinv.copy, List.getElem?_map, hi]
        rfl
      have hio : i ∈ consOrder c := (hcons.2 i).mpr ⟨_, hsb, hrc⟩
      refine (hord _ (fun j _ hj => hf r hm j hj)).1 ⟨i, hio, ?_⟩
      simp only [ids, hi, Option.map_some, Option.getD_some]
      exact hmem
  · intro hno
    have hm : s.mark id = none := by
      cases h : s.mark id with
      | none => rfl
      | some r => exact absurd ⟨r, (hmark r).mp h⟩ hno
    rw [hlocal.2 (by rw [hm]; simp)]
    refine (hord x ?_).2 ?_
    · intro i _ hi
      rw [hidrk i hi] at hm
      simp at hm
    · rintro ⟨i, _, hi⟩
      rw [hidrk i hi] at hm
      simp at hm

end

/-! ### Example: two processes on [0,1), points are (position, answer) -/

/-- Quadrants are intervals [a, b) in units of 1/4; process 0 has [0,2), process 1 has [2,4). -/
def exPart : Forest (Nat × Nat) := .node (0, 4) (.leaf (0, 2) 0 (.leaf (2, 4) 1 .nil)) .nil
def exHit (q : Nat × Nat) (_ : Option Nat) (x : Nat × Nat) : Bool := q.1 ≤ x.1 && x.1 < q.2
def exInterp (q : Nat × Nat) (n : Option Nat) (x : Nat × Nat) : (Nat × Nat) × Bool :=
  (if n.isSome && exHit q n x then (x.1, x.2 + 10 * q.1 + 1) else x, exHit q n x)
def exW : List (OProc (Nat × Nat) (Nat × Nat)) :=
  [⟨[(3, 0), (0, 0), (7, 0), (2, 0)], .node (0, 2) (.leaf (0, 1) 0 (.leaf (1, 2) 1 .nil)) .nil⟩,
   ⟨[(1, 0), (3, 0)], .node (2, 4) (.leaf (2, 3) 0 (.leaf (3, 4) 1 .nil)) .nil⟩]

theorem exPart_ok : PartitionOk exHit 2 exPart := by
  refine ⟨by decide, by decide, ⟨?_, trivial, trivial⟩⟩
  intro x h l hl
  simp only [Forest.leaves, List.mem_cons, List.not_mem_nil, or_false] at hl
  simp only [exHit, Bool.and_eq_false_iff, decide_eq_false_iff_not] at h ⊢
  rcases hl with rfl | rfl <;> dsimp only at h ⊢ <;> omega

theorem exInterp_ok : ∀ P ∈ exW, InterpOk exInterp P.forest := by
  intro P hP
  refine ⟨fun q x => by simp [exInterp], ?_⟩
  simp only [exW, List.mem_cons, List.not_mem_nil, or_false] at hP
  rcases hP with rfl | rfl <;>
  · refine ⟨?_, trivial, trivial⟩
    intro x h l hl
    simp only [Forest.leaves, List.mem_cons, List.not_mem_nil, or_false] at hl
    simp only [exInterp, exHit, Bool.and_eq_false_iff, decide_eq_false_iff_not] at h
    rcases hl with rfl | rfl <;>
    · simp only [exInterp, exHit, Option.isSome_some, Bool.true_and, Bool.and_eq_true,
        decide_eq_true_eq]
      rw [if_neg (by omega)]

example : producerRecv exHit exPart exW 1 = [(0, [(3, 0), (2, 0)]), (1, [])] := by decide +kernel
example : ArrivalOrder 1 (producerRecv exHit exPart exW 1) [0] := by
  rw [show producerRecv exHit exPart exW 1 = [(0, [(3, 0), (2, 0)]), (1, [])] by decide +kernel]
  refine ⟨by decide, ?_⟩
  intro i
  rcases i with _ | _ | i <;> simp
/-- Process 0: points at 3 and 2 are answered by process 1, at 0 locally, at 7 by nobody. -/
example : (overlapExchange exHit exInterp exPart exW (fun p => if p = 0 then [1] else [0])
    (fun c => if c = 0 then [1] else [0]) 0).map (fun out => (List.range 4).map out) =
    some [(3, 31), (0, 1), (7, 0), (2, 21)] := by decide +kernel

end Fclaw.Overlap
