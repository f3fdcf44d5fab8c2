import Verif.Rays.Spec
import Verif.Search.Props
/-
Lemmas for C101.
-/
set_option autoImplicit false
set_option linter.unusedVariables false
set_option linter.unusedSimpArgs false
namespace Fclaw.Rays

open Search (Forest searchLocal upd keyed search1)

section
variable {Q U : Type}

/-- The callback for one ray. -/
def one (cb : Q → Option Nat → U → Answer) (ri : U × Nat) (q : Q) (n : Option Nat) (v : ℚ × Bool) : (ℚ × Bool) × Bool :=
  ((if n.isSome then v.1 + (cb q n ri.1).value else v.1, v.2 || (cb q n ri.1).mark), (cb q n ri.1).hit)

theorem rayFn_keyed (cb : Q → Option Nat → U → Answer) : rayFn cb = keyed Prod.snd (one cb) := by
  funext q n s ri
  rfl

theorem one_fst (cb : Q → Option Nat → U → Answer) (u : U) (i : Nat) : ∀ (F : Forest Q) (v : ℚ × Bool),
    (search1 (one cb (u, i)) F v).1 = search1 (Search.rayFn (asIntersect cb) (u, i)) F v.1
  | .nil, _ => rfl
  | .leaf q n rest, v => by
    simp only [search1]
    rw [one_fst cb u i rest]
    rfl
  | .node q kids rest, v => by
    simp only [search1]
    rw [one_fst cb u i rest]
    by_cases h : (cb q none u).hit = true
    · have h1 : (one cb (u, i) q none v).2 = true := h
      have h2 : (Search.rayFn (asIntersect cb) (u, i) q none v.1).2 = true := h
      rw [if_pos h1, if_pos h2, one_fst cb u i kids]
      rfl
    · have h1 : ¬ (one cb (u, i) q none v).2 = true := h
      have h2 : ¬ (Search.rayFn (asIntersect cb) (u, i) q none v.1).2 = true := h
      rw [if_neg h1, if_neg h2]
      rfl

theorem one_snd (cb : Q → Option Nat → U → Answer) (u : U) (i : Nat) : ∀ (F : Forest Q) (v : ℚ × Bool),
    (search1 (one cb (u, i)) F v).2 =
      (v.2 || (reached (fun q => (cb q none u).hit) F).any fun w => (cb w.1 w.2 u).mark)
  | .nil, v => by simp [search1, reached]
  | .leaf q n rest, v => by
    simp only [search1, reached, List.any_cons]
    rw [one_snd cb u i rest]
    simp only [one, Bool.or_assoc]
  | .node q kids rest, v => by
    simp only [search1, reached, List.any_cons, List.any_append]
    rw [one_snd cb u i rest]
    by_cases h : (cb q none u).hit = true
    · have h1 : (one cb (u, i) q none v).2 = true := h
      rw [if_pos h1, if_pos h, one_snd cb u i kids]
      simp only [one, Bool.or_assoc]
    · have h1 : ¬ (one cb (u, i) q none v).2 = true := h
      rw [if_neg h1, if_neg h]
      simp only [one, List.any_nil, Bool.false_or, Bool.or_assoc]

/-- The result of the local search. -/
def loc (cb : Q → Option Nat → U → Answer) (us : List U) (F : Forest Q) : Nat → ℚ × Bool :=
  searchLocal (rayFn cb) F us.zipIdx (fun _ => (0, false))

theorem loc_at (cb : Q → Option Nat → U → Answer) (us : List U) (F : Forest Q) (i : Nat) (u : U) (h : us[i]? = some u) :
    loc cb us F i = search1 (one cb (u, i)) F (0, false) := by
  unfold loc
  rw [rayFn_keyed]
  have hmem : (u, i) ∈ us.zipIdx := List.mk_mem_zipIdx_iff_getElem?.mpr h
  have hnd : (us.zipIdx.map Prod.snd).Nodup := by
    rw [List.zipIdx_map_snd]
    exact List.nodup_range'
  exact Search.searchLocal_in Prod.snd (one cb) F us.zipIdx (fun _ => (0, false)) (u, i) hnd hmem

theorem loc_sum (cb : Q → Option Nat → U → Answer) (us : List U) (W : List (Forest Q)) (i : Nat) (u : U) (h : us[i]? = some u)
    (hs : ∀ F ∈ W, Search.SoundStop (asIntersect cb) u F) :
    (W.map fun F => (loc cb us F i).1).sum = Search.totalIntegral (asIntersect cb) W u := by
  rw [← Search.C18_integrate_rays (asIntersect cb) W us i u h hs]
  unfold Search.integrateRays
  congr 1
  refine List.map_congr_left ?_
  intro F _
  rw [loc_at cb us F i u h, one_fst, Search.integrateRayFn_keyed]
  have hmem : (u, i) ∈ us.zipIdx := List.mk_mem_zipIdx_iff_getElem?.mpr h
  have hnd : (us.zipIdx.map Prod.snd).Nodup := by
    rw [List.zipIdx_map_snd]
    exact List.nodup_range'
  exact (Search.searchLocal_in Prod.snd (Search.rayFn (asIntersect cb)) F us.zipIdx (fun _ => 0) (u, i) hnd hmem).symm

theorem loc_mark (cb : Q → Option Nat → U → Answer) (us : List U) (W : List (Forest Q)) (i : Nat) (u : U)
    (h : us[i]? = some u) : (W.any fun F => (loc cb us F i).2) = true ↔ Marked cb W u := by
  unfold Marked
  rw [List.any_eq_true]
  refine exists_congr fun F => and_congr_right fun _ => ?_
  rw [loc_at cb us F i u h, one_snd, Bool.false_or, List.any_eq_true]

/-! ### The arrays of all processes -/

def ids (l : List (Ray U)) : List (ℤ × U) := l.map fun r => (r.num, r.data)

/-- Every process has the rays of the user. -/
def Ready (defs : List (ℤ × U)) (as : List (Acc U)) : Prop :=
  ∀ a ∈ as, a.numRays = defs.length ∧ ∃ l, a.rays = some l ∧ ids l = defs

theorem arrays_ready (defs : List (ℤ × U)) : ∀ as : List (Acc U), Ready defs as →
    ∃ ls, arrays as = some ls ∧ ls.length = as.length ∧ (∀ l ∈ ls, ids l = defs)
  | [], _ => ⟨[], rfl, rfl, by simp⟩
  | a :: as, h => by
    obtain ⟨h1, l, h2, h3⟩ := h a List.mem_cons_self
    obtain ⟨ls, e, e2, e3⟩ := arrays_ready defs as (fun b hb => h b (List.mem_cons_of_mem _ hb))
    have hl : l.length = a.numRays := by rw [h1, ← h3]; simp [ids]
    refine ⟨l :: ls, ?_, by simp [e2], ?_⟩
    · simp only [arrays, h2, if_pos hl, e, Option.map_some]
    · intro l' hl'
      rcases List.mem_cons.1 hl' with rfl | hl'
      · exact h3
      · exact e3 l' hl'

theorem ready_same (defs : List (ℤ × U)) (as : List (Acc U)) (h : Ready defs as) :
    as.all (fun a => decide (some a.numRays = (as.head?).map fun b => b.numRays)) = true := by
  rw [List.all_eq_true]
  intro a ha
  cases as with
  | nil => cases ha
  | cons b as =>
    rw [decide_eq_true_eq]
    show some a.numRays = some b.numRays
    rw [(h a ha).1, (h b List.mem_cons_self).1]

theorem zip_locals (cb : Q → Option Nat → U → Answer) (defs : List (ℤ × U)) : ∀ (W : List (Forest Q)) (ls : List (List (Ray U))),
    ls.length = W.length → (∀ l ∈ ls, ids l = defs) →
    ((W.zip ls).map fun p => rayLocal cb p.1 p.2) = W.map (loc cb (defs.map fun d => d.2))
  | [], ls, _, _ => by simp
  | F :: W, [], h, _ => by simp at h
  | F :: W, l :: ls, h, hl => by
    simp only [List.zip_cons_cons, List.map_cons]
    rw [zip_locals cb defs W ls (by simpa using h) (fun l' hl' => hl l' (List.mem_cons_of_mem _ hl'))]
    congr 1
    unfold rayLocal loc
    have : (l.map fun r => r.data) = defs.map fun d => d.2 := by
      rw [← hl l List.mem_cons_self]
      simp [ids]
    rw [this]

/-- The rays of a process after integration. -/
def filled (v : Nat → ℚ) (m : Nat → ℚ × Bool) (l : List (Ray U)) : List (Ray U) :=
  l.zipIdx.map fun r => { r.1 with integral := some (v r.2), untrustworthy := (m r.2).2 }

theorem filled_ids (v : Nat → ℚ) (m : Nat → ℚ × Bool) (l : List (Ray U)) : ids (filled v m l) = ids l := by
  unfold ids filled
  rw [List.map_map]
  have : ((fun r : Ray U => (r.num, r.data)) ∘ fun r : Ray U × Nat =>
      ({ r.1 with integral := some (v r.2), untrustworthy := (m r.2).2 } : Ray U)) =
      (fun r : Ray U => (r.num, r.data)) ∘ Prod.fst := rfl
  rw [this, ← List.map_map, List.zipIdx_map_fst]

theorem filled_get (v : Nat → ℚ) (m : Nat → ℚ × Bool) (l : List (Ray U)) (i : Nat) :
    (filled v m l)[i]? = (l[i]?).map fun r => { r with integral := some (v i), untrustworthy := (m i).2 } := by
  unfold filled
  rw [List.getElem?_map, List.getElem?_zipIdx]
  cases l[i]? <;> simp

theorem print_filled (glob : Nat → Bool) (v : Nat → ℚ) : ∀ (l : List (Ray U)) (k : Nat),
    (∀ j r, l[j]? = some r → r.integral = some (v (k + j))) →
    printRays glob (l.zipIdx k) = some (((ids l).zipIdx k).flatMap fun d =>
      (if glob d.2 then [Line.warning d.1.1] else []) ++ [Line.value d.1.1 (v d.2)])
  | [], k, _ => rfl
  | r :: l, k, h => by
    have h0 := h 0 r rfl
    rw [Nat.add_zero] at h0
    have ih := print_filled glob v l (k + 1) (fun j r' hj => by
      have := h (j + 1) r' (by simpa using hj)
      rw [this]
      congr 2
      omega)
    simp only [List.zipIdx_cons, printRays, h0, ih, Option.map_some, ids, List.map_cons, List.flatMap_cons]

theorem flat_zipIdx {α β : Type} (l : List α) (f : α × Nat → List β) (g : α → List β)
    (h : ∀ i a, l[i]? = some a → f (a, i) = g a) : l.zipIdx.flatMap f = l.flatMap g := by
  have e : l.zipIdx.flatMap f = l.zipIdx.flatMap fun p => g p.1 := by
    rw [List.flatMap_def, List.flatMap_def]
    congr 1
    refine List.map_congr_left ?_
    rintro ⟨a, i⟩ hp
    exact h i a (List.mk_mem_zipIdx_iff_getElem?.mp hp)
  rw [e]
  have : (l.zipIdx.flatMap fun p => g p.1) = (l.zipIdx.map Prod.fst).flatMap g := by
    rw [List.flatMap_map]
  rw [this, List.zipIdx_map_fst]

theorem reset_ready (defs : List (ℤ × U)) : ∀ as : List (Acc U), Ready defs as → defs ≠ [] →
    ∃ bs, resetAll as = some bs ∧ Ready defs bs ∧ bs.length = as.length
  | [], _, _ => ⟨[], rfl, (fun a h => absurd h List.not_mem_nil), rfl⟩
  | a :: as, h, hd => by
    obtain ⟨h1, l, h2, h3⟩ := h a List.mem_cons_self
    obtain ⟨bs, e, e2, e3⟩ := reset_ready defs as (fun b hb => h b (List.mem_cons_of_mem _ hb)) hd
    have hn : a.numRays ≠ 0 := by
      rw [h1]
      exact fun h0 => hd (List.length_eq_zero_iff.1 h0)
    refine ⟨{ a with rays := some (l.map fun r => { r with untrustworthy := false }) } :: bs, ?_, ?_, by simp [e3]⟩
    · simp only [resetAll, rayReset, if_neg hn, h2, e, Option.map_some]
    · intro b hb
      rcases List.mem_cons.1 hb with rfl | hb
      · refine ⟨h1, _, rfl, ?_⟩
        rw [← h3]
        simp [ids]
      · exact e2 b hb

theorem zip_filled (cb : Q → Option Nat → U → Answer) (us : List U) (v : Nat → ℚ) (i : Nat) :
    ∀ (W : List (Forest Q)) (ls : List (List (Ray U))), ls.length = W.length → (∀ l ∈ ls, i < l.length) →
    (((ls.zip (W.map (loc cb us))).map fun p => filled v p.2 p.1).any fun l => markAt l i) = W.any fun F => (loc cb us F i).2
  | [], [], _, _ => rfl
  | [], _ :: _, h, _ => by simp at h
  | _ :: _, [], h, _ => by simp at h
  | F :: W, l :: ls, h, hl => by
    have hi := hl l List.mem_cons_self
    simp only [List.map_cons, List.zip_cons_cons, List.any_cons]
    rw [zip_filled cb us v i W ls (by simpa using h) (fun l' hl' => hl l' (List.mem_cons_of_mem _ hl'))]
    congr 1
    unfold markAt
    rw [filled_get, List.getElem?_eq_getElem hi]
    rfl

theorem cycle_ready (cb : Q → Option Nat → U → Answer) (W : List (Forest Q)) (defs : List (ℤ × U)) (as : List (Acc U))
    (hr : Ready defs as) (hl : as.length = W.length) (hW : W ≠ []) (hd : defs ≠ [])
    (hs : ∀ d ∈ defs, ∀ F ∈ W, Search.SoundStop (asIntersect cb) d.2 F) :
    ∃ bs, rayCycle cb W as = some (bs, report cb W defs) ∧ Ready defs bs ∧ bs.length = W.length := by
  obtain ⟨ls, ea, el, hls⟩ := arrays_ready defs as hr
  have hn0 : defs.length ≠ 0 := fun h0 => hd (List.length_eq_zero_iff.1 h0)
  have notall : ∀ as' : List (Acc U), Ready defs as' → as'.length = W.length →
      as'.all (fun a => decide (a.numRays = 0)) = false := by
    intro as' h1 h2
    cases as' with
    | nil => exact absurd (List.length_eq_zero_iff.1 h2.symm) hW
    | cons a as' =>
      rw [List.all_cons, (h1 a List.mem_cons_self).1]
      simp [hn0]
  obtain ⟨us, hus⟩ : ∃ us, us = defs.map fun d => d.2 := ⟨_, rfl⟩
  obtain ⟨v, hv⟩ : ∃ v : Nat → ℚ, v = fun i => ((W.map (loc cb us)).map fun f => (f i).1).sum := ⟨_, rfl⟩
  obtain ⟨bs, hbs⟩ : ∃ bs : List (Acc U), bs = (ls.zip (W.map (loc cb us))).map fun p =>
      ⟨p.1.length, some (filled v p.2 p.1)⟩ := ⟨_, rfl⟩
  have e1 : rayIntegrate cb W as = some bs := by
    unfold rayIntegrate
    rw [notall as hr hl, ready_same defs as hr, ea]
    simp only [Bool.false_eq_true, if_false, not_true_eq_false, Option.map_some, Option.some.injEq]
    rw [zip_locals cb defs W ls (el.trans hl) hls, hbs, hv, hus]
    rfl
  have hb1 : Ready defs bs := by
    intro b hb
    rw [hbs, List.mem_map] at hb
    obtain ⟨p, hp, rfl⟩ := hb
    have hpl := hls p.1 (List.of_mem_zip hp).1
    refine ⟨?_, _, rfl, by rw [filled_ids, hpl]⟩
    rw [← hpl]
    simp [ids]
  have hb2 : bs.length = W.length := by
    rw [hbs]
    simp [el, hl]
  have e2 : rayGather bs = some (report cb W defs) := by
    unfold rayGather
    rw [notall bs hb1 hb2, ready_same defs bs hb1]
    simp only [Bool.false_eq_true, if_false, not_true_eq_false]
    have eb : arrays bs = some ((ls.zip (W.map (loc cb us))).map fun p => filled v p.2 p.1) := by
      rw [hbs]
      clear hbs e1 hb1 hb2 ea
      generalize ls.zip (W.map (loc cb us)) = z
      induction z with
      | nil => rfl
      | cons p z ih =>
        simp only [List.map_cons, arrays]
        rw [if_pos (by simp [filled]), ih, Option.map_some]
    rw [eb]
    dsimp only
    have hidl : ∀ l ∈ ls, l.length = defs.length := by
      intro l hl'
      rw [← hls l hl']
      simp [ids]
    have hm : ∀ i, i < defs.length → (((ls.zip (W.map (loc cb us))).map fun p => filled v p.2 p.1).any fun l => markAt l i) = W.any fun F => (loc cb us F i).2 := fun i hi =>
      zip_filled cb us v i W ls (el.trans hl) (fun l hl' => by rw [hidl l hl']; exact hi)
    generalize hz : (ls.zip (W.map (loc cb us))).map (fun p => filled v p.2 p.1) = z at hm
    cases z with
    | nil =>
      have : (ls.zip (W.map (loc cb us))).length = 0 := by rw [← List.length_map, hz]; rfl
      rw [List.length_zip, List.length_map, el, hl, Nat.min_self] at this
      exact absurd (List.length_eq_zero_iff.1 this) hW
    | cons l0 z =>
      dsimp only
      obtain ⟨p, hp, hpl⟩ : ∃ p ∈ ls.zip (W.map (loc cb us)), filled v p.2 p.1 = l0 := by
        have : l0 ∈ (ls.zip (W.map (loc cb us))).map (fun p => filled v p.2 p.1) := by rw [hz]; exact List.mem_cons_self
        exact List.mem_map.1 this
      rw [print_filled _ v l0 0]
      · have hid : ids l0 = defs := by
          rw [← hpl, filled_ids]
          exact hls _ (List.of_mem_zip hp).1
        rw [hid]
        unfold report
        congr 1
        refine flat_zipIdx defs _ _ ?_
        intro i d hd'
        have hi : i < defs.length := (List.getElem?_eq_some_iff.1 hd').1
        have hu : us[i]? = some d.2 := by rw [hus, List.getElem?_map, hd']; rfl
        have hdm : d ∈ defs := List.mem_of_getElem? hd'
        dsimp only
        rw [hm i hi]
        have hval : v i = Search.totalIntegral (asIntersect cb) W d.2 := by
          rw [hv]
          dsimp only
          rw [List.map_map]
          exact loc_sum cb us W i d.2 hu (hs d hdm)
        rw [hval]
        congr 1
        by_cases hM : Marked cb W d.2
        · rw [if_pos hM, if_pos ((loc_mark cb us W i d.2 hu).2 hM)]
        · rw [if_neg hM, if_neg (fun h => hM ((loc_mark cb us W i d.2 hu).1 h))]
      · intro j r hj
        rw [← hpl, filled_get] at hj
        cases hq : p.1[j]? with
        | none => rw [hq] at hj; cases hj
        | some r' =>
          rw [hq] at hj
          simp only [Option.map_some, Option.some.injEq] at hj
          rw [← hj, Nat.zero_add]
  obtain ⟨cs, e3, hc1, hc2⟩ := reset_ready defs bs hb1 hd
  refine ⟨cs, ?_, hc1, hc2.trans hb2⟩
  unfold rayCycle
  rw [e1]
  dsimp only
  rw [e2]
  dsimp only
  rw [e3]
  rfl

theorem cycle_empty (cb : Q → Option Nat → U → Answer) (W : List (Forest Q)) (as : List (Acc U))
    (h : ∀ a ∈ as, a.numRays = 0) : rayCycle cb W as = some (as, []) := by
  have ha : as.all (fun a => decide (a.numRays = 0)) = true := by
    rw [List.all_eq_true]
    intro a ha'
    simp [h a ha']
  have hr : resetAll as = some as := by
    clear ha
    induction as with
    | nil => rfl
    | cons a as ih =>
      simp only [resetAll, rayReset, if_pos (h a List.mem_cons_self)]
      rw [ih (fun b hb => h b (List.mem_cons_of_mem _ hb))]
      rfl
  unfold rayCycle rayIntegrate
  rw [if_pos ha]
  dsimp only
  unfold rayGather
  rw [if_pos ha]
  dsimp only
  rw [hr]
  rfl

end

end Fclaw.Rays
