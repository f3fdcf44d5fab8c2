/-
C74: regridding.
-/
import Verif.Repopulate.Whole
import Verif.Adapt.Props

set_option autoImplicit false
set_option linter.unusedSimpArgs false
set_option linter.unusedVariables false
set_option linter.unusedSectionVars false
namespace Fclaw.Repopulate

open Fort CopyGhost Transfer Adapt Metric
open Fclaw.Domain (Path)

variable {K P : Type} [Field K] [CharZero K]

theorem new_some {S : Setting K P} {init : Bool} {i : Nat} {e : Event 4} {a b : Nat → Option Patch} {D : Path 4 → Patch}
    (h : Did S init i e (fun n => (e.old[n]?).map D) b) : ∀ n < e.new.length, ∃ p, b n = some p := by
  cases e with
  | keep q =>
    intro n hn
    simp only [Event.new, List.length_singleton] at hn
    have : n = 0 := by omega
    subst this
    have h' : b 0 = some (D q) := h
    exact ⟨_, h'⟩
  | refine q =>
    intro n hn
    simp only [Event.new, children_length] at hn
    obtain ⟨f, ⟨e0, e1, e2, e3⟩, _⟩ := h (D q) rfl
    interval_cases n
    · exact ⟨_, e0⟩
    · exact ⟨_, e1⟩
    · exact ⟨_, e2⟩
    · exact ⟨_, e3⟩
  | coarsen q =>
    intro n hn
    simp only [Event.new, List.length_singleton] at hn
    have : n = 0 := by omega
    subst this
    obtain ⟨c, e, _⟩ := h (fun g => D (childPath q g)) ⟨rfl, rfl, rfl, rfl⟩
    exact ⟨c, e⟩

/-- **C74**: regridding succeeds on every process, for every distribution of the patches and whatever the new memory
holds: no null pointer is dereferenced, no array is left, no old data remain, and every new patch gets its data. -/
theorem C74_progress_partial (S : Setting K P) (hS : S.Ok) (init : Bool) (nproc : Nat) (E : List (List (Event 4)))
    (bes : Nat → List (List (Event 4))) (hd : Distribution nproc E bes) (mem : Nat → Nat → Nat → Memory P) (D : World)
    (hL : Legal S E D) : ∃ N, Regridded S init nproc bes mem D N := by
  classical
  have H := fun (p : Nat) (hp : p < nproc) => process_spec S hS (mem p) init D (bes p)
    (fun i q hq => hL.valid i q (old_sub hd p hp i q hq)) (fun i q hq => hL.levelOld i q (old_sub hd p hp i q hq))
    (fun i q hq => hL.level i q (new_sub hd p hp i q hq))
  have : Nonempty State := ⟨⟨fun _ _ => none, fun _ _ => none⟩⟩
  choose! st e did hold hnone using H
  have dummy : Patch := ⟨fun _ => 0, fun _ => 0, Correction.Regs.empty (fun _ _ => 0) (fun _ _ => 0)⟩
  -- where a place is
  let at_ : Nat → Path 4 → Nat × Nat → Prop := fun i q x => x.1 < nproc ∧ (newPatches ((bes x.1)[i]?.getD []))[x.2]? = some q
  have unique : ∀ i q x y, at_ i q x → at_ i q y → x = y := by
    rintro i q ⟨p, j⟩ ⟨p', j'⟩ ⟨hp, hj⟩ ⟨hp', hj'⟩
    dsimp only at hp hj hp' hj'
    have nd := hL.once i
    rw [new_flat hd i, List.nodup_flatMap] at nd
    have pp : p = p' := by
      by_contra hne
      have pw := nd.2
      rw [List.pairwise_iff_getElem] at pw
      rcases Nat.lt_or_gt_of_ne hne with h | h
      · have := pw p p' (by simpa using hp) (by simpa using hp') h
        simp only [List.getElem_range] at this
        exact this (List.mem_of_getElem? hj) (List.mem_of_getElem? hj')
      · have := pw p' p (by simpa using hp') (by simpa using hp) h
        simp only [List.getElem_range] at this
        exact this (List.mem_of_getElem? hj') (List.mem_of_getElem? hj)
    subst pp
    have nd1 := nd.1 p (by simpa using hp)
    have l1 := (List.getElem?_eq_some_iff.1 hj).1
    have := (List.getElem?_inj l1 nd1).1 (hj.trans hj'.symm)
    rw [this]
  refine ⟨fun i q => if h : ∃ x, at_ i q x then ((st h.choose.1).new i h.choose.2).getD dummy else dummy, ?_⟩
  intro p hp
  refine ⟨st p, e p hp, hold p hp, fun i j => ?_⟩
  by_cases hj : j < (newPatches ((bes p)[i]?.getD [])).length
  · obtain ⟨k, ⟨ev, hk, h1, h2⟩, _⟩ := (C08_covered_once ((bes p)[i]?.getD []) j).2 hj
    obtain ⟨r, hr⟩ := new_some (a := fun _ => none) (did p hp i k ev hk) (j - (newPatches (((bes p)[i]?.getD []).take k)).length) (by omega)
    rw [Nat.add_sub_cancel' h1] at hr
    have hx : at_ i ((newPatches ((bes p)[i]?.getD []))[j]) (p, j) := ⟨hp, List.getElem?_eq_getElem hj⟩
    rw [List.getElem?_eq_getElem hj, Option.map_some]
    have ex : ∃ x, at_ i ((newPatches ((bes p)[i]?.getD []))[j]) x := ⟨_, hx⟩
    beta_reduce
    rw [dif_pos ex]
    have := unique i _ _ _ ex.choose_spec hx
    rw [this, hr]
    rfl
  · rw [hnone p hp i j (by omega), List.getElem?_eq_none (by omega)]
    rfl

/-- **C74**: a patch that stays keeps all of its data. Where patches are refined or merged, the mass of the fine cells
in a coarse cell is that of the coarse cell, for every component; the new patches have the areas of C73 and empty registers.
(Partial: for square patches and two or more layers of ghost cells; C37, C38 and C73 have counterexamples otherwise.) -/
theorem C74_events_partial (S : Setting K P) (hS : S.Ok) (nproc : Nat) (E : List (List (Event 4))) (bes : Nat → List (List (Event 4)))
    (hd : Distribution nproc E bes) (mem : Nat → Nat → Nat → Memory P) (D N : World) (hL : Legal S E D)
    (h : Regridded S false nproc bes mem D N) (i : Nat) (e : Event 4) (he : e ∈ E[i]?.getD []) : Becomes S i (D i) (N i) e := by
  have did := events_did S hS false hd mem D N hL h i e he
  have v : ∀ q ∈ e.old, Valid S i q (D i q) := fun q hq => hL.valid i q (List.mem_flatMap.2 ⟨e, he, hq⟩)
  cases e with
  | keep q => exact did_keep did
  | refine q =>
    have F := did_refine did
    exact ⟨F.fresh, fun m hm C hC => mass_fine hS (v q (by simp [Event.old])) F m hm C hC⟩
  | coarsen q =>
    have F := did_coarsen did
    refine ⟨F.fresh, fun m hm C hC => mass_coarse hS (fun g a b => v _ ?_) F m hm C hC⟩
    simp only [Event.old, children_eq]
    interval_cases g <;> simp

/-- **C74**: the data of all patches are in order afterwards, so that regridding can be repeated. -/
theorem C74_valid_partial (S : Setting K P) (hS : S.Ok) (init : Bool) (nproc : Nat) (E : List (List (Event 4)))
    (bes : Nat → List (List (Event 4))) (hd : Distribution nproc E bes) (mem : Nat → Nat → Nat → Memory P) (D N : World) (hL : Legal S E D)
    (h : Regridded S init nproc bes mem D N) (i : Nat) : ∀ q ∈ newPatches (E[i]?.getD []), Valid S i q (N i q) := by
  intro q hq
  obtain ⟨e, he, hq⟩ := List.mem_flatMap.1 hq
  have did := events_did S hS init hd mem D N hL h i e he
  have v : ∀ q ∈ e.old, Valid S i q (D i q) := fun q hq => hL.valid i q (List.mem_flatMap.2 ⟨e, he, hq⟩)
  cases e with
  | keep r =>
    simp only [Event.new, List.mem_singleton] at hq
    subst hq
    rw [did_keep did]
    exact v q (by simp [Event.old])
  | refine r =>
    have F := did_refine did
    simp only [Event.new, children_eq, List.mem_cons, List.not_mem_nil, or_false] at hq
    rcases hq with rfl | rfl | rfl | rfl
    · exact (F.fresh 0 (by omega) (by omega)).1
    · exact (F.fresh 1 (by omega) (by omega)).1
    · exact (F.fresh 2 (by omega) (by omega)).1
    · exact (F.fresh 3 (by omega) (by omega)).1
  | coarsen r =>
    simp only [Event.new, List.mem_singleton] at hq
    subst hq
    exact (did_coarsen did).fresh.1

/-- **C74**: regridding conserves mass, in every component: on any distribution, whatever is refined and merged. -/
theorem C74_mass_partial (S : Setting K P) (hS : S.Ok) (nproc : Nat) (E : List (List (Event 4))) (bes : Nat → List (List (Event 4)))
    (hd : Distribution nproc E bes) (mem : Nat → Nat → Nat → Memory P) (D N : World) (hL : Legal S E D)
    (h : Regridded S false nproc bes mem D N) (m : ℤ) (hm : comp S.d m) :
    meshMass S (E.map newPatches) N m = meshMass S (E.map oldPatches) D m := by
  unfold meshMass
  rw [List.length_map, List.length_map]
  refine Finset.sum_congr rfl fun i hi => ?_
  have en : (E.map newPatches)[i]?.getD [] = newPatches (E[i]?.getD []) := by
    rw [List.getElem?_map]; cases E[i]? <;> rfl
  have eo : (E.map oldPatches)[i]?.getD [] = oldPatches (E[i]?.getD []) := by
    rw [List.getElem?_map]; cases E[i]? <;> rfl
  rw [en, eo]
  have key := fun e he => event_mass S hS i (D i) (N i) e (C74_events_partial S hS nproc E bes hd mem D N hL h i e he) m hm
  generalize E[i]?.getD [] = es at key
  induction es with
  | nil => rfl
  | cons e es ih =>
    simp only [newPatches, oldPatches, List.flatMap_cons, List.map_append, List.sum_append] at ih ⊢
    rw [key e (by simp), ih (fun e he => key e (by simp [he]))]

/-- **C74**: so does regridding any number of times. -/
theorem C74_history_partial (S : Setting K P) (hS : S.Ok) (qs qs' : List (List (Path 4))) (D D' : World) (h : Regrids S qs D qs' D')
    (hv : ∀ i : Nat, ∀ q ∈ qs[i]?.getD [], Valid S i q (D i q) ∧ q.length ≤ S.maxlevel) :
    (∀ m, comp S.d m → meshMass S qs' D' m = meshMass S qs D m) ∧
      ∀ i : Nat, ∀ q ∈ qs'[i]?.getD [], Valid S i q (D' i q) ∧ q.length ≤ S.maxlevel := by
  induction h with
  | none => exact ⟨fun _ _ => rfl, hv⟩
  | more D1 D2 E nproc bes mem h0 hd ho hl hr ih =>
    obtain ⟨hm, hv1⟩ := ih
    have eo : ∀ i : Nat, (E.map oldPatches)[i]?.getD [] = oldPatches (E[i]?.getD []) := by
      intro i
      rw [List.getElem?_map]; cases E[i]? <;> rfl
    have en : ∀ i : Nat, (E.map newPatches)[i]?.getD [] = newPatches (E[i]?.getD []) := by
      intro i
      rw [List.getElem?_map]; cases E[i]? <;> rfl
    have hL : Legal S E D1 := by
      refine ⟨ho, fun i q hq => ?_, fun i q hq => ?_, hl⟩
      · exact (hv1 i q (by rw [eo]; exact hq)).1
      · exact (hv1 i q (by rw [eo]; exact hq)).2
    refine ⟨fun m hc => ?_, fun i q hq => ?_⟩
    · rw [C74_mass_partial S hS nproc E bes hd mem D1 D2 hL hr m hc, hm m hc]
    · rw [en] at hq
      exact ⟨C74_valid_partial S hS false nproc E bes hd mem D1 D2 hL hr i q hq, hl i q hq⟩

/-- **C74**: the result depends neither on the number of processes and the distribution of the patches, nor on the contents of
new memory, nor on ghost cells other than those next to faces. -/
theorem C74_same_partial (S : Setting K P) (hS : S.Ok) (init : Bool) (E : List (List (Event 4)))
    (nproc nproc' : Nat) (bes bes' : Nat → List (List (Event 4))) (hd : Distribution nproc E bes) (hd' : Distribution nproc' E bes')
    (mem mem' : Nat → Nat → Nat → Memory P) (D D' N N' : World) (hL : Legal S E D) (hL' : Legal S E D')
    (hs : ∀ i : Nat, ∀ q ∈ oldPatches (E[i]?.getD []), SameAround S (D i q) (D' i q))
    (h : Regridded S init nproc bes mem D N) (h' : Regridded S init nproc' bes' mem' D' N') (i : Nat) :
    ∀ q ∈ newPatches (E[i]?.getD []), SameInside S (N i q) (N' i q) := by
  intro q hq
  obtain ⟨e, he, hq⟩ := List.mem_flatMap.1 hq
  have sub : ∀ q ∈ e.old, q ∈ oldPatches (E[i]?.getD []) := fun q hq => List.mem_flatMap.2 ⟨e, he, hq⟩
  exact event_same S hS init i (D i) (D' i) (N i) (N' i) e (events_did S hS init hd mem D N hL h i e he)
    (events_did S hS init hd' mem' D' N' hL' h' i e he) (fun q hq => hL.valid i q (sub q hq)) (fun q hq => hL'.valid i q (sub q hq))
    (fun q hq => hs i q (sub q hq)) q hq

/-- **C74**: while the initial mesh is built, all patches hold the user's initial values, on every level. -/
theorem C74_init_partial (S : Setting K P) (hS : S.Ok) (nproc : Nat) (E : List (List (Event 4))) (bes : Nat → List (List (Event 4)))
    (hd : Distribution nproc E bes) (mem : Nat → Nat → Nat → Memory P) (D N : World) (hL : Legal S E D)
    (h : Regridded S true nproc bes mem D N)
    (hi : ∀ i : Nat, ∀ q ∈ oldPatches (E[i]?.getD []), ∀ a b m, comp S.d m → interior S.d a b → (D i q).q (a, b, m) = S.init i (quadAt q) (a, b, m))
    (i : Nat) : ∀ q ∈ newPatches (E[i]?.getD []), ∀ a b m, comp S.d m → interior S.d a b → (N i q).q (a, b, m) = S.init i (quadAt q) (a, b, m) := by
  intro q hq a b m hm hab
  obtain ⟨e, he, hq⟩ := List.mem_flatMap.1 hq
  have did := events_did S hS true hd mem D N hL h i e he
  have hin : inFine S.d (a, b, m) := ⟨hm, ⟨hab.1, hab.2.1⟩, hab.2.2⟩
  cases e with
  | keep r =>
    simp only [Event.new, List.mem_singleton] at hq
    subst hq
    rw [did_keep did]
    exact hi i q (List.mem_flatMap.2 ⟨_, he, by simp [Event.old]⟩) a b m hm hab
  | refine r =>
    have F := did_refine did
    simp only [Event.new, children_eq, List.mem_cons, List.not_mem_nil, or_false] at hq
    rcases hq with rfl | rfl | rfl | rfl
    · exact F.init rfl 0 (by omega) (by omega) _ hin
    · exact F.init rfl 1 (by omega) (by omega) _ hin
    · exact F.init rfl 2 (by omega) (by omega) _ hin
    · exact F.init rfl 3 (by omega) (by omega) _ hin
  | coarsen r =>
    simp only [Event.new, List.mem_singleton] at hq
    subst hq
    exact (did_coarsen did).init rfl _ hin

/-! ### Examples -/

/-- A stretched square, 8 by 8 cells in a patch. -/
def stretched : Map ℚ (ℚ × ℚ) ℚ := ⟨fun x y => (x + x ^ 3, y), false, fun p00 p10 p01 _ => (p10.1 - p00.1) * (p01.2 - p00.2)⟩

def mapped : Setting ℚ (ℚ × ℚ) := ⟨⟨8, 8, 2, 2⟩, true, fun _ => stretched, 3, 1, fun _ _ _ _ => 0, fun _ Q c => Q.x + c.1⟩

def flat : Setting ℚ (ℚ × ℚ) := { mapped with manifold := false }

theorem stretched_small (h k : ℚ) (hh : 0 < h) (hk : 0 < k) (X Y : ℤ) : 0 < small stretched h k X Y := by
  have e : small stretched h k X Y = (h * (1 + h ^ 2 * ((X + 1 / 2) ^ 2 * 3 + 1 / 4))) * k := by
    simp only [small, stretched]
    push_cast
    ring
  rw [e]
  positivity

theorem mapped_ok : mapped.Ok := by
  have hE : Even2 mapped.d := ⟨by decide, by decide, by decide, by decide⟩
  have hs : ∀ i, Splits (mapped.map i) := fun i h => by cases h
  refine ⟨hE, rfl, by decide, by norm_num [mapped], fun _ => hs, ?_⟩
  intro _ i Q a hb c hc
  rw [built_value hE rfl (by decide) (hs i) hb c (stored_coarse hc)]
  unfold value block
  refine Finset.sum_pos (fun X _ => Finset.sum_pos (fun Y _ => ?_) ?_) ?_
  · exact stretched_small _ _ (by norm_num [mapped]) (by norm_num [mapped]) X Y
  · rw [Finset.nonempty_Ico]
    have : (0 : ℤ) < (2 ^ (mapped.maxlevel - Q.level) : Nat) := by positivity
    nlinarith
  · rw [Finset.nonempty_Ico]
    have : (0 : ℤ) < (2 ^ (mapped.maxlevel - Q.level) : Nat) := by positivity
    nlinarith

theorem flat_ok : flat.Ok :=
  ⟨mapped_ok.even, mapped_ok.square, mapped_ok.mbc, mapped_ok.unit, fun h => (nomatch h), fun h => (nomatch h)⟩

/-- Two blocks: in the first one, a patch is refined, a family is merged, and two patches stay. -/
def sample : List (List (Event 4)) := [[.refine [0], .coarsen [1], .keep [2], .keep [3]], [.keep []]]

/-- On two processes. -/
def sampleOn : Nat → List (List (Event 4))
  | 0 => [[.refine [0], .coarsen [1]], []]
  | _ => [[.keep [2], .keep [3]], [.keep []]]

theorem sample_distribution : Distribution 2 sample sampleOn := by
  refine ⟨fun p hp => ?_, fun i => ?_⟩
  · interval_cases p <;> rfl
  · match i with
    | 0 => rfl
    | 1 => rfl
    | _ + 2 => rfl

theorem sample_one : Distribution 1 sample (fun _ => sample) := by
  refine ⟨fun p hp => rfl, fun i => ?_⟩
  simp [List.range_succ]

theorem sample_legal : ∃ D, Legal mapped sample D := by
  have H : ∀ (i : Nat) (q : Path 4), ∃ p, q.length ≤ 3 → Valid mapped i q p := by
    intro i q
    by_cases hl : q.length ≤ 3
    · obtain ⟨p, _, h, _⟩ := buildPatch_spec mapped mapped_ok i q hl ⟨fun _ => 0, fun _ => 0, fun _ => (0, 0)⟩
      exact ⟨p, fun _ => h⟩
    · exact ⟨⟨fun _ => 0, fun _ => 0, Correction.Regs.empty (fun _ _ => 0) (fun _ _ => 0)⟩, fun h => absurd h hl⟩
  choose D hD using H
  have lo : ∀ i : Nat, ∀ q ∈ oldPatches (sample[i]?.getD []), q.length ≤ 3 := by
    intro i
    match i with
    | 0 => decide
    | 1 => decide
    | _ + 2 => intro q hq; cases hq
  have ln : ∀ i : Nat, ∀ q ∈ newPatches (sample[i]?.getD []), q.length ≤ 3 := by
    intro i
    match i with
    | 0 => decide
    | 1 => decide
    | _ + 2 => intro q hq; cases hq
  refine ⟨D, fun i => ?_, fun i q hq => hD i q (lo i q hq), lo, ln⟩
  match i with
  | 0 => decide
  | 1 => decide
  | _ + 2 => exact List.nodup_nil

/-- Regridding this mesh on two processes and on one. -/
example : ∃ D N N', Legal mapped sample D ∧ Regridded mapped false 2 sampleOn (fun _ _ _ => ⟨fun _ => 5, fun _ => 7, fun _ => (1, 1)⟩) D N ∧
    Regridded mapped false 1 (fun _ => sample) (fun _ _ _ => ⟨fun _ => 0, fun _ => 0, fun _ => (0, 0)⟩) D N' ∧
    (∀ i : Nat, ∀ q ∈ newPatches (sample[i]?.getD []), SameInside mapped (N i q) (N' i q)) ∧
    meshMass mapped (sample.map newPatches) N 1 = meshMass mapped (sample.map oldPatches) D 1 := by
  obtain ⟨D, hL⟩ := sample_legal
  obtain ⟨N, hN⟩ := C74_progress_partial mapped mapped_ok false 2 sample sampleOn sample_distribution
    (fun _ _ _ => ⟨fun _ => 5, fun _ => 7, fun _ => (1, 1)⟩) D hL
  obtain ⟨N', hN'⟩ := C74_progress_partial mapped mapped_ok false 1 sample (fun _ => sample) sample_one
    (fun _ _ _ => ⟨fun _ => 0, fun _ => 0, fun _ => (0, 0)⟩) D hL
  refine ⟨D, N, N', hL, hN, hN', ?_, ?_⟩
  · exact C74_same_partial mapped mapped_ok false sample 2 1 sampleOn _ sample_distribution sample_one _ _ D D N N' hL hL
      (fun _ _ _ => ⟨fun _ _ _ _ _ => rfl, rfl⟩) hN hN'
  · exact C74_mass_partial mapped mapped_ok 2 sample sampleOn sample_distribution _ D N hL hN 1 (by constructor <;> decide)

/-- Without a map nothing is asked of the areas. -/
example (D : World) : ∀ (i : Nat) (q : Path 4), Valid flat i q (D i q) := fun _ _ h => by cases h

end Fclaw.Repopulate
