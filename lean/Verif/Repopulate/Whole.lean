/-
All processes.
-/
import Verif.Repopulate.Blocks

set_option autoImplicit false
set_option linter.unusedSimpArgs false
set_option linter.unusedVariables false
set_option linter.unusedSectionVars false
namespace Fclaw.Repopulate

open Fort CopyGhost Transfer Adapt Metric
open Fclaw.Domain (Path)

variable {K P : Type} [Field K] [CharZero K]

theorem new_at (es : List (Event 4)) (k : Nat) (e : Event 4) (hk : es[k]? = some e) (n : Nat) (hn : n < e.new.length) :
    (newPatches es)[(newPatches (es.take k)).length + n]? = e.new[n]? := by
  have hsplit : es = es.take k ++ e :: es.drop (k + 1) := by
    obtain ⟨h1, h2⟩ := List.getElem?_eq_some_iff.1 hk
    rw [← h2]; simp
  conv_lhs => rw [hsplit]
  have : newPatches (es.take k ++ e :: es.drop (k + 1)) = newPatches (es.take k) ++ (e.new ++ newPatches (es.drop (k + 1))) := by
    simp [newPatches]
  rw [this]
  have t : (es.take k ++ e :: es.drop (k + 1)).take k = es.take k := by rw [← hsplit]
  rw [t, List.getElem?_append_right (by omega), List.getElem?_append_left (by omega)]
  congr 1
  omega

theorem mem_events {nproc : Nat} {E : List (List (Event 4))} {bes : Nat → List (List (Event 4))} (hd : Distribution nproc E bes)
    (i : Nat) (e : Event 4) : e ∈ E[i]?.getD [] ↔ ∃ p < nproc, e ∈ (bes p)[i]?.getD [] := by
  rw [hd.all i]
  simp

theorem old_sub {nproc : Nat} {E : List (List (Event 4))} {bes : Nat → List (List (Event 4))} (hd : Distribution nproc E bes)
    (p : Nat) (hp : p < nproc) (i : Nat) (q : Path 4) (h : q ∈ oldPatches ((bes p)[i]?.getD [])) : q ∈ oldPatches (E[i]?.getD []) := by
  unfold oldPatches at h ⊢
  rw [List.mem_flatMap] at h ⊢
  obtain ⟨e, he, hq⟩ := h
  exact ⟨e, (mem_events hd i e).2 ⟨p, hp, he⟩, hq⟩

theorem new_sub {nproc : Nat} {E : List (List (Event 4))} {bes : Nat → List (List (Event 4))} (hd : Distribution nproc E bes)
    (p : Nat) (hp : p < nproc) (i : Nat) (q : Path 4) (h : q ∈ newPatches ((bes p)[i]?.getD [])) : q ∈ newPatches (E[i]?.getD []) := by
  unfold newPatches at h ⊢
  rw [List.mem_flatMap] at h ⊢
  obtain ⟨e, he, hq⟩ := h
  exact ⟨e, (mem_events hd i e).2 ⟨p, hp, he⟩, hq⟩

theorem new_flat {nproc : Nat} {E : List (List (Event 4))} {bes : Nat → List (List (Event 4))} (hd : Distribution nproc E bes)
    (i : Nat) : newPatches (E[i]?.getD []) = (List.range nproc).flatMap fun p => newPatches ((bes p)[i]?.getD []) := by
  unfold newPatches
  rw [hd.all i, List.flatMap_assoc]

/-- Every event does its work. -/
theorem events_did (S : Setting K P) (hS : S.Ok) (init : Bool) {nproc : Nat} {E : List (List (Event 4))}
    {bes : Nat → List (List (Event 4))} (hd : Distribution nproc E bes) (mem : Nat → Nat → Nat → Memory P) (D N : World)
    (hL : Legal S E D) (h : Regridded S init nproc bes mem D N) (i : Nat) (e : Event 4) (he : e ∈ E[i]?.getD []) :
    Did S init i e (fun n => (e.old[n]?).map (D i)) (fun n => (e.new[n]?).map (N i)) := by
  obtain ⟨p, hp, hm⟩ := (mem_events hd i e).1 he
  obtain ⟨k, hk⟩ := List.getElem?_of_mem hm
  obtain ⟨st, es, _, hn⟩ := h p hp
  obtain ⟨st', es', did, _, _⟩ := process_spec S hS (mem p) init D (bes p)
    (fun i q hq => hL.valid i q (old_sub hd p hp i q hq)) (fun i q hq => hL.levelOld i q (old_sub hd p hp i q hq))
    (fun i q hq => hL.level i q (new_sub hd p hp i q hq))
  rw [es] at es'
  cases es'
  refine did_congr S init i e _ _ _ _ (fun _ _ => rfl) ?_ (did i k e hk)
  intro n hlt
  beta_reduce
  rw [hn, new_at _ k e hk n hlt]

theorem map_some_inj {a b : Patch} (h : some a = some b) : a = b := by cases h; rfl

theorem four {p : ℤ → Prop} (h0 : p 0) (h1 : p 1) (h2 : p 2) (h3 : p 3) : ∀ g, 0 ≤ g → g ≤ 3 → p g := by
  intro g a b
  interval_cases g <;> assumption

theorem did_keep {S : Setting K P} {init : Bool} {i : Nat} {q : Path 4} {D N : Path 4 → Patch}
    (h : Did S init i (.keep q) (fun n => ((Event.keep q).old[n]?).map D) (fun n => ((Event.keep q).new[n]?).map N)) : N q = D q := by
  have h' : some (N q) = some (D q) := h
  exact map_some_inj h'

theorem fine_congr {S : Setting K P} {init : Bool} {i : Nat} {q : Path 4} {c : Patch} {f f' : ℤ → Patch}
    (e : ∀ g, 0 ≤ g → g ≤ 3 → f g = f' g) (h : Fine S init i q c f) : Fine S init i q c f' := by
  refine ⟨fun g a b => ?_, fun hi g hg x hx => ?_, fun hi g a b x hx => ?_⟩
  · rw [← e g a b]; exact h.fresh g a b
  · have := h.values hi g hg x hx
    rw [e g hg.1 hg.2] at this
    rw [this]
    unfold refined
    beta_reduce
    rw [e g hg.1 hg.2]
  · rw [← e g a b]; exact h.init hi g a b x hx

theorem did_refine {S : Setting K P} {init : Bool} {i : Nat} {q : Path 4} {D N : Path 4 → Patch}
    (h : Did S init i (.refine q) (fun n => ((Event.refine q).old[n]?).map D) (fun n => ((Event.refine q).new[n]?).map N)) :
    Fine S init i q (D q) (fun g => N (childPath q g)) := by
  obtain ⟨f, ⟨e0, e1, e2, e3⟩, hf⟩ := h (D q) rfl
  have h0 : N (childPath q 0) = f 0 := map_some_inj e0
  have h1 : N (childPath q 1) = f 1 := map_some_inj e1
  have h2 : N (childPath q 2) = f 2 := map_some_inj e2
  have h3 : N (childPath q 3) = f 3 := map_some_inj e3
  exact fine_congr (four h0.symm h1.symm h2.symm h3.symm) hf

theorem did_coarsen {S : Setting K P} {init : Bool} {i : Nat} {q : Path 4} {D N : Path 4 → Patch}
    (h : Did S init i (.coarsen q) (fun n => ((Event.coarsen q).old[n]?).map D) (fun n => ((Event.coarsen q).new[n]?).map N)) :
    Coarse S init i q (fun g => D (childPath q g)) (N q) := by
  obtain ⟨c, e, hc⟩ := h (fun g => D (childPath q g)) ⟨rfl, rfl, rfl, rfl⟩
  have h0 : N q = c := map_some_inj e
  rw [h0]
  exact hc

/-! ### Mass -/

theorem massIn_congr (d : Dims) (kf kf' : ℤ → Area) (f f' : ℤ → Grid ℚ) (m : ℤ)
    (hk : ∀ g, 0 ≤ g ∧ g ≤ 3 → ∀ c ∈ coarseCells d, kf g c = kf' g c)
    (h : ∀ g, 0 ≤ g ∧ g ≤ 3 → ∀ c ∈ coarseCells d, f g (c.1, c.2, m) = f' g (c.1, c.2, m)) (C : ℤ × ℤ) :
    massIn d kf f m C = massIn d kf' f' m C := by
  unfold massIn
  refine Finset.sum_congr rfl ?_
  rintro ⟨g, a, b⟩ hc
  rw [Finset.mem_filter, mem_fineCells] at hc
  unfold fineMass
  dsimp only
  rw [hk g hc.1.1 (a, b) ((mem_coarseCells ..).2 hc.1.2), h g hc.1.1 (a, b) ((mem_coarseCells ..).2 hc.1.2)]

theorem mass_fine {S : Setting K P} (hS : S.Ok) {i : Nat} {q : Path 4} {c : Patch} {f : ℤ → Patch} (hc : Valid S i q c)
    (h : Fine S false i q c f) (m : ℤ) (hm : comp S.d m) (C : ℤ × ℤ) (hC : C ∈ coarseCells S.d) :
    massIn S.d (fun g => areaOf S (childPath q g) (f g)) (fun g => (f g).q) m C = coarseMass (areaOf S q c) c.q m C := by
  have hA := areas_ok S hS i q c f hc (fun g a b => (h.fresh g a b).1)
  obtain ⟨w, hw⟩ := C38 S.d hS.even hS.mbc _ _ _ hA c.q
  obtain ⟨fs, e, _, hmass, _⟩ := hw (fun g => (f g).q)
  obtain ⟨fs', e', hv⟩ := refine_sets S.d hS.even hS.mbc _ _ _ hA c.q (fun g => (f g).q)
  rw [e] at e'
  cases e'
  rw [← hmass m hm C hC]
  refine massIn_congr S.d _ _ _ _ m (fun _ _ _ _ => rfl) ?_ C
  intro g hg x hx
  obtain ⟨a, b⟩ := x
  have hx' := (mem_coarseCells ..).1 hx
  have hin : inFine S.d (a, b, m) := ⟨hm, hx'.1, hx'.2⟩
  beta_reduce
  rw [h.values rfl g hg _ hin, hv g hg _ hin]

theorem mass_coarse {S : Setting K P} (hS : S.Ok) {i : Nat} {q : Path 4} {c : Patch} {f : ℤ → Patch}
    (hf : ∀ g, 0 ≤ g → g ≤ 3 → Valid S i (childPath q g) (f g))
    (h : Coarse S false i q f c) (m : ℤ) (hm : comp S.d m) (C : ℤ × ℤ) (hC : C ∈ coarseCells S.d) :
    coarseMass (areaOf S q c) c.q m C = massIn S.d (fun g => areaOf S (childPath q g) (f g)) (fun g => (f g).q) m C := by
  have hA := areas_ok S hS i q c f h.fresh.1 hf
  have hp := ne_of_gt (hA.1 C hC)
  unfold coarseMass
  rw [h.values rfl m hm C hC]
  field_simp

theorem family_mass (S : Setting K P) (hS : S.Ok) (q : Path 4) (f : ℤ → Patch) (m : ℤ) :
    ∑ C ∈ coarseCells S.d, massIn S.d (fun g => areaOf S (childPath q g) (f g)) (fun g => (f g).q) m C =
      patchMass S (childPath q 0) (f 0) m + (patchMass S (childPath q 1) (f 1) m +
        (patchMass S (childPath q 2) (f 2) m + patchMass S (childPath q 3) (f 3) m)) := by
  rw [total_massIn S.d hS.even]
  have e : fineCells S.d = Finset.Icc (0 : ℤ) 3 ×ˢ coarseCells S.d := rfl
  rw [e, Finset.sum_product]
  have e4 : Finset.Icc (0 : ℤ) 3 = {0, 1, 2, 3} := by decide
  rw [e4, Finset.sum_insert (by decide), Finset.sum_insert (by decide), Finset.sum_insert (by decide), Finset.sum_singleton]
  rfl

/-- The mass of the patches of one event. -/
theorem event_mass (S : Setting K P) (hS : S.Ok) (i : Nat) (D N : Path 4 → Patch) (e : Event 4) (hb : Becomes S i D N e)
    (m : ℤ) (hm : comp S.d m) :
    (e.new.map fun q => patchMass S q (N q) m).sum = (e.old.map fun q => patchMass S q (D q) m).sum := by
  cases e with
  | keep q =>
    have h : N q = D q := hb
    simp [Event.new, Event.old, h]
  | refine q =>
    have h := Finset.sum_congr rfl (hb.2 m hm)
    rw [family_mass S hS q (fun g => N (childPath q g))] at h
    simp only [Event.new, Event.old, children_eq, List.map_cons, List.map_nil, List.sum_cons, List.sum_nil, add_zero]
    exact h
  | coarsen q =>
    have h := Finset.sum_congr rfl (hb.2 m hm)
    rw [family_mass S hS q (fun g => D (childPath q g))] at h
    simp only [Event.new, Event.old, children_eq, List.map_cons, List.map_nil, List.sum_cons, List.sum_nil, add_zero]
    exact h

/-! ### Independence -/

theorem valid_area {S : Setting K P} (hS : S.Ok) {i : Nat} {q : Path 4} {p p' : Patch} (h : Valid S i q p) (h' : Valid S i q p') :
    ∀ c ∈ coarseCells S.d, areaOf S q p c = areaOf S q p' c := by
  intro c hc
  unfold areaOf
  by_cases e : S.manifold = true
  · have hm := hS.mbc
    rw [if_pos e, if_pos e]
    rw [built_value hS.even hS.square (by omega) (hS.splits e i) (h e) c (stored_coarse hc),
      built_value hS.even hS.square (by omega) (hS.splits e i) (h' e) c (stored_coarse hc)]
  · rw [if_neg e, if_neg e]

theorem alongFaces_congr (d : Dims) (hE : Even2 d) (a a' : Area) (h : ∀ c ∈ coarseCells d, a c = a' c) : alongFaces d a = alongFaces d a' := by
  obtain ⟨h1, h2, _, _⟩ := hE
  funext f t
  unfold alongFaces
  split
  · rename_i ht
    apply h
    unfold Correction.len at ht
    unfold Correction.cellAt
    by_cases f0 : f = 0
    · subst f0
      simp at ht
      rw [if_pos rfl, mem_coarseCells]
      omega
    · by_cases f1 : f = 1
      · subst f1
        simp at ht
        rw [if_neg (by omega), if_pos rfl, mem_coarseCells]
        omega
      · have : ¬ f / 2 = 0 := by omega
        rw [if_neg this] at ht
        rw [if_neg f0, if_neg f1]
        split <;> rw [mem_coarseCells] <;> omega
  · rfl

theorem fresh_same {S : Setting K P} (hS : S.Ok) {i : Nat} {q : Path 4} {p p' : Patch} (h : Valid S i q p ∧ FreshReg S i q p)
    (h' : Valid S i q p' ∧ FreshReg S i q p') : p.reg = p'.reg := by
  have e := h.2
  have e' := h'.2
  unfold FreshReg at e e'
  rw [e, e', alongFaces_congr S.d hS.even _ _ (valid_area hS h.1 h'.1)]

theorem refined_congr (d : Dims) (hE : Even2 d) (kc kc' : Area) (kf kf' : ℤ → Area) (man : ℤ) (q q' : Grid ℚ) (g : ℤ) (hg : 0 ≤ g ∧ g ≤ 3)
    (hc : ∀ c ∈ coarseCells d, kc c = kc' c) (hf : ∀ c ∈ coarseCells d, kf g c = kf' g c)
    (hq : ∀ i j m, comp d m → nearby d i j → q (i, j, m) = q' (i, j, m)) (x : Cell) (hx : inFine d x) :
    refined d kc kf man q g x = refined d kc' kf' man q' g x := by
  obtain ⟨h1, h2, h3, h4⟩ := hE
  have key : ∀ y, inFine d y → interpValue d q g y = interpValue d q' g y := by
    rintro ⟨a, b, m⟩ ⟨hm, ha, hb⟩
    dsimp only at hm ha hb
    unfold interpValue
    dsimp only
    have g2 : g % 2 = 0 ∨ g % 2 = 1 := by omega
    have g3 : g / 2 = 0 ∨ g / 2 = 1 := by omega
    rcases g2 with g2 | g2 <;> rcases g3 with g3 | g3 <;> rw [g2, g3] <;>
    rw [hq _ _ m hm (by unfold nearby; omega), hq _ _ m hm (by unfold nearby; omega), hq _ _ m hm (by unfold nearby; omega),
      hq _ _ m hm (by unfold nearby; omega), hq _ _ m hm (by unfold nearby; omega)]
  unfold refined
  split
  · exact key x hx
  · obtain ⟨a, b, m⟩ := x
    have hx' := hx
    obtain ⟨hm, ha, hb⟩ := hx'
    dsimp only at hm ha hb
    unfold corrected sum4
    dsimp only
    rw [key _ hx]
    rw [key (2 * ((a + 1) / 2) - 1, 2 * ((b + 1) / 2) - 1, m) ⟨hm, by dsimp only; omega, by dsimp only; omega⟩,
      key (2 * ((a + 1) / 2) - 1, 2 * ((b + 1) / 2), m) ⟨hm, by dsimp only; omega, by dsimp only; omega⟩,
      key (2 * ((a + 1) / 2), 2 * ((b + 1) / 2) - 1, m) ⟨hm, by dsimp only; omega, by dsimp only; omega⟩,
      key (2 * ((a + 1) / 2), 2 * ((b + 1) / 2), m) ⟨hm, by dsimp only; omega, by dsimp only; omega⟩]
    rw [hf (a, b) ((mem_coarseCells ..).2 ⟨ha, hb⟩),
      hf (2 * ((a + 1) / 2) - 1, 2 * ((b + 1) / 2) - 1) ((mem_coarseCells ..).2 ⟨by omega, by omega⟩),
      hf (2 * ((a + 1) / 2) - 1, 2 * ((b + 1) / 2)) ((mem_coarseCells ..).2 ⟨by omega, by omega⟩),
      hf (2 * ((a + 1) / 2), 2 * ((b + 1) / 2) - 1) ((mem_coarseCells ..).2 ⟨by omega, by omega⟩),
      hf (2 * ((a + 1) / 2), 2 * ((b + 1) / 2)) ((mem_coarseCells ..).2 ⟨by omega, by omega⟩)]
    have g2 : g % 2 = 0 ∨ g % 2 = 1 := by omega
    have g3 : g / 2 = 0 ∨ g / 2 = 1 := by omega
    rcases g2 with g2 | g2 <;> rcases g3 with g3 | g3 <;> rw [g2, g3] <;>
    rw [hq _ _ m hm (by unfold nearby; omega), hc _ ((mem_coarseCells ..).2 ⟨by omega, by omega⟩)]

/-- One event on two sets of data. -/
theorem event_same (S : Setting K P) (hS : S.Ok) (init : Bool) (i : Nat) (D D' N N' : Path 4 → Patch) (e : Event 4)
    (h : Did S init i e (fun n => (e.old[n]?).map D) (fun n => (e.new[n]?).map N))
    (h' : Did S init i e (fun n => (e.old[n]?).map D') (fun n => (e.new[n]?).map N'))
    (v : ∀ q ∈ e.old, Valid S i q (D q)) (v' : ∀ q ∈ e.old, Valid S i q (D' q))
    (hs : ∀ q ∈ e.old, SameAround S (D q) (D' q)) : ∀ q ∈ e.new, SameInside S (N q) (N' q) := by
  have sub : ∀ i j, interior S.d i j → nearby S.d i j := by
    intro i j h
    unfold CopyGhost.interior at h
    unfold nearby
    omega
  cases e with
  | keep q =>
    intro r hr
    simp only [Event.new, List.mem_singleton] at hr
    subst hr
    rw [did_keep h, did_keep h']
    have := hs r (by simp [Event.old])
    exact ⟨fun a b m hm hi => this.q a b m hm (sub a b hi), this.reg⟩
  | refine q =>
    have F := did_refine h
    have F' := did_refine h'
    have hq : q ∈ (Event.refine q).old := by simp [Event.old]
    have key : ∀ g, 0 ≤ g → g ≤ 3 → SameInside S (N (childPath q g)) (N' (childPath q g)) := by
      intro g a b
      refine ⟨fun x y m hm hi => ?_, fresh_same hS (F.fresh g a b) (F'.fresh g a b)⟩
      have hin : inFine S.d (x, y, m) := ⟨hm, ⟨hi.1, hi.2.1⟩, hi.2.2⟩
      rcases Bool.eq_false_or_eq_true init with hb | hb
      · have e1 := F.init hb g a b _ hin
        have e2 := F'.init hb g a b _ hin
        beta_reduce at e1 e2
        rw [e1, e2]
      · have e1 := F.values hb g ⟨a, b⟩ _ hin
        have e2 := F'.values hb g ⟨a, b⟩ _ hin
        beta_reduce at e1 e2
        rw [e1, e2]
        exact refined_congr S.d hS.even _ _ _ _ _ _ _ g ⟨a, b⟩ (valid_area hS (v q hq) (v' q hq))
          (valid_area hS (F.fresh g a b).1 (F'.fresh g a b).1) (hs q hq).q _ hin
    intro r hr
    simp only [Event.new, children_eq, List.mem_cons, List.not_mem_nil, or_false] at hr
    rcases hr with rfl | rfl | rfl | rfl <;> apply key <;> omega
  | coarsen q =>
    have F := did_coarsen h
    have F' := did_coarsen h'
    have hmem : ∀ g : ℤ, 0 ≤ g → g ≤ 3 → childPath q g ∈ (Event.coarsen q).old := by
      intro g a b
      simp only [Event.old, children_eq]
      interval_cases g <;> simp
    intro r hr
    simp only [Event.new, List.mem_singleton] at hr
    subst hr
    refine ⟨fun x y m hm hi => ?_, fresh_same hS F.fresh F'.fresh⟩
    have hin : inFine S.d (x, y, m) := ⟨hm, ⟨hi.1, hi.2.1⟩, hi.2.2⟩
    have hC : (x, y) ∈ coarseCells S.d := (mem_coarseCells ..).2 ⟨⟨hi.1, hi.2.1⟩, hi.2.2⟩
    rcases Bool.eq_false_or_eq_true init with hb | hb
    · rw [F.init hb _ hin, F'.init hb _ hin]
    · have e1 := F.values hb m hm (x, y) hC
      have e2 := F'.values hb m hm (x, y) hC
      dsimp only at e1 e2
      rw [e1, e2, valid_area hS F.fresh.1 F'.fresh.1 _ hC]
      congr 1
      refine massIn_congr S.d _ _ _ _ m ?_ ?_ _
      · intro g hg c hc
        exact valid_area hS (v _ (hmem g hg.1 hg.2)) (v' _ (hmem g hg.1 hg.2)) c hc
      · rintro g hg ⟨a, b⟩ hc
        rw [mem_coarseCells] at hc
        exact (hs _ (hmem g hg.1 hg.2)).q a b m hm (sub a b ⟨hc.1.1, hc.1.2, hc.2⟩)

end Fclaw.Repopulate
