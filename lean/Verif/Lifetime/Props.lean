/-
C75: a whole run conserves mass.
-/
import Verif.Lifetime.Lemmas

set_option autoImplicit false
set_option linter.unusedSimpArgs false
set_option linter.unusedVariables false
set_option linter.unusedSectionVars false
namespace Fclaw.Lifetime

open Fort CopyGhost Transfer Adapt Metric Repopulate
open Fclaw.Domain (Path)
open Fclaw.Partition (localPart blockStart)

variable {K P : Type} [Field K] [CharZero K]

theorem sized_of (S : Setting K P) (hS : S.Ok) : Correction.Sized S.d :=
  ⟨hS.even.2.2.1, hS.even.2.2.2, hS.even.1, hS.even.2.1, hS.mbc⟩

theorem life_spec (S : Setting K P) (hS : S.Ok) (hp : CopyGhost.Proper S.d) (bd : Nat → Path 4 → Nat → Bool) (rpn : Correction.Rpn)
    (qs0 qs : List (List (Path 4))) (D0 D : Repopulate.World) (B : ℤ → ℚ) (h0 : Starts S qs0 D0) (h : Life S bd rpn qs0 D0 qs D B) :
    Inv S qs D ∧ (∀ m, comp S.d m → meshMass S qs D m = meshMass S qs0 D0 m + B m) ∧
      ((∀ i q f, bd i q f = false) → ∀ m, B m = 0) := by
  induction h with
  | start =>
    exact ⟨⟨h0.once, h0.level, fun i q hq => (h0.fresh i q hq).1, fun i q hq => fresh_settled (h0.fresh i q hq).2⟩,
      fun m _ => by simp, fun _ _ => rfl⟩
  | advance qs D D' B B' M L place G minl top W0 W W' _ hsh hL hlev hW0 hH hsync hD' ih =>
    obtain ⟨I, Im, Ib⟩ := ih
    have htop : ∀ x ∈ M.patches, M.level x ≤ top := fun x hx => (hlev x hx).2
    have hin : ∀ x ∈ M.patches, (place x).2 ∈ qs[(place x).1]?.getD [] := fun x hx => (hsh.all _ _).2 ⟨x, hx, rfl⟩
    have hb0 : ∀ x ∈ M.patches, Correction.Balanced S.d (W0.r x) := by
      intro x hx
      rw [(hW0 x hx).2]
      exact (I.settled _ _ (hin x hx)).balanced
    have ha0 : ∀ x ∈ M.patches, Correction.HasAreas S.d (G x) (W0.r x) := by
      intro x hx f hf t ht
      rw [(hW0 x hx).2, (I.settled _ _ (hin x hx)).areas f hf t ht, hsh.areas x hx _ (cellAt_mem S.d hS.even f hf t ht)]
    obtain ⟨b1, a1, m1⟩ := Conserve.history_general (sized_of S hS) hp M hsh.ok hsh.nodup L hL G rpn top htop W0 W B' hb0 ha0 hH
    obtain ⟨b2, a2, z2, m2⟩ := Conserve.sync_mass (sized_of S hS) hp M hsh.ok hsh.nodup L hL G minl top htop W W' b1 a1 hsync
    have done : ∀ x ∈ M.patches, ∀ f < 4, TimeSync.Done M minl x f := by
      intro x hx f hf
      refine ⟨(hlev x hx).1, ?_⟩
      intro y rf g hk e
      refine (hlev y (hsh.ok.closed x hx y ?_)).1
      unfold GhostFill.nbrs
      rw [List.mem_append]
      left
      rw [List.mem_flatMap]
      exact ⟨f, (GhostFill.mem_numbers _).2 hf, by rw [e]; simp [GhostFill.faceList]⟩
    have zero : ∀ x ∈ M.patches, ∀ f < 4, ∀ m, Correction.gainFace S.d (W'.r x) f m = 0 := fun x hx f hf => z2 x hx f hf (done x hx f hf)
    refine ⟨⟨I.once, I.level, ?_, ?_⟩, ?_, ?_⟩
    · intro i q hq
      obtain ⟨x, hx, e⟩ := (hsh.all i q).1 hq
      have := hD' x hx
      rw [e] at this
      intro hm
      rw [this]
      exact I.valid i q hq hm
    · intro i q hq
      obtain ⟨x, hx, e⟩ := (hsh.all i q).1 hq
      have hd := hD' x hx
      have har := hsh.areas x hx
      rw [e] at hd har
      refine ⟨?_, ?_, ?_⟩
      · rw [hd]; exact b2 x hx
      · intro f hf t ht
        have := a2 x hx f hf t ht
        rw [har _ (cellAt_mem S.d hS.even f hf t ht)] at this
        rw [hd]
        dsimp only at this ⊢
        rw [this]
        rfl
      · intro f hf m
        rw [hd]; exact zero x hx f hf m
    · intro m hm
      have e1 := total_eq S bd qs I.once D D M place G hsh W0 (fun x hx => ⟨rfl, (hW0 x hx).1⟩) m
      have e2 := total_eq S bd qs I.once D D' M place G hsh W' (fun x hx => by rw [hD' x hx]; exact ⟨rfl, rfl⟩) m
      have p0 : Conserve.pending S.d M W0 m = 0 := by
        refine Finset.sum_eq_zero fun x hx => Finset.sum_eq_zero fun f hf => ?_
        rw [List.mem_toFinset] at hx
        rw [Finset.mem_filter, Finset.mem_range] at hf
        rw [(hW0 x hx).2]
        exact (I.settled _ _ (hin x hx)).zero f hf.1 m
      have p2 : Conserve.pending S.d M W' m = 0 := by
        refine Finset.sum_eq_zero fun x hx => Finset.sum_eq_zero fun f hf => ?_
        rw [List.mem_toFinset] at hx
        rw [Finset.mem_filter, Finset.mem_range] at hf
        exact zero x hx f hf.1 m
      have := m1 m hm
      have := m2 m hm
      have := Im m hm
      rw [← e2]
      rw [← e1] at this
      linarith
    · intro hbd m
      beta_reduce
      rw [Ib hbd m, zero_add]
      exact no_inflow hH (fun x hx f hf => by rw [hsh.boundary x hx f hf]; exact hbd _ _ _) m
  | ghosts qs D D' B _ hg ih =>
    obtain ⟨I, Im, Ib⟩ := ih
    refine ⟨⟨I.once, I.level, fun i q hq => ?_, fun i q hq => ?_⟩, fun m hm => ?_, Ib⟩
    · intro hm
      rw [(hg i q hq).1]
      exact I.valid i q hq hm
    · have s := I.settled i q hq
      obtain ⟨g1, g2, _⟩ := hg i q hq
      refine ⟨by rw [g2]; exact s.balanced, fun f hf t ht => ?_, fun f hf m => by rw [g2]; exact s.zero f hf m⟩
      rw [g2, s.areas f hf t ht]
      unfold areaOf
      rw [g1]
    · rw [← Im m hm]
      refine mesh_congr S qs D D' m fun i q hq => patchMass_congr S q _ _ m (fun c _ => ?_) (hg i q hq).2.2
      unfold areaOf
      rw [(hg i q hq).1]
  | regrid D N B E nproc bes mem _ hd hn hl hr ih =>
    obtain ⟨I, Im, Ib⟩ := ih
    have eo : ∀ i : Nat, (E.map oldPatches)[i]?.getD [] = oldPatches (E[i]?.getD []) := by
      intro i
      rw [List.getElem?_map]; cases E[i]? <;> rfl
    have en : ∀ i : Nat, (E.map newPatches)[i]?.getD [] = newPatches (E[i]?.getD []) := by
      intro i
      rw [List.getElem?_map]; cases E[i]? <;> rfl
    have hL : Legal S E D := ⟨hn, fun i q hq => I.valid i q (by rw [eo]; exact hq), fun i q hq => I.level i q (by rw [eo]; exact hq), hl⟩
    refine ⟨⟨fun i => by rw [en]; exact hn i, fun i q hq => hl i q (by rw [← en]; exact hq),
      fun i q hq => C74_valid_partial S hS false nproc E bes hd mem D N hL hr i q (by rw [← en]; exact hq), ?_⟩, fun m hm => ?_, Ib⟩
    · intro i q hq
      rw [en] at hq
      obtain ⟨e, he, hq⟩ := List.mem_flatMap.1 hq
      have hb := C74_events_partial S hS nproc E bes hd mem D N hL hr i e he
      cases e with
      | keep r =>
        simp only [Event.new, List.mem_singleton] at hq
        subst hq
        have hb' : N i q = D i q := hb
        rw [hb']
        refine I.settled i q ?_
        rw [eo]
        exact List.mem_flatMap.2 ⟨_, he, by simp [Event.old]⟩
      | refine r =>
        simp only [Event.new, children_eq, List.mem_cons, List.not_mem_nil, or_false] at hq
        rcases hq with rfl | rfl | rfl | rfl
        · exact fresh_settled (hb.1 0 (by omega) (by omega)).2
        · exact fresh_settled (hb.1 1 (by omega) (by omega)).2
        · exact fresh_settled (hb.1 2 (by omega) (by omega)).2
        · exact fresh_settled (hb.1 3 (by omega) (by omega)).2
      | coarsen r =>
        simp only [Event.new, List.mem_singleton] at hq
        subst hq
        exact fresh_settled hb.1.2
    · rw [C74_mass_partial S hS nproc E bes hd mem D N hL hr m hm, Im m hm]
  | partition qs D N B nproc cut cut' mem _ hc hc' hr ih =>
    obtain ⟨I, Im, Ib⟩ := ih
    have mv := moved S hS mem hc hc' I.level D N hr
    have va : ∀ i : Nat, ∀ q ∈ qs[i]?.getD [], Valid S i q (N i q) := by
      intro i q hq
      rcases mv i q hq with e | e
      · rw [e]; exact I.valid i q hq
      · exact e.2.1
    refine ⟨⟨I.once, I.level, va, fun i q hq => ?_⟩, fun m hm => ?_, Ib⟩
    · rcases mv i q hq with e | e
      · rw [e]; exact I.settled i q hq
      · exact fresh_settled e.2.2
    · rw [← Im m hm]
      refine mesh_congr S qs D N m fun i q hq => patchMass_congr S q _ _ m (valid_area hS (va i q hq) (I.valid i q hq)) ?_
      intro a b m _
      rcases mv i q hq with e | e
      · rw [e]
      · rw [e.1]

/-- **C75**: at any time in a run, after time steps, regridding and repartitioning in any order, the mass of the whole mesh differs
from the initial one by what has entered through the physical boundary; without a physical boundary it is the same.
(Partial: square patches, see C74.) -/
theorem C75_partial (S : Setting K P) (hS : S.Ok) (hp : CopyGhost.Proper S.d) (bd : Nat → Path 4 → Nat → Bool) (rpn : Correction.Rpn)
    (qs0 qs : List (List (Path 4))) (D0 D : Repopulate.World) (B : ℤ → ℚ) (h0 : Starts S qs0 D0) (h : Life S bd rpn qs0 D0 qs D B)
    (m : ℤ) (hm : comp S.d m) :
    meshMass S qs D m = meshMass S qs0 D0 m + B m ∧
      ((∀ i q f, bd i q f = false) → meshMass S qs D m = meshMass S qs0 D0 m) := by
  obtain ⟨_, h1, h2⟩ := life_spec S hS hp bd rpn qs0 qs D0 D B h0 h
  refine ⟨h1 m hm, fun hb => ?_⟩
  rw [h1 m hm, h2 hb m, add_zero]

/-- **C75**: repartitioning changes no solution, and succeeds on every process, from any distribution to any other. Patches that stay
keep all of their data. -/
theorem C75_partition_partial (S : Setting K P) (hS : S.Ok) (mem : Nat → Path 4 → Memory P) (nproc : Nat) (qs : List (List (Path 4)))
    (hn : ∀ i : Nat, (qs[i]?.getD []).Nodup) (hl : ∀ i : Nat, ∀ q ∈ qs[i]?.getD [], q.length ≤ S.maxlevel) (cut cut' : Nat → Nat) (hc : Cuts nproc qs cut)
    (hc' : Cuts nproc qs cut') (D : Repopulate.World) :
    (∃ N, Repartitioned S mem nproc cut cut' qs D N) ∧
    ∀ N, Repartitioned S mem nproc cut cut' qs D N → ∀ i : Nat, ∀ q ∈ qs[i]?.getD [], (N i q).q = (D i q).q ∧
      (N i q = D i q ∨ (Valid S i q (N i q) ∧ FreshReg S i q (N i q))) := by
  refine ⟨?_, fun N h i q hq => ?_⟩
  · classical
    have H : ∀ (i : Nat) (q : Path 4), ∃ p', q ∈ qs[i]?.getD [] → unpack S mem (pack ⟨i, q, some (D i q)⟩) = ⟨i, q, some p'⟩ := by
      intro i q
      by_cases hq : q ∈ qs[i]?.getD []
      · obtain ⟨p', e, _⟩ := unpack_spec S hS mem i q (hl i q hq) (D i q)
        exact ⟨p', fun _ => e⟩
      · exact ⟨D i q, fun h => absurd h hq⟩
    choose U hU using H
    -- a patch stays if it is on the same process before and after
    let stays : Nat → Path 4 → Prop := fun i q => ∃ p < nproc, ∃ j : Nat, ((localPart (cut' p) (cut' (p + 1)) 0 qs)[i]?.getD [])[j]? = some q ∧
      cut p ≤ max (cut' p) (blockStart qs i) + j ∧ max (cut' p) (blockStart qs i) + j < cut (p + 1)
    refine ⟨fun i q => if stays i q then D i q else U i q, fun p hp => ?_⟩
    obtain ⟨s, e, hs⟩ := Partition.process_general pack (unpack S mem) (items qs D) (cut p) (cut (p + 1)) (cut' p) (cut' (p + 1))
      (hc.mono p) (hc'.mono p) 0 0
    refine ⟨s, e, fun i j => ?_⟩
    rw [hs i j, items_local, items_start, List.getElem?_map]
    cases hj : ((localPart (cut' p) (cut' (p + 1)) 0 qs)[i]?.getD [])[j]? with
    | none => rfl
    | some q =>
      simp only [Option.map_some, Option.some.injEq]
      have hq := local_mem qs _ _ i j q hj
      by_cases hst : cut p ≤ max (cut' p) (blockStart qs i) + j ∧ max (cut' p) (blockStart qs i) + j < cut (p + 1)
      · rw [if_pos hst, if_pos ⟨p, hp, j, hj, hst⟩]
      · rw [if_neg hst, if_neg, hU i q hq]
        rintro ⟨p', hp', j', hj', hst'⟩
        -- the number of the patch is unique
        have number : ∀ p j, ((localPart (cut' p) (cut' (p + 1)) 0 qs)[i]?.getD [])[j]? = some q →
            ∃ l k : _, qs[i]? = some l ∧ l[k]? = some q ∧ max (cut' p) (blockStart qs i) + j = blockStart qs i + k ∧
              cut' p ≤ blockStart qs i + k ∧ blockStart qs i + k < cut' (p + 1) := by
          intro p j h
          rw [Partition.localPart_getElem?] at h
          cases hi : qs[i]? with
          | none => rw [hi] at h; simp at h
          | some l =>
            rw [hi] at h
            simp only [Option.map_some, Option.getD_some, Nat.zero_add] at h
            have hlt := (List.getElem?_eq_some_iff.1 h).1
            rw [List.length_take] at hlt
            rw [List.getElem?_take_of_lt (by omega), List.getElem?_drop] at h
            refine ⟨l, cut' p - blockStart qs i + j, rfl, h, by omega, by omega, by omega⟩
        obtain ⟨l, k, hi, hk, n1, n2, n3⟩ := number p j hj
        obtain ⟨l', k', hi', hk', n1', n2', n3'⟩ := number p' j' hj'
        rw [hi] at hi'
        cases hi'
        have nd := hn i
        rw [hi] at nd
        have kk : k = k' := (List.getElem?_inj (List.getElem?_eq_some_iff.1 hk).1 nd).1 (hk.trans hk'.symm)
        subst kk
        have pp : p = p' := by
          rcases Nat.lt_trichotomy p p' with h | h | h
          · have := cut_mono hc'.mono (p + 1) p' (by omega); omega
          · exact h
          · have := cut_mono hc'.mono (p' + 1) p (by omega); omega
        subst pp
        exact hst (by omega)
  · rcases moved S hS mem hc hc' hl D N h i q hq with e | e
    · exact ⟨by rw [e], Or.inl e⟩
    · exact ⟨e.1, Or.inr e.2⟩

/-- **C75**: at any time in a run, the mesh can be synchronised after any steps, and it can be regridded. -/
theorem C75_progress_partial (S : Setting K P) (hS : S.Ok) (hp : CopyGhost.Proper S.d) (bd : Nat → Path 4 → Nat → Bool) (rpn : Correction.Rpn)
    (qs0 qs : List (List (Path 4))) (D0 D : Repopulate.World) (B : ℤ → ℚ) (h0 : Starts S qs0 D0) (h : Life S bd rpn qs0 D0 qs D B) :
    (∀ (M : GhostFill.Mesh) (L : Conserve.Links) (place : Nat → Nat × Path 4) (G : Nat → Correction.Geom S.d) (minl top : Int)
      (W0 W : Conserve.World) (B' : ℤ → ℚ), Shows S bd qs D M place G → Conserve.Linked S.d M L → (∀ x ∈ M.patches, M.level x ≤ top) →
      (∀ x ∈ M.patches, W0.q x = (D (place x).1 (place x).2).q ∧ W0.r x = (D (place x).1 (place x).2).reg) →
      Conserve.History S.d M L G rpn top W0 W B' → ∃ W', Conserve.Synced S.d M L minl top W W') ∧
    ∀ (E : List (List (Event 4))) (nproc : Nat) (bes : Nat → List (List (Event 4))) (mem : Nat → Nat → Nat → Memory P),
      qs = E.map oldPatches → Distribution nproc E bes → (∀ i : Nat, (newPatches (E[i]?.getD [])).Nodup) →
      (∀ i : Nat, ∀ q ∈ newPatches (E[i]?.getD []), q.length ≤ S.maxlevel) → ∃ N, Regridded S false nproc bes mem D N := by
  obtain ⟨I, _, _⟩ := life_spec S hS hp bd rpn qs0 qs D0 D B h0 h
  constructor
  · intro M L place G minl top W0 W B' hsh hL htop hW0 hH
    have hin : ∀ x ∈ M.patches, (place x).2 ∈ qs[(place x).1]?.getD [] := fun x hx => (hsh.all _ _).2 ⟨x, hx, rfl⟩
    obtain ⟨b1, a1, _⟩ := Conserve.history_general (sized_of S hS) hp M hsh.ok hsh.nodup L hL G rpn top htop W0 W B'
      (fun x hx => by rw [(hW0 x hx).2]; exact (I.settled _ _ (hin x hx)).balanced)
      (fun x hx f hf t ht => by
        rw [(hW0 x hx).2, (I.settled _ _ (hin x hx)).areas f hf t ht, hsh.areas x hx _ (cellAt_mem S.d hS.even f hf t ht)]) hH
    have : ∀ p, ∃ s', Conserve.syncProcess S.d M L p minl top ⟨W.r, W.q⟩ = some s' := by
      intro p
      obtain ⟨s', e, _⟩ := Conserve.process_spec (sized_of S hS) hp M hsh.ok hsh.nodup L hL G minl top htop p W b1 a1 ⟨W.r, W.q⟩
        (fun _ _ => rfl) (fun _ _ _ => rfl)
      exact ⟨s', e⟩
    choose T hT using this
    refine ⟨⟨fun x => (T (M.owner x)).q x, fun x => (T (M.owner x)).reg x⟩, ⟨fun p => ⟨⟨W.r, W.q⟩, T p, fun _ _ => rfl,
      fun _ _ _ => rfl, hT p, ?_⟩⟩⟩
    rintro x _ rfl
    exact ⟨rfl, rfl⟩
  · intro E nproc bes mem hqs hd hn hl
    subst hqs
    have eo : ∀ i : Nat, (E.map oldPatches)[i]?.getD [] = oldPatches (E[i]?.getD []) := by
      intro i
      rw [List.getElem?_map]; cases E[i]? <;> rfl
    exact C74_progress_partial S hS false nproc E bes hd mem D
      ⟨hn, fun i q hq => I.valid i q (by rw [eo]; exact hq), fun i q hq => I.level i q (by rw [eo]; exact hq), hl⟩

/-! ### Example: a refined quarter of a square, advection -/

def exSetting : Setting ℚ (ℚ × ℚ) :=
  { mapped with d := Correction.exD, manifold := false, unit := 1 / 4, edge := fun _ _ => Correction.exEl }

theorem exSetting_ok : exSetting.Ok :=
  ⟨⟨by decide, by decide, by decide, by decide⟩, rfl, by decide, by norm_num [exSetting], fun h => (nomatch h), fun h => (nomatch h)⟩

def exMesh : List (List (Path 4)) := [[[0], [1], [2], [3, 0], [3, 1], [3, 2], [3, 3]]]

def exPlace (x : Nat) : Nat × Path 4 := match x with
  | 0 => (0, [0])
  | 1 => (0, [1])
  | 2 => (0, [2])
  | 3 => (0, [3, 0])
  | 4 => (0, [3, 1])
  | 5 => (0, [3, 2])
  | _ => (0, [3, 3])

def exFrom (q : Path 4) : Nat := if q = [0] then 0 else if q = [1] then 1 else if q = [2] then 2 else if q = [3, 0] then 3 else
  if q = [3, 1] then 4 else if q = [3, 2] then 5 else 6

def exBd (_ : Nat) (q : Path 4) (f : Nat) : Bool := GhostFill.isBoundary (GhostFill.lMesh.face (exFrom q) f)

def exWorld : Repopulate.World := fun i q =>
  ⟨fun c => c.1, fun _ => 0, Correction.Regs.empty (alongFaces exSetting.d (exSetting.uniform (quadAt q))) (exSetting.edge i (quadAt q))⟩

def exGeoms (x : Nat) : Correction.Geom exSetting.d := if x ≤ 2 then Correction.exGeom else
  ⟨1 / 8, 1 / 8, fun _ _ => 1 / 64, by norm_num, by norm_num, fun _ _ _ _ => by norm_num⟩

theorem exPlaces (x : Nat) (hx : x < 7) : exFrom (exPlace x).2 = x ∧ (exPlace x).1 = 0 ∧ (exPlace x).2 ∈ exMesh[0]?.getD [] := by
  interval_cases x <;> decide

theorem exShows : Shows exSetting exBd exMesh exWorld GhostFill.lMesh exPlace exGeoms := by
  refine ⟨GhostFill.lMesh_ok, by decide, ?_, ?_, ?_, ?_⟩
  · intro x hx y hy e
    rw [← (exPlaces x (Conserve.lRange x hx)).1, e, (exPlaces y (Conserve.lRange y hy)).1]
  · intro i q
    constructor
    · intro h
      match i with
      | 0 =>
        have : ∀ q ∈ exMesh[0]?.getD [], exFrom q ∈ GhostFill.lMesh.patches ∧ exPlace (exFrom q) = (0, q) := by decide
        exact ⟨exFrom q, this q h⟩
      | _ + 1 => cases h
    · rintro ⟨x, hx, e⟩
      obtain ⟨_, h1, h2⟩ := exPlaces x (Conserve.lRange x hx)
      rw [e] at h1 h2
      dsimp only at h1 h2
      rw [h1]
      exact h2
  · intro x hx f hf
    unfold exBd
    rw [(exPlaces x (Conserve.lRange x hx)).1]
  · intro x hx c hc
    have h7 := Conserve.lRange x hx
    show _ = (1 / 4 : ℚ) / 4 ^ (quadAt (exPlace x).2).level
    interval_cases x
    · show (1 / 16 : ℚ) = 1 / 4 / 4 ^ 1; norm_num
    · show (1 / 16 : ℚ) = 1 / 4 / 4 ^ 1; norm_num
    · show (1 / 16 : ℚ) = 1 / 4 / 4 ^ 1; norm_num
    · show (1 / 64 : ℚ) = 1 / 4 / 4 ^ 2; norm_num
    · show (1 / 64 : ℚ) = 1 / 4 / 4 ^ 2; norm_num
    · show (1 / 64 : ℚ) = 1 / 4 / 4 ^ 2; norm_num
    · show (1 / 64 : ℚ) = 1 / 4 / 4 ^ 2; norm_num

/-- Patch 0 makes a step and all levels are synchronised; then patch 0 is refined, the small patches are merged, and the first process hands
over patches to the second one. -/
def exEvents : List (List (Event 4)) := [[.refine [0], .keep [1], .keep [2], .coarsen [3]]]

def exCut (p : Nat) : Nat := if p = 0 then 0 else if p = 1 then 5 else 7
def exCut' (p : Nat) : Nat := if p = 0 then 0 else if p = 1 then 3 else 7

theorem exCuts : Cuts 2 (exEvents.map newPatches) exCut ∧ Cuts 2 (exEvents.map newPatches) exCut' := by
  refine ⟨⟨fun p => ?_, rfl, rfl⟩, ⟨fun p => ?_, rfl, rfl⟩⟩
  · unfold exCut; rcases p with _ | _ | p <;> simp
  · unfold exCut'; rcases p with _ | _ | p <;> simp

example : ∃ D B, Starts exSetting exMesh exWorld ∧ Life exSetting exBd Correction.exRpn exMesh exWorld (exEvents.map newPatches) D B ∧
    CopyGhost.Proper exSetting.d ∧ comp exSetting.d 1 ∧
    meshMass exSetting (exEvents.map newPatches) D 1 = meshMass exSetting exMesh exWorld 1 + B 1 := by
  have hp : CopyGhost.Proper exSetting.d := by unfold CopyGhost.Proper; decide
  have hc : comp exSetting.d 1 := by constructor <;> decide
  have h0 : Starts exSetting exMesh exWorld := by
    refine ⟨fun i => ?_, fun i => ?_, fun i q hq => ⟨fun h => (nomatch h), rfl⟩⟩
    · match i with
      | 0 => decide
      | _ + 1 => exact List.nodup_nil
    · match i with
      | 0 => decide
      | _ + 1 => intro q hq; cases hq
  have hl : ∀ x ∈ GhostFill.lMesh.patches, 1 ≤ GhostFill.lMesh.level x ∧ GhostFill.lMesh.level x ≤ 2 := by decide
  let W0 : Conserve.World := ⟨fun x => (exWorld (exPlace x).1 (exPlace x).2).q, fun x => (exWorld (exPlace x).1 (exPlace x).2).reg⟩
  have ev : ∃ q r, Correction.Evolves exSetting.d (exGeoms 0) Correction.exRpn (W0.q 0) (W0.r 0) q r :=
    ⟨_, _, .step _ _ _ (1 / 16) (fun _ => 0) (Correction.exWaves _) .start (fun _ _ _ _ => rfl) (Correction.exConservative (W0.q 0) _)⟩
  obtain ⟨q, r, he⟩ := ev
  have hh := Conserve.History.steps W0 _ 0 q r (Conserve.History.start (d := exSetting.d) (M := GhostFill.lMesh) (L := Conserve.lLinks)
    (G := exGeoms) (rpn := Correction.exRpn) (top := 2) (W0 := W0)) (by decide) he
  have L0 := Life.start (S := exSetting) (bd := exBd) (rpn := Correction.exRpn) (qs0 := exMesh) (D0 := exWorld)
  obtain ⟨W', hW⟩ := (C75_progress_partial exSetting exSetting_ok hp exBd Correction.exRpn exMesh exMesh exWorld exWorld _ h0 L0).1
    GhostFill.lMesh Conserve.lLinks exPlace exGeoms 1 2 W0 _ _ exShows Conserve.lLinked (fun x hx => (hl x hx).2) (fun _ _ => ⟨rfl, rfl⟩) hh
  have L1 := Life.advance exMesh exWorld (fun i q => ⟨W'.q (exFrom q), (exWorld i q).area, W'.r (exFrom q)⟩) _ _ GhostFill.lMesh Conserve.lLinks
    exPlace exGeoms 1 2 W0 _ W' L0 exShows Conserve.lLinked hl (fun _ _ => ⟨rfl, rfl⟩) hh hW
    (fun x hx => by rw [(exPlaces x (Conserve.lRange x hx)).1])
  have hd : Distribution 1 exEvents (fun _ => exEvents) := ⟨fun _ _ => rfl, fun i => by simp [List.range_succ]⟩
  have hn : ∀ i : Nat, (newPatches (exEvents[i]?.getD [])).Nodup := fun i => by
    match i with
    | 0 => decide
    | _ + 1 => exact List.nodup_nil
  have hl' : ∀ i : Nat, ∀ q ∈ newPatches (exEvents[i]?.getD []), q.length ≤ exSetting.maxlevel := fun i => by
    match i with
    | 0 => decide
    | _ + 1 => intro q hq; cases hq
  obtain ⟨N, hN⟩ := (C75_progress_partial exSetting exSetting_ok hp exBd Correction.exRpn exMesh exMesh exWorld _ _ h0 L1).2
    exEvents 1 (fun _ => exEvents) (fun _ _ _ => ⟨fun _ => 5, fun _ => 7, fun _ => (1, 1)⟩) rfl hd hn hl'
  have L2 := Life.regrid _ N _ exEvents 1 (fun _ => exEvents) _ L1 hd hn hl' hN
  obtain ⟨N', hN'⟩ := (C75_partition_partial exSetting exSetting_ok (fun _ _ => ⟨fun _ => 5, fun _ => 7, fun _ => (1, 1)⟩) 2 (exEvents.map newPatches)
    (fun i => by
      match i with
      | 0 => decide
      | _ + 1 => exact List.nodup_nil)
    (fun i => by
      match i with
      | 0 => decide
      | _ + 1 => intro q hq; cases hq) exCut exCut' exCuts.1 exCuts.2 N).1
  have L3 := Life.partition _ N N' _ 2 exCut exCut' _ L2 exCuts.1 exCuts.2 hN'
  exact ⟨N', _, h0, L3, hp, hc, (C75_partial exSetting exSetting_ok hp exBd Correction.exRpn exMesh _ exWorld N' _ h0 L3 1 hc).1⟩

end Fclaw.Lifetime
