import Verif.GhostAll.Step
/-
Helpers for C69: operations preserve that valid regions hold the expected values.
-/
set_option autoImplicit false
set_option linter.unusedSimpArgs false
set_option linter.unusedVariables false
namespace Fclaw.GhostAll

open Fort Transform GhostFill CopyGhost CoarseFine

variable {d : Dims} {M : Mesh} {S : Setup} {minl : Int} {ti : Bool} {I : State ℚ} {p : Nat}

/-- The valid regions hold the expected values; interiors of patches of other processes at least in the
outer layers. -/
def Agree (d : Dims) (M : Mesh) (S : Setup) (minl : Int) (ti : Bool) (I : State ℚ) (p : Nat) (s : State ℚ) (V : Valid) :
    Prop :=
  ∀ x t r, V ⟨x, t, r⟩ = true → RegOk r → ∀ i j mq, inRegion d r i j →
    (r = .interior → M.owner x ≠ p → near2 d i j) → comp d mq →
    Expected d M S minl ti I x t i j mq (s x t (i, j, mq))

theorem agree_near (hM : M.Ok) {s : State ℚ} {V : Valid} (hA : Agree d M S minl ti I p s V) {x : Nat} {t : Bool}
    (hv : V ⟨x, t, .interior⟩ = true) {i j mq : ℤ} (hn : near2 d i j) (hm : comp d mq) :
    s x t (i, j, mq) = I x t (i, j, mq) :=
  expected_interior hM hn.1 (hA x t .interior hv trivial i j mq hn.1 (fun _ _ => hn) hm)

/-- What an operation does: it makes what it writes right if what it reads is, and changes nothing else. -/
structure Does (d : Dims) (M : Mesh) (S : Setup) (minl : Int) (ti : Bool) (I : State ℚ) (V : Valid) (o : Op)
    (s s' : State ℚ) : Prop where
  writes : ∀ e ∈ effects M o, e.2.all V = true → RegOk e.1.reg → ∀ i j mq, inRegion d e.1.reg i j → comp d mq →
    Expected d M S minl ti I e.1.x e.1.ti i j mq (s' e.1.x e.1.ti (i, j, mq))
  frame : ∀ x t r, RegOk r → (∀ e ∈ effects M o, e.1 ≠ ⟨x, t, r⟩) → ∀ i j mq, inRegion d r i j → comp d mq →
    s' x t (i, j, mq) = s x t (i, j, mq)

theorem agree_apply (hM : M.Ok) {s s' : State ℚ} {V : Valid} {o : Op} (hA : Agree d M S minl ti I p s V)
    (hD : Does d M S minl ti I V o s s') : Agree d M S minl ti I p s' (apply M V o) := by
  intro x t r hv hr i j mq hi hn hm
  unfold apply at hv
  cases hf : (effects M o).find? (fun e => decide (e.1 = ⟨x, t, r⟩)) with
  | some e =>
    rw [hf] at hv
    have h3 := List.mem_of_find?_eq_some hf
    have h4 : e.1 = ⟨x, t, r⟩ := by simpa using List.find?_some hf
    have := hD.writes e h3 hv (by rw [h4]; exact hr) i j mq (by rw [h4]; exact hi) hm
    rw [h4] at this
    exact this
  | none =>
    rw [hf] at hv
    rw [List.find?_eq_none] at hf
    rw [hD.frame x t r hr (fun e he h => by have := hf e he; simp [h] at this) i j mq hi hm]
    exact hA x t r hv hr i j mq hi hn hm

theorem copyFits (hF : Fits d M S) : CopyGhost.Fits d M S.geo := ⟨hF.face, hF.corner⟩

/-- Frame: an operation that changes only one grid, and in it only cells of some kind. -/
theorem frame_put {s : State ℚ} {x : Nat} {t : Bool} {q : Grid ℚ} {o : Op} (W : ℤ → ℤ → Prop)
    (keep : ∀ i j mq, ¬ (W i j ∧ comp d mq) → q (i, j, mq) = s x t (i, j, mq))
    (hit : ∀ r i j, RegOk r → inRegion d r i j → W i j → ∃ e ∈ effects M o, e.1 = ⟨x, t, r⟩) :
    ∀ x' t' r, RegOk r → (∀ e ∈ effects M o, e.1 ≠ ⟨x', t', r⟩) → ∀ i j mq, inRegion d r i j → comp d mq →
      put s x t q x' t' (i, j, mq) = s x' t' (i, j, mq) := by
  intro x' t' r hr hne i j mq hi hm
  by_cases h : x' = x ∧ t' = t
  · obtain ⟨rfl, rfl⟩ := h
    rw [put_same]
    refine keep i j mq fun hw => ?_
    obtain ⟨e, he, h⟩ := hit r i j hr hi hw.1
    exact hne e he h
  · rw [put_other _ _ _ _ h]

theorem does_copyFace (hS : Sizes d) (hM : M.Ok) (hF : Fits d M S) {s : State ℚ} {V : Valid}
    (hA : Agree d M S minl ti I p s V) {t : Bool} {x f y : Nat} (ho : Legit M minl ti p (.copyFace t x f y)) :
    ∃ s', exec d M S s (.copyFace t x f y) = some s' ∧ Does d M S minl ti I V (.copyFace t x f y) s s' := by
  obtain ⟨hf, ⟨rf, hface⟩, _⟩ := ho
  obtain ⟨q, e, good, keep⟩ := exec_face hS.even.proper (copyFits hF) hf hface s t
  have G := good (s y t) (fun _ _ _ _ _ => rfl)
  have key : V ⟨y, t, .interior⟩ = true → ∀ i j mq, inStrip d f i j → comp d mq →
      Expected d M S minl ti I x t i j mq (put s x t q x t (i, j, mq)) := by
    intro hv i j mq hs hm
    obtain ⟨i', j', a, b, c⟩ := G i j mq hs hm
    rw [put_same, c, agree_near hM hA hv (near2_of_near a) hm]
    exact .same _ _ _ _ _ y i' j' ⟨a.1, Or.inl ⟨f, rf, hf, hface, hs, b⟩⟩
  refine ⟨put s x t q, by simp [exec, e], ?_, ?_⟩
  · intro e he hv _ i j mq hi hm
    simp only [effects, List.mem_cons, List.not_mem_nil, or_false] at he
    rcases he with rfl | rfl <;> simp only [List.all_cons, List.all_nil, Bool.and_true] at hv <;>
      exact key hv i j mq hi.1 hm
  · refine frame_put (inStrip d f) keep ?_
    intro r i j _ hi hs
    obtain ⟨hh, hlt, rfl⟩ := reg_strip hi hs
    rcases two hlt with rfl | rfl
    · exact ⟨(_, _), List.mem_cons_self .., rfl⟩
    · exact ⟨(_, _), List.mem_cons_of_mem _ (List.mem_cons_self ..), rfl⟩

theorem does_copyCorner (hS : Sizes d) (hM : M.Ok) (hF : Fits d M S) {s : State ℚ} {V : Valid}
    (hA : Agree d M S minl ti I p s V) {t : Bool} {x k y : Nat} (ho : Legit M minl ti p (.copyCorner t x k y)) :
    ∃ s', exec d M S s (.copyCorner t x k y) = some s' ∧ Does d M S minl ti I V (.copyCorner t x k y) s s' := by
  obtain ⟨hk, ⟨rk, hcor⟩, _⟩ := ho
  obtain ⟨q, e, good, keep⟩ := exec_corner hS.even.proper (copyFits hF) hk hcor s t
  have G := good (s y t) (fun _ _ _ _ _ => rfl)
  refine ⟨put s x t q, by simp [exec, e], ?_, ?_⟩
  · intro e he hv _ i j mq hi hm
    simp only [effects, List.mem_singleton] at he
    subst he
    simp only [List.all_cons, List.all_nil, Bool.and_true] at hv
    obtain ⟨i', j', a, b, c⟩ := G i j mq hi hm
    dsimp only
    rw [put_same, c, agree_near hM hA hv (near2_of_near a) hm]
    exact .same _ _ _ _ _ y i' j' ⟨a.1, Or.inr ⟨k, rk, hk, hcor, hi, b⟩⟩
  · refine frame_put (inCorner d k) keep ?_
    intro r i j hr hi hs
    rw [reg_corner hk hr hi hs]
    exact ⟨(_, _), List.mem_cons_self .., rfl⟩

theorem does_avgFace (hS : Sizes d) (hM : M.Ok) (hF : Fits d M S) {s : State ℚ} {V : Valid}
    (hA : Agree d M S minl ti I p s V) {t : Bool} {x f g y : Nat} (ho : Legit M minl ti p (.avgFace t x f g y)) :
    ∃ s', exec d M S s (.avgFace t x f g y) = some s' ∧ Does d M S minl ti I V (.avgFace t x f g y) s s' := by
  obtain ⟨hf, hg, ⟨y0, y1, rf, hface, rfl⟩, _⟩ := ho
  obtain ⟨L, _, _⟩ := hF.half x f y0 y1 rf g hf hg hface
  have ok := (faceHalf_spec hS.even.proper (faceData S.geo x f (pick y0 y1 g)) f g L).2.1
  obtain ⟨q, e, good, keep⟩ := C67_face d hS.even (faceData S.geo x f (pick y0 y1 g)) f g hf hg L
    (S.area (pick y0 y1 g)) S.manifold (fun h => hF.area h _) (s (pick y0 y1 g) false) (s x t)
  refine ⟨put s x t q, by simp only [exec, e, Option.map_some], ?_, ?_⟩
  · intro e he hv _ i j mq hi hm
    simp only [effects, List.mem_singleton] at he
    subst he
    simp only [List.all_cons, List.all_nil, Bool.and_true] at hv
    have hi' := (halfStrip_iff hg).2 hi
    obtain ⟨c, c1, c2⟩ := good i j mq hi' hm
    dsimp only
    rw [put_same, c2, mean_congr (q' := I (pick y0 y1 g) false) (c' := c) (fun _ _ _ _ => rfl)]
    · exact .half _ _ _ _ _ _ c ⟨fun a b ha hb => (c1 a b ha hb).1,
        Or.inl ⟨f, g, y0, y1, rf, hf, hg, hface, rfl, hi', fun a b ha hb => (c1 a b ha hb).2⟩⟩
    · intro a b ha hb
      refine agree_near hM hA hv ?_ hm
      have := halfFace_map hS.even.proper L (c1 a b ha hb).2
      have h2 := half_near hS.even hf hg ok hi' ha hb
      change c a b = (faceOrient (S.geo.faceT x f)).map d (faceHalfStep f g) (quarter i a) (quarter j b) at this
      rw [this]
      exact h2
  · refine frame_put (inHalfStrip d f g) keep ?_
    intro r i j _ hi hs
    rw [reg_half hi ((halfStrip_iff hg).1 hs)]
    exact ⟨(_, _), List.mem_cons_self .., rfl⟩

theorem does_avgCorner (hS : Sizes d) (hM : M.Ok) (hF : Fits d M S) {s : State ℚ} {V : Valid}
    (hA : Agree d M S minl ti I p s V) {t : Bool} {x k y : Nat} (ho : Legit M minl ti p (.avgCorner t x k y)) :
    ∃ s', exec d M S s (.avgCorner t x k y) = some s' ∧ Does d M S minl ti I V (.avgCorner t x k y) s s' := by
  obtain ⟨hk, ⟨rk, hcor⟩, _⟩ := ho
  obtain ⟨L, _⟩ := hF.halfCorner x k y rk hk hcor
  have ok := (cornerHalf_spec hS.even.proper (cornerData S.geo x k y) k L).2.1
  obtain ⟨q, e, good, keep⟩ := C67_corner d hS.even (cornerData S.geo x k y) k hk L
    (S.area y) S.manifold (fun h => hF.area h _) (s y false) (s x t)
  refine ⟨put s x t q, by simp only [exec, e, Option.map_some], ?_, ?_⟩
  · intro e he hv _ i j mq hi hm
    simp only [effects, List.mem_singleton] at he
    subst he
    simp only [List.all_cons, List.all_nil, Bool.and_true] at hv
    obtain ⟨c, c1, c2⟩ := good i j mq hi hm
    dsimp only
    rw [put_same, c2, mean_congr (q' := I y false) (c' := c) (fun _ _ _ _ => rfl)]
    · exact .half _ _ _ _ _ _ c ⟨fun a b ha hb => (c1 a b ha hb).1,
        Or.inr ⟨k, rk, hk, hcor, hi, fun a b ha hb => (c1 a b ha hb).2⟩⟩
    · intro a b ha hb
      refine agree_near hM hA hv ?_ hm
      have := halfCorner_map hS.even.proper L (c1 a b ha hb).2
      have h2 := halfCorner_near hS.even hk ok hi ha hb
      change c a b = (cornerOrient (cornerData S.geo x k y)).map d (cornerHalfStep k) (quarter i a) (quarter j b) at this
      rw [this]
      exact h2
  · refine frame_put (inCorner d k) keep ?_
    intro r i j hr hi hs
    rw [reg_corner hk hr hi hs]
    exact ⟨(_, _), List.mem_cons_self .., rfl⟩

theorem does_interpFace (hS : Sizes d) (hM : M.Ok) (hF : Fits d M S) {s : State ℚ} {V : Valid}
    (hA : Agree d M S minl ti I p s V) {t : Bool} {c f g y fy : Nat} (ho : Legit M minl ti p (.interpFace t c f g y fy)) :
    ∃ s', exec d M S s (.interpFace t c f g y fy) = some s' ∧
      Does d M S minl ti I V (.interpFace t c f g y fy) s s' := by
  obtain ⟨hf, hg, hfy, ⟨y0, y1, hface, rfl⟩, ⟨hk, hd⟩, ht, hc, _⟩ := ho
  obtain ⟨L, htouch, hhang⟩ := hF.half c f y0 y1 fy g hf hg hface
  have hhk := hhang hk hd
  have hk4 := hk_lt hM hfy hd
  have ok := (faceHalf_spec hS.even.proper (faceData S.geo c f (pick y0 y1 g)) f g L).2.1
  obtain ⟨q, e, good, keep⟩ := C68_face_partial d hS.even hS.layers (faceData S.geo c f (pick y0 y1 g)) f g hf hg
    (fun _ => hS.square) L (s c t) (s (pick y0 y1 g) false)
  change ∀ i' j' mq, inStrip d (touching (S.geo.faceT c f) f) i' j' ∨
    inCorner d (CoarseFine.hanging (S.geo.faceT c f) f g) i' j' → _ at good
  change ∀ i' j' mq, ¬ ((inStrip d (touching (S.geo.faceT c f) f) i' j' ∨
    inCorner d (CoarseFine.hanging (S.geo.faceT c f) f g) i' j') ∧ _) → _ at keep
  have T := touch_eq hf L
  have H := hang_eq hf hg L
  rw [htouch] at good keep T
  rw [hhk] at good keep H
  have key : ([⟨c, t, .interior⟩, ⟨c, t, .strip f 0⟩, ⟨c, t, .strip f 1⟩,
      ⟨c, t, .strip (side f g) (f % 2)⟩] : List Key).all V = true → ∀ i j mq,
      inStrip d fy i j ∨ inCorner d hk i j → comp d mq →
      Expected d M S minl ti I (pick y0 y1 g) false i j mq (put s (pick y0 y1 g) false q (pick y0 y1 g) false (i, j, mq)) := by
    intro hv i j mq hs hm
    simp only [List.all_cons, List.all_nil, Bool.and_true, Bool.and_eq_true] at hv
    obtain ⟨v0, v1, v2, v3⟩ := hv
    obtain ⟨ic, jc, a, b, hin, ha, hb, hsame, hval⟩ := good i j mq hs hm
    rw [put_same, hval]
    refine .double _ _ _ _ c t ic jc a b (s c t)
      ⟨hin, ha, hb, Or.inl ⟨fy, f, g, hk, hfy, hd, hs, hsame⟩⟩ ((current_iff ..).2 ⟨hc, ht⟩) ?_
    have hmap := halfFace_map hS.even.proper L hsame
    have hp : 1 ≤ d.mbc := by
      rcases hs with hs | hs
      · exact strip_pos hs
      · exact corner_pos hs
    have hs' := hs
    rw [T, H, show i = ((faceOrient (S.geo.faceT c f)).map d (faceHalfStep f g) (quarter ic a) (quarter jc b)).1 by
        rw [← hmap], show j = ((faceOrient (S.geo.faceT c f)).map d (faceHalfStep f g) (quarter ic a) (quarter jc b)).2 by
        rw [← hmap]] at hs'
    have X := cross_layer hS.even hS.layers hp hf hg ok ha hb hin hs'
    intro δ hδ
    rcases X δ hδ with hn | hn | hn
    · exact hA c t .interior v0 trivial _ _ _ hn.1 (fun _ _ => hn) hm
    · obtain ⟨hh, hlt, hr⟩ := strip_half hn
      rcases two hlt with rfl | rfl
      · exact hA c t _ v1 trivial _ _ _ hr (fun h => by cases h) hm
      · exact hA c t _ v2 trivial _ _ _ hr (fun h => by cases h) hm
    · exact hA c t _ v3 trivial _ _ _ hn (fun h => by cases h) hm
  refine ⟨put s (pick y0 y1 g) false q, by simp only [exec, e, Option.map_some], ?_, ?_⟩
  · intro e he hv _ i j mq hi hm
    simp only [effects, List.mem_cons, List.mem_map] at he
    rcases he with rfl | rfl | ⟨hk', hmem, rfl⟩
    · exact key hv i j mq (Or.inl hi.1) hm
    · exact key hv i j mq (Or.inl hi.1) hm
    · simp only [GhostFill.hanging, hd, List.mem_singleton] at hmem
      subst hmem
      exact key hv i j mq (Or.inr hi) hm
  · refine frame_put (fun i j => inStrip d fy i j ∨ inCorner d hk i j) keep ?_
    intro r i j hr hi hs
    rcases hs with hs | hs
    · obtain ⟨hh, hlt, rfl⟩ := reg_strip hi hs
      rcases two hlt with rfl | rfl
      · exact ⟨(_, _), List.mem_cons_self .., rfl⟩
      · exact ⟨(_, _), List.mem_cons_of_mem _ (List.mem_cons_self ..), rfl⟩
    · rw [reg_corner hk4 hr hi hs]
      refine ⟨(⟨_, _, _⟩, _), List.mem_cons_of_mem _ (List.mem_cons_of_mem _ (List.mem_map.2 ⟨hk, ?_, rfl⟩)), rfl⟩
      simp [GhostFill.hanging, hd]

theorem does_interpCorner (hS : Sizes d) (hM : M.Ok) (hF : Fits d M S) {s : State ℚ} {V : Valid}
    (hA : Agree d M S minl ti I p s V) {t : Bool} {c k y ky : Nat} (ho : Legit M minl ti p (.interpCorner t c k y ky)) :
    ∃ s', exec d M S s (.interpCorner t c k y ky) = some s' ∧
      Does d M S minl ti I V (.interpCorner t c k y ky) s s' := by
  obtain ⟨hk, hcor, hcor', ht, hc, _⟩ := ho
  obtain ⟨hky, _⟩ := hM.halfCorner c k y ky hk hcor
  obtain ⟨L, htouch⟩ := hF.halfCorner c k y ky hk hcor
  have ok := (cornerHalf_spec hS.even.proper (cornerData S.geo c k y) k L).2.1
  obtain ⟨q, e, good, keep⟩ := C68_corner_partial d hS.even hS.layers (cornerData S.geo c k y) k hk L (s c t) (s y false)
  have T := corner_eq hk L
  rw [htouch] at good keep T
  refine ⟨put s y false q, by simp only [exec, e, Option.map_some], ?_, ?_⟩
  · intro e he hv _ i j mq hi hm
    simp only [effects, List.mem_singleton] at he
    subst he
    simp only [List.all_cons, List.all_nil, Bool.and_true, Bool.and_eq_true] at hv
    obtain ⟨v0, v1, v2⟩ := hv
    obtain ⟨ic, jc, a, b, hin, ha, hb, hsame, hval⟩ := good i j mq hi hm
    dsimp only
    rw [put_same, hval]
    refine .double _ _ _ _ c t ic jc a b (s c t)
      ⟨hin, ha, hb, Or.inr ⟨ky, k, hky, hcor', hi, hsame⟩⟩ ((current_iff ..).2 ⟨hc, ht⟩) ?_
    have hmap := halfCorner_map hS.even.proper L hsame
    have hp : 1 ≤ d.mbc := corner_pos hi
    have hs' : inCorner d ky i j := hi
    rw [T, show i = ((cornerOrient (cornerData S.geo c k y)).map d (cornerHalfStep k) (quarter ic a) (quarter jc b)).1 by
        rw [← hmap], show j = ((cornerOrient (cornerData S.geo c k y)).map d (cornerHalfStep k) (quarter ic a)
          (quarter jc b)).2 by rw [← hmap]] at hs'
    have X := cross_inner hS.even hS.layers hp hk ok ha hb hin hs'
    intro δ hδ
    rcases X δ hδ with hn | hn | hn
    · exact hA c t .interior v0 trivial _ _ _ hn.1 (fun _ _ => hn) hm
    · exact hA c t _ v1 trivial _ _ _ hn (fun h => by cases h) hm
    · exact hA c t _ v2 trivial _ _ _ hn (fun h => by cases h) hm
  · refine frame_put (inCorner d ky) keep ?_
    intro r i j hr hi hs
    rw [reg_corner hky hr hi hs]
    exact ⟨(_, _), List.mem_cons_self .., rfl⟩

theorem region_box {r : Region} {i j mq : ℤ} (hr : RegOk r) (h : inRegion d r i j) (hm : comp d mq) :
    inBox d (i, j, mq) = true := by
  unfold comp at hm
  rw [inBox_iff]
  cases r with
  | interior => unfold inRegion interior at h; omega
  | strip f hh =>
    have h := h.1
    rcases four (strip_lt h) with rfl | rfl | rfl | rfl <;> simp [inStrip] at h <;> omega
  | corner k =>
    have hk : k < 4 := hr
    unfold inRegion at h
    rcases four hk with rfl | rfl | rfl | rfl <;> simp [inCorner] at h <;> omega

theorem does_phys (hS : Sizes d) (hM : M.Ok) (hF : Fits d M S) {s : State ℚ} {V : Valid}
    (hA : Agree d M S minl ti I p s V) {t : Bool} {x : Nat} :
    ∃ s', exec d M S s (.phys t x) = some s' ∧ Does d M S minl ti I V (.phys t x) s s' := by
  obtain ⟨q, e, hq⟩ := physical_spec hF x (s x t)
  refine ⟨put s x t q, by simp only [exec, e, Option.map_some], ?_, ?_⟩
  · intro e he hv hr i j mq hi hm
    have hbox := region_box hr hi hm
    simp only [effects, List.mem_append, List.mem_flatMap] at he
    rcases he with ⟨f, hf, he⟩ | ⟨k, hk, he⟩
    · by_cases hb : isBoundary (M.face x f) = true
      · rw [if_pos hb] at he
        have key : V ⟨x, t, .interior⟩ = true → inStrip d f i j →
            Expected d M S minl ti I x t i j mq (put s x t q x t (i, j, mq)) := by
          intro hv hs
          obtain ⟨hn, hne⟩ := mirror_strip (M := M) (S := S) hS hs hb
          rw [put_same, hq i j mq hbox]
          exact .boundary _ _ _ _ _ _ hne (hA x t .interior hv trivial _ _ _ hn.1 (fun _ _ => hn) hm)
        simp only [List.mem_cons, List.not_mem_nil, or_false] at he
        rcases he with rfl | rfl <;> simp only [List.all_cons, List.all_nil, Bool.and_true] at hv <;>
          exact key hv hi.1
      · rw [if_neg hb] at he; simp at he
    · have hk4 := (mem_numbers k).1 hk
      obtain ⟨h1, h2⟩ := physCorner_mem M x t k e he
      obtain ⟨key, reads⟩ := e
      dsimp only at h1 h2 hv hi hr hbox ⊢
      subst h1
      dsimp only at hi ⊢
      rw [put_same, hq i j mq hbox]
      rcases h2 with ⟨hx, hy, rfl⟩ | ⟨hx, hy, rfl⟩ | ⟨hx, hy, rfl⟩ <;>
        simp only [List.all_cons, List.all_nil, Bool.and_true] at hv
      · obtain ⟨hn, hne⟩ := mirror_corner (S := S) hS hk4 hi hx hy
        exact .boundary _ _ _ _ _ _ hne (hA x t .interior hv trivial _ _ _ hn.1 (fun _ _ => hn) hm)
      · obtain ⟨hn, hne⟩ := mirror_cornerX (S := S) hS hk4 hi hx hy
        exact .boundary _ _ _ _ _ _ hne (hA x t _ hv trivial _ _ _ hn (fun h => by cases h) hm)
      · obtain ⟨hn, hne⟩ := mirror_cornerY (S := S) hS hk4 hi hx hy
        exact .boundary _ _ _ _ _ _ hne (hA x t _ hv trivial _ _ _ hn (fun h => by cases h) hm)
  · intro x' t' r hr hne i j mq hi hm
    by_cases h : x' = x ∧ t' = t
    · obtain ⟨rfl, rfl⟩ := h
      rw [put_same, hq i j mq (region_box hr hi hm)]
      have hin : Inside d M x' i j := by
        cases r with
        | interior => exact inside_interior hi
        | strip f hh =>
          refine inside_strip hi.1 ?_
          cases hb : isBoundary (M.face x' f) with
          | false => rfl
          | true =>
            exfalso
            have hf := (mem_numbers f).2 (strip_lt hi.1)
            rcases two hi.2.2 with rfl | rfl
            · refine hne (⟨x', t', .strip f 0⟩, [⟨x', t', .interior⟩]) ?_ rfl
              simp only [effects, List.mem_append, List.mem_flatMap]
              exact Or.inl ⟨f, hf, by rw [if_pos hb]; simp⟩
            · refine hne (⟨x', t', .strip f 1⟩, [⟨x', t', .interior⟩]) ?_ rfl
              simp only [effects, List.mem_append, List.mem_flatMap]
              exact Or.inl ⟨f, hf, by rw [if_pos hb]; simp⟩
        | corner k =>
          have hk : k < 4 := hr
          cases hx : isBoundary (M.face x' (faceX k)) <;> cases hy : isBoundary (M.face x' (faceY k))
          · exact inside_corner hk hi hx hy
          all_goals
            exfalso
            have : ∃ e ∈ physCorner M x' t' k, e.1 = ⟨x', t', .corner k⟩ := by
              unfold physCorner
              rw [hx, hy]
              exact ⟨_, List.mem_singleton.2 rfl, rfl⟩
            obtain ⟨e, he, h⟩ := this
            refine hne e ?_ h
            simp only [effects, List.mem_append, List.mem_flatMap]
            exact Or.inr ⟨k, (mem_numbers k).2 hk, he⟩
      rw [mirror_self hin, mirrorSign_one hin, one_mul]
    · rw [put_other _ _ _ _ h]

theorem does (hS : Sizes d) (hM : M.Ok) (hF : Fits d M S) {s : State ℚ} {V : Valid}
    (hA : Agree d M S minl ti I p s V) (o : Op) (ho : Legit M minl ti p o) :
    ∃ s', exec d M S s o = some s' ∧ Does d M S minl ti I V o s s' := by
  cases o with
  | copyFace t x f y => exact does_copyFace hS hM hF hA ho
  | copyCorner t x k y => exact does_copyCorner hS hM hF hA ho
  | avgFace t x f g y => exact does_avgFace hS hM hF hA ho
  | avgCorner t x k y => exact does_avgCorner hS hM hF hA ho
  | interpFace t c f g y fy => exact does_interpFace hS hM hF hA ho
  | interpCorner t c k y ky => exact does_interpCorner hS hM hF hA ho
  | phys t x => exact does_phys hS hM hF hA

theorem execAll_agree (hS : Sizes d) (hM : M.Ok) (hF : Fits d M S) (os : List Op) :
    (∀ o ∈ os, Legit M minl ti p o) → ∀ (s : State ℚ) (V : Valid), Agree d M S minl ti I p s V →
      ∃ s', execAll d M S os s = some s' ∧ Agree d M S minl ti I p s' (run M V os) := by
  induction os with
  | nil => intro _ s V hA; exact ⟨s, rfl, hA⟩
  | cons o os ih =>
    intro ho s V hA
    obtain ⟨s1, e1, D⟩ := does hS hM hF hA o (ho o (List.mem_cons_self ..))
    obtain ⟨s2, e2, A2⟩ := ih (fun o' h => ho o' (List.mem_cons_of_mem _ h)) s1 _ (agree_apply hM hA D)
    exact ⟨s2, by unfold execAll at *; simp [loop, e1, e2], A2⟩

end Fclaw.GhostAll
