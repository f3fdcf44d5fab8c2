import Verif.GhostAll.Step
/-
Helpers for C69: the expected value of a cell is unique.
-/
set_option autoImplicit false
set_option linter.unusedSimpArgs false
set_option linter.unusedVariables false
namespace Fclaw.GhostAll

open Fort Transform GhostFill CopyGhost CoarseFine

variable {d : Dims} {M : Mesh} {S : Setup} {minl : Int} {ti : Bool}

theorem same_unique (hS : Sizes d) (hF : Fits d M S) {x : Nat} {i j : ℤ} {y y' : Nat} {i1 j1 i2 j2 : ℤ}
    (h : SameSource d M S x i j y i1 j1) (h' : SameSource d M S x i j y' i2 j2) : y = y' ∧ i1 = i2 ∧ j1 = j2 := by
  obtain ⟨_, ⟨f, rf, hf, hface, hs, he⟩ | ⟨k, rk, hk, hc, hs, he⟩⟩ := h
  · obtain ⟨_, ⟨f', rf', hf', hface', hs', he'⟩ | ⟨k, rk, hk, hc, hs', he'⟩⟩ := h'
    · cases strip_disjoint hs hs'
      rw [hface] at hface'; cases hface'
      exact ⟨rfl, faceSame_unique hS.even.proper (hF.face x f y rf hf hface) he he'⟩
    · exact absurd hs' (strip_not_corner hs)
  · obtain ⟨_, ⟨f', rf', hf', hface', hs', he'⟩ | ⟨k', rk', hk', hc', hs', he'⟩⟩ := h'
    · exact absurd hs (strip_not_corner hs')
    · cases corner_disjoint hk hk' hs hs'
      rw [hc] at hc'; cases hc'
      exact ⟨rfl, cornerSame_unique hS.even.proper (hF.corner x k y rk hk hc) he he'⟩

theorem half_unique (hS : Sizes d) (hF : Fits d M S) {x : Nat} {i j : ℤ} {y y' : Nat} {c c' : Nat → Nat → ℤ × ℤ}
    (h : HalfSource d M S x i j y c) (h' : HalfSource d M S x i j y' c') :
    y = y' ∧ ∀ a b, a < 2 → b < 2 → c a b = c' a b := by
  obtain ⟨_, ⟨f, g, y0, y1, rf, hf, hg, hface, rfl, hs, he⟩ | ⟨k, rk, hk, hc, hs, he⟩⟩ := h
  · obtain ⟨_, ⟨f', g', y0', y1', rf', hf', hg', hface', rfl, hs', he'⟩ | ⟨k, rk, hk, hc, hs', he'⟩⟩ := h'
    · cases strip_disjoint hs.1 hs'.1
      rw [hface] at hface'; cases hface'
      have := reg_half ((halfStrip_iff hg).1 hs) ((halfStrip_iff hg').1 hs')
      simp only [Region.strip.injEq, true_and] at this
      subst this
      refine ⟨rfl, fun a b ha hb => ?_⟩
      have L := (hF.half x f y0 y1 rf g hf hg hface).1
      exact (halfFace_map hS.even.proper L (he a b ha hb)).trans
        (halfFace_map hS.even.proper L (he' a b ha hb)).symm
    · exact absurd hs' (strip_not_corner hs.1)
  · obtain ⟨_, ⟨f', g', y0', y1', rf', hf', hg', hface', rfl, hs', he'⟩ | ⟨k', rk', hk', hc', hs', he'⟩⟩ := h'
    · exact absurd hs (strip_not_corner hs'.1)
    · cases corner_disjoint hk hk' hs hs'
      rw [hc] at hc'; cases hc'
      refine ⟨rfl, fun a b ha hb => ?_⟩
      have L := (hF.halfCorner x k y rk hk hc).1
      exact (halfCorner_map hS.even.proper L (he a b ha hb)).trans
        (halfCorner_map hS.even.proper L (he' a b ha hb)).symm

/-- A corner in the middle of a face has no neighbour of its own. -/
theorem hanging_none (hM : M.Ok) {x f c fc g hk : Nat} (hf : f < 4) (h : M.face x f = .double c fc g hk) :
    cornerNbr M x hk = .none := by
  obtain ⟨h1, h2, h3⟩ := hM.hangingNone x f c fc g hk hf h (hk_lt hM hf h)
  unfold cornerNbr
  rw [h2, h3]
  exact h1

theorem double_unique (hS : Sizes d) (hM : M.Ok) (hF : Fits d M S) {x : Nat} {i j : ℤ} {c c' : Nat}
    {ic jc ic' jc' : ℤ} {a b a' b' : Nat} (h : DoubleSource d M S x i j c ic jc a b)
    (h' : DoubleSource d M S x i j c' ic' jc' a' b') : c = c' ∧ ic = ic' ∧ jc = jc' ∧ a = a' ∧ b = b' := by
  obtain ⟨_, ha, hb, h⟩ := h
  obtain ⟨_, ha', hb', h'⟩ := h'
  rcases h with ⟨f, fc, g, hk, hf, hface, hs, he⟩ | ⟨k, kc, hk, hc, hs, he⟩
  · rcases h' with ⟨f', fc', g', hk', hf', hface', hs', he'⟩ | ⟨k', kc', hk', hc', hs', he'⟩
    · have hff : f = f' := by
        rcases hs with hs | hs <;> rcases hs' with hs' | hs'
        · exact strip_disjoint hs hs'
        · exact absurd hs' (strip_not_corner hs)
        · exact absurd hs (strip_not_corner hs')
        · cases corner_disjoint (hk_lt hM hf hface) (hk_lt hM hf' hface') hs hs'
          exact hF.oneFace x f c fc g f' c' fc' g' hk hf hf' hface hface'
      subst hff
      rw [hface] at hface'; cases hface'
      obtain ⟨hfc, hg, y0, y1, h1, h2⟩ := hM.doubleSym x f c fc g hk hf hface
      have L := (hF.half c fc y0 y1 f g hfc hg h1).1
      rw [h2] at L
      have ok := (faceHalf_spec hS.even.proper (faceData S.geo c fc x) fc g L).2.1
      exact ⟨rfl, quarter_inj ok ha hb ha' hb' ((halfFace_map hS.even.proper L he).symm.trans
        (halfFace_map hS.even.proper L he'))⟩
    · exfalso
      rcases hs with hs | hs
      · exact strip_not_corner hs hs'
      · cases corner_disjoint (hk_lt hM hf hface) hk' hs hs'
        rw [hanging_none hM hf hface] at hc'; cases hc'
  · rcases h' with ⟨f', fc', g', hk', hf', hface', hs', he'⟩ | ⟨k', kc', hk', hc', hs', he'⟩
    · exfalso
      rcases hs' with hs' | hs'
      · exact strip_not_corner hs' hs
      · cases corner_disjoint hk (hk_lt hM hf' hface') hs hs'
        rw [hanging_none hM hf' hface'] at hc; cases hc
    · cases corner_disjoint hk hk' hs hs'
      rw [hc] at hc'; cases hc'
      obtain ⟨hkc, h1⟩ := hM.doubleCorner x k c kc hk hc
      have L := (hF.halfCorner c kc x k hkc h1).1
      have ok := (cornerHalf_spec hS.even.proper (cornerData S.geo c kc x) kc L).2.1
      exact ⟨rfl, quarter_inj ok ha hb ha' hb' ((halfCorner_map hS.even.proper L he).symm.trans
        (halfCorner_map hS.even.proper L he'))⟩

theorem same_half {x : Nat} {i j : ℤ} {y y' : Nat} {i1 j1 : ℤ} {c : Nat → Nat → ℤ × ℤ}
    (h : SameSource d M S x i j y i1 j1) (h' : HalfSource d M S x i j y' c) : False := by
  obtain ⟨_, ⟨f, rf, hf, hface, hs, he⟩ | ⟨k, rk, hk, hc, hs, he⟩⟩ := h
  · obtain ⟨_, ⟨f', g', y0', y1', rf', hf', hg', hface', _, hs', he'⟩ | ⟨k, rk, hk, hc, hs', he'⟩⟩ := h'
    · cases strip_disjoint hs hs'.1
      rw [hface] at hface'; cases hface'
    · exact strip_not_corner hs hs'
  · obtain ⟨_, ⟨f', g', y0', y1', rf', hf', hg', hface', _, hs', he'⟩ | ⟨k', rk', hk', hc', hs', he'⟩⟩ := h'
    · exact strip_not_corner hs'.1 hs
    · cases corner_disjoint hk hk' hs hs'
      rw [hc] at hc'; cases hc'

theorem same_double (hM : M.Ok) {x : Nat} {i j : ℤ} {y c : Nat} {i1 j1 ic jc : ℤ} {a b : Nat}
    (h : SameSource d M S x i j y i1 j1) (h' : DoubleSource d M S x i j c ic jc a b) : False := by
  obtain ⟨_, _, _, h'⟩ := h'
  obtain ⟨_, ⟨f, rf, hf, hface, hs, he⟩ | ⟨k, rk, hk, hc, hs, he⟩⟩ := h
  · rcases h' with ⟨f', fc', g', hk', hf', hface', hs', he'⟩ | ⟨k', kc', hk', hc', hs', he'⟩
    · rcases hs' with hs' | hs'
      · cases strip_disjoint hs hs'
        rw [hface] at hface'; cases hface'
      · exact strip_not_corner hs hs'
    · exact strip_not_corner hs hs'
  · rcases h' with ⟨f', fc', g', hk', hf', hface', hs', he'⟩ | ⟨k', kc', hk', hc', hs', he'⟩
    · rcases hs' with hs' | hs'
      · exact strip_not_corner hs' hs
      · cases corner_disjoint hk (hk_lt hM hf' hface') hs hs'
        rw [hanging_none hM hf' hface'] at hc; cases hc
    · cases corner_disjoint hk hk' hs hs'
      rw [hc] at hc'; cases hc'

theorem half_double (hM : M.Ok) {x : Nat} {i j : ℤ} {y c : Nat} {cc : Nat → Nat → ℤ × ℤ} {ic jc : ℤ} {a b : Nat}
    (h : HalfSource d M S x i j y cc) (h' : DoubleSource d M S x i j c ic jc a b) : False := by
  obtain ⟨_, _, _, h'⟩ := h'
  obtain ⟨_, ⟨f, g, y0, y1, rf, hf, hg, hface, _, hs, he⟩ | ⟨k, rk, hk, hc, hs, he⟩⟩ := h
  · rcases h' with ⟨f', fc', g', hk', hf', hface', hs', he'⟩ | ⟨k', kc', hk', hc', hs', he'⟩
    · rcases hs' with hs' | hs'
      · cases strip_disjoint hs.1 hs'
        rw [hface] at hface'; cases hface'
      · exact strip_not_corner hs.1 hs'
    · exact strip_not_corner hs.1 hs'
  · rcases h' with ⟨f', fc', g', hk', hf', hface', hs', he'⟩ | ⟨k', kc', hk', hc', hs', he'⟩
    · rcases hs' with hs' | hs'
      · exact strip_not_corner hs' hs
      · cases corner_disjoint hk (hk_lt hM hf' hface') hs hs'
        rw [hanging_none hM hf' hface'] at hc; cases hc
    · cases corner_disjoint hk hk' hs hs'
      rw [hc] at hc'; cases hc'

theorem expected_unique (hS : Sizes d) (hM : M.Ok) (hF : Fits d M S) {I : State ℚ} {x : Nat} {t : Bool} {i j mq : ℤ}
    {v : ℚ} (h : Expected d M S minl ti I x t i j mq v) :
    ∀ v', Expected d M S minl ti I x t i j mq v' → v = v' := by
  induction h with
  | interior x t i j mq hi => intro v' h'; exact (expected_interior hM hi h').symm
  | same x t i j mq y i1 j1 h =>
    intro v' h'
    cases h' with
    | interior _ _ _ _ _ hi => exact absurd hi (same_ghost h).1
    | same _ _ _ _ _ y' i2 j2 h2 => obtain ⟨rfl, rfl, rfl⟩ := same_unique hS hF h h2; rfl
    | half _ _ _ _ _ y' c h2 => exact (same_half h h2).elim
    | double _ _ _ _ c t ic jc a b Q h2 _ _ => exact (same_double hM h h2).elim
    | boundary _ _ _ _ _ v h2 _ => exact absurd (mirror_self (same_ghost h).2) h2
  | half x t i j mq y c h =>
    intro v' h'
    cases h' with
    | interior _ _ _ _ _ hi => exact absurd hi (half_ghost h).1
    | same _ _ _ _ _ y' i2 j2 h2 => exact (same_half h2 h).elim
    | half _ _ _ _ _ y' c' h2 =>
      obtain ⟨rfl, hc⟩ := half_unique hS hF h h2
      exact mean_congr hc fun _ _ _ _ => rfl
    | double _ _ _ _ c t ic jc a b Q h2 _ _ => exact (half_double hM h h2).elim
    | boundary _ _ _ _ _ v h2 _ => exact absurd (mirror_self (half_ghost h).2) h2
  | double x i j mq c t ic jc a b Q h hc _ ih =>
    intro v' h'
    cases h' with
    | interior _ _ _ _ _ hi => exact absurd hi (double_ghost hM h).1
    | same _ _ _ _ _ y' i2 j2 h2 => exact (same_double hM h2 h).elim
    | half _ _ _ _ _ y' c' h2 => exact (half_double hM h2 h).elim
    | double _ _ _ _ c' t' ic' jc' a' b' Q' h2 hc' hQ =>
      obtain ⟨rfl, rfl, rfl, rfl, rfl⟩ := double_unique hS hM hF h h2
      have : t = t' := ((current_iff ..).1 hc).2.trans ((current_iff ..).1 hc').2.symm
      subst this
      exact reconstruct_congr a b fun δ hδ => ih δ hδ _ (hQ δ hδ)
    | boundary _ _ _ _ _ v h2 _ => exact absurd (mirror_self (double_ghost hM h).2) h2
  | boundary x t i j mq v hne _ ih =>
    intro v' h'
    cases h' with
    | interior _ _ _ _ _ hi => exact absurd (mirror_self (inside_interior hi)) hne
    | same _ _ _ _ _ y' i2 j2 h2 => exact absurd (mirror_self (same_ghost h2).2) hne
    | half _ _ _ _ _ y' c' h2 => exact absurd (mirror_self (half_ghost h2).2) hne
    | double _ _ _ _ c' t' ic' jc' a' b' Q' h2 hc' hQ => exact absurd (mirror_self (double_ghost hM h2).2) hne
    | boundary _ _ _ _ _ v2 _ h2 => rw [ih _ h2]

/-- It depends on the values in the interiors only. -/
theorem expected_congr {I I' : State ℚ} {x : Nat} {t : Bool} {i j mq : ℤ} {v : ℚ}
    (hI : ∀ x t i j, interior d i j → I x t (i, j, mq) = I' x t (i, j, mq))
    (h : Expected d M S minl ti I x t i j mq v) : Expected d M S minl ti I' x t i j mq v := by
  induction h with
  | interior x t i j mq hi => rw [hI x t i j hi]; exact .interior _ _ _ _ _ hi
  | same x t i j mq y i1 j1 h => rw [hI y t i1 j1 h.1]; exact .same _ _ _ _ _ _ _ _ h
  | half x t i j mq y c h =>
    rw [mean_congr (q' := I' y false) (c' := c) (fun _ _ _ _ => rfl) fun a b ha hb => hI _ _ _ _ (h.1 a b ha hb)]
    exact .half _ _ _ _ _ _ _ h
  | double x i j mq c t ic jc a b Q h hc _ ih => exact .double _ _ _ _ _ _ _ _ _ _ _ h hc fun δ hδ => ih δ hδ hI
  | boundary x t i j mq v hne _ ih => exact .boundary _ _ _ _ _ _ hne (ih hI)

/-- It does not depend on the owners of patches. -/
theorem expected_owner (o : Nat → Nat) {I : State ℚ} {x : Nat} {t : Bool} {i j mq : ℤ} {v : ℚ}
    (h : Expected d M S minl ti I x t i j mq v) : Expected d {M with owner := o} S minl ti I x t i j mq v := by
  induction h with
  | interior x t i j mq hi => exact .interior _ _ _ _ _ hi
  | same x t i j mq y i1 j1 h => exact .same _ _ _ _ _ _ _ _ h
  | half x t i j mq y c h => exact .half _ _ _ _ _ _ _ h
  | double x i j mq c t ic jc a b Q h hc _ ih => exact .double _ _ _ _ _ _ _ _ _ _ _ h hc ih
  | boundary x t i j mq v hne _ ih => exact .boundary _ _ _ _ _ _ hne ih

end Fclaw.GhostAll
