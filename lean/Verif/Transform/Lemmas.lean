import Verif.Transform.Spec
import Mathlib.Tactic.FieldSimp
import Mathlib.Tactic.Ring
import Mathlib.Tactic.Linarith
import Mathlib.Tactic.Positivity
set_option autoImplicit false
set_option linter.unusedSimpArgs false
set_option linter.unusedVariables false
namespace Fclaw.Transform

theorem trunc_int (z : ℤ) : trunc (z : ℚ) = z := by
  simp [trunc]

@[simp] theorem upd_same {α : Type} (f : Nat → α) (k : Nat) (v : α) : upd f k v k = v := by
  simp [upd]

theorem upd_ne {α : Type} (f : Nat → α) (k x : Nat) (v : α) (h : x ≠ k) : upd f k v x = f x := by
  simp [upd, h]

/-- Sign of a transversal map. -/
def sT (rev : Nat) : ℤ := if rev = 0 then 1 else -1
def cT (rev : Nat) : ℤ := if rev = 0 then 0 else 1
/-- Sign and constant of the normal map. -/
def sN (er : Nat) : ℤ := if er = 1 ∨ er = 2 then 1 else -1
def cN (er : Nat) : ℤ := if er = 0 then 0 else if er = 1 then 1 else if er = 2 then -1 else 2

theorem tang_eq (rev : Nat) (x R : ℚ) : tang rev (R * x) R = R * (sT rev * x + cT rev) := by
  unfold tang sT cT
  split
  · push_cast; ring
  · push_cast; ring

theorem normal_eq (er : Nat) (h : er ≤ 3) (x R : ℚ) :
    normal er (R * x) R = some (R * (sN er * x + cN er)) := by
  have : er = 0 ∨ er = 1 ∨ er = 2 ∨ er = 3 := by omega
  rcases this with rfl | rfl | rfl | rfl <;> simp [normal, sN, cN] <;> ring

theorem sT_pm (rev : Nat) : sT rev = 1 ∨ sT rev = -1 := by unfold sT; split <;> simp
theorem sN_pm (er : Nat) : sN er = 1 ∨ sN er = -1 := by unfold sN; split <;> simp

/-- `SamePoint` in terms of sign and constant. -/
theorem samePoint_iff (d3 : Bool) (ft : Nat → Nat) (h8 : ft 8 ≤ 3) (p p' : Nat → ℚ) :
    SamePoint d3 ft p p' ↔
      (p' (ft 3) = sT (ft 6) * p (ft 0) + cT (ft 6)) ∧
      (d3 = true → p' (ft 4) = sT (ft 7) * p (ft 1) + cT (ft 7)) ∧
      (p' (ft 5) = sN (ft 8) * p (ft 2) + cN (ft 8)) := by
  have ht : ∀ r (x : ℚ), (if r = 0 then x else 1 - x) = sT r * x + cT r := by
    intro r x
    unfold sT cT
    split
    · push_cast; ring
    · push_cast; ring
  have hn : (inside (decide (ft 8 % 2 = 1)) (p' (ft 5)) = outside (decide (ft 8 / 2 = 1)) (p (ft 2)))
      ↔ (p' (ft 5) = sN (ft 8) * p (ft 2) + cN (ft 8)) := by
    have : ft 8 = 0 ∨ ft 8 = 1 ∨ ft 8 = 2 ∨ ft 8 = 3 := by omega
    rcases this with h | h | h | h <;> rw [h] <;> simp [inside, outside, sN, cN] <;>
      constructor <;> intro hh <;> linarith
  constructor
  · intro s
    refine ⟨?_, ?_, hn.1 s.norm⟩
    · rw [s.trans0, ht]
    · intro hd; rw [s.trans1 hd, ht]
  · rintro ⟨h1, h2, h3⟩
    refine ⟨?_, ?_, hn.2 h3⟩
    · rw [h1, ht]
    · intro hd; rw [h2 hd, ht]

/-- What `target` computes when `mine` is `R` times a position. -/
theorem target_eq (d3 : Bool) (ft : Nat → Nat) (g : Gluing d3 ft) (m : Nat → Nat) (w : ℚ)
    (hm : SizesMatch d3 ft m) (L : Nat → ℚ) (mine : Nat → ℚ) (junk : Nat → ℚ)
    (hmine : ∀ a ∈ axes d3, mine a = w * m a * L a) :
    ∃ t, target d3 ft mine (fun a => w * m a) junk = some t ∧
      t (ft 3) = w * m (ft 3) * (sT (ft 6) * L (ft 0) + cT (ft 6)) ∧
      (d3 = true → t (ft 4) = w * m (ft 4) * (sT (ft 7) * L (ft 1) + cT (ft 7))) ∧
      t (ft 5) = w * m (ft 5) * (sN (ft 8) * L (ft 2) + cN (ft 8)) := by
  have hmy : ft 0 ∈ axes d3 ∧ (d3 = true → ft 1 ∈ axes d3) ∧ ft 2 ∈ axes d3 := by
    obtain ⟨t0, t1, t2, _, _, _, _, _, _, _, _, t02, t01⟩ := g
    cases d3 with
    | false => simp [axes] at t0 t1 t2 ⊢; omega
    | true => simp [axes] at t0 t1 t2 ⊢; omega
  unfold target
  simp only [hmine _ hmy.1, hmine _ hmy.2.2, tang_eq, normal_eq _ g.r2]
  refine ⟨_, rfl, ?_, ?_, ?_⟩
  · rw [upd_ne _ _ _ _ g.t02]
    cases hd : d3 with
    | false => simp [hm.1]
    | true =>
      have := (g.t01 hd).1
      simp [upd_ne _ _ _ _ this, hm.1]
  · intro hd
    subst hd
    rw [upd_ne _ _ _ _ (g.t01 rfl).2]
    simp [hmine _ (hmy.2.1 rfl), tang_eq, hm.2.1 rfl]
  · rw [upd_same, hm.2.2]

/-- Every axis is a target axis. -/
theorem target_axis (d3 : Bool) (ft : Nat → Nat) (g : Gluing d3 ft) (a : Nat) (ha : a ∈ axes d3) :
    a = ft 3 ∨ (d3 = true ∧ a = ft 4) ∨ a = ft 5 := by
  obtain ⟨_, _, _, t0, t1, t2, _, _, _, _, _, t02, t01⟩ := g
  cases d3 with
  | false =>
    simp [axes] at ha t0 t1 t2
    omega
  | true =>
    have := t01 rfl
    simp [axes] at ha t0 t1 t2
    simp only [true_and]
    omega

theorem my_axis (d3 : Bool) (ft : Nat → Nat) (g : Gluing d3 ft) (a : Nat) (ha : a ∈ axes d3) :
    a = ft 0 ∨ (d3 = true ∧ a = ft 1) ∨ a = ft 2 := by
  obtain ⟨m0, m1, m2, _, _, _, _, _, _, m02, m01, _, _⟩ := g
  cases d3 with
  | false =>
    simp [axes] at ha m0 m1 m2
    omega
  | true =>
    have := m01 rfl
    simp [axes] at ha m0 m1 m2
    simp only [true_and]
    omega

theorem mem_axes_target (d3 : Bool) (ft : Nat → Nat) (g : Gluing d3 ft) :
    ft 3 ∈ axes d3 ∧ (d3 = true → ft 4 ∈ axes d3) ∧ ft 5 ∈ axes d3 := by
  obtain ⟨_, _, _, t0, t1, t2, _, _, _, _, _, t02, t01⟩ := g
  cases d3 with
  | false => simp [axes] at t0 t1 t2 ⊢; omega
  | true => simp [axes] at t0 t1 t2 ⊢; omega

theorem mem_axes_my (d3 : Bool) (ft : Nat → Nat) (g : Gluing d3 ft) :
    ft 0 ∈ axes d3 ∧ (d3 = true → ft 1 ∈ axes d3) ∧ ft 2 ∈ axes d3 := by
  obtain ⟨t0, t1, t2, _, _, _, _, _, _, _, _, t02, t01⟩ := g
  cases d3 with
  | false => simp [axes] at t0 t1 t2 ⊢; omega
  | true => simp [axes] at t0 t1 t2 ⊢; omega

/-- Integrality of the transformed index and its position. -/
theorem index_core (X OX i s c : ℤ) (hs : s = 1 ∨ s = -1) (m l : Nat) (hm : 1 ≤ m) (b : Nat) (x ox : ℚ)
    (hx : x = X / 2 ^ l) (hox : ox = OX / 2 ^ l) (v : ℚ)
    (hv : v = (2 : ℚ) ^ l * m * (s * (x + ((i : ℚ) - b / 2) / (m * 2 ^ l)) + c)) :
    ox + ((trunc (v - ox * (2 ^ l * m) + 1 / 2 * b) : ℚ) - b / 2) / (m * 2 ^ l)
      = s * (x + ((i : ℚ) - b / 2) / (m * 2 ^ l)) + c := by
  have hw : (2 : ℚ) ^ l ≠ 0 := by positivity
  have hm' : (m : ℚ) ≠ 0 := by
    have : (0 : ℚ) < m := by exact_mod_cast hm
    exact ne_of_gt this
  have key : ∃ z : ℤ, v - ox * (2 ^ l * m) + 1 / 2 * b = z := by
    rcases hs with rfl | rfl
    · refine ⟨X * m + i + c * 2 ^ l * m - OX * m, ?_⟩
      rw [hv, hx, hox]; push_cast; field_simp; ring
    · refine ⟨-(X * m + i) + b + c * 2 ^ l * m - OX * m, ?_⟩
      rw [hv, hx, hox]; push_cast; field_simp; ring
  obtain ⟨z, hz⟩ := key
  rw [hz, trunc_int]
  have hz' : (z : ℚ) = v - ox * (2 ^ l * m) + 1 / 2 * b := hz.symm
  rw [hz', hv]
  field_simp
  ring

theorem valid_of_gluing (d3 : Bool) (ft : Nat → Nat) (g : Gluing d3 ft) : valid d3 ft = true := by
  obtain ⟨m0, m1, m2, t0, t1, t2, r0, r1, r2, _, _, _, _⟩ := g
  unfold valid
  cases d3 <;> simp [List.range, List.range.loop] at * <;> omega

theorem sizesOk_of {d3 : Bool} {m : Nat → Nat} {based : Nat} (h : Sizes d3 m based) :
    sizesOk d3 m based = true := by
  obtain ⟨h1, h2⟩ := h
  unfold sizesOk
  cases d3 <;> simp [axes] at * <;> omega

theorem axesOk_of_match {d3 : Bool} {ft m : Nat → Nat} (h : SizesMatch d3 ft m) :
    axesOk d3 ft m = true := by
  unfold axesOk
  obtain ⟨h1, h2, h3⟩ := h
  cases d3 <;> simp_all

/-! The loop over children. -/

theorem writeAll_get (key : (Nat → Nat) → Nat) (val : (Nat → Nat) → Nat → ℤ) (l : List (Nat → Nat))
    (is : Nat → Nat) (hmem : is ∈ l) (hinj : ∀ is' ∈ l, key is' = key is → is' = is) :
    writeAll key val l (key is) = some (val is) := by
  unfold writeAll
  have gen : ∀ (l : List (Nat → Nat)) (o : Nat → Option (Nat → ℤ)),
      (∀ is' ∈ l, key is' = key is → is' = is) →
      (is ∈ l ∨ o (key is) = some (val is)) →
      (l.foldl (fun o is => upd o (key is) (some (val is))) o) (key is) = some (val is) := by
    intro l
    induction l with
    | nil =>
      intro o _ h
      rcases h with h | h
      · simp at h
      · exact h
    | cons x l ih =>
      intro o hi h
      simp only [List.foldl_cons]
      apply ih
      · intro y hy; exact hi y (by simp [hy])
      · by_cases hx : key x = key is
        · right
          have := hi x (by simp) hx
          subst this
          simp
        · rcases h with h | h
          · rcases List.mem_cons.1 h with h | h
            · subst h; exact absurd rfl hx
            · exact Or.inl h
          · right
            rw [upd_ne _ _ _ _ (Ne.symm hx)]
            exact h
  exact gen l _ hinj (Or.inl hmem)

theorem mem_childLoop (d3 : Bool) (b : Nat → Nat) : b ∈ childLoop d3 ↔ IsChild d3 b := by
  unfold childLoop IsChild
  simp only [List.mem_flatMap, List.mem_map]
  constructor
  · rintro ⟨z, hz, y, hy, x, hx, rfl⟩
    refine ⟨x, y, z, rfl, ?_, ?_, ?_⟩
    · simp at hx; omega
    · simp at hy; omega
    · cases d3 <;> simp at hz ⊢ <;> omega
  · rintro ⟨x, y, z, rfl, hx, hy, hz⟩
    refine ⟨z, ?_, y, by simp; omega, x, by simp; omega, rfl⟩
    cases d3 <;> simp at hz ⊢ <;> omega

theorem child_lt {d3 : Bool} {b : Nat → Nat} (h : IsChild d3 b) (a : Nat) : b a < 2 := by
  obtain ⟨x, y, z, rfl, hx, hy, hz⟩ := h
  unfold bits
  split
  · exact hx
  · split
    · exact hy
    · cases d3 <;> simp at hz <;> omega

theorem child_ext {d3 : Bool} {b b' : Nat → Nat} (h : IsChild d3 b) (h' : IsChild d3 b')
    (he : ∀ a ∈ axes d3, b a = b' a) : b = b' := by
  obtain ⟨x, y, z, rfl, hx, hy, hz⟩ := h
  obtain ⟨x', y', z', rfl, hx', hy', hz'⟩ := h'
  have e0 := he 0 (by cases d3 <;> simp [axes])
  have e1 := he 1 (by cases d3 <;> simp [axes])
  simp [bits] at e0 e1
  subst e0 e1
  cases d3 with
  | false => simp at hz hz'; subst hz hz'; rfl
  | true =>
    have e2 := he 2 (by simp [axes])
    simp [bits] at e2
    subst e2; rfl

theorem childNo_inj {b b' : Nat → Nat} (hb : ∀ a, b a < 2) (hb' : ∀ a, b' a < 2)
    (h : childNo b = childNo b') : b 0 = b' 0 ∧ b 1 = b' 1 ∧ b 2 = b' 2 := by
  unfold childNo at h
  have := hb 0; have := hb 1; have := hb 2
  have := hb' 0; have := hb' 1; have := hb' 2
  omega

theorem axes_lt3 {d3 : Bool} {a : Nat} (h : a ∈ axes d3) : a = 0 ∨ a = 1 ∨ a = 2 := by
  cases d3 <;> simp [axes] at h <;> omega

theorem neg_neg' {b : Nat} (h : b < 2) : neg (neg b) = b := by
  have : b = 0 ∨ b = 1 := by omega
  rcases this with rfl | rfl <;> rfl

theorem neg_lt (b : Nat) : neg b < 2 := by unfold neg; split <;> omega

/-- Bit flip of a slot. -/
def flip (s : ℤ) (b : Nat) : Nat := if s = 1 then b else neg b

theorem flip_flip (s : ℤ) {b : Nat} (h : b < 2) : flip s (flip s b) = b := by
  unfold flip; split
  · rfl
  · exact neg_neg' h

theorem flip_lt (s : ℤ) {b : Nat} (h : b < 2) : flip s b < 2 := by
  unfold flip; split
  · exact h
  · exact neg_lt b

theorem flip_cast {s : ℤ} (hs : s = 1 ∨ s = -1) {b : Nat} (h : b < 2) :
    ((flip s b : Nat) : ℚ) - 1 / 2 = s * ((b : ℚ) - 1 / 2) := by
  have : b = 0 ∨ b = 1 := by omega
  rcases hs with rfl | rfl <;> rcases this with rfl | rfl <;> simp [flip, neg] <;> norm_num

theorem bigCoord_at (d3 : Bool) (ft : Nat → Nat) (g : Gluing d3 ft) (is : Nat → Nat) :
    bigCoord d3 ft is (ft 0) = flip (sT (ft 6)) (is (ft 3)) ∧
    (d3 = true → bigCoord d3 ft is (ft 1) = flip (sT (ft 7)) (is (ft 4))) ∧
    bigCoord d3 ft is (ft 2) = flip (sN (ft 8)) (is (ft 5)) ∧
    (d3 = false → bigCoord d3 ft is 2 = 0) := by
  have f0 : ∀ r b, (if r = 0 then b else neg b) = flip (sT r) b := by
    intro r b; unfold flip sT; split <;> simp
  have f2 : ∀ b, (if ft 8 = 1 ∨ ft 8 = 2 then b else neg b) = flip (sN (ft 8)) b := by
    intro b; unfold flip sN; split <;> simp
  unfold bigCoord
  simp only [f0, f2]
  refine ⟨?_, ?_, upd_same _ _ _, ?_⟩
  · rw [upd_ne _ _ _ _ g.my02]
    cases hd : d3 with
    | false => simp
    | true => simp [upd_ne _ _ _ _ (g.my01 hd).1]
  · intro hd
    subst hd
    rw [upd_ne _ _ _ _ (g.my01 rfl).2]
    simp
  · intro hd
    subst hd
    have h0 := g.my0
    have h2 := g.my2
    simp at h0 h2
    rw [upd_ne _ _ _ _ (by omega)]
    simp only [Bool.false_eq_true, if_false]
    rw [upd_ne _ _ _ _ (by omega)]

theorem bigCoord_lt (d3 : Bool) (ft : Nat → Nat) (g : Gluing d3 ft) (is : Nat → Nat)
    (hb : ∀ a, is a < 2) (a : Nat) (ha : a = 0 ∨ a = 1 ∨ a = 2) : bigCoord d3 ft is a < 2 := by
  obtain ⟨h0, h1, h2, h3⟩ := bigCoord_at d3 ft g is
  by_cases hax : a ∈ axes d3
  · rcases my_axis d3 ft g a hax with rfl | ⟨hd, rfl⟩ | rfl
    · rw [h0]; exact flip_lt _ (hb _)
    · rw [h1 hd]; exact flip_lt _ (hb _)
    · rw [h2]; exact flip_lt _ (hb _)
  · cases d3 with
    | true => simp [axes] at hax; omega
    | false =>
      simp [axes] at hax
      have : a = 2 := by omega
      subst this
      rw [h3 rfl]; omega

/-- The small cell belonging to child `b` of the big cell, and that no other one is written to the
same place. -/
theorem bigCoord_surj (d3 : Bool) (ft : Nat → Nat) (g : Gluing d3 ft) (b : Nat → Nat)
    (hb : IsChild d3 b) :
    ∃ is, is ∈ childLoop d3 ∧ childNo (bigCoord d3 ft is) = childNo b ∧
      (∀ is' ∈ childLoop d3, childNo (bigCoord d3 ft is') = childNo (bigCoord d3 ft is) → is' = is) ∧
      is (ft 3) = flip (sT (ft 6)) (b (ft 0)) ∧
      (d3 = true → is (ft 4) = flip (sT (ft 7)) (b (ft 1))) ∧
      is (ft 5) = flip (sN (ft 8)) (b (ft 2)) := by
  -- the bit of axis a
  let v : Nat → Nat := fun a =>
    if a = ft 3 then flip (sT (ft 6)) (b (ft 0))
    else if a = ft 5 then flip (sN (ft 8)) (b (ft 2))
    else if d3 then flip (sT (ft 7)) (b (ft 1)) else 0
  let is : Nat → Nat := bits (v 0) (v 1) (if d3 then v 2 else 0)
  have hvlt : ∀ a, v a < 2 := by
    intro a
    simp only [v]
    split
    · exact flip_lt _ (child_lt hb _)
    · split
      · exact flip_lt _ (child_lt hb _)
      · split
        · exact flip_lt _ (child_lt hb _)
        · omega
  have hchild : IsChild d3 is := ⟨v 0, v 1, if d3 then v 2 else 0, rfl, hvlt 0, hvlt 1, by
    cases d3
    · simp
    · simpa using hvlt 2⟩
  have hisv : ∀ a ∈ axes d3, is a = v a := by
    intro a ha
    cases d3 with
    | false => simp [axes] at ha; rcases ha with rfl | rfl <;> simp [is, bits]
    | true => simp [axes] at ha; rcases ha with rfl | rfl | rfl <;> simp [is, bits]
  obtain ⟨ma3, ma4, ma5⟩ := mem_axes_target d3 ft g
  have e3 : is (ft 3) = flip (sT (ft 6)) (b (ft 0)) := by
    rw [hisv _ ma3]; simp [v]
  have e5 : is (ft 5) = flip (sN (ft 8)) (b (ft 2)) := by
    rw [hisv _ ma5]
    simp only [v]
    simp [Ne.symm g.t02]
  have e4 : d3 = true → is (ft 4) = flip (sT (ft 7)) (b (ft 1)) := by
    intro hd
    rw [hisv _ (ma4 hd)]
    simp only [v]
    have := g.t01 hd
    rw [if_neg (Ne.symm this.1), if_neg this.2, if_pos hd]
  obtain ⟨b0, b1, b2, b3⟩ := bigCoord_at d3 ft g is
  have hbig : ∀ a, a = 0 ∨ a = 1 ∨ a = 2 → bigCoord d3 ft is a = b a := by
    intro a ha
    by_cases hax : a ∈ axes d3
    · rcases my_axis d3 ft g a hax with rfl | ⟨hd, rfl⟩ | rfl
      · rw [b0, e3, flip_flip _ (child_lt hb _)]
      · rw [b1 hd, e4 hd, flip_flip _ (child_lt hb _)]
      · rw [b2, e5, flip_flip _ (child_lt hb _)]
    · cases d3 with
      | true => simp [axes] at hax; omega
      | false =>
        simp [axes] at hax
        have : a = 2 := by omega
        subst this
        rw [b3 rfl]
        obtain ⟨x, y, z, rfl, _, _, hz⟩ := hb
        simp at hz
        simp [bits, hz]
  refine ⟨is, (mem_childLoop d3 is).2 hchild, ?_, ?_, e3, e4, e5⟩
  · unfold childNo
    rw [hbig 0 (by simp), hbig 1 (by simp), hbig 2 (by simp)]
  · intro is' his' hkey
    have hch' := (mem_childLoop d3 is').1 his'
    obtain ⟨c0, c1, c2, c3⟩ := bigCoord_at d3 ft g is'
    have hall : ∀ a ∈ axes d3, bigCoord d3 ft is' a = bigCoord d3 ft is a := by
      have l0 := bigCoord_lt d3 ft g is (child_lt hchild)
      have l1 := bigCoord_lt d3 ft g is' (child_lt hch')
      unfold childNo at hkey
      have := l0 0 (by simp); have := l0 1 (by simp); have := l0 2 (by simp)
      have := l1 0 (by simp); have := l1 1 (by simp); have := l1 2 (by simp)
      intro a ha
      rcases axes_lt3 ha with rfl | rfl | rfl <;> omega
    obtain ⟨my0, my1, my2⟩ := mem_axes_my d3 ft g
    apply child_ext hch' hchild
    intro a ha
    rcases target_axis d3 ft g a ha with rfl | ⟨hd, rfl⟩ | rfl
    · have := hall _ my0
      rw [c0, b0] at this
      have h2 := congrArg (flip (sT (ft 6))) this
      rwa [flip_flip _ (child_lt hch' _), flip_flip _ (child_lt hchild _)] at h2
    · have := hall _ (my1 hd)
      rw [c1 hd, b1 hd] at this
      have h2 := congrArg (flip (sT (ft 7))) this
      rwa [flip_flip _ (child_lt hch' _), flip_flip _ (child_lt hchild _)] at h2
    · have := hall _ my2
      rw [c2, b2] at this
      have h2 := congrArg (flip (sN (ft 8))) this
      rwa [flip_flip _ (child_lt hch' _), flip_flip _ (child_lt hchild _)] at h2

/-- Integrality for the half-size transformation. -/
theorem index_core2 (X OX i s c : ℤ) (hs : s = 1 ∨ s = -1) (m l : Nat) (hm : 1 ≤ m) (b : Nat) (x ox : ℚ)
    (hx : x = X / 2 ^ l) (hox : ox = OX / 2 ^ (l + 1)) (v : ℚ)
    (hv : v = (2 : ℚ) ^ (l + 1) * m * (s * (x + ((i : ℚ) - b + 1 / 2) / (m * 2 ^ l)) + c))
    (bit is : Nat) (his : ((is : Nat) : ℚ) - 1 / 2 = s * ((bit : ℚ) - 1 / 2)) :
    ox + (((trunc (v - ox * (2 ^ (l + 1) * m)) + b - 1 + is : ℤ) : ℚ) - b + 1 / 2) / (m * 2 ^ (l + 1))
      = s * (x + ((i : ℚ) - b + 1 / 4 + bit / 2) / (m * 2 ^ l)) + c := by
  have hw : (2 : ℚ) ^ l ≠ 0 := by positivity
  have hm' : (m : ℚ) ≠ 0 := by
    have : (0 : ℚ) < m := by exact_mod_cast hm
    exact ne_of_gt this
  have key : ∃ z : ℤ, v - ox * (2 ^ (l + 1) * m) = z := by
    refine ⟨s * (2 * X * m + 2 * i + 1 - 2 * b) + c * 2 * 2 ^ l * m - OX * m, ?_⟩
    rw [hv, hx, hox]; push_cast; rw [pow_succ]; field_simp; ring
  obtain ⟨z, hz⟩ := key
  rw [hz, trunc_int]
  have hz' : (z : ℚ) = v - ox * (2 ^ (l + 1) * m) := hz.symm
  have his' : (is : ℚ) = s * ((bit : ℚ) - 1 / 2) + 1 / 2 := by linarith
  push_cast
  rw [hz', hv, his', pow_succ]
  field_simp
  ring

/-- Integrality for translations. -/
theorem trans_core (X OX c : ℤ) (l m : Nat) (hm : 1 ≤ m) (b : Nat) (i : ℤ) (x ox : ℚ)
    (hx : x = X / 2 ^ l) (hox : ox = OX / 2 ^ l) :
    ox + (((i + trunc ((x - ox + c) * (2 ^ l * m)) : ℤ) : ℚ) - b / 2) / (m * 2 ^ l)
      = x + ((i : ℚ) - b / 2) / (m * 2 ^ l) + c := by
  have hw : (2 : ℚ) ^ l ≠ 0 := by positivity
  have hm' : (m : ℚ) ≠ 0 := by
    have : (0 : ℚ) < m := by exact_mod_cast hm
    exact ne_of_gt this
  have key : (x - ox + c) * (2 ^ l * m) = ((X - OX + c * 2 ^ l) * m : ℤ) := by
    rw [hx, hox]; push_cast; field_simp
  rw [key, trunc_int, hx, hox]
  push_cast
  field_simp
  ring

theorem trans_core2 (X OX c : ℤ) (l m : Nat) (hm : 1 ≤ m) (b : Nat) (i : ℤ) (bit : Nat) (x ox : ℚ)
    (hx : x = X / 2 ^ l) (hox : ox = OX / 2 ^ (l + 1)) :
    ox + (((b + trunc ((x - ox + c) * (2 ^ (l + 1) * m) + 2 * ((i : ℚ) - b)) + bit : ℤ) : ℚ) - b + 1 / 2)
        / (m * 2 ^ (l + 1))
      = x + ((i : ℚ) - b + 1 / 4 + bit / 2) / (m * 2 ^ l) + c := by
  have hw : (2 : ℚ) ^ l ≠ 0 := by positivity
  have hm' : (m : ℚ) ≠ 0 := by
    have : (0 : ℚ) < m := by exact_mod_cast hm
    exact ne_of_gt this
  have key : (x - ox + c) * (2 ^ (l + 1) * m) + 2 * ((i : ℚ) - b)
      = ((2 * X - OX + 2 * c * 2 ^ l) * m + 2 * (i - b) : ℤ) := by
    rw [hx, hox, pow_succ]; push_cast; field_simp
  rw [key, trunc_int, hx, hox, pow_succ]
  push_cast
  field_simp
  ring

/-- Positions determine indices. -/
theorem location_inj {p : Patch} {m : Nat → Nat} {b : Nat} {i i' : Nat → ℤ} {a : Nat} (hm : 1 ≤ m a)
    (h : location p m b i a = location p m b i' a) : i a = i' a := by
  unfold location at h
  have hw : (0 : ℚ) < 2 ^ p.level := by positivity
  have hm' : (0 : ℚ) < m a := by exact_mod_cast hm
  have hne : (m a : ℚ) * 2 ^ p.level ≠ 0 := by positivity
  have h1 : ((i a : ℚ) - b / 2) / (m a * 2 ^ p.level) = ((i' a : ℚ) - b / 2) / (m a * 2 ^ p.level) := by
    linarith
  have h2 := (div_left_inj' hne).1 h1
  have : (i a : ℚ) = i' a := by linarith
  exact_mod_cast this

theorem reverse_gluing (d3 : Bool) (ft : Nat → Nat) (g : Gluing d3 ft) : Gluing d3 (reverse ft) := by
  obtain ⟨m0, m1, m2, t0, t1, t2, r0, r1, r2, m02, m01, t02, t01⟩ := g
  exact ⟨t0, t1, t2, m0, m1, m2, r0, r1, by simp only [reverse]; omega, t02, t01, m02, m01⟩

theorem reverse_samePoint (d3 : Bool) (ft : Nat → Nat) (g : Gluing d3 ft) (p p' : Nat → ℚ)
    (h : SamePoint d3 ft p p') : SamePoint d3 (reverse ft) p' p := by
  obtain ⟨h0, h1, h2⟩ := h
  refine ⟨?_, ?_, ?_⟩
  · simp only [reverse]
    rw [h0]
    split <;> ring
  · intro hd
    simp only [reverse]
    rw [h1 hd]
    split <;> ring
  · simp only [reverse]
    have := g.r2
    have : ft 8 = 0 ∨ ft 8 = 1 ∨ ft 8 = 2 ∨ ft 8 = 3 := by omega
    rcases this with h | h | h | h <;> rw [h] at h2 ⊢ <;> simp [inside, outside] at h2 ⊢ <;> linarith

/-- The other coordinates are determined. -/
theorem samePoint_det (d3 : Bool) (ft : Nat → Nat) (g : Gluing d3 ft) (p p' p'' : Nat → ℚ)
    (h : SamePoint d3 ft p p') (h' : SamePoint d3 ft p p'') (a : Nat) (ha : a ∈ axes d3) :
    p' a = p'' a := by
  rw [samePoint_iff d3 ft g.r2] at h h'
  rcases target_axis d3 ft g a ha with rfl | ⟨hd, rfl⟩ | rfl
  · rw [h.1, h'.1]
  · rw [h.2.1 hd, h'.2.1 hd]
  · rw [h.2.2, h'.2.2]

theorem reverse_sizes {d3 : Bool} {ft m : Nat → Nat} (h : SizesMatch d3 ft m) :
    SizesMatch d3 (reverse ft) m := ⟨h.1.symm, fun hd => (h.2.1 hd).symm, h.2.2.symm⟩

/-- Which entries are written. -/
theorem writeAll_written (key : (Nat → Nat) → Nat) (val : (Nat → Nat) → Nat → ℤ) (l : List (Nat → Nat))
    (k : Nat) (h : writeAll key val l k ≠ none) : ∃ is ∈ l, key is = k := by
  unfold writeAll at h
  have gen : ∀ (l : List (Nat → Nat)) (o : Nat → Option (Nat → ℤ)),
      (l.foldl (fun o is => upd o (key is) (some (val is))) o) k ≠ none →
      o k ≠ none ∨ ∃ is ∈ l, key is = k := by
    intro l
    induction l with
    | nil => intro o h; exact Or.inl h
    | cons x l ih =>
      intro o h
      rcases ih _ h with h1 | ⟨is, h1, h2⟩
      · by_cases hx : key x = k
        · exact Or.inr ⟨x, by simp, hx⟩
        · left
          dsimp only at h1
          rwa [upd_ne _ _ _ _ (Ne.symm hx)] at h1
      · exact Or.inr ⟨is, by simp [h1], h2⟩
  rcases gen l _ h with h | h
  · exact absurd rfl h
  · exact h

theorem child_zero {b : Nat → Nat} (h : IsChild false b) : b 2 = 0 := by
  obtain ⟨x, y, z, rfl, _, _, hz⟩ := h
  simpa [bits] using hz

theorem childNo_lt {d3 : Bool} {b : Nat → Nat} (h0 : b 0 < 2) (h1 : b 1 < 2) (h2 : b 2 < 2)
    (h3 : d3 = false → b 2 = 0) : childNo b < if d3 then 8 else 4 := by
  unfold childNo
  cases d3 with
  | true => simp; omega
  | false => have := h3 rfl; simp; omega

theorem childCentre_ne {d3 : Bool} {p : Patch} {m : Nat → Nat} {based : Nat} {idx : Nat → ℤ}
    (hm : ∀ a ∈ axes d3, 1 ≤ m a) {b b' : Nat → Nat} (hb : IsChild d3 b) (hb' : IsChild d3 b')
    (hne : b ≠ b') :
    ∃ a ∈ axes d3, childCentre p m based idx b a ≠ childCentre p m based idx b' a := by
  by_contra hcon
  apply hne
  apply child_ext hb hb'
  intro a ha
  have hnot : ¬ (childCentre p m based idx b a ≠ childCentre p m based idx b' a) :=
    fun h => hcon ⟨a, ha, h⟩
  have h := not_not.1 hnot
  unfold childCentre at h
  have hm' : (0 : ℚ) < m a := by exact_mod_cast hm a ha
  have hd : (m a : ℚ) * 2 ^ p.level ≠ 0 := by positivity
  have h1 : ((idx a : ℚ) - based + 1 / 4 + b a / 2) / (m a * 2 ^ p.level)
      = ((idx a : ℚ) - based + 1 / 4 + b' a / 2) / (m a * 2 ^ p.level) := by linarith
  have h2 := (div_left_inj' hd).1 h1
  have : (b a : ℚ) = b' a := by linarith
  exact_mod_cast this

end Fclaw.Transform
