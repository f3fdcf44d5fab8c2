import Verif.Pillow.Spec
/-
Loops over the ghost cells at a corner.
-/
set_option autoImplicit false
set_option linter.unusedSimpArgs false
namespace Fclaw.Pillow

open Fort CopyGhost Transfer

theorem away_corner (d : Dims) {k : Nat} (hk : k < 4) (i j : ℤ) : away d k (cornerCell d k i j) = (1 - i, 1 - j) := by
  interval_cases k <;> simp [away, cornerCell] <;> (try constructor) <;> omega

theorem away_mirror (d : Dims) {k : Nat} (hk : k < 4) (i j : ℤ) : away d k (mirrorCell d k i j) = (i, j) := by
  interval_cases k <;> simp [away, mirrorCell]

theorem away_inj (d : Dims) {k : Nat} {a b : ℤ × ℤ} (h : away d k a = away d k b) : a = b := by
  obtain ⟨a1, a2⟩ := a
  obtain ⟨b1, b2⟩ := b
  unfold away at h
  rw [Prod.mk.injEq] at h ⊢
  obtain ⟨h1, h2⟩ := h
  dsimp only at h1 h2
  constructor
  · split_ifs at h1 <;> omega
  · split_ifs at h2 <;> omega

theorem inCorner_away {d : Dims} {k : Nat} {i j : ℤ} :
    inCorner d k i j ↔ 1 - (d.mbc : ℤ) ≤ (away d k (i, j)).1 ∧ (away d k (i, j)).1 ≤ 0 ∧
      1 - (d.mbc : ℤ) ≤ (away d k (i, j)).2 ∧ (away d k (i, j)).2 ≤ 0 := by
  unfold inCorner away
  dsimp only
  split_ifs <;> omega

/-- A ghost cell at the corner, by its numbers. -/
theorem inCorner_iff {d : Dims} {k : Nat} (hk : k < 4) {i j : ℤ} :
    inCorner d k i j ↔ ∃ ibc jbc : ℤ, 1 ≤ ibc ∧ ibc ≤ d.mbc ∧ 1 ≤ jbc ∧ jbc ≤ d.mbc ∧ (i, j) = cornerCell d k ibc jbc := by
  rw [inCorner_away]
  constructor
  · rintro ⟨h1, h2, h3, h4⟩
    refine ⟨1 - (away d k (i, j)).1, 1 - (away d k (i, j)).2, by omega, by omega, by omega, by omega, away_inj d (k := k) ?_⟩
    rw [away_corner d hk]
    ext <;> simp
  · rintro ⟨ibc, jbc, h1, h2, h3, h4, e⟩
    rw [e, away_corner d hk]
    dsimp only
    omega

theorem corner_box {d : Dims} {k : Nat} {i j mq : ℤ} (h : inCorner d k i j) (hm : comp d mq) : inBox d (i, j, mq) = true := by
  rw [inBox_iff]
  unfold inCorner at h
  unfold comp at hm
  split_ifs at h <;> omega

theorem interior_away {d : Dims} {k : Nat} {c : ℤ × ℤ} :
    interior d c.1 c.2 ↔ 1 ≤ (away d k c).1 ∧ (away d k c).1 ≤ d.mx ∧ 1 ≤ (away d k c).2 ∧ (away d k c).2 ≤ d.my := by
  unfold interior away
  dsimp only
  split_ifs <;> omega

theorem interior_box {d : Dims} {i j mq : ℤ} (h : interior d i j) (hm : comp d mq) : inBox d (i, j, mq) = true := by
  rw [inBox_iff]
  unfold interior at h
  unfold comp at hm
  omega

/-- The loops over components and the ghost cells at a corner set those. -/
theorem corner_writes {d : Dims} {k : Nat} (hk : k < 4) {w : Cell → ℚ} {F : ℤ → ℤ → ℤ → Grid ℚ → Option (Grid ℚ)}
    (h : ∀ mq ibc jbc : ℤ, comp d mq → 1 ≤ ibc → ibc ≤ d.mbc → 1 ≤ jbc → jbc ≤ d.mbc →
      Writes (fun c => c = ((cornerCell d k ibc jbc).1, (cornerCell d k ibc jbc).2, mq)) w (F mq ibc jbc)) :
    Writes (fun c => inCorner d k c.1 c.2.1 ∧ comp d c.2.2) w
      (doLoop 1 d.meqn fun mq => doLoop 1 d.mbc fun ibc => doLoop 1 d.mbc fun jbc => F mq ibc jbc) := by
  refine (Writes.doLoop _ _ _ _ _ fun mq m1 m2 => Writes.doLoop _ _ _ _ _ fun ibc i1 i2 => Writes.doLoop _ _ _ _ _ fun jbc j1 j2 =>
    h mq ibc jbc ⟨m1, m2⟩ i1 i2 j1 j2).congr ?_
  rintro ⟨I, J, mq⟩
  dsimp only
  rw [inCorner_iff hk]
  constructor
  · rintro ⟨m, m1, m2, ibc, i1, i2, jbc, j1, j2, e⟩
    rw [Prod.mk.injEq, Prod.mk.injEq] at e
    obtain ⟨e1, e2, e3⟩ := e
    exact ⟨⟨ibc, jbc, i1, i2, j1, j2, by rw [e1, e2]⟩, by rw [e3]; exact ⟨m1, m2⟩⟩
  · rintro ⟨⟨ibc, jbc, i1, i2, j1, j2, e⟩, m1, m2⟩
    exact ⟨mq, m1, m2, ibc, i1, i2, jbc, j1, j2, by rw [← e]⟩

/-! ### Two arrays -/

/-- As `Writes`, for two arrays of which the elements in `I` are known (and not changed). -/
def Writes2 {α : Type} (I S : Cell → Prop) (a b w v : Cell → α) (f : Grid α × Grid α → Option (Grid α × Grid α)) : Prop :=
  ∀ Q : Grid α × Grid α, (∀ c, I c → Q.1 c = a c ∧ Q.2 c = b c) → ∃ Q', f Q = some Q' ∧
    (∀ c, S c → Q'.1 c = w c ∧ Q'.2 c = v c) ∧ ∀ c, ¬ S c → Q'.1 c = Q.1 c ∧ Q'.2 c = Q.2 c

theorem Writes2.loop {α ι : Type} {I : Cell → Prop} {a b w v : Cell → α} (S : ι → Cell → Prop)
    (f : ι → Grid α × Grid α → Option (Grid α × Grid α)) (ks : List ι) :
    (∀ k ∈ ks, ∀ c, S k c → ¬ I c) → (∀ k ∈ ks, Writes2 I (S k) a b w v (f k)) → Writes2 I (fun c => ∃ k ∈ ks, S k c) a b w v (loop ks f) := by
  induction ks with
  | nil =>
    intro _ _ Q _
    exact ⟨Q, rfl, fun c ⟨k, hk, _⟩ => by simp at hk, fun c _ => ⟨rfl, rfl⟩⟩
  | cons k ks ih =>
    intro hd h Q hQ
    obtain ⟨Q1, e1, a1, b1⟩ := h k (List.mem_cons_self ..) Q hQ
    have hQ1 : ∀ c, I c → Q1.1 c = a c ∧ Q1.2 c = b c := by
      intro c hc
      have := b1 c (fun hs => hd k (List.mem_cons_self ..) c hs hc)
      rw [this.1, this.2]
      exact hQ c hc
    obtain ⟨Q2, e2, a2, b2⟩ := ih (fun k' hk' => hd k' (List.mem_cons_of_mem _ hk'))
      (fun k' hk' => h k' (List.mem_cons_of_mem _ hk')) Q1 hQ1
    refine ⟨Q2, by simp [Fort.loop, e1, e2], ?_, ?_⟩
    · rintro c ⟨k', hk', hs⟩
      by_cases hc : ∃ k ∈ ks, S k c
      · exact a2 c hc
      · rw [(b2 c hc).1, (b2 c hc).2]
        rcases List.mem_cons.1 hk' with rfl | hk'
        · exact a1 c hs
        · exact absurd ⟨k', hk', hs⟩ hc
    · intro c hc
      have h2 := b2 c (fun ⟨k', hk', hs⟩ => hc ⟨k', List.mem_cons_of_mem _ hk', hs⟩)
      have h1 := b1 c (fun hs => hc ⟨k, List.mem_cons_self .., hs⟩)
      rw [h2.1, h2.2]
      exact h1

theorem Writes2.doLoop {α : Type} {I : Cell → Prop} {a b w v : Cell → α} (S : ℤ → Cell → Prop)
    (f : ℤ → Grid α × Grid α → Option (Grid α × Grid α)) (lo hi : ℤ)
    (hd : ∀ k, lo ≤ k → k ≤ hi → ∀ c, S k c → ¬ I c)
    (h : ∀ k, lo ≤ k → k ≤ hi → Writes2 I (S k) a b w v (f k)) :
    Writes2 I (fun c => ∃ k, lo ≤ k ∧ k ≤ hi ∧ S k c) a b w v (doLoop lo hi f) := by
  intro Q hQ
  obtain ⟨Q', h1, h2, h3⟩ := Writes2.loop (I := I) (a := a) (b := b) (w := w) (v := v) S f (range lo hi)
    (fun k hk => by rw [mem_range] at hk; exact hd k hk.1 hk.2) (fun k hk => by rw [mem_range] at hk; exact h k hk.1 hk.2) Q hQ
  refine ⟨Q', h1, fun c hc => h2 c ?_, fun c hc => h3 c ?_⟩
  · obtain ⟨k, k1, k2, k3⟩ := hc
    exact ⟨k, (mem_range _ _ _).2 ⟨k1, k2⟩, k3⟩
  · rintro ⟨k, k1, k2⟩
    exact hc ⟨k, ((mem_range _ _ _).1 k1).1, ((mem_range _ _ _).1 k1).2, k2⟩

end Fclaw.Pillow
