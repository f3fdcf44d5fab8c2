import Verif.GeoBc.Spec
import Verif.Bc.Props
/-
Lemmas for C112.
-/
set_option autoImplicit false
set_option linter.unusedSimpArgs false
set_option linter.unusedVariables false
namespace Fclaw.GeoBc

open Fort
open Bc (Out ofOption Kind image sign behindWall)

/-- The program sets the elements in `S` to `g` times the old value of the element `src`. -/
def Pulls (S : El → Prop) (g : El → ℚ) (src : El → El) (f : Mem → Option Mem) : Prop :=
  ∀ M, ∃ M', f M = some M' ∧ (∀ e, S e → M' e = g e * M (src e)) ∧ ∀ e, ¬ S e → M' e = M e

theorem Pulls.congr {S T : El → Prop} {g : El → ℚ} {src : El → El} {f : Mem → Option Mem} (h : Pulls S g src f) (hst : ∀ e, S e ↔ T e) :
    Pulls T g src f := by
  have : S = T := funext fun e => propext (hst e)
  exact this ▸ h

theorem Pulls.put {d : Sizes} {dst : El} {g : El → ℚ} {src : El → El} {s : El} {r : ℚ} (h1 : d.has dst = true) (h2 : d.has s = true)
    (hs : src dst = s) (hr : g dst = r) : Pulls (fun e => e = dst) g src (GeoBc.put d dst s r) := by
  intro M
  refine ⟨fun e => if e = dst then r * M s else M e, by simp [GeoBc.put, h1, h2], ?_, ?_⟩
  · rintro e rfl; simp [hs, hr]
  · intro e h; simp [h]

theorem Pulls.bind {S1 S2 T : El → Prop} {g : El → ℚ} {src : El → El} {f1 f2 : Mem → Option Mem} (p1 : Pulls S1 g src f1)
    (p2 : Pulls S2 g src f2) (h1 : ∀ e, S1 e → T e) (h2 : ∀ e, S2 e → T e) (ht : ∀ e, T e → ¬ T (src e)) :
    Pulls (fun e => S1 e ∨ S2 e) g src (fun M => (f1 M).bind f2) := by
  intro M
  obtain ⟨M1, e1, a1, b1⟩ := p1 M
  obtain ⟨M2, e2, a2, b2⟩ := p2 M1
  refine ⟨M2, by simp [e1, e2], ?_, ?_⟩
  · intro e h
    by_cases q : S2 e
    · rw [a2 e q, b1 _ (fun h => ht e (h2 e q) (h1 _ h))]
    · rw [b2 e q, a1 e (h.resolve_right q)]
  · intro e h
    rw [b2 e (fun q => h (Or.inr q)), b1 e (fun q => h (Or.inl q))]

theorem Pulls.loop {ι : Type} {S : ι → El → Prop} {T : El → Prop} {g : El → ℚ} {src : El → El} {f : ι → Mem → Option Mem}
    (ht : ∀ e, T e → ¬ T (src e)) (ks : List ι) :
    (∀ k ∈ ks, Pulls (S k) g src (f k)) → (∀ k ∈ ks, ∀ e, S k e → T e) → Pulls (fun e => ∃ k ∈ ks, S k e) g src (Fort.loop ks f) := by
  induction ks with
  | nil => intro _ _ M; exact ⟨M, rfl, by simp, by simp⟩
  | cons k ks ih =>
    intro h1 h2
    refine ((h1 k (by simp)).bind (ih (fun k' h => h1 k' (by simp [h])) (fun k' h => h2 k' (by simp [h]))) (h2 k (by simp)) (T := T) ?_ ht).congr ?_
    · rintro e ⟨k', h, q⟩; exact h2 k' (by simp [h]) e q
    · intro e; simp

theorem Pulls.doLoop {S : ℤ → El → Prop} {T : El → Prop} {g : El → ℚ} {src : El → El} {f : ℤ → Mem → Option Mem} {lo hi : ℤ}
    (ht : ∀ e, T e → ¬ T (src e)) (h1 : ∀ k, lo ≤ k → k ≤ hi → Pulls (S k) g src (f k)) (h2 : ∀ k, lo ≤ k → k ≤ hi → ∀ e, S k e → T e) :
    Pulls (fun e => ∃ k, (lo ≤ k ∧ k ≤ hi) ∧ S k e) g src (Fort.doLoop lo hi f) := by
  refine (Pulls.loop (S := S) ht (range lo hi) (fun k h => ?_) (fun k h => ?_)).congr ?_
  · rw [mem_range] at h; exact h1 k h.1 h.2
  · rw [mem_range] at h; exact h2 k h.1 h.2
  · intro e; simp only [mem_range]

theorem has_iff (d : Sizes) (a : Arr) (i j m : ℤ) : d.has (a, i, j, m) = true ↔ (1 - (d.mbc : ℤ) ≤ i ∧ i ≤ d.mx + d.mbc) ∧
    (1 - (d.mbc : ℤ) ≤ j ∧ j ≤ d.my + d.mbc) ∧ 1 ≤ m ∧ m ≤ d.comps a := by
  rw [Sizes.has, inBox_iff]

/-- The elements of water and ground. -/
def Touched (d : Sizes) (a : Arr) (e : El) : Prop := (e.1 = a ∧ 1 ≤ e.2.2.2 ∧ e.2.2.2 ≤ d.meqn) ∨ (e.1 = .aux ∧ e.2.2.2 = 1)

/-- One cell. -/
theorem copyCell_pulls (d : Sizes) (a : Arr) (ha : a ≠ .aux) (hx : 1 ≤ d.maux) (di dj si sj : ℤ) (src : El → El) (T : El → Prop)
    (ht : ∀ e, T e → ¬ T (src e)) (hT : ∀ b m, T (b, di, dj, m)) (hs : ∀ b m, src (b, di, dj, m) = (b, si, sj, m))
    (hd : ∀ b m, 1 ≤ m → m ≤ (d.comps b : ℤ) → d.has (b, di, dj, m) = true) (hr : ∀ b m, 1 ≤ m → m ≤ (d.comps b : ℤ) → d.has (b, si, sj, m) = true) :
    Pulls (fun e => Touched d a e ∧ e.2.1 = di ∧ e.2.2.1 = dj) (fun _ => 1) src (copyCell d a di dj si sj) := by
  have ca : d.comps a = d.meqn := by cases a <;> first | rfl | exact absurd rfl ha
  have x1 : (1 : ℤ) ≤ (d.comps .aux : ℤ) := by show (1 : ℤ) ≤ (d.maux : ℤ); omega
  refine (Pulls.bind (T := T) (Pulls.put (hd .aux 1 le_rfl x1) (hr .aux 1 le_rfl x1) (hs _ _) rfl)
    (Pulls.doLoop (T := T) ht (fun m h1 h2 => Pulls.put (hd a m h1 (by rw [ca]; exact h2)) (hr a m h1 (by rw [ca]; exact h2)) (hs _ _) rfl) ?_) ?_ ?_ ht).congr ?_
  · rintro m _ _ e rfl; exact hT _ _
  · rintro e rfl; exact hT _ _
  · rintro e ⟨m, _, rfl⟩; exact hT _ _
  · rintro ⟨b, i, j, m⟩
    simp only [Touched, Prod.mk.injEq]
    constructor
    · rintro (⟨rfl, rfl, rfl, rfl⟩ | ⟨k, ⟨h1, h2⟩, rfl, rfl, rfl, rfl⟩)
      · exact ⟨Or.inr ⟨rfl, rfl⟩, rfl, rfl⟩
      · exact ⟨Or.inl ⟨rfl, h1, h2⟩, rfl, rfl⟩
    · rintro ⟨⟨rfl, h1, h2⟩ | ⟨rfl, rfl⟩, rfl, rfl⟩
      · exact Or.inr ⟨m, ⟨h1, h2⟩, rfl, rfl, rfl, rfl⟩
      · exact Or.inl ⟨rfl, rfl, rfl, rfl⟩

/-- What is needed of the cells of a side in one direction with `n` cells. -/
structure Side (n mbc : ℕ) (dst src w : ℤ → ℤ) (S : ℤ → Prop) : Prop where
  hS : ∀ i : ℤ, 1 - (mbc : ℤ) ≤ i → i ≤ n + mbc → (S i ↔ ∃ b : ℤ, (1 ≤ b ∧ b ≤ mbc) ∧ i = dst b)
  hd : ∀ b : ℤ, 1 ≤ b → b ≤ mbc → (1 - (mbc : ℤ) ≤ dst b ∧ dst b ≤ n + mbc) ∧ S (dst b)
  hs : ∀ b : ℤ, 1 ≤ b → b ≤ mbc → 1 - (mbc : ℤ) ≤ src b ∧ src b ≤ n + mbc
  hw : ∀ b : ℤ, 1 ≤ b → b ≤ mbc → w (dst b) = src b
  hn : ∀ i, S i → ¬ S (w i)

theorem xSide_pulls (d : Sizes) (a : Arr) (ha : a ≠ .aux) (hx : 1 ≤ d.maux) (dst src w : ℤ → ℤ) (S : ℤ → Prop) (s : Side d.mx d.mbc dst src w S) :
    Pulls (fun e => Touched d a e ∧ d.has e = true ∧ S e.2.1) (fun _ => 1) (fun e => (e.1, w e.2.1, e.2.2)) (xSide d a dst src) := by
  have ht : ∀ e : El, S e.2.1 → ¬ S (w e.2.1) := fun e => s.hn _
  refine (Pulls.doLoop (T := fun e : El => S e.2.1) ht (fun j hj1 hj2 => Pulls.doLoop (T := fun e : El => S e.2.1) ht (fun b h1 h2 =>
    copyCell_pulls d a ha hx (dst b) j (src b) j _ (fun e : El => S e.2.1) ht (fun _ _ => (s.hd b h1 h2).2) (fun _ _ => by simp only [s.hw b h1 h2])
      (fun c m m1 m2 => (has_iff ..).2 ⟨(s.hd b h1 h2).1, ⟨hj1, hj2⟩, m1, m2⟩) (fun c m m1 m2 => (has_iff ..).2 ⟨s.hs b h1 h2, ⟨hj1, hj2⟩, m1, m2⟩)) ?_) ?_).congr ?_
  · rintro b h1 h2 e ⟨_, h, _⟩; rw [h]; exact (s.hd b h1 h2).2
  · rintro j _ _ e ⟨b, ⟨h1, h2⟩, _, h, _⟩; rw [h]; exact (s.hd b h1 h2).2
  · rintro ⟨c, i, j, m⟩
    dsimp only
    constructor
    · rintro ⟨j', hj, b, hb, ht, rfl, rfl⟩
      refine ⟨ht, (has_iff ..).2 ⟨(s.hd b hb.1 hb.2).1, hj, ?_⟩, (s.hd b hb.1 hb.2).2⟩
      rcases ht with ⟨h0, h1, h2⟩ | ⟨h0, h1⟩ <;> dsimp only at h0 h1
      · refine ⟨h1, ?_⟩
        cases c
        · exact h2
        · exact h2
        · exact absurd h0.symm ha
      · subst h0 h1
        exact ⟨le_rfl, by show (1 : ℤ) ≤ (d.maux : ℤ); omega⟩
    · rintro ⟨ht, hh, hs⟩
      rw [has_iff] at hh
      obtain ⟨b, hb, e⟩ := (s.hS i hh.1.1 hh.1.2).1 hs
      exact ⟨j, hh.2.1, b, hb, ht, e, rfl⟩

theorem ySide_pulls (d : Sizes) (a : Arr) (ha : a ≠ .aux) (hx : 1 ≤ d.maux) (dst src w : ℤ → ℤ) (S : ℤ → Prop) (s : Side d.my d.mbc dst src w S) :
    Pulls (fun e => Touched d a e ∧ d.has e = true ∧ S e.2.2.1) (fun _ => 1) (fun e => (e.1, e.2.1, w e.2.2.1, e.2.2.2)) (ySide d a dst src) := by
  have ht : ∀ e : El, S e.2.2.1 → ¬ S (w e.2.2.1) := fun e => s.hn _
  refine (Pulls.doLoop (T := fun e : El => S e.2.2.1) ht (fun b h1 h2 => Pulls.doLoop (T := fun e : El => S e.2.2.1) ht (fun i hi1 hi2 =>
    copyCell_pulls d a ha hx i (dst b) i (src b) _ (fun e : El => S e.2.2.1) ht (fun _ _ => (s.hd b h1 h2).2) (fun _ _ => by simp only [s.hw b h1 h2])
      (fun c m m1 m2 => (has_iff ..).2 ⟨⟨hi1, hi2⟩, (s.hd b h1 h2).1, m1, m2⟩) (fun c m m1 m2 => (has_iff ..).2 ⟨⟨hi1, hi2⟩, s.hs b h1 h2, m1, m2⟩)) ?_) ?_).congr ?_
  · rintro i _ _ e ⟨_, _, h⟩; rw [h]; exact (s.hd b h1 h2).2
  · rintro b h1 h2 e ⟨i, _, _, _, h⟩; rw [h]; exact (s.hd b h1 h2).2
  · rintro ⟨c, i, j, m⟩
    dsimp only
    constructor
    · rintro ⟨b, hb, i', hi, ht, rfl, rfl⟩
      refine ⟨ht, (has_iff ..).2 ⟨hi, (s.hd b hb.1 hb.2).1, ?_⟩, (s.hd b hb.1 hb.2).2⟩
      rcases ht with ⟨h0, h1, h2⟩ | ⟨h0, h1⟩ <;> dsimp only at h0 h1
      · refine ⟨h1, ?_⟩
        cases c
        · exact h2
        · exact h2
        · exact absurd h0.symm ha
      · subst h0 h1
        exact ⟨le_rfl, by show (1 : ℤ) ≤ (d.maux : ℤ); omega⟩
    · rintro ⟨ht, hh, hs⟩
      rw [has_iff] at hh
      obtain ⟨b, hb, e⟩ := (s.hS j hh.2.1.1 hh.2.1.2).1 hs
      exact ⟨b, hb, i, hh.1, ht, rfl, e⟩

theorem comps_ne (d : Sizes) (a : Arr) (ha : a ≠ .aux) : d.comps a = d.meqn := by cases a <;> first | rfl | exact absurd rfl ha

theorem xNegate_pulls (d : Sizes) (a : Arr) (ha : a ≠ .aux) (hm : 3 ≤ d.meqn) (dst src w : ℤ → ℤ) (S : ℤ → Prop) (s : Side d.mx d.mbc dst src w S) :
    Pulls (fun e => (e.1 = a ∧ e.2.2.2 = 2) ∧ d.has e = true ∧ S e.2.1) (fun _ => -1) (fun e => (e.1, w e.2.1, e.2.2)) (xNegate d a dst src) := by
  have ht : ∀ e : El, S e.2.1 → ¬ S (w e.2.1) := fun e => s.hn _
  have hc : (1 : ℤ) ≤ 2 ∧ (2 : ℤ) ≤ d.comps a := by rw [comps_ne d a ha]; omega
  refine (Pulls.doLoop (T := fun e : El => S e.2.1) ht (fun j hj1 hj2 => Pulls.doLoop (T := fun e : El => S e.2.1) ht (fun b h1 h2 =>
    Pulls.put ((has_iff ..).2 ⟨(s.hd b h1 h2).1, ⟨hj1, hj2⟩, hc⟩) ((has_iff ..).2 ⟨s.hs b h1 h2, ⟨hj1, hj2⟩, hc⟩) (by simp only [s.hw b h1 h2]) rfl) ?_) ?_).congr ?_
  · rintro b h1 h2 e rfl; exact (s.hd b h1 h2).2
  · rintro j _ _ e ⟨b, ⟨h1, h2⟩, rfl⟩; exact (s.hd b h1 h2).2
  · rintro ⟨c, i, j, m⟩
    simp only [Prod.mk.injEq]
    constructor
    · rintro ⟨j', hj, b, hb, rfl, rfl, rfl, rfl⟩
      exact ⟨⟨rfl, rfl⟩, (has_iff ..).2 ⟨(s.hd b hb.1 hb.2).1, hj, hc⟩, (s.hd b hb.1 hb.2).2⟩
    · rintro ⟨⟨rfl, rfl⟩, hh, hs⟩
      rw [has_iff] at hh
      obtain ⟨b, hb, e⟩ := (s.hS i hh.1.1 hh.1.2).1 hs
      exact ⟨j, hh.2.1, b, hb, rfl, e, rfl, rfl⟩

theorem yNegate_pulls (d : Sizes) (a : Arr) (ha : a ≠ .aux) (hm : 3 ≤ d.meqn) (dst src w : ℤ → ℤ) (S : ℤ → Prop) (s : Side d.my d.mbc dst src w S) :
    Pulls (fun e => (e.1 = a ∧ e.2.2.2 = 3) ∧ d.has e = true ∧ S e.2.2.1) (fun _ => -1) (fun e => (e.1, e.2.1, w e.2.2.1, e.2.2.2)) (yNegate d a dst src) := by
  have ht : ∀ e : El, S e.2.2.1 → ¬ S (w e.2.2.1) := fun e => s.hn _
  have hc : (1 : ℤ) ≤ 3 ∧ (3 : ℤ) ≤ d.comps a := by rw [comps_ne d a ha]; omega
  refine (Pulls.doLoop (T := fun e : El => S e.2.2.1) ht (fun b h1 h2 => Pulls.doLoop (T := fun e : El => S e.2.2.1) ht (fun i hi1 hi2 =>
    Pulls.put ((has_iff ..).2 ⟨⟨hi1, hi2⟩, (s.hd b h1 h2).1, hc⟩) ((has_iff ..).2 ⟨⟨hi1, hi2⟩, s.hs b h1 h2, hc⟩) (by simp only [s.hw b h1 h2]) rfl) ?_) ?_).congr ?_
  · rintro i _ _ e rfl; exact (s.hd b h1 h2).2
  · rintro b h1 h2 e ⟨i, _, rfl⟩; exact (s.hd b h1 h2).2
  · rintro ⟨c, i, j, m⟩
    simp only [Prod.mk.injEq]
    constructor
    · rintro ⟨b, hb, i', hi, rfl, rfl, rfl, rfl⟩
      exact ⟨⟨rfl, rfl⟩, (has_iff ..).2 ⟨hi, (s.hd b hb.1 hb.2).1, hc⟩, (s.hd b hb.1 hb.2).2⟩
    · rintro ⟨⟨rfl, rfl⟩, hh, hs⟩
      rw [has_iff] at hh
      obtain ⟨b, hb, e⟩ := (s.hS j hh.2.1.1 hh.2.1.2).1 hs
      exact ⟨b, hb, i, hh.1, rfl, rfl, e, rfl⟩

end Fclaw.GeoBc
