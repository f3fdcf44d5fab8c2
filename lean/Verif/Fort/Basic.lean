import Mathlib.Data.Int.Notation
import Mathlib.Tactic.ByContra
/-
Fortran arrays and loops, used by the models of the clawpatch routines in
src/patches/clawpatch/fort_4.6.

A solution array `q(1-mbc:mx+mbc, 1-mbc:my+mbc, meqn)` is a function of the indices together with the
bounds; an access outside of the bounds is `none`. Fortran does not check bounds: such an access is
undefined behaviour.
-/
set_option autoImplicit false
namespace Fclaw.Fort

/-- Sizes of a patch: interior cells in both directions, layers of ghost cells, components. -/
structure Dims where
  mx : Nat
  my : Nat
  mbc : Nat
  meqn : Nat
  deriving DecidableEq, Repr

/-- Indices `(i, j, mq)`. -/
abbrev Cell := ℤ × ℤ × ℤ

abbrev Grid (α : Type) := Cell → α

/-- Is the element part of the array? -/
def inBox (d : Dims) (c : Cell) : Bool :=
  decide (1 - (d.mbc : ℤ) ≤ c.1) && decide (c.1 ≤ d.mx + d.mbc) &&
  decide (1 - (d.mbc : ℤ) ≤ c.2.1) && decide (c.2.1 ≤ d.my + d.mbc) &&
  decide (1 ≤ c.2.2) && decide (c.2.2 ≤ d.meqn)

/-- Reading an element. -/
def rd {α : Type} (d : Dims) (q : Grid α) (c : Cell) : Option α :=
  if inBox d c then some (q c) else none

/-- Writing an element. -/
def wr {α : Type} (d : Dims) (q : Grid α) (c : Cell) (v : α) : Option (Grid α) :=
  if inBox d c then some (fun c' => if c' = c then v else q c') else none

/-- One after the other for the members of a list. -/
def loop {ι σ : Type} : List ι → (ι → σ → Option σ) → σ → Option σ
  | [], _, s => some s
  | k :: ks, f, s => (f k s).bind (loop ks f)

/-- The values of the loop variable of `do k = lo,hi`. -/
def range (lo hi : ℤ) : List ℤ := (List.range (hi + 1 - lo).toNat).map fun (n : Nat) => lo + (n : ℤ)

/-- `do k = lo,hi … enddo`. -/
def doLoop {σ : Type} (lo hi : ℤ) (f : ℤ → σ → Option σ) : σ → Option σ := loop (range lo hi) f

theorem mem_range (lo hi k : ℤ) : k ∈ range lo hi ↔ lo ≤ k ∧ k ≤ hi := by
  unfold range
  rw [List.mem_map]
  constructor
  · rintro ⟨n, hn, rfl⟩
    rw [List.mem_range] at hn
    omega
  · intro h
    exact ⟨(k - lo).toNat, by rw [List.mem_range]; omega, by omega⟩

theorem inBox_iff (d : Dims) (i j mq : ℤ) :
    inBox d (i, j, mq) = true ↔ (1 - (d.mbc : ℤ) ≤ i ∧ i ≤ d.mx + d.mbc) ∧
      (1 - (d.mbc : ℤ) ≤ j ∧ j ≤ d.my + d.mbc) ∧ 1 ≤ mq ∧ mq ≤ d.meqn := by
  simp [inBox, and_assoc]

/-- The program sets the elements in `S` to the values `w`, whatever the array held, and no others. -/
def Writes {α : Type} (S : Cell → Prop) (w : Cell → α) (f : Grid α → Option (Grid α)) : Prop :=
  ∀ q, ∃ q', f q = some q' ∧ (∀ c, S c → q' c = w c) ∧ ∀ c, ¬ S c → q' c = q c

theorem Writes.wr {α : Type} (d : Dims) (c : Cell) (v : α) (w : Cell → α) (hb : inBox d c = true)
    (hv : v = w c) : Writes (fun c' => c' = c) w (fun q => Fort.wr d q c v) := by
  intro q
  refine ⟨fun c' => if c' = c then v else q c', by simp [Fort.wr, hb], ?_, ?_⟩
  · intro c' h
    show (if c' = c then v else q c') = w c'
    rw [if_pos h, hv, h]
  · intro c' h
    show (if c' = c then v else q c') = q c'
    rw [if_neg h]

/-- An assignment `q(c) = v` where `v` is computed from other arrays. -/
theorem Writes.assign {α : Type} (d : Dims) (c : Cell) (e : Option α) (w : Cell → α)
    (hb : inBox d c = true) (hv : e = some (w c)) :
    Writes (fun c' => c' = c) w (fun q => e.bind fun v => Fort.wr d q c v) := by
  subst hv
  exact Writes.wr d c (w c) w hb rfl

theorem Writes.congr {α : Type} {S T : Cell → Prop} {w : Cell → α} {f : Grid α → Option (Grid α)}
    (h : Writes S w f) (hst : ∀ c, S c ↔ T c) : Writes T w f := by
  intro q
  obtain ⟨q', h1, h2, h3⟩ := h q
  exact ⟨q', h1, fun c hc => h2 c ((hst c).2 hc), fun c hc => h3 c fun h => hc ((hst c).1 h)⟩

theorem Writes.loop {α ι : Type} (S : ι → Cell → Prop) (w : Cell → α)
    (f : ι → Grid α → Option (Grid α)) (ks : List ι) :
    (∀ k ∈ ks, Writes (S k) w (f k)) → Writes (fun c => ∃ k ∈ ks, S k c) w (loop ks f) := by
  induction ks with
  | nil =>
    intro _ q
    exact ⟨q, rfl, fun c ⟨k, hk, _⟩ => by simp at hk, fun c _ => rfl⟩
  | cons k ks ih =>
    intro h q
    obtain ⟨q1, e1, a1, b1⟩ := h k (List.mem_cons_self ..) q
    obtain ⟨q2, e2, a2, b2⟩ := ih (fun k' hk' => h k' (List.mem_cons_of_mem _ hk')) q1
    refine ⟨q2, by simp [Fort.loop, e1, e2], ?_, ?_⟩
    · rintro c ⟨k', hk', hs⟩
      by_cases hc : ∃ k ∈ ks, S k c
      · exact a2 c hc
      · rw [b2 c hc]
        rcases List.mem_cons.1 hk' with rfl | hk'
        · exact a1 c hs
        · exact absurd ⟨k', hk', hs⟩ hc
    · intro c hc
      rw [b2 c (fun ⟨k', hk', hs⟩ => hc ⟨k', List.mem_cons_of_mem _ hk', hs⟩),
        b1 c (fun hs => hc ⟨k, List.mem_cons_self .., hs⟩)]

theorem Writes.doLoop {α : Type} (S : ℤ → Cell → Prop) (w : Cell → α)
    (f : ℤ → Grid α → Option (Grid α)) (lo hi : ℤ)
    (h : ∀ k, lo ≤ k → k ≤ hi → Writes (S k) w (f k)) :
    Writes (fun c => ∃ k, lo ≤ k ∧ k ≤ hi ∧ S k c) w (doLoop lo hi f) := by
  refine (Writes.loop S w f (range lo hi) fun k hk => ?_).congr fun c => ?_
  · rw [mem_range] at hk; exact h k hk.1 hk.2
  · simp only [mem_range, and_assoc]

/-! ### Updates in place -/

/-- The program replaces the elements in `S` by `G q`, where `q` is the array before, and no others. -/
def Acts {α : Type} (S : Cell → Prop) (G : Grid α → Cell → α) (f : Grid α → Option (Grid α)) : Prop :=
  ∀ q, ∃ q', f q = some q' ∧ (∀ c, S c → q' c = G q c) ∧ ∀ c, ¬ S c → q' c = q c

/-- `G` on `S` depends on `S` only. -/
def LocalOn {α : Type} (S : Cell → Prop) (G : Grid α → Cell → α) : Prop :=
  ∀ q1 q2, (∀ c, S c → q1 c = q2 c) → ∀ c, S c → G q1 c = G q2 c

theorem Acts.congr {α : Type} {S T : Cell → Prop} {G : Grid α → Cell → α} {f : Grid α → Option (Grid α)}
    (h : Acts S G f) (hst : ∀ c, S c ↔ T c) : Acts T G f := by
  intro q
  obtain ⟨q', h1, h2, h3⟩ := h q
  exact ⟨q', h1, fun c hc => h2 c ((hst c).2 hc), fun c hc => h3 c fun h => hc ((hst c).1 h)⟩

/-- Updates of disjoint parts, one after the other. -/
theorem Acts.loop {α ι : Type} (S : ι → Cell → Prop) (G : Grid α → Cell → α)
    (f : ι → Grid α → Option (Grid α)) (ks : List ι) :
    (∀ k ∈ ks, Acts (S k) G (f k)) → (∀ k ∈ ks, LocalOn (S k) G) →
    ks.Pairwise (fun k k' => ∀ c, S k c → ¬ S k' c) → Acts (fun c => ∃ k ∈ ks, S k c) G (loop ks f) := by
  induction ks with
  | nil =>
    intro _ _ _ q
    exact ⟨q, rfl, fun c ⟨k, hk, _⟩ => by simp at hk, fun c _ => rfl⟩
  | cons k ks ih =>
    intro h hl hp q
    rw [List.pairwise_cons] at hp
    obtain ⟨q1, e1, a1, b1⟩ := h k (List.mem_cons_self ..) q
    obtain ⟨q2, e2, a2, b2⟩ := ih (fun k' hk' => h k' (List.mem_cons_of_mem _ hk'))
      (fun k' hk' => hl k' (List.mem_cons_of_mem _ hk')) hp.2 q1
    refine ⟨q2, by simp [Fort.loop, e1, e2], ?_, ?_⟩
    · rintro c ⟨k', hk', hs⟩
      rcases List.mem_cons.1 hk' with rfl | hk'
      · rw [b2 c (fun ⟨k2, hk2, hs2⟩ => hp.1 k2 hk2 c hs hs2)]
        exact a1 c hs
      · rw [a2 c ⟨k', hk', hs⟩]
        refine hl k' (List.mem_cons_of_mem _ hk') q1 q (fun c' hc' => ?_) c hs
        exact b1 c' fun hk => hp.1 k' hk' c' hk hc'
    · intro c hc
      rw [b2 c (fun ⟨k', hk', hs⟩ => hc ⟨k', List.mem_cons_of_mem _ hk', hs⟩),
        b1 c (fun hs => hc ⟨k, List.mem_cons_self .., hs⟩)]

theorem range_pairwise (lo hi : ℤ) : (range lo hi).Pairwise (· ≠ ·) := by
  unfold range
  rw [List.pairwise_map]
  refine List.Pairwise.imp ?_ List.nodup_range
  intro a b h
  omega

theorem Acts.doLoop {α : Type} (S : ℤ → Cell → Prop) (G : Grid α → Cell → α)
    (f : ℤ → Grid α → Option (Grid α)) (lo hi : ℤ)
    (h : ∀ k, lo ≤ k → k ≤ hi → Acts (S k) G (f k)) (hl : ∀ k, lo ≤ k → k ≤ hi → LocalOn (S k) G)
    (hd : ∀ k k', k ≠ k' → ∀ c, S k c → ¬ S k' c) :
    Acts (fun c => ∃ k, lo ≤ k ∧ k ≤ hi ∧ S k c) G (doLoop lo hi f) := by
  refine (Acts.loop S G f (range lo hi) (fun k hk => ?_) (fun k hk => ?_) ?_).congr fun c => ?_
  · rw [mem_range] at hk; exact h k hk.1 hk.2
  · rw [mem_range] at hk; exact hl k hk.1 hk.2
  · exact (range_pairwise lo hi).imp fun {a b} hab => hd a b hab
  · simp only [mem_range, and_assoc]

theorem LocalOn.union {α : Type} (S : ℤ → Cell → Prop) (G : Grid α → Cell → α) (lo hi : ℤ)
    (hl : ∀ k, lo ≤ k → k ≤ hi → LocalOn (S k) G) : LocalOn (fun c => ∃ k, lo ≤ k ∧ k ≤ hi ∧ S k c) G := by
  rintro q1 q2 h c ⟨k, h1, h2, h3⟩
  exact hl k h1 h2 q1 q2 (fun c' hc' => h c' ⟨k, h1, h2, hc'⟩) c h3

/-! ### Scalars -/

theorem doLoop_zero_three {σ : Type} (f : ℤ → σ → Option σ) (s : σ) :
    Fort.doLoop 0 3 f s = (f 0 s).bind fun s => (f 1 s).bind fun s => (f 2 s).bind fun s => f 3 s := by
  have : range 0 3 = [0, 1, 2, 3] := by decide
  unfold Fort.doLoop
  rw [this]
  simp [Fort.loop]

theorem doLoop_one_two {σ : Type} (f : ℤ → σ → Option σ) (s : σ) :
    Fort.doLoop 1 2 f s = (f 1 s).bind fun s => f 2 s := by
  have : range 1 2 = [1, 2] := by decide
  unfold Fort.doLoop
  rw [this]
  simp [Fort.loop]

end Fclaw.Fort
