import Verif.GhostPack.Spec
import Mathlib.Tactic.Ring
import Mathlib.Tactic.Linarith
import Mathlib.Tactic.NormNum
/-
The loops of `ghostComm` are one loop over a list of locations, `locs`; `packElems` is its length.
-/
set_option autoImplicit false
set_option linter.unusedSimpArgs false
set_option linter.unusedVariables false
namespace Fclaw.GhostPack

open Fort

/-! ### Loops as lists -/

theorem loop_append {ι σ : Type} (l1 l2 : List ι) (f : ι → σ → Option σ) (s : σ) :
    loop (l1 ++ l2) f s = (loop l1 f s).bind (loop l2 f) := by
  induction l1 generalizing s with
  | nil => rfl
  | cons a l1 ih =>
    show (f a s).bind (loop (l1 ++ l2) f) = ((f a s).bind (loop l1 f)).bind (loop l2 f)
    cases f a s with
    | none => rfl
    | some s' => exact ih s'

theorem loop_map {ι κ σ : Type} (l : List ι) (g : ι → κ) (f : κ → σ → Option σ) (s : σ) :
    loop (l.map g) f s = loop l (fun k => f (g k)) s := by
  induction l generalizing s with
  | nil => rfl
  | cons a l ih =>
    show (f (g a) s).bind (loop (l.map g) f) = (f (g a) s).bind (loop l fun k => f (g k))
    cases f (g a) s with
    | none => rfl
    | some s' => exact ih s'

theorem loop_flatMap {ι κ σ : Type} (l : List ι) (g : ι → List κ) (f : κ → σ → Option σ) (s : σ) :
    loop (l.flatMap g) f s = loop l (fun k => loop (g k) f) s := by
  induction l generalizing s with
  | nil => rfl
  | cons a l ih =>
    rw [List.flatMap_cons, loop_append]
    show _ = (loop (g a) f s).bind (loop l fun k => loop (g k) f)
    cases loop (g a) f s with
    | none => rfl
    | some s' => exact ih s'

theorem loop_congr {ι σ : Type} (l : List ι) (f g : ι → σ → Option σ) (s : σ) :
    (∀ k ∈ l, ∀ s, f k s = g k s) → loop l f s = loop l g s := by
  induction l generalizing s with
  | nil => intro _; rfl
  | cons a l ih =>
    intro h
    show (f a s).bind (loop l f) = (g a s).bind (loop l g)
    rw [h a (List.mem_cons_self ..)]
    cases g a s with
    | none => rfl
    | some s' => exact ih s' fun k hk => h k (List.mem_cons_of_mem _ hk)

theorem length_flatMap_const {ι κ : Type} (l : List ι) (g : ι → List κ) (n : Nat) :
    (∀ k ∈ l, (g k).length = n) → (l.flatMap g).length = l.length * n := by
  induction l with
  | nil => intro _; simp
  | cons a l ih =>
    intro h
    rw [List.flatMap_cons, List.length_append, ih (fun k hk => h k (List.mem_cons_of_mem _ hk)),
      h a (List.mem_cons_self ..), List.length_cons]
    ring

theorem length_range (lo hi : ℤ) : (range lo hi).length = (hi + 1 - lo).toNat := by simp [range]

/-- The locations of a rectangle of cells, in the order of the loops. -/
def box {β : Type} (ilo ihi jlo jhi : ℤ) (mk : ℤ → ℤ → β) : List β :=
  (range jlo jhi).flatMap fun j => (range ilo ihi).map fun i => mk i j

theorem loop_box {β σ : Type} (ilo ihi jlo jhi : ℤ) (mk : ℤ → ℤ → β) (f : β → σ → Option σ) (s : σ) :
    doLoop jlo jhi (fun j => doLoop ilo ihi fun i => f (mk i j)) s = loop (box ilo ihi jlo jhi mk) f s := by
  unfold box doLoop
  rw [loop_flatMap]
  exact loop_congr _ _ _ _ fun j _ s => (loop_map _ _ _ _).symm

theorem mem_box {β : Type} (ilo ihi jlo jhi : ℤ) (mk : ℤ → ℤ → β) (l : β) :
    l ∈ box ilo ihi jlo jhi mk ↔ ∃ i j, (ilo ≤ i ∧ i ≤ ihi) ∧ (jlo ≤ j ∧ j ≤ jhi) ∧ mk i j = l := by
  simp only [box, List.mem_flatMap, List.mem_map, mem_range]
  constructor
  · rintro ⟨j, hj, i, hi, e⟩; exact ⟨i, j, hi, hj, e⟩
  · rintro ⟨i, j, hi, hj, e⟩; exact ⟨j, hj, i, hi, e⟩

theorem length_box {β : Type} (ilo ihi jlo jhi : ℤ) (mk : ℤ → ℤ → β) :
    (box ilo ihi jlo jhi mk).length = (jhi + 1 - jlo).toNat * (ihi + 1 - ilo).toNat := by
  unfold box
  rw [length_flatMap_const _ _ (ihi + 1 - ilo).toNat (fun j _ => by rw [List.length_map, length_range]), length_range]

/-- The order in which the four loops go around a patch. -/
def ringLocs (d : Dims) (mint : ℤ) (mk : ℤ → ℤ → Loc) : List Loc :=
  box (1 - d.mbc) mint (1 - d.mbc) (d.my - mint) mk ++
  (box (mint + 1) (d.mx + d.mbc) (1 - d.mbc) mint mk ++
  (box (d.mx - mint + 1) (d.mx + d.mbc) (mint + 1) (d.my + d.mbc) mk ++
  box (1 - d.mbc) (d.mx - mint) (d.my - mint + 1) (d.my + d.mbc) mk))

theorem ring_eq {α : Type} (d : Dims) (mint n : ℤ) (pack : Bool) (mk : ℤ → ℤ → Loc) (s : St α) :
    ring d mint n pack mk s = loop (ringLocs d mint mk) (move d n pack) s := by
  unfold ring ringLocs
  simp only [loop_append, loop_box]

theorem length_ring (d : Dims) (mint : ℤ) (mk : ℤ → ℤ → Loc) (h0 : 0 ≤ mint)
    (hx : mint ≤ d.mx + d.mbc) (hy : mint ≤ d.my + d.mbc) :
    ((ringLocs d mint mk).length : ℤ) = whole d - (d.mx - 2 * mint) * (d.my - 2 * mint) := by
  unfold ringLocs
  simp only [List.length_append, length_box, Nat.cast_add, Nat.cast_mul]
  rw [Int.toNat_of_nonneg (by omega), Int.toNat_of_nonneg (by omega), Int.toNat_of_nonneg (by omega),
    Int.toNat_of_nonneg (by omega), Int.toNat_of_nonneg (by omega), Int.toNat_of_nonneg (by omega),
    Int.toNat_of_nonneg (by omega)]
  unfold whole
  ring

/-- The registers of face `k`. -/
def regLocs (d : Dims) (k : ℤ) : List Loc :=
  if k / 2 = 0 then
    (range 0 (d.meqn * d.my - 1)).flatMap
      (fun j => [.fm k j, .fp k j, .edgeFlux k j, .edgeFlux k (j + d.meqn * d.my)]) ++
    (range 0 (d.my - 1)).flatMap fun j => [.edgeLength k j, .edgeArea k j]
  else if k / 2 = 1 then
    (range 0 (d.meqn * d.mx - 1)).flatMap
      (fun i => [.gm (k - 2) i, .gp (k - 2) i, .edgeFlux k i, .edgeFlux k (i + d.meqn * d.mx)]) ++
    (range 0 (d.mx - 1)).flatMap fun i => [.edgeLength k i, .edgeArea k i]
  else []

def allRegs (d : Dims) : List Loc := (range 0 3).flatMap (regLocs d)

theorem packRegisters_eq {α : Type} (d : Dims) (frsize n : ℤ) (pack : Bool) (s : St α) :
    packRegisters d frsize n pack s = (loop (allRegs d) (move d n pack) s).bind fun s' =>
      some (s', if s'.k - s.k = frsize then 0 else 1) := by
  unfold packRegisters allRegs
  rw [loop_flatMap]
  unfold doLoop
  rw [loop_congr (range 0 3) _ (fun k => loop (regLocs d k) (move d n pack))]
  intro k _ s
  unfold regLocs
  split
  · simp only [loop_append, loop_flatMap, loop, Option.bind_fun_some]
  · split
    · simp only [loop_append, loop_flatMap, loop, Option.bind_fun_some]
    · rfl

theorem length_regs (d : Dims) : ((allRegs d).length : ℤ) = 2 * (4 * d.meqn + 2) * (d.mx + d.my) := by
  have h : range 0 3 = [0, 1, 2, 3] := by decide
  have c4 : ∀ (m : Nat) (g : ℤ → List Loc), (∀ j, (g j).length = 4) →
      ((range 0 ((m : ℤ) - 1)).flatMap g).length = m * 4 := by
    intro m g hg
    rw [length_flatMap_const _ _ 4 (fun k _ => hg k), length_range]
    congr 1; omega
  have c2 : ∀ (m : Nat) (g : ℤ → List Loc), (∀ j, (g j).length = 2) →
      ((range 0 ((m : ℤ) - 1)).flatMap g).length = m * 2 := by
    intro m g hg
    rw [length_flatMap_const _ _ 2 (fun k _ => hg k), length_range]
    congr 1; omega
  have l01 : ∀ k : ℤ, k / 2 = 0 → (regLocs d k).length = d.meqn * d.my * 4 + d.my * 2 := by
    intro k hk
    unfold regLocs
    rw [if_pos hk, List.length_append, ← Nat.cast_mul, c4 _ _ (fun _ => rfl), c2 _ _ (fun _ => rfl)]
  have l23 : ∀ k : ℤ, k / 2 = 1 → (regLocs d k).length = d.meqn * d.mx * 4 + d.mx * 2 := by
    intro k hk
    unfold regLocs
    rw [if_neg (by omega), if_pos hk, List.length_append, ← Nat.cast_mul, c4 _ _ (fun _ => rfl), c2 _ _ (fun _ => rfl)]
  unfold allRegs
  rw [h]
  simp only [List.flatMap_cons, List.flatMap_nil, List.length_append, List.length_nil]
  rw [l01 0 (by decide), l01 1 (by decide), l23 2 (by decide), l23 3 (by decide)]
  push_cast
  ring

/-- Everything that is sent, in order. -/
def locs (d : Dims) (o : Opts) : List Loc :=
  ((range 1 d.meqn).flatMap fun mq => ringLocs d (o.refratio * d.mbc) fun i j => .q i j mq) ++
  ((if (o.packArea && o.manifold) = true then ringLocs d (o.refratio * d.mbc) .area else []) ++
  (if o.timeSync = true then allRegs d else []))

/-! ### Transferring a list of locations -/

theorem pack_list {α : Type} (d : Dims) (n : ℤ) (L : List Loc) (s : St α) :
    (∀ l ∈ L, valid d l = true) → 0 ≤ s.k → s.k + L.length ≤ n →
    ∃ s', loop L (move d n true) s = some s' ∧ s'.k = s.k + L.length ∧ s'.data = s.data ∧
      (∀ p : Nat, (h : p < L.length) → s'.buf (s.k + p) = s.data L[p]) ∧
      (∀ p, p < s.k ∨ s.k + L.length ≤ p → s'.buf p = s.buf p) := by
  induction L generalizing s with
  | nil =>
    intro _ _ _
    exact ⟨s, rfl, by simp, rfl, fun p h => by simp at h, fun _ _ => rfl⟩
  | cons l L ih =>
    intro hv h0 hn
    rw [List.length_cons] at hn
    push_cast at hn
    have hm : move d n true l s = some ⟨s.k + 1, s.data, fun p => if p = s.k then s.data l else s.buf p⟩ := by
      unfold move
      rw [if_pos ⟨hv l (List.mem_cons_self ..), h0, by omega⟩]
      simp
    obtain ⟨s', e, hk, hd, hb, hr⟩ := ih ⟨s.k + 1, s.data, fun p => if p = s.k then s.data l else s.buf p⟩
      (fun l' h => hv l' (List.mem_cons_of_mem _ h)) (by dsimp only; omega) (by dsimp only; omega)
    refine ⟨s', ?_, ?_, hd, ?_, ?_⟩
    · show (move d n true l s).bind (loop L (move d n true)) = some s'
      rw [hm]; exact e
    · rw [hk, List.length_cons]; push_cast; ring
    · intro p hp
      cases p with
      | zero =>
        have := hr s.k (Or.inl (by dsimp only; omega))
        dsimp only at this
        rw [if_pos rfl] at this
        simpa using this
      | succ p =>
        have := hb p (by simpa using hp)
        dsimp only at this
        rw [show s.k + ((p + 1 : Nat) : ℤ) = s.k + 1 + (p : ℤ) by push_cast; ring, this]
        simp
    · intro p hp
      rw [List.length_cons] at hp
      push_cast at hp
      have := hr p (by dsimp only; omega)
      rw [this]
      dsimp only
      rw [if_neg (by omega)]

theorem unpack_list {α : Type} (d : Dims) (n : ℤ) (D : Data α) (L : List Loc) (s : St α) :
    (∀ l ∈ L, valid d l = true) → 0 ≤ s.k → s.k + L.length ≤ n →
    (∀ p : Nat, (h : p < L.length) → s.buf (s.k + p) = D L[p]) →
    ∃ s', loop L (move d n false) s = some s' ∧ s'.k = s.k + L.length ∧ s'.buf = s.buf ∧
      (∀ l ∈ L, s'.data l = D l) ∧ (∀ l, l ∉ L → s'.data l = s.data l) := by
  induction L generalizing s with
  | nil =>
    intro _ _ _ _
    exact ⟨s, rfl, by simp, rfl, fun l h => by simp at h, fun _ _ => rfl⟩
  | cons l L ih =>
    intro hv h0 hn hb
    rw [List.length_cons] at hn
    push_cast at hn
    have hm : move d n false l s = some ⟨s.k + 1, fun l' => if l' = l then s.buf s.k else s.data l', s.buf⟩ := by
      unfold move
      rw [if_pos ⟨hv l (List.mem_cons_self ..), h0, by omega⟩]
      simp
    have hl : s.buf s.k = D l := by
      have := hb 0 (by simp)
      rw [Nat.cast_zero, add_zero] at this
      exact this
    obtain ⟨s', e, hk, hbuf, hd, hr⟩ := ih ⟨s.k + 1, fun l' => if l' = l then s.buf s.k else s.data l', s.buf⟩
      (fun l' h => hv l' (List.mem_cons_of_mem _ h)) (by dsimp only; omega) (by dsimp only; omega) (by
        intro p hp
        have := hb (p + 1) (by simpa using hp)
        dsimp only
        rw [show s.k + 1 + (p : ℤ) = s.k + ((p + 1 : Nat) : ℤ) by push_cast; ring, this]
        simp)
    refine ⟨s', ?_, ?_, hbuf, ?_, ?_⟩
    · show (move d n false l s).bind (loop L (move d n false)) = some s'
      rw [hm]; exact e
    · rw [hk, List.length_cons]; push_cast; ring
    · intro l' hl'
      by_cases hL : l' ∈ L
      · exact hd l' hL
      · rw [hr l' hL]
        have : l' = l := by rcases List.mem_cons.1 hl' with h | h; exact h; exact absurd h hL
        dsimp only
        rw [if_pos this, this, hl]
    · intro l' hl'
      rw [List.mem_cons, not_or] at hl'
      rw [hr l' hl'.2]
      dsimp only
      rw [if_neg hl'.1]

theorem move_k {α : Type} (d : Dims) (n : ℤ) (pack : Bool) (l : Loc) (s s' : St α)
    (h : move d n pack l s = some s') : s'.k = s.k + 1 := by
  unfold move at h
  split at h
  · split at h <;> · rw [Option.some.injEq] at h; rw [← h]
  · simp at h

theorem loop_k {α : Type} (d : Dims) (n : ℤ) (pack : Bool) (L : List Loc) (s s' : St α) :
    loop L (move d n pack) s = some s' → s'.k = s.k + L.length := by
  induction L generalizing s with
  | nil => intro h; simp only [loop, Option.some.injEq] at h; rw [h]; simp
  | cons l L ih =>
    intro h
    change (move d n pack l s).bind (loop L (move d n pack)) = some s' at h
    cases e : move d n pack l s with
    | none => rw [e] at h; simp at h
    | some s1 =>
      rw [e] at h
      rw [ih s1 h, move_k d n pack l s s1 e, List.length_cons]
      push_cast; ring

/-! ### The whole routine -/

/-- `packmode`, for packing or unpacking. -/
def mode (o : Opts) (pack : Bool) : ℤ := if pack then 2 * o.area else 2 * o.area + 1

/-- The sizes are such that `packElems` is the number of values. -/
structure Sized (d : Dims) (o : Opts) : Prop where
  hole : 0 ≤ hole d o
  some : 1 ≤ d.meqn ∧ 1 ≤ d.mx ∧ 1 ≤ d.my
  ref : 0 ≤ o.refratio * d.mbc ∧ o.refratio * d.mbc ≤ d.mx + d.mbc ∧ o.refratio * d.mbc ≤ d.my + d.mbc
  left : 0 < whole d - GhostPack.hole d o

theorem area_cases (o : Opts) : ((o.packArea && o.manifold) = true ∧ o.area = 1) ∨
    (¬ (o.packArea && o.manifold) = true ∧ o.area = 0) := by
  unfold Opts.area
  by_cases h : (o.packArea && o.manifold) = true
  · left; exact ⟨h, if_pos h⟩
  · right; exact ⟨h, if_neg h⟩

theorem length_q (d : Dims) (o : Opts) (h : Sized d o) :
    ((((range 1 d.meqn).flatMap fun mq => ringLocs d (o.refratio * d.mbc) fun i j => .q i j mq).length : Nat) : ℤ) =
      (whole d - hole d o) * d.meqn := by
  rw [length_flatMap_const _ _ (ringLocs d (o.refratio * d.mbc) .area).length, length_range, Nat.cast_mul,
    length_ring d _ _ h.ref.1 h.ref.2.1 h.ref.2.2, Int.toNat_of_nonneg (by omega)]
  · unfold hole; ring
  · intro mq _
    have h1 := length_ring d (o.refratio * d.mbc) (fun i j => .q i j mq) h.ref.1 h.ref.2.1 h.ref.2.2
    have h2 := length_ring d (o.refratio * d.mbc) .area h.ref.1 h.ref.2.1 h.ref.2.2
    omega

theorem length_area (d : Dims) (o : Opts) (h : Sized d o) :
    (((if (o.packArea && o.manifold) = true then ringLocs d (o.refratio * d.mbc) .area else []).length : Nat) : ℤ) =
      (whole d - hole d o) * o.area := by
  rcases area_cases o with ⟨a, e⟩ | ⟨a, e⟩
  · rw [if_pos a, e, length_ring d _ _ h.ref.1 h.ref.2.1 h.ref.2.2]
    unfold hole; ring
  · rw [if_neg a, e]; simp

theorem length_fr (d : Dims) (o : Opts) :
    (((if o.timeSync = true then allRegs d else []).length : Nat) : ℤ) = frsize d o := by
  unfold frsize
  split
  · exact length_regs d
  · simp

theorem length_locs (d : Dims) (o : Opts) (h : Sized d o) : packElems d o = some ((locs d o).length : ℤ) := by
  have e : ((locs d o).length : ℤ) = (whole d - hole d o) * (d.meqn + o.area) + frsize d o := by
    unfold locs
    rw [List.length_append, List.length_append]
    push_cast
    rw [length_q d o h, length_area d o h, length_fr d o]
    ring
  unfold packElems
  rw [if_neg (by have := h.hole; omega)]
  dsimp only
  rw [← e, if_neg (by omega)]

theorem ghostComm_eq {α : Type} (d : Dims) (o : Opts) (h : Sized d o) (pack : Bool) (data : Data α) (buf : Buf α) :
    ghostComm d o (mode o pack) data buf =
      (loop (locs d o) (move d (locs d o).length pack) ⟨0, data, buf⟩).map fun s => (s.data, s.buf) := by
  have hmode : mode o pack / 2 = o.area := by
    unfold mode
    rcases area_cases o with ⟨_, e⟩ | ⟨_, e⟩ <;> rw [e] <;> cases pack <;> decide
  have hpk : decide (mode o pack = 0 ∨ mode o pack = 2) = pack := by
    unfold mode
    rcases area_cases o with ⟨_, e⟩ | ⟨_, e⟩ <;> rw [e] <;> cases pack <;> decide
  have hpk2 : decide (mode o pack % 2 = 0) = pack := by
    unfold mode
    rcases area_cases o with ⟨_, e⟩ | ⟨_, e⟩ <;> rw [e] <;> cases pack <;> decide
  have hbad : ¬ (mode o pack ≠ 0 ∧ mode o pack ≠ 1 ∧ mode o pack ≠ 2 ∧ mode o pack ≠ 3) := by
    unfold mode
    rcases area_cases o with ⟨_, e⟩ | ⟨_, e⟩ <;> rw [e] <;> cases pack <;> decide
  have hpe := length_locs d o h
  have e : ((locs d o).length : ℤ) = (whole d - hole d o) * (d.meqn + o.area) + frsize d o := by
    unfold packElems at hpe
    rw [if_neg (by have := h.hole; omega)] at hpe
    dsimp only at hpe
    split at hpe
    · simp at hpe
    · rw [Option.some.injEq] at hpe; exact hpe.symm
  have hpos : 0 < (whole d - hole d o) * (d.meqn + o.area) := by
    apply mul_pos h.left
    have := h.some.1
    rcases area_cases o with ⟨_, e⟩ | ⟨_, e⟩ <;> omega
  have hfr : 0 ≤ frsize d o := by
    have := length_fr d o
    omega
  -- the Fortran part
  have hfort : ∀ n, localGhostPack d (o.refratio * d.mbc) ((whole d - hole d o) * (d.meqn + o.area)) n (mode o pack)
      (⟨0, data, buf⟩ : St α) =
      (loop (((range 1 d.meqn).flatMap fun mq => ringLocs d (o.refratio * d.mbc) fun i j => .q i j mq) ++
        (if (o.packArea && o.manifold) = true then ringLocs d (o.refratio * d.mbc) .area else []))
        (move d n pack) ⟨0, data, buf⟩).map fun s => (s, 0) := by
    intro n
    unfold localGhostPack
    rw [if_neg hbad]
    dsimp only
    rw [hpk, loop_append, loop_flatMap]
    have h1 : doLoop 1 (d.meqn : ℤ) (fun mq => ring d (o.refratio * d.mbc) n pack fun i j => .q i j mq) (⟨0, data, buf⟩ : St α) =
        loop (range 1 d.meqn) (fun mq => loop (ringLocs d (o.refratio * d.mbc) fun i j => .q i j mq) (move d n pack)) ⟨0, data, buf⟩ :=
      loop_congr _ _ _ _ fun mq _ s => ring_eq ..
    rw [h1]
    cases e1 : loop (range 1 (d.meqn : ℤ)) (fun mq => loop (ringLocs d (o.refratio * d.mbc) fun i j => .q i j mq)
        (move d n pack)) (⟨0, data, buf⟩ : St α) with
    | none => rfl
    | some s1 =>
      rw [← loop_flatMap] at e1
      have k1 := loop_k d n pack _ _ _ e1
      rw [length_q d o h] at k1
      rw [Option.bind_some, Option.bind_some]
      rcases area_cases o with ⟨a, ea⟩ | ⟨a, ea⟩
      · have : ¬ (mode o pack ≠ 2 ∧ mode o pack ≠ 3) := by
          unfold mode; rw [ea]; cases pack <;> decide
        rw [if_neg this, if_pos a, ring_eq]
        cases e2 : loop (ringLocs d (o.refratio * d.mbc) .area) (move d n pack) s1 with
        | none => rfl
        | some s2 =>
          have k2 := loop_k d n pack _ _ _ e2
          rw [length_ring d _ _ h.ref.1 h.ref.2.1 h.ref.2.2, k1] at k2
          rw [Option.bind_some, Option.map_some, if_neg]
          rw [not_not, k2, ea]
          unfold hole
          ring
      · have : mode o pack ≠ 2 ∧ mode o pack ≠ 3 := by
          unfold mode; rw [ea]; cases pack <;> decide
        rw [if_pos this, if_neg a]
        show _ = Option.map _ (some s1)
        rw [Option.map_some, if_neg]
        rw [not_not, k1, ea]
        ring
  unfold ghostComm
  dsimp only
  rw [hpe, Option.bind_some, if_neg (by have := h.hole; omega), hmode, if_neg (by omega), if_neg (by omega), hfort, hpk2]
  generalize ((locs d o).length : ℤ) = n
  unfold locs
  rw [← List.append_assoc, loop_append (_ ++ _) (if o.timeSync = true then allRegs d else [])]
  cases e1 : loop (((range 1 (d.meqn : ℤ)).flatMap fun mq => ringLocs d (o.refratio * d.mbc) fun i j => .q i j mq) ++
      (if (o.packArea && o.manifold) = true then ringLocs d (o.refratio * d.mbc) .area else []))
      (move d n pack) (⟨0, data, buf⟩ : St α) with
  | none => rfl
  | some s1 =>
    have k1 := loop_k d n pack _ _ _ e1
    rw [List.length_append, Nat.cast_add, length_q d o h, length_area d o h] at k1
    rw [Option.map_some, Option.bind_some, Option.bind_some]
    dsimp only
    rw [if_neg (by decide)]
    by_cases ht : o.timeSync = true
    · rw [if_pos ht, if_pos ht]
      have hfr' : frsize d o = 2 * (4 * d.meqn + 2) * (d.mx + d.my) := by unfold frsize; rw [if_pos ht]
      have hfp : 0 < frsize d o := by
        rw [hfr']
        have := h.some
        apply mul_pos <;> omega
      rw [if_neg (by omega)]
      have hs : (⟨(whole d - hole d o) * (d.meqn + o.area), s1.data, s1.buf⟩ : St α) = s1 := by
        cases s1 with
        | mk k da bu =>
          dsimp only at k1 ⊢
          rw [k1]
          congr 1
          ring
      rw [hs, packRegisters_eq]
      cases e2 : loop (allRegs d) (move d n pack) s1 with
      | none => rfl
      | some s2 =>
        have k2 := loop_k d n pack _ _ _ e2
        rw [length_regs, ← hfr'] at k2
        rw [Option.bind_some, Option.bind_some]
        dsimp only
        rw [if_pos (show s2.k - s1.k = frsize d o by omega), if_neg (by decide), Option.map_some]
    · rw [if_neg ht, if_neg ht]
      rfl

/-! ### What is in the list -/

/-- The cells that the four loops visit. -/
def InRing (d : Dims) (m i j : ℤ) : Prop :=
  (1 - (d.mbc : ℤ) ≤ i ∧ i ≤ m ∧ 1 - (d.mbc : ℤ) ≤ j ∧ j ≤ d.my - m) ∨
  (m + 1 ≤ i ∧ i ≤ d.mx + d.mbc ∧ 1 - (d.mbc : ℤ) ≤ j ∧ j ≤ m) ∨
  ((d.mx : ℤ) - m + 1 ≤ i ∧ i ≤ d.mx + d.mbc ∧ m + 1 ≤ j ∧ j ≤ d.my + d.mbc) ∨
  (1 - (d.mbc : ℤ) ≤ i ∧ i ≤ d.mx - m ∧ (d.my : ℤ) - m + 1 ≤ j ∧ j ≤ d.my + d.mbc)

theorem mem_ringLocs (d : Dims) (m : ℤ) (mk : ℤ → ℤ → Loc) (l : Loc) :
    l ∈ ringLocs d m mk ↔ ∃ i j, InRing d m i j ∧ mk i j = l := by
  unfold ringLocs
  simp only [List.mem_append, mem_box]
  constructor
  · rintro (⟨i, j, h1, h2, e⟩ | ⟨i, j, h1, h2, e⟩ | ⟨i, j, h1, h2, e⟩ | ⟨i, j, h1, h2, e⟩)
    · exact ⟨i, j, Or.inl ⟨h1.1, h1.2, h2.1, h2.2⟩, e⟩
    · exact ⟨i, j, Or.inr (Or.inl ⟨h1.1, h1.2, h2.1, h2.2⟩), e⟩
    · exact ⟨i, j, Or.inr (Or.inr (Or.inl ⟨h1.1, h1.2, h2.1, h2.2⟩)), e⟩
    · exact ⟨i, j, Or.inr (Or.inr (Or.inr ⟨h1.1, h1.2, h2.1, h2.2⟩)), e⟩
  · rintro ⟨i, j, h | h | h | h, e⟩
    · exact Or.inl ⟨i, j, ⟨h.1, h.2.1⟩, h.2.2, e⟩
    · exact Or.inr (Or.inl ⟨i, j, ⟨h.1, h.2.1⟩, h.2.2, e⟩)
    · exact Or.inr (Or.inr (Or.inl ⟨i, j, ⟨h.1, h.2.1⟩, h.2.2, e⟩))
    · exact Or.inr (Or.inr (Or.inr ⟨i, j, ⟨h.1, h.2.1⟩, h.2.2, e⟩))

theorem inRing_outer (d : Dims) (m i j : ℤ) (h0 : 0 ≤ m) (hx : 2 * m ≤ d.mx) (hy : 2 * m ≤ d.my) :
    InRing d m i j ↔ Outer d m i j := by
  unfold InRing Outer
  constructor <;> intro h <;> omega

theorem inRing_box (d : Dims) (m i j : ℤ) (h0 : 0 ≤ m) (hx : m ≤ d.mx) (hy : m ≤ d.my) (h : InRing d m i j) :
    1 - (d.mbc : ℤ) ≤ i ∧ i ≤ d.mx + d.mbc ∧ 1 - (d.mbc : ℤ) ≤ j ∧ j ≤ d.my + d.mbc := by
  unfold InRing at h
  omega

/-- Is it a register? -/
def isReg : Loc → Bool
  | .q .. => false
  | .area .. => false
  | _ => true

theorem mem_allRegs (d : Dims) (l : Loc) : l ∈ allRegs d ↔ isReg l = true ∧ valid d l = true := by
  have h : range 0 3 = [0, 1, 2, 3] := by decide
  unfold allRegs
  rw [h]
  simp only [List.flatMap_cons, List.flatMap_nil, List.append_nil, List.mem_append]
  have r01 : ∀ k : ℤ, k / 2 = 0 → (l ∈ regLocs d k ↔
      (∃ j, (0 ≤ j ∧ j ≤ (d.meqn : ℤ) * d.my - 1) ∧ (l = .fm k j ∨ l = .fp k j ∨ l = .edgeFlux k j ∨
        l = .edgeFlux k (j + d.meqn * d.my))) ∨
      ∃ j, (0 ≤ j ∧ j ≤ (d.my : ℤ) - 1) ∧ (l = .edgeLength k j ∨ l = .edgeArea k j)) := by
    intro k hk
    unfold regLocs
    rw [if_pos hk]
    simp only [List.mem_append, List.mem_flatMap, mem_range, List.mem_cons, List.not_mem_nil, or_false]
  have r23 : ∀ k : ℤ, k / 2 = 1 → (l ∈ regLocs d k ↔
      (∃ j, (0 ≤ j ∧ j ≤ (d.meqn : ℤ) * d.mx - 1) ∧ (l = .gm (k - 2) j ∨ l = .gp (k - 2) j ∨ l = .edgeFlux k j ∨
        l = .edgeFlux k (j + d.meqn * d.mx))) ∨
      ∃ j, (0 ≤ j ∧ j ≤ (d.mx : ℤ) - 1) ∧ (l = .edgeLength k j ∨ l = .edgeArea k j)) := by
    intro k hk
    unfold regLocs
    rw [if_neg (by omega), if_pos hk]
    simp only [List.mem_append, List.mem_flatMap, mem_range, List.mem_cons, List.not_mem_nil, or_false]
  rw [r01 0 (by decide), r01 1 (by decide), r23 2 (by decide), r23 3 (by decide)]
  have my' : (d.my : ℤ) * d.meqn = d.meqn * d.my := mul_comm ..
  have mx' : (d.mx : ℤ) * d.meqn = d.meqn * d.mx := mul_comm ..
  have my2 : 2 * (d.my : ℤ) * d.meqn = 2 * (d.meqn * d.my) := by ring
  have mx2 : 2 * (d.mx : ℤ) * d.meqn = 2 * (d.meqn * d.mx) := by ring
  generalize (d.meqn : ℤ) * d.my = Y at *
  generalize (d.meqn : ℤ) * d.mx = X at *
  cases l with
  | q i j mq => simp [isReg]
  | area i j => simp [isReg]
  | fm k j =>
    simp only [isReg, valid, my', true_and, decide_eq_true_eq, Loc.fm.injEq, reduceCtorEq, false_or, or_false, and_false,
      exists_false]
    constructor
    · rintro (⟨x, h, rfl, rfl⟩ | ⟨x, h, rfl, rfl⟩) <;> omega
    · rintro ⟨h1, h2, h3, h4⟩
      rcases (show k = 0 ∨ k = 1 by omega) with rfl | rfl
      · exact Or.inl ⟨j, by omega, rfl, rfl⟩
      · exact Or.inr ⟨j, by omega, rfl, rfl⟩
  | fp k j =>
    simp only [isReg, valid, my', true_and, decide_eq_true_eq, Loc.fp.injEq, reduceCtorEq, false_or, or_false, and_false,
      exists_false]
    constructor
    · rintro (⟨x, h, rfl, rfl⟩ | ⟨x, h, rfl, rfl⟩) <;> omega
    · rintro ⟨h1, h2, h3, h4⟩
      rcases (show k = 0 ∨ k = 1 by omega) with rfl | rfl
      · exact Or.inl ⟨j, by omega, rfl, rfl⟩
      · exact Or.inr ⟨j, by omega, rfl, rfl⟩
  | gm k j =>
    simp only [isReg, valid, mx', true_and, decide_eq_true_eq, Loc.gm.injEq, reduceCtorEq, false_or, or_false, and_false,
      exists_false]
    constructor
    · rintro (⟨x, h, rfl, rfl⟩ | ⟨x, h, rfl, rfl⟩) <;> omega
    · rintro ⟨h1, h2, h3, h4⟩
      rcases (show k = 0 ∨ k = 1 by omega) with rfl | rfl
      · exact Or.inl ⟨j, by omega, by omega, rfl⟩
      · exact Or.inr ⟨j, by omega, by omega, rfl⟩
  | gp k j =>
    simp only [isReg, valid, mx', true_and, decide_eq_true_eq, Loc.gp.injEq, reduceCtorEq, false_or, or_false, and_false,
      exists_false]
    constructor
    · rintro (⟨x, h, rfl, rfl⟩ | ⟨x, h, rfl, rfl⟩) <;> omega
    · rintro ⟨h1, h2, h3, h4⟩
      rcases (show k = 0 ∨ k = 1 by omega) with rfl | rfl
      · exact Or.inl ⟨j, by omega, by omega, rfl⟩
      · exact Or.inr ⟨j, by omega, by omega, rfl⟩
  | edgeFlux k j =>
    simp only [isReg, valid, true_and, decide_eq_true_eq, Loc.edgeFlux.injEq, reduceCtorEq, false_or, or_false, and_false,
      exists_false]
    constructor
    · rintro (⟨x, h, ⟨rfl, rfl⟩ | ⟨rfl, rfl⟩⟩ | ⟨x, h, ⟨rfl, rfl⟩ | ⟨rfl, rfl⟩⟩ | ⟨x, h, ⟨rfl, rfl⟩ | ⟨rfl, rfl⟩⟩ |
        ⟨x, h, ⟨rfl, rfl⟩ | ⟨rfl, rfl⟩⟩) <;> simp [along, my2, mx2] <;> omega
    · rintro ⟨h1, h2, h3, h4⟩
      rcases (show k = 0 ∨ k = 1 ∨ k = 2 ∨ k = 3 by omega) with rfl | rfl | rfl | rfl <;>
        simp [along, my2, mx2] at h4
      · left
        by_cases hj : j < Y
        · exact ⟨j, by omega, Or.inl ⟨rfl, rfl⟩⟩
        · exact ⟨j - Y, by omega, Or.inr ⟨rfl, by omega⟩⟩
      · right; left
        by_cases hj : j < Y
        · exact ⟨j, by omega, Or.inl ⟨rfl, rfl⟩⟩
        · exact ⟨j - Y, by omega, Or.inr ⟨rfl, by omega⟩⟩
      · right; right; left
        by_cases hj : j < X
        · exact ⟨j, by omega, Or.inl ⟨rfl, rfl⟩⟩
        · exact ⟨j - X, by omega, Or.inr ⟨rfl, by omega⟩⟩
      · right; right; right
        by_cases hj : j < X
        · exact ⟨j, by omega, Or.inl ⟨rfl, rfl⟩⟩
        · exact ⟨j - X, by omega, Or.inr ⟨rfl, by omega⟩⟩
  | edgeLength k j =>
    simp only [isReg, valid, true_and, decide_eq_true_eq, Loc.edgeLength.injEq, reduceCtorEq, false_or, or_false, and_false,
      exists_false]
    constructor
    · rintro (⟨x, h, rfl, rfl⟩ | ⟨x, h, rfl, rfl⟩ | ⟨x, h, rfl, rfl⟩ | ⟨x, h, rfl, rfl⟩) <;> simp [along] <;> omega
    · rintro ⟨h1, h2, h3, h4⟩
      rcases (show k = 0 ∨ k = 1 ∨ k = 2 ∨ k = 3 by omega) with rfl | rfl | rfl | rfl <;> simp [along] at h4
      · exact Or.inl ⟨j, by omega, rfl, rfl⟩
      · exact Or.inr (Or.inl ⟨j, by omega, rfl, rfl⟩)
      · exact Or.inr (Or.inr (Or.inl ⟨j, by omega, rfl, rfl⟩))
      · exact Or.inr (Or.inr (Or.inr ⟨j, by omega, rfl, rfl⟩))
  | edgeArea k j =>
    simp only [isReg, valid, true_and, decide_eq_true_eq, Loc.edgeArea.injEq, reduceCtorEq, false_or, or_false, and_false,
      exists_false]
    constructor
    · rintro (⟨x, h, rfl, rfl⟩ | ⟨x, h, rfl, rfl⟩ | ⟨x, h, rfl, rfl⟩ | ⟨x, h, rfl, rfl⟩) <;> simp [along] <;> omega
    · rintro ⟨h1, h2, h3, h4⟩
      rcases (show k = 0 ∨ k = 1 ∨ k = 2 ∨ k = 3 by omega) with rfl | rfl | rfl | rfl <;> simp [along] at h4
      · exact Or.inl ⟨j, by omega, rfl, rfl⟩
      · exact Or.inr (Or.inl ⟨j, by omega, rfl, rfl⟩)
      · exact Or.inr (Or.inr (Or.inl ⟨j, by omega, rfl, rfl⟩))
      · exact Or.inr (Or.inr (Or.inr ⟨j, by omega, rfl, rfl⟩))

theorem mem_locs (d : Dims) (o : Opts) (l : Loc) : l ∈ locs d o ↔
    (∃ i j mq, InRing d (o.refratio * d.mbc) i j ∧ (1 ≤ mq ∧ mq ≤ (d.meqn : ℤ)) ∧ l = .q i j mq) ∨
    (∃ i j, InRing d (o.refratio * d.mbc) i j ∧ (o.packArea && o.manifold) = true ∧ l = .area i j) ∨
    (isReg l = true ∧ valid d l = true ∧ o.timeSync = true) := by
  unfold locs
  rw [List.mem_append, List.mem_append]
  have h1 : l ∈ (range 1 (d.meqn : ℤ)).flatMap (fun mq => ringLocs d (o.refratio * d.mbc) fun i j => .q i j mq) ↔
      ∃ i j mq, InRing d (o.refratio * d.mbc) i j ∧ (1 ≤ mq ∧ mq ≤ (d.meqn : ℤ)) ∧ l = .q i j mq := by
    simp only [List.mem_flatMap, mem_range, mem_ringLocs]
    constructor
    · rintro ⟨mq, hm, i, j, h, e⟩; exact ⟨i, j, mq, h, hm, e.symm⟩
    · rintro ⟨i, j, mq, h, hm, e⟩; exact ⟨mq, hm, i, j, h, e.symm⟩
  have h2 : l ∈ (if (o.packArea && o.manifold) = true then ringLocs d (o.refratio * d.mbc) .area else []) ↔
      ∃ i j, InRing d (o.refratio * d.mbc) i j ∧ (o.packArea && o.manifold) = true ∧ l = .area i j := by
    by_cases a : (o.packArea && o.manifold) = true
    · rw [if_pos a, mem_ringLocs]
      constructor
      · rintro ⟨i, j, h, e⟩; exact ⟨i, j, h, a, e.symm⟩
      · rintro ⟨i, j, h, _, e⟩; exact ⟨i, j, h, e.symm⟩
    · rw [if_neg a]
      constructor
      · intro h; simp at h
      · rintro ⟨_, _, _, h, _⟩; exact absurd h a
  have h3 : l ∈ (if o.timeSync = true then allRegs d else []) ↔ isReg l = true ∧ valid d l = true ∧ o.timeSync = true := by
    by_cases a : o.timeSync = true
    · rw [if_pos a, mem_allRegs]; simp [a]
    · rw [if_neg a]; simp [a]
  rw [h1, h2, h3]

theorem locs_valid (d : Dims) (o : Opts) (h0 : 0 ≤ o.refratio * d.mbc) (hx : o.refratio * d.mbc ≤ d.mx)
    (hy : o.refratio * d.mbc ≤ d.my) (l : Loc) (h : l ∈ locs d o) : valid d l = true := by
  rw [mem_locs] at h
  rcases h with ⟨i, j, mq, hr, hm, rfl⟩ | ⟨i, j, hr, _, rfl⟩ | ⟨_, h, _⟩
  · have := inRing_box d _ i j h0 hx hy hr
    rw [valid, inBox_iff]
    omega
  · have := inRing_box d _ i j h0 hx hy hr
    simp only [valid, decide_eq_true_eq]
    omega
  · exact h

end Fclaw.GhostPack
