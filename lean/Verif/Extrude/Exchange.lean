import Verif.Extrude.Routines
import Verif.GhostPack.Props
/-
Packing and unpacking a patch with layers, and how it compares to packing and unpacking its layers.
-/
set_option autoImplicit false
set_option linter.unusedSimpArgs false
set_option linter.unusedVariables false
namespace Fclaw.Extrude

open Fort

/-! ### Locations, in order -/

def ringLocs3 (D : Dims3) (mint : ℤ) (mk : ℤ → ℤ → Loc3) : List Loc3 :=
  GhostPack.box (1 - D.mbc) mint (1 - D.mbc) (D.my - mint) mk ++
  (GhostPack.box (mint + 1) (D.mx + D.mbc) (1 - D.mbc) mint mk ++
  (GhostPack.box (D.mx - mint + 1) (D.mx + D.mbc) (mint + 1) (D.my + D.mbc) mk ++
  GhostPack.box (1 - D.mbc) (D.mx - mint) (D.my - mint + 1) (D.my + D.mbc) mk))

theorem ring3_eq (D : Dims3) (mint n : ℤ) (pack : Bool) (mk : ℤ → ℤ → Loc3) (s : PackSt) :
    ring3 D mint n pack mk s = loop (ringLocs3 D mint mk) (move3 D n pack) s := by
  unfold ring3 ringLocs3
  simp only [GhostPack.loop_append, GhostPack.loop_box]

theorem length_ring3 (D : Dims3) (mint : ℤ) (mk : ℤ → ℤ → Loc3) (h0 : 0 ≤ mint)
    (hx : mint ≤ D.mx + D.mbc) (hy : mint ≤ D.my + D.mbc) :
    ((ringLocs3 D mint mk).length : ℤ) = GhostPack.whole D.toDims - (D.mx - 2 * mint) * (D.my - 2 * mint) := by
  unfold ringLocs3
  simp only [List.length_append, GhostPack.length_box, Nat.cast_add, Nat.cast_mul]
  rw [Int.toNat_of_nonneg (by omega), Int.toNat_of_nonneg (by omega), Int.toNat_of_nonneg (by omega),
    Int.toNat_of_nonneg (by omega), Int.toNat_of_nonneg (by omega), Int.toNat_of_nonneg (by omega),
    Int.toNat_of_nonneg (by omega)]
  unfold GhostPack.whole
  ring

theorem mem_ringLocs3 (D : Dims3) (m : ℤ) (mk : ℤ → ℤ → Loc3) (l : Loc3) :
    l ∈ ringLocs3 D m mk ↔ ∃ i j, GhostPack.InRing D.toDims m i j ∧ mk i j = l := by
  unfold ringLocs3
  simp only [List.mem_append, GhostPack.mem_box]
  constructor
  · rintro (⟨i, j, h1, h2, e⟩ | ⟨i, j, h1, h2, e⟩ | ⟨i, j, h1, h2, e⟩ | ⟨i, j, h1, h2, e⟩)
    · exact ⟨i, j, Or.inl ⟨h1.1, h1.2, h2.1, h2.2⟩, e⟩
    · exact ⟨i, j, Or.inr (Or.inl ⟨h1.1, h1.2, h2.1, h2.2⟩), e⟩
    · exact ⟨i, j, Or.inr (Or.inr (Or.inl ⟨h1.1, h1.2, h2.1, h2.2⟩)), e⟩
    · exact ⟨i, j, Or.inr (Or.inr (Or.inr ⟨h1.1, h1.2, h2.1, h2.2⟩)), e⟩
  · rintro ⟨i, j, h | h | h | h, e⟩
    · exact Or.inl ⟨i, j, ⟨h.1, h.2.1⟩, h.2.2, e⟩
    · exact Or.inr (Or.inl ⟨i, j, ⟨h.1, h.2.1⟩, h.2.2, e⟩)
    · exact Or.inr (Or.inr (Or.inl ⟨i, j, ⟨h.1, h.2.1⟩, h.2.2, e⟩))
    · exact Or.inr (Or.inr (Or.inr ⟨i, j, ⟨h.1, h.2.1⟩, h.2.2, e⟩))

/-- The solution, the component outermost. -/
def qLocs (D : Dims3) (m : ℤ) : List Loc3 :=
  (range 1 D.meqn).flatMap fun mq => (range (1 - D.mbc) (D.mz + D.mbc)).flatMap fun k =>
    ringLocs3 D m fun i j => .q i j k mq

def vLocs (D : Dims3) (m : ℤ) : List Loc3 :=
  (range (1 - D.mbc) (D.mz + D.mbc)).flatMap fun k => ringLocs3 D m fun i j => .vol i j k

/-- Everything that is sent, in order. -/
def locs3 (D : Dims3) (o : GhostPack.Opts) : List Loc3 :=
  qLocs D (o.refratio * D.mbc) ++
    if (o.packArea && o.manifold) = true then vLocs D (o.refratio * D.mbc) else []

theorem mem_qLocs (D : Dims3) (m i j k mq : ℤ) : Loc3.q i j k mq ∈ qLocs D m ↔
    GhostPack.InRing D.toDims m i j ∧ (1 ≤ mq ∧ mq ≤ (D.meqn : ℤ)) ∧ Has D k := by
  unfold qLocs Has
  simp only [List.mem_flatMap, mem_range, mem_ringLocs3, Loc3.q.injEq]
  constructor
  · rintro ⟨mq', hm, k', hk, i', j', h, rfl, rfl, rfl, rfl⟩; exact ⟨h, hm, hk⟩
  · rintro ⟨h, hm, hk⟩; exact ⟨mq, hm, k, hk, i, j, h, rfl, rfl, rfl, rfl⟩

theorem mem_vLocs (D : Dims3) (m i j k : ℤ) : Loc3.vol i j k ∈ vLocs D m ↔
    GhostPack.InRing D.toDims m i j ∧ Has D k := by
  unfold vLocs Has
  simp only [List.mem_flatMap, mem_range, mem_ringLocs3, Loc3.vol.injEq]
  constructor
  · rintro ⟨k', hk, i', j', h, rfl, rfl, rfl⟩; exact ⟨h, hk⟩
  · rintro ⟨h, hk⟩; exact ⟨k, hk, i, j, h, rfl, rfl, rfl⟩

theorem q_not_vLocs (D : Dims3) (m i j k mq : ℤ) : Loc3.q i j k mq ∉ vLocs D m := by
  unfold vLocs
  simp [mem_ringLocs3]

theorem vol_not_qLocs (D : Dims3) (m i j k : ℤ) : Loc3.vol i j k ∉ qLocs D m := by
  unfold qLocs
  simp [mem_ringLocs3]

theorem q_mem_locs3 (D : Dims3) (o : GhostPack.Opts) (i j k mq : ℤ) : Loc3.q i j k mq ∈ locs3 D o ↔
    GhostPack.InRing D.toDims (o.refratio * D.mbc) i j ∧ (1 ≤ mq ∧ mq ≤ (D.meqn : ℤ)) ∧ Has D k := by
  unfold locs3
  rw [List.mem_append, mem_qLocs]
  constructor
  · rintro (h | h)
    · exact h
    · split at h
      · exact absurd h (q_not_vLocs _ _ _ _ _ _)
      · simp at h
  · exact Or.inl

theorem vol_mem_locs3 (D : Dims3) (o : GhostPack.Opts) (i j k : ℤ) : Loc3.vol i j k ∈ locs3 D o ↔
    GhostPack.InRing D.toDims (o.refratio * D.mbc) i j ∧ (o.packArea && o.manifold) = true ∧ Has D k := by
  unfold locs3
  rw [List.mem_append]
  constructor
  · rintro (h | h)
    · exact absurd h (vol_not_qLocs _ _ _ _ _)
    · split at h
      · next a => rw [mem_vLocs] at h; exact ⟨h.1, a, h.2⟩
      · simp at h
  · rintro ⟨h, a, hk⟩
    right
    rw [if_pos a, mem_vLocs]
    exact ⟨h, hk⟩

/-! ### Transferring a list -/

theorem read_write (P : Patch3) (l l' : Loc3) (v : ℚ) : (P.write l v).read l' = if l' = l then v else P.read l' := by
  cases l <;> cases l' <;> simp [Patch3.read, Patch3.write]

theorem pack_list3 (D : Dims3) (n : ℤ) (L : List Loc3) (s : PackSt) :
    (∀ l ∈ L, valid3 D l = true) → 0 ≤ s.pos → s.pos + L.length ≤ n →
    ∃ s', loop L (move3 D n true) s = some s' ∧ s'.pos = s.pos + L.length ∧ s'.patch = s.patch ∧
      (∀ p : Nat, (h : p < L.length) → s'.buf (s.pos + p) = s.patch.read L[p]) ∧
      (∀ p, p < s.pos ∨ s.pos + L.length ≤ p → s'.buf p = s.buf p) := by
  induction L generalizing s with
  | nil =>
    intro _ _ _
    exact ⟨s, rfl, by simp, rfl, fun p h => by simp at h, fun _ _ => rfl⟩
  | cons l L ih =>
    intro hv h0 hn
    rw [List.length_cons] at hn
    push_cast at hn
    have hm : move3 D n true l s = some ⟨s.pos + 1, s.patch, fun p => if p = s.pos then s.patch.read l else s.buf p⟩ := by
      unfold move3
      rw [if_pos ⟨hv l (List.mem_cons_self ..), h0, by omega⟩]
      simp
    obtain ⟨s', e, hk, hd, hb, hr⟩ := ih ⟨s.pos + 1, s.patch, fun p => if p = s.pos then s.patch.read l else s.buf p⟩
      (fun l' h => hv l' (List.mem_cons_of_mem _ h)) (by dsimp only; omega) (by dsimp only; omega)
    refine ⟨s', ?_, ?_, hd, ?_, ?_⟩
    · show (move3 D n true l s).bind (loop L (move3 D n true)) = some s'
      rw [hm]; exact e
    · rw [hk, List.length_cons]; push_cast; ring
    · intro p hp
      cases p with
      | zero =>
        have := hr s.pos (Or.inl (by dsimp only; omega))
        dsimp only at this
        rw [if_pos rfl] at this
        simpa using this
      | succ p =>
        have := hb p (by simpa using hp)
        dsimp only at this
        rw [show s.pos + ((p + 1 : Nat) : ℤ) = s.pos + 1 + (p : ℤ) by push_cast; ring, this]
        simp
    · intro p hp
      rw [List.length_cons] at hp
      push_cast at hp
      have := hr p (by dsimp only; omega)
      rw [this]
      dsimp only
      rw [if_neg (by omega)]

theorem unpack_list3 (D : Dims3) (n : ℤ) (P : Patch3) (L : List Loc3) (s : PackSt) :
    (∀ l ∈ L, valid3 D l = true) → 0 ≤ s.pos → s.pos + L.length ≤ n →
    (∀ p : Nat, (h : p < L.length) → s.buf (s.pos + p) = P.read L[p]) →
    ∃ s', loop L (move3 D n false) s = some s' ∧ s'.pos = s.pos + L.length ∧ s'.buf = s.buf ∧
      (∀ l ∈ L, s'.patch.read l = P.read l) ∧ (∀ l, l ∉ L → s'.patch.read l = s.patch.read l) := by
  induction L generalizing s with
  | nil =>
    intro _ _ _ _
    exact ⟨s, rfl, by simp, rfl, fun l h => by simp at h, fun _ _ => rfl⟩
  | cons l L ih =>
    intro hv h0 hn hb
    rw [List.length_cons] at hn
    push_cast at hn
    have hm : move3 D n false l s = some ⟨s.pos + 1, s.patch.write l (s.buf s.pos), s.buf⟩ := by
      unfold move3
      rw [if_pos ⟨hv l (List.mem_cons_self ..), h0, by omega⟩]
      simp
    have hl : s.buf s.pos = P.read l := by
      have := hb 0 (by simp)
      rw [Nat.cast_zero, add_zero] at this
      exact this
    obtain ⟨s', e, hk, hbuf, hd, hr⟩ := ih ⟨s.pos + 1, s.patch.write l (s.buf s.pos), s.buf⟩
      (fun l' h => hv l' (List.mem_cons_of_mem _ h)) (by dsimp only; omega) (by dsimp only; omega) (by
        intro p hp
        have := hb (p + 1) (by simpa using hp)
        dsimp only
        rw [show s.pos + 1 + (p : ℤ) = s.pos + ((p + 1 : Nat) : ℤ) by push_cast; ring, this]
        simp)
    refine ⟨s', ?_, ?_, hbuf, ?_, ?_⟩
    · show (move3 D n false l s).bind (loop L (move3 D n false)) = some s'
      rw [hm]; exact e
    · rw [hk, List.length_cons]; push_cast; ring
    · intro l' hl'
      by_cases hL : l' ∈ L
      · exact hd l' hL
      · rw [hr l' hL]
        have : l' = l := by rcases List.mem_cons.1 hl' with h | h; exact h; exact absurd h hL
        dsimp only
        rw [read_write, if_pos this, this, hl]
    · intro l' hl'
      rw [List.mem_cons, not_or] at hl'
      rw [hr l' hl'.2]
      dsimp only
      rw [read_write, if_neg hl'.1]

theorem loop_pos (D : Dims3) (n : ℤ) (pack : Bool) (L : List Loc3) (s s' : PackSt) :
    loop L (move3 D n pack) s = some s' → s'.pos = s.pos + L.length := by
  induction L generalizing s with
  | nil => intro h; simp only [loop, Option.some.injEq] at h; rw [h]; simp
  | cons l L ih =>
    intro h
    change (move3 D n pack l s).bind (loop L (move3 D n pack)) = some s' at h
    cases e : move3 D n pack l s with
    | none => rw [e] at h; simp at h
    | some s1 =>
      rw [e] at h
      have k1 : s1.pos = s.pos + 1 := by
        unfold move3 at e
        split at e
        · split at e <;> · rw [Option.some.injEq] at e; rw [← e]
        · cases e
      rw [ih s1 h, k1, List.length_cons]
      push_cast; ring

/-! ### The routine -/

theorem length_qLocs (D : Dims3) (o : GhostPack.Opts) (h : GhostPack.Sized D.toDims o) :
    ((qLocs D (o.refratio * D.mbc)).length : ℤ) = (whole3 D - hole3 D o) * D.meqn := by
  have hr : ∀ mk, ((ringLocs3 D (o.refratio * D.mbc) mk).length : ℤ) =
      GhostPack.whole D.toDims - (D.mx - 2 * (o.refratio * D.mbc)) * (D.my - 2 * (o.refratio * D.mbc)) := fun mk =>
    length_ring3 D _ mk h.ref.1 h.ref.2.1 h.ref.2.2
  unfold qLocs
  rw [GhostPack.length_flatMap_const _ _ ((D.mz + D.mbc + 1 - (1 - D.mbc) : ℤ).toNat *
      (ringLocs3 D (o.refratio * D.mbc) fun i j => .vol i j 0).length), GhostPack.length_range, Nat.cast_mul, Nat.cast_mul,
    hr, Int.toNat_of_nonneg (by omega), Int.toNat_of_nonneg (by omega)]
  · unfold whole3 hole3 GhostPack.whole; ring
  · intro mq _
    rw [GhostPack.length_flatMap_const _ _ (ringLocs3 D (o.refratio * D.mbc) fun i j => .vol i j 0).length,
      GhostPack.length_range]
    intro k _
    have h1 := hr fun i j => .q i j k mq
    have h2 := hr fun i j => .vol i j 0
    omega

theorem length_vLocs (D : Dims3) (o : GhostPack.Opts) (h : GhostPack.Sized D.toDims o) :
    ((vLocs D (o.refratio * D.mbc)).length : ℤ) = whole3 D - hole3 D o := by
  have hr : ∀ mk, ((ringLocs3 D (o.refratio * D.mbc) mk).length : ℤ) =
      GhostPack.whole D.toDims - (D.mx - 2 * (o.refratio * D.mbc)) * (D.my - 2 * (o.refratio * D.mbc)) := fun mk =>
    length_ring3 D _ mk h.ref.1 h.ref.2.1 h.ref.2.2
  unfold vLocs
  rw [GhostPack.length_flatMap_const _ _ (ringLocs3 D (o.refratio * D.mbc) fun i j => .vol i j 0).length,
      GhostPack.length_range, Nat.cast_mul, hr, Int.toNat_of_nonneg (by omega)]
  · unfold whole3 hole3 GhostPack.whole; ring
  · intro k _
    have h1 := hr fun i j => .vol i j k
    have h2 := hr fun i j => .vol i j 0
    omega

theorem length_locs3 (D : Dims3) (o : GhostPack.Opts) (h : GhostPack.Sized D.toDims o) :
    ((locs3 D o).length : ℤ) = (whole3 D - hole3 D o) * (D.meqn + o.area) := by
  unfold locs3
  rw [List.length_append, Nat.cast_add, length_qLocs D o h]
  rcases GhostPack.area_cases o with ⟨a, e⟩ | ⟨a, e⟩
  · rw [if_pos a, e, length_vLocs D o h]; ring
  · rw [if_neg a, e]; simp

theorem hole3_eq (D : Dims3) (o : GhostPack.Opts) : hole3 D o = GhostPack.hole D.toDims o * (D.mz + 2 * D.mbc) := rfl

theorem whole3_eq (D : Dims3) : whole3 D = GhostPack.whole D.toDims * (D.mz + 2 * D.mbc) := rfl

theorem ghostComm3_eq (D : Dims3) (hz : 1 ≤ D.mz) (o : GhostPack.Opts) (h : GhostPack.Sized D.toDims o)
    (ht : o.timeSync = false) (pack : Bool) (P : Patch3) (buf : Buf) :
    ghostComm3 D o (GhostPack.mode o pack) P buf =
      (loop (locs3 D o) (move3 D (locs3 D o).length pack) ⟨0, P, buf⟩).map fun s => (s.patch, s.buf) := by
  have hmode : GhostPack.mode o pack / 2 = o.area := by
    unfold GhostPack.mode
    rcases GhostPack.area_cases o with ⟨_, e⟩ | ⟨_, e⟩ <;> rw [e] <;> cases pack <;> decide
  have hpk : decide (GhostPack.mode o pack = 0 ∨ GhostPack.mode o pack = 2) = pack := by
    unfold GhostPack.mode
    rcases GhostPack.area_cases o with ⟨_, e⟩ | ⟨_, e⟩ <;> rw [e] <;> cases pack <;> decide
  have hbad : ¬ (GhostPack.mode o pack ≠ 0 ∧ GhostPack.mode o pack ≠ 1 ∧ GhostPack.mode o pack ≠ 2 ∧
      GhostPack.mode o pack ≠ 3) := by
    unfold GhostPack.mode
    rcases GhostPack.area_cases o with ⟨_, e⟩ | ⟨_, e⟩ <;> rw [e] <;> cases pack <;> decide
  have hz0 : (0 : ℤ) < D.mz + 2 * D.mbc := by omega
  have hh : ¬ hole3 D o < 0 := by
    rw [hole3_eq, not_lt]; exact mul_nonneg h.hole hz0.le
  have hw : 0 < whole3 D - hole3 D o := by
    rw [hole3_eq, whole3_eq, ← sub_mul]; exact mul_pos h.left hz0
  have hpos : 0 < (whole3 D - hole3 D o) * (D.meqn + o.area) := by
    apply mul_pos hw
    have := h.some.1
    rcases GhostPack.area_cases o with ⟨_, e⟩ | ⟨_, e⟩ <;> omega
  have hlen := length_locs3 D o h
  unfold ghostComm3 packElems3
  dsimp only
  rw [ht, if_neg (by decide), if_neg hh, if_neg (not_lt.2 hpos.le), Option.bind_some, if_neg (by decide), if_neg hh, hmode,
    if_neg (not_not.2 hpos), if_neg (not_not.2 rfl), ← hlen]
  unfold localGhostPack3
  rw [if_neg hbad]
  dsimp only
  rw [hpk]
  have hq : ∀ n s, doLoop 1 (D.meqn : ℤ) (fun mq => doLoop (1 - D.mbc) (D.mz + D.mbc) fun k =>
      ring3 D (o.refratio * D.mbc) n pack fun i j => .q i j k mq) s = loop (qLocs D (o.refratio * D.mbc)) (move3 D n pack) s := by
    intro n s
    unfold qLocs doLoop
    rw [GhostPack.loop_flatMap]
    refine GhostPack.loop_congr _ _ _ _ fun mq _ s => ?_
    rw [GhostPack.loop_flatMap]
    exact GhostPack.loop_congr _ _ _ _ fun k _ s => ring3_eq ..
  have hv : ∀ n s, doLoop (1 - D.mbc) (D.mz + D.mbc) (fun k =>
      ring3 D (o.refratio * D.mbc) n pack fun i j => .vol i j k) s = loop (vLocs D (o.refratio * D.mbc)) (move3 D n pack) s := by
    intro n s
    unfold vLocs doLoop
    rw [GhostPack.loop_flatMap]
    exact GhostPack.loop_congr _ _ _ _ fun k _ s => ring3_eq ..
  rw [hq]
  have hl : ∀ n s, loop (locs3 D o) (move3 D n pack) s = (loop (qLocs D (o.refratio * D.mbc)) (move3 D n pack) s).bind
      (loop (if (o.packArea && o.manifold) = true then vLocs D (o.refratio * D.mbc) else []) (move3 D n pack)) := by
    intro n s; unfold locs3; rw [GhostPack.loop_append]
  rw [hl]
  generalize hn : ((locs3 D o).length : ℤ) = n
  cases e1 : loop (qLocs D (o.refratio * D.mbc)) (move3 D n pack) (⟨0, P, buf⟩ : PackSt) with
  | none => rfl
  | some s1 =>
    have k1 := loop_pos D n pack _ _ _ e1
    rw [length_qLocs D o h] at k1
    rw [Option.bind_some, Option.bind_some]
    rcases GhostPack.area_cases o with ⟨a, ea⟩ | ⟨a, ea⟩
    · have : ¬ (GhostPack.mode o pack ≠ 2 ∧ GhostPack.mode o pack ≠ 3) := by
        unfold GhostPack.mode; rw [ea]; cases pack <;> decide
      rw [if_neg this, if_pos a, hv]
      cases e2 : loop (vLocs D (o.refratio * D.mbc)) (move3 D n pack) s1 with
      | none => rfl
      | some s2 =>
        have k2 := loop_pos D n pack _ _ _ e2
        rw [length_vLocs D o h] at k2
        have : s2.pos = n := by rw [← hn, hlen, k2, k1, ea]; ring
        simp only [Option.bind_some, Option.map_some, this, ne_eq, not_true, if_false]
    · have : GhostPack.mode o pack ≠ 2 ∧ GhostPack.mode o pack ≠ 3 := by
        unfold GhostPack.mode; rw [ea]; cases pack <;> decide
      rw [if_pos this, if_neg a]
      have : s1.pos = n := by rw [← hn, hlen, k1, ea]; ring
      simp only [Option.bind_some, Option.map_some, this, ne_eq, not_true, if_false, loop]

theorem valid_locs3 (D : Dims3) (o : GhostPack.Opts) (h0 : 0 ≤ o.refratio * D.mbc) (hx : o.refratio * D.mbc ≤ D.mx)
    (hy : o.refratio * D.mbc ≤ D.my) (l : Loc3) (h : l ∈ locs3 D o) : valid3 D l = true := by
  cases l with
  | q i j k mq =>
    rw [q_mem_locs3] at h
    have := GhostPack.inRing_box D.toDims _ i j h0 hx hy h.1
    rw [valid3, inBox3_eq h.2.2, inBox_iff]
    omega
  | vol i j k =>
    rw [vol_mem_locs3] at h
    have := GhostPack.inRing_box D.toDims _ i j h0 hx hy h.1
    have hk := h.2.2
    unfold Has at hk
    simp only [valid3, inVol, decide_eq_true_eq]
    omega

/-- What an exchange does with a patch with layers. -/
theorem exchange3 (D : Dims3) (hz : 1 ≤ D.mz) (o : GhostPack.Opts) (h : GhostPack.Sized D.toDims o)
    (ht : o.timeSync = false) (hx : o.refratio * D.mbc ≤ D.mx) (hy : o.refratio * D.mbc ≤ D.my) (P P' : Patch3) (buf : Buf) :
    ∃ buf' G, localPack3 D o P buf = some (P, buf') ∧ remoteUnpack3 D o P' buf' = some (G, buf') ∧
      (∀ l ∈ locs3 D o, G.read l = P.read l) ∧ ∀ l, l ∉ locs3 D o → G.read l = P'.read l := by
  have hval := valid_locs3 D o h.ref.1 hx hy
  obtain ⟨s, e, hk, hd, hb, hr⟩ := pack_list3 D (locs3 D o).length (locs3 D o) ⟨0, P, buf⟩ hval (by simp) (by simp)
  obtain ⟨s', e', hk', hb', hd', hr'⟩ := unpack_list3 D (locs3 D o).length P (locs3 D o) ⟨0, P', s.buf⟩ hval (by simp)
    (by simp) hb
  refine ⟨s.buf, s'.patch, ?_, ?_, hd', hr'⟩
  · have := ghostComm3_eq D hz o h ht true P buf
    unfold localPack3
    rw [show 2 * o.area = GhostPack.mode o true from rfl, this, e, Option.map_some, hd]
  · have := ghostComm3_eq D hz o h ht false P' s.buf
    unfold remoteUnpack3
    rw [show 2 * o.area + 1 = GhostPack.mode o false from rfl, this, e', Option.map_some, hb']

/-- … and without. -/
theorem exchange2 (d : Dims) (o : GhostPack.Opts) (h : GhostPack.Sized d o)
    (hx : o.refratio * d.mbc ≤ d.mx) (hy : o.refratio * d.mbc ≤ d.my) (x x' : GhostPack.Data ℚ) (buf : Buf) :
    ∃ buf' y, GhostPack.localPack d o x buf = some (x, buf') ∧ GhostPack.remoteUnpack d o x' buf' = some (y, buf') ∧
      (∀ l ∈ GhostPack.locs d o, y l = x l) ∧ ∀ l, l ∉ GhostPack.locs d o → y l = x' l := by
  obtain ⟨n, _, msg, h1, h2⟩ := GhostPack.roundtrip d o h hx hy x
  obtain ⟨buf', e, hb, _⟩ := h1 buf
  obtain ⟨y, e', hy, hy'⟩ := h2 buf' hb x'
  exact ⟨buf', y, e, e', hy, hy'⟩

end Fclaw.Extrude
