import Verif.Layout.Model
import Verif.Fort.Loops
/-
Positions of the elements in memory, programs that do the same on related states, and the exchange of
loops.
-/
set_option autoImplicit false
namespace Fclaw.Layout

open Fort

/-! ### Positions -/

theorem radix_inj {n a a' x x' : ℤ} (h : a + n * x = a' + n * x') (h1 : 0 ≤ a) (h2 : a < n) (h3 : 0 ≤ a')
    (h4 : a' < n) : a = a' ∧ x = x' := by
  have e1 : (a + n * x) % n = a := by rw [Int.add_mul_emod_self_left]; exact Int.emod_eq_of_lt h1 h2
  have e2 : (a' + n * x') % n = a' := by rw [Int.add_mul_emod_self_left]; exact Int.emod_eq_of_lt h3 h4
  have e3 : a = a' := by rw [← e1, ← e2, h]
  subst e3
  refine ⟨rfl, ?_⟩
  have e4 : n * x = n * x' := by omega
  exact Int.eq_of_mul_eq_mul_left (by omega) e4

theorem radix_range {n m a x : ℤ} (h1 : 0 ≤ a) (h2 : a < n) (h3 : 0 ≤ x) (h4 : x < m) :
    0 ≤ a + n * x ∧ a + n * x < n * m := by
  have h5 : 0 ≤ n * x := Int.mul_nonneg (by omega) h3
  have h6 : n * (x + 1) ≤ n * m := Int.mul_le_mul_of_nonneg_left (by omega) (by omega)
  rw [Int.mul_add] at h6
  omega

theorem radix_surj {n m p : ℤ} (hn : 0 < n) (h1 : 0 ≤ p) (h2 : p < n * m) :
    ∃ a x, a + n * x = p ∧ 0 ≤ a ∧ a < n ∧ 0 ≤ x ∧ x < m := by
  refine ⟨p % n, p / n, Int.emod_add_mul_ediv p n, Int.emod_nonneg _ (by omega), Int.emod_lt_of_pos _ hn,
    Int.ediv_nonneg h1 (by omega), Int.ediv_lt_of_lt_mul hn ?_⟩
  rw [Int.mul_comm]; exact h2

/-- The bounds of an element, counted from zero. -/
theorem box_bounds {d : Dims} {c : Cell} (h : inBox d c = true) :
    (0 ≤ c.1 - (1 - d.mbc) ∧ c.1 - (1 - d.mbc) < width d) ∧
    (0 ≤ c.2.1 - (1 - d.mbc) ∧ c.2.1 - (1 - d.mbc) < height d) ∧ 0 ≤ c.2.2 - 1 ∧ c.2.2 - 1 < (d.meqn : ℤ) := by
  obtain ⟨i, j, mq⟩ := c
  rw [inBox_iff] at h
  simp only [width, height]
  omega

theorem pos5_inj {d : Dims} {c c' : Cell} (h : inBox d c = true) (h' : inBox d c' = true)
    (e : pos5 d c = pos5 d c') : c = c' := by
  obtain ⟨⟨a1, a2⟩, ⟨b1, b2⟩, m1, m2⟩ := box_bounds h
  obtain ⟨⟨a1', a2'⟩, ⟨b1', b2'⟩, m1', m2'⟩ := box_bounds h'
  obtain ⟨i, j, mq⟩ := c
  obtain ⟨i', j', mq'⟩ := c'
  unfold pos5 at e
  obtain ⟨e1, e2⟩ := radix_inj e m1 m2 m1' m2'
  obtain ⟨e3, e4⟩ := radix_inj e2 a1 a2 a1' a2'
  dsimp only at e1 e3 e4
  simp only [Prod.mk.injEq]
  omega

theorem pos46_inj {d : Dims} {c c' : Cell} (h : inBox d c = true) (h' : inBox d c' = true)
    (e : pos46 d c = pos46 d c') : c = c' := by
  obtain ⟨⟨a1, a2⟩, ⟨b1, b2⟩, m1, m2⟩ := box_bounds h
  obtain ⟨⟨a1', a2'⟩, ⟨b1', b2'⟩, m1', m2'⟩ := box_bounds h'
  obtain ⟨i, j, mq⟩ := c
  obtain ⟨i', j', mq'⟩ := c'
  unfold pos46 at e
  obtain ⟨e1, e2⟩ := radix_inj e a1 a2 a1' a2'
  obtain ⟨e3, e4⟩ := radix_inj e2 b1 b2 b1' b2'
  dsimp only at e1 e3 e4
  simp only [Prod.mk.injEq]
  omega

theorem pos5_range {d : Dims} {c : Cell} (h : inBox d c = true) : 0 ≤ pos5 d c ∧ pos5 d c < size d := by
  obtain ⟨⟨a1, a2⟩, ⟨b1, b2⟩, m1, m2⟩ := box_bounds h
  obtain ⟨r1, r2⟩ := radix_range a1 a2 b1 b2
  have := radix_range m1 m2 r1 r2
  unfold pos5 size
  rw [Int.mul_comm (width d * height d)]
  exact this

theorem pos46_range {d : Dims} {c : Cell} (h : inBox d c = true) : 0 ≤ pos46 d c ∧ pos46 d c < size d := by
  obtain ⟨⟨a1, a2⟩, ⟨b1, b2⟩, m1, m2⟩ := box_bounds h
  obtain ⟨r1, r2⟩ := radix_range b1 b2 m1 m2
  have := radix_range a1 a2 r1 r2
  unfold pos46 size
  rw [Int.mul_assoc]
  exact this

theorem size_pos {d : Dims} {p : ℤ} (h1 : 0 ≤ p) (h2 : p < size d) :
    0 < width d ∧ 0 < height d ∧ 0 < (d.meqn : ℤ) := by
  have hw : 0 ≤ width d := by unfold width; omega
  have hh : 0 ≤ height d := by unfold height; omega
  refine ⟨?_, ?_, ?_⟩
  · by_contra h
    have e : width d = 0 := by omega
    simp only [size, e] at h2; omega
  · by_contra h
    have e : height d = 0 := by omega
    simp only [size, e] at h2; omega
  · by_contra h
    have e : (d.meqn : ℤ) = 0 := by omega
    simp only [size, e] at h2; omega

theorem pos5_surj {d : Dims} {p : ℤ} (h1 : 0 ≤ p) (h2 : p < size d) :
    ∃ c, inBox d c = true ∧ pos5 d c = p := by
  obtain ⟨hw, hh, hm⟩ := size_pos h1 h2
  have h3 : p < (d.meqn : ℤ) * (width d * height d) := by rw [Int.mul_comm]; exact h2
  obtain ⟨a, x, e1, a1, a2, x1, x2⟩ := radix_surj hm h1 h3
  obtain ⟨b, y, e2, b1, b2, y1, y2⟩ := radix_surj hw x1 x2
  refine ⟨(b + (1 - d.mbc), y + (1 - d.mbc), a + 1), ?_, ?_⟩
  · rw [inBox_iff]
    simp only [width, height] at b2 y2
    omega
  · unfold pos5
    rw [← e1, ← e2]
    dsimp only
    rw [Int.add_sub_cancel, Int.add_sub_cancel, Int.add_sub_cancel]

theorem pos46_surj {d : Dims} {p : ℤ} (h1 : 0 ≤ p) (h2 : p < size d) :
    ∃ c, inBox d c = true ∧ pos46 d c = p := by
  obtain ⟨hw, hh, hm⟩ := size_pos h1 h2
  have h3 : p < width d * (height d * (d.meqn : ℤ)) := by rw [← Int.mul_assoc]; exact h2
  obtain ⟨a, x, e1, a1, a2, x1, x2⟩ := radix_surj hw h1 h3
  obtain ⟨b, y, e2, b1, b2, y1, y2⟩ := radix_surj hh x1 x2
  refine ⟨(a + (1 - d.mbc), b + (1 - d.mbc), y + 1), ?_, ?_⟩
  · rw [inBox_iff]
    simp only [width, height] at a2 b2
    omega
  · unfold pos46
    rw [← e1, ← e2]
    dsimp only
    rw [Int.add_sub_cancel, Int.add_sub_cancel, Int.add_sub_cancel]

/-! ### Related states -/

/-- Both without a result, or with related ones. -/
def OptRel {σ τ : Type} (R : σ → τ → Prop) : Option σ → Option τ → Prop
  | some s, some t => R s t
  | none, none => True
  | _, _ => False

theorem OptRel.bind {σ τ σ' τ' : Type} {R : σ → τ → Prop} {Q : σ' → τ' → Prop} {x : Option σ} {y : Option τ}
    {f : σ → Option σ'} {g : τ → Option τ'} (h : OptRel R x y) (hf : ∀ s t, R s t → OptRel Q (f s) (g t)) :
    OptRel Q (x.bind f) (y.bind g) := by
  cases x <;> cases y <;> first | exact hf _ _ h | exact h.elim | trivial

theorem OptRel.rbind {σ τ ρ : Type} {Q : σ → τ → Prop} (x : Option ρ)
    {f : ρ → Option σ} {g : ρ → Option τ} (hf : ∀ r, OptRel Q (f r) (g r)) : OptRel Q (x.bind f) (x.bind g) := by
  cases x with
  | none => trivial
  | some r => exact hf r

theorem OptRel.map {σ τ σ' τ' : Type} {R : σ → τ → Prop} {Q : σ' → τ' → Prop} {x : Option σ} {y : Option τ}
    {f : σ → σ'} {g : τ → τ'} (h : OptRel R x y) (hf : ∀ s t, R s t → Q (f s) (g t)) :
    OptRel Q (x.map f) (y.map g) := by
  cases x <;> cases y <;> first | exact hf _ _ h | exact h.elim | trivial

theorem loop_rel {ι σ τ : Type} {R : σ → τ → Prop} (f : ι → σ → Option σ) (g : ι → τ → Option τ) (ks : List ι)
    (h : ∀ k ∈ ks, ∀ s t, R s t → OptRel R (f k s) (g k t)) : ∀ s t, R s t → OptRel R (loop ks f s) (loop ks g t) := by
  induction ks with
  | nil => intro s t r; exact r
  | cons k ks ih =>
    intro s t r
    exact (h k (List.mem_cons_self ..) s t r).bind (ih fun k' hk' => h k' (List.mem_cons_of_mem _ hk'))

theorem doLoop_rel {σ τ : Type} {R : σ → τ → Prop} {lo hi : ℤ} {f : ℤ → σ → Option σ} {g : ℤ → τ → Option τ}
    (h : ∀ k, lo ≤ k → k ≤ hi → ∀ s t, R s t → OptRel R (f k s) (g k t)) :
    ∀ s t, R s t → OptRel R (doLoop lo hi f s) (doLoop lo hi g t) :=
  loop_rel f g _ fun k hk => by rw [mem_range] at hk; exact h k hk.1 hk.2

/-! ### Exchange of loops -/

/-- The order of the two programs does not matter. -/
def Comm {σ : Type} (f g : σ → Option σ) : Prop := ∀ s, (f s).bind g = (g s).bind f

theorem Comm.symm {σ : Type} {f g : σ → Option σ} (h : Comm f g) : Comm g f := fun s => (h s).symm

theorem Comm.loop {ι σ : Type} {f : ι → σ → Option σ} {g : σ → Option σ} {ks : List ι}
    (h : ∀ k ∈ ks, Comm (f k) g) : Comm (loop ks f) g := by
  induction ks with
  | nil => intro s; show g s = (g s).bind some; cases g s <;> rfl
  | cons k ks ih =>
    intro s
    have ih' := ih fun k' hk' => h k' (List.mem_cons_of_mem _ hk')
    have hk := h k (List.mem_cons_self ..) s
    show ((f k s).bind (Fort.loop ks f)).bind g = (g s).bind fun s => (f k s).bind (Fort.loop ks f)
    rw [Option.bind_assoc]
    have e : (fun x => (Fort.loop ks f x).bind g) = fun x => (g x).bind (Fort.loop ks f) := funext ih'
    rw [e, ← Option.bind_assoc, hk, Option.bind_assoc]

theorem Comm.doLoop {σ : Type} {lo hi : ℤ} {f : ℤ → σ → Option σ} {g : σ → Option σ}
    (h : ∀ k, lo ≤ k → k ≤ hi → Comm (f k) g) : Comm (doLoop lo hi f) g :=
  Comm.loop fun k hk => by rw [mem_range] at hk; exact h k hk.1 hk.2

theorem loop_split {κ σ : Type} (g h : κ → σ → Option σ) (m : List κ) (hm : m.Nodup)
    (hc : ∀ b ∈ m, ∀ b' ∈ m, b ≠ b' → Comm (h b) (g b')) :
    ∀ s, (loop m g s).bind (loop m h) = loop m (fun b s => (g b s).bind (h b)) s := by
  induction m with
  | nil => intro s; rfl
  | cons b m ih =>
    intro s
    have ih' := ih (List.nodup_cons.1 hm).2 fun b hb b' hb' =>
      hc b (List.mem_cons_of_mem _ hb) b' (List.mem_cons_of_mem _ hb')
    show ((g b s).bind (loop m g)).bind (fun s => (h b s).bind (loop m h)) =
      ((g b s).bind (h b)).bind (loop m fun b s => (g b s).bind (h b))
    have e : (loop m fun b s => (g b s).bind (h b)) = fun s => (loop m g s).bind (loop m h) :=
      funext fun s => (ih' s).symm
    have c : Comm (loop m g) (h b) := Comm.loop fun b' hb' =>
      (hc b (List.mem_cons_self ..) b' (List.mem_cons_of_mem _ hb') (by
        rintro rfl; exact (List.nodup_cons.1 hm).1 hb')).symm
    rw [e, Option.bind_assoc, Option.bind_assoc]
    congr 1
    funext t
    rw [← Option.bind_assoc, c t, Option.bind_assoc]

theorem loop_swap {ι κ σ : Type} (f : ι → κ → σ → Option σ) (l : List ι) (m : List κ) (hl : l.Nodup) (hm : m.Nodup)
    (hc : ∀ a ∈ l, ∀ a' ∈ l, ∀ b ∈ m, ∀ b' ∈ m, a ≠ a' → b ≠ b' → Comm (f a b) (f a' b')) :
    loop l (fun a => loop m (f a)) = loop m (fun b => loop l fun a => f a b) := by
  induction l with
  | nil =>
    funext s
    have e : ∀ m : List κ, loop m (fun (_ : κ) => loop ([] : List ι) fun a => f a ‹κ›) s = some s := by
      intro m
      induction m with
      | nil => rfl
      | cons b m ih => exact ih
    exact (e m).symm
  | cons a l ih =>
    funext s
    have ih' := ih (List.nodup_cons.1 hl).2 fun a ha a' ha' =>
      hc a (List.mem_cons_of_mem _ ha) a' (List.mem_cons_of_mem _ ha')
    show (loop m (f a) s).bind (loop l fun a => loop m (f a)) =
      loop m (fun b s => (f a b s).bind (loop l fun a => f a b)) s
    rw [ih']
    refine loop_split (f a) _ m hm ?_ s
    intro b hb b' hb' hne
    exact Comm.loop fun a' ha' => hc a' (List.mem_cons_of_mem _ ha') a (List.mem_cons_self ..) b hb b' hb'
      (by rintro rfl; exact (List.nodup_cons.1 hl).1 ha') hne

theorem doLoop_swap {σ : Type} {lo hi lo' hi' : ℤ} (f : ℤ → ℤ → σ → Option σ)
    (hc : ∀ a a' b b', lo ≤ a → a ≤ hi → lo ≤ a' → a' ≤ hi → lo' ≤ b → b ≤ hi' → lo' ≤ b' → b' ≤ hi' →
      a ≠ a' → b ≠ b' → Comm (f a b) (f a' b')) :
    doLoop lo hi (fun a => doLoop lo' hi' (f a)) = doLoop lo' hi' (fun b => doLoop lo hi fun a => f a b) :=
  loop_swap f _ _ (range_nodup ..) (range_nodup ..) fun a ha a' ha' b hb b' hb' => by
    rw [mem_range] at ha ha' hb hb'
    exact hc a a' b b' ha.1 ha.2 ha'.1 ha'.2 hb.1 hb.2 hb'.1 hb'.2

/-- Assignments to different elements. -/
theorem comm_wr {α : Type} (d : Dims) (c c' : Cell) (v v' : α) (h : c ≠ c') :
    Comm (fun q => wr d q c v) (fun q => wr d q c' v') := by
  intro q
  show (wr d q c v).bind _ = (wr d q c' v').bind _
  unfold wr
  by_cases h1 : inBox d c = true <;> by_cases h2 : inBox d c' = true <;> simp only [h1, h2, if_true, Option.bind] <;>
    try rfl
  congr 1
  funext x
  by_cases e : x = c
  · subst e
    rw [if_neg h, if_pos rfl, if_pos rfl]
  · by_cases e' : x = c'
    · subst e'
      rw [if_pos rfl, if_neg e, if_pos rfl]
    · simp only [if_neg e, if_neg e']

theorem comm_bind {σ ρ ρ' : Type} {x : Option ρ} {y : Option ρ'} {f : ρ → σ → Option σ} {g : ρ' → σ → Option σ}
    (h : ∀ r r', Comm (f r) (g r')) : Comm (fun s => x.bind fun r => f r s) (fun s => y.bind fun r => g r s) := by
  intro s
  cases x with
  | none =>
    cases y with
    | none => rfl
    | some r' => show none = (g r' s).bind fun _ => none; cases g r' s <;> rfl
  | some r =>
    cases y with
    | none => show (f r s).bind (fun _ => none) = none; cases f r s <;> rfl
    | some r' => exact h r r' s

end Fclaw.Layout
