import Verif.Extrude.Spec
import Verif.Layout.Sim
import Mathlib.Tactic.Ring
import Mathlib.Tactic.Linarith
/-
Programs that treat every layer by itself.
-/
set_option autoImplicit false
set_option linter.unusedSimpArgs false
namespace Fclaw.Extrude

open Fort

/-- States of type `S` consist of layers of type `T`. -/
structure Lens (S T : Type) where
  get : S → ℤ → T
  set : S → ℤ → T → S
  get_set : ∀ s k t, get (set s k t) k = t
  get_set_ne : ∀ s k k' t, k' ≠ k → get (set s k t) k' = get s k'
  set_get : ∀ s k, set s k (get s k) = s
  set_set : ∀ s k t t', set (set s k t) k t' = set s k t'

variable {S T : Type} {L : Lens S T}

/-- The program works on layer `k`, as `f` does. -/
def On (L : Lens S T) (k : ℤ) (F : S → Option S) (f : T → Option T) : Prop :=
  ∀ s, F s = (f (L.get s k)).map (L.set s k)

theorem On.some (L : Lens S T) (k : ℤ) : On L k Option.some Option.some := by
  intro s
  show Option.some s = Option.some (L.set s k (L.get s k))
  rw [L.set_get]

theorem On.seq {k : ℤ} {F G : S → Option S} {f g : T → Option T} (h : On L k F f) (h' : On L k G g) :
    On L k (fun s => (F s).bind G) (fun t => (f t).bind g) := by
  intro s
  show (F s).bind G = ((f (L.get s k)).bind g).map (L.set s k)
  rw [h s]
  cases f (L.get s k) with
  | none => rfl
  | some t =>
    show G (L.set s k t) = (g t).map (L.set s k)
    rw [h' _, L.get_set]
    cases g t with
    | none => rfl
    | some t' => show Option.some (L.set (L.set s k t) k t') = _; rw [L.set_set]; rfl

theorem On.loop {ι : Type} {k : ℤ} {F : ι → S → Option S} {f : ι → T → Option T} {xs : List ι}
    (h : ∀ x ∈ xs, On L k (F x) (f x)) : On L k (Fort.loop xs F) (Fort.loop xs f) := by
  induction xs with
  | nil => exact On.some L k
  | cons x xs ih =>
    exact (h x (List.mem_cons_self ..)).seq (ih fun y hy => h y (List.mem_cons_of_mem _ hy))

theorem On.doLoop {k lo hi : ℤ} {F : ℤ → S → Option S} {f : ℤ → T → Option T}
    (h : ∀ x, lo ≤ x → x ≤ hi → On L k (F x) (f x)) : On L k (doLoop lo hi F) (doLoop lo hi f) :=
  On.loop fun x hx => by rw [mem_range] at hx; exact h x hx.1 hx.2

theorem On.bind {ρ : Type} {k : ℤ} {F : ρ → S → Option S} {f : ρ → T → Option T} (e e' : Option ρ) (he : e = e')
    (h : ∀ r, On L k (F r) (f r)) : On L k (fun s => e.bind fun r => F r s) (fun t => e'.bind fun r => f r t) := by
  subst he
  intro s
  cases e with
  | none => rfl
  | some r => exact h r s

/-- A value that is read from the state. -/
theorem On.read {ρ : Type} {k : ℤ} {F : ρ → S → Option S} {f : ρ → T → Option T} {e : S → Option ρ} {e' : T → Option ρ}
    (he : ∀ s, e s = e' (L.get s k)) (h : ∀ r, On L k (F r) (f r)) :
    On L k (fun s => (e s).bind fun r => F r s) (fun t => (e' t).bind fun r => f r t) := by
  intro s
  show (e s).bind _ = ((e' (L.get s k)).bind _).map _
  rw [he s]
  cases e' (L.get s k) with
  | none => rfl
  | some r => exact h r s

theorem On.ite {k : ℤ} {c : Prop} [Decidable c] {F G : S → Option S} {f g : T → Option T} (h : On L k F f)
    (h' : On L k G g) : On L k (fun s => if c then F s else G s) (fun t => if c then f t else g t) := by
  intro s
  by_cases hc : c
  · simp only [if_pos hc]; exact h s
  · simp only [if_neg hc]; exact h' s

/-- The program works on every layer by itself, on layer `k` as `f k` does. -/
def Sep (L : Lens S T) (F : S → Option S) (f : ℤ → T → Option T) : Prop :=
  ∀ s, (∃ s', F s = Option.some s' ∧ ∀ k, f k (L.get s k) = Option.some (L.get s' k)) ∨
    (F s = none ∧ ∃ k, f k (L.get s k) = none)

theorem Sep.some (L : Lens S T) : Sep L Option.some (fun _ => Option.some) :=
  fun s => Or.inl ⟨s, rfl, fun _ => rfl⟩

theorem Sep.congr {F G : S → Option S} {f g : ℤ → T → Option T} (h : Sep L F f) (hF : ∀ s, F s = G s)
    (hf : ∀ k t, f k t = g k t) : Sep L G g := by
  have e : f = g := funext fun k => funext (hf k)
  have e' : F = G := funext hF
  rw [← e, ← e']; exact h

theorem Sep.seq {F G : S → Option S} {f g : ℤ → T → Option T} (h : Sep L F f) (h' : Sep L G g) :
    Sep L (fun s => (F s).bind G) (fun k t => (f k t).bind (g k)) := by
  intro s
  beta_reduce
  rcases h s with ⟨s1, e1, a1⟩ | ⟨e1, k, a1⟩
  · rcases h' s1 with ⟨s2, e2, a2⟩ | ⟨e2, k, a2⟩
    · left
      refine ⟨s2, by rw [e1]; exact e2, fun k => ?_⟩
      rw [a1 k]; exact a2 k
    · right
      refine ⟨by rw [e1]; exact e2, k, ?_⟩
      rw [a1 k]; exact a2
  · right
    exact ⟨by rw [e1]; rfl, k, by rw [a1]; rfl⟩

theorem Sep.loop {ι : Type} {F : ι → S → Option S} {f : ι → ℤ → T → Option T} {xs : List ι}
    (h : ∀ x ∈ xs, Sep L (F x) (f x)) : Sep L (Fort.loop xs F) (fun k => Fort.loop xs fun x => f x k) := by
  induction xs with
  | nil => exact Sep.some L
  | cons x xs ih =>
    exact (h x (List.mem_cons_self ..)).seq (ih fun y hy => h y (List.mem_cons_of_mem _ hy))

theorem On.sep {a : ℤ} {F : S → Option S} {f : T → Option T} (h : On L a F f) :
    Sep L F (fun k => if k = a then f else Option.some) := by
  intro s
  rw [h s]
  cases e : f (L.get s a) with
  | none => exact Or.inr ⟨rfl, a, by simp only [if_true]; exact e⟩
  | some t =>
    refine Or.inl ⟨_, rfl, fun k => ?_⟩
    by_cases hk : k = a
    · subst hk; simp only [if_true]; rw [e, L.get_set]
    · simp only [if_neg hk]; rw [L.get_set_ne _ _ _ _ hk]

/-- Only the layers from `lo` to `hi`. -/
def rng (lo hi : ℤ) (f : ℤ → T → Option T) (k : ℤ) : T → Option T := if lo ≤ k ∧ k ≤ hi then f k else Option.some

theorem Sep.list {F : ℤ → S → Option S} {f : ℤ → T → Option T} {ks : List ℤ} (hn : ks.Nodup)
    (h : ∀ k ∈ ks, On L k (F k) (f k)) : Sep L (Fort.loop ks F) (fun k => if k ∈ ks then f k else Option.some) := by
  induction ks with
  | nil =>
    refine (Sep.some L).congr (fun _ => rfl) fun k t => ?_
    simp
  | cons a ks ih =>
    rw [List.nodup_cons] at hn
    refine ((h a (List.mem_cons_self ..)).sep.seq (ih hn.2 fun k hk => h k (List.mem_cons_of_mem _ hk))).congr
      (fun _ => rfl) fun k t => ?_
    by_cases hk : k = a
    · subst hk
      simp only [if_true, List.mem_cons, true_or, if_neg hn.1]
      cases f k t <;> rfl
    · simp only [if_neg hk, List.mem_cons, hk, false_or]
      rfl

/-- The loop over the layers. -/
theorem Sep.layers {lo hi : ℤ} {F : ℤ → S → Option S} {f : ℤ → T → Option T}
    (h : ∀ k, lo ≤ k → k ≤ hi → On L k (F k) (f k)) : Sep L (doLoop lo hi F) (rng lo hi f) := by
  refine (Sep.list (f := f) (range_pairwise lo hi) fun k hk => ?_).congr (fun _ => rfl) fun k t => ?_
  · rw [mem_range] at hk; exact h k hk.1 hk.2
  · unfold rng; simp only [mem_range]

theorem loop_some {ι : Type} (xs : List ι) (t : T) : Fort.loop xs (fun _ => Option.some) t = Option.some t := by
  induction xs with
  | nil => rfl
  | cons x xs ih => exact ih

theorem Sep.rloop {lo hi : ℤ} {ι : Type} {F : ι → S → Option S} {f : ι → ℤ → T → Option T} {xs : List ι}
    (h : ∀ x ∈ xs, Sep L (F x) (rng lo hi (f x))) :
    Sep L (Fort.loop xs F) (rng lo hi fun k => Fort.loop xs fun x => f x k) := by
  refine (Sep.loop h).congr (fun _ => rfl) fun k t => ?_
  unfold rng
  by_cases hk : lo ≤ k ∧ k ≤ hi
  · simp only [if_pos hk]
  · simp only [if_neg hk]; exact loop_some xs t

theorem Sep.doLoop {lo hi a b : ℤ} {F : ℤ → S → Option S} {f : ℤ → ℤ → T → Option T}
    (h : ∀ x, a ≤ x → x ≤ b → Sep L (F x) (rng lo hi (f x))) :
    Sep L (doLoop a b F) (rng lo hi fun k => doLoop a b fun x => f x k) :=
  Sep.rloop fun x hx => by rw [mem_range] at hx; exact h x hx.1 hx.2

theorem Sep.rseq {lo hi : ℤ} {F G : S → Option S} {f g : ℤ → T → Option T} (h : Sep L F (rng lo hi f))
    (h' : Sep L G (rng lo hi g)) : Sep L (fun s => (F s).bind G) (rng lo hi fun k t => (f k t).bind (g k)) := by
  refine (h.seq h').congr (fun _ => rfl) fun k t => ?_
  unfold rng
  by_cases hk : lo ≤ k ∧ k ≤ hi
  · simp only [if_pos hk]
  · simp only [if_neg hk]; rfl

theorem Sep.rsome (L : Lens S T) (lo hi : ℤ) : Sep L Option.some (rng lo hi fun _ => Option.some) :=
  (Sep.some L).congr (fun _ => rfl) fun k t => by unfold rng; split <;> rfl

theorem Sep.rnone (L : Lens S T) {lo hi : ℤ} (hl : lo ≤ hi) : Sep L (fun _ => none) (rng lo hi fun _ _ => none) := by
  intro s
  refine Or.inr ⟨rfl, lo, ?_⟩
  unfold rng
  rw [if_pos ⟨le_refl _, hl⟩]

theorem Sep.bind {ρ : Type} {lo hi : ℤ} (hl : lo ≤ hi) {F : ρ → S → Option S} {f : ρ → ℤ → T → Option T} (e : Option ρ)
    (h : ∀ r, Sep L (F r) (rng lo hi (f r))) :
    Sep L (fun s => e.bind fun r => F r s) (rng lo hi fun k t => e.bind fun r => f r k t) := by
  cases e with
  | none => exact Sep.rnone L hl
  | some r => exact h r

theorem Sep.rcongr {lo hi : ℤ} {F : S → Option S} {f g : ℤ → T → Option T} (h : Sep L F (rng lo hi f))
    (hf : ∀ k t, lo ≤ k → k ≤ hi → f k t = g k t) : Sep L F (rng lo hi g) :=
  h.congr (fun _ => rfl) fun k t => by
    unfold rng
    split
    · next hk => exact hf k t hk.1 hk.2
    · rfl

/-! ### Lenses -/

/-- Layer `k` of an array. -/
def layer {α : Type} (q : Grid3 α) (k : ℤ) : Grid α := fun c => q (c.1, c.2.1, k, c.2.2)

def gridL (α : Type) : Lens (Grid3 α) (Grid α) where
  get := layer
  set q k g := fun c => if c.2.2.1 = k then g (c.1, c.2.1, c.2.2.2) else q c
  get_set s k t := by funext c; simp [layer]
  get_set_ne s k k' t h := by funext c; simp [layer, h]
  set_get s k := by
    funext c
    obtain ⟨i, j, k', m⟩ := c
    by_cases h : k' = k
    · subst h; simp [layer]
    · simp [layer, h]
  set_set s k t t' := by
    funext c
    by_cases h : c.2.2.1 = k <;> simp [h]

/-- A family of states. -/
def funL (ι : Type) (L : Lens S T) : Lens (ι → S) (ι → T) where
  get s k := fun a => L.get (s a) k
  set s k t := fun a => L.set (s a) k (t a)
  get_set s k t := by funext a; exact L.get_set ..
  get_set_ne s k k' t h := by funext a; exact L.get_set_ne _ _ _ _ h
  set_get s k := by funext a; exact L.set_get ..
  set_set s k t t' := by funext a; exact L.set_set ..

def pairL (L : Lens S T) : Lens (S × S) (T × T) where
  get s k := (L.get s.1 k, L.get s.2 k)
  set s k t := (L.set s.1 k t.1, L.set s.2 k t.2)
  get_set s k t := by simp only [L.get_set]
  get_set_ne s k k' t h := by simp only [L.get_set_ne _ _ _ _ h]
  set_get s k := by simp only [L.set_get]
  set_set s k t t' := by simp only [L.set_set]

/-- A patch. -/
def patchL : Lens Patch3 Patch2 where
  get := Patch3.slice
  set P k p := ⟨fun c => if c.2.2.1 = k then p.q (c.1, c.2.1, c.2.2.2) else P.q c,
    fun c => if c.2.2 = k then p.area (c.1, c.2.1) else P.vol c⟩
  get_set s k t := by
    cases t
    simp [Patch3.slice]
  get_set_ne s k k' t h := by simp [Patch3.slice, h]
  set_get s k := by
    cases s with
    | mk q vol =>
      simp only [Patch3.slice, Patch3.mk.injEq]
      constructor
      · funext c
        obtain ⟨i, j, k', m⟩ := c
        by_cases h : k' = k
        · subst h; simp
        · simp [h]
      · funext c
        obtain ⟨i, j, k'⟩ := c
        by_cases h : k' = k
        · subst h; simp
        · simp [h]
  set_set s k t t' := by
    simp only [Patch3.mk.injEq]
    constructor
    · funext c; by_cases h : c.2.2.1 = k <;> simp [h]
    · funext c; by_cases h : c.2.2 = k <;> simp [h]

/-! ### Accesses -/

/-- A layer of the array. -/
def Has (D : Dims3) (k : ℤ) : Prop := 1 - (D.mbc : ℤ) ≤ k ∧ k ≤ D.mz + D.mbc

theorem has_inner {D : Dims3} {k : ℤ} (h1 : 1 ≤ k) (h2 : k ≤ D.mz) : Has D k := by unfold Has; omega

theorem inBox3_eq {D : Dims3} {k : ℤ} (hk : Has D k) (i j mq : ℤ) : inBox3 D (i, j, k, mq) = inBox D.toDims (i, j, mq) := by
  unfold inBox3 inBox
  rw [decide_eq_true hk.1, decide_eq_true hk.2]
  simp only [Bool.and_true]

theorem rd3_eq {α : Type} {D : Dims3} {k : ℤ} (hk : Has D k) (q : Grid3 α) (i j mq : ℤ) :
    rd3 D q (i, j, k, mq) = rd D.toDims (layer q k) (i, j, mq) := by
  unfold rd3 rd
  rw [inBox3_eq hk]
  rfl

theorem wr3_on {α : Type} {D : Dims3} {k : ℤ} (hk : Has D k) (i j mq : ℤ) (v : α) :
    On (gridL α) k (fun q => wr3 D q (i, j, k, mq) v) (fun g => wr D.toDims g (i, j, mq) v) := by
  intro q
  show wr3 D q (i, j, k, mq) v = (wr D.toDims (layer q k) (i, j, mq) v).map _
  unfold wr3 wr
  rw [inBox3_eq hk]
  split
  · rw [Option.map_some]
    congr 1
    funext c
    obtain ⟨i', j', k', m'⟩ := c
    show _ = if k' = k then _ else _
    by_cases h : k' = k
    · subst h
      simp only [Prod.mk.injEq, true_and, if_true, layer]
    · rw [if_neg h, if_neg (by simp only [Prod.mk.injEq]; tauto)]
  · rfl

theorem rdVol_eq {D : Dims3} {k : ℤ} (hk : Has D k) (v : Vol) (i j : ℤ) :
    rdVol D v i j k = Transfer.rdArea D.toDims (fun c => v (c.1, c.2, k)) i j := by
  unfold rdVol Transfer.rdArea inVol
  have h1 : -(D.mbc : ℤ) ≤ k := by have := hk.1; omega
  have h2 : k ≤ (D.mz : ℤ) + D.mbc + 1 := by have := hk.2; omega
  simp only [decide_eq_true_eq, h1, h2, and_true]

end Fclaw.Extrude
