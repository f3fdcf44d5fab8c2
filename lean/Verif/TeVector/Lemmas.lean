import Verif.TeVector.Spec
import Verif.Fort.Loops
import Mathlib.Tactic.Ring
import Mathlib.Tactic.Linarith
/-
Helpers for C109.
-/
set_option autoImplicit false
namespace Fclaw.TeVector

open Fort

/-- A loop that keeps an invariant. -/
theorem loop_from {σ : Type} (lo hi : ℤ) (n : ℕ) (hn : hi + 1 - lo = n) (f : ℤ → σ → Option σ) (P : ℕ → σ → Prop)
    (hf : ∀ k : ℕ, k < n → ∀ s, P k s → ∃ s', f (lo + k) s = some s' ∧ P (k + 1) s') (s : σ) (h : P 0 s) :
    ∃ s', doLoop lo hi f s = some s' ∧ P n s' := by
  have e : range lo hi = (List.range n).map fun k : ℕ => lo + (k : ℤ) := by
    unfold range
    rw [hn, Int.toNat_natCast]
  unfold doLoop
  rw [e, loop_map]
  clear e hn
  induction n with
  | zero => exact ⟨s, rfl, h⟩
  | succ n ih =>
    obtain ⟨s1, e1, h1⟩ := ih fun k hk => hf k (by omega)
    obtain ⟨s2, e2, h2⟩ := hf n (by omega) s1 h1
    refine ⟨s2, ?_, h2⟩
    rw [List.range_succ, loop_append, e1]
    simp only [Option.bind_some, loop, e2]

/-- A loop in which each step changes an entry of its own. -/
theorem loop_set {K I V : Type} [DecidableEq I] (l : List K) (idx : K → I) (v : K → V) (f : K → (I → V) → Option (I → V))
    (hf : ∀ k ∈ l, ∀ s, f k s = some fun x => if x = idx k then v k else s x) (hn : (l.map idx).Nodup) (s : I → V) :
    ∃ s', loop l f s = some s' ∧ (∀ k ∈ l, s' (idx k) = v k) ∧ ∀ x, x ∉ l.map idx → s' x = s x := by
  induction l generalizing s with
  | nil => exact ⟨s, rfl, by simp, fun _ _ => rfl⟩
  | cons k l ih =>
    rw [List.map_cons, List.nodup_cons] at hn
    obtain ⟨s', e, h1, h2⟩ := ih (fun k hk => hf k (by simp [hk])) hn.2 (fun x => if x = idx k then v k else s x)
    refine ⟨s', ?_, ?_, ?_⟩
    · simp only [loop, hf k (by simp), Option.bind_some, e]
    · intro k' hk'
      rcases List.mem_cons.1 hk' with rfl | hk'
      · rw [h2 _ hn.1, if_pos rfl]
      · exact h1 k' hk'
    · intro x hx
      rw [List.map_cons, List.mem_cons, not_or] at hx
      rw [h2 x hx.2, if_neg hx.1]

theorem before_succ (C : Config) (b : ℕ) : C.before (b + 1) = C.before b + C.numPatches b := by
  simp [Config.before, List.range_succ]

theorem before_mono (C : Config) {a b : ℕ} (h : a ≤ b) : C.before a ≤ C.before b := by
  induction h with
  | refl => exact Nat.le_refl _
  | step _ ih => rw [Nat.succ_eq_add_one, before_succ]; omega

theorem before_lt (C : Config) {a b p : ℕ} (h : a < b) (hp : p < C.numPatches a) : C.before a + p < C.before b := by
  have := before_mono C (Nat.succ_le_of_lt h)
  rw [Nat.succ_eq_add_one, before_succ] at this
  omega

/-- Patches of a process have different numbers. -/
theorem number_inj (C : Config) {a b p q : ℕ} (hp : p < C.numPatches a) (hq : q < C.numPatches b)
    (h : C.before a + p = C.before b + q) : a = b ∧ p = q := by
  rcases Nat.lt_trichotomy a b with hab | rfl | hab
  · have := before_lt C hab hp; omega
  · exact ⟨rfl, by omega⟩
  · have := before_lt C hab hq; omega

/-- All numbers belong to patches. -/
theorem number_surj (C : Config) (n k : ℕ) (h : k < C.before n) : ∃ b p, b < n ∧ p < C.numPatches b ∧ k = C.before b + p := by
  induction n with
  | zero => simp [Config.before] at h
  | succ n ih =>
    by_cases hk : k < C.before n
    · obtain ⟨b, p, h1, h2, h3⟩ := ih hk
      exact ⟨b, p, by omega, h2, h3⟩
    · rw [before_succ] at h
      exact ⟨n, k - C.before n, by omega, by omega, by omega⟩

/-- All patches in order. -/
def patches (C : Config) : List Ptr := (List.range C.numBlocks).flatMap fun b => (List.range (C.numPatches b)).map fun p => (b, p)

theorem mem_patches (C : Config) (x : Ptr) : x ∈ patches C ↔ IsPatch C x.1 x.2 := by
  obtain ⟨a, b⟩ := x
  unfold patches IsPatch
  simp only [List.mem_flatMap, List.mem_map, Prod.mk.injEq, List.mem_range]
  constructor
  · rintro ⟨a', h1, b', h2, rfl, rfl⟩; exact ⟨h1, h2⟩
  · rintro ⟨h1, h2⟩; exact ⟨a, h1, b, h2, rfl, rfl⟩

theorem loop_patches {σ : Type} (l : List ℕ) (m : ℕ → ℕ) (f : ℕ → ℕ → σ → Option σ) (s : σ) :
    loop l (fun b => loop (List.range (m b)) fun p => f b p) s =
      loop (l.flatMap fun b => (List.range (m b)).map fun p => (b, p)) (fun x => f x.1 x.2) s := by
  induction l generalizing s with
  | nil => rfl
  | cons a l ih =>
    rw [List.flatMap_cons, loop_append, loop_map]
    simp only [loop]
    congr 1
    funext s'
    exact ih s'

theorem nodup_map_on {A B : Type} (f : A → B) (l : List A) (hl : l.Nodup) (h : ∀ x ∈ l, ∀ y ∈ l, f x = f y → x = y) : (l.map f).Nodup := by
  induction l with
  | nil => exact List.nodup_nil
  | cons a l ih =>
    rw [List.nodup_cons] at hl
    rw [List.map_cons, List.nodup_cons]
    refine ⟨?_, ih hl.2 fun x hx y hy => h x (by simp [hx]) y (by simp [hy])⟩
    intro hm
    obtain ⟨x, hx, e⟩ := List.mem_map.1 hm
    have := h x (by simp [hx]) a (by simp) e
    subst this
    exact hl.1 hx

theorem patches_nodup (C : Config) : (patches C).Nodup := by
  unfold patches
  have : ∀ l : List ℕ, l.Nodup → (l.flatMap fun b => (List.range (C.numPatches b)).map fun p => (b, p)).Nodup := by
    intro l
    induction l with
    | nil => intro _; simp
    | cons a l ih =>
      intro hl
      rw [List.nodup_cons] at hl
      rw [List.flatMap_cons, List.nodup_append]
      refine ⟨nodup_map_on _ _ List.nodup_range (by intro x _ y _ e; simpa using e), ih hl.2, ?_⟩
      intro x hx y hy e
      subst e
      obtain ⟨p, _, rfl⟩ := List.mem_map.1 hx
      obtain ⟨b, hb, hy⟩ := List.mem_flatMap.1 hy
      obtain ⟨q, _, e⟩ := List.mem_map.1 hy
      have : b = a := (Prod.mk.injEq _ _ _ _ ▸ e).1
      subst this
      exact hl.1 hb
  exact this _ List.nodup_range

/-- The first `n` elements have been written. -/
def Written {α : Type} (val : ℤ → α) (arr : ℤ → α) (n : ℤ) (c : Cursor α) : Prop :=
  c.off = n ∧ ∀ o, c.arr o = if 0 ≤ o ∧ o < n then val o else arr o

theorem put_written {α : Type} (size : ℕ) (val arr : ℤ → α) (n : ℤ) (v : α) (c : Cursor α) (h : Written val arr n c) (h0 : 0 ≤ n)
    (h1 : n < size) (hv : v = val n) : ∃ c', put size v c = some c' ∧ Written val arr (n + 1) c' := by
  obtain ⟨ho, ha⟩ := h
  refine ⟨_, by unfold put; rw [if_pos ⟨by omega, by omega⟩], by simp only [ho], ?_⟩
  intro o
  simp only [ho, hv]
  by_cases e : o = n
  · subst e
    rw [if_pos rfl, if_pos ⟨h0, by omega⟩]
  · rw [if_neg e, ha o]
    by_cases h2 : 0 ≤ o ∧ o < n
    · rw [if_pos h2, if_pos ⟨h2.1, by omega⟩]
    · rw [if_neg h2, if_neg (by omega)]

/-- The value for position `o`. -/
def valueAt {α : Type} (C : Config) (view : ℤ → ℤ → ℤ → α) (o : ℤ) : α :=
  let w : ℤ := C.mx + 2 * C.mbc
  let h : ℤ := C.my + 2 * C.mbc
  view (o % w - C.mbc) (o / w % h - C.mbc) (o / w / h)

theorem split_div (q w r : ℤ) (h0 : 0 ≤ r) (h1 : r < w) : (q * w + r) / w = q ∧ (q * w + r) % w = r := by
  have hw : w ≠ 0 := by omega
  constructor
  · rw [add_comm, Int.add_mul_ediv_right _ _ hw, Int.ediv_eq_zero_of_lt h0 h1, zero_add]
  · rw [add_comm, Int.add_mul_emod_self_right, Int.emod_eq_of_lt h0 h1]

theorem value_cell {α : Type} (C : Config) (view : ℤ → ℤ → ℤ → α) (i j e : ℤ) (a b : ℤ) (ha : a = i + C.mbc) (hb : b = j + C.mbc)
    (hi : 0 ≤ a ∧ a < C.mx + 2 * C.mbc) (hj : 0 ≤ b ∧ b < C.my + 2 * C.mbc) :
    valueAt C view ((e * (C.my + 2 * C.mbc) + b) * (C.mx + 2 * C.mbc) + a) = view i j e := by
  unfold valueAt
  dsimp only
  rw [(split_div (e * (C.my + 2 * C.mbc) + b) _ a hi.1 hi.2).1, (split_div (e * (C.my + 2 * C.mbc) + b) _ a hi.1 hi.2).2,
    (split_div e _ b hj.1 hj.2).1, (split_div e _ b hj.1 hj.2).2]
  congr 1 <;> omega

theorem position_bound (w h n a b e : ℤ) (ha : 0 ≤ a ∧ a < w) (hb : 0 ≤ b ∧ b < h) (he : 0 ≤ e ∧ e < n) :
    0 ≤ (e * h + b) * w + a ∧ (e * h + b) * w + a < w * h * n := by
  have h1 : 0 ≤ e * h + b := by
    have := mul_nonneg he.1 (by omega : 0 ≤ h)
    omega
  have h2 : e * h + b + 1 ≤ n * h := by
    have := mul_le_mul_of_nonneg_right (by omega : e + 1 ≤ n) (by omega : 0 ≤ h)
    nlinarith
  constructor
  · have := mul_nonneg h1 (by omega : 0 ≤ w)
    omega
  · have := mul_le_mul_of_nonneg_right h2 (by omega : 0 ≤ w)
    nlinarith

theorem getData_fields (C : Config) (ch : Choice) : C.getData ch = (fieldOf ch, C.fields (fieldOf ch)) := by
  cases ch <;> rfl

/-- The loops over a patch write all elements in order. -/
theorem storePatch_spec {α : Type} (C : Config) (ch : Choice) (view : ℤ → ℤ → ℤ → α) (arr : ℤ → α) :
    ∃ arr', C.storePatch ch view arr = some arr' ∧
      ∀ o, arr' o = if 0 ≤ o ∧ o < (C.size (fieldOf ch) : ℤ) then valueAt C view o else arr o := by
  have key := loop_from 0 ((C.fields (fieldOf ch) : ℤ) - 1) (C.fields (fieldOf ch)) (by omega)
    (fun eqn => doLoop (-(C.mbc : ℤ)) (C.my + C.mbc - 1) fun j =>
      doLoop (-(C.mbc : ℤ)) (C.mx + C.mbc - 1) fun i => put (C.size (fieldOf ch)) (view i j eqn))
    (fun e c => Written (valueAt C view) arr (((e : ℤ) * (C.my + 2 * C.mbc)) * (C.mx + 2 * C.mbc)) c) ?_ ⟨arr, 0⟩ ?_
  · obtain ⟨c, e, h⟩ := key
    refine ⟨c.arr, ?_, ?_⟩
    · unfold Config.storePatch
      rw [getData_fields]
      simp only [e, Option.map_some]
    · intro o
      rw [h.2 o]
      have : ((C.size (fieldOf ch) : ℕ) : ℤ) = ((C.fields (fieldOf ch) : ℕ) : ℤ) * (C.my + 2 * C.mbc) * (C.mx + 2 * C.mbc) := by
        unfold Config.size
        push_cast
        ring
      rw [this]
  · intro e he c hc
    have row := loop_from (-(C.mbc : ℤ)) (C.my + C.mbc - 1) (C.my + 2 * C.mbc) (by push_cast; omega)
      (fun j => doLoop (-(C.mbc : ℤ)) (C.mx + C.mbc - 1) fun i => put (C.size (fieldOf ch)) (view i j (0 + (e : ℤ))))
      (fun b c => Written (valueAt C view) arr (((e : ℤ) * (C.my + 2 * C.mbc) + b) * (C.mx + 2 * C.mbc)) c) ?_ c ?_
    · obtain ⟨c', e1, h1⟩ := row
      refine ⟨c', e1, ?_⟩
      have : ((e : ℤ) * (C.my + 2 * C.mbc) + ((C.my + 2 * C.mbc : ℕ) : ℤ)) * (C.mx + 2 * C.mbc) =
          ((e + 1 : ℕ) : ℤ) * (C.my + 2 * C.mbc) * (C.mx + 2 * C.mbc) := by
        push_cast
        ring
      rwa [this] at h1
    · intro b hb c hc
      have cell := loop_from (-(C.mbc : ℤ)) (C.mx + C.mbc - 1) (C.mx + 2 * C.mbc) (by push_cast; omega)
        (fun i => put (C.size (fieldOf ch)) (view i (-(C.mbc : ℤ) + b) (0 + (e : ℤ))))
        (fun a c => Written (valueAt C view) arr (((e : ℤ) * (C.my + 2 * C.mbc) + b) * (C.mx + 2 * C.mbc) + a) c) ?_ c ?_
      · obtain ⟨c', e1, h1⟩ := cell
        refine ⟨c', e1, ?_⟩
        have : ((e : ℤ) * (C.my + 2 * C.mbc) + b) * (C.mx + 2 * C.mbc) + ((C.mx + 2 * C.mbc : ℕ) : ℤ) =
            ((e : ℤ) * (C.my + 2 * C.mbc) + ((b + 1 : ℕ) : ℤ)) * (C.mx + 2 * C.mbc) := by
          push_cast
          ring
        rwa [this] at h1
      · intro a ha c hc
        have ha' : 0 ≤ (a : ℤ) ∧ (a : ℤ) < C.mx + 2 * C.mbc := by omega
        have hb' : 0 ≤ (b : ℤ) ∧ (b : ℤ) < C.my + 2 * C.mbc := by omega
        have he' : 0 ≤ (e : ℤ) ∧ (e : ℤ) < C.fields (fieldOf ch) := by omega
        have bd := position_bound _ _ _ _ _ _ ha' hb' he'
        have hs : ((C.size (fieldOf ch) : ℕ) : ℤ) = (C.mx + 2 * C.mbc) * (C.my + 2 * C.mbc) * (C.fields (fieldOf ch) : ℕ) := by
          unfold Config.size
          push_cast
          ring
        have vc := value_cell C view (-(C.mbc : ℤ) + a) (-(C.mbc : ℤ) + b) (0 + (e : ℤ)) a b (by omega) (by omega) ha' hb'
        rw [zero_add] at vc
        obtain ⟨c', e1, h1⟩ := put_written (C.size (fieldOf ch)) (valueAt C view) arr _ (view (-(C.mbc : ℤ) + a) (-(C.mbc : ℤ) + b) (0 + (e : ℤ))) c hc
          bd.1 (by rw [hs]; exact bd.2) (by rw [vc, zero_add])
        refine ⟨c', e1, ?_⟩
        have : ((e : ℤ) * (C.my + 2 * C.mbc) + b) * (C.mx + 2 * C.mbc) + a + 1 =
            ((e : ℤ) * (C.my + 2 * C.mbc) + b) * (C.mx + 2 * C.mbc) + ((a + 1 : ℕ) : ℤ) := by
          push_cast
          ring
        rwa [this] at h1
      · simpa using hc
    · simpa using hc
  · refine ⟨by simp, ?_⟩
    intro o
    rw [if_neg (by simp)]

/-- A cell and its position. -/
theorem element_cell (C : Config) (n : ℕ) (i j e : ℤ) (h : IsCell C n i j e) :
    element C (i + 1) (j + 1) (e + 1) = (e * (C.my + 2 * C.mbc) + (j + C.mbc)) * (C.mx + 2 * C.mbc) + (i + C.mbc) ∧
    0 ≤ element C (i + 1) (j + 1) (e + 1) ∧ element C (i + 1) (j + 1) (e + 1) < (C.mx + 2 * C.mbc) * (C.my + 2 * C.mbc) * n := by
  have e1 : element C (i + 1) (j + 1) (e + 1) = (e * (C.my + 2 * C.mbc) + (j + C.mbc)) * (C.mx + 2 * C.mbc) + (i + C.mbc) := by
    unfold element
    ring
  obtain ⟨hi, hj, he⟩ := h
  have bd := position_bound (C.mx + 2 * C.mbc) (C.my + 2 * C.mbc) n (i + C.mbc) (j + C.mbc) e (by omega) (by omega) he
  rw [e1]
  exact ⟨rfl, bd⟩

/-- Each position is that of a cell. -/
theorem position_cell (C : Config) (n : ℕ) (o : ℤ) (h0 : 0 ≤ o) (h1 : o < (C.mx + 2 * C.mbc) * (C.my + 2 * C.mbc) * n) :
    ∃ i j e, IsCell C n i j e ∧ o = element C (i + 1) (j + 1) (e + 1) := by
  have hw : 0 ≤ (C.mx + 2 * C.mbc : ℤ) := by omega
  have hh : 0 ≤ (C.my + 2 * C.mbc : ℤ) := by omega
  generalize ew : (C.mx + 2 * C.mbc : ℤ) = w at *
  generalize eh : (C.my + 2 * C.mbc : ℤ) = h at *
  have hw' : 0 < w := by
    rcases hw.lt_or_eq with h | h
    · exact h
    · rw [← h] at h1; simp at h1; omega
  have hh' : 0 < h := by
    rcases hh.lt_or_eq with h | h
    · exact h
    · rw [← h] at h1; simp at h1; omega
  have m1 := Int.emod_nonneg o (by omega : w ≠ 0)
  have m2 := Int.emod_lt_of_pos o hw'
  have m3 := Int.emod_nonneg (o / w) (by omega : h ≠ 0)
  have m4 := Int.emod_lt_of_pos (o / w) hh'
  have d1 := Int.mul_ediv_add_emod o w
  have d2 := Int.mul_ediv_add_emod (o / w) h
  refine ⟨o % w - C.mbc, o / w % h - C.mbc, o / w / h, ⟨by omega, by omega, ?_, ?_⟩, ?_⟩
  · exact Int.ediv_nonneg (Int.ediv_nonneg h0 hw) hh
  · rw [Int.ediv_ediv_of_nonneg hw]
    refine Int.ediv_lt_of_lt_mul (mul_pos hw' hh') ?_
    linarith [mul_comm (n : ℤ) (w * h)]
  · unfold element
    rw [ew, eh]
    have : o = w * (h * (o / w / h) + o / w % h) + o % w := by rw [d2, d1]
    linarith [this, mul_comm w (o / w % h)]

end Fclaw.TeVector
