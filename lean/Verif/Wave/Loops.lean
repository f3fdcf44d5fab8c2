import Verif.Wave.Mem
import Mathlib.Tactic.Tauto
import Mathlib.Algebra.BigOperators.Group.Finset.Basic
import Mathlib.Data.Int.Interval
/-
Lemmas about programs on a memory.
-/
set_option autoImplicit false
namespace Fclaw.Wave

open Fort

/-! ### Expressions -/

theorem lit_eval (v : ℚ) (M : Mem) : Ex.lit v M = some v := rfl
theorem rd_eval {z : Shape} {l : Loc} (h : z.has l) (M : Mem) : rd z l M = some (M l) := by
  unfold rd; rw [if_pos h]
theorem add_eval {a b : Ex} {M : Mem} {x y : ℚ} (ha : a M = some x) (hb : b M = some y) : (a + b) M = some (x + y) := by
  show Ex.lift (· + ·) a b M = _
  unfold Ex.lift; rw [ha, hb]; rfl
theorem sub_eval {a b : Ex} {M : Mem} {x y : ℚ} (ha : a M = some x) (hb : b M = some y) : (a - b) M = some (x - y) := by
  show Ex.lift (· - ·) a b M = _
  unfold Ex.lift; rw [ha, hb]; rfl
theorem mul_eval {a b : Ex} {M : Mem} {x y : ℚ} (ha : a M = some x) (hb : b M = some y) : (a * b) M = some (x * y) := by
  show Ex.lift (· * ·) a b M = _
  unfold Ex.lift; rw [ha, hb]; rfl
theorem div_eval {a b : Ex} {M : Mem} {x y : ℚ} (ha : a M = some x) (hb : b M = some y) (hy : y ≠ 0) :
    (a / b) M = some (x / y) := by
  show (a M).bind (fun x => (b M).bind fun y => if y = 0 then none else some (x / y)) = _
  rw [ha, hb]
  show (if y = 0 then none else some (x / y)) = _
  rw [if_neg hy]
theorem max_eval {a b : Ex} {M : Mem} {x y : ℚ} (ha : a M = some x) (hb : b M = some y) : (max a b) M = some (max x y) := by
  show Ex.lift max a b M = _
  unfold Ex.lift; rw [ha, hb]; rfl
theorem neg_eval {a : Ex} {M : Mem} {x : ℚ} (ha : a M = some x) : (-a) M = some (-x) := by
  show Ex.lift1 (- ·) a M = _
  unfold Ex.lift1; rw [ha]; rfl
theorem abs_eval {a : Ex} {M : Mem} {x : ℚ} (ha : a M = some x) : a.abs M = some |x| := by
  unfold Ex.abs Ex.lift1; rw [ha]; rfl

theorem lift1_eval {f : ℚ → ℚ} {a : Ex} {M : Mem} {x : ℚ} (ha : a M = some x) : Ex.lift1 f a M = some (f x) := by
  unfold Ex.lift1; rw [ha]; rfl

/-- Evaluates an expression; what remains are the bounds. -/
macro "ev" : tactic => `(tactic|
  repeat' first
    | exact lit_eval _ _
    | apply add_eval | apply sub_eval | apply mul_eval | apply max_eval | apply neg_eval
    | apply abs_eval | apply rd_eval)

/-! ### Programs -/

/-- The program replaces the elements in `S` by `G M`, where `M` is the memory before, and no others. -/
def Acts (S : Loc → Prop) (G : Mem → Loc → ℚ) (f : Prog) : Prop :=
  ∀ M, ∃ M', f M = some M' ∧ (∀ l, S l → M' l = G M l) ∧ ∀ l, ¬ S l → M' l = M l

theorem Acts.congr {S T : Loc → Prop} {G : Mem → Loc → ℚ} {f : Prog} (h : Acts S G f) (hst : ∀ l, S l ↔ T l) :
    Acts T G f := by
  intro M
  obtain ⟨M', h1, h2, h3⟩ := h M
  exact ⟨M', h1, fun c hc => h2 c ((hst c).2 hc), fun c hc => h3 c fun h => hc ((hst c).1 h)⟩

theorem Acts.asg {z : Shape} {l : Loc} {e : Ex} {G : Mem → Loc → ℚ} (hb : z.has l) (he : ∀ M, e M = some (G M l)) :
    Acts (fun l' => l' = l) G (asg z l e) := by
  intro M
  refine ⟨fun l' => if l' = l then G M l else M l', ?_, ?_, ?_⟩
  · unfold Wave.asg; rw [he]; dsimp only [Option.bind]; rw [if_pos hb]
  · intro l' h; subst h; simp
  · intro l' h; dsimp only; rw [if_neg h]

theorem asg_eval {z : Shape} {l : Loc} {e : Ex} {M : Mem} {v : ℚ} (hb : z.has l) (he : e M = some v) :
    Wave.asg z l e M = some fun l' => if l' = l then v else M l' := by
  unfold Wave.asg; rw [he]; dsimp only [Option.bind]; rw [if_pos hb]

/-- `G` gives the same values in `S` for memories that agree outside of `T`. -/
def Apart (S T : Loc → Prop) (G : Mem → Loc → ℚ) : Prop :=
  (∀ l, S l → ¬ T l) ∧ ∀ M1 M2 : Mem, (∀ l, ¬ T l → M1 l = M2 l) → ∀ l, S l → G M1 l = G M2 l

theorem Acts.seq2 {S T : Loc → Prop} {G : Mem → Loc → ℚ} {f g : Prog} (hf : Acts S G f) (hg : Acts T G g)
    (ha : Apart T S G) : Acts (fun l => S l ∨ T l) G (fun M => (f M).bind g) := by
  intro M
  obtain ⟨M1, e1, a1, b1⟩ := hf M
  obtain ⟨M2, e2, a2, b2⟩ := hg M1
  refine ⟨M2, by show (f M).bind g = _; rw [e1]; exact e2, ?_, ?_⟩
  · intro l h
    by_cases ht : T l
    · rw [a2 l ht]; exact ha.2 M1 M b1 l ht
    · rw [b2 l ht]; exact a1 l (h.resolve_right ht)
  · intro l h
    rw [b2 l fun h' => h (Or.inr h'), b1 l fun h' => h (Or.inl h')]

theorem seq_nil : seq [] = some := rfl
theorem seq_one (p : Prog) : seq [p] = p := by
  funext M
  show (p M).bind (seq []) = p M
  cases p M <;> rfl
theorem seq_cons (p : Prog) (ps : List Prog) : seq (p :: ps) = fun M => (p M).bind (seq ps) := rfl

theorem seq_step {p : Prog} {ps : List Prog} {M M1 : Mem} (h : p M = some M1) : seq (p :: ps) M = seq ps M1 := by
  show (p M).bind (seq ps) = _
  rw [h]; rfl
theorem seq_done (M : Mem) : seq [] M = some M := rfl

theorem when_true {c : Bool} {p : Prog} (h : c = true) : when c p = p := by unfold when; rw [if_pos h]
theorem when_false {c : Bool} {p : Prog} (h : ¬ c = true) : when c p = some := by unfold when; rw [if_neg h]

/-- Pairs of iterations of nested loops. -/
theorem Acts.list {ι : Type} (S : ι → Loc → Prop) (G : Mem → Loc → ℚ) (f : ι → Prog) (ks : List ι) :
    (∀ k ∈ ks, Acts (S k) G (f k)) → ks.Pairwise (fun k k' => Apart (S k') (S k) G) →
    Acts (fun l => ∃ k ∈ ks, S k l) G (loop ks f) := by
  induction ks with
  | nil =>
    intro _ _ M
    exact ⟨M, rfl, fun c ⟨k, hk, _⟩ => by simp at hk, fun c _ => rfl⟩
  | cons k ks ih =>
    intro h hp
    rw [List.pairwise_cons] at hp
    have ih' := ih (fun k' hk' => h k' (List.mem_cons_of_mem _ hk')) hp.2
    have : Acts (fun l => S k l ∨ ∃ k' ∈ ks, S k' l) G (fun M => (f k M).bind (loop ks f)) := by
      refine Acts.seq2 (h k (List.mem_cons_self ..)) ih' ⟨?_, ?_⟩
      · rintro l ⟨k', hk', hs⟩; exact (hp.1 k' hk').1 l hs
      · rintro M1 M2 hM l ⟨k', hk', hs⟩
        exact (hp.1 k' hk').2 M1 M2 hM l hs
    exact this.congr fun l => by simp

theorem Acts.do1 (S : ℤ → Loc → Prop) (G : Mem → Loc → ℚ) (f : ℤ → Prog) (lo hi : ℤ)
    (h : ∀ k, lo ≤ k → k ≤ hi → Acts (S k) G (f k)) (hd : ∀ k k', k ≠ k' → Apart (S k') (S k) G) :
    Acts (fun l => ∃ k, (lo ≤ k ∧ k ≤ hi) ∧ S k l) G (doLoop lo hi f) := by
  refine (Acts.list S G f (range lo hi) (fun k hk => ?_) ?_).congr fun l => ?_
  · rw [mem_range] at hk; exact h k hk.1 hk.2
  · exact (range_pairwise lo hi).imp fun {a b} hab => hd a b hab
  · simp only [mem_range]

theorem flat_pairwise (lo hi lo' hi' : ℤ) :
    ((range lo hi).flatMap fun a => (range lo' hi').map fun b => (a, b)).Pairwise (· ≠ ·) := by
  rw [List.pairwise_flatMap]
  constructor
  · intro a _
    rw [List.pairwise_map]
    exact (range_pairwise lo' hi').imp fun {x y} h => by simpa using h
  · exact (range_pairwise lo hi).imp fun {x y} h p hp q hq => by
      rw [List.mem_map] at hp hq
      obtain ⟨b, _, rfl⟩ := hp
      obtain ⟨c, _, rfl⟩ := hq
      intro he
      exact h (by simpa using congrArg Prod.fst he)

theorem Acts.do2 (S : ℤ → ℤ → Loc → Prop) (G : Mem → Loc → ℚ) (f : ℤ → ℤ → Prog) (lo hi lo' hi' : ℤ)
    (h : ∀ k k', lo ≤ k → k ≤ hi → lo' ≤ k' → k' ≤ hi' → Acts (S k k') G (f k k'))
    (hd : ∀ a b a' b', (a, b) ≠ (a', b') → Apart (S a' b') (S a b) G) :
    Acts (fun l => ∃ k k', (lo ≤ k ∧ k ≤ hi) ∧ (lo' ≤ k' ∧ k' ≤ hi') ∧ S k k' l) G
      (doLoop lo hi fun k => doLoop lo' hi' (f k)) := by
  have e : (doLoop lo hi fun k => doLoop lo' hi' (f k)) =
      loop ((range lo hi).flatMap fun a => (range lo' hi').map fun b => (a, b)) (fun x => f x.1 x.2) := by
    funext s
    exact loop_flat (range lo hi) (range lo' hi') f s
  rw [e]
  refine (Acts.list (fun x : ℤ × ℤ => S x.1 x.2) G _ _ (fun k hk => ?_) ?_).congr fun l => ?_
  · rw [mem_flat, mem_range, mem_range] at hk
    exact h k.1 k.2 hk.1.1 hk.1.2 hk.2.1 hk.2.2
  · exact (flat_pairwise lo hi lo' hi').imp fun {a b} hab => hd a.1 a.2 b.1 b.2 hab
  · simp only [mem_flat, mem_range]
    constructor
    · rintro ⟨k, ⟨h1, h2⟩, h3⟩; exact ⟨k.1, k.2, h1, h2, h3⟩
    · rintro ⟨k, k', h1, h2, h3⟩; exact ⟨(k, k'), ⟨h1, h2⟩, h3⟩

/-! ### Values that do not depend on the memory -/

theorem Acts.seq2Const {S T : Loc → Prop} {w : Loc → ℚ} {f g : Prog} (hf : Acts S (fun _ => w) f)
    (hg : Acts T (fun _ => w) g) : Acts (fun l => S l ∨ T l) (fun _ => w) (fun M => (f M).bind g) := by
  intro M
  obtain ⟨M1, e1, a1, b1⟩ := hf M
  obtain ⟨M2, e2, a2, b2⟩ := hg M1
  refine ⟨M2, by show (f M).bind g = _; rw [e1]; exact e2, ?_, ?_⟩
  · intro l h
    by_cases ht : T l
    · exact a2 l ht
    · rw [b2 l ht]; exact a1 l (h.resolve_right ht)
  · intro l h
    rw [b2 l fun h' => h (Or.inr h'), b1 l fun h' => h (Or.inl h')]

theorem Acts.listConst {ι : Type} (S : ι → Loc → Prop) (w : Loc → ℚ) (f : ι → Prog) (ks : List ι) :
    (∀ k ∈ ks, Acts (S k) (fun _ => w) (f k)) → Acts (fun l => ∃ k ∈ ks, S k l) (fun _ => w) (loop ks f) := by
  induction ks with
  | nil =>
    intro _ M
    exact ⟨M, rfl, fun c ⟨k, hk, _⟩ => by simp at hk, fun c _ => rfl⟩
  | cons k ks ih =>
    intro h
    have ih' := ih (fun k' hk' => h k' (List.mem_cons_of_mem _ hk'))
    exact (Acts.seq2Const (h k (List.mem_cons_self ..)) ih').congr fun l => by simp

theorem Acts.doConst (S : ℤ → Loc → Prop) (w : Loc → ℚ) (f : ℤ → Prog) (lo hi : ℤ)
    (h : ∀ k, lo ≤ k → k ≤ hi → Acts (S k) (fun _ => w) (f k)) :
    Acts (fun l => ∃ k, (lo ≤ k ∧ k ≤ hi) ∧ S k l) (fun _ => w) (doLoop lo hi f) := by
  refine (Acts.listConst S w f (range lo hi) (fun k hk => ?_)).congr fun l => ?_
  · rw [mem_range] at hk; exact h k hk.1 hk.2
  · simp only [mem_range]

/-- An invariant of a loop: `P k` holds before the iteration `k`. -/
theorem doLoop_inv {σ : Type} (P : ℤ → σ → Prop) (lo hi : ℤ) (f : ℤ → σ → Option σ) (hle : lo ≤ hi + 1)
    (hs : ∀ k s, lo ≤ k → k ≤ hi → P k s → ∃ s', f k s = some s' ∧ P (k + 1) s') :
    ∀ s, P lo s → ∃ s', doLoop lo hi f s = some s' ∧ P (hi + 1) s' := by
  obtain ⟨n, hn⟩ : ∃ n : Nat, hi + 1 = lo + n := ⟨(hi + 1 - lo).toNat, by omega⟩
  have key : ∀ m : Nat, m ≤ n → ∀ s, P lo s →
      ∃ s', loop ((List.range m).map fun (k : Nat) => lo + (k : ℤ)) f s = some s' ∧ P (lo + m) s' := by
    intro m
    induction m with
    | zero => intro _ s h; exact ⟨s, rfl, by simpa using h⟩
    | succ m ih =>
      intro hm s h
      obtain ⟨s1, e1, h1⟩ := ih (by omega) s h
      obtain ⟨s2, e2, h2⟩ := hs (lo + m) s1 (by omega) (by omega) h1
      have e : lo + (m : ℤ) + 1 = lo + ((m + 1 : Nat) : ℤ) := by push_cast; omega
      rw [e] at h2
      refine ⟨s2, ?_, h2⟩
      rw [List.range_succ, List.map_append, loop_append, e1]
      show (f (lo + m) s1).bind _ = _
      rw [e2]; rfl
  intro s h
  have := key n le_rfl s h
  unfold doLoop range
  rw [hn]
  have e : (lo + (n : ℤ) - lo).toNat = n := by omega
  rw [e]
  exact this

theorem sum_Icc_succ (f : ℤ → ℚ) (k : ℤ) (hk : 1 ≤ k) :
    ∑ m ∈ Finset.Icc 1 k, f m = ∑ m ∈ Finset.Icc 1 (k - 1), f m + f k := by
  have e : Finset.Icc 1 k = insert k (Finset.Icc 1 (k - 1)) := by
    ext x; simp only [Finset.mem_Icc, Finset.mem_insert]; omega
  rw [e, Finset.sum_insert (by simp), add_comm]

end Fclaw.Wave
