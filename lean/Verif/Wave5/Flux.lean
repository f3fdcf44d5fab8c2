import Verif.Wave5.Model
import Verif.Wave.Props
/-
The fluxes of a slice, and a slice, with the routines of Clawpack 5.
-/
set_option autoImplicit false
set_option linter.unusedSimpArgs false
namespace Fclaw.Wave5

open Wave
open Fort (doLoop loop range mem_range)

theorem acts_unique {S : Loc → Prop} {G : Mem → Loc → ℚ} {f g : Prog} (hf : Acts S G f) (hg : Acts S G g) : f = g := by
  funext M
  obtain ⟨M1, e1, a1, b1⟩ := hf M
  obtain ⟨M2, e2, a2, b2⟩ := hg M
  rw [e1, e2]
  congr 1
  funext l
  by_cases h : S l
  · rw [a1 l h, a2 l h]
  · rw [b1 l h, b2 l h]

theorem doLoop_same {σ : Type} {lo hi : ℤ} {f g : ℤ → σ → Option σ} (h : ∀ k, lo ≤ k → k ≤ hi → f k = g k) :
    doLoop lo hi f = doLoop lo hi g := by
  have : ∀ ks : List ℤ, (∀ k ∈ ks, f k = g k) → loop ks f = loop ks g := by
    intro ks
    induction ks with
    | nil => intro _; rfl
    | cons k ks ih =>
      intro h
      funext s
      show (f k s).bind (loop ks f) = (g k s).bind (loop ks g)
      rw [h k (List.mem_cons_self ..), ih fun k' hk' => h k' (List.mem_cons_of_mem _ hk')]
  exact this _ fun k hk => h k ((mem_range ..).1 hk).1 ((mem_range ..).1 hk).2

/-- Options with which the routines of Clawpack 4.6 do what those of Clawpack 5 do. -/
structure Like (z : Shape) (o o' : Method) : Prop where
  order : o'.order = o.order
  trans : o'.trans = o.trans
  mcapa : o'.mcapa = o.mcapa
  zero : ∀ w, 1 ≤ w → w ≤ (z.mwaves : ℤ) → (o'.lim w = 0 ↔ o.lim w = 0)
  pos : ∀ w, 1 ≤ w → w ≤ (z.mwaves : ℤ) → (0 < o'.lim w ↔ 0 < o.lim w)
  lim : ∀ w, 1 ≤ w → w ≤ (z.mwaves : ℤ) → wlimitr5 (o.lim w) = wlimitr (o'.lim w)

section
variable {z : Shape} {o o' : Method} {n : ℤ}

theorem inlinelimiter5_eq (h : Like z o o') : inlinelimiter5 z o n = inlinelimiter z o' n := by
  refine doLoop_same fun w h1 h2 => ?_
  funext M
  have e : limitEdge5 z o w = limitEdge z o' w := by
    funext i st
    unfold limitEdge5 limitEdge
    rw [h.lim w h1 h2]
  rw [e]
  by_cases h0 : o.lim w = 0
  · rw [if_pos h0, if_pos ((h.zero w h1 h2).2 h0)]
  · rw [if_neg h0, if_neg fun h' => h0 ((h.zero w h1 h2).1 h')]

theorem limits_eq (h : Like z o o') : limits z o = limits z o' := by
  rw [Bool.eq_iff_iff]
  simp only [limits, List.any_eq_true, decide_eq_true_eq, mem_range]
  constructor
  · rintro ⟨w, hw, h'⟩; exact ⟨w, hw, (h.pos w hw.1 hw.2).2 h'⟩
  · rintro ⟨w, hw, h'⟩; exact ⟨w, hw, (h.pos w hw.1 hw.2).1 h'⟩

theorem clear5_eq (h : Fit z n) : clear5 z n = clear z n := by
  have := h.n0; have := h.nm; have := h.mbc
  refine acts_unique (G := fun _ _ => 0) (Acts.congr (?_ : Acts (fun l => ∃ i, (1 - (z.mbc : ℤ) ≤ i ∧ i ≤ n + z.mbc) ∧
    ∃ m, (1 ≤ m ∧ m ≤ (z.meqn : ℤ)) ∧ (l = .faddm i m ∨ l = .faddp i m ∨ l = .gaddm i m 1 ∨ l = .gaddp i m 1 ∨ l = .gaddm i m 2 ∨ l = .gaddp i m 2)) _ _) ?_)
    (clear_acts h)
  · refine Acts.doConst (w := fun _ => 0) _ _ _ _ fun i h1 h2 => ?_
    refine Acts.doConst (w := fun _ => 0) _ _ _ _ fun m h3 h4 => ?_
    rw [seq_cons, seq_cons, seq_cons, seq_cons, seq_cons, seq_one]
    refine Acts.seq2Const (Acts.asg (by bnd) fun M => rfl) ?_
    refine Acts.seq2Const (Acts.asg (by bnd) fun M => rfl) ?_
    refine Acts.seq2Const (Acts.asg (by bnd) fun M => rfl) ?_
    refine Acts.seq2Const (Acts.asg (by bnd) fun M => rfl) ?_
    exact Acts.seq2Const (Acts.asg (by bnd) fun M => rfl) (Acts.asg (by bnd) fun M => rfl)
  · intro l
    constructor
    · rintro ⟨i, hi, m, hm, h⟩
      rcases h with h | h | h | h | h | h
      · exact ⟨1, by omega, m, hm, i, hi, by simp [h]⟩
      · exact ⟨1, by omega, m, hm, i, hi, by simp [h]⟩
      · exact ⟨1, by omega, m, hm, i, hi, by simp [h]⟩
      · exact ⟨1, by omega, m, hm, i, hi, by simp [h]⟩
      · exact ⟨2, by omega, m, hm, i, hi, by simp [h]⟩
      · exact ⟨2, by omega, m, hm, i, hi, by simp [h]⟩
    · rintro ⟨k, hk, m, hm, i, hi, h⟩
      refine ⟨i, hi, m, hm, ?_⟩
      have hk' : k = 1 ∨ k = 2 := by omega
      rcases hk' with rfl | rfl
      · rcases h with h | h | h | h <;> simp [h]
      · rcases h with h | h | h | h <;> simp [h]

theorem spillLeft5_eq (h : Fit z n) {dt : ℤ → Loc} (hd : DtArray z dt) : spillLeft5 z n dt = spillLeft z 1 (n + 1) dt := by
  have n0 := h.n0; have nm := h.nm; have mb := h.mbc
  refine acts_unique (Acts.congr (?_ : Acts (fun l => ∃ i m, (1 ≤ i ∧ i ≤ n + 1) ∧ (1 ≤ m ∧ m ≤ (z.meqn : ℤ)) ∧
      ((l = .gaddm (i - 1) m 1 ∨ l = .gaddp (i - 1) m 1) ∨ (l = .gaddm (i - 1) m 2 ∨ l = .gaddp (i - 1) m 2)))
      (spillG dt 1) _) fun l =>
        ⟨fun ⟨i, m, h1, h2, h3⟩ => ⟨m, i, h2, h1, h3⟩, fun ⟨m, i, h1, h2, h3⟩ => ⟨i, m, h2, h1, h3⟩⟩) (spillLeft_acts h hd (by omega) (by omega))
  refine Acts.do2 _ (spillG dt 1) _ _ _ _ _ ?_ ?_
  · intro i m h3 h4 h1 h2
    have l1 : z.inLine (i - 1) := by simp only [Shape.inLine]; omega
    have l2 : z.inLine (i - 1 + 1) := by simp only [Shape.inLine]; omega
    rw [seq_cons, seq_one]
    refine Acts.seq2 (gupdate_acts hd.apart (i - 1) m 1 (hd.has _ l1) 1 (Or.inl rfl) l1 l2 ⟨h1, h2⟩ _ (by rw [if_pos rfl, sub_add_cancel]))
      (gupdate_acts hd.apart (i - 1) m 1 (hd.has _ l1) 2 (Or.inr rfl) l1 l2 ⟨h1, h2⟩ _ (by rw [if_neg (by decide), sub_add_cancel])) ?_
    exact spill_apart hd.apart _ _ _ _ _ _ _ (by omega)
  · intro a b a' b' hne
    have hne' : ¬ (a = a' ∧ b = b') := by simpa using hne
    refine Apart.union ?_ ?_ ?_ ?_ <;> exact spill_apart hd.apart _ _ _ _ _ _ _ (by omega)

theorem spillRight5_eq (h : Fit z n) {dt : ℤ → Loc} (hd : DtArray z dt) : spillRight5 z n dt = spillRight z 1 (n + 1) dt := by
  have n0 := h.n0; have nm := h.nm; have mb := h.mbc
  refine acts_unique (Acts.congr (?_ : Acts (fun l => ∃ i m, (1 ≤ i ∧ i ≤ n + 1) ∧ (1 ≤ m ∧ m ≤ (z.meqn : ℤ)) ∧
      ((l = .gaddm i m 1 ∨ l = .gaddp i m 1) ∨ (l = .gaddm i m 2 ∨ l = .gaddp i m 2)))
      (spillG dt 0) _) fun l =>
        ⟨fun ⟨i, m, h1, h2, h3⟩ => ⟨m, i, h2, h1, h3⟩, fun ⟨m, i, h1, h2, h3⟩ => ⟨i, m, h2, h1, h3⟩⟩) (spillRight_acts h (by omega) (by omega) hd.apart
        fun i x y => hd.has _ (by simp only [Shape.inLine]; omega))
  refine Acts.do2 _ (spillG dt 0) _ _ _ _ _ ?_ ?_
  · intro i m h3 h4 h1 h2
    have l1 : z.inLine i := by simp only [Shape.inLine]; omega
    have l2 : z.inLine (i + 0) := by simp only [Shape.inLine]; omega
    rw [seq_cons, seq_one]
    refine Acts.seq2 (gupdate_acts hd.apart i m 0 (hd.has _ l1) 1 (Or.inl rfl) l1 l2 ⟨h1, h2⟩ _ (by rw [if_pos rfl, add_zero]))
      (gupdate_acts hd.apart i m 0 (hd.has _ l1) 2 (Or.inr rfl) l1 l2 ⟨h1, h2⟩ _ (by rw [if_neg (by decide), add_zero])) ?_
    exact spill_apart hd.apart _ _ _ _ _ _ _ (by omega)
  · intro a b a' b' hne
    have hne' : ¬ (a = a' ∧ b = b') := by simpa using hne
    refine Apart.union ?_ ?_ ?_ ?_ <;> exact spill_apart hd.apart _ _ _ _ _ _ _ (by omega)

theorem flux5_spec {R : Solver} {fw : Bool} {dx dy t : ℚ} {F : Field} {ixy : Nat} {b : ℤ} {dt : ℤ → Loc} (hL : Like z o o')
    (h : Fit z n) (hd : DtArray z dt) (hu : Usable z o') (M : Mem) (hl : Line z (schemeLag z o' R fw 0 dx dy t) F ixy b n dt M) :
    ∃ M', flux5 z o R fw ixy n dt M = some M' ∧ FluxOut z (schemeLag z o' R fw 0 dx dy t) F ixy b n M M' := by
  have n0 := h.n0; have nm := h.nm; have mb := h.mbc
  have e : flux5 z o R fw ixy n dt = fluxGen z o' R fw 1 (n + 1) (n + 1) (decide (o'.order ≠ 1)) (decide (o'.trans ≠ 0)) dt ixy n dt := by
    unfold flux5 fluxGen
    rw [clear5_eq h, spillLeft5_eq h hd, spillRight5_eq h hd, inlinelimiter5_eq hL, limits_eq hL, hL.order, hL.trans]
  rw [e]
  have := hu.order; have := hu.trans
  exact fluxGen_spec (g := 0) h hd hu M hl (by omega) le_rfl (by omega) le_rfl (by omega) le_rfl _ _
    (decide_eq_decide.2 (by omega)) (decide_eq_decide.2 (by omega)) (fun i => hd.apart _)
    (fun i x y => hd.has _ (by simp only [Shape.inLine]; omega)) (fun _ i x y => by rw [sub_zero]; exact hl.dt i (by omega) (by omega))

theorem flux5_ok (hL : Like z o o') (hmb : 2 ≤ z.mbc) (hu : Usable z o') (R : Solver) (fw : Bool) (F : Field) (dx dy dt : ℚ) :
    FluxOk z (schemeLag z o' R fw 0 dx dy dt) F (flux5 z o R fw) := by
  intro y b _ _ M hl
  refine flux5_spec hL ⟨len_nonneg y, len_le y, hmb⟩ ?_ hu M hl
  cases y
  · exact dtx_array z
  · exact dty_array z

end

end Fclaw.Wave5
