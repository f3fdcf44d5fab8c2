/-
Helpers for C74.
-/
import Verif.Repopulate.Spec
import Verif.Metric.Props
import Verif.Transfer.Props
import Verif.Adapt.Lemmas

set_option autoImplicit false
set_option linter.unusedSimpArgs false
set_option linter.unusedVariables false
set_option linter.unusedSectionVars false
namespace Fclaw.Repopulate

open Fort CopyGhost Transfer Adapt Metric
open Fclaw.Domain (Path)
open Fclaw.Partition (set2)

variable {K P : Type} [Field K] [CharZero K]

/-! ### Places -/

theorem quadAt_append (q : Path 4) (k : Fin 4) : quadAt (q ++ [k]) = (quadAt q).child (k.val : ℤ) := by
  simp [quadAt, List.foldl_append]

theorem foldl_level : ∀ (q : Path 4) (Q : Quad), (q.foldl (fun Q k => Q.child (k.val : ℤ)) Q).level = Q.level + q.length
  | [], _ => rfl
  | k :: q, Q => by
    rw [List.foldl_cons, foldl_level q]
    simp [Quad.child]
    omega

theorem quadAt_level (q : Path 4) : (quadAt q).level = q.length := by
  unfold quadAt
  rw [foldl_level]
  simp

theorem quadAt_child (q : Path 4) (g : ℤ) (h0 : 0 ≤ g) (h3 : g ≤ 3) : quadAt (childPath q g) = (quadAt q).child g := by
  unfold childPath
  rw [quadAt_append]
  congr 1
  interval_cases g <;> rfl

theorem children_eq (q : Path 4) : children q = [childPath q 0, childPath q 1, childPath q 2, childPath q 3] := rfl

/-! ### Areas -/

theorem cart_refine (d : Dims) (kc kc' : Area) (kf kf' : ℤ → Area) (q : Grid ℚ) (qf : ℤ → Grid ℚ) :
    refine d kc kf 0 q qf = refine d kc' kf' 0 q qf := by
  simp [refine, interpolate2fine]

theorem cart_coarsen (d : Dims) (kc kc' : Area) (kf kf' : ℤ → Area) (q : Grid ℚ) (qf : ℤ → Grid ℚ) :
    coarsen d kc kf 0 qf q = coarsen d kc' kf' 0 qf q := by
  have : ∀ a a' b b' g qf', average2coarse d a b g 0 qf' = average2coarse d a' b' g 0 qf' := by
    intro a a' b b' g qf'
    funext q
    simp [average2coarse, averageCell]
  unfold coarsen
  have e : (fun igrid => average2coarse d kc (kf igrid) igrid 0 (qf igrid)) =
      fun igrid => average2coarse d kc' (kf' igrid) igrid 0 (qf igrid) := by
    funext g
    exact this kc kc' (kf g) (kf' g) g (qf g)
  rw [e]

theorem areas_ok (S : Setting K P) (hS : S.Ok) (i : Nat) (q : Path 4) (c : Patch) (f : ℤ → Patch) (hc : Valid S i q c)
    (hf : ∀ g, 0 ≤ g → g ≤ 3 → Valid S i (childPath q g) (f g)) :
    Areas S.d S.man (areaOf S q c) (fun g => areaOf S (childPath q g) (f g)) := by
  unfold areaOf Setting.man
  rcases Bool.eq_false_or_eq_true S.manifold with e | e
  · simp only [e, if_true]
    refine ⟨hS.positive e i _ _ (hc e), ?_, Or.inl rfl⟩
    rintro ⟨g, a, b⟩ hx
    rw [mem_fineCells] at hx
    exact hS.positive e i _ _ (hf g hx.1.1 hx.1.2 e) (a, b) ((mem_coarseCells ..).2 hx.2)
  · simp only [e, Bool.false_eq_true, if_false]
    have hu := hS.unit
    refine ⟨fun C _ => ?_, fun c _ => ?_, Or.inr ⟨rfl, S.unit / 4 ^ (q.length + 1), fun C _ => ?_, ?_⟩⟩
    · unfold Setting.uniform; positivity
    · unfold Setting.uniform; positivity
    · unfold Setting.uniform
      rw [quadAt_level, pow_succ]
      field_simp
    · rintro ⟨g, a, b⟩ hx
      show S.unit / 4 ^ (quadAt (childPath q g)).level = _
      rw [quadAt_level, childPath]
      simp

/-! ### One event -/

/-- What refinement does. -/
structure Fine (S : Setting K P) (init : Bool) (i : Nat) (q : Path 4) (c : Patch) (f : ℤ → Patch) : Prop where
  fresh : ∀ g, 0 ≤ g → g ≤ 3 → Valid S i (childPath q g) (f g) ∧ FreshReg S i (childPath q g) (f g)
  values : init = false → ∀ g, 0 ≤ g ∧ g ≤ 3 → ∀ x, inFine S.d x → (f g).q x =
    refined S.d (areaOf S q c) (fun g => areaOf S (childPath q g) (f g)) S.man c.q g x
  init : init = true → ∀ g, 0 ≤ g → g ≤ 3 → ∀ x, inFine S.d x → (f g).q x = S.init i (quadAt (childPath q g)) x

/-- What coarsening does. -/
structure Coarse (S : Setting K P) (init : Bool) (i : Nat) (q : Path 4) (f : ℤ → Patch) (c : Patch) : Prop where
  fresh : Valid S i q c ∧ FreshReg S i q c
  values : init = false → ∀ m, comp S.d m → ∀ C ∈ coarseCells S.d, c.q (C.1, C.2, m) =
    massIn S.d (fun g => areaOf S (childPath q g) (f g)) (fun g => (f g).q) m C / areaOf S q c C
  init : init = true → ∀ x, inFine S.d x → c.q x = S.init i (quadAt q) x

theorem faceArea_eq (d : Dims) (a : Area) : faceArea d a = alongFaces d a := rfl

theorem buildPatch_spec (S : Setting K P) (hS : S.Ok) (i : Nat) (q : Path 4) (hl : q.length ≤ S.maxlevel) (mem : Memory P) :
    ∃ p, buildPatch S i (quadAt q) mem = some p ∧ Valid S i q p ∧ FreshReg S i q p := by
  unfold buildPatch
  rcases Bool.eq_false_or_eq_true S.manifold with e | e
  · have hl' : (quadAt q).level ≤ S.maxlevel := by rw [quadAt_level]; exact hl
    obtain ⟨a, ea, _⟩ := computeArea_sets S.d hS.even (S.map i) (hS.splits e i) S.maxlevel (quadAt q) hl' false mem.store mem.area
    have ea' : build S.d (S.map i) S.maxlevel (quadAt q).level ((quadAt q).geom S.d) mem.store mem.area = some a := ea
    refine ⟨⟨mem.q, a, newRegs S i (quadAt q) a⟩, by rw [if_pos e, ea']; rfl, fun _ => .scratch _ _ _ _ hl' ea', ?_⟩
    simp [FreshReg, newRegs, areaOf, e, faceArea_eq]
  · refine ⟨⟨mem.q, mem.area, newRegs S i (quadAt q) mem.area⟩, by rw [if_neg (by simp [e])], fun h => by simp [e] at h, ?_⟩
    simp [FreshReg, newRegs, areaOf, e, faceArea_eq]

theorem buildNew_spec (S : Setting K P) (hS : S.Ok) (pos : Nat → Nat → Option Quad) (mem : Nat → Nat → Memory P) (init : Bool)
    (i nj : Nat) (q : Path 4) (hp : pos i nj = some (quadAt q)) (hl : q.length ≤ S.maxlevel) :
    ∃ p, buildNew S pos mem init i nj = some p ∧ Valid S i q p ∧ FreshReg S i q p ∧
      (init = true → ∀ x, inFine S.d x → p.q x = S.init i (quadAt q) x) := by
  obtain ⟨p, e, h1, h2⟩ := buildPatch_spec S hS i q hl (mem i nj)
  unfold buildNew
  rw [hp]
  simp only [Option.bind_some, e, Option.map_some]
  rcases Bool.eq_false_or_eq_true init with hi | hi
  · refine ⟨initialize_patch S i (quadAt q) p, by simp [hi], h1, h2, fun _ x hx => ?_⟩
    unfold initialize_patch
    obtain ⟨_, ⟨a, b⟩, c, d⟩ := hx
    simp [a, b, c, d]
  · exact ⟨p, by simp [hi], h1, h2, fun h => by simp [hi] at h⟩

theorem buildPatchFromFine_spec (S : Setting K P) (hS : S.Ok) (i : Nat) (q : Path 4) (hl : q.length < S.maxlevel) (fine : ℤ → Patch)
    (hf : ∀ g, 0 ≤ g → g ≤ 3 → Valid S i (childPath q g) (fine g)) (mem : Memory P) :
    ∃ p, buildPatchFromFine S i (quadAt q) fine mem = some p ∧ Valid S i q p ∧ FreshReg S i q p := by
  unfold buildPatchFromFine
  rcases Bool.eq_false_or_eq_true S.manifold with e | e
  · have hl' : (quadAt q).level < S.maxlevel := by rw [quadAt_level]; exact hl
    have hb : ∀ g, 0 ≤ g → g ≤ 3 → Built S.d (S.map i) S.maxlevel ((quadAt q).child g) (fine g).area := by
      intro g h0 h3
      rw [← quadAt_child q g h0 h3]
      exact hf g h0 h3 e
    have hm := hS.mbc
    obtain ⟨a, ea, _⟩ := buildFromFine_spec S.d hS.even hS.square (by omega) (S.map i) (hS.splits e i) S.maxlevel (quadAt q) hl' mem.store
      (fun g => (fine g).area) (fun g h0 h3 => built_value hS.even hS.square (by omega) (hS.splits e i) (hb g h0 h3)) mem.area
    refine ⟨⟨mem.q, a, newRegs S i (quadAt q) a⟩, by rw [if_pos e, ea]; rfl, fun _ => .merged _ _ _ _ _ hl' hb ea, ?_⟩
    simp [FreshReg, newRegs, areaOf, e, faceArea_eq]
  · refine ⟨⟨mem.q, mem.area, newRegs S i (quadAt q) mem.area⟩, by rw [if_neg (by simp [e])], fun h => by simp [e] at h, ?_⟩
    simp [FreshReg, newRegs, areaOf, e, faceArea_eq]

theorem family_cases (p0 p1 p2 p3 : Patch) (Q : ℤ → Patch → Prop) (h0 : Q 0 p0) (h1 : Q 1 p1) (h2 : Q 2 p2) (h3 : Q 3 p3) :
    ∀ g, 0 ≤ g → g ≤ 3 → Q g (family p0 p1 p2 p3 g) := by
  intro g a b
  interval_cases g
  · exact h0
  · exact h1
  · exact h2
  · exact h3

/-- Refinement of a solution with the areas as passed by the code. -/
theorem refine_spec (S : Setting K P) (hS : S.Ok) (i : Nat) (q : Path 4) (c : Patch) (f : ℤ → Patch) (hc : Valid S i q c)
    (hf : ∀ g, 0 ≤ g → g ≤ 3 → Valid S i (childPath q g) (f g)) :
    ∃ qs, refine S.d c.area (fun g => (f g).area) S.man c.q (fun g => (f g).q) = some qs ∧
      ∀ g, 0 ≤ g ∧ g ≤ 3 → ∀ x, inFine S.d x → qs g x =
        refined S.d (areaOf S q c) (fun g => areaOf S (childPath q g) (f g)) S.man c.q g x := by
  have hA := areas_ok S hS i q c f hc hf
  obtain ⟨qs, e, h⟩ := refine_sets S.d hS.even hS.mbc _ _ _ hA c.q (fun g => (f g).q)
  refine ⟨qs, ?_, h⟩
  rw [← e]
  rcases Bool.eq_false_or_eq_true S.manifold with hm | hm
  · simp [areaOf, hm]
  · simp only [Setting.man, hm, Bool.false_eq_true, if_false]
    exact cart_refine ..

theorem coarsen_spec (S : Setting K P) (hS : S.Ok) (i : Nat) (q : Path 4) (c : Patch) (f : ℤ → Patch) (hc : Valid S i q c)
    (hf : ∀ g, 0 ≤ g → g ≤ 3 → Valid S i (childPath q g) (f g)) :
    ∃ q', coarsen S.d c.area (fun g => (f g).area) S.man (fun g => (f g).q) c.q = some q' ∧
      ∀ m, comp S.d m → ∀ C ∈ coarseCells S.d, q' (C.1, C.2, m) =
        massIn S.d (fun g => areaOf S (childPath q g) (f g)) (fun g => (f g).q) m C / areaOf S q c C := by
  have hA := areas_ok S hS i q c f hc hf
  obtain ⟨q', e, h, _⟩ := C37_partial S.d hS.even hS.square _ _ _ hA (fun g => (f g).q) c.q
  refine ⟨q', ?_, ?_⟩
  · rw [← e]
    rcases Bool.eq_false_or_eq_true S.manifold with hm | hm
    · simp [areaOf, hm]
    · simp only [Setting.man, hm, Bool.false_eq_true, if_false]
      exact cart_coarsen ..
  · intro m hm C hC
    have := h m hm C hC
    unfold coarseMass at this
    have hp := ne_of_gt (hA.1 C hC)
    rw [← this]
    field_simp

/-- What an event makes of the patches it finds. -/
def Did (S : Setting K P) (init : Bool) (i : Nat) : Event 4 → (Nat → Option Patch) → (Nat → Option Patch) → Prop
  | .keep _, a, b => b 0 = a 0
  | .refine q, a, b => ∀ c, a 0 = some c → ∃ f : ℤ → Patch, (b 0 = some (f 0) ∧ b 1 = some (f 1) ∧ b 2 = some (f 2) ∧ b 3 = some (f 3)) ∧
      Fine S init i q c f
  | .coarsen q, a, b => ∀ f : ℤ → Patch, (a 0 = some (f 0) ∧ a 1 = some (f 1) ∧ a 2 = some (f 2) ∧ a 3 = some (f 3)) →
      ∃ c, b 0 = some c ∧ Coarse S init i q f c

/-- Change of a part of a row. -/
def Changed (i lo n : Nat) (f f' : Nat → Nat → Option Patch) : Prop :=
  ∀ x y, ¬ (x = i ∧ lo ≤ y ∧ y < lo + n) → f' x y = f x y

def Cleared (i lo n : Nat) (f : Nat → Nat → Option Patch) : Prop := ∀ k < n, f i (lo + k) = none

theorem changed_one (i lo : Nat) (f : Nat → Nat → Option Patch) (u : Option Patch) : Changed i lo 1 f (set2 f i lo u) := by
  intro x y h
  unfold set2
  rw [if_neg]
  rintro ⟨rfl, rfl⟩
  exact h ⟨rfl, Nat.le_refl _, by omega⟩

theorem changed_four (i lo : Nat) (f : Nat → Nat → Option Patch) (u0 u1 u2 u3 : Option Patch) :
    Changed i lo 4 f (set2 (set2 (set2 (set2 f i lo u0) i (lo + 1) u1) i (lo + 2) u2) i (lo + 3) u3) := by
  intro x y h
  unfold set2
  rw [if_neg, if_neg, if_neg, if_neg] <;>
  · rintro ⟨rfl, rfl⟩
    exact h ⟨rfl, by omega, by omega⟩

theorem event_spec (S : Setting K P) (hS : S.Ok) (pos : Nat → Nat → Option Quad) (mem : Nat → Nat → Memory P) (init : Bool)
    (D : Path 4 → Patch) (i oj nj : Nat) (e : Event 4) (st : State)
    (hold : ∀ n < e.old.length, st.old i (oj + n) = (e.old[n]?).map D)
    (hpos : ∀ n < e.new.length, pos i (nj + n) = (e.new[n]?).map quadAt)
    (hv : ∀ q ∈ e.old, Valid S i q (D q)) (hlo : ∀ q ∈ e.old, q.length ≤ S.maxlevel) (hl : ∀ q ∈ e.new, q.length ≤ S.maxlevel) :
    ∃ st', repopulate S pos mem init st ⟨e.relation, i, oj, nj⟩ = some st' ∧
      Did S init i e (fun n => st.old i (oj + n)) (fun n => st'.new i (nj + n)) ∧
      Changed i oj e.old.length st.old st'.old ∧ Changed i nj e.new.length st.new st'.new ∧ Cleared i oj e.old.length st'.old := by
  cases e with
  | keep q =>
    refine ⟨_, rfl, ?_, changed_one i oj st.old _, changed_one i nj st.new _, ?_⟩
    · simp [Did, set2]
    · intro k hk
      simp only [Event.old, List.length_singleton] at hk
      have : k = 0 := by omega
      subst this
      simp [set2]
  | refine q =>
    have h0 : st.old i oj = some (D q) := by simpa [Event.old] using hold 0 (by simp [Event.old])
    have hq : Valid S i q (D q) := hv q (by simp [Event.old])
    have len : (Event.refine q).new.length = 4 := by simp [Event.new, children_length]
    have P : ∀ n < 4, pos i (nj + n) = some (quadAt (childPath q n)) := by
      intro n hn
      rw [hpos n (by rw [len]; exact hn)]
      simp only [Event.new, children_eq]
      interval_cases n <;> rfl
    have L : ∀ g : ℤ, 0 ≤ g → g ≤ 3 → (childPath q g).length ≤ S.maxlevel := by
      intro g a b
      refine hl _ ?_
      simp only [Event.new, children_eq]
      interval_cases g <;> simp
    have N := fun n hn => buildNew_spec S hS pos mem init i (nj + n) (childPath q n) (P n hn) (L n (by omega) (by omega))
    obtain ⟨f0, e0, v0, r0, n0⟩ := N 0 (by omega)
    obtain ⟨f1, e1, v1, r1, n1⟩ := N 1 (by omega)
    obtain ⟨f2, e2, v2, r2, n2⟩ := N 2 (by omega)
    obtain ⟨f3, e3, v3, r3, n3⟩ := N 3 (by omega)
    rw [Nat.add_zero] at e0
    have V : ∀ g, 0 ≤ g → g ≤ 3 → Valid S i (childPath q g) (family f0 f1 f2 f3 g) :=
      family_cases f0 f1 f2 f3 (fun g p => Valid S i (childPath q g) p) v0 v1 v2 v3
    have R : ∀ g, 0 ≤ g → g ≤ 3 → FreshReg S i (childPath q g) (family f0 f1 f2 f3 g) :=
      family_cases f0 f1 f2 f3 (fun g p => FreshReg S i (childPath q g) p) r0 r1 r2 r3
    have I : init = true → ∀ g, 0 ≤ g → g ≤ 3 → ∀ x, inFine S.d x → (family f0 f1 f2 f3 g).q x = S.init i (quadAt (childPath q g)) x := by
      intro hi
      exact family_cases f0 f1 f2 f3 (fun g p => ∀ x, inFine S.d x → p.q x = S.init i (quadAt (childPath q g)) x)
        (n0 hi) (n1 hi) (n2 hi) (n3 hi)
    obtain ⟨qs, eq, hqs⟩ := refine_spec S hS i q (D q) (family f0 f1 f2 f3) hq V
    -- the solutions of the children
    have : ∃ qs', (if init then some (fun g => (family f0 f1 f2 f3 g).q)
        else (st.old i oj).bind fun coarse =>
          refine S.d coarse.area (fun g => (family f0 f1 f2 f3 g).area) S.man coarse.q (fun g => (family f0 f1 f2 f3 g).q)) = some qs' ∧
        (init = false → ∀ g, 0 ≤ g ∧ g ≤ 3 → ∀ x, inFine S.d x → qs' g x =
          refined S.d (areaOf S q (D q)) (fun g => areaOf S (childPath q g) (family f0 f1 f2 f3 g)) S.man (D q).q g x) ∧
        (init = true → ∀ g, 0 ≤ g → g ≤ 3 → ∀ x, inFine S.d x → qs' g x = S.init i (quadAt (childPath q g)) x) := by
      rcases Bool.eq_false_or_eq_true init with hi | hi
      · exact ⟨_, by rw [if_pos hi], fun h => by simp [hi] at h, I⟩
      · refine ⟨qs, by rw [if_neg (by simp [hi]), h0]; exact eq, fun _ => hqs, fun h => by simp [hi] at h⟩
    obtain ⟨qs', eq', w1, w2⟩ := this
    refine ⟨⟨set2 st.old i oj none,
      set2 (set2 (set2 (set2 st.new i nj (some { f0 with q := qs' 0 })) i (nj + 1) (some { f1 with q := qs' 1 }))
        i (nj + 2) (some { f2 with q := qs' 2 })) i (nj + 3) (some { f3 with q := qs' 3 })⟩, ?_, ?_, ?_, ?_, ?_⟩
    · unfold repopulate
      simp only [Event.relation, e0, e1, e2, e3, Option.bind_some, eq']
    · intro c hc
      beta_reduce at hc
      rw [Nat.add_zero, h0] at hc
      cases hc
      refine ⟨fun g => { family f0 f1 f2 f3 g with q := qs' g }, ?_, ⟨?_, ?_, ?_⟩⟩
      · simp [set2, family]
      · intro g a b
        exact ⟨V g a b, R g a b⟩
      · intro hi g hg x hx
        exact w1 hi g hg x hx
      · intro hi g a b x hx
        exact w2 hi g a b x hx
    · exact changed_one i oj st.old _
    · rw [len]; exact changed_four i nj st.new _ _ _ _
    · intro k hk
      simp only [Event.old, List.length_singleton] at hk
      have : k = 0 := by omega
      subst this
      simp [set2]
  | coarsen q =>
    have len : (Event.coarsen q).old.length = 4 := by simp [Event.old, children_length]
    have O : ∀ n < 4, st.old i (oj + n) = some (D (childPath q n)) := by
      intro n hn
      rw [hold n (by rw [len]; exact hn)]
      simp only [Event.old, children_eq]
      interval_cases n <;> rfl
    have hmem : ∀ g : ℤ, 0 ≤ g → g ≤ 3 → childPath q g ∈ (Event.coarsen q).old := by
      intro g a b
      simp only [Event.old, children_eq]
      interval_cases g <;> simp
    have V : ∀ g, 0 ≤ g → g ≤ 3 → Valid S i (childPath q g) (D (childPath q g)) := fun g a b => hv _ (hmem g a b)
    have hp : pos i nj = some (quadAt q) := by simpa [Event.new] using hpos 0 (by simp [Event.new])
    have hlt : q.length < S.maxlevel := by
      have := hlo _ (hmem 0 (by omega) (by omega))
      simp [childPath] at this
      omega
    have fam : ∀ g, 0 ≤ g → g ≤ 3 → family (D (childPath q 0)) (D (childPath q 1)) (D (childPath q 2)) (D (childPath q 3)) g = D (childPath q g) :=
      family_cases _ _ _ _ (fun g p => p = D (childPath q g)) rfl rfl rfl rfl
    generalize hF : family (D (childPath q 0)) (D (childPath q 1)) (D (childPath q 2)) (D (childPath q 3)) = F at fam
    have VF : ∀ g, 0 ≤ g → g ≤ 3 → Valid S i (childPath q g) (F g) := fun g a b => by rw [fam g a b]; exact V g a b
    have : ∃ c, (if init then buildNew S pos mem init i nj
       else
        (st.old i oj).bind fun f0 =>
        (st.old i (oj + 1)).bind fun f1 =>
        (st.old i (oj + 2)).bind fun f2 =>
        (st.old i (oj + 3)).bind fun f3 =>
        (pos i nj).bind fun Q =>
        (buildPatchFromFine S i Q (family f0 f1 f2 f3) (mem i nj)).bind fun coarse =>
        (coarsen S.d coarse.area (fun g => (family f0 f1 f2 f3 g).area) S.man (fun g => (family f0 f1 f2 f3 g).q) coarse.q).map
          fun q => { coarse with q := q }) = some c ∧ Coarse S init i q F c := by
      rcases Bool.eq_false_or_eq_true init with hi | hi
      · obtain ⟨c, ec, v, r, n⟩ := buildNew_spec S hS pos mem init i nj q hp (by omega)
        exact ⟨c, by rw [if_pos hi, ec], ⟨v, r⟩, fun h => by simp [hi] at h, fun h => n h⟩
      · obtain ⟨c, ec, v, r⟩ := buildPatchFromFine_spec S hS i q hlt F VF (mem i nj)
        obtain ⟨q', eq, h⟩ := coarsen_spec S hS i q c F v VF
        refine ⟨{ c with q := q' }, ?_, ⟨v, r⟩, fun _ => h, fun h => by simp [hi] at h⟩
        rw [if_neg (by simp [hi])]
        have O0 := O 0 (by omega)
        rw [Nat.add_zero] at O0
        have O1 := O 1 (by omega)
        have O2 := O 2 (by omega)
        have O3 := O 3 (by omega)
        simp only [Nat.cast_zero, Nat.cast_one, Nat.cast_ofNat] at O0 O1 O2 O3
        rw [O0, O1, O2, O3, hp]
        simp only [Option.bind_some]
        rw [hF, ec]
        simp only [Option.bind_some]
        rw [eq]
        rfl
    obtain ⟨c, ec, hc⟩ := this
    refine ⟨⟨set2 (set2 (set2 (set2 st.old i oj none) i (oj + 1) none) i (oj + 2) none) i (oj + 3) none,
      set2 st.new i nj (some c)⟩, ?_, ?_, ?_, ?_, ?_⟩
    · unfold repopulate
      simp only [Event.relation]
      rw [ec]
      rfl
    · intro f hf
      refine ⟨c, by simp [set2], ?_⟩
      have ff : ∀ g, 0 ≤ g → g ≤ 3 → f g = F g := by
        intro g a b
        have O0 := O 0 (by omega)
        have O1 := O 1 (by omega)
        have O2 := O 2 (by omega)
        have O3 := O 3 (by omega)
        simp only [Nat.cast_zero, Nat.cast_one, Nat.cast_ofNat] at O0 O1 O2 O3
        beta_reduce at hf
        rw [O0, O1, O2, O3] at hf
        simp only [Option.some.injEq] at hf
        rw [fam g a b]
        interval_cases g
        · exact hf.1.symm
        · exact hf.2.1.symm
        · exact hf.2.2.1.symm
        · exact hf.2.2.2.symm
      refine ⟨hc.fresh, fun hi m hm C hC => ?_, hc.init⟩
      rw [hc.values hi m hm C hC]
      congr 1
      unfold massIn fineMass
      refine Finset.sum_congr rfl ?_
      rintro ⟨g, a, b⟩ hx
      rw [Finset.mem_filter, mem_fineCells] at hx
      dsimp only
      rw [ff g hx.1.1.1 hx.1.1.2]
    · rw [len]; exact changed_four i oj st.old _ _ _ _
    · exact changed_one i nj st.new _
    · intro k hk
      rw [len] at hk
      unfold set2
      interval_cases k <;> simp

end Fclaw.Repopulate
