/-
A test for being a proper mesh, and example meshes for C32, C33 and C62.
-/
import Verif.GhostFill.Spec

set_option autoImplicit false
set_option linter.unusedSimpArgs false
namespace Fclaw.GhostFill

/-- All conditions of `Mesh.Ok` at one face. -/
def faceOk (M : Mesh) (x f : Nat) : Bool :=
  match M.face x f with
  | .boundary => true
  | .same y rf => decide (rf < 4) && decide (M.face y rf = .same x f) && decide (M.level y = M.level x)
  | .half y0 y1 rf =>
    decide (rf < 4) &&
    (match M.face y0 rf with | .double x' f' g hk => decide (x' = x ∧ f' = f ∧ g = 0 ∧ hk < 4) | _ => false) &&
    (match M.face y1 rf with | .double x' f' g hk => decide (x' = x ∧ f' = f ∧ g = 1 ∧ hk < 4) | _ => false) &&
    decide (M.level y0 = M.level x + 1) && decide (M.level y1 = M.level x + 1) &&
    decide (y0 ∈ nbrs M y1) && decide (y1 ∈ nbrs M y0) &&
    [0, 1].all fun g =>
      !isDouble (M.face x (side f g)) &&
      match across M x (side f g) (f % 2) with
      | some n => decide (n ∈ nbrs M (pick y0 y1 g))
      | none => true
  | .double y rf g hk =>
    decide (rf < 4) && decide (g < 2) &&
    (match M.face y rf with | .half y0 y1 f' => decide (f' = f) && decide (pick y0 y1 g = x) | _ => false) &&
    (decide (¬ hk < 4) || (decide (M.corner x hk = .none) &&
      !isBoundary (M.face x (faceX hk)) && !isBoundary (M.face x (faceY hk))))

/-- … and at one corner. -/
def cornerOk (M : Mesh) (x k : Nat) : Bool :=
  match cornerNbr M x k with
  | .none => true
  | .same y rk => decide (rk < 4) && decide (cornerNbr M y rk = .same x k) && decide (M.level y = M.level x)
  | .half y rk =>
    decide (rk < 4) && decide (cornerNbr M y rk = .double x k) && decide (M.level y = M.level x + 1) &&
    !isDouble (M.face x (faceX k)) && !isDouble (M.face x (faceY k)) &&
    (match across M x (faceX k) (k / 2) with | some n => decide (n ∈ nbrs M y) | none => true) &&
    (match across M x (faceY k) (k % 2) with | some n => decide (n ∈ nbrs M y) | none => true)
  | .double y rk => decide (rk < 4) && decide (cornerNbr M y rk = .half x k)

theorem ok_of_check (M : Mesh) (hf : ∀ x f, f < 4 → faceOk M x f = true) (hc : ∀ x k, k < 4 → cornerOk M x k = true)
    (hcl : ∀ x ∈ M.patches, ∀ y ∈ nbrs M x, y ∈ M.patches) : M.Ok := by
  refine ⟨?_, ?_, ?_, ?_, ?_, ?_, ?_, ?_, ?_, ?_, hcl, ?_, ?_, ?_, ?_, ?_, ?_, ?_⟩
  · intro x f y rf h hx
    have := hf x f h
    simp only [faceOk, hx, Bool.and_eq_true, decide_eq_true_eq] at this
    exact this.1
  · intro x f y0 y1 rf h hx
    have H := hf x f h
    simp only [faceOk, hx, Bool.and_eq_true, decide_eq_true_eq, List.all_cons, List.all_nil, Bool.and_true, Bool.or_eq_true, Bool.not_eq_true'] at H
    obtain ⟨⟨⟨⟨⟨⟨⟨h1, h2⟩, h3⟩, _⟩, _⟩, _⟩, _⟩, _⟩ := H
    refine ⟨h1, ?_, ?_⟩
    · cases e : M.face y0 rf with
      | double x' f' g hk =>
        rw [e] at h2; simp at h2
        obtain ⟨rfl, rfl, rfl, h6⟩ := h2
        exact ⟨hk, h6, rfl⟩
      | _ => rw [e] at h2; simp at h2
    · cases e : M.face y1 rf with
      | double x' f' g hk =>
        rw [e] at h3; simp at h3
        obtain ⟨rfl, rfl, rfl, h6⟩ := h3
        exact ⟨hk, h6, rfl⟩
      | _ => rw [e] at h3; simp at h3
  · intro y rf x f g hk h hy
    have H := hf y rf h
    simp only [faceOk, hy, Bool.and_eq_true, decide_eq_true_eq, List.all_cons, List.all_nil, Bool.and_true, Bool.or_eq_true, Bool.not_eq_true'] at H
    obtain ⟨⟨⟨h1, h2⟩, h3⟩, _⟩ := H
    refine ⟨h1, h2, ?_⟩
    cases e : M.face x f with
    | half y0 y1 f' =>
      rw [e] at h3; simp at h3
      obtain ⟨rfl, h6⟩ := h3
      exact ⟨y0, y1, rfl, h6⟩
    | _ => rw [e] at h3; simp at h3
  · intro x k y rk h hx
    have := hc x k h
    simp only [cornerOk, hx, Bool.and_eq_true, decide_eq_true_eq] at this
    exact this.1
  · intro x k y rk h hx
    have H := hc x k h
    simp only [cornerOk, hx, Bool.and_eq_true, decide_eq_true_eq, Bool.not_eq_true'] at H
    obtain ⟨⟨⟨⟨⟨⟨h1, h2⟩, _⟩, _⟩, _⟩, _⟩, _⟩ := H
    exact ⟨h1, h2⟩
  · intro y rk x k h hx
    have := hc y rk h
    simp only [cornerOk, hx, Bool.and_eq_true, decide_eq_true_eq] at this
    exact this
  · intro x f y rf h hx
    have := hf x f h
    simp only [faceOk, hx, Bool.and_eq_true, decide_eq_true_eq] at this
    exact this.2
  · intro x f y0 y1 rf h hx
    have H := hf x f h
    simp only [faceOk, hx, Bool.and_eq_true, decide_eq_true_eq, List.all_cons, List.all_nil, Bool.and_true, Bool.or_eq_true, Bool.not_eq_true'] at H
    obtain ⟨⟨⟨⟨⟨⟨⟨_, _⟩, _⟩, h4⟩, h5⟩, _⟩, _⟩, _⟩ := H
    exact ⟨h4, h5⟩
  · intro x k y rk h hx
    have := hc x k h
    simp only [cornerOk, hx, Bool.and_eq_true, decide_eq_true_eq] at this
    exact this.2
  · intro x k y rk h hx
    have H := hc x k h
    simp only [cornerOk, hx, Bool.and_eq_true, decide_eq_true_eq, Bool.not_eq_true'] at H
    obtain ⟨⟨⟨⟨⟨⟨_, _⟩, h3⟩, _⟩, _⟩, _⟩, _⟩ := H
    exact h3
  · intro c f y0 y1 rf g h hg hx
    have H := hf c f h
    simp only [faceOk, hx, Bool.and_eq_true, decide_eq_true_eq, List.all_cons, List.all_nil, Bool.and_true, Bool.or_eq_true, Bool.not_eq_true'] at H
    obtain ⟨_, ⟨h0, _⟩, ⟨h1, _⟩⟩ := H
    have : g = 0 ∨ g = 1 := by omega
    rcases this with rfl | rfl
    · exact h0
    · exact h1
  · intro c k y rk h hx
    have H := hc c k h
    simp only [cornerOk, hx, Bool.and_eq_true, decide_eq_true_eq, Bool.not_eq_true'] at H
    obtain ⟨⟨⟨⟨⟨⟨_, _⟩, _⟩, h4⟩, h5⟩, _⟩, _⟩ := H
    exact ⟨h4, h5⟩
  · intro c f y0 y1 rf h hx
    have H := hf c f h
    simp only [faceOk, hx, Bool.and_eq_true, decide_eq_true_eq, List.all_cons, List.all_nil, Bool.and_true, Bool.or_eq_true, Bool.not_eq_true'] at H
    obtain ⟨⟨⟨_, h6⟩, h7⟩, _⟩ := H
    exact ⟨h6, h7⟩
  · intro c f y0 y1 rf g n h hg hx ha
    have H := hf c f h
    simp only [faceOk, hx, Bool.and_eq_true, decide_eq_true_eq, List.all_cons, List.all_nil, Bool.and_true, Bool.or_eq_true, Bool.not_eq_true'] at H
    obtain ⟨_, ⟨_, h0⟩, ⟨_, h1⟩⟩ := H
    have : g = 0 ∨ g = 1 := by omega
    rcases this with rfl | rfl
    · rw [ha] at h0; simpa using h0
    · rw [ha] at h1; simpa using h1
  · intro c k y rk n h hx ha
    have H := hc c k h
    simp only [cornerOk, hx, Bool.and_eq_true, decide_eq_true_eq, Bool.not_eq_true'] at H
    obtain ⟨⟨_, h6⟩, _⟩ := H
    rw [ha] at h6; simpa using h6
  · intro c k y rk n h hx ha
    have H := hc c k h
    simp only [cornerOk, hx, Bool.and_eq_true, decide_eq_true_eq, Bool.not_eq_true'] at H
    obtain ⟨_, h7⟩ := H
    rw [ha] at h7; simpa using h7
  · intro x f y rf g hk h hx hk4
    have H := hf x f h
    simp only [faceOk, hx, Bool.and_eq_true, decide_eq_true_eq, List.all_cons, List.all_nil, Bool.and_true, Bool.or_eq_true, Bool.not_eq_true'] at H
    obtain ⟨_, h4⟩ := H
    rcases h4 with h4 | ⟨⟨h1, h2⟩, h3⟩
    · exact absurd hk4 h4
    · exact ⟨h1, h2, h3⟩

/-- Three coarse patches (0 lower left, 1 lower right, 2 upper left) and four fine ones (3 to 6) in the
upper right quarter, on three processes. -/
def lMesh : Mesh where
  patches := [0, 1, 2, 3, 4, 5, 6]
  owner x := if x ≤ 1 then 0 else if x ≤ 3 then 1 else 2
  level x := if x ≤ 2 then 1 else 2
  face x f := match x, f with
    | 0, 1 => .same 1 0
    | 0, 3 => .same 2 2
    | 1, 0 => .same 0 1
    | 1, 3 => .half 3 4 2
    | 2, 1 => .half 3 5 0
    | 2, 2 => .same 0 3
    | 3, 0 => .double 2 1 0 2
    | 3, 1 => .same 4 0
    | 3, 2 => .double 1 3 0 1
    | 3, 3 => .same 5 2
    | 4, 0 => .same 3 1
    | 4, 2 => .double 1 3 1 0
    | 4, 3 => .same 6 2
    | 5, 0 => .double 2 1 1 0
    | 5, 1 => .same 6 0
    | 5, 2 => .same 3 3
    | 6, 0 => .same 5 1
    | 6, 2 => .same 4 3
    | _, _ => .boundary
  corner x k := match x, k with
    | 0, 3 => .half 3 0
    | 1, 2 => .same 2 1
    | 2, 1 => .same 1 2
    | 3, 0 => .double 0 3
    | 3, 3 => .same 6 0
    | 4, 2 => .same 5 1
    | 5, 1 => .same 4 2
    | 6, 0 => .same 3 3
    | _, _ => .none

theorem lMesh_ok : lMesh.Ok := by
  have hfs : ∀ x < 7, ∀ f < 4, faceOk lMesh x f = true := by decide
  have hcs : ∀ x < 7, ∀ k < 4, cornerOk lMesh x k = true := by decide
  have far : ∀ x f, 7 ≤ x → lMesh.face x f = .boundary := by
    intro x f h
    have h0 : x ≠ 0 := by omega
    have h1 : x ≠ 1 := by omega
    have h2 : x ≠ 2 := by omega
    have h3 : x ≠ 3 := by omega
    have h4 : x ≠ 4 := by omega
    have h5 : x ≠ 5 := by omega
    have h6 : x ≠ 6 := by omega
    unfold lMesh
    dsimp only
    split <;> first | rfl | (exfalso; simp_all)
  apply ok_of_check
  · intro x f hf
    by_cases h : x < 7
    · exact hfs x h f hf
    · simp [faceOk, far x f (by omega)]
  · intro x k hk
    by_cases h : x < 7
    · exact hcs x h k hk
    · simp [cornerOk, cornerNbr, far x _ (by omega), isBoundary]
  · decide

/-- Two patches side by side, on two processes. -/
def twoMesh : Mesh where
  patches := [0, 1]
  owner x := x
  level _ := 0
  face x f := match x, f with
    | 0, 1 => .same 1 0
    | 1, 0 => .same 0 1
    | _, _ => .boundary
  corner _ _ := .none

theorem twoMesh_ok : twoMesh.Ok := by
  have hfs : ∀ x < 2, ∀ f < 4, faceOk twoMesh x f = true := by decide
  have hcs : ∀ x < 2, ∀ k < 4, cornerOk twoMesh x k = true := by decide
  have far : ∀ x f, 2 ≤ x → twoMesh.face x f = .boundary := by
    intro x f h
    have h0 : x ≠ 0 := by omega
    have h1 : x ≠ 1 := by omega
    unfold twoMesh
    dsimp only
    split <;> first | rfl | (exfalso; simp_all)
  apply ok_of_check
  · intro x f hf
    by_cases h : x < 2
    · exact hfs x h f hf
    · simp [faceOk, far x f (by omega)]
  · intro x k hk
    by_cases h : x < 2
    · exact hcs x h k hk
    · simp [cornerOk, cornerNbr, far x _ (by omega), isBoundary]
  · decide

end Fclaw.GhostFill
