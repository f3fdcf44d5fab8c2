/-
Helpers for C32.
-/
import Verif.GhostFill.Spec
import Mathlib.Tactic.Set

set_option autoImplicit false
set_option linter.unusedSimpArgs false
set_option linter.unusedVariables false
namespace Fclaw.GhostFill

/-! ### Runs -/

def Closed (M : Mesh) (P : Key → Prop) (os : List Op) : Prop :=
  ∀ o ∈ os, ∀ e ∈ effects M o, P e.1 → ∀ r ∈ e.2, P r

theorem apply_of (M : Mesh) (V : Valid) (o : Op) (k : Key)
    (h : ∀ e ∈ effects M o, e.1 = k → e.2.all V = true)
    (h2 : V k = true ∨ ∃ e ∈ effects M o, e.1 = k) : apply M V o k = true := by
  unfold apply
  cases hf : (effects M o).find? (fun e => decide (e.1 = k)) with
  | some e =>
    have h3 := List.mem_of_find?_eq_some hf
    have h4 := List.find?_some hf
    exact h e h3 (by simpa using h4)
  | none =>
    rcases h2 with h2 | ⟨e, he, hk⟩
    · exact h2
    · rw [List.find?_eq_none] at hf
      have := hf e he
      simp [hk] at this

theorem apply_inv (M : Mesh) (P : Key → Prop) (V : Valid) (o : Op)
    (hc : ∀ e ∈ effects M o, P e.1 → ∀ r ∈ e.2, P r) (hv : ∀ k, P k → V k = true) :
    ∀ k, P k → apply M V o k = true := by
  intro k hk
  refine apply_of M V o k ?_ (Or.inl (hv k hk))
  intro e he hek
  rw [List.all_eq_true]
  intro r hr
  exact hv r (hc e he (by rw [hek]; exact hk) r hr)

theorem run_inv (M : Mesh) (P : Key → Prop) (os : List Op) :
    ∀ V : Valid, Closed M P os → (∀ k, P k → V k = true) → ∀ k, P k → run M V os k = true := by
  induction os with
  | nil => intro V _ h; exact h
  | cons o os ih =>
    intro V hc hv
    exact ih (apply M V o) (fun o' ho' => hc o' (List.mem_cons_of_mem _ ho'))
      (apply_inv M P V o (hc o (List.mem_cons_self ..)) hv)

/-- A region whose every writer reads valid regions only is valid if it was before or is written. -/
theorem run_add (M : Mesh) (P : Key → Prop) (k : Key) (os : List Op) :
    ∀ V : Valid, Closed M P os → (∀ k, P k → V k = true) →
      (∀ o ∈ os, ∀ e ∈ effects M o, e.1 = k → ∀ r ∈ e.2, P r) →
      (V k = true ∨ ∃ o ∈ os, ∃ e ∈ effects M o, e.1 = k) → run M V os k = true := by
  induction os with
  | nil =>
    intro V _ _ _ h
    rcases h with h | ⟨o, ho, _⟩
    · exact h
    · simp at ho
  | cons o os ih =>
    intro V hc hv hw he
    have hgood : ∀ e ∈ effects M o, e.1 = k → e.2.all V = true := by
      intro e h1 h2
      rw [List.all_eq_true]
      exact fun r hr => hv r (hw o (List.mem_cons_self ..) e h1 h2 r hr)
    refine ih (apply M V o) (fun o' ho' => hc o' (List.mem_cons_of_mem _ ho'))
      (apply_inv M P V o (hc o (List.mem_cons_self ..)) hv)
      (fun o' ho' => hw o' (List.mem_cons_of_mem _ ho')) ?_
    rcases he with he | ⟨o', ho', e, h1, h2⟩
    · exact Or.inl (apply_of M V o k hgood (Or.inl he))
    · rcases List.mem_cons.1 ho' with rfl | ho'
      · exact Or.inl (apply_of M V o' k hgood (Or.inr ⟨e, h1, h2⟩))
      · exact Or.inr ⟨o', ho', e, h1, h2⟩

theorem run_append (M : Mesh) (V : Valid) (a b : List Op) : run M V (a ++ b) = run M (run M V a) b := by
  simp [run, List.foldl_append]

theorem trace_append (M : Mesh) (a : List Op) : ∀ (V : Valid) (b : List Op),
    trace M V (a ++ b) = trace M V a ++ trace M (run M V a) b := by
  induction a with
  | nil => intro V b; rfl
  | cons o os ih => intro V b; simp only [List.cons_append, trace, ih]; rfl

theorem trace_ok (M : Mesh) (P : Key → Prop) (os : List Op) :
    ∀ V : Valid, Closed M P os → (∀ k, P k → V k = true) →
      ∀ ob ∈ trace M V os, ob.1 ∈ os ∧ ((∀ e ∈ effects M ob.1, ∀ r ∈ e.2, P r) → ob.2 = true) := by
  induction os with
  | nil => intro V _ _ ob h; simp [trace] at h
  | cons o os ih =>
    intro V hc hv ob h
    simp only [trace, List.mem_cons] at h
    rcases h with rfl | h
    · refine ⟨List.mem_cons_self .., ?_⟩
      intro hr
      simp only [List.all_eq_true]
      exact fun e he r hr2 => hv r (hr e he r hr2)
    · obtain ⟨h1, h2⟩ := ih (apply M V o) (fun o' ho' => hc o' (List.mem_cons_of_mem _ ho'))
        (apply_inv M P V o (hc o (List.mem_cons_self ..)) hv) ob h
      exact ⟨List.mem_cons_of_mem _ h1, h2⟩

/-! ### Grids in use -/

def cur (M : Mesh) (minl : Int) (ti : Bool) (l : Int) : Prop := (if ti then minl - 1 else minl) ≤ l

def tl (minl : Int) (ti : Bool) (l : Int) : Bool := ti && decide (l = minl - 1)

theorem current_iff (M : Mesh) (minl : Int) (ti : Bool) (x : Nat) (t : Bool) :
    current M minl ti x t = true ↔ cur M minl ti (M.level x) ∧ t = tl minl ti (M.level x) := by
  simp [current, cur, tl]

theorem cur_succ (M : Mesh) (minl : Int) (ti : Bool) (l : Int) (h : cur M minl ti l) :
    cur M minl ti (l + 1) ∧ tl minl ti (l + 1) = false := by
  unfold cur tl at *
  cases ti <;> simp at * <;> omega

theorem mem_overLevels (f : Int → Bool → List Visit) (lo hi : Int) (ti : Bool) (v : Visit) :
    v ∈ overLevels f lo hi ti ↔ (∃ l, lo ≤ l ∧ l ≤ hi ∧ v ∈ f l false) ∨ (ti = true ∧ v ∈ f (lo - 1) true) := by
  unfold overLevels downTo
  rw [List.mem_append, List.mem_flatMap]
  constructor
  · rintro (⟨l, hl, hv⟩ | h)
    · rw [List.mem_map] at hl
      obtain ⟨i, hi', rfl⟩ := hl
      rw [List.mem_range] at hi'
      exact Or.inl ⟨_, by omega, by omega, hv⟩
    · right
      cases ti
      · simp at h
      · exact ⟨rfl, by simpa using h⟩
  · rintro (⟨l, h1, h2, hv⟩ | ⟨h, hv⟩)
    · left
      refine ⟨l, ?_, hv⟩
      rw [List.mem_map]
      exact ⟨(hi - l).toNat, by rw [List.mem_range]; omega, by omega⟩
    · right; rw [h]; simpa using hv

/-- All levels that take part, each with the grid in use. -/
theorem mem_overLevels_min (M : Mesh) (f : Int → Bool → List Visit) (minl hi : Int) (ti : Bool) (v : Visit)
    (hh : minl - 1 ≤ hi) :
    v ∈ overLevels f minl hi ti ↔ ∃ l, cur M minl ti l ∧ l ≤ hi ∧ v ∈ f l (tl minl ti l) := by
  rw [mem_overLevels]
  unfold cur tl
  constructor
  · rintro (⟨l, h1, h2, hv⟩ | ⟨h, hv⟩)
    · refine ⟨l, by split <;> omega, h2, ?_⟩
      rw [show decide (l = minl - 1) = false by simp; omega, Bool.and_false]; exact hv
    · refine ⟨minl - 1, by rw [if_pos h]; omega, hh, ?_⟩
      simpa [h] using hv
  · rintro ⟨l, h1, h2, hv⟩
    by_cases e : l = minl - 1
    · subst e
      cases ti
      · simp at h1; omega
      · right; exact ⟨rfl, by simpa using hv⟩
    · left
      refine ⟨l, ?_, h2, ?_⟩
      · cases ti <;> simp at h1 <;> omega
      · simpa [e] using hv

theorem mem_iter (M : Mesh) (p : Nat) (l : Int) (m : Mode) (x : Nat) :
    x ∈ iter M p l m ↔ x ∈ M.patches ∧ M.owner x = p ∧ M.level x = l ∧ modeOk M p m x = true := by
  simp [iter, and_assoc]

theorem mem_iterInterface (M : Mesh) (p : Nat) (l : Int) (m : Mode) (x : Nat) :
    x ∈ iterInterface M p l m ↔ x ∈ M.patches ∧ M.owner x = p ∧ M.level x = l ∧
      modeOk M p m x = true ∧ onInterface M x = true := by
  simp [iterInterface, mem_iter, and_assoc]

/-- A patch that process `p` visits in a mode. -/
structure Vis (M : Mesh) (p : Nat) (m : Mode) (x : Nat) : Prop where
  mem : x ∈ M.patches
  own : M.owner x = p
  mode : modeOk M p m x = true

theorem mem_copyPhase (M : Mesh) (p : Nat) (rp : Bool) (m : Mode) (minl hi : Int) (ti : Bool) (v : Visit)
    (hh : minl - 1 ≤ hi) :
    v ∈ overLevels (copy2ghost M p rp m) minl hi ti ↔
      ∃ x, Vis M p m x ∧ cur M minl ti (M.level x) ∧ M.level x ≤ hi ∧
        (v = .face ⟨.copy, true, tl minl ti (M.level x), rp⟩ x ∨
         v = .corner ⟨.copy, true, tl minl ti (M.level x), rp⟩ x) := by
  rw [mem_overLevels_min M _ _ _ _ _ hh]
  simp only [copy2ghost, List.mem_append, List.mem_map, mem_iter]
  constructor
  · rintro ⟨l, h1, h2, ⟨x, ⟨h3, h4, rfl, h5⟩, rfl⟩ | ⟨x, ⟨h3, h4, rfl, h5⟩, rfl⟩⟩
    · exact ⟨x, ⟨h3, h4, h5⟩, h1, h2, Or.inl rfl⟩
    · exact ⟨x, ⟨h3, h4, h5⟩, h1, h2, Or.inr rfl⟩
  · rintro ⟨x, ⟨h3, h4, h5⟩, h1, h2, rfl | rfl⟩
    · exact ⟨_, h1, h2, Or.inl ⟨x, ⟨h3, h4, rfl, h5⟩, rfl⟩⟩
    · exact ⟨_, h1, h2, Or.inr ⟨x, ⟨h3, h4, rfl, h5⟩, rfl⟩⟩

theorem mem_averagePhase (M : Mesh) (p : Nat) (rp : Bool) (m : Mode) (minl hi : Int) (ti : Bool) (v : Visit)
    (hh : minl - 1 ≤ hi) :
    v ∈ overLevels (average2ghost M p rp m) minl hi ti ↔
      (∃ x, Vis M p m x ∧ onInterface M x = true ∧ cur M minl ti (M.level x) ∧ M.level x ≤ hi ∧
        (v = .face ⟨.average, true, tl minl ti (M.level x), rp⟩ x ∨
         v = .corner ⟨.average, true, tl minl ti (M.level x), rp⟩ x)) ∨
      (rp = true ∧ ∃ x, Vis M p m x ∧ onInterface M x = true ∧ cur M minl ti (M.level x - 1) ∧
        M.level x - 1 ≤ hi ∧ v = .face ⟨.average, false, tl minl ti (M.level x - 1), rp⟩ x) := by
  rw [mem_overLevels_min M _ _ _ _ _ hh]
  simp only [average2ghost, List.mem_append, List.mem_map, mem_iterInterface]
  constructor
  · rintro ⟨l, h1, h2, (⟨x, ⟨h3, h4, rfl, h5, h6⟩, rfl⟩ | ⟨x, ⟨h3, h4, rfl, h5, h6⟩, rfl⟩) | h⟩
    · exact Or.inl ⟨x, ⟨h3, h4, h5⟩, h6, h1, h2, Or.inl rfl⟩
    · exact Or.inl ⟨x, ⟨h3, h4, h5⟩, h6, h1, h2, Or.inr rfl⟩
    · cases rp
      · simp at h
      · simp only [if_true, List.mem_map, mem_iterInterface] at h
        obtain ⟨x, ⟨h3, h4, h7, h5, h6⟩, rfl⟩ := h
        have : l = M.level x - 1 := by omega
        subst this
        exact Or.inr ⟨rfl, x, ⟨h3, h4, h5⟩, h6, h1, h2, rfl⟩
  · rintro (⟨x, ⟨h3, h4, h5⟩, h6, h1, h2, rfl | rfl⟩ | ⟨rfl, x, ⟨h3, h4, h5⟩, h6, h1, h2, rfl⟩)
    · exact ⟨_, h1, h2, Or.inl (Or.inl ⟨x, ⟨h3, h4, rfl, h5, h6⟩, rfl⟩)⟩
    · exact ⟨_, h1, h2, Or.inl (Or.inr ⟨x, ⟨h3, h4, rfl, h5, h6⟩, rfl⟩)⟩
    · refine ⟨_, h1, h2, Or.inr ?_⟩
      simp only [if_true, List.mem_map, mem_iterInterface]
      exact ⟨x, ⟨h3, h4, by omega, h5, h6⟩, rfl⟩

theorem mem_interpPhase (M : Mesh) (p : Nat) (rp : Bool) (m : Mode) (minl hi : Int) (ti : Bool) (v : Visit)
    (hh : minl - 1 ≤ hi) :
    v ∈ overLevels (interpolate2ghost M p rp m) minl hi ti ↔
      (∃ x, Vis M p m x ∧ onInterface M x = true ∧ cur M minl ti (M.level x) ∧ M.level x ≤ hi ∧
        (v = .face ⟨.interp, true, tl minl ti (M.level x), rp⟩ x ∨
         v = .corner ⟨.interp, true, tl minl ti (M.level x), rp⟩ x)) ∨
      (∃ x, Vis M p m x ∧ onInterface M x = true ∧ cur M minl ti (M.level x - 1) ∧
        M.level x - 1 ≤ hi ∧ (v = .face ⟨.interp, false, tl minl ti (M.level x - 1), rp⟩ x ∨
          v = .corner ⟨.interp, false, tl minl ti (M.level x - 1), rp⟩ x)) := by
  rw [mem_overLevels_min M _ _ _ _ _ hh]
  simp only [interpolate2ghost, List.mem_append, List.mem_map, mem_iterInterface]
  constructor
  · rintro ⟨l, h1, h2, ((⟨x, ⟨h3, h4, rfl, h5, h6⟩, rfl⟩ | ⟨x, ⟨h3, h4, rfl, h5, h6⟩, rfl⟩) |
      ⟨x, ⟨h3, h4, h7, h5, h6⟩, rfl⟩) | ⟨x, ⟨h3, h4, h7, h5, h6⟩, rfl⟩⟩
    · exact Or.inl ⟨x, ⟨h3, h4, h5⟩, h6, h1, h2, Or.inl rfl⟩
    · exact Or.inl ⟨x, ⟨h3, h4, h5⟩, h6, h1, h2, Or.inr rfl⟩
    · have : l = M.level x - 1 := by omega
      subst this
      exact Or.inr ⟨x, ⟨h3, h4, h5⟩, h6, h1, h2, Or.inl rfl⟩
    · have : l = M.level x - 1 := by omega
      subst this
      exact Or.inr ⟨x, ⟨h3, h4, h5⟩, h6, h1, h2, Or.inr rfl⟩
  · rintro (⟨x, ⟨h3, h4, h5⟩, h6, h1, h2, rfl | rfl⟩ | ⟨x, ⟨h3, h4, h5⟩, h6, h1, h2, rfl | rfl⟩)
    · exact ⟨_, h1, h2, Or.inl (Or.inl (Or.inl ⟨x, ⟨h3, h4, rfl, h5, h6⟩, rfl⟩))⟩
    · exact ⟨_, h1, h2, Or.inl (Or.inl (Or.inr ⟨x, ⟨h3, h4, rfl, h5, h6⟩, rfl⟩))⟩
    · exact ⟨_, h1, h2, Or.inl (Or.inr ⟨x, ⟨h3, h4, by omega, h5, h6⟩, rfl⟩)⟩
    · exact ⟨_, h1, h2, Or.inr ⟨x, ⟨h3, h4, by omega, h5, h6⟩, rfl⟩⟩

theorem mem_physPhase (M : Mesh) (p : Nat) (m : Mode) (minl hi : Int) (ti : Bool) (v : Visit)
    (hh : minl - 1 ≤ hi) :
    v ∈ overLevels (setphysical M p m) minl hi ti ↔
      ∃ x, Vis M p m x ∧ cur M minl ti (M.level x) ∧ M.level x ≤ hi ∧
        v = .phys (tl minl ti (M.level x)) x := by
  rw [mem_overLevels_min M _ _ _ _ _ hh]
  simp only [setphysical, List.mem_map, mem_iter]
  constructor
  · rintro ⟨l, h1, h2, x, ⟨h3, h4, rfl, h5⟩, rfl⟩
    exact ⟨x, ⟨h3, h4, h5⟩, h1, h2, rfl⟩
  · rintro ⟨x, ⟨h3, h4, h5⟩, h1, h2, rfl⟩
    exact ⟨_, h1, h2, x, ⟨h3, h4, rfl, h5⟩, rfl⟩

theorem mem_numbers (f : Nat) : f ∈ numbers ↔ f < 4 := by
  simp [numbers]; omega

/-! ### What operations can occur -/

/-- Facts about the operations that follow from where they come from. -/
def Legit (M : Mesh) (minl : Int) (ti : Bool) (p : Nat) : Op → Prop
  | .copyFace t x f y => f < 4 ∧ (∃ rf, M.face x f = .same y rf) ∧ t = tl minl ti (M.level x)
  | .avgFace t x f g y => f < 4 ∧ g < 2 ∧ (∃ y0 y1 rf, M.face x f = .half y0 y1 rf ∧ pick y0 y1 g = y) ∧
      t = tl minl ti (M.level x)
  | .interpFace t c f g y fy => f < 4 ∧ g < 2 ∧ fy < 4 ∧
      (∃ y0 y1, M.face c f = .half y0 y1 fy ∧ pick y0 y1 g = y) ∧
      (∃ hk, M.face y fy = .double c f g hk) ∧
      t = tl minl ti (M.level c) ∧ cur M minl ti (M.level c) ∧ M.owner y = p
  | .copyCorner t x k y => k < 4 ∧ (∃ rk, cornerNbr M x k = .same y rk) ∧ t = tl minl ti (M.level x)
  | .avgCorner t x k y => k < 4 ∧ (∃ rk, cornerNbr M x k = .half y rk) ∧ t = tl minl ti (M.level x)
  | .interpCorner t c k y ky => k < 4 ∧ cornerNbr M c k = .half y ky ∧ cornerNbr M y ky = .double c k ∧
      t = tl minl ti (M.level c) ∧ cur M minl ti (M.level c) ∧ M.owner y = p
  | .phys _ _ => True

/-- Facts about the callbacks. -/
def LegitVisit (M : Mesh) (minl : Int) (ti : Bool) (p : Nat) : Visit → Prop
  | .face e x => M.owner x = p ∧ x ∈ M.patches ∧
      (if e.coarse then e.ti = tl minl ti (M.level x) ∧ cur M minl ti (M.level x)
       else e.ti = tl minl ti (M.level x - 1) ∧ cur M minl ti (M.level x - 1))
  | .corner e x => M.owner x = p ∧ x ∈ M.patches ∧
      (if e.coarse then e.ti = tl minl ti (M.level x) ∧ cur M minl ti (M.level x)
       else e.ti = tl minl ti (M.level x - 1) ∧ cur M minl ti (M.level x - 1))
  | .phys _ x => M.owner x = p ∧ x ∈ M.patches

theorem pick_cases (y0 y1 g : Nat) (h : g < 2) : (g = 0 ∧ pick y0 y1 g = y0) ∨ (g = 1 ∧ pick y0 y1 g = y1) := by
  have : g = 0 ∨ g = 1 := by omega
  rcases this with rfl | rfl
  · left; simp [pick]
  · right; simp [pick]

theorem half_double (M : Mesh) (hM : M.Ok) (x f y0 y1 rf g : Nat) (hf : f < 4) (hg : g < 2)
    (h : M.face x f = .half y0 y1 rf) : rf < 4 ∧ ∃ hk, M.face (pick y0 y1 g) rf = .double x f g hk := by
  obtain ⟨h1, ⟨k0, _, h2⟩, k1, _, h3⟩ := hM.halfSym x f y0 y1 rf hf h
  refine ⟨h1, ?_⟩
  rcases pick_cases y0 y1 g hg with ⟨rfl, e⟩ | ⟨rfl, e⟩
  · rw [e]; exact ⟨k0, h2⟩
  · rw [e]; exact ⟨k1, h3⟩

theorem half_level (M : Mesh) (hM : M.Ok) (x f y0 y1 rf g : Nat) (hf : f < 4)
    (h : M.face x f = .half y0 y1 rf) : M.level (pick y0 y1 g) = M.level x + 1 := by
  obtain ⟨h1, h2⟩ := hM.halfLevel x f y0 y1 rf hf h
  unfold pick; split <;> assumption

theorem double_level (M : Mesh) (hM : M.Ok) (y rf x f g hk : Nat) (hf : rf < 4)
    (h : M.face y rf = .double x f g hk) : M.level y = M.level x + 1 := by
  obtain ⟨h1, h2, y0, y1, h3, h4⟩ := hM.doubleSym y rf x f g hk hf h
  rw [← h4]; exact half_level M hM x f y0 y1 rf g h1 h3

theorem legit_face (M : Mesh) (hM : M.Ok) (minl : Int) (ti : Bool) (p : Nat) (e : Info) (x f : Nat)
    (hf : f < 4) (hv : LegitVisit M minl ti p (.face e x)) (o : Op) (ho : o ∈ faceOps M p e x f) :
    Legit M minl ti p o := by
  obtain ⟨kind, coarse, t, rp⟩ := e
  simp only [LegitVisit] at hv
  obtain ⟨hown, hmem, hv⟩ := hv
  unfold faceOps at ho
  cases hface : M.face x f with
  | boundary => rw [hface] at ho; simp at ho
  | same y rf =>
    rw [hface] at ho
    dsimp only at ho
    obtain ⟨hrf, hs⟩ := hM.sameSym x f y rf hf hface
    have hl := hM.sameLevel x f y rf hf hface
    cases coarse with
    | false => simp at ho
    | true =>
      simp only [if_true] at hv
      split at ho
      · rcases List.mem_cons.1 ho with rfl | ho
        · exact ⟨hf, ⟨rf, hface⟩, hv.1⟩
        · split at ho
          · simp only [List.mem_singleton] at ho; subst ho
            exact ⟨hrf, ⟨f, hs⟩, by rw [hl]; exact hv.1⟩
          · simp at ho
      · simp at ho
  | half y0 y1 rf =>
    rw [hface] at ho
    dsimp only at ho
    cases coarse with
    | false => simp at ho
    | true =>
      simp only [if_true] at hv
      rw [if_pos rfl, List.mem_flatMap] at ho
      obtain ⟨g, hg, ho⟩ := ho
      have hg2 : g < 2 := by simp at hg; omega
      obtain ⟨hrf, hd⟩ := half_double M hM x f y0 y1 rf g hf hg2 hface
      split at ho
      · simp at ho
      · split at ho
        · rename_i hc
          simp only [List.mem_singleton] at ho; subst ho
          simp at hc
          exact ⟨hf, hg2, hrf, ⟨y0, y1, hface, rfl⟩, hd, hv.1, hv.2, hc.2⟩
        · split at ho
          · simp only [List.mem_singleton] at ho; subst ho
            exact ⟨hf, hg2, ⟨y0, y1, rf, hface, rfl⟩, hv.1⟩
          · simp at ho
  | double y rf g hk =>
    rw [hface] at ho
    dsimp only at ho
    have hl := double_level M hM x f y rf g hk hf hface
    obtain ⟨h1, h2, y0, y1, h3, h4⟩ := hM.doubleSym x f y rf g hk hf hface
    cases coarse with
    | true => simp at ho
    | false =>
      simp only [Bool.false_eq_true, if_false] at hv
      rw [hl, show M.level y + 1 - 1 = M.level y by omega] at hv
      split at ho
      · split at ho
        · simp only [List.mem_singleton] at ho; subst ho
          exact ⟨h1, h2, ⟨y0, y1, f, h3, h4⟩, hv.1⟩
        · split at ho
          · simp only [List.mem_singleton] at ho; subst ho
            exact ⟨h1, h2, hf, ⟨y0, y1, h3, h4⟩, ⟨hk, hface⟩, hv.1, hv.2, hown⟩
          · simp at ho
      · simp at ho

theorem legit_corner (M : Mesh) (hM : M.Ok) (minl : Int) (ti : Bool) (p : Nat) (e : Info) (x k : Nat)
    (hk : k < 4) (hv : LegitVisit M minl ti p (.corner e x)) (o : Op) (ho : o ∈ cornerOps M p e x k) :
    Legit M minl ti p o := by
  obtain ⟨kind, coarse, t, rp⟩ := e
  simp only [LegitVisit] at hv
  obtain ⟨hown, hmem, hv⟩ := hv
  unfold cornerOps at ho
  cases hc : cornerNbr M x k with
  | none => rw [hc] at ho; simp at ho
  | same y rk =>
    rw [hc] at ho
    dsimp only at ho
    cases coarse with
    | false => simp at ho
    | true =>
      simp only [if_true] at hv
      split at ho
      · simp only [List.mem_singleton] at ho; subst ho
        exact ⟨hk, ⟨rk, hc⟩, hv.1⟩
      · simp at ho
  | half y rk =>
    rw [hc] at ho
    dsimp only at ho
    cases coarse with
    | false => simp at ho
    | true =>
      simp only [if_true] at hv
      split at ho
      · split at ho
        · rename_i h2
          simp only [List.mem_singleton] at ho; subst ho
          simp at h2
          exact ⟨hk, hc, (hM.halfCorner x k y rk hk hc).2, hv.1, hv.2, h2.2⟩
        · split at ho
          · simp only [List.mem_singleton] at ho; subst ho
            exact ⟨hk, ⟨rk, hc⟩, hv.1⟩
          · simp at ho
      · simp at ho
  | double y rk =>
    rw [hc] at ho
    dsimp only at ho
    obtain ⟨h1, h2⟩ := hM.doubleCorner x k y rk hk hc
    have hl := hM.halfCornerLevel y rk x k h1 h2
    cases coarse with
    | true => simp at ho
    | false =>
      simp only [Bool.false_eq_true, if_false] at hv
      rw [hl, show M.level y + 1 - 1 = M.level y by omega] at hv
      split at ho
      · simp only [List.mem_singleton] at ho; subst ho
        exact ⟨h1, h2, hc, hv.1, hv.2, hown⟩
      · simp at ho

theorem legit_ops (M : Mesh) (hM : M.Ok) (minl : Int) (ti : Bool) (p : Nat) (vs : List Visit)
    (hv : ∀ v ∈ vs, LegitVisit M minl ti p v) : ∀ o ∈ ops M p vs, Legit M minl ti p o := by
  intro o ho
  unfold ops at ho
  rw [List.mem_flatMap] at ho
  obtain ⟨v, h1, h2⟩ := ho
  cases v with
  | face e x =>
    simp only [opsOf, List.mem_flatMap, mem_numbers] at h2
    obtain ⟨f, hf, h2⟩ := h2
    exact legit_face M hM minl ti p e x f hf (hv _ h1) o h2
  | corner e x =>
    simp only [opsOf, List.mem_flatMap, mem_numbers] at h2
    obtain ⟨k, hk, h2⟩ := h2
    exact legit_corner M hM minl ti p e x k hk (hv _ h1) o h2
  | phys t x =>
    simp only [opsOf, List.mem_singleton] at h2
    subst h2; trivial

theorem legit_fillCoarse (M : Mesh) (p : Nat) (rp : Bool) (m : Mode) (minl maxl hi : Int) (ti : Bool)
    (h1 : minl ≤ maxl) (h2 : minl - 1 ≤ hi) :
    ∀ v ∈ fillCoarse M p rp m minl maxl hi ti, LegitVisit M minl ti p v := by
  intro v hv
  unfold fillCoarse at hv
  simp only [List.mem_append] at hv
  rcases hv with (hv | hv) | hv
  · rw [mem_averagePhase M p rp m minl (maxl - 1) ti v (by omega)] at hv
    rcases hv with ⟨x, h, _, hc, _, rfl | rfl⟩ | ⟨_, x, h, _, hc, _, rfl⟩
    · exact ⟨h.own, h.mem, by simp [hc]⟩
    · exact ⟨h.own, h.mem, by simp [hc]⟩
    · exact ⟨h.own, h.mem, by simp [hc]⟩
  · rw [mem_copyPhase M p rp m minl maxl ti v (by omega)] at hv
    obtain ⟨x, h, hc, _, rfl | rfl⟩ := hv
    · exact ⟨h.own, h.mem, by simp [hc]⟩
    · exact ⟨h.own, h.mem, by simp [hc]⟩
  · rw [mem_physPhase M p m minl hi ti v h2] at hv
    obtain ⟨x, h, hc, _, rfl⟩ := hv
    exact ⟨h.own, h.mem⟩

theorem legit_interp (M : Mesh) (p : Nat) (rp : Bool) (m : Mode) (minl hi : Int) (ti : Bool)
    (h2 : minl - 1 ≤ hi) :
    ∀ v ∈ overLevels (interpolate2ghost M p rp m) minl hi ti, LegitVisit M minl ti p v := by
  intro v hv
  rw [mem_interpPhase M p rp m minl hi ti v h2] at hv
  rcases hv with ⟨x, h, _, hc, _, rfl | rfl⟩ | ⟨x, h, _, hc, _, rfl | rfl⟩
  · exact ⟨h.own, h.mem, by simp [hc]⟩
  · exact ⟨h.own, h.mem, by simp [hc]⟩
  · exact ⟨h.own, h.mem, by simp [hc]⟩
  · exact ⟨h.own, h.mem, by simp [hc]⟩

theorem legit_phys (M : Mesh) (p : Nat) (m : Mode) (minl lo hi : Int) (ti : Bool) :
    ∀ v ∈ overLevels (setphysical M p m) lo hi ti, LegitVisit M minl ti p v := by
  intro v hv
  rw [mem_overLevels] at hv
  rcases hv with ⟨l, _, _, hv⟩ | ⟨_, hv⟩
  · simp only [setphysical, List.mem_map, mem_iter] at hv
    obtain ⟨x, ⟨h1, h2, _⟩, rfl⟩ := hv
    exact ⟨h2, h1⟩
  · simp only [setphysical, List.mem_map, mem_iter] at hv
    obtain ⟨x, ⟨h1, h2, _⟩, rfl⟩ := hv
    exact ⟨h2, h1⟩

theorem legit_indirect (M : Mesh) (hM : M.Ok) (p : Nat) (minl : Int) (ti : Bool) :
    ∀ o ∈ indirectOps M p minl ti, Legit M minl ti p o := by
  intro o ho
  unfold indirectOps at ho
  simp only [List.mem_flatMap, List.mem_filter, mem_numbers] at ho
  obtain ⟨c, _, f, hf, ho⟩ := ho
  unfold indirectFace at ho
  cases hface : M.face c f with
  | boundary => rw [hface] at ho; simp at ho
  | double y rf g hk => rw [hface] at ho; simp at ho
  | same y rf =>
    rw [hface] at ho
    dsimp only at ho
    split at ho
    · simp only [List.mem_singleton] at ho; subst ho
      exact ⟨hf, ⟨rf, hface⟩, rfl⟩
    · simp at ho
  | half y0 y1 rf =>
    rw [hface] at ho
    simp only [List.mem_flatMap] at ho
    obtain ⟨g, hg, ho⟩ := ho
    split at ho
    · simp only [List.mem_singleton] at ho; subst ho
      exact ⟨hf, by simp at hg; omega, ⟨y0, y1, rf, hface, rfl⟩, rfl⟩
    · simp at ho

/-! ### Good regions -/

/-- Interpolation at a face reads this. -/
def faceReads (c : Nat) (t : Bool) (f g : Nat) : List Key :=
  [⟨c, t, .interior⟩, ⟨c, t, .strip f 0⟩, ⟨c, t, .strip f 1⟩, ⟨c, t, .strip (side f g) (f % 2)⟩]

/-- … and this at a corner. -/
def cornerReads (c : Nat) (t : Bool) (k : Nat) : List Key :=
  [⟨c, t, .interior⟩, ⟨c, t, .strip (faceX k) (k / 2)⟩, ⟨c, t, .strip (faceY k) (k % 2)⟩]

/-- The key belongs to the grid in use. -/
def Cur (M : Mesh) (minl : Int) (ti : Bool) (k : Key) : Prop :=
  cur M minl ti (M.level k.x) ∧ k.ti = tl minl ti (M.level k.x)

/-- A strip not next to a larger patch, whose source has its interior. -/
def Src (M : Mesh) (A : Nat → Prop) (x f h : Nat) : Prop :=
  (isBoundary (M.face x f) = true ∧ A x) ∨ ∃ y, across M x f h = some y ∧ A y

/-- The regions interpolation may read: interiors of the patches in `A`, and certain strips `S`. -/
def PS (M : Mesh) (minl : Int) (ti : Bool) (A : Nat → Prop) (S : Nat → Nat → Nat → Prop) (k : Key) : Prop :=
  Cur M minl ti k ∧
  match k.reg with
  | .interior => A k.x
  | .strip f h => f < 4 ∧ h < 2 ∧ Src M A k.x f h ∧ S k.x f h
  | .corner _ => False

/-- Regions all of whose possible writers read such regions only. -/
def Base (M : Mesh) (minl : Int) (ti : Bool) (A : Nat → Prop) (S : Nat → Nat → Nat → Prop) (k : Key) : Prop :=
  Cur M minl ti k ∧
  match k.reg with
  | .interior => False
  | .strip f h => f < 4 ∧ h < 2 ∧ (Src M A k.x f h ∨
      ∃ c fc g hk, M.face k.x f = .double c fc g hk ∧
        ∀ r ∈ faceReads c (tl minl ti (M.level c)) fc g, PS M minl ti A S r)
  | .corner kk => kk < 4 ∧
      ((∃ y rk, (cornerNbr M k.x kk = .same y rk ∨ cornerNbr M k.x kk = .half y rk) ∧ A y) ∨
       (∃ c kc, cornerNbr M k.x kk = .double c kc ∧
          ∀ r ∈ cornerReads c (tl minl ti (M.level c)) kc, PS M minl ti A S r) ∨
       (∃ f c fc g, f < 4 ∧ M.face k.x f = .double c fc g kk ∧
          ∀ f' c' fc' g', f' < 4 → M.face k.x f' = .double c' fc' g' kk →
            ∀ r ∈ faceReads c' (tl minl ti (M.level c')) fc' g', PS M minl ti A S r))

theorem cornerNbr_ne (M : Mesh) (x k : Nat) (h : cornerNbr M x k ≠ .none) :
    isBoundary (M.face x (faceX k)) = false ∧ isBoundary (M.face x (faceY k)) = false ∧
      M.corner x k = cornerNbr M x k := by
  unfold cornerNbr at *
  split at h
  · exact absurd rfl h
  · rename_i h2
    simp at h2
    exact ⟨h2.1, h2.2, by rw [if_neg (by simp [h2.1, h2.2])]⟩

theorem physCorner_mem (M : Mesh) (x : Nat) (t : Bool) (k : Nat) (e : Key × List Key)
    (he : e ∈ physCorner M x t k) : e.1 = ⟨x, t, .corner k⟩ ∧
      ((isBoundary (M.face x (faceX k)) = true ∧ isBoundary (M.face x (faceY k)) = true ∧ e.2 = [⟨x, t, .interior⟩]) ∨
       (isBoundary (M.face x (faceX k)) = true ∧ isBoundary (M.face x (faceY k)) = false ∧
          e.2 = [⟨x, t, .strip (faceY k) (k % 2)⟩]) ∨
       (isBoundary (M.face x (faceX k)) = false ∧ isBoundary (M.face x (faceY k)) = true ∧
          e.2 = [⟨x, t, .strip (faceX k) (k / 2)⟩])) := by
  unfold physCorner at he
  cases hx : isBoundary (M.face x (faceX k)) <;> cases hy : isBoundary (M.face x (faceY k)) <;>
    rw [hx, hy] at he <;> simp at he <;> subst he <;> simp

/-- What an operation can write and read. -/
theorem good_writer (M : Mesh) (hM : M.Ok) (minl : Int) (ti : Bool) (p : Nat) (A : Nat → Prop)
    (S : Nat → Nat → Nat → Prop) (o : Op) (ho : Legit M minl ti p o) (e : Key × List Key)
    (he : e ∈ effects M o) (hb : Base M minl ti A S e.1) : ∀ r ∈ e.2, PS M minl ti A S r := by
  obtain ⟨⟨hcur, hti⟩, hb⟩ := hb
  cases o with
  | copyFace t x f y =>
    obtain ⟨hf, ⟨rf, hface⟩, ht⟩ := ho
    have hl := hM.sameLevel x f y rf hf hface
    have hac : ∀ h, across M x f h = some y := by intro h; simp [across, hface]
    have key : e.1.x = x → e.1.ti = t → (∃ h, e.1.reg = .strip f h) → e.2 = [⟨y, t, .interior⟩] →
        ∀ r ∈ e.2, PS M minl ti A S r := by
      intro ex et ⟨h, er⟩ e2 r hr
      rw [e2] at hr
      simp only [List.mem_singleton] at hr
      subst hr
      rw [er, ex] at hb
      rw [ex] at hcur
      refine ⟨⟨by dsimp only; rw [hl]; exact hcur, by dsimp only; rw [hl]; exact ht⟩, ?_⟩
      obtain ⟨_, _, hb⟩ := hb
      rcases hb with (⟨h1, _⟩ | ⟨y', h1, h2⟩) | ⟨c, fc, g, hk, h1, _⟩
      · rw [hface] at h1; simp [isBoundary] at h1
      · rw [hac] at h1; cases h1; exact h2
      · rw [hface] at h1; cases h1
    simp only [effects, List.mem_cons, List.not_mem_nil, or_false] at he
    rcases he with rfl | rfl
    · exact key rfl rfl ⟨0, rfl⟩ rfl
    · exact key rfl rfl ⟨1, rfl⟩ rfl
  | avgFace t x f g y =>
    obtain ⟨hf, hg, ⟨y0, y1, rf, hface, hp⟩, ht⟩ := ho
    have hl := half_level M hM x f y0 y1 rf g hf hface
    rw [hp] at hl
    simp only [effects, List.mem_singleton] at he
    subst he
    dsimp only at *
    intro r hr
    simp only [List.mem_singleton] at hr
    subst hr
    obtain ⟨h5, h6⟩ := cur_succ M minl ti _ hcur
    refine ⟨⟨by dsimp only; rw [hl]; exact h5, by dsimp only; rw [hl, h6]⟩, ?_⟩
    obtain ⟨_, _, hb⟩ := hb
    rcases hb with (⟨h1, _⟩ | ⟨y', h1, h2⟩) | ⟨c, fc, g', hk, h1, _⟩
    · rw [hface] at h1; simp [isBoundary] at h1
    · simp only [across, hface, hp, Option.some.injEq] at h1
      subst h1; exact h2
    · rw [hface] at h1; cases h1
  | interpFace t c f g y fy =>
    obtain ⟨hf, hg, hfy, ⟨y0, y1, hface, hp⟩, ⟨hk, hd⟩, ht, hcc, hown⟩ := ho
    subst ht
    simp only [effects, List.mem_cons, List.mem_map] at he
    have key : e.1.x = y → (∃ h, e.1.reg = .strip fy h) → e.2 = faceReads c (tl minl ti (M.level c)) f g →
        ∀ r ∈ e.2, PS M minl ti A S r := by
      intro ex ⟨h, er⟩ e2 r hr
      rw [e2] at hr
      rw [er, ex] at hb
      obtain ⟨_, _, hb⟩ := hb
      rcases hb with (⟨h1, _⟩ | ⟨y', h1, h2⟩) | ⟨c', fc, g', hk', h1, h2⟩
      · rw [hd] at h1; simp [isBoundary] at h1
      · simp [across, hd] at h1
      · rw [hd] at h1; cases h1; exact h2 r hr
    rcases he with rfl | rfl | ⟨hk', hh, rfl⟩
    · exact key rfl ⟨0, rfl⟩ rfl
    · exact key rfl ⟨1, rfl⟩ rfl
    · simp only [hanging, hd, List.mem_singleton] at hh
      subst hh
      dsimp only at *
      obtain ⟨hk4, hb⟩ := hb
      obtain ⟨hn1, hn2, hn3⟩ := hM.hangingNone y fy c f g hk' hfy hd hk4
      have hn : cornerNbr M y hk' = .none := by
        unfold cornerNbr; rw [hn2, hn3]; simpa using hn1
      rcases hb with ⟨y', rk, h1, _⟩ | ⟨c', kc, h1, _⟩ | ⟨f', c', fc', g', _, h1, h2⟩
      · rw [hn] at h1; simp at h1
      · rw [hn] at h1; simp at h1
      · exact h2 fy c f g hfy hd
  | copyCorner t x k y =>
    obtain ⟨hk, ⟨rk, hc⟩, ht⟩ := ho
    have hl := hM.sameCornerLevel x k y rk hk hc
    have hne := cornerNbr_ne M x k (by rw [hc]; simp)
    simp only [effects, List.mem_singleton] at he
    subst he
    dsimp only at *
    intro r hr
    simp only [List.mem_singleton] at hr
    subst hr
    refine ⟨⟨by dsimp only; rw [hl]; exact hcur, by dsimp only; rw [hl]; exact ht⟩, ?_⟩
    obtain ⟨_, hb⟩ := hb
    rcases hb with ⟨y', rk', h1 | h1, h2⟩ | ⟨c', kc, h1, _⟩ | ⟨f', c', fc', g', hf', h1, h2⟩
    · rw [hc] at h1; cases h1; exact h2
    · rw [hc] at h1; cases h1
    · rw [hc] at h1; cases h1
    · have := (hM.hangingNone x f' c' fc' g' k hf' h1 hk).1
      rw [hne.2.2, hc] at this; cases this
  | avgCorner t x k y =>
    obtain ⟨hk, ⟨rk, hc⟩, ht⟩ := ho
    have hl := hM.halfCornerLevel x k y rk hk hc
    have hne := cornerNbr_ne M x k (by rw [hc]; simp)
    simp only [effects, List.mem_singleton] at he
    subst he
    dsimp only at *
    intro r hr
    simp only [List.mem_singleton] at hr
    subst hr
    obtain ⟨h5, h6⟩ := cur_succ M minl ti _ hcur
    refine ⟨⟨by dsimp only; rw [hl]; exact h5, by dsimp only; rw [hl, h6]⟩, ?_⟩
    obtain ⟨_, hb⟩ := hb
    rcases hb with ⟨y', rk', h1 | h1, h2⟩ | ⟨c', kc, h1, _⟩ | ⟨f', c', fc', g', hf', h1, h2⟩
    · rw [hc] at h1; cases h1
    · rw [hc] at h1; cases h1; exact h2
    · rw [hc] at h1; cases h1
    · have := (hM.hangingNone x f' c' fc' g' k hf' h1 hk).1
      rw [hne.2.2, hc] at this; cases this
  | interpCorner t c k y ky =>
    obtain ⟨hk, hc, hd, ht, hcc, hown⟩ := ho
    subst ht
    have hne := cornerNbr_ne M y ky (by rw [hd]; simp)
    simp only [effects, List.mem_singleton] at he
    subst he
    dsimp only at *
    obtain ⟨hk4, hb⟩ := hb
    rcases hb with ⟨y', rk', h1 | h1, h2⟩ | ⟨c', kc, h1, h2⟩ | ⟨f', c', fc', g', hf', h1, h2⟩
    · rw [hd] at h1; cases h1
    · rw [hd] at h1; cases h1
    · rw [hd] at h1; cases h1; exact h2
    · have := (hM.hangingNone y f' c' fc' g' ky hf' h1 hk4).1
      rw [hne.2.2, hd] at this; cases this
  | phys t x =>
    simp only [effects, List.mem_append, List.mem_flatMap, mem_numbers] at he
    rcases he with ⟨f, hf, he⟩ | ⟨k, hk, he⟩
    · split at he
      · rename_i hbd
        have key : e.1.x = x → e.1.ti = t → (∃ h, e.1.reg = .strip f h) → e.2 = [⟨x, t, .interior⟩] →
            ∀ r ∈ e.2, PS M minl ti A S r := by
          intro ex et ⟨h, er⟩ e2 r hr
          rw [e2] at hr
          simp only [List.mem_singleton] at hr
          subst hr
          rw [er, ex] at hb
          rw [ex] at hcur
          rw [ex, et] at hti
          refine ⟨⟨hcur, hti⟩, ?_⟩
          obtain ⟨_, _, hb⟩ := hb
          have hf2 : M.face x f = .boundary := by
            cases h9 : M.face x f <;> rw [h9] at hbd <;> simp [isBoundary] at hbd
          rcases hb with (⟨h1, h2⟩ | ⟨y', h1, h2⟩) | ⟨c, fc, g, hk, h1, _⟩
          · exact h2
          · simp [across, hf2] at h1
          · rw [hf2] at h1; cases h1
        simp only [List.mem_cons, List.not_mem_nil, or_false] at he
        rcases he with rfl | rfl
        · exact key rfl rfl ⟨0, rfl⟩ rfl
        · exact key rfl rfl ⟨1, rfl⟩ rfl
      · simp at he
    · obtain ⟨e1, e2⟩ := physCorner_mem M x t k e he
      rw [e1] at hb
      dsimp only at hb
      obtain ⟨hk4, hb⟩ := hb
      exfalso
      have hnb : ¬ (isBoundary (M.face x (faceX k)) = false ∧ isBoundary (M.face x (faceY k)) = false) := by
        rintro ⟨a, b⟩
        rcases e2 with ⟨h, _⟩ | ⟨h, _⟩ | ⟨_, h, _⟩
        · rw [a] at h; cases h
        · rw [a] at h; cases h
        · rw [b] at h; cases h
      rcases hb with ⟨y', rk', h1, h2⟩ | ⟨c', kc, h1, h2⟩ | ⟨f', c', fc', g', hf', h1, h2⟩
      · have := cornerNbr_ne M x k (by rcases h1 with h1 | h1 <;> rw [h1] <;> simp)
        exact hnb ⟨this.1, this.2.1⟩
      · have := cornerNbr_ne M x k (by rw [h1]; simp)
        exact hnb ⟨this.1, this.2.1⟩
      · exact hnb (hM.hangingNone x f' c' fc' g' k hf' h1 hk4).2

theorem PS_base (M : Mesh) (minl : Int) (ti : Bool) (A : Nat → Prop) (S : Nat → Nat → Nat → Prop) (k : Key)
    (h : PS M minl ti A S k) (hr : k.reg ≠ .interior) : Base M minl ti A S k := by
  obtain ⟨h1, h2⟩ := h
  refine ⟨h1, ?_⟩
  cases hreg : k.reg with
  | interior => exact absurd hreg hr
  | strip f h =>
    rw [hreg] at h2
    exact ⟨h2.1, h2.2.1, Or.inl h2.2.2.1⟩
  | corner kk => rw [hreg] at h2; exact h2.elim

theorem effects_noninterior (M : Mesh) (o : Op) (e : Key × List Key) (he : e ∈ effects M o) :
    e.1.reg ≠ .interior := by
  cases o with
  | copyFace t x f y =>
    simp only [effects, List.mem_cons, List.not_mem_nil, or_false] at he
    rcases he with rfl | rfl <;> simp
  | avgFace t x f g y => simp only [effects, List.mem_singleton] at he; subst he; simp
  | interpFace t c f g y fy =>
    simp only [effects, List.mem_cons, List.mem_map] at he
    rcases he with rfl | rfl | ⟨_, _, rfl⟩ <;> simp
  | copyCorner t x k y => simp only [effects, List.mem_singleton] at he; subst he; simp
  | avgCorner t x k y => simp only [effects, List.mem_singleton] at he; subst he; simp
  | interpCorner t c k y ky => simp only [effects, List.mem_singleton] at he; subst he; simp
  | phys t x =>
    simp only [effects, List.mem_append, List.mem_flatMap, mem_numbers] at he
    rcases he with ⟨f, hf, he⟩ | ⟨k, hk, he⟩
    · split at he
      · simp only [List.mem_cons, List.not_mem_nil, or_false] at he
        rcases he with rfl | rfl <;> simp
      · simp at he
    · rw [(physCorner_mem M x t k e he).1]; simp

theorem closed_PS (M : Mesh) (hM : M.Ok) (minl : Int) (ti : Bool) (p : Nat) (A : Nat → Prop)
    (S : Nat → Nat → Nat → Prop) (os : List Op) (hos : ∀ o ∈ os, Legit M minl ti p o) :
    Closed M (PS M minl ti A S) os := by
  intro o ho e he hp
  exact good_writer M hM minl ti p A S o (hos o ho) e he
    (PS_base M minl ti A S e.1 hp (effects_noninterior M o e he))

/-- The main tool. -/
theorem run_base (M : Mesh) (hM : M.Ok) (minl : Int) (ti : Bool) (p : Nat) (A : Nat → Prop)
    (S : Nat → Nat → Nat → Prop) (os : List Op) (hos : ∀ o ∈ os, Legit M minl ti p o) (V : Valid)
    (hV : ∀ k, PS M minl ti A S k → V k = true) (k : Key) (hk : Base M minl ti A S k)
    (he : V k = true ∨ ∃ o ∈ os, ∃ e ∈ effects M o, e.1 = k) : run M V os k = true :=
  run_add M (PS M minl ti A S) k os V (closed_PS M hM minl ti p A S os hos) hV
    (fun o ho e h1 h2 => good_writer M hM minl ti p A S o (hos o ho) e h1 (by rw [h2]; exact hk)) he

theorem run_PS (M : Mesh) (hM : M.Ok) (minl : Int) (ti : Bool) (p : Nat) (A : Nat → Prop)
    (S : Nat → Nat → Nat → Prop) (os : List Op) (hos : ∀ o ∈ os, Legit M minl ti p o) (V : Valid)
    (hV : ∀ k, PS M minl ti A S k → V k = true) : ∀ k, PS M minl ti A S k → run M V os k = true :=
  run_inv M _ os V (closed_PS M hM minl ti p A S os hos) hV

end Fclaw.GhostFill
