/-
A synchronisation follows the abstract one of Verif/TimeSync.
-/
import Verif.Conserve.Spec
import Verif.TimeSync.Props
import Verif.Correction.Props

set_option autoImplicit false
set_option linter.unusedSimpArgs false
set_option linter.unusedVariables false
namespace Fclaw.Conserve

open Fort CopyGhost Correction GhostFill TimeSync

variable {d : Dims}

/-! ### Clearing registers -/

theorem clear_gain (r : Regs) (k f : Nat) (hk : k < 4) (hf : f < 4) (t m : ℤ) :
    gain (clearFace r k) f t m = if f = k then 0 else gain r f t m := by
  have h1 : k = 0 ∨ k = 1 ∨ k = 2 ∨ k = 3 := by omega
  have h2 : f = 0 ∨ f = 1 ∨ f = 2 ∨ f = 3 := by omega
  rcases h1 with rfl | rfl | rfl | rfl <;> rcases h2 with rfl | rfl | rfl | rfl <;>
    simp [gain, plus, minus, clearFace]

theorem clear_balanced (r : Regs) (k : Nat) (hk : k < 4) (h : Balanced d r) : Balanced d (clearFace r k) := by
  intro f hf t ht m hm
  have := h f hf t ht m hm
  have h1 : k = 0 ∨ k = 1 ∨ k = 2 ∨ k = 3 := by omega
  have h2 : f = 0 ∨ f = 1 ∨ f = 2 ∨ f = 3 := by omega
  rcases h1 with rfl | rfl | rfl | rfl <;> rcases h2 with rfl | rfl | rfl | rfl <;>
    simp [plus, minus, clearFace] at this ⊢ <;> exact this

theorem clear_area (r : Regs) (k : Nat) : (clearFace r k).area = r.area := by
  unfold clearFace
  split <;> rfl

/-! ### Values at a face -/

/-- What counts of the registers at a face: the gain through all of it (0) and through its halves (1, 2). -/
abbrev V := Nat → ℤ → ℚ

def gains (d : Dims) (r : Regs) (f : Nat) : V := fun k m =>
  if k = 0 then gainFace d r f m else ∑ t ∈ upTo (len d f), (if inHalf (len d f) (k - 1) t then gain r f t m else 0)

theorem gains_clear (r : Regs) (k f : Nat) (hk : k < 4) (hf : f < 4) :
    gains d (clearFace r k) f = if f = k then 0 else gains d r f := by
  funext i m
  unfold gains gainFace
  simp only [clear_gain r k f hk hf]
  by_cases h : f = k
  · simp [h]
  · simp [h]

/-- Mass that a correction adds. -/
def amount (M : Mesh) (e : Event V) (m : ℤ) : ℚ :=
  match M.face e.x e.f with
  | .same _ _ => -(e.own 0 m + e.other 0 m) / 2
  | .half y0 _ _ => -(e.own (if e.y = y0 then 1 else 2) m) - e.other 0 m
  | _ => 0

/-- Steps as they occur. -/
def Good (M : Mesh) (p : Nat) : Step → Prop
  | .use x f y rf => Has M p x ∧ Has M p y ∧ f < 4 ∧
    (M.face x f = .same y rf ∨ ∃ y0 y1 g, g < 2 ∧ M.face x f = .half y0 y1 rf ∧ y = pick y0 y1 g)
  | .clear _ f => f < 4

theorem timeSync_good (M : Mesh) (hM : M.Ok) (p : Nat) (minl top : Int) : ∀ s ∈ timeSync M p minl top, Good M p s := by
  have reset : ∀ l r, ∀ s ∈ timeSyncReset M p l r, Good M p s := by
    intro l r s h
    rw [mem_reset] at h
    obtain ⟨x, f, rfl, _, _, hf, _⟩ := h
    exact hf
  have sweeps : ∀ e l, ∀ s ∈ sweep M p e l, Good M p s := by
    intro e l s h
    rw [mem_sweep] at h
    obtain ⟨x, f, hx, ho, _, hf, h⟩ := h
    have hp : Has M p x := ⟨hx, Or.inl ho⟩
    have nb : ∀ y ∈ nbrs M x, Has M p y := fun y hy => ⟨hM.closed x hx y hy, Or.inr ⟨x, hx, ho, hy⟩⟩
    unfold faceSync at h
    cases ef : M.face x f with
    | boundary => rw [ef] at h; simp at h
    | double _ _ _ _ => rw [ef] at h; simp at h
    | same y rf =>
      rw [ef] at h
      have hy := nb y (nbr_same M x f y rf hf ef)
      have hs := hM.sameSym x f y rf hf ef
      dsimp only at h
      split at h
      · rw [List.mem_cons] at h
        rcases h with rfl | h
        · exact ⟨hp, hy, hf, Or.inl ef⟩
        · split at h
          · rw [List.mem_singleton] at h
            subst h
            exact ⟨hy, hp, hs.1, Or.inl hs.2⟩
          · simp at h
      · simp at h
    | half y0 y1 rf =>
      rw [ef] at h
      have hb := nbr_half M x f y0 y1 rf hf ef
      dsimp only at h
      rw [List.mem_flatMap] at h
      obtain ⟨g, hg, h⟩ := h
      split at h
      · rw [List.mem_singleton] at h
        subst h
        simp at hg
        have g2 : g < 2 := by omega
        refine ⟨hp, ?_, hf, Or.inr ⟨y0, y1, g, g2, ef, rfl⟩⟩
        unfold pick
        split
        · exact nb _ hb.1
        · exact nb _ hb.2
      · simp at h
  intro s h
  unfold timeSync atLevel at h
  rw [List.mem_append, List.mem_flatMap, List.mem_flatMap] at h
  rcases h with ⟨l, _, h⟩ | ⟨l, _, h⟩
  · rw [List.mem_append, List.mem_append] at h
    rcases h with (h | h) | h
    · exact sweeps _ _ _ h
    · exact reset _ _ _ h
    · split at h
      · rw [List.mem_append] at h
        rcases h with h | h
        · exact sweeps _ _ _ h
        · exact reset _ _ _ h
      · simp at h
  · exact reset _ _ _ h

/-! ### Following -/

/-- The process `s` has followed the abstract one `a`, from solutions `q0`. -/
structure Rel (M : Mesh) (G : Nat → Geom d) (p : Nat) (q0 : Nat → Grid ℚ) (s : PState) (a : State V) : Prop where
  reg : ∀ x, ∀ f < 4, a.reg x f = gains d (s.reg x) f
  bal : ∀ x, Has M p x → Balanced d (s.reg x)
  area : ∀ x, Has M p x → HasAreas d (G x) (s.reg x)
  mass : ∀ x, Has M p x → ∀ m, comp d m → mass d (G x).area (s.q x) m =
    mass d (G x).area (q0 x) m + (a.log.map fun e => if e.x = x then amount M e m else 0).sum

theorem rel_use (M : Mesh) (G : Nat → Geom d) (p : Nat) (q0 : Nat → Grid ℚ) (s : PState) (a : State V)
    (R : Rel M G p q0 s a) (x f y rf : Nat) (g : Grid ℚ)
    (hg : ∀ m, comp d m → Correction.mass d (G x).area g m - Correction.mass d (G x).area (s.q x) m =
      amount M ⟨x, f, y, rf, a.reg x f, a.reg y rf⟩ m) :
    Rel M G p q0 { s with q := fun z => if z = x then g else s.q z } (exec a (.use x f y rf)) := by
  refine ⟨R.reg, R.bal, R.area, ?_⟩
  intro z hz m hm
  have h := R.mass z hz m hm
  unfold exec
  simp only [List.map_append, List.sum_append, List.map_cons, List.map_nil, List.sum_cons, List.sum_nil]
  by_cases e : z = x
  · subst e
    have := hg m hm
    simp only [if_true]
    linarith
  · simp only [if_neg e, if_neg (Ne.symm e)]
    linarith

theorem rel_act (hd : Sized d) (hp : Proper d) (M : Mesh) (hM : M.Ok) (L : Links) (hL : Linked d M L) (G : Nat → Geom d) (p : Nat) (q0 : Nat → Grid ℚ)
    (s : PState) (a : State V) (R : Rel M G p q0 s a) (st : Step) (hst : Good M p st) :
    ∃ s', act d M L s st = some s' ∧ Rel M G p q0 s' (exec a st) := by
  cases st with
  | clear x f =>
    have hf : f < 4 := hst
    refine ⟨_, rfl, ?_, ?_, ?_, R.mass⟩
    · intro z k hk
      show (if z = x ∧ k = f then 0 else a.reg z k) = gains d (if z = x then clearFace (s.reg x) f else s.reg z) k
      by_cases e : z = x
      · subst e
        simp only [true_and, if_true]
        rw [gains_clear _ _ _ hf hk, R.reg z k hk]
      · simp only [e, false_and, if_false]
        exact R.reg z k hk
    · intro z hz
      show Balanced d (if z = x then clearFace (s.reg x) f else s.reg z)
      by_cases e : z = x
      · subst e
        simp only [if_true]
        exact clear_balanced _ _ hf (R.bal z hz)
      · simp only [e, if_false]
        exact R.bal z hz
    · intro z hz
      show HasAreas d (G z) (if z = x then clearFace (s.reg x) f else s.reg z)
      by_cases e : z = x
      · subst e
        simp only [if_true]
        intro k hk t ht
        rw [clear_area]
        exact R.area z hz k hk t ht
      · simp only [e, if_false]
        exact R.area z hz
  | use x f y rf =>
    obtain ⟨hx, hy, hf, h⟩ := hst
    rcases h with ef | ⟨y0, y1, g, hg, ef, rfl⟩
    · obtain ⟨hl, ho⟩ := hL.same x hx.1 f hf y rf ef
      obtain ⟨q', e, hm⟩ := samesize_mass hp hd.mbc (G x) (L.td x f y) f hf hl (s.reg x) (s.reg y) (R.bal y hy) (R.area x hx) (s.q x)
      refine ⟨_, by unfold act; dsimp only; rw [ef]; dsimp only; rw [e]; rfl, ?_⟩
      refine rel_use M G p q0 s a R x f y rf q' ?_
      intro m hc
      rw [hm m hc, ho]
      unfold amount
      dsimp only
      rw [ef]
      dsimp only
      rw [R.reg x f hf, R.reg y rf (hM.sameSym x f y rf hf ef).1]
      simp [gains]
    · obtain ⟨hl, ho, hq⟩ := hL.half x hx.1 f hf y0 y1 rf ef g hg
      obtain ⟨q', e, hm⟩ := f2c_mass hd (G x) (L.td x f (pick y0 y1 g)) f g hf hg hl (L.qtfi x f) hq (s.reg x)
        (s.reg (pick y0 y1 g)) (R.bal _ hy) (R.area x hx) (s.q x)
      refine ⟨_, by unfold act; dsimp only; rw [ef]; dsimp only; rw [e]; rfl, ?_⟩
      refine rel_use M G p q0 s a R x f (pick y0 y1 g) rf q' ?_
      intro m hc
      rw [hm m hc, ho]
      have hs := hM.halfSym x f y0 y1 rf hf ef
      have hne : y1 ≠ y0 := by
        rintro rfl
        obtain ⟨_, ⟨_, _, h0⟩, ⟨_, _, h1⟩⟩ := hs
        rw [h0] at h1
        simp at h1
      unfold amount
      dsimp only
      rw [ef]
      dsimp only
      rw [R.reg x f hf, R.reg _ rf hs.1]
      have : g = 0 ∨ g = 1 := by omega
      rcases this with rfl | rfl
      · simp [gains, pick]
      · simp [gains, pick, hne]

theorem rel_all (hd : Sized d) (hp : Proper d) (M : Mesh) (hM : M.Ok) (L : Links) (hL : Linked d M L) (G : Nat → Geom d) (p : Nat) (q0 : Nat → Grid ℚ)
    (ss : List Step) (hss : ∀ st ∈ ss, Good M p st) (s : PState) (a : State V) (R : Rel M G p q0 s a) :
    ∃ s', actAll d M L s ss = some s' ∧ Rel M G p q0 s' (run a ss) := by
  induction ss generalizing s a with
  | nil => exact ⟨s, rfl, R⟩
  | cons st ss ih =>
    obtain ⟨s1, e1, R1⟩ := rel_act hd hp M hM L hL G p q0 s a R st (hss st (List.mem_cons_self ..))
    obtain ⟨s2, e2, R2⟩ := ih (fun t ht => hss t (List.mem_cons_of_mem _ ht)) s1 _ R1
    refine ⟨s2, ?_, ?_⟩
    · unfold actAll
      rw [e1]
      exact e2
    · unfold TimeSync.run at *
      rw [List.foldl_cons]
      exact R2

/-- Sum over a log, face by face. -/
theorem sum_log (log : List (Event V)) (x : Nat) (v : Event V → ℚ) (h : ∀ e ∈ log, e.f < 4) :
    (log.map fun e => if e.x = x then v e else 0).sum =
      ∑ f ∈ Finset.range 4, ((log.filter fun e => decide (e.x = x ∧ e.f = f)).map v).sum := by
  induction log with
  | nil => simp
  | cons e log ih =>
    rw [List.map_cons, List.sum_cons, ih fun e' h' => h e' (List.mem_cons_of_mem _ h')]
    have he := h e (List.mem_cons_self ..)
    have : ∀ f, (((e :: log).filter fun e => decide (e.x = x ∧ e.f = f)).map v).sum =
        (if f = e.f then (if e.x = x then v e else 0) else 0) +
          ((log.filter fun e => decide (e.x = x ∧ e.f = f)).map v).sum := by
      intro f
      rw [List.filter_cons]
      by_cases h1 : e.x = x
      · by_cases h2 : e.f = f
        · simp [h1, h2]
        · simp [h1, h2, Ne.symm h2]
      · simp [h1]
    rw [Finset.sum_congr rfl fun f _ => this f, Finset.sum_add_distrib, Finset.sum_ite_eq' (Finset.range 4) e.f]
    rw [if_pos (Finset.mem_range.2 he)]

theorem log_faces (M : Mesh) (p : Nat) (ss : List Step) (hss : ∀ st ∈ ss, Good M p st) (a : State V)
    (ha : ∀ e ∈ a.log, e.f < 4) : ∀ e ∈ (run a ss).log, e.f < 4 := by
  induction ss generalizing a with
  | nil => exact ha
  | cons st ss ih =>
    unfold TimeSync.run
    rw [List.foldl_cons]
    refine ih (fun t ht => hss t (List.mem_cons_of_mem _ ht)) _ ?_
    have hst := hss st (List.mem_cons_self ..)
    cases st with
    | clear x f => exact ha
    | use x f y rf =>
      intro e he
      unfold exec at he
      rw [List.mem_append, List.mem_singleton] at he
      rcases he with he | rfl
      · exact ha e he
      · exact hst.2.2.1

/-- What a synchronisation by process `p` does to its patches. -/
theorem process_spec (hd : Sized d) (hp : Proper d) (M : Mesh) (hM : M.Ok) (hn : M.patches.Nodup) (L : Links) (hL : Linked d M L) (G : Nat → Geom d)
    (minl top : Int) (htop : ∀ x ∈ M.patches, M.level x ≤ top) (p : Nat) (W : World)
    (hb : ∀ x ∈ M.patches, Balanced d (W.r x)) (ha : ∀ x ∈ M.patches, HasAreas d (G x) (W.r x)) (s : PState)
    (hs : ∀ x, Has M p x → s.reg x = W.r x) (hq : ∀ x ∈ M.patches, M.owner x = p → s.q x = W.q x) :
    ∃ s', syncProcess d M L p minl top s = some s' ∧ ∀ x ∈ M.patches, M.owner x = p →
      Balanced d (s'.reg x) ∧ HasAreas d (G x) (s'.reg x) ∧
      (∀ f < 4, ∀ m, (Done M minl x f → gainFace d (s'.reg x) f m = 0) ∧
        (¬ Done M minl x f → gainFace d (s'.reg x) f m = gainFace d (W.r x) f m)) ∧
      ∀ m, comp d m → Correction.mass d (G x).area (s'.q x) m - Correction.mass d (G x).area (W.q x) m =
        ∑ f ∈ Finset.range 4, ((if minl ≤ M.level x then due M (fun z k => gains d (W.r z) k) x f else []).map
          fun e => amount M e m).sum := by
  have R0 : Rel M G p s.q s ⟨fun x f => gains d (s.reg x) f, []⟩ :=
    ⟨fun _ _ _ => rfl, fun x hx => by rw [hs x hx]; exact hb x hx.1, fun x hx => by rw [hs x hx]; exact ha x hx.1,
      fun x hx m hm => by simp⟩
  have good := timeSync_good M hM p minl top
  obtain ⟨s', e, R⟩ := rel_all hd hp M hM L hL G p s.q _ good s _ R0
  have c := C35 M hM hn minl top htop p (fun z k => gains d (W.r z) k) (fun x f => gains d (s.reg x) f)
    (fun x f hx => by rw [hs x hx])
  have hlog := log_faces M p _ good ⟨fun x f => gains d (s.reg x) f, []⟩ (by simp)
  refine ⟨s', e, ?_⟩
  intro x hx ho
  have own : Has M p x := ⟨hx, Or.inl ho⟩
  refine ⟨R.bal x own, R.area x own, ?_, ?_⟩
  · intro f hf m
    have h := c.1 x hx ho f hf
    have r := R.reg x f hf
    constructor
    · intro h'
      have := r.symm.trans (h.1 h')
      have := congrFun (congrFun this 0) m
      simpa [gains] using this
    · intro h'
      have := r.symm.trans (h.2 h')
      have := congrFun (congrFun this 0) m
      simpa [gains] using this
  · intro m hm
    have h := R.mass x own m hm
    rw [hq x hx ho] at h
    rw [h, add_sub_cancel_left, sum_log _ x (fun e => amount M e m) hlog]
    refine Finset.sum_congr rfl fun f hf => ?_
    rw [← c.2.1 x hx ho f (Finset.mem_range.1 hf)]
    rfl

end Fclaw.Conserve
