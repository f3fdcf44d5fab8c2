import Verif.Parallel.Serial
import Verif.Parallel.Spec
import Verif.Parallel.Fresh
import Verif.TimeInterp.Props
/-
Helpers for C72: the outcome of a global step is determined by the solution at its beginning.
-/
set_option autoImplicit false
set_option linter.unusedSimpArgs false
set_option linter.unusedVariables false
set_option linter.unusedSectionVars false
namespace Fclaw.Parallel

open Fort Transform GhostFill CopyGhost Advance

variable {B : Problem} {M : Mesh} {S : Advance.Setup}

/-- What two runs agree on, for a patch. -/
structure SimP (B : Problem) (M : Mesh) (S : Advance.Setup) (k : Track) (x : Nat) (a a' : Pst) : Prop where
  cur : ∀ i j mq, interior B.d i j → comp B.d mq → a.cur (i, j, mq) = a'.cur (i, j, mq)
  due : k.fresh = true → ∀ i j mq, GhostAll.Due B.d M S.globalMinlevel false x i j → comp B.d mq →
    a.cur (i, j, mq) = a'.cur (i, j, mq)
  last : k.stepped = true → ∀ i j mq, interior B.d i j → comp B.d mq → a.last (i, j, mq) = a'.last (i, j, mq)
  int : k.interped = true → hasFine M x → ∀ i j mq, near B.d i j → comp B.d mq → a.int (i, j, mq) = a'.int (i, j, mq)
  cfl : a.cfl = a'.cfl

def Sim (B : Problem) (M : Mesh) (S : Advance.Setup) (k : Nat → Track) (v v' : Nat → Pst) : Prop :=
  ∀ x ∈ M.patches, ∀ l : Nat, M.level x = (l : Int) → SimP B M S (k l) x (v x) (v' x)

/-! ### Which cells agree -/

section
variable (G : Good B M S)
include G

theorem coarser_in_use {x y : Nat} (hx : x ∈ M.patches) (hy : y ∈ nbrs M x) (hl : M.level x = M.level y + 1) :
    coarserInUse M S.globalMinlevel false x := by
  have := (G.levels y (G.mesh.closed x hx y hy)).1
  exact Or.inl (by omega)

theorem strip_due {x f : Nat} (hx : x ∈ M.patches) (hf : f < 4) : DueStrip M S.globalMinlevel false x f := by
  intro hd
  cases e : M.face x f with
  | boundary => rw [e] at hd; cases hd
  | same y rf => rw [e] at hd; cases hd
  | half y0 y1 rf => rw [e] at hd; cases hd
  | double y rf g hk =>
    exact coarser_in_use G hx (mem_nbrs_face hf (by rw [e]; simp [faceList])) (double_level M G.mesh _ _ _ _ _ _ hf e)

theorem corner_due {x k : Nat} (hx : x ∈ M.patches) (hk : k < 4) :
    DueCorner M S.globalMinlevel false x k ∨ B.count x k = 3 := by
  have fx : faceX k < 4 := by unfold faceX; omega
  have fy : faceY k < 4 := by unfold faceY; omega
  cases bx : isBoundary (M.face x (faceX k)) <;> cases by' : isBoundary (M.face x (faceY k))
  · have hc : cornerNbr M x k = M.corner x k := by unfold cornerNbr; rw [bx, by']; rfl
    cases e : M.corner x k with
    | none =>
      rcases G.corners x hx k hk bx by' e with ⟨f, y, rf, g, hf, h⟩ | h
      · left
        simp only [DueCorner, bx, by', e]
        exact ⟨f, y, rf, g, hf, h, coarser_in_use G hx (mem_nbrs_face hf (by rw [h]; simp [faceList]))
          (double_level M G.mesh _ _ _ _ _ _ hf h)⟩
      · exact Or.inr h
    | same y rk => left; simp only [DueCorner, bx, by', e]
    | half y rk => left; simp only [DueCorner, bx, by', e]
    | double y rk =>
      left
      simp only [DueCorner, bx, by', e]
      rw [e] at hc
      obtain ⟨h1, h2⟩ := G.mesh.doubleCorner x k y rk hk hc
      exact coarser_in_use G hx (mem_nbrs_corner hk (by rw [hc]; simp [cornerList])) (G.mesh.halfCornerLevel y rk x k h1 h2)
  · left; simp only [DueCorner, bx, by']; exact strip_due G hx fx
  · left; simp only [DueCorner, bx, by']; exact strip_due G hx fy
  · left; simp only [DueCorner, bx, by']

theorem grid_cells {x : Nat} (hx : x ∈ M.patches) {a a' : Pst}
    (h1 : ∀ i j mq, interior B.d i j → comp B.d mq → a.cur (i, j, mq) = a'.cur (i, j, mq))
    (h2 : ∀ i j mq, GhostAll.Due B.d M S.globalMinlevel false x i j → comp B.d mq → a.cur (i, j, mq) = a'.cur (i, j, mq))
    {i j m : ℤ} (hg : B.z.inGrid i j) (hc : ¬ (Wave.atCorner B.z i j ∧ B.count x (Wave.cornerNo B.z i j) = 3)) (hm : B.z.eqn m) :
    a.cur (i, j, m) = a'.cur (i, j, m) := by
  have hm' : comp B.d m := hm
  obtain ⟨⟨g1, g2⟩, g3, g4⟩ := hg
  by_cases hcor : Wave.atCorner B.z i j
  · have hcnt : B.count x (Wave.cornerNo B.z i j) ≠ 3 := fun h => hc ⟨hcor, h⟩
    obtain ⟨k, hk, hin, hno⟩ : ∃ k, k < 4 ∧ inCorner B.d k i j ∧ Wave.cornerNo B.z i j = (k : ℤ) := by
      obtain ⟨c1, c2⟩ := hcor
      unfold Wave.cornerNo inCorner
      have d1 : B.d.mx = B.z.mx := rfl
      have d2 : B.d.my = B.z.my := rfl
      have d3 : B.d.mbc = B.z.mbc := rfl
      rw [d1, d2, d3]
      by_cases u : i < 1 <;> by_cases v : j < 1
      · refine ⟨0, by omega, ?_, ?_⟩
        · simp; omega
        · rw [if_neg (by omega), if_neg (by omega)]; rfl
      · refine ⟨2, by omega, ?_, ?_⟩
        · simp; omega
        · rw [if_neg (by omega), if_pos (by omega)]; rfl
      · refine ⟨1, by omega, ?_, ?_⟩
        · simp; omega
        · rw [if_pos (by omega), if_neg (by omega)]; rfl
      · refine ⟨3, by omega, ?_, ?_⟩
        · simp; omega
        · rw [if_pos (by omega), if_pos (by omega)]; rfl
    rw [hno] at hcnt
    rcases corner_due G hx hk with hd | hd
    · exact h2 i j m (Or.inr ⟨k, hk, hin, hd⟩) hm'
    · exact absurd hd hcnt
  · unfold Wave.atCorner at hcor
    have d1 : B.d.mx = B.z.mx := rfl
    have d2 : B.d.my = B.z.my := rfl
    have d3 : B.d.mbc = B.z.mbc := rfl
    by_cases u : i < 1
    · exact h2 i j m (Or.inl ⟨0, by omega, by simp only [inStrip]; omega, strip_due G hx (by omega)⟩) hm'
    by_cases u' : (B.z.mx : ℤ) < i
    · exact h2 i j m (Or.inl ⟨1, by omega, by simp only [inStrip]; omega, strip_due G hx (by omega)⟩) hm'
    by_cases v : j < 1
    · exact h2 i j m (Or.inl ⟨2, by omega, by simp only [inStrip]; omega, strip_due G hx (by omega)⟩) hm'
    by_cases v' : (B.z.my : ℤ) < j
    · exact h2 i j m (Or.inl ⟨3, by omega, by simp only [inStrip]; omega, strip_due G hx (by omega)⟩) hm'
    · exact h1 i j m (by unfold interior; rw [d1, d2]; omega) hm'

/-! ### A step -/

theorem ready {x : Nat} (hx : x ∈ M.patches) {t dt : ℚ} {m : Wave.Mem} (hm : ∀ i j k, m (.aux i j k) = B.aux x t dt i j k) :
    Wave.Ready B.z B.o (B.dx x) (B.dy x) m := by
  obtain ⟨r0, r1, r2, _, _⟩ := G.room
  exact ⟨G.usable, G.setting, by omega, by omega, (G.dx x hx).1, (G.dx x hx).2, fun i j hg hc => by
    rw [hm]; exact G.capa x hx t dt i j hg hc⟩

theorem isMax_unique {Q Q' : ℚ → Prop} (h : ∀ v, Q v ↔ Q' v) {c c' : ℚ} (h1 : Wave.IsMax Q c) (h2 : Wave.IsMax Q' c') : c = c' := by
  obtain ⟨a0, a1, a2⟩ := h1
  obtain ⟨b0, b1, b2⟩ := h2
  apply le_antisymm
  · rcases a2 with rfl | a2
    · exact b0
    · exact b1 _ ((h _).1 a2)
  · rcases b2 with rfl | b2
    · exact a0
    · exact a1 _ ((h _).2 b2)

theorem stepped_same {x : Nat} (hx : x ∈ M.patches) {t dt : ℚ} {a a' b b' : Pst}
    (h1 : ∀ i j mq, interior B.d i j → comp B.d mq → a.cur (i, j, mq) = a'.cur (i, j, mq))
    (h2 : ∀ i j mq, GhostAll.Due B.d M S.globalMinlevel false x i j → comp B.d mq → a.cur (i, j, mq) = a'.cur (i, j, mq))
    (hc : a.cfl = a'.cfl) (h : Stepped B x t dt a b) (h' : Stepped B x t dt a' b') :
    (∀ i j mq, interior B.d i j → comp B.d mq → b.cur (i, j, mq) = b'.cur (i, j, mq)) ∧
    (∀ i j mq, interior B.d i j → comp B.d mq → b.last (i, j, mq) = b'.last (i, j, mq)) ∧ b.cfl = b'.cfl := by
  obtain ⟨m, n, e1, e2, e3, e4, e5, e6, e7⟩ := h
  obtain ⟨m', n', f1, f2, f3, f4, f5, f6, f7⟩ := h'
  have R := ready G hx e2
  have R' := ready G hx f2
  obtain ⟨_, N, _, k2, k3, k4, _⟩ := Wave.full (B.R x) B.fw (B.count x) dt m R
  obtain ⟨_, N', _, l2, l3, l4, _⟩ := Wave.full (B.R x) B.fw (B.count x) dt m' R'
  rw [e3] at k2; cases k2
  rw [f3] at l2; cases l2
  have hA : ∀ i j, (Wave.fieldOf B.z B.o (B.count x) m).A i j = (Wave.fieldOf B.z B.o (B.count x) m').A i j := by
    intro i j
    simp only [Wave.fieldOf]
    congr 1
    funext k; rw [e2, f2]
  have hcap : ∀ i j, (Wave.fieldOf B.z B.o (B.count x) m).cap i j = (Wave.fieldOf B.z B.o (B.count x) m').cap i j := by
    intro i j
    simp only [Wave.fieldOf]
    rw [e2, f2]
  have hQ : ∀ dir, dir = 1 ∨ dir = 2 → ∀ i j, B.z.inGrid i j →
      (Wave.fieldOf B.z B.o (B.count x) m).Q dir i j = (Wave.fieldOf B.z B.o (B.count x) m').Q dir i j := by
    intro dir hdir i j hg
    simp only [Wave.fieldOf]
    funext k
    unfold Wave.comps
    by_cases hk : 1 ≤ k ∧ k ≤ (B.z.meqn : ℤ)
    · rw [if_pos hk, if_pos hk]
      beta_reduce
      rw [e1, f1]
      unfold Wave.sweepCell
      by_cases hcor : Wave.atCorner B.z i j ∧ B.count x (Wave.cornerNo B.z i j) = 3
      · rw [if_pos hcor]
        have := Wave.turned_inside R.fitx R.fity (y := decide (dir = 2)) hg hcor.1
        have hd : Wave.ixyOf (decide (dir = 2)) = dir := by
          rcases hdir with rfl | rfl <;> rfl
        rw [hd] at this
        exact grid_cells G hx h1 h2 this.1 (fun h => this.2 h.1) hk
      · rw [if_neg hcor]
        exact grid_cells G hx h1 h2 hg hcor hk
    · rw [if_neg hk, if_neg hk]
  have hmbc := G.setting.mbc
  refine ⟨?_, ?_, ?_⟩
  · rintro i j mq ⟨i1, i2, j1, j2⟩ hm
    have d1 : B.d.mx = B.z.mx := rfl
    have d2 : B.d.my = B.z.my := rfl
    rw [d1] at i2
    rw [d2] at j2
    rw [e4, f4, k3 i j mq i1 i2 j1 j2 hm, l3 i j mq i1 i2 j1 j2 hm]
    have := Wave.newValue_local (S := Wave.scheme B.z B.o (B.R x) B.fw (B.dx x) (B.dy x) dt)
      (F := Wave.fieldOf B.z B.o (B.count x) m) (F' := Wave.fieldOf B.z B.o (B.count x) m') (i := i) (j := j) (di := 0) (dj := 0)
      (by cases B.fw <;> simp) (by
        intro u v a1 a2 a3 a4
        rw [add_zero, add_zero]
        exact ⟨fun dir hdir => hQ dir hdir u v ⟨by omega, by omega⟩, hA u v, hcap u v⟩) mq
    rwa [add_zero, add_zero] at this
  · intro i j mq hi hm
    rw [e6, f6]; exact h1 i j mq hi hm
  · rw [e7, f7, hc]
    congr 1
    refine isMax_unique (B := B) (M := M) (S := S) G (fun v => ?_) k4 l4
    have hval : ∀ dir, dir = 1 ∨ dir = 2 → ∀ p q : ℤ, B.z.inGrid (Wave.pos dir p q).1 (Wave.pos dir p q).2 →
        (Wave.fieldOf B.z B.o (B.count x) m).val dir p q = (Wave.fieldOf B.z B.o (B.count x) m').val dir p q :=
      fun dir hdir p q hg => hQ dir hdir _ _ hg
    have haux : ∀ dir p q, (Wave.fieldOf B.z B.o (B.count x) m).auxAt dir p q = (Wave.fieldOf B.z B.o (B.count x) m').auxAt dir p q :=
      fun dir p q => hA _ _
    have hlam : ∀ dir p q, Wave.lam (Wave.scheme B.z B.o (B.R x) B.fw (B.dx x) (B.dy x) dt) (Wave.fieldOf B.z B.o (B.count x) m) dir p q =
        Wave.lam (Wave.scheme B.z B.o (B.R x) B.fw (B.dx x) (B.dy x) dt) (Wave.fieldOf B.z B.o (B.count x) m') dir p q := by
      intro dir p q
      unfold Wave.lam Wave.Field.capAt
      rw [hcap]
    have hrow : ∀ dir, dir = 1 ∨ dir = 2 → ∀ (nn b : ℤ), (∀ i, 0 ≤ i → i ≤ nn + 1 → B.z.inGrid (Wave.pos dir i b).1 (Wave.pos dir i b).2) →
        (Wave.rowCourant B.z (Wave.scheme B.z B.o (B.R x) B.fw (B.dx x) (B.dy x) dt) (Wave.fieldOf B.z B.o (B.count x) m) dir nn b v ↔
         Wave.rowCourant B.z (Wave.scheme B.z B.o (B.R x) B.fw (B.dx x) (B.dy x) dt) (Wave.fieldOf B.z B.o (B.count x) m') dir nn b v) := by
      intro dir hdir nn b hin
      unfold Wave.rowCourant
      refine exists_congr fun i => exists_congr fun w => and_congr_right fun hw => ?_
      have hs : Wave.speed (Wave.scheme B.z B.o (B.R x) B.fw (B.dx x) (B.dy x) dt) (Wave.fieldOf B.z B.o (B.count x) m) dir i b w =
          Wave.speed (Wave.scheme B.z B.o (B.R x) B.fw (B.dx x) (B.dy x) dt) (Wave.fieldOf B.z B.o (B.count x) m') dir i b w := by
        unfold Wave.speed
        rw [hval dir hdir (i - 1) b (hin _ (by omega) (by omega)), hval dir hdir i b (hin _ (by omega) (by omega)), haux, haux]
      rw [hlam, hlam, hs]
    unfold Wave.patchCourant
    refine or_congr (exists_congr fun b => and_congr_right fun hb => hrow 1 (Or.inl rfl) _ b ?_)
      (exists_congr fun b => and_congr_right fun hb => hrow 2 (Or.inr rfl) _ b ?_)
    · intro i i1 i2
      simp only [Wave.pos, if_true]
      exact ⟨⟨by omega, by omega⟩, by omega, by omega⟩
    · intro i i1 i2
      simp only [Wave.pos, OfNat.ofNat_ne_one, if_false]
      exact ⟨⟨by omega, by omega⟩, by omega, by omega⟩

theorem interped_same {α : ℚ} {a a' b b' : Pst}
    (h1 : ∀ i j mq, interior B.d i j → comp B.d mq → a.cur (i, j, mq) = a'.cur (i, j, mq))
    (h2 : ∀ i j mq, interior B.d i j → comp B.d mq → a.last (i, j, mq) = a'.last (i, j, mq))
    (h : Interped B α a b) (h' : Interped B α a' b') :
    ∀ i j mq, near B.d i j → comp B.d mq → b.int (i, j, mq) = b'.int (i, j, mq) := by
  obtain ⟨q, ie, e1, e2, _⟩ := h
  obtain ⟨q', ie', f1, f2, _⟩ := h'
  obtain ⟨r0, r1, r2, _, _⟩ := G.room
  unfold TimeInterp.setupTimeinterp at e1 f1
  cases hp : TimeInterp.announced B.d B.width with
  | none => rw [hp] at e1; cases e1
  | some ps =>
    rw [hp] at e1 f1
    obtain ⟨Q, IE, k1, k2, _, _⟩ := TimeInterp.timeinterp_result B.d r1 r2 ps a.cur a.last α a.int
    obtain ⟨Q', IE', l1, l2, _, _⟩ := TimeInterp.timeinterp_result B.d r1 r2 ps a'.cur a'.last α a'.int
    have e1' : TimeInterp.timeinterp B.d ps a.cur a.last α a.int = some (q, ie) := e1
    have f1' : TimeInterp.timeinterp B.d ps a'.cur a'.last α a'.int = some (q', ie') := f1
    rw [k1] at e1'; cases e1'
    rw [l1] at f1'; cases f1'
    intro i j mq hn hm
    rw [e2, f2, k2 i j mq hn hm, l2 i j mq hn hm, h1 i j mq hn.1 hm, h2 i j mq hn.1 hm]

/-! ### Events -/

theorem sim_update {k : Nat → Track} {v v' u u' : Nat → Pst} {l : Nat} {t dt c : ℚ} (hs : Sim B M S k v v') (hf : (k l).fresh = true)
    (h : SerialEv B M (.update l t dt c) v u) (h' : SerialEv B M (.update l t dt c) v' u') :
    Sim B M S (fun l' => (k l').step l' (.update l t dt c)) u u' := by
  intro x hx l' hl'
  have e := h x hx
  have e' := h' x hx
  have s := hs x hx l' hl'
  by_cases hll : l = l'
  · subst hll
    obtain ⟨a, b, c'⟩ := stepped_same G hx s.cur (s.due hf) s.cfl (e.1 hl') (e'.1 hl')
    simp only [Track.step, if_true]
    exact ⟨a, fun h => (by cases h), fun _ => b, fun h => (by cases h), c'⟩
  · have hne : M.level x ≠ (l : Int) := by omega
    simp only [Track.step, if_neg hll]
    rw [e.2 hne, e'.2 hne]
    exact s

theorem sim_interp {k : Nat → Track} {v v' u u' : Nat → Pst} {l : Nat} {α : ℚ} (hs : Sim B M S k v v')
    (h : SerialEv B M (.interp l α) v u) (h' : SerialEv B M (.interp l α) v' u') :
    Sim B M S (fun l' => (k l').step l' (.interp l α)) u u' := by
  intro x hx l' hl'
  have e := h x hx
  have e' := h' x hx
  have s := hs x hx l' hl'
  by_cases hll : l = l'
  · subst hll
    simp only [Track.step, if_true]
    by_cases hfine : hasFine M x
    · have i1 := e.1 ⟨hl', hfine⟩
      have i2 := e'.1 ⟨hl', hfine⟩
      have hint := fun hst => interped_same G s.cur (s.last hst) i1 i2
      obtain ⟨_, _, _, a1, a2, a3, a4⟩ := i1
      obtain ⟨_, _, _, b1, b2, b3, b4⟩ := i2
      refine ⟨?_, ?_, ?_, fun h _ => hint h, by rw [a4, b4]; exact s.cfl⟩
      · rw [a2, b2]; exact s.cur
      · rw [a2, b2]; exact s.due
      · rw [a3, b3]; exact s.last
    · have n1 := e.2 fun h => hfine h.2
      have n2 := e'.2 fun h => hfine h.2
      rw [n1, n2]
      exact ⟨s.cur, s.due, s.last, fun _ h => absurd h hfine, s.cfl⟩
  · have hne : ¬ (M.level x = (l : Int) ∧ hasFine M x) := fun h => by omega
    simp only [Track.step, if_neg hll]
    rw [e.2 hne, e'.2 hne]
    exact s

theorem due_mono {lo : Nat} {ti : Bool} (hti : ti = false → lo = S.globalMinlevel) {x : Nat} (hl : (lo : Int) ≤ M.level x) {i j : ℤ}
    (h : GhostAll.Due B.d M S.globalMinlevel false x i j) : GhostAll.Due B.d M lo ti x i j := by
  have hc : coarserInUse M S.globalMinlevel false x → coarserInUse M lo ti x := by
    intro hc
    cases ti with
    | true => exact Or.inr rfl
    | false => rw [hti rfl]; exact hc
  have hstrip : ∀ f, DueStrip M S.globalMinlevel false x f → DueStrip M lo ti x f := fun f h hd => hc (h hd)
  rcases h with ⟨f, hf, hs, hd⟩ | ⟨k, hk, hs, hd⟩
  · exact Or.inl ⟨f, hf, hs, hstrip f hd⟩
  · refine Or.inr ⟨k, hk, hs, ?_⟩
    unfold DueCorner at hd ⊢
    cases bx : isBoundary (M.face x (faceX k)) <;> cases by' : isBoundary (M.face x (faceY k)) <;> simp only [bx, by'] at hd ⊢
    · cases e : M.corner x k <;> simp only [e] at hd ⊢
      · obtain ⟨f, y, rf, g, h1, h2, h3⟩ := hd
        exact ⟨f, y, rf, g, h1, h2, hc h3⟩
      · exact hc hd
    · exact hstrip _ hd
    · exact hstrip _ hd

theorem sim_ghost {k : Nat → Track} {v v' u u' : Nat → Pst} {lo hi : Nat} {t : ℚ} {ti : Bool} (hs : Sim B M S k v v')
    (hti : ti = false → lo = S.globalMinlevel)
    (hlast : ti = true → 0 < lo ∧ (S.globalMinlevel ≤ lo - 1 → (k (lo - 1)).interped = true))
    (h : SerialEv B M (.ghost lo hi t ti) v u) (h' : SerialEv B M (.ghost lo hi t ti) v' u') :
    Sim B M S (fun l' => (k l').step l' (.ghost lo hi t ti)) u u' := by
  have F : Filled B M lo ti v u := h
  have F' : Filled B M lo ti v' u' := h'
  intro x hx l hl
  have s := hs x hx l hl
  refine ⟨?_, ?_, ?_, ?_, ?_⟩
  · intro i j mq hin hm
    rw [F.cur x hx i j mq hin hm, F'.cur x hx i j mq hin hm]
    exact s.cur i j mq hin hm
  · intro hfr i j mq hd hm
    simp only [Track.step, decide_eq_true_eq] at hfr
    have hll : (lo : Int) ≤ M.level x := by rw [hl]; exact_mod_cast hfr
    have hd' := due_mono G hti hll hd
    have E := F.ghost x hx hll i j mq hd' hm
    have E' := F'.ghost x hx hll i j mq hd' hm
    refine GhostAll.expected_unique G.sizes G.mesh G.fits (expected_depends (I' := stateOf v') G.sizes G.mesh G.fits ?_ ?_ hx rfl E) _ E'
    · intro y hy i j hin
      obtain ⟨n, hn⟩ := Int.eq_ofNat_of_zero_le (show 0 ≤ M.level y by have := (G.levels y hy).1; omega)
      exact (hs y hy n hn).cur i j mq hin hm
    · intro ht y hy hly hfine i j hn
      obtain ⟨h0, hk⟩ := hlast ht
      have hly' : M.level y = ((lo - 1 : Nat) : Int) := by omega
      have := (G.levels y hy).1
      exact (hs y hy _ hly').int (hk (by omega)) hfine i j mq hn hm
  · intro hst i j mq hin hm
    rw [F.last x hx, F'.last x hx]
    exact s.last hst i j mq hin hm
  · intro hst hfine i j mq hn hm
    rw [F.int x hx i j mq hn.1 hm, F'.int x hx i j mq hn.1 hm]
    exact s.int hst hfine i j mq hn hm
  · rw [F.cfl x hx, F'.cfl x hx]; exact s.cfl

/-- Two runs through the same schedule. -/
theorem sim_serial (hS : S.localMinlevel = S.globalMinlevel) (es : List Ev) : ∀ (pre : List Ev) (v v' u u' : Nat → Pst),
    Always (TrackOk S) (pre ++ es) → Sim B M S (fun l => trackOf l pre) v v' → Serial B M es v u → Serial B M es v' u' →
    Sim B M S (fun l => trackOf l (pre ++ es)) u u' := by
  induction es with
  | nil =>
    intro pre v v' u u' _ hs h h' x hx l hl
    rw [List.append_nil, h x hx, h' x hx]
    exact hs x hx l hl
  | cons e es ih =>
    rintro pre v v' u u' hA hs ⟨v1, h1, h2⟩ ⟨v1', h1', h2'⟩
    have hT := hA pre e es rfl
    have hs1 : Sim B M S (fun l => trackOf l (pre ++ [e])) v1 v1' := by
      simp only [trackOf_snoc]
      cases e with
      | update l t dt c => exact sim_update G hs hT h1 h1'
      | interp l α => exact sim_interp G hs h1 h1'
      | ghost lo hi t ti =>
        obtain ⟨_, t2, t3⟩ := hT
        exact sim_ghost G hs t2 (fun ht => ⟨(t3 ht).1, fun hg => ((t3 ht).2.2 (by rw [hS]; exact hg)).2⟩) h1 h1'
      | sync lo hi =>
        intro x hx
        exact (h1 x hx).elim
    have := ih (pre ++ [e]) v1 v1' u u' (by rw [List.append_assoc]; exact hA) hs1 h2 h2'
    rwa [List.append_assoc] at this

end

end Fclaw.Parallel
