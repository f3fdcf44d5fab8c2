import Verif.GeoRun.Spec
import Mathlib.Tactic.Linarith
import Mathlib.Tactic.Positivity
import Mathlib.Tactic.FieldSimp
import Mathlib.Tactic.Ring
set_option autoImplicit false
set_option linter.unusedVariables false
namespace Fclaw.GeoRun

open Run (Opts counts3)

variable {D : Type}

theorem tiles_append (l l' : List Call) : ∀ a b c : ℚ, Tiles a b l → Tiles b c l' → Tiles a c (l ++ l') := by
  induction l with
  | nil => intro a b c h h'; simp only [Tiles] at h; subst h; exact h'
  | cons x l ih =>
    intro a b c h h'
    obtain ⟨h1, h2, h3⟩ := h
    exact ⟨h1, h2, ih _ _ _ h3 h'⟩

theorem tiles_le (l : List Call) : ∀ a b : ℚ, Tiles a b l → a ≤ b := by
  induction l with
  | nil => intro a b h; exact le_of_eq h
  | cons x l ih =>
    intro a b h
    have := ih _ _ h.2.2
    linarith [h.2.1]

theorem tiles_mem (l : List Call) : ∀ a b : ℚ, Tiles a b l → ∀ c ∈ l, a ≤ c.t ∧ c.t + c.dt ≤ b ∧ 0 < c.dt := by
  induction l with
  | nil => intro a b _ c hc; cases hc
  | cons x l ih =>
    intro a b h c hc
    obtain ⟨h1, h2, h3⟩ := h
    have hle := tiles_le l _ _ h3
    rcases List.mem_cons.1 hc with rfl | hc
    · exact ⟨le_of_eq h1.symm, by rw [h1]; exact hle, h2⟩
    · obtain ⟨k1, k2, k3⟩ := ih _ _ h3 c hc
      exact ⟨by linarith, k2, k3⟩

theorem subSteps_spec (w : World D) (dt1 : ℚ) (hdt : 0 < dt1) (m : Nat) : ∀ (d : D) (ct mc : ℚ),
    let r := subSteps w dt1 m d ct mc
    r.2.1 = ct + m * dt1 ∧ Tiles ct (ct + m * dt1) r.2.2.2 ∧ (∀ c ∈ r.2.2.2, c.dt = dt1 ∧ c.cfl ≤ r.2.2.1) ∧
    mc ≤ r.2.2.1 ∧ r.2.2.2.length = m ∧
    ((∀ d t dt, 0 < (w.advance d t dt).2) → ∀ c ∈ r.2.2.2, 0 < c.cfl) := by
  induction m with
  | zero =>
    intro d ct mc
    simp [subSteps, Tiles]
  | succ m ih =>
    intro d ct mc
    dsimp only [subSteps]
    obtain ⟨i1, i2, i3, i4, i5, i6⟩ := ih (w.advance d ct dt1).1 (ct + dt1)
      (if (w.advance d ct dt1).2 > mc then (w.advance d ct dt1).2 else mc)
    have e : ct + dt1 + (m : ℚ) * dt1 = ct + ((m + 1 : ℕ) : ℚ) * dt1 := by push_cast; ring
    rw [e] at i1 i2
    have hmc : mc ≤ (if (w.advance d ct dt1).2 > mc then (w.advance d ct dt1).2 else mc) ∧
        (w.advance d ct dt1).2 ≤ (if (w.advance d ct dt1).2 > mc then (w.advance d ct dt1).2 else mc) := by
      split
      · constructor <;> linarith
      · constructor <;> linarith
    refine ⟨i1, ⟨rfl, hdt, i2⟩, ?_, le_trans hmc.1 i4, by simp [i5], ?_⟩
    · intro c hc
      rcases List.mem_cons.1 hc with rfl | hc
      · exact ⟨rfl, le_trans hmc.2 i4⟩
      · exact i3 c hc
    · intro hc c hmem
      rcases List.mem_cons.1 hmem with rfl | hmem
      · exact hc _ _ _
      · exact i6 hc c hmem

theorem tendLocal_cases (g : Motion) (tstart tend : ℚ) :
    tendLocal g tstart tend = tend ∨ (tendLocal g tstart tend = g.hi ∧ g.hi < tend) := by
  unfold tendLocal
  dsimp only
  by_cases h : g.hi < tend
  · simp only [if_pos h]
    split
    · left; rfl
    · right; exact ⟨rfl, h⟩
  · simp only [if_neg h]
    left
    split <;> rfl

/-- What the steps over the motion of the ground do. -/
theorem stepDtopo_spec (w : World D) (g : Motion) (hg : g.lo < g.hi) (hm : 0 < g.dtMax) (d : D)
    (tstart tend : ℚ) (hlt : tstart < tend) (h1 : tstart < g.hi) (h2 : g.lo < tend) :
    ∃ d' c calls, stepDtopo w g d tstart tstart tend = some (d', tend, c, calls) ∧
      Tiles tstart tend calls ∧ (∀ x ∈ calls, Resolves g x ∧ x.cfl ≤ c) ∧
      ((∀ d t dt, 0 < (w.advance d t dt).2) → 0 < c) ∧
      2 ≤ calls.length := by
  unfold stepDtopo
  rw [if_neg (by rintro (h | h) <;> linarith)]
  dsimp only
  -- the first step
  obtain ⟨d1, ct1, mc1, calls1, ts, hr1, hts, hlo, htstart, htile1, hres1, hmc1, hmin⟩ :
      ∃ d1 ct1 mc1 calls1 ts, stepTo w g d tstart tstart = (d1, ct1, mc1, calls1, ts) ∧ ct1 = ts ∧
        g.lo ≤ ts ∧ tstart ≤ ts ∧ Tiles tstart ts calls1 ∧
        (∀ x ∈ calls1, Resolves g x ∧ x.cfl ≤ mc1) ∧
        ((∀ d t dt, 0 < (w.advance d t dt).2) → 0 ≤ mc1) ∧ (ts = g.lo ∨ ts = tstart) := by
    unfold stepTo
    by_cases h : g.lo > tstart
    · rw [if_pos h]
      refine ⟨_, _, _, _, _, rfl, rfl, by linarith, by linarith, ⟨rfl, ?_, rfl⟩, ?_, ?_, Or.inl (by ring)⟩
      · show 0 < g.lo - tstart; linarith
      · intro x hx
        simp only [List.mem_singleton] at hx
        subst hx
        refine ⟨?_, le_refl _⟩
        intro _ hh
        simp only at hh
        linarith
      · intro hc; exact le_of_lt (hc _ _ _)
    · rw [if_neg h]
      refine ⟨_, _, _, _, _, rfl, rfl, by linarith, le_refl _, rfl, ?_, ?_, Or.inr rfl⟩
      · intro x hx; cases hx
      · intro _; exact le_refl _
  rw [hr1]
  dsimp only
  subst hts
  have htl := tendLocal_cases g tstart tend
  generalize tendLocal g tstart tend = tl at htl ⊢
  have hgap : ct1 < tl := by
    rcases htl with h | ⟨h, h'⟩ <;> rcases hmin with e | e <;> rw [h, e] <;> assumption
  have htlend : tl ≤ tend := by
    rcases htl with h | ⟨h, h'⟩ <;> rw [h]
    exact le_of_lt h'
  have hD : 0 < tl - ct1 := by linarith
  set dtmin := if tl - ct1 < g.dtMax then tl - ct1 else g.dtMax with hdtmin
  have hminpos : 0 < dtmin := by rw [hdtmin]; split <;> assumption
  have hmin1 : dtmin ≤ tl - ct1 := by
    rw [hdtmin]; split
    · exact le_refl _
    · linarith
  have hmin2 : dtmin ≤ g.dtMax := by
    rw [hdtmin]; split
    · linarith
    · exact le_refl _
  clear_value dtmin
  rw [if_neg (ne_of_gt hminpos)]
  have hceil : (tl - ct1) / dtmin ≤ (⌈(tl - ct1) / dtmin⌉ : ℤ) := Int.le_ceil _
  generalize ⌈(tl - ct1) / dtmin⌉ = C at hceil ⊢
  have hone : 1 ≤ (tl - ct1) / dtmin := by rw [le_div_iff₀ hminpos]; linarith
  have hC1 : (1 : ℚ) ≤ C := le_trans hone hceil
  have hC : 1 ≤ C := by exact_mod_cast hC1
  obtain ⟨K, hK⟩ : ∃ K : Nat, C + 1 = (K : ℤ) := ⟨(C + 1).toNat, by omega⟩
  have hK2 : 2 ≤ K := by omega
  have hKC : (K : ℚ) = C + 1 := by have : ((C + 1 : ℤ) : ℚ) = ((K : ℤ) : ℚ) := by rw [hK]
                                   push_cast at this; linarith
  rw [hK, Int.toNat_natCast]
  have hKpos : (0 : ℚ) < K := by rw [hKC]; linarith
  have hcast : ((K : ℤ) : ℚ) = (K : ℚ) := by norm_cast
  rw [hcast]
  have hdt1 : 0 < (tl - ct1) / K := div_pos hD hKpos
  have hdt1le : (tl - ct1) / K ≤ g.dtMax := by
    refine le_trans ?_ hmin2
    rw [div_le_iff₀ hKpos]
    rw [div_le_iff₀ hminpos] at hceil
    rw [hKC]
    nlinarith
  have hsum : ct1 + (K : ℚ) * ((tl - ct1) / K) = tl := by field_simp; ring
  obtain ⟨s1, s2, s3, s4, s5, s6⟩ := subSteps_spec w ((tl - ct1) / K) hdt1 K d1 ct1 mc1
  rw [hsum] at s1 s2
  generalize subSteps w ((tl - ct1) / K) K d1 ct1 mc1 = r2 at s1 s2 s3 s4 s5 s6 ⊢
  have hmem := tiles_mem _ _ _ s2
  have hsub : ∀ x ∈ r2.2.2.2, Resolves g x := by
    intro x hx _ _
    have h3 := (s3 x hx).1
    exact ⟨by linarith [(hmem x hx).1], by rw [h3]; exact hdt1le⟩
  have hposc : (∀ d t dt, 0 < (w.advance d t dt).2) → 0 < r2.2.2.1 := by
    intro hc
    have hx := s6 hc
    obtain ⟨x, hxm⟩ : ∃ x, x ∈ r2.2.2.2 := by
      cases hl : r2.2.2.2 with
      | nil => rw [hl] at s5; simp at s5; omega
      | cons a l => exact ⟨a, List.mem_cons_self⟩
    exact lt_of_lt_of_le (hx x hxm) (s3 x hxm).2
  have hres1' : ∀ x ∈ calls1, x.cfl ≤ r2.2.2.1 := fun x hx => le_trans (hres1 x hx).2 s4
  by_cases hlast : tl < tend
  · rw [if_pos hlast]
    have hhi : tl = g.hi := by
      rcases htl with h | ⟨h, _⟩
      · rw [h] at hlast; exact absurd hlast (lt_irrefl _)
      · exact h
    have hmx : r2.2.2.1 ≤ (if (w.advance r2.1 tl (tend - tl)).2 > r2.2.2.1 then
          (w.advance r2.1 tl (tend - tl)).2 else r2.2.2.1) ∧
        (w.advance r2.1 tl (tend - tl)).2 ≤ (if (w.advance r2.1 tl (tend - tl)).2 > r2.2.2.1 then
          (w.advance r2.1 tl (tend - tl)).2 else r2.2.2.1) := by
      split
      · constructor <;> linarith
      · constructor <;> linarith
    have e3 : r2.2.1 + (tend - tl) = tend := by rw [s1]; ring
    rw [e3]
    refine ⟨_, _, _, rfl, ?_, ?_, ?_, ?_⟩
    · refine tiles_append _ _ _ tl _ (tiles_append _ _ _ ct1 _ htile1 s2) ⟨rfl, by show 0 < tend - tl; linarith, ?_⟩
      show tl + (tend - tl) = tend
      ring
    · intro x hx
      rcases List.mem_append.1 hx with hx | hx
      · rcases List.mem_append.1 hx with hx | hx
        · exact ⟨(hres1 x hx).1, le_trans (hres1' x hx) hmx.1⟩
        · exact ⟨hsub x hx, le_trans (s3 x hx).2 hmx.1⟩
      · simp only [List.mem_singleton] at hx
        subst hx
        refine ⟨?_, hmx.2⟩
        intro hh _
        simp only at hh
        rw [hhi] at hh
        exact absurd hh (lt_irrefl _)
    · intro hc
      exact lt_of_lt_of_le (hposc hc) hmx.1
    · simp only [List.length_append, s5]; omega
  · rw [if_neg hlast]
    have e : tl = tend := le_antisymm htlend (not_lt.1 hlast)
    have e4 : r2.2.1 = tend := by rw [s1, e]
    rw [e4]
    refine ⟨_, _, _, rfl, ?_, ?_, hposc, ?_⟩
    · rw [← e]; exact tiles_append _ _ _ ct1 _ htile1 s2
    · intro x hx
      rcases List.mem_append.1 hx with hx | hx
      · exact ⟨(hres1 x hx).1, hres1' x hx⟩
      · exact ⟨hsub x hx, (s3 x hx).2⟩
    · simp only [List.length_append, s5]; omega

/-- What a pass through either loop does, whether the ground moves or not. -/
theorem takeStep_spec (w : World D) (g : Motion) (hg : g.Proper) (d : D) (t dt : ℚ) (ht : 0 ≤ t)
    (hdt : 0 < dt) :
    ∃ d' ct c calls took, takeStep w g d t t dt = some (d', ct, c, calls, t + dt, took) ∧
      Tiles t (t + dt) calls ∧ (∀ x ∈ calls, Resolves g x ∧ x.cfl ≤ c) ∧
      ((∀ d t dt, 0 < (w.advance d t dt).2) → 0 < c) ∧
      (took = false → ct = t ∧ calls = [⟨t, dt, c⟩] ∧ (g.hi ≤ t ∨ t + dt ≤ g.lo)) := by
  unfold takeStep
  dsimp only
  by_cases h : g.hi ≤ t ∨ t + dt ≤ g.lo
  · rw [if_neg (not_not.2 h)]
    refine ⟨_, _, _, _, _, rfl, ⟨rfl, hdt, rfl⟩, ?_, fun hc => hc _ _ _, fun _ => ⟨rfl, rfl, h⟩⟩
    intro x hx
    simp only [List.mem_singleton] at hx
    subst hx
    refine ⟨?_, le_refl _⟩
    intro h1 h2
    simp only at h1 h2
    rcases h with h | h <;> linarith
  · rw [if_pos h]
    simp only [not_or, not_le] at h
    rcases hg with ⟨hg, hm⟩ | hg
    · obtain ⟨d', c, calls, e, h1, h2, h3, _⟩ :=
        stepDtopo_spec w g hg hm d t (t + dt) (by linarith) h.1 h.2
      rw [e]
      refine ⟨_, _, _, _, _, rfl, h1, h2, h3, ?_⟩
      intro hf; cases hf
    · linarith [h.1]

theorem kept_append (l l' : List Ev) : kept (l ++ l') = kept l ++ kept l' := by
  simp [kept, List.flatMap_append]

theorem frames_append (l l' : List Ev) : frames (l ++ l') = frames l ++ frames l' := by
  simp [frames, List.filterMap_append]

theorem punctual_append (l : List Ev) (e : Ev) (h : Punctual l)
    (he : ∀ i t, e = .frame i t → Tiles 0 t (kept l)) : Punctual (l ++ [e]) := by
  intro pre i t post heq
  rcases List.append_eq_append_iff.1 heq with ⟨a, h1, h2⟩ | ⟨a, h1, h2⟩
  · -- pre = l ++ a
    cases a with
    | nil =>
      simp only [List.nil_append, List.cons.injEq] at h2
      rw [h1, List.append_nil]
      exact he i t h2.1
    | cons x a =>
      simp only [List.cons_append, List.cons.injEq] at h2
      exact absurd h2.2 (by simp)
  · cases a with
    | nil =>
      simp only [List.nil_append, List.cons.injEq] at h2
      rw [List.append_nil] at h1
      rw [← h1]
      exact he i t h2.1.symm
    | cons x a =>
      simp only [List.cons_append, List.cons.injEq] at h2
      obtain ⟨rfl, _⟩ := h2
      exact h pre i t a h1

theorem punctual_other (l : List Ev) (e : Ev) (h : Punctual l) (he : ∀ i t, e ≠ .frame i t) :
    Punctual (l ++ [e]) := punctual_append l e h (fun i t hh => absurd hh (he i t))

/-- What holds throughout a run. -/
structure Inv (g : Motion) (s : St D) : Prop where
  time : s.currTime = s.t
  nonneg : 0 ≤ s.t
  tiles : Tiles 0 s.t (kept s.log)
  resolved : ∀ c ∈ kept s.log, Resolves g c
  punctual : Punctual s.log
  pos : 0 < s.dtMin

theorem regridStep_inv (o : Opts) (w : World D) (g : Motion) (n : Nat) (s : St D) (h : Inv g s) :
    Inv g (regridStep o w n s) := by
  unfold regridStep
  split
  · split
    · have hk : kept (s.log ++ [Ev.regrid n]) = kept s.log := by rw [kept_append]; simp [kept]
      exact ⟨h.time, h.nonneg, by dsimp only; rw [hk]; exact h.tiles, by dsimp only; rw [hk]; exact h.resolved,
        punctual_other _ _ h.punctual (by intro i t hh; cases hh), h.pos⟩
    · exact h
  · exact h

theorem diag_inv (g : Motion) (b c : Bool) (s : St D) (h : Inv g s) :
    Inv g { s with log := s.log ++ (if b then [.diagnostics c] else []) } := by
  cases b with
  | false => simpa using h
  | true =>
    have hk : kept (s.log ++ [Ev.diagnostics c]) = kept s.log := by rw [kept_append]; simp [kept]
    exact ⟨h.time, h.nonneg, by simp only [if_true]; rw [hk]; exact h.tiles,
      by simp only [if_true]; rw [hk]; exact h.resolved,
      punctual_other _ _ h.punctual (by intro i t hh; cases hh), h.pos⟩

theorem frame_inv (g : Motion) (i : Nat) (s : St D) (h : Inv g s) :
    Inv g { s with iframe := i, log := s.log ++ [.frame i s.currTime] } := by
  have hk : kept (s.log ++ [Ev.frame i s.currTime]) = kept s.log := by rw [kept_append]; simp [kept]
  refine ⟨h.time, h.nonneg, by dsimp only; rw [hk]; exact h.tiles, by dsimp only; rw [hk]; exact h.resolved,
    punctual_append _ _ h.punctual ?_, h.pos⟩
  intro i' t' hh
  cases hh
  rw [h.time]
  exact h.tiles

theorem accept_inv (g : Motion) (s : St D) (h : Inv g s) (d : D) (n nI : Nat) (dt dtMin : ℚ) (calls : List Call)
    (h1 : Tiles s.t (s.t + dt) calls) (h2 : ∀ x ∈ calls, Resolves g x) (h3 : 0 < dtMin) :
    Inv g { s with
      data := d
      n := n
      nInner := nI
      t := s.t + dt
      currTime := s.t + dt
      dtMin := dtMin
      log := s.log ++ [.accept calls] } := by
  have hk : kept (s.log ++ [Ev.accept calls]) = kept s.log ++ calls := by rw [kept_append]; simp [kept]
  refine ⟨rfl, ?_, ?_, ?_, punctual_other _ _ h.punctual (by intro i t hh; cases hh), h3⟩
  · have := tiles_le _ _ _ h1
    exact le_trans h.nonneg this
  · dsimp only; rw [hk]; exact tiles_append _ _ _ _ _ h.tiles h1
  · dsimp only
    rw [hk]
    intro c hc
    rcases List.mem_append.1 hc with hc | hc
    · exact h.resolved c hc
    · exact h2 c hc

theorem reject_inv (g : Motion) (s : St D) (h : Inv g s) (d : D) (dtMin : ℚ) (calls : List Call)
    (h3 : 0 < dtMin) :
    Inv g { s with
      data := d
      currTime := s.t
      dtMin := dtMin
      log := s.log ++ [.reject calls] } := by
  have hk : kept (s.log ++ [Ev.reject calls]) = kept s.log := by rw [kept_append]; simp [kept]
  exact ⟨rfl, h.nonneg, by dsimp only; rw [hk]; exact h.tiles, by dsimp only; rw [hk]; exact h.resolved,
    punctual_other _ _ h.punctual (by intro i t hh; cases hh), h3⟩

end Fclaw.GeoRun
