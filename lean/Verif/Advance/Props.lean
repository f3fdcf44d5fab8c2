/-
C24-C27: the schedule of one global time step; C59: the CFL number it returns; C60: all processes
take part in the same exchanges.
-/
import Verif.Advance.Loop

set_option autoImplicit false
set_option linter.unusedSimpArgs false
set_option linter.unusedVariables false
namespace Fclaw.Advance

/-! ### The counters at the start -/

theorem fillSubcycle_eq (t : ℚ) : ∀ (n level : Nat) (dt : ℚ) (inc total : Nat) (ts : Counters) (l : Nat),
    fillSubcycle t n level dt inc total ts l =
      if level ≤ l ∧ l < level + n then
        some ⟨0, inc / 2 ^ (l - level), total * 2 ^ (l - level), t, dt / 2 ^ (l - level)⟩
      else ts l
  | 0, level, dt, inc, total, ts, l => by
    rw [if_neg (by omega)]; rfl
  | n + 1, level, dt, inc, total, ts, l => by
    unfold fillSubcycle
    rw [fillSubcycle_eq t n (level + 1) (dt / 2) (inc / 2) (total * 2)]
    by_cases h1 : level + 1 ≤ l ∧ l < level + 1 + n
    · rw [if_pos h1, if_pos (by omega)]
      obtain ⟨d, hd⟩ : ∃ d, l - level = d + 1 := ⟨l - level - 1, by omega⟩
      have hd' : l - (level + 1) = d := by omega
      rw [hd, hd']
      congr 2
      · rw [Nat.div_div_eq_div_mul, Nat.pow_succ, Nat.mul_comm]
      · rw [Nat.pow_succ]; ring
      · rw [pow_succ]; field_simp
    · rw [if_neg h1]
      unfold setLevel
      by_cases h2 : l = level
      · rw [if_pos h2, if_pos (by omega), h2]; simp
      · rw [if_neg h2, if_neg (by omega)]

theorem fillGlobal_eq (t dt : ℚ) (rf : Nat) (one : Bool) : ∀ (n level : Nat) (ts : Counters) (l : Nat),
    fillGlobal t dt rf one n level ts l =
      if level ≤ l ∧ l < level + n then
        some (if one then ⟨0, 1, 1, t, dt⟩ else ⟨0, 1, rf, t, dt / rf⟩)
      else ts l
  | 0, level, ts, l => by
    rw [if_neg (by omega)]; rfl
  | n + 1, level, ts, l => by
    unfold fillGlobal
    rw [fillGlobal_eq t dt rf one n (level + 1)]
    by_cases h1 : level + 1 ≤ l ∧ l < level + 1 + n
    · rw [if_pos h1, if_pos (show level ≤ l ∧ l < level + (n + 1) by omega)]
    · rw [if_neg h1]
      unfold setLevel
      by_cases h2 : l = level
      · rw [if_pos h2, if_pos (show level ≤ l ∧ l < level + (n + 1) by omega)]
      · rw [if_neg h2, if_neg (by omega)]

def subCtx (S : Setup) (t dt : ℚ) : Ctx :=
  ⟨S, t, dt / 2 ^ (S.globalMaxlevel - S.minlevel), fun l => 2 ^ (S.globalMaxlevel - l),
   fun l => 2 ^ (l - S.minlevel)⟩

theorem subCtx_full (S : Setup) (hS : S.Ok) (hsub : S.subcycle = true) (t dt : ℚ) (hdt : 0 < dt) :
    (subCtx S t dt).Full (initCounters S t dt) := by
  unfold Setup.Ok at hS
  have hinit : ∀ l, S.minlevel ≤ l → l ≤ S.globalMaxlevel → initCounters S t dt l =
      some ⟨0, 2 ^ (S.globalMaxlevel - l), 2 ^ (l - S.minlevel), t, dt / 2 ^ (l - S.minlevel)⟩ := by
    intro l h1 h2
    unfold initCounters
    simp only [hsub, if_true]
    rw [fillSubcycle_eq, if_pos (by omega)]
    congr 2
    · rw [Nat.pow_div (by omega) (by omega)]
      congr 1
      omega
    · rw [Nat.one_mul]
  refine { one := ?_, step := ?_, pos := ?_, sub := ?_, glo := ?_, lev := hS, init0 := ?_, prod := ?_ }
  · simp [subCtx]
  · intro l h1 h2
    simp only [subCtx] at h1 h2 ⊢
    simp only [hsub, if_true]
    rw [← Nat.pow_succ']
    congr 1
    omega
  · simp only [subCtx]
    positivity
  · intro _
    refine ⟨?_, rfl⟩
    intro l h1 h2
    refine ⟨rfl, ?_⟩
    unfold incOf
    simp only [subCtx] at h1 h2 ⊢
    rw [hinit l h1 h2]
    rfl
  · intro h
    simp only [subCtx] at h
    rw [hsub] at h; simp at h
  · intro l ha
    simp only [subCtx, Ctx.Act] at ha ⊢
    have hml : S.minlevel ≤ l := by rcases ha.2 with h | h <;> omega
    rw [hinit l hml ha.1]
    congr 2
    push_cast
    have h3 : S.globalMaxlevel - S.minlevel = (S.globalMaxlevel - l) + (l - S.minlevel) := by omega
    rw [h3, pow_add]
    field_simp
  · intro l ha
    simp only [subCtx, Ctx.Act] at ha ⊢
    have hml : S.minlevel ≤ l := by rcases ha.2 with h | h <;> omega
    rw [← Nat.pow_add]
    congr 1
    omega

/-- Number of steps without subcycling. -/
def globalSteps (S : Setup) : Nat := if S.advanceOneStep then 1 else 2 ^ (S.maxlevel - S.minlevel)

def gloCtx (S : Setup) (t dt : ℚ) : Ctx :=
  ⟨S, t, dt / globalSteps S, fun _ => 1, fun _ => globalSteps S⟩

theorem globalSteps_pos (S : Setup) : 0 < globalSteps S := by
  unfold globalSteps
  split
  · omega
  · exact Nat.pow_pos (by omega)

theorem gloCtx_full (S : Setup) (hS : S.Ok) (hsub : S.subcycle = false) (t dt : ℚ) (hdt : 0 < dt) :
    (gloCtx S t dt).Full (initCounters S t dt) := by
  have hS' := hS
  unfold Setup.Ok at hS
  refine { one := rfl, step := ?_, pos := ?_, sub := ?_, glo := fun _ _ _ _ => rfl, lev := hS',
           init0 := ?_, prod := fun _ _ => by simp [gloCtx] }
  · intro l h1 h2
    simp only [gloCtx, hsub, Bool.false_eq_true, if_false]
  · simp only [gloCtx]
    have : (0 : ℚ) < globalSteps S := by exact_mod_cast globalSteps_pos S
    positivity
  · intro h
    simp only [gloCtx] at h
    rw [hsub] at h; simp at h
  · intro l ha
    simp only [gloCtx, Ctx.Act] at ha ⊢
    have hml : S.minlevel ≤ l := by rcases ha.2 with h | h <;> omega
    unfold initCounters
    simp only [hsub, Bool.false_eq_true, if_false]
    rw [fillGlobal_eq, if_pos (by omega)]
    unfold globalSteps
    cases S.advanceOneStep <;> simp

/-! ### The properties -/

section
variable (S : Setup) (hS : S.Ok) (t dt : ℚ) (hdt : 0 < dt) (cfl : List Ev → ℚ)
include hS hdt

/-- **C24.** With subcycling the schedule ends without a failure, and each level on the process has
then taken exactly `2 ^ (l - minlevel)` steps, each starting where the one before ended, each of
size `dt / 2 ^ (l - minlevel)`, and is at time `t + dt`. -/
theorem C24_subcycle (hsub : S.subcycle = true) :
    ∃ log mc, advanceAllLevels S cfl t dt = some (log, mc) ∧
      ∀ l, S.HasLevel l →
        (dataOf t l log).steps = 2 ^ (l - S.minlevel) ∧
        (dataOf t l log).cur = t + dt ∧
        Always (fun pre ev => ∀ s h c, ev = .update l s h c →
          s = (dataOf t l pre).cur ∧ h = dt / 2 ^ (l - S.minlevel)) log := by
  have hF := subCtx_full S hS hsub t dt hdt
  obtain ⟨log, mc, h1, h2, h3, h4, h5⟩ := advance_ok (X := subCtx S t dt) hF cfl
  refine ⟨log, mc, h1, ?_⟩
  intro l hl
  obtain ⟨a, b⟩ := h4 l ⟨hl.2, Or.inl hl.1⟩
  refine ⟨b, ?_, ?_⟩
  · have a' : (dataOf t l log).cur = t + ((2 ^ (S.globalMaxlevel - S.minlevel) : Nat) : ℚ) *
        (dt / 2 ^ (S.globalMaxlevel - S.minlevel)) := a
    rw [a']
    push_cast
    field_simp
  · intro pre ev post hlog s h c hev
    have := h2 pre ev post hlog
    rw [hev] at this
    obtain ⟨g1, g2, g3, g4⟩ := this
    refine ⟨g2.symm, ?_⟩
    rw [g3]
    simp only [subCtx]
    push_cast
    unfold Setup.HasLevel at hl
    unfold Setup.Ok at hS
    have h3 : S.globalMaxlevel - S.minlevel = (S.globalMaxlevel - l) + (l - S.minlevel) := by omega
    rw [h3, pow_add]
    field_simp

/-- What is required of an exchange of ghost cells at time `s` for levels `lo` to `hi`: all these
levels are at time `s`. With time interpolation, the data of the next coarser level was interpolated
from its two last solutions, before and after `s`, to exactly the time `s`. -/
def GoodExchange (S : Setup) (t : ℚ) (pre : List Ev) : Ev → Prop
  | .ghost lo hi s ti => hi = S.globalMaxlevel ∧
      (∀ l, S.HasLevel l → lo ≤ l → (dataOf t l pre).cur = s) ∧
      (ti = false → lo = S.globalMinlevel) ∧
      (ti = true → 0 < lo ∧ lo ≤ hi ∧ (S.HasLevel (lo - 1) →
        (dataOf t (lo - 1) pre).interp = some s ∧
        (dataOf t (lo - 1) pre).prev < s ∧ s < (dataOf t (lo - 1) pre).cur))
  | .interp _ α => α = 1 / 2
  | .sync lo hi => ∃ pre' s ti, pre = pre' ++ [.ghost lo hi s ti]
  | .update _ _ _ _ => True

/-- **C25.** Every exchange of ghost cells, during and at the end of the step, is between levels at
the same time; time interpolation has weight one half and gives data at the time of the exchange;
conservative corrections directly follow an exchange and are for the same levels. -/
theorem C25_exchange (log : List Ev) (mc : ℚ) (h : advanceAllLevels S cfl t dt = some (log, mc)) :
    Always (GoodExchange S t) log := by
  have key : ∀ (X : Ctx), X.S = S → X.t0 = t → Always (EvOk X) log → Always (GoodExchange S t) log := by
    rintro X rfl rfl hA pre ev post hlog
    have := hA pre ev post hlog
    cases ev with
    | update => exact trivial
    | interp l α => exact this.2.1
    | ghost lo hi s ti =>
      obtain ⟨g1, g2, g3, g4⟩ := this
      refine ⟨g1, fun l hl hlo => g2 l hl.1 hlo (by rw [g1]; exact hl.2), g4, ?_⟩
      intro hti
      obtain ⟨e1, e2, e3⟩ := g3 hti
      exact ⟨e1, e2, fun hl => e3 hl.1⟩
    | sync lo hi => exact this
  cases hsub : S.subcycle with
  | true =>
    obtain ⟨log', mc', h1, h2, _⟩ := advance_ok (X := subCtx S t dt) (subCtx_full S hS hsub t dt hdt) cfl
    rw [show advanceAllLevels (subCtx S t dt).S cfl (subCtx S t dt).t0 dt = _ from h] at h1
    simp only [Option.some.injEq, Prod.mk.injEq] at h1
    rw [← h1.1] at h2
    exact key (subCtx S t dt) rfl rfl h2
  | false =>
    obtain ⟨log', mc', h1, h2, _⟩ := advance_ok (X := gloCtx S t dt) (gloCtx_full S hS hsub t dt hdt) cfl
    rw [show advanceAllLevels (gloCtx S t dt).S cfl (gloCtx S t dt).t0 dt = _ from h] at h1
    simp only [Option.some.injEq, Prod.mk.injEq] at h1
    rw [← h1.1] at h2
    exact key (gloCtx S t dt) rfl rfl h2

/-- **C26.** When a level takes a step of size `h` starting at time `s`, every coarser level on the
process is either at exactly `s` or has already reached a time of at least `s + h`. -/
theorem C26_coarse_first (log : List Ev) (mc : ℚ)
    (h : advanceAllLevels S cfl t dt = some (log, mc)) :
    Always (fun pre ev => ∀ l s h c, ev = .update l s h c → ∀ l', S.HasLevel l' → l' < l →
      (dataOf t l' pre).cur = s ∨ s + h ≤ (dataOf t l' pre).cur) log := by
  have key : ∀ (X : Ctx), X.S = S → X.t0 = t → Always (EvOk X) log →
      Always (fun pre ev => ∀ l s h c, ev = .update l s h c → ∀ l', S.HasLevel l' → l' < l →
        (dataOf t l' pre).cur = s ∨ s + h ≤ (dataOf t l' pre).cur) log := by
    rintro X rfl rfl hA pre ev post hlog l s h c hev l' hl' hlt
    have := hA pre ev post hlog
    rw [hev] at this
    exact this.2.2.2 l' hl'.1 hlt
  cases hsub : S.subcycle with
  | true =>
    obtain ⟨log', mc', h1, h2, _⟩ := advance_ok (X := subCtx S t dt) (subCtx_full S hS hsub t dt hdt) cfl
    rw [show advanceAllLevels (subCtx S t dt).S cfl (subCtx S t dt).t0 dt = _ from h] at h1
    simp only [Option.some.injEq, Prod.mk.injEq] at h1
    rw [← h1.1] at h2
    exact key (subCtx S t dt) rfl rfl h2
  | false =>
    obtain ⟨log', mc', h1, h2, _⟩ := advance_ok (X := gloCtx S t dt) (gloCtx_full S hS hsub t dt hdt) cfl
    rw [show advanceAllLevels (gloCtx S t dt).S cfl (gloCtx S t dt).t0 dt = _ from h] at h1
    simp only [Option.some.injEq, Prod.mk.injEq] at h1
    rw [← h1.1] at h2
    exact key (gloCtx S t dt) rfl rfl h2

/-- **C27.** Without subcycling every level on the process takes the same number of steps of the
same size and ends at `t + dt`; with one-step advance this is one step of size `dt`. There is no time
interpolation. -/
theorem C27_lockstep (hsub : S.subcycle = false) :
    ∃ log mc, advanceAllLevels S cfl t dt = some (log, mc) ∧
      (∀ l, S.HasLevel l →
        (dataOf t l log).steps = (if S.advanceOneStep then 1 else 2 ^ (S.maxlevel - S.minlevel)) ∧
        (dataOf t l log).cur = t + dt) ∧
      Always (fun pre ev =>
        (∀ l s h c, ev = .update l s h c → s = (dataOf t l pre).cur ∧
          h = (if S.advanceOneStep then dt else dt / 2 ^ (S.maxlevel - S.minlevel))) ∧
        (∀ l α, ev ≠ .interp l α) ∧ (∀ lo hi s, ev ≠ .ghost lo hi s true)) log := by
  have hF := gloCtx_full S hS hsub t dt hdt
  obtain ⟨log, mc, h1, h2, h3, h4, h5⟩ := advance_ok (X := gloCtx S t dt) hF cfl
  have hpos : (0 : ℚ) < globalSteps S := by exact_mod_cast globalSteps_pos S
  refine ⟨log, mc, h1, ?_, ?_⟩
  · intro l hl
    obtain ⟨a, b⟩ := h4 l ⟨hl.2, Or.inl hl.1⟩
    refine ⟨b, ?_⟩
    have a' : (dataOf t l log).cur = t + (globalSteps S : ℚ) * (dt / globalSteps S) := a
    rw [a']
    field_simp
  · intro pre ev post hlog
    have hev := h2 pre ev post hlog
    refine ⟨?_, ?_, ?_⟩
    · rintro l s h c rfl
      obtain ⟨g1, g2, g3, g4⟩ := hev
      refine ⟨g2.symm, ?_⟩
      rw [g3]
      simp only [gloCtx, globalSteps]
      cases S.advanceOneStep <;> simp
    · rintro l α rfl
      have := hev.1
      simp only [gloCtx] at this
      rw [hsub] at this; simp at this
    · rintro lo hi s rfl
      -- it would be among the exchanges
      have hmem : Ev.ghost lo hi s true ∈ log.filter Ev.collective := by
        rw [hlog, List.mem_filter]
        exact ⟨by simp, rfl⟩
      rw [h5] at hmem
      rcases List.mem_append.mp hmem with hm | hm
      · simp only [exchanges, List.mem_flatMap] at hm
        obtain ⟨j, _, hj⟩ := hm
        unfold exchangeAt at hj
        simp only [gloCtx, hsub, Bool.false_eq_true, if_false] at hj
        cases hts : S.timeSync <;> simp [hts] at hj
      · cases hts : S.timeSync <;> simp [gloCtx, hts] at hm

/-- **C59.** The CFL number returned is the largest one that any update of any level reported. -/
theorem C59_cfl (log : List Ev) (mc : ℚ) (h : advanceAllLevels S cfl t dt = some (log, mc)) :
    mc = maxCfl log := by
  cases hsub : S.subcycle with
  | true =>
    obtain ⟨log', mc', h1, _, h3, _⟩ := advance_ok (X := subCtx S t dt) (subCtx_full S hS hsub t dt hdt) cfl
    rw [show advanceAllLevels (subCtx S t dt).S cfl (subCtx S t dt).t0 dt = _ from h] at h1
    simp only [Option.some.injEq, Prod.mk.injEq] at h1
    rw [h1.1, h1.2, h3]
  | false =>
    obtain ⟨log', mc', h1, _, h3, _⟩ := advance_ok (X := gloCtx S t dt) (gloCtx_full S hS hsub t dt hdt) cfl
    rw [show advanceAllLevels (gloCtx S t dt).S cfl (gloCtx S t dt).t0 dt = _ from h] at h1
    simp only [Option.some.injEq, Prod.mk.injEq] at h1
    rw [h1.1, h1.2, h3]
end

/-- **C60.** Two processes, whatever their coarsest level is (also if they have no patches) and
whatever their solver reports, perform the same exchanges and corrections in the same order. -/
theorem C60_collective (S : Setup) (lm : Nat) (hS : S.Ok) (hlm : S.globalMinlevel ≤ lm) (t dt : ℚ)
    (hdt : 0 < dt) (cfl cfl' : List Ev → ℚ) (log log' : List Ev) (mc mc' : ℚ)
    (h : advanceAllLevels S cfl t dt = some (log, mc))
    (h' : advanceAllLevels { S with localMinlevel := lm } cfl' t dt = some (log', mc')) :
    (log.filter fun e => match e with | .ghost .. => true | .sync .. => true | _ => false) =
    (log'.filter fun e => match e with | .ghost .. => true | .sync .. => true | _ => false) := by
  have hfilter : (fun e : Ev => match e with | .ghost .. => true | .sync .. => true | _ => false)
      = Ev.collective := by
    funext e; cases e <;> rfl
  rw [hfilter]
  have hS' : Setup.Ok { S with localMinlevel := lm } := ⟨hS.1, hS.2.1, hS.2.2.1, hlm⟩
  cases hsub : S.subcycle with
  | true =>
    obtain ⟨l1, m1, a1, _, _, _, a5⟩ := advance_ok (X := subCtx S t dt) (subCtx_full S hS hsub t dt hdt) cfl
    rw [show advanceAllLevels (subCtx S t dt).S cfl (subCtx S t dt).t0 dt = _ from h] at a1
    simp only [Option.some.injEq, Prod.mk.injEq] at a1
    obtain ⟨l2, m2, b1, _, _, _, b5⟩ := advance_ok (X := subCtx { S with localMinlevel := lm } t dt)
      (subCtx_full _ hS' hsub t dt hdt) cfl'
    rw [show advanceAllLevels (subCtx { S with localMinlevel := lm } t dt).S cfl'
      (subCtx { S with localMinlevel := lm } t dt).t0 dt = _ from h'] at b1
    simp only [Option.some.injEq, Prod.mk.injEq] at b1
    rw [a1.1, b1.1, a5, b5]
    rfl
  | false =>
    obtain ⟨l1, m1, a1, _, _, _, a5⟩ := advance_ok (X := gloCtx S t dt) (gloCtx_full S hS hsub t dt hdt) cfl
    rw [show advanceAllLevels (gloCtx S t dt).S cfl (gloCtx S t dt).t0 dt = _ from h] at a1
    simp only [Option.some.injEq, Prod.mk.injEq] at a1
    obtain ⟨l2, m2, b1, _, _, _, b5⟩ := advance_ok (X := gloCtx { S with localMinlevel := lm } t dt)
      (gloCtx_full _ hS' hsub t dt hdt) cfl'
    rw [show advanceAllLevels (gloCtx { S with localMinlevel := lm } t dt).S cfl'
      (gloCtx { S with localMinlevel := lm } t dt).t0 dt = _ from h'] at b1
    simp only [Option.some.injEq, Prod.mk.injEq] at b1
    rw [a1.1, b1.1, a5, b5]
    rfl

/-! ### Example: levels 1 to 3, minimum level 1 -/

def exS : Setup := ⟨true, false, true, 1, 4, 1, 3, 1⟩

example : exS.Ok := by unfold Setup.Ok; decide

example : (advanceAllLevels exS (fun log => log.length) 0 4).map Prod.fst = some
    [.update 3 0 1 0, .update 2 0 2 1, .update 1 0 4 2, .interp 1 (1 / 2), .interp 2 (1 / 2),
     .ghost 3 3 1 true, .sync 3 3, .update 3 1 1 7, .ghost 2 3 2 true, .sync 2 3,
     .update 3 2 1 10, .update 2 2 2 11, .interp 2 (1 / 2), .ghost 3 3 3 true, .sync 3 3,
     .update 3 3 1 15, .ghost 1 3 4 false, .sync 1 3] := by decide +kernel

example : (advanceAllLevels exS (fun log => log.length) 0 4).map Prod.snd = some 15 := by decide +kernel

/-- The same on a process without patches of level 1 and 2. -/
example : (advanceAllLevels { exS with localMinlevel := 3 } (fun _ => 0) 0 4).map Prod.fst = some
    [.update 3 0 1 0, .ghost 3 3 1 true, .sync 3 3, .update 3 1 1 0, .ghost 2 3 2 true, .sync 2 3,
     .update 3 2 1 0, .ghost 3 3 3 true, .sync 3 3, .update 3 3 1 0, .ghost 1 3 4 false, .sync 1 3] := by
  decide +kernel

end Fclaw.Advance
