import Verif.Parallel.Schedule
/-
What the schedule guarantees about the data of a level (for C72): its ghost cells have been filled since its last
step whenever it takes the next one, and time interpolated data is there and up to date whenever it is used.
-/
set_option autoImplicit false
set_option linter.unusedSimpArgs false
set_option linter.unusedVariables false
namespace Fclaw.Parallel

open Advance

/-- `fresh`: the ghost cells of the level belong to its present solution; `stepped`: the level has been advanced, so
that there is a solution before the last step; `interped`: the time interpolated data belongs to the last step. -/
structure Track where
  fresh : Bool
  stepped : Bool
  interped : Bool

def Track.step (l : Nat) (k : Track) : Ev → Track
  | .update l' _ _ _ => if l' = l then ⟨false, true, false⟩ else k
  | .interp l' _ => if l' = l then { k with interped := k.stepped } else k
  | .ghost lo _ _ _ => { k with fresh := decide (lo ≤ l) }
  | .sync _ _ => k

def trackFrom (l : Nat) (k : Track) (log : List Ev) : Track := log.foldl (Track.step l) k

abbrev start : Track := ⟨true, false, false⟩

def trackOf (l : Nat) (log : List Ev) : Track := trackFrom l start log

theorem trackOf_snoc (l : Nat) (log : List Ev) (e : Ev) : trackOf l (log ++ [e]) = (trackOf l log).step l e := by
  simp [trackOf, trackFrom]

theorem track_data (t : ℚ) (l : Nat) (log : List Ev) :
    ((trackOf l log).stepped = false → (dataOf t l log).prev = (dataOf t l log).cur) ∧
    ((trackOf l log).stepped = true → (dataOf t l log).interp ≠ none → (trackOf l log).interped = true) := by
  induction log using List.reverseRecOn with
  | nil => exact ⟨fun _ => rfl, fun h => absurd (show false = true from h) (by decide)⟩
  | append_singleton log e ih =>
    rw [trackOf_snoc, dataOf_snoc]
    obtain ⟨a, b⟩ := ih
    cases e with
    | update l' s h c =>
      by_cases hl : l' = l
      · simp [Track.step, Data.step, hl]
      · simpa only [Track.step, Data.step, if_neg hl] using ⟨a, b⟩
    | interp l' al =>
      by_cases hl : l' = l
      · simpa [Track.step, Data.step, hl] using a
      · simpa only [Track.step, Data.step, if_neg hl] using ⟨a, b⟩
    | ghost lo hi s ti => exact ⟨a, b⟩
    | sync lo hi => exact ⟨a, b⟩

/-- What is needed of each event. -/
def TrackOk (S : Setup) (pre : List Ev) : Ev → Prop
  | .update l _ _ _ => (trackOf l pre).fresh = true
  | .interp _ _ => True
  | .ghost lo hi _ ti => hi = S.globalMaxlevel ∧ (ti = false → lo = S.globalMinlevel) ∧
      (ti = true → 0 < lo ∧ lo ≤ hi ∧
        (S.localMinlevel ≤ lo - 1 → (trackOf (lo - 1) pre).stepped = true ∧ (trackOf (lo - 1) pre).interped = true))
  | .sync lo hi => True

def UpdOk (pre : List Ev) : Ev → Prop
  | .update l _ _ _ => (trackOf l pre).fresh = true
  | _ => True

theorem advanceLevel_fresh {S : Setup} {cfl : List Ev → ℚ} : ∀ {l k : Nat} {mc mc' : ℚ} {s s' : St},
    advanceLevel S cfl l k mc s = some (s', mc') → Always UpdOk s.log → (trackOf l s.log).fresh = true →
    (∀ l' c, S.localMinlevel ≤ l' → l' < l → s.ts l' = some c → c.lastStep = k → (trackOf l' s.log).fresh = true) →
    Always UpdOk s'.log := by
  intro l
  have step : ∀ {l : Nat} {mc mc' : ℚ} {s s' : St}, stepLevel cfl l mc s = some (s', mc') → Always UpdOk s.log →
      (trackOf l s.log).fresh = true → Always UpdOk s'.log := by
    intro l mc mc' s s' h h1 h2
    obtain ⟨c, a1, a2, a3⟩ := stepLevel_some h
    rw [a3]
    exact always_snoc _ _ _ h1 h2
  induction l with
  | zero => intro k mc mc' s s' h h1 h2 _; exact step h h1 h2
  | succ l ih =>
    intro k mc mc' s s' h h1 h2 h3
    obtain ⟨s1, m1, e1, h⟩ := advanceLevel_some h
    have g1 := step e1 h1 h2
    rcases h with ⟨_, rfl⟩ | ⟨hlm, cc, hcc, ⟨_, rfl⟩ | ⟨hk, s2, m2, e2, h⟩⟩
    · exact g1
    · exact g1
    · obtain ⟨c, a1, a2, a3⟩ := stepLevel_some e1
      have tr : ∀ l', l' < l + 1 → trackOf l' s1.log = trackOf l' s.log := by
        intro l' hl'
        rw [a3, trackOf_snoc]
        simp only [Track.step]
        rw [if_neg (by omega)]
      have ts : ∀ l', l' < l + 1 → s1.ts l' = s.ts l' := by
        intro l' hl'
        rw [a2]
        unfold setLevel
        rw [if_neg (by omega)]
      have g2 := ih e2 g1 (by
        rw [tr l (by omega)]
        exact h3 l cc (by omega) (by omega) (by rw [← ts l (by omega)]; exact hcc) hk)
        (fun l' c hl' hlt hc hck => by
          rw [tr l' (by omega)]
          exact h3 l' c hl' (by omega) (by rw [← ts l' (by omega)]; exact hc) hck)
      rcases h with ⟨_, rfl⟩ | ⟨_, al, _, rfl⟩
      · exact g2
      · exact always_snoc _ _ _ g2 trivial

theorem intermediate_fresh {X : Ctx} {init : Counters} (hX : X.Full init) {k : Nat} {s s' : St} (hI : Inv X init k s)
    (hk0 : 0 < k) (hkt : k < X.tot X.S.globalMaxlevel) {c : Counter} (hc : Base X k X.S.globalMaxlevel s c)
    (h : intermediate X.S s c = some s') (hU : Always UpdOk s.log) :
    Always UpdOk s'.log ∧ ∀ l, X.Act l → X.inc l ∣ k → (trackOf l s'.log).fresh = true := by
  have hlev := hX.lev
  unfold Setup.Ok at hlev
  have tail : ∀ (lo hi : Nat) (t : ℚ) (b : Bool),
      s' = ⟨s.ts, s.log ++ [.ghost lo hi t b] ++ (if X.S.timeSync then [.sync lo hi] else [])⟩ →
      (∀ l, X.Act l → X.inc l ∣ k → lo ≤ l) →
      Always UpdOk s'.log ∧ ∀ l, X.Act l → X.inc l ∣ k → (trackOf l s'.log).fresh = true := by
    rintro lo hi t b rfl hlo
    have g1 : Always UpdOk (s.log ++ [.ghost lo hi t b]) := always_snoc _ _ _ hU trivial
    dsimp only
    cases X.S.timeSync with
    | false =>
      simp only [Bool.false_eq_true, if_false, List.append_nil]
      refine ⟨g1, fun l ha hd => ?_⟩
      rw [trackOf_snoc]
      simp [Track.step, hlo l ha hd]
    | true =>
      simp only [if_true]
      refine ⟨always_snoc _ _ _ g1 trivial, fun l ha hd => ?_⟩
      rw [trackOf_snoc, trackOf_snoc]
      simp [Track.step, hlo l ha hd]
  unfold intermediate at h
  cases hsub : X.S.subcycle with
  | true =>
    rw [if_pos hsub] at h
    obtain ⟨hinc, htot⟩ := hX.sub hsub
    have hMm : X.S.minlevel < X.S.globalMaxlevel := by
      rcases Nat.lt_or_ge X.S.minlevel X.S.globalMaxlevel with h' | h'
      · exact h'
      · rw [htot, Nat.sub_eq_zero_of_le h'] at hkt
        simp at hkt; omega
    have hnd : ¬ 2 ^ (X.S.globalMaxlevel - X.S.minlevel) ∣ k := by
      intro hd
      have := Nat.le_of_dvd hk0 hd
      omega
    obtain ⟨r, e1, e2, e3, e4, e5⟩ := timeinterpLevel_ok init X.S.minlevel X.S.globalMaxlevel k
      (fun l a b => (hinc l a (by omega)).2) hnd (X.S.globalMaxlevel - 1) (by omega) (by omega)
      (by rw [show X.S.globalMaxlevel - (X.S.globalMaxlevel - 1 + 1) = 0 by omega]; simp)
    obtain ⟨c', hc', hlast, htime⟩ := finest_at hX.toOk k s (hI.base _ (act_max X))
    have hcc : c' = c := by
      have := hc'.get; rw [hc.get] at this; exact (Option.some.inj this).symm
    subst hcc
    cases hM : X.S.globalMaxlevel with
    | zero => omega
    | succ M' =>
      rw [hM] at h e1
      dsimp only at h
      rw [Nat.add_sub_cancel] at e1
      rw [hlast, timeinterpLevel_congr _ _ hI.inc, e1] at h
      simp only [Option.some.injEq] at h
      refine tail _ _ _ _ h.symm ?_
      intro l ha hd
      rcases Nat.lt_or_ge l (r + 1) with hlt | hge
      · exfalso
        apply e5
        have h1 := (hinc l (by rcases ha.2 with h' | h' <;> omega) ha.1).1
        rw [h1] at hd
        exact Nat.dvd_trans (Nat.pow_dvd_pow 2 (by omega)) hd
      · exact hge
  | false =>
    rw [if_neg (by rw [hsub]; simp)] at h
    simp only [Option.some.injEq] at h
    refine tail _ _ _ _ h.symm ?_
    intro l ha hd
    rcases ha.2 with h' | h' <;> omega

theorem fineLoop_fresh {X : Ctx} {init : Counters} (hX : X.Full init) (cfl : List Ev → ℚ) :
    ∀ (n k : Nat) (s s' : St) (mc' : ℚ), k + n = X.tot X.S.globalMaxlevel → Inv X init k s →
    fineLoop X.S cfl n k (maxCfl s.log) s = some (s', mc') → Always UpdOk s.log →
    (0 < n → ∀ l, X.Act l → X.inc l ∣ k → (trackOf l s.log).fresh = true) →
    Always UpdOk s'.log
  | 0, k, s, s', mc', hn, hI, h, hU, hF => by
    simp only [fineLoop, Option.some.injEq, Prod.mk.injEq] at h
    rw [← h.1]; exact hU
  | n + 1, k, s, s', mc', hn, hI, h, hU, hF => by
    obtain ⟨s1, mc1, a1, a2, a3, a4, a5, a6, a7, a8⟩ := advanceLevel_ok hX.toOk cfl k
      X.S.globalMaxlevel (act_max X) (by rw [hX.one]; exact Nat.one_dvd k) (maxCfl s.log) s
      (fun l ha _ => hI.base l ha) (fun l ha hlt => hI.int l ha hlt) hI.ok rfl
    have hinv1 : Inv X init (k + 1) s1 :=
      ⟨fun l ha => a2 l ha ha.1, fun l ha hlt => a4 l ha hlt,
       (incOf_advanceLevel X.S cfl _ _ _ _ _ _ a1).trans hI.inc, a6⟩
    have hU1 : Always UpdOk s1.log := by
      refine advanceLevel_fresh a1 hU (hF (by omega) _ (act_max X) (by rw [hX.one]; exact Nat.one_dvd k)) ?_
      intro l' c hl' hlt hc hck
      have ha : X.Act l' := ⟨by omega, Or.inl hl'⟩
      obtain ⟨c', hc'⟩ := hI.base l' ha
      have : c' = c := by
        have := hc'.get; rw [hc] at this; exact (Option.some.inj this).symm
      subst this
      exact hF (by omega) l' ha (hck ▸ hc'.dvd)
    have hgrow : maxCfl s.log ≤ maxCfl s1.log := by
      have mono : ∀ (l k : Nat) (m m' : ℚ) (s s' : St), advanceLevel X.S cfl l k m s = some (s', m') →
          maxCfl s.log ≤ maxCfl s'.log := by
        have st : ∀ (l : Nat) (m m' : ℚ) (s s' : St), stepLevel cfl l m s = some (s', m') → maxCfl s.log ≤ maxCfl s'.log := by
          intro l m m' s s' h
          obtain ⟨c, _, _, b3⟩ := stepLevel_some h
          rw [b3, maxCfl_snoc]; exact le_max_left _ _
        intro l
        induction l with
        | zero => intro k m m' s s' h; exact st 0 m m' s s' h
        | succ l ih =>
          intro k m m' s s' h
          obtain ⟨s1, m1, e1, h⟩ := advanceLevel_some h
          have g1 := st _ _ _ _ _ e1
          rcases h with ⟨_, rfl⟩ | ⟨hlm, cc, hcc, ⟨_, rfl⟩ | ⟨hk, s2, m2, e2, h⟩⟩
          · exact g1
          · exact g1
          · have g2 := ih _ _ _ _ _ e2
            rcases h with ⟨_, rfl⟩ | ⟨_, al, _, rfl⟩
            · exact le_trans g1 g2
            · rw [maxCfl_snoc]; exact le_trans (le_trans g1 g2) (le_max_left _ _)
      exact mono _ _ _ _ _ _ a1
    unfold fineLoop at h
    rw [a1] at h
    dsimp only at h
    rw [a7, max_eq_left hgrow] at h
    obtain ⟨c, hc, hlast, htime⟩ := finest_at hX.toOk (k + 1) s1 (hinv1.base _ (act_max X))
    rw [hc.get] at h
    dsimp only at h
    rw [hlast, hc.tot] at h
    by_cases hlt : k + 1 < X.tot X.S.globalMaxlevel
    · rw [if_pos hlt] at h
      obtain ⟨s2, b1, b2, b3, b4⟩ := intermediate_ok hX (k + 1) s1 hinv1 (by omega) hlt c hc
      rw [b1] at h
      dsimp only at h
      obtain ⟨f1, f2⟩ := intermediate_fresh hX hinv1 (by omega) hlt hc b1 hU1
      rw [← b3] at h
      exact fineLoop_fresh hX cfl n (k + 1) s2 s' mc' (by omega) b2 h f1 (fun _ => f2)
    · rw [if_neg hlt] at h
      exact fineLoop_fresh hX cfl n (k + 1) s1 s' mc' (by omega) hinv1 h hU1 (fun h0 => by omega)

theorem advance_fresh {X : Ctx} {dt : ℚ} (hX : X.Full (initCounters X.S X.t0 dt)) (cfl : List Ev → ℚ) {log : List Ev} {mc : ℚ}
    (h : advanceAllLevels X.S cfl X.t0 dt = some (log, mc)) : Always (TrackOk X.S) log := by
  obtain ⟨log', mc', h1, h2, _⟩ := advance_ok hX cfl
  rw [h] at h1
  simp only [Option.some.injEq, Prod.mk.injEq] at h1
  rw [← h1.1] at h2
  have hU : Always UpdOk log := by
    have hinv0 : Inv X (initCounters X.S X.t0 dt) 0 ⟨initCounters X.S X.t0 dt, []⟩ := by
      refine ⟨?_, ?_, rfl, always_nil _⟩
      · intro l ha
        have hp := X.inc_pos hX.toOk l ha
        refine ⟨_, ⟨hX.init0 l ha, rfl, rfl, rfl, by simp, by simp, by simpa using hp, by simp,
          by simp [dataOf], by simp [dataOf], by simp⟩⟩
      · intro l ha hlt hs c hc hpos
        dsimp only at hc
        rw [hX.init0 l ha] at hc
        obtain rfl := Option.some.inj hc
        simp at hpos
    obtain ⟨c0, s, m, c, e1, e2, e3, rfl⟩ := advanceAll_some h
    have e0 := hX.init0 _ (act_max X)
    rw [e0] at e1
    obtain rfl := Option.some.inj e1
    have g := fineLoop_fresh hX cfl _ 0 _ s m (by simp) hinv0 e2 (always_nil _) (fun _ l _ _ => rfl)
    cases X.S.timeSync with
    | false =>
      simp only [Bool.false_eq_true, if_false, List.append_nil]
      exact always_snoc _ _ _ g trivial
    | true => exact always_snoc _ _ _ (always_snoc _ _ _ g trivial) trivial
  intro pre ev post hlog
  have a := h2 pre ev post hlog
  have b := hU pre ev post hlog
  cases ev with
  | update l t h c => exact b
  | interp l al => trivial
  | ghost lo hi t ti =>
    obtain ⟨g1, g2, g3, g4⟩ := a
    refine ⟨g1, g4, fun hti => ?_⟩
    obtain ⟨e1, e2, e3⟩ := g3 hti
    refine ⟨e1, e2, fun hl => ?_⟩
    obtain ⟨i1, i2, i3⟩ := e3 hl
    obtain ⟨d1, d2⟩ := track_data X.t0 (lo - 1) pre
    have hs : (trackOf (lo - 1) pre).stepped = true := by
      cases hs : (trackOf (lo - 1) pre).stepped with
      | true => rfl
      | false =>
        have := d1 hs
        rw [this] at i2
        exact absurd (lt_trans i2 i3) (lt_irrefl _)
    exact ⟨hs, d2 hs (by rw [i1]; simp)⟩
  | sync lo hi => trivial

/-- Every event of the schedule finds what it needs. -/
theorem fresh (S : Setup) (hS : S.Ok) (t dt : ℚ) (hdt : 0 < dt) (cfl : List Ev → ℚ) (log : List Ev) (mc : ℚ)
    (h : advanceAllLevels S cfl t dt = some (log, mc)) : Always (TrackOk S) log := by
  cases hsub : S.subcycle with
  | true => exact advance_fresh (X := subCtx S t dt) (subCtx_full S hS hsub t dt hdt) cfl h
  | false => exact advance_fresh (X := gloCtx S t dt) (gloCtx_full S hS hsub t dt hdt) cfl h

end Fclaw.Parallel
