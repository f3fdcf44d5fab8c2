import Verif.Parallel.Det
import Verif.Parallel.Cfl
/-
Helpers for C72: processes can always carry out their schedules.
-/
set_option autoImplicit false
set_option linter.unusedSimpArgs false
set_option linter.unusedVariables false
namespace Fclaw.Parallel

open Fort Transform GhostFill CopyGhost Advance

variable {B : Problem} {M : Mesh} {S : Advance.Setup} {P : Nat}

theorem isMax_exists (l : List Nat) (pr : Nat → Prop) (f : Nat → ℚ) : ∃ c, Wave.IsMax (fun v => ∃ x ∈ l, pr x ∧ v = f x) c := by
  induction l with
  | nil => exact ⟨0, le_refl _, by simp, Or.inl rfl⟩
  | cons a l ih =>
    obtain ⟨c, c0, c1, c2⟩ := ih
    by_cases ha : pr a ∧ c < f a
    · refine ⟨f a, le_trans c0 ha.2.le, ?_, Or.inr ⟨a, by simp, ha.1, rfl⟩⟩
      rintro v ⟨x, hx, hp, rfl⟩
      rcases List.mem_cons.1 hx with rfl | hx
      · exact le_refl _
      · exact le_trans (c1 _ ⟨x, hx, hp, rfl⟩) ha.2.le
    · refine ⟨c, c0, ?_, ?_⟩
      · rintro v ⟨x, hx, hp, rfl⟩
        rcases List.mem_cons.1 hx with rfl | hx
        · exact not_lt.1 fun h => ha ⟨hp, h⟩
        · exact c1 _ ⟨x, hx, hp, rfl⟩
      · rcases c2 with c2 | ⟨x, hx, h⟩
        · exact Or.inl c2
        · exact Or.inr ⟨x, List.mem_cons_of_mem _ hx, h⟩

section
variable (G : Good B M S)
include G

open Classical in
theorem local_exists (p : Nat) (e : Ev) (he : isLocal e = true) (s : Proc) : ∃ e' s', bare e' = bare e ∧ Local B M p e' s s' := by
  cases e with
  | update l t dt c =>
    let m : Nat → Wave.Mem := fun x => fun
      | .q i j k => s.g x false (i, j, k)
      | .aux i j k => B.aux x t dt i j k
      | _ => 0
    have hN : ∀ x, ∃ N, x ∈ M.patches →
        Wave.step2Wrap B.z B.o (Wave.fluxOf B.z B.o (B.R x) B.fw) (B.count x) (B.dx x) (B.dy x) dt (m x) = some N := by
      intro x
      by_cases hx : x ∈ M.patches
      · obtain ⟨_, N, _, h, _⟩ := Wave.full (B.R x) B.fw (B.count x) dt (m x) (ready G hx (t := t) (dt := dt) fun _ _ _ => rfl)
        exact ⟨N, fun _ => h⟩
      · exact ⟨m x, fun h => absurd h hx⟩
    choose N hN using hN
    obtain ⟨c', hc'⟩ := isMax_exists M.patches (fun x => Mine M p l x) (fun x => N x .cflgrid)
    let s' : Proc := ⟨fun x tt => if Mine M p l x ∧ tt = false then (fun q => N x (.q q.1 q.2.1 q.2.2)) else s.g x tt,
      fun x => if Mine M p l x then s.g x false else s.last x,
      fun x => if Mine M p l x then max (s.cfl x) (N x .cflgrid) else s.cfl x⟩
    refine ⟨.update l t dt c', s', rfl, ⟨fun x => N x .cflgrid, ?_, ?_⟩, ?_⟩
    · intro x hx
      refine ⟨m x, N x, fun _ _ _ => rfl, fun _ _ _ => rfl, hN x hx.1, ?_, ?_, ?_, rfl, ?_⟩
      · intro i j k; simp only [s', hx, true_and, if_true]
      · simp [s', hx]
      · simp only [s', hx, if_true]
      · simp only [s', hx, if_true]
    · obtain ⟨c0, c1, c2⟩ := hc'
      refine ⟨c0, ?_, ?_⟩
      · rintro v ⟨x, hx, rfl⟩; exact c1 _ ⟨x, hx.1, hx, rfl⟩
      · rcases c2 with c2 | ⟨x, _, hx, h⟩
        · exact Or.inl c2
        · exact Or.inr ⟨x, hx, h⟩
    · intro x hx
      refine ⟨?_, ?_, ?_⟩
      · funext tt; simp only [s', hx, false_and, if_false]
      · simp only [s', hx, if_false]
      · simp only [s', hx, if_false]
  | interp l α =>
    obtain ⟨r0, r1, r2, r3, r4⟩ := G.room
    have hq : ∀ x, ∃ q ie, TimeInterp.setupTimeinterp B.d B.width (s.g x false) (s.last x) α (s.g x true) = some (q, ie) := by
      intro x
      obtain ⟨q, ie, h, _⟩ := (TimeInterp.C42 B.d r0 r1 r2 B.width r3 r4 (s.g x false) (s.last x) α (s.g x true)).2
      exact ⟨q, ie, h⟩
    choose q ie hq using hq
    let s' : Proc := ⟨fun x tt => if (Mine M p l x ∧ hasFine M x) ∧ tt = true then q x else s.g x tt, s.last, s.cfl⟩
    refine ⟨.interp l α, s', rfl, ?_, ?_⟩
    · intro x hx hf
      refine ⟨q x, ie x, hq x, ?_, ?_, rfl, rfl⟩
      · simp [s', hx, hf]
      · simp [s']
    · intro x hx
      refine ⟨?_, rfl, rfl⟩
      funext tt; simp only [s', hx, false_and, if_false]
  | ghost lo hi t ti => cases he
  | sync lo hi => cases he

theorem together_exists {lo hi : Nat} (hle : lo ≤ hi) (htop : ∀ x ∈ M.patches, M.level x ≤ (hi : Int)) (t : ℚ) (ti : Bool)
    (w : Nat → Proc) : ∃ w', Together B M P (.ghost lo hi t ti) w w' := by
  have hf : ∀ p, ∃ fin, GhostAll.Update B.d M B.S (fun q => q) lo hi ti p (fun q => (w q).g) fin := fun p =>
    (GhostAll.update_agree B.d G.sizes M G.mesh B.S G.fits (fun q => q) (fun _ _ _ _ _ _ => rfl) lo hi
      (by exact_mod_cast hle) htop ti p (fun q => (w q).g)).1
  choose fin hf using hf
  exact ⟨fun p => ⟨fin p, (w p).last, (w p).cfl⟩, fun p _ => ⟨⟨fun q => q, fun _ _ _ _ _ _ => rfl, hf p⟩, rfl, rfl⟩⟩

/-- A process does what it can do by itself. -/
theorem locals_exist (p : Nat) (hp : p < P) (T : List Ev) (hb : ∀ e ∈ T, bare e = e) (hl : ∀ e ∈ T, isLocal e = true) :
    ∀ w : Nat → Proc, ∃ L s, L.map bare = T ∧
      ∀ logs w', Exec B M P logs (upd w p s) w' → Exec B M P (upd logs p (L ++ logs p)) w w' := by
  induction T with
  | nil =>
    intro w
    refine ⟨[], w p, rfl, fun logs w' h => ?_⟩
    have e1 : upd w p (w p) = w := by
      funext q
      by_cases hq : q = p
      · rw [hq, upd_same]
      · rw [upd_ne _ _ hq]
    have e2 : upd logs p ([] ++ logs p) = logs := by
      funext q
      by_cases hq : q = p
      · rw [hq, upd_same, List.nil_append]
      · rw [upd_ne _ _ hq]
    rw [e1] at h
    rw [e2]; exact h
  | cons e T ih =>
    intro w
    obtain ⟨e', s, hb', hs⟩ := local_exists G p e (hl e (by simp)) (w p)
    obtain ⟨L, s', hL, h⟩ := ih (fun e he => hb e (List.mem_cons_of_mem _ he)) (fun e he => hl e (List.mem_cons_of_mem _ he)) (upd w p s)
    refine ⟨e' :: L, s', by rw [List.map_cons, hL, hb', hb e (by simp)], fun logs w' hx => ?_⟩
    have e1 : upd (upd w p s) p s' = upd w p s' := by
      funext q
      by_cases hq : q = p
      · rw [hq, upd_same, upd_same]
      · rw [upd_ne _ _ hq, upd_ne _ _ hq, upd_ne _ _ hq]
    have := h logs w' (by rw [e1]; exact hx)
    refine .one _ _ _ p e' (L ++ logs p) s hp (by rw [upd_same]; rfl) hs ?_
    have e2 : upd (upd logs p (e' :: L ++ logs p)) p (L ++ logs p) = upd logs p (L ++ logs p) := by
      funext q
      by_cases hq : q = p
      · rw [hq, upd_same, upd_same]
      · rw [upd_ne _ _ hq, upd_ne _ _ hq, upd_ne _ _ hq]
    rw [e2]; exact this

/-- All processes do what they can do by themselves. -/
theorem all_locals_exist (T : Nat → List Ev) (hb : ∀ p, p < P → ∀ e ∈ T p, bare e = e) (hl : ∀ p, p < P → ∀ e ∈ T p, isLocal e = true) :
    ∀ n, n ≤ P → ∀ w : Nat → Proc, ∃ (L : Nat → List Ev) (w1 : Nat → Proc), (∀ p, p < n → (L p).map bare = T p) ∧
      (∀ p, n ≤ p → L p = []) ∧
      ∀ logs w', Exec B M P logs w1 w' → Exec B M P (fun p => L p ++ logs p) w w' := by
  intro n
  induction n with
  | zero => intro _ w; exact ⟨fun _ => [], w, fun p hp => by omega, fun _ _ => rfl, fun logs w' h => h⟩
  | succ n ih =>
    intro hn w
    obtain ⟨L0, s, hL0, h0⟩ := locals_exist (P := P) G n (by omega) (T n) (hb n (by omega)) (hl n (by omega)) w
    obtain ⟨L, w1, hL, hL', h⟩ := ih (by omega) (upd w n s)
    refine ⟨upd L n L0, w1, ?_, ?_, ?_⟩
    · intro p hp
      by_cases hpn : p = n
      · rw [hpn, upd_same]; exact hL0
      · rw [upd_ne _ _ hpn]; exact hL p (by omega)
    · intro p hp
      have hne : p ≠ n := by omega
      rw [upd_ne _ _ hne]; exact hL' p (by omega)
    · intro logs w' hx
      have := h0 _ w' (h logs w' hx)
      have e : upd (fun p => L p ++ logs p) n (L0 ++ (L n ++ logs n)) = fun p => upd L n L0 p ++ logs p := by
        funext q
        by_cases hq : q = n
        · rw [hq, upd_same, upd_same, hL' n (le_refl _), List.nil_append]
        · rw [upd_ne _ _ hq, upd_ne _ _ hq]
      rw [← e]; exact this

/-- If the processes are to do the same things together, in the same order, then they can do everything. -/
theorem complete (C : List Ev) (hns : ∀ lo hi, Ev.sync lo hi ∉ C) (hfit : GhostsFit M C) :
    ∀ (T : Nat → List Ev), (∀ p, p < P → ∀ e ∈ T p, bare e = e) → (∀ p, p < P → (T p).filter (fun e => !isLocal e) = C) →
    ∀ w : Nat → Proc, ∃ logs w', Exec B M P logs w w' ∧ ∀ p, p < P → (logs p).map bare = T p := by
  induction C with
  | nil =>
    intro T hb hC w
    obtain ⟨L, w1, h1, h2, h3⟩ := all_locals_exist G T hb (fun p hp e he => by
      have := List.filter_eq_nil_iff.1 (hC p hp) e he
      simpa using this) P (le_refl _) w
    refine ⟨_, w1, h3 (fun _ => []) w1 (.done _ _ fun _ _ => rfl), fun p hp => ?_⟩
    rw [List.append_nil]; exact h1 p hp
  | cons c C ih =>
    intro T hb hC w
    have hc : isLocal c = false ∨ P = 0 := by
      rcases Nat.eq_zero_or_pos P with h | h
      · exact Or.inr h
      · have : c ∈ (T 0).filter (fun e => !isLocal e) := by rw [hC 0 h]; simp
        rw [List.mem_filter] at this
        left; simpa using this.2
    rcases hc with hc | hc
    swap
    · exact ⟨fun _ => [], w, .done _ _ fun _ _ => rfl, fun p hp => by omega⟩
    have split : ∀ p, ∃ A R, p < P → T p = A ++ c :: R ∧ (∀ e ∈ A, isLocal e = true) ∧ R.filter (fun e => !isLocal e) = C := by
      intro p
      by_cases hp : p < P
      · have hm : c ∈ T p := by
          have : c ∈ (T p).filter (fun e => !isLocal e) := by rw [hC p hp]; simp
          exact List.mem_of_mem_filter this
        obtain ⟨A, x, R, h1, h2, h3⟩ := split_first isLocal (T p) ⟨c, hm, hc⟩
        have hf := hC p hp
        have hA : A.filter (fun e => !isLocal e) = [] := List.filter_eq_nil_iff.2 fun e he => by simp [h2 e he]
        rw [h1, List.filter_append, hA, List.nil_append, List.filter_cons, if_pos (by simp [h3])] at hf
        injection hf with f1 f2
        subst f1
        exact ⟨A, R, fun _ => ⟨h1, h2, f2⟩⟩
      · exact ⟨[], [], fun h => absurd h hp⟩
    choose A R hAR using split
    have hbA : ∀ p, p < P → ∀ e ∈ A p, bare e = e := fun p hp e he => hb p hp e (by rw [(hAR p hp).1]; simp [he])
    have hbR : ∀ p, p < P → ∀ e ∈ R p, bare e = e := fun p hp e he => hb p hp e (by rw [(hAR p hp).1]; simp [he])
    obtain ⟨L, w1, h1, h2, h3⟩ := all_locals_exist G A hbA (fun p hp => (hAR p hp).2.1) P (le_refl _) w
    cases c with
    | update => cases hc
    | interp => cases hc
    | sync lo hi => exact absurd (by simp) (hns lo hi)
    | ghost lo hi t ti =>
      obtain ⟨hle, htop⟩ := hfit lo hi t ti (by simp)
      obtain ⟨w2, h4⟩ := together_exists (P := P) G hle htop t ti w1
      obtain ⟨logs, w', h5, h6⟩ := ih (fun lo hi h => hns lo hi (List.mem_cons_of_mem _ h))
        (fun lo hi t ti h => hfit lo hi t ti (List.mem_cons_of_mem _ h)) R hbR (fun p hp => (hAR p hp).2.2) w2
      refine ⟨_, w', h3 (fun p => .ghost lo hi t ti :: logs p) w' (.all _ logs _ w2 _ _ (fun _ _ => rfl) h4 h5), fun p hp => ?_⟩
      rw [List.map_append, List.map_cons, h1 p hp, h6 p hp, (hAR p hp).1]
      rfl

/-! ### The reference schedule -/

def refSetup (S : Advance.Setup) : Advance.Setup := { S with localMinlevel := S.globalMinlevel }

structure Ref (M : Mesh) (S : Advance.Setup) (t dt : ℚ) (L : List Ev) : Prop where
  filter : ∀ lm, S.globalMinlevel ≤ lm → ∀ cfl log mc, advanceAllLevels { S with localMinlevel := lm } cfl t dt = some (log, mc) →
    log.map bare = L.filter (keep lm S.globalMaxlevel)
  bare : ∀ e ∈ L, bare e = e
  track : Always (TrackOk (refSetup S)) L
  fit : GhostsFit M L
  nosync : ∀ lo hi, Ev.sync lo hi ∉ L
  ends : ∃ L' t, L = L' ++ [.ghost S.globalMinlevel S.globalMaxlevel t false]

theorem succeeds (lm : Nat) (hlm : S.globalMinlevel ≤ lm) (t dt : ℚ) (hdt : 0 < dt) (cfl : List Ev → ℚ) :
    ∃ log mc, advanceAllLevels { S with localMinlevel := lm } cfl t dt = some (log, mc) := by
  have hok : Setup.Ok { S with localMinlevel := lm } := ⟨G.options.1, G.options.2.1, G.options.2.2, hlm⟩
  rcases Bool.eq_false_or_eq_true S.subcycle with hsub | hsub
  · obtain ⟨log, mc, h, _⟩ := C24_subcycle _ hok t dt hdt cfl hsub
    exact ⟨log, mc, h⟩
  · obtain ⟨log, mc, h, _⟩ := C27_lockstep _ hok t dt hdt cfl hsub
    exact ⟨log, mc, h⟩

theorem ref_exists (t dt : ℚ) (hdt : 0 < dt) : ∃ L, Ref M S t dt L := by
  obtain ⟨L, mc, h⟩ := succeeds G S.globalMinlevel (le_refl _) t dt hdt (fun _ => 0)
  have hok : (refSetup S).Ok := ⟨G.options.1, G.options.2.1, G.options.2.2, le_refl _⟩
  have hb : ∀ e ∈ L, bare e = e := by
    intro e he
    obtain ⟨a, b, hab⟩ := List.append_of_mem he
    have := advanceAll_cfl h a e b hab
    cases e with
    | update l t dt c => rw [this l t dt c rfl]; rfl
    | _ => rfl
  have hmap : L.map bare = L := by
    conv_rhs => rw [← List.map_id L]
    exact List.map_congr_left hb
  have htr : Always (TrackOk (refSetup S)) L := fresh (refSetup S) hok t dt hdt (fun _ => 0) L mc h
  refine ⟨L, ⟨?_, hb, htr, ?_, ?_, ?_⟩⟩
  · intro lm hlm cfl log mc' h'
    have := schedule (refSetup S) lm hlm t dt (fun _ => 0) cfl L log mc mc' h h'
    rw [hmap] at this
    exact this
  · intro lo hi t' ti he
    obtain ⟨a, b, hab⟩ := List.append_of_mem he
    obtain ⟨t1, t2, t3⟩ := htr a _ b hab
    have t1' : hi = S.globalMaxlevel := t1
    subst t1'
    refine ⟨?_, fun x hx => (G.levels x hx).2⟩
    cases ti with
    | false => have : lo = S.globalMinlevel := t2 rfl; rw [this]; exact G.options.2.1
    | true => exact (t3 rfl).2.1
  · exact advanceAll_nosync (S := { S with localMinlevel := S.globalMinlevel }) G.nosync h
  · obtain ⟨c0, s, m, c, _, _, _, e⟩ := advanceAll_some h
    refine ⟨s.log, c.currentTime, ?_⟩
    have hn : ({ S with localMinlevel := S.globalMinlevel } : Advance.Setup).timeSync = false := G.nosync
    rw [e, hn]
    simp

/-- A log with the same events is that of a schedule. -/
theorem log_exists {t dt : ℚ} (hdt : 0 < dt) {L : List Ev} (hL : Ref M S t dt L) (lm : Nat) (hlm : S.globalMinlevel ≤ lm)
    (log : List Ev) (h : log.map bare = L.filter (keep lm S.globalMaxlevel)) :
    ∃ cfl mc, advanceAllLevels { S with localMinlevel := lm } cfl t dt = some (log, mc) := by
  let cfl : List Ev → ℚ := fun pre => match log[pre.length]? with
    | some (.update _ _ _ c) => c
    | _ => 0
  obtain ⟨log', mc, h'⟩ := succeeds G lm hlm t dt hdt cfl
  have hb : log'.map bare = log.map bare := by rw [hL.filter lm hlm cfl log' mc h', h]
  have : log' = log := by
    have hlen : log'.length = log.length := by
      have := congrArg List.length hb
      simpa using this
    refine List.ext_getElem hlen fun n h1 h2 => ?_
    have hbn : bare log'[n] = bare log[n] := by
      have := congrArg (fun l : List Ev => l[n]?) hb
      simpa [h1, h2] using this
    have hc := advanceAll_cfl h' (log'.take n) log'[n] (log'.drop (n + 1)) (by
      rw [List.getElem_cons_drop, List.take_append_drop])
    cases e1 : log'[n] with
    | update l t dt c =>
      rw [e1] at hbn hc
      have hc := hc l t dt c rfl
      cases e2 : log[n] with
      | update l' t' dt' c' =>
        rw [e2] at hbn
        simp only [bare, Ev.update.injEq] at hbn
        have : cfl (log'.take n) = c' := by
          simp only [cfl]
          rw [List.length_take, min_eq_left h1.le, List.getElem?_eq_getElem h2, e2]
        rw [hc, this, hbn.1, hbn.2.1, hbn.2.2.1]
      | interp => rw [e2] at hbn; simp [bare] at hbn
      | ghost => rw [e2] at hbn; simp [bare] at hbn
      | sync => rw [e2] at hbn; simp [bare] at hbn
    | interp => rw [e1] at hbn; cases e2 : log[n] <;> rw [e2] at hbn <;> simp_all [bare]
    | ghost => rw [e1] at hbn; cases e2 : log[n] <;> rw [e2] at hbn <;> simp_all [bare]
    | sync => rw [e1] at hbn; cases e2 : log[n] <;> rw [e2] at hbn <;> simp_all [bare]
  rw [this] at h'
  exact ⟨cfl, mc, h'⟩

end

/-- What has been done and what is done then. -/
theorem reach_exec {done : Nat → List Ev} {w w1 : Nat → Proc} (h : Reach B M P done w w1) :
    ∀ {rest : Nat → List Ev} {w' : Nat → Proc}, Exec B M P rest w1 w' → Exec B M P (fun p => done p ++ rest p) w w' := by
  induction h with
  | start w => intro rest w' h; exact h
  | one done w w1 p e s hr hp hs ih =>
    intro rest w' h
    have := ih (.one (upd rest p (e :: rest p)) w1 w' p e (rest p) s hp (upd_same _ _ _) hs (by
      have : upd (upd rest p (e :: rest p)) p (rest p) = rest := by
        funext q
        by_cases hq : q = p
        · rw [hq, upd_same]
        · rw [upd_ne _ _ hq, upd_ne _ _ hq]
      rw [this]; exact h))
    have e2 : (fun q => upd done p (done p ++ [e]) q ++ rest q) = fun q => done q ++ upd rest p (e :: rest p) q := by
      funext q
      by_cases hq : q = p
      · rw [hq, upd_same, upd_same, List.append_assoc]; rfl
      · rw [upd_ne _ _ hq, upd_ne _ _ hq]
    rw [e2]; exact this
  | all done w w1 w2 e hr ht ih =>
    intro rest w' h
    have := ih (.all (fun p => e :: rest p) rest w1 w2 w' e (fun _ _ => rfl) ht h)
    have e2 : (fun p => (done p ++ [e]) ++ rest p) = fun p => done p ++ e :: rest p := by
      funext q; rw [List.append_assoc]; rfl
    rw [e2]; exact this

/-- All processes have done the same things together. -/
theorem reach_same {done : Nat → List Ev} {w w1 : Nat → Proc} (h : Reach B M P done w w1) (p q : Nat) :
    (done p).filter (fun e => !isLocal e) = (done q).filter (fun e => !isLocal e) := by
  induction h with
  | start w => rfl
  | one done w w1 r e s hr hp hs ih =>
    have he := local_isLocal hs
    have : ∀ p, (upd done r (done r ++ [e]) p).filter (fun e => !isLocal e) = (done p).filter (fun e => !isLocal e) := by
      intro p
      by_cases hq : p = r
      · rw [hq, upd_same, List.filter_append]; simp [he]
      · rw [upd_ne _ _ hq]
    rw [this, this]; exact ih
  | all done w w1 w2 e hr ht ih => rw [List.filter_append, List.filter_append, ih]

end Fclaw.Parallel
