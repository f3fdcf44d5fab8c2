/-
Lemmas about the collective execution of the file functions under failures.
-/
import Verif.ParFile.FaultSpec
import Mathlib.Tactic.ByContra

set_option autoImplicit false
set_option linter.unusedSimpArgs false

namespace Fclaw.ParFile.Fault

/-! ### Running processes -/

theorem run_coll {P f : Nat} {ps : Nat → Proc} {κ : Kind} {v : Nat → Nat} {k : Nat → Nat → Proc}
    (hP : 0 < P) (h : ∀ r, r < P → ps r = .coll κ (v r) (k r)) :
    run P (f + 1) ps = run P f (fun r => (ps r).resume (collValue P ps r)) := by
  have h1 : (List.range P).any (fun r => (ps r).isUb) = false := by
    rw [Bool.eq_false_iff]
    intro hc
    obtain ⟨r, hr, hc⟩ := List.any_eq_true.1 hc
    rw [h r (List.mem_range.1 hr)] at hc
    cases hc
  have h2 : (List.range P).all (fun r => (ps r).isDone) = false := by
    rw [Bool.eq_false_iff]
    intro hc
    have := List.all_eq_true.1 hc 0 (List.mem_range.2 hP)
    rw [h 0 hP] at this
    cases this
  have h3 : (List.range P).all (fun r => decide ((ps r).kind = (ps 0).kind)) = true := by
    rw [List.all_eq_true]
    intro r hr
    rw [h r (List.mem_range.1 hr), h 0 hP]
    exact decide_eq_true rfl
  simp only [run, h1, h2, h3, Bool.false_eq_true, if_false, if_true]

theorem run_congr {P : Nat} (hP : 0 < P) : ∀ {f : Nat} {ps qs : Nat → Proc},
    (∀ r, r < P → ps r = qs r) → run P f ps = run P f qs
  | 0, _, _, _ => rfl
  | f + 1, ps, qs, h => by
    have e1 : (List.range P).any (fun r => (ps r).isUb)
        = (List.range P).any (fun r => (qs r).isUb) := by
      rw [Bool.eq_iff_iff, List.any_eq_true, List.any_eq_true]
      constructor
      · rintro ⟨r, hr, hc⟩
        exact ⟨r, hr, by rw [← h r (List.mem_range.1 hr)]; exact hc⟩
      · rintro ⟨r, hr, hc⟩
        exact ⟨r, hr, by rw [h r (List.mem_range.1 hr)]; exact hc⟩
    have e2 : (List.range P).all (fun r => (ps r).isDone)
        = (List.range P).all (fun r => (qs r).isDone) := by
      rw [Bool.eq_iff_iff, List.all_eq_true, List.all_eq_true]
      constructor
      · intro hc r hr
        rw [← h r (List.mem_range.1 hr)]; exact hc r hr
      · intro hc r hr
        rw [h r (List.mem_range.1 hr)]; exact hc r hr
    have e3 : (List.range P).all (fun r => decide ((ps r).kind = (ps 0).kind))
        = (List.range P).all (fun r => decide ((qs r).kind = (qs 0).kind)) := by
      rw [Bool.eq_iff_iff, List.all_eq_true, List.all_eq_true]
      constructor
      · intro hc r hr
        rw [← h r (List.mem_range.1 hr), ← h 0 hP]; exact hc r hr
      · intro hc r hr
        rw [h r (List.mem_range.1 hr), h 0 hP]; exact hc r hr
    have e4 : (List.range P).map (fun r => (ps r).ret) = (List.range P).map (fun r => (qs r).ret) := by
      apply List.map_congr_left
      intro r hr
      rw [h r (List.mem_range.1 hr)]
    have e5 : run P f (fun r => (ps r).resume (collValue P ps r))
        = run P f (fun r => (qs r).resume (collValue P qs r)) := by
      apply run_congr hP
      intro r hr
      have ea : (List.range P).any (fun q => decide ((ps q).value ≠ 0))
          = (List.range P).any (fun q => decide ((qs q).value ≠ 0)) := by
        rw [Bool.eq_iff_iff, List.any_eq_true, List.any_eq_true]
        constructor
        · rintro ⟨r, hr, hc⟩
          exact ⟨r, hr, by rw [← h r (List.mem_range.1 hr)]; exact hc⟩
        · rintro ⟨r, hr, hc⟩
          exact ⟨r, hr, by rw [h r (List.mem_range.1 hr)]; exact hc⟩
      have : collValue P ps r = collValue P qs r := by
        unfold collValue
        rw [h 0 hP, h r hr, ea]
      rw [this, h r hr]
    simp only [run, e1, e2, e3, e4, e5]

theorem run_done {P f : Nat} {ps : Nat → Proc} {g : Nat → Ret}
    (h : ∀ r, r < P → ps r = .done (g r)) :
    run P (f + 1) ps = .returned ((List.range P).map g) := by
  have h1 : (List.range P).any (fun r => (ps r).isUb) = false := by
    rw [Bool.eq_false_iff]
    intro hc
    obtain ⟨r, hr, hc⟩ := List.any_eq_true.1 hc
    rw [h r (List.mem_range.1 hr)] at hc
    cases hc
  have h2 : (List.range P).all (fun r => (ps r).isDone) = true := by
    rw [List.all_eq_true]
    intro r hr
    rw [h r (List.mem_range.1 hr)]
    rfl
  have h3 : (List.range P).map (fun r => (ps r).ret) = (List.range P).map g := by
    apply List.map_congr_left
    intro r hr
    rw [h r (List.mem_range.1 hr)]
    rfl
  simp only [run, h1, h2, h3, Bool.false_eq_true, if_false, if_true]

theorem run_mixed {P f : Nat} {ps : Nat → Proc} (hu : ∀ r, r < P → (ps r).isUb = false)
    {r s : Nat} (hr : r < P) (hs : s < P) (h : (ps r).kind ≠ (ps s).kind) :
    run P (f + 1) ps = .waiting := by
  have h1 : (List.range P).any (fun r => (ps r).isUb) = false := by
    rw [Bool.eq_false_iff]
    intro hc
    obtain ⟨r, hr, hc⟩ := List.any_eq_true.1 hc
    rw [hu r (List.mem_range.1 hr)] at hc
    cases hc
  have hd : ∀ p : Proc, p.isDone = true → p.kind = none := by
    intro p hp
    cases p <;> first | rfl | cases hp
  have h2 : (List.range P).all (fun r => (ps r).isDone) = false := by
    rw [Bool.eq_false_iff]
    intro hc
    rw [List.all_eq_true] at hc
    exact h ((hd _ (hc r (List.mem_range.2 hr))).trans (hd _ (hc s (List.mem_range.2 hs))).symm)
  have h3 : (List.range P).all (fun r => decide ((ps r).kind = (ps 0).kind)) = false := by
    rw [Bool.eq_false_iff]
    intro hc
    rw [List.all_eq_true] at hc
    exact h ((of_decide_eq_true (hc r (List.mem_range.2 hr))).trans
      (of_decide_eq_true (hc s (List.mem_range.2 hs))).symm)
  simp only [run, h1, h2, h3, Bool.false_eq_true, if_false, if_true]

theorem run_ub {P f : Nat} {ps : Nat → Proc} {r : Nat} (hr : r < P) (h : ps r = .ub) :
    run P (f + 1) ps = .undefined := by
  have h1 : (List.range P).any (fun r => (ps r).isUb) = true :=
    List.any_eq_true.2 ⟨r, List.mem_range.2 hr, by rw [h]; rfl⟩
  simp only [run, h1, if_true]

theorem run_bcast {P f : Nat} {v : Nat → Nat} {k : Nat → Nat → Proc} (hP : 0 < P) :
    run P (f + 1) (fun r => .coll .bcast (v r) (k r)) = run P f (fun r => k r (v 0)) :=
  run_coll hP (fun _ _ => rfl)

theorem run_allreduce {P f : Nat} {v : Nat → Nat} {k : Nat → Nat → Proc} (hP : 0 < P) :
    run P (f + 1) (fun r => .coll .allreduce (v r) (k r))
      = run P f (fun r => k r
          (if (List.range P).any (fun q => decide (v q ≠ 0)) then 1 else 0)) :=
  run_coll hP (fun _ _ => rfl)

theorem run_local {P f : Nat} {κ : Kind} {v : Nat → Nat} {k : Nat → Nat → Proc} (hP : 0 < P)
    (h1 : κ ≠ .bcast) (h2 : κ ≠ .allreduce) :
    run P (f + 1) (fun r => .coll κ (v r) (k r)) = run P f (fun r => k r (v r)) := by
  rw [run_coll hP (fun _ _ => rfl)]
  cases κ <;> first | rfl | exact absurd rfl h1 | exact absurd rfl h2

theorem run_failWith {P f : Nat} {c : Nat → Nat} (hP : 0 < P) :
    run P (f + 2) (fun r => failWith (c r))
      = .returned ((List.range P).map fun r => { null := true, errcode := c r }) := by
  unfold failWith
  rw [run_local hP (by decide) (by decide)]
  exact run_done (fun _ _ => rfl)

/-! ### Codes -/

theorem isSuccess_zero (C : Codes) : C.isSuccess 0 = true := by simp [Codes.isSuccess]

theorem isSuccess_mpi {C : Codes} {e : Nat} (h0 : e ≠ 0) (h1 : e < C.last) :
    C.isSuccess e = false := by
  unfold Codes.isSuccess Codes.success
  exact decide_eq_false (by omega)

theorem translate_mpi {C : Codes} {e : Nat} (h0 : e ≠ 0) (h1 : e < C.last) :
    C.translate e = C.last + C.cls e := by
  unfold Codes.translate Codes.success Codes.lastV1
  rw [if_neg (by omega), if_neg h0]

theorem translate_cls {C : Codes} (hC : C.Ok) (e : Nat) :
    C.translate (C.last + C.cls e) = C.last + C.cls e := by
  unfold Codes.translate Codes.success Codes.lastV1
  rw [if_pos]
  have := hC.cls_lt e
  omega

theorem isSuccess_cls {C : Codes} (hC : C.Ok) (e : Nat) : C.isSuccess (C.last + C.cls e) = false := by
  unfold Codes.isSuccess Codes.success
  have := hC.cls_pos e
  have := hC.last_pos
  exact decide_eq_false (by omega)

theorem translate_translate {C : Codes} (hC : C.Ok) {e : Nat} (h0 : e ≠ 0) (h1 : e < C.last) :
    C.translate (C.translate e) = C.translate e := by
  rw [translate_mpi h0 h1, translate_cls hC]

/-! ### Parts of the functions -/

theorem run_firstPart_ok {P f : Nat} (C : Codes) (k : Nat → Proc) (hP : 0 < P) :
    run P (f + 2) (fun r => firstPart C r .ok (k r)) = run P f k := by
  have e : (fun r => firstPart C r .ok (k r))
      = fun r => handleMpiError C 0 (handleCountError C 0 (k r)) := by
    funext r
    unfold firstPart
    split <;> rfl
  rw [e]
  unfold handleMpiError
  rw [run_bcast hP]
  simp only [isSuccess_zero, if_true]
  unfold handleCountError
  rw [run_bcast hP]
  simp

theorem run_firstPart_mpi {P f : Nat} {C : Codes} (hC : C.Ok) (k : Nat → Proc) (hP : 0 < P)
    {e : Nat} (h0 : e ≠ 0) (h1 : e < C.last) :
    run P (f + 3) (fun r => firstPart C r (.mpi e) (k r))
      = .returned ((List.range P).map fun _ => { null := true, errcode := C.last + C.cls e }) := by
  have eq : (fun r => firstPart C r (.mpi e) (k r))
      = fun r => .coll .bcast (if r = 0 then C.translate e else 0) fun m =>
          if C.isSuccess m then handleCountError C 0 (k r) else failWith (C.translate m) := by
    funext r
    unfold firstPart handleMpiError
    split <;> rfl
  rw [eq, run_bcast hP]
  simp only [if_true, translate_mpi h0 h1, isSuccess_cls hC, Bool.false_eq_true, if_false,
    translate_cls hC]
  exact run_failWith hP

theorem run_firstPart_short {P f : Nat} {C : Codes} (hC : C.Ok) (k : Nat → Proc) (hP : 0 < P) :
    run P (f + 3) (fun r => firstPart C r .short (k r))
      = .returned ((List.range P).map fun r =>
          { null := true, errcode := if r = 0 then C.errCount else C.last + C.cls 1 }) := by
  have eq : (fun r => firstPart C r .short (k r))
      = fun r => .coll .bcast (if r = 0 then 1 else 0) fun m =>
          if r = 0 then (if m ≠ 0 then failWith C.errCount else k r)
          else if C.isSuccess m then handleCountError C 0 (k r) else failWith (C.translate m) := by
    funext r
    unfold firstPart handleMpiError handleCountError
    by_cases h : r = 0
    · simp only [h, if_true]
    · simp only [h, if_false]
  rw [eq, run_bcast hP]
  have h1 : (1 : Nat) ≠ 0 := by decide
  have h2 := hC.last_pos
  simp only [if_true, ne_eq, h1, not_false_eq_true, isSuccess_mpi h1 h2, Bool.false_eq_true,
    if_false, translate_mpi h1 h2]
  have e2 : (fun r => if r = 0 then failWith C.errCount else failWith (C.last + C.cls 1))
      = fun r => failWith (if r = 0 then C.errCount else C.last + C.cls 1) := by
    funext r
    split <;> rfl
  rw [e2]
  exact run_failWith hP

theorem firstPart_kind (C : Codes) (r : Nat) (x : IoRes) (k : Proc) :
    (firstPart C r x k).kind = some .bcast ∧ (firstPart C r x k).isUb = false := by
  unfold firstPart
  split
  · cases x <;> exact ⟨rfl, rfl⟩
  · exact ⟨rfl, rfl⟩

/-- Decisions of single processes after a collective call: if it failed on
some and not on all processes, the others wait. -/
theorem run_checkNull_mixed {P f : Nat} {C : Codes} {e : Nat → Nat} {k : Nat → Proc}
    (he : CodesOf C e) (hk : ∀ r, (k r).isUb = false ∧ (k r).kind ≠ some .close)
    {r s : Nat} (hr : r < P) (hs : s < P) (h0 : e r = 0) (h1 : e s ≠ 0) :
    run P (f + 1) (fun r => checkNull C (e r) (k r)) = .waiting := by
  refine run_mixed (r := r) (s := s) ?_ hr hs ?_
  · intro q _
    dsimp only [checkNull]
    split
    · exact (hk q).1
    · rfl
  · dsimp only [checkNull]
    rw [h0, isSuccess_zero, if_pos rfl, isSuccess_mpi h1 (he s), if_neg (by decide)]
    exact (hk r).2

theorem run_checkNull_fail {P f : Nat} {C : Codes} (hC : C.Ok) {e : Nat → Nat} {k : Nat → Proc}
    (he : CodesOf C e) (hP : 0 < P) (h : ∀ r, r < P → e r ≠ 0) :
    run P (f + 2) (fun r => checkNull C (e r) (k r))
      = .returned ((List.range P).map fun r => { null := true, errcode := C.translate (e r) }) := by
  have : run P (f + 2) (fun r => checkNull C (e r) (k r))
      = run P (f + 2) (fun r => failWith (C.translate (e r))) := by
    apply run_congr hP
    intro r hr
    dsimp only [checkNull]
    rw [isSuccess_mpi (h r hr) (he r), if_neg (by decide), translate_translate hC (h r hr) (he r)]
  rw [this, run_failWith hP]

theorem run_checkNull_ok {P f : Nat} {C : Codes} {e : Nat → Nat} {k : Nat → Proc}
    (hP : 0 < P) (h : ∀ r, r < P → e r = 0) :
    run P f (fun r => checkNull C (e r) (k r)) = run P f k := by
  apply run_congr hP
  intro r hr
  dsimp only [checkNull]
  rw [h r hr, isSuccess_zero, if_pos rfl]

/-- Process 0 jumps back while the others go on to something other than a
broadcast. -/
theorem run_laterPart_fail {P f : Nat} {C : Codes} {x : IoRes} {k : Nat → Proc} (hP : 1 < P)
    (hx : x ≠ .ok) (hk : ∀ r, r ≠ 0 → (k r).isUb = false ∧ (k r).kind ≠ some .bcast) :
    run P (f + 1) (fun r => laterPart C r x (k r)) = .waiting := by
  refine run_mixed (r := 0) (s := 1) ?_ (by omega) hP ?_
  · intro q _
    dsimp only [laterPart]
    split
    · cases x <;> first | exact absurd rfl hx | rfl
    · exact (hk q (by assumption)).1
  · dsimp only [laterPart]
    rw [if_pos rfl, if_neg (by decide)]
    have := (hk 1 (by decide)).2
    cases x <;> first | exact absurd rfl hx | exact fun h => this h.symm

theorem laterPart_ok (C : Codes) (r : Nat) (k : Proc) : laterPart C r .ok k = k := by
  unfold laterPart
  split <;> rfl

theorem laterPart_other (C : Codes) {r : Nat} (x : IoRes) (k : Proc) (h : r ≠ 0) :
    laterPart C r x k = k := by
  unfold laterPart
  rw [if_neg h]

theorem run_succeed {P f : Nat} (C : Codes) :
    run P (f + 1) (fun _ => succeed C)
      = .returned ((List.range P).map fun _ => { null := false, errcode := C.success }) :=
  run_done (fun _ _ => rfl)

/-! ### Consistency -/

theorem not_consistent_waiting {C : Codes} {p : Prop} {P : Nat} :
    ¬ Consistent C p P .waiting := by
  rintro ⟨_, h, _⟩
  cases h

theorem not_consistent_undefined {C : Codes} {p : Prop} {P : Nat} :
    ¬ Consistent C p P .undefined := by
  rintro ⟨_, h, _⟩
  cases h

theorem consistent_success {C : Codes} {p : Prop} {P : Nat} (h : ¬ p) :
    Consistent C p P
      (.returned ((List.range P).map fun _ => { null := false, errcode := C.success })) := by
  refine ⟨_, rfl, by simp, Or.inr ⟨h, ?_⟩⟩
  intro r hr
  obtain ⟨_, _, rfl⟩ := List.mem_map.1 hr
  rfl

theorem consistent_fail_iff {C : Codes} {p : Prop} {P : Nat} {c : Nat → Nat} (hP : 0 < P)
    (hp : p) (hc : ∀ r, r < P → c r ≠ C.success) :
    Consistent C p P (.returned ((List.range P).map fun r => { null := true, errcode := c r }))
      ↔ c 0 ≠ 0 ∧ ∀ r, r < P → c r = c 0 := by
  constructor
  · rintro ⟨rets, h, _, h3⟩
    cases h
    rcases h3 with ⟨_, code, hz, _, h4⟩ | ⟨hn, _⟩
    · have key : ∀ r, r < P → c r = code := by
        intro r hr
        have := h4 _ (List.mem_map.2 ⟨r, List.mem_range.2 hr, rfl⟩)
        exact congrArg Ret.errcode this
      refine ⟨by rw [key 0 hP]; exact hz, fun r hr => ?_⟩
      rw [key r hr, key 0 hP]
    · exact absurd hp hn
  · rintro ⟨hz, h⟩
    refine ⟨_, rfl, by simp, Or.inl ⟨hp, c 0, hz, hc 0 hP, ?_⟩⟩
    intro r hr
    obtain ⟨q, hq, rfl⟩ := List.mem_map.1 hr
    rw [h q (List.mem_range.1 hq)]

/-- The common beginning of the writing functions. -/
theorem start_iff {C : Codes} (hC : C.Ok) {P f : Nat} (hP : 1 < P) {e : Nat → Nat} {x : IoRes}
    {k : Nat → Proc} (he : CodesOf C e) (hx : x.Ok C) {p H : Prop}
    (hp : (∃ r, r < P ∧ e r ≠ 0) ∨ x ≠ .ok → p)
    (hrest : (∀ r, r < P → e r = 0) → x = .ok →
      (Consistent C p P (run P (f + 1) k) ↔ ¬ p ∨ H)) :
    Consistent C p P (run P (f + 3) (fun r => checkNull C (e r) (firstPart C r x (k r)))) ↔
      ¬ p ∨ AllFail C P e ∨ ((∀ r, r < P → e r = 0) ∧ ∃ c, x = .mpi c) ∨
        ((∀ r, r < P → e r = 0) ∧ x = .ok ∧ H) := by
  have hP0 : 0 < P := by omega
  by_cases hall : ∀ r, r < P → e r = 0
  · rw [run_checkNull_ok hP0 hall]
    have hnf : ¬ AllFail C P e := fun h => (h 0 hP0).1 (hall 0 hP0)
    rcases x with _ | c | _
    · rw [show f + 3 = f + 1 + 2 from rfl, run_firstPart_ok C _ hP0, hrest hall rfl]
      constructor
      · rintro (h | h)
        · exact Or.inl h
        · exact Or.inr (Or.inr (Or.inr ⟨hall, rfl, h⟩))
      · rintro (h | h | ⟨_, _, h⟩ | ⟨_, _, h⟩)
        · exact Or.inl h
        · exact absurd h hnf
        · cases h
        · exact Or.inr h
    · have hfail : p := hp (Or.inr fun h => by cases h)
      rw [run_firstPart_mpi hC _ hP0 (Nat.pos_iff_ne_zero.1 hx.1) hx.2]
      refine ⟨fun _ => Or.inr (Or.inr (Or.inl ⟨hall, c, rfl⟩)), fun _ => ?_⟩
      have h1 := hC.cls_pos c
      have h2 := hC.last_pos
      refine (consistent_fail_iff (c := fun _ => C.last + C.cls c) hP0 hfail ?_).2
        ⟨by omega, fun _ _ => rfl⟩
      intro r _
      simp only [Codes.success, ne_eq]; omega
    · have hfail : p := hp (Or.inr fun h => by cases h)
      rw [run_firstPart_short hC _ hP0]
      constructor
      · intro h
        exfalso
        have h1 := hC.cls_pos 1
        have h2 := hC.cls_ne 1
        have h3 := hC.last_pos
        have := ((consistent_fail_iff hP0 hfail (by
          intro r _
          simp only [Codes.success, Codes.errCount, ne_eq]; split <;> omega)).1 h).2 1 hP
        simp [Codes.errCount] at this
        omega
      · rintro (h | h | ⟨_, _, h⟩ | ⟨_, h, _⟩)
        · exact absurd hfail h
        · exact absurd h hnf
        · cases h
        · cases h
  · have hsome : ∃ s, s < P ∧ e s ≠ 0 := by
      by_contra hc
      exact hall fun r hr => by
        by_contra h
        exact hc ⟨r, hr, h⟩
    have hfail : p := hp (Or.inl hsome)
    by_cases hany : ∀ r, r < P → e r ≠ 0
    · rw [show f + 3 = f + 1 + 2 from rfl, run_checkNull_fail hC he hP0 hany,
        consistent_fail_iff hP0 hfail]
      · constructor
        · rintro ⟨_, h⟩
          exact Or.inr (Or.inl fun r hr => ⟨hany r hr, h r hr⟩)
        · rintro (h | h | ⟨h, _⟩ | ⟨h, _⟩)
          · exact absurd hfail h
          · refine ⟨?_, fun r hr => (h r hr).2⟩
            rw [translate_mpi (hany 0 hP0) (he 0)]
            have := hC.last_pos
            omega
          · exact absurd h hall
          · exact absurd h hall
      · intro r hr
        rw [translate_mpi (hany r hr) (he r)]
        have := hC.cls_pos (e r)
        simp only [Codes.success, ne_eq]; omega
    · have hno : ∃ r, r < P ∧ e r = 0 := by
        by_contra hc
        exact hany fun r hr h => hc ⟨r, hr, h⟩
      obtain ⟨s, hs1, hs2⟩ := hsome
      obtain ⟨r, hr1, hr2⟩ := hno
      rw [run_checkNull_mixed he (fun r => by
        obtain ⟨h1, h2⟩ := firstPart_kind C r x (k r)
        exact ⟨h2, by rw [h1]; decide⟩) hr1 hs1 hr2 hs2]
      refine ⟨fun h => absurd h not_consistent_waiting, ?_⟩
      rintro (h | h | ⟨h, _⟩ | ⟨h, _⟩)
      · exact absurd hfail h
      · exact absurd hr2 (h r hr1).1
      · exact absurd h hall
      · exact absurd h hall

end Fclaw.ParFile.Fault
