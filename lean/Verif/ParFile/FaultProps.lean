/-
C56: how failures of a collective file function are reported.

The code violates the property.  The theorems say exactly for which patterns of
failures it holds, and the counterexamples what happens otherwise.
-/
import Verif.ParFile.FaultLemmas

set_option autoImplicit false
set_option linter.unusedSimpArgs false

namespace Fclaw.ParFile.Fault

/-- Example numbers of error codes. -/
def exCodes : Codes := { last := 100, cls := fun e => if e = 36 then 8 else 19 }

theorem exCodes_ok : exCodes.Ok :=
  ⟨by decide, fun e => by simp only [exCodes]; split <;> decide,
    fun e => by simp only [exCodes]; split <;> decide,
    fun e => by simp only [exCodes]; split <;> decide⟩

/-! ### Creating a file -/

/-- C56, partial, for creating a file, by any number of processes.  All
processes return the same, and return an error exactly if something failed, if
and only if nothing fails, or the opening fails on all processes with the same
class of error, or the opening succeeds and the write of the header by process
0 gives an MPI error.  Missing: all other patterns of failures. -/
theorem C56_create_partial {C : Codes} (hC : C.Ok) {P : Nat} (hP : 0 < P) (F : CreateFaults)
    (ho : CodesOf C F.openRes) (hh : F.header.Ok C) :
    Consistent C (F.Failed P) P (run P fuel (openCreate C F)) ↔
      ¬ F.Failed P ∨ AllFail C P F.openRes ∨
        ((∀ r, r < P → F.openRes r = 0) ∧ ∃ e, F.header = .mpi e) := by
  have hrun : run P fuel (openCreate C F) = run P 9 (fun r =>
      if C.isSuccess (F.openRes r) then
        if r = 0 ∧ F.header = .short then .ub else firstPart C r F.header (succeed C)
      else .done { null := true, errcode := C.translate (C.translate (F.openRes r)) }) := by
    show run P (9 + 1) (openCreate C F) = _
    unfold openCreate
    rw [run_local hP (by decide) (by decide)]
  rw [hrun]
  by_cases hall : ∀ r, r < P → F.openRes r = 0
  · have hnf : ¬ AllFail C P F.openRes := fun h => (h 0 hP).1 (hall 0 hP)
    by_cases hx : F.header = .short
    · have hfail : F.Failed P := Or.inr (by rw [hx]; decide)
      rw [show (9 : Nat) = 8 + 1 from rfl, run_ub (r := 0) hP (by
        rw [hall 0 hP, isSuccess_zero, if_pos rfl, if_pos ⟨rfl, hx⟩])]
      refine ⟨fun h => absurd h not_consistent_undefined, ?_⟩
      rintro (h | h | ⟨_, e, h⟩)
      · exact absurd hfail h
      · exact absurd h hnf
      · rw [hx] at h; cases h
    · have e : ∀ f, run P f (fun r =>
          if C.isSuccess (F.openRes r) then
            if r = 0 ∧ F.header = .short then .ub else firstPart C r F.header (succeed C)
          else .done { null := true, errcode := C.translate (C.translate (F.openRes r)) })
          = run P f (fun r => firstPart C r F.header (succeed C)) := by
        intro f
        apply run_congr hP
        intro r hr
        rw [hall r hr, isSuccess_zero, if_pos rfl, if_neg (fun h => hx h.2)]
      rw [e]
      rcases hy : F.header with _ | c | _
      · rw [show (9 : Nat) = 6 + 1 + 2 from rfl, run_firstPart_ok C _ hP, run_succeed]
        have hf : ¬ F.Failed P := by
          rintro (⟨r, hr, h⟩ | h)
          · exact h (hall r hr)
          · exact h hy
        exact ⟨fun _ => Or.inl hf, fun _ => consistent_success hf⟩
      · rw [hy] at hh
        have hfail : F.Failed P := Or.inr (by rw [hy]; exact fun h => by cases h)
        rw [show (9 : Nat) = 6 + 3 from rfl,
          run_firstPart_mpi hC _ hP (Nat.pos_iff_ne_zero.1 hh.1) hh.2]
        refine ⟨fun _ => Or.inr (Or.inr ⟨hall, c, rfl⟩), fun _ => ?_⟩
        have h1 := hC.cls_pos c
        have h2 := hC.last_pos
        refine (consistent_fail_iff (c := fun _ => C.last + C.cls c) hP hfail ?_).2
          ⟨by omega, fun _ _ => rfl⟩
        intro r _
        simp only [Codes.success, ne_eq]; omega
      · exact absurd hy hx
  · have hsome : ∃ s, s < P ∧ F.openRes s ≠ 0 := by
      by_contra hc
      exact hall fun r hr => by
        by_contra h
        exact hc ⟨r, hr, h⟩
    have hfail : F.Failed P := Or.inl hsome
    by_cases hany : ∀ r, r < P → F.openRes r ≠ 0
    · rw [show (9 : Nat) = 8 + 1 from rfl,
        run_done (g := fun r => { null := true, errcode := C.translate (F.openRes r) }) (by
          intro r hr
          rw [isSuccess_mpi (hany r hr) (ho r), if_neg (by decide),
            translate_translate hC (hany r hr) (ho r)]),
        consistent_fail_iff hP hfail]
      · constructor
        · rintro ⟨_, h⟩
          exact Or.inr (Or.inl fun r hr => ⟨hany r hr, h r hr⟩)
        · rintro (h | h | ⟨h, _⟩)
          · exact absurd hfail h
          · refine ⟨?_, fun r hr => (h r hr).2⟩
            rw [translate_mpi (hany 0 hP) (ho 0)]
            have := hC.last_pos
            omega
          · exact absurd h hall
      · intro r hr
        rw [translate_mpi (hany r hr) (ho r)]
        have := hC.cls_pos (F.openRes r)
        simp only [Codes.success, ne_eq]; omega
    · obtain ⟨r, hr, hr0⟩ : ∃ r, r < P ∧ F.openRes r = 0 := by
        by_contra hc
        exact hany fun r hr h => hc ⟨r, hr, h⟩
      obtain ⟨s, hs, hs0⟩ := hsome
      have hn : ¬ Consistent C (F.Failed P) P (run P 9 (fun r =>
          if C.isSuccess (F.openRes r) then
            if r = 0 ∧ F.header = .short then .ub else firstPart C r F.header (succeed C)
          else .done { null := true, errcode := C.translate (C.translate (F.openRes r)) })) := by
        by_cases hu : F.openRes 0 = 0 ∧ F.header = .short
        · rw [show (9 : Nat) = 8 + 1 from rfl, run_ub (r := 0) hP (by
            rw [hu.1, isSuccess_zero, if_pos rfl, if_pos ⟨rfl, hu.2⟩])]
          exact not_consistent_undefined
        · have hk : ∀ q, F.openRes q = 0 → ¬ (q = 0 ∧ F.header = .short) := by
            rintro q hq ⟨rfl, h⟩
            exact hu ⟨hq, h⟩
          rw [show (9 : Nat) = 8 + 1 from rfl, run_mixed (r := r) (s := s) ?_ hr hs ?_]
          · exact not_consistent_waiting
          · intro q _
            by_cases hq : F.openRes q = 0
            · rw [hq, isSuccess_zero, if_pos rfl, if_neg (hk q hq)]
              exact (firstPart_kind _ _ _ _).2
            · rw [isSuccess_mpi hq (ho q), if_neg (by decide)]; rfl
          · rw [hr0, isSuccess_zero, if_pos rfl, if_neg (hk r hr0), isSuccess_mpi hs0 (ho s),
              if_neg (by decide), (firstPart_kind _ _ _ _).1]
            exact fun h => by cases h
      refine ⟨fun h => absurd h hn, ?_⟩
      rintro (h | h | ⟨h, _⟩)
      · exact absurd hfail h
      · exact absurd hr0 (h r hr).1
      · exact absurd h hall

example : CodesOf exCodes (fun _ => 36) ∧ AllFail exCodes 3 (fun _ => 36) ∧
    (IoRes.mpi 36).Ok exCodes :=
  ⟨fun _ => (by decide : 36 < 100), fun _ _ => ⟨(by decide : 36 ≠ 0), rfl⟩, by decide, by decide⟩

/-! ### Writing a block -/

/-- C56, partial, for writing a block by more than one process: the failure is
reported consistently if and only if there is none, or the change of the file
size fails on all processes with the same class of error, or the write of the
section header by process 0 gives an MPI error.  Missing: all other patterns
of failures. -/
theorem C56_block_partial {C : Codes} (hC : C.Ok) {P : Nat} (hP : 1 < P) (F : BlockFaults)
    (hs : CodesOf C F.setSize) (hh : F.header.Ok C) :
    Consistent C (F.Failed P) P (run P fuel (writeBlock C F)) ↔
      ¬ F.Failed P ∨ AllFail C P F.setSize ∨
        ((∀ r, r < P → F.setSize r = 0) ∧ ∃ e, F.header = .mpi e) := by
  have hP0 : 0 < P := by omega
  have hrun : run P fuel (writeBlock C F) = run P (6 + 3) (fun r => checkNull C (F.setSize r)
      (firstPart C r F.header (laterPart C r F.data (laterPart C r F.pad (succeed C))))) := by
    show run P (9 + 1) (writeBlock C F) = _
    unfold writeBlock
    rw [run_local hP0 (by decide) (by decide)]
  rw [hrun, start_iff (H := False) hC hP hs hh]
  · simp
  · rintro (h | h)
    · exact Or.inl h
    · exact Or.inr (Or.inl h)
  · intro hall hx
    by_cases hd : F.data = .ok
    · by_cases hp : F.pad = .ok
      · simp only [hd, hp, laterPart_ok]
        rw [run_succeed]
        have hf : ¬ F.Failed P := by
          rintro (⟨r, hr, h⟩ | h | h | h)
          · exact h (hall r hr)
          · exact h hx
          · exact h hd
          · exact h hp
        exact ⟨fun _ => Or.inl hf, fun _ => consistent_success hf⟩
      · simp only [hd, laterPart_ok]
        rw [run_laterPart_fail hP hp (fun r _ => ⟨rfl, by simp [succeed, Proc.kind]⟩)]
        refine ⟨fun h => absurd h not_consistent_waiting, ?_⟩
        rintro (h | h)
        · exact absurd (Or.inr (Or.inr (Or.inr hp))) h
        · exact h.elim
    · rw [run_laterPart_fail hP hd (fun r hr => by
          rw [laterPart_other C F.pad _ hr]
          exact ⟨rfl, by simp [succeed, Proc.kind]⟩)]
      refine ⟨fun h => absurd h not_consistent_waiting, ?_⟩
      rintro (h | h)
      · exact absurd (Or.inr (Or.inr (Or.inl hd))) h
      · exact h.elim

example : CodesOf exCodes (fun _ => 0) ∧ (IoRes.mpi 36).Ok exCodes ∧
    (BlockFaults.mk (fun _ => 0) (.mpi 36) .ok .ok).Failed 4 :=
  ⟨fun _ => (by decide : 0 < 100), ⟨by decide, by decide⟩, Or.inr (Or.inl (by decide))⟩

/-! ### Writing a field -/

/-- C56, partial, for writing a field by more than one process: besides the
cases of a block, the failure is reported consistently if the collective write
fails on all processes with the same class of error, or gives no MPI error but
is short on all processes.  Missing: all other patterns of failures. -/
theorem C56_field_partial {C : Codes} (hC : C.Ok) {P : Nat} (hP : 1 < P) (F : FieldFaults)
    (hs : CodesOf C F.setSize) (hh : F.header.Ok C) (ha : ∀ r, (F.all r).Ok C) :
    Consistent C (F.Failed P) P (run P fuel (writeField C F)) ↔
      ¬ F.Failed P ∨ AllFail C P F.setSize ∨
        ((∀ r, r < P → F.setSize r = 0) ∧ ∃ e, F.header = .mpi e) ∨
        ((∀ r, r < P → F.setSize r = 0) ∧ F.header = .ok ∧
          (AllFail C P (fun r => (F.all r).code) ∨ ∀ r, r < P → F.all r = .short)) := by
  have hP0 : 0 < P := by omega
  have hac : CodesOf C (fun r => (F.all r).code) := by
    intro r
    have h := ha r
    have h3 := hC.last_pos
    show (F.all r).code < C.last
    revert h
    generalize F.all r = y
    intro h
    cases y with
    | ok => show 0 < C.last; omega
    | short => show 0 < C.last; omega
    | mpi e => exact h.2
  have hrun : run P fuel (writeField C F) = run P (6 + 3) (fun r => checkNull C (F.setSize r)
      (firstPart C r F.header (.coll .writeAll (F.all r).code fun e =>
          checkNull C e
            (checkCount C (F.all r).isShort
              (laterPart C r F.pad (succeed C)))))) := by
    show run P (9 + 1) (writeField C F) = _
    unfold writeField
    rw [run_local hP0 (by decide) (by decide)]
  rw [hrun, start_iff hC hP hs hh]
  · rintro (h | h)
    · exact Or.inl h
    · exact Or.inr (Or.inl h)
  intro hall hx
  rw [run_local hP0 (by decide) (by decide)]
  have hfail_all : ∀ r, r < P → F.all r ≠ .ok → F.Failed P :=
    fun r hr h => Or.inr (Or.inr (Or.inl ⟨r, hr, h⟩))
  by_cases hz : ∀ r, r < P → (F.all r).code = 0
  · rw [run_checkNull_ok hP0 hz]
    have hnf : ¬ AllFail C P (fun r => (F.all r).code) := fun h => (h 0 hP0).1 (hz 0 hP0)
    have hnm : ∀ r, r < P → F.all r = .ok ∨ F.all r = .short := by
      intro r hr
      have h1 := hz r hr
      have h2 := ha r
      cases hr : F.all r with
      | ok => exact Or.inl rfl
      | short => exact Or.inr rfl
      | mpi e =>
        rw [hr] at h1 h2
        simp only [IoRes.code] at h1
        have := h2.1
        omega
    unfold checkCount
    rw [show (6 : Nat) = 5 + 1 from rfl, run_allreduce hP0]
    by_cases hshort : ∃ r, r < P ∧ F.all r = .short
    · obtain ⟨s, hs1, hs2⟩ := hshort
      have hany : (List.range P).any (fun q => decide ((if (F.all q).isShort then 1 else 0) ≠ 0))
          = true := by
        rw [List.any_eq_true]
        exact ⟨s, List.mem_range.2 hs1, by rw [hs2]; rfl⟩
      simp only [hany, if_true, ne_eq, Nat.one_ne_zero, not_false_eq_true]
      have hfail : F.Failed P := hfail_all s hs1 (by rw [hs2]; decide)
      rw [show (5 : Nat) = 3 + 2 from rfl, run_failWith hP0, consistent_fail_iff hP0 hfail]
      · constructor
        · rintro ⟨h0, h⟩
          refine Or.inr (Or.inr fun r hr => ?_)
          rcases hnm r hr with h1 | h1
          · exfalso
            have h2 := h r hr
            rw [h1] at h2
            simp only [IoRes.isShort, Bool.false_eq_true, if_false] at h2
            exact h0 h2.symm
          · exact h1
        · rintro (h | h | h)
          · exact absurd hfail h
          · exact absurd h hnf
          · refine ⟨?_, fun r hr => by rw [h r hr, h 0 hP0]⟩
            rw [h 0 hP0]
            simp [IoRes.isShort, Codes.errCount]
      · intro r _
        have := hC.last_pos
        simp only [Codes.success, Codes.errCount, ne_eq]
        split <;> omega
    · have hok : ∀ r, r < P → F.all r = .ok := by
        intro r hr
        rcases hnm r hr with h | h
        · exact h
        · exact absurd ⟨r, hr, h⟩ hshort
      have hany : (List.range P).any (fun q => decide ((if (F.all q).isShort then 1 else 0) ≠ 0))
          = false := by
        rw [Bool.eq_false_iff]
        intro hc
        obtain ⟨q, hq, hc⟩ := List.any_eq_true.1 hc
        rw [hok q (List.mem_range.1 hq)] at hc
        cases hc
      simp only [hany, Bool.false_eq_true, if_false, ne_eq, not_true_eq_false]
      have hnsh : ¬ ∀ r, r < P → F.all r = .short := by
        intro h
        have := h 0 hP0
        rw [hok 0 hP0] at this
        cases this
      by_cases hp : F.pad = .ok
      · simp only [hp, laterPart_ok]
        rw [show (5 : Nat) = 4 + 1 from rfl, run_succeed]
        have hf : ¬ F.Failed P := by
          rintro (⟨r, hr, h⟩ | h | ⟨r, hr, h⟩ | h)
          · exact h (hall r hr)
          · exact h hx
          · exact h (hok r hr)
          · exact h hp
        exact ⟨fun _ => Or.inl hf, fun _ => consistent_success hf⟩
      · rw [show (5 : Nat) = 4 + 1 from rfl,
          run_laterPart_fail hP hp (fun r _ => ⟨rfl, by simp [succeed, Proc.kind]⟩)]
        refine ⟨fun h => absurd h not_consistent_waiting, ?_⟩
        rintro (h | h | h)
        · exact absurd (Or.inr (Or.inr (Or.inr hp))) h
        · exact absurd h hnf
        · exact absurd h hnsh
  · obtain ⟨s, hs1, hs2⟩ : ∃ s, s < P ∧ (F.all s).code ≠ 0 := by
      by_contra hc
      exact hz fun r hr => by
        by_contra h
        exact hc ⟨r, hr, h⟩
    have hfail : F.Failed P := hfail_all s hs1 (fun h => hs2 (by rw [h]; rfl))
    by_cases hany : ∀ r, r < P → (F.all r).code ≠ 0
    · rw [show (6 : Nat) = 4 + 2 from rfl, run_checkNull_fail hC hac hP0 hany,
        consistent_fail_iff hP0 hfail]
      · constructor
        · rintro ⟨_, h⟩
          exact Or.inr (Or.inl fun r hr => ⟨hany r hr, h r hr⟩)
        · rintro (h | h | h)
          · exact absurd hfail h
          · refine ⟨?_, fun r hr => (h r hr).2⟩
            rw [translate_mpi (hany 0 hP0) (hac 0)]
            have := hC.last_pos
            omega
          · exact absurd (by rw [h s hs1]; rfl) hs2
      · intro r hr
        rw [translate_mpi (hany r hr) (hac r)]
        have := hC.cls_pos (F.all r).code
        simp only [Codes.success, ne_eq]; omega
    · obtain ⟨r, hr1, hr2⟩ : ∃ r, r < P ∧ (F.all r).code = 0 := by
        by_contra hc
        exact hany fun r hr h => hc ⟨r, hr, h⟩
      rw [show (6 : Nat) = 5 + 1 from rfl, run_checkNull_mixed hac (fun q =>
        ⟨rfl, by simp [checkCount, Proc.kind]⟩) hr1 hs1 hr2 hs2]
      refine ⟨fun h => absurd h not_consistent_waiting, ?_⟩
      rintro (h | h | h)
      · exact absurd hfail h
      · exact absurd hr2 (h r hr1).1
      · exact absurd (by rw [h s hs1]; rfl) hs2

example : (∀ r, ((fun _ => IoRes.short : Nat → IoRes) r).Ok exCodes) ∧
    (FieldFaults.mk (fun _ => 0) .ok (fun _ => .short) .ok).Failed 4 :=
  ⟨fun _ => trivial, Or.inr (Or.inr (Or.inl ⟨0, by decide, by decide⟩))⟩

/-! ### One process -/

theorem run_one_laterPart_fail {f : Nat} {C : Codes} (hC : C.Ok) {x : IoRes} (hx : x.Ok C)
    {k : Nat → Proc} {p : Prop} (hp : p) (h : x ≠ .ok) :
    Consistent C p 1 (run 1 (f + 3) (fun r => laterPart C r x (k r))) := by
  have h3 := hC.last_pos
  rcases x with _ | e | _
  · exact absurd rfl h
  · have e1 : run 1 (f + 3) (fun r => laterPart C r (.mpi e) (k r))
        = run 1 (f + 3) (fun r => .coll .bcast (C.translate e)
            (fun m => if C.isSuccess m then .ub else failWith (C.translate m))) := by
      apply run_congr (by decide)
      intro r hr
      obtain rfl : r = 0 := by omega
      rfl
    have h0 := Nat.pos_iff_ne_zero.1 hx.1
    rw [e1, run_bcast (by decide), translate_mpi h0 hx.2]
    simp only [isSuccess_cls hC, Bool.false_eq_true, if_false]
    rw [run_failWith (by decide), consistent_fail_iff (by decide) hp]
    · rw [translate_cls hC]
      exact ⟨by omega, fun _ _ => rfl⟩
    · intro r _
      rw [translate_cls hC]
      have := hC.cls_pos e
      simp only [Codes.success, ne_eq]; omega
  · have e1 : run 1 (f + 3) (fun r => laterPart C r .short (k r))
        = run 1 (f + 3) (fun r => .coll .bcast 1
            (fun m => if m ≠ 0 then failWith C.errCount else .ub)) := by
      apply run_congr (by decide)
      intro r hr
      obtain rfl : r = 0 := by omega
      rfl
    rw [e1, run_bcast (by decide)]
    simp only [ne_eq, Nat.one_ne_zero, not_false_eq_true, if_true]
    rw [run_failWith (by decide), consistent_fail_iff (by decide) hp]
    · exact ⟨by simp [Codes.errCount], fun _ _ => rfl⟩
    · intro r _
      simp [Codes.success, Codes.errCount]

/-- The common beginning with one process. -/
theorem start_one {C : Codes} (hC : C.Ok) {f : Nat} {e : Nat → Nat} {x : IoRes}
    {k : Nat → Proc} (he : CodesOf C e) (hx : x.Ok C) {p : Prop}
    (hp : e 0 ≠ 0 ∨ x ≠ .ok → p)
    (hrest : e 0 = 0 → x = .ok → Consistent C p 1 (run 1 (f + 1) k)) :
    Consistent C p 1 (run 1 (f + 3) (fun r => checkNull C (e r) (firstPart C r x (k r)))) := by
  have h3 := hC.last_pos
  by_cases h0 : e 0 = 0
  · rw [run_checkNull_ok (by decide) (fun r hr => by
      obtain rfl : r = 0 := by omega
      exact h0)]
    rcases x with _ | c | _
    · rw [show f + 3 = f + 1 + 2 from rfl, run_firstPart_ok C _ (by decide)]
      exact hrest h0 rfl
    · have hfail : p := hp (Or.inr fun h => by cases h)
      rw [run_firstPart_mpi hC _ (by decide) (Nat.pos_iff_ne_zero.1 hx.1) hx.2]
      have h1 := hC.cls_pos c
      refine (consistent_fail_iff (c := fun _ => C.last + C.cls c) (by decide) hfail ?_).2
        ⟨by omega, fun _ _ => rfl⟩
      intro r _
      simp only [Codes.success, ne_eq]; omega
    · have hfail : p := hp (Or.inr fun h => by cases h)
      rw [run_firstPart_short hC _ (by decide), consistent_fail_iff (by decide) hfail]
      · refine ⟨by simp [Codes.errCount], fun r hr => ?_⟩
        obtain rfl : r = 0 := by omega
        rfl
      · intro r hr
        obtain rfl : r = 0 := by omega
        simp [Codes.success, Codes.errCount]
  · have hfail : p := hp (Or.inl h0)
    rw [show f + 3 = f + 1 + 2 from rfl, run_checkNull_fail hC he (by decide) (fun r hr => by
      obtain rfl : r = 0 := by omega
      exact h0), consistent_fail_iff (by decide) hfail]
    · rw [translate_mpi h0 (he 0)]
      refine ⟨by omega, fun r hr => ?_⟩
      obtain rfl : r = 0 := by omega
      rw [translate_mpi h0 (he 0)]
    · intro r hr
      obtain rfl : r = 0 := by omega
      rw [translate_mpi h0 (he 0)]
      have := hC.cls_pos (e 0)
      simp only [Codes.success, ne_eq]; omega

/-- C56, partial: a single process that writes a block always returns, and
returns an error exactly if something failed. -/
theorem C56_block_serial_partial {C : Codes} (hC : C.Ok) (F : BlockFaults)
    (hs : CodesOf C F.setSize) (hh : F.header.Ok C) (hd : F.data.Ok C) (hpd : F.pad.Ok C) :
    Consistent C (F.Failed 1) 1 (run 1 fuel (writeBlock C F)) := by
  have hrun : run 1 fuel (writeBlock C F) = run 1 (6 + 3) (fun r => checkNull C (F.setSize r)
      (firstPart C r F.header (laterPart C r F.data (laterPart C r F.pad (succeed C))))) := by
    show run 1 (9 + 1) (writeBlock C F) = _
    unfold writeBlock
    rw [run_local (by decide) (by decide) (by decide)]
  rw [hrun]
  apply start_one hC hs hh
  · rintro (h | h)
    · exact Or.inl ⟨0, by decide, h⟩
    · exact Or.inr (Or.inl h)
  · intro h0 hx
    by_cases hd' : F.data = .ok
    · by_cases hp' : F.pad = .ok
      · simp only [hd', hp', laterPart_ok]
        rw [run_succeed]
        apply consistent_success
        rintro (⟨r, hr, h⟩ | h | h | h)
        · obtain rfl : r = 0 := by omega
          exact h h0
        · exact h hx
        · exact h hd'
        · exact h hp'
      · simp only [hd', laterPart_ok]
        exact run_one_laterPart_fail (f := 4) hC hpd (Or.inr (Or.inr (Or.inr hp'))) hp'
    · exact run_one_laterPart_fail (f := 4) hC hd (Or.inr (Or.inr (Or.inl hd'))) hd'

/-- C56, partial: the same for a single process that writes a field. -/
theorem C56_field_serial_partial {C : Codes} (hC : C.Ok) (F : FieldFaults)
    (hs : CodesOf C F.setSize) (hh : F.header.Ok C) (ha : ∀ r, (F.all r).Ok C)
    (hpd : F.pad.Ok C) :
    Consistent C (F.Failed 1) 1 (run 1 fuel (writeField C F)) := by
  have h3 := hC.last_pos
  have hac : CodesOf C (fun r => (F.all r).code) := by
    intro r
    have h := ha r
    have h3 := hC.last_pos
    show (F.all r).code < C.last
    revert h
    generalize F.all r = y
    intro h
    cases y with
    | ok => show 0 < C.last; omega
    | short => show 0 < C.last; omega
    | mpi e => exact h.2
  have hrun : run 1 fuel (writeField C F) = run 1 (6 + 3) (fun r => checkNull C (F.setSize r)
      (firstPart C r F.header (.coll .writeAll (F.all r).code fun e =>
          checkNull C e
            (checkCount C (F.all r).isShort
              (laterPart C r F.pad (succeed C)))))) := by
    show run 1 (9 + 1) (writeField C F) = _
    unfold writeField
    rw [run_local (by decide) (by decide) (by decide)]
  rw [hrun]
  apply start_one hC hs hh
  · rintro (h | h)
    · exact Or.inl ⟨0, by decide, h⟩
    · exact Or.inr (Or.inl h)
  intro h0 hx
  rw [run_local (by decide) (by decide) (by decide)]
  have hfa : F.all 0 ≠ .ok → F.Failed 1 := fun h => Or.inr (Or.inr (Or.inl ⟨0, by decide, h⟩))
  rcases hw : F.all 0 with _ | e | _
  · rw [run_checkNull_ok (by decide) (fun r hr => by
      obtain rfl : r = 0 := by omega
      rw [hw]; rfl)]
    unfold checkCount
    rw [show (6 : Nat) = 5 + 1 from rfl, run_allreduce (by decide)]
    have hany : (List.range 1).any (fun q => decide ((if (F.all q).isShort then 1 else 0) ≠ 0))
        = false := by
      simp [List.range_succ, hw, IoRes.isShort]
    simp only [hany, Bool.false_eq_true, if_false, ne_eq, not_true_eq_false]
    by_cases hp' : F.pad = .ok
    · simp only [hp', laterPart_ok]
      rw [show (5 : Nat) = 4 + 1 from rfl, run_succeed]
      apply consistent_success
      rintro (⟨r, hr, h⟩ | h | ⟨r, hr, h⟩ | h)
      · obtain rfl : r = 0 := by omega
        exact h h0
      · exact h hx
      · obtain rfl : r = 0 := by omega
        exact h hw
      · exact h hp'
    · exact run_one_laterPart_fail (f := 2) hC hpd (Or.inr (Or.inr (Or.inr hp'))) hp'
  · have hok := ha 0
    rw [hw] at hok
    have hfail : F.Failed 1 := hfa (by rw [hw]; exact fun h => by cases h)
    have hne : (F.all 0).code ≠ 0 := by rw [hw]; exact Nat.pos_iff_ne_zero.1 hok.1
    rw [show (6 : Nat) = 4 + 2 from rfl, run_checkNull_fail hC hac (by decide) (fun r hr => by
      obtain rfl : r = 0 := by omega
      exact hne), consistent_fail_iff (by decide) hfail]
    · refine ⟨?_, fun r hr => ?_⟩
      · rw [translate_mpi hne (hac 0)]; omega
      · obtain rfl : r = 0 := by omega
        rfl
    · intro r hr
      obtain rfl : r = 0 := by omega
      rw [translate_mpi hne (hac 0)]
      have := hC.cls_pos (F.all 0).code
      simp only [Codes.success, ne_eq]; omega
  · have hfail : F.Failed 1 := hfa (by rw [hw]; decide)
    rw [run_checkNull_ok (by decide) (fun r hr => by
      obtain rfl : r = 0 := by omega
      rw [hw]; rfl)]
    unfold checkCount
    rw [show (6 : Nat) = 5 + 1 from rfl, run_allreduce (by decide)]
    have hany : (List.range 1).any (fun q => decide ((if (F.all q).isShort then 1 else 0) ≠ 0))
        = true := by
      simp [List.range_succ, hw, IoRes.isShort]
    simp only [hany, if_true, ne_eq, Nat.one_ne_zero, not_false_eq_true]
    rw [show (5 : Nat) = 3 + 2 from rfl, run_failWith (by decide),
      consistent_fail_iff (by decide) hfail]
    · refine ⟨by rw [hw]; simp [IoRes.isShort, Codes.errCount], fun r hr => ?_⟩
      obtain rfl : r = 0 := by omega
      rfl
    · intro r hr
      obtain rfl : r = 0 := by omega
      rw [hw]
      simp [IoRes.isShort, Codes.success, Codes.errCount]

example : (IoRes.mpi 36).Ok exCodes ∧ IoRes.short.Ok exCodes ∧
    (BlockFaults.mk (fun _ => 0) .ok (.mpi 36) .ok).Failed 1 :=
  ⟨⟨by decide, by decide⟩, trivial, Or.inr (Or.inr (Or.inl (by decide)))⟩

/-! ### Counterexamples -/

/-- C56 fails: if process 0 writes too few bytes of the header of a new file, it
uses a communicator that has not been set, for every number of processes. -/
theorem C56_create_counterexample (C : Codes) {P : Nat} (hP : 0 < P) (F : CreateFaults)
    (ho : ∀ r, F.openRes r = 0) (hx : F.header = .short) :
    run P fuel (openCreate C F) = .undefined := by
  show run P (9 + 1) (openCreate C F) = _
  unfold openCreate
  rw [run_local hP (by decide) (by decide), show (9 : Nat) = 8 + 1 from rfl]
  exact run_ub (r := 0) hP (by rw [ho 0, isSuccess_zero, if_pos rfl, if_pos ⟨rfl, hx⟩])

/-- C56 fails: if process 0 writes too few bytes of the header of a section, it
reports a count error and the other processes report another error, that of
the MPI code 1. -/
theorem C56_count_counterexample {C : Codes} (hC : C.Ok) {P : Nat} (hP : 1 < P)
    (F : BlockFaults) (hs : ∀ r, F.setSize r = 0) (hx : F.header = .short) :
    run P fuel (writeBlock C F) = .returned ((List.range P).map fun r =>
        { null := true, errcode := if r = 0 then C.last + 18 else C.last + C.cls 1 }) ∧
      C.last + 18 ≠ C.last + C.cls 1 := by
  have hP0 : 0 < P := by omega
  refine ⟨?_, by have := hC.cls_ne 1; omega⟩
  show run P (9 + 1) (writeBlock C F) = _
  unfold writeBlock
  rw [run_local hP0 (by decide) (by decide), run_checkNull_ok hP0 (fun r _ => hs r), hx,
    show (9 : Nat) = 6 + 3 from rfl, run_firstPart_short hC _ hP0]
  rfl

/-- C56 fails: if process 0 cannot write the data of a block, the other
processes return success and process 0 waits for them in a broadcast. -/
theorem C56_data_counterexample (C : Codes) {P : Nat} (hP : 1 < P)
    (F : BlockFaults) (hs : ∀ r, F.setSize r = 0) (hx : F.header = .ok) (hd : F.data ≠ .ok) :
    run P fuel (writeBlock C F) = .waiting ∧
    ∀ r, r ≠ 0 → laterPart C r F.data (laterPart C r F.pad (succeed C)) = succeed C := by
  have hP0 : 0 < P := by omega
  refine ⟨?_, fun r hr => by rw [laterPart_other C _ _ hr, laterPart_other C _ _ hr]⟩
  show run P (9 + 1) (writeBlock C F) = _
  unfold writeBlock
  rw [run_local hP0 (by decide) (by decide), run_checkNull_ok hP0 (fun r _ => hs r), hx,
    show (9 : Nat) = 6 + 1 + 2 from rfl, run_firstPart_ok C _ hP0]
  exact run_laterPart_fail hP hd (fun r hr => by
    rw [laterPart_other C F.pad _ hr]
    exact ⟨rfl, by simp [succeed, Proc.kind]⟩)

/-- C56 fails: if the collective write of a field gives an MPI error on one
process and not on another, processes are left waiting. -/
theorem C56_write_all_counterexample {C : Codes} {P : Nat}
    (F : FieldFaults) (hs : ∀ r, F.setSize r = 0) (hx : F.header = .ok)
    (ha : CodesOf C (fun r => (F.all r).code)) {r s : Nat} (hr : r < P) (hs' : s < P)
    (h0 : (F.all r).code = 0) (h1 : (F.all s).code ≠ 0) :
    run P fuel (writeField C F) = .waiting := by
  have hP0 : 0 < P := by omega
  show run P (9 + 1) (writeField C F) = _
  unfold writeField
  rw [run_local hP0 (by decide) (by decide), run_checkNull_ok hP0 (fun r _ => hs r), hx,
    show (9 : Nat) = 7 + 2 from rfl, run_firstPart_ok C _ hP0, show (7 : Nat) = 6 + 1 from rfl,
    run_local hP0 (by decide) (by decide), show (6 : Nat) = 5 + 1 from rfl]
  exact run_checkNull_mixed ha (fun q => ⟨rfl, by simp [checkCount, Proc.kind]⟩) hr hs' h0 h1

/-- C56 fails: if the collective write of a field is short on one process only,
all processes return NULL, but the others with the code of success. -/
theorem C56_short_counterexample (C : Codes) :
    run 2 fuel (writeField C
        (FieldFaults.mk (fun _ => 0) .ok (fun r => if r = 1 then .short else .ok) .ok))
      = .returned [{ null := true, errcode := 0 }, { null := true, errcode := C.last + 18 }] := by
  show run 2 (9 + 1) _ = _
  unfold writeField
  rw [run_local (by decide) (by decide) (by decide), run_checkNull_ok (by decide)
    (fun r _ => rfl), show (9 : Nat) = 7 + 2 from rfl, run_firstPart_ok C _ (by decide),
    show (7 : Nat) = 6 + 1 from rfl, run_local (by decide) (by decide) (by decide)]
  dsimp only
  rw [run_checkNull_ok (by decide) (fun r _ => by split <;> rfl)]
  unfold checkCount
  rw [show (6 : Nat) = 5 + 1 from rfl, run_allreduce (by decide)]
  have hany : (List.range 2).any (fun q => decide ((if IoRes.isShort
      (if q = 1 then .short else .ok) then 1 else 0) ≠ 0)) = true := by decide
  simp only [hany, if_true, ne_eq, Nat.one_ne_zero, not_false_eq_true]
  rw [show (5 : Nat) = 3 + 2 from rfl, run_failWith (by decide)]
  rfl

example : exCodes.Ok ∧ CodesOf exCodes (fun r => if r = 1 then 36 else 0) :=
  ⟨exCodes_ok, fun r => by dsimp only; split <;> decide⟩

end Fclaw.ParFile.Fault
