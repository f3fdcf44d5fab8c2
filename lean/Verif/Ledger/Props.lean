/-
C31: patch data is created and destroyed in balance.
-/
import Verif.Ledger.Lemmas

set_option autoImplicit false
namespace Fclaw.Ledger

/-- C31, while running: after the first domain and any history of regriddings with repartitioning,
no access has been outside an array, no data has been created twice or deleted twice, at every end of
a domain the counters agreed; every local patch has data, and the pointers of the current
domain's local and ghost patches are exactly the data that exists, each pointed to once. -/
theorem C31_running (np ng : Nat) (rs : List Regrid) (hfit : Fit rs np) :
    ∃ s, regrids rs (initializeDomain np ng) = some s ∧
      Sound s.log ∧ Compared s.log ∧
      (∀ u ∈ s.dom.users, u.isSome = true) ∧
      (∀ h, (s.dom.users ++ s.dom.ghosts).count (some h) = created h s.log - deleted h s.log) ∧
      (∀ h, (s.dom.users ++ s.dom.ghosts).count (some h) ≤ 1) := by
  obtain ⟨h1, h2⟩ := initialize_ok np ng
  obtain ⟨s, e, o⟩ := regrids_ok rs _ h1 (by rw [h2]; exact hfit)
  have hcount : ∀ h, (s.dom.users ++ s.dom.ghosts).count (some h) = s.dom.refs h := by
    intro h
    rw [List.count_append]
    unfold Dom.refs own List.count
    congr 1 <;> apply List.countP_congr <;> intro x _ <;> simp
  refine ⟨s, e, o.books.sound, o.books.cmp, o.full, ?_, ?_⟩
  · intro h; rw [hcount, o.books.bal h]; omega
  · intro h; rw [hcount]; have := o.books.bal h; have := o.books.one h; omega

/-- C31, at the end: after the last domain is reset, everything created has been deleted, exactly
once, and all counters agreed. -/
theorem C31_finalized (np ng : Nat) (rs : List Regrid) (hfit : Fit rs np) :
    ∃ s, regrids rs (initializeDomain np ng) = some s ∧
      Sound (finalize s) ∧ Clean (finalize s) ∧ Compared (finalize s) := by
  obtain ⟨h1, h2⟩ := initialize_ok np ng
  obtain ⟨s, e, o⟩ := regrids_ok rs _ h1 (by rw [h2]; exact hfit)
  have hb : Books (fun _ => 0) s.next (finalize s) :=
    Books.reset s.dom o.dom (o.books.refs_eq (fun x => by simp))
  exact ⟨s, e, hb.sound, fun h => by rw [hb.bal h]; simp, hb.cmp⟩

/-! Non-vacuity: five patches; one is refined, the last four are merged; then the process gives up
its first patches and receives new ones. -/

def sample : List Regrid :=
  [⟨[.half, .double], 5, 3, some (10, 13, 4, 2)⟩, ⟨[.same, .same, .same, .half], 7, 0, none⟩]

example : Fit sample 5 := by
  simp [sample, Fit, Regrid.Fits, Regrid.size, Kind.old, Kind.new]

example : ((regrids sample (initializeDomain 5 1)).map fun s => (s.dom.users, s.dom.ghosts, s.next)) =
    some ([some 9, some 10, some 11, some 15, some 16, some 17, some 18], [], 19) := by
  decide +kernel

end Fclaw.Ledger
