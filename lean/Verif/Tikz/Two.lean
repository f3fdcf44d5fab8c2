/-
Two runs of two processes.
-/
import Verif.Tikz.Files

set_option autoImplicit false
set_option linter.unusedSimpArgs false

namespace Fclaw.Output

open Fclaw.ParFile (Outcome)

/-- A process performs all its operations. -/
theorem run_ops {Op S : Type} {n K : Nat} {apply : S → Op → S}
    {inside after : Nat → Nat → Outcome (List Op)} {fs0 : S} {r : Nat} (hr : r < n)
    (l : List Op) : ∀ (s : Serial.St) (fs : S) (todo : Nat → List Op), todo r = l →
    Reach n K apply inside after fs0 ⟨s, fs, todo⟩ →
    Reach n K apply inside after fs0 ⟨s, l.foldl apply fs, set todo r []⟩ := by
  induction l with
  | nil =>
    intro s fs todo h1 h2
    have e : set todo r [] = todo := by
      funext x
      by_cases hx : x = r
      · subst hx; rw [set_same, h1]
      · rw [set_other _ _ hx]
    rw [e]; exact h2
  | cons o l ih =>
    intro s fs todo h1 h2
    have h3 := Reach.step _ _ h2 (Step.op r o l hr h1)
    have h4 := ih s (apply fs o) (set todo r l) (set_same _ _ _) h3
    have e : set (set todo r l) r [] = set todo r [] := by
      funext x
      by_cases hx : x = r
      · subst hx; rw [set_same, set_same]
      · rw [set_other _ _ hx, set_other _ _ hx, set_other _ _ hx]
    rw [e] at h4
    exact h4

/-- Where two processes stand when both have left. -/
def bothLeft : Serial.St := ⟨fun r => if r < 2 then 2 else 0, fun _ => 0⟩

/-- Both processes leave the section before either of them goes on. -/
theorem run_two {Op S : Type} {apply : S → Op → S}
    {inside after : Nat → Nat → Outcome (List Op)} {fs0 : S} {i0 i1 a0 a1 : List Op}
    (hi0 : inside 0 0 = .ok i0) (hi1 : inside 0 1 = .ok i1) (ha0 : after 0 0 = .ok a0)
    (ha1 : after 0 1 = .ok a1) :
    Reach 2 1 apply inside after fs0 ⟨bothLeft, i1.foldl apply (i0.foldl apply fs0),
      fun r => if r = 0 then a0 else if r = 1 then a1 else []⟩ := by
  have w0 : Reach 2 1 apply inside after fs0 ⟨Serial.start, fs0, fun _ => []⟩ := .start
  have s1 : Serial.enter 2 1 Serial.start 0
      = some ⟨Serial.upd Serial.start.pos 0 1, Serial.start.tok⟩ := rfl
  have w1 := Reach.step _ _ w0 (Step.enter 0 _ i0 rfl s1 (by simpa [Serial.upd, Serial.start] using hi0))
  have w2 := run_ops (show 0 < 2 by omega) i0 _ _ _ (set_same _ _ _) w1
  have s2 : Serial.leave 2 ⟨Serial.upd Serial.start.pos 0 1, Serial.start.tok⟩ 0
      = some ⟨Serial.upd (Serial.upd Serial.start.pos 0 1) 0 2, Serial.upd Serial.start.tok 1 1⟩ :=
    rfl
  have w3 := Reach.step _ _ w2 (Step.leave 0 _ a0 (by simp only [set_same]) s2
    (by simpa [Serial.upd, Serial.start] using ha0))
  have s3 : Serial.enter 2 1
      ⟨Serial.upd (Serial.upd Serial.start.pos 0 1) 0 2, Serial.upd Serial.start.tok 1 1⟩ 1
      = some ⟨Serial.upd (Serial.upd (Serial.upd Serial.start.pos 0 1) 0 2) 1 1,
          Serial.upd (Serial.upd Serial.start.tok 1 1) 1 0⟩ := rfl
  have w4 := Reach.step _ _ w3 (Step.enter 1 _ i1 rfl s3
    (by simpa [Serial.upd, Serial.start] using hi1))
  have w5 := run_ops (show 1 < 2 by omega) i1 _ _ _ (set_same _ _ _) w4
  have s4 : Serial.leave 2 ⟨Serial.upd (Serial.upd (Serial.upd Serial.start.pos 0 1) 0 2) 1 1,
          Serial.upd (Serial.upd Serial.start.tok 1 1) 1 0⟩ 1
      = some ⟨Serial.upd (Serial.upd (Serial.upd (Serial.upd Serial.start.pos 0 1) 0 2) 1 1) 1 2,
          Serial.upd (Serial.upd Serial.start.tok 1 1) 1 0⟩ := rfl
  have w6 := Reach.step _ _ w5 (Step.leave 1 _ a1 (by simp only [set_same]) s4
    (by simpa [Serial.upd, Serial.start] using ha1))
  have e1 : Serial.upd (Serial.upd (Serial.upd (Serial.upd Serial.start.pos 0 1) 0 2) 1 1) 1 2
      = bothLeft.pos := by
    funext x
    match x with
    | 0 => rfl
    | 1 => rfl
    | x + 2 => simp [Serial.upd, Serial.start, bothLeft]
  have e2 : Serial.upd (Serial.upd Serial.start.tok 1 1) 1 0 = bothLeft.tok := by
    funext x
    match x with
    | 0 => rfl
    | 1 => rfl
    | x + 2 => simp [Serial.upd, Serial.start, bothLeft]
  rw [e1, e2] at w6
  have e3 : ∀ t : Nat → List Op, t = (fun r => if r = 0 then a0 else if r = 1 then a1 else []) →
      Reach 2 1 apply inside after fs0 ⟨bothLeft, i1.foldl apply (i0.foldl apply fs0), t⟩ →
      Reach 2 1 apply inside after fs0 ⟨bothLeft, i1.foldl apply (i0.foldl apply fs0),
        fun r => if r = 0 then a0 else if r = 1 then a1 else []⟩ := by
    intro t ht h; rw [← ht]; exact h
  refine e3 _ ?_ w6
  funext x
  match x with
  | 0 => simp [set]
  | 1 => simp [set]
  | x + 2 => simp [set]

/-- Then the first process goes on first. -/
theorem run_forward {Op S : Type} {apply : S → Op → S}
    {inside after : Nat → Nat → Outcome (List Op)} {fs0 : S} {i0 i1 a0 a1 : List Op}
    (hi0 : inside 0 0 = .ok i0) (hi1 : inside 0 1 = .ok i1) (ha0 : after 0 0 = .ok a0)
    (ha1 : after 0 1 = .ok a1) :
    ∃ w : World Op S, Reach 2 1 apply inside after fs0 w ∧ (∀ r, r < 2 → Finished w 0 r) ∧
      w.fs = (i0 ++ i1 ++ a0 ++ a1).foldl apply fs0 := by
  have h0 := run_two (apply := apply) (fs0 := fs0) hi0 hi1 ha0 ha1
  have h1 := run_ops (show 0 < 2 by omega) a0 _ _ _ rfl h0
  have h2 := run_ops (show 1 < 2 by omega) a1 _ _ _ (by simp [set]) h1
  refine ⟨_, h2, fun r hr => Or.inr ⟨?_, ?_⟩, by simp [List.foldl_append]⟩
  · simp [bothLeft, hr]
  · rcases (by omega : r = 0 ∨ r = 1) with rfl | rfl <;> simp [set]

/-- Then the second process goes on first. -/
theorem run_backward {Op S : Type} {apply : S → Op → S}
    {inside after : Nat → Nat → Outcome (List Op)} {fs0 : S} {i0 i1 a0 a1 : List Op}
    (hi0 : inside 0 0 = .ok i0) (hi1 : inside 0 1 = .ok i1) (ha0 : after 0 0 = .ok a0)
    (ha1 : after 0 1 = .ok a1) :
    ∃ w : World Op S, Reach 2 1 apply inside after fs0 w ∧ (∀ r, r < 2 → Finished w 0 r) ∧
      w.fs = (i0 ++ i1 ++ a1 ++ a0).foldl apply fs0 := by
  have h0 := run_two (apply := apply) (fs0 := fs0) hi0 hi1 ha0 ha1
  have h1 := run_ops (show 1 < 2 by omega) a1 _ _ _ (by simp) h0
  have h2 := run_ops (show 0 < 2 by omega) a0 _ _ _ (by simp [set]) h1
  refine ⟨_, h2, fun r hr => Or.inr ⟨?_, ?_⟩, by simp [List.foldl_append]⟩
  · simp [bothLeft, hr]
  · rcases (by omega : r = 0 ∨ r = 1) with rfl | rfl <;> simp [set]

end Fclaw.Output

namespace Fclaw.Tikz

open Fclaw.ParFile (Distribution Outcome)
open Fclaw.Output

theorem before_eq {lib : Stdio} {A : Fmt} {fl : ℚ → ℚ} {X : Setting} {r : Nat} {hd t : Text}
    (hi : X.iframe < 10 ^ 10) (hh : header A fl X.P X.iframe = .ok hd)
    (ht : printed fl X r = .ok t) :
    inside lib A fl X 0 r = .ok ((if r = 0 then [.clear (fileName X.iframe),
      .append (fileName X.iframe) hd] else []) ++ (lib.full t).map (.append (fileName X.iframe))) := by
  unfold inside beforeLeave
  rw [fname_eq hi]
  simp only [bind_ok]
  rw [show patchesText fl X.P ((localDom X.F X.D r).map patchOf) = .ok t from ht]
  have e : ((localDom X.F X.D r).map patchOf).mpirank = r := rfl
  rw [e, hh]
  by_cases hr : r = 0
  · rw [if_pos hr, if_pos hr]; rfl
  · rw [if_neg hr, if_neg hr]; rfl

theorem after_eq {lib : Stdio} {fl : ℚ → ℚ} {X : Setting} {r : Nat} {t : Text}
    (hi : X.iframe < 10 ^ 10) (ht : printed fl X r = .ok t) :
    afterward lib fl X 0 r = .ok ((if lib.rest t = [] then [] else [lib.rest t]).map
      (.append (fileName X.iframe))) := by
  unfold afterward afterLeave
  rw [fname_eq hi]
  simp only [bind_ok]
  rw [show patchesText fl X.P ((localDom X.F X.D r).map patchOf) = .ok t from ht]
  simp only [bind_ok]
  congr 1
  split <;> rfl

theorem finish_eq {iframe : Nat} (hi : iframe < 10 ^ 10) (fs : Files) :
    finish iframe fs = .ok (apply fs (.append (fileName iframe) footer)) := by
  unfold finish; rw [fname_eq hi]; rfl

/-- Two runs of two processes: what is left in the buffers is written in either order. -/
theorem two_files {lib : Stdio} {A : Fmt} {fl : ℚ → ℚ} {X : Setting} {hd t0 t1 : Text}
    (hn : X.D.mpisize = 2) (hi : X.iframe < 10 ^ 10) (hh : header A fl X.P X.iframe = .ok hd)
    (h0 : printed fl X 0 = .ok t0) (h1 : printed fl X 1 = .ok t1) (fs0 : Files) :
    (∃ fs, Completes lib A fl X fs0 fs ∧ fs (fileName X.iframe) = some (hd ++
      (lib.full t0).flatten ++ (lib.full t1).flatten ++ lib.rest t0 ++ lib.rest t1 ++ footer)) ∧
    (∃ fs, Completes lib A fl X fs0 fs ∧ fs (fileName X.iframe) = some (hd ++
      (lib.full t0).flatten ++ (lib.full t1).flatten ++ lib.rest t1 ++ lib.rest t0 ++ footer)) := by
  have b0 := before_eq (lib := lib) hi hh h0
  have b1 := before_eq (lib := lib) hi hh h1
  have a0 := after_eq (lib := lib) hi h0
  have a1 := after_eq (lib := lib) hi h1
  have fl0 : ∀ t : Text, (if lib.rest t = [] then [] else [lib.rest t]).flatten = lib.rest t := by
    intro t
    split
    · rename_i h; rw [h]; rfl
    · simp
  have step : ∀ (ts : List Text) (s : Text), (ts.map (Op.append (fileName X.iframe))).foldl apply
      (apply (apply fs0 (.clear (fileName X.iframe))) (.append (fileName X.iframe) s))
      (fileName X.iframe) = some (s ++ ts.flatten) := by
    intro ts s
    apply appends
    simp [apply]
  refine ⟨?_, ?_⟩
  · obtain ⟨w, w1, w2, w3⟩ := run_forward (apply := apply) (fs0 := fs0) b0 b1 a0 a1
    refine ⟨_, ⟨w, by rw [hn]; exact w1, by rw [hn]; exact w2, finish_eq hi _⟩, ?_⟩
    have : w.fs (fileName X.iframe) = some (hd ++ (lib.full t0).flatten ++
        (lib.full t1).flatten ++ lib.rest t0 ++ lib.rest t1) := by
      rw [w3, if_pos rfl, if_neg (by omega), List.nil_append, List.append_assoc, List.append_assoc,
        List.append_assoc, ← List.map_append, ← List.map_append, ← List.map_append,
        List.foldl_append, List.foldl_cons, List.foldl_cons, List.foldl_nil, step]
      simp only [List.flatten_append, fl0, List.append_assoc]
    simp [apply, this]
  · obtain ⟨w, w1, w2, w3⟩ := run_backward (apply := apply) (fs0 := fs0) b0 b1 a0 a1
    refine ⟨_, ⟨w, by rw [hn]; exact w1, by rw [hn]; exact w2, finish_eq hi _⟩, ?_⟩
    have : w.fs (fileName X.iframe) = some (hd ++ (lib.full t0).flatten ++
        (lib.full t1).flatten ++ lib.rest t1 ++ lib.rest t0) := by
      rw [w3, if_pos rfl, if_neg (by omega), List.nil_append, List.append_assoc, List.append_assoc,
        List.append_assoc, ← List.map_append, ← List.map_append, ← List.map_append,
        List.foldl_append, List.foldl_cons, List.foldl_cons, List.foldl_nil, step]
      simp only [List.flatten_append, fl0, List.append_assoc]
    simp [apply, this]

end Fclaw.Tikz
