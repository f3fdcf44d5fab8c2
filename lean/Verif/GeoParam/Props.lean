/-
C119: the parameters of a GeoClaw run are those of geoclaw.data.
-/
import Verif.GeoParam.Spec
import Mathlib.Tactic.NormNum

set_option autoImplicit false
set_option linter.unusedSimpArgs false

namespace Fclaw.GeoParam

open Fclaw.GeoParam.Spec

theorem readK_entry (vals note : List Tok) (k : Nat) (hk : vals.length = k) (rest : File) :
    readK k (entry vals note :: rest) = some (vals, rest) := by
  unfold readK entry
  rw [if_pos (by simp [← hk]), ← hk, List.take_left']
  rfl

theorem readK_zero (l : List Tok) (rest : File) : readK 0 (l :: rest) = some ([], rest) := by
  simp [readK]

theorem read1_entry {α : Type} (conv : Tok → Option α) (t : Tok) (x : α) (h : conv t = some x) (note : List Tok)
    (rest : File) : read1 conv (entry [t] note :: rest) = some (x, rest) := by
  unfold read1
  rw [readK_entry [t] note 1 rfl]
  simp [h]

theorem mapM_real (xs : List ℚ) : (xs.map Tok.real).mapM asReal = some xs := by
  induction xs with
  | nil => rfl
  | cons x xs ih => simp [List.mapM_cons, ih, asReal]

theorem reals_entry (xs : List ℚ) (k : Nat) (hk : xs.length = k) (note : List Tok) (rest : File) :
    reals k (entry (xs.map Tok.real) note :: rest) = some (xs, rest) := by
  unfold reals
  rw [readK_entry _ note k (by simpa using hk), Option.bind_some]
  dsimp only
  rw [mapM_real]
  rfl

theorem countValues_entry (xs : List ℚ) (hx : xs ≠ []) (note : List Tok) :
    countValues (entry (xs.map Tok.real) note) = xs.length := by
  unfold countValues
  rw [if_pos (by simp [entry])]
  unfold entry
  rw [List.takeWhile_append_of_pos (by
    intro t ht
    obtain ⟨x, -, rfl⟩ := List.mem_map.1 ht
    simp)]
  have : 1 ≤ xs.length := List.length_pos_iff.2 hx
  simp
  omega

theorem realLine_entry (xs : List ℚ) (hx : xs ≠ []) (note : List Tok) (rest : File) :
    realLine (entry (xs.map Tok.real) note :: rest) = some (xs, rest) := by
  rw [realLine, countValues_entry xs hx, reals_entry xs _ rfl]
  rfl

theorem readCoriolis_lines (system : ℤ) (c : Bool) (t : ℚ) (ht : ¬ (system = 1 ∧ c = true) → t = 0)
    (n1 n2 : List Tok) (rest : File) :
    readCoriolis system (entry [.flag c] n1 :: ((if system = 1 ∧ c = true then [entry [.real t] n2] else []) ++ rest)) =
      some ((c, t), rest) := by
  unfold readCoriolis
  rw [read1_entry asFlag (.flag c) c rfl, Option.bind_some]
  dsimp only
  by_cases h : system = 1 ∧ c = true
  · rw [if_pos h, if_pos h, List.cons_append, List.nil_append, read1_entry asReal (.real t) t rfl]
    rfl
  · rw [if_neg h, if_neg h, ht h]
    rfl

theorem readFriction_lines (inf : ℚ) (p : Params) (breaks : List ℚ) (hs : Sound inf p breaks) (n : Nat → List Tok)
    (rest : File) :
    readFriction inf (entry [.flag p.friction] (n 9) :: ((if p.friction = true then
      [ entry [.int p.manning.length] (n 10), entry (p.manning.map .real) (n 11),
        entry (breaks.map .real) (n 12), entry [.real p.depth] (n 13) ] else []) ++ rest)) =
      some ((p.friction, p.manning, p.breaks, p.depth), rest) := by
  unfold readFriction
  rw [read1_entry asFlag (.flag p.friction) p.friction rfl, Option.bind_some]
  dsimp only
  cases hf : p.friction
  · obtain ⟨h1, h2, h3⟩ := hs.off hf
    simp [h1, h2, h3]
  · obtain ⟨h1, h2⟩ := hs.on hf
    rw [if_pos rfl, if_pos rfl]
    simp only [List.cons_append, List.nil_append]
    rw [read1_entry asInt (.int p.manning.length) p.manning.length rfl, Option.bind_some]
    dsimp only
    rw [if_neg (by omega), Int.toNat_natCast, reals_entry p.manning _ rfl, Option.bind_some]
    dsimp only
    rw [reals_entry breaks _ (by omega), Option.bind_some]
    dsimp only
    rw [read1_entry asReal (.real p.depth) p.depth rfl, h1]
    rfl

/-- The parameters are those of the file, whatever the descriptions of the lines say, if the coordinate system fits the
capacity function; if not, the run stops. -/
theorem C119_parameters (inf : ℚ) (mcapa : ℤ) (p : Params) (breaks : List ℚ) (hs : Sound inf p breaks)
    (note : Nat → List Tok) (rest : File) :
    (Fits p.system mcapa → setGeo inf mcapa (lines p breaks note ++ rest) = some p) ∧
    (¬ Fits p.system mcapa → setGeo inf mcapa (lines p breaks note ++ rest) = none) := by
  have h : setGeo inf mcapa (lines p breaks note ++ rest) =
      if p.system > 1 ∧ mcapa = 0 then none else if p.system = 1 ∧ mcapa > 0 then none else some p := by
    unfold setGeo lines
    simp only [List.append_assoc, List.cons_append, List.nil_append]
    rw [read1_entry asReal (.real p.grav) p.grav rfl, Option.bind_some]
    dsimp only
    rw [realLine_entry p.rho hs.rho, Option.bind_some]
    dsimp only
    rw [read1_entry asReal (.real p.rhoAir) p.rhoAir rfl, Option.bind_some]
    dsimp only
    rw [read1_entry asReal (.real p.pressure) p.pressure rfl, Option.bind_some]
    dsimp only
    rw [read1_entry asReal (.real p.radius) p.radius rfl, Option.bind_some]
    dsimp only
    rw [read1_entry asInt (.int p.system) p.system rfl, Option.bind_some]
    dsimp only
    rw [read1_entry asReal (.real p.seaLevel) p.seaLevel rfl, Option.bind_some]
    dsimp only
    rw [readK_zero, Option.bind_some]
    dsimp only
    rw [readCoriolis_lines p.system p.coriolis p.theta0 hs.theta, Option.bind_some]
    dsimp only
    rw [readFriction_lines inf p breaks hs note, Option.bind_some]
    dsimp only
    rw [readK_zero, Option.bind_some]
    dsimp only
    rw [read1_entry asReal (.real p.dry) p.dry rfl, Option.bind_some]
  rw [h]
  unfold Fits
  constructor
  · rintro ⟨h1, h2⟩
    rw [if_neg h1, if_neg h2]
  · intro hn
    by_cases h1 : p.system > 1 ∧ mcapa = 0
    · rw [if_pos h1]
    · by_cases h2 : p.system = 1 ∧ mcapa > 0
      · rw [if_neg h1, if_pos h2]
      · exact absurd ⟨h1, h2⟩ hn

/-! ### The hypotheses can be met -/

/-- Friction with two coefficients, Coriolis force in Cartesian coordinates. -/
def paramsX : Params :=
  { grav := 981 / 100, rho := [1025, 1030], rhoAir := 1, pressure := 101300, radius := 6367500, system := 1, seaLevel := 0,
    coriolis := true, theta0 := 45, friction := true, manning := [1 / 40, 3 / 100], breaks := [0, 10 ^ 100],
    depth := 200, dry := 1 / 1000 }

example : Sound (10 ^ 100) paramsX [0] ∧ Fits paramsX.system 0 ∧ ¬ Fits paramsX.system 2 :=
  ⟨⟨by decide, by decide, by decide, fun _ => ⟨rfl, rfl⟩⟩, by unfold Fits paramsX; decide, by unfold Fits paramsX; decide⟩

/-- No friction, on a sphere. -/
def paramsY : Params :=
  { grav := 981 / 100, rho := [1025], rhoAir := 1, pressure := 101300, radius := 6367500, system := 2, seaLevel := 0,
    coriolis := true, theta0 := 0, friction := false, manning := [], breaks := [], depth := 10 ^ 100, dry := 1 / 1000 }

example : Sound (10 ^ 100) paramsY [] ∧ Fits paramsY.system 2 ∧ ¬ Fits paramsY.system 0 :=
  ⟨⟨by decide, fun _ => rfl, fun _ => ⟨rfl, rfl, rfl⟩, by decide⟩, by unfold Fits paramsY; decide, by unfold Fits paramsY; decide⟩

end Fclaw.GeoParam
