/-
The whole VTK file.
-/
import Verif.Vtk.Read
import Verif.Vtk.Header

set_option autoImplicit false

namespace Fclaw.Vtk

open Fclaw.ParFile (Byte File Outcome Distribution fileOf)

theorem Valid.ctx {R : Type} {N : Arith R} {p : Params} {F : Forest R} {D : Distribution F.count}
    (h : Valid N p F D) : Ctx N p F D :=
  ⟨h.arith, h.fits, h.patches, h.procs, h.blocks⟩

theorem file_of {R : Type} {N : Arith R} {p : Params} {F : Forest R} {D : Distribution F.count}
    (h : Valid N p F D) (debug : Bool) (sched : List (Nat × Byte) → List (Nat × Byte))
    (hs : ∀ l, (sched l).Perm l) :
    writeFileMpiio N p debug false false sched F.count (localDoms F D)
      = .ok (fileOf ((vtuOf p F.count).xml ++ payload F (arrays N p F D) ++ trailer)) := by
  unfold writeFileMpiio
  rw [setup_eq h.fits]
  have := file_eq h.some debug sched hs (arrays N p F D) h.ctx.ok (arrays_chained N p F D)
    (headerText p (stateOf p F.count)) footerText _ (arrays_end N p F D)
  rw [arrays_fields] at this
  rw [← headerText_eq]
  exact this

theorem named (p : Params) (n : Nat) : (vtuOf p n).Named p.meqn :=
  ⟨⟨rfl, rfl⟩, ⟨rfl, rfl⟩, ⟨rfl, rfl⟩, ⟨rfl, rfl⟩, ⟨rfl, rfl⟩, ⟨rfl, rfl⟩, ⟨rfl, rfl⟩,
    ⟨rfl, meqn_components p n⟩⟩

theorem shows {R : Type} {N : Arith R} {p : Params} {F : Forest R} {D : Distribution F.count}
    (h : Valid N p F D) : Shows N p F D (vtuOf p F.count) (payload F (arrays N p F D)) where
  numPoints := Nat.mul_comm _ _
  numCells := Nat.mul_comm _ _
  cells := fun _ _ _ hx _ hr hr1 hr2 _ _ _ hi hj hk => h.ctx.read_cell hx hr hr1 hr2 hi hj hk

/-- No array is without data. -/
theorem nonempty {R : Type} {N : Arith R} {p : Params} {F : Forest R} {D : Distribution F.count}
    (hfit : Fits p F.count) (hcells : 0 < p.cells) (hmeqn : 0 < p.meqn) :
    ∀ e ∈ arrays N p F D, e.f.psize ≠ 0 := by
  have hi : 0 < isz p F.count := by rcases isz_cases p F.count with h | h <;> omega
  have hco := (corners_le p).1
  have hpt := points_pos p
  intro e he
  simp only [arrays, List.mem_cons, List.not_mem_nil, or_false] at he
  rcases he with rfl | rfl | rfl | rfl | rfl | rfl | rfl | rfl
  · change p.points * 3 * 8 ≠ 0; omega
  · change p.cells * p.corners * isz p F.count ≠ 0
    exact (Nat.mul_pos (Nat.mul_pos hcells (by omega)) hi).ne'
  · change p.cells * isz p F.count ≠ 0; exact (Nat.mul_pos hcells hi).ne'
  · change p.cells * 1 ≠ 0; omega
  · change p.cells * 4 ≠ 0; omega
  · change p.cells * 4 ≠ 0; omega
  · change p.cells * isz p F.count ≠ 0; exact (Nat.mul_pos hcells hi).ne'
  · change p.cells * p.meqn * 4 ≠ 0
    exact (Nat.mul_pos (Nat.mul_pos hcells hmeqn) (by omega)).ne'

/-- Sizes for which the connectivity of a patch overflows. -/
theorem setup_overflow (mx my mbc meqn n : Nat) (manifold : Bool)
    (h1 : (mx + 1) * (my + 1) * 3 ≤ intMax) (h2 : mx * my * 4 ≤ intMax)
    (h3 : ¬ 4 * (mx * my * n + 1) ≤ intMax) (h4 : ¬ mx * my * 4 * 8 ≤ intMax) :
    setup ⟨mx, my, none, mbc, meqn, manifold⟩ n = .ub := by
  have ck : ∀ a, a ≤ intMax → ckInt a = .ok a := fun a ha => if_pos ha
  have e1 := ck ((mx + 1) * (my + 1)) (by omega)
  have e2 := ck (mx * my) (by omega)
  have e3 := ck _ h1
  have e4 := ck _ h2
  have e5 : ckInt (mx * my * 4 * 8) = .ub := if_neg h4
  have e6 : ∀ (P : Prop) [Decidable P], ¬ P → (if decide P = true then 4 else 8) = 8 :=
    fun P _ h => if_neg (by simpa using h)
  unfold setup
  simp only [e1, e2, e3, bind_ok]
  rw [e6 _ (fun h => h3 h.2)]
  change (ckInt (mx * my * 4)).bind _ = _
  rw [e4, bind_ok, e5]
  rfl

end Fclaw.Vtk
