/-
What C63 claims: the total mass of a mesh, through any history of steps and synchronisations.
-/
import Verif.Conserve.Model
import Verif.TimeSync.Spec
import Verif.Correction.Spec

set_option autoImplicit false
namespace Fclaw.Conserve

open Fort CopyGhost Correction GhostFill TimeSync

/-- Solutions and registers of all patches, each on its owner. -/
structure World where
  q : Nat → Grid ℚ
  r : Nat → Regs

def World.set (W : World) (x : Nat) (q : Grid ℚ) (r : Regs) : World :=
  ⟨fun z => if z = x then q else W.q z, fun z => if z = x then r else W.r z⟩

variable {d : Dims}

/-- Mass of component `m` in the whole domain. -/
def totalMass (M : Mesh) (G : Nat → Geom d) (W : World) (m : ℤ) : ℚ :=
  ∑ x ∈ M.patches.toFinset, mass d (G x).area (W.q x) m

/-- What entered a patch with registers `r` at the physical boundary, according to the registers. -/
def inflow (M : Mesh) (x : Nat) (r : Regs) (m : ℤ) : ℚ :=
  ∑ f ∈ (Finset.range 4).filter (fun f => isBoundary (M.face x f) = true), gainFace d r f m

/-- What the registers at faces between patches still hold. -/
def pending (d : Dims) (M : Mesh) (W : World) (m : ℤ) : ℚ :=
  ∑ x ∈ M.patches.toFinset, ∑ f ∈ (Finset.range 4).filter (fun f => isBoundary (M.face x f) = false),
    gainFace d (W.r x) f m

/-- A synchronisation of the levels from `minl` on: every process starts with the solutions and registers
of its own patches, and with the registers of its ghost patches as their owners have them (the ghost exchange
comes right before, src/fclaw2d_advance.c:294-340); all else is arbitrary. -/
structure Synced (d : Dims) (M : Mesh) (L : Links) (minl top : Int) (W W' : World) : Prop where
  each : ∀ p, ∃ s s', (∀ x, Has M p x → s.reg x = W.r x) ∧
    (∀ x ∈ M.patches, M.owner x = p → s.q x = W.q x) ∧
    syncProcess d M L p minl top s = some s' ∧
    ∀ x ∈ M.patches, M.owner x = p → W'.q x = s'.q x ∧ W'.r x = s'.reg x

/-- Histories: patches make steps, in any order and of any lengths, with any ghost values and any conservative
Riemann solver; and levels are synchronised. `B` is what entered through the physical boundary. -/
inductive History (d : Dims) (M : Mesh) (L : Links) (G : Nat → Geom d) (rpn : Rpn) (top : Int) (W0 : World) :
    World → (ℤ → ℚ) → Prop
  | start : History d M L G rpn top W0 W0 (fun _ => 0)
  | steps (W : World) (B : ℤ → ℚ) (x : Nat) (q : Grid ℚ) (r : Regs) :
      History d M L G rpn top W0 W B → x ∈ M.patches → Evolves d (G x) rpn (W.q x) (W.r x) q r →
      History d M L G rpn top W0 (W.set x q r)
        (fun m => B m + (inflow (d := d) M x r m - inflow (d := d) M x (W.r x) m))
  | sync (W W' : World) (B : ℤ → ℚ) (minl : Int) :
      History d M L G rpn top W0 W B → Synced d M L minl top W W' → History d M L G rpn top W0 W' B

/-- The pairs of neighbours are as the mesh says. -/
structure Linked (d : Dims) (M : Mesh) (L : Links) : Prop where
  same : ∀ x ∈ M.patches, ∀ f < 4, ∀ y rf, M.face x f = .same y rf →
    SameLink d (L.td x f y).transform f (L.td x f y).this (L.td x f y).neighbor ∧ otherFace (L.td x f y).transform f = rf
  half : ∀ x ∈ M.patches, ∀ f < 4, ∀ y0 y1 rf, M.face x f = .half y0 y1 rf → ∀ g < 2,
    HalfLink d (L.td x f (pick y0 y1 g)).transform f g (L.td x f (pick y0 y1 g)).this (L.td x f (pick y0 y1 g)).neighbor ∧
    otherFace (L.td x f (pick y0 y1 g)).transform f = rf ∧ MeshFace (L.td x f (pick y0 y1 g)).transform f (L.qtfi x f)

/-- Before the first step: registers are empty and hold the areas of the cells along the faces. -/
def Fresh (d : Dims) (M : Mesh) (G : Nat → Geom d) (W : World) : Prop :=
  ∀ x ∈ M.patches, ∃ area el, W.r x = Regs.empty area el ∧ HasAreas d (G x) (W.r x)

end Fclaw.Conserve
