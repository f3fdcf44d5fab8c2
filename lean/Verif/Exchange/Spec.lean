import Verif.Exchange.Model
/-
What is assumed about the forest (p4est and `fclaw2d_domain_new`, see property C06) and about the
state of the exchange structure between exchanges.
-/
set_option autoImplicit false
namespace Fclaw.Exchange

/-- The world is consistent: flags mark the mirrors, mirrors are in order, ghosts exist on their
owners as mirrors with the same level, levels lie in the global range, all packed data have the
announced size. -/
structure Consistent (w : World) : Prop where
  mirrorsSorted : ∀ p, (w.mirrors p).Pairwise (· < ·)
  mirrorsRange : ∀ p, ∀ m ∈ w.mirrors p, m < (w.blocks p).flatten.length
  flags : ∀ (p n : Nat) (q : Patch), (w.blocks p).flatten[n]? = some q → (q.flag = true ↔ n ∈ w.mirrors p)
  ghostOwner : ∀ r, ∀ g ∈ w.ghosts r, g.owner < w.nproc
  ghostMirror : ∀ r, ∀ g ∈ w.ghosts r, g.localNum ∈ w.mirrors g.owner
  ghostLevel : ∀ r, ∀ g ∈ w.ghosts r, ∀ q, (w.blocks g.owner).flatten[g.localNum]? = some q →
    q.level = g.level
  levels : ∀ p, ∀ q ∈ (w.blocks p).flatten, w.globalMin ≤ q.level ∧ q.level ≤ w.globalMax
  size : ∀ p, ∀ q ∈ (w.blocks p).flatten, ∀ b, (q.packed b).length = w.dataSize

/-- The exchange structure of process `p` has buffers for all its exchange and ghost patches and no
exchange is active. -/
structure Ready (w : World) (e : Nat → Exch) (p : Nat) : Prop where
  dataSize : (e p).dataSize = w.dataSize
  sends : (e p).patchData.length = (w.mirrors p).length
  slots : (e p).ghostData.length = (w.ghosts p).length
  inside : ∀ (i o : Nat), (e p).ghostData[i]? = some o → o + w.dataSize ≤ (e p).memory.length
  slotAt : ∀ (i o : Nat), (e p).ghostData[i]? = some o → o = i * w.dataSize
  idle : (e p).sent = none ∧ (e p).insideAsync = false

end Fclaw.Exchange
