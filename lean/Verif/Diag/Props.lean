/-
C53: the reported masses are those of the whole domain.
C65: the reported error norms are those of the whole domain.
-/
import Verif.Diag.Lemmas
import Verif.Conserve.Props

set_option autoImplicit false
set_option linter.unusedSimpArgs false
set_option linter.unusedVariables false

namespace Fclaw.Diag

open Fclaw.Fort

theorem runCalls_spec (o : Opts) (d : Dims) (n : Nat) (hn : 1 ≤ n) (cs : List Call) :
    ∀ (mass0 : Nat → ℚ) (accs : List Acc), accs.length = n → (∀ c ∈ cs, c.Ok o d n) →
    (∀ a ∈ accs, Holds o d mass0 [] a) →
    ∃ accs' rs, runCalls o d cs accs = some (accs', rs) ∧ rs.length = cs.length ∧
      (∀ a ∈ accs', ∀ m, m < d.meqn → a.cKahan m = 0) ∧
      ∀ (k : Nat) (c : Call) (r : Report), cs[k]? = some c → rs[k]? = some r →
        (o.conservation = true → ∀ m, m < d.meqn → r.mass m = mass o d c.all m ∧
          r.deviation m = |mass o d c.all m - reference o d (cs.take (k + 1)) m (mass0 m)|) ∧
        (o.computeError = true → o.patchError = true → ∀ m, m < d.meqn →
          r.error1 m = sum1 o d c.all m / area o d c.all ∧
          r.error2 m = sum2 o d c.all m / area o d c.all ∧ IsMax d c.all m (r.errorInf m)) := by
  induction cs with
  | nil =>
    intro mass0 accs hl _ hh
    exact ⟨accs, [], rfl, rfl, fun a ha m _ => (hh a ha).kahan m, by simp⟩
  | cons c cs ih =>
    intro mass0 accs hl hok hh
    obtain ⟨a1, r, e1, l1, h1, g1, g2⟩ :=
      diagnostics_spec o d n hn c (hok c (by simp)) mass0 accs hl hh
    obtain ⟨a2, rs, e2, l2, h2, g3⟩ := ih _ a1 l1 (fun x hx => hok x (List.mem_cons_of_mem _ hx)) h1
    refine ⟨a2, r :: rs, by simp only [runCalls, e1, e2], by simp [l2], h2, ?_⟩
    intro k c' r' hc hr
    cases k with
    | zero =>
      simp only [List.getElem?_cons_zero, Option.some.injEq] at hc hr
      subst hc hr
      refine ⟨fun h m hm => ⟨(g1 h m hm).1, ?_⟩, g2⟩
      rw [(g1 h m hm).2, List.take_succ_cons, List.take_zero]
      rfl
    | succ k =>
      rw [List.getElem?_cons_succ] at hc hr
      obtain ⟨k1, k2⟩ := g3 k c' r' hc hr
      refine ⟨fun h m hm => ⟨(k1 h m hm).1, ?_⟩, k2⟩
      rw [(k1 h m hm).2, List.take_succ_cons]
      simp only [reference, h, true_and]

theorem init_holds (o : Opts) (d : Dims) : Holds o d (fun _ => 0) [] Acc.init :=
  ⟨fun _ _ => rfl, fun _ => rfl, fun _ => rfl, fun _ _ _ => rfl,
    fun _ _ _ _ => ⟨rfl, rfl, ⟨⟨le_refl _, by simp⟩, Or.inl rfl⟩⟩⟩

/-- **C53**. With the conservation check enabled, a run of diagnostics on any number of processes,
with any patches on each of them at each call, completes, and each call reports for each variable
* the sum over all cells of all patches of value times area, and
* the difference to that sum at the last call with `init_flag` (zero if there was none).
The compensation is zero at the end. -/
theorem C53 (o : Opts) (ho : o.conservation = true) (d : Dims) (n : Nat) (hn : 1 ≤ n)
    (cs : List Call) (hok : ∀ c ∈ cs, c.Ok o d n) :
    ∃ accs rs, run o d n cs = some (accs, rs) ∧ rs.length = cs.length ∧
      (∀ a ∈ accs, ∀ m, m < d.meqn → a.cKahan m = 0) ∧
      ∀ (k : Nat) (c : Call) (r : Report), cs[k]? = some c → rs[k]? = some r → ∀ m, m < d.meqn →
        r.mass m = mass o d c.all m ∧
        r.deviation m = |mass o d c.all m - reference o d (cs.take (k + 1)) m 0| := by
  obtain ⟨accs, rs, e, l, h, g⟩ := runCalls_spec o d n hn cs (fun _ => 0)
    (List.replicate n Acc.init) (List.length_replicate ..) hok
    (fun a ha => by rw [List.eq_of_mem_replicate ha]; exact init_holds o d)
  exact ⟨accs, rs, e, l, h, fun k c r hc hr => (g k c r hc hr).1 ho⟩

/-- The report depends only on which patches there are, not on their order, not on their
distribution over the processes, and not on the number of processes. -/
theorem C53_distribution (o : Opts) (ho : o.conservation = true) (d : Dims) (n n' : Nat)
    (hn : 1 ≤ n) (hn' : 1 ≤ n') (cs cs' : List Call) (hok : ∀ c ∈ cs, c.Ok o d n)
    (hok' : ∀ c ∈ cs', c.Ok o d n')
    (h : List.Forall₂ (fun c c' : Call => c.all.Perm c'.all ∧ c.init = c'.init) cs cs')
    (accs accs' : List Acc) (rs rs' : List Report) (hr : run o d n cs = some (accs, rs))
    (hr' : run o d n' cs' = some (accs', rs')) (k : Nat) (r r' : Report)
    (hk : rs[k]? = some r) (hk' : rs'[k]? = some r') (m : Nat) (hm : m < d.meqn) :
    r.mass m = r'.mass m ∧ r.deviation m = r'.deviation m := by
  obtain ⟨a, q, e, l, -, g⟩ := C53 o ho d n hn cs hok
  obtain ⟨a', q', e', l', -, g'⟩ := C53 o ho d n' hn' cs' hok'
  rw [hr] at e
  rw [hr'] at e'
  simp only [Option.some.injEq, Prod.mk.injEq] at e e'
  obtain ⟨rfl, rfl⟩ := e
  obtain ⟨rfl, rfl⟩ := e'
  have hlt : k < cs.length := by rw [← l]; exact (List.getElem?_eq_some_iff.1 hk).1
  have hlt' : k < cs'.length := by rw [← l']; exact (List.getElem?_eq_some_iff.1 hk').1
  obtain ⟨g1, g2⟩ := g k cs[k] r (List.getElem?_eq_getElem hlt) hk m hm
  obtain ⟨g1', g2'⟩ := g' k cs'[k] r' (List.getElem?_eq_getElem hlt') hk' m hm
  have hp : cs[k].all.Perm cs'[k].all := (h.get hlt hlt').1
  have href : ∀ (j : Nat) (old : ℚ), reference o d (cs.take j) m old
      = reference o d (cs'.take j) m old := by
    clear g g' l l' hlt hlt' g1 g2 g1' g2' hp hr hr' hok hok'
    induction h with
    | nil => intro j old; simp
    | cons h1 _ ih =>
      intro j old
      cases j with
      | zero => simp
      | succ j =>
        simp only [List.take_succ_cons, reference]
        rw [ih, h1.2, mass_perm o d _ _ h1.1 m]
  rw [g1, g1', g2, g2', href, mass_perm o d _ _ hp m]
  exact ⟨rfl, rfl⟩

/-- **C65**. With error computation enabled, each call reports for each variable, over all cells of
all patches of all processes, the sum of errors times areas divided by the total area, the sum of
squared errors times areas divided by the total area (under the square root), and the largest error. -/
theorem C65 (o : Opts) (ho : o.computeError = true) (hp : o.patchError = true) (d : Dims) (n : Nat)
    (hn : 1 ≤ n) (cs : List Call) (hok : ∀ c ∈ cs, c.Ok o d n) :
    ∃ accs rs, run o d n cs = some (accs, rs) ∧ rs.length = cs.length ∧
      ∀ (k : Nat) (c : Call) (r : Report), cs[k]? = some c → rs[k]? = some r → ∀ m, m < d.meqn →
        r.error1 m = sum1 o d c.all m / area o d c.all ∧
        r.error2 m = sum2 o d c.all m / area o d c.all ∧
        IsMax d c.all m (r.errorInf m) := by
  obtain ⟨accs, rs, e, l, _, g⟩ := runCalls_spec o d n hn cs (fun _ => 0)
    (List.replicate n Acc.init) (List.length_replicate ..) hok
    (fun a ha => by rw [List.eq_of_mem_replicate ha]; exact init_holds o d)
  exact ⟨accs, rs, e, l, fun k c r hc hr => (g k c r hc hr).2 ho hp⟩

/-- With a mapping in use but no metric terms, the diagnostics read through a null pointer: the check
for a mapping and the definition of areas are controlled by different options. -/
theorem C53_mapped_counterexample : ∃ (o : Opts) (d : Dims) (c : Call),
    o.conservation = true ∧ o.mapped = true ∧ c.patches.length = 1 ∧ run o d 1 [c] = none :=
  ⟨⟨false, true, true, false⟩, ⟨1, 1, 1, 1⟩,
    ⟨[[⟨fun _ => 0, fun _ => 0, none, 1, 1⟩]], true⟩, rfl, rfl, rfl, by decide +kernel⟩

/-! ### The check and conservation (C63) -/

section mesh
open GhostFill Conserve Correction CopyGhost TimeSync

variable {d : Dims}

/-- The diagnostics are called for the patches of a mesh with solutions `q`: each process has its own. -/
def callOf (n : Nat) (M : Mesh) (pt : Nat → Grid ℚ → Patch) (init : Bool) (W : World) : Call :=
  ⟨(List.range n).map fun p => (M.patches.filter fun x => M.owner x = p).map fun x => pt x (W.q x),
    init⟩

theorem indicator_sum (v : ℚ) (a : Nat) : ∀ n, a < n →
    ((List.range n).map fun p => if a = p then v else 0).sum = v := by
  intro n
  induction n with
  | zero => intro h; omega
  | succ n ih =>
    intro h
    rw [List.range_succ, List.map_append, List.sum_append]
    by_cases hxn : a = n
    · have hz : ((List.range n).map fun p => if a = p then v else 0).sum = 0 := by
        apply List.sum_eq_zero
        intro y hy
        rw [List.mem_map] at hy
        obtain ⟨p, hp, rfl⟩ := hy
        rw [List.mem_range] at hp
        rw [if_neg (by omega)]
      rw [hz]
      simp [hxn]
    · rw [ih (by omega)]
      simp [hxn]

theorem filter_sum (f : Nat → ℚ) (own : Nat → Nat) (l : List Nat) (n : Nat)
    (h : ∀ x ∈ l, own x < n) :
    ((List.range n).map fun p => ((l.filter fun x => own x = p).map f).sum).sum = (l.map f).sum := by
  induction l with
  | nil => simp
  | cons x l ih =>
    rw [List.map_cons, List.sum_cons, ← ih (fun y hy => h y (List.mem_cons_of_mem _ hy))]
    have e : ∀ p, (((x :: l).filter fun y => own y = p).map f).sum
        = (if own x = p then f x else 0) + ((l.filter fun y => own y = p).map f).sum := by
      intro p
      by_cases hp : own x = p
      · simp [List.filter_cons, hp]
      · simp [List.filter_cons, hp]
    simp only [e]
    rw [List.sum_map_add, indicator_sum _ _ _ (h x (by simp))]

theorem sum_flatten_map {α : Type} (f : α → ℚ) (l : List (List α)) :
    (l.flatten.map f).sum = (l.map fun x => (x.map f).sum).sum := by
  induction l with
  | nil => rfl
  | cons a l ih => rw [List.flatten_cons, List.map_append, List.sum_append, ih, List.map_cons,
      List.sum_cons]

/-- The sum that the check reports is the total mass of C63. -/
theorem mass_callOf (o : Opts) (n : Nat) (M : Mesh) (hn : M.patches.Nodup)
    (hown : ∀ x ∈ M.patches, M.owner x < n) (G : Nat → Geom d) (pt : Nat → Grid ℚ → Patch)
    (hq : ∀ x q, (pt x q).q = q) (ha : ∀ x q i j, cellArea o (pt x q) i j = (G x).area i j)
    (init : Bool) (W : World) (m : Nat) :
    mass o d (callOf n M pt init W).all m = totalMass M G W (m + 1) := by
  unfold mass Call.all callOf totalMass
  dsimp only
  rw [sum_flatten_map, List.map_map]
  have e : ((fun x => (x.map fun p : Patch => overCells d fun i j => cellArea o p i j *
        p.q (i, j, (m : ℤ) + 1)).sum) ∘ fun p => (M.patches.filter fun x => M.owner x = p).map
          fun x => pt x (W.q x))
      = fun p => ((M.patches.filter fun x => M.owner x = p).map
          fun x => Correction.mass d (G x).area (W.q x) ((m : ℤ) + 1)).sum := by
    funext p
    simp only [Function.comp, List.map_map]
    congr 1
    apply List.map_congr_left
    intro x _
    simp only [Function.comp, hq, ha]
    rfl
  rw [e, filter_sum _ _ _ _ hown, List.sum_toFinset _ hn]

/-- If the diagnostics are called at the start with `init_flag` and again after any history of steps
and a synchronisation of all levels, then the reported masses differ by exactly what entered through
the physical boundary, and the second call reports the size of that as the difference.  Without
physical boundary it reports zero. -/
theorem C53_conserved (o : Opts) (ho : o.conservation = true) (n : Nat) (hn : 1 ≤ n)
    (hd : Sized d) (hp : Proper d) (M : Mesh) (hM : M.Ok) (hnd : M.patches.Nodup)
    (hown : ∀ x ∈ M.patches, M.owner x < n) (L : Links) (hL : Linked d M L)
    (G : Nat → Geom d) (pt : Nat → Grid ℚ → Patch) (hq : ∀ x q, (pt x q).q = q)
    (ha : ∀ x q i j, cellArea o (pt x q) i j = (G x).area i j)
    (rpn : Rpn) (top : Int) (htop : ∀ x ∈ M.patches, M.level x ≤ top) (W0 W W' : World) (B : ℤ → ℚ)
    (h0 : Fresh d M G W0) (h : History d M L G rpn top W0 W B) (minl : Int)
    (hmin : ∀ x ∈ M.patches, minl ≤ M.level x) (hs : Synced d M L minl top W W')
    (hok : ∀ init W, (callOf n M pt init W).Ok o d n)
    (accs : List Acc) (r0 r1 : Report)
    (hr : run o d n [callOf n M pt true W0, callOf n M pt false W'] = some (accs, [r0, r1]))
    (m : Nat) (hm : m < d.meqn) :
    r1.mass m - r0.mass m = B (m + 1) ∧ r1.deviation m = |B (m + 1)| ∧
    ((∀ x ∈ M.patches, ∀ f < 4, M.face x f ≠ .boundary) → r1.deviation m = 0) := by
  obtain ⟨a, q, e, l, -, g⟩ := C53 o ho d n hn
    [callOf n M pt true W0, callOf n M pt false W'] (by
      intro c hc
      simp only [List.mem_cons, List.not_mem_nil, or_false] at hc
      rcases hc with rfl | rfl <;> exact hok _ _)
  rw [hr] at e
  simp only [Option.some.injEq, Prod.mk.injEq] at e
  obtain ⟨rfl, rfl⟩ := e
  obtain ⟨g0, -⟩ := g 0 _ _ rfl rfl m hm
  obtain ⟨g1, g2⟩ := g 1 _ _ rfl rfl m hm
  obtain ⟨hc, hb⟩ := C63_conserved hd hp M hM hnd L hL G rpn top htop W0 W W' B h0 h minl hmin hs
    ((m : ℤ) + 1) (by unfold comp; omega)
  have k0 := mass_callOf o n M hnd hown G pt hq ha true W0 m
  have k1 := mass_callOf o n M hnd hown G pt hq ha false W' m
  simp only [List.take_succ_cons, List.take_zero, reference] at g2
  rw [if_neg (show ¬ (callOf n M pt false W').init = true by simp [callOf]),
    if_pos (show (callOf n M pt true W0).init = true from rfl)] at g2
  rw [g1, g0, g2, k0, k1, hc]
  refine ⟨rfl, rfl, fun h => ?_⟩
  rw [← hc, hb h, sub_self, abs_zero]

/-- The hypotheses hold for the mesh of C63's example, on three processes. -/
example : ∃ W B W' accs r0 r1, History exD lMesh lLinks (fun _ => exGeom) exRpn 2 lWorld W B ∧
    Synced exD lMesh lLinks 1 2 W W' ∧
    run ⟨false, true, true, false⟩ exD 3
      [callOf 3 lMesh (fun _ q => ⟨q, fun _ => 0, some exGeom.area, 0, 0⟩) true lWorld,
       callOf 3 lMesh (fun _ q => ⟨q, fun _ => 0, some exGeom.area, 0, 0⟩) false W']
      = some (accs, [r0, r1]) ∧ r1.mass 0 - r0.mass 0 = B 1 ∧ r1.deviation 0 = |B 1| := by
  have hf : Fresh exD lMesh (fun _ => exGeom) lWorld := fun x _ => ⟨_, _, rfl, fun _ _ _ _ => rfl⟩
  have hp : Proper exD := by unfold Proper; decide
  have hl : ∀ x ∈ lMesh.patches, 1 ≤ lMesh.level x ∧ lMesh.level x ≤ 2 := by decide
  obtain ⟨q, r, h⟩ := exEvolves (lWorld.q 0)
  have hh := History.steps lWorld _ 0 q r (History.start (d := exD) (M := lMesh) (L := lLinks) (G := fun _ => exGeom) (rpn := exRpn)
    (top := 2) (W0 := lWorld)) (by decide) h
  obtain ⟨W', hW⟩ := (C63_progress exSized hp lMesh lMesh_ok (by decide) lLinks lLinked (fun _ => exGeom) exRpn 2 (fun x hx => (hl x hx).2)
    lWorld _ _ hf hh 1).2
  have hok : ∀ init W, (callOf 3 lMesh (fun _ q => ⟨q, fun _ => 0, some exGeom.area, 0, 0⟩) init W).Ok
      ⟨false, true, true, false⟩ exD 3 := by
    intro init W
    refine ⟨by simp [callOf], ?_, fun h => absurd h (by decide)⟩
    intro _ p hp
    simp only [Call.all, callOf, List.mem_flatten, List.mem_map] at hp
    obtain ⟨l, ⟨k, _, rfl⟩, hp⟩ := hp
    rw [List.mem_map] at hp
    obtain ⟨x, _, rfl⟩ := hp
    simp
  obtain ⟨accs, rs, e, l, -, -⟩ := C53 ⟨false, true, true, false⟩ rfl exD 3 (by decide)
    [callOf 3 lMesh (fun _ q => ⟨q, fun _ => 0, some exGeom.area, 0, 0⟩) true lWorld,
     callOf 3 lMesh (fun _ q => ⟨q, fun _ => 0, some exGeom.area, 0, 0⟩) false W'] (by
      intro c hc
      simp only [List.mem_cons, List.not_mem_nil, or_false] at hc
      rcases hc with rfl | rfl <;> exact hok _ _)
  match rs, l with
  | [r0, r1], _ =>
    obtain ⟨g1, g2, _⟩ := C53_conserved ⟨false, true, true, false⟩ rfl 3 (by decide) exSized hp lMesh lMesh_ok
      (by decide) (by decide) lLinks lLinked (fun _ => exGeom) _ (fun _ _ => rfl) (fun _ _ _ _ => rfl)
      exRpn 2 (fun x hx => (hl x hx).2) lWorld _ W' _ hf hh 1 (fun x hx => (hl x hx).1) hW hok accs r0 r1 e
      0 (by decide)
    exact ⟨_, _, W', accs, r0, r1, hh, hW, e, g1, g2⟩

end mesh

/-! ### Example -/

/-- Two processes, one with two patches and one without any; then all on the other process. -/
def exP (v : ℚ) : Patch :=
  ⟨fun c => v + c.1, fun c => v - c.2.1, some fun i j => i + j, 1, 1⟩
def exOpts : Opts := ⟨true, true, true, true⟩
def exDims : Dims := ⟨2, 2, 1, 1⟩
def exCalls : List Call :=
  [⟨[[exP 1, exP 2], []], true⟩, ⟨[[], [exP 2, exP 3]], false⟩]

theorem exOk : ∀ c ∈ exCalls, c.Ok exOpts exDims 2 := by
  intro c hc
  simp only [exCalls, List.mem_cons, List.not_mem_nil, or_false] at hc
  rcases hc with rfl | rfl
  · refine ⟨rfl, ?_, fun _ => by decide +kernel⟩
    intro _ p hp
    simp [Call.all] at hp
    rcases hp with rfl | rfl <;> simp [exP]
  · refine ⟨rfl, ?_, fun _ => by decide +kernel⟩
    intro _ p hp
    simp [Call.all] at hp
    rcases hp with rfl | rfl <;> simp [exP]

example := C53 exOpts rfl exDims 2 (by decide) exCalls exOk
example := C65 exOpts rfl rfl exDims 2 (by decide) exCalls exOk
example : (run exOpts exDims 2 exCalls).map
    (fun x => x.2.map fun r => (r.mass 0, r.deviation 0, r.errorInf 0))
      = some [(74, 0, 1), (98, 24, 2)] := by decide +kernel

end Fclaw.Diag
