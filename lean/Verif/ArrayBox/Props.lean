/-
C43: grid data containers copy by value.
-/
import Verif.ArrayBox.Lemmas
import Mathlib.Tactic.Ring

set_option autoImplicit false
set_option linter.unusedSimpArgs false
set_option linter.unusedVariables false
namespace Fclaw.ArrayBox

variable {V : Type}

/-- Same outcome. -/
def Agree (r : Res (State V)) (r' : Res (Pure V)) : Prop :=
  match r, r' with
  | .ok s, .ok p => Match s p
  | .error e, .error e' => e = e'
  | _, _ => False

theorem put_heap (s : State V) (h : Heap V) (i : Nat) (o : Obj) (hs : s.objs i = some o) : { s with heap := h } = s.put h i (some o) := by
  unfold State.put
  have : (fun k => if k = i then some o else s.objs k) = s.objs := by
    funext k
    split
    · rename_i e; rw [e, hs]
    · rfl
  rw [this]

theorem put_vals (p : Pure V) (i : Nat) (v : Val V) (hp : p.vals i = some v) : p.put i (some v) = p := by
  unfold Pure.put
  have : (fun k => if k = i then some v else p.vals k) = p.vals := by
    funext k
    split
    · rename_i e; rw [e, hp]
    · rfl
  rw [this]

theorem put_put (s : State V) (h h' : Heap V) (i : Nat) (o o' : Option Obj) : (s.put h i o).put h' i o' = s.put h' i o' := by
  unfold State.put
  simp only [State.mk.injEq, and_true, true_and]
  funext k
  split <;> rfl

theorem put_put' (p : Pure V) (i : Nat) (v v' : Option (Val V)) : (p.put i v).put i v' = p.put i v' := by
  unfold Pure.put
  simp only [Pure.mk.injEq, and_true, true_and]
  funext k
  split <;> rfl

theorem match_bufs {s : State V} {p : Pure V} (hm : Match s p) (b : Nat → Cells V) : Match { s with bufs := b } { p with bufs := b } :=
  ⟨rfl, hm.each, hm.inj, hm.owned, hm.fresh⟩

/-- Overwriting all elements of container `i`. -/
theorem agree_store {s : State V} {p : Pure V} (hm : Match s p) (i : Nat) (o : Obj) (v : Val V) (hs : s.objs i = some o)
    (hp : p.vals i = some v) (hv : o.box = v.box ∧ o.fields = v.fields ∧ o.size = v.cells.length ∧ Holds s.heap o.data v.cells)
    (c : Cells V) (hc : v.cells.length ≤ c.length) :
    ∃ h, s.heap.store o.data o.size c = .ok h ∧ Match { s with heap := h } (p.put i (some { v with cells := c.take v.cells.length })) := by
  obtain ⟨h1, h2, h3, h4⟩ := hv
  obtain ⟨g1, g2⟩ := store_holds s.heap o.data v.cells c h4 hc
  rw [h3]
  refine ⟨_, g1, ?_⟩
  rw [put_heap s _ i o hs]
  have hl : (c.take v.cells.length).length = v.cells.length := by rw [List.length_take]; omega
  exact match_set s p hm i o v { v with cells := c.take v.cells.length } o hs hp rfl hl h1 h2 (by rw [h3]; dsimp only; rw [hl])

/-- Copying the elements of container `j` to container `i` of the same size. -/
theorem copy_match {s : State V} {p : Pure V} (hm : Match s p) (i j : Nat) (o f : Obj) (v w : Val V) (hi : s.objs i = some o)
    (hj : s.objs j = some f) (pi : p.vals i = some v) (pj : p.vals j = some w) (hz : o.size = f.size) :
    ∃ c h, s.heap.load f.data f.size = .ok c ∧ s.heap.store o.data f.size c = .ok h ∧
      Match { s with heap := h } (p.put i (some { v with cells := w.cells })) := by
  have a := hm.each i
  have b := hm.each j
  rw [hi, pi] at a
  rw [hj, pj] at b
  obtain ⟨_, _, b3, b4⟩ := b
  have a3 := a.2.2.1
  have hl : v.cells.length = w.cells.length := by omega
  obtain ⟨h, k1, k2⟩ := agree_store hm i o v hi pi a w.cells (by omega)
  refine ⟨w.cells, h, by rw [b3]; exact load_holds _ _ _ b4, by rw [← hz]; exact k1, ?_⟩
  rw [hl, List.take_length] at k2
  exact k2

theorem exec_match (dbg : Option V) {s : State V} {p : Pure V} (hm : Match s p) (op : Op V) (hop : isCopy op = false) :
    Agree (exec dbg s op) (Pure.exec dbg p op) := by
  cases op with
  | copyConstruct i j => simp [isCopy] at hop
  | construct i =>
    unfold exec Pure.exec State.vacant
    rcases match_obj hm i with ⟨e1, e2⟩ | ⟨o, v, e1, e2, _⟩
    · simp only [e1, e2, Option.isSome_none, Bool.false_eq_true, if_false, bind, Except.bind, Agree]
      refine match_put s p hm s.heap i _ _ (fun _ _ _ _ => rfl) ⟨rfl, rfl, rfl, Or.inl ⟨rfl, rfl⟩⟩ ?_ ?_ hm.fresh
      · intro o' n e hd
        obtain rfl := Option.some.inj e
        simp [fresh] at hd
      · intro n hn
        left
        obtain ⟨j, hj⟩ := hm.owned n hn
        refine ⟨j, ?_, hj⟩
        rintro rfl
        obtain ⟨o, h, _⟩ := hj
        rw [e1] at h; simp at h
    · simp [e1, e2, bind, Except.bind, Agree]
  | destroy i =>
    unfold exec Pure.exec State.obj Pure.val
    rcases match_obj hm i with ⟨e1, e2⟩ | ⟨o, v, e1, e2, _, _, _, hh⟩
    · simp [e1, e2, bind, Except.bind, Agree]
    · obtain ⟨h, he, hnx, h1, h4, h5⟩ := free_holds hm i o v.cells e1 hh
      simp only [e1, e2, he, bind, Except.bind, Agree]
      refine match_put s p hm h i none none h1 trivial (by intro o' n e; simp at e) (fun n hn => Or.inl (h4 n hn)) ?_
      intro n hn; rw [hnx] at hn; exact h5 n hn
  | define i b f =>
    unfold exec Pure.exec State.obj Pure.val defineBox
    rcases match_obj hm i with ⟨e1, e2⟩ | ⟨o, v, e1, e2, _, _, hz, hh⟩
    · simp [e1, e2, bind, Except.bind, Agree]
    · simp only [e1, e2, bind, Except.bind]
      cases boxSize b with
      | error e => simp [Agree]
      | ok n =>
        dsimp only
        by_cases hn : n < 0
        · simp [hn, Agree]
        · simp only [hn, if_false]
          cases int32 (n * f) with
          | error e => simp [Agree]
          | ok k =>
            dsimp only
            by_cases hk : k < 0
            · simp [hk, setDataPtr, Agree]
            · obtain ⟨h, d, e, hM⟩ := setDataPtr_spec dbg hm i o v e1 e2 hz hh k (by omega) b f
              rw [e]
              simp only [hk, if_false, Agree]
              exact hM
  | assign i j =>
    unfold exec Pure.exec State.obj Pure.val
    rcases match_obj hm i with ⟨e1, e2⟩ | ⟨o, v, e1, e2, _, _, hz, hh⟩
    · simp [e1, e2, bind, Except.bind, Agree]
    · rcases match_obj hm j with ⟨f1, f2⟩ | ⟨f, w, f1, f2, w1, w2, w3, w4⟩
      · simp [e1, e2, f1, f2, bind, Except.bind, Agree]
      · obtain ⟨h, d, e, hM⟩ := setDataPtr_spec dbg hm i o v e1 e2 hz hh f.size (by omega) f.box f.fields
        simp only [e1, e2, f1, f2, e, bind, Except.bind]
        by_cases hij : i = j
        · subst hij
          rw [e1] at f1; rw [e2] at f2
          obtain rfl := Option.some.inj f1
          obtain rfl := Option.some.inj f2
          obtain ⟨c, h', k1, k2, k3⟩ := copy_match hM i i ⟨d, o.size, o.box, o.fields⟩ ⟨d, o.size, o.box, o.fields⟩
            ⟨o.box, o.fields, resize dbg v.cells o.size.toNat⟩ ⟨o.box, o.fields, resize dbg v.cells o.size.toNat⟩
            (by simp [State.put]) (by simp [State.put]) (by simp [Pure.put]) (by simp [Pure.put]) rfl
          have q : (s.put h i (some ⟨d, o.size, o.box, o.fields⟩)).objs i = some ⟨d, o.size, o.box, o.fields⟩ := by simp [State.put]
          rw [put_put'] at k3
          have ev : o.size.toNat = v.cells.length := by omega
          simp only [q]
          rw [k1]
          dsimp only at k2 ⊢
          rw [k2]
          simp only [if_true, Agree]
          rw [ev, w1, w2] at k3
          rw [w1, w2]
          exact k3
        · have q : (s.put h i (some ⟨d, f.size, f.box, f.fields⟩)).objs i = some ⟨d, f.size, f.box, f.fields⟩ := by simp [State.put]
          have q' : (s.put h i (some ⟨d, f.size, f.box, f.fields⟩)).objs j = some f := by
            simp [State.put, Ne.symm hij, f1]
          obtain ⟨c, h', k1, k2, k3⟩ := copy_match hM i j ⟨d, f.size, f.box, f.fields⟩ f
            ⟨f.box, f.fields, resize dbg v.cells f.size.toNat⟩ w q q' (by simp [Pure.put]) (by simp [Pure.put, Ne.symm hij, f2]) rfl
          rw [put_put'] at k3
          simp only [q, q']
          rw [k1]
          dsimp only at k2 ⊢
          rw [k2]
          simp only [if_neg hij, Agree]
          dsimp only at k3
          rw [w1, w2] at k3
          rw [w1, w2]
          exact k3
  | toMemory i b =>
    unfold exec Pure.exec State.obj Pure.val
    rcases match_obj hm i with ⟨e1, e2⟩ | ⟨o, v, e1, e2, h1, h2, h3, h4⟩
    · simp [e1, e2, bind, Except.bind, Agree]
    · simp only [e1, e2, bind, Except.bind]
      rw [h3, load_holds _ _ _ h4]
      dsimp only
      rw [hm.bufs]
      by_cases hl : (p.bufs b).length < v.cells.length
      · rw [if_pos (by omega), if_pos hl]
        simp [Agree]
      · rw [if_neg (by omega), if_neg hl]
        simp only [Agree]
        exact match_bufs hm _
  | fromMemory i b =>
    unfold exec Pure.exec State.obj Pure.val
    rcases match_obj hm i with ⟨e1, e2⟩ | ⟨o, v, e1, e2, hv⟩
    · simp [e1, e2, bind, Except.bind, Agree]
    · simp only [e1, e2, bind, Except.bind]
      rw [hm.bufs]
      have h3 := hv.2.2.1
      by_cases hl : (p.bufs b).length < v.cells.length
      · rw [if_pos (by omega), if_pos hl]
        simp [Agree]
      · rw [if_neg (by omega), if_neg hl]
        obtain ⟨h, k1, k2⟩ := agree_store hm i o v e1 e2 hv (p.bufs b) (by omega)
        rw [k1]
        simp only [Agree]
        rw [hm.bufs] at k2
        exact k2
  | setTo i x =>
    unfold exec Pure.exec State.obj Pure.val
    rcases match_obj hm i with ⟨e1, e2⟩ | ⟨o, v, e1, e2, hv⟩
    · simp [e1, e2, bind, Except.bind, Agree]
    · simp only [e1, e2, bind, Except.bind]
      have h3 := hv.2.2.1
      have hn : o.size.toNat = v.cells.length := by omega
      obtain ⟨h, k1, k2⟩ := agree_store hm i o v e1 e2 hv (List.replicate v.cells.length (some x)) (by simp)
      rw [hn, k1]
      simp only [Agree]
      simpa using k2
  | write i k x =>
    unfold exec Pure.exec State.obj Pure.val
    rcases match_obj hm i with ⟨e1, e2⟩ | ⟨o, v, e1, e2, h1, h2, h3, h4⟩
    · simp [e1, e2, bind, Except.bind, Agree]
    · simp only [e1, e2, bind, Except.bind]
      have hc := h4
      rcases h4 with ⟨hn, hd⟩ | ⟨n, hd, hb, hne⟩
      · simp [Heap.see, hd, hn, Agree]
      · by_cases hk : k < v.cells.length
        · simp only [Heap.see, hd, hb, show k + 1 ≤ v.cells.length by omega, if_true, hk, Agree]
          rw [put_heap s _ i o e1, ← hd]
          exact match_set s p hm i o v { v with cells := v.cells.set k (some x) } o e1 e2 rfl (by simp) h1 h2
            (by rw [h3]; simp)
        · simp [Heap.see, hd, hb, show ¬ k + 1 ≤ v.cells.length by omega, hk, Agree]

theorem run_match (dbg : Option V) (ops : List (Op V)) (hops : ∀ op ∈ ops, isCopy op = false) {s : State V} {p : Pure V}
    (hm : Match s p) : Agree (run dbg s ops) (Pure.run dbg p ops) := by
  induction ops generalizing s p with
  | nil => exact hm
  | cons op ops ih =>
    have h := exec_match dbg hm op (hops op (List.mem_cons_self ..))
    unfold run Pure.run
    rw [List.foldlM_cons, List.foldlM_cons]
    unfold Agree at h
    cases e : exec dbg s op with
    | error x =>
      rw [e] at h
      cases e' : Pure.exec dbg p op with
      | error y => rw [e'] at h; exact h
      | ok p' => rw [e'] at h; exact h.elim
    | ok s' =>
      rw [e] at h
      cases e' : Pure.exec dbg p op with
      | error y => rw [e'] at h; exact h.elim
      | ok p' =>
        rw [e'] at h
        exact ih (fun o ho => hops o (List.mem_cons_of_mem _ ho)) h

/-- **C43**. Whatever a program does with containers (other than copy construction), they behave as values: a
container holds exactly the box, number of fields and elements that were last put into it, unaffected by
what happens to others; the outcome, including errors, is that of the value semantics (no other undefined
behaviour); and memory is used by existing containers only, so that nothing is left when all have been
destroyed. -/
theorem C43 (dbg : Option V) (bufs : Nat → Cells V) (ops : List (Op V)) (hops : ∀ op ∈ ops, isCopy op = false) :
    match run dbg (State.init bufs) ops, Pure.run dbg (Pure.init bufs) ops with
    | .ok s, .ok p => (∀ i, view s i = (p.vals i).map .ok) ∧ s.bufs = p.bufs ∧
        (∀ n, Allocated s n → ∃ i o, s.objs i = some o ∧ o.data = .at n ∧ o.size ≠ 0) ∧
        ((∀ i, s.objs i = none) → ∀ n, ¬ Allocated s n)
    | .error e, .error e' => e = e'
    | _, _ => False := by
  have h := run_match dbg ops hops (match_init bufs)
  unfold Agree at h
  cases e : run dbg (State.init bufs) ops with
  | error x =>
    rw [e] at h
    cases e' : Pure.run dbg (Pure.init bufs) ops with
    | error y => rw [e'] at h; exact h
    | ok p => rw [e'] at h; exact h
  | ok s =>
    rw [e] at h
    cases e' : Pure.run dbg (Pure.init bufs) ops with
    | error y => rw [e'] at h; exact h
    | ok p =>
      rw [e'] at h
      have hm : Match s p := h
      refine ⟨?_, hm.bufs, ?_, ?_⟩
      · intro i
        unfold view
        rcases match_obj hm i with ⟨e1, e2⟩ | ⟨o, v, e1, e2, h1, h2, h3, h4⟩
        · simp [e1, e2]
        · simp only [e1, e2, Option.map_some, h3, load_holds _ _ _ h4, bind, Except.bind, h1, h2]
      · intro n hn
        obtain ⟨i, o, g1, g2⟩ := hm.owned n hn
        refine ⟨i, o, g1, g2, ?_⟩
        rcases match_obj hm i with ⟨e1, _⟩ | ⟨o', v, e1, e2, h1, h2, h3, h4⟩
        · rw [g1] at e1; simp at e1
        · rw [g1] at e1
          obtain rfl := Option.some.inj e1
          rcases h4 with ⟨_, hd⟩ | ⟨_, _, _, hc⟩
          · rw [hd] at g2; simp at g2
          · have := List.length_pos_iff.2 hc
            omega
      · intro hall n hn
        obtain ⟨i, o, g1, g2⟩ := hm.owned n hn
        rw [hall i] at g1; simp at g1

/-! ### What this means for particular operations -/

theorem pure_run_append (dbg : Option V) (p : Pure V) (a b : List (Op V)) :
    Pure.run dbg p (a ++ b) = (Pure.run dbg p a).bind fun p => Pure.run dbg p b := by
  unfold Pure.run
  rw [List.foldlM_append]
  rfl

theorem run_append (dbg : Option V) (p : State V) (a b : List (Op V)) :
    run dbg p (a ++ b) = (run dbg p a).bind fun p => run dbg p b := by
  unfold run
  rw [List.foldlM_append]
  rfl

theorem pure_untouched (dbg : Option V) (k : Nat) (op : Op V) (h : touches k op = false) (p p' : Pure V)
    (e : Pure.exec dbg p op = .ok p') : p'.vals k = p.vals k := by
  have put : ∀ i v, ¬ i = k → (p.put i v).vals k = p.vals k := by
    intro i v hi
    show (if k = i then v else p.vals k) = _
    rw [if_neg (fun h => hi h.symm)]
  cases op with
  | construct i =>
    simp [touches] at h
    simp only [Pure.exec] at e
    split at e
    · simp at e
    · obtain rfl := Except.ok.inj e; exact put i _ h
  | destroy i =>
    simp [touches] at h
    simp only [Pure.exec, Pure.val] at e
    cases hv : p.vals i <;> rw [hv] at e <;> simp [bind, Except.bind] at e
    rw [← e]; exact put i _ h
  | copyConstruct i j => simp [Pure.exec] at e
  | define i b f =>
    simp [touches] at h
    simp only [Pure.exec, Pure.val] at e
    cases hv : p.vals i with
    | none => rw [hv] at e; simp [bind, Except.bind] at e
    | some v =>
      rw [hv] at e
      simp only [bind, Except.bind] at e
      cases hb : boxSize b with
      | error x => rw [hb] at e; simp at e
      | ok n =>
        rw [hb] at e
        dsimp only at e
        split at e
        · simp at e
        · cases hi : int32 (n * f) with
          | error x => rw [hi] at e; simp at e
          | ok m =>
            rw [hi] at e
            dsimp only at e
            split at e
            · simp at e
            · obtain rfl := Except.ok.inj e; exact put i _ h
  | assign i j =>
    simp [touches] at h
    simp only [Pure.exec, Pure.val] at e
    cases hv : p.vals i <;> rw [hv] at e <;> simp [bind, Except.bind] at e
    cases hw : p.vals j <;> rw [hw] at e <;> simp at e
    rw [← e]; exact put i _ h
  | toMemory i b =>
    simp only [Pure.exec, Pure.val] at e
    cases hv : p.vals i <;> rw [hv] at e <;> simp [bind, Except.bind] at e
    split at e
    · simp at e
    · obtain rfl := Except.ok.inj e; rfl
  | fromMemory i b =>
    simp [touches] at h
    simp only [Pure.exec, Pure.val] at e
    cases hv : p.vals i <;> rw [hv] at e <;> simp [bind, Except.bind] at e
    split at e
    · simp at e
    · obtain rfl := Except.ok.inj e; exact put i _ h
  | setTo i x =>
    simp [touches] at h
    simp only [Pure.exec, Pure.val] at e
    cases hv : p.vals i <;> rw [hv] at e <;> simp [bind, Except.bind] at e
    rw [← e]; exact put i _ h
  | write i n x =>
    simp [touches] at h
    simp only [Pure.exec, Pure.val] at e
    cases hv : p.vals i <;> rw [hv] at e <;> simp [bind, Except.bind] at e
    split at e
    · obtain rfl := Except.ok.inj e; exact put i _ h
    · simp at e

theorem pure_untouched_run (dbg : Option V) (k : Nat) (ops : List (Op V)) (h : ∀ op ∈ ops, touches k op = false) (p p' : Pure V)
    (e : Pure.run dbg p ops = .ok p') : p'.vals k = p.vals k := by
  induction ops generalizing p with
  | nil => obtain rfl := Except.ok.inj e; rfl
  | cons op ops ih =>
    unfold Pure.run at e
    rw [List.foldlM_cons] at e
    cases e' : Pure.exec dbg p op with
    | error x => rw [e'] at e; simp [bind, Except.bind] at e
    | ok q =>
      rw [e'] at e
      rw [ih (fun o ho => h o (List.mem_cons_of_mem _ ho)) q e]
      exact pure_untouched dbg k op (h op (List.mem_cons_self ..)) p q e'

/-- Saving a container in another one (`clawpatch_save_step`, `clawpatch_restore_step`), doing anything that does
not touch the copy, and restoring it brings back box, fields and all elements. -/
theorem C43_restore (dbg : Option V) (bufs : Nat → Cells V) (ops mid : List (Op V)) (i k : Nat) (hik : i ≠ k)
    (hops : ∀ op ∈ ops, isCopy op = false) (hmid : ∀ op ∈ mid, isCopy op = false) (hk : ∀ op ∈ mid, touches k op = false)
    (s s' : State V) (hs : run dbg (State.init bufs) ops = .ok s)
    (hs' : run dbg s (.assign k i :: mid ++ [.assign i k]) = .ok s') : view s' i = view s i := by
  have m1 := run_match dbg ops hops (match_init bufs)
  have c1 := C43 dbg bufs ops hops
  rw [hs] at m1 c1
  cases e1 : Pure.run dbg (Pure.init bufs) ops with
  | error x => rw [e1] at m1; exact m1.elim
  | ok p =>
    rw [e1] at m1 c1
    have all : ∀ op ∈ ops ++ (.assign k i :: mid ++ [.assign i k]), isCopy op = false := by
      intro op h
      simp only [List.mem_append, List.mem_cons, List.not_mem_nil, or_false] at h
      rcases h with h | (rfl | h) | rfl
      · exact hops op h
      · rfl
      · exact hmid op h
      · rfl
    have c2 := C43 dbg bufs _ all
    rw [run_append, hs, pure_run_append, e1] at c2
    simp only [Except.bind, hs'] at c2
    cases e2 : Pure.run dbg p (.assign k i :: mid ++ [.assign i k]) with
    | error x => rw [e2] at c2; exact c2.elim
    | ok p' =>
      rw [e2] at c2
      rw [c2.1 i, c1.1 i]
      congr 1
      -- follow the values
      rw [List.cons_append] at e2
      unfold Pure.run at e2
      rw [List.foldlM_cons] at e2
      cases ea : Pure.exec dbg p (.assign k i) with
      | error x => rw [ea] at e2; simp [bind, Except.bind] at e2
      | ok pa =>
        rw [ea] at e2
        have e3 : Pure.run dbg pa (mid ++ [.assign i k]) = .ok p' := e2
        rw [pure_run_append] at e3
        cases em : Pure.run dbg pa mid with
        | error x => rw [em] at e3; simp [Except.bind] at e3
        | ok pm =>
          rw [em] at e3
          have e4 : Pure.run dbg pm [.assign i k] = .ok p' := e3
          have ek := pure_untouched_run dbg k mid hk pa pm em
          simp only [Pure.exec, Pure.val] at ea
          cases hv : p.vals k with
          | none => rw [hv] at ea; simp [bind, Except.bind] at ea
          | some v =>
            cases hw : p.vals i with
            | none => rw [hv, hw] at ea; simp [bind, Except.bind] at ea
            | some w =>
              rw [hv, hw] at ea
              simp only [bind, Except.bind, if_neg (Ne.symm hik)] at ea
              obtain rfl := Except.ok.inj ea
              simp only [Pure.put, if_true] at ek
              unfold Pure.run at e4
              rw [List.foldlM_cons] at e4
              simp only [Pure.exec, Pure.val] at e4
              rw [ek] at e4
              cases hx : pm.vals i with
              | none => rw [hx] at e4; simp [bind, Except.bind] at e4
              | some x =>
                rw [hx] at e4
                simp only [bind, Except.bind, if_neg hik, List.foldlM_nil, pure, Except.pure] at e4
                obtain rfl := Except.ok.inj e4
                simp [Pure.put]

/-- Size of a patch's data. -/
theorem patchBox_size (mx my mbc : Int) (h1 : 0 ≤ 2 * mbc + mx) (h2 : 0 ≤ 2 * mbc + my)
    (h3 : 2 * mbc + mx ≤ 2147483647) (h4 : 2 * mbc + my ≤ 2147483647) (h5 : (2 * mbc + mx) * (2 * mbc + my) ≤ 2147483647) :
    boxSize (patchBox mx my mbc) = .ok ((2 * mbc + mx) * (2 * mbc + my)) := by
  have e1 : mx + mbc - (1 - mbc) + 1 = 2 * mbc + mx := by ring
  have e2 : my + mbc - (1 - mbc) + 1 = 2 * mbc + my := by ring
  have e3 : 0 ≤ (2 * mbc + mx) * (2 * mbc + my) := Int.mul_nonneg h1 h2
  simp only [boxSize, patchBox, List.zip_cons_cons, List.zip_nil_right, List.foldlM_cons, List.foldlM_nil, e1, e2, int32,
    bind, Except.bind, one_mul]
  rw [if_pos ⟨by omega, h3⟩]
  dsimp only
  rw [if_pos ⟨by omega, h3⟩]
  dsimp only
  rw [if_pos ⟨by omega, h4⟩]
  dsimp only
  rw [if_pos ⟨by omega, h5⟩]
  rfl

theorem partition_pure (dbg : Option V) (mx my mbc meqn : Int) (h1 : 0 ≤ 2 * mbc + mx) (h2 : 0 ≤ 2 * mbc + my) (h0 : 0 ≤ meqn)
    (h3 : 2 * mbc + mx ≤ 2147483647) (h4 : 2 * mbc + my ≤ 2147483647) (h5 : (2 * mbc + mx) * (2 * mbc + my) ≤ 2147483647)
    (h6 : partitionPacksize mx my mbc meqn ≤ 2147483647)
    (bufs : Nat → Cells V) (b : Nat) (hb : ((bufs b).length : Int) = partitionPacksize mx my mbc meqn)
    (cells : Cells V) (hc : (cells.length : Int) = partitionPacksize mx my mbc meqn) (s : Pure V) (i j : Nat) (hij : i ≠ j)
    (hs : s.bufs = bufs) (hi : s.vals i = some ⟨patchBox mx my mbc, meqn, cells⟩) (hj : s.vals j = some ⟨⟨[], []⟩, 0, []⟩) :
    ∃ s', Pure.run dbg s [.define j (patchBox mx my mbc) meqn, .toMemory i b, .fromMemory j b] = .ok s' ∧
      s'.vals j = some ⟨patchBox mx my mbc, meqn, cells⟩ ∧ s'.bufs b = cells := by
  have en : (2 * mbc + mx) * (2 * mbc + my) * meqn = partitionPacksize mx my mbc meqn := by
    unfold partitionPacksize; ring
  have hn0 : 0 ≤ partitionPacksize mx my mbc meqn := by omega
  have hsz := patchBox_size mx my mbc h1 h2 h3 h4 h5
  have e3 : 0 ≤ (2 * mbc + mx) * (2 * mbc + my) := Int.mul_nonneg h1 h2
  have l2 : ∀ c : Cells V, (resize dbg c (partitionPacksize mx my mbc meqn).toNat).length = cells.length := by
    intro c
    unfold resize
    cases dbg with
    | some v => simp; omega
    | none =>
      dsimp only
      split
      · omega
      · simp; omega
  have lb : (bufs b).length = cells.length := by omega
  refine ⟨⟨fun k => if k = j then some ⟨patchBox mx my mbc, meqn, cells⟩ else s.vals k,
    fun k => if k = b then cells else bufs k⟩, ?_, by simp, by simp⟩
  unfold Pure.run
  simp only [List.foldlM_cons, List.foldlM_nil, Pure.exec, Pure.val, hj, bind, Except.bind, hsz]
  rw [if_neg (by omega), en]
  simp only [int32]
  rw [if_pos ⟨by omega, h6⟩]
  dsimp only
  rw [if_neg (by omega)]
  simp only [Pure.put, if_neg hij, hi, hs]
  rw [if_neg (by omega)]
  simp only [if_true]
  rw [if_neg (by rw [l2]; simp [lb])]
  simp only [l2, List.drop_eq_nil_of_le (le_of_eq lb), List.append_nil, List.take_length, pure, Except.pure]
  congr 2
  funext k
  split <;> rfl

/-- A patch that moves to another process: its data are defined there with the same sizes, packed into a buffer
of the size that `clawpatch_partition_packsize` announces, and unpacked. All elements arrive, and the buffer is
neither overrun nor partly used. (Both containers are in one state here; the buffer is what is sent.) -/
theorem C43_partition (dbg : Option V) (mx my mbc meqn : Int) (h1 : 0 ≤ 2 * mbc + mx) (h2 : 0 ≤ 2 * mbc + my) (h0 : 0 ≤ meqn)
    (h3 : 2 * mbc + mx ≤ 2147483647) (h4 : 2 * mbc + my ≤ 2147483647) (h5 : (2 * mbc + mx) * (2 * mbc + my) ≤ 2147483647)
    (h6 : partitionPacksize mx my mbc meqn ≤ 2147483647)
    (bufs : Nat → Cells V) (ops : List (Op V)) (hops : ∀ op ∈ ops, isCopy op = false)
    (s : State V) (hs : run dbg (State.init bufs) ops = .ok s)
    (b : Nat) (hb : ((s.bufs b).length : Int) = partitionPacksize mx my mbc meqn)
    (cells : Cells V) (hc : (cells.length : Int) = partitionPacksize mx my mbc meqn) (i j : Nat) (hij : i ≠ j)
    (hi : view s i = some (.ok ⟨patchBox mx my mbc, meqn, cells⟩)) (hj : view s j = some (.ok ⟨⟨[], []⟩, 0, []⟩)) :
    ∃ s', run dbg s [.define j (patchBox mx my mbc) meqn, .toMemory i b, .fromMemory j b] = .ok s' ∧
      view s' j = some (.ok ⟨patchBox mx my mbc, meqn, cells⟩) ∧ s'.bufs b = cells := by
  have c1 := C43 dbg bufs ops hops
  have all : ∀ op ∈ ops ++ [.define j (patchBox mx my mbc) meqn, .toMemory i b, .fromMemory j b], isCopy op = false := by
    intro op h
    simp only [List.mem_append, List.mem_cons, List.not_mem_nil, or_false] at h
    rcases h with h | rfl | rfl | rfl
    · exact hops op h
    all_goals rfl
  have c2 := C43 dbg bufs _ all
  rw [run_append, pure_run_append] at c2
  rw [hs] at c1 c2
  cases e1 : Pure.run dbg (Pure.init bufs) ops with
  | error x => rw [e1] at c1; exact c1.elim
  | ok p =>
    rw [e1] at c1 c2
    have val : ∀ k v, view s k = some (.ok v) → p.vals k = some v := by
      intro k v h
      rw [c1.1 k] at h
      cases hp : p.vals k with
      | none => rw [hp] at h; simp at h
      | some w => rw [hp] at h; simp only [Option.map_some, Option.some.injEq, Except.ok.injEq] at h; rw [h]
    obtain ⟨p', k1, k2, k3⟩ := partition_pure dbg mx my mbc meqn h1 h2 h0 h3 h4 h5 h6 p.bufs b (by rw [← c1.2.1]; exact hb)
      cells hc p i j hij rfl (val i _ hi) (val j _ hj)
    simp only [Except.bind, k1] at c2
    cases e2 : run dbg s [.define j (patchBox mx my mbc) meqn, .toMemory i b, .fromMemory j b] with
    | error x => rw [e2] at c2; exact c2.elim
    | ok s' =>
      rw [e2] at c2
      exact ⟨s', rfl, by rw [c2.1 j, k2]; rfl, by rw [c2.2.1]; exact k3⟩

/-! ### Examples -/

/-- Two containers of a patch of 2 by 1 cells with one layer of ghost cells; what is written to one after the
assignment does not show in the other. -/
def exOps : List (Op Nat) :=
  [.construct 0, .construct 1, .define 0 (patchBox 2 1 1) 1, .setTo 0 7, .assign 1 0, .write 0 3 8, .destroy 0]

example : ∀ op ∈ exOps, isCopy op = false := by decide

example : (match Pure.run none (Pure.init fun _ => []) exOps with
    | .ok p => ((p.vals 0).isNone, (p.vals 1).map fun v => (v.fields, v.cells)) | .error _ => (false, none)) =
    (true, some (1, List.replicate 12 (some 7))) := by decide

example : (match run none (State.init fun _ => []) exOps with
    | .ok s => ((s.objs 1).map (·.data), (s.heap.blocks 0).isSome, (s.heap.blocks 1).isSome) | .error _ => (none, true, false)) =
    (some (.at 1), false, true) := by decide

/-- The hypotheses of `C43_restore`, with the container redefined and overwritten in between. -/
example : (match run none (State.init fun _ => [])
    [.construct 0, .construct 1, .define 0 (patchBox 2 1 1) 1, .setTo 0 7] with
    | .ok s => (match run none s (.assign 1 0 :: [.define 0 (patchBox 1 1 0) 2, .setTo 0 9] ++ [.assign 0 1]) with
      | .ok s' => (s'.objs 0).map (·.size) | .error _ => none)
    | .error _ => none) = some 12 := by decide

/-- The hypotheses of `C43_partition`. -/
example : (match run none (State.init fun _ => List.replicate 12 none)
    [.construct 0, .construct 1, .define 0 (patchBox 2 1 1) 1, .setTo 0 7] with
    | .ok s => ((s.bufs 0).length, (s.objs 0).map (·.fields), (s.objs 1).map (·.size))
    | .error _ => (0, none, none)) = (12, some 1, some 0) ∧ partitionPacksize 2 1 1 1 = 12 := by decide

/-- The copy constructor leaves the pointer to the elements unset: whatever is copied, the program has undefined
behaviour at the latest when the copy is destroyed. -/
theorem C43_copy_constructor_counterexample (s : State V) (i j : Nat) (o : Obj) (hj : s.objs j = some o) (hi : s.objs i = none)
    (ho : 0 ≤ o.size) (dbg : Option V) : run dbg s [.copyConstruct i j, .destroy i] = .error .undefined := by
  unfold run
  simp only [List.foldlM_cons, List.foldlM_nil, exec, State.vacant, State.obj, hi, hj, bind, Except.bind, Option.isSome_none,
    Bool.false_eq_true, if_false, setDataPtr]
  rw [if_neg (by omega)]
  by_cases h0 : o.size = 0
  · simp [h0, Heap.free]
  · rw [if_neg h0]
    simp only [reallocate, ne_eq, not_true_eq_false, if_false]
    cases dbg with
    | none => simp [fillDebug, State.put, Heap.free]
    | some v =>
      simp [fillDebug, Heap.store, Heap.see, bind, Except.bind, show ¬ o.size ≤ 0 by omega]

/-- In debug mode, assigning a container to itself loses its elements. -/
theorem C43_self_assignment_counterexample :
    (match run (some 99) (State.init fun _ => [])
        [.construct 0, .define 0 (patchBox 1 1 0) 1, .setTo 0 (7 : Nat), .assign 0 0] with
      | .ok s => s.heap.blocks 0 | .error _ => none) = some [some 99] := by decide

end Fclaw.ArrayBox
