/-
Containers in memory and containers as values.
-/
import Verif.ArrayBox.Spec
import Mathlib.Tactic.ByContra
import Mathlib.Tactic.SplitIfs

set_option autoImplicit false
set_option linter.unusedSimpArgs false
set_option linter.unusedVariables false
namespace Fclaw.ArrayBox

variable {V : Type}

/-- Pointer `p` points to the cells `c`. -/
def Holds (h : Heap V) (p : Ptr) (c : Cells V) : Prop :=
  (c = [] ∧ p = .null) ∨ ∃ n, p = .at n ∧ h.blocks n = some c ∧ c ≠ []

def SameVal (h : Heap V) : Option Obj → Option (Val V) → Prop
  | none, none => True
  | some o, some v => o.box = v.box ∧ o.fields = v.fields ∧ o.size = v.cells.length ∧ Holds h o.data v.cells
  | _, _ => False

def Owns (s : State V) (j n : Nat) : Prop := ∃ o, s.objs j = some o ∧ o.data = .at n

structure Match (s : State V) (p : Pure V) : Prop where
  bufs : s.bufs = p.bufs
  each : ∀ i, SameVal s.heap (s.objs i) (p.vals i)
  inj : ∀ i j n, Owns s i n → Owns s j n → i = j
  owned : ∀ n, (s.heap.blocks n).isSome → ∃ i, Owns s i n
  fresh : ∀ n, s.heap.next ≤ n → s.heap.blocks n = none

theorem match_init (bufs : Nat → Cells V) : Match (State.init bufs) (Pure.init bufs) := by
  refine ⟨rfl, fun i => trivial, ?_, ?_, fun n _ => rfl⟩
  · rintro i j n ⟨o, h, _⟩; simp [State.init] at h
  · intro n h; simp [State.init] at h

/-- Replacing container `i`. -/
theorem match_put (s : State V) (p : Pure V) (hm : Match s p) (h : Heap V) (i : Nat) (o : Option Obj) (v : Option (Val V))
    (h1 : ∀ j n, j ≠ i → Owns s j n → h.blocks n = s.heap.blocks n)
    (h2 : SameVal h o v)
    (h3 : ∀ o' n, o = some o' → o'.data = .at n → ∀ j, j ≠ i → ¬ Owns s j n)
    (h4 : ∀ n, (h.blocks n).isSome → (∃ j, j ≠ i ∧ Owns s j n) ∨ ∃ o', o = some o' ∧ o'.data = .at n)
    (h5 : ∀ n, h.next ≤ n → h.blocks n = none) :
    Match (s.put h i o) (p.put i v) := by
  have ownOther : ∀ j n, j ≠ i → (Owns (s.put h i o) j n ↔ Owns s j n) := by
    intro j n hj
    unfold Owns State.put
    simp [hj]
  have ownI : ∀ n, Owns (s.put h i o) i n ↔ ∃ o', o = some o' ∧ o'.data = .at n := by
    intro n
    unfold Owns State.put
    simp
  refine ⟨hm.bufs, ?_, ?_, ?_, h5⟩
  · intro j
    show SameVal h (if j = i then o else s.objs j) (if j = i then v else p.vals j)
    by_cases hj : j = i
    · simp only [hj, if_true]; exact h2
    · simp only [hj, if_false]
      have := hm.each j
      unfold SameVal at this ⊢
      cases e : s.objs j with
      | none =>
        rw [e] at this
        cases e' : p.vals j with
        | none => trivial
        | some v' => rw [e'] at this; exact this
      | some o' =>
        rw [e] at this
        cases e' : p.vals j with
        | none => rw [e'] at this; exact this
        | some v' =>
          rw [e'] at this
          refine ⟨this.1, this.2.1, this.2.2.1, ?_⟩
          rcases this.2.2.2 with hh | ⟨n, hn, hb, hc⟩
          · exact Or.inl hh
          · refine Or.inr ⟨n, hn, ?_, hc⟩
            rw [h1 j n hj ⟨o', e, hn⟩, hb]
  · intro a b n ha hb
    by_cases ea : a = i
    · by_cases eb : b = i
      · rw [ea, eb]
      · rw [ea, ownI] at ha
        obtain ⟨o', e, hd⟩ := ha
        exact absurd ((ownOther b n eb).1 hb) (h3 o' n e hd b eb)
    · by_cases eb : b = i
      · rw [eb, ownI] at hb
        obtain ⟨o', e, hd⟩ := hb
        exact absurd ((ownOther a n ea).1 ha) (h3 o' n e hd a ea)
      · exact hm.inj a b n ((ownOther a n ea).1 ha) ((ownOther b n eb).1 hb)
  · intro n hn
    rcases h4 n hn with ⟨j, hj, ho⟩ | ho
    · exact ⟨j, (ownOther j n hj).2 ho⟩
    · exact ⟨i, (ownI n).2 ho⟩

/-- What is known of a container. -/
theorem match_obj {s : State V} {p : Pure V} (hm : Match s p) (i : Nat) :
    (s.objs i = none ∧ p.vals i = none) ∨
    ∃ o v, s.objs i = some o ∧ p.vals i = some v ∧ o.box = v.box ∧ o.fields = v.fields ∧ o.size = v.cells.length ∧
      Holds s.heap o.data v.cells := by
  have := hm.each i
  unfold SameVal at this
  cases e : s.objs i with
  | none =>
    rw [e] at this
    cases e' : p.vals i with
    | none => exact Or.inl ⟨rfl, rfl⟩
    | some v => rw [e'] at this; exact this.elim
  | some o =>
    rw [e] at this
    cases e' : p.vals i with
    | none => rw [e'] at this; exact this.elim
    | some v => rw [e'] at this; exact Or.inr ⟨o, v, rfl, rfl, this⟩

theorem load_holds (h : Heap V) (q : Ptr) (c : Cells V) (hh : Holds h q c) : h.load q c.length = .ok c := by
  unfold Heap.load
  rcases hh with ⟨rfl, _⟩ | ⟨n, rfl, hb, hc⟩
  · simp
  · have : 0 < c.length := List.length_pos_iff.2 hc
    rw [if_neg (by omega)]
    unfold Heap.see
    simp only [hb, Int.toNat_natCast, le_refl, if_true]
    simp [bind, Except.bind]

/-- Overwriting all elements. -/
theorem store_holds (h : Heap V) (q : Ptr) (c c' : Cells V) (hh : Holds h q c) (hl : c.length ≤ c'.length) :
    h.store q c.length c' = .ok (h.set q (c'.take c.length)) ∧ Holds (h.set q (c'.take c.length)) q (c'.take c.length) := by
  unfold Heap.store
  rcases hh with ⟨rfl, rfl⟩ | ⟨n, rfl, hb, hc⟩
  · refine ⟨by simp [Heap.set], Or.inl ⟨by simp, rfl⟩⟩
  · have : 0 < c.length := List.length_pos_iff.2 hc
    refine ⟨?_, Or.inr ⟨n, rfl, by simp [Heap.set], ?_⟩⟩
    · rw [if_neg (by omega)]
      unfold Heap.see
      simp only [hb, Int.toNat_natCast, le_refl, if_true]
      simp [bind, Except.bind]
    · intro e
      have := congrArg List.length e
      rw [List.length_take, List.length_nil] at this
      omega

/-- … in container `i`. -/
theorem match_set (s : State V) (p : Pure V) (hm : Match s p) (i : Nat) (o : Obj) (v v' : Val V) (o' : Obj) (hs : s.objs i = some o)
    (hp : p.vals i = some v) (hd : o'.data = o.data) (hl : v'.cells.length = v.cells.length)
    (e1 : o'.box = v'.box) (e2 : o'.fields = v'.fields) (e3 : o'.size = v'.cells.length) :
    Match (s.put (s.heap.set o.data v'.cells) i (some o')) (p.put i (some v')) := by
  have hh : Holds s.heap o.data v.cells := by
    rcases match_obj hm i with ⟨e, _⟩ | ⟨o1, v1, h1, h2, _, _, _, h3⟩
    · rw [hs] at e; simp at e
    · rw [hs] at h1; rw [hp] at h2
      obtain rfl := Option.some.inj h1
      obtain rfl := Option.some.inj h2
      exact h3
  have own : ∀ n, o.data = .at n → Owns s i n := fun n hn => ⟨o, hs, hn⟩
  refine match_put s p hm _ i _ _ ?_ ?_ ?_ ?_ ?_
  · intro j n hj ho
    unfold Heap.set
    cases e : o.data with
    | null => rfl
    | wild => rfl
    | «at» b =>
      dsimp only
      rw [if_neg]
      rintro rfl
      exact hj (hm.inj j i n ho (own n e))
  · refine ⟨e1, e2, e3, ?_⟩
    rw [hd]
    rcases hh with ⟨hc, hn⟩ | ⟨n, hn, hb, hc⟩
    · rw [hc] at hl
      exact Or.inl ⟨List.eq_nil_of_length_eq_zero hl, hn⟩
    · refine Or.inr ⟨n, hn, by rw [hn]; simp [Heap.set], ?_⟩
      intro e
      rw [e] at hl
      exact hc (List.eq_nil_of_length_eq_zero hl.symm)
  · intro o1 n e hd1 j hj ho
    obtain rfl := Option.some.inj e
    rw [hd] at hd1
    exact hj (hm.inj j i n ho (own n hd1))
  · intro n hn
    by_cases hi : o.data = .at n
    · exact Or.inr ⟨o', rfl, by rw [hd]; exact hi⟩
    · left
      have : (s.heap.blocks n).isSome := by
        cases e : o.data with
        | null => rw [e] at hn; exact hn
        | wild => rw [e] at hn; exact hn
        | «at» b =>
          rw [e] at hn
          unfold Heap.set at hn
          dsimp only at hn
          rw [if_neg] at hn
          · exact hn
          · rintro rfl; exact hi e
      obtain ⟨j, hj⟩ := hm.owned n this
      refine ⟨j, ?_, hj⟩
      rintro rfl
      obtain ⟨o1, h1, h2⟩ := hj
      rw [hs] at h1
      obtain rfl := Option.some.inj h1
      exact hi h2
  · intro n hn
    cases e : o.data with
    | null => rw [e] at hn; exact hm.fresh n hn
    | wild => rw [e] at hn; exact hm.fresh n hn
    | «at» b =>
      rw [e] at hn
      have hn' : s.heap.next ≤ n := hn
      have f := hm.fresh n hn'
      unfold Heap.set
      dsimp only
      rw [if_neg]
      · exact f
      · rintro rfl
        rcases hh with ⟨_, h0⟩ | ⟨m, hm', hb, _⟩
        · rw [e] at h0; simp at h0
        · rw [e] at hm'
          obtain rfl := Ptr.at.inj hm'
          rw [f] at hb; simp at hb

/-- Giving memory back. -/
theorem free_holds {s : State V} {p : Pure V} (hm : Match s p) (i : Nat) (o : Obj) (c : Cells V) (hs : s.objs i = some o)
    (hh : Holds s.heap o.data c) :
    ∃ h, s.heap.free o.data = .ok h ∧ h.next = s.heap.next ∧
      (∀ j n, j ≠ i → Owns s j n → h.blocks n = s.heap.blocks n) ∧
      (∀ n, (h.blocks n).isSome → ∃ j, j ≠ i ∧ Owns s j n) ∧ (∀ n, s.heap.next ≤ n → h.blocks n = none) := by
  have other : ∀ n, (s.heap.blocks n).isSome → o.data ≠ .at n → ∃ j, j ≠ i ∧ Owns s j n := by
    intro n hn hd
    obtain ⟨j, hj⟩ := hm.owned n hn
    refine ⟨j, ?_, hj⟩
    rintro rfl
    obtain ⟨o1, h1, h2⟩ := hj
    rw [hs] at h1
    obtain rfl := Option.some.inj h1
    exact hd h2
  unfold Heap.free
  rcases hh with ⟨_, hd⟩ | ⟨n, hd, hb, _⟩
  · rw [hd]
    exact ⟨s.heap, rfl, rfl, fun _ _ _ _ => rfl, fun n hn => other n hn (by rw [hd]; simp), hm.fresh⟩
  · rw [hd]
    simp only [hb, Option.isSome_some, if_true]
    refine ⟨_, rfl, rfl, ?_, ?_, ?_⟩
    · intro j k hj ho
      dsimp only
      rw [if_neg]
      rintro rfl
      exact hj (hm.inj j i k ho ⟨o, hs, hd⟩)
    · intro k hk
      dsimp only at hk
      by_cases e : k = n
      · rw [if_pos e] at hk; simp at hk
      · rw [if_neg e] at hk
        refine other k hk ?_
        rw [hd]
        intro h; exact e (Ptr.at.inj h).symm
    · intro k hk
      dsimp only
      split
      · rfl
      · exact hm.fresh k hk

/-- `set_dataPtr`. -/
theorem setDataPtr_spec (dbg : Option V) {s : State V} {p : Pure V} (hm : Match s p) (i : Nat) (o : Obj) (v : Val V)
    (hs : s.objs i = some o) (hp : p.vals i = some v) (hz : o.size = v.cells.length) (hh : Holds s.heap o.data v.cells)
    (a : Int) (ha : 0 ≤ a) (b : Box) (f : Int) :
    ∃ h d, setDataPtr dbg s.heap o a = .ok (h, { o with data := d }) ∧
      Match (s.put h i (some ⟨d, a, b, f⟩)) (p.put i (some ⟨b, f, resize dbg v.cells a.toNat⟩)) := by
  unfold setDataPtr
  rw [if_neg (by omega)]
  obtain ⟨h, he, hnx, h1, h4, h5⟩ := free_holds hm i o v.cells hs hh
  by_cases h0 : a = 0
  · rw [if_pos h0, he]
    refine ⟨h, .null, rfl, ?_⟩
    subst h0
    have hr : resize dbg v.cells (0 : Int).toNat = [] := by
      unfold resize
      cases dbg with
      | some v => rfl
      | none =>
        simp only [Int.toNat_zero, List.replicate_zero]
        split
        · rename_i e; exact List.eq_nil_of_length_eq_zero e
        · rfl
    rw [hr]
    refine match_put s p hm h i _ _ h1 ⟨rfl, rfl, rfl, Or.inl ⟨rfl, rfl⟩⟩ ?_ (fun n hn => Or.inl (h4 n hn)) ?_
    · intro o' n e hd
      obtain rfl := Option.some.inj e
      simp at hd
    · intro n hn; rw [hnx] at hn; exact h5 n hn
  · rw [if_neg h0]
    -- what there is before the values are set
    have step : ∃ h' d c, reallocate s.heap o a = .ok (h', { o with data := d }) ∧ c.length = a.toNat ∧
        (dbg = none → c = resize dbg v.cells a.toNat) ∧
        Match (s.put h' i (some ⟨d, a, b, f⟩)) (p.put i (some ⟨b, f, c⟩)) := by
      unfold reallocate
      by_cases hsz : o.size = a
      · rw [if_neg (by simpa using hsz)]
        refine ⟨s.heap, o.data, v.cells, rfl, by omega, ?_, ?_⟩
        · intro e
          unfold resize
          rw [e]
          dsimp only
          rw [if_pos (by omega)]
        · have := match_set s p hm i o v ⟨b, f, v.cells⟩ ⟨o.data, a, b, f⟩ hs hp rfl rfl rfl rfl (by dsimp only; omega)
          dsimp only at this
          have e : s.heap.set o.data v.cells = s.heap := by
            unfold Heap.set
            rcases hh with ⟨_, hd⟩ | ⟨n, hd, hb, _⟩
            · rw [hd]
            · rw [hd]
              dsimp only
              have : (fun k => if k = n then some v.cells else s.heap.blocks k) = s.heap.blocks := by
                funext k
                split
                · rename_i e; rw [e, hb]
                · rfl
              rw [this]
          rw [e] at this
          exact this
      · rw [if_pos hsz, he]
        refine ⟨(h.alloc a).1, .at (h.alloc a).2, List.replicate a.toNat none, rfl, by simp, ?_, ?_⟩
        · intro e
          unfold resize
          rw [e]
          dsimp only
          rw [if_neg (by omega)]
        · have hnext : ∀ n, h.next ≤ n → h.blocks n = none := fun n hn => h5 n (by rw [← hnx]; exact hn)
          have hown : ∀ j n, Owns s j n → n < h.next := by
            intro j n ⟨o1, g1, g2⟩
            by_contra hcon
            have hb := hm.fresh n (by rw [← hnx]; omega)
            have := hm.each j
            unfold SameVal at this
            rw [g1] at this
            cases e' : p.vals j with
            | none => rw [e'] at this; exact this
            | some v' =>
              rw [e'] at this
              rcases this.2.2.2 with ⟨_, hd⟩ | ⟨m, hd, hb', _⟩
              · rw [hd] at g2; simp at g2
              · rw [hd] at g2
                obtain rfl := Ptr.at.inj g2
                rw [hb] at hb'; simp at hb'
          refine match_put s p hm _ i _ _ ?_ ?_ ?_ ?_ ?_
          · intro j n hj ho
            unfold Heap.alloc
            dsimp only
            have := hown j n ho
            rw [if_neg (by omega)]
            exact h1 j n hj ho
          · refine ⟨rfl, rfl, ?_, Or.inr ⟨h.next, rfl, by simp [Heap.alloc], ?_⟩⟩
            · simp; omega
            · intro e
              have := congrArg List.length e
              simp at this
              omega
          · intro o' n e hd j hj ho
            obtain rfl := Option.some.inj e
            have := Ptr.at.inj hd
            have h' := hown j n ho
            unfold Heap.alloc at this
            dsimp only at this
            omega
          · intro n hn
            unfold Heap.alloc at hn ⊢
            dsimp only at hn ⊢
            by_cases e : n = h.next
            · exact Or.inr ⟨_, rfl, by rw [e]⟩
            · rw [if_neg e] at hn
              exact Or.inl (h4 n hn)
          · intro n hn
            unfold Heap.alloc at hn ⊢
            dsimp only at hn ⊢
            rw [if_neg (by omega)]
            exact hnext n (by omega)
    obtain ⟨h', d, c, e, hl, hc, hM⟩ := step
    rw [e]
    cases hdbg : dbg with
    | none =>
      refine ⟨h', d, rfl, ?_⟩
      rw [hdbg] at hc
      rw [← hc rfl]
      exact hM
    | some x =>
      have hh' : Holds h' d c := by
        have := hM.each i
        simp only [State.put, Pure.put, if_true] at this
        exact this.2.2.2
      obtain ⟨g1, g2⟩ := store_holds h' d c (List.replicate a.toNat (some x)) hh' (by simp [hl])
      have et : (List.replicate a.toNat (some x)).take c.length = List.replicate a.toNat (some x) := by
        rw [hl]; simp
      rw [et] at g1 g2
      have ea : a = (c.length : Int) := by omega
      refine ⟨h'.set d (List.replicate a.toNat (some x)), d, ?_, ?_⟩
      · show (h'.store d a (List.replicate a.toNat (some x))).bind (fun h => .ok (h, { o with data := d })) = _
        rw [show h'.store d a (List.replicate a.toNat (some x)) = .ok (h'.set d (List.replicate a.toNat (some x))) by
          rw [← g1, ← ea]]
        rfl
      · have k := match_set _ _ hM i ⟨d, a, b, f⟩ ⟨b, f, c⟩ ⟨b, f, List.replicate a.toNat (some x)⟩ ⟨d, a, b, f⟩
          (by simp [State.put]) (by simp [Pure.put]) rfl (by simp [hl]) rfl rfl (by simp; omega)
        have pp : ∀ (s : State V) h h' i o o', (s.put h i o).put h' i o' = s.put h' i o' := by
          intro s h h' i o o'
          unfold State.put
          simp only [State.mk.injEq, and_true, true_and]
          funext k
          split <;> rfl
        have qq : ∀ (s : Pure V) i o o', (s.put i o).put i o' = s.put i o' := by
          intro s i o o'
          unfold Pure.put
          simp only [Pure.mk.injEq, and_true, true_and]
          funext k
          split <;> rfl
        rw [pp, qq] at k
        exact k

end Fclaw.ArrayBox
