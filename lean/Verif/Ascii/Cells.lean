/-
The lines of a patch, and the solution after they are written.
-/
import Verif.Ascii.Numbers
import Verif.Vtk.Lemmas
import Mathlib.Tactic.Ring

set_option autoImplicit false
set_option linter.unusedSimpArgs false

namespace Fclaw.Ascii

open Fclaw.ParFile (Outcome)
open Fclaw.Vtk (getElem_flatMap)

theorem bind_ok {α β : Type} (a : α) (f : α → Outcome β) : (Outcome.ok a).bind f = f a := rfl

theorem upTo_eq (n : Nat) : upTo n = (List.range n).map (· + 1) := by
  unfold upTo
  rw [List.range'_eq_map_range]
  apply List.map_congr_left
  intro a _
  omega

/-- The solution after the elements `L` have been visited. -/
def fl {R : Type} (A : Fmt R) (L : List Nat) (q0 : List R) : List R :=
  q0.mapIdx fun x v => if x ∈ L then flush A v else v

theorem fl_get {R : Type} (A : Fmt R) (L : List Nat) (q0 : List R) (x : Nat) :
    (fl A L q0)[x]? = q0[x]?.map fun v => if x ∈ L then flush A v else v := by
  simp [fl, List.getElem?_mapIdx]

theorem fl_nil {R : Type} (A : Fmt R) (q0 : List R) : fl A [] q0 = q0 := by
  apply List.ext_getElem?
  intro x
  rw [fl_get]
  cases q0[x]? <;> simp

theorem fl_step {R : Type} (A : Fmt R) (L : List Nat) (q0 : List R) (addr : Nat → Nat) {m a : Nat}
    {v : R} (ha : addr m = a) (h : q0[a]? = some v) :
    flushOne A addr m (fl A L q0) = .ok (fl A (L ++ [a]) q0) := by
  unfold flushOne
  rw [ha]
  have hlt : a < q0.length := (List.getElem?_eq_some_iff.1 h).1
  have hlen : (fl A L q0).length = q0.length := by simp [fl]
  have hget := fl_get A L q0 a
  rw [h, Option.map_some] at hget
  rw [hget]
  simp only
  by_cases hin : a ∈ L
  · rw [if_pos hin]
    have hsame : fl A (L ++ [a]) q0 = fl A L q0 := by
      apply List.ext_getElem?
      intro x
      rw [fl_get, fl_get]
      congr 1
      funext w
      by_cases hx : x ∈ L
      · rw [if_pos hx, if_pos (List.mem_append_left _ hx)]
      · rw [if_neg hx, if_neg (by
          intro hc
          rcases List.mem_append.1 hc with hc | hc
          · exact hx hc
          · rw [List.mem_singleton] at hc; subst hc; exact hx hin)]
    rw [hsame]
    by_cases ht : A.tiny (flush A v) = true
    · rw [if_pos ht]
      congr 1
      have hz : flush A v = A.zero := by
        unfold flush at ht ⊢
        by_cases hv : A.tiny v = true
        · rw [if_pos hv]
        · rw [if_neg hv] at ht; exact absurd ht hv
      apply List.ext_getElem?
      intro x
      rw [List.getElem?_set]
      by_cases hx : a = x
      · subst hx
        rw [if_pos rfl, if_pos (by omega), hget, if_pos hin, hz]
      · rw [if_neg hx]
    · rw [if_neg ht]
  · rw [if_neg hin]
    have hother : ∀ x, a ≠ x → (fl A (L ++ [a]) q0)[x]? = (fl A L q0)[x]? := by
      intro x hx
      rw [fl_get, fl_get]
      congr 1
      funext w
      simp [List.mem_append, Ne.symm hx]
    have hthis : (fl A (L ++ [a]) q0)[a]? = some (flush A v) := by
      rw [fl_get, h]; simp
    by_cases ht : A.tiny v = true
    · rw [if_pos ht]
      congr 1
      apply List.ext_getElem?
      intro x
      rw [List.getElem?_set]
      by_cases hx : a = x
      · subst hx
        rw [if_pos rfl, if_pos (by omega), hthis]
        simp [flush, ht]
      · rw [if_neg hx, hother x hx]
    · rw [if_neg ht]
      congr 1
      apply List.ext_getElem?
      intro x
      by_cases hx : a = x
      · subst hx
        rw [hthis, hget, if_neg hin]
        simp [flush, ht]
      · rw [hother x hx]

theorem flush_flush {R : Type} (A : Fmt R) (v : R) : flush A (flush A v) = flush A v := by
  unfold flush
  by_cases hv : A.tiny v = true
  · simp only [hv, if_true]; split <;> rfl
  · simp only [if_neg hv]

theorem flushCell_eq {R : Type} (A : Fmt R) (addr : Nat → Nat) (q0 : List R) (val : Nat → R) :
    ∀ (ms : List Nat) (L : List Nat), (∀ m ∈ ms, q0[addr m]? = some (val m)) →
    doLoop ms (flushOne A addr) (fl A L q0) = .ok (fl A (L ++ ms.map addr) q0) := by
  intro ms
  induction ms with
  | nil => intro L _; simp [doLoop]
  | cons m ms ih =>
    intro L h
    simp only [doLoop]
    rw [fl_step A L q0 addr rfl (h m (by simp)), bind_ok,
      ih _ (fun m' hm' => h m' (List.mem_cons_of_mem _ hm'))]
    simp

theorem cellLine_eq {R : Type} (A : Fmt R) (addr : Nat → Nat) (q : List R) (val : Nat → R) :
    ∀ (ms : List Nat) (l : Line), (∀ m ∈ ms, q[addr m]? = some (val m)) →
    doLoop ms (writeOne A addr q) l = .ok (l ++ ms.flatMap fun m => A.e26 (val m)) := by
  intro ms
  induction ms with
  | nil => intro L _; simp [doLoop]
  | cons m ms ih =>
    intro l h
    simp only [doLoop]
    rw [show writeOne A addr q m l = .ok (l ++ A.e26 (val m)) by
      unfold writeOne; rw [h m (by simp)], bind_ok, ih _ (fun m' hm' => h m' (List.mem_cons_of_mem _ hm'))]
    simp

theorem writeCell_eq {R : Type} (A : Fmt R) (addr : Nat → Nat) (meqn : Nat) (q0 : List R)
    (val : Nat → R) (h : ∀ m, m < meqn → q0[addr (m + 1)]? = some (val m)) (ls : List Line)
    (L : List Nat) :
    writeCell A addr meqn (ls, fl A L q0)
      = .ok (ls ++ [(List.range meqn).flatMap fun m => A.e26 (flush A (val m))],
          fl A (L ++ (upTo meqn).map addr) q0) := by
  have h' : ∀ m ∈ upTo meqn, q0[addr m]? = some (val (m - 1)) := by
    intro m hm
    rw [upTo_eq, List.mem_map] at hm
    obtain ⟨x, hx, rfl⟩ := hm
    exact h x (List.mem_range.1 hx)
  unfold writeCell
  simp only
  rw [flushCell_eq A addr q0 (fun m => val (m - 1)) _ L h', bind_ok,
    cellLine_eq A addr _ (fun m => flush A (val (m - 1))) _ _ (fun m hm => by
      rw [fl_get, h' m hm, Option.map_some, if_pos]
      exact List.mem_append_right _ (List.mem_map.2 ⟨m, hm, rfl⟩)), bind_ok]
  congr 2
  rw [upTo_eq, List.flatMap_map]
  simp

/-- A loop that appends lines and visits elements. -/
theorem doLoop_acc {R : Type} (A : Fmt R) (q0 : List R)
    (f : Nat → List Line × List R → Outcome (List Line × List R)) (E : Nat → List Line)
    (B : Nat → List Nat) : ∀ (ks : List Nat) (ls : List Line) (L : List Nat),
    (∀ k ∈ ks, ∀ ls L, f k (ls, fl A L q0) = .ok (ls ++ E k, fl A (L ++ B k) q0)) →
    doLoop ks f (ls, fl A L q0)
      = .ok (ls ++ ks.flatMap E, fl A (L ++ ks.flatMap B) q0) := by
  intro ks
  induction ks with
  | nil => intro ls L _; simp [doLoop]
  | cons k ks ih =>
    intro ls L h
    simp only [doLoop]
    rw [h k (by simp), bind_ok, ih _ _ (fun k' hk' => h k' (List.mem_cons_of_mem _ hk'))]
    simp

theorem range_get {n a : Nat} (h : a < n) : (List.range n)[a]? = some a := by simp [h]

theorem row_length (n : Nat) {α : Type} (f : Nat → α) : ((List.range n).map f).length = n := by simp

theorem plane_length (n m : Nat) {α : Type} (f : Nat → Nat → α) :
    ((List.range n).flatMap fun j => (List.range m).map fun i => f i j).length = n * m := by
  rw [List.length_flatMap]; simp

theorem idx_lt {a b n m : Nat} (ha : a < n) (hb : b < m) : a * m + b < n * m := by
  calc a * m + b < a * m + m := by omega
    _ = (a + 1) * m := by ring
    _ ≤ n * m := Nat.mul_le_mul_right _ ha

theorem plane_get {n m : Nat} {α : Type} (f : Nat → Nat → α) {a b : Nat} (ha : a < n) (hb : b < m) :
    ((List.range n).flatMap fun j => (List.range m).map fun i => f i j)[a * m + b]? = some (f b a) := by
  rw [getElem_flatMap (fun j => (List.range m).map fun i => f i j) m (List.range n) a b a
    (fun x _ => by simp) (by simp [ha]) hb]
  simp [hb]

theorem memory_get46 {R : Type} {P : Params} (hw : P.writer = .v46) (u : Nat → Nat → Nat → Nat → R)
    {i j m : Nat} (hi : i < P.mx) (hj : j < P.my) (hm : m < P.meqn) :
    (memory P u)[addr46 P (i + 1) (j + 1) (m + 1)]? = some (u (i + P.mbc) (j + P.mbc) 0 m) := by
  have e : memory P u = (List.range P.meqn).flatMap fun m =>
      (List.range (P.my + 2 * P.mbc)).flatMap fun j =>
      (List.range (P.mx + 2 * P.mbc)).map fun i => u i j 0 m := by unfold memory; rw [hw]
  rw [e]
  have ea : addr46 P (i + 1) (j + 1) (m + 1)
      = m * ((P.my + 2 * P.mbc) * (P.mx + 2 * P.mbc))
        + ((j + P.mbc) * (P.mx + 2 * P.mbc) + (i + P.mbc)) := by
    unfold addr46
    rw [show m + 1 - 1 = m by omega, show j + 1 + P.mbc - 1 = j + P.mbc by omega,
      show i + 1 + P.mbc - 1 = i + P.mbc by omega]
    ring
  rw [ea, getElem_flatMap (fun m => (List.range (P.my + 2 * P.mbc)).flatMap fun j =>
      (List.range (P.mx + 2 * P.mbc)).map fun i => u i j 0 m) _ (List.range P.meqn) m _ m
      (fun x _ => plane_length _ _ fun i j => u i j 0 x) (by simp [hm]) (idx_lt (by omega) (by omega)),
    plane_get (fun i j => u i j 0 m) (by omega) (by omega)]

theorem memory_get5 {R : Type} {P : Params} (hw : P.writer = .v5) (u : Nat → Nat → Nat → Nat → R)
    {i j m : Nat} (hi : i < P.mx) (hj : j < P.my) (hm : m < P.meqn) :
    (memory P u)[addr5 P (i + 1) (j + 1) (m + 1)]? = some (u (i + P.mbc) (j + P.mbc) 0 m) := by
  have e : memory P u = (List.range (P.my + 2 * P.mbc)).flatMap fun j =>
      (List.range (P.mx + 2 * P.mbc)).flatMap fun i =>
      (List.range P.meqn).map fun m => u i j 0 m := by unfold memory; rw [hw]
  rw [e]
  have ea : addr5 P (i + 1) (j + 1) (m + 1)
      = (j + P.mbc) * ((P.mx + 2 * P.mbc) * P.meqn) + ((i + P.mbc) * P.meqn + m) := by
    unfold addr5
    rw [show m + 1 - 1 = m by omega, show j + 1 + P.mbc - 1 = j + P.mbc by omega,
      show i + 1 + P.mbc - 1 = i + P.mbc by omega]
    ring
  rw [ea, getElem_flatMap (fun j => (List.range (P.mx + 2 * P.mbc)).flatMap fun i =>
      (List.range P.meqn).map fun m => u i j 0 m) _ (List.range (P.my + 2 * P.mbc)) (j + P.mbc) _
      (j + P.mbc) (fun x _ => plane_length _ _ fun m i => u i x 0 m) (range_get (by omega))
      (idx_lt (by omega) (by omega)),
    plane_get (fun m i => u i (j + P.mbc) 0 m) (by omega) (by omega)]

theorem memory_get3 {R : Type} {P : Params} (hw : P.writer = .v3) (u : Nat → Nat → Nat → Nat → R)
    {i j k m : Nat} (hi : i < P.mx) (hj : j < P.my) (hk : k < P.mz) (hm : m < P.meqn) :
    (memory P u)[addr3 P (i + 1) (j + 1) (k + 1) (m + 1)]?
      = some (u (i + P.mbc) (j + P.mbc) (k + P.mbc) m) := by
  have e : memory P u = (List.range P.meqn).flatMap fun m =>
      (List.range (P.mz + 2 * P.mbc)).flatMap fun k =>
      (List.range (P.my + 2 * P.mbc)).flatMap fun j =>
      (List.range (P.mx + 2 * P.mbc)).map fun i => u i j k m := by unfold memory; rw [hw]
  rw [e]
  have hlen : ∀ x, ((List.range (P.mz + 2 * P.mbc)).flatMap fun k =>
      (List.range (P.my + 2 * P.mbc)).flatMap fun j =>
      (List.range (P.mx + 2 * P.mbc)).map fun i => u i j k x).length
      = (P.mz + 2 * P.mbc) * ((P.my + 2 * P.mbc) * (P.mx + 2 * P.mbc)) := by
    intro x
    rw [List.length_flatMap]
    simp only [plane_length (P.my + 2 * P.mbc) (P.mx + 2 * P.mbc) fun i j => u i j _ x]
    simp
  have ea : addr3 P (i + 1) (j + 1) (k + 1) (m + 1)
      = m * ((P.mz + 2 * P.mbc) * ((P.my + 2 * P.mbc) * (P.mx + 2 * P.mbc)))
        + ((k + P.mbc) * ((P.my + 2 * P.mbc) * (P.mx + 2 * P.mbc))
          + ((j + P.mbc) * (P.mx + 2 * P.mbc) + (i + P.mbc))) := by
    unfold addr3
    rw [show m + 1 - 1 = m by omega, show j + 1 + P.mbc - 1 = j + P.mbc by omega,
      show i + 1 + P.mbc - 1 = i + P.mbc by omega, show k + 1 + P.mbc - 1 = k + P.mbc by omega]
    ring
  have hp : (j + P.mbc) * (P.mx + 2 * P.mbc) + (i + P.mbc)
      < (P.my + 2 * P.mbc) * (P.mx + 2 * P.mbc) := idx_lt (by omega) (by omega)
  rw [ea, getElem_flatMap (fun m => (List.range (P.mz + 2 * P.mbc)).flatMap fun k =>
      (List.range (P.my + 2 * P.mbc)).flatMap fun j =>
      (List.range (P.mx + 2 * P.mbc)).map fun i => u i j k m) _ (List.range P.meqn) m _ m
      (fun x _ => hlen x) (by simp [hm]) (idx_lt (by omega) hp),
    getElem_flatMap (fun k => (List.range (P.my + 2 * P.mbc)).flatMap fun j =>
      (List.range (P.mx + 2 * P.mbc)).map fun i => u i j k m) _ (List.range (P.mz + 2 * P.mbc))
      (k + P.mbc) _ (k + P.mbc)
      (fun x _ => plane_length _ _ fun i j => u i j x m) (range_get (by omega)) hp,
    plane_get (fun i j => u i j (k + P.mbc) m) (by omega) (by omega)]

/-- The text of one cell. -/
def lineOf {R : Type} (A : Fmt R) (P : Params) (u : Nat → Nat → Nat → Nat → R)
    (c : Nat × Nat × Nat) : Line :=
  (List.range P.meqn).flatMap fun m => A.e26 (flush A (u c.1 c.2.1 c.2.2 m))

/-- The lines of the values of a patch. -/
def bodyLines {R : Type} (A : Fmt R) (P : Params) (u : Nat → Nat → Nat → Nat → R) : List Line :=
  if is3 P.writer then
    (List.range P.mz).flatMap fun k =>
      ((List.range P.my).flatMap fun j =>
        ((List.range P.mx).map fun i => lineOf A P u (i + P.mbc, j + P.mbc, k + P.mbc))
          ++ [blankLine]) ++ [blankLine]
  else
    (List.range P.my).flatMap fun j =>
      ((List.range P.mx).map fun i => lineOf A P u (i + P.mbc, j + P.mbc, 0)) ++ [blankLine]

/-- The elements that are visited. -/
def visited (P : Params) : List Nat :=
  match P.writer with
  | .v46 => (upTo P.my).flatMap fun j => (upTo P.mx).flatMap fun i =>
      (upTo P.meqn).map (addr46 P i j)
  | .v5 => (upTo P.my).flatMap fun j => (upTo P.mx).flatMap fun i =>
      (upTo P.meqn).map (addr5 P i j)
  | .v3 => (upTo P.mz).flatMap fun k => (upTo P.my).flatMap fun j => (upTo P.mx).flatMap fun i =>
      (upTo P.meqn).map (addr3 P i j k)

/-- The header of a patch. -/
def headLines {R : Type} (A : Fmt R) (P : Params) (s : Sol R) (g blockno rank : Nat) : List Line :=
  if is3 P.writer then gridHeader3 A P (patchOf P s) g s.level blockno rank
  else gridHeader2 A P (patchOf P s) g s.level blockno rank

theorem mem_upTo {n k : Nat} : k ∈ upTo n ↔ 1 ≤ k ∧ k ≤ n := by
  unfold upTo; rw [List.mem_range'_1]; omega

theorem flatMap_upTo {β : Type} (n : Nat) (f : Nat → List β) :
    (upTo n).flatMap f = (List.range n).flatMap fun k => f (k + 1) := by
  rw [upTo_eq, List.flatMap_map]

theorem singles {β : Type} (l : List Nat) (f : Nat → β) :
    (l.flatMap fun i => [f i]) = l.map f := by
  induction l with
  | nil => rfl
  | cons x xs ih => simp [ih]

theorem rows2 {R : Type} (A : Fmt R) (P : Params) (u : Nat → Nat → Nat → Nat → R)
    (addr : Nat → Nat → Nat → Nat) (q0 : List R) (z : Nat)
    (h : ∀ i j m, i < P.mx → j < P.my → m < P.meqn →
      q0[addr (i + 1) (j + 1) (m + 1)]? = some (u (i + P.mbc) (j + P.mbc) z m))
    (ls : List Line) (L : List Nat) :
    doLoop (upTo P.my) (fun j s =>
      (doLoop (upTo P.mx) (fun i s => writeCell A (addr i j) P.meqn s) s).bind writeBlank)
      (ls, fl A L q0)
    = .ok (ls ++ ((List.range P.my).flatMap fun j =>
        ((List.range P.mx).map fun i => lineOf A P u (i + P.mbc, j + P.mbc, z)) ++ [blankLine]),
        fl A (L ++ (upTo P.my).flatMap fun j => (upTo P.mx).flatMap fun i =>
          (upTo P.meqn).map (addr i j)) q0) := by
  rw [doLoop_acc A q0 _
    (fun j => ((List.range P.mx).map fun i => lineOf A P u (i + P.mbc, (j - 1) + P.mbc, z))
      ++ [blankLine])
    (fun j => (upTo P.mx).flatMap fun i => (upTo P.meqn).map (addr i j))]
  · congr 2
    rw [flatMap_upTo]
    simp
  · intro j hj ls L
    rw [mem_upTo] at hj
    rw [doLoop_acc A q0 _ (fun i => [lineOf A P u ((i - 1) + P.mbc, (j - 1) + P.mbc, z)])
      (fun i => (upTo P.meqn).map (addr i j))]
    · rw [bind_ok, flatMap_upTo, singles]
      simp [writeBlank]
    · intro i hi ls L
      rw [mem_upTo] at hi
      rw [writeCell_eq A (addr i j) P.meqn q0 (fun m => u ((i - 1) + P.mbc) ((j - 1) + P.mbc) z m)]
      · rfl
      · intro m hm
        have := h (i - 1) (j - 1) m (by omega) (by omega) hm
        rw [show i - 1 + 1 = i by omega, show j - 1 + 1 = j by omega] at this
        exact this

/-- What is written for a patch, and the solution afterwards. -/
theorem outputPatch_eq {R : Type} (A : Fmt R) (P : Params) (s : Sol R) (g blockno rank : Nat)
    (hm : P.meqn ≤ if is3 P.writer then 5 else 20) :
    outputPatch A P (patchOf P s) g s.level blockno rank
      = .ok (headLines A P s g blockno rank ++ bodyLines A P s.u,
          fl A (visited P) (memory P s.u)) := by
  have h0 : (patchOf P s).q = fl A [] (memory P s.u) := by rw [fl_nil]; rfl
  unfold outputPatch headLines bodyLines visited
  cases hw : P.writer with
  | v46 =>
    rw [hw] at hm
    simp only [is3, Bool.false_eq_true, if_false] at hm ⊢
    unfold output46
    rw [if_neg (by omega), h0, rows2 A P s.u (fun i j => addr46 P i j) (memory P s.u) 0
      (fun i j m hi hj hm => memory_get46 hw s.u hi hj hm)]
    simp
  | v5 =>
    rw [hw] at hm
    simp only [is3, Bool.false_eq_true, if_false] at hm ⊢
    unfold output5
    rw [if_neg (by omega), h0, rows2 A P s.u (fun i j => addr5 P i j) (memory P s.u) 0
      (fun i j m hi hj hm => memory_get5 hw s.u hi hj hm)]
    simp
  | v3 =>
    rw [hw] at hm
    simp only [is3, if_true] at hm ⊢
    unfold output3
    rw [if_neg (by omega), h0, doLoop_acc A (memory P s.u) _
      (fun k => ((List.range P.my).flatMap fun j =>
        ((List.range P.mx).map fun i => lineOf A P s.u (i + P.mbc, j + P.mbc, (k - 1) + P.mbc))
          ++ [blankLine]) ++ [blankLine])
      (fun k => (upTo P.my).flatMap fun j => (upTo P.mx).flatMap fun i =>
        (upTo P.meqn).map (addr3 P i j k))]
    · rw [flatMap_upTo P.mz]
      simp
    · intro k hk ls L
      rw [mem_upTo] at hk
      rw [rows2 A P s.u (fun i j => addr3 P i j k) (memory P s.u) ((k - 1) + P.mbc)
        (fun i j m hi hj hm => by
          have := memory_get3 hw s.u hi hj (k := k - 1) (by omega) hm
          rw [show k - 1 + 1 = k by omega] at this
          exact this), bind_ok]
      simp [writeBlank]

/-- Too many components. -/
theorem outputPatch_abort {R : Type} (A : Fmt R) (P : Params) (pt : Patch R) (g l b r : Nat)
    (hm : (if is3 P.writer then 5 else 20) < P.meqn) : outputPatch A P pt g l b r = .abort := by
  unfold outputPatch
  cases hw : P.writer <;> rw [hw] at hm <;> simp only [is3, Bool.false_eq_true, if_false, if_true] at hm
  · unfold output46; simp only; rw [if_pos hm]
  · unfold output5; simp only; rw [if_pos hm]
  · unfold output3; simp only; rw [if_pos hm]

/-! ### Reading the values -/

theorem readCols_eq (ts : List (List Char)) (h : ∀ t ∈ ts, t.length = 26) :
    readCols ts.length (ts.flatMap id) = some ts := by
  induction ts with
  | nil => rfl
  | cons t ts ih =>
    have ht := h t (by simp)
    simp only [List.flatMap_cons, List.length_cons, readCols, id]
    rw [if_pos (by rw [List.length_append]; omega), List.drop_left' ht, List.take_left' ht,
      ih (fun t' ht' => h t' (List.mem_cons_of_mem _ ht'))]
    rfl

theorem readCols_line {R : Type} {A : Fmt R} (hA : A.Wide) (P : Params)
    (u : Nat → Nat → Nat → Nat → R) (c : Nat × Nat × Nat) :
    readCols P.meqn (lineOf A P u c)
      = some ((List.range P.meqn).map fun m => A.e26 (flush A (u c.1 c.2.1 c.2.2 m))) := by
  have := readCols_eq ((List.range P.meqn).map fun m => A.e26 (flush A (u c.1 c.2.1 c.2.2 m)))
    (fun t ht => by
      obtain ⟨m, _, rfl⟩ := List.mem_map.1 ht
      exact hA.e26 _)
  rw [List.length_map, List.length_range, List.flatMap_map] at this
  exact this

theorem readCells_eq {R : Type} {A : Fmt R} (hA : A.Wide) (P : Params)
    (u : Nat → Nat → Nat → Nat → R) (rest : List Line) : ∀ (cs : List (Nat × Nat × Nat)),
    readCells P.meqn cs.length (cs.map (lineOf A P u) ++ rest)
      = some (cs.map (fun c => (List.range P.meqn).map fun m =>
          A.e26 (flush A (u c.1 c.2.1 c.2.2 m))), rest) := by
  intro cs
  induction cs with
  | nil => rfl
  | cons c cs ih =>
    simp only [List.map_cons, List.cons_append, List.length_cons, readCells]
    rw [readCols_line hA, Option.bind_some, ih]
    rfl

theorem lineOf_nonblank {R : Type} {A : Fmt R} (hA : A.Wide) {P : Params} (hm : 0 < P.meqn)
    (u : Nat → Nat → Nat → Nat → R) (c : Nat × Nat × Nat) :
    ((lineOf A P u c).any fun c => decide (c ≠ ' ')) = true := by
  obtain ⟨x, hx, hne⟩ := hA.shows (flush A (u c.1 c.2.1 c.2.2 0))
  rw [List.any_eq_true]
  refine ⟨x, ?_, by simpa using hne⟩
  unfold lineOf
  rw [List.mem_flatMap]
  exact ⟨0, List.mem_range.2 hm, hx⟩

theorem nonblank_map {ι : Type} (l : List ι) (f : ι → Line)
    (h : ∀ x, ((f x).any fun c => decide (c ≠ ' ')) = true) : nonblank (l.map f) = l.map f := by
  induction l with
  | nil => rfl
  | cons x xs ih => rw [List.map_cons, nonblank_cons_of (h x), ih]

theorem nonblank_flatMap {ι : Type} (l : List ι) (f : ι → List Line) :
    nonblank (l.flatMap f) = l.flatMap fun x => nonblank (f x) := by
  induction l with
  | nil => rfl
  | cons x xs ih => rw [List.flatMap_cons, List.flatMap_cons, nonblank_append, ih]

theorem nonblank_blankLine : nonblank [blankLine] = [] := by decide

theorem nonblank_body {R : Type} {A : Fmt R} (hA : A.Wide) {P : Params} (hm : 0 < P.meqn)
    (u : Nat → Nat → Nat → Nat → R) :
    nonblank (bodyLines A P u) = (interior P).map (lineOf A P u) := by
  unfold bodyLines interior
  by_cases h3 : is3 P.writer = true
  · rw [if_pos h3, if_pos h3]
    simp only [nonblank_flatMap, nonblank_append, nonblank_blankLine, List.append_nil,
      List.map_flatMap, List.map_map]
    congr 1; funext k; congr 1; funext j
    exact nonblank_map _ _ (fun i => lineOf_nonblank hA hm u _)
  · rw [if_neg h3, if_neg h3]
    simp only [nonblank_flatMap, nonblank_append, nonblank_blankLine, List.append_nil,
      List.map_flatMap, List.map_map]
    congr 1; funext j
    exact nonblank_map _ _ (fun i => lineOf_nonblank hA hm u _)

theorem interior_length (P : Params) : (interior P).length
    = if is3 P.writer then P.mz * (P.my * P.mx) else P.my * P.mx := by
  unfold interior
  by_cases h3 : is3 P.writer = true
  · rw [if_pos h3, if_pos h3, List.length_flatMap]
    simp [List.length_flatMap]
  · rw [if_neg h3, if_neg h3, List.length_flatMap]
    simp

end Fclaw.Ascii
