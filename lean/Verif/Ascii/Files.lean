/-
The contents of the files after any number of steps.
-/
import Verif.Ascii.Read
import Verif.Output.Sched

set_option autoImplicit false
set_option linter.unusedSimpArgs false

namespace Fclaw.Ascii

open Fclaw.ParFile (Distribution Outcome)
open Fclaw.Output

/-! ### The owner of a patch -/

theorem owns_unique {n : Nat} {D : Distribution n} {r t g : Nat} (hr : Owns D r g)
    (ht : Owns D t g) : r = t := by
  obtain ⟨h1, h2, h3⟩ := hr
  obtain ⟨h4, h5, h6⟩ := ht
  rcases Nat.lt_trichotomy r t with h | h | h
  · have := gfq_mono D (r := r + 1) (t := t) (by omega) (by omega); omega
  · exact h
  · have := gfq_mono D (r := t + 1) (t := r) (by omega) (by omega); omega

theorem exists_owner {n : Nat} (D : Distribution n) {g : Nat} (hg : g < n) : ∃ r, Owns D r g := by
  have key : ∀ t, t ≤ D.mpisize → g < D.gfq t → ∃ r, Owns D r g := by
    intro t
    induction t with
    | zero => intro _ h; rw [D.first] at h; omega
    | succ t ih =>
      intro ht h
      by_cases hc : g < D.gfq t
      · exact ih (by omega) hc
      · exact ⟨t, by omega, by omega, h⟩
  exact key D.mpisize (Nat.le_refl _) (by rw [D.last]; exact hg)

open Classical in
/-- The process that owns a patch. -/
noncomputable def owner {n : Nat} (D : Distribution n) (g : Nat) : Nat :=
  if h : ∃ r, Owns D r g then choose h else 0

theorem owner_eq {n : Nat} {D : Distribution n} {r g : Nat} (h : Owns D r g) : owner D g = r := by
  have he : ∃ r, Owns D r g := ⟨r, h⟩
  unfold owner
  rw [dif_pos he]
  exact owns_unique (Classical.choose_spec he) h

theorem owner_owns {n : Nat} {D : Distribution n} {g : Nat} (h : g < n) : Owns D (owner D g) g := by
  obtain ⟨r, hr⟩ := exists_owner D h
  rw [owner_eq hr]; exact hr

/-! ### What one process does -/

theorem catIdx_map {α β γ : Type} (f : Nat → β → Outcome (List γ)) (m : α → β) (l : List α) :
    ∀ n, catIdx f n (l.map m) = catIdx (fun j x => f j (m x)) n l := by
  induction l with
  | nil => intro n; rfl
  | cons x xs ih => intro n; simp only [List.map_cons, catIdx, ih]

theorem iterate_map {α β γ : Type} (cb : Nat → LocalBlock β → Nat → β → Outcome (List γ))
    (m : α → β) (d : Dom α) : iteratePatches cb (d.map m)
      = iteratePatches (fun bn b pn x => cb bn (b.map m) pn (m x)) d := by
  unfold iteratePatches Dom.map
  simp only [catIdx_map, LocalBlock.map]

theorem patches_block {α : Type} (F : Forest α) : ∀ (k : Nat) (x : Nat × α),
    x ∈ Forest.patches k F → x.1 < k + F.length := by
  induction F with
  | nil => intro k x hx; simp [Forest.patches] at hx
  | cons b bs ih =>
    intro k x hx
    simp only [Forest.patches, List.mem_append, List.mem_map] at hx
    rw [List.length_cons]
    rcases hx with ⟨p, _, rfl⟩ | hx
    · simp
    · have := ih _ _ hx; omega

theorem qName_length {i : Nat} (h : i < 10000) : (qName i).length = 10 := by
  unfold qName
  rw [List.length_append, d4_length h]
  rfl

theorem tName_length {i : Nat} (h : i < 10000) : (tName i).length = 10 := by
  unfold tName
  rw [List.length_append, d4_length h]
  rfl

theorem matname_q {i : Nat} (h : i < 10000) : matname 'q' i = .ok (qName i) := by
  have := qName_length h
  exact if_pos (by change (qName i).length < 11; omega)

theorem matname_t {i : Nat} (h : i < 10000) : matname 't' i = .ok (tName i) := by
  have := tName_length h
  exact if_pos (by change (tName i).length < 11; omega)

theorem patchName_eq {P : Params} {i : Nat} (hp : P.pre = "fort".toList) (h : i < 10000) :
    patchName P i = qName i := by
  have := qName_length h
  unfold patchName
  rw [hp]
  exact List.take_of_length_le (by change (qName i).length ≤ 11; omega)

theorem tName_ne_qName (i j : Nat) : tName i ≠ qName j := by
  intro h
  have := congrArg (fun l : List Char => l[5]?) h
  simp [tName, qName] at this

theorem qName_inj {i j : Nat} (h : qName i = qName j) : i = j :=
  d4_inj (List.append_cancel_left h)

theorem tName_inj {i j : Nat} (h : tName i = tName j) : i = j :=
  d4_inj (List.append_cancel_left h)

/-- The operations for patch `x` with number `g`. -/
noncomputable def patchOps {R : Type} (A : Fmt R) (X : Setting R) (g : Nat) (x : Nat × Sol R) : List Op :=
  (patchLines A X.P (owner X.D) g x).map (Op.append (patchName X.P X.iframe))

/-- The operations of process 0 before its patches. -/
def headOps {R : Type} (A : Fmt R) (X : Setting R) : List Op :=
  headerAscii A (numDim X.P.writer) (qName X.iframe) (tName X.iframe) X.time X.P.meqn X.P.maux
    X.F.count

theorem inside_ok {R : Type} (A : Fmt R) (X : Nat → Setting R) (k : Nat) {r : Nat}
    (hi : (X k).iframe < 10000)
    (hm : (X k).P.meqn ≤ if is3 (X k).P.writer then 5 else 20) (hr : r < (X k).D.mpisize) :
    inside A X k r = .ok ((if r = 0 then headOps A (X k) else [])
      ++ part (X k).F (X k).D (patchOps A (X k)) r) := by
  have hbody : iteratePatches (cbOutput A (X k).P (X k).iframe
      ((localDom (X k).F (X k).D r).map (patchOf (X k).P)))
      ((localDom (X k).F (X k).D r).map (patchOf (X k).P))
      = .ok (part (X k).F (X k).D (patchOps A (X k)) r) := by
    rw [iterate_map]
    refine iterate_eq _ _ hr (fun lb j g x hg ho _ => ?_)
    have hnum : globalNum ((localDom (X k).F (X k).D r).map (patchOf (X k).P))
        (lb.map (patchOf (X k).P)) j = g := by
      rw [← hg]
      simp only [globalNum, Dom.map, localDom, LocalBlock.map]
      omega
    have hrank : ((localDom (X k).F (X k).D r).map (patchOf (X k).P)).mpirank = r := rfl
    unfold cbOutput
    rw [hnum, hrank, show (patchOf (X k).P x.2).level = x.2.level from rfl,
      outputPatch_eq A _ x.2 g x.1 r hm, bind_ok]
    unfold patchOps patchLines
    rw [owner_eq ho]
  unfold inside outputAscii
  rw [hbody]
  by_cases h0 : r = 0
  · subst h0
    have e : (if ((localDom (X k).F (X k).D 0).map (patchOf (X k).P)).mpirank = 0 then
        timeHeader A (X k).P (X k).time
          ((localDom (X k).F (X k).D 0).map (patchOf (X k).P)).globalNumPatches (X k).iframe
        else .ok []) = .ok (headOps A (X k)) := by
      have e1 : timeHeader A (X k).P (X k).time (X k).F.count (X k).iframe
          = .ok (headOps A (X k)) := by
        unfold timeHeader
        rw [matname_q hi, matname_t hi, bind_ok, bind_ok]
        rfl
      rw [← e1]
      exact if_pos rfl
    rw [e]
    rfl
  · have e : (if ((localDom (X k).F (X k).D r).map (patchOf (X k).P)).mpirank = 0 then
        timeHeader A (X k).P (X k).time
          ((localDom (X k).F (X k).D r).map (patchOf (X k).P)).globalNumPatches (X k).iframe
        else .ok []) = .ok ([] : List Op) := if_neg h0
    rw [e, if_neg h0]
    rfl

/-! ### One file -/

def opName : Op → Name
  | .clear n => n
  | .append n _ => n

/-- What an operation does to the file `x`. -/
def act (x : Name) (c : Option (List Line)) : Op → Option (List Line)
  | .clear n => if x = n then some [] else c
  | .append n l => if x = n then some (c.getD [] ++ [l]) else c

theorem apply_act (fs : Files) (o : Op) (x : Name) : apply fs o x = act x (fs x) o := by
  cases o with
  | clear n => rfl
  | append n l =>
    simp only [apply, act]
    by_cases h : x = n
    · subst h; rfl
    · rw [if_neg h, if_neg h]

theorem fold_act (x : Name) (ops : List Op) : ∀ fs : Files,
    ops.foldl apply fs x = ops.foldl (act x) (fs x) := by
  induction ops with
  | nil => intro fs; rfl
  | cons o os ih => intro fs; rw [List.foldl_cons, List.foldl_cons, ih, apply_act]

theorem act_other {x : Name} {o : Op} (h : opName o ≠ x) (c : Option (List Line)) :
    act x c o = c := by
  cases o with
  | clear n => exact if_neg (Ne.symm h)
  | append n l => exact if_neg (Ne.symm h)

theorem fold_other {x : Name} {ops : List Op} (h : ∀ o ∈ ops, opName o ≠ x) :
    ∀ c, ops.foldl (act x) c = c := by
  induction ops with
  | nil => intro c; rfl
  | cons o os ih =>
    intro c
    rw [List.foldl_cons, act_other (h o (by simp)),
      ih (fun o' ho' => h o' (List.mem_cons_of_mem _ ho'))]

theorem fold_frame {x : Name} {k : Nat} (h : List (Nat × Op))
    (hh : ∀ y ∈ h, y.1 ≠ k → opName y.2 ≠ x) : ∀ c,
    (h.map Prod.snd).foldl (act x) c
      = ((h.filter fun y => decide (y.1 = k)).map Prod.snd).foldl (act x) c := by
  induction h with
  | nil => intro c; rfl
  | cons y ys ih =>
    intro c
    have ih' := ih (fun z hz => hh z (List.mem_cons_of_mem _ hz))
    by_cases hy : y.1 = k
    · rw [List.filter_cons, if_pos (by simpa using hy), List.map_cons, List.map_cons,
        List.foldl_cons, List.foldl_cons, ih']
    · rw [List.filter_cons, if_neg (by simpa using hy), List.map_cons, List.foldl_cons,
        act_other (hh y (by simp) hy), ih']

theorem fold_append (x : Name) (ls : List Line) : ∀ c : List Line,
    (ls.map (Op.append x)).foldl (act x) (some c) = some (c ++ ls) := by
  induction ls with
  | nil => intro c; simp
  | cons l ls ih =>
    intro c
    rw [List.map_cons, List.foldl_cons]
    have : act x (some c) (Op.append x l) = some (c ++ [l]) := if_pos rfl
    rw [this, ih]
    simp

theorem act_clear (x : Name) (c : Option (List Line)) : act x c (.clear x) = some [] := if_pos rfl

theorem act_append (x : Name) (c l : List Line) (y : Line) (h : c ++ [y] = l) :
    act x (some c) (.append x y) = some l := by rw [← h]; exact if_pos rfl

theorem fold_header_t {R : Type} (A : Fmt R) (dim : Nat) {a b : Name} (hne : a ≠ b) (time : R)
    (meqn maux ngrids : Nat) (c : Option (List Line)) :
    (headerAscii A dim a b time meqn maux ngrids).foldl (act b) c
      = some [A.e30 time ++ gap4 ++ "time".toList,
          i5 meqn ++ gap17 ++ "meqn".toList,
          i5 ngrids ++ gap17 ++ "ngrids".toList,
          i5 maux ++ gap17 ++ "num_aux".toList,
          i5 dim ++ gap17 ++ "num_dim".toList] := by
  unfold headerAscii
  generalize A.e30 time ++ gap4 ++ "time".toList = l1
  generalize i5 meqn ++ gap17 ++ "meqn".toList = l2
  generalize i5 ngrids ++ gap17 ++ "ngrids".toList = l3
  generalize i5 maux ++ gap17 ++ "num_aux".toList = l4
  generalize i5 dim ++ gap17 ++ "num_dim".toList = l5
  rw [List.foldl_cons, act_clear, List.foldl_cons, act_append b [] [l1] l1 rfl, List.foldl_cons,
    act_append b [l1] [l1, l2] l2 rfl, List.foldl_cons, act_append b [l1, l2] [l1, l2, l3] l3 rfl,
    List.foldl_cons, act_append b [l1, l2, l3] [l1, l2, l3, l4] l4 rfl,
    List.foldl_cons, act_append b [l1, l2, l3, l4] [l1, l2, l3, l4, l5] l5 rfl,
    List.foldl_cons, act_other (show opName (Op.clear a) ≠ b from hne), List.foldl_nil]

theorem fold_header_q {R : Type} (A : Fmt R) (dim : Nat) (a b : Name) (time : R)
    (meqn maux ngrids : Nat) (c : Option (List Line)) :
    (headerAscii A dim a b time meqn maux ngrids).foldl (act a) c = some [] := by
  unfold headerAscii
  simp only [List.foldl_cons, act_clear, List.foldl_nil]

theorem fold_head_t {R : Type} (A : Fmt R) (X : Setting R) (c : Option (List Line)) :
    (headOps A X).foldl (act (tName X.iframe)) c
      = some (timeLines A X.P X.time X.F.count) := by
  unfold headOps
  rw [fold_header_t A _ (Ne.symm (tName_ne_qName _ _))]
  rfl

theorem fold_head_q {R : Type} (A : Fmt R) (X : Setting R) (c : Option (List Line)) :
    (headOps A X).foldl (act (qName X.iframe)) c = some [] := by
  unfold headOps
  rw [fold_header_q]

theorem flatIdx_mapOp {α : Type} (f : Nat → α → List Line) (x : Name) (l : List α) : ∀ n,
    flatIdx (fun g y => (f g y).map (Op.append x)) n l = (flatIdx f n l).map (Op.append x) := by
  induction l with
  | nil => intro n; rfl
  | cons y ys ih => intro n; simp only [flatIdx, List.map_append, ih]

/-- The operations of all processes in a frame. -/
theorem all_ops {R : Type} (A : Fmt R) (X : Setting R) (hn : 0 < X.D.mpisize) :
    ((List.range X.D.mpisize).flatMap fun r =>
      (if r = 0 then headOps A X else []) ++ part X.F X.D (patchOps A X) r)
    = headOps A X ++ (flatIdx (patchLines A X.P (owner X.D)) 0 (Forest.patches 0 X.F)).map
        (Op.append (patchName X.P X.iframe)) := by
  have h2 : (List.range X.D.mpisize).flatMap (part X.F X.D (patchOps A X))
      = (flatIdx (patchLines A X.P (owner X.D)) 0 (Forest.patches 0 X.F)).map
        (Op.append (patchName X.P X.iframe)) := by
    rw [parts_all, ← flatIdx_mapOp]
    rfl
  rw [← h2]
  obtain ⟨m, hm⟩ : ∃ m, X.D.mpisize = m + 1 := ⟨X.D.mpisize - 1, by omega⟩
  rw [hm, List.range_succ_eq_map, List.flatMap_cons, List.flatMap_cons, if_pos rfl,
    List.append_assoc, List.flatMap_map, List.flatMap_map]
  congr 2

/-- The names used by a frame. -/
theorem ops_names {R : Type} (A : Fmt R) (X : Setting R) :
    ∀ o ∈ headOps A X ++ (flatIdx (patchLines A X.P (owner X.D)) 0 (Forest.patches 0 X.F)).map
        (Op.append (patchName X.P X.iframe)),
    opName o = tName X.iframe ∨ opName o = qName X.iframe ∨ opName o = patchName X.P X.iframe := by
  intro o ho
  rcases List.mem_append.1 ho with h | h
  · simp only [headOps, headerAscii, List.mem_cons, List.not_mem_nil, or_false] at h
    rcases h with rfl | rfl | rfl | rfl | rfl | rfl | rfl <;> simp [opName]
  · obtain ⟨l, _, rfl⟩ := List.mem_map.1 h
    exact Or.inr (Or.inr rfl)

/-! ### All frames -/

/-- The operations of each frame so far come from the processes. -/
theorem hist_mem {R : Type} {A : Fmt R} {X : Nat → Setting R} {n K : Nat} {fs0 : Files}
    {w : World Op Files} {h : List (Nat × Op)} {d : Nat → Nat → List Op}
    (H : Hist n K apply (inside A X) fs0 w h d) (hser : Serial.Inv n K w.ser) {y : Nat × Op}
    (hy : y ∈ h) : ∃ r l, y.1 < K ∧ r < n ∧ inside A X y.1 r = .ok l ∧ y.2 ∈ l := by
  have hm : y.2 ∈ (h.filter fun x => decide (x.1 = y.1)).map Prod.snd :=
    List.mem_map.2 ⟨y, List.mem_filter.2 ⟨hy, by simp⟩, rfl⟩
  rw [H.order y.1, List.mem_flatMap] at hm
  obtain ⟨r, hr, hd⟩ := hm
  have hr' := List.mem_range.1 hr
  have D := H.done y.1 r hr'
  have hb := hser.bound r hr'
  by_cases h1 : w.ser.pos r ≤ 2 * y.1
  · rw [D.before h1] at hd; simp at hd
  · by_cases h2 : w.ser.pos r = 2 * y.1 + 1
    · exact ⟨r, _, by omega, hr', D.now h2, List.mem_append_left _ hd⟩
    · exact ⟨r, _, by omega, hr', D.past (by omega), hd⟩

/-- When all processes have finished a frame, its operations are those of all
processes in order. -/
theorem hist_frame {R : Type} {A : Fmt R} {X : Nat → Setting R} {n K : Nat} {fs0 : Files}
    {w : World Op Files} {h : List (Nat × Op)} {d : Nat → Nat → List Op}
    (H : Hist n K apply (inside A X) fs0 w h d) {k : Nat} (hn : 0 < n)
    (hsize : (X k).D.mpisize = n) (hi : (X k).iframe < 10000)
    (hm : (X k).P.meqn ≤ if is3 (X k).P.writer then 5 else 20)
    (hdone : ∀ r, r < n → Finished w k r) :
    (h.filter fun x => decide (x.1 = k)).map Prod.snd
      = headOps A (X k) ++ (flatIdx (patchLines A (X k).P (owner (X k).D)) 0
          (Forest.patches 0 (X k).F)).map (Op.append (patchName (X k).P (X k).iframe)) := by
  rw [H.order k, ← all_ops A (X k) (by omega), hsize]
  apply List.flatMap_congr
  intro r hr
  have hr' := List.mem_range.1 hr
  have hp : 2 * k + 2 ≤ w.ser.pos r := by
    rcases hdone r hr' with h | h
    · omega
    · omega
  have h1 := (H.done k r hr').past hp
  rw [inside_ok A X k hi hm (by omega)] at h1
  simpa using h1.symm

theorem inside_all_ok {R : Type} {A : Fmt R} {X : Nat → Setting R} {n K : Nat}
    (hsize : ∀ k, k < K → (X k).D.mpisize = n) (hf : ∀ k, k < K → Named (X k)) :
    ∀ k r, k < K → r < n → ∃ l, inside A X k r = .ok l := fun k r hk hr =>
  ⟨_, inside_ok A X k (hf k hk).iframe (hf k hk).meqn (by rw [hsize k hk]; exact hr)⟩

/-- The names that an operation of a frame uses. -/
theorem inside_names {R : Type} {A : Fmt R} {X : Nat → Setting R} {n k r : Nat} {l : List Op}
    (hsize : (X k).D.mpisize = n) (hf : Named (X k)) (hr : r < n) (h : inside A X k r = .ok l)
    {o : Op} (ho : o ∈ l) : opName o = tName (X k).iframe ∨ opName o = qName (X k).iframe := by
  rw [inside_ok A X k hf.iframe hf.meqn (by rw [hsize]; exact hr)] at h
  have hl : l = (if r = 0 then headOps A (X k) else [])
      ++ part (X k).F (X k).D (patchOps A (X k)) r := by simpa using h.symm
  have hmem : o ∈ headOps A (X k) ++ (flatIdx (patchLines A (X k).P (owner (X k).D)) 0
      (Forest.patches 0 (X k).F)).map (Op.append (patchName (X k).P (X k).iframe)) := by
    rw [← all_ops A (X k) (by omega), List.mem_flatMap]
    exact ⟨r, List.mem_range.2 (by omega), by rw [← hl]; exact ho⟩
  have := ops_names A (X k) o hmem
  rw [patchName_eq hf.pre hf.iframe] at this
  rcases this with h | h | h
  · exact Or.inl h
  · exact Or.inr h
  · exact Or.inr h

/-- The two files of a frame after all processes have finished it. -/
theorem files_eq {R : Type} {A : Fmt R} {X : Nat → Setting R} {n K : Nat} {fs0 : Files}
    {w : World Op Files} (hn : 0 < n) (hsize : ∀ k, k < K → (X k).D.mpisize = n)
    (hf : ∀ k, k < K → Named (X k))
    (hdist : ∀ k k', k < K → k' < K → (X k).iframe = (X k').iframe → k = k')
    (h : Reach n K apply (inside A X) afterward fs0 w) {k : Nat} (hk : k < K)
    (hdone : ∀ r, r < n → Finished w k r) :
    w.fs (tName (X k).iframe) = some (timeLines A (X k).P (X k).time (X k).F.count) ∧
    w.fs (qName (X k).iframe) = some (flatIdx (patchLines A (X k).P (owner (X k).D)) 0
      (Forest.patches 0 (X k).F)) := by
  obtain ⟨hist, d, H⟩ := hist_exists h
  have hser := ser_inv h
  have hF := hf k hk
  have hother : ∀ x, x = tName (X k).iframe ∨ x = qName (X k).iframe →
      ∀ y ∈ hist, y.1 ≠ k → opName y.2 ≠ x := by
    intro x hx y hy hne hc
    obtain ⟨r, l, h1, h2, h3, h4⟩ := hist_mem H hser hy
    have hnm := inside_names (hsize _ h1) (hf _ h1) h2 h3 h4
    rw [hc] at hnm
    apply hne
    apply hdist _ _ h1 hk
    rcases hx with rfl | rfl <;> rcases hnm with hq | hq
    · exact (tName_inj hq).symm
    · exact absurd hq (tName_ne_qName _ _)
    · exact absurd hq.symm (tName_ne_qName _ _)
    · exact (qName_inj hq).symm
  constructor
  · rw [H.fs, fold_act, fold_frame hist (hother _ (Or.inl rfl)),
      hist_frame H hn (hsize k hk) hF.iframe hF.meqn hdone, List.foldl_append, fold_head_t]
    refine fold_other (fun o ho => ?_) _
    obtain ⟨l, _, rfl⟩ := List.mem_map.1 ho
    rw [patchName_eq hF.pre hF.iframe]
    exact Ne.symm (tName_ne_qName _ _)
  · rw [H.fs, fold_act, fold_frame hist (hother _ (Or.inr rfl)),
      hist_frame H hn (hsize k hk) hF.iframe hF.meqn hdone, List.foldl_append, fold_head_q,
      patchName_eq hF.pre hF.iframe, fold_append]
    simp

/-- Any other file. -/
theorem files_other {R : Type} {A : Fmt R} {X : Nat → Setting R} {n K : Nat} {fs0 : Files}
    {w : World Op Files} (hsize : ∀ k, k < K → (X k).D.mpisize = n)
    (hf : ∀ k, k < K → Named (X k))
    (h : Reach n K apply (inside A X) afterward fs0 w) {x : Name}
    (hx : ∀ k, k < K → x ≠ tName (X k).iframe ∧ x ≠ qName (X k).iframe) : w.fs x = fs0 x := by
  obtain ⟨hist, d, H⟩ := hist_exists h
  rw [H.fs, fold_act]
  refine fold_other (fun o ho => ?_) _
  obtain ⟨y, hy, rfl⟩ := List.mem_map.1 ho
  obtain ⟨r, l, h1, h2, h3, h4⟩ := hist_mem H (ser_inv h) hy
  intro hc
  rcases inside_names (hsize _ h1) (hf _ h1) h2 h3 h4 with hq | hq
  · exact (hx _ h1).1 (by rw [← hc, hq])
  · exact (hx _ h1).2 (by rw [← hc, hq])

end Fclaw.Ascii
