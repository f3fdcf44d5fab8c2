/-
Lemmas about sampling.
-/
import Verif.Gauge.Spec
import Mathlib.Data.List.Perm.Basic
import Mathlib.Data.List.Nodup
import Mathlib.Data.List.Range

set_option autoImplicit false
set_option linter.unusedSimpArgs false
set_option linter.unusedVariables false
namespace Fclaw.Gauge

variable {S V : Type}

/-- The buffer holds exactly the list `l`. -/
def Holds (g : G S) (l : List S) : Prop := g.next = l.length ∧ ∀ k, k < g.next → g.buffer k = l[k]?

theorem collect_eq (buffer : Nat → Option S) (l : List S) (n : Nat) (hn : n ≤ l.length)
    (h : ∀ k, k < n → buffer k = l[k]?) : collect buffer n = .ok (l.take n) := by
  induction n with
  | zero => simp [collect]
  | succ k ih =>
    have hk : k < l.length := by omega
    simp only [collect, ih (by omega) (fun j hj => h j (by omega)), h k (by omega), List.getElem?_eq_getElem hk]
    rw [List.take_succ, List.getElem?_eq_getElem hk]
    rfl

theorem print_eq (g : G S) (l file : List S) (h : Holds g l) :
    printBuffer g file = .ok ({ g with buffer := fun k => if k < g.next then none else g.buffer k }, file ++ l) := by
  unfold printBuffer
  rw [collect_eq g.buffer l g.next (by rw [h.1]) h.2, h.1]
  simp

/-- What one process has, and what the file gets, in one step. -/
theorem update_eq (c : Cfg) (hb : 0 < c.bufferLen) (t : ℚ) (s : S) (g : G S) (l : List S) (h : Holds g l)
    (hlen : l.length < c.bufferLen) (hloc : g.isLocal = false → l = []) :
    ∃ (g' : G S) (out l' : List S), (∀ file, updateLocal c t s g file = .ok (g', file ++ out)) ∧
      g'.isLocal = g.isLocal ∧ g'.lastTime = (if Due c g.lastTime t then t else g.lastTime) ∧ Holds g' l' ∧
      l'.length < c.bufferLen ∧ (g.isLocal = false → l' = [] ∧ out = []) ∧
      out ++ l' = l ++ (if Due c g.lastTime t ∧ g.isLocal = true then [s] else []) := by
  by_cases hd : Due c g.lastTime t
  · have hd' : t ≥ c.t1 ∧ t ≤ c.t2 ∧ t - g.lastTime ≥ c.minIncrement := hd
    cases hl : g.isLocal with
    | false =>
      have hl0 := hloc hl
      subst hl0
      have hn : g.next = 0 := h.1
      refine ⟨{ g with lastTime := t }, [], [], ?_, hl, by simp [hd], ⟨h.1, h.2⟩, hb, fun _ => ⟨rfl, rfl⟩, by simp [hl]⟩
      intro file
      unfold updateLocal
      rw [if_pos hd']
      simp [hl, hn]
    | true =>
      have hn : g.next < c.bufferLen := by rw [h.1]; exact hlen
      have hset : setEntry c { g with lastTime := t } s =
          .ok { g with lastTime := t, buffer := fun k => if k = g.next then some s else g.buffer k } := by
        simp only [setEntry, if_pos hn]
      have hH : Holds ({ g with lastTime := t, next := g.next + 1, buffer := fun k => if k = g.next then some s else g.buffer k } : G S) (l ++ [s]) := by
        constructor
        · simp [h.1]
        · intro k hk
          dsimp only at hk ⊢
          by_cases hkn : k = g.next
          · rw [if_pos hkn, hkn, h.1]
            simp
          · rw [if_neg hkn, h.2 k (by omega), List.getElem?_append_left (by rw [← h.1]; omega)]
      simp only [hl] at hset hH
      by_cases hfull : g.next + 1 = c.bufferLen
      · refine ⟨{ g with lastTime := t, next := 0, buffer := fun k => if k < g.next + 1 then none else
            if k = g.next then some s else g.buffer k }, l ++ [s], [], ?_, hl, by simp [hd], ⟨rfl, ?_⟩, hb,
            fun h0 => by simp at h0, by simp [hd]⟩
        · intro file
          unfold updateLocal
          rw [if_pos hd']
          simp only [hl, if_true, hset]
          rw [if_pos hfull, print_eq _ _ file hH]
        · intro k hk
          exact absurd hk (Nat.not_lt_zero _)
      · refine ⟨{ g with lastTime := t, next := g.next + 1, buffer := fun k => if k = g.next then some s else g.buffer k }, [], l ++ [s], ?_, hl, by simp [hd], hH, ?_, fun h0 => by simp at h0, by simp [hd]⟩
        · intro file
          unfold updateLocal
          rw [if_pos hd']
          simp only [hl, if_true, hset, hfull, if_false, List.append_nil]
        · have := h.1
          simp only [List.length_append, List.length_cons, List.length_nil]
          omega
  · have hd' : ¬ (t ≥ c.t1 ∧ t ≤ c.t2 ∧ t - g.lastTime ≥ c.minIncrement) := hd
    refine ⟨g, [], l, ?_, rfl, by simp [hd], h, hlen, fun h0 => ⟨hloc h0, rfl⟩, by simp [hd]⟩
    intro file
    unfold updateLocal
    rw [if_neg hd', List.append_nil]

theorem locate_eq (patchno : Int) (g : G S) (l : List S) (h : Holds g l) :
    ∃ (g' : G S) (out l' : List S), (∀ file, locateLocal patchno g file = .ok (g', file ++ out)) ∧
      g'.isLocal = decide (patchno ≥ 0) ∧ g'.lastTime = g.lastTime ∧ Holds g' l' ∧
      l'.length ≤ l.length ∧ (g'.isLocal = false → l' = []) ∧ out ++ l' = l := by
  by_cases hp : patchno ≥ 0
  · refine ⟨{ g with isLocal := true }, [], l, ?_, by simp [hp], rfl, h, le_rfl, fun h0 => by simp at h0, rfl⟩
    intro file
    simp [locateLocal, hp]
  · by_cases hn : g.next > 0
    · refine ⟨{ g with isLocal := false, buffer := fun k => if k < g.next then none else g.buffer k, next := 0 }, l, [],
        ?_, by simp [hp], rfl, ⟨rfl, fun k hk => absurd hk (Nat.not_lt_zero _)⟩, Nat.zero_le _, fun _ => rfl, by simp⟩
      intro file
      have hH : Holds ({ g with isLocal := false } : G S) l := h
      simp only [locateLocal, hp, decide_false, hn, and_self, if_true, print_eq _ _ file hH]
    · have hl : l = [] := by
        have := h.1
        exact List.length_eq_zero_iff.1 (by omega)
      subst hl
      refine ⟨{ g with isLocal := false }, [], [], ?_, by simp [hp], rfl, h, le_rfl, fun _ => rfl, rfl⟩
      intro file
      simp [locateLocal, hp, hn]

theorem finalize_eq (g : G S) (l : List S) (h : Holds g l) (hloc : g.isLocal = false → l = []) :
    ∃ g' : G S, ∀ file, finalizeLocal g file = .ok (g', file ++ l) := by
  cases hl : g.isLocal with
  | true => exact ⟨_, fun file => by simp only [finalizeLocal, hl, if_true]; exact print_eq g l file h⟩
  | false => exact ⟨g, fun file => by simp [finalizeLocal, hl, hloc hl]⟩

/-- A sweep over different processes that append something to the file. -/
theorem sweep_eq (act : Nat → G S → List S → Res (G S × List S)) (new : Nat → G S) (out : Nat → List S) (order : List Nat)
    (hnd : order.Nodup) (w : World S) (h : ∀ r ∈ order, ∀ file, act r (w.procs r) file = .ok (new r, file ++ out r)) :
    sweep act order w = .ok { procs := fun k => if k ∈ order then new k else w.procs k, file := w.file ++ order.flatMap out } := by
  induction order generalizing w with
  | nil => simp [sweep]
  | cons r rs ih =>
    rw [List.nodup_cons] at hnd
    simp only [sweep, h r List.mem_cons_self]
    rw [ih hnd.2]
    · congr 1
      congr 1
      · funext k
        by_cases hk : k ∈ rs
        · simp [hk]
        · by_cases hkr : k = r
          · simp [hkr, hk, hnd.1]
          · simp [hkr, hk]
      · simp [List.append_assoc]
    · intro s hs file
      have hsr : s ≠ r := fun e => hnd.1 (e ▸ hs)
      dsimp only
      rw [if_neg hsr]
      exact h s (List.mem_cons_of_mem _ hs) file

theorem flatMap_none (f : Nat → List S) (l : List Nat) (h : ∀ r ∈ l, f r = []) : l.flatMap f = [] := by
  induction l with
  | nil => rfl
  | cons a l ih =>
    rw [List.flatMap_cons, h a List.mem_cons_self, ih (fun r hr => h r (List.mem_cons_of_mem _ hr))]
    rfl

theorem flatMap_one (f : Nat → List S) (l : List Nat) (hnd : l.Nodup) (r : Nat) (hr : r ∈ l)
    (h : ∀ s ∈ l, s ≠ r → f s = []) : l.flatMap f = f r := by
  induction l with
  | nil => simp at hr
  | cons a l ih =>
    rw [List.nodup_cons] at hnd
    rw [List.flatMap_cons]
    by_cases har : a = r
    · rw [flatMap_none f l, List.append_nil, har]
      intro s hs
      exact h s (List.mem_cons_of_mem _ hs) (fun e => hnd.1 (by rw [har, ← e]; exact hs))
    · rw [h a List.mem_cons_self har, List.nil_append]
      have hr' : r ∈ l := by
        rcases List.mem_cons.1 hr with e | e
        · exact absurd e.symm har
        · exact e
      exact ih hnd.2 hr' (fun s hs => h s (List.mem_cons_of_mem _ hs))

/-- At most one of the lists is not empty: the order does not matter. -/
theorem flatMap_order (f : Nat → List S) (P : Nat) (order : List Nat) (ho : order.Perm (List.range P))
    (own : Nat → Bool) (hu : ∀ r s, r < P → s < P → own r = true → own s = true → r = s)
    (h : ∀ r, r < P → own r = false → f r = []) : order.flatMap f = (List.range P).flatMap f := by
  have hnd : order.Nodup := (ho.nodup_iff).2 List.nodup_range
  have hm : ∀ r, r ∈ order ↔ r < P := fun r => by rw [ho.mem_iff, List.mem_range]
  by_cases hex : ∃ r, r < P ∧ own r = true
  · obtain ⟨r, hr, hor⟩ := hex
    have hz : ∀ s, s < P → s ≠ r → f s = [] := by
      intro s hs hsr
      apply h s hs
      cases hos : own s with
      | false => rfl
      | true => exact absurd (hu s r hs hr hos hor) hsr
    rw [flatMap_one f order hnd r ((hm r).2 hr) (fun s hs => hz s ((hm s).1 hs)),
      flatMap_one f (List.range P) List.nodup_range r (List.mem_range.2 hr) (fun s hs => hz s (List.mem_range.1 hs))]
  · have hz : ∀ s, s < P → f s = [] := by
      intro s hs
      apply h s hs
      cases hos : own s with
      | false => rfl
      | true => exact absurd ⟨s, hs, hos⟩ hex
    rw [flatMap_none f order (fun s hs => hz s ((hm s).1 hs)),
      flatMap_none f (List.range P) (fun s hs => hz s (List.mem_range.1 hs))]

/-- State of all processes between operations. `pend r` are the samples waiting in the buffer of process `r`. -/
structure Inv (c : Cfg) (P : Nat) (own : Nat → Bool) (last : ℚ) (w : World S) (pend : Nat → List S) : Prop where
  isLocal : ∀ r, r < P → (w.procs r).isLocal = own r
  lastTime : ∀ r, r < P → (w.procs r).lastTime = last
  holds : ∀ r, r < P → Holds (w.procs r) (pend r)
  len : ∀ r, r < P → (pend r).length < c.bufferLen
  empty : ∀ r, r < P → own r = false → pend r = []
  unique : ∀ r s, r < P → s < P → own r = true → own s = true → r = s

theorem own_filter (P : Nat) (own : Nat → Bool) (hu : ∀ r s, r < P → s < P → own r = true → own s = true → r = s)
    (f : Nat → S) : ((List.range P).filter own).map f = (List.range P).flatMap fun r => if own r = true then [f r] else [] := by
  generalize List.range P = l
  induction l with
  | nil => rfl
  | cons a l ih =>
    rw [List.flatMap_cons, ← ih]
    by_cases ha : own a = true
    · simp [List.filter_cons, ha]
    · simp [List.filter_cons, ha]

theorem flatMap_append_of (f g : Nat → List S) (P : Nat) (own : Nat → Bool)
    (hu : ∀ r s, r < P → s < P → own r = true → own s = true → r = s)
    (hf : ∀ r, r < P → own r = false → f r = []) (hg : ∀ r, r < P → own r = false → g r = []) :
    (List.range P).flatMap (fun r => f r ++ g r) = (List.range P).flatMap f ++ (List.range P).flatMap g := by
  by_cases hex : ∃ r, r < P ∧ own r = true
  · obtain ⟨r, hr, hor⟩ := hex
    have hz : ∀ s ∈ List.range P, s ≠ r → own s = false := by
      intro s hs hsr
      cases hos : own s with
      | false => rfl
      | true => exact absurd (hu s r (List.mem_range.1 hs) hr hos hor) hsr
    have hr' := List.mem_range.2 hr
    rw [flatMap_one _ _ List.nodup_range r hr' (fun s hs hsr => by
        rw [hf s (List.mem_range.1 hs) (hz s hs hsr), hg s (List.mem_range.1 hs) (hz s hs hsr)]; rfl),
      flatMap_one f _ List.nodup_range r hr' (fun s hs hsr => hf s (List.mem_range.1 hs) (hz s hs hsr)),
      flatMap_one g _ List.nodup_range r hr' (fun s hs hsr => hg s (List.mem_range.1 hs) (hz s hs hsr))]
  · have hz : ∀ s ∈ List.range P, own s = false := by
      intro s hs
      cases hos : own s with
      | false => rfl
      | true => exact absurd ⟨s, List.mem_range.1 hs, hos⟩ hex
    rw [flatMap_none _ _ (fun s hs => by
        rw [hf s (List.mem_range.1 hs) (hz s hs), hg s (List.mem_range.1 hs) (hz s hs)]; rfl),
      flatMap_none f _ (fun s hs => hf s (List.mem_range.1 hs) (hz s hs)),
      flatMap_none g _ (fun s hs => hg s (List.mem_range.1 hs) (hz s hs))]
    rfl

theorem step_update (c : Cfg) (hb : 0 < c.bufferLen) (P : Nat) (own : Nat → Bool) (last : ℚ) (w : World (ℚ × V))
    (pend : Nat → List (ℚ × V)) (hi : Inv c P own last w pend) (t : ℚ) (v : Nat → V) (order : List Nat)
    (ho : order.Perm (List.range P)) :
    ∃ w' pend', step c (.update t v) order w = .ok w' ∧ Inv c P own (if Due c last t then t else last) w' pend' ∧
      w'.file ++ (List.range P).flatMap pend' = w.file ++ (List.range P).flatMap pend ++
        (if Due c last t then ((List.range P).filter own).map (fun r => (t, v r)) else []) := by
  have key := fun (r : Nat) (hr : r < P) => update_eq c hb t (t, v r) (w.procs r) (pend r) (hi.holds r hr) (hi.len r hr)
    (fun h => hi.empty r hr (by rw [← hi.isLocal r hr]; exact h))
  have key' : ∀ r : Nat, ∃ (g' : G (ℚ × V)) (out l' : List (ℚ × V)), r < P →
      (∀ file, updateLocal c t (t, v r) (w.procs r) file = .ok (g', file ++ out)) ∧
      g'.isLocal = (w.procs r).isLocal ∧ g'.lastTime = (if Due c (w.procs r).lastTime t then t else (w.procs r).lastTime) ∧
      Holds g' l' ∧ l'.length < c.bufferLen ∧ ((w.procs r).isLocal = false → l' = [] ∧ out = []) ∧
      out ++ l' = pend r ++ (if Due c (w.procs r).lastTime t ∧ (w.procs r).isLocal = true then [(t, v r)] else []) := by
    intro r
    by_cases hr : r < P
    · obtain ⟨g', out, l', h⟩ := key r hr
      exact ⟨g', out, l', fun _ => h⟩
    · exact ⟨w.procs r, [], [], fun h => absurd h hr⟩
  choose new out pend' hkey using key'
  have hnd : order.Nodup := (ho.nodup_iff).2 List.nodup_range
  have hm : ∀ r, r ∈ order ↔ r < P := fun r => by rw [ho.mem_iff, List.mem_range]
  have hs := sweep_eq (fun r => updateLocal c t (t, v r)) new out order hnd w
    (fun r hr file => (hkey r ((hm r).1 hr)).1 file)
  have hout : ∀ r, r < P → own r = false → out r = [] := by
    intro r hr h
    exact ((hkey r hr).2.2.2.2.2.1 (by rw [hi.isLocal r hr]; exact h)).2
  have hpe : ∀ r, r < P → own r = false → pend' r = [] := by
    intro r hr h
    exact ((hkey r hr).2.2.2.2.2.1 (by rw [hi.isLocal r hr]; exact h)).1
  refine ⟨_, pend', hs, ?_, ?_⟩
  · constructor
    · intro r hr
      simp only [(hm r).2 hr, if_true]
      rw [(hkey r hr).2.1, hi.isLocal r hr]
    · intro r hr
      simp only [(hm r).2 hr, if_true]
      rw [(hkey r hr).2.2.1, hi.lastTime r hr]
    · intro r hr
      simp only [(hm r).2 hr, if_true]
      exact (hkey r hr).2.2.2.1
    · intro r hr
      exact (hkey r hr).2.2.2.2.1
    · exact hpe
    · exact hi.unique
  · dsimp only
    rw [flatMap_order out P order ho own hi.unique hout, List.append_assoc,
      ← flatMap_append_of out pend' P own hi.unique hout hpe, List.append_assoc]
    congr 1
    by_cases hd : Due c last t
    · rw [if_pos hd, own_filter P own hi.unique, ← flatMap_append_of pend _ P own hi.unique hi.empty]
      · apply List.flatMap_congr
        intro r hr
        have hr := List.mem_range.1 hr
        rw [(hkey r hr).2.2.2.2.2.2, hi.lastTime r hr, hi.isLocal r hr]
        simp only [hd, true_and]
      · intro r hr h
        simp [h]
    · rw [if_neg hd, List.append_nil]
      apply List.flatMap_congr
      intro r hr
      have hr := List.mem_range.1 hr
      rw [(hkey r hr).2.2.2.2.2.2, hi.lastTime r hr, hi.isLocal r hr]
      simp only [hd, false_and, if_false, List.append_nil]

theorem step_locate (c : Cfg) (P : Nat) (own : Nat → Bool) (last : ℚ) (w : World (ℚ × V))
    (pend : Nat → List (ℚ × V)) (hi : Inv c P own last w pend) (patchno : Nat → Int) (hu : Unique P patchno) (order : List Nat)
    (ho : order.Perm (List.range P)) :
    ∃ w' pend', step c (.locate patchno) order w = .ok w' ∧ Inv c P (fun r => decide (patchno r ≥ 0)) last w' pend' ∧
      w'.file ++ (List.range P).flatMap pend' = w.file ++ (List.range P).flatMap pend := by
  have key' : ∀ r : Nat, ∃ (g' : G (ℚ × V)) (out l' : List (ℚ × V)), r < P →
      (∀ file, locateLocal (patchno r) (w.procs r) file = .ok (g', file ++ out)) ∧
      g'.isLocal = decide (patchno r ≥ 0) ∧ g'.lastTime = (w.procs r).lastTime ∧ Holds g' l' ∧
      l'.length ≤ (pend r).length ∧ (g'.isLocal = false → l' = []) ∧ out ++ l' = pend r := by
    intro r
    by_cases hr : r < P
    · obtain ⟨g', out, l', h⟩ := locate_eq (patchno r) (w.procs r) (pend r) (hi.holds r hr)
      exact ⟨g', out, l', fun _ => h⟩
    · exact ⟨w.procs r, [], [], fun h => absurd h hr⟩
  choose new out pend' hkey using key'
  have hnd : order.Nodup := (ho.nodup_iff).2 List.nodup_range
  have hm : ∀ r, r ∈ order ↔ r < P := fun r => by rw [ho.mem_iff, List.mem_range]
  have hs := sweep_eq (fun r => locateLocal (patchno r)) new out order hnd w
    (fun r hr file => (hkey r ((hm r).1 hr)).1 file)
  have hboth : ∀ r, r < P → own r = false → out r = [] ∧ pend' r = [] := by
    intro r hr h
    have := (hkey r hr).2.2.2.2.2.2
    rw [hi.empty r hr h] at this
    exact List.append_eq_nil_iff.1 this
  refine ⟨_, pend', hs, ?_, ?_⟩
  · constructor
    · intro r hr
      simp only [(hm r).2 hr, if_true]
      rw [(hkey r hr).2.1]
    · intro r hr
      simp only [(hm r).2 hr, if_true]
      rw [(hkey r hr).2.2.1, hi.lastTime r hr]
    · intro r hr
      simp only [(hm r).2 hr, if_true]
      exact (hkey r hr).2.2.2.1
    · intro r hr
      have h1 := (hkey r hr).2.2.2.2.1
      have h2 := hi.len r hr
      omega
    · intro r hr h
      exact (hkey r hr).2.2.2.2.2.1 (by rw [(hkey r hr).2.1]; exact h)
    · intro r s hr hs h1 h2
      exact hu r s hr hs (by simpa using h1) (by simpa using h2)
  · dsimp only
    rw [flatMap_order out P order ho own hi.unique (fun r hr h => (hboth r hr h).1), List.append_assoc,
      ← flatMap_append_of out pend' P own hi.unique (fun r hr h => (hboth r hr h).1) (fun r hr h => (hboth r hr h).2)]
    congr 1
    apply List.flatMap_congr
    intro r hr
    exact (hkey r (List.mem_range.1 hr)).2.2.2.2.2.2

theorem finish (c : Cfg) (P : Nat) (own : Nat → Bool) (last : ℚ) (w : World S) (pend : Nat → List S)
    (hi : Inv c P own last w pend) (order : List Nat) (ho : order.Perm (List.range P)) :
    ∃ w', sweep (fun _ => finalizeLocal) order w = .ok w' ∧ w'.file = w.file ++ (List.range P).flatMap pend := by
  have key' : ∀ r : Nat, ∃ g' : G S, r < P → ∀ file, finalizeLocal (w.procs r) file = .ok (g', file ++ pend r) := by
    intro r
    by_cases hr : r < P
    · obtain ⟨g', h⟩ := finalize_eq (w.procs r) (pend r) (hi.holds r hr)
        (fun h => hi.empty r hr (by rw [← hi.isLocal r hr]; exact h))
      exact ⟨g', fun _ => h⟩
    · exact ⟨w.procs r, fun h => absurd h hr⟩
  choose new hkey using key'
  have hnd : order.Nodup := (ho.nodup_iff).2 List.nodup_range
  have hm : ∀ r, r ∈ order ↔ r < P := fun r => by rw [ho.mem_iff, List.mem_range]
  refine ⟨_, sweep_eq (fun _ => finalizeLocal) new pend order hnd w (fun r hr file => hkey r ((hm r).1 hr) file), ?_⟩
  dsimp only
  rw [flatMap_order pend P order ho own hi.unique hi.empty]

/-- Who has the gauge after some operations. -/
def ownAfter : (Nat → Bool) → List (Op V) → Nat → Bool
  | own, [] => own
  | _, .locate patchno :: ops => ownAfter (fun r => decide (patchno r ≥ 0)) ops
  | own, .update _ _ :: ops => ownAfter own ops

/-- The last time a sample was due, after some operations. -/
def lastAfter (c : Cfg) : ℚ → List (Op V) → ℚ
  | last, [] => last
  | last, .locate _ :: ops => lastAfter c last ops
  | last, .update t _ :: ops => lastAfter c (if Due c last t then t else last) ops

theorem steps_inv (c : Cfg) (hb : 0 < c.bufferLen) (P : Nat) (ops : List (Op V × List Nat))
    (hord : ∀ o ∈ ops, o.2.Perm (List.range P))
    (huniq : ∀ o ∈ ops, ∀ patchno, o.1 = .locate patchno → Unique P patchno) (own : Nat → Bool) (last : ℚ)
    (w : World (ℚ × V)) (pend : Nat → List (ℚ × V)) (hi : Inv c P own last w pend) :
    ∃ w' pend', steps c ops w = .ok w' ∧ Inv c P (ownAfter own (ops.map Prod.fst)) (lastAfter c last (ops.map Prod.fst)) w' pend' ∧
      w'.file ++ (List.range P).flatMap pend' =
        w.file ++ (List.range P).flatMap pend ++ taken c P last own (ops.map Prod.fst) := by
  induction ops generalizing own last w pend with
  | nil => exact ⟨w, pend, rfl, hi, by simp [taken]⟩
  | cons o ops ih =>
    obtain ⟨op, order⟩ := o
    have ho := hord _ List.mem_cons_self
    have hord' := fun o ho => hord o (List.mem_cons_of_mem _ ho)
    have huniq' := fun o ho => huniq o (List.mem_cons_of_mem _ ho)
    cases op with
    | locate patchno =>
      obtain ⟨w1, p1, h1, i1, f1⟩ := step_locate c P own last w pend hi patchno
        (huniq _ List.mem_cons_self patchno rfl) order ho
      obtain ⟨w2, p2, h2, i2, f2⟩ := ih hord' huniq' _ _ w1 p1 i1
      refine ⟨w2, p2, ?_, i2, ?_⟩
      · simp only [steps, h1, h2]
      · rw [f2, f1]
        rfl
    | update t v =>
      obtain ⟨w1, p1, h1, i1, f1⟩ := step_update c hb P own last w pend hi t v order ho
      obtain ⟨w2, p2, h2, i2, f2⟩ := ih hord' huniq' _ _ w1 p1 i1
      refine ⟨w2, p2, ?_, i2, ?_⟩
      · simp only [steps, h1, h2]
      · rw [f2, f1]
        simp only [List.map_cons, taken]
        by_cases hd : Due c last t
        · simp [hd, List.append_assoc]
        · simp [hd]

theorem run_steps (c : Cfg) (ops : List (Op V × List Nat)) (lastOrder : List Nat) (w w' : World (ℚ × V))
    (h : steps c ops w = .ok w') : run c ops lastOrder w = sweep (fun _ => finalizeLocal) lastOrder w' := by
  induction ops generalizing w with
  | nil =>
    simp only [steps, Except.ok.injEq] at h
    subst h
    rfl
  | cons o ops ih =>
    obtain ⟨op, order⟩ := o
    simp only [steps] at h
    simp only [run]
    cases hs : step c op order w with
    | error e => rw [hs] at h; cases h
    | ok w1 =>
      rw [hs] at h
      exact ih w1 h

/-- The first location: before it, ownership is not defined. -/
theorem first_locate (c : Cfg) (hb : 0 < c.bufferLen) (P : Nat) (w : World (ℚ × V))
    (hw : ∀ r, r < P → ∃ junk, w.procs r = initGauge c junk) (patchno : Nat → Int) (hu : Unique P patchno)
    (order : List Nat) (ho : order.Perm (List.range P)) :
    ∃ w', step c (.locate patchno) order w = .ok w' ∧
      Inv c P (fun r => decide (patchno r ≥ 0)) c.t1 w' (fun _ => []) ∧ w'.file = w.file := by
  have hnd : order.Nodup := (ho.nodup_iff).2 List.nodup_range
  have hm : ∀ r, r ∈ order ↔ r < P := fun r => by rw [ho.mem_iff, List.mem_range]
  have hs := sweep_eq (fun r => locateLocal (patchno r)) (fun r => (initGauge c (decide (patchno r ≥ 0)) : G (ℚ × V))) (fun _ => [])
    order hnd w (fun r hr file => by
      obtain ⟨junk, hj⟩ := hw r ((hm r).1 hr)
      rw [hj]
      simp [locateLocal, initGauge])
  refine ⟨_, hs, ?_, ?_⟩
  · constructor
    · intro r hr
      simp [(hm r).2 hr, initGauge]
    · intro r hr
      simp [(hm r).2 hr, initGauge]
    · intro r hr
      simp only [(hm r).2 hr, if_true]
      exact ⟨rfl, fun k hk => absurd hk (Nat.not_lt_zero _)⟩
    · intro r hr
      exact hb
    · intro r hr h
      rfl
    · intro r s hr hs h1 h2
      exact hu r s hr hs (by simpa using h1) (by simpa using h2)
  · dsimp only
    rw [flatMap_none _ _ (fun _ _ => rfl), List.append_nil]

end Fclaw.Gauge
