/-
Helpers for C31.
-/
import Verif.Ledger.Spec

set_option autoImplicit false
set_option linter.unusedSimpArgs false
set_option linter.unusedVariables false
namespace Fclaw.Ledger

theorem countP_set {α : Type} (p : α → Bool) (b : α) :
    ∀ (l : List α) (j : Nat) (a : α), l[j]? = some a →
      (l.set j b).countP p + (if p a then 1 else 0) = l.countP p + (if p b then 1 else 0) := by
  intro l
  induction l with
  | nil => intro j a h; simp at h
  | cons x xs ih =>
    intro j a h
    cases j with
    | zero =>
      simp only [List.getElem?_cons_zero, Option.some.injEq] at h
      subst h
      simp only [List.set_cons_zero, List.countP_cons]
      omega
    | succ j =>
      simp only [List.getElem?_cons_succ] at h
      have := ih j a h
      simp only [List.set_cons_succ, List.countP_cons]
      omega

/-- How often data `h` is referred to by a domain. -/
def own (h : Nat) (l : List (Option Nat)) : Nat := l.countP fun u => decide (u = some h)

/-- Number of pointers that are not NULL. -/
def held (l : List (Option Nat)) : Nat := l.countP Option.isSome

theorem own_set (h : Nat) (b : Option Nat) (l : List (Option Nat)) (j : Nat) (a : Option Nat)
    (hj : l[j]? = some a) :
    own h (l.set j b) + (if a = some h then 1 else 0) = own h l + (if b = some h then 1 else 0) := by
  have := countP_set (fun u => decide (u = some h)) b l j a hj
  simpa [own] using this

theorem held_set (b : Option Nat) (l : List (Option Nat)) (j : Nat) (a : Option Nat)
    (hj : l[j]? = some a) :
    held (l.set j b) + (if a.isSome then 1 else 0) = held l + (if b.isSome then 1 else 0) :=
  countP_set Option.isSome b l j a hj

theorem own_replicate (h n : Nat) : own h (List.replicate n none) = 0 := by
  unfold own; rw [List.countP_eq_zero]; intro a ha; rw [List.eq_of_mem_replicate ha]; simp

theorem held_replicate (n : Nat) : held (List.replicate n none) = 0 := by
  unfold held; rw [List.countP_eq_zero]; intro a ha; rw [List.eq_of_mem_replicate ha]; simp

theorem created_append (h : Nat) (a b : List Ev) : created h (a ++ b) = created h a + created h b := by
  simp [created, List.count_append]

theorem deleted_append (h : Nat) (a b : List Ev) : deleted h (a ++ b) = deleted h a + deleted h b := by
  simp [deleted, List.count_append]

theorem sound_snoc (log : List Ev) (e : Ev) (hs : Sound log)
    (he : ∀ h, created h (log ++ [e]) ≤ 1 ∧ deleted h (log ++ [e]) ≤ created h (log ++ [e])) :
    Sound (log ++ [e]) := by
  intro pre post hp
  rcases List.eq_nil_or_concat post with rfl | ⟨post', x, rfl⟩
  · simp only [List.append_nil] at hp
    rw [← hp]; exact he
  · have h3 : log ++ [e] = (pre ++ post') ++ [x] := by rw [hp]; simp
    have := List.append_inj' h3 (by simp)
    exact hs pre post' this.1

/-- The balance of the books with references `refs`. -/
structure Books (refs : Nat → Nat) (next : Nat) (log : List Ev) : Prop where
  bal : ∀ h, created h log = deleted h log + refs h
  one : ∀ h, created h log ≤ 1
  fresh : ∀ h, next ≤ h → created h log = 0
  sound : Sound log
  cmp : Compared log

theorem Books.create {refs : Nat → Nat} {next : Nat} {log : List Ev} (b : Books refs next log)
    (refs' : Nat → Nat) (hr : ∀ h, refs' h = refs h + (if h = next then 1 else 0)) :
    Books refs' (next + 1) (log ++ [.create next]) := by
  have hc : ∀ h, created h (log ++ [.create next]) = created h log + (if h = next then 1 else 0) := by
    intro h; rw [created_append]
    by_cases e : h = next
    · subst e; simp [created]
    · have e2 : ¬ next = h := fun q => e q.symm
      simp [created, List.count_cons, e, e2]
  have hd : ∀ h, deleted h (log ++ [.create next]) = deleted h log := by
    intro h; rw [deleted_append]; simp [deleted, List.count_cons]
  have h1 : ∀ h, created h (log ++ [.create next]) ≤ 1 := by
    intro h; rw [hc]
    split
    · rename_i e; subst e; rw [b.fresh h (Nat.le_refl _)]; omega
    · have := b.one h; omega
  have h2 : ∀ h, created h (log ++ [.create next]) = deleted h (log ++ [.create next]) + refs' h := by
    intro h; rw [hc, hd, hr, b.bal]; omega
  refine ⟨h2, h1, ?_, sound_snoc _ _ b.sound (fun h => ⟨h1 h, by rw [h2 h]; omega⟩), ?_⟩
  · intro h hh; rw [hc, b.fresh h (by omega), if_neg (by omega)]
  · intro x y hxy
    rw [List.mem_append] at hxy
    rcases hxy with hxy | hxy
    · exact b.cmp x y hxy
    · simp at hxy

theorem Books.delete {refs : Nat → Nat} {next : Nat} {log : List Ev} (b : Books refs next log)
    (g : Nat) (refs' : Nat → Nat) (hr : ∀ h, refs' h + (if h = g then 1 else 0) = refs h) :
    Books refs' next (log ++ [.delete g]) := by
  have hd : ∀ h, deleted h (log ++ [.delete g]) = deleted h log + (if h = g then 1 else 0) := by
    intro h; rw [deleted_append]
    by_cases e : h = g
    · subst e; simp [deleted]
    · have e2 : ¬ g = h := fun q => e q.symm
      simp [deleted, List.count_cons, e, e2]
  have hc : ∀ h, created h (log ++ [.delete g]) = created h log := by
    intro h; rw [created_append]; simp [created, List.count_cons]
  have h2 : ∀ h, created h (log ++ [.delete g]) = deleted h (log ++ [.delete g]) + refs' h := by
    intro h; rw [hc, hd, b.bal, ← hr h]; omega
  have h1 : ∀ h, created h (log ++ [.delete g]) ≤ 1 := by intro h; rw [hc]; exact b.one h
  refine ⟨h2, h1, ?_, sound_snoc _ _ b.sound (fun h => ⟨h1 h, by rw [h2 h]; omega⟩), ?_⟩
  · intro h hh; rw [hc, b.fresh h hh]
  · intro x y hxy
    rw [List.mem_append] at hxy
    rcases hxy with hxy | hxy
    · exact b.cmp x y hxy
    · simp at hxy

theorem Books.compare {refs : Nat → Nat} {next : Nat} {log : List Ev} (b : Books refs next log)
    (x y : Int) (hxy : x = y) : Books refs next (log ++ [.compare x y]) := by
  have hd : ∀ h, deleted h (log ++ [.compare x y]) = deleted h log := by
    intro h; rw [deleted_append]; simp [deleted, List.count_cons]
  have hc : ∀ h, created h (log ++ [.compare x y]) = created h log := by
    intro h; rw [created_append]; simp [created, List.count_cons]
  have h2 : ∀ h, created h (log ++ [.compare x y]) = deleted h (log ++ [.compare x y]) + refs h := by
    intro h; rw [hc, hd, b.bal]
  have h1 : ∀ h, created h (log ++ [.compare x y]) ≤ 1 := by intro h; rw [hc]; exact b.one h
  refine ⟨h2, h1, ?_, sound_snoc _ _ b.sound (fun h => ⟨h1 h, by rw [h2 h]; omega⟩), ?_⟩
  · intro h hh; rw [hc, b.fresh h hh]
  · intro u v huv
    rw [List.mem_append] at huv
    rcases huv with huv | huv
    · exact b.cmp u v huv
    · simp at huv; omega

theorem Books.refs_eq {refs refs' : Nat → Nat} {next : Nat} {log : List Ev} (b : Books refs next log)
    (h : ∀ x, refs' x = refs x) : Books refs' next log := by
  have : refs' = refs := funext h
  rw [this]; exact b

/-- Deleting all data of a list. -/
theorem Books.deleteAll {next : Nat} (l : List (Option Nat)) :
    ∀ (refs : Nat → Nat) (log : List Ev), Books (fun h => refs h + own h l) next log →
      Books refs next (log ++ deleteAll l) := by
  induction l with
  | nil => intro refs log b; simpa [Ledger.deleteAll, own] using b
  | cons u us ih =>
    intro refs log b
    cases u with
    | none =>
      refine ih refs log (b.refs_eq ?_)
      intro x; simp [own, List.countP_cons]
    | some g =>
      have hb := b.delete g (fun h => refs h + own h us) (by
        intro h; simp only [own, List.countP_cons, decide_eq_true_eq, Option.some.injEq]
        by_cases e : h = g
        · subst e; simp; omega
        · rw [if_neg e, if_neg (fun e2 => e e2.symm)]; omega)
      have := ih refs _ hb
      simpa [Ledger.deleteAll] using this

theorem deleteAll_length (l : List (Option Nat)) : (deleteAll l).length = held l := by
  induction l with
  | nil => rfl
  | cons u us ih => cases u <;> simp [deleteAll, held, List.countP_cons] at * <;> omega

/-- References of a domain. -/
def Dom.refs (d : Dom) (h : Nat) : Nat := own h d.users + own h d.ghosts

/-- A domain's counters agree with what it holds; without exchange there are no ghost data. -/
structure DomOk (d : Dom) : Prop where
  counters : d.set = d.del + (held d.users : Int) + (held d.ghosts : Int)
  noexch : d.exch = false → (∀ h, own h d.ghosts = 0) ∧ held d.ghosts = 0

theorem DomOk.fresh (np ng : Nat) : DomOk (Dom.fresh np ng) := by
  constructor
  · simp [Dom.fresh, held_replicate]
  · intro _; exact ⟨fun h => own_replicate h ng, held_replicate ng⟩

theorem Books.reset {refs : Nat → Nat} {next : Nat} {log : List Ev} (d : Dom) (hd : DomOk d)
    (b : Books (fun h => refs h + d.refs h) next log) : Books refs next (log ++ reset d) := by
  have hb1 : Books (fun h => refs h + own h d.ghosts) next (log ++ Ledger.deleteAll d.users) := by
    apply Books.deleteAll
    exact b.refs_eq (fun x => by simp only [Dom.refs]; omega)
  unfold Ledger.reset
  dsimp only
  have hc := hd.counters
  cases he : d.exch with
  | false =>
    have hg := hd.noexch he
    have hb2 : Books refs next (log ++ Ledger.deleteAll d.users) :=
      hb1.refs_eq (fun x => by rw [hg.1 x]; omega)
    have := hb2.compare d.set (d.del + ((Ledger.deleteAll d.users).length : Int) + 0) (by
      rw [deleteAll_length]; rw [hg.2] at hc; simp at hc; omega)
    simpa [List.append_assoc] using this
  | true =>
    have hb2 := Books.deleteAll d.ghosts refs _ hb1
    have := hb2.compare d.set (d.del + ((Ledger.deleteAll d.users).length : Int) +
      ((Ledger.deleteAll d.ghosts).length : Int)) (by
      rw [deleteAll_length, deleteAll_length]; omega)
    simpa [List.append_assoc] using this

/-! ### Two domains -/

structure TwoOk (w : Two) : Prop where
  books : Books (fun h => w.new.refs h + w.old.refs h) w.next w.log
  oldOk : DomOk w.old
  newOk : DomOk w.new

theorem build_ok (w : Two) (j : Nat) (hw : TwoOk w) (hj : w.new.users[j]? = some none) :
    ∃ w', w.shift.build j = some w' ∧ TwoOk w' ∧ w'.old.users = w.old.users ∧
      w'.new.users = w.new.users.set j (some w.next) ∧ w'.new.exch = w.new.exch := by
  have hlt : j < w.new.users.length := (List.getElem?_eq_some_iff.1 hj).1
  refine ⟨⟨{ w.old with set := w.old.set - 1 + 1 },
    { w.new with users := w.new.users.set j (some w.next), set := w.new.set + 1 }, w.next + 1,
    w.log ++ [.create w.next]⟩, by unfold Two.build Two.shift; rw [if_pos hlt], ⟨?_, ⟨?_, ?_⟩, ⟨?_, ?_⟩⟩, rfl, rfl, rfl⟩
  · refine hw.books.create _ ?_
    intro h
    have := own_set h (some w.next) _ _ _ hj
    simp only [Option.some.injEq, reduceCtorEq, if_false] at this
    simp only [Dom.refs]
    split at this <;> split <;> omega
  · have := hw.oldOk.counters; dsimp only; omega
  · exact hw.oldOk.noexch
  · have := hw.newOk.counters
    have h2 := held_set (some w.next) _ _ _ hj
    simp at h2
    dsimp only; rw [h2]; push_cast; omega
  · exact hw.newOk.noexch

theorem deleteOld_ok (w : Two) (j g : Nat) (hw : TwoOk w) (hj : w.old.users[j]? = some (some g)) :
    ∃ w', w.deleteOld j = some w' ∧ TwoOk w' ∧ w'.old.users = w.old.users.set j none ∧
      w'.new.users = w.new.users ∧ w'.new.exch = w.new.exch := by
  refine ⟨⟨{ w.old with users := w.old.users.set j none, del := w.old.del + 1 }, w.new, w.next,
    w.log ++ [.delete g]⟩, by unfold Two.deleteOld; rw [hj], ⟨?_, ⟨?_, ?_⟩, ?_⟩, rfl, rfl, rfl⟩
  · refine hw.books.delete g _ ?_
    intro h
    have := own_set h none _ _ _ hj
    simp only [Option.some.injEq, reduceCtorEq, if_false] at this
    simp only [Dom.refs]
    split at this <;> split <;> omega
  · have := hw.oldOk.counters
    have h2 := held_set none _ _ _ hj
    simp at h2
    dsimp only; omega
  · exact hw.oldOk.noexch
  · exact hw.newOk

theorem move_ok (w : Two) (oj nj g : Nat) (hw : TwoOk w) (ho : w.old.users[oj]? = some (some g))
    (hn : w.new.users[nj]? = some none) :
    ∃ w', w.move oj nj = some w' ∧ TwoOk w' ∧ w'.old.users = w.old.users.set oj none ∧
      w'.new.users = w.new.users.set nj (some g) ∧ w'.new.exch = w.new.exch := by
  have hlt : nj < w.new.users.length := (List.getElem?_eq_some_iff.1 hn).1
  refine ⟨⟨{ w.old with users := w.old.users.set oj none, del := w.old.del + 1 },
    { w.new with users := w.new.users.set nj (some g), set := w.new.set + 1 }, w.next, w.log⟩,
    by unfold Two.move; rw [ho]; dsimp only; rw [if_pos hlt], ⟨?_, ⟨?_, ?_⟩, ⟨?_, ?_⟩⟩, rfl, rfl, rfl⟩
  · refine hw.books.refs_eq ?_
    intro h
    have h1 := own_set h none _ _ _ ho
    have h2 := own_set h (some g) _ _ _ hn
    simp only [reduceCtorEq, if_false] at h1 h2
    simp only [Dom.refs]
    omega
  · have := hw.oldOk.counters
    have h2 := held_set none _ _ _ ho
    simp at h2
    dsimp only; omega
  · exact hw.oldOk.noexch
  · have := hw.newOk.counters
    have h2 := held_set (some g) _ _ _ hn
    simp at h2
    dsimp only; rw [h2]; push_cast; omega
  · exact hw.newOk.noexch

/-- Old patches from `oj` on still have data; new patches before `nj` have data and from `nj` on
have none. -/
structure At (oj nj : Nat) (w : Two) : Prop where
  old : ∀ j, oj ≤ j → j < w.old.users.length → ∃ g, w.old.users[j]? = some (some g)
  newLo : ∀ j, j < nj → j < w.new.users.length → ∃ g, w.new.users[j]? = some (some g)
  newHi : ∀ j, nj ≤ j → j < w.new.users.length → w.new.users[j]? = some none

theorem At.advOld {oj nj : Nat} {w : Two} (h : At oj nj w) : At (oj + 1) nj w :=
  ⟨fun j hj hl => h.old j (by omega) hl, h.newLo, h.newHi⟩

theorem buildN_ok (n : Nat) : ∀ (i nj oj : Nat) (w : Two), TwoOk w → At oj (nj + i) w →
    nj + i + n ≤ w.new.users.length →
    ∃ w', loop (fun w i => w.shift.build (nj + i)) n i w = some w' ∧ TwoOk w' ∧
      At oj (nj + i + n) w' ∧ w'.old.users.length = w.old.users.length ∧
      w'.new.users.length = w.new.users.length ∧ w'.new.exch = w.new.exch := by
  induction n with
  | zero => intro i nj oj w h1 h2 _; exact ⟨w, rfl, h1, h2, rfl, rfl, rfl⟩
  | succ n ih =>
    intro i nj oj w h1 h2 h3
    obtain ⟨w1, e1, o1, u1, n1, x1⟩ := build_ok w (nj + i) h1 (h2.newHi _ (Nat.le_refl _) (by omega))
    have hl : w1.new.users.length = w.new.users.length := by rw [n1]; simp
    have hat : At oj (nj + (i + 1)) w1 := by
      refine ⟨?_, ?_, ?_⟩
      · rw [u1]; exact h2.old
      · intro j hj hlt
        rw [hl] at hlt
        rw [n1, List.getElem?_set]
        by_cases e : nj + i = j
        · rw [if_pos e, if_pos (by omega)]; exact ⟨_, rfl⟩
        · rw [if_neg e]; exact h2.newLo j (by omega) hlt
      · intro j hj hlt
        rw [hl] at hlt
        rw [n1, List.getElem?_set, if_neg (by omega)]
        exact h2.newHi j (by omega) hlt
    obtain ⟨w2, e2, o2, a2, l2, m2, x2⟩ := ih (i + 1) nj oj w1 o1 hat (by rw [hl]; omega)
    refine ⟨w2, ?_, o2, ?_, by rw [l2, u1], by rw [m2, hl], by rw [x2, x1]⟩
    · unfold loop; rw [e1]; exact e2
    · rw [show nj + i + (n + 1) = nj + (i + 1) + n by omega]; exact a2

theorem deleteN_ok (n : Nat) : ∀ (i oj nj : Nat) (w : Two), TwoOk w → At (oj + i) nj w →
    oj + i + n ≤ w.old.users.length →
    ∃ w', loop (fun w i => w.deleteOld (oj + i)) n i w = some w' ∧ TwoOk w' ∧
      At (oj + i + n) nj w' ∧ w'.old.users.length = w.old.users.length ∧
      w'.new.users.length = w.new.users.length ∧ w'.new.exch = w.new.exch := by
  induction n with
  | zero => intro i nj oj w h1 h2 _; exact ⟨w, rfl, h1, h2, rfl, rfl, rfl⟩
  | succ n ih =>
    intro i oj nj w h1 h2 h3
    obtain ⟨g, hg⟩ := h2.old (oj + i) (Nat.le_refl _) (by omega)
    obtain ⟨w1, e1, o1, u1, n1, x1⟩ := deleteOld_ok w (oj + i) g h1 hg
    have hl : w1.old.users.length = w.old.users.length := by rw [u1]; simp
    have hat : At (oj + (i + 1)) nj w1 := by
      refine ⟨?_, ?_, ?_⟩
      · intro j hj hlt
        rw [hl] at hlt
        rw [u1, List.getElem?_set, if_neg (by omega)]
        exact h2.old j (by omega) hlt
      · rw [n1]; exact h2.newLo
      · rw [n1]; exact h2.newHi
    obtain ⟨w2, e2, o2, a2, l2, m2, x2⟩ := ih (i + 1) oj nj w1 o1 hat (by rw [hl]; omega)
    refine ⟨w2, ?_, o2, ?_, by rw [l2, hl], by rw [m2, n1], by rw [x2, x1]⟩
    · unfold loop; rw [e1]; exact e2
    · rw [show oj + i + (n + 1) = oj + (i + 1) + n by omega]; exact a2

theorem move_at (w : Two) (oj nj : Nat) (h1 : TwoOk w) (h2 : At oj nj w)
    (ho : oj < w.old.users.length) (hn : nj < w.new.users.length) :
    ∃ w', w.move oj nj = some w' ∧ TwoOk w' ∧ At (oj + 1) (nj + 1) w' ∧
      w'.old.users.length = w.old.users.length ∧
      w'.new.users.length = w.new.users.length ∧ w'.new.exch = w.new.exch := by
  obtain ⟨g, hg⟩ := h2.old oj (Nat.le_refl _) ho
  obtain ⟨w1, e1, o1, u1, n1, x1⟩ := move_ok w oj nj g h1 hg (h2.newHi _ (Nat.le_refl _) hn)
  refine ⟨w1, e1, o1, ⟨?_, ?_, ?_⟩, by rw [u1]; simp, by rw [n1]; simp, x1⟩
  · intro j hj hlt
    rw [u1] at hlt ⊢
    simp only [List.length_set] at hlt
    rw [List.getElem?_set, if_neg (by omega)]
    exact h2.old j (by omega) hlt
  · intro j hj hlt
    rw [n1] at hlt ⊢
    simp only [List.length_set] at hlt
    rw [List.getElem?_set]
    by_cases e : nj = j
    · rw [if_pos e, if_pos (by omega)]; exact ⟨_, rfl⟩
    · rw [if_neg e]; exact h2.newLo j (by omega) hlt
  · intro j hj hlt
    rw [n1] at hlt ⊢
    simp only [List.length_set] at hlt
    rw [List.getElem?_set, if_neg (by omega)]
    exact h2.newHi j (by omega) hlt

theorem repopulate_ok (w : Two) (k : Kind) (oj nj : Nat) (h1 : TwoOk w) (h2 : At oj nj w)
    (ho : oj + k.old ≤ w.old.users.length) (hn : nj + k.new ≤ w.new.users.length) :
    ∃ w', repopulate w k oj nj = some w' ∧ TwoOk w' ∧ At (oj + k.old) (nj + k.new) w' ∧
      w'.old.users.length = w.old.users.length ∧
      w'.new.users.length = w.new.users.length ∧ w'.new.exch = w.new.exch := by
  cases k with
  | same =>
    simp only [Kind.old, Kind.new] at *
    exact move_at w oj nj h1 h2 (by omega) (by omega)
  | half =>
    simp only [Kind.old, Kind.new] at *
    obtain ⟨w1, e1, o1, a1, l1, m1, x1⟩ := buildN_ok 4 0 nj oj w h1 h2 (by omega)
    obtain ⟨w2, e2, o2, a2, l2, m2, x2⟩ := deleteN_ok 1 0 oj (nj + 4) w1 o1 a1 (by omega)
    refine ⟨w2, ?_, o2, a2, by rw [l2, l1], by rw [m2, m1], by rw [x2, x1]⟩
    unfold repopulate
    dsimp only
    rw [e1]
    simp only [loop, Nat.add_zero] at e2
    dsimp only
    cases hd : w1.deleteOld oj with
    | none => rw [hd] at e2; cases e2
    | some w3 => rw [hd] at e2; exact e2
  | double =>
    simp only [Kind.old, Kind.new] at *
    obtain ⟨w1, e1, o1, a1, l1, m1, x1⟩ := buildN_ok 1 0 nj oj w h1 h2 (by omega)
    obtain ⟨w2, e2, o2, a2, l2, m2, x2⟩ := deleteN_ok 4 0 oj (nj + 1) w1 o1 a1 (by omega)
    refine ⟨w2, ?_, o2, a2, by rw [l2, l1], by rw [m2, m1], by rw [x2, x1]⟩
    unfold repopulate
    dsimp only
    simp only [loop, Nat.add_zero] at e1
    cases hd : w.shift.build nj with
    | none => rw [hd] at e1; cases e1
    | some w3 =>
      rw [hd] at e1
      simp only [Option.some.injEq] at e1
      subst e1
      exact e2

theorem repopulateAll_ok (ks : List Kind) : ∀ (oj nj : Nat) (w : Two), TwoOk w → At oj nj w →
    oj + (ks.map Kind.old).sum = w.old.users.length → nj + (ks.map Kind.new).sum = w.new.users.length →
    ∃ w', repopulateAll ks oj nj w = some w' ∧ TwoOk w' ∧
      At w.old.users.length w.new.users.length w' ∧
      w'.new.users.length = w.new.users.length ∧ w'.new.exch = w.new.exch := by
  induction ks with
  | nil =>
    intro oj nj w h1 h2 h3 h4
    simp at h3 h4
    exact ⟨w, rfl, h1, by rw [← h3, ← h4]; exact h2, rfl, rfl⟩
  | cons k ks ih =>
    intro oj nj w h1 h2 h3 h4
    simp only [List.map_cons, List.sum_cons] at h3 h4
    obtain ⟨w1, e1, o1, a1, l1, m1, x1⟩ := repopulate_ok w k oj nj h1 h2 (by omega) (by omega)
    obtain ⟨w2, e2, o2, a2, m2, x2⟩ := ih _ _ w1 o1 a1 (by rw [l1]; omega) (by rw [m1]; omega)
    refine ⟨w2, ?_, o2, ?_, by rw [m2, m1], by rw [x2, x1]⟩
    · unfold repopulateAll; rw [e1]; exact e2
    · rw [l1, m1] at a2; exact a2

/-! ### One domain -/

structure StOk (s : St) : Prop where
  books : Books s.dom.refs s.next s.log
  dom : DomOk s.dom
  full : ∀ u ∈ s.dom.users, u.isSome = true

theorem start_two (s : St) (h : StOk s) (np ng : Nat) :
    TwoOk ⟨s.dom, Dom.fresh np ng, s.next, s.log⟩ ∧
    At 0 0 ⟨s.dom, Dom.fresh np ng, s.next, s.log⟩ := by
  refine ⟨⟨?_, h.dom, DomOk.fresh np ng⟩, ?_, ?_, ?_⟩
  · refine h.books.refs_eq ?_
    intro x
    simp [Dom.refs, Dom.fresh, own_replicate]
  · intro j _ hj
    have := h.full _ (List.getElem_mem hj)
    obtain ⟨g, hg⟩ := Option.isSome_iff_exists.1 this
    exact ⟨g, by rw [List.getElem?_eq_getElem hj, hg]⟩
  · intro j hj; omega
  · intro j _ hj
    simp only [Dom.fresh, List.length_replicate] at hj ⊢
    rw [List.getElem?_replicate, if_pos hj]

theorem finish_two (w : Two) (n : Nat) (h : TwoOk w) (ha : At n w.new.users.length w) :
    StOk ⟨w.new, w.next, w.log ++ reset w.old⟩ := by
  refine ⟨Books.reset w.old h.oldOk h.books, h.newOk, ?_⟩
  intro u hu
  obtain ⟨j, hj, rfl⟩ := List.getElem_of_mem hu
  obtain ⟨g, hg⟩ := ha.newLo j hj hj
  rw [List.getElem?_eq_getElem hj] at hg
  simp only [Option.some.injEq] at hg
  dsimp only
  rw [hg]; rfl

theorem adapt_ok (ks : List Kind) (np ng : Nat) (s : St) (h : StOk s)
    (ho : (ks.map Kind.old).sum = s.dom.users.length) (hn : (ks.map Kind.new).sum = np) :
    ∃ s', adapt ks np ng s = some s' ∧ StOk s' ∧ s'.dom.users.length = np ∧ s'.dom.exch = false := by
  obtain ⟨h1, h2⟩ := start_two s h np ng
  obtain ⟨w, e, o, a, m, x⟩ := repopulateAll_ok ks 0 0 _ h1 h2 (by simpa using ho)
    (by simpa [Dom.fresh] using hn)
  refine ⟨⟨w.new, w.next, w.log ++ reset w.old⟩, by unfold adapt; rw [e], ?_, ?_, ?_⟩
  · refine finish_two w s.dom.users.length o ?_
    rw [m]; exact a
  · simpa [Dom.fresh] using m
  · simpa [Dom.fresh] using x

theorem loop_inv {σ : Type} (f : σ → Nat → Option σ) (I : Nat → σ → Prop) (n : Nat) :
    ∀ (i : Nat) (s : σ), I i s → (∀ k s, i ≤ k → k < i + n → I k s → ∃ s', f s k = some s' ∧ I (k + 1) s') →
      ∃ s', loop f n i s = some s' ∧ I (i + n) s' := by
  induction n with
  | zero => intro i s h _; exact ⟨s, rfl, h⟩
  | succ n ih =>
    intro i s h hf
    obtain ⟨s1, e1, h1⟩ := hf i s (Nat.le_refl _) (by omega) h
    obtain ⟨s2, e2, h2⟩ := ih (i + 1) s1 h1 (fun k s a b c => hf k s (by omega) (by omega) c)
    refine ⟨s2, ?_, by rw [show i + (n + 1) = i + 1 + n by omega]; exact h2⟩
    unfold loop; rw [e1]; exact e2

theorem partition_ok (a c np ng : Nat) (s : St) (h : StOk s) :
    ∃ s', partition a c np ng s = some s' ∧ StOk s' ∧ s'.dom.users.length = np ∧
      s'.dom.exch = false := by
  obtain ⟨h1, h2⟩ := start_two s h np ng
  -- invariant: data of old patches with global number `≥ c + k` or `< c` is still there
  have hl := loop_inv
    (fun w k => transfer w (if a ≤ c + k ∧ c + k < a + s.dom.users.length then some (c + k - a) else none) k)
    (fun k w => TwoOk w ∧ w.new.exch = false ∧ w.new.users.length = np ∧
      w.old.users.length = s.dom.users.length ∧
      (∀ j, c + k ≤ a + j → j < w.old.users.length → ∃ g, w.old.users[j]? = some (some g)) ∧
      (∀ j, j < k → j < w.new.users.length → ∃ g, w.new.users[j]? = some (some g)) ∧
      (∀ j, k ≤ j → j < w.new.users.length → w.new.users[j]? = some none))
    np 0 ⟨s.dom, Dom.fresh np ng, s.next, s.log⟩
    ⟨h1, rfl, by simp [Dom.fresh], rfl, fun j _ hj => h2.old j (by omega) hj, h2.newLo, h2.newHi⟩
    (by
      intro k w _ hk ⟨o, x, m, l, p1, p2, p3⟩
      by_cases hc : a ≤ c + k ∧ c + k < a + s.dom.users.length
      · simp only [if_pos hc, transfer]
        obtain ⟨g, hg⟩ := p1 (c + k - a) (by omega) (by omega)
        obtain ⟨w1, e1, o1, u1, n1, x1⟩ := move_ok w (c + k - a) k g o hg (p3 k (Nat.le_refl _) (by omega))
        refine ⟨w1, e1, o1, by rw [x1, x], by rw [n1]; simp [m], by rw [u1]; simp [l], ?_, ?_, ?_⟩
        · intro j hj hlt
          rw [u1] at hlt ⊢
          simp only [List.length_set] at hlt
          rw [List.getElem?_set, if_neg (by omega)]
          exact p1 j (by omega) hlt
        · intro j hj hlt
          rw [n1] at hlt ⊢
          simp only [List.length_set] at hlt
          rw [List.getElem?_set]
          by_cases e : k = j
          · rw [if_pos e, if_pos (by omega)]; exact ⟨_, rfl⟩
          · rw [if_neg e]; exact p2 j (by omega) hlt
        · intro j hj hlt
          rw [n1] at hlt ⊢
          simp only [List.length_set] at hlt
          rw [List.getElem?_set, if_neg (by omega)]
          exact p3 j (by omega) hlt
      · simp only [if_neg hc, transfer]
        obtain ⟨w1, e1, o1, u1, n1, x1⟩ := build_ok w k o (p3 k (Nat.le_refl _) (by omega))
        refine ⟨w1, e1, o1, by rw [x1, x], by rw [n1]; simp [m], by rw [u1, l], ?_, ?_, ?_⟩
        · intro j hj hlt
          rw [u1] at hlt ⊢
          exact p1 j (by omega) hlt
        · intro j hj hlt
          rw [n1] at hlt ⊢
          simp only [List.length_set] at hlt
          rw [List.getElem?_set]
          by_cases e : k = j
          · rw [if_pos e, if_pos (by omega)]; exact ⟨_, rfl⟩
          · rw [if_neg e]; exact p2 j (by omega) hlt
        · intro j hj hlt
          rw [n1] at hlt ⊢
          simp only [List.length_set] at hlt
          rw [List.getElem?_set, if_neg (by omega)]
          exact p3 j (by omega) hlt)
  obtain ⟨w, e, o, x, m, l, p1, p2, p3⟩ := hl
  refine ⟨⟨w.new, w.next, w.log ++ reset w.old⟩, ?_, ?_, m, x⟩
  · unfold partition transferAll
    rw [show (Dom.fresh np ng).users.length = np by simp [Dom.fresh]]
    rw [e]
  · refine finish_two w w.old.users.length o ⟨fun j h1 h2 => by omega, ?_, ?_⟩
    · intro j hj hlt; exact p2 j (by omega) hlt
    · intro j hj hlt; omega

theorem own_range (h next n : Nat) :
    own h ((List.range n).map fun i => some (next + i)) = if next ≤ h ∧ h < next + n then 1 else 0 := by
  induction n with
  | zero => simp [own]
  | succ n ih =>
    rw [List.range_succ, List.map_append]
    unfold own at ih ⊢
    rw [List.countP_append, ih]
    simp only [List.map_cons, List.map_nil, List.countP_cons, List.countP_nil, decide_eq_true_eq,
      Option.some.injEq]
    split <;> split <;> split <;> omega

theorem held_range (next n : Nat) : held ((List.range n).map fun i => some (next + i)) = n := by
  induction n with
  | zero => rfl
  | succ n ih =>
    rw [List.range_succ, List.map_append]
    unfold held at ih ⊢
    rw [List.countP_append, ih]
    simp [List.countP_cons]

/-- Creating data for a range of numbers. -/
theorem Books.createRange (n : Nat) : ∀ (next : Nat) (refs : Nat → Nat) (log : List Ev),
    Books refs next log →
    Books (fun h => refs h + own h ((List.range n).map fun i => some (next + i))) (next + n)
      (log ++ (List.range n).map fun i => .create (next + i)) := by
  induction n with
  | zero => intro next refs log b; simpa [own] using b
  | succ n ih =>
    intro next refs log b
    have h1 := (ih next refs log b).create
      (fun h => refs h + own h ((List.range (n + 1)).map fun i => some (next + i))) (by
        intro h
        rw [own_range, own_range]
        split <;> split <;> split <;> omega)
    rw [List.range_succ, List.map_append]
    rw [List.range_succ, List.map_append] at h1
    simpa [List.append_assoc, Nat.add_assoc] using h1

theorem exchangeSetup_ok (s : St) (h : StOk s) (hx : s.dom.exch = false) :
    StOk (exchangeSetup s) ∧ (exchangeSetup s).dom.users = s.dom.users := by
  have hg := h.dom.noexch hx
  refine ⟨⟨?_, ⟨?_, ?_⟩, h.full⟩, rfl⟩
  · have := Books.createRange s.dom.ghosts.length s.next _ _ h.books
    refine this.refs_eq ?_
    intro x
    simp only [Dom.refs, exchangeSetup, buildRange]
    rw [hg.1 x]; omega
  · have := h.dom.counters
    simp only [exchangeSetup, buildRange, held_range]
    rw [hg.2] at this
    simp at this
    omega
  · intro he; simp [exchangeSetup] at he

theorem books_nil : Books (fun _ => 0) 0 [] := by
  refine ⟨fun h => by simp [created, deleted], fun h => by simp [created],
    fun h _ => by simp [created], ?_, ?_⟩
  · intro pre post hp
    have : pre = [] := by
      have := congrArg List.length hp
      simp at this
      exact List.eq_nil_of_length_eq_zero (by omega)
    subst this
    intro h; simp [created, deleted]
  · intro a b hab; simp at hab

theorem initialize_ok (np ng : Nat) :
    StOk (initializeDomain np ng) ∧ (initializeDomain np ng).dom.users.length = np := by
  have h0 : StOk ⟨⟨(buildRange 0 np).1, (Dom.fresh np ng).ghosts, (Dom.fresh np ng).set + (np : Int),
      (Dom.fresh np ng).del, (Dom.fresh np ng).exch⟩, np, (buildRange 0 np).2⟩ := by
    refine ⟨?_, ⟨?_, ?_⟩, ?_⟩
    · have := Books.createRange np 0 _ _ books_nil
      simp only [Nat.zero_add, List.nil_append] at this
      refine Books.refs_eq (by simpa [buildRange] using this) ?_
      intro x
      simp [Dom.refs, Dom.fresh, own_replicate, buildRange]
    · simp only [Dom.fresh, buildRange, held_range, held_replicate]; omega
    · intro _; exact ⟨fun h => own_replicate h ng, held_replicate ng⟩
    · intro u hu
      simp only [buildRange, List.mem_map] at hu
      obtain ⟨i, _, rfl⟩ := hu
      rfl
  have h1 := exchangeSetup_ok _ h0 rfl
  refine ⟨h1.1, ?_⟩
  unfold initializeDomain
  rw [h1.2]
  simp [buildRange]

theorem regrid_ok (r : Regrid) (s : St) (h : StOk s) (hf : r.Fits s.dom.users.length) :
    ∃ s', regrid r s = some s' ∧ StOk s' ∧ s'.dom.users.length = r.size := by
  obtain ⟨s1, e1, o1, l1, x1⟩ := adapt_ok r.kinds r.np r.ng s h hf.1 hf.2
  unfold regrid Regrid.size
  rw [e1]
  dsimp only
  cases hp : r.part with
  | none =>
    obtain ⟨h2, h3⟩ := exchangeSetup_ok s1 o1 x1
    exact ⟨_, rfl, h2, by rw [h3, l1]⟩
  | some p =>
    obtain ⟨a, c, np, ng⟩ := p
    dsimp only
    obtain ⟨s2, e2, o2, l2, x2⟩ := partition_ok a c np ng s1 o1
    rw [e2]
    obtain ⟨h2, h3⟩ := exchangeSetup_ok s2 o2 x2
    exact ⟨_, rfl, h2, by rw [h3, l2]⟩

theorem regrids_ok (rs : List Regrid) : ∀ (s : St), StOk s → Fit rs s.dom.users.length →
    ∃ s', regrids rs s = some s' ∧ StOk s' := by
  induction rs with
  | nil => intro s h _; exact ⟨s, rfl, h⟩
  | cons r rs ih =>
    intro s h hf
    obtain ⟨s1, e1, o1, l1⟩ := regrid_ok r s h hf.1
    obtain ⟨s2, e2, o2⟩ := ih s1 o1 (by rw [l1]; exact hf.2)
    exact ⟨s2, by unfold regrids; rw [e1]; exact e2, o2⟩

end Fclaw.Ledger
