import Verif.GaugeRead.Spec
import Verif.OptArray.Lemmas
import Mathlib.Tactic.NormNum
import Mathlib.Tactic.Linarith
/-
Helpers for C108.
-/
set_option autoImplicit false
namespace Fclaw.GaugeRead

open OptArray

theorem fgets_line (l r : List Char) (n : ℕ) (hn : '\n' ∉ l) (h : l.length < n) : fgets n (l ++ '\n' :: r) = (l ++ ['\n'], r) := by
  induction l generalizing n with
  | nil =>
    obtain ⟨m, rfl⟩ : ∃ m, n = m + 1 := ⟨n - 1, by simp at h; omega⟩
    simp [fgets]
  | cons c l ih =>
    obtain ⟨m, rfl⟩ : ∃ m, n = m + 1 := ⟨n - 1, by simp at h; omega⟩
    have hc : ¬ c = '\n' := fun e => hn (by simp [e])
    have hl : '\n' ∉ l := fun e => hn (by simp [e])
    have := ih m hl (by simp at h; omega)
    simp only [List.cons_append, fgets, if_neg hc, this]

theorem next_line (b : Option (List Char)) (l r : List Char) (h : Short l) :
    (⟨b, l ++ '\n' :: r⟩ : Input).next = ⟨some (l ++ ['\n']), r⟩ := by
  unfold Input.next maxLineLen
  rw [if_neg (by simp), fgets_line l r _ h.1 (by have := h.2; omega)]

theorem lines_cons (l : List Char) (ls : List (List Char)) (r : List Char) : lines (l :: ls) ++ r = l ++ '\n' :: (lines ls ++ r) := by
  simp [lines]

theorem lines_append (a b : List (List Char)) : lines (a ++ b) = lines a ++ lines b := by simp [lines]

theorem header_lines (ls : List (List Char)) (b : Option (List Char)) (r : List Char) (h : ∀ l ∈ ls, l.head? = some '#')
    (hs : ∀ l ∈ ls, Short l) : ∃ b', header ls.length ⟨b, lines ls ++ r⟩ = .ok ⟨b', r⟩ := by
  induction ls generalizing b with
  | nil => exact ⟨b, by simp [header, lines]⟩
  | cons l ls ih =>
    rw [lines_cons, List.length_cons, header, next_line _ _ _ (hs l (by simp))]
    have e : (l ++ ['\n']).head? = some '#' := by
      have := h l (by simp)
      cases l with
      | nil => simp at this
      | cons c l => simpa using this
    simp only [e, if_true]
    exact ih _ (fun x hx => h x (by simp [hx])) (fun x hx => hs x (by simp [hx]))

theorem skip_lines (ls : List (List Char)) (b : Option (List Char)) (r : List Char)
    (hs : ∀ l ∈ ls, Short l) : ∃ b', skip ls.length ⟨b, lines ls ++ r⟩ = ⟨b', r⟩ := by
  induction ls generalizing b with
  | nil => exact ⟨b, by simp [skip, lines]⟩
  | cons l ls ih =>
    rw [lines_cons, List.length_cons, skip, next_line _ _ _ (hs l (by simp))]
    exact ih _ (fun x hx => hs x (by simp [hx]))

theorem blank_end : Blank ['\n'] := by
  intro c hc
  simp at hc
  subst hc
  decide

theorem ends_end {r : List Char} (h : r = [] ∨ ∃ c r', r = c :: r' ∧ isSpace c = true) : Ends (r ++ ['\n']) := by
  rcases h with rfl | ⟨c, r', rfl, h⟩
  · exact Or.inr ⟨'\n', [], rfl, by decide⟩
  · exact Or.inr ⟨c, r' ++ ['\n'], rfl, h⟩

/-- The end of the line is white space. -/
theorem lists_end (l : List Char) (vs : List ℚ) (h : Lists Numeral l vs) : Lists Numeral (l ++ ['\n']) vs := by
  induction h with
  | nil w hw =>
    refine Lists.nil _ fun c hc => ?_
    rcases List.mem_append.1 hc with hc | hc
    · exact hw c hc
    · exact blank_end c hc
  | cons w s r v vs hw hs hr _ ih =>
    rw [List.append_assoc (w ++ s)]
    exact Lists.cons w s _ v vs hw hs (ends_end hr) ih

theorem strtod_begins (l : List Char) (v : ℚ) (h : Begins l v) : (strtod (l ++ ['\n'])).1 = v := by
  obtain ⟨w, s, r, rfl, hw, hs, hr⟩ := h
  rw [List.append_assoc (w ++ s), strtod_numeral w s _ v hw hs (ends_end hr)]

/-- The first number of a list. -/
theorem strtod_cons (l : List Char) (v : ℚ) (vs : List ℚ) (h : Lists Numeral l (v :: vs)) :
    ∃ r, strtod l = (v, r) ∧ Lists Numeral r vs := by
  cases h with
  | cons w s r v vs hw hs hr hl => exact ⟨r, strtod_numeral w s r v hw hs hr, hl⟩

theorem toInt_int (k : ℤ) (h : -2 ^ 31 ≤ k ∧ k < 2 ^ 31) : toInt (k : ℚ) = .ok k := by
  have h1 : (-2 ^ 31 : ℚ) ≤ k := by exact_mod_cast h.1
  have h2 : (k : ℚ) < 2 ^ 31 := by exact_mod_cast h.2
  unfold toInt
  rw [if_pos ⟨by linarith, h2⟩]
  simp

theorem info_line (l : List Char) (g : Gauge) (h : Describes l g) (hr : -2 ^ 31 ≤ g.num ∧ g.num < 2 ^ 31) :
    info (l ++ ['\n']) = .ok ⟨g.num, g.xc, g.yc, g.t1, g.t2⟩ := by
  obtain ⟨r1, e1, h1⟩ := strtod_cons _ _ _ (lists_end _ _ h)
  obtain ⟨r2, e2, h2⟩ := strtod_cons _ _ _ h1
  obtain ⟨r3, e3, h3⟩ := strtod_cons _ _ _ h2
  obtain ⟨r4, e4, h4⟩ := strtod_cons _ _ _ h3
  obtain ⟨r5, e5, _⟩ := strtod_cons _ _ _ h4
  unfold info
  simp only [e1, e2, e3, e4, e5, toInt_int _ hr, Outcome.bind]

/-- What is known of a gauge from its own line. -/
def Gauge.info (g : Gauge) : Info := ⟨g.num, g.xc, g.yc, g.t1, g.t2⟩

theorem infos_lines (ds : List (List Char)) (gs : List Gauge) (b : Option (List Char)) (r : List Char) (h : List.Forall₂ Describes ds gs)
    (hr : ∀ g ∈ gs, -2 ^ 31 ≤ g.num ∧ g.num < 2 ^ 31) (hs : ∀ l ∈ ds, Short l) :
    ∃ b', infos gs.length ⟨b, lines ds ++ r⟩ = .ok (gs.map Gauge.info, ⟨b', r⟩) := by
  induction h generalizing b with
  | nil => exact ⟨b, by simp [infos, lines]⟩
  | @cons d g ds gs hd _ ih =>
    obtain ⟨b', e⟩ := ih (some (d ++ ['\n'])) (fun x hx => hr x (by simp [hx])) (fun x hx => hs x (by simp [hx]))
    refine ⟨b', ?_⟩
    rw [lines_cons, List.length_cons, infos, next_line _ _ _ (hs d (by simp))]
    simp only [Input.use, Outcome.bind, info_line d g hd (hr g (by simp)), e, List.map_cons, Gauge.info]

theorem increments_lists (l : List Char) (vs : List ℚ) (h : Lists Numeral l vs) (n : ℕ) :
    increments n l = vs.take n ++ List.replicate (n - vs.length) 0 := by
  have e : ∀ (n : ℕ) (s : List Char), increments n s = convertLoop 0 strtod n (some s) := by
    intro n
    induction n with
    | zero => intro s; rfl
    | succ n ih => intro s; rw [increments, convertLoop, ih]
  rw [e, loop_lists Numeral id 0 strtod strtod_blank strtod_numeral l vs h n]
  simp

/-- Everything but the increments. -/
theorem read_before (text : List Char) (gs : List Gauge) (h : Before text gs) (hr : InRange gs) (h0 : gs ≠ []) (c : Char) (last : List Char) :
    readGauges (text ++ c :: last) =
      .ok ((gs.map Gauge.info).zipWith setData (increments gs.length (fgets 199 (c :: last)).1)) := by
  obtain ⟨head, blank, count, descr, others, rfl, ⟨h5, hh⟩, hc, hd, h8, hs⟩ := h.ex
  have e : lines (head ++ [blank, count] ++ descr ++ others) ++ c :: last =
      lines head ++ (blank ++ '\n' :: (count ++ '\n' :: (lines descr ++ (lines others ++ c :: last)))) := by
    simp [lines]
  obtain ⟨b1, e1⟩ := header_lines head none (blank ++ '\n' :: (count ++ '\n' :: (lines descr ++ (lines others ++ c :: last)))) hh
    (fun l hl => hs l (by simp [hl]))
  rw [h5] at e1
  have hp : 0 < gs.length := List.length_pos_iff.2 h0
  obtain ⟨b2, e2⟩ := infos_lines descr gs (some (count ++ ['\n'])) (lines others ++ c :: last) hd hr.2 (fun l hl => hs l (by simp [hl]))
  obtain ⟨b3, e3⟩ := skip_lines others b2 (c :: last) (fun l hl => hs l (by simp [hl]))
  rw [h8] at e3
  have ei : toInt ((gs.length : ℕ) : ℚ) = .ok (gs.length : ℤ) := by
    have := toInt_int (gs.length : ℤ) ⟨by have := hr.1; omega, hr.1⟩
    simpa using this
  have en : (⟨b3, c :: last⟩ : Input).next = ⟨some (fgets 199 (c :: last)).1, (fgets 199 (c :: last)).2⟩ := by
    simp [Input.next, maxLineLen]
  unfold readGauges
  rw [e, e1]
  simp only [Outcome.bind, afterHeader, next_line _ _ _ (hs blank (by simp)), next_line _ _ _ (hs count (by simp)), Input.use,
    strtod_begins _ _ hc, ei]
  rw [if_neg (by omega), if_neg (by omega), Int.toNat_natCast, e2]
  simp only [e3, en]

theorem zip_gauges (gs : List Gauge) : (gs.map Gauge.info).zipWith setData (gs.map Gauge.minTimeIncrement) = gs := by
  induction gs with
  | nil => rfl
  | cons g gs ih => simp only [List.map_cons, List.zipWith_cons_cons, ih]; rfl

end Fclaw.GaugeRead
