import Verif.HeaderText.Lemmas
import Mathlib.Tactic.IntervalCases
/-
Lemmas on upper and lower case and on parts of lines.
-/
set_option autoImplicit false
set_option linter.unusedSimpArgs false
namespace Fclaw.HeaderText

theorem index_pos (s sub : Str) : index s sub > 0 ↔ sub <:+: s := by
  induction s with
  | nil =>
    cases sub with
    | nil => simp [index]
    | cons c r => simp [index, List.isPrefixOf]
  | cons c s ih =>
    rw [index, List.infix_cons_iff]
    by_cases h : sub.isPrefixOf (c :: s) = true
    · rw [if_pos h]
      simp only [gt_iff_lt, zero_lt_one, true_iff]
      exact Or.inl (List.isPrefixOf_iff_prefix.1 h)
    · rw [if_neg h]
      have h2 : ¬ sub <+: c :: s := fun e => h (List.isPrefixOf_iff_prefix.2 e)
      rw [← ih]
      by_cases q : index s sub = 0
      · rw [if_pos q, q]; simp [h2]
      · rw [if_neg q]
        constructor
        · intro _; exact Or.inr (Nat.pos_of_ne_zero q)
        · intro _; exact Nat.succ_pos _

theorem upper_all : ∀ c ∈ upperCase, lowerChar c = c.toLower := by decide +kernel

theorem lowerChar_eq (c : Char) : lowerChar c = c.toLower := by
  by_cases h : c ∈ upperCase
  · exact upper_all c h
  · have h1 : index upperCase [c] = 0 := by
      by_contra q
      have := (index_pos upperCase [c]).1 (Nat.pos_of_ne_zero q)
      exact h (this.subset (by simp))
    rw [lowerChar, h1]
    simp only [ne_eq, not_true_eq_false, if_false]
    rw [Char.toLower, dif_neg]
    rintro ⟨a, b⟩
    apply h
    have a' : 65 ≤ c.toNat := a
    have b' : c.toNat ≤ 90 := b
    have e : c = Char.ofNat c.toNat := (Char.ofNat_toNat c).symm
    generalize c.toNat = n at e a' b'
    subst e
    interval_cases n <;> decide +kernel

theorem toLower_blank (c : Char) : c.toLower = ' ' ↔ c = ' ' := by
  constructor
  · intro h
    by_contra q
    rw [Char.toLower] at h
    split at h
    · rename_i g
      have a' : 65 ≤ c.toNat := g.1
      have b' : c.toNat ≤ 90 := g.2
      have h' : c.toLower = ' ' := by rw [Char.toLower, dif_pos g]; exact h
      clear h g
      have e : c = Char.ofNat c.toNat := (Char.ofNat_toNat c).symm
      generalize c.toNat = n at e a' b'
      subst e
      clear q
      revert h'
      interval_cases n <;> decide +kernel
    · exact q h
  · rintro rfl; decide +kernel

theorem pieces_map (f : Char → Char) (hf : ∀ c, f c = ' ' ↔ c = ' ') (s : Str) : pieces (s.map f) = (pieces s).map (fun w => w.map f) := by
  induction s with
  | nil => rfl
  | cons c s ih =>
    rw [List.map_cons, pieces, pieces, ih]
    by_cases q : c = ' '
    · rw [if_pos q, if_pos ((hf c).2 q)]; rfl
    · rw [if_neg q, if_neg (fun e => q ((hf c).1 e))]
      obtain ⟨w, ws, e⟩ := List.exists_cons_of_ne_nil (pieces_ne s)
      rw [e]; rfl

theorem words_map (f : Char → Char) (hf : ∀ c, f c = ' ' ↔ c = ' ') (s : Str) : words (s.map f) = (words s).map (fun w => w.map f) := by
  rw [words, words, pieces_map f hf, List.filter_map]
  congr 2
  funext w
  simp

theorem infix_blank (x w r : Str) (hx : ' ' ∉ x) (h : x <:+: w ++ ' ' :: r) : x <:+: w ∨ x <:+: r := by
  obtain ⟨a, b, e⟩ := h
  rcases List.append_eq_append_iff.1 e with ⟨c, h1, h2⟩ | ⟨c, h1, h2⟩
  · exact Or.inl ⟨a, c, h1.symm⟩
  · cases c with
    | nil => exact Or.inl ⟨a, [], by rw [h1]; simp⟩
    | cons d c =>
      have hd : ' ' = d := (List.cons.inj h2).1
      have hr : r = c ++ b := (List.cons.inj h2).2
      subst hd
      rcases List.append_eq_append_iff.1 h1 with ⟨g, h3, h4⟩ | ⟨g, h3, h4⟩
      · exfalso; apply hx; rw [h4]; simp
      · cases g with
        | nil => exfalso; apply hx; rw [← List.nil_append x, ← h4]; simp
        | cons d g =>
          have : c = g ++ x := (List.cons.inj h4).2
          exact Or.inr ⟨g, b, by rw [hr, this]⟩

theorem infix_words (x : Str) (h0 : x ≠ []) (hx : ' ' ∉ x) : ∀ (n : ℕ) (s : Str), s.length ≤ n → (x <:+: s ↔ ∃ w ∈ words s, x <:+: w) := by
  intro n
  induction n with
  | zero =>
    intro s h
    have : s = [] := List.eq_nil_of_length_eq_zero (by omega)
    subst this
    simp [words, pieces, h0]
  | succ n ih =>
    intro s h
    by_cases hb : ' ' ∈ s
    · obtain ⟨w, r, h1, h2⟩ := split_blank s hb
      have hr : r.length ≤ n := by
        rw [h2] at h; simp at h; omega
      have hs : x <:+: s ↔ x <:+: w ∨ x <:+: r := by
        rw [h2]
        constructor
        · exact infix_blank x w r hx
        · rintro (q | q)
          · exact q.trans ⟨[], ' ' :: r, by simp⟩
          · exact q.trans ⟨w ++ [' '], [], by simp⟩
      rw [hs, ih r hr, h2]
      by_cases hw : w = []
      · subst hw
        rw [List.nil_append, words_cons]
        constructor
        · rintro (q | q)
          · exact absurd (List.infix_nil.1 q) h0
          · exact q
        · exact Or.inr
      · rw [words_append w hw h1]
        simp
    · by_cases hs : s = []
      · subst hs; simp [words, pieces, h0]
      · rw [words_single s hs hb]; simp

theorem mentions (l x : Str) (h0 : x ≠ []) (hx : ' ' ∉ x) (hl : l.length ≤ 80) : index (toLower (assign 80 l)) x > 0 ↔ Mentions l x := by
  have e : toLower (assign 80 l) = (assign 80 l).map Char.toLower := by
    rw [toLower]; congr 1; funext c; exact lowerChar_eq c
  rw [index_pos, e, infix_words x h0 hx _ _ le_rfl, words_map _ toLower_blank, words_assign _ _ hl, Mentions]
  simp

end Fclaw.HeaderText
