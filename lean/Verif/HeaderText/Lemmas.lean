import Verif.HeaderText.Spec
/-
Lemmas for C111.
-/
set_option autoImplicit false
set_option linter.unusedSimpArgs false
namespace Fclaw.HeaderText

theorem pieces_ne (s : Str) : pieces s ≠ [] := by
  cases s with
  | nil => simp [pieces]
  | cons c s =>
    unfold pieces
    split
    · simp
    · split <;> simp

theorem pieces_append (w : Str) (hw : ' ' ∉ w) (s : Str) : pieces (w ++ ' ' :: s) = w :: pieces s := by
  induction w with
  | nil => simp [pieces]
  | cons c w ih =>
    simp only [List.mem_cons, not_or] at hw
    rw [List.cons_append, pieces, if_neg (fun e => hw.1 e.symm), ih hw.2]

theorem pieces_blank (s : Str) : pieces (s ++ [' ']) = pieces s ++ [[]] := by
  induction s with
  | nil => simp [pieces]
  | cons c s ih =>
    rw [List.cons_append, pieces, pieces, ih]
    split
    · rfl
    · obtain ⟨w, ws, e⟩ := List.exists_cons_of_ne_nil (pieces_ne s)
      rw [e]; rfl

theorem words_cons (s : Str) : words (' ' :: s) = words s := by
  simp [words, pieces]

theorem words_append (w : Str) (h0 : w ≠ []) (hw : ' ' ∉ w) (s : Str) : words (w ++ ' ' :: s) = w :: words s := by
  simp [words, pieces_append w hw s, h0]

theorem words_blank (s : Str) : words (s ++ [' ']) = words s := by
  simp [words, pieces_blank]

theorem words_single (w : Str) (h0 : w ≠ []) (hw : ' ' ∉ w) : words w = [w] := by
  rw [← words_blank, words_append w h0 hw]
  simp [words, pieces]

theorem words_pad (s : Str) (b : Str) (hb : ∀ c ∈ b, c = ' ') : words (s ++ b) = words s := by
  induction b using List.reverseRecOn with
  | nil => simp
  | append_singleton b c ih =>
    have hc : c = ' ' := hb c (by simp)
    subst hc
    rw [← List.append_assoc, words_blank, ih (fun c h => hb c (by simp [h]))]

theorem words_lead (b s : Str) (hb : ∀ c ∈ b, c = ' ') : words (b ++ s) = words s := by
  induction b with
  | nil => rfl
  | cons c b ih =>
    have hc : c = ' ' := hb c (by simp)
    subst hc
    rw [List.cons_append, words_cons, ih (fun c h => hb c (by simp [h]))]

theorem blanks_take (s : Str) : ∀ c ∈ s.takeWhile (fun c => c == ' '), c = ' ' := by
  intro c h
  simpa using List.mem_takeWhile_imp h

theorem words_adjustl (s : Str) : words (adjustl s) = words s := by
  rw [adjustl, words_pad _ _ (blanks_take s)]
  conv_rhs => rw [← List.takeWhile_append_dropWhile (p := fun c => c == ' ') (l := s)]
  rw [words_lead _ _ (blanks_take s)]

theorem trim_split (s : Str) : ∃ b : Str, (∀ c ∈ b, c = ' ') ∧ s = trim s ++ b := by
  refine ⟨s.rtakeWhile (fun c => c == ' '), ?_, ?_⟩
  · intro c h
    simpa using List.mem_rtakeWhile_imp h
  · rw [trim, List.rdropWhile_append_rtakeWhile]

theorem words_trim (s : Str) : words (trim s) = words s := by
  obtain ⟨b, hb, e⟩ := trim_split s
  conv_rhs => rw [e]
  rw [words_pad _ _ hb]

theorem assign_eq (n : ℕ) (s : Str) (h : s.length ≤ n) : assign n s = s ++ List.replicate (n - s.length) ' ' := by
  rw [assign, List.take_append, List.take_of_length_le h, List.take_replicate]
  congr 2
  omega

theorem assign_length (n : ℕ) (s : Str) : (assign n s).length = n := by
  simp [assign]

theorem words_assign (n : ℕ) (s : Str) (h : s.length ≤ n) : words (assign n s) = words s := by
  rw [assign_eq n s h, words_pad]
  intro c hc
  exact List.eq_of_mem_replicate hc

theorem length_trim (s : Str) : (trim s).length ≤ s.length := (List.rdropWhile_prefix _ _).length_le

theorem length_adjustl (s : Str) : (adjustl s).length = s.length := by
  have := congrArg List.length (List.takeWhile_append_dropWhile (p := fun c => c == ' ') (l := s))
  rw [List.length_append] at this
  rw [adjustl, List.length_append]
  omega

/-- Blanks, or no blank at the beginning. -/
def NoLead (s : Str) : Prop := ∀ c r, s = c :: r → c = ' ' → ∀ d ∈ s, d = ' '

theorem drop_head (s : Str) (c : Char) (r : Str) (e : s.dropWhile (fun c => c == ' ') = c :: r) : c ≠ ' ' := by
  intro hc
  have h := List.head?_dropWhile_not (fun c => c == ' ') s
  rw [e] at h
  simp [hc] at h

theorem noLead_adjustl (s : Str) : NoLead (adjustl s) := by
  intro c r e hc
  cases hd : s.dropWhile (fun c => c == ' ') with
  | nil =>
    rw [adjustl, hd, List.nil_append]
    exact blanks_take s
  | cons d t =>
    rw [adjustl, hd, List.cons_append] at e
    have : d = c := (List.cons.inj e).1
    exact absurd (this.trans hc) (drop_head s d t hd)

theorem noLead_trim (s : Str) (h : NoLead s) : NoLead (trim s) := by
  intro c r e hc d hd
  obtain ⟨b, _, e2⟩ := trim_split s
  refine h c (r ++ b) ?_ hc d ?_
  · conv_lhs => rw [e2]
    rw [e]; rfl
  · rw [e2]; exact List.mem_append_left _ hd

theorem noLead_assign (n : ℕ) (s : Str) (h : NoLead s) (hl : s.length ≤ n) : NoLead (assign n s) := by
  rw [assign_eq n s hl]
  intro c r e hc d hd
  rcases List.mem_append.1 hd with q | q
  · cases s with
    | nil => cases q
    | cons a t =>
      have : a = c := (List.cons.inj e).1
      exact h a t rfl (this.trans hc) d q
  · exact List.eq_of_mem_replicate q

theorem words_nil_iff (s : Str) : words s = [] ↔ ∀ c ∈ s, c = ' ' := by
  induction s with
  | nil => simp [words, pieces]
  | cons c s ih =>
    by_cases hc : c = ' '
    · subst hc
      rw [words_cons, ih]; simp
    · constructor
      · intro h
        exfalso
        obtain ⟨w, ws, e⟩ := List.exists_cons_of_ne_nil (pieces_ne s)
        rw [words, pieces, if_neg hc, e] at h
        simp at h
      · intro h
        exact absurd (h c (by simp)) hc

theorem trim_nil_iff (s : Str) : (trim (adjustl s)).length > 0 ↔ words s ≠ [] := by
  rw [Ne, words_nil_iff, gt_iff_lt, List.length_pos_iff, ne_eq, trim, List.rdropWhile_eq_nil_iff]
  apply not_congr
  have : ∀ c, c ∈ adjustl s ↔ c ∈ s := by
    intro c
    rw [adjustl, List.mem_append, or_comm, ← List.mem_append, List.takeWhile_append_dropWhile]
  simp [this]

/-- The first blank. -/
theorem index_blank (w s : Str) (hw : ' ' ∉ w) : index (w ++ ' ' :: s) [' '] = w.length + 1 := by
  induction w with
  | nil => simp [index, List.isPrefixOf]
  | cons c w ih =>
    simp only [List.mem_cons, not_or] at hw
    rw [List.cons_append, index, ih hw.2]
    have : ([' '].isPrefixOf (c :: (w ++ ' ' :: s))) = false := by
      simp [List.isPrefixOf, hw.1]
    rw [this]; simp

theorem index_none (w : Str) (hw : ' ' ∉ w) : index w [' '] = 0 := by
  induction w with
  | nil => simp [index, List.isPrefixOf]
  | cons c w ih =>
    simp only [List.mem_cons, not_or] at hw
    rw [index, ih hw.2]
    have : ([' '].isPrefixOf (c :: w)) = false := by simp [List.isPrefixOf, hw.1]
    rw [this]; simp

theorem split_blank (s : Str) (h : ' ' ∈ s) : ∃ w r : Str, ' ' ∉ w ∧ s = w ++ ' ' :: r := by
  induction s with
  | nil => cases h
  | cons c s ih =>
    by_cases hc : c = ' '
    · exact ⟨[], s, by simp, by rw [hc]; rfl⟩
    · have : ' ' ∈ s := by
        rcases List.mem_cons.1 h with q | q
        · exact absurd q.symm hc
        · exact q
      obtain ⟨w, r, h1, h2⟩ := ih this
      refine ⟨c :: w, r, ?_, by rw [h2]; rfl⟩
      simp only [List.mem_cons, not_or]
      exact ⟨fun e => hc e.symm, h1⟩

theorem clean_word (w : Str) (hw : ' ' ∉ w) : trim (adjustl w) = w := by
  have h1 : adjustl w = w := by
    cases w with
    | nil => rfl
    | cons c w =>
      have hc : (c == ' ') = false := by
        simp only [List.mem_cons, not_or] at hw
        simpa using fun e : c = ' ' => hw.1 e.symm
      simp [adjustl, List.dropWhile, List.takeWhile, hc]
  rw [h1]
  obtain ⟨b, hb, e⟩ := trim_split w
  cases b with
  | nil => rw [List.append_nil] at e; exact e.symm
  | cons c b =>
    exfalso
    apply hw
    rw [e, ← hb c (by simp)]
    simp

/-- The loop, if there is a blank in the string. -/
theorem tokens_spec : ∀ (k : ℕ) (s : Str), s.length = 80 → NoLead s → ' ' ∈ s →
    tokens (k + 1) s = if (words s).length ≤ k then .val ((words s).map (assign 80)) else .stops := by
  intro k
  induction k with
  | zero =>
    intro s _ hn hb
    obtain ⟨w, r, h1, h2⟩ := split_blank s hb
    unfold tokens
    by_cases q : words s = []
    · rw [if_neg (fun h => (trim_nil_iff s).1 h q), q]; rfl
    · rw [if_pos ((trim_nil_iff s).2 q)]
      dsimp only
      rw [show index s [' '] = w.length + 1 from by rw [h2]; exact index_blank w r h1, if_neg (by omega), if_pos rfl, if_neg]
      intro h
      exact q (List.eq_nil_of_length_eq_zero (by omega))
  | succ k ih =>
    intro s hl hn hb
    obtain ⟨w, r, h1, h2⟩ := split_blank s hb
    rw [tokens]
    by_cases q : words s = []
    · rw [if_neg (fun h => (trim_nil_iff s).1 h q), q]; rfl
    · rw [if_pos ((trim_nil_iff s).2 q)]
      dsimp only
      have hw : w ≠ [] := by
        intro e
        apply q
        rw [words_nil_iff]
        exact hn ' ' r (by rw [h2, e]; rfl) rfl
      rw [show index s [' '] = w.length + 1 from by rw [h2]; exact index_blank w r h1, if_neg (by omega), if_neg (by omega)]
      have t1 : s.take (w.length + 1 - 1) = w := by rw [h2]; simp
      have t2 : s.drop (w.length + 1) = r := by rw [h2]; simp [List.drop_append]
      have lr : r.length < 80 := by
        rw [← hl, h2]; simp; omega
      have lt : (trim (adjustl r)).length < 80 := lt_of_le_of_lt (length_trim _) (by rw [length_adjustl]; exact lr)
      have wr : words (assign 80 (trim (adjustl r))) = words r := by
        rw [words_assign _ _ lt.le, words_trim, words_adjustl]
      rw [t1, t2, clean_word w h1, ih _ (assign_length _ _) (noLead_assign _ _ (noLead_trim _ (noLead_adjustl r)) lt.le)
        (by rw [assign_eq _ _ lt.le]; apply List.mem_append_right; rw [List.mem_replicate]; exact ⟨by omega, rfl⟩), wr]
      have ws : words s = w :: words r := by rw [h2, words_append w hw h1]
      rw [ws, List.length_cons]
      by_cases c : (words r).length ≤ k
      · rw [if_pos c, if_pos (by omega)]; rfl
      · rw [if_neg c, if_neg (by omega)]; rfl

theorem tokens_line (str : Str) (h : str.length ≤ 80) :
    tokens 10 (assign 80 (trim (adjustl str))) = if (words str).length < 10 then .val ((words str).map (assign 80)) else .stops := by
  have lt : (trim (adjustl str)).length ≤ 80 := le_trans (length_trim _) (by rw [length_adjustl]; exact h)
  have wr : words (assign 80 (trim (adjustl str))) = words str := by
    rw [words_assign _ _ lt, words_trim, words_adjustl]
  have hn := noLead_assign _ _ (noLead_trim _ (noLead_adjustl str)) lt
  have hl := assign_length 80 (trim (adjustl str))
  generalize assign 80 (trim (adjustl str)) = s at wr hn hl ⊢
  by_cases hb : ' ' ∈ s
  · rw [tokens_spec 9 s hl hn hb, wr]
    simp only [Nat.lt_succ_iff]
  · have h0 : s ≠ [] := by intro e; rw [e] at hl; cases hl
    have e : words s = [s] := words_single s h0 hb
    rw [← wr, e, tokens, if_pos ((trim_nil_iff s).2 (by rw [e]; simp))]
    dsimp only
    rw [if_pos (index_none s hb), clean_word s hb]
    rfl

end Fclaw.HeaderText
