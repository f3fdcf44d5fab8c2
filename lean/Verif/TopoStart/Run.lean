import Verif.TopoStart.Lemmas
/-
The steps of the program for C104.
-/
set_option autoImplicit false
set_option linter.unusedSimpArgs false
set_option linter.unusedVariables false
namespace Fclaw.TopoStart

open Fort

noncomputable section

theorem n_sub (I : Input) : (I.n : ℤ) - I.moves.n = I.files.n := by unfold Input.n; push_cast; ring

theorem file_read (I : Input) (f : ℤ) (h : f ≤ I.files.n) : I.file f = I.files.file f := by
  unfold Input.file; rw [n_sub, if_pos h]

theorem file_grid (I : Input) (m : ℤ) (h : 1 ≤ m) : I.file (I.grid m) =
    ⟨(I.moves.move m).mx, (I.moves.move m).my, (I.moves.move m).xlow, (I.moves.move m).xhi, (I.moves.move m).ylow, (I.moves.move m).yhi,
      (I.moves.move m).dx, (I.moves.move m).dy, fun _ => 0⟩ := by
  unfold Input.file Input.grid
  rw [n_sub, if_neg (by omega)]
  have : (I.files.n : ℤ) + m - I.n + I.moves.n = m := by unfold Input.n; push_cast; ring
  rw [this]

theorem mtopo_nonneg (I : Input) (f : ℤ) : 0 ≤ I.mtopo f := by unfold Input.mtopo; positivity

theorem elem_mtopo (I : Input) (f i j : ℤ) (hi1 : 1 ≤ i) (hi2 : i ≤ (I.file f).mx) (hj1 : 1 ≤ j) (hj2 : j ≤ (I.file f).my) :
    1 ≤ (j - 1) * (I.file f).mx + i ∧ (j - 1) * (I.file f).mx + i ≤ I.mtopo f :=
  elem_range _ _ i j hi1 hi2 hj1 hj2

theorem pos_range (I : Input) (f b : ℤ) (hf1 : 1 ≤ f) (hf2 : f ≤ I.n) (hb1 : 1 ≤ b) (hb2 : b ≤ I.mtopo f) :
    1 ≤ I.i0topo f + b - 1 ∧ I.i0topo f + b - 1 ≤ I.mtoposize := by
  have := parts I.n I.mtopo (mtopo_nonneg I) f hf1 hf2
  unfold Input.i0topo Input.mtoposize
  omega

theorem content_eq (T : Topo.File) (i j : ℤ) (hi1 : 1 ≤ i) (hi2 : i ≤ T.mx) : content T ((j - 1) * T.mx + i) = T.zz (i, j) := by
  unfold content
  rw [(elem_decode T.mx i j hi1 hi2).1, (elem_decode T.mx i j hi1 hi2).2]

/-- Element `a` belongs to a file that is read. -/
def Input.IsRead (I : Input) (a : ℤ) : Prop := ∃ f b : ℤ, (1 ≤ f ∧ f ≤ I.files.n) ∧ (1 ≤ b ∧ b ≤ I.mtopo f) ∧ a = I.i0topo f + b - 1

/-- The files that are read are in the array. -/
def Input.Holds (I : Input) (w : Mem) : Prop :=
  ∀ f b : ℤ, 1 ≤ f → f ≤ I.files.n → 1 ≤ b → b ≤ I.mtopo f → w (I.i0topo f + b - 1) = some (content (I.files.file f) b)

theorem setPart_does (I : Input) (R : Mem → Prop) (G : ℤ → Option ℝ → Prop) (f b : ℤ) (v : ℝ) (hf1 : 1 ≤ f) (hf2 : f ≤ I.n)
    (hb1 : 1 ≤ b) (hb2 : b ≤ I.mtopo f) (hG : G (I.i0topo f + b - 1) (some v)) :
    Does R (fun c => c = I.i0topo f + b - 1) G (fun w => I.setPart f b v w) := by
  have h := pos_range I f b hf1 hf2 hb1 hb2
  have e : (fun w => I.setPart f b v w) = fun w => set I.mtoposize w (I.i0topo f + b - 1) (some v) := by
    funext w; unfold Input.setPart; rw [if_pos ⟨hb1, hb2⟩]
  rw [e]
  exact Does.set R G _ _ _ h.1 h.2 hG

theorem read_all (I : Input) : ∃ w, doLoop 1 ((I.n : ℤ) - I.moves.n) I.readFile (fun _ => none) = some w ∧ I.Holds w ∧
    ∀ a, ¬ I.IsRead a → w a = none := by
  rw [n_sub]
  have key : Does (fun _ => True) (fun a => ∃ f ∈ range 1 (I.files.n : ℤ), ∃ b ∈ range 1 (I.mtopo f), a = I.i0topo f + b - 1)
      (fun a v => ∀ f b : ℤ, 1 ≤ f → f ≤ I.files.n → 1 ≤ b → b ≤ I.mtopo f → a = I.i0topo f + b - 1 →
        v = some (content (I.files.file f) b)) (loop (range 1 (I.files.n : ℤ)) I.readFile) := by
    apply Does.loop (fun _ => True) (fun _ => False) (fun _ _ _ _ => trivial)
    · intro f hf
      rw [mem_range] at hf
      have hfn : f ≤ (I.n : ℤ) := by unfold Input.n; push_cast; omega
      apply Does.loop (fun _ => True) (fun _ => False) (fun _ _ _ _ => trivial)
      · intro b hb
        rw [mem_range] at hb
        apply setPart_does I _ _ f b _ hf.1 hfn hb.1 hb.2
        intro g c hg1 hg2 hc1 hc2 e
        have hgn : g ≤ (I.n : ℤ) := by unfold Input.n; push_cast; omega
        obtain ⟨e1, e2⟩ := parts_inj I.n I.mtopo (mtopo_nonneg I) f g b c hf.1 hfn hg1 hgn hb.1 hb.2 hc1 hc2 e
        rw [e1, e2]
      · intro _ _ _ _ h; exact h
    · intro _ _ _ _ h; exact h
  obtain ⟨w, e, h1, h2⟩ := key (fun _ => none) trivial
  refine ⟨w, e, ?_, ?_⟩
  · intro f b hf1 hf2 hb1 hb2
    exact h1 _ ⟨f, (mem_range _ _ _).mpr ⟨hf1, hf2⟩, b, (mem_range _ _ _).mpr ⟨hb1, hb2⟩, rfl⟩ f b hf1 hf2 hb1 hb2 rfl
  · intro a ha
    rw [h2 a]
    rintro ⟨f, hf, b, hb, e⟩
    rw [mem_range] at hf hb
    exact ha ⟨f, b, hf, hb, e⟩

theorem get_read (I : Input) (w : Mem) (hw : I.Holds w) (f i j : ℤ) (hf1 : 1 ≤ f) (hf2 : f ≤ I.files.n) (hi1 : 1 ≤ i)
    (hi2 : i ≤ (I.files.file f).mx) (hj1 : 1 ≤ j) (hj2 : j ≤ (I.files.file f).my) :
    get I.mtoposize w (I.i0topo f + (j - 1) * (I.files.file f).mx + i - 1) = some ((I.files.file f).zz (i, j)) := by
  have hfn : f ≤ (I.n : ℤ) := by unfold Input.n; push_cast; omega
  have hb := elem_mtopo I f i j hi1 (by rw [file_read I f hf2]; exact hi2) hj1 (by rw [file_read I f hf2]; exact hj2)
  rw [file_read I f hf2] at hb
  have hp := pos_range I f _ hf1 hfn hb.1 hb.2
  have e : I.i0topo f + (j - 1) * (I.files.file f).mx + i - 1 = I.i0topo f + ((j - 1) * (I.files.file f).mx + i) - 1 := by ring
  rw [e]
  unfold get
  rw [if_pos hp, hw f _ hf1 hf2 hb.1 hb.2, content_eq _ _ _ hi1 hi2]

theorem index_bounds (lo u d : ℝ) (m : ℕ) (hd : 0 < d) (hm : 2 ≤ m) (h1 : 0 ≤ u) (h2 : u ≤ ((m : ℝ) - 1) * d) :
    1 ≤ ⌊u / d⌋ + 1 ∧ ⌊u / d⌋ + 1 ≤ m ∧ 1 ≤ ⌈u / d⌉ + 1 ∧ ⌈u / d⌉ + 1 ≤ m := by
  have a1 : 0 ≤ u / d := div_nonneg h1 hd.le
  have a2 : u / d ≤ (((m : ℤ) - 1 : ℤ) : ℝ) := by
    rw [div_le_iff₀ hd]; push_cast; exact h2
  have f0 : 0 ≤ ⌊u / d⌋ := Int.floor_nonneg.mpr a1
  have c1 : ⌈u / d⌉ ≤ (m : ℤ) - 1 := Int.ceil_le.mpr a2
  have fc : ⌊u / d⌋ ≤ ⌈u / d⌉ := Int.floor_le_ceil _
  omega

theorem interp_eq (I : Input) (hI : I.Valid) (w : Mem) (hw : I.Holds w) (f : ℤ) (hf1 : 1 ≤ f) (hf2 : f ≤ I.files.n) (x y : ℝ)
    (hp : (x, y) ∈ (I.files.file f).extent) : I.interp w f x y = some ((I.files.file f).height (x, y)) := by
  obtain ⟨⟨hx1, hx2⟩, hy1, hy2⟩ := hp
  have hT := hI.files f ⟨hf1, hf2⟩
  simp only at hx1 hx2 hy1 hy2
  have bx := index_bounds 0 (x - (I.files.file f).xlow) _ _ hT.dx hT.mx (by linarith) (by have := hT.xhi; linarith)
  have bY := index_bounds 0 ((I.files.file f).yhi - y) _ _ hT.dy hT.my (by linarith) (by have := hT.yhi; linarith)
  have key := formula (I.files.file f) hT x y hx1 hy1
  unfold Input.interp
  rw [file_read I f hf2]
  simp only
  rw [get_read I w hw f _ _ hf1 hf2 bx.1 bx.2.1 bY.2.2.1 bY.2.2.2, get_read I w hw f _ _ hf1 hf2 bx.2.2.1 bx.2.2.2 bY.2.2.1 bY.2.2.2,
    get_read I w hw f _ _ hf1 hf2 bx.1 bx.2.1 bY.1 bY.2.1, get_read I w hw f _ _ hf1 hf2 bx.2.2.1 bx.2.2.2 bY.1 bY.2.1]
  simp only [Option.bind_some]
  rw [← key]

theorem search_found (I : Input) (f b : ℤ) (x y : ℝ) (w : Mem) (a : ℤ) (ha : a ≤ I.files.n) (hp : (x, y) ∈ (I.files.file a).extent) :
    ∀ l : List ℤ, (l.map I.all.mtopoorder).Pairwise I.all.Fin → a ∈ l.map I.all.mtopoorder →
      (∀ c ∈ l.map I.all.mtopoorder, c ≤ I.files.n → c ≠ a → (x, y) ∈ (I.files.file c).extent → I.all.Fin a c) →
      I.search f b x y l w = (I.interp w a x y).bind fun z => I.setPart f b z w := by
  intro l
  induction l with
  | nil => intro _ h; simp at h
  | cons r l ih =>
    intro hs hm hf
    simp only [List.map_cons, List.pairwise_cons] at hs
    simp only [Input.search]
    rw [n_sub]
    by_cases h : I.all.mtopoorder r = a
    · rw [h, if_neg (by omega), if_neg, ]
      rw [file_read I a ha]
      obtain ⟨⟨h1, h2⟩, h3, h4⟩ := hp
      simp only at h1 h2 h3 h4
      rintro (h | h | h | h) <;> linarith
    · have hm' : a ∈ l.map I.all.mtopoorder := by
        rcases List.mem_cons.mp hm with e | e
        · exact absurd e.symm h
        · exact e
      have hrest := ih hs.2 hm' (fun c hc => hf c (by simp only [List.map_cons, List.mem_cons]; exact Or.inr hc))
      by_cases h1 : I.all.mtopoorder r > I.files.n
      · rw [if_pos h1]; exact hrest
      · rw [if_neg h1, if_pos]
        · exact hrest
        · by_contra hno
          rw [file_read I _ (by omega)] at hno
          push Not at hno
          have hin : (x, y) ∈ (I.files.file (I.all.mtopoorder r)).extent :=
            ⟨⟨hno.2.1, hno.1⟩, hno.2.2.2, hno.2.2.1⟩
          have q1 := hf (I.all.mtopoorder r) (by simp) (by omega) h hin
          have q2 := hs.1 a hm'
          exact Topo.fin_irrefl _ _ (Topo.fin_trans _ q1 q2)

theorem search_none (I : Input) (f b : ℤ) (x y : ℝ) (w : Mem) (hno : ∀ c : ℤ, 1 ≤ c → c ≤ I.files.n → (x, y) ∉ (I.files.file c).extent) :
    ∀ l : List ℤ, (∀ r ∈ l, 1 ≤ I.all.mtopoorder r) → I.search f b x y l w = some w := by
  intro l
  induction l with
  | nil => intro _; simp only [Input.search]
  | cons r l ih =>
    intro hl
    simp only [Input.search]
    rw [n_sub]
    have hrest := ih fun r hr => hl r (by simp [hr])
    have h0 := hl r (by simp)
    by_cases h1 : I.all.mtopoorder r > I.files.n
    · rw [if_pos h1]; exact hrest
    · rw [if_neg h1, if_pos]
      · exact hrest
      · by_contra hn
        rw [file_read I _ (by omega)] at hn
        push Not at hn
        exact hno _ h0 (by omega) ⟨⟨hn.2.1, hn.1⟩, hn.2.2.2, hn.2.2.1⟩

theorem fin_all (I : Input) (a c : ℤ) (ha : a ≤ I.files.n) (hc : c ≤ I.files.n) : I.all.Fin a c ↔ I.files.Fin a c := by
  unfold Topo.Files.Fin Topo.Files.area
  show (I.file a).dx * (I.file a).dy < (I.file c).dx * (I.file c).dy ∨ _ ↔ _
  rw [show I.all.file = I.file from rfl, file_read I a ha, file_read I c hc]

theorem search_eq (I : Input) (hI : I.Valid) (f b : ℤ) (x y : ℝ) (w : Mem) (hw : I.Holds w) (a : ℤ) (ha : I.files.IsFinest (x, y) a) :
    I.search f b x y (range 1 I.n) w = I.setPart f b ((I.files.file a).height (x, y)) w := by
  obtain ⟨⟨ha1, ha2⟩, hp, hfin⟩ := ha
  have hnum : (range 1 (I.n : ℤ)).map I.all.mtopoorder = I.all.nums := rfl
  rw [search_found I f b x y w a ha2 hp (range 1 I.n) (by rw [hnum]; exact Topo.nums_pairwise _)
    (by rw [hnum, Topo.mem_nums]; refine ⟨ha1, ?_⟩; show a ≤ (I.n : ℤ); unfold Input.n; push_cast; omega)
    (by
      intro c hc hcn hca hcp
      rw [hnum, Topo.mem_nums] at hc
      rw [fin_all I a c ha2 hcn]
      exact hfin c ⟨hc.1, hcn⟩ hca hcp), interp_eq I hI w hw a ha1 ha2 x y hp]
  rfl

/-- The element of a node of a file with displacements. -/
def Input.elem (I : Input) (m i j : ℤ) : ℤ := I.i0topo (I.grid m) + ((j - 1) * (I.moves.move m).mx + i) - 1

/-- A node of a file with displacements. -/
def Input.IsNode (I : Input) (m i j : ℤ) : Prop :=
  (1 ≤ m ∧ m ≤ I.moves.n) ∧ (1 ≤ i ∧ i ≤ (I.moves.move m).mx) ∧ (1 ≤ j ∧ j ≤ (I.moves.move m).my)

theorem grid_range (I : Input) (m : ℤ) (h : 1 ≤ m ∧ m ≤ I.moves.n) : 1 ≤ I.grid m ∧ I.grid m ≤ I.n ∧ (I.files.n : ℤ) < I.grid m := by
  unfold Input.grid Input.n; push_cast; omega

theorem node_mtopo (I : Input) (m i j : ℤ) (h : I.IsNode m i j) :
    1 ≤ (j - 1) * (I.moves.move m).mx + i ∧ (j - 1) * (I.moves.move m).mx + i ≤ I.mtopo (I.grid m) := by
  have := elem_mtopo I (I.grid m) i j h.2.1.1 (by rw [file_grid I m h.1.1]; exact h.2.1.2) h.2.2.1 (by rw [file_grid I m h.1.1]; exact h.2.2.2)
  rw [file_grid I m h.1.1] at this
  exact this

theorem node_inj (I : Input) (m i j m' i' j' : ℤ) (h : I.IsNode m i j) (h' : I.IsNode m' i' j') (e : I.elem m i j = I.elem m' i' j') :
    m = m' ∧ i = i' ∧ j = j' := by
  have g := grid_range I m h.1
  have g' := grid_range I m' h'.1
  have b := node_mtopo I m i j h
  have b' := node_mtopo I m' i' j' h'
  obtain ⟨e1, e2⟩ := parts_inj I.n I.mtopo (mtopo_nonneg I) (I.grid m) (I.grid m') _ _ g.1 g.2.1 g'.1 g'.2.1 b.1 b.2 b'.1 b'.2 e
  have em : m = m' := by unfold Input.grid at e1; omega
  subst em
  have := elem_inj _ i j i' j' h.2.1.1 h.2.1.2 h'.2.1.1 h'.2.1.2 e2
  exact ⟨rfl, this.1, this.2⟩

theorem node_notRead (I : Input) (m i j : ℤ) (h : I.IsNode m i j) : ¬ I.IsRead (I.elem m i j) := by
  rintro ⟨f, b, hf, hb, e⟩
  have g := grid_range I m h.1
  have bb := node_mtopo I m i j h
  have := parts_inj I.n I.mtopo (mtopo_nonneg I) (I.grid m) f _ b g.1 g.2.1 hf.1 (by omega) bb.1 bb.2 hb.1 hb.2 e
  omega

theorem finest_unique (I : Input) (p : ℝ × ℝ) (a c : ℤ) (ha : I.files.IsFinest p a) (hc : I.files.IsFinest p c) : a = c := by
  by_contra h
  have h1 : I.files.Fin a c := ha.2.2 c hc.1 (fun e => h e.symm) hc.2.1
  have h2 : I.files.Fin c a := hc.2.2 a ha.1 h ha.2.1
  exact Topo.fin_irrefl _ _ (Topo.fin_trans _ h1 h2)

theorem set_all (I : Input) (hI : I.Valid) (w : Mem) (hw : I.Holds w) (hn : ∀ a, ¬ I.IsRead a → w a = none) :
    ∃ w', doLoop ((I.n : ℤ) - I.moves.n + 1) I.n I.setTopo w = some w' ∧ I.Holds w' ∧
      ∀ m i j, I.IsNode m i j →
        (∀ a, I.files.IsFinest (point (I.moves.move m) i j) a →
          w' (I.elem m i j) = some ((I.files.file a).height (point (I.moves.move m) i j))) ∧
        (point (I.moves.move m) i j ∉ I.files.covered → w' (I.elem m i j) = none) := by
  rw [n_sub]
  have hold : ∀ w w' : Mem, (∀ a, I.IsRead a → w' a = w a) → I.Holds w → I.Holds w' := by
    intro w w' h hw f b hf1 hf2 hb1 hb2
    rw [h _ ⟨f, b, ⟨hf1, hf2⟩, ⟨hb1, hb2⟩, rfl⟩]
    exact hw f b hf1 hf2 hb1 hb2
  have key : Does I.Holds (fun a => ∃ g ∈ range ((I.files.n : ℤ) + 1) I.n, ∃ j ∈ range 1 ((I.file g).my : ℤ), ∃ i ∈ range 1 ((I.file g).mx : ℤ),
        a = I.elem (g - I.files.n) i j ∧ point (I.moves.move (g - I.files.n)) i j ∈ I.files.covered)
      (fun a v => ∀ m i j, I.IsNode m i j → a = I.elem m i j → ∀ c, I.files.IsFinest (point (I.moves.move m) i j) c →
        v = some ((I.files.file c).height (point (I.moves.move m) i j)))
      (loop (range ((I.files.n : ℤ) + 1) I.n) I.setTopo) := by
    apply Does.loop I.Holds I.IsRead hold
    · intro g hg
      rw [mem_range] at hg
      obtain ⟨m, rfl⟩ : ∃ m, g = I.grid m := ⟨g - I.files.n, by unfold Input.grid; ring⟩
      have hm : 1 ≤ m ∧ m ≤ I.moves.n := by unfold Input.grid Input.n at hg; push_cast at hg; omega
      have eg : I.grid m - I.files.n = m := by unfold Input.grid; ring
      rw [eg]
      have efile := file_grid I m hm.1
      apply Does.loop I.Holds I.IsRead hold
      · intro j hj
        rw [mem_range, efile] at hj
        apply Does.loop I.Holds I.IsRead hold
        · intro i hi
          rw [mem_range, efile] at hi
          have hnode : I.IsNode m i j := ⟨hm, hi, hj⟩
          have hb := node_mtopo I m i j hnode
          have gr := grid_range I m hm
          have ept : ((I.file (I.grid m)).xlow + ((i - 1 : ℤ) : ℝ) * (I.file (I.grid m)).dx,
              (I.file (I.grid m)).yhi - ((j - 1 : ℤ) : ℝ) * (I.file (I.grid m)).dy) = point (I.moves.move m) i j := by
            rw [efile]; unfold point Dtopo.Move.col Dtopo.Move.row; push_cast; rfl
          by_cases hc : point (I.moves.move m) i j ∈ I.files.covered
          · obtain ⟨c, hcf⟩ := Topo.exists_finest I.files _ hc
            have hd := setPart_does I I.Holds (fun a v => ∀ m i j, I.IsNode m i j → a = I.elem m i j →
                ∀ c, I.files.IsFinest (point (I.moves.move m) i j) c → v = some ((I.files.file c).height (point (I.moves.move m) i j)))
              (I.grid m) ((j - 1) * (I.moves.move m).mx + i) ((I.files.file c).height (point (I.moves.move m) i j)) gr.1 gr.2.1 hb.1 hb.2 (by
                intro m' i' j' hn' e' c' hc'
                obtain ⟨rfl, rfl, rfl⟩ := node_inj I m i j m' i' j' hnode hn' e'
                rw [finest_unique I _ c c' hcf hc'])
            intro w hw
            obtain ⟨w', e', h1, h2⟩ := hd w hw
            refine ⟨w', ?_, ?_, ?_⟩
            · have := search_eq I hI (I.grid m) ((j - 1) * (I.moves.move m).mx + i) _ _ w hw c (by rw [ept]; exact hcf)
              rw [ept] at this
              show I.search (I.grid m) ((j - 1) * (I.file (I.grid m)).mx + i) _ _ (range 1 I.n) w = some w'
              have e'' : I.setPart (I.grid m) ((j - 1) * (I.moves.move m).mx + i) ((I.files.file c).height (point (I.moves.move m) i j)) w = some w' := e'
              rw [← e'', ← this, efile]
            · rintro a ⟨rfl, _⟩
              exact h1 _ rfl
            · intro a ha
              exact h2 a fun e => ha ⟨e, hc⟩
          · intro w hw
            refine ⟨w, ?_, fun a ha => absurd ha.2 hc, fun _ _ => rfl⟩
            apply search_none
            · intro c hc1 hc2 hin
              rw [ept] at hin
              exact hc ⟨c, ⟨hc1, hc2⟩, hin⟩
            · intro r hr
              rw [mem_range] at hr
              exact (Topo.mtopoorder_file I.all (r := r) hr).1
        · rintro i hi a ⟨rfl, _⟩
          rw [mem_range, efile] at hi
          exact node_notRead I m i j ⟨hm, hi, hj⟩
      · rintro j hj a ⟨i, hi, rfl, _⟩
        rw [mem_range, efile] at hi hj
        exact node_notRead I m i j ⟨hm, hi, hj⟩
    · rintro g hg a ⟨j, hj, i, hi, rfl, _⟩
      obtain ⟨m, rfl⟩ : ∃ m, g = I.grid m := ⟨g - I.files.n, by unfold Input.grid; ring⟩
      have eg : I.grid m - I.files.n = m := by unfold Input.grid; ring
      rw [mem_range] at hg
      have hm : 1 ≤ m ∧ m ≤ I.moves.n := by unfold Input.grid Input.n at hg; push_cast at hg; omega
      have efile := file_grid I m hm.1
      rw [mem_range, efile] at hi hj
      rw [eg]
      exact node_notRead I m i j ⟨hm, hi, hj⟩
  obtain ⟨w', e, h1, h2⟩ := key w hw
  refine ⟨w', e, ?_, ?_⟩
  · apply hold w w' _ hw
    intro a ha
    apply h2
    rintro ⟨g, hg, j, hj, i, hi, rfl, _⟩
    obtain ⟨m, rfl⟩ : ∃ m, g = I.grid m := ⟨g - I.files.n, by unfold Input.grid; ring⟩
    have eg : I.grid m - I.files.n = m := by unfold Input.grid; ring
    rw [mem_range] at hg
    have hm : 1 ≤ m ∧ m ≤ I.moves.n := by unfold Input.grid Input.n at hg; push_cast at hg; omega
    have efile := file_grid I m hm.1
    rw [mem_range, efile] at hi hj
    rw [eg] at ha
    exact node_notRead I m i j ⟨hm, hi, hj⟩ ha
  · intro m i j hnode
    constructor
    · intro c hc
      apply h1 _ _ m i j hnode rfl c hc
      have eg : I.grid m - I.files.n = m := by unfold Input.grid; ring
      have gr := grid_range I m hnode.1
      have efile := file_grid I m hnode.1.1
      refine ⟨I.grid m, (mem_range _ _ _).mpr ⟨by omega, gr.2.1⟩, j, ?_, i, ?_, by rw [eg], ?_⟩
      · rw [efile]; exact (mem_range _ _ _).mpr hnode.2.2
      · rw [efile]; exact (mem_range _ _ _).mpr hnode.2.1
      · rw [eg]; exact ⟨c, hc.1, hc.2.1⟩
    · intro hc
      rw [h2, hn _ (node_notRead I m i j hnode)]
      rintro ⟨g, hg, j', hj, i', hi, e', hcov⟩
      obtain ⟨m', rfl⟩ : ∃ m, g = I.grid m := ⟨g - I.files.n, by unfold Input.grid; ring⟩
      have eg : I.grid m' - I.files.n = m' := by unfold Input.grid; ring
      rw [mem_range] at hg
      have hm : 1 ≤ m' ∧ m' ≤ I.moves.n := by unfold Input.grid Input.n at hg; push_cast at hg; omega
      have efile := file_grid I m' hm.1
      rw [mem_range, efile] at hi hj
      rw [eg] at e' hcov
      obtain ⟨rfl, rfl, rfl⟩ := node_inj I m i j m' i' j' hnode ⟨hm, hi, hj⟩ e'
      exact hc hcov

/-! ### The copy -/

theorem save_cases (I : Input) (f : ℤ) : I.save f = 0 ∨ I.save f = 1 := by
  unfold Input.save Dtopo.Setup.save
  split
  · exact Or.inr rfl
  · unfold Dtopo.Setup.saveRead
    generalize range _ _ = l
    have : ∀ (l : List ℤ) (s : ℤ) (P : ℤ → Prop) [DecidablePred P], s = 0 ∨ s = 1 →
        l.foldl (fun _ j => if P j then 0 else 1) s = (0 : ℤ) ∨ l.foldl (fun _ j => if P j then 0 else 1) s = (1 : ℤ) := by
      intro l
      induction l with
      | nil => intro s P _ h; exact h
      | cons a l ih =>
        intro s P _ h
        simp only [List.foldl_cons]
        apply ih
        split
        · exact Or.inl rfl
        · exact Or.inr rfl
    exact this l 0 _ (Or.inl rfl)

theorem copy_all (I : Input) (w : Mem) : ∃ w0, doLoop 1 I.n (I.copyFile w) (fun _ => none) = some w0 ∧
    ∀ f b : ℤ, 1 ≤ f → f ≤ I.n → I.save f = 1 → 1 ≤ b → b ≤ I.mtopo f → w0 (I.i0topo0 f + b - 1) = w (I.i0topo f + b - 1) := by
  have hsize : ∀ i, 0 ≤ I.mtopo i * I.save i := by
    intro i
    have := mtopo_nonneg I i
    rcases save_cases I i with h | h <;> rw [h] <;> omega
  have key : Does (fun _ => True) (fun a => ∃ f ∈ range 1 (I.n : ℤ), I.save f = 1 ∧ ∃ b ∈ range 1 (I.mtopo f), a = I.i0topo0 f + b - 1)
      (fun a v => ∀ f b : ℤ, 1 ≤ f → f ≤ I.n → I.save f = 1 → 1 ≤ b → b ≤ I.mtopo f → a = I.i0topo0 f + b - 1 →
        v = w (I.i0topo f + b - 1)) (loop (range 1 (I.n : ℤ)) (I.copyFile w)) := by
    apply Does.loop (fun _ => True) (fun _ => False) (fun _ _ _ _ => trivial)
    · intro f hf
      rw [mem_range] at hf
      rcases save_cases I f with hs | hs
      · intro w0 _
        refine ⟨w0, ?_, fun a ha => by rw [hs] at ha; exact absurd ha.1 (by decide), fun _ _ => rfl⟩
        unfold Input.copyFile
        rw [if_neg (by omega)]
      · have e : I.copyFile w f = loop (range 1 (I.mtopo f)) (fun b w0 =>
            (copied I.mtoposize w (I.i0topo f + b - 1)).bind fun v => set I.mtopo0size w0 (I.i0topo0 f + b - 1) v) := by
          funext w0
          unfold Input.copyFile
          rw [if_pos (by omega)]
          rfl
        rw [e]
        refine Does.congr (A := fun a => ∃ b ∈ range 1 (I.mtopo f), a = I.i0topo0 f + b - 1) ?_ (fun a => ⟨fun h => ⟨hs, h⟩, fun h => h.2⟩)
        apply Does.loop (fun _ => True) (fun _ => False) (fun _ _ _ _ => trivial)
        · intro b hb
          rw [mem_range] at hb
          have hp := pos_range I f b hf.1 hf.2 hb.1 hb.2
          have e1 : (fun w0 => (copied I.mtoposize w (I.i0topo f + b - 1)).bind fun v => set I.mtopo0size w0 (I.i0topo0 f + b - 1) v)
              = fun w0 => set I.mtopo0size w0 (I.i0topo0 f + b - 1) (w (I.i0topo f + b - 1)) := by
            funext w0
            unfold copied
            rw [if_pos hp]
            rfl
          rw [e1]
          have hq := parts I.n (fun i => I.mtopo i * I.save i) hsize f hf.1 hf.2
          simp only [hs, mul_one] at hq
          apply Does.set
          · unfold Input.i0topo0; omega
          · unfold Input.i0topo0 Input.mtopo0size; omega
          · intro g c hg1 hg2 hgs hc1 hc2 e
            obtain ⟨e1, e2⟩ := parts_inj I.n (fun i => I.mtopo i * I.save i) hsize f g b c hf.1 hf.2 hg1 hg2 hb.1
              (by simp only [hs, mul_one]; exact hb.2) hc1 (by simp only [hgs, mul_one]; exact hc2) e
            rw [e1, e2]
        · intro _ _ _ _ h; exact h
    · intro _ _ _ _ h; exact h
  obtain ⟨w0, e, h1, _⟩ := key (fun _ => none) trivial
  refine ⟨w0, e, ?_⟩
  intro f b hf1 hf2 hs hb1 hb2
  exact h1 _ ⟨f, (mem_range _ _ _).mpr ⟨hf1, hf2⟩, hs, b, (mem_range _ _ _).mpr ⟨hb1, hb2⟩, rfl⟩ f b hf1 hf2 hs hb1 hb2 rfl

/-- Everything together. -/
theorem start_all (I : Input) (hI : I.Valid) : ∃ s, I.start = some s ∧ I.Holds s.work ∧
    (∀ m i j, I.IsNode m i j →
        (∀ a, I.files.IsFinest (point (I.moves.move m) i j) a →
          s.work (I.elem m i j) = some ((I.files.file a).height (point (I.moves.move m) i j))) ∧
        (point (I.moves.move m) i j ∉ I.files.covered → s.work (I.elem m i j) = none)) ∧
    (0 < I.moves.n → ∀ f b : ℤ, 1 ≤ f → f ≤ I.n → I.save f = 1 → 1 ≤ b → b ≤ I.mtopo f →
      s.work0 (I.i0topo0 f + b - 1) = s.work (I.i0topo f + b - 1)) := by
  obtain ⟨w1, e1, h1, k1⟩ := read_all I
  obtain ⟨w2, e2, h2, k2⟩ := set_all I hI w1 h1 k1
  obtain ⟨w0, e0, h0⟩ := copy_all I w2
  unfold Input.start
  rw [e1]
  simp only [Option.bind_some]
  rw [e2]
  simp only [Option.bind_some]
  by_cases hm : 0 < I.moves.n
  · rw [if_pos hm, e0]
    exact ⟨_, rfl, h2, k2, fun _ => h0⟩
  · rw [if_neg hm]
    exact ⟨_, rfl, h2, k2, fun h => absurd h hm⟩

end

end Fclaw.TopoStart
