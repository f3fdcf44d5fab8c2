import Verif.Domain.BlockLemmas
/-
Property C06: a new domain's bookkeeping agrees with its patches.
Property C07: the domain iterators visit exactly the right patches, each once.

`blocks` are the local quadrants of every tree of the forest on the process, in p4est order;
`mirrors` are the local numbers of the quadrants on the parallel boundary, increasing.
`C` is the number of children of a quadrant (4 in 2D, 8 in 3D).
-/
set_option autoImplicit false
namespace Fclaw.Domain

variable {C : Nat}

/-- C06, per block: numbers, offsets (running sums), levels and child numbers, the level lists (following the
links of level `l` from the list head ends and yields exactly the patches of that level, in
order), and the block's minimum and maximum level. -/
theorem C06_blocks (hC : 0 < C) (P : Params) (mirrors : List Nat)
    (hsort : mirrors.Pairwise (· < ·)) (blocks : List (List (Path C)))
    (hlev : ∀ qs ∈ blocks, ∀ q ∈ qs, q.length ≤ P.possibleMaxlevel) :
    (domainNew C P mirrors blocks).blocks.length = blocks.length ∧
    ∀ (i : Nat) (qs : List (Path C)), blocks[i]? = some qs →
      ∃ blk, (domainNew C P mirrors blocks).blocks[i]? = some blk ∧
        blk.numPatches = qs.length ∧
        blk.numPatchesBefore = patchesBefore blocks i ∧
        blk.patches.map (fun p => (p.level, p.childid)) = qs.map (fun q => (q.length, childNumber q)) ∧
        blk.numExchange = mirrorsIn mirrors (patchesBefore blocks i) qs.length ∧
        (∀ l, walk (domainNew C P mirrors blocks).next blk.numPatches (blk.head l)
          = some (levelPtrs l i qs)) ∧
        (qs ≠ [] → IsMinLevel qs blk.minlevel ∧ IsMaxLevel qs blk.maxlevel) ∧
        (qs = [] → blk.minlevel = P.possibleMaxlevel ∧ blk.maxlevel = -1) := by
  have hok := domainNew_ok hC P mirrors hsort blocks
  refine ⟨hok.length, ?_⟩
  intro i qs hi
  obtain ⟨blk, hb, h⟩ := hok.blks i qs hi
  refine ⟨blk, hb, h.numPatches, by simpa using h.before, ?_, by simpa using h.nexch, ?_, ?_, ?_⟩
  · apply List.ext_getElem?
    intro j
    simp only [List.getElem?_map]
    exact h.plevel j
  · intro l
    have hc := h.chain l
    simp only [Nat.zero_add] at hc
    exact walk_of_chain _ _ _ _ (by rw [h.numPatches]; exact levelPtrs_length _ _ _) hc
  · intro hne
    obtain ⟨q0, t, rfl⟩ := List.exists_cons_of_ne_nil hne
    obtain ⟨m1, m2, m3⟩ := h.minl
    obtain ⟨x1, x2, x3⟩ := h.maxl
    have hl0 := hlev _ (List.mem_of_getElem? hi) q0 (by simp)
    have hb1 := m1 q0 (by simp)
    have hb2 := x1 q0 (by simp)
    refine ⟨⟨?_, m1⟩, ⟨?_, x1⟩⟩
    · rcases m3 with m3 | m3
      · exact ⟨q0, by simp, by omega⟩
      · exact m3
    · rcases x3 with x3 | x3
      · omega
      · exact x3
  · rintro rfl
    obtain ⟨m1, m2, m3⟩ := h.minl
    obtain ⟨x1, x2, x3⟩ := h.maxl
    exact ⟨by simpa using m3, by simpa using x3⟩

/-- C06, per process: number of local patches and local minimum and maximum level. -/
theorem C06_local (hC : 0 < C) (P : Params) (mirrors : List Nat)
    (hsort : mirrors.Pairwise (· < ·)) (blocks : List (List (Path C)))
    (hlev : ∀ qs ∈ blocks, ∀ q ∈ qs, q.length ≤ P.possibleMaxlevel) :
    let d := domainNew C P mirrors blocks
    d.localNumPatches = blocks.flatten.length ∧
    (blocks.flatten ≠ [] → IsMinLevel blocks.flatten d.localMinlevel ∧
      IsMaxLevel blocks.flatten d.localMaxlevel) ∧
    (blocks.flatten = [] → d.localMinlevel = P.possibleMaxlevel ∧ d.localMaxlevel = -1) := by
  have hok := domainNew_ok hC P mirrors hsort blocks
  obtain ⟨m1, m2, m3⟩ := hok.minl
  obtain ⟨x1, x2, x3⟩ := hok.maxl
  refine ⟨?_, ?_, ?_⟩
  · simp only [domainNew, hok.localNum, List.length_flatten]; simp
  · intro hne
    obtain ⟨q0, t, hq⟩ := List.exists_cons_of_ne_nil hne
    have hmem : q0 ∈ blocks.flatten := by rw [hq]; simp
    obtain ⟨qs0, hqs, hq0⟩ := List.mem_flatten.1 hmem
    have hl0 := hlev qs0 hqs q0 hq0
    have b1 := m1 qs0 hqs q0 hq0
    have b2 := x1 qs0 hqs q0 hq0
    refine ⟨⟨?_, ?_⟩, ⟨?_, ?_⟩⟩
    · rcases m2 with m2 | m2 | ⟨qs, hqs', q, hq', he⟩
      · exact ⟨q0, hmem, by simp only [domainNew]; omega⟩
      · exact ⟨q0, hmem, by simp only [domainNew]; omega⟩
      · exact ⟨q, List.mem_flatten.2 ⟨qs, hqs', hq'⟩, he⟩
    · intro q hq'
      obtain ⟨qs, h1, h2⟩ := List.mem_flatten.1 hq'
      exact m1 qs h1 q h2
    · rcases x2 with x2 | x2 | ⟨qs, hqs', q, hq', he⟩
      · omega
      · omega
      · exact ⟨q, List.mem_flatten.2 ⟨qs, hqs', hq'⟩, he⟩
    · intro q hq'
      obtain ⟨qs, h1, h2⟩ := List.mem_flatten.1 hq'
      exact x1 qs h1 q h2
  · intro hnil
    have hno : ∀ qs ∈ blocks, ∀ q ∈ qs, False := by
      intro qs h1 q h2
      have : q ∈ blocks.flatten := List.mem_flatten.2 ⟨qs, h1, h2⟩
      rw [hnil] at this; simp at this
    simp only [domainNew]
    constructor
    · rcases m2 with m2 | m2 | ⟨qs, hqs', q, hq', he⟩
      · exact m2
      · exact m2
      · exact (hno qs hqs' q hq').elim
    · rcases x2 with x2 | x2 | ⟨qs, hqs', q, hq', he⟩
      · exact x2
      · exact x2
      · exact (hno qs hqs' q hq').elim

/-- C06, over all processes: the global minimum and maximum levels are the true ones of the whole
forest, also if some processes have no patches. `procs` lists (mirrors, local quadrants per block)
of every process. -/
theorem C06_global (hC : 0 < C) (P : Params) (procs : List (List Nat × List (List (Path C))))
    (hsort : ∀ pr ∈ procs, pr.1.Pairwise (· < ·))
    (hlev : ∀ pr ∈ procs, ∀ qs ∈ pr.2, ∀ q ∈ qs, q.length ≤ P.possibleMaxlevel)
    (hne : procs.flatMap (fun pr => pr.2.flatten) ≠ []) :
    let ds := procs.map fun pr => domainNew C P pr.1 pr.2
    IsMinLevel (procs.flatMap (fun pr => pr.2.flatten)) (globalMinlevel ds) ∧
    IsMaxLevel (procs.flatMap (fun pr => pr.2.flatten)) (globalMaxlevel ds) := by
  intro ds
  have hpne : procs ≠ [] := by rintro rfl; simp at hne
  have hdne : ds ≠ [] := by simpa [ds] using hpne
  have hloc : ∀ pr ∈ procs, _ := fun pr hpr => C06_local hC P pr.1 (hsort pr hpr) pr.2 (hlev pr hpr)
  obtain ⟨q0, t, hq⟩ := List.exists_cons_of_ne_nil hne
  have hmem : q0 ∈ procs.flatMap (fun pr => pr.2.flatten) := by rw [hq]; simp
  obtain ⟨pr0, hpr0, hq0⟩ := List.mem_flatMap.1 hmem
  have hne0 : pr0.2.flatten ≠ [] := by intro e; rw [e] at hq0; simp at hq0
  obtain ⟨-, hl0, -⟩ := hloc pr0 hpr0
  obtain ⟨hmin0, hmax0⟩ := hl0 hne0
  have hq0lev : q0.length ≤ P.possibleMaxlevel := by
    obtain ⟨qs, h1, h2⟩ := List.mem_flatten.1 hq0
    exact hlev pr0 hpr0 qs h1 q0 h2
  constructor
  · obtain ⟨h1, h2⟩ := allreduceMin_spec (ds.map (·.localMinlevel)) (by simpa using hdne)
    have hle : ∀ q ∈ procs.flatMap (fun pr => pr.2.flatten), globalMinlevel ds ≤ q.length := by
      intro q hq'
      obtain ⟨pr, hpr, hqp⟩ := List.mem_flatMap.1 hq'
      have hn : pr.2.flatten ≠ [] := by intro e; rw [e] at hqp; simp at hqp
      obtain ⟨-, hl, -⟩ := hloc pr hpr
      have a := (hl hn).1.2 q hqp
      have b := h2 (domainNew C P pr.1 pr.2).localMinlevel
        (by simp only [ds, List.map_map, List.mem_map]; exact ⟨pr, hpr, rfl⟩)
      unfold globalMinlevel; omega
    refine ⟨?_, hle⟩
    simp only [ds, List.map_map, List.mem_map] at h1
    obtain ⟨pr, hpr, he⟩ := h1
    by_cases hn : pr.2.flatten = []
    · obtain ⟨-, -, hz⟩ := hloc pr hpr
      have := (hz hn).1
      refine ⟨q0, hmem, ?_⟩
      have h3 := hle q0 hmem
      unfold globalMinlevel at *
      simp only [ds, List.map_map] at *
      rw [← he] at h3 ⊢
      simp only [Function.comp] at *
      omega
    · obtain ⟨-, hl, -⟩ := hloc pr hpr
      obtain ⟨q, hq1, hq2⟩ := (hl hn).1.1
      refine ⟨q, List.mem_flatMap.2 ⟨pr, hpr, hq1⟩, ?_⟩
      unfold globalMinlevel
      simp only [ds, List.map_map]
      rw [← he]; exact hq2
  · obtain ⟨h1, h2⟩ := allreduceMin_spec (ds.map (fun d => - d.localMaxlevel)) (by simpa using hdne)
    have hle : ∀ q ∈ procs.flatMap (fun pr => pr.2.flatten), (q.length : Int) ≤ globalMaxlevel ds := by
      intro q hq'
      obtain ⟨pr, hpr, hqp⟩ := List.mem_flatMap.1 hq'
      have hn : pr.2.flatten ≠ [] := by intro e; rw [e] at hqp; simp at hqp
      obtain ⟨-, hl, -⟩ := hloc pr hpr
      have a := (hl hn).2.2 q hqp
      have b := h2 (- (domainNew C P pr.1 pr.2).localMaxlevel)
        (by simp only [ds, List.map_map, List.mem_map]; exact ⟨pr, hpr, rfl⟩)
      unfold globalMaxlevel; omega
    refine ⟨?_, hle⟩
    simp only [ds, List.map_map, List.mem_map] at h1
    obtain ⟨pr, hpr, he⟩ := h1
    by_cases hn : pr.2.flatten = []
    · obtain ⟨-, -, hz⟩ := hloc pr hpr
      have := (hz hn).2
      have h3 := hle q0 hmem
      unfold globalMaxlevel at *
      simp only [ds, List.map_map] at *
      rw [← he] at h3
      simp only [Function.comp] at *
      omega
    · obtain ⟨-, hl, -⟩ := hloc pr hpr
      obtain ⟨q, hq1, hq2⟩ := (hl hn).2.1
      refine ⟨q, List.mem_flatMap.2 ⟨pr, hpr, hq1⟩, ?_⟩
      unfold globalMaxlevel
      simp only [ds, List.map_map]
      rw [← he]
      simp only [Function.comp]; omega

/-- C06, parallel boundary: the exchange patches are exactly the mirror patches, in mirror order,
and exactly they carry the parallel boundary flag. -/
theorem C06_exchange (hC : 0 < C) (P : Params) (mirrors : List Nat)
    (hsort : mirrors.Pairwise (· < ·)) (blocks : List (List (Path C)))
    (hrange : ∀ m ∈ mirrors, m < blocks.flatten.length) :
    let d := domainNew C P mirrors blocks
    d.exchangePatches.map (fun p => patchesBefore blocks p.1 + p.2) = mirrors ∧
    ∀ (i j : Nat) (blk : Block) (p : Patch), i < blocks.length → d.blocks[i]? = some blk →
      blk.patches[j]? = some p →
      (p.onParallelBoundary = true ↔ patchesBefore blocks i + j ∈ mirrors) := by
  have hok := domainNew_ok hC P mirrors hsort blocks
  refine ⟨?_, ?_⟩
  · have hex := hok.mir.exch
    simp only [domainNew]
    rw [show (fun p : Ptr => patchesBefore blocks p.1 + p.2) = localNumOf blocks from rfl, hex]
    apply List.take_of_length_le
    by_contra hlt
    have hpos := hok.mir.after mirrors[(blockLoop C P mirrors 0 blocks
        ⟨fun _ => none, fun _ => none, 0, 0, mirrors[0]?, []⟩ P.possibleMaxlevel (-1)).2.1.nm]
      (by
        apply List.mem_of_getElem? (i := 0)
        simp; )
    have h2 := hrange _ (List.getElem_mem (Nat.lt_of_not_le hlt))
    rw [hok.localNum] at hpos
    rw [List.length_flatten] at h2
    simp only [Nat.zero_add] at hpos
    omega
  · intro i j blk p hi hb hp
    obtain ⟨blk', hb', h⟩ := hok.blks i blocks[i] (List.getElem?_eq_getElem hi)
    have : blk' = blk := by
      have h1 : some blk' = some blk := by rw [← hb', ← hb]; rfl
      simpa using h1
    subst this
    simpa using h.pbound j p hp

/-- C07: `iterate_patches` visits every local patch once, in order. -/
theorem C07_iterate_patches (hC : 0 < C) (P : Params) (mirrors : List Nat)
    (hsort : mirrors.Pairwise (· < ·)) (blocks : List (List (Path C))) :
    iteratePatches (domainNew C P mirrors blocks)
      = blocks.zipIdx.flatMap fun e => blockPtrs e.2 e.1 := by
  have hok := domainNew_ok hC P mirrors hsort blocks
  unfold iteratePatches
  refine zip_ok (fun k qs blk => blk.numPatches = qs.length) blocks _ 0 hok.length ?_
    (fun k qs => blockPtrs k qs) (fun k blk => (List.range blk.numPatches).map fun j => (k, j)) ?_
  · intro k qs hk
    obtain ⟨blk, hb, h⟩ := hok.blks k qs hk
    exact ⟨blk, hb, h.numPatches⟩
  · intro k qs blk h; simp [blockPtrs, h]

/-- C07: `iterate_level` terminates and visits exactly the local patches of that level, each once,
in order. -/
theorem C07_iterate_level (hC : 0 < C) (P : Params) (mirrors : List Nat)
    (hsort : mirrors.Pairwise (· < ·)) (blocks : List (List (Path C))) (level : Nat) :
    iterateLevel (domainNew C P mirrors blocks) level
      = some (blocks.zipIdx.flatMap fun e => levelPtrs level e.2 e.1) := by
  have hok := domainNew_ok hC P mirrors hsort blocks
  have hw : ∀ (k : Nat) (qs : List (Path C)), blocks[k]? = some qs →
      ∃ blk, (domainNew C P mirrors blocks).blocks[k]? = some blk ∧
        walk (domainNew C P mirrors blocks).next blk.numPatches (blk.head level)
          = some (levelPtrs level (0 + k) qs) := by
    intro k qs hk
    obtain ⟨blk, hb, h⟩ := hok.blks k qs hk
    refine ⟨blk, hb, walk_of_chain _ _ _ _ (by rw [h.numPatches]; exact levelPtrs_length _ _ _)
      (h.chain level)⟩
  have hlen : (domainNew C P mirrors blocks).blocks.length = blocks.length := hok.length
  unfold iterateLevel
  generalize (domainNew C P mirrors blocks).blocks = bs at *
  generalize (domainNew C P mirrors blocks).next = nx at *
  have gen : ∀ (blocks : List (List (Path C))) (bs : List Block) (o : Nat),
      bs.length = blocks.length →
      (∀ (k : Nat) (qs : List (Path C)), blocks[k]? = some qs → ∃ blk, bs[k]? = some blk ∧
        walk nx blk.numPatches (blk.head level) = some (levelPtrs level (o + k) qs)) →
      concatAll (bs.map fun b => walk nx b.numPatches (b.head level))
        = some ((blocks.zipIdx o).flatMap fun e => levelPtrs level e.2 e.1) := by
    intro blocks
    induction blocks with
    | nil => intro bs o h _; simp at h; subst h; rfl
    | cons qs blocks ih =>
      intro bs o h hw
      cases bs with
      | nil => simp at h
      | cons b bs =>
        obtain ⟨b', hb', hwb⟩ := hw 0 qs rfl
        simp at hb'; subst hb'
        have := ih bs (o + 1) (by simpa using h) (by
          intro k x hx
          obtain ⟨y, hy, hr⟩ := hw (k + 1) x (by simpa using hx)
          exact ⟨y, by simpa using hy, by rw [show o + 1 + k = o + (k + 1) by omega]; exact hr⟩)
        simp [hwb, concatAll, this]
  exact gen blocks bs 0 hlen hw

/-- C07: `iterate_families` visits exactly the positions at which a complete family is stored,
each once, in order. -/
theorem C07_iterate_families (hC : 0 < C) (P : Params) (mirrors : List Nat)
    (hsort : mirrors.Pairwise (· < ·)) (blocks : List (List (Path C))) :
    iterateFamilies C (domainNew C P mirrors blocks)
      = blocks.zipIdx.flatMap fun e =>
          ((List.range e.1.length).filter fun j => decide (FamilyAt e.1 j)).map fun j => (e.2, j) := by
  have hok := domainNew_ok hC P mirrors hsort blocks
  unfold iterateFamilies
  refine zip_ok (fun k qs blk => blk.patches.length = qs.length ∧
      ∀ (j : Nat) (p : Patch), blk.patches[j]? = some p → (p.firstSibling = true ↔ FamilyAt qs j))
    blocks _ 0 hok.length ?_
    (fun k qs => ((List.range qs.length).filter fun j => decide (FamilyAt qs j)).map fun j => (k, j))
    (fun k blk => familyLoop C k 0 blk.patches) ?_
  · intro k qs hk
    obtain ⟨blk, hb, h⟩ := hok.blks k qs hk
    exact ⟨blk, hb, h.plen, h.fam⟩
  · rintro k qs blk ⟨h1, h2⟩
    have := familyLoop_eq hC k qs blk.patches h2 h1 blk.patches.length 0 blk.patches
      (Nat.le_refl _) rfl
    rw [this, h1, Nat.sub_zero, List.range_eq_range']

/-- C07: no patch belongs to two families. -/
theorem C07_families_disjoint (hC : 0 < C) (qs : List (Path C)) (j j' k : Nat)
    (h : FamilyAt qs j) (h' : FamilyAt qs j') (hk : j ≤ k ∧ k < j + C) (hk' : j' ≤ k ∧ k < j' + C) :
    j = j' := by
  rcases Nat.lt_trichotomy j j' with hlt | heq | hlt
  · have := familyAt_disjoint hC qs j j' h h' hlt; omega
  · exact heq
  · have := familyAt_disjoint hC qs j' j h' h hlt; omega

/-- C07: if all children of a quadrant are local leaves of the block, then (p4est storing leaves
in Morton order) they form a family in the above sense, so that `iterate_families` visits them. -/
theorem C07_families_complete (hC : 0 < C) (qs : List (Path C)) (hsort : MortonSorted qs)
    (parent : Path C) (hall : ∀ k : Fin C, parent ++ [k] ∈ qs) :
    ∃ j, FamilyAt qs j ∧ qs[j]? = some (parent ++ [⟨0, hC⟩]) := by
  obtain ⟨j, hj⟩ := List.getElem?_of_mem (hall ⟨0, hC⟩)
  have hcons : ∀ n (hn : n < C), qs[j + n]? = some (parent ++ [⟨n, hn⟩]) := by
    intro n
    induction n with
    | zero => intro _; simpa using hj
    | succ n ih =>
      intro hn
      have hprev := ih (by omega)
      obtain ⟨m, hm⟩ := List.getElem?_of_mem (hall ⟨n + 1, hn⟩)
      obtain ⟨hp1, hp2⟩ := List.getElem?_eq_some_iff.1 hprev
      obtain ⟨hm1, hm2⟩ := List.getElem?_eq_some_iff.1 hm
      have hpw := List.pairwise_iff_getElem.1 hsort
      have hlexlt : List.Lex (· < ·) (parent ++ [(⟨n, by omega⟩ : Fin C)]) (parent ++ [⟨n + 1, hn⟩]) := by
        clear hm hm2 hprev hp2 hpw hall hj ih
        induction parent with
        | nil => exact List.Lex.rel (by simp [Fin.lt_def])
        | cons c p ih => exact List.Lex.cons ih
      have hasym : ∀ (a b : Path C), List.Lex (· < ·) a b → List.Lex (· < ·) b a → False := by
        intro a b h1 h2
        induction h1 with
        | nil => cases h2
        | rel h => cases h2 with
          | rel h' => exact absurd (Fin.lt_trans h h') (Fin.lt_irrefl _)
          | cons _ => exact absurd h (Fin.lt_irrefl _)
        | cons _ ih => cases h2 with
          | rel h' => exact absurd h' (Fin.lt_irrefl _)
          | cons h' => exact ih h'
      have hlt : j + n < m := by
        rcases Nat.lt_trichotomy (j + n) m with h | h | h
        · exact h
        · exfalso
          subst h
          rw [hprev] at hm
          simp at hm
        · exfalso
          have := (hpw m (j + n) hm1 hp1 h).1
          rw [hm2, hp2] at this
          exact hasym _ _ hlexlt this
      have heq : m = j + (n + 1) := by
        by_contra hne
        have h1 := hpw (j + n) (j + (n + 1)) hp1 (by omega) (by omega)
        have h2 := hpw (j + (n + 1)) m (by omega) hm1 (by omega)
        rw [hp2] at h1
        rw [hm2] at h2
        exact h1.2 (lex_between parent _ ⟨n, by omega⟩ ⟨n + 1, hn⟩ rfl h1.1 h2.1)
      rw [← heq]; exact hm
  exact ⟨j, ⟨parent, fun k => hcons k.val k.isLt⟩, hj⟩

/-! Non-vacuity: a 2D block with one refined quadrant (levels 1,2,2,2,2,1,1), second mirror. -/

def sampleBlock : List (Path 4) :=
  [[0], [1, 0], [1, 1], [1, 2], [1, 3], [2], [3]]

example : iterateFamilies 4 (domainNew 4 ⟨29⟩ [1, 5] [sampleBlock, [[]]]) = [(0, 1)] ∧
    iterateLevel (domainNew 4 ⟨29⟩ [1, 5] [sampleBlock, [[]]]) 1 = some [(0, 0), (0, 5), (0, 6)] := by
  rw [C07_iterate_families (by decide) _ _ (by decide), C07_iterate_level (by decide) _ _ (by decide)]
  decide

example : (∀ qs ∈ [sampleBlock, [[]]], ∀ q ∈ qs, q.length ≤ (⟨29⟩ : Params).possibleMaxlevel) ∧
    (∀ m ∈ [1, 5], m < [sampleBlock, [[]]].flatten.length) := by decide

example : MortonSorted sampleBlock ∧ ∀ k : Fin 4, [1] ++ [k] ∈ sampleBlock := by
  refine ⟨?_, by decide⟩
  unfold MortonSorted sampleBlock
  simp only [List.pairwise_cons, List.mem_cons, forall_eq_or_imp, List.not_mem_nil, false_imp_iff,
    implies_true, and_true, List.Pairwise.nil]
  refine ⟨⟨?_, ?_, ?_, ?_, ?_, ?_⟩, ⟨?_, ?_, ?_, ?_, ?_⟩, ⟨?_, ?_, ?_, ?_⟩, ⟨?_, ?_, ?_⟩, ⟨?_, ?_⟩, ?_⟩
  all_goals
    first
    | exact ⟨.rel (by decide), by decide⟩
    | exact ⟨.cons (.rel (by decide)), by decide⟩

end Fclaw.Domain
