/-
C47: gauges are placed in the right block.
-/
import Verif.Gauge.PlaceLemmas
import Verif.Gauge.Spec
import Verif.Brick.Props
import Verif.Search.Props
import Mathlib.Tactic.Linarith
import Mathlib.Tactic.NormNum

set_option autoImplicit false
set_option linter.unusedSimpArgs false
set_option linter.unusedVariables false
namespace Fclaw.Gauge
open Brick (IsBrick InCell InSquare newBrick newBrickConn newBrick_eq c2m)

variable (num mi mj : Nat) (pos : Nat → ℚ × ℚ)

/-- The number of pairs of a block and a gauge in it. -/
def incidences (brick : Option Brick.Ll) (n : Nat) : Nat :=
  ((List.range n).map fun nb => ((List.range num).filter fun i => inBlock brick nb (pos i)).length).sum

theorem incidences_eq (brick : Option Brick.Ll) (n : Nat) : incidences num pos brick n = (entries num brick pos n).length := by
  unfold incidences entries
  rw [List.length_flatMap]
  congr 1
  apply List.map_congr_left
  intro nb _
  simp [hits]

/-- The initialisation leaves the array of coordinates exactly if there are more pairs of blocks and gauges than
gauges. -/
theorem C47_overrun (brick : Option Brick.Ll) (n : Nat) :
    placeBlocks num mi mj brick pos n = .error .index ↔ num < incidences num pos brick n := by
  rw [placeBlocks_eq, incidences_eq]
  by_cases h : (entries num brick pos n).length ≤ num
  · rw [if_pos h]
    constructor
    · intro h'
      cases h'
    · intro h'
      omega
  · rw [if_neg h]
    exact ⟨fun _ => by omega, fun _ => rfl⟩

/-- If all gauges are in some block, and one of them is in two, then the initialisation leaves the array. -/
theorem overrun_of_shared (brick : Option Brick.Ll) (n : Nat)
    (hall : ∀ i, i < num → ∃ b, b < n ∧ inBlock brick b (pos i) = true)
    (i a b : Nat) (hi : i < num) (ha : a < n) (hb : b < n) (hab : a ≠ b)
    (hia : inBlock brick a (pos i) = true) (hib : inBlock brick b (pos i) = true) :
    placeBlocks num mi mj brick pos n = .error .index := by
  rw [C47_overrun, incidences_eq]
  have hall' : ∀ j, ∃ c, j < num → c < n ∧ inBlock brick c (pos j) = true := by
    intro j
    by_cases hj : j < num
    · obtain ⟨c, h⟩ := hall j hj
      exact ⟨c, fun _ => h⟩
    · exact ⟨0, fun h => absurd h hj⟩
  choose f hf using hall'
  -- a block of gauge `i` other than the chosen one
  obtain ⟨o, ho, hio, hof⟩ : ∃ o, o < n ∧ inBlock brick o (pos i) = true ∧ o ≠ f i := by
    by_cases h : a = f i
    · exact ⟨b, hb, hib, fun e => hab (by rw [h, e])⟩
    · exact ⟨a, ha, hia, h⟩
  have hnd : ((o, i) :: (List.range num).map fun j => (f j, j)).Nodup := by
    rw [List.nodup_cons]
    constructor
    · intro hm
      obtain ⟨j, hj, he⟩ := List.mem_map.1 hm
      have h2 := (Prod.mk.inj he).2
      have h1 := (Prod.mk.inj he).1
      subst h2
      exact hof h1.symm
    · exact List.nodup_range.map (fun x y h => (Prod.mk.inj h).2)
  have hsub : ((o, i) :: (List.range num).map fun j => (f j, j)) ⊆ entries num brick pos n := by
    intro e he
    rw [mem_entries]
    rcases List.mem_cons.1 he with rfl | he
    · exact ⟨ho, hi, hio⟩
    · obtain ⟨j, hj, rfl⟩ := List.mem_map.1 he
      have hj := List.mem_range.1 hj
      exact ⟨(hf j hj).1, hj, (hf j hj).2⟩
  have := (hnd.subperm hsub).length_le
  simp only [List.length_cons, List.length_map, List.length_range] at this
  omega

theorem inBlock_iff (conn : Brick.Conn) (px py : Nat → Nat) (hc : IsBrick conn mi mj px py) (b : Nat) (hb : b < conn.numTrees)
    (p : ℚ × ℚ) : inBlock (some (newBrick conn mi mj)) b p = true ↔ InCell mi mj (px b) (py b) p.1 p.2 := by
  rw [newBrick_eq]
  simp only [inBlock, rect, c2m, newBrickConn, hc.x b hb, hc.y b hb, InCell, add_zero, Bool.and_eq_true, decide_eq_true_eq]
  tauto

/-- **C47, negation.** On a brick with several blocks, if all gauges are in the domain and one of them is on an edge
between two blocks, then the initialisation writes behind the array of coordinates. -/
theorem C47_shared_edge_counterexample (conn : Brick.Conn) (px py : Nat → Nat) (hc : IsBrick conn mi mj px py)
    (hmi : 0 < mi) (hmj : 0 < mj) (hdom : ∀ i, i < num → InSquare (pos i).1 (pos i).2)
    (i a b : Nat) (hi : i < num) (ha : a < conn.numTrees) (hb : b < conn.numTrees) (hab : a ≠ b)
    (hia : InCell mi mj (px a) (py a) (pos i).1 (pos i).2) (hib : InCell mi mj (px b) (py b) (pos i).1 (pos i).2) :
    placeBlocks num mi mj (some (newBrick conn mi mj)) pos conn.numTrees = .error .index := by
  refine overrun_of_shared num mi mj pos _ _ ?_ i a b hi ha hb hab
    ((inBlock_iff mi mj conn px py hc a ha _).2 hia) ((inBlock_iff mi mj conn px py hc b hb _).2 hib)
  intro j hj
  have h54 := Brick.C54 conn mi mj px py hc _ (Or.inl rfl)
  obtain ⟨k, x, y, hk, hxy, he⟩ := h54.2.2.2.1 hmi hmj _ _ (hdom j hj)
  exact ⟨k, hk, (inBlock_iff mi mj conn px py hc k hk _).2 ((h54.1 k hk _ _).2 ⟨x, y, hxy, he⟩)⟩

/-- Two blocks side by side and one gauge in the middle of the domain. -/
theorem C47_middle_counterexample :
    placeBlocks 1 2 1 (some (newBrick Brick.exConn 2 1)) (fun _ => (1/2, 1/2)) 2 = .error .index := by
  rw [C47_overrun]
  decide +kernel

/-- **C47, negation.** On a mapping with several blocks that is not a brick, every block counts as the whole unit square, and one
gauge in it is enough. -/
theorem C47_not_brick_counterexample (n : Nat) (hn : 2 ≤ n) (hnum : 0 < num)
    (hdom : ∀ i, i < num → InSquare (pos i).1 (pos i).2) : placeBlocks num mi mj none pos n = .error .index := by
  have h : ∀ i, i < num → ∀ b, inBlock none b (pos i) = true := by
    intro i hi b
    obtain ⟨h1, h2, h3, h4⟩ := hdom i hi
    simp [inBlock, rect, h1, h2, h3, h4]
  exact overrun_of_shared num mi mj pos none n (fun i hi => ⟨0, by omega, h i hi 0⟩) 0 0 1 hnum (by omega) (by omega)
    (by omega) (h 0 hnum 0) (h 0 hnum 1)

/-- **C47, negation.** A gauge that is in no block, being outside of the domain, is looked up at index -1 of the results of the search. -/
theorem C47_outside_counterexample (brick : Option Brick.Ll) (n i : Nat) (hout : ∀ b, b < n → inBlock brick b (pos i) = false)
    (hnd : ((entries num brick pos n).map Prod.snd).Nodup) (s : Pl)
    (hs : placeBlocks num mi mj brick pos n = .ok s) (results : Nat → Int) :
    s.location i = -1 ∧ lookup num s results i = .error .index := by
  rw [placeBlocks_eq] at hs
  split at hs
  · cases hs
    have : (placed num mi mj brick pos n).location i = -1 := by
      refine (writes_spec mi mj brick pos _ hnd).2 i ?_
      intro hm
      obtain ⟨e, he, rfl⟩ := List.mem_map.1 hm
      rw [mem_entries] at he
      rw [hout e.1 he.1] at he
      simp at he
    refine ⟨this, ?_⟩
    simp [lookup, this]
  · cases hs

/-- A gauge at (2, 2) with the domain being the unit square. -/
example : ∃ s, placeBlocks 1 1 1 none (fun _ => (2, 2)) 1 = .ok s ∧ ∀ results, lookup 1 s results 0 = .error .index := by
  have h : placeBlocks 1 1 1 none (fun _ => (2, 2)) 1 = .ok (placed 1 1 1 none (fun _ => (2, 2)) 1) := by
    rw [placeBlocks_eq, if_pos (by decide +kernel)]
  exact ⟨_, h, fun results => (C47_outside_counterexample 1 1 1 _ none 1 0 (by decide +kernel) (by decide +kernel) _ h results).2⟩

/-- What shall hold after the initialisation: gauge `i` has a block `b` and coordinates in the unit square of that block that are those of
its position; the search gets the gauge in the section of block `b`; and different gauges get different places. -/
structure Placed (n : Nat) (map : Nat → ℚ → ℚ → ℚ × ℚ × ℚ) (s : Pl) : Prop where
  mono : (0 :: s.offsets).Pairwise (· ≤ ·)
  each : ∀ i, i < num → ∃ b k lo hi, b < n ∧ s.blockno i = (b : Nat) ∧ s.location i = (k : Nat) ∧ k < num ∧
    (0 :: s.offsets)[b]? = some lo ∧ s.offsets[b]? = some hi ∧ lo ≤ k ∧ k < hi ∧
    InSquare (s.coords k).1 (s.coords k).2 ∧ map b (s.coords k).1 (s.coords k).2 = ((pos i).1, (pos i).2, 0)
  inj : ∀ i j, i < num → j < num → s.location i = s.location j → i = j

theorem placed_ok (brick : Option Brick.Ll) (n : Nat)
    (huniq : ∀ i, i < num → ∃ b, b < n ∧ inBlock brick b (pos i) = true ∧ ∀ b', b' < n → inBlock brick b' (pos i) = true → b' = b)
    (map : Nat → ℚ → ℚ → ℚ × ℚ × ℚ)
    (hmap : ∀ b i, b < n → i < num → inBlock brick b (pos i) = true →
      let c := (mi * ((pos i).1 - (rect brick b).1.1), mj * ((pos i).2 - (rect brick b).1.2));
      InSquare c.1 c.2 ∧ map b c.1 c.2 = ((pos i).1, (pos i).2, 0)) :
    ∃ s, placeBlocks num mi mj brick pos n = .ok s ∧ Placed num pos n map s := by
  have hsnd : ((entries num brick pos n).map Prod.snd).Nodup := by
    refine (List.nodup_map_iff_inj_on (entries_nodup num brick pos n)).2 ?_
    intro e he e' he' h
    rw [mem_entries] at he he'
    obtain ⟨b, -, -, hu⟩ := huniq e.2 he.2.1
    have h1 := hu e.1 he.1 he.2.2
    have h2 := hu e'.1 he'.1 (by rw [h]; exact he'.2.2)
    exact Prod.ext (by rw [h1, h2]) h
  have hlen : (entries num brick pos n).length ≤ num := by
    have hsub : (entries num brick pos n).map Prod.snd ⊆ List.range num := by
      intro i hi
      obtain ⟨e, he, rfl⟩ := List.mem_map.1 hi
      exact List.mem_range.2 ((mem_entries num brick pos n e).1 he).2.1
    have := (hsnd.subperm hsub).length_le
    simpa using this
  refine ⟨placed num mi mj brick pos n, by rw [placeBlocks_eq, if_pos hlen], ?_⟩
  have hw := (writes_spec mi mj brick pos _ hsnd).1
  have hoff : ∀ b, b ≤ n → (0 :: (placed num mi mj brick pos n).offsets)[b]? = some (entries num brick pos b).length := by
    intro b hb
    cases b with
    | zero => simp [entries]
    | succ b =>
      simp only [List.getElem?_cons_succ, placed]
      rw [List.getElem?_map, List.getElem?_range (by omega)]
      rfl
  have hplace : ∀ i, i < num → ∃ b k, b < n ∧ inBlock brick b (pos i) = true ∧ (entries num brick pos b).length ≤ k ∧
      k < (entries num brick pos (b + 1)).length ∧ (entries num brick pos n)[k]? = some (b, i) := by
    intro i hi
    obtain ⟨b, hb, hin, -⟩ := huniq i hi
    have hm : (b, i) ∈ hits brick pos b num := (mem_hits brick pos b num _).2 ⟨rfl, hi, hin⟩
    obtain ⟨j, hj, hjv⟩ := List.getElem_of_mem hm
    obtain ⟨r, hr⟩ := entries_mono num brick pos (b + 1) n hb
    refine ⟨b, (entries num brick pos b).length + j, hb, hin, by omega, ?_, ?_⟩
    · rw [entries_succ, List.length_append]
      omega
    · rw [hr, entries_succ, List.append_assoc, List.getElem?_append_right (by omega), Nat.add_sub_cancel_left,
        List.getElem?_append_left hj, List.getElem?_eq_getElem hj, hjv]
  constructor
  · rw [List.pairwise_cons]
    refine ⟨fun _ _ => Nat.zero_le _, ?_⟩
    show ((List.range n).map fun b => (entries num brick pos (b + 1)).length).Pairwise (· ≤ ·)
    rw [List.pairwise_map]
    refine List.pairwise_lt_range.imp ?_
    intro a b hab
    obtain ⟨r, hr⟩ := entries_mono num brick pos (a + 1) (b + 1) (by omega)
    rw [hr, List.length_append]
    omega
  · intro i hi
    obtain ⟨b, k, hb, hin, h1, h2, h3⟩ := hplace i hi
    obtain ⟨w1, w2, w3⟩ := hw k (b, i) h3
    have hkn : k < num := lt_of_lt_of_le (List.getElem?_eq_some_iff.1 h3).1 hlen
    refine ⟨b, k, _, _, hb, w2, w1, hkn, hoff b (by omega), ?_, h1, h2, ?_⟩
    · have := hoff (b + 1) hb
      rw [List.getElem?_cons_succ] at this
      exact this
    · have h := hmap b i hb hi hin
      have hco : (placed num mi mj brick pos n).coords k =
          (mi * ((pos i).1 - (rect brick b).1.1), mj * ((pos i).2 - (rect brick b).1.2)) := w3
      rw [hco]
      exact h
  · intro i j hi hj he
    obtain ⟨b, k, -, -, -, -, h3⟩ := hplace i hi
    obtain ⟨b', k', -, -, -, -, h3'⟩ := hplace j hj
    have e1 : (placed num mi mj brick pos n).location i = k := (hw k (b, i) h3).1
    have e2 : (placed num mi mj brick pos n).location j = k' := (hw k' (b', j) h3').1
    rw [e1, e2] at he
    have : k = k' := by exact_mod_cast he
    subst this
    rw [h3] at h3'
    exact (Prod.mk.inj (Option.some.inj h3')).2

/-- **C47**, for gauges that lie in the domain and not on an edge shared by blocks of a brick. The full property asks for any
position of gauges; it fails for gauges on shared edges and outside (above). -/
theorem C47_partial (conn : Brick.Conn) (px py : Nat → Nat) (hc : IsBrick conn mi mj px py)
    (hin : ∀ i, i < num → ∃ b, b < conn.numTrees ∧ InCell mi mj (px b) (py b) (pos i).1 (pos i).2 ∧
      ∀ b', b' < conn.numTrees → InCell mi mj (px b') (py b') (pos i).1 (pos i).2 → b' = b) :
    ∃ s, placeBlocks num mi mj (some (newBrick conn mi mj)) pos conn.numTrees = .ok s ∧
      Placed num pos conn.numTrees (c2m (newBrick conn mi mj)) s := by
  refine placed_ok num mi mj pos _ _ ?_ _ ?_
  · intro i hi
    obtain ⟨b, hb, h1, h2⟩ := hin i hi
    exact ⟨b, hb, (inBlock_iff mi mj conn px py hc b hb _).2 h1,
      fun b' hb' h => h2 b' hb' ((inBlock_iff mi mj conn px py hc b' hb' _).1 h)⟩
  · intro b i hb hi h
    obtain ⟨h1, h2, h3, h4⟩ := (inBlock_iff mi mj conn px py hc b hb _).1 h
    have hmi : (0 : ℚ) < mi := by have := hc.xlt b hb; exact_mod_cast (by omega : 0 < mi)
    have hmj : (0 : ℚ) < mj := by have := hc.ylt b hb; exact_mod_cast (by omega : 0 < mj)
    rw [newBrick_eq]
    simp only [rect, c2m, newBrickConn, hc.x b hb, hc.y b hb, add_zero, InSquare]
    rw [div_le_iff₀ hmi] at h1
    rw [le_div_iff₀ hmi] at h2
    rw [div_le_iff₀ hmj] at h3
    rw [le_div_iff₀ hmj] at h4
    have e1 : (mi : ℚ) * ((pos i).1 - (px b : ℚ) / mi) = (pos i).1 * mi - px b := by
      field_simp
    have e2 : (mj : ℚ) * ((pos i).2 - (py b : ℚ) / mj) = (pos i).2 * mj - py b := by
      field_simp
    rw [e1, e2]
    refine ⟨⟨by linarith, by linarith, by linarith, by linarith⟩, ?_⟩
    refine Prod.ext ?_ (Prod.ext ?_ rfl)
    · dsimp only
      field_simp
      ring
    · dsimp only
      field_simp
      ring

/-- On a single block without a brick the coordinates are the positions. -/
theorem C47_single_block_partial (hin : ∀ i, i < num → InSquare (pos i).1 (pos i).2) :
    ∃ s, placeBlocks num 1 1 none pos 1 = .ok s ∧ Placed num pos 1 (fun _ x y => (x, y, 0)) s := by
  refine placed_ok num 1 1 pos none 1 ?_ _ ?_
  · intro i hi
    obtain ⟨h1, h2, h3, h4⟩ := hin i hi
    exact ⟨0, by omega, by simp [inBlock, rect, h1, h2, h3, h4], fun b' hb' _ => by omega⟩
  · intro b i hb hi h
    obtain ⟨h1, h2, h3, h4⟩ := hin i hi
    simp [rect, InSquare, h1, h2, h3, h4]

/-- The point of the search for place `k`. -/
def point (s : Pl) (k : Nat) : Fin 2 → ℚ := fun d => if d = 0 then (s.coords k).1 else (s.coords k).2

/-- Together with the search (C17): if gauges are placed, every process gets a patch number for every gauge; a process gets
patch `p` exactly if its patch `p` in the block of the gauge contains the gauge, no smaller rank has such a patch, and no smaller patch number
will do. In particular at most one process has the gauge (the assumption of C45), and exactly one if some patch contains it. -/
theorem C47_found (n : Nat) (map : Nat → ℚ → ℚ → ℚ × ℚ × ℚ) (s : Pl) (hs : Placed num pos n map s)
    (M : Nat) (W : List (Search.Proc 2)) (hW : ∀ P ∈ W, P.Ok M) (i : Nat) (hi : i < num) :
    ∃ (b : Nat) (x : Fin 2 → ℚ) (patchno : Nat → Int), b < n ∧ s.blockno i = (b : Nat) ∧ InSquare (x 0) (x 1) ∧
      map b (x 0) (x 1) = ((pos i).1, (pos i).2, 0) ∧
      (∀ r, r < W.length → lookup num s (Search.searchPoints M W s.offsets (point s) r) i = .ok (patchno r)) ∧
      (∀ r, r < W.length → ∀ p : Nat, patchno r = p ↔ Search.PatchHas M W r b p x ∧
        (∀ p', Search.PatchHas M W r b p' x → p ≤ p') ∧ ∀ r' p', Search.PatchHas M W r' b p' x → r ≤ r') ∧
      Unique W.length patchno ∧
      ((∃ r p, Search.PatchHas M W r b p x) → ∃ r, r < W.length ∧ 0 ≤ patchno r) := by
  obtain ⟨b, k, lo, hi', hb, h1, h2, h3, h4, h5, h6, h7, h8, h9⟩ := hs.each i hi
  have key := fun r hr => Search.C17_search_points M W hW s.offsets hs.mono (point s) b k lo hi' h4 h5 ⟨h6, h7⟩ r hr
  refine ⟨b, point s k, fun r => Search.searchPoints M W s.offsets (point s) r k, hb, h1, h8, h9, ?_, ?_, ?_, ?_⟩
  · intro r hr
    simp [lookup, h2, h3]
  · intro r hr p
    exact (key r hr).1 p
  · intro r r' hr hr' h0 h0'
    dsimp only at h0 h0'
    rcases (key r hr).2 with e | ⟨p, hp⟩
    · omega
    rcases (key r' hr').2 with e | ⟨p', hp'⟩
    · omega
    have a := ((key r hr).1 p).1 hp
    have a' := ((key r' hr').1 p').1 hp'
    exact Nat.le_antisymm (a.2.2 r' p' a'.1) (a'.2.2 r p a.1)
  · rintro ⟨r, p, hp⟩
    classical
    have hex : ∃ r p, Search.PatchHas M W r b p (point s k) := ⟨r, p, hp⟩
    have hex2 := Nat.find_spec hex
    have hrl : Nat.find hex < W.length := by
      obtain ⟨p', P, qs, q, hP, -⟩ := hex2
      exact (List.getElem?_eq_some_iff.1 hP).1
    refine ⟨Nat.find hex, hrl, ?_⟩
    have := ((key _ hrl).1 (Nat.find hex2)).2 ⟨Nat.find_spec hex2, fun p' h' => Nat.find_min' hex2 h',
      fun r' p' h' => Nat.find_min' hex ⟨p', h'⟩⟩
    dsimp only
    omega

/-- The hypotheses of `C47_partial` hold for two gauges in a brick of two blocks, one in each. -/
example (i : Nat) (hi : i < 2) : ∃ b, b < Brick.exConn.numTrees ∧
    InCell 2 1 (1 - b) 0 (if i = 0 then (1/4 : ℚ) else 3/4) (1/2) ∧
    ∀ b', b' < Brick.exConn.numTrees → InCell 2 1 (1 - b') 0 (if i = 0 then (1/4 : ℚ) else 3/4) (1/2) → b' = b := by
  have hn : Brick.exConn.numTrees = 2 := rfl
  rw [hn]
  interval_cases i
  · refine ⟨1, by omega, by norm_num [InCell], ?_⟩
    intro b' hb' h
    interval_cases b'
    · exfalso
      norm_num [InCell] at h
    · rfl
  · refine ⟨0, by omega, by norm_num [InCell], ?_⟩
    intro b' hb' h
    interval_cases b'
    · rfl
    · exfalso
      norm_num [InCell] at h

end Fclaw.Gauge
