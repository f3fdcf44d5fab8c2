import Verif.Domain.Lemmas
/- Helper lemmas for properties C06 and C07: the loop over blocks. -/
set_option autoImplicit false
namespace Fclaw.Domain

variable {C : Nat}

theorem count_take (mirrors : List Nat) (nm n : Nat) (hle : nm ≤ mirrors.length)
    (before : ∀ m ∈ mirrors.take nm, m < n) (after : ∀ m ∈ mirrors.drop nm, n ≤ m) :
    mirrors.countP (fun m => decide (m < n)) = nm := by
  conv => lhs; rw [← List.take_append_drop nm mirrors]
  rw [List.countP_append, List.countP_eq_length.2 (by simpa using before),
    List.countP_eq_zero.2 (by simpa using after), List.length_take]
  omega

theorem count_split (mirrors : List Nat) (base n : Nat) :
    mirrors.countP (fun m => decide (m < base + n))
      = mirrors.countP (fun m => decide (m < base)) + mirrorsIn mirrors base n := by
  unfold mirrorsIn
  induction mirrors with
  | nil => rfl
  | cons a t ih =>
    simp only [List.countP_cons, ih, decide_eq_true_eq]
    split <;> split <;> split <;> omega

/-- Everything `fclaw2d_domain_new` guarantees about one block. -/
structure BlockOk (P : Params) (mirrors : List Nat) (i base : Nat) (qs : List (Path C))
    (next : Ptr → Option Ptr) (blk : Block) : Prop where
  numPatches : blk.numPatches = qs.length
  before : blk.numPatchesBefore = base
  chain : ∀ l, Chain next (blk.head l) (levelPtrs l i qs)
  plen : blk.patches.length = qs.length
  plevel : ∀ j : Nat, (blk.patches[j]?).map (fun p => (p.level, p.childid))
    = (qs[j]?).map (fun q => (q.length, childNumber q))
  nexch : blk.numExchange = mirrorsIn mirrors base qs.length
  pbound : ∀ (j : Nat) (p : Patch), blk.patches[j]? = some p →
    (p.onParallelBoundary = true ↔ base + j ∈ mirrors)
  fam : ∀ (j : Nat) (p : Patch), blk.patches[j]? = some p → (p.firstSibling = true ↔ FamilyAt qs j)
  minl : (∀ q ∈ qs, blk.minlevel ≤ q.length) ∧ blk.minlevel ≤ P.possibleMaxlevel ∧
    (blk.minlevel = P.possibleMaxlevel ∨ ∃ q ∈ qs, (q.length : Int) = blk.minlevel)
  maxl : (∀ q ∈ qs, (q.length : Int) ≤ blk.maxlevel) ∧ -1 ≤ blk.maxlevel ∧
    (blk.maxlevel = -1 ∨ ∃ q ∈ qs, (q.length : Int) = blk.maxlevel)

/-- State of the mirror search. -/
structure MirrorInv (mirrors : List Nat) (num : Ptr → Nat) (s : St) : Prop where
  mirror : s.mirrorNum = mirrors[s.nm]?
  before : ∀ m ∈ mirrors.take s.nm, m < s.localNum
  after : ∀ m ∈ mirrors.drop s.nm, s.localNum ≤ m
  exch : s.exchange.map num = mirrors.take s.nm
  nmle : s.nm ≤ mirrors.length

structure LoopOk (P : Params) (mirrors : List Nat) (num : Ptr → Nat) (i : Nat)
    (blocks : List (List (Path C))) (s : St) (lmin lmax : Int)
    (r : List Block × St × Int × Int) : Prop where
  length : r.1.length = blocks.length
  localNum : r.2.1.localNum = s.localNum + (blocks.map List.length).sum
  mir : MirrorInv mirrors num r.2.1
  frame : ∀ p, p.1 < i → r.2.1.next p = s.next p
  blks : ∀ (k : Nat) (qs : List (Path C)), blocks[k]? = some qs → ∃ blk, r.1[k]? = some blk ∧
    BlockOk P mirrors (i + k) (s.localNum + patchesBefore blocks k) qs r.2.1.next blk
  minl : (∀ qs ∈ blocks, ∀ q ∈ qs, r.2.2.1 ≤ q.length) ∧
    (r.2.2.1 = lmin ∨ r.2.2.1 = P.possibleMaxlevel ∨ ∃ qs ∈ blocks, ∃ q ∈ qs, (q.length : Int) = r.2.2.1) ∧
    r.2.2.1 ≤ lmin
  maxl : (∀ qs ∈ blocks, ∀ q ∈ qs, (q.length : Int) ≤ r.2.2.2) ∧
    (r.2.2.2 = lmax ∨ r.2.2.2 = -1 ∨ ∃ qs ∈ blocks, ∃ q ∈ qs, (q.length : Int) = r.2.2.2) ∧
    lmax ≤ r.2.2.2

theorem blockLoop_ok (hC : 0 < C) (P : Params) (mirrors : List Nat)
    (hsort : mirrors.Pairwise (· < ·)) (num : Ptr → Nat) (blocks : List (List (Path C))) :
    ∀ (i : Nat) (s : St) (lmin lmax : Int),
    (∀ k j, num (i + k, j) = s.localNum + patchesBefore blocks k + j) →
    (∀ p, i ≤ p.1 → s.next p = none) →
    MirrorInv mirrors num s →
    LoopOk P mirrors num i blocks s lmin lmax (blockLoop C P mirrors i blocks s lmin lmax) := by
  induction blocks with
  | nil =>
    intro i s lmin lmax _ _ hm
    refine ⟨rfl, by simp [blockLoop], hm, fun _ _ => rfl, by simp, ?_, ?_⟩
    · simp [blockLoop]
    · simp [blockLoop]
  | cons qs more ih =>
    intro i s lmin lmax hnum hnext hm
    -- the first block
    have hlink := link_loop mirrors i qs.length s.next qs [] s
      ⟨fun _ => none, [], P.possibleMaxlevel, -1⟩
      ⟨fun l => by simp [levelPtrs, Chain], fun l p h => by simp [levelPtrs] at h,
       fun p h1 _ => hnext p (by omega), fun _ _ => rfl⟩
    have hnumI := num_loop mirrors hsort num i qs.length s.localNum P.possibleMaxlevel qs [] s
      ⟨fun _ => none, [], P.possibleMaxlevel, -1⟩
      (fun j => by have := hnum 0 j; simpa [patchesBefore] using this)
      ⟨by simp, hm.mirror, hm.before, hm.after, hm.exch, hm.nmle, by simp, by simp, rfl,
        by simp, by simp⟩
    have hfam := fam_loop hC mirrors i qs qs [] s ⟨fun _ => none, [], P.possibleMaxlevel, -1⟩
      (by simp) rfl (by simp)
    simp only [List.nil_append, List.length_nil] at hlink hnumI hfam
    simp only [blockLoop]
    generalize hr : patchLoop C mirrors i qs.length 0 qs s ⟨fun _ => none, [], P.possibleMaxlevel, -1⟩
      = r at hlink hnumI hfam
    -- the other blocks
    have hrest := ih (i + 1) r.1 (min lmin r.2.minlevel) (max lmax r.2.maxlevel)
      (fun k j => by
        have := hnum (k + 1) j
        rw [show i + 1 + k = i + (k + 1) by omega, this, hnumI.localNum]
        simp [patchesBefore]; omega)
      (fun p hp => by
        rw [hlink.frame p (by omega)]; exact hnext p (by omega))
      ⟨hnumI.mirror, hnumI.before, hnumI.after, hnumI.exch, hnumI.nmle⟩
    generalize blockLoop C P mirrors (i + 1) more r.1 (min lmin r.2.minlevel) (max lmax r.2.maxlevel)
      = t at hrest
    refine ⟨?_, ?_, hrest.mir, ?_, ?_, ?_, ?_⟩
    · simp [hrest.length]
    · rw [hrest.localNum, hnumI.localNum]; simp; omega
    · intro p hp
      rw [hrest.frame p (by omega), hlink.frame p (by omega)]
    · intro k qs' hk
      cases k with
      | zero =>
        simp at hk; subst hk
        refine ⟨_, rfl, ?_⟩
        refine ⟨rfl, by simp [patchesBefore], ?_, hnumI.plen, hnumI.plevel, ?_, ?_, hfam,
          hnumI.minl, hnumI.maxl⟩
        · intro l
          refine chain_congr _ _ _ _ ?_ (hlink.chain l)
          intro p hp
          have := (levelPtrs_mem _ _ _ _ hp).1
          exact (hrest.frame p (by omega)).symm
        · have e1 := count_take mirrors s.nm s.localNum hm.nmle hm.before hm.after
          have e2 := count_take mirrors r.1.nm r.1.localNum hnumI.nmle hnumI.before hnumI.after
          have e3 := count_split mirrors s.localNum qs.length
          rw [hnumI.localNum] at e2
          simp only [mirrorsIn, patchesBefore, List.take_zero, List.map_nil, List.sum_nil,
            Nat.add_zero]
          unfold mirrorsIn at e3
          omega
        · intro j p hp
          have := hnumI.pbound j p hp
          simpa [patchesBefore] using this
      | succ k =>
        obtain ⟨blk, hb, hok⟩ := hrest.blks k qs' (by simpa using hk)
        refine ⟨blk, by simpa using hb, ?_⟩
        have e1 : i + 1 + k = i + (k + 1) := by omega
        have e2 : r.1.localNum + patchesBefore more k = s.localNum + patchesBefore (qs :: more) (k + 1) := by
          rw [hnumI.localNum]; simp [patchesBefore]; omega
        rw [e1, e2] at hok
        exact hok
    · simp only
      obtain ⟨h1, h2, h3⟩ := hrest.minl
      obtain ⟨g1, g2, g3⟩ := hnumI.minl
      refine ⟨?_, ?_, by omega⟩
      · intro x hx q hq
        rcases List.mem_cons.1 hx with rfl | hx
        · have := g1 q hq; omega
        · exact h1 x hx q hq
      · rcases h2 with h2 | h2 | ⟨x, hx, q, hq, he⟩
        · rcases Int.le_total lmin r.2.minlevel with hle | hle
          · left; clear g3; omega
          · rcases g3 with g3 | ⟨q, hq, he⟩
            · right; left; omega
            · right; right
              exact ⟨qs, by simp, q, hq, by omega⟩
        · right; left; exact h2
        · right; right; exact ⟨x, by simp [hx], q, hq, he⟩
    · simp only
      obtain ⟨h1, h2, h3⟩ := hrest.maxl
      obtain ⟨g1, g2, g3⟩ := hnumI.maxl
      refine ⟨?_, ?_, by omega⟩
      · intro x hx q hq
        rcases List.mem_cons.1 hx with rfl | hx
        · have := g1 q hq; omega
        · exact h1 x hx q hq
      · rcases h2 with h2 | h2 | ⟨x, hx, q, hq, he⟩
        · rcases Int.le_total r.2.maxlevel lmax with hle | hle
          · left; clear g3; omega
          · rcases g3 with g3 | ⟨q, hq, he⟩
            · right; left; omega
            · right; right
              exact ⟨qs, by simp, q, hq, by omega⟩
        · right; left; exact h2
        · right; right; exact ⟨x, by simp [hx], q, hq, he⟩

/-- The local number of a patch. -/
def localNumOf (blocks : List (List (Path C))) (p : Ptr) : Nat := patchesBefore blocks p.1 + p.2

theorem domainNew_ok (hC : 0 < C) (P : Params) (mirrors : List Nat)
    (hsort : mirrors.Pairwise (· < ·)) (blocks : List (List (Path C))) :
    LoopOk P mirrors (localNumOf blocks) 0 blocks
      ⟨fun _ => none, fun _ => none, 0, 0, mirrors[0]?, []⟩ P.possibleMaxlevel (-1)
      (blockLoop C P mirrors 0 blocks
        ⟨fun _ => none, fun _ => none, 0, 0, mirrors[0]?, []⟩ P.possibleMaxlevel (-1)) := by
  apply blockLoop_ok hC P mirrors hsort
  · intro k j; simp [localNumOf]
  · intro p _; rfl
  · exact ⟨rfl, by simp, by simp, by simp, by simp⟩

theorem concatAll_map {α : Type} (f : α → Option (List Ptr)) (g : α → List Ptr) (l : List α)
    (h : ∀ a ∈ l, f a = some (g a)) : concatAll (l.map f) = some (l.flatMap g) := by
  induction l with
  | nil => rfl
  | cons a l ih =>
    simp [h a (by simp), concatAll, ih (fun b hb => h b (by simp [hb]))]

theorem zip_ok {α β : Type} (R : Nat → α → β → Prop) (as : List α) :
    ∀ (bs : List β) (o : Nat), bs.length = as.length →
    (∀ k a, as[k]? = some a → ∃ b, bs[k]? = some b ∧ R (o + k) a b) →
    ∀ {γ : Type} (f : Nat → α → List γ) (g : Nat → β → List γ),
      (∀ k a b, R k a b → f k a = g k b) →
      (bs.zipIdx o).flatMap (fun e => g e.2 e.1) = (as.zipIdx o).flatMap (fun e => f e.2 e.1) := by
  induction as with
  | nil => intro bs o hl _ γ f g _; simp at hl; subst hl; rfl
  | cons a as ih =>
    intro bs o hl h γ f g hfg
    cases bs with
    | nil => simp at hl
    | cons b bs =>
      simp only [List.zipIdx_cons, List.flatMap_cons]
      obtain ⟨b', hb', hr⟩ := h 0 a rfl
      simp at hb'; subst hb'
      have hr' := hfg _ _ _ hr
      simp only [Nat.add_zero] at hr'
      rw [hr']
      congr 1
      refine ih bs (o + 1) (by simpa using hl) ?_ f g hfg
      intro k x hx
      obtain ⟨y, hy, hr⟩ := h (k + 1) x (by simpa using hx)
      exact ⟨y, by simpa using hy, by rw [show o + 1 + k = o + (k + 1) by omega]; exact hr⟩

theorem familyAt_disjoint (hC : 0 < C) (qs : List (Path C)) (j j' : Nat) (h : FamilyAt qs j)
    (h' : FamilyAt qs j') (hlt : j < j') : j + C ≤ j' := by
  by_contra hc
  obtain ⟨p, hp⟩ := h
  obtain ⟨p', hp'⟩ := h'
  have h1 := hp ⟨j' - j, by omega⟩
  have h2 := hp' ⟨0, hC⟩
  simp only at h1 h2
  rw [show j + (j' - j) = j' + 0 by omega, h2] at h1
  have h3 := congrArg (Option.map List.getLast?) h1
  simp at h3
  omega

theorem familyAt_bound (hC : 0 < C) (qs : List (Path C)) (j : Nat) (h : FamilyAt qs j) :
    j + C ≤ qs.length := by
  obtain ⟨p, hp⟩ := h
  have := (List.getElem?_eq_some_iff.1 (hp ⟨C - 1, by omega⟩)).1
  simp only at this; omega

instance (qs : List (Path C)) (j : Nat) : Decidable (FamilyAt qs j) :=
  if hC : 0 < C then decidable_of_iff _ (isFamilyv_iff hC qs j)
  else isTrue ⟨[], fun k => absurd k.isLt (by omega)⟩

theorem familyLoop_eq (hC : 0 < C) (i : Nat) (qs : List (Path C)) (all : List Patch)
    (hfam : ∀ (j : Nat) (p : Patch), all[j]? = some p → (p.firstSibling = true ↔ FamilyAt qs j))
    (hlen : all.length = qs.length) :
    ∀ (n j : Nat) (ps : List Patch), ps.length ≤ n → ps = all.drop j →
      (familyLoop C i j ps) =
        (((List.range' j (all.length - j)).filter fun k => decide (FamilyAt qs k)).map fun k => (i, k)) := by
  intro n
  induction n with
  | zero =>
    intro j ps hn hps
    have : ps = [] := by simpa using hn
    subst this
    have : all.length - j = 0 := by
      have := congrArg List.length hps; simpa using this.symm
    unfold familyLoop; simp [this]
  | succ n ih =>
    intro j ps hn hps
    cases hp : ps with
    | nil =>
      have : all.length - j = 0 := by
        have := congrArg List.length hps; rw [hp] at this; simpa using this.symm
      unfold familyLoop; simp [this]
    | cons p rest =>
      have hj : all[j]? = some p := by
        have : (all.drop j)[0]? = some p := by rw [← hps, hp]; rfl
        simpa using this
      have hjl : j < all.length := (List.getElem?_eq_some_iff.1 hj).1
      have hrest : rest = all.drop (j + 1) := by
        have := congrArg List.tail hps; rw [hp] at this; simpa using this
      unfold familyLoop
      rw [show all.length - j = (all.length - (j + 1)) + 1 by omega, List.range'_succ]
      rw [hp] at hn
      by_cases hf : p.firstSibling = true
      · have hF := (hfam j p hj).1 hf
        have hbound := familyAt_bound hC qs j hF
        simp only [hf, ↓reduceIte, List.filter_cons, hF, decide_true, List.map_cons]
        congr 1
        rw [ih (j + 1 + (C - 1)) (rest.drop (C - 1)) (by simp at hn ⊢; omega)
          (by rw [hrest]; simp)]
        congr 1
        have hsplit : List.range' (j + 1) (all.length - (j + 1)) =
            List.range' (j + 1) (C - 1) ++ List.range' (j + 1 + (C - 1)) (all.length - (j + 1 + (C - 1))) := by
          rw [show all.length - (j + 1) = (C - 1) + (all.length - (j + 1 + (C - 1))) by omega]
          rw [← List.range'_append]
          simp
        rw [hsplit, List.filter_append]
        have hnil : (List.range' (j + 1) (C - 1)).filter (fun k => decide (FamilyAt qs k)) = [] := by
          rw [List.filter_eq_nil_iff]
          intro k hk
          rw [List.mem_range'_1] at hk
          simp only [decide_eq_true_eq]
          intro hFk
          have := familyAt_disjoint hC qs j k hF hFk (by omega)
          omega
        rw [hnil, List.nil_append]
      · have hF : ¬ FamilyAt qs j := fun h => hf ((hfam j p hj).2 h)
        simp only [hf, ↓reduceIte, List.filter_cons, hF, decide_false, Bool.false_eq_true]
        exact ih (j + 1) rest (by simp at hn; omega) hrest

theorem allreduceMin_spec (l : List Int) (hne : l ≠ []) :
    allreduceMin l ∈ l ∧ ∀ x ∈ l, allreduceMin l ≤ x := by
  induction l with
  | nil => simp at hne
  | cons a t ih =>
    cases t with
    | nil => simp [allreduceMin]
    | cons b t' =>
      obtain ⟨h1, h2⟩ := ih (by simp)
      simp only [allreduceMin]
      refine ⟨?_, ?_⟩
      · rcases Int.le_total a (allreduceMin (b :: t')) with h | h
        · rw [Int.min_eq_left h]; simp
        · rw [Int.min_eq_right h]; exact List.mem_cons_of_mem _ h1
      · intro x hx
        rcases List.mem_cons.1 hx with rfl | hx
        · omega
        · have := h2 x hx; omega

theorem lex_between {C : Nat} (p r : Path C) (a b : Fin C) (hab : b.val = a.val + 1)
    (h1 : List.Lex (· < ·) (p ++ [a]) r) (h2 : List.Lex (· < ·) r (p ++ [b])) :
    (p ++ [a]) <+: r := by
  induction p generalizing r with
  | nil =>
    cases r with
    | nil => cases h1
    | cons x t =>
      simp only [List.nil_append] at *
      cases h1 with
      | cons h => exact ⟨t, rfl⟩
      | rel h =>
        exfalso
        cases h2 with
        | rel h' => have := Fin.lt_def.1 h; have := Fin.lt_def.1 h'; omega
        | cons h' => cases h'
  | cons c p ih =>
    cases r with
    | nil => cases h1
    | cons x t =>
      simp only [List.cons_append] at *
      cases h1 with
      | cons h =>
        cases h2 with
        | cons h' =>
          obtain ⟨z, hz⟩ := ih t h h'
          exact ⟨z, by simp [← hz]⟩
        | rel h' => exact absurd h' (Fin.lt_irrefl _)
      | rel h =>
        exfalso
        cases h2 with
        | rel h' => exact absurd (Fin.lt_trans h h') (Fin.lt_irrefl _)
        | cons h' => exact absurd h (Fin.lt_irrefl _)

end Fclaw.Domain
