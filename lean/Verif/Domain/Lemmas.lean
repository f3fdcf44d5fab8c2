import Verif.Domain.Spec
import Mathlib.Data.List.FinRange
/- Helper lemmas for properties C06 and C07. -/
set_option linter.unusedSimpArgs false
set_option autoImplicit false
namespace Fclaw.Domain

variable {C : Nat}

theorem upd_same {α β : Type} [DecidableEq α] (f : α → β) (a : α) (b : β) : upd f a b a = b := by
  simp [upd]
theorem upd_ne {α β : Type} [DecidableEq α] (f : α → β) (a x : α) (b : β) (h : x ≠ a) :
    upd f a b x = f x := by simp [upd, h]

/-- Following `next` from `h` gives exactly the list. -/
def Chain (next : Ptr → Option Ptr) : Option Ptr → List Ptr → Prop
  | none, [] => True
  | some p, q :: t => p = q ∧ Chain next (next p) t
  | _, _ => False

theorem chain_congr (n n' : Ptr → Option Ptr) (L : List Ptr) : ∀ h, (∀ p ∈ L, n p = n' p) →
    Chain n h L → Chain n' h L := by
  induction L with
  | nil => intro h _ hc; cases h <;> simp_all [Chain]
  | cons q t ih =>
    intro h he hc
    cases h with
    | none => simp [Chain] at hc
    | some p =>
      obtain ⟨rfl, hc⟩ := hc
      refine ⟨rfl, ?_⟩
      rw [← he p (by simp)]
      exact ih _ (fun p hp => he p (by simp [hp])) hc

theorem chain_snoc (n : Ptr → Option Ptr) (x : Ptr) (hx : n x = none) (L : List Ptr) : ∀ h last,
    L.Nodup → x ∉ L → L.getLast? = some last → Chain n h L →
    Chain (upd n last (some x)) h (L ++ [x]) := by
  induction L with
  | nil => intro h last _ _ hl; simp at hl
  | cons q t ih =>
    intro h last hn hxL hl hc
    cases h with
    | none => simp [Chain] at hc
    | some p =>
      obtain ⟨rfl, hc⟩ := hc
      simp only [List.cons_append, Chain, true_and]
      cases t with
      | nil =>
        simp at hl; subst hl
        have hxp : x ≠ p := by intro e; simp [e] at hxL
        simp [upd_same, Chain, upd_ne _ _ _ _ hxp, hx]
      | cons b t' =>
        rw [List.getLast?_cons_cons] at hl
        have hp : p ≠ last := by
          intro e
          have : last ∈ b :: t' := List.mem_of_getLast? hl
          rw [← e] at this
          simp only [List.nodup_cons] at hn
          exact hn.1 this
        rw [upd_ne _ _ _ _ hp]
        exact ih _ _ (List.nodup_cons.1 hn).2 (fun h => hxL (by simp [h])) hl hc

theorem walk_of_chain (n : Ptr → Option Ptr) (L : List Ptr) : ∀ h fuel, L.length ≤ fuel →
    Chain n h L → walk n fuel h = some L := by
  induction L with
  | nil => intro h fuel _ hc; cases h <;> simp_all [Chain, walk]
  | cons q t ih =>
    intro h fuel hf hc
    cases h with
    | none => simp [Chain] at hc
    | some p =>
      obtain ⟨rfl, hc⟩ := hc
      cases fuel with
      | zero => simp at hf
      | succ f => simp [walk, ih _ f (by simpa using hf) hc]

theorem levelPtrs_snoc (l i : Nat) (qs : List (Path C)) (q : Path C) :
    levelPtrs l i (qs ++ [q]) = levelPtrs l i qs ++ (if q.length = l then [(i, qs.length)] else []) := by
  unfold levelPtrs
  simp only [List.length_append, List.length_singleton, List.range_succ, List.filter_append,
    List.map_append]
  congr 1
  · congr 1
    apply List.filter_congr
    intro j hj
    rw [List.mem_range] at hj
    rw [List.getElem?_append_left hj]
  · by_cases h : q.length = l
    · simp [h]
    · simp [h]

theorem levelPtrs_mem (l i : Nat) (qs : List (Path C)) (p : Ptr) (h : p ∈ levelPtrs l i qs) :
    p.1 = i ∧ p.2 < qs.length ∧ (qs[p.2]?).map List.length = some l := by
  unfold levelPtrs at h
  simp only [List.mem_map, List.mem_filter, List.mem_range, beq_iff_eq] at h
  obtain ⟨j, ⟨hj, hl⟩, rfl⟩ := h
  exact ⟨rfl, hj, hl⟩

theorem levelPtrs_nodup (l i : Nat) (qs : List (Path C)) : (levelPtrs l i qs).Nodup := by
  unfold levelPtrs
  refine List.Nodup.map_on ?_ (List.nodup_range.filter _)
  intro a _ b _ h; simpa using h

theorem levelPtrs_length (l i : Nat) (qs : List (Path C)) : (levelPtrs l i qs).length ≤ qs.length := by
  unfold levelPtrs
  rw [List.length_map]
  exact (List.length_filter_le _ _).trans (by simp)

/-- The links of one block during its loop. -/
structure LinkInv (i : Nat) (s0 : Ptr → Option Ptr) (done : List (Path C)) (s : St) (b : BSt) : Prop where
  chain : ∀ l, Chain s.next (b.head l) (levelPtrs l i done)
  cur : ∀ l p, (levelPtrs l i done).getLast? = some p → s.cur l = some p
  fresh : ∀ p, p.1 = i → done.length ≤ p.2 → s.next p = none
  frame : ∀ p, p.1 ≠ i → s.next p = s0 p

theorem link_step (mirrors : List Nat) (i num : Nat) (s0 : Ptr → Option Ptr) (done : List (Path C))
    (q : Path C) (rest : List (Path C)) (s : St) (b : BSt) (h : LinkInv i s0 done s b) :
    LinkInv i s0 (done ++ [q]) (patchStep C mirrors i num done.length q rest s b).1
      (patchStep C mirrors i num done.length q rest s b).2 := by
  generalize hs1 : (if s.mirrorNum = some s.localNum then
      { s with exchange := s.exchange ++ [(i, done.length)], nm := s.nm + 1,
               mirrorNum := mirrors[s.nm + 1]? } else s : St) = s1
  have hnext : s1.next = s.next := by rw [← hs1]; split <;> rfl
  have hcur : s1.cur = s.cur := by rw [← hs1]; split <;> rfl
  have hx : s.next (i, done.length) = none := h.fresh _ rfl (Nat.le_refl _)
  have hnot : ∀ l, (i, done.length) ∉ levelPtrs l i done := by
    intro l hm; have := (levelPtrs_mem _ _ _ _ hm).2.1; simp at this
  cases hh : b.head q.length with
  | none =>
    have hres : (patchStep C mirrors i num done.length q rest s b).1 =
        { s1 with cur := upd s1.cur q.length (some (i, done.length)), localNum := s1.localNum + 1 } := by
      simp only [patchStep, decide_eq_true_eq, hs1, hh]
    have hres2 : (patchStep C mirrors i num done.length q rest s b).2.head =
        upd b.head q.length (some (i, done.length)) := by
      simp only [patchStep, decide_eq_true_eq, hs1, hh]
    have hempty : levelPtrs q.length i done = [] := by
      have := h.chain q.length
      rw [hh] at this
      cases hl : levelPtrs q.length i done with
      | nil => rfl
      | cons a t => rw [hl] at this; simp [Chain] at this
    refine ⟨?_, ?_, ?_, ?_⟩
    · intro l
      rw [hres, hres2, levelPtrs_snoc]
      simp only [hnext]
      by_cases hl : q.length = l
      · subst hl; simp [hempty, upd_same, Chain, hx]
      · have : l ≠ q.length := fun e => hl e.symm
        simp [hl, upd_ne _ _ _ _ this, h.chain l]
    · intro l p
      rw [hres, levelPtrs_snoc]
      simp only [hcur]
      by_cases hl : q.length = l
      · subst hl; simp [hempty, upd_same]
      · have : l ≠ q.length := fun e => hl e.symm
        simp only [hl, ↓reduceIte, List.append_nil, upd_ne _ _ _ _ this]
        exact h.cur l p
    · intro p h1 h2
      rw [hres]; simp only [hnext]
      exact h.fresh p h1 (by simp at h2; omega)
    · intro p h1
      rw [hres]; simp only [hnext]
      exact h.frame p h1
  | some hd =>
    obtain ⟨last, hlast⟩ : ∃ last, (levelPtrs q.length i done).getLast? = some last := by
      have := h.chain q.length
      rw [hh] at this
      cases hl : levelPtrs q.length i done with
      | nil => rw [hl] at this; simp [Chain] at this
      | cons a t => exact ⟨_, List.getLast?_cons⟩
    have hcl : s1.cur q.length = some last := by rw [hcur]; exact h.cur _ _ hlast
    have hlm := levelPtrs_mem _ _ _ _ (List.mem_of_getLast? hlast)
    have hres : (patchStep C mirrors i num done.length q rest s b).1 =
        { s1 with next := upd s1.next last (some (i, done.length)),
                  cur := upd s1.cur q.length (some (i, done.length)),
                  localNum := s1.localNum + 1 } := by
      simp only [patchStep, decide_eq_true_eq, hs1, hh, hcl]
    have hres2 : (patchStep C mirrors i num done.length q rest s b).2.head = b.head := by
      simp only [patchStep, decide_eq_true_eq, hs1, hh, hcl]
    refine ⟨?_, ?_, ?_, ?_⟩
    · intro l
      rw [hres, hres2, levelPtrs_snoc]
      simp only [hnext]
      by_cases hl : q.length = l
      · subst hl
        simp only [↓reduceIte]
        exact chain_snoc _ _ hx _ _ _ (levelPtrs_nodup _ _ _) (hnot _) hlast (h.chain _)
      · simp only [hl, ↓reduceIte, List.append_nil]
        refine chain_congr _ _ _ _ ?_ (h.chain l)
        intro p hp
        rw [upd_ne]
        intro e
        have := (levelPtrs_mem _ _ _ _ hp).2.2
        rw [e, hlm.2.2] at this
        simp at this; exact hl this
    · intro l p
      rw [hres, levelPtrs_snoc]
      simp only [hcur]
      by_cases hl : q.length = l
      · subst hl; simp [upd_same]
      · have : l ≠ q.length := fun e => hl e.symm
        simp only [hl, ↓reduceIte, List.append_nil, upd_ne _ _ _ _ this]
        exact h.cur l p
    · intro p h1 h2
      rw [hres]; simp only [hnext]
      have h3 : done.length < p.2 := by simp at h2; omega
      rw [upd_ne]
      · exact h.fresh p h1 (by omega)
      · intro e; rw [e] at h3; omega
    · intro p h1
      rw [hres]; simp only [hnext]
      rw [upd_ne]
      · exact h.frame p h1
      · intro e; exact h1 (by rw [e]; exact hlm.1)

theorem link_loop (mirrors : List Nat) (i num : Nat) (s0 : Ptr → Option Ptr) (rest : List (Path C)) :
    ∀ (done : List (Path C)) (s : St) (b : BSt), LinkInv i s0 done s b →
    LinkInv i s0 (done ++ rest) (patchLoop C mirrors i num done.length rest s b).1
      (patchLoop C mirrors i num done.length rest s b).2 := by
  induction rest with
  | nil => intro done s b h; simpa [patchLoop] using h
  | cons q rest ih =>
    intro done s b h
    have := ih (done ++ [q]) _ _ (link_step mirrors i num s0 done q (q :: rest) s b h)
    simpa [patchLoop, List.append_assoc] using this

/-! Levels, numbers and mirrors. -/

theorem childNumber_eq (q : Path C) :
    (match q.getLast? with | none => 0 | some c => c.val) = childNumber q := by
  induction q with
  | nil => rfl
  | cons a t ih =>
    cases t with
    | nil => rfl
    | cons b t' => rw [List.getLast?_cons_cons]; exact ih

structure NumInv (mirrors : List Nat) (num : Ptr → Nat) (base : Nat) (lmin0 : Int)
    (done : List (Path C)) (s : St) (b : BSt) : Prop where
  localNum : s.localNum = base + done.length
  mirror : s.mirrorNum = mirrors[s.nm]?
  before : ∀ m ∈ mirrors.take s.nm, m < s.localNum
  after : ∀ m ∈ mirrors.drop s.nm, s.localNum ≤ m
  exch : s.exchange.map num = mirrors.take s.nm
  nmle : s.nm ≤ mirrors.length
  minl : (∀ q ∈ done, b.minlevel ≤ q.length) ∧ b.minlevel ≤ lmin0 ∧
    (b.minlevel = lmin0 ∨ ∃ q ∈ done, (q.length : Int) = b.minlevel)
  maxl : (∀ q ∈ done, (q.length : Int) ≤ b.maxlevel) ∧ -1 ≤ b.maxlevel ∧
    (b.maxlevel = -1 ∨ ∃ q ∈ done, (q.length : Int) = b.maxlevel)
  plen : b.patches.length = done.length
  plevel : ∀ j : Nat, (b.patches[j]?).map (fun p => (p.level, p.childid))
    = (done[j]?).map (fun q => (q.length, childNumber q))
  pbound : ∀ (j : Nat) (p : Patch), b.patches[j]? = some p →
    (p.onParallelBoundary = true ↔ base + j ∈ mirrors)

theorem step_mirror_iff (mirrors : List Nat) (hsort : mirrors.Pairwise (· < ·)) (nm n : Nat)
    (before : ∀ m ∈ mirrors.take nm, m < n) (after : ∀ m ∈ mirrors.drop nm, n ≤ m) :
    mirrors[nm]? = some n ↔ n ∈ mirrors := by
  constructor
  · intro h; exact List.mem_of_getElem? h
  · intro h
    rw [← List.take_append_drop nm mirrors, List.mem_append] at h
    rcases h with h | h
    · exact absurd (before n h) (Nat.lt_irrefl _)
    · have hd : (mirrors.drop nm).Pairwise (· < ·) := hsort.drop
      rw [← List.head?_drop]
      cases hl : mirrors.drop nm with
      | nil => rw [hl] at h; simp at h
      | cons a t =>
        rw [hl] at h hd after
        have h1 := after a (by simp)
        rcases List.mem_cons.1 h with h | h
        · simp [h]
        · have := (List.pairwise_cons.1 hd).1 n h
          omega

theorem num_step (mirrors : List Nat) (hsort : mirrors.Pairwise (· < ·)) (num : Ptr → Nat)
    (i n base : Nat) (lmin0 : Int) (done : List (Path C)) (q : Path C) (rest : List (Path C))
    (s : St) (b : BSt) (hnum : num (i, done.length) = base + done.length)
    (h : NumInv mirrors num base lmin0 done s b) :
    NumInv mirrors num base lmin0 (done ++ [q]) (patchStep C mirrors i n done.length q rest s b).1
      (patchStep C mirrors i n done.length q rest s b).2 := by
  have hiff := step_mirror_iff mirrors hsort s.nm s.localNum h.before h.after
  generalize hr : patchStep C mirrors i n done.length q rest s b = r
  have hb : r.2.minlevel = min b.minlevel q.length ∧ r.2.maxlevel = max b.maxlevel q.length ∧
      ∃ p : Patch, (p.level = q.length ∧ p.childid = childNumber q) ∧ (p.onParallelBoundary = true ↔ s.mirrorNum = some s.localNum) ∧
        r.2.patches = b.patches ++ [p] := by
    rw [← hr]
    refine ⟨rfl, rfl, _, ⟨?_, ?_⟩, ?_, rfl⟩
    · rfl
    · exact childNumber_eq q
    · simp
  have hs : r.1.localNum = s.localNum + 1 ∧
      r.1.nm = (if s.mirrorNum = some s.localNum then s.nm + 1 else s.nm) ∧
      r.1.mirrorNum = (if s.mirrorNum = some s.localNum then mirrors[s.nm + 1]? else s.mirrorNum) ∧
      r.1.exchange = (if s.mirrorNum = some s.localNum then s.exchange ++ [(i, done.length)]
        else s.exchange) := by
    rw [← hr]
    simp only [patchStep, decide_eq_true_eq]
    by_cases hm : s.mirrorNum = some s.localNum
    · simp only [hm, ↓reduceIte]
      split
      · exact ⟨rfl, rfl, rfl, rfl⟩
      · split <;> exact ⟨rfl, rfl, rfl, rfl⟩
    · simp only [hm, ↓reduceIte]
      split
      · exact ⟨rfl, rfl, rfl, rfl⟩
      · split <;> exact ⟨rfl, rfl, rfl, rfl⟩
  obtain ⟨hmin, hmax, p, hpl, hpb, hpatches⟩ := hb
  obtain ⟨hln, hnm, hmn, hex⟩ := hs
  have hcond : s.mirrorNum = some s.localNum ↔ s.localNum ∈ mirrors := by rw [h.mirror]; exact hiff
  refine ⟨?_, ?_, ?_, ?_, ?_, ?_, ?_, ?_, ?_, ?_, ?_⟩
  · rw [hln, h.localNum]; simp; omega
  · rw [hmn, hnm]; split
    · rfl
    · exact h.mirror
  · rw [hnm, hln]
    split
    · rename_i hc
      rw [h.mirror] at hc
      intro m hm
      rw [List.take_add_one, hc] at hm
      simp only [Option.toList_some, List.mem_append, List.mem_singleton] at hm
      rcases hm with hm | hm
      · have := h.before m hm; omega
      · omega
    · intro m hm; have := h.before m hm; omega
  · rw [hnm, hln]
    have hd : (mirrors.drop s.nm).Pairwise (· < ·) := hsort.drop
    split
    · rename_i hc
      rw [h.mirror, ← List.head?_drop] at hc
      intro m hm
      rw [← List.tail_drop] at hm
      cases hl : mirrors.drop s.nm with
      | nil => rw [hl] at hc; simp at hc
      | cons a t =>
        rw [hl] at hc hm hd
        simp at hc hm
        have := (List.pairwise_cons.1 hd).1 m hm
        omega
    · rename_i hc
      rw [hcond] at hc
      intro m hm
      have h1 := h.after m hm
      have h2 : m ∈ mirrors := List.mem_of_mem_drop hm
      have : m ≠ s.localNum := fun e => hc (e ▸ h2)
      omega
  · rw [hex, hnm]
    split
    · rename_i hc
      rw [h.mirror] at hc
      rw [List.take_add_one, hc, List.map_append, h.exch]
      simp [hnum, h.localNum]
    · exact h.exch
  · rw [hnm]; split
    · rename_i hc
      rw [h.mirror] at hc
      have := (List.getElem?_eq_some_iff.1 hc).1
      omega
    · exact h.nmle
  · rw [hmin]
    obtain ⟨h1, h2, h3⟩ := h.minl
    refine ⟨?_, by omega, ?_⟩
    · intro x hx
      rcases List.mem_append.1 hx with hx | hx
      · have := h1 x hx; omega
      · simp at hx; subst hx; omega
    · by_cases hc : b.minlevel ≤ q.length
      · rw [Int.min_eq_left hc]
        rcases h3 with h3 | ⟨x, hx, hxe⟩
        · exact Or.inl h3
        · exact Or.inr ⟨x, by simp [hx], hxe⟩
      · rw [Int.min_eq_right (by omega)]
        exact Or.inr ⟨q, by simp, rfl⟩
  · rw [hmax]
    obtain ⟨h1, h2, h3⟩ := h.maxl
    refine ⟨?_, by omega, ?_⟩
    · intro x hx
      rcases List.mem_append.1 hx with hx | hx
      · have := h1 x hx; omega
      · simp at hx; subst hx; omega
    · by_cases hc : (q.length : Int) ≤ b.maxlevel
      · rw [Int.max_eq_left hc]
        rcases h3 with h3 | ⟨x, hx, hxe⟩
        · exact Or.inl h3
        · exact Or.inr ⟨x, by simp [hx], hxe⟩
      · rw [Int.max_eq_right (by omega)]
        exact Or.inr ⟨q, by simp, rfl⟩
  · rw [hpatches]; simp [h.plen]
  · intro j
    rw [hpatches]
    by_cases hj : j < b.patches.length
    · rw [List.getElem?_append_left hj, List.getElem?_append_left (by rw [← h.plen]; exact hj)]
      exact h.plevel j
    · rw [List.getElem?_append_right (by omega), List.getElem?_append_right (by rw [← h.plen]; omega),
        h.plen]
      by_cases hj2 : j = done.length
      · subst hj2; simp [hpl]
      · have : j - done.length ≠ 0 := by have := h.plen; omega
        obtain ⟨k, hk⟩ := Nat.exists_eq_succ_of_ne_zero this
        simp [hk]
  · intro j x hx
    rw [hpatches] at hx
    by_cases hj : j < b.patches.length
    · rw [List.getElem?_append_left hj] at hx
      exact h.pbound j x hx
    · rw [List.getElem?_append_right (by omega)] at hx
      by_cases hj2 : j = done.length
      · subst hj2
        simp [h.plen] at hx
        subst hx
        rw [hpb, hcond, h.localNum]
      · have : j - b.patches.length ≠ 0 := by have := h.plen; omega
        obtain ⟨k, hk⟩ := Nat.exists_eq_succ_of_ne_zero this
        simp [hk] at hx

theorem num_loop (mirrors : List Nat) (hsort : mirrors.Pairwise (· < ·)) (num : Ptr → Nat)
    (i n base : Nat) (lmin0 : Int) (rest : List (Path C)) :
    ∀ (done : List (Path C)) (s : St) (b : BSt),
    (∀ j, num (i, j) = base + j) →
    NumInv mirrors num base lmin0 done s b →
    NumInv mirrors num base lmin0 (done ++ rest) (patchLoop C mirrors i n done.length rest s b).1
      (patchLoop C mirrors i n done.length rest s b).2 := by
  induction rest with
  | nil => intro done s b _ h; simpa [patchLoop] using h
  | cons q rest ih =>
    intro done s b hnum h
    have := ih (done ++ [q]) _ _ hnum
      (num_step mirrors hsort num i n base lmin0 done q (q :: rest) s b (hnum _) h)
    simpa [patchLoop, List.append_assoc] using this

/-! Sibling flags. -/

theorem isFamilyv_iff (hC : 0 < C) (qs : List (Path C)) (j : Nat) :
    (decide (j + C ≤ qs.length) && isFamilyv C (qs.drop j)) = true ↔ FamilyAt qs j := by
  have hget : ∀ k, qs[j + k]? = (qs.drop j)[k]? := by intro k; rw [List.getElem?_drop]
  have hlen : j + C ≤ qs.length ↔ (C ≤ (qs.drop j).length) := by
    rw [List.length_drop]; omega
  unfold FamilyAt
  simp only [hget, hlen]
  generalize qs.drop j = rs
  constructor
  · intro h
    simp only [Bool.and_eq_true, decide_eq_true_eq] at h
    obtain ⟨h1, h2⟩ := h
    cases rs with
    | nil => simp [isFamilyv] at h2
    | cons q t =>
      simp only [isFamilyv, Bool.and_eq_true, decide_eq_true_eq, beq_iff_eq] at h2
      refine ⟨q.dropLast, fun k => ?_⟩
      have h3 : ((q :: t).take C)[k.val]? = (q :: t)[k.val]? := by
        rw [List.getElem?_take_of_lt k.isLt]
      rw [← h3, h2.2]
      simp [List.getElem?_map]
  · rintro ⟨parent, h⟩
    have hlen : C ≤ rs.length := by
      have := h ⟨C - 1, by omega⟩
      have := (List.getElem?_eq_some_iff.1 this).1
      simp only at this; omega
    simp only [Bool.and_eq_true, decide_eq_true_eq]
    refine ⟨hlen, ?_⟩
    cases rs with
    | nil => simp at hlen; omega
    | cons q t =>
      have hq : q = parent ++ [⟨0, hC⟩] := by
        have := h ⟨0, hC⟩; simpa using this
      simp only [isFamilyv, Bool.and_eq_true, decide_eq_true_eq, beq_iff_eq]
      refine ⟨by simp [hq], ?_⟩
      apply List.ext_getElem?
      intro k
      by_cases hk : k < C
      · rw [List.getElem?_take_of_lt hk, h ⟨k, hk⟩]
        have hd : q.dropLast = parent := by rw [hq]; simp
        simp [List.getElem?_map, hk, hd]
      · rw [List.getElem?_eq_none (by simp; omega), List.getElem?_eq_none (by simp; omega)]

theorem fam_loop (hC : 0 < C) (mirrors : List Nat) (i : Nat) (all : List (Path C)) :
    ∀ (rest done : List (Path C)) (s : St) (b : BSt), done ++ rest = all →
    b.patches.length = done.length →
    (∀ (j : Nat) (p : Patch), b.patches[j]? = some p → (p.firstSibling = true ↔ FamilyAt all j)) →
    ∀ (j : Nat) (p : Patch),
      (patchLoop C mirrors i all.length done.length rest s b).2.patches[j]? = some p →
      (p.firstSibling = true ↔ FamilyAt all j) := by
  intro rest
  induction rest with
  | nil => intro done s b _ _ h; simpa [patchLoop] using h
  | cons q rest ih =>
    intro done s b hall hlen h
    have hstep : ∃ p : Patch, p.firstSibling = (decide (done.length + C ≤ all.length) &&
        isFamilyv C (q :: rest)) ∧
        (patchStep C mirrors i all.length done.length q (q :: rest) s b).2.patches = b.patches ++ [p] :=
      ⟨_, rfl, rfl⟩
    obtain ⟨p, hp, hpp⟩ := hstep
    have := ih (done ++ [q]) (patchStep C mirrors i all.length done.length q (q :: rest) s b).1
      (patchStep C mirrors i all.length done.length q (q :: rest) s b).2 (by simp [hall])
      (by rw [hpp]; simp [hlen])
      (by
        intro j x hx
        rw [hpp] at hx
        by_cases hj : j < b.patches.length
        · rw [List.getElem?_append_left hj] at hx
          exact h j x hx
        · rw [List.getElem?_append_right (by omega)] at hx
          have hj0 : j - b.patches.length = 0 := by
            cases hk : j - b.patches.length with
            | zero => rfl
            | succ k => rw [hk] at hx; simp at hx
          rw [hj0] at hx
          simp at hx
          have hjd : j = done.length := by omega
          subst hx hjd
          rw [hp, ← isFamilyv_iff hC, ← hall]
          simp)
    simpa [patchLoop] using this

end Fclaw.Domain
