import Verif.Overlap.Spec
import Verif.Search.Lemmas

set_option autoImplicit false
set_option linter.unusedSimpArgs false
set_option linter.unusedVariables false
namespace Fclaw.Overlap
open Fclaw.Search

/-! ### Projection of a search to a part of its state -/

section
variable {Q S S' P : Type} (cb : Q → Option Nat → S → P → S × Bool)
  (cb' : Q → Option Nat → S' → P → S' × Bool) (π : S → S')

theorem runPoints_proj (h : ∀ q n s p, π (cb q n s p).1 = (cb' q n (π s) p).1 ∧
    (cb q n s p).2 = (cb' q n (π s) p).2) (q : Q) (n : Option Nat) :
    ∀ (pts : List P) (s : S), π (runPoints (cb q n) s pts).1 = (runPoints (cb' q n) (π s) pts).1 ∧
      (runPoints (cb q n) s pts).2 = (runPoints (cb' q n) (π s) pts).2
  | [], s => ⟨rfl, rfl⟩
  | p :: ps, s => by
    simp only [runPoints]
    have ih := runPoints_proj h q n ps (cb q n s p).1
    rw [(h q n s p).1] at ih
    rw [ih.1, ih.2, (h q n s p).2]
    exact ⟨rfl, rfl⟩

theorem searchLocal_proj (h : ∀ q n s p, π (cb q n s p).1 = (cb' q n (π s) p).1 ∧
    (cb q n s p).2 = (cb' q n (π s) p).2) :
    ∀ (F : Forest Q) (pts : List P) (s : S),
      π (searchLocal cb F pts s) = searchLocal cb' F pts (π s)
  | .nil, _, _ => rfl
  | .leaf q n rest, pts, s => by
    simp only [searchLocal]
    rw [searchLocal_proj h rest, (runPoints_proj cb cb' π h q _ pts s).1]
  | .node q kids rest, pts, s => by
    simp only [searchLocal]
    have hr := runPoints_proj cb cb' π h q none pts s
    rw [searchLocal_proj h rest, searchLocal_proj h kids, hr.1, hr.2]
end

/-! ### The marks -/

def markFn {Q Pt : Type} (hit : Q → Option Nat → Pt → Bool) (point : Nat → Pt) (id : Nat)
    (q : Q) (proc : Option Nat) (v : Option Nat) : Option Nat × Bool :=
  if v.isSome then (v, false)
  else if hit q proc (point id) = false then (v, false)
  else match proc with
    | none => (v, true)
    | some r => (some r, true)

theorem consumerAdd_mark {Pt : Type} (point : Nat → Pt) (s : Cons Pt) (id rank : Nat) :
    (consumerAdd point s id rank).mark = fun k => if k = id then some rank else s.mark k := by
  unfold consumerAdd
  dsimp only
  split
  · split <;> rfl
  · rfl

theorem partitionFn_proj {Q Pt : Type} (hit : Q → Option Nat → Pt → Bool) (point : Nat → Pt)
    (q : Q) (n : Option Nat) (s : Cons Pt) (id : Nat) :
    (partitionFn hit point q n s id).1.mark = (keyed _root_.id (markFn hit point) q n s.mark id).1 ∧
    (partitionFn hit point q n s id).2 = (keyed _root_.id (markFn hit point) q n s.mark id).2 := by
  simp only [partitionFn, keyed, markFn, id_eq]
  by_cases h1 : (s.mark id).isSome = true
  · simp only [if_pos h1, upd_self, and_self]
  · simp only [if_neg h1]
    by_cases h2 : hit q n (point id) = false
    · simp only [if_pos h2, upd_self, and_self]
    · simp only [if_neg h2]
      cases n with
      | none => simp only [upd_self, and_self]
      | some r => exact ⟨consumerAdd_mark point s id r, rfl⟩

theorem markFn_sound {Q Pt : Type} (hit : Q → Option Nat → Pt → Bool) (point : Nat → Pt) (id : Nat) :
    ∀ (F : Forest Q), PartitionOk.go hit F → SoundStop1 (markFn hit point id) F
  | .nil, _ => trivial
  | .leaf _ _ rest, h => markFn_sound hit point id rest h
  | .node q kids rest, h => by
    obtain ⟨h1, h2, h3⟩ := h
    refine ⟨?_, markFn_sound hit point id kids h2, markFn_sound hit point id rest h3⟩
    intro v hv l hl
    unfold markFn at hv ⊢
    by_cases hs : v.isSome = true
    · simp [hs]
    · rw [if_neg hs] at hv ⊢
      by_cases hh : hit q none (point id) = false
      · rw [if_pos (h1 _ hh l hl)]
      · rw [if_neg hh] at hv
        simp at hv

theorem markFn_none {Q Pt : Type} (hit : Q → Option Nat → Pt → Bool) (point : Nat → Pt) (id : Nat)
    (q : Q) (v : Option Nat) : (markFn hit point id q none v).1 = v := by
  unfold markFn
  split
  · rfl
  · split <;> rfl

theorem fold_mark_some {Q Pt : Type} (hit : Q → Option Nat → Pt → Bool) (point : Nat → Pt)
    (id r : Nat) : ∀ (l : List (Q × Nat)),
    l.foldl (fun v l => (markFn hit point id l.1 (some l.2) v).1) (some r) = some r
  | [] => rfl
  | a :: l => by
    simp only [List.foldl_cons]
    rw [show (markFn hit point id a.1 (some a.2) (some r)).1 = some r by simp [markFn]]
    exact fold_mark_some hit point id r l

theorem fold_mark {Q Pt : Type} (hit : Q → Option Nat → Pt → Bool) (point : Nat → Pt) (id : Nat) :
    ∀ (l : List (Q × Nat)), (l.map Prod.snd).Pairwise (· ≤ ·) →
    (∀ r, l.foldl (fun v l => (markFn hit point id l.1 (some l.2) v).1) none = some r ↔
      (∃ q, (q, r) ∈ l ∧ hit q (some r) (point id) = true) ∧
      ∀ q r', (q, r') ∈ l → hit q (some r') (point id) = true → r ≤ r')
  | [], _, r => by simp
  | a :: l, h, r => by
    obtain ⟨qa, ra⟩ := a
    simp only [List.map_cons, List.pairwise_cons] at h
    simp only [List.foldl_cons]
    by_cases hh : hit qa (some ra) (point id) = true
    · have h1 : (markFn hit point id qa (some ra) none).1 = some ra := by simp [markFn, hh]
      rw [h1, fold_mark_some]
      simp only [Option.some.injEq]
      constructor
      · rintro rfl
        refine ⟨⟨qa, by simp, hh⟩, ?_⟩
        intro q r' hm _
        rcases List.mem_cons.mp hm with e | e
        · cases e; exact Nat.le_refl _
        · exact h.1 r' (List.mem_map.mpr ⟨(q, r'), e, rfl⟩)
      · rintro ⟨⟨q, hm, _⟩, hall⟩
        have h2 := hall qa ra (by simp) hh
        rcases List.mem_cons.mp hm with e | e
        · cases e; rfl
        · have := h.1 r (List.mem_map.mpr ⟨(q, r), e, rfl⟩)
          omega
    · have h1 : (markFn hit point id qa (some ra) none).1 = none := by
        have hf : hit qa (some ra) (point id) = false := by simpa using hh
        simp [markFn, hf]
      rw [h1, fold_mark hit point id l h.2 r]
      constructor
      · rintro ⟨⟨q, hm, hq⟩, hall⟩
        refine ⟨⟨q, by simp [hm], hq⟩, ?_⟩
        intro q' r' hm' hq'
        rcases List.mem_cons.mp hm' with e | e
        · cases e; exact absurd hq' hh
        · exact hall q' r' e hq'
      · rintro ⟨⟨q, hm, hq⟩, hall⟩
        refine ⟨⟨q, ?_, hq⟩, fun q' r' hm' hq' => hall q' r' (by simp [hm']) hq'⟩
        rcases List.mem_cons.mp hm with e | e
        · cases e; exact absurd hq hh
        · exact e

/-- The mark of each query point is its producer. -/
theorem mark_iff {Q Pt : Type} (hit : Q → Option Nat → Pt → Bool) (size : Nat) (part : Forest Q)
    (hok : PartitionOk hit size part) (point : Nat → Pt) (num id : Nat) (hid : id < num) (r : Nat) :
    (partitionSearch hit part point num).mark id = some r ↔ IsProducer hit part (point id) r := by
  unfold partitionSearch
  rw [searchLocal_proj (partitionFn hit point) (keyed _root_.id (markFn hit point)) Cons.mark
    (fun q n s p => partitionFn_proj hit point q n s p)]
  have := searchLocal_in (_root_.id) (markFn hit point) part (List.range num) (fun _ => none) id
    (by simpa using List.nodup_range) (by simpa using hid)
  simp only [id_eq] at this
  rw [this, search1_leaves _ (fun q v => markFn_none hit point id q v) _
    (markFn_sound hit point id part hok.2.2), fold_mark hit point id part.leaves hok.1 r]
  rfl

theorem mark_none {Q Pt : Type} (hit : Q → Option Nat → Pt → Bool) (part : Forest Q)
    (point : Nat → Pt) (num id : Nat) (hid : ¬ id < num) :
    (partitionSearch hit part point num).mark id = none := by
  unfold partitionSearch
  rw [searchLocal_proj (partitionFn hit point) (keyed _root_.id (markFn hit point)) Cons.mark
    (fun q n s p => partitionFn_proj hit point q n s p), searchLocal_notin]
  intro p hp he
  simp only [id_eq, List.mem_range] at he hp
  omega

/-! ### The buffers -/

structure BufInv {Pt : Type} (point : Nat → Pt) (s : Cons Pt) : Prop where
  copy : s.sendBuffer = s.queryIndices.map (fun b => (b.1, b.2.map point))
  sorted : (s.queryIndices.map Prod.fst).Pairwise (· < ·)
  marked : ∀ r ids id, (r, ids) ∈ s.queryIndices → id ∈ ids → s.mark id = some r
  listed : ∀ id r, s.mark id = some r → ∃ ids, (r, ids) ∈ s.queryIndices ∧ id ∈ ids

def ranks {Pt : Type} (s : Cons Pt) : List Nat := s.queryIndices.map Prod.fst

theorem consumerAdd_inv {Pt : Type} (point : Nat → Pt) (s : Cons Pt) (id rank : Nat)
    (h : BufInv point s) (hm : s.mark id = none) (hle : ∀ r ∈ ranks s, r ≤ rank) :
    BufInv point (consumerAdd point s id rank) ∧
    ∀ r ∈ ranks (consumerAdd point s id rank), r ∈ ranks s ∨ r = rank := by
  obtain ⟨mark, sb, qi⟩ := s
  obtain ⟨h1, h2, h3, h4⟩ := h
  simp only at h1 h2 h3 h4 hm
  simp only [ranks] at hle
  have hid : ∀ r ids, (r, ids) ∈ qi → id ∉ ids := by
    intro r ids hb hi
    rw [h3 r ids id hb hi] at hm
    simp at hm
  have hpush : (∀ r ∈ qi.map Prod.fst, r < rank) →
      BufInv point ⟨fun k => if k = id then some rank else mark k, sb ++ [(rank, [point id])],
        qi ++ [(rank, [id])]⟩ := by
    intro hlt
    refine ⟨by simp [h1], ?_, ?_, ?_⟩
    · simp only [List.map_append, List.map_cons, List.map_nil, List.pairwise_append]
      refine ⟨h2, by simp, ?_⟩
      intro a ha b hb
      simp only [List.mem_singleton] at hb
      rw [hb]
      exact hlt a ha
    · intro r ids i hb hi
      simp only [List.mem_append, List.mem_singleton, Prod.mk.injEq] at hb
      rcases hb with hb | ⟨rfl, rfl⟩
      · have : i ≠ id := fun e => hid r ids hb (e ▸ hi)
        simp only [if_neg this]
        exact h3 r ids i hb hi
      · simp only [List.mem_singleton] at hi
        simp [hi]
    · intro i r hi
      simp only at hi
      split at hi
      · rename_i e
        cases hi
        exact ⟨[id], by simp, by simp [e]⟩
      · obtain ⟨ids, hb, hm'⟩ := h4 i r hi
        exact ⟨ids, by simp [hb], hm'⟩
  rcases List.eq_nil_or_concat qi with hq | ⟨qs, ⟨r0, ids0⟩, hq⟩
  · subst hq
    simp only [List.map_nil] at h1
    subst h1
    simp only [consumerAdd, List.getLast?_nil]
    exact ⟨hpush (by simp), by simp [ranks]⟩
  · rw [List.concat_eq_append] at hq
    subst hq
    have hsb : sb = qs.map (fun b => (b.1, b.2.map point)) ++ [(r0, ids0.map point)] := by
      rw [h1]; simp
    have hr0 : r0 ≤ rank := hle r0 (by simp)
    have hl1 : sb.getLast? = some (r0, ids0.map point) := by rw [hsb]; simp
    have hl2 : (qs ++ [(r0, ids0)]).getLast? = some (r0, ids0) := by simp
    simp only [consumerAdd, hl1, hl2]
    by_cases hlt : r0 < rank
    · rw [if_pos hlt]
      refine ⟨hpush ?_, ?_⟩
      · intro r hr
        simp only [List.map_append, List.map_cons, List.map_nil, List.pairwise_append] at h2
        simp only [List.map_append, List.map_cons, List.map_nil, List.mem_append,
          List.mem_singleton] at hr
        rcases hr with hr | rfl
        · have := h2.2.2 r hr r0 (by simp)
          omega
        · exact hlt
      · intro r hr
        simp only [ranks, List.map_append, List.map_cons, List.map_nil, List.mem_append,
          List.mem_singleton] at hr ⊢
        rcases hr with hr | hr
        · exact Or.inl hr
        · exact Or.inr hr
    · rw [if_neg hlt]
      have he : r0 = rank := by omega
      subst he
      refine ⟨⟨?_, ?_, ?_, ?_⟩, ?_⟩
      · simp [hsb]
      · simpa using h2
      · intro r ids i hb hi
        simp only [List.dropLast_concat, List.mem_append, List.mem_singleton, Prod.mk.injEq] at hb
        by_cases hii : i = id
        · subst hii
          simp only [if_true]
          rcases hb with hb | ⟨rfl, rfl⟩
          · exact absurd hi (hid r ids (by simp [hb]))
          · rfl
        · simp only [if_neg hii]
          rcases hb with hb | ⟨rfl, rfl⟩
          · exact h3 r ids i (by simp [hb]) hi
          · exact h3 r ids0 i (by simp) (by simpa [hii] using hi)
      · intro i r hi
        simp only at hi
        split at hi
        · rename_i e
          cases hi
          exact ⟨ids0 ++ [id], by simp, by simp [e]⟩
        · obtain ⟨ids, hb, hm'⟩ := h4 i r hi
          simp only [List.mem_append, List.mem_singleton, Prod.mk.injEq] at hb
          rcases hb with hb | ⟨rfl, rfl⟩
          · exact ⟨ids, by simp [hb], hm'⟩
          · exact ⟨ids ++ [id], by simp, by simp [hm']⟩
      · intro r hr
        left
        simpa [ranks] using hr

theorem runLeaf_inv {Q Pt : Type} (hit : Q → Option Nat → Pt → Bool) (point : Nat → Pt) (q : Q)
    (n : Nat) : ∀ (pts : List Nat) (s : Cons Pt), BufInv point s → (∀ r ∈ ranks s, r ≤ n) →
    BufInv point (runPoints (partitionFn hit point q (some n)) s pts).1 ∧
    ∀ r ∈ ranks (runPoints (partitionFn hit point q (some n)) s pts).1, r ∈ ranks s ∨ r = n
  | [], s, h, _ => ⟨h, fun r hr => Or.inl hr⟩
  | p :: ps, s, h, hle => by
    simp only [runPoints]
    have hstep : BufInv point (partitionFn hit point q (some n) s p).1 ∧
        ∀ r ∈ ranks (partitionFn hit point q (some n) s p).1, r ∈ ranks s ∨ r = n := by
      unfold partitionFn
      by_cases h1 : (s.mark p).isSome = true
      · rw [if_pos h1]; exact ⟨h, fun r hr => Or.inl hr⟩
      · rw [if_neg h1]
        by_cases h2 : hit q (some n) (point p) = false
        · rw [if_pos h2]; exact ⟨h, fun r hr => Or.inl hr⟩
        · rw [if_neg h2]
          exact consumerAdd_inv point s p n h (by simpa using h1) hle
    have ih := runLeaf_inv hit point q n ps _ hstep.1 (by
      intro r hr
      rcases hstep.2 r hr with h' | h'
      · exact hle r h'
      · omega)
    refine ⟨ih.1, ?_⟩
    intro r hr
    rcases ih.2 r hr with h' | h'
    · exact hstep.2 r h'
    · exact Or.inr h'

theorem runNode_id {Q Pt : Type} (hit : Q → Option Nat → Pt → Bool) (point : Nat → Pt) (q : Q) :
    ∀ (pts : List Nat) (s : Cons Pt), (runPoints (partitionFn hit point q none) s pts).1 = s
  | [], s => rfl
  | p :: ps, s => by
    simp only [runPoints]
    have h : (partitionFn hit point q none s p).1 = s := by
      unfold partitionFn
      split
      · rfl
      · split <;> rfl
    rw [h]
    exact runNode_id hit point q ps s

theorem search_inv {Q Pt : Type} (hit : Q → Option Nat → Pt → Bool) (point : Nat → Pt) :
    ∀ (F : Forest Q) (pts : List Nat) (s : Cons Pt), (F.leaves.map Prod.snd).Pairwise (· ≤ ·) →
    BufInv point s → (∀ l ∈ F.leaves, ∀ r ∈ ranks s, r ≤ l.2) →
    BufInv point (searchLocal (partitionFn hit point) F pts s) ∧
    ∀ r ∈ ranks (searchLocal (partitionFn hit point) F pts s),
      r ∈ ranks s ∨ r ∈ F.leaves.map Prod.snd
  | .nil, pts, s, _, h, _ => ⟨h, fun r hr => Or.inl hr⟩
  | .leaf q n rest, pts, s, hs, h, hle => by
    simp only [Forest.leaves, List.map_cons, List.pairwise_cons] at hs
    simp only [searchLocal]
    have h1 := runLeaf_inv hit point q n pts s h (hle (q, n) (by simp [Forest.leaves]))
    have ih := search_inv hit point rest pts _ hs.2 h1.1 (by
      intro l hl r hr
      rcases h1.2 r hr with h' | h'
      · exact hle l (by simp [Forest.leaves, hl]) r h'
      · rw [h']; exact hs.1 l.2 (List.mem_map_of_mem hl))
    refine ⟨ih.1, ?_⟩
    intro r hr
    simp only [Forest.leaves, List.map_cons, List.mem_cons]
    rcases ih.2 r hr with h' | h'
    · rcases h1.2 r h' with h'' | h''
      · exact Or.inl h''
      · exact Or.inr (Or.inl h'')
    · exact Or.inr (Or.inr h')
  | .node q kids rest, pts, s, hs, h, hle => by
    simp only [Forest.leaves, List.map_append, List.pairwise_append] at hs
    simp only [searchLocal, runNode_id]
    have h1 := search_inv hit point kids (runPoints (partitionFn hit point q none) s pts).2 s hs.1 h
      (fun l hl r hr => hle l (by simp [Forest.leaves, hl]) r hr)
    have ih := search_inv hit point rest pts _ hs.2.1 h1.1 (by
      intro l hl r hr
      rcases h1.2 r hr with h' | h'
      · exact hle l (by simp [Forest.leaves, hl]) r h'
      · exact hs.2.2 r h' l.2 (List.mem_map_of_mem hl))
    refine ⟨ih.1, ?_⟩
    intro r hr
    simp only [Forest.leaves, List.map_append, List.mem_append]
    rcases ih.2 r hr with h' | h'
    · rcases h1.2 r h' with h'' | h''
      · exact Or.inl h''
      · exact Or.inr (Or.inl h'')
    · exact Or.inr (Or.inr h')

theorem cons_inv {Q Pt : Type} (hit : Q → Option Nat → Pt → Bool) (size : Nat) (part : Forest Q)
    (hok : PartitionOk hit size part) (point : Nat → Pt) (num : Nat) :
    BufInv point (partitionSearch hit part point num) ∧
    ∀ r ∈ ranks (partitionSearch hit part point num), r < size := by
  have h := search_inv hit point part (List.range num) ⟨fun _ => none, [], []⟩ hok.1
    ⟨rfl, by simp, by simp, by simp⟩ (by simp [ranks])
  refine ⟨h.1, ?_⟩
  intro r hr
  rcases h.2 r hr with h' | h'
  · simp [ranks] at h'
  · obtain ⟨l, hl, rfl⟩ := List.mem_map.mp h'
    exact hok.2.1 l hl

/-! ### Local search and update -/

theorem localSearch_eq {Q Pt : Type} [Inhabited Pt] (interp : Q → Option Nat → Pt → Pt × Bool)
    (F : Forest Q) (hok : InterpOk interp F) (ops : List Pt) :
    localSearch interp F ops = ops.map (answer interp F.leaves) := by
  have hsound : ∀ (G : Forest Q), InterpOk.go interp G → SoundStop1 interp G := by
    intro G
    induction G with
    | nil => intro _; trivial
    | leaf q n rest ih => intro h; exact ih h
    | node q kids rest ih1 ih2 => intro h; exact ⟨h.1, ih1 h.2.1, ih2 h.2.2⟩
  have hk : localFn interp = keyed (P := Nat) _root_.id (fun _ => interp) := by
    funext q n s i
    simp [localFn, keyed]
  unfold localSearch
  rw [hk]
  apply List.ext_getElem (by simp)
  intro i h1 h2
  simp only [List.length_map, List.length_range] at h1
  simp only [List.getElem_map, List.getElem_range]
  have := searchLocal_in (P := Nat) _root_.id (fun _ => interp) F (List.range ops.length)
    (fun i => ops.getD i default) i (by simpa using List.nodup_range) (by simpa using h1)
  simp only [id_eq] at this
  rw [this, search1_leaves _ hok.1 F (hsound F hok.2)]
  simp [answer, h1]

theorem update_notin {Pt : Type} (id : Nat) : ∀ (oqs : List Nat) (ops : List Pt) (qp : Nat → Pt),
    id ∉ oqs → updateFromBuffer ops oqs qp id = qp id
  | [], ops, qp, _ => by simp [updateFromBuffer]
  | k :: oqs, [], qp, _ => by simp [updateFromBuffer]
  | k :: oqs, p :: ops, qp, h => by
    simp only [List.mem_cons, not_or] at h
    have := update_notin id oqs ops (upd qp k p) h.2
    simp only [updateFromBuffer, List.zip_cons_cons, List.foldl_cons] at this ⊢
    rw [this]
    simp [upd, h.1]

theorem update_in {Pt : Type} (f : Nat → Pt) (id : Nat) : ∀ (oqs : List Nat) (qp : Nat → Pt),
    id ∈ oqs → updateFromBuffer (oqs.map f) oqs qp id = f id
  | [], qp, h => by simp at h
  | k :: oqs, qp, h => by
    simp only [updateFromBuffer, List.map_cons, List.zip_cons_cons, List.foldl_cons]
    by_cases hk : id ∈ oqs
    · exact update_in f id oqs _ hk
    · have : id = k := by simpa [hk] using h
      subst this
      have := update_notin id oqs (oqs.map f) (upd qp id (f id)) hk
      simp only [updateFromBuffer] at this
      rw [this]
      simp [upd]

theorem find_sorted {α : Type} (l : List (Nat × α)) (hs : (l.map Prod.fst).Pairwise (· < ·))
    (i : Nat) (b : Nat × α) (hb : l[i]? = some b) (p : Nat) (hp : b.1 = p) :
    l.find? (fun b => decide (b.1 = p)) = some b ∧
    l.findIdx? (fun b => decide (b.1 = p)) = some i := by
  induction l generalizing i with
  | nil => simp at hb
  | cons a l ih =>
    simp only [List.map_cons, List.pairwise_cons] at hs
    cases i with
    | zero =>
      simp only [List.getElem?_cons_zero, Option.some.injEq] at hb
      subst hb
      simp [List.find?_cons, List.findIdx?_cons, hp]
    | succ i =>
      simp only [List.getElem?_cons_succ] at hb
      have hlt := hs.1 b.1 (List.mem_map_of_mem (List.mem_of_getElem? hb))
      have hne : ¬ a.1 = p := by omega
      have := ih hs.2 i hb
      constructor
      · rw [List.find?_cons_of_neg (by simpa using hne)]
        exact this.1
      · rw [List.findIdx?_cons]
        simp [hne, this.2]

end Fclaw.Overlap
