/-
C21: the flags and assertions of the code enforce exactly the documented protocol; the wrap has
exactly one owner until it is destroyed, which happens once.
-/
import Verif.Lifecycle.Spec

set_option autoImplicit false
set_option linter.unusedSimpArgs false
namespace Fclaw.Lifecycle

/-- What the flags of domain `i` must be. -/
def Matches (p : PState) (i : Nat) (x : Dom) : Prop :=
  (p.phase = .idle i → x = ⟨true, true, false, false⟩) ∧
  (p.phase = .adapted i → x = ⟨true, true, true, false⟩) ∧
  (p.phase = .partitioned i → x = ⟨true, true, false, true⟩) ∧
  (i ∈ p.old → x = ⟨true, false, false, false⟩) ∧
  (p.phase ≠ .idle i → p.phase ≠ .adapted i → p.phase ≠ .partitioned i → i ∉ p.old →
    x.live = false)

def isCur (ph : Phase) (d : Nat) : Prop := ph = .idle d ∨ ph = .adapted d ∨ ph = .partitioned d

structure R (s : St) (p : PState) : Prop where
  len : s.doms.length = p.num
  nodup : p.old.Nodup
  oldlt : ∀ i ∈ p.old, i < p.num
  cur : ∀ d, isCur p.phase d → d < p.num ∧ d ∉ p.old
  val : ∀ i x, s.doms[i]? = some x → Matches p i x
  wrap : s.wrapDestroyed = if p.phase = .gone then 1 else 0

theorem get_of_lt (s : St) (p : PState) (h : R s p) (i : Nat) (hi : i < p.num) :
    ∃ x, s.doms[i]? = some x := by
  rw [← h.len] at hi
  exact ⟨_, List.getElem?_eq_getElem hi⟩

/-- Replacing the current domain by a new one. -/
theorem R_replace (s : St) (p : PState) (h : R s p) (d : Nat) (ph : Phase) (y : Dom)
    (hcur : isCur p.phase d)
    (hph : (ph = .adapted p.num ∧ y = ⟨true, true, true, false⟩) ∨
      (ph = .partitioned p.num ∧ y = ⟨true, true, false, true⟩)) :
    R ⟨s.doms.set d ⟨true, false, false, false⟩ ++ [y], s.wrapDestroyed⟩ ⟨ph, p.num + 1, d :: p.old⟩ := by
  obtain ⟨hd, hdo⟩ := h.cur d hcur
  have hng : p.phase ≠ .gone := by rcases hcur with e | e | e <;> rw [e] <;> simp
  have hng' : ph ≠ .gone := by rcases hph with e | e <;> rw [e.1] <;> simp
  have hcc : ∀ e, isCur ph e ↔ e = p.num := by
    intro e
    rcases hph with ⟨e1, _⟩ | ⟨e1, _⟩ <;> rw [e1] <;> simp [isCur] <;> exact eq_comm
  refine ⟨by simp [h.len], ?_, ?_, ?_, ?_, ?_⟩
  · simp [h.nodup, hdo]
  · intro i hi
    simp only [List.mem_cons] at hi
    rcases hi with rfl | hi
    · dsimp only; omega
    · have := h.oldlt i hi; dsimp only; omega
  · intro e he
    have he' := (hcc e).mp he
    subst he'
    refine ⟨by dsimp only; omega, ?_⟩
    simp only [List.mem_cons, not_or]
    refine ⟨by omega, fun hc => ?_⟩
    have := h.oldlt _ hc
    omega
  · intro i x hx
    by_cases hin : i = p.num
    · subst hin
      rw [List.getElem?_append_right (by simp [h.len])] at hx
      simp [h.len] at hx
      subst hx
      have hno : p.num ∉ d :: p.old := by
        simp only [List.mem_cons, not_or]
        exact ⟨by omega, fun hc => by have := h.oldlt _ hc; omega⟩
      unfold Matches
      rcases hph with ⟨e1, e2⟩ | ⟨e1, e2⟩ <;> subst e1 e2 <;> simp [hno] <;>
        (intro hc; exact absurd (by simpa using hc) hno)
    · have hlt : i < p.num := by
        have hl := (List.getElem?_eq_some_iff.mp hx).1
        simp [h.len] at hl
        omega
      rw [List.getElem?_append_left (by simp [h.len]; exact hlt)] at hx
      have hnc : ¬ isCur ph i := fun hc => hin ((hcc i).mp hc)
      simp only [isCur, not_or] at hnc
      by_cases hid : i = d
      · subst hid
        rw [List.getElem?_set_self (by rw [h.len]; exact hlt)] at hx
        simp only [Option.some.injEq] at hx
        subst hx
        exact ⟨fun e => absurd e hnc.1, fun e => absurd e hnc.2.1, fun e => absurd e hnc.2.2,
          fun _ => rfl, fun _ _ _ hc => absurd (List.mem_cons_self) hc⟩
      · rw [List.getElem?_set_ne (Ne.symm hid)] at hx
        have hv := h.val i x hx
        have hni : ¬ isCur p.phase i := by
          intro hc
          apply hid
          rcases hc with e | e | e <;> rcases hcur with e' | e' | e' <;> rw [e] at e' <;> cases e' <;>
            rfl
        simp only [isCur, not_or] at hni
        refine ⟨fun e => absurd e hnc.1, fun e => absurd e hnc.2.1, fun e => absurd e hnc.2.2, ?_, ?_⟩
        · intro ho
          simp only [List.mem_cons, hid, false_or] at ho
          exact hv.2.2.2.1 ho
        · intro _ _ _ ho
          simp only [List.mem_cons, not_or] at ho
          exact hv.2.2.2.2 hni.1 hni.2.1 hni.2.2 ho.2
  · rw [h.wrap]
    simp [hng, hng']

/-- Changing the flags of the current domain so that it is idle. -/
theorem R_idle (s : St) (p : PState) (h : R s p) (d : Nat) (hcur : isCur p.phase d) :
    R ⟨s.doms.set d ⟨true, true, false, false⟩, s.wrapDestroyed⟩ ⟨.idle d, p.num, p.old⟩ := by
  obtain ⟨hd, hdo⟩ := h.cur d hcur
  have hng : p.phase ≠ .gone := by rcases hcur with e | e | e <;> rw [e] <;> simp
  refine ⟨by simp [h.len], h.nodup, h.oldlt, ?_, ?_, ?_⟩
  · intro e he
    rcases he with e1 | e1 | e1
    · simp at e1; subst e1; exact ⟨hd, hdo⟩
    · simp at e1
    · simp at e1
  · intro i x hx
    by_cases hid : i = d
    · subst hid
      rw [List.getElem?_set_self (by rw [h.len]; exact hd)] at hx
      simp only [Option.some.injEq] at hx
      subst hx
      exact ⟨fun _ => rfl, by simp, by simp, fun ho => absurd ho hdo, fun hc => absurd rfl hc⟩
    · rw [List.getElem?_set_ne (Ne.symm hid)] at hx
      have hv := h.val i x hx
      have hni : ¬ isCur p.phase i := by
        intro hc
        apply hid
        rcases hc with e | e | e <;> rcases hcur with e' | e' | e' <;> rw [e] at e' <;> cases e' <;>
          rfl
      simp only [isCur, not_or] at hni
      refine ⟨fun e => ?_, by simp, by simp, hv.2.2.2.1, fun _ _ _ ho =>
        hv.2.2.2.2 hni.1 hni.2.1 hni.2.2 ho⟩
      simp at e
      exact absurd e.symm hid
  · rw [h.wrap]
    simp [hng]

/-- One call: the code and the protocol agree. -/
theorem step_sim (s : St) (p : PState) (h : R s p) (o : Op) :
    (∃ t q, exec s o = some t ∧ allowed p o = some q ∧ R t q) ∨
    (exec s o = none ∧ allowed p o = none) := by
  have hnone : ∀ d, s.doms[d]? = none → ¬ isCur p.phase d ∧ d ∉ p.old := by
    intro d hd
    have hle : p.num ≤ d := by
      rw [List.getElem?_eq_none_iff, h.len] at hd
      exact hd
    exact ⟨fun hc => by have := (h.cur d hc).1; omega,
      fun hc => by have := h.oldlt d hc; omega⟩
  -- the possible flags of a domain
  have hcases : ∀ d x, s.doms[d]? = some x →
      (p.phase = .idle d ∧ x = ⟨true, true, false, false⟩) ∨
      (p.phase = .adapted d ∧ x = ⟨true, true, true, false⟩) ∨
      (p.phase = .partitioned d ∧ x = ⟨true, true, false, true⟩) ∨
      (¬ isCur p.phase d ∧ d ∈ p.old ∧ x = ⟨true, false, false, false⟩) ∨
      (¬ isCur p.phase d ∧ d ∉ p.old ∧ x.live = false) := by
    intro d x hx
    have hv := h.val d x hx
    by_cases h1 : p.phase = .idle d
    · exact Or.inl ⟨h1, hv.1 h1⟩
    · by_cases h2 : p.phase = .adapted d
      · exact Or.inr (Or.inl ⟨h2, hv.2.1 h2⟩)
      · by_cases h3 : p.phase = .partitioned d
        · exact Or.inr (Or.inr (Or.inl ⟨h3, hv.2.2.1 h3⟩))
        · have hn : ¬ isCur p.phase d := by simp [isCur, h1, h2, h3]
          by_cases h4 : d ∈ p.old
          · exact Or.inr (Or.inr (Or.inr (Or.inl ⟨hn, h4, hv.2.2.2.1 h4⟩)))
          · exact Or.inr (Or.inr (Or.inr (Or.inr ⟨hn, h4, hv.2.2.2.2 h1 h2 h3 h4⟩)))
  cases o with
  | adapt d changed =>
    cases hx : s.doms[d]? with
    | none =>
      have := (hnone d hx).1
      simp only [isCur, not_or] at this
      right
      simp [exec, allowed, hx, this.1]
    | some x =>
      rcases hcases d x hx with ⟨e, rfl⟩ | ⟨e, rfl⟩ | ⟨e, rfl⟩ | ⟨e, _, rfl⟩ | ⟨e, _, hl⟩
      · left
        cases changed
        · exact ⟨s, p, by simp [exec, hx], by simp [allowed, e], h⟩
        · exact ⟨_, _, by simp [exec, hx, newDom], by simp [allowed, e],
            R_replace s p h d _ _ (Or.inl e) (Or.inl ⟨rfl, rfl⟩)⟩
      · right; simp [exec, allowed, hx, e]
      · right; simp [exec, allowed, hx, e]
      · right
        simp only [isCur, not_or] at e
        simp [exec, allowed, hx, e.1]
      · right
        simp only [isCur, not_or] at e
        simp [exec, allowed, hx, e.1, hl]
  | partition d changed =>
    cases hx : s.doms[d]? with
    | none =>
      have := (hnone d hx).1
      simp only [isCur, not_or] at this
      right
      simp [exec, allowed, hx, this.2.1]
    | some x =>
      rcases hcases d x hx with ⟨e, rfl⟩ | ⟨e, rfl⟩ | ⟨e, rfl⟩ | ⟨e, _, rfl⟩ | ⟨e, _, hl⟩
      · right; simp [exec, allowed, hx, e]
      · left
        cases changed
        · exact ⟨_, _, by simp [exec, hx], by simp [allowed, e],
            R_idle s p h d (Or.inr (Or.inl e))⟩
        · exact ⟨_, _, by simp [exec, hx, newDom], by simp [allowed, e],
            R_replace s p h d _ _ (Or.inr (Or.inl e)) (Or.inr ⟨rfl, rfl⟩)⟩
      · right; simp [exec, allowed, hx, e]
      · right
        simp only [isCur, not_or] at e
        simp [exec, allowed, hx, e.2.1]
      · right
        simp only [isCur, not_or] at e
        simp [exec, allowed, hx, e.2.1, hl]
  | complete d =>
    cases hx : s.doms[d]? with
    | none =>
      have := (hnone d hx).1
      simp only [isCur, not_or] at this
      right
      simp [exec, allowed, hx, this.2.2]
    | some x =>
      rcases hcases d x hx with ⟨e, rfl⟩ | ⟨e, rfl⟩ | ⟨e, rfl⟩ | ⟨e, _, rfl⟩ | ⟨e, _, hl⟩
      · right; simp [exec, allowed, hx, e]
      · right; simp [exec, allowed, hx, e]
      · left
        exact ⟨_, _, by simp [exec, hx], by simp [allowed, e],
          R_idle s p h d (Or.inr (Or.inr e))⟩
      · right
        simp only [isCur, not_or] at e
        simp [exec, allowed, hx, e.2.2]
      · right
        simp only [isCur, not_or] at e
        simp [exec, allowed, hx, e.2.2, hl]
  | destroy d =>
    cases hx : s.doms[d]? with
    | none =>
      have hn := hnone d hx
      have := hn.1
      simp only [isCur, not_or] at this
      right
      simp [exec, allowed, hx, this.1, hn.2]
    | some x =>
      have hdl : d < p.num := by
        have := (List.getElem?_eq_some_iff.mp hx).1
        rw [h.len] at this
        exact this
      rcases hcases d x hx with ⟨e, rfl⟩ | ⟨e, rfl⟩ | ⟨e, rfl⟩ | ⟨e, ho, rfl⟩ | ⟨e, ho, hl⟩
      · left
        obtain ⟨_, hdo⟩ := h.cur d (Or.inl e)
        refine ⟨⟨s.doms.set d ⟨false, true, false, false⟩, s.wrapDestroyed + 1⟩, ⟨.gone, p.num, p.old⟩,
          by simp [exec, hx], by simp [allowed, e], by simp [h.len], h.nodup, h.oldlt, ?_, ?_, ?_⟩
        · intro d' hd'
          rcases hd' with e' | e' | e' <;> simp at e'
        · intro i y hy
          by_cases hid : i = d
          · subst hid
            rw [List.getElem?_set_self (by rw [h.len]; exact hdl)] at hy
            simp only [Option.some.injEq] at hy
            subst hy
            exact ⟨by simp, by simp, by simp, fun hc => absurd hc hdo, fun _ _ _ _ => rfl⟩
          · rw [List.getElem?_set_ne (Ne.symm hid)] at hy
            have hv := h.val i y hy
            have hi1 : p.phase ≠ .idle i := by rw [e]; simpa using Ne.symm hid
            refine ⟨by simp, by simp, by simp, hv.2.2.2.1, fun _ _ _ hc =>
              hv.2.2.2.2 hi1 (by rw [e]; simp) (by rw [e]; simp) hc⟩
        · simp [h.wrap, e]
      · right
        have hdo := (h.cur d (Or.inr (Or.inl e))).2
        simp [exec, allowed, hx, e, hdo]
      · right
        have hdo := (h.cur d (Or.inr (Or.inr e))).2
        simp [exec, allowed, hx, e, hdo]
      · left
        have e' := e
        simp only [isCur, not_or] at e'
        refine ⟨⟨s.doms.set d ⟨false, false, false, false⟩, s.wrapDestroyed⟩,
          ⟨p.phase, p.num, p.old.erase d⟩, by simp [exec, hx], by simp [allowed, e'.1, ho], by simp [h.len],
          h.nodup.erase d, fun i hi => h.oldlt i (List.mem_of_mem_erase hi),
          fun d' hd' => ⟨(h.cur d' hd').1, fun hc => (h.cur d' hd').2 (List.mem_of_mem_erase hc)⟩,
          ?_, h.wrap⟩
        intro i y hy
        by_cases hid : i = d
        · subst hid
          rw [List.getElem?_set_self (by rw [h.len]; exact hdl)] at hy
          simp only [Option.some.injEq] at hy
          subst hy
          refine ⟨fun hc => absurd hc e'.1, fun hc => absurd hc e'.2.1, fun hc => absurd hc e'.2.2,
            fun hc => ?_, fun _ _ _ _ => rfl⟩
          exact absurd hc (h.nodup.not_mem_erase)
        · rw [List.getElem?_set_ne (Ne.symm hid)] at hy
          have hv := h.val i y hy
          refine ⟨hv.1, hv.2.1, hv.2.2.1, fun hc => hv.2.2.2.1 (List.mem_of_mem_erase hc),
            fun a b c hc => hv.2.2.2.2 a b c (fun hm => hc ?_)⟩
          exact (List.mem_erase_of_ne hid).mpr hm
      · right
        simp only [isCur, not_or] at e
        simp [exec, allowed, hx, e.1, ho, hl]

theorem R_start : R start pstart := by
  refine ⟨rfl, by decide, by simp [pstart], ?_, ?_, rfl⟩
  · intro d hd
    rcases hd with e | e | e <;> simp [pstart] at e
    subst e
    simp [pstart]
  · intro i x hx
    match i, hx with
    | 0, hx =>
      simp [start, newDom] at hx
      subst hx
      exact ⟨fun _ => rfl, by simp [pstart], by simp [pstart], by simp [pstart],
        fun hc => absurd rfl hc⟩

theorem run_sim : ∀ (ops : List Op) (s : St) (p : PState), R s p →
    (∃ t q, run s ops = some t ∧ legal p ops = some q ∧ R t q) ∨
    (run s ops = none ∧ legal p ops = none)
  | [], s, p, h => Or.inl ⟨s, p, rfl, rfl, h⟩
  | o :: os, s, p, h => by
    rcases step_sim s p h o with ⟨t, q, h1, h2, h3⟩ | ⟨h1, h2⟩
    · simp only [run, legal, h1, h2]
      exact run_sim os t q h3
    · right
      simp [run, legal, h1, h2]

/-- **C21, protocol.** A history of calls runs without failed assertion exactly if it follows the
documented order. -/
theorem C21_protocol (ops : List Op) :
    (run start ops).isSome = true ↔ (legal pstart ops).isSome = true := by
  rcases run_sim ops start pstart R_start with ⟨t, q, h1, h2, _⟩ | ⟨h1, h2⟩ <;> simp [h1, h2]

/-- **C21, ownership.** After any legal history either the wrap has not been destroyed and there is
exactly one live domain that owns it, or it has been destroyed exactly once and no live domain owns
it. -/
theorem C21_one_owner (ops : List Op) (s : St) (h : run start ops = some s) :
    (s.wrapDestroyed = 0 ∧ ∃ d, owners s = [d]) ∨ (s.wrapDestroyed = 1 ∧ owners s = []) := by
  rcases run_sim ops start pstart R_start with ⟨t, q, h1, h2, hR⟩ | ⟨h1, h2⟩
  · rw [h] at h1
    cases h1
    have hown : ∀ i, (i ∈ owners s ↔ isCur q.phase i) := by
      intro i
      simp only [owners, List.mem_filter, List.mem_range]
      constructor
      · rintro ⟨hi, hp⟩
        rw [List.getElem?_eq_getElem hi] at hp
        simp only [Bool.and_eq_true] at hp
        have hv := hR.val i _ (List.getElem?_eq_getElem hi)
        by_cases hc : isCur q.phase i
        · exact hc
        · have hc' := hc
          simp only [isCur, not_or] at hc'
          by_cases ho : i ∈ q.old
          · rw [hv.2.2.2.1 ho] at hp
            simp at hp
          · rw [hv.2.2.2.2 hc'.1 hc'.2.1 hc'.2.2 ho] at hp
            simp at hp
      · intro hc
        have hi := (hR.cur i hc).1
        rw [← hR.len] at hi
        refine ⟨hi, ?_⟩
        have hv := hR.val i _ (List.getElem?_eq_getElem hi)
        rw [List.getElem?_eq_getElem hi]
        rcases hc with e | e | e
        · rw [hv.1 e]
          rfl
        · rw [hv.2.1 e]
          rfl
        · rw [hv.2.2.1 e]
          rfl
    have hnd : (owners s).Nodup := by
      unfold owners
      exact (List.nodup_range).filter _
    by_cases hg : q.phase = .gone
    · right
      refine ⟨by rw [hR.wrap]; simp [hg], ?_⟩
      rw [List.eq_nil_iff_forall_not_mem]
      intro i hi
      have := (hown i).mp hi
      rw [hg] at this
      rcases this with e | e | e <;> simp at e
    · left
      refine ⟨by rw [hR.wrap]; simp [hg], ?_⟩
      have : ∃ d, isCur q.phase d := by
        cases hp : q.phase with
        | idle d => exact ⟨d, Or.inl rfl⟩
        | adapted d => exact ⟨d, Or.inr (Or.inl rfl)⟩
        | partitioned d => exact ⟨d, Or.inr (Or.inr rfl)⟩
        | gone => exact absurd hp hg
      obtain ⟨d, hd⟩ := this
      refine ⟨d, ?_⟩
      have hall : ∀ i ∈ owners s, i = d := by
        intro i hi
        have hc := (hown i).mp hi
        rcases hc with e | e | e <;> rcases hd with e' | e' | e' <;> rw [e] at e' <;> cases e' <;> rfl
      have hm := (hown d).mpr hd
      match hl : owners s with
      | [] => rw [hl] at hm; simp at hm
      | [a] => rw [hl] at hm; simp at hm; rw [hm]
      | a :: b :: l =>
        rw [hl] at hall hnd
        have h1 := hall a (by simp)
        have h2 := hall b (by simp)
        subst h1 h2
        simp at hnd
  · rw [h] at h1
    simp at h1

/-- **C21, no leak.** When all domains of a legal history have been destroyed, so has the wrap. -/
theorem C21_all_destroyed (ops : List Op) (s : St) (h : run start ops = some s)
    (hall : ∀ x ∈ s.doms, x.live = false) : s.wrapDestroyed = 1 := by
  rcases C21_one_owner ops s h with ⟨_, d, hd⟩ | ⟨h1, _⟩
  · have hm : d ∈ owners s := by rw [hd]; simp
    simp only [owners, List.mem_filter, List.mem_range] at hm
    have h2 := hm.2
    rw [List.getElem?_eq_getElem hm.1] at h2
    dsimp only at h2
    rw [hall _ (List.getElem_mem hm.1)] at h2
    simp at h2
  · exact h1

/-- The usual history: adapt, destroy the old domain, partition, destroy, complete, an adapt and a
partition without effect, destroy. -/
def exOps : List Op :=
  [.adapt 0 true, .destroy 0, .partition 1 true, .destroy 1, .complete 2, .adapt 2 false,
   .adapt 2 true, .partition 3 false, .destroy 2, .destroy 3]
example : (run start exOps).map (fun s => (s.doms.all (fun x => !x.live), s.wrapDestroyed)) =
    some (true, 1) := by decide
example : (legal pstart exOps).isSome = true := by decide
/-- Adapting twice in a row is not legal. -/
example : run start [.adapt 0 true, .adapt 1 true] = none := by decide

end Fclaw.Lifecycle
