/-
Lemmas for C44 and C64: what timers add up to, and which timers run where in the library.
-/
import Verif.Timer.Spec
import Mathlib.Tactic.Ring
import Mathlib.Tactic.Linarith
import Mathlib.Tactic.SplitIfs

set_option autoImplicit false
set_option linter.unusedSimpArgs false
set_option linter.unusedVariables false
namespace Fclaw.Timer

theorem run_nil (s : State) : run s [] = some s := rfl

theorem run_cons (s : State) (e : Ev × Rat) (es : List (Ev × Rat)) : run s (e :: es) = (step s e).bind fun s => run s es := by
  unfold run; rw [List.foldlM_cons]; rfl

theorem run_append (s : State) (a b : List (Ev × Rat)) : run s (a ++ b) = (run s a).bind fun s => run s b := by
  unfold run; rw [List.foldlM_append]; rfl

/-! ### One timer -/

def one (t : Timer) : Call × Rat → Option Timer
  | (.start, w) => start w t
  | (.stop, w) => stop w t

def runOne (t : Timer) (cs : List (Call × Rat)) : Option Timer := cs.foldlM one t

theorem runOne_cons (t : Timer) (c : Call × Rat) (cs : List (Call × Rat)) :
    runOne t (c :: cs) = (one t c).bind fun t => runOne t cs := by
  unfold runOne; rw [List.foldlM_cons]; rfl

theorem runOne_spans (cs : List (Call × Rat)) : ∀ t : Timer, t.running = false →
    match runOne t cs, spans cs with
    | some t', some l => t'.cumulative = t.cumulative + lengths l
    | none, none => True
    | _, _ => False := by
  induction cs using spans.induct with
  | case1 => intro t ht; simp [runOne, spans, lengths]
  | case2 w => intro t ht; simp [runOne_cons, one, start, ht, spans, lengths, runOne]
  | case3 a b es ih =>
    intro t ht
    have := ih { { t with started := a, stopped := 0, running := true } with
      stopped := b, cumulative := t.cumulative + (b - a), running := false } rfl
    simp only [runOne_cons, one, start, ht, Bool.not_false, if_true, Option.bind_some, stop, spans]
    cases h1 : runOne { running := false, started := a, stopped := b, cumulative := t.cumulative + (b - a) } es with
    | none =>
      rw [h1] at this
      cases h2 : spans es with
      | none => simp
      | some l => rw [h2] at this; exact this.elim
    | some t' =>
      rw [h1] at this
      cases h2 : spans es with
      | none => rw [h2] at this; exact this.elim
      | some l =>
        rw [h2] at this
        simp only [Option.map_some]
        simp only [lengths, List.map_cons, List.sum_cons] at this ⊢
        rw [this]; ring
  | case4 cs h1 h2 h3 =>
    intro t ht
    have hs : spans cs = none := by
      unfold spans
      split
      · exact absurd rfl h1
      · exact absurd rfl (h2 _)
      · exact absurd rfl (h3 _ _ _)
      · rfl
    rw [hs]
    have : runOne t cs = none := by
      cases cs with
      | nil => exact absurd rfl h1
      | cons c cs =>
        obtain ⟨k, w⟩ := c
        cases k with
        | stop => simp [runOne_cons, one, stop, ht]
        | start =>
          cases cs with
          | nil => exact absurd rfl (h2 _)
          | cons c cs =>
            obtain ⟨k, w'⟩ := c
            cases k with
            | start => simp [runOne_cons, one, start, ht]
            | stop => exact absurd rfl (h3 _ _ _)
    rw [this]
    trivial

theorem run_one (n : Name) (es : List (Ev × Rat)) : ∀ (s s' : State), (∀ e ∈ es, plain e.1 = true) → run s es = some s' →
    runOne (s n) (calls n es) = some (s' n) := by
  induction es with
  | nil => intro s s' _ h; obtain rfl := Option.some.inj h; rfl
  | cons e es ih =>
    intro s s' hp h
    obtain ⟨e, w⟩ := e
    rw [run_cons] at h
    cases h1 : step s (e, w) with
    | none => rw [h1] at h; simp at h
    | some s1 =>
      rw [h1] at h
      have rest := ih s1 s' (fun e he => hp e (List.mem_cons_of_mem _ he)) h
      have key : ∀ (k : Name) (f : Timer → Option Timer), (f (s k)).map (s.set k) = some s1 → (k = n → f (s n) = some (s1 n)) ∧ (k ≠ n → s1 n = s n) := by
        intro k f hf
        cases hk : f (s k) with
        | none => rw [hk] at hf; simp at hf
        | some t =>
          rw [hk] at hf
          simp only [Option.map_some, Option.some.injEq] at hf
          subst hf
          refine ⟨?_, ?_⟩
          · rintro rfl; simp [State.set, hk]
          · intro hne; simp [State.set, Ne.symm hne]
      cases e with
      | start k =>
        obtain ⟨a, b⟩ := key k (start w) h1
        simp only [calls]
        split_ifs with hk
        · rw [runOne_cons]; simp only [one]; rw [a hk]; exact rest
        · rw [← b hk]; exact rest
      | stop k =>
        obtain ⟨a, b⟩ := key k (stop w) h1
        simp only [calls]
        split_ifs with hk
        · rw [runOne_cons]; simp only [one]; rw [a hk]; exact rest
        · rw [← b hk]; exact rest
      | reset => have := hp _ (List.mem_cons_self ..); simp [plain] at this
      | check ns => have := hp _ (List.mem_cons_self ..); simp [plain] at this

theorem run_all_some (es : List (Ev × Rat)) : ∀ s : State, (∀ e ∈ es, plain e.1 = true) →
    (∀ n, (runOne (s n) (calls n es)).isSome) → (run s es).isSome := by
  induction es with
  | nil => intro s _ _; rfl
  | cons e es ih =>
    intro s hp h
    obtain ⟨e, w⟩ := e
    rw [run_cons]
    have key : ∀ (k : Name) (f : Timer → Option Timer) (c : Call), step s (e, w) = (f (s k)).map (s.set k) →
        (∀ t, one t (c, w) = f t) → (∀ n, calls n ((e, w) :: es) = if k = n then (c, w) :: calls n es else calls n es) →
        ((step s (e, w)).bind fun s => run s es).isSome := by
      intro k f c hs hc hcalls
      have hk := h k
      rw [hcalls k, if_pos rfl, runOne_cons, hc] at hk
      cases hf : f (s k) with
      | none => rw [hf] at hk; simp at hk
      | some t =>
        rw [hf] at hk
        rw [hs, hf]
        simp only [Option.map_some, Option.bind_some]
        refine ih _ (fun e he => hp e (List.mem_cons_of_mem _ he)) ?_
        intro n
        by_cases hn : k = n
        · subst hn; simpa [State.set] using hk
        · have := h n
          rw [hcalls n, if_neg hn] at this
          simpa [State.set, Ne.symm hn] using this
    cases e with
    | start k => exact key k (start w) .start rfl (fun _ => rfl) (fun n => by simp [calls])
    | stop k => exact key k (stop w) .stop rfl (fun _ => rfl) (fun n => by simp [calls])
    | reset => have := hp _ (List.mem_cons_self ..); simp [plain] at this
    | check ns => have := hp _ (List.mem_cons_self ..); simp [plain] at this

/-! ### The timers that are running, last started first -/

/-- What a program does to the running timers; `none` if it might start a running timer, stop one that is not
running, or start an exclusive timer while another is running or WALLTIME is not. -/
def post (r : List Name) : Prog → Option (List Name)
  | .skip => some r
  | .ev (.start n) =>
    if n ∈ r ∨ (n ∈ exclusive ∧ (.walltime ∉ r ∨ r.any (· ∈ exclusive))) then none else some (n :: r)
  | .ev (.stop n) => if n ∉ r ∨ (n = .walltime ∧ r.any (· ∈ exclusive)) then none else some (r.erase n)
  | .ev (.check ns) => if ns.any (· ∈ r) then none else some r
  | .ev .reset => none
  | .seq p q => (post r p).bind fun r => post r q
  | .alt p q => (post r p).bind fun a => (post r q).bind fun b => if a = b then some a else none
  | .loop p => (post r p).bind fun a => if a = r then some r else none

structure Inv (r : List Name) (s : State) (w : Rat) : Prop where
  running : ∀ n, (s n).running = decide (n ∈ r)
  nodup : r.Nodup
  excl : ∀ a ∈ r, a ∈ exclusive → .walltime ∈ r ∧ ∀ b ∈ r, b ∈ exclusive → b = a
  nonneg : ∀ n, 0 ≤ (s n).cumulative ∧ ((s n).running = true → (s n).started ≤ w)
  sum : (exclusive.map fun n => elapsed (s n) w).sum ≤ elapsed (s .walltime) w

theorem sum_unique (r : List Name) (d : Rat) (hd : 0 ≤ d) (l : List Name) (hl : l.Nodup)
    (hu : ∀ a ∈ l, a ∈ r → ∀ b ∈ l, b ∈ r → b = a) : (l.map fun n => if n ∈ r then d else 0).sum ≤ d := by
  induction l with
  | nil => simpa using hd
  | cons a l ih =>
    rw [List.nodup_cons] at hl
    simp only [List.map_cons, List.sum_cons]
    by_cases ha : a ∈ r
    · have : (l.map fun n => if n ∈ r then d else 0).sum = 0 := by
        apply List.sum_eq_zero
        intro x hx
        rw [List.mem_map] at hx
        obtain ⟨b, hb, rfl⟩ := hx
        by_cases hbr : b ∈ r
        · have := hu a (List.mem_cons_self ..) ha b (List.mem_cons_of_mem _ hb) hbr
          subst this
          exact absurd hb hl.1
        · rw [if_neg hbr]
      rw [if_pos ha, this]; simp
    · rw [if_neg ha, zero_add]
      exact ih hl.2 (fun a h1 h2 b h3 h4 => hu a (List.mem_cons_of_mem _ h1) h2 b (List.mem_cons_of_mem _ h3) h4)

theorem exclusive_nodup : exclusive.Nodup := by decide

theorem sum_zero (r : List Name) (d : Rat) (l : List Name) (hu : ∀ a ∈ l, a ∉ r) : (l.map fun n => if n ∈ r then d else 0).sum = 0 := by
  apply List.sum_eq_zero
  intro x hx
  rw [List.mem_map] at hx
  obtain ⟨b, hb, rfl⟩ := hx
  rw [if_neg (hu b hb)]

theorem Inv.later {r : List Name} {s : State} {w : Rat} (h : Inv r s w) (w' : Rat) (hw : w ≤ w') : Inv r s w' := by
  have el : ∀ n, elapsed (s n) w' = elapsed (s n) w + if n ∈ r then w' - w else 0 := by
    intro n
    unfold elapsed
    rw [h.running n]
    by_cases hn : n ∈ r
    · simp only [hn, decide_true, if_true]; ring
    · simp [hn]
  have es : ∀ l : List Name, (l.map fun n => elapsed (s n) w').sum =
      (l.map fun n => elapsed (s n) w).sum + (l.map fun n => if n ∈ r then w' - w else 0).sum := by
    intro l
    induction l with
    | nil => simp
    | cons a l ih => simp only [List.map_cons, List.sum_cons, ih, el a]; ring
  refine ⟨h.running, h.nodup, h.excl, fun n => ⟨(h.nonneg n).1, fun hr => le_trans ((h.nonneg n).2 hr) hw⟩, ?_⟩
  rw [es, el .walltime]
  have := h.sum
  by_cases hx : ∃ a ∈ exclusive, a ∈ r
  · obtain ⟨a, ha, har⟩ := hx
    obtain ⟨h1, h2⟩ := h.excl a har ha
    rw [if_pos h1]
    have := sum_unique r (w' - w) (by linarith) exclusive exclusive_nodup (by
      intro a ha har b hb hbr
      exact (h.excl a har ha).2 b hbr hb)
    linarith
  · have hz := sum_zero r (w' - w) exclusive (fun a ha har => hx ⟨a, ha, har⟩)
    rw [hz]
    split_ifs <;> linarith

theorem set_elapsed (s : State) (n : Name) (t : Timer) (w : Rat) (ht : elapsed t w = elapsed (s n) w) (k : Name) :
    elapsed (s.set n t k) w = elapsed (s k) w := by
  unfold State.set
  split_ifs with h
  · rw [h, ht]
  · rfl

theorem step_inv {r r' : List Name} {s : State} {w : Rat} (h : Inv r s w) (e : Ev) (hp : post r (.ev e) = some r') :
    ∃ s', step s (e, w) = some s' ∧ Inv r' s' w := by
  cases e with
  | reset => simp [post] at hp
  | check ns =>
    unfold post at hp
    split_ifs at hp with hc
    obtain rfl := Option.some.inj hp
    refine ⟨s, ?_, h⟩
    unfold step
    dsimp only
    rw [if_pos]
    rw [List.all_eq_true]
    intro n hn
    rw [h.running n]
    simp only [List.any_eq_true, decide_eq_true_eq, not_exists, not_and] at hc
    simp [hc n hn]
  | start n =>
    unfold post at hp
    split_ifs at hp with hc
    obtain rfl := Option.some.inj hp
    simp only [not_or, not_and, Decidable.not_not, List.any_eq_true, decide_eq_true_eq, not_exists] at hc
    obtain ⟨c1, c2⟩ := hc
    have hr : (s n).running = false := by rw [h.running]; simp [c1]
    refine ⟨s.set n { s n with started := w, stopped := 0, running := true }, by simp [step, start, hr], ?_⟩
    have el := set_elapsed s n { s n with started := w, stopped := 0, running := true } w (by simp [elapsed, hr])
    refine ⟨?_, List.nodup_cons.2 ⟨c1, h.nodup⟩, ?_, ?_, ?_⟩
    · intro k
      unfold State.set
      split_ifs with hk
      · simp [hk]
      · rw [h.running k]; simp [hk]
    · intro a ha hx
      rw [List.mem_cons] at ha
      rcases ha with rfl | ha
      · obtain ⟨d1, d2⟩ := c2 hx
        refine ⟨List.mem_cons_of_mem _ d1, ?_⟩
        intro b hb hbx
        rw [List.mem_cons] at hb
        rcases hb with rfl | hb
        · rfl
        · exact absurd hbx (d2 b hb)
      · obtain ⟨d1, d2⟩ := h.excl a ha hx
        refine ⟨List.mem_cons_of_mem _ d1, ?_⟩
        intro b hb hbx
        rw [List.mem_cons] at hb
        rcases hb with rfl | hb
        · exact absurd hx ((c2 hbx).2 a ha)
        · exact d2 b hb hbx
    · intro k
      unfold State.set
      split_ifs with hk
      · exact ⟨(h.nonneg n).1, fun _ => le_refl _⟩
      · exact h.nonneg k
    · simp only [el]; exact h.sum
  | stop n =>
    unfold post at hp
    split_ifs at hp with hc
    obtain rfl := Option.some.inj hp
    simp only [not_or, not_and, Decidable.not_not, List.any_eq_true, decide_eq_true_eq, not_exists] at hc
    obtain ⟨c1, c2⟩ := hc
    have hr : (s n).running = true := by rw [h.running]; simp [c1]
    refine ⟨s.set n { s n with stopped := w, cumulative := (s n).cumulative + (w - (s n).started), running := false },
      by simp [step, stop, hr], ?_⟩
    have el := set_elapsed s n { s n with stopped := w, cumulative := (s n).cumulative + (w - (s n).started), running := false } w
      (by simp [elapsed, hr])
    have me : ∀ k, k ∈ r.erase n ↔ k ≠ n ∧ k ∈ r := fun k => h.nodup.mem_erase_iff
    refine ⟨?_, h.nodup.erase n, ?_, ?_, ?_⟩
    · intro k
      unfold State.set
      split_ifs with hk
      · simp [me, hk]
      · rw [h.running k]; simp [me, hk]
    · intro a ha hx
      rw [me] at ha
      obtain ⟨d1, d2⟩ := h.excl a ha.2 hx
      refine ⟨?_, fun b hb hbx => d2 b ((me b).1 hb).2 hbx⟩
      rw [me]
      refine ⟨?_, d1⟩
      rintro rfl
      exact c2 rfl a ha.2 hx
    · intro k
      unfold State.set
      split_ifs with hk
      · refine ⟨?_, fun hf => by simp at hf⟩
        have h1 := (h.nonneg n).1
        have h2 := (h.nonneg n).2 hr
        dsimp only
        linarith
      · exact h.nonneg k
    · simp only [el]; exact h.sum

/-- Programs that pass the analysis make no wrong calls, whatever the clock shows. -/
theorem trace_inv {p : Prog} {tr : List Ev} (ht : Trace p tr) : ∀ (r r' : List Name) (s : State) (w : Rat) (ws : List Rat), post r p = some r' →
    Inv r s w → (∀ x ∈ ws, w ≤ x) → ws.Pairwise (· ≤ ·) → ws.length = tr.length →
    ∃ s' w', run s (tr.zip ws) = some s' ∧ Inv r' s' w' ∧ w ≤ w' ∧ ∀ x, w ≤ x → (∀ y ∈ ws, y ≤ x) → w' ≤ x := by
  have seqCase : ∀ {a b : List Ev} {r r1 r' : List Name} {s : State} {w : Rat} {ws : List Rat},
      (∀ (s : State) (w : Rat) (ws : List Rat), Inv r s w → (∀ x ∈ ws, w ≤ x) → ws.Pairwise (· ≤ ·) → ws.length = a.length →
        ∃ s' w', run s (a.zip ws) = some s' ∧ Inv r1 s' w' ∧ w ≤ w' ∧ ∀ x, w ≤ x → (∀ y ∈ ws, y ≤ x) → w' ≤ x) →
      (∀ (s : State) (w : Rat) (ws : List Rat), Inv r1 s w → (∀ x ∈ ws, w ≤ x) → ws.Pairwise (· ≤ ·) → ws.length = b.length →
        ∃ s' w', run s (b.zip ws) = some s' ∧ Inv r' s' w' ∧ w ≤ w' ∧ ∀ x, w ≤ x → (∀ y ∈ ws, y ≤ x) → w' ≤ x) →
      Inv r s w → (∀ x ∈ ws, w ≤ x) → ws.Pairwise (· ≤ ·) → ws.length = (a ++ b).length →
      ∃ s' w', run s ((a ++ b).zip ws) = some s' ∧ Inv r' s' w' ∧ w ≤ w' ∧ ∀ x, w ≤ x → (∀ y ∈ ws, y ≤ x) → w' ≤ x := by
    intro a b r r1 r' s w ws iha ihb hi hw hm hl
    rw [List.length_append] at hl
    have e : ws = ws.take a.length ++ ws.drop a.length := (List.take_append_drop _ _).symm
    rw [e] at hm
    rw [List.pairwise_append] at hm
    obtain ⟨m1, m2, m3⟩ := hm
    have l1 : (ws.take a.length).length = a.length := by rw [List.length_take]; omega
    obtain ⟨s1, w1, g1, g2, g3, g4⟩ := iha s w (ws.take a.length) hi (fun x hx => hw x (List.mem_of_mem_take hx)) m1 l1
    obtain ⟨s2, w2, k1, k2, k3, k4⟩ := ihb s1 w1 (ws.drop a.length) g2
      (fun x hx => g4 x (hw x (List.mem_of_mem_drop hx)) (fun y hy => m3 y hy x hx)) m2 (by rw [List.length_drop]; omega)
    refine ⟨s2, w2, ?_, k2, le_trans g3 k3, ?_⟩
    · rw [e, List.zip_append l1.symm, run_append, g1]
      exact k1
    · intro x hx hall
      exact k4 x (g4 x hx fun y hy => hall y (List.mem_of_mem_take hy)) fun y hy => hall y (List.mem_of_mem_drop hy)
  induction ht with
  | skip =>
    intro r r' s w ws hp hi hw hm hl
    simp only [post, Option.some.injEq] at hp
    subst hp
    exact ⟨s, w, by simp [run_nil], hi, le_refl _, fun x hx _ => hx⟩
  | ev e =>
    intro r r' s w ws hp hi hw hm hl
    match ws, hl with
    | [x], _ =>
      have hx := hw x (List.mem_cons_self ..)
      obtain ⟨s', g1, g2⟩ := step_inv (hi.later x hx) e hp
      exact ⟨s', x, by simp [run_cons, run_nil, g1], g2, hx, fun y _ h => h x (List.mem_cons_self ..)⟩
  | @seq p q a b _ _ iha ihb =>
    intro r r' s w ws hp hi hw hm hl
    simp only [post] at hp
    cases hp1 : post r p with
    | none => rw [hp1] at hp; simp at hp
    | some r1 =>
      rw [hp1] at hp
      exact seqCase (fun s w ws => iha r r1 s w ws hp1) (fun s w ws => ihb r1 r' s w ws hp) hi hw hm hl
  | @left p q a _ ih =>
    intro r r' s w ws hp hi hw hm hl
    simp only [post] at hp
    cases hp1 : post r p with
    | none => rw [hp1] at hp; simp at hp
    | some r1 =>
      rw [hp1] at hp
      simp only [Option.bind_some] at hp
      cases hp2 : post r q with
      | none => rw [hp2] at hp; simp at hp
      | some r2 =>
        rw [hp2] at hp
        simp only [Option.bind_some] at hp
        split_ifs at hp with he
        obtain rfl := Option.some.inj hp
        exact ih r r1 s w ws hp1 hi hw hm hl
  | @right p q a _ ih =>
    intro r r' s w ws hp hi hw hm hl
    simp only [post] at hp
    cases hp1 : post r p with
    | none => rw [hp1] at hp; simp at hp
    | some r1 =>
      rw [hp1] at hp
      simp only [Option.bind_some] at hp
      cases hp2 : post r q with
      | none => rw [hp2] at hp; simp at hp
      | some r2 =>
        rw [hp2] at hp
        simp only [Option.bind_some] at hp
        split_ifs at hp with he
        obtain rfl := Option.some.inj hp
        subst he
        exact ih r r1 s w ws hp2 hi hw hm hl
  | done p =>
    intro r r' s w ws hp hi hw hm hl
    simp only [post] at hp
    cases hp1 : post r p with
    | none => rw [hp1] at hp; simp at hp
    | some r1 =>
      rw [hp1] at hp
      simp only [Option.bind_some] at hp
      split_ifs at hp with he
      obtain rfl := Option.some.inj hp
      exact ⟨s, w, by simp [run_nil], hi, le_refl _, fun x hx _ => hx⟩
  | @more p a b _ _ iha ihb =>
    intro r r' s w ws hp hi hw hm hl
    have hp0 := hp
    simp only [post] at hp
    cases hp1 : post r p with
    | none => rw [hp1] at hp; simp at hp
    | some r1 =>
      rw [hp1] at hp
      simp only [Option.bind_some] at hp
      split_ifs at hp with he
      obtain rfl := Option.some.inj hp
      subst he
      exact seqCase (fun s w ws => iha r1 r1 s w ws hp1) (fun s w ws => ihb r1 r1 s w ws hp0) hi hw hm hl

/-! ### The library passes the analysis -/

theorem post_advanceLevel (omp : Bool) (n : Nat) : post [.advance, .walltime] (advanceLevel omp n) = some [.advance, .walltime] := by
  have h0 : post [.advance, .walltime] (singleStep omp) = some [.advance, .walltime] := by cases omp <;> decide
  have h1 : post [.advance, .walltime] (timed .extra1 .skip) = some [.advance, .walltime] := by decide
  induction n with
  | zero => exact h0
  | succ n ih =>
    simp only [advanceLevel, post, h0, Option.bind_some, Prog.opt, ih]
    simp [h1]

theorem post_advanceAll (omp : Bool) (n : Nat) : post [.walltime] (advanceAll omp n) = some [.walltime] := by
  have h1 : post [.advance, .walltime] (ghostUpdate (some .advance) ;; timeSync.opt) = some [.advance, .walltime] := by decide +kernel
  have h0 : post [.walltime] (.ev (.start .advance)) = some [.advance, .walltime] := by decide
  have h2 : post [.advance, .walltime] (.ev (.stop .advance)) = some [.walltime] := by decide
  have h3 : post [.advance, .walltime] (.loop (advanceLevel omp n ;; (ghostUpdate (some .advance) ;; timeSync.opt).opt)) = some [.advance, .walltime] := by
    rw [post, post, post_advanceLevel, Option.bind_some, Prog.opt, post, h1]
    simp [post]
  unfold advanceAll timed
  rw [post, h0, Option.bind_some, post, post, h3, Option.bind_some, h1, Option.bind_some, h2]

theorem post_timeStep (omp : Bool) (n : Nat) : post [.walltime] (timeStep omp n) = some [.walltime] := by
  induction n with
  | zero => exact post_advanceAll omp 0
  | succ n ih =>
    rw [timeStep, post, post_advanceAll, Option.bind_some, ih]
    simp

theorem post_run (omp : Bool) (n : Nat) : post [.walltime] (runProg omp n) = some [.walltime] := by
  have h1 : post [.walltime] outputFrame = some [.walltime] := by decide
  have h2 : post [.walltime] diagnosticsGather = some [.walltime] := by decide
  have h3 : post [.walltime] regrid = some [.walltime] := by decide +kernel
  have h4 : post [.walltime] (timed .cflComm .skip) = some [.walltime] := by decide
  have h5 := post_timeStep omp n
  simp [runProg, post, Prog.opt, h1, h2, h3, h4, h5]

theorem post_body (omp : Bool) (n : Nat) : post [.walltime]
    (.loop (.alt (runProg omp n) (.alt (timeStep omp n) (.alt regrid (.alt ellipticSolve (.alt (ghostUpdate none) (.alt outputFrame diagnosticsGather))))))) =
    some [.walltime] := by
  have h1 : post [.walltime] outputFrame = some [.walltime] := by decide
  have h2 : post [.walltime] diagnosticsGather = some [.walltime] := by decide
  have h3 : post [.walltime] regrid = some [.walltime] := by decide +kernel
  have h4 : post [.walltime] ellipticSolve = some [.walltime] := by decide
  have h6 : post [.walltime] (ghostUpdate none) = some [.walltime] := by decide +kernel
  have h5 := post_timeStep omp n
  have h7 := post_run omp n
  simp [post, h1, h2, h3, h4, h5, h6, h7]

theorem post_init : post [] initRest = some [.walltime] := by decide +kernel

theorem post_end : post [.walltime] (finalizeBefore ;; report) = some [] := by decide +kernel

theorem inv_init (w : Rat) : Inv [] (fun _ => zero) w := by
  refine ⟨fun n => by simp [zero], List.nodup_nil, ?_, fun n => by simp [zero], ?_⟩
  · intro a ha; simp at ha
  · simp [elapsed, zero, exclusive, ex1, ex2]

end Fclaw.Timer
