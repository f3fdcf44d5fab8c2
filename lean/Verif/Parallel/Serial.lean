import Verif.Parallel.Schedule
import Verif.Parallel.Congr
/-
Helpers for C72: what all processes do together is what one would do that goes through the schedule of a process
with all levels, event by event.
-/
set_option autoImplicit false
set_option linter.unusedSimpArgs false
set_option linter.unusedVariables false
namespace Fclaw.Parallel

open Fort Transform GhostFill CopyGhost Advance

/-- The data of a patch. -/
structure Pst where
  cur : Grid ℚ
  int : Grid ℚ
  last : Grid ℚ
  cfl : ℚ

def Proc.patch (s : Proc) (x : Nat) : Pst := ⟨s.g x false, s.g x true, s.last x, s.cfl x⟩

/-- What the owners of the patches have. -/
def view (M : Mesh) (w : Nat → Proc) (x : Nat) : Pst := (w (M.owner x)).patch x

/-- A step of a patch. -/
def Stepped (B : Problem) (x : Nat) (t dt : ℚ) (a a' : Pst) : Prop :=
  ∃ m n : Wave.Mem, (∀ i j k, m (.q i j k) = a.cur (i, j, k)) ∧ (∀ i j k, m (.aux i j k) = B.aux x t dt i j k) ∧
    Wave.step2Wrap B.z B.o (Wave.fluxOf B.z B.o (B.R x) B.fw) (B.count x) (B.dx x) (B.dy x) dt m = some n ∧
    (∀ i j k, a'.cur (i, j, k) = n (.q i j k)) ∧ a'.int = a.int ∧ a'.last = a.cur ∧ a'.cfl = max a.cfl (n .cflgrid)

/-- Interpolation in time. -/
def Interped (B : Problem) (α : ℚ) (a a' : Pst) : Prop :=
  ∃ q ierror, TimeInterp.setupTimeinterp B.d B.width a.cur a.last α a.int = some (q, ierror) ∧
    a'.int = q ∧ a'.cur = a.cur ∧ a'.last = a.last ∧ a'.cfl = a.cfl

/-- What an event means for a patch. -/
def PatchEv (B : Problem) (M : Mesh) (x : Nat) : Ev → Pst → Pst → Prop
  | .update l t dt _, a, a' => (M.level x = (l : Int) → Stepped B x t dt a a') ∧ (M.level x ≠ (l : Int) → a' = a)
  | .interp l α, a, a' => (M.level x = (l : Int) ∧ hasFine M x → Interped B α a a') ∧
      (¬ (M.level x = (l : Int) ∧ hasFine M x) → a' = a)
  | _, _, _ => False

def stateOf (v : Nat → Pst) : State ℚ := fun x t => if t then (v x).int else (v x).cur

/-- A ghost update. -/
structure Filled (B : Problem) (M : Mesh) (lo : Int) (ti : Bool) (v v' : Nat → Pst) : Prop where
  last : ∀ x ∈ M.patches, (v' x).last = (v x).last
  cfl : ∀ x ∈ M.patches, (v' x).cfl = (v x).cfl
  cur : ∀ x ∈ M.patches, ∀ i j mq, interior B.d i j → comp B.d mq → (v' x).cur (i, j, mq) = (v x).cur (i, j, mq)
  int : ∀ x ∈ M.patches, ∀ i j mq, interior B.d i j → comp B.d mq → (v' x).int (i, j, mq) = (v x).int (i, j, mq)
  ghost : ∀ x ∈ M.patches, lo ≤ M.level x → ∀ i j mq, GhostAll.Due B.d M lo ti x i j → comp B.d mq →
    GhostAll.Expected B.d M B.S lo ti (stateOf v) x false i j mq ((v' x).cur (i, j, mq))

def SerialEv (B : Problem) (M : Mesh) : Ev → (Nat → Pst) → (Nat → Pst) → Prop
  | .ghost lo _ _ ti, v, v' => Filled B M lo ti v v'
  | e, v, v' => ∀ x ∈ M.patches, PatchEv B M x e (v x) (v' x)

def Serial (B : Problem) (M : Mesh) : List Ev → (Nat → Pst) → (Nat → Pst) → Prop
  | [], v, v' => ∀ x ∈ M.patches, v' x = v x
  | e :: es, v, v' => ∃ v1, SerialEv B M e v v1 ∧ Serial B M es v1 v'

/-! ### Rounds -/

section
variable {B : Problem} {M : Mesh} {P : Nat}

def Locals (B : Problem) (M : Mesh) (p : Nat) : List Ev → Proc → Proc → Prop
  | [], s, s' => s' = s
  | e :: es, s, s' => ∃ s1, Local B M p e s s1 ∧ Locals B M p es s1 s'

/-- The events by themselves up to the next one together, that one, and so on. -/
inductive Rounds (B : Problem) (M : Mesh) (P : Nat) : (Nat → List Ev) → (Nat → Proc) → (Nat → Proc) → Prop
  | last (logs : Nat → List Ev) (w w' : Nat → Proc) : (∀ p, p < P → Locals B M p (logs p) (w p) (w' p)) → Rounds B M P logs w w'
  | round (logs L rest : Nat → List Ev) (e : Ev) (w w1 w2 w' : Nat → Proc) : (∀ p, p < P → logs p = L p ++ e :: rest p) →
      (∀ p, p < P → Locals B M p (L p) (w p) (w1 p)) → Together B M P e w1 w2 → Rounds B M P rest w2 w' → Rounds B M P logs w w'

theorem upd_same {α : Type} (f : Nat → α) (p : Nat) (a : α) : upd f p a p = a := by simp [upd]

theorem upd_ne {α : Type} (f : Nat → α) {p q : Nat} (a : α) (h : q ≠ p) : upd f p a q = f q := by simp [upd, h]

theorem exec_rounds {logs : Nat → List Ev} {w w' : Nat → Proc} (h : Exec B M P logs w w') : Rounds B M P logs w w' := by
  induction h with
  | done logs w h => exact .last _ _ _ fun p hp => by rw [h p hp]; rfl
  | one logs w w' p e rest s hp hl hs _ ih =>
    cases ih with
    | last _ _ _ h =>
      refine .last _ _ _ fun q hq => ?_
      have := h q hq
      by_cases hqp : q = p
      · subst hqp
        rw [upd_same, upd_same] at this
        rw [hl]
        exact ⟨s, hs, this⟩
      · rw [upd_ne _ _ hqp, upd_ne _ _ hqp] at this
        exact this
    | round _ L rest' e' _ w1 w2 _ h1 h2 h3 h4 =>
      refine .round _ (upd L p (e :: L p)) rest' e' _ w1 w2 _ (fun q hq => ?_) (fun q hq => ?_) h3 h4
      · have := h1 q hq
        by_cases hqp : q = p
        · subst hqp
          rw [upd_same] at this
          rw [hl, upd_same, this]; rfl
        · rw [upd_ne _ _ hqp] at this
          rw [upd_ne _ _ hqp, this]
      · have := h2 q hq
        by_cases hqp : q = p
        · subst hqp
          rw [upd_same] at this
          rw [upd_same]
          exact ⟨s, hs, this⟩
        · rw [upd_ne _ _ hqp] at this
          rw [upd_ne _ _ hqp]
          exact this
  | all logs rest w w1 w' e hl ht _ ih =>
    exact .round _ (fun _ => []) rest e _ w w1 _ (fun p hp => hl p hp) (fun p hp => rfl) ht ih

/-! ### What a patch sees -/

def isLocal : Ev → Bool
  | .update _ _ _ _ => true
  | .interp _ _ => true
  | _ => false

theorem local_isLocal {p : Nat} {e : Ev} {s s' : Proc} (h : Local B M p e s s') : isLocal e = true := by
  cases e <;> first | rfl | exact h.elim

theorem together_isLocal {e : Ev} {w w' : Nat → Proc} (h : Together B M P e w w') : isLocal e = false := by
  cases e <;> first | rfl | exact h.elim

theorem bare_isLocal (e : Ev) : isLocal (bare e) = isLocal e := by cases e <;> rfl

theorem locals_isLocal {p : Nat} {L : List Ev} : ∀ {s s' : Proc}, Locals B M p L s s' → ∀ e ∈ L, isLocal e = true := by
  induction L with
  | nil => intro s s' _ e he; simp at he
  | cons a L ih =>
    rintro s s' ⟨s1, h1, h2⟩ e he
    rcases List.mem_cons.1 he with rfl | he
    · exact local_isLocal h1
    · exact ih h2 e he

theorem patch_local {p x : Nat} (hx : x ∈ M.patches) (ho : M.owner x = p) {e : Ev} {s s' : Proc} (h : Local B M p e s s') :
    PatchEv B M x (bare e) (s.patch x) (s'.patch x) := by
  have same : Same x s s' → s'.patch x = s.patch x := by
    rintro ⟨h1, h2, h3⟩
    unfold Proc.patch
    rw [h1, h2, h3]
  cases e with
  | update l t dt c =>
    obtain ⟨⟨κ, h1, _⟩, h2⟩ := h
    constructor
    · intro hl
      obtain ⟨m, n, a1, a2, a3, a4, a5, a6, a7, a8⟩ := h1 x ⟨hx, ho, hl⟩
      exact ⟨m, n, a1, a2, a3, a4, a5, a6, by rw [← a7]; exact a8⟩
    · intro hl
      exact same (h2 x fun hm => hl hm.2.2)
  | interp l α =>
    obtain ⟨h1, h2⟩ := h
    constructor
    · rintro ⟨hl, hf⟩
      obtain ⟨q, ie, a1, a2, a3, a4, a5⟩ := h1 x ⟨hx, ho, hl⟩ hf
      exact ⟨q, ie, a1, a2, a3, a4, a5⟩
    · intro hl
      exact same (h2 x fun hm => hl ⟨hm.1.2.2, hm.2⟩)
  | ghost lo hi t ti => exact h.elim
  | sync lo hi => exact h.elim

def PatchRun (B : Problem) (M : Mesh) (x : Nat) : List Ev → Pst → Pst → Prop
  | [], a, a' => a' = a
  | e :: es, a, a' => ∃ a1, PatchEv B M x e a a1 ∧ PatchRun B M x es a1 a'

theorem patch_locals {p x : Nat} (hx : x ∈ M.patches) (ho : M.owner x = p) {L : List Ev} : ∀ {s s' : Proc}, Locals B M p L s s' →
    PatchRun B M x (L.map bare) (s.patch x) (s'.patch x) := by
  induction L with
  | nil => intro s s' h; rw [show s' = s from h]; rfl
  | cons e L ih =>
    rintro s s' ⟨s1, h1, h2⟩
    exact ⟨s1.patch x, patch_local hx ho h1, ih h2⟩

/-- Events that are left out do not concern the patch. -/
theorem patchRun_filter {x lm m : Nat} (hl : (lm : Int) ≤ M.level x) (L : List Ev) (hloc : ∀ e ∈ L, isLocal e = true) :
    ∀ {a a' : Pst}, PatchRun B M x (L.filter (keep lm m)) a a' → PatchRun B M x L a a' := by
  induction L with
  | nil => intro a a' h; exact h
  | cons e L ih =>
    intro a a' h
    have ih' := fun {a a'} => ih (fun e he => hloc e (List.mem_cons_of_mem _ he)) (a := a) (a' := a')
    by_cases hk : keep lm m e = true
    · rw [List.filter_cons_of_pos hk] at h
      obtain ⟨a1, h1, h2⟩ := h
      exact ⟨a1, h1, ih' h2⟩
    · rw [List.filter_cons_of_neg hk] at h
      refine ⟨a, ?_, ih' h⟩
      have := hloc e (List.mem_cons_self ..)
      cases e with
      | update l t dt c =>
        have hlt : ¬ (lm ≤ l) := fun h => hk (by simp [keep, h])
        exact ⟨fun h => by omega, fun _ => rfl⟩
      | interp l α =>
        have hlt : ¬ (lm ≤ l) := fun h => hk (by simp [keep, h])
        exact ⟨fun h => by omega, fun _ => rfl⟩
      | ghost lo hi t ti => simp [isLocal] at this
      | sync lo hi => simp [isLocal] at this

/-- All patches, event by event. -/
theorem serial_append {L : List Ev} (hloc : ∀ e ∈ L, isLocal e = true) : ∀ {rest : List Ev} {v v1 v' : Nat → Pst},
    (∀ x ∈ M.patches, PatchRun B M x L (v x) (v1 x)) →
    (∀ u, (∀ x ∈ M.patches, u x = v1 x) → Serial B M rest u v') → Serial B M (L ++ rest) v v' := by
  induction L with
  | nil => intro rest v v1 v' h hr; exact hr v fun x hx => (h x hx).symm
  | cons e L ih =>
    intro rest v v1 v' h hr
    have : ∀ x, ∃ a, x ∈ M.patches → PatchEv B M x e (v x) a ∧ PatchRun B M x L a (v1 x) := by
      intro x
      by_cases hx : x ∈ M.patches
      · obtain ⟨a, ha⟩ := h x hx
        exact ⟨a, fun _ => ha⟩
      · exact ⟨v x, fun h => absurd h hx⟩
    choose u hu using this
    refine ⟨u, ?_, ih (fun e he => hloc e (List.mem_cons_of_mem _ he)) (fun x hx => (hu x hx).2) hr⟩
    have hl := hloc e (List.mem_cons_self ..)
    cases e with
    | update l t dt c => exact fun x hx => (hu x hx).1
    | interp l α => exact fun x hx => (hu x hx).1
    | ghost lo hi t ti => simp [isLocal] at hl
    | sync lo hi => simp [isLocal] at hl

/-! ### Ghost updates -/

theorem view_state (w : Nat → Proc) : stateOf (view M w) = fun x t => (w (M.owner x)).g x t := by
  funext x t
  cases t <;> rfl

theorem together_filled (hS : GhostAll.Sizes B.d) (hM : M.Ok) (hF : GhostAll.Fits B.d M B.S) (hP : ∀ x ∈ M.patches, M.owner x < P)
    {lo hi : Nat} {t : ℚ} {ti : Bool} (hle : lo ≤ hi) (htop : ∀ x ∈ M.patches, M.level x ≤ (hi : Int)) {w w' : Nat → Proc}
    (h : Together B M P (.ghost lo hi t ti) w w') : Filled B M lo ti (view M w) (view M w') := by
  have hle' : (lo : Int) ≤ hi := by exact_mod_cast hle
  constructor
  · intro x hx
    have := (h _ (hP x hx)).2.1
    show (w' (M.owner x)).last x = (w (M.owner x)).last x
    rw [this]
  · intro x hx
    have := (h _ (hP x hx)).2.2
    show (w' (M.owner x)).cfl x = (w (M.owner x)).cfl x
    rw [this]
  · intro x hx i j mq hi' hm
    obtain ⟨recv, hR, hU⟩ := (h _ (hP x hx)).1
    exact update_frame hS hM hF recv hi hle' htop _ _ _ hU x rfl false i j mq hi' hm
  · intro x hx i j mq hi' hm
    obtain ⟨recv, hR, hU⟩ := (h _ (hP x hx)).1
    exact update_frame hS hM hF recv hi hle' htop _ _ _ hU x rfl true i j mq hi' hm
  · intro x hx hl i j mq hd hm
    obtain ⟨recv, hR, hU⟩ := (h _ (hP x hx)).1
    have A := (GhostAll.update_agree B.d hS M hM B.S hF recv hR lo hi hle' htop ti (M.owner x) (fun q => (w q).g)).2 _ hU
    obtain ⟨r, h1, h2, h3, h4⟩ := GhostAll.due_valid B.d M hM lo hi hle' htop ti (M.owner x) x hx rfl hl i j (Or.inr hd)
    rw [view_state]
    exact A x false r h4 h1 i j mq h2 h3 hm

theorem filled_congr {lo : Int} {ti : Bool} {v u v' : Nat → Pst} (h : Filled B M lo ti v v') (hu : ∀ x ∈ M.patches, u x = v x)
    (hS : GhostAll.Sizes B.d) (hM : M.Ok) (hF : GhostAll.Fits B.d M B.S) : Filled B M lo ti u v' := by
  constructor
  · intro x hx; rw [hu x hx, h.last x hx]
  · intro x hx; rw [hu x hx, h.cfl x hx]
  · intro x hx; rw [hu x hx]; exact h.cur x hx
  · intro x hx; rw [hu x hx]; exact h.int x hx
  · intro x hx hl i j mq hd hm
    refine expected_depends hS hM hF ?_ ?_ hx rfl (h.ghost x hx hl i j mq hd hm)
    · intro y hy i j _; simp only [stateOf]; rw [hu y hy]
    · intro _ y hy _ _ i j _; simp only [stateOf]; rw [hu y hy]

/-! ### All of it -/

/-- Two ways to split a list at the first element of some kind. -/
theorem split_unique {α : Type} (C : α → Bool) : ∀ (a a' b b' : List α) (x x' : α), a ++ x :: b = a' ++ x' :: b' →
    (∀ y ∈ a, C y = true) → (∀ y ∈ a', C y = true) → C x = false → C x' = false → a = a' ∧ x = x' ∧ b = b' := by
  intro a
  induction a with
  | nil =>
    intro a' b b' x x' h _ h2 hx _
    cases a' with
    | nil => simp at h; exact ⟨rfl, h.1, h.2⟩
    | cons y a' =>
      simp at h
      have := h2 y (List.mem_cons_self ..)
      rw [← h.1, hx] at this; cases this
  | cons y a ih =>
    intro a' b b' x x' h h1 h2 hx hx'
    cases a' with
    | nil =>
      simp at h
      have := h1 y (List.mem_cons_self ..)
      rw [h.1, hx'] at this; cases this
    | cons y' a' =>
      simp only [List.cons_append, List.cons.injEq] at h
      obtain ⟨r1, r2, r3⟩ := ih a' b b' x x' h.2 (fun z hz => h1 z (List.mem_cons_of_mem _ hz))
        (fun z hz => h2 z (List.mem_cons_of_mem _ hz)) hx hx'
      exact ⟨by rw [h.1, r1], r2, r3⟩

theorem split_first {α : Type} (C : α → Bool) (l : List α) (h : ∃ x ∈ l, C x = false) :
    ∃ a x b, l = a ++ x :: b ∧ (∀ y ∈ a, C y = true) ∧ C x = false := by
  induction l with
  | nil => obtain ⟨x, hx, _⟩ := h; simp at hx
  | cons y l ih =>
    cases hy : C y with
    | false => exact ⟨[], y, l, rfl, fun z hz => by simp at hz, hy⟩
    | true =>
      obtain ⟨a, x, b, e, h1, h2⟩ := ih (by
        obtain ⟨x, hx, hc⟩ := h
        rcases List.mem_cons.1 hx with rfl | hx
        · rw [hy] at hc; cases hc
        · exact ⟨x, hx, hc⟩)
      refine ⟨y :: a, x, b, by rw [e]; rfl, fun z hz => ?_, h2⟩
      rcases List.mem_cons.1 hz with rfl | hz
      · exact hy
      · exact h1 z hz

theorem keep_collective {lm m : Nat} {e : Ev} (h : isLocal e = false) : keep lm m e = true := by
  cases e <;> first | rfl | cases h

/-- The collective events of the schedule are fit. -/
def GhostsFit (M : Mesh) (L : List Ev) : Prop :=
  ∀ lo hi t ti, Ev.ghost lo hi t ti ∈ L → lo ≤ hi ∧ ∀ x ∈ M.patches, M.level x ≤ (hi : Int)

theorem rounds_serial (hS : GhostAll.Sizes B.d) (hM : M.Ok) (hF : GhostAll.Fits B.d M B.S) (hP : ∀ x ∈ M.patches, M.owner x < P)
    (h0 : 0 < P) {lm : Nat → Nat} {m : Nat} (hlm : ∀ x ∈ M.patches, (lm (M.owner x) : Int) ≤ M.level x)
    {logs : Nat → List Ev} {w w' : Nat → Proc} (h : Rounds B M P logs w w') :
    ∀ L : List Ev, (∀ p, p < P → (logs p).map bare = L.filter (keep (lm p) m)) → GhostsFit M L →
      Serial B M L (view M w) (view M w') := by
  induction h with
  | last logs w w' h =>
    intro L hL _
    have hloc : ∀ e ∈ L, isLocal e = true := by
      intro e he
      cases hb : isLocal e with
      | true => rfl
      | false =>
        have : e ∈ (logs 0).map bare := by rw [hL 0 h0]; exact List.mem_filter.2 ⟨he, keep_collective hb⟩
        obtain ⟨e', he', rfl⟩ := List.mem_map.1 this
        have := locals_isLocal (h 0 h0) e' he'
        rw [bare_isLocal, this] at hb; cases hb
    have := serial_append (B := B) (M := M) (L := L) hloc (rest := []) (v := view M w) (v1 := view M w') (v' := view M w')
      (fun x hx => by
        have := patch_locals hx rfl (h _ (hP x hx))
        rw [hL _ (hP x hx)] at this
        exact patchRun_filter (hlm x hx) L hloc this)
      (fun u hu x hx => (hu x hx).symm)
    rwa [List.append_nil] at this
  | round logs L' rest e w w1 w2 w' h1 h2 h3 _ ih =>
    intro L hL hG
    have he := together_isLocal h3
    obtain ⟨a, e', b, rfl, ha, he'⟩ := split_first isLocal L (by
      refine ⟨bare e, ?_, by rw [bare_isLocal]; exact he⟩
      have : bare e ∈ L.filter (keep (lm 0) m) := by
        rw [← hL 0 h0, h1 0 h0]; simp
      exact (List.mem_filter.1 this).1)
    have key : ∀ p, p < P → (L' p).map bare = a.filter (keep (lm p) m) ∧ bare e = e' ∧
        (rest p).map bare = b.filter (keep (lm p) m) := by
      intro p hp
      have := hL p hp
      rw [h1 p hp, List.map_append, List.map_cons, List.filter_append, List.filter_cons_of_pos (keep_collective he')] at this
      refine split_unique isLocal _ _ _ _ _ _ this ?_ ?_ (by rw [bare_isLocal]; exact he) he'
      · intro y hy
        obtain ⟨z, hz, rfl⟩ := List.mem_map.1 hy
        rw [bare_isLocal]
        exact locals_isLocal (h2 p hp) z hz
      · intro y hy
        exact ha y (List.mem_filter.1 hy).1
    obtain ⟨_, hee, _⟩ := key 0 h0
    subst hee
    refine serial_append ha (v1 := view M w1) (fun x hx => ?_) (fun u hu => ?_)
    · have := patch_locals hx rfl (h2 _ (hP x hx))
      rw [(key _ (hP x hx)).1] at this
      exact patchRun_filter (hlm x hx) a ha this
    · refine ⟨view M w2, ?_, ih b (fun p hp => (key p hp).2.2) fun lo hi t ti hm => hG lo hi t ti (by simp [hm])⟩
      cases e with
      | update l t dt c => cases he
      | interp l α => cases he
      | sync lo hi => exact h3.elim
      | ghost lo hi t ti =>
        obtain ⟨g1, g2⟩ := hG lo hi t ti (by simp [bare])
        exact filled_congr (together_filled hS hM hF hP g1 g2 h3) hu hS hM hF

end

end Fclaw.Parallel
