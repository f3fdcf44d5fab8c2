import Verif.App.Spec
import Mathlib.Data.List.Perm.Basic
/-
C97: how options get their values, and what happens on errors.
-/
set_option autoImplicit false
namespace Fclaw.App

/-! ## Lemmas -/

theorem assign_append (l1 l2 : List Assign) (s : Store) : assign (l1 ++ l2) s = assign l2 (assign l1 s) := by
  simp [assign, List.foldl_append]

theorem assign_silent (l : List Assign) (s : Store) (k : String) (h : Silent l k) : assign l s k = s k := by
  induction l generalizing s with
  | nil => rfl
  | cons a l ih =>
    show assign l (Function.update s a.1 a.2) k = s k
    rw [ih _ fun b hb => h b (by simp [hb]), Function.update_of_ne (h a (by simp)).symm]

theorem assign_sets (l : List Assign) (s : Store) (k v : String) (h : Sets l k v) : assign l s k = v := by
  obtain ⟨l1, l2, rfl, h⟩ := h
  rw [assign_append]
  show assign l2 (Function.update (assign l1 s) k v) k = v
  rw [assign_silent l2 _ k h, Function.update_self]

theorem silent_or_sets (l : List Assign) (k : String) : Silent l k ∨ ∃ v, Sets l k v := by
  induction l with
  | nil => left; intro a ha; simp at ha
  | cons a l ih =>
    rcases ih with h | ⟨v, l1, l2, rfl, h⟩
    · by_cases e : a.1 = k
      · right
        refine ⟨a.2, [], l, ?_, h⟩
        rw [← e]; rfl
      · left
        intro b hb
        rw [List.mem_cons] at hb
        rcases hb with rfl | hb
        · exact e
        · exact h b hb
    · right; exact ⟨v, a :: l1, l2, rfl, h⟩

theorem load_says (f : File) (s : Store) : (optionsLoad f s).2 = assign f.says s := by
  cases f <;> rfl

theorem parse_ok (n : ℤ) (l : List Arg) (s : Store) (h : ArgsOk l) (hn : 0 ≤ n) :
    0 ≤ (optionsParse n l s).1 ∧ (optionsParse n l s).2 = assign (argsSay l) s := by
  induction l generalizing n s with
  | nil => exact ⟨hn, rfl⟩
  | cons a l ih =>
    have hl : ArgsOk l := fun b hb => h b (by simp [hb])
    cases a with
    | opt a =>
      simp only [optionsParse, argsSay]
      exact ih (n + 1) _ hl (by omega)
    | file f =>
      obtain ⟨c, rfl⟩ := (h (.file f) (by simp)).2 f rfl
      simp only [optionsParse, optionsLoad, argsSay, File.says, assign_append]
      exact ih (n + 1) _ hl (by omega)
    | bad => exact absurd rfl (h .bad (by simp)).1

theorem parse_bad (n : ℤ) (l : List Arg) (s : Store) (h : ¬ ArgsOk l) : (optionsParse n l s).1 < 0 := by
  induction l generalizing n s with
  | nil => exact absurd (fun a ha => by simp at ha) h
  | cons a l ih =>
    have step : (a ≠ .bad ∧ ∀ f, a = .file f → ∃ c, f = .good c) → ¬ ArgsOk l := by
      intro ha hl
      apply h
      intro b hb
      rw [List.mem_cons] at hb
      rcases hb with rfl | hb
      · exact ha
      · exact hl b hb
    cases a with
    | opt a =>
      simp only [optionsParse]
      exact ih _ _ (step ⟨by simp, by simp⟩)
    | file f =>
      cases f with
      | missing => simp [optionsParse, optionsLoad]
      | broken l => simp [optionsParse, optionsLoad]
      | good c =>
        simp only [optionsParse, optionsLoad]
        exact ih _ _ (step ⟨by simp, fun f e => ⟨c, by simpa using e.symm⟩⟩)
    | bad => simp [optionsParse]

/-- Reading files is no error. -/
theorem loadFiles_eq (env : Env) (names : List String) (v : Exit) (s : Store) :
    loadFiles env names v s = (v, assign (names.flatMap fun n => (env.files n).says) s) := by
  induction names generalizing v s with
  | nil => rfl
  | cons n ns ih =>
    have e : loadFiles env (n :: ns) v s =
        loadFiles env ns (if (optionsLoad (env.files n) s).1 > 0 then Exit.error else v) (optionsLoad (env.files n) s).2 := rfl
    have z : ¬ (optionsLoad (env.files n) s).1 > 0 := by
      cases env.files n <;> simp [optionsLoad]
    rw [e, if_neg z, ih, load_says, List.flatMap_cons, assign_append]

/-- The result of `process`. -/
theorem process_exit (s : Store) (i : ℕ) (ps : List Package) (v w : Exit) (c : List Call) :
    (w.val ≤ (process s i ps v c).1.val ↔
      w.val ≤ v.val ∨ ∃ p ∈ ps, ∃ f, (p.postprocess = some f ∨ p.check = some f) ∧ w.val ≤ (f s).val) := by
  have hm : ∀ a b : Exit, w.val ≤ (a.max b).val ↔ w.val ≤ a.val ∨ w.val ≤ b.val := by
    intro a b
    unfold Exit.max
    split <;> omega
  induction ps generalizing i v c with
  | nil => simp [process]
  | cons p ps ih =>
    obtain ⟨cf, pp, ck⟩ := p
    have tail : ∀ P : Prop, (P ∨ ∃ q ∈ (⟨cf, pp, ck⟩ :: ps : List Package), ∃ f, (q.postprocess = some f ∨ q.check = some f) ∧ w.val ≤ (f s).val) ↔
        ((P ∨ ∃ f, (pp = some f ∨ ck = some f) ∧ w.val ≤ (f s).val) ∨
          ∃ q ∈ ps, ∃ f, (q.postprocess = some f ∨ q.check = some f) ∧ w.val ≤ (f s).val) := by
      intro P
      rw [List.exists_mem_cons_iff, or_assoc]
    rw [tail]
    cases pp with
    | none =>
      cases ck with
      | none =>
        refine (ih (i + 1) v c).trans (or_congr_left ?_)
        simp
      | some g =>
        refine (ih (i + 1) ((g s).max v) (c ++ [Call.check i])).trans (or_congr_left ?_)
        rw [hm, or_comm]
        simp
    | some f =>
      cases ck with
      | none =>
        refine (ih (i + 1) ((f s).max v) (c ++ [Call.postprocess i])).trans (or_congr_left ?_)
        rw [hm, or_comm]
        simp
      | some g =>
        refine (ih (i + 1) ((g s).max ((f s).max v)) (c ++ [Call.postprocess i] ++ [Call.check i])).trans (or_congr_left ?_)
        rw [hm, hm]
        constructor
        · rintro (h | h | h)
          · exact Or.inr ⟨g, Or.inr rfl, h⟩
          · exact Or.inr ⟨f, Or.inl rfl, h⟩
          · exact Or.inl h
        · rintro (h | ⟨x, hx, h⟩)
          · exact Or.inr (Or.inr h)
          · rcases hx with hx | hx
            · simp only [Option.some.injEq] at hx; subst hx; exact Or.inr (Or.inl h)
            · simp only [Option.some.injEq] at hx; subst hx; exact Or.inl h

/-- The calls that one package gets. -/
def callsOf (i : ℕ) (p : Package) : List Call :=
  (if p.postprocess.isSome then [Call.postprocess i] else []) ++ (if p.check.isSome then [Call.check i] else [])

/-- The calls that packages get, in the order of registration: each postprocesses and then checks its options. -/
def callsFrom : ℕ → List Package → List Call
  | _, [] => []
  | i, p :: ps => callsOf i p ++ callsFrom (i + 1) ps

theorem process_calls (s : Store) (i : ℕ) (ps : List Package) (v : Exit) (c : List Call) :
    (process s i ps v c).2 = c ++ callsFrom i ps := by
  induction ps generalizing i v c with
  | nil => simp [process, callsFrom]
  | cons p ps ih =>
    simp only [process, ih, callsFrom, callsOf]
    cases h1 : p.postprocess <;> cases h2 : p.check <;> simp

/-- `parse` for arguments that are not NULL. -/
theorem parse_eq (env : Env) (root : Bool) (pkgs : List Package) (d : Store) (savefile : Option String)
    (hc : ∀ p ∈ pkgs, p.configfile ≠ none) (hs : root = true → savefile ≠ none) :
    parse env root pkgs d savefile =
      let names := env.order (configFiles pkgs).dedup
      let s0 := assign (names.flatMap fun n => (env.files n).says) d
      let r := optionsParse 1 env.args s0
      let pr : Exit × List Call := if r.1 < 0 then (Exit.error, []) else process r.2 0 pkgs Exit.noExit []
      .done (saveOptions env root savefile pr.1) r.2 pr.2 := by
  have h : pkgs.any (fun p => p.configfile.isNone) = false := by
    rw [List.any_eq_false]
    intro p hp
    simpa using hc p hp
  unfold parse
  rw [h]
  simp only [Bool.false_eq_true, if_false, loadFiles_eq]
  rw [if_neg (by rintro ⟨a, b⟩; exact hs a b)]
  rfl

/-! ## The property -/

/-- **C97 (partial).** Where the value of an option comes from, on every process and for every order in which files are read: the
command line, where the last word counts; if it does not name the option, one of the configuration files of the packages that name
it; if none of them does, the default. What is missing: with several files that name the same option, which of
them counts is left to chance. -/
theorem C97_values_partial (env : Env) (root : Bool) (pkgs : List Package) (d : Store) (savefile : Option String)
    (hf : env.Fair) (hc : ∀ p ∈ pkgs, p.configfile ≠ none) (hs : root = true → savefile ≠ none) (ha : ArgsOk env.args) :
    ∃ v store calls, parse env root pkgs d savefile = .done v store calls ∧ ∀ k,
      (∀ x, Sets (argsSay env.args) k x → store k = x) ∧
      (Silent (argsSay env.args) k →
        ((∃ n ∈ configFiles pkgs, ¬ Silent (env.files n).says k) →
          ∃ n ∈ configFiles pkgs, Sets (env.files n).says k (store k)) ∧
        ((∀ n ∈ configFiles pkgs, Silent (env.files n).says k) → store k = d k)) := by
  rw [parse_eq env root pkgs d savefile hc hs]
  refine ⟨_, _, _, rfl, fun k => ?_⟩
  set names := env.order (configFiles pkgs).dedup with hnames
  have hmem : ∀ n, n ∈ names ↔ n ∈ configFiles pkgs := by
    intro n
    rw [hnames, (hf _).mem_iff, List.mem_dedup]
  rw [(parse_ok 1 env.args _ ha (by norm_num)).2]
  refine ⟨fun x hx => assign_sets _ _ k x hx, fun hsil => ?_⟩
  rw [assign_silent _ _ k hsil]
  -- the files
  have key : ∀ (ns : List String) (s : Store),
      ((∃ n ∈ ns, ¬ Silent (env.files n).says k) →
        ∃ n ∈ ns, Sets (env.files n).says k (assign (ns.flatMap fun n => (env.files n).says) s k)) ∧
      ((∀ n ∈ ns, Silent (env.files n).says k) → assign (ns.flatMap fun n => (env.files n).says) s k = s k) := by
    intro ns
    induction ns with
    | nil =>
      intro s
      refine ⟨?_, fun _ => rfl⟩
      rintro ⟨n, hn, _⟩
      simp at hn
    | cons n ns ih =>
      intro s
      rw [List.flatMap_cons, assign_append]
      obtain ⟨i1, i2⟩ := ih (assign (env.files n).says s)
      refine ⟨fun h => ?_, fun h => ?_⟩
      · by_cases hr : ∃ m ∈ ns, ¬ Silent (env.files m).says k
        · obtain ⟨m, hm, hset⟩ := i1 hr
          exact ⟨m, by simp [hm], hset⟩
        · push Not at hr
          rw [i2 hr]
          obtain ⟨m, hm, hm'⟩ := h
          rw [List.mem_cons] at hm
          rcases hm with rfl | hm
          · rcases silent_or_sets (env.files m).says k with hx | ⟨v, hx⟩
            · exact absurd hx hm'
            · exact ⟨m, by simp, by rw [assign_sets _ _ _ _ hx]; exact hx⟩
          · exact absurd (hr m hm) hm'
      · rw [i2 fun m hm => h m (by simp [hm]), assign_silent _ _ _ (h n (by simp))]
  obtain ⟨k1, k2⟩ := key names d
  refine ⟨?_, ?_⟩
  · rintro ⟨n, hn, h⟩
    obtain ⟨m, hm, h'⟩ := k1 ⟨n, (hmem n).mpr hn, h⟩
    exact ⟨m, (hmem m).mp hm, h'⟩
  · intro h
    exact k2 fun n hn => h n ((hmem n).mp hn)

/-- **C97 (partial).** What parsing returns: an error if the command line is not understood, if a package finds an error, or if
saving fails (on the first process); and otherwise the most urgent wish of a package to stop, or that all is well. What is
missing: files that cannot be used. -/
theorem C97_exit_partial (env : Env) (root : Bool) (pkgs : List Package) (d : Store) (savefile : Option String)
    (hc : ∀ p ∈ pkgs, p.configfile ≠ none) (hs : root = true → savefile ≠ none) :
    ∃ v store calls, parse env root pkgs d savefile = .done v store calls ∧
      (¬ ArgsOk env.args → v = Exit.error) ∧
      (ArgsOk env.args →
        (v = Exit.error ↔ (∃ p ∈ pkgs, ∃ f, (p.postprocess = some f ∨ p.check = some f) ∧ f store = Exit.error) ∨
          (root = true ∧ ∃ f, savefile = some f ∧ env.saveOk f = false)) ∧
        (v ≠ Exit.error → ∀ w : Exit, w ≠ Exit.noExit →
          (w.val ≤ v.val ↔ ∃ p ∈ pkgs, ∃ f, (p.postprocess = some f ∨ p.check = some f) ∧ w.val ≤ (f store).val))) := by
  rw [parse_eq env root pkgs d savefile hc hs]
  refine ⟨_, _, _, rfl, ?_, ?_⟩
  · intro ha
    have h := parse_bad 1 env.args (assign ((env.order (configFiles pkgs).dedup).flatMap fun n => (env.files n).says) d) ha
    rw [if_pos h]
    cases savefile <;> simp [saveOptions]
  · intro ha
    have h := (parse_ok 1 env.args (assign ((env.order (configFiles pkgs).dedup).flatMap fun n => (env.files n).says) d) ha
      (by norm_num)).1
    rw [if_neg (by omega)]
    set st := (optionsParse 1 env.args (assign ((env.order (configFiles pkgs).dedup).flatMap fun n => (env.files n).says) d)).2
    have hp := fun w => process_exit st 0 pkgs Exit.noExit w []
    set pv := (process st 0 pkgs Exit.noExit []).1
    have e4 : ∀ x : Exit, 4 ≤ x.val ↔ x = Exit.error := by
      intro x; cases x <;> simp [Exit.val]
    have herr : pv = Exit.error ↔ ∃ p ∈ pkgs, ∃ f, (p.postprocess = some f ∨ p.check = some f) ∧ f st = Exit.error := by
      rw [← e4, show (4 : ℕ) = Exit.error.val from rfl, hp]
      constructor
      · rintro (x | ⟨p, p1, f, p2, p3⟩)
        · simp [Exit.val] at x
        · exact ⟨p, p1, f, p2, (e4 _).mp p3⟩
      · rintro ⟨p, p1, f, p2, p3⟩
        exact Or.inr ⟨p, p1, f, p2, (e4 _).mpr p3⟩
    have hw : ∀ w : Exit, w ≠ Exit.noExit →
        (w.val ≤ pv.val ↔ ∃ p ∈ pkgs, ∃ f, (p.postprocess = some f ∨ p.check = some f) ∧ w.val ≤ (f st).val) := by
      intro w hw
      rw [hp]
      constructor
      · rintro (x | x)
        · cases w <;> simp [Exit.val] at x hw
        · exact x
      · exact Or.inr
    cases savefile with
    | none =>
      refine ⟨?_, fun _ => hw⟩
      show pv = Exit.error ↔ _
      rw [herr]
      simp
    | some f =>
      by_cases hx : pv ≠ Exit.error ∧ root = true ∧ ¬ env.saveOk f = true
      · simp only [saveOptions]
        rw [if_pos hx]
        refine ⟨?_, fun h => absurd rfl h⟩
        simp only [true_iff]
        exact Or.inr ⟨hx.2.1, f, rfl, by simpa using hx.2.2⟩
      · simp only [saveOptions]
        rw [if_neg hx]
        refine ⟨?_, fun _ => hw⟩
        rw [herr]
        constructor
        · exact Or.inl
        · rintro (y | ⟨y1, g, y2, y3⟩)
          · exact y
          · rw [← herr]
            by_contra hne
            simp only [Option.some.injEq] at y2
            subst y2
            exact hx ⟨hne, y1, by simp [y3]⟩

/-- **C97.** The status of the program is a failure exactly for an error. -/
theorem C97_status (e : Exit) : exitStatus e = 0 ↔ e ≠ Exit.error := by
  cases e <;> simp [exitStatus]

/-- **C97.** If the command line is understood, each package gets its calls exactly once, in the order of registration, to postprocess
before to check; if not, none is called. -/
theorem C97_calls (env : Env) (root : Bool) (pkgs : List Package) (d : Store) (savefile : Option String)
    (hc : ∀ p ∈ pkgs, p.configfile ≠ none) (hs : root = true → savefile ≠ none) :
    ∃ v store calls, parse env root pkgs d savefile = .done v store calls ∧
      (ArgsOk env.args → calls = callsFrom 0 pkgs) ∧ (¬ ArgsOk env.args → calls = []) := by
  rw [parse_eq env root pkgs d savefile hc hs]
  refine ⟨_, _, _, rfl, ?_, ?_⟩
  · intro ha
    have h := (parse_ok 1 env.args (assign ((env.order (configFiles pkgs).dedup).flatMap fun n => (env.files n).says) d) ha
      (by norm_num)).1
    rw [if_neg (by omega), process_calls]
    rfl
  · intro ha
    have h := parse_bad 1 env.args (assign ((env.order (configFiles pkgs).dedup).flatMap fun n => (env.files n).says) d) ha
    rw [if_pos h]

/-- **C97.** At the end each package that has a callback for it is destroyed exactly once, the last registered first. -/
theorem C97_destroy (destroys : ℕ → Bool) (n : ℕ) :
    (destroyCalls destroys n) = (((List.range n).filter destroys).map Call.destroy).reverse := by
  induction n with
  | zero => rfl
  | succ n ih =>
    rw [destroyCalls, ih, List.range_succ, List.filter_append, List.map_append, List.reverse_append]
    cases h : destroys n <;> simp [h]

/-- **C97 (partial).** All processes come to the same values and the same decision, unless saving the options fails. -/
theorem C97_agree_partial (env : Env) (r1 r2 : Bool) (pkgs : List Package) (d : Store) (f : String)
    (hc : ∀ p ∈ pkgs, p.configfile ≠ none) (hs : env.saveOk f = true) :
    parse env r1 pkgs d (some f) = parse env r2 pkgs d (some f) := by
  rw [parse_eq env r1 pkgs d (some f) hc (by simp), parse_eq env r2 pkgs d (some f) hc (by simp)]
  simp [saveOptions, hs]

/-! ## Where it fails -/

/-- A package that only has a file. -/
def plain (f : String) : Package := ⟨some f, none, some fun _ => Exit.noExit⟩

/-- Surroundings for the examples. -/
def env0 : Env := ⟨fun _ => .good [], [], fun _ => true, id⟩

/-- **C97 (counterexample).** If the file with the options cannot be written, the first process returns an error and the others carry
on. -/
theorem C97_save_counterexample :
    ¬ ∀ (env : Env) (r1 r2 : Bool) (pkgs : List Package) (d : Store) (f : String), (∀ p ∈ pkgs, p.configfile ≠ none) →
      parse env r1 pkgs d (some f) = parse env r2 pkgs d (some f) := by
  intro H
  have h := H { env0 with saveOk := fun _ => false } true false [] (fun _ => "") "f" (by simp)
  simp [parse, env0, loadFiles, optionsParse, process, saveOptions] at h

/-- **C97 (counterexample).** A configuration file with a value that is not understood is no error: parsing succeeds,
with some of its options set and the others not. -/
theorem C97_file_counterexample :
    ∃ (env : Env) (pkgs : List Package) (f : String) (l : List Assign), env.Fair ∧ f ∈ configFiles pkgs ∧ env.files f = .broken l ∧
      ∀ root d, ∃ store calls, parse env root pkgs d (some "used") = .done Exit.noExit store calls := by
  refine ⟨{ env0 with files := fun _ => .broken [] }, [plain "a.ini"], "a.ini", [], fun _ => List.Perm.refl _, by simp [configFiles, plain], rfl, ?_⟩
  intro root d
  exact ⟨d, [Call.check 0], by cases root <;> rfl⟩

/-- **C97 (counterexample).** Two packages with a file each, and both files name the same option: the value depends on the order in
which a table visits its keys. -/
theorem C97_order_counterexample :
    ¬ ∀ (e1 e2 : Env) (pkgs : List Package) (d : Store), e1.Fair → e2.Fair → e1.files = e2.files → e1.args = e2.args →
      e1.saveOk = e2.saveOk → (∀ p ∈ pkgs, p.configfile ≠ none) →
      parse e1 true pkgs d (some "used") = parse e2 true pkgs d (some "used") := by
  intro H
  let files : String → File := fun n => .good [("x", n)]
  have h := H ⟨files, [], fun _ => true, id⟩ ⟨files, [], fun _ => true, List.reverse⟩ [plain "a", plain "b"] (fun _ => "")
    (fun _ => List.Perm.refl _) (fun l => List.reverse_perm l) rfl rfl rfl
    (by intro p hp; simp at hp; rcases hp with rfl | rfl <;> simp [plain])
  have e : ∀ o : List String → List String, o ["a", "b"] = ["a", "b"] ∨ o ["a", "b"] = ["b", "a"] →
      parse ⟨files, [], fun _ => true, o⟩ true [plain "a", plain "b"] (fun _ => "") (some "used") =
        .done Exit.noExit (assign ((o ["a", "b"]).flatMap fun n => [("x", n)]) fun _ => "") [Call.check 0, Call.check 1] := by
    intro o ho
    rw [parse_eq _ _ _ _ _ (by intro p hp; simp at hp; rcases hp with rfl | rfl <;> simp [plain]) (by simp)]
    have d : (configFiles [plain "a", plain "b"]).dedup = ["a", "b"] := by decide
    simp only [d, optionsParse]
    simp [process, plain, Exit.max, files, File.says, Exit.val, saveOptions]
  rw [e id (Or.inl rfl), e List.reverse (Or.inr rfl)] at h
  simp only [Outcome.done.injEq] at h
  have h2 := congrFun h.2.1 "x"
  revert h2
  decide

/-- **C97 (counterexample).** Both a package without a file and parsing without a file to save to are described as possible, but
they lead to undefined behaviour. -/
theorem C97_null_counterexample :
    (∀ env root pkgs d savefile, (∃ p ∈ pkgs, p.configfile = none) → parse env root pkgs d savefile = .undefined) ∧
    (∀ env pkgs d, parse env true pkgs d none = .undefined) := by
  constructor
  · rintro env root pkgs d savefile ⟨p, hp, h⟩
    unfold parse
    rw [if_pos]
    rw [List.any_eq_true]
    exact ⟨p, hp, by simp [h]⟩
  · intro env pkgs d
    unfold parse
    split
    · rfl
    · simp

/-! ## The hypotheses can be met -/

/-- Two packages, one file each, and a command line. -/
def envE : Env :=
  ⟨fun n => if n = "a" then .good [("x", "1"), ("y", "2")] else .good [("z", "3")], [.opt ("x", "4"), .opt ("x", "5")], fun _ => true, id⟩

example : ∃ v store calls, parse envE true [plain "a", plain "b"] (fun _ => "0") (some "used") = .done v store calls ∧
    v = Exit.noExit ∧ calls = [Call.check 0, Call.check 1] ∧
    store "x" = "5" ∧ store "y" = "2" ∧ store "z" = "3" ∧ store "w" = "0" :=
  ⟨_, _, _, rfl, rfl, rfl, by decide, by decide, by decide, by decide⟩

example : envE.Fair ∧ (∀ p ∈ [plain "a", plain "b"], p.configfile ≠ none) ∧ ArgsOk envE.args ∧
    Sets (argsSay envE.args) "x" "5" ∧ Silent (argsSay envE.args) "y" := by
  refine ⟨fun _ => List.Perm.refl _, ?_, ?_, ⟨[("x", "4")], [], rfl, by simp⟩, ?_⟩
  · intro p hp; simp at hp; rcases hp with rfl | rfl <;> simp [plain]
  · intro a ha
    simp [envE] at ha
    rcases ha with rfl | rfl <;> simp
  · intro a ha
    simp [envE, argsSay] at ha
    rcases ha with rfl | rfl <;> simp

example : destroyCalls (fun _ => true) 3 = [Call.destroy 2, Call.destroy 1, Call.destroy 0] := by
  rw [C97_destroy]; rfl

/-- A package that finds an error. -/
example : ∃ store calls, parse env0 false [⟨some "a", none, some fun _ => Exit.error⟩, ⟨some "a", some fun _ => Exit.usage, none⟩] (fun _ => "")
    (some "used") = .done Exit.error store calls := ⟨_, _, rfl⟩

end Fclaw.App
