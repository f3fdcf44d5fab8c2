import Mathlib.Data.Int.Notation
import Mathlib.Tactic.Linarith
import Mathlib.Data.List.Dedup
import Mathlib.Logic.Function.Basic
/-
Model of the processing of options by an application (src/fclaw_base.c):

* `fclaw_app_options_register` (407-431), `fclaw_app_destroy` (324-358)
* `get_config_filenames` (611-629), `fclaw_app_options_parse` (758-897), `fclaw_app_exit_type_to_status` (36-40)

Not part of the repository are libsc, which holds the values of options, reads files and the command line, and the
parser of .ini files. They are modelled by what they are documented to do: `sc_options_load` sets the options that a file
names and returns 0, or -1 if the file cannot be read or a value is not understood; `sc_options_parse` goes through the
arguments in order and returns -1 at the first that it does not understand; `sc_options_save` returns zero if it succeeds; the keys of
`sc_keyvalue` and the name passed to `iniparser_load` (which calls `fopen`) must not be NULL. The order in which
`sc_keyvalue_foreach` visits keys depends on a hash function: it is a parameter.

Simplifications: the values of options are texts; the callbacks of a package are functions of them (they do not change
them). What is printed is left out, and with it the search for sections and options that are not used, except for the
file names which it opens.
-/
set_option autoImplicit false
namespace Fclaw.App

/-- `fclaw_exit_type_t` (fclaw_base.h:155-165), in this order. -/
inductive Exit
  | noExit
  | quiet
  | print
  | usage
  | error
  deriving DecidableEq

/-- The value of the enumeration constant. -/
def Exit.val : Exit → ℕ
  | noExit => 0
  | quiet => 1
  | print => 2
  | usage => 3
  | error => 4

/-- `SC_MAX (a, b)` -/
def Exit.max (a b : Exit) : Exit := if a.val > b.val then a else b

/-- `fclaw_app_exit_type_to_status` (fclaw_base.c:36-40): 0 is `EXIT_SUCCESS`, 1 is `EXIT_FAILURE`. -/
def exitStatus (e : Exit) : ℕ := if e = Exit.error then 1 else 0

/-- The values of all options (`sc_options_t`), by name. -/
abbrev Store := String → String

/-- An assignment of an option. -/
abbrev Assign := String × String

/-- Assignments made in order. -/
def assign (l : List Assign) (s : Store) : Store := l.foldl (fun s a => Function.update s a.1 a.2) s

/-- A configuration file. A file that is `broken` sets some options before it comes to a value that is not
understood. -/
inductive File
  | missing
  | broken (l : List Assign)
  | good (l : List Assign)

/-- libsc, `sc_options_load` -/
def optionsLoad (f : File) (s : Store) : ℤ × Store :=
  match f with
  | .missing => (-1, s)
  | .broken l => (-1, assign l s)
  | .good l => (0, assign l s)

/-- Arguments of the command line: an option with a value, `-F` with a file, an argument that is not understood. -/
inductive Arg
  | opt (a : Assign)
  | file (f : File)
  | bad

/-- libsc, `sc_options_parse`: the number of arguments, or -1. -/
def optionsParse (n : ℤ) : List Arg → Store → ℤ × Store
  | [], s => (n, s)
  | .opt a :: l, s => optionsParse (n + 1) l (assign [a] s)
  | .file f :: l, s => if (optionsLoad f s).1 < 0 then (-1, (optionsLoad f s).2) else optionsParse (n + 1) l (optionsLoad f s).2
  | .bad :: _, s => (-1, s)

/-- `fclaw_app_options_t` (fclaw_base.c:42-51): the file, and the callbacks. -/
structure Package where
  configfile : Option String
  postprocess : Option (Store → Exit)
  check : Option (Store → Exit)

/-- The surroundings of the program. -/
structure Env where
  files : String → File
  args : List Arg
  /-- Does saving the options work? -/
  saveOk : String → Bool
  /-- The order in which the keys of a table are visited. -/
  order : List String → List String

/-- Calls of callbacks, with the number of the package. -/
inductive Call
  | postprocess (i : ℕ)
  | check (i : ℕ)
  | destroy (i : ℕ)
  deriving DecidableEq

/-- What parsing comes to: undefined behaviour, or a result. -/
inductive Outcome
  | undefined
  | done (vexit : Exit) (store : Store) (calls : List Call)

/-- Reading the files (fclaw_base.c:773-786). -/
def loadFiles (env : Env) (names : List String) (v : Exit) (s : Store) : Exit × Store :=
  names.foldl (fun a name =>
    let r := optionsLoad (env.files name) a.2
    (if r.1 > 0 then Exit.error else a.1, r.2)) (v, s)

/-- The callbacks of the packages (fclaw_base.c:802-821), beginning with package `i`. -/
def process (s : Store) : ℕ → List Package → Exit → List Call → Exit × List Call
  | _, [], v, c => (v, c)
  | i, p :: ps, v, c =>
    let (v1, c1) := match p.postprocess with
      | none => (v, c)
      | some f => ((f s).max v, c ++ [Call.postprocess i])
    let (v2, c2) := match p.check with
      | none => (v1, c1)
      | some f => ((f s).max v1, c1 ++ [Call.check i])
    process s (i + 1) ps v2 c2

/-- Saving the options (fclaw_base.c:868-879). -/
def saveOptions (env : Env) (root : Bool) (savefile : Option String) (v : Exit) : Exit :=
  match savefile with
  | none => v
  | some f => if v ≠ Exit.error ∧ root ∧ ¬ env.saveOk f then Exit.error else v

/-- `fclaw_app_options_parse` (fclaw_base.c:758-897) on a process; `root` says if it is the first one. -/
def parse (env : Env) (root : Bool) (pkgs : List Package) (defaults : Store) (savefile : Option String) : Outcome :=
  -- get_config_filenames: the name is a key, which must not be NULL
  if pkgs.any (fun p => p.configfile.isNone) then .undefined
  else
    let names := env.order (pkgs.filterMap (fun p => p.configfile)).dedup
    let (v0, s0) := loadFiles env names Exit.noExit defaults
    let (firstArg, s1) := optionsParse 1 env.args s0
    let (v1, calls) := if firstArg < 0 then (Exit.error, []) else process s1 0 pkgs v0 []
    let v2 := saveOptions env root savefile v1
    -- check_for_unused_options opens the file
    if root ∧ savefile = none then .undefined
    else .done v2 s1 calls

/-- `fclaw_app_destroy` (fclaw_base.c:339-350): the packages from the last to the first. `destroys i` says if package `i` has a
callback. -/
def destroyCalls (destroys : ℕ → Bool) : ℕ → List Call
  | 0 => []
  | zz + 1 => (if destroys zz then [Call.destroy zz] else []) ++ destroyCalls destroys zz

end Fclaw.App
