import Verif.App.Model
/-
What users and packages expect of the options.
-/
set_option autoImplicit false
namespace Fclaw.App

/-- The last assignment of `k` in the list gives it the value `v`. -/
def Sets (l : List Assign) (k v : String) : Prop := ∃ l1 l2, l = l1 ++ (k, v) :: l2 ∧ ∀ a ∈ l2, a.1 ≠ k

/-- The list does not name `k`. -/
def Silent (l : List Assign) (k : String) : Prop := ∀ a ∈ l, a.1 ≠ k

/-- What a file that can be used says. -/
def File.says : File → List Assign
  | .good l => l
  | .broken l => l
  | .missing => []

/-- What the command line says: options, and the contents of files named by `-F`, in order. -/
def argsSay : List Arg → List Assign
  | [] => []
  | .opt a :: l => a :: argsSay l
  | .file f :: l => f.says ++ argsSay l
  | .bad :: l => argsSay l

/-- The command line is understood, with the files named in it. -/
def ArgsOk (l : List Arg) : Prop := ∀ a ∈ l, a ≠ .bad ∧ ∀ f, a = .file f → ∃ c, f = .good c

/-- The names of the files that packages ask for. -/
def configFiles (pkgs : List Package) : List String := pkgs.filterMap (fun p => p.configfile)

/-- The order of a table visits each key exactly once. -/
def Env.Fair (env : Env) : Prop := ∀ l : List String, (env.order l).Perm l

end Fclaw.App
