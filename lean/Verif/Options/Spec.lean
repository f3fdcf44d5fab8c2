import Verif.Options.Model
import Verif.Packing.Spec
/- Specification vocabulary for property C03. -/
set_option autoImplicit false
namespace Fclaw.Options
open Fclaw.Packing

/-- What a process with heap `h` finds behind a pointer member. Outer `none`: the pointer is
invalid in this process. Inner `none`: NULL. -/
def deref (h : Heap) : Ref → Option (Option Region)
  | .raw a => if a = 0 then some none else (h a).map some
  | .fresh r => some r

/-- A valid C string member of the sender (or NULL). -/
def ValidStr (h : Heap) (a : UInt64) : Prop :=
  ∃ s, charsAt h a = some s ∧ IsCString s

/-- A valid array member of the sender with exactly `n` doubles. -/
def ValidArr (h : Heap) (a : UInt64) (n : Nat) : Prop :=
  ∃ l, h a = some (.doubles l) ∧ l.length = n

/-- The receiver (heap `hr`) sees the same string as the sender (heap `hs`). -/
def SameStr (hs hr : Heap) (a : UInt64) (r : Ref) : Prop :=
  match deref hr r with
  | some none => charsAt hs a = some none
  | some (some (.chars b)) => ∃ b0, charsAt hs a = some (some b0) ∧
      content (some b) = content (some b0) ∧ IsCString (some b)
  | _ => False

/-- The receiver sees the same array as the sender. -/
def SameArr (hs hr : Heap) (a : UInt64) (r : Ref) : Prop :=
  ∃ l, deref hr r = some (some (.doubles l)) ∧ hs a = some (.doubles l)

/-- A structure as it is after `fclaw_options_postprocess`: strings are strings, arrays have
their lengths (src/fclaw_options.c:355-371). -/
structure WellFormed (nPlain : Nat) (h : Heap) (o : Opts UInt64) : Prop where
  plain : o.plain.length = nPlain
  run_directory : ValidStr h o.ptrs.run_directory
  scale_string : ValidStr h o.ptrs.scale_string
  shift_string : ValidStr h o.ptrs.shift_string
  scale : ValidArr h o.ptrs.scale 3
  shift : ValidArr h o.ptrs.shift 3
  tikz_figsize_string : ValidStr h o.ptrs.tikz_figsize_string
  tikz_figsize : ValidArr h o.ptrs.tikz_figsize 2
  tikz_plot_prefix : ValidStr h o.ptrs.tikz_plot_prefix
  tikz_plot_suffix : ValidStr h o.ptrs.tikz_plot_suffix
  prefix_ : ValidStr h o.ptrs.prefix_
  logging_prefix : ValidStr h o.ptrs.logging_prefix
  regression_check : ValidStr h o.ptrs.regression_check

/-- All members except `regression_check` (and `tout`, which is never used) have the packed value
and are usable in a receiver with heap `hr`; `is_unpacked` is set. -/
structure SameButRegression (hs hr : Heap) (o : Opts UInt64) (r : Opts Ref) : Prop where
  plain : r.plain = o.plain
  is_unpacked : r.is_unpacked = 1
  run_directory : SameStr hs hr o.ptrs.run_directory r.ptrs.run_directory
  scale_string : SameStr hs hr o.ptrs.scale_string r.ptrs.scale_string
  shift_string : SameStr hs hr o.ptrs.shift_string r.ptrs.shift_string
  scale : SameArr hs hr o.ptrs.scale r.ptrs.scale
  shift : SameArr hs hr o.ptrs.shift r.ptrs.shift
  tikz_figsize_string : SameStr hs hr o.ptrs.tikz_figsize_string r.ptrs.tikz_figsize_string
  tikz_figsize : SameArr hs hr o.ptrs.tikz_figsize r.ptrs.tikz_figsize
  tikz_plot_prefix : SameStr hs hr o.ptrs.tikz_plot_prefix r.ptrs.tikz_plot_prefix
  tikz_plot_suffix : SameStr hs hr o.ptrs.tikz_plot_suffix r.ptrs.tikz_plot_suffix
  prefix_ : SameStr hs hr o.ptrs.prefix_ r.ptrs.prefix_
  logging_prefix : SameStr hs hr o.ptrs.logging_prefix r.ptrs.logging_prefix

end Fclaw.Options
