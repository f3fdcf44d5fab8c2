import Verif.Packing.Model
/-
Model of pack/unpack of the core option structure, src/fclaw_options.c:451-536.

A process has an address space: `Heap` maps addresses to the regions starting there.
The structure is modelled as the block of all its non-pointer members (except `is_unpacked`),
the member `is_unpacked`, and its pointer members (src/fclaw_options.h:116-251). Their order inside
the C struct is immaterial since the struct is copied as a whole.
-/
set_option autoImplicit false
namespace Fclaw.Options
open Fclaw.Packing

/-- Memory a pointer member can refer to. -/
inductive Region
  | chars (b : Bytes)
  | doubles (l : List UInt64)
  deriving DecidableEq

/-- Regions that exist in a process, by address; NULL is address 0. -/
abbrev Heap := UInt64 → Option Region

/-- A pointer member after unpacking: either the raw address copied from the sender, or the
address of a block freshly allocated by the receiver (which then owns this region).
`fresh none` is NULL. -/
inductive Ref
  | raw (addr : UInt64)
  | fresh (r : Option Region)

/-- The pointer members, in a fixed order. -/
structure Ptrs (α : Type) where
  run_directory : α
  tout : α
  scale_string : α
  scale : α
  shift_string : α
  shift : α
  kv_timing_verbosity : α
  tikz_figsize_string : α
  tikz_figsize : α
  tikz_plot_prefix : α
  tikz_plot_suffix : α
  prefix_ : α
  logging_prefix : α
  regression_check : α

/-- `struct fclaw_options`, src/fclaw_options.h:116-251. -/
structure Opts (α : Type) where
  plain : Bytes
  is_unpacked : Int32
  ptrs : Ptrs α

/-- The `char*` view of a pointer member of the sender. An address other than NULL at which no
characters are stored is invalid; reading it is undefined. -/
def charsAt (h : Heap) (a : UInt64) : Option CPtr :=
  if a = 0 then some none
  else match h a with
    | some (.chars b) => some (some b)
    | _ => none

/-- Reading element `i` of a `double*`. -/
def doubleAt (h : Heap) (a : UInt64) (i : Nat) : Option UInt64 :=
  match h a with
  | some (.doubles l) => l[i]?
  | _ => none

/-- `fclaw_pack_string (opts->member, buffer)`. -/
def packMember (h : Heap) (a : UInt64) : Packer := fun buf =>
  match charsAt h a with
  | none => none
  | some s => packString s buf

/-- `fclaw_pack_double (opts->member[i], buffer)`. -/
def packElem (h : Heap) (a : UInt64) (i : Nat) : Packer := fun buf =>
  match doubleAt h a i with
  | none => none
  | some v => packDouble v buf

/-- The 14 addresses of the struct as they lie in memory. -/
def ptrList (p : Ptrs UInt64) : List UInt64 :=
  [p.run_directory, p.tout, p.scale_string, p.scale, p.shift_string, p.shift,
   p.kv_timing_verbosity, p.tikz_figsize_string, p.tikz_figsize, p.tikz_plot_prefix,
   p.tikz_plot_suffix, p.prefix_, p.logging_prefix, p.regression_check]

/-- `FCLAW_PACK (*opts, buffer)`, src/fclaw_options.c:476: the whole struct, pointers included. -/
def packStruct (o : Opts UInt64) : Packer :=
  seqP (memcpyTo o.plain) (seqP (packInt o.is_unpacked)
    ((ptrList o.ptrs).foldr (fun a p => seqP (packSizeT a) p) doneP))

/-- `options_pack`, src/fclaw_options.c:470-495. -/
def optionsPack (h : Heap) (o : Opts UInt64) : Packer :=
  let p := o.ptrs
  seqP (packStruct o) <|
  seqP (packMember h p.run_directory) <|
  seqP (packMember h p.scale_string) <|
  seqP (packMember h p.shift_string) <|
  seqP (packElem h p.scale 0) <| seqP (packElem h p.shift 0) <|
  seqP (packElem h p.scale 1) <| seqP (packElem h p.shift 1) <|
  seqP (packElem h p.scale 2) <| seqP (packElem h p.shift 2) <|
  seqP (packMember h p.tikz_figsize_string) <|
  seqP (packElem h p.tikz_figsize 0) <| seqP (packElem h p.tikz_figsize 1) <|
  seqP (packMember h p.tikz_plot_prefix) <|
  seqP (packMember h p.tikz_plot_suffix) <|
  seqP (packMember h p.prefix_) <|
  seqP (packMember h p.logging_prefix) doneP

/-- Adding up `fclaw_packsize_string (opts->member)`. -/
def addSize (h : Heap) (a : UInt64) (k : Nat → Option Nat) : Option Nat :=
  match charsAt h a with
  | none => none
  | some s =>
    match packsizeString s with
    | none => none
    | some n => k n

/-- `options_packsize`, src/fclaw_options.c:451-468; `nPlain` is the number of bytes of the
non-pointer members. -/
def optionsPacksize (nPlain : Nat) (h : Heap) (o : Opts UInt64) : Option Nat :=
  let p := o.ptrs
  addSize h p.run_directory fun n1 =>
  addSize h p.scale_string fun n2 =>
  addSize h p.shift_string fun n3 =>
  addSize h p.tikz_figsize_string fun n4 =>
  addSize h p.tikz_plot_prefix fun n5 =>
  addSize h p.tikz_plot_suffix fun n6 =>
  addSize h p.prefix_ fun n7 =>
  addSize h p.logging_prefix fun n8 =>
    some ((nPlain + 4 + 14 * 8) + n1 + n2 + n3 + 3 * 8 + 3 * 8 + n4 + 2 * 8 + n5 + n6 + n7 + n8)

/-- Reading `n` addresses. -/
def unpackAddrs : Nat → Unpacker (List UInt64)
  | 0 => doneU []
  | n + 1 => bindU unpackSizeT fun a => mapU (a :: ·) (unpackAddrs n)

/-- `FCLAW_UNPACK (buffer, opts)`, src/fclaw_options.c:504. -/
def unpackStruct (nPlain : Nat) : Unpacker (Bytes × Int32 × List UInt64) :=
  bindU (memcpyFrom nPlain) fun plain =>
  bindU unpackInt fun iu =>
  mapU (fun as => (plain, iu, as)) (unpackAddrs 14)

/-- A freshly unpacked string member. -/
def freshStr (s : CPtr) : Ref := .fresh (s.map .chars)

/-- `options_unpack`, src/fclaw_options.c:497-536. Members that are not assigned after the struct
was copied keep the sender's address: `tout` and `regression_check`. The key-value table
`kv_timing_verbosity` is created anew (lines 526-533); its region is not modelled further. -/
def optionsUnpack (nPlain : Nat) : Unpacker (Opts Ref) :=
  bindU (unpackStruct nPlain) fun st =>
  bindU unpackString fun run_directory =>
  bindU unpackString fun scale_string =>
  bindU unpackString fun shift_string =>
  bindU unpackDouble fun sc0 => bindU unpackDouble fun sh0 =>
  bindU unpackDouble fun sc1 => bindU unpackDouble fun sh1 =>
  bindU unpackDouble fun sc2 => bindU unpackDouble fun sh2 =>
  bindU unpackString fun tikz_figsize_string =>
  bindU unpackDouble fun tf0 => bindU unpackDouble fun tf1 =>
  bindU unpackString fun tikz_plot_prefix =>
  bindU unpackString fun tikz_plot_suffix =>
  bindU unpackString fun prefix_ =>
  bindU unpackString fun logging_prefix =>
  doneU
    { plain := st.1
      is_unpacked := 1
      ptrs :=
        { run_directory := freshStr run_directory
          tout := .raw (st.2.2.getD 1 0)
          scale_string := freshStr scale_string
          scale := .fresh (some (.doubles [sc0, sc1, sc2]))
          shift_string := freshStr shift_string
          shift := .fresh (some (.doubles [sh0, sh1, sh2]))
          kv_timing_verbosity := .fresh (some (.chars []))
          tikz_figsize_string := freshStr tikz_figsize_string
          tikz_figsize := .fresh (some (.doubles [tf0, tf1]))
          tikz_plot_prefix := freshStr tikz_plot_prefix
          tikz_plot_suffix := freshStr tikz_plot_suffix
          prefix_ := freshStr prefix_
          logging_prefix := freshStr logging_prefix
          regression_check := .raw (st.2.2.getD 13 0) } }

end Fclaw.Options
