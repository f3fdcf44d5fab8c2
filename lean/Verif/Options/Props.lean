import Verif.Options.Lemmas
/-
Property C03: the core option structure survives pack/unpack.

The code violates it for the member `regression_check`: its pointer is copied as an address of
the sender, but `fclaw2d_finalize` (src/fclaw2d_finalize.c:194) dereferences it in the receiver.
-/
set_option autoImplicit false
namespace Fclaw.Options
open Fclaw.Packing

/-- The part of C03 that holds: for every well-formed structure, packsize is exactly what packing
writes and unpacking reads, and every member except `regression_check` (and the unused `tout`)
has the packed value and is usable in any receiving process. Missing: `regression_check`, for
which the property is false (`C03_regression_check_counterexample`). -/
theorem C03_options_roundtrip_partial (nPlain : Nat) (hs : Heap) (o : Opts UInt64)
    (hwf : WellFormed nPlain hs o) :
    ∃ n, optionsPacksize nPlain hs o = some n ∧
      RoundTrip (optionsPack hs o) (optionsUnpack nPlain) n
        (fun r => (∀ hr, SameButRegression hs hr o r) ∧
          ∃ a, r.ptrs.regression_check = .raw a ∧ a = o.ptrs.regression_check) := by
  obtain ⟨w1, s1, hw1, hr1, hz1, hd1⟩ := member_ok hs _ hwf.run_directory
  obtain ⟨w2, s2, hw2, hr2, hz2, hd2⟩ := member_ok hs _ hwf.scale_string
  obtain ⟨w3, s3, hw3, hr3, hz3, hd3⟩ := member_ok hs _ hwf.shift_string
  obtain ⟨w4, s4, hw4, hr4, hz4, hd4⟩ := member_ok hs _ hwf.tikz_figsize_string
  obtain ⟨w5, s5, hw5, hr5, hz5, hd5⟩ := member_ok hs _ hwf.tikz_plot_prefix
  obtain ⟨w6, s6, hw6, hr6, hz6, hd6⟩ := member_ok hs _ hwf.tikz_plot_suffix
  obtain ⟨w7, s7, hw7, hr7, hz7, hd7⟩ := member_ok hs _ hwf.prefix_
  obtain ⟨w8, s8, hw8, hr8, hz8, hd8⟩ := member_ok hs _ hwf.logging_prefix
  obtain ⟨lsc, hsc, hscl⟩ := hwf.scale
  obtain ⟨lsh, hsh, hshl⟩ := hwf.shift
  obtain ⟨ltf, htf, htfl⟩ := hwf.tikz_figsize
  obtain ⟨c0, c1, c2, rfl⟩ := list3 lsc hscl
  obtain ⟨d0, d1, d2, rfl⟩ := list3 lsh hshl
  obtain ⟨e0, e1, rfl⟩ := list2 ltf htfl
  have hst := (writes_memcpy o.plain).seq
    ((writes_memcpy (leBytes 4 o.is_unpacked.toUInt32.toNat)).seq (addrs_writes (ptrList o.ptrs)))
  have hrst : Reads (unpackStruct nPlain) _ (o.plain, o.is_unpacked, ptrList o.ptrs) :=
    (reads_memcpy o.plain nPlain hwf.plain).bind
      ((reads_int o.is_unpacked).bind ((addrs_reads (ptrList o.ptrs)).map _))
  have hW := hst.seq (hw1.seq (hw2.seq (hw3.seq
    ((elem_writes hs _ _ 0 c0 hsc rfl).seq ((elem_writes hs _ _ 0 d0 hsh rfl).seq
    ((elem_writes hs _ _ 1 c1 hsc rfl).seq ((elem_writes hs _ _ 1 d1 hsh rfl).seq
    ((elem_writes hs _ _ 2 c2 hsc rfl).seq ((elem_writes hs _ _ 2 d2 hsh rfl).seq
    (hw4.seq ((elem_writes hs _ _ 0 e0 htf rfl).seq ((elem_writes hs _ _ 1 e1 htf rfl).seq
    (hw5.seq (hw6.seq (hw7.seq (hw8.seq writes_done))))))))))))))))
  have hR : Reads (optionsUnpack nPlain) _ _ :=
    hrst.bind (hr1.bind (hr2.bind (hr3.bind
    ((reads_double c0).bind ((reads_double d0).bind
    ((reads_double c1).bind ((reads_double d1).bind
    ((reads_double c2).bind ((reads_double d2).bind
    (hr4.bind ((reads_double e0).bind ((reads_double e1).bind
    (hr5.bind (hr6.bind (hr7.bind (hr8.bind (reads_done _)))))))))))))))))
  refine ⟨_, ?_, roundTrip_of (p := optionsPack hs o) hW hR ⟨?_, ?_⟩⟩
  · simp only [optionsPacksize, hz1, hz2, hz3, hz4, hz5, hz6, hz7, hz8, List.length_append,
      length_leBytes, addrs_length, hwf.plain, ptrList, List.length_cons, List.length_nil]
    congr 1
    omega
  · intro hr
    exact ⟨rfl, rfl, hd1 hr, hd2 hr, hd3 hr, ⟨_, rfl, hsc⟩, ⟨_, rfl, hsh⟩, hd4 hr, ⟨_, rfl, htf⟩,
      hd5 hr, hd6 hr, hd7 hr, hd8 hr⟩
  · exact ⟨_, rfl, rfl⟩

/-- A concrete structure: every string is the empty string at address 1, the arrays are at 2 and 3. -/
def sampleHeap : Heap := fun a =>
  if a = 1 then some (.chars [0]) else if a = 2 then some (.doubles [1, 2, 3])
  else if a = 3 then some (.doubles [4, 5]) else none
def sampleOpts : Opts UInt64 :=
  ⟨[7, 7], 0, ⟨1, 0, 1, 2, 1, 2, 0, 0, 3, 1, 1, 1, 1, 1⟩⟩

/-- Non-vacuity: the hypotheses of `C03_options_roundtrip_partial` hold for it. -/
theorem sample_wellFormed : WellFormed 2 sampleHeap sampleOpts := by
  have hstr : ValidStr sampleHeap 1 := ⟨some [0], by decide, by decide, by decide⟩
  have hnull : ValidStr sampleHeap 0 := ⟨none, by decide, trivial⟩
  have h2 : ValidArr sampleHeap 2 3 := ⟨[1, 2, 3], by decide, rfl⟩
  have h3 : ValidArr sampleHeap 3 2 := ⟨[4, 5], by decide, rfl⟩
  exact ⟨rfl, hstr, hstr, hstr, h2, h2, hnull, h3, hstr, hstr, hstr, hstr, hstr⟩

/-- C03 as stated fails: there is a well-formed structure (the default, an empty
`regression_check` string) such that in a receiver which has nothing allocated at the sender's
address, the unpacked `regression_check` pointer is invalid. -/
theorem C03_regression_check_counterexample :
    ∃ (hs hr : Heap) (o : Opts UInt64) (buf buf' : Bytes) (r : Opts Ref) (n : Nat),
      WellFormed 2 hs o ∧ optionsPack hs o buf = some (buf', n) ∧
      optionsUnpack 2 buf' = some (r, n) ∧
      deref hr r.ptrs.regression_check = none ∧
      ¬ SameStr hs hr o.ptrs.regression_check r.ptrs.regression_check := by
  obtain ⟨n, _, hrt, _⟩ := C03_options_roundtrip_partial 2 _ _ sample_wellFormed
  obtain ⟨buf', r, h1, _, _, h2, _, a, ha, ha2⟩ := hrt (List.replicate n 0) (by simp)
  have hd : deref (fun _ => none) r.ptrs.regression_check = none := by
    rw [ha, ha2]; decide
  refine ⟨sampleHeap, fun _ => none, sampleOpts, _, buf', r, n, sample_wellFormed, h1, h2, hd, ?_⟩
  unfold SameStr
  rw [hd]; simp

end Fclaw.Options
