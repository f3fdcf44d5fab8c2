import Verif.Packing.Lemmas
/-
Property C01: the packing primitives are lossless.
-/
set_option autoImplicit false
namespace Fclaw.Packing

/-- C01 for `int`. -/
theorem C01_int (v : Int32) : RoundTrip (packInt v) unpackInt 4 (· = v) := by
  have := roundTrip_of (same := (· = v)) (writes_memcpy _) (reads_int v) rfl
  rwa [length_leBytes] at this

/-- C01 for `size_t`. -/
theorem C01_size_t (v : UInt64) : RoundTrip (packSizeT v) unpackSizeT 8 (· = v) := by
  have := roundTrip_of (same := (· = v)) (writes_memcpy _) (reads_sizeT v) rfl
  rwa [length_leBytes] at this

/-- C01 for `double` (bit pattern, so also for NaNs and signed zeros). -/
theorem C01_double (v : UInt64) : RoundTrip (packDouble v) unpackDouble 8 (· = v) := by
  have := roundTrip_of (same := (· = v)) (writes_memcpy _) (reads_double v) rfl
  rwa [length_leBytes] at this

/-- C01 for strings: `fclaw_packsize_string` announces a number `n` which is exactly what packing
writes and unpacking reads, and the unpacked pointer is NULL exactly if the packed one was, and
otherwise a NUL-terminated copy of the same characters. -/
theorem C01_string (s : CPtr) (h : IsCString s) :
    packsizeString s = some (stringBytes s) ∧
    RoundTrip (packString s) unpackString (stringBytes s)
      (fun s' => content s' = content s ∧ IsCString s') := by
  refine ⟨packsizeString_eq s h, ?_⟩
  rw [← stringImage_length]
  exact roundTrip_of (writes_string s h) (reads_string s h)
    ⟨content_stringCopy s, isCString_stringCopy s h⟩

/-- Non-vacuity: the string "ab" in a region with further bytes behind the NUL, and NULL. -/
example : IsCString (some [97, 98, 0, 99]) ∧ content (some [97, 98, 0, 99]) = some [97, 98] ∧
    IsCString none := by
  refine ⟨⟨by decide, by decide⟩, by decide, trivial⟩

end Fclaw.Packing
