import Verif.Options.Spec
import Verif.Packing.Lemmas
/- Helper lemmas for property C03. -/
set_option autoImplicit false
namespace Fclaw.Options
open Fclaw.Packing

theorem member_ok (h : Heap) (a : UInt64) (hv : ValidStr h a) :
    ∃ w s, Writes (packMember h a) w ∧ Reads unpackString w s ∧
      (∀ k, addSize h a k = k w.length) ∧ ∀ hr, SameStr h hr a (freshStr s) := by
  obtain ⟨s, hs, hc⟩ := hv
  refine ⟨stringImage s, stringCopy s, ?_, reads_string s hc, ?_, ?_⟩
  · intro buf
    simp only [packMember, hs]
    exact writes_string s hc buf
  · intro k
    simp only [addSize, hs, packsizeString_eq s hc, stringImage_length]
  · intro hr
    cases s with
    | none => simp [SameStr, freshStr, stringCopy, deref, hs]
    | some r =>
      have h1 := content_stringCopy (some r)
      have h2 := isCString_stringCopy _ hc
      simp only [stringCopy] at h1 h2
      simp only [SameStr, freshStr, stringCopy, deref, Option.map_some]
      exact ⟨r, hs, h1, h2⟩

theorem elem_writes (h : Heap) (a : UInt64) (l : List UInt64) (i : Nat) (v : UInt64)
    (hl : h a = some (.doubles l)) (hi : l[i]? = some v) :
    Writes (packElem h a i) (leBytes 8 v.toNat) := by
  intro buf
  simp only [packElem, doubleAt, hl, hi]
  exact writes_memcpy _ buf

theorem addrs_writes (as : List UInt64) :
    Writes (as.foldr (fun a p => seqP (packSizeT a) p) doneP)
      (as.flatMap fun a => leBytes 8 a.toNat) := by
  induction as with
  | nil => exact writes_done
  | cons a as ih => exact (writes_memcpy _).seq ih

theorem addrs_reads (as : List UInt64) :
    Reads (unpackAddrs as.length) (as.flatMap fun a => leBytes 8 a.toNat) as := by
  induction as with
  | nil => exact reads_done []
  | cons a as ih => exact (reads_sizeT a).bind (ih.map _)

theorem addrs_length (as : List UInt64) :
    (as.flatMap fun a => leBytes 8 a.toNat).length = 8 * as.length := by
  induction as with
  | nil => rfl
  | cons a as ih =>
    simp only [List.flatMap_cons, List.length_append, length_leBytes, ih, List.length_cons]; omega

theorem list2 (l : List UInt64) (h : l.length = 2) : ∃ a b, l = [a, b] := by
  match l, h with
  | [a, b], _ => exact ⟨a, b, rfl⟩

theorem list3 (l : List UInt64) (h : l.length = 3) : ∃ a b c, l = [a, b, c] := by
  match l, h with
  | [a, b, c], _ => exact ⟨a, b, c, rfl⟩

end Fclaw.Options
