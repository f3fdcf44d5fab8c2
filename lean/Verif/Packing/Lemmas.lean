import Verif.Packing.Spec
/- Helper lemmas for properties C01-C03. -/
set_option autoImplicit false
namespace Fclaw.Packing

theorem writes_memcpy (w : Bytes) : Writes (memcpyTo w) w := fun _ => rfl

theorem writes_done : Writes doneP [] := by intro buf; simp [doneP]

theorem Writes.seq {p q : Packer} {w v : Bytes} (hp : Writes p w) (hq : Writes q v) :
    Writes (seqP p q) (w ++ v) := by
  intro buf
  unfold seqP
  rw [hp buf]
  by_cases h : w.length ≤ buf.length
  · simp only [h, ↓reduceIte, List.drop_left, List.take_left]
    rw [hq]
    by_cases h2 : v.length ≤ (buf.drop w.length).length
    · have h3 : (w ++ v).length ≤ buf.length := by
        simp only [List.length_drop, List.length_append] at *; omega
      rw [if_pos h2, if_pos h3]
      simp only [List.append_assoc, List.drop_drop, List.length_append]
    · have h3 : ¬ (w ++ v).length ≤ buf.length := by
        simp only [List.length_drop, List.length_append] at *; omega
      simp only [h2, h3, ↓reduceIte]
  · have h3 : ¬ (w ++ v).length ≤ buf.length := by
      simp only [List.length_append] at *; omega
    simp only [h, h3, ↓reduceIte]

theorem reads_memcpy (w : Bytes) (n : Nat) (h : w.length = n) : Reads (memcpyFrom n) w w := by
  intro rest
  subst h
  simp [memcpyFrom]

theorem Reads.map {α β : Type} {u : Unpacker α} {w : Bytes} {v : α} (f : α → β)
    (h : Reads u w v) : Reads (mapU f u) w (f v) := by
  intro rest; simp [mapU, h rest]

theorem reads_done {α : Type} (v : α) : Reads (doneU v) [] v := by intro rest; simp [doneU]

theorem Reads.bind {α β : Type} {u : Unpacker α} {f : α → Unpacker β} {w1 w2 : Bytes} {x : α}
    {y : β} (h1 : Reads u w1 x) (h2 : Reads (f x) w2 y) : Reads (bindU u f) (w1 ++ w2) y := by
  intro rest
  unfold bindU
  rw [List.append_assoc, h1]
  simp only [List.drop_left]
  rw [h2]
  simp

theorem length_leBytes (k n : Nat) : (leBytes k n).length = k := by
  induction k generalizing n with
  | zero => rfl
  | succ k ih => simp [leBytes, ih]

theorem ofLe_leBytes (k n : Nat) (h : n < 256 ^ k) : ofLe (leBytes k n) = n := by
  induction k generalizing n with
  | zero => simp at h; simp [leBytes, ofLe, h]
  | succ k ih =>
    have h1 : n / 256 < 256 ^ k := by
      rw [Nat.div_lt_iff_lt_mul (by omega)]; rwa [Nat.pow_succ] at h
    simp only [leBytes, ofLe, ih _ h1]
    simp only [UInt8.toNat_ofNat']
    omega

theorem reads_sizeT (v : UInt64) : Reads unpackSizeT (leBytes 8 v.toNat) v := by
  have := (reads_memcpy (leBytes 8 v.toNat) 8 (length_leBytes _ _)).map
    (fun b => UInt64.ofNat (ofLe b))
  rwa [ofLe_leBytes 8 _ (by have := v.toNat_lt; omega), UInt64.ofNat_toNat] at this

theorem reads_double (v : UInt64) : Reads unpackDouble (leBytes 8 v.toNat) v := reads_sizeT v

theorem reads_int (v : Int32) : Reads unpackInt (leBytes 4 v.toUInt32.toNat) v := by
  have := (reads_memcpy (leBytes 4 v.toUInt32.toNat) 4 (length_leBytes _ _)).map
    (fun b => (UInt32.ofNat (ofLe b)).toInt32)
  rwa [ofLe_leBytes 4 _ (by have := v.toUInt32.toNat_lt; omega), UInt32.ofNat_toNat] at this

theorem strlen_eq (r : Bytes) (h : (0 : UInt8) ∈ r) :
    strlen r = some (r.takeWhile (· ≠ 0)).length := by
  induction r with
  | nil => simp at h
  | cons b bs ih =>
    by_cases hb : b = 0
    · simp [strlen, hb]
    · have : (0 : UInt8) ∈ bs := by
        rcases List.mem_cons.1 h with h | h
        · exact absurd h.symm hb
        · exact h
      simp [strlen, hb, ih this]

theorem takeWhile_length_lt (r : Bytes) (h : (0 : UInt8) ∈ r) :
    (r.takeWhile (· ≠ 0)).length < r.length := by
  induction r with
  | nil => simp at h
  | cons b bs ih =>
    by_cases hb : b = 0
    · simp [hb]
    · have : (0 : UInt8) ∈ bs := by
        rcases List.mem_cons.1 h with h | h
        · exact absurd h.symm hb
        · exact h
      have := ih this
      simp [hb] at this ⊢; omega

theorem take_strlen (r : Bytes) (h : (0 : UInt8) ∈ r) :
    r.take ((r.takeWhile (· ≠ 0)).length + 1) = r.takeWhile (· ≠ 0) ++ [0] := by
  induction r with
  | nil => simp at h
  | cons b bs ih =>
    by_cases hb : b = 0
    · simp [hb]
    · have : (0 : UInt8) ∈ bs := by
        rcases List.mem_cons.1 h with h | h
        · exact absurd h.symm hb
        · exact h
      have := ih this
      simp [hb] at this ⊢; exact this

/-- The bytes written for a string. -/
def stringImage : CPtr → Bytes
  | none => leBytes 8 0
  | some r => leBytes 8 ((r.takeWhile (· ≠ 0)).length + 1) ++ (r.takeWhile (· ≠ 0) ++ [0])

/-- The pointer obtained by unpacking. -/
def stringCopy : CPtr → CPtr
  | none => none
  | some r => some (r.takeWhile (· ≠ 0) ++ [0])

theorem stringImage_length (s : CPtr) : (stringImage s).length = stringBytes s := by
  cases s <;> simp [stringImage, stringBytes, length_leBytes]

theorem content_stringCopy (s : CPtr) : content (stringCopy s) = content s := by
  cases s with
  | none => rfl
  | some r =>
    simp only [content, stringCopy, Option.some.injEq]
    induction r with
    | nil => simp
    | cons b bs ih => by_cases hb : b = 0 <;> simp_all

theorem isCString_stringCopy (s : CPtr) (h : IsCString s) : IsCString (stringCopy s) := by
  cases s with
  | none => trivial
  | some r =>
    refine ⟨by simp, ?_⟩
    have := takeWhile_length_lt r h.1
    have h2 := h.2
    simp only [List.length_append, List.length_singleton] at *
    omega

theorem writes_string (s : CPtr) (h : IsCString s) : Writes (packString s) (stringImage s) := by
  intro buf
  cases s with
  | none => exact writes_memcpy _ buf
  | some r =>
    have hl := takeWhile_length_lt r h.1
    have h2 : r.length < 2 ^ 64 := h.2
    have hw := (writes_memcpy (leBytes 8 ((r.takeWhile (· ≠ 0)).length + 1))).seq
      (writes_memcpy (r.takeWhile (· ≠ 0) ++ [0])) buf
    simp only [packString, strlen_eq r h.1, take_strlen r h.1, packSizeT]
    rw [UInt64.toNat_ofNat_of_lt' (by simp only [UInt64.size]; omega)]
    exact hw

theorem reads_string (s : CPtr) (h : IsCString s) :
    Reads unpackString (stringImage s) (stringCopy s) := by
  cases s with
  | none =>
    have := (reads_sizeT 0).bind (f := fun length : UInt64 =>
      if length = 0 then doneU none else mapU some (memcpyFrom length.toNat))
      (w2 := []) (y := none) (by simpa using reads_done _)
    rw [List.append_nil] at this; exact this
  | some r =>
    have hl := takeWhile_length_lt r h.1
    have h2 : r.length < 2 ^ 64 := h.2
    have hn : (UInt64.ofNat ((r.takeWhile (· ≠ 0)).length + 1)).toNat
        = (r.takeWhile (· ≠ 0)).length + 1 :=
      UInt64.toNat_ofNat_of_lt' (by simp only [UInt64.size]; omega)
    have h1 := reads_sizeT (UInt64.ofNat ((r.takeWhile (· ≠ 0)).length + 1))
    rw [hn] at h1
    refine h1.bind ?_
    rw [if_neg]
    · rw [hn]
      exact (reads_memcpy (r.takeWhile (· ≠ 0) ++ [0]) _ (by simp)).map some
    · intro h0
      have := congrArg UInt64.toNat h0
      rw [hn] at this
      simp at this

theorem packsizeString_eq (s : CPtr) (h : IsCString s) : packsizeString s = some (stringBytes s) := by
  cases s with
  | none => rfl
  | some r => simp only [packsizeString, strlen_eq r h.1, stringBytes]

/-- Writing and reading back the same bytes is a round trip. -/
theorem roundTrip_of {α : Type} {p : Packer} {u : Unpacker α} {w : Bytes} {v : α}
    {same : α → Prop} (hp : Writes p w) (hu : Reads u w v) (hs : same v) :
    RoundTrip p u w.length same := by
  constructor
  · intro buf hbuf
    refine ⟨w ++ buf.drop w.length, v, ?_, ?_, ?_, hu _, hs⟩
    · rw [hp, if_pos hbuf]
    · simp; omega
    · simp
  · intro buf hbuf
    rw [hp, if_neg (by omega)]

end Fclaw.Packing
