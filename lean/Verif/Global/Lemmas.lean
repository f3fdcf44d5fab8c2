import Verif.Global.Spec
import Verif.Packing.Lemmas
import Verif.PointerMap.Lemmas
/- Helper lemmas for property C02. -/
set_option autoImplicit false
namespace Fclaw.Global
open Fclaw.Packing

variable {Obj : Type}

theorem takeWhile_key (k : Key) (h : (0 : UInt8) ∉ k) : (k ++ [0]).takeWhile (· ≠ 0) = k := by
  induction k with
  | nil => simp
  | cons b bs ih =>
    have hb : b ≠ 0 := fun e => h (by simp [e])
    have : (0 : UInt8) ∉ bs := fun e => h (by simp [e])
    have := ih this
    simp_all

theorem isCString_key (k : Key) (h : GoodKey k) : IsCString (some (k ++ [0])) :=
  ⟨by simp, by have := h.2; simp; omega⟩

theorem stringCopy_key (k : Key) (h : GoodKey k) : stringCopy (some (k ++ [0])) = some (k ++ [0]) := by
  simp only [stringCopy, takeWhile_key k h.1]

theorem checkVt_good (vt : Option (VTable Obj)) (k : Key) (h : GoodKey k) : checkVt vt k = vt := by
  have := h.2
  unfold checkVt msgLen
  rw [if_pos (by omega)]

/-- Everything that is needed of one entry. -/
structure EntryOk (reg : Registry Obj) (same : Key → Obj → Obj → Prop) (e : Key × Obj) : Prop where
  good : GoodKey e.1
  reg : ∃ vt, reg e.1 = some vt ∧ Lossless vt (same e.1) e.2

theorem entries_ok (reg : Registry Obj) (same : Key → Obj → Obj → Prop) :
    ∀ (es : List (Key × Obj)), (∀ e ∈ es, EntryOk reg same e) →
    ∃ (w : Bytes) (ys : List (Key × Obj × Nat)),
      ys.map (·.1) = es.map (·.1) ∧
      (∀ k x, (k, x) ∈ es → ∃ y d, (k, y, d) ∈ ys ∧ same k x y) ∧
      (∀ e ∈ ys, ∃ vt, reg e.1 = some vt ∧ e.2.2 = vt.destroy) ∧
      Writes (packEntries reg es) w ∧
      (∀ acc, packsizeEntries reg es acc = some (acc + w.length)) ∧
      (∀ m, Reads (unpackEntries reg es.length m) w
        (ys.foldl (fun s e => PointerMap.insert s e.1 e.2.1 (some e.2.2)) m)) := by
  intro es
  induction es with
  | nil =>
    intro _
    exact ⟨[], [], rfl, by simp, by simp, writes_done, by simp [packsizeEntries], fun m => reads_done m⟩
  | cons e es ih =>
    intro h
    obtain ⟨k, x⟩ := e
    obtain ⟨w', ys', hk, hs, hd, hw, hz, hr⟩ := ih (fun e he => h e (by simp [he]))
    obtain ⟨hg, vt, hreg, w, y, hlen, hwx, hrx, hsame⟩ := h (k, x) (by simp)
    simp only at hg hreg hsame
    have hcs := isCString_key k hg
    have hchk : checkVt (reg k) k = some vt := by rw [checkVt_good _ _ hg, hreg]
    refine ⟨(stringImage (some (k ++ [0])) ++ w) ++ w', (k, y, vt.destroy) :: ys', ?_, ?_, ?_, ?_, ?_, ?_⟩
    · simp [hk]
    · intro k' x' hmem
      rcases List.mem_cons.1 hmem with h1 | h1
      · cases h1; exact ⟨y, vt.destroy, by simp, hsame⟩
      · obtain ⟨y', d, hy, hs'⟩ := hs k' x' h1
        exact ⟨y', d, by simp [hy], hs'⟩
    · intro e he
      rcases List.mem_cons.1 he with h1 | h1
      · subst h1; exact ⟨vt, hreg, rfl⟩
      · exact hd e h1
    · apply Writes.seq _ hw
      intro buf
      simp only [packEntry, hchk]
      exact (writes_string _ hcs).seq hwx buf
    · intro acc
      simp only [packsizeEntries, packsizeEntry, hchk, packsizeString_eq _ hcs, hz]
      rw [← stringImage_length, ← hlen]
      simp only [List.length_append]
      congr 1; omega
    · intro m
      have h1 : Reads (unpackEntry reg m) (stringImage (some (k ++ [0])) ++ w)
          (PointerMap.insert m k y (some vt.destroy)) := by
        have hs := reads_string _ hcs
        rw [stringCopy_key k hg] at hs
        refine hs.bind ?_
        have hsl : strlen (k ++ [0]) = some k.length := by
          rw [strlen_eq _ (by simp), takeWhile_key k hg.1]
        simp only [hsl, List.take_left, hchk]
        exact hrx.map _
      exact h1.bind (hr _)

theorem foldl_ops (ys : List (Key × Obj × Nat)) (m : PointerMap.State Key Obj) :
    ys.foldl (fun s e => PointerMap.insert s e.1 e.2.1 (some e.2.2)) m =
      (ys.map fun e => (⟨e.1, e.2.1, some e.2.2⟩ : PointerMap.Op Key Obj)).foldl
        (fun s o => PointerMap.insert s o.key o.pointer o.destroy) m := by
  induction ys generalizing m with
  | nil => rfl
  | cons e es ih => simp [ih]

theorem insert_fresh (ys : List (Key × Obj × Nat)) : ∀ (m : PointerMap.State Key Obj),
    (m.entries.map (·.1) ++ ys.map (·.1)).Nodup →
    ys.foldl (fun s e => PointerMap.insert s e.1 e.2.1 (some e.2.2)) m =
      ⟨m.entries ++ ys.map (fun e => (e.1, ⟨e.2.1, some e.2.2⟩)), m.log⟩ := by
  induction ys with
  | nil => intro m _; simp
  | cons e es ih =>
    intro m h
    have hnone : PointerMap.lookup m.entries e.1 = none := by
      have hn : e.1 ∉ m.entries.map (·.1) := by
        intro hm
        rw [List.nodup_append] at h
        exact h.2.2 e.1 hm e.1 (by simp) rfl
      rw [← PointerMap.lookup_isSome_iff] at hn
      simpa using hn
    have hins : PointerMap.insert m e.1 e.2.1 (some e.2.2) =
        ⟨m.entries ++ [(e.1, ⟨e.2.1, some e.2.2⟩)], m.log⟩ := by
      simp [PointerMap.insert, hnone]
    rw [List.foldl_cons, hins, ih]
    · simp
    · simpa using h

theorem size_eq (order : List (Key × PointerMap.Value Obj)) :
    PointerMap.size order = (PointerMap.iterate order).length := by
  have : ∀ (l : List (Key × PointerMap.Value Obj)) n, l.foldl (fun n _ => n + 1) n = n + l.length := by
    intro l
    induction l with
    | nil => simp
    | cons a l ih => intro n; simp [ih]; omega
  simp [PointerMap.size, PointerMap.iterate, this]

end Fclaw.Global
