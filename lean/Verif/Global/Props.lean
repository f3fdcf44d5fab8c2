import Verif.Global.Lemmas
import Verif.PointerMap.Props
/-
Property C02: a global context survives pack/unpack.
-/
set_option autoImplicit false
namespace Fclaw.Global
open Fclaw.Packing

variable {Obj : Type}

/-- C02. `ops` is the history of inserts which built the option map of the packed context;
`order` any order in which its hash table is traversed. If every key is registered with lossless
functions, packing, packsize and unpacking agree and restore the time, the time step and, for
every key, the stored options (and nothing else), and destroying the option map of the new
context releases every unpacked structure with the `destroy` function of its package, once. -/
theorem C02_global_roundtrip (reg : Registry Obj) (same : Key → Obj → Obj → Prop)
    (t dt : UInt64) (ops : List (PointerMap.Op Key Obj))
    (order : List (Key × PointerMap.Value Obj))
    (horder : order.Perm (PointerMap.run ops).entries)
    (hcount : order.length < 2 ^ 64)
    (hgood : ∀ o ∈ ops, GoodKey o.key)
    (hreg : ∀ k x, PointerMap.lastInserted ops k = some x →
      ∃ vt, reg k = some vt ∧ Lossless vt (same k) x) :
    ∃ n, globalPacksize reg order = some n ∧
      RoundTrip (globalPack reg ⟨t, dt, PointerMap.run ops⟩ order) (globalUnpack reg) n
        (fun g => g.currTime = t ∧ g.currDt = dt ∧
          (∀ k, SameOpt (same k) (PointerMap.lastInserted ops k) (PointerMap.get g.options k)) ∧
          ∀ order', order'.Perm g.options.entries →
            PointerMap.destroy g.options order' = releases reg (PointerMap.iterate order') ∧
            (releases reg (PointerMap.iterate order')).length = order'.length) := by
  obtain ⟨hnodup, hmem, _⟩ := PointerMap.C04_iterate ops order horder
  have hok : ∀ e ∈ PointerMap.iterate order, EntryOk reg same e := by
    rintro ⟨k, x⟩ he
    have hlast := (hmem k x).1 he
    refine ⟨?_, hreg k x hlast⟩
    have : k ∈ (PointerMap.run ops).entries.map (·.1) := by
      rw [← PointerMap.lookup_isSome_iff]
      have := (PointerMap.inv_run ops).lookupEq k
      rw [hlast] at this
      cases hl : PointerMap.lookup (PointerMap.run ops).entries k <;> simp_all
    obtain ⟨o, ho, hk⟩ := ((PointerMap.inv_run ops).keysMem k).1 this
    exact hk ▸ hgood o ho
  obtain ⟨w, ys, hkeys, hsame, hdes, hw, hsz, hr⟩ := entries_ok reg same _ hok
  have hlen : (PointerMap.iterate order).length < 2 ^ 64 := by
    simpa [PointerMap.iterate] using hcount
  have hW : Writes (globalPack reg ⟨t, dt, PointerMap.run ops⟩ order)
      (leBytes 8 t.toNat ++ (leBytes 8 dt.toNat ++
        (leBytes 8 (UInt64.ofNat (PointerMap.iterate order).length).toNat ++ w))) := by
    unfold globalPack
    rw [size_eq]
    exact (writes_memcpy _).seq ((writes_memcpy _).seq ((writes_memcpy _).seq hw))
  have hn : (UInt64.ofNat (PointerMap.iterate order).length).toNat
      = (PointerMap.iterate order).length :=
    UInt64.toNat_ofNat_of_lt' (by simp only [UInt64.size]; omega)
  have hR : Reads (globalUnpack reg)
      (leBytes 8 t.toNat ++ (leBytes 8 dt.toNat ++
        (leBytes 8 (UInt64.ofNat (PointerMap.iterate order).length).toNat ++ w)))
      (⟨t, dt, ys.foldl (fun s e => PointerMap.insert s e.1 e.2.1 (some e.2.2)) PointerMap.new⟩ :
        Glob Obj) := by
    refine (reads_double t).bind ((reads_double dt).bind ((reads_sizeT _).bind ?_))
    rw [hn]
    exact (hr PointerMap.new).map _
  refine ⟨_, ?_, roundTrip_of hW hR ⟨rfl, rfl, ?_, ?_⟩⟩
  · simp only [globalPacksize, hsz, List.length_append, length_leBytes]
    congr 1; omega
  · intro k
    simp only [foldl_ops]
    rw [show (List.foldl (fun s o => PointerMap.insert s o.key o.pointer o.destroy) PointerMap.new
      (ys.map fun e => (⟨e.1, e.2.1, some e.2.2⟩ : PointerMap.Op Key Obj))) =
      PointerMap.run (ys.map fun e => (⟨e.1, e.2.1, some e.2.2⟩ : PointerMap.Op Key Obj)) from rfl]
    rw [PointerMap.C04_get_last]
    -- keys of ys are distinct
    have hnd : (ys.map (·.1)).Nodup := by rw [hkeys]; exact hnodup
    have hfind : ∀ k y d, (k, y, d) ∈ ys → PointerMap.lastInserted
        (ys.map fun e => (⟨e.1, e.2.1, some e.2.2⟩ : PointerMap.Op Key Obj)) k = some y := by
      intro k y d
      clear hr hsame hkeys hR hdes
      induction ys with
      | nil => simp
      | cons e es ih =>
        intro hm
        obtain ⟨k', y', d'⟩ := e
        simp only [List.map_cons, List.nodup_cons] at hnd
        simp only [PointerMap.lastInserted, List.map_cons, List.reverse_cons,
          List.find?_append, Option.map_or] at ih ⊢
        rcases List.mem_cons.1 hm with h1 | h1
        · cases h1
          have hnone : List.find? (fun o : PointerMap.Op Key Obj => decide (o.key = k))
              (es.map fun e => (⟨e.1, e.2.1, some e.2.2⟩ : PointerMap.Op Key Obj)).reverse = none := by
            rw [List.find?_eq_none]
            intro o ho
            simp only [List.mem_reverse, List.mem_map] at ho
            obtain ⟨e, he, rfl⟩ := ho
            intro heq
            exact hnd.1 (List.mem_map.2 ⟨e, he, by simpa using heq⟩)
          rw [hnone]; simp
        · rw [ih hnd.2 h1]; rfl
    cases hl : PointerMap.lastInserted ops k with
    | some x =>
      obtain ⟨y, d, hy, hs⟩ := hsame k x ((hmem k x).2 hl)
      rw [hfind k y d hy]
      exact hs
    | none =>
      cases hl2 : PointerMap.lastInserted
        (ys.map fun e => (⟨e.1, e.2.1, some e.2.2⟩ : PointerMap.Op Key Obj)) k with
      | none => trivial
      | some y =>
        exfalso
        unfold PointerMap.lastInserted at hl2
        cases hf : List.find? (fun o => decide (o.key = k))
          (ys.map fun e => (⟨e.1, e.2.1, some e.2.2⟩ : PointerMap.Op Key Obj)).reverse with
        | none => simp [hf] at hl2
        | some o =>
          have h1 := List.mem_of_find?_eq_some hf
          have h2 := List.find?_some hf
          simp only [List.mem_reverse, List.mem_map] at h1
          obtain ⟨e, he, rfl⟩ := h1
          have hk : e.1 = k := by simpa using h2
          have : k ∈ (PointerMap.iterate order).map (·.1) := by
            rw [← hkeys, ← hk]; exact List.mem_map_of_mem he
          obtain ⟨⟨k', x⟩, hx, hk'⟩ := List.mem_map.1 this
          simp only at hk'
          rw [hk'] at hx
          rw [(hmem k x).1 hx] at hl
          simp at hl
  · have hnd : (ys.map (·.1)).Nodup := by rw [hkeys]; exact hnodup
    rw [insert_fresh ys PointerMap.new (by simpa [PointerMap.new] using hnd)]
    intro order' hp
    have hv : ∀ e ∈ order', ∃ vt, reg e.1 = some vt ∧ e.2.destroy = some vt.destroy := by
      intro e he
      have := (hp.mem_iff).1 he
      simp only [PointerMap.new, List.nil_append, List.mem_map] at this
      obtain ⟨x, hx, rfl⟩ := this
      obtain ⟨vt, h1, h2⟩ := hdes x hx
      exact ⟨vt, h1, by rw [← h2]⟩
    unfold PointerMap.destroy
    rw [PointerMap.foldl_calls]
    simp only [PointerMap.new, List.nil_append]
    clear hp
    induction order' with
    | nil => simp [releases, PointerMap.iterate]
    | cons e es ih =>
      obtain ⟨i1, i2⟩ := ih (fun e he => hv e (by simp [he]))
      obtain ⟨vt, h1, h2⟩ := hv e (by simp)
      simp only [releases, PointerMap.iterate] at i1 i2
      have hc : PointerMap.callOf e.2 = [⟨vt.destroy, e.2.pointer⟩] := by
        simp [PointerMap.callOf, h2]
      simp only [releases, PointerMap.iterate, List.map_cons, List.flatMap_cons, hc,
        List.filterMap_cons, h1, Option.map_some, i1, List.length_cons, i2]
      exact ⟨rfl, trivial⟩

/-- If some stored key has no registered functions the program aborts instead of producing a
buffer the receiver cannot read. -/
theorem C02_unregistered_aborts (reg : Registry Obj) (g : Glob Obj)
    (order : List (Key × PointerMap.Value Obj)) (k : Key) (v : PointerMap.Value Obj)
    (hmem : (k, v) ∈ order) (hreg : reg k = none) (buf : Bytes) :
    globalPack reg g order buf = none := by
  have hentry : ∀ x b, packEntry reg k x b = none := by
    intro x b
    unfold packEntry checkVt
    split
    · rfl
    · rename_i h; rw [hreg] at h; split at h <;> simp at h
  have hall : ∀ (es : List (Key × Obj)) x, (k, x) ∈ es → ∀ b, packEntries reg es b = none := by
    intro es
    induction es with
    | nil => simp
    | cons e es ih =>
      intro x hx b
      obtain ⟨k', x'⟩ := e
      rw [packEntries, seqP]
      rcases List.mem_cons.1 hx with h | h
      · cases h; rw [hentry]
      · split
        · rfl
        · rw [ih x h]
  have hm : (k, v.pointer) ∈ PointerMap.iterate order := List.mem_map.2 ⟨_, hmem, rfl⟩
  have hz := hall _ _ hm
  unfold globalPack seqP
  split
  · rfl
  · split
    · rfl
    · rename_i h
      split at h
      · simp at h
      · split at h
        · simp at h
        · rename_i h2
          split at h2
          · simp at h2
          · rw [hz] at h2; simp at h2

/-- A finding: the length bound in `GoodKey` is needed. A key longer than 981 characters overruns
the message buffer of `check_vt` even if it is registered. -/
theorem C02_long_key_counterexample (reg : Registry Obj) (k : Key) (x : Obj) (h : 981 < k.length)
    (buf : Bytes) : packEntry reg k x buf = none := by
  unfold packEntry checkVt msgLen
  rw [if_neg (by omega)]

/-- Non-vacuity of the hypotheses of `C02_global_roundtrip`: a registry for one key whose objects
are `size_t` values, and a context holding one of them. -/
example : ∃ (reg : Registry UInt64) (ops : List (PointerMap.Op Key UInt64)),
    ops ≠ [] ∧ (∀ o ∈ ops, GoodKey o.key) ∧
    (∀ k x, PointerMap.lastInserted ops k = some x →
      ∃ vt, reg k = some vt ∧ Lossless vt (fun a b => b = a) x) := by
  refine ⟨fun _ => some ⟨packSizeT, unpackSizeT, fun _ => 8, 0⟩, [⟨[102, 99], 5, none⟩], by simp,
    by simp [GoodKey], ?_⟩
  intro k x _
  exact ⟨_, rfl, leBytes 8 x.toNat, x, length_leBytes _ _, writes_memcpy _, reads_sizeT x, rfl⟩

end Fclaw.Global
