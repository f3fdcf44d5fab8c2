import Verif.Sync5.Spec
import Verif.Layout.Ops
import Verif.Correction.Steps
import Mathlib.Tactic.Ring
import Mathlib.Tactic.FieldSimp
import Mathlib.Tactic.IntervalCases
/-
Loops that add to elements of an array, each one once.
-/
set_option autoImplicit false
set_option linter.unusedSimpArgs false
set_option linter.unusedVariables false
namespace Fclaw.Sync5

open Fort CopyGhost Correction GhostFill TimeSync Conserve Layout
open Transfer (divide)

variable {d : Dims} {σ A ρ : Type}

/-- The program adds `δ` to the elements in `S`, and changes no others. -/
def Adds (val : σ → A → ℚ) (keep : σ → ρ) (k0 : ρ) (S : A → Prop) (δ : A → ℚ) (f : σ → Option σ) : Prop :=
  ∀ s, keep s = k0 → ∃ s', f s = some s' ∧ keep s' = k0 ∧ (∀ x, S x → val s' x = val s x + δ x) ∧
    ∀ x, ¬ S x → val s' x = val s x

variable {val : σ → A → ℚ} {keep : σ → ρ} {k0 : ρ} {S T : A → Prop} {δ : A → ℚ} {f g : σ → Option σ}

theorem Adds.seq (hf : Adds val keep k0 S δ f) (hg : Adds val keep k0 T δ g) (h : ∀ x, S x → ¬ T x) :
    Adds val keep k0 (fun x => S x ∨ T x) δ (fun s => (f s).bind g) := by
  intro s hs
  obtain ⟨s1, e1, k1, a1, b1⟩ := hf s hs
  obtain ⟨s2, e2, k2, a2, b2⟩ := hg s1 k1
  refine ⟨s2, by beta_reduce; rw [e1]; exact e2, k2, ?_, ?_⟩
  · rintro x (hx | hx)
    · rw [b2 x (h x hx), a1 x hx]
    · rw [a2 x hx, b1 x (fun hS => h x hS hx)]
  · intro x hx
    rw [b2 x (fun hT => hx (Or.inr hT)), b1 x (fun hS => hx (Or.inl hS))]

theorem Adds.iff (hf : Adds val keep k0 S δ f) (h : ∀ x, S x ↔ T x) : Adds val keep k0 T δ f := by
  have : S = T := funext fun x => propext (h x)
  rw [← this]; exact hf

theorem Adds.loop {ι : Type} {S : ι → A → Prop} {f : ι → σ → Option σ} (ks : List ι) (hn : ks.Nodup)
    (h : ∀ k ∈ ks, Adds val keep k0 (S k) δ (f k)) (hd : ∀ k ∈ ks, ∀ k' ∈ ks, k ≠ k' → ∀ x, S k x → ¬ S k' x) :
    Adds val keep k0 (fun x => ∃ k ∈ ks, S k x) δ (Fort.loop ks f) := by
  induction ks with
  | nil =>
    intro s hs
    exact ⟨s, rfl, hs, fun x ⟨k, hk, _⟩ => by simp at hk, fun _ _ => rfl⟩
  | cons k ks ih =>
    have hk := List.nodup_cons.1 hn
    have i := ih hk.2 (fun k' hk' => h k' (List.mem_cons_of_mem _ hk'))
      (fun a ha b hb => hd a (List.mem_cons_of_mem _ ha) b (List.mem_cons_of_mem _ hb))
    have := (h k (List.mem_cons_self ..)).seq i (by
      rintro x hx ⟨k', hk', hx'⟩
      exact hd k (List.mem_cons_self ..) k' (List.mem_cons_of_mem _ hk') (by rintro rfl; exact hk.1 hk') x hx hx')
    refine Adds.iff this fun x => ?_
    constructor
    · rintro (hx | ⟨k', hk', hx⟩)
      · exact ⟨k, List.mem_cons_self .., hx⟩
      · exact ⟨k', List.mem_cons_of_mem _ hk', hx⟩
    · rintro ⟨k', hk', hx⟩
      rcases List.mem_cons.1 hk' with rfl | hk'
      · exact Or.inl hx
      · exact Or.inr ⟨k', hk', hx⟩

theorem Adds.doLoop {lo hi : ℤ} {S : ℤ → A → Prop} {f : ℤ → σ → Option σ}
    (h : ∀ k, lo ≤ k → k ≤ hi → Adds val keep k0 (S k) δ (f k))
    (hd : ∀ k k' x, S k x → S k' x → k = k') :
    Adds val keep k0 (fun x => ∃ k, (lo ≤ k ∧ k ≤ hi) ∧ S k x) δ (Fort.doLoop lo hi f) := by
  refine Adds.iff (Adds.loop (range lo hi) (range_nodup ..) (S := S) ?_ ?_) ?_
  · intro k hk
    rw [mem_range] at hk
    exact h k hk.1 hk.2
  · intro k _ k' _ hne x hx hx'
    exact hne (hd k k' x hx hx')
  · intro x
    simp only [mem_range]

/-! ### Registers -/

/-- What stays as it is in the registers. -/
def fixed (r : Regs) : (Nat → ℤ → ℚ) × (Nat → ℤ → ℚ) := (r.area, r.el)

theorem addEf_adds (n face : Nat) (t m k : ℤ) (v : ℚ) (k0 : (Nat → ℤ → ℚ) × (Nat → ℤ → ℚ)) (δ : Addr → ℚ)
    (ht : 1 ≤ t ∧ t ≤ n) (hm : comp d m) (hk : 0 ≤ k ∧ k ≤ 1) (hv : δ (.ef face t m k) = v) :
    Adds value fixed k0 (fun x => x = .ef face t m k) δ (addEf n d.meqn face t m k v) := by
  intro r hr
  unfold comp at hm
  refine ⟨{ r with ef := fun f t' m' k' =>
      if f = face ∧ t' = t ∧ m' = m ∧ k' = k then r.ef f t' m' k' + v else r.ef f t' m' k' },
    by unfold addEf; rw [if_pos ⟨ht.1, ht.2, hm.1, hm.2, hk.1, hk.2⟩], hr, ?_, ?_⟩
  · rintro x rfl
    simp only [value, and_self, if_true, hv]
  · intro x hx
    cases x <;> simp only [value]
    rename_i f' t' m' k'
    rw [if_neg]
    rintro ⟨rfl, rfl, rfl, rfl⟩
    exact hx rfl

theorem gather_spec (n : Nat) (src : ℤ → Option ℚ) (junk v : ℤ → ℚ) (h : ∀ m : ℤ, 1 ≤ m → m ≤ n → src m = some (v m)) :
    ∃ w, doLoop 1 (n : ℤ) (fun m u => (src m).bind fun x => some (upd u m x)) junk = some w ∧ ∀ m : ℤ, 1 ≤ m → m ≤ n → w m = v m := by
  induction n with
  | zero => exact ⟨junk, rfl, fun m h1 h2 => absurd h2 (by simp only [Nat.cast_zero]; omega)⟩
  | succ n ih =>
    obtain ⟨w, e, hw⟩ := ih fun m h1 h2 => h m h1 (by push_cast; omega)
    refine ⟨upd w ((n + 1 : Nat) : ℤ) (v ((n + 1 : Nat) : ℤ)), ?_, ?_⟩
    · unfold doLoop at e ⊢
      rw [range_one_succ, loop_append, e]
      show ((src ((n + 1 : Nat) : ℤ)).bind _).bind _ = _
      rw [h _ (by push_cast; omega) le_rfl]
      rfl
    · intro m h1 h2
      unfold upd
      by_cases e : m = ((n + 1 : Nat) : ℤ)
      · rw [if_pos e, e]
      · rw [if_neg e]
        exact hw m h1 (by push_cast at e h2; omega)

theorem gather2_spec (n : Nat) (src src' : ℤ → Option ℚ) (junk v v' : ℤ → ℚ) (h : ∀ m : ℤ, 1 ≤ m → m ≤ n → src m = some (v m))
    (h' : ∀ m : ℤ, 1 ≤ m → m ≤ n → src' m = some (v' m)) :
    ∃ w, doLoop 1 (n : ℤ) (fun m (u : (ℤ → ℚ) × (ℤ → ℚ)) => (src m).bind fun x => (src' m).bind fun y =>
        some (upd u.1 m x, upd u.2 m y)) (junk, junk) = some w ∧
      (∀ m : ℤ, 1 ≤ m → m ≤ n → w.1 m = v m) ∧ ∀ m : ℤ, 1 ≤ m → m ≤ n → w.2 m = v' m := by
  induction n with
  | zero => exact ⟨(junk, junk), rfl, fun m h1 h2 => absurd h2 (by simp only [Nat.cast_zero]; omega),
      fun m h1 h2 => absurd h2 (by simp only [Nat.cast_zero]; omega)⟩
  | succ n ih =>
    obtain ⟨w, e, hw, hw'⟩ := ih (fun m h1 h2 => h m h1 (by push_cast; omega)) (fun m h1 h2 => h' m h1 (by push_cast; omega))
    refine ⟨(upd w.1 ((n + 1 : Nat) : ℤ) (v ((n + 1 : Nat) : ℤ)), upd w.2 ((n + 1 : Nat) : ℤ) (v' ((n + 1 : Nat) : ℤ))), ?_, ?_, ?_⟩
    · unfold doLoop at e ⊢
      rw [range_one_succ, loop_append, e]
      show ((src ((n + 1 : Nat) : ℤ)).bind _).bind _ = _
      rw [h _ (by push_cast; omega) le_rfl]
      show ((src' ((n + 1 : Nat) : ℤ)).bind _).bind _ = _
      rw [h' _ (by push_cast; omega) le_rfl]
      rfl
    · intro m h1 h2
      show upd w.1 _ _ m = _
      unfold upd
      by_cases e : m = ((n + 1 : Nat) : ℤ)
      · rw [if_pos e, e]
      · rw [if_neg e]
        exact hw m h1 (by push_cast at e h2; omega)
    · intro m h1 h2
      show upd w.2 _ _ m = _
      unfold upd
      by_cases e : m = ((n + 1 : Nat) : ℤ)
      · rw [if_pos e, e]
      · rw [if_neg e]
        exact hw' m h1 (by push_cast at e h2; omega)

/-- What a routine reads of an array that holds `g`, with `n` components. -/
def Reads (d : Dims) (R : Read) (g : Grid ℚ) : Prop := ∀ i j m, inBox d (i, j, m) = true → R i j m = some (g (i, j, m))

theorem reads5 (d : Dims) (a : Mem ℚ) (g : Grid ℚ) (h : Holds d a g) : Reads d (read5 d a) g := by
  intro i j m hb
  unfold read5
  rw [rd5_eq h]
  unfold rd
  rw [if_pos hb]

theorem reads46 (d : Dims) (g : Grid ℚ) : Reads d (read46 d g) g := by
  intro i j m hb
  unfold read46 rd
  rw [if_pos hb]

/-- A cell of the patch or of its ghost cells. -/
def inArray (d : Dims) (c : ℤ × ℤ) : Prop :=
  (1 - (d.mbc : ℤ) ≤ c.1 ∧ c.1 ≤ d.mx + d.mbc) ∧ 1 - (d.mbc : ℤ) ≤ c.2 ∧ c.2 ≤ d.my + d.mbc

theorem storeSide_adds (maux n : Nat) (q aux : Read) (gq ga : Grid ℚ) (hq : Reads d q gq) (ha : Reads (auxDims d maux) aux ga)
    (junk : ℤ → ℚ) (rpn : Rpn) (hl : LocalRpn d maux rpn) (dt : ℚ) (face idir : Nat) (iface k t : ℤ) (c e : ℤ × ℤ)
    (area el : Nat → ℤ → ℚ) (δ : Addr → ℚ) (hc : inArray d c) (he : inArray d e)
    (ht : 1 ≤ t ∧ t ≤ n) (hk : 0 ≤ k ∧ k ≤ 1)
    (hv : ∀ m, comp d m → δ (.ef face t m k) = dt * el face t * rpn idir iface.toNat (vec gq c.1 c.2) (vec ga c.1 c.2) (vec ga e.1 e.2) m) :
    Adds value fixed (area, el) (fun x => ∃ m, comp d m ∧ x = .ef face t m k) δ
      (storeSide d.meqn maux n q aux junk rpn dt face idir iface k t c e) := by
  obtain ⟨a, ea, ha1, ha2⟩ := gather2_spec maux (fun m => aux c.1 c.2 m) (fun m => aux e.1 e.2 m) junk (vec ga c.1 c.2) (vec ga e.1 e.2)
    (fun m h1 h2 => ha _ _ _ (by rw [inBox_iff]; exact ⟨hc.1, hc.2, h1, h2⟩))
    (fun m h1 h2 => ha _ _ _ (by rw [inBox_iff]; exact ⟨he.1, he.2, h1, h2⟩))
  obtain ⟨qv, eq, hqv⟩ := gather_spec d.meqn (fun m => q c.1 c.2 m) junk (vec gq c.1 c.2)
    (fun m h1 h2 => hq _ _ _ (by rw [inBox_iff]; exact ⟨hc.1, hc.2, h1, h2⟩))
  have key : Adds value fixed (area, el) (fun x => ∃ m, (1 ≤ m ∧ m ≤ (d.meqn : ℤ)) ∧ x = .ef face t m k) δ
      (doLoop 1 d.meqn (fun m r => (rdEl n face t r).bind fun el => addEf n d.meqn face t m k
        (dt * el * rpn idir iface.toNat qv a.1 a.2 m) r)) := by
    refine Adds.doLoop ?_ ?_
    · intro m h1 h2 r hr
      have e : (rdEl n face t r) = some (el face t) := by
        unfold rdEl
        rw [if_pos ht]
        have : r.el = el := congrArg Prod.snd hr
        rw [this]
      show ∃ s', ((rdEl n face t r).bind _) = some s' ∧ _
      rw [e]
      refine addEf_adds n face t m k _ (area, el) δ ht ⟨h1, h2⟩ hk ?_ r hr
      rw [hv m ⟨h1, h2⟩, hl idir iface.toNat _ _ _ _ _ _ m (fun m hm => (hqv m hm.1 hm.2).symm)
        (fun m h1 h2 => (ha1 m h1 h2).symm) (fun m h1 h2 => (ha2 m h1 h2).symm) ⟨h1, h2⟩]
    · rintro m m' x rfl e
      injection e
  intro r hr
  obtain ⟨r', e', h'⟩ := key r hr
  refine ⟨r', ?_, h'⟩
  unfold storeSide
  rw [ea]
  show (_ : Option _).bind _ = _
  rw [eq]
  exact e'

/-! ### Both routines -/

/-- What storing the fluxes adds. -/
def fluxPart (d : Dims) (rpn : Rpn) (dt : ℚ) (el : Nat → ℤ → ℚ) (q aux : Grid ℚ) : Addr → ℚ
  | .ef f t m k =>
    if f = 0 then dt * el 0 t * rpn 0 (if k = 0 then 0 else 1) (vec q (1 - k) t) (vec aux (1 - k) t) (vec aux 1 t) m
    else if f = 1 then
      dt * el 1 t * rpn 0 (if k = 0 then 1 else 0) (vec q (d.mx + k) t) (vec aux (d.mx + k) t) (vec aux (d.mx + 1) t) m
    else if f = 2 then
      dt * el 2 t * rpn 1 (if k = 0 then 2 else 3) (vec q t (1 - k)) (vec aux t (1 - k)) (vec aux t 1) m
    else dt * el 3 t * rpn 1 (if k = 0 then 3 else 2) (vec q t (d.my + k)) (vec aux t (d.my + k)) (vec aux t (d.my + 1)) m
  | _ => 0

theorem value_storeFlux (rpn : Rpn) (dt : ℚ) (q aux : Grid ℚ) (r : Regs) (x : Addr) (hx : Exists d x) :
    value (storeFlux d rpn dt q aux r) x = value r x + fluxPart d rpn dt r.el q aux x := by
  cases x with
  | ef f t m k =>
    simp only [Exists] at hx
    have hf := hx.1
    simp only [value, storeFlux, fluxPart]
    by_cases h0 : f = 0
    · subst h0; simp
    by_cases h1 : f = 1
    · subst h1; simp
    by_cases h2 : f = 2
    · subst h2; simp
    have h3 : f = 3 := by omega
    subst h3; simp
  | _ => simp [value, storeFlux, fluxPart]

theorem storeFluxLoops_adds (hb : 1 ≤ d.mbc) (maux : Nat) (q aux : Read) (gq ga : Grid ℚ) (hq : Reads d q gq)
    (ha : Reads (auxDims d maux) aux ga) (junk : ℤ → ℚ) (rpn : Rpn) (hl : LocalRpn d maux rpn) (dt : ℚ) (area el : Nat → ℤ → ℚ) :
    Adds value fixed (area, el) (fun x => Exists d x ∧ ∃ f t m k, x = .ef f t m k) (fluxPart d rpn dt el gq ga)
      (storeFluxLoops d maux q aux junk rpn dt) := by
  have side : ∀ (n face idir : Nat) (iface k t : ℤ) (c e : ℤ × ℤ), inArray d c → inArray d e → 1 ≤ t ∧ t ≤ n → 0 ≤ k ∧ k ≤ 1 →
      (∀ m, comp d m → fluxPart d rpn dt el gq ga (.ef face t m k) =
        dt * el face t * rpn idir iface.toNat (vec gq c.1 c.2) (vec ga c.1 c.2) (vec ga e.1 e.2) m) →
      Adds value fixed (area, el) (fun x => ∃ m, comp d m ∧ x = .ef face t m k) (fluxPart d rpn dt el gq ga)
        (storeSide d.meqn maux n q aux junk rpn dt face idir iface k t c e) :=
    fun n face idir iface k t c e hc he ht hk hv =>
      storeSide_adds maux n q aux gq ga hq ha junk rpn hl dt face idir iface k t c e area el _ hc he ht hk hv
  have two : ∀ (t : ℤ) (n f f' idir : Nat) (iface iface' : ℤ → ℤ) (c c' : ℤ → ℤ × ℤ) (e e' : ℤ × ℤ), f ≠ f' →
      (∀ k, 0 ≤ k → k ≤ 1 → Adds value fixed (area, el) (fun x => ∃ m, comp d m ∧ x = .ef f t m k) (fluxPart d rpn dt el gq ga)
        (storeSide d.meqn maux n q aux junk rpn dt f idir (iface k) k t (c k) e)) →
      (∀ k, 0 ≤ k → k ≤ 1 → Adds value fixed (area, el) (fun x => ∃ m, comp d m ∧ x = .ef f' t m k) (fluxPart d rpn dt el gq ga)
        (storeSide d.meqn maux n q aux junk rpn dt f' idir (iface' k) k t (c' k) e')) →
      Adds value fixed (area, el) (fun x => ∃ m k, (0 ≤ k ∧ k ≤ 1) ∧ comp d m ∧ (x = .ef f t m k ∨ x = .ef f' t m k))
        (fluxPart d rpn dt el gq ga)
        (fun r => (doLoop 0 1 (fun k => storeSide d.meqn maux n q aux junk rpn dt f idir (iface k) k t (c k) e) r).bind fun r =>
          doLoop 0 1 (fun k => storeSide d.meqn maux n q aux junk rpn dt f' idir (iface' k) k t (c' k) e') r) := by
    intro t n f f' idir iface iface' c c' e e' hne h1 h2
    refine Adds.iff (Adds.seq (Adds.doLoop h1 ?_) (Adds.doLoop h2 ?_) ?_) ?_
    · rintro k k' x ⟨m, _, rfl⟩ ⟨m', _, e⟩
      injection e
    · rintro k k' x ⟨m, _, rfl⟩ ⟨m', _, e⟩
      injection e
    · rintro x ⟨k, _, m, _, rfl⟩ ⟨k', _, m', _, e⟩
      injection e with e
      exact hne e
    · intro x
      constructor
      · rintro (⟨k, hk, m, hm, e⟩ | ⟨k, hk, m, hm, e⟩)
        · exact ⟨m, k, hk, hm, Or.inl e⟩
        · exact ⟨m, k, hk, hm, Or.inr e⟩
      · rintro ⟨m, k, hk, hm, e | e⟩
        · exact Or.inl ⟨k, hk, m, hm, e⟩
        · exact Or.inr ⟨k, hk, m, hm, e⟩
  have one : ∀ k : ℤ, 0 ≤ k → k ≤ 1 → k = 0 ∨ k = 1 := fun k h1 h2 => by omega
  unfold storeFluxLoops
  dsimp only
  refine Adds.iff (Adds.seq (Adds.doLoop (fun j h1 h2 => two j d.my 0 1 0 (fun k => k) (fun k => 1 - k) (fun k => (1 - k, j))
    (fun k => (d.mx + k, j)) (1, j) (d.mx + 1, j) (by decide) ?_ ?_) ?_)
    (Adds.doLoop (fun i h1 h2 => two i d.mx 2 3 1 (fun k => k + 2) (fun k => 3 - k) (fun k => (i, 1 - k))
    (fun k => (i, d.my + k)) (i, 1) (i, d.my + 1) (by decide) ?_ ?_) ?_) ?_) ?_
  · intro k hk0 hk1
    refine side d.my 0 0 k k j _ _ ?_ ?_ ⟨h1, h2⟩ ⟨hk0, hk1⟩ ?_
    · simp only [inArray]; omega
    · simp only [inArray]; omega
    · intro m hm
      rcases one k hk0 hk1 with rfl | rfl <;> simp [fluxPart]
  · intro k hk0 hk1
    refine side d.my 1 0 (1 - k) k j _ _ ?_ ?_ ⟨h1, h2⟩ ⟨hk0, hk1⟩ ?_
    · simp only [inArray]; omega
    · simp only [inArray]; omega
    · intro m hm
      rcases one k hk0 hk1 with rfl | rfl <;> simp [fluxPart]
  · rintro j j' x ⟨m, k, _, _, rfl | rfl⟩ ⟨m', k', _, _, e | e⟩ <;> injection e
  · intro k hk0 hk1
    refine side d.mx 2 1 (k + 2) k i _ _ ?_ ?_ ⟨h1, h2⟩ ⟨hk0, hk1⟩ ?_
    · simp only [inArray]; omega
    · simp only [inArray]; omega
    · intro m hm
      rcases one k hk0 hk1 with rfl | rfl <;> simp [fluxPart]
  · intro k hk0 hk1
    refine side d.mx 3 1 (3 - k) k i _ _ ?_ ?_ ⟨h1, h2⟩ ⟨hk0, hk1⟩ ?_
    · simp only [inArray]; omega
    · simp only [inArray]; omega
    · intro m hm
      rcases one k hk0 hk1 with rfl | rfl <;> simp [fluxPart]
  · rintro j j' x ⟨m, k, _, _, rfl | rfl⟩ ⟨m', k', _, _, e | e⟩ <;> injection e
  · rintro x ⟨j, _, m, k, _, _, rfl | rfl⟩ ⟨i, _, m', k', _, _, e | e⟩ <;> (injection e; contradiction)
  · intro x
    constructor
    · rintro (⟨j, hj, m, k, hk, hm, rfl | rfl⟩ | ⟨j, hj, m, k, hk, hm, rfl | rfl⟩)
      · exact ⟨⟨by decide, hj, hm, one k hk.1 hk.2⟩, _, _, _, _, rfl⟩
      · exact ⟨⟨by decide, hj, hm, one k hk.1 hk.2⟩, _, _, _, _, rfl⟩
      · exact ⟨⟨by decide, hj, hm, one k hk.1 hk.2⟩, _, _, _, _, rfl⟩
      · exact ⟨⟨by decide, hj, hm, one k hk.1 hk.2⟩, _, _, _, _, rfl⟩
    · rintro ⟨h, f, t, m, k, rfl⟩
      obtain ⟨hf, ht, hm, hk⟩ := h
      have hk' : 0 ≤ k ∧ k ≤ 1 := by omega
      have : f = 0 ∨ f = 1 ∨ f = 2 ∨ f = 3 := by omega
      rcases this with rfl | rfl | rfl | rfl
      · exact Or.inl ⟨t, ht, m, k, hk', hm, Or.inl rfl⟩
      · exact Or.inl ⟨t, ht, m, k, hk', hm, Or.inr rfl⟩
      · exact Or.inr ⟨t, ht, m, k, hk', hm, Or.inl rfl⟩
      · exact Or.inr ⟨t, ht, m, k, hk', hm, Or.inr rfl⟩

/-! ### Fluctuations -/

/-- What accumulating the fluctuations adds. -/
def wavePart (d : Dims) (dx dy dt : ℚ) (w : Waves) : Addr → ℚ
  | .fp s j m => -(dt * dy * w.fp (if s = 0 then 1 else d.mx + 1, j, m))
  | .fm s j m => dt * dy * w.fm (if s = 0 then 1 else d.mx + 1, j, m)
  | .gp s i m => -(dt * dx * w.gp (i, if s = 0 then 1 else d.my + 1, m))
  | .gm s i m => dt * dx * w.gm (i, if s = 0 then 1 else d.my + 1, m)
  | .ef _ _ _ _ => 0

theorem value_accumulate (dx dy dt : ℚ) (w : Waves) (r : Regs) (x : Addr) :
    value (accumulateWaves d dx dy dt w r) x = value r x + wavePart d dx dy dt w x := by
  cases x <;> simp [value, accumulateWaves, wavePart, sub_eq_add_neg]

theorem addFp_adds (k0 : (Nat → ℤ → ℚ) × (Nat → ℤ → ℚ)) (δ : Addr → ℚ) (R : Option ℚ) (x : ℚ) (hR : R = some x) (v : ℚ → ℚ)
    (s : Nat) (t m : ℤ) (ht : 1 ≤ t ∧ t ≤ d.my) (hm : comp d m) (hv : δ (.fp s t m) = v x) :
    Adds value fixed k0 (fun a => a = .fp s t m) δ (fun r => R.bind fun x => addFp d s t m (v x) r) := by
  intro r hr
  rw [hR]
  unfold comp at hm
  refine ⟨{ r with fp := fun s' t' m' => if s' = s ∧ t' = t ∧ m' = m then r.fp s' t' m' + v x else r.fp s' t' m' },
    by simp only [Option.bind_some, addFp, addReg]; rw [if_pos ⟨ht.1, ht.2, hm.1, hm.2⟩]; rfl, hr, ?_, ?_⟩
  · rintro a rfl
    simp only [value, and_self, if_true, hv]
  · intro a ha
    cases a <;> simp only [value]
    rw [if_neg]
    rintro ⟨rfl, rfl, rfl⟩
    exact ha rfl

theorem addFm_adds (k0 : (Nat → ℤ → ℚ) × (Nat → ℤ → ℚ)) (δ : Addr → ℚ) (R : Option ℚ) (x : ℚ) (hR : R = some x) (v : ℚ → ℚ)
    (s : Nat) (t m : ℤ) (ht : 1 ≤ t ∧ t ≤ d.my) (hm : comp d m) (hv : δ (.fm s t m) = v x) :
    Adds value fixed k0 (fun a => a = .fm s t m) δ (fun r => R.bind fun x => addFm d s t m (v x) r) := by
  intro r hr
  rw [hR]
  unfold comp at hm
  refine ⟨{ r with fm := fun s' t' m' => if s' = s ∧ t' = t ∧ m' = m then r.fm s' t' m' + v x else r.fm s' t' m' },
    by simp only [Option.bind_some, addFm, addReg]; rw [if_pos ⟨ht.1, ht.2, hm.1, hm.2⟩]; rfl, hr, ?_, ?_⟩
  · rintro a rfl
    simp only [value, and_self, if_true, hv]
  · intro a ha
    cases a <;> simp only [value]
    rw [if_neg]
    rintro ⟨rfl, rfl, rfl⟩
    exact ha rfl

theorem addGp_adds (k0 : (Nat → ℤ → ℚ) × (Nat → ℤ → ℚ)) (δ : Addr → ℚ) (R : Option ℚ) (x : ℚ) (hR : R = some x) (v : ℚ → ℚ)
    (s : Nat) (t m : ℤ) (ht : 1 ≤ t ∧ t ≤ d.mx) (hm : comp d m) (hv : δ (.gp s t m) = v x) :
    Adds value fixed k0 (fun a => a = .gp s t m) δ (fun r => R.bind fun x => addGp d s t m (v x) r) := by
  intro r hr
  rw [hR]
  unfold comp at hm
  refine ⟨{ r with gp := fun s' t' m' => if s' = s ∧ t' = t ∧ m' = m then r.gp s' t' m' + v x else r.gp s' t' m' },
    by simp only [Option.bind_some, addGp, addReg]; rw [if_pos ⟨ht.1, ht.2, hm.1, hm.2⟩]; rfl, hr, ?_, ?_⟩
  · rintro a rfl
    simp only [value, and_self, if_true, hv]
  · intro a ha
    cases a <;> simp only [value]
    rw [if_neg]
    rintro ⟨rfl, rfl, rfl⟩
    exact ha rfl

theorem addGm_adds (k0 : (Nat → ℤ → ℚ) × (Nat → ℤ → ℚ)) (δ : Addr → ℚ) (R : Option ℚ) (x : ℚ) (hR : R = some x) (v : ℚ → ℚ)
    (s : Nat) (t m : ℤ) (ht : 1 ≤ t ∧ t ≤ d.mx) (hm : comp d m) (hv : δ (.gm s t m) = v x) :
    Adds value fixed k0 (fun a => a = .gm s t m) δ (fun r => R.bind fun x => addGm d s t m (v x) r) := by
  intro r hr
  rw [hR]
  unfold comp at hm
  refine ⟨{ r with gm := fun s' t' m' => if s' = s ∧ t' = t ∧ m' = m then r.gm s' t' m' + v x else r.gm s' t' m' },
    by simp only [Option.bind_some, addGm, addReg]; rw [if_pos ⟨ht.1, ht.2, hm.1, hm.2⟩]; rfl, hr, ?_, ?_⟩
  · rintro a rfl
    simp only [value, and_self, if_true, hv]
  · intro a ha
    cases a <;> simp only [value]
    rw [if_neg]
    rintro ⟨rfl, rfl, rfl⟩
    exact ha rfl

theorem accumulate_adds (hb : 1 ≤ d.mbc) (dx dy dt : ℚ) (fp fm gp gm : Read) (w : Waves) (h1 : Reads d fp w.fp) (h2 : Reads d fm w.fm)
    (h3 : Reads d gp w.gp) (h4 : Reads d gm w.gm) (k0 : (Nat → ℤ → ℚ) × (Nat → ℤ → ℚ)) :
    Adds value fixed k0 (fun x => Exists d x ∧ ¬ ∃ f t m k, x = .ef f t m k) (wavePart d dx dy dt w)
      (accumulateLoops d dx dy dt fp fm gp gm) := by
  unfold accumulateLoops
  dsimp only
  have xs : ∀ j m : ℤ, (1 ≤ j ∧ j ≤ d.my) → comp d m → Adds value fixed k0
      (fun x => x = .fp 0 j m ∨ x = .fm 0 j m ∨ x = .fp 1 j m ∨ x = .fm 1 j m) (wavePart d dx dy dt w) (fun r =>
      ((fp 1 j m).bind fun x => addFp d 0 j m (-(dt * dy * x)) r).bind fun r =>
      ((fm 1 j m).bind fun x => addFm d 0 j m (dt * dy * x) r).bind fun r =>
      ((fp (d.mx + 1) j m).bind fun x => addFp d 1 j m (-(dt * dy * x)) r).bind fun r =>
      (fm (d.mx + 1) j m).bind fun x => addFm d 1 j m (dt * dy * x) r) := by
    intro j m hj hm
    have hm' := hm
    unfold comp at hm'
    have b1 : inBox d (1, j, m) = true := by rw [inBox_iff]; omega
    have b2 : inBox d (d.mx + 1, j, m) = true := by rw [inBox_iff]; omega
    refine Adds.seq (addFp_adds k0 _ _ _ (h1 _ _ _ b1) (fun x => -(dt * dy * x)) 0 j m hj hm (by simp [wavePart]))
      (Adds.seq (addFm_adds k0 _ _ _ (h2 _ _ _ b1) (fun x => dt * dy * x) 0 j m hj hm (by simp [wavePart]))
      (Adds.seq (addFp_adds k0 _ _ _ (h1 _ _ _ b2) (fun x => -(dt * dy * x)) 1 j m hj hm (by simp [wavePart]))
      (addFm_adds k0 _ _ _ (h2 _ _ _ b2) (fun x => dt * dy * x) 1 j m hj hm (by simp [wavePart])) ?_) ?_) ?_ <;>
    · rintro x rfl
      simp
  have ys : ∀ i m : ℤ, (1 ≤ i ∧ i ≤ d.mx) → comp d m → Adds value fixed k0
      (fun x => x = .gp 0 i m ∨ x = .gm 0 i m ∨ x = .gp 1 i m ∨ x = .gm 1 i m) (wavePart d dx dy dt w) (fun r =>
      ((gp i 1 m).bind fun x => addGp d 0 i m (-(dt * dx * x)) r).bind fun r =>
      ((gm i 1 m).bind fun x => addGm d 0 i m (dt * dx * x) r).bind fun r =>
      ((gp i (d.my + 1) m).bind fun x => addGp d 1 i m (-(dt * dx * x)) r).bind fun r =>
      (gm i (d.my + 1) m).bind fun x => addGm d 1 i m (dt * dx * x) r) := by
    intro i m hi hm
    have hm' := hm
    unfold comp at hm'
    have b1 : inBox d (i, 1, m) = true := by rw [inBox_iff]; omega
    have b2 : inBox d (i, d.my + 1, m) = true := by rw [inBox_iff]; omega
    refine Adds.seq (addGp_adds k0 _ _ _ (h3 _ _ _ b1) (fun x => -(dt * dx * x)) 0 i m hi hm (by simp [wavePart]))
      (Adds.seq (addGm_adds k0 _ _ _ (h4 _ _ _ b1) (fun x => dt * dx * x) 0 i m hi hm (by simp [wavePart]))
      (Adds.seq (addGp_adds k0 _ _ _ (h3 _ _ _ b2) (fun x => -(dt * dx * x)) 1 i m hi hm (by simp [wavePart]))
      (addGm_adds k0 _ _ _ (h4 _ _ _ b2) (fun x => dt * dx * x) 1 i m hi hm (by simp [wavePart])) ?_) ?_) ?_ <;>
    · rintro x rfl
      simp
  refine Adds.iff (Adds.seq (Adds.doLoop (fun j j1 j2 => Adds.doLoop (fun m m1 m2 => xs j m ⟨j1, j2⟩ ⟨m1, m2⟩) ?_) ?_)
    (Adds.doLoop (fun i i1 i2 => Adds.doLoop (fun m m1 m2 => ys i m ⟨i1, i2⟩ ⟨m1, m2⟩) ?_) ?_) ?_) ?_
  · rintro m m' x h h'
    rcases h with rfl | rfl | rfl | rfl <;> simp at h' <;> exact h'
  · rintro j j' x ⟨m, _, h⟩ ⟨m', _, h'⟩
    rcases h with rfl | rfl | rfl | rfl <;> simp at h' <;> exact h'.1
  · rintro m m' x h h'
    rcases h with rfl | rfl | rfl | rfl <;> simp at h' <;> exact h'
  · rintro j j' x ⟨m, _, h⟩ ⟨m', _, h'⟩
    rcases h with rfl | rfl | rfl | rfl <;> simp at h' <;> exact h'.1
  · rintro x ⟨j, _, m, _, h⟩ ⟨i, _, m', _, h'⟩
    rcases h with rfl | rfl | rfl | rfl <;> simp at h'
  · intro x
    constructor
    · rintro (⟨j, hj, m, hm, rfl | rfl | rfl | rfl⟩ | ⟨j, hj, m, hm, rfl | rfl | rfl | rfl⟩) <;>
        exact ⟨⟨by decide, hj, hm⟩, by simp⟩
    · rintro ⟨h, hn⟩
      have two : ∀ s : Nat, s < 2 → s = 0 ∨ s = 1 := fun s hs => by omega
      cases x with
      | fp s t m =>
        obtain ⟨hs, ht, hm⟩ := h
        rcases two s hs with rfl | rfl
        · exact Or.inl ⟨t, ht, m, hm, by simp⟩
        · exact Or.inl ⟨t, ht, m, hm, by simp⟩
      | fm s t m =>
        obtain ⟨hs, ht, hm⟩ := h
        rcases two s hs with rfl | rfl
        · exact Or.inl ⟨t, ht, m, hm, by simp⟩
        · exact Or.inl ⟨t, ht, m, hm, by simp⟩
      | gp s t m =>
        obtain ⟨hs, ht, hm⟩ := h
        rcases two s hs with rfl | rfl
        · exact Or.inr ⟨t, ht, m, hm, by simp⟩
        · exact Or.inr ⟨t, ht, m, hm, by simp⟩
      | gm s t m =>
        obtain ⟨hs, ht, hm⟩ := h
        rcases two s hs with rfl | rfl
        · exact Or.inr ⟨t, ht, m, hm, by simp⟩
        · exact Or.inr ⟨t, ht, m, hm, by simp⟩
      | ef f t m k => exact absurd ⟨f, t, m, k, rfl⟩ hn

/-! ### The solution -/

/-- The elements of memory. -/
def elem (d : Dims) (q : Mem ℚ) (c : Cell) : ℚ := if inBox d c = true then q (pos5 d c) else 0

/-- What lies outside of the array. -/
def outside (d : Dims) (q : Mem ℚ) : ℤ → ℚ := fun p => if 0 ≤ p ∧ p < size d then 0 else q p

theorem add5_adds (k0 : ℤ → ℚ) (δ : Cell → ℚ) (c : Cell) (v : ℚ) (hc : inBox d c = true) (hv : δ c = v) :
    Adds (elem d) (outside d) k0 (fun x => x = c) δ (fun q => add5 d q c v) := by
  intro q hq
  have e : add5 d q c v = some (fun p => if p = pos5 d c then q (pos5 d c) + v else q p) := by
    obtain ⟨i, j, m⟩ := c
    unfold add5 rd5 wr5
    simp only [hc, if_true, Option.bind_some]
  refine ⟨_, e, ?_, ?_, ?_⟩
  · rw [← hq]
    funext p
    unfold outside
    by_cases hp : 0 ≤ p ∧ p < size d
    · rw [if_pos hp, if_pos hp]
    · rw [if_neg hp, if_neg hp]
      beta_reduce
      rw [if_neg]
      rintro rfl
      exact hp (pos5_range hc)
  · rintro x rfl
    simp only [elem, hc, if_true, hv]
  · intro x hx
    unfold elem
    by_cases hb : inBox d x = true
    · rw [if_pos hb, if_pos hb]
      beta_reduce
      rw [if_neg fun h => hx (pos5_inj hb hc h)]
    · rw [if_neg hb, if_neg hb]

/-- What the update adds. -/
def qPart (dx dy dt : ℚ) (capa : ℤ → ℤ → ℚ) (w : Waves) (c : Cell) : ℚ :=
  -((dt / dx * (w.fm (c.1 + 1, c.2.1, c.2.2) - w.fp c) + dt / dy * (w.gm (c.1, c.2.1 + 1, c.2.2) - w.gp c)) / capa c.1 c.2.1)

theorem updateQ5_adds (hb : 1 ≤ d.mbc) (maux mcapa : Nat) (dx dy dt : ℚ) (hx : dx ≠ 0) (hy : dy ≠ 0) (aux : Mem ℚ) (ga : Grid ℚ)
    (ha : Holds (auxDims d maux) aux ga) (w : Waves5) (gw : Waves) (hw : HoldsWaves d w gw) (capa : ℤ → ℤ → ℚ)
    (hc : CapaIs d maux mcapa ga capa) (k0 : ℤ → ℚ) :
    Adds (elem d) (outside d) k0 (fun c => interior d c.1 c.2.1 ∧ comp d c.2.2) (qPart dx dy dt capa gw)
      (updateQ5 d maux mcapa dx dy dt aux w) := by
  have body : ∀ m i j : ℤ, comp d m → interior d i j → Adds (elem d) (outside d) k0 (fun c => c = (i, j, m)) (qPart dx dy dt capa gw)
      (fun q => (rd5 d w.fm m (i + 1) j).bind fun fm => (rd5 d w.fp m i j).bind fun fp =>
        (rd5 d w.gm m i (j + 1)).bind fun gm => (rd5 d w.gp m i j).bind fun gp =>
        if mcapa = 0 then add5 d q (i, j, m) (-(dt / dx * (fm - fp)) - dt / dy * (gm - gp))
        else
          (rd5 (auxDims d maux) aux mcapa i j).bind fun capa =>
          (divide (dt / dx * (fm - fp) + dt / dy * (gm - gp)) capa).bind fun v => add5 d q (i, j, m) (-v)) := by
    intro m i j hm hij
    obtain ⟨hcap, hval⟩ := hc
    obtain ⟨hne, hval⟩ := hval i j hij
    have hij' := hij
    unfold interior at hij'
    have hm' := hm
    unfold comp at hm'
    have b0 : inBox d (i, j, m) = true := by rw [inBox_iff]; omega
    have b1 : inBox d (i + 1, j, m) = true := by rw [inBox_iff]; omega
    have b2 : inBox d (i, j + 1, m) = true := by rw [inBox_iff]; omega
    rw [rd5_eq hw.fm, rd5_eq hw.fp, rd5_eq hw.gm, rd5_eq hw.gp]
    simp only [rd, b0, b1, b2, if_true, Option.bind_some]
    by_cases h0 : mcapa = 0
    · simp only [h0, if_true] at hval ⊢
      refine add5_adds k0 _ _ _ b0 ?_
      simp only [qPart, hval, div_one]
      ring
    · simp only [h0, if_false] at hval ⊢
      have b3 : inBox (auxDims d maux) (i, j, (mcapa : ℤ)) = true := by
        rw [inBox_iff]; simp only [auxDims]; omega
      rw [rd5_eq ha]
      simp only [rd, b3, if_true, Option.bind_some, divide]
      rw [← hval, if_neg hne]
      exact add5_adds k0 _ _ _ b0 rfl
  have e : updateQ5 d maux mcapa dx dy dt aux w = doLoop 1 d.meqn (fun m => doLoop 1 d.mx fun i => doLoop 1 d.my fun j q =>
      (rd5 d w.fm m (i + 1) j).bind fun fm => (rd5 d w.fp m i j).bind fun fp =>
        (rd5 d w.gm m i (j + 1)).bind fun gm => (rd5 d w.gp m i j).bind fun gp =>
        if mcapa = 0 then add5 d q (i, j, m) (-(dt / dx * (fm - fp)) - dt / dy * (gm - gp))
        else
          (rd5 (auxDims d maux) aux mcapa i j).bind fun capa =>
          (divide (dt / dx * (fm - fp) + dt / dy * (gm - gp)) capa).bind fun v => add5 d q (i, j, m) (-v)) := by
    funext q
    unfold updateQ5
    simp only [divide, if_neg hx, if_neg hy, Option.bind_some]
  rw [e]
  refine Adds.iff (Adds.doLoop (fun m m1 m2 => Adds.doLoop (fun i i1 i2 => Adds.doLoop (fun j j1 j2 =>
    body m i j ⟨m1, m2⟩ ⟨i1, i2, j1, j2⟩) ?_) ?_) ?_) ?_
  · rintro j j' x rfl h
    simp at h; exact h
  · rintro i i' x ⟨j, _, rfl⟩ ⟨j', _, h⟩
    simp at h; exact h.1
  · rintro m m' x ⟨i, _, j, _, rfl⟩ ⟨i', _, j', _, h⟩
    simp at h; exact h.2.2
  · rintro ⟨i, j, m⟩
    constructor
    · rintro ⟨m', hm, i', hi, j', hj, h⟩
      simp only [Prod.mk.injEq] at h
      obtain ⟨rfl, rfl, rfl⟩ := h
      exact ⟨⟨hi.1, hi.2, hj.1, hj.2⟩, hm⟩
    · rintro ⟨⟨i1, i2, j1, j2⟩, hm⟩
      exact ⟨m, hm, i, ⟨i1, i2⟩, j, ⟨j1, j2⟩, rfl⟩

end Fclaw.Sync5
