import Verif.Lemmas.MultiDevice
import Verif.Lemmas.ParEngine

/-
C51: after `synchronize_y` / `synchronize_f` every device holds every device's block, for every power of two
of devices and every interleaving of the copies between two waits; for every other number of devices some
device misses a block.
-/

namespace NB.C51

variable {S : Type}

/-! ### Specification -/

/-- Every device of `m'` holds, at cell `cellOf b i`, what device `b` had there in `m` (cell number `i` of the
block of device `b`). -/
def Gathered (D : ℕ) (h : Handle) (cellOf : ℕ → ℕ → ℕ) (w : ℕ) (m m' : Mem S) : Prop :=
  ∀ d b i, d < D → b < D → i < w → m'.cell (rep D h d) (cellOf b i) = m.cell (rep D h b) (cellOf b i)

/-- No other buffer changes. -/
def OnlyBuffer (D : ℕ) (h : Handle) (m m' : Mem S) : Prop :=
  m'.shape = m.shape ∧ ∀ x j, (∀ d, d < D → x ≠ rep D h d) → m'.cell x j = m.cell x j

lemma onlyBuffer_of {D : ℕ} (hD : 0 < D) {h : Handle} {m m' : Mem S} (hs : m'.shape = m.shape)
    (hx : ∀ x j, x / D ≠ h → m'.cell x j = m.cell x j) : OnlyBuffer D h m m' := by
  refine ⟨hs, fun x j hne => hx x j fun he => ?_⟩
  refine hne (x % D) (Nat.mod_lt _ hD) ?_
  rw [← he, rep_eta]

lemma block_index {w b i : ℕ} (hi : i < w) : (b * w + i) / w = b := by
  rw [Nat.mul_comm, Nat.mul_add_div (by omega), Nat.div_eq_of_lt hi, Nat.add_zero]

lemma block_lt {D w b i : ℕ} (hb : b < D) (hi : i < w) : b * w + i < D * w := by
  have := Nat.mul_le_mul_right w (show b + 1 ≤ D from hb)
  rw [Nat.add_mul, Nat.one_mul] at this
  omega

lemma row_mod {n r c : ℕ} (hc : c < n) : (r * n + c) % n = c := by
  rw [Nat.mul_comm, Nat.mul_add_mod, Nat.mod_eq_of_lt hc]

lemma row_lt {n r c k : ℕ} (hr : r < k) (hc : c < n) : r * n + c < k * n := block_lt hr hc

/-! ### Powers of two -/

/-- `synchronize_y` of a buffer of `D` blocks of `w` elements. -/
theorem synchronize_y_gathers {loop : Loop S} (hl : IsParLoop loop) (K w : ℕ) (h : Handle) (m : Mem S)
    (hw : 0 < w) (hm : Replicated (2 ^ K) h (2 ^ K * w) m) :
    ∃ m', synchronizeY loop (2 ^ K) h (2 ^ K * w) m = .ok m' ∧
      Gathered (2 ^ K) h (fun b i => b * w + i) w m m' ∧ OnlyBuffer (2 ^ K) h m m' := by
  have hD : 0 < 2 ^ K := Nat.two_pow_pos K
  have hq : 2 ^ K * w / 2 ^ K = w := Nat.mul_div_cancel_left _ hD
  unfold synchronizeY
  by_cases h2 : 2 ^ K < 2
  · rw [if_pos h2]
    have h1 : 2 ^ K = 1 := by omega
    refine ⟨m, rfl, ?_, rfl, fun _ _ _ => rfl⟩
    intro d b i hd hb _
    rw [show d = b by omega]
  · rw [if_neg h2, hq]
    obtain ⟨w', m', a1, a2, a3, a4⟩ := allGather_run (S := S) (h := h) (rows := 1) (pitch := 2 ^ K * w) hl rfl
      hw le_rfl (m := m) (by rwa [Nat.one_mul])
    refine ⟨m', by rw [a1]; rfl, ?_, onlyBuffer_of hD a2 a4⟩
    intro d b i hd hb hi
    have hlt := block_lt hb hi
    dsimp only
    rw [a3 d _ hd, if_pos, Nat.mod_eq_of_lt hlt, block_index hi]
    rw [Nat.mod_eq_of_lt hlt, block_index hi, Nat.one_mul]
    exact ⟨hlt, hb⟩

/-- `synchronize_f` of a buffer of six rows of `D` blocks of `w` elements. -/
theorem synchronize_f_gathers {loop : Loop S} (hl : IsParLoop loop) (K w : ℕ) (h : Handle) (m : Mem S)
    (hw : 0 < w) (hm : Replicated (2 ^ K) h (6 * (2 ^ K * w)) m) :
    ∃ m', synchronizeF loop (2 ^ K) h (6 * (2 ^ K * w)) m = .ok m' ∧
      (∀ r, r < 6 → Gathered (2 ^ K) h (fun b i => r * (2 ^ K * w) + (b * w + i)) w m m') ∧
      OnlyBuffer (2 ^ K) h m m' := by
  have hD : 0 < 2 ^ K := Nat.two_pow_pos K
  have hq : 6 * (2 ^ K * w) / 2 ^ K / 6 = w := by
    rw [Nat.div_div_eq_div_mul, show 6 * (2 ^ K * w) = 2 ^ K * 6 * w by ring,
      Nat.mul_div_cancel_left _ (by omega)]
  have hp : 6 * (2 ^ K * w) / 6 = 2 ^ K * w := Nat.mul_div_cancel_left _ (by omega)
  unfold synchronizeF
  by_cases h2 : 2 ^ K < 2
  · rw [if_pos h2]
    have h1 : 2 ^ K = 1 := by omega
    refine ⟨m, rfl, ?_, rfl, fun _ _ _ => rfl⟩
    intro r _ d b i hd hb _
    rw [show d = b by omega]
  · rw [if_neg h2, hq, hp]
    obtain ⟨w', m', a1, a2, a3, a4⟩ := allGather_run (S := S) (h := h) (rows := 6) (pitch := 2 ^ K * w) hl rfl
      hw le_rfl (m := m) hm
    refine ⟨m', by rw [a1]; rfl, ?_, onlyBuffer_of hD a2 a4⟩
    intro r hr d b i hd hb hi
    have hlt := block_lt hb hi
    dsimp only
    rw [a3 d _ hd, if_pos, row_mod hlt, block_index hi]
    rw [row_mod hlt, block_index hi]
    exact ⟨row_lt hr hlt, hb⟩

/-- The device counts `select_devices` of the OpenCL engine accepts are the powers of two. -/
theorem opencl_accepts (D : ℕ) : isPowerOfTwo D = true ↔ ∃ K, D = 2 ^ K := isPowerOfTwo_iff D

/-! ### Devices in different contexts: through a host buffer, for every device count -/

/-- `synchronize_y` through the host, whatever the host buffer holds before. -/
theorem synchronize_y_host_gathers {loop : Loop S} (hl : IsParLoop loop) (D w : ℕ) (h host : Handle)
    (m : Mem S) (hD : 0 < D) (hw : 0 < w) (hne : h ≠ host) (hm : Replicated D h (D * w) m)
    (hhost : ∀ j, j < D * w → (m.cell (rep D host 0) j).isSome) :
    ∃ m', synchronizeYHost loop D h host (D * w) m = .ok m' ∧
      Gathered D h (fun b i => b * w + i) w m m' := by
  have hq : D * w / D = w := Nat.mul_div_cancel_left _ hD
  obtain ⟨m1, a1, a2, a3, _⟩ := mdReadBuffer_run (S := S) hl hne hD (Nat.le_mul_of_pos_right _ hw) hm hhost
  obtain ⟨m2, b1, _, b3, _⟩ := mdWriteBuffer_run (S := S) (m := m1) hl hne hD (hm.of_shape a2)
    (fun j hj => by
      have := hhost j hj
      rw [Mem.isSome_cell] at this ⊢
      rw [a2]; exact this)
  refine ⟨m2, by unfold synchronizeYHost; rw [a1]; exact b1, ?_⟩
  intro d b i hd hb hi
  have hlt := block_lt hb hi
  rw [b3 d _ hd hlt, a3 _ hlt, hq, block_index hi]
  rw [hq, block_index hi]; exact hb

/-- `synchronize_f` through the host, whatever the host buffer holds before. -/
theorem synchronize_f_host_gathers {loop : Loop S} (hl : IsParLoop loop) (D w : ℕ) (h host : Handle)
    (m : Mem S) (hD : 0 < D) (hw : 0 < w) (hne : h ≠ host) (hm : Replicated D h (6 * (D * w)) m)
    (hhost : ∀ j, j < 6 * (D * w) → (m.cell (rep D host 0) j).isSome) :
    ∃ m', synchronizeFHost loop D h host (6 * (D * w)) m = .ok m' ∧
      ∀ r, r < 6 → Gathered D h (fun b i => r * (D * w) + (b * w + i)) w m m' := by
  have hq : 6 * (D * w) / D / 6 = w := by
    rw [Nat.div_div_eq_div_mul, show 6 * (D * w) = D * 6 * w by ring, Nat.mul_div_cancel_left _ (by omega)]
  have hp : 6 * (D * w) / 6 = D * w := Nat.mul_div_cancel_left _ (by omega)
  obtain ⟨m1, a1, a2, a3, _⟩ := readColumns_run (S := S) hl hne hD (w0 := w) (pitch := D * w) (rows := 6)
    hw le_rfl hm hhost
  obtain ⟨m2, b1, _, b3, _⟩ := mdWriteBuffer_run (S := S) (m := m1) hl hne hD (hm.of_shape a2)
    (fun j hj => by
      have := hhost j hj
      rw [Mem.isSome_cell] at this ⊢
      rw [a2]; exact this)
  refine ⟨m2, by unfold synchronizeFHost; rw [hq, hp, a1]; exact b1, ?_⟩
  intro r hr d b i hd hb hi
  have hlt := block_lt hb hi
  have hrl := row_lt hr hlt
  dsimp only
  rw [b3 d _ hd hrl, a3 _ hrl, row_mod hlt, block_index hi]
  rw [row_mod hlt, block_index hi]; exact hb

/-! ### Other device counts -/

lemma between_powers (D : ℕ) (h0 : 0 < D) (h : ∀ K, D ≠ 2 ^ K) : ∃ K, 2 ^ K < D ∧ D < 2 ^ (K + 1) := by
  refine ⟨Nat.log2 D, ?_, Nat.lt_log2_self⟩
  have := Nat.log2_self_le (n := D) (by omega)
  have := h (Nat.log2 D)
  omega

/-- For every device count that is no power of two `synchronize_y` ends normally, but two devices `d` and `b`
exist such that the block of `b` on device `d` is as stale as before, whatever the buffers hold. -/
theorem synchronize_y_misses {loop : Loop S} (hl : IsParLoop loop) (D w : ℕ) (h : Handle) (m : Mem S)
    (hD0 : 0 < D) (hD : ∀ K, D ≠ 2 ^ K) (hw : 0 < w) (hm : Replicated D h (D * w) m) :
    ∃ m' d b, synchronizeY loop D h (D * w) m = .ok m' ∧ d < D ∧ b < D ∧ b ≠ d ∧
      ∀ i, i < w → m'.cell (rep D h d) (b * w + i) = m.cell (rep D h d) (b * w + i) := by
  obtain ⟨K, h1, h2⟩ := between_powers D hD0 hD
  have hKp : 0 < 2 ^ K := Nat.two_pow_pos K
  have hq : D * w / D = w := Nat.mul_div_cancel_left _ (by omega)
  obtain ⟨w', m', a1, _, a3⟩ := allGather_misses (S := S) (h := h) (rows := 1) (pitch := D * w) hl h1 h2
    hw le_rfl (m := m) (by rwa [Nat.one_mul])
  refine ⟨m', 0, 2 ^ K, ?_, by omega, h1, by omega, ?_⟩
  · unfold synchronizeY
    rw [if_neg (by omega), hq, a1]; rfl
  · intro i hi
    have hlt := block_lt h1 hi
    refine a3 0 _ (by omega) ?_
    rw [Nat.mod_eq_of_lt hlt, block_index hi, Nat.div_self hKp, Nat.zero_div]
    exact Nat.one_ne_zero

/-- The same for `synchronize_f`. -/
theorem synchronize_f_misses {loop : Loop S} (hl : IsParLoop loop) (D w : ℕ) (h : Handle) (m : Mem S)
    (hD0 : 0 < D) (hD : ∀ K, D ≠ 2 ^ K) (hw : 0 < w) (hm : Replicated D h (6 * (D * w)) m) :
    ∃ m' d b, synchronizeF loop D h (6 * (D * w)) m = .ok m' ∧ d < D ∧ b < D ∧ b ≠ d ∧
      ∀ r i, r < 6 → i < w →
        m'.cell (rep D h d) (r * (D * w) + (b * w + i)) = m.cell (rep D h d) (r * (D * w) + (b * w + i)) := by
  obtain ⟨K, h1, h2⟩ := between_powers D hD0 hD
  have hKp : 0 < 2 ^ K := Nat.two_pow_pos K
  have hq : 6 * (D * w) / D / 6 = w := by
    rw [Nat.div_div_eq_div_mul, show 6 * (D * w) = D * 6 * w by ring, Nat.mul_div_cancel_left _ (by omega)]
  have hp : 6 * (D * w) / 6 = D * w := Nat.mul_div_cancel_left _ (by omega)
  obtain ⟨w', m', a1, _, a3⟩ := allGather_misses (S := S) (h := h) (rows := 6) (pitch := D * w) hl h1 h2
    hw le_rfl (m := m) hm
  refine ⟨m', 0, 2 ^ K, ?_, by omega, h1, by omega, ?_⟩
  · unfold synchronizeF
    rw [if_neg (by omega), hq, hp, a1]; rfl
  · intro r i hr hi
    have hlt := block_lt h1 hi
    refine a3 0 _ (by omega) ?_
    rw [row_mod hlt, block_index hi, Nat.div_self hKp, Nat.zero_div]
    exact Nat.one_ne_zero

/-- Hence the exchange gathers exactly for the powers of two. -/
theorem gathers_iff_power_of_two {loop : Loop ℕ} (hl : IsParLoop loop) (D : ℕ) (hD : 0 < D) :
    (∀ w h (m : Mem ℕ), 0 < w → Replicated D h (D * w) m → ∃ m', synchronizeY loop D h (D * w) m = .ok m' ∧
      Gathered D h (fun b i => b * w + i) w m m') ↔ isPowerOfTwo D = true := by
  rw [isPowerOfTwo_iff]
  constructor
  · intro hall
    by_contra hno
    have hno' : ∀ K, D ≠ 2 ^ K := fun K e => hno ⟨K, e⟩
    -- device `d` holds `d` everywhere
    let m : Mem ℕ := fun x => some (List.replicate D (x % D))
    have hcell : ∀ d j, d < D → j < D → m.cell (rep D 0 d) j = some d := by
      intro d j hd hj
      simp [m, Mem.cell, rep_mod hd, hj]
    have hrep : Replicated D 0 (D * 1) m := by
      intro d j hd hj
      rw [hcell d j hd (by omega)]; rfl
    obtain ⟨m1, a1, a2⟩ := hall 1 0 m Nat.one_pos hrep
    obtain ⟨m2, d, b, b1, hd, hb, hne, b2⟩ := synchronize_y_misses hl D 1 0 m hD hno' Nat.one_pos hrep
    rw [a1] at b1
    cases b1
    have e1 := a2 d b 0 hd hb Nat.one_pos
    have e2 := b2 0 Nat.one_pos
    dsimp only at e1
    rw [e2, hcell d _ hd (by omega), hcell b _ hb (by omega)] at e1
    exact hne (Option.some.inj e1).symm
  · rintro ⟨K, rfl⟩ w h m hw hm
    obtain ⟨m', a, b, _⟩ := synchronize_y_gathers hl K w h m hw hm
    exact ⟨m', a, b⟩

/-! ### Concrete cases -/

/-- Every device holds its own number everywhere. -/
def numbered (D size : ℕ) : Mem ℕ := fun x => some (List.replicate size (x % D))

lemma numbered_cell {D size d j : ℕ} (h : Handle) (hd : d < D) (hj : j < size) :
    (numbered D size).cell (rep D h d) j = some d := by
  simp [numbered, Mem.cell, rep_mod hd, hj]

lemma numbered_replicated (D size : ℕ) (h : Handle) : Replicated D h size (numbered D size) := by
  intro d j hd hj
  rw [numbered_cell h hd hj]; rfl

/-- Four devices with two elements each: afterwards every device holds 0, 0, 1, 1, 2, 2, 3, 3. -/
example {loop : Loop ℕ} (hl : IsParLoop loop) : ∃ m', synchronizeY loop (2 ^ 2) 1 8 (numbered 4 8) = .ok m' ∧
    ∀ d b i, d < 4 → b < 4 → i < 2 → m'.cell (rep 4 1 d) (b * 2 + i) = some b := by
  obtain ⟨m', h1, h2, _⟩ := synchronize_y_gathers hl 2 2 1 (numbered 4 8) (by decide)
    (numbered_replicated 4 8 1)
  exact ⟨m', h1, fun d b i hd hb hi => (h2 d b i hd hb hi).trans (numbered_cell 1 hb (by dsimp only; omega))⟩

/-- Four devices, two bodies each. -/
example {loop : Loop ℕ} (hl : IsParLoop loop) : ∃ m', synchronizeF loop (2 ^ 2) 1 48 (numbered 4 48) = .ok m' ∧
    ∀ r d b i, r < 6 → d < 4 → b < 4 → i < 2 → m'.cell (rep 4 1 d) (r * 8 + (b * 2 + i)) = some b := by
  obtain ⟨m', h1, h2, _⟩ := synchronize_f_gathers hl 2 2 1 (numbered 4 48) (by decide)
    (numbered_replicated 4 48 1)
  exact ⟨m', h1, fun r d b i hr hd hb hi => (h2 r hr d b i hd hb hi).trans (numbered_cell 1 hb (by
    show r * (2 ^ 2 * 2) + (b * 2 + i) < 48; omega))⟩

/-- Three devices through the host buffer, handle 7. -/
example {loop : Loop ℕ} (hl : IsParLoop loop) : ∃ m', synchronizeYHost loop 3 1 7 6 (numbered 3 6) = .ok m' ∧
    ∀ d b i, d < 3 → b < 3 → i < 2 → m'.cell (rep 3 1 d) (b * 2 + i) = some b := by
  obtain ⟨m', h1, h2⟩ := synchronize_y_host_gathers hl 3 2 1 7 (numbered 3 6) (by decide) (by decide)
    (by decide) (numbered_replicated 3 6 1) (fun j hj => numbered_replicated 3 6 7 0 j (by decide) hj)
  exact ⟨m', h1, fun d b i hd hb hi => (h2 d b i hd hb hi).trans (numbered_cell 1 hb (by dsimp only; omega))⟩

/-- Three devices in one context: a block of another device still has the old number. -/
example {loop : Loop ℕ} (hl : IsParLoop loop) : ∃ m' d b, synchronizeY loop 3 1 6 (numbered 3 6) = .ok m' ∧
    d < 3 ∧ b < 3 ∧ b ≠ d ∧ ∀ i, i < 2 → m'.cell (rep 3 1 d) (b * 2 + i) = some d := by
  obtain ⟨m', d, b, h1, hd, hb, hne, h2⟩ := synchronize_y_misses hl 3 2 1 (numbered 3 6) (by decide)
    (fun K e => by
      match K with
      | 0 => omega
      | 1 => omega
      | K + 2 => rw [Nat.pow_add] at e; omega) (by decide) (numbered_replicated 3 6 1)
  exact ⟨m', d, b, h1, hd, hb, hne, fun i hi => (h2 i hi).trans (numbered_cell 1 hd (by omega))⟩

end NB.C51
