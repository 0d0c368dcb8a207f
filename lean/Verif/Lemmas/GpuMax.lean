import Verif.Model.GpuMax
import Verif.Lemmas.HostOps

/-
The reduction kernel of the OpenCL engine, for arbitrary scalars.
-/

namespace NB

section
variable {S : Type}

theorem Mem.ext_at {m m' : Mem S} (hs : m'.shape = m.shape) {h : Handle} (hc : ∀ j, m'.cell h j = m.cell h j) :
    m' h = m h := by
  have hsh := congrFun hs h
  cases e : m h with
  | none =>
    cases e' : m' h with
    | none => rfl
    | some l => simp [Mem.shape, e, e'] at hsh
  | some l =>
    cases e' : m' h with
    | none => simp [Mem.shape, e, e'] at hsh
    | some l' =>
      congr 1
      apply List.ext_getElem?
      intro j
      have := hc j
      simpa [Mem.cell, e, e'] using this

variable [FOps S]

/-- The largest absolute value in block `k` of `X`, in the order of the kernel. -/
def blockMax (B : Nat) (X : Nat → S) (k : Nat) : S :=
  foldN B (FOps.abs (X (k * B))) (fun n r => maxOf r (FOps.abs (X (k * B + n))))

namespace Gpu

variable {g : Gpu} {w hm hs : Nat} {H : Nat → Prop} {M : Nat → S} {V : Spec.Buffers S} {m : Mem S}

omit [FOps S] in
theorem blocks_eq (hf : Fits g w) : ∃ q, 0 < q ∧ 6 * w = q * g.B ∧ 6 * g.n / g.B = g.D * q ∧
    6 * g.n / g.B / g.D = q := by
  obtain ⟨c, hc⟩ := hf.groups
  have hB := hf.block
  have hw := hf.bodies
  have e1 : 6 * g.n / g.B = g.D * (6 * c) := by
    rw [hf.count, hc, show 6 * (g.D * (g.B * c)) = g.B * (g.D * (6 * c)) by ring, Nat.mul_div_cancel_left _ hB]
  refine ⟨6 * c, ?_, by rw [hc]; ring, e1, ?_⟩
  · rcases Nat.eq_zero_or_pos c with rfl | h
    · omega
    · omega
  · rw [e1, Nat.mul_div_cancel_left _ (devices_pos hf)]

/-- One work item that has something to do. -/
theorem maxItem_run (hf : Fits g w) {a out d i q : Nat} (hq : 6 * w = q * g.B) (hq2 : 6 * g.n / g.B / g.D = q)
    (hd : d < g.D) {X : Nat → S} {m1 : Mem S}
    (hX : ∀ k, k < 6 * w → m1.cell (rep g.D a d) (d * (6 * w) + k) = some (X (d * (6 * w) + k)))
    (hout : i < q → (m1.cell (rep g.D out d) (i + d * q)).isSome) :
    ∃ m2, (g.maxItem a out d i).run m1 = .ok ((), m2) ∧ m2.shape = m1.shape ∧
      ∀ x k, m2.cell x k = if x = rep g.D out d ∧ i < q ∧ k = i + d * q then some (blockMax g.B X (i + d * q))
        else m1.cell x k := by
  have hB := hf.block
  unfold maxItem
  simp only [width hf, hq2]
  by_cases hi : i < q
  · have hle : (i + 1) * g.B ≤ 6 * w := by rw [hq]; exact Nat.mul_le_mul_right _ hi
    have hle' : i * g.B + g.B ≤ 6 * w := by rwa [Nat.add_mul, Nat.one_mul] at hle
    have hk : ∀ n, n < g.B → i * g.B + d * (6 * w) + n = d * (6 * w) + (i * g.B + n) := fun n _ => by omega
    have hk2 : (i + d * q) * g.B = d * (6 * w) + i * g.B := by rw [hq]; ring
    rw [if_neg (by omega)]
    have c0 : m1.cell (rep g.D a d) (i * g.B + d * (6 * w)) = some (X ((i + d * q) * g.B)) := by
      rw [hk2, ← hX (i * g.B) (by omega)]
      congr 1
      omega
    have hl : (forN g.B (FOps.abs (X ((i + d * q) * g.B))) (fun n r =>
        if i * g.B + d * (6 * w) + n < d * (6 * w) + 6 * w then do
          let v ← Prog.get (rep g.D a d) (i * g.B + d * (6 * w) + n)
          pure (maxOf r (FOps.abs v))
        else pure r) : Prog S S).run m1 = .ok (blockMax g.B X (i + d * q), m1) := by
      apply Prog.run_forN_pure
      intro n r hn
      rw [if_pos (by omega)]
      have cn : m1.cell (rep g.D a d) (i * g.B + d * (6 * w) + n) = some (X ((i + d * q) * g.B + n)) := by
        rw [hk2, hk n hn, hX (i * g.B + n) (by omega), Nat.add_assoc]
      simp only [Prog.run_bind, Prog.run_get cn, res_ok_bind]
      rfl
    have hs := hout hi
    refine ⟨m1.setCell (rep g.D out d) (i + d * q) (blockMax g.B X (i + d * q)), ?_, by simp, fun x k => ?_⟩
    · simp only [Prog.run_bind, Prog.run_get c0, res_ok_bind]
      rw [hl]
      exact Prog.run_put _ hs
    · rw [Mem.cell_setCell]
      by_cases e : x = rep g.D out d ∧ k = i + d * q
      · rw [if_pos e, if_pos ⟨e.1, hi, e.2⟩]
        obtain ⟨u, hu⟩ := Option.isSome_iff_exists.1 hs
        simp [hu]
      · rw [if_neg e, if_neg fun h => e ⟨h.1, h.2.2⟩]
  · have : q * g.B ≤ i * g.B := Nat.mul_le_mul_right _ (by omega)
    rw [if_pos (by omega)]
    exact ⟨m1, rfl, rfl, fun x k => by rw [if_neg fun h => hi h.2.1]⟩

theorem maxItem_within (hf : Fits g w) {a out d i q : Nat} (hq : 6 * w = q * g.B)
    (hq2 : 6 * g.n / g.B / g.D = q) :
    (g.maxItem (S := S) a out d i).Within (fun x _ => x = rep g.D a d)
      (fun x k => x = rep g.D out d ∧ i < q ∧ k = i + d * q) := by
  have hB := hf.block
  unfold maxItem
  simp only [width hf, hq2]
  by_cases hi : i < q
  · have hle : (i + 1) * g.B ≤ 6 * w := by rw [hq]; exact Nat.mul_le_mul_right _ hi
    rw [Nat.add_mul, Nat.one_mul] at hle
    rw [if_neg (by omega)]
    refine Prog.Within.bind (Prog.Within.get rfl) fun v => Prog.Within.bind (Prog.Within.forN fun n r hn => ?_)
      fun r => Prog.Within.put ⟨rfl, hi, rfl⟩
    split
    · exact Prog.Within.bind (Prog.Within.get rfl) fun v => Prog.Within.pure _
    · exact Prog.Within.pure _
  · have : q * g.B ≤ i * g.B := Nat.mul_le_mul_right _ (by omega)
    rw [if_pos (by omega)]
    exact Prog.Within.pure _

/-- The kernel on all devices, the read and the search for the largest element. -/
theorem fmaxabsOpenCL_run [Zero S] (hf : Fits g w) {loop : Loop S} (hl : IsParLoop loop)
    (hh : Holds g w hm hs H M V m) {a out hb : Nat} (ha : H a) (hao : a ≠ out) (hah : a ≠ hb) (hoh : out ≠ hb)
    (junk : S) (h4 : 4 ∣ 6 * g.n / g.B) :
    g.fmaxabsOpenCL loop out hb junk a m =
      (maxElement (buf (6 * g.n / g.B) (blockMax g.B (V a))) >>= fun r => .ok (some r, m)) := by
  obtain ⟨q, hq0, hq, hr, hq2⟩ := blocks_eq hf
  have hB := hf.block
  have hD := devices_pos hf
  have hrpos : 0 < 6 * g.n / g.B := by rw [hr]; exact Nat.mul_pos hD hq0
  have hqr : q ≤ 6 * g.n / g.B := by rw [hr]; exact Nat.le_mul_of_pos_left _ hD
  have hal := le_allocSize (6 * g.n / g.B)
  unfold fmaxabsOpenCL
  simp only [hh.has hf ha, Bool.not_true, Bool.false_eq_true, if_false]
  rw [if_neg (by omega)]
  have hog : openclGroups (6 * g.n / g.B) 4 = .ok (6 * g.n / g.B / 4) :=
    if_neg (by rintro (h | h); · omega
               · exact h (Nat.mod_eq_zero_of_dvd h4))
  rw [hog, res_ok_bind]
  generalize hm1 : g.withOut out hb junk 0 m = m1
  have cA : ∀ d k, d < g.D → k < 6 * w →
      m1.cell (rep g.D a d) (d * (6 * w) + k) = some (V a (d * (6 * w) + k)) := by
    intro d k hd hk
    rw [← hh.slices a d k ha hd hk, ← hm1]
    unfold Mem.cell withOut
    rw [rep_div hd, if_neg hao, if_neg hah]
  have cO : ∀ d k, d < g.D → k < 6 * g.n / g.B → (m1.cell (rep g.D out d) k).isSome := by
    intro d k hd hk
    rw [← hm1]
    unfold Mem.cell withOut
    rw [rep_div hd, if_pos rfl]
    simp only [Option.bind_some]
    rw [List.getElem?_replicate, if_pos (by omega)]
    rfl
  have cH : ∀ k, k < 6 * g.n / g.B → (m1.cell (rep g.D hb 0) k).isSome := by
    intro k hk
    rw [← hm1]
    unfold Mem.cell withOut
    rw [rep_div hD, if_neg hoh.symm, if_pos rfl]
    simp only [Option.bind_some]
    rw [List.getElem?_replicate, if_pos hk]
    rfl
  have sH : m1.shape (rep g.D hb 0) = some (6 * g.n / g.B) := by
    rw [← hm1]
    unfold Mem.shape withOut
    rw [rep_div hD, if_neg hoh.symm, if_pos rfl]
    simp
  have kH : ∀ h, h / g.D ≠ out → h / g.D ≠ hb → m1 h = m h := by
    intro h h1 h2
    rw [← hm1]
    unfold withOut
    rw [if_neg h1, if_neg h2]
  generalize hrs : 6 * g.n / g.B = rsize at *
  have hdev : ∀ p, p < g.D * rsize → p / rsize < g.D := fun p hp => Nat.div_lt_of_lt_mul (by rwa [Nat.mul_comm])
  -- the kernel
  obtain ⟨m2, a1, a2, a3⟩ := seqFor_owned (n := g.D * rsize)
    (body := fun p => g.maxItem a out (p / rsize) (p % rsize)) (m := m1)
    (fun p x k => x = rep g.D out (p / rsize) ∧ p % rsize < q ∧ k = p % rsize + p / rsize * q)
    (fun _ k => blockMax g.B (V a) k) (by
      intro p m' hp hsh hold
      have hd := hdev p hp
      obtain ⟨m'', b1, _, b3⟩ := maxItem_run (S := S) hf (a := a) (out := out) (i := p % rsize) hq
        (by rw [hrs]; exact hq2) hd (X := V a) (m1 := m')
        (fun k hk => by
          rw [hold, cA _ k hd hk]
          rintro p' hp' ⟨e, _⟩
          exact hao ((rep_inj hd (hdev p' (by omega))).1 e).1)
        (fun hi => isSome_of_shape hsh (cO _ _ hd (by
          have := group_lt hd hi
          omega)))
      refine ⟨m'', b1, fun x k => ?_⟩
      rw [b3]
      by_cases e : x = rep g.D out (p / rsize) ∧ p % rsize < q ∧ k = p % rsize + p / rsize * q
      · rw [if_pos e, if_pos e, e.2.2]
      · rw [if_neg e, if_neg e])
  have hind : Independent (g.D * rsize) (fun p => g.maxItem (S := S) a out (p / rsize) (p % rsize)) := by
    refine ⟨⟨fun p x _ => x = rep g.D a (p / rsize),
      fun p x k => x = rep g.D out (p / rsize) ∧ p % rsize < q ∧ k = p % rsize + p / rsize * q,
      fun p hp => maxItem_within hf hq (by rw [hrs]; exact hq2), ?_⟩⟩
    rintro p p' x k hp hp' hne ⟨rfl, h2, h3⟩
    refine ⟨fun e => hao ((rep_inj (hdev p hp) (hdev p' hp')).1 e).1.symm, ?_⟩
    rintro ⟨e1, e2, e3⟩
    have e1 := ((rep_inj (hdev p hp) (hdev p' hp')).1 e1).2
    refine hne ?_
    rw [← Nat.div_add_mod p rsize, ← Nat.div_add_mod p' rsize]
    rw [h3, e1] at e3
    rw [e1]
    omega
  rw [parLoop_eq_seq hl hind a1, res_ok_bind]
  -- the host reads the slices of `out`
  obtain ⟨m3, b1, b2, b3, b4⟩ := mdReadBuffer_run hl hoh hD (size := rsize)
    (by rw [hr]; exact Nat.le_mul_of_pos_right _ hq0) (m := m2)
    (fun d j hd hj => isSome_of_shape a2 (cO d j hd hj)) (fun j hj => isSome_of_shape a2 (cH j hj))
  rw [b1, res_ok_bind]
  have e3 : m3 (rep g.D hb 0) = some (buf rsize (blockMax g.B (V a))) := by
    refine Mem.eq_buf (by rw [b2, a2]; exact sH) fun j hj => ?_
    have hjd : j / q < g.D := Nat.div_lt_of_lt_mul (by rw [Nat.mul_comm, ← hr]; exact hj)
    have hjm : j % q < q := Nat.mod_lt _ hq0
    have hje : j % q + j / q * q = j := by rw [Nat.mul_comm]; exact Nat.mod_add_div _ _
    have hdm : (j / q * rsize + j % q) / rsize = j / q ∧ (j / q * rsize + j % q) % rsize = j % q := by
      constructor
      · rw [Nat.mul_comm (j / q), Nat.mul_add_div hrpos, Nat.div_eq_of_lt (a := j % q) (by omega), Nat.add_zero]
      · rw [Nat.mul_comm (j / q), Nat.mul_add_mod, Nat.mod_eq_of_lt (a := j % q) (by omega)]
    rw [b3 j hj (by rw [hq2]; exact hjd), hq2, a3, if_pos]
    refine ⟨j / q * rsize + j % q, group_lt hjd (by omega), ?_⟩
    rw [hdm.1, hdm.2]
    exact ⟨rfl, hjm, hje.symm⟩
  rw [e3]
  have e4 : g.withoutOut out hb m m3 = m := by
    funext h
    unfold withoutOut
    by_cases h1 : h / g.D = out
    · rw [if_pos h1]
    by_cases h2 : h / g.D = hb
    · rw [if_neg h1, if_pos h2]
    rw [if_neg h1, if_neg h2, ← kH h h1 h2]
    refine Mem.ext_at (b2.trans a2) fun j => ?_
    rw [b4 h j (by rintro rfl; exact h2 (rep_div hD)), a3, if_neg]
    rintro ⟨p, hp, e, _⟩
    rw [e, rep_div (hdev p hp)] at h1
    exact h1 rfl
  simp only [e4]
  rfl

end Gpu

end

end NB
