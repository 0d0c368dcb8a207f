import Verif.Model.GpuInit
import Verif.Lemmas.GpuOps
import Verif.Lemmas.HostOps
import Verif.Props.C06_RoundTrip

/-
What `create_buffer`, `init` and `get_data` of the GPU engines do to the memory.
-/

namespace NB

variable {S : Type}

open C06 (planes)

/-- The loop that packs the bodies fills the host array with the six planes and touches nothing else. -/
theorem pack_run {n : Nat} {y : Handle} (p v : Nat → Vec3 S) (g : List S) (hg : g.length = 6 * n) (m : Mem S) :
    forN n (m.set y g) (packBody n y (buf n p) (buf n v)) = .ok (m.set y (buf (6 * n) (planes n p v))) := by
  have key := forN_inv (σ := Mem S) (n := n) (s := m.set y g) (f := packBody n y (buf n p) (buf n v))
    (fun (k : Nat) (m' : Mem S) =>
      m'.shape = (m.set y g).shape ∧
      ∀ h j, m'.cell h j =
        if h = y then (if j < 6 * n ∧ bodyOf n j < k then some (planes n p v j) else g[j]?) else m.cell h j) ?_ ?_
  · obtain ⟨m', hrun, hs, hc⟩ := key
    rw [hrun]
    congr 1
    apply Mem.ext_cells
    · rw [hs]
      funext h
      by_cases h2 : h = y
      · subst h2; simp [Mem.shape, Mem.set, hg]
      · simp [Mem.shape, Mem.set, h2]
    · intro h j
      rw [hc, Mem.cell_set, buf_getElem?]
      by_cases h2 : h = y
      · subst h2
        simp only [if_true]
        by_cases hj : j < 6 * n
        · have : bodyOf n j < n := Nat.mod_lt _ (by omega)
          simp [hj, this]
        · simp [hj, hg]
      · simp [h2]
  · refine ⟨rfl, fun h j => ?_⟩
    rw [Mem.cell_set]
    simp
  · rintro i m' hi ⟨hs, hc⟩
    have hy : ∀ j, j < 6 * n → (m'.cell y j).isSome := fun j hj =>
      (Mem.isSome_cell_iff _ _ _).2 ⟨6 * n, by rw [hs]; simp [Mem.shape, Mem.set, hg], hj⟩
    refine ⟨(((((m'.setCell y i (p i).x).setCell y (n + i) (p i).y).setCell y (2 * n + i) (p i).z).setCell
      y (3 * n + i) (v i).x).setCell y (4 * n + i) (v i).y).setCell y (5 * n + i) (v i).z, ?_, ?_, ?_⟩
    · simp only [packBody, rd_buf hi, res_ok_bind, Prog.run_bind]
      rw [Prog.run_put _ (hy i (by omega)), res_ok_bind,
        Prog.run_put _ (by simpa using hy (n + i) (by omega)), res_ok_bind,
        Prog.run_put _ (by simpa using hy (2 * n + i) (by omega)), res_ok_bind,
        Prog.run_put _ (by simpa using hy (3 * n + i) (by omega)), res_ok_bind,
        Prog.run_put _ (by simpa using hy (4 * n + i) (by omega)), res_ok_bind,
        Prog.run_put _ (by simpa using hy (5 * n + i) (by omega))]
      rfl
    · simp only [Mem.shape_setCell]; exact hs
    · intro h j
      simp only [Mem.cell_setCell', Option.map_map, Function.comp_def]
      by_cases h2 : h = y
      · subst h2
        rw [hc]
        simp only [if_true, true_and]
        by_cases hj : j < 6 * n
        · have hjl : j < g.length := by omega
          simp only [hj, true_and]
          by_cases hb : bodyOf n j = i
          · have hcs := (bodyOf_eq hi hj).1 hb
            have e1 : ¬ bodyOf n j < i := by omega
            have e2 : bodyOf n j < i + 1 := by omega
            simp only [e1, e2, if_true, if_false, List.getElem?_eq_getElem hjl, Option.map_some]
            congr 1
            unfold planes
            split_ifs <;> first
              | omega
              | (subst j; simp only [Nat.add_sub_cancel_left])
          · have hb' := mt (bodyOf_eq hi hj).2 hb
            simp only [not_or] at hb'
            obtain ⟨b0, b1, b2, b3, b4, b5⟩ := hb'
            by_cases hlt : bodyOf n j < i
            · have : bodyOf n j < i + 1 := by omega
              simp [hlt, this, b0, b1, b2, b3, b4, b5]
            · have : ¬ bodyOf n j < i + 1 := by omega
              simp [hlt, this, b0, b1, b2, b3, b4, b5]
        · have hjl : ¬ j < g.length := by omega
          simp [hj, hjl]
      · rw [hc]; simp [h2]

namespace Gpu

variable {g : Gpu} {h size : Nat} {junk : Nat → Nat → S} {m : Mem S}

/-- The memory with a new buffer on every device. -/
def withBuffer (g : Gpu) (h size : Nat) (junk : Nat → Nat → S) (m : Mem S) : Mem S :=
  fun x => if x / g.D = h then some (buf (g.capacity size) (junk (x % g.D))) else m x

theorem createBuffer_run (hD : 0 < g.D) {grants : Nat → Bool} (hg : ∀ d, d < g.D → grants d = true) :
    g.createBuffer h size grants junk m = .ok (some (g.withBuffer h size junk m)) := by
  unfold createBuffer
  rw [if_neg (by omega), if_pos (by simp; exact .inl hg)]
  rfl

theorem withBuffer_at {d j : Nat} (hd : d < g.D) :
    (g.withBuffer h size junk m).cell (rep g.D h d) j = if j < g.capacity size then some (junk d j) else none := by
  have e : (g.withBuffer h size junk m) (rep g.D h d) = some (buf (g.capacity size) (junk d)) := by
    unfold withBuffer
    rw [if_pos (rep_div hd), rep_mod hd]
  rw [Mem.cell_buf e]

theorem withBuffer_ne {x : Nat} (hx : x / g.D ≠ h) : (g.withBuffer h size junk m) x = m x := if_neg hx

theorem le_capacity (g : Gpu) (s : Nat) : s ≤ g.capacity s := by
  unfold capacity
  split
  · exact le_rfl
  · exact le_allocSize s

theorem capacity_eq {w : Nat} (hf : g.Fits w) : g.capacity (6 * g.n) = allocSize (6 * g.n) := by
  unfold capacity
  split
  · rename_i hc
    obtain ⟨k, hk⟩ := (hf.elements hc).2.1
    unfold allocSize
    split
    · omega
    · omega
  · rfl

theorem withBuffer_replicated : Replicated g.D h (g.capacity size) (g.withBuffer h size junk m) := by
  intro d j hd hj
  rw [withBuffer_at hd, if_pos hj]
  rfl

theorem createAll_run (hD : 0 < g.D) {grants : Nat → Nat → Bool} {junk : Nat → Nat → Nat → S} (L : List Nat)
    (hg : ∀ h ∈ L, ∀ d, d < g.D → grants h d = true) (m : Mem S) :
    ∃ m', g.createAll size grants junk L m = .ok (some m') ∧ (∀ h ∈ L, Replicated g.D h (g.capacity size) m') ∧
      ∀ x : Nat, x / g.D ∉ L → m' x = m x := by
  induction L generalizing m with
  | nil => exact ⟨m, rfl, by simp, fun _ _ => rfl⟩
  | cons h L ih =>
    obtain ⟨m', h1, h2, h3⟩ := ih (fun a ha => hg a (List.mem_cons_of_mem _ ha)) (g.withBuffer h size (junk h) m)
    refine ⟨m', ?_, ?_, ?_⟩
    · rw [createAll, createBuffer_run hD (hg h List.mem_cons_self)]
      exact h1
    · intro a ha
      by_cases hL : a ∈ L
      · exact h2 a hL
      · obtain rfl : a = h := by simpa [hL] using ha
        intro d j hd hj
        rw [Mem.cell, h3 _ (by rw [rep_div hd]; exact hL)]
        exact withBuffer_replicated d j hd hj
    · intro x hx
      simp only [List.mem_cons, not_or] at hx
      rw [h3 x hx.2, withBuffer_ne hx.1]

theorem _root_.NB.Mem.eq_at {m m' : Mem S} {x : Nat} (hs : m.shape x = m'.shape x) (hc : ∀ j, m.cell x j = m'.cell x j) :
    m x = m' x := by
  unfold Mem.shape Mem.cell at *
  cases h1 : m x <;> cases h2 : m' x <;> simp [h1, h2] at hs hc ⊢
  exact List.ext_getElem? hc

variable [Zero S]

/-- `init` puts the masses and the six planes on every device. -/
theorem init_run (hD : 0 < g.D) {loop : Loop S} (hl : IsParLoop loop) {hm y tm ty : Nat} (h1 : hm ≠ y) (h2 : hm ≠ tm) (h3 : hm ≠ ty)
    (h4 : y ≠ tm) (h5 : y ≠ ty) (h6 : tm ≠ ty) (p v : Nat → Vec3 S) (w : Nat → S) {grants : Nat → Nat → Bool}
    (hg : ∀ h, h = hm ∨ h = y → ∀ d, d < g.D → grants h d = true) (junk : Nat → Nat → Nat → S) (m : Mem S) :
    ∃ m', g.init loop hm y tm ty (buf g.n p) (buf g.n v) (buf g.n w) grants junk m = .ok (true, m') ∧
      (∀ d j, d < g.D → j < g.n → m'.cell (rep g.D hm d) j = some (w j)) ∧
      (∀ d j, d < g.D → j < 6 * g.n → m'.cell (rep g.D y d) j = some (planes g.n p v j)) ∧
      Replicated g.D hm (g.capacity g.n) m' ∧ Replicated g.D y (g.capacity (6 * g.n)) m' ∧
      ∀ x : Nat, x / g.D ≠ hm → x / g.D ≠ y → m' x = m x := by
  have c1 := createBuffer_run (h := hm) (size := g.n) (junk := junk hm) (m := m) hD (hg hm (.inl rfl))
  have c2 := createBuffer_run (h := y) (size := 6 * g.n) (junk := junk y) (m := g.withBuffer hm g.n (junk hm) m) hD (hg y (.inr rfl))
  obtain ⟨m2, hm2⟩ : ∃ m2, m2 = g.withBuffer y (6 * g.n) (junk y) (g.withBuffer hm g.n (junk hm) m) := ⟨_, rfl⟩
  have r1 : Replicated g.D hm (g.capacity g.n) m2 := fun d j hd hj => by
    rw [Mem.cell, hm2, withBuffer_ne (by rw [rep_div hd]; exact h1)]
    exact withBuffer_replicated d j hd hj
  have r2 : Replicated g.D y (g.capacity (6 * g.n)) m2 := by rw [hm2]; exact withBuffer_replicated
  have nrep : ∀ {a b : Nat}, a ≠ b → ∀ {d}, d < g.D → rep g.D a d ≠ rep g.D b 0 := fun hab _ hd e => hab ((rep_inj hd hD).1 e).1
  obtain ⟨m3, hm3⟩ : ∃ m3, m3 = (m2.set (rep g.D tm 0) (buf g.n w)).set (rep g.D ty 0) (buf (6 * g.n) (planes g.n p v)) := ⟨_, rfl⟩
  have e3 : ∀ x : Nat, x ≠ rep g.D tm 0 → x ≠ rep g.D ty 0 → m3 x = m2 x := fun x ha hb => by
    rw [hm3, Mem.set_ne _ _ hb, Mem.set_ne _ _ ha]
  obtain ⟨m4, w1, w2, w3, w4, w5⟩ := mdWriteBuffer_run (S := S) hl (h := hm) (host := tm) (size := g.n) (D := g.D) h2 hD (m := m3)
    (fun d j hd hj => by
      rw [Mem.cell, e3 _ (nrep h2 hd) (nrep h3 hd)]
      exact r1 d j hd (hj.trans_le (le_capacity g _)))
    (fun j hj => by
      rw [hm3, Mem.cell_set, if_neg (nrep h6 hD), Mem.cell_set, if_pos rfl, buf_getElem?, if_pos hj]; rfl)
  obtain ⟨m5, v1, v2, v3, v4, v5⟩ := mdWriteBuffer_run (S := S) hl (h := y) (host := ty) (size := 6 * g.n) (D := g.D) h5 hD (m := m4)
    (fun d j hd hj => by
      rw [w5 _ _ (by rw [rep_div hd]; exact h1.symm), Mem.cell, e3 _ (nrep h4 hd) (nrep h5 hd)]
      exact r2 d j hd (hj.trans_le (le_capacity g _)))
    (fun j hj => by
      rw [w5 _ _ (by rw [rep_div hD]; exact h3.symm), hm3, Mem.cell_set, if_pos rfl, buf_getElem?, if_pos hj]; rfl)
  have sh : m5.shape = m3.shape := v2.trans w2
  have back : ∀ x j, x ≠ rep g.D tm 0 → x ≠ rep g.D ty 0 →
      Mem.cell (fun x => if x = rep g.D tm 0 ∨ x = rep g.D ty 0 then m2 x else m5 x) x j = m5.cell x j := fun x j ha hb => by
    rw [Mem.cell, if_neg (by rintro (e | e); exacts [ha e, hb e])]; rfl
  refine ⟨fun x => if x = rep g.D tm 0 ∨ x = rep g.D ty 0 then m2 x else m5 x, ?_, ?_, ?_, ?_, ?_, ?_⟩
  · unfold init
    rw [if_neg (by omega), c1]
    simp only [res_ok_bind, Option.getD_some]
    rw [c2]
    simp only [res_ok_bind, Option.getD_some, Option.isNone_some, Bool.or_self, Bool.false_eq_true, if_false]
    rw [← hm2, pack_run p v _ (by simp) (m2.set (rep g.D tm 0) (buf g.n w)), ← hm3]
    simp only [res_ok_bind]
    rw [w1]
    simp only [res_ok_bind]
    rw [v1]
    rfl
  · intro d j hd hj
    rw [back _ _ (nrep h2 hd) (nrep h3 hd), v5 _ _ (by rw [rep_div hd]; exact h1), w3 d j hd hj, hm3, Mem.cell_set,
      if_neg (nrep h6 hD), Mem.cell_set, if_pos rfl, buf_getElem?, if_pos hj]
  · intro d j hd hj
    rw [back _ _ (nrep h4 hd) (nrep h5 hd), v3 d j hd hj, w5 _ _ (by rw [rep_div hD]; exact h3.symm), hm3, Mem.cell_set, if_pos rfl,
      buf_getElem?, if_pos hj]
  · intro d j hd hj
    rw [back _ _ (nrep h2 hd) (nrep h3 hd)]
    have := r1 d j hd hj
    rw [Mem.isSome_cell] at this ⊢
    rw [sh, Mem.shape, e3 _ (nrep h2 hd) (nrep h3 hd)]
    exact this
  · intro d j hd hj
    rw [back _ _ (nrep h4 hd) (nrep h5 hd)]
    have := r2 d j hd hj
    rw [Mem.isSome_cell] at this ⊢
    rw [sh, Mem.shape, e3 _ (nrep h4 hd) (nrep h5 hd)]
    exact this
  · intro x ha hb
    have e2 : m2 x = m x := by rw [hm2, withBuffer_ne hb, withBuffer_ne ha]
    dsimp only
    split
    · exact e2
    · rename_i hx
      simp only [not_or] at hx
      rw [← e2, ← e3 x hx.1 hx.2]
      exact Mem.eq_at (by rw [sh]) fun j => by rw [v5 x j hb, w5 x j ha]

/-- `read_buffer` into the vector of `get_data`. -/
theorem read_host {loop : Loop S} (hl : IsParLoop loop) {y ty : Nat} (hne : y ≠ ty) (hD : 0 < g.D) (hn : 0 < g.n)
    (hdvd : g.D ∣ 6 * g.n) (hsz : g.size y = 6 * g.n) {Y : Nat → S} {m : Mem S} (hr : Replicated g.D y (6 * g.n) m)
    (hY : ∀ j, j < 6 * g.n → m.cell (rep g.D y (j / (6 * g.n / g.D))) j = some (Y j)) :
    ∃ m', mdReadBuffer loop g.D ty y (g.size y) (m.set (rep g.D ty 0) (buf (6 * g.n) fun _ => 0)) = .ok m' ∧
      m' (rep g.D ty 0) = some (buf (6 * g.n) Y) := by
  have nrep : ∀ {d}, d < g.D → rep g.D y d ≠ rep g.D ty 0 := fun hd e => hne ((rep_inj hd hD).1 e).1
  obtain ⟨m', a1, a2, a3, -⟩ := mdReadBuffer_run (S := S) hl (h := y) (host := ty) (size := 6 * g.n) (D := g.D) hne hD
    (Nat.le_of_dvd (by omega) hdvd) (m := m.set (rep g.D ty 0) (buf (6 * g.n) fun _ => 0))
    (fun d j hd hj => by rw [Mem.cell_set, if_neg (nrep hd)]; exact hr d j hd hj)
    (fun j hj => by rw [Mem.cell_set, if_pos rfl, buf_getElem?, if_pos hj]; rfl)
  refine ⟨m', by rw [hsz]; exact a1, Mem.eq_buf ?_ fun j hj => ?_⟩
  · rw [a2]; simp [Mem.shape, Mem.set]
  · have hlt : j / (6 * g.n / g.D) < g.D := by
      rw [Nat.div_lt_iff_lt_mul (Nat.div_pos (Nat.le_of_dvd (by omega) hdvd) hD), Nat.mul_div_cancel' hdvd]
      exact hj
    rw [a3 j hj hlt, Mem.cell_set, if_neg (nrep hlt), hY j hj]

/-- `get_data` returns what the devices hold in their slices. -/
theorem getData_run {loop : Loop S} (hl : IsParLoop loop) {y ty : Nat} (hne : y ≠ ty) (hD : 0 < g.D) (hn : 0 < g.n)
    (hdvd : g.D ∣ 6 * g.n) (hsz : g.size y = 6 * g.n) {Y : Nat → S} {m : Mem S} (hr : Replicated g.D y (6 * g.n) m)
    (hY : ∀ j, j < 6 * g.n → m.cell (rep g.D y (j / (6 * g.n / g.D))) j = some (Y j)) (p v : Nat → Vec3 S) :
    g.getData loop y ty g.n m (buf g.n p) (buf g.n v) =
      .ok (buf g.n (posOf g.n Y), buf g.n (velOf g.n Y)) := by
  obtain ⟨m', a1, a2⟩ := read_host hl hne hD hn hdvd hsz hr hY
  unfold getData
  rw [if_neg (by omega), a1]
  exact C06.get_data_layout a2 p v

end Gpu

end NB
