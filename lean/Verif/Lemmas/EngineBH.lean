import Verif.Model.EngineBH
import Verif.Lemmas.ParEngine
import Verif.Lemmas.SpaceTree
import Mathlib.Data.List.Nodup

/-
What the loops of the Barnes–Hut engine compute, for arbitrary scalars and an arbitrary `traverse`.
-/

namespace NB

section
variable {S : Type} [Add S] [Sub S] [Mul S] [Neg S] [Div S] [Zero S] [One S] [FOps S]

omit [Add S] [Sub S] [Mul S] [Neg S] [Zero S] [One S] [FOps S] in
/-- Element `idx` of the derivative buffer when `T i` is the force on body `i`. -/
def derivOf (n : Nat) (Y M : Nat → S) (T : Nat → Vec3 S) (idx : Nat) : S :=
  if idx < 3 * n then Y (3 * n + idx)
  else if idx < 4 * n then (T (idx - 3 * n)).x / M (idx - 3 * n)
  else if idx < 5 * n then (T (idx - 4 * n)).y / M (idx - 4 * n)
  else (T (idx - 5 * n)).z / M (idx - 5 * n)

theorem derivVal_eq (n : Nat) (Y M : Nat → S) : derivVal n Y M = derivOf n Y M (totalForce n Y M) := rfl

omit [Add S] [Sub S] [Mul S] [Neg S] [Zero S] [One S] [FOps S] in
theorem bhUpdateF_run {n : Nat} {y f : Handle} (hyf : y ≠ f) {Y M : Nat → S} {T : Nat → Vec3 S}
    {m : Mem S} (hy : ∀ j, j < 6 * n → m.cell y j = some (Y j)) (hf : m.shape f = some (6 * n))
    {i : Nat} (hi : i < n) :
    ∃ m'', (bhUpdateF n y f i (T i) (M i)).run m = .ok ((), m'') ∧
      ∀ h j, m''.cell h j =
        (m.cell h j).map (fun v => if h = f ∧ bodyOf n j = i then derivOf n Y M T j else v) := by
  have hfs : ∀ j, j < 6 * n → (m.cell f j).isSome := fun j hj =>
    (Mem.isSome_cell_iff m f j).2 ⟨_, hf, hj⟩
  have hrun : (bhUpdateF n y f i (T i) (M i)).run m = .ok ((),
      ((((((m.setCell f i (Y (3 * n + i))).setCell f (n + i) (Y (4 * n + i))).setCell f (2 * n + i)
        (Y (5 * n + i))).setCell f (3 * n + i) ((T i).x / M i)).setCell f (4 * n + i)
        ((T i).y / M i)).setCell f (5 * n + i) ((T i).z / M i))) := by
    unfold bhUpdateF
    simp only [Prog.run_bind]
    rw [Prog.run_get (hy (3 * n + i) (by omega))]
    simp only [res_ok_bind]
    rw [Prog.run_put _ (hfs i (by omega))]
    simp only [res_ok_bind]
    rw [Prog.run_get (v := Y (4 * n + i)) (by simp [Mem.cell_setCell, hyf, hy (4 * n + i) (by omega)])]
    simp only [res_ok_bind]
    rw [Prog.run_put _ (by simpa using hfs (n + i) (by omega))]
    simp only [res_ok_bind]
    rw [Prog.run_get (v := Y (5 * n + i)) (by simp [Mem.cell_setCell, hyf, hy (5 * n + i) (by omega)])]
    simp only [res_ok_bind]
    rw [Prog.run_put _ (by simpa using hfs (2 * n + i) (by omega))]
    simp only [res_ok_bind]
    rw [Prog.run_put _ (by simpa using hfs (3 * n + i) (by omega))]
    simp only [res_ok_bind]
    rw [Prog.run_put _ (by simpa using hfs (4 * n + i) (by omega))]
    simp only [res_ok_bind]
    rw [Prog.run_put _ (by simpa using hfs (5 * n + i) (by omega))]
  refine ⟨_, hrun, ?_⟩
  intro h j
  simp only [Mem.cell_setCell', Option.map_map, Function.comp_def]
  by_cases hh : h = f
  · subst hh
    cases hw : m.cell h j with
    | none => rfl
    | some w =>
      have hj : j < 6 * n := by
        obtain ⟨N, h1, h2⟩ := (Mem.isSome_cell_iff m h j).1 (by rw [hw]; rfl)
        rw [hf] at h1; cases h1; exact h2
      simp only [Option.map_some, true_and]
      congr 1
      by_cases hb : bodyOf n j = i
      · rw [if_pos hb]
        have hcs := (bodyOf_eq hi hj).1 hb
        unfold derivOf
        split_ifs <;> first
          | omega
          | (subst j; simp only [Nat.add_sub_cancel_left])
          | (congr 1; omega)
      · rw [if_neg hb]
        have hb' := mt (bodyOf_eq hi hj).2 hb
        simp only [not_or] at hb'
        obtain ⟨b0, b1, b2, b3, b4, b5⟩ := hb'
        simp [b0, b1, b2, b3, b4, b5]
  · simp [hh]

omit [Add S] [Sub S] [Mul S] [Neg S] [Zero S] [One S] [FOps S] in
/-- The loop over the bodies. -/
theorem bhCycle_eq {n : Nat} {hm y f : Handle} (hyf : y ≠ f) (hmf : hm ≠ f) {Y M : Nat → S}
    {T : Nat → Vec3 S} {trav : Vec3 S → S → Res (Vec3 S)} {lenF : Nat}
    {m : Mem S} (hy : m y = some (buf (6 * n) Y)) (hM : m hm = some (buf n M))
    (hf : m.shape f = some (6 * n)) (ht : ∀ i, i < n → trav (posOf n Y i) (M i) = .ok (T i)) :
    seqFor n (bhCycleBody n hm y f lenF trav) m = .ok (m.set f (buf (6 * n) (derivOf n Y M T))) := by
  apply seqFor_update hf (bodyOf n) (derivOf n Y M T)
  · intro j hj
    exact Nat.mod_lt _ (by omega)
  · intro i m' hi hs hc
    have hy' : ∀ j, j < 6 * n → m'.cell y j = some (Y j) := by
      intro j hj
      rw [cell_other hc hyf, Mem.cell_buf hy]; simp [hj]
    have hM' : m'.cell hm i = some (M i) := by
      rw [cell_other hc hmf, Mem.cell_buf hM]; simp [hi]
    have := bhUpdateF_run hyf (M := M) (T := T) hy' (by rw [hs, hf] : m'.shape f = _) hi
    unfold bhCycleBody
    simp only [Prog.run_bind, Prog.run_get (hy' i (by omega)), Prog.run_get (hy' (n + i) (by omega)),
      Prog.run_get (hy' (2 * n + i) (by omega)), Prog.run_get hM', res_ok_bind]
    have e := ht i hi
    unfold posOf at e
    rw [e]
    exact this

omit [Add S] [Sub S] [Mul S] [Neg S] [Zero S] [One S] [FOps S] in
/-- The visitor traversal, if it calls the visitor once for each body with its position and mass. -/
theorem bhVisit_eq {n : Nat} {hm y f : Handle} (hyf : y ≠ f) (hmf : hm ≠ f) {Y M : Nat → S}
    {T : Nat → Vec3 S} {trav : Vec3 S → S → Res (Vec3 S)} {lenF : Nat}
    {m : Mem S} (hy : m y = some (buf (6 * n) Y)) (hM : m hm = some (buf n M))
    (hf : m.shape f = some (6 * n)) (ht : ∀ i, i < n → trav (posOf n Y i) (M i) = .ok (T i))
    {vs : List (Nat × Vec3 S × S)}
    (hvs : vs.Perm ((List.range n).map fun i => (i, posOf n Y i, M i))) :
    seqFor vs.length (fun i =>
        match vs[i]? with
        | none => pure ()
        | some a => bhVisitBody n hm y f lenF trav a) m =
      .ok (m.set f (buf (6 * n) (derivOf n Y M T))) := by
  have hlen : vs.length = n := by simpa using hvs.length_eq
  have hmem : ∀ i (h : i < vs.length), ∃ b, b < n ∧ vs[i] = (b, posOf n Y b, M b) := by
    intro i h
    have := hvs.mem_iff.1 (List.getElem_mem h)
    obtain ⟨b, hb, e⟩ := List.mem_map.1 this
    exact ⟨b, List.mem_range.1 hb, e.symm⟩
  have hp1 : (vs.map Prod.fst).Perm (List.range n) := by
    have := hvs.map Prod.fst
    rwa [List.map_map, show (Prod.fst ∘ fun i => (i, posOf n Y i, M i)) = id from rfl, List.map_id] at this
  have hnd : (vs.map Prod.fst).Nodup := hp1.nodup_iff.2 List.nodup_range
  apply seqFor_update hf (fun j => (vs.map Prod.fst).idxOf (bodyOf n j)) (derivOf n Y M T)
  · intro j hj
    have : bodyOf n j ∈ vs.map Prod.fst := hp1.mem_iff.2 (List.mem_range.2 (Nat.mod_lt _ (by omega)))
    simpa using List.idxOf_lt_length_iff.2 this
  · intro i m' hi hs hc
    have hy' : ∀ j, j < 6 * n → m'.cell y j = some (Y j) := by
      intro j hj
      rw [cell_other hc hyf, Mem.cell_buf hy]; simp [hj]
    obtain ⟨b, hb, e⟩ := hmem i hi
    have hM' : m'.cell hm b = some (M b) := by
      rw [cell_other hc hmf, Mem.cell_buf hM]; simp [hb]
    obtain ⟨m'', h1, h2⟩ := bhUpdateF_run hyf (M := M) (T := T) hy' (by rw [hs, hf] : m'.shape f = _) hb
    refine ⟨m'', ?_, ?_⟩
    · simp only [List.getElem?_eq_getElem hi, e, bhVisitBody, ht b hb, Prog.run_bind, Prog.run_get hM',
        res_ok_bind]
      exact h1
    · intro h j
      rw [h2]
      cases hcell : m'.cell h j with
      | none => rfl
      | some w =>
        simp only [Option.map_some, Option.some.injEq]
        by_cases hh : h = f
        · subst hh
          have hj : j < 6 * n := by
            obtain ⟨N, g1, g2⟩ := (Mem.isSome_cell_iff m' h j).1 (by rw [hcell]; rfl)
            rw [hs, hf] at g1; cases g1; exact g2
          have : (bodyOf n j = b) ↔ (vs.map Prod.fst).idxOf (bodyOf n j) = i := by
            have hi' : i < (vs.map Prod.fst).length := by simpa using hi
            have e1 : (vs.map Prod.fst)[i] = b := by simp [e]
            constructor
            · intro hbj
              rw [hbj, ← e1]
              exact List.Nodup.idxOf_getElem hnd i hi'
            · intro hidx
              have hm' : bodyOf n j ∈ vs.map Prod.fst :=
                hp1.mem_iff.2 (List.mem_range.2 (Nat.mod_lt _ (by omega)))
              have := List.getElem_idxOf (List.idxOf_lt_length_iff.2 hm')
              rw [← this]
              simp only [hidx]
              exact e1
          simp only [true_and, this]
        · simp [hh]

omit [Add S] [Sub S] [Mul S] [Neg S] [Zero S] [One S] [FOps S] in
theorem bhUpdateF_within {n : Nat} {y f : Handle} {i : Nat} {total : Vec3 S} {mass1 : S}
    {R W : Handle → Nat → Prop} (hR : ∀ j, R y j) (hi : i < n)
    (hW : ∀ j, j < 6 * n → bodyOf n j = i → W f j) :
    (bhUpdateF n y f i total mass1).Within R W := by
  unfold bhUpdateF
  have b0 : bodyOf n i = i := by simpa using bodyOf_add (n := n) 0 hi
  have b1 : bodyOf n (n + i) = i := by simpa using bodyOf_add (n := n) 1 hi
  have b2 : bodyOf n (2 * n + i) = i := bodyOf_add 2 hi
  have b3 : bodyOf n (3 * n + i) = i := bodyOf_add 3 hi
  have b4 : bodyOf n (4 * n + i) = i := bodyOf_add 4 hi
  have b5 : bodyOf n (5 * n + i) = i := bodyOf_add 5 hi
  within
  all_goals first
    | exact hR _
    | exact hW _ (by omega) (by assumption)

omit [Add S] [Sub S] [Mul S] [Neg S] [Zero S] [One S] [FOps S] in
theorem bhCycleBody_independent {n : Nat} {hm y f : Handle} (hyf : y ≠ f) (hmf : hm ≠ f)
    {trav : Vec3 S → S → Res (Vec3 S)} :
    Independent n (bhCycleBody n hm y f (6 * n) trav) := by
  refine ⟨⟨fun _ h j => h ≠ f ∨ j = 6 * n, fun i h j => h = f ∧ j < 6 * n ∧ bodyOf n j = i, ?_, ?_⟩⟩
  · intro i hi
    unfold bhCycleBody
    refine Prog.Within.bind (Prog.Within.get (Or.inl hyf)) fun x1 => ?_
    refine Prog.Within.bind (Prog.Within.get (Or.inl hyf)) fun y1 => ?_
    refine Prog.Within.bind (Prog.Within.get (Or.inl hyf)) fun z1 => ?_
    refine Prog.Within.bind (Prog.Within.get (Or.inl hmf)) fun m1 => ?_
    split
    · exact Prog.Within.bind (Prog.Within.get (Or.inr rfl)) fun _ => Prog.Within.pure _
    · exact bhUpdateF_within (fun _ => Or.inl hyf) hi fun j h1 h2 => ⟨rfl, h1, h2⟩
  · rintro i j h k hi hj hij ⟨rfl, hk, hb⟩
    refine ⟨fun h => ?_, fun h => hij (hb.symm.trans h.2.2)⟩
    rcases h with h | h
    · exact h rfl
    · omega

omit [Add S] [Sub S] [Mul S] [Neg S] [Zero S] [One S] [FOps S] in
theorem bhVisitBody_independent {n : Nat} {hm y f : Handle} (hyf : y ≠ f) (hmf : hm ≠ f)
    {trav : Vec3 S → S → Res (Vec3 S)} {vs : List (Nat × Vec3 S × S)}
    (hlt : ∀ a ∈ vs, a.1 < n) (hnd : (vs.map Prod.fst).Nodup) :
    Independent vs.length (fun i =>
        match vs[i]? with
        | none => pure ()
        | some a => bhVisitBody n hm y f (6 * n) trav a) := by
  refine ⟨⟨fun _ h j => h ≠ f ∨ j = 6 * n,
    fun i h j => h = f ∧ j < 6 * n ∧ some (bodyOf n j) = (vs.map Prod.fst)[i]?, ?_, ?_⟩⟩
  · intro i hi
    simp only [List.getElem?_eq_getElem hi, bhVisitBody]
    split
    · exact Prog.Within.bind (Prog.Within.get (Or.inr rfl)) fun _ => Prog.Within.pure _
    · refine Prog.Within.bind (Prog.Within.get (Or.inl hmf)) fun m1 => ?_
      exact bhUpdateF_within (fun _ => Or.inl hyf) (hlt _ (List.getElem_mem hi)) fun j h1 h2 =>
        ⟨rfl, h1, by simp [List.getElem?_eq_getElem hi, h2]⟩
  · rintro i j h k hi hj hij ⟨rfl, hk, hb⟩
    refine ⟨fun h => ?_, fun h => hij ?_⟩
    · rcases h with h | h
      · exact h rfl
      · omega
    · have e := hb.symm.trans h.2.2
      have hi' : i < (vs.map Prod.fst).length := by simpa using hi
      have hj' : j < (vs.map Prod.fst).length := by simpa using hj
      rw [List.getElem?_eq_getElem hi', List.getElem?_eq_getElem hj'] at e
      exact (List.Nodup.getElem_inj_iff hnd).1 (Option.some.inj e)

omit [Add S] [Sub S] [Mul S] [Neg S] [Div S] [One S] [FOps S] in
theorem bodiesAt_pos {n : Nat} (Y M : Nat → S) {i : Nat} (hi : i < n) :
    (bodiesAt n (buf (6 * n) Y) (buf n M)).pos i = posOf n Y i ∧
    (bodiesAt n (buf (6 * n) Y) (buf n M)).mass i = M i := by
  have h1 : i < 6 * n := by omega
  have h2 : n + i < 6 * n := by omega
  have h3 : 2 * n + i < 6 * n := by omega
  simp [bodiesAt, Bodies.pos, posOf, buf, List.getD_eq_getElem?_getD, h1, h2, h3, hi]

end

end NB
