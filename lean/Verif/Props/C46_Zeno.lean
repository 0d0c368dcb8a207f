import Verif.Props.C45_TextLoader
import Mathlib.Data.List.Forall2

/-
C46.  The loader of Zeno files reads exactly the records the file announces.
-/

namespace NB.C46

open TextSpec

variable {S C : Type} [Zero S]

/-- What the file says is determined by the file. -/
lemma zeno_parts {T : TextOps S} {t : List Char} {count : ℕ} {ms : List S} {ps vs : List (Vec3 S)}
    (h : Zeno toULongLong T.parse t count ms ps vs) :
    ∃ lc ld sk ml pl vl rest, textLines t = lc :: ld :: sk :: (ml ++ (pl ++ (vl ++ rest))) ∧
      toULongLong lc = some count ∧ toULongLong ld = some 3 ∧ sk ≠ [] ∧ ml.length = count ∧
      List.Forall₂ (Value T.parse) ml ms ∧ List.Forall₂ (VecLine T.parse) pl ps ∧ ps.length = count ∧
      pl.length = count ∧ List.Forall₂ (VecLine T.parse) vl vs ∧ vs.length = count := by
  obtain ⟨lc, ld, sk, ml, pl, vl, rest, h1, h2, h3, h4, h5, h6, h7⟩ := h.file
  exact ⟨lc, ld, sk, ml, pl, vl, rest, lines_textLines h1, h2, h3, h4, by rw [h5.length_eq, h.masses], h5, h6,
    h.positions, by rw [h6.length_eq, h.positions], h7, h.velocities⟩

/-- For every text the loader ends without undefined behaviour, and either the text is a Zeno file, the loader
returns true and the object holds exactly its bodies, white, with radius 0 and box size 1; or the text is not a Zeno
file, the loader returns false, and the arrays of the object still have as many entries as its count says. -/
theorem zeno_cases (T : TextOps S) (black white : C) (t : List Char) (d : DataObj S C) :
    (∃ count ms ps vs, Zeno toULongLong T.parse t count ms ps vs ∧
      d.loadZeno T black white t = .ok (true,
        { count := count, time := d.time, step := d.step, box := 1, vrt := ps, vel := vs, mass := ms,
          radius := List.replicate count 0, color := List.replicate count white })) ∨
    ((¬ ∃ count ms ps vs, Zeno toULongLong T.parse t count ms ps vs) ∧
      ∃ d', d.loadZeno T black white t = .ok (false, d') ∧ d'.time = d.time ∧ d'.step = d.step ∧ d'.box = d.box ∧
        d'.vrt.length = d'.count ∧ d'.vel.length = d'.count ∧ d'.mass.length = d'.count ∧
        d'.radius.length = d'.count ∧ d'.color.length = d'.count) := by
  obtain ⟨ls, hls⟩ := lines_exist t
  have hlt := lines_textLines hls
  unfold DataObj.loadZeno
  rw [hlt]
  have hzero : ∃ d', (Except.ok (false, d.clear) : Res (Bool × DataObj S C)) = .ok (false, d') ∧ d'.time = d.time ∧
      d'.step = d.step ∧ d'.box = d.box ∧
        d'.vrt.length = d'.count ∧ d'.vel.length = d'.count ∧ d'.mass.length = d'.count ∧
        d'.radius.length = d'.count ∧ d'.color.length = d'.count :=
    ⟨_, rfl, rfl, rfl, rfl, rfl, rfl, rfl, rfl, rfl⟩
  match ls, hlt, hls with
  | [], hlt, _ =>
    right
    refine ⟨?_, hzero⟩
    rintro ⟨count, ms, ps, vs, h⟩
    obtain ⟨lc, ld, sk, ml, pl, vl, rest, h1, -⟩ := zeno_parts h
    rw [hlt] at h1
    cases h1
  | lc :: ls, hlt, hls =>
    cases hc : toULongLong lc with
    | none =>
      right
      simp only [hc]
      refine ⟨?_, hzero⟩
      rintro ⟨count, ms, ps, vs, h⟩
      obtain ⟨lc', ld, sk, ml, pl, vl, rest, h1, h2, -⟩ := zeno_parts h
      rw [hlt] at h1
      rw [← (List.cons.inj h1).1, hc] at h2
      cases h2
    | some count =>
      simp only [hc]
      match ls, hlt, hls with
      | [], hlt, _ =>
        right
        refine ⟨?_, hzero⟩
        rintro ⟨count, ms, ps, vs, h⟩
        obtain ⟨lc, ld, sk, ml, pl, vl, rest, h1, -⟩ := zeno_parts h
        rw [hlt] at h1
        cases h1
      | ld :: ls, hlt, hls =>
        cases hd : toULongLong ld with
        | none =>
          right
          simp only [hd]
          refine ⟨?_, hzero⟩
          rintro ⟨count, ms, ps, vs, h⟩
          obtain ⟨lc', ld', sk, ml, pl, vl, rest, h1, h2, h3, -⟩ := zeno_parts h
          rw [hlt] at h1
          simp only [List.cons.injEq] at h1
          rw [← h1.2.1, hd] at h3
          cases h3
        | some dim =>
          simp only [hd]
          by_cases hdim : dim = 3
          swap
          · right
            rw [if_pos hdim]
            refine ⟨?_, hzero⟩
            rintro ⟨count, ms, ps, vs, h⟩
            obtain ⟨lc', ld', sk, ml, pl, vl, rest, h1, h2, h3, -⟩ := zeno_parts h
            rw [hlt] at h1
            simp only [List.cons.injEq] at h1
            rw [← h1.2.1, hd] at h3
            exact hdim (Option.some.inj h3)
          subst hdim
          rw [if_neg (by simp)]
          match ls, hlt, hls with
          | [], hlt, _ =>
            right
            refine ⟨?_, hzero⟩
            rintro ⟨count, ms, ps, vs, h⟩
            obtain ⟨lc, ld, sk, ml, pl, vl, rest, h1, -⟩ := zeno_parts h
            rw [hlt] at h1
            cases h1
          | sk :: ls, hlt, hls =>
            by_cases hs : sk = []
            · right
              simp only [hs]
              refine ⟨?_, by simpa using hzero⟩
              rintro ⟨count, ms, ps, vs, h⟩
              obtain ⟨lc', ld', sk', ml, pl, vl, rest, h1, h2, h3, h4, -⟩ := zeno_parts h
              rw [hlt] at h1
              simp only [List.cons.injEq] at h1
              exact h4 (h1.2.2.1.symm.trans hs)
            simp only [if_neg hs]
            have hgen : ∀ {count' : ℕ} {ms : List S} {ps vs : List (Vec3 S)},
                Zeno toULongLong T.parse t count' ms ps vs → ∃ ml pl vl rest, ls = ml ++ (pl ++ (vl ++ rest)) ∧
                  ml.length = count ∧ List.Forall₂ (Value T.parse) ml ms ∧ List.Forall₂ (VecLine T.parse) pl ps ∧
                  ps.length = count ∧ pl.length = count ∧ List.Forall₂ (VecLine T.parse) vl vs ∧ vs.length = count := by
              intro count' ms ps vs h
              obtain ⟨lc', ld', sk', ml, pl, vl, rest, h1, h2, h3, h4, h5, h6, h7, h8, h9, h10, h11⟩ := zeno_parts h
              rw [hlt] at h1
              simp only [List.cons.injEq] at h1
              have hcc : count' = count := by
                rw [← h1.1, hc] at h2
                exact (Option.some.inj h2).symm
              subst hcc
              exact ⟨ml, pl, vl, rest, h1.2.2.2, h5, h6, h7, h8, h9, h10, h11⟩
            have e0 : d.clear.resize black count = { d with
                count := count, vrt := List.replicate count 0, vel := List.replicate count 0,
                mass := List.replicate count 0, color := List.replicate count black,
                radius := List.replicate count 0 } := by
              simp [DataObj.resize, DataObj.clear, resizeList]
            rcases zenoMasses_cases T count 0 ls (d.clear.resize black count) (by rw [e0]; simp) with
              ⟨ml, ms, r1, m1, m2, m3, m4⟩ | ⟨ls', m', m1, m2, m3⟩
            swap
            · right
              refine ⟨?_, { d.clear.resize black count with mass := m' }, ?_, ?_⟩
              · rintro ⟨count', ms, ps, vs, h⟩
                obtain ⟨ml, pl, vl, rest, h1, h2, -⟩ := hgen h
                rw [h1, List.length_append] at m3
                omega
              · unfold zenoBody
                rw [m1]
                rfl
              · rw [e0] at m2
                simp only [e0]
                simpa using m2
            rw [List.take_zero, List.nil_append] at m4
            rcases zenoVecs_cases T count 0 r1 (d.clear.resize black count).vrt (by rw [e0]; simp) with
              ⟨pl, ps, r2, p1, p2, p3, p4⟩ | ⟨ls', a', p1, p2, p3⟩
            swap
            · right
              refine ⟨?_, { d.clear.resize black count with mass := ms, vrt := a' }, ?_, ?_⟩
              · rintro ⟨count', ms', ps, vs, h⟩
                obtain ⟨ml', pl, vl, rest, h1, h2, h3, h4, h5, h6, -⟩ := hgen h
                apply p3
                have hml : ml.length = ml'.length := by rw [m2.length_eq, m3, h2]
                rw [m1] at h1
                obtain ⟨-, h1⟩ := List.append_inj h1 hml
                exact ⟨pl, ps, vl ++ rest, h1, h4, h5⟩
              · unfold zenoBody
                rw [m4]
                simp only [bind, Except.bind, p1]
                rfl
              · rw [e0] at p2
                simp only [e0]
                simpa [m3] using p2
            rw [List.take_zero, List.nil_append] at p4
            rcases zenoVecs_cases T count 0 r2 (d.clear.resize black count).vel (by rw [e0]; simp) with
              ⟨vl, vs, r3, v1, v2, v3, v4⟩ | ⟨ls', a', v1, v2, v3⟩
            swap
            · right
              refine ⟨?_, { d.clear.resize black count with mass := ms, vrt := ps, vel := a' }, ?_, ?_⟩
              · rintro ⟨count', ms', ps', vs, h⟩
                obtain ⟨ml', pl', vl, rest, h1, h2, h3, h4, h5, h6, h7, h8⟩ := hgen h
                apply v3
                have hml : ml.length = ml'.length := by rw [m2.length_eq, m3, h2]
                have hpl : pl.length = pl'.length := by rw [p2.length_eq, p3, h6]
                rw [m1] at h1
                obtain ⟨-, h1⟩ := List.append_inj h1 hml
                rw [p1] at h1
                obtain ⟨-, h1⟩ := List.append_inj h1 hpl
                exact ⟨vl, vs, rest, h1, h7, h8⟩
              · unfold zenoBody
                rw [m4]
                simp only [bind, Except.bind, p4, v1]
                rfl
              · rw [e0] at v2
                simp only [e0]
                simpa [m3, p3] using v2
            rw [List.take_zero, List.nil_append] at v4
            left
            refine ⟨count, ms, ps, vs, ⟨⟨lc, ld, sk, ml, pl, vl, r3, ?_, hc, hd, hs, m2, p2, v2⟩, m3, p3, v3⟩, ?_⟩
            · rw [← v1, ← p1, ← m1]
              exact hls
            · unfold zenoBody
              rw [m4]
              simp only [bind, Except.bind, p4, v4]
              simp [e0, pure, Except.pure]

/-- The loader returns true exactly for Zeno files. -/
theorem zeno_iff (T : TextOps S) (black white : C) (t : List Char) (d : DataObj S C) :
    (∃ d', d.loadZeno T black white t = .ok (true, d')) ↔
      ∃ count ms ps vs, Zeno toULongLong T.parse t count ms ps vs := by
  rcases zeno_cases T black white t d with ⟨count, ms, ps, vs, h1, h2⟩ | ⟨h1, d', h2, -⟩
  · exact ⟨fun _ => ⟨count, ms, ps, vs, h1⟩, fun _ => ⟨_, h2⟩⟩
  · constructor
    · rintro ⟨d'', h⟩
      rw [h2] at h
      simp at h
    · intro h
      exact absurd h h1

/-- The file determines what it says: the numbers that reach the object are those of the file. -/
theorem zeno_unique (T : TextOps S) (t : List Char) (count count' : ℕ) (ms ms' : List S)
    (ps ps' vs vs' : List (Vec3 S)) (h : Zeno toULongLong T.parse t count ms ps vs)
    (h' : Zeno toULongLong T.parse t count' ms' ps' vs') : count = count' ∧ ms = ms' ∧ ps = ps' ∧ vs = vs' := by
  obtain ⟨lc, ld, sk, ml, pl, vl, rest, h1, h2, h3, h4, h5, h6, h7, h8, h9, h10, h11⟩ := zeno_parts h
  obtain ⟨lc', ld', sk', ml', pl', vl', rest', g1, g2, g3, g4, g5, g6, g7, g8, g9, g10, g11⟩ := zeno_parts h'
  rw [h1] at g1
  simp only [List.cons.injEq] at g1
  obtain ⟨rfl, rfl, rfl, g1⟩ := g1
  rw [h2] at g2
  obtain rfl := Option.some.inj g2
  obtain ⟨e1, q1⟩ := List.append_inj g1 (by omega)
  obtain ⟨e2, q2⟩ := List.append_inj q1 (by omega)
  obtain ⟨e3, -⟩ := List.append_inj q2 (by rw [h10.length_eq, g10.length_eq, h11, g11])
  rw [← e1] at g6
  rw [← e2] at g7
  rw [← e3] at g10
  have uv : ∀ {l : List Char} {v w : Vec3 S}, VecLine T.parse l v → VecLine T.parse l w → v = w := by
    intro l v w hv hw
    rw [← zenoVec_iff] at hv hw
    rw [hv] at hw
    exact Option.some.inj hw
  have gen : ∀ {α : Type} {R : List Char → α → Prop} (_ : ∀ l v w, R l v → R l w → v = w) {l : List (List Char)}
      {a b : List α}, List.Forall₂ R l a → List.Forall₂ R l b → a = b := by
    intro α R hR l a b ha
    induction ha generalizing b with
    | nil => intro hb; cases hb; rfl
    | cons h _ ih => intro hb; cases hb with | cons h' hb => rw [hR _ _ _ h h', ih hb]
  exact ⟨rfl, gen (R := Value T.parse) (fun _ _ _ => value_unique) h6 g6, gen (R := VecLine T.parse) (fun _ _ _ => uv) h7 g7, gen (R := VecLine T.parse) (fun _ _ _ => uv) h10 g10⟩

/-- A Zeno file whose mass is not a number is accepted, and the body gets mass 0. -/
theorem zeno_bad_mass_accepted (T : TextOps S) (black white : C) (d : DataObj S C)
    (hbad : T.parse ['x'] = none) (z : S) (hz : T.parse ['0'] = some z) :
    ∃ t d', d.loadZeno T black white t = .ok (true, d') ∧ d'.count = 1 ∧ d'.mass = [0] := by
  refine ⟨"1\n3\n0\nx\n0 0 0\n0 0 0\n".toList, ?_⟩
  have hz : Zeno toULongLong T.parse "1\n3\n0\nx\n0 0 0\n0 0 0\n".toList 1 [0] [⟨z, z, z⟩] [⟨z, z, z⟩] := by
    have hv : VecLine T.parse ['0', ' ', '0', ' ', '0'] (⟨z, z, z⟩ : Vec3 S) := by
      refine ⟨['0'], ['0'], ['0'], ?_, Or.inl hz, Or.inl hz, Or.inl hz⟩
      exact .cons 0 ['0'] [' ', '0', ' ', '0'] _ (by decide) (by decide) (Or.inr rfl)
        (.cons 1 ['0'] [' ', '0'] _ (by decide) (by decide) (Or.inr rfl)
          (.cons 1 ['0'] [] _ (by decide) (by decide) (Or.inl rfl) (.nil 0)))
    exact ⟨⟨['1'], ['3'], ['0'], [['x']], [['0', ' ', '0', ' ', '0']], [['0', ' ', '0', ' ', '0']], [],
      ⟨by decide, Or.inl rfl⟩, rfl, rfl, by decide, .cons (Or.inr ⟨hbad, rfl⟩) .nil, .cons hv .nil, .cons hv .nil⟩,
      rfl, rfl, rfl⟩
  rcases zeno_cases T black white _ d with ⟨count, ms, ps, vs, h1, h2⟩ | ⟨h1, -⟩
  · obtain ⟨rfl, rfl, rfl, rfl⟩ := zeno_unique T _ _ _ _ _ _ _ _ _ h1 hz
    exact ⟨_, h2, rfl, rfl⟩
  · exact absurd ⟨_, _, _, _, hz⟩ h1

/-! A file of two bodies. -/

open StreamExample

example : C44.two.loadZeno text 9 0 "2\n3\n0\n5\n6\n1 2 3\n4 5 6\n7 8 9\n10 11 12".toList =
    .ok (true, ⟨2, 3, 4, 1, [⟨1, 2, 3⟩, ⟨4, 5, 6⟩], [0, 0], [⟨7, 8, 9⟩, ⟨10, 11, 12⟩], [5, 6], [0, 0]⟩) := by
  rfl

example : ∃ t d', C44.two.loadZeno text 9 0 t = .ok (true, d') ∧ d'.count = 1 ∧ d'.mass = [0] :=
  zeno_bad_mass_accepted text 9 0 C44.two rfl 0 rfl

end NB.C46
