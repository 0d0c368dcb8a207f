import Verif.Model.Universe
import Verif.Props.C54_IsEqual
import Verif.Props.C63_LoadInitial
import Verif.Lemmas.RealVec
import Verif.Lemmas.VecNorm
import Mathlib.Tactic.Ring
import Mathlib.Tactic.Tauto
import Mathlib.Tactic.FieldSimp
import Mathlib.Tactic.Positivity
import Mathlib.Tactic.LinearCombination

/-
C47.  The universe generator.
-/

namespace NB.C47

/-! ### Counts -/

/-- For every count from 1 to 2^64 - 64: the least multiple of 64 that is not less. -/
theorem roundUp_spec (n : ℕ) (h1 : 1 ≤ n) (h2 : n ≤ 2 ^ 64 - 64) :
    64 ∣ roundUp n 64 ∧ n ≤ roundUp n 64 ∧ roundUp n 64 < n + 64 := by
  unfold roundUp wrap64
  have e : (n + (2 ^ 64 - 1)) % 2 ^ 64 = n - 1 := by omega
  rw [e]
  have e2 : 64 * (1 + (n - 1) / 64) % 2 ^ 64 = 64 * (1 + (n - 1) / 64) := Nat.mod_eq_of_lt (by omega)
  rw [e2]
  exact ⟨Dvd.intro _ rfl, by omega, by omega⟩

/-- For 0 the subtraction wraps and the number of stars becomes 2^64 - 1, as it does for counts above
2^64 - 64: the generator does not make an empty universe. -/
theorem starCount_wraps (n : ℕ) (h : n = 0 ∨ 2 ^ 64 - 64 < n) (hn : n < 2 ^ 64) : starCount n = 2 ^ 64 - 1 := by
  have e : roundUp n 64 = 0 := by
    unfold roundUp wrap64
    rcases h with rfl | h
    · decide
    · have e : (n + (2 ^ 64 - 1)) % 2 ^ 64 = n - 1 := by omega
      rw [e]
      have : 64 * (1 + (n - 1) / 64) = 2 ^ 64 := by omega
      rw [this]
      exact Nat.mod_self _
  unfold starCount
  rw [e]
  decide

lemma starCount_eq {n : ℕ} (h1 : 1 ≤ n) (h2 : n ≤ 2 ^ 64 - 64) :
    starCount n + 1 = roundUp n 64 ∧ 63 ≤ starCount n := by
  obtain ⟨h3, h4, h5⟩ := roundUp_spec n h1 h2
  have h6 : roundUp n 64 < 2 ^ 64 := by unfold roundUp wrap64; exact Nat.mod_lt _ (by norm_num)
  have h7 : 64 ≤ roundUp n 64 := Nat.le_of_dvd (by omega) h3
  unfold starCount wrap64
  have : (roundUp n 64 + (2 ^ 64 - 1)) % 2 ^ 64 = roundUp n 64 - 1 := by omega
  rw [this]
  omega

/-! ### Stars -/

/-- A draw is used if it lies in the sphere. -/
noncomputable def inside (radius : ℝ) (r : Vec3 ℝ) : Bool := decide (r.length ≤ radius)

/-- `pow(x, 3.0)` -/
noncomputable def cube (x : ℝ) : ℝ := x ^ 3

variable {C : Type}

/-- The velocity of the star drawn as `r` relative to its galaxy. -/
noncomputable def relVel (radius total : ℝ) (stars : ℕ) (center r : Vec3 ℝ) : Vec3 ℝ :=
  starVel center (starPos center r) (starMass total stars) (effectiveMass cube radius total stars r.length)

lemma addStars_eq (center velosity : Vec3 ℝ) (radius total : ℝ) (stars : ℕ) (color : C) (draws : List (Vec3 ℝ))
    (k : ℕ) (d : DataObj ℝ C) :
    addStars cube center velosity radius total stars color draws k d =
      if k ≤ (draws.filter (inside radius)).length then
        some (let u := (draws.filter (inside radius)).take k
          { d with
            count := d.count + k
            vrt := d.vrt ++ u.map (starPos center)
            vel := d.vel ++ u.map (fun r => relVel radius total stars center r + velosity)
            mass := d.mass ++ List.replicate k (starMass total stars)
            color := d.color ++ List.replicate k color
            radius := d.radius ++ List.replicate k 0 })
      else none := by
  induction draws generalizing k d with
  | nil =>
    cases k with
    | zero => cases d; simp [addStars]
    | succ k => simp [addStars]
  | cons r draws ih =>
    cases k with
    | zero => cases d; simp [addStars]
    | succ k =>
      rw [addStars]
      simp only
      by_cases h : r.length ≤ radius
      · have e1 : FOps.lt radius r.length = false := by simpa using h
        have e2 : inside radius r = true := by simpa [inside] using h
        rw [e1, if_neg (by simp), ih, List.filter_cons_of_pos e2]
        simp only [List.length_cons, Nat.add_le_add_iff_right]
        by_cases hk : k ≤ (draws.filter (inside radius)).length
        · rw [if_pos hk, if_pos hk]
          simp only [DataObj.addBody, List.take_succ_cons, List.map_cons, List.replicate_succ, List.append_assoc,
            List.singleton_append, relVel]
          congr 2
          omega
        · rw [if_neg hk, if_neg hk]
      · have e1 : FOps.lt radius r.length = true := by simpa using h
        have e2 : inside radius r = false := by simpa [inside] using h
        rw [e1, if_pos rfl, ih, List.filter_cons_of_neg (by simp [e2])]

/-- The star part of a galaxy does not depend on where the galaxy is. -/
lemma starPos_sub (center r : Vec3 ℝ) : starPos center r - center = ⟨r.x, r.y, r.z * (3 / 10)⟩ := by
  ext <;> simp [starPos]

lemma relVel_center (radius total : ℝ) (stars : ℕ) (center center' r : Vec3 ℝ) :
    relVel radius total stars center r = relVel radius total stars center' r := by
  simp only [relVel, starVel, starPos_sub, force_def]

/-! ### The universe -/

section
variable (green color1 color2 : C) (draws : List (Vec3 ℝ)) (n : ℕ) (sx sy sz : ℝ) (d : DataObj ℝ C)

/-- Centre of the whole. -/
noncomputable def mid (sx sy sz : ℝ) : Vec3 ℝ := ⟨sx / 2, sy / 2, sz / 2⟩

/-- The velocity of the galaxies: opposite, along y. -/
noncomputable def drift (sx : ℝ) : Vec3 ℝ :=
  ⟨0, Real.sqrt ((force 0 (⟨sx / 2, 0, 0⟩ : Vec3 ℝ) 1000 1000).length * (⟨sx / 2, 0, 0⟩ : Vec3 ℝ).length / 2000) / 3, 0⟩

/-- `makeUniverse` with the number of stars given. -/
noncomputable def universeOf (k : ℕ) : Option (Res (DataObj ℝ C)) := do
  let half : ℝ := FOps.lit 5 / FOps.lit 10
  let d := d.clear
  let radius := sx * half
  let mass : ℝ := FOps.lit 1000
  let center : Vec3 ℝ := ⟨sx * half, sy * half, sz * half⟩
  let base : Vec3 ℝ := ⟨radius, 0, 0⟩
  let velosity : Vec3 ℝ :=
    ⟨0, FOps.sqrt ((force 0 base mass mass).length * base.length / (FOps.lit 2 * mass)), 0⟩
  let d ← addStars cube (center - base) (velosity.sdiv (FOps.lit 3)) radius mass k color1 draws k
    (d.addBody (center - base) (velosity.sdiv (FOps.lit 3)) (holeMass mass) green 0)
  let d ← addStars cube (center + base) ((-velosity).sdiv (FOps.lit 3)) radius mass k color2 draws k
    (d.addBody (center + base) ((-velosity).sdiv (FOps.lit 3)) (holeMass mass) green 0)
  some (do
    let b ← C63.realToSize (stdMax (stdMax 1 sx) (stdMax sy sz))
    pure { d with box := b })

lemma universeOf_eq (k : ℕ) : universeOf green color1 color2 draws sx sy sz d k =
    if k ≤ (draws.filter (inside (sx / 2))).length then
      some (let u := (draws.filter (inside (sx / 2))).take (k)
        (C63.realToSize (max (max 1 sx) (max sy sz))).map (fun b =>
          { count := 2 * (k + 1), time := d.time, step := d.step, box := b
            vrt := (⟨0, sy / 2, sz / 2⟩ :: u.map (fun r => (⟨r.x, sy / 2 + r.y, sz / 2 + r.z * (3 / 10)⟩ : Vec3 ℝ))) ++
              (⟨sx, sy / 2, sz / 2⟩ :: u.map (fun r => (⟨sx + r.x, sy / 2 + r.y, sz / 2 + r.z * (3 / 10)⟩ : Vec3 ℝ)))
            vel := (drift sx :: u.map (fun r => relVel (sx / 2) 1000 (k) 0 r + drift sx)) ++
              (-drift sx :: u.map (fun r => relVel (sx / 2) 1000 (k) 0 r + -drift sx))
            mass := (999 :: List.replicate (k) (1 / (k : ℝ))) ++
              (999 :: List.replicate (k) (1 / (k : ℝ)))
            color := (green :: List.replicate (k) color1) ++ (green :: List.replicate (k) color2)
            radius := List.replicate (2 * (k + 1)) 0 }))
    else none := by
  have hhalf' : ∀ s : ℝ, s * (5 / 10) = s / 2 := fun s => by ring
  have hhole : holeMass (1000 : ℝ) = 999 := by simp [holeMass]; norm_num
  have hstar : starMass (1000 : ℝ) (k) = 1 / (k : ℝ) := by
    simp [starMass, hhole]; norm_num
  unfold universeOf
  simp only [real_lit, real_sqrt, addStars_eq, Nat.cast_ofNat, hhalf']
  by_cases hk : k ≤ (draws.filter (inside (sx / 2))).length
  swap
  · simp only [if_neg hk]
    rfl
  simp only [if_pos hk]
  simp only [bind, Option.bind, Option.some.injEq]
  rw [C63.stdMax_real, C63.stdMax_real, C63.stdMax_real]
  cases C63.realToSize (max (max 1 sx) (max sy sz)) with
  | error e => rfl
  | ok b =>
    simp only [Except.map, Except.bind, pure, Except.pure, Except.ok.injEq]
    simp only [DataObj.addBody, DataObj.clear, hhole, hstar, List.nil_append, DataObj.mk.injEq, true_and]
    have hdrift : (⟨0, Real.sqrt ((force 0 (⟨sx / 2, 0, 0⟩ : Vec3 ℝ) 1000 1000).length *
        (⟨sx / 2, 0, 0⟩ : Vec3 ℝ).length / (2 * 1000)), 0⟩ : Vec3 ℝ).sdiv 3 = drift sx := by
      simp only [drift, Vec3.sdiv]
      norm_num
    have hdrift' : (-(⟨0, Real.sqrt ((force 0 (⟨sx / 2, 0, 0⟩ : Vec3 ℝ) 1000 1000).length *
        (⟨sx / 2, 0, 0⟩ : Vec3 ℝ).length / (2 * 1000)), 0⟩ : Vec3 ℝ)).sdiv 3 = -drift sx := by
      rw [← hdrift]
      ext <;> simp [neg_div]
    have c1 : (⟨sx / 2, sy / 2, sz / 2⟩ - ⟨sx / 2, 0, 0⟩ : Vec3 ℝ) = ⟨0, sy / 2, sz / 2⟩ := by ext <;> simp
    have c2 : (⟨sx / 2, sy / 2, sz / 2⟩ + ⟨sx / 2, 0, 0⟩ : Vec3 ℝ) = ⟨sx, sy / 2, sz / 2⟩ := by ext <;> simp
    rw [hdrift, hdrift', c1, c2]
    have p1 : starPos (⟨0, sy / 2, sz / 2⟩ : Vec3 ℝ) = fun r => (⟨r.x, sy / 2 + r.y, sz / 2 + r.z * (3 / 10)⟩ : Vec3 ℝ) := by
      funext r; ext <;> simp [starPos, add_comm]
    have p2 : starPos (⟨sx, sy / 2, sz / 2⟩ : Vec3 ℝ) =
        fun r => (⟨sx + r.x, sy / 2 + r.y, sz / 2 + r.z * (3 / 10)⟩ : Vec3 ℝ) := by
      funext r; ext <;> simp [starPos, add_comm]
    refine ⟨by omega, ?_, ?_, ?_, ?_, ?_⟩
    · rw [p1, p2]; simp
    · simp
    · simp only [relVel_center _ _ _ (⟨0, sy / 2, sz / 2⟩ : Vec3 ℝ) 0, relVel_center _ _ _ (⟨sx, sy / 2, sz / 2⟩ : Vec3 ℝ) 0]
      simp
    · simp
    · apply List.ext_getElem
      · simp; omega
      · intro i h1 h2
        simp only [List.getElem_replicate]
        apply List.eq_of_mem_replicate (n := 2 * (k + 1))
        have := List.getElem_mem h1
        simp only [List.mem_append, List.mem_cons, List.not_mem_nil, or_false, List.mem_replicate] at this
        rw [List.mem_replicate]
        tauto


lemma makeUniverse_eq : d.makeUniverse cube C63.realToSize green color1 color2 draws n sx sy sz =
    universeOf green color1 color2 draws sx sy sz d (starCount n) := rfl

lemma universeOf_ends (k : ℕ) : (universeOf green color1 color2 draws sx sy sz d k).isSome ↔
    k ≤ (draws.filter (inside (sx / 2))).length := by
  rw [universeOf_eq]
  by_cases h : k ≤ (draws.filter (inside (sx / 2))).length
  · rw [if_pos h]; simp [h]
  · rw [if_neg h]; simp [h]

/-- The generator ends exactly when the random numbers supply enough triples inside the sphere. -/
theorem universe_ends : (d.makeUniverse cube C63.realToSize green color1 color2 draws n sx sy sz).isSome ↔
    starCount n ≤ (draws.filter (inside (sx / 2))).length :=
  universeOf_ends green color1 color2 draws sx sy sz d (starCount n)

lemma box_ok (hs : max (max 1 sx) (max sy sz) < 2 ^ 64) :
    C63.realToSize (max (max 1 sx) (max sy sz)) = .ok ⌊max (max 1 sx) (max sy sz)⌋₊ := by
  have : (1 : ℝ) ≤ max (max 1 sx) (max sy sz) := le_max_of_le_left (le_max_left _ _)
  rw [C63.realToSize, if_pos ⟨by linarith, hs⟩]

lemma universeOf_ok (k : ℕ) (hs : max (max 1 sx) (max sy sz) < 2 ^ 64) (d' : Res (DataObj ℝ C))
    (h : universeOf green color1 color2 draws sx sy sz d k = some d') :
    k ≤ (draws.filter (inside (sx / 2))).length ∧
    d' = .ok (let u := (draws.filter (inside (sx / 2))).take k
          { count := 2 * (k + 1), time := d.time, step := d.step, box := ⌊max (max 1 sx) (max sy sz)⌋₊
            vrt := (⟨0, sy / 2, sz / 2⟩ :: u.map (fun r => (⟨r.x, sy / 2 + r.y, sz / 2 + r.z * (3 / 10)⟩ : Vec3 ℝ))) ++
              (⟨sx, sy / 2, sz / 2⟩ :: u.map (fun r => (⟨sx + r.x, sy / 2 + r.y, sz / 2 + r.z * (3 / 10)⟩ : Vec3 ℝ)))
            vel := (drift sx :: u.map (fun r => relVel (sx / 2) 1000 k 0 r + drift sx)) ++
              (-drift sx :: u.map (fun r => relVel (sx / 2) 1000 k 0 r + -drift sx))
            mass := (999 :: List.replicate k (1 / (k : ℝ))) ++ (999 :: List.replicate k (1 / (k : ℝ)))
            color := (green :: List.replicate k color1) ++ (green :: List.replicate k color2)
            radius := List.replicate (2 * (k + 1)) 0 }) := by
  rw [universeOf_eq] at h
  by_cases hk : k ≤ (draws.filter (inside (sx / 2))).length
  swap
  · rw [if_neg hk] at h; cases h
  rw [if_pos hk, box_ok sx sy sz hs] at h
  exact ⟨hk, (Option.some.inj h).symm⟩

lemma universeOf_counts (k N : ℕ) (k1 : k + 1 = N) (k2 : 63 ≤ k) (hs : max (max 1 sx) (max sy sz) < 2 ^ 64)
    (d' : Res (DataObj ℝ C)) (h : universeOf green color1 color2 draws sx sy sz d k = some d') :
    ∃ e, d' = .ok e ∧ e.count = 2 * N ∧ C54.Whole e ∧ e.color.length = e.count ∧
      e.mass = (999 :: List.replicate (N - 1) (1 / (N - 1 : ℝ))) ++ (999 :: List.replicate (N - 1) (1 / (N - 1 : ℝ))) ∧
      e.mass.sum = 2000 ∧ 1 ≤ e.box ∧ (e.box : ℝ) ≤ max (max 1 sx) (max sy sz) ∧
      max (max 1 sx) (max sy sz) < e.box + 1 := by
  obtain ⟨hk, h⟩ := universeOf_ok green color1 color2 draws sx sy sz d k hs d' h
  have hN : N - 1 = k := by omega
  have hN' : (N : ℝ) - 1 = k := by rw [← k1]; push_cast; ring
  have hm1 : (1 : ℝ) ≤ max (max 1 sx) (max sy sz) := le_max_of_le_left (le_max_left _ _)
  have hul : ((draws.filter (inside (sx / 2))).take k).length = k := by rw [List.length_take]; omega
  refine ⟨_, h, ?_, ⟨?_, ?_, ?_, ?_⟩, ?_, ?_, ?_, ?_, ?_, ?_⟩
  · simp only; omega
  · simp only [List.length_append, List.length_cons, List.length_map, hul]; omega
  · simp only [List.length_append, List.length_cons, List.length_map, hul]; omega
  · simp only [List.length_append, List.length_cons, List.length_replicate]; omega
  · simp only [List.length_replicate]
  · simp only [List.length_append, List.length_cons, List.length_replicate]; omega
  · rw [hN, hN']
  · simp only [List.sum_append, List.sum_cons, List.sum_replicate, nsmul_eq_mul]
    have hk0 : (k : ℝ) ≠ 0 := by
      have : (0 : ℝ) < k := by exact_mod_cast (by omega : 0 < k)
      exact this.ne'
    field_simp
    norm_num
  · rw [Nat.le_floor_iff (by linarith)]; simp
  · exact Nat.floor_le (by linarith)
  · exact Nat.lt_floor_add_one _

/-- What the universe consists of, for every count from 1 to 2^64 - 64 and all random outcomes: two galaxies of the
least multiple of 64 that is at least the count; each has a black hole of 999 mass units and stars which share one
unit, so the whole mass is 2000; all arrays are complete; the box is at least 1. -/
theorem universe_counts (h1 : 1 ≤ n) (h2 : n ≤ 2 ^ 64 - 64) (hs : max (max 1 sx) (max sy sz) < 2 ^ 64)
    (d' : Res (DataObj ℝ C))
    (h : d.makeUniverse cube C63.realToSize green color1 color2 draws n sx sy sz = some d') :
    ∃ e N, d' = .ok e ∧ 64 ∣ N ∧ n ≤ N ∧ N < n + 64 ∧ e.count = 2 * N ∧ C54.Whole e ∧ e.color.length = e.count ∧
      e.mass = (999 :: List.replicate (N - 1) (1 / (N - 1 : ℝ))) ++ (999 :: List.replicate (N - 1) (1 / (N - 1 : ℝ))) ∧
      e.mass.sum = 2000 ∧ 1 ≤ e.box ∧ (e.box : ℝ) ≤ max (max 1 sx) (max sy sz) ∧
      max (max 1 sx) (max sy sz) < e.box + 1 := by
  obtain ⟨k1, k2⟩ := starCount_eq h1 h2
  obtain ⟨r1, r2, r3⟩ := roundUp_spec n h1 h2
  obtain ⟨e, he⟩ := universeOf_counts green color1 color2 draws sx sy sz d (starCount n) (roundUp n 64) k1 k2 hs d' h
  exact ⟨e, roundUp n 64, he.1, r1, r2, r3, he.2⟩

/-- Where the bodies are and how they move: the draws inside the sphere, in their order and as many as needed, are
the places of the stars relative to their black hole, flattened to 3/10 in z; the two galaxies are the same up to a
shift by `sx`, and move with opposite velocities on top of the same inner motion. -/
theorem universe_bodies (hs : max (max 1 sx) (max sy sz) < 2 ^ 64) (d' : Res (DataObj ℝ C))
    (h : d.makeUniverse cube C63.realToSize green color1 color2 draws n sx sy sz = some d') :
    ∃ e u, d' = .ok e ∧ u = (draws.filter (inside (sx / 2))).take (starCount n) ∧ u.length = starCount n ∧
      (∀ r ∈ u, r ∈ draws ∧ r.length ≤ sx / 2) ∧
      e.vrt = (⟨0, sy / 2, sz / 2⟩ :: u.map (fun r => (⟨r.x, sy / 2 + r.y, sz / 2 + r.z * (3 / 10)⟩ : Vec3 ℝ))) ++
        (⟨sx, sy / 2, sz / 2⟩ :: u.map (fun r => (⟨sx + r.x, sy / 2 + r.y, sz / 2 + r.z * (3 / 10)⟩ : Vec3 ℝ))) ∧
      e.vel = (drift sx :: u.map (fun r => relVel (sx / 2) 1000 (starCount n) 0 r + drift sx)) ++
        (-drift sx :: u.map (fun r => relVel (sx / 2) 1000 (starCount n) 0 r + -drift sx)) := by
  rw [makeUniverse_eq] at h
  generalize starCount n = k at *
  obtain ⟨hk, h⟩ := universeOf_ok green color1 color2 draws sx sy sz d k hs d' h
  refine ⟨_, _, h, rfl, by rw [List.length_take]; omega, ?_, rfl, rfl⟩
  intro r hr
  have := List.mem_of_mem_take hr
  rw [List.mem_filter] at this
  exact ⟨this.1, by simpa [inside] using this.2⟩

/-- Bodies may lie outside the box the generator announces: every star of the second galaxy drawn on the side away
from the first one does, if the box is a cube of size at least 1. -/
theorem universe_outside_box (hx : 1 ≤ sx) (hs : sx < 2 ^ 64) (d' : Res (DataObj ℝ C))
    (h : d.makeUniverse cube C63.realToSize green color1 color2 draws n sx sx sx = some d') (r : Vec3 ℝ)
    (hr : r ∈ (draws.filter (inside (sx / 2))).take (starCount n)) (hr0 : 0 < r.x) :
    ∃ e, d' = .ok e ∧ ∃ v ∈ e.vrt, (e.box : ℝ) < v.x := by
  have hmax : max (max 1 sx) (max sx sx) = sx := by rw [max_self, max_eq_right hx, max_self]
  rw [makeUniverse_eq] at h
  generalize starCount n = k at *
  obtain ⟨hk, h⟩ := universeOf_ok green color1 color2 draws sx sx sx d k (by rw [hmax]; exact hs) d' h
  rw [hmax] at h
  refine ⟨_, h, ⟨sx + r.x, sx / 2 + r.y, sx / 2 + r.z * (3 / 10)⟩, ?_, ?_⟩
  · simp only [List.mem_append, List.mem_cons, List.mem_map]
    right; right
    exact ⟨r, hr, rfl⟩
  · have := Nat.floor_le (show (0 : ℝ) ≤ sx by linarith)
    simp only
    linarith

end

/-! ### The motion of a star -/

lemma normalized_norm {v : Vec3 ℝ} (h : v.norm ≠ 0) : v.normalized.norm = 1 := by
  have hl : v.length ≠ 0 := by
    intro h0
    apply h
    rw [← Vec3.length_sq, h0, mul_zero]
  have : v.normalized.norm = v.norm / (v.length * v.length) := by
    simp only [Vec3.normalized, Vec3.norm, Vec3.sdiv]
    field_simp
  rw [this, Vec3.length_sq, div_self h]

lemma normalized_dot (v w : Vec3 ℝ) (h : v.dot w = 0) : v.normalized.dot w = 0 := by
  have : v.normalized.dot w = v.dot w / v.length := by
    simp only [Vec3.normalized, Vec3.dot, Vec3.sdiv]
    ring
  rw [this, h, zero_div]

lemma force_length (p q : Vec3 ℝ) (m1 m2 : ℝ) (hm1 : 0 ≤ m1) (hm2 : 0 ≤ m2) (h : 1e-8 ≤ (p - q).norm) :
    (force p q m1 m2).length = m1 * m2 / (p - q).norm := by
  have hpos : 0 < (p - q).norm := lt_of_lt_of_le (by norm_num) h
  have hsoft : soft (p - q).norm = (p - q).norm := max_eq_left h
  have hlen : 0 < (p - q).length := Real.sqrt_pos.2 hpos
  have hsq := Vec3.length_sq (p - q)
  have e : force p q m1 m2 = (p - q).smul (-(m1 * m2) / ((p - q).norm * (p - q).length)) := by
    unfold force
    simp only [real_sqrt]
    rw [soft_eq, hsoft, ← Vec3.length_eq]
    congr 1
    ring
  have hn : (force p q m1 m2).norm = (m1 * m2 / (p - q).norm) * (m1 * m2 / (p - q).norm) := by
    have : (force p q m1 m2).norm = (p - q).norm * (-(m1 * m2) / ((p - q).norm * (p - q).length)) ^ 2 := by
      rw [e]; simp only [Vec3.norm, Vec3.smul_x, Vec3.smul_y, Vec3.smul_z]; ring
    rw [this, div_pow, mul_pow, show (p - q).length ^ 2 = (p - q).norm by rw [sq]; exact hsq]
    field_simp
  rw [Vec3.length_eq, hn, Real.sqrt_mul_self (by positivity)]

/-- Every star farther than 1e-4 from the centre of its galaxy (after flattening) moves at right angles to the
direction of the centre, and with the speed of a circular orbit around the mass that counts at its distance: the
black hole and the part of the stars which the cube of the distance gives. -/
theorem star_orbit (radius total : ℝ) (stars : ℕ) (hr : 0 < radius) (ht : 0 < total) (hk : 0 < stars) (center r : Vec3 ℝ)
    (f : Vec3 ℝ) (hf : f = ⟨r.x, r.y, r.z * (3 / 10)⟩) (h : 1e-8 ≤ f.norm) :
    (relVel radius total stars center r).dot f = 0 ∧
    (relVel radius total stars center r).norm =
      (total * (999 / 1000) + (r.length / radius) ^ 3 * (total / 1000)) / f.length := by
  have hkr : (0 : ℝ) < stars := by exact_mod_cast hk
  have hsm : starMass total stars = total / 1000 / stars := by
    simp only [starMass, holeMass, real_lit]
    push_cast
    ring
  have heff : effectiveMass cube radius total stars r.length =
      total * (999 / 1000) + (r.length / radius) ^ 3 * (total / 1000) := by
    simp only [effectiveMass, hsm, holeMass, cube, real_lit]
    push_cast
    field_simp
    ring
  have hrl := Vec3.length_nonneg r
  have hM : 0 ≤ total * (999 / 1000) + (r.length / radius) ^ 3 * (total / 1000) := by positivity
  have hfpos : 0 < f.norm := lt_of_lt_of_le (by norm_num) h
  have hflen : 0 < f.length := Real.sqrt_pos.2 hfpos
  have hfsq := Vec3.length_sq f
  have hm : 0 < total / 1000 / stars := by positivity
  unfold relVel
  rw [heff, hsm]
  generalize total * (999 / 1000) + (r.length / radius) ^ 3 * (total / 1000) = M at *
  generalize total / 1000 / (stars : ℝ) = m at *
  unfold starVel
  have hsub : starPos center r - center = f := by rw [starPos_sub, hf]
  simp only [hsub]
  -- the direction
  generalize hv : (if FOps.lt (f.cross ⟨0, 0, 1⟩).length (1 / FOps.lit 10000000) = true then f.cross ⟨1, 0, 0⟩
    else f.cross ⟨0, 0, 1⟩) = v
  have hdot : v.dot f = 0 := by
    rw [← hv]
    split <;> simp only [Vec3.dot, Vec3.cross] <;> ring
  have hne : v.norm ≠ 0 := by
    rw [← hv]
    split
    · rename_i hlt
      simp only [real_lt, real_lit, decide_eq_true_eq] at hlt
      intro h0
      have e0 : (f.cross ⟨1, 0, 0⟩).norm = f.z * f.z + f.y * f.y := by
        simp only [Vec3.norm, Vec3.cross]; ring
      rw [e0] at h0
      have hz : f.z = 0 := by nlinarith [mul_self_nonneg f.z, mul_self_nonneg f.y]
      have hy : f.y = 0 := by nlinarith [mul_self_nonneg f.z, mul_self_nonneg f.y]
      have e1 : (f.cross ⟨0, 0, 1⟩).norm = f.norm := by
        simp only [Vec3.norm, Vec3.cross, hz, hy]; ring
      have e2 := Vec3.length_sq (f.cross ⟨0, 0, 1⟩)
      have e3 := Vec3.length_nonneg (f.cross ⟨0, 0, 1⟩)
      rw [e1] at e2
      have : (f.cross ⟨0, 0, 1⟩).length * (f.cross ⟨0, 0, 1⟩).length ≤ (1 / 10000000) * (1 / 10000000) := by
        push_cast at hlt
        exact mul_le_mul hlt.le hlt.le e3 (by norm_num)
      rw [e2] at this
      norm_num at this h
      linarith
    · rename_i hlt
      simp only [real_lt, real_lit, decide_eq_true_eq, not_lt] at hlt
      intro h0
      have e2 := Vec3.length_sq (f.cross ⟨0, 0, 1⟩)
      rw [h0] at e2
      have : (f.cross ⟨0, 0, 1⟩).length = 0 := by
        rcases mul_eq_zero.1 e2 with e | e <;> exact e
      rw [this] at hlt
      norm_num at hlt
  rw [force_length _ _ _ _ hm.le hM (by rw [hsub]; exact h), hsub, real_sqrt]
  have hd := normalized_dot v f hdot
  have hn := normalized_norm hne
  generalize v.normalized = w at *
  constructor
  · have : (w.smul (Real.sqrt (m * M / f.norm * f.length / m))).dot f = w.dot f * Real.sqrt (m * M / f.norm * f.length / m) := by
      simp only [Vec3.dot, Vec3.smul_x, Vec3.smul_y, Vec3.smul_z]; ring
    rw [this, hd, zero_mul]
  · have e : (w.smul (Real.sqrt (m * M / f.norm * f.length / m))).norm =
        w.norm * (Real.sqrt (m * M / f.norm * f.length / m) * Real.sqrt (m * M / f.norm * f.length / m)) := by
      simp only [Vec3.norm, Vec3.smul_x, Vec3.smul_y, Vec3.smul_z]; ring
    rw [e, hn, Real.mul_self_sqrt (by positivity), ← hfsq]
    field_simp

/-- A draw at the centre makes the normalisation divide by zero: the vector it divides has length 0 (with IEEE numbers
the velocity is then not a number). -/
theorem centre_divides_by_zero (center : Vec3 ℝ) :
    let v := (starPos center (0 : Vec3 ℝ) - center).cross ⟨0, 0, 1⟩
    (if FOps.lt v.length (1 / FOps.lit 10000000) then (starPos center (0 : Vec3 ℝ) - center).cross ⟨1, 0, 0⟩
      else v).length = 0 := by
  simp only [starPos_sub]
  split <;> simp [Vec3.cross, Vec3.length, Vec3.dot]

/-! 65 stars asked for: two galaxies of 128. -/

example : roundUp 65 64 = 128 ∧ starCount 65 = 127 := by decide

example (d : DataObj ℝ Unit) : (d.makeUniverse cube C63.realToSize () () () (List.replicate 200 ⟨1, 0, 0⟩) 65 4 4 4).isSome := by
  rw [universe_ends]
  have e : (List.replicate 200 (⟨1, 0, 0⟩ : Vec3 ℝ)).filter (inside (4 / 2)) = List.replicate 200 ⟨1, 0, 0⟩ := by
    rw [List.filter_eq_self]
    intro r hr
    rw [List.eq_of_mem_replicate hr]
    have : (⟨1, 0, 0⟩ : Vec3 ℝ).length = 1 := by simp [Vec3.length, Vec3.dot]
    rw [inside, this]
    norm_num
  rw [e, List.length_replicate]
  decide

example : (relVel 2 1000 127 0 ⟨1, 0, 0⟩).norm = (1000 * (999 / 1000) + ((⟨1, 0, 0⟩ : Vec3 ℝ).length / 2) ^ 3 * (1000 / 1000)) /
    (⟨1, 0, 0 * (3 / 10)⟩ : Vec3 ℝ).length :=
  (star_orbit 2 1000 127 (by norm_num) (by norm_num) (by norm_num) 0 ⟨1, 0, 0⟩ _ rfl (by simp [Vec3.norm]; norm_num)).2

end NB.C47
