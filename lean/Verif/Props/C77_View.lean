import Verif.Lemmas.View

/-
C77: what the player's window shows.
-/

namespace NB.C77

/-! ### The box -/

/-- All bodies are at one point (or there are none). -/
def Together (vrt : List (Vec3 ℝ)) : Prop := ∀ v ∈ vrt, ∀ w ∈ vrt, v = w

lemma coord_ext {v w : Vec3 ℝ} (h : ∀ k, v.coord k = w.coord k) : v = w :=
  Vec3.ext (h 0) (h 1) (h 2)

lemma setup_together (b : ViewBox) (hb : b.boxMin = b.boxMax) (vrt vel : List (Vec3 ℝ))
    (hbound : ∀ v ∈ vrt, ∀ k, |v.coord k| ≤ 1e30) :
    (setupViewBox b vrt vel).boxMin = (setupViewBox b vrt vel).boxMax ↔ Together vrt := by
  unfold setupViewBox
  by_cases hne : vrt = []
  · subst hne
    have hc : b.boxMin ≠ b.boxMax ∨ ([] : List (Vec3 ℝ)).length = 0 := Or.inr rfl
    rw [if_pos hc]
    exact ⟨fun _ v hv => by simp at hv, fun _ => hb⟩
  · have hcond : ¬ (b.boxMin ≠ b.boxMax ∨ vrt.length = 0) := by
      rintro (h | h)
      · exact h hb
      · exact hne (List.length_eq_zero_iff.1 h)
    rw [if_neg hcond]
    have hB := C53.box_is_bounding_box vrt hne hbound
    have key : ((getBox vrt).1 - ((getBox vrt).2 - (getBox vrt).1).smul 0.5 =
        (getBox vrt).2 + ((getBox vrt).2 - (getBox vrt).1).smul 0.5) ↔ (getBox vrt).1 = (getBox vrt).2 := by
      generalize getBox vrt = q
      obtain ⟨⟨x0, y0, z0⟩, ⟨x1, y1, z1⟩⟩ := q
      show ((⟨x0 - (x1 - x0) * 0.5, y0 - (y1 - y0) * 0.5, z0 - (z1 - z0) * 0.5⟩ : Vec3 ℝ) =
        ⟨x1 + (x1 - x0) * 0.5, y1 + (y1 - y0) * 0.5, z1 + (z1 - z0) * 0.5⟩) ↔ (⟨x0, y0, z0⟩ : Vec3 ℝ) = ⟨x1, y1, z1⟩
      simp only [Vec3.mk.injEq]
      constructor
      · rintro ⟨h1, h2, h3⟩
        refine ⟨by linarith, by linarith, by linarith⟩
      · rintro ⟨h1, h2, h3⟩
        refine ⟨by rw [h1]; ring, by rw [h2]; ring, by rw [h3]; ring⟩
    refine key.trans ⟨fun h v hv w hw => coord_ext fun k => ?_, fun h => coord_ext fun k => ?_⟩
    · have h1 := (hB k).1 v hv
      have h2 := (hB k).1 w hw
      rw [h] at h1 h2
      exact (le_antisymm h1.2 h1.1).trans (le_antisymm h2.2 h2.1).symm
    · obtain ⟨v, hv, h1⟩ := (hB k).2.1
      obtain ⟨w, hw, h2⟩ := (hB k).2.2
      rw [h1, h2, h v hv w hw]

/-- The box is that of the first painted frame in which the bodies are not all together, with half its size added on
each side, whatever was painted before and after. -/
theorem box_of_first_frame (pre post : List (List (Vec3 ℝ) × List (Vec3 ℝ))) (vrt vel : List (Vec3 ℝ))
    (hbound : ∀ f ∈ pre ++ [(vrt, vel)], ∀ v ∈ f.1, ∀ k, |v.coord k| ≤ 1e30)
    (hpre : ∀ f ∈ pre, Together f.1) (h : ¬ Together vrt) :
    paintFrames .start (pre ++ (vrt, vel) :: post) =
      ⟨(getBox vrt).1 - ((getBox vrt).2 - (getBox vrt).1).smul 0.5,
       (getBox vrt).2 + ((getBox vrt).2 - (getBox vrt).1).smul 0.5, (getBox vel).1, (getBox vel).2⟩ := by
  have h1 : ∀ (l : List (List (Vec3 ℝ) × List (Vec3 ℝ))) (b : ViewBox), b.boxMin = b.boxMax →
      (∀ f ∈ l, Together f.1) → (∀ f ∈ l, ∀ v ∈ f.1, ∀ k, |v.coord k| ≤ 1e30) →
      (paintFrames b l).boxMin = (paintFrames b l).boxMax := by
    intro l
    induction l with
    | nil => intro b hb _ _; exact hb
    | cons f l ih =>
      intro b hb ht hbd
      exact ih _ ((setup_together b hb f.1 f.2 (hbd f (by simp))).2 (ht f (by simp)))
        (fun g hg => ht g (by simp [hg])) (fun g hg => hbd g (by simp [hg]))
  have h2 : ∀ (l : List (List (Vec3 ℝ) × List (Vec3 ℝ))) (b : ViewBox), b.boxMin ≠ b.boxMax → paintFrames b l = b := by
    intro l
    induction l with
    | nil => intro b _; rfl
    | cons f l ih =>
      intro b hb
      have : setupViewBox b f.1 f.2 = b := if_pos (Or.inl hb)
      show paintFrames (setupViewBox b f.1 f.2) l = b
      rw [this]
      exact ih b hb
  have hb := h1 pre .start rfl hpre (fun f hf => hbound f (by simp [hf]))
  have hv := hbound (vrt, vel) (by simp)
  have hsplit : paintFrames .start (pre ++ (vrt, vel) :: post) =
      paintFrames (setupViewBox (paintFrames .start pre) vrt vel) post := by
    simp [paintFrames, List.foldl_append]
  rw [hsplit, h2]
  · have hcond : ¬ ((paintFrames .start pre).boxMin ≠ (paintFrames .start pre).boxMax ∨ vrt.length = 0) := by
      rintro (hh | hh)
      · exact hh hb
      · refine h fun v hv => ?_
        rw [List.length_eq_zero_iff.1 hh] at hv
        simp at hv
    unfold setupViewBox
    rw [if_neg hcond]
  · exact fun e => h ((setup_together _ hb vrt vel hv).1 e)

/-! ### What is visible -/

/-- The frame the box was made from is visible: every body is drawn in each of the four panes, provided that the
camera is not too near for the opening angle, and the box is neither so small that bodies are before the near plane
nor so large that they are behind the far plane. -/
theorem first_frame_visible (b0 : ViewBox) (hb0 : b0.boxMin = b0.boxMax) (vrt vel : List (Vec3 ℝ))
    (hbound : ∀ v ∈ vrt, ∀ k, |v.coord k| ≤ 1e30) (b : ViewBox) (hb : b = setupViewBox b0 vrt vel)
    (diag : ℝ) (hdiag : diag = (b.boxMax - b.boxMin).length) (scale : ℝ)
    (split : ℝ × ℝ) (width height : ℕ) (q : Pane) (hq : q ∈ panes b scale split width height)
    (hw : 0 < q.width) (hh : 0 < q.height)
    (hnear : 1 ≤ (scale - 1 / 4) * diag) (hfar : (Real.sqrt 2 * scale + 1 / 4) * diag ≤ 1000)
    (hup : Real.sqrt 3 / 4 ≤ scale - 1 / 4)
    (hside : Real.sqrt 3 / 4 * (q.height / q.width) ≤ scale - 1 / 4)
    (p : Vec3 ℝ) (hp : p ∈ vrt) : q.draws b p := by
  have hd0 : 0 ≤ diag := by rw [hdiag]; exact v_length_nonneg _
  have h3 : 0 ≤ Real.sqrt 3 := Real.sqrt_nonneg 3
  have hs : 0 < scale - 1 / 4 := by
    by_contra hcon
    have := mul_nonneg (by linarith : 0 ≤ -(scale - 1 / 4)) hd0
    linarith
  have hd : 0 < b.dist scale := by
    show 0 < (b.boxMax - b.boxMin).length * scale
    rw [← hdiag]
    have : 0 < diag := lt_of_le_of_ne hd0 fun e => by rw [← e] at hnear; linarith
    exact mul_pos this (by linarith)
  have hdist : b.dist scale = diag * scale := by rw [hdiag]; rfl
  obtain ⟨c1, c2, c3⟩ := pane_camera b scale hd split width height q hq
  obtain ⟨f, s, u, hf, hs1, hu, _, _, hiff⟩ := inside_iff q.width q.height hw hh b.center q.camera q.up p c1 c2
  have hr : (p - b.center).length ≤ diag * (1 / 4) := by
    rw [hdiag, hb]
    exact near_center b0 hb0 vrt vel hbound p hp
  have hfr := abs_le.1 (v_dot_unit (r := p - b.center) hf)
  have hsr := v_dot_unit (r := p - b.center) hs1
  have hur := v_dot_unit (r := p - b.center) hu
  have hD1 : diag * scale ≤ (b.center - q.camera).length := by
    rcases c3 with h | h
    · rw [h, hdist]
    · rw [h, hdist]
      have : 1 ≤ Real.sqrt 2 := by rw [Real.one_le_sqrt]; norm_num
      nlinarith [mul_nonneg hd0 (by linarith : 0 ≤ scale)]
  have hD2 : (b.center - q.camera).length ≤ Real.sqrt 2 * (diag * scale) := by
    rcases c3 with h | h
    · rw [h, hdist]
      have : 1 ≤ Real.sqrt 2 := by rw [Real.one_le_sqrt]; norm_num
      nlinarith [mul_nonneg hd0 (by linarith : 0 ≤ scale)]
    · rw [h, hdist]
  have hlow : (scale - 1 / 4) * diag ≤ (b.center - q.camera).length + f.dot (p - b.center) := by
    linarith [hfr.1]
  refine hiff.2 ⟨by linarith, by linarith [hfr.2], ?_, ?_⟩
  · refine le_trans ?_ hlow
    have ha : (0 : ℝ) ≤ q.height / q.width := by positivity
    calc Real.sqrt 3 * (q.height / q.width) * |s.dot (p - b.center)|
        ≤ Real.sqrt 3 * (q.height / q.width) * (diag * (1 / 4)) :=
          mul_le_mul_of_nonneg_left (hsr.trans hr) (mul_nonneg h3 ha)
      _ = Real.sqrt 3 / 4 * (q.height / q.width) * diag := by ring
      _ ≤ (scale - 1 / 4) * diag := mul_le_mul_of_nonneg_right hside hd0
  · refine le_trans ?_ hlow
    calc Real.sqrt 3 * |u.dot (p - b.center)| ≤ Real.sqrt 3 * (diag * (1 / 4)) :=
          mul_le_mul_of_nonneg_left (hur.trans hr) h3
      _ = Real.sqrt 3 / 4 * diag := by ring
      _ ≤ (scale - 1 / 4) * diag := mul_le_mul_of_nonneg_right hup hd0

/-- A box that is too large or too small: none of the bodies it was made for is drawn in any pane. -/
theorem nothing_visible (b0 : ViewBox) (hb0 : b0.boxMin = b0.boxMax) (vrt vel : List (Vec3 ℝ))
    (hbound : ∀ v ∈ vrt, ∀ k, |v.coord k| ≤ 1e30) (b : ViewBox) (hb : b = setupViewBox b0 vrt vel)
    (diag : ℝ) (hdiag : diag = (b.boxMax - b.boxMin).length) (scale : ℝ) (hs : 0 < scale)
    (split : ℝ × ℝ) (width height : ℕ) (q : Pane) (hq : q ∈ panes b scale split width height)
    (hw : 0 < q.width) (hh : 0 < q.height) (hpos : 0 < diag)
    (hout : 1000 < (scale - 1 / 4) * diag ∨ (Real.sqrt 2 * scale + 1 / 4) * diag < 1)
    (p : Vec3 ℝ) (hp : p ∈ vrt) : ¬ q.draws b p := by
  have hd : 0 < b.dist scale := by
    show 0 < (b.boxMax - b.boxMin).length * scale
    rw [← hdiag]
    exact mul_pos hpos hs
  have hdist : b.dist scale = diag * scale := by rw [hdiag]; rfl
  obtain ⟨c1, c2, c3⟩ := pane_camera b scale hd split width height q hq
  obtain ⟨f, s, u, hf, hs1, hu, _, _, hiff⟩ := inside_iff q.width q.height hw hh b.center q.camera q.up p c1 c2
  have hr : (p - b.center).length ≤ diag * (1 / 4) := by
    rw [hdiag, hb]
    exact near_center b0 hb0 vrt vel hbound p hp
  have hfr := abs_le.1 (v_dot_unit (r := p - b.center) hf)
  have h2 : 1 ≤ Real.sqrt 2 := by rw [Real.one_le_sqrt]; norm_num
  have hds := mul_pos hpos hs
  have hD1 : diag * scale ≤ (b.center - q.camera).length ∧ (b.center - q.camera).length ≤ Real.sqrt 2 * (diag * scale) := by
    rcases c3 with h | h <;> rw [h, hdist] <;> constructor <;> nlinarith
  intro hdraw
  obtain ⟨g1, g2, _, _⟩ := hiff.1 hdraw
  rcases hout with h | h
  · linarith [hfr.1, hD1.1]
  · linarith [hfr.2, hD1.2]

/-! ### The panes -/

/-- The pixel is in the pane. -/
def Covers (q : Pane) (i j : ℕ) : Prop := q.x ≤ i ∧ i < q.x + q.width ∧ q.y ≤ j ∧ j < q.y + q.height

/-- The four panes share out the window: every pixel is in exactly one of them. -/
theorem panes_tile (b : ViewBox) (scale : ℝ) (split : ℝ × ℝ) (width height : ℕ)
    (h1 : split.1 ≤ 1) (h2 : split.2 ≤ 1) (i j : ℕ) (hi : i < width) (hj : j < height) :
    ∃! k : Fin 4, ∃ q, (panes b scale split width height)[k.val]? = some q ∧ Covers q i j := by
  have hx : ⌊(width : ℝ) * split.1⌋₊ ≤ width := by
    refine Nat.floor_le_of_le ?_
    nlinarith [Nat.cast_nonneg (α := ℝ) width]
  have hy : ⌊(height : ℝ) * split.2⌋₊ ≤ height := by
    refine Nat.floor_le_of_le ?_
    nlinarith [Nat.cast_nonneg (α := ℝ) height]
  unfold panes Covers
  simp only
  generalize ⌊(width : ℝ) * split.1⌋₊ = x at hx ⊢
  generalize ⌊(height : ℝ) * split.2⌋₊ = y at hy ⊢
  by_cases hix : i < x <;> by_cases hjy : j < y
  · refine ⟨1, ⟨_, rfl, by simp only; omega⟩, ?_⟩
    rintro k ⟨q, hq, hc⟩
    fin_cases k <;> cases hq <;> simp only at hc <;> first | rfl | omega
  · refine ⟨3, ⟨_, rfl, by simp only; omega⟩, ?_⟩
    rintro k ⟨q, hq, hc⟩
    fin_cases k <;> cases hq <;> simp only at hc <;> first | rfl | omega
  · refine ⟨2, ⟨_, rfl, by simp only; omega⟩, ?_⟩
    rintro k ⟨q, hq, hc⟩
    fin_cases k <;> cases hq <;> simp only at hc <;> first | rfl | omega
  · refine ⟨0, ⟨_, rfl, by simp only; omega⟩, ?_⟩
    rintro k ⟨q, hq, hc⟩
    fin_cases k <;> cases hq <;> simp only at hc <;> first | rfl | omega

lemma half_floor (n : ℕ) : ⌊(n : ℝ) * 0.5⌋₊ = n / 2 := by
  have : (n : ℝ) * 0.5 = (n : ℝ) / (2 : ℕ) := by norm_num; ring
  rw [this]
  refine (Nat.floor_eq_iff (by positivity)).2 ⟨?_, ?_⟩
  · rw [le_div_iff₀ (by norm_num)]
    exact_mod_cast Nat.div_mul_le_self n 2
  · rw [div_lt_iff₀ (by norm_num)]
    have : n < (n / 2 + 1) * 2 := by omega
    exact_mod_cast this

/-- A double click into a pane of the divided window (off the middle lines) makes this pane fill the window, with the
same camera; a further double click anywhere divides the window again. -/
theorem double_click (b : ViewBox) (scale : ℝ) (width height px py : ℕ) (hx : px < width) (hy : py < height)
    (hmx : px ≠ width / 2) (hmy : py ≠ height / 2) (k : ℕ) (q : Pane)
    (hq : (panes b scale (0.5, 0.5) width height)[k]? = some q) (hc : Covers q px (height - 1 - py)) :
    (panes b scale (doubleClick (0.5, 0.5) width height px py) width height)[k]? =
      some { q with x := 0, y := 0, width := width, height := height } ∧
    ∀ px' py', doubleClick (doubleClick (0.5, 0.5) width height px py) width height px' py' = (0.5, 0.5) := by
  unfold panes at hq
  simp only [half_floor] at hq
  unfold Covers at hc
  have e1 : ⌊(width : ℝ) * 1⌋₊ = width := by rw [mul_one, Nat.floor_natCast]
  have e2 : ⌊(height : ℝ) * 1⌋₊ = height := by rw [mul_one, Nat.floor_natCast]
  have e0 : ∀ n : ℕ, ⌊(n : ℝ) * 0⌋₊ = 0 := by intro n; rw [mul_zero, Nat.floor_zero]
  rcases k with _ | _ | _ | _ | k
  · cases hq
    simp only at hc
    have hdc : doubleClick (0.5, 0.5) width height px py = (0, 0) := by
      unfold doubleClick
      simp only [if_true]
      rw [if_neg (by omega), if_pos (by omega)]
    rw [hdc]
    refine ⟨by simp [panes], fun px' py' => if_neg ?_⟩
    intro h; have := congrArg Prod.fst h; norm_num at this
  · cases hq
    simp only at hc
    have hdc : doubleClick (0.5, 0.5) width height px py = (1, 1) := by
      unfold doubleClick
      simp only [if_true]
      rw [if_neg (by omega), if_neg (by omega), if_pos (by omega)]
    rw [hdc]
    refine ⟨by simp [panes], fun px' py' => if_neg ?_⟩
    intro h; have := congrArg Prod.fst h; norm_num at this
  · cases hq
    simp only at hc
    have hdc : doubleClick (0.5, 0.5) width height px py = (0, 1) := by
      unfold doubleClick
      simp only [if_true]
      rw [if_pos (by omega)]
    rw [hdc]
    refine ⟨by simp [panes], fun px' py' => if_neg ?_⟩
    intro h; have := congrArg Prod.fst h; norm_num at this
  · cases hq
    simp only at hc
    have hdc : doubleClick (0.5, 0.5) width height px py = (1, 0) := by
      unfold doubleClick
      simp only [if_true]
      rw [if_neg (by omega), if_neg (by omega), if_neg (by omega), if_pos (by omega)]
    rw [hdc]
    refine ⟨by simp [panes], fun px' py' => if_neg ?_⟩
    intro h; have := congrArg Prod.fst h; norm_num at this
  · cases hq

/-- The two cameras of a stereo picture lie symmetrically beside the camera of the pane, perpendicular to the
direction of sight and to the upward direction, at the chosen fraction of the distance. -/
theorem stereo_pair (b : ViewBox) (scale : ℝ) (hd : 0 < b.dist scale) (split : ℝ × ℝ) (width height : ℕ) (q : Pane)
    (hq : q ∈ panes b scale split width height) (base : ℤ) :
    ∃ d : Vec3 ℝ, stereoCameras b.center q.camera q.up base = (q.camera + d, q.camera - d) ∧
      d.dot (b.center - q.camera) = 0 ∧ d.dot q.up = 0 ∧
      d.length = (b.center - q.camera).length * (|(base : ℝ)| / 1000) := by
  obtain ⟨c1, c2, _⟩ := pane_camera b scale hd split width height q hq
  refine ⟨_, rfl, ?_, ?_, ?_⟩
  · simp only [Vec3.dot, Vec3.smul, Vec3.cross]; ring
  · simp only [Vec3.dot, Vec3.smul, Vec3.cross]; ring
  · generalize b.center - q.camera = ray at c1 c2 ⊢
    have hc : (ray.cross q.up).dot (ray.cross q.up) ≠ 0 := by
      intro h
      have hp := v_length_pos c1
      refine c2 ?_
      have : (ray.normalized.cross q.up).dot (ray.normalized.cross q.up) =
          (ray.cross q.up).dot (ray.cross q.up) / (ray.length * ray.length) := by
        unfold Vec3.normalized Vec3.sdiv Vec3.cross Vec3.dot
        field_simp
      rw [this, h, zero_div]
    have hcp := v_length_pos hc
    have h1 := v_length_smul (a := ray.cross q.up) (k := ray.length / (ray.cross q.up).length)
      (div_nonneg (v_length_nonneg _) (v_length_nonneg _))
    have habs : ∀ (a : Vec3 ℝ) (k : ℝ), (a.smul k).length = a.length * |k| := by
      intro a k
      rw [← v_length_smul (abs_nonneg k)]
      unfold Vec3.length
      congr 1
      unfold Vec3.dot Vec3.smul
      simp only
      have : |k| * |k| = k * k := abs_mul_abs_self k
      linear_combination (-(a.x * a.x) - a.y * a.y - a.z * a.z) * this
    rw [habs, h1, mul_div_cancel₀ _ hcp.ne', abs_div]
    norm_num

/-! ### Concrete cases -/

lemma box_unit : getBox [⟨0, 0, 0⟩, ⟨1, 0, 0⟩] = (⟨0, 0, 0⟩, ⟨1, 0, 0⟩) := by
  simp only [getBox, List.foldl, boxStep]; norm_num

lemma box_hundred : getBox [⟨0, 0, 0⟩, ⟨100, 0, 0⟩] = (⟨0, 0, 0⟩, ⟨100, 0, 0⟩) := by
  simp only [getBox, List.foldl, boxStep]; norm_num

lemma bound_hundred (x : ℝ) (h : |x| ≤ 1e30) : ∀ v ∈ [(⟨0, 0, 0⟩ : Vec3 ℝ), ⟨x, 0, 0⟩], ∀ k, |v.coord k| ≤ 1e30 := by
  intro v hv k
  simp only [List.mem_cons, List.not_mem_nil, or_false] at hv
  rcases hv with rfl | rfl <;> fin_cases k <;> simp [Vec3.coord] <;> norm_num at h ⊢
  exact h

/-- The view after a frame with two bodies at distance `x`. -/
lemma box_two (b : ViewBox) (hb : b.boxMin = b.boxMax) (x : ℝ) (vel : List (Vec3 ℝ))
    (hbox : getBox [⟨0, 0, 0⟩, ⟨x, 0, 0⟩] = (⟨0, 0, 0⟩, ⟨x, 0, 0⟩)) :
    setupViewBox b [⟨0, 0, 0⟩, ⟨x, 0, 0⟩] vel =
      ⟨⟨-x / 2, 0, 0⟩, ⟨3 * x / 2, 0, 0⟩, (getBox vel).1, (getBox vel).2⟩ := by
  have hcond : ¬ (b.boxMin ≠ b.boxMax ∨ [(⟨0, 0, 0⟩ : Vec3 ℝ), ⟨x, 0, 0⟩].length = 0) := by
    rintro (h | h)
    · exact h hb
    · simp at h
  unfold setupViewBox
  rw [if_neg hcond, hbox]
  simp only
  ext
  · show 0 - (x - 0) * 0.5 = -x / 2; ring
  · show (0 : ℝ) - (0 - 0) * 0.5 = 0; norm_num
  · show (0 : ℝ) - (0 - 0) * 0.5 = 0; norm_num
  · show x + (x - 0) * 0.5 = 3 * x / 2; ring
  · show (0 : ℝ) + (0 - 0) * 0.5 = 0; norm_num
  · show (0 : ℝ) + (0 - 0) * 0.5 = 0; norm_num
  all_goals rfl

lemma diag_two (x : ℝ) (hx : 0 ≤ x) : ((⟨3 * x / 2, 0, 0⟩ : Vec3 ℝ) - ⟨-x / 2, 0, 0⟩).length = 2 * x := by
  have : ((⟨3 * x / 2, 0, 0⟩ : Vec3 ℝ) - ⟨-x / 2, 0, 0⟩).dot (⟨3 * x / 2, 0, 0⟩ - ⟨-x / 2, 0, 0⟩) = (2 * x) * (2 * x) := by
    show (3 * x / 2 - -x / 2) * (3 * x / 2 - -x / 2) + (0 - 0) * (0 - 0) + (0 - 0) * (0 - 0) = _
    ring
  unfold Vec3.length
  rw [this, real_sqrt, Real.sqrt_mul_self (by linarith)]

lemma sqrt2_lt : Real.sqrt 2 < 2 := by
  rw [Real.sqrt_lt' (by norm_num)]; norm_num

lemma sqrt3_lt : Real.sqrt 3 < 2 := by
  rw [Real.sqrt_lt' (by norm_num)]; norm_num

/-- Two bodies at distance 100 in a square window at scale 100 %: both are visible in the upper right pane. -/
lemma example_visible (b0 : ViewBox) (hb0 : b0.boxMin = b0.boxMax) (q : Pane)
    (hq : q ∈ panes (setupViewBox b0 [⟨0, 0, 0⟩, ⟨100, 0, 0⟩] []) (viewScale 100) (0.5, 0.5) 800 800)
    (hw : q.width = 400) (hh : q.height = 400) :
    q.draws (setupViewBox b0 [⟨0, 0, 0⟩, ⟨100, 0, 0⟩] []) ⟨100, 0, 0⟩ := by
  have hs : viewScale 100 = 1 := by norm_num [viewScale]
  have hd : (200 : ℝ) = ((setupViewBox b0 [⟨0, 0, 0⟩, ⟨100, 0, 0⟩] []).boxMax -
      (setupViewBox b0 [⟨0, 0, 0⟩, ⟨100, 0, 0⟩] []).boxMin).length := by
    rw [box_two b0 hb0 100 [] box_hundred, diag_two 100 (by norm_num)]; norm_num
  refine first_frame_visible b0 hb0 _ [] (bound_hundred 100 (by norm_num)) _ rfl 200 hd (viewScale 100) _ _ _ q hq
    (by omega) (by omega) ?_ ?_ ?_ ?_ _ (by simp)
  · rw [hs]; norm_num
  · rw [hs]; nlinarith [sqrt2_lt]
  · rw [hs]; linarith [sqrt3_lt]
  · rw [hs, hw, hh]; norm_num; linarith [sqrt3_lt]

example : ∃ q ∈ panes (setupViewBox .start [⟨0, 0, 0⟩, ⟨100, 0, 0⟩] []) (viewScale 100) (0.5, 0.5) 800 800,
    q.draws (setupViewBox .start [⟨0, 0, 0⟩, ⟨100, 0, 0⟩] []) ⟨100, 0, 0⟩ := by
  have h8 : ⌊((800 : ℕ) : ℝ) * 0.5⌋₊ = 400 := half_floor 800
  refine ⟨_, List.mem_cons_self, example_visible .start rfl _ List.mem_cons_self ?_ ?_⟩
  · show 800 - ⌊((800 : ℕ) : ℝ) * 0.5⌋₊ = 400; rw [h8]
  · show 800 - ⌊((800 : ℕ) : ℝ) * 0.5⌋₊ = 400; rw [h8]

/-- Two bodies at distance 1000: at scale 100 % the window is black. -/
theorem black_window (q : Pane) (hw : 0 < q.width) (hh : 0 < q.height)
    (hq : q ∈ panes (setupViewBox .start [⟨0, 0, 0⟩, ⟨1000, 0, 0⟩] []) (viewScale 100) (0.5, 0.5) 800 800) :
    ∀ p ∈ [(⟨0, 0, 0⟩ : Vec3 ℝ), ⟨1000, 0, 0⟩],
      ¬ q.draws (setupViewBox .start [⟨0, 0, 0⟩, ⟨1000, 0, 0⟩] []) p := by
  intro p hp
  have hbox : getBox [⟨0, 0, 0⟩, ⟨1000, 0, 0⟩] = (⟨0, 0, 0⟩, ⟨1000, 0, 0⟩) := by
    simp only [getBox, List.foldl, boxStep]; norm_num
  have hs : viewScale 100 = 1 := by norm_num [viewScale]
  have hd : (2000 : ℝ) = ((setupViewBox .start [⟨0, 0, 0⟩, ⟨1000, 0, 0⟩] []).boxMax -
      (setupViewBox .start [⟨0, 0, 0⟩, ⟨1000, 0, 0⟩] []).boxMin).length := by
    rw [box_two .start rfl 1000 [] hbox, diag_two 1000 (by norm_num)]; norm_num
  exact nothing_visible .start rfl _ [] (bound_hundred 1000 (by norm_num)) _ rfl 2000 hd (viewScale 100)
    (by rw [hs]; norm_num) _ _ _ q hq hw hh (by norm_num) (Or.inl (by rw [hs]; norm_num)) p hp

/-- A double click into the upper left quarter of a window of 801 times 601 pixels. -/
example : ∃ q, (panes .start 1 (0.5, 0.5) 801 601)[3]? = some q ∧ Covers q 10 (601 - 1 - 20) := by
  refine ⟨_, rfl, ?_⟩
  have e1 : ⌊((801 : ℕ) : ℝ) * 0.5⌋₊ = 400 := half_floor 801
  have e2 : ⌊((601 : ℕ) : ℝ) * 0.5⌋₊ = 300 := half_floor 601
  unfold Covers
  simp only [e1, e2]
  omega

/-- Pictures depend on what was shown before: if a frame with the bodies at distance 1 was painted first, the
second body of a frame with distance 100 is not visible; if not, it is. -/
theorem history_matters :
    ∃ q ∈ panes (paintFrames .start [([⟨0, 0, 0⟩, ⟨1, 0, 0⟩], []), ([⟨0, 0, 0⟩, ⟨100, 0, 0⟩], [])]) (viewScale 100)
      (0.5, 0.5) 800 800,
    ∃ q' ∈ panes (paintFrames .start [([⟨0, 0, 0⟩, ⟨100, 0, 0⟩], [])]) (viewScale 100) (0.5, 0.5) 800 800,
    q.x = q'.x ∧ q.y = q'.y ∧ q.width = q'.width ∧ q.height = q'.height ∧
    ¬ q.draws (paintFrames .start [([⟨0, 0, 0⟩, ⟨1, 0, 0⟩], []), ([⟨0, 0, 0⟩, ⟨100, 0, 0⟩], [])]) ⟨100, 0, 0⟩ ∧
    q'.draws (paintFrames .start [([⟨0, 0, 0⟩, ⟨100, 0, 0⟩], [])]) ⟨100, 0, 0⟩ := by
  have h8 : ⌊((800 : ℕ) : ℝ) * 0.5⌋₊ = 400 := half_floor 800
  refine ⟨_, List.mem_cons_self, _, List.mem_cons_self, rfl, rfl, rfl, rfl, ?_, ?_⟩
  · have hbox : paintFrames .start [([⟨0, 0, 0⟩, ⟨1, 0, 0⟩], []), ([⟨0, 0, 0⟩, ⟨100, 0, 0⟩], [])] =
        ⟨⟨-1 / 2, 0, 0⟩, ⟨3 * 1 / 2, 0, 0⟩, (getBox []).1, (getBox []).2⟩ := by
      have h := box_of_first_frame [] [([⟨0, 0, 0⟩, ⟨100, 0, 0⟩], [])] [⟨0, 0, 0⟩, ⟨1, 0, 0⟩] []
        (by intro f hf
            simp only [List.nil_append, List.mem_singleton] at hf
            subst hf
            exact bound_hundred 1 (by norm_num))
        (by simp) (by
          intro ht
          have := congrArg Vec3.x (ht ⟨0, 0, 0⟩ (by simp) ⟨1, 0, 0⟩ (by simp))
          norm_num at this)
      have h2 := box_two .start rfl 1 [] box_unit
      unfold setupViewBox at h2
      rw [if_neg (by simp [ViewBox.start])] at h2
      rw [List.nil_append] at h
      rw [h]
      exact h2
    rw [hbox]
    intro hdraw
    have hs : viewScale 100 = 1 := by norm_num [viewScale]
    have hdist : ViewBox.dist ⟨⟨-1 / 2, 0, 0⟩, ⟨3 * 1 / 2, 0, 0⟩, (getBox []).1, (getBox []).2⟩ (viewScale 100) = 2 := by
      show ((⟨3 * 1 / 2, 0, 0⟩ : Vec3 ℝ) - ⟨-1 / 2, 0, 0⟩).length * viewScale 100 = 2
      rw [diag_two 1 (by norm_num), hs]; norm_num
    obtain ⟨c1, c2, c3⟩ := pane_camera ⟨⟨-1 / 2, 0, 0⟩, ⟨3 * 1 / 2, 0, 0⟩, (getBox []).1, (getBox []).2⟩ (viewScale 100)
      (by rw [hdist]; norm_num) (0.5, 0.5) 800 800 _ List.mem_cons_self
    have w4 : (800 - ⌊((800 : ℕ) : ℝ) * 0.5⌋₊) = 400 := by rw [h8]
    have hp4 : 0 < 800 - ⌊((800 : ℕ) : ℝ) * 0.5⌋₊ := by rw [w4]; norm_num
    obtain ⟨f, s, u, hf, hs1, hu, ef, es, hiff⟩ := inside_iff _ _ hp4 hp4 _ _ _ ⟨100, 0, 0⟩ c1 c2
    obtain ⟨_, _, g3, _⟩ := hiff.1 hdraw
    have hL : _ ≤ (4 : ℝ) := c3.elim (fun h => h.le.trans (by rw [hdist]; norm_num))
      (fun h => h.le.trans (by rw [hdist]; linarith [sqrt2_lt]))
    have g3 := le_trans g3 (add_le_add hL le_rfl)
    clear hL c3
    rw [w4] at g3
    have hcen : ViewBox.center ⟨⟨-1 / 2, 0, 0⟩, ⟨3 * 1 / 2, 0, 0⟩, (getBox []).1, (getBox []).2⟩ = ⟨1 / 2, 0, 0⟩ := by
      show (⟨(3 * 1 / 2 + -1 / 2) * 0.5, (0 + 0) * 0.5, (0 + 0) * 0.5⟩ : Vec3 ℝ) = _
      norm_num
    have hfx : f.x = 0 := by
      rw [ef]
      show (_ - (_ - 0)) / _ = (0 : ℝ)
      rw [sub_zero, sub_self, zero_div]
    have hsy : s.y = 0 := by
      rw [es]
      show (f.z * 0 - f.x * 1) / _ = (0 : ℝ)
      rw [hfx]; simp
    have hsz : s.z = 0 := by
      rw [es]
      show (f.x * 0 - f.y * 0) / _ = (0 : ℝ)
      simp
    have hsx : |s.x| = 1 := by
      have : s.x * s.x = 1 := by
        have := hs1
        unfold Vec3.dot at this
        rw [hsy, hsz] at this
        linarith
      rw [← abs_mul_abs_self] at this
      nlinarith [abs_nonneg s.x]
    rw [hcen] at g3
    have hfr : f.dot ((⟨100, 0, 0⟩ : Vec3 ℝ) - ⟨1 / 2, 0, 0⟩) = 0 := by
      show f.x * (100 - 1 / 2) + f.y * (0 - 0) + f.z * (0 - 0) = 0
      rw [hfx]; ring
    have hsr : |s.dot ((⟨100, 0, 0⟩ : Vec3 ℝ) - ⟨1 / 2, 0, 0⟩)| = 199 / 2 := by
      have : s.dot ((⟨100, 0, 0⟩ : Vec3 ℝ) - ⟨1 / 2, 0, 0⟩) = s.x * (199 / 2) := by
        show s.x * (100 - 1 / 2) + s.y * (0 - 0) + s.z * (0 - 0) = _
        ring
      rw [this, abs_mul, hsx]
      norm_num
    rw [hfr, hsr] at g3
    have h3 : 1 ≤ Real.sqrt 3 := by rw [Real.one_le_sqrt]; norm_num
    norm_num at g3
    linarith
  · exact example_visible .start rfl _ List.mem_cons_self
      (by show 800 - ⌊((800 : ℕ) : ℝ) * 0.5⌋₊ = 400; rw [h8])
      (by show 800 - ⌊((800 : ℕ) : ℝ) * 0.5⌋₊ = 400; rw [h8])

/-- The percentage of the spin box is inverse to the distance of the cameras: twice the percentage brings every camera
twice as near; nothing else of the panes depends on it.  At 100 percent the distance along the axes is the diagonal of the
box. -/
theorem zoom (b : ViewBox) {p p' : ℝ} (hp : 0 < p) (hp' : 0 < p') (split : ℝ × ℝ) (width height : ℕ) :
    List.Forall₂ (fun q q' : Pane => (q.camera - b.center).smul p = (q'.camera - b.center).smul p' ∧
        q.up = q'.up ∧ q.x = q'.x ∧ q.y = q'.y ∧ q.width = q'.width ∧ q.height = q'.height)
      (panes b (viewScale p) split width height) (panes b (viewScale p') split width height) ∧
    ∀ q ∈ panes b (viewScale 100) split width height, ∃ i j k : ℤ, (i = 0 ∨ i = 1) ∧ (j = 0 ∨ j = -1) ∧
      (k = 0 ∨ k = -1) ∧ (i ≠ 0 ∨ j ≠ 0 ∨ k ≠ 0) ∧
      q.camera - b.center = (⟨i, j, k⟩ : Vec3 ℝ).smul (b.boxMax - b.boxMin).length := by
  constructor
  · have e : ∀ d : ℝ, d * viewScale p * p = d * viewScale p' * p' := fun d => by
      unfold viewScale; field_simp
    unfold panes ViewBox.dist
    simp only [List.forall₂_cons, List.Forall₂.nil, and_true]
    refine ⟨?_, ?_, ?_, ?_⟩ <;>
    · apply Vec3.ext
      all_goals
        simp only [Vec3.smul, Vec3.sub_x, Vec3.sub_y, Vec3.sub_z, Vec3.add_x, Vec3.add_y, Vec3.add_z]
        have := e (b.boxMax - b.boxMin).length
        linarith
  · intro q hq
    have h1 : viewScale 100 = 1 := by norm_num [viewScale]
    unfold panes ViewBox.dist at hq
    rw [h1, mul_one] at hq
    simp only [List.mem_cons, List.not_mem_nil, or_false] at hq
    rcases hq with rfl | rfl | rfl | rfl
    · refine ⟨0, -1, -1, by simp, by simp, by simp, by simp, ?_⟩
      apply Vec3.ext <;> simp [Vec3.smul]
    · refine ⟨0, 0, -1, by simp, by simp, by simp, by simp, ?_⟩
      apply Vec3.ext <;> simp [Vec3.smul]
    · refine ⟨1, 0, 0, by simp, by simp, by simp, by simp, ?_⟩
      apply Vec3.ext <;> simp [Vec3.smul]
    · refine ⟨0, -1, 0, by simp, by simp, by simp, by simp, ?_⟩
      apply Vec3.ext <;> simp [Vec3.smul]

/-- From 100 to 200 percent. -/
example (b : ViewBox) : List.Forall₂ (fun q q' : Pane => (q.camera - b.center).smul 100 = (q'.camera - b.center).smul 200)
    (panes b (viewScale 100) (0.5, 0.5) 800 800) (panes b (viewScale 200) (0.5, 0.5) 800 800) :=
  (zoom b (by norm_num : (0 : ℝ) < 100) (by norm_num : (0 : ℝ) < 200) _ _ _).1.imp fun _ _ h => h.1

end NB.C77
