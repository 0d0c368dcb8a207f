import Verif.Model.PlayerControl
import Verif.Props.C75_Player
import Mathlib.Tactic.NormNum
import Mathlib.Tactic.Ring
import Mathlib.Tactic.Linarith

/-
C89: the buttons of the player.
-/

namespace NB.C89

open StreamSpec C41 C75

/-- What the buttons and the slider have to satisfy. -/
structure Good (c : Control) : Prop where
  range : c.value ≤ c.last
  time : c.time ≤ 5000
  alive : c.anim ≠ .stopped → c.time < 5000
  start : c.startOn = true ↔ c.anim ≠ .running
  pause : c.pauseOn = true ↔ c.anim = .running
  stop : c.stopOn = true ↔ c.anim ≠ .stopped
  moved : c.moved.getLastD 0 = c.value
  moves : ∀ k ∈ c.moved, k ≤ c.last
  any : c.moved = [] ∨ ∃ k ∈ c.moved, 1 ≤ k

/-- The part of it that does not speak about the buttons. -/
structure Half (c : Control) : Prop where
  range : c.value ≤ c.last
  time : c.time ≤ 5000
  moved : c.moved.getLastD 0 = c.value
  moves : ∀ k ∈ c.moved, k ≤ c.last
  any : c.moved = [] ∨ ∃ k ∈ c.moved, 1 ≤ k

lemma Good.half {c : Control} (h : Good c) : Half c := ⟨h.range, h.time, h.moved, h.moves, h.any⟩

lemma half_setValue {c : Control} (h : Half c) (k : ℕ) : Half (c.setValue k) := by
  unfold Control.setValue
  split_ifs with he
  · exact h
  · refine ⟨Nat.min_le_right _ _, h.time, by simp, ?_, ?_⟩
    · intro j hj
      rcases List.mem_append.1 hj with hj | hj
      · exact h.moves j hj
      · rw [List.mem_singleton.1 hj]; exact Nat.min_le_right _ _
    · right
      rcases h.any with h0 | ⟨j, hj, h1⟩
      · have : c.value = 0 := by rw [← h.moved, h0]; rfl
        exact ⟨min k c.last, by simp, by omega⟩
      · exact ⟨j, by simp [hj], h1⟩

lemma setValue_fields (c : Control) (k : ℕ) : (c.setValue k).anim = c.anim ∧ (c.setValue k).time = c.time ∧ (c.setValue k).startOn = c.startOn ∧
    (c.setValue k).pauseOn = c.pauseOn ∧ (c.setValue k).stopOn = c.stopOn ∧ (c.setValue k).last = c.last ∧ (c.setValue k).value = min k c.last := by
  unfold Control.setValue
  split_ifs with he
  · exact ⟨rfl, rfl, rfl, rfl, rfl, rfl, he.symm⟩
  · exact ⟨rfl, rfl, rfl, rfl, rfl, rfl, rfl⟩

lemma good_setValue {c : Control} (h : Good c) (k : ℕ) : Good (c.setValue k) := by
  obtain ⟨e1, e2, e3, e4, e5, -, -⟩ := setValue_fields c k
  have hh := half_setValue h.half k
  exact ⟨hh.range, hh.time, by rw [e1, e2]; exact h.alive, by rw [e1, e3]; exact h.start, by rw [e1, e4]; exact h.pause,
    by rw [e1, e5]; exact h.stop, hh.moved, hh.moves, hh.any⟩

/-- `setCurrentTime` in one formula. -/
lemma setCurrentTime_good {c : Control} (h : Good c) (t : ℕ) : Good (c.setCurrentTime t) := by
  have hmin : min t animDuration ≤ 5000 := Nat.min_le_right _ _
  unfold Control.setCurrentTime
  dsimp only
  by_cases hs : c.anim = .stopped
  · rw [if_pos hs]
    have hg : Good { c with time := min t animDuration } :=
      ⟨h.range, hmin, fun hn => absurd hs hn, h.start, h.pause, h.stop, h.moved, h.moves, h.any⟩
    split_ifs
    · unfold Control.animStop
      rw [if_pos hs]
      exact hg
    · exact hg
  · rw [if_neg hs]
    have hh : Half { c with time := min t animDuration } := ⟨h.range, hmin, h.moved, h.moves, h.any⟩
    obtain ⟨k, hk⟩ : ∃ k, k = ({ c with time := min t animDuration } : Control).valueAt (min t animDuration) := ⟨_, rfl⟩
    rw [← hk]
    obtain ⟨e1, e2, e3, e4, e5, -, -⟩ := setValue_fields { c with time := min t animDuration } k
    have hv := half_setValue hh k
    by_cases hd : min t animDuration = animDuration
    · rw [if_pos (e2.trans hd)]
      unfold Control.animStop
      rw [if_neg (by rw [e1]; exact hs), if_pos (e2.trans hd)]
      exact ⟨hv.range, hv.time, fun hn => absurd rfl hn, by simp [Control.onFinished], by simp [Control.onFinished],
        by simp [Control.onFinished], hv.moved, hv.moves, hv.any⟩
    · rw [if_neg (fun hx => hd (e2.symm.trans hx))]
      refine ⟨hv.range, hv.time, fun _ => ?_, by rw [e1, e3]; exact h.start, by rw [e1, e4]; exact h.pause,
        by rw [e1, e5]; exact h.stop, hv.moved, hv.moves, hv.any⟩
      rw [e2]
      show min t animDuration < 5000
      simp only [animDuration] at hd ⊢
      omega

lemma good_step {c : Control} (h : Good c) (e : CtlEvent) : Good (c.step e) := by
  cases e with
  | backward => exact good_setValue (setCurrentTime_good h 0) 0
  | forward => exact good_setValue (setCurrentTime_good h _) _
  | slide k => exact good_setValue h k
  | tick ms =>
    simp only [Control.step]
    split_ifs
    · exact setCurrentTime_good h _
    · exact h
  | start =>
    simp only [Control.step]
    split_ifs with hs
    · have hr := h.start.1 hs
      unfold Control.animStart
      cases ha : c.anim with
      | running => exact absurd ha hr
      | paused =>
        exact ⟨h.range, h.time, fun _ => h.alive (by rw [ha]; simp), by simp, by simp, by simp, h.moved, h.moves, h.any⟩
      | stopped =>
        dsimp only
        have hq : (Control.setCurrentTime { c with anim := .running, time := 0 } 0) =
            Control.setValue { c with anim := .running, time := 0 } 0 := by
          simp [Control.setCurrentTime, Control.valueAt, animDuration, (setValue_fields _ _).2.1]
        rw [hq]
        have hv := half_setValue (c := { c with anim := .running, time := 0 }) ⟨h.range, by simp, h.moved, h.moves, h.any⟩ 0
        obtain ⟨e1, e2, -⟩ := setValue_fields { c with anim := .running, time := 0 } 0
        exact ⟨hv.range, hv.time, fun _ => by rw [e2]; simp, by simp [e1], by simp [e1], by simp [e1], hv.moved, hv.moves, hv.any⟩
    · exact h
  | pause =>
    simp only [Control.step]
    split_ifs with hs
    · have hr := h.pause.1 hs
      unfold Control.animPause
      rw [if_neg (by rw [hr]; simp)]
      exact ⟨h.range, h.time, fun _ => h.alive (by rw [hr]; simp), by simp, by simp, by simpa [hr] using h.stop, h.moved, h.moves, h.any⟩
    · exact h
  | stop =>
    simp only [Control.step]
    split_ifs with hs
    · have hr := h.stop.1 hs
      have ht := h.alive hr
      have e0 : c.animStop = { c with anim := .stopped } := by
        unfold Control.animStop
        rw [if_neg hr, if_neg (by simp only [animDuration]; omega)]
      have e1 : Control.setCurrentTime { c with anim := .stopped } 0 = { c with anim := .stopped, time := 0 } := by
        simp [Control.setCurrentTime, animDuration]
      rw [e0, e1]
      have hv := half_setValue (c := { c with anim := .stopped, time := 0 }) ⟨h.range, by simp, h.moved, h.moves, h.any⟩ 0
      obtain ⟨g1, g2, -⟩ := setValue_fields { c with anim := .stopped, time := 0 } 0
      exact ⟨hv.range, hv.time, fun hn => absurd g1 hn, by simp [Control.onFinished, g1], by simp [Control.onFinished, g1],
        by simp [Control.onFinished, g1], hv.moved, hv.moves, hv.any⟩
    · exact h

lemma good_run {c : Control} (h : Good c) (l : List CtlEvent) : Good (c.run l) := by
  induction l generalizing c with
  | nil => exact h
  | cons e l ih => exact ih (good_step h e)

lemma good_new {frames : ℕ} {c : Control} (h : Control.new frames = .ok c) : Good c := by
  unfold Control.new at h
  dsimp only at h
  split_ifs at h
  all_goals
    cases h
    exact ⟨by simp [Control.onFinished], by simp [Control.onFinished], by simp [Control.onFinished], by simp [Control.onFinished],
      by simp [Control.onFinished], by simp [Control.onFinished], rfl, by simp [Control.onFinished], Or.inl rfl⟩

lemma setValue_last (c : Control) (k : ℕ) : (c.setValue k).last = c.last := (setValue_fields c k).2.2.2.2.2.1

lemma animStop_last (c : Control) : c.animStop.last = c.last := by
  unfold Control.animStop
  split_ifs <;> rfl

lemma setCurrentTime_last (c : Control) (t : ℕ) : (c.setCurrentTime t).last = c.last := by
  unfold Control.setCurrentTime
  dsimp only
  split_ifs <;> simp only [animStop_last, setValue_last]

lemma step_last (c : Control) (e : CtlEvent) : (c.step e).last = c.last := by
  cases e <;> simp only [Control.step]
  case start =>
    split_ifs
    · unfold Control.animStart
      cases c.anim <;> simp only [setCurrentTime_last]
    · rfl
  case pause => split_ifs <;> [(unfold Control.animPause; split_ifs <;> rfl); rfl]
  case backward => rw [setValue_last, setCurrentTime_last]
  case stop =>
    split_ifs
    · show Control.last (Control.setValue _ _) = _
      rw [setValue_last, setCurrentTime_last, animStop_last]
    · rfl
  case forward => rw [setValue_last, setCurrentTime_last]
  case tick => split_ifs <;> simp only [setCurrentTime_last]
  case slide => exact setValue_last _ _

lemma run_last (c : Control) (l : List CtlEvent) : (c.run l).last = c.last := by
  induction l generalizing c with
  | nil => rfl
  | cons e l ih => exact (ih _).trans (step_last c e)

lemma new_ok {frames : ℕ} (h1 : frames < 2 ^ 31) :
    Control.new frames = .ok ⟨frames - 1, 0, .stopped, 0, true, false, false, []⟩ := by
  have hk : frames % 2 ^ 32 = frames := Nat.mod_eq_of_lt (by omega)
  unfold Control.new
  dsimp only
  rw [hk, if_neg (by omega), if_pos h1]
  rfl

/-- **The buttons tell the state, the slider stands at a frame.**  After any sequence of buttons, passing time and moves of the slider: Start can be pressed
exactly if the animation does not run, Pause exactly if it runs, Stop exactly if it is not stopped; and the slider stands at a frame of the stream.
The number of frames has to fit into an `int`. -/
theorem buttons_tell_state {frames : ℕ} (h0 : 0 < frames) (h1 : frames < 2 ^ 31) (l : List CtlEvent) :
    ∃ c, Control.new frames = .ok c ∧
      ((c.run l).startOn = true ↔ (c.run l).anim ≠ .running) ∧ ((c.run l).pauseOn = true ↔ (c.run l).anim = .running) ∧
      ((c.run l).stopOn = true ↔ (c.run l).anim ≠ .stopped) ∧ (c.run l).value < frames := by
  have hc := new_ok h1
  have hg := good_run (good_new hc) l
  refine ⟨_, hc, hg.start, hg.pause, hg.stop, ?_⟩
  have := hg.range
  rw [run_last] at this
  simp only at this
  omega

/-- A number of frames of 2^31 is more than the constructor can take. -/
theorem too_many_frames : Control.new (2 ^ 31) = .error .badArith := by
  simp [Control.new]

/-! ### Playing -/

lemma run_cons (c : Control) (e : CtlEvent) (l : List CtlEvent) : c.run (e :: l) = (c.step e).run l := rfl

lemma run_append (c : Control) (l l' : List CtlEvent) : c.run (l ++ l') = (c.run l).run l' := List.foldl_append ..

lemma stopped_ticks {c : Control} (h : c.anim ≠ .running) (ts : List ℕ) : c.run (ts.map .tick) = c := by
  induction ts with
  | nil => rfl
  | cons t ts ih =>
    rw [List.map_cons, run_cons]
    have : c.step (.tick t) = c := by simp [Control.step, h]
    rw [this, ih]

/-- One tick of a running animation. -/
lemma tick_running {c : Control} (ha : c.anim = .running) (t : ℕ) :
    (c.time + t < 5000 → c.step (.tick t) = Control.setValue { c with time := c.time + t } (c.last * (c.time + t) / 5000)) ∧
    (5000 ≤ c.time + t → c.step (.tick t) =
      Control.onFinished { Control.setValue { c with time := 5000 } c.last with anim := .stopped }) := by
  constructor
  · intro ht
    simp only [Control.step, ha, if_true, Control.setCurrentTime]
    have hm : min (c.time + t) animDuration = c.time + t := Nat.min_eq_left (by simp only [animDuration]; omega)
    simp only [hm, reduceCtorEq, if_false]
    rw [if_neg (by rw [(setValue_fields _ _).2.1]; simp only [animDuration]; omega)]
    simp only [Control.valueAt, animDuration, ← ha]
  · intro ht
    simp only [Control.step, ha, if_true, Control.setCurrentTime]
    have hm : min (c.time + t) animDuration = 5000 := Nat.min_eq_right ht
    simp only [hm, reduceCtorEq, if_false]
    have hv : ∀ d : Control, d.valueAt 5000 = d.last := by
      intro d
      simp only [Control.valueAt, animDuration]
      omega
    rw [hv, if_pos (by rw [(setValue_fields _ _).2.1]; rfl)]
    unfold Control.animStop
    rw [if_neg (by rw [(setValue_fields _ _).1]; simp), if_pos (by rw [(setValue_fields _ _).2.1]; rfl)]

/-- What is true while the animation started at the beginning plays without interruption. -/
structure Playing (c : Control) : Prop where
  anim : c.anim = .running
  time : c.time < 5000
  value : c.value = c.last * c.time / 5000
  order : c.moved.Pairwise (· < ·)
  upto : ∀ k ∈ c.moved, k ≤ c.value

lemma order_setValue {c : Control} (ho : c.moved.Pairwise (· < ·)) (hu : ∀ k ∈ c.moved, k ≤ c.value) {k : ℕ} (hk : c.value ≤ k)
    (hl : k ≤ c.last) : (c.setValue k).moved.Pairwise (· < ·) ∧ ∀ j ∈ (c.setValue k).moved, j ≤ k := by
  unfold Control.setValue
  rw [Nat.min_eq_left hl]
  split_ifs with he
  · exact ⟨ho, fun j hj => (hu j hj).trans hk⟩
  · refine ⟨List.pairwise_append.2 ⟨ho, List.pairwise_singleton _ _, ?_⟩, ?_⟩
    · intro a ha b hb
      rw [List.mem_singleton.1 hb]
      have := hu a ha
      omega
    · intro j hj
      rcases List.mem_append.1 hj with hj | hj
      · exact (hu j hj).trans hk
      · rw [List.mem_singleton.1 hj]

lemma play (ts : List ℕ) : ∀ c : Control, Playing c → (c.run (ts.map .tick)).moved.Pairwise (· < ·) ∧
    (c.time + ts.sum < 5000 → (c.run (ts.map .tick)).anim = .running ∧
      (c.run (ts.map .tick)).value = c.last * (c.time + ts.sum) / 5000) ∧
    (5000 ≤ c.time + ts.sum → (c.run (ts.map .tick)).anim = .stopped ∧ (c.run (ts.map .tick)).value = c.last ∧
      (c.run (ts.map .tick)).startOn = true) := by
  induction ts with
  | nil =>
    intro c h
    have ht := h.time
    exact ⟨h.order, fun _ => ⟨h.anim, h.value⟩, fun hh => by simp at hh; omega⟩
  | cons t ts ih =>
    intro c h
    rw [List.map_cons, run_cons, List.sum_cons]
    rcases Nat.lt_or_ge (c.time + t) 5000 with ht | ht
    · rw [(tick_running h.anim t).1 ht]
      have hle : c.last * (c.time + t) / 5000 ≤ c.last := by
        rw [Nat.div_le_iff_le_mul_add_pred (by norm_num)]
        have := Nat.mul_le_mul_left c.last ht.le
        omega
      have hge : c.value ≤ c.last * (c.time + t) / 5000 := by
        rw [h.value]
        exact Nat.div_le_div_right (Nat.mul_le_mul_left _ (by omega))
      obtain ⟨o1, o2⟩ := order_setValue (c := { c with time := c.time + t }) h.order h.upto hge hle
      obtain ⟨e1, e2, -, -, -, e6, e7⟩ := setValue_fields { c with time := c.time + t } (c.last * (c.time + t) / 5000)
      have hv : (Control.setValue { c with time := c.time + t } (c.last * (c.time + t) / 5000)).value = c.last * (c.time + t) / 5000 := by
        rw [e7]; exact Nat.min_eq_left hle
      have hp : Playing (Control.setValue { c with time := c.time + t } (c.last * (c.time + t) / 5000)) :=
        ⟨e1.trans h.anim, by rw [e2]; exact ht, by rw [hv, e6, e2], o1, by rw [hv]; exact o2⟩
      obtain ⟨g1, g2, g3⟩ := ih _ hp
      rw [e2, e6] at g2 g3
      simp only [Nat.add_assoc] at g2 g3 ⊢
      exact ⟨g1, g2, g3⟩
    · rw [(tick_running h.anim t).2 ht]
      have hge : c.value ≤ c.last := by
        rw [h.value, Nat.div_le_iff_le_mul_add_pred (by norm_num)]
        have := Nat.mul_le_mul_left c.last h.time.le
        omega
      obtain ⟨o1, -⟩ := order_setValue (c := { c with time := 5000 }) h.order h.upto hge (le_refl c.last)
      obtain ⟨-, -, -, -, -, -, e7⟩ := setValue_fields { c with time := 5000 } c.last
      rw [stopped_ticks (by simp [Control.onFinished])]
      refine ⟨o1, fun hh => by omega, fun _ => ⟨rfl, ?_, rfl⟩⟩
      exact e7.trans (Nat.min_self _)

/-- **Start plays the stream from the first frame to the last**: however the time is cut into ticks, after `T` milliseconds of them the slider stands at frame
`⌊(N - 1) T / 5000⌋` of `N`; from 5000 milliseconds on it stands at the last frame, the animation has stopped, and Start can be pressed again.  The frames
shown on the way increase. -/
theorem plays {frames : ℕ} (h1 : frames < 2 ^ 31) (ts : List ℕ) :
    ∃ c, Control.new frames = .ok c ∧ (c.run (.start :: ts.map .tick)).moved.Pairwise (· < ·) ∧
      (ts.sum < 5000 → (c.run (.start :: ts.map .tick)).anim = .running ∧
        (c.run (.start :: ts.map .tick)).value = (frames - 1) * ts.sum / 5000) ∧
      (5000 ≤ ts.sum → (c.run (.start :: ts.map .tick)).anim = .stopped ∧ (c.run (.start :: ts.map .tick)).value = frames - 1 ∧
        (c.run (.start :: ts.map .tick)).startOn = true) := by
  refine ⟨_, new_ok h1, ?_⟩
  rw [run_cons]
  have hs : Control.step ⟨frames - 1, 0, .stopped, 0, true, false, false, []⟩ .start =
      ⟨frames - 1, 0, .running, 0, false, true, true, []⟩ := by
    simp [Control.step, Control.animStart, Control.setCurrentTime, Control.valueAt, Control.setValue, animDuration]
  rw [hs]
  have := play ts ⟨frames - 1, 0, .running, 0, false, true, true, []⟩ ⟨rfl, by norm_num, by simp, List.Pairwise.nil, by simp⟩
  simpa using this

/-- **Pausing loses nothing**: in any state reached with a running animation, Pause, any time, and Start lead back to that very state. -/
theorem pause_start {frames : ℕ} {c : Control} (hc : Control.new frames = .ok c) (l : List CtlEvent) (hr : (c.run l).anim = .running)
    (ts : List ℕ) : c.run (l ++ .pause :: (ts.map .tick ++ [.start])) = c.run l := by
  have hg := good_run (good_new hc) l
  rw [run_append]
  obtain ⟨d, hd⟩ : ∃ d, d = c.run l := ⟨_, rfl⟩
  rw [← hd] at hg hr ⊢
  have h1 := hg.start
  have h2 := hg.pause.2 hr
  have h3 := hg.stop.2 (by rw [hr]; simp)
  have h4 : d.startOn = false := by
    cases hb : d.startOn
    · rfl
    · exact absurd hr (h1.1 hb)
  have hp : d.step .pause = { d with anim := .paused, pauseOn := false, startOn := true } := by
    simp [Control.step, h2, Control.animPause, hr]
  rw [run_cons, hp, run_append, stopped_ticks (by simp)]
  cases d
  simp only at hr h2 h3 h4
  subst hr h2 h3 h4
  rfl

/-- **Start does not look at the slider** (a user expects playing to go on where the slider stands).  From the beginning, Start goes back to the first frame
wherever the slider was put; and after a pause it goes on at the frame of the pause: with `a` milliseconds before and `b ≥ 1` after it the slider stands
at frame `⌊(N - 1) (a + b) / 5000⌋`, wherever it was put in between. -/
theorem start_ignores_slider {frames : ℕ} (h1 : frames < 2 ^ 31) (k : ℕ) :
    ∃ c, Control.new frames = .ok c ∧ (c.run [.slide k, .start]).value = 0 ∧
      ∀ a b, a + b < 5000 → (c.run [.start, .tick a, .pause, .slide k, .start, .tick b]).value = (frames - 1) * (a + b) / 5000 := by
  refine ⟨_, new_ok h1, ?_, fun a b hab => ?_⟩
  · obtain ⟨d, hd⟩ : ∃ d, d = Control.setValue ⟨frames - 1, 0, .stopped, 0, true, false, false, []⟩ k := ⟨_, rfl⟩
    obtain ⟨e1, e2, e3, -⟩ := setValue_fields ⟨frames - 1, 0, .stopped, 0, true, false, false, []⟩ k
    rw [← hd] at e1 e2 e3
    show (Control.step (Control.setValue _ k) .start).value = 0
    rw [← hd]
    simp only [Control.step, e3, if_true, Control.animStart, e1]
    simp [Control.setCurrentTime, Control.valueAt, animDuration, (setValue_fields _ _).2.1, (setValue_fields _ _).2.2.2.2.2.2]
  · have hs : Control.step ⟨frames - 1, 0, .stopped, 0, true, false, false, []⟩ .start =
        ⟨frames - 1, 0, .running, 0, false, true, true, []⟩ := by
      simp [Control.step, Control.animStart, Control.setCurrentTime, Control.valueAt, Control.setValue, animDuration]
    rw [run_cons, hs, run_cons, (tick_running rfl a).1 (by simp; omega)]
    simp only [Nat.zero_add]
    obtain ⟨d, hd⟩ : ∃ d, d = Control.setValue ⟨frames - 1, 0, .running, a, false, true, true, []⟩ ((frames - 1) * a / 5000) := ⟨_, rfl⟩
    obtain ⟨e1, e2, e3, e4, e5, e6, -⟩ := setValue_fields ⟨frames - 1, 0, .running, a, false, true, true, []⟩ ((frames - 1) * a / 5000)
    rw [← hd] at e1 e2 e3 e4 e5 e6 ⊢
    have hp : d.step .pause = { d with anim := .paused, pauseOn := false, startOn := true } := by
      simp [Control.step, e4, Control.animPause, e1]
    rw [run_cons, hp, run_cons]
    obtain ⟨q, hq⟩ : ∃ q, q = Control.setValue { d with anim := .paused, pauseOn := false, startOn := true } k := ⟨_, rfl⟩
    obtain ⟨g1, g2, g3, g4, g5, g6, -⟩ := setValue_fields { d with anim := .paused, pauseOn := false, startOn := true } k
    rw [← hq] at g1 g2 g3 g4 g5 g6
    show Control.value (Control.run (Control.setValue _ k) _) = _
    rw [← hq, run_cons]
    have hst : q.step .start = { q with anim := .running, startOn := false, stopOn := true, pauseOn := true } := by
      simp [Control.step, g3, Control.animStart, g1]
    rw [hst, show ∀ x : Control, x.run [.tick b] = x.step (.tick b) from fun _ => rfl]
    have ht : q.time = a := g2.trans e2
    have hl : q.last = frames - 1 := g6.trans e6
    rw [(tick_running rfl b).1 (by simp only [ht]; exact hab), (setValue_fields _ _).2.2.2.2.2.2]
    simp only [ht, hl]
    refine Nat.min_eq_left ?_
    rw [Nat.div_le_iff_le_mul_add_pred (by norm_num)]
    have := Nat.mul_le_mul_left (frames - 1) hab.le
    omega

/-! ### What the player shows -/

section
variable {S C V I : Type} [Raw S] [Raw C] [Zero S] [Zero C]
variable {T : TextOps S} {rnd : S → S} {fs : Files} {base : FName} {h : Snap S C} {n b : ℕ}
  {ds : List (Snap S C)} {locs : List (ℕ × ℕ)}

/-- The events of the slider the player gets. -/
def sliderEvents (ks : List ℕ) : List UserEvent := ks.map fun k => .ui (.set k)

omit [Zero S] [Zero C] in
lemma update_slider {fs : Files} {p q : Player S C V} (hq : p.update fs = .ok q) : q.slider = p.slider := by
  unfold Player.update at hq
  dsimp only at hq
  split_ifs at hq
  · cases hq; rfl
  · split at hq
    · cases hq
    · cases hq; rfl

lemma session_slider (hr : Readable T rnd fs base h n b ds locs) (paint : V → Snap S C → V × Option I) (ks : List ℕ) :
    ∀ {p : Player S C V} {seen : Bool}, State rnd fs base h n ds locs seen p → (∀ k ∈ ks, k < ds.length) →
    ∀ outs p', Player.session paint fs (sliderEvents ks) p = .ok (outs, p') → p'.slider = ks.getLastD p.slider := by
  induction ks with
  | nil => intro p seen _ _ outs p' hs; cases hs; rfl
  | cons k ks ih =>
    intro p seen hp hk outs p' hs
    obtain ⟨q, h1, h2⟩ := ui_ok hr paint hp (.set k)
    have hq : q.slider = k := by
      obtain ⟨c, hi, -⟩ := hp
      have hb : p.bound k = k := by
        unfold Player.bound
        rw [frames_count hr hi.pos]
        have := hk k (by simp)
        omega
      simp only [Player.ui, hb] at h1
      split_ifs at h1 with he
      · cases h1; exact he.symm
      · exact update_slider h1
    simp only [sliderEvents, List.map_cons, Player.session, h1] at hs
    have := ih h2 (fun j hj => hk j (by simp [hj])) outs p' hs
    rw [this, hq, List.getLastD_cons]

/-- **After any use of the buttons the player shows the frame the slider stands at**, provided the slider has moved at all; if it has not - right after
opening, and after Start until the animation reaches the second frame - it shows bodies at the origin. -/
theorem player_shows_partial (hr : Readable T rnd fs base h n b ds locs) (paint : V → Snap S C → V × Option I) (v : V)
    (hN : ds.length < 2 ^ 31) (l : List CtlEvent) :
    ∃ c r outs p', Control.new ds.length = .ok c ∧ Reader.new.load T fs base = (true, r) ∧
      Player.session paint fs (sliderEvents (c.run l).moved) (Player.start r v : Player S C V) = .ok (outs, p') ∧
      p'.slider = (c.run l).value ∧
      ((c.run l).moved ≠ [] → ∃ x, ds[(c.run l).value]? = some x ∧ p'.data = shown rnd h x n) ∧
      ((c.run l).moved = [] → p'.data = blankData n) := by
  have hpos : 0 < ds.length := List.length_pos_iff.2 hr.frames
  have hc := new_ok hN
  obtain ⟨c, hcc⟩ : ∃ c : Control, c = ⟨ds.length - 1, 0, .stopped, 0, true, false, false, []⟩ := ⟨_, rfl⟩
  rw [← hcc] at hc
  have hlast : (c.run l).last = ds.length - 1 := by rw [run_last, hcc]
  have hg := good_run (good_new hc) l
  have hmoves : ∀ k ∈ (c.run l).moved, k < ds.length := by
    intro k hk
    have := hg.moves k hk
    omega
  obtain ⟨r, h1, h2⟩ := start_state (V := V) hr v
  obtain ⟨outs, p', s', g1, ⟨_, _, _, _, _, g2⟩, g3, _⟩ := session_ok hr paint (sliderEvents (c.run l).moved) h2
  have hsl : p'.slider = (c.run l).value := by
    rw [session_slider hr paint _ h2 hmoves outs p' g1, ← hg.moved]
    rfl
  refine ⟨c, r, outs, p', hc, h1, g1, hsl, fun hm => ?_, fun hm => ?_⟩
  · obtain ⟨k, hk, hk1⟩ := hg.any.resolve_left hm
    have ht : Touched ds.length (sliderEvents (c.run l).moved) := by
      right
      refine ⟨?_, k, hk1, Or.inl (List.mem_map.2 ⟨k, hk, rfl⟩)⟩
      have := hmoves k hk
      omega
    rw [g3.2 (Or.inr ht), if_pos rfl] at g2
    obtain ⟨x, k1, k2⟩ := g2
    rw [hsl] at k1
    exact ⟨x, k1, k2⟩
  · have hs : s' = false := by
      cases hs : s' with
      | false => rfl
      | true =>
        rcases g3.1 hs with hq | hq
        · cases hq
        · rw [hm] at hq
          rcases hq with ⟨s, hq⟩ | ⟨_, k, _, hq | hq⟩ <;> simp [sliderEvents] at hq
    rw [hs] at g2
    exact g2.2

end

lemma still (ts : List ℕ) : ∀ c : Control, c.anim = .running → c.value = 0 → c.last * (c.time + ts.sum) < 5000 → c.time + ts.sum < 5000 →
    (c.run (ts.map .tick)).moved = c.moved := by
  induction ts with
  | nil => intros; rfl
  | cons t ts ih =>
    intro c ha hv hl ht
    rw [List.sum_cons] at hl ht
    rw [List.map_cons, run_cons, (tick_running ha t).1 (by omega)]
    have h0 : c.last * (c.time + t) / 5000 = 0 :=
      Nat.div_eq_of_lt ((Nat.mul_le_mul_left _ (by omega)).trans_lt hl)
    rw [h0]
    have hs : Control.setValue { c with time := c.time + t } 0 = { c with time := c.time + t } := by
      unfold Control.setValue
      rw [if_pos (by simp [hv])]
    rw [hs]
    exact ih _ ha hv (by simpa only [Nat.add_assoc] using hl) (by simpa only [Nat.add_assoc] using ht)

/-- **The first frame is not shown when the stream is played from the beginning**: the slider stands at 0 already, so it gives no signal; until the animation
reaches the second frame the player is told nothing, and by `player_shows_partial` it shows bodies at the origin. -/
theorem first_frame_not_played {frames : ℕ} (h1 : frames < 2 ^ 31) (ts : List ℕ) (ht : (frames - 1) * ts.sum < 5000) (hs : ts.sum < 5000) :
    ∃ c, Control.new frames = .ok c ∧ (c.run (.start :: ts.map .tick)).moved = [] := by
  refine ⟨_, new_ok h1, ?_⟩
  rw [run_cons]
  have hs' : Control.step ⟨frames - 1, 0, .stopped, 0, true, false, false, []⟩ .start =
      ⟨frames - 1, 0, .running, 0, false, true, true, []⟩ := by
    simp [Control.step, Control.animStart, Control.setCurrentTime, Control.valueAt, Control.setValue, animDuration]
  rw [hs', still ts _ rfl rfl (by simpa using ht) (by simpa using hs)]

/-- The hypotheses are met by a stream of 11 frames in the first half second. -/
example : (11 - 1) * [16, 16, 450].sum < 5000 ∧ [16, 16, 450].sum < 5000 := by decide

/-- The hypotheses are met and the conclusions are not empty: 11 frames, Start, one second, Pause, the slider put to frame 9, Start, one second. -/
example : ∃ c, Control.new 11 = .ok c ∧
    (c.run [.start, .tick 1000, .pause, .slide 9, .start, .tick 1000]).moved = [2, 9, 4] ∧
    (c.run [.start, .tick 1000, .tick 4000]).moved = [2, 10] ∧
    (c.run [.start, .tick 1000, .forward]).anim = .stopped ∧ (c.run [.start, .tick 1000, .forward, .slide 3, .start]).moved = [2, 10, 3, 0] :=
  ⟨_, rfl, by decide +kernel⟩

open StreamExample in
/-- The theorem about the player applies to a stream of three frames that was written. -/
example : let o := Writer.new.open ['s'] 100 none ⟨fun _ => none, fun _ => none⟩
    ∃ w' fs' c r outs p', o.2.writeAll text [snap 0 0 11, snap 5 50 12, snap 10 100 13]
        (applyOps o.1 ⟨fun _ => none, fun _ => none⟩) = some (w', fs') ∧
      Control.new 3 = .ok c ∧ Reader.new.load text fs' ['s'] = (true, r) ∧
      Player.session (fun (v : ℕ) d => (v + 1, some d.vrt)) fs' (sliderEvents (c.run [.start, .tick 3000, .pause]).moved)
        (Player.start r 0 : Player UInt64 UInt8 ℕ) = .ok (outs, p') ∧ p'.slider = 1 := by
  intro o
  obtain ⟨w', fs', locs, h1, h2⟩ := written_readable text_good ['s'] 100 ⟨fun _ => none, fun _ => none⟩
    (snap 0 0 11) [snap 5 50 12, snap 10 100 13] (n := 2) (by decide) (by decide) (by decide)
    (fun x hx => by
      simp only [List.mem_cons, List.not_mem_nil, or_false] at hx
      rcases hx with rfl | rfl | rfl <;> exact snap_fits _ _ _ (by decide))
    (box_good 0 0 11) ⟨by decide, by decide⟩
  obtain ⟨c, r, outs, p', g1, g2, g3, g4, -⟩ := player_shows_partial h2 (fun (v : ℕ) d => (v + 1, some d.vrt)) 0 (by decide)
    [.start, .tick 3000, .pause]
  refine ⟨w', fs', c, r, outs, p', h1, g1, g2, g3, ?_⟩
  have : c = ⟨2, 0, .stopped, 0, true, false, false, []⟩ := by
    have := new_ok (frames := 3) (by decide)
    exact Except.ok.inj (g1.symm.trans this)
  subst this
  exact g4.trans (by decide +kernel)

end NB.C89
