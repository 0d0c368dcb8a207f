import Verif.Model.PlayerStream
import Verif.Props.C41_StreamReader

/-
C75: what the player shows and records.
-/

namespace NB.C75

open StreamSpec C41

set_option linter.unusedSectionVars false

section
variable {S C V I : Type} [Raw S] [Raw C] [Zero S] [Zero C]

/-- What is to be seen of frame `d` of a stream with masses and colours of `h`. -/
def shown (rnd : S → S) (h d : Snap S C) (n : ℕ) : Snap S C :=
  ⟨n, d.vrt, d.vel, h.mass, h.color, rnd d.time, d.step, 0⟩

/-- The user has done something that makes the player read a frame: recorded, or moved the slider away from 0. -/
def Touched (N : ℕ) (es : List UserEvent) : Prop :=
  (∃ s, UserEvent.record s ∈ es) ∨
    2 ≤ N ∧ ∃ k, 1 ≤ k ∧ (UserEvent.ui (.set k) ∈ es ∨ UserEvent.ui (.drag k) ∈ es)

variable {T : TextOps S} {rnd : S → S} {fs : Files} {base : FName} {h : Snap S C} {n b : ℕ}
  {ds : List (Snap S C)} {locs : List (ℕ × ℕ)}

/-- The state of the player between two events; `seen` tells whether a frame has been read. -/
structure Inv (rnd : S → S) (fs : Files) (base : FName) (h : Snap S C) (n : ℕ) (ds : List (Snap S C))
    (locs : List (ℕ × ℕ)) (r : Reader S) (d : Snap S C) (c : Cursor) : Prop where
  pos : At rnd fs base n ds locs r c
  count : d.count = n
  box : d.box = 0
  vrt : d.vrt.length = n
  vel : d.vel.length = n
  given : c.first = false → d.mass = h.mass ∧ d.color = h.color
  spent : c.spent = true → ∃ x, ds[ds.length - 1]? = some x ∧ d = shown rnd h x n ∧ c.first = false

/-- Going to a frame and reading it: the data object has that frame afterwards; the call reports failure only
when the last frame is read again. -/
lemma go (hr : Readable T rnd fs base h n b ds locs) {r : Reader S} {d : Snap S C} {c : Cursor}
    (hi : Inv rnd fs base h n ds locs r d c) {k : ℕ} {x : Snap S C} (hk : ds[k]? = some x) :
    ∃ r' c', (r.seek fs k).1 = true ∧
      (r.seek fs k).2.readInto fs d = .ok (!(c.spent && k == ds.length - 1), shown rnd h x n, r') ∧
      Inv rnd fs base h n ds locs r' (shown rnd h x n) c' ∧ c'.first = false ∧
      (c'.spent = true ↔ k = ds.length - 1) := by
  have hlt : k < ds.length := (List.getElem?_eq_some_iff.1 hk).1
  have hx : Fits n x := hr.fits x (List.mem_of_getElem? hk)
  obtain ⟨s1, s2⟩ := at_seek (n := n) hr.holds hi.pos k
  set r1 := (r.seek fs k).2 with hr1
  have hok : (r.seek fs k).1 = true := by
    cases hs : (r.seek fs k).1 with
    | true => rfl
    | false =>
      rw [hs] at s1
      exfalso
      have : (answer rnd h n ds c (.seek k)).1 = (.done : Answer S C) := by
        unfold answer
        simp only
        by_cases he : k = c.frame
        · rw [if_pos he]
        · rw [if_neg he, if_pos hlt]
      rw [this] at s1
      cases s1
  by_cases hsp : c.spent = true ∧ k = ds.length - 1
  · obtain ⟨h1, h2⟩ := hsp
    obtain ⟨y, hy, hd, hf⟩ := hi.spent h1
    have hlast := hi.pos.last h1
    have hcf : k = c.frame := by omega
    have : y = x := by rw [← h2, hk] at hy; exact (Option.some.inj hy).symm
    subst this
    have ha : answer rnd h n ds c (.seek k) = (.done, c) := by
      unfold answer
      simp only
      rw [if_pos hcf]
    rw [ha] at s2
    obtain ⟨r', e1, e2⟩ := at_read hr.holds hr.fits hr.head hr.pos (fun _ => hr.last) s2 n
    have ha2 : answer rnd h n ds c (.read n) = (.failed, c) := by
      unfold answer
      simp [h1]
    rw [ha2] at e1 e2
    have hread : r1.read C fs n = .ok (none, r') := by
      unfold readerCall at e1
      simp only at e1
      cases hq : r1.read C fs n with
      | error e => rw [hq] at e1; cases e1
      | ok q =>
        obtain ⟨o, q⟩ := q
        rw [hq] at e1
        cases o with
        | none => simp only [Except.ok.injEq, Prod.mk.injEq] at e1; rw [e1.2]
        | some o => simp at e1
    refine ⟨r', c, hok, ?_, ⟨e2, rfl, rfl, hx.vrt, hx.vel, fun _ => ⟨rfl, rfl⟩, fun _ => ⟨y, hy, rfl, hf⟩⟩, hf,
      iff_of_true h1 h2⟩
    unfold Reader.readInto
    rw [hi.count, hread]
    suffices hsr : r1.shortRead fs d = shown rnd h y n by
      simp only [h1, h2, beq_self_eq_true, Bool.and_self, Bool.not_true, hsr]
    -- nothing is there to be read
    obtain ⟨d', l, g1, g2, g3, g4, g5⟩ := holds_at (rnd := rnd) hr.holds hlt
    have hfile := s2.pos l (by rw [← hcf]; exact g2)
    rw [h1, if_pos rfl] at hfile
    have l1 : ds.getLast? = some y := by rw [List.getLast?_eq_getElem?, ← h2, hk]
    have l2 : locs.getLast? = some l := by rw [List.getLast?_eq_getElem?, hr.holds.len, ← h2, g2]
    obtain ⟨p', hp1, hp2⟩ := hr.last y l l1 l2
    have hre : fileRead fs (datName base l.1) (l.2 + frameSize S n) (3 * Raw.size S * n) = [] := by
      apply fileRead_end hp1
      rw [List.length_append, hp2, frameBytes_length hx]
    have hsz : 0 < 3 * Raw.size S * n := Nat.mul_pos (Nat.mul_pos (by decide) Raw.size_pos) hr.pos
    unfold Reader.shortRead
    rw [hi.count, s2.count, if_neg (by simp), hfile]
    simp only
    rw [hre, if_pos (by simp only [List.length_nil]; omega)]
    have e : overlay n [] d.vrt = d.vrt := by
      unfold overlay
      simp only [List.length_nil, List.drop_zero, List.nil_append]
      exact decVecs_encVecs' _ hi.vrt
    rw [e, ← hd]
    exact hi.count ▸ rfl
  · -- the frame is read
    obtain ⟨c1, hc1, hfr, hns, hfirst⟩ : ∃ c1, (answer rnd h n ds c (.seek k)).2 = c1 ∧ c1.frame = k ∧
        c1.spent = false ∧ c1.first = c.first := by
      refine ⟨_, rfl, ?_⟩
      unfold answer
      simp only
      by_cases he : k = c.frame
      · rw [if_pos he]
        refine ⟨he.symm, ?_, rfl⟩
        cases hs : c.spent with
        | false => rfl
        | true =>
          exfalso
          have := hi.pos.last hs
          exact hsp ⟨hs, by omega⟩
      · rw [if_neg he, if_pos hlt]
        exact ⟨rfl, rfl, rfl⟩
    rw [hc1] at s2
    obtain ⟨r', e1, e2⟩ := at_read hr.holds hr.fits hr.head hr.pos (fun _ => hr.last) s2 n
    have ha2 : answer rnd h n ds c1 (.read n) = (.data (content rnd h x c1.first),
        if k + 1 < ds.length then ⟨k + 1, false, false⟩ else ⟨k, true, false⟩) := by
      unfold answer
      simp [hns, hfr, hk]
    rw [ha2] at e1 e2
    have hread : r1.read C fs n = .ok (some (content rnd h x c1.first), r') := by
      unfold readerCall at e1
      simp only at e1
      cases hq : r1.read C fs n with
      | error e => rw [hq] at e1; cases e1
      | ok q =>
        obtain ⟨o, q⟩ := q
        rw [hq] at e1
        cases o with
        | none => simp at e1
        | some o =>
          simp only [Except.ok.injEq, Prod.mk.injEq, Answer.data.injEq] at e1
          rw [e1.1, e1.2]
    refine ⟨r', _, hok, ?_, ⟨e2, rfl, rfl, hx.vrt, hx.vel, fun _ => ⟨rfl, rfl⟩, ?_⟩, ?_, ?_⟩
    · unfold Reader.readInto
      rw [hi.count, hread]
      have hb : (c.spent && k == ds.length - 1) = false := by
        cases hs : c.spent with
        | false => rfl
        | true =>
          have : k ≠ ds.length - 1 := fun hh => hsp ⟨hs, hh⟩
          simp [this]
      rw [hb]
      simp only [Bool.not_false, content, shown]
      congr 2
      rw [hfirst]
      cases hf : c.first with
      | true => simp [hi.box]
      | false =>
        obtain ⟨g1, g2⟩ := hi.given hf
        simp [hi.box, g1, g2]
    · intro hs
      refine ⟨x, ?_, rfl, ?_⟩
      · by_cases hh : k + 1 < ds.length
        · rw [if_pos hh] at hs; cases hs
        · rw [show ds.length - 1 = k by omega]; exact hk
      · split <;> rfl
    · split <;> rfl
    · by_cases hh : k + 1 < ds.length
      · rw [if_pos hh]
        exact iff_of_false (by simp) (by omega)
      · rw [if_neg hh]
        exact iff_of_true rfl (by omega)

/-- The player between two events: it has read nothing and stands at 0, or it shows the slider's frame. -/
def State (rnd : S → S) (fs : Files) (base : FName) (h : Snap S C) (n : ℕ) (ds : List (Snap S C))
    (locs : List (ℕ × ℕ)) (seen : Bool) (p : Player S C V) : Prop :=
  ∃ c, Inv rnd fs base h n ds locs p.reader p.data c ∧ p.slider < ds.length ∧ c.first = !seen ∧
    (seen = true → ds.length = 1 → c.spent = true) ∧
    if seen then ∃ x, ds[p.slider]? = some x ∧ p.data = shown rnd h x n
    else p.slider = 0 ∧ p.data = blankData n

lemma frames_count (hr : Readable T rnd fs base h n b ds locs) {r : Reader S} {c : Cursor}
    (ha : At rnd fs base n ds locs r c) : r.frameCount = ds.length := by
  unfold Reader.frameCount
  rw [ha.frames, zipWith_length hr.holds]

/-- `on_update_data` from any state. -/
lemma update_ok (hr : Readable T rnd fs base h n b ds locs) {p : Player S C V} {c : Cursor}
    (hi : Inv rnd fs base h n ds locs p.reader p.data c) (hs : p.slider < ds.length) :
    ∃ r' x, ds[p.slider]? = some x ∧ p.update fs = .ok { p with data := shown rnd h x n, reader := r' } ∧
      State rnd fs base h n ds locs true { p with data := shown rnd h x n, reader := r' } := by
  obtain ⟨x, hx⟩ : ∃ x, ds[p.slider]? = some x := ⟨_, List.getElem?_eq_getElem hs⟩
  obtain ⟨r', c', h1, h2, h3, h4, h5⟩ := go hr hi hx
  refine ⟨r', x, hx, ?_, c', h3, hs, by rw [h4]; rfl, fun _ hone => h5.2 (by omega), ?_⟩
  · unfold Player.update
    simp only [h1, Bool.true_eq_false, if_false]
    rw [h2]
  · simp only [if_true]
    exact ⟨x, hx, rfl⟩

/-- Whether an event moves the slider. -/
def Moves (N : ℕ) (p : Player S C V) : UiEvent → Bool
  | .set k => min k (N - 1) != p.slider
  | .drag k => min k (N - 1) != p.slider
  | .repaint => false

lemma ui_ok (hr : Readable T rnd fs base h n b ds locs) (paint : V → Snap S C → V × Option I) {p : Player S C V}
    {seen : Bool} (hp : State rnd fs base h n ds locs seen p) (e : UiEvent) :
    ∃ p', p.ui paint fs e = .ok p' ∧ State rnd fs base h n ds locs (seen || Moves ds.length p e) p' := by
  obtain ⟨c, hi, hs, hf, hone, hd⟩ := hp
  have hN : 0 < ds.length := List.length_pos_iff.2 hr.frames
  have hb : ∀ k, p.bound k = min k (ds.length - 1) := fun k => by
    unfold Player.bound; rw [frames_count hr hi.pos]
  cases e with
  | repaint =>
    refine ⟨_, rfl, c, hi, hs, ?_⟩
    simp only [Moves, Bool.or_false]
    exact ⟨hf, hone, hd⟩
  | set k =>
    by_cases he : min k (ds.length - 1) = p.slider
    · refine ⟨p, by simp only [Player.ui, hb, he, if_true], c, hi, hs, ?_⟩
      have : Moves ds.length p (.set k) = false := by simp [Moves, he]
      rw [this, Bool.or_false]
      exact ⟨hf, hone, hd⟩
    · obtain ⟨r', x, h1, h2, h3⟩ := update_ok hr (p := { p with slider := min k (ds.length - 1) }) hi
        (show min k (ds.length - 1) < ds.length by omega)
      refine ⟨_, by simp only [Player.ui, hb, if_neg he]; exact h2, ?_⟩
      have : Moves ds.length p (.set k) = true := by simp [Moves, he]
      rw [this, Bool.or_true]
      exact h3
  | drag k =>
    by_cases he : min k (ds.length - 1) = p.slider
    · refine ⟨p, by simp only [Player.ui, hb, he, if_true], c, hi, hs, ?_⟩
      have : Moves ds.length p (.drag k) = false := by simp [Moves, he]
      rw [this, Bool.or_false]
      exact ⟨hf, hone, hd⟩
    · obtain ⟨r1, x1, g1, g2, c1, g3, _⟩ := update_ok hr hi hs
      obtain ⟨r', x, h1, h2, h3⟩ := update_ok hr
        (p := { p with data := shown rnd h x1 n, reader := r1, slider := min k (ds.length - 1) }) g3
        (show min k (ds.length - 1) < ds.length by omega)
      refine ⟨_, by simp only [Player.ui, hb, if_neg he, g2]; exact h2, ?_⟩
      have : Moves ds.length p (.drag k) = true := by simp [Moves, he]
      rw [this, Bool.or_true]
      exact h3

/-- In the recording loop the player may show another frame than the slider's. -/
def Within (rnd : S → S) (fs : Files) (base : FName) (h : Snap S C) (n : ℕ) (ds : List (Snap S C))
    (locs : List (ℕ × ℕ)) (p : Player S C V) (c : Cursor) : Prop :=
  Inv rnd fs base h n ds locs p.reader p.data c ∧ p.slider < ds.length

lemma ui_within (hr : Readable T rnd fs base h n b ds locs) (paint : V → Snap S C → V × Option I)
    {p : Player S C V} {c : Cursor} (hp : Within rnd fs base h n ds locs p c) (e : UiEvent) :
    ∃ p' c', p.ui paint fs e = .ok p' ∧ Within rnd fs base h n ds locs p' c' ∧
      (e = .repaint → p'.reader = p.reader ∧ c' = c) ∧ (c.first = false → c'.first = false) := by
  obtain ⟨hi, hs⟩ := hp
  have hb : ∀ k, p.bound k = min k (ds.length - 1) := fun k => by
    unfold Player.bound; rw [frames_count hr hi.pos]
  cases e with
  | repaint => exact ⟨_, c, rfl, ⟨hi, hs⟩, fun _ => ⟨rfl, rfl⟩, id⟩
  | set k =>
    by_cases he : min k (ds.length - 1) = p.slider
    · exact ⟨p, c, by simp only [Player.ui, hb, he, if_true], ⟨hi, hs⟩, fun hh => UiEvent.noConfusion hh, id⟩
    · obtain ⟨r', x, h1, h2, c', h3, h4, h5, _⟩ := update_ok hr (p := { p with slider := min k (ds.length - 1) }) hi
        (show min k (ds.length - 1) < ds.length by omega)
      exact ⟨_, c', by simp only [Player.ui, hb, if_neg he]; exact h2, ⟨h3, h4⟩, fun hh => UiEvent.noConfusion hh,
        fun _ => h5⟩
  | drag k =>
    by_cases he : min k (ds.length - 1) = p.slider
    · exact ⟨p, c, by simp only [Player.ui, hb, he, if_true], ⟨hi, hs⟩, fun hh => UiEvent.noConfusion hh, id⟩
    · obtain ⟨r1, x1, g1, g2, c1, g3, _⟩ := update_ok hr hi hs
      obtain ⟨r', x, h1, h2, c', h3, h4, h5, _⟩ := update_ok hr
        (p := { p with data := shown rnd h x1 n, reader := r1, slider := min k (ds.length - 1) }) g3
        (show min k (ds.length - 1) < ds.length by omega)
      exact ⟨_, c', by simp only [Player.ui, hb, if_neg he, g2]; exact h2, ⟨h3, h4⟩, fun hh => UiEvent.noConfusion hh,
        fun _ => h5⟩

lemma uis_within (hr : Readable T rnd fs base h n b ds locs) (paint : V → Snap S C → V × Option I)
    (es : List UiEvent) : ∀ {p : Player S C V} {c : Cursor}, Within rnd fs base h n ds locs p c →
    ∃ p' c', Player.uis paint fs es p = .ok p' ∧ Within rnd fs base h n ds locs p' c' ∧
      ((∀ e ∈ es, e = .repaint) → p'.reader = p.reader ∧ c' = c) ∧ (c.first = false → c'.first = false) := by
  induction es with
  | nil => intro p c hp; exact ⟨p, c, rfl, hp, fun _ => ⟨rfl, rfl⟩, id⟩
  | cons e es ih =>
    intro p c hp
    obtain ⟨p1, c1, h1, h2, h3, h4⟩ := ui_within hr paint hp e
    obtain ⟨p2, c2, g1, g2, g3, g4⟩ := ih h2
    refine ⟨p2, c2, by rw [Player.uis, h1]; exact g1, g2, ?_, fun hh => g4 (h4 hh)⟩
    intro hall
    obtain ⟨a1, a2⟩ := h3 (hall e (by simp))
    obtain ⟨b1, b2⟩ := g3 (fun x hx => hall x (by simp [hx]))
    exact ⟨b1.trans a1, b2.trans a2⟩

/-- The images of the frames `k, k+1, …` of a recording. -/
def Images (paint : V → Snap S C → V × Option I) (rnd : S → S) (h : Snap S C) (n : ℕ) (ds : List (Snap S C)) (k : ℕ)
    (out : List (ℕ × I)) : Prop :=
  k + out.length ≤ ds.length ∧
  ∀ (i m : ℕ) (img : I), out[i]? = some (m, img) →
    m = k + i ∧ ∃ x v, ds[k + i]? = some x ∧ (paint v (shown rnd h x n)).2 = some img

lemma images_nil (paint : V → Snap S C → V × Option I) {k : ℕ} (hk : k ≤ ds.length) :
    Images paint rnd h n ds k [] := ⟨by simpa using hk, fun i m img hh => by simp at hh⟩

lemma images_cons (paint : V → Snap S C → V × Option I) {k : ℕ} {img : I} {out : List (ℕ × I)} {x : Snap S C} {v : V}
    (hx : ds[k]? = some x) (hi : (paint v (shown rnd h x n)).2 = some img)
    (ho : Images paint rnd h n ds (k + 1) out) : Images paint rnd h n ds k ((k, img) :: out) := by
  refine ⟨by have := ho.1; simp only [List.length_cons]; omega, fun i m im hh => ?_⟩
  cases i with
  | zero =>
    simp only [List.getElem?_cons_zero, Option.some.injEq, Prod.mk.injEq] at hh
    obtain ⟨rfl, rfl⟩ := hh
    exact ⟨rfl, x, v, hx, hi⟩
  | succ i =>
    obtain ⟨q1, q2⟩ := ho.2 i m im (by simpa using hh)
    rw [show k + 1 + i = k + (i + 1) by omega] at q1 q2
    exact ⟨q1, q2⟩

/-- The recording is not disturbed: nobody cancels, every frame can be painted, and the slider is left alone when
the last frame is about to be read. -/
def Calm (paint : V → Snap S C → V × Option I) (N : ℕ) (script : ℕ → Bool × List UiEvent) : Prop :=
  (∀ k, (script k).1 = false) ∧ (∀ v d, (paint v d).2 ≠ none) ∧ ∀ k, k + 2 = N → ∀ e ∈ (script k).2, e = .repaint

lemma loop_ok (hr : Readable T rnd fs base h n b ds locs) (paint : V → Snap S C → V × Option I)
    (script : ℕ → Bool × List UiEvent) (m : ℕ) : ∀ {k : ℕ} {p : Player S C V} {c : Cursor}, k + m = ds.length →
    Within rnd fs base h n ds locs p c →
    ∃ out p' c', Player.recordLoop paint fs script (List.range' k m) p = .ok (out, p') ∧
      Within rnd fs base h n ds locs p' c' ∧ Images paint rnd h n ds k out ∧
      (Calm paint ds.length script → (k + 1 = ds.length → c.spent = false) → out.length = m) ∧
      (0 < m → (c.spent = true ∧ k + 1 = ds.length) → out = []) := by
  induction m with
  | zero =>
    intro k p c hk hp
    exact ⟨[], p, c, rfl, hp, images_nil paint (by omega), fun _ _ => rfl, fun hh => by omega⟩
  | succ m ih =>
    intro k p c hk hp
    obtain ⟨hi, hs⟩ := hp
    obtain ⟨x, hx⟩ : ∃ x, ds[k]? = some x := ⟨_, List.getElem?_eq_getElem (show k < ds.length by omega)⟩
    obtain ⟨r', c', h1, h2, h3, h4, h5⟩ := go hr hi hx
    rw [List.range'_succ, Player.recordLoop]
    simp only [h1, Bool.true_eq_false, if_false]
    rw [h2]
    by_cases hbad : c.spent = true ∧ k = ds.length - 1
    · simp only [hbad.1, hbad.2, beq_self_eq_true, Bool.and_self, Bool.not_true]
      refine ⟨[], _, c', rfl, ⟨h3, hs⟩, images_nil paint (by omega), fun _ hh => ?_, fun _ _ => rfl⟩
      exact absurd (hh (by omega)) (by simp)
    · have hb : (c.spent && k == ds.length - 1) = false := by
        cases hs : c.spent with
        | false => rfl
        | true =>
          have : k ≠ ds.length - 1 := fun hh => hbad ⟨hs, hh⟩
          simp [this]
      rw [hb]
      simp only [Bool.not_false]
      have hdead : (0 < m + 1 → (c.spent = true ∧ k + 1 = ds.length) → ∀ out : List (ℕ × I), out = []) :=
        fun _ hh => absurd ⟨hh.1, by omega⟩ hbad
      rcases hpaint : paint p.view (shown rnd h x n) with ⟨v, _ | img⟩
      · refine ⟨[], _, c', rfl, ⟨h3, hs⟩, images_nil paint (by omega), fun hc _ => ?_, fun _ _ => rfl⟩
        exact absurd (by rw [hpaint]) (hc.2.1 p.view (shown rnd h x n))
      · simp only
        have him : (paint p.view (shown rnd h x n)).2 = some img := by rw [hpaint]
        by_cases hcan : (script k).1 = true
        · rw [if_pos hcan]
          refine ⟨_, _, c', rfl, ⟨h3, hs⟩, images_cons paint hx him (images_nil paint (by omega)), fun hc _ => ?_,
            fun hm hh => hdead hm hh _⟩
          rw [hc.1 k] at hcan
          cases hcan
        · rw [if_neg hcan]
          obtain ⟨p1, c1, g1, g2, g3, g4⟩ := uis_within hr paint (script k).2
            (p := { p with data := shown rnd h x n, reader := r', view := v }) (c := c') ⟨h3, hs⟩
          rw [g1]
          simp only
          obtain ⟨out, p2, c2, e1, e2, e3, e4, _⟩ := ih (k := k + 1) (by omega) g2
          rw [e1]
          refine ⟨_, _, c2, rfl, e2, images_cons paint hx him e3, fun hc _ => ?_, fun hm hh => hdead hm hh _⟩
          rw [List.length_cons, e4 hc ?_]
          intro hlast
          rw [(g3 (hc.2.2 k (by omega))).2]
          cases hcs : c'.spent with
          | false => rfl
          | true => have := h5.1 hcs; omega

/-- A recording from any state. -/
lemma record_ok (hr : Readable T rnd fs base h n b ds locs) (paint : V → Snap S C → V × Option I)
    (script : ℕ → Bool × List UiEvent) {p : Player S C V} {seen : Bool}
    (hp : State rnd fs base h n ds locs seen p) :
    ∃ out p', p.record paint fs script = .ok (out, p') ∧ State rnd fs base h n ds locs true p' ∧
      Images paint rnd h n ds 0 out ∧
      (Calm paint ds.length script → 2 ≤ ds.length ∨ seen = false → out.length = ds.length) ∧
      (ds.length = 1 → seen = true → out = []) := by
  obtain ⟨c, hi, hs, hf, hone, hd⟩ := hp
  have hN : 0 < ds.length := List.length_pos_iff.2 hr.frames
  obtain ⟨out, p1, c1, h1, h2, h3, h4, h5⟩ := loop_ok hr paint script ds.length (k := 0) (by omega) ⟨hi, hs⟩
  obtain ⟨r', x, g1, g2, g3⟩ := update_ok hr h2.1 h2.2
  refine ⟨out, _, ?_, g3, h3, fun hc hh => h4 hc fun hlast => ?_, fun h1' hseen => h5 hN ⟨hone hseen h1', by omega⟩⟩
  · unfold Player.record
    rw [frames_count hr hi.pos, List.range_eq_range', h1]
    simp only
    rw [g2]
  · rcases hh with hh | hh
    · omega
    · cases hcs : c.spent with
      | false => rfl
      | true =>
        obtain ⟨_, _, _, h0⟩ := hi.spent hcs
        rw [hf, hh] at h0
        cases h0

lemma touched_cons (N : ℕ) (e : UserEvent) (es : List UserEvent) :
    Touched N (e :: es) ↔ Touched N [e] ∨ Touched N es := by
  unfold Touched
  simp only [List.mem_cons, List.not_mem_nil, or_false]
  constructor
  · rintro (⟨s, h | h⟩ | ⟨h0, k, hk, (h | h) | (h | h)⟩)
    · exact Or.inl (Or.inl ⟨s, h⟩)
    · exact Or.inr (Or.inl ⟨s, h⟩)
    · exact Or.inl (Or.inr ⟨h0, k, hk, Or.inl h⟩)
    · exact Or.inr (Or.inr ⟨h0, k, hk, Or.inl h⟩)
    · exact Or.inl (Or.inr ⟨h0, k, hk, Or.inr h⟩)
    · exact Or.inr (Or.inr ⟨h0, k, hk, Or.inr h⟩)
  · rintro ((⟨s, h⟩ | ⟨h0, k, hk, h | h⟩) | (⟨s, h⟩ | ⟨h0, k, hk, h | h⟩))
    · exact Or.inl ⟨s, Or.inl h⟩
    · exact Or.inr ⟨h0, k, hk, Or.inl (Or.inl h)⟩
    · exact Or.inr ⟨h0, k, hk, Or.inr (Or.inl h)⟩
    · exact Or.inl ⟨s, Or.inr h⟩
    · exact Or.inr ⟨h0, k, hk, Or.inl (Or.inr h)⟩
    · exact Or.inr ⟨h0, k, hk, Or.inr (Or.inr h)⟩

lemma touched_ui (N : ℕ) {p : Player S C V} (hp : p.slider = 0) (e : UiEvent) :
    Touched N [.ui e] ↔ Moves N p e = true := by
  unfold Touched Moves
  cases e with
  | repaint => simp
  | set k =>
    simp only [List.mem_singleton, reduceCtorEq, exists_false, false_or, UserEvent.ui.injEq, UiEvent.set.injEq,
      or_false, bne_iff_ne, ne_eq, hp]
    constructor
    · rintro ⟨h1, j, h2, rfl⟩; omega
    · intro hh; exact ⟨by omega, k, by omega, rfl⟩
  | drag k =>
    simp only [List.mem_singleton, reduceCtorEq, exists_false, false_or, UserEvent.ui.injEq, UiEvent.drag.injEq,
      bne_iff_ne, ne_eq, hp]
    constructor
    · rintro ⟨h1, j, h2, rfl⟩; omega
    · intro hh; exact ⟨by omega, k, by omega, rfl⟩

/-- A whole session from any state. -/
lemma session_ok (hr : Readable T rnd fs base h n b ds locs) (paint : V → Snap S C → V × Option I)
    (es : List UserEvent) : ∀ {p : Player S C V} {seen : Bool}, State rnd fs base h n ds locs seen p →
    ∃ outs p' seen', Player.session paint fs es p = .ok (outs, p') ∧ State rnd fs base h n ds locs seen' p' ∧
      (seen' = true ↔ seen = true ∨ Touched ds.length es) ∧ ∀ out ∈ outs, Images paint rnd h n ds 0 out := by
  induction es with
  | nil =>
    intro p seen hp
    exact ⟨[], p, seen, rfl, hp, by simp [Touched], by simp⟩
  | cons e es ih =>
    intro p seen hp
    cases e with
    | ui e =>
      obtain ⟨p1, h1, h2⟩ := ui_ok hr paint hp e
      obtain ⟨outs, p2, s2, g1, g2, g3, g4⟩ := ih h2
      refine ⟨outs, p2, s2, by rw [Player.session, h1]; exact g1, g2, ?_, g4⟩
      rw [g3, touched_cons, ← or_assoc, Bool.or_eq_true]
      cases seen with
      | true => simp
      | false =>
        obtain ⟨c, _, _, _, _, hd⟩ := hp
        rw [touched_ui (p := p) ds.length hd.1]
    | record script =>
      obtain ⟨out, p1, h1, h2, h3, _⟩ := record_ok hr paint script hp
      obtain ⟨outs, p2, s2, g1, g2, g3, g4⟩ := ih h2
      refine ⟨out :: outs, p2, s2, by rw [Player.session, h1]; simp only; rw [g1], g2, ?_, ?_⟩
      · rw [g3]
        refine iff_of_true (Or.inl rfl) (Or.inr (Or.inl ⟨script, by simp⟩))
      · intro o ho
        rcases List.mem_cons.1 ho with rfl | ho
        · exact h3
        · exact g4 o ho

lemma session_append (paint : V → Snap S C → V × Option I) (es fs' : List UserEvent) : ∀ {p : Player S C V},
    Player.session paint fs (es ++ fs') p =
      match Player.session paint fs es p with
      | .error e => .error e
      | .ok (outs, q) =>
        match Player.session paint fs fs' q with
        | .error e => .error e
        | .ok (outs', q') => .ok (outs ++ outs', q') := by
  induction es with
  | nil =>
    intro p
    simp only [List.nil_append, Player.session]
    rcases Player.session paint fs fs' p with e | ⟨o, q⟩ <;> rfl
  | cons e es ih =>
    intro p
    cases e with
    | ui e =>
      simp only [List.cons_append, Player.session]
      rcases p.ui paint fs e with e | q
      · rfl
      · exact ih
    | record script =>
      simp only [List.cons_append, Player.session]
      rcases p.record paint fs script with e | ⟨o, q⟩
      · rfl
      · simp only
        rw [ih]
        rcases Player.session paint fs es q with e | ⟨o1, q1⟩
        · rfl
        · simp only
          rcases Player.session paint fs fs' q1 with e | ⟨o2, q2⟩ <;> rfl

lemma start_state (hr : Readable T rnd fs base h n b ds locs) (v : V) :
    ∃ r, Reader.new.load T fs base = (true, r) ∧
      State rnd fs base h n ds locs false (Player.start r v : Player S C V) := by
  obtain ⟨r, h1, h2, _⟩ := load_at hr.text hr.holds hr.box hr.fits hr.head hr.pos hr.bound hr.size hr.frames
    Reader.new true rfl rfl
  refine ⟨r, h1, _, ⟨h2, ?_, rfl, ?_, ?_, fun hh => (by cases hh), fun hh => (by cases hh)⟩,
    List.length_pos_iff.2 hr.frames, rfl, fun hh => (by cases hh), ?_⟩
  · exact h2.count
  · simp [Player.start, blankData, h2.count]
  · simp [Player.start, blankData, h2.count]
  · simp only [Bool.false_eq_true, if_false]
    exact ⟨rfl, by rw [Player.start, h2.count]⟩

/-- Whatever the user does (slider, dragging, animation, recordings with further events and cancellation), the
player shows the frame the slider stands at, with the masses and colours of the stream, once the slider was moved
or something was recorded.  Nothing is undefined. -/
theorem shows_slider (hr : Readable T rnd fs base h n b ds locs) (paint : V → Snap S C → V × Option I) (v : V)
    (es : List UserEvent) (ht : Touched ds.length es) :
    ∃ r outs p' x, Reader.new.load T fs base = (true, r) ∧
      Player.session paint fs es (Player.start r v : Player S C V) = .ok (outs, p') ∧
      ds[p'.slider]? = some x ∧ p'.data = shown rnd h x n := by
  obtain ⟨r, h1, h2⟩ := start_state hr v
  obtain ⟨outs, p', s', g1, ⟨c, _, _, _, _, g2⟩, g3, _⟩ := session_ok hr paint es h2
  rw [g3.2 (Or.inr ht), if_pos rfl] at g2
  obtain ⟨x, k1, k2⟩ := g2
  exact ⟨r, outs, p', x, h1, g1, k1, k2⟩

/-- Until then it shows zeros although the slider stands at frame 0: opening a stream displays no frame. -/
theorem opens_blank (hr : Readable T rnd fs base h n b ds locs) (paint : V → Snap S C → V × Option I) (v : V)
    (es : List UserEvent) (ht : ¬ Touched ds.length es) :
    ∃ r outs p', Reader.new.load T fs base = (true, r) ∧
      Player.session paint fs es (Player.start r v : Player S C V) = .ok (outs, p') ∧
      p'.slider = 0 ∧ p'.data = blankData n := by
  obtain ⟨r, h1, h2⟩ := start_state hr v
  obtain ⟨outs, p', s', g1, ⟨c, _, _, _, _, g2⟩, g3, _⟩ := session_ok hr paint es h2
  have : s' = false := by
    cases hs : s' with
    | false => rfl
    | true => rcases g3.1 hs with hh | hh; cases hh; exact absurd hh ht
  rw [this] at g2
  exact ⟨r, outs, p', h1, g1, g2⟩

/-- Every image of every recording of every session has the right number and is a picture of that frame, numbers
ascending from 0 without gaps, also when the user moves the slider or cancels meanwhile. -/
theorem recordings_right (hr : Readable T rnd fs base h n b ds locs) (paint : V → Snap S C → V × Option I) (v : V)
    (es : List UserEvent) :
    ∃ r outs p', Reader.new.load T fs base = (true, r) ∧
      Player.session paint fs es (Player.start r v : Player S C V) = .ok (outs, p') ∧
      ∀ out ∈ outs, out.length ≤ ds.length ∧ ∀ (i m : ℕ) (img : I), out[i]? = some (m, img) →
        m = i ∧ ∃ x v, ds[i]? = some x ∧ (paint v (shown rnd h x n)).2 = some img := by
  obtain ⟨r, h1, h2⟩ := start_state hr v
  obtain ⟨outs, p', s', g1, _, _, g4⟩ := session_ok hr paint es h2
  refine ⟨r, outs, p', h1, g1, fun out ho => ?_⟩
  obtain ⟨k1, k2⟩ := g4 out ho
  simp only [Nat.zero_add] at k1 k2
  exact ⟨k1, k2⟩

/-- A recording that is not disturbed has every frame, after any session, unless the stream has one frame and
that has been read before.  Missing for the full claim: see `single_frame_lost` and `last_frame_lost`. -/
theorem recording_complete_partial (hr : Readable T rnd fs base h n b ds locs)
    (paint : V → Snap S C → V × Option I) (v : V) (es : List UserEvent) (script : ℕ → Bool × List UiEvent)
    (hc : Calm paint ds.length script) (hN : 2 ≤ ds.length ∨ ¬ Touched ds.length es) :
    ∃ r outs out p', Reader.new.load T fs base = (true, r) ∧
      Player.session paint fs (es ++ [.record script]) (Player.start r v : Player S C V) =
        .ok (outs ++ [out], p') ∧ out.map Prod.fst = List.range ds.length ∧
      ∀ (i m : ℕ) (img : I), out[i]? = some (m, img) → ∃ x v, ds[i]? = some x ∧ (paint v (shown rnd h x n)).2 = some img := by
  obtain ⟨r, h1, h2⟩ := start_state hr v
  obtain ⟨outs, p1, s1, g1, g2, g3, _⟩ := session_ok hr paint es h2
  obtain ⟨out, p', e1, e2, e3, e4, _⟩ := record_ok hr paint script g2
  have hlen := e4 hc (hN.imp id fun hh => by
    cases hs : s1 with
    | false => rfl
    | true => rcases g3.1 hs with hq | hq; cases hq; exact absurd hq hh)
  obtain ⟨k1, k2⟩ := e3
  simp only [Nat.zero_add] at k1 k2
  refine ⟨r, outs, out, p', h1, ?_, ?_, fun i m img hh => (k2 i m img hh).2⟩
  · rw [session_append, g1]
    simp only [Player.session, e1]
  · refine List.ext_getElem? fun i => ?_
    rw [List.getElem?_map]
    by_cases hi : i < ds.length
    · rw [List.getElem?_eq_getElem (by omega), List.getElem?_range hi]
      rcases hq : out[i]'(by omega) with ⟨m, img⟩
      have := (k2 i m img (by rw [List.getElem?_eq_getElem (by omega), hq])).1
      simp [this]
    · rw [List.getElem?_eq_none (by omega), List.getElem?_eq_none (by simp; omega)]
      rfl

/-- A stream of one frame that has been read (recorded, that is) yields no images any more. -/
theorem single_frame_lost (hr : Readable T rnd fs base h n b ds locs)
    (paint : V → Snap S C → V × Option I) (v : V) (es : List UserEvent) (script : ℕ → Bool × List UiEvent)
    (hN : ds.length = 1) (ht : Touched ds.length es) :
    ∃ r outs p', Reader.new.load T fs base = (true, r) ∧
      Player.session paint fs (es ++ [.record script]) (Player.start r v : Player S C V) =
        .ok (outs ++ [[]], p') := by
  obtain ⟨r, h1, h2⟩ := start_state hr v
  obtain ⟨outs, p1, s1, g1, g2, g3, _⟩ := session_ok hr paint es h2
  obtain ⟨out, p', e1, _, _, _, e5⟩ := record_ok hr paint script g2
  have := e5 hN (g3.2 (Or.inr ht))
  subst this
  refine ⟨r, outs, p', h1, ?_⟩
  rw [session_append, g1]
  simp only [Player.session, e1]

lemma loop_lost (hr : Readable T rnd fs base h n b ds locs) (paint : V → Snap S C → V × Option I)
    (script : ℕ → Bool × List UiEvent) (hpaint : ∀ v d, (paint v d).2 ≠ none)
    (hscript : ∀ k, script k = (false, if k + 2 = ds.length then [.set (k + 1)] else [])) (m : ℕ) :
    ∀ {k : ℕ} {p : Player S C V} {c : Cursor}, k + (m + 2) = ds.length →
    Within rnd fs base h n ds locs p c → p.slider + 1 ≠ ds.length →
    ∃ out p' c', Player.recordLoop paint fs script (List.range' k (m + 2)) p = .ok (out, p') ∧
      Within rnd fs base h n ds locs p' c' ∧ out.length = m + 1 := by
  induction m with
  | zero =>
    intro k p c hk hp hsl
    obtain ⟨hi, hs⟩ := hp
    obtain ⟨x, hx⟩ : ∃ x, ds[k]? = some x := ⟨_, List.getElem?_eq_getElem (show k < ds.length by omega)⟩
    obtain ⟨r', c', h1, h2, h3, h4, h5⟩ := go hr hi hx
    have hb : (c.spent && k == ds.length - 1) = false := by
      have : k ≠ ds.length - 1 := by omega
      simp [this]
    rw [hb] at h2
    rcases hpt : paint p.view (shown rnd h x n) with ⟨v, _ | img⟩
    · exact absurd (by rw [hpt]) (hpaint p.view (shown rnd h x n))
    obtain ⟨r2, y, g1, g2, c2, g3, g4, g5, g6, _⟩ := update_ok hr
      (p := (⟨r', shown rnd h x n, k + 1, v⟩ : Player S C V)) h3 (show k + 1 < ds.length by omega)
    have hsp : ∃ c3, Within rnd fs base h n ds locs (⟨r2, shown rnd h y n, k + 1, v⟩ : Player S C V) c3 ∧
        c3.spent = true := by
      obtain ⟨r3, c3, q1, q2, q3, q4, q5⟩ := go hr (k := k + 1) h3 g1
      have : r3 = r2 := by
        unfold Player.update at g2
        simp only [q1, Bool.true_eq_false, if_false] at g2
        rw [q2] at g2
        exact congrArg Player.reader (Except.ok.inj g2)
      subst this
      exact ⟨c3, ⟨q3, by show k + 1 < ds.length; omega⟩, q5.2 (by omega)⟩
    obtain ⟨c3, hw, hc3⟩ := hsp
    obtain ⟨out, p', c', l1, l2, _, _, l5⟩ := loop_ok hr paint script 1 (k := k + 1) (by omega) hw
    have hout := l5 (by omega) ⟨hc3, by omega⟩
    subst hout
    refine ⟨[(k, img)], p', c', ?_, l2, rfl⟩
    rw [List.range'_succ, Player.recordLoop]
    simp only [h1, Bool.true_eq_false, if_false]
    rw [h2]
    simp only [Bool.not_false]
    rw [hpt]
    simp only
    rw [hscript k, if_neg (by simp), if_pos (by omega)]
    have hbd : (⟨r', shown rnd h x n, p.slider, v⟩ : Player S C V).bound (k + 1) = k + 1 := by
      unfold Player.bound
      rw [frames_count hr h3.pos]
      omega
    simp only [Player.uis, Player.ui]
    rw [hbd, if_neg (by show ¬ k + 1 = p.slider; omega), g2]
    simp only
    rw [l1]
  | succ m ih =>
    intro k p c hk hp hsl
    obtain ⟨hi, hs⟩ := hp
    obtain ⟨x, hx⟩ : ∃ x, ds[k]? = some x := ⟨_, List.getElem?_eq_getElem (show k < ds.length by omega)⟩
    obtain ⟨r', c', h1, h2, h3, h4, h5⟩ := go hr hi hx
    have hb : (c.spent && k == ds.length - 1) = false := by
      have : k ≠ ds.length - 1 := by omega
      simp [this]
    rw [hb] at h2
    rcases hpt : paint p.view (shown rnd h x n) with ⟨v, _ | img⟩
    · exact absurd (by rw [hpt]) (hpaint p.view (shown rnd h x n))
    obtain ⟨out, p', c2, l1, l2, l3⟩ := ih (k := k + 1) (p := (⟨r', shown rnd h x n, p.slider, v⟩ : Player S C V))
      (by omega) ⟨h3, hs⟩ hsl
    refine ⟨(k, img) :: out, p', c2, ?_, l2, by simp [l3]⟩
    rw [List.range'_succ, Player.recordLoop]
    simp only [h1, Bool.true_eq_false, if_false]
    rw [h2]
    simp only [Bool.not_false]
    rw [hpt]
    simp only
    rw [hscript k, if_neg (by simp), if_neg (by omega)]
    simp only [Player.uis]
    rw [l1]

/-- The last image is lost when the slider (or the animation) comes to the last frame just before the recording
does, although nobody cancelled and every frame can be painted. -/
theorem last_frame_lost (hr : Readable T rnd fs base h n b ds locs) (paint : V → Snap S C → V × Option I) (v : V)
    (hpaint : ∀ v d, (paint v d).2 ≠ none) (hN : 2 ≤ ds.length) :
    ∃ r out p', Reader.new.load T fs base = (true, r) ∧
      Player.record paint fs (fun k => (false, if k + 2 = ds.length then [.set (k + 1)] else []))
        (Player.start r v : Player S C V) = .ok (out, p') ∧ out.length = ds.length - 1 := by
  obtain ⟨r, h1, c, h2, h3, h4, h5, h6⟩ := start_state hr v
  obtain ⟨m, hm⟩ : ∃ m, ds.length = m + 2 := ⟨ds.length - 2, by omega⟩
  obtain ⟨out, p1, c1, g1, g2, g3⟩ := loop_lost hr paint _ hpaint (fun _ => rfl) m (k := 0) (by omega)
    ⟨h2, h3⟩ (show 0 + 1 ≠ ds.length by omega)
  obtain ⟨r', x, k1, k2, k3⟩ := update_ok hr g2.1 g2.2
  refine ⟨r, out, ⟨r', shown rnd h x n, p1.slider, p1.view⟩, h1, ?_, by omega⟩
  unfold Player.record
  rw [frames_count hr h2.pos, List.range_eq_range', hm]
  rw [hm] at g1
  rw [g1]
  simp only
  rw [k2]

end

/-! ### Concrete cases -/

set_option synthInstance.maxSize 1000

namespace Example

open StreamExample

/-- Decimal text of bytes. -/
def text8 : TextOps UInt8 where
  fmt x := Nat.toDigits 10 x.toNat
  parse t := (toULongLong t).map UInt8.ofNat

/-- A frame of one body. -/
def one (s : ℕ) (a : UInt8) : Snap UInt8 UInt8 := ⟨1, [⟨a, 0, 0⟩], [⟨0, a, 0⟩], [5], [9], a, s, 100⟩

/-- The files of a stream of the frames `ds`, with the bytes `extra` after the last frame, as a crash before the
index line is written leaves them. -/
def files (ds : List (Snap UInt8 UInt8)) (extra : List UInt8) : Option Files :=
  let o := Writer.new.open ['s'] 1000 none ⟨fun _ => none, fun _ => none⟩
  (o.2.writeAll text8 ds (applyOps o.1 ⟨fun _ => none, fun _ => none⟩)).map fun q =>
    applyOps [.append (datName ['s'] 0) extra] q.2

/-- x-coordinates, step and slider at the end of a session, and the recordings (pictures are the x-coordinates). -/
def play (fs : Option Files) (es : List UserEvent) :
    Option (List UInt8 × ℕ × ℕ × List (List (ℕ × List UInt8))) :=
  match fs with
  | none => none
  | some fs =>
    match (Reader.new : Reader UInt8).load text8 fs ['s'] with
    | (false, _) => none
    | (true, r) =>
      match Player.session (fun (_ : Unit) d => ((), some (d.vrt.map (·.x)))) fs es
          (Player.start r () : Player UInt8 UInt8 Unit) with
      | .error _ => none
      | .ok (outs, p) => some (p.data.vrt.map (·.x), p.data.step, p.slider, outs)

end Example

section
variable {S C : Type} [Raw S] [Raw C]

lemma decVecs_take {n k : ℕ} (h : k ≤ n) (b : List UInt8) : (decVecs n b : List (Vec3 S)).take k = decVecs k b := by
  induction k generalizing n b with
  | zero => simp [decVecs]
  | succ k ih =>
    obtain ⟨n, rfl⟩ : ∃ m, n = m + 1 := ⟨n - 1, by omega⟩
    simp only [decVecs, List.take_succ_cons]
    rw [ih (by omega)]

lemma decVecs_drop (n k : ℕ) (b : List UInt8) :
    (decVecs n b : List (Vec3 S)).drop k = decVecs (n - k) (b.drop (3 * Raw.size S * k)) := by
  induction k generalizing n b with
  | zero => simp
  | succ k ih =>
    cases n with
    | zero => simp [decVecs]
    | succ n =>
      simp only [decVecs, List.drop_succ_cons]
      rw [ih, List.drop_drop, Nat.add_sub_add_right]
      congr 2
      ring

lemma decVecs_length (n : ℕ) (b : List UInt8) : (decVecs n b : List (Vec3 S)).length = n := by
  induction n generalizing b with
  | zero => rfl
  | succ n ih => simp only [decVecs, List.length_cons, ih]

lemma encVecs_drop (l : List (Vec3 S)) (k : ℕ) : (encVecs l).drop (3 * Raw.size S * k) = encVecs (l.drop k) := by
  induction k generalizing l with
  | zero => simp
  | succ k ih =>
    cases l with
    | nil => simp [encVecs]
    | cons v l =>
      have e : encVecs (v :: l) = encVec v ++ encVecs l := by simp [encVecs]
      rw [List.drop_succ_cons, ← ih, e, show 3 * Raw.size S * (k + 1) = 3 * Raw.size S + 3 * Raw.size S * k by ring,
        ← List.drop_drop, List.drop_left' (encVec_length v)]

lemma overlay_parts {n : ℕ} {old w : List (Vec3 S)} {rest : List UInt8} (ho : old.length = n) (hw : w.length < n)
    (hr : rest.length < 3 * Raw.size S) :
    (overlay n (encVecs w ++ rest) old).length = n ∧ (overlay n (encVecs w ++ rest) old).take w.length = w ∧
      (overlay n (encVecs w ++ rest) old).drop (w.length + 1) = old.drop (w.length + 1) := by
  refine ⟨decVecs_length _ _, ?_, ?_⟩
  · unfold overlay
    rw [decVecs_take hw.le, List.append_assoc, decVecs_encVecs]
  · unfold overlay
    rw [decVecs_drop]
    have hl : (encVecs w ++ rest).length ≤ 3 * Raw.size S * (w.length + 1) := by
      rw [List.length_append, encVecs_length, mul_add]
      omega
    rw [List.drop_append, List.drop_eq_nil_of_le hl, List.nil_append, List.drop_drop,
      show (encVecs w ++ rest).length + (3 * Raw.size S * (w.length + 1) - (encVecs w ++ rest).length) =
        3 * Raw.size S * (w.length + 1) by omega, encVecs_drop]
    exact decVecs_encVecs' _ (by rw [List.length_drop, ho])

/-- A failed read is not without effect.  When the file ends within the positions, after those of `w` and some more bytes,
the object has the positions `w` of the new frame and, but for one body, the old ones of all others; everything else is
the old frame's. -/
theorem torn_positions {r : Reader S} {d : Snap S C} {fs : Files} {name : FName} {pos : ℕ} {fr : Item S}
    (hc : d.count = r.bodyCount) (hlen : d.vrt.length = d.count) (hfr : r.frames[r.current]? = some fr)
    (hf : r.file = some (name, pos)) (w : List (Vec3 S)) (rest : List UInt8) (hw : w.length < d.count)
    (hrest : rest.length < 3 * Raw.size S)
    (hread : fileRead fs name pos (3 * Raw.size S * d.count) = encVecs w ++ rest) :
    ∃ d' r', r.readInto fs d = .ok (false, d', r') ∧ d'.vrt.length = d.count ∧ d'.vrt.take w.length = w ∧
      d'.vrt.drop (w.length + 1) = d.vrt.drop (w.length + 1) ∧ d' = { d with vrt := d'.vrt } := by
  have hne : (encVecs w ++ rest).length ≠ 3 * Raw.size S * d.count := by
    rw [List.length_append, encVecs_length]
    have : 3 * Raw.size S * (w.length + 1) ≤ 3 * Raw.size S * d.count := Nat.mul_le_mul_left _ hw
    rw [mul_add] at this
    omega
  obtain ⟨h1, h2, h3⟩ := overlay_parts hlen hw hrest
  refine ⟨{ d with vrt := overlay d.count (encVecs w ++ rest) d.vrt }, { r with file := some (name, pos + (encVecs w ++ rest).length) }, ?_, h1, h2,
    h3, rfl⟩
  have hr1 : r.read C fs d.count = .ok (none, { r with file := some (name, pos + (encVecs w ++ rest).length) }) := by
    unfold Reader.read
    rw [if_neg (by simpa using hc), hfr, hf]
    simp only
    rw [hread, if_pos hne]
  have hr2 : r.shortRead fs d = { d with vrt := overlay d.count (encVecs w ++ rest) d.vrt } := by
    unfold Reader.shortRead
    rw [if_neg (by simpa using hc), hf]
    simp only
    rw [hread, if_pos hne]
  unfold Reader.readInto
  rw [hr1]
  simp only
  rw [hr2]

/-- The same when the file ends within the velocities: all positions are new, the clock is the old one. -/
theorem torn_velocities {r : Reader S} {d : Snap S C} {fs : Files} {name : FName} {pos : ℕ} {fr : Item S}
    (hc : d.count = r.bodyCount) (hlen : d.vel.length = d.count) (hfr : r.frames[r.current]? = some fr)
    (hf : r.file = some (name, pos)) (v w : List (Vec3 S)) (rest : List UInt8) (hv : v.length = d.count)
    (hw : w.length < d.count) (hrest : rest.length < 3 * Raw.size S)
    (hread1 : fileRead fs name pos (3 * Raw.size S * d.count) = encVecs v)
    (hread2 : fileRead fs name (pos + 3 * Raw.size S * d.count) (3 * Raw.size S * d.count) = encVecs w ++ rest) :
    ∃ d' r', r.readInto fs d = .ok (false, d', r') ∧ d'.vrt = v ∧ d'.vel.length = d.count ∧
      d'.vel.take w.length = w ∧ d'.vel.drop (w.length + 1) = d.vel.drop (w.length + 1) ∧
      d' = { d with vrt := d'.vrt, vel := d'.vel } := by
  have hne : (encVecs w ++ rest).length ≠ 3 * Raw.size S * d.count := by
    rw [List.length_append, encVecs_length]
    have : 3 * Raw.size S * (w.length + 1) ≤ 3 * Raw.size S * d.count := Nat.mul_le_mul_left _ hw
    rw [mul_add] at this
    omega
  have heq : ¬ (encVecs v).length ≠ 3 * Raw.size S * d.count := by rw [encVecs_length, hv]; simp
  obtain ⟨h1, h2, h3⟩ := overlay_parts hlen hw hrest
  refine ⟨{ d with vrt := decVecs d.count (encVecs v), vel := overlay d.count (encVecs w ++ rest) d.vel },
    { r with file := some (name, pos + 3 * Raw.size S * d.count + (encVecs w ++ rest).length) }, ?_,
    decVecs_encVecs' _ hv, h1, h2, h3, rfl⟩
  have hr1 : r.read C fs d.count = .ok (none, { r with file := some (name, pos + 3 * Raw.size S * d.count + (encVecs w ++ rest).length) }) := by
    unfold Reader.read
    rw [if_neg (by simpa using hc), hfr, hf]
    simp only
    rw [hread1, if_neg heq, hread2, if_pos hne]
  have hr2 : r.shortRead fs d = { d with vrt := decVecs d.count (encVecs v), vel := overlay d.count (encVecs w ++ rest) d.vel } := by
    unfold Reader.shortRead
    rw [if_neg (by simpa using hc), hf]
    simp only
    rw [hread1, if_neg heq, hread2]
  unfold Reader.readInto
  rw [hr1]
  simp only
  rw [hr2]

end

/-- Two bodies, the file ends after one position and a half. -/
example : ∃ d' r', (⟨[⟨0, 0, 0, 0⟩], ['s'], some (['d'], 0), 0, 0, 1, 2, 1, true, true⟩ : Reader UInt8).readInto
      ⟨fun _ => none, fun n => if n = ['d'] then some [1, 2, 3, 4] else none⟩
      (⟨2, [⟨7, 7, 7⟩, ⟨8, 8, 8⟩], [⟨0, 0, 0⟩, ⟨0, 0, 0⟩], [1, 1], [0, 0], 0, 0, 0⟩ : Snap UInt8 UInt8) =
        .ok (false, d', r') ∧ d'.vrt.take 1 = [⟨1, 2, 3⟩] := by
  obtain ⟨d', r', h1, -, h2, -⟩ := torn_positions (r := ⟨[⟨0, 0, 0, 0⟩], ['s'], some (['d'], 0), 0, 0, 1, 2, 1, true, true⟩)
    (d := (⟨2, [⟨7, 7, 7⟩, ⟨8, 8, 8⟩], [⟨0, 0, 0⟩, ⟨0, 0, 0⟩], [1, 1], [0, 0], 0, 0, 0⟩ : Snap UInt8 UInt8))
    (fs := ⟨fun _ => none, fun n => if n = ['d'] then some [1, 2, 3, 4] else none⟩) (fr := ⟨0, 0, 0, 0⟩) rfl rfl rfl rfl
    [⟨1, 2, 3⟩] [4] (by decide) (by decide) rfl
  exact ⟨d', r', h1, h2⟩

/-- One body, the file ends within its velocity. -/
example : ∃ d' r', (⟨[⟨0, 0, 0, 0⟩], ['s'], some (['d'], 0), 0, 0, 1, 1, 1, true, true⟩ : Reader UInt8).readInto
      ⟨fun _ => none, fun n => if n = ['d'] then some [1, 2, 3, 4] else none⟩
      (⟨1, [⟨7, 7, 7⟩], [⟨0, 0, 0⟩], [1], [0], 0, 5, 0⟩ : Snap UInt8 UInt8) =
        .ok (false, d', r') ∧ d'.vrt = [⟨1, 2, 3⟩] ∧ d'.step = 5 := by
  obtain ⟨d', r', h1, h2, -, -, -, h3⟩ := torn_velocities
    (r := ⟨[⟨0, 0, 0, 0⟩], ['s'], some (['d'], 0), 0, 0, 1, 1, 1, true, true⟩)
    (d := (⟨1, [⟨7, 7, 7⟩], [⟨0, 0, 0⟩], [1], [0], 0, 5, 0⟩ : Snap UInt8 UInt8))
    (fs := ⟨fun _ => none, fun n => if n = ['d'] then some [1, 2, 3, 4] else none⟩) (fr := ⟨0, 0, 0, 0⟩) rfl rfl rfl rfl
    [⟨1, 2, 3⟩] [] [4] rfl (by decide) (by decide) rfl rfl
  exact ⟨d', r', h1, h2, by rw [h3]⟩

open Example in
/-- Without the condition that nothing follows the last frame (`Readable.last`) the first claim is false: with the
data of a frame that did not get into the index, the player ends up showing that data under the step of the last
frame of the stream. -/
theorem unindexed_shown :
    play (files [one 0 1, one 5 2] [7, 7, 7, 8, 8, 8]) [.ui (.set 1), .record fun _ => (false, [])] =
      some ([7], 5, 1, [[(0, [1]), (1, [2])]]) := by
  decide +kernel

open Example in
/-- The same with nothing after the last frame. -/
example : play (files [one 0 1, one 5 2] []) [.ui (.set 1), .record fun _ => (false, [])] =
    some ([2], 5, 1, [[(0, [1]), (1, [2])]]) := by
  decide +kernel

open StreamExample

/-- The theorems apply to a stream of three frames in parts of at most 100 bytes: the slider is dragged to the end,
then a recording is made during which the slider moves about, and cancelled; then another one. -/
example : let o := Writer.new.open ['s'] 100 none ⟨fun _ => none, fun _ => none⟩
    ∃ w' fs' r outs out p', o.2.writeAll text [snap 0 0 11, snap 5 50 12, snap 10 100 13]
        (applyOps o.1 ⟨fun _ => none, fun _ => none⟩) = some (w', fs') ∧
      Reader.new.load text fs' ['s'] = (true, r) ∧
      Player.session (fun (v : ℕ) d => (v + 1, some d.vrt)) fs'
        ([.ui (.drag 2), .record (fun k => (k == 1, [.set 1, .repaint, .drag 7]))] ++
          [.record fun k => (false, if k = 0 then [.set 2, .drag 0] else [.repaint])])
        (Player.start r 0 : Player UInt64 UInt8 ℕ) = .ok (outs ++ [out], p') ∧
      out.map Prod.fst = List.range 3 := by
  intro o
  obtain ⟨w', fs', locs, h1, h2⟩ := written_readable text_good ['s'] 100 ⟨fun _ => none, fun _ => none⟩
    (snap 0 0 11) [snap 5 50 12, snap 10 100 13] (n := 2) (by decide) (by decide) (by decide)
    (fun x hx => by
      simp only [List.mem_cons, List.not_mem_nil, or_false] at hx
      rcases hx with rfl | rfl | rfl <;> exact snap_fits _ _ _ (by decide))
    (box_good 0 0 11) ⟨by decide, by decide⟩
  obtain ⟨r, outs, out, p', h3, h4, h5, _⟩ := recording_complete_partial h2
    (fun (v : ℕ) d => (v + 1, some d.vrt)) 0
    [.ui (.drag 2), .record (fun k => (k == 1, [.set 1, .repaint, .drag 7]))]
    (fun k => (false, if k = 0 then [.set 2, .drag 0] else [.repaint]))
    ⟨fun _ => rfl, fun _ _ => by simp, fun k hk e he => by
      have : k = 1 := by simpa using hk
      subst this
      simpa using he⟩ (Or.inl (by decide))
  exact ⟨w', fs', r, outs, out, p', h1, h3, h4, h5⟩

end NB.C75
