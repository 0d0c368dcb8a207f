import Verif.Lemmas.StreamSession

/-
Reading a stream: the reader follows the cursor of the specification.
-/

namespace NB

open StreamSpec

section
variable {S C : Type} [Raw S] [Raw C]

/-- The reader stands at the cursor. -/
structure At (rnd : S → S) (fs : Files) (base : FName) (n : ℕ) (ds : List (Snap S C)) (locs : List (ℕ × ℕ))
    (r : Reader S) (c : Cursor) : Prop where
  frames : r.frames = List.zipWith (itemOf rnd) ds locs
  name : r.base = base
  fileN : r.fileN = sizeMax
  current : r.current = c.frame
  inside : c.frame < ds.length
  count : r.bodyCount = n
  colors : r.colorsRead = !c.first
  masses : r.massesRead = !c.first
  pos : ∀ l, locs[c.frame]? = some l →
    r.file = some (datName base l.1, l.2 + if c.spent then frameSize S n else 0)
  last : c.spent = true → c.frame + 1 = ds.length

variable {T : TextOps S} {rnd : S → S} {fs : Files} {base : FName} {h : Snap S C} {n : ℕ}
  {ds : List (Snap S C)} {locs : List (ℕ × ℕ)}

lemma holds_at (hh : Holds T fs base h ds locs) {k : ℕ} (hk : k < ds.length) :
    ∃ d l, ds[k]? = some d ∧ locs[k]? = some l ∧ LocOk l ∧ FrameAt fs base d l ∧
      (List.zipWith (itemOf rnd) ds locs)[k]? = some (itemOf rnd d l) := by
  have hk' : k < locs.length := by rw [hh.len]; exact hk
  refine ⟨ds[k], locs[k], List.getElem?_eq_getElem hk, List.getElem?_eq_getElem hk',
    hh.loc _ (List.getElem_mem hk'), hh.frame k _ _ (List.getElem?_eq_getElem hk)
      (List.getElem?_eq_getElem hk'), ?_⟩
  rw [List.getElem?_zipWith, List.getElem?_eq_getElem hk, List.getElem?_eq_getElem hk']

lemma zipWith_length (hh : Holds T fs base h ds locs) :
    (List.zipWith (itemOf rnd) ds locs).length = ds.length := by
  rw [List.length_zipWith, hh.len, Nat.min_self]

/-- Seeking to another frame that exists. -/
lemma seek_in (hh : Holds T fs base h ds locs) {r : Reader S} (hf : r.frames = List.zipWith (itemOf rnd) ds locs)
    (hb : r.base = base) (hn : r.fileN = sizeMax) {k : ℕ} (hk : k < ds.length) (hne : k ≠ r.current) :
    ∃ l, locs[k]? = some l ∧
      r.seek fs k = (true, { r with file := some (datName base l.1, l.2), current := k }) := by
  obtain ⟨d, l, h1, h2, h3, ⟨pre, post, h4, _⟩, h5⟩ := holds_at (rnd := rnd) hh hk
  refine ⟨l, h2, ?_⟩
  unfold Reader.seek
  rw [if_neg hne, hf, h5]
  simp only [itemOf, hb, h4, hn]
  have hfile : r.fileN ≠ l.1 := by rw [hn]; exact Ne.symm (Nat.ne_of_lt h3.1)
  cases hr : r.file with
  | none =>
    simp only
    rw [if_neg (by omega)]
    simp [hn]
  | some q =>
    simp only
    rw [if_pos (by rw [← hn]; exact hfile)]
    simp only
    rw [if_neg (by omega)]
    simp [hn]

lemma at_seek (hh : Holds T fs base h ds locs) {r : Reader S} {c : Cursor} (ha : At rnd fs base n ds locs r c)
    (k : ℕ) :
    (if (r.seek fs k).1 then Answer.done else Answer.failed : Answer S C) = (answer rnd h n ds c (.seek k)).1 ∧
      At rnd fs base n ds locs (r.seek fs k).2 (answer rnd h n ds c (.seek k)).2 := by
  unfold answer
  simp only
  by_cases hk : k = c.frame
  · rw [if_pos hk]
    have : r.seek fs k = (true, r) := by
      unfold Reader.seek; rw [if_pos (by rw [ha.current]; exact hk)]
    rw [this]
    exact ⟨rfl, ha⟩
  · rw [if_neg hk]
    by_cases hlt : k < ds.length
    · rw [if_pos hlt]
      obtain ⟨l, h1, h2⟩ := seek_in hh ha.frames ha.name ha.fileN hlt (by rw [ha.current]; exact hk)
      rw [h2]
      refine ⟨rfl, ?_⟩
      constructor
      · exact ha.frames
      · exact ha.name
      · exact ha.fileN
      · rfl
      · exact hlt
      · exact ha.count
      · exact ha.colors
      · exact ha.masses
      · intro l' hl'
        rw [h1] at hl'
        rw [← Option.some.inj hl']
        simp
      · intro hc; cases hc
    · rw [if_neg hlt]
      have : r.seek fs k = (false, r) := by
        unfold Reader.seek
        rw [if_neg (by rw [ha.current]; exact hk), ha.frames,
          List.getElem?_eq_none (by rw [zipWith_length hh]; omega)]
      rw [this]
      exact ⟨rfl, ha⟩

lemma fileRead_eq {name : FName} {pre a post : List UInt8} {pos sz : ℕ}
    (hb : fs.bin name = some (pre ++ a ++ post)) (hp : pre.length = pos) (ha : a.length = sz) :
    fileRead fs name pos sz = a := by
  unfold fileRead
  rw [hb]
  simp only
  rw [List.append_assoc, List.drop_left' hp, List.take_left' ha]

lemma fileRead_end {name : FName} {b : List UInt8} {pos sz : ℕ} (hb : fs.bin name = some b)
    (hp : b.length ≤ pos) : fileRead fs name pos sz = [] := by
  unfold fileRead
  rw [hb]
  simp [List.drop_eq_nil_of_le hp]

lemma advance_at (hh : Holds T fs base h ds locs) {r : Reader S} {c : Cursor}
    (ha : At rnd fs base n ds locs r c) (_hsp : c.spent = false) {l : ℕ × ℕ} (_hl : locs[c.frame]? = some l)
    {q : FName × ℕ} :
    let r1 := Reader.advance fs { r with file := some q }
    r1.frames = List.zipWith (itemOf rnd) ds locs ∧ r1.base = base ∧ r1.fileN = sizeMax ∧ r1.bodyCount = n ∧
    True ∧ r1.colorsRead = !c.first ∧ r1.massesRead = !c.first ∧
    (c.frame + 1 < ds.length → r1.current = c.frame + 1 ∧
      ∀ l', locs[c.frame + 1]? = some l' → r1.file = some (datName base l'.1, l'.2)) ∧
    (¬ c.frame + 1 < ds.length → r1.current = c.frame ∧ r1.file = some q) ∧
    (¬ c.frame + 1 < ds.length → c.frame + 1 = ds.length) := by
  intro r1
  have hlenf : r.frames.length = ds.length := by rw [ha.frames, zipWith_length hh]
  have hin := ha.inside
  have hcur := ha.current
  by_cases hnext : c.frame + 1 < ds.length
  · obtain ⟨l', q1, q2⟩ := seek_in (T := T) (h := h) (rnd := rnd) (r := { r with file := some q })
      hh ha.frames ha.name ha.fileN (k := c.frame + 1) hnext (by simp only [hcur]; omega)
    have e : r1 = { r with file := some (datName base l'.1, l'.2), current := c.frame + 1 } := by
      show Reader.advance fs _ = _
      unfold Reader.advance
      simp only [hlenf, hcur]
      rw [if_pos (by omega)]
      simp only [hcur] at q2
      rw [q2]
    rw [e]
    exact ⟨ha.frames, ha.name, ha.fileN, ha.count, trivial, ha.colors, ha.masses,
      fun _ => ⟨rfl, fun l'' hl'' => by rw [q1] at hl''; rw [← Option.some.inj hl'']⟩,
      fun hc => absurd hnext hc, fun hc => absurd hnext hc⟩
  · have e : r1 = { r with file := some q } := by
      show Reader.advance fs _ = _
      unfold Reader.advance
      simp only [hlenf, hcur]
      rw [if_neg (by omega)]
    rw [e]
    exact ⟨ha.frames, ha.name, ha.fileN, ha.count, trivial, ha.colors, ha.masses, fun hc => absurd hc hnext,
      fun _ => ⟨hcur, rfl⟩, fun _ => by omega⟩

lemma readOnce_eq {r : Reader S} {first : Bool} {m : ℕ} {cs : List C} {ms : List S}
    (hc : readArray fs (colName r.base) m = some cs) (hm : readArray fs (massName r.base) m = some ms)
    (h1 : r.colorsRead = !first) (h2 : r.massesRead = !first) :
    (r.readOnce C fs m).1 = (if first then some cs else none) ∧
    (r.readOnce C fs m).2.1 = (if first then some ms else none) ∧
    (r.readOnce C fs m).2.2 = { r with colorsRead := true, massesRead := true } := by
  unfold Reader.readOnce
  rw [h1, h2, hc, hm]
  cases first <;> simp

lemma at_read (hh : Holds T fs base h ds locs) (hfit : ∀ d ∈ ds, Fits n d) (hhf : Fits n h)
    (hn : 0 < n) {r : Reader S} {c : Cursor} (hend : c.spent = true → LastAtEnd fs base ds locs) (ha : At rnd fs base n ds locs r c) (m : ℕ) :
    ∃ r', readerCall (C := C) fs r (.read m) = .ok ((answer rnd h n ds c (.read m)).1, r') ∧
      At rnd fs base n ds locs r' (answer rnd h n ds c (.read m)).2 := by
  have hw := Raw.size_pos (S := S)
  obtain ⟨d, l, h1, h2, h3, ⟨pre, post, h4, h4'⟩, h5⟩ := holds_at (rnd := rnd) hh ha.inside
  have hd := hfit d (List.mem_of_getElem? h1)
  unfold readerCall answer Reader.read
  simp only
  by_cases hm : m ≠ n
  · rw [if_pos (by rw [ha.count]; exact hm), if_pos hm]
    exact ⟨r, rfl, ha⟩
  rw [if_neg (by rw [ha.count]; exact hm), if_neg hm]
  have hmn : m = n := not_not.1 hm
  subst hmn
  have hcur : r.frames[r.current]? = some (itemOf rnd d l) := by rw [ha.current, ha.frames]; exact h5
  rw [hcur]
  simp only
  rw [ha.pos l h2]
  simp only
  have hsz : 0 < 3 * Raw.size S * m := Nat.mul_pos (Nat.mul_pos (by decide) hw) hn
  cases hsp : c.spent with
  | true =>
    simp only [if_true]
    have hl := ha.last hsp
    have e1 : ds.getLast? = some d := by
      rw [List.getLast?_eq_getElem?, show ds.length - 1 = c.frame by omega, h1]
    have e2 : locs.getLast? = some l := by
      rw [List.getLast?_eq_getElem?, hh.len, show ds.length - 1 = c.frame by omega, h2]
    obtain ⟨p', hp1, hp2⟩ := hend hsp d l e1 e2
    have hre : fileRead fs (datName base l.1) (l.2 + frameSize S m) (3 * Raw.size S * m) = [] := by
      apply fileRead_end hp1
      rw [List.length_append, hp2, frameBytes_length hd]
    rw [hre]
    rw [if_pos (by simp only [List.length_nil]; omega)]
    refine ⟨_, rfl, ?_⟩
    constructor
    · exact ha.frames
    · exact ha.name
    · exact ha.fileN
    · exact ha.current
    · exact ha.inside
    · exact ha.count
    · exact ha.colors
    · exact ha.masses
    · intro l' hl'
      rw [h2] at hl'
      rw [← Option.some.inj hl', hsp]
      simp
    · intro _; exact hl
  | false =>
    simp only [Bool.false_eq_true, if_false, Nat.add_zero]
    have hlen1 : (encVecs d.vrt).length = 3 * Raw.size S * m := by rw [encVecs_length, hd.vrt]
    have hlen2 : (encVecs d.vel).length = 3 * Raw.size S * m := by rw [encVecs_length, hd.vel]
    have hr1 : fileRead fs (datName base l.1) l.2 (3 * Raw.size S * m) = encVecs d.vrt := by
      refine fileRead_eq (pre := pre) (post := encVecs d.vel ++ post) ?_ h4' hlen1
      rw [h4, frameBytes]; simp only [List.append_assoc]
    have hr2 : fileRead fs (datName base l.1) (l.2 + 3 * Raw.size S * m) (3 * Raw.size S * m) =
        encVecs d.vel := by
      refine fileRead_eq (pre := pre ++ encVecs d.vrt) (post := post) ?_ ?_ hlen2
      · rw [h4, frameBytes]; simp only [List.append_assoc]
      · rw [List.length_append, h4', hlen1]
    rw [hr1, hr2]
    rw [if_neg (not_not.2 hlen1), if_neg (not_not.2 hlen2)]
    rw [h1, decVecs_encVecs' _ hd.vrt, decVecs_encVecs' _ hd.vel]
    simp only
    have hpos : l.2 + 3 * Raw.size S * m + 3 * Raw.size S * m = l.2 + frameSize S m := by
      rw [frameSize]; ring
    rw [hpos]
    obtain ⟨a1, a2, a3, a4, a5, a6, a7, a8, a9, a10⟩ := advance_at hh ha hsp h2
    set r1 := Reader.advance fs { r with file := some (datName base l.1, l.2 + frameSize S m) } with hr1d
    obtain ⟨e1, e2, e3⟩ := readOnce_eq (C := C) (r := r1) (first := c.first)
      (readArray_eq (by rw [a2]; exact hh.col) hhf.color) (readArray_eq (by rw [a2]; exact hh.mass) hhf.mass) a6 a7
    rw [e1, e2, e3]
    refine ⟨_, rfl, ?_⟩
    by_cases hnext : c.frame + 1 < ds.length
    · rw [if_pos hnext]
      exact ⟨a1, a2, a3, (a8 hnext).1, hnext, a4, rfl, rfl,
        fun l' hl' => by simpa using (a8 hnext).2 l' hl', fun hc => by cases hc⟩
    · rw [if_neg hnext]
      refine ⟨a1, a2, a3, (a9 hnext).1, ha.inside, a4, rfl, rfl, fun l' hl' => ?_, fun _ => a10 hnext⟩
      rw [h2] at hl'
      rw [← Option.some.inj hl', if_pos rfl]
      exact (a9 hnext).2

lemma at_calls (hh : Holds T fs base h ds locs) (hfit : ∀ d ∈ ds, Fits n d) (hhf : Fits n h)
    (hn : 0 < n) (hend : LastAtEnd fs base ds locs) (qs : List Call) :
    ∀ {r : Reader S} {c : Cursor}, At rnd fs base n ds locs r c →
      ∃ r', readerCalls (C := C) fs qs r = .ok (answers rnd h n ds c qs, r') := by
  induction qs with
  | nil => intro r c _; exact ⟨r, rfl⟩
  | cons q qs ih =>
    intro r c ha
    have step : ∃ r', readerCall (C := C) fs r q = .ok ((answer rnd h n ds c q).1, r') ∧
        At rnd fs base n ds locs r' (answer rnd h n ds c q).2 := by
      cases q with
      | seek k =>
        obtain ⟨h1, h2⟩ := at_seek (n := n) hh ha k
        exact ⟨_, by unfold readerCall; rw [← h1], h2⟩
      | read m => exact at_read hh hfit hhf hn (fun _ => hend) ha m
    obtain ⟨r1, e1, ha1⟩ := step
    obtain ⟨r2, e2⟩ := ih ha1
    refine ⟨r2, ?_⟩
    rw [readerCalls, e1]
    simp only
    rw [e2]
    rfl

/-- No call reads a frame that is consumed already. -/
def Unspent (rnd : S → S) (h : Snap S C) (n : ℕ) (ds : List (Snap S C)) : Cursor → List Call → Prop
  | _, [] => True
  | c, q :: qs => (∀ m, q = .read m → c.spent = false) ∧ Unspent rnd h n ds (answer rnd h n ds c q).2 qs

lemma at_calls_unspent (hh : Holds T fs base h ds locs) (hfit : ∀ d ∈ ds, Fits n d) (hhf : Fits n h)
    (hn : 0 < n) (qs : List Call) :
    ∀ {r : Reader S} {c : Cursor}, Unspent rnd h n ds c qs → At rnd fs base n ds locs r c →
      ∃ r', readerCalls (C := C) fs qs r = .ok (answers rnd h n ds c qs, r') := by
  induction qs with
  | nil => intro r c _ _; exact ⟨r, rfl⟩
  | cons q qs ih =>
    intro r c hu ha
    have step : ∃ r', readerCall (C := C) fs r q = .ok ((answer rnd h n ds c q).1, r') ∧
        At rnd fs base n ds locs r' (answer rnd h n ds c q).2 := by
      cases q with
      | seek k =>
        obtain ⟨h1, h2⟩ := at_seek (n := n) hh ha k
        exact ⟨_, by unfold readerCall; rw [← h1], h2⟩
      | read m =>
        exact at_read hh hfit hhf hn (fun hs => by rw [hu.1 m rfl] at hs; cases hs) ha m
    obtain ⟨r1, e1, ha1⟩ := step
    obtain ⟨r2, e2⟩ := ih hu.2 ha1
    refine ⟨r2, ?_⟩
    rw [readerCalls, e1]
    simp only
    rw [e2]
    rfl

lemma unspent_reads (rnd : S → S) (h : Snap S C) (n : ℕ) (ds : List (Snap S C)) :
    ∀ (m k : ℕ) (f : Bool), k + m ≤ ds.length →
      Unspent rnd h n ds ⟨k, false, f⟩ (List.replicate m (.read n)) := by
  intro m
  induction m with
  | zero => intro k f _; trivial
  | succ m ih =>
    intro k f hk
    refine ⟨fun _ _ => rfl, ?_⟩
    have hlt : k < ds.length := by omega
    have e : (answer rnd h n ds ⟨k, false, f⟩ (.read n)).2 =
        if k + 1 < ds.length then ⟨k + 1, false, false⟩ else ⟨k, true, false⟩ := by
      unfold answer
      simp [List.getElem?_eq_getElem hlt]
    rw [e]
    cases m with
    | zero => trivial
    | succ m => rw [if_pos (by omega)]; exact ih (k + 1) false (by omega)

lemma load_at (hT : TextGood T rnd) (hh : Holds T fs base h ds locs) {b : ℕ} (hb : BoxGood h.box b)
    (hfit : ∀ d ∈ ds, Fits n d) (hhf : Fits n h) (hn : 0 < n) (hn' : n ≤ sizeMax) (hw : Raw.size S ≤ sizeMax)
    (hne : ds ≠ []) (r : Reader S) (first : Bool) (hc : r.colorsRead = !first) (hm : r.massesRead = !first)
    :
    ∃ r', r.load T fs base = (true, r') ∧ At rnd fs base n ds locs r' ⟨0, false, first⟩ ∧ r'.boxSize = b ∧
      r'.coordSize = Raw.size S := by
  have hpos : 0 < ds.length := List.length_pos_iff.2 hne
  rw [load_eq hT hh hb (by rw [hhf.count]; exact hn') (by rw [hhf.count]; exact hn) hw
    (fun d hd => (hfit d hd).step) r]
  obtain ⟨l, h1, h2⟩ := seek_in (rnd := rnd) (r := loadedReader r rnd base h.count b ds locs) hh rfl rfl rfl hpos
    (by simp only [loadedReader]; decide)
  rw [h2]
  refine ⟨_, rfl, ?_, rfl, rfl⟩
  exact ⟨rfl, rfl, rfl, rfl, hpos, hhf.count, hc, hm, fun l' hl' => by
    simp only at hl'
    rw [h1] at hl'; rw [← Option.some.inj hl']; simp, fun hq => by cases hq⟩

end

end NB
