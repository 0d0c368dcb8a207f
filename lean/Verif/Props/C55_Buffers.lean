import Verif.Lemmas.Lifecycle
import Mathlib.Logic.Function.Iterate

/-
C55: a group of buffers is created completely or not at all.
-/

namespace NB.C55

/-- Specification of a heap the program can reach: no buffer listed twice, no buffer of a future call. -/
def Reachable (h : Heap) : Prop := h.live.Nodup ∧ ∀ x ∈ h.live, x < h.calls

/-- `create_buffers` never releases anything it should not, and either no creation failed and it returns `count`
new, different buffers beside the old ones, or one failed and it returns the empty array, has created nothing
after the failure, and the buffers alive are those from before the call. -/
theorem all_or_nothing (fails : Nat → Bool) (count : Nat) (h : Heap) (hr : Reachable h) :
    ∃ r h', createBuffers fails count h = .ok (r, h') ∧ Reachable h' ∧
      (((∀ k < count, fails (h.calls + k) = false) ∧ r.length = count ∧ r.Nodup ∧ (∀ x ∈ r, x ∉ h.live) ∧
          h'.live.Perm (r ++ h.live)) ∨
       (∃ k < count, fails (h.calls + k) = true ∧ (∀ j < k, fails (h.calls + j) = false) ∧
          r = [] ∧ h'.live.Perm h.live ∧ h'.calls = h.calls + k + 1)) := by
  have hh : h.Holds [] h.live := ⟨hr, by simp⟩
  rcases createLoop_spec fails count [] h.live h hh with ⟨r, h', e, hl, h1, hc, hk⟩ | ⟨k, h', hk, hf, hj, e, h1, hc⟩
  · refine ⟨r, h', by simpa [createBuffers] using e, h1.1, .inl ⟨hk, hl, ?_, ?_, by simpa using h1.2⟩⟩
    · exact (List.nodup_append.1 (by simpa using h1.nodup)).1
    · intro x hx hx'
      have := (List.nodup_append.1 (by simpa using h1.nodup : (r ++ h.live).Nodup)).2.2 x hx x hx'
      exact this rfl
  · exact ⟨[], h', e, h1.1, .inr ⟨k, hk, hf, hj, rfl, by simpa using h1.2, hc⟩⟩

/-- Releasing the group again gives back exactly the buffers from before. -/
theorem release_restores (fails : Nat → Bool) (count : Nat) (h : Heap) (hr : Reachable h) (r : List Nat) (h' : Heap)
    (hc : createBuffers fails count h = .ok (r, h')) :
    ∃ h'', freeBuffers r h' = .ok h'' ∧ h''.live.Perm h.live := by
  have hh : h.Holds [] h.live := ⟨hr, by simp⟩
  rcases createLoop_spec fails count [] h.live h hh with ⟨r', h1, e, -, h2, -⟩ | ⟨k, h1, -, -, -, e, h2, -⟩
  · unfold createBuffers at hc
    rw [e] at hc
    cases hc
    obtain ⟨h'', e', h3, -⟩ := freeBuffers_holds _ h2
    exact ⟨h'', e', by simpa using h3.2⟩
  · unfold createBuffers at hc
    rw [e] at hc
    cases hc
    exact ⟨h', rfl, by simpa using h2.2⟩

/-- The buffers a program got by `n` successful or failing calls form a reachable heap. -/
theorem reachable_of_calls (fails : Nat → Bool) (n : Nat) :
    Reachable ((fun h => (createBuffer fails h).2)^[n] ⟨0, []⟩) := by
  induction n with
  | zero => exact ⟨List.nodup_nil, by simp⟩
  | succ n ih =>
    rw [Function.iterate_succ', Function.comp]
    exact (createBuffer_holds (fails := fails) (own := []) (base := _) ⟨ih, List.Perm.refl _⟩).1.1

/-- A case with a failure in the third of five creations: everything is given back. -/
example : createBuffers (fun n => n == 4) 5 ⟨2, [1, 0]⟩ = .ok ([], ⟨5, [1, 0]⟩) := rfl

/-- A case without failure. -/
example : createBuffers (fun _ => false) 3 ⟨2, [1, 0]⟩ = .ok ([2, 3, 4], ⟨5, [4, 3, 2, 1, 0]⟩) := rfl

example : Reachable ⟨2, [1, 0]⟩ := by unfold Reachable; decide

end NB.C55
