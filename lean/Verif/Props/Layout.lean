import Verif.Lemmas.Util
import Verif.Spec.Layout

/-!
# C01 Sample layout tiles the trajectory

All statements hold for every list of counts (zeros included) whose total fits in `size_t`.
-/

set_option autoImplicit false

namespace Trajopt.Props

open Spec

/-- C01: the number of samples `GetIndex(N, wptCnt, 0)` is one more than the total of the counts. -/
theorem C01_sample_count (N : List ℕ) (h : sampleCount N < 2 ^ 64) :
    getIndex N (N.length + 1) 0 = .ok (sampleCount N) := by
  rw [getIndex_succ N _ _ (le_refl _) (by simpa [sampleCount] using h)]
  simp [sampleCount]

/-- C01: `GetIndex(N, w + 1, 0) - 1`, the sample at which the generator applies the constraints of
waypoint `w`, is the sample of waypoint `w`. -/
theorem C01_waypoint_sample (N : List ℕ) (h : sampleCount N < 2 ^ 64) (w : ℕ)
    (hw : w ≤ N.length) :
    ∃ i, getIndex N (w + 1) 0 = .ok i ∧ wsub i 1 = waypointSample N w := by
  have hle := sum_take_le N w
  unfold sampleCount at h
  refine ⟨1 + (N.take w).sum, by rw [getIndex_succ N w 0 hw (by omega)]; rfl, ?_⟩
  rw [wsub_eq (by omega) (by omega)]
  unfold waypointSample; omega

/-- C01: `GetIndex(N, s + 1, k)` for `k = 0, …, N_s - 1` runs through the samples of segment `s`, in
increasing order and each once; they are also `[GetIndex(N, s + 1, 0), GetIndex(N, s + 2, 0))`. -/
theorem C01_segment_samples (N : List ℕ) (h : sampleCount N < 2 ^ 64) (s : ℕ)
    (hs : s < N.length) :
    (∀ k < N[s], getIndex N (s + 1) k = .ok (waypointSample N s + 1 + k)) ∧
    (∀ i, i ∈ segmentSamples N s ↔ ∃ k < N[s], getIndex N (s + 1) k = .ok i) ∧
    (segmentSamples N s).card = N[s] ∧
    ∃ a b, getIndex N (s + 1) 0 = .ok a ∧ getIndex N (s + 2) 0 = .ok b ∧
      ∀ i, i ∈ segmentSamples N s ↔ a ≤ i ∧ i < b := by
  have hle := sum_take_le N (s + 1)
  have hsucc := sum_take_succ N hs
  unfold sampleCount at h
  have key : ∀ k < N[s], getIndex N (s + 1) k = .ok (waypointSample N s + 1 + k) := by
    intro k hk
    rw [getIndex_succ N s k (by omega) (by omega)]
    unfold waypointSample; congr 1; omega
  refine ⟨key, ?_, ?_, 1 + (N.take s).sum, 1 + (N.take (s + 1)).sum,
    by rw [getIndex_succ N s 0 (by omega) (by omega)]; rfl,
    by rw [getIndex_succ N (s + 1) 0 (by omega) (by omega)]; rfl, ?_⟩
  · intro i
    simp only [segmentSamples, waypointSample, Finset.mem_Ioc]
    constructor
    · intro hi
      refine ⟨i - 1 - (N.take s).sum, by omega, ?_⟩
      rw [key _ (by omega)]; unfold waypointSample; congr 1; omega
    · rintro ⟨k, hk, hki⟩
      rw [key k hk] at hki
      have := Except.ok.inj hki
      unfold waypointSample at this; omega
  · simp [segmentSamples, waypointSample, hsucc]
  · intro i
    simp only [segmentSamples, waypointSample, Finset.mem_Ioc]
    omega

/-- C01: every sample other than sample 0 belongs to exactly one segment; every sample of a segment
is a sample of the trajectory; sample 0 belongs to none. -/
theorem C01_tiling (N : List ℕ) :
    (∀ i, 0 < i → i < sampleCount N →
      ∃ s, (s < N.length ∧ i ∈ segmentSamples N s) ∧
        ∀ t, i ∈ segmentSamples N t → t = s) ∧
    (∀ s i, i ∈ segmentSamples N s → 0 < i ∧ i < sampleCount N) := by
  constructor
  · intro i h0 hi
    unfold sampleCount at hi
    have hex : ∃ k, i ≤ (N.take k).sum := ⟨N.length, by simpa using (by omega)⟩
    classical
    have hk := Nat.find_spec hex
    have hmin : ∀ m < Nat.find hex, ¬ i ≤ (N.take m).sum := fun m hm => Nat.find_min hex hm
    have hkle : Nat.find hex ≤ N.length := Nat.find_min' hex (by simpa using (by omega))
    have hkpos : 0 < Nat.find hex := by
      rcases Nat.eq_zero_or_pos (Nat.find hex) with hz | hz
      · rw [hz] at hk; simp at hk; omega
      · exact hz
    refine ⟨Nat.find hex - 1, ⟨by omega, ?_⟩, ?_⟩
    · simp only [segmentSamples, waypointSample, Finset.mem_Ioc]
      have := hmin (Nat.find hex - 1) (by omega)
      rw [show Nat.find hex - 1 + 1 = Nat.find hex by omega]
      exact ⟨by omega, hk⟩
    · intro t ht
      simp only [segmentSamples, waypointSample, Finset.mem_Ioc] at ht
      have h1 : Nat.find hex ≤ t + 1 := Nat.find_min' hex ht.2
      by_contra hne
      have h2 : Nat.find hex ≤ t := by omega
      have := sum_take_mono N h2
      omega
  · intro s i hi
    simp only [segmentSamples, waypointSample, Finset.mem_Ioc] at hi
    have := sum_take_le N (s + 1)
    unfold sampleCount; omega

/-- C01: looking up a waypoint past the last one throws, whatever the counts. -/
theorem C01_out_of_range (N : List ℕ) (w k : ℕ) (hw : N.length + 1 < w) :
    getIndex N w k = .error .outOfRange := by
  simp only [getIndex]
  rw [getIndexLoop_error N _ 0 _ (by omega) (by omega)]; rfl

/-- The hypotheses of C01 are met, e.g. by the counts of the repository's tests, with zeros too. -/
example : sampleCount [2, 0, 3] < 2 ^ 64 ∧ 1 < [2, 0, 3].length := by decide
example : getIndex [2, 3] 3 0 = .ok 6 ∧ getIndex [2, 3] 2 0 = .ok 3 ∧ getIndex [2, 3] 1 1 = .ok 2 :=
  ⟨by decide, by decide, by decide⟩
example : getIndex [2, 3] 4 0 = .error .outOfRange := C01_out_of_range _ _ _ (by decide)
example : segmentSamples [2, 0, 3] 0 = {1, 2} ∧ segmentSamples [2, 0, 3] 1 = ∅ ∧
    segmentSamples [2, 0, 3] 2 = {3, 4, 5} := by decide

end Trajopt.Props
