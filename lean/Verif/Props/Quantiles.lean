import Mathlib.Algebra.Order.Ring.Rat
import Mathlib.Data.Rat.Floor
import Verif.Lemmas.Quantile
import Verif.Lemmas.PredictFrames

/-! # C08: quantile forecasts -/

set_option linter.unusedSectionVars false

namespace PV
variable {K τ : Type} [Field K] [LinearOrder K] [IsStrictOrderedRing K] [FloorRing K]
  [LinearOrder τ]

/-- **C08.** The value is the alpha-quantile of the sample in the sense of the
specification (sorted sample, linear interpolation). -/
theorem C08_is_quantile {xs : List K} (hne : xs ≠ []) {a : K} (h0 : 0 ≤ a) (h1 : a ≤ 1) :
    IsQuantile xs a (quantile xs a) := by
  have hlen : 0 < xs.length := List.length_pos_of_ne_nil hne
  have hp := List.perm_insertionSort (· ≤ ·) xs
  obtain ⟨p0, p1⟩ := pos_bounds hlen h0 h1
  obtain ⟨f1, f2, f3⟩ := floor_facts p0 p1
  rw [quantile_eq_interp]
  set s := xs.insertionSort (· ≤ ·) with hs
  set h := a * ((xs.length : K) - 1) with hh
  have hsl : s.length = xs.length := hp.length_eq
  have hk : (⌊h⌋).toNat < s.length := by rw [hsl]; exact f3
  refine ⟨s, hp, sorted_sort xs, (⌊h⌋).toNat, h - (((⌊h⌋).toNat : Nat) : K),
    s.getD (⌊h⌋).toNat 0, by ring, ?_, ?_⟩
  · rw [List.getElem?_eq_getElem hk, List.getD_eq_getElem _ _ hk]
  · rcases eq_or_lt_of_le f1 with he | hlt
    · left
      refine ⟨sub_eq_zero.2 he.symm, ?_⟩
      unfold interp
      rw [sub_eq_zero.2 he.symm]; ring
    · right
      have hk1 : (⌊h⌋).toNat + 1 < s.length := by
        have : (((⌊h⌋).toNat : Nat) : K) + 1 < (xs.length : K) := by linarith
        rw [hsl]
        exact_mod_cast this
      refine ⟨by linarith, by linarith, s.getD ((⌊h⌋).toNat + 1) 0, ?_, ?_⟩
      · rw [List.getElem?_eq_getElem hk1, List.getD_eq_getElem _ _ hk1]
      · unfold interp
        have : min ((⌊h⌋).toNat + 1) (s.length - 1) = (⌊h⌋).toNat + 1 := by omega
        rw [this]; ring

/-- **C08.** Quantiles are non-decreasing in alpha. -/
theorem C08_monotone {xs : List K} (hne : xs ≠ []) {a b : K} (h0 : 0 ≤ a) (hab : a ≤ b)
    (h1 : b ≤ 1) : quantile xs a ≤ quantile xs b := by
  have hlen : 0 < xs.length := List.length_pos_of_ne_nil hne
  rw [quantile_eq_interp, quantile_eq_interp]
  have hsl : (xs.insertionSort (· ≤ ·)).length = xs.length := List.length_insertionSort _ _
  have hp : (0 : K) ≤ (xs.length : K) - 1 := by
    have : (1 : K) ≤ (xs.length : K) := by exact_mod_cast hlen
    linarith
  refine interp_mono (sorted_sort xs) (by rw [hsl]; exact hlen)
    (pos_bounds hlen h0 (hab.trans h1)).1 (mul_le_mul_of_nonneg_right hab hp) ?_
  rw [hsl]; exact (pos_bounds hlen (h0.trans hab) h1).2

/-- **C08.** The extreme quantiles are the smallest and the largest sample. -/
theorem C08_extremes {xs : List K} (hne : xs ≠ []) :
    (quantile xs 0 ∈ xs ∧ ∀ x ∈ xs, quantile xs 0 ≤ x) ∧
    (quantile xs 1 ∈ xs ∧ ∀ x ∈ xs, x ≤ quantile xs 1) := by
  have hlen : 0 < xs.length := List.length_pos_of_ne_nil hne
  have hp := List.perm_insertionSort (· ≤ ·) xs
  rw [quantile_eq_interp, quantile_eq_interp]
  have hs := sorted_sort xs
  set s := xs.insertionSort (· ≤ ·)
  have hsl : s.length = xs.length := hp.length_eq
  have e0 : interp s (0 * ((xs.length : K) - 1)) = s.getD 0 0 := by
    unfold interp; simp
  have e1 : interp s (1 * ((xs.length : K) - 1)) = s.getD (s.length - 1) 0 := by
    have hc : (1 : K) * ((xs.length : K) - 1) = ((xs.length - 1 : Nat) : K) := by
      rw [Nat.cast_sub hlen]; simp
    unfold interp
    rw [hc]
    simp only [Int.floor_natCast, Int.toNat_natCast, sub_self, zero_mul, add_zero, hsl]
  rw [e0, e1]
  refine ⟨⟨?_, ?_⟩, ?_, ?_⟩
  · rw [List.getD_eq_getElem _ _ (by omega)]
    exact hp.mem_iff.1 (List.getElem_mem _)
  · intro x hx
    obtain ⟨i, hi, rfl⟩ := List.getElem_of_mem (hp.mem_iff.2 hx)
    rw [← List.getD_eq_getElem _ 0 hi]
    exact getD_mono hs (Nat.zero_le _) hi
  · rw [List.getD_eq_getElem _ _ (by omega)]
    exact hp.mem_iff.1 (List.getElem_mem _)
  · intro x hx
    obtain ⟨i, hi, rfl⟩ := List.getElem_of_mem (hp.mem_iff.2 hx)
    rw [← List.getD_eq_getElem _ 0 hi]
    exact getD_mono hs (by omega) (by omega)

/-- **C08.** Quantiles lie between the smallest and the largest sample. -/
theorem C08_bounds {xs : List K} (hne : xs ≠ []) {a lo hi : K} (h0 : 0 ≤ a) (h1 : a ≤ 1)
    (hlo : ∀ x ∈ xs, lo ≤ x) (hhi : ∀ x ∈ xs, x ≤ hi) :
    lo ≤ quantile xs a ∧ quantile xs a ≤ hi := by
  obtain ⟨⟨m0, -⟩, m1, -⟩ := C08_extremes hne
  exact ⟨(hlo _ m0).trans (C08_monotone hne le_rfl h0 h1),
    (C08_monotone hne h0 h1 le_rfl).trans (hhi _ m1)⟩

/-- **C08.** The frame has the index of the samples, one column per (target name, alpha) in
the given order, and in each row the alpha-quantile of that row's samples. -/
theorem C08_labelled {name : String} {alphas : List K} {f : Frame Nat τ K}
    {q : Frame (String × K) τ K} (hne : f.cols ≠ [])
    (h : predictQuantiles name alphas f = .ok q) :
    q.index = f.index ∧ q.cols = alphas.map (fun a => (name, a)) ∧
    List.Forall₂ (fun (p : Row (String × K) τ K) (r : Row Nat τ K) =>
        p.sid = r.sid ∧ p.time = r.time ∧
        ∀ a ∈ alphas, IsQuantile (f.cols.map r.val) a (p.val (name, a)))
      q.rows f.rows := by
  unfold predictQuantiles at h
  split at h
  · rename_i ha
    cases h
    refine ⟨by simp [Frame.index], rfl, ?_⟩
    simp only [List.forall₂_map_left_iff, List.forall₂_same]
    intro r _
    refine ⟨trivial, trivial, fun a hm => ?_⟩
    exact C08_is_quantile (by simpa using hne) (ha a hm).1 (ha a hm).2
  · cases h

/-- **C08.** Alphas in [0, 1] are accepted, others rejected; a single number is the
one-element list. -/
theorem C08_accepts (name : String) (f : Frame Nat τ K) :
    (∀ alphas : List K, (∃ q, predictQuantiles name alphas f = .ok q) ↔
      ∀ a ∈ alphas, 0 ≤ a ∧ a ≤ 1) ∧
    (∀ a : K, predictQuantiles name (AlphaArg.scalar a).toList f
      = predictQuantiles name (AlphaArg.list [a]).toList f) := by
  refine ⟨fun alphas => ?_, fun a => rfl⟩
  unfold predictQuantiles
  split
  · rename_i h; exact ⟨fun _ => h, fun _ => ⟨_, rfl⟩⟩
  · rename_i h; exact ⟨fun ⟨q, hq⟩ => (by cases hq), fun h' => absurd h' h⟩

example : quantile [3, 1, 2, (10 : ℚ)] (1 / 2) = 5 / 2 := by decide +kernel
example : quantile [3, 1, 2, (10 : ℚ)] 1 = 10 := by decide +kernel

/-- Two rows, three samples each. -/
def exSamples : Frame Nat Nat ℚ :=
  { nlevels := 2, cols := [0, 1, 2],
    rows := [⟨["a"], 1, fun s => ([3, 1, 2] : List ℚ).getD s 0⟩,
             ⟨["b"], 1, fun s => ([5, 5, 8] : List ℚ).getD s 0⟩] }

example : (predictQuantiles "y" [1 / 4, 1] exSamples).toOption.map
    (fun q => q.rows.map fun r => (r.sid, q.cols.map r.val))
    = some [(["a"], [3 / 2, 3]), (["b"], [5, 8])] := by decide +kernel
example : (predictPoint "y" exSamples).rows.map (fun r => (r.sid, r.val "y"))
    = [(["a"], 2), (["b"], 6)] := by decide +kernel

end PV
