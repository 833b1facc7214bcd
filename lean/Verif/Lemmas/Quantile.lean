import Mathlib.Tactic.Linarith
import Mathlib.Tactic.Ring
import Mathlib.Data.List.GetD
import Verif.Model.PredictFrames
import Verif.Spec.Quantile

set_option linter.unusedSectionVars false

namespace PV
variable {K : Type} [Field K] [LinearOrder K] [IsStrictOrderedRing K] [FloorRing K]

/-- The interpolation of a sorted list at real position `h`. -/
def interp (s : List K) (h : K) : K :=
  s.getD (⌊h⌋).toNat 0 + (h - ((⌊h⌋).toNat : K)) *
    (s.getD (min ((⌊h⌋).toNat + 1) (s.length - 1)) 0 - s.getD (⌊h⌋).toNat 0)

theorem quantile_eq_interp (xs : List K) (a : K) :
    quantile xs a = interp (xs.insertionSort (· ≤ ·)) (a * ((xs.length : K) - 1)) := by
  unfold quantile interp
  simp only [List.length_insertionSort]

theorem floor_facts {n : Nat} {h : K} (h0 : 0 ≤ h) (hn : h ≤ ((n : K) - 1)) :
    (((⌊h⌋).toNat : Nat) : K) ≤ h ∧ h < (((⌊h⌋).toNat : Nat) : K) + 1 ∧ (⌊h⌋).toNat < n := by
  have hf : (0 : Int) ≤ ⌊h⌋ := Int.floor_nonneg.2 h0
  have e : (((⌊h⌋).toNat : Nat) : K) = ((⌊h⌋ : Int) : K) := by
    have : (((⌊h⌋).toNat : Int)) = ⌊h⌋ := Int.toNat_of_nonneg hf
    calc (((⌊h⌋).toNat : Nat) : K) = ((((⌊h⌋).toNat : Nat) : Int) : K) := by
          rw [Int.cast_natCast]
      _ = ((⌊h⌋ : Int) : K) := by rw [this]
  refine ⟨by rw [e]; exact Int.floor_le h, by rw [e]; exact Int.lt_floor_add_one h, ?_⟩
  have h1 : (((⌊h⌋).toNat : Nat) : K) ≤ (n : K) - 1 := by
    rw [e]; exact le_trans (Int.floor_le h) hn
  have h2 : (((⌊h⌋).toNat : Nat) : K) < (n : K) := by linarith
  exact_mod_cast h2

theorem getD_mono {s : List K} (hs : s.Pairwise (· ≤ ·)) {i j : Nat} (hij : i ≤ j)
    (hj : j < s.length) : s.getD i 0 ≤ s.getD j 0 := by
  rw [List.getD_eq_getElem _ _ hj, List.getD_eq_getElem _ _ (lt_of_le_of_lt hij hj)]
  rcases Nat.eq_or_lt_of_le hij with rfl | h
  · exact le_refl _
  · exact List.pairwise_iff_getElem.1 hs _ _ _ _ h

theorem interp_between {s : List K} (hs : s.Pairwise (· ≤ ·)) (hne : 0 < s.length) {h : K}
    (h0 : 0 ≤ h) (hn : h ≤ ((s.length : K) - 1)) :
    s.getD (⌊h⌋).toNat 0 ≤ interp s h ∧
      interp s h ≤ s.getD (min ((⌊h⌋).toNat + 1) (s.length - 1)) 0 := by
  obtain ⟨h1, h2, h3⟩ := floor_facts h0 hn
  have hd := getD_mono hs (i := (⌊h⌋).toNat)
    (j := min ((⌊h⌋).toNat + 1) (s.length - 1)) (by omega) (by omega)
  unfold interp
  constructor
  · have := mul_nonneg (sub_nonneg.2 h1) (sub_nonneg.2 hd)
    linarith
  · have h4 : h - (((⌊h⌋).toNat : Nat) : K) ≤ 1 := by linarith
    have := mul_le_mul_of_nonneg_right h4 (sub_nonneg.2 hd)
    linarith

theorem interp_mono {s : List K} (hs : s.Pairwise (· ≤ ·)) (hne : 0 < s.length) {h h' : K}
    (h0 : 0 ≤ h) (hh : h ≤ h') (hn : h' ≤ ((s.length : K) - 1)) : interp s h ≤ interp s h' := by
  obtain ⟨a1, a2, a3⟩ := floor_facts h0 (hh.trans hn)
  obtain ⟨b1, b2, b3⟩ := floor_facts (h0.trans hh) hn
  have hfl : (⌊h⌋).toNat ≤ (⌊h'⌋).toNat := Int.toNat_le_toNat (Int.floor_le_floor hh)
  rcases Nat.eq_or_lt_of_le hfl with he | hlt
  · unfold interp
    rw [← he]
    have hd := getD_mono hs (i := (⌊h⌋).toNat)
      (j := min ((⌊h⌋).toNat + 1) (s.length - 1)) (by omega) (by omega)
    have := mul_le_mul_of_nonneg_right (sub_le_sub_right hh (((⌊h⌋).toNat : Nat) : K))
      (sub_nonneg.2 hd)
    linarith
  · refine (interp_between hs hne h0 (hh.trans hn)).2.trans
      (le_trans ?_ (interp_between hs hne (h0.trans hh) hn).1)
    exact getD_mono hs (by omega) b3

theorem sorted_sort (xs : List K) : (xs.insertionSort (· ≤ ·)).Pairwise (· ≤ ·) :=
  List.pairwise_insertionSort _ _

theorem pos_bounds {n : Nat} (hn : 0 < n) {a : K} (h0 : 0 ≤ a) (h1 : a ≤ 1) :
    0 ≤ a * ((n : K) - 1) ∧ a * ((n : K) - 1) ≤ (n : K) - 1 := by
  have : (1 : K) ≤ (n : K) := by exact_mod_cast hn
  have hp : (0 : K) ≤ (n : K) - 1 := by linarith
  exact ⟨mul_nonneg h0 hp, mul_le_of_le_one_left hp h1⟩

end PV
