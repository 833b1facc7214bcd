import Mathlib.Algebra.Module.Basic
import Mathlib.Data.Real.Basic
import Mathlib.Tactic.Linarith
import Mathlib.Tactic.Ring
import Mathlib.Tactic.FieldSimp
import Mathlib.Tactic.Positivity
import Mathlib.Algebra.Order.BigOperators.Group.List

/-!
# Penalised least squares is a smoother

Maximisers of a concave function minus squared distances to data.
-/

namespace PV

section
variable {V α : Type} [AddCommGroup V] [Module ℝ V] {G : V → ℝ} {D : List α} {w z z' : α → ℝ} {ℓ : α → V → ℝ}

/-- Values along a segment. -/
def Segments (f : V → ℝ) : Prop := ∀ v v' a, f ((1 - a) • v + a • v') = (1 - a) * f v + a * f v'

theorem sum_segment (hℓ : ∀ d, Segments (ℓ d)) (v v' : V) (a : ℝ) : ∀ D : List α,
    (D.map fun d => w d * (z d - ℓ d ((1 - a) • v + a • v')) ^ 2 / 2).sum
      = (D.map fun d => w d * (z d - ℓ d v) ^ 2 / 2).sum
        - a * (D.map fun d => w d * ((z d - ℓ d v) * (ℓ d v' - ℓ d v))).sum
        + a ^ 2 * (D.map fun d => w d * (ℓ d v' - ℓ d v) ^ 2 / 2).sum
  | [] => by simp
  | d :: D => by
    simp only [List.map_cons, List.sum_cons, sum_segment hℓ v v' a D]
    rw [hℓ d v v' a]
    ring

/-- Nothing is gained by moving from a maximiser towards any other point. -/
theorem variational (hG : ∀ v v' a, 0 ≤ a → a ≤ 1 → (1 - a) * G v + a * G v' ≤ G ((1 - a) • v + a • v'))
    (hℓ : ∀ d, Segments (ℓ d)) {v : V}
    (hbest : ∀ u, G u - (D.map fun d => w d * (z d - ℓ d u) ^ 2 / 2).sum
      ≤ G v - (D.map fun d => w d * (z d - ℓ d v) ^ 2 / 2).sum) (v' : V) :
    G v' - G v + (D.map fun d => w d * ((z d - ℓ d v) * (ℓ d v' - ℓ d v))).sum ≤ 0 := by
  set A := (D.map fun d => w d * ((z d - ℓ d v) * (ℓ d v' - ℓ d v))).sum with hA
  set B := (D.map fun d => w d * (ℓ d v' - ℓ d v) ^ 2 / 2).sum with hB
  by_contra hc
  have hpos : 0 < G v' - G v + A := not_le.1 hc
  have key : ∀ a : ℝ, 0 < a → a ≤ 1 → G v' - G v + A ≤ a * B := by
    intro a h0 h1
    have e1 := hG v v' a h0.le h1
    have e2 := hbest ((1 - a) • v + a • v')
    rw [sum_segment hℓ v v' a D, ← hA, ← hB] at e2
    have e3 : a * (G v' - G v + A) ≤ a * (a * B) := by nlinarith
    exact le_of_mul_le_mul_left e3 h0
  have hB0 : 0 < B := by
    have := key 1 one_pos le_rfl
    linarith
  set a := min 1 ((G v' - G v + A) / (2 * B)) with ha
  have h0 : 0 < a := lt_min one_pos (by positivity)
  have := key a h0 (min_le_left _ _)
  have h2 : a * B ≤ (G v' - G v + A) / (2 * B) * B := mul_le_mul_of_nonneg_right (min_le_right _ _) hB0.le
  have h3 : (G v' - G v + A) / (2 * B) * B = (G v' - G v + A) / 2 := by field_simp
  linarith

theorem sum_two (D : List α) (f g : α → ℝ) : (D.map f).sum + (D.map g).sum = (D.map fun d => f d + g d).sum :=
  List.sum_map_add.symm

/-- Maximisers for two data sets: weighted by `w`, the fitted values differ no more than the data do, and in
the same direction. -/
theorem smoother (hG : ∀ v v' a, 0 ≤ a → a ≤ 1 → (1 - a) * G v + a * G v' ≤ G ((1 - a) • v + a • v'))
    (hℓ : ∀ d, Segments (ℓ d)) {v v' : V}
    (hbest : ∀ u, G u - (D.map fun d => w d * (z d - ℓ d u) ^ 2 / 2).sum
      ≤ G v - (D.map fun d => w d * (z d - ℓ d v) ^ 2 / 2).sum)
    (hbest' : ∀ u, G u - (D.map fun d => w d * (z' d - ℓ d u) ^ 2 / 2).sum
      ≤ G v' - (D.map fun d => w d * (z' d - ℓ d v') ^ 2 / 2).sum) :
    (D.map fun d => w d * (ℓ d v' - ℓ d v) ^ 2).sum
      ≤ (D.map fun d => w d * ((z' d - z d) * (ℓ d v' - ℓ d v))).sum := by
  have h1 := variational hG hℓ hbest v'
  have h2 := variational hG hℓ hbest' v
  have h3 : (D.map fun d => w d * (ℓ d v' - ℓ d v) ^ 2).sum
      = (D.map fun d => w d * ((z' d - z d) * (ℓ d v' - ℓ d v))).sum
        + ((D.map fun d => w d * ((z d - ℓ d v) * (ℓ d v' - ℓ d v))).sum
          + (D.map fun d => w d * ((z' d - ℓ d v') * (ℓ d v - ℓ d v'))).sum) := by
    rw [sum_two, sum_two]
    refine congrArg List.sum (List.map_congr_left fun d _ => ?_)
    ring
  linarith

/-- What follows for the sizes of the changes. -/
theorem smaller_of_smooth {f g : α → ℝ} (hw : ∀ d ∈ D, 0 ≤ w d)
    (h : (D.map fun d => w d * f d ^ 2).sum ≤ (D.map fun d => w d * (g d * f d)).sum) :
    (D.map fun d => w d * f d ^ 2).sum ≤ (D.map fun d => w d * g d ^ 2).sum := by
  have h1 : (D.map fun d => w d * (g d * f d)).sum + (D.map fun d => w d * (g d * f d)).sum
      ≤ (D.map fun d => w d * f d ^ 2).sum + (D.map fun d => w d * g d ^ 2).sum := by
    rw [sum_two, sum_two]
    refine List.sum_le_sum fun d hd => ?_
    have := mul_nonneg (hw d hd) (sq_nonneg (f d - g d))
    nlinarith
  linarith

end
end PV
