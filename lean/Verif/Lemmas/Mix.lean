import Mathlib.Analysis.Convex.Function
import Mathlib.Tactic.Linarith
import Mathlib.Tactic.Ring
import Verif.Model.Density
import Verif.Lemmas.TrendTensor

/-!
# Convex combinations of parameters
-/

namespace PV
open Tensor

/-- A convex combination of two lists. -/
def mixList (a a' : ℝ) (l l' : List ℝ) : List ℝ := List.zipWith (fun x x' => a * x + a' * x') l l'

theorem mixList_self {a a' : ℝ} (h : a + a' = 1) (l : List ℝ) : mixList a a' l l = l := by
  unfold mixList
  induction l with
  | nil => rfl
  | cons x l ih => rw [List.zipWith_cons_cons, ih, ← add_mul, h, one_mul]

theorem normalLP_mix_loc {a a' : ℝ} (h : a + a' = 1) (m m' s y : ℝ) :
    normalLP (a * m + a' * m') s y
      = a * normalLP m s y + a' * normalLP m' s y + a * a' * (m - m') ^ 2 / (2 * s ^ 2) := by
  obtain rfl : a' = 1 - a := by linarith
  unfold normalLP
  ring

theorem normalLP_mix {a a' : ℝ} (h : a + a' = 1) (m s x x' : ℝ) :
    normalLP m s (a * x + a' * x')
      = a * normalLP m s x + a' * normalLP m s x' + a * a' * (x - x') ^ 2 / (2 * s ^ 2) := by
  obtain rfl : a' = 1 - a := by linarith
  unfold normalLP
  ring

theorem laplaceLP_mix {a a' : ℝ} (ha : 0 ≤ a) (ha' : 0 ≤ a') (h : a + a' = 1) {m s : ℝ} (hs : 0 ≤ s)
    (x x' : ℝ) : a * laplaceLP m s x + a' * laplaceLP m s x' ≤ laplaceLP m s (a * x + a' * x') := by
  unfold laplaceLP
  have h1 : |a * x + a' * x' - m| ≤ a * |x - m| + a' * |x' - m| := by
    have : a * x + a' * x' - m = a * (x - m) + a' * (x' - m) := by
      obtain rfl : a' = 1 - a := by linarith
      ring
    rw [this]
    refine (abs_add_le _ _).trans ?_
    rw [abs_mul, abs_mul, abs_of_nonneg ha, abs_of_nonneg ha']
  have h2 := div_le_div_of_nonneg_right h1 hs
  have h3 : (a * |x - m| + a' * |x' - m|) / s = a * (|x - m| / s) + a' * (|x' - m| / s) := by ring
  have h4 : a * Real.log (2 * s) + a' * Real.log (2 * s) = Real.log (2 * s) := by
    rw [← add_mul, h, one_mul]
  rw [h3] at h2
  nlinarith

theorem sum_mix_le {a a' : ℝ} {f : ℝ → ℝ}
    (hf : ∀ x x', a * f x + a' * f x' ≤ f (a * x + a' * x')) :
    ∀ {l l' : List ℝ}, l.length = l'.length →
    a * (l.map f).sum + a' * (l'.map f).sum ≤ ((mixList a a' l l').map f).sum := by
  intro l
  induction l with
  | nil =>
    intro l' h
    rw [List.length_eq_zero_iff.1 h.symm]
    simp [mixList]
  | cons x l ih =>
    intro l' h
    match l', h with
    | x' :: l', h =>
      have := ih (l' := l') (by simpa using h)
      have h2 := hf x x'
      simp only [mixList, List.zipWith_cons_cons, List.map_cons, List.sum_cons] at this ⊢
      linarith

theorem sum_mix_eq {a a' : ℝ} {f : ℝ → ℝ}
    (hf : ∀ x x', a * f x + a' * f x' ≤ f (a * x + a' * x'))
    (hs : ∀ x x', x ≠ x' → a * f x + a' * f x' < f (a * x + a' * x')) :
    ∀ {l l' : List ℝ}, l.length = l'.length →
    ((mixList a a' l l').map f).sum ≤ a * (l.map f).sum + a' * (l'.map f).sum → l = l' := by
  intro l
  induction l with
  | nil =>
    intro l' h _
    rw [List.length_eq_zero_iff.1 h.symm]
  | cons x l ih =>
    intro l' h hle
    match l', h with
    | x' :: l', h =>
      have hl : l.length = l'.length := by simpa using h
      have h1 := sum_mix_le hf hl
      have h2 := hf x x'
      simp only [mixList, List.zipWith_cons_cons, List.map_cons, List.sum_cons] at hle h1
      have hx : x = x' := by
        by_contra hne
        have := hs x x' hne
        linarith
      have := ih hl (by
        simp only [mixList]
        linarith)
      rw [hx, this]

theorem dot_mix {a a' : ℝ} : ∀ {r l l' : List ℝ}, l.length = l'.length →
    dot r (mixList a a' l l') = a * dot r l + a' * dot r l' := by
  intro r
  induction r with
  | nil => intro l l' _; simp [dot]
  | cons c r ih =>
    intro l l' h
    match l, l', h with
    | [], [], _ => simp [dot, mixList]
    | x :: l, x' :: l', h =>
      have := ih (l := l) (l' := l') (by simpa using h)
      simp only [dot, mixList, List.zipWith_cons_cons, List.sum_cons] at this ⊢
      rw [this]
      ring

theorem zip_mix {a a' : ℝ} {ρ : ℝ → ℝ} : ∀ {cs l l' : List ℝ}, l.length = l'.length →
    (List.zipWith (fun c b => b * ρ c) cs (mixList a a' l l')).sum
      = a * (List.zipWith (fun c b => b * ρ c) cs l).sum
        + a' * (List.zipWith (fun c b => b * ρ c) cs l').sum := by
  intro cs
  induction cs with
  | nil => intro l l' _; simp
  | cons c cs ih =>
    intro l l' h
    match l, l', h with
    | [], [], _ => simp [mixList]
    | x :: l, x' :: l', h =>
      have := ih (l := l) (l' := l') (by simpa using h)
      simp only [mixList, List.zipWith_cons_cons, List.sum_cons] at this ⊢
      rw [this]
      ring

/-- A sum over a list of terms each of which loses nothing on average: a total without gain has no
gain anywhere. -/
theorem sum_gap {α : Type} {a a' : ℝ} {f g h : α → ℝ} : ∀ {l : List α},
    (∀ r ∈ l, a * f r + a' * g r ≤ h r) →
    a * (l.map f).sum + a' * (l.map g).sum ≤ (l.map h).sum ∧
    ((l.map h).sum ≤ a * (l.map f).sum + a' * (l.map g).sum →
      ∀ r ∈ l, h r ≤ a * f r + a' * g r) := by
  intro l
  induction l with
  | nil => intro _; simp
  | cons r l ih =>
    intro hl
    obtain ⟨h1, h2⟩ := ih fun r hr => hl r (by simp [hr])
    have h3 := hl r (by simp)
    simp only [List.map_cons, List.sum_cons]
    refine ⟨by linarith, fun h4 => ?_⟩
    intro r' hr'
    rcases List.mem_cons.1 hr' with rfl | hr'
    · linarith
    · exact h2 (by linarith) r' hr'

end PV
