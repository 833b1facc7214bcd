import Mathlib.Topology.Order.Compact
import Mathlib.Topology.Algebra.Order.Field
import Mathlib.Topology.MetricSpace.ProperSpace.Real
import Mathlib.Analysis.Normed.Group.Basic
import Mathlib.Analysis.Normed.Group.Bounded
import Verif.Model.Density
import Verif.Lemmas.TrendTensor

/-!
# Functions that have a largest value
-/

namespace PV
open Filter Tensor

/-- A sum of functions of the coordinates, each tending to `-∞`, plus a bounded function has a
largest value. -/
theorem exists_best {ι : Type} [Fintype ι] {f : ι → ℝ → ℝ} (hc : ∀ i, Continuous (f i))
    (ht : ∀ i, Tendsto (f i) (cocompact ℝ) atBot) {R : (ι → ℝ) → ℝ} (hR : Continuous R) {C : ℝ}
    (hb : ∀ v, R v ≤ C) :
    ∃ v : ι → ℝ, ∀ w, ∑ i, f i (w i) + R w ≤ ∑ i, f i (v i) + R v := by
  classical
  refine Continuous.exists_forall_ge (f := fun v : ι → ℝ => ∑ i, f i (v i) + R v) ?_ ?_
  · exact (continuous_finset_sum _ fun i _ => (hc i).comp (continuous_apply i)).add hR
  · have hM : ∀ i, ∃ M, ∀ x, f i x ≤ M := fun i => by
      obtain ⟨x, hx⟩ := (hc i).exists_forall_ge (ht i)
      exact ⟨_, hx⟩
    choose M hM using hM
    rw [← Filter.coprodᵢ_cocompact, Filter.coprodᵢ, tendsto_iSup]
    intro i
    have h1 : Tendsto (fun v : ι → ℝ => f i (v i) + (∑ j ∈ Finset.univ.erase i, M j + C))
        (comap (Function.eval i) (cocompact ℝ)) atBot :=
      tendsto_atBot_add_const_right _ _ ((ht i).comp tendsto_comap)
    refine tendsto_atBot_mono (fun v => ?_) h1
    rw [← Finset.add_sum_erase _ _ (Finset.mem_univ i), add_assoc]
    have := Finset.sum_le_sum fun j (_ : j ∈ Finset.univ.erase i) => hM j (v j)
    linarith [hb v]

theorem continuous_normalLP (m s : ℝ) : Continuous (normalLP m s) := by
  unfold normalLP
  fun_prop

theorem continuous_normalLP_loc (s x : ℝ) : Continuous fun m => normalLP m s x := by
  unfold normalLP
  fun_prop

theorem continuous_laplaceLP (m s : ℝ) : Continuous (laplaceLP m s) := by
  unfold laplaceLP
  fun_prop

theorem normalLP_le (m s x : ℝ) : normalLP m s x ≤ -Real.log s - Real.log (2 * Real.pi) / 2 := by
  unfold normalLP
  have : 0 ≤ (x - m) ^ 2 / (2 * s ^ 2) := by positivity
  linarith

theorem tendsto_abs_shift (m : ℝ) : Tendsto (fun x : ℝ => |x - m|) (cocompact ℝ) atTop := by
  have h : Tendsto (fun x : ℝ => ‖x‖) (cocompact ℝ) atTop := tendsto_norm_cocompact_atTop
  refine tendsto_atTop_mono (fun x => ?_) (tendsto_atTop_add_const_right _ (-|m|) h)
  have := abs_sub_abs_le_abs_sub x m
  rw [Real.norm_eq_abs]
  linarith

theorem tendsto_normalLP (m : ℝ) {s : ℝ} (hs : s ≠ 0) :
    Tendsto (normalLP m s) (cocompact ℝ) atBot := by
  have h0 : 0 < 2 * s ^ 2 := by positivity
  have h1 : Tendsto (fun x : ℝ => |x - m| ^ 2 / (2 * s ^ 2)) (cocompact ℝ) atTop :=
    ((tendsto_pow_atTop (two_ne_zero)).comp (tendsto_abs_shift m)).atTop_div_const h0
  have h2 := tendsto_atBot_add_const_right (cocompact ℝ)
    (- Real.log s - Real.log (2 * Real.pi) / 2) (tendsto_neg_atTop_atBot.comp h1)
  refine h2.congr fun x => ?_
  simp only [Function.comp, normalLP, sq_abs]
  ring

theorem tendsto_laplaceLP (m : ℝ) {s : ℝ} (hs : 0 < s) :
    Tendsto (laplaceLP m s) (cocompact ℝ) atBot := by
  have h2 := tendsto_atBot_add_const_right (cocompact ℝ) (- Real.log (2 * s))
    (tendsto_neg_atTop_atBot.comp ((tendsto_abs_shift m).atTop_div_const hs))
  refine h2.congr fun x => ?_
  simp only [Function.comp, laplaceLP]
  ring

theorem continuous_zipWith_ofFn {X : Type} [TopologicalSpace X] {c : ℝ → ℝ → ℝ}
    (hc : ∀ u, Continuous (c u)) : ∀ {n : Nat} (us : List ℝ) {g : X → Fin n → ℝ},
    (∀ i, Continuous fun x => g x i) →
    Continuous fun x => (List.zipWith c us (List.ofFn (g x))).sum
  | 0, us, g, _ => by simp only [List.ofFn_zero, List.zipWith_nil_right]; exact continuous_const
  | n + 1, [], g, _ => by simp only [List.zipWith_nil_left]; exact continuous_const
  | n + 1, u :: us, g, hg => by
    simp only [List.ofFn_succ, List.zipWith_cons_cons, List.sum_cons]
    exact ((hc u).comp (hg 0)).add (continuous_zipWith_ofFn hc us fun i => hg i.succ)

theorem continuous_map_sum {X α : Type} [TopologicalSpace X] {g : α → X → ℝ} :
    ∀ (l : List α), (∀ a ∈ l, Continuous (g a)) → Continuous fun x => (l.map fun a => g a x).sum
  | [], _ => by simp only [List.map_nil]; exact continuous_const
  | a :: l, h => by
    simp only [List.map_cons, List.sum_cons]
    exact (h a (by simp)).add (continuous_map_sum l fun b hb => h b (by simp [hb]))

end PV
