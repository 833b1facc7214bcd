import Mathlib.Algebra.Order.Field.Basic
import Mathlib.Data.List.Pairwise
import Mathlib.Tactic.Linarith
import Mathlib.Tactic.FieldSimp
import Mathlib.Tactic.Ring
import Verif.Lemmas.Frame
import Verif.Model.Trend

/-! # Trend time -/

namespace PV
variable {K τ : Type} [Field K] [LinearOrder K]

theorem sum_diffs : ∀ (a : K) (l : List K), (diffs (a :: l)).sum = (a :: l).getLastD a - a
  | a, [] => by simp [diffs]
  | a, b :: l => by
    rw [diffs, List.sum_cons, sum_diffs b l]
    simp only [List.getLastD_cons]
    ring

theorem foldl_min_of_le {a : K} : ∀ {l : List K}, (∀ b ∈ l, a ≤ b) → l.foldl min a = a
  | [], _ => rfl
  | b :: l, h => by
    rw [List.foldl_cons, min_eq_left (h b (by simp))]
    exact foldl_min_of_le fun c hc => h c (by simp [hc])

theorem foldl_max_of_le : ∀ {l : List K} {a : K}, (a :: l).Pairwise (· ≤ ·) →
    l.foldl max a = (a :: l).getLastD a
  | [], _, _ => rfl
  | b :: l, a, h => by
    rw [List.foldl_cons, max_eq_right (List.rel_of_pairwise_cons h (by simp)),
      foldl_max_of_le (List.pairwise_cons.1 h).2]
    simp only [List.getLastD_cons]

theorem foldl_max_spec : ∀ (l : List K) (b : K),
    l.foldl max b ∈ b :: l ∧ ∀ s ∈ b :: l, s ≤ l.foldl max b
  | [], b => by simp
  | x :: l, b => by
    obtain ⟨h1, h2⟩ := foldl_max_spec l (max b x)
    rw [List.foldl_cons]
    constructor
    · rcases List.mem_cons.1 h1 with h1 | h1
      · rw [h1]
        rcases max_choice b x with h | h <;> rw [h] <;> simp
      · simp [h1]
    · intro s hs
      rcases List.mem_cons.1 hs with rfl | hs
      · exact (le_max_left s x).trans (h2 _ (by simp))
      · rcases List.mem_cons.1 hs with rfl | hs
        · exact (le_max_right b s).trans (h2 _ (by simp))
        · exact h2 s (by simp [hs])

theorem map_unique {α β : Type} [DecidableEq α] [DecidableEq β] {g : α → β} :
    ∀ {l : List α}, (∀ a ∈ l, ∀ b ∈ l, g a = g b → a = b) → unique (l.map g) = (unique l).map g
  | [], _ => rfl
  | a :: l, h => by
    rw [List.map_cons, unique, unique, List.map_cons,
      map_unique fun x hx y hy => h x (by simp [hx]) y (by simp [hy]), List.filter_map]
    congr 2
    apply List.filter_congr
    intro x hx
    have hx' : x ∈ l := mem_unique.1 hx
    simp only [Function.comp, ne_eq, decide_not, Bool.not_eq_eq_eq_not, Bool.not_not,
      decide_eq_decide]
    constructor
    · exact h x (by simp [hx']) a (by simp)
    · rintro rfl; rfl

theorem getLastD_mem {a : K} {l : List K} (h : l ≠ []) : l.getLastD a ∈ l := by
  rw [List.getLastD_eq_getLast?, List.getLast?_eq_getLast_of_ne_nil h]
  exact List.getLast_mem h

section
variable [DecidableEq τ] {ι V : Type}

/-- What `trendTimeFit` returns on increasing times. -/
theorem trendTimeFit_increasing [IsStrictOrderedRing K] {days : τ → K} {y : Frame ι τ V} {d : K}
    {ds : List K} (h : (unique y.times).map days = d :: ds) (hne : ds ≠ [])
    (hs : (d :: ds).Pairwise (· < ·)) :
    0 < (ds.getLastD d - d) / (ds.length : K) ∧
    trendTimeFit days y = .ok ⟨(ds.getLastD d - d) / (ds.length : K),
      d / ((ds.getLastD d - d) / (ds.length : K)), nSeriesOf y⟩ := by
  have hlt : d < ds.getLastD d := (List.pairwise_cons.1 hs).1 _ (getLastD_mem hne)
  have hlen : (0 : K) < ds.length := by
    exact_mod_cast List.length_pos_iff.2 hne
  have hpos : 0 < (ds.getLastD d - d) / (ds.length : K) := div_pos (sub_pos.2 hlt) hlen
  refine ⟨hpos, ?_⟩
  unfold trendTimeFit
  rw [h]
  simp only [sum_diffs, List.getLastD_cons]
  rw [if_neg (by rintro (h | h); exacts [hne h, hpos.ne' h]),
    foldl_min_of_le fun b hb => ((List.pairwise_cons.1 hs).1 b hb).le]

end
end PV
