import Verif.Model.MultivariateData
import Verif.Props.Expand

/-!
# C49 for the data of `HierarchicalProphet`
-/

namespace PV
section
variable {τ K : Type} [LinearOrder τ] [Field K] [LinearOrder K]

/-- **C49**, the data of `fit` and of `predict`: under the hypotheses of `C49_shared_partial` and
with distinct new names, in the table the effects see while fitting every shared column is a single,
unchanged column and every other one is replaced by one column per series; and the same, with the
same features, in the table they see while predicting. -/
theorem C49_data_partial {compile : String → PyM (String → Bool)}
    (hcomp : ∀ p c, reCompile p = some c → compile p = c)
    {order : List String → List String} (ho : ∀ l, (order l).Perm l) {shared : List String}
    {x g : Frame String τ K} (hlev : x.nlevels ≠ 1) (hx : x.cols ≠ [])
    (hplain : ∀ c ∈ x.cols, c ∉ shared → Plain c)
    (hpre : ∀ c ∈ x.cols, c ∉ shared → ∀ d ∈ x.cols, d ∈ shared → ¬ c.toList <+: d.toList)
    (hd : DistinctNames x.cols x.series)
    (hnew : ∀ c ∈ x.cols, ∀ s ∈ x.series, colName c s ∉ x.cols) {e : Option ExpandState}
    (h : fitExpand compile order shared x = .ok (e, g)) :
    ∃ features, (∀ c, c ∈ features ↔ c ∈ x.cols ∧ c ∉ shared) ∧ Expanded features x g ∧
      ∀ {tf : Frame String τ K → PyM (Frame String τ K)} {x1 x2 g' : Frame String τ K}
        {fh : List τ}, tf x1 = .ok x2 → x2.cols = x.cols → (∀ s ∈ x2.series, s ∈ x.series) →
        predictExpand tf e x1 fh = .ok g' → Expanded features x2 g' := by
  obtain ⟨st, hf, hm⟩ := C49_shared_partial hcomp ho hplain hpre
  have hsk : st.skip = false := by
    rw [(expandFit_ok ho hf).1]
    simpa using hlev
  unfold fitExpand at h
  rw [if_neg hx] at h
  simp only [hf, bind, Except.bind] at h
  cases ht : expandTransform st x with
  | error err => rw [ht] at h; cases h
  | ok g1 =>
    rw [ht] at h
    cases h
    refine ⟨st.matched, hm, C48_expansion hsk ht ?_ ?_ fun c hc => ((hm c).1 hc).1, ?_⟩
    · exact fun c hc c' hc' => hd c ((hm c).1 hc).1 c' ((hm c').1 hc').1
    · exact fun c hc => hnew c ((hm c).1 hc).1
    · intro tf x1 x2 g' fh htf hcols hser hp
      unfold predictExpand at hp
      simp only at hp
      split at hp
      swap
      · cases hp
      simp only [htf, bind, Except.bind] at hp
      refine C48_expansion hsk hp ?_ ?_ ?_
      · exact fun c hc c' hc' s hs s' hs' =>
          hd c ((hm c).1 hc).1 c' ((hm c').1 hc').1 s (hser s hs) s' (hser s' hs')
      · intro c hc s hs
        rw [hcols]
        exact hnew c ((hm c).1 hc).1 s (hser s hs)
      · intro c hc
        rw [hcols]
        exact ((hm c).1 hc).1

end

/-! Example: columns `price` (expanded) and `promo` (shared), predicting for one of the series. -/

def exFit49 : Frame String ℤ ℚ :=
  ⟨2, ["price", "promo"], [⟨["a"], 0, fun c => if c = "price" then 2 else 1⟩,
    ⟨["b"], 0, fun c => if c = "price" then 3 else 1⟩]⟩

example : (fitExpand someCompile id ["promo"] exFit49).toOption.map (fun r => r.2.cols)
    = some ["promo", "price_dup_a", "price_dup_b"] := by decide +kernel
example : ((fitExpand someCompile id ["promo"] exFit49).toOption.bind fun r =>
    (predictExpand .ok r.1 exFit49 [0]).toOption.map fun g => g.rows.map fun r =>
      g.cols.map r.val) = some [[1, 2, 0], [1, 0, 3]] := by decide +kernel
example : (∀ c ∈ exFit49.cols, c ∉ ["promo"] → Plain c) ∧
    (∀ c ∈ exFit49.cols, c ∉ ["promo"] → ∀ d ∈ exFit49.cols, d ∈ ["promo"] →
      ¬ c.toList <+: d.toList) ∧ DistinctNames exFit49.cols exFit49.series ∧
    (∀ c ∈ exFit49.cols, ∀ s ∈ exFit49.series, colName c s ∉ exFit49.cols) := by
  refine ⟨?_, ?_, ?_, ?_⟩
  · unfold Plain; decide +kernel
  · decide +kernel
  · unfold DistinctNames; decide +kernel
  · decide +kernel

end PV
