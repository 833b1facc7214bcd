import Verif.Lemmas.Scaling
import Verif.Spec.Scaling

set_option linter.unusedSectionVars false

namespace PV
variable {K τ : Type} [Field K] [LinearOrder K] [IsStrictOrderedRing K]

theorem forall₂_imp_mem {α β : Type} {R S : α → β → Prop} {l : List α} {m : List β}
    (h : List.Forall₂ R l m) (f : ∀ a b, a ∈ l → R a b → S a b) : List.Forall₂ S l m := by
  induction h with
  | nil => exact .nil
  | cons h1 _ ih =>
    exact .cons (f _ _ (by simp) h1) (ih fun a b ha hab => f a b (by simp [ha]) hab)

/-! ## Helper: what the inferred scale is -/

theorem inferred_scale_rows {y : Frame String τ K} {c : String} (hw : y.WF)
    (hc : y.cols = [c]) {s : Scale K} (hs : setYScales none y = .ok s)
    {ss : List K} (h : rowScales s y = .ok ss) :
    List.Forall₂ (fun r σ => IsSeriesScale y c r.sid σ) y.rows ss := by
  have hcol : y.cols.headD "" = c := by rw [hc]; rfl
  by_cases h1 : y.nlevels = 1
  · -- one series
    unfold setYScales rawScale at hs
    simp only [h1, if_true] at hs
    cases hm : maxAbs? (targetVals y y.rows) with
    | none => rw [hm] at hs; cases hs
    | some m =>
      rw [hm] at hs
      have hs' := Except.ok.inj hs
      obtain ⟨hb, ha⟩ := maxAbs?_spec hm
      have hsid : ∀ r ∈ y.rows, r.sid = [] := by
        intro r hr
        have := hw r hr
        rw [h1] at this
        exact List.length_eq_zero_iff.1 (by omega)
      simp only [zeroToOne] at hs'
      by_cases hm0 : m = 0
      · rw [if_pos hm0] at hs'
        subst hs'
        simp [rowScales, throw, throwThe, MonadExceptOf.throw] at h
      · rw [if_neg hm0] at hs'
        subst hs'
        simp only [rowScales, pure, Except.pure, Except.ok.injEq] at h
        subst h
        rw [List.forall₂_map_right_iff, List.forall₂_same]
        intro r hr
        refine ⟨m, ⟨?_, ?_⟩, by rw [if_neg hm0]⟩
        · intro r' hr' _
          apply hb
          rw [targetVals, hcol]
          exact List.mem_map.2 ⟨r', hr', rfl⟩
        · obtain ⟨v, hv, hv'⟩ := ha
          rw [targetVals, hcol] at hv
          obtain ⟨r', hr', rfl⟩ := List.mem_map.1 hv
          exact ⟨r', hr', by rw [hsid r hr, hsid r' hr'], hv'⟩
  · unfold setYScales rawScale at hs
    simp only [h1, if_false] at hs
    have hs' := Except.ok.inj hs
    subst hs'
    simp only [zeroToOne, rowScales, h1, if_false] at h
    rw [mapM_ok_iff] at h
    refine forall₂_imp_mem h ?_
    intro r σ hr hrσ
    obtain ⟨m, hm, hf⟩ := lookup_groupMaxAbs (y := y) (s := r.sid) (List.mem_map_of_mem hr)
    have hf' : ((groupMaxAbs y).map fun p => (p.1, if p.2 = 0 then (1:K) else p.2)).find?
        (fun p => p.1 = r.sid) = some (r.sid, if m = 0 then 1 else m) := by
      rw [List.find?_map]
      simp only [Function.comp_def]
      rw [hf]; rfl
    unfold lookupScale at hrσ
    rw [hf'] at hrσ
    simp only [pure, Except.pure, Except.ok.injEq] at hrσ
    obtain ⟨hb, ha⟩ := maxAbs?_spec hm
    rw [targetVals, hcol] at hb ha
    refine ⟨m, ⟨?_, ?_⟩, hrσ.symm⟩
    · intro r' hr' he
      apply hb
      exact List.mem_map.2 ⟨r', by simp [Frame.rowsOf, hr', he], rfl⟩
    · obtain ⟨v, hv, hv'⟩ := ha
      obtain ⟨r', hr', rfl⟩ := List.mem_map.1 hv
      simp only [Frame.rowsOf, List.mem_filter, decide_eq_true_eq] at hr'
      exact ⟨r', hr'.1, hr'.2, hv'⟩

end PV
