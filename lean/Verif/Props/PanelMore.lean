import Verif.Props.PanelUnits
import Verif.Props.WhatIf

/-!
# C107 for panels: more spend never lowers the forecast, and never touches other series
-/

set_option linter.unusedSectionVars false

namespace PV
open Tensor

section
variable {τ : Type} [LinearOrder τ] {days : τ → ℝ} {p : PiecewiseParams ℝ τ}
  {cfg : HierConfig (Option (PiecewiseState ℝ τ)) (Scale ℝ) τ (Tensor ℝ) ℝ} {mode : String → String}

theorem combine_mono {mode : String} {g u v : ℝ} (hg : mode ≠ "additive" → 0 ≤ g) (h : u ≤ v) :
    combine mode g u ≤ combine mode g v := by
  unfold combine
  split
  · exact h
  · rename_i hm
    exact mul_le_mul_of_nonneg_left h (hg hm)

theorem own_le {cols shared : List String} {X₁ X₂ : Option (Frame String τ ℝ)} {ss : List (List String)} {a : List String}
    {t : τ} {v w : String → ℝ} (ho : OwnCopies cols shared X₁ ss a t v) (ho' : OwnCopies cols shared X₂ ss a t w)
    (hle : ∀ d ∈ cols, givenValue X₁ a t d ≤ givenValue X₂ a t d) {n : String} (hn : ModelColumn cols shared ss n) :
    v n ≤ w n := by
  rcases hn with ⟨h1, h2⟩ | ⟨d, hd, hds, b, hb, rfl⟩
  · rw [ho.shared n h1 h2, ho'.shared n h1 h2]
    exact hle n h1
  · by_cases hba : b = a
    · subst hba
      rw [ho.own d hd hds, ho'.own d hd hds]
      exact hle d hd
    · rw [ho.other d hd hds b hb hba, ho'.other d hd hds b hb hba]

/-- Two forecasts of a fitted panel for one series and date, from tables of regressors of which the second
holds at least the values of the first for that series and date: with non-negative coefficients, and a
non-negative trend if an effect is multiplicative, the second forecast is at least the first.  What the
tables hold for other series and dates plays no role; if they hold the same for this one, the forecasts are
the same whatever the coefficients. -/
theorem C107_panel (hV : ValidHier days p cfg) (hM : Modes mode cfg) {y : Frame String τ ℝ}
    (hy : RegularPanel y) {ss : List (List String)} (hss : SeriesOf y ss)
    (hsq : ss.length ≠ 1 ∨ p.squeeze = false) {ts : List τ} (hts : DatesOf y ts)
    {X : Option (Frame String τ ℝ)} (hX : GivenExog X ss ts)
    (hn : PlainNames cfg.compile (givenCols X) cfg.shared ss)
    {m : HierFit (Option (PiecewiseState ℝ τ)) (Scale ℝ) τ (Tensor ℝ) ℝ} (hfit : hierFitData cfg y X = .ok m) :
    ∃ s, m.trend.st.2 = some s ∧
      ∀ (y₁ y₂ : Frame String τ ℝ) (levels levels' : List (List String)) (X₁ X₂ : Option (Frame String τ ℝ))
        (fh₁ fh₂ : List τ), fh₁.Pairwise (· < ·) → fh₂.Pairwise (· < ·) →
      GivenExog X₁ ss fh₁ → (∀ c ∈ givenCols X, c ∈ givenCols X₁) →
      GivenExog X₂ ss fh₂ → (∀ c ∈ givenCols X, c ∈ givenCols X₂) →
      ∀ td data td' data', hierPredictData cfg m levels y₁ X₁ fh₁ = .ok (td, data) →
      hierPredictData cfg m levels' y₂ X₂ fh₂ = .ok (td', data') →
      ∀ θ st st', PanelSites s.cps θ →
      computeMean (m.trend.cls.call m.trend.st) td data (callsOf m.objs) θ = .ok st →
      computeMean (m.trend.cls.call m.trend.st) td' data' (callsOf m.objs) θ = .ok st' →
      ∀ (i j j' : Nat) (a : List String) (t : τ), ss[i]? = some a → fh₁[j]? = some t → fh₂[j']? = some t →
      ∃ v v', st.mean.get? [i, j, 0] = some v ∧ st'.mean.get? [i, j', 0] = some v' ∧
        ((∀ d ∈ givenCols X, givenValue X₁ a t d = givenValue X₂ a t d) → v = v') ∧
        ((∀ fe ∈ kept m.fitted, ∀ b ∈ (θ (fe.name ++ "/coefs")).data, 0 ≤ b) →
          (∀ fe ∈ kept m.fitted, mode fe.name ≠ "additive" → 0 ≤ panelTrendAt days s ss θ a t) →
          (∀ d ∈ givenCols X, givenValue X₁ a t d ≤ givenValue X₂ a t d) → v ≤ v') := by
  obtain ⟨s, hs, hmc, hF⟩ := C115_closed_form hV hM hy hss hsq hts hX hn hfit
  refine ⟨s, hs, ?_⟩
  intro y₁ y₂ levels levels' X₁ X₂ fh₁ fh₂ hinc₁ hinc₂ hX₁ hsub₁ hX₂ hsub₂ td data td' data' hp hp' θ st st' hθ hst hst'
    i j j' a t hi hj hj'
  obtain ⟨val, hval, hv⟩ := hF y₁ levels X₁ fh₁ hinc₁ hX₁ hsub₁ td data hp
  obtain ⟨val', hval', hv'⟩ := hF y₂ levels' X₂ fh₂ hinc₂ hX₂ hsub₂ td' data' hp'
  have ha := List.mem_of_getElem? hi
  have o := hval a ha t (List.mem_of_getElem? hj)
  have o' := hval' a ha t (List.mem_of_getElem? hj')
  refine ⟨_, _, hv θ st hθ hst i j a t hi hj, hv' θ st' hθ hst' i j' a t hi hj', fun heq => ?_, fun hβ htr hle => ?_⟩
  · congr 2
    refine List.map_congr_left fun fe hfe => ?_
    congr 2
    refine List.map_congr_left fun n hnc => ?_
    have hm := hmc fe (List.mem_filter.1 hfe).1 n hnc
    exact le_antisymm (own_le o o' (fun d hd => (heq d hd).le) hm) (own_le o' o (fun d hd => (heq d hd).ge) hm)
  · refine add_le_add_right (List.sum_le_sum fun fe hfe => combine_mono (htr fe hfe) (dot_mono ?_ (hβ fe hfe))) _
    rw [List.forall₂_map_left_iff, List.forall₂_map_right_iff, List.forall₂_same]
    exact fun n hnc => own_le o o' hle (hmc fe (List.mem_filter.1 hfe).1 n hnc)

end

/-! ## A case -/

/-- Twice the spend of both series at date 3: the second horizon is another one, and both series gain. -/
example : ∃ m s, hierFitData exCfg113 exY113 (some exX113) = .ok m ∧ m.trend.st.2 = some s ∧
    ∃ td data td' data', hierPredictData exCfg113 m [["__total", "p", "q"]] exY113 (some exX113) [2, 3] = .ok (td, data) ∧
      hierPredictData exCfg113 m [["__total", "p", "q"]] exY113 (some (exX113.scaleCols fun _ => 2)) [3] = .ok (td', data') ∧
      ∀ θ, HierSizes s m θ → (∀ fe ∈ kept m.fitted, ∀ b ∈ (θ (fe.name ++ "/coefs")).data, 0 ≤ b) →
        0 ≤ panelTrendAt (fun t : ℤ => (t : ℝ)) s [["p"], ["q"]] θ ["q"] 3 → ∃ st st' v v',
        computeMean (m.trend.cls.call m.trend.st) td data (callsOf m.objs) θ = .ok st ∧
        computeMean (m.trend.cls.call m.trend.st) td' data' (callsOf m.objs) θ = .ok st' ∧
        st.mean.get? [1, 1, 0] = some v ∧ st'.mean.get? [1, 0, 0] = some v' ∧ v ≤ v' := by
  have hX := exExog113 (ts := [0, 1]) (by simp) (by simp) (by simp)
  have hX₁ := exExog113 (ts := [2, 3]) (by simp) (by simp) (by simp)
  have hX₂ := exExog113 (ts := [3]) (by simp) (by simp) (by simp)
  have hX₂' := scaleCols_given (q := fun _ => 2) hX₂
  obtain ⟨m, hm⟩ := C113_fits exValid113 exPanel113 exSeries113 exDates113 hX exPlain115.compiles
  obtain ⟨s, hs, -, h⟩ := C113_forecasts exValid113 exPanel113 exSeries113 (.inl (by simp)) exDates113 hX
    exPlain115.compiles hm
  obtain ⟨td, data, h1, h2⟩ := h exY113 [["__total", "p", "q"]] (some exX113) [2, 3] exPanel113
    ⟨rfl, by
      intro r hr
      simp only [exY113, List.map_cons, List.map_nil, List.mem_cons, List.not_mem_nil, or_false] at hr
      rcases hr with rfl | rfl | rfl | rfl | rfl | rfl <;> simp⟩ (by simp) (by simp) hX₁ (fun c hc => hc)
  obtain ⟨td', data', h1', h2'⟩ := h exY113 [["__total", "p", "q"]] (some (exX113.scaleCols fun _ => 2)) [3] exPanel113
    ⟨rfl, by
      intro r hr
      simp only [exY113, List.map_cons, List.map_nil, List.mem_cons, List.not_mem_nil, or_false] at hr
      rcases hr with rfl | rfl | rfl | rfl | rfl | rfl <;> simp⟩ (by simp) (by simp) hX₂' (fun c hc => hc)
  obtain ⟨s', hs', hF⟩ := C107_panel exValid113 exModes113 exPanel113 exSeries113 (.inl (by simp)) exDates113
    hX exPlain115 hm
  rw [hs] at hs'
  cases hs'
  refine ⟨m, s, hm, hs, td, data, td', data', h1, h1', fun θ hθ hβ htr => ?_⟩
  obtain ⟨st, h3, -⟩ := h2 θ hθ
  obtain ⟨st', h3', -⟩ := h2' θ hθ
  obtain ⟨v, v', e1, e2, -, hle⟩ := hF exY113 exY113 _ _ _ _ _ _ (by simp) (by simp) hX₁ (fun c hc => hc) hX₂'
    (fun c hc => hc) td data td' data' h1 h1' θ st st' hθ.trend h3 h3' 1 1 0 ["q"] 3 rfl rfl rfl
  refine ⟨st, st', v, v', h3, h3', e1, e2, hle hβ (fun _ _ _ => htr) fun d hd => ?_⟩
  rw [(scaleCols_units (fun _ => 2) exX113 (givenCols (some exX113)) [["p"], ["q"]] [3]).values ["q"] (by simp) 3 (by simp)
    d hd]
  have : 0 ≤ givenValue (some exX113) ["q"] 3 d := by
    cases List.mem_singleton.1 hd
    simp [givenValue, cellAt, exX113]
  linarith

end PV
