import Verif.Props.PanelBalance
import Verif.Props.PanelSeparate

/-!
# C137: regressors of a panel that the history cannot tell apart, or never saw

What the best fit of the hierarchical forecaster does with a regressor that is zero throughout the history of
a series, and with regressors that are proportional there.
-/

set_option linter.unusedSectionVars false

namespace PV
open Tensor Filter Matrix

section
variable {τ : Type} [LinearOrder τ]

/-! ## Specification -/

/-- The history says nothing about regressor `c` of series `a`: it is zero there at all dates, and for all series
if they share it. -/
def Unseen (shared : List String) (X : Option (Frame String τ ℝ)) (ss : List (List String)) (ts : List τ) (c : String)
    (a : List String) : Prop :=
  ∀ b ∈ ss, (c ∈ shared ∨ b = a) → ∀ t ∈ ts, givenValue X b t c = 0

/-- In the history regressor `c'` of series `a` is `κ` times regressor `c`, and for all series if they share both. -/
def Proportional (shared : List String) (X : Option (Frame String τ ℝ)) (ss : List (List String)) (ts : List τ)
    (c c' : String) (a : List String) (κ : ℝ) : Prop :=
  (c ∈ shared ↔ c' ∈ shared) ∧
    ∀ b ∈ ss, (c ∈ shared ∨ b = a) → ∀ t ∈ ts, givenValue X b t c' = κ * givenValue X b t c

/-! ## Lemmas -/

theorem column_value {cols shared : List String} {X : Option (Frame String τ ℝ)} {ss : List (List String)}
    {a b : List String} {t : τ} {v : String → ℝ} (h : OwnCopies cols shared X ss b t v) {c : String} (hc : c ∈ cols)
    (ha : a ∈ ss) : v (modelColumn shared c a) = if c ∈ shared ∨ b = a then givenValue X b t c else 0 := by
  unfold modelColumn
  by_cases hs : c ∈ shared
  · rw [if_pos hs, if_pos (.inl hs), h.shared c hc hs]
  · rw [if_neg hs]
    rcases eq_or_ne a b with rfl | hne
    · rw [if_pos (.inr rfl), h.own c hc hs]
    · rw [if_neg (by rintro (h | h); exacts [hs h, hne h.symm]), h.other c hc hs a ha hne]

theorem coefficientOf_zero : ∀ (cols : List String) (β : List ℝ) (n : String),
    (∀ j (hj : j < cols.length), cols[j] = n → β.getD j 0 = 0) → coefficientOf cols β n = 0
  | [], β, n, _ => by simp [coefficientOf]
  | k :: cols, [], n, _ => by simp [coefficientOf]
  | k :: cols, b :: β, n, h => by
    have h0 := h 0 (by simp)
    have ih := coefficientOf_zero cols β n fun j hj he => by
      have := h (j + 1) (by simpa using hj) (by simpa using he)
      simpa using this
    unfold coefficientOf at ih ⊢
    simp only [List.zipWith_cons_cons, List.sum_cons, ih, add_zero]
    split
    · simpa using h0 (by simpa)
    · rfl

theorem sum_map_times {α : Type} (κ : ℝ) (f g : α → ℝ) (l : List α) (h : ∀ t ∈ l, f t = κ * g t) :
    (l.map f).sum = κ * (l.map g).sum := by
  rw [List.map_congr_left h, List.sum_map_mul_left]

variable {days : τ → ℝ} {p : PiecewiseParams ℝ τ} {mode : String → String}
  {cfg : HierConfig (Option (PiecewiseState ℝ τ)) (Scale ℝ) τ (Tensor ℝ) ℝ}

variable (hV : ValidHier days p cfg) (hM : Modes mode cfg) {y : Frame String τ ℝ}
    (hy : RegularPanel y) {ss : List (List String)} (hss : SeriesOf y ss) (h2 : 2 ≤ ss.length)
    {ts : List τ} (hts : DatesOf y ts) {b : ℝ} (hb : p.priorScale = .scalar b) {X : Option (Frame String τ ℝ)}
    (hX : GivenExog X ss ts) (hn : PlainNames cfg.compile (givenCols X) cfg.shared ss)
    {m : HierFit (Option (PiecewiseState ℝ τ)) (Scale ℝ) τ (Tensor ℝ) ℝ} (hfit : hierFitData cfg y X = .ok m)
    {s : PiecewiseState ℝ τ} (hs : m.trend.st.2 = some s)
    {lkj : Nat → ℝ → Tensor ℝ → ℝ} {ns conc os : ℝ} {sd : String → ℝ} (hsd : ∀ n, sd n ≠ 0)
    {σ : Fin ss.length → ℝ} {C : Matrix (Fin ss.length) (Fin ss.length) ℝ} {θ : SiteEnv ℝ} (hN : NoiseOf σ C θ)
    (hθ : BestPanel lkj ns conc os (fun n => normalLP 0 (sd n)) s m θ)

include hV hM hy hss h2 hts hb hX hn hfit hs hsd hN hθ

/-- What pulls at the coefficient of a column, in terms of the table that was given. -/
theorem panel_pull : ∃ pull : String → Fin ss.length → τ → ℝ,
    ∀ fe ∈ kept m.fitted, ∀ c ∈ givenCols X, ∀ a ∈ ss, ∀ j (hj : j < fe.cols.length),
      fe.cols[j] = modelColumn cfg.shared c a →
      (ts.map fun t => ∑ i : Fin ss.length, (if c ∈ cfg.shared ∨ ss.get i = a then givenValue X (ss.get i) t c else 0)
        * pull (mode fe.name) i t).sum = (θ (fe.name ++ "/coefs")).data.getD j 0 / sd fe.name ^ 2 := by
  obtain ⟨cy, hc⟩ := hy.column
  have hobs : Observed y cy fun a t => cellAt y a t cy := fun r hr _ => cellAt_of_mem hy.ordered hr (by simp [hc])
  obtain ⟨m', x, s', hfit', h, yB, -, -, -, -, -, -, -, -, hex, -⟩ := hier_fits hV hy hss hts hX hn.compiles
  rw [hfit] at hfit'
  cases hfit'
  obtain ⟨-, hown⟩ := hier_own hV h hex hn
  refine ⟨fun mo i t => effectGain mo (panelTrendAt days s ss θ (ss.get i) t)
    * weighedResidual (panelCovariance σ C) (fun i t => cellAt y (ss.get i) t cy)
        (fun i t => panelMean days mode s ss (kept m.fitted) x θ (ss.get i) t) i t, ?_⟩
  intro fe hfe c hcc a ha j hj he
  rw [← C135_effect hV hM hy hc hobs hss h2 hts hb hX hn.compiles hfit hs hex hN hθ hfe (hsd fe.name) hj]
  refine congrArg List.sum (List.map_congr_left fun t ht => Finset.sum_congr rfl fun i _ => ?_)
  rw [he, column_value (hown (ss.get i) (List.get_mem _ _) t ht) hcc ha]
  ring

/-! ## C137 -/

/-- **C137**: a regressor that the history of a series never saw has no effect at the best fit: its coefficient is
zero in every effect that uses it. -/
theorem C137_unseen {c : String} (hcc : c ∈ givenCols X) {a : List String} (ha : a ∈ ss)
    (h0 : Unseen cfg.shared X ss ts c a) : ∀ fe ∈ kept m.fitted,
    coefficientOf fe.cols (θ (fe.name ++ "/coefs")).data (modelColumn cfg.shared c a) = 0 := by
  obtain ⟨pull, hp⟩ := panel_pull hV hM hy hss h2 hts hb hX hn hfit hs hsd hN hθ
  intro fe hfe
  refine coefficientOf_zero _ _ _ fun j hj he => ?_
  have h1 := hp fe hfe c hcc a ha j hj he
  rw [List.sum_eq_zero] at h1
  · have h3 : sd fe.name ^ 2 ≠ 0 := pow_ne_zero 2 (hsd fe.name)
    rcases div_eq_zero_iff.1 h1.symm with h | h
    · exact h
    · exact absurd h h3
  · intro v hv
    obtain ⟨t, ht, rfl⟩ := List.mem_map.1 hv
    refine Finset.sum_eq_zero fun i _ => ?_
    split
    · rename_i hi
      rw [h0 _ (List.get_mem _ _) hi t ht, zero_mul]
    · rw [zero_mul]

/-- **C137**: so the future values of such a regressor do not move the forecasts of the series. -/
theorem C137_ignored {c : String} (hcc : c ∈ givenCols X) {a : List String}
    (h0 : Unseen cfg.shared X ss ts c a) (y₁ : Frame String τ ℝ) (levels : List (List String))
    (X₁ X₂ : Option (Frame String τ ℝ)) (fh : List τ) (hfh : fh.Pairwise (· < ·)) (hX₁ : GivenExog X₁ ss fh)
    (hc₁ : ∀ c ∈ givenCols X, c ∈ givenCols X₁) (hX₂ : GivenExog X₂ ss fh)
    (hc₂ : ∀ c ∈ givenCols X, c ∈ givenCols X₂) {td data td' data'}
    (hp₁ : hierPredictData cfg m levels y₁ X₁ fh = .ok (td, data))
    (hp₂ : hierPredictData cfg m levels y₁ X₂ fh = .ok (td', data')) {st st' : MeanState ℝ}
    (hm₁ : computeMean (m.trend.cls.call m.trend.st) td data (callsOf m.objs) θ = .ok st)
    (hm₂ : computeMean (m.trend.cls.call m.trend.st) td' data' (callsOf m.objs) θ = .ok st')
    (i j : Nat) (t : τ) (hi : ss[i]? = some a) (hj : fh[j]? = some t)
    (hd : ∀ d ∈ givenCols X, d ≠ c → givenValue X₂ a t d = givenValue X₁ a t d) :
    ∃ v, st.mean.get? [i, j, 0] = some v ∧ st'.mean.get? [i, j, 0] = some v := by
  obtain ⟨s', hs', hW⟩ := C115_what_if hV hM hy hss (.inl (by omega)) hts hX hn hfit
  rw [hs] at hs'
  cases hs'
  obtain ⟨v, e1, e2⟩ := hW y₁ levels X₁ X₂ fh hfh hX₁ hc₁ hX₂ hc₂ td data td' data' hp₁ hp₂ θ st st' hθ.1.trend hm₁ hm₂
    i j a t hi hj c hcc (givenValue X₂ a t c - givenValue X₁ a t c) (by ring) hd
  refine ⟨v, e1, ?_⟩
  rw [e2]
  have hz := C137_unseen hV hM hy hss h2 hts hb hX hn hfit hs hsd hN hθ hcc (List.mem_of_getElem? hi) h0
  rw [List.sum_eq_zero, add_zero]
  intro w hw
  obtain ⟨fe, hfe, rfl⟩ := List.mem_map.1 hw
  rw [hz fe hfe, mul_zero]
  unfold combine
  split <;> simp

/-- **C137**: of two regressors that are proportional in the history, in effects of the same mode, each takes a
coefficient in proportion to its values and its prior variance. -/
theorem C137_share {c c' : String} (hcc : c ∈ givenCols X) (hcc' : c' ∈ givenCols X) {a : List String} (ha : a ∈ ss)
    {κ : ℝ} (hκ : Proportional cfg.shared X ss ts c c' a κ)
    {fe fe' : FittedEffect (Option (PiecewiseState ℝ τ)) (Frame String τ ℝ) (Scale ℝ) τ ℝ (Tensor ℝ) ℝ}
    (hfe : fe ∈ kept m.fitted) (hfe' : fe' ∈ kept m.fitted) (hmode : mode fe'.name = mode fe.name)
    {j j' : Nat} (hj : j < fe.cols.length) (hj' : j' < fe'.cols.length)
    (he : fe.cols[j] = modelColumn cfg.shared c a) (he' : fe'.cols[j'] = modelColumn cfg.shared c' a) :
    (θ (fe'.name ++ "/coefs")).data.getD j' 0 / sd fe'.name ^ 2
      = κ * ((θ (fe.name ++ "/coefs")).data.getD j 0 / sd fe.name ^ 2) := by
  obtain ⟨pull, hp⟩ := panel_pull hV hM hy hss h2 hts hb hX hn hfit hs hsd hN hθ
  rw [← hp fe hfe c hcc a ha j hj he, ← hp fe' hfe' c' hcc' a ha j' hj' he', hmode]
  refine sum_map_times κ _ _ _ fun t ht => ?_
  rw [Finset.mul_sum]
  refine Finset.sum_congr rfl fun i _ => ?_
  by_cases hi : c ∈ cfg.shared ∨ ss.get i = a
  · rw [if_pos hi, if_pos (hi.imp_left hκ.1.1), hκ.2 _ (List.get_mem _ _) hi t ht]
    ring
  · rw [if_neg hi, if_neg (fun h => hi (h.imp_left hκ.1.2))]
    ring

end

/-! ## A concrete case

Series `p` and `q` with three regressors: `b` is twice `a`, and `e` is zero for `p` and one for `q`. -/

noncomputable section

def exX137 : Frame String ℤ ℝ :=
  ⟨2, ["a", "b", "e"], [("p", 0, 1), ("p", 1, 2), ("p", 2, 3), ("p", 3, 5), ("q", 0, 4), ("q", 1, 1), ("q", 2, 0),
    ("q", 3, 6)].map fun r => ⟨[r.1], r.2.1, fun c => if c = "a" then r.2.2 else if c = "b" then 2 * r.2.2 else
      if r.1 = "p" then 0 else 1⟩⟩

theorem exBottom137 : exX137.bottomOnly = exX137 := by
  unfold Frame.bottomOnly exX137
  simp

theorem exSeriesX137 : exX137.series = [["p"], ["q"]] := by
  unfold Frame.series exX137
  simp [unique]

theorem exExog137 {ts : List ℤ} (h : ts.Pairwise (· < ·)) (hne : ts ≠ []) (hin : ∀ t ∈ ts, 0 ≤ t ∧ t ≤ 3) :
    GivenExog (some exX137) [["p"], ["q"]] ts := by
  refine .inr ⟨_, rfl, ⟨?_, by decide, by simp [exX137], ?_⟩⟩
  · intro r hr
    simp only [exX137, List.map_cons, List.map_nil, List.mem_cons, List.not_mem_nil, or_false] at hr
    rcases hr with rfl | rfl | rfl | rfl | rfl | rfl | rfl | rfl <;> rfl
  · rw [exBottom137, ← exSeriesX137]
    refine panel_of_sorted (by simp [exX137]) ?_ h hne (by simp [exX137]) ?_
    · have hpq : (["p"] : List String) < ["q"] := by decide
      simp only [exX137, List.map_cons, List.map_nil, List.pairwise_cons, List.mem_cons, List.not_mem_nil,
        or_false, forall_eq_or_imp, forall_eq, Prod.Lex.toLex_lt_toLex, IsEmpty.forall_iff, implies_true,
        List.Pairwise.nil, and_true]
      simp [hpq]
    · rw [exSeriesX137]
      intro s hs t ht
      obtain ⟨h0, h3⟩ := hin t ht
      obtain rfl | rfl | rfl | rfl : t = 0 ∨ t = 1 ∨ t = 2 ∨ t = 3 := by omega
      all_goals
        simp only [List.mem_cons, List.not_mem_nil, or_false] at hs
        rcases hs with rfl | rfl <;> simp [exX137]

theorem exPlain137 : PlainNames exCfg114.compile (givenCols (some exX137)) exCfg114.shared [["p"], ["q"]] where
  pattern := by
    intro c _ _
    exact ⟨_, rfl, by simp, by simp [exCfg114, exCfg113]⟩
  copies := by
    intro c hc c' hc' a ha b hb h
    replace hc : c ∈ ["a", "b", "e"] := hc
    replace hc' : c' ∈ ["a", "b", "e"] := hc'
    simp only [List.mem_cons, List.not_mem_nil, or_false] at ha hb hc hc'
    rcases ha with rfl | rfl <;> rcases hb with rfl | rfl <;> rcases hc with rfl | rfl | rfl <;>
      rcases hc' with rfl | rfl | rfl <;> first | exact ⟨rfl, rfl⟩ | (revert h; decide)
  fresh := by
    intro c hc a ha
    replace hc : c ∈ ["a", "b", "e"] := hc
    simp only [List.mem_cons, List.not_mem_nil, or_false] at ha hc
    rcases ha with rfl | rfl <;> rcases hc with rfl | rfl | rfl <;> simp [givenCols, exX137] <;> decide

example : ∃ m s θ, hierFitData exCfg114 exY113 (some exX137) = .ok m ∧
    BestPanel (fun _ _ _ => 0) 1 1 (1 / 10) (fun _ => normalLP 0 2) s m θ ∧
    (∀ fe ∈ kept m.fitted, coefficientOf fe.cols (θ (fe.name ++ "/coefs")).data (colName "e" ["p"]) = 0) ∧
    ∀ fe ∈ kept m.fitted, ∀ (j j' : Nat) (hj : j < fe.cols.length) (hj' : j' < fe.cols.length),
      fe.cols[j] = colName "a" ["q"] → fe.cols[j'] = colName "b" ["q"] →
      (θ (fe.name ++ "/coefs")).data.getD j' 0 = 2 * (θ (fe.name ++ "/coefs")).data.getD j 0 := by
  have hX := exExog137 (ts := [0, 1]) (by simp) (by simp) (by simp)
  have k1 : VectorSite (n := 2) ⟨[2], [1, 2]⟩ ![1, 2] := ⟨rfl, fun i => by fin_cases i <;> rfl⟩
  have k2 : ∀ i, (0 : ℝ) < ![1, 2] i := fun i => by fin_cases i <;> simp
  have k3 : MatrixSite (exθ90 "corr_matrix") exL46 := ⟨rfl, fun i j => by fin_cases i <;> fin_cases j <;> rfl⟩
  obtain ⟨m, s, h1, hs, h⟩ := C114_exists exValid114 exModes114 exPanel113 exSeries113 (by simp) exDates113
    (b := 1 / 10) rfl (by norm_num) hX exPlain137.compiles
  obtain ⟨θ, h2, h3, h4⟩ := h (fun _ _ _ => 0) 1 1 (1 / 10) (fun _ => normalLP 0 2) (by norm_num)
    (fun _ => continuous_normalLP 0 2) (fun _ => tendsto_normalLP 0 two_ne_zero) ⟨[2], [1, 2]⟩
    (exθ90 "corr_matrix") ![1, 2] exL46 rfl k1 k2 k3 exL46_factor
  have hN : NoiseOf (n := 2) ![1, 2] exL46 θ := ⟨by rw [h2]; rfl, by rw [h2]; exact k1, k2, by rw [h3]; exact k3, exL46_factor⟩
  refine ⟨m, s, θ, h1, h4, ?_, ?_⟩
  · exact C137_unseen exValid114 exModes114 exPanel113 exSeries113 (by simp) exDates113 (b := 1 / 10) rfl hX exPlain137 h1
      hs (sd := fun _ => 2) (fun _ => two_ne_zero) hN h4 (c := "e") (by simp [givenCols, exX137]) (a := ["p"]) (by simp) (by
        intro b hb hor t ht
        rcases hor with hor | rfl
        · simp [exCfg114, exCfg113] at hor
        · simp only [List.mem_cons, List.not_mem_nil, or_false] at ht
          rcases ht with rfl | rfl <;> simp [givenValue, cellAt, exX137])
  · intro fe hfe j j' hj hj' he he'
    have := C137_share exValid114 exModes114 exPanel113 exSeries113 (by simp) exDates113 (b := 1 / 10) rfl hX exPlain137 h1
      hs (sd := fun _ => 2) (fun _ => two_ne_zero) hN h4 (c := "a") (c' := "b") (by simp [givenCols, exX137])
      (by simp [givenCols, exX137]) (a := ["q"]) (by simp) (κ := 2) ⟨by simp [exCfg114, exCfg113], by
        intro b hb hor t ht
        rcases hor with hor | rfl
        · simp [exCfg114, exCfg113] at hor
        · simp only [List.mem_cons, List.not_mem_nil, or_false] at ht
          rcases ht with rfl | rfl <;> simp [givenValue, cellAt, exX137]⟩ hfe hfe rfl hj hj' he he'
    linarith

end
end PV
