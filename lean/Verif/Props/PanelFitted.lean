import Verif.Props.PanelShown

/-!
# C144 for panels: the components shown for the histories are their generalised least squares explanation
-/

set_option linter.unusedSectionVars false

namespace PV
open Tensor Matrix
section
variable {τ F κ G Θ P H : Type} [LinearOrder τ] {days : τ → ℝ} {p : PiecewiseParams ℝ τ} {mode : String → String}

theorem weighedError_congr {n : Nat} {V : Matrix (Fin n) (Fin n) ℝ} {ts : List τ} {a a' M M' : Fin n → τ → ℝ}
    (h : ∀ i, ∀ t ∈ ts, a i t - M i t = a' i t - M' i t) : weighedError V ts a M = weighedError V ts a' M' := by
  unfold weighedError
  refine congrArg List.sum (List.map_congr_left fun t ht => ?_)
  have : (fun i => a i t - M i t) = fun i => a' i t - M' i t := funext fun i => h i t ht
  rw [this]

/-- The factor between model units and units of a series is the one its history was divided by. -/
theorem scale_of_series {discrete : Bool} {user : Option (Scale ℝ)} {y ys : Frame String τ ℝ} {s : Scale ℝ}
    (h : fitTarget discrete user y = .ok (s, ys)) : ∃ σ : List String → ℝ, ys = y.mapVals (fun s v => v / σ s) ∧
      ∀ (sids : List (List String)) (b : Bool) (k : ℝ), ∀ r ∈ y.rows,
        ScaleIs ⟨y.nlevels, sids, b, discrete, s⟩ r.sid k → σ r.sid = k := by
  obtain ⟨σ, hys, hσ⟩ := fitTarget_frame h
  refine ⟨σ, hys, fun sids b k r hr hk => ?_⟩
  have hk' : ScaleIs (⟨y.nlevels, sids, b, discrete, s⟩ : Fitted ℝ) r.sid (σ r.sid) := by
    rcases hσ r hr with ⟨h1, h2⟩ | ⟨h1, h2⟩ | ⟨h1, -, e, h2, h3⟩
    · exact .inl ⟨h1, h2⟩
    · exact .inr (.inl ⟨h1, h2⟩)
    · exact .inr (.inr ⟨h1, e, h2, h3⟩)
  exact hk'.unique hk

/-- The factor between model units and units of a series is never zero. -/
theorem scale_ne_zero {discrete : Bool} {user : Option (Scale ℝ)} {y ys : Frame String τ ℝ} {s : Scale ℝ}
    (h : fitTarget discrete user y = .ok (s, ys)) {n : Nat} {sids : List (List String)} {b : Bool} {a : List String} {k : ℝ}
    (hk : ScaleIs ⟨n, sids, b, discrete, s⟩ a k) : k ≠ 0 := by
  unfold fitTarget at h
  cases hs : setYScales user y with
  | error e => rw [hs] at h; cases h
  | ok s' =>
    rw [hs] at h
    simp only [Bind.bind, Except.bind] at h
    cases hy : scaleY discrete s' y with
    | error e => rw [hy] at h; cases h
    | ok ys' =>
      rw [hy] at h
      cases h
      unfold setYScales at hs
      cases hr : rawScale user y with
      | error e => rw [hr] at hs; cases hs
      | ok s₀ =>
        rw [hr] at hs
        have hs := Except.ok.inj hs
        rcases hk with ⟨-, rfl⟩ | ⟨-, hk⟩ | ⟨-, e, he, hk⟩
        · exact one_ne_zero
        · have hk : s = .float k := hk
          rw [hk] at hs
          cases s₀ with
          | float x => 
            simp only [zeroToOne] at hs
            split at hs
            · cases hs
            · cases hs; assumption
          | int n => simp only [zeroToOne] at hs; split at hs <;> cases hs
          | table e => cases hs
        · have he : s = .table e := he
          rw [he] at hs
          cases s₀ with
          | float x => simp only [zeroToOne] at hs; split at hs <;> cases hs
          | int n => simp only [zeroToOne] at hs; split at hs <;> cases hs
          | table e' =>
            cases hs
            obtain ⟨q, -, hq⟩ := List.mem_map.1 (List.mem_of_find?_eq_some hk)
            cases hq
            split
            · exact one_ne_zero
            · assumption

/-- **C144** for panels: after maximum a posteriori inference with given noise levels and correlation, the sums of the
components shown for the histories of the bottom series, each over the scale of its series, minimise the errors weighed by
the inverse covariance plus the price of the parameters. -/
theorem C144_panel (np : Numpyro κ G (ModelArgs (Tensor ℝ) ℝ) ℝ Θ P (Draws ℝ)) (horizon : List τ → H → List τ)
    {w : World (Option (PiecewiseState ℝ τ)) τ (Tensor ℝ) ℝ F κ G Θ P} {i : Nat}
    {fc : Fc (Option (PiecewiseState ℝ τ)) τ (Tensor ℝ) ℝ κ G Θ P} (hi : w.fcs[i]? = some fc)
    {c : Contents (Option (PiecewiseState ℝ τ)) τ (Tensor ℝ) ℝ F κ G} (hc : Resolves w.heap w.feats fc.cfg c)
    {o : HierOpts τ ℝ} (hh : c.hier = some o)
    {Learned : ModelArgs (Tensor ℝ) ℝ → List (SiteEnv ℝ) → Prop}
    (hnp : ∀ a draw, LearnedFrom np fc.cfg a draw → ∃ θs, Learned a θs ∧ RunsModel draw θs)
    (hV : ∀ s x0, ValidHier days p (c.hierConfig o s x0)) (hM : ∀ s x0, Modes mode (c.hierConfig o s x0))
    {y : Frame String τ ℝ} (hy : RegularPanel y) {col : String} (hcol : y.cols = [col]) {obs : List String → τ → ℝ}
    (hobs : Observed y col obs) {ss : List (List String)} (hss : SeriesOf y ss) (h2 : 2 ≤ ss.length)
    {ts : List τ} (hts : DatesOf y ts) {b : ℝ} (hb : p.priorScale = .scalar b)
    {X : Option (Frame String τ ℝ)} (hX : GivenExog X ss ts) (hn : PlainNames c.compile (givenCols X) o.shared ss)
    (hfit : (w.fit np i y X).1 = .ok ()) :
    ∃ s ys m θs st x, LearnedPanel c o Learned y X s ys m θs ∧ m.trend.st.2 = some st ∧
      (∀ a ∈ ss, ∀ t ∈ ts, OwnCopies (givenCols X) o.shared X ss a t (cellAt x a t)) ∧
      ∀ (θ : SiteEnv ℝ) (lkj : Nat → ℝ → Tensor ℝ → ℝ) (ns conc os : ℝ) (sd : String → ℝ) (σ : Fin ss.length → ℝ)
        (C : Matrix (Fin ss.length) (Fin ss.length) ℝ), θs ≠ [] → (∀ θ' ∈ θs, θ' = θ) → NoiseOf σ C θ →
        BestPanel lkj ns conc os (fun n => normalLP 0 (sd n)) st m θ →
        ∀ X₁ fh f, ((w.fit np i y X).2.predict np horizon i .allSites X₁ fh).1 = .ok (.allSites f) →
          (horizon y.times fh).Pairwise (· < ·) → GivenExog X₁ ss (horizon y.times fh) →
          (∀ n ∈ givenCols X, n ∈ givenCols X₁) → (∀ t ∈ ts, t ∈ horizon y.times fh) →
          (∀ a ∈ ss, ∀ t ∈ ts, SameRegressors (givenCols X) X₁ X a t t) →
          ∃ k : Fin ss.length → ℝ,
            (∀ j, ScaleIs ⟨y.nlevels, m.internalIndex.map Prod.fst, true, c.discrete, s⟩ (ss.get j) (k j)) ∧
            ∀ shown : Fin ss.length → τ → ℝ, (∀ j, ∀ t ∈ ts, ∃ r ∈ f.rows, r.sid = ss.get j ∧ r.time = t ∧
              shown j t = r.val "trend" + ((kept m.fitted).map fun fe => r.val fe.name).sum) →
            (∀ j, ∀ t ∈ ts, shown j t = k j * panelMean days mode st ss (kept m.fitted) x θ (ss.get j) t) ∧
            (∀ θ', HierSizes st m θ' → θ' "std_observation" = θ "std_observation" →
              θ' "corr_matrix" = θ "corr_matrix" →
              weighedError (panelCovariance σ C) ts (fun j t => obs (ss.get j) t / k j) (fun j t => shown j t / k j)
                  + panelPrice st m os b sd θ
                ≤ weighedError (panelCovariance σ C) ts (fun j t => obs (ss.get j) t / k j)
                    (fun j t => panelMean days mode st ss (kept m.fitted) x θ' (ss.get j) t)
                  + panelPrice st m os b sd θ') := by
  obtain ⟨s, ys, m, θs, st, hl, hst, hmc, hall⟩ := C143_table np horizon hi hc hh hnp hV hM hy hss (.inl (by omega)) hts hX hn hfit
  obtain ⟨ht, hm, hle⟩ := hl
  obtain ⟨κ', hys, hκ⟩ := scale_of_series ht
  obtain ⟨p1, p2, p3⟩ := mapVals_panel (y := y) fun s v => v / κ' s
  rw [← hys] at p1 p2 p3
  set cfg := c.hierConfig o s (hierSeen o.keep ys X) with hcfg
  have hV' : ValidHier days p cfg := hV _ _
  have hM' : Modes mode cfg := hM _ _
  obtain ⟨m', x, st', hfit', h, yB, hlB, -, hser, -, -, -, -, -, hex, -⟩ :=
    hier_fits hV' (p1 hy) (p2 _ hss) (p3 _ hts) hX hn.compiles
  rw [hm] at hfit'
  cases hfit'
  have hst' := h.state
  rw [hst] at hst'
  cases hst'
  have hown : ∀ a ∈ ss, ∀ t ∈ ts, OwnCopies (givenCols X) o.shared X ss a t (cellAt x a t) := by
    intro a ha t ht
    rcases h.exog with ⟨h0, -⟩ | ⟨X0, st0, rfl, hr, hst0, hsk, -, hxe⟩
    · rw [h0]
      exact ⟨by simp, by simp, by simp⟩
    · rw [hst0] at hex
      exact own_copies hn hsk (hier_matched hV' hr hn hex) (fun _ h => h) hr hxe ha ht
  refine ⟨s, ys, m, θs, st, x, ⟨ht, hm, hle⟩, hst, hown, ?_⟩
  intro θ lkj ns conc os sd σ C hne hθs hN hbest X₁ fh f hf hinc hX₁ hsub hin hsame
  obtain ⟨hindex, val, hval, hrows⟩ := hall (fun θ' hθ' => by rw [hθs θ' hθ']; exact hbest.1.trend) X₁ fh f hf hinc hX₁ hsub
  have hrow : ∀ j : Fin ss.length, ∀ t ∈ ts, ∃ r ∈ f.rows, r.sid = ss.get j ∧ r.time = t := by
    intro j t ht
    obtain ⟨r, hr, he⟩ := List.mem_map.1 ((hindex (ss.get j) t).2 ⟨List.get_mem .., hin t ht⟩)
    exact ⟨r, hr, congrArg Prod.fst he, congrArg Prod.snd he⟩
  obtain ⟨t₀, ht₀⟩ : ∃ t, t ∈ ts := by
    obtain ⟨r, hr, -⟩ := hy.bottom
    exact ⟨r.time, (hts.mem _).2 ⟨r, hr, rfl⟩⟩
  have hk : ∀ j : Fin ss.length, ∃ k, ScaleIs ⟨y.nlevels, m.internalIndex.map Prod.fst, true, c.discrete, s⟩ (ss.get j) k := by
    intro j
    obtain ⟨r, hr, he, -⟩ := hrow j t₀ ht₀
    obtain ⟨-, -, k, hk, -⟩ := hrows r hr
    exact ⟨k, he ▸ hk⟩
  choose k hk using hk
  refine ⟨k, hk, fun shown hshown => ?_⟩
  have hmean : ∀ j, ∀ t ∈ ts, shown j t = k j * panelMean days mode st ss (kept m.fitted) x θ (ss.get j) t := by
    intro j t ht
    obtain ⟨r, hr, he, rfl, hsh⟩ := hshown j t ht
    obtain ⟨hra, hrt, k', hk', htr, hfe⟩ := hrows r hr
    rw [he] at hk'
    have hkk := (hk j).unique hk'
    rw [hsh, htr, learnedMean_same hne hθs, panelMean, mul_add, ← List.sum_map_mul_left, ← hkk, he, mul_comm]
    congr 2
    refine List.map_congr_left fun fe hk => ?_
    rw [hfe fe hk, learnedMean_same hne hθs, ← hkk, mul_comm, he]
    congr 3
    refine List.map_congr_left fun n hnn => ?_
    rw [he] at hra
    exact sameRegressors_val (hval _ hra _ hrt) (hown _ hra _ ht) (hsame _ hra _ ht)
      (hmc fe (List.mem_of_mem_filter hk) n hnn)
  refine ⟨hmean, fun θ' hz' e1 e2 => ?_⟩
  have hk0 : ∀ j, k j ≠ 0 := fun j => scale_ne_zero ht (hk j)
  have hobs' : Observed ys col fun a t => obs a t / κ' a := by
    intro r hr hb
    rw [hys] at hr
    obtain ⟨r', hr', rfl⟩ := List.mem_map.1 hr
    show obs r'.sid r'.time / κ' r'.sid = r'.val col / κ' r'.sid
    rw [hobs r' hr' hb]
  have hkk : ∀ j, κ' (ss.get j) = k j := by
    intro j
    obtain ⟨-, r, hr, he⟩ := (hss.mem (ss.get j)).1 (List.get_mem ..)
    rw [← he]
    exact hκ _ _ _ r hr (he ▸ hk j)
  have hmain := (C131_penalised (lkj := lkj) (ns := ns) (conc := conc) (os := os) (sd := sd) hV' hM' (p1 hy)
    (by rw [hys]; exact hcol) hobs' (p2 _ hss) h2 (p3 _ hts) hb hX hn.compiles hm hst hex hbest.1 hN).1 hbest θ' hz' e1 e2
  refine le_trans (le_of_eq ?_) (le_trans hmain (le_of_eq ?_))
  · congr 1
    refine weighedError_congr fun j t ht => ?_
    show _ = obs (ss.get j) t / κ' (ss.get j) - _
    rw [hkk j, hmean j t ht, mul_div_cancel_left₀ _ (hk0 j)]
  · congr 1
    refine weighedError_congr fun j t ht => ?_
    show obs (ss.get j) t / κ' (ss.get j) - _ = _
    rw [hkk j]

end

/-! ## A case -/

/-- The forecaster that has learned the most probable parameters shows, for the dates of its history, components whose sums
are the best explanation of the two series. -/
example : ∃ (θ : SiteEnv ℝ) (f : Frame String ℤ ℝ), ∃ s m x, ∃ k : Fin 2 → ℝ,
    (exWorld143.fit (exNumpyro142 θ) 0 exY113 (some exX113)).1 = .ok () ∧
    ((exWorld143.fit (exNumpyro142 θ) 0 exY113 (some exX113)).2.predict (exNumpyro142 θ) (fun _ (fh : List ℤ) => fh) 0
      .allSites (some exX113) [0, 1]).1 = .ok (.allSites f) ∧ BestPanel (fun _ _ _ => 0) 1 1 (1 / 10)
        (fun _ => normalLP 0 2) s m θ ∧
    ∀ shown : Fin 2 → ℤ → ℝ, (∀ j, ∀ t ∈ [0, 1], ∃ r ∈ f.rows, r.sid = [["p"], ["q"]].get j ∧ r.time = t ∧
      shown j t = r.val "trend" + ((kept m.fitted).map fun fe => r.val fe.name).sum) →
      (∀ j, ∀ t ∈ [0, 1], shown j t = k j * panelMean (fun t : ℤ => (t : ℝ))
        (fun n => if n = "e" then "multiplicative" else "additive") s [["p"], ["q"]] (kept m.fitted) x θ
        ([["p"], ["q"]].get j) t) ∧
      ∀ θ', HierSizes s m θ' → θ' "std_observation" = θ "std_observation" → θ' "corr_matrix" = θ "corr_matrix" →
        weighedError (panelCovariance ![1, 2] exL46) [0, 1] (fun j t => cellAt exY113 ([["p"], ["q"]].get j) t "y" / k j)
            (fun j t => shown j t / k j) + panelPrice s m (1 / 10) (1 / 10) (fun _ => 2) θ
          ≤ weighedError (panelCovariance ![1, 2] exL46) [0, 1]
              (fun j t => cellAt exY113 ([["p"], ["q"]].get j) t "y" / k j)
              (fun j t => panelMean (fun t : ℤ => (t : ℝ)) (fun n => if n = "e" then "multiplicative" else "additive") s
                [["p"], ["q"]] (kept m.fitted) x θ' ([["p"], ["q"]].get j) t)
            + panelPrice s m (1 / 10) (1 / 10) (fun _ => 2) θ' := by
  have hX := exExog113 (ts := [0, 1]) (by simp) (by simp) (by simp)
  have hA := fun θ => C143_answers (exNumpyro142 θ) (fun _ (fh : List ℤ) => fh) (w := exWorld143) (i := 0) rfl
    exResolves143 rfl (exRecords143 θ) exValid143 exModes143 exPanel113 exSeries113 (.inl (by simp)) exDates113 exLevels143
    hX exPlain115.compiles (exFit143 θ)
  obtain ⟨s₀, ys₀, m₀, θs₀, st₀, ⟨h1, h2, -⟩, h3, -⟩ := hA fun _ => ⟨[], []⟩
  have k1 : VectorSite (n := 2) ⟨[2], [1, 2]⟩ ![1, 2] := ⟨rfl, fun i => by fin_cases i <;> rfl⟩
  have k2 : ∀ i, (0 : ℝ) < ![1, 2] i := fun i => by fin_cases i <;> simp
  have k3 : MatrixSite (exθ90 "corr_matrix") exL46 := ⟨rfl, fun i j => by fin_cases i <;> fin_cases j <;> rfl⟩
  have hbest : ∃ θ, NoiseOf (n := 2) ![1, 2] exL46 θ ∧
      BestPanel (fun _ _ _ => 0) 1 1 (1 / 10) (fun _ => normalLP 0 2) st₀ m₀ θ := by
    obtain ⟨σ, hys, -⟩ := fitTarget_frame h1
    obtain ⟨p1, p2, p3⟩ := mapVals_panel (y := exY113) fun s v => v / σ s
    rw [← hys] at p1 p2 p3
    obtain ⟨m', st, hfit', hs', h⟩ := C114_exists (exValid143 s₀ (hierSeen exOpts143.keep ys₀ (some exX113)))
      (exModes143 _ _) (p1 exPanel113) (p2 _ exSeries113) (by simp) (p3 _ exDates113) (b := 1 / 10) rfl (by norm_num) hX
      exPlain115.compiles
    rw [h2] at hfit'
    cases hfit'
    rw [hs'] at h3
    cases h3
    obtain ⟨θ, g2, g3, g4⟩ := h (fun _ _ _ => 0) 1 1 (1 / 10) (fun _ => normalLP 0 2) (by norm_num)
      (fun _ => continuous_normalLP 0 2) (fun _ => tendsto_normalLP 0 two_ne_zero) ⟨[2], [1, 2]⟩
      (exθ90 "corr_matrix") ![1, 2] exL46 rfl k1 k2 k3 exL46_factor
    exact ⟨θ, ⟨by rw [g2]; rfl, by rw [g2]; exact k1, k2, by rw [g3]; exact k3, exL46_factor⟩, g4⟩
  obtain ⟨θ, hN, hθ⟩ := hbest
  obtain ⟨s, ys, m, θs, st, ⟨g1, g2, rfl⟩, g3, hans⟩ := hA θ
  rw [h1] at g1
  cases g1
  rw [h2] at g2
  cases g2
  rw [h3] at g3
  cases g3
  obtain ⟨f, hf, -⟩ := hans (by simpa using hθ.1) (some exX113) [0, 1] (by simp) (by simp) hX (fun _ h => h)
  have hobs : Observed exY113 "y" fun a t => cellAt exY113 a t "y" :=
    fun r hr _ => cellAt_of_mem exPanel113.ordered hr (by simp [exY113])
  obtain ⟨s, ys, m, θs, st, x, ⟨g1, g2, rfl⟩, g3, -, hall⟩ := C144_panel (exNumpyro142 θ) (fun _ (fh : List ℤ) => fh)
    (w := exWorld143) (i := 0) rfl exResolves143 rfl (exRuns143 θ) exValid143 exModes143 exPanel113 rfl hobs exSeries113
    (by simp) exDates113 (b := 1 / 10) rfl hX exPlain115 (exFit143 θ)
  rw [h1] at g1
  cases g1
  rw [h2] at g2
  cases g2
  rw [h3] at g3
  cases g3
  obtain ⟨k, -, hk⟩ := hall θ (fun _ _ _ => 0) 1 1 (1 / 10) (fun _ => 2) ![1, 2] exL46 (by simp) (by simp) hN hθ
    (some exX113) [0, 1] f hf (by simp) hX (fun _ h => h) (fun _ h => h)
    (fun _ _ _ _ _ _ => rfl)
  exact ⟨θ, f, _, _, x, k, exFit143 θ, hf, hθ, hk⟩

end PV
