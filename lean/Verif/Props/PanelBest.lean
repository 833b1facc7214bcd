import Verif.Props.PanelFit
import Verif.Lemmas.SiteCoords

/-!
# C114: a best fit of a panel
-/

set_option linter.unusedSectionVars false

namespace PV
open Tensor Filter Matrix

theorem continuous_normalDensity {α : Type} [TopologicalSpace α] {n : Nat} {g : α → Fin n → ℝ}
    (hg : ∀ i, Continuous fun v => g v i) (C : Matrix (Fin n) (Fin n) ℝ) (x : Fin n → ℝ) :
    Continuous fun v => normalDensity (g v) C x := by
  unfold normalDensity
  simp only [dotProduct, mulVec, Pi.sub_apply]
  fun_prop

theorem normalDensity_le {n : Nat} {σ : Fin n → ℝ} (hσ : ∀ i, 0 < σ i) {C : Matrix (Fin n) (Fin n) ℝ}
    (hC : CorrFactor C) (μ x : Fin n → ℝ) : normalDensity μ (panelCovariance σ C) x
      ≤ -Real.log (panelCovariance σ C).det / 2 - n * Real.log (2 * Real.pi) / 2 := by
  have h : 0 ≤ (x - μ) ⬝ᵥ ((panelCovariance σ C)⁻¹ *ᵥ (x - μ)) := by
    rw [← panelCovariance_eq]
    set S := obsScaleTril σ C
    unfold mvnCovariance
    have h1 : (S * Sᵀ)⁻¹ = S⁻¹ᵀ * S⁻¹ := by
      rw [Matrix.mul_inv_rev, ← transpose_nonsing_inv]
    have h2 : (x - μ) ⬝ᵥ ((S⁻¹ᵀ * S⁻¹) *ᵥ (x - μ))
        = (S⁻¹ *ᵥ (x - μ)) ⬝ᵥ (S⁻¹ *ᵥ (x - μ)) := by
      rw [← mulVec_mulVec, dotProduct_mulVec, vecMul_transpose]
    rw [h1, h2]
    exact Finset.sum_nonneg fun i _ => mul_self_nonneg _
  unfold normalDensity
  linarith

/-- The parts of a list with entries that vary continuously. -/
theorem continuous_splitLengths {α : Type} [TopologicalSpace α] : ∀ (ns : List Nat) (F : α → List ℝ),
    (∀ j, Continuous fun v => (F v).getD j 0) → (∀ v w, (F v).length = (F w).length) → ∀ i,
      (∀ j, Continuous fun v => ((ns.splitLengths (F v)).getD i []).getD j 0) ∧
        ∀ v w, ((ns.splitLengths (F v)).getD i []).length = ((ns.splitLengths (F w)).getD i []).length
  | [], F, _, _, i => by
    refine ⟨fun j => ?_, fun v w => by simp⟩
    simp only [List.splitLengths_nil, List.getD_nil]
    exact continuous_const
  | n :: ns, F, hF, hl, i => by
    simp only [List.splitLengths_cons]
    cases i with
    | zero =>
      refine ⟨fun j => ?_, fun v w => by simp [hl v w]⟩
      simp only [List.getD_cons_zero]
      simp only [List.getD_eq_getElem?_getD, List.getElem?_take]
      split
      · simpa only [List.getD_eq_getElem?_getD] using hF j
      · exact continuous_const
    | succ i =>
      simp only [List.getD_cons_succ]
      refine continuous_splitLengths ns (fun v => (F v).drop n) (fun j => ?_) (fun v w => by simp [hl v w]) i
      have := hF (n + j)
      simpa only [List.getD_eq_getElem?_getD, List.getElem?_drop] using this

/-- Every place in the concatenation of some lists belongs to one of them. -/
theorem flat_position : ∀ {ls : List (List ℝ)} {k : Nat}, k < (ls.map List.length).sum →
    ∃ i j l, ls[i]? = some l ∧ j < l.length ∧ ((ls.take i).map List.length).sum + j = k
  | [], k, h => by simp at h
  | l :: ls, k, h => by
    by_cases hk : k < l.length
    · exact ⟨0, k, l, rfl, hk, by simp⟩
    · simp only [List.map_cons, List.sum_cons] at h
      obtain ⟨i, j, l', h1, h2, h3⟩ := flat_position (ls := ls) (k := k - l.length) (by omega)
      refine ⟨i + 1, j, l', h1, h2, ?_⟩
      simp only [List.take_succ_cons, List.map_cons, List.sum_cons]
      omega

section
variable {τ : Type} [LinearOrder τ]
variable {days : τ → ℝ} {p : PiecewiseParams ℝ τ}
  {cfg : HierConfig (Option (PiecewiseState ℝ τ)) (Scale ℝ) τ (Tensor ℝ) ℝ}
  {mode : String → String}

theorem continuous_panelMean {α : Type} [TopologicalSpace α] {S Y Sc D : Type} {E : α → SiteEnv ℝ}
    (hE : ∀ n i, Continuous fun v => (E v n).data.getD i 0)
    (hl : ∀ n v w, (E v n).data.length = (E w n).data.length) (s : PiecewiseState ℝ τ)
    (ss : List (List String)) (l : List (FittedEffect S Y Sc τ ℝ D ℝ)) (x : Frame String τ ℝ)
    (a : List String) (t : τ) : Continuous fun v => panelMean days mode s ss l x (E v) a t := by
  have h1 : Continuous fun v => panelTrendAt days s ss (E v) a t := by
    unfold panelTrendAt trendAt seriesCoefs
    refine (hE _ _).add ?_
    obtain ⟨h2, h3⟩ := continuous_splitLengths (s.cps.map List.length)
      (fun v => (E v "changepoint_coefficients").data) (hE _) (hl _) (ss.idxOf a)
    exact continuous_zipWith (f := fun c b => b * rampEntry (s.time.scaled days t) c)
      (fun c => continuous_id.mul continuous_const) _ _ h2 h3
  unfold panelMean
  refine h1.add (continuous_map_sum _ fun fe _ => ?_)
  have h2 : Continuous fun v => dot (fe.cols.map (cellAt x a t)) (E v (fe.name ++ "/coefs")).data :=
    continuous_zipWith (f := (· * ·)) (fun c => continuous_const.mul continuous_id) _ _ (hE _) (hl _)
  unfold combine
  split
  · exact h2
  · exact h1.mul h2

/-- The sites of the mean and the log densities of their priors. -/
noncomputable def hierSites {S Y Sc D : Type} (os : ℝ) (prior : String → ℝ → ℝ) (s : PiecewiseState ℝ τ)
    (l : List (FittedEffect S Y Sc τ ℝ D ℝ)) : List (String × List (ℝ → ℝ)) :=
  ("offset", s.offsetLoc.map fun μ => normalLP μ os)
    :: ("changepoint_coefficients", List.zipWith laplaceLP s.priorLoc s.priorScale)
    :: l.map fun fe => (fe.name ++ "/coefs", List.replicate fe.cols.length (prior fe.name))

theorem zipWith_apply_replicate (f : ℝ → ℝ) : ∀ l : List ℝ,
    List.zipWith (fun f x => f x) (List.replicate l.length f) l = l.map f
  | [] => rfl
  | a :: l => by simp [List.replicate_succ, zipWith_apply_replicate f l]

theorem zipWith_apply_laplace : ∀ a b l : List ℝ,
    List.zipWith (fun f x => f x) (List.zipWith laplaceLP a b) l
      = List.zipWith (fun (q : ℝ × ℝ) δ => laplaceLP q.1 q.2 δ) (a.zip b) l
  | [], _, _ => by simp
  | _ :: _, [], _ => by simp
  | _ :: _, _ :: _, [] => by simp
  | _ :: a, _ :: b, _ :: l => by simp [zipWith_apply_laplace a b l]

theorem sitesPrior_hier {S Y Sc D : Type} {os : ℝ} {prior : String → ℝ → ℝ} {s : PiecewiseState ℝ τ}
    {l : List (FittedEffect S Y Sc τ ℝ D ℝ)} {θ : SiteEnv ℝ} (h : SitesSized (hierSites os prior s l) θ) :
    sitesPrior (hierSites os prior s l) θ = hierPrior os prior s l θ := by
  unfold sitesPrior hierPrior hierSites
  simp only [List.map_cons, List.sum_cons, List.map_map]
  rw [zipWith_apply_laplace, List.zipWith_map_left, ← add_assoc]
  congr 2
  refine List.map_congr_left fun fe hfe => ?_
  have := h (fe.name ++ "/coefs", List.replicate fe.cols.length (prior fe.name))
    (by
      unfold hierSites
      simp only [List.mem_cons, List.mem_map]
      exact .inr (.inr ⟨fe, hfe, rfl⟩))
  simp only [List.length_replicate] at this
  simp only [Function.comp_apply]
  rw [← this, zipWith_apply_replicate]

theorem hierSites_nodup {S Y Sc D : Type} {os : ℝ} {prior : String → ℝ → ℝ} {s : PiecewiseState ℝ τ}
    {l : List (FittedEffect S Y Sc τ ℝ D ℝ)} (h : (l.map FittedEffect.name).Nodup) :
    ((hierSites os prior s l).map Prod.fst).Nodup := by
  unfold hierSites
  simp only [List.map_cons, List.map_map, List.nodup_cons, List.mem_cons, List.mem_map, Function.comp_apply]
  refine ⟨?_, ?_, ?_⟩
  · rintro (h | ⟨fe, -, h⟩)
    · simp at h
    · exact coefs_site_ne _ (by decide) h
  · rintro ⟨fe, -, h⟩
    exact coefs_site_ne _ (by decide) h
  · have : (l.map (Prod.fst ∘ fun fe => (fe.name ++ "/coefs", List.replicate fe.cols.length (prior fe.name))))
        = (l.map FittedEffect.name).map (· ++ "/coefs") := by
      rw [List.map_map]
      rfl
    rw [this]
    exact h.map fun a b hab => by simpa using hab

theorem noise_not_site {S Y Sc D : Type} {os : ℝ} {prior : String → ℝ → ℝ} {s : PiecewiseState ℝ τ}
    {l : List (FittedEffect S Y Sc τ ℝ D ℝ)} {n : String} (h : '/' ∉ n.toList) (h1 : n ≠ "offset")
    (h2 : n ≠ "changepoint_coefficients") : n ∉ (hierSites os prior s l).map Prod.fst := by
  unfold hierSites
  simp only [List.map_cons, List.map_map, List.mem_cons, List.mem_map, Function.comp_apply, not_or]
  refine ⟨h1, h2, ?_⟩
  rintro ⟨fe, -, hn⟩
  exact coefs_site_ne _ h hn

/-- The priors of the sites of the mean. -/
theorem hier_site_priors {S Y Sc D : Type} {os b : ℝ} {prior : String → ℝ → ℝ} {s : PiecewiseState ℝ τ}
    {l : List (FittedEffect S Y Sc τ ℝ D ℝ)} (hb : p.priorScale = .scalar b)
    (hlu : LinedUp s.cps p.priorScale (s.priorLoc, s.priorScale)) :
    ∀ e ∈ hierSites os prior s l, ∀ f ∈ e.2,
      (∃ μ, f = normalLP μ os) ∨ (∃ μ, f = laplaceLP μ b) ∨ ∃ n, f = prior n := by
  have hscale : ∀ v ∈ s.priorScale, v = b := by
    intro v hv
    obtain ⟨k, hk, rfl⟩ := List.getElem_of_mem hv
    have hk' : k < (s.cps.map List.length).sum := by
      have := hlu.scale
      simp only at this
      omega
    obtain ⟨i, j, cs, hi, hj, he⟩ := flat_position hk'
    have := hlu.own i j cs hi hj
    simp only at this
    rw [he, List.getElem?_eq_getElem hk, hb] at this
    exact Option.some.inj this
  intro e he f hf
  simp only [hierSites, List.mem_cons, List.mem_map] at he
  rcases he with rfl | rfl | ⟨fe, -, rfl⟩
  · obtain ⟨μ, -, rfl⟩ := List.mem_map.1 hf
    exact .inl ⟨μ, rfl⟩
  · obtain ⟨k, hk, rfl⟩ := List.getElem_of_mem hf
    rw [List.getElem_zipWith]
    rw [hscale _ (List.getElem_mem _)]
    exact .inr (.inl ⟨_, rfl⟩)
  · exact .inr (.inr ⟨fe.name, List.eq_of_mem_replicate hf⟩)

theorem hier_sized {ss : List (List String)} {ts : List τ} {X : Option (Frame String τ ℝ)}
    {m : HierFit (Option (PiecewiseState ℝ τ)) (Scale ℝ) τ (Tensor ℝ) ℝ} {x : Frame String τ ℝ}
    {s : PiecewiseState ℝ τ} {os : ℝ} {prior : String → ℝ → ℝ} (h : HierFitted days p ss ts X m x s)
    (ho : s.offsetLoc.length = ss.length) (hlu : LinedUp s.cps p.priorScale (s.priorLoc, s.priorScale)) :
    ∀ θ, SitesSized (hierSites os prior s (kept m.fitted)) θ ↔ HierSizes s m θ := by
  intro θ
  unfold SitesSized hierSites
  simp only [List.forall_mem_cons, List.forall_mem_map, List.length_map, List.length_replicate,
    List.length_zipWith]
  have hl1 := hlu.loc
  have hl2 := hlu.scale
  simp only at hl1 hl2
  rw [hl1, hl2, ho, min_self]
  constructor
  · rintro ⟨q1, q2, q3⟩
    exact ⟨⟨q1.trans h.changepoints.symm, q2⟩, fun fe hfe hne => q3 fe ((hier_kept h).2 ⟨hfe, hne⟩)⟩
  · rintro ⟨⟨q1, q2⟩, q3⟩
    exact ⟨q1.trans h.changepoints, q2, fun fe hfe => q3 fe ((hier_kept h).1 hfe).1 ((hier_kept h).1 hfe).2⟩

/-- Specification: no parameters of the right sizes with the same noise levels and correlation have
a larger posterior density. -/
def BestPanel (lkj : Nat → ℝ → Tensor ℝ → ℝ) (ns conc os : ℝ) (prior : String → ℝ → ℝ)
    (s : PiecewiseState ℝ τ) (m : HierFit (Option (PiecewiseState ℝ τ)) (Scale ℝ) τ (Tensor ℝ) ℝ)
    (θ : SiteEnv ℝ) : Prop :=
  HierSizes s m θ ∧ ∃ l, hierDensity lkj ns conc os prior m θ = .ok l ∧
    ∀ θ' l', HierSizes s m θ' → θ' "std_observation" = θ "std_observation" →
      θ' "corr_matrix" = θ "corr_matrix" → hierDensity lkj ns conc os prior m θ' = .ok l' → l' ≤ l

/-- **C114**: for given noise levels and correlation, a panel has a best fit, if the log densities of
the priors of the coefficients are continuous and tend to `-∞` (the default does). -/
theorem C114_exists (hV : ValidHier days p cfg) (hM : Modes mode cfg) {y : Frame String τ ℝ}
    (hy : RegularPanel y) {ss : List (List String)} (hss : SeriesOf y ss) (h2 : 2 ≤ ss.length) {ts : List τ}
    (hts : DatesOf y ts) {b : ℝ} (hb : p.priorScale = .scalar b) (hb0 : 0 < b)
    {X : Option (Frame String τ ℝ)} (hX : GivenExog X ss ts)
    (hcomp : ∀ c ∈ givenCols X, c ∉ cfg.shared → ∃ q, cfg.compile c = .ok q) :
    ∃ m s, hierFitData cfg y X = .ok m ∧ m.trend.st.2 = some s ∧
      ∀ (lkj : Nat → ℝ → Tensor ℝ → ℝ) (ns conc os : ℝ) (prior : String → ℝ → ℝ), os ≠ 0 →
        (∀ n, Continuous (prior n)) → (∀ n, Tendsto (prior n) (cocompact ℝ) atBot) →
        ∀ (std corr : Tensor ℝ) (σ : Fin ss.length → ℝ) (C : Matrix (Fin ss.length) (Fin ss.length) ℝ),
        std.data.length = ss.length → VectorSite std σ → (∀ i, 0 < σ i) → MatrixSite corr C → CorrFactor C →
        ∃ θ, θ "std_observation" = std ∧ θ "corr_matrix" = corr ∧ BestPanel lkj ns conc os prior s m θ := by
  obtain ⟨c, hc⟩ := hy.column
  obtain ⟨obs, hobs⟩ : ∃ obs, Observed y c obs :=
    ⟨fun a t => cellAt y a t c, fun r hr _ => cellAt_of_mem hy.ordered hr (by rw [hc]; simp)⟩
  obtain ⟨m, hfit⟩ := C113_fits hV hy hss hts hX hcomp
  obtain ⟨x, s, h, ho, hlu, hF⟩ := C90_fitted hV hM hy hc hobs hss h2 hts (by rw [hb]; trivial) hX hcomp hfit
  refine ⟨m, s, hfit, h.state, ?_⟩
  intro lkj ns conc os prior hos hpc hpt std corr σ C hsl hσs hσ hCs hC
  set sites := hierSites os prior s (kept m.fitted) with hsites
  have hnd : (sites.map Prod.fst).Nodup := hierSites_nodup (h.nodup.sublist (List.filter_sublist.map _))
  have hmemf := hier_site_priors (os := os) (prior := prior) (l := kept m.fitted) hb hlu
  have hsized := hier_sized (os := os) (prior := prior) h ho hlu
  rw [← hsites] at hmemf hsized
  set θ₀ : SiteEnv ℝ := fun n => if n = "std_observation" then std else if n = "corr_matrix" then corr else ⟨[], []⟩
  obtain ⟨θ, hz, hother, hmax⟩ := best_of_sites (sites := sites) hnd
    (fun e he f hf => by
      rcases hmemf e he f hf with ⟨μ, rfl⟩ | ⟨μ, rfl⟩ | ⟨n, rfl⟩
      · exact continuous_normalLP _ _
      · exact continuous_laplaceLP _ _
      · exact hpc n)
    (fun e he f hf => by
      rcases hmemf e he f hf with ⟨μ, rfl⟩ | ⟨μ, rfl⟩ | ⟨n, rfl⟩
      · exact tendsto_normalLP _ hos
      · exact tendsto_laplaceLP _ hb0
      · exact hpt n)
    θ₀ (R := hierLik days mode s ss ts (kept m.fitted) x obs σ C)
    (continuous_map_sum _ fun t _ => continuous_normalDensity (fun i =>
      continuous_panelMean (continuous_envOf hnd θ₀) (envOf_length hnd θ₀) _ _ _ _ _ _) _ _)
    (B := (ts.map fun _ => -Real.log (panelCovariance σ C).det / 2 - ss.length * Real.log (2 * Real.pi) / 2).sum)
    (fun θ => List.sum_le_sum fun t _ => normalDensity_le hσ hC _ _)
    (fun θ θ' hd => by
      have q1 : (θ "offset").data = (θ' "offset").data := 
        hd ("offset", s.offsetLoc.map fun μ => normalLP μ os) (by rw [hsites]; simp only [hierSites]; simp)
      have q2 : (θ "changepoint_coefficients").data = (θ' "changepoint_coefficients").data :=
        hd ("changepoint_coefficients", List.zipWith laplaceLP s.priorLoc s.priorScale) (by rw [hsites]; simp only [hierSites]; simp)
      have q3 : ∀ fe ∈ kept m.fitted, (θ (fe.name ++ "/coefs")).data = (θ' (fe.name ++ "/coefs")).data :=
        fun fe hfe => hd (fe.name ++ "/coefs", List.replicate fe.cols.length (prior fe.name)) (by
          rw [hsites]
          simp only [hierSites, List.mem_cons, List.mem_map]
          exact .inr (.inr ⟨fe, hfe, rfl⟩))
      have q4 : ∀ a t, panelMean days mode s ss (kept m.fitted) x θ a t
          = panelMean days mode s ss (kept m.fitted) x θ' a t := by
        intro a t
        have q5 : panelTrendAt days s ss θ a t = panelTrendAt days s ss θ' a t := by
          unfold panelTrendAt seriesCoefs
          rw [q1, q2]
        unfold panelMean
        rw [q5]
        congr 2
        exact List.map_congr_left fun fe hfe => by rw [q3 fe hfe]
      unfold hierLik
      simp only [q4])
  have e1 : θ "std_observation" = std := by
    rw [hother _ (noise_not_site (by decide) (by decide) (by decide))]
    rfl
  have e2 : θ "corr_matrix" = corr := by
    rw [hother _ (noise_not_site (by decide) (by decide) (by decide))]
    rfl
  refine ⟨θ, e1, e2, (hsized θ).1 hz, _, hF lkj ns conc os prior θ σ C ((hsized θ).1 hz) (by rw [e1]; exact hsl)
    (by rw [e1]; exact hσs) hσ (by rw [e2]; exact hCs) hC, ?_⟩
  intro θ' l' hz' e1' e2' hl'
  rw [hF lkj ns conc os prior θ' σ C hz' (by rw [e1', e1]; exact hsl)
    (by rw [e1', e1]; exact hσs) hσ (by rw [e2', e2]; exact hCs) hC] at hl'
  cases hl'
  have := hmax θ' ((hsized θ').2 hz')
  rw [sitesPrior_hier hz, sitesPrior_hier ((hsized θ').2 hz')] at this
  have hnoise : noisePart lkj ns conc ss.length θ' = noisePart lkj ns conc ss.length θ := by
    unfold noisePart
    rw [e1', e2']
  rw [hnoise]
  linarith

end
end PV

namespace PV
open Tensor Filter Matrix

/-! ## At most one best fit -/

/-- Sums of concave functions of the entries. -/
theorem zip_concave {a a' : ℝ} : ∀ {fs : List (ℝ → ℝ)} {l l' : List ℝ},
    (∀ f ∈ fs, ∀ x x', a * f x + a' * f x' ≤ f (a * x + a' * x')) → l.length = fs.length →
    l'.length = fs.length →
    a * (List.zipWith (fun f x => f x) fs l).sum + a' * (List.zipWith (fun f x => f x) fs l').sum
      ≤ (List.zipWith (fun f x => f x) fs (mixList a a' l l')).sum
  | [], _, _, _, _, _ => by simp
  | f :: fs, x :: l, x' :: l', h, h1, h2 => by
    have ih := zip_concave (fs := fs) (l := l) (l' := l') (fun f hf => h f (by simp [hf])) (by simpa using h1)
      (by simpa using h2)
    have := h f (by simp) x x'
    unfold mixList at ih ⊢
    simp only [List.zipWith_cons_cons, List.sum_cons]
    linarith

theorem zip_strict {a a' : ℝ} : ∀ {fs : List (ℝ → ℝ)} {l l' : List ℝ},
    (∀ f ∈ fs, ∀ x x', x ≠ x' → a * f x + a' * f x' < f (a * x + a' * x')) →
    (∀ f ∈ fs, ∀ x x', a * f x + a' * f x' ≤ f (a * x + a' * x')) → l.length = fs.length →
    l'.length = fs.length →
    (List.zipWith (fun f x => f x) fs (mixList a a' l l')).sum
      ≤ a * (List.zipWith (fun f x => f x) fs l).sum + a' * (List.zipWith (fun f x => f x) fs l').sum → l = l'
  | [], l, l', _, _, h1, h2, _ => by
    have e1 : l = [] := List.length_eq_zero_iff.1 (by simpa using h1)
    have e2 : l' = [] := List.length_eq_zero_iff.1 (by simpa using h2)
    rw [e1, e2]
  | f :: fs, x :: l, x' :: l', hs, h, h1, h2, hle => by
    have ihc := zip_concave (fs := fs) (l := l) (l' := l') (fun f hf => h f (by simp [hf]))
      (by simpa using h1) (by simpa using h2)
    have hf := h f (by simp) x x'
    have hs0 := hs f (by simp) x x'
    unfold mixList at hle
    simp only [List.zipWith_cons_cons, List.sum_cons] at hle
    unfold mixList at ihc
    have hx : x = x' := by
      by_contra hne
      have := hs0 hne
      linarith
    have ih := zip_strict (fs := fs) (l := l) (l' := l') (fun f hf => hs f (by simp [hf]))
      (fun f hf => h f (by simp [hf])) (by simpa using h1) (by simpa using h2) (by
        unfold mixList
        linarith)
    rw [hx, ih]

section
variable {sites : List (String × List (ℝ → ℝ))} {a a' : ℝ} {θ θ' θ'' : SiteEnv ℝ}

theorem sites_concave (hf : ∀ e ∈ sites, ∀ f ∈ e.2, ∀ x x', a * f x + a' * f x' ≤ f (a * x + a' * x'))
    (hz : SitesSized sites θ) (hz' : SitesSized sites θ') (h : Between a a' θ θ' θ'') :
    a * sitesPrior sites θ + a' * sitesPrior sites θ' ≤ sitesPrior sites θ'' := by
  unfold sitesPrior
  rw [← List.sum_map_mul_left, ← List.sum_map_mul_left, ← List.sum_map_add]
  refine List.sum_le_sum fun e he => ?_
  rw [(h e.1).2]
  exact zip_concave (hf e he) (hz e he) (hz' e he)

/-- Without a gain, the values of all sites with strictly concave priors agree. -/
theorem sites_strict (hf : ∀ e ∈ sites, ∀ f ∈ e.2, ∀ x x', a * f x + a' * f x' ≤ f (a * x + a' * x'))
    (hz : SitesSized sites θ) (hz' : SitesSized sites θ') (h : Between a a' θ θ' θ'')
    (hle : sitesPrior sites θ'' ≤ a * sitesPrior sites θ + a' * sitesPrior sites θ')
    {e : String × List (ℝ → ℝ)} (he : e ∈ sites)
    (hs : ∀ f ∈ e.2, ∀ x x', x ≠ x' → a * f x + a' * f x' < f (a * x + a' * x')) :
    (θ e.1).data = (θ' e.1).data := by
  refine zip_strict hs (hf e he) (hz e he) (hz' e he) ?_
  obtain ⟨l₁, l₂, rfl⟩ := List.append_of_mem he
  have c1 := sites_concave (sites := l₁) (fun e he => hf e (by simp [he])) (fun e he => hz e (by simp [he]))
    (fun e he => hz' e (by simp [he])) h
  have c2 := sites_concave (sites := l₂) (fun e he => hf e (by simp [he])) (fun e he => hz e (by simp [he]))
    (fun e he => hz' e (by simp [he])) h
  unfold sitesPrior at c1 c2 hle
  simp only [List.map_append, List.map_cons, List.sum_append, List.sum_cons] at hle
  rw [(h e.1).2] at hle
  unfold mixList
  linarith

end

/-- The quadratic form of a covariance with a factor is a sum of squares. -/
theorem covariance_form {n : Nat} (σ : Fin n → ℝ) (C : Matrix (Fin n) (Fin n) ℝ) (d : Fin n → ℝ) :
    d ⬝ᵥ ((panelCovariance σ C)⁻¹ *ᵥ d)
      = ((obsScaleTril σ C)⁻¹ *ᵥ d) ⬝ᵥ ((obsScaleTril σ C)⁻¹ *ᵥ d) := by
  rw [← panelCovariance_eq]
  set S := obsScaleTril σ C
  unfold mvnCovariance
  have h1 : (S * Sᵀ)⁻¹ = S⁻¹ᵀ * S⁻¹ := by
    rw [Matrix.mul_inv_rev, ← transpose_nonsing_inv]
  rw [h1, ← mulVec_mulVec, dotProduct_mulVec, vecMul_transpose]

theorem normalDensity_mix {n : Nat} {σ : Fin n → ℝ} {C : Matrix (Fin n) (Fin n) ℝ} {a a' : ℝ} (h : a + a' = 1)
    (μ μ' x : Fin n → ℝ) : normalDensity (fun i => a * μ i + a' * μ' i) (panelCovariance σ C) x
      = a * normalDensity μ (panelCovariance σ C) x + a' * normalDensity μ' (panelCovariance σ C) x
        + a * a' * (((obsScaleTril σ C)⁻¹ *ᵥ (μ - μ')) ⬝ᵥ ((obsScaleTril σ C)⁻¹ *ᵥ (μ - μ'))) / 2 := by
  unfold normalDensity
  rw [covariance_form, covariance_form, covariance_form]
  set S := obsScaleTril σ C
  set u := S⁻¹ *ᵥ (x - μ)
  set u' := S⁻¹ *ᵥ (x - μ')
  have e1 : S⁻¹ *ᵥ (x - fun i => a * μ i + a' * μ' i) = a • u + a' • u' := by
    rw [← mulVec_smul, ← mulVec_smul, ← mulVec_add]
    congr 1
    funext i
    simp only [Pi.sub_apply, Pi.add_apply, Pi.smul_apply, smul_eq_mul]
    obtain rfl : a' = 1 - a := by linarith
    ring
  have e2 : S⁻¹ *ᵥ (μ - μ') = u' - u := by
    rw [← mulVec_sub]
    congr 1
    funext i
    simp only [Pi.sub_apply]
    ring
  rw [e1, e2]
  simp only [dotProduct_add, add_dotProduct, smul_dotProduct, dotProduct_smul, dotProduct_sub, sub_dotProduct,
    smul_eq_mul]
  rw [dotProduct_comm u' u]
  obtain rfl : a' = 1 - a := by linarith
  ring

theorem factor_zero {n : Nat} {σ : Fin n → ℝ} (hσ : ∀ i, 0 < σ i) {C : Matrix (Fin n) (Fin n) ℝ}
    (hC : CorrFactor C) {d : Fin n → ℝ}
    (h : ((obsScaleTril σ C)⁻¹ *ᵥ d) ⬝ᵥ ((obsScaleTril σ C)⁻¹ *ᵥ d) ≤ 0) : d = 0 := by
  obtain ⟨hl, hd⟩ := obsScaleTril_lower hσ hC
  set S := obsScaleTril σ C
  have hdet : S.det ≠ 0 := by
    rw [det_of_isLowerTriangular _ hl]
    exact (Finset.prod_pos fun i _ => hd i).ne'
  have h0 : S⁻¹ *ᵥ d = 0 := by
    funext i
    have hnn : ∀ j ∈ Finset.univ, 0 ≤ (S⁻¹ *ᵥ d) j * (S⁻¹ *ᵥ d) j := fun j _ => mul_self_nonneg _
    have := (Finset.sum_eq_zero_iff_of_nonneg hnn).1 (le_antisymm h (Finset.sum_nonneg hnn)) i (Finset.mem_univ i)
    simpa using this
  have : S *ᵥ (S⁻¹ *ᵥ d) = d := by
    rw [mulVec_mulVec, mul_nonsing_inv _ (Ne.isUnit hdet), one_mulVec]
  rw [← this, h0, mulVec_zero]

theorem splitLengths_mix {a a' : ℝ} : ∀ (ns : List Nat) (l l' : List ℝ),
    ns.splitLengths (mixList a a' l l') = List.zipWith (mixList a a') (ns.splitLengths l) (ns.splitLengths l')
  | [], _, _ => rfl
  | n :: ns, l, l' => by
    have h1 : (mixList a a' l l').take n = mixList a a' (l.take n) (l'.take n) := by
      unfold mixList
      rw [List.take_zipWith]
    have h2 : (mixList a a' l l').drop n = mixList a a' (l.drop n) (l'.drop n) := by
      unfold mixList
      rw [List.drop_zipWith]
    simp only [List.splitLengths_cons, List.zipWith_cons_cons]
    rw [h1, h2, splitLengths_mix ns]

section
variable {τ : Type} [LinearOrder τ]
variable {days : τ → ℝ} {p : PiecewiseParams ℝ τ}
  {cfg : HierConfig (Option (PiecewiseState ℝ τ)) (Scale ℝ) τ (Tensor ℝ) ℝ}

/-- The trend is linear in the parameters. -/
theorem panelTrend_mix {a a' : ℝ} (haa : a + a' = 1) {θ θ' θ'' : SiteEnv ℝ} (h : Between a a' θ θ' θ'') {s : PiecewiseState ℝ τ}
    {ss : List (List String)} (hz : PanelSites s.cps θ) (hz' : PanelSites s.cps θ') (u : List String) (t : τ) :
    panelTrendAt days s ss θ'' u t
      = a * panelTrendAt days s ss θ u t + a' * panelTrendAt days s ss θ' u t := by
  have h1 : ∀ i, (θ'' "offset").data.getD i 0
      = a * (θ "offset").data.getD i 0 + a' * (θ' "offset").data.getD i 0 := by
    intro i
    rw [(h _).2]
    have hl : (θ "offset").data.length = (θ' "offset").data.length := by rw [hz.1, hz'.1]
    simp only [List.getD_eq_getElem?_getD, List.getElem?_zipWith]
    by_cases hi : i < (θ "offset").data.length
    · rw [List.getElem?_eq_getElem hi, List.getElem?_eq_getElem (by omega)]
      rfl
    · rw [List.getElem?_eq_none (by omega), List.getElem?_eq_none (by omega)]
      simp
  have h2 : ∀ i, (seriesCoefs s.cps θ'').getD i []
      = mixList a a' ((seriesCoefs s.cps θ).getD i []) ((seriesCoefs s.cps θ').getD i []) := by
    intro i
    unfold seriesCoefs
    rw [(h _).2]
    have := splitLengths_mix (a := a) (a' := a') (s.cps.map List.length) (θ "changepoint_coefficients").data
      (θ' "changepoint_coefficients").data
    unfold mixList at this ⊢
    rw [this]
    simp only [List.getD_eq_getElem?_getD, List.getElem?_zipWith]
    cases hq : ((s.cps.map List.length).splitLengths (θ "changepoint_coefficients").data)[i]? with
    | none => simp
    | some v =>
      cases hq' : ((s.cps.map List.length).splitLengths (θ' "changepoint_coefficients").data)[i]? with
      | none => simp
      | some v' => simp
  have h3 : ∀ i, ((seriesCoefs s.cps θ).getD i []).length = ((seriesCoefs s.cps θ').getD i []).length := by
    intro i
    have e1 : (seriesCoefs s.cps θ).map List.length = s.cps.map List.length :=
      List.map_splitLengths_length _ _ (by rw [hz.2])
    have e2 : (seriesCoefs s.cps θ').map List.length = s.cps.map List.length :=
      List.map_splitLengths_length _ _ (by rw [hz'.2])
    have e3 := congrArg (fun l => l[i]?) (e1.trans e2.symm)
    simp only [List.getElem?_map] at e3
    simp only [List.getD_eq_getElem?_getD]
    cases hq : (seriesCoefs s.cps θ)[i]? with
    | none =>
      cases hq' : (seriesCoefs s.cps θ')[i]? with
      | none => rfl
      | some w => rw [hq, hq'] at e3; cases e3
    | some v =>
      cases hq' : (seriesCoefs s.cps θ')[i]? with
      | none => rw [hq, hq'] at e3; cases e3
      | some w =>
        rw [hq, hq'] at e3
        simpa using e3
  unfold panelTrendAt trendAt
  rw [h1, h2, zip_mix (ρ := rampEntry (s.time.scaled days t)) (h3 _)]
  ring

/-- The mean is linear in the parameters, if all effects are additive. -/
theorem panelMean_mix {a a' : ℝ} (haa : a + a' = 1) {θ θ' θ'' : SiteEnv ℝ} (h : Between a a' θ θ' θ'')
    {ss : List (List String)} {ts : List τ} {X : Option (Frame String τ ℝ)}
    {m : HierFit (Option (PiecewiseState ℝ τ)) (Scale ℝ) τ (Tensor ℝ) ℝ} {x z : Frame String τ ℝ}
    {s : PiecewiseState ℝ τ} (hF : HierFitted days p ss ts X m x s) (hz : HierSizes s m θ)
    (hz' : HierSizes s m θ') (u : List String) (t : τ) :
    panelMean days (fun _ => "additive") s ss (kept m.fitted) z θ'' u t
      = a * panelMean days (fun _ => "additive") s ss (kept m.fitted) z θ u t
        + a' * panelMean days (fun _ => "additive") s ss (kept m.fitted) z θ' u t := by
  unfold panelMean
  rw [panelTrend_mix haa h hz.trend hz'.trend]
  have : ((kept m.fitted).map fun fe => combine "additive"
        (a * panelTrendAt days s ss θ u t + a' * panelTrendAt days s ss θ' u t)
        (dot (fe.cols.map (cellAt z u t)) (θ'' (fe.name ++ "/coefs")).data))
      = (kept m.fitted).map fun fe =>
        a * combine "additive" (panelTrendAt days s ss θ u t)
          (dot (fe.cols.map (cellAt z u t)) (θ (fe.name ++ "/coefs")).data)
        + a' * combine "additive" (panelTrendAt days s ss θ' u t)
          (dot (fe.cols.map (cellAt z u t)) (θ' (fe.name ++ "/coefs")).data) := by
    refine List.map_congr_left fun fe hfe => ?_
    obtain ⟨h1, h2⟩ := (hier_kept hF).1 hfe
    simp only [combine, if_true]
    rw [(h _).2]
    exact dot_mix (by rw [hz.coefs fe h1 h2, hz'.coefs fe h1 h2])
  rw [this, List.sum_map_add, List.sum_map_mul_left, List.sum_map_mul_left]
  ring

/-- The likelihood of a convex combination: no loss, and a gain unless the means agree. -/
theorem hierLik_mix {a a' : ℝ} (ha : 0 ≤ a) (ha' : 0 ≤ a') (haa : a + a' = 1) {θ θ' θ'' : SiteEnv ℝ}
    (h : Between a a' θ θ' θ'') {ss : List (List String)} {ts : List τ} {X : Option (Frame String τ ℝ)}
    {m : HierFit (Option (PiecewiseState ℝ τ)) (Scale ℝ) τ (Tensor ℝ) ℝ} {x z : Frame String τ ℝ}
    {s : PiecewiseState ℝ τ} (hF : HierFitted days p ss ts X m x s) (hz : HierSizes s m θ)
    (hz' : HierSizes s m θ') (obs : List String → τ → ℝ) {σ : Fin ss.length → ℝ} (hσ : ∀ i, 0 < σ i)
    {C : Matrix (Fin ss.length) (Fin ss.length) ℝ} (hC : CorrFactor C) (ts : List τ) :
    let lik := hierLik days (fun _ => "additive") s ss ts (kept m.fitted) z obs σ C
    let μ := panelMean days (fun _ => "additive") s ss (kept m.fitted) z
    a * lik θ + a' * lik θ' ≤ lik θ'' ∧
      (0 < a → 0 < a' → lik θ'' ≤ a * lik θ + a' * lik θ' → ∀ t ∈ ts, ∀ i : Fin ss.length,
        μ θ (ss.get i) t = μ θ' (ss.get i) t) := by
  intro lik μ
  have hone : ∀ t, normalDensity (fun i => μ θ'' (ss.get i) t) (panelCovariance σ C) (fun i => obs (ss.get i) t)
      = a * normalDensity (fun i => μ θ (ss.get i) t) (panelCovariance σ C) (fun i => obs (ss.get i) t)
        + a' * normalDensity (fun i => μ θ' (ss.get i) t) (panelCovariance σ C) (fun i => obs (ss.get i) t)
        + a * a' * (((obsScaleTril σ C)⁻¹ *ᵥ ((fun i => μ θ (ss.get i) t) - fun i => μ θ' (ss.get i) t))
          ⬝ᵥ ((obsScaleTril σ C)⁻¹ *ᵥ ((fun i => μ θ (ss.get i) t) - fun i => μ θ' (ss.get i) t))) / 2 := by
    intro t
    rw [← normalDensity_mix haa]
    congr 1
    funext i
    exact panelMean_mix haa h hF hz hz' _ _
  have hge : ∀ t, a * normalDensity (fun i => μ θ (ss.get i) t) (panelCovariance σ C) (fun i => obs (ss.get i) t)
        + a' * normalDensity (fun i => μ θ' (ss.get i) t) (panelCovariance σ C) (fun i => obs (ss.get i) t)
      ≤ normalDensity (fun i => μ θ'' (ss.get i) t) (panelCovariance σ C) (fun i => obs (ss.get i) t) := by
    intro t
    rw [hone]
    have : 0 ≤ ((obsScaleTril σ C)⁻¹ *ᵥ ((fun i => μ θ (ss.get i) t) - fun i => μ θ' (ss.get i) t))
          ⬝ᵥ ((obsScaleTril σ C)⁻¹ *ᵥ ((fun i => μ θ (ss.get i) t) - fun i => μ θ' (ss.get i) t)) :=
      Finset.sum_nonneg fun i _ => mul_self_nonneg _
    have := mul_nonneg (mul_nonneg ha ha') this
    linarith
  constructor
  · show a * (ts.map _).sum + a' * (ts.map _).sum ≤ (ts.map _).sum
    rw [← List.sum_map_mul_left, ← List.sum_map_mul_left, ← List.sum_map_add]
    exact List.sum_le_sum fun t _ => hge t
  · intro ha0 ha0' hle t ht i
    have hle' := (sum_gap (l := ts) fun t _ => hge t).2 hle t ht
    rw [hone] at hle'
    have h0 : ((obsScaleTril σ C)⁻¹ *ᵥ ((fun i => μ θ (ss.get i) t) - fun i => μ θ' (ss.get i) t))
          ⬝ᵥ ((obsScaleTril σ C)⁻¹ *ᵥ ((fun i => μ θ (ss.get i) t) - fun i => μ θ' (ss.get i) t)) ≤ 0 := by
      have := mul_pos ha0 ha0'
      by_contra hpos
      have := mul_pos this (not_le.1 hpos)
      linarith
    have := congrFun (factor_zero hσ hC h0) i
    simp only [Pi.sub_apply, Pi.zero_apply] at this
    linarith

theorem Between.sized {a a' : ℝ} {θ θ' θ'' : SiteEnv ℝ} (h : Between a a' θ θ' θ'')
    {sites : List (String × List (ℝ → ℝ))} (hz : SitesSized sites θ) (hz' : SitesSized sites θ') :
    SitesSized sites θ'' := by
  intro e he
  rw [(h e.1).2, List.length_zipWith, hz e he, hz' e he, min_self]

theorem Between.same {a a' : ℝ} (haa : a + a' = 1) {θ θ' θ'' : SiteEnv ℝ} (h : Between a a' θ θ' θ'')
    {n : String} (he : θ n = θ' n) : θ'' n = θ n := by
  obtain ⟨h1, h2⟩ := h n
  rw [← he] at h2
  have := mixList_self haa (θ n).data
  unfold mixList at this
  rw [this] at h2
  cases hq : θ'' n
  cases hq' : θ n
  rw [hq, hq'] at h1 h2
  simp_all

theorem hier_priors_concave {S Y Sc D : Type} {os b : ℝ} {prior : String → ℝ → ℝ} {s : PiecewiseState ℝ τ}
    {l : List (FittedEffect S Y Sc τ ℝ D ℝ)} (hb : p.priorScale = .scalar b) (hb0 : 0 ≤ b)
    (hlu : LinedUp s.cps p.priorScale (s.priorLoc, s.priorScale))
    (hpr : ∀ n, ConcaveOn ℝ Set.univ (prior n)) {a a' : ℝ} (ha : 0 ≤ a) (ha' : 0 ≤ a') (haa : a + a' = 1) :
    ∀ e ∈ hierSites os prior s l, ∀ f ∈ e.2, ∀ x x', a * f x + a' * f x' ≤ f (a * x + a' * x') := by
  intro e he f hf x x'
  rcases hier_site_priors hb hlu e he f hf with ⟨μ, rfl⟩ | ⟨μ, rfl⟩ | ⟨n, rfl⟩
  · rw [normalLP_mix haa]
    have : 0 ≤ a * a' * (x - x') ^ 2 / (2 * os ^ 2) := by positivity
    linarith
  · exact laplaceLP_mix ha ha' haa hb0 x x'
  · simpa only [smul_eq_mul] using (hpr n).2 (Set.mem_univ x) (Set.mem_univ x') ha ha' haa

/-- **C114**: with additive effects the log posterior is concave for given noise levels and
correlation, if the priors of the coefficients are log-concave. -/
theorem C114_concave (hV : ValidHier days p cfg) (hM : Modes (fun _ => "additive") cfg) {y : Frame String τ ℝ}
    (hy : RegularPanel y) {ss : List (List String)} (hss : SeriesOf y ss) (h2 : 2 ≤ ss.length) {ts : List τ}
    (hts : DatesOf y ts) {b : ℝ} (hb : p.priorScale = .scalar b) (hb0 : 0 ≤ b)
    {X : Option (Frame String τ ℝ)} (hX : GivenExog X ss ts)
    (hcomp : ∀ c ∈ givenCols X, c ∉ cfg.shared → ∃ q, cfg.compile c = .ok q)
    {m : HierFit (Option (PiecewiseState ℝ τ)) (Scale ℝ) τ (Tensor ℝ) ℝ} (hfit : hierFitData cfg y X = .ok m) :
    ∃ s, m.trend.st.2 = some s ∧
      ∀ (lkj : Nat → ℝ → Tensor ℝ → ℝ) (ns conc os : ℝ) (prior : String → ℝ → ℝ),
        (∀ n, ConcaveOn ℝ Set.univ (prior n)) →
        ∀ (a a' : ℝ), 0 ≤ a → 0 ≤ a' → a + a' = 1 → ∀ (θ θ' θ'' : SiteEnv ℝ) (l l' l'' : ℝ),
        HierSizes s m θ → HierSizes s m θ' → Between a a' θ θ' θ'' →
        θ "std_observation" = θ' "std_observation" → θ "corr_matrix" = θ' "corr_matrix" →
        ∀ (σ : Fin ss.length → ℝ) (C : Matrix (Fin ss.length) (Fin ss.length) ℝ),
        (θ "std_observation").data.length = ss.length → VectorSite (θ "std_observation") σ → (∀ i, 0 < σ i) →
        MatrixSite (θ "corr_matrix") C → CorrFactor C →
        hierDensity lkj ns conc os prior m θ = .ok l → hierDensity lkj ns conc os prior m θ' = .ok l' →
        hierDensity lkj ns conc os prior m θ'' = .ok l'' → a * l + a' * l' ≤ l'' := by
  obtain ⟨c, hc⟩ := hy.column
  obtain ⟨obs, hobs⟩ : ∃ obs, Observed y c obs :=
    ⟨fun a t => cellAt y a t c, fun r hr _ => cellAt_of_mem hy.ordered hr (by rw [hc]; simp)⟩
  obtain ⟨x, s, h, ho, hlu, hF⟩ := C90_fitted hV hM hy hc hobs hss h2 hts (by rw [hb]; trivial) hX hcomp hfit
  refine ⟨s, h.state, ?_⟩
  intro lkj ns conc os prior hpr a a' ha ha' haa θ θ' θ'' l l' l'' hz hz' hmix hstd hcorr σ C hsl hσs hσ hCs hC
    hl hl' hl''
  have g1 := hmix.same haa hstd
  have g2 := hmix.same haa hcorr
  have hf := hier_sized (os := os) (prior := prior) h ho hlu
  have hz'' : HierSizes s m θ'' := (hf θ'').1 (hmix.sized ((hf θ).2 hz) ((hf θ').2 hz'))
  rw [hF lkj ns conc os prior θ σ C hz hsl hσs hσ hCs hC] at hl
  rw [hF lkj ns conc os prior θ' σ C hz' (by rw [← hstd]; exact hsl) (by rw [← hstd]; exact hσs) hσ
    (by rw [← hcorr]; exact hCs) hC] at hl'
  rw [hF lkj ns conc os prior θ'' σ C hz'' (by rw [g1]; exact hsl) (by rw [g1]; exact hσs) hσ
    (by rw [g2]; exact hCs) hC] at hl''
  cases hl
  cases hl'
  cases hl''
  have n1 : noisePart lkj ns conc ss.length θ' = noisePart lkj ns conc ss.length θ := by
    unfold noisePart
    rw [hstd, hcorr]
  have n2 : noisePart lkj ns conc ss.length θ'' = noisePart lkj ns conc ss.length θ := by
    unfold noisePart
    rw [g1, g2]
  have hL := (hierLik_mix ha ha' haa hmix h hz hz' (z := x) obs hσ hC ts).1
  have hP := sites_concave (sites := hierSites os prior s (kept m.fitted)) (a := a) (a' := a')
    (hier_priors_concave hb hb0 hlu hpr ha ha' haa) ((hf θ).2 hz) ((hf θ').2 hz') hmix
  rw [sitesPrior_hier ((hf θ).2 hz), sitesPrior_hier ((hf θ').2 hz'), sitesPrior_hier ((hf θ'').2 hz'')] at hP
  rw [n1, n2]
  have : a * noisePart lkj ns conc ss.length θ + a' * noisePart lkj ns conc ss.length θ
      = noisePart lkj ns conc ss.length θ := by rw [← add_mul, haa, one_mul]
  linarith

/-- **C114**: with additive effects and strictly log-concave priors (the default is), there is at most
one best fit for given noise levels and correlation: offsets, effect coefficients and the trends at
the training dates are unique, and so are the changepoint coefficients, if there is a training date
between any two changepoints of a series. -/
theorem C114_unique (hV : ValidHier days p cfg) (hM : Modes (fun _ => "additive") cfg) {y : Frame String τ ℝ}
    (hy : RegularPanel y) {ss : List (List String)} (hss : SeriesOf y ss) (h2 : 2 ≤ ss.length) {ts : List τ}
    (hts : DatesOf y ts) {b : ℝ} (hb : p.priorScale = .scalar b) (hb0 : 0 ≤ b)
    {X : Option (Frame String τ ℝ)} (hX : GivenExog X ss ts)
    (hcomp : ∀ c ∈ givenCols X, c ∉ cfg.shared → ∃ q, cfg.compile c = .ok q)
    {m : HierFit (Option (PiecewiseState ℝ τ)) (Scale ℝ) τ (Tensor ℝ) ℝ} (hfit : hierFitData cfg y X = .ok m) :
    ∃ s, m.trend.st.2 = some s ∧
      ∀ (lkj : Nat → ℝ → Tensor ℝ → ℝ) (ns conc os : ℝ) (prior : String → ℝ → ℝ), os ≠ 0 →
        (∀ n, StrictConcaveOn ℝ Set.univ (prior n)) → ∀ (θ θ' : SiteEnv ℝ),
        BestPanel lkj ns conc os prior s m θ → BestPanel lkj ns conc os prior s m θ' →
        θ "std_observation" = θ' "std_observation" → θ "corr_matrix" = θ' "corr_matrix" →
        ∀ (σ : Fin ss.length → ℝ) (C : Matrix (Fin ss.length) (Fin ss.length) ℝ),
        (θ "std_observation").data.length = ss.length → VectorSite (θ "std_observation") σ → (∀ i, 0 < σ i) →
        MatrixSite (θ "corr_matrix") C → CorrFactor C →
        (θ "offset").data = (θ' "offset").data ∧
        (∀ fe ∈ m.fitted, fe.cols ≠ [] → (θ (fe.name ++ "/coefs")).data = (θ' (fe.name ++ "/coefs")).data) ∧
        (∀ u ∈ ss, ∀ t ∈ ts, panelTrendAt days s ss θ u t = panelTrendAt days s ss θ' u t) ∧
        ((∀ cs ∈ s.cps, Covered (ts.map (s.time.scaled days)) cs) →
          (θ "changepoint_coefficients").data = (θ' "changepoint_coefficients").data) := by
  obtain ⟨c, hc⟩ := hy.column
  obtain ⟨obs, hobs⟩ : ∃ obs, Observed y c obs :=
    ⟨fun a t => cellAt y a t c, fun r hr _ => cellAt_of_mem hy.ordered hr (by rw [hc]; simp)⟩
  obtain ⟨x, s, h, ho, hlu, hF⟩ := C90_fitted hV hM hy hc hobs hss h2 hts (by rw [hb]; trivial) hX hcomp hfit
  refine ⟨s, h.state, ?_⟩
  rintro lkj ns conc os prior hos hpr θ θ' ⟨hz, l, hl, hmax⟩ ⟨hz', l', hl', hmax'⟩ hstd hcorr σ C hsl hσs hσ hCs hC
  let θ'' : SiteEnv ℝ := fun n => ⟨(θ n).shape,
    List.zipWith (fun x x' => 1 / 2 * x + 1 / 2 * x') (θ n).data (θ' n).data⟩
  have hmix : Between (1 / 2) (1 / 2) θ θ' θ'' := fun n => ⟨rfl, rfl⟩
  have haa : (1 / 2 : ℝ) + 1 / 2 = 1 := by norm_num
  have hhalf : (0 : ℝ) ≤ 1 / 2 := by norm_num
  have hhalf' : (0 : ℝ) < 1 / 2 := by norm_num
  have g1 := hmix.same haa hstd
  have g2 := hmix.same haa hcorr
  have hf := hier_sized (os := os) (prior := prior) h ho hlu
  have hz'' : HierSizes s m θ'' := (hf θ'').1 (hmix.sized ((hf θ).2 hz) ((hf θ').2 hz'))
  have hll : l' = l := le_antisymm (hmax θ' l' hz' hstd.symm hcorr.symm hl') (hmax' θ l hz hstd hcorr hl)
  have hd'' := hF lkj ns conc os prior θ'' σ C hz'' (by rw [g1]; exact hsl) (by rw [g1]; exact hσs) hσ
    (by rw [g2]; exact hCs) hC
  have hle := hmax θ'' _ hz'' g1 g2 hd''
  rw [hF lkj ns conc os prior θ σ C hz hsl hσs hσ hCs hC] at hl
  rw [hF lkj ns conc os prior θ' σ C hz' (by rw [← hstd]; exact hsl) (by rw [← hstd]; exact hσs) hσ
    (by rw [← hcorr]; exact hCs) hC] at hl'
  have n1 : noisePart lkj ns conc ss.length θ' = noisePart lkj ns conc ss.length θ := by
    unfold noisePart
    rw [hstd, hcorr]
  have n2 : noisePart lkj ns conc ss.length θ'' = noisePart lkj ns conc ss.length θ := by
    unfold noisePart
    rw [g1, g2]
  rw [n1] at hl'
  rw [n2] at hle
  have hl := Except.ok.inj hl
  have hl' := Except.ok.inj hl'
  obtain ⟨hL, hLeq⟩ := hierLik_mix hhalf hhalf haa hmix h hz hz' (z := x) obs hσ hC ts
  have hcon := hier_priors_concave (l := kept m.fitted) (s := s) (os := os) hb hb0 hlu
    (fun n => (hpr n).concaveOn) hhalf hhalf haa
  have hP := sites_concave hcon ((hf θ).2 hz) ((hf θ').2 hz') hmix
  have e1 := sitesPrior_hier ((hf θ).2 hz)
  have e2 := sitesPrior_hier ((hf θ').2 hz')
  have e3 := sitesPrior_hier ((hf θ'').2 hz'')
  have hPeq : sitesPrior (hierSites os prior s (kept m.fitted)) θ''
      ≤ 1 / 2 * sitesPrior (hierSites os prior s (kept m.fitted)) θ
        + 1 / 2 * sitesPrior (hierSites os prior s (kept m.fitted)) θ' := by
    rw [e1, e2, e3]
    linarith
  have hmean := hLeq hhalf' hhalf' (by
    rw [e1, e2, e3] at hP
    linarith)
  have hoff : (θ "offset").data = (θ' "offset").data :=
    sites_strict hcon ((hf θ).2 hz) ((hf θ').2 hz') hmix hPeq
      (e := ("offset", s.offsetLoc.map fun μ => normalLP μ os)) (by unfold hierSites; simp) (by
        intro f hf x x' hne
        obtain ⟨μ, -, rfl⟩ := List.mem_map.1 hf
        simpa only [smul_eq_mul] using (normalLP_strictConcave μ hos).2 (Set.mem_univ x) (Set.mem_univ x') hne
          hhalf' hhalf' haa)
  have hcoef : ∀ fe ∈ kept m.fitted, (θ (fe.name ++ "/coefs")).data = (θ' (fe.name ++ "/coefs")).data := by
    intro fe hfe
    refine sites_strict hcon ((hf θ).2 hz) ((hf θ').2 hz') hmix hPeq
      (e := (fe.name ++ "/coefs", List.replicate fe.cols.length (prior fe.name))) (by
        unfold hierSites
        simp only [List.mem_cons, List.mem_map]
        exact .inr (.inr ⟨fe, hfe, rfl⟩)) (by
        intro f hf x x' hne
        rw [List.eq_of_mem_replicate hf]
        simpa only [smul_eq_mul] using (hpr fe.name).2 (Set.mem_univ x) (Set.mem_univ x') hne hhalf' hhalf' haa)
  have htrend : ∀ u ∈ ss, ∀ t ∈ ts, panelTrendAt days s ss θ u t = panelTrendAt days s ss θ' u t := by
    intro u hu t ht
    obtain ⟨i, hi, rfl⟩ := List.getElem_of_mem hu
    have h1 := hmean t ht ⟨i, hi⟩
    unfold panelMean at h1
    simp only [combine, if_true, List.get_eq_getElem] at h1
    have h2 : ((kept m.fitted).map fun fe => dot (fe.cols.map (cellAt x ss[i] t)) (θ (fe.name ++ "/coefs")).data)
        = (kept m.fitted).map fun fe => dot (fe.cols.map (cellAt x ss[i] t)) (θ' (fe.name ++ "/coefs")).data :=
      List.map_congr_left fun fe hfe => by rw [hcoef fe hfe]
    rw [h2] at h1
    exact add_right_cancel h1
  refine ⟨hoff, fun fe hfe hne => hcoef fe ((hier_kept h).2 ⟨hfe, hne⟩), htrend, fun hcov => ?_⟩
  have hsc : seriesCoefs s.cps θ = seriesCoefs s.cps θ' := by
    have q1 : (seriesCoefs s.cps θ).map List.length = s.cps.map List.length :=
      List.map_splitLengths_length _ _ (by rw [hz.trend.2])
    have q2 : (seriesCoefs s.cps θ').map List.length = s.cps.map List.length :=
      List.map_splitLengths_length _ _ (by rw [hz'.trend.2])
    have w1 : (seriesCoefs s.cps θ).length = s.cps.length := by simpa using congrArg List.length q1
    have w2 : (seriesCoefs s.cps θ').length = s.cps.length := by simpa using congrArg List.length q2
    refine List.ext_getElem (by rw [w1, w2]) fun i i1 i2 => ?_
    have hi : i < s.cps.length := by omega
    have r1 : (seriesCoefs s.cps θ)[i].length = s.cps[i].length := by
      have := congrArg (fun l => l[i]?) q1
      simpa [List.getElem?_map, i1, hi] using this
    have r2 : (seriesCoefs s.cps θ')[i].length = s.cps[i].length := by
      have := congrArg (fun l => l[i]?) q2
      simpa [List.getElem?_map, i2, hi] using this
    have hi' : i < ss.length := by rw [← h.changepoints]; exact hi
    have hnd : ss.Nodup := hss.sorted.imp fun h => ne_of_lt h
    refine coefs_determined (hcov _ (List.getElem_mem hi)) r1 r2 ?_
    intro t ht
    obtain ⟨t', ht', rfl⟩ := List.mem_map.1 ht
    have := htrend ss[i] (List.getElem_mem hi') t' ht'
    unfold panelTrendAt trendAt at this
    rw [hnd.idxOf_getElem i hi', hoff, List.getD_eq_getElem _ _ hi,
      List.getD_eq_getElem _ _ i1, List.getD_eq_getElem _ _ i2] at this
    exact add_left_cancel this
  have f1 : (θ "changepoint_coefficients").data = (seriesCoefs s.cps θ).flatten :=
    (List.flatten_splitLengths _ _ (by rw [hz.trend.2])).symm
  have f2 : (θ' "changepoint_coefficients").data = (seriesCoefs s.cps θ').flatten :=
    (List.flatten_splitLengths _ _ (by rw [hz'.trend.2])).symm
  rw [f1, f2, hsc]

/-! ## A panel meeting the hypotheses -/

noncomputable def exCfg114 : HierConfig (Option (PiecewiseState ℝ ℤ)) (Scale ℝ) ℤ (Tensor ℝ) ℝ :=
  { exCfg113 with effects := [⟨"e", (linearClass "additive").new, some ".*"⟩] }

theorem exValid114 : ValidHier (fun t : ℤ => (t : ℝ)) exP113 exCfg114 where
  dates := Int.cast_strictMono
  interval := ⟨1, rfl, one_pos⟩
  range := ⟨4 / 5, rfl, by norm_num⟩
  plain := .inl rfl
  trend := rfl
  effects := by
    intro e he
    cases List.mem_singleton.1 he
    exact ⟨"additive", rfl⟩
  default := ⟨"additive", rfl⟩
  regexes := fun _ _ r _ => ⟨_, rfl⟩
  order := fun l => List.Perm.refl l
  fitFeatures := rfl
  features := rfl
  nodup := by simp [exCfg114]
  reserved := by simp [exCfg114]
  notTrend := by simp [exCfg114]

theorem exModes114 : Modes (fun _ => "additive") exCfg114 where
  effects := by
    intro e he
    cases List.mem_singleton.1 he
    rfl
  default := rfl

/-- With a multiplicative effect there is a best fit. -/
example : ∃ m s θ, hierFitData exCfg113 exY113 (some exX113) = .ok m ∧
    BestPanel (fun _ _ _ => 0) 1 1 (1 / 10) (fun _ => normalLP 0 1) s m θ ∧
    θ "std_observation" = ⟨[2], [1, 2]⟩ := by
  obtain ⟨m, s, h1, -, h⟩ := C114_exists (mode := fun n => if n = "e" then "multiplicative" else "additive")
    exValid113 ⟨by
      intro e he
      cases List.mem_singleton.1 he
      rfl, rfl⟩ exPanel113 exSeries113 (by simp) exDates113 (b := 1 / 10) rfl (by norm_num)
    (exExog113 (ts := [0, 1]) (by simp) (by simp) (by simp)) (fun _ _ _ => ⟨_, rfl⟩)
  obtain ⟨θ, h2, -, h3⟩ := h (fun _ _ _ => 0) 1 1 (1 / 10) (fun _ => normalLP 0 1) (by norm_num)
    (fun _ => continuous_normalLP 0 1) (fun _ => tendsto_normalLP 0 one_ne_zero) ⟨[2], [1, 2]⟩
    (exθ90 "corr_matrix") ![1, 2] exL46 rfl ⟨rfl, fun i => by fin_cases i <;> rfl⟩
    (fun i => by fin_cases i <;> simp) ⟨rfl, fun i j => by fin_cases i <;> fin_cases j <;> rfl⟩ exL46_factor
  exact ⟨m, s, θ, h1, h3, h2⟩

/-- With an additive effect there is one, and its offsets are unique. -/
example : ∃ m s o, hierFitData exCfg114 exY113 (some exX113) = .ok m ∧
    ∀ θ, θ "std_observation" = ⟨[2], [1, 2]⟩ → θ "corr_matrix" = exθ90 "corr_matrix" →
      BestPanel (fun _ _ _ => 0) 1 1 (1 / 10) (fun _ => normalLP 0 1) s m θ → (θ "offset").data = o := by
  have hX := exExog113 (ts := [0, 1]) (by simp) (by simp) (by simp)
  have hc : ∀ c ∈ givenCols (some exX113), c ∉ exCfg114.shared → ∃ q, exCfg114.compile c = .ok q :=
    fun _ _ _ => ⟨_, rfl⟩
  have k1 : VectorSite (n := 2) ⟨[2], [1, 2]⟩ ![1, 2] := ⟨rfl, fun i => by fin_cases i <;> rfl⟩
  have k2 : ∀ i, (0 : ℝ) < ![1, 2] i := fun i => by fin_cases i <;> simp
  have k3 : MatrixSite (exθ90 "corr_matrix") exL46 := ⟨rfl, fun i j => by fin_cases i <;> fin_cases j <;> rfl⟩
  obtain ⟨m, s, h1, hs, h⟩ := C114_exists exValid114 exModes114 exPanel113 exSeries113 (by simp) exDates113
    (b := 1 / 10) rfl (by norm_num) hX hc
  obtain ⟨θ, h2, h3, h4⟩ := h (fun _ _ _ => 0) 1 1 (1 / 10) (fun _ => normalLP 0 1) (by norm_num)
    (fun _ => continuous_normalLP 0 1) (fun _ => tendsto_normalLP 0 one_ne_zero) ⟨[2], [1, 2]⟩
    (exθ90 "corr_matrix") ![1, 2] exL46 rfl k1 k2 k3 exL46_factor
  obtain ⟨s', hs', hu⟩ := C114_unique exValid114 exModes114 exPanel113 exSeries113 (by simp) exDates113
    (b := 1 / 10) rfl (by norm_num) hX hc h1
  rw [hs] at hs'
  cases hs'
  refine ⟨m, s, (θ "offset").data, h1, fun θ' e1 e2 hb => ?_⟩
  exact (hu _ 1 1 (1 / 10) (fun _ => normalLP 0 1) (by norm_num) (fun _ => normalLP_strictConcave 0 one_ne_zero)
    θ' θ hb h4 (by rw [e1, h2]) (by rw [e2, h3]) ![1, 2] exL46 (by rw [e1]; rfl) (by rw [e1]; exact k1) k2
    (by rw [e2]; exact k3) exL46_factor).1

end
end PV
