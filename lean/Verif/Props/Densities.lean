import Mathlib.Probability.Distributions.Gaussian.Real
import Mathlib.Probability.Distributions.Gamma
import Mathlib.MeasureTheory.Integral.Gamma
import Verif.Model.AnyEffect
import Verif.Props.Posterior

/-!
# C85: the distributions and the names of the sites

The log densities of the model are those of the distributions of Mathlib, and every prior is
evaluated at the parameter of its own name.
-/

namespace PV

open MeasureTheory Set

theorem normalLP_pdf (loc : ℝ) {s : ℝ} (hs : 0 < s) (x : ℝ) :
    Real.exp (normalLP loc s x) = ProbabilityTheory.gaussianPDFReal loc (s ^ 2).toNNReal x := by
  unfold normalLP ProbabilityTheory.gaussianPDFReal
  have h2 : (0 : ℝ) < 2 * Real.pi := by positivity
  rw [sub_sub, Real.exp_sub, Real.exp_add, Real.exp_log hs]
  have h3 : Real.exp (Real.log (2 * Real.pi) / 2) = √(2 * Real.pi) := by
    rw [← Real.log_sqrt h2.le, Real.exp_log (Real.sqrt_pos.2 h2)]
  rw [h3, Real.coe_toNNReal _ (sq_nonneg s), Real.sqrt_mul h2.le, Real.sqrt_sq hs.le, neg_div,
    mul_comm (√(2 * Real.pi))]
  ring

theorem gammaLP_pdf {c r x : ℝ} (hc : 0 < c) (hr : 0 < r) (hx : 0 < x) :
    Real.exp (gammaLP c r x) = ProbabilityTheory.gammaPDFReal c r x := by
  unfold gammaLP ProbabilityTheory.gammaPDFReal
  rw [if_pos hx.le, Real.exp_sub, Real.exp_log (Real.Gamma_pos_of_pos hc), sub_eq_add_neg, Real.exp_add, Real.exp_add,
    Real.rpow_def_of_pos hr, Real.rpow_def_of_pos hx, mul_comm c, mul_comm (c - 1)]
  ring

/-- **C85**, distributions: the normal and Gamma densities are those of Mathlib (for Gamma, on the positive
numbers), a half normal variable has twice the normal density, the Laplace density decays exponentially with the
distance from its location, and the negative binomial distribution is that of a Poisson variable whose rate has
a Gamma distribution with the given mean. -/
theorem C85_distributions {s : ℝ} (hs : 0 < s) (loc : ℝ) :
    (∀ x, Real.exp (normalLP loc s x) = ProbabilityTheory.gaussianPDFReal loc (s ^ 2).toNNReal x) ∧
    (∀ x, Real.exp (halfNormalLP s x) = 2 * ProbabilityTheory.gaussianPDFReal 0 (s ^ 2).toNNReal x) ∧
    (∀ x, Real.exp (laplaceLP loc s x) = Real.exp (-|x - loc| / s) / (2 * s)) ∧
    (∀ c x, 0 < c → 0 < x → Real.exp (gammaLP c s x) = ProbabilityTheory.gammaPDFReal c s x) ∧
    (∀ c (k : ℕ), 0 < c → Real.exp (negBinomial2LP s c k) = ∫ r in Ioi 0,
      ProbabilityTheory.gammaPDFReal c (c / s) r * (Real.exp (-r) * r ^ k / k.factorial)) := by
  refine ⟨normalLP_pdf loc hs, fun x => ?_, fun x => ?_, fun c x hc hx => gammaLP_pdf hc hs hx, fun c k hc => ?_⟩
  · unfold halfNormalLP
    rw [Real.exp_add, Real.exp_log two_pos, normalLP_pdf 0 hs]
  · unfold laplaceLP
    rw [Real.exp_sub, Real.exp_log (by positivity), neg_div]
  · have hr : 0 < c / s := by positivity
    have h1 : ∫ r in Ioi 0, ProbabilityTheory.gammaPDFReal c (c / s) r * (Real.exp (-r) * r ^ k / k.factorial)
        = ∫ r in Ioi 0, ((c / s) ^ c / Real.Gamma c / k.factorial) *
          (r ^ (c + k - 1) * Real.exp (-((1 + c / s) * r))) := by
      refine setIntegral_congr_fun measurableSet_Ioi fun r hr' => ?_
      have hr' : 0 < r := hr'
      simp only [ProbabilityTheory.gammaPDFReal, if_pos hr'.le]
      rw [show c + k - 1 = (c - 1) + k by ring, Real.rpow_add hr', Real.rpow_natCast,
        show -((1 + c / s) * r) = -(c / s * r) + -r by ring, Real.exp_add]
      ring
    rw [h1, MeasureTheory.integral_const_mul, Real.integral_rpow_mul_exp_neg_mul_Ioi (by positivity) (by positivity)]
    unfold negBinomial2LP
    have hk : Real.Gamma (k + 1) = k.factorial := Real.Gamma_nat_eq_factorial k
    have hg : 0 < Real.Gamma (c + k) := Real.Gamma_pos_of_pos (by positivity)
    have hgc : 0 < Real.Gamma c := Real.Gamma_pos_of_pos hc
    have h1r : 0 < 1 + c / s := by positivity
    simp only
    rw [hk, Real.exp_sub, Real.exp_add, Real.exp_sub, Real.exp_sub, Real.exp_log hg, Real.exp_log hgc,
      Real.exp_log (by positivity), mul_comm c, ← Real.rpow_def_of_pos (by positivity), mul_comm (k : ℝ),
      ← Real.rpow_def_of_pos h1r, Real.div_rpow hr.le h1r.le, Real.div_rpow zero_le_one h1r.le, Real.one_rpow,
      Real.rpow_add h1r]
    field_simp

/-! ## Names -/

/-- All statements are evaluated at the parameters of their names. -/
def OwnSites {D : Type} (pr : Priors D) : Prop :=
  ∀ θ d p ss, pr θ d p = .ok ss → ∀ s ∈ ss, s.values = (θ s.name).data

theorem sampleSite_own {θ : SiteEnv ℝ} {n : String} {ds : List (ℝ → ℝ)} {s : Stmt}
    (h : sampleSite θ n ds = .ok s) : s.name = n ∧ s.values = (θ s.name).data := by
  unfold sampleSite at h
  split at h
  · cases h
    exact ⟨rfl, rfl⟩
  · cases h

theorem own_nil {α : Type} {f : α → Prop} : ∀ s ∈ ([] : List α), f s := by simp

theorem ownSites_linear (prior : ℝ → ℝ) : OwnSites (linearPriors prior) := by
  intro θ d p ss h
  unfold linearPriors at h
  simp only [bind, Except.bind] at h
  split at h
  · cases h
  split at h
  · cases h
  rename_i c hc
  cases h
  simp only [List.mem_cons, List.not_mem_nil, or_false]
  rintro s rfl
  exact (sampleSite_own hc).2

theorem ownSites_log (a b : ℝ → ℝ) : OwnSites (logPriors a b) := by
  intro θ d p ss h
  unfold logPriors at h
  simp only [bind, Except.bind] at h
  split at h
  · cases h
  rename_i c hc
  split at h
  · cases h
  rename_i c' hc'
  cases h
  simp only [List.mem_cons, List.not_mem_nil, or_false]
  rintro s (rfl | rfl)
  exacts [(sampleSite_own hc).2, (sampleSite_own hc').2]

theorem ownSites_hill (a b c : ℝ → ℝ) : OwnSites (hillPriors a b c) := by
  intro θ d p ss h
  unfold hillPriors at h
  simp only [bind, Except.bind] at h
  split at h
  · cases h
  rename_i c hc
  split at h
  · cases h
  rename_i c' hc'
  split at h
  · cases h
  rename_i c'' hc''
  cases h
  simp only [List.mem_cons, List.not_mem_nil, or_false]
  rintro s (rfl | rfl | rfl)
  exacts [(sampleSite_own hc).2, (sampleSite_own hc').2, (sampleSite_own hc'').2]

theorem ownSites_piecewise {τ : Type} (os : ℝ) (st : Option (PiecewiseState ℝ τ)) :
    OwnSites (piecewisePriors os st) := by
  intro θ d p ss h
  unfold piecewisePriors at h
  split at h
  · cases h
  simp only [bind, Except.bind] at h
  split at h
  · cases h
  rename_i c hc
  split at h
  · cases h
  rename_i c' hc'
  cases h
  simp only [List.mem_cons, List.not_mem_nil, or_false]
  rintro s (rfl | rfl)
  exacts [(sampleSite_own hc).2, (sampleSite_own hc').2]

theorem ownSites_logistic {τ : Type} (cp : ℝ → ℝ) (os : ℝ) (st : Option (PiecewiseState ℝ τ)) :
    OwnSites (logisticPriors cp os st) := by
  intro θ d p ss h
  unfold logisticPriors at h
  split at h
  · cases h
  simp only [bind, Except.bind] at h
  split at h
  · cases h
  rename_i c hc
  split at h
  · cases h
  rename_i ss' hss
  cases h
  simp only [List.mem_cons]
  rintro s (rfl | hs)
  exacts [(sampleSite_own hc).2, ownSites_piecewise _ _ θ d p ss' hss s hs]

theorem ownSites_flat (sc : ℝ) (st : Option ℝ) : OwnSites (flatPriors sc st) := by
  intro θ d p ss h
  unfold flatPriors at h
  split at h
  · cases h
  simp only [bind, Except.bind] at h
  split at h
  · cases h
  rename_i c hc
  cases h
  simp only [List.mem_cons, List.not_mem_nil, or_false]
  rintro s rfl
  exact (sampleSite_own hc).2

theorem ownSites_fourier (s : ℝ) : OwnSites (fourierPriors s) := by
  intro θ d p ss h
  unfold fourierPriors at h
  split at h
  · exact ownSites_linear _ θ _ p ss h
  · cases h

theorem scope_values {θ : SiteEnv ℝ} {n : String} {s : Stmt} (h : s.values = (θ.scope n s.name).data) :
    (s.scope n).values = (θ (s.scope n).name).data := h

/-- **C85**, names: in a run of a model every statement but the last takes the values of the parameters of its
own name, and the last is called `obs` and takes the target; the trend's statements come first, under their
own names, then those of the effects, in order, each under the name of its effect, then the noise. -/
theorem C85_names {D : Type} {lik : Likelihood} {ns scale : ℝ} {y : List ℝ} {trend : EffectCall D ℝ}
    {tp : Priors D} {td : D} {data : PyDict D} {effects : PyDict (EffectCall D ℝ)}
    {pr : String → Priors D} {θ : SiteEnv ℝ} {ss : List Stmt}
    (htp : OwnSites tp) (hpr : ∀ e ∈ effects, OwnSites (pr e.1))
    (h : modelStmts lik ns scale y trend tp td data effects pr θ = .ok ss) :
    ∃ (ts : List Stmt) (sss : List (List Stmt)) (noise obs : Stmt), tp θ td [] = .ok ts ∧
      List.Forall₂ (fun (e : String × EffectCall D ℝ) l => ∃ d p, data.get? e.1 = some d ∧
        pr e.1 (θ.scope e.1) d p = .ok l) effects sss ∧
      ss.map Stmt.name = ts.map Stmt.name ++
        (List.zipWith (fun (e : String × EffectCall D ℝ) l => l.map fun s : Stmt => e.1 ++ "/" ++ s.name)
          effects sss).flatten ++ ["noise_scale", "obs"] ∧
      (∀ s ∈ ss.dropLast, s.values = (θ s.name).data) ∧
      ss.getLast? = some obs ∧ obs.name = "obs" ∧ obs.values = y := by
  unfold modelStmts at h
  simp only [bind, Except.bind] at h
  split at h
  · cases h
  rename_i r hr
  split at h
  · cases h
  rename_i os hos
  cases h
  unfold obsStmts at hos
  simp only [bind, Except.bind] at hos
  split at hos
  · cases hos
  rename_i n hn
  split at hos
  · cases hos
  rename_i o ho
  cases hos
  obtain ⟨hn1, hn2⟩ := sampleSite_own hn
  have ho' : o.name = "obs" ∧ o.values = y := by
    unfold observeSite at ho
    split at ho
    · cases ho
      exact ⟨rfl, rfl⟩
    · cases ho
  unfold runMean at hr
  simp only [bind, Except.bind] at hr
  split at hr
  · cases hr
  rename_i ts hts
  split at hr
  · cases hr
  rename_i t ht
  have key : ∀ (l : PyDict (EffectCall D ℝ)) (st : MeanState ℝ) (acc : List Stmt), (∀ e ∈ l, e ∈ effects) →
      l.foldlM (runStep θ data pr) (st, acc) = .ok r →
      ∃ sss : List (List Stmt), List.Forall₂ (fun (e : String × EffectCall D ℝ) l => ∃ d p, data.get? e.1 = some d ∧
        pr e.1 (θ.scope e.1) d p = .ok l) l sss ∧
      ∃ rest, r.2 = acc ++ rest ∧ rest.map Stmt.name =
        (List.zipWith (fun (e : String × EffectCall D ℝ) l => l.map fun s : Stmt => e.1 ++ "/" ++ s.name) l sss).flatten ∧
        ∀ s ∈ rest, s.values = (θ s.name).data := by
    intro l
    induction l with
    | nil =>
      intro st acc _ h
      cases h
      exact ⟨[], .nil, [], by simp, rfl, by simp⟩
    | cons e l ih =>
      intro st acc hm h
      rw [List.foldlM_cons] at h
      simp only [bind, Except.bind] at h
      cases h1 : runStep θ data pr (st, acc) e with
      | error err => rw [h1] at h; cases h
      | ok q =>
        rw [h1] at h
        simp only at h
        unfold runStep at h1
        simp only [bind, Except.bind] at h1
        cases hd : data.getItem e.1 with
        | error err => rw [hd] at h1; cases h1
        | ok d =>
          rw [hd] at h1
          simp only at h1
          cases hp : pr e.1 (θ.scope e.1) d st.predicted with
          | error err => rw [hp] at h1; cases h1
          | ok l0 =>
            rw [hp] at h1
            simp only at h1
            split at h1
            · cases h1
            cases h1
            obtain ⟨sss, h2, rest, h3, h4, h5⟩ := ih _ _ (fun e he => hm e (by simp [he])) h
            refine ⟨l0 :: sss, .cons ⟨d, _, PyDict.getItem_ok.1 hd, hp⟩ h2, l0.map (Stmt.scope e.1) ++ rest,
              by rw [h3, List.append_assoc], ?_, ?_⟩
            · rw [List.map_append, h4, List.zipWith_cons_cons, List.flatten_cons, List.map_map]
              rfl
            · intro s hs
              rcases List.mem_append.1 hs with hs | hs
              · obtain ⟨s0, hs0, rfl⟩ := List.mem_map.1 hs
                exact scope_values (hpr e (hm e (by simp)) _ _ _ _ hp s0 hs0)
              · exact h5 s hs
  obtain ⟨sss, h2, rest, h3, h4, h5⟩ := key effects _ ts (fun _ h => h) hr
  refine ⟨ts, sss, n, o, hts, h2, ?_, ?_, by simp, ho'.1, ho'.2⟩
  · rw [List.map_append, h3, List.map_append, h4]
    simp [hn1, ho'.1]
  · rw [show r.2 ++ [n, o] = (r.2 ++ [n]) ++ [o] by simp, List.dropLast_concat, h3]
    intro s hs
    rcases List.mem_append.1 hs with hs | hs
    · rcases List.mem_append.1 hs with hs | hs
      · exact htp _ _ _ _ hts s hs
      · exact h5 s hs
    · cases List.mem_singleton.1 hs
      exact hn2

/-- The hypotheses on the priors are met by the trends and effects of the library. -/
example : OwnSites (piecewisePriors (τ := Int) 1 none) ∧ OwnSites (hillPriors (gammaLP 1 1) (halfNormalLP 10) (gammaLP 1 1)) ∧
    OwnSites (logPriors (gammaLP 1 1) (gammaLP 1 1)) ∧ OwnSites (linearPriors (normalLP 0 0.1)) ∧
    OwnSites (fourierPriors 1) ∧ OwnSites (flatPriors 1 (some 1)) ∧
    OwnSites (logisticPriors (τ := Int) (normalLP 1 1) 1 none) :=
  ⟨ownSites_piecewise _ _, ownSites_hill _ _ _, ownSites_log _ _, ownSites_linear _, ownSites_fourier _,
    ownSites_flat _ _, ownSites_logistic _ _ _⟩

/-- A run of a model with a constant trend and a linear effect called `x`, in which the statements are those
of the trend, of the effect, and of the target. -/
example : ∃ ss, modelStmts .normal 1 1 [3, 4] (fun θ _ _ => .ok ⟨[2, 1], (θ "trend/level").data ++ (θ "trend/level").data⟩)
      (fun θ _ _ => (sampleSite θ "trend/level" [normalLP 0 1]).map fun s => [s]) .emptyDict
      [("x", .data ⟨[2, 1], [5, 6]⟩)] [("x", fun _ d _ => d.array)] (fun _ => linearPriors (normalLP 0 1))
      (fun _ => ⟨[1], [1]⟩) = .ok ss ∧
    ss.map Stmt.name = ["trend/level", "x/coefs", "noise_scale", "obs"] := by
  refine ⟨_, rfl, rfl⟩

end PV
