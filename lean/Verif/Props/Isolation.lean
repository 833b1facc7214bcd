import Verif.Model.Effects
import Verif.Model.Lift
import Verif.Model.Trend
import Verif.Model.Logistic
import Verif.Props.SiteNames

/-!
# C76: the unknowns of one effect act on the contribution of that effect only

Also the link between the sites announced (`Model/Trace.lean`) and the values read
(`Model/Mean.lean`): trends and effects read no site that they do not announce.
-/

namespace PV

/-- The value of a call depends on these sites only. -/
def Reads {D K : Type} (call : EffectCall D K) (names : List String) : Prop :=
  ∀ θ θ' d p, (∀ n ∈ names, θ n = θ' n) → call θ d p = call θ' d p

/-- The value of a call depends on the trend, not on the effects before it. -/
def TrendOnly {D K : Type} (call : EffectCall D K) : Prop :=
  ∀ θ d (p p' : PyDict (Tensor K)), p.get? "trend" = p'.get? "trend" → call θ d p = call θ d p'

/-- The unknowns among announced sites. -/
def unknownsOf (l : List Site) : List String :=
  (l.filter fun s => s.kind = .latent).map Site.name

theorem Reads.addMul {D K : Type} [Mul K] [Zero K] {raw : EffectCall D K} {names : List String}
    (h : Reads raw names) (mode : String) : Reads (AddMul.call ⟨mode, raw⟩) names := by
  intro θ θ' d p hn
  simp only [AddMul.call, AddMul.predict, basePredict]
  rw [h θ θ' d _ hn]

/-- **C76.** Every trend and effect reads only the unknowns it announces: the parameters of the
model (`C75_unknowns`) determine its mean. -/
theorem C76_reads {K : Type} [Field K] :
    (∀ mode, Reads (AddMul.call (K := K) ⟨mode, linearRaw⟩) (unknownsOf linearSites)) ∧
    (∀ mode, Reads (AddMul.call ⟨mode, logRaw⟩) (unknownsOf logSites)) ∧
    (∀ mode, Reads (AddMul.call ⟨mode, hillRaw⟩) (unknownsOf hillSites)) ∧
    (∀ sq n, Reads (piecewisePredict (K := K) sq n) (unknownsOf piecewiseSites)) ∧
    (∀ sq n, Reads (logisticPredict sq n) (unknownsOf logisticSites)) ∧
    Reads (flatPredict (K := K)) (unknownsOf flatSites) := by
  refine ⟨fun mode => Reads.addMul ?_ mode, fun mode => Reads.addMul ?_ mode,
    fun mode => Reads.addMul ?_ mode, ?_, ?_, ?_⟩
  · intro θ θ' d p h
    simp only [linearRaw, h "coefs" (by decide +kernel)]
  · intro θ θ' d p h
    simp only [logRaw, siteScalar, h "log_scale" (by decide +kernel),
      h "log_rate" (by decide +kernel)]
  · intro θ θ' d p h
    simp only [hillRaw, siteScalar, h "half_max" (by decide +kernel),
      h "slope" (by decide +kernel), h "max_effect" (by decide +kernel)]
  · intro sq n θ θ' d p h
    simp only [piecewisePredict, h "offset" (by decide +kernel),
      h "changepoint_coefficients" (by decide +kernel)]
  · intro sq n θ θ' d p h
    simp only [logisticPredict, piecewisePredict, h "offset" (by decide +kernel),
      h "changepoint_coefficients" (by decide +kernel), h "capacity" (by decide +kernel)]
  · intro θ θ' d p h
    simp only [flatPredict, h "trend_flat_coefficient" (by decide +kernel)]

/-- **C76.** Lift experiments do not change this: the value and the likelihood terms depend on the
unknowns of the inner effect only. -/
theorem C76_lift_reads {S Y τ V D K : Type} [Zero K] (l : Lift S Y τ V D K) {names : List String}
    (h : Reads (l.inner.cls.call l.inner.st) names) (θ θ' : SiteEnv K) (d : LiftData D K)
    (p : PyDict (Tensor K)) (hn : ∀ n ∈ names, θ n = θ' n) : l.predict θ d p = l.predict θ' d p := by
  simp only [Lift.predict, h θ θ' _ p hn]

theorem TrendOnly.addMul {D K : Type} [Mul K] [Zero K] {raw : EffectCall D K}
    (h : ∀ θ d p p', raw θ d p = raw θ d p') (mode : String) :
    TrendOnly (AddMul.call ⟨mode, raw⟩) := by
  intro θ d p p' hp
  simp only [AddMul.call, AddMul.predict, basePredict, Option.getD_some, PyDict.getItem, hp]
  rw [h θ d p p']

/-- **C76.** The effects of the package use the trend at most, never the other effects. -/
theorem C76_trend_only {K : Type} [Field K] (mode : String) :
    TrendOnly (AddMul.call (K := K) ⟨mode, linearRaw⟩) ∧
    TrendOnly (AddMul.call ⟨mode, logRaw⟩) ∧ TrendOnly (AddMul.call ⟨mode, hillRaw⟩) :=
  ⟨TrendOnly.addMul (fun _ _ _ _ => rfl) mode, TrendOnly.addMul (fun _ _ _ _ => rfl) mode,
    TrendOnly.addMul (fun _ _ _ _ => rfl) mode⟩

section
variable {D K : Type} [AddCommGroup K]

/-- Two runs agree on everything recorded except the contribution of `e`. -/
def AgreeExcept (e : String) (s s' : MeanState K) : Prop :=
  s.predicted.get? "trend" = s'.predicted.get? "trend" ∧
  ∀ n, n ≠ e → s.sites.get? n = s'.sites.get? n

theorem meanStep_agree {e : String} (he : NoSlash e) (hte : e ≠ "trend") {θ θ' : SiteEnv K}
    (hθ : ∀ n, (∀ s, n ≠ e ++ "/" ++ s) → θ n = θ' n) {data : PyDict D}
    {x : String × EffectCall D K} (hx : NoSlash x.1) (hxt : x.1 ≠ "trend")
    (ht : x.1 ≠ e → TrendOnly x.2) {s s' r r' : MeanState K} (hs : AgreeExcept e s s')
    (h : meanStep θ data s x = .ok r) (h' : meanStep θ' data s' x = .ok r') :
    AgreeExcept e r r' := by
  unfold meanStep at h h'
  cases hd : data.getItem x.1 with
  | error y => rw [hd] at h; cases h
  | ok d =>
    rw [hd] at h h'
    simp only [bind, Except.bind] at h h'
    cases hv : x.2 (θ.scope x.1) d s.predicted with
    | error y => rw [hv] at h; cases h
    | ok v =>
      cases hv' : x.2 (θ'.scope x.1) d s'.predicted with
      | error y => rw [hv'] at h'; cases h'
      | ok v' =>
        rw [hv] at h
        rw [hv'] at h'
        simp only at h h'
        cases hm : Tensor.binop (· + ·) s.mean v with
        | error y => rw [hm] at h; cases h
        | ok m =>
          cases hm' : Tensor.binop (· + ·) s'.mean v' with
          | error y => rw [hm'] at h'; cases h'
          | ok m' =>
            rw [hm] at h
            rw [hm'] at h'
            cases h
            cases h'
            have hvv : x.1 ≠ e → v = v' := by
              intro hne
              have hsc : θ.scope x.1 = θ'.scope x.1 := by
                funext n
                exact hθ _ fun s' hcon => hne (scope_inj hx he hcon).1
              have := ht hne (θ.scope x.1) d s.predicted s'.predicted hs.1
              rw [hv, hsc, hv'] at this
              exact Except.ok.inj this
            refine ⟨?_, ?_⟩
            · simp only [PyDict.get?_set, if_neg hxt, hs.1]
            · intro n hn
              simp only [PyDict.get?_set]
              by_cases hxn : x.1 = n
              · subst hxn
                simp [hvv hn]
              · simp [hxn, hs.2 n hn]

/-- **C76.** Change the unknowns of one effect `e` in any way: the trend and the contributions of
all other effects stay exactly the same.  For effects called by distinct names without `/` whose
values use the trend at most, and a trend whose unknowns have no `/` in their names. -/
theorem C76_isolated {trend : EffectCall D K} {names : List String} (htr : Reads trend names)
    (hns : ∀ n ∈ names, NoSlash n) {trendData : D} {data : PyDict D}
    {effects : PyDict (EffectCall D K)} {e : String} (he : NoSlash e) (hte : e ≠ "trend")
    (hes : ∀ x ∈ effects, NoSlash x.1 ∧ x.1 ≠ "trend" ∧ (x.1 ≠ e → TrendOnly x.2))
    {θ θ' : SiteEnv K} (hθ : ∀ n, (∀ s, n ≠ e ++ "/" ++ s) → θ n = θ' n) {r r' : MeanState K}
    (h : computeMean trend trendData data effects θ = .ok r)
    (h' : computeMean trend trendData data effects θ' = .ok r') (n : String) (hn : n ≠ e) :
    r.sites.get? n = r'.sites.get? n := by
  unfold computeMean at h h'
  have htt : trend θ trendData [] = trend θ' trendData [] :=
    htr θ θ' _ _ fun m hm => hθ m fun s hcon => scope_ne (hns m hm) hcon.symm
  rw [← htt] at h'
  cases ht : trend θ trendData [] with
  | error x => rw [ht] at h; cases h
  | ok t =>
    rw [ht] at h h'
    simp only [bind, Except.bind] at h h'
    have key : ∀ (l : PyDict (EffectCall D K)) (s s' : MeanState K),
        (∀ x ∈ l, NoSlash x.1 ∧ x.1 ≠ "trend" ∧ (x.1 ≠ e → TrendOnly x.2)) →
        AgreeExcept e s s' → l.foldlM (meanStep θ data) s = .ok r →
        l.foldlM (meanStep θ' data) s' = .ok r' → AgreeExcept e r r' := by
      intro l
      induction l with
      | nil => intro s s' _ hs h1 h2; cases h1; cases h2; exact hs
      | cons x l ih =>
        intro s s' hl hs h1 h2
        rw [List.foldlM_cons] at h1 h2
        cases hx : meanStep θ data s x with
        | error y => rw [hx] at h1; cases h1
        | ok s1 =>
          cases hx' : meanStep θ' data s' x with
          | error y => rw [hx'] at h2; cases h2
          | ok s2 =>
            rw [hx] at h1
            rw [hx'] at h2
            obtain ⟨a, b, c⟩ := hl x (by simp)
            exact ih s1 s2 (fun y hy => hl y (List.mem_cons_of_mem _ hy))
              (meanStep_agree he hte hθ a b c hs hx hx') h1 h2
    exact (key effects _ _ hes ⟨rfl, fun _ _ => rfl⟩ h h').2 n hn

end

/-! Two linear effects of the same type with coefficients 2 and 3; in the second run the
coefficient of the first is 7. -/

/-- The sites in the two runs. -/
def exSites76 (c : ℚ) : SiteEnv ℚ := fun s =>
  if s = "trend_flat_coefficient" then ⟨[], [5]⟩ else if s = "a/coefs" then ⟨[1], [c]⟩
  else if s = "b/coefs" then ⟨[1], [3]⟩ else ⟨[], []⟩

/-- The mean in the two runs. -/
def exMean76 (c : ℚ) : PyM (MeanState ℚ) :=
  computeMean (fun θ d p => d.array >>= fun m => flatPredict θ m p) (.data ⟨[2, 1], [1, 1]⟩)
    [("a", .data ⟨[2, 1], [1, 2]⟩), ("b", .data ⟨[2, 1], [1, 10]⟩)]
    [("a", AddMul.call ⟨"additive", linearRaw⟩), ("b", AddMul.call ⟨"multiplicative", linearRaw⟩)]
    (exSites76 c)

example :
    ((exMean76 2).toOption.map fun s => s.sites.map fun x => (x.1, x.2.data)) =
      some [("trend", [5, 5]), ("a", [2, 4]), ("b", [15, 150])] ∧
    ((exMean76 7).toOption.map fun s => s.sites.map fun x => (x.1, x.2.data)) =
      some [("trend", [5, 5]), ("a", [7, 14]), ("b", [15, 150])] := by decide +kernel

example : ∀ n, (∀ s, n ≠ "a" ++ "/" ++ s) → exSites76 2 n = exSites76 7 n := by
  intro n hn
  have : n ≠ "a/coefs" := hn "coefs"
  simp [exSites76, this]

end PV
