import Mathlib.Tactic.Linarith
import Verif.Model.Config

/-!
# C59, C60, C61, C62: configuration
-/

namespace PV

section
variable {K E : Type} [LinearOrder K] [Zero K]

/-- A trend that the documentation names, or an effect object. -/
def KnownTrend : TrendArg E → Prop
  | .name s => s = "linear" ∨ s = "linear_raw" ∨ s = "logistic" ∨ s = "flat"
  | .effect _ => True
  | .other => False

theorem validTrend_iff (t : TrendArg E) : validTrend t = true ↔ KnownTrend t := by
  cases t <;> simp [validTrend, KnownTrend]

/-- What is wrong with a configuration whose hyperparameters are numbers. -/
def Invalid (c : Config K E) (interval priorScale : K) : Prop :=
  interval ≤ 0 ∨ priorScale ≤ 0 ∨ c.capacityPriorScale ≤ 0 ∨ c.capacityPriorLoc ≤ 0 ∨
  c.offsetPriorScale ≤ 0 ∨ ¬ KnownTrend c.trend ∨ c.noiseScale ≤ 0 ∨
  (c.kind = .univariate ∧ ¬ (c.likelihood = "normal" ∨ c.likelihood = "gamma" ∨
    c.likelihood = "negbinomial")) ∨
  (c.kind = .hierarchical ∧ c.correlationConcentration ≤ 0)

theorem rejectIf_ok {b : Bool} : rejectIf b = .ok () ↔ b = false := by
  cases b <;> simp [rejectIf]

theorem rejectIf_error {b : Bool} : rejectIf b = .error .valueError ↔ b = true := by
  cases b <;> simp [rejectIf]

theorem rejectIf_bind_ok {b : Bool} {f : Unit → PyM Unit} :
    (rejectIf b >>= f) = .ok () ↔ b = false ∧ f () = .ok () := by
  cases b <;> simp [rejectIf, bind, Except.bind]

theorem rejectIf_bind_error {b : Bool} {f : Unit → PyM Unit} :
    (rejectIf b >>= f) = .error .valueError ↔ b = true ∨ f () = .error .valueError := by
  cases b <;> simp [rejectIf, bind, Except.bind]

theorem validTrend_eq_false (t : TrendArg E) : validTrend t = false ↔ ¬ KnownTrend t := by
  rw [← validTrend_iff]; simp

theorem scalar_bind {a : K} {f : Bool → PyM Unit} :
    ((ScalarOr.scalar a).nonPos >>= f) = f (decide (a ≤ 0)) := rfl

/-- **C59**: with numbers as hyperparameters the constructor raises `ValueError` exactly for the
invalid configurations and raises nothing else. -/
theorem C59_constructor {c : Config K E} {i p : K} (hi : c.interval = .scalar i)
    (hp : c.priorScale = .scalar p) :
    (construct c = .error .valueError ↔ Invalid c i p) ∧ (construct c = .ok () ↔ ¬ Invalid c i p) := by
  unfold construct validateBase Invalid
  rw [hi, hp]
  simp only [bind_assoc, scalar_bind]
  cases hk : c.kind
  · simp only [rejectIf_bind_ok, rejectIf_bind_error, rejectIf_ok, rejectIf_error]
    simp [validTrend_iff, validTrend_eq_false, PyDict.keys, likelihoodMap, and_assoc]
  · simp only [rejectIf_bind_ok, rejectIf_bind_error, rejectIf_ok, rejectIf_error]
    simp [validTrend_iff, validTrend_eq_false]

/-- **C59**, beyond numbers: a list (one value per series) for `changepoint_interval` is never
accepted by a forecaster, although the trends accept it. -/
theorem C59_list_rejected {c : Config K E} {l : List K} (hi : c.interval = .list l) :
    construct c = .error .typeError := by
  unfold construct validateBase
  rw [hi]
  rfl

/-! ## C60 -/

/-- **C60**: a forecaster that passes construction finds its trend model and its model function. -/
theorem C60_resolves {c : Config K E} (h : construct c = .ok ()) :
    (∃ t, getTrendModel c = .ok t) ∧ (∃ m, modelFn c = .ok m) := by
  unfold construct validateBase at h
  cases hi : c.interval with
  | list l => rw [hi] at h; cases h
  | scalar i =>
    rw [hi] at h
    cases hp : c.priorScale with
    | list l =>
      rw [hp] at h
      simp only [bind_assoc, scalar_bind, rejectIf_bind_ok] at h
      cases h.2
    | scalar p =>
      rw [hp] at h
      simp only [bind_assoc, scalar_bind, rejectIf_bind_ok] at h
      obtain ⟨-, -, -, -, -, ht, -, hl⟩ := h
      constructor
      · unfold getTrendModel
        cases htr : c.trend with
        | name s =>
          rw [htr] at ht
          simp only [validTrend] at ht
          simp only
          split
          · exact ⟨_, rfl⟩
          split
          · exact ⟨_, rfl⟩
          split
          · exact ⟨_, rfl⟩
          split
          · exact ⟨_, rfl⟩
          · simp_all
        | effect e => exact ⟨_, rfl⟩
        | other => rw [htr] at ht; simp [validTrend] at ht
      · unfold modelFn
        cases hk : c.kind with
        | hierarchical => exact ⟨_, rfl⟩
        | univariate =>
          rw [hk] at hl
          simp only [rejectIf_ok] at hl
          simp only [PyDict.getItem, likelihoodMap, PyDict.get?]
          split
          · exact ⟨_, rfl⟩
          · exfalso
            rename_i hn
            split at hn
            · cases hn
            split at hn
            · cases hn
            split at hn
            · cases hn
            simp [PyDict.keys, likelihoodMap] at hl
            tauto

end

section
variable {K E : Type}

/-- **C60**: which trend and which parameters a named trend stands for. -/
theorem C60_trend_table (c : Config K E) :
    (c.trend = .name "linear" →
      getTrendModel c = .ok (.linear c.interval c.range c.priorScale c.offsetPriorScale true)) ∧
    (c.trend = .name "linear_raw" →
      getTrendModel c = .ok (.linear c.interval c.range c.priorScale c.offsetPriorScale false)) ∧
    (c.trend = .name "logistic" →
      getTrendModel c = .ok (.logistic c.interval c.range c.priorScale c.offsetPriorScale
        c.capacityPriorLoc c.capacityPriorScale)) ∧
    (c.trend = .name "flat" → getTrendModel c = .ok (.flat c.priorScale)) ∧
    (∀ e, c.trend = .effect e → getTrendModel c = .ok (.custom e)) := by
  refine ⟨?_, ?_, ?_, ?_, ?_⟩
  · intro h; simp [getTrendModel, h]
  · intro h; simp [getTrendModel, h]
  · intro h; simp [getTrendModel, h]
  · intro h; simp [getTrendModel, h]
  · intro e h; simp [getTrendModel, h]

/-- **C60**: which model function a likelihood stands for; it is treated as discrete exactly for the
negative binomial one. -/
theorem C60_likelihood_table {c : Config K E} (hk : c.kind = .univariate) (l : Likelihood) :
    modelFn c = .ok (.univariate l) ↔
      (c.likelihood = "normal" ∧ l = .normal) ∨ (c.likelihood = "gamma" ∧ l = .gamma) ∨
      (c.likelihood = "negbinomial" ∧ l = .negbinomial) := by
  unfold modelFn
  rw [hk]
  simp only [PyDict.getItem, likelihoodMap, PyDict.get?]
  by_cases h1 : "normal" = c.likelihood
  · rw [if_pos h1, ← h1]; simp [Except.map, eq_comm]
  rw [if_neg h1]
  by_cases h2 : "gamma" = c.likelihood
  · rw [if_pos h2, ← h2]; simp [Except.map, eq_comm]
  rw [if_neg h2]
  by_cases h3 : "negbinomial" = c.likelihood
  · rw [if_pos h3, ← h3]; simp [Except.map, eq_comm]
  rw [if_neg h3]
  simp [Except.map, Ne.symm h1, Ne.symm h2, Ne.symm h3]

/-- **C60**: discreteness and model function agree. -/
theorem C60_discrete {c : Config K E} :
    isDiscrete c = true ↔ modelFn c = .ok (.univariate .negbinomial) := by
  cases hk : c.kind with
  | univariate => rw [C60_likelihood_table hk]; simp [isDiscrete, hk]
  | hierarchical => simp [isDiscrete, modelFn, hk]

/-- **C60**: the engine is found exactly for `"mcmc"` and `"map"`, otherwise `ValueError`. -/
theorem C60_engine (method : String) :
    (selectEngine method = .ok .mcmc ↔ method = "mcmc") ∧
    (selectEngine method = .ok .map ↔ method = "map") ∧
    (selectEngine method = .error .valueError ↔ method ≠ "mcmc" ∧ method ≠ "map") := by
  unfold selectEngine
  by_cases h1 : method = "mcmc"
  · simp [h1]
  by_cases h2 : method = "map"
  · simp [h2]
  · simp [h1, h2]

end

/-! ## C61 -/

/-- The number of terms an argument asks for, `none` for no seasonality; `default` for `True`. -/
def Asks (default : ℤ) : BoolOrInt → Option ℤ → Prop
  | .bool true, r => r = some default
  | .bool false, r => r = none
  | .int n, r => if n = 0 then r = none else r = some n
  | .other, _ => False

/-- **C61**: `ValueError` exactly for arguments of another type; otherwise yearly terms are generated
exactly if asked for, with the number asked for, the same for weekly ones, and nothing else; periods and
numbers of terms are paired. -/
theorem C61_seasonal (yearly weekly : BoolOrInt) :
    (seasonalTransformer yearly weekly = .error .valueError ↔ yearly = .other ∨ weekly = .other) ∧
    ∀ sp terms, seasonalTransformer yearly weekly = .ok (sp, terms) →
      sp.length = terms.length ∧ ∃ oy ow, Asks 10 yearly oy ∧ Asks 3 weekly ow ∧
        (∀ n, ("Y", n) ∈ sp.zip terms ↔ oy = some n) ∧
        (∀ n, ("W", n) ∈ sp.zip terms ↔ ow = some n) ∧
        ∀ q ∈ sp.zip terms, q.1 = "Y" ∨ q.1 = "W" := by
  have hT : ∀ (d : ℤ) (a : BoolOrInt), a ≠ .other → ∃ n, numTerms d a = .ok n ∧
      Asks d a (if a.truthy then some n else none) := by
    intro d a ha
    cases a with
    | bool b => cases b <;> simp [numTerms, Asks, BoolOrInt.truthy]
    | int n =>
      refine ⟨n, rfl, ?_⟩
      by_cases h : n = 0 <;> simp [Asks, BoolOrInt.truthy, h]
    | other => exact absurd rfl ha
  by_cases hy : yearly = .other
  · subst hy
    exact ⟨by simp [seasonalTransformer, numTerms, bind, Except.bind], by
      intro sp terms h; simp [seasonalTransformer, numTerms, bind, Except.bind] at h⟩
  obtain ⟨ny, hny, hay⟩ := hT 10 yearly hy
  by_cases hw : weekly = .other
  · subst hw
    unfold seasonalTransformer
    rw [hny]
    exact ⟨by simp [numTerms, bind, Except.bind], by
      intro sp terms h; simp [numTerms, bind, Except.bind] at h⟩
  obtain ⟨nw, hnw, haw⟩ := hT 3 weekly hw
  unfold seasonalTransformer
  rw [hny]
  simp only [bind, Except.bind]
  rw [hnw]
  simp only [pure, Except.pure]
  refine ⟨by simp [hy, hw], ?_⟩
  intro sp terms h
  simp only [Except.ok.injEq] at h
  cases ey : yearly.truthy <;> cases ew : weekly.truthy <;> rw [ey] at h hay <;> rw [ew] at h haw <;>
    simp at h hay haw <;> obtain ⟨rfl, rfl⟩ := h <;>
    refine ⟨rfl, _, _, hay, haw, ?_, ?_, ?_⟩ <;> simp [eq_comm]

/-! ## C62 -/

/-- The effect list with the effect of the given name replaced, everything else as it was. -/
def ReplacedAt {E : Type} (name : String) (e : E) (l l' : EffectList E) : Prop :=
  l'.map (fun p => (p.1, p.2.2)) = l.map (fun p => (p.1, p.2.2)) ∧
  ∃ a p b, l = a ++ p :: b ∧ p.1 = name ∧ (∀ q ∈ a, q.1 ≠ name) ∧ l' = a ++ (name, e, p.2.2) :: b

theorem zipEffects_pairs {E : Type} : ∀ (v : List (String × E)) (l : EffectList E),
    zipEffects (v.map fun p => .pair p.1 p.2) l
      = .ok (List.zipWith (fun p q => (p.1, p.2, q.2.2)) v l)
  | [], l => by cases l <;> rfl
  | p :: v, [] => rfl
  | p :: v, q :: l => by
    simp only [List.map_cons, zipEffects]
    rw [zipEffects_pairs v l]
    rfl

theorem setEffects_pairs {E : Type} {v : List (String × E)} (hv : v ≠ []) (l : EffectList E) :
    setEffects (v.map fun p => .pair p.1 p.2) (some l)
      = .ok (List.zipWith (fun p q => (p.1, p.2, q.2.2)) v l) := by
  cases v with
  | nil => exact absurd rfl hv
  | cons p v =>
    rw [← zipEffects_pairs]
    unfold setEffects
    simp only [List.map_cons]
    rw [if_neg (by simp [EffectTuple.len]), if_neg]
    rintro ⟨x, hx, hne⟩
    obtain ⟨q, -, rfl⟩ := List.mem_map.1 hx
    exact hne rfl

theorem replaceFirst_spec {E : Type} {name : String} {e : E} : ∀ {l : EffectList E},
    (∃ p ∈ l, p.1 = name) →
    ∃ a p b, l = a ++ p :: b ∧ p.1 = name ∧ (∀ q ∈ a, q.1 ≠ name) ∧
      List.zipWith (fun p q => (p.1, p.2, q.2.2))
        (replaceFirst name e (l.map fun p => (p.1, p.2.1))) l = a ++ (name, e, p.2.2) :: b
  | [], h => by simp at h
  | p :: l, h => by
    have hid : ∀ l : EffectList E,
        List.zipWith (fun p q => (p.1, p.2, q.2.2)) (l.map fun p => (p.1, p.2.1)) l = l := by
      intro l
      induction l with
      | nil => rfl
      | cons p l ih => simp [ih]
    by_cases hp : p.1 = name
    · refine ⟨[], p, l, rfl, hp, by simp, ?_⟩
      simp [replaceFirst, hp, hid]
    · obtain ⟨q, hq, hqn⟩ := h
      rcases List.mem_cons.1 hq with rfl | hq
      · exact absurd hqn hp
      · obtain ⟨a, p', b, h1, h2, h3, h4⟩ := replaceFirst_spec (e := e) ⟨q, hq, hqn⟩
        refine ⟨p :: a, p', b, by rw [h1]; rfl, h2, ?_, ?_⟩
        · intro r hr
          rcases List.mem_cons.1 hr with rfl | hr
          · exact hp
          · exact h3 r hr
        · simp only [List.map_cons, replaceFirst, if_neg hp, List.zipWith_cons_cons, h4,
            List.cons_append]

/-- **C62**: replacing the effect of a name through the estimator interface replaces the effect of
that name and keeps number, order, names and regexes of all effects; if no effect has the name nothing
is replaced. -/
theorem C62_replace {E : Type} (name : String) (e : E) (l : EffectList E) :
    ((∃ p ∈ l, p.1 = name) → ∃ l', replaceEffect name e (some l) = some (.ok l') ∧
      ReplacedAt name e l l') ∧
    ((∀ p ∈ l, p.1 ≠ name) → replaceEffect name e (some l) = none) := by
  constructor
  · intro h
    have hany : ((getEffects (some l)).any fun p => p.1 = name) = true := by
      obtain ⟨p, hp, hn⟩ := h
      simp only [getEffects, List.any_map, List.any_eq_true]
      exact ⟨p, hp, by simpa using hn⟩
    have hne : replaceFirst name e (getEffects (some l)) ≠ [] := by
      obtain ⟨p, hp, -⟩ := h
      cases l with
      | nil => cases hp
      | cons q l =>
        simp only [getEffects, List.map_cons, replaceFirst]
        split <;> simp
    obtain ⟨a, p, b, h1, h2, h3, h4⟩ := replaceFirst_spec (e := e) h
    refine ⟨_, ?_, ?_, a, p, b, h1, h2, h3, rfl⟩
    · unfold replaceEffect
      rw [if_pos hany, setEffects_pairs hne]
      simp only [getEffects]
      rw [h4]
    · rw [h1, ← h2]
      simp
  · intro h
    unfold replaceEffect
    rw [if_neg]
    simp only [getEffects, List.any_map, List.any_eq_true, not_exists, not_and]
    intro p hp
    simpa using h p hp

/-- **C62**: assigning a list of pairs as long as the list of effects keeps the regexes in their
positions and takes names and effects from the list. -/
theorem C62_setter {E : Type} {v : List (String × E)} {l : EffectList E} (hv : v ≠ [])
    (hl : v.length = l.length) :
    ∃ l', setEffects (v.map fun p => .pair p.1 p.2) (some l) = .ok l' ∧
      l'.map (fun p => (p.1, p.2.1)) = v ∧ l'.map (fun p => p.2.2) = l.map fun p => p.2.2 := by
  refine ⟨_, setEffects_pairs hv l, ?_, ?_⟩
  · clear hv
    induction v generalizing l with
    | nil => simp
    | cons p v ih =>
      cases l with
      | nil => simp at hl
      | cons q l => simp [ih (l := l) (by simpa using hl)]
  · clear hv
    induction v generalizing l with
    | nil => cases l with
      | nil => rfl
      | cons q l => simp at hl
    | cons p v ih =>
      cases l with
      | nil => simp at hl
      | cons q l => simp [ih (l := l) (by simpa using hl)]

/-- **C62**, outside its claim: tuples with a regex, which the setter says it accepts, are always
rejected if there are effects. -/
theorem C62_triples_rejected {E : Type} {v : List (String × E × Option String)} {l : EffectList E}
    (hv : v ≠ []) (hl : l ≠ []) :
    setEffects (v.map fun p => .triple p.1 p.2.1 p.2.2) (some l) = .error .valueError := by
  cases v with
  | nil => exact absurd rfl hv
  | cons p v =>
    cases l with
    | nil => exact absurd rfl hl
    | cons q l =>
      unfold setEffects
      simp only [List.map_cons]
      rw [if_neg (by simp [EffectTuple.len]), if_neg]
      · rfl
      · rintro ⟨x, hx, hne⟩
        obtain ⟨q, -, rfl⟩ := List.mem_map.1 hx
        exact hne rfl

/-! ## Non-vacuity -/

/-- A valid configuration. -/
def exConfig : Config ℤ String where
  kind := .univariate
  trend := .name "logistic"
  interval := .scalar 25
  range := .scalar 8
  priorScale := .scalar 1
  offsetPriorScale := 1
  capacityPriorScale := 2
  capacityPriorLoc := 11
  noiseScale := 5
  correlationConcentration := 1
  likelihood := "negbinomial"
  inferenceMethod := "map"
  rngKey := none

example : construct exConfig = .ok () := by decide +kernel
example : construct { exConfig with noiseScale := 0 } = .error .valueError := by decide +kernel
example : construct { exConfig with trend := (.name "cubic" : TrendArg String) } = .error .valueError := by decide +kernel
example : seasonalTransformer (.bool true) (.int 5) = .ok (["Y", "W"], [10, 5]) := by decide +kernel
example : seasonalTransformer (.int 0) (.bool false) = .ok ([], []) := by decide +kernel
example : replaceEffect "b" 9 (some [("a", 1, some "x"), ("b", 2, none), ("c", 3, some "z")])
    = some (.ok [("a", 1, some "x"), ("b", 9, none), ("c", 3, some "z")]) := by decide +kernel

end PV
