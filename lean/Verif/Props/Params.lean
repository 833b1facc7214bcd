import Mathlib.Data.Rat.Defs
import Mathlib.Algebra.Field.Rat
import Mathlib.Data.List.Nodup
import Verif.Lemmas.Params

/-!
# C103, C104: settings of an object

`get_params` returns what the constructor was given, `clone` gives an object with the same
settings, `set_params` is the same as constructing with the new value, and misspelled arguments are
rejected.
-/

namespace PV

/-- The settings `p` of the object `o` are readable, a clone equals the object, and setting a
parameter is the same as constructing with the new value in place of the old one. -/
structure Kept {V : Type} (c : PyClass V) (o p : PyDict V) : Prop where
  names : p.map Prod.fst = c.sig.names
  params : c.getParams o = .ok p
  clone : c.clone o = .ok o
  set : ∀ n ∈ c.sig.names, ∀ v, c.setParam o n v = c.call (PyDict.set p n v)
  unknown : ∀ n ∉ c.sig.names, ∀ v, c.setParam o n v = .error .valueError

/-- The settings are the arguments and, for those that were not passed, the defaults. -/
def AsPassed {V : Type} (c : PyClass V) (args p : PyDict V) : Prop :=
  ∀ q ∈ c.sig.params, PyDict.get? p q.1 = (PyDict.get? args q.1).or q.2

theorem kept_of {V : Type} {c : PyClass V} (hs : c.sig.names.Nodup) {o r : PyDict V}
    (hr : r.map Prod.fst = c.sig.names) (hread : ∀ n ∈ c.sig.names, PyDict.get? o n = PyDict.get? r n)
    (hbody : c.body r [] = .ok o) : Kept c o r := by
  obtain ⟨h1, h2⟩ := clone_of hs hr hread hbody
  refine ⟨hr, h1, ?_, ?_, ?_⟩
  · unfold PyClass.clone
    rw [h1]
    exact h2
  · intro n hn v
    unfold PyClass.setParam
    rw [h1]
    show (if _ then _ else _) = _
    rw [if_pos hn]
    unfold PyClass.clone
    rw [getParams_set hs h1 hn v]
    rfl
  · intro n hn v
    unfold PyClass.setParam
    rw [h1]
    show (if _ then _ else _) = _
    rw [if_neg hn]

section
variable {K O : Type}

theorem get?_eq_arg {b : PyDict (PVal K O)} {n : String} (h : n ∈ b.map Prod.fst) :
    PyDict.get? b n = some (arg b n) := by
  obtain ⟨v, hv⟩ := lookup_of_mem h
  unfold arg
  rw [hv]
  rfl

theorem call_ok {V : Type} {c : PyClass V} {args o : PyDict V} (h : c.call args = .ok o) :
    ∃ b kw, bindArgs c.sig args = .ok (b, kw) ∧ c.body b kw = .ok o := by
  unfold PyClass.call at h
  cases hb : bindArgs c.sig args with
  | error e => rw [hb] at h; cases h
  | ok x => rw [hb] at h; exact ⟨x.1, x.2, rfl, h⟩

/-- A class that stores every argument under its name. -/
theorem kept_exact {c : PyClass (PVal K O)} (hs : c.sig.names.Nodup)
    (hkw : c.sig.varKw = false ∨ ∀ b kw, c.body b kw = c.body b [])
    (hread : ∀ b kw o, b.map Prod.fst = c.sig.names → c.body b kw = .ok o →
      ∀ n ∈ c.sig.names, PyDict.get? o n = some (arg b n))
    {args o : PyDict (PVal K O)} (h : c.call args = .ok o) : ∃ p, Kept c o p ∧ AsPassed c args p := by
  obtain ⟨b, kw, h1, h2⟩ := call_ok h
  obtain ⟨h3, h4, h5, h6⟩ := bindArgs_ok hs h1
  refine ⟨b, kept_of hs h3 ?_ ?_, h4⟩
  · intro n hn
    rw [hread b kw o h3 h2 n hn, get?_eq_arg (by rwa [h3])]
  · rcases hkw with hkw | hkw
    · rw [h6 hkw] at h2; exact h2
    · rw [← hkw b kw]; exact h2

theorem get?_pass_append {b e : PyDict (PVal K O)} {l : List String} {n : String} (h : n ∈ l) :
    PyDict.get? (pass b l ++ e) n = some (arg b n) := by
  rw [lookup_append, get?_pass_mem h]
  rfl

variable [Field K]

/-- Parameters of `BaseBayesianForecaster`. -/
def bayesNames : List String := ["rng_key", "inference_method", "mcmc_samples", "mcmc_warmup",
  "mcmc_chains", "optimizer_steps", "optimizer_name", "optimizer_kwargs", "scale"]

/-- Attributes set by `BaseBayesianForecaster.__init__`. -/
def bayesAttrs : List String := ["rng_key", "mcmc_samples", "mcmc_warmup", "mcmc_chains",
  "inference_method", "optimizer_steps", "optimizer_name", "optimizer_kwargs", "scale"]

/-- Parameters of `BaseProphetForecaster`. -/
def prophetNames : List String := ["trend", "changepoint_interval", "changepoint_range",
  "changepoint_prior_scale", "offset_prior_scale", "capacity_prior_scale", "capacity_prior_loc",
  "exogenous_effects", "default_effect"] ++ bayesNames

/-- Attributes set by `BaseProphetForecaster.__init__`. -/
def prophetAttrs : List String := ["trend", "changepoint_interval", "changepoint_range",
  "changepoint_prior_scale", "offset_prior_scale", "capacity_prior_scale", "capacity_prior_loc",
  "exogenous_effects", "default_effect"] ++ bayesAttrs

theorem pass_append (b : PyDict (PVal K O)) (l l' : List String) :
    pass b (l ++ l') = pass b l ++ pass b l' := by simp [pass]

theorem bayes_call {args b : PyDict (PVal K O)}
    (h : ∀ n ∈ bayesNames, PyDict.get? args n = some (arg b n)) :
    (bayesCtor (K := K) (O := O)).call args = .ok (pass b bayesAttrs) := by
  unfold PyClass.call
  rw [bindArgs_of (b := b) (Or.inl rfl) fun p hp => Or.inl (h p.1 (List.mem_map.2 ⟨p, hp, rfl⟩))]
  show Except.ok (pass (pass b bayesNames) bayesAttrs) = _
  rw [pass_pass (by decide)]

theorem prophetBase_call {args b : PyDict (PVal K O)} (hv : ∀ a ∈ args, a.1 ∈ prophetNames)
    (h : ∀ p ∈ (prophetBaseCtor (K := K) (O := O)).sig.params,
      PyDict.get? args p.1 = some (arg b p.1) ∨
        (PyDict.get? args p.1 = none ∧ p.2 = some (arg b p.1))) :
    (prophetBaseCtor (K := K) (O := O)).call args = .ok (pass b prophetAttrs) := by
  unfold PyClass.call
  rw [bindArgs_of (b := b) (Or.inr hv) h]
  have hb : bayesCtor.call (pass (pass b prophetNames) bayesNames) = .ok (pass b bayesAttrs) := by
    apply bayes_call
    intro n hn
    rw [pass_pass (by decide), get?_pass_mem hn]
  show (do
    let rest ← bayesCtor.call (pass (pass b prophetNames) bayesNames)
    pure (pass (pass b prophetNames) ["trend", "changepoint_interval", "changepoint_range",
      "changepoint_prior_scale", "offset_prior_scale", "capacity_prior_scale",
      "capacity_prior_loc", "exogenous_effects", "default_effect"] ++ rest)) = _
  rw [hb, pass_pass (by decide)]
  show Except.ok _ = Except.ok _
  rw [prophetAttrs, pass_append]

/-- What `Prophetverse` passes to `BaseProphetForecaster`. -/
def prophetversePassed : List String := ["rng_key", "trend", "changepoint_interval",
  "changepoint_range", "changepoint_prior_scale", "offset_prior_scale", "capacity_prior_scale",
  "capacity_prior_loc", "default_effect", "exogenous_effects", "inference_method",
  "mcmc_samples", "mcmc_warmup", "mcmc_chains", "optimizer_name", "optimizer_kwargs",
  "optimizer_steps", "scale"]

/-- Parameters of `Prophetverse`. -/
def prophetverseNames : List String := ["trend", "changepoint_interval", "changepoint_range",
  "changepoint_prior_scale", "offset_prior_scale", "capacity_prior_scale", "capacity_prior_loc",
  "exogenous_effects", "default_effect", "feature_transformer", "noise_scale", "mcmc_samples",
  "mcmc_warmup", "mcmc_chains", "inference_method", "optimizer_name", "optimizer_kwargs",
  "optimizer_steps", "likelihood", "scale", "rng_key"]

/-- Attributes set by `Prophetverse.__init__`. -/
def prophetverseAttrs : List String :=
  ["noise_scale", "feature_transformer", "likelihood"] ++ prophetAttrs

theorem pass_names {b : PyDict (PVal K O)} {l l' : List String} (h : ∀ n ∈ l, n ∈ l') :
    ∀ a ∈ pass b l, a.1 ∈ l' := by
  intro a ha
  apply h
  rw [← names_pass b l]
  exact List.mem_map.2 ⟨a, ha, rfl⟩

theorem prophetverse_body (check : PyDict (PVal K O) → PyM Unit) (b kw : PyDict (PVal K O)) :
    (prophetverseCtor check).body b kw = (do
      check (pass b prophetverseAttrs)
      pure (pass b prophetverseAttrs)) := by
  have hb : prophetBaseCtor.call (pass b prophetversePassed) = .ok (pass b prophetAttrs) := by
    apply prophetBase_call (pass_names (by decide))
    intro p hp
    left
    apply get?_pass_mem
    have h : ∀ n ∈ prophetNames, n ∈ prophetversePassed := by decide
    exact h p.1 (List.mem_map.2 ⟨p, hp, rfl⟩)
  show (do
    let rest ← prophetBaseCtor.call (pass b prophetversePassed)
    let attrs := pass b ["noise_scale", "feature_transformer", "likelihood"] ++ rest
    check attrs
    pure attrs) = _
  rw [hb, prophetverseAttrs, pass_append]
  rfl

theorem do_check_ok {α : Type} {c : PyM Unit} {a o : α}
    (h : (do c; pure a : PyM α) = .ok o) : c = .ok () ∧ o = a := by
  cases hc : c with
  | error e => rw [hc] at h; cases h
  | ok u => rw [hc] at h; exact ⟨rfl, (Except.ok.inj h).symm⟩

/-- The five forecasters. -/
inductive Forecaster where
  | prophetverse
  | prophet
  | prophetGamma
  | prophetNegBinomial
  | hierarchicalProphet

/-- The class of a forecaster, with a check of the hyperparameters. -/
def Forecaster.cls (check : PyDict (PVal K O) → PyM Unit) : Forecaster → PyClass (PVal K O)
  | .prophetverse => prophetverseCtor check
  | .prophet => subclassCtor "normal" check
  | .prophetGamma => subclassCtor "gamma" check
  | .prophetNegBinomial => subclassCtor "negbinomial" check
  | .hierarchicalProphet => hierarchicalCtor check

/-- Parameters of `Prophet`, `ProphetGamma` and `ProphetNegBinomial`. -/
def subclassNames : List String := ["changepoint_interval", "changepoint_range",
  "changepoint_prior_scale", "offset_prior_scale", "feature_transformer", "capacity_prior_scale",
  "capacity_prior_loc", "noise_scale", "trend", "mcmc_samples", "mcmc_warmup", "mcmc_chains",
  "inference_method", "optimizer_name", "optimizer_kwargs", "optimizer_steps",
  "exogenous_effects", "default_effect", "scale", "rng_key"]

theorem subclass_read (l : String) (check : PyDict (PVal K O) → PyM Unit)
    (b kw o : PyDict (PVal K O)) (hb : b.map Prod.fst = subclassNames)
    (h : (subclassCtor l check).body b kw = .ok o) :
    (∀ n ∈ subclassNames, PyDict.get? o n = some (arg b n)) ∧
    PyDict.get? o "likelihood" = some (.str l) := by
  have hbody : (subclassCtor l check).body b kw = (prophetverseCtor check).call
      (pass b subclassNames ++ [("likelihood", .str l)]) := rfl
  rw [hbody] at h
  have hl : "likelihood" ∉ subclassNames := by decide
  have e1 : ∀ n ∈ subclassNames, arg (b ++ [("likelihood", .str l)]) n = arg b n := by
    intro n hn
    have := get?_eq_arg (by rwa [hb] : n ∈ b.map Prod.fst)
    unfold arg at this ⊢
    rw [lookup_append, this]
    rfl
  have e2 : arg (b ++ [("likelihood", .str l)]) "likelihood" = .str l := by
    unfold arg
    rw [lookup_append, lookup_of_not_mem (by rwa [hb])]
    simp [PyDict.get?]
  generalize b ++ [("likelihood", .str l)] = b' at e1 e2
  have e3 : pass b subclassNames ++ [("likelihood", .str l)]
      = pass b' (subclassNames ++ ["likelihood"]) := by
    rw [pass_append, pass_congr e1]
    simp [pass, e2]
  have e4 : ∀ n ∈ prophetverseNames, n ∈ subclassNames ++ ["likelihood"] := by decide
  have e5 : ∀ n ∈ subclassNames ++ ["likelihood"], n ∈ prophetverseAttrs := by decide
  have e6 : ∀ n ∈ prophetverseAttrs, n ∈ prophetverseNames := by decide
  rw [e3] at h
  unfold PyClass.call at h
  rw [bindArgs_of (b := b') (Or.inr (pass_names
    (by decide : ∀ n ∈ subclassNames ++ ["likelihood"], n ∈ prophetverseNames)))
    fun p hp => Or.inl (get?_pass_mem (e4 p.1 (List.mem_map.2 ⟨p, hp, rfl⟩)))] at h
  replace h : (prophetverseCtor check).body (pass b' prophetverseNames)
      ((pass b' (subclassNames ++ ["likelihood"])).filter (fun a => a.1 ∉ prophetverseNames))
        = .ok o := h
  rw [prophetverse_body, pass_pass e6] at h
  obtain ⟨-, rfl⟩ := do_check_ok h
  constructor
  · intro n hn
    rw [get?_pass_mem (e5 n (by simp [hn])), e1 n hn]
  · rw [get?_pass_mem (by decide), e2]

/-- What `HierarchicalProphet` passes to `BaseProphetForecaster`. -/
def hierarchicalPassed : List String := ["trend", "changepoint_interval", "changepoint_range",
  "changepoint_prior_scale", "offset_prior_scale", "capacity_prior_scale", "capacity_prior_loc",
  "default_effect", "exogenous_effects", "rng_key", "inference_method", "optimizer_name",
  "optimizer_kwargs", "optimizer_steps", "mcmc_samples", "mcmc_warmup", "mcmc_chains"]

/-- Parameters of `HierarchicalProphet`. -/
def hierarchicalNames : List String := ["trend", "changepoint_interval", "changepoint_range",
  "changepoint_prior_scale", "offset_prior_scale", "capacity_prior_scale", "capacity_prior_loc",
  "feature_transformer", "exogenous_effects", "default_effect", "shared_features",
  "mcmc_samples", "mcmc_warmup", "mcmc_chains", "inference_method", "optimizer_name",
  "optimizer_kwargs", "optimizer_steps", "noise_scale", "correlation_matrix_concentration",
  "rng_key"]

/-- Attributes set by `HierarchicalProphet.__init__`. -/
def hierarchicalAttrs : List String := ["noise_scale", "shared_features", "feature_transformer",
  "correlation_matrix_concentration"] ++ prophetAttrs

theorem hierarchical_body (check : PyDict (PVal K O) → PyM Unit) (b kw : PyDict (PVal K O))
    (hb : b.map Prod.fst = hierarchicalNames) :
    (hierarchicalCtor check).body b kw = (do
      check (pass b hierarchicalAttrs)
      pure (pass b hierarchicalAttrs)) := by
  have hsc : arg b "scale" = .none := by
    unfold arg
    rw [lookup_of_not_mem (by rw [hb]; decide)]
    rfl
  have hb : prophetBaseCtor.call (pass b hierarchicalPassed) = .ok (pass b prophetAttrs) := by
    apply prophetBase_call (pass_names (by decide))
    intro p hp
    have h : ∀ n ∈ prophetNames, n = "scale" ∨ n ∈ hierarchicalPassed := by decide
    rcases h p.1 (List.mem_map.2 ⟨p, hp, rfl⟩) with h | h
    · right
      rw [h, hsc]
      refine ⟨get?_pass_not_mem (by decide), ?_⟩
      have hn : ((prophetBaseCtor (K := K) (O := O)).sig.params.map Prod.fst).Nodup := by
        show prophetNames.Nodup
        decide
      have hm : ("scale", some (.none : PVal K O)) ∈ (prophetBaseCtor (K := K) (O := O)).sig.params := by
        simp [prophetBaseCtor]
      have := List.inj_on_of_nodup_map hn hp hm h
      rw [this]
    · left
      exact get?_pass_mem h
  show (do
    let rest ← prophetBaseCtor.call (pass b hierarchicalPassed)
    let attrs := pass b ["noise_scale", "shared_features", "feature_transformer",
      "correlation_matrix_concentration"] ++ rest
    check attrs
    pure attrs) = _
  rw [hb, hierarchicalAttrs, pass_append]
  rfl

/-- **C103** for forecasters: the settings of a forecaster are the arguments of the constructor and
the defaults; a clone has the same attributes; setting a parameter is constructing with it. -/
theorem C103_forecasters (f : Forecaster) (check : PyDict (PVal K O) → PyM Unit)
    {args o : PyDict (PVal K O)} (h : (f.cls check).call args = .ok o) :
    ∃ p, Kept (f.cls check) o p ∧ AsPassed (f.cls check) args p := by
  have hsub : ∀ l, (subclassCtor l check).call args = .ok o →
      ∃ p, Kept (subclassCtor l check) o p ∧ AsPassed (subclassCtor l check) args p := by
    intro l h
    refine kept_exact (c := subclassCtor l check) ?_ (Or.inl rfl) ?_ h
    · show subclassNames.Nodup
      decide
    · intro b kw o hb ho
      exact (subclass_read l check b kw o hb ho).1
  cases f with
  | prophetverse =>
    refine kept_exact (c := prophetverseCtor check) ?_ (Or.inl rfl) ?_ h
    · show prophetverseNames.Nodup
      decide
    · intro b kw o hb ho n hn
      rw [prophetverse_body] at ho
      obtain ⟨-, rfl⟩ := do_check_ok ho
      have e : ∀ n ∈ prophetverseNames, n ∈ prophetverseAttrs := by decide
      exact get?_pass_mem (e n hn)
  | prophet => exact hsub _ h
  | prophetGamma => exact hsub _ h
  | prophetNegBinomial => exact hsub _ h
  | hierarchicalProphet =>
    refine kept_exact (c := hierarchicalCtor check) ?_ (Or.inl rfl) ?_ h
    · show hierarchicalNames.Nodup
      decide
    · intro b kw o hb ho n hn
      rw [hierarchical_body check b kw hb] at ho
      obtain ⟨-, rfl⟩ := do_check_ok ho
      have e : ∀ n ∈ hierarchicalNames, n ∈ hierarchicalAttrs := by decide
      exact get?_pass_mem (e n hn)

/-- The likelihood that the name of a class announces. -/
def Forecaster.announced : Forecaster → Option String
  | .prophet => some "normal"
  | .prophetGamma => some "gamma"
  | .prophetNegBinomial => some "negbinomial"
  | _ => none

/-- **C103**: the likelihood of `Prophet`, `ProphetGamma` and `ProphetNegBinomial` is fixed by the
class and survives cloning and setting other parameters. -/
theorem C103_likelihood (f : Forecaster) {l : String} (hf : f.announced = some l)
    (check : PyDict (PVal K O) → PyM Unit) {args o : PyDict (PVal K O)}
    (h : (f.cls check).call args = .ok o) : PyDict.get? o "likelihood" = some (.str l) := by
  have hsub : ∀ l, (subclassCtor l check).call args = .ok o →
      PyDict.get? o "likelihood" = some (.str l) := by
    intro l h
    obtain ⟨b, kw, h1, h2⟩ := call_ok h
    obtain ⟨h3, -⟩ := bindArgs_ok (s := (subclassCtor l check).sig)
      (by show subclassNames.Nodup; decide) h1
    exact (subclass_read l check b kw o h3 h2).2
  cases f <;> simp only [Forecaster.announced, Option.some.injEq, reduceCtorEq] at hf <;> subst hf <;>
    exact hsub _ h

/-! ## Effects and trends -/

variable [DecidableEq K]

/-- The effects, trends and the column expander, except the logistic trend and the effects that
have distributions as defaults. -/
inductive PlainClass where
  | fourier
  | lift
  | flat
  | piecewise
  | expand

/-- The class. -/
def PlainClass.cls (check : PyDict (PVal K O) → PyM Unit) : PlainClass → PyClass (PVal K O)
  | .fourier => fourierCtor
  | .lift => liftCtor check
  | .flat => flatCtor
  | .piecewise => piecewiseCtor
  | .expand => expandCtor

omit [DecidableEq K] in
/-- **C103** for the seasonality, the lift experiment, the flat and the piecewise linear trend and
the column expander. -/
theorem C103_plain (f : PlainClass) (check : PyDict (PVal K O) → PyM Unit)
    {args o : PyDict (PVal K O)} (h : (f.cls check).call args = .ok o) :
    ∃ p, Kept (f.cls check) o p ∧ AsPassed (f.cls check) args p := by
  cases f with
  | fourier =>
    refine kept_exact (c := fourierCtor) ?_ (Or.inl rfl) ?_ h
    · show ["sp_list", "fourier_terms_list", "freq", "prior_scale", "effect_mode"].Nodup
      decide
    · intro b kw o hb ho n hn
      rw [← Except.ok.inj ho]
      exact get?_pass_append hn
  | lift =>
    refine kept_exact (c := liftCtor check) ?_ (Or.inl rfl) ?_ h
    · show ["effect", "lift_test_results", "prior_scale"].Nodup
      decide
    · intro b kw o hb ho n hn
      obtain ⟨-, rfl⟩ := do_check_ok ho
      exact get?_pass_append hn
  | flat =>
    refine kept_exact (c := flatCtor) ?_ (Or.inl rfl) ?_ h
    · show ["changepoint_prior_scale"].Nodup
      decide
    · intro b kw o hb ho n hn
      rw [← Except.ok.inj ho]
      exact get?_pass_append hn
  | piecewise =>
    refine kept_exact (c := piecewiseCtor) ?_ (Or.inr fun _ _ => rfl) ?_ h
    · show ["changepoint_interval", "changepoint_range", "changepoint_prior_scale",
        "offset_prior_scale", "squeeze_if_single_series",
        "remove_seasonality_before_suggesting_initial_vals"].Nodup
      decide
    · intro b kw o hb ho n hn
      rw [← Except.ok.inj ho]
      exact get?_pass_append hn
  | expand =>
    refine kept_exact (c := expandCtor) ?_ (Or.inl rfl) ?_ h
    · show ["columns_regex"].Nodup
      decide
    · intro b kw o hb ho n hn
      rw [← Except.ok.inj ho]
      exact get?_pass_mem hn

/-- The effects with distributions as defaults and the logistic trend. -/
inductive PriorClass where
  | linear
  | log
  | hill
  | logistic

/-- Distributions that are used as defaults: `Normal(0, 0.1)`, `Gamma(1, 1)`, `HalfNormal(10)` and
the capacity prior. -/
structure DefaultPriors (O : Type) where
  normal : O
  gamma : O
  halfNormal : O
  capacity : O

/-- The class. -/
def PriorClass.cls (d : DefaultPriors O) : PriorClass → PyClass (PVal K O)
  | .linear => linearCtor d.normal
  | .log => logCtor d.gamma
  | .hill => hillCtor d.gamma d.halfNormal
  | .logistic => logisticCtor d.capacity

/-- The default of a prior. -/
def PriorClass.default (d : DefaultPriors O) : PriorClass → String → Option O
  | .linear, n => if n = "prior" then some d.normal else none
  | .log, n => if n = "scale_prior" ∨ n = "rate_prior" then some d.gamma else none
  | .hill, n =>
    if n = "half_max_prior" ∨ n = "max_effect_prior" then some d.gamma
    else if n = "slope_prior" then some d.halfNormal else none
  | .logistic, n => if n = "capacity_prior" then some d.capacity else none

/-- The settings are the arguments and the defaults; a prior that is left out or `None` is its
default, and one that is an object is that object. -/
def AsPassedPrior (d : DefaultPriors O) (f : PriorClass) (args p : PyDict (PVal K O)) : Prop :=
  ∀ q ∈ (f.cls (K := K) d).sig.params,
    match f.default d q.1 with
    | none => PyDict.get? p q.1 = (PyDict.get? args q.1).or q.2
    | some x =>
      (PyDict.get? args q.1 = none ∨ PyDict.get? args q.1 = some .none →
        PyDict.get? p q.1 = some (.obj x)) ∧
      ∀ y, PyDict.get? args q.1 = some (.obj y) → PyDict.get? p q.1 = some (.obj y)

theorem or_or_obj (a : PVal K O) (x : O) : (a.or (.obj x)).or (.obj x) = a.or (.obj x) := by
  unfold PVal.or
  by_cases h : a.truthy = true
  · simp [h]
  · rw [if_neg h]
    rfl

omit [DecidableEq K] in
theorem modeEffectInit_ok {m : PVal K O} {o : PyDict (PVal K O)} (h : modeEffectInit m = .ok o) :
    o = ("effect_mode", m) :: baseEffectAttrs := by
  cases m with
  | str s =>
    by_cases hs : s = "additive" ∨ s = "multiplicative"
    · rw [modeEffectInit, if_pos hs] at h
      exact (Except.ok.inj h).symm
    · rw [modeEffectInit, if_neg hs] at h
      cases h
  | _ => cases h

omit [DecidableEq K] in
theorem bind_ok {α β : Type} {m : PyM α} {f : α → PyM β} {b : β} (h : (m >>= f) = .ok b) :
    ∃ a, m = .ok a ∧ f a = .ok b := by
  cases m with
  | error e => cases h
  | ok a => exact ⟨a, rfl, h⟩

theorem linear_keeps (x : O) (b kw o : PyDict (PVal K O)) (h : (linearCtor x).body b kw = .ok o) :
    Kept (linearCtor x) o [("effect_mode", arg b "effect_mode"),
      ("prior", (arg b "prior").or (.obj x))] := by
  obtain ⟨base, h1, h2⟩ := bind_ok h
  obtain rfl := modeEffectInit_ok h1
  obtain rfl := Except.ok.inj h2
  refine kept_of ?_ rfl ?_ ?_
  · show ["effect_mode", "prior"].Nodup
    decide
  · intro n hn
    have hn : n ∈ (["effect_mode", "prior"] : List String) := hn
    simp only [List.mem_cons, List.not_mem_nil, or_false] at hn
    rcases hn with rfl | rfl <;> rfl
  · show (do
      let base ← modeEffectInit (arg b "effect_mode")
      pure (("prior", ((arg b "prior").or (.obj x)).or (.obj x)) :: base)) = _
    rw [h1, or_or_obj]
    rfl

theorem log_keeps (x : O) (b kw o : PyDict (PVal K O)) (h : (logCtor x).body b kw = .ok o) :
    Kept (logCtor x) o [("effect_mode", arg b "effect_mode"),
      ("scale_prior", (arg b "scale_prior").or (.obj x)),
      ("rate_prior", (arg b "rate_prior").or (.obj x))] := by
  obtain ⟨base, h1, h2⟩ := bind_ok h
  obtain rfl := modeEffectInit_ok h1
  obtain rfl := Except.ok.inj h2
  refine kept_of ?_ rfl ?_ ?_
  · show ["effect_mode", "scale_prior", "rate_prior"].Nodup
    decide
  · intro n hn
    have hn : n ∈ (["effect_mode", "scale_prior", "rate_prior"] : List String) := hn
    simp only [List.mem_cons, List.not_mem_nil, or_false] at hn
    rcases hn with rfl | rfl | rfl <;> rfl
  · show (do
      let base ← modeEffectInit (arg b "effect_mode")
      pure ([("scale_prior", ((arg b "scale_prior").or (.obj x)).or (.obj x)),
        ("rate_prior", ((arg b "rate_prior").or (.obj x)).or (.obj x))] ++ base)) = _
    rw [h1, or_or_obj, or_or_obj]
    rfl

theorem hill_keeps (x y : O) (b kw o : PyDict (PVal K O)) (h : (hillCtor x y).body b kw = .ok o) :
    Kept (hillCtor x y) o [("effect_mode", arg b "effect_mode"),
      ("half_max_prior", (arg b "half_max_prior").or (.obj x)),
      ("slope_prior", (arg b "slope_prior").or (.obj y)),
      ("max_effect_prior", (arg b "max_effect_prior").or (.obj x))] := by
  obtain ⟨base, h1, h2⟩ := bind_ok h
  obtain rfl := modeEffectInit_ok h1
  obtain rfl := Except.ok.inj h2
  refine kept_of ?_ rfl ?_ ?_
  · show ["effect_mode", "half_max_prior", "slope_prior", "max_effect_prior"].Nodup
    decide
  · intro n hn
    have hn : n ∈ (["effect_mode", "half_max_prior", "slope_prior", "max_effect_prior"] : List String) := hn
    simp only [List.mem_cons, List.not_mem_nil, or_false] at hn
    rcases hn with rfl | rfl | rfl | rfl <;> rfl
  · show (do
      let base ← modeEffectInit (arg b "effect_mode")
      pure ([("half_max_prior", ((arg b "half_max_prior").or (.obj x)).or (.obj x)),
        ("slope_prior", ((arg b "slope_prior").or (.obj y)).or (.obj y)),
        ("max_effect_prior", ((arg b "max_effect_prior").or (.obj x)).or (.obj x))] ++ base)) = _
    rw [h1, or_or_obj, or_or_obj, or_or_obj]
    rfl

/-- The two settings of the piecewise trends that are not in the signature of the logistic trend,
though its documentation lists them. -/
def squeezeName : String := "squeeze_if_single_series"

/-- See `squeezeName`. -/
def removeName : String := "remove_seasonality_before_suggesting_initial_vals"

/-- Parameters of `PiecewiseLogisticTrend`. -/
def logisticNames : List String := ["changepoint_interval", "changepoint_range",
  "changepoint_prior_scale", "offset_prior_scale", "capacity_prior"]

/-- Parameters that it passes on by name. -/
def logisticPassed : List String := ["changepoint_interval", "changepoint_range",
  "changepoint_prior_scale", "offset_prior_scale"]

/-- The attributes of a logistic trend. -/
def logisticAttrs (prior squeeze remove : PVal K O) (b : PyDict (PVal K O)) : PyDict (PVal K O) :=
  ("capacity_prior", prior) :: (pass b logisticPassed ++ [(squeezeName, squeeze),
    (removeName, remove)] ++ baseEffectAttrs)

/-- The prior of the capacity. -/
def capacityOf (x : O) : PVal K O → PVal K O
  | .none => .obj x
  | p => p

theorem logistic_body (x : O) {b kw : PyDict (PVal K O)} (hkw : ∀ a ∈ kw, a.1 ∉ logisticNames) :
    (logisticCtor x).body b kw = .ok (logisticAttrs (capacityOf x (arg b "capacity_prior"))
      ((PyDict.get? kw squeezeName).getD (.bool true))
      ((PyDict.get? kw removeName).getD (.bool true)) b) := by
  have hget : ∀ n ∈ logisticNames, PyDict.get? kw n = none := by
    intro n hn
    apply lookup_of_not_mem
    intro h
    obtain ⟨a, ha, rfl⟩ := List.mem_map.1 h
    exact hkw a ha hn
  generalize hsq : (PyDict.get? kw squeezeName).getD (.bool true) = sq
  generalize hrm : (PyDict.get? kw removeName).getD (.bool true) = rm
  have h1 : ∀ n ∈ logisticPassed, arg ((squeezeName, sq) :: (removeName, rm) :: b) n = arg b n := by
    intro n hn
    have hn : n ≠ squeezeName ∧ n ≠ removeName := by
      revert n
      decide
    unfold arg
    simp only [PyDict.get?]
    rw [if_neg (Ne.symm hn.1), if_neg (Ne.symm hn.2)]
  have h2 : arg ((squeezeName, sq) :: (removeName, rm) :: b) squeezeName = sq := rfl
  have h3 : arg ((squeezeName, sq) :: (removeName, rm) :: b) removeName = rm := rfl
  generalize (squeezeName, sq) :: (removeName, rm) :: b = b' at h1 h2 h3
  have hcall : (piecewiseCtor (K := K) (O := O)).call (pass b logisticPassed ++ kw)
      = .ok (pass b' (logisticPassed ++ [squeezeName, removeName]) ++ baseEffectAttrs) := by
    unfold PyClass.call
    rw [bindArgs_of (b := b') (Or.inl rfl)]
    · show Except.ok (pass (pass b' (logisticPassed ++ [squeezeName, removeName]))
        (logisticPassed ++ [squeezeName, removeName]) ++ baseEffectAttrs) = _
      rw [pass_pass fun _ h => h]
    · intro p hp
      have hp' : p ∈ ([("changepoint_interval", none), ("changepoint_range", none),
        ("changepoint_prior_scale", none), ("offset_prior_scale", some (.num (1 / 10))),
        (squeezeName, some (.bool true)), (removeName, some (.bool true))] :
          List (String × Option (PVal K O))) := hp
      have hlast : ∀ n ∉ logisticPassed,
          PyDict.get? (pass b logisticPassed ++ kw) n = PyDict.get? kw n := by
        intro n hn
        rw [lookup_append, get?_pass_not_mem hn]
        rfl
      have hfirst : ∀ n ∈ logisticPassed,
          PyDict.get? (pass b logisticPassed ++ kw) n = some (arg b' n) := by
        intro n hn
        rw [get?_pass_append hn, h1 n hn]
      simp only [List.mem_cons, List.not_mem_nil, or_false] at hp'
      rcases hp' with rfl | rfl | rfl | rfl | rfl | rfl
      · exact Or.inl (hfirst "changepoint_interval" (by decide))
      · exact Or.inl (hfirst "changepoint_range" (by decide))
      · exact Or.inl (hfirst "changepoint_prior_scale" (by decide))
      · exact Or.inl (hfirst "offset_prior_scale" (by decide))
      · simp only
        rw [hlast _ (by decide), h2, ← hsq]
        cases PyDict.get? kw squeezeName with
        | none => exact Or.inr ⟨rfl, rfl⟩
        | some v => exact Or.inl rfl
      · simp only
        rw [hlast _ (by decide), h3, ← hrm]
        cases PyDict.get? kw removeName with
        | none => exact Or.inr ⟨rfl, rfl⟩
        | some v => exact Or.inl rfl
  have hprior : capacityOf x (arg b "capacity_prior") = (match arg b "capacity_prior" with
      | .none => .obj x
      | p => p) := by
    cases arg b "capacity_prior" <;> rfl
  show (do
    let rest ← (piecewiseCtor (K := K) (O := O)).call (pass b logisticPassed ++ kw)
    pure (("capacity_prior", (match arg b "capacity_prior" with
      | .none => PVal.obj x
      | p => p)) :: rest)) = _
  rw [hcall, ← hprior, pass_append, pass_congr h1]
  show Except.ok _ = Except.ok _
  rw [logisticAttrs]
  simp only [pass, List.map_cons, List.map_nil, h2, h3]

theorem capacityOf_idem (x : O) (v : PVal K O) : capacityOf x (capacityOf x v) = capacityOf x v := by
  cases v <;> rfl

/-- The settings that `get_params` reads off a logistic trend. -/
def logisticParams (prior : PVal K O) (b : PyDict (PVal K O)) : PyDict (PVal K O) :=
  pass b logisticPassed ++ [("capacity_prior", prior)]

theorem logistic_clone (x : O) (b : PyDict (PVal K O)) (sq rm : PVal K O) :
    (logisticCtor x).getParams (logisticAttrs (capacityOf x (arg b "capacity_prior")) sq rm b)
      = .ok (logisticParams (capacityOf x (arg b "capacity_prior")) b) ∧
    Kept (logisticCtor x)
      (logisticAttrs (capacityOf x (arg b "capacity_prior")) (.bool true) (.bool true) b)
      (logisticParams (capacityOf x (arg b "capacity_prior")) b) := by
  generalize hp : capacityOf x (arg b "capacity_prior") = prior
  have hid : capacityOf x prior = prior := by rw [← hp, capacityOf_idem]
  have hread : ∀ sq rm, ∀ n ∈ (logisticCtor (K := K) x).sig.names,
      PyDict.get? (logisticAttrs prior sq rm b) n = PyDict.get? (logisticParams prior b) n := by
    intro sq rm n hn
    have hn : n ∈ logisticPassed ++ ["capacity_prior"] := hn
    rw [List.mem_append, List.mem_singleton] at hn
    rcases hn with hn | rfl
    · have hne : "capacity_prior" ≠ n := by
        rintro rfl
        revert hn
        decide
      rw [logisticAttrs, PyDict.get?, if_neg hne, List.append_assoc, get?_pass_append hn,
        logisticParams, get?_pass_append hn]
    · rw [logisticAttrs, PyDict.get?, if_pos rfl, logisticParams, lookup_append,
        get?_pass_not_mem (by decide)]
      rfl
  have hnd : (logisticCtor (K := K) x).sig.names.Nodup := by
    show logisticNames.Nodup
    decide
  have hrn : (logisticParams prior b).map Prod.fst = (logisticCtor (K := K) x).sig.names := rfl
  have hbody : (logisticCtor x).body (logisticParams prior b) []
      = .ok (logisticAttrs prior (.bool true) (.bool true) b) := by
    rw [logistic_body x (by simp)]
    have e1 : arg (logisticParams prior b) "capacity_prior" = prior := by
      unfold arg
      rw [logisticParams, lookup_append, get?_pass_not_mem (by decide)]
      rfl
    have e2 : pass (logisticParams prior b) logisticPassed = pass b logisticPassed := by
      apply pass_congr
      intro n hn
      conv_lhs => unfold arg
      rw [logisticParams, get?_pass_append hn]
      rfl
    rw [e1, hid]
    show Except.ok _ = Except.ok _
    rw [logisticAttrs, logisticAttrs, e2]
    rfl
  constructor
  · exact getParams_of hnd hrn (hread sq rm)
  · exact kept_of hnd hrn (hread _ _) hbody

/-- The value of a setting of an object. -/
def setting (o : PyDict (PVal K O)) (n : String) : Option (PVal K O) := PyDict.get? o n

/-- The full claim for one class: whatever the arguments, a clone equals the object. -/
def ClonesFaithfully (c : PyClass (PVal K O)) : Prop :=
  ∀ args o, c.call args = .ok o → c.clone o = .ok o

/-- **C103** for the effects with default priors and the logistic trend; for the logistic trend only
if the two settings that its constructor takes through `**kwargs` are not changed from `True`
(`C103_logistic_refuted`). -/
theorem C103_priors_partial (d : DefaultPriors O) (f : PriorClass) {args o : PyDict (PVal K O)}
    (h : (f.cls d).call args = .ok o)
    (hl : f = .logistic → ∀ n ∈ ["squeeze_if_single_series",
      "remove_seasonality_before_suggesting_initial_vals"],
      PyDict.get? args n = none ∨ PyDict.get? args n = some (.bool true)) :
    ∃ p, Kept (f.cls d) o p ∧ AsPassedPrior d f args p := by
  obtain ⟨b, kw, h1, h2⟩ := call_ok h
  have hor : ∀ (n : String) (x : O) (v : Option (PVal K O)),
      PyDict.get? b n = v.or (some .none) →
      (v = none ∨ v = some .none → some ((arg b n).or (.obj x)) = some (.obj x)) ∧
      ∀ y, v = some (.obj y) → some ((arg b n).or (.obj x)) = some (.obj y) := by
    intro n x v hv
    constructor
    · rintro (rfl | rfl) <;> simp only [arg, hv] <;> rfl
    · rintro y rfl
      simp only [arg, hv]
      rfl
  have hmode : ∀ (n : String) (v : Option (PVal K O)) (w : PVal K O),
      PyDict.get? b n = v.or (some w) → some (arg b n) = v.or (some w) := by
    intro n v w hv
    rw [← hv, arg, hv]
    cases v <;> rfl
  cases f with
  | linear =>
    obtain ⟨h3, h4, -, -⟩ := bindArgs_ok (by show ["effect_mode", "prior"].Nodup; decide) h1
    refine ⟨_, linear_keeps d.normal b kw o h2, ?_⟩
    intro q hq
    have e := h4 q hq
    have hq : q ∈ ([("effect_mode", some (.str "multiplicative")), ("prior", some .none)] :
      List (String × Option (PVal K O))) := hq
    simp only [List.mem_cons, List.not_mem_nil, or_false] at hq
    rcases hq with rfl | rfl
    · exact hmode _ _ _ e
    · exact hor _ _ _ e
  | log =>
    obtain ⟨h3, h4, -, -⟩ := bindArgs_ok
      (by show ["effect_mode", "scale_prior", "rate_prior"].Nodup; decide) h1
    refine ⟨_, log_keeps d.gamma b kw o h2, ?_⟩
    intro q hq
    have e := h4 q hq
    have hq : q ∈ ([("effect_mode", some (.str "multiplicative")), ("scale_prior", some .none),
      ("rate_prior", some .none)] : List (String × Option (PVal K O))) := hq
    simp only [List.mem_cons, List.not_mem_nil, or_false] at hq
    rcases hq with rfl | rfl | rfl
    · exact hmode _ _ _ e
    · exact hor _ _ _ e
    · exact hor _ _ _ e
  | hill =>
    obtain ⟨h3, h4, -, -⟩ := bindArgs_ok
      (by show ["effect_mode", "half_max_prior", "slope_prior", "max_effect_prior"].Nodup; decide) h1
    refine ⟨_, hill_keeps d.gamma d.halfNormal b kw o h2, ?_⟩
    intro q hq
    have e := h4 q hq
    have hq : q ∈ ([("effect_mode", some (.str "multiplicative")), ("half_max_prior", some .none),
      ("slope_prior", some .none), ("max_effect_prior", some .none)] :
        List (String × Option (PVal K O))) := hq
    simp only [List.mem_cons, List.not_mem_nil, or_false] at hq
    rcases hq with rfl | rfl | rfl | rfl
    · exact hmode _ _ _ e
    · exact hor _ _ _ e
    · exact hor _ _ _ e
    · exact hor _ _ _ e
  | logistic =>
    obtain ⟨h3, h4, h5, -⟩ := bindArgs_ok (by show logisticNames.Nodup; decide) h1
    replace h5 : kw = args.filter (fun a => a.1 ∉ logisticNames) := h5
    have hkw : ∀ a ∈ kw, a.1 ∉ logisticNames := by
      intro a ha
      rw [h5] at ha
      simpa using (List.mem_filter.1 ha).2
    have hfil : ∀ n ∉ logisticNames, PyDict.get? kw n = PyDict.get? args n := by
      intro n hn
      rw [h5]
      clear h h1 h2 h3 h4 h5 hkw hl
      induction args with
      | nil => rfl
      | cons a l ih =>
        obtain ⟨k, v⟩ := a
        by_cases hk : k = n
        · subst hk
          rw [List.filter_cons_of_pos (by simpa using hn)]
          simp [PyDict.get?]
        · have e1 : PyDict.get? ((k, v) :: l) n = PyDict.get? l n := by
            simp only [PyDict.get?, if_neg hk]
          rw [e1, ← ih]
          by_cases hm : k ∈ logisticNames
          · rw [List.filter_cons_of_neg (by simpa using hm)]
          · rw [List.filter_cons_of_pos (by simpa using hm)]
            simp only [PyDict.get?, if_neg hk]
    rw [PriorClass.cls, logistic_body _ hkw] at h2
    have htrue : ∀ n ∈ ["squeeze_if_single_series",
        "remove_seasonality_before_suggesting_initial_vals"],
        (PyDict.get? kw n).getD (.bool true) = .bool true := by
      intro n hn
      have hnn : n ∉ logisticNames := by
        revert n
        decide
      rw [hfil n hnn]
      rcases hl rfl n hn with e | e <;> rw [e] <;> rfl
    rw [htrue squeezeName (by decide), htrue removeName (by decide)] at h2
    obtain rfl := Except.ok.inj h2
    refine ⟨_, (logistic_clone d.capacity b (.bool true) (.bool true)).2, ?_⟩
    intro q hq
    have e := h4 q hq
    have hq : q ∈ ([("changepoint_interval", none), ("changepoint_range", none),
        ("changepoint_prior_scale", none), ("offset_prior_scale", some (.num 10)),
        ("capacity_prior", some .none)] : List (String × Option (PVal K O))) := hq
    have hm : ∀ n ∈ logisticPassed, PyDict.get? (logisticParams
        (capacityOf d.capacity (arg b "capacity_prior")) b) n = PyDict.get? b n := by
      intro n hn
      have : ∀ n ∈ logisticPassed, n ∈ logisticNames := by decide
      rw [logisticParams, get?_pass_append hn, get?_eq_arg (by rw [h3]; exact this n hn)]
    simp only [List.mem_cons, List.not_mem_nil, or_false] at hq
    rcases hq with rfl | rfl | rfl | rfl | rfl
    · exact (hm "changepoint_interval" (by decide)).trans e
    · exact (hm "changepoint_range" (by decide)).trans e
    · exact (hm "changepoint_prior_scale" (by decide)).trans e
    · exact (hm "offset_prior_scale" (by decide)).trans e
    · have e' : PyDict.get? b "capacity_prior"
          = (PyDict.get? args "capacity_prior").or (some .none) := e
      have hc : PyDict.get? (logisticParams (capacityOf d.capacity (arg b "capacity_prior")) b)
          "capacity_prior" = some (capacityOf d.capacity (arg b "capacity_prior")) := by
        rw [logisticParams, lookup_append, get?_pass_not_mem (by decide)]
        rfl
      refine ⟨?_, ?_⟩
      · intro hv
        refine hc.trans ?_
        have : arg b "capacity_prior" = .none := by
          unfold arg
          rw [e']
          rcases hv with hv | hv <;> rw [hv] <;> rfl
        rw [this]
        rfl
      · intro y hv
        refine hc.trans ?_
        have : arg b "capacity_prior" = .obj y := by
          unfold arg
          rw [e', hv]
          rfl
        rw [this]
        rfl

/-- **C103** for the logistic trend: cloning puts the two settings back to `True` and keeps all
others. -/
theorem C103_logistic_clone (x : O) {args o : PyDict (PVal K O)}
    (h : (logisticCtor x).call args = .ok o) :
    ∃ o', (logisticCtor x).clone o = .ok o' ∧
      setting o' "squeeze_if_single_series" = some (.bool true) ∧
      setting o' "remove_seasonality_before_suggesting_initial_vals" = some (.bool true) ∧
      ∀ n, n ≠ "squeeze_if_single_series" →
        n ≠ "remove_seasonality_before_suggesting_initial_vals" → setting o' n = setting o n := by
  obtain ⟨b, kw, h1, h2⟩ := call_ok h
  obtain ⟨h3, h4, h5, -⟩ := bindArgs_ok (by show logisticNames.Nodup; decide) h1
  replace h5 : kw = args.filter (fun a => a.1 ∉ logisticNames) := h5
  have hkw : ∀ a ∈ kw, a.1 ∉ logisticNames := by
    intro a ha
    rw [h5] at ha
    simpa using (List.mem_filter.1 ha).2
  rw [logistic_body _ hkw] at h2
  generalize (PyDict.get? kw squeezeName).getD (.bool true) = sq at h2
  generalize (PyDict.get? kw removeName).getD (.bool true) = rm at h2
  obtain rfl := Except.ok.inj h2
  obtain ⟨hp, hk⟩ := logistic_clone x b sq rm
  refine ⟨logisticAttrs (capacityOf x (arg b "capacity_prior")) (.bool true) (.bool true) b,
    ?_, ?_, ?_, ?_⟩
  · have := hk.clone
    unfold PyClass.clone at this ⊢
    rw [hp]
    rw [hk.params] at this
    exact this
  · rw [setting, logisticAttrs, PyDict.get?, if_neg (by decide), List.append_assoc,
      lookup_append, get?_pass_not_mem (by decide)]
    rfl
  · rw [setting, logisticAttrs, PyDict.get?, if_neg (by decide), List.append_assoc,
      lookup_append, get?_pass_not_mem (by decide)]
    rfl
  · intro n hn1 hn2
    have e1 : squeezeName ≠ n := fun e => hn1 e.symm
    have e2 : removeName ≠ n := fun e => hn2 e.symm
    rw [setting, setting, logisticAttrs, logisticAttrs, PyDict.get?, PyDict.get?]
    rw [List.append_assoc, List.append_assoc, lookup_append, lookup_append,
      lookup_append, lookup_append]
    simp only [PyDict.get?, if_neg e1, if_neg e2]

/-! ## C104 -/

omit [DecidableEq K] in
theorem call_unknown {V : Type} {c : PyClass V} (hv : c.sig.varKw = false) {args : PyDict V}
    {n : String} (hn : n ∈ args.map Prod.fst) (hu : n ∉ c.sig.names) :
    c.call args = .error .typeError := by
  obtain ⟨a, ha, rfl⟩ := List.mem_map.1 hn
  unfold PyClass.call bindArgs
  simp only
  rw [if_pos]
  · rfl
  · refine ⟨hv, fun h => ?_⟩
    rw [List.filter_eq_nil_iff] at h
    exact h a ha (by simpa using hu)

omit [DecidableEq K] in
/-- **C104** for forecasters: an argument that is not in the signature is an error. -/
theorem C104_forecasters (f : Forecaster) (check : PyDict (PVal K O) → PyM Unit)
    {args : PyDict (PVal K O)} {n : String} (hn : n ∈ args.map Prod.fst)
    (hu : n ∉ (f.cls check).sig.names) : (f.cls check).call args = .error .typeError := by
  apply call_unknown _ hn hu
  cases f <;> rfl

/-- **C104** for effects and the flat trend; the piecewise trends accept any argument
(`C104_trends_refuted`). -/
theorem C104_effects_partial (d : DefaultPriors O) (check : PyDict (PVal K O) → PyM Unit)
    {c : PyClass (PVal K O)}
    (hc : c = linearCtor d.normal ∨ c = logCtor d.gamma ∨ c = hillCtor d.gamma d.halfNormal ∨
      c = fourierCtor ∨ c = liftCtor check ∨ c = flatCtor ∨ c = expandCtor)
    {args : PyDict (PVal K O)} {n : String} (hn : n ∈ args.map Prod.fst) (hu : n ∉ c.sig.names) :
    c.call args = .error .typeError := by
  apply call_unknown _ hn hu
  rcases hc with rfl | rfl | rfl | rfl | rfl | rfl | rfl <;> rfl

omit [DecidableEq K] in
theorem mapM_bindParam_missing {V : Type} {args : PyDict V} {q : String × Option V} (hd : q.2 = none)
    (hm : q.1 ∉ args.map Prod.fst) (l : List (String × Option V)) (hq : q ∈ l) :
    l.mapM (bindParam args) = .error .typeError := by
  have hget : PyDict.get? args q.1 = none := lookup_of_not_mem hm
  induction l with
  | nil => cases hq
  | cons a l ih =>
    rw [List.mapM_cons]
    rcases List.mem_cons.1 hq with rfl | h
    · have : bindParam args q = .error .typeError := by
        unfold bindParam
        rw [hget, hd]
      rw [this]
      rfl
    · cases ha : bindParam args a with
      | error e =>
        have : e = .typeError := by
          unfold bindParam at ha
          split at ha
          · cases ha
          · split at ha
            · cases ha
            · cases ha
              rfl
        rw [this]
        rfl
      | ok b =>
        rw [ih h]
        rfl

omit [DecidableEq K] in
/-- **C104** for left out arguments: constructing an object of any class without an argument that has
no default is a `TypeError`, whatever else is passed. -/
theorem C104_missing {V : Type} (c : PyClass V) {args : PyDict V} {n : String}
    (hn : (n, none) ∈ c.sig.params) (hm : n ∉ args.map Prod.fst) :
    c.call args = .error .typeError := by
  unfold PyClass.call bindArgs
  simp only
  split
  · rfl
  · rw [mapM_bindParam_missing (q := (n, none)) rfl hm _ hn]
    rfl

/-- `LinearFourierSeasonality` has no default for these, the forecasters have defaults for all
arguments. -/
example : ("sp_list", none) ∈ (fourierCtor (K := K) (O := O)).sig.params ∧
    ("fourier_terms_list", none) ∈ (fourierCtor (K := K) (O := O)).sig.params ∧
    ("freq", none) ∈ (fourierCtor (K := K) (O := O)).sig.params := by
  simp [fourierCtor]

/-- The full claim for one class. -/
def RejectsUnknown (c : PyClass (PVal K O)) (documented : List String) : Prop :=
  ∀ args n, n ∈ args.map Prod.fst → n ∉ documented → ∃ e, c.call args = .error e

/-- The arguments of the piecewise trends in their documentation
(`effects/trend/piecewise.py` 39-53, 452-468). -/
def piecewiseDocumented : List String := ["changepoint_interval", "changepoint_range",
  "changepoint_prior_scale", "offset_prior_scale", "squeeze_if_single_series",
  "remove_seasonality_before_suggesting_initial_vals"]

omit [DecidableEq K] in
theorem filter_get? {d : PyDict (PVal K O)} {q : String → Bool} {n : String} (hn : q n = true) :
    PyDict.get? (d.filter fun a => q a.1) n = PyDict.get? d n := by
  induction d with
  | nil => rfl
  | cons a l ih =>
    obtain ⟨k, v⟩ := a
    by_cases hk : k = n
    · subst hk
      rw [List.filter_cons_of_pos (by simpa using hn)]
      simp [PyDict.get?]
    · by_cases hm : q k = true
      · rw [List.filter_cons_of_pos (by simpa using hm)]
        simp only [PyDict.get?, if_neg hk]
        exact ih
      · rw [List.filter_cons_of_neg (by simpa using hm)]
        simp only [PyDict.get?, if_neg hk]
        exact ih

omit [DecidableEq K] in
/-- **C104** for the piecewise linear trend: an undocumented argument is ignored. -/
theorem C104_piecewise_ignored (args : PyDict (PVal K O)) :
    (piecewiseCtor (K := K) (O := O)).call args
      = piecewiseCtor.call (args.filter fun a => a.1 ∈ piecewiseDocumented) := by
  unfold PyClass.call bindArgs
  have hv : (piecewiseCtor (K := K) (O := O)).sig.varKw = true := rfl
  simp only [hv, Bool.true_eq_false, false_and, if_false]
  have hm : (piecewiseCtor (K := K) (O := O)).sig.params.mapM (bindParam args)
      = (piecewiseCtor (K := K) (O := O)).sig.params.mapM
        (bindParam (args.filter fun a => a.1 ∈ piecewiseDocumented)) := by
    have : ∀ l : List (String × Option (PVal K O)), (∀ p ∈ l, p.1 ∈ piecewiseDocumented) →
        l.mapM (bindParam args)
          = l.mapM (bindParam (args.filter fun a => a.1 ∈ piecewiseDocumented)) := by
      intro l
      induction l with
      | nil => intro _; rfl
      | cons p l ih =>
        intro hl
        rw [List.mapM_cons, List.mapM_cons, ih fun q hq => hl q (by simp [hq])]
        congr 1
        unfold bindParam
        rw [filter_get? (q := fun n => decide (n ∈ piecewiseDocumented))
          (by simpa using hl p (by simp))]
    apply this
    intro p hp
    exact List.mem_map.2 ⟨p, hp, rfl⟩
  rw [hm]
  cases (piecewiseCtor (K := K) (O := O)).sig.params.mapM
      (bindParam (args.filter fun a => a.1 ∈ piecewiseDocumented)) with
  | error e => rfl
  | ok b => rfl

end

/-! ## Witnesses and examples -/

/-- Arguments of a logistic trend with the deseasonalising switched off. -/
def exLogistic103 : PyDict (PVal ℚ String) :=
  [("changepoint_interval", .num 25), ("changepoint_range", .num (8 / 10)),
   ("changepoint_prior_scale", .num (1 / 1000)),
   ("remove_seasonality_before_suggesting_initial_vals", .bool false)]

/-- **C103** fails for the logistic trend: `clone` loses
`remove_seasonality_before_suggesting_initial_vals=False`. -/
theorem C103_logistic_refuted (x : String) : ¬ ClonesFaithfully (logisticCtor (K := ℚ) x) := by
  intro h
  have hc : ∃ o, (logisticCtor x).call exLogistic103 = .ok o ∧
      setting o "remove_seasonality_before_suggesting_initial_vals" = some (.bool false) :=
    ⟨_, rfl, rfl⟩
  obtain ⟨o, h1, h2⟩ := hc
  obtain ⟨o', h3, -, h4, -⟩ := C103_logistic_clone x h1
  rw [h _ _ h1] at h3
  rw [← Except.ok.inj h3, h2] at h4
  cases h4

/-- **C104** fails for the piecewise trends: a misspelled argument is accepted. -/
theorem C104_trends_refuted (x : String) :
    ¬ RejectsUnknown (piecewiseCtor (K := ℚ) (O := String)) piecewiseDocumented ∧
    ¬ RejectsUnknown (logisticCtor (K := ℚ) x) (piecewiseDocumented ++ ["capacity_prior"]) := by
  constructor
  · intro h
    obtain ⟨e, he⟩ := h (("offset_prior_scal", .num 5) :: exLogistic103) "offset_prior_scal"
      (by simp) (by decide)
    cases he
  · intro h
    obtain ⟨e, he⟩ := h (("offset_prior_scal", .num 5) :: exLogistic103) "offset_prior_scal"
      (by simp) (by decide)
    cases he

/-- A forecaster with three arguments is accepted (no checks), keeps them, and its clone has the
same noise scale. -/
example : ∃ o, ((Forecaster.prophetGamma).cls (K := ℚ) (O := String) fun _ => .ok ()).call
    [("trend", .str "linear"), ("noise_scale", .num 2), ("default_effect", .obj "hill")] = .ok o ∧
    setting o "noise_scale" = some (.num 2) ∧ setting o "trend" = some (.str "linear") ∧
    setting o "default_effect" = some (.obj "hill") ∧ setting o "mcmc_chains" = some (.num 4) :=
  ⟨_, rfl, rfl, rfl, rfl, rfl⟩

example : ∃ o, ((Forecaster.hierarchicalProphet).cls (K := ℚ) (O := String) fun _ => .ok ()).call
    [("shared_features", .list [.str "x"])] = .ok o ∧
    setting o "shared_features" = some (.list [.str "x"]) :=
  ⟨_, rfl, rfl⟩

example : ∃ o, (PlainClass.fourier.cls (K := ℚ) (O := String) fun _ => .ok ()).call
    [("sp_list", .list [.num 7]), ("fourier_terms_list", .list [.num 3]), ("freq", .str "D")]
      = .ok o ∧ setting o "freq" = some (.str "D") :=
  ⟨_, rfl, rfl⟩

/-- The distributions of the examples, by name. -/
def exPriors103 : DefaultPriors String := ⟨"Normal(0, 0.1)", "Gamma(1, 1)", "HalfNormal(10)", "cap"⟩

example : ∃ o, (PriorClass.hill.cls (K := ℚ) exPriors103).call
    [("effect_mode", .str "additive"), ("slope_prior", .obj "Gamma(2, 1)")] = .ok o ∧
    setting o "slope_prior" = some (.obj "Gamma(2, 1)") ∧
    setting o "half_max_prior" = some (.obj "Gamma(1, 1)") :=
  ⟨_, rfl, rfl, rfl⟩

example : ∃ o, (PriorClass.logistic.cls (K := ℚ) exPriors103).call
    (exLogistic103.take 3) = .ok o ∧ ∀ n ∈ ["squeeze_if_single_series",
      "remove_seasonality_before_suggesting_initial_vals"],
      PyDict.get? (exLogistic103.take 3) n = none ∨
        PyDict.get? (exLogistic103.take 3) n = some (.bool true) := by
  refine ⟨_, rfl, ?_⟩
  intro n hn
  simp only [List.mem_cons, List.not_mem_nil, or_false] at hn
  rcases hn with rfl | rfl <;> exact Or.inl rfl

example : "noise_scal" ∉ ((Forecaster.prophet).cls (K := ℚ) (O := String) fun _ => .ok ()).sig.names := by
  show "noise_scal" ∉ subclassNames
  decide

end PV
