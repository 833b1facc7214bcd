# Formal model of prophetverse 0.4.1: design

Source modelled: `/repo/src/prophetverse` (read as text, never executed).
Formalisation: Lean 4 (4.33.0) with single Mathlib modules, in `/verif/lean`.

## Method

* Every Python function that a property depends on becomes one total Lean
  function, with a comment citing file and lines and the simplifications made.
* Exceptions are values: functions that can raise return `Except PyErr α`.
* Numbers: arithmetic without `exp`/`log`/powers is modelled over an arbitrary
  linearly ordered field `K` (instances: `ℚ`, computable, used in the examples,
  and `ℝ`); `exp`, `log`, real powers over Mathlib's `ℝ`. Floating point rounding,
  overflow and float32 precision are NOT modelled.
* Data frames are lists of rows carrying series id (tuple of labels), time and a
  value per column; arrays are numpy-like row-major buffers with a shape.
* Random draws are inputs: a numpyro model is a function of the values of its
  sample sites; inference is an arbitrary function (uninterpreted) of the data.
* Property theorems are in `Verif/Props/*.lean`, stated against small
  specifications that do not use the helpers of the model; helper lemmas are
  elsewhere. Next to each theorem an `example` shows that the hypotheses are
  satisfiable on a non-trivial input.
* Properties that the code violates keep their full English statement in
  `properties.jsonl`; the violation is proved (`..._refuted`, a concrete witness
  on the model of the real code), and the true part is proved under explicit
  side conditions (`..._partial`).

## Trusted base

* Lean's kernel; axioms `propext`, `Classical.choice`, `Quot.sound` only.
* The correspondence between Python source and Lean definitions (by reading; the
  cited lines are next to each definition).
* The contracts assumed for third-party code, listed below.

### Not modelled
* floating point, JAX tracing/jit, device placement;
* numpyro inference (SVI, NUTS, Predictive) - arbitrary functions; C85, C86 and C90 are about the
  density they are run on, not about what they find;
* sktime's input checks and conversions (assumed: single target column, no NaN in y; the
  checks on the horizon are in `Model/Horizon.lean`), sktime `Detrender`, `FourierFeatures`,
  feature transformers - arbitrary functions of the frame;
* plotting, arviz, logging, `get_test_params`, docstrings.

### Contracts assumed for third-party code

| code | contract used |
|------|---------------|
| sktime `BaseForecaster.fit` | resets the forecaster first; rejects missing values in `y`; hands `_fit` one target column; each series of `y`, `X` is in time order (the order of the series is not constrained) |
| sktime `ForecastingHorizon` | rejects empty and repeated values, sorts them; step k is the k-th date after the cutoff (`Model/Horizon.lean`; elsewhere the horizon is the resulting list of dates) |
| sktime `predict`, `predict_quantiles` | raise if the forecaster is not fitted; the other prediction methods do not check |
| sktime `update` | adds the new rows to `self._y` and `self._X` (a row for every label of either, the new value where there is one); refits on everything if `update_params`, else leaves the fit alone (C105) |
| sktime `Aggregator` | as documented (`Model/Aggregate.lean`); which single-child aggregates are removed is an arbitrary predicate |
| sktime transformers | arbitrary functions of frames with a fitted state; `fit` forgets earlier fits (used in C64 only) |
| sktime `Detrender` | arbitrary function; hypotheses on it are explicit in the theorems |
| sktime `FourierFeatures` | arbitrary functions with explicit hypotheses (C31, `C84_value`, `C84_panel`, `C78_fourier`); for `C84_seasonal*` and `C78_fourier_shift` the contract `fourierFeatures` (`Model/FourierFeatures.lean`): steps counted from the first training date of the series, sine and cosine of each frequency, repeated frequencies dropped, at most half a cycle per step |
| pandas | `loc`, `groupby`, `sort_index`, `reindex`, `concat`, label lookups with `KeyError` on missing labels; row orders as stated next to each definition |
| numpy / jax.numpy | row-major reshape, transpose, broadcasting, `matmul` on the last axis (`Model/Tensor.lean`, `Model/Broadcast.lean`) |
| `re` | the subset in `Model/Regex.lean`; the matcher is proved equal to a relational semantics |
| numpyro | a model is a function of its sample sites; SVI, NUTS, `Predictive` are deterministic functions of key, settings and arguments (`Model/Engine.lean`); a trace refuses a second random variable of the same name and lets other sites overwrite (`Model/Trace.lean`) |
| sktime `Detrender()` (C89) | residuals of a least squares line with intercept, per series and column, over the position of the dates in the calendar; elsewhere an arbitrary function |
| numpyro log densities (C85, C86, C90) | the log density of a model is the sum over its sample statements of the textbook log density (`Model/Density.lean`, `Model/PanelDensity.lean`); `MultivariateNormal(scale_tril=S)` solves with `S`; the density of `LKJCholesky` is an arbitrary function; a plate that is not subsampled adds no factor; a site has as many values as its distribution; SVI with `AutoDelta` and NUTS use this density |
| `copy.deepcopy` / `clone()` | a new object with the same constructor arguments; for C103: `get_params` reads the names of the signature without `**kwargs` as attributes, `clone` calls the class with them, `set_params` sets attributes and calls `__init__` again |

### What is modelled, by source file

| file in `/repo/src/prophetverse` | Lean module(s) |
|---|---|
| `sktime/base.py` (scaling, forecasts, effects fitting, parameters) | `Scaling`, `PredictFrames`, `Forecast`, `FitEffects`, `Config`, `World`, `Vectorize`, `Horizon`, `Update`, `Variants`, `Introspect` |
| `sktime/univariate.py` | `UnivariateData`, `Config`, `World`, `Variants` |
| `sktime/multivariate.py` | `MultivariateData`, `PredictFrames`, `Aggregate`, `Config`, `World`, `Update` |
| `sktime/seasonality.py` | `Config` |
| `sktime/_expand_column_per_level.py` | `Expand`, `Regex` |
| `effects/base.py` | `EffectBase` |
| `effects/linear.py`, `log.py`, `hill.py` | `Effects`, `CurveEffects`, `Defaults` |
| `effects/lift_experiment.py` | `Lift`, `LiftEffect` (as one of the effects of a forecaster) |
| `effects/fourier.py` | `Fourier`, `FourierFeatures`, `AnyEffect` (statements), `Defaults` |
| `effects/trend/*.py` | `Trend`, `Logistic`, `TrendEffects`, `Detrend`, `Defaults` |
| `models.py`, `distributions.py` | `Mean`, `Likelihood`, `Multivariate`, `Trace`, `Density`, `PanelDensity` |
| `engine.py` | `Engine`, `EngineSettings` |
| `utils/frame_to_array.py`, `utils/multiindex.py`, `utils/regex.py`, `utils/algebric_operations.py` | `FrameToArray`, `TimeArrays`, `Trend` (`daysOfNs`), `MultiIndex`, `Regex`, `Effects` |

The constructors of all these classes, at the level of argument and attribute names, are also in
`Params`.

Not modelled within these files: plots and traces (`engine.py`), `optimizer`
classes and their schedules (settings are opaque values), the numeric content of
the LKJ prior (the correlation matrix is an input; hypothesis: positive definite
with unit diagonal), `logger.py`.

## Properties

For every property: what is modelled, how it is proved, what is missing. `Cxx_*`
theorems are in `lean/Verif/Props`. Exact axioms per theorem: `AXIOMS.md`.

| id | model | proof | missing, or false of the code |
|----|-------|-------|-------------------------------|
| C01 | `Scaling`: inference of the scale, division, multiplication | case analysis on the kind of scale, field algebra, induction over rows; `C01_user_table` reads it on the table of the user | - |
| C02 | same | characterisation of acceptance (iff) | false: an all-zero single series and every `int` scale raise `AttributeError` |
| C03 | same | maximum over a list | - |
| C04 | `Scaling`, `Forecast`, `PredictFrames` | the scaled target is literally the same frame; the remainder is an arbitrary function of it | identically zero series excluded (`C04_zero_series_refuted`) |
| C05 | same, `Likelihood` | case on the likelihood | - |
| C06, C07, C09 | `Tensor`, `PredictFrames` | row-major index arithmetic for all shapes; sorting by a permutation argument | - |
| C08 | `PredictFrames` (quantile of a sample) | sorted lists, linear interpolation, monotone by order statistics | - |
| C10 | `Aggregate`, `PredictFrames` | induction over levels, grouping lemmas; `C10_labels_distinct` | - |
| C11 | `PredictFrames` | index arithmetic | false for `obs` of the multivariate model (time axis before series axis) |
| C12 | same | index arithmetic | false for scale other than 1: samples are not rescaled |
| C13 | `Mean`, `Likelihood`, `PredictFrames` | sums over effects commute with the mean over draws | false for negative binomial with scale other than 1 |
| C14 | `PredictFrames` | concatenation of blocks | false: labels of the series are lost |
| C15-C18 | `FitEffects`, `EffectBase` | induction over the effect list; ordered dictionaries | - |
| C19, C20 | `EffectBase`, `FrameToArray` | selection and grouping lemmas | - |
| C21 | same, `Mean`, `PredictFrames`, `MultivariateData` | the shape of the mean is wrong, so either broadcasting or filing fails | - |
| C22-C24 | `Mean`, `EffectBase`; constructors with named arguments `Params`, seasonality with any mode `SeasonalMode` | induction over the effect list, broadcasting lemmas; case analysis of the constructors | - |
| C25 | `World` (univariate and hierarchical forecasters, mixed) | invariant over all histories | - |
| C26 | `World` | simulation between histories with and without the other forecasters' calls | false: trend objects and feature transformers are not cloned |
| C27 | `Effects` | real analysis | false at input 0, where the code returns `max_effect` |
| C28, C29 | `Effects` | real analysis, finite sums | - |
| C30 | `Lift` | case analysis per horizon date | - |
| C31 | `Fourier` | state machine | false: refit after several series on one; unfitted `transform` raises the wrong class |
| C32, C33 | `Trend` | algebra over an ordered field | false within one second (`C32_subsecond_refuted`) |
| C34, C35 | `Trend` | induction on the changepoint list | C35 false for fractions 0 and 1 |
| C36 | `Trend` | ordered field | false before a changepoint below 1 |
| C37, C38 | `Trend` | sums over lists, block masks | - |
| C39 | `Trend` | arithmetic | false for panels |
| C40, C41 | `Logistic` | real analysis | C41 false for a series when another one starts at 0 |
| C42 | `Trend` | algebra | false: the suggested rate has the wrong sign and is not used |
| C43 | `Trend` | lengths of concatenations | - |
| C44, C45 | `Likelihood` | real analysis, Gamma integrals (Mathlib) | - |
| C46 | `Multivariate` | Mathlib matrices | false: standard deviations enter squared |
| C47 | `Engine`, `World` | case analysis | - (remark below) |
| C48 | `Expand` | induction over columns and series | - |
| C49, C50 | `Expand`, `Regex` | injectivity of joins, regex semantics | false for prefixes / special characters / separators / names that are no valid regular expression |
| C51 | `Expand` | permutation invariance | false for the order of the columns |
| C52, C53 | `MultiIndex`, `FrameToArray`, `Aggregate` | list lemmas | - |
| C54 | `MultiIndex` | products of level lists | false for hierarchies that are not crossed, and for unused level values |
| C55 | `MultivariateData`, `FrameToArray` | sorted frames with the same labels are equal | false if `X` lists the series in another order |
| C56-C58 | `Regex` | matcher = relational semantics; induction on the name | false for special characters, final newline, empty list |
| C59-C62 | `Config` | decision procedures | - |
| C63-C65 | `World` | induction over histories, simulation | C64 assumes user transformers forget |
| C66 | `UnivariateData` | filtering is idempotent, induction over effects | - |
| C68 | `Multivariate`, `MultivariateData` | index arithmetic; the flag and the layout of the array come from the number of bottom series (`Props/ObsLayout`) | - |
| C69 | `SameBottom` | the aggregation depends only on the bottom rows up to permutation; congruence of every later step | trends and effects that ignore the scale in `fit` (`C69_builtin`) |
| C70 | `UnivariateData`, `MultivariateData` | `loc` on sorted times = filtering; the tables built by the fit and predict paths are equal | without `X` it is proved for panels that are crossed and balanced (`C70_hierarchical_noX_partial`) and for panels of any form if the trend reads nothing from the table, like the piecewise trends (`C70_ragged_partial`); with the flat trend on a panel where some combination of labels is no series it is false, because the table for predicting has rows for all combinations (`C70_flat_ragged_refuted`) |
| C71 | `UnivariateData`, `EffectBase`, `Mean`, trends and effects | closed form of the mean as a column of values per date (`Spec/Pointwise`), induction over effects | single series; Fourier effects satisfy `PointwiseEffect` by C84 |
| C67 | `UnivariateData`, `MultivariateData` | same computation on the transformed table; the trend ignores columns (`C67_builtin_trends`) | false for a univariate forecaster if the transformer drops or renames a column |
| C72 | same, `Expand`, `EffectBase` | the trend remembers every column, so its selection fails | hierarchical: columns named `*_dup_*` by the user excluded |
| C73 | `EffectBase`, `FitEffects`, `MultivariateData` | case analysis, induction over effects | - |
| C74 | `MultivariateData`, `Expand`, `FrameToArray`, `EffectBase`, `Mean`, `Trend` | closed form of the mean per (series, date) cell (`Spec/PanelPointwise`), lifted through expansion and bottom selection | row-wise effects and piecewise linear or logistic trends; a feature transformer must itself work cell by cell; `X` lists the series in the order of the target (else C55); Fourier effects satisfy `PanelEffect` by C84 |
| C75 | `Trace` | names under a scope determine scope and name; induction over the recorded sites | false for reserved names, for names with `/`, and for lift experiments added twice |
| C76 | `Mean`, `Effects`, `Trend`, `Logistic`, `Lift` | two runs side by side, induction over effects | names without `/`; custom effects must not read other effects |
| C77 | `Vectorize`, `MultiIndex` | selection of rows by label equals the rows of the series; induction over series | that `fit` trains one clone per series on its own rows is sktime's contract, modelled and not proved |
| C78 | `World`, `Trend`, `TrendEffects`, `Fourier` | simulation: two worlds on different dates side by side, induction over histories of calls; C33 for the trends | time stamps shifted by whole seconds, stretched only if on whole seconds (C32); dates as exact numbers |
| C79 | `Trend` | the predicted values as a function of the trend time; real analysis | false between the training steps: at a changepoint the level jumps by the coefficient; on the grid it is a continuous function with its kinks one step before the changepoints |
| C80 | `Horizon`, `World`, `Vectorize` | the two horizons resolve to the same list of dates; sorting commutes with the calendar; per-series version from C77 | - |
| C81 | `Variants`, and `Params` for the constructors as called by `get_params`/`set_params`/`clone` | equality of the attributes set by the constructors; `C81_objects_partial`: the objects a subclass call and the base class call build have the same attributes for every argument list that names the trend; `C81_objects_no_trend`: without one the object is the one built with a logistic trend | false when `trend` is left out: the documented default is linear, the classes use logistic |
| C82 | `Variants`, `EngineSettings`, `World` | case analysis; relational argument on the value semantics of C64/C65 | false for names beginning with `optax` |
| C83 | `Introspect` | which attributes exist after `fit` and `predict` | false for `var_names` and `plot_trace` |
| C84 | `FourierFeatures`, `Fourier`, `Expand`, `Effects` | the effect reduced to the inner linear effect on a table of features of the date (`PointwiseEffect`, `PanelEffect`); sums of roots of unity | sktime's transformer by contract |
| C85 | `Density` (sample statements of the univariate models), `Mean`, `Likelihood` | the density split by statement, induction over the effects, closed form of the mean from C71 | univariate models (C90 for the hierarchical one); numpyro's densities by contract; `C85_defined`: the density exists for all parameters of the right sizes; `C85_distributions`: the log densities are those of Mathlib's distributions (negative binomial as a Gamma mixture of Poisson distributions); `C85_names`: every site takes the values of its own name |
| C86 | same | both orders give the same mean (C23) and a permutation of the prior terms | effects and priors that read at most the trend; one series and panels (`C86_panel*`) |
| C87 | `Defaults` (constructors), `Density` | case analysis of the constructors; densities compared at a point | partial: false for the prior of `LinearEffect` and the offset prior scale of `PiecewiseLogisticTrend` |
| C88 | `World`, `PredictFrames`, `Aggregate` | inversion of `fit` and of the prediction methods (`Lemmas/AfterFit`), then C06, C07, C08, C09 and C10 | scaling of the training data is stated for a single series; for hierarchies see C05 |
| C89 | `Detrend` (contract of sktime's `Detrender`), `Trend` | normal equations imply least squares; linearity of the fitted line; `series_to_tensor` slice by slice | linear trend for the offset; the pattern theorem for both trends |
| C90 | `PanelDensity` (sample statements of `multivariate_model`), `Multivariate`, `Mean` | the density split by statement, closed form of the mean from C74, triangular factor = textbook normal density (determinant and inverse of a product) | the covariance is the one the code uses (see C46); effects and trends computed cell by cell; numpyro's densities by contract; `C90_fitted` states it for what `fit` produces from any regular panel |
| C91 | `World`, `Engine` | run of `fit` taken apart (`fit_heap`), case analysis of the engine | numpyro's functions are arbitrary; predictions directly after `fit` (C25, C26, C64 for what other calls in between can change) |
| C92 | `World`, `MultivariateData` | both runs unfolded to the point where `X` is replaced | hierarchical forecaster only; the univariate one uses the rows of such a table |
| C93 | `TimeArrays`, `FrameToArray`, `Trend` | from C53 for both arrays; integer division | dates are nanoseconds (a `DatetimeIndex` in other units is not modelled); distances below a second are lost |
| C94 | `Density`, `Trend`, `Effects` (through the log posterior formula of C85) | every term is concave; the quadratic terms give the gap; triangular system for the changepoint coefficients | existence (`C94_exists`) also with multiplicative effects; uniqueness and concavity only for additive ones; the noise level is fixed.  `C94_usual_*`: the same with seasonalities |
| C95 | `AnyEffect` (trend, Fourier and linear objects in one forecaster), `FourierFeatures`, `UnivariateData`, `Density` | objects with attributes and data in larger types behave as the originals; then the pointwise forecast and the log posterior of C71 and C85, with the seasonality of C84; column names of the waves are distinct, so the waves can be written out | `C95_defined`: the log density is defined for all parameters of the right sizes; one series; the seasonality uses the contract of sktime's `FourierFeatures` given in `Model/FourierFeatures.lean` |
| C96 | `Piecewise` (fit, suggested line, detrending), `UnivariateData`, `Density`, `Scaling` | tensor operations commute with `v ↦ ε v + a` (`Lemmas/Natural`); a simulation of the two fits (`ExRel`), of the mean loop and of the log density; the map of parameters is invertible, so best fits correspond; `maxAbs` ignores signs | one series; normal likelihood; mirrored: priors of additive linear effects are even; raised: no multiplicative effect.  Raising with the automatic scale changes the scale, so this is stated for a given scale |
| C97 | as C95 | the log posterior of C95 depends on the coefficients of an effect through its contributions at the training dates and their prior only; a coefficient is replaced, or two are moved to their mean, and the best fit compared | one series; `C97_unseen` normal priors, `C97_shared` strictly log-concave priors |
| C98 | as C95, with `Piecewise` (fit), `BaseEffect` | every step of the two data preparations is shown to succeed: changepoint limit positive and suggested line defined for two dates (C34), Fourier features present, all columns found; the mean loop runs for all parameters of the right sizes (`UsualDefined`); best parameters from `C94_usual_exists` | one series; all columns of the raw `X` must survive the feature transformer (see the remark on `KeyError` below); trends that remove seasonality before they suggest initial values (`trend="linear"`, `"logistic"`) and those that do not (`"linear_raw"`) are both covered here and in the properties that build on this one (`Spec/Starts`) |
| C99 | as C95, with `Density` | the log posterior in coordinates (`usual_coords`); the squared error of a linear model that misses the data stays above some δ > 0 (closed range), so the log posterior tends to -∞ at both ends of the noise level and a maximum exists; an exact fit gives -n log σ → ∞ ; counts (`C99_counts`): a probability is at most 1, and that of a positive count tends to 0 with the concentration (`Lemmas/NegBinomial`) | one series, normal or negative binomial likelihood; for the normal one existence for additive effects only (multiplicative: `C99_unbounded` and `C99_constant` only); Gamma: C130 |
| C100 | as C99 | the density in coordinates is bounded by a constant times the product of the prior densities when the squared error is at least δ > 0 (`proper_density`, Fubini); near an exact fit it is at least c·σ⁻ⁿ on boxes of radius σ, whose volume σᴺ (N < n parameters) makes the integral over σ diverge (`improper_density`, Tonelli) ; counts (`C100_counts`): the likelihood is at most 1; panels (`C100_panel`): at given noise the likelihood is bounded | one series, or a panel at given noise levels and correlation; normal likelihood with additive effects, or negative binomial (Gamma: C130); exact fits with at least as many parameters as dates are left open |
| C101 | as C95; two forecasters that differ in one prior scale (`rescaled`, `withTrendScale`) | the log posteriors differ in the weight of one penalty only (`effect_split`, `trend_split`); adding the two optimality inequalities gives the order (`penalty_monotone`); comparing with the parameters without the effect (without rate changes) gives the bound of the vanishing part | one series; the fits themselves are any maximisers, their existence is C94, C98 and C99; the vanishing part for likelihoods bounded at the noise level (normal and counts; Gamma by `C130_bounded`) |
| C102 | `Likelihood`, `Density`, `PanelDensity` | integrals of the densities (Gaussian and Gamma integrals, binomial series with real exponent, change of variables for the triangular scale matrix); this also checks the contract assumed for numpyro's densities: a wrong normalisation would not give mass one | numpyro's own code is not read |
| C103 | `Params`: constructors as binding of keyword arguments to signatures, `super().__init__` chains, attributes by name; `get_params`, `clone`, `set_params` of scikit-base | the attributes hold every bound argument under its name, so reading the signature's names gives arguments that build the same attributes (`clone_of`); setting an attribute is setting the argument (`getParams_set`) | refuted for `PiecewiseLogisticTrend` (`C103_logistic_refuted`, `C103_logistic_clone`); positional arguments, nested parameters (C62) and copying of values are not modelled |
| C104 | as C103 | a name outside the signature is a `TypeError` unless there is a `**kwargs`; a left out argument without default is one for every class | refuted for the two piecewise trends, which ignore unknown names (`C104_trends_refuted`, `C104_piecewise_ignored`) |
| C105 | `Update`: a session is the `World` plus the training dates and the exogenous variables seen; `update` with and without refitting | induction over the updates (`updates_sim`): only the remembered target changes, which enters the labels, the number of levels and the design without `X`; refitting by C65; other forecasters (`C105_others`): induction over programs with the reference invariant of C26 | refuted for steps of `HierarchicalProphet` (`C105_refuted`; `C105_hierarchical` says exactly what is returned); univariate forecasters on panels are updated series by series by sktime and not treated here |
| C106 | the `Horizon`/`Forecast` pipeline of C71: `Predicts` is one prediction with given parameters, `X` and horizon; `logClass`, `hillClass` of `CurveEffects` | closed form of C71 at one date for both calls, subtracted | `C106_what_if` for all row-wise effects; removal by zero columns proved for linear and log (`C106_removed_partial`, `C106_log_removed_partial`), refuted for Hill (`C106_hill_refuted`) |
| C107 | as C106 | each curve is monotone in each column (`Curve.rows_mono`), the mean is a sum; `C107_panel` from the closed form C115 (`own_le`: the model columns of the series are ordered as its values) | `C107_monotone_partial` for Hill inputs that are positive; refuted from zero (`C106_hill_refuted`, `C27_monotone_refuted`) |
| C108 | as C106 | concavity of `log(1+rx)` and of `x^s/(h^s+x^s)` for `s ≤ 1` (`Curve.rows_concave`), summed | `C108_diminishing`; positive inputs for Hill |
| C109 | the model of C95; a model is a list of summands (feature, mode, prior), `modelTerms` | posterior and forecast of C95 as sums over summands; permutations of summands carry coefficients along (`perm_zip`, `split_coefs`); columns are taken exactly once (`columns_once`) | `C109_order` (names and order), `C109_grouping` (columns), both from `C109_same`; one series; full |
| C110 | as C109 | matching summands may differ by a factor (`Match`); log posteriors differ by a constant | `C110_units`; `normalLP_units` shows that the rescaled normal prior qualifies |
| C111 | `predictSamples`, `predictPoint` on random draws; `DrawnFrom` (Spec/Draws): law with density `exp log_prob` of the model's own `ObsDist` | the point forecast is scale × average of the draws of its own series and date (C06, C07); moments of the draws from C102; variance of sums of pairwise independent variables; Chebyshev | independence of draws is a hypothesis (numpyro's `Predictive` uses a fresh key per draw); `C111_point` for all forecasters, `C111_normal`, `C111_map_normal`, `C111_map_gamma`, `C111_map_counts` for one series; full |
| C112 | as C08, C88 | order statistics of the sorted samples; `IsQuantile` is monotone in the probability | `C112_forecast`; full |
| C113 | `hierFitData`, `hierPredictData`, `computeMean`, `panelLogJoint`; `RegularPanel`, `RegularExog` (Spec/RegularPanel) | every step of fit and predict succeeds: aggregation and selection of bottom series, column expansion, array of the target, trend, effects; shapes by C74 and C68 | linear trend and linear effects; features transformer does nothing; a single series needs the setting that keeps its axis (else C86); `C113_fits`, `C113_density`, `C113_forecasts`; full |
| C114 | `panelLogJoint` after `hierFitData`; `BestPanel` | C90_fitted writes the log posterior after `fit` as priors + noise + Gaussian log likelihood; existence from continuity and coercivity in finitely many coordinates (Lemmas/SiteCoords); uniqueness from strict concavity of the priors and of the log likelihood in the means (positive definite covariance) | linear trend and linear effects; noise levels and correlation held fixed; several bottom series; `C114_exists`, `C114_concave`, `C114_unique`; full |
| C115 | `hierFitData`, `hierPredictData`, `computeMean`; spec `OwnCopies` | closed form of the mean cell by cell (C74) with the cells of the expanded table (C48, C49) | linear trend and linear effects, plain column names (`PlainNames`; C49 and C50 show what happens otherwise); `C115_closed_form`, `C115_what_if`; full |
| C116 | `hierFitData`, `multivariateModel`, `computeMean`; spec `SameHistory` | exchange argument: swapping the parameters of the common series between two best fits cannot improve either, and strict concavity (C114) then makes them equal | linear trend and linear effects, priors of the trend with a scalar scale, plain column names; noise levels and correlation held at the given values (the correlation factor being the identity); `C116_separate`, `C116_forecasts`; full |
| C117 | `uniFitData`, `piecewiseFit`, `piecewisePredict`, `logisticPredict`; spec `Extrapolates`, `dayStep` | past the last changepoint the trend is a line (C37); its logistic image by monotonicity and limits of the exponential | real numbers; linear, log and Hill effects; a scalar interval and range; `C117_line`, `C117_saturates`, `C117_range_past_history`; full |
| C118 | `uniFitData`, `uniPredictData`, `computeMean`, `logRaw`, `hillRaw`, `AddMul.call`, `suggestLogistic`; spec `CurveSetup`, `CurveTraining`, `CurveSizes` | each step of fit, transform and model is shown to succeed; the reshape to the trend's shape succeeds exactly for one column | the targets of a logistic trend are those left by the detrending, if any (`trendTargets`); real numbers, so overflow is not considered; `C118_fits`, `C118_one_column`, `C118_forecasts`; full |
| C119 | `withTests`, `liftClass`, `uniFitData`, `Lift.predict`, `Lift.priors`, `logJoint`; spec `LiftTest.pairs`, `testLog`, `mismatch`, `IsBest` | the fits with and without tests side by side (simulation over fit, transform and the loop over effects), then a penalty argument for best fits | real numbers; a scalar scale; tables with one column, a flat index and distinct dates; tested effects must have columns, since the wrapper is never skipped; best fits exist for a piecewise linear trend with seasonalities and linear effects (`C119_exists`, `C119_usual`), for Hill and log effects this is assumed; `C119_terms`, `C119_precision`, `C119_closer`, `C119_limit`, `C119_outside`, `C119_forecast`, `C119_works`; full |
| C120 | `MultivariateData`, `PanelDensity`, `Trend`, `Effects` (through C90 and C115) | two fits with the same series and dates share times, changepoints and columns; offsets of the prior move with the series; quadratic form and Laplace terms are even | the moves are of the scaled target; C96 says what scaling does to them |
| C121 | `Density`, `Trend`, `Effects`, `FourierFeatures`, `UnivariateData` (through C95) | the mean is affine in every single coefficient, so moving one entry of a best fit gives a quadratic (or quadratic and absolute value) that is nowhere positive; derivative in the noise level | the target is the scaled one; normal likelihood only; existence of best fits: C99 |
| C122 | as C90 and C113 | with the identity as correlation factor the log density of the panel is a sum over the series, and the term of an exactly fitted series is -2·T·log σ → ∞; zero coefficients and the constant as offset fit a constant series exactly | at least two series; the density of the correlation prior is an arbitrary real-valued function; when a best fit exists for given noise: C114 |
| C123 | as C94 and C95; `fitEffects` and the changepoints depend on the dates of the target only, the location of the offset is its first value (C42), or for the default trend the least squares line at the first date, which moves by no more than the data (`line_change`) | first-order condition of two concave maximisation problems with the same penalty: moving from one maximiser towards the other gains nothing, adding both inequalities cancels the priors | additive effects, normal likelihood, fixed units and noise level; `C123_centre` and `C123_centre_lipschitz` for any two centres of the offset's prior, `C123_line` for the default trend, the statement on outliers (`C123_outlier`) for `linear_raw` (by default the units are the largest absolute value, which an outlier changes) |
| C124 | `hierFitData`/`uniFitData`, `hierPredictData`/`uniPredictData`, `panelLogJoint`/`logJoint`, `predictSamplesHier`/`predictSamples` | both computations step by step; scoped sites contain a slash, so effects cannot read the noise level; best fits correspond through the renaming of one site | no feature transformer; X has the dates of y (the univariate forecaster drops other rows before fitting the effects, the hierarchical one keeps them) |
| C125 | as C95 and C99 | the log posterior is a constant minus the penalised sum of squares over twice the squared noise level (`density_penalised`); the bounds compare with the constant fit | normal priors of effects, normal likelihood, given noise level |
| C126 | samples, scaling and quantiles as in C06 and C08, laws of observations as in C111 | quantiles are monotone, equivariant and 1-Lipschitz in the sample (`Lemmas/QuantileOrder`), hence measurable; the draws are an affine image of standard normal numbers | draws mutually independent and drawn from the normal likelihood at common parameters (what numpyro's `Predictive` and `AutoDelta` provide) |
| C127 | samples and scaling as in C06, laws of observations as in C111, trends past the history as in C117 | mean of the sample variance of independent numbers (`spread_mean`), variance of points on lines (`spreadOf_line`) | draws pairwise independent and drawn from the likelihood at their parameters; growth for the normal likelihood, one series, additive effects and equal regressors |
| C128 | forecaster and density as in C95, best fits as in C101, prices as in C125 | the parameters of the smaller model with zeros for everything new (`grown`), and what `_fit_effects` gives to each effect; `C128_panel` for panels (`grownPanel`, any order of the expanded columns) from C131 | same trend parameters, target and scale; the squared error alone may grow within the bound given |
| C129 | forecaster and density as in C95, best fits as in C101 | the stationarity conditions of C121 for two features | one series; normal observations; normal priors centred at zero |
| C130 | forecaster and density as in C95, Gamma observations with the bent mean | bounds of the Gamma function from both sides (`Lemmas/GammaBounds`): the log density is at most that of a normal distribution plus a term linear in 1/noise, and at the mean at least minus the log of the noise; compactness as in C99 | one series; over all noise levels the targets must exceed 1e-5 and the effects must be additive |
| C131 | panel and density as in C90, C113 and C114 | the log posterior is a constant minus half the weighed error and the price (`panel_penalised`); the bounds compare with the centres of the priors (`centreSites`) | given noise levels and correlation; normal priors of effects; at least two series |
| C132 | as C125 and C131 | on the segment from the best fit to other parameters the penalised error is at least quadratic (`sum_err_mix`, `weighed_mix`, `gap_of_mix`) | given noise level; normal priors of effects; additive effects; the changes of slope have a Laplace prior and are bounded only through the means they cause |
| C133 | panel and density as in C113, C114 and C131 | both fits have the same design (`panel_same_design`); the curvature bound of C132 for each of the two fits, with the other as competitor, added and polarised (`polar_sum`, `polar_offsets`) | given noise levels and correlation; normal priors of effects; additive effects; at least two series; changes of slope are bounded only through the means they cause; `C133_centre` and `C133_centre_lipschitz` for any centres of the offsets' priors, `C133_line` for the default trend, `C133_smooth`, `C133_lipschitz` and `C133_later` for `linear_raw` |
| C134 | densities as in C125 and C131 | both optima of the penalised problem compared (`weighing_mono`); a penalty with vanishing weight leaves the greatest lower bound of the error (`vanishing_penalty`); the bounds of C125 and C131 squeeze every parameter to its centre, and the mean is continuous in them (`mean_vanishes`); scaling all noise levels by r scales the covariance by r⁴ (`weighedError_scaled`) | given noise levels; normal priors of effects; `C134_line` and `C134_panel_line` name the limit for the default trend; existence of the best fits is C101/C114; the least error is a greatest lower bound, which need not be reached |
| C135 | panel and density as in C113, C114 and C131 | moving one entry of one site changes the weighed error by a linear and a quadratic part (`weighedError_move`) and the price explicitly; the sum has its minimum at zero (`slope_zero`, `slope_abs`); the changepoint coefficients of the series are pieces of one flat vector (`splitLengths_modify`) | given noise levels and correlation; normal priors of effects; at least two series |
| C136 | panel as in C113 and C115 | `C34_fitted` bounds the changepoints of every series by the range limit, which is at most the trend time of the last date; `trendAt_diff` and `C37_last_slope` give the line, `C115_closed_form` the forecasts; logistic panels (`C136_saturates`): the same line inside the logistic curve with the capacity of the series (`logistic_cells`, `logistic_line`) | linear trend and linear effects; changepoint range positive and at most the number of training dates minus one |
| C137 | panel as in C113 and C135 | `C135_effect` with what the columns of the expanded table hold (`hier_own`, `column_value`): the pull at a coefficient is linear in the regressor; `C115_what_if` for the forecasts | as C135; column names as in C115 |
| C138 | frames of C06/C10, density of one date of C102 | samples of an aggregate as weighted sums of the draws (C10, C09, C06); moments of a vector with the density of C102; bilinearity of the covariance; the averages of C127 | draws of different numbers are independent; the covariance of the noise is the one the code uses (C46), not the documented one |
| C139 | wrapper of C30/C119, frames of C16 | preparing the data with tests as in C119_works but without columns; the wrapped effect gets an array without entries, which does not have the size of the trend | linear effects are not covered: their coefficients would be drawn in a plate of size 0, which the model has no rule for |
| C140 | world of C26/C91, data preparation of C16/C27 | simulation of the object level by the value level (`fit_sim`, `fit_predict_value`), then unfolding the preparation once | the inference library is a parameter, as everywhere |
| C141 | C140, `predict_all_sites` of C13 | rows of C13 with the draws of C140; the stacked sites average to the mean over the runs | that the library runs the model once per parameter and stacks the recorded sites is a hypothesis (`RunsModel`) |
| C142 | C141 with the row-wise effects and pointwise trends of C71/C106/C117 | the recorded columns of C106 inserted into the average of C141; the line from C117's `far_line`, the limits of a logistic trend (`C142_saturates`) from C117's and averaging over finitely many parameters | `RunsModel` as in C141; the exogenous variables are given to predict and contain the dates asked for |
| C143 | C140 for panels, `predict_all_sites` of C11 | as C141, with the cells (bottom series × dates) of C11; the closed form (`C143_table`) inserts the recorded sites of C74/C115, the line (`C143_line`) C136's `panel_far_line`; `C143_fits` from C113 and C02 | `RunsModel` as in C141 |
| C144 | C140/C141 for the forecaster of C95 (trend, Fourier and linear effects), C98, C125 | `usual_sites` gives the recorded columns in closed form, C141 averages them; the optimality of C125 is carried to units of `y`; `C144_panel` does the same for panels from C143's table and C131's weighed errors | that the optimiser finds the best parameters is a hypothesis (`BestIn`, `BestPanel`), as in C125 and C131; `RunsModel` and `RecordsSites` describe `numpyro.infer.Predictive` |
| C145 | the fit and predict data of C113 and the joint density of C114, for two tables related by `InUnits` | `units_same`: both fits learn the same trend, scales and column lists; `meanOf_units` cancels the factor in each effect, `C145_best` transports competitors by `toUnits`; `scaleCols_given` shows that converted tables are accepted and `normalLP_factor` that normal priors correspond | real arithmetic; sharing one prior scale between different units is not claimed to be harmless (it is not) |

## Disagreements between the code and its documented behaviour

All are proved on the model (`_refuted`), at the lines cited by the definitions.

1. C02 - an identically zero single series, and any `int` passed as `scale`, make
   `fit` fail with `AttributeError` (`.loc` of an int).
2. C11 - `predict_all_sites` of the multivariate forecaster files `obs` under wrong
   series and times.
3. C12 - `predict_all_sites_samples` is in model units, `predict_all_sites` in units of `y`.
4. C13 - negative binomial: sites are not multiplied by the scale, the mean is.
5. C14 - extra prediction methods on a panel return frames with repeated labels.
6. C26 - two forecasters given the same trend object (or the same feature
   transformer) overwrite each other's fit.
7. C27 - the Hill effect of zero spend is `max_effect`.
8. C31 - refitting `LinearFourierSeasonality` from a panel to a single series fails.
9. C32 - sub-second indexes give a division by zero.
10. C35 - `changepoint_range` 0 means everything, 1 means the first point.
11. C36 - with changepoints below 1 the design is not 0 before the changepoint.
12. C39 - the flat trend of a panel is one column over all series.
13. C41, C42 - the suggested priors: a zero start of one series changes the others;
    the sign of the linear rate is inverted, and it is not used.
14. C46 - variances of the multivariate observation are squared.
15. C49-C51 - names of expanded columns collide, prefixes match, and the column order
    follows hash order.
16. C54, C55 - reindexing invents series; the order of series in `X` matters.
17. C56-C58 - column names are not escaped in `exact` and `starts_with`.
18. C67 - univariate forecasters: a feature transformer that drops or renames a column
    of `X` makes `fit` raise `KeyError`, because the trend is fitted before the
    transformation and asks for the old columns after it.
19. C75 - no effect name is rejected, but some break the model: a name of a trend
    parameter (`offset`, `capacity`, ...) silently removes that parameter from the fit;
    `obs`, `noise_scale`, `std_observation`, `corr_matrix` make every fit fail with
    `AssertionError`; `data` (one series) and `time` (hierarchy) hide the contribution;
    `a` and `a/coefs` clash; `LiftExperimentLikelihood` around itself always fails.
20. C79 - the piecewise linear trend jumps by the coefficient at every changepoint (after the
    first step); visible when forecasting at a finer frequency than that of the training data.
21. C81 - `Prophet`, `ProphetGamma` and `ProphetNegBinomial` document `trend="linear"` as the
    default and use `"logistic"`.
22. C82 - every `optimizer_name` that begins with `optax` gives Adam with a cosine schedule, and
    without `optimizer_kwargs` a `TypeError`.
23. C83 - `var_names` is always empty and `plot_trace` always raises `AttributeError`.
24. C87 - `LinearEffect` documents the default prior Normal(0, 1) and uses Normal(0, 0.1);
    `PiecewiseLogisticTrend` documents `offset_prior_scale=0.1` and uses 10. (Its default capacity
    prior, documented as "HalfNormal with loc=1.05 and scale=1", is a HalfNormal(0.2) shifted by
    1.05; the wording is ambiguous, so this is not counted.)
25. C103 - `PiecewiseLogisticTrend` takes the documented `squeeze_if_single_series` and
    `remove_seasonality_before_suggesting_initial_vals` through `**kwargs`, so `get_params` does not
    list them and a clone of the trend (or of a forecaster that has it as `trend`) has them back
    at `True`.
26. C104 - `PiecewiseLinearTrend` and `PiecewiseLogisticTrend` accept any keyword argument, so a
    misspelled setting is ignored.
27. C105 - after `update(y, update_params=False)` (also inside `update_predict` and
    `evaluate(strategy="no-update_params")`) `HierarchicalProphet` evaluates steps of the horizon
    from the end of the training data but labels them from the end of the new data: the forecast
    labelled with one date has the numbers of an earlier one.
28. C106, C107 - as a consequence of 7, setting the column of a Hill effect to zero raises the
    forecast to what unlimited spend would give instead of removing the effect.
29. C70 - without `X`, `predict` of the hierarchical forecaster builds a row for every
    combination of labels; on a panel where some combination is no series, the flat trend
    is evaluated on more rows than it was trained on.

Remarks (not refutations of a stated property): after a NaN loss
`predict_samples` and the `predict_all_sites` methods do not check that the
forecaster is fitted and answer from the diverged parameters; `num_samples` of the
MAP engine is always 1000; a list for `changepoint_interval` is accepted by the
trends but never by a forecaster (C59); for a constant target, and for every target
that some parameters reproduce exactly, the MAP objective is unbounded (C99; in a panel one such
series suffices, C122) and,
with more dates than parameters, the posterior of the MCMC engine is improper (C100);
for counts a larger noise scale means less spread, not more (C102); a misspelled `effect_mode` of
`LinearFourierSeasonality` is noticed in `fit` only (C22); the documentation of
`utils.regex` mentions `ends_with` and `contains`, which do not exist.

## Testing the theorems against wrong programs

`seeded/LOG.jsonl` has one line per wrong program tried: the definition edited, the
edit, the claim it breaks, the theorems that failed (proofs no longer accepted, all
modules recompiled) and the theorems tightened as a consequence.
