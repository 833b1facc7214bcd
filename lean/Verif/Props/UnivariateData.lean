import Mathlib.Algebra.Order.Ring.Rat
import Verif.Model.UnivariateData
import Verif.Lemmas.EffectData

/-!
# C66: rows of `X` outside the requested times are not used
-/

namespace PV
variable {S Y Sc τ V D K : Type}

theorem filterTimes_idem [DecidableEq τ] (x : Frame String τ V) (ts : List τ) :
    (x.filterTimes ts).filterTimes ts = x.filterTimes ts := by
  simp [Frame.filterTimes, List.filter_filter]

theorem locTimes_filterTimes [DecidableEq τ] (x : Frame String τ V) (ts : List τ) :
    (x.filterTimes ts).locTimes ts = x.locTimes ts := by
  unfold Frame.locTimes
  have hc : (∀ t ∈ ts, ∃ r ∈ (x.filterTimes ts).rows, r.time = t) ↔
      ∀ t ∈ ts, ∃ r ∈ x.rows, r.time = t := by
    constructor
    · intro h t ht
      obtain ⟨r, hr, e⟩ := h t ht
      exact ⟨r, (List.mem_filter.1 hr).1, e⟩
    · intro h t ht
      obtain ⟨r, hr, e⟩ := h t ht
      exact ⟨r, List.mem_filter.2 ⟨hr, by simp [e, ht]⟩, e⟩
  by_cases h : ∀ t ∈ ts, ∃ r ∈ x.rows, r.time = t
  · rw [if_pos h, if_pos (hc.2 h)]
    congr 1
    unfold Frame.filterTimes
    congr 1
    have : ∀ t ∈ ts, (x.rows.filter fun r => r.time ∈ ts).filter (fun r => r.time = t)
        = x.rows.filter fun r => r.time = t := by
      intro t ht
      rw [List.filter_filter]
      apply List.filter_congr
      intro r _
      by_cases e : r.time = t
      · simp [e, ht]
      · simp [e]
    simp only [List.flatMap_def]
    rw [List.map_congr_left this]
  · rw [if_neg h, if_neg (mt hc.1 h)]

/-- A row-wise feature transformer: leaving rows out of the input leaves them out of the
output.  `feature_transformer=None` is one. -/
def RowWise [DecidableEq τ] (F : Frame String τ V → PyM (Frame String τ V)) : Prop :=
  ∀ x ts, F (x.filterTimes ts) = (F x).map fun z => z.filterTimes ts

/-- A trend whose own `_fit` does not read `X`: all the trends shipped with the package. -/
def Hooks.FitIgnoresX (h : Hooks S Y Sc τ V D) : Prop :=
  ∀ s y X X' sc, h.fit s y X sc = h.fit s y X' sc

theorem baseFit_ignoresX [DecidableEq τ] {h : Hooks S Y Sc τ V D} (hi : h.FitIgnoresX)
    (st : BaseState × S) (y : Y) (x x' : Frame String τ V) (sc : Sc)
    (hn : x.nlevels = x'.nlevels) (hc : x.cols = x'.cols) (hr : x.rows = [] ↔ x'.rows = []) :
    baseFit h st y (some x) sc = baseFit h st y (some x') sc := by
  unfold baseFit
  have he : x.isEmpty = x'.isEmpty := by
    unfold Frame.isEmpty
    rw [hc]
    congr 1
    cases hx : x.rows <;> cases hx' : x'.rows <;> simp_all
  simp only [Option.mem_def, Option.some.injEq, exists_eq_left', hn, he, hc,
    hi st.2 y (some x) (some x') sc]

/-- **C66**: fitting with `X` and with the rows of `X` at the training times is the same, in
everything the model is given, in the fitted objects, in the warnings and in the errors. -/
theorem C66_fit [DecidableEq τ] [Zero V] [Div K] (cfg : UniConfig S Sc τ V D K)
    (y : Frame String τ K) (X : Frame String τ V) (hy : y.rows ≠ [])
    (hF : RowWise cfg.fitFeatures) (htrend : cfg.trend.cls.toHooks.FitIgnoresX)
    (hrows : ∀ z, cfg.fitFeatures X = .ok z → X.rows.map Row.time = z.rows.map Row.time) :
    uniFitData cfg y (some X) = uniFitData cfg y (some (X.filterTimes y.times)) := by
  have hloc : ∀ z : Frame String τ V, (z.filterTimes y.times).locTimes y.times
      = z.locTimes y.times := fun z => locTimes_filterTimes z _
  by_cases hcov : ∀ t ∈ y.times, ∃ r ∈ X.rows, r.time = t
  · have hfit : ∀ yt sc, cfg.trend.fit yt (some X) sc
        = cfg.trend.fit yt (some (X.filterTimes y.times)) sc := by
      intro yt sc
      unfold EffectObj.fit
      rw [baseFit_ignoresX htrend]
      · rfl
      · rfl
      · obtain ⟨r0, l, hyr⟩ := List.exists_cons_of_ne_nil hy
        have ht : r0.time ∈ y.times := by simp [Frame.times, hyr]
        obtain ⟨r, hr, e⟩ := hcov _ ht
        have h1 : X.rows ≠ [] := List.ne_nil_of_mem hr
        have h2 : (X.filterTimes y.times).rows ≠ [] :=
          List.ne_nil_of_mem (List.mem_filter.2 ⟨hr, by simpa [e] using ht⟩)
        simp [h1, h2]
    unfold uniFitData
    simp only [Option.getD_some, hfit, hF X y.times]
    cases cfg.fitFeatures X with
    | error e => rfl
    | ok z => simp only [Except.map, bind, Except.bind, hloc]
  · have key : ∀ X' : Frame String τ V, X'.nlevels = X.nlevels →
        (X' = X ∨ X' = X.filterTimes y.times) →
        uniFitData cfg y (some X') =
          (cfg.trend.fit (if cfg.discrete then y.mapVals fun _ v => v / cfg.scale else y)
            (some X) cfg.unitScale >>= fun _ => cfg.fitFeatures X >>= fun _ =>
              .error .keyError) := by
      intro X' hn hX'
      have hl : ∀ z, cfg.fitFeatures X = .ok z → z.locTimes y.times = .error .keyError := by
        intro z hz
        unfold Frame.locTimes
        rw [if_neg]
        intro h
        apply hcov
        intro t ht
        obtain ⟨r, hr, e⟩ := h t ht
        have : t ∈ z.rows.map Row.time := List.mem_map.2 ⟨r, hr, e⟩
        rw [← hrows z hz] at this
        obtain ⟨r', hr', e'⟩ := List.mem_map.1 this
        exact ⟨r', hr', e'⟩
      have h1 : ∀ yt sc, (∃ e, cfg.trend.fit yt (some X) sc = .error e ∧
            cfg.trend.fit yt (some X') sc = .error e) ∨
          ((∃ a, cfg.trend.fit yt (some X) sc = .ok a) ∧
            ∃ a, cfg.trend.fit yt (some X') sc = .ok a) := by
        intro yt sc
        unfold EffectObj.fit baseFit
        simp only [Option.mem_def, Option.some.injEq, exists_eq_left', hn,
          htrend cfg.trend.st.2 yt (some X') (some X) sc]
        split
        · left; exact ⟨_, rfl, rfl⟩
        · cases cfg.trend.cls.fit cfg.trend.st.2 yt (some X) sc with
          | error e => left; exact ⟨e, rfl, rfl⟩
          | ok s => right; exact ⟨⟨_, rfl⟩, ⟨_, rfl⟩⟩
      have h2 : ∀ {β : Type} (k : Frame String τ V → PyM β),
          (cfg.fitFeatures X' >>= fun z => z.locTimes y.times >>= k)
          = cfg.fitFeatures X >>= fun _ => .error .keyError := by
        intro β k
        cases hz : cfg.fitFeatures X with
        | error e =>
          rcases hX' with rfl | rfl
          · rw [hz]; rfl
          · rw [hF, hz]; rfl
        | ok z =>
          rcases hX' with rfl | rfl
          · rw [hz]
            simp only [bind, Except.bind, hl z hz]
          · rw [hF, hz]
            simp only [bind, Except.bind, Except.map, hloc, hl z hz]
      unfold uniFitData
      simp only [Option.getD_some]
      rcases h1 (if cfg.discrete then y.mapVals fun _ v => v / cfg.scale else y) cfg.unitScale
        with ⟨e, he, he'⟩ | ⟨⟨a, ha⟩, ⟨a', ha'⟩⟩
      · rw [he, he']; rfl
      · rw [ha, ha']
        exact h2 _
    rw [key X rfl (Or.inl rfl), key (X.filterTimes y.times) rfl (Or.inr rfl)]

theorem baseTransform_filterTimes [DecidableEq τ] {h : Hooks S Y Sc τ V D}
    (hf : h.tags.filterFh = true) (st : BaseState × S) (x : Frame String τ V) (fh : List τ) :
    baseTransform h st (some (x.filterTimes fh)) fh = baseTransform h st (some x) fh := by
  unfold baseTransform
  cases hc : st.1.inputCols <;> simp only [hf, if_true, filterTimes_idem]

theorem transformEffects_filterTimes [DecidableEq τ] (z : Frame String τ V) {fh : List τ}
    {l : List (FittedEffect S Y Sc τ V D K)} (hl : ∀ e ∈ l, e.effect.cls.tags.filterFh = true) :
    transformEffects l (z.filterTimes fh) fh = transformEffects l z fh := by
  unfold transformEffects
  suffices ∀ (out : PyDict (Transformed D)),
      l.foldlM (transformStep (z.filterTimes fh) fh) out = l.foldlM (transformStep z fh) out from
    this []
  induction l with
  | nil => intros; rfl
  | cons e l ih =>
    intro out
    have h1 : transformStep (z.filterTimes fh) fh out e = transformStep z fh out e := by
      unfold transformStep
      congr 1
      funext b
      split
      · rfl
      · have hsel : (z.filterTimes fh).select e.cols
            = (z.select e.cols).map fun w => w.filterTimes fh := by
          unfold Frame.select
          show (if ∀ c ∈ e.cols, c ∈ z.cols then _ else _) = _
          split <;> rfl
        rw [hsel]
        cases z.select e.cols with
        | error e => rfl
        | ok w =>
          simp only [Except.map, bind, Except.bind, EffectObj.transform,
            baseTransform_filterTimes (hl e (by simp))]
    rw [List.foldlM_cons, List.foldlM_cons, h1]
    congr 1
    funext o
    exact ih (fun e' he' => hl e' (by simp [he'])) o

/-- **C66**: predicting with `X` and with the rows of `X` at the horizon is the same, for
effects and trends that keep the default filter tag (all the built-in ones). -/
theorem C66_predict [DecidableEq τ] [Zero V] (cfg : UniConfig S Sc τ V D K)
    (m : UniFit S Sc τ V D K) (X : Frame String τ V) (fh : List τ)
    (hF : RowWise cfg.features) (htrend : m.trend.cls.tags.filterFh = true)
    (heff : ∀ e ∈ m.fitted, e.effect.cls.tags.filterFh = true) :
    uniPredictData cfg m (some X) fh = uniPredictData cfg m (some (X.filterTimes fh)) fh := by
  unfold uniPredictData
  simp only [Option.getD_some, hF X fh]
  cases cfg.features X with
  | error e => rfl
  | ok z =>
    simp only [Except.map, bind, Except.bind, EffectObj.transform,
      baseTransform_filterTimes htrend, transformEffects_filterTimes z heff]

/-- The hook of a trend that ignores `X` when fitted and the filter of all built-in tags. -/
theorem C66_builtin : (defaultHooks trendTags : Hooks Unit Y Sc τ V (Tensor V)).FitIgnoresX ∧
    (∀ t ∈ [baseTags, linearTags, fourierTags, liftTags, trendTags], t.filterFh = true) ∧
    ∀ [DecidableEq τ], RowWise (Except.ok : Frame String τ V → PyM (Frame String τ V)) :=
  ⟨fun _ _ _ _ _ => rfl, by decide, fun _ _ => rfl⟩

/-! Example: training times 1, 2; `X` also covers time 3, or lacks time 2. -/

def exCls66 : EffectClass Unit (Frame String Int ℚ) Unit Int ℚ (Tensor ℚ) ℚ :=
  { defaultHooks trendTags with call := fun _ => fun _ _ _ => .ok ⟨[2, 1], [0, 0]⟩ }
def exObj66 : EffectObj Unit (Frame String Int ℚ) Unit Int ℚ (Tensor ℚ) ℚ :=
  ⟨exCls66, (.init, ()), (.init, ())⟩
def exCfg66 : UniConfig Unit Unit Int ℚ (Tensor ℚ) ℚ where
  compile := fun _ => .ok fun _ => true
  trend := exObj66
  effects := []
  default := ⟨{ exCls66 with tags := linearTags }, (.init, ()), (.init, ())⟩
  fitFeatures := .ok
  features := .ok
  discrete := false
  unitScale := ()
  effectScale := ()
  scale := 1
def exY66 : Frame String Int ℚ := ⟨1, ["y"], [⟨[], 1, fun _ => 5⟩, ⟨[], 2, fun _ => 6⟩]⟩
def exX66 : Frame String Int ℚ :=
  ⟨1, ["a"], [⟨[], 1, fun _ => 10⟩, ⟨[], 2, fun _ => 20⟩, ⟨[], 3, fun _ => 30⟩]⟩

example : ((uniFitData exCfg66 exY66 (some exX66)).toOption.map fun m => m.data)
    = some [("exogenous_variables_effect", .data ⟨[2, 1], [10, 20]⟩)] := by decide +kernel
example : uniFitData exCfg66 exY66 (some exX66)
    = uniFitData exCfg66 exY66 (some (exX66.filterTimes [1, 2])) :=
  C66_fit exCfg66 exY66 exX66 (by simp [exY66]) (fun _ _ => rfl) (fun _ _ _ _ _ => rfl)
    (fun z h => by cases h; rfl)
/-- A training time missing from `X` is a `KeyError`. -/
example : (uniFitData exCfg66 exY66 (some (exX66.filterTimes [1, 3]))).map (fun m => m.data)
    = .error .keyError := by decide +kernel

end PV
