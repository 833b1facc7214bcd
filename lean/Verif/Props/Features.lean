import Verif.Model.TrendEffects
import Verif.Props.EffectData
import Verif.Props.InSample

/-!
# C67: a feature transformer is the same as transforming `X` beforehand;
# C72: a column used in `fit` and missing from `X` in `predict` is an error
-/

set_option linter.unusedSectionVars false

namespace PV

section
variable {S Y Sc τ V D K : Type} [DecidableEq τ]

/-- A trend that does not look at the columns of `X`: all the trends of the package
(`C67_builtin_trends`). -/
structure EffectClass.ColumnBlind (c : EffectClass S Y Sc τ V D K) : Prop where
  fit : ∀ s y X X' sc, c.fit s y X sc = c.fit s y X' sc
  transform : ∀ s (x : Frame String τ V) cs fh,
    c.transform s { x with cols := cs } fh = c.transform s x fh
  call : ∀ b b' s, c.call (b, s) = c.call (b', s)
  never_skipped : c.tags.skipIfNoMatch = false
  multivariate : c.tags.supportsMultivariate = true

/-- The columns an effect remembers after `fit`. -/
def remembered : Option (Frame String τ V) → List String
  | none => []
  | some x => if x.isEmpty then [] else x.cols

theorem mem_remembered {X : Option (Frame String τ V)} {c : String} (h : c ∈ remembered X) :
    ∃ x ∈ X, c ∈ x.cols := by
  cases X with
  | none => simp [remembered] at h
  | some x =>
    simp only [remembered] at h
    split at h
    · cases h
    · exact ⟨x, rfl, h⟩

/-- The state of an effect after `fit`, whatever `X` was. -/
theorem fit_state {e e' : EffectObj S Y Sc τ V D K} {y : Y} {X : Option (Frame String τ V)}
    {sc : Sc} (h : e.fit y X sc = .ok e') :
    e'.cls = e.cls ∧ e'.st.1 = ⟨some (remembered X), some true⟩ ∧
      e.cls.fit e.st.2 y X sc = .ok e'.st.2 := by
  unfold EffectObj.fit baseFit at h
  split at h
  · cases h
  · cases hs : e.cls.fit e.st.2 y X sc with
    | error er => simp [hs, bind, Except.bind] at h
    | ok s =>
      simp only [hs, bind, Except.bind, pure, Except.pure, Except.ok.injEq] at h
      subst h
      cases X <;> exact ⟨rfl, rfl, rfl⟩

/-- A trend that does not look at columns is fitted in the same way on any `X`. -/
theorem fit_columnBlind {e e' : EffectObj S Y Sc τ V D K} (hb : e.cls.ColumnBlind) {y : Y}
    {X X' : Option (Frame String τ V)} {sc : Sc} (h : e.fit y X sc = .ok e') :
    ∃ e'', e.fit y X' sc = .ok e'' ∧ e''.cls = e'.cls ∧ e''.st.2 = e'.st.2 ∧
      e''.st.1 = ⟨some (remembered X'), some true⟩ := by
  obtain ⟨h1, -, h3⟩ := fit_state h
  have : ∃ e'', e.fit y X' sc = .ok e'' := by
    unfold EffectObj.fit baseFit
    rw [if_neg (by rw [hb.multivariate]; simp), hb.fit _ _ X' X, h3]
    exact ⟨_, rfl⟩
  obtain ⟨e'', h4⟩ := this
  obtain ⟨h5, h6, h7⟩ := fit_state h4
  refine ⟨e'', h4, by rw [h5, h1], ?_, h6⟩
  rw [hb.fit _ _ X' X, h3] at h7
  exact (Except.ok.inj h7).symm

/-- Trend data does not depend on which columns the trend remembers, if they are all there. -/
theorem transform_columnBlind {t t' : EffectObj S Y Sc τ V D K} {cs cs' : List String}
    (hb : t.cls.ColumnBlind) (hc : t'.cls = t.cls) (hs : t'.st.2 = t.st.2)
    (h1 : t.st.1 = ⟨some cs, some true⟩) (h2 : t'.st.1 = ⟨some cs', some true⟩)
    {x : Frame String τ V} (hx : ∀ c ∈ cs, c ∈ x.cols) (hx' : ∀ c ∈ cs', c ∈ x.cols)
    (fh : List τ) : t'.transform (some x) fh = t.transform (some x) fh := by
  unfold EffectObj.transform
  rw [baseTransform_eq _ h1, baseTransform_eq _ h2, if_pos hx, if_pos hx', hc, hb.never_skipped]
  simp only [Bool.and_false, Bool.false_eq_true, if_false]
  congr 1
  rw [hs, hb.transform t.st.2 _ cs, hb.transform t.st.2 _ cs']

end

section
variable {S Sc τ V D K : Type} [LinearOrder τ]

/-- The same forecaster without feature transformer. -/
def UniConfig.plain (cfg : UniConfig S Sc τ V D K) : UniConfig S Sc τ V D K :=
  { cfg with fitFeatures := .ok, features := .ok }

/-- **C67** (partial: the transformer must keep the columns of `X`, see
`C67_dropped_column_refuted`), univariate forecasters: a feature transformer gives the model the
same data as transforming `X` beforehand, in `fit` and in `predict`, and leaves behind the same
effects, warnings and trend. -/
theorem C67_univariate_partial [Zero V] [Div K] {cfg : UniConfig S Sc τ V D K}
    {y : Frame String τ K} {X : Option (Frame String τ V)} {z : Frame String τ V}
    (hfit : cfg.fitFeatures (X.getD (Frame.ofIndex y.times)) = .ok z)
    (hkeep : ∀ x ∈ X, ∀ c ∈ x.cols, c ∈ z.cols) (hb : cfg.trend.cls.ColumnBlind)
    {m : UniFit S Sc τ V D K} (h : uniFitData cfg y X = .ok m) :
    ∃ m', uniFitData cfg.plain y (some z) = .ok m' ∧
      m'.trend.cls.call m'.trend.st = m.trend.cls.call m.trend.st ∧
      m'.trendData = m.trendData ∧ m'.data = m.data ∧ m'.objs = m.objs ∧ m'.yArray = m.yArray ∧
      m'.warnings = m.warnings ∧
      ∀ X' fh z', cfg.features (X'.getD (Frame.ofIndex fh)) = .ok z' →
        (∀ x ∈ X, ∀ c ∈ x.cols, c ∈ z'.cols) → (∀ c ∈ z.cols, c ∈ z'.cols) →
        uniPredictData cfg m X' fh = uniPredictData cfg.plain m' (some z') fh := by
  unfold uniFitData at h
  simp only [bind, Except.bind, hfit] at h
  split at h
  · cases h
  rename_i tr htr
  split at h
  · cases h
  rename_i x hx
  have hxc : x.cols = z.cols := by
    unfold Frame.locTimes at hx
    split at hx
    · cases hx; rfl
    · cases hx
  split at h
  · cases h
  rename_i td htd
  split at h
  · cases h
  rename_i fw hfw
  split at h
  · cases h
  rename_i data hdata
  split at h
  · cases h
  rename_i objs hobjs
  cases h
  obtain ⟨hc, hst, -⟩ := fit_state htr
  obtain ⟨tr', htr', hc', hs', hst'⟩ := fit_columnBlind (X' := some z) hb htr
  have hb' : tr.cls.ColumnBlind := hc ▸ hb
  have hr1 : ∀ c ∈ remembered X, c ∈ z.cols := by
    intro c hcm
    obtain ⟨x, hx, hcx⟩ := mem_remembered hcm
    exact hkeep x hx c hcx
  have hr2 : ∀ c ∈ remembered (some z), c ∈ z.cols := by
    intro c hcm
    obtain ⟨x, hx, hcx⟩ := mem_remembered hcm
    cases hx; exact hcx
  have htd' : tr'.transform (some x) (unique y.times) = .ok td := by
    rw [transform_columnBlind hb' hc' hs' hst hst' (by rw [hxc]; exact hr1) (by rw [hxc]; exact hr2),
      htd]
  refine ⟨{ trend := tr', fitted := fw.1, warnings := fw.2, trendData := td, data := data,
            objs := objs, yArray := _ }, ?_, ?_, rfl, rfl, rfl, rfl, rfl, ?_⟩
  · unfold uniFitData UniConfig.plain
    simp only [bind, Except.bind, htr', Option.getD_some, hx, htd', hfw, hdata, hobjs]
    rfl
  · rw [hc']
    have e1 : tr'.st = (tr'.st.1, tr.st.2) := by rw [← hs']
    rw [e1, hb'.call _ tr.st.1]
  · intro X' fh z' hz' k1 k2
    unfold uniPredictData UniConfig.plain
    simp only [bind, Except.bind, hz', Option.getD_some]
    rw [transform_columnBlind hb' hc' hs' hst hst' (x := z')]
    · intro c hcm
      obtain ⟨x, hx, hcx⟩ := mem_remembered hcm
      exact k1 x hx c hcx
    · exact fun c hc => k2 c (hr2 c hc)

/-- **C72**, univariate forecasters: if a column of the `X` given to `fit` is missing from `X` (after
the feature transformer) in `predict`, or `X` is left out, the call raises `KeyError`. -/
theorem C72_univariate [Zero V] [Div K] {cfg : UniConfig S Sc τ V D K} {y : Frame String τ K}
    {X : Frame String τ V} {m : UniFit S Sc τ V D K} (hr : X.rows ≠ [])
    (h : uniFitData cfg y (some X) = .ok m) {c : String} (hc : c ∈ X.cols)
    {X' : Option (Frame String τ V)} {fh : List τ} {x : Frame String τ V}
    (hx : cfg.features (X'.getD (Frame.ofIndex fh)) = .ok x) (hmiss : c ∉ x.cols) :
    uniPredictData cfg m X' fh = .error .keyError := by
  unfold uniFitData at h
  simp only [bind, Except.bind] at h
  split at h
  · cases h
  rename_i tr htr
  split at h
  · cases h
  split at h
  · cases h
  split at h
  · cases h
  split at h
  · cases h
  split at h
  · cases h
  split at h
  · cases h
  cases h
  unfold uniPredictData
  simp only [bind, Except.bind, hx, EffectObj.transform]
  rw [baseTransform_eq _ (effectFit_inputCols hr htr), if_neg, if_neg]
  · exact fun h => hmiss (h c hc)
  · cases hX : X.cols with
    | nil => rw [hX] at hc; cases hc
    | cons a l => simp

/-- **C72**, leaving out `X` in `predict` altogether, without feature transformer. -/
theorem C72_no_X [Zero V] [Div K] {cfg : UniConfig S Sc τ V D K} {y : Frame String τ K}
    {X : Frame String τ V} {m : UniFit S Sc τ V D K} (hr : X.rows ≠ []) (hcols : X.cols ≠ [])
    (h : uniFitData cfg y (some X) = .ok m) (hid : ∀ x, cfg.features x = .ok x) (fh : List τ) :
    uniPredictData cfg m none fh = .error .keyError := by
  obtain ⟨c, hc⟩ := List.exists_mem_of_ne_nil _ hcols
  exact C72_univariate hr h hc (hid _) (by simp [Frame.ofIndex])

end

section
variable {S Sc τ D K : Type} [Field K] [LinearOrder K] [IsStrictOrderedRing K] [LinearOrder τ]

/-- The same hierarchical forecaster without feature transformer. -/
def HierConfig.plain (cfg : HierConfig S Sc τ D K) : HierConfig S Sc τ D K :=
  { cfg with fitFeatures := .ok, features := .ok }

/-- **C67**, hierarchical forecaster: here the transformer may drop columns. -/
theorem C67_hierarchical {cfg : HierConfig S Sc τ D K} {y : Frame String τ K}
    {X x z : Frame String τ K} (hX : X.cols ≠ []) (hx : locBottom X = .ok x)
    (hfit : cfg.fitFeatures x = .ok z) (hz : z.cols ≠ []) (hbot : locBottom z = .ok z) :
    hierFitData cfg y (some X) = hierFitData cfg.plain y (some z) ∧
    ∀ m, hierFitData cfg y (some X) = .ok m → ∀ levels X' x' z' fh, X'.cols ≠ [] →
      locBottom X' = .ok x' → cfg.features x' = .ok z' → z'.cols ≠ [] → locBottom z' = .ok z' →
      z'.times = x'.times →
      hierPredictData cfg m levels y (some X') fh
        = hierPredictData cfg.plain m levels y (some z') fh := by
  constructor
  · unfold hierFitData hierExog exogOr fitExpand HierConfig.plain
    simp only [if_neg hX, if_neg hz, hx, hfit, hbot, bind, Except.bind]
  · intro m hm levels X' x' z' fh hX' hx' hf hz' hb' ht
    have hexp : m.expand ≠ none := by
      unfold hierFitData hierExog exogOr fitExpand at hm
      simp only [if_neg hX, hx, hfit, if_neg hz, bind, Except.bind] at hm
      split at hm
      · cases hm
      split at hm
      · cases hm
      split at hm
      · cases hm
      rename_i ex hex
      split at hex
      · cases hex
      split at hex
      · cases hex
      cases hex
      simp only at hm
      split at hm
      · cases hm
      split at hm
      · cases hm
      split at hm
      · cases hm
      split at hm
      · cases hm
      split at hm
      · cases hm
      cases hm
      simp
    obtain ⟨st, hst⟩ := Option.ne_none_iff_exists'.1 hexp
    unfold hierPredictData predictExog predictExpand HierConfig.plain
    simp only [if_neg hX', if_neg hz', hx', hf, hb', hst, ht, bind, Except.bind]

/-- The expansion and the trend left behind by `fit`. -/
theorem hierFit_parts {cfg : HierConfig S Sc τ D K} {y : Frame String τ K}
    {X x z : Frame String τ K} (hX : X.cols ≠ []) (hx : locBottom X = .ok x)
    (hfit : cfg.fitFeatures x = .ok z) (hz : z.cols ≠ []) {m : HierFit S Sc τ D K}
    (hm : hierFitData cfg y (some X) = .ok m) :
    ∃ st g yB, m.expand = some st ∧
      expandFit cfg.compile cfg.order (nonShared z.cols cfg.shared) z = .ok st ∧
      expandTransform st z = .ok g ∧ cfg.trend.fit yB (some g) cfg.scale = .ok m.trend := by
  unfold hierFitData hierExog exogOr fitExpand at hm
  simp only [if_neg hX, hx, hfit, if_neg hz, bind, Except.bind] at hm
  split at hm
  · cases hm
  split at hm
  · cases hm
  split at hm
  · cases hm
  rename_i ex hex
  split at hex
  · cases hex
  rename_i st hst
  split at hex
  · cases hex
  rename_i g hg
  cases hex
  simp only at hm
  split at hm
  · cases hm
  rename_i tr htr
  split at hm
  · cases hm
  split at hm
  · cases hm
  split at hm
  · cases hm
  split at hm
  · cases hm
  cases hm
  exact ⟨st, g, _, rfl, hst, hg, htr⟩

/-- **C72**, hierarchical forecaster: if a column of the `X` given to `fit` (after the feature
transformer) is missing in `predict`, or `X` is left out, the call raises an error; here `x'` is what
`predict` uses as `X`.  Columns named like the columns the expansion adds are excluded. -/
theorem C72_hierarchical {cfg : HierConfig S Sc τ D K} {y : Frame String τ K}
    {X x z : Frame String τ K} (hX : X.cols ≠ []) (hx : locBottom X = .ok x)
    (hfit : cfg.fitFeatures x = .ok z) (hr : z.rows ≠ []) {m : HierFit S Sc τ D K}
    (hm : hierFitData cfg y (some X) = .ok m) {c : String} (hc : c ∈ z.cols)
    (hdup : ∀ n s, c ≠ colName n s) {levels : List (List String)} {X' : Option (Frame String τ K)}
    {fh : List τ} {x' z' : Frame String τ K} (hx' : predictExog cfg.keep levels y X' fh = .ok x')
    (hf : cfg.features x' = .ok z') (hr' : z'.rows ≠ []) (hmiss : c ∉ z'.cols) :
    hierPredictData cfg m levels y X' fh = .error .assertionError ∨
    hierPredictData cfg m levels y X' fh = .error .valueError ∨
    hierPredictData cfg m levels y X' fh = .error .keyError := by
  obtain ⟨st, g, yB, hst, hef, hg, htr⟩ := hierFit_parts hX hx hfit (by rintro h; simp [h] at hc) hm
  -- what the trend remembers
  have htrend : c ∈ g.cols → ∀ w : Frame String τ K, c ∉ w.cols →
      m.trend.transform (some w) fh = .error .keyError := by
    intro hcg w hw
    have hgr : g.rows ≠ [] := by
      cases hsk : st.skip with
      | true =>
        unfold expandTransform at hg
        rw [if_pos hsk] at hg; cases hg; exact hr
      | false =>
        obtain ⟨-, -, -, -, h, hrows, -⟩ := expandTransform_ok hsk hg
        rw [hrows]; simpa using hr
    unfold EffectObj.transform
    rw [baseTransform_eq _ (effectFit_inputCols hgr htr), if_neg, if_neg]
    · exact fun h => hw (h c hcg)
    · cases hX : g.cols with
      | nil => rw [hX] at hcg; cases hcg
      | cons a l => simp
  unfold hierPredictData predictExpand
  simp only [hx', hst, hf, bind, Except.bind]
  by_cases hfh : ∀ t ∈ fh, t ∈ x'.times
  · right
    simp only [if_pos hfh]
    cases hsk : st.skip with
    | true =>
      have e1 : g = z := by
        unfold expandTransform at hg
        rw [if_pos hsk] at hg; cases hg; rfl
      have e2 : expandTransform st z' = .ok z' := by
        unfold expandTransform
        rw [if_pos hsk]
      rw [e2]
      simp only
      rw [htrend (e1 ▸ hc) z' hmiss]
      exact .inr rfl
    | false =>
      obtain ⟨-, -, hcols, -⟩ := expandTransform_ok hsk hg
      by_cases hmat : c ∈ st.matched
      · by_cases hl : z'.nlevels = 1
        · left
          have e2 : expandTransform st z' = .error .valueError := by
            unfold expandTransform
            simp only [hsk, Bool.false_eq_true, if_false, if_pos hl]
          rw [e2]
        · right
          have e2 : expandTransform st z' = .error .keyError := by
            unfold expandTransform
            simp only [hsk, Bool.false_eq_true, if_false, if_neg hl]
            rw [if_pos ⟨hr', fun h => hmiss (h c hmat)⟩]
          rw [e2]
      · have hcg : c ∈ g.cols := (hcols c).2 ⟨hmat, .inl hc⟩
        cases he : expandTransform st z' with
        | ok w =>
          right
          obtain ⟨-, -, hcols', -⟩ := expandTransform_ok hsk he
          simp only
          rw [htrend hcg w]
          intro hw
          rcases ((hcols' c).1 hw).2 with h | ⟨n, -, s, -, h⟩
          · exact hmiss h
          · exact hdup n s h
        | error er =>
          simp only
          unfold expandTransform at he
          simp only [hsk, Bool.false_eq_true, if_false] at he
          split at he
          · cases he; exact .inl rfl
          · split at he
            · cases he; exact .inr rfl
            · split at he
              · cases he
              · cases he; exact .inr rfl
  · left
    simp only [if_neg hfh]

end

section
variable {K τ V : Type} [Field K] [LinearOrder K] [LinearOrder τ]

/-- The trends of the package do not look at the columns of `X`. -/
theorem C67_builtin_trends :
    (∀ [FloorSemiring K] days suggest predict (p : PiecewiseParams K τ),
      (piecewiseClass (V := V) days suggest predict p).ColumnBlind) ∧
    (flatClass : EffectClass _ (Frame String τ K) (Scale K) τ V _ K).ColumnBlind :=
  ⟨fun _ _ _ _ => ⟨fun _ _ _ _ _ => rfl, fun _ _ _ _ => rfl, fun _ _ _ => rfl, rfl, rfl⟩,
    ⟨fun _ _ _ _ _ => rfl, fun _ _ _ _ => rfl, fun _ _ _ => rfl, rfl, rfl⟩⟩

end

/-! ## Feature transformers that drop columns -/

/-- Doubles the column `a`, under the name `b`, and drops `a`. -/
def exRename67 (x : Frame String Int ℚ) : PyM (Frame String Int ℚ) :=
  .ok ⟨x.nlevels, ["b"], x.rows.map fun r => { r with val := fun _ => 2 * r.val "a" }⟩

/-- Adds the column `b`, twice the column `a`. -/
def exAddCol67 (x : Frame String Int ℚ) : PyM (Frame String Int ℚ) :=
  .ok ⟨x.nlevels, x.cols ++ ["b"],
    x.rows.map fun r => { r with val := fun c => if c = "b" then 2 * r.val "a" else r.val c }⟩

/-- A forecaster with flat trend and default effect and the given feature transformer. -/
def exCfg67 (F : Frame String Int ℚ → PyM (Frame String Int ℚ)) :
    UniConfig (Option ℚ) (Scale ℚ) Int ℚ (Tensor ℚ) ℚ where
  compile := fun _ => .ok fun _ => true
  trend := flatClass.new
  effects := []
  default := (linearClass "additive").new
  fitFeatures := F
  features := F
  discrete := false
  unitScale := .float 1
  effectScale := .float 1
  scale := 1

/-- **C67** is false for a transformer that renames a column: the trend, which does not use `X` at
all, was fitted on the columns before the transformation and then asks for them, so that `fit`
raises `KeyError`; transforming `X` beforehand works. -/
theorem C67_dropped_column_refuted :
    (uniFitData (exCfg67 exRename67) exY66 (some exX66)).map (fun m => m.data) = .error .keyError ∧
    ((exRename67 exX66).bind fun z => (uniFitData (exCfg67 exRename67).plain exY66 (some z)).map
      (fun m => m.data))
      = .ok [("exogenous_variables_effect", .data ⟨[2, 1], [20, 40]⟩)] := by
  constructor <;> decide +kernel

/-- A transformer that adds a column: the hypotheses of `C67_univariate_partial` hold. -/
example : ((uniFitData (exCfg67 exAddCol67) exY66 (some exX66)).toOption.map fun m => m.data)
    = some [("exogenous_variables_effect", .data ⟨[2, 2], [10, 20, 20, 40]⟩)] := by
  decide +kernel
example {m} (h : uniFitData (exCfg67 exAddCol67) exY66 (some exX66) = .ok m) :=
  C67_univariate_partial (X := some exX66) rfl
    (by intro x hx c hc; cases hx; simp [hc]) C67_builtin_trends.2 h

/-- Prediction without the column used in `fit`. -/
example {m} (h : uniFitData (exCfg67 .ok) exY66 (some exX66) = .ok m) :
    uniPredictData (exCfg67 .ok) m none [3, 4] = .error .keyError :=
  C72_no_X (by simp [exX66]) (by simp [exX66]) h (fun _ => rfl) _
example : (uniFitData (exCfg67 .ok) exY66 (some exX66)).toOption.isSome = true := by decide +kernel

/-- Hierarchical: fitted with the shared column `x`, predicting without `X`. -/
example : ((hierFitData exHier exHierY (some exHierX)).bind fun m =>
    (hierPredictData exHier m [["a", "b"]] exHierY none [3]).map fun d => d.2)
      = .error .keyError := by decide +kernel
/-- The same with a column of each series. -/
example : ((hierFitData { exHier with shared := [] } exHierY (some exHierX)).bind fun m =>
    (hierPredictData { exHier with shared := [] } m [["a", "b"]] exHierY none [3]).map fun d => d.2)
      = .error .keyError := by decide +kernel

/-- A transformer of panels that renames the column. -/
def exHierRename (x : Frame String ℤ ℚ) : PyM (Frame String ℤ ℚ) :=
  .ok ⟨x.nlevels, ["b"], x.rows.map fun r => { r with val := fun _ => 2 * r.val "x" }⟩

example : ((hierFitData { exHier with fitFeatures := exHierRename, features := exHierRename }
      exHierY (some exHierX)).toOption.map fun m => m.data)
    = some [("exogenous_variables_effect", .data ⟨[2, 2, 2], [2, 0, 4, 0, 0, 6, 0, 8]⟩)] := by
  decide +kernel

end PV
