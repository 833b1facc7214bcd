import Verif.Props.PanelFit

/-!
# The forecast of a fitted panel, written out (C74, C113)
-/

namespace PV
noncomputable section

variable {τ : Type} [LinearOrder τ]
variable {days : τ → ℝ} {p : PiecewiseParams ℝ τ}
  {cfg : HierConfig (Option (PiecewiseState ℝ τ)) (Scale ℝ) τ (Tensor ℝ) ℝ} {mode : String → String}

/-- The table of regressors at the horizon, with columns per series. -/
theorem hier_table (hV : ValidHier days p cfg) {ss : List (List String)} {ts : List τ}
    {X : Option (Frame String τ ℝ)}
    {m : HierFit (Option (PiecewiseState ℝ τ)) (Scale ℝ) τ (Tensor ℝ) ℝ} {x : Frame String τ ℝ}
    {s : PiecewiseState ℝ τ} (h : HierFitted days p ss ts X m x s) {y₁ : Frame String τ ℝ}
    {levels : List (List String)} {X₁ : Option (Frame String τ ℝ)} {fh : List τ}
    (hX₁ : GivenExog X₁ ss fh) (hsub : ∀ c ∈ givenCols X, c ∈ givenCols X₁)
    {td : Transformed (Tensor ℝ)} {data : PyDict (Transformed (Tensor ℝ))}
    (hp : hierPredictData cfg m levels y₁ X₁ fh = .ok (td, data)) :
    ∃ z, m.trend.transform (some z) fh = .ok td ∧ transformEffects m.fitted z fh = .ok data ∧
      ((givenCols X = [] ∧ x.cols = []) ∨ ∃ st X1, m.expand = some st ∧ st.skip = false ∧ X₁ = some X1 ∧ RegularExog X1 ss fh ∧
        expandTransform st X1.bottomOnly = .ok z ∧ PanelIn z ss fh) := by
  unfold hierPredictData at hp
  simp only [bind, Except.bind] at hp
  split at hp
  · cases hp
  rename_i z0 hz0
  split at hp
  · cases hp
  rename_i z hz
  split at hp
  · cases hp
  rename_i td' h1
  split at hp
  · cases hp
  rename_i data' h2
  cases hp
  refine ⟨z, h1, h2, ?_⟩
  rcases h.exog with ⟨h00, -, h0⟩ | ⟨X0, st, rfl, hr, hst, hsk, hm, hx⟩
  · exact .inl ⟨h00, h0⟩
  · right
    rcases hX₁ with hq | ⟨X1, rfl, hr1⟩
    · obtain ⟨c, hc⟩ := List.exists_mem_of_ne_nil _ hr.columns
      have := hsub c hc
      rw [hq] at this
      cases this
    have hz0' : z0 = X1.bottomOnly := by
      unfold predictExog at hz0
      simp only [if_neg hr1.columns] at hz0
      rw [exog_bottom hr1] at hz0
      cases hz0
      rfl
    subst hz0'
    rw [hst] at hz
    unfold predictExpand at hz
    simp only at hz
    split at hz
    · rw [hV.features] at hz
      simp only [bind, Except.bind] at hz
      obtain ⟨b1, b2⟩ := expandTransform_index hz
      exact ⟨st, X1, hst, hsk, rfl, hr1, hz, hr1.panel.congr b1 b2⟩
    · cases hz

/-- The mean of a fitted panel, cell by cell. -/
theorem hier_mean {m : HierFit (Option (PiecewiseState ℝ τ)) (Scale ℝ) τ (Tensor ℝ) ℝ}
    (hM : ∀ fe ∈ m.fitted, fe.effect.cls = linearClass (mode fe.name)) {ss : List (List String)}
    (hnd : ss.Nodup) (hsq : ss.length ≠ 1 ∨ p.squeeze = false) {ts : List τ} {X : Option (Frame String τ ℝ)}
    {x z : Frame String τ ℝ}
    {s : PiecewiseState ℝ τ} (h : HierFitted days p ss ts X m x s) {fh : List τ} (hinc : fh.Pairwise (· < ·))
    (hz : x.cols = [] ∨ PanelIn z ss fh)
    {td : Transformed (Tensor ℝ)} {data : PyDict (Transformed (Tensor ℝ))}
    (htd : m.trend.transform (some z) fh = .ok td) (hdata : transformEffects m.fitted z fh = .ok data)
    {θ : SiteEnv ℝ} (hθ : PanelSites s.cps θ) {st : MeanState ℝ}
    (hm : computeMean (m.trend.cls.call m.trend.st) td data (callsOf m.objs) θ = .ok st) :
    st.mean = panelOf ss fh (panelMean days mode s ss (kept m.fitted) z θ) := by
  have hsc : ∀ n, θ.scope n "coefs" = θ (n ++ "/coefs") := by
    intro n
    unfold SiteEnv.scope
    rw [String.append_assoc]
    rfl
  rcases hz with h0 | hz
  · have hk : kept m.fitted = [] := List.eq_nil_iff_forall_not_mem.2 fun fe hfe => by
      obtain ⟨h1, h2⟩ := (hier_kept h).1 hfe
      obtain ⟨c, hc⟩ := List.exists_mem_of_ne_nil _ h2
      have := (h.linear fe h1).2.2 c hc
      rw [h0] at this
      cases this
    obtain ⟨trv, -, htv, -⟩ := C17_own_data h.nodup h.notTrend hdata h.objs hm
    have htc := piecewise_cells h.cls h.state hnd h.series h.changepoints h.count hsq θ z fh td trv hθ
      h.panel.someSeries hinc htd htv
    obtain ⟨hsh, hw, hget⟩ := mean_entries h.nodup h.notTrend hdata h.objs hm htv
      (by rw [htc]; exact panelOf_wf _ _ _) (val := fun _ => ⟨[], []⟩)
      (by intro fe hfe; rw [hk] at hfe; cases hfe) (by intro fe hfe; rw [hk] at hfe; cases hfe)
    refine eq_panelOf_of_get? hw (by rw [hsh, htc]; simp [panelOf]) ?_
    intro i a j t hi hj
    have hil := (List.getElem?_eq_some_iff.1 hi).1
    have hjl := (List.getElem?_eq_some_iff.1 hj).1
    rw [hget [i, j, 0] (by rw [htc]; exact ⟨hil, hjl, by simp, trivial⟩), htc, panelOf_get? hi hj, hk]
    unfold panelMean
    simp
  · have := C74_closed_form (trend := m.trend) (Ok := PanelSites s.cps) (g := panelTrendAt days s ss)
      (C74_piecewise h.cls h.state hnd h.series h.changepoints h.count hsq)
      (fitted := m.fitted)
      (f := fun fe => cellValue (mode fe.name) (fe.effect.st.1.inputCols.getD []) fun θ r => [Tensor.dot r (θ "coefs").data])
      (fun fe hfe => by
        have hmem := (List.mem_filter.1 hfe).1
        have hcls := hM fe hmem
        exact C74_effect (by rw [hcls]; rfl) (fun _ _ _ => by rw [hcls]; rfl) (fun _ => by rw [hcls]; rfl)
          rowWise_linear)
      h.nodup h.notTrend hz htd hdata h.objs hθ hm
    rw [this]
    congr 1
    funext a t
    unfold panelMean
    congr 2
    refine List.map_congr_left fun fe hfe => ?_
    have hmem := (List.mem_filter.1 hfe).1
    obtain ⟨-, hst, -⟩ := h.linear fe hmem
    unfold cellValue combine
    simp only [hst, Option.getD_some, List.headD_cons, hsc]
    rw [List.map_congr_left (f := onCols fe.cols (cellAt z a t)) (g := cellAt z a t) fun c hc => by
      unfold onCols
      rw [if_pos hc]]

/-- The value of a column of `X` for a series at a date. -/
def givenValue (X : Option (Frame String τ ℝ)) (a : List String) (t : τ) (c : String) : ℝ :=
  match X with
  | none => 0
  | some x => cellAt x a t c

/-- Specification: what the columns of the model hold for series `a` at date `t`.  A column that is not
shared has a copy per series, which holds the value in `X₁` for its series and zero for all others; a
shared column is as it is in `X₁`. -/
structure OwnCopies (cols shared : List String) (X₁ : Option (Frame String τ ℝ)) (ss : List (List String))
    (a : List String) (t : τ) (val : String → ℝ) : Prop where
  own : ∀ c ∈ cols, c ∉ shared → val (colName c a) = givenValue X₁ a t c
  other : ∀ c ∈ cols, c ∉ shared → ∀ b ∈ ss, b ≠ a → val (colName c b) = 0
  shared : ∀ c ∈ cols, c ∈ shared → val c = givenValue X₁ a t c

/-- Specification: the names of the columns of the model. -/
def ModelColumn (cols shared : List String) (ss : List (List String)) (n : String) : Prop :=
  (n ∈ cols ∧ n ∈ shared) ∨ ∃ c ∈ cols, c ∉ shared ∧ ∃ a ∈ ss, n = colName c a

/-- Column names that, used as patterns, match themselves and no shared column (see C49), and whose
copies have names of their own (see C50). -/
structure PlainNames (compile : String → PyM (String → Bool)) (cols shared : List String)
    (ss : List (List String)) : Prop where
  pattern : ∀ c ∈ cols, c ∉ shared → ∃ q, compile c = .ok q ∧ q c = true ∧ ∀ d ∈ cols, d ∈ shared → q d = false
  copies : ∀ c ∈ cols, ∀ c' ∈ cols, ∀ a ∈ ss, ∀ b ∈ ss, colName c a = colName c' b → c = c' ∧ a = b
  fresh : ∀ c ∈ cols, ∀ a ∈ ss, colName c a ∉ cols

/-- The columns with a copy per series are those that are not shared. -/
theorem matched_iff {order : List String → List String} (ho : ∀ l, (order l).Perm l)
    {compile : String → PyM (String → Bool)} {shared : List String} {ss : List (List String)}
    {x : Frame String τ ℝ} (hn : PlainNames compile x.cols shared ss) {st : ExpandState}
    (h : expandFit compile order (nonShared x.cols shared) x = .ok st) (c : String) :
    c ∈ st.matched ↔ c ∈ x.cols ∧ c ∉ shared := by
  obtain ⟨-, hm⟩ := expandFit_ok ho h
  rw [hm]
  constructor
  · rintro ⟨h1, q, hq, f, hf, hc⟩
    refine ⟨h1, fun hs => ?_⟩
    obtain ⟨hq1, hq2⟩ := mem_nonShared.1 hq
    obtain ⟨f', hf', -, hd⟩ := hn.pattern q hq1 hq2
    rw [hf] at hf'
    cases hf'
    rw [hd c h1 hs] at hc
    cases hc
  · rintro ⟨h1, h2⟩
    obtain ⟨f, hf, hd, -⟩ := hn.pattern c h1 h2
    exact ⟨h1, c, mem_nonShared.2 ⟨h1, h2⟩, f, hf, hd⟩

/-- The matched columns of a fitted panel. -/
theorem hier_matched (hV : ValidHier days p cfg) {yA : Frame String τ ℝ} {ss : List (List String)} {ts : List τ}
    {X0 x : Frame String τ ℝ} (hr : RegularExog X0 ss ts)
    (hn : PlainNames cfg.compile X0.cols cfg.shared ss) {st : ExpandState}
    (h : hierExog cfg yA (some X0) = .ok (some st, x)) (c : String) :
    c ∈ st.matched ↔ c ∈ X0.cols ∧ c ∉ cfg.shared := by
  unfold hierExog exogOr at h
  simp only [if_neg hr.columns, exog_bottom hr, bind, Except.bind, hV.fitFeatures] at h
  unfold fitExpand at h
  have hc : X0.bottomOnly.cols = X0.cols := rfl
  rw [if_neg (by rw [hc]; exact hr.columns)] at h
  simp only [bind, Except.bind] at h
  split at h
  · cases h
  rename_i st' hst
  split at h
  · cases h
  cases h
  exact matched_iff hV.order (x := X0.bottomOnly) hn hst c

/-- Dropping aggregates does not change the rows of a series that is none. -/
theorem cellAt_bottomOnly {X : Frame String τ ℝ} {ss : List (List String)} {ts : List τ}
    (h : PanelIn X.bottomOnly ss ts) {a : List String} (ha : a ∈ ss) (t : τ) :
    cellAt X.bottomOnly a t = cellAt X a t := by
  obtain ⟨t0, ht0⟩ := List.exists_mem_of_ne_nil _ h.someDate
  obtain ⟨r, hr, hra, -⟩ := h.covers a ha t0 ht0
  have hlast := (List.mem_filter.1 hr).2
  rw [hra] at hlast
  have : X.bottomOnly.rows.find? (fun r => r.sid = a ∧ r.time = t) = X.rows.find? fun r => r.sid = a ∧ r.time = t := by
    unfold Frame.bottomOnly
    rw [List.find?_filter]
    congr 1
    funext r
    by_cases hs : r.sid = a
    · simp only [hs, hlast]
      simp
    · simp [hs]
  funext c
  unfold cellAt
  rw [this]
  rfl

theorem PlainNames.compiles {compile : String → PyM (String → Bool)} {cols shared : List String}
    {ss : List (List String)} (h : PlainNames compile cols shared ss) :
    ∀ c ∈ cols, c ∉ shared → ∃ q, compile c = .ok q := fun c hc hs =>
  let ⟨q, hq, _⟩ := h.pattern c hc hs
  ⟨q, hq⟩

/-- What the columns of the expanded table hold. -/
theorem own_copies {cols shared : List String} {X1 z : Frame String τ ℝ} {ss : List (List String)} {fh : List τ}
    {compile : String → PyM (String → Bool)} (hn : PlainNames compile cols shared ss) {st : ExpandState}
    (hsk : st.skip = false) (hm : ∀ c, c ∈ st.matched ↔ c ∈ cols ∧ c ∉ shared)
    (hsub : ∀ c ∈ cols, c ∈ X1.cols) (hr : RegularExog X1 ss fh)
    (hz : expandTransform st X1.bottomOnly = .ok z) {a : List String} (ha : a ∈ ss) {t : τ} (ht : t ∈ fh) :
    OwnCopies cols shared (some X1) ss a t (cellAt z a t) := by
  have hcell := fun n => expand_cell hsk hr.panel ha ht hz n
  have hmem : ∀ c ∈ cols, c ∉ shared → ∀ b ∈ ss, colName c b ∈ z.cols := by
    intro c hc hs b hb
    exact (hcell _).1.2 ⟨fun h => hn.fresh c hc b hb ((hm _).1 h).1, .inr ⟨c, (hm c).2 ⟨hc, hs⟩, b, hb, rfl⟩⟩
  refine ⟨?_, ?_, ?_⟩
  · intro c hc hs
    rw [((hcell _).2 (hmem c hc hs a ha)).1 c ((hm c).2 ⟨hc, hs⟩) rfl, cellAt_bottomOnly hr.panel ha]
    rfl
  · intro c hc hs b hb hne
    refine ((hcell _).2 (hmem c hc hs b hb)).2.1 ?_ ⟨c, (hm c).2 ⟨hc, hs⟩, b, hb, rfl⟩
    intro c' hc' he
    exact hne (hn.copies c hc c' ((hm c').1 hc').1 b hb a ha he).2
  · intro c hc hs
    have hnm : c ∉ st.matched := fun h => ((hm c).1 h).2 hs
    rw [((hcell c).2 ((hcell c).1.2 ⟨hnm, .inl (hsub c hc)⟩)).2.2 ?_, cellAt_bottomOnly hr.panel ha]
    · rfl
    · rintro c' hc' b hb rfl
      exact hn.fresh c' ((hm c').1 hc').1 b hb hc

/-- **C115**: the forecast of a series at a date is its trend plus the effects.  An effect is the sum of
coefficient times value over its columns: the columns of `X` that are shared and the copies of those
that are not; a copy holds the values of its series and zero for all others. -/
theorem C115_closed_form (hV : ValidHier days p cfg) (hM : Modes mode cfg) {y : Frame String τ ℝ}
    (hy : RegularPanel y) {ss : List (List String)} (hss : SeriesOf y ss)
    (hsq : ss.length ≠ 1 ∨ p.squeeze = false) {ts : List τ} (hts : DatesOf y ts)
    {X : Option (Frame String τ ℝ)} (hX : GivenExog X ss ts)
    (hn : PlainNames cfg.compile (givenCols X) cfg.shared ss)
    {m : HierFit (Option (PiecewiseState ℝ τ)) (Scale ℝ) τ (Tensor ℝ) ℝ} (hfit : hierFitData cfg y X = .ok m) :
    ∃ s, m.trend.st.2 = some s ∧
      (∀ fe ∈ m.fitted, ∀ n ∈ fe.cols, ModelColumn (givenCols X) cfg.shared ss n) ∧
      ∀ (y₁ : Frame String τ ℝ) (levels : List (List String)) (X₁ : Option (Frame String τ ℝ)) (fh : List τ),
      fh.Pairwise (· < ·) → GivenExog X₁ ss fh → (∀ c ∈ givenCols X, c ∈ givenCols X₁) →
      ∀ td data, hierPredictData cfg m levels y₁ X₁ fh = .ok (td, data) →
      ∃ val : List String → τ → String → ℝ,
      (∀ a ∈ ss, ∀ t ∈ fh, OwnCopies (givenCols X) cfg.shared X₁ ss a t (val a t)) ∧
      ∀ θ st, PanelSites s.cps θ →
      computeMean (m.trend.cls.call m.trend.st) td data (callsOf m.objs) θ = .ok st →
      ∀ (i j : Nat) (a : List String) (t : τ), ss[i]? = some a → fh[j]? = some t →
      st.mean.get? [i, j, 0] = some (panelTrendAt days s ss θ a t + ((kept m.fitted).map fun fe =>
        combine (mode fe.name) (panelTrendAt days s ss θ a t)
          (Tensor.dot (fe.cols.map (val a t)) (θ (fe.name ++ "/coefs")).data)).sum) := by
  obtain ⟨m', x, s, hfit', h, yB, -, -, -, -, -, -, -, -, hex, -⟩ := hier_fits hV hy hss hts hX hn.compiles
  rw [hfit] at hfit'
  cases hfit'
  have hnd : ss.Nodup := hss.sorted.imp fun h => ne_of_lt h
  have hmc : ∀ fe ∈ m.fitted, ∀ n ∈ fe.cols, ModelColumn (givenCols X) cfg.shared ss n := by
    intro fe hfe n hnc
    have hx := (h.linear fe hfe).2.2 n hnc
    rcases h.exog with ⟨-, -, h0⟩ | ⟨X0, st, rfl, hr, hst, hsk, -, hxe⟩
    · rw [h0] at hx; cases hx
    · rw [hst] at hex
      have hm := hier_matched hV hr hn hex
      obtain ⟨a, ha⟩ := List.exists_mem_of_ne_nil _ hr.panel.someSeries
      obtain ⟨t, ht⟩ := List.exists_mem_of_ne_nil _ hr.panel.someDate
      obtain ⟨h1, h2⟩ := (expand_cell hsk hr.panel ha ht hxe n).1.1 hx
      rcases h2 with h2 | ⟨c, hc, b, hb, rfl⟩
      · left
        refine ⟨h2, ?_⟩
        by_contra hs
        exact h1 ((hm n).2 ⟨h2, hs⟩)
      · exact .inr ⟨c, ((hm c).1 hc).1, ((hm c).1 hc).2, b, hb, rfl⟩
  refine ⟨s, h.state, hmc, ?_⟩
  intro y₁ levels X₁ fh hinc hX₁ hsub td data hp
  obtain ⟨z, htd, hdata, hz⟩ := hier_table hV h hX₁ hsub hp
  refine ⟨cellAt z, ?_, ?_⟩
  · intro a ha t ht
    rcases hz with ⟨h0, -⟩ | ⟨est, X1, he, hsk, rfl, hr1, hzt, -⟩
    · rw [h0]
      exact ⟨by simp, by simp, by simp⟩
    · rcases h.exog with ⟨-, h2, -⟩ | ⟨X0, st0, rfl, hr, hst0, -, -, -⟩
      · rw [h2] at he; cases he
      · rw [hst0] at he
        cases he
        rw [hst0] at hex
        exact own_copies hn hsk (hier_matched hV hr hn hex) hsub hr1 hzt ha ht
  intro θ st hθ hst i j a t hi hj
  have hmean := hier_mean (hier_modes hM hfit) hnd hsq h hinc (hz.imp And.right fun ⟨_, _, _, _, _, _, _, h⟩ => h)
    htd hdata hθ hst
  rw [hmean, panelOf_get? hi hj]
  rfl

/-- Specification: the coefficient of a column in an effect (zero if the effect does not use it). -/
noncomputable def coefficientOf (cols : List String) (coefs : List ℝ) (n : String) : ℝ :=
  (List.zipWith (fun k β => if k = n then β else 0) cols coefs).sum

theorem dot_change {f g : String → ℝ} {n : String} {δ : ℝ} : ∀ (cols : List String) (β : List ℝ),
    (∀ k ∈ cols, g k = f k + if k = n then δ else 0) →
    Tensor.dot (cols.map g) β = Tensor.dot (cols.map f) β + δ * coefficientOf cols β n
  | [], β, _ => by simp [Tensor.dot, coefficientOf]
  | k :: cols, [], _ => by simp [Tensor.dot, coefficientOf]
  | k :: cols, b :: β, h => by
    have h1 := h k (by simp)
    have h2 := dot_change cols β fun k' hk => h k' (by simp [hk])
    unfold Tensor.dot coefficientOf at *
    simp only [List.map_cons, List.zipWith_cons_cons, List.sum_cons]
    rw [h2, h1]
    split <;> ring

theorem combine_plus (mo : String) (T v w : ℝ) : combine mo T (v + w) = combine mo T v + combine mo T w := by
  unfold combine
  split <;> ring

/-- The column of the model that holds column `c` of series `a`. -/
def modelColumn (shared : List String) (c : String) (a : List String) : String :=
  if c ∈ shared then c else colName c a

/-- **C115**: raising a regressor of one series at one date by `δ` changes the forecast of this series
at this date by `δ` times the coefficient of the series' own copy of the regressor, or of the shared
column, summed over the effects that use it (times the trend where the effect is multiplicative). -/
theorem C115_what_if (hV : ValidHier days p cfg) (hM : Modes mode cfg) {y : Frame String τ ℝ}
    (hy : RegularPanel y) {ss : List (List String)} (hss : SeriesOf y ss)
    (hsq : ss.length ≠ 1 ∨ p.squeeze = false) {ts : List τ} (hts : DatesOf y ts)
    {X : Option (Frame String τ ℝ)} (hX : GivenExog X ss ts)
    (hn : PlainNames cfg.compile (givenCols X) cfg.shared ss)
    {m : HierFit (Option (PiecewiseState ℝ τ)) (Scale ℝ) τ (Tensor ℝ) ℝ} (hfit : hierFitData cfg y X = .ok m) :
    ∃ s, m.trend.st.2 = some s ∧
      ∀ (y₁ : Frame String τ ℝ) (levels : List (List String)) (X₁ X₂ : Option (Frame String τ ℝ)) (fh : List τ),
      fh.Pairwise (· < ·) → GivenExog X₁ ss fh → (∀ c ∈ givenCols X, c ∈ givenCols X₁) →
      GivenExog X₂ ss fh → (∀ c ∈ givenCols X, c ∈ givenCols X₂) →
      ∀ td data td' data', hierPredictData cfg m levels y₁ X₁ fh = .ok (td, data) →
      hierPredictData cfg m levels y₁ X₂ fh = .ok (td', data') →
      ∀ θ st st', PanelSites s.cps θ →
      computeMean (m.trend.cls.call m.trend.st) td data (callsOf m.objs) θ = .ok st →
      computeMean (m.trend.cls.call m.trend.st) td' data' (callsOf m.objs) θ = .ok st' →
      ∀ (i j : Nat) (a : List String) (t : τ), ss[i]? = some a → fh[j]? = some t →
      ∀ c ∈ givenCols X, ∀ δ : ℝ, givenValue X₂ a t c = givenValue X₁ a t c + δ →
      (∀ d ∈ givenCols X, d ≠ c → givenValue X₂ a t d = givenValue X₁ a t d) →
      ∃ v, st.mean.get? [i, j, 0] = some v ∧
        st'.mean.get? [i, j, 0] = some (v + ((kept m.fitted).map fun fe =>
          combine (mode fe.name) (panelTrendAt days s ss θ a t)
            (δ * coefficientOf fe.cols (θ (fe.name ++ "/coefs")).data (modelColumn cfg.shared c a))).sum) := by
  obtain ⟨s, hs, hmc, hF⟩ := C115_closed_form hV hM hy hss hsq hts hX hn hfit
  refine ⟨s, hs, ?_⟩
  intro y₁ levels X₁ X₂ fh hinc hX₁ hsub₁ hX₂ hsub₂ td data td' data' hp hp' θ st st' hθ hst hst' i j a t hi hj
    c hc δ hδ hrest
  obtain ⟨val, hval, hv⟩ := hF y₁ levels X₁ fh hinc hX₁ hsub₁ td data hp
  obtain ⟨val', hval', hv'⟩ := hF y₁ levels X₂ fh hinc hX₂ hsub₂ td' data' hp'
  refine ⟨_, hv θ st hθ hst i j a t hi hj, ?_⟩
  rw [hv' θ st' hθ hst' i j a t hi hj, add_assoc, ← List.sum_map_add]
  congr 3
  refine List.map_congr_left fun fe hfe => ?_
  have hmem := (List.mem_filter.1 hfe).1
  have ha := List.mem_of_getElem? hi
  have ht := List.mem_of_getElem? hj
  have o := hval a ha t ht
  have o' := hval' a ha t ht
  rw [← combine_plus]
  congr 1
  refine dot_change _ _ fun n hnc => ?_
  unfold modelColumn
  have hval2 : ∀ d ∈ givenCols X, givenValue X₂ a t d = givenValue X₁ a t d + if d = c then δ else 0 := by
    intro d hd
    by_cases hdc : d = c
    · rw [hdc, hδ, if_pos rfl]
    · rw [hrest d hd hdc, if_neg hdc, add_zero]
  rcases hmc fe hmem n hnc with ⟨h1, h2⟩ | ⟨d, hd, hds, b, hb, rfl⟩
  · rw [o.shared n h1 h2, o'.shared n h1 h2, hval2 n h1]
    by_cases hcs : c ∈ cfg.shared
    · rw [if_pos hcs]
    · rw [if_neg hcs, if_neg (fun h : n = c => hcs (h ▸ h2)), if_neg]
      intro h
      exact hn.fresh c hc a ha (h ▸ h1)
  · by_cases hba : b = a
    · subst hba
      rw [o.own d hd hds, o'.own d hd hds, hval2 d hd]
      by_cases hcs : c ∈ cfg.shared
      · rw [if_pos hcs, if_neg (fun h : d = c => hds (h ▸ hcs)), if_neg]
        intro h
        exact hn.fresh d hd b hb (h ▸ hc)
      · rw [if_neg hcs]
        congr 1
        by_cases hdc : d = c
        · rw [if_pos hdc, hdc, if_pos rfl]
        · rw [if_neg hdc, if_neg fun h => hdc (hn.copies d hd c hc b hb b hb h).1]
    · rw [o.other d hd hds b hb hba, o'.other d hd hds b hb hba]
      by_cases hcs : c ∈ cfg.shared
      · rw [if_pos hcs, if_neg, add_zero]
        intro h
        exact hn.fresh d hd b hb (h ▸ hc)
      · rw [if_neg hcs, if_neg, add_zero]
        intro h
        exact hba (hn.copies d hd c hc b hb a ha h).2

/-! ## A case -/

theorem exPlain115 : PlainNames exCfg113.compile (givenCols (some exX113)) exCfg113.shared [["p"], ["q"]] where
  pattern := by
    intro c _ _
    exact ⟨_, rfl, by simp, by simp [exCfg113]⟩
  copies := by
    intro c hc c' hc' a ha b hb h
    cases List.mem_singleton.1 hc
    cases List.mem_singleton.1 hc'
    refine ⟨rfl, ?_⟩
    simp only [List.mem_cons, List.not_mem_nil, or_false] at ha hb
    rcases ha with rfl | rfl <;> rcases hb with rfl | rfl <;> first | rfl | (revert h; decide)
  fresh := by
    intro c hc a ha
    cases List.mem_singleton.1 hc
    simp only [List.mem_cons, List.not_mem_nil, or_false] at ha
    rcases ha with rfl | rfl <;> simp [givenCols, exX113] <;> decide

theorem exModes113 : Modes (fun n => if n = "e" then "multiplicative" else "additive") exCfg113 where
  effects := by
    intro e he
    cases List.mem_singleton.1 he
    rfl
  default := rfl

/-- The forecast of series `p` at date 2, where its regressor is 3: the copy of series `q` is 0. -/
example : ∃ m s, hierFitData exCfg113 exY113 (some exX113) = .ok m ∧ m.trend.st.2 = some s ∧
    ∃ td data, hierPredictData exCfg113 m [["__total", "p", "q"]] exY113 (some exX113) [2, 3] = .ok (td, data) ∧
      ∀ θ, HierSizes s m θ → ∃ st val,
        computeMean (m.trend.cls.call m.trend.st) td data (callsOf m.objs) θ = .ok st ∧
        val (colName "a" ["p"]) = 3 ∧ val (colName "a" ["q"]) = 0 ∧
        st.mean.get? [0, 0, 0] = some (panelTrendAt (fun t : ℤ => (t : ℝ)) s [["p"], ["q"]] θ ["p"] 2 +
          ((kept m.fitted).map fun fe => combine (if fe.name = "e" then "multiplicative" else "additive")
            (panelTrendAt (fun t : ℤ => (t : ℝ)) s [["p"], ["q"]] θ ["p"] 2)
            (Tensor.dot (fe.cols.map val) (θ (fe.name ++ "/coefs")).data)).sum) := by
  have hX := exExog113 (ts := [0, 1]) (by simp) (by simp) (by simp)
  have hX₁ := exExog113 (ts := [2, 3]) (by simp) (by simp) (by simp)
  obtain ⟨m, hm⟩ := C113_fits exValid113 exPanel113 exSeries113 exDates113 hX exPlain115.compiles
  obtain ⟨s, hs, -, h⟩ := C113_forecasts exValid113 exPanel113 exSeries113 (.inl (by simp)) exDates113 hX
    exPlain115.compiles hm
  obtain ⟨td, data, h1, h2⟩ := h exY113 [["__total", "p", "q"]] (some exX113) [2, 3] exPanel113
    ⟨rfl, by
      intro r hr
      simp only [exY113, List.map_cons, List.map_nil, List.mem_cons, List.not_mem_nil, or_false] at hr
      rcases hr with rfl | rfl | rfl | rfl | rfl | rfl <;> simp⟩ (by simp) (by simp) hX₁ (fun c hc => hc)
  obtain ⟨s', hs', -, hF⟩ := C115_closed_form exValid113 exModes113 exPanel113 exSeries113 (.inl (by simp)) exDates113
    hX exPlain115 hm
  rw [hs] at hs'
  cases hs'
  obtain ⟨val, hval, hv⟩ := hF exY113 [["__total", "p", "q"]] (some exX113) [2, 3] (by simp) hX₁ (fun c hc => hc)
    td data h1
  refine ⟨m, s, hm, hs, td, data, h1, fun θ hθ => ?_⟩
  obtain ⟨st, h3, -⟩ := h2 θ hθ
  have ho := hval ["p"] (by simp) 2 (by simp)
  refine ⟨st, val ["p"] 2, h3, ?_, ?_, hv θ st hθ.trend h3 0 0 ["p"] 2 rfl rfl⟩
  · rw [ho.own "a" (by simp [givenCols, exX113]) (by simp [exCfg113])]
    simp [givenValue, cellAt, exX113]
  · exact ho.other "a" (by simp [givenCols, exX113]) (by simp [exCfg113]) ["q"] (by simp) (by simp)

end
end PV
