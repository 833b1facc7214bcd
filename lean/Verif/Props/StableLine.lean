import Verif.Props.Detrend
import Verif.Props.Stable

/-!
# C123 for the default trend

The prior of the offset of the default trend is centred on the least squares line through the training
data, which itself moves by no more than the data.
-/

open Filter

namespace PV

/-! ## The line -/

/-- The least squares line moves, at a date of the data, by no more than the data. -/
theorem line_change {α : Type} {Z : List α} {x v v' : α → ℝ} {q₀ : α} (h : q₀ ∈ Z) :
    (lineAt (Z.map fun q => (x q, v' q)) (x q₀) - lineAt (Z.map fun q => (x q, v q)) (x q₀)) ^ 2
      ≤ (Z.map fun q => (v' q - v q) ^ 2).sum := by
  have hne : Z ≠ [] := List.ne_nil_of_mem h
  obtain ⟨a, b, hab, n1, n2⟩ := lineAt_normal (l := Z.map fun q => (x q, v q)) (by simpa using hne)
  obtain ⟨a', b', hab', n1', n2'⟩ := lineAt_normal (l := Z.map fun q => (x q, v' q)) (by simpa using hne)
  rw [List.map_map] at n1 n2 n1' n2'
  rw [hab, hab']
  set L : α → ℝ := fun q => (a' - a) + (b' - b) * x q with hL
  have key : (Z.map fun q => (v' q - v q) ^ 2).sum
      = (Z.map fun q => ((v' q - v q) - L q) ^ 2 + L q ^ 2).sum
        + (2 * (a' - a) * ((Z.map ((fun p : ℝ × ℝ => p.2 - (a' + b' * p.1)) ∘ fun q => (x q, v' q))).sum
            - (Z.map ((fun p : ℝ × ℝ => p.2 - (a + b * p.1)) ∘ fun q => (x q, v q))).sum)
          + 2 * (b' - b) * ((Z.map ((fun p : ℝ × ℝ => (p.2 - (a' + b' * p.1)) * p.1) ∘ fun q => (x q, v' q))).sum
            - (Z.map ((fun p : ℝ × ℝ => (p.2 - (a + b * p.1)) * p.1) ∘ fun q => (x q, v q))).sum)) := by
    clear n1 n2 n1' n2' h hne hab hab'
    induction Z with
    | nil => simp
    | cons q Z ih =>
      simp only [List.map_cons, List.sum_cons, Function.comp_apply] at ih ⊢
      rw [ih]
      simp only [hL]
      ring
  rw [key, n1, n2, n1', n2']
  have h1 : L q₀ ^ 2 ≤ (Z.map fun q => ((v' q - v q) - L q) ^ 2 + L q ^ 2).sum := by
    refine le_trans ?_ (List.single_le_sum (fun w hw => ?_) _ (List.mem_map_of_mem (f := fun q =>
      ((v' q - v q) - L q) ^ 2 + L q ^ 2) h))
    · nlinarith [sq_nonneg ((v' q₀ - v q₀) - L q₀)]
    · obtain ⟨q, -, rfl⟩ := List.mem_map.1 hw
      positivity
  have h2 : a' + b' * x q₀ - (a + b * x q₀) = L q₀ := by
    simp only [hL]
    ring
  rw [h2]
  linarith

section
variable {τ : Type} [LinearOrder τ] {days : τ → ℝ} {p : PiecewiseParams ℝ τ}

/-- The default trend of one series: the prior of the offset is centred on the line, at the first date. -/
theorem line_location {pos : τ → ℝ} (hd : p.detrend = some fun y => .ok (fittedLines pos y))
    {y : Frame String τ ℝ} {s : PiecewiseState ℝ τ} {c : String}
    (h : piecewiseFit days suggestLinear p y = .ok s) (hn : y.nlevels = 1) (hc : y.cols = [c]) (hw : y.WF)
    (hinc : (y.times.map days).Pairwise (· < ·)) {r : Row String τ ℝ} (hr : y.rows.head? = some r) :
    s.offsetLoc = [lineAt (y.rows.map fun r => (pos r.time, r.val c)) (pos r.time)] := by
  have hne : y.rows ≠ [] := by
    rintro h0
    rw [h0] at hr
    cases hr
  have hu : unique y.times = y.times :=
    unique_of_nodup (List.Nodup.of_map _ (hinc.imp (S := fun a b => a ≠ b) fun h => h.ne))
  obtain ⟨h1, h2⟩ := offset_is_first (y' := fittedLines pos y) h
    (by unfold detrended; rw [hd]) (fittedLines_index pos y) rfl hc hw (by rw [hu]; exact hinc)
  obtain ⟨e1, e2⟩ := series_flat hw hn hne
  have hro : (fittedLines pos y).rowsOf [] = (y.rowsOf []).map fun r => ⟨r.sid, r.time, fun c =>
      r.val c - (r.val c - lineAt (pointsOf pos y r.sid c) (pos r.time))⟩ := by
    unfold Frame.rowsOf fittedLines
    simp only
    rw [List.filter_map]
    rfl
  have hsid : r.sid = [] := by
    have := hw r (List.mem_of_mem_head? hr)
    rw [hn] at this
    exact List.length_eq_zero_iff.1 (by omega)
  have h3 := h2 0 [] _ (by rw [e1]; rfl) (by rw [hro, e2, List.head?_map, hr]; rfl)
  rw [e1] at h1
  match ho : s.offsetLoc, h1 with
  | [μ], _ =>
    rw [ho] at h3
    have h4 := Option.some.inj h3
    rw [h4]
    simp only [sub_sub_cancel, pointsOf, hsid, e2]

end

/-! ## The forecaster -/

section
variable {τ : Type} [LinearOrder τ]
variable {position : τ → ℤ} {compile : String → PyM (String → Bool)}
  {order : List String → List String} {days : τ → ℝ} {p : PiecewiseParams ℝ τ} {kind : String → EffectKind}
  {cfg : UniConfig (UsualAttrs τ) (Scale ℝ) τ ℝ (AnyData ℝ) ℝ} {y y' : Frame String τ ℝ} {c : String}
  {X : Option (Frame String τ ℝ)} {x : Frame String τ ℝ}
  {m m' : UniFit (UsualAttrs τ) (Scale ℝ) τ ℝ (AnyData ℝ) ℝ}

/-- **C123** for the default trend: the fitted history moves, in the sum of squares, by no more than the
observations, which count a second time with the precision of the offset. -/
theorem C123_line (hU : Usual position compile order days suggestLinear p kind cfg) {pos : τ → ℝ}
    (hp : p.detrend = some fun y => .ok (fittedLines pos y))
    (hd : cfg.discrete = false) (hmono : StrictMono days)
    (hT : Training cfg y c X x) (hT' : Training cfg y' c X x) (hw : y.WF) (hw' : y'.WF)
    (ht : y'.times = y.times)
    (hfit : uniFitData cfg y X = .ok m) (hfit' : uniFitData cfg y' X = .ok m')
    {b : ℝ} (hb : p.priorScale = .scalar b) (hb0 : 0 ≤ b)
    (hwv : ∀ n ss mode s, kind n = .seasonal ss mode s → waves ss ≠ [])
    (hadd : ∀ fe ∈ usedEffects kind m, (kind fe.name).modeOf = "additive")
    (hpr : ∀ n, ConcaveOn ℝ Set.univ (kind n).prior)
    {s s' : PiecewiseState ℝ τ} {cs : List ℝ} (hs : m.trend.st.2 = .piecewise (some s)) (hcs : s.cps = [cs])
    (hs' : m'.trend.st.2 = .piecewise (some s'))
    {ns scale os σ : ℝ} {θ θ' : SiteEnv ℝ} {L L' : ℝ}
    (hθ : BestIn kind .normal cs ns scale os (· = σ) m θ L)
    (hθ' : BestIn kind .normal cs ns scale os (· = σ) m' θ' L') :
    (y.rows.map fun r => meanChange position kind days s s' cs y y' x m m' θ θ' r.time ^ 2).sum / σ ^ 2
        + offsetChange θ θ' ^ 2 / os ^ 2
      ≤ ((y.rows.zip y'.rows).map fun q => (q.2.val c - q.1.val c) ^ 2).sum * (1 / σ ^ 2 + 1 / os ^ 2) := by
  have hlen : y'.rows.length = y.rows.length := by
    have := congrArg List.length ht
    simpa [Frame.times] using this
  have htime : ∀ q ∈ y.rows.zip y'.rows, q.2.time = q.1.time := by
    intro q hq
    obtain ⟨i, hi, rfl⟩ := List.mem_iff_getElem.1 hq
    have h3 : i < y.rows.length := by simp at hi; omega
    have h4 : i < y'.rows.length := by omega
    have := congrArg (fun l => l[i]?) ht
    simpa [Frame.times, h3, h4] using this
  have hZ : y.rows.map (fun r => (pos r.time, r.val c))
      = (y.rows.zip y'.rows).map fun q => (pos q.1.time, q.1.val c) := by
    conv_lhs => rw [← List.map_fst_zip (l₂ := y'.rows) hlen.ge]
    rw [List.map_map]
    rfl
  have hZ' : y'.rows.map (fun r => (pos r.time, r.val c))
      = (y.rows.zip y'.rows).map fun q => (pos q.1.time, q.2.val c) := by
    conv_lhs => rw [← List.map_snd_zip (l₁ := y.rows) hlen.le]
    rw [List.map_map]
    exact List.map_congr_left fun q hq => by simp [htime q hq]
  have hinc : ∀ {y : Frame String τ ℝ}, Training cfg y c X x → (y.times.map days).Pairwise (· < ·) := by
    intro y hT
    rw [Frame.times, List.map_map]
    exact List.pairwise_map.2 (hT.sorted.imp fun h => hmono h)
  obtain ⟨r, rs, hr⟩ := List.exists_cons_of_ne_nil hT.some
  obtain ⟨r', rs', hr'⟩ := List.exists_cons_of_ne_nil hT'.some
  have hq : (r, r') ∈ y.rows.zip y'.rows := by rw [hr, hr']; simp
  have hμ := line_location hp (uniFit_piecewise hU hd hfit hs) hT.flat hT.column hw (hinc hT) (r := r) (by rw [hr]; rfl)
  have hμ' := line_location hp (uniFit_piecewise hU hd hfit' hs') hT'.flat hT'.column hw' (hinc hT') (r := r')
    (by rw [hr']; rfl)
  have h := C123_centre_lipschitz hU hd hT hT' ht hfit hfit' hb hb0 hwv hadd hpr hs hcs hs' hθ hθ' (.inr ⟨pos, hp⟩) hμ hμ'
  rw [hZ, hZ', show r'.time = r.time from htime _ hq] at h
  have hl := line_change (x := fun q : Row String τ ℝ × Row String τ ℝ => pos q.1.time)
    (v := fun q => q.1.val c) (v' := fun q => q.2.val c) hq
  have hos : 0 ≤ 1 / os ^ 2 := by positivity
  have := mul_le_mul_of_nonneg_right hl hos
  simp only [div_eq_mul_inv, one_mul] at h this ⊢
  linarith

end

/-! ## Example: the forecaster with the default trend -/

noncomputable section

/-- The trend of the examples, removing seasonality before it suggests initial values. -/
def exP123 : PiecewiseParams ℝ ℤ := { exP85 with detrend := some fun y => .ok (fittedLines (fun n : ℤ => (n : ℝ)) y) }

def exCfg123 : UniConfig (UsualAttrs ℤ) (Scale ℝ) ℤ ℝ (AnyData ℝ) ℝ :=
  { exCfg96 with
    trend := (piecewiseClass (fun n : ℤ => (n : ℝ)) suggestLinear piecewisePredict exP123).new.embed
      Attrs.piecewiseEmb AnyData.arrayEmb }

theorem exUsual123 : Usual id someCompile id (fun n : ℤ => (n : ℝ)) suggestLinear exP123 exKind96 exCfg123 where
  trend := rfl
  squeeze := rfl
  interval := ⟨1, rfl⟩
  range := ⟨1, rfl⟩
  effects := exUsual96.effects
  default := exUsual96.default
  nodup := exUsual96.nodup
  reserved := exUsual96.reserved
  notTrend := exUsual96.notTrend

theorem exValid123d : ValidParams exP123 exKind96 exCfg123 where
  interval := exValid123.interval
  range := exValid123.range
  plain := .inr ⟨_, rfl⟩
  seasons := exValid123.seasons
  regexes := exValid123.regexes

theorem exTraining123d : Training exCfg123 exY85 "y" (some exX97) exX97 :=
  ⟨exTraining97.flat, exTraining97.column, exTraining97.sorted, exTraining97.some, exTraining97.features,
    exTraining97.dates⟩

theorem exTraining123d' : Training exCfg123 exY123 "y" (some exX97) exX97 :=
  ⟨rfl, rfl, by simp [exY123], by simp [exY123], exTraining97.features, exTraining97.dates⟩

/-- Both fits and both best parameters exist; day 1 is raised by 5, and the sum of the squared movements of the
history, at noise 1/20, is bounded by the 25 of the data. -/
example : ∃ m m' s s' cs θ θ' L L', uniFitData exCfg123 exY85 (some exX97) = .ok m ∧
    uniFitData exCfg123 exY123 (some exX97) = .ok m' ∧
    m.trend.st.2 = .piecewise (some s) ∧ m'.trend.st.2 = .piecewise (some s') ∧ s.cps = [cs] ∧
    BestIn exKind96 .normal cs (1 / 20) 1 (1 / 10) (· = 1 / 20) m θ L ∧
    BestIn exKind96 .normal cs (1 / 20) 1 (1 / 10) (· = 1 / 20) m' θ' L' ∧
    (exY85.rows.map fun r => meanChange id exKind96 (fun n : ℤ => (n : ℝ)) s s' cs exY85 exY123 exX97 m m' θ θ' r.time ^ 2).sum
        / (1 / 20) ^ 2 + offsetChange θ θ' ^ 2 / (1 / 10) ^ 2 ≤ 25 * (1 / (1 / 20) ^ 2 + 1 / (1 / 10) ^ 2) := by
  have hmono : StrictMono fun n : ℤ => (n : ℝ) := fun _ _ h => Int.cast_lt.2 h
  obtain ⟨m, hm⟩ := C98_fits exUsual123 exValid123d hmono exTraining123d (by simp [exY85]) (by rintro _ ⟨⟩ a ha; exact ha)
  obtain ⟨m', hm'⟩ := C98_fits exUsual123 exValid123d hmono exTraining123d' (by simp [exY123]) (by rintro _ ⟨⟩ a ha; exact ha)
  obtain ⟨s, cs, hs, hcs, -⟩ := usual_coords exUsual123 exTraining123d hm (b := 2) rfl exWaves123
  obtain ⟨s', cs', hs', hcs', -⟩ := usual_coords exUsual123 exTraining123d' hm' (b := 2) rfl exWaves123
  have he := (same_design (y := exY85) (y' := exY123) rfl rfl rfl (uniFit_piecewise exUsual123 rfl hm hs)
    (uniFit_piecewise exUsual123 rfl hm' hs')).2
  rw [hcs, hcs'] at he
  cases he
  have hpc : ∀ n, Continuous (exKind96 n).prior := fun n => by
    obtain ⟨sd, -, h⟩ := exPrior123 n
    rw [h]
    exact continuous_normalLP _ _
  have hpt : ∀ n, Tendsto (exKind96 n).prior (cocompact ℝ) atBot := fun n => by
    obtain ⟨sd, h0, h⟩ := exPrior123 n
    rw [h]
    exact tendsto_normalLP _ h0
  have hpr : ∀ n, ConcaveOn ℝ Set.univ (exKind96 n).prior := fun n => by
    obtain ⟨sd, h0, h⟩ := exPrior123 n
    rw [h]
    exact (normalLP_strictConcave _ h0).concaveOn
  obtain ⟨θ, L, hθ⟩ := bestIn_exists exUsual123 exValid123d.plain exTraining123d hm (b := 2) rfl (by norm_num) exWaves123
    hpc hpt hs hcs (1 / 20) 1 (1 / 20) (os := 1 / 10) (by norm_num)
  obtain ⟨θ', L', hθ'⟩ := bestIn_exists exUsual123 exValid123d.plain exTraining123d' hm' (b := 2) rfl (by norm_num)
    exWaves123 hpc hpt hs' hcs' (1 / 20) 1 (1 / 20) (os := 1 / 10) (by norm_num)
  have hadd : ∀ fe ∈ usedEffects exKind96 m, (exKind96 fe.name).modeOf = "additive" := by
    intro fe _
    unfold exKind96
    split <;> rfl
  have h := C123_line exUsual123 rfl rfl hmono exTraining123d exTraining123d'
    (by intro r hr; simp [exY85] at hr ⊢; rcases hr with rfl | rfl | rfl <;> rfl)
    (by intro r hr; simp [exY123] at hr ⊢; rcases hr with rfl | rfl | rfl <;> rfl)
    rfl hm hm' (b := 2) rfl
    (by norm_num) exWaves123 hadd hpr hs hcs hs' hθ hθ'
  refine ⟨m, m', s, s', cs, θ, θ', L, L', hm, hm', hs, hs', hcs, hθ, hθ', ?_⟩
  have h25 : ((exY85.rows.zip exY123.rows).map fun q => (q.2.val "y" - q.1.val "y") ^ 2).sum = 25 := by
    norm_num [exY85, exY123]
  rw [h25] at h
  exact h

end
end PV
