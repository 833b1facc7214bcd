import Verif.Lemmas.Smooth
import Verif.Props.Mirror
import Verif.Props.PriorScale
import Verif.Props.UsualExamples

/-!
# C123: changed observations move the fit by no more than they are changed

The maximum a posteriori fit of an additive model with normal likelihood, at a given noise level, is a
smoother: the fitted values follow changes of the data in the same direction and by at most their size.
-/

set_option linter.unusedSectionVars false

namespace PV
open Tensor Filter

section
variable {τ : Type} [LinearOrder τ]
variable {position : τ → ℤ} {compile : String → PyM (String → Bool)}
  {order : List String → List String} {days : τ → ℝ}
  {p : PiecewiseParams ℝ τ} {kind : String → EffectKind}
  {cfg : UniConfig (UsualAttrs τ) (Scale ℝ) τ ℝ (AnyData ℝ) ℝ} {y y' : Frame String τ ℝ} {c : String}
  {X : Option (Frame String τ ℝ)} {x : Frame String τ ℝ}
  {m m' : UniFit (UsualAttrs τ) (Scale ℝ) τ ℝ (AnyData ℝ) ℝ}

/-! ## Fitting to two targets on the same dates -/

theorem uniFit_trend (hd : cfg.discrete = false) (hfit : uniFitData cfg y X = .ok m) :
    cfg.trend.fit y X cfg.unitScale = .ok m.trend := by
  unfold uniFitData at hfit
  simp only [hd, Bool.false_eq_true, if_false, Bind.bind, Except.bind] at hfit
  split at hfit
  · cases hfit
  rename_i tr htr
  rw [htr]
  split at hfit
  · cases hfit
  split at hfit
  · cases hfit
  split at hfit
  · cases hfit
  split at hfit
  · cases hfit
  split at hfit
  · cases hfit
  split at hfit
  · cases hfit
  cases hfit
  rfl

theorem uniFit_piecewise (hU : Usual position compile order days suggestLinear p kind cfg)
    (hd : cfg.discrete = false) (hfit : uniFitData cfg y X = .ok m) {s : PiecewiseState ℝ τ}
    (hs : m.trend.st.2 = .piecewise (some s)) : piecewiseFit days suggestLinear p y = .ok s := by
  have htf := uniFit_trend hd hfit
  rw [hU.trend] at htf
  obtain ⟨e, he, he'⟩ := embed_fit_ok htf
  obtain ⟨-, s', hs', hpf⟩ := piecewise_fit_state he
  rw [he'] at hs
  simp only [EffectObj.embed, hs'] at hs
  cases hs
  exact hpf

theorem same_design (hl : y.nlevels = 1) (hl' : y'.nlevels = 1) (ht : y'.times = y.times)
    {s s' : PiecewiseState ℝ τ} (h : piecewiseFit days suggestLinear p y = .ok s)
    (h' : piecewiseFit days suggestLinear p y' = .ok s') : s'.time = s.time ∧ s'.cps = s.cps := by
  obtain ⟨tt, cps, y₁, ya, r, h1, h2, -, -, -, rfl⟩ := piecewiseFit_inv h
  obtain ⟨tt', cps', y₁', ya', r', h1', h2', -, -, -, rfl⟩ := piecewiseFit_inv h'
  have e : trendTimeFit days y' = trendTimeFit days y := by
    unfold trendTimeFit
    rw [ht]
    simp only [nSeriesOf, hl, hl', gt_iff_lt, lt_irrefl, if_false]
  rw [e, h1] at h1'
  cases h1'
  rw [ht, h2] at h2'
  cases h2'
  exact ⟨rfl, rfl⟩

theorem same_fitted (hU : Usual position compile order days suggestLinear p kind cfg)
    (ht : y'.times = y.times) (hfit : uniFitData cfg y X = .ok m) (hfit' : uniFitData cfg y' X = .ok m') :
    m'.fitted = m.fitted := by
  obtain ⟨yT, x0, x, -, -, hx0, hx, -, hfe, -⟩ := uniFitData_ok hfit
  obtain ⟨yT', x0', x', -, -, hx0', hx', -, hfe', -⟩ := uniFitData_ok hfit'
  rw [ht, hx0] at hx0'
  cases hx0'
  rw [ht, hx] at hx'
  cases hx'
  rw [fitEffects_target hU y y', hfe] at hfe'
  exact (congrArg Prod.fst (Except.ok.inj hfe')).symm

/-! ## The density as squares -/

/-- The log prior of everything but the offset. -/
noncomputable def otherPrior (kind : String → EffectKind) (b : ℝ) (cs : List ℝ)
    (l : List (FittedEffect (UsualAttrs τ) (Frame String τ ℝ) (Scale ℝ) τ ℝ (AnyData ℝ) ℝ))
    (v : Coords (usedSize kind) cs l → ℝ) : ℝ :=
  ∑ i, coordPrior kind 0 1 b cs l (.inr i) (v (.inr i))

theorem prior_split {μ os b : ℝ} {cs : List ℝ}
    {l : List (FittedEffect (UsualAttrs τ) (Frame String τ ℝ) (Scale ℝ) τ ℝ (AnyData ℝ) ℝ)}
    (v : Coords (usedSize kind) cs l → ℝ) :
    ∑ i, coordPrior kind μ os b cs l i (v i) = normalLP μ os (v (.inl ())) + otherPrior kind b cs l v := by
  unfold otherPrior
  have e : ∑ i, coordPrior kind μ os b cs l i (v i)
      = ∑ i : Unit, coordPrior kind μ os b cs l (.inl i) (v (.inl i))
        + ∑ i, coordPrior kind μ os b cs l (.inr i) (v (.inr i)) := Fintype.sum_sum_type _
  rw [e, Fintype.sum_unique]
  congr 1
  refine Finset.sum_congr rfl fun i _ => ?_
  rcases i with i | i <;> rfl

theorem otherPrior_concave {b : ℝ} (hb : 0 ≤ b) (hpr : ∀ n, ConcaveOn ℝ Set.univ (kind n).prior) {cs : List ℝ}
    {l : List (FittedEffect (UsualAttrs τ) (Frame String τ ℝ) (Scale ℝ) τ ℝ (AnyData ℝ) ℝ)}
    (v v' : Coords (usedSize kind) cs l → ℝ) (a : ℝ) (h0 : 0 ≤ a) (h1 : a ≤ 1) :
    (1 - a) * otherPrior kind b cs l v + a * otherPrior kind b cs l v'
      ≤ otherPrior kind b cs l ((1 - a) • v + a • v') := by
  unfold otherPrior
  rw [Finset.mul_sum, Finset.mul_sum, ← Finset.sum_add_distrib]
  refine Finset.sum_le_sum fun i _ => ?_
  rcases i with i | ⟨k, j⟩
  · exact laplaceLP_mix (by linarith) h0 (by ring) hb _ _
  · exact (hpr l[k].name).2 (Set.mem_univ _) (Set.mem_univ _) (by linarith) h0 (by ring)

theorem normalLP_square (μ σ v : ℝ) :
    normalLP μ σ v = (-Real.log σ - Real.log (2 * Real.pi) / 2) - 1 / σ ^ 2 * (v - μ) ^ 2 / 2 := by
  unfold normalLP
  rcases eq_or_ne σ 0 with rfl | h
  · simp
  · field_simp
    ring

/-- What is compared with what: the offset with its location, the means with the observations. -/
noncomputable def fittedAt {α : Type} {cs : List ℝ}
    {l : List (FittedEffect (UsualAttrs τ) (Frame String τ ℝ) (Scale ℝ) τ ℝ (AnyData ℝ) ℝ)}
    (M : (Coords (usedSize kind) cs l → ℝ) → τ → ℝ) (tm : α → τ) : Option α → (Coords (usedSize kind) cs l → ℝ) → ℝ
  | none, v => v (.inl ())
  | some q, v => M v (tm q)

/-- The best fit in coordinates. -/
theorem best_squares (hU : Usual position compile order days suggestLinear p kind cfg) (hp : Starts p)
    (hT : Training cfg y c X x) (hfit : uniFitData cfg y X = .ok m) {b : ℝ} (hb : p.priorScale = .scalar b)
    (hw : ∀ n ss mode s, kind n = .seasonal ss mode s → waves ss ≠ [])
    {s : PiecewiseState ℝ τ} {cs : List ℝ} (hs : m.trend.st.2 = .piecewise (some s)) (hcs : s.cps = [cs])
    {μ : ℝ} (hμ : s.offsetLoc = [μ]) {ns scale os σ : ℝ} {θ : SiteEnv ℝ} {L : ℝ}
    (hθ : BestIn kind .normal cs ns scale os (· = σ) m θ L)
    {l : List (FittedEffect (UsualAttrs τ) (Frame String τ ℝ) (Scale ℝ) τ ℝ (AnyData ℝ) ℝ)}
    (hl : usedEffects kind m = l) {α : Type} {Z : List α} {tm : α → τ} {z : Option α → ℝ}
    (hZ : y.rows.map (fun r => (r.time, r.val c)) = Z.map fun q => (tm q, z (some q))) (h0 : z none = μ) :
    ∀ u : Coords (usedSize kind) cs l → ℝ,
      otherPrior kind b cs l u - ((none :: Z.map some).map fun d => (d.elim (1 / os ^ 2) fun _ => 1 / σ ^ 2)
          * (z d - fittedAt (coordMean position (firstPosition position y.times) kind days x s cs) tm d u) ^ 2 / 2).sum
        ≤ otherPrior kind b cs l (coordsOf FittedEffect.name θ)
          - ((none :: Z.map some).map fun d => (d.elim (1 / os ^ 2) fun _ => 1 / σ ^ 2)
          * (z d - fittedAt (coordMean position (firstPosition position y.times) kind days x s cs) tm d
            (coordsOf FittedEffect.name θ : Coords (usedSize kind) cs l → ℝ)) ^ 2 / 2).sum := by
  subst hl
  intro u
  obtain ⟨s', cs', hs', hcs', hC⟩ := usual_coords hU hT hfit hb hw
  rw [hs] at hs'
  cases hs'
  rw [hcs] at hcs'
  cases hcs'
  obtain ⟨μ', hμ', hsz, hval, hall⟩ := hC (usual_offset hU hp hT hfit hs).1 (usual_offset hU hp hT hfit hs).2
  rw [hμ] at hμ'
  cases hμ'
  obtain ⟨hz, hN, hL, hmax⟩ := hθ
  have hσ : (θ "noise_scale").data = [σ] := by
    have := hz.noise
    unfold siteScalar at hN
    match h : (θ "noise_scale").data, this with
    | [a], _ =>
      rw [h] at hN
      exact congrArg (fun v => [v]) hN
  have hle := hmax _ _ (hsz u σ) rfl (hval ns scale os σ u)
  rw [hall ns scale os σ θ hz hσ, hval] at hL
  cases hL
  have key : ∀ v : Coords (usedSize kind) cs (usedEffects kind m) → ℝ,
      ∑ i, coordPrior kind μ os b cs (usedEffects kind m) i (v i) + (halfNormalLP ns σ
        + (y.rows.map fun row => normalLP (coordMean position (firstPosition position y.times) kind
            days x s cs v row.time) σ (row.val c)).sum)
      = (otherPrior kind b cs (usedEffects kind m) v
          - ((none :: Z.map some).map fun d => (d.elim (1 / os ^ 2) fun _ => 1 / σ ^ 2)
          * (z d - fittedAt (coordMean position (firstPosition position y.times) kind days x s cs) tm d v) ^ 2 / 2).sum)
        + ((-Real.log os - Real.log (2 * Real.pi) / 2) + halfNormalLP ns σ
          + (Z.map fun _ => (-Real.log σ - Real.log (2 * Real.pi) / 2)).sum) := by
    intro v
    have e1 : (y.rows.map fun row => normalLP (coordMean position (firstPosition position y.times) kind
            days x s cs v row.time) σ (row.val c))
        = Z.map fun q => normalLP (coordMean position (firstPosition position y.times) kind days x s cs v (tm q)) σ
          (z (some q)) := by
      have := congrArg (List.map fun q : τ × ℝ => normalLP (coordMean position (firstPosition position y.times) kind
            days x s cs v q.1) σ q.2) hZ
      rwa [List.map_map, List.map_map] at this
    have e2 : (Z.map fun q => normalLP (coordMean position (firstPosition position y.times) kind days x s cs v (tm q)) σ
          (z (some q))).sum
        = (Z.map fun _ => (-Real.log σ - Real.log (2 * Real.pi) / 2)).sum
          - (Z.map fun q => 1 / σ ^ 2 * (z (some q) - coordMean position (firstPosition position y.times) kind
            days x s cs v (tm q)) ^ 2 / 2).sum := by
      rw [eq_sub_iff_add_eq, sum_two]
      refine congrArg List.sum (List.map_congr_left fun q _ => ?_)
      rw [normalLP_square]
      ring
    rw [prior_split, e1, e2, normalLP_square]
    simp only [List.map_cons, List.map_map, List.sum_cons, Option.elim_none, h0, fittedAt, Function.comp_def,
      Option.elim_some]
    ring
  rw [key, key] at hle
  linarith

/-! ## The claim -/

/-- By how much the fitted mean at `t` changes. -/
noncomputable def meanChange (position : τ → ℤ) (kind : String → EffectKind) (days : τ → ℝ)
    (s s' : PiecewiseState ℝ τ) (cs : List ℝ) (y y' x : Frame String τ ℝ)
    (m m' : UniFit (UsualAttrs τ) (Scale ℝ) τ ℝ (AnyData ℝ) ℝ) (θ θ' : SiteEnv ℝ) (t : τ) : ℝ :=
  usualMean position kind days s' cs y' x m' θ' t - usualMean position kind days s cs y x m θ t

/-- By how much the offset of the trend changes. -/
noncomputable def offsetChange (θ θ' : SiteEnv ℝ) : ℝ := (θ' "offset").data.headD 0 - (θ "offset").data.headD 0

/-- By how much the first observation changes. -/
noncomputable def firstChange (y y' : Frame String τ ℝ) (c : String) : ℝ :=
  (y'.rows.head?.elim 0 fun r => r.val c) - (y.rows.head?.elim 0 fun r => r.val c)

variable (hU : Usual position compile order days suggestLinear p kind cfg) (hp : p.detrend = none)
  (hd : cfg.discrete = false) (hmono : StrictMono days)
  (hT : Training cfg y c X x) (hT' : Training cfg y' c X x) (ht : y'.times = y.times) (h2 : 2 ≤ y.rows.length)
  (hfit : uniFitData cfg y X = .ok m) (hfit' : uniFitData cfg y' X = .ok m')
  {b : ℝ} (hb : p.priorScale = .scalar b) (hb0 : 0 ≤ b)
  (hw : ∀ n ss mode s, kind n = .seasonal ss mode s → waves ss ≠ [])
  (hadd : ∀ fe ∈ usedEffects kind m, (kind fe.name).modeOf = "additive")
  (hpr : ∀ n, ConcaveOn ℝ Set.univ (kind n).prior)
  {s s' : PiecewiseState ℝ τ} {cs : List ℝ} (hs : m.trend.st.2 = .piecewise (some s)) (hcs : s.cps = [cs])
  (hs' : m'.trend.st.2 = .piecewise (some s'))
  {ns scale os σ : ℝ} {θ θ' : SiteEnv ℝ} {L L' : ℝ}
  (hθ : BestIn kind .normal cs ns scale os (· = σ) m θ L)
  (hθ' : BestIn kind .normal cs ns scale os (· = σ) m' θ' L')

theorem first_location (hU : Usual position compile order days suggestLinear p kind cfg) (hp : p.detrend = none)
    (hd : cfg.discrete = false) (hmono : StrictMono days) (hT : Training cfg y c X x) (h2 : 2 ≤ y.rows.length)
    (hfit : uniFitData cfg y X = .ok m) {s : PiecewiseState ℝ τ} (hs : m.trend.st.2 = .piecewise (some s)) :
    s.offsetLoc = [y.rows.head?.elim 0 fun r => r.val c] := by
  have hpf := uniFit_piecewise hU hd hfit hs
  match hr : y.rows, h2 with
  | r0 :: r1 :: rs, _ =>
    exact C42_offset_location hpf hp hT.flat hT.column hr (by simp)
      (by
        rw [Frame.times, List.map_map]
        refine List.pairwise_map.2 (hT.sorted.imp fun h => hmono h))

include hU hd hT hT' ht hfit hfit' hb hb0 hw hadd hpr hs hcs hs' hθ hθ'

/-- **C123**, for whatever the prior of the trend's offset is centred at: the fit follows the data.
Weighted by the precisions of the noise and of the offset, the squares of the changes of the fitted means
and of the offset sum to at most what they share with the changes of the observations and of the centre. -/
theorem C123_centre (hp : Starts p) {μ μ' : ℝ} (hμ : s.offsetLoc = [μ]) (hμ' : s'.offsetLoc = [μ']) :
    (y.rows.map fun r => meanChange position kind days s s' cs y y' x m m' θ θ' r.time ^ 2).sum / σ ^ 2
        + offsetChange θ θ' ^ 2 / os ^ 2
      ≤ ((y.rows.zip y'.rows).map fun q => (q.2.val c - q.1.val c)
          * meanChange position kind days s s' cs y y' x m m' θ θ' q.1.time).sum / σ ^ 2
        + (μ' - μ) * offsetChange θ θ' / os ^ 2 := by
  have hlen : y'.rows.length = y.rows.length := by
    have := congrArg List.length ht
    simpa [Frame.times] using this
  obtain ⟨e1, e2⟩ := same_design hT.flat hT'.flat ht (uniFit_piecewise hU hd hfit hs) (uniFit_piecewise hU hd hfit' hs')
  have hl' : usedEffects kind m' = usedEffects kind m := by
    unfold usedEffects
    rw [same_fitted hU ht hfit hfit']
  have htime : ∀ q ∈ y.rows.zip y'.rows, q.2.time = q.1.time := by
    intro q hq
    obtain ⟨i, hi, rfl⟩ := List.mem_iff_getElem.1 hq
    have h3 : i < y.rows.length := by simp at hi; omega
    have h4 : i < y'.rows.length := by omega
    have := congrArg (fun l => l[i]?) ht
    simpa [Frame.times, h3, h4] using this
  have hZ : y.rows.map (fun r => (r.time, r.val c)) = (y.rows.zip y'.rows).map fun q => (q.1.time, q.1.val c) := by
    conv_lhs => rw [← List.map_fst_zip (l₂ := y'.rows) hlen.ge]
    rw [List.map_map]
    rfl
  have hZ' : y'.rows.map (fun r => (r.time, r.val c)) = (y.rows.zip y'.rows).map fun q => (q.1.time, q.2.val c) := by
    conv_lhs => rw [← List.map_snd_zip (l₁ := y.rows) hlen.le]
    rw [List.map_map]
    exact List.map_congr_left fun q hq => by simp [htime q hq]
  let M := fun v : Coords (usedSize kind) cs (usedEffects kind m) → ℝ =>
    coordMean position (firstPosition position y.times) kind days x s cs v
  have hM : (fun v : Coords (usedSize kind) cs (usedEffects kind m) → ℝ =>
      coordMean position (firstPosition position y'.times) kind days x s' cs v) = M := by
    funext v t
    simp only [M, coordMean, coordTrend, e1, ht]
  let z : Option (Row String τ ℝ × Row String τ ℝ) → ℝ := fun d =>
    d.elim μ fun q => q.1.val c
  let z' : Option (Row String τ ℝ × Row String τ ℝ) → ℝ := fun d =>
    d.elim μ' fun q => q.2.val c
  have b1 := best_squares hU hp hT hfit hb hw hs hcs hμ hθ rfl (z := z) hZ rfl
  have b2 := best_squares hU hp hT' hfit' hb hw hs' (e2.trans hcs) hμ' hθ' hl' (z := z') hZ' rfl
  have hM' : ∀ d u, fittedAt (kind := kind) (fun v : Coords (usedSize kind) cs (usedEffects kind m) → ℝ =>
      coordMean position (firstPosition position y'.times) kind days x s' cs v)
        (fun q : Row String τ ℝ × Row String τ ℝ => q.1.time) d u
      = fittedAt M (fun q : Row String τ ℝ × Row String τ ℝ => q.1.time) d u := fun d u => by rw [hM]
  have b2' : ∀ u, _ := b2
  simp only [hM'] at b2'
  have hseg : ∀ d, Segments (fittedAt M (fun q : Row String τ ℝ × Row String τ ℝ => q.1.time) d) := by
    rintro (_ | q) v v' a
    · rfl
    · exact coordMean_linear hadd (1 - a) a v v' _
  have h := smoother (fun v v' a => otherPrior_concave hb0 hpr v v' a) hseg b1 b2'
  have hz := hθ.1
  have hz' := hθ'.1
  have hΔ : ∀ t, M (coordsOf FittedEffect.name θ') t - M (coordsOf FittedEffect.name θ) t
      = meanChange position kind days s s' cs y y' x m m' θ θ' t := by
    intro t
    unfold meanChange
    rw [usualMean_coordsOf hz]
    congr 1
    have : usualMean position kind days s' cs y' x m' θ' t = usualMean position kind days s cs y x m θ' t := by
      unfold usualMean usualTrend
      rw [hl', e1, ht]
    rw [this, usualMean_coordsOf (hl' ▸ hz')]
  simp only [List.map_cons, List.map_map, List.sum_cons, Option.elim_none, fittedAt, Function.comp_def,
      Option.elim_some, z, z', hΔ, List.sum_map_mul_left] at h
  have hrows : (y.rows.map fun r => meanChange position kind days s s' cs y y' x m m' θ θ' r.time ^ 2).sum
      = ((y.rows.zip y'.rows).map fun q => meanChange position kind days s s' cs y y' x m m' θ θ' q.1.time ^ 2).sum := by
    conv_lhs => rw [← List.map_fst_zip (l₂ := y'.rows) hlen.ge]
    rw [List.map_map]
    rfl
  rw [hrows]
  have ho : (coordsOf FittedEffect.name θ' : Coords (usedSize kind) cs (usedEffects kind m) → ℝ) (.inl ())
      - (coordsOf FittedEffect.name θ : Coords (usedSize kind) cs (usedEffects kind m) → ℝ) (.inl ())
      = offsetChange θ θ' := rfl
  rw [ho] at h
  simp only [div_eq_mul_inv, one_mul] at h ⊢
  linarith
/-- **C123**: hence no large movement of the fit comes from small movements of the data and of the
centre of the prior. -/
theorem C123_centre_lipschitz (hp : Starts p) {μ μ' : ℝ} (hμ : s.offsetLoc = [μ]) (hμ' : s'.offsetLoc = [μ']) :
    (y.rows.map fun r => meanChange position kind days s s' cs y y' x m m' θ θ' r.time ^ 2).sum / σ ^ 2
        + offsetChange θ θ' ^ 2 / os ^ 2
      ≤ ((y.rows.zip y'.rows).map fun q => (q.2.val c - q.1.val c) ^ 2).sum / σ ^ 2
        + (μ' - μ) ^ 2 / os ^ 2 := by
  have h := C123_centre hU hd hT hT' ht hfit hfit' hb hb0 hw hadd hpr hs hcs hs' hθ hθ' hp hμ hμ'
  have hlen : y'.rows.length = y.rows.length := by
    have := congrArg List.length ht
    simpa [Frame.times] using this
  have hrows : (y.rows.map fun r => meanChange position kind days s s' cs y y' x m m' θ θ' r.time ^ 2).sum
      = ((y.rows.zip y'.rows).map fun q => meanChange position kind days s s' cs y y' x m m' θ θ' q.1.time ^ 2).sum := by
    conv_lhs => rw [← List.map_fst_zip (l₂ := y'.rows) hlen.ge]
    rw [List.map_map]
    rfl
  rw [hrows] at h ⊢
  have g := smaller_of_smooth (D := none :: (y.rows.zip y'.rows).map some)
    (w := fun d => d.elim (1 / os ^ 2) fun _ => 1 / σ ^ 2)
    (f := fun d => d.elim (offsetChange θ θ') fun q => meanChange position kind days s s' cs y y' x m m' θ θ' q.1.time)
    (g := fun d => d.elim (μ' - μ) fun q => q.2.val c - q.1.val c)
    (by rintro (_ | q) _ <;> simp <;> positivity)
  simp only [List.map_cons, List.map_map, List.sum_cons, Option.elim_none, Function.comp_def, Option.elim_some,
    List.sum_map_mul_left] at g
  simp only [div_eq_mul_inv, one_mul] at g h ⊢
  have := g (by linarith)
  linarith

include hp hmono h2

/-- **C123**: the fit follows the data: weighted by the precisions of the noise and of the offset, the
squares of the changes of the fitted means and of the offset sum to at most what they share with the
changes of the observations. -/
theorem C123_smooth :
    (y.rows.map fun r => meanChange position kind days s s' cs y y' x m m' θ θ' r.time ^ 2).sum / σ ^ 2
        + offsetChange θ θ' ^ 2 / os ^ 2
      ≤ ((y.rows.zip y'.rows).map fun q => (q.2.val c - q.1.val c)
          * meanChange position kind days s s' cs y y' x m m' θ θ' q.1.time).sum / σ ^ 2
        + firstChange y y' c * offsetChange θ θ' / os ^ 2 := by
  have hlen : y'.rows.length = y.rows.length := by
    have := congrArg List.length ht
    simpa [Frame.times] using this
  exact C123_centre hU hd hT hT' ht hfit hfit' hb hb0 hw hadd hpr hs hcs hs' hθ hθ' (.inl hp)
    (first_location hU hp hd hmono hT h2 hfit hs) (first_location hU hp hd hmono hT' (by omega) hfit' hs')

/-- **C123**: hence no large movement of the fit comes from small movements of the data. -/
theorem C123_lipschitz :
    (y.rows.map fun r => meanChange position kind days s s' cs y y' x m m' θ θ' r.time ^ 2).sum / σ ^ 2
        + offsetChange θ θ' ^ 2 / os ^ 2
      ≤ ((y.rows.zip y'.rows).map fun q => (q.2.val c - q.1.val c) ^ 2).sum / σ ^ 2
        + firstChange y y' c ^ 2 / os ^ 2 := by
  have hlen : y'.rows.length = y.rows.length := by
    have := congrArg List.length ht
    simpa [Frame.times] using this
  exact C123_centre_lipschitz hU hd hT hT' ht hfit hfit' hb hb0 hw hadd hpr hs hcs hs' hθ hθ' (.inl hp)
    (first_location hU hp hd hmono hT h2 hfit hs) (first_location hU hp hd hmono hT' (by omega) hfit' hs')

/-- **C123**: one outlier.  If only the observation at one date other than the first is changed, the
fitted mean there moves in the same direction, and nowhere in the history does it move by more than the
observation. -/
theorem C123_outlier (hσ : σ ≠ 0) {q₀ : Row String τ ℝ × Row String τ ℝ} (hq : q₀ ∈ y.rows.zip y'.rows)
    (hfirst : ∃ t ∈ y.times, t < q₀.1.time)
    (hsame : ∀ q ∈ y.rows.zip y'.rows, q.1.time ≠ q₀.1.time → q.2.val c = q.1.val c) :
    0 ≤ (q₀.2.val c - q₀.1.val c) * meanChange position kind days s s' cs y y' x m m' θ θ' q₀.1.time ∧
    (∀ r ∈ y.rows, |meanChange position kind days s s' cs y y' x m m' θ θ' r.time| ≤ |q₀.2.val c - q₀.1.val c|) ∧
    (y.rows.map fun r => meanChange position kind days s s' cs y y' x m m' θ θ' r.time ^ 2).sum
      ≤ (q₀.2.val c - q₀.1.val c) ^ 2 := by
  have h := C123_smooth hU hp hd hmono hT hT' ht h2 hfit hfit' hb hb0 hw hadd hpr hs hcs hs' hθ hθ'
  have hlen : y'.rows.length = y.rows.length := by
    have := congrArg List.length ht
    simpa [Frame.times] using this
  -- the first observation is not changed
  have hf : firstChange y y' c = 0 := by
    unfold firstChange
    match hr : y.rows, hr' : y'.rows, hlen, h2 with
    | r :: rs, r' :: rs', _, _ =>
      have hne : r.time ≠ q₀.1.time := by
        obtain ⟨t, h3, h4⟩ := hfirst
        have hsort := hT.sorted
        rw [Frame.times, hr] at h3
        rw [hr] at hsort
        simp only [List.map_cons, List.mem_cons, List.mem_map] at h3
        rcases h3 with rfl | ⟨r₂, h5, rfl⟩
        · exact h4.ne
        · exact ((List.rel_of_pairwise_cons hsort h5).trans h4).ne
      have := hsame (r, r') (by rw [hr, hr']; simp) hne
      exact sub_eq_zero.2 this
  -- only one term is left
  have hone : ((y.rows.zip y'.rows).map fun q => (q.2.val c - q.1.val c)
          * meanChange position kind days s s' cs y y' x m m' θ θ' q.1.time).sum
      = (q₀.2.val c - q₀.1.val c) * meanChange position kind days s s' cs y y' x m m' θ θ' q₀.1.time := by
    obtain ⟨l₁, l₂, hl⟩ := List.append_of_mem hq
    have htm : ∀ q ∈ l₁ ++ l₂, q.1.time ≠ q₀.1.time := by
      have hp2 : ((y.rows.zip y'.rows).map fun q => q.1.time).Nodup := by
        have : (y.rows.zip y'.rows).map (fun q => q.1.time) = y.times := by
          rw [Frame.times]
          conv_rhs => rw [← List.map_fst_zip (l₂ := y'.rows) hlen.ge]
          rw [List.map_map]
          rfl
        rw [this]
        exact List.pairwise_map.2 (hT.sorted.imp fun h => h.ne)
      rw [hl, List.map_append, List.map_cons] at hp2
      intro q hq e
      have h6 := List.nodup_middle.1 hp2
      rw [← List.map_append, List.nodup_cons] at h6
      exact h6.1 (e ▸ List.mem_map_of_mem hq)
    have hz : ∀ l : List (Row String τ ℝ × Row String τ ℝ), (∀ q ∈ l, q ∈ l₁ ++ l₂) →
        (l.map fun q => (q.2.val c - q.1.val c)
          * meanChange position kind days s s' cs y y' x m m' θ θ' q.1.time).sum = 0 := by
      intro l hsub
      refine List.sum_eq_zero fun v hv => ?_
      obtain ⟨q, hq', rfl⟩ := List.mem_map.1 hv
      have h7 := hsub q hq'
      rw [hsame q (by rw [hl]; simp only [List.mem_append, List.mem_cons] at h7 ⊢; tauto) (htm q h7)]
      ring
    rw [hl, List.map_append, List.map_cons, List.sum_append, List.sum_cons,
      hz l₁ fun q h => List.mem_append_left _ h, hz l₂ fun q h => List.mem_append_right _ h]
    ring
  rw [hf, hone, zero_mul, zero_div, add_zero] at h
  have hσ2 : 0 < σ ^ 2 := by positivity
  have h3 : 0 ≤ offsetChange θ θ' ^ 2 / os ^ 2 := by positivity
  have h4 : (y.rows.map fun r => meanChange position kind days s s' cs y y' x m m' θ θ' r.time ^ 2).sum
      ≤ (q₀.2.val c - q₀.1.val c) * meanChange position kind days s s' cs y y' x m m' θ θ' q₀.1.time := by
    have := (le_add_of_nonneg_right h3).trans h
    exact (div_le_div_iff_of_pos_right hσ2).1 this
  have h5 : ∀ r ∈ y.rows, meanChange position kind days s s' cs y y' x m m' θ θ' r.time ^ 2
      ≤ (y.rows.map fun r => meanChange position kind days s s' cs y y' x m m' θ θ' r.time ^ 2).sum := by
    intro r hr
    refine List.single_le_sum (fun v hv => ?_) _ (List.mem_map_of_mem (f := fun r : Row String τ ℝ =>
      meanChange position kind days s s' cs y y' x m m' θ θ' r.time ^ 2) hr)
    obtain ⟨r', -, rfl⟩ := List.mem_map.1 hv
    positivity
  have h6 := (h5 q₀.1 (List.of_mem_zip hq).1).trans h4
  set Δ := meanChange position kind days s s' cs y y' x m m' θ θ' q₀.1.time
  set δ := q₀.2.val c - q₀.1.val c
  have h7 : δ * Δ ≤ δ ^ 2 := by nlinarith [sq_nonneg (Δ - δ)]
  refine ⟨(sq_nonneg _).trans h6, fun r hr => ?_, h4.trans h7⟩
  exact sq_le_sq.1 (((h5 r hr).trans h4).trans h7)

omit hT' ht hfit' hs' hθ' hp hmono h2 in
/-- **C123**: the fitted history is unique: best fits for the same noise level have the same means at all
training dates and the same offset of the trend. -/
theorem C123_unique (hp : Starts p) (hσ : σ ≠ 0) (hos : os ≠ 0) {θ' : SiteEnv ℝ} {L' : ℝ}
    (hθ' : BestIn kind .normal cs ns scale os (· = σ) m θ' L') :
    (∀ r ∈ y.rows, usualMean position kind days s cs y x m θ' r.time = usualMean position kind days s cs y x m θ r.time) ∧
      (θ' "offset").data = (θ "offset").data := by
  obtain ⟨μ, hμ⟩ := List.length_eq_one_iff.1 (usual_offset hU hp hT hfit hs).1
  have h := C123_centre_lipschitz hU hd hT hT rfl hfit hfit hb hb0 hw hadd hpr hs hcs hs hθ hθ' hp hμ hμ
  have h0 : ((y.rows.zip y.rows).map fun q => (q.2.val c - q.1.val c) ^ 2).sum = 0 := by
    refine List.sum_eq_zero fun v hv => ?_
    obtain ⟨q, hq, rfl⟩ := List.mem_map.1 hv
    obtain ⟨i, hi, rfl⟩ := List.mem_iff_getElem.1 hq
    simp
  rw [h0, sub_self] at h
  have h1 : 0 ≤ (y.rows.map fun r => meanChange position kind days s s cs y y x m m θ θ' r.time ^ 2).sum := by
    refine List.sum_nonneg fun v hv => ?_
    obtain ⟨r, -, rfl⟩ := List.mem_map.1 hv
    positivity
  have h3 : 0 ≤ (y.rows.map fun r => meanChange position kind days s s cs y y x m m θ θ' r.time ^ 2).sum / σ ^ 2 := by
    positivity
  have h4 : 0 ≤ offsetChange θ θ' ^ 2 / os ^ 2 := by positivity
  have h5 : offsetChange θ θ' ^ 2 / os ^ 2 = 0 := le_antisymm (by norm_num at h; linarith) h4
  have h6 : (y.rows.map fun r => meanChange position kind days s s cs y y x m m θ θ' r.time ^ 2).sum / σ ^ 2 = 0 :=
    le_antisymm (by norm_num at h; linarith) h3
  constructor
  · intro r hr
    have h7 := (div_eq_zero_iff.1 h6).resolve_right (by positivity)
    have h8 : meanChange position kind days s s cs y y x m m θ θ' r.time ^ 2 ≤ 0 := by
      rw [← h7]
      refine List.single_le_sum (fun v hv => ?_) _ (List.mem_map_of_mem (f := fun r : Row String τ ℝ =>
        meanChange position kind days s s cs y y x m m θ θ' r.time ^ 2) hr)
      obtain ⟨r', -, rfl⟩ := List.mem_map.1 hv
      positivity
    exact sub_eq_zero.1 (pow_eq_zero_iff two_ne_zero |>.1 (le_antisymm h8 (sq_nonneg _)))
  · have h7 := (div_eq_zero_iff.1 h5).resolve_right (by positivity)
    have h8 := sub_eq_zero.1 (pow_eq_zero_iff two_ne_zero |>.1 h7)
    obtain ⟨o, ho⟩ := hθ.1.trend.1
    obtain ⟨o', ho'⟩ := hθ'.1.trend.1
    rw [ho, ho'] at h8 ⊢
    simp only [List.headD_cons] at h8
    rw [h8]

end
/-! ## Examples

Observations 1, 3, 4 at the days 0, 1, 2 with an additive weekly seasonality and three additive columns;
then the observation of day 1 becomes 8. -/

noncomputable section

def exY123 : Frame String Int ℝ :=
  ⟨1, ["y"], [⟨[], 0, fun _ => 1⟩, ⟨[], 1, fun _ => 8⟩, ⟨[], 2, fun _ => 4⟩]⟩

theorem exTraining123 : Training exCfg96 exY85 "y" (some exX97) exX97 :=
  ⟨exTraining97.flat, exTraining97.column, exTraining97.sorted, exTraining97.some, exTraining97.features,
    exTraining97.dates⟩

theorem exTraining123' : Training exCfg96 exY123 "y" (some exX97) exX97 :=
  ⟨rfl, rfl, by simp [exY123], by simp [exY123], exTraining97.features, exTraining97.dates⟩

theorem exValid123 : ValidParams exP85 exKind96 exCfg96 where
  interval := by intro i hi; cases hi; norm_num
  range := by intro i hi; cases hi; norm_num
  plain := .inl rfl
  seasons := by
    intro n
    unfold exKind96
    split
    · intro s hs
      cases List.mem_singleton.1 hs
      norm_num
    · trivial
  regexes := by
    intro e he r hr
    cases List.mem_singleton.1 he
    cases hr

theorem exWaves123 (n : String) (ss : List Season) (mode : String) (s : ℝ)
    (h : exKind96 n = .seasonal ss mode s) : waves ss ≠ [] := by
  unfold exKind96 at h
  split at h
  · cases h
    have : (waves exSeason95).map Wave.name = ["sin_7_1", "cos_7_1"] := by decide +kernel
    intro h
    rw [h] at this
    cases this
  · cases h

theorem exPrior123 (n : String) : ∃ s : ℝ, s ≠ 0 ∧ (exKind96 n).prior = normalLP 0 s := by
  unfold exKind96
  split
  · exact ⟨10, by norm_num, rfl⟩
  · exact ⟨1, by norm_num, rfl⟩

/-- Both best fits exist; day 1 is raised by at most 5, and no day of the history moves by more than 5. -/
example : ∃ m m' s s' cs θ θ' L L', uniFitData exCfg96 exY85 (some exX97) = .ok m ∧
    uniFitData exCfg96 exY123 (some exX97) = .ok m' ∧
    m.trend.st.2 = .piecewise (some s) ∧ m'.trend.st.2 = .piecewise (some s') ∧ s.cps = [cs] ∧
    BestIn exKind96 .normal cs (1 / 20) 1 (1 / 10) (· = 1 / 20) m θ L ∧
    BestIn exKind96 .normal cs (1 / 20) 1 (1 / 10) (· = 1 / 20) m' θ' L' ∧
    0 ≤ meanChange id exKind96 (fun n : ℤ => (n : ℝ)) s s' cs exY85 exY123 exX97 m m' θ θ' 1 ∧
    ∀ t ∈ [0, 1, 2], |meanChange id exKind96 (fun n : ℤ => (n : ℝ)) s s' cs exY85 exY123 exX97 m m' θ θ' t| ≤ 5 := by
  have hmono : StrictMono fun n : ℤ => (n : ℝ) := fun _ _ h => Int.cast_lt.2 h
  obtain ⟨m, hm⟩ := C98_fits exUsual96 exValid123 hmono exTraining123 (by simp [exY85]) (by rintro _ ⟨⟩ a ha; exact ha)
  obtain ⟨m', hm'⟩ := C98_fits exUsual96 exValid123 hmono exTraining123' (by simp [exY123]) (by rintro _ ⟨⟩ a ha; exact ha)
  obtain ⟨s, cs, hs, hcs, -⟩ := usual_coords exUsual96 exTraining123 hm (b := 2) rfl exWaves123
  obtain ⟨s', cs', hs', hcs', -⟩ := usual_coords exUsual96 exTraining123' hm' (b := 2) rfl exWaves123
  have he := (same_design rfl rfl rfl (uniFit_piecewise exUsual96 rfl hm hs) (uniFit_piecewise exUsual96 rfl hm' hs')).2
  rw [hcs, hcs'] at he
  cases he
  have hpc : ∀ n, Continuous (exKind96 n).prior := fun n => by
    obtain ⟨sd, -, h⟩ := exPrior123 n
    rw [h]
    exact continuous_normalLP _ _
  have hpt : ∀ n, Tendsto (exKind96 n).prior (cocompact ℝ) atBot := fun n => by
    obtain ⟨sd, h0, h⟩ := exPrior123 n
    rw [h]
    exact tendsto_normalLP _ h0
  have hpr : ∀ n, ConcaveOn ℝ Set.univ (exKind96 n).prior := fun n => by
    obtain ⟨sd, h0, h⟩ := exPrior123 n
    rw [h]
    exact (normalLP_strictConcave _ h0).concaveOn
  obtain ⟨θ, L, hθ⟩ := bestIn_exists exUsual96 (.inl rfl) exTraining123 hm (b := 2) rfl (by norm_num) exWaves123 hpc hpt hs hcs
    (1 / 20) 1 (1 / 20) (os := 1 / 10) (by norm_num)
  obtain ⟨θ', L', hθ'⟩ := bestIn_exists exUsual96 (.inl rfl) exTraining123' hm' (b := 2) rfl (by norm_num) exWaves123 hpc hpt
    hs' hcs' (1 / 20) 1 (1 / 20) (os := 1 / 10) (by norm_num)
  have hadd : ∀ fe ∈ usedEffects exKind96 m, (exKind96 fe.name).modeOf = "additive" := by
    intro fe _
    unfold exKind96
    split <;> rfl
  have h := C123_outlier exUsual96 rfl rfl hmono exTraining123 exTraining123' rfl (by simp [exY85]) hm hm' (b := 2) rfl
    (by norm_num) exWaves123 hadd hpr hs hcs hs' hθ hθ' (by norm_num)
    (q₀ := (⟨[], 1, fun _ => 3⟩, ⟨[], 1, fun _ => 8⟩)) (by simp [exY85, exY123])
    ⟨0, by simp [exY85, Frame.times], by norm_num⟩ (by
      intro q hq hne
      simp only [exY85, exY123, List.zip_cons_cons, List.zip_nil_right, List.mem_cons, List.not_mem_nil, or_false] at hq
      rcases hq with rfl | rfl | rfl
      · rfl
      · exact absurd rfl hne
      · rfl)
  norm_num at h
  refine ⟨m, m', s, s', cs, θ, θ', L, L', hm, hm', hs, hs', hcs, hθ, hθ', h.1, ?_⟩
  have h5 := h.2.1
  simp only [exY85, List.mem_cons, List.not_mem_nil, or_false, forall_eq_or_imp, forall_eq] at h5 ⊢
  exact h5

end
end PV
