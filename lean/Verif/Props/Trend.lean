import Verif.Lemmas.Gamma
import Verif.Lemmas.TrendTensor
import Verif.Props.Changepoints

/-!
# C37, C38, C39: the values of the trends
-/

namespace PV
open Tensor
section
variable {K : Type} [Field K] [LinearOrder K] [IsStrictOrderedRing K]

/-! ## C37: linear between changepoints -/

/-- The sum of the coefficients of the changepoints passed at time `t`. -/
def slopeAt (cs bs : List K) (t : K) : K :=
  ((cs.zip bs).map fun p => if p.1 ≤ t then p.2 else 0).sum

theorem trendAt_diff {o t t' : K} : ∀ {cs bs : List K}, (∀ c ∈ cs, c ≤ t ↔ c ≤ t') →
    trendAt rampEntry o cs bs t' - trendAt rampEntry o cs bs t = slopeAt cs bs t * (t' - t)
  | [], bs, _ => by simp [trendAt, slopeAt]
  | c :: cs, [], _ => by simp [trendAt, slopeAt]
  | c :: cs, b :: bs, h => by
    have ih := trendAt_diff (o := o) (bs := bs) fun x hx => h x (List.mem_cons_of_mem c hx)
    have hc := h c (by simp)
    have hr : rampEntry t' c - rampEntry t c = (if c ≤ t then 1 else 0) * (t' - t) := by
      rw [rampEntry_eq, rampEntry_eq]
      by_cases h1 : c ≤ t
      · have h2 := hc.1 h1
        rw [if_pos h1, if_pos h2, if_pos h1, max_eq_left (by linarith), max_eq_left (by linarith)]
        ring
      · rw [if_neg h1, if_neg (fun h2 => h1 (hc.2 h2)), if_neg h1]
        ring
    unfold trendAt slopeAt at ih ⊢
    simp only [List.zipWith_cons_cons, List.sum_cons, List.zip_cons_cons, List.map_cons]
    have e : (if c ≤ t then b else 0) = b * (if c ≤ t then 1 else 0) := by split <;> simp
    rw [e, add_mul, ← ih, mul_assoc, ← hr]
    ring

/-- **C37** for a single series: between two times of the transformed horizon not separated by a
changepoint the predicted trend changes by the sum of the coefficients of the changepoints passed
times the difference of the times. -/
theorem C37_linear {n : Nat} {cs bs ts : List K} {m r : Tensor K} {θ : SiteEnv K}
    {p : PyDict (Tensor K)} {o t t' v v' : K} {j j' : Nat}
    (hm : changepointMatrix true [cs] ts = .ok m) (hβ : cs.length = bs.length)
    (hθ : (θ "changepoint_coefficients").data = bs) (ho : θ "offset" = ⟨[1], [o]⟩)
    (hr : piecewisePredict true n θ m p = .ok r) (hj : ts[j]? = some t) (hj' : ts[j']? = some t')
    (hv : r.get? [j, 0] = some v) (hv' : r.get? [j', 0] = some v')
    (hsep : ∀ c ∈ cs, c ≤ t ↔ c ≤ t') : v' - v = slopeAt cs bs t * (t' - t) := by
  obtain ⟨r', h1, -, -, h2⟩ := piecewisePredict_single (n := n) (p := p) hm hβ hθ ho
  rw [hr] at h1
  cases h1
  rw [h2 j t hj] at hv
  rw [h2 j' t' hj'] at hv'
  rw [← Option.some.inj hv, ← Option.some.inj hv', trendAt_diff hsep]

/-- **C37** for a panel: the same for each series with its own changepoints and coefficients. -/
theorem C37_linear_panel {squeeze : Bool} {n : Nat} {cps βs : List (List K)} {ts : List K}
    {m r : Tensor K} {θ : SiteEnv K} {p : PyDict (Tensor K)} {offs cs bs : List K} {t t' v v' : K}
    {i j j' : Nat}
    (hm : changepointMatrix squeeze cps ts = .ok m) (hs : cps.length ≠ 1 ∨ squeeze = false)
    (hn : n ≠ 1 ∨ squeeze = false)
    (hβ : List.Forall₂ (fun c b : List K => c.length = b.length) cps βs)
    (hθ : (θ "changepoint_coefficients").data = βs.flatten) (ho : (θ "offset").data = offs)
    (hol : offs.length = cps.length)
    (hr : piecewisePredict squeeze n θ m p = .ok r) (hj : ts[j]? = some t) (hj' : ts[j']? = some t')
    (hcs : cps[i]? = some cs) (hbs : βs[i]? = some bs)
    (hv : r.get? [i, j, 0] = some v) (hv' : r.get? [i, j', 0] = some v')
    (hsep : ∀ c ∈ cs, c ≤ t ↔ c ≤ t') : v' - v = slopeAt cs bs t * (t' - t) := by
  obtain ⟨r', h1, -, -, h2⟩ := piecewisePredict_panel (p := p) hm hs hn hβ hθ ho hol
  rw [hr] at h1
  cases h1
  obtain ⟨hi, -⟩ := List.getElem?_eq_some_iff.1 hcs
  have ho' := List.getElem?_eq_getElem (l := offs) (i := i) (by omega)
  rw [h2 i j cs bs _ t hcs hbs ho' hj] at hv
  rw [h2 i j' cs bs _ t' hcs hbs ho' hj'] at hv'
  rw [← Option.some.inj hv, ← Option.some.inj hv', trendAt_diff hsep]

/-- **C37**: at times from the last changepoint on, the slope is the sum of all coefficients. -/
theorem C37_last_slope {cs bs : List K} {t : K} (hl : cs.length = bs.length)
    (h : ∀ c ∈ cs, c ≤ t) : slopeAt cs bs t = bs.sum := by
  unfold slopeAt
  have : ((cs.zip bs).map fun p => if p.1 ≤ t then p.2 else 0) = bs := by
    conv_rhs => rw [← List.map_snd_zip (l₁ := cs) (l₂ := bs) (by omega)]
    apply List.map_congr_left
    intro p hp
    rw [if_pos (h p.1 (List.of_mem_zip hp).1)]
  rw [this]

/-! ## C38: series are independent -/

theorem trendAt_ramp {o t : K} : ∀ {cs bs : List K}, (∀ c ∈ cs, c ≤ t ∨ 1 ≤ c) →
    trendAt rampEntry o cs bs t = trendAt ramp o cs bs t
  | [], bs, _ => by simp [trendAt]
  | c :: cs, [], _ => by simp [trendAt]
  | c :: cs, b :: bs, h => by
    have ih := trendAt_ramp (o := o) (bs := bs) fun x hx => h x (List.mem_cons_of_mem c hx)
    unfold trendAt at ih ⊢
    simp only [List.zipWith_cons_cons, List.sum_cons]
    rw [C36_ramp_partial (h c (by simp))]
    linarith

/-- **C38**: in a panel the trend of series `i` at the `j`-th time is its own offset plus its own
coefficients times the design of its own changepoints, whatever the other series have; the design is
the ramp of C36 (under the hypothesis of C36). -/
theorem C38_own_trend {squeeze : Bool} {n : Nat} {cps βs : List (List K)} {ts : List K}
    {m : Tensor K} {θ : SiteEnv K} {p : PyDict (Tensor K)} {offs : List K}
    (hm : changepointMatrix squeeze cps ts = .ok m) (hs : cps.length ≠ 1 ∨ squeeze = false)
    (hn : n ≠ 1 ∨ squeeze = false)
    (hβ : List.Forall₂ (fun c b : List K => c.length = b.length) cps βs)
    (hθ : (θ "changepoint_coefficients").data = βs.flatten) (ho : (θ "offset").data = offs)
    (hol : offs.length = cps.length) :
    ∃ r, piecewisePredict squeeze n θ m p = .ok r ∧ r.shape = [cps.length, ts.length, 1] ∧
      ∀ i j cs bs o t, cps[i]? = some cs → βs[i]? = some bs → offs[i]? = some o → ts[j]? = some t →
        r.get? [i, j, 0] = some (trendAt rampEntry o cs bs t) ∧
        ((∀ c ∈ cs, c ≤ t ∨ 1 ≤ c) → r.get? [i, j, 0] = some (trendAt ramp o cs bs t)) := by
  obtain ⟨r, h1, h2, -, h3⟩ := piecewisePredict_panel (p := p) hm hs hn hβ hθ ho hol
  refine ⟨r, h1, h2, fun i j cs bs o t a b c d => ⟨h3 i j cs bs o t a b c d, fun hc => ?_⟩⟩
  rw [h3 i j cs bs o t a b c d, trendAt_ramp hc]

/-- **C38**: two models that agree on series `i` (changepoints, coefficients, offset) have the same
trend of series `i` at the same time, whatever the other series, their number and the other times. -/
theorem C38_no_influence {squeeze squeeze' : Bool} {n n' : Nat} {cps βs cps' βs' : List (List K)}
    {ts ts' : List K} {m m' r r' : Tensor K} {θ θ' : SiteEnv K} {p p' : PyDict (Tensor K)}
    {offs offs' cs bs : List K} {o t : K} {i i' j j' : Nat}
    (hm : changepointMatrix squeeze cps ts = .ok m) (hs : cps.length ≠ 1 ∨ squeeze = false)
    (hn : n ≠ 1 ∨ squeeze = false)
    (hβ : List.Forall₂ (fun c b : List K => c.length = b.length) cps βs)
    (hθ : (θ "changepoint_coefficients").data = βs.flatten) (ho : (θ "offset").data = offs)
    (hol : offs.length = cps.length) (hr : piecewisePredict squeeze n θ m p = .ok r)
    (hm' : changepointMatrix squeeze' cps' ts' = .ok m') (hs' : cps'.length ≠ 1 ∨ squeeze' = false)
    (hn' : n' ≠ 1 ∨ squeeze' = false)
    (hβ' : List.Forall₂ (fun c b : List K => c.length = b.length) cps' βs')
    (hθ' : (θ' "changepoint_coefficients").data = βs'.flatten) (ho' : (θ' "offset").data = offs')
    (hol' : offs'.length = cps'.length) (hr' : piecewisePredict squeeze' n' θ' m' p' = .ok r')
    (h1 : cps[i]? = some cs) (h2 : βs[i]? = some bs) (h3 : offs[i]? = some o) (h4 : ts[j]? = some t)
    (h1' : cps'[i']? = some cs) (h2' : βs'[i']? = some bs) (h3' : offs'[i']? = some o)
    (h4' : ts'[j']? = some t) : r.get? [i, j, 0] = r'.get? [i', j', 0] := by
  obtain ⟨_, e, -, -, g⟩ := piecewisePredict_panel (p := p) hm hs hn hβ hθ ho hol
  obtain ⟨_, e', -, -, g'⟩ := piecewisePredict_panel (p := p') hm' hs' hn' hβ' hθ' ho' hol'
  rw [hr] at e
  rw [hr'] at e'
  cases e; cases e'
  rw [g i j cs bs o t h1 h2 h3 h4, g' i' j' cs bs o t h1' h2' h3' h4']

/-- **C38**: a single series has the same kind of trend, as a column. -/
theorem C38_single {n : Nat} {cs bs ts : List K} {m : Tensor K} {θ : SiteEnv K}
    {p : PyDict (Tensor K)} {o : K}
    (hm : changepointMatrix true [cs] ts = .ok m) (hβ : cs.length = bs.length)
    (hθ : (θ "changepoint_coefficients").data = bs) (ho : θ "offset" = ⟨[1], [o]⟩) :
    ∃ r, piecewisePredict true n θ m p = .ok r ∧ r.shape = [ts.length, 1] ∧
      ∀ j t, ts[j]? = some t → r.get? [j, 0] = some (trendAt rampEntry o cs bs t) ∧
        ((∀ c ∈ cs, c ≤ t ∨ 1 ≤ c) → r.get? [j, 0] = some (trendAt ramp o cs bs t)) := by
  obtain ⟨r, h1, h2, -, h3⟩ := piecewisePredict_single (n := n) (p := p) hm hβ hθ ho
  refine ⟨r, h1, h2, fun j t d => ⟨h3 j t d, fun hc => ?_⟩⟩
  rw [h3 j t d, trendAt_ramp hc]

/-! ## C39: the flat trend -/

theorem bcShape_flat (n : Nat) : bcShape [n, 1] [1] = some [n, 1] := by
  simp [bcShape, bcRev]

/-- **C39**, the values, for a plain time index: one row per row of `X` (after the restriction to
the horizon), all with the value of the coefficient.
Missing from C39: panels, for which the trend has one row per (series, time) in one dimension instead
of one row per time for each series (`C39_panel_refuted`). -/
theorem C39_constant_partial {V τ : Type} {θ : SiteEnv K} {p : PyDict (Tensor K)} {b : K}
    (hθ : θ "trend_flat_coefficient" = ⟨[1], [b]⟩) (x : Frame String τ V) :
    flatPredict θ (flatTransform x) p = .ok ⟨[x.rows.length, 1], List.replicate x.rows.length b⟩ := by
  unfold flatPredict
  rw [hθ]
  have hsh : (flatTransform x : Tensor K).shape = [x.rows.length, 1] := rfl
  unfold binop
  rw [hsh, bcShape_flat]
  simp only
  congr 1
  refine ext_of_get? (wf_ofFn _ _) (by simp [WF, size]) rfl ?_
  intro idx hidx
  replace hidx : InBounds [x.rows.length, 1] idx := hidx
  rw [get?_ofFn hidx]
  match idx, hidx with
  | [i, j], ⟨hi, hj, _⟩ =>
    have hj0 : j = 0 := by omega
    subst hj0
    rw [bcIdx_self (s := [x.rows.length, 1]) (idx := [i, 0]) (by simp [InBounds, hi])]
    simp [get?, ravel, size, bcIdx, flatTransform, hi]

end

/-- **C39**, the prior: the coefficient has mean the average of the training target and standard
deviation `changepoint_prior_scale`. -/
theorem C39_prior {τ : Type} {y : Frame String τ ℝ} {target : String} {loc scale : ℝ}
    (h : flatFit y target = .ok loc) (hpos : 0 < loc) (hs : 0 < scale) :
    loc = (y.rows.map fun r => r.val target).sum / y.rows.length ∧
    ∫ x, x ∂ProbabilityTheory.gammaMeasure (flatPrior loc scale).1 (flatPrior loc scale).2 = loc ∧
    ProbabilityTheory.variance (fun x => x)
      (ProbabilityTheory.gammaMeasure (flatPrior loc scale).1 (flatPrior loc scale).2) = scale ^ 2 := by
  have hr : 0 < (flatPrior loc scale).2 := div_pos hpos (pow_pos hs 2)
  have ha : 0 < (flatPrior loc scale).1 := mul_pos hpos hr
  refine ⟨?_, ?_, ?_⟩
  · unfold flatFit at h
    split at h
    · cases h
    · cases h; rfl
  · rw [gamma_mean ha hr]
    show loc * _ / _ = loc
    exact mul_div_cancel_right₀ _ hr.ne'
  · rw [gamma_variance ha hr]
    simp only [flatPrior]
    field_simp

/-- **C39** is false for panels: for two series over two times the trend is a column of four rows,
not one row per time for each series, and its prior mean is pooled over the series. -/
theorem C39_panel_refuted :
    (flatTransform (⟨2, [], [⟨["a"], 0, fun _ => 0⟩, ⟨["a"], 1, fun _ => 0⟩, ⟨["b"], 0, fun _ => 0⟩,
      ⟨["b"], 1, fun _ => 0⟩]⟩ : Frame String Nat ℚ) : Tensor ℚ).shape = [4, 1] ∧
    flatFit (⟨2, ["y"], [⟨["a"], 0, fun _ => 1⟩, ⟨["b"], 0, fun _ => 99⟩]⟩ : Frame String Nat ℚ) "y"
      = .ok 50 := by
  constructor
  · rfl
  · decide +kernel

/-! ## Non-vacuity -/

/-- Values of the sites of the trend: two series with two and one changepoints. -/
def exSites38 : SiteEnv ℚ := fun s =>
  if s = "offset" then ⟨[2], [10, 20]⟩ else if s = "changepoint_coefficients" then ⟨[3], [1, 2, 5]⟩
  else ⟨[], []⟩

example : ((changepointMatrix true [[0, 2], [(0 : ℚ)]] [0, 1, 2, 3]).bind
    fun m => piecewisePredict true 2 exSites38 m []) =
    .ok ⟨[2, 4, 1], [11, 12, 15, 18, 25, 30, 35, 40]⟩ := by decide +kernel

example : List.Forall₂ (fun c b : List ℚ => c.length = b.length) [[0, 2], [0]] [[1, 2], [5]] ∧
    (exSites38 "changepoint_coefficients").data = [[1, 2], [(5 : ℚ)]].flatten ∧
    (exSites38 "offset").data.length = [[0, 2], [(0 : ℚ)]].length := by
  refine ⟨?_, ?_, ?_⟩
  · simp
  · decide
  · decide

/-- The same for one series. -/
def exSites37 : SiteEnv ℚ := fun s =>
  if s = "offset" then ⟨[1], [10]⟩ else if s = "changepoint_coefficients" then ⟨[2], [1, 2]⟩
  else ⟨[], []⟩

example : ((changepointMatrix true [[0, (2 : ℚ)]] [0, 1, 2, 3]).bind
    fun m => piecewisePredict true 1 exSites37 m []) =
    .ok ⟨[4, 1], [11, 12, 15, 18]⟩ := by decide +kernel

example : flatFit (⟨1, ["y"], [⟨[], 0, fun _ => 1⟩, ⟨[], 1, fun _ => 3⟩]⟩ : Frame String Nat ℝ) "y"
    = .ok 2 := by
  simp [flatFit]; norm_num

end PV
