import Mathlib.Analysis.Convex.SpecificFunctions.Pow
import Verif.Props.Posterior
import Verif.Props.Effects
import Verif.Model.CurveEffects

/-!
# C106, C107: what a change of `X` does to the forecast
-/

namespace PV
open Tensor

section
variable {S Y Sc τ K : Type}

/-! ## Specification -/

/-- Classes of additive or multiplicative effects with the default `_transform`, whose `_predict` is
`raw`: linear, log and Hill effects. -/
structure RowEffect [Zero K] [Mul K] (c : EffectClass S Y Sc τ K (Tensor K) K) (mode : String)
    (raw : EffectCall (Transformed (Tensor K)) K) : Prop where
  atDates : c.tags.filterFh = true
  skips : c.tags.skipIfNoMatch = true
  data : ∀ s x fh, c.transform s x fh = x.seriesToTensorOrArray
  call : ∀ st, c.call st = AddMul.call ⟨mode, raw⟩

/-- Predicting with the table `X'` for the dates `fh` at the parameters `θ`: `x` is the table after
the feature transformer and `st` has the mean and the contributions of trend and effects. -/
structure Predicts [LinearOrder τ] [Field K] (cfg : UniConfig S Sc τ K (Tensor K) K)
    (m : UniFit S Sc τ K (Tensor K) K) (θ : SiteEnv K) (X' : Frame String τ K) (fh : List τ)
    (x : Frame String τ K) (st : MeanState K) : Prop where
  features : cfg.features X' = .ok x
  dates : DatesIn x fh
  run : ∃ td data, uniPredictData cfg m (some X') fh = .ok (td, data) ∧
    computeMean (m.trend.cls.call m.trend.st) td data (callsOf m.objs) θ = .ok st

/-- The `i`-th entry of a column of the result: of the mean, or of the contribution `name`. -/
def meanAt (st : MeanState K) (i : Nat) : Option K := st.mean.get? [i, 0]

def partAt (st : MeanState K) (name : String) (i : Nat) : Option K :=
  (st.sites.get? name).bind fun v => v.get? [i, 0]

/-! ## The sum -/

/-- The contributions that are recorded, when the value of every effect is known. -/
theorem sites_entries {V D : Type} [AddCommGroup K] [DecidableEq τ]
    {trend : EffectObj S Y Sc τ V D K}
    {fitted : List (FittedEffect S Y Sc τ V D K)} (hn : (fitted.map FittedEffect.name).Nodup)
    (htr : "trend" ∉ fitted.map FittedEffect.name) {x : Frame String τ V} {fh : List τ}
    {td : Transformed D} {data : PyDict (Transformed D)}
    (h2 : transformEffects fitted x fh = .ok data)
    {objs : PyDict (EffectObj S Y Sc τ V D K)} (ho : nonSkipped fitted = .ok objs)
    {θ : SiteEnv K} {st : MeanState K}
    (hm : computeMean (trend.cls.call trend.st) td data (callsOf objs) θ = .ok st)
    {trv : Tensor K} (htv : trend.cls.call trend.st θ td [] = .ok trv)
    {val : FittedEffect S Y Sc τ V D K → Tensor K}
    (hval : ∀ fe ∈ kept fitted, ∀ xc d p v, x.select fe.cols = .ok xc →
      fe.effect.transform (some xc) fh = .ok d → p.get? "trend" = some trv →
      fe.effect.cls.call fe.effect.st (θ.scope fe.name) d p = .ok v → v = val fe) :
    st.sites = ("trend", trv) :: (kept fitted).map fun fe => (fe.name, val fe) := by
  obtain ⟨trv', vals, htv', hsites, hlen, hv⟩ := C17_own_data hn htr h2 ho hm
  rw [htv] at htv'
  cases htv'
  have hvals : vals = (kept fitted).map val := by
    apply List.ext_getElem?
    intro k
    rw [List.getElem?_map]
    cases hk : (kept fitted)[k]? with
    | none =>
      rw [List.getElem?_eq_none_iff] at hk
      rw [Option.map_none, List.getElem?_eq_none_iff]
      omega
    | some fe =>
      have hkl := (List.getElem?_eq_some_iff.1 hk).1
      rw [List.getElem?_eq_getElem (by omega : k < vals.length)]
      obtain ⟨xc, d, hxc, htd, hcall⟩ := hv k fe _ hk (List.getElem?_eq_getElem (by omega))
      simp only [Option.map_some, Option.some.injEq]
      exact hval fe (List.mem_of_getElem? hk) xc d _ _ hxc htd (by simp [PyDict.get?]) hcall
  rw [hsites, hvals, List.zip_map']

theorem get?_of_nodup {α β : Type} {l : List α} {name : α → String} {val : α → β}
    (hn : (l.map name).Nodup) {a : α} (ha : a ∈ l) :
    PyDict.get? (l.map fun a => (name a, val a)) (name a) = some (val a) := by
  induction l with
  | nil => cases ha
  | cons b l ih =>
    rw [List.map_cons, List.nodup_cons] at hn
    rcases List.mem_cons.1 ha with rfl | h
    · simp [PyDict.get?]
    · have : name b ≠ name a := fun hb => hn.1 (hb ▸ List.mem_map_of_mem h)
      simp only [List.map_cons]
      rw [PyDict.get?, if_neg this]
      exact ih hn.2 h

variable [LinearOrder τ] [Field K]

/-- A forecaster fitted on `y` and `X`, with effects and default effect of the form of the linear, log
and Hill effect (`mode` and `raw` give the mode and `_predict` for each name), and a trend with value
`g θ t` at date `t`, for the parameters satisfying `Ok`. -/
structure RowModel (cfg : UniConfig S Sc τ K (Tensor K) K) (y : Frame String τ K)
    (X : Option (Frame String τ K)) (m : UniFit S Sc τ K (Tensor K) K) (Ok : SiteEnv K → Prop)
    (g : SiteEnv K → τ → K) (mode : String → String)
    (raw : String → EffectCall (Transformed (Tensor K)) K) : Prop where
  fit : uniFitData cfg y X = .ok m
  trend : PointwiseTrend m.trend Ok g
  effects : ∀ e ∈ cfg.effects, RowEffect e.effect.cls (mode e.name) (raw e.name)
  default : RowEffect cfg.default.cls (mode "exogenous_variables_effect")
    (raw "exogenous_variables_effect")
  names : (cfg.effects.map EffectSpec.name).Nodup
  noDefault : "exogenous_variables_effect" ∉ cfg.effects.map EffectSpec.name
  noTrend : "trend" ∉ cfg.effects.map EffectSpec.name

/-- Mean and contributions of a fitted forecaster, date by date. -/
theorem predicts_forms {cfg : UniConfig S Sc τ K (Tensor K) K} {y : Frame String τ K}
    {X : Option (Frame String τ K)} {m : UniFit S Sc τ K (Tensor K) K} {Ok : SiteEnv K → Prop}
    {g : SiteEnv K → τ → K} {mode : String → String}
    {raw : String → EffectCall (Transformed (Tensor K)) K}
    (hM : RowModel cfg y X m Ok g mode raw)
    {ρ : String → SiteEnv K → List K → List K} (hraw : ∀ n, RowWiseRaw (raw n) (ρ n))
    {θ : SiteEnv K} (hθ : Ok θ) {X' x : Frame String τ K} {fh : List τ} {st : MeanState K}
    (hp : Predicts cfg m θ X' fh x st) {i : Nat} {t : τ} (hi : fh[i]? = some t) :
    (∀ fe ∈ kept m.fitted, partAt st fe.name i = some (rowValue (mode fe.name) fe.cols (ρ fe.name)
      (θ.scope fe.name) t (g θ t) (rowAt x t))) ∧
    partAt st "trend" i = some (g θ t) ∧
    meanAt st i = some (g θ t + ((kept m.fitted).map fun fe => rowValue (mode fe.name) fe.cols
      (ρ fe.name) (θ.scope fe.name) t (g θ t) (rowAt x t)).sum) := by
  obtain ⟨hfit, ht, he, hd, hn, hres, htr⟩ := hM
  obtain ⟨yT, x0, -, -, hfe, hobjs⟩ := uniFitData_fitted hfit
  obtain ⟨hn', htr'⟩ := C17_names hn hres htr hfe
  have hpw : ∀ fe ∈ kept m.fitted, PointwiseEffect fe.effect
      (rowValue (mode fe.name) fe.cols (ρ fe.name)) := by
    intro fe hk
    obtain ⟨hc, b, hst⟩ := fitEffects_mem hfe fe (List.mem_of_mem_filter hk)
    have hcls : RowEffect fe.effect.cls (mode fe.name) (raw fe.name) := by
      rcases hc with ⟨e, hmem, h1, h2⟩ | ⟨h1, h2⟩
      · rw [h1, h2]; exact he e hmem
      · rw [h1, h2]; exact hd
    have hcols := kept_cols hk hcls.skips hst
    have := C71_effect hcls.atDates hcls.data hcls.call (hraw fe.name)
    rwa [hcols] at this
  obtain ⟨td, data, hp1, hm⟩ := hp.run
  unfold uniPredictData at hp1
  simp only [Option.getD_some, hp.features, bind, Except.bind, pure, Except.pure] at hp1
  split at hp1
  · cases hp1
  rename_i td' h1
  split at hp1
  · cases hp1
  rename_i data' h2
  cases hp1
  obtain ⟨trv, -, htv, -⟩ := C17_own_data hn' htr' h2 hobjs hm
  have htc := ht θ x fh td trv hθ hp.dates h1 htv
  have hsites := sites_entries hn' htr' h2 hobjs hm htv
    (val := fun fe => columnOf (fh.map fun t => rowValue (mode fe.name) fe.cols (ρ fe.name)
      (θ.scope fe.name) t (g θ t) (rowAt x t)))
    (by
      intro fe hfe xc d p v hxc htd hp' hcall
      rw [hpw fe hfe _ xc fh d _ (g θ) _ (hp.dates.select hxc) htd (by rw [hp', htc]) hcall,
        rowAt_select hxc])
  have hmean := C71_closed_form ht hpw hn' htr' hp.dates h1 h2 hobjs hθ hm
  have hkn : ((kept m.fitted).map FittedEffect.name).Nodup := hn'.sublist (List.filter_sublist.map _)
  refine ⟨fun fe hk => ?_, ?_, ?_⟩
  · have hne : "trend" ≠ fe.name := fun h => htr'
      (h ▸ List.mem_map_of_mem (List.mem_of_mem_filter hk))
    unfold partAt
    rw [hsites, PyDict.get?, if_neg hne, get?_of_nodup hkn hk]
    simp [columnOf_get?, hi]
  · unfold partAt
    rw [hsites, htc]
    simp [PyDict.get?, columnOf_get?, hi]
  · unfold meanAt
    rw [hmean]
    simp [columnOf_get?, hi]

theorem sum_sub_sum {α : Type} {l : List α} {name : α → String} (hn : (l.map name).Nodup)
    {f₁ f₂ : α → K} {a : α} (ha : a ∈ l) (h : ∀ b ∈ l, name b ≠ name a → f₁ b = f₂ b) :
    (l.map f₁).sum - (l.map f₂).sum = f₁ a - f₂ a := by
  induction l with
  | nil => cases ha
  | cons b l ih =>
    rw [List.map_cons, List.nodup_cons] at hn
    simp only [List.map_cons, List.sum_cons]
    rcases List.mem_cons.1 ha with rfl | hal
    · have : l.map f₁ = l.map f₂ := List.map_congr_left fun c hc =>
        h c (by simp [hc]) fun e => hn.1 (e ▸ List.mem_map_of_mem hc)
      rw [this]
      ring
    · rw [h b (by simp) fun e => hn.1 (e ▸ List.mem_map_of_mem hal), ← ih hn.2 hal
        fun c hc => h c (by simp [hc])]
      ring

/-! ## C106 -/

/-- **C106**: predict twice with the same parameters, for the same date `t`, with tables that agree at
`t` on the columns of all effects but one.  The forecasts for `t` differ by exactly as much as the
contribution of that effect; the trend and all other contributions are the same. -/
theorem C106_what_if {cfg : UniConfig S Sc τ K (Tensor K) K} {y : Frame String τ K}
    {X : Option (Frame String τ K)} {m : UniFit S Sc τ K (Tensor K) K} {Ok : SiteEnv K → Prop}
    {g : SiteEnv K → τ → K} {mode : String → String}
    {raw : String → EffectCall (Transformed (Tensor K)) K}
    (hM : RowModel cfg y X m Ok g mode raw)
    {ρ : String → SiteEnv K → List K → List K} (hraw : ∀ n, RowWiseRaw (raw n) (ρ n))
    {θ : SiteEnv K} (hθ : Ok θ) {X₁ X₂ x₁ x₂ : Frame String τ K} {fh₁ fh₂ : List τ}
    {st₁ st₂ : MeanState K} (hp₁ : Predicts cfg m θ X₁ fh₁ x₁ st₁)
    (hp₂ : Predicts cfg m θ X₂ fh₂ x₂ st₂) {i j : Nat} {t : τ} (hi : fh₁[i]? = some t)
    (hj : fh₂[j]? = some t) {fe} (hfe : fe ∈ kept m.fitted)
    (hagree : ∀ fe' ∈ kept m.fitted, fe'.name ≠ fe.name →
      ∀ c ∈ fe'.cols, rowAt x₁ t c = rowAt x₂ t c) :
    ∃ a₁ a₂ c₁ c₂, meanAt st₁ i = some a₁ ∧ meanAt st₂ j = some a₂ ∧
      partAt st₁ fe.name i = some c₁ ∧ partAt st₂ fe.name j = some c₂ ∧ a₁ - a₂ = c₁ - c₂ ∧
      partAt st₁ "trend" i = partAt st₂ "trend" j ∧
      ∀ fe' ∈ kept m.fitted, fe'.name ≠ fe.name →
        partAt st₁ fe'.name i = partAt st₂ fe'.name j := by
  obtain ⟨p1, t1, m1⟩ := predicts_forms hM hraw hθ hp₁ hi
  obtain ⟨p2, t2, m2⟩ := predicts_forms hM hraw hθ hp₂ hj
  have hsame : ∀ fe' ∈ kept m.fitted, fe'.name ≠ fe.name →
      rowValue (mode fe'.name) fe'.cols (ρ fe'.name) (θ.scope fe'.name) t (g θ t) (rowAt x₁ t)
      = rowValue (mode fe'.name) fe'.cols (ρ fe'.name) (θ.scope fe'.name) t (g θ t)
        (rowAt x₂ t) := by
    intro fe' hk hne
    unfold rowValue
    rw [List.map_congr_left (hagree fe' hk hne)]
  have hkn : ((kept m.fitted).map FittedEffect.name).Nodup := by
    obtain ⟨yT, x0, -, -, hfe, hobjs⟩ := uniFitData_fitted hM.fit
    exact (C17_names hM.names hM.noDefault hM.noTrend hfe).1.sublist (List.filter_sublist.map _)
  refine ⟨_, _, _, _, m1, m2, p1 fe hfe, p2 fe hfe, ?_, t1.trans t2.symm, ?_⟩
  · rw [← sum_sub_sum hkn hfe hsame]
    ring
  · intro fe' hk hne
    rw [p1 fe' hk, p2 fe' hk, hsame fe' hk hne]

/-- **C106**, linear effects: the contribution at a date is the sum of the values of the columns times
the coefficients (times the trend, if multiplicative). -/
theorem C106_linear {cfg : UniConfig S Sc τ K (Tensor K) K} {y : Frame String τ K}
    {X : Option (Frame String τ K)} {m : UniFit S Sc τ K (Tensor K) K} {Ok : SiteEnv K → Prop}
    {g : SiteEnv K → τ → K} {mode : String → String}
    {raw : String → EffectCall (Transformed (Tensor K)) K}
    (hM : RowModel cfg y X m Ok g mode raw)
    {ρ : String → SiteEnv K → List K → List K} (hraw : ∀ n, RowWiseRaw (raw n) (ρ n))
    {θ : SiteEnv K} (hθ : Ok θ) {X₁ x₁ : Frame String τ K} {fh₁ : List τ}
    {st₁ : MeanState K} (hp₁ : Predicts cfg m θ X₁ fh₁ x₁ st₁) {i : Nat} {t : τ}
    (hi : fh₁[i]? = some t) {fe} (hfe : fe ∈ kept m.fitted) (hlin : raw fe.name = linearRaw) :
    partAt st₁ fe.name i = some ((if mode fe.name = "additive" then 1 else g θ t) *
      (List.zipWith (fun c b => rowAt x₁ t c * b) fe.cols (θ (fe.name ++ "/coefs")).data).sum) := by
  have hraw' : ∀ n, RowWiseRaw (raw n)
      ((fun n => if n = fe.name then (fun (θ : SiteEnv K) r => [dot r (θ "coefs").data]) else ρ n) n) := by
    intro n
    by_cases h : n = fe.name
    · simp only [if_pos h]
      rw [h, hlin]
      exact rowWise_linear
    · simp only [if_neg h]
      exact hraw n
  have hname : fe.name ++ "/coefs" = fe.name ++ "/" ++ "coefs" := by
    rw [String.append_assoc]
    rfl
  rw [(predicts_forms hM hraw' hθ hp₁ hi).1 fe hfe, hname]
  simp only [rowValue, if_pos, List.headD_cons, SiteEnv.scope, dot, List.zipWith_map_left]
  split <;> simp

/-- **C106**, linear effects: multiplying the values of its columns by a number multiplies the
contribution by that number. -/
theorem C106_proportional {cfg : UniConfig S Sc τ K (Tensor K) K} {y : Frame String τ K}
    {X : Option (Frame String τ K)} {m : UniFit S Sc τ K (Tensor K) K} {Ok : SiteEnv K → Prop}
    {g : SiteEnv K → τ → K} {mode : String → String}
    {raw : String → EffectCall (Transformed (Tensor K)) K}
    (hM : RowModel cfg y X m Ok g mode raw)
    {ρ : String → SiteEnv K → List K → List K} (hraw : ∀ n, RowWiseRaw (raw n) (ρ n))
    {θ : SiteEnv K} (hθ : Ok θ) {X₁ X₂ x₁ x₂ : Frame String τ K} {fh₁ fh₂ : List τ}
    {st₁ st₂ : MeanState K} (hp₁ : Predicts cfg m θ X₁ fh₁ x₁ st₁)
    (hp₂ : Predicts cfg m θ X₂ fh₂ x₂ st₂) {i j : Nat} {t : τ} (hi : fh₁[i]? = some t)
    (hj : fh₂[j]? = some t) {fe} (hfe : fe ∈ kept m.fitted) (hlin : raw fe.name = linearRaw)
    {k : K} (hk : ∀ c ∈ fe.cols, rowAt x₂ t c = k * rowAt x₁ t c) :
    ∃ v, partAt st₁ fe.name i = some v ∧ partAt st₂ fe.name j = some (k * v) := by
  refine ⟨_, C106_linear hM hraw hθ hp₁ hi hfe hlin, ?_⟩
  rw [C106_linear hM hraw hθ hp₂ hj hfe hlin]
  have : ∀ (cs : List String) (β : List K), (∀ c ∈ cs, rowAt x₂ t c = k * rowAt x₁ t c) →
      (List.zipWith (fun c b => rowAt x₂ t c * b) cs β).sum
        = k * (List.zipWith (fun c b => rowAt x₁ t c * b) cs β).sum := by
    intro cs
    induction cs with
    | nil => intro β _; simp
    | cons c cs ih =>
      intro β h
      cases β with
      | nil => simp
      | cons b β =>
        simp only [List.zipWith_cons_cons, List.sum_cons, mul_add]
        rw [ih β fun c hc => h c (by simp [hc]), h c (by simp), mul_assoc]
  rw [this _ _ hk]
  congr 1
  ring

/-- **C106**, linear effects: with zeros in its columns the effect contributes nothing, so the
forecast is lower by exactly what the effect contributed. -/
theorem C106_removed_partial {cfg : UniConfig S Sc τ K (Tensor K) K} {y : Frame String τ K}
    {X : Option (Frame String τ K)} {m : UniFit S Sc τ K (Tensor K) K} {Ok : SiteEnv K → Prop}
    {g : SiteEnv K → τ → K} {mode : String → String}
    {raw : String → EffectCall (Transformed (Tensor K)) K}
    (hM : RowModel cfg y X m Ok g mode raw)
    {ρ : String → SiteEnv K → List K → List K} (hraw : ∀ n, RowWiseRaw (raw n) (ρ n))
    {θ : SiteEnv K} (hθ : Ok θ) {X₁ X₂ x₁ x₂ : Frame String τ K} {fh₁ fh₂ : List τ}
    {st₁ st₂ : MeanState K} (hp₁ : Predicts cfg m θ X₁ fh₁ x₁ st₁)
    (hp₂ : Predicts cfg m θ X₂ fh₂ x₂ st₂) {i j : Nat} {t : τ} (hi : fh₁[i]? = some t)
    (hj : fh₂[j]? = some t) {fe} (hfe : fe ∈ kept m.fitted) (hlin : raw fe.name = linearRaw)
    (hagree : ∀ fe' ∈ kept m.fitted, fe'.name ≠ fe.name →
      ∀ c ∈ fe'.cols, rowAt x₁ t c = rowAt x₂ t c)
    (hzero : ∀ c ∈ fe.cols, rowAt x₂ t c = 0) :
    ∃ a₁ a₂ c₁, meanAt st₁ i = some a₁ ∧ meanAt st₂ j = some a₂ ∧
      partAt st₁ fe.name i = some c₁ ∧ partAt st₂ fe.name j = some 0 ∧ a₁ - a₂ = c₁ := by
  obtain ⟨a₁, a₂, c₁, c₂, h1, h2, h3, h4, h5, -⟩ :=
    C106_what_if hM hraw hθ hp₁ hp₂ hi hj hfe hagree
  obtain ⟨v, -, h6⟩ := C106_proportional hM hraw hθ hp₁ hp₂ hi hj hfe hlin (k := 0)
    (by simpa using hzero)
  rw [h4, zero_mul] at h6
  cases h6
  exact ⟨a₁, a₂, c₁, h1, h2, h3, h4, by rw [h5, sub_zero]⟩

end

/-! ## Log and Hill effects -/

section
variable {S Sc τ : Type} [LinearOrder τ]

/-- The effects of the package that respond to exogenous values. -/
inductive Curve | linear | log | hill
  deriving DecidableEq

/-- Their `_predict`. -/
noncomputable def Curve.raw : Curve → EffectCall (Transformed (Tensor ℝ)) ℝ
  | .linear => linearRaw
  | .log => logRaw
  | .hill => hillRaw

noncomputable def Curve.rows : Curve → SiteEnv ℝ → List ℝ → List ℝ
  | .linear => fun θ r => [dot r (θ "coefs").data]
  | .log => fun θ r => r.map (logEntry (siteScalar θ "log_scale") (siteScalar θ "log_rate"))
  | .hill => fun θ r => r.map (hillEntry (siteScalar θ "half_max") (siteScalar θ "slope")
      (siteScalar θ "max_effect"))

theorem Curve.rowWise (k : Curve) : RowWiseRaw k.raw k.rows := by
  cases k
  · exact rowWise_linear
  · exact rowWise_map fun _ _ _ => rfl
  · exact rowWise_map fun _ _ _ => rfl

/-- **C106**, log effects: with zero in its column the effect contributes nothing, so the forecast is
lower by exactly what the effect contributed. -/
theorem C106_log_removed_partial {cfg : UniConfig S Sc τ ℝ (Tensor ℝ) ℝ} {y : Frame String τ ℝ}
    {X : Option (Frame String τ ℝ)} {m : UniFit S Sc τ ℝ (Tensor ℝ) ℝ} {Ok : SiteEnv ℝ → Prop}
    {g : SiteEnv ℝ → τ → ℝ} {mode : String → String} {kind : String → Curve}
    (hM : RowModel cfg y X m Ok g mode fun n => (kind n).raw)
    {θ : SiteEnv ℝ} (hθ : Ok θ) {X₁ X₂ x₁ x₂ : Frame String τ ℝ} {fh₁ fh₂ : List τ}
    {st₁ st₂ : MeanState ℝ} (hp₁ : Predicts cfg m θ X₁ fh₁ x₁ st₁)
    (hp₂ : Predicts cfg m θ X₂ fh₂ x₂ st₂) {i j : Nat} {t : τ} (hi : fh₁[i]? = some t)
    (hj : fh₂[j]? = some t) {fe} (hfe : fe ∈ kept m.fitted) (hlog : kind fe.name = .log)
    (hagree : ∀ fe' ∈ kept m.fitted, fe'.name ≠ fe.name →
      ∀ c ∈ fe'.cols, rowAt x₁ t c = rowAt x₂ t c)
    (hzero : ∀ c ∈ fe.cols, rowAt x₂ t c = 0) :
    ∃ a₁ a₂ c₁, meanAt st₁ i = some a₁ ∧ meanAt st₂ j = some a₂ ∧
      partAt st₁ fe.name i = some c₁ ∧ partAt st₂ fe.name j = some 0 ∧ a₁ - a₂ = c₁ := by
  obtain ⟨a₁, a₂, c₁, c₂, h1, h2, h3, h4, h5, -⟩ :=
    C106_what_if hM (fun n => (kind n).rowWise) hθ hp₁ hp₂ hi hj hfe hagree
  have h6 := (predicts_forms hM (fun n => (kind n).rowWise) hθ hp₂ hj).1 fe hfe
  have h7 : rowValue (mode fe.name) fe.cols (kind fe.name).rows (θ.scope fe.name) t (g θ t)
      (rowAt x₂ t) = 0 := by
    unfold rowValue
    rw [hlog]
    have : (Curve.log.rows (θ.scope fe.name) (fe.cols.map (rowAt x₂ t))).headD 0 = 0 := by
      cases hc : fe.cols with
      | nil => rfl
      | cons c cs =>
        have := hzero c (by simp [hc])
        simp only [Curve.rows, List.map_cons, List.headD_cons, this, logEntry, mul_zero, zero_add]
        rw [max_eq_left (by norm_num), Real.log_one, mul_zero]
    simp only [this, mul_zero, ite_self]
  rw [h7] at h6
  rw [h6] at h4
  cases h4
  exact ⟨a₁, a₂, c₁, h1, h2, h3, h6, by rw [h5, sub_zero]⟩

/-- **C106**, Hill effects: with zero in its column an additive Hill effect contributes its maximum, so
setting the column to zero *raises* the forecast, if the effect is at positive values. -/
theorem C106_hill_refuted {cfg : UniConfig S Sc τ ℝ (Tensor ℝ) ℝ} {y : Frame String τ ℝ}
    {X : Option (Frame String τ ℝ)} {m : UniFit S Sc τ ℝ (Tensor ℝ) ℝ} {Ok : SiteEnv ℝ → Prop}
    {g : SiteEnv ℝ → τ → ℝ} {mode : String → String} {kind : String → Curve}
    (hM : RowModel cfg y X m Ok g mode fun n => (kind n).raw)
    {θ : SiteEnv ℝ} (hθ : Ok θ) {X₁ X₂ x₁ x₂ : Frame String τ ℝ} {fh₁ fh₂ : List τ}
    {st₁ st₂ : MeanState ℝ} (hp₁ : Predicts cfg m θ X₁ fh₁ x₁ st₁)
    (hp₂ : Predicts cfg m θ X₂ fh₂ x₂ st₂) {i j : Nat} {t : τ} (hi : fh₁[i]? = some t)
    (hj : fh₂[j]? = some t) {fe} (hfe : fe ∈ kept m.fitted) (hhill : kind fe.name = .hill)
    (hadd : mode fe.name = "additive") {c : String} (hcols : fe.cols = [c])
    (hagree : ∀ fe' ∈ kept m.fitted, fe'.name ≠ fe.name →
      ∀ c ∈ fe'.cols, rowAt x₁ t c = rowAt x₂ t c)
    (hh : 0 < siteScalar (θ.scope fe.name) "half_max")
    (hs : 0 < siteScalar (θ.scope fe.name) "slope")
    (hmax : 0 < siteScalar (θ.scope fe.name) "max_effect")
    (hpos : 0 < rowAt x₁ t c) (hzero : rowAt x₂ t c = 0) :
    ∃ a₁ a₂, meanAt st₁ i = some a₁ ∧ meanAt st₂ j = some a₂ ∧
      partAt st₂ fe.name j = some (siteScalar (θ.scope fe.name) "max_effect") ∧ a₁ < a₂ := by
  obtain ⟨a₁, a₂, c₁, c₂, h1, h2, h3, h4, h5, -⟩ :=
    C106_what_if hM (fun n => (kind n).rowWise) hθ hp₁ hp₂ hi hj hfe hagree
  have h6 := (predicts_forms hM (fun n => (kind n).rowWise) hθ hp₂ hj).1 fe hfe
  have h7 := (predicts_forms hM (fun n => (kind n).rowWise) hθ hp₁ hi).1 fe hfe
  rw [h3] at h7
  rw [h4] at h6
  simp only [rowValue, hhill, hadd, hcols, Curve.rows, List.map_cons, List.headD_cons, if_true,
    hzero, Option.some.injEq] at h6 h7
  have h8 := C27_monotone_refuted hh hs hmax hpos
  rw [← h6, ← h7] at h8
  refine ⟨a₁, a₂, h1, h2, ?_, by linarith⟩
  rw [h4, h6]
  simp [hillEntry, exponentSafe]

/-! ## C107 -/

/-- The parameters of an effect that make its response increasing. -/
def Increasing (θ : SiteEnv ℝ) : Curve → Prop
  | .linear => ∀ b ∈ (θ "coefs").data, 0 ≤ b
  | .log => 0 ≤ siteScalar θ "log_scale" ∧ 0 ≤ siteScalar θ "log_rate"
  | .hill => 0 < siteScalar θ "half_max" ∧ 0 < siteScalar θ "slope" ∧
      0 < siteScalar θ "max_effect"

/-- The values of the columns grow; for the Hill effect from a positive value. -/
def Grows (k : Curve) (a b : ℝ) : Prop := a ≤ b ∧ (k = .hill → 0 < a)

theorem dot_mono {r r' β : List ℝ} (h : List.Forall₂ (· ≤ ·) r r') (hβ : ∀ b ∈ β, 0 ≤ b) :
    dot r β ≤ dot r' β := by
  induction h generalizing β with
  | nil => exact le_rfl
  | cons h1 h2 ih =>
    cases β with
    | nil => simp [dot]
    | cons b β =>
      have h3 := ih (β := β) fun b hb => hβ b (by simp [hb])
      unfold dot at *
      simp only [List.zipWith_cons_cons, List.sum_cons]
      exact add_le_add (mul_le_mul_of_nonneg_right h1 (hβ b (by simp))) h3

theorem logEntry_mono {c k a b : ℝ} (hc : 0 ≤ c) (hk : 0 ≤ k) (h : a ≤ b) :
    logEntry c k a ≤ logEntry c k b := by
  unfold logEntry
  refine mul_le_mul_of_nonneg_left (Real.log_le_log (lt_max_of_lt_right (by positivity)) ?_) hc
  exact max_le_max (by nlinarith) le_rfl

theorem hillEntry_mono {h s M a b : ℝ} (hh : 0 < h) (hs : 0 < s) (hM : 0 < M) (ha : 0 < a)
    (hab : a ≤ b) : hillEntry h s M a ≤ hillEntry h s M b := by
  have hb := ha.trans_le hab
  unfold hillEntry exponentSafe
  rw [if_neg (by positivity), if_neg (by positivity), if_neg (by positivity), if_neg (by positivity)]
  have h1 : (b / h) ^ (-s) ≤ (a / h) ^ (-s) :=
    Real.rpow_le_rpow_of_nonpos (by positivity) (by gcongr) (by linarith)
  have h2 : 0 < (b / h) ^ (-s) := Real.rpow_pos_of_pos (by positivity) _
  gcongr

theorem Curve.rows_mono {k : Curve} {θ : SiteEnv ℝ} (hθ : Increasing θ k) {cols : List String}
    {r r' : String → ℝ} (h : ∀ c ∈ cols, Grows k (r c) (r' c)) :
    (k.rows θ (cols.map r)).headD 0 ≤ (k.rows θ (cols.map r')).headD 0 := by
  cases k with
  | linear =>
    refine dot_mono ?_ hθ
    clear hθ
    induction cols with
    | nil => exact .nil
    | cons c cs ih => exact .cons (h c (by simp)).1 (ih fun c hc => h c (by simp [hc]))
  | log =>
    cases cols with
    | nil => exact le_rfl
    | cons c cs => exact logEntry_mono hθ.1 hθ.2 (h c (by simp)).1
  | hill =>
    cases cols with
    | nil => exact le_rfl
    | cons c cs =>
      exact hillEntry_mono hθ.1 hθ.2.1 hθ.2.2 ((h c (by simp)).2 rfl) (h c (by simp)).1

/-- **C107**: larger exogenous values never lower the forecast, if the parameters of the effects are
non-negative (as half-normal priors make them), the trend is non-negative where an effect is
multiplicative, and the values for Hill effects are positive. -/
theorem C107_monotone_partial {cfg : UniConfig S Sc τ ℝ (Tensor ℝ) ℝ} {y : Frame String τ ℝ}
    {X : Option (Frame String τ ℝ)} {m : UniFit S Sc τ ℝ (Tensor ℝ) ℝ} {Ok : SiteEnv ℝ → Prop}
    {g : SiteEnv ℝ → τ → ℝ} {mode : String → String} {kind : String → Curve}
    (hM : RowModel cfg y X m Ok g mode fun n => (kind n).raw)
    {θ : SiteEnv ℝ} (hθ : Ok θ) {X₁ X₂ x₁ x₂ : Frame String τ ℝ} {fh₁ fh₂ : List τ}
    {st₁ st₂ : MeanState ℝ} (hp₁ : Predicts cfg m θ X₁ fh₁ x₁ st₁)
    (hp₂ : Predicts cfg m θ X₂ fh₂ x₂ st₂) {i j : Nat} {t : τ} (hi : fh₁[i]? = some t)
    (hj : fh₂[j]? = some t)
    (hinc : ∀ fe ∈ kept m.fitted, Increasing (θ.scope fe.name) (kind fe.name))
    (htrend : ∀ fe ∈ kept m.fitted, mode fe.name ≠ "additive" →
      ∃ a, partAt st₁ "trend" i = some a ∧ 0 ≤ a)
    (hmore : ∀ fe ∈ kept m.fitted, ∀ c ∈ fe.cols, Grows (kind fe.name) (rowAt x₁ t c) (rowAt x₂ t c)) :
    ∃ a₁ a₂, meanAt st₁ i = some a₁ ∧ meanAt st₂ j = some a₂ ∧ a₁ ≤ a₂ := by
  obtain ⟨-, t1, m1⟩ := predicts_forms hM (fun n => (kind n).rowWise) hθ hp₁ hi
  obtain ⟨-, -, m2⟩ := predicts_forms hM (fun n => (kind n).rowWise) hθ hp₂ hj
  refine ⟨_, _, m1, m2, add_le_add_right (List.sum_le_sum fun fe hfe => ?_) _⟩
  unfold rowValue
  have h1 := Curve.rows_mono (hinc fe hfe) (hmore fe hfe)
  by_cases hm : mode fe.name = "additive"
  · simpa only [if_pos hm] using h1
  · obtain ⟨a, ha, ha0⟩ := htrend fe hfe hm
    rw [t1] at ha
    cases ha
    simpa only [if_neg hm] using mul_le_mul_of_nonneg_left h1 ha0

/-! ## C108 -/

/-- The values at which the response has diminishing returns: non-negative, for the Hill effect
positive with slope at most 1. -/
def Diminishing (θ : SiteEnv ℝ) (a : ℝ) : Curve → Prop
  | .linear => True
  | .log => 0 ≤ a
  | .hill => 0 < a ∧ siteScalar θ "slope" ≤ 1

theorem logEntry_concave {c k a b p q : ℝ} (hc : 0 ≤ c) (hk : 0 ≤ k) (ha : 0 ≤ a) (hb : 0 ≤ b)
    (hp : 0 ≤ p) (hq : 0 ≤ q) (hpq : p + q = 1) :
    p * logEntry c k a + q * logEntry c k b ≤ logEntry c k (p * a + q * b) := by
  have e : ∀ x, 0 ≤ x → logEntry c k x = c * Real.log (k * x + 1) := by
    intro x hx
    unfold logEntry
    rw [max_eq_left]
    have : 0 ≤ k * x := mul_nonneg hk hx
    have : (1 : ℝ) / 10 ^ 8 ≤ 1 := by norm_num
    linarith
  have hpos : ∀ x, 0 ≤ x → (0 : ℝ) < k * x + 1 := fun x hx => by
    have := mul_nonneg hk hx
    linarith
  rw [e a ha, e b hb, e _ (by positivity)]
  have := strictConcaveOn_log_Ioi.concaveOn.2 (hpos a ha) (hpos b hb) hp hq hpq
  simp only [smul_eq_mul] at this
  have e2 : p * (k * a + 1) + q * (k * b + 1) = k * (p * a + q * b) + 1 := by linear_combination hpq
  rw [e2] at this
  nlinarith

theorem hillEntry_concave {h s M a b p q : ℝ} (hh : 0 < h) (hs : 0 < s) (hs1 : s ≤ 1) (hM : 0 < M)
    (ha : 0 < a) (hb : 0 < b) (hp : 0 ≤ p) (hq : 0 ≤ q) (hpq : p + q = 1) :
    p * hillEntry h s M a + q * hillEntry h s M b ≤ hillEntry h s M (p * a + q * b) := by
  have hc : 0 < p * a + q * b := by
    rcases hp.eq_or_lt with rfl | hp
    · have : q = 1 := by linarith
      rw [this]
      linarith
    · have := mul_nonneg hq hb.le
      have := mul_pos hp ha
      linarith
  have e : ∀ x, 0 < x → hillEntry h s M x = M - M * h ^ s / (h ^ s + x ^ s) := by
    intro x hx
    rw [hillEntry_pos hh hx]
    have h1 : 0 < h ^ s := Real.rpow_pos_of_pos hh s
    have h2 : 0 < x ^ s := Real.rpow_pos_of_pos hx s
    unfold hillCurve
    field_simp
    ring
  rw [e a ha, e b hb, e _ hc]
  have h1 : 0 < h ^ s := Real.rpow_pos_of_pos hh s
  have h2 : 0 < a ^ s := Real.rpow_pos_of_pos ha s
  have h3 : 0 < b ^ s := Real.rpow_pos_of_pos hb s
  have h4 := (Real.concaveOn_rpow hs.le hs1).2 (Set.mem_Ici.2 ha.le) (Set.mem_Ici.2 hb.le) hp hq hpq
  simp only [smul_eq_mul] at h4
  generalize h ^ s = H at *
  generalize a ^ s = u at *
  generalize b ^ s = v at *
  generalize (p * a + q * b) ^ s = w at *
  have h5 : 0 < H + (p * u + q * v) := by positivity
  have h6 : M * H / (H + w) ≤ M * H / (H + (p * u + q * v)) := by gcongr
  have h7 : M * H / (H + (p * u + q * v)) ≤ p * (M * H / (H + u)) + q * (M * H / (H + v)) := by
    have hA : 0 < H + u := by positivity
    have hB : 0 < H + v := by positivity
    have e5 : H + (p * u + q * v) = p * (H + u) + q * (H + v) := by linear_combination (-H) * hpq
    rw [e5] at h5 ⊢
    generalize H + u = A at *
    generalize H + v = B at *
    rw [div_le_iff₀ h5]
    have e6 : (p * (M * H / A) + q * (M * H / B)) * (p * A + q * B)
        = M * H + M * H * (p * q) * ((A - B) ^ 2 / (A * B)) := by
      have : q = 1 - p := by linarith
      subst this
      field_simp
      ring
    rw [e6]
    have : 0 ≤ M * H * (p * q) * ((A - B) ^ 2 / (A * B)) := by positivity
    linarith
  have h8 : p * (M - M * H / (H + u)) + q * (M - M * H / (H + v))
      = M - (p * (M * H / (H + u)) + q * (M * H / (H + v))) := by linear_combination M * hpq
  rw [h8]
  linarith

theorem dot_mixture {p q : ℝ} {cols : List String} {r₁ r₂ r₃ : String → ℝ} {β : List ℝ}
    (h : ∀ c ∈ cols, r₂ c = p * r₁ c + q * r₃ c) :
    dot (cols.map r₂) β = p * dot (cols.map r₁) β + q * dot (cols.map r₃) β := by
  induction cols generalizing β with
  | nil => simp [dot]
  | cons c cs ih =>
    cases β with
    | nil => simp [dot]
    | cons b β =>
      have h1 := ih (β := β) fun c hc => h c (by simp [hc])
      unfold dot at *
      simp only [List.map_cons, List.zipWith_cons_cons, List.sum_cons, h1, h c (by simp)]
      ring

theorem Curve.rows_concave {k : Curve} {θ : SiteEnv ℝ} (hθ : k ≠ .linear → Increasing θ k)
    {p q : ℝ} (hp : 0 ≤ p) (hq : 0 ≤ q) (hpq : p + q = 1) {cols : List String}
    {r₁ r₂ r₃ : String → ℝ} (h₁ : ∀ c ∈ cols, Diminishing θ (r₁ c) k)
    (h₃ : ∀ c ∈ cols, Diminishing θ (r₃ c) k) (h : ∀ c ∈ cols, r₂ c = p * r₁ c + q * r₃ c) :
    p * (k.rows θ (cols.map r₁)).headD 0 + q * (k.rows θ (cols.map r₃)).headD 0
      ≤ (k.rows θ (cols.map r₂)).headD 0 ∧
    (k = .linear → p * (k.rows θ (cols.map r₁)).headD 0 + q * (k.rows θ (cols.map r₃)).headD 0
      = (k.rows θ (cols.map r₂)).headD 0) := by
  cases k with
  | linear =>
    have := (dot_mixture h (β := (θ "coefs").data)).symm
    exact ⟨this.le, fun _ => this⟩
  | log =>
    refine ⟨?_, fun h => by cases h⟩
    cases cols with
    | nil => simp [Curve.rows]
    | cons c cs =>
      simp only [Curve.rows, List.map_cons, List.headD_cons]
      rw [h c (by simp)]
      exact logEntry_concave (hθ (by simp)).1 (hθ (by simp)).2 (h₁ c (by simp)) (h₃ c (by simp))
        hp hq hpq
  | hill =>
    refine ⟨?_, fun h => by cases h⟩
    cases cols with
    | nil => simp [Curve.rows]
    | cons c cs =>
      simp only [Curve.rows, List.map_cons, List.headD_cons]
      rw [h c (by simp)]
      obtain ⟨a1, a2, a3⟩ := hθ (by simp)
      exact hillEntry_concave a1 a2 (h₁ c (by simp)).2 a3 (h₁ c (by simp)).1 (h₃ c (by simp)).1
        hp hq hpq

/-- **C108**: the forecast for a mixture of two tables is at least the mixture of the forecasts: from
mixing budgets one gains (log and Hill effects with slope at most 1, non-negative values and
parameters, non-negative trend where an effect is multiplicative); with linear effects only, the
forecast of the mixture is the mixture of the forecasts, without conditions. -/
theorem C108_diminishing {cfg : UniConfig S Sc τ ℝ (Tensor ℝ) ℝ} {y : Frame String τ ℝ}
    {X : Option (Frame String τ ℝ)} {m : UniFit S Sc τ ℝ (Tensor ℝ) ℝ} {Ok : SiteEnv ℝ → Prop}
    {g : SiteEnv ℝ → τ → ℝ} {mode : String → String} {kind : String → Curve}
    (hM : RowModel cfg y X m Ok g mode fun n => (kind n).raw)
    {θ : SiteEnv ℝ} (hθ : Ok θ) {X₁ X₂ X₃ x₁ x₂ x₃ : Frame String τ ℝ} {fh₁ fh₂ fh₃ : List τ}
    {st₁ st₂ st₃ : MeanState ℝ} (hp₁ : Predicts cfg m θ X₁ fh₁ x₁ st₁)
    (hp₂ : Predicts cfg m θ X₂ fh₂ x₂ st₂) (hp₃ : Predicts cfg m θ X₃ fh₃ x₃ st₃)
    {i₁ i₂ i₃ : Nat} {t : τ} (hi₁ : fh₁[i₁]? = some t) (hi₂ : fh₂[i₂]? = some t)
    (hi₃ : fh₃[i₃]? = some t) {p q : ℝ} (hp : 0 ≤ p) (hq : 0 ≤ q) (hpq : p + q = 1)
    (hmix : ∀ fe ∈ kept m.fitted, ∀ c ∈ fe.cols,
      rowAt x₂ t c = p * rowAt x₁ t c + q * rowAt x₃ t c)
    (hinc : ∀ fe ∈ kept m.fitted, kind fe.name ≠ .linear →
      Increasing (θ.scope fe.name) (kind fe.name))
    (hdim : ∀ fe ∈ kept m.fitted, ∀ c ∈ fe.cols,
      Diminishing (θ.scope fe.name) (rowAt x₁ t c) (kind fe.name) ∧
      Diminishing (θ.scope fe.name) (rowAt x₃ t c) (kind fe.name))
    (htrend : ∀ fe ∈ kept m.fitted, kind fe.name ≠ .linear → mode fe.name ≠ "additive" →
      ∃ a, partAt st₁ "trend" i₁ = some a ∧ 0 ≤ a) :
    ∃ a₁ a₂ a₃, meanAt st₁ i₁ = some a₁ ∧ meanAt st₂ i₂ = some a₂ ∧ meanAt st₃ i₃ = some a₃ ∧
      p * a₁ + q * a₃ ≤ a₂ ∧
      ((∀ fe ∈ kept m.fitted, kind fe.name = .linear) → p * a₁ + q * a₃ = a₂) := by
  obtain ⟨-, t1, m1⟩ := predicts_forms hM (fun n => (kind n).rowWise) hθ hp₁ hi₁
  obtain ⟨-, -, m2⟩ := predicts_forms hM (fun n => (kind n).rowWise) hθ hp₂ hi₂
  obtain ⟨-, -, m3⟩ := predicts_forms hM (fun n => (kind n).rowWise) hθ hp₃ hi₃
  have key : ∀ fe ∈ kept m.fitted,
      p * rowValue (mode fe.name) fe.cols (kind fe.name).rows (θ.scope fe.name) t (g θ t)
        (rowAt x₁ t)
      + q * rowValue (mode fe.name) fe.cols (kind fe.name).rows (θ.scope fe.name) t (g θ t)
        (rowAt x₃ t)
      ≤ rowValue (mode fe.name) fe.cols (kind fe.name).rows (θ.scope fe.name) t (g θ t)
        (rowAt x₂ t) ∧
      (kind fe.name = .linear →
      p * rowValue (mode fe.name) fe.cols (kind fe.name).rows (θ.scope fe.name) t (g θ t)
        (rowAt x₁ t)
      + q * rowValue (mode fe.name) fe.cols (kind fe.name).rows (θ.scope fe.name) t (g θ t)
        (rowAt x₃ t)
      = rowValue (mode fe.name) fe.cols (kind fe.name).rows (θ.scope fe.name) t (g θ t)
        (rowAt x₂ t)) := by
    intro fe hfe
    obtain ⟨h1, h2⟩ := Curve.rows_concave (hinc fe hfe) hp hq hpq
      (fun c hc => (hdim fe hfe c hc).1) (fun c hc => (hdim fe hfe c hc).2) (hmix fe hfe)
    unfold rowValue
    by_cases hm : mode fe.name = "additive"
    · simp only [if_pos hm]
      exact ⟨h1, h2⟩
    · simp only [if_neg hm]
      have e : ∀ a b, p * (g θ t * a) + q * (g θ t * b) = g θ t * (p * a + q * b) := by
        intros; ring
      rw [e]
      refine ⟨?_, fun hl => by rw [h2 hl]⟩
      by_cases hl : kind fe.name = .linear
      · rw [h2 hl]
      · obtain ⟨a, ha, ha0⟩ := htrend fe hfe hl hm
        rw [t1] at ha
        cases ha
        exact mul_le_mul_of_nonneg_left h1 ha0
  have hsum : ∀ (f₁ f₃ : FittedEffect S (Frame String τ ℝ) Sc τ ℝ (Tensor ℝ) ℝ → ℝ),
      p * (g θ t + ((kept m.fitted).map f₁).sum) + q * (g θ t + ((kept m.fitted).map f₃).sum)
        = g θ t + ((kept m.fitted).map fun fe => p * f₁ fe + q * f₃ fe).sum := by
    intro f₁ f₃
    rw [List.sum_map_add, List.sum_map_mul_left, List.sum_map_mul_left]
    linear_combination (g θ t) * hpq
  refine ⟨_, _, _, m1, m2, m3, ?_, ?_⟩
  · rw [hsum]
    exact add_le_add_right (List.sum_le_sum fun fe hfe => (key fe hfe).1) _
  · intro hl
    rw [hsum]
    congr 2
    exact List.map_congr_left fun fe hfe => (key fe hfe).2 (hl fe hfe)

theorem linear_rowEffect {S' K τ' : Type} [Field K] [LinearOrder K] [DecidableEq τ'] (mode : String) :
    RowEffect (linearClass (S := S') (τ := τ') (K := K) mode) mode linearRaw :=
  ⟨rfl, rfl, fun _ _ _ => rfl, fun _ => rfl⟩

theorem log_rowEffect {S' τ' : Type} [DecidableEq τ'] (mode : String) :
    RowEffect (logClass (S := S') (τ := τ') mode) mode logRaw :=
  ⟨rfl, rfl, fun _ _ _ => rfl, fun _ => rfl⟩

theorem hill_rowEffect {S' τ' : Type} [DecidableEq τ'] (mode : String) :
    RowEffect (hillClass (S := S') (τ := τ') mode) mode hillRaw :=
  ⟨rfl, rfl, fun _ _ _ => rfl, fun _ => rfl⟩

/-- The class of a curve. -/
noncomputable def Curve.cls {S' τ' : Type} [DecidableEq τ'] (mode : String) :
    Curve → EffectClass S' (Frame String τ' ℝ) (Scale ℝ) τ' ℝ (Tensor ℝ) ℝ
  | .linear => linearClass mode
  | .log => logClass mode
  | .hill => hillClass mode

/-- What an effect of the three kinds makes of the row `r`: linear effects sum coefficient times value,
log effects are `scale * log(rate * x + 1)` (never below `log 1e-8`), Hill effects
`max / (1 + (x / half)^(-slope))` where `x` is not 0, and `max` where it is. -/
noncomputable def curveValue (θ : SiteEnv ℝ) (name : String) (cols : List String) (r : String → ℝ) :
    Curve → ℝ
  | .linear => (List.zipWith (fun c b => b * r c) cols (θ (name ++ "/coefs")).data).sum
  | .log => siteScalar θ (name ++ "/log_scale") *
      Real.log (max (siteScalar θ (name ++ "/log_rate") * r (cols.headD "") + 1) (1 / 10 ^ 8))
  | .hill => siteScalar θ (name ++ "/max_effect") / (1 +
      if r (cols.headD "") / siteScalar θ (name ++ "/half_max") = 0 then 0
      else (r (cols.headD "") / siteScalar θ (name ++ "/half_max")) ^ (-siteScalar θ (name ++ "/slope")))

/-- **C106** for the effects of the library: a forecaster with linear, log and Hill effects is of the form
the theorems above are about, and what each effect contributes at a date is its curve of the values of
its columns at that date, times the trend if it is multiplicative. -/
theorem C106_builtin {S : Type} {cfg : UniConfig S (Scale ℝ) τ ℝ (Tensor ℝ) ℝ} {y : Frame String τ ℝ}
    {X : Option (Frame String τ ℝ)} {m : UniFit S (Scale ℝ) τ ℝ (Tensor ℝ) ℝ} {Ok : SiteEnv ℝ → Prop}
    {g : SiteEnv ℝ → τ → ℝ} {mode : String → String} {kind : String → Curve}
    (hfit : uniFitData cfg y X = .ok m) (ht : PointwiseTrend m.trend Ok g)
    (he : ∀ e ∈ cfg.effects, e.effect.cls = (kind e.name).cls (mode e.name))
    (hd : cfg.default.cls = (kind "exogenous_variables_effect").cls (mode "exogenous_variables_effect"))
    (hn : (cfg.effects.map EffectSpec.name).Nodup)
    (hres : "exogenous_variables_effect" ∉ cfg.effects.map EffectSpec.name)
    (htr : "trend" ∉ cfg.effects.map EffectSpec.name) :
    RowModel cfg y X m Ok g mode (fun n => (kind n).raw) ∧
    ∀ (θ : SiteEnv ℝ) (X' x : Frame String τ ℝ) (fh : List τ) (st : MeanState ℝ), Ok θ →
      Predicts cfg m θ X' fh x st → ∀ (i : Nat) (t : τ), fh[i]? = some t →
      ∀ fe ∈ kept m.fitted, fe.cols ≠ [] →
        partAt st fe.name i = some ((if mode fe.name = "additive" then 1 else g θ t) *
          curveValue θ fe.name fe.cols (rowAt x t) (kind fe.name)) := by
  have hcls : ∀ n, RowEffect ((kind n).cls (S' := S) (τ' := τ) (mode n)) (mode n) (kind n).raw := by
    intro n
    cases kind n
    · exact linear_rowEffect _
    · exact log_rowEffect _
    · exact hill_rowEffect _
  have hM : RowModel cfg y X m Ok g mode (fun n => (kind n).raw) :=
    ⟨hfit, ht, fun e h => by rw [he e h]; exact hcls _, by rw [hd]; exact hcls _, hn, hres, htr⟩
  refine ⟨hM, ?_⟩
  intro θ X' x fh st hθ hp i t hi fe hfe hne
  have hname : ∀ s : String, fe.name ++ "/" ++ s = fe.name ++ ("/" ++ s) := fun s => String.append_assoc ..
  have h1 := hname "coefs"
  have h2 := hname "log_scale"
  have h3 := hname "log_rate"
  have h4 := hname "half_max"
  have h5 := hname "slope"
  have h6 := hname "max_effect"
  simp only [String.reduceAppend] at h1 h2 h3 h4 h5 h6
  rw [(predicts_forms hM (fun n => (kind n).rowWise) hθ hp hi).1 fe hfe]
  obtain ⟨c, cs, hcs⟩ := List.exists_cons_of_ne_nil hne
  congr 1
  unfold rowValue
  have key : ((kind fe.name).rows (θ.scope fe.name) (fe.cols.map (rowAt x t))).headD 0
      = curveValue θ fe.name fe.cols (rowAt x t) (kind fe.name) := by
    cases kind fe.name with
    | linear =>
      simp only [Curve.rows, List.headD_cons, curveValue, dot, SiteEnv.scope, h1, List.zipWith_map_left]
      congr 2
      funext c b
      ring
    | log =>
      simp only [Curve.rows, hcs, List.map_cons, List.headD_cons, curveValue, logEntry, siteScalar, SiteEnv.scope,
        h2, h3]
    | hill =>
      simp only [Curve.rows, hcs, List.map_cons, List.headD_cons, curveValue, hillEntry, exponentSafe, siteScalar,
        SiteEnv.scope, h4, h5, h6]
      split_ifs <;> rfl
  simp only [key]
  split <;> simp

/-! Example: flat trend, an additive Hill effect on column `a`, a multiplicative log effect on column
`b` and the default effect, linear and additive, on column `c`. -/

noncomputable def exCfg106 : UniConfig (Option ℝ) (Scale ℝ) Int ℝ (Tensor ℝ) ℝ where
  compile := fun p => .ok fun c => c = p
  trend := flatClass.new
  effects := [⟨"ads", (hillClass "additive").new, some "a"⟩,
    ⟨"tv", (logClass "multiplicative").new, some "b"⟩]
  default := (linearClass "additive").new
  fitFeatures := .ok
  features := .ok
  discrete := false
  unitScale := .float 1
  effectScale := .float 1
  scale := 1

noncomputable def exY106 : Frame String Int ℝ :=
  ⟨1, ["y"], [(0, 1), (1, 3), (2, 4)].map fun p => ⟨[], p.1, fun _ => p.2⟩⟩

/-- All columns are 1, except at date 3, where they are `u`. -/
noncomputable def exX106 (u : String → ℝ) : Frame String Int ℝ :=
  ⟨1, ["a", "b", "c"], [0, 1, 2, 3].map fun t => ⟨[], t, fun c => if t = 3 then u c else 1⟩⟩

noncomputable def exθ106 : SiteEnv ℝ := fun s =>
  if s = "trend_flat_coefficient" then ⟨[1], [5]⟩
  else if s = "exogenous_variables_effect/coefs" then ⟨[1], [2]⟩ else ⟨[], [1]⟩

def exKind106 (n : String) : Curve :=
  if n = "ads" then .hill else if n = "tv" then .log else .linear

def exMode106 (n : String) : String := if n = "tv" then "multiplicative" else "additive"

/-- The hypotheses of the theorems above are met for all values of the columns at date 3; the three
effects take part, with one column each. -/
theorem ex106 : ∃ m, RowModel exCfg106 exY106 (some (exX106 fun _ => 1)) m
      (fun θ => ∃ b, θ "trend_flat_coefficient" = ⟨[1], [b]⟩)
      (fun θ _ => (θ "trend_flat_coefficient").data.headD 0) exMode106
      (fun n => (exKind106 n).raw) ∧
    (kept m.fitted).map (fun fe => (fe.name, fe.cols))
      = [("ads", ["a"]), ("tv", ["b"]), ("exogenous_variables_effect", ["c"])] ∧
    ∀ u, ∃ st, Predicts exCfg106 m exθ106 (exX106 u) [3] (exX106 u) st ∧
      partAt st "trend" 0 = some 5 := by
  refine ⟨_, ⟨rfl, C71_flat rfl, ?_, linear_rowEffect _, by decide, by decide, by decide⟩, rfl,
    fun u => ⟨_, ⟨rfl, ⟨rfl, by simp [exX106], by simp, by simp [exX106], by simp [exX106]⟩,
      _, _, rfl, rfl⟩, ?_⟩⟩
  · intro e he
    fin_cases he
    · exact hill_rowEffect _
    · exact log_rowEffect _
  · show some ((1 : ℝ) * 5) = some 5
    norm_num

example (u : String → ℝ) : rowAt (exX106 u) 3 = u := by
  funext c
  simp [rowAt, exX106]

/-- Parameters and values as required by C107 and C108. -/
example : ∀ n ∈ ["ads", "tv", "exogenous_variables_effect"],
    Increasing (exθ106.scope n) (exKind106 n) := by
  intro n hn
  fin_cases hn <;> simp [Increasing, exKind106, exθ106, SiteEnv.scope, siteScalar]

/-- The forecaster of the example is one of those of `C106_builtin`. -/
example : ∃ m, uniFitData exCfg106 exY106 (some (exX106 fun _ => 1)) = .ok m ∧
    PointwiseTrend m.trend (fun θ => ∃ b, θ "trend_flat_coefficient" = ⟨[1], [b]⟩)
      (fun θ _ => (θ "trend_flat_coefficient").data.headD 0) ∧
    (∀ e ∈ exCfg106.effects, e.effect.cls = (exKind106 e.name).cls (exMode106 e.name)) ∧
    exCfg106.default.cls = (exKind106 "exogenous_variables_effect").cls
      (exMode106 "exogenous_variables_effect") :=
  ⟨_, rfl, C71_flat rfl, by intro e he; fin_cases he <;> rfl, rfl⟩

end
end PV
