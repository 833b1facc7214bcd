import Verif.Model.Forecast
import Verif.Lemmas.PredictFrames

set_option linter.unusedSectionVars false

namespace PV
variable {K τ : Type} [Field K] [LinearOrder K] [IsStrictOrderedRing K] [LinearOrder τ]

theorem foldl_maxabs_mul {c : K} (hc : 0 < c) (xs : List K) (m : K) :
    (xs.map (c * ·)).foldl (fun m v => max m |v|) (c * m)
      = c * xs.foldl (fun m v => max m |v|) m := by
  induction xs generalizing m with
  | nil => rfl
  | cons x xs ih =>
    simp only [List.map_cons, List.foldl_cons]
    rw [← ih (max m |x|)]
    congr 1
    rw [abs_mul, abs_of_pos hc, mul_max_of_nonneg _ _ hc.le]

theorem maxAbs?_mul {c : K} (hc : 0 < c) (xs : List K) :
    maxAbs? (xs.map (c * ·)) = (maxAbs? xs).map (c * ·) := by
  cases xs with
  | nil => rfl
  | cons x xs =>
    simp only [maxAbs?, List.map_cons, Option.map_some]
    rw [abs_mul, abs_of_pos hc, foldl_maxabs_mul hc]

/-- `c * y`. -/
def Frame.smul {ι : Type} (c : K) (f : Frame ι τ K) : Frame ι τ K :=
  f.mapVals fun _ v => c * v

theorem targetVals_smul (c : K) (y : Frame String τ K) :
    targetVals (y.smul c) (y.smul c).rows = (targetVals y y.rows).map (c * ·) := by
  simp [targetVals, Frame.smul, Frame.mapVals]

theorem targetVals_rowsOf_smul (c : K) (y : Frame String τ K) (s : List String) :
    targetVals (y.smul c) ((y.smul c).rowsOf s) = (targetVals y (y.rowsOf s)).map (c * ·) := by
  simp only [targetVals, Frame.smul, Frame.mapVals, Frame.rowsOf]
  rw [List.filter_map]
  simp [Function.comp_def]

theorem groupMaxAbs_smul {c : K} (hc : 0 < c) (y : Frame String τ K) :
    groupMaxAbs (y.smul c) = (groupMaxAbs y).map fun p => (p.1, c * p.2) := by
  unfold groupMaxAbs
  have : (y.smul c).series = y.series := by
    simp [Frame.series, Frame.smul, Frame.mapVals, Function.comp_def]
  rw [this, List.map_filterMap]
  congr 1
  funext s
  rw [targetVals_rowsOf_smul, maxAbs?_mul hc]
  simp [Option.map_map, Function.comp_def]

/-- Multiply a scale by `c`. -/
def Scale.mul (c : K) : Scale K → Scale K
  | .float x => .float (c * x)
  | .int n => .int n
  | .table e => .table (e.map fun p => (p.1, c * p.2))

theorem rawScale_smul {c : K} (hc : 0 < c) (y : Frame String τ K) :
    rawScale none (y.smul c) = (rawScale none y).map (Scale.mul c) := by
  unfold rawScale
  have hn : (y.smul c).nlevels = y.nlevels := rfl
  rw [hn]
  by_cases h1 : y.nlevels = 1
  · simp only [h1, if_true]
    rw [targetVals_smul, maxAbs?_mul hc]
    cases maxAbs? (targetVals y y.rows) <;> rfl
  · simp only [h1, if_false]
    rw [groupMaxAbs_smul hc]
    rfl

/-- No entry of the scale is zero. -/
def Scale.NonZero : Scale K → Prop
  | .float x => x ≠ 0
  | .int n => n ≠ 0
  | .table e => ∀ p ∈ e, p.2 ≠ 0

theorem zeroToOne_of_nonZero {s : Scale K} (h : s.NonZero) : zeroToOne s = s := by
  cases s with
  | float x => simp only [Scale.NonZero] at h; simp [zeroToOne, h]
  | int n => simp only [Scale.NonZero] at h; simp [zeroToOne, h]
  | table e =>
    simp only [zeroToOne, Scale.table.injEq]
    simp only [Scale.NonZero] at h
    conv_rhs => rw [← List.map_id e]
    apply List.map_congr_left
    intro p hp
    simp [h p hp]

theorem Scale.NonZero.mul {c : K} (hc : 0 < c) {s : Scale K} (h : s.NonZero) :
    (Scale.mul c s).NonZero := by
  cases s with
  | float x => exact mul_ne_zero hc.ne' h
  | int n => exact h
  | table e =>
    intro p hp
    obtain ⟨q, hq, rfl⟩ := List.mem_map.1 hp
    exact mul_ne_zero hc.ne' (h q hq)

theorem rawScale_nonZero {y : Frame String τ K} {col : String} (hcol : y.cols = [col])
    (hne : y.rows ≠ [])
    (hnz : ∀ r ∈ y.rows, ∃ r' ∈ y.rows, r'.sid = r.sid ∧ r'.val col ≠ 0) :
    ∃ s, rawScale none y = .ok s ∧ s.NonZero ∧ (∀ n, s ≠ .int n) := by
  have hcol' : y.cols.headD "" = col := by rw [hcol]; rfl
  unfold rawScale
  by_cases h1 : y.nlevels = 1
  · simp only [h1, if_true]
    obtain ⟨m, hm⟩ := maxAbs?_isSome (xs := targetVals y y.rows) (by simpa [targetVals] using hne)
    rw [hm]
    refine ⟨_, rfl, ?_, by simp⟩
    obtain ⟨r, hr⟩ := List.exists_mem_of_ne_nil _ hne
    obtain ⟨r', hr', -, hv⟩ := hnz r hr
    have := (maxAbs?_spec hm).1 (r'.val col) (List.mem_map.2 ⟨r', hr', by rw [hcol']⟩)
    exact (lt_of_lt_of_le (abs_pos.2 hv) this).ne'
  · simp only [h1, if_false]
    refine ⟨_, rfl, ?_, by simp⟩
    intro p hp
    unfold groupMaxAbs at hp
    obtain ⟨s, hs, hp⟩ := List.mem_filterMap.1 hp
    simp only [Option.map_eq_some_iff] at hp
    obtain ⟨m, hm, rfl⟩ := hp
    unfold Frame.series at hs
    rw [mem_unique] at hs
    obtain ⟨r, hr, rfl⟩ := List.mem_map.1 hs
    obtain ⟨r', hr', he, hv⟩ := hnz r hr
    have := (maxAbs?_spec hm).1 (r'.val col) (List.mem_map.2 ⟨r', by
      simp [Frame.rowsOf, hr', he], by rw [hcol']⟩)
    exact (lt_of_lt_of_le (abs_pos.2 hv) this).ne'

theorem mapM_except_map {α β γ : Type} (f : α → PyM β) (g : β → γ) (l : List α) :
    l.mapM (fun a => (f a).map g) = (l.mapM f).map (List.map g) := by
  induction l with
  | nil => rfl
  | cons a l ih =>
    rw [List.mapM_cons, List.mapM_cons, ih]
    cases f a with
    | error e => rfl
    | ok b =>
      cases l.mapM f <;> rfl

theorem rowScales_mul {ι V : Type} (c : K) (s : Scale K) (f : Frame ι τ V) :
    rowScales (Scale.mul c s) f = (rowScales s f).map (List.map (c * ·)) := by
  cases s with
  | float x => simp [Scale.mul, rowScales, pure, Except.pure, Except.map]
  | int n => rfl
  | table e =>
    simp only [Scale.mul, rowScales]
    split
    · rfl
    · rw [← mapM_except_map]
      congr 1
      funext r
      unfold lookupScale
      rw [List.find?_map]
      simp only [Function.comp_def]
      cases e.find? (fun p => p.1 = r.sid) <;> rfl

theorem rowScales_smul {ι : Type} (c : K) (s : Scale K) (f : Frame ι τ K) :
    rowScales s (f.smul c) = rowScales s f := by
  cases s with
  | float x => simp [rowScales, Frame.smul, Frame.mapVals, Function.comp_def]
  | int n => rfl
  | table e => simp [rowScales, Frame.smul, Frame.mapVals, List.mapM_map, Function.comp_def]

theorem scaleY_smul {c : K} (hc : 0 < c) (s : Scale K) (y : Frame String τ K) :
    scaleY false (Scale.mul c s) (y.smul c) = scaleY false s y := by
  simp only [scaleY, Bool.false_eq_true, if_false]
  rw [rowScales_smul, rowScales_mul]
  cases rowScales s y with
  | error e => rfl
  | ok ss =>
    have : applyScales (fun v k => v / k) (y.smul c) (ss.map (c * ·))
        = applyScales (fun v k => v / k) y ss := by
      simp only [applyScales, Frame.smul, Frame.mapVals, Frame.mk.injEq, true_and]
      rw [List.zipWith_map]
      congr 1
      funext r k
      congr 1
      funext col
      exact mul_div_mul_left _ _ hc.ne'
    exact congrArg Except.ok this

theorem invScaleY_mul {ι : Type} (c : K) (s : Scale K) (f : Frame ι τ K) :
    invScaleY false (Scale.mul c s) f = (invScaleY false s f).map (Frame.smul c) := by
  simp only [invScaleY, Bool.false_eq_true, if_false]
  rw [rowScales_mul]
  cases rowScales s f with
  | error e => rfl
  | ok ss =>
    have : applyScales (fun v k => v * k) f (ss.map (c * ·))
        = (applyScales (fun v k => v * k) f ss).smul c := by
      simp only [applyScales, Frame.smul, Frame.mapVals, Frame.mk.injEq, true_and]
      rw [List.zipWith_map_right, List.map_zipWith]
      congr 1
      funext r k
      congr 1
      funext col
      ring
    exact congrArg Except.ok this

theorem setYScales_smul {c : K} (hc : 0 < c) {y : Frame String τ K} {col : String}
    (hcol : y.cols = [col]) (hne : y.rows ≠ [])
    (hnz : ∀ r ∈ y.rows, ∃ r' ∈ y.rows, r'.sid = r.sid ∧ r'.val col ≠ 0) :
    ∃ s, setYScales none y = .ok s ∧ setYScales none (y.smul c) = .ok (Scale.mul c s) ∧
      (∀ n, s ≠ .int n) := by
  obtain ⟨s, hs, hz, hi⟩ := rawScale_nonZero hcol hne hnz
  refine ⟨s, ?_, ?_, hi⟩
  · simp only [setYScales, hs, zeroToOne_of_nonZero hz]
  · simp only [setYScales, rawScale_smul hc, hs, Except.map, zeroToOne_of_nonZero (hz.mul hc)]

theorem predictSamples_scale_mul {ctx ctx' : Fitted K} {c : K}
    (h1 : ctx'.yNlevels = ctx.yNlevels) (h2 : ctx'.internalSids = ctx.internalSids)
    (h3 : ctx'.hierarchical = ctx.hierarchical) (h4 : ctx.discrete = false)
    (h4' : ctx'.discrete = false) (h5 : ctx'.scale = Scale.mul c ctx.scale)
    (obs : Tensor K) (fh : List τ) :
    predictSamples ctx' obs fh = (predictSamples ctx obs fh).map (Frame.smul c) := by
  have hidx : periodindexToMultiindex ctx' fh = periodindexToMultiindex ctx fh := by
    simp only [periodindexToMultiindex, h1, h2, h3]
  unfold predictSamples
  rw [hidx, h1, h4, h4', h5]
  cases obs.shape with
  | nil => rfl
  | cons n sh =>
    simp only [pure_bind]
    cases obs.transpose.reshapeInfer n with
    | error e => rfl
    | ok d =>
      cases periodindexToMultiindex ctx fh with
      | error e => rfl
      | ok idx =>
        simp only [bind, Except.bind]
        cases frameOfMatrix ctx.yNlevels d.data (d.shape.headD 0) n idx with
        | error e => rfl
        | ok g => exact invScaleY_mul c ctx.scale (sortIndex g)

end PV
