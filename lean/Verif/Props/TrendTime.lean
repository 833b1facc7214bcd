import Mathlib.Algebra.Order.Floor.Ring
import Verif.Lemmas.Trend

/-!
# C32, C33: the time axis of the trend
-/

namespace PV
variable {K τ : Type} [Field K] [LinearOrder K] [IsStrictOrderedRing K]

/-- The trend time `f` of the training times `ts`, whose dates are `date t`: an increasing affine
function of the date which is 0 at the first time and `n - 1` at the last one. -/
structure GoodTrendTime (date : τ → K) (ok : τ → Prop) (ts : List τ) (f : τ → K) : Prop where
  affine : ∃ a b : K, 0 < a ∧ ∀ t, ok t → f t = a * date t + b
  first : ∀ t, ts.head? = some t → f t = 0
  last : ∀ t, ts.getLast? = some t → f t = (ts.length : K) - 1
  /-- equally spaced dates are numbered, also before the beginning and beyond the end -/
  equal : ∀ (h d : K), (∀ (i : Nat) (t : τ), ts[i]? = some t → date t = d + i * h) →
    ∀ (i : ℤ) (t : τ), ok t → date t = d + i * h → f t = i

section
variable [DecidableEq τ] {ι V : Type}

theorem goodTrendTime {days : τ → K} {y : Frame ι τ V} {d : K}
    {ds : List K} (h : (unique y.times).map days = d :: ds) (hne : ds ≠ [])
    (hs : (d :: ds).Pairwise (· < ·)) :
    ∃ tt, trendTimeFit days y = .ok tt ∧
      GoodTrendTime days (fun _ => True) (unique y.times) (tt.scaled days) := by
  obtain ⟨hpos, hfit⟩ := trendTimeFit_increasing h hne hs
  refine ⟨_, hfit, ?_⟩
  set u := ds.getLastD d - d with hu
  set n : K := (ds.length : K) with hn
  have hn0 : 0 < n := by rw [hn]; exact_mod_cast List.length_pos_iff.2 hne
  have hu0 : 0 < u := by
    by_contra hc
    exact absurd hpos (not_lt.2 (div_nonpos_of_nonpos_of_nonneg (not_lt.1 hc) hn0.le))
  have hval : ∀ t, TrendTime.scaled ⟨u / n, d / (u / n), nSeriesOf y⟩ days t
      = (days t - d) * n / u := by
    intro t
    simp only [TrendTime.scaled]
    field_simp
  have hlen : (unique y.times).length = ds.length + 1 := by
    have := congrArg List.length h
    simpa using this
  refine ⟨⟨n / u, - (d * n / u), div_pos hn0 hu0, fun t _ => ?_⟩, ?_, ?_, ?_⟩
  · rw [hval]; ring
  · intro t ht
    have : days t = d := by
      have := congrArg List.head? h
      rw [List.head?_map, ht] at this
      simpa using this
    rw [hval, this]; simp
  · intro t ht
    have : days t = ds.getLastD d := by
      have := congrArg List.getLast? h
      rw [List.getLast?_map, ht] at this
      rw [List.getLast?_eq_getLast_of_ne_nil (by simp), List.getLast_cons hne] at this
      rw [List.getLastD_eq_getLast?, List.getLast?_eq_getLast_of_ne_nil hne]
      simpa using this
    rw [hval, this, hlen, ← hu]
    rw [hn]
    field_simp
    push_cast
    ring
  · intro st d' he i t _ hd
    have hget : ∀ (j : Nat) (x : K), (d :: ds)[j]? = some x → x = d' + j * st := by
      intro j x hx
      rw [← h, List.getElem?_map] at hx
      cases ht : (unique y.times)[j]? with
      | none => rw [ht] at hx; cases hx
      | some t' =>
        rw [ht] at hx
        cases hx
        exact he j t' ht
    have hd0 : d = d' := by simpa using hget 0 d (by simp)
    have hl : ds.getLastD d = d' + n * st := by
      have hidx : (d :: ds)[ds.length]? = some (ds.getLastD d) := by
        rw [List.getLastD_eq_getLast?, List.getLast?_eq_getElem?]
        obtain ⟨k, hk⟩ : ∃ k, ds.length = k + 1 :=
          ⟨ds.length - 1, by have := List.length_pos_iff.2 hne; omega⟩
        rw [hk, List.getElem?_cons_succ]
        simp only [Nat.add_sub_cancel]
        rw [List.getElem?_eq_getElem (by omega)]
        rfl
      exact hget _ _ hidx
    have hust : u = n * st := by rw [hu, hl, hd0]; ring
    rw [hval, hd, hd0, hust]
    have hst : st ≠ 0 := by
      rintro rfl
      rw [mul_zero] at hust
      exact hu0.ne' hust
    field_simp
    ring

end

theorem pairwise_map_lt {f : τ → K} [LinearOrder τ] {ok : τ → Prop} {l : List τ}
    (hok : ∀ t ∈ l, ok t) (hf : ∀ s t, ok s → ok t → s < t → f s < f t)
    (h : l.Pairwise (· < ·)) : (l.map f).Pairwise (· < ·) := by
  rw [List.pairwise_map]
  exact h.imp_of_mem fun hs ht hst => hf _ _ (hok _ hs) (hok _ ht) hst

/-- **C32** for an integer index: strictly increasing training times are mapped as stated. -/
theorem C32_integer_index {ι V : Type} {y : Frame ι ℤ V} (h2 : 2 ≤ (unique y.times).length)
    (hs : (unique y.times).Pairwise (· < ·)) :
    ∃ tt : TrendTime K, trendTimeFit daysOfInt y = .ok tt ∧
      GoodTrendTime (fun n : ℤ => (n : K)) (fun _ => True) (unique y.times) (tt.scaled daysOfInt) := by
  have hp : ((unique y.times).map (daysOfInt : ℤ → K)).Pairwise (· < ·) :=
    pairwise_map_lt (ok := fun _ => True) (fun _ _ => trivial)
      (fun s t _ _ h => by simpa [daysOfInt] using h) hs
  obtain ⟨d, ds, hd⟩ : ∃ d ds, (unique y.times).map (daysOfInt : ℤ → K) = d :: ds := by
    cases h : unique y.times with
    | nil => rw [h] at h2; simp at h2
    | cons a l => exact ⟨_, _, List.map_cons⟩
  rw [hd] at hp
  refine goodTrendTime hd ?_ hp
  rintro rfl
  have := congrArg List.length hd
  simp at this
  omega

/-- A time stamp on a whole second. -/
def WholeSecond (n : ℤ) : Prop := (1000000000 : ℤ) ∣ n

theorem daysOfNs_whole {n : ℤ} (h : WholeSecond n) :
    (daysOfNs n : K) = (n : K) / 86400000000000 := by
  obtain ⟨m, rfl⟩ := h
  unfold daysOfNs
  rw [Int.mul_ediv_cancel_left _ (by norm_num)]
  push_cast
  rw [div_eq_div_iff (by norm_num) (by norm_num)]
  ring

/-- **C32** for dates on whole seconds.
Missing from C32: time stamps within a second, whose fraction is dropped; then it is false
(`C32_subsecond_refuted`). -/
theorem C32_datetime_index_partial {ι V : Type} {y : Frame ι ℤ V}
    (h2 : 2 ≤ (unique y.times).length) (hs : (unique y.times).Pairwise (· < ·))
    (hw : ∀ n ∈ y.times, WholeSecond n) :
    ∃ tt : TrendTime K, trendTimeFit daysOfNs y = .ok tt ∧
      GoodTrendTime (fun n : ℤ => (n : K)) WholeSecond (unique y.times) (tt.scaled daysOfNs) := by
  have hw' : ∀ n ∈ unique y.times, WholeSecond n := fun n hn => hw n (mem_unique.1 hn)
  have hp : ((unique y.times).map (daysOfNs : ℤ → K)).Pairwise (· < ·) := by
    refine pairwise_map_lt hw' (fun s t h1 h2 h => ?_) hs
    rw [daysOfNs_whole h1, daysOfNs_whole h2]
    exact div_lt_div_of_pos_right (by exact_mod_cast h) (by norm_num)
  obtain ⟨d, ds, hd⟩ : ∃ d ds, (unique y.times).map (daysOfNs : ℤ → K) = d :: ds := by
    cases h : unique y.times with
    | nil => rw [h] at h2; simp at h2
    | cons a l => exact ⟨_, _, List.map_cons⟩
  rw [hd] at hp
  have hne : ds ≠ [] := by
    rintro rfl
    have := congrArg List.length hd
    simp at this
    omega
  obtain ⟨tt, htt, ⟨a, b, ha, hab⟩, h1, h2, h3⟩ := goodTrendTime hd hne hp
  refine ⟨tt, htt, ⟨a / 86400000000000, b, by positivity, fun t ht => ?_⟩, h1, h2, ?_⟩
  · rw [hab t trivial, daysOfNs_whole ht]; ring
  · intro st d' he i t ht hd'
    refine h3 (st / 86400000000000) (d' / 86400000000000) ?_ i t trivial ?_
    · intro j s hj
      rw [daysOfNs_whole (hw' s (List.mem_of_getElem? hj)), he j s hj]
      ring
    · rw [daysOfNs_whole ht, hd']
      ring

/-- **C32** is false for time stamps less than a second apart: the differences are 0 and the trend
time is not a number. -/
theorem C32_subsecond_refuted : ∃ y : Frame String ℤ ℚ, (unique y.times).length = 3 ∧
    (unique y.times).Pairwise (· < ·) ∧
    trendTimeFit (daysOfNs : ℤ → ℚ) y = .error .nonFinite :=
  ⟨⟨1, ["y"], [⟨[], 0, fun _ => 1⟩, ⟨[], 250000000, fun _ => 1⟩, ⟨[], 500000000, fun _ => 1⟩]⟩,
    by decide, by decide, by
      simp [trendTimeFit, Frame.times, unique, daysOfNs, diffs]⟩

/-! ## C33 -/

/-- The frame with other time labels. -/
def Frame.mapTimes {ι V τ' : Type} (g : τ → τ') (y : Frame ι τ V) : Frame ι τ' V :=
  { nlevels := y.nlevels, cols := y.cols, rows := y.rows.map fun r => ⟨r.sid, g r.time, r.val⟩ }

section
variable {τ' : Type} [DecidableEq τ] [DecidableEq τ'] {ι V : Type}

theorem times_mapTimes (g : τ → τ') (y : Frame ι τ V) : (y.mapTimes g).times = y.times.map g := by
  simp [Frame.times, Frame.mapTimes]

theorem series_mapTimes (g : τ → τ') (y : Frame ι τ V) : (y.mapTimes g).series = y.series := by
  simp [Frame.series, Frame.mapTimes, Function.comp_def]

theorem nSeriesOf_mapTimes (g : τ → τ') (y : Frame ι τ V) : nSeriesOf (y.mapTimes g) = nSeriesOf y := by
  unfold nSeriesOf
  rw [series_mapTimes]
  rfl

theorem diffs_affine (a b : K) : ∀ l : List K,
    diffs (l.map fun d => a * d + b) = (diffs l).map (a * ·)
  | [] => rfl
  | [_] => rfl
  | x :: y :: l => by
    have := diffs_affine a b (y :: l)
    simp only [List.map_cons] at this
    simp only [List.map_cons, diffs, this]
    congr 1
    ring

theorem sum_map_mul' (a : K) (l : List K) : (l.map (a * ·)).sum = a * l.sum := by
  induction l with
  | nil => simp
  | cons x l ih => simp [ih, mul_add]

theorem foldl_min_affine {a b : K} (ha : 0 < a) : ∀ (l : List K) (d : K),
    (l.map fun x => a * x + b).foldl min (a * d + b) = a * l.foldl min d + b
  | [], d => rfl
  | x :: l, d => by
    rw [List.map_cons, List.foldl_cons, List.foldl_cons]
    have : min (a * d + b) (a * x + b) = a * min d x + b := by
      rcases le_total d x with h | h
      · rw [min_eq_left h, min_eq_left (by nlinarith)]
      · rw [min_eq_right h, min_eq_right (by nlinarith)]
    rw [this, foldl_min_affine ha l]

/-- Changing all dates by an increasing affine map does not change the outcome of the fit but for
the time scale itself, and not the trend times. -/
theorem trendTimeFit_affine {days : τ → K} {days' : τ' → K} {g : τ → τ'} {a b : K} (ha : 0 < a)
    (hg : Function.Injective g) (hd : ∀ t, days' (g t) = a * days t + b) (y : Frame ι τ V) :
    match trendTimeFit days y, trendTimeFit days' (y.mapTimes g) with
    | .ok tt, .ok tt' => tt'.nSeries = tt.nSeries ∧
        ∀ t, tt'.scaled days' (g t) = tt.scaled days t
    | .error e, .error e' => e = e'
    | _, _ => False := by
  have hu : (unique (y.mapTimes g).times).map days'
      = ((unique y.times).map days).map fun d => a * d + b := by
    rw [times_mapTimes, map_unique fun _ _ _ _ h => hg h, List.map_map, List.map_map]
    apply List.map_congr_left
    intro t _
    exact hd t
  unfold trendTimeFit
  rw [hu]
  cases (unique y.times).map days with
  | nil => rfl
  | cons d ds =>
    simp only [List.map_cons]
    rw [← List.map_cons (f := fun d => a * d + b), diffs_affine, sum_map_mul', foldl_min_affine ha,
      List.length_map, nSeriesOf_mapTimes]
    have hz : a * (diffs (d :: ds)).sum / (ds.length : K) = 0 ↔
        (diffs (d :: ds)).sum / (ds.length : K) = 0 := by
      rw [mul_div_assoc, mul_eq_zero]
      simp [ha.ne']
    simp only [hz, List.map_eq_nil_iff]
    by_cases hc : ds = [] ∨ (diffs (d :: ds)).sum / (ds.length : K) = 0
    · simp only [if_pos hc]
    · simp only [if_neg hc]
      refine ⟨trivial, fun t => ?_⟩
      have hs : (diffs (d :: ds)).sum / (ds.length : K) ≠ 0 := fun h => hc (Or.inr h)
      simp only [TrendTime.scaled, hd, mul_div_assoc]
      set s := (diffs (d :: ds)).sum / (ds.length : K)
      field_simp
      ring

theorem rowsOf_mapTimes (g : τ → τ') (y : Frame ι τ V) (s : List String) :
    (y.mapTimes g).rowsOf s = (y.rowsOf s).map fun r => ⟨r.sid, g r.time, r.val⟩ := by
  simp [Frame.rowsOf, Frame.mapTimes, List.filter_map, Function.comp_def]

theorem seriesToTensor_mapTimes (g : τ → τ') (y : Frame ι τ V) :
    (y.mapTimes g).seriesToTensor = y.seriesToTensor := by
  have hflat : ∀ rows : List (Row ι τ V), (y.mapTimes g).flatVals
      (rows.map fun r => ⟨r.sid, g r.time, r.val⟩) = y.flatVals rows := by
    intro rows
    simp [Frame.flatVals, Frame.mapTimes, List.flatMap_map]
  unfold Frame.seriesToTensor
  rw [series_mapTimes]
  simp only [rowsOf_mapTimes, hflat, List.length_map]
  have h1 : (y.mapTimes g).cols = y.cols := rfl
  have h2 : (y.mapTimes g).nlevels = y.nlevels := rfl
  have h3 : (y.mapTimes g).rows = y.rows.map fun r => ⟨r.sid, g r.time, r.val⟩ := rfl
  rw [h1, h2, h3, hflat, List.length_map]

/-- Two piecewise trends agree in everything but the time scale. -/
structure SameTrend {K τ τ' : Type} (s : PiecewiseState K τ) (s' : PiecewiseState K τ') : Prop where
  nSeries : s'.time.nSeries = s.time.nSeries
  cps : s'.cps = s.cps
  rates : s'.rates = s.rates
  offsetLoc : s'.offsetLoc = s.offsetLoc
  priorLoc : s'.priorLoc = s.priorLoc
  priorScale : s'.priorScale = s.priorScale
  series : s'.series = s.series

theorem fhTimes_map {g : τ → τ'} (hg : Function.Injective g) (ss : Option (List (List String)))
    (fh : List τ) : fhTimes ss (fh.map g) = (fhTimes ss fh).map g := by
  cases ss with
  | none => rfl
  | some ss =>
    simp only [fhTimes]
    rw [← map_unique fun _ _ _ _ h => hg h]
    congr 1
    simp [product, List.map_flatMap, Function.comp_def]

/-- **C33**: under a change of all dates by an increasing affine map (a shift of the calendar origin,
a change of the time unit) fitting a piecewise trend gives the same changepoints and priors (or the
same exception), and transforming the changed horizon gives the same design matrix. -/
theorem C33_affine_change [FloorSemiring K] {days : τ → K} {days' : τ' → K} {g : τ → τ'} {a b : K}
    (ha : 0 < a) (hg : Function.Injective g) (hd : ∀ t, days' (g t) = a * days t + b)
    {suggest : List K → Tensor K → PyM (List K × List K)} {p : PiecewiseParams K τ}
    {p' : PiecewiseParams K τ'} (h1 : p'.interval = p.interval) (h2 : p'.range = p.range)
    (h3 : p'.priorScale = p.priorScale)
    (hdet : ∀ y, detrended p' (y.mapTimes g) = (detrended p y).map (Frame.mapTimes g))
    (y : Frame String τ K) :
    match piecewiseFit days suggest p y, piecewiseFit days' suggest p' (y.mapTimes g) with
    | .ok s, .ok s' => SameTrend s s' ∧ ∀ squeeze fh,
        piecewiseTransform days' squeeze s' (fh.map g) = piecewiseTransform days squeeze s fh
    | .error e, .error e' => e = e'
    | _, _ => False := by
  have htt := trendTimeFit_affine (days := days) (days' := days') ha hg hd y
  unfold piecewiseFit
  cases h : trendTimeFit days y with
  | error e =>
    cases h' : trendTimeFit days' (y.mapTimes g) with
    | error e' => rw [h, h'] at htt; exact htt
    | ok tt' => rw [h, h'] at htt; exact htt.elim
  | ok tt =>
    cases h' : trendTimeFit days' (y.mapTimes g) with
    | error e' => rw [h, h'] at htt; exact htt.elim
    | ok tt' =>
      rw [h, h'] at htt
      obtain ⟨hn, hs⟩ := htt
      have htimes : ∀ y : Frame String τ K, (unique (y.mapTimes g).times).map (tt'.scaled days')
          = (unique y.times).map (tt.scaled days) := by
        intro y
        rw [times_mapTimes, map_unique fun _ _ _ _ h => hg h, List.map_map]
        exact List.map_congr_left fun t _ => hs t
      simp only [bind, Except.bind, htimes y, hn, h1, h2, h3]
      cases hc : setupChangepoints ((unique y.times).map (tt.scaled days)) tt.nSeries p.interval p.range with
      | error e => rfl
      | ok cps =>
        simp only [hdet]
        cases hy : detrended p y with
        | error e => rfl
        | ok y' =>
          simp only [Except.map, seriesToTensor_mapTimes]
          cases hya : y'.seriesToTensor with
          | error e => rfl
          | ok ya =>
            simp only [htimes y']
            cases hsg : suggest ((unique y'.times).map (tt.scaled days)) ya with
            | error e => rfl
            | ok sg =>
              simp only [pure, Except.pure]
              refine ⟨⟨hn, rfl, rfl, rfl, rfl, rfl, by rw [series_mapTimes]; rfl⟩, ?_⟩
              intro squeeze fh
              unfold piecewiseTransform
              simp only [series_mapTimes]
              have hnl : (y.mapTimes g).nlevels = y.nlevels := rfl
              rw [hnl, fhTimes_map hg, List.map_map]
              congr 1
              exact List.map_congr_left fun t _ => hs t

/-- **C33**: shifting all integer times, or all dates by whole seconds, are such changes. -/
theorem C33_shifts (s : ℤ) :
    (∀ t : ℤ, (daysOfInt (t + s) : K) = 1 * daysOfInt t + s) ∧
    (∀ t : ℤ, (daysOfNs (t + s * 1000000000) : K) = 1 * daysOfNs t + s / 86400) := by
  constructor
  · intro t; simp [daysOfInt]
  · intro t
    unfold daysOfNs
    rw [Int.add_mul_ediv_right _ _ (by norm_num)]
    push_cast
    ring

/-- **C33**: stretching all integer times, or all dates on whole seconds, by a positive factor. -/
theorem C33_rescaling {k : ℤ} (hk : 0 < k) :
    (∀ t : ℤ, (daysOfInt (k * t) : K) = k * daysOfInt t + 0) ∧
    Function.Injective (fun t : {t // WholeSecond t} =>
      (⟨k * t, t.2.mul_left k⟩ : {t // WholeSecond t})) ∧
    (∀ t : {t // WholeSecond t}, (daysOfNs (k * t) : K) = k * daysOfNs t + 0) := by
  refine ⟨?_, ?_, ?_⟩
  · intro t; simp [daysOfInt]
  · intro t t' h
    exact Subtype.ext (mul_left_cancel₀ hk.ne' (congrArg Subtype.val h))
  · rintro ⟨t, ht⟩
    simp only
    rw [daysOfNs_whole ht, daysOfNs_whole (ht.mul_left k)]
    push_cast
    ring

end

/-! ## Non-vacuity -/

/-- Five days of two series, one day missing. -/
def exPanel32 : Frame String ℤ ℚ := ⟨2, ["y"],
  [⟨["a"], 0, fun _ => 1⟩, ⟨["a"], 86400000000000, fun _ => 2⟩, ⟨["a"], 259200000000000, fun _ => 4⟩,
   ⟨["b"], 0, fun _ => 5⟩, ⟨["b"], 86400000000000, fun _ => 6⟩, ⟨["b"], 259200000000000, fun _ => 7⟩]⟩

example : 2 ≤ (unique exPanel32.times).length ∧ (unique exPanel32.times).Pairwise (· < ·) ∧
    ∀ n ∈ exPanel32.times, WholeSecond n := by
  unfold WholeSecond; decide

example : (trendTimeFit (daysOfNs : ℤ → ℚ) exPanel32).map
      (fun tt => (unique exPanel32.times).map (tt.scaled daysOfNs)) = .ok [0, 2/3, 2] := by
  decide +kernel

end PV
