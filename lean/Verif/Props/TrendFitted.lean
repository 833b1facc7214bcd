import Verif.Props.OwnRows
import Verif.Props.TrendPriors

/-!
# C34, C35, C37, C38 for the whole trend: fit, transformation of a horizon, prediction

The theorems of `Props/Changepoints` and `Props/Trend` are about the arrays inside; here the same
claims are stated for the attributes after `fit` on a target `y` and for the values predicted for a
horizon.
-/

namespace PV
open Tensor

section
variable {K τ : Type} [Field K] [LinearOrder K] [IsStrictOrderedRing K]

/-- `y` has `n` series: one if the index is plain, else the number of different labels. -/
def CountOfSeries {V : Type} (y : Frame String τ V) (n : Nat) : Prop :=
  (y.nlevels ≤ 1 ∧ n = 1) ∨ (1 < y.nlevels ∧ n = (unique (y.rows.map Row.sid)).length)

/-- The different dates of `y` are `ds` days, at least two and in increasing order. -/
structure HistoryDays {V : Type} [DecidableEq τ] (days : τ → K) (y : Frame String τ V)
    (ds : List K) : Prop where
  dates : (unique (y.rows.map Row.time)).map days = ds
  two : 2 ≤ ds.length
  increasing : ds.Pairwise (· < ·)

/-- Trend time of a day: the first date of the history is 0, the last is the number of dates minus
one. -/
def trendTimeOf (ds : List K) (d : K) : K :=
  (d - ds.headD 0) * ((ds.length : K) - 1) / (ds.getLastD 0 - ds.headD 0)

/-- The end of the part of the history given by `changepoint_range`, for `N` dates. -/
structure RangeLimit (N : Nat) (r limit : K) : Prop where
  fraction : 0 < r → r < 1 → limit = r * ((N : K) - 1)
  count : 1 ≤ r → limit = r
  negative : r ≤ 0 → limit = ((N : K) - 1) + r

theorem rangeLimit_iff {N : Nat} {r limit : K} :
    RangeLimit N r limit ↔ limit = changepointLimit ((N : K) - 1) r := by
  unfold changepointLimit
  constructor
  · rintro ⟨h1, h2, h3⟩
    split_ifs with h h'
    · rw [h1 h.2 h.1, mul_comm]
    · exact h2 h'
    · refine h3 (not_lt.1 fun h0 => h ⟨not_le.1 h', h0⟩)
  · rintro rfl
    refine ⟨fun h0 h1 => ?_, fun h => ?_, fun h => ?_⟩
    · rw [if_pos ⟨h1, h0⟩, mul_comm]
    · rw [if_neg (fun h' => absurd h'.1 (not_lt.2 h)), if_pos h]
    · rw [if_neg (fun h' => absurd h'.2 (not_lt.2 h)),
        if_neg (fun h' => absurd (h'.trans h) (not_le.2 one_pos))]

/-- What the fit makes of the dates. -/
theorem trendTimeFit_history [DecidableEq τ] {days : τ → K} {y : Frame String τ K} {ds : List K}
    (hd : HistoryDays days y ds) {n : Nat} (hn : CountOfSeries y n) :
    ∃ tt, trendTimeFit days y = .ok tt ∧ tt.nSeries = n ∧
      (∀ t, tt.scaled days t = trendTimeOf ds (days t)) ∧
      ((unique y.times).map (tt.scaled days)) = ds.map (trendTimeOf ds) := by
  obtain ⟨h1, h2, h3⟩ := hd
  match ds, h2 with
  | d :: e :: l, _ =>
    have h1' : (unique y.times).map days = d :: e :: l := h1
    obtain ⟨-, hfit⟩ := trendTimeFit_increasing h1' (List.cons_ne_nil e l) h3
    have hsc : ∀ t, (⟨((e :: l).getLastD d - d) / ((e :: l).length : K),
        d / (((e :: l).getLastD d - d) / ((e :: l).length : K)), nSeriesOf y⟩ : TrendTime K).scaled
          days t = trendTimeOf (d :: e :: l) (days t) := by
      intro t
      have hlt : d < (e :: l).getLastD d := (List.pairwise_cons.1 h3).1 _ (getLastD_mem (by simp))
      have hne : (e :: l).getLastD d - d ≠ 0 := (sub_pos.2 hlt).ne'
      have hlen : (((e :: l).length : Nat) : K) ≠ 0 := by
        simp only [List.length_cons, Nat.cast_add, Nat.cast_one]
        positivity
      have hg : (d :: e :: l).getLastD 0 = (e :: l).getLastD d := by
        simp only [List.getLastD_cons]
      have hh : (d :: e :: l).headD 0 = d := rfl
      have hc : (((d :: e :: l).length : Nat) : K) - 1 = ((e :: l).length : K) := by
        simp only [List.length_cons]; push_cast; ring
      unfold TrendTime.scaled trendTimeOf
      rw [hg, hh, hc]
      simp only
      field_simp
    refine ⟨_, hfit, ?_, hsc, ?_⟩
    · show nSeriesOf y = n
      unfold nSeriesOf
      rcases hn with ⟨h4, rfl⟩ | ⟨h4, rfl⟩
      · rw [if_neg (by omega)]
      · rw [if_pos h4]; rfl
    · rw [← h1', List.map_map]
      apply List.map_congr_left
      intro t _
      rw [hsc t, Function.comp, h1']

/-- Trend times of the history: from 0 to the number of dates minus one. -/
theorem trendTimeOf_bounds {ds : List K} (h2 : 2 ≤ ds.length) (hi : ds.Pairwise (· < ·)) :
    (ds.length : K) - 1 ∈ ds.map (trendTimeOf ds) ∧
      ∀ s ∈ ds.map (trendTimeOf ds), 0 ≤ s ∧ s ≤ (ds.length : K) - 1 := by
  match ds, h2 with
  | d :: e :: l, _ =>
    have hlt : d < (e :: l).getLastD d := (List.pairwise_cons.1 hi).1 _ (getLastD_mem (by simp))
    have hpos : 0 < (e :: l).getLastD d - d := sub_pos.2 hlt
    have hg : (d :: e :: l).getLastD 0 = (e :: l).getLastD d := by simp only [List.getLastD_cons]
    have hh : (d :: e :: l).headD 0 = d := rfl
    have hlen : (0 : K) ≤ ((d :: e :: l).length : K) - 1 := by
      simp only [List.length_cons, Nat.cast_add, Nat.cast_one]
      have : (0 : K) ≤ (l.length : K) := Nat.cast_nonneg _
      linarith
    constructor
    · refine List.mem_map.2 ⟨(e :: l).getLastD d, List.mem_cons_of_mem d (getLastD_mem (by simp)), ?_⟩
      unfold trendTimeOf
      rw [hg, hh]
      field_simp
    · intro s hs
      obtain ⟨x, hx, rfl⟩ := List.mem_map.1 hs
      have hdx : d ≤ x := by
        rcases List.mem_cons.1 hx with rfl | hx
        · exact le_rfl
        · exact ((List.pairwise_cons.1 hi).1 _ hx).le
      have hxl : x ≤ (e :: l).getLastD d := by
        have hle : (d :: e :: l).Pairwise (· ≤ ·) := hi.imp le_of_lt
        have := (foldl_max_spec (e :: l) d).2 x hx
        rw [foldl_max_of_le hle] at this
        simpa only [List.getLastD_cons] using this
      unfold trendTimeOf
      rw [hg, hh]
      refine ⟨div_nonneg (mul_nonneg (sub_nonneg.2 hdx) hlen) hpos.le, ?_⟩
      rw [div_le_iff₀ hpos, mul_comm]
      exact mul_le_mul_of_nonneg_left (by linarith) hlen

variable [FloorSemiring K]

/-- **C34**, **C35** for the fitted trend: every series has as changepoints the multiples of its
interval before the end of its part of the history, increasing from 0. -/
theorem C34_fitted [DecidableEq τ] {days : τ → K}
    {suggest : List K → Tensor K → PyM (List K × List K)} {p : PiecewiseParams K τ}
    {y : Frame String τ K} {st : PiecewiseState K τ} (h : piecewiseFit days suggest p y = .ok st)
    {n : Nat} (hn : CountOfSeries y n) {ds : List K} (hd : HistoryDays days y ds)
    (hi : p.interval.Fits n) (hr : p.range.Fits n)
    (hpos : ∀ i < n, ∀ v, p.interval.at i = some v → 0 < v) :
    st.cps.length = n ∧ ∀ i < n, ∃ v r limit cs, p.interval.at i = some v ∧
      p.range.at i = some r ∧ RangeLimit ds.length r limit ∧ st.cps[i]? = some cs ∧
      AreChangepoints v limit cs := by
  obtain ⟨tt, htt, hns, hsc, hts⟩ := trendTimeFit_history hd hn
  obtain ⟨tt', cps, y', ya, s, h1, h2, -, -, -, rfl⟩ := piecewiseFit_inv h
  rw [htt] at h1
  cases h1
  rw [hns, hts] at h2
  obtain ⟨hl, hc⟩ := C34_multiples hi hr hpos h2
  refine ⟨hl, fun i hin => ?_⟩
  obtain ⟨v, r, tmax, cs, e1, e2, ⟨e3, e4⟩, e5, e6⟩ := hc i hin
  obtain ⟨b1, b2⟩ := trendTimeOf_bounds hd.two hd.increasing
  have : tmax = (ds.length : K) - 1 := le_antisymm (b2 _ e3).2 (e4 _ b1)
  subst this
  exact ⟨v, r, _, cs, e1, e2, rangeLimit_iff.2 rfl, e5, e6⟩

/-- **C34**, failure of the fit: if everything else can be computed, the fit raises iff the part of
the history of some series is empty, and then a `ValueError`. -/
theorem C34_fit_fails [DecidableEq τ] {days : τ → K}
    {suggest : List K → Tensor K → PyM (List K × List K)} {p : PiecewiseParams K τ}
    {y y' : Frame String τ K} {n : Nat} (hn : CountOfSeries y n) {ds : List K}
    (hd : HistoryDays days y ds) (hi : p.interval.Fits n) (hr : p.range.Fits n)
    (hpos : ∀ i < n, ∀ v, p.interval.at i = some v → 0 < v) {ya : Tensor K} {s : List K × List K}
    (h1 : detrended p y = .ok y') (h2 : y'.seriesToTensor = .ok ya)
    (h3 : suggest ((unique (y'.rows.map Row.time)).map fun t => trendTimeOf ds (days t)) ya = .ok s) :
    (∀ e, piecewiseFit days suggest p y = .error e → e = .valueError) ∧
    ((∃ e, piecewiseFit days suggest p y = .error e) ↔
      ∃ i < n, ∃ r limit, p.range.at i = some r ∧ RangeLimit ds.length r limit ∧ limit ≤ 0) := by
  obtain ⟨tt, htt, hns, hsc, hts⟩ := trendTimeFit_history hd hn
  obtain ⟨b1, b2⟩ := trendTimeOf_bounds hd.two hd.increasing
  have hne : ds.map (trendTimeOf ds) ≠ [] := List.ne_nil_of_mem b1
  obtain ⟨f1, f2⟩ := C34_failure hne hi hr hpos
  have hfit : piecewiseFit days suggest p y
      = (setupChangepoints (ds.map (trendTimeOf ds)) n p.interval p.range).map fun cps =>
        ⟨tt, cps, s.1, s.2, (priorVectors cps s.1 p.priorScale).1,
          (priorVectors cps s.1 p.priorScale).2, if y.nlevels > 1 then some y.series else none⟩ := by
    unfold piecewiseFit
    have h3' : suggest ((unique y'.times).map (tt.scaled days)) ya = .ok s := by
      rw [← h3]
      congr 1
      apply List.map_congr_left
      intro t _
      exact hsc t
    rw [htt, h1]
    simp only [bind, Except.bind, hns, hts, h2, h3']
    cases setupChangepoints (ds.map (trendTimeOf ds)) n p.interval p.range <;> rfl
  rw [hfit]
  cases hc : setupChangepoints (ds.map (trendTimeOf ds)) n p.interval p.range with
  | ok cps =>
    refine ⟨fun e he => (by cases he), ?_⟩
    constructor
    · rintro ⟨e, he⟩; cases he
    · rintro ⟨i, hin, r, limit, e1, e2, e3⟩
      have : ∃ e, setupChangepoints (ds.map (trendTimeOf ds)) n p.interval p.range = .error e :=
        f2.2 ⟨i, hin, r, (ds.length : K) - 1, e1, ⟨b1, fun x hx => (b2 x hx).2⟩,
          by rw [← rangeLimit_iff.1 e2]; exact e3⟩
      rw [hc] at this
      obtain ⟨e, he⟩ := this
      cases he
  | error e =>
    refine ⟨fun e' he' => ?_, ?_⟩
    · cases he'
      exact f1 e hc
    · refine ⟨fun _ => ?_, fun _ => ⟨e, rfl⟩⟩
      obtain ⟨i, hin, r, tmax, e1, ⟨e2, e3⟩, e4⟩ := f2.1 ⟨e, hc⟩
      have : tmax = (ds.length : K) - 1 := le_antisymm (b2 _ e2).2 (e3 _ b1)
      subst this
      exact ⟨i, hin, r, _, e1, rangeLimit_iff.2 rfl, e4⟩

/-- **C35** for the fitted trend: where the changepoints of a series can be.  A fraction strictly
between 0 and 1 leaves them in the first fraction of the history only, a number `m ≥ 1` in the first
`m` points only, a number `-m` with `m ≥ 1` before the last `m` points only.
Missing from C35: the fractions 0 and 1, for which it is false (`C35_zero_refuted`,
`C35_one_refuted`). -/
theorem C35_fitted_partial [DecidableEq τ] {days : τ → K}
    {suggest : List K → Tensor K → PyM (List K × List K)} {p : PiecewiseParams K τ}
    {y : Frame String τ K} {st : PiecewiseState K τ} (h : piecewiseFit days suggest p y = .ok st)
    {n : Nat} (hn : CountOfSeries y n) {ds : List K} (hd : HistoryDays days y ds)
    (hi : p.interval.Fits n) (hr : p.range.Fits n)
    (hpos : ∀ i < n, ∀ v, p.interval.at i = some v → 0 < v) {i : Nat} (hin : i < n) {r : K}
    (hri : p.range.at i = some r) {cs : List K} (hcs : st.cps[i]? = some cs) :
    (0 < r → r < 1 → ∀ c ∈ cs, c < r * ((ds.length : K) - 1)) ∧
    (∀ m : Nat, 1 ≤ m → r = m → ∀ c ∈ cs, c < m) ∧
    (∀ m : Nat, 1 ≤ m → r = -m → ∀ c ∈ cs, ∀ k < ds.length, ds.length ≤ k + m → c < k) := by
  obtain ⟨-, hc⟩ := C34_fitted h hn hd hi hr hpos
  obtain ⟨v, r', limit, cs', -, e2, e3, e4, e5⟩ := hc i hin
  rw [hri] at e2
  rw [hcs] at e4
  cases e2; cases e4
  have hlt : ∀ c ∈ cs, c < limit := fun c hc => by
    obtain ⟨k, -, hk⟩ := (e5.mem c).1 hc
    exact hk
  refine ⟨fun h0 h1 c hc => ?_, fun m hm hrm c hc => ?_, fun m hm hrm c hc k hk hkm => ?_⟩
  · rw [← e3.fraction h0 h1]; exact hlt c hc
  · have : (1 : K) ≤ r := by rw [hrm]; exact_mod_cast hm
    rw [← hrm, ← e3.count this]; exact hlt c hc
  · have hr0 : r ≤ 0 := by rw [hrm]; simp
    have h1 := hlt c hc
    rw [e3.negative hr0, hrm] at h1
    have h2 : ((ds.length : Nat) : K) ≤ ((k + m : Nat) : K) := by exact_mod_cast hkm
    push_cast at h2
    linarith

/-- **C38** for the fitted trend of several series: the prediction for a horizon has for every
series and date the own offset plus the own coefficients times the ramps of the own changepoints. -/
theorem C38_fitted [LinearOrder τ] {days : τ → K}
    {suggest : List K → Tensor K → PyM (List K × List K)} {p : PiecewiseParams K τ}
    {y : Frame String τ K} {st : PiecewiseState K τ} (h : piecewiseFit days suggest p y = .ok st)
    (hlv : 1 < y.nlevels) {ss : List (List String)} (hss : unique (y.rows.map Row.sid) = ss)
    {ds : List K} (hd : HistoryDays days y ds) (hsq : ss.length ≠ 1 ∨ p.squeeze = false)
    (hi : p.interval.Fits ss.length) (hr : p.range.Fits ss.length)
    (hpos : ∀ i < ss.length, ∀ v, p.interval.at i = some v → 0 < v)
    {fh : List τ} (hfh : fh.Nodup) {m : Tensor K}
    (hm : piecewiseTransform days p.squeeze st fh = .ok m) {θ : SiteEnv K} {offs : List K}
    {βs : List (List K)} (ho : (θ "offset").data = offs) (hol : offs.length = ss.length)
    (hβ : (θ "changepoint_coefficients").data = βs.flatten)
    (hβl : List.Forall₂ (fun c b : List K => c.length = b.length) st.cps βs)
    (pred : PyDict (Tensor K)) :
    ∃ r, piecewisePredict p.squeeze st.time.nSeries θ m pred = .ok r ∧
      r.shape = [ss.length, fh.length, 1] ∧
      ∀ i j cs bs o t, st.cps[i]? = some cs → βs[i]? = some bs → offs[i]? = some o →
        fh[j]? = some t →
        r.get? [i, j, 0] = some (trendAt rampEntry o cs bs (trendTimeOf ds (days t))) ∧
        ((∀ c ∈ cs, c ≤ trendTimeOf ds (days t) ∨ 1 ≤ c) →
          r.get? [i, j, 0] = some (trendAt ramp o cs bs (trendTimeOf ds (days t)))) := by
  have hn : CountOfSeries y ss.length := .inr ⟨hlv, by rw [hss]⟩
  obtain ⟨hl, -⟩ := C34_fitted h hn hd hi hr hpos
  obtain ⟨tt, htt, hns, hsc, hts⟩ := trendTimeFit_history hd hn
  obtain ⟨tt', cps, y', ya, s, h1, h2, -, -, -, rfl⟩ := piecewiseFit_inv h
  rw [htt] at h1
  cases h1
  have hsne : ss ≠ [] := by
    rintro rfl
    have : (unique (y.rows.map Row.time)) ≠ [] := by
      intro h0
      have := hd.two
      rw [← hd.dates, h0] at this
      simp at this
    have hr0 : y.rows = [] := by
      cases hy : y.rows with
      | nil => rfl
      | cons a l =>
        have : a.sid ∈ unique (y.rows.map Row.sid) := mem_unique.2 (by simp [hy])
        rw [hss] at this
        cases this
    apply this
    rw [hr0]
    rfl
  simp only at hl hβl ⊢
  unfold piecewiseTransform at hm
  have hser : (if y.nlevels > 1 then some y.series else none) = some ss := by
    rw [if_pos hlv, ← hss]; rfl
  simp only [hser, fhTimes_panel hsne hfh] at hm
  obtain ⟨r, g1, g2, g3⟩ := C38_own_trend (p := pred) (n := tt.nSeries) hm (by rw [hl]; exact hsq)
    (by rw [hns]; exact hsq) hβl hβ ho (by rw [hl]; exact hol)
  refine ⟨r, g1, by rw [g2, hl, List.length_map], fun i j cs bs o t a b c d => ?_⟩
  rw [← hsc t]
  exact g3 i j cs bs o _ a b c (by rw [List.getElem?_map, d]; rfl)

/-- **C38** for the fitted trend of one series. -/
theorem C38_fitted_single [DecidableEq τ] {days : τ → K}
    {suggest : List K → Tensor K → PyM (List K × List K)} {p : PiecewiseParams K τ}
    {y : Frame String τ K} {st : PiecewiseState K τ} (h : piecewiseFit days suggest p y = .ok st)
    (hlv : y.nlevels ≤ 1) {ds : List K} (hd : HistoryDays days y ds) (hsq : p.squeeze = true)
    {fh : List τ} {m : Tensor K} (hm : piecewiseTransform days p.squeeze st fh = .ok m)
    {cs : List K} (hcs : st.cps = [cs]) {θ : SiteEnv K} {o : K}
    {bs : List K} (ho : θ "offset" = ⟨[1], [o]⟩)
    (hβ : (θ "changepoint_coefficients").data = bs) (hβl : cs.length = bs.length)
    (pred : PyDict (Tensor K)) :
    ∃ r, piecewisePredict p.squeeze st.time.nSeries θ m pred = .ok r ∧ r.shape = [fh.length, 1] ∧
      ∀ j t, fh[j]? = some t →
        r.get? [j, 0] = some (trendAt rampEntry o cs bs (trendTimeOf ds (days t))) ∧
        ((∀ c ∈ cs, c ≤ trendTimeOf ds (days t) ∨ 1 ≤ c) →
          r.get? [j, 0] = some (trendAt ramp o cs bs (trendTimeOf ds (days t)))) := by
  have hn : CountOfSeries y 1 := .inl ⟨hlv, rfl⟩
  obtain ⟨tt, htt, hns, hsc, hts⟩ := trendTimeFit_history hd hn
  obtain ⟨tt', cps, y', ya, s, h1, h2, -, -, -, rfl⟩ := piecewiseFit_inv h
  rw [htt] at h1
  cases h1
  simp only at hcs ⊢
  subst hcs
  unfold piecewiseTransform at hm
  have hser : (if y.nlevels > 1 then some y.series else none) = none := if_neg (by omega)
  simp only [hser, fhTimes, hsq] at hm
  obtain ⟨r, g1, g2, g3⟩ := C38_single (p := pred) (n := tt.nSeries) hm hβl hβ ho
  refine ⟨r, by rw [hsq]; exact g1, by rw [g2, List.length_map], fun j t d => ?_⟩
  rw [← hsc t]
  exact g3 j _ (by rw [List.getElem?_map, d]; rfl)

/-- Trend time runs uniformly: the number of dates minus one over the length of the history. -/
theorem trendTimeOf_sub (ds : List K) (d d' : K) : trendTimeOf ds d' - trendTimeOf ds d
    = (d' - d) * ((ds.length : K) - 1) / (ds.getLastD 0 - ds.headD 0) := by
  unfold trendTimeOf
  rw [← sub_div]
  congr 1
  ring

/-- **C37** for the fitted trend of several series: the forecast goes on with the last slope.  If the
range leaves changepoints inside the history only, then from the end of the history on the
prediction of every series is a straight line, whose slope per mean time step is the sum of the
coefficients of the series. -/
theorem C37_extrapolation [LinearOrder τ] {days : τ → K}
    {suggest : List K → Tensor K → PyM (List K × List K)} {p : PiecewiseParams K τ}
    {y : Frame String τ K} {st : PiecewiseState K τ} (h : piecewiseFit days suggest p y = .ok st)
    (hlv : 1 < y.nlevels) {ss : List (List String)} (hss : unique (y.rows.map Row.sid) = ss)
    {ds : List K} (hd : HistoryDays days y ds) (hsq : ss.length ≠ 1 ∨ p.squeeze = false)
    (hi : p.interval.Fits ss.length) (hr : p.range.Fits ss.length)
    (hpos : ∀ i < ss.length, ∀ v, p.interval.at i = some v → 0 < v)
    {fh : List τ} (hfh : fh.Nodup) {m : Tensor K}
    (hm : piecewiseTransform days p.squeeze st fh = .ok m) {θ : SiteEnv K} {offs : List K}
    {βs : List (List K)} (ho : (θ "offset").data = offs) (hol : offs.length = ss.length)
    (hβ : (θ "changepoint_coefficients").data = βs.flatten)
    (hβl : List.Forall₂ (fun c b : List K => c.length = b.length) st.cps βs)
    {pred : PyDict (Tensor K)} {r : Tensor K}
    (hp : piecewisePredict p.squeeze st.time.nSeries θ m pred = .ok r)
    {i j j' : Nat} (hin : i < ss.length) {ρ : K} (hρ : p.range.at i = some ρ)
    (hρl : ρ ≤ (ds.length : K) - 1 ∨ ρ < 1) {bs : List K} (hbs : βs[i]? = some bs) {t t' : τ}
    (hj : fh[j]? = some t) (hj' : fh[j']? = some t') (hend : ds.getLastD 0 ≤ days t)
    (hend' : ds.getLastD 0 ≤ days t') :
    ∃ v v', r.get? [i, j, 0] = some v ∧ r.get? [i, j', 0] = some v' ∧
      v' - v = bs.sum * ((days t' - days t) * ((ds.length : K) - 1)
        / (ds.getLastD 0 - ds.headD 0)) := by
  have hn : CountOfSeries y ss.length := .inr ⟨hlv, by rw [hss]⟩
  obtain ⟨hl, hc⟩ := C34_fitted h hn hd hi hr hpos
  obtain ⟨v, ρ', limit, cs, -, e2, e3, e4, e5⟩ := hc i hin
  rw [hρ] at e2
  cases e2
  obtain ⟨r', g1, -, g3⟩ := C38_fitted h hlv hss hd hsq hi hr hpos hfh hm ho hol hβ hβl pred
  rw [hp] at g1
  cases g1
  have hoi := List.getElem?_eq_getElem (l := offs) (i := i) (by omega)
  refine ⟨_, _, (g3 i j cs bs _ t e4 hbs hoi hj).1, (g3 i j' cs bs _ t' e4 hbs hoi hj').1, ?_⟩
  have hlen : (1 : K) ≤ (ds.length : K) - 1 := by
    have : ((2 : Nat) : K) ≤ (ds.length : K) := by exact_mod_cast hd.two
    push_cast at this
    linarith
  have hlim : limit ≤ (ds.length : K) - 1 := by
    by_cases h1 : 1 ≤ ρ
    · rw [e3.count h1]
      rcases hρl with h2 | h2
      · exact h2
      · exact absurd h1 (not_le.2 h2)
    · have h1' := not_le.1 h1
      by_cases h0 : 0 < ρ
      · rw [e3.fraction h0 h1']
        nlinarith
      · rw [e3.negative (not_lt.1 h0)]
        have := not_lt.1 h0
        linarith
  have hpast : ∀ s, ds.getLastD 0 ≤ days s → ∀ c ∈ cs, c ≤ trendTimeOf ds (days s) := by
    intro s hs c hc'
    obtain ⟨k, -, hk⟩ := (e5.mem c).1 hc'
    refine (hk.le.trans hlim).trans ?_
    obtain ⟨h1, h2, h3⟩ := hd
    match ds, h2, h3 with
    | d :: e :: l, _, h3 =>
      have hlt : d < (e :: l).getLastD d := (List.pairwise_cons.1 h3).1 _ (getLastD_mem (by simp))
      have hg : (d :: e :: l).getLastD 0 = (e :: l).getLastD d := by simp only [List.getLastD_cons]
      have hh : (d :: e :: l).headD 0 = d := rfl
      rw [hg] at hs
      unfold trendTimeOf
      rw [hg, hh, le_div_iff₀ (sub_pos.2 hlt), mul_comm]
      exact mul_le_mul_of_nonneg_right (by linarith) (le_trans zero_le_one hlen)
  have hlb : cs.length = bs.length := by
    have h1 := List.forall₂_iff_get.1 hβl
    obtain ⟨i1, rfl⟩ := List.getElem?_eq_some_iff.1 e4
    obtain ⟨i2, rfl⟩ := List.getElem?_eq_some_iff.1 hbs
    exact h1.2 i i1 i2
  rw [trendAt_diff (fun c hc' => iff_of_true (hpast t hend c hc') (hpast t' hend' c hc')),
    C37_last_slope hlb (hpast t hend), trendTimeOf_sub]

/-! ## Non-vacuity -/

/-- Two series over four days. -/
def exY38 : Frame String ℤ ℚ := ⟨2, ["y"], [⟨["a"], 5, fun _ => 1⟩, ⟨["a"], 6, fun _ => 7⟩,
  ⟨["a"], 7, fun _ => 1⟩, ⟨["a"], 8, fun _ => 7⟩,
  ⟨["b"], 5, fun _ => 3⟩, ⟨["b"], 6, fun _ => 4⟩, ⟨["b"], 7, fun _ => 3⟩, ⟨["b"], 8, fun _ => 4⟩]⟩

/-- Changepoints every day in the first 9/10 and every other day before the last one. -/
def exParams38 : PiecewiseParams ℚ ℤ := ⟨.list [1, 2], .list [9/10, -1], .scalar 3, true, none⟩

example : (piecewiseFit daysOfInt suggestLinear exParams38 exY38).map (fun s => s.cps)
    = .ok [[0, 1, 2], [0]] := by decide +kernel
example : CountOfSeries exY38 2 := .inr ⟨by decide, by decide⟩
example : HistoryDays (daysOfInt : ℤ → ℚ) exY38 [5, 6, 7, 8] := ⟨by decide +kernel, by decide, by decide⟩
example : exParams38.interval.Fits 2 ∧ exParams38.range.Fits 2 := ⟨rfl, rfl⟩
example : unique (exY38.rows.map Row.sid) = [["a"], ["b"]] := by decide
/-- The prediction for the last day of the history and three days later. -/
example : ((piecewiseFit daysOfInt suggestLinear exParams38 exY38).bind fun st =>
    (piecewiseTransform daysOfInt true st [8, 11]).bind fun m => piecewisePredict true st.time.nSeries
      (fun s => if s = "offset" then ⟨[2], [10, 20]⟩ else ⟨[4], [1, 2, 5, 7]⟩) m []).map Tensor.data
    = .ok [30, 54, 48, (69 : ℚ)] := by decide +kernel
example : (54 : ℚ) - 30 = ([1, 2, 5] : List ℚ).sum * ((11 - 8) * (4 - 1) / (8 - 5)) := by norm_num
/-- A range that leaves nothing of the history. -/
example : piecewiseFit daysOfInt suggestLinear { exParams38 with range := .list [9/10, -3] } exY38
    |>.toOption |>.isNone := by decide +kernel

end
end PV
