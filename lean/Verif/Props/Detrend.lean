import Mathlib.Algebra.BigOperators.Group.List.Lemmas
import Mathlib.Algebra.Order.BigOperators.Group.List
import Mathlib.Tactic.FieldSimp
import Verif.Model.Detrend
import Verif.Props.TrendPriors
import Verif.Lemmas.Panel

/-!
# C89: initial values with seasonality removed
-/

namespace PV
open Tensor
variable {K τ ι : Type} [Field K] [LinearOrder K] [IsStrictOrderedRing K]

/-- The line `a + b x` is at least as close to the points as any other. -/
def IsLeastSquares (l : List (K × K)) (a b : K) : Prop :=
  ∀ a' b' : K, (l.map fun p => (p.2 - (a + b * p.1)) ^ 2).sum
    ≤ (l.map fun p => (p.2 - (a' + b' * p.1)) ^ 2).sum

section lists
variable {α : Type}

omit [LinearOrder K] [IsStrictOrderedRing K] in
theorem sum_const_mul (l : List α) (c : K) (f : α → K) :
    (l.map fun p => c * f p).sum = c * (l.map f).sum := by
  induction l with
  | nil => simp
  | cons a l ih => simp only [List.map_cons, List.sum_cons, ih]; ring

omit [LinearOrder K] [IsStrictOrderedRing K] in
theorem sum_sub_map (l : List α) (f g : α → K) :
    (l.map fun p => f p - g p).sum = (l.map f).sum - (l.map g).sum := by
  induction l with
  | nil => simp
  | cons a l ih => simp only [List.map_cons, List.sum_cons, ih]; ring

omit [LinearOrder K] [IsStrictOrderedRing K] in
theorem sum_add_map' (l : List α) (f g : α → K) :
    (l.map fun p => f p + g p).sum = (l.map f).sum + (l.map g).sum := List.sum_map_add

omit [LinearOrder K] [IsStrictOrderedRing K] in
theorem sum_const_map (l : List α) (c : K) : (l.map fun _ => c).sum = (l.length : K) * c := by
  simp

theorem sum_sq_nonneg (l : List α) (f : α → K) : 0 ≤ (l.map fun p => f p ^ 2).sum :=
  List.sum_nonneg fun x hx => by
    obtain ⟨p, -, rfl⟩ := List.mem_map.1 hx
    positivity

theorem sum_sq_eq_zero (l : List α) (f : α → K) (h : (l.map fun p => f p ^ 2).sum = 0) :
    ∀ p ∈ l, f p = 0 := by
  induction l with
  | nil => simp
  | cons a l ih =>
    simp only [List.map_cons, List.sum_cons] at h
    have h1 := sum_sq_nonneg l f
    have h2 : 0 ≤ f a ^ 2 := by positivity
    intro p hp
    rcases List.mem_cons.1 hp with rfl | hp
    · exact pow_eq_zero_iff (two_ne_zero) |>.1 (by linarith)
    · exact ih (by linarith) p hp

end lists

/-- `lineAt` is a line, and the residuals are orthogonal to the constants and to the positions. -/
theorem lineAt_normal {l : List (K × K)} (hl : l ≠ []) :
    ∃ a b : K, (∀ x, lineAt l x = a + b * x) ∧ (l.map fun p => p.2 - (a + b * p.1)).sum = 0 ∧
      (l.map fun p => (p.2 - (a + b * p.1)) * p.1).sum = 0 := by
  set n : K := (l.length : K) with hn
  have hn0 : n ≠ 0 := by
    rw [hn, Nat.cast_ne_zero, Ne, List.length_eq_zero_iff]
    exact hl
  set mx := (l.map Prod.fst).sum / n with hmx
  set my := (l.map Prod.snd).sum / n with hmy
  set sxy := (l.map fun p => (p.1 - mx) * (p.2 - my)).sum with hsxy
  set sxx := (l.map fun p => (p.1 - mx) ^ 2).sum with hsxx
  set b := sxy / sxx with hb
  have e1 : (l.map fun p => p.1 - mx).sum = 0 := by
    have : n * mx = (l.map Prod.fst).sum := by rw [hmx]; field_simp
    rw [sum_sub_map, sum_const_map, ← hn, this]
    exact sub_self (l.map Prod.fst).sum
  have e2 : (l.map fun p => p.2 - my).sum = 0 := by
    have : n * my = (l.map Prod.snd).sum := by rw [hmy]; field_simp
    rw [sum_sub_map, sum_const_map, ← hn, this]
    exact sub_self (l.map Prod.snd).sum
  have e3 : b * sxx = sxy := by
    by_cases h0 : sxx = 0
    · rw [h0, mul_zero, hsxy]
      refine (List.sum_eq_zero ?_).symm
      intro v hv
      obtain ⟨p, hp, rfl⟩ := List.mem_map.1 hv
      rw [sum_sq_eq_zero l (fun p => p.1 - mx) h0 p hp, zero_mul]
    · rw [hb]
      field_simp
  have hres : ∀ p : K × K, p.2 - (my - b * mx + b * p.1) = (p.2 - my) - b * (p.1 - mx) := by
    intro p
    ring
  refine ⟨my - b * mx, b, fun x => ?_, ?_, ?_⟩
  · show my + b * (x - mx) = _
    ring
  · simp only [hres]
    rw [sum_sub_map, sum_const_mul, e1, e2]
    ring
  · have : (fun p : K × K => (p.2 - (my - b * mx + b * p.1)) * p.1)
        = fun p => ((p.1 - mx) * (p.2 - my) - b * (p.1 - mx) ^ 2)
          + mx * ((p.2 - my) - b * (p.1 - mx)) := by
      funext p
      ring
    rw [this, sum_add_map', sum_sub_map, sum_const_mul, sum_const_mul, sum_sub_map, sum_const_mul,
      e1, e2, ← hsxy, ← hsxx, e3]
    ring

/-- The normal equations characterise least squares. -/
theorem isLeastSquares_of_normal {l : List (K × K)} {a b : K}
    (h1 : (l.map fun p => p.2 - (a + b * p.1)).sum = 0)
    (h2 : (l.map fun p => (p.2 - (a + b * p.1)) * p.1).sum = 0) : IsLeastSquares l a b := by
  intro a' b'
  have : (fun p : K × K => (p.2 - (a' + b' * p.1)) ^ 2)
      = fun p => ((p.2 - (a + b * p.1)) ^ 2 + ((a - a') + (b - b') * p.1) ^ 2)
        + (2 * (a - a') * (p.2 - (a + b * p.1))
          + 2 * (b - b') * ((p.2 - (a + b * p.1)) * p.1)) := by
    funext p
    ring
  rw [this, sum_add_map', sum_add_map', sum_add_map', sum_const_mul, sum_const_mul, h1, h2]
  have := sum_sq_nonneg l fun p => (a - a') + (b - b') * p.1
  linarith

omit [LinearOrder K] [IsStrictOrderedRing K] in
/-- The fitted line is linear in the values. -/
theorem lineAt_sub {α : Type} (l : List α) (f u v : α → K) (x : K) :
    lineAt (l.map fun r => (f r, u r)) x - lineAt (l.map fun r => (f r, v r)) x
      = lineAt (l.map fun r => (f r, u r - v r)) x := by
  unfold lineAt
  simp only [List.map_map, List.length_map, Function.comp_def]
  generalize (l.map fun r => f r).sum / (l.length : K) = mx
  have hmy : (l.map fun r => u r - v r).sum / (l.length : K)
      = (l.map fun r => u r).sum / (l.length : K) - (l.map fun r => v r).sum / (l.length : K) := by
    rw [sum_sub_map, sub_div]
  rw [hmy]
  generalize (l.map fun r => u r).sum / (l.length : K) = mu
  generalize (l.map fun r => v r).sum / (l.length : K) = mv
  have : (fun r => (f r - mx) * (u r - v r - (mu - mv)))
      = fun r => (f r - mx) * (u r - mu) - (f r - mx) * (v r - mv) := by
    funext r
    ring
  rw [this, sum_sub_map, sub_div]
  ring

omit [LinearOrder K] [IsStrictOrderedRing K] in
/-- Values orthogonal to the constants and the positions have the line 0. -/
theorem lineAt_zero {l : List (K × K)} (h1 : (l.map Prod.snd).sum = 0)
    (h2 : (l.map fun p => p.1 * p.2).sum = 0) (x : K) : lineAt l x = 0 := by
  unfold lineAt
  simp only [h1, zero_div, sub_zero, zero_add]
  have : (fun p : K × K => (p.1 - (l.map Prod.fst).sum / (l.length : K)) * p.2)
      = fun p => p.1 * p.2 - (l.map Prod.fst).sum / (l.length : K) * p.2 := by
    funext p
    ring
  rw [this, sum_sub_map, sum_const_mul, h1, h2]
  ring

/-! ## The fitted trend -/

omit [LinearOrder K] [IsStrictOrderedRing K] in
theorem fittedLines_index (pos : τ → K) (y : Frame ι τ K) :
    (fittedLines pos y).index = y.index := by
  simp [fittedLines, Frame.index, Function.comp_def]

section
variable {V : Type}

theorem series_flat {f : Frame ι τ V} (hw : f.WF) (hn : f.nlevels = 1) (hr : f.rows ≠ []) :
    f.series = [[]] ∧ f.rowsOf [] = f.rows := by
  have hs : ∀ r ∈ f.rows, r.sid = [] := fun r h => by
    have := hw r h
    rw [hn] at this
    exact List.length_eq_zero_iff.1 (by omega)
  refine ⟨?_, List.filter_eq_self.2 fun r h => by simp [hs r h]⟩
  have hm : f.rows.map Row.sid = List.replicate f.rows.length [] :=
    List.eq_replicate_iff.2 ⟨by simp, fun s h => by
      obtain ⟨r, hr, rfl⟩ := List.mem_map.1 h
      exact hs r hr⟩
  have hall : ∀ s ∈ f.series, s = [] := fun s h => by
    have h := mem_unique.1 h
    rw [hm] at h
    exact (List.mem_replicate.1 h).2
  have hnd : f.series.Nodup := nodup_unique _
  cases hse : f.series with
  | nil => exact absurd hse (series_ne_nil hr)
  | cons s ss =>
    rw [hse] at hall hnd
    have h0 := hall s (by simp)
    subst h0
    cases ss with
    | nil => rfl
    | cons s' ss' =>
      have := hall s' (by simp)
      subst this
      simp at hnd

/-- `series_to_tensor` of a frame whose labels match its levels: one slice per series. -/
theorem seriesToTensor_ok {f : Frame ι τ V} {a : Tensor V} (hw : f.WF) (hr : f.rows ≠ [])
    (h : f.seriesToTensor = .ok a) :
    ∃ T, (∀ s ∈ f.series, (f.rowsOf s).length = T) ∧
      a = ⟨[f.series.length, T, f.cols.length],
        f.series.flatMap fun s => f.flatVals (f.rowsOf s)⟩ := by
  have hc : f.cols ≠ [] := by
    intro hc
    unfold Frame.seriesToTensor at h
    rw [if_pos hc] at h
    cases h
  by_cases hn : f.nlevels = 1
  · obtain ⟨h1, h2⟩ := series_flat hw hn hr
    unfold Frame.seriesToTensor at h
    rw [if_neg hc, if_pos hn] at h
    cases h
    refine ⟨f.rows.length, ?_, ?_⟩
    · rw [h1]
      intro s hs
      rw [List.mem_singleton.1 hs, h2]
    · rw [h1]
      simp [h2]
  · rcases seriesToTensor_panel hn hr hc with ⟨T, hT, h'⟩ | ⟨-, h'⟩
    · rw [h] at h'
      exact ⟨T, hT, Except.ok.inj h'⟩
    · rw [h] at h'
      cases h'

end

/-- The prior location of the offset of a series is the first value of that series in the target
from which the initial values are suggested. -/
theorem offset_is_first [DecidableEq τ] [FloorSemiring K] {days : τ → K}
    {p : PiecewiseParams K τ} {y y' : Frame String τ K} {s : PiecewiseState K τ} {c : String}
    (h : piecewiseFit days suggestLinear p y = .ok s) (hd : detrended p y = .ok y')
    (hix : y'.index = y.index) (hlv : y'.nlevels = y.nlevels) (hc : y'.cols = [c]) (hw : y.WF)
    (hinc : ((unique y.times).map days).Pairwise (· < ·)) :
    s.offsetLoc.length = y.series.length ∧
    ∀ (i : Nat) (sid : List String) (r : Row String τ K), y.series[i]? = some sid →
      (y'.rowsOf sid).head? = some r → s.offsetLoc[i]? = some (r.val c) := by
  obtain ⟨tt, cps, y'', ya, q, h1, -, h3, h4, h5, rfl⟩ := piecewiseFit_inv h
  rw [hd] at h3
  cases h3
  have htimes : y'.times = y.times := by
    have := congrArg (List.map Prod.snd) hix
    simpa [Frame.index, Frame.times, Function.comp_def] using this
  have hseries : y'.series = y.series := by
    have := congrArg (List.map Prod.fst) hix
    unfold Frame.series
    congr 1
    simpa [Frame.index, Function.comp_def] using this
  have hw' : y'.WF := fun r hr => by
    have : (r.sid, r.time) ∈ y.index := hix ▸ List.mem_map.2 ⟨r, hr, rfl⟩
    obtain ⟨r0, hr0, he⟩ := List.mem_map.1 this
    simp only [Prod.mk.injEq] at he
    rw [← he.1, hlv]
    exact hw r0 hr0
  have hne : y'.rows ≠ [] := by
    intro h0
    have : y.times = [] := by rw [← htimes, Frame.times, h0]; rfl
    unfold trendTimeFit at h1
    rw [this] at h1
    cases h1
  obtain ⟨T, hT, rfl⟩ := seriesToTensor_ok hw' hne h4
  -- the first trend time is 0
  obtain ⟨d, ds, hds⟩ : ∃ d ds, (unique y.times).map days = d :: ds := by
    cases hu : (unique y.times).map days with
    | nil => unfold trendTimeFit at h1; rw [hu] at h1; cases h1
    | cons d ds => exact ⟨d, ds, rfl⟩
  have hds0 : ds ≠ [] := by
    rintro rfl
    unfold trendTimeFit at h1
    rw [hds] at h1
    simp at h1
  obtain ⟨tt', htt', hgood⟩ := goodTrendTime hds hds0 (hds ▸ hinc)
  rw [h1] at htt'
  cases htt'
  rw [htimes] at h5
  have hhead : ((unique y.times).map (tt.scaled days)).head? = some 0 := by
    cases hu : unique y.times with
    | nil => rw [hu] at hds; cases hds
    | cons t ts =>
      have := hgood.first t (by rw [hu]; rfl)
      simp [this]
  unfold suggestLinear at h5
  rw [hhead] at h5
  split at h5
  · split at h5
    · cases h5
    · rename_i t0 t1 e0 e1 _
      cases e0
      cases h5
      rw [hseries] at hT ⊢
      simp only [mul_zero, sub_zero]
      refine ⟨by simp [column], fun i sid r hi hr => ?_⟩
      have hil := (List.getElem?_eq_some_iff.1 hi).1
      have hget := panel_get? (f := y') (T := T) (by rw [hseries]; exact hT) (i := i) (j := 0) (c := 0)
        (s := sid) (row := r) (col := c) (by rw [hseries]; exact hi)
        (by rw [← List.head?_eq_getElem?]; exact hr) (by rw [hc]; rfl)
      rw [hseries] at hget
      rw [List.getElem?_zipWith, List.getElem?_zipWith]
      simp [column, List.getElem?_range hil, hget]
  · cases h5

/-- **C89**: with removal of seasonality (the default) the prior location of the offset of every
series is the value of a least squares line through the training data of that series, at its first
training date. -/
theorem C89_least_squares [DecidableEq τ] [FloorSemiring K] {days pos : τ → K}
    {p : PiecewiseParams K τ} {y : Frame String τ K} {s : PiecewiseState K τ} {c : String}
    (hd : p.detrend = some fun y => .ok (fittedLines pos y))
    (h : piecewiseFit days suggestLinear p y = .ok s) (hc : y.cols = [c]) (hw : y.WF)
    (hinc : ((unique y.times).map days).Pairwise (· < ·)) :
    s.offsetLoc.length = y.series.length ∧
    ∀ (i : Nat) (sid : List String) (r : Row String τ K), y.series[i]? = some sid →
      (y.rowsOf sid).head? = some r →
      ∃ a b, IsLeastSquares ((y.rowsOf sid).map fun r => (pos r.time, r.val c)) a b ∧
        s.offsetLoc[i]? = some (a + b * pos r.time) := by
  obtain ⟨h1, h2⟩ := offset_is_first (y' := fittedLines pos y) h
    (by unfold detrended; rw [hd]) (fittedLines_index pos y) rfl hc hw hinc
  refine ⟨h1, fun i sid r hi hr => ?_⟩
  have hne : (y.rowsOf sid).map (fun r => (pos r.time, r.val c)) ≠ [] := by
    intro h0
    rw [List.map_eq_nil_iff.1 h0] at hr
    cases hr
  obtain ⟨a, b, hab, n1, n2⟩ := lineAt_normal hne
  refine ⟨a, b, isLeastSquares_of_normal n1 n2, ?_⟩
  have hrs : r.sid = sid := by
    have := List.mem_of_mem_head? hr
    simpa using (List.mem_filter.1 this).2
  have hro : (fittedLines pos y).rowsOf sid = (y.rowsOf sid).map fun r => ⟨r.sid, r.time, fun c =>
      r.val c - (r.val c - lineAt (pointsOf pos y r.sid c) (pos r.time))⟩ := by
    unfold Frame.rowsOf fittedLines
    simp only
    rw [List.filter_map]
    rfl
  have := h2 i sid _ hi (by rw [hro, List.head?_map, hr]; rfl)
  rw [this]
  simp only [sub_sub_cancel, hrs]
  congr 1
  exact hab _

/-- **C89**: a series that lies on a straight line has its first observation as prior location. -/
theorem C89_on_a_line [DecidableEq τ] [FloorSemiring K] {days pos : τ → K}
    {p : PiecewiseParams K τ} {y : Frame String τ K} {s : PiecewiseState K τ} {c : String}
    (hd : p.detrend = some fun y => .ok (fittedLines pos y))
    (h : piecewiseFit days suggestLinear p y = .ok s) (hc : y.cols = [c]) (hw : y.WF)
    (hinc : ((unique y.times).map days).Pairwise (· < ·)) {i : Nat} {sid : List String}
    {r : Row String τ K} (hi : y.series[i]? = some sid) (hr : (y.rowsOf sid).head? = some r)
    {a b : K} (hab : ∀ q ∈ y.rowsOf sid, q.val c = a + b * pos q.time) :
    s.offsetLoc[i]? = some (r.val c) := by
  obtain ⟨-, h2⟩ := C89_least_squares hd h hc hw hinc
  obtain ⟨a', b', hls, he⟩ := h2 i sid r hi hr
  rw [he]
  have hz := hls a b
  rw [List.map_map, List.map_map] at hz
  have h0 : ((y.rowsOf sid).map fun q => (q.val c - (a + b * pos q.time)) ^ 2).sum = 0 := by
    refine List.sum_eq_zero fun v hv => ?_
    obtain ⟨q, hq, rfl⟩ := List.mem_map.1 hv
    rw [hab q hq, sub_self]
    ring
  have h1 : ((y.rowsOf sid).map fun q => (q.val c - (a' + b' * pos q.time)) ^ 2).sum = 0 :=
    le_antisymm (hz.trans h0.le) (sum_sq_nonneg _ _)
  have := sum_sq_eq_zero _ _ h1 r (List.mem_of_mem_head? hr)
  rw [sub_eq_zero.1 this]

/-- **C89**: without removal of seasonality it is the first observation of every series. -/
theorem C89_not_removed [DecidableEq τ] [FloorSemiring K] {days : τ → K}
    {p : PiecewiseParams K τ} {y : Frame String τ K} {s : PiecewiseState K τ} {c : String}
    (hd : p.detrend = none) (h : piecewiseFit days suggestLinear p y = .ok s) (hc : y.cols = [c])
    (hw : y.WF) (hinc : ((unique y.times).map days).Pairwise (· < ·)) :
    s.offsetLoc.length = y.series.length ∧
    ∀ (i : Nat) (sid : List String) (r : Row String τ K), y.series[i]? = some sid →
      (y.rowsOf sid).head? = some r → s.offsetLoc[i]? = some (r.val c) :=
  offset_is_first h (by unfold detrended; rw [hd]) rfl rfl hc hw hinc

omit [IsStrictOrderedRing K] in
/-- **C89**: a pattern that has zero sum over the training dates of every series and is uncorrelated
with the date there, added to the target, has no influence whatsoever on the fitted trend (for any
way of suggesting initial values, so also for the logistic trend). -/
theorem C89_pattern_ignored [DecidableEq τ] [FloorSemiring K] {days pos : τ → K}
    {suggest : List K → Tensor K → PyM (List K × List K)} {p : PiecewiseParams K τ}
    (hd : p.detrend = some fun y => .ok (fittedLines pos y))
    (y : Frame String τ K) (e : List String → τ → String → K)
    (h0 : ∀ s ∈ y.series, ∀ c, ((y.rowsOf s).map fun r => e s r.time c).sum = 0)
    (h1 : ∀ s ∈ y.series, ∀ c, ((y.rowsOf s).map fun r => pos r.time * e s r.time c).sum = 0) :
    piecewiseFit days suggest p
        { y with rows := y.rows.map fun r => ⟨r.sid, r.time, fun c => r.val c + e r.sid r.time c⟩ }
      = piecewiseFit days suggest p y := by
  set z : Frame String τ K :=
    { y with rows := y.rows.map fun r => ⟨r.sid, r.time, fun c => r.val c + e r.sid r.time c⟩ }
    with hz
  have ht : z.times = y.times := by simp [hz, Frame.times, Function.comp_def]
  have hs : z.series = y.series := by simp [hz, Frame.series, Function.comp_def]
  have hn : z.nlevels = y.nlevels := rfl
  have hro : ∀ s, z.rowsOf s
      = (y.rowsOf s).map fun r => ⟨r.sid, r.time, fun c => r.val c + e r.sid r.time c⟩ := by
    intro s
    unfold Frame.rowsOf
    rw [hz, List.filter_map]
    rfl
  have hline : ∀ s ∈ y.series, ∀ c x, lineAt (pointsOf pos z s c) x = lineAt (pointsOf pos y s c) x := by
    intro s hsm c x
    rw [← sub_eq_zero]
    unfold pointsOf
    rw [hro, List.map_map]
    have := lineAt_sub (y.rowsOf s) (fun r => pos r.time) (fun r => r.val c + e r.sid r.time c)
      (fun r => r.val c) x
    simp only [add_sub_cancel_left] at this
    simp only [Function.comp_def]
    rw [this]
    have hsid : ∀ r ∈ y.rowsOf s, r.sid = s := fun r hr => by
      simpa using (List.mem_filter.1 hr).2
    refine lineAt_zero ?_ ?_ x
    · rw [List.map_map, ← h0 s hsm c]
      exact congrArg List.sum (List.map_congr_left fun r hr => by simp [hsid r hr])
    · rw [List.map_map, ← h1 s hsm c]
      exact congrArg List.sum (List.map_congr_left fun r hr => by simp [hsid r hr])
  have hlines : fittedLines pos z = fittedLines pos y := by
    unfold fittedLines
    have hrows : z.rows
        = y.rows.map fun r => ⟨r.sid, r.time, fun c => r.val c + e r.sid r.time c⟩ := rfl
    rw [hrows, List.map_map]
    congr 1
    refine List.map_congr_left fun r hr => ?_
    simp only [Function.comp_def, sub_sub_cancel, Row.mk.injEq, true_and]
    funext c
    exact hline r.sid (mem_unique.2 (List.mem_map.2 ⟨r, hr, rfl⟩)) c _
  have htt : trendTimeFit days z = trendTimeFit days y := by
    unfold trendTimeFit nSeriesOf
    rw [ht, hs, hn]
  unfold piecewiseFit
  simp only [detrended, hd, htt, ht, hs, hn, hlines]

/-! ## Examples -/

/-- Four days of a line plus a weekly looking pattern `1, -1, -1, 1`. -/
def exSeasonal : Frame String ℤ ℚ := ⟨1, ["y"], [⟨[], 5, fun _ => 3⟩, ⟨[], 6, fun _ => 3⟩,
  ⟨[], 7, fun _ => 5⟩, ⟨[], 8, fun _ => 9⟩]⟩

def exDetrendParams : PiecewiseParams ℚ ℤ :=
  { interval := .scalar 1, range := .scalar 1, priorScale := .scalar 1, squeeze := true
    detrend := some fun y => .ok (fittedLines (fun t => (t : ℚ)) y) }

/-- The line without the pattern starts at 2, and so does the trend; without removal at 3. -/
example : ((piecewiseFit (fun t : ℤ => (t : ℚ)) suggestLinear exDetrendParams exSeasonal).toOption.map
      fun s => s.offsetLoc) = some [2] ∧
    ((piecewiseFit (fun t : ℤ => (t : ℚ)) suggestLinear { exDetrendParams with detrend := none }
      exSeasonal).toOption.map fun s => s.offsetLoc) = some [3] := by
  decide +kernel

/-- The hypotheses of `C89_pattern_ignored` for that pattern. -/
example : let e : ℤ → ℚ := fun t => if t = 5 ∨ t = 8 then 1 else -1
    ∀ s ∈ exSeasonal.series, ((exSeasonal.rowsOf s).map fun r => e r.time).sum = 0 ∧
      ((exSeasonal.rowsOf s).map fun r => (r.time : ℚ) * e r.time).sum = 0 := by
  decide +kernel

example : exSeasonal.WF ∧
    ((unique exSeasonal.times).map fun t => (t : ℚ)).Pairwise (· < ·) := by
  refine ⟨?_, by decide +kernel⟩
  unfold Frame.WF
  decide

end PV
