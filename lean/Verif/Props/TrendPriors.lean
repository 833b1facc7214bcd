import Verif.Props.Changepoints
import Verif.Props.TrendTime

/-!
# C42, C43: priors of the piecewise linear trend
-/

namespace PV
open Tensor
variable {K τ : Type} [Field K] [LinearOrder K] [IsStrictOrderedRing K]

/-! ## C42 -/

omit [IsStrictOrderedRing K] in
theorem suggestLinear_get {t : List K} {y : Tensor K} {rates offs : List K} {N T i : Nat}
    {t0 t1 a b k m : K} (h : suggestLinear t y = .ok (rates, offs)) (hs : y.shape = [N, T, 1])
    (h0 : t.head? = some t0) (h1 : t.getLast? = some t1) (hi : i < N)
    (ha : y.get? [i, 0, 0] = some a) (hb : y.get? [i, T - 1, 0] = some b)
    (hk : rates[i]? = some k) (hm : offs[i]? = some m) :
    t0 ≠ t1 ∧ k = (b - a) / (t0 - t1) ∧ m = a - k * t0 := by
  unfold suggestLinear at h
  rw [h0, h1] at h
  simp only at h
  split at h
  · cases h
  rename_i h01
  simp only [Except.ok.injEq, Prod.mk.injEq] at h
  obtain ⟨hr, ho⟩ := h
  have ca : (column y 0)[i]? = some a := by simp [column, hs, List.getElem?_range hi, ha]
  have cb : (column y (y.shape.getD 1 0 - 1))[i]? = some b := by
    simp [column, hs, List.getElem?_range hi, hb]
  have ek : k = (b - a) / (t0 - t1) := by
    rw [← hr, List.getElem?_zipWith, ca, cb] at hk
    exact (Option.some.inj hk).symm
  refine ⟨h01, ek, ?_⟩
  rw [← ho, hr, List.getElem?_zipWith, ca, hk] at hm
  exact (Option.some.inj hm).symm

/-- **C42**, the part that holds: the line with the suggested rate and offset has the first
observation of every series; and the line with the *negative* of the suggested rate and the offset
corrected to the first time has both.
Missing from C42: the last observation (`C42_last`, `C42_last_refuted`) and the prior location
(`C42_prior_location`, `C42_prior_refuted`). -/
theorem C42_first_partial {t : List K} {y : Tensor K} {rates offs : List K} {N T i : Nat}
    {t0 t1 a b k m : K} (h : suggestLinear t y = .ok (rates, offs)) (hs : y.shape = [N, T, 1])
    (h0 : t.head? = some t0) (h1 : t.getLast? = some t1) (hi : i < N)
    (ha : y.get? [i, 0, 0] = some a) (hb : y.get? [i, T - 1, 0] = some b)
    (hk : rates[i]? = some k) (hm : offs[i]? = some m) :
    k * t0 + m = a ∧ (-k) * (t0 - t0) + a = a ∧ (-k) * (t1 - t0) + a = b := by
  obtain ⟨h01, hk', hm'⟩ := suggestLinear_get h hs h0 h1 hi ha hb hk hm
  have hne : t0 - t1 ≠ 0 := sub_ne_zero.2 h01
  refine ⟨by rw [hm']; ring, by ring, ?_⟩
  rw [hk']
  field_simp
  ring

/-- **C42**: at the last time the suggested line has the value `2 * first - last`: the rate has the
wrong sign.  It is the last observation only if that is the first one. -/
theorem C42_last {t : List K} {y : Tensor K} {rates offs : List K} {N T i : Nat}
    {t0 t1 a b k m : K} (h : suggestLinear t y = .ok (rates, offs)) (hs : y.shape = [N, T, 1])
    (h0 : t.head? = some t0) (h1 : t.getLast? = some t1) (hi : i < N)
    (ha : y.get? [i, 0, 0] = some a) (hb : y.get? [i, T - 1, 0] = some b)
    (hk : rates[i]? = some k) (hm : offs[i]? = some m) :
    k * t1 + m = 2 * a - b ∧ (k * t1 + m = b ↔ a = b) := by
  obtain ⟨h01, hk', hm'⟩ := suggestLinear_get h hs h0 h1 hi ha hb hk hm
  have hne : t0 - t1 ≠ 0 := sub_ne_zero.2 h01
  have e : k * t1 + m = 2 * a - b := by
    rw [hm', hk']
    field_simp
    ring
  refine ⟨e, ?_⟩
  rw [e]
  constructor
  · intro h; linarith
  · intro h; linarith

/-- **C42** is false: for a series going from 1 at time 0 to 3 at time 1 the suggested line goes from 1
to -1. -/
theorem C42_last_refuted :
    suggestLinear [0, 1] (⟨[1, 2, 1], [1, 3]⟩ : Tensor ℚ) = .ok ([-2], [1]) ∧
      (-2 : ℚ) * 0 + 1 = 1 ∧ (-2 : ℚ) * 1 + 1 ≠ 3 := by
  refine ⟨by decide +kernel, by norm_num, by norm_num⟩

/-- **C42**: the prior location of every changepoint coefficient is 0, whatever rate is suggested. -/
theorem C42_prior_location (cps : List (List K)) (rates : List K) (ps : ScalarOr K) :
    ∀ v ∈ (priorVectors cps rates ps).1, v = 0 := by
  intro v hv
  simp only [priorVectors, List.mem_flatMap] at hv
  obtain ⟨p, -, hv⟩ := hv
  exact (List.mem_replicate.1 hv).2

/-- **C42** is false for the prior location: suggested rates 7 and 9, but locations 0. -/
theorem C42_prior_refuted :
    (priorVectors [[0, 1], [0]] [7, 9] (.scalar (1 : ℚ))).1 = [0, 0, 0] := by decide +kernel

theorem piecewiseFit_inv [DecidableEq τ] [FloorSemiring K] {days : τ → K}
    {suggest : List K → Tensor K → PyM (List K × List K)} {p : PiecewiseParams K τ}
    {y : Frame String τ K} {s : PiecewiseState K τ} (h : piecewiseFit days suggest p y = .ok s) :
    ∃ tt cps y' ya r, trendTimeFit days y = .ok tt ∧
      setupChangepoints ((unique y.times).map (tt.scaled days)) tt.nSeries p.interval p.range = .ok cps ∧
      detrended p y = .ok y' ∧ y'.seriesToTensor = .ok ya ∧
      suggest ((unique y'.times).map (tt.scaled days)) ya = .ok r ∧
      s = ⟨tt, cps, r.1, r.2, (priorVectors cps r.1 p.priorScale).1,
        (priorVectors cps r.1 p.priorScale).2, if y.nlevels > 1 then some y.series else none⟩ := by
  unfold piecewiseFit at h
  cases h1 : trendTimeFit days y with
  | error e => rw [h1] at h; cases h
  | ok tt =>
    rw [h1] at h
    simp only [bind, Except.bind] at h
    cases h2 : setupChangepoints ((unique y.times).map (tt.scaled days)) tt.nSeries p.interval
        p.range with
    | error e => rw [h2] at h; cases h
    | ok cps =>
      rw [h2] at h
      simp only at h
      cases h3 : detrended p y with
      | error e => rw [h3] at h; cases h
      | ok y' =>
        rw [h3] at h
        simp only at h
        cases h4 : y'.seriesToTensor with
        | error e => rw [h4] at h; cases h
        | ok ya =>
          rw [h4] at h
          simp only at h
          cases h5 : suggest ((unique y'.times).map (tt.scaled days)) ya with
          | error e => rw [h5] at h; cases h
          | ok r =>
            rw [h5] at h
            simp only [pure, Except.pure, Except.ok.injEq] at h
            exact ⟨tt, cps, y', ya, r, rfl, h2, rfl, h4, h5, h.symm⟩

/-- **C42** for the fitted trend: without detrending, for a single series with increasing times, the
prior location of the offset is the first observation (the value of the trend at trend time 0). -/
theorem C42_offset_location [DecidableEq τ] [FloorSemiring K] {days : τ → K}
    {p : PiecewiseParams K τ} {y : Frame String τ K} {s : PiecewiseState K τ} {c : String}
    {r0 : Row String τ K} {rs : List (Row String τ K)}
    (h : piecewiseFit days suggestLinear p y = .ok s) (hd : p.detrend = none)
    (hlv : y.nlevels = 1) (hc : y.cols = [c]) (hr : y.rows = r0 :: rs) (hne : rs ≠ [])
    (hinc : (y.times.map days).Pairwise (· < ·)) : s.offsetLoc = [r0.val c] := by
  have hnd : y.times.Nodup := by
    have := hinc.imp (S := fun a b => a ≠ b) fun h => h.ne
    exact List.Nodup.of_map _ this
  have hu : unique y.times = y.times := unique_of_nodup hnd
  have hmap : (unique y.times).map days = days r0.time :: rs.map fun r => days r.time := by
    rw [hu, Frame.times, hr]
    simp
  obtain ⟨tt', htt', hgood⟩ := goodTrendTime (y := y) hmap (by simpa using hne) (by rwa [← hmap, hu])
  obtain ⟨tt, cps, y', ya, r, h1, -, h3, h4, h5, rfl⟩ := piecewiseFit_inv h
  rw [h1] at htt'
  cases htt'
  unfold detrended at h3
  rw [hd] at h3
  cases h3
  unfold Frame.seriesToTensor at h4
  rw [if_neg (by rw [hc]; simp), if_pos hlv] at h4
  cases h4
  have hf : tt'.scaled days r0.time = 0 := hgood.first _ (by rw [hu, Frame.times, hr]; rfl)
  have hhead : ((unique y.times).map (tt'.scaled days)).head? = some 0 := by
    rw [hu, Frame.times, hr]
    simp [hf]
  unfold suggestLinear at h5
  rw [hhead] at h5
  split at h5
  · split at h5
    · cases h5
    · rename_i t0 t1 e0 e1 _
      cases e0
      cases h5
      simp [column, get?, ravel, Frame.flatVals, hr, hc]
  · cases h5

/-! ## C43 -/

theorem getElem?_flatMap_replicate {α β : Type} {f : β → α} {g : β → Nat} :
    ∀ {l : List β} {i j : Nat} {b : β}, l[i]? = some b → j < g b →
      (l.flatMap fun b => List.replicate (g b) (f b))[((l.take i).map g).sum + j]? = some (f b)
  | [], _, _, _, h, _ => by simp at h
  | b :: l, 0, j, b', h, hj => by
    simp only [List.getElem?_cons_zero, Option.some.injEq] at h
    subst h
    simp [List.getElem?_append_left, hj]
  | b :: l, i + 1, j, b', h, hj => by
    simp only [List.getElem?_cons_succ] at h
    have ih := getElem?_flatMap_replicate (f := f) (g := g) h hj
    simp only [List.take_succ_cons, List.map_cons, List.sum_cons, List.flatMap_cons]
    rw [List.getElem?_append_right (by simp; omega)]
    simp only [List.length_replicate]
    rw [← ih]
    congr 1
    omega

theorem length_flatMap_replicate {α β : Type} {f : β → α} {g : β → Nat} (l : List β) :
    (l.flatMap fun b => List.replicate (g b) (f b)).length = (l.map g).sum := by
  induction l with
  | nil => rfl
  | cons b l ih => simp [ih]

/-- Prior vectors that line up with the changepoints: one entry per changepoint in series order; the
`j`-th changepoint of series `i` has the scale of series `i`. -/
structure LinedUp (cps : List (List K)) (ps : ScalarOr K) (v : List K × List K) : Prop where
  loc : v.1.length = (cps.map List.length).sum
  scale : v.2.length = (cps.map List.length).sum
  own : ∀ i j cs, cps[i]? = some cs → j < cs.length →
    v.2[((cps.take i).map List.length).sum + j]? = ps.at i

omit [LinearOrder K] [IsStrictOrderedRing K] in
/-- **C43**: with one suggested rate per series and one prior scale per series or a common one, the
prior vectors line up with the changepoints. -/
theorem C43_lined_up {cps : List (List K)} {rates : List K} {ps : ScalarOr K}
    (hr : rates.length = cps.length) (hp : ps.Fits cps.length) :
    LinedUp cps ps (priorVectors cps rates ps) := by
  have hl := ScalarOr.length_toList hp
  refine ⟨?_, ?_, ?_⟩
  · simp only [priorVectors]
    rw [length_flatMap_replicate (f := fun _ : Nat × K => (0 : K)) (g := Prod.fst),
      List.map_fst_zip (by simp [hr])]
  · simp only [priorVectors]
    rw [length_flatMap_replicate (f := fun p : Nat × K => p.2) (g := Prod.fst),
      List.map_fst_zip (by simp [hl])]
  · intro i j cs hcs hj
    obtain ⟨hi, -⟩ := List.getElem?_eq_some_iff.1 hcs
    have hsc := ScalarOr.getElem?_toList hp hi
    have hi' : i < (ps.toList cps.length).length := by omega
    have hz : ((cps.map List.length).zip (ps.toList cps.length))[i]?
        = some (cs.length, (ps.toList cps.length)[i]) := by
      rw [List.getElem?_zip_eq_some]
      exact ⟨by rw [List.getElem?_map, hcs]; rfl, List.getElem?_eq_getElem hi'⟩
    have := getElem?_flatMap_replicate (f := fun p : Nat × K => p.2) (g := Prod.fst) hz hj
    simp only [priorVectors]
    rw [← hsc, List.getElem?_eq_getElem hi', ← this]
    congr 3
    rw [List.map_take, List.map_take, List.map_fst_zip (by simp [hl])]

theorem headD_seriesToTensor {V : Type} [DecidableEq τ] {f : Frame String τ V} {a : Tensor V}
    (h : f.seriesToTensor = .ok a) (hlv : 1 ≤ f.nlevels) : a.shape.headD 0 = nSeriesOf f := by
  unfold Frame.seriesToTensor at h
  unfold nSeriesOf
  split at h
  · cases h
  split at h
  · rename_i h1
    cases h
    rw [if_neg (by omega)]
    rfl
  · rename_i h1
    rw [if_pos (by omega)]
    split at h
    · rename_i hs
      cases h
      rw [hs]
      rfl
    · rename_i hs
      split at h
      · cases h
        rw [hs]
        rfl
      · cases h

/-- **C43** for the fitted piecewise linear trend: with parameters that are common or have one entry
per series, and a detrender that keeps the series, the prior vectors line up with the changepoints,
of which there is one list per series. -/
theorem C43_fit [DecidableEq τ] [FloorSemiring K] {days : τ → K} {p : PiecewiseParams K τ}
    {y : Frame String τ K} {s : PiecewiseState K τ}
    (h : piecewiseFit days suggestLinear p y = .ok s) (hlv : 1 ≤ y.nlevels)
    (hd : ∀ y', detrended p y = .ok y' → y'.nlevels = y.nlevels ∧ y'.series = y.series)
    (hi : p.interval.Fits (nSeriesOf y)) (hr : p.range.Fits (nSeriesOf y))
    (hp : p.priorScale.Fits (nSeriesOf y)) :
    s.cps.length = nSeriesOf y ∧ s.rates.length = nSeriesOf y ∧ s.offsetLoc.length = nSeriesOf y ∧
      LinedUp s.cps p.priorScale (s.priorLoc, s.priorScale) := by
  obtain ⟨tt, cps, y', ya, r, h1, h2, h3, h4, h5, rfl⟩ := piecewiseFit_inv h
  have hn : tt.nSeries = nSeriesOf y := by
    unfold trendTimeFit at h1
    split at h1
    · cases h1
    · simp only at h1
      split at h1
      · cases h1
      · cases h1; rfl
  obtain ⟨g1, g2⟩ := hd y' h3
  have hns : nSeriesOf y' = nSeriesOf y := by unfold nSeriesOf; rw [g1, g2]
  have hcl : cps.length = nSeriesOf y := by
    unfold setupChangepoints at h2
    have : ∀ {l : List (K × K)} {t : List K} {c}, changepointsAll t l = .ok c → c.length = l.length := by
      intro l t
      induction l with
      | nil => intro c hc; cases hc; rfl
      | cons q qs ih =>
        intro c hc
        unfold changepointsAll at hc
        cases e1 : changepointsOf t q with
        | error e => rw [e1] at hc; cases hc
        | ok a =>
          rw [e1] at hc
          simp only [bind, Except.bind] at hc
          cases e2 : changepointsAll t qs with
          | error e => rw [e2] at hc; cases hc
          | ok b =>
            rw [e2] at hc
            cases hc
            simp [ih e2]
    rw [this h2, hn]
    simp [ScalarOr.length_toList hi, ScalarOr.length_toList hr]
  have hcol : ∀ j, (column ya j).length = nSeriesOf y := by
    intro j
    unfold column
    rw [List.length_map, List.length_range, headD_seriesToTensor h4 (by omega), hns]
  have hrl : r.1.length = nSeriesOf y ∧ r.2.length = nSeriesOf y := by
    unfold suggestLinear at h5
    split at h5
    · split at h5
      · cases h5
      · cases h5
        simp [hcol]
    · cases h5
  refine ⟨hcl, hrl.1, hrl.2, ?_⟩
  exact C43_lined_up (by rw [hrl.1, hcl]) (by rw [hcl]; exact hp)

/-! ## Non-vacuity -/

example : priorVectors [[0, 1], [0]] [7, 9] (.list [(2 : ℚ), 5]) = ([0, 0, 0], [2, 2, 5]) := by
  decide +kernel

example : (ScalarOr.list [(2 : ℚ), 5]).Fits 2 ∧ (ScalarOr.scalar (2 : ℚ)).Fits 2 := ⟨rfl, trivial⟩

/-- A single series over three days. -/
def exY42 : Frame String ℤ ℚ := ⟨1, ["y"], [⟨[], 5, fun _ => 1⟩, ⟨[], 6, fun _ => 7⟩,
  ⟨[], 7, fun _ => 3⟩]⟩

example : (piecewiseFit daysOfInt suggestLinear ⟨.scalar 1, .scalar (9/10), .scalar 3, true, none⟩
    exY42).map (fun s => (s.cps, s.rates, s.offsetLoc, s.priorScale))
    = .ok ([[0, 1]], [(-1 : ℚ)], [1], [3, 3]) := by decide +kernel

/-- Two series over two days. -/
def exY43 : Frame String ℤ ℚ := ⟨2, ["y"], [⟨["a"], 5, fun _ => 1⟩, ⟨["a"], 6, fun _ => 7⟩,
  ⟨["b"], 5, fun _ => 3⟩, ⟨["b"], 6, fun _ => 4⟩]⟩

example : (piecewiseFit daysOfInt suggestLinear ⟨.scalar (1/2), .list [9/10, 4/10], .list [3, 4],
    true, none⟩ exY43).map (fun s => (s.cps, s.rates, s.offsetLoc, s.priorScale))
    = .ok ([[0, 1/2], [0]], [-6, (-1 : ℚ)], [1, 3], [3, 3, 4]) := by decide +kernel

end PV
