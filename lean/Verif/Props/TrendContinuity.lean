import Mathlib.Topology.Algebra.Order.LiminfLimsup
import Mathlib.Topology.Order.Lattice
import Verif.Props.TrendFitted

/-!
# C79: the piecewise linear trend has no jumps
-/

namespace PV
open Tensor

section
variable {K τ : Type} [Field K] [LinearOrder K] [IsStrictOrderedRing K]

/-- **C79** is false between the training steps: approaching a changepoint at 1 or later from the
left the level does not approach the level at the changepoint; it jumps by the coefficient, however
near the time is. -/
theorem C79_jump_refuted {o c b t : K} {pre post bpre bpost : List K}
    (hl : pre.length = bpre.length)
    (hs : (pre ++ c :: post).Pairwise (· < ·)) (hc : 1 ≤ c) (ht : t < c) (hpre : ∀ a ∈ pre, a ≤ t) :
    trendAt rampEntry o (pre ++ c :: post) (bpre ++ b :: bpost) c
        - trendAt rampEntry o (pre ++ c :: post) (bpre ++ b :: bpost) t
      = bpre.sum * (c - t) + b := by
  obtain ⟨-, h2, h3⟩ := List.pairwise_append.1 hs
  have hpost : ∀ a ∈ post, c < a := (List.pairwise_cons.1 h2).1
  have hrest : ∀ s ≤ c, ∀ (l bl : List K), (∀ a ∈ l, c < a) →
      (List.zipWith (fun c b => b * rampEntry s c) l bl).sum = 0 := by
    intro s hs l bl hl
    apply List.sum_eq_zero
    intro x hx
    obtain ⟨k, hk, rfl⟩ := List.mem_iff_getElem.1 hx
    rw [List.getElem_zipWith]
    have hlt := hl _ (List.getElem_mem (l := l) (n := k) (by simp at hk; omega))
    rw [rampEntry_eq, if_neg (not_le.2 (lt_of_le_of_lt hs hlt)), max_eq_right (by linarith), mul_zero]
  have hd := trendAt_diff (o := o) (t := t) (t' := c) (cs := pre) (bs := bpre) (fun a ha =>
    iff_of_true (hpre a ha) ((hpre a ha).trans ht.le))
  rw [C37_last_slope hl hpre] at hd
  unfold trendAt at hd ⊢
  rw [List.zipWith_append hl, List.zipWith_append hl]
  simp only [List.zipWith_cons_cons, List.sum_append, List.sum_cons]
  rw [hrest c le_rfl _ _ hpost, hrest t ht.le _ _ hpost]
  have e1 : rampEntry c c = 1 := by
    rw [rampEntry_eq, if_pos le_rfl, max_eq_left (by linarith)]; ring
  have e2 : rampEntry t c = 0 := by
    rw [rampEntry_eq, if_neg (not_le.2 ht), max_eq_right (by linarith)]
  rw [e1, e2]
  linarith

/-- The entry at whole times and for whole changepoints is a ramp that begins one step before the
changepoint. -/
theorem rampEntry_whole {t c : ℕ} : rampEntry (t : K) (c : K) = max ((t : K) - c + 1) 0 := by
  rw [rampEntry_eq]
  split
  · rfl
  · rename_i h
    have h' : t + 1 ≤ c := by
      have : ¬ c ≤ t := fun h1 => h (by exact_mod_cast h1)
      omega
    have h1 : ((t + 1 : ℕ) : K) ≤ c := by exact_mod_cast h'
    push_cast at h1
    have h0 : (0 : K) ≤ t := Nat.cast_nonneg t
    rw [max_eq_right (by linarith), max_eq_right (by linarith)]

end

section
variable {τ : Type} [DecidableEq τ]

/-- **C79** on the grid of the training data: if the interval is a whole number of steps, then at all
dates that are a whole number of mean steps after the first one the predicted trend of a single
series is the value of one continuous function, linear between the points one step before the
changepoints.
Missing from C79: dates between the steps, for which it is false (`C79_jump_refuted`). -/
theorem C79_whole_steps_partial {days : τ → ℝ}
    {suggest : List ℝ → Tensor ℝ → PyM (List ℝ × List ℝ)} {p : PiecewiseParams ℝ τ}
    {y : Frame String τ ℝ} {st : PiecewiseState ℝ τ} (h : piecewiseFit days suggest p y = .ok st)
    (hlv : y.nlevels ≤ 1) {ds : List ℝ} (hd : HistoryDays days y ds) (hsq : p.squeeze = true)
    {step : ℕ} (hstep : 0 < step) (hint : p.interval = .scalar (step : ℝ)) {ρ : ℝ}
    (hrange : p.range = .scalar ρ) {θ : SiteEnv ℝ} {o : ℝ}
    (ho : θ "offset" = ⟨[1], [o]⟩) :
    ∃ cs, st.cps = [cs] ∧ ((θ "changepoint_coefficients").data.length = cs.length →
      ∃ F : ℝ → ℝ, Continuous F ∧
        (∀ a b, (∀ c ∈ cs, ¬ (a < c - 1 ∧ c - 1 < b)) → a < b → ∃ k, ∀ x, a ≤ x → x ≤ b →
          F x = F a + k * (x - a)) ∧
        ∀ {fh : List τ} {m : Tensor ℝ} {pred : PyDict (Tensor ℝ)} {r : Tensor ℝ},
          piecewiseTransform days p.squeeze st fh = .ok m →
          piecewisePredict p.squeeze st.time.nSeries θ m pred = .ok r →
          ∀ j t (k : ℕ), fh[j]? = some t → trendTimeOf ds (days t) = k →
            r.get? [j, 0] = some (F k)) := by
  have hn : CountOfSeries y 1 := .inl ⟨hlv, rfl⟩
  obtain ⟨hl, hc⟩ := C34_fitted h hn hd (by rw [hint]; trivial) (by rw [hrange]; trivial)
    (by
      intro i _ v hv
      rw [hint] at hv
      cases hv
      exact_mod_cast hstep)
  obtain ⟨v, r, limit, cs, e1, e2, e3, e4, e5⟩ := hc 0 one_pos
  rw [hint] at e1
  cases e1
  have hcs : st.cps = [cs] := by
    match hst : st.cps, hl with
    | [x], _ => rw [hst] at e4; simpa using e4
  refine ⟨cs, hcs, fun hlen => ?_⟩
  set bs := (θ "changepoint_coefficients").data with hbs
  refine ⟨fun x => trendAt (fun t c => max (t - c + 1) 0) o cs bs x, ?_, ?_, ?_⟩
  · have : ∀ (cs bs : List ℝ), Continuous fun x : ℝ =>
        (List.zipWith (fun c b => b * max (x - c + 1) 0) cs bs).sum := by
      intro cs
      induction cs with
      | nil => intro bs; simpa using continuous_const
      | cons c cs ih =>
        intro bs
        cases bs with
        | nil => simpa using continuous_const
        | cons b bs =>
          simp only [List.zipWith_cons_cons, List.sum_cons]
          exact (by fun_prop : Continuous fun x : ℝ => b * max (x - c + 1) 0).add (ih bs)
    exact continuous_const.add (this cs bs)
  · intro a b hab hlt
    have : ∀ (cs bs : List ℝ), (∀ c ∈ cs, ¬ (a < c - 1 ∧ c - 1 < b)) → ∃ k : ℝ, ∀ x, a ≤ x → x ≤ b →
        (List.zipWith (fun c b => b * max (x - c + 1) 0) cs bs).sum
          = (List.zipWith (fun c b => b * max (a - c + 1) 0) cs bs).sum + k * (x - a) := by
      intro cs
      induction cs with
      | nil => intro bs _; exact ⟨0, by simp⟩
      | cons c cs ih =>
        intro bs hcs
        cases bs with
        | nil => exact ⟨0, by simp⟩
        | cons β bs =>
          obtain ⟨k, hk⟩ := ih bs fun c' h' => hcs c' (by simp [h'])
          have hc := hcs c (by simp)
          by_cases h1 : c - 1 ≤ a
          · refine ⟨β + k, fun x h2 h3 => ?_⟩
            simp only [List.zipWith_cons_cons, List.sum_cons]
            rw [hk x h2 h3, max_eq_left (by linarith), max_eq_left (by linarith)]
            ring
          · have h4 : b ≤ c - 1 := not_lt.1 fun h5 => hc ⟨not_le.1 h1, h5⟩
            refine ⟨k, fun x h2 h3 => ?_⟩
            simp only [List.zipWith_cons_cons, List.sum_cons]
            rw [hk x h2 h3, max_eq_right (by linarith), max_eq_right (by linarith)]
            ring
    obtain ⟨k, hk⟩ := this cs bs hab
    refine ⟨k, fun x h1 h2 => ?_⟩
    simp only [trendAt]
    rw [hk x h1 h2]
    ring
  · intro fh m pred r hm hr j t k hj hk
    obtain ⟨r', g1, -, g2⟩ := C38_fitted_single h hlv hd hsq hm hcs ho hbs.symm hlen.symm pred
    rw [hr] at g1
    cases g1
    rw [(g2 j t hj).1, hk]
    have hint' : ∀ c ∈ cs, ∃ q : ℕ, c = q := by
      intro c hc'
      obtain ⟨q, rfl, -⟩ := (e5.mem c).1 hc'
      exact ⟨q * step, by push_cast; rfl⟩
    have : ∀ (cs bs : List ℝ), (∀ c ∈ cs, ∃ q : ℕ, c = q) →
        List.zipWith (fun c b => b * rampEntry (k : ℝ) c) cs bs
          = List.zipWith (fun c b => b * max ((k : ℝ) - c + 1) 0) cs bs := by
      intro cs
      induction cs with
      | nil => intro bs _; rfl
      | cons c cs ih =>
        intro bs hcs
        cases bs with
        | nil => rfl
        | cons b bs =>
          obtain ⟨q, rfl⟩ := hcs c (by simp)
          simp only [List.zipWith_cons_cons]
          rw [ih bs fun c' h' => hcs c' (by simp [h']), rampEntry_whole]
    unfold trendAt
    rw [this cs bs hint']

end

/-! ## The jump seen from outside, and non-vacuity -/

/-- Ten days of data, in nanoseconds since the epoch. -/
def exDaily : Frame String ℤ ℚ := ⟨1, ["y"], (List.range 10).map fun i =>
  ⟨[], (i : ℤ) * 86400000000000, fun _ => 1⟩⟩

/-- **C79** is false: daily data, changepoints every three days, offset 10 and coefficients 0, 5, 0.
Half an hour, and one second, before the changepoint at day 3 the trend is 10; at day 3 it is 15. -/
theorem C79_daily_refuted :
    ((piecewiseFit daysOfNs suggestLinear ⟨.scalar 3, .scalar (8/10), .scalar 1, true, none⟩
      exDaily).bind fun st =>
      (piecewiseTransform daysOfNs true st [257400000000000, 259199000000000, 259200000000000]).bind
        fun m => piecewisePredict true st.time.nSeries
          (fun s => if s = "offset" then ⟨[1], [10]⟩ else ⟨[3], [0, 5, 0]⟩) m []).map Tensor.data
    = .ok [10, 10, (15 : ℚ)] := by decide +kernel

example : ([0, 3, 6] : List ℚ) = [0] ++ 3 :: [6] ∧ ([0, 3, 6] : List ℚ).Pairwise (· < ·) ∧
    (1 : ℚ) ≤ 3 ∧ (299/100 : ℚ) < 3 ∧ ∀ a ∈ [(0 : ℚ)], a ≤ 299/100 := by
  refine ⟨rfl, by decide +kernel, by norm_num, by norm_num, ?_⟩
  intro a ha
  rw [List.mem_singleton.1 ha]
  norm_num

/-- On the grid: the days 0 to 4, from a continuous function with its kink at day 2. -/
example : ((piecewiseFit daysOfNs suggestLinear ⟨.scalar 3, .scalar (8/10), .scalar 1, true, none⟩
      exDaily).bind fun st =>
      (piecewiseTransform daysOfNs true st ((List.range 5).map fun i => (i : ℤ) * 86400000000000)).bind
        fun m => piecewisePredict true st.time.nSeries
          (fun s => if s = "offset" then ⟨[1], [10]⟩ else ⟨[3], [0, 5, 0]⟩) m []).map Tensor.data
    = .ok [10, 10, 10, 15, (20 : ℚ)] := by decide +kernel

end PV
