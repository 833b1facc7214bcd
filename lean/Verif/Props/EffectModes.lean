import Mathlib.Algebra.Order.Ring.Rat
import Mathlib.Algebra.Ring.Basic
import Verif.Model.EffectBase
import Verif.Lemmas.Broadcast
import Verif.Lemmas.Dict

/-!
# C22: additive and multiplicative effects
-/

namespace PV
open Tensor
variable {D K : Type}

/-- Shape of the contribution: that of the trend, a one-dimensional trend of length `n`
being treated as `(n, 1)`. -/
def trendShape (trend : Tensor K) : List Nat :=
  match trend.shape with
  | [n] => [n, 1]
  | s => s

theorem addMul_predict_unfold [Mul K] [Zero K] {e : AddMul D K} {θ : SiteEnv K} {d : D}
    {p : PyDict (Tensor K)} {trend : Tensor K} (ht : p.get? "trend" = some trend)
    (htw : trend.WF) {x : Tensor K} (hx : e.raw θ d p = .ok x) :
    e.call θ d p = if x.data.length = trend.data.length then
      (if e.mode = "additive" then .ok ⟨trendShape trend, x.data⟩
        else .ok ⟨trendShape trend, List.zipWith (· * ·) trend.data x.data⟩)
      else .error .typeError := by
  have hg : p.getItem "trend" = .ok trend := PyDict.getItem_ok.2 ht
  have h1 : trendAsColumn trend = .ok ⟨trendShape trend, trend.data⟩ := by
    unfold trendAsColumn
    obtain ⟨sh, da⟩ := trend
    match sh with
    | [] => simp [ndim, trendShape, pure, Except.pure]
    | [n] =>
      have : da.length = n := by simpa [WF, size] using htw
      simp [ndim, trendShape, reshapeInfer, this, Nat.mod_one]
    | _ :: _ :: _ => simp [ndim, trendShape, pure, Except.pure]
  have hsz : size (trendShape trend) = trend.data.length := by
    obtain ⟨sh, da⟩ := trend
    match sh with
    | [] => exact htw.symm
    | [n] => simpa [trendShape, size] using htw.symm
    | _ :: _ :: _ => exact htw.symm
  unfold AddMul.call AddMul.predict
  simp only [hg, bind, Except.bind, h1, basePredict, Option.getD_some, hx, reshape, hsz]
  by_cases hl : x.data.length = trend.data.length
  · simp only [if_pos hl]
    by_cases hm : e.mode = "additive"
    · simp [hm, pure, Except.pure]
    · simp only [if_neg hm]
      rw [binop_same_eq]
      · exact hsz.symm
      · exact hl.trans hsz.symm
      · rfl
  · simp only [if_neg hl]

/-- **C22**: with mode `additive` the contribution is the raw value, with `multiplicative`
trend times raw value, at every position; the contribution has the shape of the trend. -/
theorem C22_contribution [Mul K] [Zero K] {mode : String} {raw : EffectCall D K}
    {e : AddMul D K} (hnew : AddMul.new mode raw = .ok e) {θ : SiteEnv K} {d : D}
    {p : PyDict (Tensor K)} {trend x r : Tensor K} (ht : p.get? "trend" = some trend)
    (htw : trend.WF) (hx : raw θ d p = .ok x) (hr : e.call θ d p = .ok r) :
    r.shape = trendShape trend ∧ r.WF ∧
    (mode = "additive" ∨ mode = "multiplicative") ∧
    ∀ k < trend.data.length, ∃ a b, trend.data[k]? = some a ∧ x.data[k]? = some b ∧
      (mode = "additive" → r.data[k]? = some b) ∧
      (mode = "multiplicative" → r.data[k]? = some (a * b)) := by
  unfold AddMul.new at hnew
  split at hnew
  · rename_i hm
    simp only [Except.ok.injEq] at hnew
    subst hnew
    have hsz : size (trendShape trend) = trend.data.length := by
      obtain ⟨sh, da⟩ := trend
      match sh with
      | [] => exact htw.symm
      | [n] => simpa [trendShape, size] using htw.symm
      | _ :: _ :: _ => exact htw.symm
    rw [addMul_predict_unfold ht htw hx] at hr
    split at hr
    · rename_i hl
      have hm' : mode = "additive" ∨ mode = "multiplicative" := by simpa using hm
      have hget : ∀ k < trend.data.length, ∃ a b,
          trend.data[k]? = some a ∧ x.data[k]? = some b := fun k hk =>
        ⟨trend.data[k], x.data[k]'(by omega), List.getElem?_eq_getElem hk,
          List.getElem?_eq_getElem (by omega)⟩
      rcases hm' with rfl | rfl
      · simp only [if_true, Except.ok.injEq] at hr
        subst hr
        refine ⟨rfl, hl.trans hsz.symm, Or.inl rfl, ?_⟩
        intro k hk
        obtain ⟨a, b, ha, hb⟩ := hget k hk
        exact ⟨a, b, ha, hb, fun _ => hb, fun h => absurd h (by decide)⟩
      · rw [if_neg (show ¬("multiplicative" = "additive") by decide), Except.ok.injEq] at hr
        subst hr
        refine ⟨rfl, by simp [WF, hl, hsz], Or.inr rfl, ?_⟩
        intro k hk
        obtain ⟨a, b, ha, hb⟩ := hget k hk
        refine ⟨a, b, ha, hb, fun h => absurd h (by decide), fun _ => ?_⟩
        simp [List.getElem?_zipWith, ha, hb]
    · cases hr
  · cases hnew

/-- C22 read with array indices: if the raw value already has the trend's shape (all
built-in effects), the contribution at index `idx` is `x[idx]`, resp. `trend[idx]*x[idx]`. -/
theorem C22_entries [Mul K] [Zero K] {mode : String} {raw : EffectCall D K}
    {e : AddMul D K} (hnew : AddMul.new mode raw = .ok e) {θ : SiteEnv K} {d : D}
    {p : PyDict (Tensor K)} {trend x r : Tensor K} (ht : p.get? "trend" = some trend)
    (htw : trend.WF) (hnd : trend.ndim ≠ 1) (hx : raw θ d p = .ok x)
    (hxs : x.shape = trend.shape) (hr : e.call θ d p = .ok r)
    {idx : List Nat} (hi : InBounds trend.shape idx) :
    ∃ a b, trend.get? idx = some a ∧ x.get? idx = some b ∧
      (mode = "additive" → r.get? idx = some b) ∧
      (mode = "multiplicative" → r.get? idx = some (a * b)) := by
  obtain ⟨hs, _, _, h⟩ := C22_contribution hnew ht htw hx hr
  have hts : trendShape trend = trend.shape := by
    unfold trendShape
    split
    · rename_i n hn
      exact absurd (by simp [ndim, hn]) hnd
    · rfl
  obtain ⟨a, b, ha, hb, h1, h2⟩ := h (ravel trend.shape idx) (by
    rw [show trend.data.length = size trend.shape from htw]
    exact ravel_lt hi)
  refine ⟨a, b, ha, by rwa [get?, hxs], ?_, ?_⟩
  · intro hm; rw [get?, hs, hts]; exact h1 hm
  · intro hm; rw [get?, hs, hts]; exact h2 hm

/-- C22: exactly the other modes are rejected, with a `ValueError`. -/
theorem C22_mode_rejected (mode : String) (raw : EffectCall D K) :
    (AddMul.new mode raw).toOption = none ↔ mode ≠ "additive" ∧ mode ≠ "multiplicative" := by
  unfold AddMul.new
  by_cases h : mode ∈ ["additive", "multiplicative"]
  · have h' : mode = "additive" ∨ mode = "multiplicative" := by simpa using h
    simp only [if_pos h, Except.toOption]
    rcases h' with h' | h' <;> simp [h']
  · have h' : ¬(mode = "additive" ∨ mode = "multiplicative") := by simpa using h
    rw [not_or] at h'
    simp [if_neg h, Except.toOption, h'.1, h'.2]

theorem C22_mode_error {mode : String} {raw : EffectCall D K} {err : PyErr}
    (h : AddMul.new mode raw = .error err) : err = .valueError := by
  unfold AddMul.new at h
  split at h <;> simp_all

/-- C22: without a trend the call fails (`KeyError`; `ValueError` if `predicted_effects` is
`None`), whatever the raw effect does. -/
theorem C22_missing_trend [Mul K] [Zero K] (e : AddMul D K) (θ : SiteEnv K) (d : D)
    (p : Option (PyDict (Tensor K))) (h : ∀ q, p = some q → q.get? "trend" = none) :
    e.predict θ d p = .error (if p = none then .valueError else .keyError) := by
  cases p with
  | none => rfl
  | some q =>
    have : q.getItem "trend" = .error .keyError := by
      unfold PyDict.getItem
      rw [h q rfl]
    simp [AddMul.predict, this, bind, Except.bind]

/-- C22: the call succeeds whenever the raw value has as many entries as the trend. -/
theorem C22_succeeds [Mul K] [Zero K] {e : AddMul D K} {θ : SiteEnv K} {d : D}
    {p : PyDict (Tensor K)} {trend x : Tensor K} (ht : p.get? "trend" = some trend)
    (htw : trend.WF) (hx : e.raw θ d p = .ok x) :
    (∃ r, e.call θ d p = .ok r) ↔ x.data.length = trend.data.length := by
  rw [addMul_predict_unfold ht htw hx]
  by_cases hl : x.data.length = trend.data.length
  · simp only [if_pos hl]
    by_cases hm : e.mode = "additive" <;> simp [hm, hl]
  · simp [hl]

/-- A raw effect for the examples: returns its data. -/
def exRaw : EffectCall (Tensor ℚ) ℚ := fun _ d _ => .ok d
def exTrend : PyDict (Tensor ℚ) := [("trend", ⟨[3], [10, 20, 30]⟩)]

example : ((AddMul.new "multiplicative" exRaw).bind fun e =>
    e.call (fun _ => ⟨[], []⟩) ⟨[3, 1], [1, 2, 3]⟩ exTrend) = .ok ⟨[3, 1], [10, 40, 90]⟩ := by
  decide +kernel
example : ((AddMul.new "additive" exRaw).bind fun e =>
    e.call (fun _ => ⟨[], []⟩) ⟨[3, 1], [1, 2, 3]⟩ exTrend) = .ok ⟨[3, 1], [1, 2, 3]⟩ := by
  decide +kernel
example : (AddMul.new "Additive" exRaw).toOption.isNone := by decide +kernel

end PV
