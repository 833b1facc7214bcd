import Mathlib.Algebra.BigOperators.Intervals
import Mathlib.Algebra.BigOperators.Fin
import Mathlib.Data.List.GetD
import Mathlib.Algebra.Order.Ring.Rat
import Verif.Model.Effects
import Verif.Lemmas.Broadcast

/-!
# C27, C28, C29: Hill, log and linear effects
-/

namespace PV
open Tensor

theorem get?_map {K L : Type} (f : K → L) (t : Tensor K) (idx : List Nat) :
    (t.map f).get? idx = (t.get? idx).map f := by
  simp [Tensor.get?, Tensor.map]

/-! ## Hill -/

/-- Specification: the Hill curve `M x^s / (h^s + x^s)` of the literature. -/
noncomputable def hillCurve (h s M x : ℝ) : ℝ := M * x ^ s / (h ^ s + x ^ s)

theorem hillEntry_pos {h s M x : ℝ} (hh : 0 < h) (hx : 0 < x) :
    hillEntry h s M x = hillCurve h s M x := by
  unfold hillEntry exponentSafe hillCurve
  have hz : x / h ≠ 0 := (div_pos hx hh).ne'
  simp only [if_neg hz]
  rw [Real.rpow_neg (div_pos hx hh).le, Real.div_rpow hx.le hh.le]
  have h1 : 0 < h ^ s := Real.rpow_pos_of_pos hh s
  have h2 : 0 < x ^ s := Real.rpow_pos_of_pos hx s
  have h3 : h ^ s + x ^ s ≠ 0 := by positivity
  field_simp
  rw [add_comm]

/-- **C27** for positive inputs: the Hill effect is the Hill curve; it lies strictly between 0
and `max_effect`, is strictly increasing, and is half of `max_effect` at `half_max`.
Missing from C27: input 0, where the code returns `max_effect` (see `C27_at_zero_refuted`). -/
theorem C27_hill_partial {θ : SiteEnv ℝ} {d : Tensor ℝ} {p : PyDict (Tensor ℝ)} {h s M : ℝ}
    (eh : siteScalar θ "half_max" = h) (es : siteScalar θ "slope" = s)
    (em : siteScalar θ "max_effect" = M) (hh : 0 < h) (hs : 0 < s) (hM : 0 < M) :
    ∃ r, hillRaw θ (.data d) p = .ok r ∧ r.shape = d.shape ∧
      (∀ idx x, d.get? idx = some x → 0 < x → ∃ v, r.get? idx = some v ∧
        v = hillCurve h s M x ∧ 0 < v ∧ v < M ∧ (x = h → v = M / 2)) ∧
      (∀ i j x x' v v', d.get? i = some x → d.get? j = some x' → 0 < x → x < x' →
        r.get? i = some v → r.get? j = some v' → v < v') := by
  refine ⟨_, rfl, rfl, ?_, ?_⟩
  · intro idx x hx hx0
    refine ⟨hillEntry h s M x, ?_, hillEntry_pos hh hx0, ?_⟩
    · rw [get?_map, hx, eh, es, em]; rfl
    · rw [hillEntry_pos hh hx0]
      unfold hillCurve
      have h1 : 0 < h ^ s := Real.rpow_pos_of_pos hh s
      have h2 : 0 < x ^ s := Real.rpow_pos_of_pos hx0 s
      refine ⟨by positivity, ?_, ?_⟩
      · rw [div_lt_iff₀ (by positivity)]
        nlinarith
      · rintro rfl
        field_simp
        ring
  · intro i j x x' v v' hx hx' h0 hlt hv hv'
    rw [get?_map, hx, eh, es, em] at hv
    rw [get?_map, hx', eh, es, em] at hv'
    have h0' : 0 < x' := h0.trans hlt
    simp only [Option.map_some, Option.some.injEq] at hv hv'
    rw [← hv, ← hv', hillEntry_pos hh h0, hillEntry_pos hh h0']
    unfold hillCurve
    have h1 : 0 < h ^ s := Real.rpow_pos_of_pos hh s
    have h2 : 0 < x ^ s := Real.rpow_pos_of_pos h0 s
    have h3 : x ^ s < x' ^ s := Real.rpow_lt_rpow h0.le hlt hs
    rw [div_lt_div_iff₀ (by positivity) (by linarith)]
    nlinarith [mul_pos hM h1]

/-- **C27** is false at input 0, for all parameters: the effect is `max_effect`. -/
theorem C27_at_zero_refuted {θ : SiteEnv ℝ} {d : Tensor ℝ} {p : PyDict (Tensor ℝ)}
    {r : Tensor ℝ} (hr : hillRaw θ (.data d) p = .ok r) {idx : List Nat}
    (hd : d.get? idx = some 0) : r.get? idx = some (siteScalar θ "max_effect") := by
  cases hr
  rw [get?_map, hd]
  simp [hillEntry, exponentSafe]

/-- In particular the effect of no spend exceeds that of any positive spend: the response is
not non-decreasing on inputs `≥ 0`. -/
theorem C27_monotone_refuted {h s M x : ℝ} (hh : 0 < h) (_hs : 0 < s) (hM : 0 < M) (hx : 0 < x) :
    hillEntry h s M x < hillEntry h s M 0 := by
  rw [hillEntry_pos hh hx]
  have : hillEntry h s M 0 = M := by simp [hillEntry, exponentSafe]
  rw [this]
  unfold hillCurve
  have h1 : 0 < h ^ s := Real.rpow_pos_of_pos hh s
  have h2 : 0 < x ^ s := Real.rpow_pos_of_pos hx s
  rw [div_lt_iff₀ (by positivity)]
  nlinarith

/-! ## Log -/

/-- **C28**: the log effect takes the logarithm of a positive number at every entry; for
inputs `≥ 0` and rate `≥ 0` it is `scale * log(rate * x + 1)`, which is 0 at 0 and
non-negative; it is monotone over all inputs for non-negative scale and rate. -/
theorem C28_log {θ : SiteEnv ℝ} {d : Tensor ℝ} {p : PyDict (Tensor ℝ)} {c k : ℝ}
    (es : siteScalar θ "log_scale" = c) (er : siteScalar θ "log_rate" = k) :
    ∃ r, logRaw θ (.data d) p = .ok r ∧ r.shape = d.shape ∧
      (∀ idx x, d.get? idx = some x → ∃ v u, r.get? idx = some v ∧ 0 < u ∧ v = c * Real.log u ∧
        (x = 0 → v = 0) ∧
        (0 ≤ k → 0 ≤ x → v = c * Real.log (k * x + 1) ∧ (0 ≤ c → 0 ≤ v))) ∧
      (0 ≤ c → 0 ≤ k → ∀ i j x x' v v', d.get? i = some x → d.get? j = some x' → x ≤ x' →
        r.get? i = some v → r.get? j = some v' → v ≤ v') := by
  have hpos : ∀ x : ℝ, (0 : ℝ) < max (k * x + 1) (1 / 10 ^ 8) := fun x =>
    lt_max_of_lt_right (by positivity)
  refine ⟨_, rfl, rfl, ?_, ?_⟩
  · intro idx x hx
    have hv : (d.map (logEntry (siteScalar θ "log_scale") (siteScalar θ "log_rate"))).get? idx
        = some (logEntry c k x) := by rw [get?_map, hx, es, er]; rfl
    refine ⟨_, _, hv, hpos x, rfl, ?_, ?_⟩
    · rintro rfl
      have : max (k * 0 + 1) (1 / 10 ^ 8 : ℝ) = 1 := by
        rw [mul_zero, zero_add]; exact max_eq_left (by norm_num)
      unfold logEntry
      rw [this, Real.log_one, mul_zero]
    · intro hk hx0
      have h1 : (1 : ℝ) ≤ k * x + 1 := by nlinarith [mul_nonneg hk hx0]
      have hm : max (k * x + 1) (1 / 10 ^ 8 : ℝ) = k * x + 1 :=
        max_eq_left (le_trans (by norm_num) h1)
      refine ⟨by simp only [logEntry, hm], fun hc => ?_⟩
      simp only [logEntry, hm]
      exact mul_nonneg hc (Real.log_nonneg h1)
  · intro hc hk i j x x' v v' hx hx' hle hv hv'
    rw [get?_map, hx, es, er] at hv
    rw [get?_map, hx', es, er] at hv'
    simp only [Option.map_some, Option.some.injEq] at hv hv'
    rw [← hv, ← hv']
    unfold logEntry
    apply mul_le_mul_of_nonneg_left _ hc
    apply Real.log_le_log (hpos x)
    exact max_le_max_right _ (by nlinarith [mul_le_mul_of_nonneg_left hle hk])

/-! ## Linear -/

section
variable {K : Type} [CommRing K]

theorem dot_eq_sum : ∀ (x v : List K) (n : Nat), x.length = n → v.length = n →
    dot x v = ∑ j ∈ Finset.range n, x.getD j 0 * v.getD j 0
  | [], [], n, h, _ => by
    have : n = 0 := by simpa using h.symm
    subst this; simp [dot]
  | a :: x, b :: v, n, h, h' => by
    obtain ⟨m, rfl⟩ : ∃ m, n = m + 1 := ⟨x.length, by simpa using h.symm⟩
    have ih := dot_eq_sum x v m (by simpa using h) (by simpa using h')
    rw [Finset.sum_range_succ']
    simp only [List.getD_cons_succ, List.getD_cons_zero]
    rw [← ih]
    simp [dot, add_comm]
  | [], _ :: _, n, h, h' => by simp at h h'; omega
  | _ :: _, [], n, h, h' => by simp at h h'; omega

theorem ravel_snoc {sh idx : List Nat} {n j : Nat} (h : InBounds sh idx) :
    ravel (sh ++ [n]) (idx ++ [j]) = ravel sh idx * n + j := by
  induction sh generalizing idx with
  | nil => cases idx <;> simp_all [InBounds, ravel, size]
  | cons m sh ih =>
    cases idx with
    | nil => exact h.elim
    | cons i is =>
      simp only [List.cons_append, ravel, ih h.2, size_append, size, Nat.mul_one, Nat.add_mul,
        Nat.mul_assoc, Nat.add_assoc]

theorem chunk_getD {t : Tensor K} {sh idx : List Nat} {n j : Nat} (hsh : t.shape = sh ++ [n])
    (h : InBounds sh idx) (hj : j < n) :
    (chunk t.data n (ravel sh idx)).getD j 0 = (t.get? (idx ++ [j])).getD 0 := by
  unfold get? chunk
  rw [hsh, ravel_snoc h, List.getD_eq_getElem?_getD, List.getElem?_take_of_lt hj,
    List.getElem?_drop]

theorem length_chunk {t : Tensor K} {sh idx : List Nat} {n : Nat} (hw : t.WF)
    (hsh : t.shape = sh ++ [n]) (h : InBounds sh idx) :
    (chunk t.data n (ravel sh idx)).length = n := by
  have hl : t.data.length = size sh * n := by
    rw [show t.data.length = size t.shape from hw, hsh, size_append]
    simp [size]
  have := ravel_lt h
  have h2 : (ravel sh idx + 1) * n ≤ size sh * n := Nat.mul_le_mul_right n this
  rw [Nat.add_mul] at h2
  simp only [chunk, List.length_take, List.length_drop, hl]
  omega

/-- The inner product of the features at index `idx` with the coefficients. -/
def innerAt (d : Tensor K) (β : List K) (idx : List Nat) : K :=
  ∑ j ∈ Finset.range β.length, (d.get? (idx ++ [j])).getD 0 * β.getD j 0

/-- **C29**: with data of shape `sh ++ [n]` and `n` coefficients, the linear effect has shape
`sh ++ [1]` and the entry at `idx` is `sum_j data[idx, j] * coefs[j]`; the coefficients do not
depend on `idx`. -/
theorem C29_inner_product {θ : SiteEnv K} {d : Tensor K} {p : PyDict (Tensor K)}
    {sh : List Nat} {β : List K} (hβ : (θ "coefs").data = β)
    (hw : d.WF) (hsh : d.shape = sh ++ [β.length]) :
    ∃ r, linearRaw θ (.data d) p = .ok r ∧ r.WF ∧ r.shape = sh ++ [1] ∧
      ∀ idx, InBounds sh idx → r.get? (idx ++ [0]) = some (innerAt d β idx) := by
  obtain ⟨r, hr⟩ := dotLast_ok hsh
  obtain ⟨hrs, hrw, hrg⟩ := dotLast_get? hsh hr
  refine ⟨⟨r.shape ++ [1], r.data⟩, ?_, ?_, by rw [hrs], ?_⟩
  · unfold linearRaw
    simp only [Transformed.array, hβ, bind, Except.bind, hr]
    rfl
  · unfold WF at hrw ⊢
    simp [size_append, size, hrw]
  · intro idx hi
    have := hrg idx hi
    unfold get? at this ⊢
    rw [hrs] at this
    simp only
    rw [hrs, ravel_snoc hi, Nat.mul_one, Nat.add_zero, this,
      dot_eq_sum _ _ β.length (length_chunk hw hsh hi) rfl]
    unfold innerAt
    congr 1
    apply Finset.sum_congr rfl
    intro j hj
    rw [chunk_getD hsh hi (Finset.mem_range.1 hj)]

/-- **C29**: a number of coefficients different from the number of features is an error. -/
theorem C29_feature_count {θ : SiteEnv K} {d : Tensor K} {p : PyDict (Tensor K)} {n : Nat}
    (hn : d.shape.getLast? = some n) (hne : n ≠ (θ "coefs").data.length) :
    linearRaw θ (.data d) p = .error .typeError := by
  unfold linearRaw dotLast
  simp [Transformed.array, bind, Except.bind, hn, hne]

theorem innerAt_eq {d : Tensor K} {θ : SiteEnv K} {p : PyDict (Tensor K)} {sh idx : List Nat}
    {r : Tensor K} (hw : d.WF) (hsh : d.shape = sh ++ [(θ "coefs").data.length])
    (hr : linearRaw θ (.data d) p = .ok r) (hi : InBounds sh idx) :
    r.get? (idx ++ [0]) = some (innerAt d (θ "coefs").data idx) := by
  obtain ⟨r', hr', -, -, h⟩ := C29_inner_product (p := p) (θ := θ) rfl hw hsh
  rw [hr] at hr'
  cases hr'
  exact h idx hi

/-- **C29**: linear in the coefficients: if the coefficients are `a β + b γ` then so are the
values. -/
theorem C29_linear_in_coefs {θ₁ θ₂ θ₃ : SiteEnv K} {d : Tensor K} {p : PyDict (Tensor K)}
    {sh idx : List Nat} {r₁ r₂ r₃ : Tensor K} {a b : K} (hw : d.WF)
    (hl₁ : (θ₁ "coefs").data.length = (θ₃ "coefs").data.length)
    (hl₂ : (θ₂ "coefs").data.length = (θ₃ "coefs").data.length)
    (hsh : d.shape = sh ++ [(θ₃ "coefs").data.length])
    (hc : ∀ j, (θ₃ "coefs").data.getD j 0
      = a * (θ₁ "coefs").data.getD j 0 + b * (θ₂ "coefs").data.getD j 0)
    (h₁ : linearRaw θ₁ (.data d) p = .ok r₁) (h₂ : linearRaw θ₂ (.data d) p = .ok r₂)
    (h₃ : linearRaw θ₃ (.data d) p = .ok r₃) (hi : InBounds sh idx) :
    ∃ v₁ v₂, r₁.get? (idx ++ [0]) = some v₁ ∧ r₂.get? (idx ++ [0]) = some v₂ ∧
      r₃.get? (idx ++ [0]) = some (a * v₁ + b * v₂) := by
  refine ⟨_, _, innerAt_eq hw (by rw [hl₁]; exact hsh) h₁ hi,
    innerAt_eq hw (by rw [hl₂]; exact hsh) h₂ hi, ?_⟩
  rw [innerAt_eq hw hsh h₃ hi]
  unfold innerAt
  rw [hl₁, hl₂, Finset.mul_sum, Finset.mul_sum, ← Finset.sum_add_distrib]
  congr 1
  apply Finset.sum_congr rfl
  intro j _
  rw [hc]
  ring

/-- **C29**: linear in the data. -/
theorem C29_linear_in_data {θ : SiteEnv K} {d₁ d₂ d₃ : Tensor K} {p : PyDict (Tensor K)}
    {sh idx : List Nat} {r₁ r₂ r₃ : Tensor K} {a b : K}
    (hw₁ : d₁.WF) (hw₂ : d₂.WF) (hw₃ : d₃.WF)
    (hs₁ : d₁.shape = sh ++ [(θ "coefs").data.length])
    (hs₂ : d₂.shape = sh ++ [(θ "coefs").data.length])
    (hs₃ : d₃.shape = sh ++ [(θ "coefs").data.length])
    (hd : ∀ i, (d₃.get? i).getD 0 = a * (d₁.get? i).getD 0 + b * (d₂.get? i).getD 0)
    (h₁ : linearRaw θ (.data d₁) p = .ok r₁) (h₂ : linearRaw θ (.data d₂) p = .ok r₂)
    (h₃ : linearRaw θ (.data d₃) p = .ok r₃) (hi : InBounds sh idx) :
    ∃ v₁ v₂, r₁.get? (idx ++ [0]) = some v₁ ∧ r₂.get? (idx ++ [0]) = some v₂ ∧
      r₃.get? (idx ++ [0]) = some (a * v₁ + b * v₂) := by
  refine ⟨_, _, innerAt_eq hw₁ hs₁ h₁ hi, innerAt_eq hw₂ hs₂ h₂ hi, ?_⟩
  rw [innerAt_eq hw₃ hs₃ h₃ hi]
  unfold innerAt
  rw [Finset.mul_sum, Finset.mul_sum, ← Finset.sum_add_distrib]
  congr 1
  apply Finset.sum_congr rfl
  intro j _
  rw [hd]
  ring

/-- **C29**: all features zero at an index give effect zero there. -/
theorem C29_zero {θ : SiteEnv K} {d : Tensor K} {p : PyDict (Tensor K)} {sh idx : List Nat}
    {r : Tensor K} (hw : d.WF) (hsh : d.shape = sh ++ [(θ "coefs").data.length])
    (hr : linearRaw θ (.data d) p = .ok r) (hi : InBounds sh idx)
    (hz : ∀ j < (θ "coefs").data.length, d.get? (idx ++ [j]) = some 0) :
    r.get? (idx ++ [0]) = some 0 := by
  rw [innerAt_eq hw hsh hr hi]
  unfold innerAt
  congr 1
  apply Finset.sum_eq_zero
  intro j hj
  simp [hz j (Finset.mem_range.1 hj)]

end

/-! Examples: two features, two times; a 3-d array; wrong number of coefficients. -/

def exCoefs : SiteEnv ℚ := fun s => if s = "coefs" then ⟨[2], [3, 5]⟩ else ⟨[], []⟩
example : linearRaw exCoefs (.data ⟨[2, 2], [1, 0, 2, 1]⟩) [] = .ok ⟨[2, 1], [3, 11]⟩ := by
  decide +kernel
example : linearRaw exCoefs (.data ⟨[2, 1, 2], [1, 0, 2, 1]⟩) [] = .ok ⟨[2, 1, 1], [3, 11]⟩ := by
  decide +kernel
example : linearRaw exCoefs (.data ⟨[2, 1], [1, 2]⟩) [] = .error .typeError := by
  decide +kernel

example : hillCurve 2 1 10 2 = 5 := by norm_num [hillCurve]
example : (⟨[1], [2]⟩ : Tensor ℝ).get? [0] = some 2 := rfl

end PV
