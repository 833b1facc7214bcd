import Mathlib.Tactic.IntervalCases
import Mathlib.Tactic.NormNum
import Verif.Lemmas.Trend
import Verif.Lemmas.TrendTensor
import Verif.Model.Logistic

/-!
# C40, C41: the logistic trend
-/

namespace PV
open Tensor

/-! ## C40 -/

theorem logisticOf_pos {c x : ℝ} (hc : 0 < c) : 0 < logisticOf c x :=
  div_pos hc (by have := Real.exp_pos (-x); linarith)

theorem logisticOf_lt {c x : ℝ} (hc : 0 < c) : logisticOf c x < c := by
  unfold logisticOf
  rw [div_lt_iff₀ (by have := Real.exp_pos (-x); linarith)]
  have := mul_pos hc (Real.exp_pos (-x))
  linarith

theorem logisticOf_lt_logisticOf {c x x' : ℝ} (hc : 0 < c) :
    logisticOf c x < logisticOf c x' ↔ x < x' := by
  unfold logisticOf
  have h1 := Real.exp_pos (-x)
  have h2 := Real.exp_pos (-x')
  rw [div_lt_div_iff_of_pos_left hc (by linarith) (by linarith), add_lt_add_iff_left,
    Real.exp_lt_exp, neg_lt_neg_iff]

theorem logisticOf_zero (c : ℝ) : logisticOf c 0 = c / 2 := by
  unfold logisticOf
  norm_num

/-- `r` is the logistic trend with capacity `c` of the linear trend `x`, stated without a formula:
strictly between 0 and the capacity, half of it at 0. -/
def SquashedBy (c x r : ℝ) : Prop := 0 < r ∧ r < c ∧ (x = 0 → r = c / 2) ∧
  (0 < x → c / 2 < r) ∧ (x < 0 → r < c / 2)

theorem squashedBy {c : ℝ} (hc : 0 < c) (x : ℝ) : SquashedBy c x (logisticOf c x) := by
  refine ⟨logisticOf_pos hc, logisticOf_lt hc, ?_, ?_, ?_⟩
  · rintro rfl; exact logisticOf_zero c
  · intro h; rw [← logisticOf_zero c]; exact (logisticOf_lt_logisticOf hc).2 h
  · intro h; rw [← logisticOf_zero c]; exact (logisticOf_lt_logisticOf hc).2 h

/-- **C40** for several series: with positive capacities the logistic trend of series `i` is at
every time strictly between 0 and the capacity of series `i`, half of it where the linear trend is
0; and it increases strictly with the linear trend. -/
theorem C40_panel {squeeze : Bool} {n T : Nat} {θ : SiteEnv ℝ} {m x : Tensor ℝ}
    {p : PyDict (Tensor ℝ)} {caps : List ℝ} (hn : n ≠ 1)
    (hx : piecewisePredict squeeze n θ m p = .ok x) (hxs : x.shape = [n, T, 1]) (hxw : x.WF)
    (hc : θ "capacity" = ⟨[n, 1, 1], caps⟩) (hcl : caps.length = n) (hcpos : ∀ c ∈ caps, 0 < c) :
    ∃ r, logisticPredict squeeze n θ m p = .ok r ∧ r.shape = [n, T, 1] ∧
      (∀ i j c, caps[i]? = some c → j < T → ∃ u v, x.get? [i, j, 0] = some u ∧
        r.get? [i, j, 0] = some v ∧ SquashedBy c u v) ∧
      (∀ i j j' u u' v v', i < n → j < T → j' < T → x.get? [i, j, 0] = some u →
        x.get? [i, j', 0] = some u' → r.get? [i, j, 0] = some v → r.get? [i, j', 0] = some v' →
        (v < v' ↔ u < u')) := by
  obtain ⟨r, h1, h2, -, h3⟩ := binop_series (f := fun x c : ℝ => logisticOf c x) hxs hcl
  have hget : ∀ i j, i < n → j < T → ∃ u, x.get? [i, j, 0] = some u := by
    intro i j hi hj
    exact get?_isSome hxw (by rw [hxs]; exact ⟨hi, hj, Nat.one_pos, trivial⟩)
  refine ⟨r, ?_, h2, ?_, ?_⟩
  · unfold logisticPredict
    rw [hx]
    simp only [bind, Except.bind, if_neg hn]
    rw [hc, ← h1, hcl]
  · intro i j c hci hj
    obtain ⟨hi, rfl⟩ := List.getElem?_eq_some_iff.1 hci
    obtain ⟨u, hu⟩ := hget i j (by omega) hj
    refine ⟨u, _, hu, h3 i j (by omega) hj, ?_⟩
    rw [hu]
    exact squashedBy (hcpos _ (List.getElem_mem _)) u
  · intro i j j' u u' v v' hi hj hj' hu hu' hv hv'
    rw [h3 i j hi hj, hu] at hv
    rw [h3 i j' hi hj', hu'] at hv'
    cases hv; cases hv'
    exact logisticOf_lt_logisticOf (hcpos _ (List.getElem_mem _))

/-- **C40** for one series (column or panel with one series). -/
theorem C40_single {squeeze : Bool} {θ : SiteEnv ℝ} {m x : Tensor ℝ} {p : PyDict (Tensor ℝ)} {c : ℝ}
    (hx : piecewisePredict squeeze 1 θ m p = .ok x) (hxw : x.WF)
    (hc : θ "capacity" = ⟨[1, 1, 1], [c]⟩) (hcpos : 0 < c) :
    ∃ r, logisticPredict squeeze 1 θ m p = .ok r ∧ r.shape = x.shape ∧
      (∀ idx, InBounds x.shape idx → ∃ u v, x.get? idx = some u ∧ r.get? idx = some v ∧
        SquashedBy c u v) ∧
      (∀ idx idx' u u' v v', InBounds x.shape idx → InBounds x.shape idx' → x.get? idx = some u →
        x.get? idx' = some u' → r.get? idx = some v → r.get? idx' = some v' → (v < v' ↔ u < u')) := by
  obtain ⟨r, h1, h2, -, h3⟩ := binop_scalar_right (fun x c : ℝ => logisticOf c x) (a := x) c
  refine ⟨r, ?_, h2, ?_, ?_⟩
  · unfold logisticPredict
    rw [hx]
    simp only [bind, Except.bind, if_true, hc]
    exact h1
  · intro idx hb
    obtain ⟨u, hu⟩ := get?_isSome hxw hb
    refine ⟨u, _, hu, h3 idx hb, ?_⟩
    rw [hu]
    exact squashedBy hcpos u
  · intro idx idx' u u' v v' hb hb' hu hu' hv hv'
    rw [h3 idx hb, hu] at hv
    rw [h3 idx' hb', hu'] at hv'
    cases hv; cases hv'
    exact logisticOf_lt_logisticOf hcpos

/-! ## C41 -/

theorem logisticOf_log {cap v : ℝ} (hv : v ≠ 0) (h : 1 < cap / v) :
    logisticOf cap (-Real.log (cap / v - 1)) = v := by
  unfold logisticOf
  rw [neg_neg, Real.exp_log (by linarith), add_sub_cancel]
  have hc : cap ≠ 0 := by rintro rfl; simp at h; linarith
  field_simp

theorem one_lt_of_ok {cap v : ℝ} (h1 : ¬ logNaN cap v) (h2 : ¬ logInf cap v) :
    v ≠ 0 ∧ 1 < cap / v := by
  unfold logInf at h2
  push Not at h2
  unfold logNaN at h1
  rw [if_neg h2.1, not_lt] at h1
  exact ⟨h2.1, lt_of_le_of_ne h1 (Ne.symm h2.2)⟩

theorem ok_of_one_lt {cap v : ℝ} (h0 : 0 < v) (h : v < cap) : ¬ logNaN cap v ∧ ¬ logInf cap v := by
  have : 1 < cap / v := by rwa [one_lt_div h0]
  constructor
  · unfold logNaN
    rw [if_neg h0.ne', not_lt]
    exact this.le
  · rintro (h | h)
    · exact h0.ne' h
    · exact this.ne' h

/-- The position `i` of `t` holds the value `s` and only it does, and `s` is the smallest (for
`r = (· ≤ ·)`) or largest. -/
structure ExtremeAt (r : ℝ → ℝ → Prop) (t : List ℝ) (i : Nat) (s : ℝ) : Prop where
  at' : t[i]? = some s
  extreme : ∀ u ∈ t, r s u

theorem foldl_min_spec (l : List ℝ) (b : ℝ) :
    l.foldl min b ∈ b :: l ∧ ∀ s ∈ b :: l, l.foldl min b ≤ s := by
  induction l generalizing b with
  | nil => simp
  | cons x l ih =>
    obtain ⟨h1, h2⟩ := ih (min b x)
    rw [List.foldl_cons]
    constructor
    · rcases List.mem_cons.1 h1 with h1 | h1
      · rw [h1]
        rcases min_choice b x with h | h <;> rw [h] <;> simp
      · simp [h1]
    · intro s hs
      rcases List.mem_cons.1 hs with rfl | hs
      · exact (h2 _ (by simp)).trans (min_le_left s x)
      · rcases List.mem_cons.1 hs with rfl | hs
        · exact (h2 _ (by simp)).trans (min_le_right b s)
        · exact h2 s (by simp [hs])

theorem ExtremeAt.min_eq {a : ℝ} {l : List ℝ} {i : Nat} {s : ℝ}
    (h : ExtremeAt (· ≤ ·) (a :: l) i s) : l.foldl min a = s := by
  obtain ⟨h1, h2⟩ := foldl_min_spec l a
  exact le_antisymm (h2 s (List.mem_of_getElem? h.at')) (h.extreme _ h1)

theorem ExtremeAt.max_eq {a : ℝ} {l : List ℝ} {i : Nat} {s : ℝ}
    (h : ExtremeAt (· ≥ ·) (a :: l) i s) : l.foldl max a = s := by
  obtain ⟨h1, h2⟩ := foldl_max_spec l a
  exact le_antisymm (h.extreme _ h1) (h2 s (List.mem_of_getElem? h.at'))

theorem idxOf_of_nodup {t : List ℝ} (ht : t.Nodup) {i : Nat} {s : ℝ} (h : t[i]? = some s) :
    t.idxOf s = i := by
  obtain ⟨hi, rfl⟩ := List.getElem?_eq_some_iff.1 h
  exact ht.idxOf_getElem i hi

theorem column_getElem? {y : Tensor ℝ} {N T i j : Nat} {a : ℝ} (hs : y.shape = [N, T, 1])
    (hi : i < N) (h : y.get? [i, j, 0] = some a) : (column y j)[i]? = some a := by
  unfold column
  rw [hs]
  simp [List.getElem?_map, List.getElem?_range hi, h]

theorem mem_column {y : Tensor ℝ} {N T j : Nat} {a : ℝ} (hs : y.shape = [N, T, 1]) (hw : y.WF)
    (hj : j < T) : a ∈ column y j ↔ ∃ i < N, y.get? [i, j, 0] = some a := by
  unfold column
  rw [hs]
  simp only [List.headD_cons, List.mem_map, List.mem_range]
  refine exists_congr fun i => and_congr_right fun hi => ?_
  obtain ⟨u, hu⟩ := get?_isSome hw (idx := [i, j, 0])
    (by rw [hs]; exact ⟨hi, hj, Nat.one_pos, trivial⟩)
  rw [hu]
  simp

theorem length_column {y : Tensor ℝ} {N T j : Nat} (hs : y.shape = [N, T, 1]) :
    (column y j).length = N := by simp [column, hs]

/-- The value that the first observation `a` of a series counts as. -/
theorem suggest_interpolates {cap : ℝ} {t : List ℝ} {y : Tensor ℝ} {ks ms : List ℝ} {N T : Nat}
    (h : suggestLogisticAt cap t y = .ok (ks, ms)) (hs : y.shape = [N, T, 1]) (hw : y.WF)
    (ht : t.Nodup) {i0 i1 : Nat} {t0 t1 : ℝ} (h0 : ExtremeAt (· ≤ ·) t i0 t0)
    (h1 : ExtremeAt (· ≥ ·) t i1 t1) :
    ks.length = N ∧ ms.length = N ∧ ∀ i a b k m, i < N → y.get? [i, i0, 0] = some a →
      y.get? [i, i1, 0] = some b → ks[i]? = some k → ms[i]? = some m →
      ((∀ i' < N, y.get? [i', i0, 0] ≠ some 0) → logisticOf cap (k * t0 + m) = a) ∧
      ((∃ i' < N, y.get? [i', i0, 0] = some 0) → logisticOf cap (k * t0 + m) = 1e-8) ∧
      logisticOf cap (k * t1 + m) = b := by
  classical
  cases t with
  | nil => simp [suggestLogisticAt] at h
  | cons x l =>
    unfold suggestLogisticAt at h
    simp only [h0.min_eq, h1.max_eq] at h
    rw [idxOf_of_nodup ht h0.at', idxOf_of_nodup ht h1.at'] at h
    split at h
    · cases h
    rename_i hidx
    have hT : y.shape.getD 1 0 = T := by rw [hs]; rfl
    rw [hT] at hidx
    push Not at hidx
    split at h
    · cases h
    rename_i hnan
    split at h
    · cases h
    rename_i hinf
    push Not at hnan hinf
    obtain ⟨h01, hinf⟩ := hinf
    simp only [Except.ok.injEq, Prod.mk.injEq] at h
    obtain ⟨hk, hm⟩ := h
    have hgood : ∀ v ∈ (avoidZero (column y i0)) ++ column y i1, logisticOf cap (-Real.log (cap / v - 1)) = v := by
      intro v hv
      obtain ⟨g1, g2⟩ := one_lt_of_ok (hnan v hv) (hinf v hv)
      exact logisticOf_log g1 g2
    have hl0 : (avoidZero (column y i0)).length = N := by
      unfold avoidZero
      split <;> simp [length_column hs]
    have hkl : ks.length = N := by rw [← hk]; simp [hl0, length_column hs]
    have hml : ms.length = N := by rw [← hm, List.length_zipWith, hk, hkl, length_column hs, min_self]
    refine ⟨hkl, hml, ?_⟩
    intro i a b k m hi ha hb hki hmi
    have hca := column_getElem? hs hi ha
    have hcb := column_getElem? hs hi hb
    have key : ∀ a', (avoidZero (column y i0))[i]? = some a' → logisticOf cap (k * t0 + m) = a' ∧
          logisticOf cap (k * t1 + m) = b := by
      intro a' ha'
      have e1 : k = (Real.log (cap / b - 1) - Real.log (cap / a' - 1)) / (t0 - t1) := by
        rw [← hk, List.getElem?_zipWith, ha', hcb] at hki
        exact (Option.some.inj hki).symm
      have e2 : m = -(Real.log (cap / b - 1) + k * t1) := by
        rw [← hm, hk, List.getElem?_zipWith, hki, hcb] at hmi
        exact (Option.some.inj hmi).symm
      have e3 : k * (t0 - t1) = Real.log (cap / b - 1) - Real.log (cap / a' - 1) := by
        rw [e1, div_mul_cancel₀ _ (sub_ne_zero.2 h01)]
      have e4 : k * t0 + m = -Real.log (cap / a' - 1) := by rw [e2]; linarith
      have e5 : k * t1 + m = -Real.log (cap / b - 1) := by rw [e2]; ring
      rw [e4, e5]
      exact ⟨hgood a' (List.mem_append_left _ (List.mem_of_getElem? ha')),
        hgood b (List.mem_append_right _ (List.mem_of_getElem? hcb))⟩
    refine ⟨fun hz => ?_, fun hz => ?_, ?_⟩
    · refine (key a ?_).1
      rw [avoidZero, if_neg, hca]
      rw [mem_column hs hw hidx.1]
      push Not
      exact hz
    · refine (key 1e-8 ?_).1
      rw [avoidZero, if_pos ((mem_column hs hw hidx.1).2 hz), List.getElem?_map, hca]
      rfl
    · by_cases hz : 0 ∈ column y i0
      · refine (key 1e-8 ?_).2
        rw [avoidZero, if_pos hz, List.getElem?_map, hca]
        rfl
      · refine (key a ?_).2
        rw [avoidZero, if_neg hz, hca]

theorem suggest_ok {cap : ℝ} {t : List ℝ} {y : Tensor ℝ} {N T : Nat} (hs : y.shape = [N, T, 1])
    (hw : y.WF) (htT : t.length = T) (ht : t.Nodup) {i0 i1 : Nat} {t0 t1 : ℝ}
    (h0 : ExtremeAt (· ≤ ·) t i0 t0) (h1 : ExtremeAt (· ≥ ·) t i1 t1) (h01 : t0 ≠ t1)
    (h8 : 1e-8 < cap)
    (hy0 : ∀ i < N, ∀ a, y.get? [i, i0, 0] = some a → 0 ≤ a ∧ a < cap)
    (hy1 : ∀ i < N, ∀ b, y.get? [i, i1, 0] = some b → 0 < b ∧ b < cap) :
    ∃ ks ms, suggestLogisticAt cap t y = .ok (ks, ms) := by
  classical
  cases t with
  | nil => exact absurd h0.at' (by simp)
  | cons x l =>
    unfold suggestLogisticAt
    simp only [h0.min_eq, h1.max_eq]
    rw [idxOf_of_nodup ht h0.at', idxOf_of_nodup ht h1.at']
    obtain ⟨hi0, -⟩ := List.getElem?_eq_some_iff.1 h0.at'
    obtain ⟨hi1, -⟩ := List.getElem?_eq_some_iff.1 h1.at'
    have hT : y.shape.getD 1 0 = T := by rw [hs]; rfl
    rw [if_neg (by rw [hT]; omega)]
    have good : ∀ v ∈ (avoidZero (column y i0)) ++ column y i1, ¬ logNaN cap v ∧ ¬ logInf cap v := by
      intro v hv
      rcases List.mem_append.1 hv with hv | hv
      · unfold avoidZero at hv
        split at hv
        · obtain ⟨_, -, rfl⟩ := List.mem_map.1 hv
          exact ok_of_one_lt (by norm_num) h8
        · rename_i hz
          obtain ⟨i, hi, hv'⟩ := (mem_column hs hw (by omega)).1 hv
          obtain ⟨g1, g2⟩ := hy0 i hi v hv'
          refine ok_of_one_lt (lt_of_le_of_ne g1 ?_) g2
          rintro rfl
          exact hz hv
      · obtain ⟨i, hi, hv'⟩ := (mem_column hs hw (by omega)).1 hv
        obtain ⟨g1, g2⟩ := hy1 i hi v hv'
        exact ok_of_one_lt g1 g2
    rw [if_neg (by push Not; exact fun v hv => (good v hv).1),
      if_neg (by push Not; exact ⟨h01, fun v hv => (good v hv).2⟩)]
    exact ⟨_, _, rfl⟩

/-- **C41** if no series starts at 0: if the first and last observation of every series are in
`(0, capacity)`, rates and offsets are suggested, one per series, and the logistic curve with them
has the first and last observation of every series.
Missing: series next to a series that starts at 0 (`C41_zero_start_refuted`). -/
theorem C41_interpolates_partial {cap : ℝ} {t : List ℝ} {y : Tensor ℝ} {N T : Nat}
    (hs : y.shape = [N, T, 1]) (hw : y.WF) (htT : t.length = T) (ht : t.Nodup) {i0 i1 : Nat}
    {t0 t1 : ℝ} (h0 : ExtremeAt (· ≤ ·) t i0 t0) (h1 : ExtremeAt (· ≥ ·) t i1 t1) (h01 : t0 ≠ t1)
    (hN : 0 < N)
    (hy0 : ∀ i < N, ∀ a, y.get? [i, i0, 0] = some a → 0 < a ∧ a < cap)
    (hy1 : ∀ i < N, ∀ b, y.get? [i, i1, 0] = some b → 0 < b ∧ b < cap) :
    ∃ ks ms, suggestLogisticAt cap t y = .ok (ks, ms) ∧ ks.length = N ∧ ms.length = N ∧
      ∀ i a b k m, i < N → y.get? [i, i0, 0] = some a → y.get? [i, i1, 0] = some b →
        ks[i]? = some k → ms[i]? = some m →
        cap / (1 + Real.exp (-(k * t0 + m))) = a ∧ cap / (1 + Real.exp (-(k * t1 + m))) = b := by
  classical
  have : ∃ ks ms, suggestLogisticAt cap t y = .ok (ks, ms) := by
    cases t with
    | nil => exact absurd h0.at' (by simp)
    | cons x l =>
      unfold suggestLogisticAt
      simp only [h0.min_eq, h1.max_eq]
      rw [idxOf_of_nodup ht h0.at', idxOf_of_nodup ht h1.at']
      obtain ⟨hi0, -⟩ := List.getElem?_eq_some_iff.1 h0.at'
      obtain ⟨hi1, -⟩ := List.getElem?_eq_some_iff.1 h1.at'
      have hT : y.shape.getD 1 0 = T := by rw [hs]; rfl
      rw [if_neg (by rw [hT]; omega)]
      have hz : ¬ (0 : ℝ) ∈ column y i0 := by
        intro hz
        obtain ⟨i, hi, hv⟩ := (mem_column hs hw (by omega)).1 hz
        exact (hy0 i hi 0 hv).1.false
      rw [avoidZero, if_neg hz]
      have good : ∀ v ∈ column y i0 ++ column y i1, ¬ logNaN cap v ∧ ¬ logInf cap v := by
        intro v hv
        rcases List.mem_append.1 hv with hv | hv
        · obtain ⟨i, hi, hv'⟩ := (mem_column hs hw (by omega)).1 hv
          exact ok_of_one_lt (hy0 i hi v hv').1 (hy0 i hi v hv').2
        · obtain ⟨i, hi, hv'⟩ := (mem_column hs hw (by omega)).1 hv
          exact ok_of_one_lt (hy1 i hi v hv').1 (hy1 i hi v hv').2
      rw [if_neg (by push Not; exact fun v hv => (good v hv).1),
        if_neg (by push Not; exact ⟨h01, fun v hv => (good v hv).2⟩)]
      exact ⟨_, _, rfl⟩
  obtain ⟨ks, ms, hok⟩ := this
  obtain ⟨hk, hm, hall⟩ := suggest_interpolates hok hs hw ht h0 h1
  refine ⟨ks, ms, hok, hk, hm, fun i a b k m hi ha hb hki hmi => ?_⟩
  obtain ⟨g1, -, g3⟩ := hall i a b k m hi ha hb hki hmi
  exact ⟨g1 fun i' hi' h => (hy0 i' hi' 0 h).1.false, g3⟩

/-- **C41** for series with 0 start: the curve of every series has the last observation, but starts
at `1e-8`. -/
theorem C41_zero_start {cap : ℝ} {t : List ℝ} {y : Tensor ℝ} {N T : Nat}
    (hs : y.shape = [N, T, 1]) (hw : y.WF) (htT : t.length = T) (ht : t.Nodup) {i0 i1 : Nat}
    {t0 t1 : ℝ} (h0 : ExtremeAt (· ≤ ·) t i0 t0) (h1 : ExtremeAt (· ≥ ·) t i1 t1) (h01 : t0 ≠ t1)
    (h8 : 1e-8 < cap)
    (hy0 : ∀ i < N, ∀ a, y.get? [i, i0, 0] = some a → 0 ≤ a ∧ a < cap)
    (hy1 : ∀ i < N, ∀ b, y.get? [i, i1, 0] = some b → 0 < b ∧ b < cap)
    (hz : ∃ i < N, y.get? [i, i0, 0] = some 0) :
    ∃ ks ms, suggestLogisticAt cap t y = .ok (ks, ms) ∧ ks.length = N ∧ ms.length = N ∧
      ∀ i b k m, i < N → y.get? [i, i1, 0] = some b → ks[i]? = some k → ms[i]? = some m →
        cap / (1 + Real.exp (-(k * t0 + m))) = 1e-8 ∧ cap / (1 + Real.exp (-(k * t1 + m))) = b := by
  obtain ⟨ks, ms, hok⟩ := suggest_ok hs hw htT ht h0 h1 h01 h8 hy0 hy1
  obtain ⟨hk, hm, hall⟩ := suggest_interpolates hok hs hw ht h0 h1
  refine ⟨ks, ms, hok, hk, hm, fun i b k m hi hb hki hmi => ?_⟩
  obtain ⟨hi0, -⟩ := List.getElem?_eq_some_iff.1 h0.at'
  obtain ⟨a, ha⟩ := get?_isSome hw (idx := [i, i0, 0])
    (by rw [hs]; exact ⟨hi, by omega, Nat.one_pos, trivial⟩)
  obtain ⟨-, g2, g3⟩ := hall i a b k m hi ha hb hki hmi
  exact ⟨g2 hz, g3⟩

/-- Two series over the times 0 and 1: from 0 to 1 and from 5 to 9. -/
def exY41 : Tensor ℝ := ⟨[2, 2, 1], [0, 1, 5, 9]⟩

theorem exT41 : ExtremeAt (· ≤ ·) [0, 1] 0 0 ∧ ExtremeAt (· ≥ ·) [0, 1] 1 1 :=
  ⟨⟨rfl, by simp⟩, ⟨rfl, by simp⟩⟩

/-- **C41** is false as stated: the second of two series goes from 5 to 9 with capacity 10, but as the
other series starts at 0 its suggested curve does not start at 5. -/
theorem C41_zero_start_refuted :
    ∃ ks ms k m, suggestLogisticAt 10 [0, 1] exY41 = .ok (ks, ms) ∧ ks[1]? = some k ∧
      ms[1]? = some m ∧ exY41.get? [1, 0, 0] = some 5 ∧
      10 / (1 + Real.exp (-(k * 0 + m))) ≠ 5 := by
  have g0 : ∀ i < 2, ∀ a, exY41.get? [i, 0, 0] = some a → 0 ≤ a ∧ a < 10 := by
    intro i hi a ha
    interval_cases i <;> simp [exY41, get?, ravel, size] at ha <;> subst ha <;> norm_num
  have g1 : ∀ i < 2, ∀ a, exY41.get? [i, 1, 0] = some a → 0 < a ∧ a < 10 := by
    intro i hi a ha
    interval_cases i <;> simp [exY41, get?, ravel, size] at ha <;> subst ha <;> norm_num
  obtain ⟨ks, ms, hok, hk, hm, hall⟩ := C41_zero_start (cap := 10) (t := [0, 1]) (y := exY41) (N := 2)
    (T := 2) rfl rfl rfl (by simp) exT41.1 exT41.2 (by norm_num) (by norm_num) g0 g1
    ⟨0, by norm_num, rfl⟩
  refine ⟨ks, ms, ks[1], ms[1], hok, List.getElem?_eq_getElem _, List.getElem?_eq_getElem _, rfl, ?_⟩
  rw [(hall 1 9 _ _ (by norm_num) rfl (List.getElem?_eq_getElem (by omega))
    (List.getElem?_eq_getElem (by omega))).1]
  norm_num

/-- **C41** with the default capacity: for positive targets the capacity chosen (1.05 times the largest
target) is above every target, so the suggestion never fails. -/
theorem C41_default_capacity {t : List ℝ} {y : Tensor ℝ} {N T : Nat}
    (hs : y.shape = [N, T, 1]) (hw : y.WF) (htT : t.length = T) (ht : t.Nodup) {i0 i1 : Nat}
    {t0 t1 : ℝ} (h0 : ExtremeAt (· ≤ ·) t i0 t0) (h1 : ExtremeAt (· ≥ ·) t i1 t1) (h01 : t0 ≠ t1)
    (hN : 0 < N) (hpos : ∀ a ∈ y.data, 0 < a) :
    ∃ cap ks ms, suggestLogistic none t y = .ok (ks, ms) ∧ (∀ a ∈ y.data, a < cap) ∧
      ∀ i a b k m, i < N → y.get? [i, i0, 0] = some a → y.get? [i, i1, 0] = some b →
        ks[i]? = some k → ms[i]? = some m →
        cap / (1 + Real.exp (-(k * t0 + m))) = a ∧ cap / (1 + Real.exp (-(k * t1 + m))) = b := by
  obtain ⟨hi0, -⟩ := List.getElem?_eq_some_iff.1 h0.at'
  cases hd : y.data with
  | nil =>
    exfalso
    have hw' : y.data.length = size y.shape := hw
    rw [hd, hs] at hw'
    simp only [size, List.length_nil, Nat.mul_one] at hw'
    rcases Nat.mul_eq_zero.1 hw'.symm with h | h <;> omega
  | cons x l =>
    obtain ⟨g1, g2⟩ := foldl_max_spec l x
    have hlt : ∀ a ∈ y.data, 0 < a ∧ a < l.foldl max x * 1.05 := by
      intro a ha
      have hp := hpos a ha
      have := g2 a (by rwa [← hd])
      exact ⟨hp, by linarith⟩
    obtain ⟨ks, ms, hok, -, -, hall⟩ := C41_interpolates_partial (cap := l.foldl max x * 1.05) hs hw htT
      ht h0 h1 h01 hN (fun i _ a ha => hlt a (List.mem_of_getElem? ha))
      (fun i _ a ha => hlt a (List.mem_of_getElem? ha))
    refine ⟨l.foldl max x * 1.05, ks, ms, ?_, fun a ha => (hlt a (by rwa [hd])).2, hall⟩
    unfold suggestLogistic suggestedCapacity
    rw [hd]
    exact hok

/-- **C41**, failure: a target at or above the capacity, or a negative one, at the first or last time
of some series never gives a suggestion silently. -/
theorem C41_failure {cap : ℝ} {t : List ℝ} {y : Tensor ℝ} {N T : Nat}
    (hs : y.shape = [N, T, 1]) (hw : y.WF) (ht : t.Nodup) {i0 i1 : Nat} {t0 t1 : ℝ}
    (h0 : ExtremeAt (· ≤ ·) t i0 t0) (h1 : ExtremeAt (· ≥ ·) t i1 t1) (hcap : 0 < cap)
    {i : Nat} {b : ℝ} (hi : i < N) (hb : y.get? [i, i1, 0] = some b) (hbad : b ≤ 0 ∨ cap ≤ b)
    (ks ms : List ℝ) : suggestLogisticAt cap t y ≠ .ok (ks, ms) := by
  intro h
  obtain ⟨hk, hm, hall⟩ := suggest_interpolates h hs hw ht h0 h1
  have hi1 : i0 < T := by
    by_contra hc
    cases t with
    | nil => simp [suggestLogisticAt] at h
    | cons x l =>
      unfold suggestLogisticAt at h
      simp only [h0.min_eq, h1.max_eq] at h
      rw [idxOf_of_nodup ht h0.at', idxOf_of_nodup ht h1.at', if_pos] at h
      · cases h
      · left; rw [hs]; exact not_lt.1 hc
  obtain ⟨a, ha⟩ := get?_isSome hw (idx := [i, i0, 0])
    (by rw [hs]; exact ⟨hi, hi1, Nat.one_pos, trivial⟩)
  obtain ⟨-, -, g⟩ := hall i a b _ _ hi ha hb (List.getElem?_eq_getElem (by omega))
    (List.getElem?_eq_getElem (by omega))
  have p1 := logisticOf_pos (x := ks[i] * t1 + ms[i]) hcap
  have p2 := logisticOf_lt (x := ks[i] * t1 + ms[i]) hcap
  rw [g] at p1 p2
  rcases hbad with h | h <;> linarith

/-! ## Non-vacuity -/

/-- Sites of a logistic trend for two series. -/
def exSites40 : SiteEnv ℝ := fun s =>
  if s = "offset" then ⟨[2], [10, 20]⟩ else if s = "changepoint_coefficients" then ⟨[3], [1, 2, 5]⟩
  else ⟨[2, 1, 1], [3, 4]⟩

example : ∃ m x, changepointMatrix true [[0, 2], [(0 : ℝ)]] [0, 1, 2, 3] = .ok m ∧
    piecewisePredict true 2 exSites40 m [] = .ok x ∧ x.shape = [2, 4, 1] ∧ x.WF ∧
    exSites40 "capacity" = ⟨[2, 1, 1], [3, 4]⟩ := by
  have hm : ∃ m, changepointMatrix true [[0, 2], [(0 : ℝ)]] [0, 1, 2, 3] = .ok m := by
    unfold changepointMatrix changepointTensor
    simp [bind, Except.bind, pure, Except.pure]
  obtain ⟨m, hm⟩ := hm
  obtain ⟨x, h1, h2, h3, -⟩ := piecewisePredict_panel (n := 2) (θ := exSites40)
    (βs := [[1, 2], [5]]) (p := []) (offs := [10, 20]) hm (Or.inl (by simp)) (Or.inl (by simp))
    (by simp) (by simp [exSites40]) (by simp [exSites40]) rfl
  exact ⟨m, x, hm, h1, h2, h3, by simp [exSites40]⟩

example : ∃ ks ms, suggestLogisticAt 10 [0, 1] ⟨[1, 2, 1], [5, 9]⟩ = .ok (ks, ms) := by
  obtain ⟨ks, ms, h, -⟩ := C41_interpolates_partial (cap := 10) (t := [0, 1])
    (y := ⟨[1, 2, 1], [5, 9]⟩) (N := 1) (T := 2) rfl rfl rfl (by simp) exT41.1 exT41.2 (by norm_num)
    (by norm_num)
    (by intro i hi a ha
        interval_cases i
        simp [get?, ravel, size] at ha
        subst ha; norm_num)
    (by intro i hi a ha
        interval_cases i
        simp [get?, ravel, size] at ha
        subst ha; norm_num)
  exact ⟨ks, ms, h⟩

end PV
