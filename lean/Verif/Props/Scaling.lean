import Verif.Lemmas.ScalingInferred
import Mathlib.Algebra.Order.Ring.Rat
import Mathlib.Tactic.NormNum
import Mathlib.Tactic.FieldSimp

/-!
# C01-C05: scaling of the target
-/

set_option linter.unusedSectionVars false

namespace PV
variable {K τ : Type} [Field K] [LinearOrder K] [IsStrictOrderedRing K]

/-- A small panel used in the examples: series `a` = 2, -4 and series `b` = 0, 0. -/
def exPanel : Frame String ℕ ℚ :=
  { nlevels := 2, cols := ["y"],
    rows := [⟨["a"], 0, fun _ => 2⟩, ⟨["a"], 1, fun _ => -4⟩,
             ⟨["b"], 0, fun _ => 0⟩, ⟨["b"], 1, fun _ => 0⟩] }

/-- A single series 3, -6. -/
def exFlat : Frame String ℕ ℚ :=
  { nlevels := 1, cols := ["y"],
    rows := [⟨[], 0, fun _ => 3⟩, ⟨[], 1, fun _ => -6⟩] }

/-- A single identically zero series. -/
def exZero : Frame String ℕ ℚ :=
  { nlevels := 1, cols := ["y"], rows := [⟨[], 0, fun _ => 0⟩, ⟨[], 1, fun _ => 0⟩] }


/-! ## C01 -/

/-- **C01** (round trip).  Whatever scale is given or inferred: if the target is accepted,
undoing the scaling of the scaled target gives back the target exactly. -/
theorem C01_scale_roundtrip {user : Option (Scale K)} {y ys : Frame String τ K} {s : Scale K}
    (hs : setYScales user y = .ok s) (h : scaleY false s y = .ok ys) :
    invScaleY false s ys = .ok y := by
  simp only [scaleY, Bool.false_eq_true, if_false] at h
  cases hr : rowScales s y with
  | error e => rw [hr] at h; cases h
  | ok ss =>
    rw [hr] at h
    have hys : applyScales (fun v k => v / k) y ss = ys := by
      simpa [bind, Except.bind, pure, Except.pure] using h
    have hne := rowScales_ne_zero hs hr
    obtain ⟨σ, rfl, hσ⟩ := rowScales_fun hr
    rw [applyScales_map] at hys
    subst hys
    have h2 := hσ (y.mapVals fun s v => v / σ s) rfl (by
      intro r hr
      simp only [Frame.mapVals, List.mem_map] at hr
      obtain ⟨r', hr', rfl⟩ := hr
      exact ⟨r', hr', rfl⟩)
    simp only [invScaleY, Bool.false_eq_true, if_false, h2]
    simp only [bind, Except.bind, pure, Except.pure, Except.ok.injEq]
    rw [applyScales_map]
    obtain ⟨nl, cs, rows⟩ := y
    simp only [Frame.mapVals, List.map_map, Frame.mk.injEq, true_and]
    conv_rhs => rw [← List.map_id rows]
    apply List.map_congr_left
    intro r hr'
    have : σ r.sid ≠ 0 := hne _ (List.mem_map.2 ⟨r, hr', rfl⟩)
    obtain ⟨sid, t, v⟩ := r
    simp only [Function.comp, id]
    congr 1
    funext c
    exact div_mul_cancel₀ _ this

/-- **C01** (own scale).  With an inferred scale, the `i`-th value handed to the model is
the `i`-th value of the target divided by the scale of *its own* series. -/
theorem C01_own_series_scale {y ys : Frame String τ K} {c : String} (hw : y.WF)
    (hc : y.cols = [c]) {s : Scale K} (hs : setYScales none y = .ok s)
    (h : scaleY false s y = .ok ys) :
    ys.index = y.index ∧ ys.cols = y.cols ∧
    ∀ (i : Nat) (r : Row String τ K), y.rows[i]? = some r →
      ∃ (σ : K) (r' : Row String τ K), IsSeriesScale y c r.sid σ ∧ ys.rows[i]? = some r' ∧ r'.val c = r.val c / σ := by
  simp only [scaleY, Bool.false_eq_true, if_false] at h
  cases hr : rowScales s y with
  | error e => rw [hr] at h; cases h
  | ok ss =>
    rw [hr] at h
    have hys : applyScales (fun v k => v / k) y ss = ys := by
      simpa [bind, Except.bind, pure, Except.pure] using h
    have hspec := inferred_scale_rows hw hc hs hr
    obtain ⟨σ, rfl, -⟩ := rowScales_fun hr
    rw [applyScales_map] at hys
    subst hys
    refine ⟨by simp [Frame.index, Frame.mapVals, Function.comp_def], rfl, ?_⟩
    intro i r hi
    rw [List.forall₂_map_right_iff, List.forall₂_same] at hspec
    refine ⟨σ r.sid, ⟨r.sid, r.time, fun c => r.val c / σ r.sid⟩,
      hspec r (List.mem_of_getElem? hi), ?_, rfl⟩
    simp only [Frame.mapVals, List.getElem?_map, hi, Option.map_some]

/-- **C01** (user-given scale).  A user-given non-zero float divides every value; a
user-given table divides by the entry of the row's own series. -/
theorem C01_user_scale (y : Frame String τ K) (x : K) (hx : x ≠ 0) :
    setYScales (some (.float x)) y = .ok (.float x) ∧
    scaleY false (.float x) y = .ok (y.mapVals fun _ v => v / x) := by
  refine ⟨by simp [setYScales, rawScale, zeroToOne, hx], ?_⟩
  simp only [scaleY, Bool.false_eq_true, if_false, rowScales, bind, Except.bind, pure, Except.pure]
  rw [applyScales_map (fun v k => v / k) y (fun _ => x)]

example : exPanel.WF ∧ exPanel.cols = ["y"] ∧
    setYScales none exPanel = .ok (.table [(["a"], 4), (["b"], 1)]) ∧
    (scaleY false (.table [(["a"], 4), (["b"], 1)]) exPanel).toOption.map Frame.values
      = some [[1/2], [-1], [0], [0]] := by
  refine ⟨?_, rfl, by decide +kernel, by decide +kernel⟩
  intro r hr
  simp [exPanel] at hr
  rcases hr with rfl | rfl | rfl | rfl <;> rfl

/-! ## C02 -/

/-- The target is accepted by the scaling step of `fit` with a continuous likelihood. -/
def ScalingAccepts (user : Option (Scale K)) (y : Frame String τ K) : Prop :=
  ∃ s ys, setYScales user y = .ok s ∧ scaleY false s y = .ok ys

/-- **C02 refuted** (zero series).  The code rejects an identically zero single series: the
replacement scale is the *int* 1, which has no `.loc`. -/
theorem C02_zero_series_refuted :
    setYScales none exZero = .ok (.int 1) ∧
    (∀ (s : Scale ℚ), setYScales none exZero = .ok s →
      (scaleY false s exZero).toOption.isNone = true) ∧
    ¬ ScalingAccepts none exZero := by
  have h1 : setYScales none exZero = .ok (.int 1) := by decide +kernel
  refine ⟨h1, ?_, ?_⟩
  · intro s hs
    rw [h1] at hs
    cases hs
    rfl
  · rintro ⟨s, ys, hs, h⟩
    rw [h1] at hs
    cases hs
    cases h

/-- **C02 refuted** (int scale).  A user-given `int` scale is rejected for *every* target,
whatever its value; the same number as a float is accepted. -/
theorem C02_int_scale_refuted (y : Frame String τ K) (n : Int) :
    ¬ ScalingAccepts (some (.int n)) y ∧
    ∀ s, setYScales (some (.int n)) y = .ok s → scaleY false s y = .error .attributeError := by
  have key : ∀ s, setYScales (some (.int n)) y = .ok s →
      scaleY false s y = .error .attributeError := by
    intro s hs
    simp only [setYScales, rawScale, Except.ok.injEq, zeroToOne] at hs
    split at hs <;> subst hs <;> rfl
  refine ⟨?_, key⟩
  rintro ⟨s, ys, hs, h⟩
  rw [key s hs] at h
  cases h

/-- **C02** (what is true).  With an inferred scale a non-empty target is accepted exactly
when it is a panel or has a non-zero value; a user-given float is accepted exactly when it
is not zero. -/
theorem C02_accepts_partial {y : Frame String τ K} {c : String} (hc : y.cols = [c])
    (hne : y.rows ≠ []) :
    (ScalingAccepts none y ↔ y.nlevels ≠ 1 ∨ ∃ r ∈ y.rows, r.val c ≠ 0) ∧
    (∀ x : K, ScalingAccepts (some (.float x)) y ↔ x ≠ 0) := by
  have hcol : y.cols.headD "" = c := by rw [hc]; rfl
  refine ⟨?_, ?_⟩
  · by_cases h1 : y.nlevels = 1
    · simp only [h1, ne_eq, not_true, false_or]
      obtain ⟨m, hm⟩ := maxAbs?_isSome (xs := targetVals y y.rows)
        (by simpa [targetVals] using hne)
      have hset : setYScales none y = .ok (zeroToOne (.float m)) := by
        simp [setYScales, rawScale, h1, hm]
      obtain ⟨hb, ha⟩ := maxAbs?_spec hm
      rw [targetVals, hcol] at hb ha
      constructor
      · rintro ⟨s, ys, hs, h⟩
        rw [hset] at hs
        by_contra hcon
        push Not at hcon
        obtain ⟨v, hv, hv'⟩ := ha
        obtain ⟨r, hr, rfl⟩ := List.mem_map.1 hv
        rw [hcon r hr, abs_zero] at hv'
        cases hs
        simp [zeroToOne, ← hv', scaleY, rowScales, throw, throwThe, MonadExceptOf.throw,
          bind, Except.bind] at h
      · rintro ⟨r, hr, h⟩
        have hm0 : m ≠ 0 := by
          have := hb _ (List.mem_map.2 ⟨r, hr, rfl⟩)
          have h2 : 0 < |r.val c| := abs_pos.2 h
          exact (lt_of_lt_of_le h2 this).ne'
        refine ⟨.float m, _, by simp [hset, zeroToOne, hm0], rfl⟩
    · simp only [ne_eq, h1, not_false_eq_true, true_or, iff_true]
      have hset : setYScales none y = .ok (zeroToOne (.table (groupMaxAbs y))) := by
        simp [setYScales, rawScale, h1]
      have hl : ∀ r ∈ y.rows, ∃ v, lookupScale ((groupMaxAbs y).map
          fun p => (p.1, if p.2 = 0 then (1:K) else p.2)) r.sid = .ok v := by
        intro r hr
        obtain ⟨m, hm, hf⟩ := lookup_groupMaxAbs (y := y) (s := r.sid) (List.mem_map_of_mem hr)
        refine ⟨if m = 0 then 1 else m, ?_⟩
        unfold lookupScale
        rw [List.find?_map]
        simp only [Function.comp_def]
        rw [hf]; rfl
      refine ⟨_, applyScales (fun v k => v / k) y (y.rows.map fun r => match lookupScale
        ((groupMaxAbs y).map fun p => (p.1, if p.2 = 0 then (1:K) else p.2)) r.sid with
        | .ok v => v | .error _ => 0), hset, ?_⟩
      simp only [scaleY, Bool.false_eq_true, if_false, zeroToOne, rowScales, h1]
      rw [mapM_ok_of_forall (g := fun r => match lookupScale
        ((groupMaxAbs y).map fun p => (p.1, if p.2 = 0 then (1:K) else p.2)) r.sid with
        | .ok v => v | .error _ => 0)]
      · rfl
      · intro r hr
        obtain ⟨v, hv⟩ := hl r hr
        simp only [hv]
  · intro x
    constructor
    · rintro ⟨s, ys, hs, h⟩ rfl
      simp only [setYScales, rawScale, zeroToOne, if_true, Except.ok.injEq] at hs
      subst hs
      cases h
    · intro hx
      exact ⟨_, _, (C01_user_scale y x hx).1, (C01_user_scale y x hx).2⟩

example : ScalingAccepts none exPanel ∧ ScalingAccepts none exFlat := by
  constructor
  · exact ((C02_accepts_partial (y := exPanel) (c := "y") rfl (by simp [exPanel])).1).2
      (Or.inl (by decide))
  · exact ((C02_accepts_partial (y := exFlat) (c := "y") rfl (by simp [exFlat])).1).2
      (Or.inr ⟨_, by simp [exFlat]; left; rfl, by norm_num⟩)

/-! ## C03 -/

/-- **C03**.  With an inferred scale every scaled value is in [-1, 1]; every series with a
non-zero value attains absolute value 1; an identically zero series stays zero. -/
theorem C03_inferred_scale_normalises {y ys : Frame String τ K} {c : String} (hw : y.WF)
    (hc : y.cols = [c]) {s : Scale K} (hs : setYScales none y = .ok s)
    (h : scaleY false s y = .ok ys) :
    (∀ r ∈ ys.rows, -1 ≤ r.val c ∧ r.val c ≤ 1) ∧
    (∀ r ∈ y.rows, r.val c ≠ 0 → ∃ r' ∈ ys.rows, r'.sid = r.sid ∧ |r'.val c| = 1) ∧
    (∀ sid, (∀ r ∈ y.rows, r.sid = sid → r.val c = 0) →
      ∀ r ∈ ys.rows, r.sid = sid → r.val c = 0) := by
  obtain ⟨hidx, -, hrow⟩ := C01_own_series_scale hw hc hs h
  have hlen : ys.rows.length = y.rows.length := by
    have := congrArg List.length hidx
    simpa [Frame.index] using this
  -- rows of `ys` come from rows of `y`
  have back : ∀ r' ∈ ys.rows, ∃ r ∈ y.rows, ∃ σ, IsSeriesScale y c r.sid σ ∧
      r'.sid = r.sid ∧ r'.val c = r.val c / σ := by
    intro r' hr'
    obtain ⟨i, hi, rfl⟩ := List.getElem_of_mem hr'
    have hiy : i < y.rows.length := by omega
    obtain ⟨σ, r'', hσ, h1, h2⟩ := hrow i y.rows[i] (List.getElem?_eq_getElem hiy)
    rw [List.getElem?_eq_getElem hi] at h1
    cases h1
    refine ⟨y.rows[i], List.getElem_mem _, σ, hσ, ?_, h2⟩
    have := congrArg (fun l => l[i]?) hidx
    simp only [Frame.index, List.getElem?_map, List.getElem?_eq_getElem hi,
      List.getElem?_eq_getElem hiy, Option.map_some, Option.some.injEq, Prod.mk.injEq] at this
    exact this.1
  have bound : ∀ (r : Row String τ K) (σ : K), r ∈ y.rows → IsSeriesScale y c r.sid σ →
      |r.val c / σ| ≤ 1 := by
    rintro r σ hr ⟨m, ⟨hb, r0, -, -, ha⟩, rfl⟩
    have h1 := hb r hr rfl
    have hm0 : 0 ≤ m := ha ▸ abs_nonneg _
    by_cases hm : m = 0
    · rw [hm] at h1
      have : r.val c = 0 := abs_eq_zero.1 (le_antisymm h1 (abs_nonneg _))
      simp [this]
    · have hpos : 0 < m := lt_of_le_of_ne hm0 (Ne.symm hm)
      rw [if_neg hm, abs_div, abs_of_pos hpos]
      exact (div_le_one hpos).2 h1
  refine ⟨?_, ?_, ?_⟩
  · intro r' hr'
    obtain ⟨r, hr, σ, hσ, -, hv⟩ := back r' hr'
    rw [hv]
    exact abs_le.1 (bound r σ hr hσ)
  · intro r hr hne
    obtain ⟨i, hi, rfl⟩ := List.getElem_of_mem hr
    obtain ⟨σ, -, ⟨m, ⟨hb, r0, hr0, hs0, ha⟩, rfl⟩, -, -⟩ :=
      hrow i y.rows[i] (List.getElem?_eq_getElem hi)
    have hmpos : 0 < m := lt_of_lt_of_le (abs_pos.2 hne) (hb _ hr rfl)
    obtain ⟨j, hj, rfl⟩ := List.getElem_of_mem hr0
    obtain ⟨σ', r', ⟨m', ⟨hb', r1, hr1, hs1, ha'⟩, rfl⟩, h1, h2⟩ :=
      hrow j y.rows[j] (List.getElem?_eq_getElem hj)
    have hmm : m' = m := by
      apply le_antisymm
      · rw [← ha']; exact hb _ hr1 (hs1.trans hs0)
      · rw [← ha]; exact hb' _ hr0 rfl
    refine ⟨r', List.mem_of_getElem? h1, ?_, ?_⟩
    · have := congrArg (fun l => l[j]?) hidx
      simp only [Frame.index, List.getElem?_map, h1,
        List.getElem?_eq_getElem hj, Option.map_some, Option.some.injEq, Prod.mk.injEq] at this
      rw [this.1, hs0]
    · rw [h2, hmm, if_neg hmpos.ne', abs_div, ha, abs_of_pos hmpos, div_self hmpos.ne']
  · intro sid hz r' hr' hs'
    obtain ⟨r, hr, σ, -, hsid, hv⟩ := back r' hr'
    rw [hv, hz r hr (hsid ▸ hs'), zero_div]

example : (scaleY false (.float 6) exFlat).toOption.map Frame.values = some [[1/2], [-1]] ∧
    setYScales none exFlat = .ok (.float 6) := by
  constructor <;> decide +kernel

end PV
