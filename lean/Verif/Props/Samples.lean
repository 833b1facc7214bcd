import Mathlib.Algebra.Order.Ring.Rat
import Verif.Lemmas.PredictFrames

/-!
# C06, C07, C09: forecast samples, point forecasts and their index

The draws of the observation site have shape `(S, T, 1)` (univariate models, single-series
hierarchical model: `k = 0`, one series) or `(S, 1, T, N)` (multivariate model: `k = 1`);
the theorems hold for any number `k` of singleton axes.
-/

set_option linter.unusedSectionVars false

namespace PV
open Tensor

section
variable {K τ : Type} [Field K] [LinearOrder K] [IsStrictOrderedRing K] [LinearOrder τ]

/-- **C09.** The index of the samples is series × horizon: a rearrangement of the product
of the forecast series and the horizon (hence `N * T` rows, no duplicates if the horizon
has none), sorted by label. -/
theorem C09_index {ctx : Fitted K} {obs : Tensor K} {fh : List τ} {f : Frame Nat τ K}
    {S T N k : Nat} (hsh : obs.shape = S :: (List.replicate k 1 ++ [T, N]))
    (h : predictSamples ctx obs fh = .ok f) :
    f.index.Perm (product (forecastSeries ctx) fh) ∧
    f.rows.length = (forecastSeries ctx).length * fh.length ∧
    (fh.Nodup → f.index.Nodup) ∧
    f.index.Pairwise (fun a b => toLex a ≤ toLex b) ∧
    f.nlevels = ctx.yNlevels := by
  obtain ⟨-, g, hg, hf⟩ := predictSamples_unfold hsh h
  obtain ⟨hlen, hnl, hcols, hidx, -⟩ := frameOfMatrix_ok hg
  obtain ⟨σ, rfl, -⟩ := invScale_eq hf
  have hi : ((sortIndex g).mapVals (fun s v => v * σ s)).index = (sortIndex g).index := by
    simp [Frame.index, Frame.mapVals]
  have hp : (sortIndex g).index.Perm (product (forecastSeries ctx) fh) := by
    rw [← hidx]
    exact (sortIndex_perm g).map _
  have hfs : (forecastSeries ctx).Nodup := by
    unfold forecastSeries
    split
    · simp
    · exact (nodup_unique _).filter _
  refine ⟨by rw [hi]; exact hp, ?_, ?_, ?_, ?_⟩
  · have := hp.length_eq
    rw [length_product] at this
    rw [← this]
    simp [Frame.index, Frame.mapVals]
  · intro hn
    rw [hi]
    exact hp.nodup_iff.2 (nodup_product hfs hn)
  · rw [hi, Frame.index, List.pairwise_map]
    exact sortIndex_sorted g
  · simp [Frame.mapVals, sortIndex, hnl]

/-- **C09**, which series those are: for flat data the single anonymous one; otherwise
exactly the series of the training index, without the aggregates for the hierarchical
forecaster. -/
theorem C09_series (ctx : Fitted K) (s : List String) :
    (forecastSeries ctx).Nodup ∧
    (ctx.yNlevels = 1 → (s ∈ forecastSeries ctx ↔ s = [])) ∧
    (ctx.yNlevels ≠ 1 → ctx.hierarchical = false →
      (s ∈ forecastSeries ctx ↔ s ∈ ctx.internalSids)) ∧
    (ctx.yNlevels ≠ 1 → ctx.hierarchical = true →
      (s ∈ forecastSeries ctx ↔ s ∈ ctx.internalSids ∧ s.getLast? ≠ some "__total")) := by
  refine ⟨?_, ?_, ?_, ?_⟩
  · unfold forecastSeries
    split
    · simp
    · exact (nodup_unique _).filter _
  · intro h; simp [forecastSeries, h]
  · intro h1 h2; simp [forecastSeries, h1, h2]
  · intro h1 h2; simp [forecastSeries, h1, h2]

/-- **C09.** For a single flat series the index is the horizon itself, in order, when the
horizon is sorted. -/
theorem C09_flat {ctx : Fitted K} {obs : Tensor K} {fh : List τ} {f : Frame Nat τ K}
    {S T N k : Nat} (hsh : obs.shape = S :: (List.replicate k 1 ++ [T, N]))
    (h : predictSamples ctx obs fh = .ok f) (h1 : ctx.yNlevels = 1)
    (hfh : fh.Pairwise (· < ·)) : f.index = fh.map fun t => ([], t) := by
  obtain ⟨hp, -, -, hs, -⟩ := C09_index hsh h
  have hprod : product (forecastSeries ctx) fh = fh.map fun t => ([], t) := by
    simp [forecastSeries, h1, product]
  rw [hprod] at hp
  refine List.Perm.eq_of_pairwise (le := fun a b => toLex a ≤ toLex b) ?_ hs ?_ hp
  · intro a b _ _ h1 h2
    exact toLex.injective (le_antisymm h1 h2)
  · rw [List.pairwise_map]
    refine hfh.imp ?_
    intro a b hab
    exact Prod.Lex.le_iff.2 (Or.inr ⟨rfl, hab.le⟩)

/-- **C06.** Every row of the sample frame carries, in column `s`, the `s`-th draw of its
own series `i` and time `t`, multiplied by the scale of that series. -/
theorem C06_sample_alignment {ctx : Fitted K} {obs : Tensor K} {fh : List τ}
    {f : Frame Nat τ K} {S k : Nat} (hw : obs.WF)
    (hsh : obs.shape =
      S :: (List.replicate k 1 ++ [fh.length, (forecastSeries ctx).length]))
    (h : predictSamples ctx obs fh = .ok f) :
    f.cols = List.range S ∧
    ∀ r ∈ f.rows, ∃ i t, (forecastSeries ctx)[i]? = some r.sid ∧ fh[t]? = some r.time ∧
      ∃ c, ScaleIs ctx r.sid c ∧
        ∀ s < S, ∃ v, obs.get? (s :: (List.replicate k 0 ++ [t, i])) = some v ∧
          r.val s = v * c := by
  obtain ⟨hS0, g, hg, hf⟩ := predictSamples_unfold hsh h
  obtain ⟨hlen, hnl, hcols, hidx, hrow⟩ := frameOfMatrix_ok hg
  obtain ⟨σ, rfl, hσ⟩ := invScale_eq hf
  refine ⟨by simp [Frame.mapVals, sortIndex, hcols], ?_⟩
  intro r hr
  simp only [Frame.mapVals, List.mem_map] at hr
  obtain ⟨r0, hr0, rfl⟩ := hr
  have hr0g : r0 ∈ g.rows := (sortIndex_perm g).mem_iff.1 hr0
  obtain ⟨p, hp, hv⟩ := hrow r0 hr0g
  have hpl : p < (forecastSeries ctx).length * fh.length := by
    have := (List.getElem?_eq_some_iff.1 hp).1
    rwa [length_product] at this
  have hT : 0 < fh.length := Nat.pos_of_ne_zero (by rintro h0; simp [h0] at hpl)
  have hi : p / fh.length < (forecastSeries ctx).length :=
    Nat.div_lt_of_lt_mul (by rwa [Nat.mul_comm] at hpl)
  have ht : p % fh.length < fh.length := Nat.mod_lt _ hT
  have hpe : p / fh.length * fh.length + p % fh.length = p := Nat.div_add_mod' p fh.length
  have hprod := getElem?_product (forecastSeries ctx) fh hi ht
  rw [hpe, hp, Option.some.injEq, Prod.mk.injEq] at hprod
  refine ⟨p / fh.length, p % fh.length, ?_, ?_, σ r0.sid, hσ r0 hr0, ?_⟩
  · rw [List.getElem?_eq_getElem hi, ← hprod.1]
  · rw [List.getElem?_eq_getElem ht, ← hprod.2]
  · intro s hs
    have hb : InBounds obs.shape (s :: (List.replicate k 0 ++ [p % fh.length, p / fh.length])) := by
      rw [hsh]; exact ⟨hs, inBounds_ones k ⟨ht, hi, trivial⟩⟩
    obtain ⟨v, hvv⟩ := get?_isSome hw hb
    refine ⟨v, hvv, ?_⟩
    have := transpose_obs hw hsh hs ht hi
    rw [hpe, hvv] at this
    show r0.val s * σ r0.sid = v * σ r0.sid
    rw [hv s, List.getD_eq_getElem?_getD, this]
    rfl

/-- **C06**, the converse direction: every draw is filed, exactly once when the horizon has
no duplicates. -/
theorem C06_every_draw_filed {ctx : Fitted K} {obs : Tensor K} {fh : List τ}
    {f : Frame Nat τ K} {S k : Nat} (hw : obs.WF)
    (hsh : obs.shape =
      S :: (List.replicate k 1 ++ [fh.length, (forecastSeries ctx).length]))
    (hfh : fh.Nodup) (h : predictSamples ctx obs fh = .ok f)
    {i t s : Nat} {sid : List String} {time : τ}
    (hi : (forecastSeries ctx)[i]? = some sid) (ht : fh[t]? = some time) (hs : s < S) :
    ∃! r, r ∈ f.rows.map (fun r => (r.sid, r.time, r.val s)) ∧ r.1 = sid ∧ r.2.1 = time ∧
      ∃ c v, ScaleIs ctx sid c ∧
        obs.get? (s :: (List.replicate k 0 ++ [t, i])) = some v ∧ r.2.2 = v * c := by
  obtain ⟨hperm, -, hnd, -, -⟩ := C09_index hsh h
  have hnd := hnd hfh
  obtain ⟨-, hal⟩ := C06_sample_alignment hw hsh h
  have hmem : (sid, time) ∈ f.index := hperm.mem_iff.2 (mem_product.2
    ⟨List.mem_of_getElem? hi, List.mem_of_getElem? ht⟩)
  obtain ⟨r, hr, hre⟩ := List.mem_map.1 hmem
  simp only [Prod.mk.injEq] at hre
  refine ⟨(r.sid, r.time, r.val s), ⟨List.mem_map.2 ⟨r, hr, rfl⟩, hre.1, hre.2, ?_⟩, ?_⟩
  · obtain ⟨i', t', hi', ht', c, hc, hv⟩ := hal r hr
    obtain ⟨v, hv1, hv2⟩ := hv s hs
    have e1 : i' = i := by
      rw [hre.1] at hi'
      have hl := (List.getElem?_eq_some_iff.1 hi').1
      exact (List.getElem?_inj hl (C09_series ctx sid).1).1 (hi'.trans hi.symm)
    have e2 : t' = t := by
      rw [hre.2] at ht'
      have hl := (List.getElem?_eq_some_iff.1 ht').1
      exact (List.getElem?_inj hl hfh).1 (ht'.trans ht.symm)
    subst e1 e2
    exact ⟨c, v, by rw [← hre.1]; exact hc, hv1, hv2⟩
  · rintro x ⟨hx, hx1, hx2, -⟩
    obtain ⟨r', hr', rfl⟩ := List.mem_map.1 hx
    simp only at hx1 hx2
    have : r' = r :=
      List.inj_on_of_nodup_map (f := fun r : Row Nat τ K => (r.sid, r.time)) hnd hr' hr
        (by simp [hx1, hx2, hre.1, hre.2])
    rw [this]

/-- **C06**, totality: the call succeeds whenever there is at least one sample, the training
index is not empty and every series has a scale. -/
theorem C06_succeeds {ctx : Fitted K} {obs : Tensor K} {fh : List τ} {S k : Nat}
    (hsh : obs.shape =
      S :: (List.replicate k 1 ++ [fh.length, (forecastSeries ctx).length]))
    (hS : 0 < S) (hne : ctx.internalSids ≠ [])
    (hsc : ∀ s ∈ forecastSeries ctx, ∃ c, ScaleIs ctx s c)
    (hint : ctx.discrete = true ∨ ∀ n, ctx.scale ≠ .int n)
    (hflat : ctx.discrete = true ∨ ctx.yNlevels ≠ 1 ∨ ∃ x, ctx.scale = .float x) :
    ∃ f, predictSamples ctx obs fh = .ok f := by
  have hidx : periodindexToMultiindex ctx fh = .ok (product (forecastSeries ctx) fh) := by
    have : ∃ idx, periodindexToMultiindex ctx fh = .ok idx := by
      unfold periodindexToMultiindex
      split
      · exact ⟨_, rfl⟩
      · cases hu : unique ctx.internalSids with
        | nil => exact absurd hu (unique_ne_nil hne)
        | cons s ss => exact ⟨_, rfl⟩
    obtain ⟨idx, hidx⟩ := this
    rw [hidx, periodindex_eq hidx]
  have hg : ∃ g, frameOfMatrix ctx.yNlevels obs.transpose.data
      ((forecastSeries ctx).length * fh.length) S (product (forecastSeries ctx) fh)
        = .ok g := by
    unfold frameOfMatrix
    rw [if_pos (length_product _ _).symm]
    exact ⟨_, rfl⟩
  obtain ⟨g, hg⟩ := hg
  obtain ⟨-, hnl, -, hgi, -⟩ := frameOfMatrix_ok hg
  obtain ⟨f, hf⟩ := invScale_isOk (ctx := ctx) (f := sortIndex g) hnl
    (by
      intro r hr
      have hr' := (sortIndex_perm g).mem_iff.1 hr
      have : (r.sid, r.time) ∈ g.index := List.mem_map.2 ⟨r, hr', rfl⟩
      rw [hgi, mem_product] at this
      exact hsc _ this.1) hint hflat
  refine ⟨f, ?_⟩
  unfold predictSamples
  rw [hsh]
  simp only [pure_bind, reshapeInfer]
  rw [length_transpose hsh, if_pos ⟨hS.ne', Nat.mul_mod_left _ _⟩, hidx]
  simp only [bind, Except.bind, List.headD_cons]
  rw [Nat.mul_div_cancel _ hS, hg]
  exact hf

/-- **C07.** The point forecast has the index of the samples, one column with the name of
the target, and in each row the mean of that row's samples. -/
theorem C07_point_is_mean (name : String) {f : Frame Nat τ K} (hne : f.cols ≠ []) :
    (predictPoint name f).index = f.index ∧ (predictPoint name f).cols = [name] ∧
    (predictPoint name f).nlevels = f.nlevels ∧
    List.Forall₂ (fun (p : Row String τ K) (r : Row Nat τ K) =>
        p.sid = r.sid ∧ p.time = r.time ∧
        p.val name * (f.cols.length : K) = (f.cols.map r.val).sum)
      (predictPoint name f).rows f.rows := by
  refine ⟨?_, rfl, rfl, ?_⟩
  · simp [predictPoint, Frame.index]
  · simp only [predictPoint, List.forall₂_map_left_iff, List.forall₂_same]
    intro r _
    refine ⟨trivial, trivial, ?_⟩
    have : (f.cols.length : K) ≠ 0 := by
      rw [Nat.cast_ne_zero, Ne, List.length_eq_zero_iff]; exact hne
    rw [div_mul_cancel₀ _ this]

end

/-! ### Concrete cases -/

/-- Two bottom series, one aggregate, panel scales 2 and 3. -/
def exFitted : Fitted ℚ :=
  { yNlevels := 2, internalSids := [["__total"], ["b"], ["b"], ["a"], ["a"]],
    hierarchical := true, discrete := false,
    scale := .table [(["__total"], 1), (["a"], 2), (["b"], 3)] }

/-- `(S, 1, T, N) = (2, 1, 3, 2)`. -/
def exObs : Tensor ℚ := ⟨[2, 1, 3, 2], [0, 1, 2, 3, 4, 5, 6, 7, 8, 9, 10, 11]⟩

example : forecastSeries exFitted = [["b"], ["a"]] := by decide +kernel
example : ∃ f, predictSamples exFitted exObs [1, 2, 3] = .ok f ∧
    f.rows.map (fun r => (r.sid, r.time, f.cols.map r.val)) =
      [(["a"], 1, [1 * 2, 7 * 2]), (["a"], 2, [3 * 2, 9 * 2]), (["a"], 3, [5 * 2, 11 * 2]),
       (["b"], 1, [0 * 3, 6 * 3]), (["b"], 2, [2 * 3, 8 * 3]), (["b"], 3, [4 * 3, 10 * 3])] := by
  cases h : predictSamples exFitted exObs [1, 2, 3] with
  | error e => exact absurd h (by
      obtain ⟨f, hf⟩ := C06_succeeds (ctx := exFitted) (obs := exObs) (fh := [1, 2, 3]) (S := 2)
        (k := 1) (by decide +kernel) (by decide) (by decide) (by
          intro s hs
          have : s = ["b"] ∨ s = ["a"] := by
            have e : forecastSeries exFitted = [["b"], ["a"]] := by decide +kernel
            rw [e] at hs; simpa using hs
          rcases this with rfl | rfl
          · exact ⟨3, Or.inr (Or.inr ⟨rfl, _, rfl, by decide +kernel⟩)⟩
          · exact ⟨2, Or.inr (Or.inr ⟨rfl, _, rfl, by decide +kernel⟩)⟩)
        (Or.inr (by intro n; simp [exFitted])) (Or.inr (Or.inl (by decide)))
      rw [hf]; simp)
  | ok f =>
    refine ⟨f, rfl, ?_⟩
    have : (predictSamples exFitted exObs [1, 2, 3]).toOption.map
        (fun f => f.rows.map (fun r => (r.sid, r.time, f.cols.map r.val))) = some
      [(["a"], 1, [1 * 2, 7 * 2]), (["a"], 2, [3 * 2, 9 * 2]), (["a"], 3, [5 * 2, 11 * 2]),
       (["b"], 1, [0 * 3, 6 * 3]), (["b"], 2, [2 * 3, 8 * 3]), (["b"], 3, [4 * 3, 10 * 3])] := by
      decide +kernel
    rw [h] at this
    simpa [Except.toOption] using this

end PV
