import Mathlib.Algebra.Order.Ring.Rat
import Verif.Lemmas.Sites

/-!
# C11, C12, C14: sites and vectorised prediction
-/

set_option linter.unusedSectionVars false

namespace PV
open Tensor
variable {K τ : Type} [Field K] [LinearOrder K] [IsStrictOrderedRing K] [LinearOrder τ]

/-- Mean over the draws `0 .. S-1` of an indexed quantity. -/
def meanOver (S : Nat) (v : Nat → K) : K := ((List.range S).map v).sum / (S : K)

theorem pos_split {p T N : Nat} (hp : p < N * T) :
    p / T < N ∧ p % T < T ∧ p / T * T + p % T = p := by
  have hT : 0 < T := Nat.pos_of_ne_zero (by rintro rfl; simp at hp)
  exact ⟨Nat.div_lt_of_lt_mul (by rwa [Nat.mul_comm] at hp), Nat.mod_lt _ hT,
    Nat.div_add_mod' p T⟩

/-- **C11** for the sites with the series axis before the time axis: shape
`(S, N, T, 1, ...)` (trend and effects of the multivariate model), `N` being the number of
forecast series.  The entry in the row of series `i` and time `t` is the mean over the
draws of the site at `[s, i, t, 0, ...]`, in units of `y`.
Partial: the property is false for the observation site of the multivariate model, see
`C11_obs_refuted`. -/
theorem C11_series_major_partial {ctx : Fitted K} {sites : PyDict (Tensor K)} {fh : List τ}
    {f : Frame String τ K} (h : predictAllSites ctx sites fh = .ok f)
    {name : String} {site : Tensor K} (hs : PyDict.get? sites name = some site)
    (hw : site.WF) {S k : Nat}
    (hsh : site.shape = S :: (forecastSeries ctx).length :: fh.length :: List.replicate k 1) :
    ∀ r ∈ f.rows, ∃ i t c, (forecastSeries ctx)[i]? = some r.sid ∧ fh[t]? = some r.time ∧
      ScaleIs ctx r.sid c ∧ ∃ v : Nat → K,
        (∀ s < S, site.get? (s :: i :: t :: List.replicate k 0) = some (v s)) ∧
        r.val name = meanOver S v * c := by
  obtain ⟨-, -, -, hr⟩ := predictAllSites_rows h
  intro r hrm
  obtain ⟨p, c, hp, hc, hv⟩ := hr r hrm
  have hpl : p < (forecastSeries ctx).length * fh.length := by
    have := (List.getElem?_eq_some_iff.1 hp).1
    rwa [length_product] at this
  obtain ⟨hi, ht, hpe⟩ := pos_split hpl
  have hprod := getElem?_product (forecastSeries ctx) fh hi ht
  rw [hpe, hp, Option.some.injEq, Prod.mk.injEq] at hprod
  have hone : size (List.replicate k 1) = 1 := by simpa [size] using size_ones k []
  have hsz : size ((forecastSeries ctx).length :: fh.length :: List.replicate k 1)
      = (forecastSeries ctx).length * fh.length := by simp [size, hone]
  have hrav0 : ravel (List.replicate k 1) (List.replicate k 0) = 0 := by
    simpa [ravel] using ravel_ones k [] []
  have hb0 : InBounds (List.replicate k 1) (List.replicate k 0) := by
    simpa using inBounds_ones k (s := []) (i := []) trivial
  refine ⟨p / fh.length, p % fh.length, c, ?_, ?_, hc,
    fun s => site.data.getD (s * size ((forecastSeries ctx).length :: fh.length ::
      List.replicate k 1) + p) 0, ?_, ?_⟩
  · rw [List.getElem?_eq_getElem hi, ← hprod.1]
  · rw [List.getElem?_eq_getElem ht, ← hprod.2]
  · intro s hsS
    have hb : InBounds site.shape (s :: p / fh.length :: p % fh.length :: List.replicate k 0) := by
      rw [hsh]; exact ⟨hsS, hi, ht, hb0⟩
    obtain ⟨v, hv⟩ := get?_isSome hw hb
    rw [hv]
    rw [get?, hsh] at hv
    simp only [ravel, hrav0, size, hone, Nat.mul_one, Nat.add_zero] at hv
    rw [hpe] at hv
    simp only [size, hone, Nat.mul_one, List.getD_eq_getElem?_getD, hv, Option.getD_some]
  · rw [hv name site hs, meanAxis0_getD hsh (by rw [hsz]; exact hpl)]
    rfl

/-- **C11** for a single series: sites of shape `(S, T, 1, ...)` (all sites of the
univariate models, the observation site of the single-series hierarchical model).
Partial: see `C11_obs_refuted`. -/
theorem C11_single_series_partial {ctx : Fitted K} {sites : PyDict (Tensor K)} {fh : List τ}
    {f : Frame String τ K} (h : predictAllSites ctx sites fh = .ok f)
    {name : String} {site : Tensor K} (hs : PyDict.get? sites name = some site)
    (hw : site.WF) {S k : Nat} {sid : List String} (hone : forecastSeries ctx = [sid])
    (hsh : site.shape = S :: fh.length :: List.replicate k 1) :
    ∀ r ∈ f.rows, r.sid = sid ∧ ∃ t c, fh[t]? = some r.time ∧
      ScaleIs ctx r.sid c ∧ ∃ v : Nat → K,
        (∀ s < S, site.get? (s :: t :: List.replicate k 0) = some (v s)) ∧
        r.val name = meanOver S v * c := by
  obtain ⟨-, -, -, hr⟩ := predictAllSites_rows h
  intro r hrm
  obtain ⟨p, c, hp, hc, hv⟩ := hr r hrm
  have hprod : product (forecastSeries ctx) fh = fh.map fun t => (sid, t) := by
    simp [hone, product]
  rw [hprod, List.getElem?_map, Option.map_eq_some_iff] at hp
  obtain ⟨t, ht, hst⟩ := hp
  have hpl := (List.getElem?_eq_some_iff.1 ht).1
  rw [Prod.mk.injEq] at hst
  have hone' : size (List.replicate k 1) = 1 := by simpa [size] using size_ones k []
  have hrav0 : ravel (List.replicate k 1) (List.replicate k 0) = 0 := by
    simpa [ravel] using ravel_ones k [] []
  have hb0 : InBounds (List.replicate k 1) (List.replicate k 0) := by
    simpa using inBounds_ones k (s := []) (i := []) trivial
  refine ⟨hst.1.symm, p, c, by rw [ht, hst.2], hc,
    fun s => site.data.getD (s * size (fh.length :: List.replicate k 1) + p) 0, ?_, ?_⟩
  · intro s hsS
    have hb : InBounds site.shape (s :: p :: List.replicate k 0) := by
      rw [hsh]; exact ⟨hsS, hpl, hb0⟩
    obtain ⟨v, hv⟩ := get?_isSome hw hb
    rw [hv]
    rw [get?, hsh] at hv
    simp only [ravel, hrav0, size, hone', Nat.mul_one, Nat.add_zero] at hv
    simp only [size, hone', Nat.mul_one, List.getD_eq_getElem?_getD, hv, Option.getD_some]
  · rw [hv name site hs, meanAxis0_getD hsh (by simpa [size, hone'] using hpl)]
    rfl

/-- Two series, two times, one draw, scale 1; observation site of shape `(S, 1, T, N)`. -/
def exSitesCtx : Fitted ℚ :=
  { yNlevels := 2, internalSids := [["__total"], ["a"], ["b"]], hierarchical := true,
    discrete := false, scale := .float 1 }
def exSites : PyDict (Tensor ℚ) :=
  [("trend", ⟨[1, 2, 2, 1], [0, 1, 2, 3]⟩), ("obs", ⟨[1, 1, 2, 2], [0, 2, 1, 3]⟩)]

example : (predictAllSites exSitesCtx exSites [1, 2]).toOption.map
    (fun f => f.rows.map fun r => (r.sid, r.time, r.val "trend")) =
    some [(["a"], 1, 0), (["a"], 2, 1), (["b"], 1, 2), (["b"], 2, 3)] := by decide +kernel

/-- **C11 is false** for the observation site of the multivariate model, whose draws have
the time axis before the series axis: the value filed under series a at time 2 is the draw
of series b at time 1 (`obs[0, 0, 0, 1] = 2`), not that of series a at time 2
(`obs[0, 0, 1, 0] = 1`). -/
theorem C11_obs_refuted : ∃ f : Frame String Nat ℚ,
    predictAllSites exSitesCtx exSites [1, 2] = .ok f ∧
    ∃ r ∈ f.rows, r.sid = ["a"] ∧ r.time = 2 ∧
      (PyDict.get? exSites "obs").bind (·.get? [0, 0, 1, 0]) = some 1 ∧
      (PyDict.get? exSites "obs").bind (·.get? [0, 0, 0, 1]) = some 2 ∧
      r.val "obs" = 2 := by
  have h1 : (predictAllSites exSitesCtx exSites [1, 2]).toOption.map
      (fun f => f.rows.map fun r => (r.sid, r.time, r.val "obs")) =
      some [(["a"], 1, 0), (["a"], 2, 2), (["b"], 1, 1), (["b"], 2, 3)] := by decide +kernel
  cases hf : predictAllSites exSitesCtx exSites [1, 2] with
  | error e => rw [hf] at h1; cases h1
  | ok f =>
    rw [hf] at h1
    simp only [Except.toOption, Option.map_some, Option.some.injEq] at h1
    have hm : (["a"], 2, (2 : ℚ)) ∈ f.rows.map fun r => (r.sid, r.time, r.val "obs") := by
      rw [h1]; simp
    obtain ⟨r, hr, he⟩ := List.mem_map.1 hm
    simp only [Prod.mk.injEq] at he
    exact ⟨f, rfl, r, hr, he.1, he.2.1, by decide +kernel, by decide +kernel, he.2.2⟩

/-! ## C12 -/

theorem siteSamples_ok {ctx : Fitted K} {site : Tensor K} {fh : List τ} {S : Nat}
    {sh : List Nat} (hsh : site.shape = S :: sh)
    {out : List ((Nat × List String × τ) × K)} (h : siteSamples ctx site fh = .ok out) :
    site.data.length = S * (product (forecastSeries ctx) fh).length ∧
    out = (product (List.range S) (product (forecastSeries ctx) fh)).zip site.data := by
  unfold siteSamples at h
  rw [hsh] at h
  simp only [pure_bind] at h
  cases hidx : periodindexToMultiindex ctx fh with
  | error e => rw [hidx] at h; cases h
  | ok idx =>
    have := periodindex_eq hidx
    subst this
    rw [hidx] at h
    simp only [bind, Except.bind] at h
    split at h
    · rename_i hl
      simp only [pure, Except.pure, Except.ok.injEq] at h
      rw [length_product, List.length_range] at hl
      exact ⟨hl, h.symm⟩
    · cases h

/-- **C12**, true part: the value of `predict_all_sites` in a row is the mean, over the
sample level, of the `predict_all_sites_samples` entries with the same series and time,
multiplied by the scale of the series (which the samples lack).
Partial: the two agree only where that scale is 1, see `C12_scale_refuted`. -/
theorem C12_mean_times_scale_partial {ctx : Fitted K} {sites : PyDict (Tensor K)}
    {fh : List τ} (hfh : fh.Nodup) {f : Frame String τ K}
    (h : predictAllSites ctx sites fh = .ok f)
    {name : String} {site : Tensor K} (hs : PyDict.get? sites name = some site)
    (hw : site.WF) {S : Nat} {sh : List Nat} (hsh : site.shape = S :: sh) (hS : 0 < S)
    {out : List ((Nat × List String × τ) × K)} (ho : siteSamples ctx site fh = .ok out) :
    ∀ r ∈ f.rows, ∃ c, ScaleIs ctx r.sid c ∧
      r.val name = ((out.filter fun e => e.1.2 = (r.sid, r.time)).map Prod.snd).sum / (S : K)
        * c := by
  obtain ⟨hlen, rfl⟩ := siteSamples_ok hsh ho
  obtain ⟨-, -, -, hr⟩ := predictAllSites_rows h
  intro r hrm
  obtain ⟨p, c, hp, hc, hv⟩ := hr r hrm
  refine ⟨c, hc, ?_⟩
  have hnd : (product (forecastSeries ctx) fh).Nodup := by
    refine nodup_product ?_ hfh
    unfold forecastSeries
    split
    · simp
    · exact (nodup_unique _).filter _
  have hw' : site.data.length = S * size sh := by rw [hw, hsh]; rfl
  generalize hP : product (forecastSeries ctx) fh = P at *
  have hPlen : P.length = size sh := Nat.eq_of_mul_eq_mul_left hS (hlen.symm.trans hw')
  have hpl := (List.getElem?_eq_some_iff.1 hp).1
  rw [hv name site hs, meanAxis0_getD hsh (by rw [← hPlen]; exact hpl), ← hPlen]
  congr 3
  -- the filtered entries are exactly the entries at positions `s * |P| + p`
  have key : ∀ (n : Nat) (l : List K), l.length = n * P.length → ∀ off : Nat,
      ((((List.range' off n).flatMap fun a => P.map fun b => (a, b)).zip l).filter
        fun e => e.1.2 = (r.sid, r.time)).map Prod.snd
      = (List.range n).map fun s => l.getD (s * P.length + p) 0 := by
    intro n
    induction n with
    | zero => intro l _ off; simp
    | succ n ih =>
      intro l hl off
      rw [List.range'_succ, List.flatMap_cons]
      have hl1 : (l.take P.length).length = P.length := by
        rw [List.length_take, hl]
        exact Nat.min_eq_left (by rw [Nat.succ_mul]; omega)
      have hsplit : l = l.take P.length ++ l.drop P.length := (List.take_append_drop _ _).symm
      conv_lhs => rw [hsplit]
      rw [List.zip_append (by rw [List.length_map, hl1]), List.filter_append, List.map_append,
        ih (l.drop P.length) (by rw [List.length_drop, hl, Nat.succ_mul]; omega) (off + 1),
        List.range_succ_eq_map, List.map_cons, List.map_map]
      rw [← List.singleton_append]
      congr 1
      · -- one block: exactly position `p`
        have hfst : ∀ (Q : List (List String × τ)) (m : List K), Q.Nodup →
            m.length = Q.length → ∀ q, Q[q]? = some (r.sid, r.time) →
            (((Q.map fun b => (off, b)).zip m).filter
              fun e => e.1.2 = (r.sid, r.time)).map Prod.snd = [m.getD q 0] := by
          intro Q
          induction Q with
          | nil => intro m _ _ q hq; simp at hq
          | cons b Q ihQ =>
            intro m hnd hm q hq
            cases m with
            | nil => simp at hm
            | cons x m =>
              simp only [List.length_cons, Nat.add_right_cancel_iff] at hm
              simp only [List.map_cons, List.zip_cons_cons]
              cases q with
              | zero =>
                simp only [List.getElem?_cons_zero, Option.some.injEq] at hq
                subst hq
                rw [List.filter_cons_of_pos (by simp)]
                have : ((Q.map fun b => (off, b)).zip m).filter
                    (fun e => e.1.2 = (r.sid, r.time)) = [] := by
                  rw [List.filter_eq_nil_iff]
                  intro e he
                  have h1 := (List.of_mem_zip (a := e.1) (b := e.2) he).1
                  obtain ⟨b', hb', he'⟩ := List.mem_map.1 h1
                  simp only [decide_eq_true_eq]
                  rw [← he']
                  intro heq
                  simp only at heq
                  rw [heq] at hb'
                  exact (List.nodup_cons.1 hnd).1 hb'
                rw [this]
                simp
              | succ q =>
                simp only [List.getElem?_cons_succ] at hq
                rw [List.filter_cons_of_neg (by
                  simp only [decide_eq_true_eq]
                  rintro rfl
                  exact (List.nodup_cons.1 hnd).1 (List.mem_of_getElem? hq))]
                rw [ihQ m (List.nodup_cons.1 hnd).2 hm q hq]
                simp
        rw [hfst P _ hnd hl1 p hp]
        simp only [Nat.zero_mul, Nat.zero_add, List.getD_eq_getElem?_getD]
        rw [List.getElem?_take_of_lt hpl]
      · apply List.map_congr_left
        intro s _
        simp only [Function.comp, Nat.succ_eq_add_one, List.getD_eq_getElem?_getD,
          List.getElem?_drop]
        congr 2
        ring
  have := key S site.data hlen 0
  rw [← List.range_eq_range'] at this
  unfold product
  exact this.symm

/-- **C12 is false** when the scale is not 1: the samples are left in model units. -/
theorem C12_scale_refuted : ∃ (ctx : Fitted ℚ) (site : Tensor ℚ) (f : Frame String Nat ℚ),
    predictAllSites ctx [("trend", site)] [1] = .ok f ∧
    siteSamples ctx site [1] = .ok [((0, [], 1), 3)] ∧
    ∃ r ∈ f.rows, r.sid = [] ∧ r.time = 1 ∧ r.val "trend" = 6 := by
  let ctx : Fitted ℚ := ⟨1, [[]], false, false, .float 2⟩
  let site : Tensor ℚ := ⟨[1, 1, 1], [3]⟩
  have h1 : (predictAllSites ctx [("trend", site)] [1]).toOption.map
      (fun f => f.rows.map fun r => (r.sid, r.time, r.val "trend")) = some [([], 1, 6)] := by
    decide +kernel
  cases hf : predictAllSites ctx [("trend", site)] [1] with
  | error e => rw [hf] at h1; cases h1
  | ok f =>
    rw [hf] at h1
    simp only [Except.toOption, Option.map_some, Option.some.injEq] at h1
    have hm : (([] : List String), 1, (6 : ℚ)) ∈
        f.rows.map fun r => (r.sid, r.time, r.val "trend") := by
      rw [h1]; simp
    obtain ⟨r, hr, he⟩ := List.mem_map.1 hm
    simp only [Prod.mk.injEq] at he
    exact ⟨ctx, site, f, hf, by decide +kernel, r, hr, he.1, he.2.1, he.2.2⟩

/-! ## C14 -/

/-- **C14 is false**: for every panel with at least two series and a non-empty horizon the
concatenated frame has duplicate labels, because each part is labelled by time only. -/
theorem C14_labels_lost_refuted {ι V : Type} {fh : List τ} (hfh : fh ≠ [])
    {outs : List (Frame ι τ V)} (h2 : 2 ≤ outs.length)
    (hidx : ∀ o ∈ outs, o.index = fh.map fun t => ([], t)) :
    (vectorizeConcat outs).index = (List.replicate outs.length fh).flatten.map (fun t => ([], t)) ∧
    ¬ (vectorizeConcat outs).index.Nodup := by
  have h1 : (vectorizeConcat outs).index
      = (List.replicate outs.length fh).flatten.map (fun t => ([], t)) := by
    have hrows : (vectorizeConcat outs).rows = outs.flatMap Frame.rows := by
      cases outs <;> rfl
    unfold Frame.index
    rw [hrows]
    clear hrows h2
    induction outs with
    | nil => rfl
    | cons o os ih =>
      have := hidx o (by simp)
      unfold Frame.index at this
      simp only [List.flatMap_cons, List.map_append, this, List.length_cons,
        List.replicate_succ, List.flatten_cons]
      rw [ih fun o' ho' => hidx o' (by simp [ho'])]
  refine ⟨h1, ?_⟩
  rw [h1]
  obtain ⟨n, hn⟩ : ∃ n, outs.length = n + 2 := ⟨outs.length - 2, by omega⟩
  rw [hn, List.replicate_succ, List.replicate_succ]
  intro hnd
  obtain ⟨t, ht⟩ := List.exists_mem_of_ne_nil _ hfh
  simp only [List.flatten_cons, List.map_append] at hnd
  have := List.disjoint_of_nodup_append hnd
  exact this (List.mem_map.2 ⟨t, ht, rfl⟩) (List.mem_append_left _ (List.mem_map.2 ⟨t, ht, rfl⟩))

/-- **C14**, true part: values are not mixed up, the blocks come in the order of the
series, so row `i * T + t` belongs to the `i`-th series.
Partial: the labels do not show it (`C14_labels_lost_refuted`). -/
theorem C14_blocks_partial {ι V : Type} {fh : List τ} {outs : List (Frame ι τ V)}
    (hidx : ∀ o ∈ outs, o.index = fh.map fun t => ([], t)) {i t : Nat}
    (hi : i < outs.length) (ht : t < fh.length) :
    (vectorizeConcat outs).rows[i * fh.length + t]? = outs[i].rows[t]? := by
  have hrows : (vectorizeConcat outs).rows = outs.flatMap Frame.rows := by cases outs <;> rfl
  rw [hrows]
  refine getElem?_flatMap_const outs Frame.rows fh.length ?_ i t hi ht
  intro o ho
  have := congrArg List.length (hidx o ho)
  simpa [Frame.index] using this

example : (vectorizeConcat [predictPoint "y"
      { nlevels := 1, cols := [0], rows := [⟨[], 1, fun _ => (1 : ℚ)⟩, ⟨[], 2, fun _ => 2⟩] },
    predictPoint "y"
      { nlevels := 1, cols := [0], rows := [⟨[], 1, fun _ => (3 : ℚ)⟩, ⟨[], 2, fun _ => 4⟩] }]).rows.map
    (fun r => (r.sid, r.time, r.val "y"))
    = [([], 1, 1), ([], 2, 2), ([], 1, 3), ([], 2, 4)] := by decide +kernel

end PV
