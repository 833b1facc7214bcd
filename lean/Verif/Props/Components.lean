import Mathlib.Data.Real.Basic
import Mathlib.Tactic.NormNum
import Verif.Model.Likelihood
import Verif.Lemmas.Sites
import Verif.Props.Sites
import Verif.Props.MeanSum
import Verif.Props.Positive

/-!
# C13 (components add up), C05 (negative binomial mean)
-/

set_option linter.unusedSectionVars false

namespace PV
open Tensor

theorem sum_map_comm {α β K : Type} [AddCommMonoid K] (l : List α) (m : List β)
    (f : α → β → K) : (l.map fun a => (m.map fun b => f a b).sum).sum
      = (m.map fun b => (l.map fun a => f a b).sum).sum := by
  induction l with
  | nil => simp
  | cons a l ih => simp [ih, List.sum_map_add]

theorem keys_map_get? {α β : Type} {d : PyDict α} (hd : d.keys.Nodup) (g : Option α → β) :
    d.keys.map (fun n => g (d.get? n)) = d.map fun p => g (some p.2) := by
  simp only [PyDict.keys, List.map_map]
  apply List.map_congr_left
  rintro ⟨k, v⟩ hp
  simp only [Function.comp]
  rw [PyDict.get?_of_mem hd hp]

/-- **C13** in model units and scale of the series: in every row of `predict_all_sites` the
trend column plus all effect columns is the mean over the draws of the location of the
observation distribution (the argument of the positivity map, for Gamma), times the factor
`c` from model units to units of `y`.
Partial: for the negative binomial likelihood the model itself multiplies by the scale after
the positivity map, but the sites are not rescaled (`c = 1`), see `C13_negbin_refuted`. -/
theorem C13_components_add_up_partial {K τ D : Type} [Field K] [LinearOrder K]
    [IsStrictOrderedRing K] [LinearOrder τ]
    {ctx : Fitted K} {sites : PyDict (Tensor K)} {fh : List τ}
    {f : Frame String τ K} (h : predictAllSites ctx sites fh = .ok f)
    {trendFn : EffectCall D K} {td : D} {data : PyDict D} {effects : PyDict (EffectCall D K)}
    (hn : (effects.map Prod.fst).Nodup) (htr : "trend" ∉ effects.map Prod.fst)
    {θs : List (SiteEnv K)} {runs : List (MeanState K)}
    (hruns : List.Forall₂ (fun θ st => computeMean trendFn td data effects θ = .ok st) θs runs)
    {sh : List Nat} (hsh : ∀ st ∈ runs, ∀ p ∈ st.sites, p.2.shape = sh ∧ p.2.WF)
    (hsites : ∀ n ∈ "trend" :: effects.map Prod.fst,
      sites.get? n = some (predictiveSite sh runs n)) :
    ∀ r ∈ f.rows, ∃ p c, (product (forecastSeries ctx) fh)[p]? = some (r.sid, r.time) ∧
      ScaleIs ctx r.sid c ∧
      (("trend" :: effects.map Prod.fst).map r.val).sum
        = meanOver runs.length (fun s => ((runs[s]?.map fun st => st.mean.data).getD []).getD p 0)
          * c := by
  obtain ⟨-, -, hlen, hr⟩ := predictAllSites_rows h
  intro r hrm
  obtain ⟨p, c, hp, hc, hv⟩ := hr r hrm
  refine ⟨p, c, hp, hc, ?_⟩
  have hps : p < size sh := by
    have h1 := hlen _ (PyDict.get?_mem (hsites "trend" (by simp)))
    rw [length_meanAxis0 (S := runs.length) (sh := sh) rfl] at h1
    have := (List.getElem?_eq_some_iff.1 hp).1
    omega
  -- the runs
  have hrun : ∀ s < runs.length, ∃ st, runs[s]? = some st ∧
      (∀ n ∈ "trend" :: effects.map Prod.fst,
        (((st.sites.get? n).map Tensor.data).getD []).length = size sh) ∧
      ((("trend" :: effects.map Prod.fst).map fun n =>
        (((st.sites.get? n).map Tensor.data).getD []).getD p 0).sum = st.mean.data.getD p 0) := by
    intro s hs
    have hst : runs[s]? = some runs[s] := List.getElem?_eq_getElem hs
    obtain ⟨hl2, hget⟩ := List.forall₂_iff_get.1 hruns
    have hcm := hget s (by omega) hs
    simp only [List.get_eq_getElem] at hcm
    obtain ⟨t, vals, ht, hrio, hsit⟩ := C24_sees_earlier hn htr hcm
    have hshs := hsh runs[s] (List.getElem_mem hs)
    have htsh : t.shape = sh ∧ t.WF := hshs ("trend", t) (by rw [hsit]; simp)
    have hvsh : ∀ v ∈ vals, v.shape = sh ∧ v.WF := by
      intro v hvm
      obtain ⟨i, hi, rfl⟩ := List.getElem_of_mem hvm
      have hi2 : i < (effects.map Prod.fst).length := by
        rw [List.length_map, ← hrio.1]; exact hi
      refine hshs ((effects.map Prod.fst)[i], vals[i]) ?_
      rw [hsit]
      refine List.mem_cons_of_mem _ ?_
      have := List.getElem_mem (l := (effects.map Prod.fst).zip vals) (n := i)
        (by simp only [List.length_zip]; omega)
      rwa [List.getElem_zip] at this
    obtain ⟨st1, hst1, hm1, hw1, hg1⟩ := C24_mean_is_sum hn htr ht htsh.2
      (fun v hvm => (hvsh v hvm).1.trans htsh.1.symm) hrio
    have heq : st1 = runs[s] := by
      rw [hcm] at hst1
      exact (Except.ok.inj hst1).symm
    have hkeys : runs[s].sites.keys = "trend" :: effects.map Prod.fst := by
      rw [hsit]
      simp only [PyDict.keys, List.map_cons, List.cons.injEq, true_and]
      rw [← List.unzip_fst, List.unzip_zip (by rw [List.length_map, hrio.1])]
    have hnd : runs[s].sites.keys.Nodup := by
      rw [hkeys]
      exact List.nodup_cons.2 ⟨htr, hn⟩
    refine ⟨runs[s], hst, ?_, ?_⟩
    · intro n hnm
      rw [← hkeys] at hnm
      obtain ⟨v, hvn⟩ := Option.isSome_iff_exists.1 (PyDict.get?_isSome_iff.2 hnm)
      have := hshs _ (PyDict.get?_mem hvn)
      rw [hvn]
      simp only [Option.map_some, Option.getD_some]
      rw [← this.1]
      exact this.2
    · rw [← hkeys]
      rw [keys_map_get? hnd (fun o => ((o.map Tensor.data).getD []).getD p 0)]
      obtain ⟨idx, hb, hrv⟩ := exists_ravel sh p hps
      have hgd : ∀ v : Tensor K, v.shape = sh → v.data.getD p 0 = (v.get? idx).getD 0 := by
        intro v hvs
        rw [get?, hvs, hrv, List.getD_eq_getElem?_getD]
      have hmean : runs[s].mean.data.getD p 0
          = (t.get? idx).getD 0 + (vals.map fun v => (v.get? idx).getD 0).sum := by
        rw [← heq, hgd _ (hm1.trans htsh.1), hg1 idx (by rwa [htsh.1])]
        rfl
      rw [hmean, hsit]
      simp only [List.map_cons, List.sum_cons, Option.map_some, Option.getD_some]
      rw [hgd t htsh.1]
      congr 2
      rw [show (fun a : String × Tensor K => a.2.data.getD p 0)
        = (fun v : Tensor K => v.data.getD p 0) ∘ Prod.snd from rfl, ← List.map_map,
        ← List.unzip_snd, List.unzip_zip (by rw [List.length_map, hrio.1])]
      apply List.map_congr_left
      intro v hvm
      exact hgd v (hvsh v hvm).1
  have hcol : ∀ n ∈ "trend" :: effects.map Prod.fst, r.val n
      = ((List.range runs.length).map fun s =>
          ((((runs[s]?.bind fun st => st.sites.get? n).map Tensor.data).getD []).getD p 0)).sum
            / (runs.length : K) * c := by
    intro n hnm
    rw [hv n _ (hsites n hnm), meanAxis0_getD (S := runs.length) (sh := sh) rfl hps]
    congr 3
    apply List.map_congr_left
    intro s hs
    rw [List.mem_range] at hs
    obtain ⟨st, hst, -, -⟩ := hrun s hs
    have hall : ∀ st ∈ runs, (((st.sites.get? n).map Tensor.data).getD []).length = size sh := by
      intro st' hst'
      obtain ⟨i, hi, rfl⟩ := List.getElem_of_mem hst'
      obtain ⟨st2, h2, h3, -⟩ := hrun i hi
      rw [List.getElem?_eq_getElem hi, Option.some.injEq] at h2
      rw [h2]
      exact h3 n hnm
    have := getElem?_flatMap_const runs
      (fun st => ((st.sites.get? n).map Tensor.data).getD []) (size sh) hall s p hs hps
    rw [List.getD_eq_getElem?_getD]
    simp only [predictiveSite]
    rw [this, List.getElem?_eq_getElem hs]
    simp [List.getD_eq_getElem?_getD]
  have : (("trend" :: effects.map Prod.fst).map r.val).sum
      = ((("trend" :: effects.map Prod.fst).map fun n =>
        ((List.range runs.length).map fun s =>
          ((((runs[s]?.bind fun st => st.sites.get? n).map Tensor.data).getD []).getD p 0)).sum).sum)
            / (runs.length : K) * c := by
    rw [List.map_congr_left hcol]
    generalize ("trend" :: effects.map Prod.fst) = l
    induction l with
    | nil => simp
    | cons a l ih =>
      simp only [List.map_cons, List.sum_cons, ih]
      ring
  rw [this, sum_map_comm, meanOver]
  congr 3
  apply List.map_congr_left
  intro s hs
  rw [List.mem_range] at hs
  obtain ⟨st, hst, -, hsum⟩ := hrun s hs
  simp only [hst, Option.map_some, Option.getD_some, Option.bind_some]
  exact hsum

/-- Location of a normal observation distribution. -/
noncomputable def ObsDist.loc : ObsDist → ℝ
  | .normal l _ => l
  | .gamma p => p.concentration / p.rate
  | .negBinomial2 m _ => m

/-- **C13** for the normal likelihood, in terms of the observation distributions of the
runs: trend plus effects is the average location of the `obs` site in units of `y`. -/
theorem C13_normal {τ D : Type} [LinearOrder τ]
    {ctx : Fitted ℝ} {sites : PyDict (Tensor ℝ)} {fh : List τ}
    {f : Frame String τ ℝ} (h : predictAllSites ctx sites fh = .ok f)
    {trendFn : EffectCall D ℝ} {td : D} {data : PyDict D} {effects : PyDict (EffectCall D ℝ)}
    (hn : (effects.map Prod.fst).Nodup) (htr : "trend" ∉ effects.map Prod.fst)
    {θs : List (SiteEnv ℝ)} {runs : List (MeanState ℝ)}
    (hruns : List.Forall₂ (fun θ st => computeMean trendFn td data effects θ = .ok st) θs runs)
    {sh : List Nat} (hsh : ∀ st ∈ runs, ∀ p ∈ st.sites, p.2.shape = sh ∧ p.2.WF)
    (hsites : ∀ n ∈ "trend" :: effects.map Prod.fst,
      sites.get? n = some (predictiveSite sh runs n)) (noise : ℕ → ℝ) (scale : ℝ) :
    ∀ r ∈ f.rows, ∃ (p : Nat) (c : ℝ), (product (forecastSeries ctx) fh)[p]? = some (r.sid, r.time) ∧
      ScaleIs ctx r.sid c ∧
      (("trend" :: effects.map Prod.fst).map r.val).sum
        = meanOver runs.length (fun s =>
            ((runs[s]?.bind fun st =>
              (univariateObs .normal (noise s) scale st.mean)[p]?.map ObsDist.loc).getD 0)) * c := by
  intro r hr
  obtain ⟨p, c, hp, hc, hs⟩ := C13_components_add_up_partial h hn htr hruns hsh hsites r hr
  refine ⟨p, c, hp, hc, ?_⟩
  rw [hs]
  unfold meanOver
  congr 3
  apply List.map_congr_left
  intro s hs
  rw [List.mem_range] at hs
  rw [List.getElem?_eq_getElem hs]
  simp only [Option.map_some, Option.getD_some, Option.bind_some, univariateObs,
    List.getElem?_map, Option.map_map, List.getD_eq_getElem?_getD]
  cases runs[s].mean.data[p]? <;> rfl

/-- **C05**, mean of the observation distribution: in the units of `y` the location of each
count is the additive mean times the scale wherever the additive mean is at least `1e-5`,
and it is positive everywhere. -/
theorem C05_negbin_mean (noise scale : ℝ) (mean : Tensor ℝ) (k : Nat) (m : ℝ)
    (hk : mean.data[k]? = some m) :
    ∃ μ κ, (univariateObs .negbinomial noise scale mean)[k]? = some (.negBinomial2 μ κ) ∧
      (1e-5 ≤ m → μ = m * scale) ∧ (0 < scale → 0 < μ) := by
  refine ⟨toPositive m 1e-5 * scale, noise * scale, ?_, ?_, ?_⟩
  · simp [univariateObs, hk]
  · intro hm
    unfold toPositive
    rw [if_neg (not_lt.2 hm), max_eq_left (le_trans (by norm_num) hm)]
  · intro hs
    refine mul_pos ?_ hs
    exact lt_of_lt_of_le (by norm_num) (le_max_right _ _)

example : (⟨[2, 1], [3, -4]⟩ : Tensor ℝ).data[0]? = some 3 ∧ (1e-5 : ℝ) ≤ 3 := by
  constructor
  · rfl
  · norm_num

/-! Example: two draws, one series, two dates, an additive and a multiplicative effect,
scale 5. -/

def exRuns : List (MeanState ℚ) :=
  ([⟨[2, 1], [10, 20]⟩, ⟨[2, 1], [11, 22]⟩] : List (Tensor ℚ)).filterMap fun td =>
    (computeMean exTrendFn td exData [("a", exAdd), ("b", exMul)] exθ).toOption

def exCtx13 : Fitted ℚ :=
  { yNlevels := 1, internalSids := [[], []], hierarchical := false, discrete := false,
    scale := .float 5 }

def exSites13 : PyDict (Tensor ℚ) :=
  ["trend", "a", "b"].map fun n => (n, predictiveSite [2, 1] exRuns n)

example : exRuns.length = 2 ∧ ((predictAllSites exCtx13 exSites13 [7, 8]).toOption.map
    fun f => f.rows.map fun r => (r.time, (["trend", "a", "b"].map r.val).sum))
    = some [(7, ((10 + 1 + 30) + (11 + 1 + 33)) / 2 * 5),
      (8, ((20 + 2 + 80) + (22 + 2 + 88)) / 2 * 5)] := by decide +kernel

def exCtx13nb : Fitted ℚ := { exCtx13 with discrete := true, scale := .float 2 }

/-- **C13** fails for the negative binomial likelihood unless the scale is 1: with scale 2,
trend 1 and no effect the columns of `predict_all_sites` add up to 1 while the observation
distribution has mean 2. -/
theorem C13_negbin_refuted (noise : ℝ) :
    ∃ (sites : PyDict (Tensor ℚ)) (run : MeanState ℚ) (f : Frame String Nat ℚ),
      computeMean exTrendFn ⟨[1, 1], [1]⟩ [] [] exθ = .ok run ∧
      sites = [("trend", predictiveSite [1, 1] [run] "trend")] ∧
      predictAllSites exCtx13nb sites [7] = .ok f ∧
      exCtx13nb.discrete = true ∧ exCtx13nb.scale = .float 2 ∧
      f.rows.map (fun r => r.val "trend") = [1] ∧
      (univariateObs .negbinomial noise 2 ⟨run.mean.shape, run.mean.data.map fun q => (q : ℝ)⟩).map
        ObsDist.loc = [2] := by
  have h1 : ((computeMean exTrendFn ⟨[1, 1], [1]⟩ [] [] exθ).toOption.map fun s => s.mean)
    = some ⟨[1, 1], [1]⟩ := by decide +kernel
  cases hrun : computeMean exTrendFn ⟨[1, 1], [1]⟩ [] [] exθ with
  | error e => rw [hrun] at h1; simp [Except.toOption] at h1
  | ok run =>
    rw [hrun] at h1
    simp only [Except.toOption, Option.map_some, Option.some.injEq] at h1
    have h2 : ((predictAllSites exCtx13nb [("trend", (⟨[1, 1, 1], [1]⟩ : Tensor ℚ))]
        [7]).toOption.map fun f => f.rows.map fun r => r.val "trend") = some [1] := by
      decide +kernel
    have h3 : predictiveSite [1, 1] [run] "trend" = ⟨[1, 1, 1], [1]⟩ := by
      have : (((computeMean exTrendFn ⟨[1, 1], [1]⟩ [] [] exθ).toOption.map fun s =>
        predictiveSite [1, 1] [s] "trend") = some ⟨[1, 1, 1], [1]⟩) := by decide +kernel
      rw [hrun] at this
      simpa only [Except.toOption, Option.map_some, Option.some.injEq] using this
    cases hp : predictAllSites exCtx13nb [("trend", (⟨[1, 1, 1], [1]⟩ : Tensor ℚ))] [7] with
    | error e => rw [hp] at h2; simp [Except.toOption] at h2
    | ok f =>
      rw [hp] at h2
      simp only [Except.toOption, Option.map_some, Option.some.injEq] at h2
      refine ⟨_, run, f, rfl, rfl, ?_, rfl, rfl, h2, ?_⟩
      · rw [h3, hp]
      · rw [h1]
        simp only [univariateObs, List.map_cons, List.map_nil, ObsDist.loc, toPositive]
        norm_num [ObsDist.loc]

end PV
