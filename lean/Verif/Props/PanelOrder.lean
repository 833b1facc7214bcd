import Verif.Props.PosteriorOrder
import Verif.Props.PanelPosterior

/-!
# C86 for panels: the order of the effects is irrelevant for the fit of a hierarchical forecaster
-/

namespace PV
open Tensor

section
variable {D : Type}

/-- Running the mean with permuted effects gives the same mean and the same prior density. -/
theorem runMean_order {trend : EffectCall D ℝ} {tp : Priors D} {td : D} {data data' : PyDict D}
    {effects effects' : PyDict (EffectCall D ℝ)} {pr : String → Priors D} {θ : SiteEnv ℝ} {r : MeanState ℝ × List (Stmt)}
    (hperm : effects.Perm effects') (hdata : ∀ n, data.get? n = data'.get? n)
    (hn : (effects.map Prod.fst).Nodup) (htr : "trend" ∉ effects.map Prod.fst)
    (hr : ∀ e ∈ effects, ReadsOnlyTrend e.2) (hsh : ∀ e ∈ effects, ShapedLikeTrend e.2)
    (hp : ∀ e ∈ effects, (pr e.1).ReadsOnlyTrend)
    (htrend : ∀ t, trend θ td [] = .ok t → t.WF ∧ t.ndim ≠ 1)
    (hrun : runMean trend tp td data effects pr θ = .ok r) :
    ∃ r', runMean trend tp td data' effects' pr θ = .ok r' ∧ r'.1.mean = r.1.mean ∧ logDensity r'.2 = logDensity r.2 := by
  obtain ⟨ts, sss, hm, hts, hss, hd⟩ := runMean_ok htr hrun
  obtain ⟨st', hm', hmean⟩ := C23_order_irrelevant hperm hdata hn htr hr hsh htrend hm
  have htr' : "trend" ∉ effects'.map Prod.fst :=
    fun hm => htr ((hperm.map Prod.fst).mem_iff.2 hm)
  obtain ⟨sss', hpv, hf'⟩ := List.perm_comp_forall₂ hperm.symm hss
  have hrun' : ∃ out, runMean trend tp td data' effects' pr θ = .ok (st', out) ∧
      logDensity out = logDensity ts + (sss'.map logDensity).sum := by
    unfold computeMean at hm'
    simp only [bind, Except.bind] at hm'
    cases hv : trend θ td [] with
    | error err => rw [hv] at hm'; cases hm'
    | ok t =>
      rw [hv] at hm'
      obtain ⟨out, h1, h2⟩ := foldlM_runStep_of (pr := pr) effects' _ st' ts sss' htr'
        (fun e he => hp e (hperm.mem_iff.2 he)) hm' (hpv.imp (by
          rintro e ss ⟨d, p, h1, ⟨t', ht', h2⟩, h3⟩
          rw [hv] at ht'
          cases ht'
          exact ⟨d, p, by rw [← hdata]; exact h1, by rw [h2]; rfl, h3⟩))
      refine ⟨out, ?_, h2⟩
      unfold runMean
      simp only [bind, Except.bind, hts, hv]
      exact h1
  obtain ⟨out, h1, h2⟩ := hrun'
  exact ⟨_, h1, hmean, by rw [h2, hd, (hf'.map logDensity).sum_eq]⟩

/-- **C86** for panels: permuting effects that read nothing but the trend leaves the log density of the hierarchical model
unchanged, for every target, every prior of the correlations and every value of the parameters. -/
theorem C86_panel {lkj : Nat → ℝ → Tensor ℝ → ℝ} {ns conc : ℝ} {single : Bool} {y : Tensor ℝ} {trend : EffectCall D ℝ}
    {tp : Priors D} {td : D} {data data' : PyDict D} {effects effects' : PyDict (EffectCall D ℝ)}
    {pr : String → Priors D} {θ : SiteEnv ℝ} {L : ℝ}
    (hperm : effects.Perm effects') (hdata : ∀ n, data.get? n = data'.get? n)
    (hn : (effects.map Prod.fst).Nodup) (htr : "trend" ∉ effects.map Prod.fst)
    (hr : ∀ e ∈ effects, ReadsOnlyTrend e.2) (hsh : ∀ e ∈ effects, ShapedLikeTrend e.2)
    (hp : ∀ e ∈ effects, (pr e.1).ReadsOnlyTrend)
    (htrend : ∀ t, trend θ td [] = .ok t → t.WF ∧ t.ndim ≠ 1)
    (h : panelLogJoint lkj ns conc single y trend tp td data effects pr θ = .ok L) :
    panelLogJoint lkj ns conc single y trend tp td data' effects' pr θ = .ok L := by
  unfold panelLogJoint at h ⊢
  simp only [bind, Except.bind] at h ⊢
  cases hrun : runMean trend tp td data effects pr θ with
  | error err => rw [hrun] at h; cases h
  | ok r =>
    rw [hrun] at h
    obtain ⟨r', h1, h2, h3⟩ := runMean_order hperm hdata hn htr hr hsh hp htrend hrun
    rw [h1]
    simp only [h2, h3]
    exact h

end

/-- **C86** for panels whose effects are all built in: two orders of the same effects have the same log density, defined for
the same parameters. -/
theorem C86_panel_builtin {lkj : Nat → ℝ → Tensor ℝ → ℝ} {ns conc : ℝ} {single : Bool} {y : Tensor ℝ}
    {trend : EffectCall (Transformed (Tensor ℝ)) ℝ} {tp : Priors (Transformed (Tensor ℝ))}
    {td : Transformed (Tensor ℝ)} {data : PyDict (Transformed (Tensor ℝ))}
    {effects effects' : PyDict (AddMul (Transformed (Tensor ℝ)) ℝ)}
    {pr : String → Priors (Transformed (Tensor ℝ))} {θ : SiteEnv ℝ}
    (hperm : effects.Perm effects') (hn : (effects.map Prod.fst).Nodup)
    (htr : "trend" ∉ effects.map Prod.fst)
    (hkind : ∀ e ∈ effects, (e.2.raw = linearRaw ∧ ∃ a, pr e.1 = linearPriors a) ∨
      (e.2.raw = logRaw ∧ ∃ a b, pr e.1 = logPriors a b) ∨
      (e.2.raw = hillRaw ∧ ∃ a b c, pr e.1 = hillPriors a b c))
    (htrend : ∀ t, trend θ td [] = .ok t → t.WF ∧ t.ndim ≠ 1) (L : ℝ) :
    panelLogJoint lkj ns conc single y trend tp td data (effects.map fun e => (e.1, e.2.call)) pr θ = .ok L ↔
      panelLogJoint lkj ns conc single y trend tp td data (effects'.map fun e => (e.1, e.2.call)) pr θ = .ok L := by
  have key : ∀ {a b : PyDict (AddMul (Transformed (Tensor ℝ)) ℝ)}, a.Perm b → (a.map Prod.fst).Nodup →
      "trend" ∉ a.map Prod.fst → (∀ e ∈ a, (e.2.raw = linearRaw ∧ ∃ a, pr e.1 = linearPriors a) ∨
      (e.2.raw = logRaw ∧ ∃ a b, pr e.1 = logPriors a b) ∨
      (e.2.raw = hillRaw ∧ ∃ a b c, pr e.1 = hillPriors a b c)) →
      panelLogJoint lkj ns conc single y trend tp td data (a.map fun e => (e.1, e.2.call)) pr θ = .ok L →
      panelLogJoint lkj ns conc single y trend tp td data (b.map fun e => (e.1, e.2.call)) pr θ = .ok L := by
    intro effects effects' hperm hn htr hkind h
    have hfst : (effects.map fun e => (e.1, e.2.call)).map Prod.fst = effects.map Prod.fst := by
      simp [Function.comp_def]
    refine C86_panel (hperm.map _) (fun _ => rfl) (by rwa [hfst]) (by rwa [hfst]) ?_ ?_ ?_ htrend h
    · intro e he
      obtain ⟨e, he', rfl⟩ := List.mem_map.1 he
      refine addMul_readsOnlyTrend ?_
      rcases hkind e he' with ⟨h, -⟩ | ⟨h, -⟩ | ⟨h, -⟩ <;> · rw [h]; intros; rfl
    · intro e he
      obtain ⟨e, he, rfl⟩ := List.mem_map.1 he
      exact addMul_shaped _
    · intro e he
      obtain ⟨e, he', rfl⟩ := List.mem_map.1 he
      rcases hkind e he' with ⟨-, a, h⟩ | ⟨-, a, b, h⟩ | ⟨-, a, b, c, h⟩
      · show (pr e.1).ReadsOnlyTrend
        rw [h]
        exact linearPriors_reads a
      · show (pr e.1).ReadsOnlyTrend
        rw [h]
        exact logPriors_reads a b
      · show (pr e.1).ReadsOnlyTrend
        rw [h]
        exact hillPriors_reads a b c
  exact ⟨key hperm hn htr hkind, key hperm.symm ((hperm.map Prod.fst).nodup_iff.1 hn)
    (fun h => htr ((hperm.map Prod.fst).mem_iff.2 h)) fun e he => hkind e (hperm.mem_iff.2 he)⟩

/-! Example: two series on two dates with a linear and a log effect. -/

def exData86p : PyDict (Transformed (Tensor ℝ)) :=
  [("a", .data ⟨[2, 2, 1], [1, 0, 0, 1]⟩), ("b", .data ⟨[2, 2, 1], [3, 4, 5, 6]⟩)]

noncomputable def exθ86p : SiteEnv ℝ := fun s =>
  if s = "a/coefs" then ⟨[1], [2]⟩ else if s = "std_observation" then ⟨[2], [1, 1]⟩
  else if s = "corr_matrix" then ⟨[2, 2], [1, 0, 0, 1]⟩ else ⟨[], [1]⟩

example : ∃ L, panelLogJoint (fun _ _ _ => 0) 1 1 false ⟨[2, 2, 1], [3, 5, 4, 6]⟩ (fun _ _ _ => .ok ⟨[2, 2, 1], [1, 2, 3, 4]⟩)
    (fun _ _ _ => .ok []) (.data ⟨[], []⟩) exData86p (exEffects86.map fun e => (e.1, e.2.call)) exPriors86 exθ86p
      = .ok L := ⟨_, rfl⟩

end PV
