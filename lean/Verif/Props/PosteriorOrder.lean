import Verif.Props.Posterior

/-!
# C86: the order of the effects is irrelevant for inference
-/

namespace PV
open Tensor

section
variable {D : Type}

/-- The statements of an effect depend on earlier effects through the trend only. -/
def Priors.ReadsOnlyTrend (f : Priors D) : Prop :=
  ∀ θ d (p p' : PyDict (Tensor ℝ)), p.get? "trend" = p'.get? "trend" → f θ d p = f θ d p'

theorem meanStep_trend {θ : SiteEnv ℝ} {data : PyDict D} {st m : MeanState ℝ}
    {e : String × EffectCall D ℝ} (hne : e.1 ≠ "trend") (h : meanStep θ data st e = .ok m) :
    m.predicted.get? "trend" = st.predicted.get? "trend" := by
  unfold meanStep at h
  simp only [bind, Except.bind] at h
  split at h
  · cases h
  split at h
  · cases h
  split at h
  · cases h
  cases h
  simp only [PyDict.get?_set, if_neg hne]

theorem foldlM_runStep_of {θ : SiteEnv ℝ} {data : PyDict D} {pr : String → Priors D} :
    ∀ (effects : PyDict (EffectCall D ℝ)) (st st' : MeanState ℝ) (acc : List Stmt)
      (sss : List (List Stmt)), "trend" ∉ effects.map Prod.fst →
    (∀ e ∈ effects, (pr e.1).ReadsOnlyTrend) →
    effects.foldlM (meanStep θ data) st = .ok st' →
    List.Forall₂ (fun (e : String × EffectCall D ℝ) ss => ∃ d p, data.get? e.1 = some d ∧
        p.get? "trend" = st.predicted.get? "trend" ∧
        pr e.1 (θ.scope e.1) d p = .ok ss) effects sss →
    ∃ out, effects.foldlM (runStep θ data pr) (st, acc) = .ok (st', out) ∧
      logDensity out = logDensity acc + (sss.map logDensity).sum := by
  intro effects
  induction effects with
  | nil =>
    intro st st' acc sss _ _ h hs
    cases h
    cases hs
    exact ⟨acc, rfl, by simp⟩
  | cons e l ih =>
    intro st st' acc sss htr hr h hs
    rw [List.map_cons, List.mem_cons, not_or] at htr
    cases hs with
    | cons h1 h2 =>
      rename_i ss sss
      obtain ⟨d, p, hd, hp, hss⟩ := h1
      rw [List.foldlM_cons] at h ⊢
      simp only [bind, Except.bind] at h ⊢
      cases hm : meanStep θ data st e with
      | error err => rw [hm] at h; cases h
      | ok m =>
        rw [hm] at h
        have hstep : runStep θ data pr (st, acc) e = .ok (m, acc ++ ss.map (Stmt.scope e.1)) := by
          unfold runStep
          have hg : data.getItem e.1 = .ok d := PyDict.getItem_ok.2 hd
          have hss' : pr e.1 (θ.scope e.1) d st.predicted = .ok ss := by
            rw [← hss]
            exact hr e (by simp) _ _ _ _ hp.symm
          simp only [bind, Except.bind, hg, hss', hm, pure, Except.pure]
        rw [hstep]
        obtain ⟨out, h3, h4⟩ := ih m st' (acc ++ ss.map (Stmt.scope e.1)) sss htr.2
          (fun e' he' => hr e' (by simp [he'])) h (h2.imp (by
            rintro e' ss' ⟨d', p', h5, h6, h7⟩
            exact ⟨d', p', h5, by rw [h6, meanStep_trend (Ne.symm htr.1) hm], h7⟩))
        refine ⟨out, h3, ?_⟩
        rw [h4, logDensity_append, logDensity_scope, List.map_cons, List.sum_cons, add_assoc]

theorem logJoint_iff {lik : Likelihood} {ns scale : ℝ} {y : List ℝ} {trend : EffectCall D ℝ}
    {tp : Priors D} {td : D} {data : PyDict D} {effects : PyDict (EffectCall D ℝ)}
    {pr : String → Priors D} {θ : SiteEnv ℝ} {L : ℝ} :
    logJoint lik ns scale y trend tp td data effects pr θ = .ok L ↔
    ∃ r os, runMean trend tp td data effects pr θ = .ok r ∧
      obsStmts lik ns scale y r.1.mean θ = .ok os ∧ L = logDensity r.2 + logDensity os := by
  constructor
  · intro h
    unfold logJoint at h
    cases hs : modelStmts lik ns scale y trend tp td data effects pr θ with
    | error err => rw [hs] at h; cases h
    | ok all =>
      rw [hs] at h
      cases h
      unfold modelStmts at hs
      simp only [bind, Except.bind] at hs
      cases hr : runMean trend tp td data effects pr θ with
      | error err => rw [hr] at hs; cases hs
      | ok r =>
        rw [hr] at hs
        simp only at hs
        cases ho : obsStmts lik ns scale y r.1.mean θ with
        | error err => rw [ho] at hs; cases hs
        | ok os =>
          rw [ho] at hs
          cases hs
          exact ⟨r, os, rfl, ho, logDensity_append _ _⟩
  · rintro ⟨r, os, hr, ho, rfl⟩
    unfold logJoint modelStmts
    simp only [bind, Except.bind, hr, ho, pure, Except.pure, Except.map, logDensity_append]

/-- **C86**: permuting effects that read nothing but the trend leaves the log density unchanged, for
every target and every value of the parameters. -/
theorem C86_order {lik : Likelihood} {ns scale : ℝ} {y : List ℝ} {trend : EffectCall D ℝ}
    {tp : Priors D} {td : D} {data data' : PyDict D} {effects effects' : PyDict (EffectCall D ℝ)}
    {pr : String → Priors D} {θ : SiteEnv ℝ} {L : ℝ}
    (hperm : effects.Perm effects') (hdata : ∀ n, data.get? n = data'.get? n)
    (hn : (effects.map Prod.fst).Nodup) (htr : "trend" ∉ effects.map Prod.fst)
    (hr : ∀ e ∈ effects, ReadsOnlyTrend e.2) (hsh : ∀ e ∈ effects, ShapedLikeTrend e.2)
    (hp : ∀ e ∈ effects, (pr e.1).ReadsOnlyTrend)
    (htrend : ∀ t, trend θ td [] = .ok t → t.WF ∧ t.ndim ≠ 1)
    (h : logJoint lik ns scale y trend tp td data effects pr θ = .ok L) :
    logJoint lik ns scale y trend tp td data' effects' pr θ = .ok L := by
  obtain ⟨r, os, hrun, hos, rfl⟩ := logJoint_iff.1 h
  obtain ⟨ts, sss, hm, hts, hss, hd⟩ := runMean_ok htr hrun
  obtain ⟨st', hm', hmean⟩ := C23_order_irrelevant hperm hdata hn htr hr hsh htrend hm
  have htr' : "trend" ∉ effects'.map Prod.fst :=
    fun hm => htr ((hperm.map Prod.fst).mem_iff.2 hm)
  obtain ⟨sss', hpv, hf'⟩ := List.perm_comp_forall₂ hperm.symm hss
  have hrun' : ∃ out, runMean trend tp td data' effects' pr θ = .ok (st', out) ∧
      logDensity out = logDensity ts + (sss'.map logDensity).sum := by
    unfold computeMean at hm'
    simp only [bind, Except.bind] at hm'
    cases hv : trend θ td [] with
    | error err => rw [hv] at hm'; cases hm'
    | ok t =>
      rw [hv] at hm'
      obtain ⟨out, h1, h2⟩ := foldlM_runStep_of (pr := pr) effects' _ st' ts sss' htr'
        (fun e he => hp e (hperm.mem_iff.2 he)) hm' (hpv.imp (by
          rintro e ss ⟨d, p, h1, ⟨t', ht', h2⟩, h3⟩
          rw [hv] at ht'
          cases ht'
          exact ⟨d, p, by rw [← hdata]; exact h1, by rw [h2]; rfl, h3⟩))
      refine ⟨out, ?_, h2⟩
      unfold runMean
      simp only [bind, Except.bind, hts, hv]
      exact h1
  obtain ⟨out, h1, h2⟩ := hrun'
  refine logJoint_iff.2 ⟨_, os, h1, by rw [hmean]; exact hos, ?_⟩
  rw [h2, hd, (hf'.map logDensity).sum_eq]

end

/-! The built-in effects meet the hypotheses: `addMul_readsOnlyTrend`, `addMul_shaped` and -/

theorem linearPriors_reads (prior : ℝ → ℝ) : (linearPriors prior).ReadsOnlyTrend :=
  fun _ _ _ _ _ => rfl

theorem logPriors_reads (a b : ℝ → ℝ) : (logPriors a b).ReadsOnlyTrend := fun _ _ _ _ _ => rfl

theorem hillPriors_reads (a b c : ℝ → ℝ) : (hillPriors a b c).ReadsOnlyTrend :=
  fun _ _ _ _ _ => rfl

/-- **C86** for a model whose effects are all built in: any two orders of the same effects. -/
theorem C86_builtin {lik : Likelihood} {ns scale : ℝ} {y : List ℝ}
    {trend : EffectCall (Transformed (Tensor ℝ)) ℝ} {tp : Priors (Transformed (Tensor ℝ))}
    {td : Transformed (Tensor ℝ)} {data : PyDict (Transformed (Tensor ℝ))}
    {effects effects' : PyDict (AddMul (Transformed (Tensor ℝ)) ℝ)}
    {pr : String → Priors (Transformed (Tensor ℝ))} {θ : SiteEnv ℝ} {L : ℝ}
    (hperm : effects.Perm effects') (hn : (effects.map Prod.fst).Nodup)
    (htr : "trend" ∉ effects.map Prod.fst)
    (hkind : ∀ e ∈ effects, (e.2.raw = linearRaw ∧ ∃ a, pr e.1 = linearPriors a) ∨
      (e.2.raw = logRaw ∧ ∃ a b, pr e.1 = logPriors a b) ∨
      (e.2.raw = hillRaw ∧ ∃ a b c, pr e.1 = hillPriors a b c))
    (htrend : ∀ t, trend θ td [] = .ok t → t.WF ∧ t.ndim ≠ 1)
    (h : logJoint lik ns scale y trend tp td data
      (effects.map fun e => (e.1, e.2.call)) pr θ = .ok L) :
    logJoint lik ns scale y trend tp td data (effects'.map fun e => (e.1, e.2.call)) pr θ
      = .ok L := by
  have hfst : (effects.map fun e => (e.1, e.2.call)).map Prod.fst = effects.map Prod.fst := by
    simp [Function.comp_def]
  refine C86_order (hperm.map _) (fun _ => rfl) (by rwa [hfst]) (by rwa [hfst]) ?_ ?_ ?_ htrend h
  · intro e he
    obtain ⟨e, he', rfl⟩ := List.mem_map.1 he
    refine addMul_readsOnlyTrend ?_
    rcases hkind e he' with ⟨h, -⟩ | ⟨h, -⟩ | ⟨h, -⟩ <;> · rw [h]; intros; rfl
  · intro e he
    obtain ⟨e, he, rfl⟩ := List.mem_map.1 he
    exact addMul_shaped _
  · intro e he
    obtain ⟨e, he', rfl⟩ := List.mem_map.1 he
    rcases hkind e he' with ⟨-, a, h⟩ | ⟨-, a, b, h⟩ | ⟨-, a, b, c, h⟩
    · show (pr e.1).ReadsOnlyTrend
      rw [h]
      exact linearPriors_reads a
    · show (pr e.1).ReadsOnlyTrend
      rw [h]
      exact logPriors_reads a b
    · show (pr e.1).ReadsOnlyTrend
      rw [h]
      exact hillPriors_reads a b c

/-! Example: a linear and a log effect on a trend of two dates, in both orders. -/

noncomputable def exEffects86 : PyDict (AddMul (Transformed (Tensor ℝ)) ℝ) :=
  [("a", ⟨"additive", linearRaw⟩), ("b", ⟨"multiplicative", logRaw⟩)]

noncomputable def exPriors86 (n : String) : Priors (Transformed (Tensor ℝ)) :=
  if n = "a" then linearPriors (normalLP 0 1) else logPriors (gammaLP 1 1) (gammaLP 1 1)

noncomputable def exθ86 : SiteEnv ℝ := fun s =>
  if s = "a/coefs" then ⟨[1], [2]⟩ else ⟨[], [1]⟩

def exData86 : PyDict (Transformed (Tensor ℝ)) :=
  [("a", .data ⟨[2, 1], [1, 0]⟩), ("b", .data ⟨[2, 1], [3, 4]⟩)]

example : ∃ L, logJoint .normal 1 1 [3, 5] (fun _ _ _ => .ok ⟨[2, 1], [1, 2]⟩) (fun _ _ _ => .ok [])
    (.data ⟨[], []⟩) exData86 (exEffects86.map fun e => (e.1, e.2.call)) exPriors86 exθ86
      = .ok L := ⟨_, rfl⟩

example : ∀ e ∈ exEffects86, (e.2.raw = linearRaw ∧ ∃ a, exPriors86 e.1 = linearPriors a) ∨
    (e.2.raw = logRaw ∧ ∃ a b, exPriors86 e.1 = logPriors a b) ∨
    (e.2.raw = hillRaw ∧ ∃ a b c, exPriors86 e.1 = hillPriors a b c) := by
  intro e he
  simp only [exEffects86, List.mem_cons, List.not_mem_nil, or_false] at he
  rcases he with rfl | rfl
  · exact .inl ⟨rfl, _, rfl⟩
  · exact .inr (.inl ⟨rfl, _, _, rfl⟩)

end PV
