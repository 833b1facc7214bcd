import Verif.Model.AnyEffect
import Verif.Spec.Density
import Verif.Spec.Pointwise

/-!
# Objects inside larger types behave like themselves
-/

namespace PV
section
variable {S S' Y Sc τ V D D' K : Type} {es : Emb S S'} {ed : Emb D D'}

theorem Transformed.proj_inj (d : Transformed D) : (d.inj ed).proj ed = some d := by
  cases d with
  | emptyDict => rfl
  | data d => simp [Transformed.inj, Transformed.proj, ed.proj_inj]

theorem embed_clone (e : EffectObj S Y Sc τ V D K) : (e.embed es ed).clone = e.clone.embed es ed := rfl

theorem baseFit_refused {h : Hooks S Y Sc τ V D} {st : BaseState × S} {y : Y}
    {X : Option (Frame String τ V)} {sc : Sc}
    (hc : h.tags.supportsMultivariate = false ∧ ∃ x ∈ X, x.nlevels > 1) :
    baseFit h st y X sc = .error .valueError := if_pos hc

def colsOf (X : Option (Frame String τ V)) : List String :=
  match X with
  | none => []
  | some x => if x.isEmpty then [] else x.cols

theorem baseFit_runs {h : Hooks S Y Sc τ V D} {st : BaseState × S} {y : Y}
    {X : Option (Frame String τ V)} {sc : Sc}
    (hc : ¬ (h.tags.supportsMultivariate = false ∧ ∃ x ∈ X, x.nlevels > 1)) :
    baseFit h st y X sc = (h.fit st.2 y X sc).map fun s => (⟨some (colsOf X), some true⟩, s) := by
  unfold baseFit
  rw [if_neg hc]
  cases h.fit st.2 y X sc <;> rfl

theorem embed_fit (e : EffectObj S Y Sc τ V D K) (y : Y) (X : Option (Frame String τ V)) (sc : Sc) :
    (e.embed es ed).fit y X sc = (e.fit y X sc).map fun e' => e'.embed es ed := by
  unfold EffectObj.fit
  by_cases h : e.cls.tags.supportsMultivariate = false ∧ ∃ x ∈ X, x.nlevels > 1
  · rw [baseFit_refused (h := e.cls.toHooks) h, baseFit_refused (h := (e.embed es ed).cls.toHooks) h]
    rfl
  · rw [baseFit_runs (h := e.cls.toHooks) h, baseFit_runs (h := (e.embed es ed).cls.toHooks) h]
    simp only [EffectObj.embed, EffectClass.embed, es.proj_inj]
    cases e.cls.fit e.st.2 y X sc <;> rfl

theorem embed_fit_ok {e : EffectObj S Y Sc τ V D K} {y : Y} {X : Option (Frame String τ V)} {sc : Sc}
    {e' : EffectObj S' Y Sc τ V D' K} (h : (e.embed es ed).fit y X sc = .ok e') :
    ∃ e0, e.fit y X sc = .ok e0 ∧ e' = e0.embed es ed := by
  rw [embed_fit] at h
  cases h0 : e.fit y X sc with
  | error err => rw [h0] at h; cases h
  | ok e0 => rw [h0] at h; cases h; exact ⟨e0, rfl, rfl⟩

theorem embed_transform [DecidableEq τ] (e : EffectObj S Y Sc τ V D K) (X : Option (Frame String τ V))
    (fh : List τ) :
    (e.embed es ed).transform X fh = (e.transform X fh).map (Transformed.inj ed) := by
  unfold EffectObj.transform baseTransform
  simp only [EffectObj.embed, EffectClass.embed, es.proj_inj]
  cases h : e.st.1.isFitted with
  | none => rfl
  | some b =>
    cases b with
    | false => rfl
    | true =>
      simp only [bind, Except.bind]
      cases shouldSkip e.cls.tags e.st.1 with
      | error err => rfl
      | ok b =>
        cases b with
        | true => rfl
        | false =>
          cases X with
          | none => rfl
          | some x =>
            cases e.st.1.inputCols with
            | none => rfl
            | some cs =>
              simp only [Bool.false_eq_true, if_false]
              rcases Bool.eq_false_or_eq_true e.cls.tags.filterFh with hfl | hfl
              · simp only [hfl, if_true]
                cases (x.filterTimes fh).select cs with
                | error err => rfl
                | ok x' =>
                  simp only
                  cases e.cls.transform e.st.2 x' fh <;> rfl
              · simp only [hfl, Bool.false_eq_true, if_false]
                cases x.select cs with
                | error err => rfl
                | ok x' =>
                  simp only
                  cases e.cls.transform e.st.2 x' fh <;> rfl

theorem embed_transform_ok [DecidableEq τ] {e : EffectObj S Y Sc τ V D K}
    {X : Option (Frame String τ V)} {fh : List τ} {d' : Transformed D'}
    (h : (e.embed es ed).transform X fh = .ok d') :
    ∃ d, e.transform X fh = .ok d ∧ d' = d.inj ed := by
  rw [embed_transform] at h
  cases h0 : e.transform X fh with
  | error err => rw [h0] at h; cases h
  | ok e0 => rw [h0] at h; cases h; exact ⟨e0, rfl, rfl⟩

theorem embed_call (e : EffectObj S Y Sc τ V D K) (θ : SiteEnv K) (d : Transformed D)
    (p : PyDict (Tensor K)) :
    (e.embed es ed).cls.call (e.embed es ed).st θ (d.inj ed) p = e.cls.call e.st θ d p := by
  simp only [EffectObj.embed, EffectClass.embed, es.proj_inj, Transformed.proj_inj]

theorem embed_pointwiseEffect [LinearOrder τ] [Zero V] {e : EffectObj S Y Sc τ V D K}
    {f : SiteEnv K → τ → K → (String → V) → K} (h : PointwiseEffect e f) :
    PointwiseEffect (e.embed es ed) f := by
  intro θ x fh d p tr v hx ht hp hv
  obtain ⟨d, ht', rfl⟩ := embed_transform_ok ht
  rw [embed_call] at hv
  exact h θ x fh d p tr v hx ht' hp hv

theorem embed_pointwiseTrend [LinearOrder τ] {e : EffectObj S Y Sc τ V D K} {Ok : SiteEnv K → Prop}
    {g : SiteEnv K → τ → K} (h : PointwiseTrend e Ok g) : PointwiseTrend (e.embed es ed) Ok g := by
  intro θ x fh d v hok hx ht hv
  obtain ⟨d, ht', rfl⟩ := embed_transform_ok ht
  rw [embed_call] at hv
  exact h θ x fh d v hok hx ht' hv

theorem embed_logPrior [DecidableEq τ] {e : EffectObj S Y Sc τ V D ℝ} {pr : Priors (Transformed D)}
    {q : SiteEnv ℝ → ℝ} (h : LogPrior e pr q) : LogPrior (e.embed es ed) (pr.embed ed) q := by
  intro θ x fh d p ss ht hp
  obtain ⟨d, ht', rfl⟩ := embed_transform_ok ht
  simp only [Priors.embed, Transformed.proj_inj] at hp
  exact h θ x fh d p ss ht' hp

end
end PV
