import Verif.Props.Features

/-!
# C73: effects for a single series refuse panels
-/

set_option linter.unusedSectionVars false

namespace PV

section
variable {S Y Sc τ V D K : Type} [DecidableEq τ]

/-- **C73**, one effect: on data with several series an effect for single series raises
`ValueError`, before its own `_fit` runs; in every other case `fit` succeeds exactly if its own
`_fit` does. -/
theorem C73_effect (e : EffectObj S Y Sc τ V D K) (y : Y) (x : Frame String τ V) (sc : Sc) :
    (e.cls.tags.supportsMultivariate = false → 1 < x.nlevels →
      e.fit y (some x) sc = .error .valueError) ∧
    (e.cls.tags.supportsMultivariate = true ∨ x.nlevels ≤ 1 →
      ((∃ e', e.fit y (some x) sc = .ok e') ↔ ∃ s, e.cls.fit e.st.2 y (some x) sc = .ok s)) := by
  constructor
  · intro h1 h2
    unfold EffectObj.fit baseFit
    rw [if_pos ⟨h1, x, rfl, h2⟩]
    rfl
  · intro h
    unfold EffectObj.fit baseFit
    rw [if_neg]
    · cases hs : e.cls.fit e.st.2 y (some x) sc with
      | error er => simp [hs, bind, Except.bind]
      | ok s => simp [hs, bind, Except.bind, pure, Except.pure]
    · rintro ⟨h1, x', hx', h2⟩
      cases hx'
      rcases h with h | h
      · rw [h] at h1; cases h1
      · omega

/-- **C73**, the list of effects: fitting on several series succeeds only if every effect, matching
columns or not, supports several series; and so must the default effect if columns are left. -/
theorem C73_effects {compile : String → PyM (String → Bool)} {x : Frame String τ V} {y : Y}
    {scale : Sc} {effects : List (EffectSpec S Y Sc τ V D K)} {dflt : EffectObj S Y Sc τ V D K}
    {fitted : List (FittedEffect S Y Sc τ V D K)} {ws : List EffectWarning} (hn : 1 < x.nlevels)
    (h : fitEffects compile effects dflt (some x) y scale = .ok (fitted, ws)) :
    (∀ e ∈ effects, e.effect.cls.tags.supportsMultivariate = true) ∧
    ∀ fe ∈ fitted, fe.effect.cls.tags.supportsMultivariate = true := by
  have key : ∀ {e e' : EffectObj S Y Sc τ V D K} {cs : List String},
      e.fit y (some { x with cols := cs }) scale = .ok e' →
      e.cls.tags.supportsMultivariate = true := by
    intro e e' cs hf
    cases hs : e.cls.tags.supportsMultivariate with
    | true => rfl
    | false =>
      rw [(C73_effect e y { x with cols := cs } scale).1 hs hn] at hf
      cases hf
  obtain ⟨fes, hf, -, hcase⟩ := fitEffects_ok.1 h
  have h1 : (∀ e ∈ effects, e.effect.cls.tags.supportsMultivariate = true) ∧
      ∀ fe ∈ fes, fe.effect.cls.tags.supportsMultivariate = true := by
    clear hcase h
    induction hf with
    | nil => simp
    | cons h1 h2 ih =>
      have := key h1.2.2
      refine ⟨?_, ?_⟩
      · intro e he
        rcases List.mem_cons.1 he with rfl | he
        · exact this
        · exact ih.1 e he
      · intro e he
        rcases List.mem_cons.1 he with rfl | he
        · rw [(effectFit_ok h1.2.2).1]; exact this
        · exact ih.2 e he
  refine ⟨h1.1, ?_⟩
  rcases hcase with ⟨-, h⟩ | ⟨eff, -, h2, h⟩
  · rw [h]; exact h1.2
  · rw [h]
    intro fe hfe
    rcases List.mem_append.1 hfe with h3 | h3
    · exact h1.2 fe h3
    · rw [List.mem_singleton.1 h3]
      show eff.cls.tags.supportsMultivariate = true
      rw [(effectFit_ok h2).1]
      exact key h2

/-- **C73**, the classes of the package: log, Hill and lift effects are for single series; linear
effects, seasonality and trends are not. -/
theorem C73_builtin_tags :
    (∀ t ∈ [baseTags, liftTags], t.supportsMultivariate = false) ∧
    (∀ t ∈ [linearTags, fourierTags, trendTags], t.supportsMultivariate = true) := by decide

end

section
variable {S Sc τ D K : Type} [Field K] [LinearOrder K] [IsStrictOrderedRing K] [LinearOrder τ]

theorem locBottom_nlevels {V : Type} {f g : Frame String τ V} (h : locBottom f = .ok g) :
    g.nlevels = f.nlevels := by
  unfold locBottom at h
  split at h
  · cases h; rfl
  · simp only [bind, Except.bind] at h
    split at h
    · cases h
    · rename_i idx hidx
      unfold getMultiindexLoc at h
      cases idx with
      | nil => cases h
      | cons v l => cases h; rfl

theorem expandTransform_nlevels {V : Type} [Zero V] {st : ExpandState} {x g : Frame String τ V}
    (h : expandTransform st x = .ok g) : g.nlevels = x.nlevels := by
  cases hs : st.skip with
  | true =>
    unfold expandTransform at h
    rw [if_pos hs] at h
    cases h; rfl
  | false => exact (expandTransform_ok hs h).2.1

/-- **C73**, hierarchical forecaster: `fit` on a hierarchy succeeds only if every effect supports
several series. -/
theorem C73_hierarchical {cfg : HierConfig S Sc τ D K} {y : Frame String τ K}
    {X : Option (Frame String τ K)} {m : HierFit S Sc τ D K} (hy : 2 ≤ y.nlevels)
    (hX : ∀ x ∈ X, 2 ≤ x.nlevels)
    (hF : ∀ x z, cfg.fitFeatures x = .ok z → z.nlevels = x.nlevels)
    (h : hierFitData cfg y X = .ok m) :
    (∀ e ∈ cfg.effects, e.effect.cls.tags.supportsMultivariate = true) ∧
    ∀ fe ∈ m.fitted, fe.effect.cls.tags.supportsMultivariate = true := by
  unfold hierFitData at h
  simp only [bind, Except.bind] at h
  split at h
  · cases h
  split at h
  · cases h
  split at h
  · cases h
  rename_i ex hex
  have hlv : 2 ≤ ex.2.nlevels := by
    have h0 : 2 ≤ (exogOr X (Frame.ofMultiIndex (aggregate cfg.keep y).nlevels
        (aggregate cfg.keep y).index)).nlevels := by
      have ha : (aggregate cfg.keep y).nlevels = y.nlevels := by
        rw [aggregate_eq cfg.keep (by omega)]; rfl
      unfold exogOr
      cases X with
      | none => simpa [Frame.ofMultiIndex, ha] using hy
      | some x =>
        simp only
        split
        · simpa [Frame.ofMultiIndex, ha] using hy
        · exact hX x rfl
    unfold hierExog at hex
    simp only [bind, Except.bind] at hex
    split at hex
    · cases hex
    rename_i x0 hx0
    split at hex
    · cases hex
    rename_i z hz
    have hzl : 2 ≤ z.nlevels := by rw [hF _ _ hz, locBottom_nlevels hx0]; exact h0
    unfold fitExpand at hex
    split at hex
    · cases hex; exact hzl
    · simp only [bind, Except.bind] at hex
      split at hex
      · cases hex
      split at hex
      · cases hex
      rename_i g hg
      cases hex
      rw [expandTransform_nlevels hg]; exact hzl
  split at h
  · cases h
  split at h
  · cases h
  split at h
  · cases h
  rename_i fw hfw
  split at h
  · cases h
  split at h
  · cases h
  cases h
  exact C73_effects (by omega) hfw

end

/-- The forecaster of `C55` with an effect for single series that matches no column. -/
def exHier73 : HierConfig (Option ℚ) (Scale ℚ) ℤ (Tensor ℚ) ℚ :=
  { exHier with
    effects := [⟨"hill", (({ linearClass "additive" with tags := baseTags } :
      EffectClass _ _ _ _ _ _ _)).new, none⟩] }

example : (hierFitData exHier73 exHierY (some exHierX)).map (fun m => m.data)
    = .error .valueError := by decide +kernel
example {m} (h : hierFitData exHier exHierY (some exHierX) = .ok m) :=
  C73_hierarchical (by decide) (by intro x hx; cases hx; decide)
    (by intro x z h; cases h; rfl) h
example : (hierFitData exHier exHierY (some exHierX)).toOption.isSome = true := by decide +kernel

end PV
