import Verif.Model.Fourier
import Verif.Model.FitEffects
import Verif.Props.Expand

/-!
# C31: fitting a seasonality effect again
-/

namespace PV
variable {F Y Sc τ V : Type}

/-- The arguments of one call of `fit`. -/
structure FitArgs (Y Sc τ V : Type) where
  y : Y
  X : Option (Frame String τ V)
  scale : Sc

/-- The states a sequence of successful fits can leave an effect in. -/
inductive AfterFits {S D : Type} (h : Hooks S Y Sc τ V D) (made : BaseState × S) :
    List (FitArgs Y Sc τ V) → BaseState × S → Prop
  | new : AfterFits h made [] made
  | fit {l : List (FitArgs Y Sc τ V)} {st st' : BaseState × S} {a : FitArgs Y Sc τ V}
      (before : AfterFits h made l st) (ok : baseFit h st a.y a.X a.scale = .ok st') :
      AfterFits h made (l ++ [a]) st'

/-- `X` holds several series. -/
def SeveralSeries (X : Option (Frame String τ V)) : Prop :=
  ∃ x, X = some x ∧ x.nlevels > 1 ∧ x.series.length > 1

/-- The Fourier transformer replaces the columns and keeps the index. -/
def FourierLib.KeepsIndex (lib : FourierLib F τ V) : Prop :=
  ∀ φ x x', lib.transform φ x = .ok x' → x'.nlevels = x.nlevels ∧ x'.index = x.index

theorem series_of_index {x x' : Frame String τ V} (h : x'.index = x.index) :
    x'.series = x.series := by
  have : x'.rows.map Row.sid = x.rows.map Row.sid := by
    have := congrArg (List.map Prod.fst) h
    simpa [Frame.index, Function.comp_def] using this
  unfold Frame.series
  rw [this]

section
variable [Zero V] [DecidableEq τ] {lib : FourierLib F τ V}
  {compile : String → PyM (String → Bool)} {order : List String → List String}

/-- A fit depends on the earlier state only through the expansion, and only if there are not
several series. -/
theorem fourierFit_congr (hlib : lib.KeepsIndex) {st st' : BaseState × FourierState F} {y : Y}
    {X : Option (Frame String τ V)} {scale : Sc}
    (h : SeveralSeries X ∨ st.2.expand = st'.2.expand) :
    baseFit (fourierHooks lib compile order) st y X scale
      = baseFit (fourierHooks lib compile order) st' y X scale := by
  have : (fourierHooks (Y := Y) (Sc := Sc) lib compile order).fit st.2 y X scale
      = (fourierHooks lib compile order).fit st'.2 y X scale := by
    rcases h with ⟨x, rfl, h1, h2⟩ | h
    · simp only [fourierHooks]
      cases hφ : lib.fit x with
      | error e => rfl
      | ok φ =>
        simp only [bind, Except.bind]
        cases hx : lib.transform φ x with
        | error e => rfl
        | ok x' =>
          obtain ⟨e1, e2⟩ := hlib φ x x' hx
          simp only [fourierExpand, e1, series_of_index e2, h1, h2, and_self, if_true]
    · simp only [fourierHooks, h]
  unfold baseFit
  rw [this]

theorem fourierFit_expand (hlib : lib.KeepsIndex) {st st' : BaseState × FourierState F} {y : Y}
    {X : Option (Frame String τ V)} {scale : Sc}
    (h : baseFit (fourierHooks lib compile order) st y X scale = .ok st')
    (hX : ¬ SeveralSeries X) : st'.2.expand = st.2.expand := by
  unfold baseFit at h
  simp only [fourierHooks, fourierTags, Bool.true_eq_false, false_and, if_false] at h
  cases X with
  | none => cases h
  | some x =>
    simp only [bind, Except.bind] at h
    cases hφ : lib.fit x with
    | error e => rw [hφ] at h; cases h
    | ok φ =>
      rw [hφ] at h
      simp only at h
      cases hx : lib.transform φ x with
      | error e => rw [hx] at h; cases h
      | ok x' =>
        obtain ⟨e1, e2⟩ := hlib φ x x' hx
        have hno : ¬ (x'.nlevels > 1 ∧ x'.series.length > 1) := by
          rw [e1, series_of_index e2]
          exact fun hh => hX ⟨x, rfl, hh⟩
        rw [hx] at h
        simp only [fourierExpand, hno, if_false, pure, Except.pure] at h
        split at h
        · cases h
        · rename_i s hs
          cases h
          split at hs
          · cases hs
          · cases hs; rfl

/-- **C31** unless an effect fitted on several series is fitted again on a single one: the
outcome of a fit is the one of a new effect, whatever the effect was fitted on before.  Hence so is
everything computed from it afterwards.
Missing from C31: the excluded case and the exception of an unfitted effect, for which it is false
(`C31_refit_refuted`, `C31_unfitted_refuted`). -/
theorem C31_refit_partial (hlib : lib.KeepsIndex) {l : List (FitArgs Y Sc τ V)}
    {st : BaseState × FourierState F} (hst : AfterFits (fourierHooks lib compile order) fourierMade l st)
    (a : FitArgs Y Sc τ V) (h : SeveralSeries a.X ∨ ∀ b ∈ l, ¬ SeveralSeries b.X) :
    baseFit (fourierHooks lib compile order) st a.y a.X a.scale
      = baseFit (fourierHooks lib compile order) fourierMade a.y a.X a.scale := by
  refine fourierFit_congr hlib ?_
  rcases h with h | h
  · exact Or.inl h
  · refine Or.inr ?_
    induction hst with
    | new => rfl
    | fit before ok ih =>
      rw [fourierFit_expand hlib ok (h _ (by simp))]
      exact ih fun b hb => h b (by simp [hb])

/-- **C31**, the exception: transforming an effect that was never fitted raises an
`AttributeError` instead of the documented `ValueError`, for all data. -/
theorem C31_unfitted_refuted (X : Option (Frame String τ V)) (fh : List τ) :
    baseTransform (fourierHooks (Y := Y) (Sc := Sc) lib compile order) fourierMade X fh
      = .error .attributeError := rfl

end

/-! ## Through a forecaster -/

section
variable {S D K : Type}

/-- Two entries of `exogenous_effects` with the same parameters, in any state. -/
def SameParams (e e' : EffectSpec S Y Sc τ V D K) : Prop :=
  e.name = e'.name ∧ e.regex = e'.regex ∧ e.effect.cls = e'.effect.cls ∧
    e.effect.made = e'.effect.made

theorem clone_congr {e e' : EffectObj S Y Sc τ V D K} (h1 : e.cls = e'.cls)
    (h2 : e.made = e'.made) : e.clone = e'.clone := by
  cases e; cases e'
  simp only at h1 h2
  subst h1 h2
  rfl

/-- **C31**: a forecaster fits copies of its effects, so fitting it does not depend on what the
effect objects given to it were fitted on before. -/
theorem C31_forecaster {compile : String → PyM (String → Bool)}
    {effects effects' : List (EffectSpec S Y Sc τ V D K)} {dflt dflt' : EffectObj S Y Sc τ V D K}
    (h : List.Forall₂ SameParams effects effects') (hc : dflt.cls = dflt'.cls)
    (hm : dflt.made = dflt'.made) (X : Option (Frame String τ V)) (y : Y) (scale : Sc) :
    fitEffects compile effects dflt X y scale = fitEffects compile effects' dflt' X y scale := by
  have hfold : ∀ acc, effects.foldlM (fitStep compile X y scale) acc
      = effects'.foldlM (fitStep compile X y scale) acc := by
    induction h with
    | nil => intro acc; rfl
    | @cons a b l l' hd tl ih =>
      intro acc
      obtain ⟨h1, h2, h3, h4⟩ := hd
      rw [List.foldlM_cons, List.foldlM_cons]
      have : fitStep compile X y scale acc a = fitStep compile X y scale acc b := by
        unfold fitStep
        rw [h1, h2, clone_congr h3 h4]
      rw [this]
      congr 1
      funext a
      exact ih a
  unfold fitEffects
  rw [hfold, clone_congr hc hm]

end

/-! ## The refutation and non-vacuity -/

/-- One feature, equal to the time. -/
def exLib31 : FourierLib Unit Nat ℤ where
  fit := fun _ => .ok ()
  transform := fun _ x => .ok ⟨x.nlevels, ["sin"], x.rows.map fun r => { r with val := fun _ => r.time }⟩

def exTwo31 : Frame String Nat ℤ := ⟨2, [], [⟨["a"], 0, fun _ => 0⟩, ⟨["b"], 0, fun _ => 0⟩]⟩
def exOne31 : Frame String Nat ℤ := ⟨2, [], [⟨["a"], 0, fun _ => 0⟩, ⟨["a"], 1, fun _ => 0⟩]⟩

/-- The hooks of the example. -/
def exHooks31 : Hooks (FourierState Unit) Unit Unit Nat ℤ (Transformed (Tensor ℤ)) :=
  fourierHooks exLib31 someCompile id

/-- Fit on `first` (if given), then on `x`, then transform `x`. -/
def fitAgain31 (first : Option (Frame String Nat ℤ)) (x : Frame String Nat ℤ) :
    PyM (Transformed (Transformed (Tensor ℤ))) := do
  let st ← match first with
    | none => pure fourierMade
    | some x0 => baseFit exHooks31 fourierMade () (some x0) ()
  let st ← baseFit exHooks31 st () (some x) ()
  baseTransform exHooks31 st (some x) [0, 1]

/-- **C31** is false: an effect fitted on two series and then on one cannot transform the data it
has just been fitted on, a new effect can. -/
theorem C31_refit_refuted :
    fitAgain31 (some exTwo31) exOne31 = .error .keyError ∧
    ∃ d, fitAgain31 none exOne31 = .ok d := by
  constructor
  · rfl
  · exact ⟨_, rfl⟩

example : exLib31.KeepsIndex := by
  intro φ x x' h
  cases h
  exact ⟨rfl, by simp [Frame.index]⟩

example : SeveralSeries (some exTwo31) := ⟨exTwo31, rfl, by decide, by decide⟩
example : ¬ SeveralSeries (some exOne31) := by
  rintro ⟨x, hx, -, h⟩
  cases hx
  revert h
  decide

example : ∃ st, AfterFits exHooks31 fourierMade [⟨(), some exTwo31, ()⟩] st :=
  ⟨_, .fit (l := []) .new rfl⟩

example : ∃ d, fitAgain31 (some exOne31) exTwo31 = .ok d := ⟨_, rfl⟩

end PV
