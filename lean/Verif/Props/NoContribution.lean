import Verif.Props.FitEffects

/-!
# C18: effects that are skipped change nothing
-/

namespace PV
variable {S Y Sc τ V D K : Type}

theorem keepNonSkipped_append (l l' : List (FittedEffect S Y Sc τ V D K)) :
    keepNonSkipped (l ++ l') = (do
      let a ← keepNonSkipped l
      let b ← keepNonSkipped l'
      pure (a ++ b)) := by
  induction l with
  | nil => cases h : keepNonSkipped l' <;> simp [keepNonSkipped, h, bind, Except.bind, pure, Except.pure]
  | cons e l ih =>
    simp only [List.cons_append, keepNonSkipped, ih, bind, Except.bind, pure, Except.pure]
    cases e.effect.skip with
    | error er => rfl
    | ok b =>
      cases keepNonSkipped l with
      | error er => rfl
      | ok a =>
        cases keepNonSkipped l' with
        | error er => rfl
        | ok a' => cases b <;> rfl

/-- **C18**: an effect that needs columns and matches none changes nothing: without it the fitted
forecaster gives the model the same effects and, for every `X` and horizon, the same data. -/
theorem C18_no_contribution [DecidableEq τ] {compile : String → PyM (String → Bool)}
    {x : Frame String τ V} {y : Y} {scale : Sc} {l₁ l₂ : List (EffectSpec S Y Sc τ V D K)}
    {e : EffectSpec S Y Sc τ V D K} {dflt : EffectObj S Y Sc τ V D K}
    {fitted : List (FittedEffect S Y Sc τ V D K)} {ws : List EffectWarning} (hr : x.rows ≠ [])
    (hno : ∀ c ∈ x.cols, ¬ Matches compile e.regex c)
    (hskip : e.effect.cls.tags.skipIfNoMatch = true)
    (h : fitEffects compile (l₁ ++ e :: l₂) dflt (some x) y scale = .ok (fitted, ws)) :
    ∃ fitted' ws', fitEffects compile (l₁ ++ l₂) dflt (some x) y scale = .ok (fitted', ws') ∧
      nonSkipped fitted' = nonSkipped fitted ∧
      ∀ X fh, transformEffects fitted' X fh = transformEffects fitted X fh := by
  obtain ⟨fe0, b, hfe0, hb, hbt⟩ := C18_skip hr h l₁.length e (by simp)
  have hb : fe0.effect.skip = .ok true := by rw [hb, hbt.2 ⟨hno, hskip⟩]
  obtain ⟨fes, hf, -, hcase⟩ := fitEffects_ok.1 h
  have hsplit : ∀ (l₁ l₂ : List (EffectSpec S Y Sc τ V D K)) fes,
      List.Forall₂ (FittedFrom compile x y scale) (l₁ ++ e :: l₂) fes →
      ∃ f₁ fe f₂, fes = f₁ ++ fe :: f₂ ∧ f₁.length = l₁.length ∧
        FittedFrom compile x y scale e fe ∧
        List.Forall₂ (FittedFrom compile x y scale) (l₁ ++ l₂) (f₁ ++ f₂) := by
    intro l₁ l₂
    induction l₁ with
    | nil =>
      intro fes hf
      obtain ⟨fe, f₂, h1, h2, rfl⟩ := List.forall₂_cons_left_iff.1 hf
      exact ⟨[], fe, f₂, rfl, rfl, h1, h2⟩
    | cons a l ih =>
      intro fes hf
      obtain ⟨fa, fr, h1, h2, rfl⟩ := List.forall₂_cons_left_iff.1 hf
      obtain ⟨f₁, fe, f₂, rfl, hl, h3, h4⟩ := ih fr h2
      exact ⟨fa :: f₁, fe, f₂, rfl, by simp [hl], h3, .cons h1 h4⟩
  obtain ⟨f₁, fe, f₂, rfl, hl, hfe, hf'⟩ := hsplit l₁ l₂ fes hf
  have hfe0' : fe0 = fe := by
    have : (f₁ ++ fe :: f₂)[l₁.length]? = some fe := by rw [← hl]; simp
    rcases hcase with ⟨-, rfl⟩ | ⟨eff, -, -, rfl⟩
    · rw [this] at hfe0; exact (Option.some.inj hfe0).symm
    · rw [List.getElem?_append_left (by simp [hl]), this] at hfe0
      exact (Option.some.inj hfe0).symm
  subst hfe0'
  have hcols : fe0.cols = [] := by
    obtain ⟨fe', h1, -, h2, -⟩ := C15_explicit h l₁.length e (by simp)
    rw [hfe0, Option.some.injEq] at h1
    subst h1
    exact List.eq_nil_iff_forall_not_mem.2 fun c hc => hno c ((h2 c).1 hc).1 ((h2 c).1 hc).2
  have hflat : (f₁ ++ fe0 :: f₂).flatMap FittedEffect.cols = (f₁ ++ f₂).flatMap FittedEffect.cols := by
    simp [hcols]
  rw [hflat] at hcase
  -- dropping a skipped effect from the fitted ones
  have key : ∀ rest : List (FittedEffect S Y Sc τ V D K),
      nonSkipped ((f₁ ++ f₂) ++ rest) = nonSkipped ((f₁ ++ fe0 :: f₂) ++ rest) ∧
      ∀ X fh, transformEffects ((f₁ ++ f₂) ++ rest) X fh
        = transformEffects ((f₁ ++ fe0 :: f₂) ++ rest) X fh := by
    intro rest
    constructor
    · unfold nonSkipped
      have e1 : (f₁ ++ f₂) ++ rest = f₁ ++ (f₂ ++ rest) := by simp
      have e2 : (f₁ ++ fe0 :: f₂) ++ rest = f₁ ++ fe0 :: (f₂ ++ rest) := by simp
      rw [e1, e2, keepNonSkipped_append, keepNonSkipped_append f₁]
      have : keepNonSkipped (fe0 :: (f₂ ++ rest)) = keepNonSkipped (f₂ ++ rest) := by
        simp only [keepNonSkipped, hb, bind, Except.bind, pure, Except.pure, if_true]
        cases keepNonSkipped (f₂ ++ rest) <;> rfl
      rw [this]
    · intro X fh
      unfold transformEffects
      simp only [List.foldlM_append, List.foldlM_cons, List.append_assoc]
      congr 1
      funext out
      have : transformStep X fh out fe0 = .ok out := by
        unfold transformStep
        simp only [hb, bind, Except.bind, if_true, pure, Except.pure]
      rw [this]
      rfl
  rcases hcase with ⟨h1, rfl⟩ | ⟨eff, h1, h2, rfl⟩
  · refine ⟨f₁ ++ f₂, _, fitEffects_ok.2 ⟨f₁ ++ f₂, hf', rfl, .inl ⟨h1, rfl⟩⟩, ?_⟩
    have := key []
    rwa [List.append_nil, List.append_nil] at this
  · exact ⟨_, _, fitEffects_ok.2 ⟨f₁ ++ f₂, hf', rfl, .inr ⟨eff, h1, h2, rfl⟩⟩, key _⟩

/-- The effect `three` of the example of `C15` matches no column. -/
example {fitted ws} (h : fitEffects exCompile exEffects (exObj linearTags) (some exX) () ()
    = .ok (fitted, ws)) :=
  C18_no_contribution (l₁ := exEffects.take 2) (l₂ := exEffects.drop 3) (e := exEffects[2])
    (by simp [exX]) (by
      rintro c - ⟨r, p, hr, hp, hc⟩
      cases hr
      have : exCompile "q" = .ok fun _ => false := by rfl
      rw [this] at hp
      cases hp
      simp at hc) rfl h

end PV
