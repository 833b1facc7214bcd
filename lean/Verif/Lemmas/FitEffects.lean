import Verif.Model.FitEffects
import Verif.Lemmas.Dict

/-! # Lemmas on the column assignment loop -/

namespace PV
variable {S Y Sc τ V D K : Type}

/-- What one iteration of `_fit_effects` produces. -/
def FittedFrom (compile : String → PyM (String → Bool)) (x : Frame String τ V) (y : Y)
    (scale : Sc) (e : EffectSpec S Y Sc τ V D K) (fe : FittedEffect S Y Sc τ V D K) : Prop :=
  fe.name = e.name ∧ matchColumns compile x.cols e.regex = .ok fe.cols ∧
    e.effect.clone.fit y (some { x with cols := fe.cols }) scale = .ok fe.effect

def warnsOf : List String → List (FittedEffect S Y Sc τ V D K) → List EffectWarning
  | _, [] => []
  | taken, fe :: l =>
    (if fe.cols.any (taken.contains ·) then [EffectWarning.alreadySet fe.name] else []) ++
    (if fe.cols.isEmpty then [EffectWarning.noMatch fe.name] else []) ++
    warnsOf (taken ++ fe.cols) l

theorem matchColumns_sublist {compile : String → PyM (String → Bool)} {cols r : List String}
    {regex : Option String} (h : matchColumns compile cols regex = .ok r) : r.Sublist cols := by
  unfold matchColumns at h
  cases regex with
  | none => simp only [Except.ok.injEq] at h; subst h; exact List.nil_sublist _
  | some re =>
    cases hc : compile re with
    | error e => simp [hc, bind, Except.bind] at h
    | ok p =>
      simp only [hc, bind, Except.bind, pure, Except.pure, Except.ok.injEq] at h
      subst h
      exact List.filter_sublist

theorem select_of_subset {f : Frame String τ V} {cs : List String} (h : ∀ c ∈ cs, c ∈ f.cols) :
    f.select cs = .ok { f with cols := cs } := by
  unfold Frame.select
  rw [if_pos h]

theorem fitStep_ok {compile : String → PyM (String → Bool)} {x : Frame String τ V} {y : Y}
    {scale : Sc} {acc acc' : FitState S Y Sc τ V D K} {e : EffectSpec S Y Sc τ V D K} :
    fitStep compile (some x) y scale acc e = .ok acc' ↔
    ∃ fe, FittedFrom compile x y scale e fe ∧
      acc' = ⟨acc.fitted ++ [fe], acc.taken ++ fe.cols, acc.warnings ++ warnsOf acc.taken [fe]⟩ := by
  unfold fitStep FittedFrom
  cases hm : matchColumns compile x.cols e.regex with
  | error er =>
    simp only [bind, Except.bind, hm]
    constructor
    · intro h; cases h
    · rintro ⟨fe, ⟨-, h, -⟩, -⟩; cases h
  | ok cols =>
    have hs := select_of_subset (f := x) (fun c hc => (matchColumns_sublist hm).subset hc)
    simp only [bind, Except.bind, hm, hs]
    cases hf : e.effect.clone.fit y (some { x with cols := cols }) scale with
    | error er =>
      simp only [hf]
      constructor
      · intro h; cases h
      · rintro ⟨fe, ⟨-, h, h2⟩, -⟩
        rw [Except.ok.injEq] at h
        rw [← h, hf] at h2
        cases h2
    | ok eff =>
      simp only [pure, Except.pure, hf, Except.ok.injEq]
      constructor
      · intro h
        refine ⟨⟨e.name, eff, cols⟩, ⟨rfl, rfl, hf⟩, ?_⟩
        rw [← h]
        simp [warnsOf, List.append_assoc]
      · rintro ⟨⟨n, eff', cols'⟩, ⟨h1, h2, h3⟩, h⟩
        simp only at h1 h2 h3 h
        subst h1 h2
        rw [hf, Except.ok.injEq] at h3
        subst h3
        rw [h]
        simp [warnsOf, List.append_assoc]

theorem warnsOf_cons (taken : List String) (fe : FittedEffect S Y Sc τ V D K)
    (l : List (FittedEffect S Y Sc τ V D K)) :
    warnsOf taken (fe :: l) = warnsOf taken [fe] ++ warnsOf (taken ++ fe.cols) l := by
  simp [warnsOf]

theorem foldlM_fitStep {compile : String → PyM (String → Bool)} {x : Frame String τ V} {y : Y}
    {scale : Sc} : ∀ {effects : List (EffectSpec S Y Sc τ V D K)}
    {acc acc' : FitState S Y Sc τ V D K},
    effects.foldlM (fitStep compile (some x) y scale) acc = .ok acc' ↔
    ∃ fes, List.Forall₂ (FittedFrom compile x y scale) effects fes ∧
      acc' = ⟨acc.fitted ++ fes, acc.taken ++ fes.flatMap FittedEffect.cols,
        acc.warnings ++ warnsOf acc.taken fes⟩
  | [], acc, acc' => by
    simp only [List.foldlM_nil, pure, Except.pure, Except.ok.injEq]
    constructor
    · intro h
      exact ⟨[], .nil, by rw [← h]; simp [warnsOf]⟩
    · rintro ⟨fes, hf, h⟩
      cases hf
      rw [h]; simp [warnsOf]
  | e :: effects, acc, acc' => by
    rw [List.foldlM_cons]
    cases hs : fitStep compile (some x) y scale acc e with
    | error er =>
      simp only [bind, Except.bind]
      constructor
      · intro h; cases h
      · rintro ⟨fes, hf, h⟩
        cases hf with
        | cons h1 h2 =>
          rw [fitStep_ok.2 ⟨_, h1, rfl⟩] at hs
          cases hs
    | ok acc1 =>
      simp only [bind, Except.bind]
      rw [foldlM_fitStep]
      obtain ⟨fe, hfe, rfl⟩ := fitStep_ok.1 hs
      constructor
      · rintro ⟨fes, hf, h⟩
        refine ⟨fe :: fes, .cons hfe hf, ?_⟩
        rw [h, warnsOf_cons acc.taken fe fes]
        simp
      · rintro ⟨fes, hf, h⟩
        cases hf with
        | @cons _ fe' _ fes h1 h2 =>
          have : fe' = fe := by
            obtain ⟨a1, a2, a3⟩ := h1
            obtain ⟨b1, b2, b3⟩ := hfe
            rw [a2, Except.ok.injEq] at b2
            rw [← b2, a3, Except.ok.injEq] at b3
            cases fe; cases fe'
            simp_all
          subst this
          refine ⟨fes, h2, ?_⟩
          rw [h, warnsOf_cons acc.taken fe' fes]
          simp

theorem remaining_perm (cols taken : List String) :
    (remainingColumns cols taken).Perm (cols.filter fun c => !taken.contains c) :=
  List.perm_insertionSort _ _

theorem mem_remaining {cols taken : List String} {c : String} :
    c ∈ remainingColumns cols taken ↔ c ∈ cols ∧ c ∉ taken := by
  rw [(remaining_perm cols taken).mem_iff, List.mem_filter]
  simp

/-- The outcome of `_fit_effects` with exogenous data. -/
theorem fitEffects_ok {compile : String → PyM (String → Bool)} {x : Frame String τ V} {y : Y}
    {scale : Sc} {effects : List (EffectSpec S Y Sc τ V D K)}
    {dflt : EffectObj S Y Sc τ V D K} {fitted : List (FittedEffect S Y Sc τ V D K)}
    {ws : List EffectWarning} :
    fitEffects compile effects dflt (some x) y scale = .ok (fitted, ws) ↔
    ∃ fes, List.Forall₂ (FittedFrom compile x y scale) effects fes ∧ ws = warnsOf [] fes ∧
      ((remainingColumns x.cols (fes.flatMap FittedEffect.cols) = [] ∧ fitted = fes) ∨
       (∃ eff, remainingColumns x.cols (fes.flatMap FittedEffect.cols) ≠ [] ∧
        dflt.clone.fit y
          (some { x with cols := remainingColumns x.cols (fes.flatMap FittedEffect.cols) }) scale
            = .ok eff ∧
        fitted = fes ++ [⟨defaultEffectName, eff,
          remainingColumns x.cols (fes.flatMap FittedEffect.cols)⟩])) := by
  unfold fitEffects
  cases hf : effects.foldlM (fitStep compile (some x) y scale) ⟨[], [], []⟩ with
  | error er =>
    simp only [bind, Except.bind]
    constructor
    · intro h; cases h
    · rintro ⟨fes, h, -⟩
      rw [foldlM_fitStep.2 ⟨fes, h, rfl⟩] at hf
      cases hf
  | ok acc =>
    obtain ⟨fes, hfes, rfl⟩ := foldlM_fitStep.1 hf
    simp only [bind, Except.bind, List.nil_append]
    have huniq : ∀ fes', List.Forall₂ (FittedFrom compile x y scale) effects fes' →
        fes' = fes := by
      intro fes' h'
      have := (foldlM_fitStep (acc := ⟨[], [], []⟩)).2 ⟨fes', h', rfl⟩
      rw [hf, Except.ok.injEq] at this
      simp only [List.nil_append, FitState.mk.injEq] at this
      exact this.1.symm
    by_cases hr : remainingColumns x.cols (fes.flatMap FittedEffect.cols) = []
    · simp only [hr, List.isEmpty_nil, if_true, pure, Except.pure, Except.ok.injEq,
        Prod.mk.injEq]
      constructor
      · rintro ⟨rfl, rfl⟩
        exact ⟨fes, hfes, rfl, Or.inl ⟨hr, rfl⟩⟩
      · rintro ⟨fes', hfes', rfl, h⟩
        rw [huniq _ hfes'] at h ⊢
        rcases h with ⟨-, rfl⟩ | ⟨eff, h, -⟩
        · exact ⟨rfl, rfl⟩
        · exact absurd hr h
    · have hie : (remainingColumns x.cols (fes.flatMap FittedEffect.cols)).isEmpty = false := by
        cases h : remainingColumns x.cols (fes.flatMap FittedEffect.cols) with
        | nil => exact absurd h hr
        | cons a l => rfl
      simp only [hie, Bool.false_eq_true, if_false,
        select_of_subset (f := x) (fun c hc => (mem_remaining.1 hc).1)]
      cases hd : dflt.clone.fit y
          (some { x with cols := remainingColumns x.cols (fes.flatMap FittedEffect.cols) }) scale with
      | error er =>
        simp only
        constructor
        · intro h; cases h
        · rintro ⟨fes', hfes', rfl, h⟩
          rw [huniq _ hfes'] at h
          rcases h with ⟨h, -⟩ | ⟨eff, -, h, -⟩
          · exact absurd h hr
          · rw [hd] at h; cases h
      | ok eff =>
        simp only [pure, Except.pure, Except.ok.injEq, Prod.mk.injEq]
        constructor
        · rintro ⟨rfl, rfl⟩
          exact ⟨fes, hfes, rfl, Or.inr ⟨eff, hr, hd, rfl⟩⟩
        · rintro ⟨fes', hfes', rfl, h⟩
          rw [huniq _ hfes'] at h ⊢
          rcases h with ⟨h, -⟩ | ⟨eff', -, h, rfl⟩
          · exact absurd h hr
          · rw [hd, Except.ok.injEq] at h
            subst h
            exact ⟨rfl, rfl⟩

theorem baseFit_ok {S Y Sc τ V D : Type} {h : Hooks S Y Sc τ V D} {st st' : BaseState × S}
    {y : Y} {x : Frame String τ V} {scale : Sc}
    (hf : baseFit h st y (some x) scale = .ok st') :
    st'.1 = ⟨some (if x.isEmpty then [] else x.cols), some true⟩ := by
  unfold baseFit at hf
  split at hf
  · cases hf
  · cases hs : h.fit st.2 y (some x) scale with
    | error e => simp [hs, bind, Except.bind] at hf
    | ok s =>
      simp only [hs, bind, Except.bind, pure, Except.pure, Except.ok.injEq] at hf
      rw [← hf]

theorem effectFit_ok {e e' : EffectObj S Y Sc τ V D K} {y : Y} {x : Frame String τ V} {scale : Sc}
    (hf : e.fit y (some x) scale = .ok e') :
    e'.cls = e.cls ∧ e'.made = e.made ∧
      e'.st.1 = ⟨some (if x.isEmpty then [] else x.cols), some true⟩ := by
  unfold EffectObj.fit at hf
  cases hs : baseFit e.cls.toHooks e.st y (some x) scale with
  | error er => simp [hs, bind, Except.bind] at hf
  | ok st =>
    simp only [hs, bind, Except.bind, pure, Except.pure, Except.ok.injEq] at hf
    rw [← hf]
    exact ⟨rfl, rfl, baseFit_ok hs⟩

/-- After fitting on rows, the effect knows exactly the columns it was given. -/
theorem effectFit_inputCols {e e' : EffectObj S Y Sc τ V D K} {y : Y} {x : Frame String τ V}
    {scale : Sc} (hr : x.rows ≠ []) (hf : e.fit y (some x) scale = .ok e') :
    e'.st.1 = ⟨some x.cols, some true⟩ := by
  rw [(effectFit_ok hf).2.2]
  unfold Frame.isEmpty
  cases hx : x.cols with
  | nil => simp
  | cons a l => simp [hr]

theorem mem_warnsOf_noMatch {n : String} : ∀ {taken : List String}
    {l : List (FittedEffect S Y Sc τ V D K)},
    EffectWarning.noMatch n ∈ warnsOf taken l ↔ ∃ fe ∈ l, fe.name = n ∧ fe.cols = []
  | _, [] => by simp [warnsOf]
  | taken, fe :: l => by
    rw [warnsOf, List.mem_append, mem_warnsOf_noMatch]
    simp only [List.mem_append, List.mem_cons]
    constructor
    · rintro ((h | h) | ⟨fe', h, h'⟩)
      · split at h <;> simp at h
      · split at h
        · rename_i he
          simp only [List.mem_cons, EffectWarning.noMatch.injEq, List.not_mem_nil, or_false] at h
          exact ⟨fe, Or.inl rfl, h.symm, by simpa using he⟩
        · simp at h
      · exact ⟨fe', Or.inr h, h'⟩
    · rintro ⟨fe', rfl | h, h1, h2⟩
      · exact Or.inl (Or.inr (by simp [h1, h2]))
      · exact Or.inr ⟨fe', h, h1, h2⟩

theorem mem_warnsOf_alreadySet {n : String} : ∀ {taken : List String}
    {l : List (FittedEffect S Y Sc τ V D K)},
    EffectWarning.alreadySet n ∈ warnsOf taken l ↔ ∃ i fe, l[i]? = some fe ∧ fe.name = n ∧
      ∃ c ∈ fe.cols, c ∈ taken ∨ ∃ fe' ∈ l.take i, c ∈ fe'.cols
  | _, [] => by simp [warnsOf]
  | taken, fe :: l => by
    rw [warnsOf, List.mem_append, mem_warnsOf_alreadySet]
    simp only [List.mem_append]
    constructor
    · rintro ((h | h) | ⟨i, fe', h, h1, c, hc, h2⟩)
      · split at h
        · rename_i he
          simp only [List.mem_cons, EffectWarning.alreadySet.injEq, List.not_mem_nil,
            or_false] at h
          rw [List.any_eq_true] at he
          obtain ⟨c, hc, ht⟩ := he
          exact ⟨0, fe, rfl, h.symm, c, hc, Or.inl (by simpa using ht)⟩
        · simp at h
      · split at h <;> simp at h
      · refine ⟨i + 1, fe', by simpa using h, h1, c, hc, ?_⟩
        rcases h2 with (h2 | h2) | ⟨fe'', h2, h3⟩
        · exact Or.inl h2
        · exact Or.inr ⟨fe, by simp, h2⟩
        · exact Or.inr ⟨fe'', by simp [h2], h3⟩
    · rintro ⟨i, fe', h, h1, c, hc, h2⟩
      cases i with
      | zero =>
        simp only [List.getElem?_cons_zero, Option.some.injEq] at h
        subst h
        rcases h2 with h2 | ⟨_, h2, -⟩
        · refine Or.inl (Or.inl ?_)
          rw [if_pos]
          · simp [h1]
          · rw [List.any_eq_true]
            exact ⟨c, hc, by simpa using h2⟩
        · simp at h2
      | succ i =>
        refine Or.inr ⟨i, fe', by simpa using h, h1, c, hc, ?_⟩
        rcases h2 with h2 | ⟨fe'', h2, h3⟩
        · exact Or.inl (Or.inl h2)
        · rw [List.take_succ_cons, List.mem_cons] at h2
          rcases h2 with rfl | h2
          · exact Or.inl (Or.inr h3)
          · exact Or.inr ⟨fe'', h2, h3⟩

end PV
