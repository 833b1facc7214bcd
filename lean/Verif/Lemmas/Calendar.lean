import Verif.Lemmas.ExRel
import Verif.Model.UnivariateData
import Verif.Props.TrendTime

/-!
# Data preparation under a change of the dates (for C78)
-/

namespace PV
section
variable {τ τ' ι V : Type} [DecidableEq τ] [DecidableEq τ'] {g : τ → τ'}

theorem select_mapTimes [DecidableEq ι] (x : Frame ι τ V) (cs : List ι) :
    (x.mapTimes g).select cs = (x.select cs).map (Frame.mapTimes g) := by
  unfold Frame.select
  have : (x.mapTimes g).cols = x.cols := rfl
  rw [this]
  split <;> rfl

theorem filterTimes_mapTimes (hg : Function.Injective g) (x : Frame ι τ V) (fh : List τ) :
    (x.mapTimes g).filterTimes (fh.map g) = (x.filterTimes fh).mapTimes g := by
  unfold Frame.filterTimes Frame.mapTimes
  simp only [List.filter_map]
  congr 2
  apply List.filter_congr
  intro r _
  simp [hg.eq_iff]

theorem ofIndex_mapTimes [Zero V] (idx : List τ) :
    (Frame.ofIndex (idx.map g) : Frame String τ' V) = (Frame.ofIndex idx).mapTimes g := by
  simp [Frame.ofIndex, Frame.mapTimes]

theorem locTimes_mapTimes (hg : Function.Injective g) (x : Frame String τ V) (idx : List τ) :
    (x.mapTimes g).locTimes (idx.map g) = (x.locTimes idx).map (Frame.mapTimes g) := by
  unfold Frame.locTimes
  have h1 : (∀ t ∈ idx.map g, ∃ r ∈ (x.mapTimes g).rows, r.time = t) ↔
      ∀ t ∈ idx, ∃ r ∈ x.rows, r.time = t := by
    simp [Frame.mapTimes, hg.eq_iff]
  by_cases hc : ∀ t ∈ idx, ∃ r ∈ x.rows, r.time = t
  · rw [if_pos hc, if_pos (h1.2 hc)]
    simp only [Except.map]
    congr 1
    simp only [Frame.mapTimes, List.flatMap_map, List.map_flatMap, List.filter_map]
    congr 2
    funext t
    congr 1
    apply List.filter_congr
    intro r _
    simp [hg.eq_iff]
  · rw [if_neg hc, if_neg fun h => hc (h1.1 h)]
    rfl

theorem isEmpty_mapTimes (x : Frame ι τ V) : (x.mapTimes g).isEmpty = x.isEmpty := by
  unfold Frame.isEmpty Frame.mapTimes
  cases h : x.rows <;> simp

theorem seriesToTensorOrArray_mapTimes (x : Frame ι τ V) :
    (x.mapTimes g).seriesToTensorOrArray = x.seriesToTensorOrArray := by
  unfold Frame.seriesToTensorOrArray
  rw [seriesToTensor_mapTimes]
  have h1 : (x.mapTimes g).nlevels = x.nlevels := rfl
  have h2 : (x.mapTimes g).cols = x.cols := rfl
  rw [h1, h2]
  simp [Frame.flatVals, Frame.mapTimes, List.flatMap_map]

theorem mapVals_mapTimes {W : Type} (x : Frame ι τ V) (f : List String → V → W) :
    (x.mapTimes g).mapVals f = (x.mapVals f).mapTimes g := by
  simp [Frame.mapVals, Frame.mapTimes, Function.comp_def]

theorem unique_times_mapTimes (hg : Function.Injective g) (x : Frame ι τ V) :
    unique (x.mapTimes g).times = (unique x.times).map g := by
  rw [times_mapTimes, map_unique fun _ _ _ _ h => hg h]

end

section
variable {S S' Sc τ τ' V D K : Type} [DecidableEq τ] [DecidableEq τ'] (g : τ → τ')
  (R : S → S' → Prop)

/-- Two effect classes do the same on dates `t` and dates `g t`. -/
structure SameClass (c : EffectClass S (Frame String τ K) Sc τ V D K)
    (c' : EffectClass S' (Frame String τ' K) Sc τ' V D K) : Prop where
  tags : c'.tags = c.tags
  fit : ∀ s s' y X sc, R s s' → ExRel R (c.fit s y X sc)
    (c'.fit s' (y.mapTimes g) (X.map (Frame.mapTimes g)) sc)
  transform : ∀ s s' x fh, R s s' → c'.transform s' (x.mapTimes g) (fh.map g) = c.transform s x fh
  call : ∀ b s s', R s s' → c'.call (b, s') = c.call (b, s)

/-- Two effect objects do the same on dates `t` and dates `g t`. -/
structure SameObj (e : EffectObj S (Frame String τ K) Sc τ V D K)
    (e' : EffectObj S' (Frame String τ' K) Sc τ' V D K) : Prop where
  cls : SameClass g R e.cls e'.cls
  made : e'.made.1 = e.made.1 ∧ R e.made.2 e'.made.2
  st : e'.st.1 = e.st.1 ∧ R e.st.2 e'.st.2

/-- The same entries of `exogenous_effects`. -/
def SameSpec (e : EffectSpec S (Frame String τ K) Sc τ V D K)
    (e' : EffectSpec S' (Frame String τ' K) Sc τ' V D K) : Prop :=
  e'.name = e.name ∧ e'.regex = e.regex ∧ SameObj g R e.effect e'.effect

/-- The same entries of `exogenous_effects_`. -/
def SameFitted (e : FittedEffect S (Frame String τ K) Sc τ V D K)
    (e' : FittedEffect S' (Frame String τ' K) Sc τ' V D K) : Prop :=
  e'.name = e.name ∧ e'.cols = e.cols ∧ SameObj g R e.effect e'.effect

variable {g R}

theorem SameObj.clone {e : EffectObj S (Frame String τ K) Sc τ V D K}
    {e' : EffectObj S' (Frame String τ' K) Sc τ' V D K} (h : SameObj g R e e') :
    SameObj g R e.clone e'.clone := ⟨h.cls, h.made, h.made⟩

theorem SameObj.fit {e : EffectObj S (Frame String τ K) Sc τ V D K}
    {e' : EffectObj S' (Frame String τ' K) Sc τ' V D K} (h : SameObj g R e e')
    (y : Frame String τ K) (X : Option (Frame String τ V)) (sc : Sc) :
    ExRel (SameObj g R) (e.fit y X sc) (e'.fit (y.mapTimes g) (X.map (Frame.mapTimes g)) sc) := by
  unfold EffectObj.fit baseFit
  have htag : e'.cls.toHooks.tags = e.cls.toHooks.tags := h.cls.tags
  rw [htag]
  have hX : (∃ x ∈ X.map (Frame.mapTimes g), x.nlevels > 1) ↔ ∃ x ∈ X, x.nlevels > 1 := by
    cases X <;> simp [Frame.mapTimes]
  by_cases hc : e.cls.toHooks.tags.supportsMultivariate = false ∧ ∃ x ∈ X, x.nlevels > 1
  · rw [if_pos hc, if_pos ⟨hc.1, hX.2 hc.2⟩]
    exact ExRel.error _
  · rw [if_neg hc, if_neg fun h' => hc ⟨h'.1, hX.1 h'.2⟩]
    refine ExRel.bind (R := fun a b => b.1 = a.1 ∧ R a.2 b.2) ?_ ?_
    · refine (h.cls.fit _ _ y X sc h.st.2).bind fun s s' hs => ?_
      refine ExRel.pure ⟨?_, hs⟩
      cases X with
      | none => rfl
      | some x =>
        simp only [Option.map_some, isEmpty_mapTimes]
        rfl
    · intro a b hab
      exact ⟨h.cls, h.made, hab⟩

theorem SameObj.skip {e : EffectObj S (Frame String τ K) Sc τ V D K}
    {e' : EffectObj S' (Frame String τ' K) Sc τ' V D K} (h : SameObj g R e e') :
    e'.skip = e.skip := by
  unfold EffectObj.skip
  have htag : e'.cls.toHooks.tags = e.cls.toHooks.tags := h.cls.tags
  rw [htag, h.st.1]

theorem SameObj.transform (hg : Function.Injective g) {e : EffectObj S (Frame String τ K) Sc τ V D K}
    {e' : EffectObj S' (Frame String τ' K) Sc τ' V D K} (h : SameObj g R e e')
    (X : Option (Frame String τ V)) (fh : List τ) :
    e'.transform (X.map (Frame.mapTimes g)) (fh.map g) = e.transform X fh := by
  unfold EffectObj.transform baseTransform
  have htag : e'.cls.toHooks.tags = e.cls.toHooks.tags := h.cls.tags
  rw [htag, h.st.1]
  cases e.st.1.isFitted with
  | none => rfl
  | some b =>
    cases b with
    | false => rfl
    | true =>
      cases hsk : shouldSkip e.cls.toHooks.tags e.st.1 with
      | error x => rfl
      | ok b =>
        cases b with
        | true => rfl
        | false =>
          simp only [bind, Except.bind]
          cases X with
          | none => rfl
          | some x =>
            cases e.st.1.inputCols with
            | none => rfl
            | some cols =>
              simp only [Option.map_some]
              have hx : (if e.cls.toHooks.tags.filterFh = true then
                  (x.mapTimes g).filterTimes (fh.map g) else x.mapTimes g)
                  = (if e.cls.toHooks.tags.filterFh = true then x.filterTimes fh else x).mapTimes g := by
                split
                · exact filterTimes_mapTimes hg x fh
                · rfl
              simp only [hx]
              generalize (if e.cls.toHooks.tags.filterFh = true then x.filterTimes fh else x) = x1
              simp only [select_mapTimes]
              cases x1.select cols with
              | error y => rfl
              | ok x2 =>
                simp only [Except.map]
                have := h.cls.transform e.st.2 e'.st.2 x2 fh h.st.2
                have h' : e'.cls.toHooks.transform e'.st.2 (x2.mapTimes g) (fh.map g)
                  = e.cls.toHooks.transform e.st.2 x2 fh := this
                simp [h']

theorem sameFitStep {compile : String → PyM (String → Bool)} {x : Frame String τ V}
    {y : Frame String τ K} {sc : Sc} {a : FitState S (Frame String τ K) Sc τ V D K}
    {b : FitState S' (Frame String τ' K) Sc τ' V D K}
    (h : List.Forall₂ (SameFitted g R) a.fitted b.fitted ∧ b.taken = a.taken ∧
      b.warnings = a.warnings) {e : EffectSpec S (Frame String τ K) Sc τ V D K}
    {e' : EffectSpec S' (Frame String τ' K) Sc τ' V D K} (he : SameSpec g R e e') :
    ExRel (fun a b => List.Forall₂ (SameFitted g R) a.fitted b.fitted ∧ b.taken = a.taken ∧
        b.warnings = a.warnings)
      (fitStep compile (some x) y sc a e)
      (fitStep compile (some (x.mapTimes g)) (y.mapTimes g) sc b e') := by
  obtain ⟨hf, ht, hw⟩ := h
  obtain ⟨h1, h2, h3⟩ := he
  unfold fitStep
  simp only
  have hcols : (x.mapTimes g).cols = x.cols := rfl
  rw [h2, hcols]
  refine ExRel.bind (ExRel.of_eq (R := (· = ·)) (fun _ => rfl) rfl) ?_
  rintro cols _ rfl
  rw [select_mapTimes]
  refine ExRel.bind (ExRel.of_map rfl) ?_
  rintro xc _ rfl
  refine (h3.clone.fit y (some xc) sc).bind ?_
  intro f f' hff
  refine ExRel.pure ?_
  refine ⟨List.rel_append hf (.cons ⟨h1, rfl, hff⟩ .nil), ?_, ?_⟩
  · simp only [ht]
  · simp only [hw, ht, h1]

theorem sameFitEffects {compile : String → PyM (String → Bool)}
    {effects : List (EffectSpec S (Frame String τ K) Sc τ V D K)}
    {effects' : List (EffectSpec S' (Frame String τ' K) Sc τ' V D K)}
    (he : List.Forall₂ (SameSpec g R) effects effects')
    {default : EffectObj S (Frame String τ K) Sc τ V D K}
    {default' : EffectObj S' (Frame String τ' K) Sc τ' V D K} (hd : SameObj g R default default')
    (x : Frame String τ V) (y : Frame String τ K) (sc : Sc) :
    ExRel (fun a b => List.Forall₂ (SameFitted g R) a.1 b.1 ∧ b.2 = a.2)
      (fitEffects compile effects default (some x) y sc)
      (fitEffects compile effects' default' (some (x.mapTimes g)) (y.mapTimes g) sc) := by
  unfold fitEffects
  refine ExRel.bind (ExRel.foldlM (fun a b c d h h' => sameFitStep h h') he
    ⟨.nil, rfl, rfl⟩) ?_
  rintro a b ⟨hf, ht, hw⟩
  have hcols : (x.mapTimes g).cols = x.cols := rfl
  simp only [hcols, ht]
  split
  · exact ExRel.pure ⟨hf, hw⟩
  · rw [select_mapTimes]
    refine ExRel.bind (ExRel.of_map rfl) ?_
    rintro xc _ rfl
    refine (hd.clone.fit y (some xc) sc).bind ?_
    intro f f' hff
    exact ExRel.pure ⟨List.rel_append hf (.cons ⟨rfl, rfl, hff⟩ .nil), hw⟩

theorem sameTransformEffects (hg : Function.Injective g)
    {fitted : List (FittedEffect S (Frame String τ K) Sc τ V D K)}
    {fitted' : List (FittedEffect S' (Frame String τ' K) Sc τ' V D K)}
    (h : List.Forall₂ (SameFitted g R) fitted fitted') (x : Frame String τ V) (fh : List τ) :
    transformEffects fitted' (x.mapTimes g) (fh.map g) = transformEffects fitted x fh := by
  symm
  apply ExRel.eq_of
  unfold transformEffects
  refine ExRel.foldlM ?_ h rfl
  rintro a _ e e' rfl ⟨h1, h2, h3⟩
  unfold transformStep
  rw [h3.skip]
  refine ExRel.bind (ExRel.of_eq (R := (· = ·)) (fun _ => rfl) rfl) ?_
  rintro b _ rfl
  cases b with
  | true => exact ExRel.pure rfl
  | false =>
    simp only [Bool.false_eq_true, if_false]
    rw [h2, select_mapTimes]
    refine ExRel.bind (ExRel.of_map rfl) ?_
    rintro xc _ rfl
    have := h3.transform hg (some xc) fh
    simp only [Option.map_some] at this
    rw [this]
    refine ExRel.bind (ExRel.of_eq (R := (· = ·)) (fun _ => rfl) rfl) ?_
    rintro d _ rfl
    rw [h1]
    exact ExRel.pure rfl

theorem forall₂_set {α β : Type} {Q : α → β → Prop} {d : PyDict α} {d' : PyDict β}
    (h : List.Forall₂ (fun p q => q.1 = p.1 ∧ Q p.2 q.2) d d') (k : String) {a : α} {b : β}
    (hab : Q a b) : List.Forall₂ (fun p q => q.1 = p.1 ∧ Q p.2 q.2) (d.set k a) (d'.set k b) := by
  induction h with
  | nil => exact .cons ⟨rfl, hab⟩ .nil
  | @cons p q d d' hpq hrest ih =>
    obtain ⟨pk, pv⟩ := p
    obtain ⟨qk, qv⟩ := q
    obtain ⟨h1, h2⟩ := hpq
    simp only at h1
    subst h1
    simp only [PyDict.set]
    split
    · exact .cons ⟨rfl, hab⟩ hrest
    · exact .cons ⟨rfl, h2⟩ ih

theorem forall₂_ofList {α β : Type} {Q : α → β → Prop} {l : List (String × α)} {l' : List (String × β)}
    (h : List.Forall₂ (fun p q => q.1 = p.1 ∧ Q p.2 q.2) l l') :
    List.Forall₂ (fun p q => q.1 = p.1 ∧ Q p.2 q.2) (PyDict.ofList l) (PyDict.ofList l') := by
  unfold PyDict.ofList
  have key : ∀ {l : List (String × α)} {l' : List (String × β)},
      List.Forall₂ (fun p q => q.1 = p.1 ∧ Q p.2 q.2) l l' → ∀ (d : PyDict α) (d' : PyDict β),
      List.Forall₂ (fun p q => q.1 = p.1 ∧ Q p.2 q.2) d d' →
      List.Forall₂ (fun p q => q.1 = p.1 ∧ Q p.2 q.2)
        (l.foldl (fun d p => PyDict.set d p.1 p.2) d) (l'.foldl (fun d p => PyDict.set d p.1 p.2) d') := by
    intro l l' h
    induction h with
    | nil => intro d d' hd; exact hd
    | @cons p q l l' hpq _ ih =>
      intro d d' hd
      rw [List.foldl_cons, List.foldl_cons, hpq.1]
      exact ih _ _ (forall₂_set hd p.1 hpq.2)
  exact key h [] [] .nil

theorem sameNonSkipped {fitted : List (FittedEffect S (Frame String τ K) Sc τ V D K)}
    {fitted' : List (FittedEffect S' (Frame String τ' K) Sc τ' V D K)}
    (h : List.Forall₂ (SameFitted g R) fitted fitted') :
    ExRel (List.Forall₂ fun p q => q.1 = p.1 ∧ SameObj g R p.2 q.2)
      (nonSkipped fitted) (nonSkipped fitted') := by
  have key : ExRel (List.Forall₂ (SameFitted g R)) (keepNonSkipped fitted)
      (keepNonSkipped fitted') := by
    induction h with
    | nil => exact .nil
    | @cons e e' l l' he _ ih =>
      unfold keepNonSkipped
      rw [he.2.2.skip]
      refine ExRel.bind (ExRel.of_eq (R := (· = ·)) (fun _ => rfl) rfl) ?_
      rintro b _ rfl
      refine ih.bind ?_
      intro r r' hr
      refine ExRel.pure ?_
      split
      · exact hr
      · exact .cons he hr
  unfold nonSkipped
  refine key.bind fun l l' hl => ExRel.pure (forall₂_ofList ?_)
  rw [List.forall₂_map_left_iff, List.forall₂_map_right_iff]
  exact hl.imp fun e e' he => ⟨he.1, he.2.2⟩

/-- Objects that do the same are called the same. -/
theorem sameCalls {objs : PyDict (EffectObj S (Frame String τ K) Sc τ V D K)}
    {objs' : PyDict (EffectObj S' (Frame String τ' K) Sc τ' V D K)}
    (h : List.Forall₂ (fun p q => q.1 = p.1 ∧ SameObj g R p.2 q.2) objs objs') :
    callsOf objs' = callsOf objs := by
  induction h with
  | nil => rfl
  | @cons p q l l' hpq _ ih =>
    unfold callsOf at *
    rw [List.map_cons, List.map_cons, ih, hpq.1]
    congr 2
    have h1 := hpq.2.cls.call q.2.st.1 p.2.st.2 q.2.st.2 hpq.2.st.2
    have h2 : (q.2.st.1, p.2.st.2) = p.2.st := by rw [hpq.2.st.1]
    rw [h2] at h1
    exact h1

end
end PV
