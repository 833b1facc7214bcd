import Verif.Lemmas.World

/-!
# The objects implement the value-level description

`World.fit` and `World.predict` compute what `valFit` and `valPredict` describe.
-/

namespace PV
section
variable {S τ D K F κ G Θ P : Type}

/-- Every object is still there with the same constructor arguments. -/
def Kind (h h' : List (Obj S τ D K)) : Prop :=
  ∀ r o, deref h r = .ok o → ∃ o', deref h' r = .ok o' ∧ o'.clone = o.clone

theorem Kind.refl (h : List (Obj S τ D K)) : Kind h h := fun _ o ho => ⟨o, ho, rfl⟩

theorem Kind.trans {h h' h'' : List (Obj S τ D K)} (h1 : Kind h h') (h2 : Kind h' h'') :
    Kind h h'' := by
  intro r o ho
  obtain ⟨o', ho', hc⟩ := h1 r o ho
  obtain ⟨o'', ho'', hc'⟩ := h2 r o' ho'
  exact ⟨o'', ho'', hc'.trans hc⟩

theorem Kind.append (h ext : List (Obj S τ D K)) : Kind h (h ++ ext) :=
  fun _ o ho => ⟨o, deref_append ho ext, rfl⟩

theorem Kind.set {h : List (Obj S τ D K)} {r : Nat} {o o' : Obj S τ D K}
    (ho : deref h r = .ok o) (hc : o'.clone = o.clone) : Kind h (h.set r o') := by
  intro r' o1 ho1
  rw [deref_ok] at ho ho1
  by_cases hr : r' = r
  · subst hr
    rw [ho] at ho1
    cases ho1
    refine ⟨o', ?_, hc⟩
    rw [deref_ok, List.getElem?_set_self (List.getElem?_eq_some_iff.1 ho).1]
  · refine ⟨o1, ?_, rfl⟩
    rw [deref_ok, List.getElem?_set_ne (Ne.symm hr)]
    exact ho1

theorem SpecOf.kind {h h' : List (Obj S τ D K)} (hk : Kind h h')
    {e : String × Nat × Option String} {s : EffectSpec S (Frame String τ K) (Scale K) τ K D K}
    (hs : SpecOf h e s) : SpecOf h' e s := by
  obtain ⟨h1, h2, o, h3, h4⟩ := hs
  obtain ⟨o', h5, h6⟩ := hk _ o h3
  exact ⟨h1, h2, o', h5, h6.trans h4⟩

theorem DefaultOf.kind {h h' : List (Obj S τ D K)} (hk : Kind h h') {d : Option Nat}
    {l o : Obj S τ D K} (hd : DefaultOf h d l o) : DefaultOf h' d l o := by
  cases d with
  | none => exact hd
  | some r =>
    obtain ⟨o', h1, h2⟩ := hd
    obtain ⟨o'', h3, h4⟩ := hk r o' h1
    exact ⟨o'', h3, h4.trans h2⟩

/-! ## Contents of a configuration -/

/-- Fitting the two objects gives the same. -/
def FitsLike (o o' : Obj S τ D K) : Prop := ∀ y X s, o.fit y X s = o'.fit y X s

/-- The trend argument stands for the object `o`. -/
def TrendOf (h : List (Obj S τ D K)) (t : TrendSrc (Obj S τ D K)) (o : Obj S τ D K) :
    Prop :=
  match t with
  | .named o' => o' = o
  | .object r => ∃ o', deref h r = .ok o' ∧ FitsLike o' o

/-- The reference stands for the feature transformer `f`. -/
def FeatOf (feats : List (FeatureObj F τ K)) (r : Option Nat) (f : Option (FeatureObj F τ K)) :
    Prop :=
  match r, f with
  | none, none => True
  | some r, some f => ∃ f', feats[r]? = some f' ∧ f'.transform = f.transform ∧
      ∀ x, f'.fitTransform f'.st x = f.fitTransform f.st x
  | _, _ => False

/-- The configuration has the contents `c`. -/
structure Resolves (h : List (Obj S τ D K)) (feats : List (FeatureObj F τ K))
    (cfg : FcConfig S τ D K κ G) (c : Contents S τ D K F κ G) : Prop where
  compile : cfg.compile = c.compile
  trend : TrendOf h cfg.trend c.trend
  effects : List.Forall₂ (SpecOf h) cfg.effects c.effects
  default : DefaultOf h cfg.default cfg.linear c.default
  features : FeatOf feats cfg.features c.features
  hier : cfg.hier = c.hier
  discrete : cfg.discrete = c.discrete
  scale : cfg.scale = c.scale
  rngKey : cfg.rngKey = c.rngKey
  method : cfg.method = c.method
  settings : cfg.settings = c.settings

variable [Field K] [LinearOrder K] [LinearOrder τ]

/-- Making the trend object and fitting it. -/
theorem fitTrend_sim {α : Type} {h : List (Obj S τ D K)} {tsrc : TrendSrc (Obj S τ D K)}
    {o : Obj S τ D K} (ht : TrendOf h tsrc o) (y : Frame String τ K) (X : Option (Frame String τ K))
    (s : Scale K) (k : Nat → OnHeap S τ D K α) :
    match o.fit y X s with
    | .error e => ((trendRef tsrc >>= fun r => fitRef r y X s >>= fun _ => k r) h).1 = .error e
    | .ok t => ∃ r h', (trendRef tsrc >>= fun r => fitRef r y X s >>= fun _ => k r) h = k r h' ∧
        deref h' r = .ok t ∧ Kind h h' ∧ h.length ≤ h'.length := by
  cases tsrc with
  | named o' =>
    cases ht
    have h1 : trendRef (.named o) h = (.ok h.length, h ++ [o]) := rfl
    rw [OnHeap.bind_ok h1]
    have h2 : deref (h ++ [o]) h.length = .ok o := by rw [deref_ok]; simp
    cases hf : o.fit y X s with
    | error e =>
      have h3 : fitRef h.length y X s (h ++ [o]) = (.error e, h ++ [o]) := by
        unfold fitRef
        simp only [h2, hf]
      rw [OnHeap.bind_error h3]
    | ok t =>
      have h3 : fitRef h.length y X s (h ++ [o]) = (.ok (), h ++ [t]) := by
        unfold fitRef
        simp only [h2, hf]
        simp
      rw [OnHeap.bind_ok h3]
      exact ⟨h.length, h ++ [t], rfl, by rw [deref_ok]; simp, Kind.append h [t], by simp⟩
  | object r =>
    obtain ⟨o', ho', hl⟩ := ht
    have h1 : trendRef (S := S) (D := D) (K := K) (τ := τ) (.object r) h = (.ok r, h) := rfl
    rw [OnHeap.bind_ok h1, ← hl y X s]
    cases hf : o'.fit y X s with
    | error e =>
      have h3 : fitRef r y X s h = (.error e, h) := by
        unfold fitRef
        simp only [ho', hf]
      rw [OnHeap.bind_error h3]
    | ok t =>
      have h3 : fitRef r y X s h = (.ok (), h.set r t) := by
        unfold fitRef
        simp only [ho', hf]
      rw [OnHeap.bind_ok h3]
      refine ⟨r, h.set r t, rfl, ?_, Kind.set ho' (fit_clone hf), by simp⟩
      rw [deref_ok] at ho' ⊢
      rw [List.getElem?_set_self (List.getElem?_eq_some_iff.1 ho').1]

theorem fitTrendRef_sim {h : List (Obj S τ D K)} {cfg : FcConfig S τ D K κ G}
    {o : Obj S τ D K} (ht : TrendOf h cfg.trend o) (s : Scale K) (y : Frame String τ K)
    (X : Option (Frame String τ K)) :
    match trendTarget cfg.discrete s y with
    | .error e => (fitTrendRef cfg s y X h).1 = .error e
    | .ok yt =>
      match o.fit yt X (.float 1) with
      | .error e => (fitTrendRef cfg s y X h).1 = .error e
      | .ok t => ∃ r h', fitTrendRef cfg s y X h = (.ok r, h') ∧ deref h' r = .ok t ∧ Kind h h' ∧
          h.length ≤ h'.length := by
  unfold fitTrendRef
  cases hy : trendTarget cfg.discrete s y with
  | error e =>
    cases cfg.trend <;> rfl
  | ok yt =>
    have := fitTrend_sim ht yt X (.float 1) fun r => (pure r : OnHeap S τ D K Nat)
    simp only
    have heq : (do
        let r ← trendRef cfg.trend
        let yt ← OnHeap.lift (.ok yt : PyM (Frame String τ K))
        fitRef r yt X (.float 1)
        pure r : OnHeap S τ D K Nat) h
        = (trendRef cfg.trend >>= fun r => fitRef r yt X (.float 1) >>= fun _ => pure r) h := by
      cases cfg.trend <;> rfl
    rw [heq]
    cases hf : o.fit yt X (.float 1) with
    | error e => rw [hf] at this; exact this
    | ok t => rw [hf] at this; exact this

/-- The feature transformer in `fit`. -/
def Contents.fitFeatures (c : Contents S τ D K F κ G) (x : Frame String τ K) :
    PyM (Frame String τ K) :=
  match c.features with
  | none => .ok x
  | some f => (f.fitTransform f.st x).1

/-- The feature transformer when predicting. -/
def Contents.featuresAfter (c : Contents S τ D K F κ G) (x0 x : Frame String τ K) :
    PyM (Frame String τ K) :=
  match c.features with
  | none => .ok x
  | some f => f.transform (f.fitTransform f.st x0).2 x

theorem fitFeaturesRef_sim {feats : List (FeatureObj F τ K)} {cfg : FcConfig S τ D K κ G}
    {c : Contents S τ D K F κ G} (hf : FeatOf feats cfg.features c.features)
    (x0 : Frame String τ K) :
    (fitFeaturesRef feats cfg.features x0).1 = c.fitFeatures x0 ∧
      ∀ x, featuresRef (fitFeaturesRef feats cfg.features x0).2 cfg.features x
        = c.featuresAfter x0 x := by
  unfold Contents.fitFeatures Contents.featuresAfter
  cases hr : cfg.features with
  | none =>
    cases hc : c.features with
    | none => exact ⟨rfl, fun x => rfl⟩
    | some f => rw [hr, hc] at hf; exact hf.elim
  | some r =>
    cases hc : c.features with
    | none => rw [hr, hc] at hf; exact hf.elim
    | some f =>
      rw [hr, hc] at hf
      obtain ⟨f', h1, h2, h3⟩ := hf
      simp only [fitFeaturesRef, h1]
      refine ⟨by rw [h3], fun x => ?_⟩
      unfold featuresRef
      simp only
      rw [List.getElem?_set_self (List.getElem?_eq_some_iff.1 h1).1]
      simp only [h2, h3]

/-! Parts of the value-level description. -/

def ValPrepared.trend : ValPrepared S τ D K → Obj S τ D K
  | .uni _ m _ => m.trend
  | .hier _ _ m _ => m.trend

def ValPrepared.fitted :
    ValPrepared S τ D K → List (FittedEffect S (Frame String τ K) (Scale K) τ K D K)
  | .uni _ m _ => m.fitted
  | .hier _ _ m _ => m.fitted

def ValPrepared.objs : ValPrepared S τ D K → PyDict (Obj S τ D K)
  | .uni _ m _ => m.objs
  | .hier _ _ m _ => m.objs

def ValPrepared.kwargs : ValPrepared S τ D K → ModelKwargs K
  | .uni _ _ s => .univariate s
  | .hier _ _ m _ => .hierarchical m.single

def ValPrepared.seen (v : ValPrepared S τ D K) (y : Frame String τ K)
    (X : Option (Frame String τ K)) (fh : List τ) : PyM (Frame String τ K) :=
  match v with
  | .uni u _ _ => u.features (X.getD (Frame.ofIndex fh))
  | .hier o u m _ => do
    let x ← predictExog u.keep (o.levels y) y X fh
    predictExpand u.features m.expand x fh

/-- The attributes behind the references are those of the value-level description. -/
structure ViewOf (h : List (Obj S τ D K)) (feats : List (FeatureObj F τ K))
    (cfg : FcConfig S τ D K κ G) (y : Frame String τ K) (p : Prepared τ K)
    (v : ValPrepared S τ D K) : Prop where
  trend : deref h p.trend = .ok v.trend
  fitted : derefFitted h p.fitted = .ok v.fitted
  objs : derefDict h p.objs = .ok v.objs
  scale : p.scale = v.scale
  kwargs : p.kwargs = v.kwargs
  seen : ∀ X fh, predictSeenRef feats cfg p X fh = v.seen y X fh
  ySids : p.ySids = v.sids y
  target : p.y = y

/-- The rest of `uniFitData` after the trend and the features. -/
theorem uniFitData_eq (u : UniConfig S (Scale K) τ K D K) (y : Frame String τ K)
    (X : Option (Frame String τ K)) :
    uniFitData u y X
      = match u.trend.fit (if u.discrete then y.mapVals fun _ v => v / u.scale else y) X
            u.unitScale with
        | .error e => .error e
        | .ok t =>
          match u.fitFeatures (X.getD (Frame.ofIndex y.times)) with
          | .error e => .error e
          | .ok x =>
            match x.locTimes y.times with
            | .error e => .error e
            | .ok x =>
              match t.transform (some x) (unique y.times) with
              | .error e => .error e
              | .ok td =>
                match fitEffects u.compile u.effects u.default (some x) y u.effectScale with
                | .error e => .error e
                | .ok f =>
                  match transformEffects f.1 x (unique y.times) with
                  | .error e => .error e
                  | .ok d =>
                    match nonSkipped f.1 with
                    | .error e => .error e
                    | .ok o =>
                      .ok { trend := t, fitted := f.1, warnings := f.2, trendData := td,
                            data := d, objs := o, yArray := y.flatVals y.rows } := by
  unfold uniFitData
  simp only [bind, Except.bind, pure, Except.pure]
  repeat' split
  all_goals simp_all

/-- The rest of `hierFitData` after the bottom series and the features. -/
theorem hierFitData_eq (u : HierConfig S (Scale K) τ D K) (y : Frame String τ K)
    (X : Option (Frame String τ K)) :
    hierFitData u y X
      = match locBottom (aggregate u.keep y) with
        | .error e => .error e
        | .ok yB =>
          match yB.seriesToTensor with
          | .error e => .error e
          | .ok yArray =>
            match hierSeen u.keep y X with
            | .error e => .error e
            | .ok x =>
              match u.fitFeatures x with
              | .error e => .error e
              | .ok x =>
                match fitExpand u.compile u.order u.shared x with
                | .error e => .error e
                | .ok ex =>
                  match u.trend.fit yB (some ex.2) u.scale with
                  | .error e => .error e
                  | .ok t =>
                    match t.transform (some ex.2) (unique y.times) with
                    | .error e => .error e
                    | .ok td =>
                      match fitEffects u.compile u.effects u.default (some ex.2) yB u.scale with
                      | .error e => .error e
                      | .ok f =>
                        match transformEffects f.1 ex.2 (unique y.times) with
                        | .error e => .error e
                        | .ok d =>
                          match nonSkipped f.1 with
                          | .error e => .error e
                          | .ok o =>
                            .ok { trend := t, expand := ex.1, fitted := f.1, warnings := f.2,
                                  trendData := td, data := d, objs := o, yArray := yArray,
                                  internalIndex := (aggregate u.keep y).index,
                                  single := decide (nSeries (aggregate u.keep y).nlevels
                                    ((aggregate u.keep y).index.map Prod.fst) = 1) } := by
  unfold hierFitData hierExog hierSeen
  simp only [bind, Except.bind, pure, Except.pure]
  repeat' split
  all_goals simp_all

theorem fitModelRef_sim {h : List (Obj S τ D K)} {cfg : FcConfig S τ D K κ G}
    {c : Contents S τ D K F κ G} (hcomp : cfg.compile = c.compile)
    (heff : List.Forall₂ (SpecOf h) cfg.effects c.effects)
    (hdef : DefaultOf h cfg.default cfg.linear c.default) (s : Scale K) (y0 y : Frame String τ K)
    (fh : List τ) (yArray : Tensor K) (sids : List (List String)) (expand : Option ExpandState)
    (kw : ModelKwargs K) (x : Frame String τ K) {tr : Nat} {t : Obj S τ D K}
    (ht : deref h tr = .ok t) :
    match t.transform (some x) fh with
    | .error e => (fitModelRef cfg s y0 y fh yArray sids expand kw x tr h).1 = .error e
    | .ok td =>
      match fitEffects c.compile c.effects c.default (some x) y s with
      | .error e => (fitModelRef cfg s y0 y fh yArray sids expand kw x tr h).1 = .error e
      | .ok f =>
        match transformEffects f.1 x fh with
        | .error e => (fitModelRef cfg s y0 y fh yArray sids expand kw x tr h).1 = .error e
        | .ok d =>
          match nonSkipped f.1 with
          | .error e => (fitModelRef cfg s y0 y fh yArray sids expand kw x tr h).1 = .error e
          | .ok o => ∃ fitted objs ext, fitModelRef cfg s y0 y fh yArray sids expand kw x tr h
                = (.ok ({ scale := s, trend := tr, fitted := fitted, objs := objs, kwargs := kw,
                          y := y0, ySids := sids, expand := expand },
                        { y := some yArray, trend := t.cls.call t.st, trendData := td,
                          effects := callsOf o, data := d, kwargs := kw }), h ++ ext) ∧
              deref (h ++ ext) tr = .ok t ∧ derefFitted (h ++ ext) fitted = .ok f.1 ∧
              derefDict (h ++ ext) objs = .ok o := by
  unfold fitModelRef
  rw [OnHeap.read_bind]
  simp only [ht, bind, Except.bind]
  cases t.transform (some x) fh with
  | error e => rfl
  | ok td =>
    simp only
    have hsim := fitEffectsRef_sim (le_refl h.length) c.compile heff hdef x y s
    rw [hcomp]
    cases hv : fitEffects c.compile c.effects c.default (some x) y s with
    | error e =>
      rw [hv] at hsim
      simp only at hsim
      rcases hr : fitEffectsRef c.compile cfg.effects cfg.default cfg.linear x y s h with ⟨r, h'⟩
      rw [hr] at hsim
      simp only at hsim
      subst hsim
      simp only [hr]
    | ok f =>
      rw [hv] at hsim
      obtain ⟨a, ext, hr, ha, -⟩ := hsim
      simp only [hr, OnHeap.read_apply, ha]
      cases transformEffects f.1 x fh with
      | error e => rfl
      | ok d =>
        simp only
        have hsk := nonSkippedRefs_sim ha
        cases hn : nonSkipped f.1 with
        | error e =>
          rw [hn] at hsk
          simp only at hsk
          simp only [hsk]
        | ok o =>
          rw [hn] at hsk
          obtain ⟨r, h1, h2, -⟩ := hsk
          simp only [h1, deref_append ht ext, pure, Except.pure, h2]
          exact ⟨a, r, ext, rfl, deref_append ht ext, ha, h2⟩

/-- Everything before inference, after scaling the target. -/
def valPrepareScaled (c : Contents S τ D K F κ G) (s : Scale K) (ys : Frame String τ K)
    (X : Option (Frame String τ K)) : PyM (ValPrepared S τ D K) :=
  match c.hier with
  | none =>
    match (if c.discrete then s.divisor else pure 1) with
    | .error e => .error e
    | .ok k =>
      match uniFitData (c.uni s k (X.getD (Frame.ofIndex ys.times))) ys X with
      | .error e => .error e
      | .ok m => .ok (.uni (c.uni s k (X.getD (Frame.ofIndex ys.times))) m s)
  | some o =>
    match hierFitData (c.hierConfig o s (hierSeen o.keep ys X)) ys X with
    | .error e => .error e
    | .ok m => .ok (.hier o (c.hierConfig o s (hierSeen o.keep ys X)) m s)

theorem valPrepare_eq (c : Contents S τ D K F κ G) (y : Frame String τ K)
    (X : Option (Frame String τ K)) :
    valPrepare c y X
      = match fitTarget c.discrete c.scale y with
        | .error e => .error e
        | .ok sys => valPrepareScaled c sys.1 sys.2 X := by
  unfold valPrepare valPrepareScaled
  simp only [bind, Except.bind, pure, Except.pure]
  repeat' split
  all_goals simp_all

/-- What is known after `_get_fit_data`. -/
def PreparedAs (r : PrepareResult S τ D K F) (cfg : FcConfig S τ D K κ G) (y0 : Frame String τ K)
    (v : PyM (ValPrepared S τ D K)) : Prop :=
  match v with
  | .error e => r.1 = .error e
  | .ok v => ∃ p, r.1 = .ok (p, v.fitArgs) ∧ ViewOf r.2.1 r.2.2 cfg y0 p v

theorem prepareUni_sim {heap : List (Obj S τ D K)} {feats : List (FeatureObj F τ K)}
    {cfg : FcConfig S τ D K κ G} {c : Contents S τ D K F κ G} (hc : Resolves heap feats cfg c)
    (hn : c.hier = none) (s : Scale K) (y0 ys : Frame String τ K) (X : Option (Frame String τ K)) :
    PreparedAs (prepareUni cfg s y0 ys X heap feats) cfg y0 (valPrepareScaled c s ys X) := by
  unfold prepareUni valPrepareScaled
  rw [hn]
  simp only
  have ht := fitTrendRef_sim hc.trend s ys X
  have hdis : trendTarget cfg.discrete s ys
      = match (if c.discrete then s.divisor else pure 1) with
        | .error e => .error e
        | .ok k => .ok (if c.discrete then ys.mapVals fun _ v => v / k else ys) := by
    rw [hc.discrete]
    unfold trendTarget
    cases c.discrete with
    | true => cases s.divisor <;> rfl
    | false => rfl
  rw [hdis] at ht
  cases hk : (if c.discrete then s.divisor else pure 1 : PyM K) with
  | error e =>
    rw [hk] at ht
    simp only at ht
    rcases hf : fitTrendRef cfg s ys X heap with ⟨r, h'⟩
    rw [hf] at ht
    simp only at ht
    subst ht
    rfl
  | ok k =>
    rw [hk] at ht
    simp only at ht ⊢
    rw [uniFitData_eq]
    have hu1 : (c.uni s k (X.getD (Frame.ofIndex ys.times))).trend = c.trend := rfl
    have hu2 : (c.uni s k (X.getD (Frame.ofIndex ys.times))).discrete = c.discrete := rfl
    have hu3 : (c.uni s k (X.getD (Frame.ofIndex ys.times))).scale = k := rfl
    have hu4 : (c.uni s k (X.getD (Frame.ofIndex ys.times))).unitScale = .float 1 := rfl
    have hu5 : (c.uni s k (X.getD (Frame.ofIndex ys.times))).compile = c.compile := rfl
    have hu6 : (c.uni s k (X.getD (Frame.ofIndex ys.times))).effects = c.effects := rfl
    have hu7 : (c.uni s k (X.getD (Frame.ofIndex ys.times))).default = c.default := rfl
    have hu8 : (c.uni s k (X.getD (Frame.ofIndex ys.times))).effectScale = s := rfl
    have hu9 : ∀ x, (c.uni s k (X.getD (Frame.ofIndex ys.times))).fitFeatures x
      = c.fitFeatures x := fun _ => rfl
    rw [hu1, hu2, hu3, hu4, hu5, hu6, hu7, hu8, hu9]
    cases hfit : c.trend.fit (if c.discrete then ys.mapVals fun _ v => v / k else ys) X
        (.float 1) with
    | error e =>
      rw [hfit] at ht
      simp only at ht
      rcases hf : fitTrendRef cfg s ys X heap with ⟨r, h'⟩
      rw [hf] at ht
      simp only at ht
      subst ht
      rfl
    | ok t =>
      rw [hfit] at ht
      obtain ⟨r, h', hf, hder, hkind, -⟩ := ht
      simp only [hf]
      obtain ⟨hft1, hft2⟩ := fitFeaturesRef_sim hc.features (X.getD (Frame.ofIndex ys.times))
      rcases hff : fitFeaturesRef feats cfg.features (X.getD (Frame.ofIndex ys.times)) with ⟨rx, fs⟩
      rw [hff] at hft1 hft2
      simp only at hft1 hft2
      subst hft1
      cases hx : c.fitFeatures (X.getD (Frame.ofIndex ys.times)) with
      | error e => rfl
      | ok x =>
        simp only
        unfold fitRestRef
        rw [OnHeap.lift_bind]
        cases hloc : x.locTimes ys.times with
        | error e => rfl
        | ok x' =>
          have hrest := fitModelRef_sim hc.compile (hc.effects.imp fun _ _ h => h.kind hkind)
            (hc.default.kind hkind) s y0 ys (unique ys.times) (columnArray ys)
            (y0.index.map Prod.fst) none (.univariate s) x' hder
          simp only
          cases htd : t.transform (some x') (unique ys.times) with
          | error e => rw [htd] at hrest; exact hrest
          | ok td =>
            rw [htd] at hrest
            simp only at hrest ⊢
            cases hfe : fitEffects c.compile c.effects c.default (some x') ys s with
            | error e => rw [hfe] at hrest; exact hrest
            | ok f =>
              rw [hfe] at hrest
              simp only at hrest ⊢
              cases htr : transformEffects f.1 x' (unique ys.times) with
              | error e => rw [htr] at hrest; exact hrest
              | ok d =>
                rw [htr] at hrest
                simp only at hrest ⊢
                cases hns : nonSkipped f.1 with
                | error e => rw [hns] at hrest; exact hrest
                | ok o =>
                  rw [hns] at hrest
                  obtain ⟨fitted, objs, ext, he, hp1, hp2, hp3⟩ := hrest
                  simp only [he]
                  refine ⟨_, rfl, ⟨hp1, hp2, hp3, rfl, rfl, fun X' fh => ?_, rfl, rfl⟩⟩
                  unfold predictSeenRef
                  rw [hc.hier, hn]
                  exact hft2 _

theorem prepareHier_sim {heap : List (Obj S τ D K)} {feats : List (FeatureObj F τ K)}
    {cfg : FcConfig S τ D K κ G} {c : Contents S τ D K F κ G} (hc : Resolves heap feats cfg c)
    {opts : HierOpts τ K} (hn : c.hier = some opts) (s : Scale K) (y0 ys : Frame String τ K)
    (X : Option (Frame String τ K)) :
    PreparedAs (prepareHier opts cfg s y0 ys X heap feats) cfg y0 (valPrepareScaled c s ys X) := by
  unfold prepareHier valPrepareScaled hierBottom
  rw [hn]
  simp only
  rw [hierFitData_eq]
  have hu1 : (c.hierConfig opts s (hierSeen opts.keep ys X)).keep = opts.keep := rfl
  rw [hu1]
  simp only [bind, Except.bind, pure, Except.pure]
  cases locBottom (aggregate opts.keep ys) with
  | error e => rfl
  | ok yB =>
    simp only
    cases yB.seriesToTensor with
    | error e => rfl
    | ok yArray =>
      simp only
      have hseen : hierSeen opts.keep ys X = locBottom (exogOr X
        (Frame.ofMultiIndex (aggregate opts.keep ys).nlevels (aggregate opts.keep ys).index)) := rfl
      rw [← hseen]
      cases hx0 : hierSeen opts.keep ys X with
      | error e => rfl
      | ok x0 =>
        have hu2 : (c.hierConfig opts s (.ok x0)).compile = c.compile := rfl
        have hu3 : (c.hierConfig opts s (.ok x0)).order = opts.order := rfl
        have hu4 : (c.hierConfig opts s (.ok x0)).shared = opts.shared := rfl
        have hu5 : (c.hierConfig opts s (.ok x0)).trend = c.trend := rfl
        have hu6 : (c.hierConfig opts s (.ok x0)).scale = s := rfl
        have hu7 : (c.hierConfig opts s (.ok x0)).effects = c.effects := rfl
        have hu8 : (c.hierConfig opts s (.ok x0)).default = c.default := rfl
        have hu9 : (c.hierConfig opts s (.ok x0)).fitFeatures x0 = c.fitFeatures x0 := rfl
        have hu10 : (c.hierConfig opts s (.ok x0)).features = c.featuresAfter x0 := rfl
        simp only [hu2, hu3, hu4, hu5, hu6, hu7, hu8, hu9]
        obtain ⟨hft1, hft2⟩ := fitFeaturesRef_sim hc.features x0
        rcases hff : fitFeaturesRef feats cfg.features x0 with ⟨rx, fs⟩
        rw [hff] at hft1 hft2
        simp only at hft1 hft2
        subst hft1
        cases hx : c.fitFeatures x0 with
        | error e => rfl
        | ok x =>
          simp only
          unfold fitHierRef
          rw [OnHeap.lift_bind, hc.compile]
          cases hex : fitExpand c.compile opts.order opts.shared x with
          | error e => rfl
          | ok ex =>
            simp only
            have ht := fitTrend_sim hc.trend yB (some ex.2) s fun r =>
              fitModelRef cfg s y0 yB (unique ys.times) yArray
                ((aggregate opts.keep ys).index.map Prod.fst) ex.1
                (.hierarchical (decide (nSeries (aggregate opts.keep ys).nlevels
                  ((aggregate opts.keep ys).index.map Prod.fst) = 1))) ex.2 r
            cases hfit : c.trend.fit yB (some ex.2) s with
            | error e => rw [hfit] at ht; exact ht
            | ok t =>
              rw [hfit] at ht
              obtain ⟨r, h', hf, hder, hkind, -⟩ := ht
              rw [hf]
              have hrest := fitModelRef_sim hc.compile (hc.effects.imp fun _ _ h => h.kind hkind)
                (hc.default.kind hkind) s y0 yB (unique ys.times) yArray
                ((aggregate opts.keep ys).index.map Prod.fst) ex.1
                (.hierarchical (decide (nSeries (aggregate opts.keep ys).nlevels
                  ((aggregate opts.keep ys).index.map Prod.fst) = 1))) ex.2 hder
              simp only
              cases htd : t.transform (some ex.2) (unique ys.times) with
              | error e => rw [htd] at hrest; exact hrest
              | ok td =>
                rw [htd] at hrest
                simp only at hrest ⊢
                cases hfe : fitEffects c.compile c.effects c.default (some ex.2) yB s with
                | error e => rw [hfe] at hrest; exact hrest
                | ok f =>
                  rw [hfe] at hrest
                  simp only at hrest ⊢
                  cases htr : transformEffects f.1 ex.2 (unique ys.times) with
                  | error e => rw [htr] at hrest; exact hrest
                  | ok d =>
                    rw [htr] at hrest
                    simp only at hrest ⊢
                    cases hns : nonSkipped f.1 with
                    | error e => rw [hns] at hrest; exact hrest
                    | ok o =>
                      rw [hns] at hrest
                      obtain ⟨fitted, objs, ext, he, hp1, hp2, hp3⟩ := hrest
                      simp only [he]
                      refine ⟨_, rfl, ⟨hp1, hp2, hp3, rfl, rfl, fun X' fh => ?_, rfl, rfl⟩⟩
                      unfold predictSeenRef ValPrepared.seen
                      rw [hc.hier, hn]
                      simp only [hu1, hu10]
                      rw [funext hft2]
                      rfl

theorem prepareRef_sim {heap : List (Obj S τ D K)} {feats : List (FeatureObj F τ K)}
    {cfg : FcConfig S τ D K κ G} {c : Contents S τ D K F κ G} (hc : Resolves heap feats cfg c)
    (s : Scale K) (y0 ys : Frame String τ K) (X : Option (Frame String τ K)) :
    PreparedAs (prepareRef cfg s y0 ys X heap feats) cfg y0 (valPrepareScaled c s ys X) := by
  unfold prepareRef
  rw [hc.hier]
  cases hn : c.hier with
  | none => exact prepareUni_sim hc hn s y0 ys X
  | some opts => exact prepareHier_sim hc hn s y0 ys X

/-- `posterior_samples_` of the forecaster, given the outcome of inference. -/
def valPosterior (r : PyM Unit × Option (Engine κ G K Θ P (Draws K))) : Option P :=
  if r.1.isOk then r.2.bind Engine.posterior else none

/-- What is known about the forecaster after `fit`. -/
def AfterFit (np : Numpyro κ G (ModelArgs D K) K Θ P (Draws K)) (c : Contents S τ D K F κ G)
    (y : Frame String τ K) (X : Option (Frame String τ K)) (h : List (Obj S τ D K))
    (feats : List (FeatureObj F τ K)) (fc : Fc S τ D K κ G Θ P) : Prop :=
  match valPrepare c y X with
  | .error _ => fc.prepared = none ∧ fc.isFitted = false ∧ fc.posterior = none
  | .ok v => ∃ p, fc.prepared = some p ∧ ViewOf h feats fc.cfg y p v ∧
      fc.engine = (valInfer np c v.fitArgs).2 ∧
      fc.isFitted = (valInfer np c v.fitArgs).1.isOk ∧
      fc.posterior = valPosterior (valInfer np c v.fitArgs)

theorem inferFc_eq (np : Numpyro κ G (ModelArgs D K) K Θ P (Draws K))
    {fc : Fc S τ D K κ G Θ P} {c : Contents S τ D K F κ G} (he : fc.engine = none)
    (hi : fc.isFitted = false) (hp : fc.posterior = none) (hk : fc.cfg.rngKey = c.rngKey) (hm : fc.cfg.method = c.method)
    (hg : fc.cfg.settings = c.settings) (a : ModelArgs D K) :
    (inferFc np fc a).1 = (valInfer np c a).1 ∧ (inferFc np fc a).2.cfg = fc.cfg ∧
      (inferFc np fc a).2.prepared = fc.prepared ∧
      (inferFc np fc a).2.engine = (valInfer np c a).2 ∧
      (inferFc np fc a).2.isFitted = (valInfer np c a).1.isOk ∧
      (inferFc np fc a).2.posterior = valPosterior (valInfer np c a) := by
  unfold inferFc makeEngine valInfer
  rw [hk, hm, hg]
  simp only [bind, Except.bind, pure, Except.pure]
  cases selectEngine c.method with
  | error e => exact ⟨rfl, rfl, rfl, he, hi, hp⟩
  | ok kind =>
    simp only
    rcases Engine.infer np (Engine.new np kind c.settings (some (c.rngKey.getD (np.prngKey 24)))) a
      with ⟨r, eng⟩
    cases r with
    | error e => exact ⟨rfl, rfl, rfl, rfl, hi, hp⟩
    | ok u => exact ⟨rfl, rfl, rfl, rfl, rfl, rfl⟩

theorem fit_sim (np : Numpyro κ G (ModelArgs D K) K Θ P (Draws K))
    {w : World S τ D K F κ G Θ P} {i : Nat} {fc : Fc S τ D K κ G Θ P}
    (hi : w.fcs[i]? = some fc) {c : Contents S τ D K F κ G}
    (hc : Resolves w.heap w.feats fc.cfg c) (y : Frame String τ K)
    (X : Option (Frame String τ K)) :
    (w.fit np i y X).1 = valFit np c y X ∧
      ∃ fc', (w.fit np i y X).2.fcs[i]? = some fc' ∧ fc'.cfg = fc.cfg ∧
        AfterFit np c y X (w.fit np i y X).2.heap (w.fit np i y X).2.feats fc' := by
  have hlen := (List.getElem?_eq_some_iff.1 hi).1
  unfold World.fit valFit AfterFit
  rw [valPrepare_eq]
  have hr : fc.reset.cfg = fc.cfg := rfl
  have hset : (w.fcs.set i fc.reset)[i]? = some fc.reset := List.getElem?_set_self hlen
  simp only [hi, hr, hc.discrete, hc.scale]
  cases fitTarget c.discrete c.scale y with
  | error e => exact ⟨rfl, fc.reset, hset, hr, rfl, rfl, rfl⟩
  | ok sys =>
    obtain ⟨s, ys⟩ := sys
    simp only
    have hprep := prepareRef_sim hc s y ys X
    rcases hp : prepareRef fc.cfg s y ys X w.heap w.feats with ⟨r, h, fs⟩
    rw [hp] at hprep
    unfold PreparedAs at hprep
    cases hv : valPrepareScaled c s ys X with
    | error e =>
      rw [hv] at hprep
      simp only at hprep
      subst hprep
      exact ⟨rfl, fc.reset, hset, hr, rfl, rfl, rfl⟩
    | ok v =>
      rw [hv] at hprep
      obtain ⟨p, rfl, hview⟩ := hprep
      simp only
      obtain ⟨i1, i2, i3, i4, i5, i6⟩ := inferFc_eq np (c := c)
        (fc := { fc.reset with prepared := some p }) rfl rfl rfl hc.rngKey hc.method
        hc.settings v.fitArgs
      rcases hinf : inferFc np { fc.reset with prepared := some p } v.fitArgs with ⟨ri, fc'⟩
      rw [hinf] at i1 i2 i3 i4 i5 i6
      simp only at i1 i2 i3 i4 i5 i6
      have hinf' : inferFc np
        { cfg := fc.cfg, prepared := some p, engine := fc.reset.engine,
          posterior := fc.reset.posterior, isFitted := fc.reset.isFitted } v.fitArgs
          = (ri, fc') := hinf
      simp only [hinf']
      refine ⟨i1, fc', ?_, i2, p, i3, ?_, i4, i5, i6⟩
      · rw [List.set_set, List.getElem?_set_self hlen]
      · rw [i2]
        exact hview

/-! ## Predicting -/

theorem valPredictArgs_eq (v : ValPrepared S τ D K) (y : Frame String τ K)
    (X : Option (Frame String τ K)) (fh : List τ) :
    v.predictArgs y X fh
      = match v.seen y X fh with
        | .error e => .error e
        | .ok x =>
          match v.trend.transform (some x) fh with
          | .error e => .error e
          | .ok td =>
            match transformEffects v.fitted x fh with
            | .error e => .error e
            | .ok d => .ok { y := none, trend := v.trend.cls.call v.trend.st, trendData := td,
                             effects := callsOf v.objs, data := d, kwargs := v.kwargs } := by
  cases v with
  | uni u m s =>
    simp only [ValPrepared.predictArgs, ValPrepared.seen, ValPrepared.trend, ValPrepared.fitted,
      ValPrepared.objs, ValPrepared.kwargs, uniPredictData, bind, Except.bind, pure, Except.pure]
    repeat' split
    all_goals simp_all [Except.map]
  | hier o u m s =>
    simp only [ValPrepared.predictArgs, ValPrepared.seen, ValPrepared.trend, ValPrepared.fitted,
      ValPrepared.objs, ValPrepared.kwargs, hierPredictData, bind, Except.bind, pure, Except.pure]
    cases predictExog u.keep (o.levels y) y X fh with
    | error e => rfl
    | ok x =>
      simp only
      repeat' split
      all_goals simp_all [Except.map]

theorem predictArgs_sim {h : List (Obj S τ D K)} {feats : List (FeatureObj F τ K)}
    {cfg : FcConfig S τ D K κ G} {y : Frame String τ K} {p : Prepared τ K}
    {v : ValPrepared S τ D K} (hv : ViewOf h feats cfg y p v) (X : Option (Frame String τ K))
    (fh : List τ) : predictArgs h feats cfg p X fh = v.predictArgs y X fh := by
  rw [valPredictArgs_eq]
  unfold predictArgs
  rw [hv.seen, hv.trend, hv.fitted, hv.objs, hv.kwargs]
  simp only [bind, Except.bind, pure, Except.pure]
  cases v.seen y X fh with
  | error e => rfl
  | ok x =>
    simp only
    cases v.trend.transform (some x) fh with
    | error e => rfl
    | ok td =>
      simp only
      cases transformEffects v.fitted x fh <;> rfl

theorem Engine.predict_fst {A O : Type} (np : Numpyro κ G A K Θ P O) (e : Engine κ G K Θ P O)
    (a : A) (g : Option O) : (e.predict np a g).1 = e.draws np a := by
  unfold Engine.predict
  cases e.draws np a with
  | error err => rfl
  | ok o => cases e.kind <;> rfl

theorem predict_sim [FloorRing K] {H : Type} (np : Numpyro κ G (ModelArgs D K) K Θ P (Draws K))
    (horizon : List τ → H → List τ) {w : World S τ D K F κ G Θ P} {i : Nat}
    {fc : Fc S τ D K κ G Θ P} (hi : w.fcs[i]? = some fc) {c : Contents S τ D K F κ G}
    (hd : fc.cfg.discrete = c.discrete) (hh : fc.cfg.hier = c.hier) {y : Frame String τ K} {X : Option (Frame String τ K)}
    (ha : AfterFit np c y X w.heap w.feats fc) (q : Query K) (X' : Option (Frame String τ K))
    (fh : H) :
    (w.predict np horizon i q X' fh).1 = valPredict np horizon c y X q X' fh := by
  unfold World.predict valPredict valFit
  simp only [hi]
  unfold AfterFit at ha
  cases hv : valPrepare c y X with
  | error e =>
    rw [hv] at ha
    obtain ⟨h1, h2, -⟩ := ha
    rw [h2, h1]
    simp only
    cases q.checked <;> rfl
  | ok v =>
    rw [hv] at ha
    obtain ⟨p, h1, hview, h2, h3, -⟩ := ha
    rw [h3, h1, h2]
    simp only
    split
    · rfl
    · cases hinf : (valInfer np c v.fitArgs).2 with
      | none => rfl
      | some eng =>
        simp only
        rw [hview.target, predictArgs_sim hview]
        simp only [bind, Except.bind]
        cases v.predictArgs y X' (horizon y.times fh) with
        | error e => rfl
        | ok a =>
          simp only
          have := Engine.predict_fst np eng a w.samples
          rcases hp : eng.predict np a w.samples with ⟨r, eng', g⟩
          rw [hp] at this
          simp only at this ⊢
          rw [this]
          unfold Prepared.ctx
          rw [hd, hh, hview.target, hview.ySids, hview.scale]

end
end PV
