import Verif.Lemmas.CalendarFrames

/-!
# Forecasters under a change of the dates (for C78)
-/

namespace PV
section
variable {S S' τ τ' D K F F' κ G Θ P : Type} [Field K] [LinearOrder K] [LinearOrder τ]
  [LinearOrder τ'] {g : τ → τ'} {R : S → S' → Prop} {RF : F → F' → Prop}

/-! ## The heap -/

/-- Objects that do the same, at the same places. -/
def SameHeap (g : τ → τ') (R : S → S' → Prop) (h : List (Obj S τ D K)) (h' : List (Obj S' τ' D K)) :
    Prop := List.Forall₂ (SameObj g R) h h'

/-- Computations on the heap with related results. -/
def SameRun (g : τ → τ') (R : S → S' → Prop) {α β : Type} (Q : α → β → Prop)
    (m : OnHeap S τ D K α) (m' : OnHeap S' τ' D K β) : Prop :=
  ∀ h h', SameHeap g R h h' → ExRel Q (m h).1 (m' h').1 ∧ SameHeap g R (m h).2 (m' h').2

theorem SameRun.pure {α β : Type} {Q : α → β → Prop} {a : α} {b : β} (hab : Q a b) :
    SameRun g R Q (Pure.pure a : OnHeap S τ D K α) (Pure.pure b : OnHeap S' τ' D K β) :=
  fun _ _ h => ⟨hab, h⟩

theorem SameRun.bind {α β γ δ : Type} {Q : α → β → Prop} {Q' : γ → δ → Prop}
    {m : OnHeap S τ D K α} {m' : OnHeap S' τ' D K β} {f : α → OnHeap S τ D K γ}
    {f' : β → OnHeap S' τ' D K δ} (hm : SameRun g R Q m m')
    (hf : ∀ a b, Q a b → SameRun g R Q' (f a) (f' b)) : SameRun g R Q' (m >>= f) (m' >>= f') := by
  intro h h' hh
  obtain ⟨h1, h2⟩ := hm h h' hh
  show ExRel Q' ((match m h with
      | (.error e, h) => (.error e, h)
      | (.ok a, h) => f a h) : PyM γ × _).1 ((match m' h' with
      | (.error e, h) => (.error e, h)
      | (.ok a, h) => f' a h) : PyM δ × _).1 ∧ SameHeap g R ((match m h with
      | (.error e, h) => (.error e, h)
      | (.ok a, h) => f a h) : PyM γ × _).2 ((match m' h' with
      | (.error e, h) => (.error e, h)
      | (.ok a, h) => f' a h) : PyM δ × _).2
  rcases hr : m h with ⟨r, k⟩
  rcases hr' : m' h' with ⟨r', k'⟩
  rw [hr, hr'] at h1 h2
  cases r <;> cases r'
  · exact ⟨h1, h2⟩
  · exact h1.elim
  · exact h1.elim
  · exact hf _ _ h1 _ _ h2

theorem SameRun.lift {α β : Type} {Q : α → β → Prop} {x : PyM α} {x' : PyM β} (h : ExRel Q x x') :
    SameRun g R Q (OnHeap.lift x : OnHeap S τ D K α) (OnHeap.lift x' : OnHeap S' τ' D K β) :=
  fun _ _ hh => ⟨h, hh⟩

theorem SameRun.read {α β : Type} {Q : α → β → Prop} {f : List (Obj S τ D K) → PyM α}
    {f' : List (Obj S' τ' D K) → PyM β} (h : ∀ k k', SameHeap g R k k' → ExRel Q (f k) (f' k')) :
    SameRun g R Q (OnHeap.read f) (OnHeap.read f') :=
  fun _ _ hh => ⟨h _ _ hh, hh⟩

theorem SameRun.foldlM {α β γ : Type} {Q : α → β → Prop} {f : α → γ → OnHeap S τ D K α}
    {f' : β → γ → OnHeap S' τ' D K β} (hf : ∀ a b c, Q a b → SameRun g R Q (f a c) (f' b c))
    (l : List γ) : ∀ {a : α} {b : β}, Q a b → SameRun g R Q (l.foldlM f a) (l.foldlM f' b) := by
  induction l with
  | nil => intro a b h; exact SameRun.pure h
  | cons c l ih =>
    intro a b h
    rw [List.foldlM_cons, List.foldlM_cons]
    exact (hf _ _ _ h).bind fun a' b' h' => ih h'

theorem ExRel.mapM {α β γ : Type} {Q : α → β → Prop} {f : γ → PyM α} {f' : γ → PyM β}
    (l : List γ) (h : ∀ c ∈ l, ExRel Q (f c) (f' c)) :
    ExRel (List.Forall₂ Q) (l.mapM f) (l.mapM f') := by
  induction l with
  | nil => rw [List.mapM_nil, List.mapM_nil]; exact List.Forall₂.nil
  | cons c l ih =>
    rw [List.mapM_cons, List.mapM_cons]
    refine (h c (by simp)).bind fun a b hab => ?_
    refine (ih fun c hc => h c (by simp [hc])).bind fun as bs hs => ?_
    exact List.Forall₂.cons hab hs

theorem same_deref {h : List (Obj S τ D K)} {h' : List (Obj S' τ' D K)} (hh : SameHeap g R h h')
    (r : Nat) : ExRel (SameObj g R) (deref h r) (deref h' r) := by
  unfold deref
  have hl := hh.length_eq
  by_cases hr : r < h.length
  · have hr' : r < h'.length := by omega
    rw [List.getElem?_eq_getElem hr, List.getElem?_eq_getElem hr']
    exact hh.get hr hr'
  · rw [List.getElem?_eq_none (by omega), List.getElem?_eq_none (by omega)]
    exact ExRel.error _

theorem same_alloc {o : Obj S τ D K} {o' : Obj S' τ' D K} (ho : SameObj g R o o') :
    SameRun g R (· = ·) (alloc o) (alloc o') := by
  intro h h' hh
  exact ⟨hh.length_eq, List.rel_append hh (.cons ho .nil)⟩

theorem same_clone (r : Nat) : SameRun g R (· = ·) (cloneRef (S := S) (τ := τ) (D := D) (K := K) r)
    (cloneRef (S := S') (τ := τ') r) := by
  unfold cloneRef
  exact (SameRun.read fun k k' hk => same_deref hk r).bind fun o o' ho => same_alloc ho.clone

theorem forall₂_listSet {α β : Type} {Q : α → β → Prop} {l : List α} {l' : List β}
    (h : List.Forall₂ Q l l') (i : Nat) {a : α} {b : β} (hab : Q a b) :
    List.Forall₂ Q (l.set i a) (l'.set i b) := by
  induction h generalizing i with
  | nil => exact .nil
  | cons hpq hrest ih =>
    cases i with
    | zero => exact .cons hab hrest
    | succ i => exact .cons hpq (ih i)

theorem same_fitRef (r : Nat) (y : Frame String τ K) (X : Option (Frame String τ K))
    (sc : Scale K) : SameRun g R (fun _ _ => True)
      (fitRef (S := S) (D := D) r y X sc)
      (fitRef (S := S') (D := D) r (y.mapTimes g) (X.map (Frame.mapTimes g)) sc) := by
  intro h h' hh
  unfold fitRef
  have hd := same_deref hh r
  cases h1 : deref h r with
  | error e =>
    cases h2 : deref h' r with
    | error e' => rw [h1, h2] at hd; exact ⟨hd, hh⟩
    | ok o' => rw [h1, h2] at hd; exact hd.elim
  | ok o =>
    cases h2 : deref h' r with
    | error e' => rw [h1, h2] at hd; exact hd.elim
    | ok o' =>
      rw [h1, h2] at hd
      have hf := SameObj.fit hd y X sc
      simp only
      cases h3 : o.fit y X sc with
      | error e =>
        cases h4 : o'.fit (y.mapTimes g) (X.map (Frame.mapTimes g)) sc with
        | error e' => rw [h3, h4] at hf; exact ⟨hf, hh⟩
        | ok _ => rw [h3, h4] at hf; exact hf.elim
      | ok o1 =>
        cases h4 : o'.fit (y.mapTimes g) (X.map (Frame.mapTimes g)) sc with
        | error e' => rw [h3, h4] at hf; exact hf.elim
        | ok o2 =>
          rw [h3, h4] at hf
          exact ⟨trivial, forall₂_listSet hh r hf⟩

theorem same_select (x : Frame String τ K) (cs : List String) :
    ExRel (fun a b => b = a.mapTimes g) (x.select cs) ((x.mapTimes g).select cs) :=
  ExRel.of_map (select_mapTimes x cs)

theorem same_fitEffectsRef (compile : String → PyM (String → Bool))
    (effects : List (String × Nat × Option String)) (default : Option Nat)
    {linear : Obj S τ D K} {linear' : Obj S' τ' D K} (hl : SameObj g R linear linear')
    (x y : Frame String τ K) (sc : Scale K) :
    SameRun g R (· = ·) (fitEffectsRef compile effects default linear x y sc)
      (fitEffectsRef compile effects default linear' (x.mapTimes g) (y.mapTimes g) sc) := by
  unfold fitEffectsRef
  have hc : (x.mapTimes g).cols = x.cols := rfl
  refine SameRun.bind (Q := (· = ·)) (SameRun.foldlM ?_ effects rfl) ?_
  · rintro a _ e rfl
    unfold fitStepRef
    rw [hc]
    refine SameRun.bind (Q := (· = ·)) (SameRun.lift (ExRel.of_eq (fun _ => rfl) rfl)) ?_
    rintro cols _ rfl
    refine (SameRun.lift (same_select x cols)).bind ?_
    rintro xc _ rfl
    refine (same_clone _).bind ?_
    rintro r _ rfl
    refine (same_fitRef r y (some xc) sc).bind fun _ _ _ => ?_
    exact SameRun.pure rfl
  · rintro acc _ rfl
    unfold fitDefaultRef
    rw [hc]
    split
    · exact SameRun.pure rfl
    · refine (SameRun.lift (same_select x _)).bind ?_
      rintro xc _ rfl
      have hd : SameRun g R (· = ·) (defaultRef default linear) (defaultRef default linear') := by
        unfold defaultRef
        cases default with
        | some r => exact SameRun.pure rfl
        | none => exact same_alloc hl
      refine hd.bind ?_
      rintro d _ rfl
      refine (same_clone d).bind ?_
      rintro r _ rfl
      refine (same_fitRef r y (some xc) sc).bind fun _ _ _ => ?_
      exact SameRun.pure rfl

theorem same_derefFitted {h : List (Obj S τ D K)} {h' : List (Obj S' τ' D K)}
    (hh : SameHeap g R h h') (l : List (String × Nat × List String)) :
    ExRel (List.Forall₂ (SameFitted g R)) (derefFitted h l) (derefFitted h' l) := by
  unfold derefFitted
  apply ExRel.mapM
  intro e _
  have := same_deref hh e.2.1
  cases h1 : deref h e.2.1 <;> cases h2 : deref h' e.2.1 <;> rw [h1, h2] at this
  · exact this
  · exact this.elim
  · exact this.elim
  · exact ⟨rfl, rfl, this⟩

theorem same_derefDict {h : List (Obj S τ D K)} {h' : List (Obj S' τ' D K)}
    (hh : SameHeap g R h h') (d : PyDict Nat) :
    ExRel (List.Forall₂ fun p q => q.1 = p.1 ∧ SameObj g R p.2 q.2) (derefDict h d)
      (derefDict h' d) := by
  unfold derefDict
  apply ExRel.mapM
  intro e _
  have := same_deref hh e.2
  cases h1 : deref h e.2 <;> cases h2 : deref h' e.2 <;> rw [h1, h2] at this
  · exact this
  · exact this.elim
  · exact this.elim
  · exact ⟨rfl, this⟩

theorem same_nonSkippedRefs {h : List (Obj S τ D K)} {h' : List (Obj S' τ' D K)}
    (hh : SameHeap g R h h') (l : List (String × Nat × List String)) :
    nonSkippedRefs h' l = nonSkippedRefs h l := by
  have key : keepRefs h' l = keepRefs h l := by
    induction l with
    | nil => rfl
    | cons e l ih =>
      unfold keepRefs
      rw [ih]
      have := same_deref hh e.2.1
      cases h1 : deref h e.2.1 <;> cases h2 : deref h' e.2.1 <;> rw [h1, h2] at this
      · cases this; rfl
      · exact this.elim
      · exact this.elim
      · simp only [bind, Except.bind]
        rw [SameObj.skip this]
  unfold nonSkippedRefs
  rw [key]

/-! ## Configurations -/

/-- The same options of the hierarchical forecaster. -/
structure SameHier (g : τ → τ') (o : HierOpts τ K) (o' : HierOpts τ' K) : Prop where
  order : o'.order = o.order
  keep : o'.keep = o.keep
  shared : o'.shared = o.shared
  levels : ∀ y, o'.levels (y.mapTimes g) = o.levels y

/-- The same trend argument. -/
inductive SameTrendSrc (g : τ → τ') (R : S → S' → Prop) :
    TrendSrc (Obj S τ D K) → TrendSrc (Obj S' τ' D K) → Prop
  | named {o : Obj S τ D K} {o' : Obj S' τ' D K} (h : SameObj g R o o') :
      SameTrendSrc g R (.named o) (.named o')
  | object (r : Nat) : SameTrendSrc g R (.object r) (.object r)

/-- The same constructor arguments. -/
structure SameConfig (g : τ → τ') (R : S → S' → Prop) (c : FcConfig S τ D K κ G)
    (c' : FcConfig S' τ' D K κ G) : Prop where
  compile : c'.compile = c.compile
  trend : SameTrendSrc g R c.trend c'.trend
  effects : c'.effects = c.effects
  default : c'.default = c.default
  linear : SameObj g R c.linear c'.linear
  features : c'.features = c.features
  hier : Option.Rel (SameHier g) c.hier c'.hier
  discrete : c'.discrete = c.discrete
  scale : c'.scale = c.scale
  rngKey : c'.rngKey = c.rngKey
  method : c'.method = c.method
  settings : c'.settings = c.settings

/-- Feature transformers that do the same on dates `t` and dates `g t`. -/
structure SameFeature (g : τ → τ') (RF : F → F' → Prop) (f : FeatureObj F τ K)
    (f' : FeatureObj F' τ' K) : Prop where
  fitTransform : ∀ s s' x, RF s s' →
    (f'.fitTransform s' (x.mapTimes g)).1 = (f.fitTransform s x).1.map (Frame.mapTimes g) ∧
    RF (f.fitTransform s x).2 (f'.fitTransform s' (x.mapTimes g)).2
  transform : ∀ s s' x, RF s s' →
    f'.transform s' (x.mapTimes g) = (f.transform s x).map (Frame.mapTimes g)
  st : RF f.st f'.st

/-- The same attributes after `_get_fit_data`, the target on the new dates. -/
def Prepared.mapTimes (g : τ → τ') (p : Prepared τ K) : Prepared τ' K :=
  { scale := p.scale, trend := p.trend, fitted := p.fitted, objs := p.objs, kwargs := p.kwargs,
    y := p.y.mapTimes g, ySids := p.ySids, expand := p.expand }

/-- Forecasters in the same state. -/
structure SameFc (g : τ → τ') (R : S → S' → Prop) (fc : Fc S τ D K κ G Θ P)
    (fc' : Fc S' τ' D K κ G Θ P) : Prop where
  cfg : SameConfig g R fc.cfg fc'.cfg
  prepared : fc'.prepared = fc.prepared.map (Prepared.mapTimes g)
  engine : fc'.engine = fc.engine
  posterior : fc'.posterior = fc.posterior
  isFitted : fc'.isFitted = fc.isFitted

/-- Worlds in the same state. -/
structure SameWorld (g : τ → τ') (R : S → S' → Prop) (RF : F → F' → Prop)
    (w : World S τ D K F κ G Θ P) (w' : World S' τ' D K F' κ G Θ P) : Prop where
  heap : SameHeap g R w.heap w'.heap
  feats : List.Forall₂ (SameFeature g RF) w.feats w'.feats
  fcs : List.Forall₂ (SameFc g R) w.fcs w'.fcs
  samples : w'.samples = w.samples

/-! ## Fitting -/

theorem same_trendRef {t : TrendSrc (Obj S τ D K)} {t' : TrendSrc (Obj S' τ' D K)}
    (h : SameTrendSrc g R t t') : SameRun g R (· = ·) (trendRef t) (trendRef t') := by
  cases h with
  | named h => exact same_alloc h
  | object r => exact SameRun.pure rfl

theorem same_fitFeatures {fs : List (FeatureObj F τ K)} {fs' : List (FeatureObj F' τ' K)}
    (h : List.Forall₂ (SameFeature g RF) fs fs') (r : Option Nat) (x : Frame String τ K) :
    (fitFeaturesRef fs' r (x.mapTimes g)).1 = (fitFeaturesRef fs r x).1.map (Frame.mapTimes g) ∧
      List.Forall₂ (SameFeature g RF) (fitFeaturesRef fs r x).2
        (fitFeaturesRef fs' r (x.mapTimes g)).2 := by
  cases r with
  | none => exact ⟨rfl, h⟩
  | some r =>
    unfold fitFeaturesRef
    simp only
    have hl := h.length_eq
    by_cases hr : r < fs.length
    · have hr' : r < fs'.length := by omega
      rw [List.getElem?_eq_getElem hr, List.getElem?_eq_getElem hr']
      have hf : SameFeature g RF fs[r] fs'[r] := h.get hr hr'
      have := hf.fitTransform _ _ x hf.st
      exact ⟨this.1, forall₂_listSet h r ⟨hf.fitTransform, hf.transform, this.2⟩⟩
    · rw [List.getElem?_eq_none (by omega), List.getElem?_eq_none (by omega)]
      exact ⟨rfl, h⟩

theorem same_features {fs : List (FeatureObj F τ K)} {fs' : List (FeatureObj F' τ' K)}
    (h : List.Forall₂ (SameFeature g RF) fs fs') (r : Option Nat) (x : Frame String τ K) :
    featuresRef fs' r (x.mapTimes g) = (featuresRef fs r x).map (Frame.mapTimes g) := by
  cases r with
  | none => rfl
  | some r =>
    unfold featuresRef
    simp only
    have hl := h.length_eq
    by_cases hr : r < fs.length
    · have hr' : r < fs'.length := by omega
      rw [List.getElem?_eq_getElem hr, List.getElem?_eq_getElem hr']
      have hf : SameFeature g RF fs[r] fs'[r] := h.get hr hr'
      exact hf.transform _ _ x hf.st
    · rw [List.getElem?_eq_none (by omega), List.getElem?_eq_none (by omega)]
      rfl

/-- What the two runs of `_get_fit_data` return. -/
def SamePrepared (g : τ → τ') (a : Prepared τ K × ModelArgs D K)
    (b : Prepared τ' K × ModelArgs D K) : Prop := b = (a.1.mapTimes g, a.2)

theorem same_call {o : Obj S τ D K} {o' : Obj S' τ' D K} (h : SameObj g R o o') :
    o'.cls.call o'.st = o.cls.call o.st := by
  have h1 := h.cls.call o'.st.1 o.st.2 o'.st.2 h.st.2
  have h2 : (o'.st.1, o.st.2) = o.st := by rw [h.st.1]
  rw [h2] at h1
  exact h1

theorem same_fitModelRef (hg : Function.Injective g) {c : FcConfig S τ D K κ G}
    {c' : FcConfig S' τ' D K κ G} (hc : SameConfig g R c c') (s : Scale K)
    (y0 y : Frame String τ K) (fh : List τ) (ya : Tensor K) (sids : List (List String))
    (ex : Option ExpandState) (kw : ModelKwargs K) (x : Frame String τ K) (t : Nat) :
    SameRun g R (SamePrepared g) (fitModelRef c s y0 y fh ya sids ex kw x t)
      (fitModelRef c' s (y0.mapTimes g) (y.mapTimes g) (fh.map g) ya sids ex kw (x.mapTimes g) t) := by
  unfold fitModelRef
  refine SameRun.bind (Q := (· = ·)) (SameRun.read fun k k' hk => ?_) ?_
  · refine (same_deref hk t).bind fun o o' ho => ?_
    have := SameObj.transform hg ho (some x) fh
    simp only [Option.map_some] at this
    exact ExRel.of_eq (fun _ => rfl) this.symm
  rintro td _ rfl
  rw [hc.compile, hc.effects, hc.default]
  refine (same_fitEffectsRef c.compile c.effects c.default hc.linear x y s).bind ?_
  rintro fitted _ rfl
  refine SameRun.bind (Q := (· = ·)) (SameRun.read fun k k' hk => ?_) ?_
  · refine (same_derefFitted hk fitted).bind fun l l' hl => ?_
    exact ExRel.of_eq (fun _ => rfl) (sameTransformEffects hg hl x fh).symm
  rintro data _ rfl
  refine SameRun.bind (Q := (· = ·)) (SameRun.read fun k k' hk => ?_) ?_
  · exact ExRel.of_eq (fun _ => rfl) (same_nonSkippedRefs hk fitted).symm
  rintro objs _ rfl
  refine SameRun.bind (Q := (· = ·)) (SameRun.read fun k k' hk => ?_) ?_
  · refine (same_deref hk t).bind fun o o' ho => ?_
    exact (same_call ho).symm
  rintro tc _ rfl
  refine SameRun.bind (Q := (· = ·)) (SameRun.read fun k k' hk => ?_) ?_
  · refine (same_derefDict hk objs).bind fun d d' hd => ?_
    exact (sameCalls hd).symm
  rintro calls _ rfl
  exact SameRun.pure rfl

/-- What the two runs of `_get_fit_data` return and leave behind. -/
def SameResult (g : τ → τ') (R : S → S' → Prop) (RF : F → F' → Prop)
    (r : PrepareResult S τ D K F) (r' : PrepareResult S' τ' D K F') : Prop :=
  ExRel (SamePrepared g) r.1 r'.1 ∧ SameHeap g R r.2.1 r'.2.1 ∧
    List.Forall₂ (SameFeature g RF) r.2.2 r'.2.2

theorem columnArray_mapTimes (y : Frame String τ K) : columnArray (y.mapTimes g) = columnArray y := by
  have : (y.mapTimes g).flatVals (y.mapTimes g).rows = y.flatVals y.rows := by
    simp [Frame.flatVals, Frame.mapTimes, List.flatMap_map]
  unfold columnArray
  rw [this]

theorem sids_mapTimes (y : Frame String τ K) :
    (y.mapTimes g).index.map Prod.fst = y.index.map Prod.fst := by
  rw [index_mapTimes, List.map_map]
  rfl

theorem same_prepareUni (hg : Function.Injective g) {c : FcConfig S τ D K κ G}
    {c' : FcConfig S' τ' D K κ G} (hc : SameConfig g R c c') (s : Scale K)
    (y0 y : Frame String τ K) (X : Option (Frame String τ K)) {h : List (Obj S τ D K)}
    {h' : List (Obj S' τ' D K)} (hh : SameHeap g R h h') {fs : List (FeatureObj F τ K)}
    {fs' : List (FeatureObj F' τ' K)} (hfs : List.Forall₂ (SameFeature g RF) fs fs') :
    SameResult g R RF (prepareUni c s y0 y X h fs)
      (prepareUni c' s (y0.mapTimes g) (y.mapTimes g) (X.map (Frame.mapTimes g)) h' fs') := by
  unfold prepareUni
  have ht : SameRun g R (· = ·) (fitTrendRef c s y X)
      (fitTrendRef c' s (y.mapTimes g) (X.map (Frame.mapTimes g))) := by
    unfold fitTrendRef
    refine (same_trendRef hc.trend).bind ?_
    rintro r _ rfl
    rw [hc.discrete]
    refine (SameRun.lift (ExRel.of_map (trendTarget_mapTimes g c.discrete s y))).bind ?_
    rintro yt _ rfl
    refine (same_fitRef r yt X _).bind fun _ _ _ => ?_
    exact SameRun.pure rfl
  obtain ⟨h1, h2⟩ := ht h h' hh
  rcases hr : fitTrendRef c s y X h with ⟨r, k⟩
  rcases hr' : fitTrendRef c' s (y.mapTimes g) (X.map (Frame.mapTimes g)) h' with ⟨r', k'⟩
  rw [hr, hr'] at h1 h2
  cases r <;> cases r'
  · exact ⟨h1, h2, hfs⟩
  · exact h1.elim
  · exact h1.elim
  · rename_i t t'
    cases h1
    simp only
    have hX : (X.map (Frame.mapTimes g)).getD (Frame.ofIndex (y.mapTimes g).times)
        = (X.getD (Frame.ofIndex y.times)).mapTimes g := by
      cases X with
      | none => rw [times_mapTimes]; exact ofIndex_mapTimes _
      | some x => rfl
    rw [hX, hc.features]
    obtain ⟨h3, h4⟩ := same_fitFeatures hfs c.features (X.getD (Frame.ofIndex y.times))
    rcases hq : fitFeaturesRef fs c.features (X.getD (Frame.ofIndex y.times)) with ⟨q, fs1⟩
    rcases hq' : fitFeaturesRef fs' c.features ((X.getD (Frame.ofIndex y.times)).mapTimes g)
      with ⟨q', fs1'⟩
    rw [hq, hq'] at h3 h4
    simp only at h3 h4
    subst h3
    cases q with
    | error e => exact ⟨rfl, h2, h4⟩
    | ok x =>
      simp only [Except.map]
      have hrest : SameRun g R (SamePrepared g) (fitRestRef c s y0 y x t)
          (fitRestRef c' s (y0.mapTimes g) (y.mapTimes g) (x.mapTimes g) t) := by
        unfold fitRestRef
        rw [times_mapTimes]
        refine (SameRun.lift (ExRel.of_map (locTimes_mapTimes hg x y.times))).bind ?_
        rintro x1 _ rfl
        rw [columnArray_mapTimes, sids_mapTimes, map_unique fun _ _ _ _ h => hg h]
        exact same_fitModelRef hg hc s y0 y _ _ _ _ _ _ _
      exact ⟨(hrest k k' h2).1, (hrest k k' h2).2, h4⟩

theorem same_prepareHier (hg : StrictMono g) {c : FcConfig S τ D K κ G}
    {c' : FcConfig S' τ' D K κ G} (hc : SameConfig g R c c') {o : HierOpts τ K}
    {o' : HierOpts τ' K} (ho : SameHier g o o') (s : Scale K)
    (y0 y : Frame String τ K) (X : Option (Frame String τ K)) {h : List (Obj S τ D K)}
    {h' : List (Obj S' τ' D K)} (hh : SameHeap g R h h') {fs : List (FeatureObj F τ K)}
    {fs' : List (FeatureObj F' τ' K)} (hfs : List.Forall₂ (SameFeature g RF) fs fs') :
    SameResult g R RF (prepareHier o c s y0 y X h fs)
      (prepareHier o' c' s (y0.mapTimes g) (y.mapTimes g) (X.map (Frame.mapTimes g)) h' fs') := by
  unfold prepareHier
  have hb : hierBottom o' (y.mapTimes g) (X.map (Frame.mapTimes g))
      = (hierBottom o y X).map (Prod.map (Frame.mapTimes g) (Prod.map id (Frame.mapTimes g))) := by
    unfold hierBottom
    rw [ho.keep, aggregate_mapTimes hg, locBottom_mapTimes, index_mapTimes]
    have hn : ((aggregate o.keep y).mapTimes g).nlevels = (aggregate o.keep y).nlevels := rfl
    rw [hn, ofMultiIndex_mapTimes, exogOr_mapTimes, locBottom_mapTimes]
    cases locBottom (aggregate o.keep y) with
    | error e => rfl
    | ok yB =>
      simp only [Except.map, bind, Except.bind, seriesToTensor_mapTimes]
      cases yB.seriesToTensor with
      | error e => rfl
      | ok ya =>
        simp only
        cases locBottom (exogOr X
          (Frame.ofMultiIndex (aggregate o.keep y).nlevels (aggregate o.keep y).index)) <;> rfl
  rw [hb]
  cases hierBottom o y X with
  | error e => exact ⟨rfl, hh, hfs⟩
  | ok v =>
    obtain ⟨yB, ya, x⟩ := v
    simp only [Except.map, Prod.map]
    rw [hc.features]
    obtain ⟨h3, h4⟩ := same_fitFeatures hfs c.features x
    rcases hq : fitFeaturesRef fs c.features x with ⟨q, fs1⟩
    rcases hq' : fitFeaturesRef fs' c.features (x.mapTimes g) with ⟨q', fs1'⟩
    rw [hq, hq'] at h3 h4
    simp only at h3 h4
    subst h3
    cases q with
    | error e => exact ⟨rfl, hh, h4⟩
    | ok x =>
      simp only [Except.map, id]
      have hrest : SameRun g R (SamePrepared g) (fitHierRef o c s y0 y yB ya x)
          (fitHierRef o' c' s (y0.mapTimes g) (y.mapTimes g) (yB.mapTimes g) ya (x.mapTimes g)) := by
        unfold fitHierRef
        rw [hc.compile, ho.order, ho.shared, ho.keep, aggregate_mapTimes hg]
        refine (SameRun.lift (ExRel.of_map (fitExpand_mapTimes g c.compile o.order o.shared x))).bind ?_
        rintro ex _ rfl
        refine (same_trendRef hc.trend).bind ?_
        rintro r _ rfl
        refine (same_fitRef r yB (some ex.2) s).bind fun _ _ _ => ?_
        have hn : ((aggregate o.keep y).mapTimes g).nlevels = (aggregate o.keep y).nlevels := rfl
        rw [hn, sids_mapTimes, unique_times_mapTimes hg.injective]
        exact same_fitModelRef hg.injective hc s y0 yB _ _ _ _ _ _ _
      exact ⟨(hrest h h' hh).1, (hrest h h' hh).2, h4⟩

theorem same_prepareRef (hg : StrictMono g) {c : FcConfig S τ D K κ G}
    {c' : FcConfig S' τ' D K κ G} (hc : SameConfig g R c c') (s : Scale K)
    (y0 y : Frame String τ K) (X : Option (Frame String τ K)) {h : List (Obj S τ D K)}
    {h' : List (Obj S' τ' D K)} (hh : SameHeap g R h h') {fs : List (FeatureObj F τ K)}
    {fs' : List (FeatureObj F' τ' K)} (hfs : List.Forall₂ (SameFeature g RF) fs fs') :
    SameResult g R RF (prepareRef c s y0 y X h fs)
      (prepareRef c' s (y0.mapTimes g) (y.mapTimes g) (X.map (Frame.mapTimes g)) h' fs') := by
  unfold prepareRef
  have hr := hc.hier
  generalize ha : c.hier = a at hr
  generalize hb : c'.hier = b at hr
  cases hr with
  | none => exact same_prepareUni hg.injective hc s y0 y X hh hfs
  | some ho => exact same_prepareHier hg hc ho s y0 y X hh hfs

theorem same_inferFc (np : Numpyro κ G (ModelArgs D K) K Θ P (Draws K))
    {fc : Fc S τ D K κ G Θ P} {fc' : Fc S' τ' D K κ G Θ P} (h : SameFc g R fc fc')
    (a : ModelArgs D K) : (inferFc np fc' a).1 = (inferFc np fc a).1 ∧
      SameFc g R (inferFc np fc a).2 (inferFc np fc' a).2 := by
  have he : makeEngine np fc'.cfg = makeEngine np fc.cfg := by
    unfold makeEngine
    rw [h.cfg.method, h.cfg.settings, h.cfg.rngKey]
  unfold inferFc
  rw [he]
  cases makeEngine np fc.cfg with
  | error e => exact ⟨rfl, h⟩
  | ok eng =>
    simp only
    rcases eng.infer np a with ⟨r, eng⟩
    cases r with
    | error e => exact ⟨rfl, h.cfg, h.prepared, rfl, h.posterior, h.isFitted⟩
    | ok u => exact ⟨rfl, h.cfg, h.prepared, rfl, rfl, rfl⟩

/-- `fit` on the new dates does the same. -/
theorem same_fit (hg : StrictMono g) (np : Numpyro κ G (ModelArgs D K) K Θ P (Draws K))
    {w : World S τ D K F κ G Θ P} {w' : World S' τ' D K F' κ G Θ P} (hw : SameWorld g R RF w w')
    (i : Nat) (y : Frame String τ K) (X : Option (Frame String τ K)) :
    (w'.fit np i (y.mapTimes g) (X.map (Frame.mapTimes g))).1 = (w.fit np i y X).1 ∧
      SameWorld g R RF (w.fit np i y X).2
        (w'.fit np i (y.mapTimes g) (X.map (Frame.mapTimes g))).2 := by
  unfold World.fit
  have hl := hw.fcs.length_eq
  by_cases hi : i < w.fcs.length
  · have hi' : i < w'.fcs.length := by omega
    rw [List.getElem?_eq_getElem hi, List.getElem?_eq_getElem hi']
    have hfc : SameFc g R w.fcs[i] w'.fcs[i] := hw.fcs.get hi hi'
    have hcfg := hfc.cfg
    have hreset : SameFc g R w.fcs[i].reset w'.fcs[i].reset := ⟨hcfg, rfl, rfl, rfl, rfl⟩
    have hw1 : SameWorld g R RF { w with fcs := w.fcs.set i w.fcs[i].reset }
        { w' with fcs := w'.fcs.set i w'.fcs[i].reset } :=
      ⟨hw.heap, hw.feats, forall₂_listSet hw.fcs i hreset, hw.samples⟩
    simp only [Fc.reset] at hw1 ⊢
    rw [hcfg.discrete, hcfg.scale, fitTarget_mapTimes]
    cases fitTarget w.fcs[i].cfg.discrete w.fcs[i].cfg.scale y with
    | error e => exact ⟨rfl, hw1⟩
    | ok v =>
      obtain ⟨s, ys⟩ := v
      simp only [Except.map, Prod.map, id]
      obtain ⟨h1, h2, h3⟩ := same_prepareRef hg hcfg s y ys X hw.heap hw.feats
      rcases hp : prepareRef w.fcs[i].cfg s y ys X w.heap w.feats with ⟨r, k, fs⟩
      rcases hp' : prepareRef w'.fcs[i].cfg s (y.mapTimes g) (ys.mapTimes g)
        (X.map (Frame.mapTimes g)) w'.heap w'.feats with ⟨r', k', fs'⟩
      rw [hp, hp'] at h1 h2 h3
      cases r <;> cases r'
      · cases h1
        exact ⟨rfl, h2, h3, hw1.fcs, hw.samples⟩
      · exact h1.elim
      · exact h1.elim
      · rename_i pa pa'
        obtain ⟨p, a⟩ := pa
        cases h1
        simp only
        have hfc1 : SameFc g R
            (⟨w.fcs[i].cfg, some p, none, none, false⟩ : Fc S τ D K κ G Θ P)
            ⟨w'.fcs[i].cfg, some (p.mapTimes g), none, none, false⟩ := ⟨hcfg, rfl, rfl, rfl, rfl⟩
        obtain ⟨h4, h5⟩ := same_inferFc np hfc1 a
        refine ⟨h4, h2, h3, ?_, hw.samples⟩
        exact forall₂_listSet hw1.fcs i h5
  · rw [List.getElem?_eq_none (by omega), List.getElem?_eq_none (by omega)]
    exact ⟨rfl, hw⟩

/-! ## Predicting -/

/-- The answer on other dates. -/
def Answer.mapTimes (g : τ → τ') : Answer τ K → Answer τ' K
  | .point f => .point (f.mapTimes g)
  | .quantiles f => .quantiles (f.mapTimes g)
  | .samples f => .samples (f.mapTimes g)
  | .allSites f => .allSites (f.mapTimes g)
  | .allSitesSamples l => .allSitesSamples
      (l.map fun p => (p.1, p.2.map (Prod.map (Prod.map id (Prod.map id g)) id)))

theorem same_samplesOf (hg : StrictMono g) {hier : Option (HierOpts τ K)}
    {hier' : Option (HierOpts τ' K)} (hh : Option.Rel (SameHier g) hier hier') (ctx : Fitted K)
    (obs : Tensor K) (fh : List τ) : samplesOf hier' ctx obs (fh.map g)
      = (samplesOf hier ctx obs fh).map (Frame.mapTimes g) := by
  cases hh with
  | none => exact predictSamples_map hg ctx obs fh
  | some ho =>
    simp only [samplesOf, predictSamplesHier]
    rw [predictSamples_map hg, ho.keep]
    cases predictSamples ctx obs fh with
    | error e => rfl
    | ok f =>
      simp only [Except.map, bind, Except.bind, pure, Except.pure]
      rw [aggregate_mapTimes hg]

theorem same_answer [FloorRing K] (hg : StrictMono g) (q : Query K) {hier : Option (HierOpts τ K)}
    {hier' : Option (HierOpts τ' K)} (hh : Option.Rel (SameHier g) hier hier') (ctx : Fitted K)
    (name : String) (d : Draws K) (fh : List τ) :
    q.answer hier' ctx name d (fh.map g) = (q.answer hier ctx name d fh).map (Answer.mapTimes g) := by
  cases q with
  | allSites =>
    simp only [Query.answer, predictAllSites_map hg]
    cases predictAllSites ctx d fh <;> rfl
  | allSitesSamples =>
    simp only [Query.answer]
    have key : ∀ l : Draws K, l.mapM (fun p => (siteSamples ctx p.2 (fh.map g)).map fun v => (p.1, v))
        = (l.mapM fun p => (siteSamples ctx p.2 fh).map fun v => (p.1, v)).map
          (List.map fun p => (p.1, p.2.map (Prod.map (Prod.map id (Prod.map id g)) id))) := by
      intro l
      induction l with
      | nil => rfl
      | cons p l ih =>
        rw [List.mapM_cons, List.mapM_cons, ih, siteSamples_map]
        cases siteSamples ctx p.2 fh with
        | error e => rfl
        | ok v =>
          generalize (l.mapM fun p => (siteSamples ctx p.2 fh).map fun v => (p.1, v)) = m
          cases m <;> rfl
    rw [key]
    cases d.mapM fun p => (siteSamples ctx p.2 fh).map fun v => (p.1, v) <;> rfl
  | point =>
    simp only [Query.answer]
    cases d.getItem "obs" with
    | error e => rfl
    | ok obs =>
      simp only [bind, Except.bind, same_samplesOf hg hh]
      cases samplesOf hier ctx obs fh with
      | error e => rfl
      | ok f =>
        simp only [Except.map, pure, Except.pure, predictPoint_mapTimes, Answer.mapTimes]
  | samples =>
    simp only [Query.answer]
    cases d.getItem "obs" with
    | error e => rfl
    | ok obs =>
      simp only [bind, Except.bind, same_samplesOf hg hh]
      cases samplesOf hier ctx obs fh <;> rfl
  | quantiles a =>
    simp only [Query.answer]
    cases d.getItem "obs" with
    | error e => rfl
    | ok obs =>
      simp only [bind, Except.bind, same_samplesOf hg hh]
      cases samplesOf hier ctx obs fh with
      | error e => rfl
      | ok f =>
        simp only [Except.map, predictQuantiles_mapTimes]
        cases predictQuantiles name a.toList f <;> rfl

theorem same_predictArgs (hg : StrictMono g) {h : List (Obj S τ D K)} {h' : List (Obj S' τ' D K)}
    (hh : SameHeap g R h h') {fs : List (FeatureObj F τ K)} {fs' : List (FeatureObj F' τ' K)}
    (hfs : List.Forall₂ (SameFeature g RF) fs fs') {c : FcConfig S τ D K κ G}
    {c' : FcConfig S' τ' D K κ G} (hc : SameConfig g R c c') (p : Prepared τ K)
    (X : Option (Frame String τ K)) (fh : List τ) :
    predictArgs h' fs' c' (p.mapTimes g) (X.map (Frame.mapTimes g)) (fh.map g)
      = predictArgs h fs c p X fh := by
  symm
  apply ExRel.eq_of
  unfold predictArgs
  have hseen : predictSeenRef fs' c' (p.mapTimes g) (X.map (Frame.mapTimes g)) (fh.map g)
      = (predictSeenRef fs c p X fh).map (Frame.mapTimes g) := by
    unfold predictSeenRef
    have hr := hc.hier
    generalize ha : c.hier = a at hr
    generalize hb : c'.hier = b at hr
    cases hr with
    | none =>
      simp only
      have hX : (X.map (Frame.mapTimes g)).getD (Frame.ofIndex (fh.map g))
          = (X.getD (Frame.ofIndex fh)).mapTimes g := by
        cases X with
        | none => exact ofIndex_mapTimes _
        | some x => rfl
      rw [hX, hc.features]
      exact same_features hfs c.features _
    | @some o o' ho =>
      simp only [Prepared.mapTimes]
      rw [ho.levels, ho.keep, predictExog_mapTimes hg, hc.features]
      cases predictExog o.keep (o.levels p.y) p.y X fh with
      | error e => rfl
      | ok x => exact predictExpand_mapTimes hg (same_features hfs c.features) p.expand x fh
  refine (ExRel.of_map hseen).bind ?_
  rintro x _ rfl
  refine (same_deref hh p.trend).bind fun t t' ht => ?_
  have htr := SameObj.transform hg.injective ht (some x) fh
  simp only [Option.map_some] at htr
  refine ExRel.bind (R := (· = ·)) (ExRel.of_eq (fun _ => rfl) htr.symm) ?_
  rintro td _ rfl
  refine (same_derefFitted hh p.fitted).bind fun l l' hl => ?_
  refine ExRel.bind (R := (· = ·))
    (ExRel.of_eq (fun _ => rfl) (sameTransformEffects hg.injective hl x fh).symm) ?_
  rintro data _ rfl
  refine (same_derefDict hh p.objs).bind fun d d' hd => ?_
  refine ExRel.pure ?_
  rw [same_call ht, sameCalls hd]
  rfl

/-- A prediction on the new dates gives the same, on the new dates. -/
theorem same_predict [FloorRing K] {H H' : Type} {horizon : List τ → H → List τ}
    {horizon' : List τ' → H' → List τ'} {RH : H → H' → Prop}
    (hH : ∀ ts fh fh', RH fh fh' → horizon' (ts.map g) fh' = (horizon ts fh).map g)
    (hg : StrictMono g) (np : Numpyro κ G (ModelArgs D K) K Θ P (Draws K))
    {w : World S τ D K F κ G Θ P} {w' : World S' τ' D K F' κ G Θ P} (hw : SameWorld g R RF w w')
    (i : Nat) (q : Query K) (X : Option (Frame String τ K)) {fh : H} {fh' : H'} (hfh : RH fh fh') :
    (w'.predict np horizon' i q (X.map (Frame.mapTimes g)) fh').1
        = (w.predict np horizon i q X fh).1.map (Answer.mapTimes g) ∧
      SameWorld g R RF (w.predict np horizon i q X fh).2
        (w'.predict np horizon' i q (X.map (Frame.mapTimes g)) fh').2 := by
  unfold World.predict
  have hl := hw.fcs.length_eq
  by_cases hi : i < w.fcs.length
  · have hi' : i < w'.fcs.length := by omega
    rw [List.getElem?_eq_getElem hi, List.getElem?_eq_getElem hi']
    have hfc : SameFc g R w.fcs[i] w'.fcs[i] := hw.fcs.get hi hi'
    simp only
    rw [hfc.isFitted, hfc.prepared, hfc.engine]
    split
    · exact ⟨rfl, hw⟩
    · cases hp : w.fcs[i].prepared with
      | none => exact ⟨rfl, hw⟩
      | some p =>
        cases he : w.fcs[i].engine with
        | none => exact ⟨rfl, hw⟩
        | some eng =>
          simp only [Option.map_some]
          have hy : (p.mapTimes g).y = p.y.mapTimes g := rfl
          rw [hy, times_mapTimes, hH _ _ _ hfh, same_predictArgs hg hw.heap hw.feats hfc.cfg]
          cases predictArgs w.heap w.feats w.fcs[i].cfg p X (horizon p.y.times fh) with
          | error e => exact ⟨rfl, hw⟩
          | ok a =>
            simp only
            rw [hw.samples]
            rcases eng.predict np a w.samples with ⟨r, eng1, gl⟩
            simp only
            have hctx : (p.mapTimes g).ctx w'.fcs[i].cfg = p.ctx w.fcs[i].cfg := by
              unfold Prepared.ctx
              rw [hfc.cfg.discrete]
              have : w'.fcs[i].cfg.hier.isSome = w.fcs[i].cfg.hier.isSome := by
                have hr := hfc.cfg.hier
                generalize w.fcs[i].cfg.hier = a at hr
                generalize w'.fcs[i].cfg.hier = b at hr
                cases hr <;> rfl
              rw [this]
              rfl
            rw [hctx]
            refine ⟨?_, hw.heap, hw.feats, ?_, rfl⟩
            · cases r with
              | error e => rfl
              | ok d => exact same_answer hg q hfc.cfg.hier _ _ d _
            · exact forall₂_listSet hw.fcs i
                ⟨hfc.cfg, rfl, rfl, hfc.posterior, rfl⟩
  · rw [List.getElem?_eq_none (by omega), List.getElem?_eq_none (by omega)]
    exact ⟨rfl, hw⟩

end
end PV
