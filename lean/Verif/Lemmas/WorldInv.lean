import Verif.Lemmas.WorldFit

/-!
# What the operations leave alone
-/

namespace PV
section
variable {S τ D K F κ G Θ P : Type}

theorem derefFitted_congr {h h' : List (Obj S τ D K)} {l : List (String × Nat × List String)}
    (hk : ∀ e ∈ l, deref h' e.2.1 = deref h e.2.1) : derefFitted h' l = derefFitted h l := by
  induction l with
  | nil => rfl
  | cons e l ih =>
    rw [derefFitted_cons, derefFitted_cons, hk e (by simp), ih fun e he => hk e (by simp [he])]

theorem derefDict_congr {h h' : List (Obj S τ D K)} {d : PyDict Nat}
    (hk : ∀ e ∈ d, deref h' e.2 = deref h e.2) : derefDict h' d = derefDict h d := by
  induction d with
  | nil => rfl
  | cons e l ih =>
    rw [derefDict_cons, derefDict_cons, hk e (by simp), ih fun e he => hk e (by simp [he])]

/-- What a computation leaves behind: no object disappears or changes its constructor arguments,
and only objects in `W` change. -/
structure HeapStep (W : Nat → Prop) (h h' : List (Obj S τ D K)) : Prop where
  len : h.length ≤ h'.length
  kind : Kind h h'
  same : ∀ r, r < h.length → ¬ W r → deref h' r = deref h r

theorem HeapStep.refl (W : Nat → Prop) (h : List (Obj S τ D K)) : HeapStep W h h :=
  ⟨le_refl _, Kind.refl h, fun _ _ _ => rfl⟩

theorem HeapStep.trans {W : Nat → Prop} {h h' h'' : List (Obj S τ D K)} (h1 : HeapStep W h h')
    (h2 : HeapStep W h' h'') : HeapStep W h h'' :=
  ⟨h1.len.trans h2.len, h1.kind.trans h2.kind, fun r hr hw =>
    (h2.same r (hr.trans_le h1.len) hw).trans (h1.same r hr hw)⟩

theorem HeapStep.append (W : Nat → Prop) (h ext : List (Obj S τ D K)) :
    HeapStep W h (h ++ ext) :=
  ⟨by simp, Kind.append h ext, fun r hr _ => by
    unfold deref
    rw [List.getElem?_append_left hr]⟩

theorem HeapStep.of_extends {α : Type} {m : OnHeap S τ D K α} (hm : Extends m) (W : Nat → Prop)
    (h : List (Obj S τ D K)) : HeapStep W h (m h).2 := by
  obtain ⟨ext, he⟩ := hm h
  rw [he]
  exact HeapStep.append W h ext

/-- The reference the trend argument holds. -/
def TrendSrc.refers {O : Type} (t : TrendSrc O) (r : Nat) : Prop := t = .object r

variable [Field K] [LinearOrder K] [LinearOrder τ]

/-- Making the trend object and fitting it: either it raises or the rest runs with the reference. -/
theorem fitTrend_step (t : TrendSrc (Obj S τ D K)) (y : Frame String τ K)
    (X : Option (Frame String τ K)) (s : Scale K) (h : List (Obj S τ D K)) :
    ∃ (res : PyM Nat) (h' : List (Obj S τ D K)), HeapStep (fun r => t = .object r) h h' ∧
      (∀ r, res = .ok r → r < h'.length ∧ (t = .object r ∨ h.length ≤ r)) ∧
      ∀ {α : Type} (k : Nat → OnHeap S τ D K α),
        (trendRef t >>= fun r => fitRef r y X s >>= fun _ => k r) h
          = match res with
            | .error e => (.error e, h')
            | .ok r => k r h' := by
  cases t with
  | named o =>
    have h1 : trendRef (.named o) h = (.ok h.length, h ++ [o]) := rfl
    have h2 : deref (h ++ [o]) h.length = .ok o := by rw [deref_ok]; simp
    cases hf : o.fit y X s with
    | error e =>
      have h3 : fitRef h.length y X s (h ++ [o]) = (.error e, h ++ [o]) := by
        unfold fitRef
        simp only [h2, hf]
      exact ⟨.error e, h ++ [o], HeapStep.append _ h [o], by simp, fun k => by
        rw [OnHeap.bind_ok h1, OnHeap.bind_error h3]⟩
    | ok t =>
      have h3 : fitRef h.length y X s (h ++ [o]) = (.ok (), h ++ [t]) := by
        unfold fitRef
        simp only [h2, hf]
        simp
      refine ⟨.ok h.length, h ++ [t], HeapStep.append _ h [t], fun r he => ?_, fun k => by
        rw [OnHeap.bind_ok h1, OnHeap.bind_ok h3]⟩
      cases he
      simp
  | object r =>
    have h1 : trendRef (S := S) (D := D) (K := K) (τ := τ) (.object r) h = (.ok r, h) := rfl
    cases ho : deref h r with
    | error e =>
      have h3 : fitRef (S := S) (D := D) r y X s h = (.error e, h) := by
        unfold fitRef
        simp only [ho]
      exact ⟨.error e, h, HeapStep.refl _ h, by simp, fun k => by
        rw [OnHeap.bind_ok h1, OnHeap.bind_error h3]⟩
    | ok o =>
      cases hf : o.fit y X s with
      | error e =>
        have h3 : fitRef r y X s h = (.error e, h) := by
          unfold fitRef
          simp only [ho, hf]
        exact ⟨.error e, h, HeapStep.refl _ h, by simp, fun k => by
          rw [OnHeap.bind_ok h1, OnHeap.bind_error h3]⟩
      | ok t =>
        have h3 : fitRef r y X s h = (.ok (), h.set r t) := by
          unfold fitRef
          simp only [ho, hf]
        refine ⟨.ok r, h.set r t, ⟨by simp, Kind.set ho (fit_clone hf), fun r' _ hr' => ?_⟩,
          fun r' he => ?_, fun k => by rw [OnHeap.bind_ok h1, OnHeap.bind_ok h3]⟩
        · have : r ≠ r' := fun h => hr' (by rw [h])
          unfold deref
          rw [List.getElem?_set_ne this]
        · cases he
          rw [deref_ok] at ho
          exact ⟨by simpa using (List.getElem?_eq_some_iff.1 ho).1, .inl rfl⟩

theorem trendRef_step (t : TrendSrc (Obj S τ D K)) (W : Nat → Prop) (h : List (Obj S τ D K)) :
    HeapStep W h (trendRef t h).2 ∧ ∃ r, (trendRef t h).1 = .ok r := by
  cases t with
  | named o => exact ⟨HeapStep.append _ h [o], h.length, rfl⟩
  | object r => exact ⟨HeapStep.refl _ h, r, rfl⟩

theorem fitTrendRef_step (cfg : FcConfig S τ D K κ G) (s : Scale K) (y : Frame String τ K)
    (X : Option (Frame String τ K)) (h : List (Obj S τ D K)) :
    HeapStep (fun r => cfg.trend = .object r) h (fitTrendRef cfg s y X h).2 ∧
      ∀ r h', fitTrendRef cfg s y X h = (.ok r, h') →
        r < h'.length ∧ (cfg.trend = .object r ∨ h.length ≤ r) := by
  cases hy : trendTarget cfg.discrete s y with
  | error e =>
    obtain ⟨h1, r, h2⟩ := trendRef_step cfg.trend (fun r => cfg.trend = .object r) h
    have : fitTrendRef cfg s y X h = (.error e, (trendRef cfg.trend h).2) := by
      unfold fitTrendRef
      rw [OnHeap.bind_ok (a := r) (h' := (trendRef cfg.trend h).2) (Prod.ext h2 rfl),
        OnHeap.lift_bind, hy]
    rw [this]
    exact ⟨h1, by simp⟩
  | ok yt =>
    obtain ⟨res, h', h1, h2, h3⟩ := fitTrend_step cfg.trend yt X (.float 1) h
    have heq : fitTrendRef cfg s y X h
        = (trendRef cfg.trend >>= fun r => fitRef r yt X (.float 1) >>= fun _ => pure r) h := by
      unfold fitTrendRef
      rw [hy]
      cases cfg.trend <;> rfl
    rw [heq, h3]
    cases res with
    | error e => exact ⟨h1, by simp⟩
    | ok r =>
      refine ⟨h1, fun r' h'' he => ?_⟩
      cases he
      exact h2 r rfl

theorem fitStepRef_refs {n : Nat} {compile : String → PyM (String → Bool)} {x : Frame String τ K}
    {y : Frame String τ K} {s : Scale K} {a a' : FitRefs} {e : String × Nat × Option String}
    {h h' : List (Obj S τ D K)} (he : fitStepRef compile x y s a e h = (.ok a', h'))
    (hn : n ≤ h.length) (ha : ∀ e ∈ a.fitted, n ≤ e.2.1 ∧ e.2.1 < h.length) :
    n ≤ h'.length ∧ ∀ e ∈ a'.fitted, n ≤ e.2.1 ∧ e.2.1 < h'.length := by
  rw [fitStepRef_eq] at he
  cases hc : matchColumns compile x.cols e.2.2 with
  | error err => rw [hc] at he; simp at he
  | ok columns =>
    simp only [hc] at he
    cases hx : x.select columns with
    | error err => rw [hx] at he; simp at he
    | ok xc =>
      simp only [hx] at he
      cases ho : deref h e.2.1 with
      | error err => rw [ho] at he; simp at he
      | ok o =>
        simp only [ho] at he
        cases hf : o.clone.fit y (some xc) s with
        | error err => simp [hf] at he
        | ok o' =>
          simp only [hf] at he
          cases he
          refine ⟨by simp; omega, fun e' he' => ?_⟩
          rcases List.mem_append.1 he' with he' | he'
          · have := ha e' he'
            simp
            omega
          · simp only [List.mem_singleton] at he'
            rw [he']
            simp [hn]

theorem fitLoopRef_refs {n : Nat} {compile : String → PyM (String → Bool)} {x : Frame String τ K}
    {y : Frame String τ K} {s : Scale K} {es : List (String × Nat × Option String)} :
    ∀ {a a' : FitRefs} {h h' : List (Obj S τ D K)},
      es.foldlM (fitStepRef compile x y s) a h = (.ok a', h') → n ≤ h.length →
      (∀ e ∈ a.fitted, n ≤ e.2.1 ∧ e.2.1 < h.length) →
      n ≤ h'.length ∧ ∀ e ∈ a'.fitted, n ≤ e.2.1 ∧ e.2.1 < h'.length := by
  induction es with
  | nil =>
    intro a a' h h' he hn ha
    cases he
    exact ⟨hn, ha⟩
  | cons e es ih =>
    intro a a' h h' he hn ha
    rw [List.foldlM_cons] at he
    rcases hs : fitStepRef compile x y s a e h with ⟨r, h1⟩
    cases r with
    | error err => rw [OnHeap.bind_error hs] at he; simp at he
    | ok a1 =>
      rw [OnHeap.bind_ok hs] at he
      obtain ⟨h2, h3⟩ := fitStepRef_refs hs hn ha
      exact ih he h2 h3

theorem fitEffectsRef_refs {compile : String → PyM (String → Bool)}
    {es : List (String × Nat × Option String)} {d : Option Nat} {l : Obj S τ D K}
    {x : Frame String τ K} {y : Frame String τ K} {s : Scale K}
    {a : List (String × Nat × List String)} {h h' : List (Obj S τ D K)}
    (he : fitEffectsRef compile es d l x y s h = (.ok a, h')) :
    ∀ e ∈ a, h.length ≤ e.2.1 ∧ e.2.1 < h'.length := by
  unfold fitEffectsRef at he
  rcases hs : es.foldlM (fitStepRef compile x y s) ⟨[], []⟩ h with ⟨r, h1⟩
  cases r with
  | error err => rw [OnHeap.bind_error hs] at he; simp at he
  | ok a1 =>
    rw [OnHeap.bind_ok hs, fitDefaultRef_eq] at he
    obtain ⟨h2, h3⟩ := fitLoopRef_refs (n := h.length) hs (le_refl _) (by simp)
    split at he
    · cases he
      exact h3
    · cases hx : x.select (remainingColumns x.cols a1.taken) with
      | error err => rw [hx] at he; simp at he
      | ok xc =>
        simp only [hx] at he
        obtain ⟨ext, hext⟩ := defaultRef_extends d l h1
        rcases hd : defaultRef d l h1 with ⟨r, h4⟩
        rw [hd] at hext
        simp only at hext
        subst hext
        cases r with
        | error err => simp [hd] at he
        | ok r =>
          simp only [hd] at he
          cases ho : deref (h1 ++ ext) r with
          | error err => rw [ho] at he; simp at he
          | ok o =>
            simp only [ho] at he
            cases hf : o.clone.fit y (some xc) s with
            | error err => simp [hf] at he
            | ok o' =>
              simp only [hf] at he
              cases he
              intro e' he'
              rcases List.mem_append.1 he' with he' | he'
              · have := h3 e' he'
                simp
                omega
              · simp only [List.mem_singleton] at he'
                rw [he']
                simp
                omega

theorem fitModelRef_extends (cfg : FcConfig S τ D K κ G) (s : Scale K) (y0 y : Frame String τ K)
    (fh : List τ) (yArray : Tensor K) (sids : List (List String)) (expand : Option ExpandState)
    (kw : ModelKwargs K) (x : Frame String τ K) (tr : Nat) :
    Extends (fitModelRef cfg s y0 y fh yArray sids expand kw x tr) :=
  Extends.bind (Extends.read _) fun _ =>
    Extends.bind (fitEffectsRef_extends _ _ _ _ _ _ _) fun _ =>
      Extends.bind (Extends.read _) fun _ => Extends.bind (Extends.read _) fun _ =>
        Extends.bind (Extends.read _) fun _ => Extends.bind (Extends.read _) fun _ => Extends.pure _

/-- The references written by `_get_fit_data`. -/
theorem fitModelRef_refs {cfg : FcConfig S τ D K κ G} {s : Scale K} {y0 y : Frame String τ K}
    {fh : List τ} {yArray : Tensor K} {sids : List (List String)} {expand : Option ExpandState}
    {kw : ModelKwargs K} {x : Frame String τ K} {tr : Nat} {h h' : List (Obj S τ D K)}
    {p : Prepared τ K} {a : ModelArgs D K}
    (he : fitModelRef cfg s y0 y fh yArray sids expand kw x tr h = (.ok (p, a), h')) :
    p.trend = tr ∧ (∀ e ∈ p.fitted, h.length ≤ e.2.1 ∧ e.2.1 < h'.length) ∧
      ∀ e ∈ p.objs, h.length ≤ e.2 ∧ e.2 < h'.length := by
  unfold fitModelRef at he
  rw [OnHeap.read_bind] at he
  cases ht : (do (← deref h tr).transform (some x) (fh) : PyM (Transformed D)) with
  | error err => rw [ht] at he; simp at he
  | ok td =>
    simp only [ht] at he
    rcases hf : fitEffectsRef cfg.compile cfg.effects cfg.default cfg.linear x y s h with ⟨r, h1⟩
    cases r with
    | error err => rw [OnHeap.bind_error hf] at he; simp at he
    | ok fitted =>
      have hrefs := fitEffectsRef_refs hf
      rw [OnHeap.bind_ok hf, OnHeap.read_bind] at he
      cases hd : derefFitted h1 fitted with
      | error err => simp [hd, bind, Except.bind] at he
      | ok v =>
        cases hda : (do transformEffects (← derefFitted h1 fitted) x (fh) :
            PyM (PyDict (Transformed D))) with
        | error err => rw [hda] at he; simp at he
        | ok da =>
          simp only [hda] at he
          rw [OnHeap.read_bind] at he
          have hsk := nonSkippedRefs_sim hd
          cases hn : nonSkipped v with
          | error err =>
            rw [hn] at hsk
            simp only at hsk
            rw [hsk] at he
            simp at he
          | ok o =>
            rw [hn] at hsk
            obtain ⟨r, h2, h3, h4⟩ := hsk
            simp only [h2] at he
            rw [OnHeap.read_bind] at he
            split at he
            · simp at he
            · rw [OnHeap.read_bind] at he
              split at he
              · simp at he
              · cases he
                refine ⟨rfl, hrefs, fun e hemem => ?_⟩
                obtain ⟨e', he', heq⟩ := h4 e hemem
                rw [← heq]
                exact hrefs e' he'

theorem fitRestRef_extends (cfg : FcConfig S τ D K κ G) (s : Scale K) (y0 y : Frame String τ K)
    (x : Frame String τ K) (tr : Nat) : Extends (fitRestRef cfg s y0 y x tr) :=
  Extends.bind (Extends.lift _) fun _ => fitModelRef_extends _ _ _ _ _ _ _ _ _ _ _

theorem fitRestRef_refs {cfg : FcConfig S τ D K κ G} {s : Scale K} {y0 y : Frame String τ K}
    {x : Frame String τ K} {tr : Nat} {h h' : List (Obj S τ D K)} {p : Prepared τ K}
    {a : ModelArgs D K} (he : fitRestRef cfg s y0 y x tr h = (.ok (p, a), h')) :
    p.trend = tr ∧ (∀ e ∈ p.fitted, h.length ≤ e.2.1 ∧ e.2.1 < h'.length) ∧
      ∀ e ∈ p.objs, h.length ≤ e.2 ∧ e.2 < h'.length := by
  unfold fitRestRef at he
  rw [OnHeap.lift_bind] at he
  cases hx : x.locTimes y.times with
  | error err => rw [hx] at he; simp at he
  | ok x' =>
    simp only [hx] at he
    exact fitModelRef_refs he

/-! ## Fitting -/

/-- What `fit` on the `i`-th forecaster leaves behind. -/
structure FitStep (w w' : World S τ D K F κ G Θ P) (i : Nat) (fc fc' : Fc S τ D K κ G Θ P) :
    Prop where
  heap : HeapStep (fun r => fc.cfg.trend = .object r) w.heap w'.heap
  feats : ∀ r : Nat, fc.cfg.features ≠ some r → w'.feats[r]? = w.feats[r]?
  kind : ∀ (r : Nat) f, w.feats[r]? = some f → ∃ st, w'.feats[r]? = some { f with st := st }
  fcs : w'.fcs = w.fcs.set i fc'
  cfg : fc'.cfg = fc.cfg
  refs : ∀ p, fc'.prepared = some p →
    (p.trend < w'.heap.length ∧ (fc.cfg.trend = .object p.trend ∨ w.heap.length ≤ p.trend)) ∧
    (∀ e ∈ p.fitted, w.heap.length ≤ e.2.1 ∧ e.2.1 < w'.heap.length) ∧
    ∀ e ∈ p.objs, w.heap.length ≤ e.2 ∧ e.2 < w'.heap.length

theorem fitFeaturesRef_step (feats : List (FeatureObj F τ K)) (ref : Option Nat)
    (x : Frame String τ K) :
    (∀ r : Nat, ref ≠ some r → (fitFeaturesRef feats ref x).2[r]? = feats[r]?) ∧
      ∀ (r : Nat) f, feats[r]? = some f →
        ∃ st, (fitFeaturesRef feats ref x).2[r]? = some { f with st := st } := by
  unfold fitFeaturesRef
  cases ref with
  | none => exact ⟨fun _ _ => rfl, fun r f hf => ⟨f.st, hf⟩⟩
  | some r0 =>
    simp only
    cases hf0 : feats[r0]? with
    | none => exact ⟨fun _ _ => rfl, fun r f hf => ⟨f.st, hf⟩⟩
    | some f0 =>
      refine ⟨fun r hr => ?_, fun r f hf => ?_⟩
      · have : r0 ≠ r := fun h => hr (by rw [h])
        simp only
        rw [List.getElem?_set_ne this]
      · simp only
        by_cases hr : r0 = r
        · subst hr
          rw [hf0] at hf
          cases hf
          exact ⟨_, by rw [List.getElem?_set_self (List.getElem?_eq_some_iff.1 hf0).1]⟩
        · exact ⟨f.st, by rw [List.getElem?_set_ne hr]; exact hf⟩

/-- What `_get_fit_data` leaves behind. -/
structure PrepStep (cfg : FcConfig S τ D K κ G) (h : List (Obj S τ D K))
    (fs : List (FeatureObj F τ K)) (r : PrepareResult S τ D K F) : Prop where
  heap : HeapStep (fun r => cfg.trend = .object r) h r.2.1
  feats : ∀ i : Nat, cfg.features ≠ some i → r.2.2[i]? = fs[i]?
  kind : ∀ (i : Nat) f, fs[i]? = some f → ∃ st, r.2.2[i]? = some { f with st := st }
  refs : ∀ p a, r.1 = .ok (p, a) →
    (p.trend < r.2.1.length ∧ (cfg.trend = .object p.trend ∨ h.length ≤ p.trend)) ∧
    (∀ e ∈ p.fitted, h.length ≤ e.2.1 ∧ e.2.1 < r.2.1.length) ∧
    ∀ e ∈ p.objs, h.length ≤ e.2 ∧ e.2 < r.2.1.length

theorem prepareUni_step (cfg : FcConfig S τ D K κ G) (s : Scale K) (y0 ys : Frame String τ K)
    (X : Option (Frame String τ K)) (heap : List (Obj S τ D K)) (feats : List (FeatureObj F τ K)) :
    PrepStep cfg heap feats (prepareUni cfg s y0 ys X heap feats) := by
  unfold prepareUni
  obtain ⟨ht1, ht2⟩ := fitTrendRef_step cfg s ys X heap
  rcases htr : fitTrendRef cfg s ys X heap with ⟨r, h1⟩
  rw [htr] at ht1
  cases r with
  | error e => exact ⟨ht1, fun _ _ => rfl, fun r f hf => ⟨f.st, hf⟩, fun p a hp => by cases hp⟩
  | ok tr =>
    obtain ⟨ht3, ht4⟩ := ht2 tr h1 htr
    simp only
    obtain ⟨hf1, hf2⟩ := fitFeaturesRef_step feats cfg.features (X.getD (Frame.ofIndex ys.times))
    rcases hft : fitFeaturesRef feats cfg.features (X.getD (Frame.ofIndex ys.times)) with ⟨r, fs⟩
    rw [hft] at hf1 hf2
    cases r with
    | error e => exact ⟨ht1, hf1, hf2, fun p a hp => by cases hp⟩
    | ok x =>
      simp only
      have hex := HeapStep.of_extends (fitRestRef_extends cfg s y0 ys x tr)
        (fun r => cfg.trend = .object r) h1
      refine ⟨ht1.trans hex, hf1, hf2, fun p a hp => ?_⟩
      obtain ⟨hp1, hp2, hp3⟩ := fitRestRef_refs (p := p) (a := a)
        (h' := (fitRestRef cfg s y0 ys x tr h1).2) (Prod.ext hp rfl)
      have h1len := ht1.len
      have h2len := hex.len
      simp only at h1len
      refine ⟨⟨by rw [hp1]; simp only; omega, by rw [hp1]; exact ht4⟩, fun e he => ?_,
        fun e he => ?_⟩
      · have := hp2 e he
        simp only
        omega
      · have := hp3 e he
        simp only
        omega

theorem fitHierRef_step (o : HierOpts τ K) (cfg : FcConfig S τ D K κ G) (s : Scale K)
    (y0 ys yB : Frame String τ K) (yArray : Tensor K) (x : Frame String τ K)
    (h : List (Obj S τ D K)) :
    HeapStep (fun r => cfg.trend = .object r) h (fitHierRef o cfg s y0 ys yB yArray x h).2 ∧
      ∀ p a, (fitHierRef o cfg s y0 ys yB yArray x h).1 = .ok (p, a) →
        (p.trend < (fitHierRef o cfg s y0 ys yB yArray x h).2.length ∧
          (cfg.trend = .object p.trend ∨ h.length ≤ p.trend)) ∧
        (∀ e ∈ p.fitted, h.length ≤ e.2.1 ∧
          e.2.1 < (fitHierRef o cfg s y0 ys yB yArray x h).2.length) ∧
        ∀ e ∈ p.objs, h.length ≤ e.2 ∧
          e.2 < (fitHierRef o cfg s y0 ys yB yArray x h).2.length := by
  unfold fitHierRef
  rw [OnHeap.lift_bind]
  cases fitExpand cfg.compile o.order o.shared x with
  | error e => exact ⟨HeapStep.refl _ h, by simp⟩
  | ok ex =>
    simp only
    obtain ⟨res, h', h1, h2, h3⟩ := fitTrend_step cfg.trend yB (some ex.2) s h
    rw [h3]
    cases res with
    | error e => exact ⟨h1, by simp⟩
    | ok tr =>
      obtain ⟨ht3, ht4⟩ := h2 tr rfl
      simp only
      generalize hkw : ModelKwargs.hierarchical _ = kw
      have hex := HeapStep.of_extends (fitModelRef_extends cfg s y0 yB (unique ys.times) yArray
        ((aggregate o.keep ys).index.map Prod.fst) ex.1 kw ex.2 tr)
        (fun r => cfg.trend = .object r) h'
      refine ⟨h1.trans hex, fun p a hp => ?_⟩
      obtain ⟨hp1, hp2, hp3⟩ := fitModelRef_refs (p := p) (a := a)
        (h' := (fitModelRef cfg s y0 yB (unique ys.times) yArray
          ((aggregate o.keep ys).index.map Prod.fst) ex.1 kw ex.2 tr h').2) (Prod.ext hp rfl)
      have h1len := h1.len
      have h2len := hex.len
      refine ⟨⟨by rw [hp1]; omega, by rw [hp1]; exact ht4⟩, fun e he => ?_, fun e he => ?_⟩
      · have := hp2 e he
        omega
      · have := hp3 e he
        omega

theorem prepareHier_step (o : HierOpts τ K) (cfg : FcConfig S τ D K κ G) (s : Scale K)
    (y0 ys : Frame String τ K) (X : Option (Frame String τ K)) (heap : List (Obj S τ D K))
    (feats : List (FeatureObj F τ K)) :
    PrepStep cfg heap feats (prepareHier o cfg s y0 ys X heap feats) := by
  unfold prepareHier
  cases hierBottom o ys X with
  | error e =>
    exact ⟨HeapStep.refl _ _, fun _ _ => rfl, fun r f hf => ⟨f.st, hf⟩, fun p a hp => by cases hp⟩
  | ok b =>
    obtain ⟨yB, yArray, x0⟩ := b
    simp only
    obtain ⟨hf1, hf2⟩ := fitFeaturesRef_step feats cfg.features x0
    rcases hft : fitFeaturesRef feats cfg.features x0 with ⟨r, fs⟩
    rw [hft] at hf1 hf2
    cases r with
    | error e => exact ⟨HeapStep.refl _ _, hf1, hf2, fun p a hp => by cases hp⟩
    | ok x =>
      obtain ⟨h1, h2⟩ := fitHierRef_step o cfg s y0 ys yB yArray x heap
      exact ⟨h1, hf1, hf2, h2⟩

theorem prepareRef_step (cfg : FcConfig S τ D K κ G) (s : Scale K) (y0 ys : Frame String τ K)
    (X : Option (Frame String τ K)) (heap : List (Obj S τ D K)) (feats : List (FeatureObj F τ K)) :
    PrepStep cfg heap feats (prepareRef cfg s y0 ys X heap feats) := by
  unfold prepareRef
  cases cfg.hier with
  | none => exact prepareUni_step cfg s y0 ys X heap feats
  | some o => exact prepareHier_step o cfg s y0 ys X heap feats

theorem inferFc_cfg (np : Numpyro κ G (ModelArgs D K) K Θ P (Draws K))
    (fc : Fc S τ D K κ G Θ P) (a : ModelArgs D K) :
    (inferFc np fc a).2.cfg = fc.cfg ∧ (inferFc np fc a).2.prepared = fc.prepared := by
  unfold inferFc
  cases makeEngine np fc.cfg with
  | error e => exact ⟨rfl, rfl⟩
  | ok eng =>
    simp only
    rcases eng.infer np a with ⟨r, eng'⟩
    cases r <;> exact ⟨rfl, rfl⟩

theorem fit_step (np : Numpyro κ G (ModelArgs D K) K Θ P (Draws K))
    {w : World S τ D K F κ G Θ P} {i : Nat} {fc : Fc S τ D K κ G Θ P}
    (hi : w.fcs[i]? = some fc) (y : Frame String τ K) (X : Option (Frame String τ K)) :
    ∃ fc', FitStep w (w.fit np i y X).2 i fc fc' := by
  unfold World.fit
  simp only [hi]
  have hr : fc.reset.cfg = fc.cfg := rfl
  rw [hr]
  cases fitTarget fc.cfg.discrete fc.cfg.scale y with
  | error e =>
    exact ⟨fc.reset, ⟨HeapStep.refl _ _, fun _ _ => rfl, fun r f hf => ⟨f.st, hf⟩, rfl, rfl,
      fun p hp => by cases hp⟩⟩
  | ok sys =>
    obtain ⟨s, ys⟩ := sys
    simp only
    have hstep := prepareRef_step fc.cfg s y ys X w.heap w.feats
    rcases hp : prepareRef fc.cfg s y ys X w.heap w.feats with ⟨r, h, fs⟩
    rw [hp] at hstep
    cases r with
    | error e =>
      exact ⟨fc.reset, ⟨hstep.heap, hstep.feats, hstep.kind, rfl, rfl, fun p hp => by cases hp⟩⟩
    | ok pa =>
      obtain ⟨p, a⟩ := pa
      simp only
      obtain ⟨hi1, hi2⟩ := inferFc_cfg np { fc.reset with prepared := some p } a
      rcases hinf : inferFc np { fc.reset with prepared := some p } a with ⟨r, fc'⟩
      rw [hinf] at hi1 hi2
      simp only at hi1 hi2
      have hinf' : inferFc np
        { cfg := fc.cfg, prepared := some p, engine := fc.reset.engine,
          posterior := fc.reset.posterior, isFitted := fc.reset.isFitted } a
          = (r, fc') := hinf
      rw [hinf']
      refine ⟨fc', ⟨hstep.heap, hstep.feats, hstep.kind, by rw [List.set_set], hi1,
        fun p' hp' => ?_⟩⟩
      rw [hi2] at hp'
      cases hp'
      exact hstep.refs p a rfl

theorem fit_none (np : Numpyro κ G (ModelArgs D K) K Θ P (Draws K))
    {w : World S τ D K F κ G Θ P} {i : Nat} (hi : w.fcs[i]? = none) (y : Frame String τ K)
    (X : Option (Frame String τ K)) : (w.fit np i y X).2 = w := by
  unfold World.fit
  simp only [hi]

/-! ## Predicting -/

/-- An engine without the draws it keeps. -/
def Engine.forget {O : Type} (e : Engine κ G K Θ P O) : Engine κ G K Θ P O :=
  { e with samplesPredictive := none }

/-- The forecaster without the draws an engine keeps. -/
def Fc.forget (fc : Fc S τ D K κ G Θ P) : Fc S τ D K κ G Θ P :=
  { fc with engine := fc.engine.map Engine.forget }

theorem predict_step [FloorRing K] {H : Type} (np : Numpyro κ G (ModelArgs D K) K Θ P (Draws K))
    (horizon : List τ → H → List τ) (w : World S τ D K F κ G Θ P) (i : Nat) (q : Query K)
    (X : Option (Frame String τ K)) (fh : H) :
    (w.predict np horizon i q X fh).2.heap = w.heap ∧
      (w.predict np horizon i q X fh).2.feats = w.feats ∧
      (w.predict np horizon i q X fh).2.fcs.map Fc.forget = w.fcs.map Fc.forget := by
  unfold World.predict
  cases hi : w.fcs[i]? with
  | none => exact ⟨rfl, rfl, rfl⟩
  | some fc =>
    simp only
    split
    · exact ⟨rfl, rfl, rfl⟩
    · cases hp : fc.prepared with
      | none => exact ⟨rfl, rfl, rfl⟩
      | some p =>
        cases he : fc.engine with
        | none => exact ⟨rfl, rfl, rfl⟩
        | some eng =>
          simp only
          cases predictArgs w.heap w.feats fc.cfg p X (horizon p.y.times fh) with
          | error e => exact ⟨rfl, rfl, rfl⟩
          | ok a =>
            refine ⟨rfl, rfl, ?_⟩
            simp only
            rw [List.map_set]
            apply List.ext_getElem?
            intro j
            by_cases hj : i = j
            · subst hj
              have hlen := (List.getElem?_eq_some_iff.1 hi).1
              rw [List.getElem?_set_self (by simpa using hlen), List.getElem?_map, hi]
              simp only [Option.map_some, Option.some.injEq]
              unfold Fc.forget Engine.predict Engine.forget
              rw [he]
              cases eng.draws np a with
              | error err => simp [hp]
              | ok o => cases hk : eng.kind <;> simp [hk, hp]
            · rw [List.getElem?_set_ne hj]

theorem forget_fields {fc fc' : Fc S τ D K κ G Θ P} (h : fc.forget = fc'.forget) :
    fc.cfg = fc'.cfg ∧ fc.prepared = fc'.prepared ∧ fc.isFitted = fc'.isFitted ∧
      fc.engine.map Engine.forget = fc'.engine.map Engine.forget := by
  unfold Fc.forget at h
  injection h with h1 h2 h3 h4 h5
  exact ⟨h1, h2, h5, h3⟩

theorem draws_forget {A O : Type} (np : Numpyro κ G A K Θ P O) {e e' : Engine κ G K Θ P O}
    (h : e.forget = e'.forget) (a : A) :
    e.draws np a = e'.draws np a := by
  obtain ⟨k, r, s, rr, po, sp⟩ := e
  obtain ⟨k', r', s', rr', po', sp'⟩ := e'
  simp only [Engine.forget, Engine.mk.injEq, and_true] at h
  obtain ⟨rfl, rfl, rfl, rfl, rfl⟩ := h
  rfl

/-- Predictions only depend on the attributes of the forecaster and on the objects they refer
to. -/
theorem predict_congr [FloorRing K] {H : Type} (np : Numpyro κ G (ModelArgs D K) K Θ P (Draws K))
    (horizon : List τ → H → List τ) {w w' : World S τ D K F κ G Θ P} {i : Nat}
    (hi : (w.fcs[i]?).map Fc.forget = (w'.fcs[i]?).map Fc.forget)
    (hrefs : ∀ fc p, w.fcs[i]? = some fc → fc.prepared = some p →
      deref w'.heap p.trend = deref w.heap p.trend ∧
      (∀ e ∈ p.fitted, deref w'.heap e.2.1 = deref w.heap e.2.1) ∧
      (∀ e ∈ p.objs, deref w'.heap e.2 = deref w.heap e.2) ∧
      ∀ r, fc.cfg.features = some r → w'.feats[r]? = w.feats[r]?)
    (q : Query K) (X : Option (Frame String τ K)) (fh : H) :
    (w'.predict np horizon i q X fh).1 = (w.predict np horizon i q X fh).1 := by
  unfold World.predict
  cases h1 : w.fcs[i]? with
  | none =>
    rw [h1] at hi
    cases h2 : w'.fcs[i]? with
    | none => rfl
    | some fc' => rw [h2] at hi; cases hi
  | some fc =>
    rw [h1] at hi
    cases h2 : w'.fcs[i]? with
    | none => rw [h2] at hi; cases hi
    | some fc' =>
      rw [h2] at hi
      simp only [Option.map_some, Option.some.injEq] at hi
      obtain ⟨hc, hp, hf, he⟩ := forget_fields hi
      simp only
      rw [← hf, ← hp, ← hc]
      split
      · rfl
      · cases hprep : fc.prepared with
        | none => rfl
        | some p =>
          obtain ⟨r1, r2, r3, r4⟩ := hrefs fc p h1 hprep
          cases he1 : fc.engine with
          | none =>
            rw [he1] at he
            cases he2 : fc'.engine with
            | none => rfl
            | some e => rw [he2] at he; cases he
          | some eng =>
            rw [he1] at he
            cases he2 : fc'.engine with
            | none => rw [he2] at he; cases he
            | some eng' =>
              rw [he2] at he
              simp only [Option.map_some, Option.some.injEq] at he
              simp only
              have hfeat : ∀ x, featuresRef w'.feats fc.cfg.features x
                  = featuresRef w.feats fc.cfg.features x := by
                intro x
                unfold featuresRef
                cases hr : fc.cfg.features with
                | none => rfl
                | some r => simp only [r4 r hr]
              have hargs : predictArgs w'.heap w'.feats fc.cfg p X (horizon p.y.times fh)
                  = predictArgs w.heap w.feats fc.cfg p X (horizon p.y.times fh) := by
                unfold predictArgs
                have hseen : predictSeenRef w'.feats fc.cfg p X (horizon p.y.times fh)
                    = predictSeenRef w.feats fc.cfg p X (horizon p.y.times fh) := by
                  unfold predictSeenRef
                  rw [funext hfeat]
                rw [hseen, r1, derefFitted_congr r2, derefDict_congr r3]
              rw [hargs]
              cases predictArgs w.heap w.feats fc.cfg p X (horizon p.y.times fh) with
              | error e => rfl
              | ok a =>
                simp only
                rw [Engine.predict_fst, Engine.predict_fst, draws_forget np he]

end
end PV
