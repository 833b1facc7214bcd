import Verif.Lemmas.WorldInv
import Verif.Lemmas.PredictFrames
import Verif.Lemmas.Aggregate

/-! # Attributes of a forecaster after `fit` has returned -/

namespace PV
section
variable {S τ D K F κ G Θ P : Type} [Field K] [LinearOrder K] [LinearOrder τ]

omit [Field K] [LinearOrder K] [LinearOrder τ] in
theorem OnHeap.bind_inv {α β : Type} {m : OnHeap S τ D K α} {f : α → OnHeap S τ D K β}
    {h : List (Obj S τ D K)} {b : β} (hb : ((m >>= f) h).1 = .ok b) :
    ∃ a h', m h = (.ok a, h') ∧ (f a h').1 = .ok b := by
  rw [OnHeap.bind_eq] at hb
  rcases hm : m h with ⟨r, h'⟩
  rw [hm] at hb
  cases r with
  | error e => cases hb
  | ok a => exact ⟨a, h', rfl, hb⟩

theorem fitModelRef_fields {cfg : FcConfig S τ D K κ G} {s : Scale K} {y0 y : Frame String τ K}
    {fh : List τ} {yArray : Tensor K} {sids : List (List String)} {expand : Option ExpandState}
    {kwargs : ModelKwargs K} {x : Frame String τ K} {trend : Nat} {h : List (Obj S τ D K)}
    {p : Prepared τ K} {a : ModelArgs D K}
    (hp : (fitModelRef cfg s y0 y fh yArray sids expand kwargs x trend h).1 = .ok (p, a)) :
    p.y = y0 ∧ p.scale = s ∧ p.ySids = sids ∧ a.y = some yArray ∧ p.kwargs = kwargs ∧
      a.kwargs = kwargs ∧ p.expand = expand := by
  unfold fitModelRef at hp
  obtain ⟨_, _, -, hp⟩ := OnHeap.bind_inv hp
  obtain ⟨_, _, -, hp⟩ := OnHeap.bind_inv hp
  obtain ⟨_, _, -, hp⟩ := OnHeap.bind_inv hp
  obtain ⟨_, _, -, hp⟩ := OnHeap.bind_inv hp
  obtain ⟨_, _, -, hp⟩ := OnHeap.bind_inv hp
  obtain ⟨_, _, -, hp⟩ := OnHeap.bind_inv hp
  cases hp
  exact ⟨rfl, rfl, rfl, rfl, rfl, rfl, rfl⟩

/-- Series labels and observations the model is trained on. -/
def TrainedOn (hier : Option (HierOpts τ K)) (y ys : Frame String τ K) (sids : List (List String))
    (a : ModelArgs D K) : Prop :=
  match hier with
  | none => sids = y.index.map Prod.fst ∧ a.y = some (columnArray ys)
  | some o => sids = (aggregate o.keep ys).index.map Prod.fst ∧
      ∃ yB arr, locBottom (aggregate o.keep ys) = .ok yB ∧ yB.seriesToTensor = .ok arr ∧
        a.y = some arr

theorem prepareRef_fields {cfg : FcConfig S τ D K κ G} {s : Scale K} {y0 y : Frame String τ K}
    {X : Option (Frame String τ K)} {heap : List (Obj S τ D K)} {feats : List (FeatureObj F τ K)}
    {p : Prepared τ K} {a : ModelArgs D K}
    (hp : (prepareRef cfg s y0 y X heap feats).1 = .ok (p, a)) :
    p.y = y0 ∧ p.scale = s ∧ TrainedOn cfg.hier y0 y p.ySids a := by
  unfold prepareRef at hp
  unfold TrainedOn
  cases hh : cfg.hier with
  | none =>
    rw [hh] at hp
    simp only at hp ⊢
    unfold prepareUni at hp
    split at hp
    · cases hp
    · split at hp
      · cases hp
      · simp only at hp
        unfold fitRestRef at hp
        obtain ⟨_, _, -, hp⟩ := OnHeap.bind_inv hp
        obtain ⟨h1, h2, h3, h4, -⟩ := fitModelRef_fields hp
        exact ⟨h1, h2, h3, h4⟩
  | some o =>
    rw [hh] at hp
    simp only at hp ⊢
    unfold prepareHier at hp
    cases hb : hierBottom o y X with
    | error e => rw [hb] at hp; cases hp
    | ok r =>
      obtain ⟨yB, arr, x⟩ := r
      rw [hb] at hp
      simp only at hp
      split at hp
      · cases hp
      · simp only at hp
        unfold fitHierRef at hp
        obtain ⟨_, _, -, hp⟩ := OnHeap.bind_inv hp
        obtain ⟨_, _, -, hp⟩ := OnHeap.bind_inv hp
        obtain ⟨_, _, -, hp⟩ := OnHeap.bind_inv hp
        obtain ⟨h1, h2, h3, h4, -⟩ := fitModelRef_fields hp
        refine ⟨h1, h2, h3, ?_⟩
        unfold hierBottom at hb
        simp only [bind, Except.bind] at hb
        split at hb
        · cases hb
        rename_i yB' e1
        split at hb
        · cases hb
        rename_i arr' e2
        split at hb
        · cases hb
        cases hb
        exact ⟨yB, arr, e1, e2, h4⟩

/-- What is known about a forecaster whose `fit(y, X)` has returned. -/
structure FittedOn (np : Numpyro κ G (ModelArgs D K) K Θ P (Draws K)) (cfg : FcConfig S τ D K κ G)
    (y : Frame String τ K) (fc : Fc S τ D K κ G Θ P) (p : Prepared τ K)
    (eng : Engine κ G K Θ P (Draws K)) (ys : Frame String τ K) (a : ModelArgs D K) : Prop where
  cfg_eq : fc.cfg = cfg
  fitted : fc.isFitted = true
  prepared : fc.prepared = some p
  engine : fc.engine = some eng
  target : p.y = y
  scale : fitTarget cfg.discrete cfg.scale y = .ok (p.scale, ys)
  trained : TrainedOn cfg.hier y ys p.ySids a
  inferred : ∃ e0, makeEngine np cfg = .ok e0 ∧ e0.infer np a = (.ok (), eng)

omit [Field K] [LinearOrder K] [LinearOrder τ] in
theorem OnHeap.bind_run {α β : Type} {m : OnHeap S τ D K α} {f : α → OnHeap S τ D K β}
    {h h2 : List (Obj S τ D K)} {b : β} (hb : (m >>= f) h = (.ok b, h2)) :
    ∃ a h', m h = (.ok a, h') ∧ f a h' = (.ok b, h2) := by
  rw [OnHeap.bind_eq] at hb
  rcases hm : m h with ⟨r, h'⟩
  rw [hm] at hb
  cases r with
  | error e => cases hb
  | ok a => exact ⟨a, h', rfl, hb⟩

/-- The objects behind the references are the ones the model was called with. -/
def HeapHas (h : List (Obj S τ D K)) (p : Prepared τ K) (a : ModelArgs D K) : Prop :=
  (∃ t, deref h p.trend = .ok t ∧ a.trend = t.cls.call t.st) ∧
  (∃ objs, derefDict h p.objs = .ok objs ∧ a.effects = callsOf objs) ∧ a.kwargs = p.kwargs

theorem fitModelRef_has {cfg : FcConfig S τ D K κ G} {s : Scale K} {y0 y : Frame String τ K}
    {fh : List τ} {yArray : Tensor K} {sids : List (List String)} {expand : Option ExpandState}
    {kwargs : ModelKwargs K} {x : Frame String τ K} {trend : Nat} {h h' : List (Obj S τ D K)}
    {p : Prepared τ K} {a : ModelArgs D K}
    (hp : fitModelRef cfg s y0 y fh yArray sids expand kwargs x trend h = (.ok (p, a), h')) :
    HeapHas h' p a := by
  unfold fitModelRef at hp
  obtain ⟨_, _, -, hp⟩ := OnHeap.bind_run hp
  obtain ⟨_, _, -, hp⟩ := OnHeap.bind_run hp
  obtain ⟨_, _, -, hp⟩ := OnHeap.bind_run hp
  obtain ⟨objs, _, -, hp⟩ := OnHeap.bind_run hp
  obtain ⟨tc, h1, ht, hp⟩ := OnHeap.bind_run hp
  obtain ⟨cs, h2, hc, hp⟩ := OnHeap.bind_run hp
  unfold OnHeap.read at ht hc
  obtain ⟨ht, rfl⟩ := Prod.mk.inj ht
  obtain ⟨hc, rfl⟩ := Prod.mk.inj hc
  cases hp
  refine ⟨?_, ?_, rfl⟩
  · simp only [bind, Except.bind] at ht
    split at ht
    · cases ht
    · rename_i t e
      cases ht
      exact ⟨t, e, rfl⟩
  · simp only [bind, Except.bind] at hc
    split at hc
    · cases hc
    · rename_i t e
      cases hc
      exact ⟨t, e, rfl⟩

theorem prepareRef_has {cfg : FcConfig S τ D K κ G} {s : Scale K} {y0 y : Frame String τ K}
    {X : Option (Frame String τ K)} {heap h' : List (Obj S τ D K)}
    {feats fs : List (FeatureObj F τ K)} {p : Prepared τ K} {a : ModelArgs D K}
    (hp : prepareRef cfg s y0 y X heap feats = (.ok (p, a), h', fs)) : HeapHas h' p a := by
  unfold prepareRef at hp
  cases hh : cfg.hier with
  | none =>
    rw [hh] at hp
    simp only at hp
    unfold prepareUni at hp
    split at hp
    · cases hp
    · rename_i trend h1 _
      split at hp
      · cases hp
      · rename_i x fs' _
        rcases hr : fitRestRef cfg s y0 y x trend h1 with ⟨r, h2⟩
        rw [hr] at hp
        cases hp
        unfold fitRestRef at hr
        obtain ⟨_, _, -, hr⟩ := OnHeap.bind_run hr
        exact fitModelRef_has hr
  | some o =>
    rw [hh] at hp
    simp only at hp
    unfold prepareHier at hp
    split at hp
    · cases hp
    · rename_i yB arr x _
      split at hp
      · cases hp
      · rename_i x' fs' _
        rcases hr : fitHierRef o cfg s y0 y yB arr x' heap with ⟨r, h2⟩
        rw [hr] at hp
        cases hp
        unfold fitHierRef at hr
        obtain ⟨_, _, -, hr⟩ := OnHeap.bind_run hr
        obtain ⟨_, _, -, hr⟩ := OnHeap.bind_run hr
        obtain ⟨_, _, -, hr⟩ := OnHeap.bind_run hr
        exact fitModelRef_has hr

theorem fit_heap {np : Numpyro κ G (ModelArgs D K) K Θ P (Draws K)}
    {w w' : World S τ D K F κ G Θ P} {i : Nat} {y : Frame String τ K}
    {X : Option (Frame String τ K)} (h : w.fit np i y X = (.ok (), w')) :
    ∃ fc0 fc p eng ys a, w.fcs[i]? = some fc0 ∧ w'.fcs[i]? = some fc ∧
      FittedOn np fc0.cfg y fc p eng ys a ∧ HeapHas w'.heap p a := by
  unfold World.fit at h
  cases hi : w.fcs[i]? with
  | none => rw [hi] at h; cases h
  | some fc0 =>
    have hlen := (List.getElem?_eq_some_iff.1 hi).1
    rw [hi] at h
    have hr : fc0.reset.cfg = fc0.cfg := rfl
    simp only [hr] at h
    cases ht : fitTarget fc0.cfg.discrete fc0.cfg.scale y with
    | error e => rw [ht] at h; cases h
    | ok sys =>
      obtain ⟨s, ys⟩ := sys
      rw [ht] at h
      simp only at h
      rcases hp : prepareRef fc0.cfg s y ys X w.heap w.feats with ⟨r, hh, fs⟩
      rw [hp] at h
      cases r with
      | error e => cases h
      | ok pa =>
        obtain ⟨p, a⟩ := pa
        simp only at h
        obtain ⟨f1, f2, f3⟩ := prepareRef_fields (by rw [hp])
        unfold inferFc at h
        simp only at h
        cases hm : makeEngine np fc0.cfg with
        | error e => rw [hm] at h; cases h
        | ok eng =>
          rw [hm] at h
          simp only at h
          rcases hin : eng.infer np a with ⟨r, eng'⟩
          rw [hin] at h
          cases r with
          | error e => cases h
          | ok u =>
            cases h
            refine ⟨fc0, ⟨fc0.cfg, some p, some eng', eng'.posterior, true⟩, p, eng', ys, a, rfl, ?_,
               ⟨rfl, rfl, rfl, rfl, f1, ?_, f3, eng, hm, hin⟩,
               prepareRef_has hp⟩
            · simp only [List.set_set]
              exact List.getElem?_set_self hlen
            · rw [ht, f2]

theorem fit_returned {np : Numpyro κ G (ModelArgs D K) K Θ P (Draws K)}
    {w w' : World S τ D K F κ G Θ P} {i : Nat} {y : Frame String τ K}
    {X : Option (Frame String τ K)} (h : w.fit np i y X = (.ok (), w')) :
    ∃ fc0 fc p eng ys a, w.fcs[i]? = some fc0 ∧ w'.fcs[i]? = some fc ∧
      FittedOn np fc0.cfg y fc p eng ys a := by
  obtain ⟨fc0, fc, p, eng, ys, a, h0, h1, hF, -⟩ := fit_heap h
  exact ⟨fc0, fc, p, eng, ys, a, h0, h1, hF⟩

/-- A prediction of a fitted forecaster, with the pieces it is made of. -/
theorem predict_returned [FloorRing K] {H : Type}
    {np : Numpyro κ G (ModelArgs D K) K Θ P (Draws K)} {horizon : List τ → H → List τ}
    {w : World S τ D K F κ G Θ P} {i : Nat} {q : Query K} {X : Option (Frame String τ K)} {fh : H}
    {fc : Fc S τ D K κ G Θ P} {p : Prepared τ K} {eng : Engine κ G K Θ P (Draws K)}
    (hi : w.fcs[i]? = some fc) (hp : fc.prepared = some p) (he : fc.engine = some eng)
    {r : Answer τ K} (h : (w.predict np horizon i q X fh).1 = .ok r) :
    ∃ a d, predictArgs w.heap w.feats fc.cfg p X (horizon p.y.times fh) = .ok a ∧
      eng.draws np a = .ok d ∧
      q.answer fc.cfg.hier (p.ctx fc.cfg) (p.y.cols.headD "") d (horizon p.y.times fh) = .ok r := by
  unfold World.predict at h
  simp only [hi, hp, he] at h
  split at h
  · cases h
  · cases ha : predictArgs w.heap w.feats fc.cfg p X (horizon p.y.times fh) with
    | error e => rw [ha] at h; cases h
    | ok a =>
      rw [ha] at h
      simp only [Engine.predict_fst] at h
      cases hd : eng.draws np a with
      | error e => rw [hd] at h; cases h
      | ok d =>
        rw [hd] at h
        exact ⟨a, d, rfl, hd, h⟩

/-- The converse. -/
theorem predict_eq [FloorRing K] {H : Type}
    {np : Numpyro κ G (ModelArgs D K) K Θ P (Draws K)} {horizon : List τ → H → List τ}
    {w : World S τ D K F κ G Θ P} {i : Nat} (q : Query K) {X : Option (Frame String τ K)} {fh : H}
    {fc : Fc S τ D K κ G Θ P} {p : Prepared τ K} {eng : Engine κ G K Θ P (Draws K)}
    (hi : w.fcs[i]? = some fc) (hf : fc.isFitted = true) (hp : fc.prepared = some p)
    (he : fc.engine = some eng) {a : ModelArgs D K} {d : Draws K}
    (ha : predictArgs w.heap w.feats fc.cfg p X (horizon p.y.times fh) = .ok a)
    (hd : eng.draws np a = .ok d) :
    (w.predict np horizon i q X fh).1 =
      q.answer fc.cfg.hier (p.ctx fc.cfg) (p.y.cols.headD "") d (horizon p.y.times fh) := by
  unfold World.predict
  simp only [hi, hp, he, hf, ha, Bool.not_true, Bool.and_false, Bool.false_eq_true, if_false,
    Engine.predict_fst, hd]
  rfl

/-- Samples, whatever the shape of the draws: columns and index. -/
theorem predictSamples_frame [IsStrictOrderedRing K] {ctx : Fitted K} {obs : Tensor K} {fh : List τ} {f : Frame Nat τ K}
    (h : predictSamples ctx obs fh = .ok f) :
    (∃ n, n ≠ 0 ∧ f.cols = List.range n) ∧ f.index.Perm (product (forecastSeries ctx) fh) ∧
      f.index.Pairwise (fun a b => toLex a ≤ toLex b) ∧ f.nlevels = ctx.yNlevels := by
  unfold predictSamples at h
  cases hsh : obs.shape with
  | nil => rw [hsh] at h; cases h
  | cons n l =>
    rw [hsh] at h
    simp only [pure_bind] at h
    cases hd : obs.transpose.reshapeInfer n with
    | error e => rw [hd] at h; cases h
    | ok d =>
      rw [hd] at h
      simp only [bind, Except.bind] at h
      have hn : n ≠ 0 := by
        unfold Tensor.reshapeInfer at hd
        split at hd
        · rename_i hh; exact hh.1
        · cases hd
      cases hidx : periodindexToMultiindex ctx fh with
      | error e => rw [hidx] at h; cases h
      | ok idx =>
        rw [hidx] at h
        simp only at h
        cases hg : frameOfMatrix ctx.yNlevels d.data (d.shape.headD 0) n idx with
        | error e => rw [hg] at h; cases h
        | ok g =>
          rw [hg] at h
          simp only at h
          obtain ⟨-, hnl, hcols, hgi, -⟩ := frameOfMatrix_ok hg
          obtain ⟨σ, rfl, -⟩ := invScale_eq h
          have hi : ((sortIndex g).mapVals (fun s v => v * σ s)).index = (sortIndex g).index := by
            simp [Frame.index, Frame.mapVals]
          refine ⟨⟨n, hn, by simp [Frame.mapVals, sortIndex, hcols]⟩, ?_, ?_,
            by simp [Frame.mapVals, sortIndex, hnl]⟩
          · rw [hi, ← periodindex_eq hidx, ← hgi]
            exact (sortIndex_perm g).map _
          · rw [hi]
            unfold Frame.index
            rw [List.pairwise_map]
            exact sortIndex_sorted g

end
end PV
