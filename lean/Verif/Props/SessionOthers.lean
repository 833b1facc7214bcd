import Verif.Props.Update

/-!
# C105: what happens to other forecasters

`fit`, `update` and the prediction methods of one forecaster leave the forecasts of the others as
they are, unless they share a trend object or a transformer (compare C26, which has no `update`).
-/

namespace PV
section
variable {S τ D K F κ G Θ P : Type} [Field K] [LinearOrder K] [LinearOrder τ]

/-- A statement of a user's program. -/
inductive Call (S τ D K κ G : Type) where
  | new (cfg : FcConfig S τ D K κ G)
  | fit (j : Nat) (y : Frame String τ K) (X : Option (Frame String τ K))
  | update (j : Nat) (y : Frame String τ K) (X : Option (Frame String τ K)) (updateParams : Bool)
  | forecast (j : Nat) (q : Query K) (X : Option (Frame String τ K)) (fh : Horizon τ)

/-- The forecaster a statement is about. -/
def Call.forecaster : Call S τ D K κ G → Option Nat
  | .new _ => none
  | .fit j _ _ => some j
  | .update j _ _ _ => some j
  | .forecast j _ _ _ => some j

/-- The forecasters a program makes, in order. -/
def Call.made (calls : List (Call S τ D K κ G)) : List (FcConfig S τ D K κ G) :=
  calls.filterMap fun
    | .new cfg => some cfg
    | _ => none

variable [FloorRing K]

/-- Running a statement. -/
def Session.call (np : Numpyro κ G (ModelArgs D K) K Θ P (Draws K)) (shift : τ → ℤ → τ)
    (combine : Frame String τ K → Frame String τ K → Frame String τ K)
    (s : Session S τ D K F κ G Θ P) : Call S τ D K κ G → Session S τ D K F κ G Θ P
  | .new cfg => { s with world := s.world.step np (fhToIndex shift) (.new cfg) }
  | .fit j y X => (s.fit np j y X).2
  | .update j y X b => (s.update np combine j y X b).2
  | .forecast j q X fh => (s.forecast np shift j q X fh).2

/-- Running a program. -/
def Session.calls (np : Numpyro κ G (ModelArgs D K) K Θ P (Draws K)) (shift : τ → ℤ → τ)
    (combine : Frame String τ K → Frame String τ K → Frame String τ K)
    (s : Session S τ D K F κ G Θ P) (cs : List (Call S τ D K κ G)) : Session S τ D K F κ G Θ P :=
  cs.foldl (fun s c => s.call np shift combine c) s

/-- What a forecast of the `i`-th forecaster depends on is the same. -/
structure Untouched (s s' : Session S τ D K F κ G Θ P) (i : Nat) (fc : Fc S τ D K κ G Θ P) : Prop where
  forget : (s'.world.fcs[i]?).map Fc.forget = some fc.forget
  trained : s'.trained i = s.trained i
  refs : ∀ p, fc.prepared = some p →
    deref s'.world.heap p.trend = deref s.world.heap p.trend ∧
    (∀ e ∈ p.fitted, deref s'.world.heap e.2.1 = deref s.world.heap e.2.1) ∧
    (∀ e ∈ p.objs, deref s'.world.heap e.2 = deref s.world.heap e.2) ∧
    ∀ r, fc.cfg.features = some r → s'.world.feats[r]? = s.world.feats[r]?

theorem predictAt_step (np : Numpyro κ G (ModelArgs D K) K Θ P (Draws K))
    (design labels : Fc S τ D K κ G Θ P → Prepared τ K → List τ) (w : World S τ D K F κ G Θ P)
    (i : Nat) (q : Query K) (X : Option (Frame String τ K)) :
    (w.predictAt np design labels i q X).2.heap = w.heap ∧
      (w.predictAt np design labels i q X).2.feats = w.feats ∧
      (w.predictAt np design labels i q X).2.fcs.map Fc.forget = w.fcs.map Fc.forget := by
  unfold World.predictAt
  cases hi : w.fcs[i]? with
  | none => exact ⟨rfl, rfl, rfl⟩
  | some fc =>
    simp only
    split
    · exact ⟨rfl, rfl, rfl⟩
    · cases hp : fc.prepared with
      | none => exact ⟨rfl, rfl, rfl⟩
      | some p =>
        cases he : fc.engine with
        | none => exact ⟨rfl, rfl, rfl⟩
        | some eng =>
          simp only
          cases predictArgs w.heap w.feats fc.cfg p X (design fc p) with
          | error e => exact ⟨rfl, rfl, rfl⟩
          | ok a =>
            refine ⟨rfl, rfl, ?_⟩
            simp only
            rw [List.map_set]
            apply List.ext_getElem?
            intro j
            by_cases hj : i = j
            · subst hj
              have hlen := (List.getElem?_eq_some_iff.1 hi).1
              rw [List.getElem?_set_self (by simpa using hlen), List.getElem?_map, hi]
              simp only [Option.map_some, Option.some.injEq]
              unfold Fc.forget Engine.predict Engine.forget
              rw [he]
              cases eng.draws np a with
              | error err => simp [hp]
              | ok o => cases hk : eng.kind <;> simp [hk, hp]
            · rw [List.getElem?_set_ne hj]

theorem session_forecast_same (np : Numpyro κ G (ModelArgs D K) K Θ P (Draws K)) (shift : τ → ℤ → τ)
    {s s' : Session S τ D K F κ G Θ P} {i : Nat} {fc : Fc S τ D K κ G Θ P}
    (hi : s.world.fcs[i]? = some fc) (h : Untouched s s' i fc) (q : Query K)
    (X : Option (Frame String τ K)) (fh : Horizon τ) :
    (s'.forecast np shift i q X fh).1 = (s.forecast np shift i q X fh).1 := by
  unfold Session.forecast
  cases checkFh fh with
  | error e => rfl
  | ok fh =>
    simp only
    obtain ⟨fc', hi', hc, hp, hf⟩ := forget_forget_cfg h.forget
    obtain ⟨-, -, hfit, heng⟩ := forget_fields hf
    unfold World.predictAt
    simp only [hi, hi']
    rw [hfit, hp]
    split
    · rfl
    · cases hprep : fc.prepared with
      | none => rfl
      | some p =>
        obtain ⟨r1, r2, r3, r4⟩ := h.refs p hprep
        cases he1 : fc.engine with
        | none =>
          rw [he1] at heng
          cases he2 : fc'.engine with
          | none => rfl
          | some e => rw [he2] at heng; cases heng
        | some eng =>
          rw [he1] at heng
          cases he2 : fc'.engine with
          | none => rw [he2] at heng; cases heng
          | some eng' =>
            rw [he2] at heng
            simp only [Option.map_some, Option.some.injEq] at heng
            simp only
            have hd : s'.designDates shift i fh fc' p = s.designDates shift i fh fc p := by
              unfold Session.designDates
              rw [hc, h.trained]
            have hfeat : ∀ x, featuresRef s'.world.feats fc.cfg.features x
                = featuresRef s.world.feats fc.cfg.features x := by
              intro x
              unfold featuresRef
              cases hr : fc.cfg.features with
              | none => rfl
              | some r => simp only [r4 r hr]
            have hargs : ∀ d, predictArgs s'.world.heap s'.world.feats fc.cfg p X d
                = predictArgs s.world.heap s.world.feats fc.cfg p X d := by
              intro d
              unfold predictArgs
              have hseen : predictSeenRef s'.world.feats fc.cfg p X d
                  = predictSeenRef s.world.feats fc.cfg p X d := by
                unfold predictSeenRef
                rw [funext hfeat]
              rw [hseen, r1, derefFitted_congr r2, derefDict_congr r3]
            rw [hd, hc, hargs]
            cases predictArgs s.world.heap s.world.feats fc.cfg p X (s.designDates shift i fh fc p) with
            | error e => rfl
            | ok a =>
              simp only
              rw [Engine.predict_fst, Engine.predict_fst, draws_forget np heng]

/-- Observations of the `j`-th forecaster changed. -/
theorem inv_setY {n : Nat} {w : World S τ D K F κ G Θ P} (hw : Inv n w) {j : Nat}
    {fc : Fc S τ D K κ G Θ P} (hj : w.fcs[j]? = some fc) {p : Prepared τ K}
    (hp : fc.prepared = some p) (y : Frame String τ K) :
    Inv n { w with fcs := w.fcs.set j { fc with prepared := some { p with y := y } } } := by
  refine ⟨hw.1, fun fc1 h1 => ?_⟩
  rcases List.mem_or_eq_of_mem_set h1 with h | h
  · exact hw.2 fc1 h
  · subst h
    obtain ⟨h2, h3⟩ := hw.2 fc (List.mem_of_getElem? hj)
    refine ⟨h2, fun p' hp' => ?_⟩
    cases hp'
    exact h3 p hp

/-- A statement keeps the references in order. -/
theorem inv_call (np : Numpyro κ G (ModelArgs D K) K Θ P (Draws K)) (shift : τ → ℤ → τ)
    (combine : Frame String τ K → Frame String τ K → Frame String τ K) {n : Nat}
    {s : Session S τ D K F κ G Θ P} (hs : Inv n s.world) {c : Call S τ D K κ G}
    (hc : ∀ cfg r, c = .new cfg → cfg.trend = .object r → r < n) :
    Inv n (s.call np shift combine c).world := by
  cases c with
  | new cfg =>
    exact inv_step np (fhToIndex shift) hs (op := .new cfg)
      fun cfg' r h ht => hc cfg' r (by cases h; rfl) ht
  | fit j y X => exact inv_step np (fhToIndex shift) hs (op := .fit j y X) fun _ _ h => by cases h
  | forecast j q X fh =>
    simp only [Session.call, Session.forecast]
    cases checkFh fh with
    | error e => exact hs
    | ok fh =>
      obtain ⟨h1, -, h3⟩ := predictAt_step np (s.designDates shift j fh)
        (fun _ p => fhToIndex shift p.y.times fh) s.world j q X
      exact inv_forget hs (by simp only; rw [h1]) h3
  | update j y X b =>
    simp only [Session.call, Session.update]
    cases hj : s.world.fcs[j]? with
    | none => exact hs
    | some fc =>
      simp only
      split
      · exact hs
      · cases hp : fc.prepared with
        | none => exact hs
        | some p =>
          simp only
          have hk := inv_setY hs hj hp (combine p.y y)
          cases b with
          | false => exact hk
          | true =>
            exact inv_step np (fhToIndex shift) hk
              (op := .fit j (combine p.y y) (combineExog combine (s.exog j) X))
              fun _ _ h => by cases h

theorem untouched_refl {s : Session S τ D K F κ G Θ P} {i : Nat} {fc : Fc S τ D K κ G Θ P}
    (hi : s.world.fcs[i]? = some fc) : Untouched s s i fc :=
  ⟨by rw [hi]; rfl, rfl, fun _ _ => ⟨rfl, fun _ _ => rfl, fun _ _ => rfl, fun _ _ => rfl⟩⟩

theorem untouched_fit (np : Numpyro κ G (ModelArgs D K) K Θ P (Draws K)) (shift : τ → ℤ → τ)
    {n : Nat} {s : Session S τ D K F κ G Θ P} (hs : Inv n s.world) {i : Nat}
    {fc : Fc S τ D K κ G Θ P} (hi : s.world.fcs[i]? = some fc) {j : Nat} (hji : j ≠ i)
    (hsh : ∀ j fc', j ≠ i → s.world.fcs[j]? = some fc' → NoShare fc'.cfg fc.cfg)
    (y : Frame String τ K) (X : Option (Frame String τ K)) :
    Untouched s (s.fit np j y X).2 i fc := by
  obtain ⟨h1, h2⟩ := no_interference_step np (fhToIndex shift) hs (op := .fit j y X) hi
    (fun h => hji (by cases h; rfl)) hsh
  refine ⟨h1, ?_, h2⟩
  show (if i = j then _ else _) = _
  rw [if_neg (fun h => hji h.symm)]

/-- A statement about another forecaster. -/
theorem untouched_call (np : Numpyro κ G (ModelArgs D K) K Θ P (Draws K)) (shift : τ → ℤ → τ)
    (combine : Frame String τ K → Frame String τ K → Frame String τ K) {n : Nat}
    {s : Session S τ D K F κ G Θ P} (hs : Inv n s.world) {i : Nat} {fc : Fc S τ D K κ G Θ P}
    (hi : s.world.fcs[i]? = some fc) {c : Call S τ D K κ G} (hne : c.forecaster ≠ some i)
    (hsh : ∀ j fc', j ≠ i → s.world.fcs[j]? = some fc' → NoShare fc'.cfg fc.cfg) :
    Untouched s (s.call np shift combine c) i fc := by
  cases c with
  | new cfg =>
    obtain ⟨h1, h2⟩ := no_interference_step np (fhToIndex shift) hs (op := .new cfg) hi
      (fun h => by cases h) hsh
    exact ⟨h1, rfl, h2⟩
  | fit j y X =>
    exact untouched_fit np shift hs hi (fun h => hne (by rw [h]; rfl)) hsh y X
  | forecast j q X fh =>
    simp only [Session.call, Session.forecast]
    cases checkFh fh with
    | error e => exact untouched_refl hi
    | ok fh =>
      obtain ⟨h1, h2, h3⟩ := predictAt_step np (s.designDates shift j fh)
        (fun _ p => fhToIndex shift p.y.times fh) s.world j q X
      refine ⟨?_, rfl, fun p _ => ?_⟩
      · simp only
        rw [getElem?_forget h3 i, hi]
        rfl
      · simp only [h1, h2]
        exact ⟨trivial, fun _ _ => trivial, fun _ _ => trivial, fun _ _ => trivial⟩
  | update j y X b =>
    have hji : j ≠ i := fun h => hne (by rw [h]; rfl)
    simp only [Session.call, Session.update]
    cases hj : s.world.fcs[j]? with
    | none => exact untouched_refl hi
    | some fj =>
      simp only
      split
      · exact untouched_refl hi
      · cases hp : fj.prepared with
        | none => exact untouched_refl hi
        | some p =>
          simp only
          have hk := inv_setY hs hj hp (combine p.y y)
          cases b with
          | false =>
            refine ⟨?_, rfl, fun p _ => ⟨rfl, fun _ _ => rfl, fun _ _ => rfl, fun _ _ => rfl⟩⟩
            simp only [Bool.false_eq_true, if_false]
            rw [List.getElem?_set_ne hji, hi]
            rfl
          | true =>
            have hi' : (s.world.fcs.set j { fj with prepared := some { p with y := combine p.y y } })[i]?
                = some fc := by
              rw [List.getElem?_set_ne hji, hi]
            have h := untouched_fit np shift
              (s := ⟨{ s.world with
                  fcs := s.world.fcs.set j ({ fj with prepared := some { p with y := combine p.y y } }) },
                s.trained, fun k => if k = j then combineExog combine (s.exog j) X else s.exog k⟩)
              hk hi' hji (fun k fk hki hk' => by
                simp only at hk'
                by_cases hkj : j = k
                · subst hkj
                  rw [List.getElem?_set_self ((List.getElem?_eq_some_iff.1 hj).1)] at hk'
                  cases hk'
                  exact hsh j fj hji hj
                · rw [List.getElem?_set_ne hkj] at hk'
                  exact hsh k fk hki hk') (combine p.y y) (combineExog combine (s.exog j) X)
            simp only [if_true]
            exact ⟨h.forget, h.trained, h.refs⟩

theorem cfgs_call (np : Numpyro κ G (ModelArgs D K) K Θ P (Draws K)) (shift : τ → ℤ → τ)
    (combine : Frame String τ K → Frame String τ K → Frame String τ K)
    (s : Session S τ D K F κ G Θ P) (c : Call S τ D K κ G) :
    (s.call np shift combine c).world.fcs.map Fc.cfg
      = s.world.fcs.map Fc.cfg ++ Call.made [c] := by
  have hfit : ∀ (s : Session S τ D K F κ G Θ P) j y X,
      (s.fit np j y X).2.world.fcs.map Fc.cfg = s.world.fcs.map Fc.cfg := by
    intro s j y X
    have := cfgs_run np (fhToIndex shift) [Op.fit j y X] s.world
    simpa [newConfigs, World.run, World.step, Session.fit] using this
  cases c with
  | new cfg => simp [Session.call, World.step, Call.made]
  | fit j y X => simpa [Session.call, Call.made] using hfit s j y X
  | forecast j q X fh =>
    simp only [Session.call, Session.forecast]
    cases checkFh fh with
    | error e => simp [Call.made]
    | ok fh =>
      obtain ⟨-, -, h3⟩ := predictAt_step np (s.designDates shift j fh)
        (fun _ p => fhToIndex shift p.y.times fh) s.world j q X
      have h4 := congrArg (List.map Fc.cfg) h3
      rw [List.map_map, List.map_map] at h4
      rw [show (Fc.cfg ∘ Fc.forget : Fc S τ D K κ G Θ P → _) = Fc.cfg from rfl] at h4
      simpa [Call.made] using h4
  | update j y X b =>
    simp only [Session.call, Session.update]
    cases hj : s.world.fcs[j]? with
    | none => simp [Call.made]
    | some fj =>
      simp only
      split
      · simp [Call.made]
      · cases hp : fj.prepared with
        | none => simp [Call.made]
        | some p =>
          simp only
          have hset : (s.world.fcs.set j { fj with prepared := some { p with y := combine p.y y } }).map
              Fc.cfg = s.world.fcs.map Fc.cfg := by
            rw [List.map_set]
            apply List.ext_getElem?
            intro k
            by_cases hk : j = k
            · subst hk
              rw [List.getElem?_set_self (by simpa using (List.getElem?_eq_some_iff.1 hj).1),
                List.getElem?_map, hj]
              rfl
            · rw [List.getElem?_set_ne hk]
          cases b with
          | false => simpa [Call.made] using hset
          | true =>
            simp only [if_true, hfit]
            simpa [Call.made] using hset

theorem made_cons (c : Call S τ D K κ G) (cs : List (Call S τ D K κ G)) :
    Call.made (c :: cs) = Call.made [c] ++ Call.made cs := by
  cases c <;> simp [Call.made]

theorem cfgs_calls (np : Numpyro κ G (ModelArgs D K) K Θ P (Draws K)) (shift : τ → ℤ → τ)
    (combine : Frame String τ K → Frame String τ K → Frame String τ K)
    (cs : List (Call S τ D K κ G)) : ∀ s : Session S τ D K F κ G Θ P,
    (s.calls np shift combine cs).world.fcs.map Fc.cfg
      = s.world.fcs.map Fc.cfg ++ Call.made cs := by
  induction cs with
  | nil => intro s; simp [Session.calls, Call.made]
  | cons c cs ih =>
    intro s
    have : s.calls np shift combine (c :: cs) = (s.call np shift combine c).calls np shift combine cs :=
      rfl
    rw [this, ih, cfgs_call, made_cons c cs, List.append_assoc]

theorem inv_calls (np : Numpyro κ G (ModelArgs D K) K Θ P (Draws K)) (shift : τ → ℤ → τ)
    (combine : Frame String τ K → Frame String τ K → Frame String τ K) {n : Nat}
    (cs : List (Call S τ D K κ G)) : ∀ {s : Session S τ D K F κ G Θ P}, Inv n s.world →
      (∀ cfg r, Call.new cfg ∈ cs → cfg.trend = .object r → r < n) →
      Inv n (s.calls np shift combine cs).world := by
  induction cs with
  | nil => exact fun h _ => h
  | cons c cs ih =>
    intro s hs h
    exact ih (s := s.call np shift combine c)
      (inv_call np shift combine hs fun cfg r hc ht => h cfg r (by simp [hc]) ht)
      fun cfg r hc ht => h cfg r (by simp [hc]) ht

theorem forecast_others (np : Numpyro κ G (ModelArgs D K) K Θ P (Draws K)) (shift : τ → ℤ → τ)
    (combine : Frame String τ K → Frame String τ K → Frame String τ K) {n i : Nat}
    (cs : List (Call S τ D K κ G)) :
    ∀ {s : Session S τ D K F κ G Θ P} {fc : Fc S τ D K κ G Θ P}, Inv n s.world →
      s.world.fcs[i]? = some fc →
      (∀ cfg r, Call.new cfg ∈ cs → cfg.trend = .object r → r < n) →
      (∀ c ∈ cs, c.forecaster ≠ some i) →
      (∀ j cfg, j ≠ i → (s.world.fcs.map Fc.cfg ++ Call.made cs)[j]? = some cfg →
        NoShare cfg fc.cfg) →
      ∀ q X fh, ((s.calls np shift combine cs).forecast np shift i q X fh).1
        = (s.forecast np shift i q X fh).1 := by
  induction cs with
  | nil => exact fun _ _ _ _ _ _ _ _ => rfl
  | cons c cs ih =>
    intro s fc hs hi hops hne hsh q X fh
    have hshw : ∀ j fc', j ≠ i → s.world.fcs[j]? = some fc' → NoShare fc'.cfg fc.cfg := by
      intro j fc' hji hj
      refine hsh j fc'.cfg hji ?_
      rw [List.getElem?_append_left]
      · rw [List.getElem?_map, hj]
        rfl
      · rw [List.length_map]
        exact (List.getElem?_eq_some_iff.1 hj).1
    have hsame := untouched_call np shift combine hs (c := c) hi (hne c (by simp)) hshw
    obtain ⟨fc1, hi1, hc1, -, -⟩ := forget_forget_cfg hsame.forget
    have hrec := ih (s := s.call np shift combine c) (fc := fc1)
      (inv_call np shift combine hs fun cfg r h ht => hops cfg r (by simp [h]) ht) hi1
      (fun cfg r h ht => hops cfg r (by simp [h]) ht) (fun o ho => hne o (by simp [ho]))
      (fun j cfg hji hj => by
        rw [hc1]
        refine hsh j cfg hji ?_
        rwa [made_cons, ← List.append_assoc, ← cfgs_call np shift combine]) q X fh
    exact hrec.trans (session_forecast_same np shift hi hsame q X fh)

/-- **C105** for other forecasters.  Take any initial objects, any program `before`, and then any
program `after` whose calls, `update` among them, are on *other* forecasters.  If none of those was
given the trend object or the transformer of the `i`-th forecaster, every forecast of the `i`-th
forecaster is the same after as before.  (With a shared trend object it need not be, see C26.)

`hrefs`: constructor arguments refer to objects that the user made. -/
theorem C105_others (np : Numpyro κ G (ModelArgs D K) K Θ P (Draws K)) (shift : τ → ℤ → τ)
    (combine : Frame String τ K → Frame String τ K → Frame String τ K)
    {s : Session S τ D K F κ G Θ P} (hs : s.world.fcs = [])
    (before after : List (Call S τ D K κ G))
    (hrefs : ∀ cfg r, Call.new cfg ∈ before ++ after → cfg.trend = .object r →
      r < s.world.heap.length)
    {i : Nat} {mine : FcConfig S τ D K κ G} (hi : (Call.made before)[i]? = some mine)
    (hother : ∀ c ∈ after, c.forecaster ≠ some i)
    (hshare : ∀ j cfg, j ≠ i → (Call.made (before ++ after))[j]? = some cfg → NoShare cfg mine)
    (q : Query K) (X : Option (Frame String τ K)) (fh : Horizon τ) :
    ((s.calls np shift combine (before ++ after)).forecast np shift i q X fh).1
      = ((s.calls np shift combine before).forecast np shift i q X fh).1 := by
  have happ : s.calls np shift combine (before ++ after)
      = (s.calls np shift combine before).calls np shift combine after := by
    simp [Session.calls]
  have hcfg := cfgs_calls np shift combine before s
  rw [hs, List.map_nil, List.nil_append] at hcfg
  rw [← hcfg, List.getElem?_map] at hi
  cases hfc : (s.calls np shift combine before).world.fcs[i]? with
  | none => rw [hfc] at hi; cases hi
  | some fc =>
    rw [hfc] at hi
    simp only [Option.map_some, Option.some.injEq] at hi
    rw [happ]
    refine forecast_others np shift combine (n := s.world.heap.length) after ?_ hfc
      (fun cfg r h ht => hrefs cfg r (by simp [h]) ht) hother (fun j cfg hji hj => ?_) q X fh
    · refine inv_calls np shift combine before ⟨le_refl _, ?_⟩
        fun cfg r h ht => hrefs cfg r (by simp [h]) ht
      rw [hs]
      simp
    · rw [hi]
      refine hshare j cfg hji ?_
      rw [hcfg] at hj
      rw [← hj]
      simp [Call.made]

end

/-! ## Concrete case -/

/-- A univariate and a hierarchical forecaster, each with its own trend; the panel is fitted. -/
def exBefore105 : List (Call ExState ℤ (Tensor ℚ) ℚ Nat Unit) :=
  [.new (exConfigW (.named exTrendObj) none), .new (exConfigH (.named exTrendObj)),
    .fit 1 (exPanelW 3 5) none]

/-- The univariate forecaster is fitted, updated and asked for a forecast. -/
def exAfter105 : List (Call ExState ℤ (Tensor ℚ) ℚ Nat Unit) :=
  [.fit 0 (exTarget [0, 1, 2, 3]) none, .update 0 (exTarget [4, 5]) none true,
    .forecast 0 .samples none (.relative [1])]

/-- The forecasts of the panel stay, and there are some. -/
example :
    exTableH (((exSession []).calls exNumpyro (fun t k => t + k) exCombine
        (exBefore105 ++ exAfter105)).forecast exNumpyro (fun t k => t + k) 1 .samples none
        (.relative [1])).1
      = exTableH (((exSession []).calls exNumpyro (fun t k => t + k) exCombine
        exBefore105).forecast exNumpyro (fun t k => t + k) 1 .samples none (.relative [1])).1 ∧
    (exTableH (((exSession []).calls exNumpyro (fun t k => t + k) exCombine
        exBefore105).forecast exNumpyro (fun t k => t + k) 1 .samples none
        (.relative [1])).1).isSome = true := by
  refine ⟨congrArg exTableH (C105_others exNumpyro (fun t k => t + k) exCombine rfl exBefore105
    exAfter105 ?_ (i := 1) rfl ?_ ?_ .samples none (.relative [1])), by decide +kernel⟩
  · intro cfg r h ht
    simp only [exBefore105, exAfter105, List.cons_append, List.nil_append, List.mem_cons,
      Call.new.injEq, List.not_mem_nil, or_false, reduceCtorEq, or_self] at h
    rcases h with rfl | rfl <;> cases ht
  · intro c hc
    simp only [exAfter105, List.mem_cons, List.not_mem_nil, or_false] at hc
    rcases hc with rfl | rfl | rfl <;> simp [Call.forecaster]
  · intro j cfg hj h
    match j with
    | 0 =>
      simp only [exBefore105, exAfter105, Call.made, List.cons_append, List.nil_append,
        List.filterMap_cons_some, List.getElem?_cons_zero, Option.some.injEq] at h
      subst h
      exact ⟨fun r h => (by cases h), fun r h => (by cases h)⟩
    | 1 => exact absurd rfl hj
    | j + 2 => simp [exBefore105, exAfter105, Call.made] at h

end PV
