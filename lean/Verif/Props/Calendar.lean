import Verif.Lemmas.CalendarWorld
import Verif.Model.FourierFeatures
import Verif.Model.Logistic
import Verif.Props.World

/-!
# C78: forecasts do not depend on the calendar origin or the unit of time
-/

namespace PV
section
variable {S S' τ τ' D K F F' κ G Θ P H H' : Type} [Field K] [LinearOrder K] [LinearOrder τ]
  [LinearOrder τ'] [FloorRing K] {g : τ → τ'} {R : S → S' → Prop} {RF : F → F' → Prop}

/-- The same call with data on dates `g t` instead of `t`. -/
inductive SameOp (g : τ → τ') (R : S → S' → Prop) (RH : H → H' → Prop) :
    Op S τ D K κ G H → Op S' τ' D K κ G H' → Prop
  | new {c : FcConfig S τ D K κ G} {c' : FcConfig S' τ' D K κ G} (h : SameConfig g R c c') :
      SameOp g R RH (.new c) (.new c')
  | fit (i : Nat) (y : Frame String τ K) (X : Option (Frame String τ K)) :
      SameOp g R RH (.fit i y X) (.fit i (y.mapTimes g) (X.map (Frame.mapTimes g)))
  | predict (i : Nat) (q : Query K) (X : Option (Frame String τ K)) {fh : H} {fh' : H'}
      (h : RH fh fh') :
      SameOp g R RH (.predict i q X fh) (.predict i q (X.map (Frame.mapTimes g)) fh')

/-- Horizons mean the same dates. -/
def SameHorizon (g : τ → τ') (horizon : List τ → H → List τ) (horizon' : List τ' → H' → List τ')
    (RH : H → H' → Prop) : Prop :=
  ∀ ts fh fh', RH fh fh' → horizon' (ts.map g) fh' = (horizon ts fh).map g

theorem same_run {horizon : List τ → H → List τ} {horizon' : List τ' → H' → List τ'}
    {RH : H → H' → Prop} (hH : SameHorizon g horizon horizon' RH) (hg : StrictMono g)
    (np : Numpyro κ G (ModelArgs D K) K Θ P (Draws K)) {ops : List (Op S τ D K κ G H)}
    {ops' : List (Op S' τ' D K κ G H')} (ho : List.Forall₂ (SameOp g R RH) ops ops') :
    ∀ {w : World S τ D K F κ G Θ P} {w' : World S' τ' D K F' κ G Θ P}, SameWorld g R RF w w' →
      SameWorld g R RF (w.run np horizon ops) (w'.run np horizon' ops') := by
  induction ho with
  | nil => intro w w' hw; exact hw
  | cons hop _ ih =>
    intro w w' hw
    unfold World.run
    rw [List.foldl_cons, List.foldl_cons]
    refine ih ?_
    cases hop with
    | new h => exact ⟨hw.heap, hw.feats,
        List.rel_append hw.fcs (.cons ⟨h, rfl, rfl, rfl, rfl⟩ .nil), hw.samples⟩
    | fit i y X => exact (same_fit hg np hw i y X).2
    | predict i q X h => exact (same_predict hH hg np hw i q X h).2

/-- **C78.** Change every date given to the forecasters, in the targets, the exogenous variables and
the horizons of a whole history of calls, by an increasing map `g` under which the trends and effects
in use stay the same (`SameWorld`, `SameOp`; `C78_piecewise`, `C78_flat`, `C78_date_blind` and
`C78_fourier` say which do).  Then the next call of `fit` has the same outcome, and the next call of a
prediction method returns the same numbers on the changed dates (or raises the same exception), for
univariate and hierarchical forecasters. -/
theorem C78_calendar {horizon : List τ → H → List τ} {horizon' : List τ' → H' → List τ'}
    {RH : H → H' → Prop} (hH : SameHorizon g horizon horizon' RH) (hg : StrictMono g)
    (np : Numpyro κ G (ModelArgs D K) K Θ P (Draws K)) {w : World S τ D K F κ G Θ P}
    {w' : World S' τ' D K F' κ G Θ P} (hw : SameWorld g R RF w w') {ops : List (Op S τ D K κ G H)}
    {ops' : List (Op S' τ' D K κ G H')} (ho : List.Forall₂ (SameOp g R RH) ops ops') (i : Nat) :
    (∀ y X, ((w'.run np horizon' ops').fit np i (y.mapTimes g) (X.map (Frame.mapTimes g))).1
        = ((w.run np horizon ops).fit np i y X).1) ∧
      ∀ q X fh fh', RH fh fh' →
        ((w'.run np horizon' ops').predict np horizon' i q (X.map (Frame.mapTimes g)) fh').1
          = ((w.run np horizon ops).predict np horizon i q X fh).1.map (Answer.mapTimes g) := by
  have h := same_run hH hg np ho hw
  exact ⟨fun y X => (same_fit hg np h i y X).1,
    fun q X fh fh' hfh => (same_predict hH hg np h i q X hfh).1⟩

end

/-! ## What stays the same -/

section
variable {τ τ' K V : Type} [Field K] [LinearOrder K] [IsStrictOrderedRing K] [DecidableEq τ]
  [DecidableEq τ'] {g : τ → τ'}

/-- Piecewise trends agree in everything that is not a date: both unfitted, or the same changepoints,
priors and design matrices. -/
def SamePiecewise (days : τ → K) (days' : τ' → K) (g : τ → τ') :
    Option (PiecewiseState K τ) → Option (PiecewiseState K τ') → Prop
  | none, none => True
  | some s, some s' => SameTrend s s' ∧ ∀ squeeze fh,
      piecewiseTransform days' squeeze s' (fh.map g) = piecewiseTransform days squeeze s fh
  | _, _ => False

/-- **C78**: piecewise trends (linear and logistic) stay the same under an increasing affine change
of the dates, i.e. of the calendar origin and the unit of time. -/
theorem C78_piecewise [FloorSemiring K] {days : τ → K} {days' : τ' → K} {a b : K} (ha : 0 < a)
    (hg : Function.Injective g) (hd : ∀ t, days' (g t) = a * days t + b)
    {suggest : List K → Tensor K → PyM (List K × List K)}
    {predict : Bool → Nat → EffectCall (Tensor K) K} {p : PiecewiseParams K τ}
    {p' : PiecewiseParams K τ'} (h1 : p'.interval = p.interval) (h2 : p'.range = p.range)
    (h3 : p'.priorScale = p.priorScale) (h4 : p'.squeeze = p.squeeze)
    (hdet : ∀ y, detrended p' (y.mapTimes g) = (detrended p y).map (Frame.mapTimes g)) :
    SameClass g (SamePiecewise days days' g) (piecewiseClass (V := V) days suggest predict p)
      (piecewiseClass days' suggest predict p') where
  tags := rfl
  fit := by
    intro s s' y X sc _
    have h := C33_affine_change (suggest := suggest) ha hg hd h1 h2 h3 hdet y
    simp only [piecewiseClass]
    cases hf : piecewiseFit days suggest p y with
    | error e =>
      cases hf' : piecewiseFit days' suggest p' (y.mapTimes g) with
      | error e' => rw [hf, hf'] at h; exact h
      | ok _ => rw [hf, hf'] at h; exact h.elim
    | ok t =>
      cases hf' : piecewiseFit days' suggest p' (y.mapTimes g) with
      | error e' => rw [hf, hf'] at h; exact h.elim
      | ok t' => rw [hf, hf'] at h; exact h
  transform := by
    intro s s' x fh hs
    cases s with
    | none =>
      cases s' with
      | none => rfl
      | some s' => exact hs.elim
    | some s =>
      cases s' with
      | none => exact hs.elim
      | some s' =>
        simp only [piecewiseClass]
        rw [h4]
        exact hs.2 _ _
  call := by
    intro b s s' hs
    cases s with
    | none =>
      cases s' with
      | none => rfl
      | some s' => exact hs.elim
    | some s =>
      cases s' with
      | none => exact hs.elim
      | some s' =>
        funext θ d pe
        cases d with
        | emptyDict => rfl
        | data m =>
          simp only [piecewiseClass]
          rw [hs.1.nSeries, h4]

omit [IsStrictOrderedRing K] in
/-- **C78**: the flat trend stays the same under any change of the dates. -/
theorem C78_flat : SameClass g (· = ·) (flatClass (K := K) (τ := τ) (V := V))
    (flatClass (K := K) (τ := τ')) where
  tags := rfl
  fit := by
    rintro s _ y X sc rfl
    have : flatFit (y.mapTimes g) ((y.mapTimes g).cols.headD "") = flatFit y (y.cols.headD "") := by
      simp [flatFit, Frame.mapTimes, Function.comp_def]
    simp only [flatClass, this]
    exact ExRel.of_eq (fun _ => rfl) rfl
  transform := by
    rintro s _ x fh rfl
    simp [flatClass, flatTransform, Frame.mapTimes]
  call := by rintro b s _ rfl; rfl

omit [IsStrictOrderedRing K] in
/-- **C78**: effects that use `fit` and `transform` of the base class (linear, log, Hill) stay the
same under any change of the dates. -/
theorem C78_date_blind {S S' Sc : Type} {R : S → S' → Prop} {tags : Tags}
    {call : EffectCall (Transformed (Tensor V)) K} :
    SameClass g R
      ({ tags := tags, fit := fun s _ _ _ => .ok s, transform := fun _ x _ => x.seriesToTensorOrArray,
         call := fun _ => call } : EffectClass S (Frame String τ K) Sc τ V (Tensor V) K)
      { tags := tags, fit := fun s _ _ _ => .ok s, transform := fun _ x _ => x.seriesToTensorOrArray,
        call := fun _ => call } where
  tags := rfl
  fit := by intro s s' y X sc hs; exact hs
  transform := by intro s s' x fh _; exact seriesToTensorOrArray_mapTimes x
  call := by intro b s s' _; rfl

end

/-- sktime's `FourierFeatures` on dates `t` and dates `g t` make the same features. -/
structure SameFourier {F F' τ τ' V : Type} (g : τ → τ') (RF : F → F' → Prop)
    (lib : FourierLib F τ V) (lib' : FourierLib F' τ' V) : Prop where
  fit : ∀ x, ExRel RF (lib.fit x) (lib'.fit (x.mapTimes g))
  transform : ∀ φ φ' x, RF φ φ' →
    lib'.transform φ' (x.mapTimes g) = (lib.transform φ x).map (Frame.mapTimes g)

/-- The same Fourier effect. -/
structure SameFourierState {F F' : Type} (RF : F → F' → Prop) (s : FourierState F)
    (s' : FourierState F') : Prop where
  features : Option.Rel RF s.features s'.features
  expand : s'.expand = s.expand
  linear : s'.linear = s.linear

/-- **C78**: the Fourier seasonality stays the same if the Fourier features do. -/
theorem C78_fourier {F F' Sc τ τ' K : Type} [Field K] [LinearOrder K] [LinearOrder τ] [LinearOrder τ']
    {g : τ → τ'} (hg : Function.Injective g) {RF : F → F' → Prop} {lib : FourierLib F τ K}
    {lib' : FourierLib F' τ' K} (hlib : SameFourier g RF lib lib')
    (compile : String → PyM (String → Bool)) (order : List String → List String) (mode : String) :
    SameClass g (SameFourierState RF)
      (fourierClass lib compile order mode :
        EffectClass (FourierState F) (Frame String τ K) Sc τ K _ K)
      (fourierClass lib' compile order mode) where
  tags := rfl
  fit := by
    intro s s' y X sc hs
    cases X with
    | none => exact ExRel.error _
    | some x =>
      simp only [fourierClass, fourierHooks, Option.map_some]
      refine (hlib.fit x).bind fun φ φ' hφ => ?_
      refine (ExRel.of_map (hlib.transform φ φ' x hφ)).bind ?_
      rintro x1 _ rfl
      refine ExRel.bind (R := fun a b => b = (a.1, a.2.mapTimes g)) ?_ ?_
      · unfold fourierExpand
        rw [series_mapTimes, hs.expand]
        have hn : (x1.mapTimes g).nlevels = x1.nlevels := rfl
        rw [hn]
        split
        · refine ExRel.bind (R := (· = ·)) (ExRel.of_eq (fun _ => rfl) rfl) ?_
          rintro st _ rfl
          refine (ExRel.of_map (expandTransform_mapTimes g st x1)).bind ?_
          rintro x2 _ rfl
          exact ExRel.pure rfl
        · exact ExRel.pure rfl
      · rintro ex _ rfl
        refine ExRel.bind (R := (· = ·)) ?_ ?_
        · refine ExRel.of_eq (fun _ => rfl) ?_
          unfold baseFit
          simp only [isEmpty_mapTimes]
          rfl
        · rintro lin _ rfl
          exact ExRel.pure ⟨.some hφ, rfl, rfl⟩
  transform := by
    intro s s' x fh hs
    obtain ⟨f, e, l⟩ := s
    obtain ⟨f', e', l'⟩ := s'
    obtain ⟨hf, he, hl⟩ := hs
    simp only at hf he hl
    subst he hl
    cases hf with
    | none => rfl
    | @some φ φ' hφ =>
      cases l' with
      | none => rfl
      | some lin =>
        simp only [fourierClass, fourierHooks]
        symm
        apply ExRel.eq_of
        refine (ExRel.of_map (hlib.transform φ φ' x hφ)).bind ?_
        rintro x1 _ rfl
        have hfin : ∀ x2 : Frame String τ K, ExRel (· = ·)
            (baseTransform (defaultHooks (Y := Unit) (Sc := Unit) linearTags) (lin, ()) (some x2) fh)
            (baseTransform (defaultHooks (Y := Unit) (Sc := Unit) linearTags) (lin, ())
              (some (x2.mapTimes g)) (fh.map g)) := by
          intro x2
          refine ExRel.of_eq (fun _ => rfl) ?_
          have hc : SameObj g (fun _ _ : Unit => True)
              (⟨{ defaultHooks linearTags with call := fun _ _ _ _ => .error .valueError },
                (lin, ()), (lin, ())⟩ : EffectObj Unit (Frame String τ K) Unit τ K (Tensor K) K)
              ⟨{ defaultHooks linearTags with call := fun _ _ _ _ => .error .valueError },
                (lin, ()), (lin, ())⟩ :=
            ⟨C78_date_blind, ⟨rfl, trivial⟩, ⟨rfl, trivial⟩⟩
          exact (SameObj.transform hg hc (some x2) fh).symm
        cases e' with
        | none => exact hfin x1
        | some st =>
          refine (ExRel.of_map (expandTransform_mapTimes g st x1)).bind ?_
          rintro x2 _ rfl
          exact hfin x2
  call := by
    intro b s s' hs
    funext θ d p
    simp only [fourierClass, hs.linear]

theorem min?_shift (N : ℤ) : ∀ l : List ℤ, (l.map (· + N)).min? = l.min?.map (· + N)
  | [] => rfl
  | a :: l => by
    simp only [List.map_cons, List.min?_cons', Option.map_some, Option.some.injEq]
    induction l generalizing a with
    | nil => rfl
    | cons b l ih =>
      simp only [List.map_cons, List.foldl_cons]
      rw [show min (a + N) (b + N) = min a b + N from (min_add_add_right a b N), ih]

theorem firstStep_shift (N : ℤ) {φ : List (List String × ℤ)} {s : List String}
    (hs : s ∈ φ.map Prod.fst) :
    firstStep (φ.map fun p => (p.1, p.2 + N)) s = firstStep φ s + N := by
  unfold firstStep
  rw [List.find?_map]
  have : ((fun p : List String × ℤ => decide (p.1 = s)) ∘ fun p : List String × ℤ => (p.1, p.2 + N))
      = fun p : List String × ℤ => decide (p.1 = s) := rfl
  rw [this]
  cases h : φ.find? fun p => decide (p.1 = s) with
  | none =>
    obtain ⟨p, hp, rfl⟩ := List.mem_map.1 hs
    exact absurd (by simp) (List.find?_eq_none.1 h p hp)
  | some p => rfl

/-- The features count time steps from the first training date, so a shift leaves them alone. -/
theorem fourierFeatures_same {τ τ' : Type} [DecidableEq τ] [DecidableEq τ'] {g : τ → τ'} {position : τ → ℤ} {position' : τ' → ℤ}
    {N : ℤ} (h : ∀ t, position' (g t) = position t + N) (seasons : List Season) :
    SameFourier g (fun φ φ' => φ' = φ.map fun p => (p.1, p.2 + N))
      (fourierFeatures position seasons) (fourierFeatures position' seasons) where
  fit := by
    intro x
    simp only [fourierFeatures]
    split
    · refine ExRel.pure ?_
      rw [series_mapTimes, List.map_map]
      refine List.map_congr_left fun s hs => ?_
      simp only [Function.comp_apply]
      congr 1
      have hro : (x.mapTimes g).rowsOf s = (x.rowsOf s).map fun r => ⟨r.sid, g r.time, r.val⟩ := by
        unfold Frame.rowsOf Frame.mapTimes
        rw [List.filter_map]
        rfl
      rw [hro, List.map_map]
      have hpos : ((fun r : Row String τ' ℝ => position' r.time) ∘
          fun r : Row String τ ℝ => (⟨r.sid, g r.time, r.val⟩ : Row String τ' ℝ))
          = fun r : Row String τ ℝ => position r.time + N := by
        funext r
        exact h r.time
      rw [hpos]
      have := min?_shift N ((x.rowsOf s).map fun r => position r.time)
      rw [List.map_map] at this
      rw [show (fun r : Row String τ ℝ => position r.time + N)
        = (· + N) ∘ fun r : Row String τ ℝ => position r.time from rfl, this]
      cases hm : ((x.rowsOf s).map fun r => position r.time).min? with
      | some v => rfl
      | none =>
        rw [List.min?_eq_none_iff, List.map_eq_nil_iff] at hm
        obtain ⟨r, hr, hrs⟩ := List.mem_map.1 (mem_unique.1 hs)
        have : r ∈ x.rowsOf s := List.mem_filter.2 ⟨hr, by simpa using hrs⟩
        rw [hm] at this
        simp at this
    · exact ExRel.error _
  transform := by
    rintro φ _ x rfl
    simp only [fourierFeatures]
    have hk : (∀ r ∈ (x.mapTimes g).rows, r.sid ∈ (φ.map fun p => (p.1, p.2 + N)).map Prod.fst) ↔
        ∀ r ∈ x.rows, r.sid ∈ φ.map Prod.fst := by
      rw [List.map_map]
      unfold Frame.mapTimes
      simp
    by_cases hc : ∀ r ∈ x.rows, r.sid ∈ φ.map Prod.fst
    · rw [if_pos (hk.2 hc), if_pos hc]
      simp only [Except.map, Frame.mapTimes, List.map_map]
      congr 2
      refine List.map_congr_left fun r hr => ?_
      simp only [Function.comp_apply]
      rw [firstStep_shift N (hc r hr), h, add_sub_add_right_eq_sub]
    · rw [if_neg (fun h => hc (hk.1 h)), if_neg hc]
      rfl

/-- **C78**: moving all dates by any number of periods leaves the Fourier seasonality alone. -/
theorem C78_fourier_shift {Sc τ τ' : Type} [LinearOrder τ] [LinearOrder τ'] {g : τ → τ'}
    (hg : Function.Injective g) {position : τ → ℤ} {position' : τ' → ℤ} {N : ℤ}
    (h : ∀ t, position' (g t) = position t + N) (seasons : List Season)
    (compile : String → PyM (String → Bool)) (order : List String → List String) (mode : String) :
    SameClass g (SameFourierState fun φ φ' => φ' = φ.map fun p => (p.1, p.2 + N))
      (fourierClass (fourierFeatures position seasons) compile order mode :
        EffectClass _ (Frame String τ ℝ) Sc τ ℝ _ ℝ)
      (fourierClass (fourierFeatures position' seasons) compile order mode) :=
  C78_fourier hg (fourierFeatures_same h seasons) compile order mode

example : ∀ t : ℤ, id (t + 30) = id t + 30 := fun _ => rfl

/-! ## Non-vacuity

The concrete world of `Props/World.lean` on the days 0, 1, ... and on the days 100, 102, ... -/

/-- Twice as many days between the dates, from day 100 on. -/
def exShift : ℤ → ℤ := fun t => 2 * t + 100

theorem exShift_strictMono : StrictMono exShift := fun a b h => by unfold exShift; omega

theorem exTrend78 : SameObj exShift (SamePiecewise (fun n : ℤ => (n : ℚ)) (fun n : ℤ => (n : ℚ)) exShift)
    exTrendObj exTrendObj :=
  ⟨C78_piecewise (a := 2) (b := 100) (by norm_num) exShift_strictMono.injective
      (fun t => by simp [exShift]) rfl rfl rfl rfl (fun _ => rfl), ⟨rfl, trivial⟩, ⟨rfl, trivial⟩⟩

theorem exLinear78 : SameObj exShift (SamePiecewise (fun n : ℤ => (n : ℚ)) (fun n : ℤ => (n : ℚ)) exShift)
    exLinearObj exLinearObj :=
  ⟨C78_date_blind, ⟨rfl, trivial⟩, ⟨rfl, trivial⟩⟩

example : SameWorld exShift (SamePiecewise (fun n : ℤ => (n : ℚ)) (fun n : ℤ => (n : ℚ)) exShift)
    (· = ·) exWorld exWorld where
  heap := .cons exTrend78 .nil
  feats := by
    refine .cons ⟨?_, ?_, rfl⟩ .nil
    · rintro s _ x rfl
      have : ((x.mapTimes exShift).rows.head?.map fun r => r.val "x")
          = x.rows.head?.map fun r => r.val "x" := by
        simp [Frame.mapTimes, Function.comp_def]
      simp only [exCenter, this, mapVals_mapTimes]
      exact ⟨rfl, trivial⟩
    · rintro s _ x rfl
      simp only [exCenter, mapVals_mapTimes]
      rfl
  fcs := .nil
  samples := rfl

example : SameConfig exShift (SamePiecewise (fun n : ℤ => (n : ℚ)) (fun n : ℤ => (n : ℚ)) exShift)
    (exConfigW (.object 0) (some 0)) (exConfigW (.object 0) (some 0)) :=
  ⟨rfl, .object 0, rfl, rfl, exLinear78, rfl, .none, rfl, rfl, rfl, rfl, rfl⟩

/-- Options of a hierarchical forecaster. -/
example : SameHier (K := ℚ) exShift
    ⟨id, fun _ => true, [], fun y => [unique (y.rows.map fun r => r.sid.headD "")]⟩
    ⟨id, fun _ => true, [], fun y => [unique (y.rows.map fun r => r.sid.headD "")]⟩ :=
  ⟨rfl, rfl, rfl, fun y => by simp [Frame.mapTimes, Function.comp_def]⟩

/-- Relative horizons: so many steps after the last date. -/
example (s : ℤ) : SameHorizon (fun t : ℤ => t + s)
    (fun ts (fh : List ℤ) => fh.map fun n => (ts.getLast?.getD 0) + n)
    (fun ts (fh : List ℤ) => fh.map fun n => (ts.getLast?.getD s) + n) (· = ·) := by
  rintro ts fh _ rfl
  simp only [List.map_map, List.getLast?_map]
  apply List.map_congr_left
  intro n _
  cases ts.getLast? <;> simp [add_comm, add_assoc, add_left_comm]

/-- The prediction for day 108 with training days 100, ..., 106 is that for day 4 with training days
0, ..., 3. -/
example : exTable ((exWorld.run exNumpyro exHorizon
      [.new (exConfigW (.object 0) (some 0)),
       .fit 0 ((exTarget [0, 1, 2, 3]).mapTimes exShift)
        (some ((exRegressor [0, 1, 2, 3] fun t => t).mapTimes exShift))]).predict exNumpyro exHorizon 0
      .samples (some ((exRegressor [4] fun t => t).mapTimes exShift)) [exShift 4]).1
    = some [(108, 144)] := by
  decide +kernel

end PV
