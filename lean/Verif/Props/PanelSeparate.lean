import Verif.Lemmas.Exchange
import Verif.Lemmas.MovedFit
import Verif.Props.PanelBest
import Verif.Props.PanelForecast

/-!
# Series of a panel that share nothing do not influence each other (C116)
-/

namespace PV
open Tensor
noncomputable section

variable {τ : Type} [LinearOrder τ]
variable {days : τ → ℝ} {p : PiecewiseParams ℝ τ}
  {cfg : HierConfig (Option (PiecewiseState ℝ τ)) (Scale ℝ) τ (Tensor ℝ) ℝ}

/-! ## What two fits have in common -/

theorem foldl_sameCols {α : Type} {V : Type} {g g' : Frame String τ V → α → Frame String τ V}
    (h : ∀ f f' a, f.cols = f'.cols → (g f a).cols = (g' f' a).cols) :
    ∀ (l : List α) (f f' : Frame String τ V), f.cols = f'.cols → (l.foldl g f).cols = (l.foldl g' f').cols
  | [], _, _, hf => hf
  | a :: l, f, f', hf => foldl_sameCols h l _ _ (h f f' a hf)

/-- The columns of an expanded table depend on the columns and series of the table. -/
theorem expandTransform_cols {st : ExpandState} {x x' z z' : Frame String τ ℝ} (hc : x.cols = x'.cols)
    (hs : x.series = x'.series) (h : expandTransform st x = .ok z) (h' : expandTransform st x' = .ok z') :
    z.cols = z'.cols := by
  unfold expandTransform at h h'
  split at h
  · rename_i hsk
    rw [if_pos hsk] at h'
    cases h
    cases h'
    exact hc
  · rename_i hsk
    rw [if_neg hsk] at h'
    split at h
    · cases h
    split at h'
    · cases h'
    simp only at h h'
    split at h
    · cases h
    split at h
    swap
    · cases h
    split at h'
    · cases h'
    split at h'
    swap
    · cases h'
    cases h
    cases h'
    have hset : ∀ (f f' : Frame String τ ℝ) (n : String) (v v' : Row String τ ℝ → ℝ), f.cols = f'.cols →
        (f.setCol n v).cols = (f'.setCol n v').cols := by
      intro f f' n v v' hf
      unfold Frame.setCol
      simp only [hf]
    show List.filter _ (Frame.cols (List.foldl _ _ _)) = List.filter _ (Frame.cols (List.foldl _ _ _))
    congr 1
    rw [hs]
    refine foldl_sameCols ?_ _ _ _ (foldl_sameCols ?_ _ _ _ hc)
    · exact fun f f' a hf => hf
    · exact fun f f' a hf => hset f f' _ _ _ hf

/-- Name and columns of an effect. -/
def nameCols {S Y Sc D : Type} (fe : FittedEffect S Y Sc τ ℝ D ℝ) : String × List String := (fe.name, fe.cols)

theorem fitted_same {S Y Sc D : Type} {compile : String → PyM (String → Bool)} {x x' : Frame String τ ℝ} {y y' : Y}
    {scale : Sc} (hc : x.cols = x'.cols) : ∀ {effects : List (EffectSpec S Y Sc τ ℝ D ℝ)}
    {fes fes' : List (FittedEffect S Y Sc τ ℝ D ℝ)},
    List.Forall₂ (FittedFrom compile x y scale) effects fes → List.Forall₂ (FittedFrom compile x' y' scale) effects fes' →
    fes.map nameCols = fes'.map nameCols
  | _, _, _, .nil, .nil => rfl
  | _, _, _, .cons h t, .cons h' t' => by
    have ih := fitted_same hc t t'
    simp only [List.map_cons, ih]
    congr 1
    obtain ⟨h1, h2, -⟩ := h
    obtain ⟨h1', h2', -⟩ := h'
    rw [hc, h2'] at h2
    unfold nameCols
    rw [h1, h1', Except.ok.inj h2]

theorem fitEffects_same {S Y Sc D : Type} {compile : String → PyM (String → Bool)} {x x' : Frame String τ ℝ} {y y' : Y}
    {scale : Sc} (hc : x.cols = x'.cols) {effects : List (EffectSpec S Y Sc τ ℝ D ℝ)}
    {dflt : EffectObj S Y Sc τ ℝ D ℝ} {f f' : List (FittedEffect S Y Sc τ ℝ D ℝ)} {w w' : List EffectWarning}
    (h : fitEffects compile effects dflt (some x) y scale = .ok (f, w))
    (h' : fitEffects compile effects dflt (some x') y' scale = .ok (f', w')) : f.map nameCols = f'.map nameCols := by
  obtain ⟨fes, h1, -, h2⟩ := fitEffects_ok.1 h
  obtain ⟨fes', h1', -, h2'⟩ := fitEffects_ok.1 h'
  have hs := fitted_same hc h1 h1'
  have hcols : fes.flatMap FittedEffect.cols = fes'.flatMap FittedEffect.cols := by
    have : ∀ l : List (FittedEffect S Y Sc τ ℝ D ℝ), l.flatMap FittedEffect.cols = (l.map nameCols).flatMap Prod.snd :=
      fun l => by rw [List.flatMap_map]; rfl
    rw [this, this, hs]
  rw [← hc, ← hcols] at h2'
  rcases h2 with ⟨h2, rfl⟩ | ⟨e, h2, -, rfl⟩ <;> rcases h2' with ⟨h3, rfl⟩ | ⟨e', h3, -, rfl⟩
  · exact hs
  · exact absurd h2 h3
  · exact absurd h3 h2
  · rw [List.map_append, List.map_append, hs]
    rfl

theorem kept_same {ss ss' : List (List String)} {ts ts' : List τ} {X X' : Option (Frame String τ ℝ)}
    {m m' : HierFit (Option (PiecewiseState ℝ τ)) (Scale ℝ) τ (Tensor ℝ) ℝ} {x x' : Frame String τ ℝ}
    {s s' : PiecewiseState ℝ τ} (h : HierFitted days p ss ts X m x s) (h' : HierFitted days p ss' ts' X' m' x' s')
    (hm : m.fitted.map nameCols = m'.fitted.map nameCols) :
    (kept m.fitted).map nameCols = (kept m'.fitted).map nameCols := by
  have key : ∀ {ss : List (List String)} {ts : List τ} {X : Option (Frame String τ ℝ)}
      {m : HierFit (Option (PiecewiseState ℝ τ)) (Scale ℝ) τ (Tensor ℝ) ℝ} {x : Frame String τ ℝ}
      {s : PiecewiseState ℝ τ}, HierFitted days p ss ts X m x s →
      (kept m.fitted).map nameCols = (m.fitted.map nameCols).filter fun q => q.2 ≠ [] := by
    intro ss ts X m x s h
    rw [List.filter_map]
    congr 1
    refine List.filter_congr fun fe hfe => ?_
    obtain ⟨⟨md, hc⟩, hst, -⟩ := h.linear fe hfe
    rw [linear_skip hc hst]
    simp only [Function.comp_apply, nameCols]
    refine decide_eq_decide.2 ?_
    rw [Except.ok.injEq, List.isEmpty_eq_false_iff]
  rw [key h, key h', hm]

/-- The suggested offset of a series depends on its own values, and moves with them. -/
theorem suggest_own {t : List ℝ} {ya ya' : Tensor ℝ} {r r' : List ℝ × List ℝ} {n T i : Nat} {ε β : ℝ}
    (h : suggestLinear t ya = .ok r) (h' : suggestLinear t ya' = .ok r') (hs : ya.shape = [n, T, 1])
    (hs' : ya'.shape = [n, T, 1]) (hT : 0 < T) {v : Nat → ℝ} (hv : ∀ j < T, ya.get? [i, j, 0] = some (v j))
    (hv' : ∀ j < T, ya'.get? [i, j, 0] = some (ε * v j + β)) :
    r'.2[i]? = (r.2[i]?).map fun o => ε * o + β := by
  have hcol : ∀ j < T, (column ya' j)[i]? = ((column ya j)[i]?).map fun o => ε * o + β := by
    intro j hj
    unfold column
    rw [hs, hs', List.getElem?_map, List.getElem?_map]
    simp only [List.headD_cons]
    by_cases hi : i < n
    · simp [hi, hv j hj, hv' j hj]
    · simp [hi]
  unfold suggestLinear at h h'
  split at h
  swap
  · cases h
  rename_i t0 t1 h0 h1
  rw [h0, h1] at h'
  simp only at h'
  split at h
  · cases h
  rename_i hne
  rw [if_neg hne] at h'
  cases h
  cases h'
  have e1 := hcol 0 hT
  have e2 := hcol (T - 1) (by omega)
  have g1 : ya.shape.getD 1 0 = T := by rw [hs]; rfl
  have g2 : ya'.shape.getD 1 0 = T := by rw [hs']; rfl
  simp only [g1, g2, List.getElem?_zipWith, e1, e2]
  cases (column ya 0)[i]? with
  | none => rfl
  | some a =>
    cases (column ya (T - 1))[i]? with
    | none => rfl
    | some b =>
      simp only [Option.map_some]
      congr 1
      ring

/-- The values from which a trend suggests its initial values: of each series a function of its own observations,
which moves with them. -/
theorem start_target (hp : Starts p) (ts : List τ) :
    ∃ F : (τ → ℝ) → τ → ℝ, (∀ g g' ε β, (∀ t ∈ ts, g' t = ε * g t + β) → ∀ t ∈ ts, F g' t = ε * F g t + β) ∧
      ∀ {y yB : Frame String τ ℝ} {c : String} {obs : List String → τ → ℝ} {yd : Frame String τ ℝ} {ya : Tensor ℝ},
        BottomPanel y yB ts → y.cols = [c] → Observed y c obs → detrended p yB = .ok yd →
        yd.seriesToTensor = .ok ya → ya = panelOf yB.series ts fun a => F (obs a) := by
  rcases hp with hp | ⟨pos, hp⟩
  · refine ⟨fun g => g, fun g g' ε β h => h, fun {y yB c obs yd ya} hB hc ho hd h => ?_⟩
    unfold detrended at hd
    rw [hp] at hd
    cases hd
    exact panel_target hB hc ho h
  · refine ⟨fun g t => lineAt (ts.map fun t => (pos t, g t)) (pos t), fun g g' ε β h t ht => ?_,
      fun {y yB c obs yd ya} hB hc ho hd h => ?_⟩
    · have he : (ts.map fun t => (pos t, g' t)) = (ts.map fun t => (pos t, g t)).map fun q => (q.1, moved ε β q.2) := by
        rw [List.map_map]
        exact List.map_congr_left fun t ht => by simp [moved, h t ht]
      simp only [he]
      rw [lineAt_moved (by simpa using List.ne_nil_of_mem ht)]
      rfl
    · unfold detrended at hd
      rw [hp] at hd
      cases hd
      have hidx : (fittedLines pos yB).index = yB.index := by
        simp [Frame.index, fittedLines, Function.comp_def]
      have hser : (fittedLines pos yB).series = yB.series := series_congr_index hidx
      have htimes : (fittedLines pos yB).times = yB.times := by
        simp [Frame.times, fittedLines, Function.comp_def]
      rw [← hser]
      refine panel_cells (yB := fittedLines pos yB) (by rw [hser]; exact hB.panel.congr hidx rfl) (by rw [htimes]; exact hB.dates)
        (c := c) (hB.cols.trans hc) (fun r hr => ?_) h
      obtain ⟨q, hq, rfl⟩ := List.mem_map.1 hr
      simp only [sub_sub_cancel]
      congr 1
      have hrows : (yB.rowsOf q.sid).map Row.time = ts := by
        have h1 := times_filtered (l := yB.rowsOf q.sid) (rowsOf_sorted hB.panel.sorted q.sid) hB.panel.horizon
          (fun t ht => by
            obtain ⟨r', hr', hsid, htm⟩ := hB.panel.covers q.sid (mem_series.2 ⟨q, hq, rfl⟩) t ht
            exact ⟨r', List.mem_filter.2 ⟨hr', by simp [hsid]⟩, htm⟩)
        rwa [List.filter_eq_self.2 fun r hr => ?_] at h1
        have : r.time ∈ ts := by
          rw [← hB.dates, mem_unique]
          exact List.mem_map.2 ⟨r, (List.mem_filter.1 hr).1, rfl⟩
        simpa using this
      rw [← hrows, List.map_map]
      unfold pointsOf
      refine List.map_congr_left fun r hr => ?_
      obtain ⟨h1, h2⟩ := List.mem_filter.1 hr
      obtain ⟨h3, h4⟩ := hB.given r h1
      have h5 : r.sid = q.sid := by simpa using h2
      simp only [Function.comp_apply]
      rw [← h5, ho r h3 h4]

/-- What two fits with the same series, dates and columns have in common. -/
theorem hier_same (hV : ValidHier days p cfg) {y y' : Frame String τ ℝ} (hy : RegularPanel y) (hy' : RegularPanel y')
    {c c' : String} (hc : y.cols = [c]) (hc' : y'.cols = [c']) {obs obs' : List String → τ → ℝ}
    (hobs : Observed y c obs) (hobs' : Observed y' c' obs') {ss : List (List String)} (hss : SeriesOf y ss)
    (hss' : SeriesOf y' ss) {ts : List τ} (hts : DatesOf y ts) (hts' : DatesOf y' ts)
    {X X' : Option (Frame String τ ℝ)} (hX : GivenExog X ss ts) (hX' : GivenExog X' ss ts)
    (hcols : givenCols X' = givenCols X)
    (hcomp : ∀ c ∈ givenCols X, c ∉ cfg.shared → ∃ q, cfg.compile c = .ok q)
    {m m' : HierFit (Option (PiecewiseState ℝ τ)) (Scale ℝ) τ (Tensor ℝ) ℝ} (hfit : hierFitData cfg y X = .ok m)
    (hfit' : hierFitData cfg y' X' = .ok m') :
    ∃ x x' s s', HierFitted days p ss ts X m x s ∧ HierFitted days p ss ts X' m' x' s' ∧
      hierExog cfg (aggregate cfg.keep y) X = .ok (m.expand, x) ∧ hierExog cfg (aggregate cfg.keep y') X' = .ok (m'.expand, x') ∧
      s'.time = s.time ∧ s'.cps = s.cps ∧ s'.priorLoc = s.priorLoc ∧ s'.priorScale = s.priorScale ∧
      (∀ (i : Nat) a ε β, ss[i]? = some a → (∀ t ∈ ts, obs' a t = ε * obs a t + β) →
        s'.offsetLoc[i]? = (s.offsetLoc[i]?).map fun o => ε * o + β) ∧
      (kept m'.fitted).map nameCols = (kept m.fitted).map nameCols := by
  obtain ⟨m₁, x, s, hf₁, h, yB, -, hB, hser, hya, hsh, -, hpf, -, hex, hfe⟩ := hier_fits hV hy hss hts hX hcomp
  obtain ⟨m₂, x', s', hf₂, h', yB', -, hB', hser', hya', hsh', -, hpf', -, hex', hfe'⟩ :=
    hier_fits hV hy' hss' hts' hX' (by rw [hcols]; exact hcomp)
  rw [hfit] at hf₁
  cases hf₁
  rw [hfit'] at hf₂
  cases hf₂
  have hlv : 2 ≤ yB.nlevels := by rw [hB.nlevels]; exact hy.levels
  have hlv' : 2 ≤ yB'.nlevels := by rw [hB'.nlevels]; exact hy'.levels
  have hn : nSeriesOf yB' = nSeriesOf yB := by
    unfold nSeriesOf
    rw [if_pos (by omega), if_pos (by omega), hser, hser']
  obtain ⟨tt, cps, yd, ya, r, k1, k2, k3, k4, k5, rfl⟩ := piecewiseFit_inv hpf
  obtain ⟨tt', cps', yd', ya', r', k1', k2', k3', k4', k5', rfl⟩ := piecewiseFit_inv hpf'
  have htt : tt' = tt := by
    unfold trendTimeFit at k1 k1'
    rw [hB'.dates, hn] at k1'
    rw [hB.dates, k1'] at k1
    exact Except.ok.inj k1
  subst htt
  have hcps : cps' = cps := by
    rw [hB'.dates] at k2'
    rw [hB.dates, k2'] at k2
    exact Except.ok.inj k2
  subst hcps
  obtain ⟨F, hF, hFt⟩ := start_target hV.plain ts
  have ea := hFt hB hc hobs k3 k4
  have ea' := hFt hB' hc' hobs' k3' k4'
  have htimes : ∀ {z z' : Frame String τ ℝ}, z'.index = z.index → z'.times = z.times := by
    intro z z' h
    have := congrArg (List.map Prod.snd) h
    simpa [Frame.index, Frame.times, Function.comp_def] using this
  rw [htimes (hV.plain.same k3).2.2, hB.dates] at k5
  rw [htimes (hV.plain.same k3').2.2, hB'.dates] at k5'
  rw [hser] at ea
  rw [hser'] at ea'
  have hlen : ∀ {t : List ℝ} {ya : Tensor ℝ} {r : List ℝ × List ℝ} {n T : Nat}, suggestLinear t ya = .ok r →
      ya.shape = [n, T, 1] → r.1.length = n := by
    intro t ya r n T h hs
    unfold suggestLinear at h
    split at h
    swap
    · cases h
    split at h
    · cases h
    cases h
    unfold column
    simp [hs]
  have hl : r.1.length = ss.length := hlen k5 (by rw [ea]; rfl)
  have hl' : r'.1.length = ss.length := hlen k5' (by rw [ea']; rfl)
  refine ⟨x, x', _, _, h, h', hex, hex', rfl, rfl, ?_, rfl, ?_, ?_⟩
  · show (priorVectors cps' r'.1 p.priorScale).1 = (priorVectors cps' r.1 p.priorScale).1
    have key : ∀ (l : List Nat) (v : List ℝ), ((l.zip v).flatMap fun q => List.replicate q.1 (0 : ℝ))
        = ((l.zip (List.replicate v.length ())).flatMap fun q => List.replicate q.1 (0 : ℝ)) := by
      intro l
      induction l with
      | nil => simp
      | cons a l ih =>
        intro v
        cases v with
        | nil => simp
        | cons b v => simp only [List.zip_cons_cons, List.flatMap_cons, List.length_cons, List.replicate_succ, ih]
    unfold priorVectors
    simp only
    rw [key, key _ r.1, hl, hl']
  · intro i a ε β hi hoa
    refine suggest_own k5 k5' (n := ss.length) (T := ts.length) (by rw [ea]; rfl) (by rw [ea']; rfl)
      (by have := hB.two; omega) (v := fun j => (ts[j]?.map (F (obs a))).getD 0) (fun j hj => ?_) fun j hj => ?_
    · rw [ea, panelOf_get? hi (List.getElem?_eq_getElem hj), List.getElem?_eq_getElem hj]
      rfl
    · rw [ea', panelOf_get? hi (List.getElem?_eq_getElem hj), List.getElem?_eq_getElem hj,
        hF _ _ ε β hoa _ (List.getElem_mem hj)]
      rfl
  · refine kept_same h' h (fitEffects_same ?_ hfe' hfe)
    -- the columns of the model
    rcases h.exog with ⟨q1, -, q3⟩ | ⟨X0, st, rfl, hr, hst, hsk, -, hxe⟩
    · rcases h'.exog with ⟨-, -, q3'⟩ | ⟨X0', st', rfl, hr', -⟩
      · rw [q3, q3']
      · rw [q1] at hcols
        exact absurd hcols hr'.columns
    · rcases h'.exog with ⟨q1', -, -⟩ | ⟨X0', st', rfl, hr', hst', hsk', -, hxe'⟩
      · rw [q1'] at hcols
        exact absurd hcols.symm hr.columns
      · have hcc : X0'.bottomOnly.cols = X0.bottomOnly.cols := hcols
        have hstst : st' = st := by
          rw [hst] at hex
          rw [hst'] at hex'
          unfold hierExog exogOr at hex hex'
          simp only [if_neg hr.columns, exog_bottom hr, bind, Except.bind, hV.fitFeatures] at hex
          simp only [if_neg hr'.columns, exog_bottom hr', bind, Except.bind, hV.fitFeatures] at hex'
          unfold fitExpand at hex hex'
          rw [if_neg (show X0.bottomOnly.cols ≠ [] from hr.columns)] at hex
          rw [if_neg (show X0'.bottomOnly.cols ≠ [] from hr'.columns)] at hex'
          simp only [bind, Except.bind] at hex hex'
          split at hex
          · cases hex
          rename_i st₁ g₁
          split at hex'
          · cases hex'
          rename_i st₂ g₂
          split at hex
          · cases hex
          split at hex'
          · cases hex'
          cases hex
          cases hex'
          rw [hcc] at g₂
          unfold expandFit at g₁ g₂
          simp only [bind, Except.bind] at g₁ g₂
          split at g₁
          · cases g₁
          rename_i ms g₃
          rw [g₃] at g₂
          cases g₁
          cases g₂
          rw [hcc]
          simp only at hsk hsk'
          simp only [hsk, hsk']
        rw [hstst] at hxe'
        exact expandTransform_cols hcc (by rw [hr.panel.series_eq, hr'.panel.series_eq]) hxe' hxe

/-! ## Exchanging the parameters of one series -/

/-- The changepoint coefficients of series `i`. -/
def ownBlocks (cps : List (List ℝ)) (i : Nat) : List (List Bool) :=
  cps.zipIdx.map fun q => List.replicate q.1.length (q.2 == i)

theorem ownBlocks_lengths (cps : List (List ℝ)) (i : Nat) :
    (ownBlocks cps i).map List.length = cps.map List.length := by
  unfold ownBlocks
  rw [List.map_map]
  refine List.ext_getElem (by simp) fun k h1 h2 => ?_
  simp

theorem ownBlocks_get? {cps : List (List ℝ)} {i k : Nat} {cs : List ℝ} (h : cps[k]? = some cs) :
    (ownBlocks cps i)[k]? = some (List.replicate cs.length (k == i)) := by
  unfold ownBlocks
  simp [h]

theorem split_length {cps : List (List ℝ)} {l : List ℝ} (hl : l.length = (cps.map List.length).sum) {k : Nat}
    {cs : List ℝ} (h : cps[k]? = some cs) : (((cps.map List.length).splitLengths l).getD k []).length = cs.length := by
  have h1 := List.map_splitLengths_length l (cps.map List.length) (by rw [hl])
  have h2 := congrArg (fun l => l[k]?) h1
  simp only [List.getElem?_map, h] at h2
  rw [List.getD_eq_getElem?_getD]
  cases hg : ((cps.map List.length).splitLengths l)[k]? with
  | none => rw [hg] at h2; cases h2
  | some v => rw [hg] at h2; simpa using h2

theorem trend_exchange {s : PiecewiseState ℝ τ} {ss : List (List String)} (hnd : ss.Nodup)
    (hcl : s.cps.length = ss.length) {θ θ' θs : SiteEnv ℝ} (hθ : PanelSites s.cps θ) (hθ' : PanelSites s.cps θ')
    {i : Nat} {a : List String} (hi : ss[i]? = some a)
    (ho : (θs "offset").data = pick ((List.range ss.length).map (· == i)) (θ "offset").data (θ' "offset").data)
    (hch : (θs "changepoint_coefficients").data = pick (ownBlocks s.cps i).flatten
      (θ "changepoint_coefficients").data (θ' "changepoint_coefficients").data)
    {u : List String} (hu : u ∈ ss) (t : τ) :
    panelTrendAt days s ss θs u t
      = if u = a then panelTrendAt days s ss θ' u t else panelTrendAt days s ss θ u t := by
  have hk : ss.idxOf u < ss.length := List.idxOf_lt_length_iff.2 hu
  have hku : ss[ss.idxOf u]? = some u := by
    rw [List.getElem?_eq_getElem hk]
    simp
  have hiff : u = a ↔ ss.idxOf u = i := by
    constructor
    · rintro rfl
      obtain ⟨hil, he⟩ := List.getElem?_eq_some_iff.1 hi
      rw [← he]
      exact hnd.idxOf_getElem i hil
    · intro h
      rw [h, hi] at hku
      exact (Option.some.inj hku).symm
  have hck : s.cps[ss.idxOf u]? = some (s.cps[ss.idxOf u]'(by omega)) := List.getElem?_eq_getElem _
  set k := ss.idxOf u with hkdef
  have h1 : (θs "offset").data.getD k 0
      = if u = a then (θ' "offset").data.getD k 0 else (θ "offset").data.getD k 0 := by
    rw [ho, List.getD_eq_getElem?_getD, pick_get? (o := k == i) (by simp [hk]) (by simp [hθ.1, hcl])
      (by simp [hθ'.1, hcl])]
    by_cases h : u = a
    · rw [if_pos h, if_pos (by simpa using hiff.1 h), ← List.getD_eq_getElem?_getD]
    · rw [if_neg h, if_neg (by simpa using fun hh => h (hiff.2 hh)), ← List.getD_eq_getElem?_getD]
  have h2 : (seriesCoefs s.cps θs).getD k []
      = if u = a then (seriesCoefs s.cps θ').getD k [] else (seriesCoefs s.cps θ).getD k [] := by
    have := split_pick (l := (θ "changepoint_coefficients").data) (l' := (θ' "changepoint_coefficients").data)
      (ownBlocks_get? (i := i) hck)
    rw [ownBlocks_lengths] at this
    unfold seriesCoefs
    rw [hch, this]
    have l1 := split_length hθ.2 hck
    have l2 := split_length hθ'.2 hck
    by_cases h : u = a
    · rw [if_pos h, show (k == i) = true by simpa using hiff.1 h, pick_true l1 l2]
    · rw [if_neg h, show (k == i) = false by simpa using fun hh => h (hiff.2 hh), pick_false l1 l2]
  unfold panelTrendAt
  rw [← hkdef, h1, h2]
  split <;> rfl

theorem panelMean_additive {S Y Sc D : Type} (s : PiecewiseState ℝ τ) (ss : List (List String))
    (l : List (FittedEffect S Y Sc τ ℝ D ℝ)) (x : Frame String τ ℝ) (θ : SiteEnv ℝ) (a : List String) (t : τ) :
    panelMean days (fun _ => "additive") s ss l x θ a t = panelTrendAt days s ss θ a t
      + ((l.map nameCols).map fun q => dot (q.2.map (cellAt x a t)) (θ (q.1 ++ "/coefs")).data).sum := by
  unfold panelMean combine
  simp only [if_true, List.map_map]
  rfl

/-- The sites of two fits with the parameters of series `i`. -/
def hierPairs (os : ℝ) (prior : String → ℝ → ℝ) (s s' : PiecewiseState ℝ τ) (n i : Nat) (own : String → Bool)
    (lc : List (String × List String)) : List PairSite :=
  ⟨"offset", s.offsetLoc.map fun μ => normalLP μ os, s'.offsetLoc.map fun μ => normalLP μ os,
      (List.range n).map (· == i)⟩
    :: ⟨"changepoint_coefficients", List.zipWith laplaceLP s.priorLoc s.priorScale,
      List.zipWith laplaceLP s'.priorLoc s'.priorScale, (ownBlocks s.cps i).flatten⟩
    :: lc.map fun q => ⟨q.1 ++ "/coefs", List.replicate q.2.length (prior q.1), List.replicate q.2.length (prior q.1),
      q.2.map own⟩

theorem hierPairs_first {S Y Sc D : Type} {os : ℝ} {prior : String → ℝ → ℝ} {s s' : PiecewiseState ℝ τ} {n i : Nat}
    {own : String → Bool} (l : List (FittedEffect S Y Sc τ ℝ D ℝ)) :
    firstSites (hierPairs os prior s s' n i own (l.map nameCols)) = hierSites os prior s l := by
  unfold firstSites hierPairs hierSites
  simp only [List.map_cons, List.map_map]
  rfl

theorem hierPairs_second {S Y Sc D : Type} {os : ℝ} {prior : String → ℝ → ℝ} {s s' : PiecewiseState ℝ τ} {n i : Nat}
    {own : String → Bool} (l : List (FittedEffect S Y Sc τ ℝ D ℝ)) :
    secondSites (hierPairs os prior s s' n i own (l.map nameCols)) = hierSites os prior s' l := by
  unfold secondSites hierPairs hierSites
  simp only [List.map_cons, List.map_map]
  rfl

theorem hierPairs_ok {os : ℝ} {prior : String → ℝ → ℝ} {s s' : PiecewiseState ℝ τ} {n i : Nat} {own : String → Bool}
    {lc : List (String × List String)} (ho : s.offsetLoc.length = n) (ho' : s'.offsetLoc.length = n)
    (hoff : s'.offsetLoc[i]? = s.offsetLoc[i]?) (hloc : s'.priorLoc = s.priorLoc) (hsc : s'.priorScale = s.priorScale)
    (h1 : s.priorLoc.length = (s.cps.map List.length).sum) (h2 : s.priorScale.length = (s.cps.map List.length).sum) :
    ∀ e ∈ hierPairs os prior s s' n i own lc, e.Ok := by
  intro e he
  simp only [hierPairs, List.mem_cons, List.mem_map] at he
  rcases he with rfl | rfl | ⟨q, -, rfl⟩
  · refine ⟨by simpa using ho, by simpa using ho', ?_⟩
    intro k f f' hk hf hf'
    have hki : k = i := by
      rw [List.getElem?_map] at hk
      obtain ⟨k', hk', he⟩ := Option.map_eq_some_iff.1 hk
      have := (List.getElem?_eq_some_iff.1 hk').2
      simp at this
      subst this
      simpa using he
    subst hki
    simp only [List.getElem?_map] at hf hf'
    rw [hoff, hf] at hf'
    exact Option.some.inj hf'
  · have hl : (ownBlocks s.cps i).flatten.length = (s.cps.map List.length).sum := by
      rw [List.length_flatten, ownBlocks_lengths]
    refine ⟨?_, ?_, ?_⟩
    · simp only [List.length_zipWith, hl, h1, h2, min_self]
    · simp only [List.length_zipWith, hl, hloc, hsc, h1, h2, min_self]
    · intro k f f' _ hf hf'
      simp only [hloc, hsc] at hf'
      rw [hf] at hf'
      exact Option.some.inj hf'
  · refine ⟨by simp, by simp, ?_⟩
    intro k f f' _ hf hf'
    simp only at hf hf'
    rw [hf] at hf'
    exact Option.some.inj hf'

theorem hierPairs_names {os : ℝ} {prior : String → ℝ → ℝ} {s s' : PiecewiseState ℝ τ} {n i : Nat} {own : String → Bool}
    {S Y Sc D : Type} {l : List (FittedEffect S Y Sc τ ℝ D ℝ)} :
    (hierPairs os prior s s' n i own (l.map nameCols)).map PairSite.name = (hierSites os prior s l).map Prod.fst := by
  rw [← hierPairs_first (s' := s') (n := n) (i := i) (own := own) l]
  unfold firstSites
  rw [List.map_map]
  rfl

/-- The means after exchanging the parameters of series `a`. -/
theorem mean_exchange {S Y Sc D : Type} {os : ℝ} {prior : String → ℝ → ℝ} {s s' : PiecewiseState ℝ τ}
    {ss : List (List String)} (hnd : ss.Nodup) (hcl : s.cps.length = ss.length)
    {l : List (FittedEffect S Y Sc τ ℝ D ℝ)} (hn : ((hierSites os prior s l).map Prod.fst).Nodup)
    {θ θ' : SiteEnv ℝ} (hθ : PanelSites s.cps θ) (hθ' : PanelSites s.cps θ')
    (hl : ∀ q ∈ l.map nameCols, (θ (q.1 ++ "/coefs")).data.length = q.2.length)
    (hl' : ∀ q ∈ l.map nameCols, (θ' (q.1 ++ "/coefs")).data.length = q.2.length)
    {i : Nat} {a : List String} (hi : ss[i]? = some a) {own : String → Bool} {x : Frame String τ ℝ} {t : τ}
    (hown : ∀ q ∈ l.map nameCols, ∀ n ∈ q.2, own n = false → cellAt x a t n = 0)
    (hoth : ∀ u ∈ ss, u ≠ a → ∀ q ∈ l.map nameCols, ∀ n ∈ q.2, own n = true → cellAt x u t n = 0)
    {u : List String} (hu : u ∈ ss) :
    panelMean days (fun _ => "additive") s ss l x
        (exchange (pairMasks (hierPairs os prior s s' ss.length i own (l.map nameCols))) θ θ') u t
      = if u = a then panelMean days (fun _ => "additive") s ss l x θ' u t
        else panelMean days (fun _ => "additive") s ss l x θ u t := by
  set L := hierPairs os prior s s' ss.length i own (l.map nameCols) with hL
  have hnm : ((pairMasks L).map Prod.fst).Nodup := by
    unfold pairMasks
    rw [List.map_map]
    have : L.map (Prod.fst ∘ fun e => (e.name, e.own)) = L.map PairSite.name := rfl
    rw [this, hL, hierPairs_names]
    exact hn
  have hsite : ∀ e ∈ L, (exchange (pairMasks L) θ θ' e.name).data = pick e.own (θ e.name).data (θ' e.name).data :=
    fun e he => exchange_site hnm (e := (e.name, e.own)) (List.mem_map.2 ⟨e, he, rfl⟩)
  have htr := trend_exchange (days := days) hnd hcl hθ hθ' hi
    (hsite ⟨"offset", _, _, _⟩ (by rw [hL]; exact List.mem_cons_self))
    (hsite ⟨"changepoint_coefficients", _, _, _⟩ (by rw [hL]; exact List.mem_cons_of_mem _ List.mem_cons_self)) hu t
  have hcoef : ∀ q ∈ l.map nameCols, (exchange (pairMasks L) θ θ' (q.1 ++ "/coefs")).data
      = pick (q.2.map own) (θ (q.1 ++ "/coefs")).data (θ' (q.1 ++ "/coefs")).data := fun q hq =>
    hsite ⟨q.1 ++ "/coefs", _, _, _⟩ (by
      rw [hL]
      exact List.mem_cons_of_mem _ (List.mem_cons_of_mem _ (List.mem_map.2 ⟨q, hq, rfl⟩)))
  simp only [panelMean_additive]
  rw [htr]
  by_cases h : u = a
  · rw [if_pos h, if_pos h]
    congr 2
    refine List.map_congr_left fun q hq => ?_
    rw [hcoef q hq]
    exact dot_pick_own (hl q hq) (hl' q hq) (by rw [h]; exact hown q hq)
  · rw [if_neg h, if_neg h]
    congr 2
    refine List.map_congr_left fun q hq => ?_
    rw [hcoef q hq]
    exact dot_pick_other (hl q hq) (hl' q hq) (hoth u hu h q hq)

/-- Exchanging the parameters of a series with the same observations, means and noise does not change
the sum of the log likelihoods. -/
theorem lik_exchange {n : Nat} {σ σ' : Fin n → ℝ} (hσ : ∀ i, 0 < σ i) (hσ' : ∀ i, 0 < σ' i) {ts : List τ}
    {o o' M M' Ms Ms' : Fin n → τ → ℝ}
    (h : ∀ t ∈ ts, ∀ k, (Ms k t = M k t ∧ Ms' k t = M' k t) ∨
      (Ms k t = M' k t ∧ Ms' k t = M k t ∧ o k t = o' k t ∧ σ k = σ' k)) :
    (ts.map fun t => normalDensity (fun k => Ms k t) (panelCovariance σ 1) (fun k => o k t)).sum
      + (ts.map fun t => normalDensity (fun k => Ms' k t) (panelCovariance σ' 1) (fun k => o' k t)).sum
    = (ts.map fun t => normalDensity (fun k => M k t) (panelCovariance σ 1) (fun k => o k t)).sum
      + (ts.map fun t => normalDensity (fun k => M' k t) (panelCovariance σ' 1) (fun k => o' k t)).sum := by
  rw [← List.sum_map_add, ← List.sum_map_add]
  congr 1
  refine List.map_congr_left fun t ht => ?_
  simp only [normalDensity_identity hσ, normalDensity_identity hσ']
  have : ∑ k, (o k t - Ms k t) ^ 2 / σ k ^ 4 + ∑ k, (o' k t - Ms' k t) ^ 2 / σ' k ^ 4
      = ∑ k, (o k t - M k t) ^ 2 / σ k ^ 4 + ∑ k, (o' k t - M' k t) ^ 2 / σ' k ^ 4 := by
    rw [← Finset.sum_add_distrib, ← Finset.sum_add_distrib]
    refine Finset.sum_congr rfl fun k _ => ?_
    rcases h t ht k with ⟨h1, h2⟩ | ⟨h1, h2, h3, h4⟩
    · rw [h1, h2]
    · rw [h1, h2, h3, h4]
      ring
  linarith

/-- What the columns of the training table hold. -/
theorem hier_own (hV : ValidHier days p cfg) {ss : List (List String)} {ts : List τ} {X : Option (Frame String τ ℝ)}
    {m : HierFit (Option (PiecewiseState ℝ τ)) (Scale ℝ) τ (Tensor ℝ) ℝ} {x : Frame String τ ℝ}
    {s : PiecewiseState ℝ τ} (h : HierFitted days p ss ts X m x s) {yA : Frame String τ ℝ}
    (hex : hierExog cfg yA X = .ok (m.expand, x)) (hn : PlainNames cfg.compile (givenCols X) cfg.shared ss) :
    (∀ fe ∈ m.fitted, ∀ n ∈ fe.cols, ModelColumn (givenCols X) cfg.shared ss n) ∧
      ∀ a ∈ ss, ∀ t ∈ ts, OwnCopies (givenCols X) cfg.shared X ss a t (cellAt x a t) := by
  rcases h.exog with ⟨h0, -, h1⟩ | ⟨X0, st, rfl, hr, hst, hsk, -, hxe⟩
  · refine ⟨fun fe hfe n hnc => ?_, fun a _ t _ => ?_⟩
    · have hx := (h.linear fe hfe).2.2 n hnc
      rw [h1] at hx
      cases hx
    · rw [h0]
      exact ⟨by simp, by simp, by simp⟩
  · rw [hst] at hex
    have hm := hier_matched hV hr hn hex
    refine ⟨fun fe hfe n hnc => ?_, fun a ha t ht => own_copies hn hsk hm (fun _ hc => hc) hr hxe ha ht⟩
    have hx := (h.linear fe hfe).2.2 n hnc
    obtain ⟨a, ha⟩ := List.exists_mem_of_ne_nil _ hr.panel.someSeries
    obtain ⟨t, ht⟩ := List.exists_mem_of_ne_nil _ hr.panel.someDate
    obtain ⟨h1, h2⟩ := (expand_cell hsk hr.panel ha ht hxe n).1.1 hx
    rcases h2 with h2 | ⟨c, hc, b, hb, rfl⟩
    · refine .inl ⟨h2, ?_⟩
      by_contra hs
      exact h1 ((hm n).2 ⟨h2, hs⟩)
    · exact .inr ⟨c, ((hm c).1 hc).1, ((hm c).1 hc).2, b, hb, rfl⟩

theorem corrFactor_one {n : Nat} : CorrFactor (1 : Matrix (Fin n) (Fin n) ℝ) where
  lower := fun i j h => Matrix.one_apply_ne h.ne
  diag := fun i => by simp
  unit := fun i => by simp [Matrix.one_apply]

/-- Two panels with the same series, dates and regressors, in which series `a` has the same
observations and the same values of the regressors. -/
structure SameHistory (a : List String) (ss : List (List String)) (ts : List τ) (y y' : Frame String τ ℝ)
    (X X' : Option (Frame String τ ℝ)) (c c' : String) (obs obs' : List String → τ → ℝ) : Prop where
  panel : RegularPanel y
  panel' : RegularPanel y'
  column : y.cols = [c]
  column' : y'.cols = [c']
  observed : Observed y c obs
  observed' : Observed y' c' obs'
  series : SeriesOf y ss
  series' : SeriesOf y' ss
  dates : DatesOf y ts
  dates' : DatesOf y' ts
  exog : GivenExog X ss ts
  exog' : GivenExog X' ss ts
  columns : givenCols X' = givenCols X
  one : a ∈ ss
  sameTarget : ∀ t ∈ ts, obs a t = obs' a t
  sameValues : ∀ t ∈ ts, ∀ d ∈ givenCols X, givenValue X a t d = givenValue X' a t d

/-- **C116**: without shared columns and with independent noise, the history of the other series does
not influence the parameters of a series: if only other series differ, the best fits have the same
offset, effect coefficients and trend for this series. -/
theorem C116_separate (hV : ValidHier days p cfg) (hM : Modes (fun _ => "additive") cfg) (hsh : cfg.shared = [])
    {b : ℝ} (hb : p.priorScale = .scalar b) (hb0 : 0 ≤ b)
    {a : List String} {ss : List (List String)} (h2 : 2 ≤ ss.length) {ts : List τ} {y y' : Frame String τ ℝ}
    {X X' : Option (Frame String τ ℝ)} {c c' : String} {obs obs' : List String → τ → ℝ}
    (H : SameHistory a ss ts y y' X X' c c' obs obs')
    (hn : PlainNames cfg.compile (givenCols X) cfg.shared ss)
    {m m' : HierFit (Option (PiecewiseState ℝ τ)) (Scale ℝ) τ (Tensor ℝ) ℝ} (hfit : hierFitData cfg y X = .ok m)
    (hfit' : hierFitData cfg y' X' = .ok m') :
    ∃ s s', m.trend.st.2 = some s ∧ m'.trend.st.2 = some s' ∧
      ∀ (lkj : Nat → ℝ → Tensor ℝ → ℝ) (ns conc os : ℝ) (prior : String → ℝ → ℝ), os ≠ 0 →
        (∀ n, StrictConcaveOn ℝ Set.univ (prior n)) → ∀ (θ θ' : SiteEnv ℝ),
        BestPanel lkj ns conc os prior s m θ → BestPanel lkj ns conc os prior s' m' θ' →
        ∀ (σ σ' : Fin ss.length → ℝ),
        (θ "std_observation").data.length = ss.length → VectorSite (θ "std_observation") σ → (∀ i, 0 < σ i) →
        (θ' "std_observation").data.length = ss.length → VectorSite (θ' "std_observation") σ' → (∀ i, 0 < σ' i) →
        MatrixSite (θ "corr_matrix") (1 : Matrix (Fin ss.length) (Fin ss.length) ℝ) →
        MatrixSite (θ' "corr_matrix") (1 : Matrix (Fin ss.length) (Fin ss.length) ℝ) →
        (∀ i, ss.get i = a → σ i = σ' i) →
        (∀ i : Nat, ss[i]? = some a → (θ "offset").data[i]? = (θ' "offset").data[i]?) ∧
        (∀ fe ∈ m.fitted, ∀ (k : Nat) (d : String), d ∈ givenCols X → fe.cols[k]? = some (colName d a) →
          (θ (fe.name ++ "/coefs")).data[k]? = (θ' (fe.name ++ "/coefs")).data[k]?) ∧
        (∀ t ∈ ts, panelTrendAt days s ss θ a t = panelTrendAt days s' ss θ' a t) ∧
        ((∀ cs ∈ s.cps, Covered (ts.map (s.time.scaled days)) cs) →
          ∀ t, panelTrendAt days s ss θ a t = panelTrendAt days s' ss θ' a t) := by
  classical
  have hcomp := hn.compiles
  have hn' : PlainNames cfg.compile (givenCols X') cfg.shared ss := by rw [H.columns]; exact hn
  obtain ⟨x, x', s, s', h, h', hex, hex', htime, hcps, hloc, hscale, hoff, hkept⟩ :=
    hier_same hV H.panel H.panel' H.column H.column' H.observed H.observed' H.series H.series' H.dates H.dates'
      H.exog H.exog' H.columns hcomp hfit hfit'
  obtain ⟨x₁, s₁, hex₁, h₁, ho, hlu, hF⟩ := hier_posterior hV hM H.panel H.column H.observed H.series h2 H.dates
    (by rw [hb]; trivial) H.exog hcomp hfit
  obtain ⟨x₂, s₂, hex₂, h₂, ho', hlu', hF'⟩ := hier_posterior hV hM H.panel' H.column' H.observed' H.series' h2
    H.dates' (by rw [hb]; trivial) H.exog' hn'.compiles hfit'
  rw [hex] at hex₁
  obtain rfl : x = x₁ := congrArg Prod.snd (Except.ok.inj hex₁)
  rw [hex'] at hex₂
  obtain rfl : x' = x₂ := congrArg Prod.snd (Except.ok.inj hex₂)
  obtain rfl : s = s₁ := Option.some.inj (h.state.symm.trans h₁.state)
  obtain rfl : s' = s₂ := Option.some.inj (h'.state.symm.trans h₂.state)
  refine ⟨s, s', h.state, h'.state, ?_⟩
  intro lkj ns conc os prior hos hpr θ θ' hbest hbest' σ σ' hsl hσs hσ hsl' hσs' hσ' hCs hCs' hσσ
  obtain ⟨hmc, hown⟩ := hier_own hV h hex hn
  obtain ⟨-, hown'⟩ := hier_own hV h' hex' hn'
  have hnd : ss.Nodup := H.series.sorted.imp fun h => ne_of_lt h
  obtain ⟨i, hil, hia⟩ := List.getElem_of_mem H.one
  have hi : ss[i]? = some a := by rw [List.getElem?_eq_getElem hil, hia]
  set own : String → Bool := fun n => decide (∃ d ∈ givenCols X, n = colName d a) with hownd
  set lc := (kept m.fitted).map nameCols with hlc
  set L := hierPairs os prior s s' ss.length i own lc with hL
  have hfirst : firstSites L = hierSites os prior s (kept m.fitted) := hierPairs_first _
  have hsecond : secondSites L = hierSites os prior s' (kept m'.fitted) := by
    rw [hL, ← hkept]
    exact hierPairs_second _
  have hok : ∀ e ∈ L, e.Ok := hierPairs_ok ho ho' (by simpa using hoff i a 1 0 hi fun t ht => by rw [one_mul, add_zero, H.sameTarget t ht]) hloc hscale hlu.loc hlu.scale
  have hsnd : ((hierSites os prior s (kept m.fitted)).map Prod.fst).Nodup :=
    hierSites_nodup (h.nodup.sublist (List.filter_sublist.map _))
  have hLn : (L.map PairSite.name).Nodup := by
    rw [hL, hlc, hierPairs_names]
    exact hsnd
  have hf := hier_sized (os := os) (prior := prior) h ho hlu
  have hf' := hier_sized (os := os) (prior := prior) h' ho' hlu'
  obtain ⟨hz, l, hl, hmax⟩ := hbest
  obtain ⟨hz', l', hl', hmax'⟩ := hbest'
  have hz1 := (hf θ).2 hz
  have hz1' := (hf' θ').2 hz'
  rw [← hfirst] at hz1
  rw [← hsecond] at hz1'
  obtain ⟨hs1, hs2⟩ := exchange_sized hLn hok hz1 hz1'
  have hpri := exchange_priors hLn hok hz1 hz1'
  set θs := exchange (pairMasks L) θ θ' with hθs
  set θs' := exchange (pairMasks L) θ' θ with hθs'
  have e1 := sitesPrior_hier (hfirst ▸ hz1)
  have e2 := sitesPrior_hier (hsecond ▸ hz1')
  have e3 := sitesPrior_hier (hfirst ▸ hs1)
  have e4 := sitesPrior_hier (hsecond ▸ hs2)
  rw [hfirst, hsecond, e1, e2, e3, e4] at hpri
  rw [hfirst] at hs1
  rw [hsecond] at hs2
  have hzs := (hf θs).1 hs1
  have hzs' := (hf' θs').1 hs2
  have hmask : (pairMasks L).map Prod.fst = (hierSites os prior s (kept m.fitted)).map Prod.fst := by
    rw [← hfirst]
    unfold pairMasks firstSites
    rw [List.map_map, List.map_map]
    rfl
  have hstd : ∀ θ θ' : SiteEnv ℝ, exchange (pairMasks L) θ θ' "std_observation" = θ "std_observation" := fun θ θ' =>
    exchange_other (by rw [hmask]; exact noise_not_site (by decide) (by decide) (by decide))
  have hcorr : ∀ θ θ' : SiteEnv ℝ, exchange (pairMasks L) θ θ' "corr_matrix" = θ "corr_matrix" := fun θ θ' =>
    exchange_other (by rw [hmask]; exact noise_not_site (by decide) (by decide) (by decide))
  have hnoise : ∀ θ θ' : SiteEnv ℝ, noisePart lkj ns conc ss.length (exchange (pairMasks L) θ θ')
      = noisePart lkj ns conc ss.length θ := by
    intro θ θ'
    unfold noisePart
    rw [hstd, hcorr]
  have d1 := hF lkj ns conc os prior θ σ 1 hz hsl hσs hσ hCs corrFactor_one
  have d2 := hF' lkj ns conc os prior θ' σ' 1 hz' hsl' hσs' hσ' hCs' corrFactor_one
  have d3 := hF lkj ns conc os prior θs σ 1 hzs (by rw [hθs, hstd]; exact hsl) (by rw [hθs, hstd]; exact hσs) hσ
    (by rw [hθs, hcorr]; exact hCs) corrFactor_one
  have d4 := hF' lkj ns conc os prior θs' σ' 1 hzs' (by rw [hθs', hstd]; exact hsl')
    (by rw [hθs', hstd]; exact hσs') hσ' (by rw [hθs', hcorr]; exact hCs') corrFactor_one
  -- the columns of the effects
  have hmodel : ∀ q ∈ lc, ∀ n ∈ q.2, ∃ d ∈ givenCols X, ∃ u ∈ ss, n = colName d u := by
    intro q hq n hnq
    obtain ⟨fe, hfe, rfl⟩ := List.mem_map.1 hq
    rcases hmc fe (List.mem_filter.1 hfe).1 n hnq with ⟨-, h2⟩ | ⟨d, hd, -, u, hu, rfl⟩
    · rw [hsh] at h2
      cases h2
    · exact ⟨d, hd, u, hu, rfl⟩
  have hns : ∀ d : String, d ∉ cfg.shared := by
    intro d
    rw [hsh]
    simp
  have hzero : ∀ {z : Frame String τ ℝ} {Z : Option (Frame String τ ℝ)} {u : List String} {t : τ}, u ∈ ss →
      OwnCopies (givenCols X) cfg.shared Z ss u t (cellAt z u t) →
      (u = a → ∀ q ∈ lc, ∀ n ∈ q.2, own n = false → cellAt z u t n = 0) ∧
      (u ≠ a → ∀ q ∈ lc, ∀ n ∈ q.2, own n = true → cellAt z u t n = 0) := by
    intro z Z u t hu hc
    constructor
    · rintro rfl q hq n hnq ho
      obtain ⟨d, hd, v, hv, rfl⟩ := hmodel q hq n hnq
      refine hc.other d hd (hns d) v hv ?_
      rintro rfl
      exact absurd ⟨d, hd, rfl⟩ (of_decide_eq_false ho)
    · intro hua q hq n hnq ho
      obtain ⟨d, hd, rfl⟩ := of_decide_eq_true ho
      exact hc.other d hd (hns d) a H.one (Ne.symm hua)
  have hagree : ∀ t ∈ ts, ∀ q ∈ lc, ∀ n ∈ q.2, cellAt x a t n = cellAt x' a t n := by
    intro t ht q hq n hnq
    have o := hown a H.one t ht
    have o' := hown' a H.one t ht
    rw [H.columns] at o'
    obtain ⟨d, hd, v, hv, rfl⟩ := hmodel q hq n hnq
    by_cases hva : v = a
    · rw [hva, o.own d hd (hns d), o'.own d hd (hns d), H.sameValues t ht d hd]
    · rw [o.other d hd (hns d) v hv hva, o'.other d hd (hns d) v hv hva]
  have hlen : ∀ q ∈ lc, (θ (q.1 ++ "/coefs")).data.length = q.2.length := by
    intro q hq
    obtain ⟨fe, hfe, rfl⟩ := List.mem_map.1 hq
    exact hz.coefs fe ((hier_kept h).1 hfe).1 ((hier_kept h).1 hfe).2
  have hlen' : ∀ q ∈ lc, (θ' (q.1 ++ "/coefs")).data.length = q.2.length := by
    intro q hq
    rw [← hkept] at hq
    obtain ⟨fe, hfe, rfl⟩ := List.mem_map.1 hq
    exact hz'.coefs fe ((hier_kept h').1 hfe).1 ((hier_kept h').1 hfe).2
  have ht' := hz'.trend
  rw [hcps] at ht'
  -- the two trends are the same function of the parameters
  have htrend : ∀ (θ : SiteEnv ℝ) u t, panelTrendAt days s' ss θ u t = panelTrendAt days s ss θ u t := by
    intro θ u t
    unfold panelTrendAt
    rw [hcps, htime]
  have hmean' : ∀ (θ : SiteEnv ℝ) (z : Frame String τ ℝ) u t,
      panelMean days (fun _ => "additive") s' ss (kept m'.fitted) z θ u t
        = panelMean days (fun _ => "additive") s ss (kept m.fitted) z θ u t := by
    intro θ z u t
    rw [panelMean_additive, panelMean_additive, hkept, htrend]
  have hsame : ∀ (θ : SiteEnv ℝ) t, t ∈ ts → panelMean days (fun _ => "additive") s ss (kept m.fitted) x θ a t
        = panelMean days (fun _ => "additive") s ss (kept m.fitted) x' θ a t := by
    intro θ t ht
    rw [panelMean_additive, panelMean_additive]
    congr 2
    refine List.map_congr_left fun q hq => ?_
    rw [List.map_congr_left fun n hnq => hagree t ht q hq n hnq]
  have mx : ∀ t ∈ ts, ∀ u ∈ ss, panelMean days (fun _ => "additive") s ss (kept m.fitted) x θs u t
      = if u = a then panelMean days (fun _ => "additive") s ss (kept m.fitted) x θ' u t
        else panelMean days (fun _ => "additive") s ss (kept m.fitted) x θ u t := fun t ht u hu =>
    mean_exchange hnd h.changepoints hsnd hz.trend ht' hlen hlen' hi
      ((hzero H.one (hown a H.one t ht)).1 rfl)
      (fun v hv hva => (hzero hv (hown v hv t ht)).2 hva) hu
  have mx' : ∀ t ∈ ts, ∀ u ∈ ss, panelMean days (fun _ => "additive") s ss (kept m.fitted) x' θs' u t
      = if u = a then panelMean days (fun _ => "additive") s ss (kept m.fitted) x' θ u t
        else panelMean days (fun _ => "additive") s ss (kept m.fitted) x' θ' u t := fun t ht u hu => by
    have hown'' : ∀ v ∈ ss, OwnCopies (givenCols X) cfg.shared X' ss v t (cellAt x' v t) := fun v hv => by
      have := hown' v hv t ht
      rwa [H.columns] at this
    exact mean_exchange hnd h.changepoints hsnd ht' hz.trend hlen' hlen hi
      ((hzero H.one (hown'' a H.one)).1 rfl)
      (fun v hv hva => (hzero hv (hown'' v hv)).2 hva) hu
  have hlik : hierLik days (fun _ => "additive") s ss ts (kept m.fitted) x obs σ 1 θs
      + hierLik days (fun _ => "additive") s' ss ts (kept m'.fitted) x' obs' σ' 1 θs'
      = hierLik days (fun _ => "additive") s ss ts (kept m.fitted) x obs σ 1 θ
      + hierLik days (fun _ => "additive") s' ss ts (kept m'.fitted) x' obs' σ' 1 θ' := by
    unfold hierLik
    refine lik_exchange hσ hσ' fun t ht k => ?_
    have hk := List.get_mem ss k
    simp only [hmean']
    rw [mx t ht _ hk, mx' t ht _ hk]
    by_cases hka : ss.get k = a
    · right
      rw [if_pos hka, if_pos hka, hka]
      exact ⟨hsame θ' t ht, (hsame θ t ht).symm, H.sameTarget t ht, hσσ k hka⟩
    · left
      rw [if_neg hka, if_neg hka]
      exact ⟨rfl, rfl⟩
  have hle' := hmax' θs' _ hzs' (by rw [hθs', hstd]) (by rw [hθs', hcorr]) d4
  rw [d1] at hl
  rw [d2] at hl'
  have hl := Except.ok.inj hl
  have hl' := Except.ok.inj hl'
  have hbs : BestPanel lkj ns conc os prior s m θs := by
    refine ⟨hzs, _, d3, fun θ'' l'' hz'' hq1 hq2 hd'' => ?_⟩
    have := hmax θ'' l'' hz'' (by rw [hq1, hθs, hstd]) (by rw [hq2, hθs, hcorr]) hd''
    rw [hθs', hnoise, ← hθs'] at hle'
    rw [hθs, hnoise, ← hθs]
    linarith
  obtain ⟨s₃, hs₃, huniq⟩ := C114_unique hV hM H.panel H.series h2 H.dates hb hb0 H.exog hcomp hfit
  rw [h.state] at hs₃
  cases hs₃
  obtain ⟨u1, u2, u3, u4⟩ := huniq lkj ns conc os prior hos hpr θ θs ⟨hz, l, by rw [d1, hl], hmax⟩ hbs
    (by rw [hθs, hstd]) (by rw [hθs, hcorr]) σ 1 hsl hσs hσ hCs corrFactor_one
  have hnm : ((pairMasks L).map Prod.fst).Nodup := by rw [hmask]; exact hsnd
  have hsite : ∀ e ∈ L, (θs e.name).data = pick e.own (θ e.name).data (θ' e.name).data :=
    fun e he => exchange_site hnm (e := (e.name, e.own)) (List.mem_map.2 ⟨e, he, rfl⟩)
  have so := hsite ⟨"offset", _, _, _⟩ (by rw [hL]; exact List.mem_cons_self)
  have sc := hsite ⟨"changepoint_coefficients", _, _, _⟩
    (by rw [hL]; exact List.mem_cons_of_mem _ List.mem_cons_self)
  have htx : ∀ t, panelTrendAt days s ss θs a t = panelTrendAt days s' ss θ' a t := by
    intro t
    rw [trend_exchange hnd h.changepoints hz.trend ht' hi so sc H.one t, if_pos rfl, htrend]
  refine ⟨?_, ?_, ?_, ?_⟩
  · intro k hk
    have hki : k = i := by
      obtain ⟨hkl, hke⟩ := List.getElem?_eq_some_iff.1 hk
      exact (List.Nodup.getElem_inj_iff hnd).1 (hke.trans hia.symm)
    subst hki
    have := congrArg (fun l : List ℝ => l[k]?) (u1.trans so)
    simp only at this
    rw [this, pick_get? (o := true) (by simp [hil]) (by simp [hz.trend.1, h.changepoints])
      (by simp [ht'.1, h.changepoints])]
    rfl
  · intro fe hfe k d hd hk
    have hne : fe.cols ≠ [] := by
      rintro h0
      rw [h0] at hk
      simp at hk
    have hq : nameCols fe ∈ lc := List.mem_map.2 ⟨fe, (hier_kept h).2 ⟨hfe, hne⟩, rfl⟩
    have scf := hsite ⟨fe.name ++ "/coefs", _, _, fe.cols.map own⟩ (by
      rw [hL]
      exact List.mem_cons_of_mem _ (List.mem_cons_of_mem _ (List.mem_map.2 ⟨_, hq, rfl⟩)))
    have := congrArg (fun l : List ℝ => l[k]?) ((u2 fe hfe hne).trans scf)
    simp only at this
    rw [this, pick_get? (o := true) ?_ ?_ ?_]
    · rfl
    · rw [List.getElem?_map, hk]
      simp only [Option.map_some, hownd]
      congr 1
      exact decide_eq_true ⟨d, hd, rfl⟩
    · rw [List.length_map]
      exact hlen _ hq
    · rw [List.length_map]
      exact hlen' _ hq
  · intro t ht
    rw [u3 a H.one t ht, htx]
  · intro hcov t
    rw [← htx]
    unfold panelTrendAt seriesCoefs
    rw [u1, u4 hcov]

/-- Coefficients matter where the row does not vanish. -/
theorem dot_support {f : String → ℝ} : ∀ {cols : List String} {β β' : List ℝ}, β.length = cols.length →
    β'.length = cols.length → (∀ (k : Nat) n, cols[k]? = some n → f n = 0 ∨ β[k]? = β'[k]?) →
    dot (cols.map f) β = dot (cols.map f) β'
  | [], [], [], _, _, _ => rfl
  | n :: cols, b :: β, b' :: β', h1, h2, h => by
    have ih := dot_support (f := f) (cols := cols) (β := β) (β' := β') (by simpa using h1) (by simpa using h2)
      fun k n hk => by simpa using h (k + 1) n (by simpa using hk)
    unfold dot at *
    simp only [List.map_cons, List.zipWith_cons_cons, List.sum_cons]
    rw [ih]
    rcases h 0 n rfl with h0 | h0
    · rw [h0]
      ring
    · simp only [List.getElem?_cons_zero, Option.some.injEq] at h0
      rw [h0]

/-- **C116**: so the forecasts of the series are the same as well, at the training dates and, if there
is a training date between any two changepoints, at all dates. -/
theorem C116_forecasts (hV : ValidHier days p cfg) (hM : Modes (fun _ => "additive") cfg) (hsh : cfg.shared = [])
    {b : ℝ} (hb : p.priorScale = .scalar b) (hb0 : 0 ≤ b)
    {a : List String} {ss : List (List String)} (h2 : 2 ≤ ss.length) {ts : List τ} {y y' : Frame String τ ℝ}
    {X X' : Option (Frame String τ ℝ)} {c c' : String} {obs obs' : List String → τ → ℝ}
    (H : SameHistory a ss ts y y' X X' c c' obs obs')
    (hn : PlainNames cfg.compile (givenCols X) cfg.shared ss)
    {m m' : HierFit (Option (PiecewiseState ℝ τ)) (Scale ℝ) τ (Tensor ℝ) ℝ} (hfit : hierFitData cfg y X = .ok m)
    (hfit' : hierFitData cfg y' X' = .ok m') :
    ∃ s s', m.trend.st.2 = some s ∧ m'.trend.st.2 = some s' ∧
      ∀ (lkj : Nat → ℝ → Tensor ℝ → ℝ) (ns conc os : ℝ) (prior : String → ℝ → ℝ), os ≠ 0 →
        (∀ n, StrictConcaveOn ℝ Set.univ (prior n)) → ∀ (θ θ' : SiteEnv ℝ),
        BestPanel lkj ns conc os prior s m θ → BestPanel lkj ns conc os prior s' m' θ' →
        ∀ (σ σ' : Fin ss.length → ℝ),
        (θ "std_observation").data.length = ss.length → VectorSite (θ "std_observation") σ → (∀ i, 0 < σ i) →
        (θ' "std_observation").data.length = ss.length → VectorSite (θ' "std_observation") σ' → (∀ i, 0 < σ' i) →
        MatrixSite (θ "corr_matrix") (1 : Matrix (Fin ss.length) (Fin ss.length) ℝ) →
        MatrixSite (θ' "corr_matrix") (1 : Matrix (Fin ss.length) (Fin ss.length) ℝ) →
        (∀ i, ss.get i = a → σ i = σ' i) →
      ∀ (y₁ y₁' : Frame String τ ℝ) (levels levels' : List (List String)) (X₁ X₁' : Option (Frame String τ ℝ))
        (fh : List τ), fh.Pairwise (· < ·) → GivenExog X₁ ss fh → (∀ d ∈ givenCols X, d ∈ givenCols X₁) →
        GivenExog X₁' ss fh → (∀ d ∈ givenCols X, d ∈ givenCols X₁') →
        (∀ t ∈ fh, ∀ d ∈ givenCols X, givenValue X₁ a t d = givenValue X₁' a t d) →
      ∀ td data td' data', hierPredictData cfg m levels y₁ X₁ fh = .ok (td, data) →
        hierPredictData cfg m' levels' y₁' X₁' fh = .ok (td', data') →
      ∀ st st', computeMean (m.trend.cls.call m.trend.st) td data (callsOf m.objs) θ = .ok st →
        computeMean (m'.trend.cls.call m'.trend.st) td' data' (callsOf m'.objs) θ' = .ok st' →
      ∀ (i j : Nat) (t : τ), ss[i]? = some a → fh[j]? = some t →
        (t ∈ ts ∨ ∀ cs ∈ s.cps, Covered (ts.map (s.time.scaled days)) cs) →
        st.mean.get? [i, j, 0] = st'.mean.get? [i, j, 0] := by
  obtain ⟨s, s', hs, hs', hsep⟩ := C116_separate hV hM hsh hb hb0 h2 H hn hfit hfit'
  refine ⟨s, s', hs, hs', ?_⟩
  intro lkj ns conc os prior hos hpr θ θ' hbest hbest' σ σ' hsl hσs hσ hsl' hσs' hσ' hCs hCs' hσσ y₁ y₁' levels levels'
    X₁ X₁' fh hinc hX₁ hsub hX₁' hsub' hval td data td' data' hp hp' st st' hst hst' i j t hi hj hcov
  obtain ⟨-, hcoef, ht1, ht2⟩ := hsep lkj ns conc os prior hos hpr θ θ' hbest hbest' σ σ' hsl hσs hσ hsl' hσs' hσ'
    hCs hCs' hσσ
  have hn' : PlainNames cfg.compile (givenCols X') cfg.shared ss := by rw [H.columns]; exact hn
  obtain ⟨x, x', s₁, s₁', h, h', -, -, -, -, -, -, -, hkept⟩ :=
    hier_same hV H.panel H.panel' H.column H.column' H.observed H.observed' H.series H.series' H.dates H.dates'
      H.exog H.exog' H.columns hn.compiles hfit hfit'
  obtain rfl : s = s₁ := Option.some.inj (hs.symm.trans h.state)
  obtain rfl : s' = s₁' := Option.some.inj (hs'.symm.trans h'.state)
  obtain ⟨s₂, hs₂, hmc, hF⟩ := C115_closed_form hV hM H.panel H.series (.inl (by omega)) H.dates H.exog hn hfit
  obtain ⟨s₂', hs₂', -, hF'⟩ := C115_closed_form hV hM H.panel' H.series' (.inl (by omega)) H.dates' H.exog' hn' hfit'
  rw [hs] at hs₂
  cases hs₂
  rw [hs'] at hs₂'
  cases hs₂'
  obtain ⟨val, hv, hm⟩ := hF y₁ levels X₁ fh hinc hX₁ hsub td data hp
  obtain ⟨val', hv', hm'⟩ := hF' y₁' levels' X₁' fh hinc hX₁' (by rw [H.columns]; exact hsub') td' data' hp'
  rw [hm θ st hbest.1.trend hst i j a t hi hj, hm' θ' st' hbest'.1.trend hst' i j a t hi hj]
  have htr : panelTrendAt days s ss θ a t = panelTrendAt days s' ss θ' a t := by
    rcases hcov with hc | hc
    · exact ht1 t hc
    · exact ht2 hc t
  have htf := List.mem_of_getElem? hj
  have o := hv a H.one t htf
  have o' := hv' a H.one t htf
  rw [H.columns] at o'
  have hns : ∀ d : String, d ∉ cfg.shared := by
    intro d
    rw [hsh]
    simp
  have key : ∀ (val : String → ℝ) (θ : SiteEnv ℝ) (l : List (FittedEffect (Option (PiecewiseState ℝ τ))
      (Frame String τ ℝ) (Scale ℝ) τ ℝ (Tensor ℝ) ℝ)) (T : ℝ),
      (l.map fun fe => combine "additive" T (dot (fe.cols.map val) (θ (fe.name ++ "/coefs")).data)).sum
        = ((l.map nameCols).map fun q => dot (q.2.map val) (θ (q.1 ++ "/coefs")).data).sum := by
    intro val θ l T
    rw [List.map_map]
    unfold combine
    simp only [if_true]
    rfl
  rw [htr, key, key, hkept]
  congr 3
  refine List.map_congr_left fun q hq => ?_
  have hq' := hq
  rw [← hkept] at hq'
  obtain ⟨fe, hfe, rfl⟩ := List.mem_map.1 hq
  obtain ⟨fe', hfe', he⟩ := List.mem_map.1 hq'
  have hl := hbest.1.coefs fe ((hier_kept h).1 hfe).1 ((hier_kept h).1 hfe).2
  have hl' := hbest'.1.coefs fe' ((hier_kept h').1 hfe').1 ((hier_kept h').1 hfe').2
  have he1 : fe'.name = fe.name := congrArg Prod.fst he
  have he2 : fe'.cols = fe.cols := congrArg Prod.snd he
  rw [he1, he2] at hl'
  have hmodel : ∀ n ∈ fe.cols, ∃ d ∈ givenCols X, ∃ u ∈ ss, n = colName d u := by
    intro n hnq
    rcases hmc fe ((hier_kept h).1 hfe).1 n hnq with ⟨-, h2⟩ | ⟨d, hd, -, u, hu, rfl⟩
    · exact absurd h2 (hns n)
    · exact ⟨d, hd, u, hu, rfl⟩
  show dot (fe.cols.map (val a t)) _ = dot (fe.cols.map (val' a t)) _
  rw [List.map_congr_left (f := val' a t) (g := val a t) (l := fe.cols) ?_]
  · refine dot_support hl hl' fun k n hk => ?_
    obtain ⟨d, hd, u, hu, rfl⟩ := hmodel n (List.mem_of_getElem? hk)
    by_cases hua : u = a
    · subst hua
      exact .inr (hcoef fe ((hier_kept h).1 hfe).1 k d hd hk)
    · exact .inl (o.other d hd (hns d) u hu hua)
  · intro n hnq
    obtain ⟨d, hd, u, hu, rfl⟩ := hmodel n hnq
    by_cases hua : u = a
    · rw [hua, o.own d hd (hns d), o'.own d hd (hns d), hval t htf d hd]
    · rw [o.other d hd (hns d) u hu hua, o'.other d hd (hns d) u hu hua]

/-! ## A case -/

/-- The panel `exY113` with other values for series `q`. -/
noncomputable def exY116 : Frame String ℤ ℝ :=
  ⟨2, ["y"], [("p", 0, 1), ("p", 1, 3), ("q", 0, 100), ("q", 1, -5)].map fun r => ⟨[r.1], r.2.1, fun _ => r.2.2⟩⟩

theorem exPanel116 : RegularPanel exY116 where
  wf := by
    intro r hr
    simp only [exY116, List.map_cons, List.map_nil, List.mem_cons, List.not_mem_nil, or_false] at hr
    rcases hr with rfl | rfl | rfl | rfl <;> rfl
  levels := by decide
  column := ⟨"y", rfl⟩
  ordered := by
    unfold TimeSorted exY116
    simp
  regular := by
    intro r hr r' hr'
    simp only [exY116, List.map_cons, List.map_nil, List.mem_cons, List.not_mem_nil, or_false] at hr hr'
    rcases hr with rfl | rfl | rfl | rfl <;> rcases hr' with rfl | rfl | rfl | rfl <;> simp [exY116]
  bottom := ⟨⟨["p"], 0, fun _ => 1⟩, by simp [exY116], by simp⟩
  twoDates := ⟨⟨["p"], 0, fun _ => 1⟩, by simp [exY116], ⟨["p"], 1, fun _ => 3⟩, by simp [exY116], by simp⟩

theorem exSeries116 : SeriesOf exY116 [["p"], ["q"]] where
  sorted := exSeries113.sorted
  mem := by
    intro s
    simp only [exY116, List.map_cons, List.map_nil, List.mem_cons, List.not_mem_nil, or_false,
      exists_eq_or_imp, exists_eq_left]
    constructor
    · rintro (rfl | rfl) <;> simp
    · rintro ⟨h, h' | h' | h' | h'⟩ <;> subst h' <;> simp

theorem exDates116 : DatesOf exY116 [0, 1] where
  sorted := by simp
  mem := by
    intro t
    simp only [exY116, List.map_cons, List.map_nil, List.mem_cons, List.not_mem_nil, or_false,
      exists_eq_or_imp, exists_eq_left]
    omega

theorem exSame116 : SameHistory ["p"] [["p"], ["q"]] [0, 1] exY113 exY116 (some exX113) (some exX113) "y" "y"
    (fun a t => cellAt exY113 a t "y") (fun a t => cellAt exY116 a t "y") where
  panel := exPanel113
  panel' := exPanel116
  column := rfl
  column' := rfl
  observed := fun r hr _ => cellAt_of_mem exPanel113.ordered hr (by simp [exY113])
  observed' := fun r hr _ => cellAt_of_mem exPanel116.ordered hr (by simp [exY116])
  series := exSeries113
  series' := exSeries116
  dates := exDates113
  dates' := exDates116
  exog := exExog113 (by simp) (by simp) (by simp)
  exog' := exExog113 (by simp) (by simp) (by simp)
  columns := rfl
  one := by simp
  sameTarget := by
    intro t ht
    simp only [List.mem_cons, List.not_mem_nil, or_false] at ht
    rcases ht with rfl | rfl <;> simp [cellAt, exY113, exY116]
  sameValues := fun _ _ _ _ => rfl

/-- The best fits have the same offset for series `p`, whatever the history and noise of `q`. -/
example : ∃ m m' s s' θ θ', hierFitData exCfg114 exY113 (some exX113) = .ok m ∧
    hierFitData exCfg114 exY116 (some exX113) = .ok m' ∧
    BestPanel (fun _ _ _ => 0) 1 1 (1 / 10) (fun _ => normalLP 0 1) s m θ ∧
    BestPanel (fun _ _ _ => 0) 1 1 (1 / 10) (fun _ => normalLP 0 1) s' m' θ' ∧
    θ "std_observation" = ⟨[2], [1, 2]⟩ ∧ θ' "std_observation" = ⟨[2], [1, 7]⟩ ∧
    (θ "offset").data[0]? = (θ' "offset").data[0]? := by
  have hX := exExog113 (ts := [0, 1]) (by simp) (by simp) (by simp)
  have k0 : MatrixSite ⟨[2, 2], [1, 0, 0, 1]⟩ (1 : Matrix (Fin 2) (Fin 2) ℝ) :=
    ⟨rfl, fun i j => by fin_cases i <;> fin_cases j <;> simp⟩
  have k1 : VectorSite (n := 2) ⟨[2], [1, 2]⟩ ![1, 2] := ⟨rfl, fun i => by fin_cases i <;> rfl⟩
  have k2 : ∀ i, (0 : ℝ) < ![1, 2] i := fun i => by fin_cases i <;> simp
  have k1' : VectorSite (n := 2) ⟨[2], [1, 7]⟩ ![1, 7] := ⟨rfl, fun i => by fin_cases i <;> rfl⟩
  have k2' : ∀ i, (0 : ℝ) < ![1, 7] i := fun i => by fin_cases i <;> simp
  obtain ⟨m, s, h1, hs, h⟩ := C114_exists exValid114 exModes114 exPanel113 exSeries113 (by simp) exDates113
    (b := 1 / 10) rfl (by norm_num) hX exPlain115.compiles
  obtain ⟨m', s', h1', hs', h'⟩ := C114_exists exValid114 exModes114 exPanel116 exSeries116 (by simp) exDates116
    (b := 1 / 10) rfl (by norm_num) hX exPlain115.compiles
  obtain ⟨θ, h2, h3, h4⟩ := h (fun _ _ _ => 0) 1 1 (1 / 10) (fun _ => normalLP 0 1) (by norm_num)
    (fun _ => continuous_normalLP 0 1) (fun _ => tendsto_normalLP 0 one_ne_zero) ⟨[2], [1, 2]⟩
    ⟨[2, 2], [1, 0, 0, 1]⟩ ![1, 2] 1 rfl k1 k2 k0 corrFactor_one
  obtain ⟨θ', h2', h3', h4'⟩ := h' (fun _ _ _ => 0) 1 1 (1 / 10) (fun _ => normalLP 0 1) (by norm_num)
    (fun _ => continuous_normalLP 0 1) (fun _ => tendsto_normalLP 0 one_ne_zero) ⟨[2], [1, 7]⟩
    ⟨[2, 2], [1, 0, 0, 1]⟩ ![1, 7] 1 rfl k1' k2' k0 corrFactor_one
  obtain ⟨s₁, s₁', hs₁, hs₁', hu⟩ := C116_separate exValid114 exModes114 rfl (b := 1 / 10) rfl (by norm_num) (by simp)
    exSame116 exPlain115 h1 h1'
  rw [hs] at hs₁
  cases hs₁
  rw [hs'] at hs₁'
  cases hs₁'
  refine ⟨m, m', s, s', θ, θ', h1, h1', h4, h4', h2, h2', ?_⟩
  exact (hu _ 1 1 (1 / 10) (fun _ => normalLP 0 1) (by norm_num) (fun _ => normalLP_strictConcave 0 one_ne_zero)
    θ θ' h4 h4' ![1, 2] ![1, 7] (by rw [h2]; rfl) (by rw [h2]; exact k1) k2 (by rw [h2']; rfl) (by rw [h2']; exact k1')
    k2' (by rw [h3]; exact k0) (by rw [h3']; exact k0) (by
      intro i hi
      fin_cases i
      · rfl
      · simp at hi)).1 0 rfl

end
end PV
