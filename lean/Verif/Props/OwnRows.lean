import Mathlib.Data.List.SplitLengths
import Verif.Props.Pointwise
import Verif.Props.SeriesOrder
import Verif.Spec.PanelPointwise

/-!
# C74: the mean of a series depends on the series' own rows of `X` only
-/

set_option linter.unusedSectionVars false

namespace PV
open Tensor

section
variable {S Y Sc τ V D K : Type}

theorem panelOf_wf (ss : List (List String)) (ts : List τ) (h : List String → τ → K) :
    (panelOf ss ts h).WF := by
  unfold panelOf WF
  simp only
  rw [length_flatMap_const _ _ ts.length (by simp)]
  simp [size]

theorem panelOf_get? {ss : List (List String)} {ts : List τ} {h : List String → τ → K} {i j : Nat}
    {s : List String} {t : τ} (hi : ss[i]? = some s) (hj : ts[j]? = some t) :
    (panelOf ss ts h).get? [i, j, 0] = some (h s t) := by
  obtain ⟨hil, hs⟩ := List.getElem?_eq_some_iff.1 hi
  obtain ⟨hjl, ht⟩ := List.getElem?_eq_some_iff.1 hj
  unfold panelOf get?
  simp only [ravel, size, Nat.mul_one, Nat.add_zero]
  rw [getElem?_flatMap_const ss (fun s => ts.map (h s)) ts.length (by simp) i j hil hjl, hs,
    List.getElem?_map, hj]
  rfl

theorem eq_panelOf_of_get? {v : Tensor K} {ss : List (List String)} {ts : List τ}
    {h : List String → τ → K} (hw : v.WF) (hs : v.shape = [ss.length, ts.length, 1])
    (hg : ∀ i s j t, ss[i]? = some s → ts[j]? = some t → v.get? [i, j, 0] = some (h s t)) :
    v = panelOf ss ts h := by
  refine ext_of_get? hw (panelOf_wf ss ts h) hs fun idx hi => ?_
  rw [hs] at hi
  match idx, hi with
  | [i, j, k], ⟨hi, hj, hk, _⟩ =>
    have hk0 : k = 0 := by omega
    subst hk0
    rw [hg i _ j _ (List.getElem?_eq_getElem hi) (List.getElem?_eq_getElem hj),
      panelOf_get? (List.getElem?_eq_getElem hi) (List.getElem?_eq_getElem hj)]

theorem timeSorted_iff [LT τ] {x : Frame String τ V} :
    TimeSorted x ↔ x.index.Pairwise fun a b => a.1 = b.1 → a.2 < b.2 := by
  unfold TimeSorted Frame.index
  rw [List.pairwise_map]

theorem series_congr_index {W : Type} {x : Frame String τ V} {x' : Frame String τ W}
    (hi : x'.index = x.index) : x'.series = x.series := by
  have key : ∀ {U : Type} (f : Frame String τ U), f.rows.map Row.sid = f.index.map Prod.fst := by
    intro U f
    simp [Frame.index]
  unfold Frame.series
  rw [key, key, hi]

theorem PanelIn.congr [LT τ] {W : Type} {x : Frame String τ V} {x' : Frame String τ W}
    {ss : List (List String)} {fh : List τ} (h : PanelIn x ss fh) (hi : x'.index = x.index)
    (hn : x'.nlevels = x.nlevels) : PanelIn x' ss fh where
  panel := by rw [hn]; exact h.panel
  someSeries := h.someSeries
  series := by
    intro i s
    rw [h.series, seriesAt_iff, seriesAt_iff, series_congr_index hi]
  grouped := by
    have key : ∀ {i : Nat} {a : Row String τ W}, x'.rows[i]? = some a →
        ∃ b, x.rows[i]? = some b ∧ b.sid = a.sid := by
      intro i a ha
      have h1 : x'.index[i]? = some (a.sid, a.time) := by
        unfold Frame.index
        rw [List.getElem?_map, ha]; rfl
      rw [hi] at h1
      unfold Frame.index at h1
      rw [List.getElem?_map, Option.map_eq_some_iff] at h1
      obtain ⟨b, hb, he⟩ := h1
      exact ⟨b, hb, congrArg Prod.fst he⟩
    intro i j k a b c hij hjk ha hb hc hac
    obtain ⟨a', ha', ea⟩ := key ha
    obtain ⟨b', hb', eb⟩ := key hb
    obtain ⟨c', hc', ec⟩ := key hc
    have := h.grouped i j k a' b' c' hij hjk ha' hb' hc' (by rw [ea, ec, hac])
    rw [← eb, this, ea]
  sorted := by rw [timeSorted_iff, hi, ← timeSorted_iff]; exact h.sorted
  horizon := h.horizon
  someDate := h.someDate
  covers := by
    intro s hs t ht
    obtain ⟨r, hr, h1, h2⟩ := h.covers s hs t ht
    have : (s, t) ∈ x'.index := by
      rw [hi]
      exact List.mem_map.2 ⟨r, hr, by rw [h1, h2]⟩
    obtain ⟨r', hr', he⟩ := List.mem_map.1 this
    cases he
    exact ⟨r', hr', rfl, rfl⟩

theorem PanelIn.series_eq [LT τ] {x : Frame String τ V} {ss : List (List String)} {fh : List τ}
    (h : PanelIn x ss fh) : x.series = ss := by
  apply List.ext_getElem?
  intro i
  apply Option.ext
  intro s
  rw [h.series i s, seriesAt_iff]

theorem select_cols {x xc : Frame String τ V} {cs : List String} (h : x.select cs = .ok xc) :
    xc = { x with cols := cs } := by
  unfold Frame.select at h
  split at h
  · cases h; rfl
  · cases h

theorem PanelIn.select [LT τ] {x xc : Frame String τ V} {ss : List (List String)} {fh : List τ}
    {cs : List String} (h : PanelIn x ss fh) (hs : x.select cs = .ok xc) : PanelIn xc ss fh := by
  rw [select_cols hs]
  exact h.congr rfl rfl

theorem cellAt_select [DecidableEq τ] [Zero V] {x xc : Frame String τ V} {cs : List String}
    (hs : x.select cs = .ok xc) (s : List String) (t : τ) :
    cellAt xc s t = onCols cs (cellAt x s t) := by
  have hsub : ∀ c ∈ cs, c ∈ x.cols := by
    unfold Frame.select at hs
    split at hs
    · assumption
    · cases hs
  rw [select_cols hs]
  funext c
  unfold cellAt onCols
  by_cases hc : c ∈ cs
  · simp only [if_pos hc, if_pos (hsub c hc)]
  · simp only [if_neg hc]

/-- **C74**: if trend and effects are computed cell by cell, the mean of a series at a date is the
trend there plus the effects computed from the trend and the values of `X` there. -/
theorem C74_closed_form [AddCommGroup K] [LinearOrder τ] [Zero V]
    {trend : EffectObj S Y Sc τ V D K} {Ok : SiteEnv K → Prop} {ss : List (List String)}
    {g : SiteEnv K → List String → τ → K} (ht : PanelTrend trend Ok ss g)
    {fitted : List (FittedEffect S Y Sc τ V D K)}
    {f : FittedEffect S Y Sc τ V D K → SiteEnv K → List String → τ → K → (String → V) → K}
    (hf : ∀ fe ∈ kept fitted, PanelEffect fe.effect (f fe))
    (hn : (fitted.map FittedEffect.name).Nodup) (htr : "trend" ∉ fitted.map FittedEffect.name)
    {x : Frame String τ V} {fh : List τ} (hx : PanelIn x ss fh) {td : Transformed D}
    {data : PyDict (Transformed D)} (h1 : trend.transform (some x) fh = .ok td)
    (h2 : transformEffects fitted x fh = .ok data)
    {objs : PyDict (EffectObj S Y Sc τ V D K)} (ho : nonSkipped fitted = .ok objs)
    {θ : SiteEnv K} (hθ : Ok θ) {st : MeanState K}
    (hm : computeMean (trend.cls.call trend.st) td data (callsOf objs) θ = .ok st) :
    st.mean = panelOf ss fh fun s t => g θ s t + ((kept fitted).map fun fe =>
      f fe (θ.scope fe.name) s t (g θ s t) (onCols fe.cols (cellAt x s t))).sum := by
  obtain ⟨trv, -, htv, -⟩ := C17_own_data hn htr h2 ho hm
  have htc := ht θ x fh td trv hθ hx h1 htv
  obtain ⟨hsh, hw, hget⟩ := mean_entries hn htr h2 ho hm htv (by rw [htc]; exact panelOf_wf _ _ _)
    (val := fun fe => panelOf ss fh fun s t =>
      f fe (θ.scope fe.name) s t (g θ s t) (onCols fe.cols (cellAt x s t)))
    (by
      intro fe hfe xc d p v hxc htd hp hcall
      rw [hf fe hfe _ xc ss fh d _ (g θ) _ (hx.select hxc) htd (by rw [hp, htc]) hcall]
      simp only [cellAt_select hxc])
    (by intro fe _; rw [htc]; simp [panelOf])
  refine eq_panelOf_of_get? hw (by rw [hsh, htc]; simp [panelOf]) ?_
  intro i s j t hi hj
  have hil := (List.getElem?_eq_some_iff.1 hi).1
  have hjl := (List.getElem?_eq_some_iff.1 hj).1
  rw [hget [i, j, 0] (by rw [htc]; exact ⟨hil, hjl, by simp, trivial⟩), htc, panelOf_get? hi hj]
  simp only [panelOf_get? hi hj, Option.getD_some]

/-! ## Built-in effects -/

/-- The call of an additive or multiplicative effect, when the trend is not one-dimensional. -/
theorem addMul_call [Mul K] [Zero K] {mode : String} {raw : EffectCall D K} {θ : SiteEnv K} {d : D}
    {p : PyDict (Tensor K)} {trv v : Tensor K} (hnd : trv.ndim ≠ 1) (hw : trv.WF)
    (hp : p.get? "trend" = some trv) (hv : AddMul.call ⟨mode, raw⟩ θ d p = .ok v) :
    ∃ w, raw θ d p = .ok w ∧ w.data.length = size trv.shape ∧
      v = ⟨trv.shape, if mode = "additive" then w.data
        else List.zipWith (· * ·) trv.data w.data⟩ := by
  unfold AddMul.call AddMul.predict basePredict at hv
  simp only [PyDict.getItem, hp, bind, Except.bind, trendAsColumn, Option.getD_some] at hv
  rw [if_neg hnd] at hv
  simp only at hv
  cases hr : raw θ d p with
  | error e => rw [hr] at hv; cases hv
  | ok w =>
    rw [hr] at hv
    simp only [reshape] at hv
    by_cases hl : w.data.length = size trv.shape
    · rw [if_pos hl] at hv
      simp only at hv
      refine ⟨w, rfl, hl, ?_⟩
      by_cases hmode : mode = "additive"
      · rw [if_pos hmode] at hv ⊢
        cases hv
        rfl
      · rw [if_neg hmode] at hv ⊢
        rw [binop_same_eq _ hw (show (⟨trv.shape, w.data⟩ : Tensor K).WF from hl) rfl] at hv
        cases hv
        rfl
    · rw [if_neg hl] at hv
      cases hv

theorem cellAt_of_mem [LinearOrder τ] [Zero V] {x : Frame String τ V} (hs : TimeSorted x)
    {r : Row String τ V} (hr : r ∈ x.rows) {c : String} (hc : c ∈ x.cols) :
    cellAt x r.sid r.time c = r.val c := by
  unfold cellAt
  rw [if_pos hc]
  have : x.rows.find? (fun r' => decide (r'.sid = r.sid ∧ r'.time = r.time)) = some r := by
    unfold TimeSorted at hs
    revert hs hr
    generalize x.rows = l
    intro hs hr
    induction l with
    | nil => cases hr
    | cons a l ih =>
      rw [List.find?_cons]
      rcases List.mem_cons.1 hr with rfl | h
      · simp
      · have : ¬ (a.sid = r.sid ∧ a.time = r.time) := fun ⟨h1, h2⟩ =>
          absurd h2 ((List.pairwise_cons.1 hs).1 r h h1).ne
        simp only [this, decide_false]
        exact ih (List.pairwise_cons.1 hs).2 h
  rw [this]
  rfl

/-- The array of the selected columns of a panel at the horizon: one row per cell. -/
theorem panel_data [LinearOrder τ] [Zero V] {x : Frame String τ V} {ss : List (List String)}
    {fh : List τ} (hx : PanelIn x ss fh) {cs : List String} (hsub : ∀ c ∈ cs, c ∈ x.cols)
    {d : Tensor V}
    (h : ({ x.filterTimes fh with cols := cs } : Frame String τ V).seriesToTensorOrArray = .ok d) :
    d = ⟨[ss.length, fh.length] ++ [cs.length],
      (ss.flatMap fun s => fh.map fun t => cs.map (cellAt x s t)).flatten⟩ := by
  set f : Frame String τ V := { x.filterTimes fh with cols := cs } with hf
  have hss := hx.series_eq
  have hrowsOf : ∀ s, f.rowsOf s = (x.rowsOf s).filter fun r => r.time ∈ fh := fun s =>
    rowsOf_filterTimes x fh s
  have htimes : ∀ s ∈ ss, (f.rowsOf s).map Row.time = fh := by
    intro s hs
    rw [hrowsOf]
    apply times_filtered (rowsOf_sorted hx.sorted s) hx.horizon
    intro t ht
    obtain ⟨r', hr', hsid, htm⟩ := hx.covers s hs t ht
    exact ⟨r', List.mem_filter.2 ⟨hr', by simp [hsid]⟩, htm⟩
  have hser : f.series = ss := by
    rw [← hss]
    show unique ((x.rows.filter fun r => r.time ∈ fh).map Row.sid) = unique (x.rows.map Row.sid)
    rw [unique_filter_grouped Row.sid _ x.rows hx.grouped.list, List.filter_eq_self]
    intro s hs
    obtain ⟨t, ht⟩ := List.exists_mem_of_ne_nil _ hx.someDate
    obtain ⟨r', hr', hsid, htm⟩ := hx.covers s (by rw [← hss]; exact hs) t ht
    rw [List.any_eq_true]
    exact ⟨r', hr', by simp [hsid, htm, ht]⟩
  have hlen : ∀ s ∈ ss, (f.rowsOf s).length = fh.length := by
    intro s hs
    rw [← htimes s hs, List.length_map]
  have hfrows : f.rows ≠ [] := by
    obtain ⟨s, hs⟩ := List.exists_mem_of_ne_nil _ hx.someSeries
    rw [← hser] at hs
    obtain ⟨r', hr', -⟩ := mem_series.1 hs
    exact List.ne_nil_of_mem hr'
  unfold Frame.seriesToTensorOrArray at h
  rw [if_neg (show f.nlevels ≠ 1 from hx.panel)] at h
  have hcs : f.cols ≠ [] := by
    intro hc
    unfold Frame.seriesToTensor at h
    rw [if_pos hc] at h
    cases h
  have hvals : ∀ s ∈ ss, f.flatVals (f.rowsOf s) = (fh.map fun t => cs.map (cellAt x s t)).flatten := by
    intro s hs
    unfold Frame.flatVals
    rw [List.flatMap_def]
    congr 1
    rw [← htimes s hs, List.map_map]
    refine List.map_congr_left fun r hr => ?_
    rw [hrowsOf] at hr
    have hr1 := List.mem_filter.1 (List.mem_of_mem_filter hr)
    have hsid : r.sid = s := by simpa using hr1.2
    refine List.map_congr_left fun c hc => ?_
    rw [← hsid]
    exact (cellAt_of_mem hx.sorted hr1.1 (hsub c hc)).symm
  rcases seriesToTensor_panel (f := f) hx.panel hfrows hcs with ⟨T, hT, he⟩ | ⟨-, he⟩
  · rw [he] at h
    cases h
    obtain ⟨s, hs⟩ := List.exists_mem_of_ne_nil _ hx.someSeries
    rw [← hT s (by rw [hser]; exact hs), hlen s hs, hser]
    congr 1
    clear he hT hs htimes hlen hser hss hx
    induction ss with
    | nil => rfl
    | cons a ss ih =>
      rw [List.flatMap_cons, List.flatMap_cons, List.flatten_append, hvals a (by simp),
        ih fun s hs => hvals s (by simp [hs])]
  · rw [he] at h
    cases h

/-- The value of an additive or multiplicative effect in one cell: from the values of `X` and the
trend. -/
def cellValue [Ring K] (mode : String) (cols : List String) (ρ : SiteEnv K → List K → List K)
    (θ : SiteEnv K) (_ : List String) (_ : τ) (a : K) (r : String → K) : K :=
  let v := (ρ θ (cols.map r)).headD 0
  if mode = "additive" then v else a * v

/-- The data of an effect that is fitted and whose call needs data. -/
theorem effect_data [DecidableEq τ] {e : EffectObj S Y Sc τ V D K} {x : Frame String τ V}
    {fh : List τ} {d : Transformed D} (hfl : e.cls.tags.filterFh = true)
    (htr : e.transform (some x) fh = .ok d) (hne : d ≠ .emptyDict) :
    ∃ cs d', e.st.1.inputCols = some cs ∧ (∀ c ∈ cs, c ∈ x.cols) ∧ d = .data d' ∧
      e.cls.transform e.st.2 { x.filterTimes fh with cols := cs } fh = .ok d' := by
  unfold EffectObj.transform at htr
  rcases hst : e.st.1 with ⟨ic, isf⟩
  have hbad : (ic = none ∨ isf ≠ some true) → False := by
    intro hb
    unfold baseTransform shouldSkip at htr
    rw [hst] at htr
    match ic, isf, hb with
    | _, none, _ => cases htr
    | _, some false, _ => cases htr
    | none, some true, _ => cases htr
    | some _, some true, hb => simp at hb
  match ic, isf, hst, hbad with
  | _, none, _, hbad => exact (hbad (by simp)).elim
  | _, some false, _, hbad => exact (hbad (by simp)).elim
  | none, some true, _, hbad => exact (hbad (by simp)).elim
  | some cs, some true, hst, _ =>
    rw [baseTransform_eq _ hst] at htr
    split at htr
    · cases htr
      exact absurd rfl hne
    · split at htr
      · rename_i hsub
        simp only [hfl, if_true] at htr
        cases ht : e.cls.transform e.st.2 { x.filterTimes fh with cols := cs } fh with
        | error er => rw [ht] at htr; cases htr
        | ok d' =>
          rw [ht] at htr
          cases htr
          exact ⟨cs, d', rfl, hsub, rfl, ht⟩
      · cases htr

/-- **C74**, effects: an additive or multiplicative effect that works on one row of its data at a
time is computed cell by cell. -/
theorem C74_effect [Ring K] [LinearOrder τ] {e : EffectObj S Y Sc τ K (Tensor K) K}
    {mode : String} {raw : EffectCall (Transformed (Tensor K)) K} {ρ : SiteEnv K → List K → List K}
    (hfl : e.cls.tags.filterFh = true)
    (htf : ∀ s x fh, e.cls.transform s x fh = x.seriesToTensorOrArray)
    (hcall : ∀ st, e.cls.call st = AddMul.call ⟨mode, raw⟩) (hraw : RowWiseRaw raw ρ) :
    PanelEffect e (cellValue mode (e.st.1.inputCols.getD []) ρ) := by
  intro θ x ss fh d p tr v hx htr hp hv
  rw [hcall] at hv
  obtain ⟨w, hw, hwl, rfl⟩ := addMul_call (by simp [ndim, panelOf]) (panelOf_wf ss fh tr) hp hv
  obtain ⟨cs, d', hcs, hsub, rfl, hd⟩ := effect_data hfl htr (by
    rintro rfl
    exact hraw.noData θ p w hw)
  rw [htf] at hd
  rw [panel_data hx hsub hd] at hw
  set rows := ss.flatMap fun s => fh.map fun t => cs.map (cellAt x s t) with hrows
  have hrl : rows.length = ss.length * fh.length := by
    rw [hrows, length_flatMap_const _ _ fh.length (by simp)]
  have hrc : ∀ r ∈ rows, r.length = cs.length := by
    intro r hr
    obtain ⟨s, -, hr⟩ := List.mem_flatMap.1 hr
    obtain ⟨t, -, rfl⟩ := List.mem_map.1 hr
    simp
  have hdat := hraw.rows θ [ss.length, fh.length] rows _ p w (by simp [size, hrl]) hrc hw
  have hwl' : w.data.length = rows.length := by
    rw [hwl, hrl]
    simp [panelOf, size]
  have hone : ∀ r ∈ rows, (ρ θ r).length = 1 := by
    intro r hr
    have hlen : w.data.length = rows.length * (ρ θ r).length := by
      rw [hdat, length_flatMap_const _ _ (ρ θ r).length]
      intro r' hr'
      exact hraw.lengths _ _ _ ((hrc r' hr').trans (hrc r hr).symm)
    rw [hwl'] at hlen
    have hpos : 0 < rows.length := List.length_pos_of_mem hr
    exact (Nat.eq_of_mul_eq_mul_left hpos (by rw [Nat.mul_one]; exact hlen)).symm
  rw [flatMap_eq_map hone] at hdat
  unfold panelOf cellValue
  simp only [hcs, Option.getD_some, hdat, hrows]
  congr 1
  split
  · simp [List.map_flatMap, Function.comp_def]
  · clear hrows hdat hone hwl' hrc hrl hw hd hv hx hp htr hwl rows
    induction ss with
    | nil => rfl
    | cons a ss ih =>
      simp only [List.flatMap_cons, List.map_append]
      rw [List.zipWith_append (by simp), ih]
      congr 1
      simp [List.zipWith_map, List.zipWith_self, Function.comp_def]

end

/-! ## The piecewise trend -/

section
variable {K τ V : Type} [Field K] [LinearOrder K] [IsStrictOrderedRing K] [FloorSemiring K]
  [LinearOrder τ]

/-- The coefficients of the changepoints, series by series. -/
def seriesCoefs (cps : List (List K)) (θ : SiteEnv K) : List (List K) :=
  (cps.map List.length).splitLengths (θ "changepoint_coefficients").data

/-- The trend of a series at a date: from its own offset, changepoints and coefficients. -/
def panelTrendAt (days : τ → K) (st : PiecewiseState K τ) (ss : List (List String)) (θ : SiteEnv K)
    (s : List String) (t : τ) : K :=
  trendAt rampEntry ((θ "offset").data.getD (ss.idxOf s) 0) (st.cps.getD (ss.idxOf s) [])
    ((seriesCoefs st.cps θ).getD (ss.idxOf s) []) (st.time.scaled days t)

/-- The sites of a piecewise trend over several series: one offset per series and one coefficient
per changepoint. -/
def PanelSites (cps : List (List K)) (θ : SiteEnv K) : Prop :=
  (θ "offset").data.length = cps.length ∧
    (θ "changepoint_coefficients").data.length = (cps.map List.length).sum

theorem unique_append_of_subset {α : Type} [DecidableEq α] (l m : List α) (h : ∀ a ∈ m, a ∈ l) :
    unique (l ++ m) = unique l := by
  induction m using List.reverseRecOn with
  | nil => rw [List.append_nil]
  | append_singleton m a ih =>
    rw [← List.append_assoc, unique_snoc, if_pos (List.mem_append_left _ (h a (by simp)))]
    exact ih fun b hb => h b (by simp [hb])

theorem fhTimes_panel {ss : List (List String)} (hss : ss ≠ []) {fh : List τ} (hf : fh.Nodup) :
    fhTimes (some ss) fh = fh := by
  match ss, hss with
  | s :: ss, _ =>
    unfold fhTimes product
    simp only [List.flatMap_cons, List.map_append, List.map_map, Function.comp_def, List.map_id']
    rw [unique_append_of_subset, unique_of_nodup hf]
    intro a ha
    simp only [List.mem_map, List.mem_flatMap] at ha
    obtain ⟨p, ⟨s', -, t, ht, rfl⟩, rfl⟩ := ha
    exact ht

/-- The values of the trend; `X` has no influence on them. -/
theorem piecewise_cells {days : τ → K} {suggest : List K → Tensor K → PyM (List K × List K)}
    {p : PiecewiseParams K τ} {e : EffectObj _ _ _ τ V _ K}
    (hc : e.cls = piecewiseClass days suggest piecewisePredict p)
    {st : PiecewiseState K τ} (hst : e.st.2 = some st) {ss : List (List String)} (hnd : ss.Nodup)
    (hser : st.series = some ss) (hcps : st.cps.length = ss.length)
    (hns : st.time.nSeries = ss.length) (hsq : ss.length ≠ 1 ∨ p.squeeze = false) :
    ∀ θ x fh d v, PanelSites st.cps θ → ss ≠ [] → fh.Pairwise (· < ·) → e.transform (some x) fh = .ok d →
      e.cls.call e.st θ d [] = .ok v → v = panelOf ss fh (panelTrendAt days st ss θ) := by
  intro θ x fh d v hθ hne hinc ht hv
  obtain ⟨cols, m, rfl, hm⟩ := trend_transform_data (by rw [hc]; rfl) (by rw [hc]; rfl) ht
  rw [hc, hst] at hm
  rw [hc] at hv
  simp only [piecewiseClass, hst] at hm hv
  unfold piecewiseTransform at hm
  rw [hser, fhTimes_panel hne (hinc.imp ne_of_lt)] at hm
  obtain ⟨ho, hb⟩ := hθ
  have hlens : (seriesCoefs st.cps θ).map List.length = st.cps.map List.length :=
    List.map_splitLengths_length _ _ (by rw [hb])
  obtain ⟨r, h1, h2, h3, h4⟩ := piecewisePredict_panel (n := st.time.nSeries) (θ := θ) (p := [])
    (βs := seriesCoefs st.cps θ) hm (by rw [hcps]; exact hsq) (by rw [hns]; exact hsq)
    (by
      rw [List.forall₂_iff_get]
      have hl : st.cps.length = (seriesCoefs st.cps θ).length := by
        have := congrArg List.length hlens
        simpa using this.symm
      refine ⟨hl, fun i h h' => ?_⟩
      have := congrArg (fun l => l[i]?) hlens
      simp only [List.getElem?_map, List.getElem?_eq_getElem h, List.getElem?_eq_getElem h',
        Option.map_some, Option.some.injEq] at this
      exact this.symm)
    (List.flatten_splitLengths _ _ (by rw [hb])).symm rfl ho
  rw [h1] at hv
  cases hv
  refine eq_panelOf_of_get? h3 (by rw [h2, hcps, List.length_map]) ?_
  intro i s j t hi hj
  obtain ⟨hil, rfl⟩ := List.getElem?_eq_some_iff.1 hi
  have hidx : ss.idxOf ss[i] = i := hnd.idxOf_getElem i hil
  have hcl : i < st.cps.length := by omega
  have hsl : i < (seriesCoefs st.cps θ).length := by
    have := congrArg List.length hlens
    simp only [List.length_map] at this
    omega
  rw [h4 i j st.cps[i] (seriesCoefs st.cps θ)[i] (θ "offset").data[i] (st.time.scaled days t)
    (List.getElem?_eq_getElem hcl) (List.getElem?_eq_getElem hsl)
    (List.getElem?_eq_getElem (by omega)) (by rw [List.getElem?_map, hj]; rfl)]
  unfold panelTrendAt
  rw [hidx, List.getD_eq_getElem _ _ (by omega), List.getD_eq_getElem _ _ hcl,
    List.getD_eq_getElem _ _ hsl]

/-- **C74**, piecewise linear trend over several series: computed cell by cell. -/
theorem C74_piecewise {days : τ → K} {suggest : List K → Tensor K → PyM (List K × List K)}
    {p : PiecewiseParams K τ} {e : EffectObj _ _ _ τ V _ K}
    (hc : e.cls = piecewiseClass days suggest piecewisePredict p)
    {st : PiecewiseState K τ} (hst : e.st.2 = some st) {ss : List (List String)} (hnd : ss.Nodup)
    (hser : st.series = some ss) (hcps : st.cps.length = ss.length)
    (hns : st.time.nSeries = ss.length) (hsq : ss.length ≠ 1 ∨ p.squeeze = false) :
    PanelTrend e (PanelSites st.cps) ss (panelTrendAt days st ss) :=
  fun θ x fh d v hθ hx ht hv =>
    piecewise_cells hc hst hnd hser hcps hns hsq θ x fh d v hθ hx.someSeries hx.horizon ht hv

theorem changepointsAll_length {t : List K} : ∀ {ps : List (K × K)} {cps : List (List K)},
    changepointsAll t ps = .ok cps → cps.length = ps.length
  | [], cps, h => by cases h; rfl
  | p :: ps, cps, h => by
    unfold changepointsAll at h
    simp only [bind, Except.bind] at h
    split at h
    · cases h
    split at h
    · cases h
    rename_i cs hcs
    cases h
    simp [changepointsAll_length hcs]

/-- **C74**: the piecewise linear trend fitted on a panel of at least two series, with the same
interval and range for all series, is computed cell by cell. -/
theorem C74_piecewise_fitted {days : τ → K} {suggest : List K → Tensor K → PyM (List K × List K)}
    {p : PiecewiseParams K τ} {i r : K} (hi : p.interval = .scalar i) (hr : p.range = .scalar r)
    {y : Frame String τ K} (hy : 1 < y.nlevels) (hmany : y.series.length ≠ 1 ∨ p.squeeze = false)
    {X : Option (Frame String τ V)} {sc : Scale K} {e : EffectObj _ _ _ τ V _ K}
    (h : ((piecewiseClass (V := V) days suggest piecewisePredict p).new).fit y X sc = .ok e) :
    ∃ st, e.st.2 = some st ∧ st.cps.length = y.series.length ∧
      PanelTrend e (PanelSites st.cps) y.series (panelTrendAt days st y.series) := by
  obtain ⟨hcls, s, hs, hfit⟩ : e.cls = piecewiseClass days suggest piecewisePredict p ∧
      ∃ s, e.st.2 = some s ∧ piecewiseFit days suggest p y = .ok s := by
    unfold EffectObj.fit baseFit at h
    rw [if_neg (by rintro ⟨h1, -⟩; cases h1)] at h
    simp only [bind, Except.bind, EffectClass.new] at h
    cases hp : piecewiseFit days suggest p y with
    | error err =>
      simp only [piecewiseClass, hp, Except.map] at h
      cases h
    | ok s =>
      simp only [piecewiseClass, hp, Except.map] at h
      cases h
      exact ⟨rfl, s, rfl, rfl⟩
  obtain ⟨tt, cps, htt, hcps, hs1, hs2, hs3⟩ : ∃ tt cps, trendTimeFit days y = .ok tt ∧
      setupChangepoints ((unique y.times).map (tt.scaled days)) tt.nSeries p.interval p.range
        = .ok cps ∧ s.cps = cps ∧ s.series = some y.series ∧ s.time = tt := by
    unfold piecewiseFit at hfit
    simp only [bind, Except.bind] at hfit
    split at hfit
    · cases hfit
    rename_i tt htt
    split at hfit
    · cases hfit
    rename_i cps hcps
    split at hfit
    · cases hfit
    split at hfit
    · cases hfit
    split at hfit
    · cases hfit
    cases hfit
    exact ⟨tt, cps, htt, hcps, rfl, by simp [hy], rfl⟩
  have hns : tt.nSeries = y.series.length := by
    unfold trendTimeFit at htt
    split at htt
    · cases htt
    · simp only at htt
      split at htt
      · cases htt
      · cases htt
        simp [nSeriesOf, hy]
  rw [hi, hr, hns] at hcps
  have hl := changepointsAll_length hcps
  simp only [ScalarOr.toList, List.length_zip, List.length_replicate, Nat.min_self] at hl
  rw [← hs1] at hl
  exact ⟨s, hs, hl, C74_piecewise hcls hs (nodup_unique _) hs2 hl (by rw [hs3, hns]) hmany⟩

end

/-! ## The forecaster -/

section
variable {τ V : Type} [LinearOrder τ]

/-- Values in cells after the rows were changed one by one. -/
theorem cellAt_map [Zero V] {x z : Frame String τ V} {h : Row String τ V → String → V}
    (hz : z.rows = x.rows.map fun r => { r with val := h r }) {s : List String} {t : τ}
    {r : Row String τ V} (hr : x.rows.find? (fun r => decide (r.sid = s ∧ r.time = t)) = some r)
    {n : String} (hn : n ∈ z.cols) : cellAt z s t n = h r n := by
  unfold cellAt
  rw [if_pos hn, hz, List.find?_map]
  have : ((fun r : Row String τ V => decide (r.sid = s ∧ r.time = t)) ∘
      fun r : Row String τ V => ({ r with val := h r } : Row String τ V))
      = fun r : Row String τ V => decide (r.sid = s ∧ r.time = t) := rfl
  rw [this, hr]
  rfl

theorem find_of_covers {x : Frame String τ V} {ss : List (List String)} {fh : List τ}
    (hx : PanelIn x ss fh) {s : List String} (hs : s ∈ ss) {t : τ} (ht : t ∈ fh) :
    ∃ r, x.rows.find? (fun r => decide (r.sid = s ∧ r.time = t)) = some r := by
  obtain ⟨r, hr, h1, h2⟩ := hx.covers s hs t ht
  cases h : x.rows.find? (fun r => decide (r.sid = s ∧ r.time = t)) with
  | some r' => exact ⟨r', rfl⟩
  | none =>
    rw [List.find?_eq_none] at h
    exact absurd (by simp [h1, h2]) (h r hr)

/-- A cell of the table with expanded columns: columns of the series hold its values, columns of
other series hold zero, other columns are kept. -/
theorem expand_cell [Zero V] {st : ExpandState} (hsk : st.skip = false) {x z : Frame String τ V}
    {ss : List (List String)} {fh : List τ} (hx : PanelIn x ss fh) {s : List String} (hs : s ∈ ss)
    {t : τ} (ht : t ∈ fh) (h : expandTransform st x = .ok z) (n : String) :
    (n ∈ z.cols ↔ n ∉ st.matched ∧ (n ∈ x.cols ∨ ∃ c ∈ st.matched, ∃ s ∈ ss, n = colName c s)) ∧
    (n ∈ z.cols →
      (∀ c ∈ st.matched, n = colName c s → cellAt z s t n = cellAt x s t c) ∧
      ((∀ c ∈ st.matched, n ≠ colName c s) →
        (∃ c ∈ st.matched, ∃ s ∈ ss, n = colName c s) → cellAt z s t n = 0) ∧
      ((∀ c ∈ st.matched, ∀ s ∈ ss, n ≠ colName c s) → cellAt z s t n = cellAt x s t n)) := by
  obtain ⟨-, -, hmem, -, v, hrows, hv⟩ := expandTransform_ok hsk h
  obtain ⟨r, hr⟩ := find_of_covers hx hs ht
  have hrm := List.mem_of_find?_eq_some hr
  have hrs : r.sid = s := by
    have := List.find?_some hr
    simp only [decide_eq_true_eq] at this
    exact this.1
  have hsub : ∀ c ∈ st.matched, c ∈ x.cols := by
    unfold expandTransform at h
    rw [if_neg (by simp [hsk]), if_neg hx.panel] at h
    by_contra hno
    simp only at h
    rw [if_pos ⟨List.ne_nil_of_mem hrm, hno⟩] at h
    cases h
  have hxc : ∀ c ∈ x.cols, cellAt x s t c = r.val c := by
    intro c hc
    unfold cellAt
    rw [if_pos hc, hr]
    rfl
  rw [hx.series_eq] at hmem hv
  refine ⟨hmem n, fun hn => ?_⟩
  obtain ⟨h1, h2, h3⟩ := hv r hrm n
  rw [hrs] at h1 h2
  rw [cellAt_map hrows hr hn]
  refine ⟨?_, h2, ?_⟩
  · intro c hc hnc
    rw [h1 c hc hnc, hxc c (hsub c hc)]
  · intro hno
    rw [h3 hno, hxc]
    rcases ((hmem n).1 hn).2 with h4 | ⟨c, hc, s', hs', he⟩
    · exact h4
    · exact absurd he (hno c hc s' hs')

/-- The expansion of columns keeps cells apart: what the expanded table holds for a series at a date
is determined by what the table holds for that series at that date. -/
theorem expand_cells [Zero V] {st : ExpandState} {x x' z z' : Frame String τ V}
    {ss : List (List String)} {fh fh' : List τ} (hx : PanelIn x ss fh) (hx' : PanelIn x' ss fh')
    (hcols : x.cols = x'.cols) (h : expandTransform st x = .ok z)
    (h' : expandTransform st x' = .ok z') {s : List String} (hs : s ∈ ss) {t : τ} (ht : t ∈ fh)
    (ht' : t ∈ fh') (hc : cellAt x s t = cellAt x' s t) : cellAt z s t = cellAt z' s t := by
  cases hsk : st.skip with
  | true =>
    unfold expandTransform at h h'
    rw [if_pos hsk] at h h'
    cases h
    cases h'
    exact hc
  | false =>
    funext n
    obtain ⟨m1, v1⟩ := expand_cell hsk hx hs ht h n
    obtain ⟨m2, v2⟩ := expand_cell hsk hx' hs ht' h' n
    by_cases hn : n ∈ z.cols
    · have hn' : n ∈ z'.cols := by rw [m2, ← hcols, ← m1]; exact hn
      obtain ⟨a1, a2, a3⟩ := v1 hn
      obtain ⟨b1, b2, b3⟩ := v2 hn'
      by_cases hown : ∃ c ∈ st.matched, n = colName c s
      · obtain ⟨c, hcm, he⟩ := hown
        rw [a1 c hcm he, b1 c hcm he, hc]
      · have hown' : ∀ c ∈ st.matched, n ≠ colName c s := fun c h1 h2 => hown ⟨c, h1, h2⟩
        by_cases hgen : ∃ c ∈ st.matched, ∃ s ∈ ss, n = colName c s
        · rw [a2 hown' hgen, b2 hown' hgen]
        · have hno : ∀ c ∈ st.matched, ∀ s ∈ ss, n ≠ colName c s := fun c h1 s h2 h3 =>
            hgen ⟨c, h1, s, h2, h3⟩
          rw [a3 hno, b3 hno, hc]
    · have hn' : n ∉ z'.cols := by rw [m2, ← hcols, ← m1]; exact hn
      unfold cellAt
      rw [if_neg hn, if_neg hn']

/-- Selecting the bottom series keeps their values. -/
theorem locBottom_cell [Zero V] {X x0 : Frame String τ V} (h : locBottom X = .ok x0)
    {s : List String} (hs : s ∈ x0.series) (t : τ) : cellAt x0 s t = cellAt X s t := by
  unfold locBottom at h
  split at h
  · cases h; rfl
  simp only [bind, Except.bind] at h
  split at h
  · cases h
  rename_i idx _
  unfold getMultiindexLoc at h
  split at h
  · cases h
  rename_i v l
  cases h
  funext c
  unfold cellAt
  simp only [List.find?_filter]
  obtain ⟨r, hr, rfl⟩ := mem_series.1 hs
  have hr2 := (List.mem_filter.1 hr).2
  congr 4
  funext r'
  by_cases he : r'.sid = r.sid ∧ r'.time = t
  · rw [he.1]
    simp only [he, hr2, and_self, decide_true, Bool.and_true, Bool.and_self]
  · simp [he]

end

section
variable {S Sc τ D K : Type} [Field K] [LinearOrder K] [IsStrictOrderedRing K] [LinearOrder τ]

/-- The feature transformer computes the row of a series at a date from that row. -/
structure CellwiseFeatures (g : Frame String τ K → PyM (Frame String τ K)) : Prop where
  keepsRows : KeepsRows g
  cols : ∀ x x' z z', g x = .ok z → g x' = .ok z' → x.cols = x'.cols → z.cols = z'.cols
  cells : ∀ x x' z z', g x = .ok z → g x' = .ok z' → x.cols = x'.cols → ∀ s t,
    cellAt x s t = cellAt x' s t → cellAt z s t = cellAt z' s t

theorem cellwise_identity : CellwiseFeatures (.ok : Frame String τ K → PyM (Frame String τ K)) where
  keepsRows := by intro x x' h; cases h; exact ⟨rfl, rfl⟩
  cols := by intro x x' z z' h h' hc; cases h; cases h'; exact hc
  cells := by intro x x' z z' h h' _ s t hc; cases h; cases h'; exact hc

theorem predictExpand_panel {cfg : HierConfig S Sc τ D K} (hf : KeepsRows cfg.features)
    {ex : Option ExpandState} {x z : Frame String τ K} {fh : List τ}
    (h : predictExpand cfg.features ex x fh = .ok z) {ss : List (List String)} (hx : PanelIn x ss fh) :
    PanelIn z ss fh := by
  unfold predictExpand at h
  cases ex with
  | none => cases h; exact hx
  | some st =>
    simp only at h
    split at h
    · simp only [bind, Except.bind] at h
      split at h
      · cases h
      rename_i x1 h1
      obtain ⟨a1, a2⟩ := hf _ _ h1
      obtain ⟨b1, b2⟩ := expandTransform_index h
      exact hx.congr (b1.trans a1) (b2.trans a2)
    · cases h

theorem predictExpand_cells {cfg : HierConfig S Sc τ D K} (hf : CellwiseFeatures cfg.features)
    {ex : Option ExpandState} {x x' z z' : Frame String τ K} {fh fh' : List τ}
    (h : predictExpand cfg.features ex x fh = .ok z) (h' : predictExpand cfg.features ex x' fh' = .ok z')
    {ss : List (List String)} (hx : PanelIn x ss fh) (hx' : PanelIn x' ss fh')
    (hcols : x.cols = x'.cols) {s : List String} (hs : s ∈ ss) {t : τ} (ht : t ∈ fh) (ht' : t ∈ fh')
    (hc : cellAt x s t = cellAt x' s t) : cellAt z s t = cellAt z' s t := by
  unfold predictExpand at h h'
  cases ex with
  | none => cases h; cases h'; exact hc
  | some st =>
    simp only at h h'
    split at h
    · split at h'
      · simp only [bind, Except.bind] at h h'
        split at h
        · cases h
        rename_i x1 h1
        split at h'
        · cases h'
        rename_i x1' h1'
        obtain ⟨a1, a2⟩ := hf.keepsRows _ _ h1
        obtain ⟨b1, b2⟩ := hf.keepsRows _ _ h1'
        exact expand_cells (hx.congr a1 a2) (hx'.congr b1 b2) (hf.cols _ _ _ _ h1 h1' hcols) h h' hs
          ht ht' (hf.cells _ _ _ _ h1 h1' hcols s t hc)
      · cases h'
    · cases h

theorem hierPredict_split {cfg : HierConfig S Sc τ D K} {m : HierFit S Sc τ D K}
    {levels : List (List String)} {y X x0 : Frame String τ K} (hX : X.cols ≠ [])
    (hb : locBottom X = .ok x0) {fh : List τ} {td : Transformed D} {data : PyDict (Transformed D)}
    (h : hierPredictData cfg m levels y (some X) fh = .ok (td, data)) :
    ∃ z, predictExpand cfg.features m.expand x0 fh = .ok z ∧ m.trend.transform (some z) fh = .ok td ∧
      transformEffects m.fitted z fh = .ok data := by
  unfold hierPredictData predictExog at h
  simp only [if_neg hX, hb, bind, Except.bind] at h
  split at h
  · cases h
  rename_i z hz
  split at h
  · cases h
  rename_i td' h1
  split at h
  · cases h
  rename_i data' h2
  cases h
  exact ⟨z, hz, h1, h2⟩

/-- **C74**: for the same fitted hierarchical forecaster and parameters, the mean of a bottom series
at a date depends on the given `X` only through the row of that series at that date: two tables (and
horizons) that agree there give the same mean there, whatever they hold elsewhere. -/
theorem C74_own_rows {cfg : HierConfig S Sc τ D K} (hfeat : CellwiseFeatures cfg.features)
    {m : HierFit S Sc τ D K} {Ok : SiteEnv K → Prop} {ss : List (List String)}
    {g : SiteEnv K → List String → τ → K} (ht : PanelTrend m.trend Ok ss g)
    (hf : ∀ fe ∈ m.fitted, ∃ f, PanelEffect fe.effect f)
    (hn : (m.fitted.map FittedEffect.name).Nodup)
    (htr : "trend" ∉ m.fitted.map FittedEffect.name) (ho : nonSkipped m.fitted = .ok m.objs)
    {levels : List (List String)} {y X X' x x' : Frame String τ K} (hX : X.cols ≠ [])
    (hcols : X.cols = X'.cols) (hb : locBottom X = .ok x) (hb' : locBottom X' = .ok x')
    {fh fh' : List τ} (hx : PanelIn x ss fh) (hx' : PanelIn x' ss fh') {td td' : Transformed D}
    {data data' : PyDict (Transformed D)}
    (h1 : hierPredictData cfg m levels y (some X) fh = .ok (td, data))
    (h2 : hierPredictData cfg m levels y (some X') fh' = .ok (td', data'))
    {θ : SiteEnv K} (hθ : Ok θ) {st st' : MeanState K}
    (hm : computeMean (m.trend.cls.call m.trend.st) td data (callsOf m.objs) θ = .ok st)
    (hm' : computeMean (m.trend.cls.call m.trend.st) td' data' (callsOf m.objs) θ = .ok st')
    {i j j' : Nat} {s : List String} {t : τ} (hi : ss[i]? = some s) (hj : fh[j]? = some t)
    (hj' : fh'[j']? = some t) (hcell : cellAt X s t = cellAt X' s t) :
    ∃ v, st.mean.get? [i, j, 0] = some v ∧ st'.mean.get? [i, j', 0] = some v := by
  classical
  choose! f hf using hf
  have hk : ∀ fe ∈ kept m.fitted, PanelEffect fe.effect (f fe) := fun fe h =>
    hf fe (List.mem_of_mem_filter h)
  obtain ⟨z, hz, a1, a2⟩ := hierPredict_split hX hb h1
  obtain ⟨z', hz', b1, b2⟩ := hierPredict_split (by rw [← hcols]; exact hX) hb' h2
  have hs : s ∈ ss := List.mem_of_getElem? hi
  have hcx : x.cols = x'.cols := by
    have key : ∀ {X x : Frame String τ K}, locBottom X = .ok x → x.cols = X.cols := by
      intro X x h
      unfold locBottom at h
      split at h
      · cases h; rfl
      simp only [bind, Except.bind] at h
      split at h
      · cases h
      unfold getMultiindexLoc at h
      split at h
      · cases h
      · cases h; rfl
    rw [key hb, key hb', hcols]
  have hcell0 : cellAt x s t = cellAt x' s t := by
    rw [locBottom_cell hb (by rw [hx.series_eq]; exact hs),
      locBottom_cell hb' (by rw [hx'.series_eq]; exact hs), hcell]
  have hcz := predictExpand_cells hfeat hz hz' hx hx' hcx hs (List.mem_of_getElem? hj)
    (List.mem_of_getElem? hj') hcell0
  rw [C74_closed_form ht hk hn htr (predictExpand_panel hfeat.keepsRows hz hx) a1 a2 ho hθ hm,
    C74_closed_form ht hk hn htr (predictExpand_panel hfeat.keepsRows hz' hx') b1 b2 ho hθ hm',
    panelOf_get? hi hj, panelOf_get? hi hj', hcz]
  exact ⟨_, rfl, rfl⟩

theorem hierFitData_all {cfg : HierConfig S Sc τ D K} {y : Frame String τ K}
    {X : Option (Frame String τ K)} {m : HierFit S Sc τ D K} (h : hierFitData cfg y X = .ok m) :
    ∃ yB x, locBottom (aggregate cfg.keep y) = .ok yB ∧
      hierExog cfg (aggregate cfg.keep y) X = .ok (m.expand, x) ∧
      cfg.trend.fit yB (some x) cfg.scale = .ok m.trend ∧
      fitEffects cfg.compile cfg.effects cfg.default (some x) yB cfg.scale
        = .ok (m.fitted, m.warnings) ∧ nonSkipped m.fitted = .ok m.objs := by
  unfold hierFitData at h
  simp only [bind, Except.bind] at h
  split at h
  · cases h
  rename_i yB hyB
  split at h
  · cases h
  split at h
  · cases h
  rename_i ex hex
  split at h
  · cases h
  rename_i tr htr
  split at h
  · cases h
  split at h
  · cases h
  rename_i fw hfw
  split at h
  · cases h
  split at h
  · cases h
  rename_i objs hobjs
  cases h
  exact ⟨yB, ex.2, hyB, hex, htr, hfw, hobjs⟩

/-- **C74** for a fitted forecaster: piecewise linear trend, row-wise effects, at least two series.
The parameters range over all values of the right sizes. -/
theorem C74_forecaster [FloorSemiring K] {days : τ → K}
    {suggest : List K → Tensor K → PyM (List K × List K)} {p : PiecewiseParams K τ} {iv rg : K}
    (hiv : p.interval = .scalar iv) (hrg : p.range = .scalar rg)
    {cfg : HierConfig (Option (PiecewiseState K τ)) (Scale K) τ (Tensor K) K}
    (htrend : cfg.trend = (piecewiseClass days suggest piecewisePredict p).new)
    (hfeat : CellwiseFeatures cfg.features)
    (he : ∀ e ∈ cfg.effects, RowWiseClass e.effect.cls) (hd : RowWiseClass cfg.default.cls)
    (hn : (cfg.effects.map EffectSpec.name).Nodup)
    (hres : "exogenous_variables_effect" ∉ cfg.effects.map EffectSpec.name)
    (htr : "trend" ∉ cfg.effects.map EffectSpec.name)
    {y yB : Frame String τ K} (hyB : locBottom (aggregate cfg.keep y) = .ok yB)
    (hlv : 1 < yB.nlevels) (hmany : yB.series.length ≠ 1 ∨ p.squeeze = false)
    {Xfit : Option (Frame String τ K)}
    {m : HierFit (Option (PiecewiseState K τ)) (Scale K) τ (Tensor K) K}
    (hfit : hierFitData cfg y Xfit = .ok m) :
    ∃ st0, m.trend.st.2 = some st0 ∧ ∀ levels X X' x x' fh fh' td td' data data' θ st st',
      X.cols ≠ [] → X.cols = X'.cols → locBottom X = .ok x → locBottom X' = .ok x' →
      PanelIn x yB.series fh → PanelIn x' yB.series fh' →
      hierPredictData cfg m levels y (some X) fh = .ok (td, data) →
      hierPredictData cfg m levels y (some X') fh' = .ok (td', data') →
      PanelSites st0.cps θ →
      computeMean (m.trend.cls.call m.trend.st) td data (callsOf m.objs) θ = .ok st →
      computeMean (m.trend.cls.call m.trend.st) td' data' (callsOf m.objs) θ = .ok st' →
      ∀ i j j' s t, yB.series[i]? = some s → fh[j]? = some t → fh'[j']? = some t →
        cellAt X s t = cellAt X' s t →
        ∃ v, st.mean.get? [i, j, 0] = some v ∧ st'.mean.get? [i, j', 0] = some v := by
  obtain ⟨yB', xf, hyB', -, htf, hfe, hobjs⟩ := hierFitData_all hfit
  rw [hyB] at hyB'
  cases hyB'
  rw [htrend] at htf
  obtain ⟨st0, hst0, -, hpt⟩ := C74_piecewise_fitted hiv hrg hlv hmany htf
  obtain ⟨hn', htr'⟩ := C17_names hn hres htr hfe
  have hcls : ∀ fe ∈ m.fitted, RowWiseClass fe.effect.cls := by
    obtain ⟨fes, hf, -, hcase⟩ := fitEffects_ok.1 hfe
    have h1 : ∀ fe ∈ fes, RowWiseClass fe.effect.cls := by
      intro fe hfe
      obtain ⟨e, hmem, hfrom⟩ := exists_of_forall₂ hf hfe
      rw [(effectFit_ok hfrom.2.2).1]
      exact he e hmem
    rcases hcase with ⟨-, h⟩ | ⟨eff, -, h2, h⟩
    · rw [h]; exact h1
    · rw [h]
      intro fe hfe
      rcases List.mem_append.1 hfe with h3 | h3
      · exact h1 fe h3
      · rw [List.mem_singleton.1 h3]
        rw [(effectFit_ok h2).1]
        exact hd
  have hpe : ∀ fe ∈ m.fitted, ∃ f, PanelEffect fe.effect f := by
    intro fe hfe
    obtain ⟨h1, h2, mode, raw, ρ, h3, h4⟩ := hcls fe hfe
    exact ⟨_, C74_effect h1 h2 h3 h4⟩
  refine ⟨st0, hst0, ?_⟩
  intro levels X X' x x' fh fh' td td' data data' θ st st' hX hc hb hb' hx hx' h1 h2 hθ hm hm' i j j'
    s t hi hj hj' hcell
  exact C74_own_rows hfeat hpt hpe hn' htr' hobjs hX hc hb hb' hx hx' h1 h2 hθ hm hm' hi hj hj' hcell

end

/-! Example: two series with their own piecewise trends, column `a` expanded per series and column
`b` shared. -/

def exCfg74 : HierConfig (Option (PiecewiseState ℚ Int)) (Scale ℚ) Int (Tensor ℚ) ℚ where
  compile := fun r => .ok fun c => r == ".*" || c == r
  order := id
  keep := fun _ => true
  trend := (piecewiseClass daysOfInt suggestLinear piecewisePredict exP71).new
  effects := [⟨"e", (linearClass "multiplicative").new, some ".*"⟩]
  default := (linearClass "additive").new
  fitFeatures := .ok
  features := .ok
  shared := ["b"]
  scale := .float 1

def exY74 : Frame String Int ℚ :=
  ⟨2, ["y"], [("p", 0, 1), ("p", 1, 3), ("p", 2, 4), ("q", 0, 7), ("q", 1, 8), ("q", 2, 6)].map
    fun r => ⟨[r.1], r.2.1, fun _ => r.2.2⟩⟩

/-- The value of `a` for series `q` is `u`. -/
def exX74 (u : ℚ) : Frame String Int ℚ :=
  ⟨2, ["a", "b"], [("p", 0, 1), ("p", 1, 2), ("p", 2, 3), ("p", 3, 5), ("p", 4, 1),
    ("q", 0, u), ("q", 1, u), ("q", 2, u), ("q", 3, u), ("q", 4, u)].map
    fun r => ⟨[r.1], r.2.1, fun c => if c = "a" then r.2.2 else 1⟩⟩

def exθ74 : SiteEnv ℚ := fun s =>
  if s = "offset" then ⟨[2], [10, 20]⟩
  else if s = "changepoint_coefficients" then ⟨[2], [1, 2]⟩
  else if s = "e/coefs" then ⟨[3], [1 / 10, 1 / 5, 1 / 2]⟩ else ⟨[], []⟩

/-- Fit, prepare the horizon and compute the mean. -/
def exRun74 (X : Frame String Int ℚ) (fh : List Int) : PyM (Tensor ℚ) := do
  let m ← hierFitData exCfg74 exY74 (some (exX74 1))
  let d ← hierPredictData exCfg74 m [["p", "q"]] exY74 (some X) fh
  let st ← computeMean (m.trend.cls.call m.trend.st) d.1 d.2 (callsOf m.objs) exθ74
  pure st.mean

/-- At time 4 the mean of `p` is the same in both runs, that of `q` is not. -/
example : (exRun74 (exX74 1) [3, 4]).toOption
    = some ⟨[2, 2, 1], [147 / 5, 39 / 2, 224 / 5, 48]⟩ := by decide +kernel
example : (exRun74 (exX74 9) [4]).toOption = some ⟨[2, 1, 1], [39 / 2, 168]⟩ := by decide +kernel
example : cellAt (exX74 1) ["p"] 4 = cellAt (exX74 9) ["p"] 4 := rfl
example : PanelIn (exX74 1) [["p"], ["q"]] [3, 4] where
  panel := by decide
  someSeries := by simp
  series := by
    intro i s
    rw [seriesAt_iff]
    have : (exX74 1).series = [["p"], ["q"]] := by decide
    rw [this]
  grouped := by
    intro i j k a b c hij hjk ha hb hc hac
    have hlen : ∀ {n : Nat} {r}, (exX74 1).rows[n]? = some r → n < 10 ∧
        r.sid = if n < 5 then ["p"] else ["q"] := by
      intro n r h
      obtain ⟨hn, rfl⟩ := List.getElem?_eq_some_iff.1 h
      have hn' : n < 10 := hn
      refine ⟨hn', ?_⟩
      clear h
      interval_cases n <;> rfl
    obtain ⟨h1, e1⟩ := hlen ha
    obtain ⟨h2, e2⟩ := hlen hb
    obtain ⟨h3, e3⟩ := hlen hc
    rw [e1, e3] at hac
    rw [e1, e2]
    split_ifs at hac ⊢ <;> simp_all <;> omega
  sorted := by unfold TimeSorted; decide
  horizon := by decide
  someDate := by simp
  covers := by decide
example : (hierFitData exCfg74 exY74 (some (exX74 1))).toOption.map
    (fun m => m.trend.st.2.map fun st => st.cps) = some (some [[0], [0]]) := by decide +kernel
example : PanelSites [[0], [0]] exθ74 := ⟨rfl, rfl⟩
example : RowWiseClass (linearClass (S := Unit) (τ := Int) (K := ℚ) "multiplicative") :=
  ⟨rfl, fun _ _ _ => rfl, "multiplicative", linearRaw, _, fun _ => rfl, rowWise_linear⟩

end PV
