import Verif.Lemmas.SortedPanel
import Verif.Lemmas.Expand
import Verif.Model.MultivariateData
import Verif.Model.TrendEffects
import Verif.Spec.Predict

/-!
# C55: exogenous series and target series are matched by position, not by label

`C55_fit_partial`, `C55_predict_partial`: position and label agree when the rows of `X` are sorted
by label.  `C55_refuted`: otherwise they do not.
-/

namespace PV
section
variable {S Sc τ V K : Type} [LinearOrder τ]

/-- Block `i` of the tensor holds the values of series `s` of the frame: entry `[i, k, c]` is the
value of the `c`-th of the columns `cs` at the `k`-th of the times `fh`. -/
def RowIs (t : Tensor V) (i : Nat) (x : Frame String τ V) (s : List String) (fh : List τ)
    (cs : List String) : Prop :=
  ∀ k tm c col, fh[k]? = some tm → cs[c]? = some col →
    ∃ v, t.get? [i, k, c] = some v ∧ ValueAt x s tm col v

/-- Every series of the frame has a row at every time in `fh`. -/
def Covers (x : Frame String τ V) (fh : List τ) : Prop :=
  ∀ r ∈ x.rows, ∀ t ∈ fh, ∃ r' ∈ x.rows, r'.sid = r.sid ∧ r'.time = t

/-- The two frames have the same series. -/
def SameSeries {W : Type} (x : Frame String τ V) (y : Frame String τ W) : Prop :=
  ∀ s, (∃ r ∈ x.rows, r.sid = s) ↔ ∃ r ∈ y.rows, r.sid = s

/-- The effect uses the array of its columns (as the linear, log, Hill effects do). -/
def UsesArray (e : EffectObj S (Frame String τ K) Sc τ K (Tensor K) K) : Prop :=
  e.cls.transform = (fun _ x _ => x.seriesToTensorOrArray) ∧ e.cls.tags.filterFh = true

theorem usesArray_transform {e : EffectObj S (Frame String τ K) Sc τ K (Tensor K) K}
    (he : UsesArray e) (x : Frame String τ K) (fh : List τ) {cs : List String}
    (hst : e.st.1 = ⟨some cs, some true⟩) :
    e.transform (some x) fh
      = baseTransform (defaultHooks e.cls.tags : Hooks Unit Unit Unit τ K (Tensor K)) (e.st.1, ())
          (some x) fh := by
  unfold EffectObj.transform
  rw [baseTransform_eq _ hst, baseTransform_eq _ (st := (e.st.1, ())) hst, he.1]
  rfl

/-- The array of an effect from a sorted panel. -/
theorem sorted_effect {e : EffectObj S (Frame String τ K) Sc τ K (Tensor K) K}
    (he : UsesArray e) {cs : List String} (hst : e.st.1 = ⟨some cs, some true⟩) (hcs : cs ≠ [])
    {x : Frame String τ K} (hsub : ∀ c ∈ cs, c ∈ x.cols) (hlv : x.nlevels ≠ 1) (hr : x.rows ≠ [])
    (hsort : LabelSorted x) {fh : List τ} (hfh : fh.Pairwise (· < ·)) (hne : fh ≠ [])
    (hcov : Covers x fh) :
    ∃ t, e.transform (some x) fh = .ok (.data t) ∧ ∀ i s, x.series[i]? = some s → RowIs t i x s fh cs := by
  obtain ⟨t, h1, -, -, -, h2⟩ := C20_rows_panel (Y := Unit) (Sc := Unit) (st := (e.st.1, ())) he.2 hst
    hcs hsub hlv hr hsort.timeSorted hfh hne hcov
  refine ⟨t, by rw [usesArray_transform he x fh hst]; exact h1, fun i s hi => ?_⟩
  exact h2 hsort.grouped i s (seriesAt_iff.2 hi)

/-- The array of the target from a sorted panel. -/
theorem sorted_target {y : Frame String τ K} (hlv : y.nlevels ≠ 1) (hr : y.rows ≠ [])
    (hsort : LabelSorted y) {fh : List τ} (hfh : fh.Pairwise (· < ·)) (hne : fh ≠ [])
    (hcov : Covers y fh) (hall : ∀ t ∈ y.times, t ∈ fh) {t : Tensor K}
    (h : y.seriesToTensor = .ok t) : ∀ i s, y.series[i]? = some s → RowIs t i y s fh y.cols := by
  have hc : y.cols ≠ [] := by
    intro hc
    unfold Frame.seriesToTensor at h
    rw [if_pos hc] at h
    cases h
  obtain ⟨t', h1, -, -, -, h2⟩ := C20_rows_panel (Y := Unit) (Sc := Unit) (tags := linearTags)
    (st := (⟨some y.cols, some true⟩, ())) rfl rfl hc (fun c hc => hc) hlv hr hsort.timeSorted hfh
    hne hcov
  rw [default_transform (tags := linearTags) rfl rfl hc (fun c hc => hc)] at h1
  have hf : y.filterTimes fh = y := by
    unfold Frame.filterTimes
    have : (y.rows.filter fun r => decide (r.time ∈ fh)) = y.rows := by
      rw [List.filter_eq_self]
      intro r hr
      exact decide_eq_true (hall r.time (List.mem_map.2 ⟨r, hr, rfl⟩))
    rw [this]
  rw [hf] at h1
  have he : y.seriesToTensorOrArray = .ok t := by
    unfold Frame.seriesToTensorOrArray
    rw [if_neg hlv, h]
  have h1' : y.seriesToTensorOrArray.map Transformed.data = .ok (.data t') := h1
  rw [he] at h1'
  cases h1'
  exact fun i s hi => h2 hsort.grouped i s (seriesAt_iff.2 hi)

end

section
variable {S Sc τ K : Type} [Field K] [LinearOrder K] [IsStrictOrderedRing K] [LinearOrder τ]

/-- The target after aggregating and taking the bottom series again. -/
theorem bottom_target (keep : List String → Bool) {y : Frame String τ K} (hw : y.WF)
    (hn : 2 ≤ y.nlevels) (hres : NoReserved y) (hnd : y.index.Nodup) (hr : y.rows ≠ []) :
    ∃ g, locBottom (aggregate keep y) = .ok g ∧ g.nlevels = y.nlevels ∧ g.cols = y.cols ∧
      g.rows.Perm y.rows ∧ LabelSorted g := by
  obtain ⟨g, h1, h2, h3, h4, h5, -⟩ := C52_undoes_aggregation keep hw hn hres hr
  refine ⟨g, h1, h2, h3, h4, ?_⟩
  have : g.index.Nodup := by
    have hp : g.index.Perm y.index := h4.map _
    exact hp.nodup_iff.2 hnd
  have h6 := h5.and this
  exact h6.imp fun h => lt_of_le_of_ne h.1 fun e => h.2 (toLex.injective e)

/-- The parts of a successful `_get_fit_data`. -/
theorem hierFitData_ok {cfg : HierConfig S Sc τ (Tensor K) K} {y : Frame String τ K}
    {X : Option (Frame String τ K)} {m : HierFit S Sc τ (Tensor K) K}
    (hm : hierFitData cfg y X = .ok m) {st : Option ExpandState} {xb : Frame String τ K}
    (hx : hierExog cfg (aggregate cfg.keep y) X = .ok (st, xb)) :
    ∃ yB, locBottom (aggregate cfg.keep y) = .ok yB ∧ yB.seriesToTensor = .ok m.yArray ∧
      fitEffects cfg.compile cfg.effects cfg.default (some xb) yB cfg.scale
        = .ok (m.fitted, m.warnings) ∧
      transformEffects m.fitted xb (unique y.times) = .ok m.data ∧
      m.internalIndex = (aggregate cfg.keep y).index ∧ m.expand = st := by
  unfold hierFitData at hm
  simp only [hx, bind, Except.bind] at hm
  cases h1 : locBottom (aggregate cfg.keep y) with
  | error e => simp [h1] at hm
  | ok yB =>
    simp only [h1] at hm
    cases h2 : yB.seriesToTensor with
    | error e => simp [h2] at hm
    | ok yT =>
      simp only [h2] at hm
      cases h3 : cfg.trend.fit yB (some xb) cfg.scale with
      | error e => simp [h3] at hm
      | ok trend =>
        simp only [h3] at hm
        cases h4 : trend.transform (some xb) (unique y.times) with
        | error e => simp [h4] at hm
        | ok td =>
          simp only [h4] at hm
          cases h5 : fitEffects cfg.compile cfg.effects cfg.default (some xb) yB cfg.scale with
          | error e => simp [h5] at hm
          | ok fw =>
            simp only [h5] at hm
            cases h6 : transformEffects fw.1 xb (unique y.times) with
            | error e => simp [h6] at hm
            | ok data =>
              simp only [h6] at hm
              cases h7 : nonSkipped fw.1 with
              | error e => simp [h7] at hm
              | ok objs =>
                simp only [h7, pure, Except.pure, Except.ok.injEq] at hm
                subst hm
                exact ⟨yB, rfl, h2, h5, h6, rfl, rfl⟩

/-- The fitted effects know their columns, which are columns of the exogenous variables. -/
theorem fitted_cols {compile : String → PyM (String → Bool)} {x y : Frame String τ K} {scale : Sc}
    {effects : List (EffectSpec S (Frame String τ K) Sc τ K (Tensor K) K)}
    {dflt : EffectObj S (Frame String τ K) Sc τ K (Tensor K) K}
    {fitted : List (FittedEffect S (Frame String τ K) Sc τ K (Tensor K) K)}
    {ws : List EffectWarning} (hr : x.rows ≠ [])
    (h : fitEffects compile effects dflt (some x) y scale = .ok (fitted, ws)) :
    ∀ fe ∈ fitted, fe.effect.st.1 = ⟨some fe.cols, some true⟩ ∧ ∀ c ∈ fe.cols, c ∈ x.cols := by
  obtain ⟨fes, hf, -, h⟩ := fitEffects_ok.1 h
  have hfes : ∀ fe ∈ fes, fe.effect.st.1 = ⟨some fe.cols, some true⟩ ∧
      ∀ c ∈ fe.cols, c ∈ x.cols := by
    intro fe hfe
    obtain ⟨k, hk, hke⟩ := List.getElem_of_mem hfe
    obtain ⟨hl, hg⟩ := List.forall₂_iff_get.1 hf
    obtain ⟨-, hmt, hfit⟩ := hg k (by omega) hk
    simp only [List.get_eq_getElem, hke] at hmt hfit
    exact ⟨effectFit_inputCols (x := { x with cols := fe.cols }) hr hfit,
      fun c hc => (matchColumns_sublist hmt).subset hc⟩
  rcases h with ⟨-, rfl⟩ | ⟨eff, -, hd, rfl⟩
  · exact hfes
  · intro fe hfe
    rcases List.mem_append.1 hfe with h | h
    · exact hfes fe h
    · simp only [List.mem_singleton] at h
      subst h
      exact ⟨effectFit_inputCols (x := { x with cols := _ }) hr hd, fun c hc => (mem_remaining.1 hc).1⟩

/-- The data of one effect. -/
theorem data_of_effect {fitted : List (FittedEffect S (Frame String τ K) Sc τ K (Tensor K) K)}
    (hn : (fitted.map FittedEffect.name).Nodup) {x : Frame String τ K} {fh : List τ}
    {data : PyDict (Transformed (Tensor K))} (hd : transformEffects fitted x fh = .ok data)
    {fe : FittedEffect S (Frame String τ K) Sc τ K (Tensor K) K} (hfe : fe ∈ fitted)
    (hsk : fe.effect.skip = .ok false) :
    ∃ d xc, data.get? fe.name = some d ∧ x.select fe.cols = .ok xc ∧
      fe.effect.transform (some xc) fh = .ok d := by
  obtain ⟨new, hnew, hf, -⟩ := foldlM_transformStep hn (by simp [PyDict.keys]) hd
  rw [List.nil_append] at hnew
  have hk : fe ∈ kept fitted := by simp [kept, hfe, hsk]
  have hkn : ((kept fitted).map FittedEffect.name).Nodup :=
    hn.sublist (List.filter_sublist.map _)
  obtain ⟨k, hkl, hke⟩ := List.getElem_of_mem hk
  obtain ⟨hl, hg⟩ := List.forall₂_iff_get.1 hf
  obtain ⟨h1, xc, h2, h3⟩ := hg k hkl (by omega)
  simp only [List.get_eq_getElem, hke] at h1 h2 h3
  refine ⟨_, xc, ?_, h2, h3⟩
  have hkeys : data.keys = (kept fitted).map FittedEffect.name := by
    rw [hnew]
    unfold PyDict.keys
    apply List.ext_getElem (by simp [hl])
    intro j hj hj'
    simp only [List.getElem_map]
    rw [List.length_map] at hj hj'
    exact (hg j hj' hj).1
  apply PyDict.get?_of_mem (by rw [hkeys]; exact hkn)
  rw [← h1, hnew]
  exact List.getElem_mem _

/-- The feature transformer changes columns only. -/
def KeepsRows (g : Frame String τ K → PyM (Frame String τ K)) : Prop :=
  ∀ x x', g x = .ok x' → x'.index = x.index ∧ x'.nlevels = x.nlevels

theorem expandTransform_index {st : ExpandState} {x x' : Frame String τ K}
    (h : expandTransform st x = .ok x') : x'.index = x.index ∧ x'.nlevels = x.nlevels := by
  cases hs : st.skip with
  | true =>
    unfold expandTransform at h
    rw [if_pos hs] at h
    cases h
    exact ⟨rfl, rfl⟩
  | false =>
    obtain ⟨-, h1, -, -, v, hrows, -⟩ := expandTransform_ok hs h
    refine ⟨?_, h1⟩
    unfold Frame.index
    rw [hrows]
    simp [Function.comp_def]

theorem sids_of_index {f : Frame String τ K} : f.index.map Prod.fst = f.rows.map Row.sid := by
  simp [Frame.index, Function.comp_def]

theorem mem_index {f : Frame String τ K} {s : List String} {t : τ} :
    (s, t) ∈ f.index ↔ ∃ r ∈ f.rows, r.sid = s ∧ r.time = t := by
  simp [Frame.index]

theorem covers_iff {f : Frame String τ K} {fh : List τ} :
    Covers f fh ↔ ∀ k ∈ f.index, ∀ t ∈ fh, (k.1, t) ∈ f.index := by
  simp only [Covers, mem_index]
  simp [Frame.index]

theorem sameSeries_congr {f f' y : Frame String τ K} (h : f'.index = f.index)
    (hs : SameSeries f y) : SameSeries f' y := by
  have key : ∀ g : Frame String τ K, ∀ s, (∃ r ∈ g.rows, r.sid = s) ↔ s ∈ g.index.map Prod.fst := by
    intro g s
    rw [sids_of_index, List.mem_map]
  intro s
  rw [key, h, ← key]
  exact hs s

theorem rows_ne_nil_congr {f f' : Frame String τ K} (h : f'.index = f.index) (hr : f.rows ≠ []) :
    f'.rows ≠ [] := by
  intro h0
  have : f'.index = [] := by simp [Frame.index, h0]
  rw [h] at this
  exact hr (by simpa [Frame.index] using this)

theorem hierExog_index {cfg : HierConfig S Sc τ (Tensor K) K} (hk : KeepsRows cfg.fitFeatures)
    {yA X x0 xb : Frame String τ K} {st : Option ExpandState} (hX : X.cols ≠ [])
    (hb : locBottom X = .ok x0) (h : hierExog cfg yA (some X) = .ok (st, xb)) :
    xb.index = x0.index ∧ xb.nlevels = x0.nlevels := by
  unfold hierExog exogOr at h
  simp only [if_neg hX, hb, bind, Except.bind] at h
  cases h1 : cfg.fitFeatures x0 with
  | error e => simp [h1] at h
  | ok x1 =>
    obtain ⟨k1, k2⟩ := hk _ _ h1
    simp only [h1, fitExpand] at h
    split at h
    · cases h
      exact ⟨k1, k2⟩
    · simp only [bind, Except.bind] at h
      split at h
      · cases h
      · split at h
        · cases h
        · rename_i h2
          cases h
          obtain ⟨k3, k4⟩ := expandTransform_index h2
          exact ⟨k3.trans k1, k4.trans k2⟩

/-- **C55**, fitting, for `X` sorted by label.  `y`: a balanced panel or hierarchy without repeated
labels; the bottom rows of `X` are sorted by (series, time), belong to the same series and cover the
times.  Then for every effect using the array of its columns, block `i` of that array and block `i`
of the observed values belong to the same series.  Missing: `X` in another order
(`C55_refuted`). -/
theorem C55_fit_partial {cfg : HierConfig S Sc τ (Tensor K) K} (hk : KeepsRows cfg.fitFeatures)
    {y : Frame String τ K} (hw : y.WF) (hn : 2 ≤ y.nlevels) (hres : NoReserved y)
    (hnd : y.index.Nodup) (hr : y.rows ≠ []) (hbal : Covers y y.times)
    (htimes : (unique y.times).Pairwise (· < ·))
    {X x0 : Frame String τ K} (hX : X.cols ≠ []) (hb : locBottom X = .ok x0)
    (hlv : x0.nlevels ≠ 1) (hsort : LabelSorted x0) (hsame : SameSeries x0 y)
    (hcov : Covers x0 y.times)
    {m : HierFit S Sc τ (Tensor K) K} (hm : hierFitData cfg y (some X) = .ok m)
    (hnames : (m.fitted.map FittedEffect.name).Nodup)
    {fe : FittedEffect S (Frame String τ K) Sc τ K (Tensor K) K} (hfe : fe ∈ m.fitted)
    (harr : UsesArray fe.effect) (hcs : fe.cols ≠ []) :
    ∃ t xb st, hierExog cfg (aggregate cfg.keep y) (some X) = .ok (st, xb) ∧
      m.data.get? fe.name = some (.data t) ∧
      ∀ i < y.series.length, ∃ s, (∃ r ∈ y.rows, r.sid = s) ∧
        RowIs m.yArray i y s (unique y.times) y.cols ∧
        RowIs t i xb s (unique y.times) fe.cols := by
  obtain ⟨st, xb, hx⟩ : ∃ st xb, hierExog cfg (aggregate cfg.keep y) (some X) = .ok (st, xb) := by
    unfold hierFitData at hm
    cases h1 : locBottom (aggregate cfg.keep y) with
    | error e => simp [h1, bind, Except.bind] at hm
    | ok yB =>
      cases h2 : yB.seriesToTensor with
      | error e => simp [h1, h2, bind, Except.bind] at hm
      | ok yT =>
        cases h3 : hierExog cfg (aggregate cfg.keep y) (some X) with
        | error e => simp [h1, h2, h3, bind, Except.bind] at hm
        | ok p => exact ⟨p.1, p.2, rfl⟩
  obtain ⟨hi, hl⟩ := hierExog_index hk hX hb hx
  obtain ⟨yB, hyB, hyT, hfit, hdata, -, -⟩ := hierFitData_ok hm hx
  obtain ⟨g, hg, hgl, hgc, hgp, hgs⟩ := bottom_target cfg.keep hw hn hres hnd hr
  rw [hyB] at hg
  cases hg
  have hr0 : x0.rows ≠ [] := by
    obtain ⟨r, hr⟩ := List.exists_mem_of_ne_nil _ hr
    obtain ⟨r', hr', -⟩ := (hsame r.sid).2 ⟨r, hr, rfl⟩
    exact List.ne_nil_of_mem hr'
  have hrb : xb.rows ≠ [] := rows_ne_nil_congr hi hr0
  have hsb : LabelSorted xb := by unfold LabelSorted; rw [hi]; exact hsort
  have hsameb : SameSeries xb y := sameSeries_congr hi hsame
  have hfh : unique y.times ≠ [] := unique_ne_nil (by simpa [Frame.times] using hr)
  have hcovb : Covers xb (unique y.times) := by
    rw [covers_iff, hi]
    intro k hk t ht
    exact covers_iff.1 hcov k hk t (mem_unique.1 ht)
  obtain ⟨hst, hsub⟩ := fitted_cols hrb hfit fe hfe
  have hskip : fe.effect.skip = .ok false := by
    unfold EffectObj.skip shouldSkip
    rw [hst]
    cases hc : fe.cols with
    | nil => exact absurd hc hcs
    | cons c cs => simp
  obtain ⟨d, xc, hd, hxc, htr⟩ := data_of_effect hnames hdata hfe hskip
  rw [select_of_subset hsub] at hxc
  cases hxc
  obtain ⟨t, ht, hrows⟩ := sorted_effect harr hst hcs (x := { xb with cols := fe.cols })
    (fun c hc => hc) (by rw [← hl] at hlv; exact hlv) hrb hsb htimes hfh hcovb
  rw [htr] at ht
  cases ht
  have hser : yB.series = xb.series := by
    refine LabelSorted.series_eq hgs hsb fun s => ?_
    rw [hsameb s]
    exact ⟨fun ⟨r, h, e⟩ => ⟨r, hgp.mem_iff.1 h, e⟩, fun ⟨r, h, e⟩ => ⟨r, hgp.mem_iff.2 h, e⟩⟩
  have hmem : ∀ s, s ∈ yB.series ↔ s ∈ y.series := fun s => by
    rw [mem_series, mem_series]
    exact ⟨fun ⟨r, h, e⟩ => ⟨r, hgp.mem_iff.1 h, e⟩, fun ⟨r, h, e⟩ => ⟨r, hgp.mem_iff.2 h, e⟩⟩
  have hlen : yB.series.length = y.series.length :=
    ((List.perm_ext_iff_of_nodup (nodup_unique _) (nodup_unique _)).2 hmem).length_eq
  have htm : ∀ t ∈ yB.times, t ∈ unique y.times := by
    intro t ht
    obtain ⟨r, hr, rfl⟩ := List.mem_map.1 ht
    exact mem_unique.2 (List.mem_map.2 ⟨r, hgp.mem_iff.1 hr, rfl⟩)
  have hyrows := sorted_target (by omega) (fun h => hr (by simpa [h] using hgp.symm)) hgs htimes hfh
    (fun r hr t ht => by
      obtain ⟨r', h1, h2⟩ := hbal r (hgp.mem_iff.1 hr) t (mem_unique.1 ht)
      exact ⟨r', hgp.mem_iff.2 h1, h2⟩) htm hyT
  refine ⟨t, xb, st, hx, hd, fun i hi => ?_⟩
  obtain ⟨s, hs⟩ : ∃ s, yB.series[i]? = some s := ⟨_, List.getElem?_eq_getElem (by omega)⟩
  refine ⟨s, ?_, ?_, ?_⟩
  · exact mem_series.1 ((hmem s).1 (List.mem_of_getElem? hs))
  · intro k tm c col h1 h2
    obtain ⟨v, h3, h4⟩ := hyrows i s hs k tm c col h1 (by rw [hgc]; exact h2)
    obtain ⟨r, h5, h6⟩ := h4
    exact ⟨v, h3, r, hgp.mem_iff.1 h5, h6⟩
  · exact hrows i s (by rw [← show yB.series = Frame.series { xb with cols := fe.cols } from hser]; exact hs)

theorem unique_filter {α : Type} [DecidableEq α] (p : α → Bool) : ∀ l : List α,
    unique (l.filter p) = (unique l).filter p
  | [] => rfl
  | a :: l => by
    cases h : p a with
    | true =>
      rw [List.filter_cons_of_pos h]
      simp only [unique]
      rw [List.filter_cons_of_pos h, unique_filter p l, List.filter_filter, List.filter_filter]
      simp only [Bool.and_comm]
    | false =>
      rw [List.filter_cons_of_neg (by simp [h]), unique_filter p l]
      simp only [unique]
      rw [List.filter_cons_of_neg (by simp [h]), List.filter_filter]
      apply List.filter_congr
      intro b hb
      by_cases hba : b = a
      · subst hba; simp [h]
      · simp [hba]

/-- The series of the forecast are the bottom series of the fitted target, in its order. -/
theorem forecastSeries_eq {y : Frame String τ K} (keep : List String → Bool) (hw : y.WF)
    (hn : 2 ≤ y.nlevels) (hr : y.rows ≠ []) (hres : NoReserved y) {yB : Frame String τ K}
    (h : locBottom (aggregate keep y) = .ok yB) {ctx : Fitted K} (h1 : ctx.yNlevels = y.nlevels)
    (h2 : ctx.hierarchical = true) (h3 : ctx.internalSids = (aggregate keep y).index.map Prod.fst) :
    forecastSeries ctx = yB.series := by
  obtain ⟨hw', hl, -⟩ := aggregate_wf keep hw
  have hb : ∃ r ∈ (aggregate keep y).rows, r.sid.getLast? ≠ some "__total" := by
    by_contra hc
    push Not at hc
    rw [C52_no_bottom hw' (by omega) hc] at h
    cases h
  rw [C52_drops_aggregates hw' (by omega) hb] at h
  cases h
  unfold forecastSeries
  rw [if_neg (by omega), h3, sids_of_index, h2]
  show _ = unique (((aggregate keep y).rows.filter _).map Row.sid)
  rw [← unique_filter]
  congr 1
  rw [List.filter_map]
  congr 1
  apply List.filter_congr
  intro r _
  by_cases hr : r.sid.getLast? = some "__total" <;> simp [hr]

/-- The exogenous variables as the effects see them when predicting. -/
def predictSeen (cfg : HierConfig S Sc τ (Tensor K) K) (m : HierFit S Sc τ (Tensor K) K)
    (levels : List (List String)) (y : Frame String τ K) (X : Option (Frame String τ K))
    (fh : List τ) : PyM (Frame String τ K) :=
  (predictExog cfg.keep levels y X fh).bind fun x => predictExpand cfg.features m.expand x fh

/-- **C55**, predicting, for `X` sorted by label: block `i` of the array of an effect belongs to the
series which the `i`-th block of forecasts is labelled with. Missing: `X` in another order. -/
theorem C55_predict_partial {cfg : HierConfig S Sc τ (Tensor K) K} (hk : KeepsRows cfg.features)
    {y : Frame String τ K} (hw : y.WF) (hn : 2 ≤ y.nlevels) (hres : NoReserved y)
    (hnd : y.index.Nodup) (hr : y.rows ≠ []) {Xfit : Option (Frame String τ K)}
    {m : HierFit S Sc τ (Tensor K) K} (hm : hierFitData cfg y Xfit = .ok m)
    {ctx : Fitted K} (h1 : ctx.yNlevels = y.nlevels) (h2 : ctx.hierarchical = true)
    (h3 : ctx.internalSids = m.internalIndex.map Prod.fst)
    {X x0 : Frame String τ K} (hX : X.cols ≠ []) (hb : locBottom X = .ok x0)
    (hlv : x0.nlevels ≠ 1) (hsort : LabelSorted x0) (hsame : SameSeries x0 y)
    {fh : List τ} (hfh : fh.Pairwise (· < ·)) (hne : fh ≠ []) (hcov : Covers x0 fh)
    {levels : List (List String)} {td : Transformed (Tensor K)}
    {data : PyDict (Transformed (Tensor K))}
    (hp : hierPredictData cfg m levels y (some X) fh = .ok (td, data))
    (hnames : (m.fitted.map FittedEffect.name).Nodup)
    {fe : FittedEffect S (Frame String τ K) Sc τ K (Tensor K) K} (hfe : fe ∈ m.fitted)
    (hst : fe.effect.st.1 = ⟨some fe.cols, some true⟩)
    (harr : UsesArray fe.effect) (hcs : fe.cols ≠ []) :
    ∃ t xb, predictSeen cfg m levels y (some X) fh = .ok xb ∧
      data.get? fe.name = some (.data t) ∧
      ∀ i s, (forecastSeries ctx)[i]? = some s → RowIs t i xb s fh fe.cols := by
  have hidx : ∃ st xb yB, hierExog cfg (aggregate cfg.keep y) Xfit = .ok (st, xb) ∧
      locBottom (aggregate cfg.keep y) = .ok yB := by
    unfold hierFitData at hm
    cases h1 : locBottom (aggregate cfg.keep y) with
    | error e => simp [h1, bind, Except.bind] at hm
    | ok yB =>
      cases h2 : yB.seriesToTensor with
      | error e => simp [h1, h2, bind, Except.bind] at hm
      | ok yT =>
        cases h3 : hierExog cfg (aggregate cfg.keep y) Xfit with
        | error e => simp [h1, h2, h3, bind, Except.bind] at hm
        | ok p => exact ⟨p.1, p.2, yB, rfl, rfl⟩
  obtain ⟨st, xf, yB, hx, hyB⟩ := hidx
  obtain ⟨-, -, -, -, -, hint, -⟩ := hierFitData_ok hm hx
  obtain ⟨g, hg, hgl, hgc, hgp, hgs⟩ := bottom_target cfg.keep hw hn hres hnd hr
  rw [hyB] at hg
  cases hg
  rw [hint] at h3
  have hfs := forecastSeries_eq cfg.keep hw hn hr hres hyB h1 h2 h3
  have hr0 : x0.rows ≠ [] := by
    obtain ⟨r, hr⟩ := List.exists_mem_of_ne_nil _ hr
    obtain ⟨r', hr', -⟩ := (hsame r.sid).2 ⟨r, hr, rfl⟩
    exact List.ne_nil_of_mem hr'
  unfold hierPredictData predictExog at hp
  simp only [if_neg hX, hb, bind, Except.bind] at hp
  cases h4 : predictExpand cfg.features m.expand x0 fh with
  | error e => simp [h4] at hp
  | ok xb =>
    simp only [h4] at hp
    cases h5 : m.trend.transform (some xb) fh with
    | error e => simp [h5] at hp
    | ok td' =>
      simp only [h5] at hp
      cases h6 : transformEffects m.fitted xb fh with
      | error e => simp [h6] at hp
      | ok data' =>
        simp only [h6, pure, Except.pure, Except.ok.injEq, Prod.mk.injEq] at hp
        obtain ⟨-, rfl⟩ := hp
        have hi : xb.index = x0.index ∧ xb.nlevels = x0.nlevels := by
          unfold predictExpand at h4
          cases he : m.expand with
          | none => rw [he] at h4; cases h4; exact ⟨rfl, rfl⟩
          | some st =>
            rw [he] at h4
            simp only at h4
            split at h4
            · simp only [bind, Except.bind] at h4
              cases h7 : cfg.features x0 with
              | error e => simp [h7] at h4
              | ok x1 =>
                simp only [h7] at h4
                obtain ⟨k1, k2⟩ := hk _ _ h7
                obtain ⟨k3, k4⟩ := expandTransform_index h4
                exact ⟨k3.trans k1, k4.trans k2⟩
            · cases h4
        have hrb : xb.rows ≠ [] := rows_ne_nil_congr hi.1 hr0
        have hsb : LabelSorted xb := by unfold LabelSorted; rw [hi.1]; exact hsort
        have hsameb : SameSeries xb y := sameSeries_congr hi.1 hsame
        have hcovb : Covers xb fh := by
          rw [covers_iff, hi.1]
          exact covers_iff.1 hcov
        have hskip : fe.effect.skip = .ok false := by
          unfold EffectObj.skip shouldSkip
          rw [hst]
          cases hc : fe.cols with
          | nil => exact absurd hc hcs
          | cons c cs => simp
        obtain ⟨d, xc, hd, hxc, htr⟩ := data_of_effect hnames h6 hfe hskip
        have hsub : ∀ c ∈ fe.cols, c ∈ xb.cols := by
          unfold Frame.select at hxc
          split at hxc
          · assumption
          · cases hxc
        rw [select_of_subset hsub] at hxc
        cases hxc
        obtain ⟨t, ht, hrows⟩ := sorted_effect harr hst hcs (x := { xb with cols := fe.cols })
          (fun c hc => hc) (by rw [← hi.2] at hlv; exact hlv) hrb hsb hfh hne hcovb
        rw [htr] at ht
        cases ht
        have hser : yB.series = xb.series := by
          refine LabelSorted.series_eq hgs hsb fun s => ?_
          rw [hsameb s]
          exact ⟨fun ⟨r, h, e⟩ => ⟨r, hgp.mem_iff.1 h, e⟩, fun ⟨r, h, e⟩ => ⟨r, hgp.mem_iff.2 h, e⟩⟩
        refine ⟨t, xb, ?_, hd, fun i s hs => hrows i s ?_⟩
        · unfold predictSeen predictExog
          simp only [if_neg hX, hb, Except.bind]
          exact h4
        · rw [hfs, hser] at hs
          exact hs

/-- **C21**, hierarchical forecaster with exogenous variables: a horizon time that no bottom row of
`X` has is an `AssertionError`. -/
theorem C21_hierarchical {cfg : HierConfig S Sc τ (Tensor K) K} {m : HierFit S Sc τ (Tensor K) K}
    (hm : m.expand ≠ none) {levels : List (List String)} {y X x0 : Frame String τ K}
    (hX : X.cols ≠ []) (hb : locBottom X = .ok x0) {fh : List τ} {t : τ} (ht : t ∈ fh)
    (hmiss : ∀ r ∈ x0.rows, r.time ≠ t) :
    hierPredictData cfg m levels y (some X) fh = .error .assertionError := by
  unfold hierPredictData predictExog predictExpand
  simp only [if_neg hX, hb, bind, Except.bind]
  cases he : m.expand with
  | none => exact absurd he hm
  | some st =>
    have h : ¬ ∀ t ∈ fh, t ∈ x0.times := by
      intro h
      obtain ⟨r, hr, e⟩ := List.mem_map.1 (h t ht)
      exact hmiss r hr e
    simp only [if_neg h]

end

/-! ## Examples and the refutation -/

/-- A hierarchical forecaster with a flat trend and a linear effect on the shared column `x`. -/
def exHier : HierConfig (Option ℚ) (Scale ℚ) ℤ (Tensor ℚ) ℚ where
  compile := fun p => (reCompile p).getD (.error .reError)
  order := id
  keep := fun _ => true
  trend := flatClass.new
  effects := []
  default := (linearClass "additive").new
  fitFeatures := .ok
  features := .ok
  shared := ["x"]
  scale := .float 1

/-- Two series at times 1 and 2. -/
def exHierY : Frame String ℤ ℚ :=
  { nlevels := 2, cols := ["y"],
    rows := [⟨["a"], 1, fun _ => 10⟩, ⟨["a"], 2, fun _ => 11⟩,
             ⟨["b"], 1, fun _ => 20⟩, ⟨["b"], 2, fun _ => 21⟩] }

/-- Their exogenous variable, in the same order. -/
def exHierX : Frame String ℤ ℚ :=
  { nlevels := 2, cols := ["x"],
    rows := [⟨["a"], 1, fun _ => 1⟩, ⟨["a"], 2, fun _ => 2⟩,
             ⟨["b"], 1, fun _ => 3⟩, ⟨["b"], 2, fun _ => 4⟩] }

/-- The same rows with the series listed in the other order. -/
def exHierX' : Frame String ℤ ℚ :=
  { nlevels := 2, cols := ["x"],
    rows := [⟨["b"], 1, fun _ => 3⟩, ⟨["b"], 2, fun _ => 4⟩,
             ⟨["a"], 1, fun _ => 1⟩, ⟨["a"], 2, fun _ => 2⟩] }

/-- Observed values and the data of the effects. -/
def exHierArrays (X : Frame String ℤ ℚ) :
    PyM (List ℚ × List (String × List Nat × List ℚ)) :=
  (hierFitData exHier exHierY (some X)).map fun m =>
    (m.yArray.data, m.data.map fun p =>
      (p.1, match p.2 with | .data t => (t.shape, t.data) | _ => ([], [])))

/-- **C55** is false: `X` with the same rows, but the series listed in the other order, gives other
effect data while the target stays as it was: the rows of `b` are used for `a` and vice versa. -/
theorem C55_refuted : exHierX'.rows.Perm exHierX.rows ∧
    (exHierArrays exHierX).toOption
      = some ([10, 11, 20, 21], [("exogenous_variables_effect", ([2, 2, 1], [1, 2, 3, 4]))]) ∧
    (exHierArrays exHierX').toOption
      = some ([10, 11, 20, 21], [("exogenous_variables_effect", ([2, 2, 1], [3, 4, 1, 2]))]) :=
  ⟨List.perm_append_comm (l₁ := exHierX'.rows.take 2) (l₂ := exHierX'.rows.drop 2),
    by decide +kernel, by decide +kernel⟩

/-- The hypotheses of `C55_fit_partial` on `y` and `X` hold of the example in label order. -/
example : exHierY.WF ∧ 2 ≤ exHierY.nlevels ∧ NoReserved exHierY ∧ exHierY.index.Nodup ∧
    exHierY.rows ≠ [] ∧ Covers exHierY exHierY.times ∧
    (unique exHierY.times).Pairwise (· < ·) ∧
    (locBottom exHierX).toOption.map Frame.index = some exHierX.index ∧ LabelSorted exHierX ∧
    SameSeries exHierX exHierY ∧ Covers exHierX exHierY.times := by
  refine ⟨?_, ?_, ?_, ?_, ?_, ?_, ?_, ?_, ?_, ?_, ?_⟩
  · simp [Frame.WF, exHierY]
  · decide
  · simp [NoReserved, exHierY]
  · decide
  · simp [exHierY]
  · simp [Covers, exHierY, Frame.times]
  · decide
  · decide +kernel
  · simp [LabelSorted, exHierX, Frame.index, Prod.Lex.toLex_lt_toLex]
    decide
  · simp [SameSeries, exHierX, exHierY]
  · simp [Covers, exHierX, exHierY, Frame.times]

/-- The single fitted effect has a column and uses the array of its columns. -/
example : (hierFitData exHier exHierY (some exHierX)).toOption.map
    (fun m => m.fitted.map fun fe => (fe.name, fe.cols, fe.effect.cls.tags.filterFh))
      = some [("exogenous_variables_effect", ["x"], true)] := by decide +kernel

/-- Predicting with `X` in label order at time 2, and without a row at time 3. -/
example : ((hierFitData exHier exHierY (some exHierX)).bind fun m =>
      (hierPredictData exHier m [["a", "b"]] exHierY (some exHierX) [2]).map fun p =>
        p.2.map fun q => match q.2 with | .data t => (t.shape, t.data) | _ => ([], [])).toOption
      = some [([2, 1, 1], [2, 4])] ∧
    ((hierFitData exHier exHierY (some exHierX)).bind fun m =>
      (hierPredictData exHier m [["a", "b"]] exHierY (some exHierX) [2, 3])).toOption.isNone := by
  decide +kernel

end PV
