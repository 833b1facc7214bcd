import Mathlib.Algebra.Order.Ring.Rat
import Verif.Spec.EffectData
import Verif.Lemmas.EffectData

/-!
# C19, C20: the array an effect receives
-/

set_option linter.unusedSectionVars false

namespace PV
open Tensor
variable {S Y Sc τ V D : Type}

theorem sameOn_filterTimes [DecidableEq τ] {cs : List String} {x x' : Frame String τ V}
    (h : SameOn cs x x') (fh : List τ) : SameOn cs (x.filterTimes fh) (x'.filterTimes fh) := by
  refine ⟨h.1, ?_⟩
  unfold Frame.filterTimes
  simp only
  have h2 := h.2
  generalize x.rows = l at h2
  generalize x'.rows = l' at h2
  induction h2 with
  | nil => simp
  | @cons r r' l l' hr _ ih =>
    rw [List.filter_cons, List.filter_cons, hr.2.1]
    split
    · exact .cons hr ih
    · exact ih

/-- The transformed array when all columns are there. -/
theorem baseTransform_eq [DecidableEq τ] (h : Hooks S Y Sc τ V D) {st : BaseState × S}
    {cs : List String} (hst : st.1 = ⟨some cs, some true⟩) (x : Frame String τ V) (fh : List τ) :
    baseTransform h st (some x) fh =
      if cs.isEmpty && h.tags.skipIfNoMatch then .ok .emptyDict
      else if ∀ c ∈ cs, c ∈ x.cols then
        (h.transform st.2 { (if h.tags.filterFh then x.filterTimes fh else x) with cols := cs }
          fh).map .data
      else .error .keyError := by
  unfold baseTransform shouldSkip
  simp only [hst, bind, Except.bind]
  by_cases hsk : (cs.isEmpty && h.tags.skipIfNoMatch) = true
  · rw [if_pos hsk, if_pos hsk]
    rfl
  · rw [if_neg hsk, if_neg hsk]
    unfold Frame.select
    have hcols : (if h.tags.filterFh = true then x.filterTimes fh else x).cols = x.cols := by
      split <;> rfl
    rw [hcols]
    by_cases hall : ∀ c ∈ cs, c ∈ x.cols
    · rw [if_pos hall, if_pos hall]
      simp only
      cases h.transform st.2 _ fh <;> rfl
    · rw [if_neg hall, if_neg hall]

/-- **C19**: an effect that uses only labels and values of its columns gets the same data from
any two frames that agree on the columns it was fitted with, however these are ordered and
whatever other columns there are. -/
theorem C19_column_order [DecidableEq τ] {h : Hooks S Y Sc τ V D} (hext : h.Extensional)
    {st0 st : BaseState × S} {y : Y} {x0 : Frame String τ V} {scale : Sc}
    (hfit : baseFit h st0 y (some x0) scale = .ok st) (h0 : x0.rows ≠ [])
    {x x' : Frame String τ V} (hx : ∀ c ∈ x0.cols, c ∈ x.cols) (hx' : ∀ c ∈ x0.cols, c ∈ x'.cols)
    (hsame : SameOn x0.cols x x') (fh : List τ) :
    baseTransform h st (some x) fh = baseTransform h st (some x') fh := by
  have hst : st.1 = ⟨some x0.cols, some true⟩ := by
    rw [baseFit_ok hfit]
    unfold Frame.isEmpty
    cases hc : x0.cols with
    | nil => simp
    | cons a l => simp [h0]
  rw [baseTransform_eq h hst, baseTransform_eq h hst, if_pos hx, if_pos hx']
  congr 2
  refine hext st.2 _ _ fh rfl ?_
  split
  · exact sameOn_filterTimes hsame fh
  · exact hsame

/-- **C19**: a missing column is a `KeyError`. -/
theorem C19_missing_column [DecidableEq τ] {h : Hooks S Y Sc τ V D}
    {st0 st : BaseState × S} {y : Y} {x0 : Frame String τ V} {scale : Sc}
    (hfit : baseFit h st0 y (some x0) scale = .ok st) (h0 : x0.rows ≠ [])
    {x : Frame String τ V} {c : String} (hc : c ∈ x0.cols) (hm : c ∉ x.cols) (fh : List τ) :
    baseTransform h st (some x) fh = .error .keyError := by
  have hst : st.1 = ⟨some x0.cols, some true⟩ := by
    rw [baseFit_ok hfit]
    unfold Frame.isEmpty
    cases hc : x0.cols with
    | nil => simp
    | cons a l => simp [h0]
  rw [baseTransform_eq h hst, if_neg, if_neg]
  · intro hall; exact hm (hall c hc)
  · cases hcols : x0.cols with
    | nil => rw [hcols] at hc; simp at hc
    | cons a l => simp

/-- **C19**: `transform` of a constructed but unfitted effect is a `ValueError`. -/
theorem C19_unfitted [DecidableEq τ] (h : Hooks S Y Sc τ V D) (s : S)
    (X : Option (Frame String τ V)) (fh : List τ) :
    baseTransform h (BaseState.init, s) X fh = .error .valueError := rfl

/-- The built-in array effects (linear, log, Hill) use the default `_transform`, to which C19
applies. -/
theorem C19_builtin (tags : Tags) : (defaultHooks tags : Hooks Unit Y Sc τ V (Tensor V)).Extensional := by
  intro s x x' fh hc hsame
  obtain ⟨hlv, hrows⟩ := hsame
  have hflat : ∀ (l l' : List (Row String τ V)),
      List.Forall₂ (fun r r' : Row String τ V =>
        r.sid = r'.sid ∧ r.time = r'.time ∧ ∀ c ∈ x.cols, r.val c = r'.val c) l l' →
      x.flatVals l = x'.flatVals l' := by
    intro l l' h
    unfold Frame.flatVals
    induction h with
    | nil => rfl
    | @cons r r' l l' hr _ ih =>
      rw [List.flatMap_cons, List.flatMap_cons, ih, ← hc]
      congr 1
      exact List.map_congr_left hr.2.2
  have hsids : x.rows.map Row.sid = x'.rows.map Row.sid := by
    clear hflat
    generalize x.rows = l at hrows
    generalize x'.rows = l' at hrows
    induction hrows with
    | nil => rfl
    | cons hr _ ih => rw [List.map_cons, List.map_cons, hr.1, ih]
  have hrowsOf : ∀ s, List.Forall₂ (fun r r' : Row String τ V =>
        r.sid = r'.sid ∧ r.time = r'.time ∧ ∀ c ∈ x.cols, r.val c = r'.val c)
        (x.rowsOf s) (x'.rowsOf s) := by
    intro s
    unfold Frame.rowsOf
    clear hflat hsids
    generalize x.rows = l at hrows
    generalize x'.rows = l' at hrows
    induction hrows with
    | nil => simp
    | @cons r r' l l' hr _ ih =>
      rw [List.filter_cons, List.filter_cons, hr.1]
      split
      · exact .cons hr ih
      · exact ih
  show x.seriesToTensorOrArray = x'.seriesToTensorOrArray
  unfold Frame.seriesToTensorOrArray Frame.seriesToTensor Frame.series
  rw [← hlv, ← hc, ← hsids, hflat _ _ hrows, hrows.length_eq]
  have hl : ∀ s, (x.rowsOf s).length = (x'.rowsOf s).length := fun s => (hrowsOf s).length_eq
  have hv : ∀ s, x.flatVals (x.rowsOf s) = x'.flatVals (x'.rowsOf s) := fun s =>
    hflat _ _ (hrowsOf s)
  simp only [hl, hv]

/-! ## C20 -/

/-- The array of a fitted array effect, in terms of the filtered frame. -/
theorem default_transform [DecidableEq τ] {tags : Tags} (hfilter : tags.filterFh = true)
    {st : BaseState × Unit} {cs : List String} (hst : st.1 = ⟨some cs, some true⟩)
    (hcs : cs ≠ []) {x : Frame String τ V} (hsub : ∀ c ∈ cs, c ∈ x.cols) (fh : List τ) :
    baseTransform (defaultHooks tags : Hooks Unit Y Sc τ V (Tensor V)) st (some x) fh
      = ({ x.filterTimes fh with cols := cs } : Frame String τ V).seriesToTensorOrArray.map .data := by
  rw [baseTransform_eq _ hst, if_neg, if_pos hsub]
  · simp only [defaultHooks, hfilter, if_true]
  · cases cs with
    | nil => exact absurd rfl hcs
    | cons a l => simp

/-- **C20** for panels: if the rows of every series of `X` are in time order and every series
covers the horizon, then the array has one row per (series, horizon time), and row `k` of the
block of a series holds the values of that series at the `k`-th horizon time. -/
theorem C20_rows_panel [LinearOrder τ] {tags : Tags} (hfilter : tags.filterFh = true)
    {st : BaseState × Unit} {cs : List String} (hst : st.1 = ⟨some cs, some true⟩)
    (hcs : cs ≠ []) {x : Frame String τ V} (hsub : ∀ c ∈ cs, c ∈ x.cols) (hlv : x.nlevels ≠ 1)
    (hrows : x.rows ≠ []) (hsorted : TimeSorted x) {fh : List τ} (hfh : fh.Pairwise (· < ·))
    (hne : fh ≠ [])
    (hcov : ∀ r ∈ x.rows, ∀ t ∈ fh, ∃ r' ∈ x.rows, r'.sid = r.sid ∧ r'.time = t) :
    ∃ t, baseTransform (defaultHooks tags : Hooks Unit Y Sc τ V (Tensor V)) st (some x) fh
        = .ok (.data t) ∧ t.WF ∧ t.shape = [seriesCount x, fh.length, cs.length] ∧
      (∀ r ∈ x.rows, ∃ i, ∀ k tm c col, fh[k]? = some tm → cs[c]? = some col →
        ∃ v, t.get? [i, k, c] = some v ∧ ValueAt x r.sid tm col v) ∧
      (Grouped x → ∀ i s, SeriesAt x i s → ∀ k tm c col, fh[k]? = some tm → cs[c]? = some col →
        ∃ v, t.get? [i, k, c] = some v ∧ ValueAt x s tm col v) := by
  rw [default_transform hfilter hst hcs hsub]
  set f : Frame String τ V := { x.filterTimes fh with cols := cs } with hf
  have hrowsOf : ∀ s, f.rowsOf s = (x.rowsOf s).filter fun r => r.time ∈ fh := fun s =>
    rowsOf_filterTimes x fh s
  have hmemS : ∀ s, s ∈ f.series ↔ s ∈ x.series := by
    intro s
    rw [mem_series, mem_series]
    constructor
    · rintro ⟨r, hr, rfl⟩
      exact ⟨r, (List.mem_filter.1 hr).1, rfl⟩
    · rintro ⟨r, hr, rfl⟩
      obtain ⟨t, ht⟩ := List.exists_mem_of_ne_nil _ hne
      obtain ⟨r', hr', hs, htm⟩ := hcov r hr t ht
      exact ⟨r', List.mem_filter.2 ⟨hr', by simp [htm, ht]⟩, hs⟩
  have htimes : ∀ s ∈ x.series, (f.rowsOf s).map Row.time = fh := by
    intro s hs
    rw [hrowsOf]
    apply times_filtered (rowsOf_sorted hsorted s) hfh
    intro t ht
    obtain ⟨r, hr, rfl⟩ := mem_series.1 hs
    obtain ⟨r', hr', hsid, htm⟩ := hcov r hr t ht
    exact ⟨r', List.mem_filter.2 ⟨hr', by simp [hsid]⟩, htm⟩
  have hlen : ∀ s ∈ f.series, (f.rowsOf s).length = fh.length := by
    intro s hs
    rw [← htimes s ((hmemS s).1 hs), List.length_map]
  have hfrows : f.rows ≠ [] := by
    obtain ⟨r, hr⟩ := List.exists_mem_of_ne_nil _ hrows
    have : r.sid ∈ f.series := (hmemS _).2 (mem_series.2 ⟨r, hr, rfl⟩)
    obtain ⟨r', hr', -⟩ := mem_series.1 this
    exact List.ne_nil_of_mem hr'
  have hcount : f.series.length = seriesCount x := by
    rw [seriesCount_eq, ← List.toFinset_card_of_nodup (show f.series.Nodup from nodup_unique _),
      ← List.toFinset_card_of_nodup (show x.series.Nodup from nodup_unique _)]
    congr 1
    ext s
    rw [List.mem_toFinset, List.mem_toFinset]
    exact hmemS s
  have hT : f.seriesToTensorOrArray = .ok ⟨[f.series.length, fh.length, f.cols.length],
      f.series.flatMap fun s => f.flatVals (f.rowsOf s)⟩ := by
    unfold Frame.seriesToTensorOrArray
    have hflv : f.nlevels ≠ 1 := hlv
    rw [if_neg hflv]
    rcases seriesToTensor_panel hflv hfrows hcs with ⟨T, hT, he⟩ | ⟨⟨s, hs, s', hs', hne'⟩, -⟩
    · rw [he]
      obtain ⟨s, hs⟩ := List.exists_mem_of_ne_nil _ (series_ne_nil hfrows)
      rw [show T = fh.length from (hT s hs).symm.trans (hlen s hs)]
    · exact absurd ((hlen s hs).trans (hlen s' hs').symm) hne'
  have hentry : ∀ i s, f.series[i]? = some s → ∀ k tm c col, fh[k]? = some tm →
      cs[c]? = some col → ∃ v, (⟨[f.series.length, fh.length, f.cols.length],
        f.series.flatMap fun s => f.flatVals (f.rowsOf s)⟩ : Tensor V).get? [i, k, c] = some v ∧
        ValueAt x s tm col v := by
    intro i s hi k tm c col hk hc
    have hs := (hmemS s).1 (List.mem_of_getElem? hi)
    have hk2 : ((f.rowsOf s).map Row.time)[k]? = some tm := by rw [htimes s hs, hk]
    rw [List.getElem?_map] at hk2
    obtain ⟨r, hr, rfl⟩ := Option.map_eq_some_iff.1 hk2
    refine ⟨r.val col, panel_get? hlen hi hr hc, r, ?_, ?_, rfl, rfl⟩
    · have := List.mem_of_getElem? hr
      rw [hrowsOf] at this
      exact (List.mem_filter.1 (List.mem_filter.1 this).1).1
    · have := List.mem_of_getElem? hr
      simpa using (List.mem_filter.1 this).2
  refine ⟨_, by rw [hT]; rfl, panel_wf hlen, by rw [hcount], ?_, ?_⟩
  · intro r hr
    have : r.sid ∈ f.series := (hmemS _).2 (mem_series.2 ⟨r, hr, rfl⟩)
    obtain ⟨i, hi, he⟩ := List.getElem_of_mem this
    exact ⟨i, hentry i r.sid (by rw [List.getElem?_eq_getElem hi, he])⟩
  · intro hg i s hs
    apply hentry i s
    rw [seriesAt_iff] at hs
    have : f.series = x.series := by
      show unique ((x.rows.filter fun r => r.time ∈ fh).map Row.sid) = unique (x.rows.map Row.sid)
      rw [unique_filter_grouped Row.sid _ x.rows hg.list, List.filter_eq_self]
      intro s hs
      obtain ⟨r, hr, rfl⟩ := List.mem_map.1 (mem_unique.1 hs)
      obtain ⟨t, ht⟩ := List.exists_mem_of_ne_nil _ hne
      obtain ⟨r', hr', hsid, htm⟩ := hcov r hr t ht
      rw [List.any_eq_true]
      exact ⟨r', hr', by simp [hsid, htm, ht]⟩
    rw [this]
    exact hs

/-- **C20** for flat data. -/
theorem C20_rows_flat [LinearOrder τ] {tags : Tags} (hfilter : tags.filterFh = true)
    {st : BaseState × Unit} {cs : List String} (hst : st.1 = ⟨some cs, some true⟩)
    (hcs : cs ≠ []) {x : Frame String τ V} (hsub : ∀ c ∈ cs, c ∈ x.cols) (hlv : x.nlevels = 1)
    (hsorted : x.rows.Pairwise fun a b => a.time < b.time) {fh : List τ}
    (hfh : fh.Pairwise (· < ·)) (hcov : ∀ t ∈ fh, ∃ r ∈ x.rows, r.time = t) :
    ∃ t, baseTransform (defaultHooks tags : Hooks Unit Y Sc τ V (Tensor V)) st (some x) fh
        = .ok (.data t) ∧ t.WF ∧ t.shape = [fh.length, cs.length] ∧
      ∀ k tm c col, fh[k]? = some tm → cs[c]? = some col →
        ∃ r ∈ x.rows, r.time = tm ∧ t.get? [k, c] = some (r.val col) := by
  rw [default_transform hfilter hst hcs hsub]
  set f : Frame String τ V := { x.filterTimes fh with cols := cs } with hf
  have htimes : f.rows.map Row.time = fh := times_filtered hsorted hfh hcov
  have hlen : f.rows.length = fh.length := by rw [← htimes, List.length_map]
  refine ⟨⟨[f.rows.length, f.cols.length], f.flatVals f.rows⟩, ?_, ?_, by rw [hlen], ?_⟩
  · unfold Frame.seriesToTensorOrArray
    rw [if_pos (show f.nlevels = 1 from hlv)]
    rfl
  · unfold Tensor.WF
    rw [length_flatVals]
    simp [size]
  · intro k tm c col hk hc
    have hk2 : (f.rows.map Row.time)[k]? = some tm := by rw [htimes, hk]
    rw [List.getElem?_map] at hk2
    obtain ⟨r, hr, rfl⟩ := Option.map_eq_some_iff.1 hk2
    refine ⟨r, (List.mem_filter.1 (List.mem_of_getElem? hr)).1, rfl, ?_⟩
    unfold Tensor.get?
    simp only [ravel, size, Nat.mul_one, Nat.add_zero]
    rw [flatVals_getElem? f _ (List.getElem?_eq_some_iff.1 hr).1
      (List.getElem?_eq_some_iff.1 hc).1, hr]
    show (cs[c]?.map r.val) = _
    rw [hc]
    rfl

/-! Examples. -/

def exWide : Frame String Nat ℚ :=
  { nlevels := 2, cols := ["z", "x", "extra"],
    rows := [⟨["a"], 0, fun c => if c = "x" then 1 else 10⟩,
      ⟨["a"], 1, fun c => if c = "x" then 2 else 20⟩,
      ⟨["a"], 2, fun c => if c = "x" then 3 else 30⟩,
      ⟨["b"], 1, fun c => if c = "x" then 4 else 40⟩,
      ⟨["b"], 2, fun c => if c = "x" then 5 else 50⟩] }

def exFit : PyM (BaseState × Unit) :=
  baseFit (defaultHooks linearTags : Hooks Unit Unit Unit Nat ℚ (Tensor ℚ))
    (BaseState.init, ()) () (some exPanelFit) ()
where exPanelFit : Frame String Nat ℚ :=
  { nlevels := 2, cols := ["x", "z"], rows := [⟨["a"], 0, fun _ => 0⟩, ⟨["b"], 0, fun _ => 0⟩] }

example : (exFit.bind fun st => baseTransform
      (defaultHooks linearTags : Hooks Unit Unit Unit Nat ℚ (Tensor ℚ)) st (some exWide) [1, 2])
    = .ok (.data ⟨[2, 2, 2], [2, 20, 3, 30, 4, 40, 5, 50]⟩) := by decide +kernel
example : (exFit.bind fun st => baseTransform
      (defaultHooks linearTags : Hooks Unit Unit Unit Nat ℚ (Tensor ℚ)) st
      (some { exWide with cols := ["z", "extra"] }) [1, 2])
    = .error .keyError := by decide +kernel
example : TimeSorted exWide := by
  unfold TimeSorted exWide
  simp
example : ∀ r ∈ exWide.rows, ∀ t ∈ [1, 2], ∃ r' ∈ exWide.rows, r'.sid = r.sid ∧ r'.time = t := by
  simp [exWide]

end PV
