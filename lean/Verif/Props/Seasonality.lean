import Mathlib.RingTheory.RootsOfUnity.Complex
import Verif.Model.FourierFeatures
import Verif.Props.Fourier
import Verif.Props.OwnRows

/-!
# C84: seasonal effects

The contribution of a `LinearFourierSeasonality` effect is a fixed combination of sines and cosines
of the date: it does not depend on the values of `X`, repeats with the season, is bounded, and adds
up to zero over a season.
-/

set_option linter.unusedSectionVars false

namespace PV
open Tensor

/-! ## The value for a date -/

section
variable {F Y Sc τ K : Type}

/-- The table of features: the columns are replaced, the values depend on series and date only. -/
def byDate (cols : List String) (val : List String → τ → String → K) (x : Frame String τ K) :
    Frame String τ K :=
  { nlevels := x.nlevels, cols := cols, rows := x.rows.map fun r => ⟨r.sid, r.time, val r.sid r.time⟩ }

/-- The features replace the columns and depend on series and date only. -/
def FourierLib.ByDate (lib : FourierLib F τ K) (cols : List String)
    (val : F → List String → τ → String → K) : Prop :=
  ∀ φ x x', lib.transform φ x = .ok x' → x' = byDate cols (val φ) x

theorem byDate_index (cols : List String) (val : List String → τ → String → K)
    (x : Frame String τ K) : (byDate cols val x).index = x.index := by
  simp [byDate, Frame.index, Function.comp_def]

theorem FourierLib.ByDate.keepsIndex {lib : FourierLib F τ K} {cols : List String}
    {val : F → List String → τ → String → K} (h : lib.ByDate cols val) : lib.KeepsIndex := by
  intro φ x x' hx
  rw [h φ x x' hx]
  exact ⟨rfl, byDate_index _ _ _⟩

/-- What a mode makes of a value. -/
def combine [Mul K] (mode : String) (a v : K) : K := if mode = "additive" then v else a * v

variable [Ring K] [LinearOrder τ] {lib : FourierLib F τ K}
  {compile : String → PyM (String → Bool)} {order : List String → List String} {mode : String}

/-- The inner linear effect. -/
def innerLinear (τ K : Type) [Ring K] (mode : String) (lin : BaseState) :
    EffectObj Unit Unit Unit τ K (Tensor K) K :=
  ⟨{ defaultHooks linearTags with call := fun _ => AddMul.call ⟨mode, linearRaw⟩ }, (lin, ()), (lin, ())⟩

/-- The data and the value of a seasonality effect, in terms of the inner linear effect. -/
theorem fourier_inner {e : EffectObj (FourierState F) Y Sc τ K (Transformed (Tensor K)) K}
    (hc : e.cls = fourierClass lib compile order mode) {x : Frame String τ K} {fh : List τ}
    {d : Transformed (Transformed (Tensor K))} (ht : e.transform (some x) fh = .ok d)
    {θ : SiteEnv K} {p : PyDict (Tensor K)} {v : Tensor K} (hv : e.cls.call e.st θ d p = .ok v) :
    ∃ φ lin cs x1 x2 d', e.st.2.features = some φ ∧ e.st.2.linear = some lin ∧
      lib.transform φ { x.filterTimes fh with cols := cs } = .ok x1 ∧
      (match e.st.2.expand with
        | none => (.ok x1 : PyM (Frame String τ K))
        | some st => expandTransform st x1) = .ok x2 ∧
      (innerLinear τ K mode lin).transform (some x2) fh = .ok d' ∧
      (innerLinear τ K mode lin).cls.call (innerLinear τ K mode lin).st θ d' p = .ok v := by
  obtain ⟨cs, d', rfl, hd⟩ := trend_transform_data (by rw [hc]; rfl) (by rw [hc]; rfl) ht
  rw [hc] at hd hv
  rcases hs : e.st.2 with ⟨f, ex, l⟩
  rw [hs] at hd
  cases f with
  | none => cases hd
  | some φ =>
    cases l with
    | none => cases hd
    | some lin =>
      simp only [fourierClass, hs] at hv
      simp only [fourierClass, fourierHooks, bind, Except.bind] at hd
      split at hd
      · cases hd
      rename_i x1 hx1
      cases ex with
      | none => exact ⟨φ, lin, cs, x1, x1, d', rfl, rfl, hx1, rfl, hd, hv⟩
      | some st =>
        simp only at hd
        split at hd
        · cases hd
        rename_i x2 hx2
        exact ⟨φ, lin, cs, x1, x2, d', rfl, rfl, hx1, hx2, hd, hv⟩

/-- What a successful fit leaves behind. -/
theorem fourier_fitted {y : Y} {x : Frame String τ K} {sc : Sc}
    {e : EffectObj (FourierState F) Y Sc τ K (Transformed (Tensor K)) K}
    (h : (fourierNew lib compile order mode).fit y (some x) sc = .ok e) :
    e.cls = fourierClass lib compile order mode ∧ ∃ φ x1 ex, lib.fit x = .ok φ ∧
      lib.transform φ x = .ok x1 ∧ fourierExpand compile order none x1 = .ok ex ∧
      e.st.2 = ⟨some φ, ex.1, some ⟨some (if ex.2.isEmpty then [] else ex.2.cols), some true⟩⟩ := by
  unfold EffectObj.fit baseFit at h
  rw [if_neg (by rintro ⟨h1, -⟩; cases h1)] at h
  simp only [bind, Except.bind, fourierNew, fourierClass, fourierHooks] at h
  split at h
  · cases h
  rename_i st hst
  split at hst
  · cases hst
  rename_i s hs
  split at hs
  · cases hs
  rename_i φ hφ
  split at hs
  · cases hs
  rename_i x1 hx1
  split at hs
  · cases hs
  rename_i ex hex
  split at hs
  · cases hs
  rename_i lin hlin
  cases hs
  cases hst
  cases h
  refine ⟨rfl, φ, x1, ex, hφ, hx1, hex, ?_⟩
  unfold baseFit at hlin
  rw [if_neg (by rintro ⟨h1, -⟩; cases h1)] at hlin
  simp only [defaultHooks, bind, Except.bind, pure, Except.pure] at hlin
  cases hlin
  rfl

/-- **C84**, one series: the contribution of a seasonality effect at a date is the inner product of
the features of the date with the coefficients (times the trend if the mode is multiplicative).
The values of `X` do not enter. -/
theorem C84_value {cols : List String} {val : F → List String → τ → String → K}
    (hlib : lib.ByDate cols val) {y : Y} {x0 : Frame String τ K} {sc : Sc}
    {e : EffectObj (FourierState F) Y Sc τ K (Transformed (Tensor K)) K}
    (hfit : (fourierNew lib compile order mode).fit y (some x0) sc = .ok e)
    (hlv : x0.nlevels = 1) (hrows : x0.rows ≠ []) :
    ∃ φ, lib.fit x0 = .ok φ ∧ PointwiseEffect e fun θ t a _ =>
      combine mode a (dot (cols.map (val φ [] t)) (θ "coefs").data) := by
  obtain ⟨hc, φ, x1, ex, hφ, hx1, hex, hst⟩ := fourier_fitted hfit
  rw [hlib φ x0 x1 hx1] at hex
  unfold fourierExpand at hex
  rw [if_neg (by rintro ⟨h, -⟩; rw [show (byDate cols (val φ) x0).nlevels = 1 from hlv] at h; omega)]
    at hex
  cases hex
  refine ⟨φ, hφ, ?_⟩
  intro θ x fh d p tr v hx ht hp hv
  obtain ⟨φ', lin, cs, z1, z2, d', h1, h2, h3, h4, h5, h6⟩ := fourier_inner hc ht hv
  rw [hst] at h1 h2 h4
  cases h1
  cases h2
  cases h4
  rw [hlib _ _ _ h3] at h5
  have hz : DatesIn (byDate cols (val φ) { x.filterTimes fh with cols := cs }) fh := by
    refine ⟨hx.flat, ?_, hx.horizon, ?_, ?_⟩
    · have : (x.filterTimes fh).rows.Pairwise fun a b => a.time < b.time := hx.sorted.filter _
      simpa [byDate, List.pairwise_map] using this
    · intro t ht
      obtain ⟨r, hr, rfl⟩ := hx.covers t ht
      exact ⟨_, List.mem_map.2 ⟨r, List.mem_filter.2 ⟨hr, by simpa using ht⟩, rfl⟩, rfl⟩
    · intro r hr
      obtain ⟨r', hr', rfl⟩ := List.mem_map.1 hr
      exact hx.unlabelled r' (List.mem_of_mem_filter hr')
  have hpt := C71_effect (e := innerLinear τ K mode _) (mode := mode) (raw := linearRaw)
    rfl (fun _ _ _ => rfl) (fun _ => rfl) rowWise_linear θ _ fh d' p tr v hz h5 hp h6
  rw [hpt]
  congr 1
  refine List.map_congr_left fun t ht => ?_
  have hcols : ((innerLinear τ K mode ⟨some (if (byDate cols (val φ) x0).isEmpty then []
      else (byDate cols (val φ) x0).cols), some true⟩).st.1.inputCols.getD []) = cols := by
    show (if (byDate cols (val φ) x0).isEmpty then [] else cols) = cols
    split
    · rename_i hem
      unfold Frame.isEmpty at hem
      rw [Bool.or_eq_true] at hem
      rcases hem with hem | hem
      · exact (List.isEmpty_iff.1 hem).symm
      · have := List.isEmpty_iff.1 hem
        simp only [byDate, List.map_eq_nil_iff] at this
        exact absurd this hrows
    · rfl
  rw [hcols]
  unfold rowValue combine
  obtain ⟨r, hr, htm⟩ := hz.covers t ht
  have hval : rowAt (byDate cols (val φ) { x.filterTimes fh with cols := cs }) t = val φ [] t := by
    rw [← htm, rowAt_of_mem hz.sorted hr]
    have hs := hz.unlabelled r hr
    obtain ⟨r', -, rfl⟩ := List.mem_map.1 hr
    simp only at hs ⊢
    rw [hs]
  rw [hval]
  rfl

/-- Only the dates of the horizon are kept. -/
theorem PanelIn.filterTimes {x : Frame String τ K} {ss : List (List String)} {fh : List τ}
    (hx : PanelIn x ss fh) : PanelIn (x.filterTimes fh) ss fh where
  panel := hx.panel
  someSeries := hx.someSeries
  series := by
    have hser : (x.filterTimes fh).series = ss := by
      have hss := hx.series_eq
      rw [← hss]
      show unique ((x.rows.filter fun r => r.time ∈ fh).map Row.sid) = unique (x.rows.map Row.sid)
      rw [unique_filter_grouped Row.sid _ x.rows hx.grouped.list, List.filter_eq_self]
      intro s hs
      obtain ⟨t, ht⟩ := List.exists_mem_of_ne_nil _ hx.someDate
      obtain ⟨r', hr', hsid, htm⟩ := hx.covers s (by rw [← hss]; exact hs) t ht
      rw [List.any_eq_true]
      exact ⟨r', hr', by simp [hsid, htm, ht]⟩
    intro i s
    rw [seriesAt_iff, hser]
  grouped := hx.grouped.sub List.filter_sublist
  sorted := List.Pairwise.filter _ hx.sorted
  horizon := hx.horizon
  someDate := hx.someDate
  covers := by
    intro s hs t ht
    obtain ⟨r, hr, h1, rfl⟩ := hx.covers s hs t ht
    exact ⟨r, List.mem_filter.2 ⟨hr, by simpa using ht⟩, h1, rfl⟩

/-- The feature a column made for a series holds for the series `s`: that of the column it was made
from if it was made for `s`, otherwise zero. -/
def ownFeature (cols : List String) (r : String → K) (s : List String) (n : String) : K :=
  ((cols.find? fun c => colName c s = n).map r).getD 0

theorem ownFeature_own {cols : List String} {r : String → K} {s : List String} {c : String}
    (hc : c ∈ cols) : ownFeature cols r s (colName c s) = r c := by
  unfold ownFeature
  cases h : cols.find? fun c' => colName c' s = colName c s with
  | none => exact absurd (by simp) (List.find?_eq_none.1 h c hc)
  | some c' =>
    have : colName c' s = colName c s := by simpa using List.find?_some h
    rw [colName_inj_left this]
    rfl

theorem ownFeature_other {cols : List String} {r : String → K} {s : List String} {n : String}
    (hn : ∀ c ∈ cols, n ≠ colName c s) : ownFeature cols r s n = 0 := by
  unfold ownFeature
  rw [List.find?_eq_none.2]
  · rfl
  · intro c hc
    simpa using fun h => hn c hc h.symm

/-- The pattern `.*` matches every column. -/
theorem compile_any : ∃ m, reCompile ".*" = some (.ok m) ∧ ∀ c, m c = true :=
  ⟨reMatch (.star .any), rfl, fun _ => reMatch_iff.2 ⟨0, .starNil 0⟩⟩

/-- **C84**, several series: the coefficients belong to pairs of a feature and a training series, and
the contribution for a series at a date is the inner product of the features of the date with the
coefficients of that series (times the trend if the mode is multiplicative).  The values of `X` do
not enter. -/
theorem C84_panel {cols : List String} {val : F → List String → τ → String → K}
    (hlib : lib.ByDate cols val) {y : Y} {x0 : Frame String τ K} {sc : Sc}
    {e : EffectObj (FourierState F) Y Sc τ K (Transformed (Tensor K)) K}
    (hfit : (fourierNew lib compile order mode).fit y (some x0) sc = .ok e)
    (hlv : 1 < x0.nlevels) (hser : 1 < x0.series.length)
    (hcomp : ∀ p c, reCompile p = some c → compile p = c) (ho : ∀ l, (order l).Perm l) :
    ∃ (φ : F) (names : List String), lib.fit x0 = .ok φ ∧
      (∀ n, n ∈ names ↔ n ∉ cols ∧ ∃ c ∈ cols, ∃ s ∈ x0.series, n = colName c s) ∧
      PanelEffect e fun θ s t a _ =>
        combine mode a (dot (names.map (ownFeature cols (val φ s t) s)) (θ "coefs").data) := by
  obtain ⟨m, hm, hall⟩ := compile_any
  replace hm := hcomp _ _ hm
  obtain ⟨hc, φ, x1, ex, hφ, hx1, hex, hst⟩ := fourier_fitted hfit
  have hx1' := hlib φ x0 x1 hx1
  have hs1 : x1.series = x0.series := by
    rw [hx1']
    exact series_congr_index (byDate_index _ _ _)
  have hn1 : x1.nlevels = x0.nlevels := by rw [hx1']; rfl
  have hcols1 : x1.cols = cols := by rw [hx1']; rfl
  unfold fourierExpand at hex
  rw [if_pos ⟨by omega, by rw [hs1]; omega⟩] at hex
  simp only [bind, Except.bind] at hex
  split at hex
  · cases hex
  rename_i st hst'
  split at hex
  · cases hex
  rename_i x2 hx2
  cases hex
  obtain ⟨hskip, hmatched⟩ := expandFit_ok ho hst'
  have hsk : st.skip = false := by
    rw [hskip]
    simp only [beq_eq_false_iff_ne]
    omega
  have hmat : ∀ c, c ∈ st.matched ↔ c ∈ cols := by
    intro c
    rw [hmatched, hcols1]
    exact ⟨fun h => h.1, fun h => ⟨h, ".*", by simp, m, hm, hall c⟩⟩
  have hnames : ∀ n, n ∈ x2.cols ↔ n ∉ cols ∧ ∃ c ∈ cols, ∃ s ∈ x0.series, n = colName c s := by
    intro n
    obtain ⟨-, -, h, -⟩ := expandTransform_ok hsk hx2
    rw [h, hmat, hs1, hcols1]
    simp only [hmat]
    exact ⟨fun h => ⟨h.1, h.2.resolve_left h.1⟩, fun h => ⟨h.1, Or.inr h.2⟩⟩
  have hrows2 : x2.rows ≠ [] := by
    obtain ⟨-, -, -, -, v, h, -⟩ := expandTransform_ok hsk hx2
    rw [h]
    intro hno
    rw [List.map_eq_nil_iff] at hno
    rw [← hs1] at hser
    unfold Frame.series at hser
    rw [hno] at hser
    simp [unique] at hser
  refine ⟨φ, x2.cols, hφ, hnames, ?_⟩
  intro θ x ss fh d p tr v hx ht hp hv
  obtain ⟨φ', lin, cs, z1, z2, d', h1, h2, h3, h4, h5, h6⟩ := fourier_inner hc ht hv
  rw [hst] at h1 h2 h4
  cases h1
  cases h2
  simp only at h4
  have hz1' := hlib _ _ _ h3
  have hz1 : PanelIn z1 ss fh := by
    rw [hz1']
    exact hx.filterTimes.congr (byDate_index _ _ _) rfl
  have hz2 : PanelIn z2 ss fh := by
    obtain ⟨-, hlv2, -, -, w, hw, -⟩ := expandTransform_ok hsk h4
    refine hz1.congr ?_ hlv2
    unfold Frame.index
    rw [hw, List.map_map]
    rfl
  have hpt := C74_effect (e := innerLinear τ K mode _) (mode := mode) (raw := linearRaw)
    rfl (fun _ _ _ => rfl) (fun _ => rfl) rowWise_linear θ _ ss fh d' p tr v hz2 h5 hp h6
  rw [hpt]
  have hin : ((innerLinear τ K mode ⟨some (if x2.isEmpty then [] else x2.cols), some true⟩).st.1.inputCols.getD
      []) = x2.cols := by
    show (if x2.isEmpty then [] else x2.cols) = x2.cols
    split
    · rename_i hem
      unfold Frame.isEmpty at hem
      rw [Bool.or_eq_true] at hem
      rcases hem with hem | hem
      · exact (List.isEmpty_iff.1 hem).symm
      · exact absurd (List.isEmpty_iff.1 hem) hrows2
    · rfl
  rw [hin]
  unfold panelOf
  congr 1
  refine List.flatMap_congr fun s hs => List.map_congr_left fun t ht => ?_
  have hcell : ∀ n ∈ x2.cols, cellAt z2 s t n = ownFeature cols (val φ s t) s n := by
    intro n hn
    obtain ⟨hncols, -⟩ := (hnames n).1 hn
    obtain ⟨hmem, hval⟩ := expand_cell hsk hz1 hs ht h4 n
    have hzc : z1.cols = cols := by rw [hz1']; rfl
    simp only [hmat, hzc] at hmem hval
    by_cases hown : ∃ c ∈ cols, n = colName c s
    · obtain ⟨c, hcc, rfl⟩ := hown
      rw [ownFeature_own hcc, (hval (hmem.2 ⟨hncols, Or.inr ⟨c, hcc, s, hs, rfl⟩⟩)).1 c hcc rfl]
      obtain ⟨r, hr, h7, h8⟩ := hz1.covers s hs t ht
      rw [← h7, ← h8, cellAt_of_mem hz1.sorted hr (by rw [hzc]; exact hcc)]
      rw [hz1'] at hr
      obtain ⟨r', -, rfl⟩ := List.mem_map.1 hr
      rfl
    · have hown' : ∀ c ∈ cols, n ≠ colName c s := fun c h1 h2 => hown ⟨c, h1, h2⟩
      rw [ownFeature_other hown']
      by_cases hnz : n ∈ z2.cols
      · exact (hval hnz).2.1 hown' ((hmem.1 hnz).2.resolve_left hncols)
      · unfold cellAt
        rw [if_neg hnz]
  simp only [cellValue, combine, List.map_congr_left hcell]
  rfl

/-- **C84**: only the coefficients of a series matter for the series. -/
theorem C84_own_coefs {cols names : List String} {r : String → K} {s : List String} {b b' : List K}
    (hlen : b.length = b'.length)
    (hb : ∀ (i : Nat) n, names[i]? = some n → (∃ c ∈ cols, n = colName c s) → b[i]? = b'[i]?) :
    dot (names.map (ownFeature cols r s)) b = dot (names.map (ownFeature cols r s)) b' := by
  induction names generalizing b b' with
  | nil => simp [dot]
  | cons n names ih =>
    cases b with
    | nil =>
      cases b' with
      | nil => rfl
      | cons _ _ => simp at hlen
    | cons u b =>
      cases b' with
      | nil => simp at hlen
      | cons u' b' =>
        have h1 := ih (b := b) (b' := b') (by simpa using hlen)
          fun i n hn hc => by simpa using hb (i + 1) n (by simpa using hn) hc
        have h2 : ownFeature cols r s n * u = ownFeature cols r s n * u' := by
          by_cases hown : ∃ c ∈ cols, n = colName c s
          · have := hb 0 n rfl hown
            simp only [List.getElem?_cons_zero, Option.some.injEq] at this
            rw [this]
          · rw [ownFeature_other fun c h1 h2 => hown ⟨c, h1, h2⟩]
            simp
        simp only [dot, List.map_cons, List.zipWith_cons_cons, List.sum_cons] at h1 ⊢
        rw [h1, h2]

end

/-! ## The season -/

section
variable {τ : Type}

theorem mem_dropRepeated {f : Freq} : ∀ {l : List Freq}, f ∈ dropRepeated l → f ∈ l
  | [], h => h
  | a :: l, h => by
    rcases List.mem_cons.1 h with rfl | h
    · simp
    · exact List.mem_cons_of_mem _ (mem_dropRepeated (List.mem_of_mem_filter h))

/-- The value of every column at time step `n` is that of a sine or cosine with a frequency of at
most half a cycle per step. -/
theorem waveAt_cases (seasons : List Season) (hok : ∀ s ∈ seasons, (s.terms : ℝ) ≤ s.sp / 2)
    (c : String) : (∀ n, waveAt (waves seasons) n c = 0) ∨
      ∃ s ∈ seasons, ∃ k : Nat, 0 < k ∧ (k : ℝ) ≤ s.sp / 2 ∧
        ((∀ n : ℤ, waveAt (waves seasons) n c = Real.cos (n * 2 * k * Real.pi / s.sp)) ∨
          ∀ n : ℤ, waveAt (waves seasons) n c = Real.sin (n * 2 * k * Real.pi / s.sp)) := by
  unfold waveAt
  cases h : (waves seasons).find? fun w => w.name = c with
  | none => exact Or.inl fun _ => rfl
  | some w =>
    right
    have hw := List.mem_of_find?_eq_some h
    obtain ⟨f, hf, hw⟩ := List.mem_flatMap.1 hw
    obtain ⟨s, hs, hf⟩ := List.mem_flatMap.1 (mem_dropRepeated hf)
    obtain ⟨i, hi, rfl⟩ := List.mem_map.1 hf
    have hi' : i + 1 ≤ s.terms := List.mem_range.1 hi
    refine ⟨s, hs, i + 1, by omega, le_trans (by exact_mod_cast hi') (hok s hs), ?_⟩
    simp only [Freq.waves, List.mem_cons, List.not_mem_nil, or_false] at hw
    rcases hw with rfl | rfl
    · right
      intro n
      simp [Wave.at]
    · left
      intro n
      simp [Wave.at]

theorem waveAt_bound (seasons : List Season) (n : ℤ) (c : String) :
    |waveAt (waves seasons) n c| ≤ 1 := by
  unfold waveAt
  cases (waves seasons).find? fun w => w.name = c with
  | none => simp
  | some w =>
    simp only [Option.map_some, Option.getD_some, Wave.at]
    split
    · exact Real.abs_cos_le_one _
    · exact Real.abs_sin_le_one _

/-- The number of steps is a multiple of every season. -/
def FullSeasons (seasons : List Season) (N : ℤ) : Prop :=
  ∀ s ∈ seasons, ∃ j : ℤ, (N : ℝ) = j * s.sp

theorem waveAt_periodic (seasons : List Season) (hok : ∀ s ∈ seasons, (s.terms : ℝ) ≤ s.sp / 2)
    {N : ℤ} (hN : FullSeasons seasons N) (n : ℤ) (c : String) :
    waveAt (waves seasons) (n + N) c = waveAt (waves seasons) n c := by
  rcases waveAt_cases seasons hok c with h | ⟨s, hs, k, hk, hsp, h⟩
  · rw [h, h]
  · obtain ⟨j, hj⟩ := hN s hs
    have hpos : s.sp ≠ 0 := by
      have : (0 : ℝ) < k := by exact_mod_cast hk
      intro h0
      rw [h0] at hsp
      linarith
    have harg : ((n + N : ℤ) : ℝ) * 2 * k * Real.pi / s.sp
        = n * 2 * k * Real.pi / s.sp + ((j * k : ℤ) : ℝ) * (2 * Real.pi) := by
      push_cast
      rw [hj]
      field_simp
    rcases h with h | h
    · rw [h, h, harg, Real.cos_add_int_mul_two_pi]
    · rw [h, h, harg, Real.sin_add_int_mul_two_pi]

/-- The powers of a root of unity other than one add up to zero. -/
theorem sum_powers_zero {w : ℂ} {N : Nat} (h1 : w ≠ 1) (hN : w ^ N = 1) :
    ∑ i ∈ Finset.range N, w ^ i = 0 := by
  have := geom_sum_mul w N
  rw [hN, sub_self] at this
  exact (mul_eq_zero.1 this).resolve_right (sub_ne_zero.2 h1)

/-- A wave adds up to zero over its cycles. -/
theorem sum_wave_zero {sp : ℝ} {k N : Nat} (hk : 0 < k) (hsp : (k : ℝ) ≤ sp / 2) {j : ℤ}
    (hj : (N : ℝ) = j * sp) (n : ℤ) :
    ∑ i ∈ Finset.range N, Real.cos (((n + i : ℤ) : ℝ) * 2 * k * Real.pi / sp) = 0 ∧
    ∑ i ∈ Finset.range N, Real.sin (((n + i : ℤ) : ℝ) * 2 * k * Real.pi / sp) = 0 := by
  have hk' : (0 : ℝ) < k := by exact_mod_cast hk
  have hpos : 0 < sp := by linarith
  set α : ℝ := 2 * k * Real.pi / sp with hα
  have hw1 : Complex.exp (α * Complex.I) ≠ 1 := by
    intro h
    obtain ⟨q, hq⟩ := Complex.exp_eq_one_iff.1 h
    have hq' : α = q * (2 * Real.pi) := by
      have := congrArg Complex.im hq
      simpa using this
    have h2 : (k : ℝ) / sp = q := by
      rw [hα] at hq'
      have hpi := Real.pi_pos
      field_simp at hq' ⊢
      nlinarith
    have h3 : (0 : ℝ) < q := by rw [← h2]; positivity
    have h4 : (q : ℝ) < 1 := by
      rw [← h2, div_lt_one hpos]
      linarith
    have h5 : 0 < q := by exact_mod_cast h3
    have h6 : q < 1 := by exact_mod_cast h4
    omega
  have hwN : Complex.exp (α * Complex.I) ^ N = 1 := by
    rw [← Complex.exp_nat_mul, Complex.exp_eq_one_iff]
    refine ⟨j * k, ?_⟩
    have : (N : ℝ) * α = j * k * (2 * Real.pi) := by
      rw [hα, hj]
      field_simp
    have hc : ((N : ℝ) : ℂ) * (α : ℂ) = ((j * k * (2 * Real.pi) : ℝ) : ℂ) := by
      rw [← this]
      push_cast
      rfl
    push_cast at hc ⊢
    linear_combination Complex.I * hc
  have hsum := sum_powers_zero hw1 hwN
  have hall : ∑ i ∈ Finset.range N, Complex.exp ((((n + i : ℤ) : ℝ) * 2 * k * Real.pi / sp : ℝ)
      * Complex.I) = 0 := by
    have : ∀ i ∈ Finset.range N, Complex.exp ((((n + i : ℤ) : ℝ) * 2 * k * Real.pi / sp : ℝ)
        * Complex.I) = Complex.exp ((n * α : ℝ) * Complex.I) * Complex.exp (α * Complex.I) ^ i := by
      intro i _
      rw [← Complex.exp_nat_mul, ← Complex.exp_add]
      congr 1
      have : (((n + i : ℤ) : ℝ) * 2 * k * Real.pi / sp : ℝ) = n * α + i * α := by
        rw [hα]
        push_cast
        ring
      rw [this]
      push_cast
      ring
    rw [Finset.sum_congr rfl this, ← Finset.mul_sum, hsum, mul_zero]
  constructor
  · have := congrArg Complex.re hall
    rw [Complex.re_sum] at this
    simpa only [Complex.exp_ofReal_mul_I_re, Complex.zero_re] using this
  · have := congrArg Complex.im hall
    rw [Complex.im_sum] at this
    simpa only [Complex.exp_ofReal_mul_I_im, Complex.zero_im] using this

theorem waveAt_sum (seasons : List Season) (hok : ∀ s ∈ seasons, (s.terms : ℝ) ≤ s.sp / 2)
    {N : Nat} (hN : FullSeasons seasons N) (n : ℤ) (c : String) :
    ∑ i ∈ Finset.range N, waveAt (waves seasons) (n + i) c = 0 := by
  rcases waveAt_cases seasons hok c with h | ⟨s, hs, k, hk, hsp, h⟩
  · simp [h]
  · obtain ⟨j, hj⟩ := hN s hs
    have := sum_wave_zero hk hsp (N := N) (j := j) (by simpa using hj) n
    rcases h with h | h
    · simp only [h]
      exact this.1
    · simp only [h]
      exact this.2

theorem dot_bound (names : List String) {g : String → ℝ} (hg : ∀ n, |g n| ≤ 1) (b : List ℝ) :
    |dot (names.map g) b| ≤ (b.map fun v => |v|).sum := by
  induction names generalizing b with
  | nil =>
    simp only [dot, List.map_nil, List.zipWith_nil_left, List.sum_nil, abs_zero]
    exact List.sum_nonneg fun v hv => by
      obtain ⟨u, -, rfl⟩ := List.mem_map.1 hv
      exact abs_nonneg u
  | cons n names ih =>
    cases b with
    | nil => simp [dot]
    | cons u b =>
      have h1 := ih b
      simp only [dot, List.map_cons, List.zipWith_cons_cons, List.sum_cons] at h1 ⊢
      refine (abs_add_le _ _).trans (add_le_add ?_ h1)
      rw [abs_mul]
      exact mul_le_of_le_one_left (abs_nonneg u) (hg n)

theorem dot_sum_zero (names : List String) {N : Nat} {g : Nat → String → ℝ}
    (hg : ∀ n, ∑ i ∈ Finset.range N, g i n = 0) (b : List ℝ) :
    ∑ i ∈ Finset.range N, dot (names.map (g i)) b = 0 := by
  induction names generalizing b with
  | nil => simp [dot]
  | cons n names ih =>
    cases b with
    | nil => simp [dot]
    | cons u b =>
      have h1 := ih b
      simp only [dot, List.map_cons, List.zipWith_cons_cons, List.sum_cons] at h1 ⊢
      rw [Finset.sum_add_distrib, h1, ← Finset.sum_mul, hg, zero_mul, add_zero]

/-- The sktime features are features of the date. -/
theorem fourierFeatures_byDate (position : τ → ℤ) (seasons : List Season) :
    (fourierFeatures position seasons).ByDate (unique ((waves seasons).map Wave.name))
      fun φ s t => waveAt (waves seasons) (position t - firstStep φ s) := by
  intro φ x x' h
  unfold fourierFeatures at h
  simp only at h
  split at h
  · cases h
    rfl
  · cases h

theorem fourierFeatures_fit {position : τ → ℤ} {seasons : List Season} {x : Frame String τ ℝ}
    {φ : List (List String × ℤ)} (h : (fourierFeatures position seasons).fit x = .ok φ) :
    ∀ s ∈ seasons, (s.terms : ℝ) ≤ s.sp / 2 := by
  unfold fourierFeatures at h
  simp only at h
  split at h
  · assumption
  · cases h

/-- Specification of a seasonal pattern: `v θ t` is the contribution at date `t` before the mode. -/
structure Seasonal (position : τ → ℤ) (seasons : List Season) (v : SiteEnv ℝ → τ → ℝ) : Prop where
  /-- it repeats after whole seasons -/
  periodic : ∀ θ t t' N, FullSeasons seasons N → position t' = position t + N → v θ t' = v θ t
  /-- it is bounded by the coefficients -/
  bounded : ∀ θ t, |v θ t| ≤ ((θ "coefs").data.map fun b => |b|).sum
  /-- it adds up to zero over whole seasons -/
  zeroSum : ∀ θ (d : Nat → τ) (p : ℤ) (N : Nat), FullSeasons seasons N →
    (∀ i < N, position (d i) = p + i) → ∑ i ∈ Finset.range N, v θ (d i) = 0

theorem seasonal_of {position : τ → ℤ} {seasons : List Season}
    (hok : ∀ s ∈ seasons, (s.terms : ℝ) ≤ s.sp / 2) (names : List String)
    (g : (String → ℝ) → String → ℝ) (hg : ∀ n, (∀ r, g r n = 0) ∨ ∃ c, ∀ r, g r n = r c) (p0 : ℤ) :
    Seasonal position seasons fun θ t =>
      dot (names.map (g (waveAt (waves seasons) (position t - p0)))) (θ "coefs").data where
  periodic := by
    intro θ t t' N hN ht
    have : waveAt (waves seasons) (position t' - p0) = waveAt (waves seasons) (position t - p0) := by
      funext c
      rw [ht, show position t + N - p0 = (position t - p0) + N by ring,
        waveAt_periodic seasons hok hN]
    rw [this]
  bounded := by
    intro θ t
    refine dot_bound names (fun n => ?_) _
    rcases hg n with h | ⟨c, h⟩
    · rw [h]; simp
    · rw [h]; exact waveAt_bound _ _ _
  zeroSum := by
    intro θ d p N hN hd
    refine dot_sum_zero names (fun n => ?_) _
    rcases hg n with h | ⟨c, h⟩
    · simp [h]
    · simp only [h]
      rw [← waveAt_sum seasons hok hN (p - p0) c]
      refine Finset.sum_congr rfl fun i hi => ?_
      rw [hd i (Finset.mem_range.1 hi), show p + i - p0 = p - p0 + i by ring]

variable {Y Sc : Type} [LinearOrder τ] {position : τ → ℤ} {seasons : List Season}
  {compile : String → PyM (String → Bool)} {order : List String → List String} {mode : String}

/-- **C84**, one series: the contribution of a fitted seasonality effect is a seasonal pattern
(times the trend if the mode is multiplicative): it repeats, is bounded by the sum of the sizes of
the coefficients and adds up to zero over whole seasons.  The values of `X` do not enter. -/
theorem C84_seasonal {y : Y} {x0 : Frame String τ ℝ} {sc : Sc}
    {e : EffectObj (FourierState _) Y Sc τ ℝ (Transformed (Tensor ℝ)) ℝ}
    (hfit : (fourierNew (fourierFeatures position seasons) compile order mode).fit y (some x0) sc
      = .ok e) (hlv : x0.nlevels = 1) (hrows : x0.rows ≠ []) :
    ∃ v, Seasonal position seasons v ∧ PointwiseEffect e fun θ t a _ => combine mode a (v θ t) := by
  obtain ⟨φ, hφ, hpt⟩ := C84_value (fourierFeatures_byDate position seasons) hfit hlv hrows
  exact ⟨_, seasonal_of (fourierFeatures_fit hφ) _ id (fun n => Or.inr ⟨n, fun _ => rfl⟩)
    (firstStep φ []), hpt⟩

/-- **C84**, several series: every series has its own seasonal pattern. -/
theorem C84_seasonal_panel {y : Y} {x0 : Frame String τ ℝ} {sc : Sc}
    {e : EffectObj (FourierState _) Y Sc τ ℝ (Transformed (Tensor ℝ)) ℝ}
    (hfit : (fourierNew (fourierFeatures position seasons) compile order mode).fit y (some x0) sc
      = .ok e) (hlv : 1 < x0.nlevels) (hser : 1 < x0.series.length)
    (hcomp : ∀ p c, reCompile p = some c → compile p = c) (ho : ∀ l, (order l).Perm l) :
    ∃ v : List String → SiteEnv ℝ → τ → ℝ, (∀ s, Seasonal position seasons (v s)) ∧
      PanelEffect e fun θ s t a _ => combine mode a (v s θ t) := by
  obtain ⟨φ, names, hφ, -, hpt⟩ := C84_panel (fourierFeatures_byDate position seasons) hfit hlv hser
    hcomp ho
  refine ⟨_, fun s => seasonal_of (fourierFeatures_fit hφ) names
    (fun r => ownFeature (unique ((waves seasons).map Wave.name)) r s) (fun n => ?_)
    (firstStep φ s), hpt⟩
  by_cases h : ∃ c ∈ unique ((waves seasons).map Wave.name), n = colName c s
  · obtain ⟨c, hc, rfl⟩ := h
    exact Or.inr ⟨c, fun _ => ownFeature_own hc⟩
  · exact Or.inl fun _ => ownFeature_other fun c h1 h2 => h ⟨c, h1, h2⟩

end
/-! ## Non-vacuity: a week of days, three frequencies -/

def exSeasons84 : List Season := [⟨"7", 7, 3⟩]

theorem exSeasons84_ok : ∀ s ∈ exSeasons84, (s.terms : ℝ) ≤ s.sp / 2 := by
  intro s hs
  simp only [exSeasons84, List.mem_singleton] at hs
  subst hs
  norm_num

example : FullSeasons exSeasons84 7 := by
  intro s hs
  simp only [exSeasons84, List.mem_singleton] at hs
  subst hs
  exact ⟨1, by norm_num⟩

/-- Two days of one series. -/
def exX84 : Frame String ℤ ℝ := ⟨1, ["a"], [⟨[], 3, fun _ => 5⟩, ⟨[], 4, fun _ => 6⟩]⟩

/-- Two days of two series. -/
def exXP84 : Frame String ℤ ℝ :=
  ⟨2, ["a"], [⟨["p"], 3, fun _ => 5⟩, ⟨["p"], 4, fun _ => 6⟩, ⟨["q"], 3, fun _ => 5⟩,
    ⟨["q"], 4, fun _ => 6⟩]⟩

theorem exists_fit84 {x : Frame String ℤ ℝ} {ex : Option ExpandState × Frame String ℤ ℝ}
    (hex : fourierExpand someCompile id none (byDate (unique ((waves exSeasons84).map Wave.name))
      (fun s t => waveAt (waves exSeasons84) (t - firstStep (x.series.map fun s =>
        (s, (((x.rowsOf s).map fun r => r.time).min?).getD 0)) s)) x) = .ok ex) :
    ∃ e : EffectObj (FourierState _) Unit Unit ℤ ℝ _ ℝ,
      (fourierNew (fourierFeatures id exSeasons84) someCompile id "additive").fit () (some x) ()
        = .ok e := by
  have h1 : (fourierFeatures (id : ℤ → ℤ) exSeasons84).fit x
      = .ok (x.series.map fun s => (s, (((x.rowsOf s).map fun r => r.time).min?).getD 0)) := by
    unfold fourierFeatures
    simp only
    rw [if_pos exSeasons84_ok]
    rfl
  have h2 : (fourierFeatures (id : ℤ → ℤ) exSeasons84).transform
      (x.series.map fun s => (s, (((x.rowsOf s).map fun r => r.time).min?).getD 0)) x = .ok (byDate
      (unique ((waves exSeasons84).map Wave.name)) (fun s t => waveAt (waves exSeasons84)
        (t - firstStep (x.series.map fun s =>
          (s, (((x.rowsOf s).map fun r => r.time).min?).getD 0)) s)) x) := by
    unfold fourierFeatures
    simp only
    rw [if_pos]
    · rfl
    · intro r hr
      rw [List.map_map]
      refine List.mem_map.2 ⟨r.sid, mem_series.2 ⟨r, hr, rfl⟩, rfl⟩
  simp only [EffectObj.fit, baseFit, fourierNew, fourierClass, fourierHooks, fourierMade,
    bind, Except.bind, pure, Except.pure, h1, h2, hex, reduceCtorEq, and_false,
    false_and, if_false, defaultHooks]
  exact ⟨_, rfl⟩

example : exX84.nlevels = 1 ∧ exX84.rows ≠ [] ∧
    ∃ e : EffectObj (FourierState _) Unit Unit ℤ ℝ _ ℝ,
      (fourierNew (fourierFeatures id exSeasons84) someCompile id "additive").fit () (some exX84) ()
        = .ok e :=
  ⟨rfl, by simp [exX84], exists_fit84 (ex := (none, _)) rfl⟩

example : 1 < exXP84.nlevels ∧ 1 < exXP84.series.length ∧
    ∃ e : EffectObj (FourierState _) Unit Unit ℤ ℝ _ ℝ,
      (fourierNew (fourierFeatures id exSeasons84) someCompile id "additive").fit () (some exXP84) ()
        = .ok e := by
  refine ⟨by decide, by decide, ?_⟩
  obtain ⟨m, hm, hall⟩ := compile_any
  set x1 := byDate (unique ((waves exSeasons84).map Wave.name))
      (fun s t => waveAt (waves exSeasons84) (t - firstStep (exXP84.series.map fun s =>
        (s, (((exXP84.rowsOf s).map fun r => r.time).min?).getD 0)) s)) exXP84 with hx1
  have hst : expandFit someCompile id [".*"] x1 = .ok ⟨false, x1.cols⟩ := by
    unfold expandFit
    simp only [compileAll, someCompile, hm, Option.getD_some, bind, Except.bind, pure, Except.pure,
      List.any_cons, List.any_nil, hall, Bool.or_false, List.filter_true, id]
    rfl
  have hcond : x1.nlevels > 1 ∧ x1.series.length > 1 := by
    rw [series_congr_index (byDate_index _ _ _)]
    decide
  cases hx2 : expandTransform ⟨false, x1.cols⟩ x1 with
  | error e =>
    obtain ⟨-, h | ⟨-, -, c, h1, h2⟩⟩ := expandTransform_error hx2
    · exact absurd h.1 (by show (2 : Nat) ≠ 1; decide)
    · exact absurd h1 h2
  | ok x2 =>
    refine exists_fit84 (ex := (some ⟨false, x1.cols⟩, x2)) ?_
    rw [← hx1]
    unfold fourierExpand
    rw [if_pos hcond, hst]
    simp only [bind, Except.bind, hx2]
    rfl

end PV
