import Mathlib.Algebra.BigOperators.Group.List.Lemmas
import Verif.Props.EffectData
import Verif.Props.MeanSum
import Verif.Lemmas.PredictFrames

/-!
# C21: exogenous rows missing at prediction time
-/

set_option linter.unusedSectionVars false

namespace PV
open Tensor

section counting
variable {ι τ V : Type}

theorem unique_perm_dedup {α : Type} [DecidableEq α] (l : List α) : (unique l).Perm l.dedup := by
  rw [List.perm_ext_iff_of_nodup]
  · intro a; rw [List.mem_dedup]; exact mem_unique
  · exact nodup_unique l
  · exact l.nodup_dedup

theorem sum_filter_length {α β : Type} [DecidableEq α] (g : β → α) (l : List β) :
    ((unique (l.map g)).map fun s => (l.filter fun r => g r = s).length).sum = l.length := by
  have h := List.sum_map_count_dedup_eq_length (l.map g)
  rw [List.length_map] at h
  rw [← h, ((unique_perm_dedup (l.map g)).map _).sum_eq]
  congr 1
  apply List.map_congr_left
  intro s _
  rw [List.count_eq_countP, List.countP_map, List.countP_eq_length_filter]
  congr 1

/-- The rows of all series together are the rows of the frame. -/
theorem sum_rowsOf (f : Frame ι τ V) :
    (f.series.map fun s => (f.rowsOf s).length).sum = f.rows.length :=
  sum_filter_length Row.sid f.rows

theorem sum_map_mul_const {α : Type} (l : List α) (g : α → Nat) (c : Nat) :
    (l.map fun a => g a * c).sum = (l.map g).sum * c := by
  induction l with
  | nil => simp
  | cons a l ih => simp [ih, Nat.add_mul]

/-- The number of entries handed to `predict`: one per row and column. -/
theorem length_seriesToTensorOrArray {f : Frame ι τ V} {t : Tensor V}
    (h : f.seriesToTensorOrArray = .ok t) (hr : f.nlevels = 1 ∨ f.rows ≠ []) :
    t.data.length = f.rows.length * f.cols.length ∧ t.shape.getLast? = some f.cols.length := by
  unfold Frame.seriesToTensorOrArray at h
  split at h
  · cases h
    exact ⟨length_flatVals f _, rfl⟩
  · rename_i hlv
    unfold Frame.seriesToTensor at h
    split at h
    · cases h
    · have hne := series_ne_nil (hr.resolve_left hlv)
      split at h
      · rename_i hs; exact absurd hs hne
      · rename_i s ss hs
        split at h
        · cases h
          refine ⟨?_, rfl⟩
          simp only
          rw [← hs, List.length_flatMap, ← sum_rowsOf f]
          simp only [length_flatVals]
          rw [sum_map_mul_const]
        · cases h

end counting

variable {Y Sc τ K : Type} [Field K] [LinearOrder K] [IsStrictOrderedRing K] [LinearOrder τ]

/-- An effect that computes one value per row of its array (last axis: columns).  This holds
of the linear effect, and of the elementwise effects (log, Hill) on the single column that
they can be fitted with. -/
def OneValuePerRow (raw : EffectCall (Transformed (Tensor K)) K) : Prop :=
  ∀ θ t p v, raw θ (.data t) p = .ok v →
    ∃ c, t.shape.getLast? = some c ∧ v.data.length * c = t.data.length

theorem addMul_length {e : AddMul (Transformed (Tensor K)) K} {θ : SiteEnv K}
    {d : Transformed (Tensor K)} {p : PyDict (Tensor K)} {trend v : Tensor K}
    (ht : p.get? "trend" = some trend) (hw : trend.WF) (h : e.call θ d p = .ok v) :
    ∃ x, e.raw θ d p = .ok x ∧ x.data.length = trend.data.length := by
  cases hx : e.raw θ d p with
  | error err =>
    have hg : p.getItem "trend" = .ok trend := PyDict.getItem_ok.2 ht
    unfold AddMul.call AddMul.predict basePredict at h
    simp only [hg, bind, Except.bind, Option.getD_some, hx] at h
    split at h <;> cases h
  | ok x =>
    rw [addMul_predict_unfold ht hw hx] at h
    split at h
    · rename_i hl; exact ⟨x, rfl, hl⟩
    · cases h

/-- Fewer rows than (series, horizon time) pairs are left when one pair is missing. -/
theorem rows_lt {x : Frame String τ K} {fh : List τ} {ss : List (List String)}
    (hidx : x.index.Nodup) (hser : ∀ r ∈ x.rows, r.sid ∈ ss) (hss : ss.Nodup) (hfh : fh.Nodup)
    {s : List String} {t : τ} (hs : s ∈ ss) (ht : t ∈ fh) (hm : (s, t) ∉ x.index) :
    (x.filterTimes fh).rows.length < (product ss fh).length := by
  have hsub : (x.filterTimes fh).index ⊆ (product ss fh).erase (s, t) := by
    intro p hp
    obtain ⟨r, hr, rfl⟩ := List.mem_map.1 hp
    obtain ⟨hr1, hr2⟩ := List.mem_filter.1 hr
    rw [decide_eq_true_eq] at hr2
    have hmem : (r.sid, r.time) ∈ product ss fh := by
      unfold product
      exact List.mem_flatMap.2 ⟨r.sid, hser r hr1, List.mem_map.2 ⟨r.time, hr2, rfl⟩⟩
    refine (List.mem_erase_of_ne ?_).2 hmem
    intro he
    exact hm (he ▸ List.mem_map.2 ⟨r, hr1, rfl⟩)
  have hnd : (x.filterTimes fh).index.Nodup :=
    hidx.sublist (List.Sublist.map _ List.filter_sublist)
  have hle := (List.subperm_of_subset hnd hsub).length_le
  have hmem : (s, t) ∈ product ss fh :=
    List.mem_flatMap.2 ⟨s, hs, List.mem_map.2 ⟨t, ht, rfl⟩⟩
  rw [List.length_erase_of_mem hmem] at hle
  have hpos := List.length_pos_of_mem hmem
  have : (x.filterTimes fh).index.length = (x.filterTimes fh).rows.length := by
    simp [Frame.index]
  omega

theorem forecastSeries_nodup (ctx : Fitted K) : (forecastSeries ctx).Nodup := by
  unfold forecastSeries
  split
  · simp
  · exact (nodup_unique _).filter _

/-- **C21**: suppose an effect of the forecaster uses columns of `X` (and computes one value
per row), and `X` has no row for some series at some horizon time.  Then, whatever the trend
and the other effects do, either computing the mean fails or turning the draws of the
observation into a forecast fails: no forecast comes out.  (`hsome`: a hierarchical
forecaster asserts that the horizon times occur in `X` at all.) -/
theorem C21_missing_row {tags : Tags} (hfilter : tags.filterFh = true)
    {st : BaseState × Unit} {cs : List String} (hst : st.1 = ⟨some cs, some true⟩)
    (hcs : cs ≠ []) {x : Frame String τ K} {fh : List τ} {ctx : Fitted K}
    (hidx : x.index.Nodup) (hser : ∀ r ∈ x.rows, r.sid ∈ forecastSeries ctx) (hfh : fh.Nodup)
    {s : List String} {t : τ} (hs : s ∈ forecastSeries ctx) (ht : t ∈ fh)
    (hm : (s, t) ∉ x.index)
    (hsome : x.nlevels = 1 ∨ ∃ r ∈ x.rows, r.time ∈ fh)
    {name : String} {e : AddMul (Transformed (Tensor K)) K} (hraw : OneValuePerRow e.raw)
    {trendFn : EffectCall (Transformed (Tensor K)) K} {td : Transformed (Tensor K)}
    {data : PyDict (Transformed (Tensor K))}
    {effects : PyDict (EffectCall (Transformed (Tensor K)) K)} {θ : SiteEnv K}
    (hn : (effects.map Prod.fst).Nodup) (htr : "trend" ∉ effects.map Prod.fst)
    (he : (name, e.call) ∈ effects) (hsh : ∀ e ∈ effects, ShapedLikeTrend e.2)
    (htrend : ∀ t, trendFn θ td [] = .ok t → t.WF ∧ t.ndim ≠ 1)
    {obs : Tensor K} {S T N k : Nat}
    (hobs : obs.shape = S :: (List.replicate k 1 ++ [T, N])) :
    ¬ ∃ d m f, baseTransform (defaultHooks tags : Hooks Unit Y Sc τ K (Tensor K)) st (some x) fh
        = .ok d ∧ data.get? name = some d ∧
      computeMean trendFn td data effects θ = .ok m ∧ size m.mean.shape = T * N ∧
      predictSamples ctx obs fh = .ok f := by
  rintro ⟨d, m, f, hd, hdata, hmean, hsize, hpred⟩
  obtain ⟨trend, vals, htv, hrun, -⟩ := C24_sees_earlier hn htr hmean
  obtain ⟨hw, hnd⟩ := htrend trend htv
  -- the array of the effect
  rw [baseTransform_eq _ hst, if_neg (by cases cs with
    | nil => exact absurd rfl hcs
    | cons a l => simp)] at hd
  split at hd
  swap
  · cases hd
  rename_i hsub
  simp only [defaultHooks, hfilter, if_true] at hd
  cases hta : ({ x.filterTimes fh with cols := cs } : Frame String τ K).seriesToTensorOrArray with
  | error err => rw [hta] at hd; cases hd
  | ok ta =>
    rw [hta] at hd
    have hd' : Transformed.data ta = d := by
      simpa [Except.map] using hd
    subst hd'
    obtain ⟨hlen, hlast⟩ := length_seriesToTensorOrArray hta (by
      rcases hsome with h | ⟨r, hr, hrt⟩
      · exact Or.inl h
      · exact Or.inr (List.ne_nil_of_mem (List.mem_filter.2 ⟨hr, by simpa using hrt⟩)))
    -- the value of the effect
    obtain ⟨i, hi, hie⟩ := List.getElem_of_mem he
    have hvi : i < vals.length := by rw [hrun.1]; exact hi
    have hval : ∀ (j : Nat) (hj : j < vals.length), vals[j].shape = trend.shape := by
      intro j hj
      have hj' : j < effects.length := by rw [← hrun.1]; exact hj
      obtain ⟨dj, -, hf⟩ := hrun.2 j effects[j].1 effects[j].2 vals[j]
        (List.getElem?_eq_getElem hj') (List.getElem?_eq_getElem hj)
      exact hsh _ (List.getElem_mem hj') _ _ _ _ _ rfl hw hnd hf
    obtain ⟨d', hd', hf⟩ := hrun.2 i name e.call vals[i]
      (by rw [List.getElem?_eq_getElem hi, hie]) (List.getElem?_eq_getElem hvi)
    rw [hdata] at hd'
    cases hd'
    obtain ⟨v, hv, hvl⟩ := addMul_length (trend := trend) rfl hw hf
    obtain ⟨c, hc, hcv⟩ := hraw _ _ _ _ hv
    rw [hlast] at hc
    have hcc : c = cs.length := (Option.some.inj hc).symm
    have hrowsv : v.data.length = (x.filterTimes fh).rows.length := by
      rw [hlen, hcc] at hcv
      exact Nat.eq_of_mul_eq_mul_right (List.length_pos_iff.2 hcs) hcv
    -- the mean
    obtain ⟨m', hm', hms, -, -⟩ := C24_mean_is_sum hn htr htv hw (by
      intro v hv
      obtain ⟨j, hj, rfl⟩ := List.getElem_of_mem hv
      exact hval j hj) hrun
    rw [hmean] at hm'
    cases hm'
    -- the frame
    obtain ⟨-, g, hg, -⟩ := predictSamples_unfold hobs hpred
    have hNT := (frameOfMatrix_ok hg).1
    have hlt := rows_lt hidx hser (forecastSeries_nodup ctx) hfh hs ht hm
    have hwl : trend.data.length = size trend.shape := hw
    rw [hms] at hsize
    have : N * T = T * N := Nat.mul_comm _ _
    omega

/-! Example: horizon 1, 2; an effect on the single column "a" returning that column.  With both
rows the mean is computed, with one row missing `reshape` to the trend's shape fails; a trend
that shrinks with `X` moves the failure to the construction of the frame. -/

def exRaw21 : EffectCall (Transformed (Tensor ℚ)) ℚ := fun _ d _ =>
  match d with
  | .data t => .ok t
  | .emptyDict => .error .typeError
def exEff21 : AddMul (Transformed (Tensor ℚ)) ℚ := ⟨"additive", exRaw21⟩
def exX21 (ts : List Int) : Frame String Int ℚ :=
  ⟨1, ["a"], ts.map fun t => ⟨[], t, fun _ => t⟩⟩
def exData21 (ts : List Int) : PyM (Transformed (Tensor ℚ)) :=
  baseTransform (defaultHooks baseTags : Hooks Unit Unit Unit Int ℚ (Tensor ℚ))
    (⟨some ["a"], some true⟩, ()) (some (exX21 ts)) [1, 2]
def exMean21 (n : Nat) (ts : List Int) : PyM (Tensor ℚ) := do
  let d ← exData21 ts
  let m ← computeMean (fun _ _ _ => .ok ⟨[n, 1], List.replicate n 10⟩) .emptyDict
    [("e", d)] [("e", exEff21.call)] (fun _ => ⟨[], []⟩)
  pure m.mean
def exCtx21 : Fitted ℚ := ⟨1, [[]], false, false, .float 2⟩

example : exMean21 2 [1, 2, 3] = .ok ⟨[2, 1], [11, 12]⟩ := by decide +kernel
example : exMean21 2 [1, 3] = .error .typeError := by decide +kernel
example : exMean21 1 [1, 3] = .ok ⟨[1, 1], [11]⟩ := by decide +kernel
example : (predictSamples exCtx21 ⟨[3, 1, 1], [11, 12, 13]⟩ [(1 : Int), 2]).map
    (fun f => f.values) = .error .valueError := by decide +kernel
example : (predictSamples exCtx21 ⟨[3, 2, 1], [11, 12, 13, 14, 15, 16]⟩ [(1 : Int), 2]).map
    (fun f => f.values) = .ok [[22, 26, 30], [24, 28, 32]] := by decide +kernel

example : OneValuePerRow (fun θ d p => match d with
    | .data t => if t.shape.getLast? = some 1 then exRaw21 θ d p else .error .typeError
    | .emptyDict => .error .typeError) := by
  intro θ t p v h
  simp only at h
  split at h
  · rename_i hl
    cases h
    exact ⟨1, hl, by simp⟩
  · cases h

end PV
