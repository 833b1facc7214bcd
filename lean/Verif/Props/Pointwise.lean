import Mathlib.Algebra.Order.Ring.Rat
import Mathlib.Data.Rat.Floor
import Verif.Props.EffectData
import Verif.Props.EffectModes
import Verif.Props.FitEffects
import Verif.Props.MeanSum
import Verif.Props.Logistic
import Verif.Props.Trend
import Verif.Lemmas.EffectData
import Verif.Lemmas.TrendTensor
import Verif.Model.TrendEffects
import Verif.Spec.Pointwise

/-!
# C71: the forecast for a date does not depend on which other dates are requested

The mean of the model, computed from the same parameters, is a function of the date: trend at the
date plus the effects computed from the values of `X` at the date.
-/

set_option linter.unusedSectionVars false

namespace PV
open Tensor

section
variable {S Y Sc τ V D K : Type}

theorem columnOf_wf (l : List K) : (columnOf l).WF := by simp [columnOf, WF, size]

theorem columnOf_get? (l : List K) (i : Nat) : (columnOf l).get? [i, 0] = l[i]? := by
  simp [columnOf, get?, ravel, size]

theorem eq_columnOf {v : Tensor K} {l : List K} (hs : v.shape = [l.length, 1])
    (h : v.data = l) : v = columnOf l := by
  obtain ⟨s, d⟩ := v
  simp only at hs h
  rw [hs, h]; rfl

theorem eq_columnOf_of_get? {v : Tensor K} {l : List K} (hw : v.WF) (hs : v.shape = [l.length, 1])
    (h : ∀ i a, l[i]? = some a → v.get? [i, 0] = some a) : v = columnOf l := by
  refine ext_of_get? hw (columnOf_wf l) hs fun idx hi => ?_
  rw [hs] at hi
  match idx, hi with
  | [i, j], ⟨hi, hj, _⟩ =>
    have hj0 : j = 0 := by omega
    subst hj0
    rw [columnOf_get?, h i l[i] (List.getElem?_eq_getElem hi), List.getElem?_eq_getElem hi]

theorem DatesIn.select [LT τ] {x xc : Frame String τ V} {fh : List τ} {cs : List String}
    (h : DatesIn x fh) (hs : x.select cs = .ok xc) : DatesIn xc fh := by
  unfold Frame.select at hs
  split at hs
  · cases hs; exact ⟨h.flat, h.sorted, h.horizon, h.covers, h.unlabelled⟩
  · cases hs

theorem rowAt_select [DecidableEq τ] [Zero V] {x xc : Frame String τ V} {cs : List String}
    (hs : x.select cs = .ok xc) : rowAt xc = rowAt x := by
  unfold Frame.select at hs
  split at hs
  · cases hs; rfl
  · cases hs

/-- The mean, when the value of every effect is known and has the shape of the trend: entry by
entry the sum of the trend and the values of the effects that are not skipped. -/
theorem mean_entries [AddCommGroup K] [DecidableEq τ] {trend : EffectObj S Y Sc τ V D K}
    {fitted : List (FittedEffect S Y Sc τ V D K)} (hn : (fitted.map FittedEffect.name).Nodup)
    (htr : "trend" ∉ fitted.map FittedEffect.name) {x : Frame String τ V} {fh : List τ}
    {td : Transformed D} {data : PyDict (Transformed D)}
    (h2 : transformEffects fitted x fh = .ok data)
    {objs : PyDict (EffectObj S Y Sc τ V D K)} (ho : nonSkipped fitted = .ok objs)
    {θ : SiteEnv K} {st : MeanState K}
    (hm : computeMean (trend.cls.call trend.st) td data (callsOf objs) θ = .ok st)
    {trv : Tensor K} (htv : trend.cls.call trend.st θ td [] = .ok trv) (hw : trv.WF)
    {val : FittedEffect S Y Sc τ V D K → Tensor K}
    (hval : ∀ fe ∈ kept fitted, ∀ xc d p v, x.select fe.cols = .ok xc →
      fe.effect.transform (some xc) fh = .ok d → p.get? "trend" = some trv →
      fe.effect.cls.call fe.effect.st (θ.scope fe.name) d p = .ok v → v = val fe)
    (hsh : ∀ fe ∈ kept fitted, (val fe).shape = trv.shape) :
    st.mean.shape = trv.shape ∧ st.mean.WF ∧ ∀ idx, InBounds trv.shape idx →
      st.mean.get? idx = some ((trv.get? idx).getD 0 +
        ((kept fitted).map fun fe => ((val fe).get? idx).getD 0).sum) := by
  obtain ⟨trv', vals, htv', hsites, hlen, hv⟩ := C17_own_data hn htr h2 ho hm
  rw [htv] at htv'
  cases htv'
  have hvals : vals = (kept fitted).map val := by
    apply List.ext_getElem?
    intro k
    rw [List.getElem?_map]
    cases hk : (kept fitted)[k]? with
    | none =>
      rw [List.getElem?_eq_none_iff] at hk
      rw [Option.map_none, List.getElem?_eq_none_iff]
      omega
    | some fe =>
      have hkl := (List.getElem?_eq_some_iff.1 hk).1
      rw [List.getElem?_eq_getElem (by omega : k < vals.length)]
      obtain ⟨xc, d, hxc, htd, hcall⟩ := hv k fe _ hk (List.getElem?_eq_getElem (by omega))
      simp only [Option.map_some, Option.some.injEq]
      exact hval fe (List.mem_of_getElem? hk) xc d _ _ hxc htd (by simp [PyDict.get?]) hcall
  obtain ⟨hskn, hskt, hcalls⟩ : ((callsOf objs).map Prod.fst).Nodup ∧
      "trend" ∉ (callsOf objs).map Prod.fst ∧
      (callsOf objs).map Prod.fst = (kept fitted).map FittedEffect.name := by
    unfold transformEffects at h2
    obtain ⟨new, -, -, hsk⟩ := foldlM_transformStep hn (by simp [PyDict.keys]) h2
    have hkn : ((kept fitted).map FittedEffect.name).Nodup :=
      hn.sublist (List.filter_sublist.map _)
    have hktr : "trend" ∉ (kept fitted).map FittedEffect.name := fun h =>
      htr ((List.filter_sublist.map _).subset h)
    have hobj : objs = (kept fitted).map fun e => (e.name, e.effect) := by
      unfold nonSkipped at ho
      rw [nonSkipped_ok hsk] at ho
      simp only [bind, Except.bind, pure, Except.pure, Except.ok.injEq] at ho
      rw [← ho, PyDict.ofList_of_nodup]
      simpa [Function.comp_def] using hkn
    have hfst : (callsOf objs).map Prod.fst = (kept fitted).map FittedEffect.name := by
      rw [hobj]
      simp [callsOf, Function.comp_def]
    exact ⟨by rwa [hfst], by rwa [hfst], hfst⟩
  obtain ⟨trv', vals', htv', hrun, hsites'⟩ := C24_sees_earlier hskn hskt hm
  rw [htv] at htv'
  cases htv'
  have e2 : vals' = vals := by
    rw [hsites, hcalls] at hsites'
    have := congrArg (fun l => (l.tail).map Prod.snd) hsites'
    simp only [List.tail_cons] at this
    rw [List.map_snd_zip (by simp [hlen]), List.map_snd_zip] at this
    · exact this.symm
    · have := hrun.1
      rw [← List.length_map (f := Prod.fst), hcalls, List.length_map] at this
      simp [this]
  subst e2
  obtain ⟨st', hm', h3, h4, h5⟩ := C24_mean_is_sum hskn hskt htv hw
    (by
      intro v hv
      rw [hvals] at hv
      obtain ⟨fe, hfe, rfl⟩ := List.mem_map.1 hv
      exact hsh fe hfe) hrun
  rw [hm] at hm'
  cases hm'
  refine ⟨h3, h4, fun idx hi => ?_⟩
  rw [h5 idx hi, hvals, List.map_map]
  rfl

/-- **C71**: if trend and effects are computed date by date, the mean is a function of the date: the
trend at the date plus the effects computed from the trend and the values of `X` at the date. -/
theorem C71_closed_form [AddCommGroup K] [LinearOrder τ] [Zero V]
    {trend : EffectObj S Y Sc τ V D K} {Ok : SiteEnv K → Prop} {g : SiteEnv K → τ → K}
    (ht : PointwiseTrend trend Ok g) {fitted : List (FittedEffect S Y Sc τ V D K)}
    {f : FittedEffect S Y Sc τ V D K → SiteEnv K → τ → K → (String → V) → K}
    (hf : ∀ fe ∈ kept fitted, PointwiseEffect fe.effect (f fe))
    (hn : (fitted.map FittedEffect.name).Nodup) (htr : "trend" ∉ fitted.map FittedEffect.name)
    {x : Frame String τ V} {fh : List τ} (hx : DatesIn x fh) {td : Transformed D}
    {data : PyDict (Transformed D)} (h1 : trend.transform (some x) fh = .ok td)
    (h2 : transformEffects fitted x fh = .ok data)
    {objs : PyDict (EffectObj S Y Sc τ V D K)} (ho : nonSkipped fitted = .ok objs)
    {θ : SiteEnv K} (hθ : Ok θ) {st : MeanState K}
    (hm : computeMean (trend.cls.call trend.st) td data (callsOf objs) θ = .ok st) :
    st.mean = columnOf (fh.map fun t => g θ t +
      ((kept fitted).map fun fe => f fe (θ.scope fe.name) t (g θ t) (rowAt x t)).sum) := by
  obtain ⟨trv, -, htv, -⟩ := C17_own_data hn htr h2 ho hm
  have htc := ht θ x fh td trv hθ hx h1 htv
  obtain ⟨hsh, hw, hget⟩ := mean_entries hn htr h2 ho hm htv (by rw [htc]; exact columnOf_wf _)
    (val := fun fe => columnOf (fh.map fun t => f fe (θ.scope fe.name) t (g θ t) (rowAt x t)))
    (by
      intro fe hfe xc d p v hxc htd hp hcall
      rw [hf fe hfe _ xc fh d _ (g θ) _ (hx.select hxc) htd (by rw [hp, htc]) hcall,
        rowAt_select hxc])
    (by intro fe _; rw [htc]; simp [columnOf])
  refine eq_columnOf_of_get? hw (by rw [hsh, htc]; simp [columnOf]) ?_
  intro i a hi
  obtain ⟨hil, rfl⟩ := List.getElem?_eq_some_iff.1 hi
  have hil' : i < fh.length := by simpa using hil
  rw [hget [i, 0] (by rw [htc]; exact ⟨by simpa using hil', by simp, trivial⟩), htc]
  simp only [columnOf_get?, List.getElem?_map,
    List.getElem?_eq_getElem hil', Option.map_some, Option.getD_some, List.getElem_map]

/-- The dates of a table made from a horizon. -/
theorem datesIn_ofIndex [LinearOrder τ] [Zero V] {fh : List τ} (h : fh.Pairwise (· < ·)) :
    DatesIn (Frame.ofIndex fh : Frame String τ V) fh :=
  ⟨rfl, by simpa [Frame.ofIndex, List.pairwise_map] using h, h, fun t ht =>
    ⟨⟨[], t, fun _ => 0⟩, List.mem_map.2 ⟨t, ht, rfl⟩, rfl⟩, fun r hr => by
    obtain ⟨t, -, rfl⟩ := List.mem_map.1 hr
    rfl⟩

theorem rowAt_ofIndex [DecidableEq τ] [Zero V] (fh : List τ) (t : τ) :
    rowAt (Frame.ofIndex fh : Frame String τ V) t = fun _ => 0 := by
  funext c
  unfold rowAt
  cases h : List.find? (fun r => decide (r.time = t)) (Frame.ofIndex fh : Frame String τ V).rows with
  | none => rfl
  | some r =>
    obtain ⟨t', -, rfl⟩ := List.mem_map.1 (List.mem_of_find?_eq_some h)
    rfl

/-- **C71**: for the same fitted forecaster, parameters and `X`, the mean at a date contained in two
requested horizons is the same in both. -/
theorem C71_other_dates [AddCommGroup K] [LinearOrder τ] [Zero V]
    {cfg : UniConfig S Sc τ V D K} {m : UniFit S Sc τ V D K} {Ok : SiteEnv K → Prop}
    {g : SiteEnv K → τ → K} (ht : PointwiseTrend m.trend Ok g)
    (hf : ∀ fe ∈ m.fitted, ∃ f, PointwiseEffect fe.effect f)
    (hn : (m.fitted.map FittedEffect.name).Nodup)
    (htr : "trend" ∉ m.fitted.map FittedEffect.name) (ho : nonSkipped m.fitted = .ok m.objs)
    {X x : Frame String τ V} (hfeat : cfg.features X = .ok x) {fh fh' : List τ}
    (hx : DatesIn x fh) (hx' : DatesIn x fh') {td td' : Transformed D}
    {data data' : PyDict (Transformed D)}
    (h1 : uniPredictData cfg m (some X) fh = .ok (td, data))
    (h2 : uniPredictData cfg m (some X) fh' = .ok (td', data'))
    {θ : SiteEnv K} (hθ : Ok θ) {st st' : MeanState K}
    (hm : computeMean (m.trend.cls.call m.trend.st) td data (callsOf m.objs) θ = .ok st)
    (hm' : computeMean (m.trend.cls.call m.trend.st) td' data' (callsOf m.objs) θ = .ok st')
    {i j : Nat} {t : τ} (hi : fh[i]? = some t) (hj : fh'[j]? = some t) :
    ∃ v, st.mean.get? [i, 0] = some v ∧ st'.mean.get? [j, 0] = some v := by
  classical
  choose! f hf using hf
  have hk : ∀ fe ∈ kept m.fitted, PointwiseEffect fe.effect (f fe) := fun fe h =>
    hf fe (List.mem_of_mem_filter h)
  have split : ∀ {fh : List τ} {td data}, uniPredictData cfg m (some X) fh = .ok (td, data) →
      m.trend.transform (some x) fh = .ok td ∧ transformEffects m.fitted x fh = .ok data := by
    intro fh td data h
    unfold uniPredictData at h
    simp only [Option.getD_some, hfeat, bind, Except.bind, pure, Except.pure] at h
    cases h3 : m.trend.transform (some x) fh with
    | error e => rw [h3] at h; cases h
    | ok td0 =>
      rw [h3] at h
      simp only at h
      cases h4 : transformEffects m.fitted x fh with
      | error e => rw [h4] at h; cases h
      | ok d0 => rw [h4] at h; cases h; exact ⟨rfl, rfl⟩
  obtain ⟨a1, a2⟩ := split h1
  obtain ⟨b1, b2⟩ := split h2
  rw [C71_closed_form ht hk hn htr hx a1 a2 ho hθ hm, C71_closed_form ht hk hn htr hx' b1 b2 ho hθ hm',
    columnOf_get?, columnOf_get?, List.getElem?_map, List.getElem?_map, hi, hj]
  exact ⟨_, rfl, rfl⟩

/-! ## Built-in effects -/

/-- `_predict` of an effect works on one row of its data at a time: `ρ θ row` are the values for
the row. -/
structure RowWiseRaw [Zero K] (raw : EffectCall (Transformed (Tensor K)) K)
    (ρ : SiteEnv K → List K → List K) : Prop where
  noData : ∀ θ p v, raw θ .emptyDict p ≠ .ok v
  lengths : ∀ θ r r', r.length = r'.length → (ρ θ r).length = (ρ θ r').length
  rows : ∀ θ (sh : List Nat) (rows : List (List K)) c p v, size sh = rows.length →
    (∀ r ∈ rows, r.length = c) →
    raw θ (.data ⟨sh ++ [c], rows.flatten⟩) p = .ok v → v.data = rows.flatMap (ρ θ)

theorem rowAt_of_mem [LinearOrder τ] [Zero V] {x : Frame String τ V}
    (hs : x.rows.Pairwise fun a b => a.time < b.time) {r : Row String τ V} (hr : r ∈ x.rows) :
    rowAt x r.time = r.val := by
  funext c
  unfold rowAt
  have : x.rows.find? (fun r' => decide (r'.time = r.time)) = some r := by
    revert hs hr
    generalize x.rows = l
    intro hs hr
    induction l with
    | nil => cases hr
    | cons a l ih =>
      rw [List.find?_cons]
      rcases List.mem_cons.1 hr with rfl | h
      · simp
      · have : a.time < r.time := (List.pairwise_cons.1 hs).1 r h
        simp only [this.ne, decide_false]
        exact ih (List.pairwise_cons.1 hs).2 h
  rw [this]
  rfl

theorem flatMap_eq_map {α : Type} [Zero K] {l : List α} {f : α → List K}
    (h : ∀ a ∈ l, (f a).length = 1) : l.flatMap f = l.map fun a => (f a).headD 0 := by
  induction l with
  | nil => rfl
  | cons a l ih =>
    rw [List.flatMap_cons, List.map_cons, ih fun b hb => h b (by simp [hb])]
    have := h a (by simp)
    match hf : f a, this with
    | [b], _ => rfl

/-- The value of an additive or multiplicative effect at one date: from the row of `X` and the
trend. -/
def rowValue [Ring K] (mode : String) (cols : List String) (ρ : SiteEnv K → List K → List K)
    (θ : SiteEnv K) (_ : τ) (a : K) (r : String → K) : K :=
  let v := (ρ θ (cols.map r)).headD 0
  if mode = "additive" then v else a * v

/-- **C71**, effects: an additive or multiplicative effect that works on one row of its data at a
time is computed date by date. -/
theorem C71_effect [Ring K] [LinearOrder τ] {e : EffectObj S Y Sc τ K (Tensor K) K}
    {mode : String} {raw : EffectCall (Transformed (Tensor K)) K} {ρ : SiteEnv K → List K → List K}
    (hfl : e.cls.tags.filterFh = true)
    (htf : ∀ s x fh, e.cls.transform s x fh = x.seriesToTensorOrArray)
    (hcall : ∀ st, e.cls.call st = AddMul.call ⟨mode, raw⟩) (hraw : RowWiseRaw raw ρ) :
    PointwiseEffect e (rowValue mode (e.st.1.inputCols.getD []) ρ) := by
  intro θ x fh d p tr v hx htr hp hv
  rw [hcall] at hv
  -- the call
  have hv' : ∃ w, raw θ d p = .ok w ∧ w.data.length = fh.length ∧
      v = columnOf (if mode = "additive" then w.data
        else List.zipWith (· * ·) (fh.map tr) w.data) := by
    unfold AddMul.call AddMul.predict basePredict at hv
    simp only [PyDict.getItem, hp, bind, Except.bind, trendAsColumn, Option.getD_some] at hv
    rw [if_neg (by simp [ndim, columnOf])] at hv
    simp only at hv
    cases hw : raw θ d p with
    | error e => rw [hw] at hv; cases hv
    | ok w =>
      rw [hw] at hv
      simp only [reshape] at hv
      have hsz : size (columnOf (fh.map tr)).shape = fh.length := by simp [columnOf, size]
      rw [hsz] at hv
      by_cases hl : w.data.length = fh.length
      · rw [if_pos hl] at hv
        simp only at hv
        refine ⟨w, rfl, hl, ?_⟩
        by_cases hmode : mode = "additive"
        · rw [if_pos hmode] at hv ⊢
          cases hv
          exact eq_columnOf (by simp [columnOf, hl]) rfl
        · rw [if_neg hmode] at hv ⊢
          have hw' : (⟨(columnOf (fh.map tr)).shape, w.data⟩ : Tensor K).WF := by
            show w.data.length = _
            rw [hl, hsz]
          rw [binop_same_eq _ (columnOf_wf _) hw' rfl] at hv
          cases hv
          exact eq_columnOf (by simp [columnOf, hl]) rfl
      · rw [if_neg hl] at hv
        cases hv
  obtain ⟨w, hw, hwl, rfl⟩ := hv'
  -- the data
  have hd : ∃ cs, e.st.1.inputCols = some cs ∧ d = .data ⟨[(fh.map fun t => cs.map (rowAt x t)).length,
      cs.length], (fh.map fun t => cs.map (rowAt x t)).flatten⟩ := by
    unfold EffectObj.transform at htr
    rcases hst : e.st.1 with ⟨ic, isf⟩
    have hbad : (ic = none ∨ isf ≠ some true) → False := by
      intro hb
      unfold baseTransform shouldSkip at htr
      rw [hst] at htr
      match ic, isf, hb with
      | _, none, _ => cases htr
      | _, some false, _ => cases htr
      | none, some true, _ => cases htr
      | some _, some true, hb => simp at hb
    match ic, isf, hst, hbad with
    | _, none, _, hbad => exact (hbad (by simp)).elim
    | _, some false, _, hbad => exact (hbad (by simp)).elim
    | none, some true, _, hbad => exact (hbad (by simp)).elim
    | some cs, some true, hst, _ =>
      refine ⟨cs, rfl, ?_⟩
      rw [baseTransform_eq _ hst] at htr
      split at htr
      · cases htr
        exact absurd hw (hraw.noData θ p w)
      · split at htr
        · simp only [hfl, if_true, htf] at htr
          have hrows : ((x.filterTimes fh).rows.map fun r => cs.map r.val)
              = fh.map fun t => cs.map (rowAt x t) := by
            have h1 : (x.filterTimes fh).rows.map Row.time = fh :=
              times_filtered hx.sorted hx.horizon hx.covers
            conv_rhs => rw [← h1, List.map_map]
            refine List.map_congr_left fun r hr => ?_
            simp only [Function.comp]
            rw [rowAt_of_mem hx.sorted (List.mem_of_mem_filter hr)]
          unfold Frame.seriesToTensorOrArray at htr
          rw [if_pos (by exact hx.flat)] at htr
          simp only [Except.map, Except.ok.injEq] at htr
          rw [← htr, ← hrows, Frame.flatVals, List.length_map, List.flatMap_def]
        · cases htr
  obtain ⟨cs, hcs, rfl⟩ := hd
  have hdat := hraw.rows θ [_] _ _ p w (by simp [size]) (by
    intro r hr
    obtain ⟨t, -, rfl⟩ := List.mem_map.1 hr
    simp) hw
  have hone : ∀ r ∈ fh.map fun t => cs.map (rowAt x t), (ρ θ r).length = 1 := by
    intro r hr
    obtain ⟨t, ht, rfl⟩ := List.mem_map.1 hr
    have hlen : w.data.length = fh.length * (ρ θ (cs.map (rowAt x t))).length := by
      rw [hdat, length_flatMap_const _ _ (ρ θ (cs.map (rowAt x t))).length, List.length_map]
      intro r hr
      obtain ⟨t', -, rfl⟩ := List.mem_map.1 hr
      exact hraw.lengths _ _ _ (by simp)
    rw [hwl] at hlen
    have hpos : 0 < fh.length := List.length_pos_of_mem ht
    exact (Nat.eq_of_mul_eq_mul_left hpos (by rw [Nat.mul_one]; exact hlen)).symm
  rw [flatMap_eq_map hone, List.map_map] at hdat
  rw [hdat]
  unfold rowValue
  simp only [hcs, Option.getD_some]
  split
  · rfl
  · congr 1
    rw [List.zipWith_map]
    simp [List.zipWith_self, Function.comp_def]

theorem chunk_flatten {rows : List (List K)} {c i : Nat} (h : ∀ r ∈ rows, r.length = c)
    (hi : i < rows.length) : chunk rows.flatten c i = rows[i] := by
  unfold chunk
  induction rows generalizing i with
  | nil => simp at hi
  | cons r rows ih =>
    have hr : r.length = c := h r (by simp)
    cases i with
    | zero => simp [← hr]
    | succ i =>
      rw [List.flatten_cons, Nat.succ_mul, Nat.add_comm, ← List.drop_drop, ← hr, List.drop_left, hr]
      exact ih (fun r hr => h r (by simp [hr])) (by simpa using hi)

/-- The linear effect: inner product of the row and the coefficients. -/
theorem rowWise_linear [Ring K] :
    RowWiseRaw (K := K) linearRaw fun θ r => [dot r (θ "coefs").data] where
  noData := by intro θ p v h; cases h
  lengths := by intros; rfl
  rows := by
    intro θ sh rows c p v hsh hr h
    unfold linearRaw at h
    simp only [Transformed.array, bind, Except.bind, dotLast, List.getLast?_concat] at h
    by_cases hc : c = (θ "coefs").data.length
    · rw [if_pos hc] at h
      simp only [pure, Except.pure, Except.ok.injEq] at h
      rw [← h]
      simp only [List.dropLast_concat, hsh]
      apply List.ext_getElem?
      intro i
      rw [← List.map_eq_flatMap, List.getElem?_map, List.getElem?_map]
      by_cases hi : i < rows.length
      · rw [List.getElem?_range hi, List.getElem?_eq_getElem hi]
        simp only [Option.map_some]
        rw [chunk_flatten hr hi]
      · rw [List.getElem?_eq_none (by simpa using hi), List.getElem?_eq_none (by simpa using hi)]
        rfl
    · rw [if_neg hc] at h
      cases h

theorem rowWise_map [Zero K] {raw : EffectCall (Transformed (Tensor K)) K} {φ : SiteEnv K → K → K}
    (h : ∀ θ d p, raw θ d p = d.array >>= fun t => pure (t.map (φ θ))) :
    RowWiseRaw raw fun θ r => r.map (φ θ) where
  noData := by intro θ p v hv; rw [h] at hv; cases hv
  lengths := by intro θ r r' hr; simpa using hr
  rows := by
    intro θ sh rows c p v _ _ hv
    rw [h] at hv
    cases hv
    simp [Tensor.map, List.map_flatten, List.flatMap_def]

/-! ## Built-in trends -/

/-- The sites of a piecewise trend over one series: one offset and one coefficient per
changepoint. -/
def SingleSites (cs : List K) (θ : SiteEnv K) : Prop :=
  (∃ o, θ "offset" = ⟨[1], [o]⟩) ∧ (θ "changepoint_coefficients").data.length = cs.length

theorem trend_transform_data [DecidableEq τ] {e : EffectObj S Y Sc τ V D K}
    (hsk : e.cls.tags.skipIfNoMatch = false) (hfl : e.cls.tags.filterFh = true)
    {x : Frame String τ V} {fh : List τ} {d : Transformed D}
    (h : e.transform (some x) fh = .ok d) :
    ∃ cs d', d = .data d' ∧ e.cls.transform e.st.2 { x.filterTimes fh with cols := cs } fh = .ok d' := by
  unfold EffectObj.transform at h
  rcases hst : e.st.1 with ⟨ic, isf⟩
  have hbad : (ic = none ∨ isf ≠ some true) → False := by
    intro hb
    unfold baseTransform shouldSkip at h
    rw [hst] at h
    match ic, isf, hb with
    | _, none, _ => cases h
    | _, some false, _ => cases h
    | none, some true, _ => cases h
    | some _, some true, hb => simp at hb
  match ic, isf, hst, hbad with
  | _, none, _, hbad => exact (hbad (by simp)).elim
  | _, some false, _, hbad => exact (hbad (by simp)).elim
  | none, some true, _, hbad => exact (hbad (by simp)).elim
  | some cs, some true, hst, _ =>
    rw [baseTransform_eq _ hst, if_neg (by simp [hsk])] at h
    split at h
    · simp only [hfl, if_true] at h
      refine ⟨cs, ?_⟩
      cases ht : e.cls.transform e.st.2 { x.filterTimes fh with cols := cs } fh with
      | error err => rw [ht] at h; cases h
      | ok d' => rw [ht] at h; cases h; exact ⟨d', rfl, rfl⟩
    · cases h

end

section
variable {K τ V : Type} [Field K] [LinearOrder K] [IsStrictOrderedRing K] [FloorSemiring K]
  [LinearOrder τ]

/-- Offset plus the sum over the changepoints of coefficient times ramp, at a date. -/
def piecewiseAt (days : τ → K) (s : PiecewiseState K τ) (cs : List K) (θ : SiteEnv K) (t : τ) : K :=
  trendAt rampEntry ((θ "offset").data.headD 0) cs (θ "changepoint_coefficients").data
    (s.time.scaled days t)

theorem piecewise_column {days : τ → K} {s : PiecewiseState K τ} {cs : List K}
    (hcs : s.cps = [cs]) (hser : s.series = none) {fh : List τ} {m : Tensor K}
    (hm : piecewiseTransform days true s fh = .ok m) {θ : SiteEnv K} (hθ : SingleSites cs θ)
    (n : Nat) (p : PyDict (Tensor K)) :
    piecewisePredict true n θ m p = .ok (columnOf (fh.map (piecewiseAt days s cs θ))) := by
  obtain ⟨⟨o, ho⟩, hl⟩ := hθ
  unfold piecewiseTransform fhTimes at hm
  rw [hcs, hser] at hm
  obtain ⟨r, h1, h2, h3, h4⟩ := piecewisePredict_single (n := n) (p := p) hm hl.symm rfl ho
  rw [h1]
  congr 1
  refine eq_columnOf_of_get? h3 (by simpa using h2) ?_
  intro i a hi
  rw [List.getElem?_map, Option.map_eq_some_iff] at hi
  obtain ⟨t, ht, rfl⟩ := hi
  rw [h4 i (s.time.scaled days t) (by rw [List.getElem?_map, ht]; rfl)]
  unfold piecewiseAt
  rw [ho]
  rfl

/-- **C71**, piecewise linear trend: computed date by date. -/
theorem C71_piecewise {days : τ → K} {suggest : List K → Tensor K → PyM (List K × List K)}
    {p : PiecewiseParams K τ} {e : EffectObj _ _ _ τ V _ K}
    (hc : e.cls = piecewiseClass days suggest piecewisePredict p) (hsq : p.squeeze = true)
    {s : PiecewiseState K τ} (hst : e.st.2 = some s) {cs : List K} (hcs : s.cps = [cs])
    (hser : s.series = none) :
    PointwiseTrend e (SingleSites cs) (piecewiseAt days s cs) := by
  intro θ x fh d v hθ _ ht hv
  obtain ⟨cols, m, rfl, hm⟩ := trend_transform_data (by rw [hc]; rfl) (by rw [hc]; rfl) ht
  rw [hc, hst] at hm
  rw [hc] at hv
  simp only [piecewiseClass, hst, hsq] at hm hv
  rw [piecewise_column hcs hser hm hθ] at hv
  exact (Except.ok.inj hv).symm

/-- **C71**, flat trend: the same value at every date. -/
theorem C71_flat {e : EffectObj _ _ _ τ V _ K} (hc : e.cls = flatClass) :
    PointwiseTrend e (fun θ => ∃ b, θ "trend_flat_coefficient" = ⟨[1], [b]⟩)
      (fun θ _ => (θ "trend_flat_coefficient").data.headD 0) := by
  rintro θ x fh d v ⟨b, hb⟩ hx ht hv
  obtain ⟨cols, m, rfl, hm⟩ := trend_transform_data (by rw [hc]; rfl) (by rw [hc]; rfl) ht
  rw [hc] at hm hv
  simp only [flatClass, Except.ok.injEq] at hm hv
  cases hs : e.st.2 with
  | none => rw [hs] at hv; cases hv
  | some a =>
    rw [hs] at hv
    simp only at hv
    subst hm
    rw [C39_constant_partial hb] at hv
    have h1 : (x.filterTimes fh).rows.map Row.time = fh :=
      times_filtered hx.sorted hx.horizon hx.covers
    have h2 : (x.filterTimes fh).rows.length = fh.length := by
      rw [← List.length_map (f := Row.time), h1]
    rw [← Except.ok.inj hv]
    simp only [h2, hb]
    simp [columnOf]

end

/-- **C71**, piecewise logistic trend: computed date by date. -/
theorem C71_logistic {τ V : Type} [LinearOrder τ] {days : τ → ℝ}
    {suggest : List ℝ → Tensor ℝ → PyM (List ℝ × List ℝ)}
    {p : PiecewiseParams ℝ τ} {e : EffectObj _ _ _ τ V _ ℝ}
    (hc : e.cls = piecewiseClass days suggest logisticPredict p) (hsq : p.squeeze = true)
    {s : PiecewiseState ℝ τ} (hst : e.st.2 = some s) {cs : List ℝ} (hcs : s.cps = [cs])
    (hser : s.series = none) (hns : s.time.nSeries = 1) :
    PointwiseTrend e (fun θ => SingleSites cs θ ∧ ∃ c, θ "capacity" = ⟨[1, 1, 1], [c]⟩)
      (fun θ t => logisticOf ((θ "capacity").data.headD 0) (piecewiseAt days s cs θ t)) := by
  rintro θ x fh d v ⟨hθ, c, hcap⟩ _ ht hv
  obtain ⟨cols, m, rfl, hm⟩ := trend_transform_data (by rw [hc]; rfl) (by rw [hc]; rfl) ht
  rw [hc, hst] at hm
  rw [hc] at hv
  simp only [piecewiseClass, hst, hsq, logisticPredict] at hm hv
  rw [piecewise_column hcs hser hm hθ] at hv
  simp only [bind, Except.bind, hns, if_true, hcap] at hv
  obtain ⟨r, h1, h2, h3, h4⟩ := binop_scalar_right (fun x c : ℝ => logisticOf c x)
    (a := columnOf (fh.map (piecewiseAt days s cs θ))) c
  rw [h1] at hv
  cases hv
  refine eq_columnOf_of_get? h3 (by rw [h2]; simp [columnOf]) ?_
  intro i a hi
  rw [List.getElem?_map, Option.map_eq_some_iff] at hi
  obtain ⟨t, ht, rfl⟩ := hi
  obtain ⟨hil, -⟩ := List.getElem?_eq_some_iff.1 ht
  rw [h4 [i, 0] ⟨by simpa [columnOf] using hil, by simp, trivial⟩, columnOf_get?, List.getElem?_map, ht]
  simp only [hcap]
  rfl

/-- **C71**: linear, log and Hill effects of either mode are computed date by date; for the log and
Hill effect the value at a date is that of the entry. -/
theorem C71_builtin_effects {S Y Sc τ : Type} [LinearOrder τ]
    {e : EffectObj S Y Sc τ ℝ (Tensor ℝ) ℝ} {mode : String}
    {raw : EffectCall (Transformed (Tensor ℝ)) ℝ} (hfl : e.cls.tags.filterFh = true)
    (htf : ∀ s x fh, e.cls.transform s x fh = x.seriesToTensorOrArray)
    (hcall : ∀ st, e.cls.call st = AddMul.call ⟨mode, raw⟩)
    (hraw : raw = linearRaw ∨ raw = logRaw ∨ raw = hillRaw) :
    ∃ f, PointwiseEffect e f := by
  rcases hraw with rfl | rfl | rfl
  · exact ⟨_, C71_effect hfl htf hcall rowWise_linear⟩
  · exact ⟨_, C71_effect hfl htf hcall (rowWise_map (φ := fun θ => logEntry (siteScalar θ "log_scale")
      (siteScalar θ "log_rate")) fun _ _ _ => rfl)⟩
  · exact ⟨_, C71_effect hfl htf hcall (rowWise_map (φ := fun θ => hillEntry (siteScalar θ "half_max")
      (siteScalar θ "slope") (siteScalar θ "max_effect")) fun _ _ _ => rfl)⟩

section
variable {S Sc τ K : Type} [LinearOrder τ]

/-- Classes of additive or multiplicative effects with the default `_transform` that work on one
row of their data at a time: the linear, log and Hill effects (`C71_builtin_effects`). -/
def RowWiseClass [Zero K] [Mul K] {Y : Type} (c : EffectClass S Y Sc τ K (Tensor K) K) : Prop :=
  c.tags.filterFh = true ∧ (∀ s x fh, c.transform s x fh = x.seriesToTensorOrArray) ∧
  ∃ mode raw ρ, (∀ st, c.call st = AddMul.call ⟨mode, raw⟩) ∧ RowWiseRaw raw ρ

theorem exists_of_forall₂ {α β : Type} {R : α → β → Prop} {l : List α} {m : List β}
    (h : List.Forall₂ R l m) {b : β} (hb : b ∈ m) : ∃ a ∈ l, R a b := by
  induction h with
  | nil => cases hb
  | cons h1 h2 ih =>
    rcases List.mem_cons.1 hb with rfl | hb
    · exact ⟨_, List.mem_cons_self, h1⟩
    · obtain ⟨a, ha, hab⟩ := ih hb
      exact ⟨a, List.mem_cons_of_mem _ ha, hab⟩

/-- What a successful fit leaves behind. -/
theorem uniFitData_fitted {V D : Type} [Zero V] [Div K] {cfg : UniConfig S Sc τ V D K}
    {y : Frame String τ K} {X : Option (Frame String τ V)} {m : UniFit S Sc τ V D K}
    (h : uniFitData cfg y X = .ok m) :
    ∃ yT x, cfg.trend.fit yT X cfg.unitScale = .ok m.trend ∧ yT.nlevels = y.nlevels ∧
      fitEffects cfg.compile cfg.effects cfg.default (some x) y cfg.effectScale
        = .ok (m.fitted, m.warnings) ∧ nonSkipped m.fitted = .ok m.objs := by
  unfold uniFitData at h
  simp only [bind, Except.bind] at h
  split at h
  · cases h
  rename_i tr htr
  split at h
  · cases h
  split at h
  · cases h
  rename_i x hx
  split at h
  · cases h
  split at h
  · cases h
  rename_i fw hfw
  split at h
  · cases h
  split at h
  · cases h
  rename_i objs hobjs
  cases h
  exact ⟨_, x, htr, by split <;> rfl, hfw, hobjs⟩

/-- **C71** for a fitted forecaster: if the trend is computed date by date and the effects are
row-wise classes, there is one function of parameters, values of `X` at the date, and date, which is
the mean at every date of every horizon for which predicting succeeds. -/
theorem C71_forecaster [Field K] {cfg : UniConfig S Sc τ K (Tensor K) K} {y : Frame String τ K}
    {X : Option (Frame String τ K)} {m : UniFit S Sc τ K (Tensor K) K}
    (hfit : uniFitData cfg y X = .ok m) {Ok : SiteEnv K → Prop} {g : SiteEnv K → τ → K}
    (ht : PointwiseTrend m.trend Ok g) (he : ∀ e ∈ cfg.effects, RowWiseClass e.effect.cls)
    (hd : RowWiseClass cfg.default.cls) (hn : (cfg.effects.map EffectSpec.name).Nodup)
    (hres : "exogenous_variables_effect" ∉ cfg.effects.map EffectSpec.name)
    (htr : "trend" ∉ cfg.effects.map EffectSpec.name) :
    ∃ F : SiteEnv K → (String → K) → τ → K,
      ∀ X' x fh td data θ st, cfg.features X' = .ok x → DatesIn x fh →
        uniPredictData cfg m (some X') fh = .ok (td, data) → Ok θ →
        computeMean (m.trend.cls.call m.trend.st) td data (callsOf m.objs) θ = .ok st →
        st.mean = columnOf (fh.map fun t => F θ (rowAt x t) t) := by
  obtain ⟨yT, x0, -, -, hfe, hobjs⟩ := uniFitData_fitted hfit
  obtain ⟨hn', htr'⟩ := C17_names hn hres htr hfe
  have hcls : ∀ fe ∈ m.fitted, RowWiseClass fe.effect.cls := by
    obtain ⟨fes, hf, -, hcase⟩ := fitEffects_ok.1 hfe
    have h1 : ∀ fe ∈ fes, RowWiseClass fe.effect.cls := by
      intro fe hfe
      obtain ⟨e, hmem, hfrom⟩ := exists_of_forall₂ hf hfe
      rw [(effectFit_ok hfrom.2.2).1]
      exact he e hmem
    rcases hcase with ⟨-, h⟩ | ⟨eff, -, h2, h⟩
    · rw [h]; exact h1
    · rw [h]
      intro fe hfe
      rcases List.mem_append.1 hfe with h3 | h3
      · exact h1 fe h3
      · rw [List.mem_singleton.1 h3]
        rw [(effectFit_ok h2).1]
        exact hd
  have hpw : ∀ fe ∈ m.fitted, ∃ f, PointwiseEffect fe.effect f := by
    intro fe hfe
    obtain ⟨h1, h2, mode, raw, ρ, h3, h4⟩ := hcls fe hfe
    exact ⟨_, C71_effect h1 h2 h3 h4⟩
  choose! f hf using hpw
  refine ⟨fun θ r t => g θ t + ((kept m.fitted).map fun fe =>
    f fe (θ.scope fe.name) t (g θ t) r).sum, ?_⟩
  intro X' x fh td data θ st hx hcov hp hθ hm
  unfold uniPredictData at hp
  simp only [Option.getD_some, hx, bind, Except.bind, pure, Except.pure] at hp
  split at hp
  · cases hp
  rename_i td' h1
  split at hp
  · cases hp
  rename_i data' h2
  cases hp
  exact C71_closed_form ht (fun fe h => hf fe (List.mem_of_mem_filter h)) hn' htr' hcov h1 h2 hobjs
    hθ hm

end

/-- **C71**: the piecewise linear trend of a forecaster fitted on a single series, with one interval
and one range, is computed date by date. -/
theorem C71_piecewise_fitted {K τ V : Type} [Field K] [LinearOrder K] [IsStrictOrderedRing K]
    [FloorSemiring K] [LinearOrder τ] {days : τ → K}
    {suggest : List K → Tensor K → PyM (List K × List K)} {p : PiecewiseParams K τ}
    (hsq : p.squeeze = true) {i r : K} (hi : p.interval = .scalar i) (hr : p.range = .scalar r)
    {y : Frame String τ K} (hy : y.nlevels = 1) {X : Option (Frame String τ V)} {sc : Scale K}
    {e : EffectObj _ _ _ τ V _ K}
    (h : ((piecewiseClass (V := V) days suggest piecewisePredict p).new).fit y X sc = .ok e) :
    ∃ s cs, e.st.2 = some s ∧ s.cps = [cs] ∧
      PointwiseTrend e (SingleSites cs) (piecewiseAt days s cs) := by
  obtain ⟨hcls, s, hs, hfit⟩ : e.cls = piecewiseClass days suggest piecewisePredict p ∧
      ∃ s, e.st.2 = some s ∧ piecewiseFit days suggest p y = .ok s := by
    unfold EffectObj.fit baseFit at h
    rw [if_neg (by rintro ⟨h1, -⟩; cases h1)] at h
    simp only [bind, Except.bind, EffectClass.new] at h
    cases hp : piecewiseFit days suggest p y with
    | error err =>
      simp only [piecewiseClass, hp, Except.map] at h
      cases h
    | ok s =>
      simp only [piecewiseClass, hp, Except.map] at h
      cases h
      exact ⟨rfl, s, rfl, rfl⟩
  obtain ⟨tt, cps, htt, hcps, hs1, hs2⟩ : ∃ tt cps, trendTimeFit days y = .ok tt ∧
      setupChangepoints ((unique y.times).map (tt.scaled days)) tt.nSeries p.interval p.range
        = .ok cps ∧ s.cps = cps ∧ s.series = none := by
    unfold piecewiseFit at hfit
    simp only [bind, Except.bind] at hfit
    split at hfit
    · cases hfit
    rename_i tt htt
    split at hfit
    · cases hfit
    rename_i cps hcps
    split at hfit
    · cases hfit
    split at hfit
    · cases hfit
    split at hfit
    · cases hfit
    cases hfit
    exact ⟨tt, cps, htt, hcps, rfl, by simp [hy]⟩
  have hns : tt.nSeries = 1 := by
    unfold trendTimeFit at htt
    split at htt
    · cases htt
    · simp only at htt
      split at htt
      · cases htt
      · cases htt
        simp [nSeriesOf, hy]
  rw [hi, hr, hns] at hcps
  unfold setupChangepoints at hcps
  simp only [ScalarOr.toList, List.replicate_one, List.zip_cons_cons, List.zip_nil_right,
    changepointsAll, bind, Except.bind, pure, Except.pure] at hcps
  split at hcps
  · cases hcps
  rename_i c hc
  cases hcps
  exact ⟨s, c, hs, hs1, C71_piecewise hcls hsq hs hs1 hs2⟩

/-! Example: piecewise linear trend with two changepoints and a column `a` of `X` under the default
effect; training times 0 to 3, horizons `[4, 6]` and `[5, 6]`. -/

def exP71 : PiecewiseParams ℚ Int := ⟨.scalar 1, .scalar (1 / 2), .scalar 1, true, none⟩

def exCfg71 : UniConfig (Option (PiecewiseState ℚ Int)) (Scale ℚ) Int ℚ (Tensor ℚ) ℚ where
  compile := fun _ => .ok fun _ => true
  trend := (piecewiseClass daysOfInt suggestLinear piecewisePredict exP71).new
  effects := []
  default := (linearClass "multiplicative").new
  fitFeatures := .ok
  features := .ok
  discrete := false
  unitScale := .float 1
  effectScale := .float 1
  scale := 1

def exY71 : Frame String Int ℚ :=
  ⟨1, ["y"], [(0, 1), (1, 3), (2, 4), (3, 8)].map fun p => ⟨[], p.1, fun _ => p.2⟩⟩

def exX71 : Frame String Int ℚ :=
  ⟨1, ["a"], [(0, 1), (1, 0), (2, 5), (3, 2), (4, 7), (5, 1), (6, 3)].map
    fun p => ⟨[], p.1, fun _ => p.2⟩⟩

def exθ71 : SiteEnv ℚ := fun s =>
  if s = "offset" then ⟨[1], [10]⟩
  else if s = "changepoint_coefficients" then ⟨[2], [1, 2]⟩
  else if s = "exogenous_variables_effect/coefs" then ⟨[1], [1 / 10]⟩ else ⟨[], []⟩

/-- Fit, prepare the horizon and compute the mean. -/
def exRun71 (fh : List Int) : PyM (Tensor ℚ) := do
  let m ← uniFitData exCfg71 exY71 (some exX71)
  let d ← uniPredictData exCfg71 m (some exX71) fh
  let st ← computeMean (m.trend.cls.call m.trend.st) d.1 d.2 (callsOf m.objs) exθ71
  pure st.mean

/-- The hypotheses of `C71_forecaster` are met by runs that succeed. -/
example : (exRun71 [4, 6]).toOption = some ⟨[2, 1], [391 / 10, 377 / 10]⟩ := by decide +kernel
example : (exRun71 [5, 6]).toOption = some ⟨[2, 1], [143 / 5, 377 / 10]⟩ := by decide +kernel
example : DatesIn exX71 [4, 6] :=
  ⟨rfl, by decide, by decide, by decide, by decide⟩
example : RowWiseClass exCfg71.default.cls :=
  ⟨rfl, fun _ _ _ => rfl, "multiplicative", linearRaw, _, fun _ => rfl, rowWise_linear⟩
example : SingleSites [0, 1] exθ71 := ⟨⟨10, rfl⟩, rfl⟩

end PV
