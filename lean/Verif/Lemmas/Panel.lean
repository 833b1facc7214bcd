import Mathlib.Data.List.Count
import Verif.Spec.Panel
import Verif.Lemmas.Frame
import Verif.Lemmas.Tensor
import Verif.Model.FrameToArray

/-! # Panels: the grouping helpers of the model against positions in the raw rows -/

namespace PV
variable {ι τ V α : Type}

/-- Position of an element of a filtered list. -/
theorem getElem?_filter_iff (p : α → Bool) : ∀ (l : List α) (t : Nat) (a : α),
    (l.filter p)[t]? = some a ↔
      ∃ k, l[k]? = some a ∧ p a = true ∧ (l.take k).countP p = t
  | [], t, a => by simp
  | x :: l, t, a => by
    constructor
    · intro h
      by_cases hx : p x = true
      · rw [List.filter_cons_of_pos hx] at h
        cases t with
        | zero =>
          simp only [List.getElem?_cons_zero, Option.some.injEq] at h
          exact ⟨0, by simp [h], by rw [← h]; exact hx, by simp⟩
        | succ t =>
          rw [List.getElem?_cons_succ, getElem?_filter_iff p l t a] at h
          obtain ⟨k, hk, hp, hc⟩ := h
          exact ⟨k + 1, by simpa using hk, hp, by simp [hx, hc]⟩
      · rw [List.filter_cons_of_neg hx, getElem?_filter_iff p l t a] at h
        obtain ⟨k, hk, hp, hc⟩ := h
        exact ⟨k + 1, by simpa using hk, hp, by simp [hx, hc]⟩
    · rintro ⟨k, hk, hp, hc⟩
      cases k with
      | zero =>
        simp only [List.getElem?_cons_zero, Option.some.injEq] at hk
        subst hk
        simp only [List.take_zero, List.countP_nil] at hc
        rw [List.filter_cons_of_pos hp, ← hc]
        rfl
      | succ k =>
        rw [List.getElem?_cons_succ] at hk
        rw [List.take_succ_cons] at hc
        by_cases hx : p x = true
        · rw [List.countP_cons_of_pos hx] at hc
          rw [List.filter_cons_of_pos hx, ← hc, List.getElem?_cons_succ,
            getElem?_filter_iff p l _ a]
          exact ⟨k, hk, hp, rfl⟩
        · rw [List.countP_cons_of_neg hx] at hc
          rw [List.filter_cons_of_neg hx, getElem?_filter_iff p l t a]
          exact ⟨k, hk, hp, hc⟩

theorem rowAt_iff {f : Frame ι τ V} {s : List String} {j : Nat} {row : Row ι τ V} :
    RowAt f s j row ↔ (f.rowsOf s)[j]? = some row := by
  unfold RowAt Frame.rowsOf
  rw [getElem?_filter_iff]
  simp only [decide_eq_true_eq, List.count, List.countP_map]
  refine exists_congr fun k => and_congr_right fun _ => and_congr_right fun _ => ?_
  have : ((fun x => x == s) ∘ Row.sid : Row ι τ V → Bool) = fun r => decide (r.sid = s) := by
    funext r
    simp [Function.comp, beq_eq_decide]
  rw [this]

theorem seriesLength_eq (f : Frame ι τ V) (s : List String) :
    seriesLength f s = (f.rowsOf s).length := by
  unfold seriesLength Frame.rowsOf
  rw [List.count, List.countP_map, ← List.countP_eq_length_filter]
  congr 1
  funext r
  simp [Function.comp, beq_eq_decide]

theorem unique_snoc [DecidableEq α] (l : List α) (a : α) :
    unique (l ++ [a]) = if a ∈ l then unique l else unique l ++ [a] := by
  induction l with
  | nil => simp [unique]
  | cons b l ih =>
    rw [List.cons_append, unique, unique, ih]
    by_cases hb : a = b
    · subst hb
      by_cases ha : a ∈ l <;> simp [ha]
    · by_cases ha : a ∈ l <;> simp [ha, hb]

theorem unique_prefix [DecidableEq α] (l m : List α) : unique l <+: unique (l ++ m) := by
  induction m using List.reverseRecOn with
  | nil => simp
  | append_singleton m a ih =>
    rw [← List.append_assoc, unique_snoc]
    split
    · exact ih
    · exact ih.trans (List.prefix_append _ _)

theorem length_unique [DecidableEq α] (l : List α) : (unique l).length = l.toFinset.card := by
  rw [← List.toFinset_card_of_nodup (nodup_unique l)]
  congr 1
  ext x
  simp

/-- `unique` lists the elements in order of first appearance. -/
theorem getElem?_unique_iff [DecidableEq α] (l : List α) (i : Nat) (s : α) :
    (unique l)[i]? = some s ↔
      ∃ k, l[k]? = some s ∧ s ∉ l.take k ∧ (l.take k).toFinset.card = i := by
  have fwd : ∀ k, l[k]? = some s → s ∉ l.take k →
      (unique l)[(l.take k).toFinset.card]? = some s := by
    intro k hk hn
    obtain ⟨hlt, hks⟩ := List.getElem?_eq_some_iff.1 hk
    have hsplit : l = (l.take k ++ [s]) ++ l.drop (k + 1) := by
      rw [← hks, List.take_append_getElem, List.take_append_drop]
    have hpre := unique_prefix (l.take k ++ [s]) (l.drop (k + 1))
    rw [← hsplit, unique_snoc, if_neg hn] at hpre
    obtain ⟨m, hm⟩ := hpre
    rw [← hm, ← length_unique, List.append_assoc, List.getElem?_append_right (le_refl _)]
    simp
  constructor
  · intro h
    have hmem : s ∈ l := mem_unique.1 (List.mem_of_getElem? h)
    have hk : l[l.idxOf s]? = some s := by
      rw [List.getElem?_eq_getElem (List.idxOf_lt_length_of_mem hmem), List.getElem_idxOf]
    have hn : s ∉ l.take (l.idxOf s) := by
      intro hm
      have := List.idxOf_lt_length_of_mem hm
      rw [List.length_take] at this
      have h2 : (l.take (l.idxOf s) ++ l.drop (l.idxOf s)).idxOf s
          = (l.take (l.idxOf s)).idxOf s := List.idxOf_append_of_mem hm
      rw [List.take_append_drop] at h2
      omega
    refine ⟨l.idxOf s, hk, hn, ?_⟩
    have h3 := fwd _ hk hn
    obtain ⟨h4, h5⟩ := List.getElem?_eq_some_iff.1 h
    obtain ⟨h6, h7⟩ := List.getElem?_eq_some_iff.1 h3
    exact (nodup_unique l).getElem_inj_iff.1 (h7.trans h5.symm)
  · rintro ⟨k, hk, hn, rfl⟩
    exact fwd k hk hn

theorem seriesAt_iff {f : Frame ι τ V} {i : Nat} {s : List String} :
    SeriesAt f i s ↔ f.series[i]? = some s := by
  unfold SeriesAt Frame.series
  rw [getElem?_unique_iff]
  constructor
  · rintro ⟨k, row, hk, rfl, hn, hc⟩
    refine ⟨k, by simp [hk], ?_, by rw [← List.map_take]; exact hc⟩
    rw [← List.map_take]
    intro hm
    obtain ⟨r, hr, he⟩ := List.mem_map.1 hm
    exact hn r hr he
  · rintro ⟨k, hk, hn, hc⟩
    rw [List.getElem?_map] at hk
    obtain ⟨row, hrow, rfl⟩ := Option.map_eq_some_iff.1 hk
    rw [← List.map_take] at hn hc
    exact ⟨k, row, hrow, rfl, fun r hr he => hn (List.mem_map.2 ⟨r, hr, he⟩), hc⟩

theorem seriesCount_eq (f : Frame ι τ V) : seriesCount f = f.series.length :=
  (length_unique _).symm

theorem mem_series {f : Frame ι τ V} {s : List String} :
    s ∈ f.series ↔ ∃ r ∈ f.rows, r.sid = s := by
  simp [Frame.series]

/-- The values of some rows, flattened: entry `(j, c)`. -/
theorem flatVals_getElem? (f : Frame ι τ V) (rows : List (Row ι τ V)) {j c : Nat}
    (hj : j < rows.length) (hc : c < f.cols.length) :
    (f.flatVals rows)[j * f.cols.length + c]?
      = (rows[j]?.bind fun r => f.cols[c]?.map r.val) := by
  unfold Frame.flatVals
  rw [Tensor.getElem?_flatMap_const rows (fun r => f.cols.map r.val) f.cols.length (by simp) j c hj hc,
    List.getElem?_eq_getElem hj]
  simp

theorem length_flatVals (f : Frame ι τ V) (rows : List (Row ι τ V)) :
    (f.flatVals rows).length = rows.length * f.cols.length := by
  unfold Frame.flatVals
  exact Tensor.length_flatMap_const rows _ _ (by simp)

theorem series_ne_nil {f : Frame ι τ V} (h : f.rows ≠ []) : f.series ≠ [] :=
  unique_ne_nil (by simpa using h)

/-- `seriesToTensor` of a panel with rows and columns. -/
theorem seriesToTensor_panel {f : Frame ι τ V} (hlv : f.nlevels ≠ 1) (hr : f.rows ≠ [])
    (hc : f.cols ≠ []) :
    (∃ T, (∀ s ∈ f.series, (f.rowsOf s).length = T) ∧
      f.seriesToTensor = .ok ⟨[f.series.length, T, f.cols.length],
        f.series.flatMap fun s => f.flatVals (f.rowsOf s)⟩) ∨
    ((∃ s ∈ f.series, ∃ s' ∈ f.series, (f.rowsOf s).length ≠ (f.rowsOf s').length) ∧
      f.seriesToTensor = .error .valueError) := by
  have hs := series_ne_nil hr
  unfold Frame.seriesToTensor
  rw [if_neg hc, if_neg hlv]
  cases hse : f.series with
  | nil => exact absurd hse hs
  | cons s ss =>
    simp only
    by_cases hall : ∀ s' ∈ ss, (f.rowsOf s').length = (f.rowsOf s).length
    · rw [if_pos hall]
      refine Or.inl ⟨(f.rowsOf s).length, ?_, rfl⟩
      intro s' hs'
      rcases List.mem_cons.1 hs' with rfl | h
      · rfl
      · exact hall s' h
    · rw [if_neg hall]
      push Not at hall
      obtain ⟨s', hs', hne⟩ := hall
      exact Or.inr ⟨⟨s', by simp [hs'], s, by simp, hne⟩, rfl⟩

theorem panel_wf {f : Frame ι τ V} {T : Nat} (h : ∀ s ∈ f.series, (f.rowsOf s).length = T) :
    (⟨[f.series.length, T, f.cols.length],
        f.series.flatMap fun s => f.flatVals (f.rowsOf s)⟩ : Tensor V).WF := by
  unfold Tensor.WF
  simp only
  rw [Tensor.length_flatMap_const _ _ (T * f.cols.length)
    (fun s hs => by rw [length_flatVals, h s hs])]
  simp [Tensor.size]

theorem panel_get? {f : Frame ι τ V} {T : Nat} (h : ∀ s ∈ f.series, (f.rowsOf s).length = T)
    {i j c : Nat} {s : List String} {row : Row ι τ V} {col : ι}
    (hs : f.series[i]? = some s) (hrow : (f.rowsOf s)[j]? = some row)
    (hcol : f.cols[c]? = some col) :
    (⟨[f.series.length, T, f.cols.length],
        f.series.flatMap fun s => f.flatVals (f.rowsOf s)⟩ : Tensor V).get? [i, j, c]
      = some (row.val col) := by
  obtain ⟨hi, hsi⟩ := List.getElem?_eq_some_iff.1 hs
  obtain ⟨hj, -⟩ := List.getElem?_eq_some_iff.1 hrow
  obtain ⟨hcl, -⟩ := List.getElem?_eq_some_iff.1 hcol
  have hsm : s ∈ f.series := List.mem_of_getElem? hs
  have hjT : j < T := by rw [← h s hsm]; exact hj
  unfold Tensor.get?
  simp only [Tensor.ravel, Tensor.size, Nat.mul_one, Nat.add_zero]
  have hlt : j * f.cols.length + c < T * f.cols.length := by
    calc j * f.cols.length + c < j * f.cols.length + f.cols.length := by omega
      _ = (j + 1) * f.cols.length := by ring
      _ ≤ T * f.cols.length := Nat.mul_le_mul_right _ hjT
  rw [Tensor.getElem?_flatMap_const f.series (fun s => f.flatVals (f.rowsOf s))
    (T * f.cols.length) (fun s hs => by rw [length_flatVals, h s hs]) i _ hi hlt]
  rw [hsi, flatVals_getElem? f _ hj hcl, hrow]
  simp [hcol]

end PV
