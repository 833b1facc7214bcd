import Verif.Spec.Predict
import Verif.Lemmas.ScalingInferred

set_option linter.unusedSectionVars false

namespace PV
open Tensor

theorem size_ones (k : Nat) (s : List Nat) : size (List.replicate k 1 ++ s) = size s := by
  induction k with
  | zero => rfl
  | succ k ih => simp [List.replicate_succ, size, ih]

theorem ravel_ones (k : Nat) (s i : List Nat) :
    ravel (List.replicate k 1 ++ s) (List.replicate k 0 ++ i) = ravel s i := by
  induction k with
  | zero => rfl
  | succ k ih => simp [List.replicate_succ, ravel, ih]

theorem inBounds_ones (k : Nat) {s i : List Nat} (h : InBounds s i) :
    InBounds (List.replicate k 1 ++ s) (List.replicate k 0 ++ i) := by
  induction k with
  | zero => exact h
  | succ k ih => simp [List.replicate_succ, InBounds, ih]

/-- Position of draw `s`, time `t`, series `n` in `obs.T.reshape((-1, S))`. -/
theorem transpose_obs {K : Type} [Zero K] {obs : Tensor K} {S T N k : Nat} (hw : obs.WF)
    (hsh : obs.shape = S :: (List.replicate k 1 ++ [T, N])) {s t n : Nat} (hs : s < S)
    (ht : t < T) (hn : n < N) :
    obs.transpose.data[(n * T + t) * S + s]?
      = obs.get? (s :: (List.replicate k 0 ++ [t, n])) := by
  have hb : InBounds obs.shape (s :: (List.replicate k 0 ++ [t, n])) := by
    rw [hsh]
    exact ⟨hs, inBounds_ones k ⟨ht, hn, trivial⟩⟩
  rw [← get?_transpose hw hb]
  unfold get?
  congr 1
  have hsh' : obs.transpose.shape = [N, T] ++ (List.replicate k 1 ++ [S]) := by
    simp [transpose, hsh]
  have hidx : (s :: (List.replicate k 0 ++ [t, n])).reverse
      = [n, t] ++ (List.replicate k 0 ++ [s]) := by simp
  rw [hsh', hidx]
  simp only [List.cons_append, List.nil_append, ravel, size, size_ones, ravel_ones]
  ring

theorem length_transpose {K : Type} [Zero K] {obs : Tensor K} {S T N k : Nat}
    (hsh : obs.shape = S :: (List.replicate k 1 ++ [T, N])) :
    obs.transpose.data.length = N * T * S := by
  simp only [transpose, ofFn, List.length_map, length_indices, size_reverse, hsh]
  simp only [size, size_ones]
  ring

section
variable {K τ : Type} [Field K] [LinearOrder K] [IsStrictOrderedRing K] [LinearOrder τ]

theorem periodindex_eq {ctx : Fitted K} {fh : List τ} {idx : List (List String × τ)}
    (h : periodindexToMultiindex ctx fh = .ok idx) : idx = product (forecastSeries ctx) fh := by
  unfold periodindexToMultiindex at h
  unfold forecastSeries
  split at h
  · rename_i h1
    simp only [h1, if_true]
    cases h
    simp [product]
  · rename_i h1
    simp only [h1, if_false]
    split at h
    · cases h
    · rename_i s ss hu
      cases h
      rw [hu]
      unfold filterSeriesTuples
      cases ctx.hierarchical with
      | false => simp
      | true =>
        congr 1
        simp only [if_true]
        apply List.filter_congr
        intro x _
        by_cases hx : x.getLast? = some "__total" <;> simp [totalLabel, hx]

theorem sortIndex_perm {ι V : Type} (f : Frame ι τ V) : (sortIndex f).rows.Perm f.rows :=
  List.perm_insertionSort _ _

theorem sortIndex_sorted {ι V : Type} (f : Frame ι τ V) :
    (sortIndex f).rows.Pairwise
      (fun a b => toLex (a.sid, a.time) ≤ toLex (b.sid, b.time)) := by
  have : Std.Total (fun a b : Row ι τ V => toLex (a.sid, a.time) ≤ toLex (b.sid, b.time)) :=
    ⟨fun _ _ => le_total _ _⟩
  have : IsTrans (Row ι τ V) (fun a b => toLex (a.sid, a.time) ≤ toLex (b.sid, b.time)) :=
    ⟨fun _ _ _ => le_trans⟩
  exact List.pairwise_insertionSort _ f.rows

/-- What a successful inverse scaling does: multiply each row by the scale of its series. -/
theorem invScale_eq {ι : Type} {ctx : Fitted K} {f g : Frame ι τ K}
    (h : invScaleY ctx.discrete ctx.scale f = .ok g) :
    ∃ σ : List String → K, g = f.mapVals (fun s v => v * σ s) ∧
      ∀ r ∈ f.rows, ScaleIs ctx r.sid (σ r.sid) := by
  unfold invScaleY at h
  cases hd : ctx.discrete with
  | true =>
    rw [hd] at h
    simp only [if_true, pure, Except.pure, Except.ok.injEq] at h
    refine ⟨fun _ => 1, ?_, fun r _ => Or.inl ⟨hd, rfl⟩⟩
    subst h
    obtain ⟨nl, cs, rows⟩ := f
    simp [Frame.mapVals]
  | false =>
    rw [hd] at h
    simp only [Bool.false_eq_true, if_false] at h
    cases hr : rowScales ctx.scale f with
    | error e => rw [hr] at h; cases h
    | ok ss =>
      rw [hr] at h
      have hg : applyScales (fun v k => v * k) f ss = g := by
        simpa [bind, Except.bind, pure, Except.pure] using h
      obtain ⟨σ, rfl, -⟩ := rowScales_fun hr
      rw [applyScales_map] at hg
      refine ⟨σ, hg.symm, ?_⟩
      intro r hrm
      cases hsc : ctx.scale with
      | float x =>
        rw [hsc] at hr
        simp only [rowScales, pure, Except.pure, Except.ok.injEq] at hr
        have := (List.map_inj_left.1 hr) r hrm
        exact Or.inr (Or.inl ⟨hd, by rw [hsc, this]⟩)
      | int n =>
        rw [hsc] at hr
        simp [rowScales, throw, throwThe, MonadExceptOf.throw] at hr
      | table e =>
        rw [hsc] at hr
        simp only [rowScales] at hr
        split at hr
        · cases hr
        · rw [mapM_ok_iff, List.forall₂_map_right_iff, List.forall₂_same] at hr
          have := hr r hrm
          refine Or.inr (Or.inr ⟨hd, e, hsc, ?_⟩)
          unfold lookupScale at this
          cases hf : e.find? (fun p => p.1 = r.sid) with
          | none => rw [hf] at this; cases this
          | some p =>
            rw [hf] at this
            simp only [pure, Except.pure, Except.ok.injEq] at this
            have h2 := List.find?_some hf
            simp only [decide_eq_true_eq] at h2
            rw [← this, ← h2]

theorem invScale_isOk {ι : Type} {ctx : Fitted K} {f : Frame ι τ K}
    (hn : f.nlevels = ctx.yNlevels)
    (h : ∀ r ∈ f.rows, ∃ k, ScaleIs ctx r.sid k)
    (hint : ctx.discrete = true ∨ ∀ n, ctx.scale ≠ .int n)
    (hflat : ctx.discrete = true ∨ ctx.yNlevels ≠ 1 ∨ ∃ x, ctx.scale = .float x) :
    ∃ g, invScaleY ctx.discrete ctx.scale f = .ok g := by
  unfold invScaleY
  cases hd : ctx.discrete with
  | true => exact ⟨_, rfl⟩
  | false =>
    simp only [Bool.false_eq_true, if_false]
    suffices ∃ ss, rowScales ctx.scale f = .ok ss by
      obtain ⟨ss, hss⟩ := this
      exact ⟨_, by rw [hss]; rfl⟩
    cases hsc : ctx.scale with
    | float x => exact ⟨_, rfl⟩
    | int n =>
      rcases hint with h' | h'
      · rw [hd] at h'; cases h'
      · exact absurd hsc (h' n)
    | table e =>
      have h1 : f.nlevels ≠ 1 := by
        rw [hn]
        rcases hflat with h' | h' | ⟨x, h'⟩
        · rw [hd] at h'; cases h'
        · exact h'
        · rw [hsc] at h'; cases h'
      simp only [rowScales, h1, if_false]
      refine ⟨_, mapM_ok_of_forall (g := fun r => match lookupScale e r.sid with
        | .ok v => v | .error _ => 0) ?_⟩
      intro r hr
      obtain ⟨k, hk⟩ := h r hr
      rcases hk with ⟨h', _⟩ | ⟨_, h'⟩ | ⟨_, e', h', hf⟩
      · rw [hd] at h'; cases h'
      · rw [hsc] at h'; cases h'
      · rw [hsc] at h'
        cases h'
        have : lookupScale e r.sid = .ok k := by
          unfold lookupScale
          rw [hf]; rfl
        rw [this]

/-- Rows of the frame built from a matrix. -/
theorem frameOfMatrix_ok {nl m n : Nat} {d : List K} {idx : List (List String × τ)}
    {f : Frame Nat τ K} (h : frameOfMatrix nl d m n idx = .ok f) :
    m = idx.length ∧ f.nlevels = nl ∧ f.cols = List.range n ∧ f.index = idx ∧
    ∀ r ∈ f.rows, ∃ i, idx[i]? = some (r.sid, r.time) ∧
      ∀ s, r.val s = d.getD (i * n + s) 0 := by
  unfold frameOfMatrix at h
  split at h
  · rename_i hm
    cases h
    refine ⟨hm, rfl, rfl, ?_, ?_⟩
    · subst hm
      simp only [Frame.index, List.map_zipWith]
      apply List.ext_getElem?
      intro i
      simp only [List.getElem?_zipWith]
      by_cases hi : i < idx.length
      · simp [hi]
      · rw [List.getElem?_eq_none (by simpa using hi), List.getElem?_eq_none (by simpa using hi)]
    · subst hm
      intro r hr
      obtain ⟨i, hi, rfl⟩ := List.getElem_of_mem hr
      simp only [List.length_zipWith, List.length_range, min_self] at hi
      refine ⟨i, ?_, ?_⟩
      · simp [hi]
      · intro s; simp
  · cases h

theorem predictSamples_unfold {ctx : Fitted K} {obs : Tensor K} {fh : List τ}
    {f : Frame Nat τ K} {S T N k : Nat}
    (hsh : obs.shape = S :: (List.replicate k 1 ++ [T, N]))
    (h : predictSamples ctx obs fh = .ok f) :
    0 < S ∧ ∃ g, frameOfMatrix ctx.yNlevels obs.transpose.data (N * T) S
        (product (forecastSeries ctx) fh) = .ok g ∧
      invScaleY ctx.discrete ctx.scale (sortIndex g) = .ok f := by
  unfold predictSamples at h
  rw [hsh] at h
  simp only [pure_bind] at h
  unfold reshapeInfer at h
  rw [length_transpose hsh] at h
  split at h
  · rename_i hS
    have hS0 : 0 < S := Nat.pos_of_ne_zero hS.1
    cases hidx : periodindexToMultiindex ctx fh with
    | error e => rw [hidx] at h; simp [bind, Except.bind] at h
    | ok idx =>
      have := periodindex_eq hidx
      rw [hidx] at h
      subst this
      have h' : (frameOfMatrix ctx.yNlevels obs.transpose.data (N * T * S / S) S
          (product (forecastSeries ctx) fh) >>=
          fun preds => invScaleY ctx.discrete ctx.scale (sortIndex preds)) = .ok f := h
      rw [Nat.mul_div_cancel _ hS0] at h'
      cases hg : frameOfMatrix ctx.yNlevels obs.transpose.data (N * T) S
          (product (forecastSeries ctx) fh) with
      | error e => rw [hg] at h'; cases h'
      | ok g => rw [hg] at h'; exact ⟨hS0, g, rfl, h'⟩
  · simp [bind, Except.bind] at h

end
end PV
