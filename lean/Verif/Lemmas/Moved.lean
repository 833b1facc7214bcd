import Verif.Lemmas.AnyEffect
import Verif.Lemmas.Dict
import Verif.Lemmas.ExRel
import Verif.Lemmas.Natural
import Verif.Model.Detrend

/-!
# Mirrored and shifted targets: trend, effects and mean

`v ↦ ε * v + a` with `ε = 1` or `ε = -1`.
-/

namespace PV
open Tensor

/-- Mirrored (`ε = -1`) or not (`ε = 1`), then raised by `a`. -/
def moved (ε a v : ℝ) : ℝ := ε * v + a

/-- Every value of the frame. -/
def Frame.moved {ι τ : Type} (ε a : ℝ) (y : Frame ι τ ℝ) : Frame ι τ ℝ := y.mapVals fun _ => PV.moved ε a

variable {ε a : ℝ}

/-! ## The trend -/

theorem piecewisePredict_moved {sq : Bool} {n : Nat} {θ θ' : SiteEnv ℝ} {m : Tensor ℝ}
    {p p' : PyDict (Tensor ℝ)} (hw : (θ "offset").WF)
    (ho : θ' "offset" = (θ "offset").map (moved ε a))
    (hc : θ' "changepoint_coefficients" = (θ "changepoint_coefficients").map (ε * ·)) :
    ExRel (fun t t' => t' = t.map (moved ε a) ∧ t.WF) (piecewisePredict sq n θ m p)
      (piecewisePredict sq n θ' m p') := by
  have hadd : ∀ x y : ℝ, ε * x + moved ε a y = moved ε a (x + y) := by
    intro x y; unfold moved; ring
  have hdot : dotLast m (θ' "changepoint_coefficients").data
      = (dotLast m (θ "changepoint_coefficients").data).map fun t => t.map (ε * ·) := by
    rw [hc]
    exact dotLast_smul ε m _
  have hfin : ∀ t t' : Tensor ℝ, t' = t.map (moved ε a) ∧ t.WF →
      ExRel (fun t t' => t' = t.map (moved ε a) ∧ t.WF)
        (if t.ndim = 1 ∨ (t.ndim = 3 ∧ n = 1 ∧ sq) then t.reshapeInfer 1 else pure t)
        (if t'.ndim = 1 ∨ (t'.ndim = 3 ∧ n = 1 ∧ sq) then t'.reshapeInfer 1 else pure t') := by
    rintro t t' ⟨rfl, htw⟩
    rw [show (t.map (moved ε a)).ndim = t.ndim from rfl]
    split
    · rw [reshapeInfer_natural]
      cases h : t.reshapeInfer 1 with
      | error e => rfl
      | ok r => exact ⟨rfl, reshapeInfer_wf h⟩
    · exact ⟨rfl, htw⟩
  have key : ∀ A B : Tensor ℝ, A.WF → B.WF →
      ExRel (fun t t' => t' = t.map (moved ε a) ∧ t.WF) (binop (· + ·) A B)
        (binop (· + ·) (A.map (ε * ·)) (B.map (moved ε a))) := by
    intro A B hA hB
    rw [binop_natural (f := (· + ·)) (k := moved ε a) hadd hA hB]
    cases h : binop (· + ·) A B with
    | error e => rfl
    | ok c => exact ⟨rfl, binop_wf h⟩
  have hdot' : ExRel (fun r r' => r' = r.map (ε * ·) ∧ r.WF)
      (dotLast m (θ "changepoint_coefficients").data)
      (dotLast m (θ' "changepoint_coefficients").data) := by
    rw [hdot]
    cases hr : dotLast m (θ "changepoint_coefficients").data with
    | error e => rfl
    | ok r => exact ⟨rfl, dotLast_wf hr⟩
  unfold piecewisePredict
  by_cases h3 : m.ndim = 3
  · simp only [h3, if_true]
    refine hdot'.bind ?_
    rintro r r' ⟨rfl, hrw⟩
    refine ExRel.bind ?_ hfin
    have := key ⟨r.shape ++ [1], r.data⟩ (asSeriesColumn (θ "offset"))
      (by unfold WF; rw [size_append_one]; exact hrw) (by simp [WF, asSeriesColumn, size])
    rw [ho]
    simp only [asSeriesColumn, Tensor.map, List.length_map] at this ⊢
    exact this
  · simp only [h3, if_false]
    refine hdot'.bind ?_
    rintro r r' ⟨rfl, hrw⟩
    refine ExRel.bind ?_ hfin
    rw [ho]
    exact key r (θ "offset") hrw hw

/-! ## The effects -/

/-- The same call after the target has been moved: the contribution is multiplied by `ε`. -/
def CallMoves (ε a : ℝ) (call call' : PyDict (Tensor ℝ) → PyM (Tensor ℝ)) : Prop :=
  ∀ p p' : PyDict (Tensor ℝ), (∀ t, p.get? "trend" = some t → t.WF) →
    p'.get? "trend" = (p.get? "trend").map (Tensor.map (moved ε a)) →
    ExRel (fun t t' => t' = t.map (ε * ·) ∧ t.WF) (call p) (call' p')

theorem linear_moves {mode : String} {θ θ' : SiteEnv ℝ} {d : Transformed (Tensor ℝ)}
    (hθ : (θ' "coefs").data
      = if mode = "additive" then (θ "coefs").data.map (ε * ·) else (θ "coefs").data)
    (ha : mode ≠ "additive" → a = 0) :
    CallMoves ε a (AddMul.call ⟨mode, linearRaw⟩ θ d) (AddMul.call ⟨mode, linearRaw⟩ θ' d) := by
  intro p p' hw hp
  unfold AddMul.call AddMul.predict
  simp only
  unfold PyDict.getItem
  rw [hp]
  cases ht : p.get? "trend" with
  | none => rfl
  | some t =>
    simp only [Option.map_some]
    have htw := hw t ht
    have hcol : ExRel (fun t t' => t' = t.map (moved ε a) ∧ t.WF) (trendAsColumn t)
        (trendAsColumn (t.map (moved ε a))) := by
      unfold trendAsColumn
      rw [show (t.map (moved ε a)).ndim = t.ndim from rfl]
      split
      · rw [reshapeInfer_natural]
        cases h : t.reshapeInfer 1 with
        | error e => rfl
        | ok r => exact ⟨rfl, reshapeInfer_wf h⟩
      · exact ⟨rfl, htw⟩
    refine hcol.bind ?_
    rintro t t' ⟨rfl, htw⟩
    have hraw : ExRel (fun x x' => x' = if mode = "additive" then x.map (ε * ·) else x)
        (basePredict linearRaw θ d (some p)) (basePredict linearRaw θ' d (some p')) := by
      unfold basePredict linearRaw
      refine ExRel.bind (R := (· = ·)) (ExRel.of_eq (fun _ => rfl) rfl) ?_
      rintro d _ rfl
      rw [hθ]
      split
      · rw [dotLast_smul]
        cases dotLast d (θ "coefs").data with
        | error e => rfl
        | ok r => rfl
      · exact ExRel.bind (R := (· = ·)) (ExRel.of_eq (fun _ => rfl) rfl) (by rintro r _ rfl; rfl)
    refine hraw.bind ?_
    rintro x x' rfl
    have hre : ExRel (fun x x' => x' = (if mode = "additive" then x.map (ε * ·) else x) ∧ x.WF)
        (x.reshape t.shape) (((if mode = "additive" then x.map (ε * ·) else x)).reshape
          (t.map (moved ε a)).shape) := by
      rw [show (t.map (moved ε a)).shape = t.shape from rfl]
      split
      · rw [reshape_natural]
        cases h : x.reshape t.shape with
        | error e => rfl
        | ok r => exact ⟨rfl, (reshape_wf h).1⟩
      · cases h : x.reshape t.shape with
        | error e => rfl
        | ok r => exact ⟨rfl, (reshape_wf h).1⟩
    refine hre.bind ?_
    rintro x x' ⟨rfl, hxw⟩
    by_cases hm : mode = "additive"
    · simp only [hm, if_true]
      exact ⟨rfl, hxw⟩
    · simp only [hm, if_false]
      have ha0 := ha hm
      subst ha0
      have := binop_natural (f := fun x y : ℝ => x * y) (f' := fun x y : ℝ => x * y)
        (g := moved ε 0) (h := fun x => x) (k := (ε * ·)) (by intro x y; unfold moved; ring) htw hxw
      rw [map_id'] at this
      rw [this]
      cases h : binop (fun x y : ℝ => x * y) t x with
      | error e => rfl
      | ok r => exact ⟨rfl, binop_wf h⟩

/-! ## The mean -/

/-- The recorded values after the target has been moved: the trend is moved, every contribution is
multiplied by `ε`. -/
def moveRecorded (ε a : ℝ) (d : PyDict (Tensor ℝ)) : PyDict (Tensor ℝ) :=
  d.map fun p => (p.1, if p.1 = "trend" then p.2.map (moved ε a) else p.2.map (ε * ·))

/-- The state of the mean after the target has been moved. -/
def MeanState.moved (ε a : ℝ) (st : MeanState ℝ) : MeanState ℝ :=
  ⟨st.mean.map (PV.moved ε a), moveRecorded ε a st.sites, moveRecorded ε a st.predicted⟩

theorem moveRecorded_get (d : PyDict (Tensor ℝ)) (k : String) :
    (moveRecorded ε a d).get? k
      = (d.get? k).map fun t => if k = "trend" then t.map (moved ε a) else t.map (ε * ·) := by
  induction d with
  | nil => rfl
  | cons q d ih =>
    obtain ⟨k', v⟩ := q
    simp only [moveRecorded, List.map_cons, PyDict.get?] at ih ⊢
    split
    · rename_i h; subst h; rfl
    · exact ih

theorem moveRecorded_set (d : PyDict (Tensor ℝ)) {k : String} (hk : k ≠ "trend") (v : Tensor ℝ) :
    moveRecorded ε a (d.set k v) = (moveRecorded ε a d).set k (v.map (ε * ·)) := by
  induction d with
  | nil => simp [moveRecorded, PyDict.set, hk]
  | cons q d ih =>
    obtain ⟨k', v'⟩ := q
    simp only [moveRecorded, List.map_cons, PyDict.set] at ih ⊢
    split
    · rename_i h; subst h; simp [hk]
    · simp only [List.map_cons, ih]

/-- The states of two runs: the second has the moved target. -/
def StateMoves (ε a : ℝ) (st st' : MeanState ℝ) : Prop :=
  st' = st.moved ε a ∧ st.mean.WF ∧ ∀ t, st.predicted.get? "trend" = some t → t.WF

section
variable {D : Type} {θ θ' : SiteEnv ℝ} {data : PyDict D}

theorem meanStep_moves {st st' : MeanState ℝ} {n : String} {c : EffectCall D ℝ}
    (hn : n ≠ "trend")
    (hc : ∀ d, data.get? n = some d → CallMoves ε a (c (θ.scope n) d) (c (θ'.scope n) d))
    (h : StateMoves ε a st st') :
    ExRel (StateMoves ε a) (meanStep θ data st (n, c)) (meanStep θ' data st' (n, c)) := by
  obtain ⟨rfl, hw, ht⟩ := h
  unfold meanStep PyDict.getItem
  cases hd : data.get? n with
  | none => rfl
  | some d =>
    simp only
    show ExRel _ ((c (θ.scope n) d st.predicted) >>= _) ((c (θ'.scope n) d _) >>= _)
    refine (hc d hd st.predicted (st.moved ε a).predicted ht ?_).bind ?_
    · show (moveRecorded ε a st.predicted).get? "trend" = _
      rw [moveRecorded_get]
      simp
    · rintro v v' ⟨rfl, hvw⟩
      have hadd : ∀ x y : ℝ, moved ε a x + ε * y = moved ε a (x + y) := by
        intro x y; unfold moved; ring
      rw [show (st.moved ε a).mean = st.mean.map (moved ε a) from rfl,
        binop_natural (f := fun x y : ℝ => x + y) (f' := fun x y : ℝ => x + y) hadd hw hvw]
      cases hb : binop (fun x y : ℝ => x + y) st.mean v with
      | error e => rfl
      | ok mn =>
        refine ⟨?_, binop_wf hb, ?_⟩
        · unfold MeanState.moved
          simp only [moveRecorded_set _ hn]
        · intro t htt
          simp only at htt
          rw [PyDict.get?_set, if_neg hn] at htt
          exact ht t htt

theorem computeMean_moves {trend : EffectCall D ℝ} {trend' : EffectCall D ℝ} {td : D}
    {effects : PyDict (EffectCall D ℝ)}
    (htr : ExRel (fun t t' => t' = t.map (moved ε a) ∧ t.WF) (trend θ td []) (trend' θ' td []))
    (hn : ∀ e ∈ effects, e.1 ≠ "trend")
    (hc : ∀ e ∈ effects, ∀ d, data.get? e.1 = some d →
      CallMoves ε a (e.2 (θ.scope e.1) d) (e.2 (θ'.scope e.1) d)) :
    ExRel (StateMoves ε a) (computeMean trend td data effects θ)
      (computeMean trend' td data effects θ') := by
  unfold computeMean
  refine htr.bind ?_
  rintro t t' ⟨rfl, htw⟩
  refine ExRel.foldlM (Q := fun c d => c = d ∧ c ∈ effects) ?_ ?_ ?_
  · rintro st st' ⟨n, c⟩ _ hst ⟨rfl, hm⟩
    exact meanStep_moves (hn _ hm) (hc _ hm) hst
  · rw [List.forall₂_same]
    exact fun x hx => ⟨rfl, hx⟩
  · refine ⟨by simp [MeanState.moved, moveRecorded], htw, ?_⟩
    intro t0 h0
    simp only [PyDict.get?, if_true, Option.some.injEq] at h0
    exact h0 ▸ htw

end
end PV
