import Verif.Props.EndToEnd

/-!
# C92: an exogenous table without columns is no exogenous table
-/

namespace PV
section
variable {S τ D K F κ G Θ P H : Type} [Field K] [LinearOrder K] [LinearOrder τ]

/-- **C92**: fitting a `HierarchicalProphet` with a table without columns, whatever its rows, does
exactly what fitting without a table does. -/
theorem C92_fit {np : Numpyro κ G (ModelArgs D K) K Θ P (Draws K)} {w : World S τ D K F κ G Θ P}
    {i : Nat} (hh : ∀ fc, w.fcs[i]? = some fc → fc.cfg.hier ≠ none) {x : Frame String τ K}
    (hx : x.cols = []) (y : Frame String τ K) :
    w.fit np i y (some x) = w.fit np i y none := by
  unfold World.fit
  cases hi : w.fcs[i]? with
  | none => rfl
  | some fc =>
    obtain ⟨o, ho⟩ := Option.ne_none_iff_exists'.1 (hh fc hi)
    have hr : fc.reset.cfg = fc.cfg := rfl
    have hp : ∀ s ys, prepareRef fc.cfg s y ys (some x) w.heap w.feats
        = prepareRef fc.cfg s y ys none w.heap w.feats := by
      intro s ys
      unfold prepareRef
      rw [ho]
      simp only
      unfold prepareHier hierBottom exogOr
      simp only [hx, if_true]
    simp only [hr, hp]

/-- **C92**: and so does predicting, with every method. -/
theorem C92_predict [FloorRing K] {np : Numpyro κ G (ModelArgs D K) K Θ P (Draws K)}
    {horizon : List τ → H → List τ} {w : World S τ D K F κ G Θ P}
    {i : Nat} (hh : ∀ fc, w.fcs[i]? = some fc → fc.cfg.hier ≠ none) {x : Frame String τ K}
    (hx : x.cols = []) (q : Query K) (fh : H) :
    w.predict np horizon i q (some x) fh = w.predict np horizon i q none fh := by
  unfold World.predict
  cases hi : w.fcs[i]? with
  | none => rfl
  | some fc =>
    obtain ⟨o, ho⟩ := Option.ne_none_iff_exists'.1 (hh fc hi)
    have hp : ∀ p ts, predictArgs w.heap w.feats fc.cfg p (some x) ts
        = predictArgs w.heap w.feats fc.cfg p none ts := by
      intro p ts
      unfold predictArgs predictSeenRef
      rw [ho]
      simp only
      unfold predictExog
      simp only [hx, if_true]
    simp only [hp]

end

/-! Example: the hierarchical forecaster of `exBoth` with a table without columns and rows. -/

example : ∀ fc, exBoth.fcs[1]? = some fc → fc.cfg.hier ≠ none := by
  intro fc h
  have : exBoth.fcs[1]?.map (fun fc => fc.cfg.hier.isSome) = some true := by decide +kernel
  rw [h] at this
  intro hn
  simp [hn] at this

example : (exBoth.fit exNumpyro 1 (exPanelW 3 5) (some ⟨2, [], []⟩)).1.toOption = some () ∧
    Answer.rowsOf ((exBoth.fit exNumpyro 1 (exPanelW 3 5) none).2.predict exNumpyro exHorizon 1
      .samples (some ⟨2, [], []⟩) [4]).1
        = some [(["__total"], 4, 195), (["a"], 4, 45), (["b"], 4, 150)] := by
  decide +kernel

end PV
