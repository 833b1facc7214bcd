import Verif.Model.Vectorize
import Verif.Lemmas.Frame

/-!
# C77: univariate forecasters treat the series of a panel separately
-/

namespace PV
section
variable {F H ι τ V W : Type}

/-- Specification: the part of a panel that belongs to one series, as a table indexed by time. -/
def ownPart (x : Frame ι τ V) (s : List String) : Frame ι τ V :=
  { nlevels := 1, cols := x.cols,
    rows := x.rows.filterMap fun r => if r.sid = s then some ⟨[], r.time, r.val⟩ else none }

theorem rowsOf_map_eq (x : Frame ι τ V) (s : List String) :
    (x.rowsOf s).map (fun r => (⟨[], r.time, r.val⟩ : Row ι τ V)) = (ownPart x s).rows := by
  unfold Frame.rowsOf ownPart
  simp only
  induction x.rows with
  | nil => rfl
  | cons r l ih =>
    by_cases h : r.sid = s
    · simp [h, ih]
    · simp [h, ih]

theorem idxVal_mem_iff {n : Nat} {a s : List String} (ha : a.length = n) (hs : s.length = n)
    (hn : 0 < n) : idxVal n a = idxVal n s ↔ a = s := by
  unfold idxVal
  split
  · rename_i h1
    subst h1
    match a, s, ha, hs with
    | [x], [y], _, _ => simp
  · constructor
    · intro h
      injection h with h
      rw [← ha, List.take_length, ha, ← hs, List.take_length] at h
      exact h
    · rintro rfl; rfl

theorem vectorExog_eq {x : Frame String τ V} (hwf : x.WF) {s : List String}
    (hs : s.length + 1 = x.nlevels) (hs0 : s ≠ []) :
    vectorExog (some x) s = .ok (some (ownPart x s)) := by
  have hpos : 0 < s.length := List.length_pos_of_ne_nil hs0
  have hlv : (idxVal s.length s).nlevels = s.length := by
    unfold idxVal
    split
    · simp_all [IdxVal.nlevels]
    · simp [IdxVal.nlevels]
  simp only [vectorExog, getMultiindexLoc, hlv]
  show Except.ok (some _) = _
  congr 2
  unfold Frame.dropSeriesLevels
  have : (x.rows.filter fun r => idxVal s.length r.sid ∈ [idxVal s.length s]) = x.rowsOf s := by
    unfold Frame.rowsOf
    apply List.filter_congr
    intro r hr
    have hl : r.sid.length = s.length := by
      have := hwf r hr
      omega
    simp [idxVal_mem_iff hl rfl hpos]
  rw [this, rowsOf_map_eq]
  rfl

theorem mapM_ok_forall₂ {α β : Type} {g : α → PyM β} {l : List α} {out : List β}
    (h : l.mapM g = .ok out) : List.Forall₂ (fun a b => g a = .ok b) l out := by
  induction l generalizing out with
  | nil =>
    rw [List.mapM_nil] at h
    cases h
    exact .nil
  | cons a l ih =>
    rw [List.mapM_cons] at h
    cases ha : g a with
    | error e => rw [ha] at h; cases h
    | ok b =>
      rw [ha] at h
      cases hl : l.mapM g with
      | error e => rw [hl] at h; cases h
      | ok bs =>
        rw [hl] at h
        cases h
        exact .cons ha (ih hl)

theorem mapM_congr_mem {α β : Type} {g g' : α → PyM β} {l : List α}
    (h : ∀ a ∈ l, g a = g' a) : l.mapM g = l.mapM g' := by
  induction l with
  | nil => rfl
  | cons a l ih =>
    rw [List.mapM_cons, List.mapM_cons, h a (by simp), ih fun b hb => h b (by simp [hb])]

/-- A panel `X` that fits the series labels of the forecasters. -/
def PanelFor (sids : List (List String)) (X : Option (Frame String τ V)) : Prop :=
  ∀ x ∈ X, x.WF ∧ ∀ s ∈ sids, s ≠ [] ∧ s.length + 1 = x.nlevels

/-- **C77.** The prediction methods of a univariate forecaster on a panel return, series after
series, what the forecaster of the series returns when it is given the rows of `X` that belong
to the series. -/
theorem C77_blocks {method : F → Option (Frame String τ V) → H → PyM (Frame ι τ W)}
    {forecasters : List (List String × F)} {X : Option (Frame String τ V)} {fh : H}
    (hX : PanelFor (forecasters.map Prod.fst) X) {out : Frame ι τ W}
    (h : vectorizePredict method forecasters X fh = .ok out) :
    ∃ outs, List.Forall₂ (fun p o => method p.2 (X.map fun x => ownPart x p.1) fh = .ok o)
      forecasters outs ∧ out.rows = outs.flatMap Frame.rows := by
  unfold vectorizePredict at h
  cases hm : forecasters.mapM (fun p => do
      let x ← vectorExog X p.1
      method p.2 x fh) with
  | error e => rw [hm] at h; cases h
  | ok outs =>
    rw [hm] at h
    refine ⟨outs, ?_, ?_⟩
    · have hf := mapM_ok_forall₂ hm
      have key : ∀ (l : List (List String × F)) (os : List (Frame ι τ W)),
          (∀ p ∈ l, p ∈ forecasters) → List.Forall₂ (fun a b => (do
            let x ← vectorExog X a.1
            method a.2 x fh) = .ok b) l os →
          List.Forall₂ (fun p o => method p.2 (X.map fun x => ownPart x p.1) fh = .ok o) l os := by
        intro l os hsub hall
        induction hall with
        | nil => exact .nil
        | @cons p o l os hp _ ih =>
          refine .cons ?_ (ih fun q hq => hsub q (List.mem_cons_of_mem _ hq))
          cases X with
          | none => exact hp
          | some x =>
            obtain ⟨hwf, hs⟩ := hX x rfl
            obtain ⟨hs0, hsl⟩ := hs p.1 (List.mem_map.2 ⟨p, hsub p (by simp), rfl⟩)
            rw [vectorExog_eq hwf hsl hs0] at hp
            exact hp
      exact key _ _ (fun p hp => hp) hf
    · have h' : (if outs.isEmpty then throw .valueError else pure (vectorizeConcat outs) :
        PyM (Frame ι τ W)) = .ok out := h
      split at h'
      · cases h'
      · cases h'
        cases outs <;> rfl

/-- **C77.** Rows of `X` for other series play no role: two tables with the same rows for every
series that is forecast give the same result, even if they contain further series or list the
series in different orders. -/
theorem C77_other_rows {method : F → Option (Frame String τ V) → H → PyM (Frame ι τ W)}
    {forecasters : List (List String × F)} {x x' : Frame String τ V} {fh : H}
    (hX : PanelFor (forecasters.map Prod.fst) (some x))
    (hX' : PanelFor (forecasters.map Prod.fst) (some x'))
    (h : ∀ s ∈ forecasters.map Prod.fst, ownPart x s = ownPart x' s) :
    vectorizePredict method forecasters (some x) fh
      = vectorizePredict method forecasters (some x') fh := by
  have key : forecasters.mapM (fun p => do
      let z ← vectorExog (some x) p.1
      method p.2 z fh) = forecasters.mapM (fun p => do
      let z ← vectorExog (some x') p.1
      method p.2 z fh) := by
    apply mapM_congr_mem
    intro p hp
    have hp' : p.1 ∈ forecasters.map Prod.fst := List.mem_map.2 ⟨p, hp, rfl⟩
    obtain ⟨hw, hs⟩ := hX x rfl
    obtain ⟨hw', hs'⟩ := hX' x' rfl
    rw [vectorExog_eq hw (hs _ hp').2 (hs _ hp').1, vectorExog_eq hw' (hs' _ hp').2 (hs' _ hp').1,
      h _ hp']
  unfold vectorizePredict
  rw [key]

theorem forall₂_comp {α β γ : Type} {R : α → β → Prop} {S : β → γ → Prop} {l : List α} {m : List β}
    {n : List γ} (h : List.Forall₂ R l m) (h' : List.Forall₂ S m n) :
    List.Forall₂ (fun a c => ∃ b, R a b ∧ S b c) l n := by
  induction h generalizing n with
  | nil => cases h'; exact .nil
  | @cons a b l m hab _ ih =>
    cases h' with
    | cons hbc h' => exact .cons ⟨b, hab, hbc⟩ (ih h')

/-- **C77.** Fitting on a panel and predicting: for every series of the target, the result is that
of a forecaster fitted on this series and its exogenous rows alone, and the results follow each
other in the order of the series. -/
theorem C77_separate {fit : Frame String τ W → Option (Frame String τ V) → PyM F}
    {method : F → Option (Frame String τ V) → H → PyM (Frame ι τ W)}
    {y : Frame String τ W} {X Xp : Option (Frame String τ V)} {fh : H}
    (hXp : PanelFor y.series Xp) {fs : List (List String × F)} {out : Frame ι τ W}
    (hf : vectorizeFit fit y X = .ok fs) (h : vectorizePredict method fs Xp fh = .ok out) :
    ∃ outs, List.Forall₂ (fun s o => ∃ f, fit (ownPart y s) (X.map fun x => ownPart x s) = .ok f ∧
        method f (Xp.map fun x => ownPart x s) fh = .ok o) y.series outs ∧
      out.rows = outs.flatMap Frame.rows := by
  have h1 : List.Forall₂ (fun s (p : List String × F) => p.1 = s ∧
      fit (ownPart y s) (X.map fun x => ownPart x s) = .ok p.2) y.series fs := by
    refine (mapM_ok_forall₂ hf).imp ?_
    intro s p hp
    have e1 : (⟨1, y.cols, (y.rowsOf s).map fun r => ⟨[], r.time, r.val⟩⟩ : Frame String τ W)
        = ownPart y s := by
      rw [rowsOf_map_eq]; rfl
    have e2 : (X.map fun x => (⟨1, x.cols, (x.rowsOf s).map fun r => ⟨[], r.time, r.val⟩⟩ :
        Frame String τ V)) = X.map fun x => ownPart x s := by
      cases X with
      | none => rfl
      | some x =>
        simp only [Option.map_some]
        rw [rowsOf_map_eq]; rfl
    simp only [e1, e2] at hp
    cases hfit : fit (ownPart y s) (X.map fun x => ownPart x s) with
    | error e => rw [hfit] at hp; cases hp
    | ok f => rw [hfit] at hp; cases hp; exact ⟨rfl, rfl⟩
  have hids : fs.map Prod.fst = y.series := by
    clear hf h hXp
    generalize y.series = l at h1
    induction h1 with
    | nil => rfl
    | cons hp _ ih => simp [hp.1, ih]
  obtain ⟨outs, h2, h3⟩ := C77_blocks (hids ▸ hXp) h
  refine ⟨outs, (forall₂_comp h1 h2).imp ?_, h3⟩
  rintro s o ⟨p, ⟨rfl, hp⟩, hm⟩
  exact ⟨p.2, hp, hm⟩

end

/-! Two stores; a "forecaster" that remembers the sum of its series and the number of exogenous
rows it has seen, and predicts the sum plus the exogenous value of the day. -/

/-- The panel. -/
def exY77 : Frame String Nat ℤ :=
  { nlevels := 2, cols := ["y"],
    rows := [⟨["a"], 1, fun _ => 1⟩, ⟨["a"], 2, fun _ => 2⟩, ⟨["b"], 1, fun _ => 10⟩,
      ⟨["b"], 2, fun _ => 20⟩] }

/-- Exogenous rows, with a third store and the stores in another order. -/
def exX77 : Frame String Nat ℤ :=
  { nlevels := 2, cols := ["x"],
    rows := [⟨["b"], 3, fun _ => 200⟩, ⟨["c"], 3, fun _ => 5⟩, ⟨["a"], 3, fun _ => 100⟩] }

/-- The method of one forecaster. -/
def exMethod77 (f : ℤ) (X : Option (Frame String Nat ℤ)) (fh : List Nat) :
    PyM (Frame String Nat ℤ) :=
  .ok { nlevels := 1, cols := ["y"], rows := fh.map fun t => ⟨[], t, fun _ =>
    f + ((X.map fun x => (x.rows.map fun r => r.val "x").sum).getD 0)⟩ }

example : ((vectorizeFit (fun y _ => .ok (y.rows.map fun r => r.val "y").sum) exY77
      (none : Option (Frame String Nat ℤ)) >>= fun fs =>
        vectorizePredict exMethod77 fs (some exX77) [3]).toOption.map
      fun f => f.rows.map fun r => (r.time, r.val "y")) = some [(3, 103), (3, 230)] := by
  decide +kernel

example : PanelFor exY77.series (some exX77) := by
  intro x hx
  cases hx
  refine ⟨?_, ?_⟩
  · unfold Frame.WF
    decide +kernel
  · decide +kernel

end PV
