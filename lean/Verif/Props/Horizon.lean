import Verif.Model.Horizon
import Verif.Props.Vectorize
import Verif.Props.World

/-!
# C80: steps of the horizon are counted from the last training date
-/

namespace PV

section
variable {τ : Type} [LinearOrder τ]

/-- Specification of a calendar: `shift t k` is the `k`-th date after `t`. -/
structure IsCalendar (shift : τ → ℤ → τ) : Prop where
  zero : ∀ t, shift t 0 = t
  add : ∀ t a b, shift (shift t a) b = shift t (a + b)
  mono : ∀ t, StrictMono (shift t)

/-- Specification: the last date of a list. -/
def LastDate (times : List τ) (c : τ) : Prop := c ∈ times ∧ ∀ t ∈ times, t ≤ c

theorem max?_eq_last {times : List τ} {c : τ} (h : LastDate times c) : times.max? = some c :=
  List.max?_eq_some_iff.2 h

/-- Two horizons with the same values. -/
inductive SameValues : Horizon τ → Horizon τ → Prop where
  | relative {l l' : List ℤ} : l.Perm l' → SameValues (.relative l) (.relative l')
  | absolute {l l' : List τ} : l.Perm l' → SameValues (.absolute l) (.absolute l')

theorem checkFhValues_perm {α : Type} [LinearOrder α] {l l' : List α} (h : l.Perm l') :
    checkFhValues l = checkFhValues l' := by
  unfold checkFhValues
  have h1 : l = [] ↔ l' = [] := by
    constructor
    · rintro rfl; exact h.nil_eq.symm
    · rintro rfl; exact h.eq_nil
  have h2 := h.nodup_iff
  have h3 : l.insertionSort (· ≤ ·) = l'.insertionSort (· ≤ ·) :=
    List.Perm.eq_of_pairwise (le := (· ≤ ·)) (fun a b _ _ => le_antisymm)
      (List.pairwise_insertionSort _ _) (List.pairwise_insertionSort _ _)
      ((List.perm_insertionSort _ _).trans (h.trans (List.perm_insertionSort _ _).symm))
  by_cases hl : l = []
  · rw [if_pos hl, if_pos (h1.1 hl)]
  · rw [if_neg hl, if_neg (fun hc => hl (h1.2 hc))]
    by_cases hd : l.Nodup
    · rw [if_pos hd, if_pos (h2.1 hd), h3]
    · rw [if_neg hd, if_neg (fun hc => hd (h2.2 hc))]

theorem insertionSort_map {α β : Type} [LinearOrder α] [LinearOrder β] {f : α → β}
    (hf : StrictMono f) (l : List α) :
    (l.map f).insertionSort (· ≤ ·) = (l.insertionSort (· ≤ ·)).map f := by
  refine List.Perm.eq_of_pairwise (le := (· ≤ ·)) (fun a b _ _ => le_antisymm)
    (List.pairwise_insertionSort _ _) ?_
    ((List.perm_insertionSort _ _).trans ((List.perm_insertionSort _ _).symm.map f))
  rw [List.pairwise_map]
  exact (List.pairwise_insertionSort (· ≤ ·) l).imp fun h => hf.monotone h

/-- **C80**, what is rejected: exactly the horizons without values and those that name a value
twice. -/
theorem C80_rejected (ks : List ℤ) (ts : List τ) :
    (checkFh (.relative ks : Horizon τ) = .error .valueError ↔ ks = [] ∨ ¬ ks.Nodup) ∧
    ((∃ h, checkFh (.relative ks : Horizon τ) = .ok h) ↔ ks ≠ [] ∧ ks.Nodup) ∧
    (checkFh (.absolute ts) = .error .valueError ↔ ts = [] ∨ ¬ ts.Nodup) ∧
    ((∃ h, checkFh (.absolute ts) = .ok h) ↔ ts ≠ [] ∧ ts.Nodup) := by
  simp only [checkFh, checkFhValues]
  refine ⟨?_, ?_, ?_, ?_⟩
  all_goals
    split_ifs with h1 h2
    all_goals simp [Except.map, h1]
    all_goals simp [h2]

/-- **C80**, what the steps mean: the `k`-th date after the last date of the target, and the dates
of the index are those of the steps, in increasing order without repetition. -/
theorem C80_index {shift : τ → ℤ → τ} (hc : IsCalendar shift) {times : List τ} {c : τ}
    (hlast : LastDate times c) {ks : List ℤ} {fh : Horizon τ}
    (h : checkFh (.relative ks) = .ok fh) :
    (∀ t, t ∈ fhToIndex shift times fh ↔ ∃ k ∈ ks, t = shift c k) ∧
      (fhToIndex shift times fh).Pairwise (· < ·) ∧
      (fhToIndex shift times fh).length = ks.length := by
  simp only [checkFh, checkFhValues] at h
  split_ifs at h with h1 h2
  · cases h
  · cases h
    simp only [fhToIndex, max?_eq_last hlast]
    refine ⟨fun t => ?_, ?_, by simp⟩
    · simp only [List.mem_map, (List.perm_insertionSort (· ≤ ·) ks).mem_iff]
      exact ⟨fun ⟨k, h1, h2⟩ => ⟨k, h1, h2.symm⟩, fun ⟨k, h1, h2⟩ => ⟨k, h1, h2.symm⟩⟩
    · rw [List.pairwise_map]
      have hn : (ks.insertionSort (· ≤ ·)).Nodup :=
        (List.perm_insertionSort (· ≤ ·) ks).nodup_iff.2 h2
      exact ((List.pairwise_insertionSort (· ≤ ·) ks).and hn).imp
        fun hab => hc.mono c (lt_of_le_of_ne hab.1 hab.2)
  · cases h

/-- **C80**, dates: the index is the dates asked for, in increasing order. -/
theorem C80_dates {shift : τ → ℤ → τ} (times : List τ) {ts : List τ} {fh : Horizon τ}
    (h : checkFh (.absolute ts) = .ok fh) :
    (fhToIndex shift times fh).Perm ts ∧ (fhToIndex shift times fh).Pairwise (· < ·) := by
  simp only [checkFh, checkFhValues] at h
  split_ifs at h with h1 h2
  · cases h
  · cases h
    refine ⟨List.perm_insertionSort _ _, ?_⟩
    have hn : (ts.insertionSort (· ≤ ·)).Nodup :=
      (List.perm_insertionSort (· ≤ ·) ts).nodup_iff.2 h2
    exact ((List.pairwise_insertionSort (· ≤ ·) ts).and hn).imp
      fun hab => lt_of_le_of_ne hab.1 hab.2
  · cases h

/-- **C80**, future and past: positive steps are after every training date.  If the training dates
follow each other without gaps, the steps `-(n-1), ..., 0` are exactly the training dates. -/
theorem C80_after_training {shift : τ → ℤ → τ} (hc : IsCalendar shift) {times : List τ} {c : τ}
    (hlast : LastDate times c) :
    (∀ k : ℤ, 0 < k → ∀ t ∈ times, t < shift c k) ∧
    (∀ (t0 : τ) (n : Nat), times = (List.range n).map (fun i : Nat => shift t0 (i : ℤ)) →
      ∀ t, t ∈ times ↔ ∃ k : ℤ, -(n : ℤ) < k ∧ k ≤ 0 ∧ t = shift c k) := by
  constructor
  · intro k hk t ht
    refine lt_of_le_of_lt (hlast.2 t ht) ?_
    conv_lhs => rw [← hc.zero c]
    exact hc.mono c hk
  · intro t0 n hn t
    -- the last date
    have hn0 : 0 < n := by
      rcases Nat.eq_zero_or_pos n with rfl | h
      · have := hlast.1
        rw [hn] at this
        simp at this
      · exact h
    have hcl : c = shift t0 ((n : ℤ) - 1) := by
      apply le_antisymm
      · have h1 := hlast.1
        rw [hn] at h1
        obtain ⟨i, hi, rfl⟩ := List.mem_map.1 h1
        refine (hc.mono t0).monotone ?_
        have := List.mem_range.1 hi
        omega
      · refine hlast.2 _ ?_
        rw [hn]
        refine List.mem_map.2 ⟨n - 1, List.mem_range.2 (by omega), ?_⟩
        congr 1
        omega
    rw [hn]
    constructor
    · intro h
      obtain ⟨i, hi, rfl⟩ := List.mem_map.1 h
      have hi := List.mem_range.1 hi
      refine ⟨(i : ℤ) - (n - 1), by omega, by omega, ?_⟩
      rw [hcl, hc.add]
      congr 1
      omega
    · rintro ⟨k, h1, h2, rfl⟩
      refine List.mem_map.2 ⟨((n : ℤ) - 1 + k).toNat, List.mem_range.2 (by omega), ?_⟩
      rw [hcl, hc.add]
      congr 1
      omega

end

section
variable {S τ D K F κ G Θ P : Type} [Field K] [LinearOrder K] [FloorRing K] [LinearOrder τ]

/-- **C80**, order: the values of the horizon may be given in any order, to every prediction method
and in every state. -/
theorem C80_order (np : Numpyro κ G (ModelArgs D K) K Θ P (Draws K)) (shift : τ → ℤ → τ)
    (w : World S τ D K F κ G Θ P) (i : Nat) (q : Query K) (X : Option (Frame String τ K))
    {fh fh' : Horizon τ} (h : SameValues fh fh') :
    w.forecast np shift i q X fh = w.forecast np shift i q X fh' := by
  have : checkFh fh = checkFh fh' := by
    cases h with
    | relative h => simp only [checkFh, checkFhValues_perm h]
    | absolute h => simp only [checkFh, checkFhValues_perm h]
  unfold World.forecast
  rw [this]

/-- **C80**, a rejected horizon leaves everything as it was. -/
theorem C80_rejected_readonly (np : Numpyro κ G (ModelArgs D K) K Θ P (Draws K))
    (shift : τ → ℤ → τ) (w : World S τ D K F κ G Θ P) (i : Nat) (q : Query K)
    (X : Option (Frame String τ K)) {ks : List ℤ} (h : ks = [] ∨ ¬ ks.Nodup) :
    w.forecast np shift i q X (.relative ks) = (.error .valueError, w) := by
  unfold World.forecast
  rw [(C80_rejected ks ([] : List τ)).1.2 h]

theorem valPredict_congr {H H' : Type} (np : Numpyro κ G (ModelArgs D K) K Θ P (Draws K))
    {horizon : List τ → H → List τ} {horizon' : List τ → H' → List τ}
    (c : Contents S τ D K F κ G) {y : Frame String τ K} (X : Option (Frame String τ K))
    (q : Query K) (X' : Option (Frame String τ K)) {fh : H} {fh' : H'}
    (h : horizon y.times fh = horizon' y.times fh') :
    valPredict np horizon c y X q X' fh = valPredict np horizon' c y X q X' fh' := by
  unfold valPredict
  rw [h]

/-- **C80.** After `fit(y, X)` every prediction method returns for the steps `ks` what it returns
for the dates `ks` steps after the last date of `y`: the last one over all series. -/
theorem C80_steps_are_dates (np : Numpyro κ G (ModelArgs D K) K Θ P (Draws K))
    {shift : τ → ℤ → τ} (hcal : IsCalendar shift) {w : World S τ D K F κ G Θ P} {i : Nat}
    {fc : Fc S τ D K κ G Θ P} (hi : w.fcs[i]? = some fc) {c : Contents S τ D K F κ G}
    (hc : Resolves w.heap w.feats fc.cfg c) {y : Frame String τ K}
    (X : Option (Frame String τ K)) {last : τ} (hlast : LastDate y.times last) (q : Query K)
    (X' : Option (Frame String τ K)) (ks : List ℤ) :
    ((w.fit np i y X).2.forecast np shift i q X' (.relative ks)).1
      = ((w.fit np i y X).2.forecast np shift i q X' (.absolute (ks.map (shift last)))).1 := by
  obtain ⟨-, h2⟩ := fit_predict_value np (fhToIndex shift) hi hc y X
  have hinj := (hcal.mono last).injective
  unfold World.forecast
  by_cases h0 : ks = []
  · subst h0
    rfl
  by_cases hd : ks.Nodup
  · have e1 : checkFh (.relative ks : Horizon τ) = .ok (.relative (ks.insertionSort (· ≤ ·))) := by
      simp [checkFh, checkFhValues, h0, hd, Except.map]
    have e2 : checkFh (.absolute (ks.map (shift last)))
        = .ok (.absolute ((ks.insertionSort (· ≤ ·)).map (shift last))) := by
      rw [← insertionSort_map (hcal.mono last)]
      simp [checkFh, checkFhValues, h0, List.nodup_map_iff hinj, hd, Except.map]
    rw [e1, e2]
    simp only
    rw [h2, h2]
    apply valPredict_congr
    simp [fhToIndex, max?_eq_last hlast]
  · rw [((C80_rejected ks (ks.map (shift last))).1).2 (.inr hd),
      ((C80_rejected ks (ks.map (shift last))).2.2.1).2
        (.inr fun hc => hd ((List.nodup_map_iff hinj).1 hc))]

end

section
variable {F τ V W ι : Type} [LinearOrder τ]

/-- **C80**, univariate forecasters on panels: the steps are counted from the last date of each
series, also when the series end on different dates.  `method` is the prediction method of a
forecaster for given dates. -/
theorem C80_own_cutoff {shift : τ → ℤ → τ}
    {fit : Frame String τ W → Option (Frame String τ V) → PyM F}
    {method : F → Option (Frame String τ V) → List τ → PyM (Frame ι τ W)}
    {y : Frame String τ W} {X Xp : Option (Frame String τ V)} {ks : List ℤ}
    (hXp : PanelFor y.series Xp) {fs : List (List String × List τ × F)} {out : Frame ι τ W}
    (hf : vectorizeFit (fun y X => (fit y X).map fun f => (y.times, f)) y X = .ok fs)
    (h : vectorizePredict (fun f X fh => method f.2 X (fhToIndex shift f.1 fh)) fs Xp
      (Horizon.relative ks) = .ok out)
    {last : List String → τ}
    (hlast : ∀ s ∈ y.series, LastDate ((y.rows.filter fun r => r.sid = s).map Row.time) (last s)) :
    ∃ outs, List.Forall₂ (fun s o => ∃ f, fit (ownPart y s) (X.map fun x => ownPart x s) = .ok f ∧
        method f (Xp.map fun x => ownPart x s) (ks.map (shift (last s))) = .ok o) y.series outs ∧
      out.rows = outs.flatMap Frame.rows := by
  obtain ⟨outs, h1, h2⟩ := C77_separate hXp hf h
  refine ⟨outs, ?_, h2⟩
  have hto : ∀ s, (ownPart y s).times = (y.rows.filter fun r => r.sid = s).map Row.time := by
    intro s
    unfold ownPart Frame.times
    simp only
    induction y.rows with
    | nil => rfl
    | cons r l ih =>
      by_cases hr : r.sid = s <;> simp [hr, ih]
  clear h2 h hf hXp
  generalize y.series = ss at h1 hlast
  induction h1 with
  | nil => exact .nil
  | cons hp _ ih =>
    refine .cons ?_ (ih fun s hs => hlast s (List.mem_cons_of_mem _ hs))
    rename_i s o _ _ _
    obtain ⟨f, hf, hm⟩ := hp
    cases hfit : fit (ownPart y s) (X.map fun x => ownPart x s) with
    | error e => rw [hfit] at hf; cases hf
    | ok g =>
      rw [hfit] at hf
      cases hf
      refine ⟨g, rfl, ?_⟩
      have := max?_eq_last (hlast s List.mem_cons_self)
      rw [← hto] at this
      simpa [fhToIndex, this] using hm

end

/-! ## Concrete cases -/

/-- Daily data on whole numbers. -/
theorem isCalendar_int : IsCalendar (fun (t k : ℤ) => t + k) :=
  ⟨fun _ => add_zero _, fun _ _ _ => add_assoc _ _ _, fun _ _ _ h => add_lt_add_right h _⟩

example : LastDate [1, 5, 3, 5] (5 : ℤ) := ⟨by decide, by decide⟩

example : (checkFh (.relative [2, -1, 1] : Horizon ℤ)).toOption.map
    (fhToIndex (fun t k => t + k) [1, 5, 3]) = some [4, 6, 7] := by decide +kernel

/-- Two stores whose data end on different days. -/
def exY77b : Frame String ℤ ℤ :=
  { nlevels := 2, cols := ["y"],
    rows := [⟨["a"], 1, fun _ => 1⟩, ⟨["a"], 2, fun _ => 2⟩, ⟨["b"], 1, fun _ => 10⟩,
      ⟨["b"], 8, fun _ => 20⟩] }

/-- Steps 1 and 2 for these stores, with a forecaster that returns the dates. -/
example : ((vectorizeFit (fun y _ => (.ok () : PyM Unit).map fun f => (y.times, f)) exY77b
      (none : Option (Frame String ℤ ℤ)) >>= fun fs =>
        vectorizePredict (fun f _ fh => .ok ⟨1, ["y"], (fhToIndex (fun t k => t + k) f.1 fh).map
          fun t => (⟨[], t, fun _ => 0⟩ : Row String ℤ ℤ)⟩) fs
          (none : Option (Frame String ℤ ℤ)) (.relative [1, 2])).toOption.map
      fun f => f.rows.map Row.time) = some [3, 4, 9, 10] := by
  decide +kernel

/-- A forecaster fitted on days 0 to 3 predicts day 4 for step 1. -/
example :
    exTable (((exWorld.run exNumpyro (fhToIndex fun t k => t + k)
      [.new (exConfigW (.object 0) none),
       .fit 0 (exTarget [0, 1, 2, 3]) (some (exRegressor [0, 1, 2, 3] fun t => t))]).forecast
      exNumpyro (fun t k => t + k) 0 .samples
      (some (exRegressor [4] fun t => t)) (.relative [1])).1) = some [(4, 144)] := by
  decide +kernel

end PV
