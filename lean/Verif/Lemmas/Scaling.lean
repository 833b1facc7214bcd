import Verif.Model.Scaling
import Verif.Lemmas.Frame

set_option linter.unusedSectionVars false

namespace PV
variable {K τ : Type} [Field K] [LinearOrder K] [IsStrictOrderedRing K]

theorem foldl_max_abs_spec (xs : List K) (m : K) :
    m ≤ xs.foldl (fun m v => max m |v|) m ∧
    (∀ v ∈ xs, |v| ≤ xs.foldl (fun m v => max m |v|) m) ∧
    (xs.foldl (fun m v => max m |v|) m = m ∨
      ∃ v ∈ xs, |v| = xs.foldl (fun m v => max m |v|) m) := by
  induction xs generalizing m with
  | nil => simp
  | cons x xs ih =>
    obtain ⟨h1, h2, h3⟩ := ih (max m |x|)
    simp only [List.foldl_cons]
    refine ⟨le_trans (le_max_left _ _) h1, ?_, ?_⟩
    · intro v hv
      rcases List.mem_cons.1 hv with rfl | hv
      · exact le_trans (le_max_right _ _) h1
      · exact h2 v hv
    · rcases h3 with h3 | ⟨v, hv, h3⟩
      · rcases max_choice m |x| with h | h
        · left; rw [h3, h]
        · right; exact ⟨x, by simp, by rw [h3, h]⟩
      · right; exact ⟨v, by simp [hv], h3⟩

theorem maxAbs?_spec {xs : List K} {m : K} (h : maxAbs? xs = some m) :
    (∀ v ∈ xs, |v| ≤ m) ∧ (∃ v ∈ xs, |v| = m) := by
  cases xs with
  | nil => simp [maxAbs?] at h
  | cons x xs =>
    simp only [maxAbs?, Option.some.injEq] at h
    obtain ⟨h1, h2, h3⟩ := foldl_max_abs_spec xs |x|
    rw [h] at h1 h2 h3
    refine ⟨?_, ?_⟩
    · intro v hv
      rcases List.mem_cons.1 hv with rfl | hv
      · exact h1
      · exact h2 v hv
    · rcases h3 with h3 | ⟨v, hv, h3⟩
      · exact ⟨x, by simp, h3.symm⟩
      · exact ⟨v, by simp [hv], h3⟩

theorem maxAbs?_isSome {xs : List K} (h : xs ≠ []) : ∃ m, maxAbs? xs = some m := by
  cases xs with
  | nil => exact absurd rfl h
  | cons x xs => exact ⟨_, rfl⟩

omit [IsStrictOrderedRing K] in
theorem lookup_groupMaxAbs {y : Frame String τ K} {s : List String}
    (hs : s ∈ y.rows.map Row.sid) :
    ∃ m, maxAbs? (targetVals y (y.rowsOf s)) = some m ∧
      (groupMaxAbs y).find? (fun p => p.1 = s) = some (s, m) := by
  have hne : targetVals y (y.rowsOf s) ≠ [] := by
    obtain ⟨r, hr, rfl⟩ := List.mem_map.1 hs
    intro h
    have : r ∈ y.rowsOf r.sid := by simp [Frame.rowsOf, hr]
    rw [targetVals, List.map_eq_nil_iff] at h
    rw [h] at this
    simp at this
  obtain ⟨m, hm⟩ : ∃ m, maxAbs? (targetVals y (y.rowsOf s)) = some m := by
    cases h : targetVals y (y.rowsOf s) with
    | nil => exact absurd h hne
    | cons x xs => exact ⟨_, rfl⟩
  refine ⟨m, hm, ?_⟩
  have hs' : s ∈ y.series := by simpa [Frame.series] using hs
  unfold groupMaxAbs
  clear hs
  generalize y.series = l at hs'
  induction l with
  | nil => simp at hs'
  | cons a l ih =>
    by_cases ha : a = s
    · subst ha
      simp [hm]
    · have : s ∈ l := by
        rcases List.mem_cons.1 hs' with h | h
        · exact absurd h.symm ha
        · exact h
      rw [List.filterMap_cons]
      cases h : (maxAbs? (targetVals y (y.rowsOf a))).map fun m => (a, m) with
      | none => exact ih this
      | some p =>
        have hp : p.1 = a := by
          cases h' : maxAbs? (targetVals y (y.rowsOf a)) with
          | none => simp [h'] at h
          | some q => simp only [h', Option.map_some, Option.some.injEq] at h; rw [← h]
        rw [List.find?_cons_of_neg (by simp [hp, ha])]
        exact ih this

theorem mapM_ok_of_forall {α β : Type} {f : α → PyM β} {g : α → β} {l : List α}
    (h : ∀ a ∈ l, f a = .ok (g a)) : l.mapM f = .ok (l.map g) := by
  induction l with
  | nil => rfl
  | cons a l ih =>
    rw [List.mapM_cons, h a (by simp), ih (fun b hb => h b (by simp [hb]))]
    rfl

theorem mapM_ok_iff {α β : Type} {f : α → PyM β} {l : List α} {r : List β} :
    l.mapM f = .ok r ↔ List.Forall₂ (fun a b => f a = .ok b) l r := by
  induction l generalizing r with
  | nil =>
    cases r <;> simp [pure, Except.pure]
  | cons a l ih =>
    rw [List.mapM_cons]
    cases ha : f a with
    | error e =>
      constructor
      · intro h; cases h
      · intro h; cases h; simp_all
    | ok b =>
      cases hl : l.mapM f with
      | error e =>
        constructor
        · intro h; cases h
        · intro h
          cases h with
          | cons h1 h2 => rw [ih.2 h2] at hl; cases hl
      | ok bs =>
        constructor
        · intro h
          have : b :: bs = r := by simpa [bind, Except.bind, pure, Except.pure] using h
          subst this
          exact List.Forall₂.cons ha (ih.1 hl)
        · intro h
          cases h with
          | cons h1 h2 =>
            rw [ih.2 h2] at hl
            rw [ha] at h1
            cases h1; cases hl; rfl

end PV

namespace PV
variable {K τ : Type} [Field K] [LinearOrder K] [IsStrictOrderedRing K]

theorem applyScales_map {ι V W : Type} (g : V → K → W) (y : Frame ι τ V)
    (σ : List String → K) :
    applyScales g y (y.rows.map fun r => σ r.sid)
      = y.mapVals (fun s v => g v (σ s)) := by
  simp only [applyScales, Frame.mapVals, Frame.mk.injEq, true_and]
  generalize y.rows = l
  induction l with
  | nil => rfl
  | cons r l ih => simp [ih]

/-- Any successful row lookup is given by a function of the series id. -/
theorem rowScales_fun {ι V : Type} {s : Scale K} {f : Frame ι τ V} {ss : List K}
    (h : rowScales s f = .ok ss) : ∃ σ : List String → K,
      ss = f.rows.map (fun r => σ r.sid) ∧
      ∀ {ι' V' : Type} (f' : Frame ι' τ V'), f'.nlevels = f.nlevels →
        (∀ r ∈ f'.rows, ∃ r' ∈ f.rows, r'.sid = r.sid) →
        rowScales s f' = .ok (f'.rows.map fun r => σ r.sid) := by
  cases s with
  | float x =>
    simp only [rowScales, pure, Except.pure, Except.ok.injEq] at h
    exact ⟨fun _ => x, h.symm, fun _ _ _ => rfl⟩
  | int n => simp [rowScales, throw, throwThe, MonadExceptOf.throw] at h
  | table e =>
    simp only [rowScales] at h
    split at h
    · cases h
    · rename_i hn
      rw [mapM_ok_iff] at h
      refine ⟨fun s => match lookupScale e s with | .ok v => v | .error _ => 0, ?_, ?_⟩
      · clear hn
        generalize f.rows = l at h
        induction h with
        | nil => rfl
        | cons h1 _ ih => simp only [List.map_cons, h1, ← ih]
      · intro ι' V' f' hl hsub
        simp only [rowScales, hl, hn, if_false]
        apply mapM_ok_of_forall
        intro r hr
        obtain ⟨r', hr', he⟩ := hsub r hr
        rw [← he]
        have : ∃ v, lookupScale e r'.sid = .ok v := by
          clear hsub hl hr he hn
          generalize f.rows = l at h hr'
          induction h with
          | nil => simp at hr'
          | cons h1 _ ih =>
            rcases List.mem_cons.1 hr' with rfl | hr'
            · exact ⟨_, h1⟩
            · exact ih hr'
        obtain ⟨v, hv⟩ := this
        rw [hv]

/-- After `_set_y_scales` no scale is zero. -/
theorem rowScales_ne_zero {ι V : Type} {user : Option (Scale K)} {y : Frame String τ K}
    {s : Scale K} (hs : setYScales user y = .ok s) {f : Frame ι τ V} {ss : List K}
    (h : rowScales s f = .ok ss) : ∀ k ∈ ss, k ≠ 0 := by
  have key : (∀ x, s = .float x → x ≠ 0) ∧ (∀ e, s = .table e → ∀ p ∈ e, p.2 ≠ 0) := by
    have main : ∀ s0 : Scale K, s = zeroToOne s0 →
        (∀ x, s = .float x → x ≠ 0) ∧ (∀ e, s = .table e → ∀ p ∈ e, p.2 ≠ 0) := by
      rintro s0 rfl
      cases s0 with
      | float x => simp only [zeroToOne]; split <;> simp_all
      | int n => simp only [zeroToOne]; split <;> simp_all
      | table e =>
        refine ⟨by simp [zeroToOne], ?_⟩
        intro e' he p hp
        simp only [zeroToOne, Scale.table.injEq] at he
        subst he
        obtain ⟨q, _, rfl⟩ := List.mem_map.1 hp
        simp only
        split <;> simp_all
    unfold setYScales at hs
    split at hs
    · exact main _ (Except.ok.inj hs).symm
    · cases hs
  cases s with
  | float x =>
    simp only [rowScales, pure, Except.pure, Except.ok.injEq] at h
    subst h
    intro k hk
    obtain ⟨_, _, rfl⟩ := List.mem_map.1 hk
    exact key.1 _ rfl
  | int n => simp [rowScales, throw, throwThe, MonadExceptOf.throw] at h
  | table e =>
    simp only [rowScales] at h
    split at h
    · cases h
    · rw [mapM_ok_iff] at h
      intro k hk
      have : ∃ r ∈ f.rows, lookupScale e r.sid = .ok k := by
        generalize f.rows = l at h
        induction h with
        | nil => simp at hk
        | @cons a b _ _ h1 _ ih =>
          rcases List.mem_cons.1 hk with rfl | hk
          · exact ⟨a, by simp, h1⟩
          · obtain ⟨r, hr, hr'⟩ := ih hk
            exact ⟨r, by simp [hr], hr'⟩
      obtain ⟨r, _, hr⟩ := this
      unfold lookupScale at hr
      cases hf : e.find? (fun p => p.1 = r.sid) with
      | none => rw [hf] at hr; cases hr
      | some p =>
        rw [hf] at hr
        simp only [pure, Except.pure, Except.ok.injEq] at hr
        subst hr
        exact key.2 e rfl p (List.mem_of_find?_eq_some hf)

end PV
