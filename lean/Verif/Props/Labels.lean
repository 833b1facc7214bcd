import Verif.Props.Coherence
import Verif.Props.Scaling
import Verif.Props.BestNoise
import Verif.Props.FitEffects
import Verif.Props.Params

/-!
# C01, C10, C18: scales given as a table, labels of the aggregates, effects without exogenous data
-/

set_option linter.unusedSectionVars false

namespace PV

/-! ## C01: scales given by series -/

section
variable {K τ : Type} [Field K] [LinearOrder K] [IsStrictOrderedRing K]

variable [LinearOrder τ]

theorem lookupScale_iff {e : List (List String × K)} (hn : (e.map Prod.fst).Nodup) {s : List String} {v : K} :
    lookupScale e s = .ok v ↔ (s, v) ∈ e := by
  unfold lookupScale
  induction e with
  | nil => simp [throw, throwThe, MonadExceptOf.throw]
  | cons p e ih =>
    rw [List.map_cons, List.nodup_cons] at hn
    rw [List.find?_cons]
    by_cases hp : p.1 = s
    · simp only [hp, decide_true, pure, Except.pure]
      constructor
      · intro h
        cases h
        rw [← hp]
        simp
      · intro h
        rcases List.mem_cons.1 h with h | h
        · rw [← h]
        · exact absurd (List.mem_map_of_mem h) (hp ▸ hn.1)
    · simp only [hp, decide_false]
      rw [ih hn.2, List.mem_cons, or_iff_right]
      rintro rfl
      exact hp rfl

theorem forall₂_at {α β : Type} {R : α → β → Prop} {l : List α} {m : List β} (h : List.Forall₂ R l m) {i : Nat} {a : α}
    (hi : l[i]? = some a) : ∃ b, m[i]? = some b ∧ R a b := by
  induction h generalizing i with
  | nil => simp at hi
  | cons h _ ih =>
    cases i with
    | zero => cases hi; exact ⟨_, rfl, h⟩
    | succ i => exact ih hi

/-- A table of scales given by the user, one entry per label: a panel is accepted exactly if every series has
an entry, and every value is divided by the entry of its own series (by one if the entry is zero). -/
theorem C01_user_table {y : Frame String τ K} (hl : y.nlevels ≠ 1) {e : List (List String × K)}
    (hn : (e.map Prod.fst).Nodup) :
    ∃ s, setYScales (some (.table e)) y = .ok s ∧
      ((∃ ys, scaleY false s y = .ok ys) ↔ ∀ r ∈ y.rows, ∃ w, (r.sid, w) ∈ e) ∧
      ∀ ys, scaleY false s y = .ok ys → ys.index = y.index ∧ ys.cols = y.cols ∧
        ∀ (i : Nat) (r : Row String τ K), y.rows[i]? = some r → ∃ w r', (r.sid, w) ∈ e ∧ ys.rows[i]? = some r' ∧
          r'.sid = r.sid ∧ r'.time = r.time ∧ ∀ c, r'.val c = r.val c / if w = 0 then 1 else w := by
  refine ⟨_, rfl, ?_⟩
  have hn' : ((e.map fun p => (p.1, if p.2 = 0 then (1 : K) else p.2)).map Prod.fst).Nodup := by
    rw [List.map_map]
    exact hn
  have hmem : ∀ {s : List String} {v : K}, (s, v) ∈ (e.map fun p => (p.1, if p.2 = 0 then (1 : K) else p.2)) ↔
      ∃ w, (s, w) ∈ e ∧ v = if w = 0 then 1 else w := by
    intro s v
    rw [List.mem_map]
    constructor
    · rintro ⟨p, hp, h⟩
      cases h
      exact ⟨p.2, hp, rfl⟩
    · rintro ⟨w, hw, rfl⟩
      exact ⟨_, hw, rfl⟩
  have hrow : ∀ ss, rowScales (.table (e.map fun p => (p.1, if p.2 = 0 then (1 : K) else p.2))) y = .ok ss ↔
      List.Forall₂ (fun r v => ∃ w, (r.sid, w) ∈ e ∧ v = if w = 0 then 1 else w) y.rows ss := by
    intro ss
    unfold rowScales
    simp only [if_neg hl]
    rw [mapM_ok_iff]
    simp only [lookupScale_iff hn', hmem]
  constructor
  · constructor
    · rintro ⟨ys, h⟩ r hr
      obtain ⟨ss, hss, -⟩ := bind_ok h
      obtain ⟨i, hi⟩ := List.getElem?_of_mem hr
      have hF := (hrow ss).1 hss
      obtain ⟨v, -, w, hw, -⟩ := forall₂_at hF hi
      exact ⟨w, hw⟩
    · intro h
      have : ∃ ss, List.Forall₂ (fun (r : Row String τ K) v => ∃ w, (r.sid, w) ∈ e ∧ v = if w = 0 then 1 else w) y.rows ss := by
        generalize y.rows = rows at h
        induction rows with
        | nil => exact ⟨[], .nil⟩
        | cons r rows ih =>
          obtain ⟨ss, hss⟩ := ih fun r hr => h r (by simp [hr])
          obtain ⟨w, hw⟩ := h r (by simp)
          exact ⟨_ :: ss, .cons ⟨w, hw, rfl⟩ hss⟩
      obtain ⟨ss, hss⟩ := this
      refine ⟨applyScales (fun v k => v / k) y ss, ?_⟩
      unfold scaleY
      have := (hrow ss).2 hss
      simp only [zeroToOne, this, bind, Except.bind]
      rfl
  · intro ys h
    obtain ⟨ss, hss, h⟩ := bind_ok h
    cases h
    have hF := (hrow ss).1 hss
    refine ⟨?_, rfl, ?_⟩
    · unfold Frame.index applyScales
      simp only
      clear hss h
      generalize y.rows = rows at hF
      induction hF with
      | nil => rfl
      | cons _ _ ih => simp only [List.zipWith_cons_cons, List.map_cons, ih]
    · intro i r hi
      obtain ⟨v, hv, w, hw, rfl⟩ := forall₂_at hF hi
      refine ⟨w, ⟨r.sid, r.time, fun c => r.val c / if w = 0 then 1 else w⟩, hw, ?_, rfl, rfl, fun c => rfl⟩
      show (List.zipWith _ _ _)[i]? = _
      rw [List.getElem?_zipWith, hi, hv]

/-- Two shops, one measured in thousands. -/
example : ∃ ys, scaleY false (.table [(["a"], 1000), (["b"], 1)])
    (⟨2, ["y"], [⟨["a"], 0, fun _ => 3000⟩, ⟨["b"], 0, fun _ => 5⟩]⟩ : Frame String Nat ℚ) = .ok ys ∧
    ys.rows.map (fun r => r.val "y") = [3, 5] := ⟨_, rfl, by decide +kernel⟩

end

/-! ## C10: labels -/

section
variable {K τ : Type} [Field K] [LinearOrder K] [IsStrictOrderedRing K] [LinearOrder τ]

/-- Every row of the published forecasts has a label of its own: aggregates repeat neither each other nor
bottom series. -/
theorem C10_labels_distinct {ι : Type} (keep : List String → Bool) {f : Frame ι τ K} (hw : f.WF)
    (hres : NoReserved f) (hnd : f.index.Nodup) : (aggregate keep f).index.Nodup := by
  unfold aggregate
  split
  · exact hnd
  rename_i hn
  have hb : (f.rows.filter fun r => totalLabel ∉ r.sid) = f.rows := noTotal_eq_self hres
  simp only [hb]
  have hlen : ∀ r ∈ f.rows, r.sid.length = f.nlevels - 1 := fun r hr => by
    have := hw r hr
    omega
  unfold Frame.index
  refine (((sortIndex_perm (τ := τ) _).map fun r => (r.sid, r.time)).nodup_iff).2 ?_
  rw [List.map_append, List.nodup_append]
  refine ⟨hnd, ?_, ?_⟩
  · refine List.Nodup.sublist (List.filter_sublist.map _) ?_
    rw [List.map_flatMap, List.nodup_flatMap]
    constructor
    · intro i hi
      unfold aggLevel
      rw [List.map_map]
      refine (nodup_unique _).map_on ?_
      rintro ⟨a, t⟩ ha ⟨a', t'⟩ ha' h
      simp only [Function.comp_apply, Prod.mk.injEq] at h
      rw [List.append_cancel_right h.1, h.2]
    · refine List.pairwise_lt_range.imp_of_mem ?_
      intro i j hi hj hij
      rw [Function.onFun, List.disjoint_left]
      intro x hx hx'
      obtain ⟨r, hr, rfl⟩ := List.mem_map.1 hx
      obtain ⟨r', hr', he⟩ := List.mem_map.1 hx'
      unfold aggLevel at hr hr'
      obtain ⟨g, hg, rfl⟩ := List.mem_map.1 hr
      obtain ⟨g', hg', rfl⟩ := List.mem_map.1 hr'
      rw [mem_unique, List.mem_map] at hg hg'
      obtain ⟨r, hr0, rfl⟩ := hg
      obtain ⟨r', hr0', rfl⟩ := hg'
      simp only [Prod.mk.injEq] at he
      have h := congrArg List.length (total_prefix_unique (fun h => hres r' hr0' (List.mem_of_mem_take h))
        (fun h => hres r hr0 (List.mem_of_mem_take h)) he.1)
      rw [List.length_take, List.length_take, hlen r hr0, hlen r' hr0'] at h
      have := List.mem_range.1 hj
      omega
  · intro x hx y hy hxy
    obtain ⟨r, hr, rfl⟩ := List.mem_map.1 hx
    obtain ⟨r', hr', rfl⟩ := List.mem_map.1 hy
    obtain ⟨i, hi, hr'⟩ := List.mem_flatMap.1 (List.mem_filter.1 hr').1
    unfold aggLevel at hr'
    obtain ⟨g, hg, rfl⟩ := List.mem_map.1 hr'
    simp only [Prod.mk.injEq] at hxy
    refine hres r hr ?_
    rw [hxy.1]
    have := List.mem_range.1 hi
    exact List.mem_append_right _ (List.mem_replicate.2 ⟨by omega, rfl⟩)

/-- A tree of three shops in two regions. -/
example : (aggregate (fun s => s ≠ ["s", "__total"]) exTree).index.Nodup :=
  C10_labels_distinct _ (by
      intro r hr
      simp only [exTree, List.mem_cons, List.not_mem_nil, or_false] at hr
      rcases hr with rfl | rfl | rfl | rfl | rfl | rfl <;> rfl)
    (by
      intro r hr
      simp only [exTree, List.mem_cons, List.not_mem_nil, or_false] at hr
      rcases hr with rfl | rfl | rfl | rfl | rfl | rfl <;> decide)
    (by decide +kernel)

end

/-! ## C18: no exogenous data -/

section
variable {S Sc τ V D K : Type} [LinearOrder τ] [Zero V] [Div K] {cfg : UniConfig S Sc τ V D K}

/-- Without `X`, and features that add no column, an effect is left out exactly if its type needs columns. -/
theorem C18_without_exog {y : Frame String τ K} (hy : y.rows ≠ []) (hf : ∀ x : Frame String τ V, cfg.fitFeatures x = .ok x)
    {m : UniFit S Sc τ V D K} (h : uniFitData cfg y none = .ok m) :
    m.fitted.length = cfg.effects.length ∧
    ∀ (i : Nat) e, cfg.effects[i]? = some e → ∃ fe b, m.fitted[i]? = some fe ∧ fe.name = e.name ∧ fe.cols = [] ∧
      fe.effect.skip = .ok b ∧ (b = true ↔ e.effect.cls.tags.skipIfNoMatch = true) := by
  obtain ⟨yT, x0, x, -, -, hx0, hx, -, hfe, -⟩ := uniFitData_ok h
  rw [hf] at hx0
  cases hx0
  have hcols : x.cols = [] ∧ x.rows ≠ [] := by
    unfold Frame.locTimes at hx
    split at hx
    · rename_i hall
      cases hx
      refine ⟨rfl, ?_⟩
      obtain ⟨r, hr⟩ := List.exists_mem_of_ne_nil _ hy
      have ht : r.time ∈ y.times := List.mem_map_of_mem hr
      obtain ⟨r', hr', e⟩ := hall _ ht
      refine List.ne_nil_of_mem (a := r') (List.mem_flatMap.2 ⟨_, ht, List.mem_filter.2 ⟨hr', by simpa using e⟩⟩)
    · cases hx
  have hno : ∀ c, c ∉ x.cols := by
    rw [hcols.1]
    simp
  constructor
  · rcases C15_default hfe with h | h
    · exact h.2
    · obtain ⟨c, hc, -⟩ := h.1
      exact absurd hc (hno c)
  · intro i e hi
    obtain ⟨fe, h1, h2, h3, -⟩ := C15_explicit hfe i e hi
    obtain ⟨fe', b, h4, h5, h6⟩ := C18_skip hcols.2 hfe i e hi
    rw [h1] at h4
    cases h4
    refine ⟨fe, b, h1, h2, ?_, h5, ?_⟩
    · exact List.eq_nil_iff_forall_not_mem.2 fun c hc => hno c ((h3 c).1 hc).1
    · rw [h6]
      exact ⟨fun h => h.2, fun h => ⟨fun c hc => absurd hc (hno c), h⟩⟩

end

theorem exTraining18 : Training exCfg95 exY85 "y" none (Frame.ofIndex [0, 1, 2]) where
  flat := rfl
  column := rfl
  sorted := by simp [exY85]
  some := by simp [exY85]
  features := ⟨Frame.ofIndex [0, 1, 2], by simp [exCfg95, exY85, Frame.times], by
    unfold Frame.locTimes
    rw [if_pos (by simp [Frame.ofIndex, exY85, Frame.times])]
    simp [Frame.ofIndex, exY85, Frame.times]⟩
  dates := ⟨rfl, by simp [Frame.ofIndex], by simp [exY85, Frame.times],
    by simp [Frame.ofIndex, exY85, Frame.times], by simp [Frame.ofIndex]⟩

/-- A forecaster with a seasonality that is given no exogenous data keeps the seasonality. -/
example : ∃ m fe, uniFitData exCfg95 exY85 none = .ok m ∧ m.fitted = [fe] ∧ fe.name = "weekly" ∧
    fe.effect.skip = .ok false := by
  obtain ⟨m, hm⟩ := C98_fits exUsual95 exValid98 (fun _ _ h => Int.cast_lt.2 h) exTraining18 (by simp [exY85])
    (by rintro _ ⟨⟩)
  obtain ⟨hl, h⟩ := C18_without_exog (by simp [exY85]) (fun _ => rfl) hm
  obtain ⟨fe, b, h1, h2, -, h3, h4⟩ := h 0 _ rfl
  have hb : b = false := by
    have h0 : ¬ b = true := fun hb => absurd (h4.1 hb) (by
      unfold exEffect95 exKind95
      rw [if_pos rfl]
      exact Bool.false_ne_true)
    simpa using h0
  subst hb
  refine ⟨m, fe, hm, ?_, h2, h3⟩
  obtain ⟨a, ha⟩ := List.length_eq_one_iff.1 (hl.trans rfl)
  rw [ha] at h1 ⊢
  cases h1
  rfl

end PV
