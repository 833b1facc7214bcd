import Mathlib.Algebra.Order.Ring.Rat
import Verif.Lemmas.FitEffects
import Verif.Props.MeanSum

/-!
# C15-C18: which columns reach which effect
-/

set_option linter.unusedSectionVars false

namespace PV
variable {S Y Sc τ V D K : Type}

/-- The regex is given, compiles, and matches the column name. -/
def Matches (compile : String → PyM (String → Bool)) (regex : Option String) (c : String) : Prop :=
  ∃ r p, regex = some r ∧ compile r = .ok p ∧ p c = true

theorem mem_matchColumns {compile : String → PyM (String → Bool)} {cols r : List String}
    {regex : Option String} (h : matchColumns compile cols regex = .ok r) (c : String) :
    c ∈ r ↔ c ∈ cols ∧ Matches compile regex c := by
  unfold matchColumns at h
  cases regex with
  | none =>
    simp only [Except.ok.injEq] at h
    subst h
    simp [Matches]
  | some re =>
    cases hc : compile re with
    | error e => simp [hc, bind, Except.bind] at h
    | ok p =>
      simp only [hc, bind, Except.bind, pure, Except.pure, Except.ok.injEq] at h
      subst h
      simp [Matches, hc]

section
variable {compile : String → PyM (String → Bool)} {x : Frame String τ V} {y : Y} {scale : Sc}
  {effects : List (EffectSpec S Y Sc τ V D K)} {dflt : EffectObj S Y Sc τ V D K}
  {fitted : List (FittedEffect S Y Sc τ V D K)} {ws : List EffectWarning}

/-- Some column is matched by no effect. -/
def HasUnmatched (compile : String → PyM (String → Bool))
    (effects : List (EffectSpec S Y Sc τ V D K)) (x : Frame String τ V) : Prop :=
  ∃ c ∈ x.cols, ∀ e ∈ effects, ¬ Matches compile e.regex c

theorem mem_taken {fes : List (FittedEffect S Y Sc τ V D K)}
    (h : List.Forall₂ (FittedFrom compile x y scale) effects fes) {c : String}
    (hc : c ∈ x.cols) :
    c ∈ fes.flatMap FittedEffect.cols ↔ ∃ e ∈ effects, Matches compile e.regex c := by
  induction h with
  | nil => simp
  | @cons e fe effects fes h1 h2 ih =>
    simp only [List.flatMap_cons, List.mem_append, ih, List.exists_mem_cons]
    rw [mem_matchColumns h1.2.1]
    simp [hc]

theorem remaining_nil_iff {fes : List (FittedEffect S Y Sc τ V D K)}
    (h : List.Forall₂ (FittedFrom compile x y scale) effects fes) :
    remainingColumns x.cols (fes.flatMap FittedEffect.cols) = [] ↔
      ¬ HasUnmatched compile effects x := by
  unfold HasUnmatched
  rw [List.eq_nil_iff_forall_not_mem]
  constructor
  · rintro hn ⟨c, hc, hu⟩
    apply hn c
    rw [mem_remaining]
    refine ⟨hc, fun hm => ?_⟩
    obtain ⟨e, he, hm⟩ := (mem_taken h hc).1 hm
    exact hu e he hm
  · rintro hn c hc
    rw [mem_remaining] at hc
    apply hn
    refine ⟨c, hc.1, fun e he hm => hc.2 ((mem_taken h hc.1).2 ⟨e, he, hm⟩)⟩

/-- **C15**, explicit effects: the `i`-th effect is fitted under its own name on exactly the
columns its regex matches, in the order of `X`, and remembers exactly those. -/
theorem C15_explicit (h : fitEffects compile effects dflt (some x) y scale = .ok (fitted, ws)) :
    ∀ (i : Nat) e, effects[i]? = some e → ∃ fe, fitted[i]? = some fe ∧ fe.name = e.name ∧
      (∀ c, c ∈ fe.cols ↔ c ∈ x.cols ∧ Matches compile e.regex c) ∧ fe.cols.Sublist x.cols ∧
      (x.rows ≠ [] → fe.effect.st.1.inputCols = some fe.cols) := by
  obtain ⟨fes, hf, -, hd⟩ := fitEffects_ok.1 h
  intro i e he
  obtain ⟨hl, hg⟩ := List.forall₂_iff_get.1 hf
  obtain ⟨hi, rfl⟩ := List.getElem?_eq_some_iff.1 he
  obtain ⟨h1, h2, h3⟩ := hg i hi (by omega)
  simp only [List.get_eq_getElem] at h1 h2 h3
  refine ⟨fes[i], ?_, h1, mem_matchColumns h2, matchColumns_sublist h2, ?_⟩
  · rcases hd with ⟨-, rfl⟩ | ⟨eff, -, -, rfl⟩
    · exact List.getElem?_eq_getElem (by omega)
    · rw [List.getElem?_append_left (by omega), List.getElem?_eq_getElem (by omega)]
  · intro hr
    rw [effectFit_inputCols (x := { x with cols := fes[i].cols }) hr h3]

/-- **C15**, default effect: it exists iff some column is unmatched, comes last, and gets
exactly the unmatched columns, in alphabetical order. -/
theorem C15_default (h : fitEffects compile effects dflt (some x) y scale = .ok (fitted, ws)) :
    (¬ HasUnmatched compile effects x ∧ fitted.length = effects.length) ∨
    (HasUnmatched compile effects x ∧ fitted.length = effects.length + 1 ∧
      ∃ fe, fitted[effects.length]? = some fe ∧ fe.name = "exogenous_variables_effect" ∧
        (∀ c, c ∈ fe.cols ↔ c ∈ x.cols ∧ ∀ e ∈ effects, ¬ Matches compile e.regex c) ∧
        (x.rows ≠ [] → fe.effect.st.1.inputCols = some fe.cols) ∧
        (x.cols.Nodup → fe.cols.Nodup) ∧ fe.cols.Pairwise (· ≤ ·)) := by
  obtain ⟨fes, hf, -, hd⟩ := fitEffects_ok.1 h
  have hl := hf.length_eq
  rcases hd with ⟨hr, rfl⟩ | ⟨eff, hr, hfit, rfl⟩
  · exact Or.inl ⟨(remaining_nil_iff hf).1 hr, hl.symm⟩
  · refine Or.inr ⟨?_, by simp [hl],
      ⟨defaultEffectName, eff, remainingColumns x.cols (fes.flatMap FittedEffect.cols)⟩, ?_, rfl, ?_, ?_, ?_, ?_⟩
    · by_contra hn
      exact hr ((remaining_nil_iff hf).2 hn)
    · rw [hl, List.getElem?_append_right (le_refl _)]
      simp
    · intro c
      rw [mem_remaining]
      refine and_congr_right fun hc => ?_
      rw [mem_taken hf hc]
      push Not
      rfl
    · intro hrow
      rw [effectFit_inputCols
        (x := { x with cols := remainingColumns x.cols (fes.flatMap FittedEffect.cols) }) hrow hfit]
    · intro hn
      exact (remaining_perm _ _).nodup_iff.2 (hn.filter _)
    · exact List.pairwise_insertionSort (· ≤ ·) _

/-- **C15**: every column of `X` is used by some effect. -/
theorem C15_every_column (h : fitEffects compile effects dflt (some x) y scale = .ok (fitted, ws)) :
    ∀ c ∈ x.cols, ∃ fe ∈ fitted, c ∈ fe.cols := by
  intro c hc
  by_cases hm : ∃ e ∈ effects, Matches compile e.regex c
  · obtain ⟨e, he, hm⟩ := hm
    obtain ⟨i, hi, rfl⟩ := List.getElem_of_mem he
    obtain ⟨fe, hfe, -, hcols, -⟩ := C15_explicit h i _ (List.getElem?_eq_getElem hi)
    exact ⟨fe, List.mem_of_getElem? hfe, (hcols c).2 ⟨hc, hm⟩⟩
  · push Not at hm
    rcases C15_default h with ⟨hn, -⟩ | ⟨-, -, fe, hfe, -, hcols, -⟩
    · exact absurd ⟨c, hc, hm⟩ hn
    · exact ⟨fe, List.mem_of_getElem? hfe, (hcols c).2 ⟨hc, hm⟩⟩

/-- **C16**, warnings: with distinct effect names, "already set" is reported for an effect iff
one of its columns is matched by an earlier effect, and "no columns match" iff it has none. -/
theorem C16_warnings (hn : (effects.map EffectSpec.name).Nodup)
    (h : fitEffects compile effects dflt (some x) y scale = .ok (fitted, ws)) :
    ∀ (i : Nat) e, effects[i]? = some e →
      (EffectWarning.alreadySet e.name ∈ ws ↔ ∃ c ∈ x.cols, Matches compile e.regex c ∧
        ∃ (j : Nat) (e' : EffectSpec S Y Sc τ V D K), j < i ∧ effects[j]? = some e' ∧
          Matches compile e'.regex c) ∧
      (EffectWarning.noMatch e.name ∈ ws ↔ ∀ c ∈ x.cols, ¬ Matches compile e.regex c) := by
  obtain ⟨fes, hf, rfl, -⟩ := fitEffects_ok.1 h
  obtain ⟨hl, hg⟩ := List.forall₂_iff_get.1 hf
  simp only [List.get_eq_getElem] at hg
  intro i e he
  obtain ⟨hi, rfl⟩ := List.getElem?_eq_some_iff.1 he
  have hi2 : i < fes.length := by omega
  have hname : ∀ j (hj : j < fes.length), fes[j].name = effects[i].name → j = i := by
    intro j hj hnm
    rw [(hg j (by omega) hj).1] at hnm
    have : (effects.map EffectSpec.name)[j]'(by simp; omega)
        = (effects.map EffectSpec.name)[i]'(by simp; omega) := by simpa using hnm
    exact hn.getElem_inj_iff.1 this
  have hcols : ∀ j (hj : j < fes.length) c, c ∈ fes[j].cols ↔
      c ∈ x.cols ∧ Matches compile (effects[j]'(by omega)).regex c := fun j hj =>
    mem_matchColumns (hg j (by omega) hj).2.1
  constructor
  · rw [mem_warnsOf_alreadySet]
    constructor
    · rintro ⟨j, fe, hj, hnm, c, hc, hx | ⟨fe', hfe', hc'⟩⟩
      · simp at hx
      · obtain ⟨hjl, rfl⟩ := List.getElem?_eq_some_iff.1 hj
        obtain rfl := hname j hjl hnm
        obtain ⟨k, hk, rfl⟩ := List.getElem_of_mem hfe'
        rw [List.length_take] at hk
        rw [List.getElem_take] at hc'
        have h1 := (hcols j hjl c).1 hc
        have h2 := (hcols k (by omega) c).1 hc'
        exact ⟨c, h1.1, h1.2, k, effects[k]'(by omega), by omega,
          List.getElem?_eq_getElem (by omega), h2.2⟩
    · rintro ⟨c, hc, hm, j, e', hji, hj, hm'⟩
      obtain ⟨hjl, rfl⟩ := List.getElem?_eq_some_iff.1 hj
      refine ⟨i, fes[i], List.getElem?_eq_getElem hi2, (hg i hi hi2).1, c,
        (hcols i hi2 c).2 ⟨hc, hm⟩, Or.inr ⟨fes[j]'(by omega), ?_,
          (hcols j (by omega) c).2 ⟨hc, hm'⟩⟩⟩
      rw [List.mem_take_iff_getElem]
      exact ⟨j, by omega, rfl⟩
  · rw [mem_warnsOf_noMatch]
    constructor
    · rintro ⟨fe, hfe, hnm, hempty⟩ c hc hm
      obtain ⟨j, hj, rfl⟩ := List.getElem_of_mem hfe
      obtain rfl := hname j hj hnm
      have := (hcols j hj c).2 ⟨hc, hm⟩
      rw [hempty] at this
      simp at this
    · intro hno
      refine ⟨fes[i], List.getElem_mem hi2, (hg i hi hi2).1, ?_⟩
      rw [List.eq_nil_iff_forall_not_mem]
      intro c hc
      exact hno c ((hcols i hi2 c).1 hc).1 ((hcols i hi2 c).1 hc).2

/-- **C16**, not fatal: overlapping or empty selections never make fitting fail; it fails only
if a regex does not compile or an effect itself cannot be fitted on its columns.  The fitted
effects keep the given order (`C15_explicit`). -/
theorem C16_not_fatal (hre : ∀ e ∈ effects, ∀ r, e.regex = some r → ∃ p, compile r = .ok p)
    (hfit : ∀ e ∈ effects, ∀ cs : List String, (∀ c ∈ cs, c ∈ x.cols) →
      ∃ e', e.effect.clone.fit y (some { x with cols := cs }) scale = .ok e')
    (hdef : ∀ cs : List String, (∀ c ∈ cs, c ∈ x.cols) →
      ∃ e', dflt.clone.fit y (some { x with cols := cs }) scale = .ok e') :
    ∃ fitted ws, fitEffects compile effects dflt (some x) y scale = .ok (fitted, ws) := by
  have : ∃ fes, List.Forall₂ (FittedFrom compile x y scale) effects fes := by
    clear hdef
    induction effects with
    | nil => exact ⟨[], .nil⟩
    | cons e effects ih =>
      obtain ⟨fes, hf⟩ := ih (fun e' he' => hre e' (by simp [he']))
        (fun e' he' => hfit e' (by simp [he']))
      have hm : ∃ cs, matchColumns compile x.cols e.regex = .ok cs := by
        unfold matchColumns
        cases hr : e.regex with
        | none => exact ⟨[], rfl⟩
        | some r =>
          obtain ⟨p, hp⟩ := hre e (by simp) r hr
          exact ⟨x.cols.filter p, by simp [hp, bind, Except.bind, pure, Except.pure]⟩
      obtain ⟨cs, hcs⟩ := hm
      obtain ⟨e', he'⟩ := hfit e (by simp) cs fun c hc => (matchColumns_sublist hcs).subset hc
      exact ⟨⟨e.name, e', cs⟩ :: fes, .cons ⟨rfl, hcs, he'⟩ hf⟩
  obtain ⟨fes, hf⟩ := this
  by_cases hr : remainingColumns x.cols (fes.flatMap FittedEffect.cols) = []
  · exact ⟨fes, _, fitEffects_ok.2 ⟨fes, hf, rfl, Or.inl ⟨hr, rfl⟩⟩⟩
  · obtain ⟨e', he'⟩ := hdef _ fun c hc => (mem_remaining.1 hc).1
    exact ⟨_, _, fitEffects_ok.2 ⟨fes, hf, rfl, Or.inr ⟨e', hr, he', rfl⟩⟩⟩

/-- **C18**: after fitting, an explicit effect is skipped iff its regex matches no column and
its class needs input columns.  (`x` has rows; it may have no columns at all, which is what
the forecaster builds when it is given no `X`.) -/
theorem C18_skip (hr : x.rows ≠ [])
    (h : fitEffects compile effects dflt (some x) y scale = .ok (fitted, ws)) :
    ∀ (i : Nat) e, effects[i]? = some e → ∃ fe b, fitted[i]? = some fe ∧ fe.effect.skip = .ok b ∧
      (b = true ↔ (∀ c ∈ x.cols, ¬ Matches compile e.regex c) ∧
        e.effect.cls.tags.skipIfNoMatch = true) := by
  intro i e he
  obtain ⟨fe, hfe, -, hcols, -, hin⟩ := C15_explicit h i e he
  have hcls : fe.effect.cls = e.effect.cls := by
    obtain ⟨fes, hf, -, hd⟩ := fitEffects_ok.1 h
    obtain ⟨hl, hg⟩ := List.forall₂_iff_get.1 hf
    obtain ⟨hi, rfl⟩ := List.getElem?_eq_some_iff.1 he
    have hfe' : fes[i]'(by omega) = fe := by
      rcases hd with ⟨-, rfl⟩ | ⟨eff, -, -, rfl⟩
      · exact (List.getElem?_eq_some_iff.1 hfe).2
      · rw [List.getElem?_append_left (by omega)] at hfe
        exact (List.getElem?_eq_some_iff.1 hfe).2
    obtain ⟨-, -, h3⟩ := hg i hi (by omega)
    simp only [List.get_eq_getElem] at h3
    rw [hfe'] at h3
    exact (effectFit_ok h3).1
  refine ⟨fe, fe.cols.isEmpty && fe.effect.cls.tags.skipIfNoMatch, hfe, ?_, ?_⟩
  · unfold EffectObj.skip shouldSkip
    rw [hin hr]
  · rw [Bool.and_eq_true, hcls, List.isEmpty_iff, List.eq_nil_iff_forall_not_mem]
    refine and_congr_left fun _ => ?_
    constructor
    · intro hno c hc hm
      exact hno c ((hcols c).2 ⟨hc, hm⟩)
    · intro hno c hc
      exact hno c ((hcols c).1 hc).1 ((hcols c).1 hc).2

/-- **C18** for the built-in classes: linear, log and Hill effects need columns; seasonality,
lift and trend effects do not. -/
theorem C18_builtin_tags :
    (∀ t ∈ [linearTags, baseTags], t.skipIfNoMatch = true) ∧
    (∀ t ∈ [fourierTags, liftTags, trendTags], t.skipIfNoMatch = false) := by decide

end

section
variable [DecidableEq τ]

/-- The effects that take part: those that are not skipped. -/
def kept (fitted : List (FittedEffect S Y Sc τ V D K)) : List (FittedEffect S Y Sc τ V D K) :=
  fitted.filter fun e => e.effect.skip = .ok false

theorem foldlM_transformStep {X : Frame String τ V} {fh : List τ} :
    ∀ {fitted : List (FittedEffect S Y Sc τ V D K)} {out data : PyDict (Transformed D)},
    (fitted.map FittedEffect.name).Nodup → (∀ fe ∈ fitted, fe.name ∉ out.keys) →
    fitted.foldlM (transformStep X fh) out = .ok data →
    ∃ new, data = out ++ new ∧ List.Forall₂ (fun (fe : FittedEffect S Y Sc τ V D K)
      (p : String × Transformed D) => p.1 = fe.name ∧ ∃ xc, X.select fe.cols = .ok xc ∧
        fe.effect.transform (some xc) fh = .ok p.2) (kept fitted) new ∧
      ∀ fe ∈ fitted, ∃ b, fe.effect.skip = .ok b
  | [], out, data, _, _, h => by
    simp only [List.foldlM_nil, pure, Except.pure, Except.ok.injEq] at h
    exact ⟨[], by simp [h], by simp [kept], by simp⟩
  | fe :: fitted, out, data, hn, hk, h => by
    rw [List.foldlM_cons] at h
    rw [List.map_cons, List.nodup_cons] at hn
    cases hs : fe.effect.skip with
    | error e => simp [transformStep, hs, bind, Except.bind] at h
    | ok b =>
      cases b with
      | true =>
        simp only [transformStep, hs, bind, Except.bind, if_true, pure, Except.pure] at h
        obtain ⟨new, hd, hf, hsk⟩ := foldlM_transformStep hn.2
          (fun fe' h' => hk fe' (by simp [h'])) h
        refine ⟨new, hd, ?_, ?_⟩
        · have : kept (fe :: fitted) = kept fitted := by simp [kept, hs]
          rw [this]
          exact hf
        · intro fe' h'
          rcases List.mem_cons.1 h' with rfl | h'
          · exact ⟨true, hs⟩
          · exact hsk fe' h'
      | false =>
        cases hx : X.select fe.cols with
        | error e =>
          simp [transformStep, hs, hx, bind, Except.bind] at h
        | ok xc =>
          cases ht : fe.effect.transform (some xc) fh with
          | error e => simp [transformStep, hs, hx, ht, bind, Except.bind] at h
          | ok d =>
            simp only [transformStep, hs, hx, ht, bind, Except.bind, Bool.false_eq_true, if_false,
              pure, Except.pure] at h
            rw [PyDict.set_of_notMem (hk fe (by simp))] at h
            obtain ⟨new, hd, hf, hsk⟩ := foldlM_transformStep hn.2 (by
              intro fe' h' hm
              rw [PyDict.keys_append, List.mem_append] at hm
              rcases hm with hm | hm
              · exact hk fe' (by simp [h']) hm
              · simp only [PyDict.keys, List.map_cons, List.map_nil, List.mem_cons,
                  List.not_mem_nil, or_false] at hm
                exact hn.1 (List.mem_map.2 ⟨fe', h', hm⟩)) h
            refine ⟨(fe.name, d) :: new, by rw [hd]; simp, ?_, ?_⟩
            · have : kept (fe :: fitted) = fe :: kept fitted := by simp [kept, hs]
              rw [this]
              exact .cons ⟨rfl, xc, hx, ht⟩ hf
            · intro fe' h'
              rcases List.mem_cons.1 h' with rfl | h'
              · exact ⟨false, hs⟩
              · exact hsk fe' h'

theorem nonSkipped_ok : ∀ {fitted : List (FittedEffect S Y Sc τ V D K)},
    (∀ fe ∈ fitted, ∃ b, fe.effect.skip = .ok b) →
    keepNonSkipped fitted = .ok (kept fitted)
  | [], _ => rfl
  | fe :: fitted, h => by
    have ih := nonSkipped_ok (fitted := fitted) fun fe' h' => h fe' (by simp [h'])
    obtain ⟨b, hb⟩ := h fe (by simp)
    simp only [keepNonSkipped, bind, Except.bind, pure, Except.pure, hb, ih]
    cases b <;> simp [kept, hb]

/-- **C17**: with distinct names the model runs every non-skipped fitted effect exactly once,
in order, under its own name, on the data that the same effect produced from its own columns;
its value is added to the mean (see `C24_mean_is_sum`). -/
theorem C17_own_data [AddCommGroup K] {fitted : List (FittedEffect S Y Sc τ V D K)}
    (hn : (fitted.map FittedEffect.name).Nodup) (htr : "trend" ∉ fitted.map FittedEffect.name)
    {X : Frame String τ V} {fh : List τ} {data : PyDict (Transformed D)}
    (hd : transformEffects fitted X fh = .ok data)
    {objs : PyDict (EffectObj S Y Sc τ V D K)} (ho : nonSkipped fitted = .ok objs)
    {trendFn : EffectCall (Transformed D) K} {td : Transformed D} {θ : SiteEnv K}
    {st : MeanState K} (hm : computeMean trendFn td data (callsOf objs) θ = .ok st) :
    ∃ trend vals, trendFn θ td [] = .ok trend ∧
      st.sites = ("trend", trend) :: ((kept fitted).map FittedEffect.name).zip vals ∧
      vals.length = (kept fitted).length ∧
      ∀ (k : Nat) (fe : FittedEffect S Y Sc τ V D K) (v : Tensor K), (kept fitted)[k]? = some fe → vals[k]? = some v → ∃ xc d,
        X.select fe.cols = .ok xc ∧ fe.effect.transform (some xc) fh = .ok d ∧
        fe.effect.cls.call fe.effect.st (θ.scope fe.name) d
          (("trend", trend) :: (((kept fitted).map FittedEffect.name).take k).zip (vals.take k))
          = .ok v := by
  unfold transformEffects at hd
  obtain ⟨new, hnew, hf, hsk⟩ := foldlM_transformStep hn (by simp [PyDict.keys]) hd
  rw [List.nil_append] at hnew
  have hkn : ((kept fitted).map FittedEffect.name).Nodup :=
    hn.sublist (List.filter_sublist.map _)
  have hktr : "trend" ∉ (kept fitted).map FittedEffect.name := fun h =>
    htr ((List.filter_sublist.map _).subset h)
  have hobj : objs = (kept fitted).map fun e => (e.name, e.effect) := by
    unfold nonSkipped at ho
    rw [nonSkipped_ok hsk] at ho
    simp only [bind, Except.bind, pure, Except.pure, Except.ok.injEq] at ho
    rw [← ho, PyDict.ofList_of_nodup]
    simpa [Function.comp_def] using hkn
  have hcalls : callsOf objs
      = (kept fitted).map fun e => (e.name, e.effect.cls.call e.effect.st) := by
    rw [hobj]
    simp [callsOf, Function.comp_def]
  have hfst : (callsOf objs).map Prod.fst = (kept fitted).map FittedEffect.name := by
    rw [hcalls]
    simp [Function.comp_def]
  have hkeys : data.keys = (kept fitted).map FittedEffect.name := by
    rw [hnew]
    unfold PyDict.keys
    have gen : ∀ (l : List (FittedEffect S Y Sc τ V D K)) (m : PyDict (Transformed D)),
        List.Forall₂ (fun (fe : FittedEffect S Y Sc τ V D K) (p : String × Transformed D) =>
          p.1 = fe.name ∧ ∃ xc, X.select fe.cols = .ok xc ∧
            fe.effect.transform (some xc) fh = .ok p.2) l m →
        m.map Prod.fst = l.map FittedEffect.name := by
      intro l m h
      induction h with
      | nil => rfl
      | cons h1 h2 ih => simp [ih, h1.1]
    exact gen _ _ hf
  obtain ⟨trend, vals, ht, hrun, hsit⟩ := C24_sees_earlier (by rwa [hfst]) (by rwa [hfst]) hm
  refine ⟨trend, vals, ht, by rw [hsit, hfst], ?_, ?_⟩
  · rw [hrun.1, hcalls, List.length_map]
  · intro k fe v hk hv
    obtain ⟨d, hd', hcall⟩ := hrun.2 k fe.name (fe.effect.cls.call fe.effect.st) v
      (by rw [hcalls, List.getElem?_map, hk]; rfl) hv
    obtain ⟨hl, hg⟩ := List.forall₂_iff_get.1 hf
    obtain ⟨hkl, hkfe⟩ := List.getElem?_eq_some_iff.1 hk
    obtain ⟨hp1, xc, hxc, htr'⟩ := hg k hkl (by omega)
    simp only [List.get_eq_getElem] at hp1 htr' hxc
    rw [hkfe] at hp1 htr' hxc
    have hget : data.get? fe.name = some (new[k]'(by omega)).2 := by
      apply PyDict.get?_of_mem (by rw [hkeys]; exact hkn)
      rw [← hp1, hnew]
      exact List.getElem_mem _
    rw [hget, Option.some.injEq] at hd'
    refine ⟨xc, d, hxc, by rw [← hd']; exact htr', ?_⟩
    rw [hfst] at hcall
    exact hcall

/-- **C17**, names: distinct user names other than the reserved one (and other than `trend`)
stay distinct after fitting, so that `C17_own_data` applies. -/
theorem C17_names {compile : String → PyM (String → Bool)} {x : Frame String τ V} {y : Y}
    {scale : Sc} {effects : List (EffectSpec S Y Sc τ V D K)} {dflt : EffectObj S Y Sc τ V D K}
    {fitted : List (FittedEffect S Y Sc τ V D K)} {ws : List EffectWarning}
    (hn : (effects.map EffectSpec.name).Nodup)
    (hres : "exogenous_variables_effect" ∉ effects.map EffectSpec.name)
    (htr : "trend" ∉ effects.map EffectSpec.name)
    (h : fitEffects compile effects dflt (some x) y scale = .ok (fitted, ws)) :
    (fitted.map FittedEffect.name).Nodup ∧ "trend" ∉ fitted.map FittedEffect.name := by
  obtain ⟨fes, hf, -, hd⟩ := fitEffects_ok.1 h
  have hnames : fes.map FittedEffect.name = effects.map EffectSpec.name := by
    clear hd h
    induction hf with
    | nil => rfl
    | cons h1 h2 ih =>
      rw [List.map_cons, List.nodup_cons] at hn
      rw [List.map_cons, List.map_cons, h1.1, ih hn.2 (fun h => hres (by simp [h]))
        (fun h => htr (by simp [h]))]
  rcases hd with ⟨-, rfl⟩ | ⟨eff, -, -, rfl⟩
  · rw [hnames]
    exact ⟨hn, htr⟩
  · rw [List.map_append, hnames]
    constructor
    · rw [List.nodup_append]
      refine ⟨hn, by simp, ?_⟩
      intro a ha b hb hab
      simp only [List.map_cons, List.map_nil, List.mem_cons, List.not_mem_nil, or_false] at hb
      subst hab
      rw [hb] at ha
      exact hres ha
    · rw [List.mem_append]
      rintro (h | h)
      · exact htr h
      · simp [defaultEffectName] at h

end

/-! Example: two effects with overlapping selections, one without match, one seasonality-like
effect without columns, and one unmatched column. -/

def exClass (tags : Tags) : EffectClass Unit Unit Unit Nat ℚ (Tensor ℚ) ℚ :=
  { toHooks := defaultHooks tags,
    call := fun _ => AddMul.call ⟨"additive", fun _ d _ =>
      match d with
      | .data t => .ok t
      | .emptyDict => .error .typeError⟩ }

def exObj (tags : Tags) : EffectObj Unit Unit Unit Nat ℚ (Tensor ℚ) ℚ :=
  ⟨exClass tags, (BaseState.init, ()), (BaseState.init, ())⟩

/-- A pattern compiler that only knows the patterns "a" and "b" (prefix match). -/
def exCompile : String → PyM (String → Bool) := fun r =>
  if r = "a" then .ok fun c => c = "a" || c = "ab"
  else if r = "b" then .ok fun c => c = "b" || c = "ab"
  else if r = "q" then .ok fun _ => false
  else .error .reError

def exX : Frame String Nat ℚ :=
  { nlevels := 1, cols := ["b", "z", "ab", "c"],
    rows := [⟨[], 0, fun c => if c = "b" then 1 else 2⟩, ⟨[], 1, fun c => if c = "b" then 3 else 4⟩] }

def exEffects : List (EffectSpec Unit Unit Unit Nat ℚ (Tensor ℚ) ℚ) :=
  [⟨"one", exObj linearTags, some "a"⟩, ⟨"two", exObj linearTags, some "b"⟩,
   ⟨"three", exObj linearTags, some "q"⟩, ⟨"four", exObj fourierTags, none⟩]

example : ((fitEffects exCompile exEffects (exObj linearTags) (some exX) () ()).toOption.map
    fun r => (r.1.map fun fe => (fe.name, fe.cols), r.2))
    = some ([("one", ["ab"]), ("two", ["b", "ab"]), ("three", []), ("four", []),
        ("exogenous_variables_effect", ["c", "z"])],
      [.alreadySet "two", .noMatch "three", .noMatch "four"]) := by decide +kernel

example : ((fitEffects exCompile exEffects (exObj linearTags) (some exX) () ()).toOption.map
    fun r => (kept r.1).map FittedEffect.name)
    = some ["one", "two", "four", "exogenous_variables_effect"] := by decide +kernel

/-- With equal names the second effect silently replaces the first. -/
example : (((fitEffects exCompile
      [⟨"e", exObj linearTags, some "a"⟩, ⟨"e", exObj linearTags, some "b"⟩]
      (exObj linearTags) (some exX) () ()).toOption.bind
    fun r => (nonSkipped r.1).toOption).map fun d => d.map Prod.fst)
    = some ["e", "exogenous_variables_effect"] := by decide +kernel

end PV
