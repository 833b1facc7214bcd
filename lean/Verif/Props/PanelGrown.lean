import Verif.Props.MoreEffects
import Verif.Props.PanelUnits

/-!
# C128 for panels: one more effect or column never worsens the best fit
-/

set_option linter.unusedSectionVars false

namespace PV
open Tensor Matrix

/-! ## Sums with zeros for what is new -/

theorem sum_lookup (G : String → ℝ → ℝ) (hG : ∀ a, G a 0 = 0) {cols' : List String} (hn' : cols'.Nodup) :
    ∀ {cols : List String} {v : List ℝ}, cols.Nodup → cols ⊆ cols' → v.length = cols.length →
      (cols'.map fun a => G a (((cols.zip v).lookup a).getD 0)).sum = (List.zipWith G cols v).sum
  | [], v, _, _, _ => by simp [hG]
  | a :: cols, [], _, _, h => by simp at h
  | a :: cols, w :: v, hn, hs, hl => by
    rw [List.nodup_cons] at hn
    have ih := sum_lookup G hG hn' (v := v) hn.2 (fun b hb => hs (List.mem_cons_of_mem _ hb)) (by simpa using hl)
    rw [List.zipWith_cons_cons, List.sum_cons, ← ih,
      ← sum_single id a (G a w) (l := cols') (by simpa using hn') (by simpa using hs (List.mem_cons_self ..)),
      ← List.sum_map_add]
    refine congrArg List.sum (List.map_congr_left fun b _ => ?_)
    rw [List.zip_cons_cons, List.lookup_cons]
    by_cases e : b = a
    · subst e
      rw [lookup_zip_none hn.1]
      simp [hG]
    · rw [beq_false_of_ne e]
      simp [e]

theorem dot_padded_sub {r : String → ℝ} {cols cols' : List String} {v : List ℝ} (hn' : cols'.Nodup) (hn : cols.Nodup)
    (hs : cols ⊆ cols') (hl : v.length = cols.length) :
    Tensor.dot (cols'.map r) (padded cols cols' v) = Tensor.dot (cols.map r) v := by
  have h := sum_lookup (fun a w => r a * w) (by simp) hn' hn hs hl
  unfold Tensor.dot padded
  rw [List.zipWith_map, List.zipWith_self, h, List.zipWith_map_left]

theorem squares_padded_sub {cols cols' : List String} {v : List ℝ} (hn' : cols'.Nodup) (hn : cols.Nodup)
    (hs : cols ⊆ cols') (hl : v.length = cols.length) :
    ((padded cols cols' v).map fun w => w ^ 2).sum = (v.map fun w => w ^ 2).sum := by
  have h := sum_lookup (fun _ w => w ^ 2) (by simp) hn' hn hs hl
  unfold padded
  rw [List.map_map]
  refine h.trans (congrArg List.sum ?_)
  clear h hs hn
  induction cols generalizing v with
  | nil => simp [List.length_eq_zero_iff.1 hl]
  | cons a cols ih =>
    match v, hl with
    | w :: v, hl => rw [List.zipWith_cons_cons, List.map_cons, ih (by simpa using hl)]

/-! ## The same parameters in the larger model -/

/-- The parameters with zeros for the coefficients of everything that is new. -/
noncomputable def grownPanel (lc lc' : List (String × List String)) (θ : SiteEnv ℝ) : SiteEnv ℝ := fun n =>
  match lc'.find? fun e' => e'.1 ++ "/coefs" = n with
  | none => θ n
  | some e' => ⟨[e'.2.length],
    match lc.find? fun e => e.1 = e'.1 with
    | none => List.replicate e'.2.length 0
    | some e => padded e.2 e'.2 (θ n).data⟩

variable {lc lc' : List (String × List String)} {θ : SiteEnv ℝ}

theorem grownPanel_other {n : String} (h : ∀ a : String, a ++ "/coefs" ≠ n) : grownPanel lc lc' θ n = θ n := by
  unfold grownPanel
  rw [List.find?_eq_none.2 fun e' _ => by simpa using h e'.1]

theorem grownPanel_coefs (hn : (lc'.map Prod.fst).Nodup) {e' : String × List String} (h : e' ∈ lc') :
    grownPanel lc lc' θ (e'.1 ++ "/coefs") = ⟨[e'.2.length],
      match lc.find? fun e => e.1 = e'.1 with
      | none => List.replicate e'.2.length 0
      | some e => padded e.2 e'.2 (θ (e'.1 ++ "/coefs")).data⟩ := by
  have : lc'.find? (fun f => f.1 ++ "/coefs" = e'.1 ++ "/coefs") = some e' := by
    cases hf : lc'.find? fun f => f.1 ++ "/coefs" = e'.1 ++ "/coefs" with
    | none => simpa using List.find?_eq_none.1 hf e' h
    | some f =>
      have h1 := List.find?_some hf
      have h2 := List.mem_of_find?_eq_some hf
      have h3 : f.1 = e'.1 := coefs_inj (by simpa using h1)
      rw [List.inj_on_of_nodup_map hn h2 h h3]
  unfold grownPanel
  rw [this]

theorem grownPanel_length (hn : (lc'.map Prod.fst).Nodup) {e' : String × List String} (h : e' ∈ lc') :
    (grownPanel lc lc' θ (e'.1 ++ "/coefs")).data.length = e'.2.length := by
  rw [grownPanel_coefs hn h]
  cases lc.find? fun e => e.1 = e'.1 with
  | none => simp
  | some e => simp [padded_length]

/-- Specification: the second list has every effect of the first, each with its columns and perhaps more. -/
structure EffectsGrow (lc lc' : List (String × List String)) : Prop where
  names : (lc.map Prod.fst).Nodup
  names' : (lc'.map Prod.fst).Nodup
  columns : ∀ e ∈ lc, e.2.Nodup
  columns' : ∀ e ∈ lc', e.2.Nodup
  grow : ∀ e ∈ lc, ∃ e' ∈ lc', e'.1 = e.1 ∧ e.2 ⊆ e'.2

theorem EffectsGrow.found (h : EffectsGrow lc lc') {e e' : String × List String} (he' : e' ∈ lc')
    (hf : lc.find? (fun e => e.1 = e'.1) = some e) : e ∈ lc ∧ e.1 = e'.1 ∧ e.2 ⊆ e'.2 := by
  have h1 : e.1 = e'.1 := by simpa using List.find?_some hf
  have h2 := List.mem_of_find?_eq_some hf
  obtain ⟨f, hf', hfn, hsub⟩ := h.grow e h2
  rw [List.inj_on_of_nodup_map h.names' hf' he' (hfn.trans h1)] at hsub
  exact ⟨h2, h1, hsub⟩

theorem grown_sum (h : EffectsGrow lc lc') (g : String × List String → ℝ) (g' : String × List String → ℝ)
    (hnone : ∀ e' ∈ lc', lc.find? (fun e => e.1 = e'.1) = none → g' e' = 0)
    (hsome : ∀ e' ∈ lc', ∀ e, lc.find? (fun e => e.1 = e'.1) = some e → g' e' = g e) :
    (lc'.map g').sum = (lc.map g).sum := by
  rw [← sum_found Prod.fst g h.names' h.names fun e he => by
    obtain ⟨e', he', hn, -⟩ := h.grow e he
    rw [← hn]
    exact List.mem_map_of_mem he']
  refine congrArg List.sum (List.map_congr_left fun e' he' => ?_)
  cases hf : lc.find? fun e => e.1 = e'.1 with
  | none => rw [hnone e' he' hf]; rfl
  | some e => rw [hsome e' he' e hf]; rfl

theorem grown_meanOf {mode : String → String} (h : EffectsGrow lc lc') {v v' : String → ℝ}
    (hv : ∀ e ∈ lc, ∀ d ∈ e.2, v' d = v d)
    (hl : ∀ e ∈ lc, (θ (e.1 ++ "/coefs")).data.length = e.2.length) (T : ℝ) :
    meanOf mode lc' v' (grownPanel lc lc' θ) T = meanOf mode lc v θ T := by
  unfold meanOf
  congr 1
  refine grown_sum h _ _ ?_ ?_
  · intro e' he' hf
    rw [grownPanel_coefs h.names' he', hf]
    have : ∀ l : List String, Tensor.dot (l.map v') (List.replicate l.length 0) = 0 := by
      intro l
      unfold Tensor.dot
      induction l with
      | nil => simp
      | cons a l ih => simpa [List.replicate_succ] using ih
    simp only [this]
    unfold combine
    split <;> simp
  · intro e' he' e hf
    obtain ⟨h1, h2, h3⟩ := h.found he' hf
    rw [grownPanel_coefs h.names' he', hf, ← h2]
    simp only
    rw [dot_padded_sub (h.columns' e' he') (h.columns e h1) h3 (hl e h1),
      List.map_congr_left fun d hd => hv e h1 d hd]

section
variable {τ : Type} [LinearOrder τ] {days : τ → ℝ} {p : PiecewiseParams ℝ τ}
  {cfg cfg' : HierConfig (Option (PiecewiseState ℝ τ)) (Scale ℝ) τ (Tensor ℝ) ℝ} {mode : String → String}

/-! ## Specification -/

/-- The second configuration and data have everything of the first: all effects, all columns with
the same values on the dates of the history; and no column that went to the default effect is taken by another
effect. -/
structure PanelAdds (cfg cfg' : HierConfig (Option (PiecewiseState ℝ τ)) (Scale ℝ) τ (Tensor ℝ) ℝ)
    (X X' : Option (Frame String τ ℝ)) (ss : List (List String)) (ts : List τ) : Prop where
  compile : cfg'.compile = cfg.compile
  keep : cfg'.keep = cfg.keep
  shared : cfg'.shared = cfg.shared
  effects : ∀ e ∈ cfg.effects, ∃ e' ∈ cfg'.effects, e'.name = e.name ∧ e'.regex = e.regex
  columns : givenCols X ⊆ givenCols X'
  nodup : (givenCols X).Nodup
  nodup' : (givenCols X').Nodup
  values : ∀ a ∈ ss, ∀ t ∈ ts, ∀ c ∈ givenCols X, givenValue X' a t c = givenValue X a t c
  leftover : ∀ d, ModelColumn (givenCols X) cfg.shared ss d →
    (∀ e ∈ cfg.effects, ∀ r q, e.regex = some r → cfg.compile r = .ok q → q d = false) →
    ∀ e' ∈ cfg'.effects, ∀ r q, e'.regex = some r → cfg.compile r = .ok q → q d = false

theorem ModelColumn.mono {cols cols' shared : List String} {ss : List (List String)} {d : String} (h : cols ⊆ cols')
    (hd : ModelColumn cols shared ss d) : ModelColumn cols' shared ss d := by
  rcases hd with ⟨h1, h2⟩ | ⟨c, hc, hs, a, ha, rfl⟩
  · exact .inl ⟨h h1, h2⟩
  · exact .inr ⟨c, h hc, hs, a, ha, rfl⟩

/-- The columns of the table of regressors that a fit is based on. -/
theorem fitted_table (hV : ValidHier days p cfg) {yA : Frame String τ ℝ} {ss : List (List String)} {ts : List τ}
    {X : Option (Frame String τ ℝ)} (hn : PlainNames cfg.compile (givenCols X) cfg.shared ss)
    (hnd : (givenCols X).Nodup)
    {m : HierFit (Option (PiecewiseState ℝ τ)) (Scale ℝ) τ (Tensor ℝ) ℝ} {x : Frame String τ ℝ} {s : PiecewiseState ℝ τ}
    (h : HierFitted days p ss ts X m x s) (hex : hierExog cfg yA X = .ok (m.expand, x)) :
    x.cols.Nodup ∧ ∀ d, d ∈ x.cols ↔ ModelColumn (givenCols X) cfg.shared ss d := by
  rcases h.exog with ⟨h0, -, h1⟩ | ⟨X0, st, rfl, hr, hst, hsk, -, hxe⟩
  · rw [h1, h0]
    refine ⟨List.nodup_nil, fun d => ⟨fun h => (by cases h), ?_⟩⟩
    rintro (⟨h, -⟩ | ⟨c, h, -⟩) <;> cases h
  · refine ⟨expandTransform_nodup (x := X0.bottomOnly) hnd hxe, fun d => ?_⟩
    rw [hst] at hex
    have hm := hier_matched hV hr hn hex
    obtain ⟨a, ha⟩ := List.exists_mem_of_ne_nil _ hr.panel.someSeries
    obtain ⟨t, ht⟩ := List.exists_mem_of_ne_nil _ hr.panel.someDate
    rw [(expand_cell hsk hr.panel ha ht hxe d).1]
    constructor
    · rintro ⟨h1, h2 | ⟨c, hc, b, hb, rfl⟩⟩
      · exact .inl ⟨h2, by_contra fun hs => h1 ((hm d).2 ⟨h2, hs⟩)⟩
      · exact .inr ⟨c, ((hm c).1 hc).1, ((hm c).1 hc).2, b, hb, rfl⟩
    · rintro (⟨h1, h2⟩ | ⟨c, hc, hs, b, hb, rfl⟩)
      · exact ⟨fun h => ((hm d).1 h).2 h2, .inl h1⟩
      · exact ⟨fun h => hn.fresh c hc b hb ((hm _).1 h).1, .inr ⟨c, (hm c).2 ⟨hc, hs⟩, b, hb, rfl⟩⟩

/-- The effects of the second fit grow from those of the first. -/
theorem fitted_grow {S Y Sc D : Type} {compile : String → PyM (String → Bool)} {x x' : Frame String τ ℝ} {y y' : Y}
    {scale scale' : Sc} {effects effects' : List (EffectSpec S Y Sc τ ℝ D ℝ)}
    {dflt dflt' : EffectObj S Y Sc τ ℝ D ℝ} {f f' : List (FittedEffect S Y Sc τ ℝ D ℝ)} {w w' : List EffectWarning}
    (h : fitEffects compile effects dflt (some x) y scale = .ok (f, w))
    (h' : fitEffects compile effects' dflt' (some x') y' scale' = .ok (f', w'))
    (hx : x.cols.Nodup) (hx' : x'.cols.Nodup) (hsub : x.cols ⊆ x'.cols)
    (heff : ∀ e ∈ effects, ∃ e' ∈ effects', e'.name = e.name ∧ e'.regex = e.regex)
    (hleft : ∀ d ∈ x.cols, (∀ e ∈ effects, ∀ r q, e.regex = some r → compile r = .ok q → q d = false) →
      ∀ e' ∈ effects', ∀ r q, e'.regex = some r → compile r = .ok q → q d = false) :
    (∀ fe ∈ f, fe.cols.Nodup ∧ fe.cols ⊆ x.cols) ∧ (∀ fe ∈ f', fe.cols.Nodup) ∧
      ∀ fe ∈ f, fe.cols ≠ [] → ∃ fe' ∈ f', fe'.name = fe.name ∧ fe.cols ⊆ fe'.cols := by
  obtain ⟨fes, hf, -, hcase⟩ := fitEffects_ok.1 h
  obtain ⟨fes', hf', -, hcase'⟩ := fitEffects_ok.1 h'
  have hnod : ∀ {x : Frame String τ ℝ} {y : Y} {scale : Sc} {effects : List (EffectSpec S Y Sc τ ℝ D ℝ)}
      {fes f : List (FittedEffect S Y Sc τ ℝ D ℝ)} {dflt : EffectObj S Y Sc τ ℝ D ℝ}, x.cols.Nodup →
      List.Forall₂ (FittedFrom compile x y scale) effects fes →
      ((∃ e, f = fes ++ [⟨defaultEffectName, e, remainingColumns x.cols (fes.flatMap FittedEffect.cols)⟩]) ∨ f = fes) →
      ∀ fe ∈ f, fe.cols.Nodup ∧ fe.cols ⊆ x.cols := by
    intro x y scale effects fes f dflt hx hf hcase
    have h1 : ∀ fe ∈ fes, fe.cols.Nodup ∧ fe.cols ⊆ x.cols := by
      intro fe hfe
      obtain ⟨e, he, -, hm, -⟩ := exists_of_forall₂ hf hfe
      exact ⟨hx.sublist (matchColumns_sublist hm), (matchColumns_sublist hm).subset⟩
    rcases hcase with ⟨e, rfl⟩ | rfl
    · intro fe hfe
      rcases List.mem_append.1 hfe with h3 | h3
      · exact h1 fe h3
      · cases List.mem_singleton.1 h3
        exact ⟨(remaining_perm _ _).nodup_iff.2 (hx.filter _), fun a ha => (mem_remaining.1 ha).1⟩
    · exact h1
  refine ⟨hnod (dflt := dflt) hx hf ?_, fun fe hfe => (hnod (dflt := dflt) hx' hf' ?_ fe hfe).1, ?_⟩
  · rcases hcase with ⟨-, h⟩ | ⟨e, -, -, h⟩
    · exact .inr h
    · exact .inl ⟨_, h⟩
  · rcases hcase' with ⟨-, h⟩ | ⟨e, -, -, h⟩
    · exact .inr h
    · exact .inl ⟨_, h⟩
  have hkey : ∀ fe ∈ fes, ∃ fe' ∈ f', fe'.name = fe.name ∧ fe.cols ⊆ fe'.cols := by
    intro fe hfe
    obtain ⟨e, he, hn, hm, -⟩ := exists_of_forall₂ hf hfe
    obtain ⟨e', he', hn', hr'⟩ := heff e he
    obtain ⟨fe', hfe', hn2, hm2, -⟩ := forall₂_mem hf' he'
    refine ⟨fe', ?_, by rw [hn2, hn', hn], fun d hd => ?_⟩
    · rcases hcase' with ⟨-, h⟩ | ⟨eff, -, -, h⟩ <;> rw [h]
      · exact hfe'
      · exact List.mem_append_left _ hfe'
    · obtain ⟨h1, h2⟩ := (mem_matchColumns hm d).1 hd
      refine (mem_matchColumns hm2 d).2 ⟨hsub h1, ?_⟩
      rw [hr']
      exact h2
  rcases hcase with ⟨-, h⟩ | ⟨eff, hne, -, h⟩ <;> rw [h]
  · exact fun fe hfe _ => hkey fe hfe
  · intro fe hfe _
    rcases List.mem_append.1 hfe with h3 | h3
    · exact hkey fe h3
    · cases List.mem_singleton.1 h3
      have hrem : remainingColumns x.cols (fes.flatMap FittedEffect.cols)
          ⊆ remainingColumns x'.cols (fes'.flatMap FittedEffect.cols) := by
        intro d hd
        obtain ⟨h1, h2⟩ := mem_remaining.1 hd
        refine mem_remaining.2 ⟨hsub h1, fun hd' => ?_⟩
        obtain ⟨fe', hfe', hfd⟩ := List.mem_flatMap.1 hd'
        obtain ⟨e', he', -, hm', -⟩ := exists_of_forall₂ hf' hfe'
        obtain ⟨-, r, q, hr, hq, hqd⟩ := (mem_matchColumns hm' d).1 hfd
        have := hleft d h1 (fun e he r q hr hq => ?_) e' he' r q hr hq
        · rw [this] at hqd; cases hqd
        · obtain ⟨fe, hfe, -, hm, -⟩ := forall₂_mem hf he
          by_contra hqd
          exact h2 (List.mem_flatMap.2 ⟨fe, hfe, (mem_matchColumns hm d).2 ⟨h1, r, q, hr, hq, by simpa using hqd⟩⟩)
      rcases hcase' with ⟨h0, -⟩ | ⟨eff', -, -, h'⟩
      · rw [h0] at hrem
        exact absurd (List.subset_nil.1 hrem) hne
      · rw [h']
        exact ⟨_, List.mem_append_right _ (List.mem_singleton_self _), rfl, hrem⟩

/-! ## The theorem -/

variable (hV : ValidHier days p cfg) (hV' : ValidHier days p cfg') (hM : Modes mode cfg) (hM' : Modes mode cfg')
    {y : Frame String τ ℝ}
    (hy : RegularPanel y) {c : String} (hc : y.cols = [c]) {obs : List String → τ → ℝ} (hobs : Observed y c obs)
    {ss : List (List String)} (hss : SeriesOf y ss) (h2 : 2 ≤ ss.length) {ts : List τ} (hts : DatesOf y ts)
    {b : ℝ} (hb : p.priorScale = .scalar b) {X X' : Option (Frame String τ ℝ)} (hX : GivenExog X ss ts)
    (hX' : GivenExog X' ss ts)
    (hn : PlainNames cfg.compile (givenCols X) cfg.shared ss)
    (hn' : PlainNames cfg'.compile (givenCols X') cfg'.shared ss)
    (hA : PanelAdds cfg cfg' X X' ss ts)
    {m m' : HierFit (Option (PiecewiseState ℝ τ)) (Scale ℝ) τ (Tensor ℝ) ℝ} (hfit : hierFitData cfg y X = .ok m)
    (hfit' : hierFitData cfg' y X' = .ok m')
    {s : PiecewiseState ℝ τ} (hs : m.trend.st.2 = some s) {x x' : Frame String τ ℝ}
    (hex : hierExog cfg (aggregate cfg.keep y) X = .ok (m.expand, x))
    (hex' : hierExog cfg' (aggregate cfg'.keep y) X' = .ok (m'.expand, x'))
    {lkj : Nat → ℝ → Tensor ℝ → ℝ} {ns conc os : ℝ} {sd : String → ℝ}

include hV hV' hy hss hts hX hX' hn hn' hA hfit hfit' hs hex hex'

/-- Both fits have the same trend, and the effects of the second grow from those of the first. -/
theorem panel_grows : m'.trend.st.2 = some s ∧ HierFitted days p ss ts X m x s ∧ HierFitted days p ss ts X' m' x' s ∧
    EffectsGrow ((kept m.fitted).map nameCols) ((kept m'.fitted).map nameCols) ∧
    ∀ a ∈ ss, ∀ t ∈ ts, ∀ e ∈ (kept m.fitted).map nameCols, ∀ d ∈ e.2, cellAt x' a t d = cellAt x a t d := by
  obtain ⟨m₁, x₁, s₁, hf₁, h, yB, hB, -, -, -, -, -, hpf, -, hex₁, hfe⟩ := hier_fits hV hy hss hts hX hn.compiles
  rw [hfit] at hf₁
  cases hf₁
  rw [hex] at hex₁
  cases hex₁
  have := h.state
  rw [hs] at this
  cases this
  obtain ⟨m₂, x₂, s₂, hf₂, h', yB', hB', -, -, -, -, -, hpf', -, hex₂, hfe'⟩ :=
    hier_fits hV' hy hss hts hX' hn'.compiles
  rw [hfit'] at hf₂
  cases hf₂
  rw [hex'] at hex₂
  cases hex₂
  rw [hA.keep, hB] at hB'
  cases hB'
  rw [hpf] at hpf'
  cases hpf'
  obtain ⟨t1, t2⟩ := fitted_table hV hn hA.nodup h hex
  obtain ⟨t1', t2'⟩ := fitted_table hV' hn' hA.nodup' h' hex'
  rw [hA.compile] at hfe'
  obtain ⟨g1, g2, g3⟩ := fitted_grow hfe hfe' t1 t1'
    (fun d hd => (t2' d).2 (by rw [hA.shared]; exact ((t2 d).1 hd).mono hA.columns)) hA.effects
    (fun d hd => hA.leftover d ((t2 d).1 hd))
  have names : ∀ {X : Option (Frame String τ ℝ)} {m : HierFit (Option (PiecewiseState ℝ τ)) (Scale ℝ) τ (Tensor ℝ) ℝ}
      {x : Frame String τ ℝ}, HierFitted days p ss ts X m x s → (((kept m.fitted).map nameCols).map Prod.fst).Nodup := by
    intro X m x h
    rw [List.map_map]
    exact h.nodup.sublist (List.filter_sublist.map _)
  refine ⟨h'.state, h, h', ⟨names h, names h', ?_, ?_, ?_⟩, ?_⟩
  · intro e he
    obtain ⟨fe, hfe, rfl⟩ := List.mem_map.1 he
    exact (g1 fe ((hier_kept h).1 hfe).1).1
  · intro e he
    obtain ⟨fe, hfe, rfl⟩ := List.mem_map.1 he
    exact g2 fe ((hier_kept h').1 hfe).1
  · intro e he
    obtain ⟨fe, hfe, rfl⟩ := List.mem_map.1 he
    obtain ⟨k1, k2⟩ := (hier_kept h).1 hfe
    obtain ⟨fe', hfe', e1, e2⟩ := g3 fe k1 k2
    refine ⟨nameCols fe', List.mem_map_of_mem ((hier_kept h').2 ⟨hfe', fun h0 => k2 ?_⟩), e1, e2⟩
    rw [h0] at e2
    exact List.subset_nil.1 e2
  · intro a ha t ht e he d hd
    obtain ⟨fe, hfe, rfl⟩ := List.mem_map.1 he
    have hm := (t2 d).1 ((g1 fe ((hier_kept h).1 hfe).1).2 hd)
    have o := fitted_copies hV hn h hex a ha t ht
    have o' := fitted_copies hV' hn' h' hex' a ha t ht
    rw [hA.shared] at o'
    rcases hm with ⟨h1, h2⟩ | ⟨c, hc, hs, b, hb, rfl⟩
    · rw [o'.shared d (hA.columns h1) h2, o.shared d h1 h2, hA.values a ha t ht d h1]
    · by_cases hba : b = a
      · subst hba
        rw [o'.own c (hA.columns hc) hs, o.own c hc hs, hA.values b ha t ht c hc]
      · rw [o'.other c (hA.columns hc) hs b hb hba, o.other c hc hs b hb hba]

include hM hM' hc hobs h2 hb in
/-- **C128** for panels: with the same noise levels and correlation, adding effects and columns never makes the weighed
error plus the price of the best fit larger. -/
theorem C128_panel {σ : Fin ss.length → ℝ} {C : Matrix (Fin ss.length) (Fin ss.length) ℝ} {θ θ' : SiteEnv ℝ}
    (hN : NoiseOf σ C θ) (e1 : θ' "std_observation" = θ "std_observation") (e2 : θ' "corr_matrix" = θ "corr_matrix")
    (hθ : BestPanel lkj ns conc os (fun n => normalLP 0 (sd n)) s m θ)
    (hθ' : BestPanel lkj ns conc os (fun n => normalLP 0 (sd n)) s m' θ') :
    weighedError (panelCovariance σ C) ts (fun i t => obs (ss.get i) t)
        (fun i t => panelMean days mode s ss (kept m'.fitted) x' θ' (ss.get i) t) + panelPrice s m' os b sd θ'
      ≤ weighedError (panelCovariance σ C) ts (fun i t => obs (ss.get i) t)
        (fun i t => panelMean days mode s ss (kept m.fitted) x θ (ss.get i) t) + panelPrice s m os b sd θ := by
  obtain ⟨hs', h, h', hG, hval⟩ := panel_grows hV hV' hy hss hts hX hX' hn hn' hA hfit hfit' hs hex hex'
  have hN' : NoiseOf σ C θ' := ⟨by rw [e1]; exact hN.size, by rw [e1]; exact hN.levels, hN.pos,
    by rw [e2]; exact hN.matrix, hN.factor⟩
  let ψ := grownPanel ((kept m.fitted).map nameCols) ((kept m'.fitted).map nameCols) θ
  have key : ∀ k : String, '/' ∉ k.toList → ψ k = θ k := fun k hk =>
    grownPanel_other fun a he => coefs_ne hk he
  have hz : HierSizes s m' ψ := by
    refine ⟨?_, fun fe hfe hne => ?_⟩
    · have := hθ.1.trend
      unfold PanelSites at this ⊢
      rw [key _ (by decide), key _ (by decide)]
      exact this
    · exact grownPanel_length hG.names' (e' := nameCols fe)
        (List.mem_map_of_mem ((hier_kept h').2 ⟨hfe, hne⟩))
  have hlen : ∀ e ∈ (kept m.fitted).map nameCols, (θ (e.1 ++ "/coefs")).data.length = e.2.length := by
    intro e he
    obtain ⟨fe, hfe, rfl⟩ := List.mem_map.1 he
    obtain ⟨k1, k2⟩ := (hier_kept h).1 hfe
    exact hθ.1.coefs fe k1 k2
  have hbest := (C131_penalised hV' hM' hy hc hobs hss h2 hts hb hX' hn'.compiles hfit' hs' hex' hθ'.1 hN').1 hθ' ψ hz
    (by rw [e1]; exact key _ (by decide)) (by rw [e2]; exact key _ (by decide))
  refine hbest.trans (le_of_eq ?_)
  congr 1
  · unfold weighedError
    refine congrArg List.sum (List.map_congr_left fun t ht => ?_)
    have : ∀ i, panelMean days mode s ss (kept m'.fitted) x' ψ (ss.get i) t
        = panelMean days mode s ss (kept m.fitted) x θ (ss.get i) t := by
      intro i
      rw [panelMean_eq, panelMean_eq, grown_meanOf hG (hval _ (List.get_mem ..) t ht) hlen]
      congr 1
      unfold panelTrendAt seriesCoefs
      rw [key _ (by decide), key _ (by decide)]
    simp only [this]
  · unfold panelPrice
    rw [key _ (by decide), key _ (by decide)]
    congr 1
    have hp : ∀ (l : List (FittedEffect (Option (PiecewiseState ℝ τ)) (Frame String τ ℝ) (Scale ℝ) τ ℝ (Tensor ℝ) ℝ))
        (ξ : SiteEnv ℝ), (l.map fun fe => ((ξ (fe.name ++ "/coefs")).data.map fun v => v ^ 2).sum / sd fe.name ^ 2)
          = (l.map nameCols).map fun e => ((ξ (e.1 ++ "/coefs")).data.map fun v => v ^ 2).sum / sd e.1 ^ 2 := by
      intro l ξ
      rw [List.map_map]
      rfl
    rw [hp, hp]
    refine grown_sum hG _ _ ?_ ?_
    · intro e' he' hf
      show ((grownPanel _ _ θ _).data.map _).sum / _ = 0
      rw [grownPanel_coefs hG.names' he', hf]
      simp
    · intro e' he' e hf
      obtain ⟨k1, k2, k3⟩ := hG.found he' hf
      show ((grownPanel _ _ θ _).data.map _).sum / _ = _
      rw [grownPanel_coefs hG.names' he', hf, ← k2]
      simp only
      rw [squares_padded_sub (hG.columns' e' he') (hG.columns e k1) k3 (hlen e k1)]

end

/-! ## A case

A second effect on the same columns. -/

noncomputable def exCfg128p : HierConfig (Option (PiecewiseState ℝ ℤ)) (Scale ℝ) ℤ (Tensor ℝ) ℝ :=
  { exCfg113 with effects := [⟨"e", (linearClass "additive").new, some ".*"⟩, ⟨"f", (linearClass "additive").new, some ".*"⟩] }

theorem exValid128p : ValidHier (fun t : ℤ => (t : ℝ)) exP113 exCfg128p where
  dates := Int.cast_strictMono
  interval := ⟨1, rfl, one_pos⟩
  range := ⟨4 / 5, rfl, by norm_num⟩
  plain := .inl rfl
  trend := rfl
  effects := by
    intro e he
    simp only [exCfg128p, List.mem_cons, List.not_mem_nil, or_false] at he
    rcases he with rfl | rfl <;> exact ⟨"additive", rfl⟩
  default := ⟨"additive", rfl⟩
  regexes := fun _ _ r _ => ⟨_, rfl⟩
  order := fun l => List.Perm.refl l
  fitFeatures := rfl
  features := rfl
  nodup := by simp [exCfg128p]
  reserved := by simp [exCfg128p]
  notTrend := by simp [exCfg128p]

theorem exModes128p : Modes (fun _ => "additive") exCfg128p where
  effects := by
    intro e he
    simp only [exCfg128p, List.mem_cons, List.not_mem_nil, or_false] at he
    rcases he with rfl | rfl <;> rfl
  default := rfl

theorem exAdds128p : PanelAdds exCfg114 exCfg128p (some exX113) (some exX113) [["p"], ["q"]] [0, 1] where
  compile := rfl
  keep := rfl
  shared := rfl
  effects := by
    intro e he
    cases List.mem_singleton.1 he
    exact ⟨_, List.mem_cons_self .., rfl, rfl⟩
  columns := fun _ h => h
  nodup := by simp [givenCols, exX113]
  nodup' := by simp [givenCols, exX113]
  values := fun _ _ _ _ _ _ => rfl
  leftover := by
    intro d _ h e' he' r q hr hq
    refine h _ (List.mem_singleton_self _) r q ?_ hq
    simp only [exCfg128p, List.mem_cons, List.not_mem_nil, or_false] at he'
    rcases he' with rfl | rfl <;> exact hr

example : ∃ m m' s x x' θ θ', hierFitData exCfg114 exY113 (some exX113) = .ok m ∧
    hierFitData exCfg128p exY113 (some exX113) = .ok m' ∧
    BestPanel (fun _ _ _ => 0) 1 1 (1 / 10) (fun _ => normalLP 0 1) s m θ ∧
    BestPanel (fun _ _ _ => 0) 1 1 (1 / 10) (fun _ => normalLP 0 1) s m' θ' ∧
    weighedError (panelCovariance (n := 2) ![1, 2] 1) [0, 1] (fun i t => cellAt exY113 ([["p"], ["q"]].get i) t "y")
        (fun i t => panelMean (fun t : ℤ => (t : ℝ)) (fun _ => "additive") s [["p"], ["q"]] (kept m'.fitted) x' θ'
          ([["p"], ["q"]].get i) t) + panelPrice s m' (1 / 10) (1 / 10) (fun _ => 1) θ'
      ≤ weighedError (panelCovariance (n := 2) ![1, 2] 1) [0, 1] (fun i t => cellAt exY113 ([["p"], ["q"]].get i) t "y")
        (fun i t => panelMean (fun t : ℤ => (t : ℝ)) (fun _ => "additive") s [["p"], ["q"]] (kept m.fitted) x θ
          ([["p"], ["q"]].get i) t) + panelPrice s m (1 / 10) (1 / 10) (fun _ => 1) θ := by
  have hX := exExog113 (ts := [0, 1]) (by simp) (by simp) (by simp)
  have k0 : MatrixSite ⟨[2, 2], [1, 0, 0, 1]⟩ (1 : Matrix (Fin 2) (Fin 2) ℝ) :=
    ⟨rfl, fun i j => by fin_cases i <;> fin_cases j <;> simp⟩
  have k1 : VectorSite (n := 2) ⟨[2], [1, 2]⟩ ![1, 2] := ⟨rfl, fun i => by fin_cases i <;> rfl⟩
  have k2 : ∀ i, (0 : ℝ) < ![1, 2] i := fun i => by fin_cases i <;> simp
  obtain ⟨m, s, h1, hs, h⟩ := C114_exists exValid114 exModes114 exPanel113 exSeries113 (by simp) exDates113
    (b := 1 / 10) rfl (by norm_num) hX exPlain115.compiles
  obtain ⟨m', s', h1', hs', h'⟩ := C114_exists exValid128p exModes128p exPanel113 exSeries113 (by simp) exDates113
    (b := 1 / 10) rfl (by norm_num) hX exPlain115.compiles
  obtain ⟨θ, h2, h3, h4⟩ := h (fun _ _ _ => 0) 1 1 (1 / 10) (fun _ => normalLP 0 1) (by norm_num)
    (fun _ => continuous_normalLP 0 1) (fun _ => tendsto_normalLP 0 one_ne_zero) ⟨[2], [1, 2]⟩
    ⟨[2, 2], [1, 0, 0, 1]⟩ ![1, 2] 1 rfl k1 k2 k0 corrFactor_one
  obtain ⟨θ', h2', h3', h4'⟩ := h' (fun _ _ _ => 0) 1 1 (1 / 10) (fun _ => normalLP 0 1) (by norm_num)
    (fun _ => continuous_normalLP 0 1) (fun _ => tendsto_normalLP 0 one_ne_zero) ⟨[2], [1, 2]⟩
    ⟨[2, 2], [1, 0, 0, 1]⟩ ![1, 2] 1 rfl k1 k2 k0 corrFactor_one
  have hN : NoiseOf (n := 2) ![1, 2] 1 θ := ⟨by rw [h2]; rfl, by rw [h2]; exact k1, k2, by rw [h3]; exact k0, corrFactor_one⟩
  have hobs : Observed exY113 "y" fun a t => cellAt exY113 a t "y" :=
    fun r hr _ => cellAt_of_mem exPanel113.ordered hr (by simp [exY113])
  obtain ⟨m₁, x, s₁, hf₁, -, yB, -, -, -, -, -, -, -, -, hex, -⟩ :=
    hier_fits exValid114 exPanel113 exSeries113 exDates113 hX exPlain115.compiles
  rw [h1] at hf₁
  cases hf₁
  obtain ⟨m₂, x', s₂, hf₂, -, yB', -, -, -, -, -, -, -, -, hex', -⟩ :=
    hier_fits exValid128p exPanel113 exSeries113 exDates113 hX exPlain115.compiles
  rw [h1'] at hf₂
  cases hf₂
  have hss := (panel_grows exValid114 exValid128p exPanel113 exSeries113 exDates113 hX hX exPlain115 exPlain115 exAdds128p
    h1 h1' hs hex hex').1
  rw [hs'] at hss
  cases hss
  exact ⟨m, m', s, x, x', θ, θ', h1, h1', h4, h4', C128_panel exValid114 exValid128p exModes114 exModes128p exPanel113 rfl hobs
    exSeries113 (by simp) exDates113 rfl hX hX exPlain115 exPlain115 exAdds128p h1 h1' hs hex hex'
    (sd := fun _ => 1) hN (h2'.trans h2.symm) (h3'.trans h3.symm) h4 h4'⟩

end PV
