import Mathlib.Tactic.Ring
import Verif.Props.Penalised

/-!
# C128: one more effect or column never worsens the best fit
-/

set_option linter.unusedSectionVars false

namespace PV
open Tensor Filter

/-! ## Coefficients with zeros for the columns that are new -/

/-- The coefficients `v` of the columns `cols`, with a zero for every other column of `cols'`. -/
noncomputable def padded (cols cols' : List String) (v : List ℝ) : List ℝ :=
  cols'.map fun a => ((cols.zip v).lookup a).getD 0

theorem padded_length (cols cols' : List String) (v : List ℝ) : (padded cols cols' v).length = cols'.length := by
  simp [padded]

theorem lookup_zip_none {a : String} : ∀ {cols : List String} {v : List ℝ}, a ∉ cols → (cols.zip v).lookup a = none
  | [], _, _ => by simp
  | _ :: _, [], _ => by simp
  | b :: cols, w :: v, h => by
    rw [List.zip_cons_cons, List.lookup_cons, beq_false_of_ne (fun e => h (by simp [e]))]
    exact lookup_zip_none fun h' => h (List.mem_cons_of_mem _ h')

theorem padded_skip {a : String} {cols cols' : List String} {v : List ℝ} (h : a ∉ cols) :
    padded cols (a :: cols') v = 0 :: padded cols cols' v := by
  simp [padded, lookup_zip_none h]

theorem padded_keep {a : String} {cols cols' : List String} {w : ℝ} {v : List ℝ} (h : a ∉ cols') :
    padded (a :: cols) (a :: cols') (w :: v) = w :: padded cols cols' v := by
  simp only [padded, List.map_cons, List.zip_cons_cons, List.lookup_cons, beq_self_eq_true, Option.getD_some]
  congr 1
  refine List.map_congr_left fun b hb => ?_
  rw [beq_false_of_ne]
  rintro rfl
  exact h hb

theorem dot_padded {r : String → ℝ} {cols cols' : List String} (h : cols.Sublist cols') :
    ∀ {v : List ℝ}, cols'.Nodup → v.length = cols.length →
      Tensor.dot (cols'.map r) (padded cols cols' v) = Tensor.dot (cols.map r) v := by
  induction h with
  | slnil => intro v _ _; simp [padded, Tensor.dot]
  | @cons l₁ l₂ a hs ih =>
    intro v hn hv
    rw [List.nodup_cons] at hn
    rw [padded_skip fun h => hn.1 (hs.subset h)]
    have := ih hn.2 hv
    simp only [Tensor.dot, List.map_cons, List.zipWith_cons_cons, List.sum_cons, mul_zero, zero_add] at this ⊢
    exact this
  | @cons_cons l₁ l₂ a hs ih =>
    intro v hn hv
    rw [List.nodup_cons] at hn
    match v, hv with
    | w :: v, hv =>
      rw [padded_keep hn.1]
      have := ih hn.2 (v := v) (by simpa using hv)
      simp only [Tensor.dot, List.map_cons, List.zipWith_cons_cons, List.sum_cons] at this ⊢
      rw [this]

theorem sum_padded {f : ℝ → ℝ} {cols cols' : List String} (h : cols.Sublist cols') :
    ∀ {v : List ℝ}, cols'.Nodup → v.length = cols.length →
      ((padded cols cols' v).map f).sum = (v.map f).sum + ((cols'.length : ℝ) - cols.length) * f 0 := by
  induction h with
  | slnil => intro v _ hv; simp [padded, List.length_eq_zero_iff.1 hv]
  | @cons l₁ l₂ a hs ih =>
    intro v hn hv
    rw [List.nodup_cons] at hn
    rw [padded_skip fun h => hn.1 (hs.subset h), List.map_cons, List.sum_cons, ih hn.2 hv]
    push_cast [List.length_cons]
    ring
  | @cons_cons l₁ l₂ a hs ih =>
    intro v hn hv
    rw [List.nodup_cons] at hn
    match v, hv with
    | w :: v, hv =>
      rw [padded_keep hn.1, List.map_cons, List.sum_cons, ih hn.2 (v := v) (by simpa using hv)]
      push_cast [List.length_cons, List.map_cons, List.sum_cons]
      ring

/-! ## Sums over the effects of two fits -/

theorem sum_single {α : Type} (nm : α → String) (n : String) (v : ℝ) : ∀ {l : List α}, (l.map nm).Nodup →
    n ∈ l.map nm → (l.map fun a => if nm a = n then v else 0).sum = v
  | [], _, h => by simp at h
  | a :: l, hn, h => by
    rw [List.map_cons, List.nodup_cons] at hn
    rw [List.map_cons, List.sum_cons]
    by_cases e : nm a = n
    · rw [if_pos e, List.sum_eq_zero, add_zero]
      intro w hw
      obtain ⟨b, hb, rfl⟩ := List.mem_map.1 hw
      rw [if_neg]
      intro e'
      exact hn.1 (by rw [e, ← e']; exact List.mem_map_of_mem hb)
    · rw [if_neg e, zero_add]
      refine sum_single nm n v hn.2 ?_
      rw [List.map_cons, List.mem_cons] at h
      exact h.resolve_left fun h => e h.symm

/-- The sum over the larger list: what the members of the smaller list give, and the rest. -/
theorem sum_found {α : Type} (nm : α → String) (g : α → ℝ) {l' : List α} (hn' : (l'.map nm).Nodup) :
    ∀ {l : List α}, (l.map nm).Nodup → (∀ a ∈ l, nm a ∈ l'.map nm) →
      (l'.map fun a' => ((l.find? fun a => nm a = nm a').map g).getD 0).sum = (l.map g).sum
  | [], _, _ => by simp
  | a :: l, hn, h => by
    rw [List.map_cons, List.nodup_cons] at hn
    rw [List.map_cons, List.sum_cons, ← sum_found nm g hn' hn.2 fun b hb => h b (List.mem_cons_of_mem _ hb),
      ← sum_single nm (nm a) (g a) hn' (h a (List.mem_cons_self ..)), ← List.sum_map_add]
    refine congrArg List.sum (List.map_congr_left fun a' _ => ?_)
    rw [List.find?_cons]
    by_cases e : nm a = nm a'
    · rw [decide_eq_true e, if_pos e.symm, List.find?_eq_none.2]
      · simp
      · intro b hb
        simp only [decide_eq_true_eq]
        intro e'
        exact hn.1 (by rw [e, ← e']; exact List.mem_map_of_mem hb)
    · rw [decide_eq_false e, if_neg fun h => e h.symm, zero_add]

theorem sum_map_minus {α : Type} (f g : α → ℝ) : ∀ l : List α,
    (l.map fun a => f a - g a).sum = (l.map f).sum - (l.map g).sum
  | [] => by simp
  | a :: l => by
    simp only [List.map_cons, List.sum_cons, sum_map_minus f g l]
    ring

/-! ## Specification -/

section
variable {τ : Type} [LinearOrder τ]

/-- The second fit has every effect of the first, each with its columns and perhaps more, and the columns
have the same values on the dates of the history. -/
structure FitExtends (kind : String → EffectKind) (y x x' : Frame String τ ℝ)
    (m m' : UniFit (UsualAttrs τ) (Scale ℝ) τ ℝ (AnyData ℝ) ℝ) : Prop where
  effects : ∀ fe ∈ usedEffects kind m, ∃ fe' ∈ usedEffects kind m', fe'.name = fe.name ∧ fe.cols.Sublist fe'.cols
  values : ∀ fe ∈ usedEffects kind m, ∀ a ∈ fe.cols, ∀ row ∈ y.rows, rowAt x' row.time a = rowAt x row.time a
  nodup : ∀ fe' ∈ usedEffects kind m', fe'.cols.Nodup

/-- What the priors give to coefficients that are all zero. -/
noncomputable def zeroPrior (kind : String → EffectKind)
    (m : UniFit (UsualAttrs τ) (Scale ℝ) τ ℝ (AnyData ℝ) ℝ) : ℝ :=
  ((usedEffects kind m).map fun fe => ((kind fe.name).size fe.cols : ℝ) * (kind fe.name).prior 0).sum

/-! ## The same parameters in the larger model -/

/-- The coefficients of an effect of the larger model. -/
noncomputable def grownCoefs (kind : String → EffectKind)
    (l : List (FittedEffect (UsualAttrs τ) (Frame String τ ℝ) (Scale ℝ) τ ℝ (AnyData ℝ) ℝ)) (θ : SiteEnv ℝ)
    (fe' : FittedEffect (UsualAttrs τ) (Frame String τ ℝ) (Scale ℝ) τ ℝ (AnyData ℝ) ℝ) : List ℝ :=
  match l.find? fun fe => fe.name = fe'.name with
  | none => List.replicate ((kind fe'.name).size fe'.cols) 0
  | some fe =>
    match kind fe'.name with
    | .seasonal .. => (θ (fe'.name ++ "/coefs")).data
    | .linear .. => padded fe.cols fe'.cols (θ (fe'.name ++ "/coefs")).data

/-- The parameters with zeros for everything that is new. -/
noncomputable def grown (kind : String → EffectKind)
    (l l' : List (FittedEffect (UsualAttrs τ) (Frame String τ ℝ) (Scale ℝ) τ ℝ (AnyData ℝ) ℝ)) (θ : SiteEnv ℝ) :
    SiteEnv ℝ := fun n =>
  match l'.find? fun fe' => fe'.name ++ "/coefs" = n with
  | none => θ n
  | some fe' => ⟨[(kind fe'.name).size fe'.cols], grownCoefs kind l θ fe'⟩

variable {kind : String → EffectKind}
  {l l' : List (FittedEffect (UsualAttrs τ) (Frame String τ ℝ) (Scale ℝ) τ ℝ (AnyData ℝ) ℝ)} {θ : SiteEnv ℝ}

theorem grown_other {n : String} (h : ∀ a : String, a ++ "/coefs" ≠ n) : grown kind l l' θ n = θ n := by
  unfold grown
  rw [List.find?_eq_none.2 fun fe' _ => by simpa using h fe'.name]

theorem grown_coefs (hn : (l'.map FittedEffect.name).Nodup)
    {fe' : FittedEffect (UsualAttrs τ) (Frame String τ ℝ) (Scale ℝ) τ ℝ (AnyData ℝ) ℝ} (h : fe' ∈ l') :
    (grown kind l l' θ (fe'.name ++ "/coefs")).data = grownCoefs kind l θ fe' := by
  have : l'.find? (fun f => f.name ++ "/coefs" = fe'.name ++ "/coefs") = some fe' := by
    cases hf : l'.find? fun f => f.name ++ "/coefs" = fe'.name ++ "/coefs" with
    | none => simpa using List.find?_eq_none.1 hf fe' h
    | some f =>
      have h1 := List.find?_some hf
      have h2 := List.mem_of_find?_eq_some hf
      have h3 : f.name = fe'.name := by simpa using h1
      rw [List.inj_on_of_nodup_map hn h2 h h3]
  unfold grown
  rw [this]

variable {position : τ → ℤ} {compile : String → PyM (String → Bool)}
  {order : List String → List String} {days : τ → ℝ}
  {p : PiecewiseParams ℝ τ}
  {cfg cfg' : UniConfig (UsualAttrs τ) (Scale ℝ) τ ℝ (AnyData ℝ) ℝ} {y : Frame String τ ℝ} {c : String}
  {X X' : Option (Frame String τ ℝ)} {x x' : Frame String τ ℝ}
  {m m' : UniFit (UsualAttrs τ) (Scale ℝ) τ ℝ (AnyData ℝ) ℝ}

theorem used_nodup (hU : Usual position compile order days suggestLinear p kind cfg)
    (hfit : uniFitData cfg y X = .ok m) : ((usedEffects kind m).map FittedEffect.name).Nodup :=
  (usual_names hU hfit).1.sublist (List.filter_sublist.map _)

/-- The effect of the smaller model with the name of an effect of the larger one. -/
theorem found_effect {fe' : FittedEffect (UsualAttrs τ) (Frame String τ ℝ) (Scale ℝ) τ ℝ (AnyData ℝ) ℝ}
    (hE : FitExtends kind y x x' m m') (hn' : ((usedEffects kind m').map FittedEffect.name).Nodup)
    (h : fe' ∈ usedEffects kind m')
    {fe : FittedEffect (UsualAttrs τ) (Frame String τ ℝ) (Scale ℝ) τ ℝ (AnyData ℝ) ℝ}
    (hf : (usedEffects kind m).find? (fun fe => fe.name = fe'.name) = some fe) :
    fe ∈ usedEffects kind m ∧ fe.name = fe'.name ∧ fe.cols.Sublist fe'.cols := by
  have h1 : fe.name = fe'.name := by simpa using List.find?_some hf
  have h2 := List.mem_of_find?_eq_some hf
  obtain ⟨f, hf', hfn, hsub⟩ := hE.effects fe h2
  rw [List.inj_on_of_nodup_map hn' hf' h (hfn.trans h1)] at hsub
  exact ⟨h2, h1, hsub⟩

variable (hU : Usual position compile order days suggestLinear p kind cfg)
  (hU' : Usual position compile order days suggestLinear p kind cfg')
  (hfit : uniFitData cfg y X = .ok m) (hfit' : uniFitData cfg' y X' = .ok m')
  (hE : FitExtends kind y x x' m m') {cs : List ℝ} {θ : SiteEnv ℝ}
  (hz : UsualSizes kind cs (usedEffects kind m) θ)
include hU hU' hfit hfit' hE hz

theorem grown_sizes :
    UsualSizes kind cs (usedEffects kind m') (grown kind (usedEffects kind m) (usedEffects kind m') θ) := by
  have hn' := used_nodup hU' hfit'
  refine ⟨?_, ?_, ?_⟩
  · have h := hz.trend
    obtain ⟨h1, h2⟩ := h
    exact ⟨by rw [grown_other fun a => coefs_site_ne _ (by decide)]; exact h1,
      by rw [grown_other fun a => coefs_site_ne _ (by decide)]; exact h2⟩
  · rw [grown_other fun a => coefs_site_ne _ (by decide)]
    exact hz.noise
  · intro fe' h
    rw [grown_coefs hn' h]
    unfold grownCoefs
    split
    · simp
    · rename_i fe hf
      obtain ⟨h1, h2, h3⟩ := found_effect hE hn' h hf
      have h4 := hz.coefs fe h1
      rw [h2] at h4
      split
      · rename_i ss mode sc hk
        rw [h4, hk]
        rfl
      · rename_i mode pr hk
        rw [padded_length, hk]
        rfl

theorem grown_mean {s : PiecewiseState ℝ τ} {row : Row String τ ℝ} (hr : row ∈ y.rows) :
    usualMean position kind days s cs y x' m' (grown kind (usedEffects kind m) (usedEffects kind m') θ) row.time
      = usualMean position kind days s cs y x m θ row.time := by
  have hn := used_nodup hU hfit
  have hn' := used_nodup hU' hfit'
  have ht : usualTrend days s cs (grown kind (usedEffects kind m) (usedEffects kind m') θ) row.time
      = usualTrend days s cs θ row.time := by
    unfold usualTrend
    rw [grown_other fun a => coefs_site_ne _ (by decide), grown_other fun a => coefs_site_ne _ (by decide)]
  unfold usualMean
  rw [ht]
  congr 1
  rw [← sum_found FittedEffect.name _ hn' hn fun fe hfe => by
    obtain ⟨fe', h, e, -⟩ := hE.effects fe hfe
    rw [← e]
    exact List.mem_map_of_mem h]
  refine congrArg List.sum (List.map_congr_left fun fe' h => ?_)
  rw [grown_coefs hn' h]
  unfold grownCoefs
  split
  · rename_i hf
    rw [hf]
    simp only [Option.map_none, Option.getD_none]
    have h0 : ∀ (l : List ℝ) n, Tensor.dot l (List.replicate n (0 : ℝ)) = 0 := by
      intro l n
      unfold Tensor.dot
      induction l generalizing n with
      | nil => simp
      | cons a l ih =>
        cases n with
        | zero => simp
        | succ n => simp [List.replicate_succ, ih n]
    rw [h0]
    unfold combine
    split <;> simp
  · rename_i fe hf
    rw [hf]
    simp only [Option.map_some, Option.getD_some]
    obtain ⟨h1, h2, h3⟩ := found_effect hE hn' h hf
    have h4 := hz.coefs fe h1
    rw [h2] at h4 ⊢
    congr 1
    split
    · rename_i ss mode sc hk
      rw [hk]
      rfl
    · rename_i mode pr hk
      rw [hk] at h4 ⊢
      simp only [EffectKind.features]
      rw [dot_padded h3 (hE.nodup fe' h) h4]
      congr 1
      exact List.map_congr_left fun a ha => hE.values fe h1 a ha row hr

theorem grown_priors (f : String → ℝ → ℝ) :
    ((usedEffects kind m').map fun fe =>
        ((grown kind (usedEffects kind m) (usedEffects kind m') θ (fe.name ++ "/coefs")).data.map (f fe.name)).sum
          - ((kind fe.name).size fe.cols : ℝ) * f fe.name 0).sum
      = ((usedEffects kind m).map fun fe => ((θ (fe.name ++ "/coefs")).data.map (f fe.name)).sum
          - ((kind fe.name).size fe.cols : ℝ) * f fe.name 0).sum := by
  have hn := used_nodup hU hfit
  have hn' := used_nodup hU' hfit'
  rw [← sum_found FittedEffect.name _ hn' hn fun fe hfe => by
    obtain ⟨fe', h, e, -⟩ := hE.effects fe hfe
    rw [← e]
    exact List.mem_map_of_mem h]
  refine congrArg List.sum (List.map_congr_left fun fe' h => ?_)
  rw [grown_coefs hn' h]
  unfold grownCoefs
  split
  · rename_i hf
    rw [hf]
    simp
  · rename_i fe hf
    rw [hf]
    simp only [Option.map_some, Option.getD_some]
    obtain ⟨h1, h2, h3⟩ := found_effect hE hn' h hf
    have h4 := hz.coefs fe h1
    rw [h2] at h4 ⊢
    split
    · rename_i ss mode sc hk
      rw [hk]
      rfl
    · rename_i mode pr hk
      rw [hk] at h4 ⊢
      simp only [EffectKind.size] at h4 ⊢
      rw [sum_padded h3 (hE.nodup fe' h) h4]
      ring

end

section
variable {τ : Type} [LinearOrder τ]
variable {position : τ → ℤ} {compile : String → PyM (String → Bool)}
  {order : List String → List String} {days : τ → ℝ}
  {p : PiecewiseParams ℝ τ} {kind : String → EffectKind}
  {cfg cfg' : UniConfig (UsualAttrs τ) (Scale ℝ) τ ℝ (AnyData ℝ) ℝ} {y : Frame String τ ℝ} {c : String}
  {X X' : Option (Frame String τ ℝ)} {x x' : Frame String τ ℝ}
  {m m' : UniFit (UsualAttrs τ) (Scale ℝ) τ ℝ (AnyData ℝ) ℝ}

/-- The trend depends on the history only. -/
theorem same_trend (hU : Usual position compile order days suggestLinear p kind cfg)
    (hU' : Usual position compile order days suggestLinear p kind cfg')
    (hd : cfg'.discrete = cfg.discrete) (hsc : cfg'.scale = cfg.scale)
    (hfit : uniFitData cfg y X = .ok m) (hfit' : uniFitData cfg' y X' = .ok m') {s : PiecewiseState ℝ τ}
    (hs : m.trend.st.2 = .piecewise (some s)) : m'.trend.st.2 = .piecewise (some s) := by
  have h := uniFitData_trend hfit
  have h' := uniFitData_trend hfit'
  rw [hU.trend] at h
  rw [hU'.trend, hd, hsc] at h'
  obtain ⟨e, he, hem⟩ := embed_fit_ok h
  obtain ⟨e', he', hem'⟩ := embed_fit_ok h'
  obtain ⟨-, s1, hs1, hp1⟩ := piecewise_fit_state he
  obtain ⟨-, s2, hs2, hp2⟩ := piecewise_fit_state he'
  rw [hem] at hs
  simp only [EffectObj.embed, hs1] at hs
  cases hs
  rw [hp1] at hp2
  cases hp2
  rw [hem']
  simp only [EffectObj.embed, hs2]
  rfl

/-! ## The theorems -/

section
variable (hU : Usual position compile order days suggestLinear p kind cfg)
  (hU' : Usual position compile order days suggestLinear p kind cfg') (hp : Starts p)
  (hd : cfg'.discrete = cfg.discrete) (hsc : cfg'.scale = cfg.scale)
  (hT : Training cfg y c X x) (hT' : Training cfg' y c X' x')
  (hfit : uniFitData cfg y X = .ok m) (hfit' : uniFitData cfg' y X' = .ok m')
  {b : ℝ} (hb : p.priorScale = .scalar b)
  (hw : ∀ n ss mode s, kind n = .seasonal ss mode s → waves ss ≠ [])
  (hE : FitExtends kind y x x' m m')
  {s : PiecewiseState ℝ τ} {cs : List ℝ} (hs : m.trend.st.2 = .piecewise (some s)) (hcs : s.cps = [cs])
include hU hU' hp hd hsc hT hT' hfit hfit' hb hw hE hs hcs

/-- Whatever the smaller model can do, the larger one can do as well: parameters with the same trend and
the same mean at every date of the history, and a log posterior that differs by the log prior of the
additional coefficients, all zero. -/
theorem C128_contains (lik : Likelihood) (ns scale os : ℝ) {θ : SiteEnv ℝ} {L : ℝ}
    (hz : UsualSizes kind cs (usedEffects kind m) θ) (hL : usualDensity kind lik ns scale os m θ = .ok L) :
    ∃ θ', UsualSizes kind cs (usedEffects kind m') θ' ∧ θ' "offset" = θ "offset" ∧
      θ' "changepoint_coefficients" = θ "changepoint_coefficients" ∧ θ' "noise_scale" = θ "noise_scale" ∧
      (∀ row ∈ y.rows, usualMean position kind days s cs y x' m' θ' row.time
        = usualMean position kind days s cs y x m θ row.time) ∧
      usualDensity kind lik ns scale os m' θ' = .ok (L - zeroPrior kind m + zeroPrior kind m') := by
  have hs' := same_trend hU hU' hd hsc hfit hfit' hs
  have hz' := grown_sizes hU hU' hfit hfit' hE hz
  have hmean := fun row (hr : row ∈ y.rows) => grown_mean (days := days) (s := s) hU hU' hfit hfit' hE hz hr
  have hpri := grown_priors hU hU' hfit hfit' hE hz fun n => (kind n).prior
  have e0 : grown kind (usedEffects kind m) (usedEffects kind m') θ "offset" = θ "offset" :=
    grown_other fun a => coefs_site_ne _ (by decide)
  have e1 : grown kind (usedEffects kind m) (usedEffects kind m') θ "changepoint_coefficients"
      = θ "changepoint_coefficients" := grown_other fun a => coefs_site_ne _ (by decide)
  have e2 : grown kind (usedEffects kind m) (usedEffects kind m') θ "noise_scale" = θ "noise_scale" :=
    grown_other fun a => coefs_site_ne _ (by decide)
  refine ⟨_, hz', e0, e1, e2, hmean, ?_⟩
  obtain ⟨s1, cs1, hs1, hcs1, hF⟩ := usual_formula_any hU hT hfit hb
  rw [hs] at hs1
  cases hs1
  rw [hcs] at hcs1
  cases hcs1
  obtain ⟨s1, cs1, hs1, hcs1, hF'⟩ := usual_formula_any hU' hT' hfit' hb
  rw [hs'] at hs1
  cases hs1
  rw [hcs] at hcs1
  cases hcs1
  obtain ⟨s1, cs1, hs1, hcs1, hD⟩ := C95_defined hU' hT' hfit' hb hw
  rw [hs'] at hs1
  cases hs1
  rw [hcs] at hcs1
  cases hcs1
  obtain ⟨L', hL'⟩ := hD (usual_offset hU' hp hT' hfit' hs').1 (usual_offset hU' hp hT' hfit' hs').2 lik ns scale os _ hz'
  obtain ⟨μ, hμ, h⟩ := hF lik ns scale os θ L hz.trend hL
  obtain ⟨μ', hμ', h'⟩ := hF' lik ns scale os _ L' hz'.trend hL'
  rw [hμ] at hμ'
  cases hμ'
  have hL2 : usualDensity kind lik ns scale os m' (grown kind (usedEffects kind m) (usedEffects kind m') θ) = .ok L' := hL'
  rw [hL2]
  congr 1
  have hobs : (y.rows.map fun row => obsLog lik
        (siteScalar (grown kind (usedEffects kind m) (usedEffects kind m') θ) "noise_scale") scale
        (usualMean position kind days s cs y x' m' (grown kind (usedEffects kind m) (usedEffects kind m') θ) row.time)
        (row.val c)).sum
      = (y.rows.map fun row => obsLog lik (siteScalar θ "noise_scale") scale
        (usualMean position kind days s cs y x m θ row.time) (row.val c)).sum := by
    refine congrArg List.sum (List.map_congr_left fun row hr => ?_)
    rw [hmean row hr, siteScalar, siteScalar, e2]
  unfold usualMean at hobs
  rw [hobs, e0, e1, siteScalar, e2] at h'
  rw [sum_map_minus, sum_map_minus] at hpri
  unfold zeroPrior
  rw [h', h, siteScalar]
  linarith

/-- **C128.** With one more effect or column the best fit is at least as probable, up to the prior of
additional coefficients that are zero. -/
theorem C128_best {lik : Likelihood} {ns scale os : ℝ} {N : ℝ → Prop} {θ θ' : SiteEnv ℝ} {L L' : ℝ}
    (hθ : BestIn kind lik cs ns scale os N m θ L) (hθ' : BestIn kind lik cs ns scale os N m' θ' L') :
    L - zeroPrior kind m ≤ L' - zeroPrior kind m' := by
  obtain ⟨θ₁, h1, -, -, h4, -, h6⟩ := C128_contains hU hU' hp hd hsc hT hT' hfit hfit' hb hw hE hs hcs lik ns scale os hθ.1 hθ.2.2.1
  have := hθ'.2.2.2 θ₁ _ h1 (by rw [siteScalar, h4]; exact hθ.2.1) h6
  linarith

/-- With normal priors and noise level `σ`: squared error plus price never grow, and the squared error
exceeds that of the smaller model by at most the price the smaller model pays. -/
theorem C128_squares {sd : String → ℝ} (hk : ∀ fe ∈ usedEffects kind m, (kind fe.name).prior = normalLP 0 (sd fe.name))
    (hk' : ∀ fe ∈ usedEffects kind m', (kind fe.name).prior = normalLP 0 (sd fe.name))
    {μ : ℝ} (hμ : s.offsetLoc = [μ]) (hb0 : 0 ≤ b) {ns scale os σ : ℝ} (hσ : σ ≠ 0) {θ θ' : SiteEnv ℝ} {L L' : ℝ}
    (hθ : BestIn kind .normal cs ns scale os (· = σ) m θ L)
    (hθ' : BestIn kind .normal cs ns scale os (· = σ) m' θ' L') :
    squaredError position kind days s cs y c x' m' θ' + σ ^ 2 * price kind m' μ os b sd θ'
        ≤ squaredError position kind days s cs y c x m θ + σ ^ 2 * price kind m μ os b sd θ ∧
      squaredError position kind days s cs y c x' m' θ'
        ≤ squaredError position kind days s cs y c x m θ + σ ^ 2 * price kind m μ os b sd θ := by
  have hs' := same_trend hU hU' hd hsc hfit hfit' hs
  have hz := hθ.1
  have hz' := grown_sizes hU hU' hfit hfit' hE hz
  have hmean := fun row (hr : row ∈ y.rows) => grown_mean (days := days) (s := s) hU hU' hfit hfit' hE hz hr
  have hpri := grown_priors hU hU' hfit hfit' hE hz fun n v => v ^ 2 / sd n ^ 2
  have e0 : grown kind (usedEffects kind m) (usedEffects kind m') θ "offset" = θ "offset" :=
    grown_other fun a => coefs_site_ne _ (by decide)
  have e1 : grown kind (usedEffects kind m) (usedEffects kind m') θ "changepoint_coefficients"
      = θ "changepoint_coefficients" := grown_other fun a => coefs_site_ne _ (by decide)
  have e2 : grown kind (usedEffects kind m) (usedEffects kind m') θ "noise_scale" = θ "noise_scale" :=
    grown_other fun a => coefs_site_ne _ (by decide)
  have hprice : price kind m' μ os b sd (grown kind (usedEffects kind m) (usedEffects kind m') θ)
      = price kind m μ os b sd θ := by
    unfold price
    rw [e0, e1]
    congr 1
    simpa only [ne_eq, OfNat.ofNat_ne_zero, not_false_eq_true, zero_pow, zero_mul, mul_zero, sub_zero,
      div_eq_mul_inv, List.sum_map_mul_right] using hpri
  have hse : squaredError position kind days s cs y c x' m' (grown kind (usedEffects kind m) (usedEffects kind m') θ)
      = squaredError position kind days s cs y c x m θ := by
    unfold squaredError
    refine congrArg List.sum (List.map_congr_left fun row hr => ?_)
    rw [hmean row hr]
  have hN : siteScalar (grown kind (usedEffects kind m) (usedEffects kind m') θ) "noise_scale" = σ := by
    rw [siteScalar, e2]
    exact hθ.2.1
  have h1 := (C125_penalised hU' hp hT' hfit' hb hw hk' hs' hcs hμ hσ hθ'.1 hθ'.2.1).1 ⟨L', hθ'⟩ _ hz' hN
  have h2 := (C125_oracle hU' hp hT' hfit' hb hw hk' hs' hcs hμ hb0 hσ hθ' hz' hN).1
  rw [hprice, hse] at h1 h2
  exact ⟨h1, h2⟩

end

/-! ## Which forecasters extend others -/

theorem matchColumns_sub {compile : String → PyM (String → Bool)} {cols cols' r : List String}
    {regex : Option String} (hsub : cols.Sublist cols') (h : matchColumns compile cols regex = .ok r) :
    ∃ r', matchColumns compile cols' regex = .ok r' ∧ r.Sublist r' ∧ ∀ a ∈ r', a ∈ cols → a ∈ r := by
  unfold matchColumns at h ⊢
  cases regex with
  | none =>
    cases h
    exact ⟨_, rfl, List.Sublist.refl _, fun a ha => by simp at ha⟩
  | some re =>
    simp only [Bind.bind, Except.bind, pure, Except.pure] at h ⊢
    cases hc : compile re with
    | error e => rw [hc] at h; cases h
    | ok q =>
      rw [hc] at h
      cases h
      exact ⟨_, rfl, hsub.filter _, fun a ha hac => List.mem_filter.2 ⟨hac, (List.mem_filter.1 ha).2⟩⟩

theorem remaining_sublist {cols cols' taken taken' : List String} (hsub : cols.Sublist cols') (hn : cols'.Nodup)
    (ht : ∀ a ∈ cols, a ∉ taken → a ∉ taken') :
    (remainingColumns cols taken).Sublist (remainingColumns cols' taken') := by
  have hn1 : (remainingColumns cols taken).Nodup :=
    (remaining_perm cols taken).nodup_iff.2 ((hn.sublist hsub).filter _)
  refine List.sublist_of_subperm_of_pairwise (r := (· ≤ ·)) (List.subperm_of_subset hn1 fun a ha => ?_)
    (List.pairwise_insertionSort _ _) (List.pairwise_insertionSort _ _)
  rw [mem_remaining] at ha ⊢
  exact ⟨hsub.subset ha.1, ht a ha.1 ha.2⟩

/-- A forecaster with further effects, on data with further columns: the effects of the first with their
names and expressions are all there, and the further effects leave the columns alone that no effect of the
first selects. -/
structure AddsTo (cfg cfg' : UniConfig (UsualAttrs τ) (Scale ℝ) τ ℝ (AnyData ℝ) ℝ) (y x x' : Frame String τ ℝ) :
    Prop where
  compile : cfg'.compile = cfg.compile
  effects : ∀ e ∈ cfg.effects, ∃ e' ∈ cfg'.effects, e'.name = e.name ∧ e'.regex = e.regex
  columns : x.cols.Sublist x'.cols
  nodup : x'.cols.Nodup
  values : ∀ a ∈ x.cols, ∀ row ∈ y.rows, rowAt x' row.time a = rowAt x row.time a
  leftover : ∀ a ∈ x.cols, (∀ e ∈ cfg.effects, ∀ r, matchColumns cfg.compile x.cols e.regex = .ok r → a ∉ r) →
    ∀ e' ∈ cfg'.effects, ∀ r, matchColumns cfg.compile x'.cols e'.regex = .ok r → a ∉ r

theorem forall₂_mem {α β : Type} {R : α → β → Prop} {a : α} : ∀ {l : List α} {l' : List β},
    List.Forall₂ R l l' → a ∈ l → ∃ b ∈ l', R a b
  | _, _, .nil, h => by simp at h
  | _, _, .cons hr hl, h => by
    rcases List.mem_cons.1 h with rfl | h
    · exact ⟨_, List.mem_cons_self .., hr⟩
    · obtain ⟨b, hb, h⟩ := forall₂_mem hl h
      exact ⟨b, List.mem_cons_of_mem _ hb, h⟩

/-- Fits of such forecasters extend one another. -/
theorem C128_added (hU' : Usual position compile order days suggestLinear p kind cfg')
    (hT : Training cfg y c X x) (hT' : Training cfg' y c X' x')
    (hfit : uniFitData cfg y X = .ok m) (hfit' : uniFitData cfg' y X' = .ok m')
    (hA : AddsTo cfg cfg' y x x') : FitExtends kind y x x' m m' := by
  obtain ⟨yT, x0, x1, -, -, hx0, hx, -, hfe, -⟩ := uniFitData_ok hfit
  obtain ⟨x0', hx0', hx'⟩ := hT.features
  rw [hx0] at hx0'
  cases hx0'
  rw [hx] at hx'
  cases hx'
  obtain ⟨yT', z0, z1, -, -, hz0, hz, -, hfe', -⟩ := uniFitData_ok hfit'
  obtain ⟨z0', hz0', hz'⟩ := hT'.features
  rw [hz0] at hz0'
  cases hz0'
  rw [hz] at hz'
  cases hz'
  rw [hA.compile] at hfe'
  obtain ⟨fes, hf, -, hcase⟩ := fitEffects_ok.1 hfe
  obtain ⟨fes', hf', -, hcase'⟩ := fitEffects_ok.1 hfe'
  have hkey : ∀ fe ∈ fes, ∃ fe' ∈ fes', fe'.name = fe.name ∧ fe.cols.Sublist fe'.cols := by
    intro fe hfe
    obtain ⟨e, he, hn, hm, -⟩ := exists_of_forall₂ hf hfe
    obtain ⟨e', he', hn', hr'⟩ := hA.effects e he
    obtain ⟨fe', hfe', hn2, hm2, -⟩ := forall₂_mem hf' he'
    obtain ⟨r', hr, hsub, -⟩ := matchColumns_sub hA.columns hm
    rw [hr', hr] at hm2
    cases hm2
    exact ⟨fe', hfe', by rw [hn2, hn', hn], hsub⟩
  have hleft : ∀ a ∈ x.cols, a ∉ fes.flatMap FittedEffect.cols → a ∉ fes'.flatMap FittedEffect.cols := by
    intro a ha hna hna'
    obtain ⟨fe', hfe', hfa⟩ := List.mem_flatMap.1 hna'
    obtain ⟨e', he', -, hm', -⟩ := exists_of_forall₂ hf' hfe'
    refine hA.leftover a ha ?_ e' he' _ hm' hfa
    intro e he r hr har
    obtain ⟨fe, hfe, -, hm, -⟩ := forall₂_mem hf he
    rw [hr] at hm
    cases hm
    exact hna (List.mem_flatMap.2 ⟨fe, hfe, har⟩)
  have hrem := remaining_sublist hA.columns hA.nodup hleft
  have hincl : ∀ fe ∈ m.fitted, fe.cols ⊆ x.cols := by
    have h1 : ∀ fe ∈ fes, fe.cols ⊆ x.cols := by
      intro fe hfe
      obtain ⟨e, he, -, hm, -⟩ := exists_of_forall₂ hf hfe
      exact (matchColumns_sublist hm).subset
    rcases hcase with ⟨-, h⟩ | ⟨eff, -, -, h⟩ <;> rw [h]
    · exact h1
    · intro fe hfe
      rcases List.mem_append.1 hfe with h3 | h3
      · exact h1 fe h3
      · cases List.mem_singleton.1 h3
        intro a ha
        exact (mem_remaining.1 ha).1
  have hnod : ∀ fe ∈ m'.fitted, fe.cols.Nodup := by
    have h1 : ∀ fe ∈ fes', fe.cols.Nodup := by
      intro fe hfe
      obtain ⟨e, he, -, hm, -⟩ := exists_of_forall₂ hf' hfe
      exact hA.nodup.sublist (matchColumns_sublist hm)
    rcases hcase' with ⟨-, h⟩ | ⟨eff, -, -, h⟩ <;> rw [h]
    · exact h1
    · intro fe hfe
      rcases List.mem_append.1 hfe with h3 | h3
      · exact h1 fe h3
      · cases List.mem_singleton.1 h3
        exact (remaining_perm _ _).nodup_iff.2 (hA.nodup.filter _)
  have hall : ∀ fe ∈ m.fitted, (kind fe.name).used fe.cols = true →
      ∃ fe' ∈ m'.fitted, fe'.name = fe.name ∧ fe.cols.Sublist fe'.cols := by
    have h1 : ∀ fe ∈ fes, ∃ fe' ∈ m'.fitted, fe'.name = fe.name ∧ fe.cols.Sublist fe'.cols := by
      intro fe hfe
      obtain ⟨fe', hfe', h⟩ := hkey fe hfe
      refine ⟨fe', ?_, h⟩
      rcases hcase' with ⟨-, h⟩ | ⟨eff, -, -, h⟩ <;> rw [h]
      · exact hfe'
      · exact List.mem_append_left _ hfe'
    rcases hcase with ⟨-, h⟩ | ⟨eff, hne, -, h⟩ <;> rw [h]
    · exact fun fe hfe _ => h1 fe hfe
    · intro fe hfe _
      rcases List.mem_append.1 hfe with h3 | h3
      · exact h1 fe h3
      · cases List.mem_singleton.1 h3
        rcases hcase' with ⟨h0, -⟩ | ⟨eff', -, -, h'⟩
        · rw [h0, List.sublist_nil] at hrem
          exact absurd hrem hne
        · rw [h']
          exact ⟨_, List.mem_append_right _ (List.mem_singleton_self _), rfl, hrem⟩
  refine ⟨?_, ?_, ?_⟩
  · intro fe hfe
    obtain ⟨h1, h2⟩ := List.mem_filter.1 hfe
    obtain ⟨fe', h3, h4, h5⟩ := hall fe h1 h2
    refine ⟨fe', List.mem_filter.2 ⟨h3, ?_⟩, h4, h5⟩
    rw [h4]
    cases hk : kind fe.name with
    | seasonal => rfl
    | linear mode pr =>
      rw [hk] at h2
      simp only [EffectKind.used, Bool.not_eq_true', List.isEmpty_eq_false_iff] at h2 ⊢
      intro h6
      rw [h6, List.sublist_nil] at h5
      exact h2 h5
  · intro fe hfe a ha row hr
    exact hA.values a (hincl fe (List.mem_filter.1 hfe).1 ha) row hr
  · intro fe hfe
    exact hnod fe (List.mem_filter.1 hfe).1

end

/-! ## Example

Observations 1, 3, 4 at the days 0, 1, 2.  First a trend and the column `a`, then also a weekly seasonality
and the columns `b` and `e`. -/

noncomputable section

def exCfg128 : UniConfig (UsualAttrs ℤ) (Scale ℝ) ℤ ℝ (AnyData ℝ) ℝ := { exCfg96 with effects := [] }

def exX128 : Frame String ℤ ℝ := { exX97 with cols := ["a"] }

theorem exUsual128 : Usual id someCompile id (fun n : ℤ => (n : ℝ)) suggestLinear exP85 exKind96 exCfg128 where
  trend := rfl
  squeeze := rfl
  interval := ⟨1, rfl⟩
  range := ⟨1, rfl⟩
  effects := by
    intro e he
    cases he
  default := rfl
  nodup := by simp [exCfg128]
  reserved := by simp [exCfg128]
  notTrend := by simp [exCfg128]

theorem exTraining128 : Training exCfg128 exY85 "y" (some exX128) exX128 where
  flat := rfl
  column := rfl
  sorted := by simp [exY85]
  some := by simp [exY85]
  features := ⟨exX128, rfl, by
    unfold Frame.locTimes
    rw [if_pos (by simp [exX128, exX97, exY85, Frame.times])]
    simp [exX128, exX97, exY85, Frame.times]⟩
  dates := ⟨rfl, by simp [exX128, exX97], by simp [exY85, Frame.times],
    by simp [exX128, exX97, exY85, Frame.times], by simp [exX128, exX97]⟩

theorem exValid128 : ValidParams exP85 exKind96 exCfg128 where
  interval := exValid123.interval
  range := exValid123.range
  plain := exValid123.plain
  seasons := exValid123.seasons
  regexes := by
    intro e he
    cases he

theorem exAdds128 : AddsTo exCfg128 exCfg96 exY85 exX128 exX97 where
  compile := rfl
  effects := by
    intro e he
    cases he
  columns := by simp [exX128, exX97]
  nodup := by simp [exX97]
  values := fun a _ row _ => rfl
  leftover := by
    intro a ha _ e' he' r hr
    cases List.mem_singleton.1 he'
    cases hr
    simp

example : ∃ m m' s cs θ L θ' L', uniFitData exCfg128 exY85 (some exX128) = .ok m ∧
    uniFitData exCfg96 exY85 (some exX97) = .ok m' ∧ m.trend.st.2 = .piecewise (some s) ∧ s.cps = [cs] ∧
    BestIn exKind96 .normal cs (1 / 20) 1 (1 / 10) (· = 1 / 20) m θ L ∧
    BestIn exKind96 .normal cs (1 / 20) 1 (1 / 10) (· = 1 / 20) m' θ' L' ∧
    L - zeroPrior exKind96 m ≤ L' - zeroPrior exKind96 m' ∧
    squaredError id exKind96 (fun n : ℤ => (n : ℝ)) s cs exY85 "y" exX97 m' θ'
        + (1 / 20) ^ 2 * price exKind96 m' 1 (1 / 10) 2 exSd125 θ'
      ≤ squaredError id exKind96 (fun n : ℤ => (n : ℝ)) s cs exY85 "y" exX128 m θ
        + (1 / 20) ^ 2 * price exKind96 m 1 (1 / 10) 2 exSd125 θ := by
  have hmono : StrictMono fun n : ℤ => (n : ℝ) := fun _ _ h => Int.cast_lt.2 h
  obtain ⟨m, hm⟩ := C98_fits exUsual128 exValid128 hmono exTraining128 (by simp [exY85]) (by rintro _ ⟨⟩ a ha; exact ha)
  obtain ⟨m', hm'⟩ := C98_fits exUsual96 exValid123 hmono exTraining123 (by simp [exY85]) (by rintro _ ⟨⟩ a ha; exact ha)
  obtain ⟨s, cs, hs, hcs, -⟩ := usual_coords exUsual128 exTraining128 hm (b := 2) rfl exWaves123
  have hs' := same_trend exUsual128 exUsual96 rfl rfl hm hm' hs
  have hpc : ∀ n, Continuous (exKind96 n).prior := fun n => by
    rw [exPrior125]
    exact continuous_normalLP _ _
  have hpt : ∀ n, Tendsto (exKind96 n).prior (cocompact ℝ) atBot := fun n => by
    rw [exPrior125]
    exact tendsto_normalLP _ (by unfold exSd125; split <;> norm_num)
  obtain ⟨θ, L, hθ⟩ := bestIn_exists exUsual128 (.inl rfl) exTraining128 hm (b := 2) rfl (by norm_num) exWaves123 hpc hpt hs hcs
    (1 / 20) 1 (1 / 20) (os := 1 / 10) (by norm_num)
  obtain ⟨θ', L', hθ'⟩ := bestIn_exists exUsual96 (.inl rfl) exTraining123 hm' (b := 2) rfl (by norm_num) exWaves123 hpc hpt hs' hcs
    (1 / 20) 1 (1 / 20) (os := 1 / 10) (by norm_num)
  have hE := C128_added exUsual96 exTraining128 exTraining123 hm hm' exAdds128
  have hμ : s.offsetLoc = [1] := by
    have := first_location exUsual128 rfl rfl hmono exTraining128 (by simp [exY85]) hm hs
    simpa [exY85] using this
  exact ⟨m, m', s, cs, θ, L, θ', L', hm, hm', hs, hcs, hθ, hθ',
    C128_best exUsual128 exUsual96 (.inl rfl) rfl rfl exTraining128 exTraining123 hm hm' rfl exWaves123 hE hs hcs hθ hθ',
    (C128_squares exUsual128 exUsual96 (.inl rfl) rfl rfl exTraining128 exTraining123 hm hm' rfl exWaves123 hE hs hcs
      (fun fe _ => exPrior125 fe.name) (fun fe _ => exPrior125 fe.name) hμ (by norm_num) (by norm_num) hθ hθ').1⟩

end
end PV
