import Verif.Props.BestNoise
import Verif.Props.PriorOnly

/-!
# C109: names, order and grouping of effects and columns are irrelevant
-/

set_option linter.unusedSectionVars false

namespace PV
open Tensor

/-! ## Specification -/

section
variable {τ : Type}

/-- One summand of the model: a feature (a number for every date, given the columns of `X` there), and
mode and log prior of its coefficient. -/
structure Term (τ : Type) where
  feature : τ → (String → ℝ) → ℝ
  mode : String
  prior : ℝ → ℝ

/-- The summands of an effect: the waves of a seasonality, the columns of a linear effect. -/
noncomputable def EffectKind.terms (position : τ → ℤ) (p0 : ℤ) (cols : List String) :
    EffectKind → List (Term τ)
  | .seasonal ss mode s => (unique ((waves ss).map Wave.name)).map fun w =>
      ⟨fun t _ => waveAt (waves ss) (position t - p0) w, mode, normalLP 0 s⟩
  | .linear mode prior => cols.map fun c => ⟨fun _ r => r c, mode, prior⟩

end

section
variable {τ : Type} [LinearOrder τ]

/-- The summands of a fitted model, effect by effect. -/
noncomputable def modelTerms (position : τ → ℤ) (p0 : ℤ) (kind : String → EffectKind)
    (m : UniFit (UsualAttrs τ) (Scale ℝ) τ ℝ (AnyData ℝ) ℝ) : List (Term τ) :=
  (usedEffects kind m).flatMap fun fe => (kind fe.name).terms position p0 fe.cols

/-- Their coefficients. -/
noncomputable def modelCoefs (kind : String → EffectKind)
    (m : UniFit (UsualAttrs τ) (Scale ℝ) τ ℝ (AnyData ℝ) ℝ) (θ : SiteEnv ℝ) : List ℝ :=
  (usedEffects kind m).flatMap fun fe => (θ (fe.name ++ "/coefs")).data

/-- A summand of one model and one of another that stand for the same thing: where the coefficient of
the first is `b` that of the second is `b / factor`, and the log prior changes by `const`. -/
structure Match (τ : Type) where
  fst : Term τ
  snd : Term τ
  factor : ℝ
  const : ℝ

/-- The modes agree and the priors belong to corresponding coefficients. -/
structure Match.Valid (a : Match τ) : Prop where
  mode : a.snd.mode = a.fst.mode
  nonzero : a.factor ≠ 0
  prior : ∀ b, a.snd.prior (b / a.factor) = a.fst.prior b + a.const

/-- Corresponding coefficients give the same contribution at `t`, where the columns of `X` are `r₁` resp.
`r₂`. -/
def Match.At (a : Match τ) (t : τ) (r₁ r₂ : String → ℝ) : Prop :=
  a.snd.feature t r₂ = a.factor * a.fst.feature t r₁

/-- Two models have matching summands, in whatever order. -/
structure MatchedBy (M : List (Match τ)) (T₁ T₂ : List (Term τ)) : Prop where
  fst : T₁.Perm (M.map Match.fst)
  snd : T₂.Perm (M.map Match.snd)
  valid : ∀ a ∈ M, a.Valid

/-- Parameters of two models that correspond to each other: the same offset, changepoints and noise,
and matching coefficients `bs` resp. `bs / factor`. -/
structure Corresponds (M : List (Match τ)) (T₁ T₂ : List (Term τ)) (b₁ b₂ : List ℝ)
    (θ₁ θ₂ : SiteEnv ℝ) : Prop where
  offset : θ₂ "offset" = θ₁ "offset"
  changepoints : θ₂ "changepoint_coefficients" = θ₁ "changepoint_coefficients"
  noise : θ₂ "noise_scale" = θ₁ "noise_scale"
  coefs : ∃ bs : List ℝ, bs.length = M.length ∧
    (T₁.zip b₁).Perm ((M.map Match.fst).zip bs) ∧
    (T₂.zip b₂).Perm ((M.map Match.snd).zip (List.zipWith (fun a b => b / a.factor) M bs))

end

section
variable {τ : Type}

/-! ## Sums over summands -/

theorem zip_flatMap {α β γ : Type} {f : α → List β} {g : α → List γ} : ∀ {l : List α},
    (∀ a ∈ l, (f a).length = (g a).length) →
    (l.flatMap f).zip (l.flatMap g) = l.flatMap fun a => (f a).zip (g a)
  | [], _ => rfl
  | a :: l, h => by
    simp only [List.flatMap_cons]
    rw [List.zip_append (h a (by simp)), zip_flatMap fun b hb => h b (by simp [hb])]

theorem sum_flatMap {α β : Type} (f : α → List β) (g : β → ℝ) : ∀ l : List α,
    ((l.flatMap f).map g).sum = (l.map fun a => ((f a).map g).sum).sum
  | [] => rfl
  | a :: l => by simp [List.flatMap_cons, sum_flatMap f g l]

theorem combine_add (mode : String) (a u v : ℝ) :
    combine mode a (u + v) = combine mode a u + combine mode a v := by
  unfold combine
  split
  · rfl
  · ring

theorem combine_zero (mode : String) (a : ℝ) : combine mode a 0 = 0 := by
  unfold combine
  split <;> simp

theorem terms_length (k : EffectKind) (position : τ → ℤ) (p0 : ℤ) (cols : List String) :
    (k.terms position p0 cols).length = k.size cols := by
  cases k <;> simp [EffectKind.terms, EffectKind.size]

/-- The contribution of an effect is the sum of its summands. -/
theorem value_terms (k : EffectKind) (position : τ → ℤ) (p0 : ℤ) (cols : List String) (θ : SiteEnv ℝ)
    (t : τ) (a : ℝ) (r : String → ℝ) :
    k.value position p0 cols θ t a r = (((k.terms position p0 cols).zip (θ "coefs").data).map
      fun e => combine e.1.mode a (e.1.feature t r * e.2)).sum := by
  have key : ∀ {α : Type} (mode : String) (f : α → ℝ) (T : α → Term τ)
      (_ : ∀ x, (T x).mode = mode ∧ (T x).feature t r = f x) (l : List α) (b : List ℝ),
      combine mode a (dot (l.map f) b)
        = (((l.map T).zip b).map fun e => combine e.1.mode a (e.1.feature t r * e.2)).sum := by
    intro α mode f T hT l
    induction l with
    | nil => intro b; simp [dot, combine_zero]
    | cons x l ih =>
      intro b
      cases b with
      | nil => simp [dot, combine_zero]
      | cons b bs =>
        have := ih bs
        simp only [dot, List.map_cons, List.zipWith_cons_cons, List.sum_cons, List.zip_cons_cons,
          combine_add, (hT x).1, (hT x).2] at this ⊢
        rw [this]
  cases k with
  | seasonal ss mode s =>
    exact key mode (waveAt (waves ss) (position t - p0))
      (fun w => ⟨fun t _ => waveAt (waves ss) (position t - p0) w, mode, normalLP 0 s⟩)
      (fun _ => ⟨rfl, rfl⟩) (unique ((waves ss).map Wave.name)) (θ "coefs").data
  | linear mode prior =>
    exact key mode r (fun c => ⟨fun _ r => r c, mode, prior⟩) (fun _ => ⟨rfl, rfl⟩) cols
      (θ "coefs").data

theorem prior_terms (k : EffectKind) (position : τ → ℤ) (p0 : ℤ) (cols : List String) (b : List ℝ)
    (hb : b.length = k.size cols) :
    (b.map k.prior).sum = (((k.terms position p0 cols).zip b).map fun e => e.1.prior e.2).sum := by
  have key : ∀ {α : Type} (T : α → Term τ) (_ : ∀ x, (T x).prior = k.prior) (l : List α) (b : List ℝ),
      b.length = l.length →
      b.map k.prior = ((l.map T).zip b).map fun e => e.1.prior e.2 := by
    intro α T hT l
    induction l with
    | nil =>
      intro b hb
      rw [List.length_eq_zero_iff.1 hb]
      rfl
    | cons x l ih =>
      intro b hb
      cases b with
      | nil => cases hb
      | cons b bs =>
        simp only [List.map_cons, List.zip_cons_cons, hT x]
        rw [ih bs (by simpa using hb)]
  cases k with
  | seasonal ss mode s => exact congrArg List.sum (key _ (fun _ => rfl) _ _ hb)
  | linear mode prior => exact congrArg List.sum (key _ (fun _ => rfl) _ _ hb)

end

section
variable {τ : Type} [LinearOrder τ] {position : τ → ℤ}
  {compile : String → PyM (String → Bool)} {order : List String → List String}
  {days : τ → ℝ} {suggest : List ℝ → Tensor ℝ → PyM (List ℝ × List ℝ)}
  {p : PiecewiseParams ℝ τ} {kind : String → EffectKind}
  {cfg : UniConfig (UsualAttrs τ) (Scale ℝ) τ ℝ (AnyData ℝ) ℝ} {y : Frame String τ ℝ} {c : String}
  {X : Option (Frame String τ ℝ)} {x : Frame String τ ℝ}
  {m : UniFit (UsualAttrs τ) (Scale ℝ) τ ℝ (AnyData ℝ) ℝ}

theorem sizes_zip {cs : List ℝ} {θ : SiteEnv ℝ} {p0 : ℤ}
    (hsz : UsualSizes kind cs (usedEffects kind m) θ) :
    (modelTerms position p0 kind m).zip (modelCoefs kind m θ)
      = (usedEffects kind m).flatMap fun fe =>
        ((kind fe.name).terms position p0 fe.cols).zip (θ (fe.name ++ "/coefs")).data :=
  zip_flatMap fun fe hfe => by rw [terms_length, hsz.coefs fe hfe]

/-- The contributions of all effects, as a sum over summands. -/
theorem values_terms {cs : List ℝ} {θ : SiteEnv ℝ} {p0 : ℤ}
    (hsz : UsualSizes kind cs (usedEffects kind m) θ) (t : τ) (a : ℝ) (r : String → ℝ) :
    (m.fitted.map fun fe => (kind fe.name).value position p0 fe.cols (θ.scope fe.name) t a r).sum
      = (((modelTerms position p0 kind m).zip (modelCoefs kind m θ)).map
        fun e => combine e.1.mode a (e.1.feature t r * e.2)).sum := by
  rw [sizes_zip hsz, sum_flatMap, ← usual_sum]
  congr 1
  refine List.map_congr_left fun fe _ => ?_
  rw [value_terms, scope_coefs]

theorem priors_terms {cs : List ℝ} {θ : SiteEnv ℝ} {p0 : ℤ}
    (hsz : UsualSizes kind cs (usedEffects kind m) θ) :
    ((usedEffects kind m).map fun fe =>
        ((θ.scope fe.name "coefs").data.map (kind fe.name).prior).sum).sum
      = (((modelTerms position p0 kind m).zip (modelCoefs kind m θ)).map
        fun e => e.1.prior e.2).sum := by
  rw [sizes_zip hsz, sum_flatMap]
  congr 1
  refine List.map_congr_left fun fe hfe => ?_
  rw [scope_coefs]
  exact prior_terms _ _ _ _ _ (hsz.coefs fe hfe)


/-! ## Exchanging coefficients -/

theorem perm_zip {α β : Type} {T T' : List α} (h : T.Perm T') : ∀ {b : List β}, b.length = T.length →
    ∃ b', b'.length = T'.length ∧ (T.zip b).Perm (T'.zip b') := by
  induction h with
  | nil => intro b hb; exact ⟨[], rfl, by simp⟩
  | cons x _ ih =>
    intro b hb
    cases b with
    | nil => simp at hb
    | cons a b =>
      obtain ⟨b', h1, h2⟩ := ih (b := b) (by simpa using hb)
      exact ⟨a :: b', by simpa using h1, by simpa using h2⟩
  | swap x y l =>
    intro b hb
    match b, hb with
    | a :: a' :: b, hb => exact ⟨a' :: a :: b, by simpa using hb, by simpa using List.Perm.swap _ _ _⟩
    | [], hb => simp at hb
    | [_], hb => simp at hb
  | trans _ _ ih1 ih2 =>
    intro b hb
    obtain ⟨b', h1, h2⟩ := ih1 hb
    obtain ⟨b'', h3, h4⟩ := ih2 h1
    exact ⟨b'', h3, h2.trans h4⟩

theorem split_coefs {α : Type} {name : α → String} {size : α → Nat} (θ : SiteEnv ℝ) :
    ∀ {l : List α}, (l.map name).Nodup → ∀ {b : List ℝ}, b.length = (l.map size).sum →
    ∃ θ' : SiteEnv ℝ, (∀ k, '/' ∉ k.toList → θ' k = θ k) ∧
      (∀ a ∈ l, (θ' (name a ++ "/coefs")).data.length = size a) ∧
      (l.flatMap fun a => (θ' (name a ++ "/coefs")).data) = b
  | [], _, b, hb => ⟨θ, fun _ _ => rfl, by simp, by simpa using (List.length_eq_zero_iff.1 hb).symm⟩
  | a :: l, hn, b, hb => by
    simp only [List.map_cons, List.nodup_cons, List.sum_cons] at hn hb
    obtain ⟨θ', h1, h2, h3⟩ := split_coefs (size := size) θ hn.2 (b := b.drop (size a)) (by simp [hb])
    have ho := withCoefs_only θ' (name a) (b.take (size a))
    have hne : ∀ c ∈ l, name c ≠ name a := fun c hc h => hn.1 (h ▸ List.mem_map.2 ⟨c, hc, rfl⟩)
    refine ⟨withCoefs θ' (name a) (b.take (size a)), fun k hk => ?_, ?_, ?_⟩
    · rw [← h1 k hk]
      exact if_neg (prior_name_ne (name a) hk).symm
    · intro c hc
      rcases List.mem_cons.1 hc with rfl | hc
      · rw [withCoefs_data]
        simp [hb]
      · rw [ho.others _ (hne c hc)]
        exact h2 c hc
    · rw [List.flatMap_cons, withCoefs_data]
      have : (l.flatMap fun c => (withCoefs θ' (name a) (b.take (size a)) (name c ++ "/coefs")).data)
          = l.flatMap fun c => (θ' (name c ++ "/coefs")).data := by
        refine List.flatMap_congr fun c hc => ?_
        rw [ho.others _ (hne c hc)]
      rw [this, h3, List.take_append_drop]

theorem sum_matched {M : List (Match τ)} (f g : Term τ → ℝ → ℝ) (k : Match τ → ℝ) :
    ∀ {bs : List ℝ}, bs.length = M.length →
    (∀ a ∈ M, ∀ b, g a.snd (b / a.factor) = f a.fst b + k a) →
    (((M.map Match.snd).zip (List.zipWith (fun a b => b / a.factor) M bs)).map
        fun e => g e.1 e.2).sum
      = (((M.map Match.fst).zip bs).map fun e => f e.1 e.2).sum + (M.map k).sum := by
  induction M with
  | nil => intro bs hb _; simp
  | cons a M ih =>
    intro bs hb h
    cases bs with
    | nil => simp at hb
    | cons b bs =>
      have := ih (bs := bs) (by simpa using hb) fun a' ha' => h a' (by simp [ha'])
      simp only [List.map_cons, List.zipWith_cons_cons, List.zip_cons_cons, List.sum_cons] at this ⊢
      rw [this, h a (by simp)]
      ring

theorem modelCoefs_length {cs : List ℝ} {θ : SiteEnv ℝ} {p0 : ℤ}
    (hsz : UsualSizes kind cs (usedEffects kind m) θ) :
    (modelCoefs kind m θ).length = (modelTerms position p0 kind m).length := by
  unfold modelCoefs modelTerms
  rw [List.length_flatMap, List.length_flatMap]
  congr 1
  refine List.map_congr_left fun fe hfe => ?_
  rw [terms_length, hsz.coefs fe hfe]

theorem usual_state (hU : Usual position compile order days suggest p kind cfg)
    (hfit : uniFitData cfg y X = .ok m) {s : PiecewiseState ℝ τ}
    (hs : m.trend.st.2 = .piecewise (some s)) :
    piecewiseFit days suggest p
      (if cfg.discrete = true then y.mapVals fun _ v => v / cfg.scale else y) = .ok s := by
  have htf := uniFitData_trend hfit
  rw [hU.trend] at htf
  obtain ⟨e, he, he'⟩ := embed_fit_ok htf
  obtain ⟨-, s', hs', hpf⟩ := piecewise_fit_state he
  rw [he'] at hs
  simp only [EffectObj.embed, hs'] at hs
  cases hs
  exact hpf


/-- What a defined log posterior says about the fitted trend. -/
theorem usual_conditions {lik : Likelihood} {ns scale os : ℝ} {θ : SiteEnv ℝ} {L : ℝ}
    {s : PiecewiseState ℝ τ} {cs : List ℝ} (hs : m.trend.st.2 = .piecewise (some s))
    (hθ : SingleSites cs θ) (hL : usualDensity kind lik ns scale os m θ = .ok L) :
    s.offsetLoc.length = 1 ∧ (List.zipWith laplaceLP s.priorLoc s.priorScale).length = cs.length := by
  obtain ⟨r, hr, -, -⟩ := logJoint_split hL
  have htp : ∃ ss, usualTrendPriors os m.trend.st.2 θ m.trendData [] = .ok ss := by
    unfold runMean at hr
    cases ht : usualTrendPriors os m.trend.st.2 θ m.trendData [] with
    | error e => rw [ht] at hr; cases hr
    | ok ss => exact ⟨ss, rfl⟩
  obtain ⟨ss, hss⟩ := htp
  rw [hs] at hss
  simp only [usualTrendPriors, Priors.embed] at hss
  split at hss
  · obtain ⟨⟨o, ho⟩, hlδ⟩ := hθ
    simp only [piecewisePriors, bind, Except.bind, sampleSite] at hss
    split at hss
    · cases hss
    rename_i h1
    split at h1
    · rename_i h2
      split at hss
      · cases hss
      rename_i h3
      split at h3
      · rename_i h4
        refine ⟨?_, ?_⟩
        · rw [ho] at h2
          simpa using h2.symm
        · rw [← h4, hlδ]
      · cases h3
    · cases h1
  · cases hss

variable {compile₁ compile₂ : String → PyM (String → Bool)} {order₁ order₂ : List String → List String}
  {kind₁ kind₂ : String → EffectKind}
  {cfg₁ cfg₂ : UniConfig (UsualAttrs τ) (Scale ℝ) τ ℝ (AnyData ℝ) ℝ}
  {X₁ X₂ : Option (Frame String τ ℝ)} {x₁ x₂ : Frame String τ ℝ}
  {m₁ m₂ : UniFit (UsualAttrs τ) (Scale ℝ) τ ℝ (AnyData ℝ) ℝ}

/-- The trend is fitted to the target alone. -/
theorem usual_same_state (hU₁ : Usual position compile₁ order₁ days suggest p kind₁ cfg₁)
    (hU₂ : Usual position compile₂ order₂ days suggest p kind₂ cfg₂)
    (hfit₁ : uniFitData cfg₁ y X₁ = .ok m₁) (hfit₂ : uniFitData cfg₂ y X₂ = .ok m₂)
    (hd : cfg₂.discrete = cfg₁.discrete) (hsc : cfg₂.scale = cfg₁.scale) {s s' : PiecewiseState ℝ τ}
    (hs : m₁.trend.st.2 = .piecewise (some s)) (hs' : m₂.trend.st.2 = .piecewise (some s')) :
    s' = s := by
  have h1 := usual_state hU₁ hfit₁ hs
  have h2 := usual_state hU₂ hfit₂ hs'
  rw [hd, hsc, h1] at h2
  exact (Except.ok.inj h2).symm

/-- Sums of contributions of corresponding parameters agree at dates where the summands match. -/
theorem corresponds_values {M : List (Match τ)} {cs : List ℝ} {p0 : ℤ} {θ₁ θ₂ : SiteEnv ℝ}
    (hM : MatchedBy M (modelTerms position p0 kind₁ m₁) (modelTerms position p0 kind₂ m₂))
    (hz₁ : UsualSizes kind₁ cs (usedEffects kind₁ m₁) θ₁)
    (hz₂ : UsualSizes kind₂ cs (usedEffects kind₂ m₂) θ₂)
    (hC : Corresponds M (modelTerms position p0 kind₁ m₁) (modelTerms position p0 kind₂ m₂)
      (modelCoefs kind₁ m₁ θ₁) (modelCoefs kind₂ m₂ θ₂) θ₁ θ₂) {t : τ} {r₁ r₂ : String → ℝ}
    (hat : ∀ a ∈ M, a.At t r₁ r₂) (a : ℝ) :
    (m₂.fitted.map fun fe =>
        (kind₂ fe.name).value position p0 fe.cols (θ₂.scope fe.name) t a r₂).sum
      = (m₁.fitted.map fun fe =>
        (kind₁ fe.name).value position p0 fe.cols (θ₁.scope fe.name) t a r₁).sum := by
  obtain ⟨bs, hl, h1, h2⟩ := hC.coefs
  rw [values_terms hz₁, values_terms hz₂, (h1.map _).sum_eq, (h2.map _).sum_eq]
  rw [sum_matched (fun e b => combine e.mode a (e.feature t r₁ * b))
    (fun e b => combine e.mode a (e.feature t r₂ * b)) (fun _ => 0) hl]
  · simp
  · intro k hk b
    have hv := hM.valid k hk
    have h3 := hat k hk
    unfold Match.At at h3
    simp only [add_zero]
    rw [hv.mode, h3]
    congr 1
    have := hv.nonzero
    field_simp

/-- **C109**, **C110**: if the summands of two models match, corresponding parameters have log
posteriors that differ by a constant. -/
theorem C109_posterior (hU₁ : Usual position compile₁ order₁ days suggest p kind₁ cfg₁)
    (hU₂ : Usual position compile₂ order₂ days suggest p kind₂ cfg₂)
    (hT₁ : Training cfg₁ y c X₁ x₁) (hT₂ : Training cfg₂ y c X₂ x₂)
    (hfit₁ : uniFitData cfg₁ y X₁ = .ok m₁) (hfit₂ : uniFitData cfg₂ y X₂ = .ok m₂)
    (hd : cfg₂.discrete = cfg₁.discrete) (hsc : cfg₂.scale = cfg₁.scale) {b : ℝ}
    (hb : p.priorScale = .scalar b) {M : List (Match τ)}
    (hM : MatchedBy M (modelTerms position (firstPosition position y.times) kind₁ m₁)
      (modelTerms position (firstPosition position y.times) kind₂ m₂))
    (hat : ∀ a ∈ M, ∀ t ∈ y.times, a.At t (rowAt x₁ t) (rowAt x₂ t)) :
    ∃ s cs, m₁.trend.st.2 = .piecewise (some s) ∧ m₂.trend.st.2 = .piecewise (some s) ∧ s.cps = [cs] ∧
      ∀ (lik : Likelihood) (ns scale os : ℝ) (θ₁ θ₂ : SiteEnv ℝ) (L₁ L₂ : ℝ),
      UsualSizes kind₁ cs (usedEffects kind₁ m₁) θ₁ → UsualSizes kind₂ cs (usedEffects kind₂ m₂) θ₂ →
      Corresponds M (modelTerms position (firstPosition position y.times) kind₁ m₁)
        (modelTerms position (firstPosition position y.times) kind₂ m₂)
        (modelCoefs kind₁ m₁ θ₁) (modelCoefs kind₂ m₂ θ₂) θ₁ θ₂ →
      usualDensity kind₁ lik ns scale os m₁ θ₁ = .ok L₁ →
      usualDensity kind₂ lik ns scale os m₂ θ₂ = .ok L₂ →
      L₂ = L₁ + (M.map Match.const).sum := by
  obtain ⟨s, cs, hs, hcs, hF⟩ := C95_posterior hU₁ hT₁ hfit₁ hb
  obtain ⟨s', cs', hs', hcs', hF'⟩ := C95_posterior hU₂ hT₂ hfit₂ hb
  cases usual_same_state hU₁ hU₂ hfit₁ hfit₂ hd hsc hs hs'
  rw [hcs] at hcs'
  cases hcs'
  refine ⟨s, cs, hs, hs', hcs, ?_⟩
  intro lik ns scale os θ₁ θ₂ L₁ L₂ hz₁ hz₂ hC hL₁ hL₂
  obtain ⟨μ, hμ, h1⟩ := hF lik ns scale os θ₁ L₁ hz₁.trend hL₁
  obtain ⟨μ', hμ', h2⟩ := hF' lik ns scale os θ₂ L₂ hz₂.trend hL₂
  rw [hμ] at hμ'
  cases hμ'
  have hσ : siteScalar θ₂ "noise_scale" = siteScalar θ₁ "noise_scale" := by
    unfold siteScalar
    rw [hC.noise]
  rw [hC.offset, hC.changepoints, hσ] at h2
  have hpr : ((usedEffects kind₂ m₂).map fun fe =>
        ((θ₂.scope fe.name "coefs").data.map (kind₂ fe.name).prior).sum).sum
      = ((usedEffects kind₁ m₁).map fun fe =>
        ((θ₁.scope fe.name "coefs").data.map (kind₁ fe.name).prior).sum).sum
        + (M.map Match.const).sum := by
    obtain ⟨bs, hl, h1, h2⟩ := hC.coefs
    rw [priors_terms (position := position) (p0 := firstPosition position y.times) hz₁,
      priors_terms (position := position) (p0 := firstPosition position y.times) hz₂,
      (h1.map _).sum_eq, (h2.map _).sum_eq]
    exact sum_matched (fun e b => e.prior b) (fun e b => e.prior b) Match.const hl
      fun a ha => (hM.valid a ha).prior
  have hlik : ∀ row ∈ y.rows, ∀ a, (m₂.fitted.map fun fe =>
        (kind₂ fe.name).value position (firstPosition position y.times) fe.cols (θ₂.scope fe.name)
          row.time a (rowAt x₂ row.time)).sum
      = (m₁.fitted.map fun fe =>
        (kind₁ fe.name).value position (firstPosition position y.times) fe.cols (θ₁.scope fe.name)
          row.time a (rowAt x₁ row.time)).sum := fun row hrow a =>
    corresponds_values hM hz₁ hz₂ hC
      (fun k hk => hat k hk _ (List.mem_map.2 ⟨row, hrow, rfl⟩)) a
  unfold usedEffects at hpr
  rw [hpr] at h2
  have hsum : ∀ (tr : τ → ℝ) (σ : ℝ), (y.rows.map fun row => obsLog lik σ scale
        (tr row.time + (m₂.fitted.map fun fe =>
          (kind₂ fe.name).value position (firstPosition position y.times) fe.cols (θ₂.scope fe.name)
            row.time (tr row.time) (rowAt x₂ row.time)).sum) (row.val c)).sum
      = (y.rows.map fun row => obsLog lik σ scale
        (tr row.time + (m₁.fitted.map fun fe =>
          (kind₁ fe.name).value position (firstPosition position y.times) fe.cols (θ₁.scope fe.name)
            row.time (tr row.time) (rowAt x₁ row.time)).sum) (row.val c)).sum := fun tr σ =>
    congrArg List.sum (List.map_congr_left fun row hrow => by rw [hlik row hrow])
  have hsum := hsum (fun t => trendAt rampEntry ((θ₁ "offset").data.headD 0) cs
    (θ₁ "changepoint_coefficients").data (s.time.scaled days t)) (siteScalar θ₁ "noise_scale")
  simp only at h1 h2 hsum
  rw [h1, h2, hsum]
  ring

/-- **C109**, **C110**: corresponding parameters give the same forecasts, at all dates where the
summands match. -/
theorem C109_forecast (hU₁ : Usual position compile₁ order₁ days suggest p kind₁ cfg₁)
    (hU₂ : Usual position compile₂ order₂ days suggest p kind₂ cfg₂)
    (hT₁ : Training cfg₁ y c X₁ x₁) (hT₂ : Training cfg₂ y c X₂ x₂)
    (hfit₁ : uniFitData cfg₁ y X₁ = .ok m₁) (hfit₂ : uniFitData cfg₂ y X₂ = .ok m₂)
    (hd : cfg₂.discrete = cfg₁.discrete) (hsc : cfg₂.scale = cfg₁.scale) {M : List (Match τ)}
    (hM : MatchedBy M (modelTerms position (firstPosition position y.times) kind₁ m₁)
      (modelTerms position (firstPosition position y.times) kind₂ m₂)) :
    ∃ s cs, m₁.trend.st.2 = .piecewise (some s) ∧ m₂.trend.st.2 = .piecewise (some s) ∧ s.cps = [cs] ∧
      ∀ (X₁' X₂' : Option (Frame String τ ℝ)) (x₁' x₂' : Frame String τ ℝ) (fh : List τ) td₁ data₁ td₂
        data₂ (θ₁ θ₂ : SiteEnv ℝ) (st₁ st₂ : MeanState ℝ),
      UsualSizes kind₁ cs (usedEffects kind₁ m₁) θ₁ → UsualSizes kind₂ cs (usedEffects kind₂ m₂) θ₂ →
      Corresponds M (modelTerms position (firstPosition position y.times) kind₁ m₁)
        (modelTerms position (firstPosition position y.times) kind₂ m₂)
        (modelCoefs kind₁ m₁ θ₁) (modelCoefs kind₂ m₂ θ₂) θ₁ θ₂ →
      cfg₁.features (X₁'.getD (Frame.ofIndex fh)) = .ok x₁' → DatesIn x₁' fh →
      cfg₂.features (X₂'.getD (Frame.ofIndex fh)) = .ok x₂' → DatesIn x₂' fh →
      (∀ a ∈ M, ∀ t ∈ fh, a.At t (rowAt x₁' t) (rowAt x₂' t)) →
      uniPredictData cfg₁ m₁ X₁' fh = .ok (td₁, data₁) →
      uniPredictData cfg₂ m₂ X₂' fh = .ok (td₂, data₂) →
      computeMean (m₁.trend.cls.call m₁.trend.st) td₁ data₁ (callsOf m₁.objs) θ₁ = .ok st₁ →
      computeMean (m₂.trend.cls.call m₂.trend.st) td₂ data₂ (callsOf m₂.objs) θ₂ = .ok st₂ →
      st₂.mean = st₁.mean := by
  obtain ⟨s, cs, hs, hcs, hF⟩ := C95_forecast hU₁ hT₁ hfit₁
  obtain ⟨s', cs', hs', hcs', hF'⟩ := C95_forecast hU₂ hT₂ hfit₂
  cases usual_same_state hU₁ hU₂ hfit₁ hfit₂ hd hsc hs hs'
  rw [hcs] at hcs'
  cases hcs'
  refine ⟨s, cs, hs, hs', hcs, ?_⟩
  intro X₁' X₂' x₁' x₂' fh td₁ data₁ td₂ data₂ θ₁ θ₂ st₁ st₂ hz₁ hz₂ hC hf₁ hd₁ hf₂ hd₂ hat hp₁ hp₂
    hc₁ hc₂
  have h1 := hF X₁' x₁' fh td₁ data₁ θ₁ st₁ hf₁ hd₁ hp₁ hz₁.trend hc₁
  have h2 := hF' X₂' x₂' fh td₂ data₂ θ₂ st₂ hf₂ hd₂ hp₂ hz₂.trend hc₂
  rw [hC.offset, hC.changepoints] at h2
  rw [h1, h2]
  congr 1
  refine List.map_congr_left fun t ht => ?_
  rw [corresponds_values hM hz₁ hz₂ hC (fun k hk => hat k hk t ht)]

/-- **C109**, **C110**: all parameters of one model have corresponding ones of the other. -/
theorem C109_exists (hn : ((usedEffects kind₂ m₂).map FittedEffect.name).Nodup) {cs : List ℝ}
    {p0 : ℤ} {M : List (Match τ)}
    (hM : MatchedBy M (modelTerms position p0 kind₁ m₁) (modelTerms position p0 kind₂ m₂))
    {θ₁ : SiteEnv ℝ} (hz₁ : UsualSizes kind₁ cs (usedEffects kind₁ m₁) θ₁) :
    ∃ θ₂, UsualSizes kind₂ cs (usedEffects kind₂ m₂) θ₂ ∧
      Corresponds M (modelTerms position p0 kind₁ m₁) (modelTerms position p0 kind₂ m₂)
        (modelCoefs kind₁ m₁ θ₁) (modelCoefs kind₂ m₂ θ₂) θ₁ θ₂ := by
  obtain ⟨bs, hl, h1⟩ := perm_zip hM.fst (modelCoefs_length hz₁)
  rw [List.length_map] at hl
  obtain ⟨b₂, hl₂, h2⟩ := perm_zip hM.snd.symm
    (b := List.zipWith (fun a b => b / a.factor) M bs) (by simp [hl])
  obtain ⟨θ₂, h3, h4, h5⟩ := split_coefs (name := FittedEffect.name)
    (size := fun fe => (kind₂ fe.name).size fe.cols) θ₁ hn (b := b₂) (by
      rw [hl₂]
      unfold modelTerms
      rw [List.length_flatMap]
      congr 1
      exact List.map_congr_left fun fe _ => terms_length _ _ _ _)
  have ho := h3 "offset" (by decide)
  have hc := h3 "changepoint_coefficients" (by decide)
  have hσ := h3 "noise_scale" (by decide)
  refine ⟨θ₂, ⟨?_, ?_, h4⟩, ho, hc, hσ, bs, hl, h1, ?_⟩
  · obtain ⟨h6, h7⟩ := hz₁.trend
    exact ⟨by rw [ho]; exact h6, by rw [hc]; exact h7⟩
  · rw [hσ]
    exact hz₁.noise
  · rw [show modelCoefs kind₂ m₂ θ₂ = b₂ from h5]
    exact h2.symm

/-- The same match seen from the other model. -/
noncomputable def Match.swap (a : Match τ) : Match τ := ⟨a.snd, a.fst, a.factor⁻¹, -a.const⟩

theorem MatchedBy.swap {M : List (Match τ)} {T₁ T₂ : List (Term τ)} (h : MatchedBy M T₁ T₂) :
    MatchedBy (M.map Match.swap) T₂ T₁ where
  fst := by simpa [Function.comp_def, Match.swap] using h.snd
  snd := by simpa [Function.comp_def, Match.swap] using h.fst
  valid := by
    intro a ha
    obtain ⟨a, ha', rfl⟩ := List.mem_map.1 ha
    obtain ⟨h1, h2, h3⟩ := h.valid a ha'
    refine ⟨h1.symm, inv_ne_zero h2, fun b => ?_⟩
    have := h3 (b * a.factor)
    rw [mul_div_cancel_right₀ _ h2] at this
    show a.fst.prior (b / a.factor⁻¹) = a.snd.prior b + -a.const
    rw [this, div_inv_eq_mul]
    ring

theorem swap_const (M : List (Match τ)) :
    ((M.map Match.swap).map Match.const).sum = -(M.map Match.const).sum := by
  induction M with
  | nil => simp
  | cons a M ih =>
    rw [List.map_cons, List.map_cons, List.sum_cons, ih, List.map_cons, List.sum_cons]
    show -a.const + _ = _
    ring

theorem Match.At.swap {a : Match τ} (hv : a.Valid) {t : τ} {r₁ r₂ : String → ℝ} (h : a.At t r₁ r₂) :
    a.swap.At t r₂ r₁ := by
  unfold Match.At at h ⊢
  show a.fst.feature t r₁ = a.factor⁻¹ * a.snd.feature t r₂
  rw [h, inv_mul_cancel_left₀ hv.nonzero]

/-- **C109**, **C110**: parameters that correspond to a best fit are a best fit. -/
theorem C109_best (hU₁ : Usual position compile₁ order₁ days suggest p kind₁ cfg₁)
    (hU₂ : Usual position compile₂ order₂ days suggest p kind₂ cfg₂)
    (hT₁ : Training cfg₁ y c X₁ x₁) (hT₂ : Training cfg₂ y c X₂ x₂)
    (hfit₁ : uniFitData cfg₁ y X₁ = .ok m₁) (hfit₂ : uniFitData cfg₂ y X₂ = .ok m₂)
    (hd : cfg₂.discrete = cfg₁.discrete) (hsc : cfg₂.scale = cfg₁.scale) {b : ℝ}
    (hb : p.priorScale = .scalar b) {M : List (Match τ)}
    (hM : MatchedBy M (modelTerms position (firstPosition position y.times) kind₁ m₁)
      (modelTerms position (firstPosition position y.times) kind₂ m₂))
    (hat : ∀ a ∈ M, ∀ t ∈ y.times, a.At t (rowAt x₁ t) (rowAt x₂ t))
    (hw₁ : ∀ n ss mode s, kind₁ n = .seasonal ss mode s → waves ss ≠ [])
    (hw₂ : ∀ n ss mode s, kind₂ n = .seasonal ss mode s → waves ss ≠ []) :
    ∃ s cs, m₁.trend.st.2 = .piecewise (some s) ∧ m₂.trend.st.2 = .piecewise (some s) ∧ s.cps = [cs] ∧
      ∀ (lik : Likelihood) (ns scale os : ℝ) (θ₁ θ₂ : SiteEnv ℝ),
      BestGivenNoise kind₁ cs lik ns scale os m₁ θ₁ →
      UsualSizes kind₂ cs (usedEffects kind₂ m₂) θ₂ →
      Corresponds M (modelTerms position (firstPosition position y.times) kind₁ m₁)
        (modelTerms position (firstPosition position y.times) kind₂ m₂)
        (modelCoefs kind₁ m₁ θ₁) (modelCoefs kind₂ m₂ θ₂) θ₁ θ₂ →
      BestGivenNoise kind₂ cs lik ns scale os m₂ θ₂ := by
  obtain ⟨s, cs, hs, hs', hcs, hP⟩ := C109_posterior hU₁ hU₂ hT₁ hT₂ hfit₁ hfit₂ hd hsc hb hM hat
  obtain ⟨s₂, cs₂, hs₂, hs₂', hcs₂, hP'⟩ := C109_posterior hU₂ hU₁ hT₂ hT₁ hfit₂ hfit₁ hd.symm hsc.symm
    hb hM.swap (by
      intro a ha t ht
      obtain ⟨a, ha', rfl⟩ := List.mem_map.1 ha
      exact (hat a ha' t ht).swap (hM.valid a ha'))
  rw [hs'] at hs₂
  cases hs₂
  rw [hcs] at hcs₂
  cases hcs₂
  refine ⟨s, cs, hs, hs', hcs, ?_⟩
  rintro lik ns scale os θ₁ θ₂ ⟨hz₁, L₁, hL₁, hmax⟩ hz₂ hC
  obtain ⟨hc1, hc2⟩ := usual_conditions hs hz₁.trend hL₁
  obtain ⟨s₃, cs₃, hs₃, hcs₃, -, hD₂⟩ := usual_defined hU₂ hT₂ hfit₂ hw₂
  rw [hs'] at hs₃
  cases hs₃
  rw [hcs] at hcs₃
  cases hcs₃
  obtain ⟨s₃, cs₃, hs₃, hcs₃, -, hD₁⟩ := usual_defined hU₁ hT₁ hfit₁ hw₁
  rw [hs] at hs₃
  cases hs₃
  rw [hcs] at hcs₃
  cases hcs₃
  obtain ⟨L₂, hL₂⟩ := hD₂ hc1 hc2 lik ns scale os θ₂ hz₂
  refine ⟨hz₂, L₂, hL₂, ?_⟩
  intro θ' L' hz' hn' hL'
  have hnd : ((usedEffects kind₁ m₁).map FittedEffect.name).Nodup :=
    (usual_names hU₁ hfit₁).1.sublist (List.filter_sublist.map _)
  obtain ⟨θ, hz, hC'⟩ := C109_exists hnd hM.swap hz'
  obtain ⟨L, hL⟩ := hD₁ hc1 hc2 lik ns scale os θ hz
  have h1 := hmax θ L hz (by rw [hC'.noise, hn', hC.noise]) hL
  have h2 := hP lik ns scale os θ₁ θ₂ L₁ L₂ hz₁ hz₂ hC hL₁ hL₂
  have h3 := hP' lik ns scale os θ' θ L' L hz' hz hC' hL' hL
  rw [swap_const] at h3
  linarith


/-! ## Names, order and grouping -/

/-- Two fitted models with given parameters forecast the same mean, for all horizons and exogenous
variables (with the same features). -/
def SameForecasts (cfg₁ cfg₂ : UniConfig (UsualAttrs τ) (Scale ℝ) τ ℝ (AnyData ℝ) ℝ)
    (m₁ m₂ : UniFit (UsualAttrs τ) (Scale ℝ) τ ℝ (AnyData ℝ) ℝ) (θ₁ θ₂ : SiteEnv ℝ) : Prop :=
  ∀ (X' : Option (Frame String τ ℝ)) (x' : Frame String τ ℝ) (fh : List τ) td₁ data₁ td₂ data₂
    (st₁ st₂ : MeanState ℝ),
  cfg₁.features (X'.getD (Frame.ofIndex fh)) = .ok x' →
  cfg₂.features (X'.getD (Frame.ofIndex fh)) = .ok x' → DatesIn x' fh →
  uniPredictData cfg₁ m₁ X' fh = .ok (td₁, data₁) → uniPredictData cfg₂ m₂ X' fh = .ok (td₂, data₂) →
  computeMean (m₁.trend.cls.call m₁.trend.st) td₁ data₁ (callsOf m₁.objs) θ₁ = .ok st₁ →
  computeMean (m₂.trend.cls.call m₂.trend.st) td₂ data₂ (callsOf m₂.objs) θ₂ = .ok st₂ →
  st₂.mean = st₁.mean

/-- Every best fit of one model has a counterpart of the other: with the same offset, changepoints and
noise, as probable, and giving the same forecasts. -/
def SameFits (cfg₁ cfg₂ : UniConfig (UsualAttrs τ) (Scale ℝ) τ ℝ (AnyData ℝ) ℝ)
    (kind₁ kind₂ : String → EffectKind) (m₁ m₂ : UniFit (UsualAttrs τ) (Scale ℝ) τ ℝ (AnyData ℝ) ℝ)
    (cs : List ℝ) : Prop :=
  ∀ (lik : Likelihood) (ns scale os : ℝ) (θ₁ : SiteEnv ℝ),
    BestGivenNoise kind₁ cs lik ns scale os m₁ θ₁ →
    ∃ θ₂, BestGivenNoise kind₂ cs lik ns scale os m₂ θ₂ ∧ θ₂ "offset" = θ₁ "offset" ∧
      θ₂ "changepoint_coefficients" = θ₁ "changepoint_coefficients" ∧
      θ₂ "noise_scale" = θ₁ "noise_scale" ∧
      usualDensity kind₂ lik ns scale os m₂ θ₂ = usualDensity kind₁ lik ns scale os m₁ θ₁ ∧
      SameForecasts cfg₁ cfg₂ m₁ m₂ θ₁ θ₂

/-- Equal summands match. -/
def Match.same (T : Term τ) : Match τ := ⟨T, T, 1, 0⟩

theorem matchedBy_same {T₁ T₂ : List (Term τ)} (h : T₁.Perm T₂) : MatchedBy (T₁.map Match.same) T₁ T₂ where
  fst := by simp [Function.comp_def, Match.same]
  snd := by simpa [Function.comp_def, Match.same] using h.symm
  valid := by
    intro a ha
    obtain ⟨T, -, rfl⟩ := List.mem_map.1 ha
    exact ⟨rfl, one_ne_zero, fun b => by simp [Match.same]⟩

/-- **C109**: models with the same summands, in whatever order and under whatever names, have the
same best fits. -/
theorem C109_same (hU₁ : Usual position compile₁ order₁ days suggest p kind₁ cfg₁)
    (hU₂ : Usual position compile₂ order₂ days suggest p kind₂ cfg₂)
    (hT₁ : Training cfg₁ y c X₁ x) (hT₂ : Training cfg₂ y c X₂ x)
    (hfit₁ : uniFitData cfg₁ y X₁ = .ok m₁) (hfit₂ : uniFitData cfg₂ y X₂ = .ok m₂)
    (hd : cfg₂.discrete = cfg₁.discrete) (hsc : cfg₂.scale = cfg₁.scale) {b : ℝ}
    (hb : p.priorScale = .scalar b)
    (hw₁ : ∀ n ss mode s, kind₁ n = .seasonal ss mode s → waves ss ≠ [])
    (hw₂ : ∀ n ss mode s, kind₂ n = .seasonal ss mode s → waves ss ≠ [])
    (hperm : (modelTerms position (firstPosition position y.times) kind₁ m₁).Perm
      (modelTerms position (firstPosition position y.times) kind₂ m₂)) :
    ∃ s cs, m₁.trend.st.2 = .piecewise (some s) ∧ m₂.trend.st.2 = .piecewise (some s) ∧ s.cps = [cs] ∧
      SameFits cfg₁ cfg₂ kind₁ kind₂ m₁ m₂ cs := by
  have hM := matchedBy_same hperm
  have hat : ∀ a ∈ (modelTerms position (firstPosition position y.times) kind₁ m₁).map Match.same,
      ∀ (t : τ) (r : String → ℝ), a.At t r r := by
    intro a ha t r
    obtain ⟨T, -, rfl⟩ := List.mem_map.1 ha
    simp [Match.At, Match.same]
  obtain ⟨s, cs, hs, hs', hcs, hB⟩ := C109_best hU₁ hU₂ hT₁ hT₂ hfit₁ hfit₂ hd hsc hb hM
    (fun a ha t _ => hat a ha t _) hw₁ hw₂
  obtain ⟨s₂, cs₂, hs₂, -, hcs₂, hP⟩ := C109_posterior hU₁ hU₂ hT₁ hT₂ hfit₁ hfit₂ hd hsc hb hM
    (fun a ha t _ => hat a ha t _)
  obtain ⟨s₃, cs₃, hs₃, -, hcs₃, hF⟩ := C109_forecast hU₁ hU₂ hT₁ hT₂ hfit₁ hfit₂ hd hsc hM
  rw [hs] at hs₂ hs₃
  cases hs₂
  cases hs₃
  rw [hcs] at hcs₂ hcs₃
  cases hcs₂
  cases hcs₃
  refine ⟨s, cs, hs, hs', hcs, ?_⟩
  intro lik ns scale os θ₁ hbest
  have hnd : ((usedEffects kind₂ m₂).map FittedEffect.name).Nodup :=
    (usual_names hU₂ hfit₂).1.sublist (List.filter_sublist.map _)
  obtain ⟨θ₂, hz₂, hC⟩ := C109_exists hnd hM hbest.1
  have hbest₂ := hB lik ns scale os θ₁ θ₂ hbest hz₂ hC
  refine ⟨θ₂, hbest₂, hC.offset, hC.changepoints, hC.noise, ?_, ?_⟩
  · obtain ⟨hz₁, L₁, hL₁, -⟩ := hbest
    obtain ⟨-, L₂, hL₂, -⟩ := hbest₂
    have := hP lik ns scale os θ₁ θ₂ L₁ L₂ hz₁ hz₂ hC hL₁ hL₂
    rw [hL₁, hL₂, this]
    simp [Function.comp_def, Match.same]
  · intro X' x' fh td₁ data₁ td₂ data₂ st₁ st₂ hf₁ hf₂ hdt hp₁ hp₂ hc₁ hc₂
    exact hF X' X' x' x' fh td₁ data₁ td₂ data₂ θ₁ θ₂ st₁ st₂ hbest.1 hz₂ hC hf₁ hdt hf₂ hdt
      (fun a ha t _ => hat a ha t _) hp₁ hp₂ hc₁ hc₂


theorem modelTerms_fitted (position : τ → ℤ) (p0 : ℤ) (kind : String → EffectKind)
    (m : UniFit (UsualAttrs τ) (Scale ℝ) τ ℝ (AnyData ℝ) ℝ) :
    modelTerms position p0 kind m = m.fitted.flatMap fun fe => (kind fe.name).terms position p0 fe.cols := by
  unfold modelTerms usedEffects
  induction m.fitted with
  | nil => rfl
  | cons fe l ih =>
    by_cases hu : (kind fe.name).used fe.cols = true
    · rw [List.filter_cons_of_pos (by simpa using hu), List.flatMap_cons, List.flatMap_cons, ih]
    · rw [List.filter_cons_of_neg (by simpa using hu), List.flatMap_cons, ih]
      have : (kind fe.name).terms position p0 fe.cols = [] := by
        cases hk : kind fe.name with
        | seasonal ss mode s => simp [hk, EffectKind.used] at hu
        | linear mode prior =>
          simp only [hk, EffectKind.used, Bool.not_eq_true', Bool.not_eq_false, List.isEmpty_iff] at hu
          simp [hu, EffectKind.terms]
      rw [this, List.nil_append]

/-- The fitted effects with their columns, from the settings. -/
theorem usual_columns (hT : Training cfg y c X x) (hfit : uniFitData cfg y X = .ok m) :
    ∃ (fes : List (FittedEffect (UsualAttrs τ) (Frame String τ ℝ) (Scale ℝ) τ ℝ (AnyData ℝ) ℝ)),
      List.Forall₂ (fun e fe => fe.name = e.name ∧ matchColumns cfg.compile x.cols e.regex = .ok fe.cols)
        cfg.effects fes ∧
      ((remainingColumns x.cols (fes.flatMap FittedEffect.cols) = [] ∧ m.fitted = fes) ∨
       (∃ fe, remainingColumns x.cols (fes.flatMap FittedEffect.cols) ≠ [] ∧
        fe.name = "exogenous_variables_effect" ∧
        fe.cols = remainingColumns x.cols (fes.flatMap FittedEffect.cols) ∧ m.fitted = fes ++ [fe])) := by
  obtain ⟨yT, x0, x', hyT, htf, hx0, hx, htd, hfe, hdata, hobjs, hya⟩ := uniFitData_ok hfit
  obtain ⟨x0', hx0', hx'⟩ := hT.features
  rw [hx0] at hx0'
  cases hx0'
  rw [hx] at hx'
  cases hx'
  obtain ⟨fes, hf, -, hd⟩ := fitEffects_ok.1 hfe
  refine ⟨fes, hf.imp fun _ _ h => ⟨h.1, h.2.1⟩, ?_⟩
  rcases hd with ⟨h1, h2⟩ | ⟨eff, h1, -, h2⟩
  · exact .inl ⟨h1, h2⟩
  · exact .inr ⟨_, h1, rfl, rfl, h2⟩

theorem remaining_congr {cols taken taken' : List String} (h : ∀ c, c ∈ taken ↔ c ∈ taken') :
    remainingColumns cols taken = remainingColumns cols taken' := by
  unfold remainingColumns
  congr 1
  refine List.filter_congr fun c _ => ?_
  simp [h c]

theorem forall₂_perm_pairs {α β γ δ : Type} {R₁ R₂ : α → β → Prop} {f₁ f₂ : α → γ} {g₁ g₂ : β → δ}
    (key : γ → δ → Prop) (hk₁ : ∀ a b, R₁ a b → key (f₁ a) (g₁ b))
    (hk₂ : ∀ a b, R₂ a b → key (f₂ a) (g₂ b))
    (huniq : ∀ u v w, key u v → key u w → v = w) {l₁ l₂ : List α} {r₁ r₂ : List β}
    (h₁ : List.Forall₂ R₁ l₁ r₁) (h₂ : List.Forall₂ R₂ l₂ r₂) (hp : (l₁.map f₁).Perm (l₂.map f₂)) :
    (r₁.map g₁).Perm (r₂.map g₂) := by
  have aux : ∀ {u v : List γ}, u.Perm v → ∀ {a b : List δ}, List.Forall₂ key u a →
      List.Forall₂ key v b → a.Perm b := by
    intro u v h
    induction h with
    | nil => intro a b ha hb; cases ha; cases hb; exact .nil
    | cons x _ ih =>
      intro a b ha hb
      cases ha with
      | cons h1 h2 =>
        cases hb with
        | cons h3 h4 =>
          rw [huniq _ _ _ h1 h3]
          exact (ih h2 h4).cons _
    | swap x y l =>
      intro a b ha hb
      match ha, hb with
      | .cons h1 (.cons h2 h3), .cons h4 (.cons h5 h6) =>
        rw [huniq _ _ _ h1 h5, huniq _ _ _ h2 h4]
        have : ∀ {l : List γ} {a b : List δ}, List.Forall₂ key l a → List.Forall₂ key l b → a = b := by
          intro l
          induction l with
          | nil => intro a b ha hb; cases ha; cases hb; rfl
          | cons x l ih =>
            intro a b ha hb
            match ha, hb with
            | .cons h1 h2, .cons h3 h4 => rw [huniq _ _ _ h1 h3, ih h2 h4]
        rw [this h3 h6]
        exact .swap _ _ _
    | @trans l₁ l₂ l₃ hp1 hp2 ih1 ih2 =>
      intro a b ha hb
      have : ∃ d, List.Forall₂ key l₂ d := by
        obtain ⟨hl, hg⟩ := List.forall₂_iff_get.1 hb
        have : ∀ x ∈ l₂, ∃ v, key x v := by
          intro x hx
          obtain ⟨i, hi, rfl⟩ := List.getElem_of_mem (hp2.mem_iff.1 hx)
          exact ⟨_, hg i hi (by omega)⟩
        clear ih1 ih2 hp1 hp2 ha hb hl hg
        induction l₂ with
        | nil => exact ⟨[], .nil⟩
        | cons x l ih =>
          obtain ⟨d, hd⟩ := ih fun x hx => this x (by simp [hx])
          obtain ⟨v, hv⟩ := this x (by simp)
          exact ⟨v :: d, .cons hv hd⟩
      obtain ⟨d, hd⟩ := this
      exact (ih1 ha hd).trans (ih2 hd hb)
  refine aux hp ?_ ?_
  · exact List.forall₂_map_left_iff.2 (List.forall₂_map_right_iff.2 (h₁.imp hk₁))
  · exact List.forall₂_map_left_iff.2 (List.forall₂_map_right_iff.2 (h₂.imp hk₂))


/-- The summands of a model from kinds and columns of its effects. -/
theorem modelTerms_pairs (position : τ → ℤ) (p0 : ℤ) (kind : String → EffectKind)
    (m : UniFit (UsualAttrs τ) (Scale ℝ) τ ℝ (AnyData ℝ) ℝ) :
    modelTerms position p0 kind m = (m.fitted.map fun fe => (kind fe.name, fe.cols)).flatMap
      fun k => k.1.terms position p0 k.2 := by
  rw [modelTerms_fitted, List.flatMap_map]

/-- **C109**, names and order: models with the same effects in another order and under other names
have the same best fits. -/
theorem C109_order (hU₁ : Usual position compile₁ order₁ days suggest p kind₁ cfg₁)
    (hU₂ : Usual position compile₂ order₂ days suggest p kind₂ cfg₂)
    (hT₁ : Training cfg₁ y c X₁ x) (hT₂ : Training cfg₂ y c X₂ x)
    (hfit₁ : uniFitData cfg₁ y X₁ = .ok m₁) (hfit₂ : uniFitData cfg₂ y X₂ = .ok m₂)
    (hd : cfg₂.discrete = cfg₁.discrete) (hsc : cfg₂.scale = cfg₁.scale) {b : ℝ}
    (hb : p.priorScale = .scalar b)
    (hw₁ : ∀ n ss mode s, kind₁ n = .seasonal ss mode s → waves ss ≠ [])
    (hw₂ : ∀ n ss mode s, kind₂ n = .seasonal ss mode s → waves ss ≠ [])
    (hcomp : cfg₂.compile = cfg₁.compile)
    (heff : (cfg₁.effects.map fun e => (kind₁ e.name, e.regex)).Perm
      (cfg₂.effects.map fun e => (kind₂ e.name, e.regex)))
    (hdef : kind₂ "exogenous_variables_effect" = kind₁ "exogenous_variables_effect") :
    ∃ s cs, m₁.trend.st.2 = .piecewise (some s) ∧ m₂.trend.st.2 = .piecewise (some s) ∧ s.cps = [cs] ∧
      SameFits cfg₁ cfg₂ kind₁ kind₂ m₁ m₂ cs := by
  refine C109_same hU₁ hU₂ hT₁ hT₂ hfit₁ hfit₂ hd hsc hb hw₁ hw₂ ?_
  obtain ⟨fes₁, hf₁, hd₁⟩ := usual_columns hT₁ hfit₁
  obtain ⟨fes₂, hf₂, hd₂⟩ := usual_columns hT₂ hfit₂
  have hp : (fes₁.map fun fe => (kind₁ fe.name, fe.cols)).Perm
      (fes₂.map fun fe => (kind₂ fe.name, fe.cols)) := by
    refine forall₂_perm_pairs (γ := EffectKind × Option String) (δ := EffectKind × List String)
      (fun u v => v.1 = u.1 ∧ matchColumns cfg₁.compile x.cols u.2 = .ok v.2) ?_ ?_ ?_ hf₁ hf₂ heff
    · rintro e fe ⟨h1, h2⟩
      exact ⟨by rw [h1], h2⟩
    · rintro e fe ⟨h1, h2⟩
      rw [hcomp] at h2
      exact ⟨by rw [h1], h2⟩
    · rintro u ⟨k, l⟩ ⟨k', l'⟩ ⟨h1, h2⟩ ⟨h3, h4⟩
      simp only at h1 h2 h3 h4
      rw [h2] at h4
      rw [h1, h3, Except.ok.inj h4]
  have htaken : ∀ c, c ∈ fes₁.flatMap FittedEffect.cols ↔ c ∈ fes₂.flatMap FittedEffect.cols := by
    have := hp.flatMap_right (fun k : EffectKind × List String => k.2)
    rw [List.flatMap_map, List.flatMap_map] at this
    exact fun c => this.mem_iff
  have hr := remaining_congr (cols := x.cols) htaken
  rw [modelTerms_pairs, modelTerms_pairs]
  refine List.Perm.flatMap_right _ ?_
  rcases hd₁ with ⟨h1, h2⟩ | ⟨fe₁, h1, hn₁, hc₁, h2⟩
  · rcases hd₂ with ⟨h3, h4⟩ | ⟨fe₂, h3, -⟩
    · rw [h2, h4]
      exact hp
    · exact absurd (hr ▸ h1) h3
  · rcases hd₂ with ⟨h3, h4⟩ | ⟨fe₂, h3, hn₂, hc₂, h4⟩
    · exact absurd (hr ▸ h3) h1
    · rw [h2, h4, List.map_append, List.map_append]
      refine hp.append ?_
      simp only [List.map_cons, List.map_nil, hn₁, hn₂, hdef, hc₁, hc₂, hr]
      exact .refl _

/-- Is it a seasonality? -/
def EffectKind.isSeasonal : EffectKind → Bool
  | .seasonal .. => true
  | .linear .. => false

/-- Besides seasonalities, which take no columns, there are linear effects only, all with the same
mode and prior, and no column is taken by two effects. -/
structure LinearGroups (kind : String → EffectKind)
    (cfg : UniConfig (UsualAttrs τ) (Scale ℝ) τ ℝ (AnyData ℝ) ℝ) (x : Frame String τ ℝ) (mode : String)
    (prior : ℝ → ℝ) : Prop where
  linear : ∀ e ∈ cfg.effects, kind e.name = .linear mode prior ∨
    (kind e.name).isSeasonal = true ∧ e.regex = none
  default : kind "exogenous_variables_effect" = .linear mode prior
  disjoint : cfg.effects.Pairwise fun a b => ∀ c ∈ x.cols,
    ¬ (Matches cfg.compile a.regex c ∧ Matches cfg.compile b.regex c)

/-- Every column of `X` is taken exactly once. -/
theorem columns_once {mode : String} {prior : ℝ → ℝ} (hG : LinearGroups kind cfg x mode prior)
    (hx : x.cols.Nodup) (hT : Training cfg y c X x) (hfit : uniFitData cfg y X = .ok m) :
    (m.fitted.flatMap FittedEffect.cols).Perm x.cols := by
  obtain ⟨fes, hf, hd⟩ := usual_columns hT hfit
  have hmem : ∀ fe ∈ fes, ∀ c ∈ fe.cols, c ∈ x.cols := by
    intro fe hfe c hc
    obtain ⟨i, hi, rfl⟩ := List.getElem_of_mem hfe
    obtain ⟨hl, hg⟩ := List.forall₂_iff_get.1 hf
    exact (matchColumns_sublist (hg i (by omega) hi).2).subset hc
  have hnd : (fes.flatMap FittedEffect.cols).Nodup := by
    have hdis := hG.disjoint
    clear hd hmem hG
    generalize cfg.effects = es at hf hdis
    induction hf with
    | nil => simp
    | @cons e fe es fes h1 h2 ih =>
      rw [List.pairwise_cons] at hdis
      rw [List.flatMap_cons, List.nodup_append]
      refine ⟨(matchColumns_sublist h1.2).nodup hx, ih hdis.2, ?_⟩
      intro a ha b hb hab
      subst hab
      obtain ⟨fe', hfe', hb'⟩ := List.mem_flatMap.1 hb
      obtain ⟨i, hi, rfl⟩ := List.getElem_of_mem hfe'
      obtain ⟨hl, hg⟩ := List.forall₂_iff_get.1 h2
      have h3 := (mem_matchColumns h1.2 a).1 ha
      have h4 := (mem_matchColumns (hg i (by omega) hi).2 a).1 hb'
      exact hdis.1 _ (List.getElem_mem (by omega)) a h3.1 ⟨h3.2, h4.2⟩
  have hnr : ∀ tk, (remainingColumns x.cols tk).Nodup := fun tk =>
    (remaining_perm x.cols tk).nodup_iff.2 (hx.filter _)
  refine (List.perm_ext_iff_of_nodup ?_ hx).2 fun a => ?_
  · rcases hd with ⟨-, h⟩ | ⟨fe, -, -, hc, h⟩
    · rw [h]
      exact hnd
    · rw [h, List.flatMap_append, List.nodup_append]
      refine ⟨hnd, by simpa [hc] using hnr _, ?_⟩
      intro a ha b hb hab
      subst hab
      have : a ∈ remainingColumns x.cols (fes.flatMap FittedEffect.cols) := by simpa [hc] using hb
      exact (mem_remaining.1 this).2 ha
  · constructor
    · intro h
      obtain ⟨fe, hfe, ha⟩ := List.mem_flatMap.1 h
      rcases hd with ⟨-, h⟩ | ⟨fe', -, -, hc, h⟩
      · rw [h] at hfe
        exact hmem fe hfe a ha
      · rw [h] at hfe
        rcases List.mem_append.1 hfe with hfe | hfe
        · exact hmem fe hfe a ha
        · cases List.mem_singleton.1 hfe
          rw [hc] at ha
          exact (mem_remaining.1 ha).1
    · intro h
      rcases hd with ⟨hr, hd⟩ | ⟨fe', -, -, hc, hd⟩
      · rw [hd]
        by_contra hna
        have := mem_remaining.2 ⟨h, hna⟩
        rw [hr] at this
        cases this
      · rw [hd, List.flatMap_append]
        by_cases hna : a ∈ fes.flatMap FittedEffect.cols
        · exact List.mem_append.2 (.inl hna)
        · refine List.mem_append.2 (.inr ?_)
          simpa [hc] using mem_remaining.2 ⟨h, hna⟩

/-- The summands of such a model: the columns of `X` and the waves of the seasonalities. -/
theorem groups_terms {mode : String} {prior : ℝ → ℝ} (hG : LinearGroups kind cfg x mode prior)
    (hx : x.cols.Nodup) (hT : Training cfg y c X x) (hfit : uniFitData cfg y X = .ok m) (p0 : ℤ) :
    (modelTerms position p0 kind m).Perm
      ((x.cols.map fun c => ⟨fun _ r => r c, mode, prior⟩) ++
        ((cfg.effects.map fun e => kind e.name).filter EffectKind.isSeasonal).flatMap
          (EffectKind.terms position p0 [])) := by
  have hcols := columns_once hG hx hT hfit
  obtain ⟨fes, hf, hd⟩ := usual_columns hT hfit
  have key : ∀ {es : List (EffectSpec (UsualAttrs τ) (Frame String τ ℝ) (Scale ℝ) τ ℝ (AnyData ℝ) ℝ)}
      {fes : List (FittedEffect (UsualAttrs τ) (Frame String τ ℝ) (Scale ℝ) τ ℝ (AnyData ℝ) ℝ)},
      List.Forall₂ (fun e fe => fe.name = e.name ∧
        matchColumns cfg.compile x.cols e.regex = .ok fe.cols) es fes →
      (∀ e ∈ es, kind e.name = .linear mode prior ∨
        (kind e.name).isSeasonal = true ∧ e.regex = none) →
      (fes.flatMap fun fe => (kind fe.name).terms position p0 fe.cols).Perm
        (((fes.flatMap FittedEffect.cols).map fun c => ⟨fun _ r => r c, mode, prior⟩) ++
        ((es.map fun e => kind e.name).filter EffectKind.isSeasonal).flatMap
          (EffectKind.terms position p0 [])) := by
    intro es fes h
    induction h with
    | nil => intro _; simp
    | @cons e fe es fes h1 h2 ih =>
      intro hlin
      have ih := ih fun e he => hlin e (by simp [he])
      rcases hlin e (by simp) with hk | ⟨hk, hr⟩
      · simp only [List.flatMap_cons, List.map_append, List.map_cons, h1.1, hk, List.append_assoc]
        rw [List.filter_cons_of_neg (by simp [EffectKind.isSeasonal])]
        exact ih.append_left _
      · have hc : fe.cols = [] := by
          have := h1.2
          rw [hr] at this
          exact (Except.ok.inj this).symm
        simp only [List.flatMap_cons, List.map_cons, h1.1, hc, List.nil_append]
        rw [List.filter_cons_of_pos hk, List.flatMap_cons]
        refine (ih.append_left _).trans ?_
        rw [← List.append_assoc, ← List.append_assoc]
        exact List.perm_append_comm.append_right _
  have hk := key hf hG.linear
  have hmap := hcols.map fun c => (⟨fun _ r => r c, mode, prior⟩ : Term τ)
  rw [modelTerms_fitted]
  rcases hd with ⟨-, hd⟩ | ⟨fe', -, hn, hc, hd⟩
  · rw [hd] at hmap ⊢
    exact hk.trans (hmap.append_right _)
  · rw [hd] at hmap ⊢
    refine List.Perm.trans ?_ (hmap.append_right _)
    simp only [List.flatMap_append, List.flatMap_cons, List.flatMap_nil, List.append_nil, List.map_append,
      hn, hG.default]
    refine (hk.append_right _).trans ?_
    rw [List.append_assoc, List.append_assoc]
    exact List.perm_append_comm.append_left _

/-- **C109**, grouping: it does not matter how columns are divided between linear effects of the same
mode and prior, nor which of them are left to the default effect. -/
theorem C109_grouping (hU₁ : Usual position compile₁ order₁ days suggest p kind₁ cfg₁)
    (hU₂ : Usual position compile₂ order₂ days suggest p kind₂ cfg₂)
    (hT₁ : Training cfg₁ y c X₁ x) (hT₂ : Training cfg₂ y c X₂ x) (hx : x.cols.Nodup)
    (hfit₁ : uniFitData cfg₁ y X₁ = .ok m₁) (hfit₂ : uniFitData cfg₂ y X₂ = .ok m₂)
    (hd : cfg₂.discrete = cfg₁.discrete) (hsc : cfg₂.scale = cfg₁.scale) {b : ℝ}
    (hb : p.priorScale = .scalar b)
    (hw₁ : ∀ n ss mode s, kind₁ n = .seasonal ss mode s → waves ss ≠ [])
    (hw₂ : ∀ n ss mode s, kind₂ n = .seasonal ss mode s → waves ss ≠ [])
    {mode : String} {prior : ℝ → ℝ} (hG₁ : LinearGroups kind₁ cfg₁ x mode prior)
    (hG₂ : LinearGroups kind₂ cfg₂ x mode prior)
    (hseas : ((cfg₁.effects.map fun e => kind₁ e.name).filter EffectKind.isSeasonal).Perm
      ((cfg₂.effects.map fun e => kind₂ e.name).filter EffectKind.isSeasonal)) :
    ∃ s cs, m₁.trend.st.2 = .piecewise (some s) ∧ m₂.trend.st.2 = .piecewise (some s) ∧ s.cps = [cs] ∧
      SameFits cfg₁ cfg₂ kind₁ kind₂ m₁ m₂ cs := by
  refine C109_same hU₁ hU₂ hT₁ hT₂ hfit₁ hfit₂ hd hsc hb hw₁ hw₂ ?_
  refine (groups_terms hG₁ hx hT₁ hfit₁ _).trans ?_
  refine List.Perm.trans ?_ (groups_terms hG₂ hx hT₂ hfit₂ _).symm
  exact (hseas.flatMap_right _).append_left _

/-! ## Units -/

theorem normalLP_units {μ s k : ℝ} (hs : 0 < s) (hk : 0 < k) (b : ℝ) :
    normalLP (μ / k) (s / k) (b / k) = normalLP μ s b + Real.log k := by
  unfold normalLP
  rw [Real.log_div hs.ne' hk.ne']
  have : (b / k - μ / k) ^ 2 / (2 * (s / k) ^ 2) = (b - μ) ^ 2 / (2 * s ^ 2) := by
    field_simp
  rw [this]
  ring

/-- The second model is the first with another prior for the linear effect `n₀`: the prior of its
coefficients divided by `k`. -/
structure RescaledPrior (n₀ : String) (k const : ℝ) (kind₁ kind₂ : String → EffectKind) : Prop where
  nonzero : k ≠ 0
  others : ∀ n, n ≠ n₀ → kind₂ n = kind₁ n
  rescaled : ∃ mode prior₁ prior₂, kind₁ n₀ = .linear mode prior₁ ∧ kind₂ n₀ = .linear mode prior₂ ∧
    ∀ b, prior₂ (b / k) = prior₁ b + const

/-- The second table is the first with the columns of the effect `n₀` multiplied by `k`. -/
def RescaledColumns (n₀ : String) (k : ℝ) (m : UniFit (UsualAttrs τ) (Scale ℝ) τ ℝ (AnyData ℝ) ℝ)
    (x₁ x₂ : Frame String τ ℝ) (times : List τ) : Prop :=
  ∀ t ∈ times, ∀ fe ∈ m.fitted, ∀ col ∈ fe.cols,
    rowAt x₂ t col = (if fe.name = n₀ then k else 1) * rowAt x₁ t col

/-- Parameters with the coefficients of the effect `n₀` divided by `k`. -/
noncomputable def dividedCoefs (θ : SiteEnv ℝ) (n₀ : String) (k : ℝ) : SiteEnv ℝ :=
  withCoefs θ n₀ ((θ (n₀ ++ "/coefs")).data.map (· / k))

/-- The matching summands after a change of units. -/
noncomputable def unitMatches (position : τ → ℤ) (p0 : ℤ) (n₀ : String) (k const : ℝ) (kind₁ kind₂ : String → EffectKind)
    (q : String × List String) : List (Match τ) :=
  List.zipWith (fun T₁ T₂ => ⟨T₁, T₂, if q.1 = n₀ then k else 1, if q.1 = n₀ then const else 0⟩)
    ((kind₁ q.1).terms position p0 q.2) ((kind₂ q.1).terms position p0 q.2)

theorem unit_sizes {n₀ : String} {k const : ℝ} (hR : RescaledPrior n₀ k const kind₁ kind₂) (n : String)
    (cols : List String) : (kind₂ n).size cols = (kind₁ n).size cols ∧
      (kind₂ n).used cols = (kind₁ n).used cols := by
  by_cases h : n = n₀
  · obtain ⟨mode, p₁, p₂, h1, h2, -⟩ := hR.rescaled
    rw [h, h1, h2]
    exact ⟨rfl, rfl⟩
  · rw [hR.others n h]
    exact ⟨rfl, rfl⟩

theorem unit_used {n₀ : String} {k const : ℝ} (hR : RescaledPrior n₀ k const kind₁ kind₂)
    (hsame : m₂.fitted.map (fun fe => (fe.name, fe.cols)) = m₁.fitted.map (fun fe => (fe.name, fe.cols))) :
    (usedEffects kind₂ m₂).map (fun fe => (fe.name, fe.cols))
      = (usedEffects kind₁ m₁).map (fun fe => (fe.name, fe.cols)) := by
  have h : ∀ (kind : String → EffectKind) (m : UniFit (UsualAttrs τ) (Scale ℝ) τ ℝ (AnyData ℝ) ℝ),
      (usedEffects kind m).map (fun fe => (fe.name, fe.cols))
        = (m.fitted.map fun fe => (fe.name, fe.cols)).filter fun q => (kind q.1).used q.2 := by
    intro kind m
    unfold usedEffects
    rw [List.filter_map]
    rfl
  rw [h, h, hsame]
  exact List.filter_congr fun q _ => (unit_sizes hR q.1 q.2).2

theorem unit_terms (position : τ → ℤ) (p0 : ℤ) {n₀ : String} {k const : ℝ}
    (hR : RescaledPrior n₀ k const kind₁ kind₂) (q : String × List String) :
    (unitMatches position p0 n₀ k const kind₁ kind₂ q).map Match.fst = (kind₁ q.1).terms position p0 q.2 ∧
    (unitMatches position p0 n₀ k const kind₁ kind₂ q).map Match.snd = (kind₂ q.1).terms position p0 q.2 ∧
    (∀ a ∈ unitMatches position p0 n₀ k const kind₁ kind₂ q, a.Valid) ∧
    (∀ a ∈ unitMatches position p0 n₀ k const kind₁ kind₂ q, a.factor = if q.1 = n₀ then k else 1) ∧
    (∀ a ∈ unitMatches position p0 n₀ k const kind₁ kind₂ q, ∀ t r₁ r₂,
      (∀ col ∈ q.2, r₂ col = (if q.1 = n₀ then k else 1) * r₁ col) → a.At t r₁ r₂) := by
  unfold unitMatches
  by_cases h : q.1 = n₀
  · obtain ⟨mode, p₁, p₂, h1, h2, h3⟩ := hR.rescaled
    simp only [if_pos h, h, h1, h2, EffectKind.terms, List.zipWith_map_left, List.zipWith_map_right,
      List.zipWith_self, List.map_map]
    refine ⟨rfl, rfl, ?_, ?_, ?_⟩
    · intro a ha
      obtain ⟨c, hc, rfl⟩ := List.mem_map.1 ha
      exact ⟨rfl, hR.nonzero, h3⟩
    · intro a ha
      obtain ⟨c, hc, rfl⟩ := List.mem_map.1 ha
      rfl
    · intro a ha t r₁ r₂ hr
      obtain ⟨c, hc, rfl⟩ := List.mem_map.1 ha
      exact hr c hc
  · simp only [if_neg h, hR.others _ h, List.zipWith_self, List.map_map, Function.comp_def, List.map_id']
    refine ⟨trivial, trivial, ?_, ?_, ?_⟩
    · intro a ha
      obtain ⟨T, hT, rfl⟩ := List.mem_map.1 ha
      exact ⟨rfl, one_ne_zero, fun b => by simp⟩
    · intro a ha
      obtain ⟨T, hT, rfl⟩ := List.mem_map.1 ha
      rfl
    · intro a ha t r₁ r₂ hr
      obtain ⟨T, hT, rfl⟩ := List.mem_map.1 ha
      unfold Match.At
      simp only [one_mul] at hr ⊢
      cases hk : kind₁ q.1 with
      | seasonal ss mode s =>
        rw [hk] at hT
        obtain ⟨w, -, rfl⟩ := List.mem_map.1 hT
        rfl
      | linear mode prior =>
        rw [hk] at hT
        obtain ⟨c, hc, rfl⟩ := List.mem_map.1 hT
        exact hr c hc

theorem zipWith_flatMap {α β γ δ : Type} {f : α → List β} {g : α → List γ} (F : β → γ → δ) :
    ∀ {l : List α}, (∀ a ∈ l, (f a).length = (g a).length) →
    List.zipWith F (l.flatMap f) (l.flatMap g) = l.flatMap fun a => List.zipWith F (f a) (g a)
  | [], _ => rfl
  | a :: l, h => by
    simp only [List.flatMap_cons]
    rw [List.zipWith_append (h a (by simp)), zipWith_flatMap F fun b hb => h b (by simp [hb])]

/-- **C110**: the unit of the columns of a linear effect does not matter if the prior is stated in the
same unit: with columns multiplied by `k` and the prior of coefficients divided by `k`, the best fits
are the best fits with coefficients divided by `k`, and give the same forecasts. -/
theorem C110_units (hU₁ : Usual position compile₁ order₁ days suggest p kind₁ cfg₁)
    (hU₂ : Usual position compile₂ order₂ days suggest p kind₂ cfg₂)
    (hT₁ : Training cfg₁ y c X₁ x₁) (hT₂ : Training cfg₂ y c X₂ x₂)
    (hfit₁ : uniFitData cfg₁ y X₁ = .ok m₁) (hfit₂ : uniFitData cfg₂ y X₂ = .ok m₂)
    (hd : cfg₂.discrete = cfg₁.discrete) (hsc : cfg₂.scale = cfg₁.scale) {b : ℝ}
    (hb : p.priorScale = .scalar b)
    (hw₁ : ∀ n ss mode s, kind₁ n = .seasonal ss mode s → waves ss ≠ [])
    (hw₂ : ∀ n ss mode s, kind₂ n = .seasonal ss mode s → waves ss ≠ [])
    (hcomp : cfg₂.compile = cfg₁.compile)
    (heff : cfg₂.effects.map (fun e => (e.name, e.regex)) = cfg₁.effects.map fun e => (e.name, e.regex))
    (hcols : x₂.cols = x₁.cols) {n₀ : String} {k const : ℝ}
    (hR : RescaledPrior n₀ k const kind₁ kind₂) (hX : RescaledColumns n₀ k m₁ x₁ x₂ y.times) :
    ∃ s cs, m₁.trend.st.2 = .piecewise (some s) ∧ m₂.trend.st.2 = .piecewise (some s) ∧ s.cps = [cs] ∧
      ∀ (lik : Likelihood) (ns scale os : ℝ) (θ : SiteEnv ℝ),
      BestGivenNoise kind₁ cs lik ns scale os m₁ θ →
      BestGivenNoise kind₂ cs lik ns scale os m₂ (dividedCoefs θ n₀ k) ∧
      ∀ (X₁' X₂' : Option (Frame String τ ℝ)) (x₁' x₂' : Frame String τ ℝ) (fh : List τ) td₁ data₁ td₂
        data₂ (st₁ st₂ : MeanState ℝ),
      cfg₁.features (X₁'.getD (Frame.ofIndex fh)) = .ok x₁' → DatesIn x₁' fh →
      cfg₂.features (X₂'.getD (Frame.ofIndex fh)) = .ok x₂' → DatesIn x₂' fh →
      RescaledColumns n₀ k m₁ x₁' x₂' fh →
      uniPredictData cfg₁ m₁ X₁' fh = .ok (td₁, data₁) →
      uniPredictData cfg₂ m₂ X₂' fh = .ok (td₂, data₂) →
      computeMean (m₁.trend.cls.call m₁.trend.st) td₁ data₁ (callsOf m₁.objs) θ = .ok st₁ →
      computeMean (m₂.trend.cls.call m₂.trend.st) td₂ data₂ (callsOf m₂.objs) (dividedCoefs θ n₀ k)
        = .ok st₂ →
      st₂.mean = st₁.mean := by
  have hsame : m₂.fitted.map (fun fe => (fe.name, fe.cols))
      = m₁.fitted.map (fun fe => (fe.name, fe.cols)) := by
    obtain ⟨fes₁, hf₁, hd₁⟩ := usual_columns hT₁ hfit₁
    obtain ⟨fes₂, hf₂, hd₂⟩ := usual_columns hT₂ hfit₂
    have hp : fes₂.map (fun fe => (fe.name, fe.cols)) = fes₁.map (fun fe => (fe.name, fe.cols)) := by
      rw [hcols, hcomp] at hf₂
      clear hd₁ hd₂
      generalize cfg₁.effects = es₁ at hf₁ heff
      generalize cfg₂.effects = es₂ at hf₂ heff
      induction hf₁ generalizing es₂ fes₂ with
      | nil =>
        cases hf₂ with
        | nil => rfl
        | cons _ _ => simp at heff
      | @cons e fe es fes h1 h2 ih =>
        cases hf₂ with
        | nil => simp at heff
        | cons h3 h4 =>
          simp only [List.map_cons, List.cons.injEq, Prod.mk.injEq] at heff ⊢
          refine ⟨⟨by rw [h3.1, h1.1, heff.1.1], ?_⟩, ih _ _ h4 heff.2⟩
          have := h3.2
          rw [heff.1.2, h1.2] at this
          exact (Except.ok.inj this).symm
    have htk : fes₂.flatMap FittedEffect.cols = fes₁.flatMap FittedEffect.cols := by
      have := congrArg (fun l : List (String × List String) => l.flatMap Prod.snd) hp
      simpa [List.flatMap_map] using this
    rw [hcols, htk] at hd₂
    rcases hd₁ with ⟨h1, h2⟩ | ⟨fe₁, h1, hn₁, hc₁, h2⟩
    · rcases hd₂ with ⟨h3, h4⟩ | ⟨fe₂, h3, -⟩
      · rw [h2, h4, hp]
      · exact absurd h1 h3
    · rcases hd₂ with ⟨h3, h4⟩ | ⟨fe₂, h3, hn₂, hc₂, h4⟩
      · exact absurd h3 h1
      · simp only [h2, h4, List.map_append, hp, List.map_cons, List.map_nil, hn₁, hn₂, hc₁, hc₂]
  have hused := unit_used hR hsame
  set p0 := firstPosition position y.times with hp0
  set Q := (usedEffects kind₁ m₁).map (fun fe => (fe.name, fe.cols)) with hQ
  set M := Q.flatMap (unitMatches position p0 n₀ k const kind₁ kind₂) with hMdef
  have ht₁ : modelTerms position p0 kind₁ m₁ = Q.flatMap fun q => (kind₁ q.1).terms position p0 q.2 := by
    rw [hQ, List.flatMap_map]
    rfl
  have ht₂ : modelTerms position p0 kind₂ m₂ = Q.flatMap fun q => (kind₂ q.1).terms position p0 q.2 := by
    rw [← hused, List.flatMap_map]
    rfl
  have hfst : M.map Match.fst = modelTerms position p0 kind₁ m₁ := by
    rw [ht₁, hMdef, List.map_flatMap]
    exact List.flatMap_congr fun q _ => (unit_terms position p0 hR q).1
  have hsnd : M.map Match.snd = modelTerms position p0 kind₂ m₂ := by
    rw [ht₂, hMdef, List.map_flatMap]
    exact List.flatMap_congr fun q _ => (unit_terms position p0 hR q).2.1
  have hM : MatchedBy M (modelTerms position p0 kind₁ m₁) (modelTerms position p0 kind₂ m₂) := by
    refine ⟨by rw [hfst], by rw [hsnd], fun a ha => ?_⟩
    obtain ⟨q, hq, ha⟩ := List.mem_flatMap.1 ha
    exact (unit_terms position p0 hR q).2.2.1 a ha
  have hat : ∀ {x₁ x₂ : Frame String τ ℝ} {times : List τ}, RescaledColumns n₀ k m₁ x₁ x₂ times →
      ∀ a ∈ M, ∀ t ∈ times, a.At t (rowAt x₁ t) (rowAt x₂ t) := by
    intro x₁ x₂ times hX a ha t ht
    obtain ⟨q, hq, ha⟩ := List.mem_flatMap.1 ha
    obtain ⟨fe, hfe, rfl⟩ := List.mem_map.1 hq
    exact (unit_terms position p0 hR _).2.2.2.2 a ha t _ _
      fun col hcol => hX t ht fe (List.mem_of_mem_filter hfe) col hcol
  obtain ⟨s, cs, hs, hs', hcs, hB⟩ := C109_best hU₁ hU₂ hT₁ hT₂ hfit₁ hfit₂ hd hsc hb hM (hat hX) hw₁ hw₂
  obtain ⟨s₃, cs₃, hs₃, -, hcs₃, hF⟩ := C109_forecast hU₁ hU₂ hT₁ hT₂ hfit₁ hfit₂ hd hsc hM
  rw [hs] at hs₃
  cases hs₃
  rw [hcs] at hcs₃
  cases hcs₃
  refine ⟨s, cs, hs, hs', hcs, ?_⟩
  intro lik ns scale os θ hbest
  have hz₁ := hbest.1
  have ho := withCoefs_only θ n₀ ((θ (n₀ ++ "/coefs")).data.map (· / k))
  have hco : ∀ n, (dividedCoefs θ n₀ k (n ++ "/coefs")).data
      = (θ (n ++ "/coefs")).data.map (· / if n = n₀ then k else 1) := by
    intro n
    by_cases h : n = n₀
    · rw [h, if_pos rfl]
      exact withCoefs_data _ _ _
    · rw [if_neg h, show dividedCoefs θ n₀ k (n ++ "/coefs") = θ (n ++ "/coefs") from ho.others n h]
      simp
  have hzQ : ∀ q ∈ Q, (θ (q.1 ++ "/coefs")).data.length = (kind₁ q.1).size q.2 := by
    intro q hq
    obtain ⟨fe, hfe, rfl⟩ := List.mem_map.1 hq
    exact hz₁.coefs fe hfe
  have hz₂ : UsualSizes kind₂ cs (usedEffects kind₂ m₂) (dividedCoefs θ n₀ k) := by
    refine ⟨?_, ?_, fun fe hfe => ?_⟩
    · obtain ⟨h1, h2⟩ := hz₁.trend
      exact ⟨by rw [show dividedCoefs θ n₀ k "offset" = _ from ho.offset]; exact h1,
        by rw [show dividedCoefs θ n₀ k "changepoint_coefficients" = _ from ho.changepoints]; exact h2⟩
    · rw [show dividedCoefs θ n₀ k "noise_scale" = _ from ho.noise]
      exact hz₁.noise
    · rw [hco, List.length_map, (unit_sizes hR _ _).1]
      have : (fe.name, fe.cols) ∈ Q := by
        rw [← hused]
        exact List.mem_map.2 ⟨fe, hfe, rfl⟩
      exact hzQ _ this
  have hC : Corresponds M (modelTerms position p0 kind₁ m₁) (modelTerms position p0 kind₂ m₂)
      (modelCoefs kind₁ m₁ θ) (modelCoefs kind₂ m₂ (dividedCoefs θ n₀ k)) θ (dividedCoefs θ n₀ k) := by
    refine ⟨ho.offset, ho.changepoints, ho.noise, modelCoefs kind₁ m₁ θ, ?_, by rw [hfst], ?_⟩
    · rw [modelCoefs_length hz₁, ← hfst, List.length_map]
    · rw [hsnd]
      have h1 : modelCoefs kind₁ m₁ θ = Q.flatMap fun q => (θ (q.1 ++ "/coefs")).data := by
        rw [hQ, List.flatMap_map]
        rfl
      have h2 : modelCoefs kind₂ m₂ (dividedCoefs θ n₀ k)
          = Q.flatMap fun q => (dividedCoefs θ n₀ k (q.1 ++ "/coefs")).data := by
        rw [← hused, List.flatMap_map]
        rfl
      have hlen : ∀ q, (unitMatches position p0 n₀ k const kind₁ kind₂ q).length = (kind₁ q.1).size q.2 := by
        intro q
        rw [← List.length_map (f := Match.fst), (unit_terms position p0 hR q).1, terms_length]
      have h3 : List.zipWith (fun (a : Match τ) b => b / a.factor) M (modelCoefs kind₁ m₁ θ)
          = modelCoefs kind₂ m₂ (dividedCoefs θ n₀ k) := by
        rw [h1, h2, hMdef, zipWith_flatMap _ fun q hq => by rw [hlen, hzQ q hq]]
        refine List.flatMap_congr fun q hq => ?_
        rw [hco]
        have hfac := (unit_terms position p0 hR q).2.2.2.1
        have hl := (hlen q).trans (hzQ q hq).symm
        generalize unitMatches position p0 n₀ k const kind₁ kind₂ q = A at hfac hl
        generalize (θ (q.1 ++ "/coefs")).data = B at hl
        induction A generalizing B with
        | nil =>
          rw [List.length_eq_zero_iff.1 hl.symm]
          rfl
        | cons a A ih =>
          cases B with
          | nil => simp at hl
          | cons b B =>
            rw [List.zipWith_cons_cons, List.map_cons, hfac a (by simp),
              ih (fun a ha => hfac a (by simp [ha])) B (by simpa using hl)]
      rw [h3]
  refine ⟨hB lik ns scale os θ _ hbest hz₂ hC, ?_⟩
  intro X₁' X₂' x₁' x₂' fh td₁ data₁ td₂ data₂ st₁ st₂ hf₁ hd₁ hf₂ hd₂ hX' hp₁ hp₂ hc₁ hc₂
  exact hF X₁' X₂' x₁' x₂' fh td₁ data₁ td₂ data₂ θ _ st₁ st₂ hz₁ hz₂ hC hf₁ hd₁ hf₂ hd₂
    (hat hX') hp₁ hp₂ hc₁ hc₂

end

/-! ## Examples -/

noncomputable section

/-- The model of `exCfg95` with the column `a` in an effect of its own. -/
def exCfg109 : UniConfig (UsualAttrs ℤ) (Scale ℝ) ℤ ℝ (AnyData ℝ) ℝ :=
  { exCfg95 with
    compile := fun r => .ok fun c => c == r
    effects := [⟨"promo", exEffect95 "promo", some "a"⟩, ⟨"weekly", exEffect95 "weekly", none⟩] }

theorem exUsual109 : Usual id someCompile id (fun n : ℤ => (n : ℝ)) suggestLinear exP85 exKind95 exCfg109 where
  trend := rfl
  squeeze := rfl
  interval := ⟨1, rfl⟩
  range := ⟨1, rfl⟩
  effects := by
    intro e he
    rcases List.mem_cons.1 he with rfl | he
    · rfl
    · cases List.mem_singleton.1 he
      rfl
  default := rfl
  nodup := by simp [exCfg109]
  reserved := by simp [exCfg109]
  notTrend := by simp [exCfg109]

theorem exTraining109 : Training exCfg109 exY85 "y" (some exX97) exX97 :=
  { exTraining97 with features := exTraining97.features }

theorem exValid109 : ValidParams exP85 exKind95 exCfg109 :=
  { exValid98 with regexes := fun _ _ _ _ => ⟨_, rfl⟩ }

theorem exGroups95 : LinearGroups exKind95 exCfg95 exX97 "multiplicative" (normalLP 0 1) where
  linear := by
    intro e he
    cases List.mem_singleton.1 he
    exact .inr ⟨rfl, rfl⟩
  default := rfl
  disjoint := by simp [exCfg95]

theorem exGroups109 : LinearGroups exKind95 exCfg109 exX97 "multiplicative" (normalLP 0 1) where
  linear := by
    intro e he
    rcases List.mem_cons.1 he with rfl | he
    · exact .inl rfl
    · cases List.mem_singleton.1 he
      exact .inr ⟨rfl, rfl⟩
  default := rfl
  disjoint := by
    simp only [exCfg109, List.pairwise_cons, List.mem_singleton, forall_eq, List.not_mem_nil,
      false_implies, implies_true, List.Pairwise.nil, and_true]
    rintro c - ⟨-, r, q, h, -⟩
    cases h

/-- Whether column `a` has an effect of its own or goes to the default effect with the others. -/
example : ∃ m₁ m₂ cs, uniFitData exCfg95 exY85 (some exX97) = .ok m₁ ∧
    uniFitData exCfg109 exY85 (some exX97) = .ok m₂ ∧
    SameFits exCfg95 exCfg109 exKind95 exKind95 m₁ m₂ cs ∧
    ∃ θ₁ θ₂, BestGivenNoise exKind95 cs .normal (1 / 2) 1 (1 / 10) m₁ θ₁ ∧
      BestGivenNoise exKind95 cs .normal (1 / 2) 1 (1 / 10) m₂ θ₂ ∧
      SameForecasts exCfg95 exCfg109 m₁ m₂ θ₁ θ₂ := by
  obtain ⟨m₁, s, cs, hm₁, hs, hcs, hB⟩ := exBest98
  obtain ⟨m₂, hm₂⟩ := C98_fits exUsual109 exValid109 (fun _ _ h => Int.cast_lt.2 h) exTraining109
    (by simp [exY85]) (by rintro _ ⟨⟩ a ha; exact ha)
  obtain ⟨s', cs', hs', -, hcs', hS⟩ := C109_grouping exUsual95 exUsual109 exTraining97 exTraining109
    (by decide) hm₁ hm₂ rfl rfl (b := 2) rfl exWaves98 exWaves98 exGroups95 exGroups109 (.refl _)
  rw [hs] at hs'
  cases hs'
  rw [hcs] at hcs'
  cases hcs'
  obtain ⟨θ₁, -, hθ₁⟩ := hB (1 / 2) 1 (1 / 10) 1 (by norm_num)
  obtain ⟨θ₂, hθ₂, -, -, -, -, hF⟩ := hS _ _ _ _ _ hθ₁
  exact ⟨m₁, m₂, cs, hm₁, hm₂, hS, θ₁, θ₂, hθ₁, hθ₂, hF⟩

/-- The columns of `exX97` in thousands. -/
def exX110 : Frame String Int ℝ :=
  ⟨1, ["a", "b", "e"], [⟨[], 0, fun n => if n = "e" then 0 else 1000⟩, ⟨[], 1, fun _ => 0⟩,
    ⟨[], 2, fun n => if n = "e" then 0 else 5000⟩]⟩

def exKind110 (n : String) : EffectKind :=
  if n = "weekly" then .seasonal exSeason95 "additive" 10
  else if n = "exogenous_variables_effect" then .linear "multiplicative" (normalLP (0 / 1000) (1 / 1000))
  else .linear "multiplicative" (normalLP 0 1)

def exCfg110 : UniConfig (UsualAttrs ℤ) (Scale ℝ) ℤ ℝ (AnyData ℝ) ℝ :=
  { exCfg95 with default := (exKind110 "exogenous_variables_effect").effect id someCompile id }

theorem exUsual110 : Usual id someCompile id (fun n : ℤ => (n : ℝ)) suggestLinear exP85 exKind110 exCfg110 where
  trend := rfl
  squeeze := rfl
  interval := ⟨1, rfl⟩
  range := ⟨1, rfl⟩
  effects := by
    intro e he
    cases List.mem_singleton.1 he
    rfl
  default := rfl
  nodup := by simp [exCfg110, exCfg95]
  reserved := by simp [exCfg110, exCfg95]
  notTrend := by simp [exCfg110, exCfg95]

theorem exTraining110 : Training exCfg110 exY85 "y" (some exX110) exX110 where
  flat := rfl
  column := rfl
  sorted := by simp [exY85]
  some := by simp [exY85]
  features := ⟨exX110, rfl, by
    unfold Frame.locTimes
    rw [if_pos (by simp [exX110, exY85, Frame.times])]
    simp [exX110, exY85, Frame.times]⟩
  dates := ⟨rfl, by simp [exX110], by simp [exY85, Frame.times], by simp [exX110, exY85, Frame.times],
    by simp [exX110]⟩

theorem exValid110 : ValidParams exP85 exKind110 exCfg110 :=
  { exValid98 with
    seasons := by
      intro n
      unfold exKind110
      split
      · intro s hs
        cases List.mem_singleton.1 hs
        norm_num
      · split <;> trivial }

theorem exWaves110 (n : String) (ss : List Season) (mode : String) (s : ℝ)
    (h : exKind110 n = .seasonal ss mode s) : waves ss ≠ [] := by
  refine exWaves98 n ss mode s ?_
  unfold exKind110 at h
  unfold exKind95
  split at h
  · rename_i hn
    rw [if_pos hn]
    exact h
  · split at h <;> cases h

theorem exRescaled110 :
    RescaledPrior "exogenous_variables_effect" 1000 (Real.log 1000) exKind95 exKind110 where
  nonzero := by norm_num
  others := by
    intro n hn
    unfold exKind110 exKind95
    rw [if_neg hn]
  rescaled := ⟨"multiplicative", _, _, rfl, rfl, normalLP_units one_pos (by norm_num)⟩

/-- The three columns in thousands with a prior of scale `1 / 1000`. -/
example : ∃ m₁ m₂ cs θ, uniFitData exCfg95 exY85 (some exX97) = .ok m₁ ∧
    uniFitData exCfg110 exY85 (some exX110) = .ok m₂ ∧
    BestGivenNoise exKind95 cs .normal (1 / 2) 1 (1 / 10) m₁ θ ∧
    BestGivenNoise exKind110 cs .normal (1 / 2) 1 (1 / 10) m₂
      (dividedCoefs θ "exogenous_variables_effect" 1000) := by
  obtain ⟨m₁, s, cs, hm₁, hs, hcs, hB⟩ := exBest98
  obtain ⟨m₂, hm₂⟩ := C98_fits exUsual110 exValid110 (fun _ _ h => Int.cast_lt.2 h) exTraining110
    (by simp [exY85]) (by rintro _ ⟨⟩ a ha; exact ha)
  obtain ⟨fe, hfe, hn, hc, hnil⟩ := exCols97 hm₁
  obtain ⟨s', cs', hs', -, hcs', hS⟩ := C110_units exUsual95 exUsual110 exTraining97 exTraining110
    hm₁ hm₂ rfl rfl (b := 2) rfl exWaves98 exWaves110 rfl rfl rfl exRescaled110 (by
      intro t ht fe' hfe' col hcol
      by_cases h : fe' = fe
      · subst h
        rw [hn, if_pos rfl]
        rw [hc] at hcol
        simp only [exY85, Frame.times, List.map_cons, List.map_nil, List.mem_cons, List.not_mem_nil,
          or_false] at ht hcol
        rcases ht with rfl | rfl | rfl <;> rcases hcol with rfl | rfl | rfl <;>
          simp [rowAt, exX97, exX110] <;> norm_num
      · rw [hnil fe' hfe' h] at hcol
        cases hcol)
  rw [hs] at hs'
  cases hs'
  rw [hcs] at hcs'
  cases hcs'
  obtain ⟨θ₁, -, hθ₁⟩ := hB (1 / 2) 1 (1 / 10) 1 (by norm_num)
  exact ⟨m₁, m₂, cs, θ₁, hm₁, hm₂, hθ₁, (hS _ _ _ _ _ hθ₁).1⟩

end

end PV
