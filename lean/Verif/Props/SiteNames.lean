import Verif.Model.Trace
import Verif.Spec.SiteNames
import Verif.Lemmas.Dict

/-!
# C75: the unknowns of different effects never get mixed up (names of numpyro sites)
-/

namespace PV

/-! ## Traces without clash -/

theorem recordSite_fresh {t : PyDict SiteKind} {s : Site} (h : s.name ∉ t.keys) :
    recordSite t s = .ok (t ++ [(s.name, s.kind)]) := by
  unfold recordSite
  rw [if_neg (fun h' => h h'.2), PyDict.set_of_notMem h]

theorem foldlM_recordSite_nodup (l : List Site) (t : PyDict SiteKind)
    (hn : (l.map Site.name).Nodup) (hd : ∀ s ∈ l, s.name ∉ t.keys) :
    l.foldlM recordSite t = .ok (t ++ l.map fun s => (s.name, s.kind)) := by
  induction l generalizing t with
  | nil => simp; rfl
  | cons s l ih =>
    rw [List.map_cons, List.nodup_cons] at hn
    rw [List.foldlM_cons, recordSite_fresh (hd s (by simp))]
    show l.foldlM recordSite _ = _
    rw [ih _ hn.2]
    · simp
    · intro s' hs'
      rw [PyDict.keys_append]
      simp only [PyDict.keys, List.map_cons, List.map_nil, List.mem_append, List.mem_singleton,
        not_or]
      refine ⟨hd s' (List.mem_cons_of_mem _ hs'), fun he => hn.1 ?_⟩
      exact List.mem_map.2 ⟨s', hs', he⟩

theorem runTrace_nodup {l : List Site} (hn : (l.map Site.name).Nodup) :
    runTrace l = .ok (l.map fun s => (s.name, s.kind)) := by
  have := foldlM_recordSite_nodup l [] hn (by simp [PyDict.keys])
  simpa [runTrace] using this

theorem foldlM_recordSite_length (l : List Site) (t t' : PyDict SiteKind) (ht : t.keys.Nodup)
    (h : l.foldlM recordSite t = .ok t') :
    t'.keys.Nodup ∧ (∀ k, k ∈ t'.keys ↔ k ∈ t.keys ∨ k ∈ l.map Site.name) ∧
      t'.length ≤ t.length + l.length := by
  induction l generalizing t with
  | nil =>
    cases h
    simp [ht]
  | cons s l ih =>
    rw [List.foldlM_cons] at h
    unfold recordSite at h
    split at h
    · cases h
    · obtain ⟨h1, h2, h3⟩ := ih (t.set s.name s.kind) (PyDict.nodup_keys_set ht _ _) h
      have hk := PyDict.keys_set t s.name s.kind
      refine ⟨h1, ?_, ?_⟩
      · intro k
        rw [h2, hk]
        simp only [List.map_cons, List.mem_cons]
        split
        · rename_i hm
          constructor
          · rintro (h | h)
            · exact .inl h
            · exact .inr (.inr h)
          · rintro (h | h | h)
            · exact .inl h
            · exact .inl (h ▸ hm)
            · exact .inr h
        · simp only [List.mem_append, List.mem_singleton]
          tauto
      · have hl : (t.set s.name s.kind).length ≤ t.length + 1 := by
          have := congrArg List.length hk
          split_ifs at this <;> simp [PyDict.keys] at this <;> omega
        simp only [List.length_cons]
        omega

/-! ## Scoped names -/

theorem scope_toList (p n : String) : (p ++ "/" ++ n).toList = p.toList ++ '/' :: n.toList := by
  simp [String.toList_append]

theorem append_cons_inj_of_notMem_left {α : Type} {c : α} {a b s t : List α} (ha : c ∉ a)
    (hb : c ∉ b) (h : a ++ c :: s = b ++ c :: t) : a = b ∧ s = t := by
  induction a generalizing b with
  | nil =>
    cases b with
    | nil => simpa using h
    | cons y b =>
      simp only [List.nil_append, List.cons_append, List.cons.injEq] at h
      simp [h.1] at hb
  | cons x a ih =>
    cases b with
    | nil =>
      simp only [List.nil_append, List.cons_append, List.cons.injEq] at h
      simp [← h.1] at ha
    | cons y b =>
      simp only [List.cons_append, List.cons.injEq] at h
      obtain ⟨h1, h2⟩ := ih (fun h => ha (List.mem_cons_of_mem _ h))
        (fun h => hb (List.mem_cons_of_mem _ h)) h.2
      exact ⟨by rw [h.1, h1], h2⟩

/-- A scoped name tells the scope and the name inside. -/
theorem scope_inj {p q m n : String} (hp : NoSlash p) (hq : NoSlash q)
    (h : p ++ "/" ++ m = q ++ "/" ++ n) : p = q ∧ m = n := by
  have h' := congrArg String.toList h
  rw [scope_toList, scope_toList] at h'
  obtain ⟨h1, h2⟩ := append_cons_inj_of_notMem_left hp hq h'
  exact ⟨String.ext h1, String.ext h2⟩

theorem scope_ne {p q n : String} (hq : NoSlash q) : p ++ "/" ++ n ≠ q := by
  rintro rfl
  apply hq
  rw [scope_toList]
  simp

/-- The sites of one effect, with its recorded contribution. -/
def effectSites (e : String × List Site) : List Site :=
  e.2.map (Site.scope e.1) ++ [⟨.deterministic, e.1⟩]

theorem effectSites_name {e : String × List Site} {n : String}
    (h : n ∈ (effectSites e).map Site.name) :
    n = e.1 ∨ ∃ s ∈ e.2, n = e.1 ++ "/" ++ s.name := by
  simp only [effectSites, List.map_append, List.map_map, List.mem_append, List.mem_map,
    Function.comp, List.map_cons, List.map_nil, List.mem_singleton] at h
  rcases h with ⟨s, hs, rfl⟩ | rfl
  · exact .inr ⟨s, hs, rfl⟩
  · exact .inl rfl

theorem effectSites_nodup {e : String × List Site} (hs : NoSlash e.1)
    (hn : (e.2.map Site.name).Nodup) : ((effectSites e).map Site.name).Nodup := by
  simp only [effectSites, List.map_append, List.map_map, List.map_cons, List.map_nil]
  rw [List.nodup_append]
  refine ⟨?_, List.nodup_singleton _, ?_⟩
  · have : (e.2.map (Site.name ∘ Site.scope e.1))
        = (e.2.map Site.name).map fun n => e.1 ++ "/" ++ n := by
      simp [List.map_map, Function.comp_def, Site.scope]
    rw [this]
    exact hn.map fun a b h => (scope_inj hs hs h).2
  · intro a ha b hb
    rw [List.mem_singleton] at hb
    obtain ⟨s, -, rfl⟩ := List.mem_map.1 ha
    rw [hb]
    exact scope_ne hs

theorem effectSites_disjoint {e e' : String × List Site} (hs : NoSlash e.1) (hs' : NoSlash e'.1)
    (hne : e.1 ≠ e'.1) {n : String} (h : n ∈ (effectSites e).map Site.name) :
    n ∉ (effectSites e').map Site.name := by
  intro h'
  rcases effectSites_name h with rfl | ⟨s, -, rfl⟩
  · rcases effectSites_name h' with h' | ⟨s, -, h'⟩
    · exact hne h'
    · exact scope_ne hs h'.symm
  · rcases effectSites_name h' with h' | ⟨s', -, h'⟩
    · exact scope_ne hs' h'
    · exact hne (scope_inj hs hs' h').1

theorem modelSites_nodup {trend obs : List Site} {effects : PyDict (List Site)}
    (hb : (trend.map Site.name ++ "trend" :: obs.map Site.name).Nodup)
    (hbs : ∀ n ∈ trend.map Site.name ++ "trend" :: obs.map Site.name, NoSlash n)
    (hk : effects.keys.Nodup) (hks : ∀ n ∈ effects.keys, NoSlash n)
    (hres : ∀ n ∈ effects.keys, n ∉ trend.map Site.name ++ "trend" :: obs.map Site.name)
    (he : ∀ e ∈ effects, (e.2.map Site.name).Nodup) :
    ((modelSites trend effects obs).map Site.name).Nodup := by
  have hmem : ∀ e ∈ effects, e.1 ∈ effects.keys := fun e h => List.mem_map.2 ⟨e, h, rfl⟩
  have hF : ((effects.flatMap effectSites).map Site.name).Nodup := by
    rw [List.map_flatMap, List.nodup_flatMap]
    refine ⟨fun e h => effectSites_nodup (hks _ (hmem e h)) (he e h), ?_⟩
    have hk' : effects.Pairwise fun a b => a.1 ≠ b.1 := List.pairwise_map.1 hk
    refine hk'.imp_of_mem ?_
    intro a b ha hb' hab
    rw [Function.onFun, List.disjoint_left]
    intro n hn
    exact effectSites_disjoint (hks _ (hmem a ha)) (hks _ (hmem b hb')) hab hn
  have hperm : ((modelSites trend effects obs).map Site.name).Perm
      ((trend.map Site.name ++ "trend" :: obs.map Site.name) ++
        (effects.flatMap effectSites).map Site.name) := by
    have : (modelSites trend effects obs).map Site.name = trend.map Site.name ++
        ("trend" :: ((effects.flatMap effectSites).map Site.name ++ obs.map Site.name)) := by
      simp only [modelSites, List.map_append, List.map_cons, List.append_assoc, List.cons_append]
      rfl
    rw [this, List.append_assoc, List.cons_append]
    exact ((List.perm_append_comm).cons _).append_left _
  rw [hperm.nodup_iff, List.nodup_append]
  refine ⟨hb, hF, ?_⟩
  intro a ha b hb' hab
  subst hab
  rw [List.map_flatMap, List.mem_flatMap] at hb'
  obtain ⟨e, he', hm⟩ := hb'
  rcases effectSites_name hm with rfl | ⟨s, -, rfl⟩
  · exact hres _ (hmem e he') ha
  · exact scope_ne (hbs _ ha) rfl

/-! ## The property -/

/-- The sites a trend announces. -/
def TrendType.sites : TrendType → List Site
  | .linear => piecewiseSites
  | .logistic => logisticSites
  | .flat => flatSites

/-- The sites an effect announces. -/
def PlainEffect.sites : PlainEffect → List Site
  | .linear | .fourier => linearSites
  | .log => logSites
  | .hill => hillSites

/-- The sites an effect announces. -/
def EffectType.sites : EffectType → List Site
  | .plain e => e.sites
  | .lift e => liftSites e.sites

/-- The sites of the likelihood. -/
def ModelType.sites (fitting : Bool) : ModelType → List Site
  | .univariate => univariateObsSites fitting
  | .hierarchical single => multivariateObsSites single fitting

/-- The trace of a run of the model with these components. -/
def traceOf (t : TrendType) (effects : List (String × EffectType)) (m : ModelType)
    (fitting : Bool) : PyM (PyDict SiteKind) :=
  runTrace (modelSites t.sites (effects.map fun e => (e.1, e.2.sites)) (m.sites fitting))

theorem base_names (t : TrendType) (m : ModelType) (fitting : Bool) :
    (t.sites.map Site.name ++ "trend" :: (m.sites fitting).map Site.name).Perm
      (reservedNames t m) ∧
    (reservedNames t m).Nodup ∧ ∀ n ∈ reservedNames t m, NoSlash n := by
  rcases t with _ | _ | _ <;> rcases m with _ | (_ | _) <;> cases fitting <;> decide +kernel

theorem effect_names (e : EffectType) : (e.sites.map Site.name).Nodup := by
  rcases e with (_ | _ | _ | _) | (_ | _ | _ | _) <;> decide +kernel

/-- What a user may call the effects: distinct names without `/`, none of them reserved. -/
structure GoodNames (t : TrendType) (effects : List (String × EffectType)) (m : ModelType) :
    Prop where
  distinct : (effects.map Prod.fst).Nodup
  noSlash : ∀ n ∈ effects.map Prod.fst, NoSlash n
  free : ∀ n ∈ effects.map Prod.fst, n ∉ reservedNames t m

theorem traceOf_eq {t : TrendType} {effects : List (String × EffectType)} {m : ModelType}
    (h : GoodNames t effects m) (fitting : Bool) :
    ((modelSites t.sites (effects.map fun e => (e.1, e.2.sites)) (m.sites fitting)).map
      Site.name).Nodup ∧
    traceOf t effects m fitting = .ok ((modelSites t.sites
      (effects.map fun e => (e.1, e.2.sites)) (m.sites fitting)).map
        fun s => (s.name, s.kind)) := by
  obtain ⟨hp, hn, hs⟩ := base_names t m fitting
  have hkeys : PyDict.keys (effects.map fun e => (e.1, e.2.sites)) = effects.map Prod.fst := by
    simp [PyDict.keys, List.map_map, Function.comp_def]
  have hnd := modelSites_nodup (trend := t.sites) (obs := m.sites fitting)
    (effects := effects.map fun e => (e.1, e.2.sites)) (hp.nodup_iff.2 hn)
    (fun n h' => hs n (hp.mem_iff.1 h')) (hkeys ▸ h.distinct) (hkeys ▸ h.noSlash)
    (fun n h' h'' => h.free n (hkeys ▸ h') (hp.mem_iff.1 h''))
    (by
      intro e he
      obtain ⟨x, -, rfl⟩ := List.mem_map.1 he
      exact effect_names x.2)
  exact ⟨hnd, runTrace_nodup hnd⟩

theorem latentNames_map (l : List Site) :
    latentNames (l.map fun s => (s.name, s.kind))
      = (l.filter fun s => s.kind = .latent).map Site.name := by
  induction l with
  | nil => rfl
  | cons s l ih =>
    unfold latentNames at *
    simp only [List.map_cons, List.filter_cons]
    split <;> simp [ih]

theorem effect_latent (e : String × EffectType) :
    ((effectSites (e.1, e.2.sites)).filter fun s => s.kind = .latent).map Site.name
      = e.2.params.map fun p => e.1 ++ "/" ++ p := by
  obtain ⟨n, e⟩ := e
  rcases e with (_ | _ | _ | _) | (_ | _ | _ | _) <;> rfl

theorem trend_latent (t : TrendType) :
    (t.sites.filter fun s => s.kind = .latent).map Site.name = t.params := by
  cases t <;> rfl

theorem model_latent (m : ModelType) (fitting : Bool) :
    ((m.sites fitting).filter fun s => s.kind = .latent).map Site.name
      = m.params ++ if fitting then [] else ["obs"] := by
  rcases m with _ | (_ | _) <;> cases fitting <;> rfl

/-- **C75.** With distinct effect names without `/`, none of them reserved: no run of the model
fails for a name, the unknowns of the fitted model are exactly those of the trend, those of each
effect under the name of the effect, and those of the likelihood, and no two of them share a
name, whatever the number and the types of the effects. -/
theorem C75_unknowns {t : TrendType} {effects : List (String × EffectType)} {m : ModelType}
    (h : GoodNames t effects m) :
    (expectedParams t effects m).Nodup ∧
    (∃ tr, traceOf t effects m true = .ok tr ∧ latentNames tr = expectedParams t effects m) ∧
    ∃ tr, traceOf t effects m false = .ok tr ∧
      latentNames tr = expectedParams t effects m ++ ["obs"] := by
  have key : ∀ fitting, latentNames ((modelSites t.sites
      (effects.map fun e => (e.1, e.2.sites)) (m.sites fitting)).map fun s => (s.name, s.kind))
      = expectedParams t effects m ++ if fitting then [] else ["obs"] := by
    intro fitting
    rw [latentNames_map]
    have : ∀ l : List (String × EffectType),
        ((List.flatMap effectSites (l.map fun e => (e.1, e.2.sites))).filter
          fun s => s.kind = .latent).map Site.name
        = l.flatMap fun e => e.2.params.map fun p => e.1 ++ "/" ++ p := by
      intro l
      induction l with
      | nil => rfl
      | cons e l ih =>
        simp only [List.map_cons, List.flatMap_cons, List.filter_append, List.map_append]
        rw [ih, effect_latent]
    have hm : modelSites t.sites (effects.map fun e => (e.1, e.2.sites)) (m.sites fitting)
        = t.sites ++ (⟨.deterministic, "trend"⟩ ::
          (List.flatMap effectSites (effects.map fun e => (e.1, e.2.sites)) ++ m.sites fitting)) := by
      simp only [modelSites, List.append_assoc, List.cons_append]
      rfl
    rw [hm, List.filter_append, List.filter_cons_of_neg (by simp), List.filter_append,
      List.map_append, List.map_append, this, trend_latent, model_latent]
    simp [expectedParams]
  refine ⟨?_, ⟨_, (traceOf_eq h true).2, by simpa using key true⟩,
    _, (traceOf_eq h false).2, by simpa using key false⟩
  have := key true
  simp only [if_pos, List.append_nil] at this
  rw [← this, latentNames_map]
  exact (traceOf_eq h true).1.sublist (List.Sublist.map _ List.filter_sublist)

/-- **C75.** Under the same conditions the run records the contribution of the trend, of every
effect, and the observations, each under its own name, and prediction returns them. -/
theorem C75_contributions {t : TrendType} {effects : List (String × EffectType)} {m : ModelType}
    (h : GoodNames t effects m) :
    ∃ tr, traceOf t effects m false = .ok tr ∧ tr.keys.Nodup ∧
      (∀ n ∈ "trend" :: effects.map Prod.fst, tr.get? n = some .deterministic) ∧
      tr.get? "obs" = some .latent ∧
      ∀ n ∈ "obs" :: "trend" :: effects.map Prod.fst,
        n ∈ returnedNames (expectedParams t effects m) tr := by
  obtain ⟨hnd, htr⟩ := traceOf_eq h false
  have hkeys : (PyDict.keys ((modelSites t.sites (effects.map fun e => (e.1, e.2.sites))
      (m.sites false)).map fun s => (s.name, s.kind))).Nodup := by
    simpa [PyDict.keys, List.map_map, Function.comp_def] using hnd
  refine ⟨_, htr, hkeys, ?_, ?_, ?_⟩
  · intro n hn
    refine PyDict.get?_of_mem hkeys (List.mem_map.2 ⟨⟨.deterministic, n⟩, ?_, rfl⟩)
    unfold modelSites
    rcases List.mem_cons.1 hn with rfl | hn
    · simp
    · obtain ⟨e, he, rfl⟩ := List.mem_map.1 hn
      refine List.mem_append_left _ (List.mem_append_right _ (List.mem_cons_of_mem _ ?_))
      exact List.mem_flatMap.2 ⟨_, List.mem_map.2 ⟨e, he, rfl⟩, by simp⟩
  · refine PyDict.get?_of_mem hkeys (List.mem_map.2 ⟨⟨.latent, "obs"⟩, ?_, rfl⟩)
    refine List.mem_append_right _ ?_
    rcases m with _ | (_ | _) <;> decide +kernel
  · have hobs : "obs" ∉ expectedParams t effects m := by
      obtain ⟨_, _, tr, htr', hl⟩ := C75_unknowns h
      have : (latentNames tr).Nodup := by
        rw [htr] at htr'
        cases htr'
        rw [latentNames_map]
        exact hnd.sublist (List.Sublist.map _ List.filter_sublist)
      rw [hl, List.nodup_append] at this
      exact fun hm => this.2.2 _ hm _ (by simp) rfl
    intro n hn
    unfold returnedNames
    rcases List.mem_cons.1 hn with rfl | hn
    · refine List.mem_map.2 ⟨("obs", .latent), List.mem_filter.2 ⟨?_, by
        simp [SiteKind.isSample, hobs]⟩, rfl⟩
      refine List.mem_map.2 ⟨⟨.latent, "obs"⟩, ?_, rfl⟩
      refine List.mem_append_right _ ?_
      rcases m with _ | (_ | _) <;> decide +kernel
    · refine List.mem_map.2 ⟨(n, .deterministic), List.mem_filter.2 ⟨?_, by simp⟩, rfl⟩
      refine List.mem_map.2 ⟨⟨.deterministic, n⟩, ?_, rfl⟩
      unfold modelSites
      rcases List.mem_cons.1 hn with rfl | hn
      · simp
      · obtain ⟨e, he, rfl⟩ := List.mem_map.1 hn
        refine List.mem_append_left _ (List.mem_append_right _ (List.mem_cons_of_mem _ ?_))
        exact List.mem_flatMap.2 ⟨_, List.mem_map.2 ⟨e, he, rfl⟩, by simp⟩

/-- Two effects of the same type, one with lift experiments, and a seasonality. -/
def exEffects75 : List (String × EffectType) :=
  [("seasonality", .plain .fourier), ("ads", .plain .hill), ("ads2", .lift .hill),
    ("holidays", .plain .linear)]

example : GoodNames .logistic exEffects75 .univariate :=
  ⟨by decide +kernel, by decide +kernel, by decide +kernel⟩

example : expectedParams .logistic exEffects75 .univariate =
    ["capacity", "offset", "changepoint_coefficients", "seasonality/coefs", "ads/half_max",
      "ads/slope", "ads/max_effect", "ads2/half_max", "ads2/slope", "ads2/max_effect",
      "holidays/coefs", "noise_scale"] := by decide +kernel

/-! ## Names that do not work -/

/-- Nothing but a name clash stops the recording. -/
theorem foldlM_recordSite_error {l : List Site} {t : PyDict SiteKind} {x : PyErr}
    (h : l.foldlM recordSite t = .error x) : x = .assertionError := by
  induction l generalizing t with
  | nil => cases h
  | cons s l ih =>
    rw [List.foldlM_cons] at h
    cases hr : recordSite t s with
    | error y =>
      rw [hr] at h
      unfold recordSite at hr
      split at hr
      · cases hr
        cases h
        rfl
      · cases hr
    | ok t' =>
      rw [hr] at h
      exact ih h

theorem foldlM_recordSite_append {l l' : List Site} {t t' : PyDict SiteKind}
    (h : (l ++ l').foldlM recordSite t = .ok t') :
    ∃ t1, l.foldlM recordSite t = .ok t1 ∧ l'.foldlM recordSite t1 = .ok t' := by
  rw [List.foldlM_append] at h
  cases h1 : l.foldlM recordSite t with
  | error e => rw [h1] at h; cases h
  | ok t1 => rw [h1] at h; exact ⟨t1, rfl, h⟩

/-- A name that was taken stays taken by something that is not a random variable. -/
theorem foldlM_recordSite_keep {l : List Site} {t t' : PyDict SiteKind} {n : String}
    {k : SiteKind} (hk : k.isSample = false) (hg : t.get? n = some k)
    (h : l.foldlM recordSite t = .ok t') :
    (∃ k', k'.isSample = false ∧ t'.get? n = some k') ∧
      ∀ s ∈ l, s.name = n → s.kind.isSample = false := by
  induction l generalizing t k with
  | nil => cases h; exact ⟨⟨k, hk, hg⟩, by simp⟩
  | cons s l ih =>
    rw [List.foldlM_cons] at h
    have hmem : n ∈ t.keys := PyDict.get?_isSome_iff.1 (by rw [hg]; rfl)
    unfold recordSite at h
    split at h
    · cases h
    · rename_i hs
      by_cases hn : s.name = n
      · have hsk : s.kind.isSample = false := by
          rw [hn] at hs
          simpa [hmem] using hs
        obtain ⟨h1, h2⟩ := ih (t := t.set s.name s.kind) hsk
          (by rw [PyDict.get?_set, if_pos hn]) h
        exact ⟨h1, fun s' hs' hn' => by
          rcases List.mem_cons.1 hs' with rfl | hs'
          · exact hsk
          · exact h2 s' hs' hn'⟩
      · obtain ⟨h1, h2⟩ := ih (t := t.set s.name s.kind) hk
          (by rw [PyDict.get?_set, if_neg hn, hg]) h
        exact ⟨h1, fun s' hs' hn' => by
          rcases List.mem_cons.1 hs' with rfl | hs'
          · exact absurd hn' hn
          · exact h2 s' hs' hn'⟩

theorem modelSites_split {trend obs : List Site} {effects : PyDict (List Site)} {n : String}
    (h : n ∈ effects.keys) :
    ∃ A B, modelSites trend effects obs = A ++ ⟨.deterministic, n⟩ :: (B ++ obs) := by
  obtain ⟨e, he, rfl⟩ := List.mem_map.1 h
  obtain ⟨l1, l2, rfl⟩ := List.append_of_mem he
  refine ⟨trend ++ ⟨.deterministic, "trend"⟩ :: (List.flatMap effectSites l1 ++
    e.2.map (Site.scope e.1)), List.flatMap effectSites l2, ?_⟩
  have : ∀ l : PyDict (List Site), (l.flatMap fun e => e.2.map (Site.scope e.1) ++
    [(⟨.deterministic, e.1⟩ : Site)]) = List.flatMap effectSites l := fun l => rfl
  simp only [modelSites, this]
  simp [effectSites]

/-- A run in which an effect is called `n`: after it, `n` is never an unknown. -/
theorem named_effect {trend obs : List Site} {effects : PyDict (List Site)} {n : String}
    (h : n ∈ effects.keys) {tr : PyDict SiteKind}
    (hr : runTrace (modelSites trend effects obs) = .ok tr) :
    (∃ k, k.isSample = false ∧ tr.get? n = some k) ∧
      ∀ s ∈ obs, s.name = n → s.kind.isSample = false := by
  obtain ⟨A, B, hAB⟩ := modelSites_split (trend := trend) (obs := obs) h
  unfold runTrace at hr
  rw [hAB] at hr
  obtain ⟨t1, -, h2⟩ := foldlM_recordSite_append hr
  rw [List.foldlM_cons] at h2
  have h3 : recordSite t1 ⟨.deterministic, n⟩ = .ok (t1.set n .deterministic) := by
    simp [recordSite, SiteKind.isSample]
  rw [h3] at h2
  obtain ⟨h4, h5⟩ := foldlM_recordSite_keep (n := n) (k := .deterministic) rfl
    (by rw [PyDict.get?_set, if_pos rfl]) h2
  exact ⟨h4, fun s hs => h5 s (List.mem_append_right _ hs)⟩

theorem not_latent_of_get? {tr : PyDict SiteKind} {n : String} {k : SiteKind}
    (hn : tr.keys.Nodup) (hk : k.isSample = false) (hg : tr.get? n = some k) :
    n ∉ latentNames tr := by
  intro h
  obtain ⟨p, hp, rfl⟩ := List.mem_map.1 h
  obtain ⟨hp1, hp2⟩ := List.mem_filter.1 hp
  rw [PyDict.get?_of_mem hn (v := p.2) hp1] at hg
  cases hg
  rw [of_decide_eq_true hp2] at hk
  cases hk

theorem mem_traceOf_keys {effects : List (String × EffectType)} {n : String}
    (h : n ∈ effects.map Prod.fst) :
    n ∈ PyDict.keys (effects.map fun e => (e.1, e.2.sites)) := by
  simpa [PyDict.keys, List.map_map, Function.comp_def] using h

/-- **C75 (false for these names).** An effect with the name of an unknown of the trend (such as
`offset` or `capacity`): the fit fails, or that unknown of the trend is not among the unknowns
that are fitted.  Nothing warns the user in the second case. -/
theorem C75_trend_names_refuted {t : TrendType} {effects : List (String × EffectType)}
    {m : ModelType} (fitting : Bool) {n : String} (hn : n ∈ t.params)
    (h : n ∈ effects.map Prod.fst) :
    traceOf t effects m fitting = .error .assertionError ∨
      ∃ tr, traceOf t effects m fitting = .ok tr ∧ n ∈ expectedParams t effects m ∧
        n ∉ latentNames tr := by
  cases hr : traceOf t effects m fitting with
  | error x => exact .inl (by rw [foldlM_recordSite_error hr])
  | ok tr =>
    obtain ⟨⟨k, hk, hg⟩, -⟩ := named_effect (mem_traceOf_keys h) hr
    refine .inr ⟨tr, rfl, by simp [expectedParams, hn], not_latent_of_get? ?_ hk hg⟩
    exact (foldlM_recordSite_length _ [] tr (by simp [PyDict.keys]) hr).1

/-- **C75 (false for these names).** An effect called `obs`, or like an unknown of the likelihood
(`noise_scale`, `std_observation`, `corr_matrix`): every fit and every prediction fails with
`AssertionError`. -/
theorem C75_likelihood_names_refuted {t : TrendType} {effects : List (String × EffectType)}
    {m : ModelType} (fitting : Bool) {n : String} (hn : n ∈ "obs" :: m.params)
    (h : n ∈ effects.map Prod.fst) :
    traceOf t effects m fitting = .error .assertionError := by
  cases hr : traceOf t effects m fitting with
  | error x => rw [foldlM_recordSite_error hr]
  | ok tr =>
    obtain ⟨-, h2⟩ := named_effect (mem_traceOf_keys h) hr
    have : ∀ n ∈ "obs" :: m.params, ∃ s ∈ m.sites fitting, s.name = n ∧ s.kind.isSample = true := by
      rcases m with _ | (_ | _) <;> cases fitting <;> decide +kernel
    obtain ⟨s, hs, hsn, hsk⟩ := this n hn
    rw [h2 s hs hsn] at hsk
    cases hsk

/-- **C75 (false for these names).** An effect called `data` (for one series) or `time` (in a
hierarchy): the fit fails, or the contribution of the effect is not among the values that
prediction returns. -/
theorem C75_plate_names_refuted {t : TrendType} {effects : List (String × EffectType)}
    {m : ModelType} (fitting : Bool)
    (h : (if m = .univariate then "data" else "time") ∈ effects.map Prod.fst)
    (known : List String) :
    traceOf t effects m fitting = .error .assertionError ∨
      ∃ tr, traceOf t effects m fitting = .ok tr ∧
        (if m = .univariate then "data" else "time") ∉ returnedNames known tr := by
  cases hr : traceOf t effects m fitting with
  | error x => exact .inl (by rw [foldlM_recordSite_error hr])
  | ok tr =>
    refine .inr ⟨tr, rfl, ?_⟩
    have hnd := (foldlM_recordSite_length _ [] tr (by simp [PyDict.keys]) hr).1
    obtain ⟨M, hM⟩ : ∃ M, ∀ obs, modelSites t.sites (effects.map fun e => (e.1, e.2.sites)) obs
      = M ++ obs := ⟨_, fun _ => rfl⟩
    obtain ⟨A, hA⟩ : ∃ A, modelSites t.sites (effects.map fun e => (e.1, e.2.sites))
        (m.sites fitting) = A ++ [⟨.plate, if m = .univariate then "data" else "time"⟩,
          ⟨obsKind fitting, "obs"⟩] := by
      rw [hM]
      rcases m with _ | (_ | _)
      · exact ⟨M ++ [⟨.latent, "noise_scale"⟩], by
          simp [ModelType.sites, univariateObsSites]⟩
      · exact ⟨M ++ [⟨.latent, "std_observation"⟩, ⟨.latent, "corr_matrix"⟩], by
          simp [ModelType.sites, multivariateObsSites]⟩
      · exact ⟨M ++ [⟨.latent, "std_observation"⟩], by
          simp [ModelType.sites, multivariateObsSites]⟩
    generalize hq : (if m = .univariate then "data" else "time") = q at *
    have hqo : "obs" ≠ q := by rw [← hq]; split <;> decide
    unfold traceOf runTrace at hr
    rw [hA] at hr
    obtain ⟨t1, -, h2⟩ := foldlM_recordSite_append hr
    have hg : tr.get? q = some .plate := by
      have h3 : recordSite t1 ⟨.plate, q⟩ = .ok (t1.set q .plate) := by
        simp [recordSite, SiteKind.isSample]
      rw [List.foldlM_cons, h3] at h2
      rw [show ((Except.ok (t1.set q .plate) : PyM _) >>= fun t =>
        List.foldlM recordSite t [⟨obsKind fitting, "obs"⟩])
        = recordSite (t1.set q .plate) ⟨obsKind fitting, "obs"⟩ >>= pure from rfl] at h2
      unfold recordSite at h2
      split at h2
      · cases h2
      · cases h2
        rw [PyDict.get?_set, if_neg hqo, PyDict.get?_set, if_pos rfl]
    intro h'
    obtain ⟨p, hp, hpq⟩ := List.mem_map.1 h'
    obtain ⟨hp1, hp2⟩ := List.mem_filter.1 hp
    rw [← hpq, PyDict.get?_of_mem hnd (v := p.2) hp1] at hg
    rw [Option.some.inj hg] at hp2
    simp [SiteKind.isSample] at hp2

/-- **C75 (false with slashes).** The names `a` and `a/coefs` are different, but the contribution
of the second effect takes the place of the coefficients of the first. -/
theorem C75_slash_refuted : ∃ tr,
    traceOf .flat [("a", .plain .linear), ("a/coefs", .plain .log)] .univariate true = .ok tr ∧
    "a/coefs" ∉ latentNames tr := by
  refine ⟨((traceOf .flat [("a", .plain .linear), ("a/coefs", .plain .log)] .univariate
    true).toOption).getD [], ?_, ?_⟩ <;> decide +kernel

theorem foldlM_recordSite_taken {l : List Site} {t t' : PyDict SiteKind} {n : String}
    (hn : n ∈ t.keys) (h : l.foldlM recordSite t = .ok t') :
    ∀ s ∈ l, s.name = n → s.kind.isSample = false := by
  induction l generalizing t with
  | nil => simp
  | cons s l ih =>
    rw [List.foldlM_cons] at h
    unfold recordSite at h
    split at h
    · cases h
    · rename_i hs
      have hn' : n ∈ (t.set s.name s.kind).keys := by
        rw [PyDict.keys_set]
        split
        · exact hn
        · exact List.mem_append_left _ hn
      intro s' hs' he
      rcases List.mem_cons.1 hs' with rfl | hs'
      · rw [he] at hs
        simpa [hn] using hs
      · exact ih hn' h s' hs' he

/-- **C75 (false when nested).** Lift experiments added to an effect that already has some: the
site of the observed lifts comes twice, and every run fails, whatever the rest of the model. -/
theorem C75_nested_lift_refuted {trend obs inner : List Site} {effects : PyDict (List Site)}
    {name : String} (h : (name, liftSites (liftSites inner)) ∈ effects) :
    runTrace (modelSites trend effects obs) = .error .assertionError := by
  obtain ⟨l1, l2, rfl⟩ := List.append_of_mem h
  have hl : ∃ A B, modelSites trend (l1 ++ (name, liftSites (liftSites inner)) :: l2) obs
      = A ++ (⟨.observed, name ++ "/" ++ "lift_experiment"⟩ : Site) ::
        ⟨.observed, name ++ "/" ++ "lift_experiment"⟩ :: B := by
    refine ⟨trend ++ ⟨.deterministic, "trend"⟩ :: (List.flatMap effectSites l1 ++
      inner.map (Site.scope name)),
      ⟨.deterministic, name⟩ :: (List.flatMap effectSites l2 ++ obs), ?_⟩
    have : ∀ l : PyDict (List Site), (l.flatMap fun e => e.2.map (Site.scope e.1) ++
      [(⟨.deterministic, e.1⟩ : Site)]) = List.flatMap effectSites l := fun l => rfl
    simp only [modelSites, this]
    simp [effectSites, liftSites, Site.scope]
  obtain ⟨A, B, hAB⟩ := hl
  cases hr : runTrace (modelSites trend (l1 ++ (name, liftSites (liftSites inner)) :: l2) obs) with
  | error x => rw [foldlM_recordSite_error hr]
  | ok tr =>
    unfold runTrace at hr
    rw [hAB] at hr
    obtain ⟨t1, -, h2⟩ := foldlM_recordSite_append hr
    rw [List.foldlM_cons] at h2
    cases h3 : recordSite t1 ⟨.observed, name ++ "/" ++ "lift_experiment"⟩ with
    | error x => rw [h3] at h2; cases h2
    | ok t2 =>
      rw [h3] at h2
      have hk : name ++ "/" ++ "lift_experiment" ∈ t2.keys := by
        unfold recordSite at h3
        split at h3
        · cases h3
        · cases h3
          rw [PyDict.keys_set]
          split
          · assumption
          · simp
      have := foldlM_recordSite_taken hk h2 _ (List.mem_cons_self ..) rfl
      cases this

end PV
