import Mathlib.Algebra.Order.Ring.Rat
import Verif.Model.EffectBase
import Verif.Lemmas.Mean
import Verif.Props.EffectModes

/-!
# C23, C24: how effects are combined into the mean
-/

namespace PV
open Tensor
variable {D K : Type}

/-- Specification of a run of the effects: `vals[k]` is what the `k`-th effect returns on
its own data when shown the trend and the values of the effects before it, and nothing
else. -/
def RunsInOrder (θ : SiteEnv K) (data : PyDict D) (effects : PyDict (EffectCall D K))
    (trend : Tensor K) (vals : List (Tensor K)) : Prop :=
  vals.length = effects.length ∧
  ∀ (k : Nat) (n : String) (f : EffectCall D K) (v : Tensor K), effects[k]? = some (n, f) → vals[k]? = some v →
    ∃ d, data.get? n = some d ∧
      f (θ.scope n) d (("trend", trend) :: ((effects.map Prod.fst).take k).zip (vals.take k))
        = .ok v

theorem take_zip_eq {α β : Type} (k : Nat) (a : List α) (b : List β) :
    (a.zip b).take k = (a.take k).zip (b.take k) := by
  simp [List.zip, List.take_zipWith]

variable [AddCommGroup K]

/-- **C24**: the `k`-th effect is evaluated with exactly the trend and the effects before it,
and the recorded sites are the trend and all effect values under their names. -/
theorem C24_sees_earlier {trendFn : EffectCall D K} {td : D} {data : PyDict D}
    {effects : PyDict (EffectCall D K)} {θ : SiteEnv K} {st : MeanState K}
    (hn : (effects.map Prod.fst).Nodup) (htr : "trend" ∉ effects.map Prod.fst)
    (h : computeMean trendFn td data effects θ = .ok st) :
    ∃ trend vals, trendFn θ td [] = .ok trend ∧ RunsInOrder θ data effects trend vals ∧
      st.sites = ("trend", trend) :: (effects.map Prod.fst).zip vals := by
  unfold computeMean at h
  cases ht : trendFn θ td [] with
  | error e => rw [ht] at h; cases h
  | ok t =>
    rw [ht] at h
    simp only [bind, Except.bind] at h
    obtain ⟨vals, hl, hp, hs, -, hk⟩ := foldlM_meanStep effects _ st hn (by
      intro e he
      simp only [PyDict.keys, List.map_cons, List.map_nil, List.mem_singleton]
      intro h0
      exact htr (h0 ▸ List.mem_map.2 ⟨e, he, rfl⟩)) rfl h
    refine ⟨t, vals, rfl, ⟨hl, ?_⟩, by rw [hs, hp]; rfl⟩
    intro k n f v he hv
    obtain ⟨d, hd, hf⟩ := hk k n f v he hv
    refine ⟨d, hd, ?_⟩
    rw [← hf, take_zip_eq]
    rfl

/-- **C24**: the mean is the trend plus the sum of all effect values, entry by entry, when
all effects have the shape of the trend. -/
theorem C24_mean_is_sum {trendFn : EffectCall D K} {td : D} {data : PyDict D}
    {effects : PyDict (EffectCall D K)} {θ : SiteEnv K} {trend : Tensor K}
    {vals : List (Tensor K)}
    (hn : (effects.map Prod.fst).Nodup) (htr : "trend" ∉ effects.map Prod.fst)
    (ht : trendFn θ td [] = .ok trend) (hw : trend.WF)
    (hv : ∀ v ∈ vals, v.shape = trend.shape)
    (hrun : RunsInOrder θ data effects trend vals) :
    ∃ st, computeMean trendFn td data effects θ = .ok st ∧
      st.mean.shape = trend.shape ∧ st.mean.WF ∧
      ∀ idx, InBounds trend.shape idx → st.mean.get? idx
        = some ((trend.get? idx).getD 0 + (vals.map fun v => (v.get? idx).getD 0).sum) := by
  obtain ⟨m, hm, hms, hmw, hmg⟩ := foldlM_add_same vals trend rfl hw hv
  obtain ⟨st, h1, h2⟩ := foldlM_meanStep_ok (θ := θ) (data := data) effects vals
    ⟨trend, [("trend", trend)], [("trend", trend)]⟩ m hn (by
      intro e he
      simp only [PyDict.keys, List.map_cons, List.map_nil, List.mem_singleton]
      intro h0
      exact htr (h0 ▸ List.mem_map.2 ⟨e, he, rfl⟩)) hrun.1 hm (by
      intro k n f v he hv
      obtain ⟨d, hd, hf⟩ := hrun.2 k n f v he hv
      refine ⟨d, hd, ?_⟩
      rw [← hf, take_zip_eq]
      rfl)
  refine ⟨st, ?_, ?_⟩
  · unfold computeMean
    simp only [ht, bind, Except.bind]
    exact h1
  · rw [h2]
    exact ⟨hms, hmw, hmg⟩

/-- **C24** for effects written by users: the method `_predict` of an additive or
multiplicative effect at position `k` is given the trend and the values of the effects
before it, under their names, and nothing else; its value (times the trend, if
multiplicative) is what is recorded for the effect. -/
theorem C24_custom {K : Type} [Ring K] {trendFn : EffectCall D K} {td : D} {data : PyDict D}
    {effects : PyDict (EffectCall D K)} {θ : SiteEnv K} {st : MeanState K}
    (hn : (effects.map Prod.fst).Nodup) (htr : "trend" ∉ effects.map Prod.fst)
    (htw : ∀ t, trendFn θ td [] = .ok t → t.WF)
    (h : computeMean trendFn td data effects θ = .ok st)
    {k : Nat} {n : String} {e : AddMul D K} (hk : effects[k]? = some (n, e.call)) :
    ∃ trend d x v, st.sites.get? "trend" = some trend ∧ data.get? n = some d ∧
      e.raw (θ.scope n) d (st.sites.take (k + 1)) = .ok x ∧
      st.sites[k + 1]? = some (n, v) ∧
      v.data = if e.mode = "additive" then x.data
        else List.zipWith (· * ·) trend.data x.data := by
  obtain ⟨trend, vals, ht, ⟨hl, hrun⟩, hs⟩ := C24_sees_earlier hn htr h
  have hkl : k < effects.length := (List.getElem?_eq_some_iff.1 hk).1
  have hv : vals[k]? = some (vals[k]'(hl ▸ hkl)) := List.getElem?_eq_getElem (hl ▸ hkl)
  obtain ⟨d, hd, hf⟩ := hrun k n _ _ hk hv
  generalize vals[k]'(hl ▸ hkl) = v at hv hf
  have hpre : st.sites.take (k + 1)
      = ("trend", trend) :: ((effects.map Prod.fst).take k).zip (vals.take k) := by
    rw [hs, List.take_succ_cons, take_zip_eq]
  have hget : PyDict.get? (st.sites.take (k + 1)) "trend" = some trend := by rw [hpre]; rfl
  rw [← hpre] at hf
  have hx : ∃ x, e.raw (θ.scope n) d (st.sites.take (k + 1)) = .ok x := by
    cases hx : e.raw (θ.scope n) d (st.sites.take (k + 1)) with
    | ok x => exact ⟨x, rfl⟩
    | error err =>
      exfalso
      have hg := PyDict.getItem_ok.2 hget
      unfold AddMul.call AddMul.predict basePredict at hf
      simp only [hg, bind, Except.bind, Option.getD_some, hx] at hf
      split at hf <;> cases hf
  obtain ⟨x, hx⟩ := hx
  refine ⟨trend, d, x, v, by rw [hs]; rfl, hd, hx, ?_, ?_⟩
  · rw [hs, List.getElem?_cons_succ, List.getElem?_zip_eq_some]
    refine ⟨?_, hv⟩
    rw [List.getElem?_map, hk]; rfl
  · rw [addMul_predict_unfold hget (htw _ ht) hx] at hf
    split at hf
    · split at hf <;> (rw [Except.ok.injEq] at hf; subst hf; simp [*])
    · cases hf

/-- An effect that reads nothing but the trend from `predicted_effects`. -/
def ReadsOnlyTrend (f : EffectCall D K) : Prop :=
  ∀ θ d (p p' : PyDict (Tensor K)), p.get? "trend" = p'.get? "trend" → f θ d p = f θ d p'

/-- An effect whose value has the shape of the trend. -/
def ShapedLikeTrend (f : EffectCall D K) : Prop :=
  ∀ θ d (p : PyDict (Tensor K)) t v, p.get? "trend" = some t → t.WF → t.ndim ≠ 1 →
    f θ d p = .ok v → v.shape = t.shape

theorem runsInOrder_indep {θ : SiteEnv K} {data : PyDict D}
    {effects : PyDict (EffectCall D K)} {trend : Tensor K} {vals : List (Tensor K)}
    (hr : ∀ e ∈ effects, ReadsOnlyTrend e.2) :
    RunsInOrder θ data effects trend vals ↔
    List.Forall₂ (fun (e : String × EffectCall D K) v => ∃ d, data.get? e.1 = some d ∧
      e.2 (θ.scope e.1) d [("trend", trend)] = .ok v) effects vals := by
  rw [List.forall₂_iff_get]
  constructor
  · rintro ⟨hl, h⟩
    refine ⟨hl.symm, ?_⟩
    intro i h1 h2
    obtain ⟨d, hd, hf⟩ := h i effects[i].1 effects[i].2 vals[i]
      (List.getElem?_eq_getElem h1) (List.getElem?_eq_getElem h2)
    exact ⟨d, hd, (hr _ (List.getElem_mem h1) _ _ [("trend", trend)]
      (("trend", trend) :: ((effects.map Prod.fst).take i).zip (vals.take i)) rfl).trans hf⟩
  · rintro ⟨hl, h⟩
    refine ⟨hl.symm, ?_⟩
    intro k n f v he hv
    obtain ⟨h1, he'⟩ := List.getElem?_eq_some_iff.1 he
    obtain ⟨h2, hv'⟩ := List.getElem?_eq_some_iff.1 hv
    obtain ⟨d, hd, hf⟩ := h k h1 h2
    simp only [List.get_eq_getElem, he', hv'] at hd hf
    refine ⟨d, hd, ?_⟩
    rw [← hf]
    have := hr _ (List.mem_of_getElem? he)
    exact this _ _ _ _ rfl

/-- **C23**: permuting effects that read only the trend leaves the mean unchanged. -/
theorem C23_order_irrelevant {trendFn : EffectCall D K} {td : D} {data data' : PyDict D}
    {effects effects' : PyDict (EffectCall D K)} {θ : SiteEnv K} {st : MeanState K}
    (hperm : effects.Perm effects') (hdata : ∀ n, data.get? n = data'.get? n)
    (hn : (effects.map Prod.fst).Nodup) (htr : "trend" ∉ effects.map Prod.fst)
    (hr : ∀ e ∈ effects, ReadsOnlyTrend e.2) (hsh : ∀ e ∈ effects, ShapedLikeTrend e.2)
    (htrend : ∀ t, trendFn θ td [] = .ok t → t.WF ∧ t.ndim ≠ 1)
    (h : computeMean trendFn td data effects θ = .ok st) :
    ∃ st', computeMean trendFn td data' effects' θ = .ok st' ∧ st'.mean = st.mean := by
  obtain ⟨trend, vals, ht, hrun, -⟩ := C24_sees_earlier hn htr h
  obtain ⟨hw, hnd⟩ := htrend trend ht
  have hn' : (effects'.map Prod.fst).Nodup := (hperm.map Prod.fst).nodup_iff.1 hn
  have htr' : "trend" ∉ effects'.map Prod.fst :=
    fun hm => htr ((hperm.map Prod.fst).mem_iff.2 hm)
  have hr' : ∀ e ∈ effects', ReadsOnlyTrend e.2 := fun e he => hr e (hperm.mem_iff.2 he)
  have hf := (runsInOrder_indep hr).1 hrun
  have hvs : ∀ v ∈ vals, v.shape = trend.shape := by
    intro v hv
    rw [List.forall₂_iff_get] at hf
    obtain ⟨i, hi, rfl⟩ := List.getElem_of_mem hv
    have hi' : i < effects.length := by rw [hf.1]; exact hi
    obtain ⟨d, -, hfd⟩ := hf.2 i hi' hi
    exact hsh _ (List.getElem_mem hi') _ _ _ _ _ rfl hw hnd hfd
  obtain ⟨vals', hpv, hf'⟩ := List.perm_comp_forall₂ hperm.symm hf
  have hf'' : List.Forall₂ (fun (e : String × EffectCall D K) v => ∃ d, data'.get? e.1 = some d ∧
      e.2 (θ.scope e.1) d [("trend", trend)] = .ok v) effects' vals' := by
    refine hpv.imp ?_
    rintro e v ⟨d, hd, hfd⟩
    exact ⟨d, by rw [← hdata]; exact hd, hfd⟩
  have hrun' := (runsInOrder_indep hr').2 hf''
  obtain ⟨st1, hs1, hsh1, hw1, hg1⟩ := C24_mean_is_sum hn htr ht hw hvs hrun
  obtain ⟨st2, hs2, hsh2, hw2, hg2⟩ := C24_mean_is_sum hn' htr' ht hw
    (fun v hv => hvs v (hf'.mem_iff.1 hv)) hrun'
  have : st1 = st := by
    rw [hs1] at h
    exact Except.ok.inj h
  subst this
  refine ⟨st2, hs2, ext_of_get? hw2 hw1 (hsh2.trans hsh1.symm) ?_⟩
  intro idx hi
  rw [hsh2] at hi
  rw [hg1 idx hi, hg2 idx hi, (hf'.map _).sum_eq]

/-- Built-in effects derive from the additive/multiplicative base class and their `_predict`
does not look at `predicted_effects`: they read only the trend. -/
theorem addMul_readsOnlyTrend {K : Type} [Ring K] {e : AddMul D K}
    (hraw : ∀ θ d (p p' : PyDict (Tensor K)), e.raw θ d p = e.raw θ d p') :
    ReadsOnlyTrend e.call := by
  intro θ d p p' h
  have hg : p.getItem "trend" = p'.getItem "trend" := by unfold PyDict.getItem; rw [h]
  unfold AddMul.call AddMul.predict basePredict
  simp only [hg, Option.getD_some, hraw θ d p p']

theorem addMul_shaped {K : Type} [Ring K] (e : AddMul D K) : ShapedLikeTrend e.call := by
  intro θ d p t v ht hw hnd h
  have hg : p.getItem "trend" = .ok t := PyDict.getItem_ok.2 ht
  cases hx : e.raw θ d p with
  | error err =>
    unfold AddMul.call AddMul.predict basePredict trendAsColumn at h
    simp only [hg, bind, Except.bind, if_neg hnd, Option.getD_some, hx] at h
    cases h
  | ok x =>
    have hts : trendShape t = t.shape := by
      unfold trendShape
      split
      · rename_i n hn
        exact absurd (by simp [ndim, hn]) hnd
      · rfl
    rw [addMul_predict_unfold ht hw hx] at h
    split at h
    · split at h <;> (rw [Except.ok.injEq] at h; rw [← h]; exact hts)
    · cases h

/-- **C23** for built-in effects: any permutation of additive/multiplicative effects whose
raw value does not depend on `predicted_effects`. -/
theorem C23_builtin {K : Type} [Ring K] {trendFn : EffectCall D K} {td : D} {data : PyDict D}
    {effects effects' : PyDict (AddMul D K)} {θ : SiteEnv K} {st : MeanState K}
    (hperm : effects.Perm effects')
    (hn : (effects.map Prod.fst).Nodup) (htr : "trend" ∉ effects.map Prod.fst)
    (hraw : ∀ e ∈ effects, ∀ θ d (p p' : PyDict (Tensor K)), e.2.raw θ d p = e.2.raw θ d p')
    (htrend : ∀ t, trendFn θ td [] = .ok t → t.WF ∧ t.ndim ≠ 1)
    (h : computeMean trendFn td data (effects.map fun e => (e.1, e.2.call)) θ = .ok st) :
    ∃ st', computeMean trendFn td data (effects'.map fun e => (e.1, e.2.call)) θ = .ok st' ∧
      st'.mean = st.mean := by
  have hfst : ∀ l : PyDict (AddMul D K),
      (l.map fun e => (e.1, e.2.call)).map Prod.fst = l.map Prod.fst := by
    intro l; simp [Function.comp_def]
  refine C23_order_irrelevant (hperm.map _) (fun _ => rfl) (by rwa [hfst]) (by rwa [hfst])
    ?_ ?_ htrend h
  · intro e he
    obtain ⟨e0, he0, rfl⟩ := List.mem_map.1 he
    exact addMul_readsOnlyTrend (hraw e0 he0)
  · intro e he
    obtain ⟨e0, he0, rfl⟩ := List.mem_map.1 he
    exact addMul_shaped e0.2

/-! Example: a trend, an additive and a multiplicative effect, and a custom effect that reads
the effect before it. -/

def exTrendFn : EffectCall (Tensor ℚ) ℚ := fun _ d _ => .ok d
def exCustom : EffectCall (Tensor ℚ) ℚ := fun _ _ p => p.getItem "a"
def exAdd : EffectCall (Tensor ℚ) ℚ := AddMul.call ⟨"additive", exRaw⟩
def exMul : EffectCall (Tensor ℚ) ℚ := AddMul.call ⟨"multiplicative", exRaw⟩
def exData : PyDict (Tensor ℚ) :=
  [("a", ⟨[2, 1], [1, 2]⟩), ("b", ⟨[2, 1], [3, 4]⟩), ("c", ⟨[2, 1], [0, 0]⟩)]
def exθ : SiteEnv ℚ := fun _ => ⟨[], []⟩

example : ((computeMean exTrendFn ⟨[2, 1], [10, 20]⟩ exData
    [("a", exAdd), ("b", exMul), ("c", exCustom)] exθ).toOption.map fun s => s.mean)
    = some ⟨[2, 1], [10 + 1 + 30 + 1, 20 + 2 + 80 + 2]⟩ := by decide +kernel
example : ((computeMean exTrendFn ⟨[2, 1], [10, 20]⟩ exData
    [("b", exMul), ("a", exAdd)] exθ).toOption.map fun s => s.mean)
    = some ⟨[2, 1], [10 + 1 + 30, 20 + 2 + 80]⟩ := by decide +kernel
/-- A user's additive effect that reads the effect before it. -/
example : ((computeMean exTrendFn ⟨[2, 1], [10, 20]⟩ exData
    [("a", exAdd), ("c", AddMul.call ⟨"multiplicative", exCustom⟩)] exθ).toOption.map fun s =>
      s.sites)
    = some [("trend", ⟨[2, 1], [10, 20]⟩), ("a", ⟨[2, 1], [1, 2]⟩),
      ("c", ⟨[2, 1], [10, 40]⟩)] := by decide +kernel
/-- The custom effect cannot run before the effect it reads. -/
example : ((computeMean exTrendFn ⟨[2, 1], [10, 20]⟩ exData
    [("c", exCustom), ("a", exAdd)] exθ).toOption.map fun s => s.mean) = none := by decide +kernel

end PV
