import Verif.Model.Mean
import Verif.Lemmas.Broadcast
import Verif.Lemmas.Dict

namespace PV
open Tensor
variable {D K : Type} [AddCommGroup K]

/-- Unfolding of the loop of `_compute_mean_univariate` for fresh distinct names. -/
theorem foldlM_meanStep {θ : SiteEnv K} {data : PyDict D} :
    ∀ (effects : PyDict (EffectCall D K)) (st st' : MeanState K),
    (effects.map Prod.fst).Nodup → (∀ e ∈ effects, e.1 ∉ st.predicted.keys) →
    st.sites = st.predicted →
    effects.foldlM (meanStep θ data) st = .ok st' →
    ∃ vals : List (Tensor K), vals.length = effects.length ∧
      st'.predicted = st.predicted ++ (effects.map Prod.fst).zip vals ∧
      st'.sites = st'.predicted ∧
      vals.foldlM (binop (· + ·)) st.mean = .ok st'.mean ∧
      ∀ (k : Nat) (n : String) (f : EffectCall D K) (v : Tensor K),
        effects[k]? = some (n, f) → vals[k]? = some v →
        ∃ d, data.get? n = some d ∧
          f (θ.scope n) d (st.predicted ++ ((effects.map Prod.fst).zip vals).take k) = .ok v := by
  intro effects
  induction effects with
  | nil =>
    intro st st' _ _ hs h
    simp only [List.foldlM_nil, pure, Except.pure, Except.ok.injEq] at h
    subst h
    exact ⟨[], rfl, by simp, hs, rfl, by simp⟩
  | cons e l ih =>
    obtain ⟨n, f⟩ := e
    intro st st' hn hf hs h
    simp only [List.map_cons, List.nodup_cons] at hn
    rw [List.foldlM_cons] at h
    cases h1 : meanStep θ data st (n, f) with
    | error e => rw [h1] at h; cases h
    | ok st1 =>
      rw [h1] at h
      simp only [bind, Except.bind] at h
      unfold meanStep at h1
      simp only [bind, Except.bind] at h1
      cases hd : data.getItem n with
      | error e => rw [hd] at h1; cases h1
      | ok d =>
        rw [hd] at h1
        simp only at h1
        cases hv : f (θ.scope n) d st.predicted with
        | error e => rw [hv] at h1; cases h1
        | ok v =>
          rw [hv] at h1
          simp only at h1
          cases hm : binop (· + ·) st.mean v with
          | error e => rw [hm] at h1; cases h1
          | ok m =>
            rw [hm] at h1
            simp only [pure, Except.pure, Except.ok.injEq] at h1
            have hfresh : n ∉ st.predicted.keys := hf (n, f) (by simp)
            have hp1 : st1.predicted = st.predicted ++ [(n, v)] := by
              rw [← h1]
              exact PyDict.set_of_notMem hfresh
            have hs1 : st1.sites = st1.predicted := by
              rw [← h1]
              simp only
              rw [hs]
            have hm1 : st1.mean = m := by rw [← h1]
            obtain ⟨vals, hlen, hp, hs', hmean, hk⟩ := ih st1 st' hn.2 (by
              intro e he
              rw [hp1, PyDict.keys_append, List.mem_append, not_or]
              refine ⟨hf e (by simp [he]), ?_⟩
              simp only [PyDict.keys, List.map_cons, List.map_nil, List.mem_singleton]
              intro h0
              exact hn.1 (h0 ▸ List.mem_map.2 ⟨e, he, rfl⟩)) hs1 h
            refine ⟨v :: vals, by simp [hlen], ?_, hs', ?_, ?_⟩
            · rw [hp, hp1]
              simp
            · rw [List.foldlM_cons, hm]
              rw [hm1] at hmean
              exact hmean
            · intro k n' f' v' he hv'
              cases k with
              | zero =>
                simp only [List.getElem?_cons_zero, Option.some.injEq, Prod.mk.injEq] at he hv'
                obtain ⟨rfl, rfl⟩ := he
                subst hv'
                exact ⟨d, PyDict.getItem_ok.1 hd, by simpa using hv⟩
              | succ k =>
                simp only [List.getElem?_cons_succ] at he hv'
                obtain ⟨d', hd', hf'⟩ := hk k n' f' v' he hv'
                refine ⟨d', hd', ?_⟩
                rw [hp1] at hf'
                simpa using hf'

/-- Converse of `foldlM_meanStep`. -/
theorem foldlM_meanStep_ok {θ : SiteEnv K} {data : PyDict D} :
    ∀ (effects : PyDict (EffectCall D K)) (vals : List (Tensor K)) (st : MeanState K)
      (m : Tensor K),
    (effects.map Prod.fst).Nodup → (∀ e ∈ effects, e.1 ∉ st.predicted.keys) →
    vals.length = effects.length →
    vals.foldlM (binop (· + ·)) st.mean = .ok m →
    (∀ (k : Nat) (n : String) (f : EffectCall D K) (v : Tensor K),
        effects[k]? = some (n, f) → vals[k]? = some v →
        ∃ d, data.get? n = some d ∧
          f (θ.scope n) d (st.predicted ++ ((effects.map Prod.fst).zip vals).take k) = .ok v) →
    ∃ st', effects.foldlM (meanStep θ data) st = .ok st' ∧ st'.mean = m := by
  intro effects
  induction effects with
  | nil =>
    intro vals st m _ _ hl hm _
    have : vals = [] := by simpa using hl
    subst this
    simp only [List.foldlM_nil, pure, Except.pure, Except.ok.injEq] at hm
    exact ⟨st, rfl, hm⟩
  | cons e l ih =>
    obtain ⟨n, f⟩ := e
    intro vals st m hn hf hl hm hk
    cases vals with
    | nil => simp at hl
    | cons v vals =>
      simp only [List.map_cons, List.nodup_cons] at hn
      rw [List.foldlM_cons] at hm
      cases hm1 : binop (· + ·) st.mean v with
      | error e => rw [hm1] at hm; cases hm
      | ok m1 =>
        rw [hm1] at hm
        obtain ⟨d, hd, hv⟩ := hk 0 n f v rfl rfl
        simp only [List.take_zero, List.append_nil] at hv
        have hfresh : n ∉ st.predicted.keys := hf (n, f) (by simp)
        have hstep : meanStep θ data st (n, f) = .ok ⟨m1, st.sites.set n v,
            st.predicted ++ [(n, v)]⟩ := by
          unfold meanStep
          simp only [bind, Except.bind, PyDict.getItem_ok.2 hd, hv, hm1, pure, Except.pure,
            PyDict.set_of_notMem hfresh]
        obtain ⟨st', h1, h2⟩ := ih vals ⟨m1, st.sites.set n v, st.predicted ++ [(n, v)]⟩ m hn.2
          (by
            intro e he
            rw [PyDict.keys_append, List.mem_append, not_or]
            refine ⟨hf e (by simp [he]), ?_⟩
            simp only [PyDict.keys, List.map_cons, List.map_nil, List.mem_singleton]
            intro h0
            exact hn.1 (h0 ▸ List.mem_map.2 ⟨e, he, rfl⟩))
          (by simpa using hl) hm (by
            intro k n' f' v' he hv'
            obtain ⟨d', hd', hf'⟩ := hk (k + 1) n' f' v' (by simpa using he) (by simpa using hv')
            refine ⟨d', hd', ?_⟩
            simpa using hf')
        refine ⟨st', ?_, h2⟩
        rw [List.foldlM_cons, hstep]
        exact h1

/-- Adding arrays of one shape: entrywise sum. -/
theorem foldlM_add_same {sh : List Nat} : ∀ (vals : List (Tensor K)) (t : Tensor K),
    t.shape = sh → t.WF → (∀ v ∈ vals, v.shape = sh) →
    ∃ m, vals.foldlM (binop (· + ·)) t = .ok m ∧ m.shape = sh ∧ m.WF ∧
      ∀ idx, InBounds sh idx → m.get? idx
        = some ((t.get? idx).getD 0 + (vals.map fun v => (v.get? idx).getD 0).sum) := by
  intro vals
  induction vals with
  | nil =>
    intro t hs hw _
    refine ⟨t, rfl, hs, hw, ?_⟩
    intro idx hb
    obtain ⟨x, hx⟩ := get?_isSome hw (by rwa [hs])
    simp [hx]
  | cons v vals ih =>
    intro t hs hw hv
    obtain ⟨c, hc, hcs, hcw, hcg⟩ := binop_same (K := K) (· + ·) (a := t) (b := v)
      (by rw [hv v (by simp), hs])
    obtain ⟨m, hm, hms, hmw, hmg⟩ := ih c (by rw [hcs, hs]) hcw (fun w hw => hv w (by simp [hw]))
    refine ⟨m, by rw [List.foldlM_cons, hc]; exact hm, hms, hmw, ?_⟩
    intro idx hb
    rw [hmg idx hb, hcg idx (by rwa [hs])]
    simp [add_assoc]

end PV
