import Verif.Lemmas.Coercive
import Verif.Model.Broadcast
import Mathlib.Topology.Algebra.Monoid
import Mathlib.Algebra.BigOperators.Fin

/-!
# Parameters of several sites as one vector

For arguments about the maximum of a density over all values of some sites.
-/

namespace PV
open Filter

section
variable (sites : List (String × List (ℝ → ℝ)))

/-- One coordinate per entry of a site. -/
abbrev SiteIndex : Type := Σ k : Fin sites.length, Fin (sites[k].2.length)

open Classical in
/-- The values of the sites from a vector, the values of all others from `θ₀`. -/
noncomputable def envOf (θ₀ : SiteEnv ℝ) (v : SiteIndex sites → ℝ) : SiteEnv ℝ := fun n =>
  if h : ∃ k : Fin sites.length, n = sites[k].1 then
    ⟨[sites[h.choose].2.length], List.ofFn fun j => v ⟨h.choose, j⟩⟩
  else θ₀ n

/-- Every site has as many values as there are priors. -/
def SitesSized (θ : SiteEnv ℝ) : Prop := ∀ e ∈ sites, (θ e.1).data.length = e.2.length

/-- The sum of the log priors of all values. -/
noncomputable def sitesPrior (θ : SiteEnv ℝ) : ℝ :=
  (sites.map fun e => (List.zipWith (fun f x => f x) e.2 (θ e.1).data).sum).sum

variable {sites}

theorem envOf_site (hn : (sites.map Prod.fst).Nodup) (θ₀ : SiteEnv ℝ) (v : SiteIndex sites → ℝ)
    (k : Fin sites.length) : (envOf sites θ₀ v sites[k].1).data = List.ofFn fun j => v ⟨k, j⟩ := by
  unfold envOf
  rw [dif_pos ⟨k, rfl⟩]
  have h : ∃ k' : Fin sites.length, sites[k].1 = sites[k'].1 := ⟨k, rfl⟩
  have : h.choose = k := by
    have h1 := h.choose_spec
    generalize h.choose = k' at h1
    have := List.nodup_iff_injective_get.1 hn (a₁ := ⟨k, by simp⟩) (a₂ := ⟨k', by simp⟩) (by simpa using h1)
    exact (Fin.ext (by simpa using congrArg Fin.val this)).symm
  show (List.ofFn fun j => v ⟨h.choose, j⟩) = _
  rw [this]

theorem envOf_other (θ₀ : SiteEnv ℝ) (v : SiteIndex sites → ℝ) {n : String} (h : n ∉ sites.map Prod.fst) :
    envOf sites θ₀ v n = θ₀ n := by
  unfold envOf
  rw [dif_neg]
  rintro ⟨k, rfl⟩
  exact h (List.mem_map.2 ⟨_, List.getElem_mem k.2, rfl⟩)

theorem envOf_sized (hn : (sites.map Prod.fst).Nodup) (θ₀ : SiteEnv ℝ) (v : SiteIndex sites → ℝ) :
    SitesSized sites (envOf sites θ₀ v) := by
  intro e he
  obtain ⟨k, hk, rfl⟩ := List.getElem_of_mem he
  rw [show sites[k].1 = sites[(⟨k, hk⟩ : Fin sites.length)].1 from rfl, envOf_site hn]
  simp

theorem continuous_envOf (hn : (sites.map Prod.fst).Nodup) (θ₀ : SiteEnv ℝ) (n : String) (i : Nat) :
    Continuous fun v : SiteIndex sites → ℝ => (envOf sites θ₀ v n).data.getD i 0 := by
  by_cases h : n ∈ sites.map Prod.fst
  · obtain ⟨e, he, rfl⟩ := List.mem_map.1 h
    obtain ⟨k, hk, rfl⟩ := List.getElem_of_mem he
    have : ∀ v : SiteIndex sites → ℝ, (envOf sites θ₀ v sites[k].1).data.getD i 0
        = if hi : i < sites[k].2.length then v ⟨⟨k, hk⟩, ⟨i, hi⟩⟩ else 0 := by
      intro v
      rw [show sites[k].1 = sites[(⟨k, hk⟩ : Fin sites.length)].1 from rfl, envOf_site hn]
      rw [List.getD_eq_getElem?_getD, List.getElem?_ofFn]
      by_cases hi : i < sites[k].2.length
      · rw [dif_pos hi, dif_pos (by exact hi)]
        rfl
      · rw [dif_neg hi, dif_neg (by exact hi)]
        rfl
    simp only [this]
    split
    · exact continuous_apply _
    · exact continuous_const
  · simp only [envOf_other θ₀ _ h]
    exact continuous_const

theorem envOf_length (hn : (sites.map Prod.fst).Nodup) (θ₀ : SiteEnv ℝ) (n : String)
    (v w : SiteIndex sites → ℝ) : (envOf sites θ₀ v n).data.length = (envOf sites θ₀ w n).data.length := by
  by_cases h : n ∈ sites.map Prod.fst
  · obtain ⟨e, he, rfl⟩ := List.mem_map.1 h
    rw [envOf_sized hn θ₀ v e he, envOf_sized hn θ₀ w e he]
  · rw [envOf_other θ₀ v h, envOf_other θ₀ w h]

theorem zipWith_ofFn_sum : ∀ (fs : List (ℝ → ℝ)) (v : Fin fs.length → ℝ),
    (List.zipWith (fun f x => f x) fs (List.ofFn v)).sum = ∑ j : Fin fs.length, fs[j] (v j)
  | [], _ => by simp
  | f :: fs, v => by
    rw [List.ofFn_succ, List.zipWith_cons_cons, List.sum_cons, zipWith_ofFn_sum fs fun j => v j.succ]
    exact (Fin.sum_univ_succ (n := fs.length) fun j => (f :: fs)[(j : Nat)] (v j)).symm

theorem sitesPrior_envOf (hn : (sites.map Prod.fst).Nodup) (θ₀ : SiteEnv ℝ) (v : SiteIndex sites → ℝ) :
    sitesPrior sites (envOf sites θ₀ v) = ∑ i : SiteIndex sites, sites[i.1].2[i.2] (v i) := by
  unfold sitesPrior
  rw [Fintype.sum_sigma]
  have : (sites.map fun e => (List.zipWith (fun f x => f x) e.2 (envOf sites θ₀ v e.1).data).sum)
      = List.ofFn fun k : Fin sites.length => ∑ j : Fin sites[k].2.length, sites[k].2[j] (v ⟨k, j⟩) := by
    refine List.ext_getElem (by simp) fun k h1 h2 => ?_
    have hk : k < sites.length := by simpa using h1
    simp only [List.getElem_map, List.getElem_ofFn]
    rw [show sites[k].1 = sites[(⟨k, hk⟩ : Fin sites.length)].1 from rfl, envOf_site hn]
    exact zipWith_ofFn_sum _ _
  rw [this, List.sum_ofFn]

/-- A sum of priors that tend to `-∞` and a bounded continuous term has a maximum. -/
theorem best_of_sites (hn : (sites.map Prod.fst).Nodup)
    (hc : ∀ e ∈ sites, ∀ f ∈ e.2, Continuous f) (ht : ∀ e ∈ sites, ∀ f ∈ e.2, Tendsto f (cocompact ℝ) atBot)
    (θ₀ : SiteEnv ℝ) {R : SiteEnv ℝ → ℝ} (hRc : Continuous fun v => R (envOf sites θ₀ v)) {B : ℝ}
    (hRb : ∀ θ, R θ ≤ B)
    (hR : ∀ θ θ' : SiteEnv ℝ, (∀ e ∈ sites, (θ e.1).data = (θ' e.1).data) → R θ = R θ') :
    ∃ θ, SitesSized sites θ ∧ (∀ n, n ∉ sites.map Prod.fst → θ n = θ₀ n) ∧
      ∀ θ', SitesSized sites θ' → sitesPrior sites θ' + R θ' ≤ sitesPrior sites θ + R θ := by
  obtain ⟨v, hv⟩ := exists_best (f := fun i : SiteIndex sites => sites[i.1].2[i.2])
    (R := fun v => R (envOf sites θ₀ v)) (C := B)
    (fun i => hc _ (List.getElem_mem i.1.2) _ (List.getElem_mem i.2.2))
    (fun i => ht _ (List.getElem_mem i.1.2) _ (List.getElem_mem i.2.2)) hRc fun v => hRb _
  refine ⟨envOf sites θ₀ v, envOf_sized hn θ₀ v, fun n h => envOf_other θ₀ v h, fun θ' hθ' => ?_⟩
  set w : SiteIndex sites → ℝ := fun i => (θ' sites[i.1].1).data.getD i.2 0 with hw
  have hdata : ∀ e ∈ sites, (θ' e.1).data = (envOf sites θ₀ w e.1).data := by
    intro e he
    have hl := hθ' e he
    obtain ⟨k, hk, rfl⟩ := List.getElem_of_mem he
    rw [show sites[k].1 = sites[(⟨k, hk⟩ : Fin sites.length)].1 from rfl, envOf_site hn]
    refine List.ext_getElem (by simpa using hl) fun j h1 h2 => ?_
    rw [List.getElem_ofFn]
    show _ = (θ' sites[k].1).data.getD j 0
    rw [List.getD_eq_getElem _ _ (by exact h1)]
    rfl
  have h1 : sitesPrior sites θ' = sitesPrior sites (envOf sites θ₀ w) := by
    unfold sitesPrior
    congr 1
    refine List.map_congr_left fun e he => ?_
    rw [hdata e he]
  rw [h1, hR θ' _ hdata, sitesPrior_envOf hn, sitesPrior_envOf hn]
  exact hv w

end

/-- A sum over corresponding entries is continuous, if all entries are. -/
theorem continuous_zipWith {α : Type} [TopologicalSpace α] {f : ℝ → ℝ → ℝ} (hf : ∀ c, Continuous (f c)) :
    ∀ (cs : List ℝ) (F : α → List ℝ), (∀ j, Continuous fun v => (F v).getD j 0) →
      (∀ v w, (F v).length = (F w).length) → Continuous fun v => (List.zipWith f cs (F v)).sum
  | [], F, _, _ => by simpa using continuous_const
  | c :: cs, F, hF, hl => by
    by_cases h0 : ∃ v, F v = []
    · obtain ⟨v, hv⟩ := h0
      have : ∀ w, F w = [] := fun w => List.length_eq_zero_iff.1 (by rw [hl w v, hv]; rfl)
      simp only [this, List.zipWith_nil_right, List.sum_nil]
      exact continuous_const
    · push_neg at h0
      have hcons : ∀ v, F v = (F v).getD 0 0 :: (F v).tail := fun v => by
        cases hq : F v with
        | nil => exact absurd hq (h0 v)
        | cons a l => simp
      have ih := continuous_zipWith hf cs (fun v => (F v).tail) (fun j => by
        have := hF (j + 1)
        refine this.congr fun v => ?_
        cases F v <;> simp) fun v w => by simp [hl v w]
      refine (((hf c).comp (hF 0)).add ih).congr fun v => ?_
      conv_rhs => rw [hcons v]
      rw [List.zipWith_cons_cons, List.sum_cons]
      rfl

end PV
