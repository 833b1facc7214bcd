import Verif.Lemmas.SiteCoords
import Mathlib.Data.List.SplitLengths
import Verif.Model.Tensor
import Verif.Spec.PanelDensity

/-!
# Exchanging some coordinates of two parameter environments
-/

namespace PV
open Tensor

/-- The entries of `l'` where `own` holds and of `l` elsewhere. -/
def pick (own : List Bool) (l l' : List ℝ) : List ℝ :=
  List.zipWith (fun o q => if o then q.2 else q.1) own (l.zip l')

theorem pick_cons (o : Bool) (own : List Bool) (a a' : ℝ) (l l' : List ℝ) :
    pick (o :: own) (a :: l) (a' :: l') = (if o then a' else a) :: pick own l l' := rfl

theorem length_pick {own : List Bool} {l l' : List ℝ} (h : l.length = own.length) (h' : l'.length = own.length) :
    (pick own l l').length = own.length := by
  unfold pick
  simp [h, h']

theorem pick_get? {own : List Bool} {l l' : List ℝ} {k : Nat} {o : Bool} (ho : own[k]? = some o)
    (h : l.length = own.length) (h' : l'.length = own.length) :
    (pick own l l')[k]? = if o then l'[k]? else l[k]? := by
  obtain ⟨hk, rfl⟩ := List.getElem?_eq_some_iff.1 ho
  rw [List.getElem?_eq_getElem (by rw [length_pick h h']; exact hk), List.getElem?_eq_getElem (by omega),
    List.getElem?_eq_getElem (by omega)]
  unfold pick
  rw [List.getElem_zipWith, List.getElem_zip]
  split <;> rfl

theorem pick_true {n : Nat} {l l' : List ℝ} (h : l.length = n) (h' : l'.length = n) :
    pick (List.replicate n true) l l' = l' := by
  refine List.ext_getElem? fun k => ?_
  by_cases hk : k < n
  · rw [pick_get? (o := true) (by simp [hk]) (by simpa using h) (by simpa using h')]
    rfl
  · rw [List.getElem?_eq_none (by rw [length_pick (by simpa using h) (by simpa using h')]; simpa using hk),
      List.getElem?_eq_none (by omega)]

theorem pick_false {n : Nat} {l l' : List ℝ} (h : l.length = n) (h' : l'.length = n) :
    pick (List.replicate n false) l l' = l := by
  refine List.ext_getElem? fun k => ?_
  by_cases hk : k < n
  · rw [pick_get? (o := false) (by simp [hk]) (by simpa using h) (by simpa using h')]
    simp
  · rw [List.getElem?_eq_none (by rw [length_pick (by simpa using h) (by simpa using h')]; simpa using hk),
      List.getElem?_eq_none (by omega)]

/-- Exchanging coordinates where two sums of functions agree does not change their total. -/
theorem pick_sums : ∀ {own : List Bool} {fs fs' : List (ℝ → ℝ)} {l l' : List ℝ},
    fs.length = own.length → fs'.length = own.length → l.length = own.length → l'.length = own.length →
    (∀ (k : Nat) f f', own[k]? = some true → fs[k]? = some f → fs'[k]? = some f' → f = f') →
    (List.zipWith (fun f x => f x) fs (pick own l l')).sum + (List.zipWith (fun f x => f x) fs' (pick own l' l)).sum
      = (List.zipWith (fun f x => f x) fs l).sum + (List.zipWith (fun f x => f x) fs' l').sum
  | [], [], [], [], [], _, _, _, _, _ => by simp [pick]
  | o :: own, f :: fs, f' :: fs', a :: l, a' :: l', h1, h2, h3, h4, h => by
    have ih := pick_sums (own := own) (fs := fs) (fs' := fs') (l := l) (l' := l') (by simpa using h1)
      (by simpa using h2) (by simpa using h3) (by simpa using h4) fun k g g' h5 h6 h7 =>
        h (k + 1) g g' (by simpa using h5) (by simpa using h6) (by simpa using h7)
    rw [pick_cons, pick_cons]
    simp only [List.zipWith_cons_cons, List.sum_cons]
    cases o with
    | false => simp only [Bool.false_eq_true, if_false]; linarith
    | true =>
      have := h 0 f f' rfl rfl rfl
      subst this
      simp only [if_true]; linarith

theorem take_pick (n : Nat) (own : List Bool) (l l' : List ℝ) :
    (pick own l l').take n = pick (own.take n) (l.take n) (l'.take n) := by
  unfold pick
  rw [List.take_zipWith, List.zip, List.take_zipWith]

theorem drop_pick (n : Nat) (own : List Bool) (l l' : List ℝ) :
    (pick own l l').drop n = pick (own.drop n) (l.drop n) (l'.drop n) := by
  unfold pick
  rw [List.drop_zipWith, List.zip, List.drop_zipWith]

/-- Blocks of an exchange. -/
theorem split_pick : ∀ {owns : List (List Bool)} {l l' : List ℝ} {k : Nat} {o : List Bool}, owns[k]? = some o →
    ((owns.map List.length).splitLengths (pick owns.flatten l l')).getD k []
      = pick o (((owns.map List.length).splitLengths l).getD k []) (((owns.map List.length).splitLengths l').getD k [])
  | [], _, _, _, _, h => by simp at h
  | o' :: owns, l, l', 0, o, h => by
    cases h
    simp only [List.map_cons, List.splitLengths_cons, List.getD_cons_zero, List.flatten_cons]
    rw [take_pick]
    simp
  | o' :: owns, l, l', k + 1, o, h => by
    simp only [List.map_cons, List.splitLengths_cons, List.getD_cons_succ, List.flatten_cons]
    rw [drop_pick]
    simp only [List.drop_left']
    exact split_pick (by simpa using h)

/-- Only the exchanged coefficients matter, if the row vanishes elsewhere. -/
theorem dot_pick_own {f : String → ℝ} {own : String → Bool} : ∀ {cols : List String} {β β' : List ℝ},
    β.length = cols.length → β'.length = cols.length → (∀ n ∈ cols, own n = false → f n = 0) →
    dot (cols.map f) (pick (cols.map own) β β') = dot (cols.map f) β'
  | [], [], [], _, _, _ => by simp [pick]
  | n :: cols, b :: β, b' :: β', h1, h2, h => by
    have ih := dot_pick_own (cols := cols) (β := β) (β' := β') (by simpa using h1) (by simpa using h2)
      fun k hk => h k (by simp [hk])
    simp only [List.map_cons]
    rw [pick_cons]
    unfold dot at *
    simp only [List.zipWith_cons_cons, List.sum_cons]
    rw [ih]
    congr 1
    cases ho : own n with
    | true => simp
    | false => simp [h n (by simp) ho]

/-- Exchanged coefficients do not matter where the row vanishes. -/
theorem dot_pick_other {f : String → ℝ} {own : String → Bool} : ∀ {cols : List String} {β β' : List ℝ},
    β.length = cols.length → β'.length = cols.length → (∀ n ∈ cols, own n = true → f n = 0) →
    dot (cols.map f) (pick (cols.map own) β β') = dot (cols.map f) β
  | [], [], [], _, _, _ => by simp [pick]
  | n :: cols, b :: β, b' :: β', h1, h2, h => by
    have ih := dot_pick_other (cols := cols) (β := β) (β' := β') (by simpa using h1) (by simpa using h2)
      fun k hk => h k (by simp [hk])
    simp only [List.map_cons]
    rw [pick_cons]
    unfold dot at *
    simp only [List.zipWith_cons_cons, List.sum_cons]
    rw [ih]
    congr 1
    cases ho : own n with
    | true => simp [h n (by simp) ho]
    | false => simp

/-- The environment `θ` with some coordinates of `θ'`. -/
def exchange (masks : List (String × List Bool)) (θ θ' : SiteEnv ℝ) : SiteEnv ℝ := fun n =>
  match masks.lookup n with
  | none => θ n
  | some o => ⟨(θ n).shape, pick o (θ n).data (θ' n).data⟩

theorem lookup_of_nodup {α : Type} : ∀ {l : List (String × α)}, (l.map Prod.fst).Nodup → ∀ {e}, e ∈ l →
    l.lookup e.1 = some e.2
  | [], _, _, h => by simp at h
  | q :: l, hn, e, h => by
    simp only [List.map_cons, List.nodup_cons] at hn
    rcases List.mem_cons.1 h with rfl | h
    · rw [List.lookup_cons, beq_self_eq_true]
    · have : e.1 ≠ q.1 := fun he => hn.1 (he ▸ List.mem_map.2 ⟨e, h, rfl⟩)
      rw [List.lookup_cons]
      have hb : (e.1 == q.1) = false := by simpa using this
      rw [hb]
      exact lookup_of_nodup hn.2 h

theorem exchange_site {masks : List (String × List Bool)} (hn : (masks.map Prod.fst).Nodup) {θ θ' : SiteEnv ℝ}
    {e : String × List Bool} (he : e ∈ masks) :
    (exchange masks θ θ' e.1).data = pick e.2 (θ e.1).data (θ' e.1).data := by
  unfold exchange
  rw [lookup_of_nodup hn he]

theorem exchange_other {masks : List (String × List Bool)} {θ θ' : SiteEnv ℝ} {n : String}
    (h : n ∉ masks.map Prod.fst) : exchange masks θ θ' n = θ n := by
  unfold exchange
  have : masks.lookup n = none := by
    rw [List.lookup_eq_none_iff]
    intro e he
    have : n ≠ e.1 := fun hh => h (hh ▸ List.mem_map.2 ⟨e, he, rfl⟩)
    simpa using this
  rw [this]

/-- A site with its priors in two models and the coordinates to exchange. -/
structure PairSite where
  name : String
  fs : List (ℝ → ℝ)
  fs' : List (ℝ → ℝ)
  own : List Bool

/-- The priors have the right number and agree where coordinates are exchanged. -/
structure PairSite.Ok (e : PairSite) : Prop where
  len : e.fs.length = e.own.length
  len' : e.fs'.length = e.own.length
  agree : ∀ (k : Nat) f f', e.own[k]? = some true → e.fs[k]? = some f → e.fs'[k]? = some f' → f = f'

def firstSites (L : List PairSite) : List (String × List (ℝ → ℝ)) := L.map fun e => (e.name, e.fs)
def secondSites (L : List PairSite) : List (String × List (ℝ → ℝ)) := L.map fun e => (e.name, e.fs')
def pairMasks (L : List PairSite) : List (String × List Bool) := L.map fun e => (e.name, e.own)

theorem exchange_sized {L : List PairSite} (hn : (L.map PairSite.name).Nodup) (hL : ∀ e ∈ L, e.Ok)
    {θ θ' : SiteEnv ℝ} (h : SitesSized (firstSites L) θ) (h' : SitesSized (secondSites L) θ') :
    SitesSized (firstSites L) (exchange (pairMasks L) θ θ') ∧
      SitesSized (secondSites L) (exchange (pairMasks L) θ' θ) := by
  have hnm : ((pairMasks L).map Prod.fst).Nodup := by
    unfold pairMasks
    rw [List.map_map]
    exact hn
  unfold SitesSized firstSites secondSites at *
  simp only [List.forall_mem_map] at *
  have key : ∀ (e) (_ : e ∈ L) (θ θ' : SiteEnv ℝ), (exchange (pairMasks L) θ θ' e.name).data
      = pick e.own (θ e.name).data (θ' e.name).data := fun e he θ θ' =>
    exchange_site hnm (e := (e.name, e.own)) (List.mem_map.2 ⟨e, he, rfl⟩)
  constructor
  all_goals
    intro e he
    have l1 := (h e he).trans (hL e he).len
    have l2 := (h' e he).trans (hL e he).len'
    rw [key e he]
  · rw [length_pick l1 l2, (hL e he).len]
  · rw [length_pick l2 l1, (hL e he).len']

theorem exchange_priors {L : List PairSite} (hn : (L.map PairSite.name).Nodup) (hL : ∀ e ∈ L, e.Ok)
    {θ θ' : SiteEnv ℝ} (h : SitesSized (firstSites L) θ) (h' : SitesSized (secondSites L) θ') :
    sitesPrior (firstSites L) (exchange (pairMasks L) θ θ') + sitesPrior (secondSites L) (exchange (pairMasks L) θ' θ)
      = sitesPrior (firstSites L) θ + sitesPrior (secondSites L) θ' := by
  have hnm : ((pairMasks L).map Prod.fst).Nodup := by
    unfold pairMasks
    rw [List.map_map]
    exact hn
  unfold SitesSized at h h'
  unfold sitesPrior
  unfold firstSites secondSites at *
  simp only [List.forall_mem_map] at h h'
  simp only [List.map_map]
  rw [← List.sum_map_add, ← List.sum_map_add]
  congr 1
  refine List.map_congr_left fun e he => ?_
  simp only [Function.comp_apply]
  have hs := exchange_site hnm (θ := θ) (θ' := θ') (e := (e.name, e.own)) (List.mem_map.2 ⟨e, he, rfl⟩)
  have hs' := exchange_site hnm (θ := θ') (θ' := θ) (e := (e.name, e.own)) (List.mem_map.2 ⟨e, he, rfl⟩)
  simp only at hs hs'
  rw [hs, hs']
  exact pick_sums (hL e he).len (hL e he).len' ((h e he).trans (hL e he).len) ((h' e he).trans (hL e he).len')
    (hL e he).agree

open Matrix in
/-- The log density of independent normal observations. -/
theorem normalDensity_identity {n : Nat} {σ : Fin n → ℝ} (hσ : ∀ i, 0 < σ i) (μ x : Fin n → ℝ) :
    normalDensity μ (panelCovariance σ 1) x = -(∑ i, (x i - μ i) ^ 2 / σ i ^ 4) / 2
      - Real.log (panelCovariance σ (1 : Matrix (Fin n) (Fin n) ℝ)).det / 2 - n * Real.log (2 * Real.pi) / 2 := by
  have hd : panelCovariance σ (1 : Matrix (Fin n) (Fin n) ℝ) = diagonal fun i => σ i ^ 4 := by
    ext i j
    unfold panelCovariance
    by_cases hij : i = j
    · subst hij
      simp [Matrix.one_apply]
      ring
    · rw [diagonal_apply_ne _ hij]
      have : ∑ k, σ k ^ 2 * ((1 : Matrix (Fin n) (Fin n) ℝ) i k * (1 : Matrix (Fin n) (Fin n) ℝ) j k) = 0 := by
        refine Finset.sum_eq_zero fun k _ => ?_
        by_cases hik : i = k
        · subst hik
          rw [Matrix.one_apply_ne (Ne.symm hij)]
          ring
        · rw [Matrix.one_apply_ne hik]
          ring
      rw [this, mul_zero]
  have hinv : (panelCovariance σ (1 : Matrix (Fin n) (Fin n) ℝ))⁻¹ = diagonal fun i => (σ i ^ 4)⁻¹ := by
    rw [hd]
    refine Matrix.inv_eq_left_inv ?_
    rw [diagonal_mul_diagonal, ← diagonal_one]
    congr 1
    funext i
    have := (hσ i).ne'
    field_simp
  unfold normalDensity
  rw [hinv]
  congr 4
  unfold dotProduct
  refine Finset.sum_congr rfl fun i _ => ?_
  rw [mulVec_diagonal]
  simp only [Pi.sub_apply]
  ring

end PV
