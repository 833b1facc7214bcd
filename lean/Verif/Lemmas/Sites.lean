import Verif.Lemmas.PredictFrames
import Mathlib.Data.List.GetD

set_option linter.unusedSectionVars false

namespace PV
open Tensor

theorem exists_ravel : ∀ (s : List Nat) (p : Nat), p < size s →
    ∃ idx, InBounds s idx ∧ ravel s idx = p
  | [], p, h => ⟨[], trivial, by simp [size] at h; simp [ravel, h]⟩
  | n :: s, p, h => by
    have hs : 0 < size s := Nat.pos_of_ne_zero (by rintro h0; simp [size, h0] at h)
    obtain ⟨idx, hb, hr⟩ := exists_ravel s (p % size s) (Nat.mod_lt _ hs)
    refine ⟨p / size s :: idx, ⟨Nat.div_lt_of_lt_mul (by rwa [size, Nat.mul_comm] at h), hb⟩, ?_⟩
    simp only [ravel, hr]
    exact Nat.div_add_mod' p (size s)

variable {K τ : Type} [Field K] [LinearOrder K] [IsStrictOrderedRing K] [LinearOrder τ]

/-- Position `p` of the flattened mean over the first axis. -/
theorem meanAxis0_getD {t : Tensor K} {S : Nat} {sh : List Nat} (hsh : t.shape = S :: sh)
    {p : Nat} (hp : p < size sh) :
    t.meanAxis0.data.getD p 0
      = ((List.range S).map fun s => t.data.getD (s * size sh + p) 0).sum / (S : K) := by
  obtain ⟨idx, hb, hr⟩ := exists_ravel sh p hp
  have h1 : t.meanAxis0.data[p]? = some (((List.range S).map fun i =>
      (t.get? (i :: idx)).getD 0).sum / (S : K)) := by
    unfold meanAxis0
    rw [hsh]
    simp only [ofFn, List.getElem?_map]
    rw [← hr, getElem?_indices hb]
    rfl
  rw [List.getD_eq_getElem?_getD, h1, Option.getD_some]
  congr 2
  apply List.map_congr_left
  intro s _
  rw [get?, hsh, ravel, hr, List.getD_eq_getElem?_getD]

theorem length_meanAxis0 {t : Tensor K} {S : Nat} {sh : List Nat} (hsh : t.shape = S :: sh) :
    t.meanAxis0.data.length = size sh := by
  unfold meanAxis0
  rw [hsh]
  simp [ofFn]

theorem get?_map_values (sites : PyDict (Tensor K)) (c : String) :
    PyDict.get? (sites.map fun p => (p.1, p.2.meanAxis0.flatten)) c
      = (PyDict.get? sites c).map fun t => t.meanAxis0.flatten := by
  induction sites with
  | nil => rfl
  | cons a l ih =>
    simp only [List.map_cons, PyDict.get?]
    split <;> first | rfl | exact ih

/-- A row of `predict_all_sites` sits at some position `p` of series × horizon and holds
the `p`-th entry of each flattened site mean, times the scale of its series. -/
theorem predictAllSites_rows {ctx : Fitted K} {sites : PyDict (Tensor K)} {fh : List τ}
    {f : Frame String τ K} (h : predictAllSites ctx sites fh = .ok f) :
    f.cols = sites.map Prod.fst ∧
    f.index.Perm (product (forecastSeries ctx) fh) ∧
    (∀ p ∈ sites, p.2.meanAxis0.data.length
      = (product (forecastSeries ctx) fh).length) ∧
    ∀ r ∈ f.rows, ∃ p c, (product (forecastSeries ctx) fh)[p]? = some (r.sid, r.time) ∧
      ScaleIs ctx r.sid c ∧ ∀ name site, PyDict.get? sites name = some site →
        r.val name = site.meanAxis0.data.getD p 0 * c := by
  unfold predictAllSites at h
  cases hidx : periodindexToMultiindex ctx fh with
  | error e => rw [hidx] at h; cases h
  | ok idx =>
    have hi := periodindex_eq hidx
    rw [hidx] at h
    subst hi
    simp only [bind, Except.bind] at h
    split at h
    · rename_i hall
      obtain ⟨σ, rfl, hσ⟩ := invScale_eq h
      refine ⟨by simp [Frame.mapVals, sortIndex, Function.comp_def], ?_, ?_, ?_⟩
      · have hind : ∀ g : Frame String τ K, (g.mapVals (fun s v => v * σ s)).index = g.index :=
          fun g => by simp [Frame.index, Frame.mapVals]
        rw [hind]
        refine ((sortIndex_perm _).map (fun r : Row String τ K => (r.sid, r.time))).trans ?_
        simp only [List.map_zipWith]
        generalize product (forecastSeries ctx) fh = l
        have : List.zipWith (fun (_ : Nat) (k : List String × τ) => (k.1, k.2))
            (List.range l.length) l = l := by
          apply List.ext_getElem?
          intro i
          simp only [List.getElem?_zipWith]
          by_cases hi : i < l.length
          · simp [hi]
          · rw [List.getElem?_eq_none (by simpa using hi),
              List.getElem?_eq_none (by simpa using hi)]
        rw [this]
      · intro p hp
        exact hall _ (List.mem_map.2 ⟨p, hp, rfl⟩)
      · intro r hr
        simp only [Frame.mapVals, List.mem_map] at hr
        obtain ⟨r0, hr0, rfl⟩ := hr
        have hr1 := (sortIndex_perm _).mem_iff.1 hr0
        obtain ⟨i, hi, he⟩ := List.getElem_of_mem hr1
        simp only [List.length_zipWith, List.length_range, min_self] at hi
        simp only [List.getElem_zipWith, List.getElem_range] at he
        refine ⟨i, σ r0.sid, ?_, hσ r0 hr0, ?_⟩
        · rw [List.getElem?_eq_getElem hi, ← he]
        · intro name site hs
          show r0.val name * σ r0.sid = _
          rw [← he]
          show ((PyDict.get? _ name).getD []).getD i 0 * _ = _
          rw [get?_map_values, hs]
          rfl
    · cases h

end PV
