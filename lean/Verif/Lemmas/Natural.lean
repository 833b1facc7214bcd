import Verif.Lemmas.Broadcast
import Verif.Model.EffectBase
import Verif.Model.Trend
import Verif.Model.Effects

/-!
Array operations commute with applying functions to all entries.
-/

namespace PV.Tensor
variable {K L M K' L' M' : Type}

theorem map_wf (g : K → K') {t : Tensor K} (h : t.WF) : (t.map g).WF := by
  unfold WF at h ⊢
  simpa [map] using h

theorem get?_map (g : K → K') (t : Tensor K) (idx : List Nat) :
    (t.map g).get? idx = (t.get? idx).map g := by
  simp [get?, map]

theorem map_map (g : K → L) (h : L → M) (t : Tensor K) : (t.map g).map h = t.map (h ∘ g) := by
  simp [map]

theorem map_id' (t : Tensor K) : t.map (fun x => x) = t := by
  simp [map]

theorem inBounds_iff {s idx : List Nat} : InBounds s idx ↔ List.Forall₂ (fun n i => i < n) s idx := by
  induction s generalizing idx with
  | nil => cases idx <;> simp [InBounds]
  | cons n s ih => cases idx <;> simp [InBounds, ih]

theorem bounds_one : ∀ {t idx : List Nat}, List.Forall₂ (fun n i => i < n) t idx →
    List.Forall₂ (fun n i => i < n) t (List.zipWith (fun n i => if n = 1 then 0 else i) t idx) := by
  intro t idx hi
  induction hi with
  | nil => simp
  | @cons n i t idx hni _ ih =>
    simp only [List.zipWith_cons_cons, List.forall₂_cons]
    exact ⟨by split <;> omega, ih⟩

theorem bcRev_bounds : ∀ {s t r idx : List Nat}, bcRev s t = some r →
    List.Forall₂ (fun n i => i < n) r idx →
    List.Forall₂ (fun n i => i < n) s (List.zipWith (fun n i => if n = 1 then 0 else i) s idx) ∧
    List.Forall₂ (fun n i => i < n) t (List.zipWith (fun n i => if n = 1 then 0 else i) t idx)
  | [], t, r, idx, h, hi => by
    simp only [bcRev, Option.some.injEq] at h
    subst h
    exact ⟨by simp, bounds_one hi⟩
  | m :: s, [], r, idx, h, hi => by
    simp only [bcRev, Option.some.injEq] at h
    subst h
    exact ⟨bounds_one hi, by simp⟩
  | m :: s, n :: t, r, idx, h, hi => by
    unfold bcRev at h
    split at h
    · rename_i d r' hd hr
      cases h
      cases hi with
      | @cons _ i _ idx hni hi =>
        obtain ⟨h1, h2⟩ := bcRev_bounds hr hi
        simp only [List.zipWith_cons_cons, List.forall₂_cons]
        refine ⟨⟨?_, h1⟩, ?_, h2⟩
        · by_cases hm : m = 1
          · simp [hm]
          · simp only [hm, if_false] at hd ⊢
            split at hd
            · cases hd; exact hni
            · split at hd
              · cases hd; exact hni
              · cases hd
        · by_cases hn : n = 1
          · simp [hn]
          · simp only [hn, if_false] at hd ⊢
            split at hd
            · cases hd; subst_vars; exact hni
            · split at hd
              · cases hd; exact hni
              · cases hd
    · cases h

theorem bcRev_length : ∀ {s t r : List Nat}, bcRev s t = some r → s.length ≤ r.length ∧ t.length ≤ r.length
  | [], t, r, h => by simp only [bcRev, Option.some.injEq] at h; subst h; simp
  | m :: s, [], r, h => by simp only [bcRev, Option.some.injEq] at h; subst h; simp
  | m :: s, n :: t, r, h => by
    unfold bcRev at h
    split at h
    · rename_i d r' hd hr
      cases h
      have := bcRev_length hr
      simpa using this
    · cases h

theorem zipWith_reverse_drop {α β γ : Type} (f : α → β → γ) (s : List α) (idx : List β)
    (h : s.length ≤ idx.length) :
    (List.zipWith f s (idx.drop (idx.length - s.length))).reverse
      = List.zipWith f s.reverse idx.reverse := by
  rw [List.reverse_zipWith (by simp; omega), List.reverse_drop]
  rw [show idx.length - (idx.length - s.length) = s.reverse.length by simp; omega]
  generalize s.reverse = a
  generalize idx.reverse = b
  induction a generalizing b with
  | nil => simp
  | cons x a ih => cases b <;> simp [ih]

theorem bcIdx_bounds {s t r idx : List Nat} (h : bcShape s t = some r) (hi : InBounds r idx) :
    InBounds s (bcIdx s idx) ∧ InBounds t (bcIdx t idx) := by
  unfold bcShape at h
  rw [Option.map_eq_some_iff] at h
  obtain ⟨r', hr, rfl⟩ := h
  rw [inBounds_iff, ← List.forall₂_reverse_iff, List.reverse_reverse] at hi
  obtain ⟨h1, h2⟩ := bcRev_bounds hr hi
  obtain ⟨l1, l2⟩ := bcRev_length hr
  have hl := hi.length_eq
  simp only [List.length_reverse] at hl l1 l2
  unfold bcIdx
  constructor
  · rw [inBounds_iff, ← List.forall₂_reverse_iff, zipWith_reverse_drop _ _ _ (by omega)]
    exact h1
  · rw [inBounds_iff, ← List.forall₂_reverse_iff, zipWith_reverse_drop _ _ _ (by omega)]
    exact h2

/-- Elementwise operations commute with maps that commute with the operation on numbers. -/
theorem binop_natural [Zero K] [Zero L] [Zero K'] [Zero L'] {f : K → L → M} {f' : K' → L' → M'}
    {g : K → K'} {h : L → L'} {k : M → M'} (hf : ∀ x y, f' (g x) (h y) = k (f x y)) {a : Tensor K}
    {b : Tensor L} (ha : a.WF) (hb : b.WF) :
    binop f' (a.map g) (b.map h) = (binop f a b).map fun t => t.map k := by
  unfold binop
  rw [show (a.map g).shape = a.shape from rfl, show (b.map h).shape = b.shape from rfl]
  cases hs : bcShape a.shape b.shape with
  | none => rfl
  | some sh =>
    simp only [Except.map]
    congr 1
    unfold ofFn map
    simp only [List.map_map]
    congr 1
    refine List.map_congr_left fun idx hidx => ?_
    obtain ⟨h1, h2⟩ := bcIdx_bounds hs (mem_indices.1 hidx)
    obtain ⟨u, hu⟩ := get?_isSome ha h1
    obtain ⟨v, hv⟩ := get?_isSome hb h2
    have hu' := get?_map g a (bcIdx a.shape idx)
    have hv' := get?_map h b (bcIdx b.shape idx)
    rw [hu] at hu'
    rw [hv] at hv'
    simp only [map] at hu' hv'
    simp only [Function.comp, hu, hv, hu', hv', Option.map_some, Option.getD_some, hf]

theorem binop_wf [Zero K] [Zero L] {f : K → L → M} {a : Tensor K} {b : Tensor L} {c : Tensor M}
    (h : binop f a b = .ok c) : c.WF := by
  unfold binop at h
  split at h
  · cases h; exact wf_ofFn _ _
  · cases h

theorem reshape_natural (g : K → K') (t : Tensor K) (sh : List Nat) :
    (t.map g).reshape sh = (t.reshape sh).map fun t => t.map g := by
  unfold reshape
  simp only [map, List.length_map]
  split <;> rfl

theorem reshape_wf {t r : Tensor K} {sh : List Nat} (h : t.reshape sh = .ok r) :
    r.WF ∧ r.shape = sh := by
  unfold reshape at h
  split at h
  · rename_i hl
    cases h
    exact ⟨hl, rfl⟩
  · cases h

theorem reshapeInfer_natural (g : K → K') (t : Tensor K) (n : Nat) :
    (t.map g).reshapeInfer n = (t.reshapeInfer n).map fun t => t.map g := by
  unfold reshapeInfer
  simp only [map, List.length_map]
  split <;> rfl

theorem reshapeInfer_wf {t r : Tensor K} {n : Nat} (h : t.reshapeInfer n = .ok r) : r.WF := by
  unfold reshapeInfer at h
  split at h
  · rename_i hl
    cases h
    simp only [WF, size, Nat.mul_one]
    exact (Nat.div_mul_cancel (Nat.dvd_of_mod_eq_zero hl.2)).symm
  · cases h

theorem dot_smul [CommRing K] (ε : K) : ∀ x v : List K, dot x (v.map (ε * ·)) = ε * dot x v
  | [], v => by simp [dot]
  | _ :: _, [] => by simp [dot]
  | a :: x, b :: v => by
    have := dot_smul ε x v
    simp only [dot] at this ⊢
    simp only [List.map_cons, List.zipWith_cons_cons, List.sum_cons, this]
    ring

theorem dotLast_smul [CommRing K] (ε : K) (d : Tensor K) (v : List K) :
    dotLast d (v.map (ε * ·)) = (dotLast d v).map fun t => t.map (ε * ·) := by
  unfold dotLast
  simp only [List.length_map]
  cases d.shape.getLast? with
  | none => rfl
  | some n =>
    simp only
    split
    · simp [Except.map, map, dot_smul]
    · rfl

theorem dotLast_wf [Add K] [Mul K] [Zero K] {d r : Tensor K} {v : List K} (h : dotLast d v = .ok r) :
    r.WF := by
  unfold dotLast at h
  split at h
  · cases h
  · split at h
    · cases h; simp [WF]
    · cases h

theorem size_append_one (s : List Nat) : size (s ++ [1]) = size s := by
  induction s with
  | nil => rfl
  | cons n s ih => simp [size, ih]

end PV.Tensor
