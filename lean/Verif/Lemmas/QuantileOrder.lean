import Mathlib.Data.List.Sort
import Verif.Lemmas.Quantile

/-!
# How quantiles depend on the sample: monotone, equivariant, continuous
-/

set_option linter.unusedSectionVars false

namespace PV
variable {K : Type} [Field K] [LinearOrder K] [IsStrictOrderedRing K] [FloorRing K]

theorem orderedInsert_of_le {x : K} {s : List K} (h : ∀ y ∈ s, x ≤ y) :
    s.orderedInsert (· ≤ ·) x = x :: s := by
  cases s with
  | nil => rfl
  | cons y s => rw [List.orderedInsert, if_pos (h y (by simp))]

theorem orderedInsert_forall₂ {s t : List K} (h : List.Forall₂ (· ≤ ·) s t) :
    s.Pairwise (· ≤ ·) → t.Pairwise (· ≤ ·) → ∀ {a b : K}, a ≤ b →
    List.Forall₂ (· ≤ ·) (s.orderedInsert (· ≤ ·) a) (t.orderedInsert (· ≤ ·) b) := by
  induction h with
  | nil =>
    intro _ _ a b hab
    exact .cons hab .nil
  | @cons x y s t hxy hst ih =>
    intro hs ht a b hab
    rw [List.pairwise_cons] at hs ht
    simp only [List.orderedInsert]
    split <;> rename_i h1 <;> split <;> rename_i h2
    · exact .cons hab (.cons hxy hst)
    · refine .cons (h1.trans hxy) ?_
      rw [← orderedInsert_of_le hs.1]
      exact ih hs.2 ht.2 (hxy.trans (not_le.1 h2).le)
    · refine .cons ((not_le.1 h1).le.trans hab) ?_
      rw [← orderedInsert_of_le ht.1]
      exact ih hs.2 ht.2 (hab.trans h2)
    · exact .cons hxy (ih hs.2 ht.2 hab)

/-- Sorting respects the order of samples. -/
theorem insertionSort_forall₂ {xs ys : List K} (h : List.Forall₂ (· ≤ ·) xs ys) :
    List.Forall₂ (· ≤ ·) (xs.insertionSort (· ≤ ·)) (ys.insertionSort (· ≤ ·)) := by
  induction h with
  | nil => exact .nil
  | cons hab _ ih => exact orderedInsert_forall₂ ih (sorted_sort _) (sorted_sort _) hab

/-- Larger samples have larger quantiles. -/
theorem quantile_mono {xs ys : List K} (h : List.Forall₂ (· ≤ ·) xs ys) {a : K} (h0 : 0 ≤ a)
    (h1 : a ≤ 1) : quantile xs a ≤ quantile ys a := by
  rcases Nat.eq_zero_or_pos xs.length with h2 | hlen
  · have hx := List.length_eq_zero_iff.1 h2
    have hy := List.length_eq_zero_iff.1 (h.length_eq ▸ h2)
    rw [hx, hy]
  have hs := insertionSort_forall₂ h
  rw [quantile_eq_interp, quantile_eq_interp, ← h.length_eq]
  obtain ⟨p0, p1⟩ := pos_bounds hlen h0 h1
  obtain ⟨f1, f2, f3⟩ := floor_facts p0 p1
  have hsl : (xs.insertionSort (· ≤ ·)).length = xs.length := List.length_insertionSort _ _
  have hg : ∀ i < xs.length, (xs.insertionSort (· ≤ ·)).getD i 0 ≤ (ys.insertionSort (· ≤ ·)).getD i 0 := by
    intro i hi
    have hl := hs.length_eq
    rw [List.getD_eq_getElem _ _ (by omega), List.getD_eq_getElem _ _ (by omega)]
    exact (List.forall₂_iff_get.1 hs).2 i (by omega) (by omega)
  unfold interp
  rw [← hs.length_eq, hsl]
  have g1 := hg _ f3
  have g2 := hg (min ((⌊a * ((xs.length : K) - 1)⌋).toNat + 1) (xs.length - 1)) (by omega)
  set w := a * ((xs.length : K) - 1) - (((⌊a * ((xs.length : K) - 1)⌋).toNat : Nat) : K) with hw
  have w0 : 0 ≤ w := by rw [hw]; linarith
  have w1 : w ≤ 1 := by rw [hw]; linarith
  have := mul_le_mul_of_nonneg_left g2 w0
  have := mul_le_mul_of_nonneg_left g1 (sub_nonneg.2 w1)
  linarith

/-- Moving the sample moves the quantiles. -/
theorem quantile_add (d : K) {xs : List K} (hne : xs ≠ []) {a : K} (h0 : 0 ≤ a) (h1 : a ≤ 1) :
    quantile (xs.map (d + ·)) a = d + quantile xs a := by
  have hlen : 0 < xs.length := List.length_pos_of_ne_nil hne
  have hsort : (xs.map (d + ·)).insertionSort (· ≤ ·) = (xs.insertionSort (· ≤ ·)).map (d + ·) := by
    refine (List.map_insertionSort (r := (· ≤ ·)) (s := (· ≤ ·)) (f := (d + ·)) xs ?_).symm
    intro a _ b _
    exact (add_le_add_iff_left d).symm
  rw [quantile_eq_interp, quantile_eq_interp, hsort, List.length_map]
  obtain ⟨p0, p1⟩ := pos_bounds hlen h0 h1
  obtain ⟨f1, f2, f3⟩ := floor_facts p0 p1
  unfold interp
  have hsl : (xs.insertionSort (· ≤ ·)).length = xs.length := List.length_insertionSort _ _
  rw [List.length_map, hsl]
  have hg : ∀ i < xs.length, ((xs.insertionSort (· ≤ ·)).map (d + ·)).getD i 0
      = d + (xs.insertionSort (· ≤ ·)).getD i 0 := by
    intro i hi
    rw [List.getD_eq_getElem _ _ (by rw [List.length_map]; omega), List.getD_eq_getElem _ _ (by omega),
      List.getElem_map]
  rw [hg _ f3, hg _ (by omega)]
  ring

/-- Moving each number of the sample by at most `δ` moves the quantiles by at most `δ`. -/
theorem quantile_close {xs ys : List K} {δ : K} (h : List.Forall₂ (fun x y => |x - y| ≤ δ) xs ys)
    {a : K} (h0 : 0 ≤ a) (h1 : a ≤ 1) (hδ : 0 ≤ δ) : |quantile xs a - quantile ys a| ≤ δ := by
  by_cases hne : xs = []
  · have : ys = [] := List.length_eq_zero_iff.1 (by rw [← h.length_eq, hne]; rfl)
    rw [hne, this]
    simpa using hδ
  have hne' : ys ≠ [] := fun e => hne (List.length_eq_zero_iff.1 (by rw [h.length_eq, e]; rfl))
  have e1 := quantile_mono (xs := xs) (ys := ys.map (δ + ·)) (a := a) (by
    rw [List.forall₂_map_right_iff]
    refine h.imp fun x y hxy => ?_
    have := (abs_le.1 hxy).2
    linarith) h0 h1
  have e2 := quantile_mono (xs := ys) (ys := xs.map (δ + ·)) (a := a) (by
    rw [List.forall₂_map_right_iff]
    refine h.flip.imp fun y x hxy => ?_
    have := (abs_le.1 hxy).1
    linarith) h0 h1
  rw [quantile_add δ hne' h0 h1] at e1
  rw [quantile_add δ hne h0 h1] at e2
  rw [abs_le]
  constructor <;> linarith

/-- Reflecting the sample exchanges the quantiles. -/
theorem quantile_neg {xs : List K} (hne : xs ≠ []) {a : K} (h0 : 0 ≤ a) (h1 : a ≤ 1) :
    quantile (xs.map (-·)) (1 - a) = - quantile xs a := by
  have hlen : 0 < xs.length := List.length_pos_of_ne_nil hne
  have hsort : (xs.map (-·)).insertionSort (· ≤ ·) = ((xs.insertionSort (· ≤ ·)).map (-·)).reverse := by
    refine List.Perm.eq_of_pairwise (le := (· ≤ ·)) (fun _ _ _ _ => le_antisymm)
      (sorted_sort _) ?_ ?_
    · rw [List.pairwise_reverse, List.pairwise_map]
      exact (sorted_sort xs).imp fun h => neg_le_neg h
    · exact (List.perm_insertionSort _ _).trans
        (((List.perm_insertionSort (· ≤ ·) xs).symm.map _).trans (List.reverse_perm _).symm)
  rw [quantile_eq_interp, quantile_eq_interp, hsort, List.length_map]
  obtain ⟨p0, p1⟩ := pos_bounds hlen h0 h1
  obtain ⟨f1, f2, f3⟩ := floor_facts p0 p1
  have hsl : (xs.insertionSort (· ≤ ·)).length = xs.length := List.length_insertionSort _ _
  set s := xs.insertionSort (· ≤ ·) with hs
  set n := xs.length with hn
  set h := a * ((n : K) - 1) with hh
  set k := (⌊h⌋).toNat with hk
  have hg : ∀ i < n, ((s.map (-·)).reverse).getD i 0 = - s.getD (n - 1 - i) 0 := by
    intro i hi
    rw [List.getD_eq_getElem _ _ (by simp; omega), List.getD_eq_getElem _ _ (by omega),
      List.getElem_reverse, List.getElem_map]
    simp only [List.length_map, hsl]
  have hpos : (1 - a) * ((n : K) - 1) = ((n : K) - 1) - h := by rw [hh]; ring
  have hcast : ((n - 1 : Nat) : K) = (n : K) - 1 := by rw [Nat.cast_sub hlen]; simp
  rw [hpos]
  unfold interp
  rw [List.length_reverse, List.length_map, hsl, ← hk]
  rcases eq_or_lt_of_le f1 with he | hlt
  · have e : (n : K) - 1 - h = ((n - 1 - k : Nat) : K) := by
      rw [← he, Nat.cast_sub (by omega), hcast]
    rw [e]
    simp only [Int.floor_natCast, Int.toNat_natCast, sub_self, zero_mul, add_zero]
    rw [hg _ (by omega), ← he, sub_self, zero_mul, add_zero]
    congr 2
    omega
  · have hk1 : k + 1 < n := by
      have : ((k : Nat) : K) + 1 < (n : K) := by linarith
      exact_mod_cast this
    have e : ⌊(n : K) - 1 - h⌋ = ((n - 2 - k : Nat) : Int) := by
      rw [Int.floor_eq_iff]
      have : (((n - 2 - k : Nat) : Int) : K) = (n : K) - 2 - k := by
        rw [Int.cast_natCast, Nat.cast_sub (by omega), Nat.cast_sub (by omega)]
        simp
      rw [this]
      constructor <;> linarith
    rw [e, Int.toNat_natCast, hg _ (by omega), hg _ (by omega)]
    have i1 : n - 1 - (n - 2 - k) = k + 1 := by omega
    have i2 : n - 1 - min (n - 2 - k + 1) (n - 1) = k := by omega
    have i3 : min (k + 1) (n - 1) = k + 1 := by omega
    rw [i1, i2, i3]
    have : ((n - 2 - k : Nat) : K) = (n : K) - 2 - k := by
      rw [Nat.cast_sub (by omega), Nat.cast_sub (by omega)]
      simp
    rw [this]
    ring

end PV
