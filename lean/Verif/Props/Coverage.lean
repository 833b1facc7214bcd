import Verif.Props.EndToEnd

/-!
# C112: a prediction interval contains the announced share of the simulated futures
-/

namespace PV
section
variable {K : Type} [Field K] [LinearOrder K] [IsStrictOrderedRing K]

/-- How many numbers of a list satisfy a condition. -/
def howMany (xs : List K) (p : K → Prop) [DecidablePred p] : Nat := xs.countP fun x => p x

omit [IsStrictOrderedRing K] [Field K] [LinearOrder K] in
theorem howMany_cons (x : K) (xs : List K) (p : K → Prop) [DecidablePred p] :
    howMany (x :: xs) p = (if p x then 1 else 0) + howMany xs p := by
  unfold howMany
  rw [List.countP_cons, Nat.add_comm]
  simp only [decide_eq_true_eq]

omit [IsStrictOrderedRing K] [Field K] [LinearOrder K] in
theorem howMany_perm {xs ys : List K} (h : xs.Perm ys) (p : K → Prop) [DecidablePred p] :
    howMany xs p = howMany ys p := h.countP_eq _

omit [IsStrictOrderedRing K] [Field K] in
/-- In a sorted list, the entries up to position `k` are at most the `k`-th. -/
theorem howMany_le_sorted {s : List K} (hs : s.Pairwise (· ≤ ·)) {k : Nat} {a q : K}
    (hk : s[k]? = some a) (hq : a ≤ q) : k + 1 ≤ howMany s (· ≤ q) := by
  obtain ⟨hlt, rfl⟩ := List.getElem?_eq_some_iff.1 hk
  have h1 : (s.take (k + 1)).countP (fun x => decide (x ≤ q)) = (s.take (k + 1)).length := by
    rw [List.countP_eq_length]
    intro x hx
    obtain ⟨j, hj, rfl⟩ := List.getElem_of_mem hx
    rw [List.length_take] at hj
    rw [List.getElem_take, decide_eq_true_eq]
    refine le_trans ?_ hq
    rcases Nat.lt_or_ge j k with h | h
    · exact List.pairwise_iff_getElem.1 hs j k _ hlt h
    · have : j = k := by omega
      subst this
      exact le_rfl
  have h2 : (s.take (k + 1)).length = k + 1 := by rw [List.length_take]; omega
  unfold howMany
  rw [← h2, ← h1]
  exact (List.take_sublist _ _).countP_le

omit [IsStrictOrderedRing K] [Field K] in
/-- … and those from position `k` on are at least the `k`-th. -/
theorem howMany_ge_sorted {s : List K} (hs : s.Pairwise (· ≤ ·)) {k : Nat} {a q : K}
    (hk : s[k]? = some a) (hq : q ≤ a) : s.length - k ≤ howMany s (q ≤ ·) := by
  obtain ⟨hlt, rfl⟩ := List.getElem?_eq_some_iff.1 hk
  have h1 : (s.drop k).countP (fun x => decide (q ≤ x)) = (s.drop k).length := by
    rw [List.countP_eq_length]
    intro x hx
    obtain ⟨j, hj, rfl⟩ := List.getElem_of_mem hx
    rw [List.length_drop] at hj
    rw [List.getElem_drop, decide_eq_true_eq]
    refine le_trans hq ?_
    rcases Nat.eq_zero_or_pos j with h | h
    · subst h
      exact le_rfl
    · exact List.pairwise_iff_getElem.1 hs k (k + j) hlt _ (by omega)
  unfold howMany
  rw [← List.length_drop, ← h1]
  exact (List.drop_sublist _ _).countP_le

/-- **C112**, one quantile: more than the share `a` of the `n - 1` steps between the samples lies below
it and more than the share `1 - a` above it. -/
theorem C112_quantile {xs : List K} {a q : K} (h0 : 0 ≤ a) (h1 : a ≤ 1) (hq : IsQuantile xs a q) :
    a * ((xs.length : K) - 1) < (howMany xs (· ≤ q) : K) ∧
    (1 - a) * ((xs.length : K) - 1) < (howMany xs (q ≤ ·) : K) := by
  obtain ⟨s, hp, hs, k, w, b, hpos, hk, hcase⟩ := hq
  rw [← howMany_perm hp, ← howMany_perm hp, ← hp.length_eq] at *
  have hlt := (List.getElem?_eq_some_iff.1 hk).1
  have hsub : ((s.length - k : Nat) : K) = (s.length : K) - k := Nat.cast_sub hlt.le
  rcases hcase with ⟨rfl, rfl⟩ | ⟨hw0, hw1, b', hk', rfl⟩
  · have e1 := howMany_le_sorted hs hk le_rfl
    have e2 := howMany_ge_sorted hs hk le_rfl
    have c1 : ((k : K) + 1) ≤ (howMany s (· ≤ q) : K) := by exact_mod_cast e1
    have c2 : ((s.length - k : Nat) : K) ≤ (howMany s (q ≤ ·) : K) := by exact_mod_cast e2
    rw [hsub] at c2
    constructor <;> linarith
  · have hlt' := (List.getElem?_eq_some_iff.1 hk').1
    have hbb : b ≤ b' := by
      have e1 := (List.getElem?_eq_some_iff.1 hk).2
      have e2 := (List.getElem?_eq_some_iff.1 hk').2
      rw [← e1, ← e2]
      exact List.pairwise_iff_getElem.1 hs k (k + 1) hlt hlt' (by omega)
    have hq1 : b ≤ (1 - w) * b + w * b' := by nlinarith
    have hq2 : (1 - w) * b + w * b' ≤ b' := by nlinarith
    have e1 := howMany_le_sorted hs hk hq1
    have e2 := howMany_ge_sorted hs hk' hq2
    have c1 : ((k : K) + 1) ≤ (howMany s (· ≤ (1 - w) * b + w * b') : K) := by exact_mod_cast e1
    have c2 : ((s.length - (k + 1) : Nat) : K) ≤ (howMany s ((1 - w) * b + w * b' ≤ ·) : K) := by
      exact_mod_cast e2
    rw [Nat.cast_sub hlt'.le] at c2
    push_cast at c2
    constructor <;> linarith

omit [IsStrictOrderedRing K] [Field K] in
theorem howMany_split (xs : List K) {l u : K} (h : l ≤ u) :
    howMany xs (l ≤ ·) + howMany xs (· ≤ u) = xs.length + howMany xs (fun x => l ≤ x ∧ x ≤ u) := by
  induction xs with
  | nil => rfl
  | cons x xs ih =>
    rw [howMany_cons, howMany_cons, howMany_cons, List.length_cons]
    by_cases h1 : l ≤ x <;> by_cases h2 : x ≤ u
    · rw [if_pos h1, if_pos h2, if_pos ⟨h1, h2⟩]
      omega
    · rw [if_pos h1, if_neg h2, if_neg fun h => h2 h.2]
      omega
    · rw [if_neg h1, if_pos h2, if_neg fun h => h1 h.1]
      omega
    · exact absurd (h.trans (le_of_not_ge h2)) h1

omit [IsStrictOrderedRing K] [Field K] in
theorem howMany_compl (xs : List K) (p q : K → Prop) [DecidablePred p] [DecidablePred q]
    (h : ∀ x, p x ↔ ¬ q x) : howMany xs p + howMany xs q = xs.length := by
  induction xs with
  | nil => rfl
  | cons x xs ih =>
    rw [howMany_cons, howMany_cons, List.length_cons]
    by_cases h1 : q x
    · rw [if_pos h1, if_neg fun hp => (h x).1 hp h1]
      omega
    · rw [if_neg h1, if_pos ((h x).2 h1)]
      omega

/-- Quantiles increase with the probability. -/
theorem isQuantile_mono {xs : List K} {a b l u : K} (hab : a ≤ b) (hl : IsQuantile xs a l)
    (hu : IsQuantile xs b u) : l ≤ u := by
  obtain ⟨s, hp, hs, k, w, x, hpos, hk, hcase⟩ := hl
  obtain ⟨s', hp', hs', k', w', x', hpos', hk', hcase'⟩ := hu
  have hss : s = s' := (hp.trans hp'.symm).eq_of_pairwise (le := (· ≤ ·))
    (fun _ _ _ _ h1 h2 => le_antisymm h1 h2) hs hs'
  subst hss
  have hle : ∀ (i j : ℕ) (p q : K), s[i]? = some p → s[j]? = some q → i ≤ j → p ≤ q := by
    intro i j p q hi hj hij
    obtain ⟨h1, rfl⟩ := List.getElem?_eq_some_iff.1 hi
    obtain ⟨h2, rfl⟩ := List.getElem?_eq_some_iff.1 hj
    rcases Nat.lt_or_ge i j with h | h
    · exact List.pairwise_iff_getElem.1 hs i j _ _ h
    · have : i = j := by omega
      subst this
      exact le_rfl
  have hlen : 0 < xs.length := by
    rw [← hp.length_eq]
    exact Nat.lt_of_le_of_lt (Nat.zero_le k) (List.getElem?_eq_some_iff.1 hk).1
  have h1 : (1 : K) ≤ xs.length := by exact_mod_cast hlen
  have hkw : (k : K) + w ≤ k' + w' := by
    rw [← hpos, ← hpos']
    exact mul_le_mul_of_nonneg_right hab (by linarith)
  have hw : 0 ≤ w ∧ w < 1 := by rcases hcase with ⟨h, -⟩ | ⟨h1, h2, -⟩ <;> constructor <;> linarith
  have hw' : 0 ≤ w' ∧ w' < 1 := by rcases hcase' with ⟨h, -⟩ | ⟨h1, h2, -⟩ <;> constructor <;> linarith
  have hkk : k ≤ k' := by
    by_contra h
    have : (k' : K) + 1 ≤ k := by exact_mod_cast Nat.lt_of_not_le h
    linarith
  have hx : x ≤ x' := hle k k' x x' hk hk' hkk
  have hx'u : x' ≤ u := by
    rcases hcase' with ⟨-, h⟩ | ⟨h1, h2, y', hy', rfl⟩
    · exact h.ge
    · have := hle k' (k' + 1) x' y' hk' hy' (by omega)
      nlinarith
  rcases hcase with ⟨-, rfl⟩ | ⟨hw0, hw1, y, hy, rfl⟩
  · exact hx.trans hx'u
  · have hxy := hle k (k + 1) x y hk hy (by omega)
    rcases Nat.lt_or_ge k k' with h | h
    · have : y ≤ x' := hle (k + 1) k' y x' hy hk' (by omega)
      nlinarith
    · have he : k = k' := by omega
      subst he
      have hxx : x = x' := Option.some.inj (hk.symm.trans hk')
      subst hxx
      have hww : w ≤ w' := by linarith
      rcases hcase' with ⟨h, -⟩ | ⟨h1, h2, y', hy', rfl⟩
      · linarith
      · have : y = y' := Option.some.inj (hy.symm.trans hy')
        subst this
        nlinarith

/-- **C112**, an interval between two quantiles of the same samples: it contains at least the share
`b - a` of the samples, up to the two samples at its ends; fewer than `1 + a (n - 1)` samples lie
below it and fewer than `1 + (1 - b) (n - 1)` above it. -/
theorem C112_interval {xs : List K} {a b l u : K} (h0 : 0 ≤ a) (hab : a ≤ b) (h1 : b ≤ 1)
    (hl : IsQuantile xs a l) (hu : IsQuantile xs b u) :
    l ≤ u ∧ (b - a) * ((xs.length : K) - 1) - 1 < (howMany xs fun x => l ≤ x ∧ x ≤ u : K) ∧
    (howMany xs (· < l) : K) < 1 + a * ((xs.length : K) - 1) ∧
    (howMany xs (u < ·) : K) < 1 + (1 - b) * ((xs.length : K) - 1) := by
  obtain ⟨-, hl2⟩ := C112_quantile h0 (hab.trans h1) hl
  obtain ⟨hu1, -⟩ := C112_quantile (h0.trans hab) h1 hu
  have hlu := isQuantile_mono hab hl hu
  have hs := howMany_split xs hlu
  have hsK : (howMany xs (l ≤ ·) : K) + (howMany xs (· ≤ u) : K)
      = xs.length + (howMany xs fun x => l ≤ x ∧ x ≤ u : K) := by exact_mod_cast hs
  have c1 := howMany_compl xs (· < l) (l ≤ ·) fun x => not_le.symm
  have c2 := howMany_compl xs (u < ·) (· ≤ u) fun x => not_le.symm
  have c1K : (howMany xs (· < l) : K) + (howMany xs (l ≤ ·) : K) = xs.length := by exact_mod_cast c1
  have c2K : (howMany xs (u < ·) : K) + (howMany xs (· ≤ u) : K) = xs.length := by exact_mod_cast c2
  refine ⟨hlu, ?_, ?_, ?_⟩ <;> linarith

variable {S τ D F κ G Θ P H : Type} [FloorRing K] [LinearOrder τ]

/-- **C112**: for two probabilities `a ≤ b`, the table returned by `predict_quantiles` on a fitted
forecaster has in every row an interval that contains, of the `n` simulated futures of that row (the
row of `predict_samples`), more than `(b - a) (n - 1) - 1`, with fewer than `1 + a (n - 1)` of them
below and fewer than `1 + (1 - b) (n - 1)` above. -/
theorem C112_forecast {np : Numpyro κ G (ModelArgs D K) K Θ P (Draws K)}
    {horizon : List τ → H → List τ} {w w' : World S τ D K F κ G Θ P} {i : Nat}
    {y : Frame String τ K} {c : String} (hc : y.cols = [c]) {X X' : Option (Frame String τ K)}
    {fh : H} {f : Frame Nat τ K} (hfit : w.fit np i y X = (.ok (), w'))
    (hs : (w'.predict np horizon i .samples X' fh).1 = .ok (.samples f)) {a b : K}
    (h0 : 0 ≤ a) (hab : a ≤ b) (h1 : b ≤ 1) :
    ∃ g, (w'.predict np horizon i (.quantiles (.list [a, b])) X' fh).1 = .ok (.quantiles g) ∧
      g.index = f.index ∧ g.cols = [(c, a), (c, b)] ∧
      List.Forall₂ (fun (p : Row (String × K) τ K) (r : Row Nat τ K) =>
        p.sid = r.sid ∧ p.time = r.time ∧ p.val (c, a) ≤ p.val (c, b) ∧
        (b - a) * ((f.cols.length : K) - 1) - 1
          < (howMany (f.cols.map r.val) fun x => p.val (c, a) ≤ x ∧ x ≤ p.val (c, b) : K) ∧
        (howMany (f.cols.map r.val) (· < p.val (c, a)) : K) < 1 + a * ((f.cols.length : K) - 1) ∧
        (howMany (f.cols.map r.val) (p.val (c, b) < ·) : K)
          < 1 + (1 - b) * ((f.cols.length : K) - 1)) g.rows f.rows := by
  obtain ⟨g, hg, e1, e2, e3⟩ := C88_quantiles hc hfit hs (.list [a, b]) (by
    intro x hx
    simp only [AlphaArg.toList, List.mem_cons, List.not_mem_nil, or_false] at hx
    rcases hx with rfl | rfl
    · exact ⟨h0, hab.trans h1⟩
    · exact ⟨h0.trans hab, h1⟩)
  refine ⟨g, hg, e1, e2, e3.imp ?_⟩
  rintro p r ⟨hs, ht, hq⟩
  have ha := hq a (by simp [AlphaArg.toList])
  have hb := hq b (by simp [AlphaArg.toList])
  have h := C112_interval h0 hab h1 ha hb
  rw [List.length_map] at h
  exact ⟨hs, ht, h⟩

end

/-! ## Examples -/

/-- Eleven samples: the interval between the 10% and the 90% quantile. -/
def exSamples112 : List ℚ := [5, 3, 8, 1, 9, 2, 7, 11, 4, 6, 10]

example : quantile exSamples112 (1 / 10) = 2 ∧ quantile exSamples112 (9 / 10) = 10 ∧
    howMany exSamples112 (fun x => 2 ≤ x ∧ x ≤ 10) = 9 ∧ howMany exSamples112 (· < 2) = 1 ∧
    howMany exSamples112 (10 < ·) = 1 := by decide +kernel

example := C112_interval (xs := exSamples112) (a := 1 / 10) (b := 9 / 10) (by norm_num) (by norm_num)
  (by norm_num) (C08_is_quantile (by decide) (by norm_num) (by norm_num))
  (C08_is_quantile (by decide) (by norm_num) (by norm_num))

end PV
