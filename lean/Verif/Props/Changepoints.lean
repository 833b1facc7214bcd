import Mathlib.Algebra.Order.Floor.Ring
import Mathlib.Data.Rat.Floor
import Verif.Lemmas.Trend

/-!
# C34, C35, C36: changepoints and their design
-/

namespace PV
variable {K : Type} [Field K] [LinearOrder K] [IsStrictOrderedRing K]

section
variable [FloorSemiring K]

theorem mem_arange {stop step c : K} (h : 0 < step) :
    c ∈ arange stop step ↔ ∃ k : ℕ, c = k * step ∧ c < stop := by
  unfold arange
  simp only [List.mem_map, List.mem_range, Nat.lt_ceil, lt_div_iff₀ h]
  constructor
  · rintro ⟨k, hk, rfl⟩; exact ⟨k, rfl, hk⟩
  · rintro ⟨k, rfl, hk⟩; exact ⟨k, hk, rfl⟩

theorem arange_sorted {stop step : K} (h : 0 < step) : (arange stop step).Pairwise (· < ·) := by
  unfold arange
  rw [List.pairwise_map]
  exact List.pairwise_lt_range.imp fun hij => mul_lt_mul_of_pos_right (by exact_mod_cast hij) h

/-- The changepoints `cs` of one series are the multiples of the interval below the limit. -/
structure AreChangepoints (interval limit : K) (cs : List K) : Prop where
  mem : ∀ c, c ∈ cs ↔ ∃ k : ℕ, c = k * interval ∧ c < limit
  sorted : cs.Pairwise (· < ·)
  first : cs.head? = some 0

theorem areChangepoints {interval limit : K} (h : 0 < interval) (hne : arange limit interval ≠ []) :
    AreChangepoints interval limit (arange limit interval) := by
  refine ⟨fun c => mem_arange h, arange_sorted h, ?_⟩
  have h0 : (0 : K) ∈ arange limit interval := by
    obtain ⟨c, hc⟩ := List.exists_mem_of_ne_nil _ hne
    obtain ⟨k, rfl, hk⟩ := (mem_arange h).1 hc
    refine (mem_arange h).2 ⟨0, by simp, lt_of_le_of_lt ?_ hk⟩
    positivity
  have hs := arange_sorted (stop := limit) h
  cases hl : arange limit interval with
  | nil => exact absurd hl hne
  | cons a l =>
    rw [hl] at h0 hs
    rcases List.mem_cons.1 h0 with h1 | h1
    · rw [h1]; rfl
    · have h2 := (List.pairwise_cons.1 hs).1 0 h1
      have h3 : a ∈ arange limit interval := by rw [hl]; simp
      obtain ⟨k, rfl, -⟩ := (mem_arange h).1 h3
      have : (0 : K) ≤ k * interval := by positivity
      exact absurd h2 (not_lt.2 this)

theorem arange_nil_iff {interval limit : K} (h : 0 < interval) :
    arange limit interval = [] ↔ limit ≤ 0 := by
  rw [List.eq_nil_iff_forall_not_mem]
  constructor
  · intro hn
    by_contra hl
    exact hn 0 ((mem_arange h).2 ⟨0, by simp, not_le.1 hl⟩)
  · intro hl c hc
    obtain ⟨k, rfl, hk⟩ := (mem_arange h).1 hc
    have : (0 : K) ≤ k * interval := by positivity
    exact absurd (lt_of_lt_of_le hk hl) (not_lt.2 this)

theorem changepointsOf_eq {a : K} {t : List K} {p : K × K} :
    changepointsOf (a :: t) p = if arange (changepointLimit (t.foldl max a) p.2) p.1 = []
      then .error .valueError else .ok (arange (changepointLimit (t.foldl max a) p.2) p.1) := rfl

theorem changepointsAll_spec {a : K} {t : List K} : ∀ {ps : List (K × K)},
    (∀ p ∈ ps, 0 < p.1) →
    match changepointsAll (a :: t) ps with
    | .ok cps => List.Forall₂ (fun p cs => AreChangepoints p.1
        (changepointLimit (t.foldl max a) p.2) cs) ps cps
    | .error e => e = .valueError ∧ ∃ p ∈ ps, changepointLimit (t.foldl max a) p.2 ≤ 0
  | [], _ => List.Forall₂.nil
  | p :: ps, h => by
    have ih := changepointsAll_spec (a := a) (t := t) fun q hq => h q (List.mem_cons_of_mem p hq)
    have hp := h p (by simp)
    unfold changepointsAll
    rw [changepointsOf_eq]
    by_cases hn : arange (changepointLimit (t.foldl max a) p.2) p.1 = []
    · rw [if_pos hn]
      exact ⟨rfl, p, by simp, (arange_nil_iff hp).1 hn⟩
    · rw [if_neg hn]
      simp only [bind, Except.bind]
      cases hc : changepointsAll (a :: t) ps with
      | error e =>
        rw [hc] at ih
        obtain ⟨h1, q, hq, h2⟩ := ih
        exact ⟨h1, q, by simp [hq], h2⟩
      | ok cps =>
        rw [hc] at ih
        exact List.Forall₂.cons (areChangepoints hp hn) ih

/-- The value of a parameter for series `i`. -/
def ScalarOr.at {K : Type} (x : ScalarOr K) (i : Nat) : Option K :=
  match x with
  | .scalar a => some a
  | .list l => l[i]?

/-- A list parameter has one entry per series. -/
def ScalarOr.Fits {K : Type} (x : ScalarOr K) (n : Nat) : Prop :=
  match x with
  | .scalar _ => True
  | .list l => l.length = n

omit [Field K] [LinearOrder K] [IsStrictOrderedRing K] [FloorSemiring K] in
theorem ScalarOr.length_toList {x : ScalarOr K} {n : Nat} (h : x.Fits n) :
    (x.toList n).length = n := by
  cases x with
  | scalar a => simp [ScalarOr.toList]
  | list l => exact h

omit [Field K] [LinearOrder K] [IsStrictOrderedRing K] [FloorSemiring K] in
theorem ScalarOr.getElem?_toList {x : ScalarOr K} {n i : Nat} (h : x.Fits n) (hi : i < n) :
    (x.toList n)[i]? = x.at i := by
  cases x with
  | scalar a => simp [ScalarOr.toList, ScalarOr.at, hi]
  | list l => rfl

/-- **C34**: with positive intervals and one range and interval per series (or common ones) every
series gets as changepoints the multiples of its interval below its limit, in increasing order and
beginning with 0. -/
theorem C34_multiples {t : List K} {n : Nat} {interval range : ScalarOr K} {cps : List (List K)}
    (hi : interval.Fits n) (hr : range.Fits n) (hpos : ∀ i < n, ∀ v, interval.at i = some v → 0 < v)
    (h : setupChangepoints t n interval range = .ok cps) :
    cps.length = n ∧ ∀ i < n, ∃ v r tmax cs, interval.at i = some v ∧ range.at i = some r ∧
      (tmax ∈ t ∧ ∀ s ∈ t, s ≤ tmax) ∧ cps[i]? = some cs ∧
      AreChangepoints v (changepointLimit tmax r) cs := by
  have hzl : ((interval.toList n).zip (range.toList n)).length = n := by
    simp [ScalarOr.length_toList hi, ScalarOr.length_toList hr]
  have hz : ∀ i < n, ∃ v r, interval.at i = some v ∧ range.at i = some r ∧
      ((interval.toList n).zip (range.toList n))[i]? = some (v, r) := by
    intro i hin
    have h1 := ScalarOr.getElem?_toList hi hin
    have h2 := ScalarOr.getElem?_toList hr hin
    have l1 : i < (interval.toList n).length := by rw [ScalarOr.length_toList hi]; exact hin
    have l2 : i < (range.toList n).length := by rw [ScalarOr.length_toList hr]; exact hin
    rw [List.getElem?_eq_getElem l1] at h1
    rw [List.getElem?_eq_getElem l2] at h2
    refine ⟨_, _, h1.symm, h2.symm, ?_⟩
    rw [List.getElem?_eq_getElem (by rw [hzl]; exact hin), List.getElem_zip]
  have hps : ∀ p ∈ (interval.toList n).zip (range.toList n), 0 < p.1 := by
    intro p hp
    obtain ⟨i, hil, rfl⟩ := List.mem_iff_getElem.1 hp
    rw [hzl] at hil
    obtain ⟨v, r, h1, -, h3⟩ := hz i hil
    rw [List.getElem?_eq_getElem (by rw [hzl]; exact hil)] at h3
    rw [Option.some.inj h3]
    exact hpos i hil v h1
  unfold setupChangepoints at h
  cases t with
  | nil =>
    cases hzip : (interval.toList n).zip (range.toList n) with
    | nil =>
      rw [hzip] at h hzl
      cases h
      simp only [List.length_nil] at hzl
      exact ⟨hzl, fun i hi' => by omega⟩
    | cons p ps => rw [hzip] at h; cases h
  | cons a t =>
    have hspec := changepointsAll_spec (a := a) (t := t) hps
    rw [h] at hspec
    have hlen : cps.length = n := by rw [← hspec.length_eq, hzl]
    refine ⟨hlen, fun i hin => ?_⟩
    obtain ⟨v, r, h1, h2, h3⟩ := hz i hin
    refine ⟨v, r, t.foldl max a, cps[i]'(by omega), h1, h2, foldl_max_spec t a,
      List.getElem?_eq_getElem (by omega), ?_⟩
    have := List.forall₂_iff_get.1 hspec |>.2 i (by rw [hzl]; exact hin) (by omega)
    rw [List.getElem?_eq_getElem (by rw [hzl]; exact hin)] at h3
    have h3' := Option.some.inj h3
    simp only [List.get_eq_getElem, h3'] at this
    exact this

/-- **C34**: with positive intervals the fit fails, and with a `ValueError`, iff some series has no
changepoint, that is iff its limit is not positive. -/
theorem C34_failure {t : List K} {n : Nat} {interval range : ScalarOr K}
    (ht : t ≠ []) (hi : interval.Fits n) (hr : range.Fits n)
    (hpos : ∀ i < n, ∀ v, interval.at i = some v → 0 < v) :
    (∀ e, setupChangepoints t n interval range = .error e → e = .valueError) ∧
    ((∃ e, setupChangepoints t n interval range = .error e) ↔
      ∃ i < n, ∃ r tmax, range.at i = some r ∧ (tmax ∈ t ∧ ∀ s ∈ t, s ≤ tmax) ∧
        changepointLimit tmax r ≤ 0) := by
  have hzl : ((interval.toList n).zip (range.toList n)).length = n := by
    simp [ScalarOr.length_toList hi, ScalarOr.length_toList hr]
  have hz : ∀ i, ∀ (hin : i < n), ∃ v r, interval.at i = some v ∧ range.at i = some r ∧
      ((interval.toList n).zip (range.toList n))[i]'(by rw [hzl]; exact hin) = (v, r) := by
    intro i hin
    have h1 := ScalarOr.getElem?_toList hi hin
    have h2 := ScalarOr.getElem?_toList hr hin
    have l1 : i < (interval.toList n).length := by rw [ScalarOr.length_toList hi]; exact hin
    have l2 : i < (range.toList n).length := by rw [ScalarOr.length_toList hr]; exact hin
    rw [List.getElem?_eq_getElem l1] at h1
    rw [List.getElem?_eq_getElem l2] at h2
    exact ⟨_, _, h1.symm, h2.symm, List.getElem_zip⟩
  have hps : ∀ p ∈ (interval.toList n).zip (range.toList n), 0 < p.1 := by
    intro p hp
    obtain ⟨i, hil, rfl⟩ := List.mem_iff_getElem.1 hp
    rw [hzl] at hil
    obtain ⟨v, r, h1, -, h3⟩ := hz i hil
    rw [h3]
    exact hpos i hil v h1
  obtain ⟨a, t, rfl⟩ := List.exists_cons_of_ne_nil ht
  have hspec := changepointsAll_spec (a := a) (t := t) hps
  have hmax := foldl_max_spec t a
  unfold setupChangepoints
  constructor
  · intro e he
    rw [he] at hspec
    exact hspec.1
  · constructor
    · rintro ⟨e, he⟩
      rw [he] at hspec
      obtain ⟨-, p, hp, hl⟩ := hspec
      obtain ⟨i, hil, rfl⟩ := List.mem_iff_getElem.1 hp
      rw [hzl] at hil
      obtain ⟨v, r, -, h2, h3⟩ := hz i hil
      rw [h3] at hl
      exact ⟨i, hil, r, _, h2, hmax, hl⟩
    · rintro ⟨i, hil, r, tmax, h2, ⟨hm1, hm2⟩, hl⟩
      cases hc : changepointsAll (a :: t) ((interval.toList n).zip (range.toList n)) with
      | error e => exact ⟨e, rfl⟩
      | ok cps =>
        exfalso
        rw [hc] at hspec
        have hlen : cps.length = n := by rw [← hspec.length_eq, hzl]
        have := List.forall₂_iff_get.1 hspec |>.2 i (by rw [hzl]; exact hil) (by omega)
        obtain ⟨v, r', -, h2', h3⟩ := hz i hil
        have hr' : r' = r := by rw [h2] at h2'; exact (Option.some.inj h2').symm
        subst hr'
        have htm : tmax = t.foldl max a := le_antisymm (hmax.2 _ hm1) (hm2 _ hmax.1)
        simp only [List.get_eq_getElem, h3] at this
        have hmem := List.mem_of_mem_head? this.first
        obtain ⟨k, hk, hlt⟩ := (this.mem 0).1 hmem
        rw [← htm] at hlt
        exact absurd hl (not_le.2 hlt)

/-! ## C35 -/

/-- **C35** for the history `0, ..., n - 1` (which `C32` gives for equally spaced times), one series:
a fraction strictly between 0 and 1 leaves changepoints in the first fraction of the history only, a
number `m ≥ 1` in the first `m` points only, a number `-m` with `m ≥ 1` before the last `m` points only.
Missing from C35: the fractions 0 and 1, for which it is false (`C35_zero_refuted`,
`C35_one_refuted`). -/
theorem C35_range_partial {n : Nat} (hn : 0 < n) {v r : K} (hv : 0 < v) {cs : List K}
    (h : changepointTimes ((List.range n).map fun i : Nat => (i : K)) v r = .ok cs) :
    (0 < r → r < 1 → ∀ c, c ∈ cs ↔ ∃ k : ℕ, c = k * v ∧ c < r * ((n : K) - 1)) ∧
    (∀ m : Nat, 1 ≤ m → r = m → ∀ c, c ∈ cs ↔ ∃ k : ℕ, c = k * v ∧ c < m) ∧
    (∀ m : Nat, 1 ≤ m → r = -m → (∀ c, c ∈ cs ↔ ∃ k : ℕ, c = k * v ∧ c < (n : K) - 1 - m) ∧
      ∀ c ∈ cs, ∀ i < n, n ≤ i + m → c < i) := by
  obtain ⟨n, rfl⟩ : ∃ k, n = k + 1 := ⟨n - 1, by omega⟩
  have hsorted : ((List.range (n + 1)).map fun i : Nat => (i : K)).Pairwise (· ≤ ·) := by
    rw [List.pairwise_map]
    exact List.pairwise_lt_range.imp fun hij => by exact_mod_cast hij.le
  have hcs : cs = arange (changepointLimit (n : K) r) v := by
    rw [List.range_succ_eq_map] at h hsorted
    simp only [List.map_cons] at h hsorted
    unfold changepointTimes at h
    simp only [Except.ok.injEq] at h
    rw [← h]
    congr 2
    have h2 := foldl_max_of_le hsorted
    rw [h2]
    cases n with
    | zero => simp
    | succ k =>
      rw [List.getLastD_eq_getLast?, List.getLast?_eq_getElem?]
      simp
  have hcast : ((n + 1 : ℕ) : K) - 1 = n := by push_cast; ring
  subst hcs
  simp only [mem_arange hv, hcast]
  refine ⟨fun h0 h1 c => ?_, fun m hm hr c => ?_, fun m hm hr => ?_⟩
  · unfold changepointLimit
    rw [if_pos ⟨h1, h0⟩, mul_comm (n : K) r]
  · have hm' : (1 : K) ≤ m := by exact_mod_cast hm
    unfold changepointLimit
    rw [hr, if_neg (fun h => absurd h.1 (not_lt.2 hm')), if_pos hm']
  · have hm' : (1 : K) ≤ m := by exact_mod_cast hm
    have hlim : changepointLimit (n : K) r = n - m := by
      unfold changepointLimit
      rw [hr, if_neg (fun h => by linarith [h.2]), if_neg (by linarith)]
      ring
    rw [hlim]
    refine ⟨fun c => Iff.rfl, ?_⟩
    rintro c ⟨k, -, hc⟩ i hi him
    refine hc.trans_le ?_
    have : ((n + 1 : ℕ) : K) ≤ ((i + m : ℕ) : K) := by exact_mod_cast him
    push_cast at this
    linarith

/-- **C35** is false for the fraction 1 (the whole history): the only changepoint is 0. -/
theorem C35_one_refuted {n : Nat} (hn : 0 < n) {v : K} (hv : 1 ≤ v) :
    changepointTimes ((List.range n).map fun i : Nat => (i : K)) v 1 = .ok [0] := by
  obtain ⟨n, rfl⟩ : ∃ k, n = k + 1 := ⟨n - 1, by omega⟩
  rw [List.range_succ_eq_map]
  simp only [List.map_cons, changepointTimes, changepointLimit]
  have hv0 : 0 < v := lt_of_lt_of_le one_pos hv
  have : ⌈(1 : K) / v⌉₊ = 1 := by
    rw [Nat.ceil_eq_iff one_ne_zero]
    refine ⟨by simp [hv0], ?_⟩
    rw [div_le_iff₀ hv0]
    simpa using hv
  rw [if_neg (fun h => lt_irrefl _ h.1), if_pos le_rfl, arange, this]
  simp

/-- **C35** is false for the fraction 0 (no history): the changepoints are spread over the whole
history. -/
theorem C35_zero_refuted : changepointTimes ((List.range 10).map fun i : Nat => (i : ℚ)) 2 0
    = .ok [0, 2, 4, 6, 8] := by
  decide +kernel

end

/-! ## C36 -/

/-- The design of a changepoint: zero before, a ramp from 1 after. -/
def ramp (t c : K) : K := if c ≤ t then t - c + 1 else 0

omit [IsStrictOrderedRing K] in
/-- The entry computed by the code. -/
theorem rampEntry_eq (t c : K) :
    rampEntry t c = if c ≤ t then max (t - c + 1) 0 else max (1 - c) 0 := by
  unfold rampEntry
  split
  · rw [one_mul]
  · congr 1; ring

/-- **C36** from the changepoint on, and before it for changepoints at 1 or later.
Missing from C36: times before a changepoint at less than 1, for which it is false
(`C36_refuted`). -/
theorem C36_ramp_partial {t c : K} (h : c ≤ t ∨ 1 ≤ c) : rampEntry t c = ramp t c := by
  rw [rampEntry_eq]
  unfold ramp
  split
  · rename_i hc
    exact max_eq_left (by linarith)
  · rename_i hc
    exact max_eq_right (by linarith [h.resolve_left hc])

/-- **C36** holds for all changepoints and times of a model whose interval is at least 1, for times
not before the first training time. -/
theorem C36_integer_intervals [FloorSemiring K] {interval limit t : K} (hi : 1 ≤ interval)
    (ht : 0 ≤ t) : ∀ c ∈ arange limit interval, rampEntry t c = ramp t c := by
  intro c hc
  obtain ⟨k, rfl, -⟩ := (mem_arange (lt_of_lt_of_le one_pos hi)).1 hc
  apply C36_ramp_partial
  rcases Nat.eq_zero_or_pos k with rfl | hk
  · left; simpa using ht
  · right
    have : (1 : K) ≤ k := by exact_mod_cast hk
    nlinarith

/-- **C36** is false: before a changepoint below 1 (such as the first changepoint, 0, or the second
with an interval less than 1) the entry is positive. -/
theorem C36_refuted {t c : K} (h1 : t < c) (h2 : c < 1) : rampEntry t c = 1 - c ∧ ramp t c = 0 := by
  rw [rampEntry_eq]
  unfold ramp
  rw [if_neg (not_le.2 h1), if_neg (not_le.2 h1)]
  exact ⟨max_eq_left (by linarith), rfl⟩

/-! ## Non-vacuity -/

example : setupChangepoints [0, 1, 2, 3, 4, (5 : ℚ)] 2 (.list [2, 1]) (.scalar (8 / 10))
    = .ok [[0, 2], [0, 1, 2, 3]] := by decide +kernel
example : (ScalarOr.list [2, (1 : ℚ)]).Fits 2 ∧ (ScalarOr.scalar (8 / 10 : ℚ)).Fits 2 :=
  ⟨rfl, trivial⟩
example : setupChangepoints [0, 1, 2, 3, 4, (5 : ℚ)] 1 (.scalar 2) (.scalar (-5))
    = .error .valueError := by decide +kernel
example : changepointTimes ((List.range 10).map fun i : Nat => (i : ℚ)) 2 (-3) = .ok [0, 2, 4] := by
  decide +kernel

end PV
