import Mathlib.Data.List.GetD
import Verif.Lemmas.Broadcast
import Verif.Lemmas.Trend

/-! # Design tensors and the piecewise trend, entry by entry -/

namespace PV
open Tensor
variable {K : Type} [Field K] [LinearOrder K]

/-- Offset plus the weighted design of the changepoints `cs` with coefficients `bs`. -/
def trendAt (ρ : K → K → K) (offset : K) (cs bs : List K) (t : K) : K :=
  offset + (List.zipWith (fun c b => b * ρ t c) cs bs).sum

theorem dot_append {a b v w : List K} (h : a.length = v.length) :
    dot (a ++ b) (v ++ w) = dot a v + dot b w := by
  unfold dot
  rw [List.zipWith_append h, List.sum_append]

theorem dot_zero {a v : List K} (h : ∀ x ∈ a, x = 0) : dot a v = 0 := by
  unfold dot
  apply List.sum_eq_zero
  intro x hx
  obtain ⟨i, hi, rfl⟩ := List.mem_iff_getElem.1 hx
  rw [List.getElem_zipWith, h _ (List.getElem_mem _), zero_mul]

theorem length_flatten_eq {cps βs : List (List K)}
    (h : List.Forall₂ (fun c b : List K => c.length = b.length) cps βs) :
    cps.flatten.length = βs.flatten.length := by
  induction h with
  | nil => rfl
  | cons h _ ih => simp only [List.flatten_cons, List.length_append, h, ih]

/-- Only the changepoints of series `i` contribute to its row. -/
theorem dot_maskedRow {cps βs : List (List K)} {i : Nat} {cs bs : List K} {t : K}
    (h : List.Forall₂ (fun c b : List K => c.length = b.length) cps βs)
    (hc : cps[i]? = some cs) (hb : βs[i]? = some bs) :
    dot (maskedRow cps i t) βs.flatten
      = (List.zipWith (fun c b => b * rampEntry t c) cs bs).sum := by
  obtain ⟨hi, rfl⟩ := List.getElem?_eq_some_iff.1 hc
  obtain ⟨hi', rfl⟩ := List.getElem?_eq_some_iff.1 hb
  have hlen : ∀ j, ((cps.take j).map List.length).sum = (cps.take j).flatten.length := by
    intro j; rw [List.length_flatten]
  have htake : (cps.take i).flatten.length = (βs.take i).flatten.length :=
    length_flatten_eq (List.forall₂_take i h)
  have hmid : cps[i].length = βs[i].length := by
    have := (List.forall₂_iff_get.1 h).2 i hi hi'
    simpa using this
  have hsplit : ∀ (l : List (List K)) (hl : i < l.length),
      l.flatten = (l.take i).flatten ++ (l[i] ++ (l.drop (i + 1)).flatten) := by
    intro l hl
    have : l.flatten = (l.take i ++ l[i] :: l.drop (i + 1)).flatten := by
      rw [← List.drop_eq_getElem_cons hl, List.take_append_drop]
    rw [this, List.flatten_append, List.flatten_cons]
  unfold maskedRow
  simp only [hc, Option.map_some, Option.getD_some]
  rw [hsplit cps hi, hsplit βs hi', List.zipIdx_append, List.zipIdx_append, List.map_append,
    List.map_append]
  set A := (cps.take i).flatten with hA
  rw [hlen]
  rw [dot_append (by rw [List.length_map, List.length_zipIdx, htake])]
  rw [dot_append (by rw [List.length_map, List.length_zipIdx, hmid])]
  have h1 : dot (A.zipIdx.map fun cj => rampEntry t cj.1 *
      (if A.length ≤ cj.2 ∧ cj.2 < A.length + cps[i].length then 1 else 0))
      (βs.take i).flatten = 0 := by
    apply dot_zero
    intro x hx
    obtain ⟨cj, hcj, rfl⟩ := List.mem_map.1 hx
    have := List.snd_lt_of_mem_zipIdx hcj
    rw [if_neg (by omega), mul_zero]
  have h3 : dot (((cps.drop (i + 1)).flatten.zipIdx (0 + A.length + cps[i].length)).map
      fun cj => rampEntry t cj.1 *
      (if A.length ≤ cj.2 ∧ cj.2 < A.length + cps[i].length then 1 else 0))
      (βs.drop (i + 1)).flatten = 0 := by
    apply dot_zero
    intro x hx
    obtain ⟨cj, hcj, rfl⟩ := List.mem_map.1 hx
    have := List.le_snd_of_mem_zipIdx hcj
    rw [if_neg (by omega), mul_zero]
  have h2 : dot ((cps[i].zipIdx (0 + A.length)).map fun cj => rampEntry t cj.1 *
      (if A.length ≤ cj.2 ∧ cj.2 < A.length + cps[i].length then 1 else 0)) βs[i]
      = (List.zipWith (fun c b => b * rampEntry t c) cps[i] βs[i]).sum := by
    have : ((cps[i].zipIdx (0 + A.length)).map fun cj => rampEntry t cj.1 *
      (if A.length ≤ cj.2 ∧ cj.2 < A.length + cps[i].length then 1 else 0))
      = cps[i].map fun c => rampEntry t c := by
      conv_rhs => rw [← List.zipIdx_map_fst (0 + A.length) cps[i], List.map_map]
      apply List.map_congr_left
      intro cj hcj
      have l1 := List.le_snd_of_mem_zipIdx hcj
      have l2 := List.snd_lt_add_of_mem_zipIdx hcj
      rw [if_pos (by omega), mul_one]
      rfl
    rw [this]
    unfold dot
    rw [List.zipWith_map_left]
    congr 1
    congr 1
    funext c b
    ring
  rw [h1, h2, h3]
  ring

theorem length_maskedRow (cps : List (List K)) (i : Nat) (t : K) :
    (maskedRow cps i t).length = cps.flatten.length := by
  simp [maskedRow]

theorem chunk_ext {l : List K} {n i : Nat} {r : List K} (hr : r.length = n)
    (h : ∀ j < n, l[i * n + j]? = r[j]?) : chunk l n i = r := by
  apply List.ext_getElem?
  intro j
  unfold chunk
  rw [List.getElem?_take]
  split
  · rename_i hj
    rw [List.getElem?_drop]
    exact h j hj
  · rw [List.getElem?_eq_none (by omega)]

/-- The rows of the design tensor. -/
theorem chunk_design {cps : List (List K)} {ts : List K} {i j : Nat} {t : K} (hi : i < cps.length)
    (hj : ts[j]? = some t) :
    chunk ((List.range cps.length).flatMap fun i => ts.flatMap fun s => maskedRow cps i s)
      cps.flatten.length (i * ts.length + j) = maskedRow cps i t := by
  obtain ⟨hjl, rfl⟩ := List.getElem?_eq_some_iff.1 hj
  apply chunk_ext (length_maskedRow _ _ _)
  intro k hk
  have hin : ∀ i, (ts.flatMap fun s => maskedRow cps i s).length = ts.length * cps.flatten.length :=
    fun i => length_flatMap_const _ _ _ fun s _ => length_maskedRow _ _ _
  have e : (i * ts.length + j) * cps.flatten.length + k
      = i * (ts.length * cps.flatten.length) + (j * cps.flatten.length + k) := by ring
  rw [e, getElem?_flatMap_const _ _ _ (fun i _ => hin i) i _ (by simpa using hi), List.getElem_range,
    getElem?_flatMap_const _ _ _ (fun s _ => length_maskedRow _ _ _) j k hjl hk]
  calc j * cps.flatten.length + k < j * cps.flatten.length + cps.flatten.length := by omega
    _ = (j + 1) * cps.flatten.length := by ring
    _ ≤ ts.length * cps.flatten.length := Nat.mul_le_mul_right _ hjl

theorem bcShape_series (n m : Nat) : bcShape [n, m, 1] [n, 1, 1] = some [n, m, 1] := by
  simp only [bcShape, List.reverse_cons, List.reverse_nil, List.nil_append, List.cons_append, bcRev,
    if_true]
  by_cases h : m = 1
  · simp [h]
  · simp [h]

theorem bcIdx_three {a b c i j k : Nat} (h : InBounds [a, b, c] [i, j, k]) :
    bcIdx [a, b, c] [i, j, k] = [i, j, k] := bcIdx_self h

/-- Adding one number per series. -/
theorem binop_series {L M : Type} [Zero L] {f : K → L → M} {a : Tensor K} {n m : Nat}
    (ha : a.shape = [n, m, 1]) {v : List L} (hv : v.length = n) :
    ∃ c, binop f a ⟨[v.length, 1, 1], v⟩ = .ok c ∧ c.shape = [n, m, 1] ∧ c.WF ∧
      ∀ i j (hi : i < n), j < m → c.get? [i, j, 0]
        = some (f ((a.get? [i, j, 0]).getD 0) (v[i]'(by omega))) := by
  refine ⟨_, by rw [binop, ha, hv, bcShape_series], rfl, wf_ofFn _ _, ?_⟩
  intro i j hi hj
  have hb : InBounds [n, m, 1] [i, j, 0] := ⟨hi, hj, Nat.one_pos, trivial⟩
  rw [get?_ofFn hb, bcIdx_self hb]
  have : bcIdx [n, 1, 1] [i, j, 0] = [i, 0, 0] := by
    simp only [bcIdx, List.length_cons, List.length_nil, Nat.sub_self, List.drop_zero,
      List.zipWith_cons_cons, List.zipWith_nil_left, if_true]
    congr 1
    split <;> omega
  rw [this]
  simp [get?, ravel, size, hi, hv]

theorem bcShape_one (m : Nat) : bcShape [m] [1] = some [m] := by
  simp only [bcShape, List.reverse_cons, List.reverse_nil, List.nil_append, bcRev]
  by_cases h : m = 1
  · simp [h]
  · simp [h]

/-- Adding one number to a vector. -/
theorem binop_one {L M : Type} [Zero L] {f : K → L → M} {a : Tensor K} {m : Nat}
    (ha : a.shape = [m]) {v : L} :
    ∃ c, binop f a ⟨[1], [v]⟩ = .ok c ∧ c.shape = [m] ∧ c.WF ∧
      ∀ j < m, c.get? [j] = some (f ((a.get? [j]).getD 0) v) := by
  refine ⟨_, by rw [binop, ha, bcShape_one], rfl, wf_ofFn _ _, ?_⟩
  intro j hj
  have hb : InBounds [m] [j] := ⟨hj, trivial⟩
  rw [get?_ofFn hb, bcIdx_self hb]
  simp [bcIdx, get?, ravel]

/-- The panel case: one row of values per series. -/
theorem piecewisePredict_panel {squeeze : Bool} {n : Nat} {cps βs : List (List K)} {ts : List K}
    {m : Tensor K} {θ : SiteEnv K} {p : PyDict (Tensor K)} {offs : List K}
    (hm : changepointMatrix squeeze cps ts = .ok m) (hs : cps.length ≠ 1 ∨ squeeze = false)
    (hn : n ≠ 1 ∨ squeeze = false)
    (hβ : List.Forall₂ (fun c b : List K => c.length = b.length) cps βs)
    (hθ : (θ "changepoint_coefficients").data = βs.flatten) (ho : (θ "offset").data = offs)
    (hol : offs.length = cps.length) :
    ∃ r, piecewisePredict squeeze n θ m p = .ok r ∧ r.shape = [cps.length, ts.length, 1] ∧ r.WF ∧
      ∀ i j cs bs o t, cps[i]? = some cs → βs[i]? = some bs → offs[i]? = some o → ts[j]? = some t →
        r.get? [i, j, 0] = some (trendAt rampEntry o cs bs t) := by
  have hmm : m = ⟨[cps.length, ts.length, cps.flatten.length],
      (List.range cps.length).flatMap fun i => ts.flatMap fun s => maskedRow cps i s⟩ := by
    unfold changepointMatrix changepointTensor at hm
    by_cases hc : cps = []
    · rw [if_pos hc] at hm; cases hm
    · rw [if_neg hc] at hm
      simp only [bind, Except.bind, List.head?_cons, Option.some.injEq] at hm
      rw [if_neg (by rintro ⟨h1, h2⟩; rcases hs with h | h; exacts [h h1, by simp_all])] at hm
      cases hm; rfl
  obtain ⟨r0, hr0⟩ := dotLast_ok (data := m) (v := βs.flatten) (sh := [cps.length, ts.length])
    (by rw [hmm, ← length_flatten_eq hβ]; rfl)
  obtain ⟨hsh, hwf, hget⟩ := dotLast_get? (sh := [cps.length, ts.length])
    (by rw [hmm, ← length_flatten_eq hβ]; rfl) hr0
  obtain ⟨r, hr, hrs, hrw, hrg⟩ := binop_series (f := fun x y : K => x + y)
    (a := ⟨r0.shape ++ [1], r0.data⟩) (n := cps.length) (m := ts.length) (by rw [hsh]; rfl) hol
  refine ⟨r, ?_, hrs, hrw, ?_⟩
  · unfold piecewisePredict
    rw [if_pos (by rw [hmm]; rfl), hθ, hr0]
    simp only [bind, Except.bind, asSeriesColumn, ho]
    rw [hr]
    simp only
    rw [if_neg]
    · rfl
    · simp only [ndim, hrs, List.length_cons, List.length_nil]
      rintro (h | ⟨-, h1, h2⟩)
      · omega
      · rcases hn with h | h
        · exact h h1
        · rw [h] at h2; cases h2
  · intro i j cs bs o t h1 h2 h3 h4
    obtain ⟨hi, -⟩ := List.getElem?_eq_some_iff.1 h1
    obtain ⟨hj, -⟩ := List.getElem?_eq_some_iff.1 h4
    obtain ⟨hio, rfl⟩ := List.getElem?_eq_some_iff.1 h3
    rw [hrg i j hi hj]
    have hg := hget [i, j] ⟨hi, hj, trivial⟩
    have hrav : (⟨r0.shape ++ [1], r0.data⟩ : Tensor K).get? [i, j, 0] = r0.get? [i, j] := by
      simp [get?, ravel, size, hsh]
    rw [hrav, hg]
    simp only [ravel, size, Nat.mul_one, Nat.add_zero, Option.getD_some]
    rw [← length_flatten_eq hβ, hmm]
    simp only
    rw [chunk_design hi h4, dot_maskedRow hβ h1 h2]
    unfold trendAt
    rw [add_comm]

/-- The single series case. -/
theorem piecewisePredict_single {n : Nat} {cs bs : List K} {ts : List K}
    {m : Tensor K} {θ : SiteEnv K} {p : PyDict (Tensor K)} {o : K}
    (hm : changepointMatrix true [cs] ts = .ok m) (hβ : cs.length = bs.length)
    (hθ : (θ "changepoint_coefficients").data = bs) (ho : θ "offset" = ⟨[1], [o]⟩) :
    ∃ r, piecewisePredict true n θ m p = .ok r ∧ r.shape = [ts.length, 1] ∧ r.WF ∧
      ∀ j t, ts[j]? = some t → r.get? [j, 0] = some (trendAt rampEntry o cs bs t) := by
  have hmm : m = ⟨[ts.length, [cs].flatten.length],
      (List.range [cs].length).flatMap fun i => ts.flatMap fun s => maskedRow [cs] i s⟩ := by
    unfold changepointMatrix changepointTensor at hm
    rw [if_neg (by simp)] at hm
    simp only [bind, Except.bind, List.head?_cons, List.length_singleton, and_self, if_true] at hm
    cases hm; rfl
  have hf : List.Forall₂ (fun c b : List K => c.length = b.length) [cs] [bs] := by simpa using hβ
  have hbf : [bs].flatten = bs := by simp
  have hcf : [cs].flatten.length = bs.length := by simpa using hβ
  obtain ⟨r0, hr0⟩ := dotLast_ok (data := m) (v := bs) (sh := [ts.length]) (by rw [hmm, hcf]; rfl)
  obtain ⟨hsh, hwf, hget⟩ := dotLast_get? (sh := [ts.length]) (by rw [hmm, hcf]; rfl) hr0
  obtain ⟨r, hr, hrs, hrw, hrg⟩ := binop_one (f := fun x y : K => x + y)
    (a := r0) (m := ts.length) hsh (v := o)
  have hlen : r.data.length = ts.length := by rw [hrw, hrs]; simp [size]
  refine ⟨⟨[ts.length, 1], r.data⟩, ?_, rfl, ?_, ?_⟩
  · unfold piecewisePredict
    rw [if_neg (by rw [hmm]; simp [ndim]), hθ, hr0]
    simp only [bind, Except.bind, ho]
    rw [hr]
    simp only
    rw [if_pos (by left; simp [ndim, hrs])]
    unfold reshapeInfer
    rw [if_pos ⟨by decide, Nat.mod_one _⟩, hlen, Nat.div_one]
  · show r.data.length = _
    rw [hlen]; simp [size]
  · intro j t h4
    obtain ⟨hj, -⟩ := List.getElem?_eq_some_iff.1 h4
    have e : (⟨[ts.length, 1], r.data⟩ : Tensor K).get? [j, 0] = r.get? [j] := by
      simp [get?, ravel, size, hrs]
    rw [e, hrg j hj, hget [j] ⟨hj, trivial⟩]
    simp only [ravel, size, Nat.mul_one, Nat.add_zero, Option.getD_some]
    have hc := chunk_design (cps := [cs]) (i := 0) (by simp) h4
    rw [← hcf, hmm]
    simp only
    rw [Nat.zero_mul, Nat.zero_add] at hc
    have hd := dot_maskedRow (i := 0) (t := t) hf rfl rfl
    rw [hbf] at hd
    rw [hc, hd]
    unfold trendAt
    rw [add_comm]

end PV
