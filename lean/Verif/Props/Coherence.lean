import Mathlib.Algebra.Order.Ring.Rat
import Mathlib.Data.List.TakeDrop
import Verif.Model.Aggregate
import Verif.Lemmas.PredictFrames

/-! # C10: hierarchical forecasts are coherent -/

set_option linter.unusedSectionVars false

namespace PV
variable {K τ : Type} [Field K] [LinearOrder K] [IsStrictOrderedRing K] [LinearOrder τ]

/-- No series label is the reserved one. -/
def NoReserved {ι V : Type} (f : Frame ι τ V) : Prop := ∀ r ∈ f.rows, "__total" ∉ r.sid

/-- Sum of column `c` over the rows of `f` at time `t` whose series lies below the node
`p` (its label starts with `p`). -/
def sumBelow {ι : Type} (f : Frame ι τ K) (p : List String) (t : τ) (c : ι) : K :=
  ((f.rows.filter fun r => p <+: r.sid ∧ r.time = t).map fun r => r.val c).sum

theorem getLast?_ne_total_of_noReserved {ι V : Type} {f : Frame ι τ V} (h : NoReserved f)
    {r : Row ι τ V} (hr : r ∈ f.rows) : r.sid.getLast? ≠ some "__total" := by
  intro he
  exact h r hr (List.mem_of_getLast? he)

theorem bottom_eq_self {ι V : Type} {f : Frame ι τ V} (h : NoReserved f) :
    (f.rows.filter fun r => r.sid.getLast? ≠ some totalLabel) = f.rows := by
  rw [List.filter_eq_self]
  intro r hr
  exact decide_eq_true (getLast?_ne_total_of_noReserved h hr)

theorem noTotal_eq_self {ι V : Type} {f : Frame ι τ V} (h : NoReserved f) :
    (f.rows.filter fun r => totalLabel ∉ r.sid) = f.rows := by
  rw [List.filter_eq_self]
  intro r hr
  exact decide_eq_true (h r hr)

theorem total_prefix_unique {p q : List String} {m n : Nat}
    (hp : "__total" ∉ p) (hq : "__total" ∉ q)
    (h : p ++ List.replicate m "__total" = q ++ List.replicate n "__total")  : p = q := by
  have h1 : (p ++ List.replicate m "__total").filter (· ≠ "__total") = p := by
    rw [List.filter_append]
    have e1 : p.filter (· ≠ "__total") = p := by
      rw [List.filter_eq_self]
      intro a ha
      simp only [ne_eq, decide_not, Bool.not_eq_eq_eq_not, Bool.not_true, decide_eq_false_iff_not]
      rintro rfl; exact hp ha
    rw [e1]
    have e2 : (List.replicate m "__total").filter (· ≠ "__total") = [] := by
      rw [List.filter_eq_nil_iff]
      intro a ha
      rw [List.eq_of_mem_replicate ha]; simp
    rw [e2, List.append_nil]
  have h2 : (q ++ List.replicate n "__total").filter (· ≠ "__total") = q := by
    rw [List.filter_append]
    have e1 : q.filter (· ≠ "__total") = q := by
      rw [List.filter_eq_self]
      intro a ha
      simp only [ne_eq, decide_not, Bool.not_eq_eq_eq_not, Bool.not_true, decide_eq_false_iff_not]
      rintro rfl; exact hq ha
    rw [e1]
    have e2 : (List.replicate n "__total").filter (· ≠ "__total") = [] := by
      rw [List.filter_eq_nil_iff]
      intro a ha
      rw [List.eq_of_mem_replicate ha]; simp
    rw [e2, List.append_nil]
  rw [← h1, h, h2]

/-- **C10.** Aggregation leaves the bottom rows alone (nothing lost, changed or
duplicated), and every other row is labelled by a node `p` followed by `__total`s and
holds, in every column, the sum over the bottom rows below `p` at its time.  The output is
sorted by label. -/
theorem C10_aggregate_coherent {ι : Type} (keep : List String → Bool) {f : Frame ι τ K}
    (hw : f.WF) (hn : f.nlevels ≠ 1) (hres : NoReserved f) :
    ((aggregate keep f).rows.filter fun r => r.sid.getLast? ≠ some "__total").Perm f.rows ∧
    (∀ r ∈ (aggregate keep f).rows, r.sid.getLast? = some "__total" →
      ∃ p m, r.sid = p ++ List.replicate (m + 1) "__total" ∧ "__total" ∉ p ∧
        (p ++ List.replicate (m + 1) "__total").length + 1 = f.nlevels ∧
        ∀ c, r.val c = sumBelow f p r.time c) ∧
    (aggregate keep f).index.Pairwise (fun a b => toLex a ≤ toLex b) := by
  have hagg : ∀ r ∈ (List.range (f.nlevels - 1)).flatMap
      (fun i => aggLevel (f.nlevels - 1) i f.rows), 
      ∃ p m, r.sid = p ++ List.replicate (m + 1) "__total" ∧ "__total" ∉ p ∧
        (p ++ List.replicate (m + 1) "__total").length + 1 = f.nlevels ∧
        ∀ c, r.val c = sumBelow f p r.time c := by
    intro r hr
    obtain ⟨i, hi, hr⟩ := List.mem_flatMap.1 hr
    rw [List.mem_range] at hi
    unfold aggLevel at hr
    obtain ⟨g, hg, rfl⟩ := List.mem_map.1 hr
    rw [mem_unique] at hg
    obtain ⟨r0, hr0, rfl⟩ := List.mem_map.1 hg
    have hl0 := hw r0 hr0
    refine ⟨r0.sid.take i, f.nlevels - 1 - i - 1, ?_, ?_, ?_, ?_⟩
    · have : f.nlevels - 1 - i - 1 + 1 = f.nlevels - 1 - i := by omega
      simp only [this, totalLabel]
    · intro hm; exact hres r0 hr0 (List.mem_of_mem_take hm)
    · simp only [List.length_append, List.length_take, List.length_replicate]
      omega
    · intro c
      simp only [sumBelow]
      congr 2
      apply List.filter_congr
      intro r1 hr1
      have hl1 := hw r1 hr1
      have hlen : (r0.sid.take i).length = i := by rw [List.length_take]; omega
      apply decide_eq_decide.2
      simp only [Prod.mk.injEq, and_congr_left_iff]
      intro _
      rw [List.prefix_iff_eq_take, hlen]
      exact ⟨fun h => h.symm, fun h => h.symm⟩
  unfold aggregate
  rw [if_neg hn]
  simp only [noTotal_eq_self hres]
  refine ⟨?_, ?_, ?_⟩
  · refine ((sortIndex_perm _).filter _).trans ?_
    simp only [List.filter_append]
    have e1 : (f.rows.filter fun r => r.sid.getLast? ≠ some "__total") = f.rows :=
      bottom_eq_self hres
    have e2 : List.filter (fun r : Row ι τ K => r.sid.getLast? ≠ some "__total")
        (List.filter (fun r => keep r.sid) ((List.range (f.nlevels - 1)).flatMap
          (fun i => aggLevel (f.nlevels - 1) i f.rows))) = [] := by
      rw [List.filter_eq_nil_iff]
      intro r hr
      obtain ⟨p, m, hs, -⟩ := hagg r (List.mem_of_mem_filter hr)
      simp [hs, List.getLast?_replicate]
    rw [e1, e2, List.append_nil]
  · intro r hr hlast
    have hr := (sortIndex_perm _).mem_iff.1 hr
    simp only [List.mem_append] at hr
    rcases hr with hr | hr
    · exact absurd hlast (getLast?_ne_total_of_noReserved hres hr)
    · exact hagg r (List.mem_of_mem_filter hr)
  · rw [Frame.index, List.pairwise_map]
    exact sortIndex_sorted _

/-- **C10.** Every node above a bottom row gets its aggregate row at that time, unless it is
one of those left out by `keep`. -/
theorem C10_aggregates_present {ι : Type} {keep : List String → Bool} {f : Frame ι τ K}
    (hw : f.WF) (hn : f.nlevels ≠ 1) (hres : NoReserved f) {r0 : Row ι τ K}
    (hr0 : r0 ∈ f.rows) {p q : List String} (hpq : r0.sid = p ++ q) (hq : q ≠ [])
    (hkeep : keep (p ++ List.replicate q.length "__total") = true) :
    ∃ r ∈ (aggregate keep f).rows,
      r.sid = p ++ List.replicate q.length "__total" ∧ r.time = r0.time := by
  have hl := hw r0 hr0
  rw [hpq, List.length_append] at hl
  have hq0 : 0 < q.length := List.length_pos_of_ne_nil hq
  have hL : f.nlevels - 1 - p.length = q.length := by omega
  unfold aggregate
  rw [if_neg hn]
  simp only [noTotal_eq_self hres]
  have hmem : (⟨p ++ List.replicate q.length "__total", r0.time, fun c =>
      ((f.rows.filter fun r => (r.sid.take p.length, r.time) = (p, r0.time)).map
        fun r => r.val c).sum⟩ : Row ι τ K) ∈
      (List.range (f.nlevels - 1)).flatMap (fun i => aggLevel (f.nlevels - 1) i f.rows) := by
    rw [List.mem_flatMap]
    refine ⟨p.length, by rw [List.mem_range]; omega, ?_⟩
    unfold aggLevel
    rw [List.mem_map]
    refine ⟨(p, r0.time), ?_, ?_⟩
    · rw [mem_unique, List.mem_map]
      exact ⟨r0, hr0, by simp [hpq]⟩
    · simp only [hL, totalLabel]
  refine ⟨_, (sortIndex_perm _).mem_iff.2 (List.mem_append_right _
    (List.mem_filter.2 ⟨hmem, hkeep⟩)), rfl, rfl⟩

theorem sum_comm_list {α β : Type} (l : List α) (m : List β) (g : α → β → K) :
    (l.map fun a => (m.map fun b => g a b).sum).sum
      = (m.map fun b => (l.map fun a => g a b).sum).sum := by
  induction l with
  | nil =>
    induction m with
    | nil => rfl
    | cons b m ihm => simp
  | cons a l ih =>
    simp only [List.map_cons, List.sum_cons, ih]
    clear ih
    induction m with
    | nil => simp
    | cons b m ihm =>
      simp only [List.map_cons, List.sum_cons, ← ihm]
      ring

/-- Reading an aggregate row through its label: whatever way the label is split into a
node and `__total`s, the row is the sum over the bottom rows below the node. -/
theorem C10_samples_coherent {keep : List String → Bool} {f : Frame Nat τ K}
    (hw : f.WF) (hn : f.nlevels ≠ 1) (hres : NoReserved f)
    {r : Row Nat τ K} (hr : r ∈ (aggregate keep f).rows) {p : List String} {m : Nat}
    (hp : "__total" ∉ p) (hs : r.sid = p ++ List.replicate (m + 1) "__total") (s : Nat) :
    r.val s = sumBelow f p r.time s := by
  obtain ⟨-, h, -⟩ := C10_aggregate_coherent keep hw hn hres
  have hlast : r.sid.getLast? = some "__total" := by simp [hs, List.getLast?_replicate]
  obtain ⟨p', m', hs', hp', -, hv⟩ := h r hr hlast
  have : p = p' := total_prefix_unique hp hp' (hs.symm.trans hs')
  subst this
  exact hv s

/-- **C10**, point forecasts: the point forecast of an aggregate is the sum of the point
forecasts of the bottom series below it. -/
theorem C10_point_coherent {keep : List String → Bool} {f : Frame Nat τ K} (name : String)
    (hw : f.WF) (hn : f.nlevels ≠ 1) (hres : NoReserved f)
    {r : Row String τ K} (hr : r ∈ (predictPoint name (aggregate keep f)).rows)
    {p : List String} {m : Nat} (hp : "__total" ∉ p)
    (hs : r.sid = p ++ List.replicate (m + 1) "__total") :
    r.val name = sumBelow (predictPoint name f) p r.time name := by
  simp only [predictPoint, List.mem_map] at hr
  obtain ⟨r0, hr0, rfl⟩ := hr
  have hc : (aggregate keep f).cols = f.cols := by
    unfold aggregate; rw [if_neg hn]; rfl
  simp only [hc] at hs ⊢
  have hv := C10_samples_coherent hw hn hres hr0 hp hs
  have e1 : f.cols.map r0.val = f.cols.map fun s => sumBelow f p r0.time s :=
    List.map_congr_left fun s _ => hv s
  rw [e1]
  simp only [sumBelow, predictPoint]
  rw [sum_comm_list]
  rw [List.filter_map, List.map_map]
  simp only [Function.comp_def]
  generalize (f.rows.filter fun r => p <+: r.sid ∧ r.time = r0.time) = l
  induction l with
  | nil => simp
  | cons a l ih =>
    simp only [List.map_cons, List.sum_cons, add_div]
    rw [ih]

/-- **C10.** The forecasts handed to the aggregation carry no reserved label when the
training data does not (apart from aggregates), so the three theorems above apply to
`predict_samples` and `predict` of the hierarchical forecaster. -/
theorem C10_predict_coherent {keep : List String → Bool} {ctx : Fitted K} {obs : Tensor K}
    {fh : List τ} {out : Frame Nat τ K} {S k : Nat}
    (hsh : obs.shape =
      S :: (List.replicate k 1 ++ [fh.length, (forecastSeries ctx).length]))
    (hh : ctx.hierarchical = true) (hn : ctx.yNlevels ≠ 1)
    (hlen : ∀ s ∈ ctx.internalSids, s.length + 1 = ctx.yNlevels)
    (hlab : ∀ s ∈ ctx.internalSids, s.getLast? ≠ some "__total" → "__total" ∉ s)
    (h : predictSamplesHier keep ctx obs fh = .ok out) :
    ∃ f, predictSamples ctx obs fh = .ok f ∧
      (out.rows.filter fun r => r.sid.getLast? ≠ some "__total").Perm f.rows ∧
      ∀ r ∈ out.rows, ∀ p m, "__total" ∉ p → r.sid = p ++ List.replicate (m + 1) "__total" →
        ∀ s, r.val s = sumBelow f p r.time s := by
  unfold predictSamplesHier at h
  cases hf : predictSamples ctx obs fh with
  | error e => rw [hf] at h; cases h
  | ok f =>
    rw [hf] at h
    have h := Except.ok.inj h
    subst h
    have hmem : ∀ r ∈ f.rows, r.sid ∈ ctx.internalSids ∧ r.sid.getLast? ≠ some "__total" ∧
        f.nlevels = ctx.yNlevels := by
      -- the index of the samples is series × horizon
      intro r hr
      obtain ⟨-, g, hg, hinv⟩ := predictSamples_unfold hsh hf
      obtain ⟨-, hnl, -, hgi, -⟩ := frameOfMatrix_ok hg
      obtain ⟨σ, rfl, -⟩ := invScale_eq hinv
      simp only [Frame.mapVals, List.mem_map] at hr
      obtain ⟨r0, hr0, rfl⟩ := hr
      have hr0 := (sortIndex_perm g).mem_iff.1 hr0
      have : (r0.sid, r0.time) ∈ g.index := List.mem_map.2 ⟨r0, hr0, rfl⟩
      rw [hgi, mem_product] at this
      have h1 := this.1
      unfold forecastSeries at h1
      rw [if_neg hn, hh] at h1
      simp only [Bool.true_and, List.mem_filter, mem_unique, Bool.not_eq_true'] at h1
      refine ⟨h1.1, by simpa using h1.2, ?_⟩
      simp [Frame.mapVals, sortIndex, hnl]
    by_cases hrows : f.rows = []
    · -- no forecast rows at all (empty horizon): nothing to aggregate
      refine ⟨f, rfl, ?_, ?_⟩
      · have : (aggregate keep f).rows = [] := by
          unfold aggregate
          split
          · exact hrows
          · have e : (List.range (f.nlevels - 1)).flatMap
                (fun i => aggLevel (f.nlevels - 1) i ([] : List (Row Nat τ K))) = [] := by
              simp [aggLevel, unique]
            simp only [hrows, List.filter_nil, e, List.append_nil]
            rfl
        rw [this, hrows]; exact List.Perm.refl _
      · intro r hr
        have : (aggregate keep f).rows = [] := by
          unfold aggregate
          split
          · exact hrows
          · have e : (List.range (f.nlevels - 1)).flatMap
                (fun i => aggLevel (f.nlevels - 1) i ([] : List (Row Nat τ K))) = [] := by
              simp [aggLevel, unique]
            simp only [hrows, List.filter_nil, e, List.append_nil]
            rfl
        rw [this] at hr; cases hr
    · obtain ⟨r1, hr1⟩ := List.exists_mem_of_ne_nil _ hrows
      have hnl := (hmem r1 hr1).2.2
      have hw : f.WF := fun r hr => by rw [hnl]; exact hlen _ (hmem r hr).1
      have hres : NoReserved f := fun r hr => hlab _ (hmem r hr).1 (hmem r hr).2.1
      have hn' : f.nlevels ≠ 1 := by rw [hnl]; exact hn
      refine ⟨f, rfl, (C10_aggregate_coherent keep hw hn' hres).1, ?_⟩
      intro r hr p m hp hs s
      exact C10_samples_coherent hw hn' hres hr hp hs s

/-! ### Concrete case: two regions, three cities, two dates, two samples -/

def exTree : Frame Nat Nat ℚ :=
  { nlevels := 3, cols := [0, 1],
    rows := [⟨["n", "x"], 1, fun s => [1, 10].getD s 0⟩, ⟨["n", "x"], 2, fun s => [2, 20].getD s 0⟩,
             ⟨["n", "y"], 1, fun s => [3, 30].getD s 0⟩, ⟨["n", "y"], 2, fun s => [4, 40].getD s 0⟩,
             ⟨["s", "x"], 1, fun s => [5, 50].getD s 0⟩, ⟨["s", "x"], 2, fun s => [6, 60].getD s 0⟩] }

example : (aggregate (fun s => s ≠ ["s", "__total"]) exTree).rows.map
      (fun r => (r.sid, r.time, exTree.cols.map r.val)) =
    [(["__total", "__total"], 1, [9, 90]), (["__total", "__total"], 2, [12, 120]),
     (["n", "__total"], 1, [4, 40]), (["n", "__total"], 2, [6, 60]),
     (["n", "x"], 1, [1, 10]), (["n", "x"], 2, [2, 20]),
     (["n", "y"], 1, [3, 30]), (["n", "y"], 2, [4, 40]),
     (["s", "x"], 1, [5, 50]), (["s", "x"], 2, [6, 60])] := by decide +kernel
example : NoReserved exTree := by
  intro r hr
  simp only [exTree, List.mem_cons, List.not_mem_nil, or_false] at hr
  rcases hr with rfl | rfl | rfl | rfl | rfl | rfl <;> decide

end PV
