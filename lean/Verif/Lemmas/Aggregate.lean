import Verif.Props.Coherence

/-! # Aggregation depends on the bottom rows only, not on their order -/

set_option linter.unusedSectionVars false

namespace PV
section
variable {ι K τ : Type} [Field K] [LinearOrder K] [LinearOrder τ]

theorem perm_unique {α : Type} [DecidableEq α] {l m : List α} (h : ∀ a, a ∈ l ↔ a ∈ m) :
    (unique l).Perm (unique m) :=
  (List.perm_ext_iff_of_nodup (nodup_unique _) (nodup_unique _)).2 fun a => by
    rw [mem_unique, mem_unique]; exact h a

theorem aggLevel_perm (L i : Nat) {b b' : List (Row ι τ K)} (h : b.Perm b') :
    (aggLevel L i b).Perm (aggLevel L i b') := by
  unfold aggLevel
  have hv : ∀ (g : List String × τ) (c : ι),
      ((b.filter fun r => (r.sid.take i, r.time) = g).map fun r => r.val c).sum
        = ((b'.filter fun r => (r.sid.take i, r.time) = g).map fun r => r.val c).sum :=
    fun g c => ((h.filter _).map _).sum_eq
  simp only [hv]
  exact (perm_unique fun a => (h.map _).mem_iff).map _

/-- The rows produced by `aggregate` before sorting. -/
def aggRows (keep : List String → Bool) (L : Nat) (b : List (Row ι τ K)) : List (Row ι τ K) :=
  b ++ ((List.range L).flatMap fun i => aggLevel L i b).filter fun r => keep r.sid

theorem aggRows_perm (keep : List String → Bool) (L : Nat) {b b' : List (Row ι τ K)}
    (h : b.Perm b') : (aggRows keep L b).Perm (aggRows keep L b') := by
  unfold aggRows
  exact h.append ((List.Perm.flatMap_left _ fun i _ => aggLevel_perm L i h).filter _)

theorem nodup_aggRows (keep : List String → Bool) (L : Nat) {b : List (Row ι τ K)}
    (hl : ∀ r ∈ b, r.sid.length = L) (ht : ∀ r ∈ b, "__total" ∉ r.sid)
    (hnd : (b.map fun r => (r.sid, r.time)).Nodup) :
    ((aggRows keep L b).map fun r => (r.sid, r.time)).Nodup := by
  have hlab : ∀ i < L, ∀ r ∈ aggLevel L i b, ∃ r0 ∈ b, r.sid
      = r0.sid.take i ++ List.replicate (L - i) "__total" ∧ r.time = r0.time := by
    intro i hi r hr
    unfold aggLevel at hr
    obtain ⟨g, hg, rfl⟩ := List.mem_map.1 hr
    obtain ⟨r0, hr0, rfl⟩ := List.mem_map.1 (mem_unique.1 hg)
    exact ⟨r0, hr0, rfl, rfl⟩
  unfold aggRows
  rw [List.map_append, List.nodup_append]
  refine ⟨hnd, ?_, ?_⟩
  · refine List.Nodup.sublist (List.Sublist.map _ List.filter_sublist) ?_
    rw [List.map_flatMap, List.nodup_flatMap]
    constructor
    · intro i hi
      rw [List.mem_range] at hi
      unfold aggLevel
      rw [List.map_map]
      refine List.Nodup.map_on ?_ (nodup_unique _)
      intro g hg g' hg' he
      obtain ⟨r0, hr0, rfl⟩ := List.mem_map.1 (mem_unique.1 hg)
      obtain ⟨r1, hr1, rfl⟩ := List.mem_map.1 (mem_unique.1 hg')
      simp only [Function.comp, Prod.mk.injEq, List.append_cancel_right_eq] at he
      rw [he.1, he.2]
    · refine (List.pairwise_lt_range).imp_of_mem fun {i j} hi hj hij => ?_
      rw [List.mem_range] at hi hj
      intro k hk hk'
      obtain ⟨r, hr, rfl⟩ := List.mem_map.1 hk
      obtain ⟨r', hr', he⟩ := List.mem_map.1 hk'
      obtain ⟨r0, hr0, e0, -⟩ := hlab i hi r hr
      obtain ⟨r1, hr1, e1, -⟩ := hlab j hj r' hr'
      have hs : r'.sid = r.sid := (Prod.mk.inj he).1
      rw [e0, e1] at hs
      have := total_prefix_unique (fun hm => ht r1 hr1 (List.mem_of_mem_take hm))
        (fun hm => ht r0 hr0 (List.mem_of_mem_take hm)) hs
      have h2 := congrArg List.length this
      simp only [List.length_take, hl r0 hr0, hl r1 hr1] at h2
      omega
  · intro k hk k' hk' hkk
    subst hkk
    obtain ⟨r, hr, rfl⟩ := List.mem_map.1 hk
    obtain ⟨r', hr', he⟩ := List.mem_map.1 hk'
    obtain ⟨i, hi, hr'⟩ := List.mem_flatMap.1 (List.mem_of_mem_filter hr')
    rw [List.mem_range] at hi
    obtain ⟨r0, hr0, e0, -⟩ := hlab i hi r' hr'
    have hs : r'.sid = r.sid := (Prod.mk.inj he).1
    apply ht r hr
    rw [← hs, e0]
    simp only [List.mem_append, List.mem_replicate]
    exact Or.inr ⟨by omega, trivial⟩

theorem insertionSort_eq_of_perm {l m : List (Row ι τ K)} (h : l.Perm m)
    (hnd : (l.map fun r => (r.sid, r.time)).Nodup) :
    l.insertionSort (fun a b => toLex (a.sid, a.time) ≤ toLex (b.sid, b.time))
      = m.insertionSort (fun a b => toLex (a.sid, a.time) ≤ toLex (b.sid, b.time)) := by
  let f : List (Row ι τ K) → Frame ι τ K := fun l => ⟨1, [], l⟩
  have hs : ∀ l : List (Row ι τ K), (l.insertionSort
      (fun a b => toLex (a.sid, a.time) ≤ toLex (b.sid, b.time))).Pairwise
      (fun a b => toLex (a.sid, a.time) ≤ toLex (b.sid, b.time)) := by
    intro l
    have := sortIndex_sorted (f l)
    exact this
  refine List.Perm.eq_of_pairwise ?_ (hs l) (hs m) (((List.perm_insertionSort _ l).trans h).trans
    (List.perm_insertionSort _ m).symm)
  intro a b ha hb hab hba
  have ha := (List.perm_insertionSort _ l).mem_iff.1 ha
  have hb := h.mem_iff.2 ((List.perm_insertionSort _ m).mem_iff.1 hb)
  exact List.inj_on_of_nodup_map hnd ha hb (toLex.injective (le_antisymm hab hba))

/-- The rows of bottom series. -/
def bottomRows (f : Frame ι τ K) : List (Row ι τ K) := f.rows.filter fun r => "__total" ∉ r.sid

theorem aggregate_eq (keep : List String → Bool) {f : Frame ι τ K} (hn : f.nlevels ≠ 1) :
    aggregate keep f = sortIndex { f with rows := aggRows keep (f.nlevels - 1) (bottomRows f) } := by
  unfold aggregate
  rw [if_neg hn]
  rfl

/-- `aggregate` is a function of the set of bottom rows. -/
theorem aggregate_congr (keep : List String → Bool) {f g : Frame ι τ K} (hn : f.nlevels ≠ 1)
    (hlv : f.nlevels = g.nlevels) (hc : f.cols = g.cols) (hw : f.WF)
    (hp : (bottomRows f).Perm (bottomRows g))
    (hnd : ((bottomRows f).map fun r => (r.sid, r.time)).Nodup) :
    aggregate keep f = aggregate keep g := by
  rw [aggregate_eq keep hn, aggregate_eq keep (hlv ▸ hn)]
  have hkey := insertionSort_eq_of_perm (aggRows_perm keep (f.nlevels - 1) hp)
    (nodup_aggRows keep (f.nlevels - 1) (fun r hr => by
      have := hw r (List.mem_of_mem_filter hr); omega)
      (fun r hr => by simpa using (List.mem_filter.1 hr).2) hnd)
  unfold sortIndex
  simp only
  rw [hkey, hlv, hc]

/-- The aggregated frame has no repeated labels. -/
theorem aggregate_nodup (keep : List String → Bool) {f : Frame ι τ K} (hn : f.nlevels ≠ 1)
    (hw : f.WF) (hnd : ((bottomRows f).map fun r => (r.sid, r.time)).Nodup) :
    (aggregate keep f).index.Nodup := by
  rw [aggregate_eq keep hn]
  refine ((sortIndex_perm _).map _).nodup_iff.2 (nodup_aggRows keep (f.nlevels - 1)
    (fun r hr => by have := hw r (List.mem_of_mem_filter hr); omega)
    (fun r hr => by simpa using (List.mem_filter.1 hr).2) hnd)

/-- The bottom rows of the aggregated frame. -/
theorem bottomRows_aggregate (keep : List String → Bool) {f : Frame ι τ K} (hn : f.nlevels ≠ 1) :
    (bottomRows (aggregate keep f)).Perm (bottomRows f) := by
  rw [aggregate_eq keep hn]
  refine ((sortIndex_perm _).filter _).trans ?_
  unfold aggRows
  rw [List.filter_append]
  have e1 : (bottomRows f).filter (fun r => "__total" ∉ r.sid) = bottomRows f := by
    unfold bottomRows
    rw [List.filter_filter]
    simp
  have e2 : (((List.range (f.nlevels - 1)).flatMap fun i => aggLevel (f.nlevels - 1) i
      (bottomRows f)).filter fun r => keep r.sid).filter (fun r => "__total" ∉ r.sid) = [] := by
    rw [List.filter_eq_nil_iff]
    intro r hr
    obtain ⟨i, hi, hr⟩ := List.mem_flatMap.1 (List.mem_of_mem_filter hr)
    rw [List.mem_range] at hi
    unfold aggLevel at hr
    obtain ⟨g, -, rfl⟩ := List.mem_map.1 hr
    simp only [totalLabel, List.mem_append, List.mem_replicate]
    simp
    intro _
    omega
  rw [e1, e2, List.append_nil]

end
end PV
