import Mathlib.Data.List.NodupEquivFin
import Mathlib.Data.List.Sort
import Verif.Lemmas.Panel
import Verif.Lemmas.FitEffects

/-! # Filtering panels by the horizon -/

namespace PV
variable {ι τ V : Type}

/-- Recursive form of `Grouped`, on the series labels. -/
def GroupedL {α : Type} : List α → Prop
  | [] => True
  | a :: l => (a ∈ l → l.head? = some a) ∧ GroupedL l

theorem Grouped.list {f : Frame ι τ V} (h : Grouped f) : GroupedL (f.rows.map Row.sid) := by
  unfold Grouped at h
  generalize f.rows = l at h
  induction l with
  | nil => trivial
  | cons a l ih =>
    refine ⟨?_, ih ?_⟩
    · intro hm
      obtain ⟨c, hc, hca⟩ := List.mem_map.1 hm
      obtain ⟨k, hk, rfl⟩ := List.getElem_of_mem hc
      cases k with
      | zero =>
        rw [List.head?_map, List.head?_eq_getElem?, List.getElem?_eq_getElem hk]
        simp [hca]
      | succ k =>
        have h0 : 0 < l.length := by omega
        have := h 0 1 (k + 2) a l[0] l[k + 1] (by omega) (by omega) rfl
          (by simp [List.getElem?_eq_getElem h0])
          (by rw [List.getElem?_cons_succ, List.getElem?_eq_getElem hk]) hca.symm
        rw [List.head?_map, List.head?_eq_getElem?, List.getElem?_eq_getElem h0]
        simp [this]
    · intro i j k a' b c hij hjk ha hb hc
      exact h (i + 1) (j + 1) (k + 1) a' b c (by omega) (by omega) (by simpa using ha)
        (by simpa using hb) (by simpa using hc)

/-- Keeping some of the rows keeps series together. -/
theorem Grouped.sub {f g : Frame ι τ V} (h : Grouped f) (hs : g.rows.Sublist f.rows) :
    Grouped g := by
  obtain ⟨e, he⟩ := List.sublist_iff_exists_orderEmbedding_getElem?_eq.1 hs
  intro i j k a b c hij hjk ha hb hc hac
  rw [he] at ha hb hc
  exact h _ _ _ a b c (e.lt_iff_lt.2 hij) (e.lt_iff_lt.2 hjk) ha hb hc hac

/-- Filtering rows of a grouped panel keeps the order of the series that survive. -/
theorem unique_filter_grouped {α β : Type} [DecidableEq α] (g : β → α) (p : β → Bool) :
    ∀ l : List β, GroupedL (l.map g) →
    unique ((l.filter p).map g) = (unique (l.map g)).filter fun a => l.any fun b => p b && g b = a
  | [], _ => rfl
  | b :: l, hg => by
    have ih := unique_filter_grouped g p l hg.2
    by_cases hb : p b = true
    · rw [List.filter_cons_of_pos hb, List.map_cons, unique, List.map_cons, unique, ih,
        List.filter_cons_of_pos (by simp [hb]), List.filter_filter, List.filter_filter]
      congr 1
      apply List.filter_congr
      intro a ha
      by_cases hab : a = g b
      · simp [hab]
      · simp [hab, hb, Ne.symm hab]
    · rw [List.filter_cons_of_neg hb, List.map_cons, unique, ih]
      by_cases hf : l.any (fun b' => p b' && decide (g b' = g b)) = true
      · have hmem : g b ∈ l.map g := by
          rw [List.any_eq_true] at hf
          obtain ⟨b', hb', h⟩ := hf
          simp only [Bool.and_eq_true, decide_eq_true_eq] at h
          exact List.mem_map.2 ⟨b', hb', h.2⟩
        have hh := hg.1 hmem
        cases hl : l.map g with
        | nil => rw [hl] at hmem; simp at hmem
        | cons a m =>
          rw [hl] at hh
          simp only [List.head?_cons, Option.some.injEq] at hh
          subst hh
          have h1 : ((g b :: (unique m).filter (fun x => decide (x ≠ g b))).filter
              fun x => decide (x ≠ g b)) = (unique m).filter fun x => decide (x ≠ g b) := by
            rw [List.filter_cons_of_neg (by simp), List.filter_filter]
            simp
          rw [unique, h1]
          apply List.filter_congr
          intro a _
          simp [hb]
      · rw [List.filter_cons_of_neg, List.filter_filter]
        · apply List.filter_congr
          intro a ha
          by_cases hab : a = g b
          · subst hab
            rw [Bool.not_eq_true] at hf
            simp [hf]
          · simp [hab, hb]
        · simp only [List.any_cons, hb, Bool.false_and, Bool.false_or]
          exact hf

theorem rowsOf_filterTimes [DecidableEq τ] (x : Frame ι τ V) (fh : List τ) (s : List String) :
    (x.filterTimes fh).rowsOf s = (x.rowsOf s).filter fun r => r.time ∈ fh := by
  unfold Frame.rowsOf Frame.filterTimes
  simp only [List.filter_filter]
  apply List.filter_congr
  intro r _
  rw [Bool.and_comm]

/-- If the rows of a series are in time order and contain the horizon, the rows left by the
filter are, in order, those at the horizon times. -/
theorem times_filtered [LinearOrder τ] {l : List (Row ι τ V)} {fh : List τ}
    (hs : l.Pairwise fun a b => a.time < b.time) (hfh : fh.Pairwise (· < ·))
    (hc : ∀ t ∈ fh, ∃ r ∈ l, r.time = t) :
    (l.filter fun r => r.time ∈ fh).map Row.time = fh := by
  apply List.Pairwise.eq_of_mem_iff (r := (· < ·))
  · rw [List.pairwise_map]
    exact hs.filter _
  · exact hfh
  · intro t
    simp only [List.mem_map, List.mem_filter, decide_eq_true_eq]
    constructor
    · rintro ⟨r, ⟨-, h⟩, rfl⟩; exact h
    · intro h
      obtain ⟨r, hr, rfl⟩ := hc t h
      exact ⟨r, ⟨hr, h⟩, rfl⟩

theorem rowsOf_sorted [LT τ] {x : Frame ι τ V} (h : TimeSorted x) (s : List String) :
    (x.rowsOf s).Pairwise fun a b => a.time < b.time := by
  unfold Frame.rowsOf
  rw [List.pairwise_filter]
  refine List.Pairwise.imp ?_ h
  intro a b hab ha hb
  simp only [decide_eq_true_eq] at ha hb
  exact hab (ha.trans hb.symm)

end PV
