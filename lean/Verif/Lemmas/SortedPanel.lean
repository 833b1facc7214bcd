import Verif.Lemmas.Dict
import Verif.Props.EffectData
import Verif.Props.FitEffects
import Verif.Props.MultiIndex

/-! # Panels whose rows are sorted by label -/

namespace PV
variable {ι τ V : Type} [LinearOrder τ]

/-- The rows are in increasing order of (series, time), without repetition. -/
def LabelSorted (f : Frame ι τ V) : Prop := f.index.Pairwise fun a b => toLex a < toLex b

theorem LabelSorted.rows {f : Frame ι τ V} (h : LabelSorted f) :
    f.rows.Pairwise fun a b => toLex (a.sid, a.time) < toLex (b.sid, b.time) := by
  unfold LabelSorted Frame.index at h
  rwa [List.pairwise_map] at h

theorem LabelSorted.sids {f : Frame ι τ V} (h : LabelSorted f) :
    f.rows.Pairwise fun a b => a.sid ≤ b.sid := by
  refine h.rows.imp fun {a b} hab => ?_
  rw [Prod.Lex.toLex_lt_toLex] at hab
  rcases hab with hab | hab
  · exact hab.le
  · exact hab.1.le

theorem LabelSorted.timeSorted {f : Frame ι τ V} (h : LabelSorted f) : TimeSorted f := by
  refine h.rows.imp fun {a b} hab hs => ?_
  rw [Prod.Lex.toLex_lt_toLex] at hab
  rcases hab with hab | hab
  · simp only [hs] at hab
    exact absurd hab (lt_irrefl _)
  · exact hab.2

theorem LabelSorted.grouped {f : Frame ι τ V} (h : LabelSorted f) : Grouped f := by
  intro i j k a b c hij hjk hi hj hk hac
  have key : ∀ (i j : Nat) (a b : Row ι τ V), i < j → f.rows[i]? = some a → f.rows[j]? = some b →
      a.sid ≤ b.sid := by
    intro i j a b hij hi hj
    obtain ⟨hi', rfl⟩ := List.getElem?_eq_some_iff.1 hi
    obtain ⟨hj', rfl⟩ := List.getElem?_eq_some_iff.1 hj
    exact List.pairwise_iff_getElem.1 h.sids i j hi' hj' hij
  have h1 := key i j a b hij hi hj
  have h2 := key j k b c hjk hj hk
  rw [← hac] at h2
  exact le_antisymm h2 h1

theorem unique_sorted {α : Type} [LinearOrder α] [DecidableEq α] : ∀ {l : List α}, l.Pairwise (· ≤ ·) →
    (unique l).Pairwise (· < ·)
  | [], _ => List.Pairwise.nil
  | a :: l, h => by
    rw [List.pairwise_cons] at h
    unfold unique
    rw [List.pairwise_cons]
    refine ⟨fun b hb => ?_, (unique_sorted h.2).sublist List.filter_sublist⟩
    obtain ⟨hb1, hb2⟩ := List.mem_filter.1 hb
    exact lt_of_le_of_ne (h.1 b (mem_unique.1 hb1)) fun e => by simp [e] at hb2

theorem eq_of_sorted_of_mem {α : Type} [LinearOrder α] {l m : List α} (hl : l.Pairwise (· < ·))
    (hm : m.Pairwise (· < ·)) (h : ∀ a, a ∈ l ↔ a ∈ m) : l = m := by
  have hp : l.Perm m := (List.perm_ext_iff_of_nodup (hl.imp ne_of_lt) (hm.imp ne_of_lt)).2 h
  exact List.Perm.eq_of_pairwise (le := (· ≤ ·)) (fun _ _ _ _ => le_antisymm) (hl.imp le_of_lt)
    (hm.imp le_of_lt) hp

/-- Sorted panels with the same series list them in the same order. -/
theorem LabelSorted.series_eq {ι' V' : Type} {f : Frame ι τ V} {g : Frame ι' τ V'}
    (hf : LabelSorted f) (hg : LabelSorted g)
    (h : ∀ s, (∃ r ∈ f.rows, r.sid = s) ↔ ∃ r ∈ g.rows, r.sid = s) : f.series = g.series := by
  refine eq_of_sorted_of_mem (unique_sorted (List.pairwise_map.2 hf.sids))
    (unique_sorted (List.pairwise_map.2 hg.sids)) fun s => ?_
  rw [mem_series, mem_series]
  exact h s

end PV
