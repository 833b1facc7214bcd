import Std.Data.String.ToNat
import Mathlib.Data.List.Nodup
import Mathlib.Data.List.Flatten
import Verif.Lemmas.Frame
import Verif.Model.FourierFeatures

/-!
# Column names of the waves
-/

namespace PV

theorem append_sep_inj {α : Type} {x : α} : ∀ {a b c d : List α}, x ∉ c → x ∉ d →
    a ++ x :: c = b ++ x :: d → a = b ∧ c = d
  | [], [], _, _, _, _, h => ⟨rfl, (List.cons.inj h).2⟩
  | [], b :: bs, c, d, hc, _, h => by
    simp only [List.nil_append, List.cons_append, List.cons.injEq] at h
    rw [h.2] at hc
    simp at hc
  | a :: as, [], c, d, _, hd, h => by
    simp only [List.nil_append, List.cons_append, List.cons.injEq] at h
    rw [← h.2] at hd
    simp at hd
  | a :: as, b :: bs, c, d, hc, hd, h => by
    simp only [List.cons_append, List.cons.injEq] at h
    obtain ⟨h1, h2⟩ := append_sep_inj hc hd h.2
    rw [h.1, h1, h2]
    exact ⟨rfl, rfl⟩

theorem underscore_repr (k : Nat) : '_' ∉ (toString k).toList := by
  intro h
  have h1 : '_' ∈ Nat.toDigits 10 k := by simpa [toString, Nat.repr] using h
  exact absurd (Nat.isDigit_of_mem_toDigits (by decide) (by decide) h1) (by decide)

theorem label_inj {p q a b : String} {k l : Nat} (hp : p.length = q.length)
    (h : p ++ a ++ "_" ++ toString k = q ++ b ++ "_" ++ toString l) : p = q ∧ a = b ∧ k = l := by
  have h1 := congrArg String.toList h
  simp only [String.toList_append] at h1
  rw [show "_".toList = ['_'] from rfl] at h1
  simp only [List.append_assoc, List.singleton_append] at h1
  rw [← List.append_assoc, ← List.append_assoc] at h1
  obtain ⟨h2, h3⟩ := append_sep_inj (underscore_repr k) (underscore_repr l) h1
  obtain ⟨h4, h5⟩ := List.append_inj h2 (by rw [String.length_toList, String.length_toList]; exact hp)
  exact ⟨String.toList_inj.1 h4, String.toList_inj.1 h5, Nat.repr_injective (String.toList_inj.1 h3)⟩

theorem dropRepeated_sublist : ∀ fs, (dropRepeated fs).Sublist fs
  | [] => List.Sublist.slnil
  | f :: fs => by
    unfold dropRepeated
    exact (List.filter_sublist.trans (dropRepeated_sublist fs)).cons₂ f

/-- Seasons with different labels have different columns. -/
theorem waves_names {seasons : List Season} (h : (seasons.map Season.label).Nodup) :
    ((waves seasons).map Wave.name).Nodup := by
  have hf : ((freqs seasons).map fun f => (f.label, f.k)).Nodup := by
    have he : (freqs seasons).map (fun f => (f.label, f.k))
        = seasons.flatMap fun s => (List.range s.terms).map fun i => (s.label, i + 1) := by
      unfold freqs
      rw [List.map_flatMap]
      simp [Function.comp_def]
    rw [he, List.nodup_flatMap]
    refine ⟨fun s _ => ?_, ?_⟩
    · refine List.Nodup.map ?_ List.nodup_range
      intro i j hij
      simpa using hij
    · refine (List.pairwise_map.1 h).imp fun {a b} hab => ?_
      intro q h1 h2
      obtain ⟨i, -, rfl⟩ := List.mem_map.1 h1
      obtain ⟨j, -, h3⟩ := List.mem_map.1 h2
      exact hab (Prod.mk.inj h3).1.symm
  have hd : ((dropRepeated (freqs seasons)).map fun f => (f.label, f.k)).Nodup :=
    hf.sublist ((dropRepeated_sublist _).map _)
  unfold waves
  rw [List.map_flatMap, List.nodup_flatMap]
  refine ⟨fun f _ => ?_, ?_⟩
  · simp only [Freq.waves, List.map_cons, List.map_nil, List.nodup_cons, List.mem_singleton,
      List.not_mem_nil, not_false_eq_true, List.nodup_nil, and_true]
    intro h
    exact absurd (label_inj (p := "sin_") (q := "cos_") rfl h).1 (by decide)
  · refine (List.pairwise_map.1 hd).imp fun {a b} hab => ?_
    have key : a.label ≠ b.label ∨ a.k ≠ b.k := by
      by_contra hc
      push Not at hc
      exact hab (Prod.ext hc.1 hc.2)
    intro n h1 h2
    simp only [Freq.waves, List.map_cons, List.map_nil, List.mem_cons, List.not_mem_nil, or_false]
      at h1 h2
    have : ∃ p q : String, p.length = q.length ∧ p ++ a.label ++ "_" ++ toString a.k
        = q ++ b.label ++ "_" ++ toString b.k := by
      rcases h1 with rfl | rfl <;> rcases h2 with h2 | h2 <;> refine ⟨_, _, ?_, h2⟩ <;> rfl
    obtain ⟨p, q, hpq, h3⟩ := this
    obtain ⟨-, h4, h5⟩ := label_inj hpq h3
    rcases key with h | h
    · exact h h4
    · exact h h5

theorem waveAt_mem {ws : List Wave} (h : (ws.map Wave.name).Nodup) {w : Wave} (hw : w ∈ ws) (n : ℤ) :
    waveAt ws n w.name = w.at n := by
  have : ws.find? (fun v => decide (v.name = w.name)) = some w := by
    induction ws with
    | nil => cases hw
    | cons v ws ih =>
      rw [List.map_cons, List.nodup_cons] at h
      rcases List.mem_cons.1 hw with rfl | hw
      · simp
      · have : v.name ≠ w.name := fun he => h.1 (he ▸ List.mem_map_of_mem hw)
        simp [this, ih h.2 hw]
  unfold waveAt
  rw [this]
  rfl

end PV
