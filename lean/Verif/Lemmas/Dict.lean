import Verif.Model.Py
import Mathlib.Data.List.Nodup

namespace PV.PyDict
variable {α β : Type}

theorem set_of_notMem {d : PyDict α} {k : String} {v : α} (h : k ∉ d.keys) :
    d.set k v = d ++ [(k, v)] := by
  induction d with
  | nil => rfl
  | cons p d ih =>
    obtain ⟨k', v'⟩ := p
    simp only [keys, List.map_cons, List.mem_cons, not_or] at h
    simp only [set, if_neg (Ne.symm h.1), List.cons_append]
    rw [ih h.2]

theorem keys_append (d e : PyDict α) : PyDict.keys (d ++ e) = d.keys ++ e.keys := by
  simp [keys]

theorem get?_eq_none {d : PyDict α} {k : String} (h : k ∉ d.keys) : d.get? k = none := by
  induction d with
  | nil => rfl
  | cons p d ih =>
    obtain ⟨k', v'⟩ := p
    simp only [keys, List.map_cons, List.mem_cons, not_or] at h
    simp only [get?, if_neg (Ne.symm h.1)]
    exact ih h.2

theorem get?_mem {d : PyDict α} {k : String} {v : α} (h : d.get? k = some v) : (k, v) ∈ d := by
  induction d with
  | nil => cases h
  | cons p d ih =>
    obtain ⟨k', v'⟩ := p
    simp only [get?] at h
    split at h
    · rename_i he
      subst he
      simp_all
    · exact List.mem_cons_of_mem _ (ih h)

theorem get?_of_mem {d : PyDict α} (hd : d.keys.Nodup) {k : String} {v : α}
    (h : (k, v) ∈ d) : d.get? k = some v := by
  induction d with
  | nil => cases h
  | cons p d ih =>
    obtain ⟨k', v'⟩ := p
    simp only [keys, List.map_cons, List.nodup_cons] at hd
    simp only [get?]
    rcases List.mem_cons.1 h with h | h
    · rw [Prod.mk.injEq] at h
      rw [if_pos h.1.symm, h.2]
    · have : k' ≠ k := by
        rintro rfl
        exact hd.1 (List.mem_map.2 ⟨_, h, rfl⟩)
      rw [if_neg this]
      exact ih hd.2 h

theorem get?_isSome_iff {d : PyDict α} {k : String} : (d.get? k).isSome ↔ k ∈ d.keys := by
  induction d with
  | nil => simp [get?, keys]
  | cons p d ih =>
    obtain ⟨k', v'⟩ := p
    simp only [get?, keys, List.map_cons, List.mem_cons]
    split
    · simp_all
    · rename_i h
      rw [ih]
      simp [keys, Ne.symm h]

theorem getItem_ok {d : PyDict α} {k : String} {v : α} :
    d.getItem k = .ok v ↔ d.get? k = some v := by
  unfold getItem
  split <;> simp_all

theorem get?_set (d : PyDict α) (k k' : String) (v : α) :
    (d.set k v).get? k' = if k = k' then some v else d.get? k' := by
  induction d with
  | nil => simp [set, get?]
  | cons p d ih =>
    obtain ⟨k0, v0⟩ := p
    simp only [set]
    split
    · rename_i h
      subst h
      by_cases hk : k0 = k' <;> simp [get?, hk]
    · rename_i h
      simp only [get?, ih]
      by_cases hk : k0 = k'
      · subst hk
        simp [Ne.symm h]
      · simp [hk]

theorem keys_set (d : PyDict α) (k : String) (v : α) :
    (d.set k v).keys = if k ∈ d.keys then d.keys else d.keys ++ [k] := by
  induction d with
  | nil => simp [set, keys]
  | cons p d ih =>
    obtain ⟨k0, v0⟩ := p
    simp only [set]
    by_cases h : k0 = k
    · simp [h, keys]
    · simp only [if_neg h, keys, List.map_cons] at ih ⊢
      rw [ih]
      by_cases hm : k ∈ List.map Prod.fst d
      · simp [hm]
      · simp [hm, Ne.symm h]

theorem nodup_keys_set {d : PyDict α} (h : d.keys.Nodup) (k : String) (v : α) :
    (d.set k v).keys.Nodup := by
  rw [keys_set]
  split
  · exact h
  · rename_i hk
    rw [List.nodup_append]
    refine ⟨h, List.nodup_singleton k, ?_⟩
    intro a ha b hb
    simp only [List.mem_singleton] at hb
    rintro rfl
    exact hk (hb ▸ ha)

/-- Folding assignments with fresh distinct keys appends them in order. -/
theorem foldl_set_fresh (l : List (String × α)) (d : PyDict α)
    (hn : (l.map Prod.fst).Nodup) (hf : ∀ p ∈ l, p.1 ∉ d.keys) :
    l.foldl (fun d p => set d p.1 p.2) d = d ++ l := by
  induction l generalizing d with
  | nil => simp
  | cons p l ih =>
    simp only [List.map_cons, List.nodup_cons] at hn
    simp only [List.foldl_cons]
    rw [set_of_notMem (hf p (by simp)), ih _ hn.2]
    · simp
    · intro q hq
      rw [keys_append, List.mem_append, not_or]
      refine ⟨hf q (by simp [hq]), ?_⟩
      simp only [keys, List.map_cons, List.map_nil, List.mem_singleton]
      intro h
      exact hn.1 (h ▸ List.mem_map.2 ⟨q, hq, rfl⟩)

theorem ofList_of_nodup {l : List (String × α)} (hn : (l.map Prod.fst).Nodup) : ofList l = l := by
  rw [ofList, foldl_set_fresh l [] hn (by simp [keys])]
  rfl

end PV.PyDict
