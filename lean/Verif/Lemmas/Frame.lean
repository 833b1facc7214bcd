import Verif.Model.Frame
import Verif.Lemmas.Tensor

namespace PV
variable {α β : Type}

@[simp] theorem mem_unique [DecidableEq α] {a : α} {l : List α} : a ∈ unique l ↔ a ∈ l := by
  induction l with
  | nil => simp [unique]
  | cons b l ih =>
    by_cases h : a = b <;> simp [unique, h, ih]

theorem nodup_unique [DecidableEq α] (l : List α) : (unique l).Nodup := by
  induction l with
  | nil => simp [unique]
  | cons b l ih =>
    simp only [unique, List.nodup_cons]
    exact ⟨by simp, ih.filter _⟩

theorem unique_of_nodup [DecidableEq α] {l : List α} (h : l.Nodup) : unique l = l := by
  induction l with
  | nil => rfl
  | cons b l ih =>
    rw [List.nodup_cons] at h
    simp only [unique, ih h.2]
    congr 1
    rw [List.filter_eq_self]
    intro a ha
    simp only [ne_eq, decide_not, Bool.not_eq_eq_eq_not, Bool.not_true, decide_eq_false_iff_not]
    rintro rfl
    exact h.1 ha

theorem unique_ne_nil [DecidableEq α] {l : List α} (h : l ≠ []) : unique l ≠ [] := by
  cases l with
  | nil => exact absurd rfl h
  | cons a l => simp [unique]

theorem mem_product {a : List α} {b : List β} {p : α × β} :
    p ∈ product a b ↔ p.1 ∈ a ∧ p.2 ∈ b := by
  obtain ⟨x, y⟩ := p
  simp [product]

theorem length_product (a : List α) (b : List β) :
    (product a b).length = a.length * b.length := by
  rw [product, Tensor.length_flatMap_const _ _ b.length (by simp)]

theorem getElem?_product (a : List α) (b : List β) {i j : Nat} (hi : i < a.length)
    (hj : j < b.length) : (product a b)[i * b.length + j]? = some (a[i], b[j]) := by
  rw [product, Tensor.getElem?_flatMap_const _ _ b.length (by simp) i j hi hj]
  simp [hj]

theorem nodup_product {a : List α} {b : List β} (ha : a.Nodup) (hb : b.Nodup) :
    (product a b).Nodup := by
  rw [product, List.nodup_flatMap]
  refine ⟨fun x _ => hb.map (fun u v h => by simpa using h), ?_⟩
  refine List.Pairwise.imp_of_mem ?_ ha
  intro x y _ _ hxy
  simp only [Function.onFun, List.disjoint_left, List.mem_map]
  rintro p ⟨u, _, rfl⟩ ⟨v, _, hv⟩
  simp at hv
  exact hxy hv.1.symm

end PV
