import Verif.Model.Tensor
import Mathlib.Tactic.Ring
import Mathlib.Tactic.Linarith
import Mathlib.Data.List.Nodup

namespace PV.Tensor
variable {K : Type}

theorem length_flatMap_const {α β : Type} (l : List α) (f : α → List β) (k : Nat)
    (h : ∀ a ∈ l, (f a).length = k) : (l.flatMap f).length = l.length * k := by
  induction l with
  | nil => simp
  | cons a l ih =>
    simp only [List.flatMap_cons, List.length_append, List.length_cons]
    rw [h a (by simp), ih (fun b hb => h b (by simp [hb]))]
    ring

theorem getElem?_flatMap_const {α β : Type} (l : List α) (f : α → List β) (k : Nat)
    (h : ∀ a ∈ l, (f a).length = k) (i j : Nat) (hi : i < l.length) (hj : j < k) :
    (l.flatMap f)[i * k + j]? = (f l[i])[j]? := by
  induction l generalizing i with
  | nil => simp at hi
  | cons a l ih =>
    have ha : (f a).length = k := h a (by simp)
    rw [List.flatMap_cons]
    cases i with
    | zero =>
      rw [List.getElem?_append_left (by omega)]
      simp
    | succ i =>
      rw [List.getElem?_append_right (by rw [ha, Nat.succ_mul]; omega)]
      have e : (i + 1) * k + j - (f a).length = i * k + j := by
        rw [ha, Nat.succ_mul]; omega
      rw [e, ih (fun b hb => h b (by simp [hb])) i (by simpa using hi)]
      simp

@[simp] theorem length_indices (s : List Nat) : (indices s).length = size s := by
  induction s with
  | nil => rfl
  | cons n s ih =>
    simp only [indices, size]
    rw [length_flatMap_const _ _ (size s) (by simp [ih])]
    simp

theorem ravel_lt {s idx : List Nat} (h : InBounds s idx) : ravel s idx < size s := by
  induction s generalizing idx with
  | nil =>
    cases idx with
    | nil => simp [ravel, size]
    | cons i is => exact h.elim
  | cons n s ih =>
    cases idx with
    | nil => exact h.elim
    | cons i is =>
      simp only [InBounds] at h
      have := ih h.2
      simp only [ravel, size]
      calc i * size s + ravel s is < i * size s + size s := by omega
        _ = (i + 1) * size s := by ring
        _ ≤ n * size s := Nat.mul_le_mul_right _ h.1

theorem getElem?_indices {s idx : List Nat} (h : InBounds s idx) :
    (indices s)[ravel s idx]? = some idx := by
  induction s generalizing idx with
  | nil =>
    cases idx with
    | nil => simp [ravel, indices]
    | cons i is => exact h.elim
  | cons n s ih =>
    cases idx with
    | nil => exact h.elim
    | cons i is =>
      simp only [InBounds] at h
      simp only [ravel, indices]
      rw [getElem?_flatMap_const _ _ (size s) (by simp) i (ravel s is) (by simpa using h.1)
        (ravel_lt h.2)]
      simp [ih h.2]

theorem mem_indices {s idx : List Nat} : idx ∈ indices s ↔ InBounds s idx := by
  induction s generalizing idx with
  | nil => cases idx <;> simp [indices, InBounds]
  | cons n s ih =>
    cases idx with
    | nil => simp [indices, InBounds]
    | cons i is => simp [indices, InBounds, ih]

@[simp] theorem shape_ofFn (s : List Nat) (f : List Nat → K) : (ofFn s f).shape = s := rfl

theorem wf_ofFn (s : List Nat) (f : List Nat → K) : (ofFn s f).WF := by
  simp [WF, ofFn]

theorem get?_ofFn {s : List Nat} {f : List Nat → K} {idx : List Nat} (h : InBounds s idx) :
    (ofFn s f).get? idx = some (f idx) := by
  simp [get?, ofFn, getElem?_indices h]

theorem inBounds_append {s t i j : List Nat} (h1 : InBounds s i) (h2 : InBounds t j) :
    InBounds (s ++ t) (i ++ j) := by
  induction s generalizing i with
  | nil => cases i <;> simp_all [InBounds]
  | cons n s ih => cases i <;> simp_all [InBounds]

theorem inBounds_reverse {s i : List Nat} (h : InBounds s i) : InBounds s.reverse i.reverse := by
  induction s generalizing i with
  | nil => cases i <;> simp_all [InBounds]
  | cons n s ih =>
    cases i with
    | nil => exact h.elim
    | cons a i =>
      simp only [InBounds] at h
      simp only [List.reverse_cons]
      exact inBounds_append (ih h.2) ⟨h.1, trivial⟩

theorem get?_isSome {t : Tensor K} (hw : t.WF) {idx : List Nat} (h : InBounds t.shape idx) :
    ∃ v, t.get? idx = some v := by
  have : ravel t.shape idx < t.data.length := by rw [hw]; exact ravel_lt h
  exact ⟨_, List.getElem?_eq_getElem this⟩

theorem get?_transpose [Zero K] {t : Tensor K} (hw : t.WF) {idx : List Nat}
    (h : InBounds t.shape idx) : t.transpose.get? idx.reverse = t.get? idx := by
  rw [transpose, get?_ofFn (inBounds_reverse h), List.reverse_reverse]
  obtain ⟨v, hv⟩ := get?_isSome hw h
  simp [hv]

theorem size_append (s t : List Nat) : size (s ++ t) = size s * size t := by
  induction s with
  | nil => simp [size]
  | cons n s ih => simp [size, ih, Nat.mul_assoc]

theorem size_reverse (s : List Nat) : size s.reverse = size s := by
  induction s with
  | nil => rfl
  | cons n s ih => simp [size_append, size, ih, Nat.mul_comm]

/-- Two well-formed arrays of the same shape agreeing on all valid indices are equal. -/
theorem ext_of_get? {a b : Tensor K} (ha : a.WF) (hb : b.WF) (hs : a.shape = b.shape)
    (h : ∀ idx, InBounds a.shape idx → a.get? idx = b.get? idx) : a = b := by
  obtain ⟨sa, da⟩ := a
  obtain ⟨sb, db⟩ := b
  simp only at hs
  subst hs
  congr 1
  have key : ∀ (d : List K), d.length = size sa →
      d.map some = (indices sa).map fun idx => d[ravel sa idx]? := by
    intro d hd
    apply List.ext_getElem?
    intro i
    by_cases hi : i < size sa
    · have hi' : i < (indices sa).length := by simpa using hi
      have hidx : InBounds sa (indices sa)[i] := mem_indices.1 (List.getElem_mem hi')
      have hr : ravel sa (indices sa)[i] = i := by
        have h1 := getElem?_indices hidx
        have hlt : ravel sa (indices sa)[i] < (indices sa).length := by
          simpa using ravel_lt hidx
        rw [List.getElem?_eq_getElem hlt] at h1
        have h2 := Option.some.inj h1
        exact (List.Nodup.getElem_inj_iff (by
          clear * -
          induction sa with
          | nil => simp [indices]
          | cons n s ih =>
            simp only [indices]
            rw [List.nodup_flatMap]
            refine ⟨fun i _ => ih.map (fun a b h => by simpa using h), ?_⟩
            refine List.Pairwise.imp_of_mem ?_ (List.nodup_range (n := n))
            intro a b _ _ hab
            simp only [Function.onFun, List.disjoint_left, List.mem_map]
            rintro x ⟨y, _, rfl⟩ ⟨z, _, hz⟩
            simp at hz
            exact hab hz.1.symm)).1 h2
      rw [List.getElem?_map, List.getElem?_map, List.getElem?_eq_getElem hi']
      simp only [Option.map_some, hr]
      rw [List.getElem?_eq_getElem (by omega)]
      rfl
    · rw [List.getElem?_eq_none (by simp; omega), List.getElem?_eq_none (by simp; omega)]
  have h1 := key da ha
  have h2 := key db hb
  have h3 : da.map some = db.map some := by
    rw [h1, h2]
    apply List.map_congr_left
    intro idx hidx
    exact h idx (mem_indices.1 hidx)
  exact (List.map_injective_iff.2 (Option.some_injective K)) h3

end PV.Tensor
