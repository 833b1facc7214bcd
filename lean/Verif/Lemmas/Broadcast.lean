import Verif.Model.Broadcast
import Verif.Lemmas.Tensor

namespace PV.Tensor
variable {K L M : Type}

theorem bcRev_self (s : List Nat) : bcRev s s = some s := by
  induction s with
  | nil => rfl
  | cons n s ih => simp [bcRev, ih]

theorem bcShape_self (s : List Nat) : bcShape s s = some s := by
  simp [bcShape, bcRev_self]

theorem bcIdx_self {s idx : List Nat} (h : InBounds s idx) : bcIdx s idx = idx := by
  have hl : ∀ {s idx : List Nat}, InBounds s idx → idx.length = s.length := by
    intro s
    induction s with
    | nil => intro idx h; cases idx <;> simp_all [InBounds]
    | cons n s ih => intro idx h; cases idx with
      | nil => exact h.elim
      | cons i is => simp [ih h.2]
  have : bcIdx s idx = List.zipWith (fun n i => if n = 1 then 0 else i) s idx := by
    simp [bcIdx, hl h]
  rw [this]
  clear this
  induction s generalizing idx with
  | nil => cases idx <;> simp_all [InBounds]
  | cons n s ih =>
    cases idx with
    | nil => exact h.elim
    | cons i is =>
      simp only [InBounds] at h
      simp only [List.zipWith_cons_cons, ih h.2, List.cons.injEq, and_true]
      split <;> omega

/-- Equal shapes: elementwise, no broadcasting. -/
theorem binop_same [Zero K] [Zero L] (f : K → L → M) {a : Tensor K} {b : Tensor L}
    (hs : b.shape = a.shape) :
    ∃ c, binop f a b = .ok c ∧ c.shape = a.shape ∧ c.WF ∧
      ∀ idx, InBounds a.shape idx →
        c.get? idx = some (f ((a.get? idx).getD 0) ((b.get? idx).getD 0)) := by
  refine ⟨_, by rw [binop, hs, bcShape_self], rfl, wf_ofFn _ _, ?_⟩
  intro idx h
  rw [get?_ofFn h, bcIdx_self h]

theorem binop_same_eq [Zero K] [Zero L] (f : K → L → M) {a : Tensor K} {b : Tensor L}
    (ha : a.WF) (hb : b.WF) (hs : b.shape = a.shape) :
    binop f a b = .ok ⟨a.shape, List.zipWith f a.data b.data⟩ := by
  obtain ⟨c, hc, hcs, hcw, hcg⟩ := binop_same f hs
  rw [hc]
  congr 1
  refine ext_of_get? hcw ?_ hcs ?_
  · have h1 : a.data.length = size a.shape := ha
    have h2 : b.data.length = size a.shape := by rw [← hs]; exact hb
    simp [WF, h1, h2]
  · intro idx hidx
    rw [hcs] at hidx
    rw [hcg idx hidx]
    obtain ⟨u, hu⟩ := get?_isSome ha hidx
    obtain ⟨v, hv⟩ := get?_isSome hb (by rwa [hs])
    rw [hu, hv]
    simp only [get?] at hu hv ⊢
    rw [hs] at hv
    simp [List.getElem?_zipWith, hu, hv]

/-- One operand is a scalar. -/
theorem bcShape_nil (s : List Nat) : bcShape s [] = some s := by
  have : bcRev s.reverse [] = some s.reverse := by
    cases s.reverse <;> rfl
  simp [bcShape, this]

theorem nil_bcShape (s : List Nat) : bcShape [] s = some s := by
  simp [bcShape, bcRev]

theorem bcIdx_nil (idx : List Nat) : bcIdx [] idx = [] := rfl

theorem binop_scalar_right [Zero K] [Zero L] (f : K → L → M) {a : Tensor K} (v : L) :
    ∃ c, binop f a ⟨[], [v]⟩ = .ok c ∧ c.shape = a.shape ∧ c.WF ∧
      ∀ idx, InBounds a.shape idx → c.get? idx = some (f ((a.get? idx).getD 0) v) := by
  refine ⟨_, by rw [binop, bcShape_nil], rfl, wf_ofFn _ _, ?_⟩
  intro idx h
  rw [get?_ofFn h, bcIdx_self h]
  rfl

theorem binop_scalar_left [Zero K] [Zero L] (f : K → L → M) {b : Tensor L} (v : K) :
    ∃ c, binop f ⟨[], [v]⟩ b = .ok c ∧ c.shape = b.shape ∧ c.WF ∧
      ∀ idx, InBounds b.shape idx → c.get? idx = some (f v ((b.get? idx).getD 0)) := by
  refine ⟨_, by rw [binop, nil_bcShape], rfl, wf_ofFn _ _, ?_⟩
  intro idx h
  rw [get?_ofFn h, bcIdx_self h]
  rfl

/-- `data @ v` entry by entry. -/
theorem dotLast_get? [Add K] [Mul K] [Zero K] {data r : Tensor K} {v : List K} {sh : List Nat}
    (hsh : data.shape = sh ++ [v.length]) (h : dotLast data v = .ok r) :
    r.shape = sh ∧ r.WF ∧ ∀ idx, InBounds sh idx →
      r.get? idx = some (dot (chunk data.data v.length (ravel sh idx)) v) := by
  unfold dotLast at h
  rw [hsh] at h
  simp only [List.getLast?_append, List.getLast?_singleton, Option.some_or, if_true,
    List.dropLast_concat, Except.ok.injEq] at h
  subst h
  refine ⟨rfl, by simp [WF], ?_⟩
  intro idx hb
  simp [get?, ravel_lt hb]

theorem dotLast_ok [Add K] [Mul K] [Zero K] {data : Tensor K} {v : List K} {sh : List Nat}
    (hsh : data.shape = sh ++ [v.length]) : ∃ r, dotLast data v = .ok r := by
  unfold dotLast
  rw [hsh]
  simp

end PV.Tensor
