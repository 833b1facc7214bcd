import Verif.Model.Py
import Mathlib.Data.List.Forall2

/-!
# Two computations side by side

Both raise the same exception, or both return and the results are related.
-/

namespace PV

/-- Same exception, or related results. -/
def ExRel {α β : Type} (R : α → β → Prop) : PyM α → PyM β → Prop
  | .ok a, .ok b => R a b
  | .error e, .error e' => e = e'
  | _, _ => False

theorem ExRel.pure {α β : Type} {R : α → β → Prop} {a : α} {b : β} (h : R a b) :
    ExRel R (pure a) (pure b) := h

theorem ExRel.error {α β : Type} {R : α → β → Prop} (e : PyErr) :
    ExRel R (.error e : PyM α) (.error e : PyM β) := rfl

theorem ExRel.of_eq {α : Type} {R : α → α → Prop} (hR : ∀ a, R a a) {x y : PyM α} (h : x = y) :
    ExRel R x y := by
  subst h
  cases x with
  | error e => rfl
  | ok a => exact hR a

theorem ExRel.eq_of {α : Type} {x y : PyM α} (h : ExRel (· = ·) x y) : x = y := by
  cases x <;> cases y <;> simp_all [ExRel]

theorem ExRel.bind {α β γ δ : Type} {R : α → β → Prop} {Q : γ → δ → Prop} {x : PyM α} {y : PyM β}
    {f : α → PyM γ} {g : β → PyM δ} (h : ExRel R x y) (hf : ∀ a b, R a b → ExRel Q (f a) (g b)) :
    ExRel Q (x >>= f) (y >>= g) := by
  cases x <;> cases y
  · exact h
  · exact h.elim
  · exact h.elim
  · exact hf _ _ h

theorem ExRel.imp {α β : Type} {R Q : α → β → Prop} {x : PyM α} {y : PyM β} (h : ExRel R x y)
    (hf : ∀ a b, R a b → Q a b) : ExRel Q x y := by
  cases x <;> cases y
  · exact h
  · exact h.elim
  · exact h.elim
  · exact hf _ _ h

/-- The second computation is the first one followed by a function. -/
theorem ExRel.of_map {α β : Type} {x : PyM α} {y : PyM β} {f : α → β} (h : y = x.map f) :
    ExRel (fun a b => b = f a) x y := by
  subst h
  cases x <;> rfl

theorem ExRel.foldlM {α β γ δ : Type} {R : α → β → Prop} {Q : γ → δ → Prop} {f : α → γ → PyM α}
    {g : β → δ → PyM β} (hfg : ∀ a b c d, R a b → Q c d → ExRel R (f a c) (g b d)) {l : List γ}
    {m : List δ} (hl : List.Forall₂ Q l m) : ∀ {a : α} {b : β}, R a b →
      ExRel R (l.foldlM f a) (m.foldlM g b) := by
  induction hl with
  | nil => intro a b h; exact h
  | cons hcd _ ih =>
    intro a b h
    rw [List.foldlM_cons, List.foldlM_cons]
    exact (hfg _ _ _ _ h hcd).bind fun a' b' h' => ih h'

end PV
