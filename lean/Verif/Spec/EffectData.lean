import Verif.Spec.Panel
import Verif.Model.EffectBase

/-! # Specification vocabulary for the data given to effects -/

namespace PV
variable {τ V : Type}

/-- The two frames hold the same rows (label, time, values) as far as the columns `cs` are
concerned; they may list columns in different order or have different additional ones. -/
def SameOn (cs : List String) (x x' : Frame String τ V) : Prop :=
  x.nlevels = x'.nlevels ∧ List.Forall₂ (fun r r' : Row String τ V =>
    r.sid = r'.sid ∧ r.time = r'.time ∧ ∀ c ∈ cs, r.val c = r'.val c) x.rows x'.rows

/-- The value of column `c` of `x` for series `s` at time `t` is `v`. -/
def ValueAt (x : Frame String τ V) (s : List String) (t : τ) (c : String) (v : V) : Prop :=
  ∃ r ∈ x.rows, r.sid = s ∧ r.time = t ∧ r.val c = v

/-- The subclass's `_transform` uses only the labels and the values of the frame's columns. -/
def Hooks.Extensional {S Y Sc D : Type} (h : Hooks S Y Sc τ V D) : Prop :=
  ∀ s (x x' : Frame String τ V) fh, x.cols = x'.cols → SameOn x.cols x x' →
    h.transform s x fh = h.transform s x' fh

end PV
