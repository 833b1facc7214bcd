import Verif.Model.UnivariateData

/-!
# Forecasts computed date by date
-/

namespace PV
section
variable {S Y Sc τ V D K : Type}

/-- A column array: one entry per date. -/
def columnOf (l : List K) : Tensor K := ⟨[l.length, 1], l⟩

/-- The values of `X` at a date (those of the first row with that date). -/
def rowAt [DecidableEq τ] [Zero V] (x : Frame String τ V) (t : τ) (c : String) : V :=
  ((x.rows.find? fun r => r.time = t).map fun r => r.val c).getD 0

/-- `X` is a table over dates in increasing order in which every requested date occurs. -/
structure DatesIn [LT τ] (x : Frame String τ V) (fh : List τ) : Prop where
  flat : x.nlevels = 1
  sorted : x.rows.Pairwise fun a b => a.time < b.time
  horizon : fh.Pairwise (· < ·)
  covers : ∀ t ∈ fh, ∃ r ∈ x.rows, r.time = t
  unlabelled : ∀ r ∈ x.rows, r.sid = []

/-- The trend is computed date by date: `g θ t` is its value at date `t`, whatever other dates are
requested, for the values `θ` of the sample sites satisfying `Ok`. -/
def PointwiseTrend [LinearOrder τ] (e : EffectObj S Y Sc τ V D K) (Ok : SiteEnv K → Prop)
    (g : SiteEnv K → τ → K) : Prop :=
  ∀ θ x fh d v, Ok θ → DatesIn x fh → e.transform (some x) fh = .ok d →
    e.cls.call e.st θ d [] = .ok v → v = columnOf (fh.map (g θ))

/-- The effect is computed date by date: `f θ a r` is its value at a date at which the trend is `a`
and the values of `X` are `r`. -/
def PointwiseEffect [LinearOrder τ] [Zero V] (e : EffectObj S Y Sc τ V D K)
    (f : SiteEnv K → τ → K → (String → V) → K) : Prop :=
  ∀ θ x fh d p tr v, DatesIn x fh → e.transform (some x) fh = .ok d →
    p.get? "trend" = some (columnOf (fh.map tr)) → e.cls.call e.st θ d p = .ok v →
    v = columnOf (fh.map fun t => f θ t (tr t) (rowAt x t))

end
end PV
