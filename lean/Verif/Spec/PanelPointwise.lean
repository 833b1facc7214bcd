import Verif.Spec.Panel
import Verif.Spec.Pointwise

/-!
# Panel forecasts computed cell by cell

A cell is a series and a date.
-/

namespace PV
section
variable {S Y Sc τ V D K : Type}

/-- An array with one block per series and one entry per date. -/
def panelOf (ss : List (List String)) (ts : List τ) (h : List String → τ → K) : Tensor K :=
  ⟨[ss.length, ts.length, 1], ss.flatMap fun s => ts.map (h s)⟩

/-- The values of the columns of `X` for a series at a date (those of the first such row). -/
def cellAt [DecidableEq τ] [Zero V] (x : Frame String τ V) (s : List String) (t : τ) (c : String) :
    V :=
  if c ∈ x.cols then ((x.rows.find? fun r => r.sid = s ∧ r.time = t).map fun r => r.val c).getD 0
  else 0

/-- The values of some columns only. -/
def onCols [Zero V] (cs : List String) (r : String → V) (c : String) : V := if c ∈ cs then r c else 0

/-- `X` is a panel whose series are `ss`, in this order; the rows of a series are adjacent and in
order of time, and every series has a row at every requested date. -/
structure PanelIn [LT τ] (x : Frame String τ V) (ss : List (List String)) (fh : List τ) : Prop where
  panel : x.nlevels ≠ 1
  someSeries : ss ≠ []
  series : ∀ i s, ss[i]? = some s ↔ SeriesAt x i s
  grouped : Grouped x
  sorted : TimeSorted x
  horizon : fh.Pairwise (· < ·)
  someDate : fh ≠ []
  covers : ∀ s ∈ ss, ∀ t ∈ fh, ∃ r ∈ x.rows, r.sid = s ∧ r.time = t

/-- The trend is computed cell by cell: `g θ s t` is its value for series `s` at date `t`. -/
def PanelTrend [LinearOrder τ] (e : EffectObj S Y Sc τ V D K) (Ok : SiteEnv K → Prop)
    (ss : List (List String)) (g : SiteEnv K → List String → τ → K) : Prop :=
  ∀ θ x fh d v, Ok θ → PanelIn x ss fh → e.transform (some x) fh = .ok d →
    e.cls.call e.st θ d [] = .ok v → v = panelOf ss fh (g θ)

/-- The effect is computed cell by cell: `f θ s t a r` is its value for series `s` at date `t` if the
trend is `a` and the values of `X` are `r` there. -/
def PanelEffect [LinearOrder τ] [Zero V] (e : EffectObj S Y Sc τ V D K)
    (f : SiteEnv K → List String → τ → K → (String → V) → K) : Prop :=
  ∀ θ x ss fh d p tr v, PanelIn x ss fh → e.transform (some x) fh = .ok d →
    p.get? "trend" = some (panelOf ss fh tr) → e.cls.call e.st θ d p = .ok v →
    v = panelOf ss fh fun s t => f θ s t (tr s t) (cellAt x s t)

end
end PV
