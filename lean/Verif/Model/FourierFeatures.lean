import Mathlib.Analysis.SpecialFunctions.Trigonometric.Basic
import Verif.Model.Effects
import Verif.Model.FitEffects
import Verif.Model.Fourier

/-!
# The seasonality effect as a class, and the contract of sktime's `FourierFeatures`
-/

namespace PV

/-- `LinearFourierSeasonality` (`effects/fourier.py` 60-151); `_predict` is that of the inner linear
effect (127-151), made by `_fit`.  `effect_mode` is a valid mode. -/
def fourierClass {F Y Sc τ K : Type} [Ring K] [DecidableEq τ] (lib : FourierLib F τ K)
    (compile : String → PyM (String → Bool)) (order : List String → List String) (mode : String) :
    EffectClass (FourierState F) Y Sc τ K (Transformed (Tensor K)) K :=
  { fourierHooks lib compile order with
    call := fun st θ d p =>
      match st.2.linear, d with
      | some _, .data d => AddMul.call ⟨mode, linearRaw⟩ θ d p
      | _, _ => .error .attributeError }

/-- A new `LinearFourierSeasonality`. (`effects/fourier.py` 45-58.) -/
def fourierNew {F Y Sc τ K : Type} [Ring K] [DecidableEq τ] (lib : FourierLib F τ K)
    (compile : String → PyM (String → Bool)) (order : List String → List String) (mode : String) :
    EffectObj (FourierState F) Y Sc τ K (Transformed (Tensor K)) K :=
  ⟨fourierClass lib compile order mode, fourierMade, fourierMade⟩

/-! ## `FourierFeatures` of sktime

Used in `effects/fourier.py` 76-84, 118.  Third-party code: this is its contract. -/

/-- A sine or cosine column: frequency `k` times a season of length `sp`.
sktime, made at `effects/fourier.py` 76-81. -/
structure Wave where
  name : String
  cosine : Bool
  k : Nat
  sp : ℝ

/-- The value at the `n`-th time step. sktime, used at `effects/fourier.py` 84, 118. -/
noncomputable def Wave.at (w : Wave) (n : ℤ) : ℝ :=
  let a := (n : ℝ) * 2 * w.k * Real.pi / w.sp
  if w.cosine then Real.cos a else Real.sin a

/-- An entry of `sp_list` (with the text sktime uses for it in column names) and the entry of
`fourier_terms_list`. (`effects/fourier.py` 47-48, 77-78.) -/
structure Season where
  label : String
  sp : ℝ
  terms : Nat

/-- A frequency: `k` cycles in `sp` steps. sktime, made at `effects/fourier.py` 76-81. -/
structure Freq where
  label : String
  sp : ℝ
  k : Nat

/-- The frequencies of the seasons, in order. sktime, made at `effects/fourier.py` 76-81. -/
def freqs (seasons : List Season) : List Freq :=
  seasons.flatMap fun s => (List.range s.terms).map fun i => ⟨s.label, s.sp, i + 1⟩

open Classical in
/-- A frequency that occurred before is dropped. sktime, at `effects/fourier.py` 83. -/
noncomputable def dropRepeated : List Freq → List Freq
  | [] => []
  | f :: fs => f :: (dropRepeated fs).filter fun g => (g.k : ℝ) / g.sp ≠ f.k / f.sp

/-- The two columns of a frequency. sktime, made at `effects/fourier.py` 76-81. -/
def Freq.waves (f : Freq) : List Wave :=
  [⟨"sin_" ++ f.label ++ "_" ++ toString f.k, false, f.k, f.sp⟩,
   ⟨"cos_" ++ f.label ++ "_" ++ toString f.k, true, f.k, f.sp⟩]

/-- The columns. sktime, made at `effects/fourier.py` 84, 118. -/
noncomputable def waves (seasons : List Season) : List Wave :=
  (dropRepeated (freqs seasons)).flatMap Freq.waves

/-- The value of a column by name. sktime, used at `effects/fourier.py` 84, 118. -/
noncomputable def waveAt (ws : List Wave) (n : ℤ) (c : String) : ℝ :=
  ((ws.find? fun w => w.name = c).map fun w => w.at n).getD 0

/-- The first time step of a series. sktime, at `effects/fourier.py` 83. -/
def firstStep (φ : List (List String × ℤ)) (s : List String) : ℤ :=
  ((φ.find? fun p => p.1 = s).map Prod.snd).getD 0

open Classical in
/-- `FourierFeatures(sp_list, fourier_terms_list, freq, keep_original_columns=False)`.  `position`:
number of the period (of frequency `freq`) a date belongs to.  Steps are counted from the first date
seen in `fit`, series by series.  More terms than half the season are a `ValueError` in `fit`.
(`effects/fourier.py` 76-84, 118.) -/
noncomputable def fourierFeatures {τ : Type} (position : τ → ℤ) (seasons : List Season) :
    FourierLib (List (List String × ℤ)) τ ℝ where
  fit := fun x =>
    if ∀ s ∈ seasons, (s.terms : ℝ) ≤ s.sp / 2 then
      .ok (x.series.map fun s => (s, (((x.rowsOf s).map fun r => position r.time).min?).getD 0))
    else .error .valueError
  transform := fun φ x =>
    if ∀ r ∈ x.rows, r.sid ∈ φ.map Prod.fst then
      .ok { nlevels := x.nlevels, cols := unique ((waves seasons).map Wave.name),
            rows := x.rows.map fun r =>
              ⟨r.sid, r.time, waveAt (waves seasons) (position r.time - firstStep φ r.sid)⟩ }
    else .error .valueError

end PV
