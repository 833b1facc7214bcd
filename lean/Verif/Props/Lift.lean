import Mathlib.Algebra.Order.Ring.Rat
import Verif.Model.Lift
import Verif.Lemmas.Broadcast
import Verif.Lemmas.FitEffects
import Verif.Lemmas.Panel

/-!
# C30: the lift experiment wrapper
-/

namespace PV
open Tensor
variable {S Y τ V D K : Type}

/-- Specification: the lift reported for date `t` in column `c` of a lift table (`none` when
the table has no row for `t` or the entry is NaN). -/
def liftAt [DecidableEq τ] (f : Frame String τ (Option K)) (c : String) (t : τ) : Option K :=
  (f.rows.find? fun r => r.time = t).bind fun r => r.val c

/-- **C30**: the value of the wrapper is the value of the wrapped effect; in particular it
does not depend on the lift table, the scale or `prior_scale`. -/
theorem C30_value [Zero K] {l : Lift S Y τ V D K} {θ : SiteEnv K} {data : LiftData D K}
    {p : PyDict (Tensor K)} {x : Tensor K} {terms : List (K × K)}
    (h : l.predict θ data p = .ok (x, terms)) :
    l.inner.cls.call l.inner.st θ (.data data.inner) p = .ok x := by
  unfold Lift.predict at h
  cases hx : l.inner.cls.call l.inner.st θ (.data data.inner) p with
  | error e => simp [hx, bind, Except.bind] at h
  | ok x' =>
    simp only [hx, bind, Except.bind] at h
    split at h
    · cases h
    · cases h; rfl

/-- **C30**: the wrapped effect is fitted with, and gets the data of, the same `X`, `y` and
scale as it would get without the wrapper (for effects that keep the filter tag and are not
skipped). -/
theorem C30_inner_data [DecidableEq τ] [Div K] {l l' : Lift S Y τ V D K} {y : Y}
    {x0 x : Frame String τ V} {scale : K} {fh : List τ} {d : LiftData D K}
    (htag : l.inner.cls.tags.filterFh = true)
    (hfit : l.fit y (some x0) scale = .ok l')
    (hd : l'.transform (some x) fh = .ok d) :
    l.inner.fit y (some x0) scale = .ok l'.inner ∧
      (l'.inner.skip = .ok false → l'.inner.transform (some x) fh = .ok (.data d.inner)) := by
  unfold Lift.fit at hfit
  cases hi : l.inner.fit y (some x0) scale with
  | error e => simp [hi, bind, Except.bind] at hfit
  | ok inner =>
    simp only [hi, bind, Except.bind] at hfit
    split at hfit
    · cases hfit
    · cases hfit
      refine ⟨rfl, fun hskip => ?_⟩
      have hb : inner.st.1 = ⟨some (if x0.isEmpty then [] else x0.cols), some true⟩ ∧
          inner.cls = l.inner.cls := by
        unfold EffectObj.fit at hi
        cases hbf : baseFit l.inner.cls.toHooks l.inner.st y (some x0) scale with
        | error e => rw [hbf] at hi; cases hi
        | ok st =>
          rw [hbf] at hi
          cases hi
          exact ⟨baseFit_ok hbf, rfl⟩
      unfold Lift.transform at hd
      simp only at hd
      split at hd
      · cases hd
      · cases hd
      · rw [hb.1] at hd
        simp only at hd
        unfold EffectObj.skip at hskip
        unfold EffectObj.transform baseTransform
        rw [hskip]
        simp only [hb.1, hb.2, htag, if_true]
        cases hsel : (x.filterTimes fh).select (if x0.isEmpty then [] else x0.cols) with
        | error e => simp [hsel, bind, Except.bind] at hd
        | ok xs =>
          simp only [hsel, bind, Except.bind, Lift.hookTransform] at hd
          simp only [bind, Except.bind, Bool.false_eq_true, if_false]
          rw [hb.2] at hd
          cases ht : l.inner.cls.transform inner.st.2 xs fh with
          | error e => rw [ht] at hd; cases hd
          | ok dd =>
            rw [ht] at hd
            simp only at hd
            split at hd
            · cases hd
            · split at hd
              · cases hd
              · cases hd; rfl

theorem lift_transform_ok [DecidableEq τ] [Div K] {l : Lift S Y τ V D K}
    {X : Option (Frame String τ V)} {fh : List τ} {d : LiftData D K}
    (h : l.transform X fh = .ok d) : ∃ xl a s, l.table.reindexTimes fh = .ok xl ∧
      xl.seriesToTensorOrArray = .ok a ∧ l.tsScale = some s ∧
      d.observed = a.map fun v => v.map (· / s) := by
  have hh : ∃ xs, l.hookTransform xs fh = .ok d := by
    unfold Lift.transform at h
    split at h
    · cases h
    · cases h
    · split at h
      · cases h
      · cases h
      · rename_i x cols _
        cases hs : (x.filterTimes fh).select cols with
        | error e => simp [hs, bind, Except.bind] at h
        | ok xs => exact ⟨xs, by simpa [hs, bind, Except.bind] using h⟩
  obtain ⟨xs, hh⟩ := hh
  unfold Lift.hookTransform at hh
  cases h1 : l.inner.cls.transform l.inner.st.2 xs fh with
  | error e => simp [h1, bind, Except.bind] at hh
  | ok dd =>
    cases h2 : l.table.reindexTimes fh with
    | error e => simp [h1, h2, bind, Except.bind] at hh
    | ok xl =>
      cases h3 : xl.seriesToTensorOrArray with
      | error e => simp [h1, h2, h3, bind, Except.bind] at hh
      | ok a =>
        cases h4 : l.tsScale with
        | none =>
          simp [h1, h2, h3, h4, bind, Except.bind, throw, throwThe, MonadExceptOf.throw] at hh
        | some s =>
          simp only [h1, h2, h3, h4, bind, Except.bind, pure, Except.pure, Except.ok.injEq] at hh
          exact ⟨xl, a, s, rfl, h3, rfl, by rw [← hh]⟩

/-- **C30**: with a one-column lift table and an effect value of one number per horizon time,
the likelihood has exactly one term for every horizon date with a lift result, in horizon
order, comparing the effect at that date with the lift divided by the scale of the series. -/
theorem C30_terms [DecidableEq τ] [Field K] {l l' : Lift S Y τ V D K} {y : Y}
    {X0 : Option (Frame String τ V)} {x : Frame String τ V} {scale : K} {fh : List τ}
    {d : LiftData D K} {θ : SiteEnv K} {p : PyDict (Tensor K)} {v : Tensor K}
    {terms : List (K × K)} {c : String} (hlv : l.table.nlevels = 1) (hc : l.table.cols = [c])
    (hfit : l.fit y X0 scale = .ok l') (hd : l'.transform (some x) fh = .ok d)
    (hp : l'.predict θ d p = .ok (v, terms)) (hv : v.shape = [fh.length, 1]) (hw : v.WF) :
    terms = (fh.zip v.data).filterMap fun q =>
      (liftAt l.table c q.1).map fun lift => (q.2, lift / scale) := by
  have hl' : l'.table = l.table ∧ l'.tsScale = some scale := by
    unfold Lift.fit at hfit
    cases hi : l.inner.fit y X0 scale with
    | error e => simp [hi, bind, Except.bind] at hfit
    | ok inner =>
      simp only [hi, bind, Except.bind] at hfit
      split at hfit
      · cases hfit
      · cases hfit; exact ⟨rfl, rfl⟩
  have hobs : d.observed = ⟨[fh.length, 1],
      fh.map fun t => (liftAt l.table c t).map (· / scale)⟩ := by
    obtain ⟨xl, a, s, h1, h2, h3, h4⟩ := lift_transform_ok hd
    rw [hl'.2] at h3
    rw [hl'.1] at h1
    cases h3
    unfold Frame.reindexTimes at h1
    split at h1
    · cases h1
      simp only [Frame.seriesToTensorOrArray, hlv, if_true] at h2
      cases h2
      rw [h4]
      unfold Tensor.map Frame.flatVals
      simp only [hc, List.length_map, List.map_cons, List.map_nil, List.length_cons,
        List.length_nil, Nat.zero_add]
      congr 1
      rw [List.flatMap_map]
      clear h4 hd hp hv hw
      induction fh with
      | nil => rfl
      | cons t f ih =>
        rw [List.flatMap_cons, List.map_append, ih, List.map_cons]
        simp only [List.map_cons, List.map_nil, List.cons_append, List.nil_append, liftAt]
        cases l.table.rows.find? (fun r => decide (r.time = t)) <;> rfl
    · cases h1
  unfold Lift.predict at hp
  cases hx : l'.inner.cls.call l'.inner.st θ (.data d.inner) p with
  | error e => simp [hx, bind, Except.bind] at hp
  | ok x' =>
    simp only [hx, bind, Except.bind] at hp
    have key : x' = v → terms = (List.zipWith Prod.mk v.data d.observed.data).filterMap
        fun q => q.2.map fun o => (q.1, o) := by
      rintro rfl
      rw [@binop_same_eq K (Option K) _ _ ⟨none⟩ Prod.mk x' d.observed hw
        (by rw [hobs]; simp [WF, size]) (by rw [hobs, hv])] at hp
      cases hp; rfl
    have hxv : x' = v := by
      split at hp
      · cases hp
      · cases hp; rfl
    rw [key hxv, hobs]
    simp only
    have : ∀ (f : List τ) (w : List K),
        (List.zipWith Prod.mk w (f.map fun t => (liftAt l.table c t).map (· / scale))).filterMap
          (fun q => q.2.map fun o => (q.1, o))
        = (f.zip w).filterMap fun q =>
          (liftAt l.table c q.1).map fun lift => (q.2, lift / scale) := by
      intro f
      induction f with
      | nil => intro w; simp
      | cons t f ih =>
        intro w
        cases w with
        | nil => simp
        | cons a w =>
          rw [List.map_cons, List.zipWith_cons_cons, List.zip_cons_cons, List.filterMap_cons,
            List.filterMap_cons, ih w]
          cases liftAt l.table c t <;> rfl
    exact this fh v.data

/-- **C30**: a date that the table lists twice is an error, whatever the horizon. -/
theorem C30_duplicate_dates [DecidableEq τ] [Div K] {l : Lift S Y τ V D K}
    (h : ¬ l.table.times.Nodup) (x : Frame String τ V) (fh : List τ) :
    ∀ d, l.transform (some x) fh ≠ .ok d := by
  intro d hd
  obtain ⟨xl, a, s, h1, -⟩ := lift_transform_ok hd
  unfold Frame.reindexTimes at h1
  rw [if_neg h] at h1
  cases h1

/-- **C30**: a non-positive `prior_scale` is rejected. -/
theorem C30_prior_scale [Zero K] [LinearOrder K] (inner : EffectObj S Y K τ V D K)
    (table : Frame String τ (Option K)) (s : K) :
    (∃ l, Lift.new inner table s = .ok l) ↔ 0 < s := by
  unfold Lift.new
  split
  · rename_i h; simp [h]
  · rename_i h; simp [h]

/-! Example: horizon 1, 2, 3; lift 8 at date 2, NaN at date 3, 5 at date 9; scale 2. -/

def exInner30 : EffectObj Unit Unit ℚ Int ℚ (Tensor ℚ) ℚ :=
  ⟨{ defaultHooks baseTags with call := fun _ _ d _ => match d with
      | .data t => .ok t
      | .emptyDict => .error .typeError }, (.init, ()), (.init, ())⟩
def exTable30 : Frame String Int (Option ℚ) :=
  ⟨1, ["lift"], [⟨[], 9, fun _ => some 5⟩, ⟨[], 2, fun _ => some 8⟩, ⟨[], 3, fun _ => none⟩]⟩
def exX30 : Frame String Int ℚ :=
  ⟨1, ["a"], [⟨[], 1, fun _ => 10⟩, ⟨[], 2, fun _ => 20⟩, ⟨[], 3, fun _ => 30⟩]⟩

example : (do
    let l ← Lift.new exInner30 exTable30 1
    let l ← l.fit () (some exX30) 2
    let d ← l.transform (some exX30) [1, 2, 3]
    l.predict (fun _ => ⟨[], []⟩) d []) = .ok (⟨[3, 1], [10, 20, 30]⟩, [(20, 4)]) := by
  decide +kernel

end PV
