import Verif.Model.TimeArrays
import Verif.Props.Panel
import Verif.Props.TrendTime

/-!
# C93: a table and its dates as arrays
-/

namespace PV
open Tensor
variable {ι τ V K : Type}

theorem seriesAt_congr {ι' V' : Type} {f : Frame ι τ V} {g : Frame ι' τ V'}
    (h : f.rows.map Row.sid = g.rows.map Row.sid) {i : Nat} {s : List String} :
    SeriesAt f i s ↔ SeriesAt g i s := by
  rw [seriesAt_iff, seriesAt_iff]
  unfold Frame.series
  rw [h]

theorem rowAt_map {ι' V' : Type} {f : Frame ι τ V} {g : Frame ι' τ V'}
    {m : Row ι τ V → Row ι' τ V'} (hm : ∀ r, (m r).sid = r.sid) (h : g.rows = f.rows.map m)
    {s : List String} {j : Nat} {row : Row ι τ V} (hr : RowAt f s j row) : RowAt g s j (m row) := by
  obtain ⟨k, hk, hs, hc⟩ := hr
  refine ⟨k, ?_, (hm row).trans hs, ?_⟩
  · rw [h, List.getElem?_map, hk]
    rfl
  · rw [← hc, h, ← List.map_take, List.map_map]
    congr 1
    exact List.map_congr_left fun r _ => hm r

/-- **C93**, panels: both arrays have one block per series and one row per date, and at the same
position the first has the date and the second the values of the same row of the table. -/
theorem C93_panel {days : τ → K} {f : Frame ι τ V} (hlv : f.nlevels ≠ 1) (hr : f.rows ≠ [])
    {t : Tensor K} {d : Tensor V} (h : f.toTensors days = .ok (t, d)) :
    t.WF ∧ d.WF ∧ ∃ T, t.shape = [seriesCount f, T, 1] ∧
      d.shape = [seriesCount f, T, f.cols.length] ∧
      ∀ i s j row, SeriesAt f i s → RowAt f s j row →
        t.get? [i, j, 0] = some (days row.time) ∧
        ∀ c col, f.cols[c]? = some col → d.get? [i, j, c] = some (row.val col) := by
  unfold Frame.toTensors at h
  simp only [bind, Except.bind] at h
  split at h
  · cases h
  rename_i t' ht
  split at h
  · cases h
  rename_i d' hd
  cases h
  unfold Frame.timeTensor at ht
  set g : Frame String τ K := ⟨f.nlevels, ["t"],
    f.rows.map fun r => ⟨r.sid, r.time, fun _ => days r.time⟩⟩ with hg
  have hsid : f.rows.map Row.sid = g.rows.map Row.sid := by simp [hg, Function.comp_def]
  obtain ⟨hwt, T, hsh, hl, hget⟩ := C53_entries (f := g) hlv (by simpa [hg] using hr) ht
  obtain ⟨hwd, T', hsh', hl', hget'⟩ := C53_entries hlv hr hd
  have hcount : seriesCount g = seriesCount f := by unfold seriesCount; rw [hsid]
  have hTT : T' = T := by
    obtain ⟨r, hrm⟩ := List.exists_mem_of_ne_nil _ hr
    have hm : r.sid ∈ f.series := mem_series.2 ⟨r, hrm, rfl⟩
    obtain ⟨i, hi⟩ := List.getElem?_of_mem hm
    have h1 := hl' i _ (seriesAt_iff.2 hi)
    have h2 := hl i _ ((seriesAt_congr hsid).1 (seriesAt_iff.2 hi))
    unfold seriesLength at h1 h2
    rw [← h1, ← h2, hsid]
  subst hTT
  refine ⟨hwt, hwd, T', by rw [hsh, hcount]; rfl, hsh', fun i s j row hs hrow => ⟨?_, ?_⟩⟩
  · exact hget i s j _ 0 "t" ((seriesAt_congr hsid).1 hs)
      (rowAt_map (m := fun r => ⟨r.sid, r.time, fun _ => days r.time⟩) (fun _ => rfl) rfl hrow) rfl
  · exact fun c col hc => hget' i s j row c col hs hrow hc

/-- **C93**, one series. -/
theorem C93_flat {days : τ → K} {f : Frame ι τ V} (hlv : f.nlevels = 1) (hc : f.cols ≠ []) :
    ∃ t d, f.toTensors days = .ok (t, d) ∧ t.shape = [1, f.rows.length, 1] ∧
      d.shape = [1, f.rows.length, f.cols.length] ∧
      ∀ j row, f.rows[j]? = some row → t.get? [0, j, 0] = some (days row.time) ∧
        ∀ c col, f.cols[c]? = some col → d.get? [0, j, c] = some (row.val col) := by
  obtain ⟨d, hd, -, hsh, hget⟩ := C53_flat hlv hc
  obtain ⟨t, ht, -, hsh', hget'⟩ := C53_flat (f := (⟨f.nlevels, ["t"],
      f.rows.map fun r => ⟨r.sid, r.time, fun _ => days r.time⟩⟩ : Frame String τ K)) hlv
    (by simp)
  refine ⟨t, d, ?_, by rw [hsh']; simp, hsh, fun j row hj => ⟨?_, fun c col => hget j row c col hj⟩⟩
  · unfold Frame.toTensors Frame.timeTensor
    simp only [ht, hd, bind, Except.bind]
    rfl
  · exact hget' j ⟨row.sid, row.time, fun _ => days row.time⟩ 0 "t"
      (by simp only [List.getElem?_map, hj, Option.map_some]) rfl

/-- **C93**, which tables are refused: those with a panel index whose series differ in length. -/
theorem C93_refused {days : τ → K} {f : Frame ι τ V} (hlv : f.nlevels ≠ 1) (hr : f.rows ≠ [])
    (hc : f.cols ≠ []) (e : PyErr) :
    f.toTensors days = .error e ↔ e = .valueError ∧
      ∃ r ∈ f.rows, ∃ r' ∈ f.rows, seriesLength f r.sid ≠ seriesLength f r'.sid := by
  set g : Frame String τ K := ⟨f.nlevels, ["t"],
    f.rows.map fun r => ⟨r.sid, r.time, fun _ => days r.time⟩⟩ with hg
  have hsid : f.rows.map Row.sid = g.rows.map Row.sid := by simp [hg, Function.comp_def]
  have h1 := fun e => C53_ragged (f := g) hlv (by simpa [hg] using hr) (by simp [hg]) e
  have h2 := fun e => C53_ragged hlv hr hc e
  have hex : (∃ r ∈ g.rows, ∃ r' ∈ g.rows, seriesLength g r.sid ≠ seriesLength g r'.sid) ↔
      ∃ r ∈ f.rows, ∃ r' ∈ f.rows, seriesLength f r.sid ≠ seriesLength f r'.sid := by
    have : ∀ s, seriesLength g s = seriesLength f s := by
      intro s; unfold seriesLength; rw [hsid]
    simp only [this]
    simp [hg]
  simp only [hex] at h1
  have ht : f.timeTensor days = g.seriesToTensor := rfl
  unfold Frame.toTensors
  simp only [bind, Except.bind, ht]
  cases hgt : g.seriesToTensor with
  | error e' =>
    rw [← h2, (h2 _).2 ((h1 e').1 hgt)]
    simp only [Except.error.injEq]
  | ok t =>
    rw [← h2]
    cases hft : f.seriesToTensor with
    | error e' =>
      have := (h1 e').2 ((h2 e').1 hft)
      rw [hgt] at this
      cases this
    | ok d =>
      simp only
      constructor <;> intro h <;> cases h

/-- **C93**, dates as numbers: the start of day `k` after 1970-01-01 is `k`, later dates never get
smaller numbers, and a date on a whole second is its exact time in days. -/
theorem C93_days [Field K] [LinearOrder K] [IsStrictOrderedRing K] :
    (∀ k : ℤ, (daysOfNs (k * 86400000000000) : K) = k) ∧
    (∀ a b : ℤ, a ≤ b → (daysOfNs a : K) ≤ daysOfNs b) ∧
    (∀ n : ℤ, 1000000000 ∣ n → (daysOfNs n : K) * 86400 * 1000000000 = n) ∧
    ∀ a b : ℤ, a + 1000000000 ≤ b → (daysOfNs a : K) < daysOfNs b := by
  have h86 : (0 : K) < 86400 := by norm_num
  refine ⟨?_, ?_, ?_, ?_⟩
  · intro k
    unfold daysOfNs
    rw [show k * 86400000000000 = (k * 86400) * 1000000000 by ring,
      Int.mul_ediv_cancel _ (by norm_num)]
    push_cast
    field_simp
  · intro a b hab
    unfold daysOfNs
    have : a / 1000000000 ≤ b / 1000000000 := Int.ediv_le_ediv (by norm_num) hab
    have : ((a / 1000000000 : ℤ) : K) ≤ ((b / 1000000000 : ℤ) : K) := by exact_mod_cast this
    gcongr
  · rintro n ⟨m, rfl⟩
    unfold daysOfNs
    rw [Int.mul_ediv_cancel_left _ (by norm_num)]
    push_cast
    field_simp
  · intro a b hab
    unfold daysOfNs
    have : a / 1000000000 < b / 1000000000 := by omega
    have : ((a / 1000000000 : ℤ) : K) < ((b / 1000000000 : ℤ) : K) := by exact_mod_cast this
    gcongr

/-! Example: two series of two days. -/

def exFrame93 : Frame String ℤ ℚ :=
  ⟨2, ["y"], [⟨["a"], 0, fun _ => 5⟩, ⟨["a"], 86400000000000, fun _ => 6⟩,
    ⟨["b"], 86400000000000, fun _ => 7⟩, ⟨["b"], 172800000000000, fun _ => 8⟩]⟩

example : (exFrame93.toTensors (daysOfNs : ℤ → ℚ)).toOption
    = some (⟨[2, 2, 1], [0, 1, 1, 2]⟩, ⟨[2, 2, 1], [5, 6, 7, 8]⟩) := by decide +kernel
example : (({ exFrame93 with rows := exFrame93.rows.take 3 }).toTensors (daysOfNs : ℤ → ℚ))
    = .error .valueError := by rfl

end PV
