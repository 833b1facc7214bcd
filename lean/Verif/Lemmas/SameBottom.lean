import Verif.Lemmas.Aggregate
import Verif.Lemmas.Scaling
import Verif.Model.Forecast

/-! # Targets with the same bottom observations -/

set_option linter.unusedSectionVars false

namespace PV

/-- Every series of the target has exactly the times `ts`, in this order. -/
def Balanced {ι τ V : Type} (y : Frame ι τ V) (ts : List τ) : Prop :=
  ts.Nodup ∧ ∀ r ∈ y.rows, (y.rows.filter fun r' => r'.sid = r.sid).map Row.time = ts

/-- Two hierarchical targets with the same observations of bottom series.  The rows may be listed
in another order, and either may have rows of aggregates (labels `__total`). -/
structure SameBottom {ι τ V : Type} (y y' : Frame ι τ V) : Prop where
  levels : y.nlevels = y'.nlevels
  cols : y.cols = y'.cols
  rows : (y.rows.filter fun r => "__total" ∉ r.sid).Perm
    (y'.rows.filter fun r => "__total" ∉ r.sid)

section
variable {K τ : Type} [Field K] [LinearOrder K] [IsStrictOrderedRing K] [LinearOrder τ]

theorem unique_times_balanced {ι V : Type} : ∀ (ts : List τ) (rows : List (Row ι τ V)), ts.Nodup →
    (∀ r ∈ rows, (rows.filter fun r' => r'.sid = r.sid).map Row.time = ts) → rows ≠ [] →
    unique (rows.map Row.time) = ts
  | [], rows, _, h, hne => by
    obtain ⟨r, hr⟩ := List.exists_mem_of_ne_nil _ hne
    have := h r hr
    rw [List.map_eq_nil_iff, List.filter_eq_nil_iff] at this
    exact absurd (decide_eq_true rfl) (this r hr)
  | t :: ts, rows, hnd, h, hne => by
    obtain ⟨r0, rest, rfl⟩ := List.exists_cons_of_ne_nil hne
    have h0 := h r0 (by simp)
    rw [List.filter_cons_of_pos (by simp), List.map_cons, List.cons.injEq] at h0
    have ht : r0.time = t := h0.1
    have hcomm : ∀ l : List (Row ι τ V), (l.map Row.time).filter (fun x => decide (x ≠ t))
        = (l.filter fun r => r.time ≠ t).map Row.time := by
      intro l
      rw [List.filter_map]
      rfl
    have htail : (t :: ts).filter (fun x => decide (x ≠ t)) = ts := by
      rw [List.filter_cons_of_neg (by simp), List.filter_eq_self]
      intro a ha
      rw [List.nodup_cons] at hnd
      simp only [ne_eq, decide_not, Bool.not_eq_eq_eq_not, Bool.not_true, decide_eq_false_iff_not]
      rintro rfl
      exact hnd.1 ha
    have hrec : ∀ r ∈ (r0 :: rest).filter (fun r => r.time ≠ t),
        (((r0 :: rest).filter fun r => r.time ≠ t).filter fun r' => r'.sid = r.sid).map Row.time
          = ts := by
      intro r hr
      have := h r (List.mem_of_mem_filter hr)
      rw [List.filter_filter]
      rw [← htail, ← this, hcomm, List.filter_filter]
      simp only [Bool.and_comm]
    have huf : ∀ l : List τ, (unique l).filter (fun x => decide (x ≠ t))
        = unique (l.filter fun x => decide (x ≠ t)) := by
      intro l
      induction l with
      | nil => rfl
      | cons a l ih =>
        by_cases ha : a = t
        · subst ha
          simp only [unique]
          rw [List.filter_cons_of_neg (by simp), List.filter_cons_of_neg (by simp), ← ih,
            List.filter_filter]
          congr 1
          funext x
          simp
        · rw [List.filter_cons_of_pos (by simpa using ha)]
          simp only [unique]
          rw [List.filter_cons_of_pos (by simpa using ha), ← ih, List.filter_filter,
            List.filter_filter]
          simp only [Bool.and_comm]
    have hu : unique ((r0 :: rest).map Row.time)
        = t :: unique (((r0 :: rest).filter fun r => r.time ≠ t).map Row.time) := by
      rw [List.map_cons]
      simp only [unique]
      rw [ht, huf, hcomm, List.filter_cons_of_neg (by simp [ht])]
    rw [hu]
    congr 1
    by_cases hr' : (r0 :: rest).filter (fun r => r.time ≠ t) = []
    · rw [hr']
      have h1 := h r0 (by simp)
      have h2 : ((r0 :: rest).filter fun r => r.time ≠ t).map Row.time = [] := by rw [hr']; rfl
      rw [← hcomm] at h2
      have h3 : ts = [] := by
        rw [← htail, ← h1, List.filter_eq_nil_iff]
        intro a ha
        obtain ⟨r, hr, rfl⟩ := List.mem_map.1 ha
        rw [List.filter_eq_nil_iff] at h2
        exact h2 _ (List.mem_map.2 ⟨r, List.mem_of_mem_filter hr, rfl⟩)
      rw [h3]; rfl
    · exact unique_times_balanced ts _ (List.nodup_cons.1 hnd).2 hrec hr'

theorem Balanced.times_eq {ι V : Type} {y : Frame ι τ V} {ts : List τ} (h : Balanced y ts)
    (hne : y.rows ≠ []) : unique y.times = ts := unique_times_balanced ts y.rows h.1 h.2 hne

theorem maxAbs?_perm {l m : List K} (h : l.Perm m) {a b : K} (ha : maxAbs? l = some a)
    (hb : maxAbs? m = some b) : a = b := by
  obtain ⟨h1, v, hv, rfl⟩ := maxAbs?_spec ha
  obtain ⟨h2, w, hw, rfl⟩ := maxAbs?_spec hb
  exact le_antisymm (h2 v (h.mem_iff.1 hv)) (h1 w (h.mem_iff.2 hw))

theorem find?_zeroToOne (e : List (List String × K)) (s : List String) :
    (e.map fun p => (p.1, if p.2 = 0 then 1 else p.2)).find? (fun p => p.1 = s)
      = (e.find? fun p => p.1 = s).map fun p => (p.1, if p.2 = 0 then 1 else p.2) := by
  rw [List.find?_map]
  rfl

/-- The two scales agree on the bottom series. -/
theorem rowScales_sameBottom {y y' : Frame String τ K} (hsb : SameBottom y y') {user : Option (Scale K)}
    (hn : y.nlevels ≠ 1) {s s' : Scale K} (h : setYScales user y = .ok s)
    (h' : setYScales user y' = .ok s') {ι V : Type} {f : Frame ι τ V}
    (hf : ∀ r ∈ f.rows, ∃ r' ∈ y.rows, r'.sid = r.sid ∧ "__total" ∉ r.sid) :
    rowScales s f = rowScales s' f := by
  cases user with
  | some u =>
    unfold setYScales rawScale at h h'
    simp only [Except.ok.injEq] at h h'
    rw [← h, ← h']
  | none =>
    unfold setYScales rawScale at h h'
    simp only [if_neg hn, if_neg (hsb.levels ▸ hn), zeroToOne, Except.ok.injEq] at h h'
    subst h h'
    simp only [rowScales]
    split
    · rfl
    · have key : ∀ r ∈ f.rows, lookupScale ((groupMaxAbs y).map fun p => (p.1, if p.2 = 0 then 1 else p.2)) r.sid
          = lookupScale ((groupMaxAbs y').map fun p => (p.1, if p.2 = 0 then 1 else p.2)) r.sid := by
        intro r hr
        obtain ⟨r1, hr1, hs1, ht⟩ := hf r hr
        have hmem : r1 ∈ y.rows.filter fun r => "__total" ∉ r.sid :=
          List.mem_filter.2 ⟨hr1, by simpa [hs1] using ht⟩
        have hmem' := hsb.rows.mem_iff.1 hmem
        obtain ⟨m, hm, hf1⟩ := lookup_groupMaxAbs (y := y) (s := r.sid)
          (List.mem_map.2 ⟨r1, hr1, hs1⟩)
        obtain ⟨m', hm', hf2⟩ := lookup_groupMaxAbs (y := y') (s := r.sid)
          (List.mem_map.2 ⟨r1, List.mem_of_mem_filter hmem', hs1⟩)
        have hrow : ∀ z : Frame String τ K, z.rowsOf r.sid
            = (z.rows.filter fun r => "__total" ∉ r.sid).filter fun r' => r'.sid = r.sid := by
          intro z
          unfold Frame.rowsOf
          rw [List.filter_filter]
          apply List.filter_congr
          intro r' _
          by_cases hrr : r'.sid = r.sid <;> simp [hrr, ht]
        have hp : (targetVals y (y.rowsOf r.sid)).Perm (targetVals y' (y'.rowsOf r.sid)) := by
          unfold targetVals
          rw [hrow y, hrow y', hsb.cols]
          exact (hsb.rows.filter _).map _
        have := maxAbs?_perm hp hm hm'
        subst this
        unfold lookupScale
        rw [find?_zeroToOne, find?_zeroToOne, hf1, hf2]
      generalize f.rows = l at key
      induction l with
      | nil => rfl
      | cons r l ih =>
        rw [List.mapM_cons, List.mapM_cons, key r (by simp),
          ih fun r hr => key r (by simp [hr])]

/-- Scaling keeps the bottom observations equal. -/
theorem scale_sameBottom {y y' : Frame String τ K} (hsb : SameBottom y y') {user : Option (Scale K)}
    (hn : y.nlevels ≠ 1) {s s' : Scale K} {ys ys' : Frame String τ K}
    (h : fitTarget false user y = .ok (s, ys)) (h' : fitTarget false user y' = .ok (s', ys')) :
    SameBottom ys ys' ∧ setYScales user y = .ok s ∧ setYScales user y' = .ok s' ∧
      ys.nlevels = y.nlevels ∧ ys.index = y.index ∧ ys'.index = y'.index := by
  have key : ∀ {y : Frame String τ K} {s : Scale K} {ys : Frame String τ K},
      fitTarget false user y = .ok (s, ys) → setYScales user y = .ok s ∧
        ∃ ss, rowScales s y = .ok ss ∧ ys = applyScales (fun v k => v / k) y ss := by
    intro y s ys h
    unfold fitTarget at h
    cases h1 : setYScales user y with
    | error e => simp [h1, bind, Except.bind] at h
    | ok s0 =>
      simp only [h1, bind, Except.bind, scaleY, Bool.false_eq_true, if_false] at h
      cases h2 : rowScales s0 y with
      | error e => simp [h2] at h
      | ok ss =>
        simp only [h2, pure, Except.pure, Except.ok.injEq, Prod.mk.injEq] at h
        obtain ⟨rfl, rfl⟩ := h
        exact ⟨rfl, ss, h2, rfl⟩
  obtain ⟨hs, ss, hss, rfl⟩ := key h
  obtain ⟨hs', ss', hss', rfl⟩ := key h'
  obtain ⟨σ, rfl, hσ⟩ := rowScales_fun hss
  obtain ⟨σ', rfl, hσ'⟩ := rowScales_fun hss'
  simp only [applyScales_map]
  refine ⟨⟨hsb.levels, hsb.cols, ?_⟩, hs, hs', rfl, ?_, ?_⟩
  · let f : Frame String τ K := { y with rows := y.rows.filter fun r => "__total" ∉ r.sid }
    have e1 := hσ f rfl fun r hr => ⟨r, List.mem_of_mem_filter hr, rfl⟩
    have e2 := hσ' f hsb.levels fun r hr =>
      ⟨r, List.mem_of_mem_filter (hsb.rows.mem_iff.1 hr), rfl⟩
    rw [rowScales_sameBottom hsb hn hs hs' (f := f) fun r hr =>
      ⟨r, List.mem_of_mem_filter hr, rfl, by simpa using (List.mem_filter.1 hr).2⟩, e2] at e1
    have e3 : ∀ r ∈ y.rows.filter fun r => "__total" ∉ r.sid, σ' r.sid = σ r.sid :=
      List.map_inj_left.1 (Except.ok.inj e1)
    have hfm : ∀ (z : Frame String τ K) (ρ : List String → K),
        (z.mapVals fun s v => v / ρ s).rows.filter (fun r => "__total" ∉ r.sid)
          = (z.rows.filter fun r => "__total" ∉ r.sid).map fun r =>
              ⟨r.sid, r.time, fun c => r.val c / ρ r.sid⟩ := by
      intro z ρ
      simp only [Frame.mapVals]
      rw [List.filter_map]
      rfl
    rw [hfm, hfm]
    refine List.Perm.trans ?_ (hsb.rows.map _)
    refine List.Perm.of_eq (List.map_congr_left fun r hr => ?_)
    rw [e3 r hr]
  · simp [Frame.mapVals, Frame.index, Function.comp_def]
  · simp [Frame.mapVals, Frame.index, Function.comp_def]

end
end PV
