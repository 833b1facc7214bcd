import Mathlib.Data.Rat.Floor
import Verif.Lemmas.WorldInv
import Verif.Model.TrendEffects

/-!
# C25, C26, C63, C64, C65: histories of calls on forecasters that share objects

The forecasters may be univariate ones and `HierarchicalProphet`s in any mixture.
All statements are about arbitrary lists of calls (`Op`), including calls that raise.
-/

namespace PV
section
variable {S τ D K F κ G Θ P : Type} [Field K] [LinearOrder K] [LinearOrder τ]
  [FloorRing K] {H : Type}

theorem run_cons (np : Numpyro κ G (ModelArgs D K) K Θ P (Draws K)) (horizon : List τ → H → List τ)
    (w : World S τ D K F κ G Θ P) (op : Op S τ D K κ G H) (ops : List (Op S τ D K κ G H)) :
    w.run np horizon (op :: ops) = (w.step np horizon op).run np horizon ops := rfl

theorem run_append (np : Numpyro κ G (ModelArgs D K) K Θ P (Draws K))
    (horizon : List τ → H → List τ) (w : World S τ D K F κ G Θ P)
    (a b : List (Op S τ D K κ G H)) :
    w.run np horizon (a ++ b) = (w.run np horizon a).run np horizon b := List.foldl_append

/-- The configurations created by a history. -/
def newConfigs (ops : List (Op S τ D K κ G H)) : List (FcConfig S τ D K κ G) :=
  ops.filterMap fun op => match op with
    | .new cfg => some cfg
    | _ => none

theorem cfgs_of_forget {l l' : List (Fc S τ D K κ G Θ P)}
    (h : l.map Fc.forget = l'.map Fc.forget) : l.map Fc.cfg = l'.map Fc.cfg := by
  have : (l.map Fc.forget).map Fc.cfg = (l'.map Fc.forget).map Fc.cfg := by rw [h]
  simpa [Function.comp_def, Fc.forget] using this

theorem cfgs_step (np : Numpyro κ G (ModelArgs D K) K Θ P (Draws K))
    (horizon : List τ → H → List τ) (w : World S τ D K F κ G Θ P) (op : Op S τ D K κ G H) :
    (w.step np horizon op).fcs.map Fc.cfg = w.fcs.map Fc.cfg ++ newConfigs [op] := by
  cases op with
  | new cfg => simp [World.step, newConfigs]
  | fit i y X =>
    simp only [World.step, newConfigs, List.filterMap_cons, List.filterMap_nil, List.append_nil]
    cases hi : w.fcs[i]? with
    | none => rw [fit_none np hi]
    | some fc =>
      obtain ⟨fc', h⟩ := fit_step np hi y X
      rw [h.fcs, List.map_set, h.cfg]
      apply List.ext_getElem?
      intro j
      by_cases hj : i = j
      · subst hj
        have hlen := (List.getElem?_eq_some_iff.1 hi).1
        rw [List.getElem?_set_self (by simpa using hlen), List.getElem?_map, hi]
        rfl
      · rw [List.getElem?_set_ne hj]
  | predict i q X fh =>
    simp only [World.step, newConfigs, List.filterMap_cons, List.filterMap_nil, List.append_nil]
    exact cfgs_of_forget (predict_step np horizon w i q X fh).2.2

theorem cfgs_run (np : Numpyro κ G (ModelArgs D K) K Θ P (Draws K))
    (horizon : List τ → H → List τ) (ops : List (Op S τ D K κ G H)) :
    ∀ w : World S τ D K F κ G Θ P,
      (w.run np horizon ops).fcs.map Fc.cfg = w.fcs.map Fc.cfg ++ newConfigs ops := by
  induction ops with
  | nil => intro w; simp [World.run, newConfigs]
  | cons op ops ih =>
    intro w
    rw [run_cons, ih, cfgs_step, List.append_assoc]
    unfold newConfigs
    rw [← List.filterMap_append]
    rfl

/-- One call only changes objects that some forecaster was given as its trend. -/
theorem heap_step (np : Numpyro κ G (ModelArgs D K) K Θ P (Draws K))
    (horizon : List τ → H → List τ) (w : World S τ D K F κ G Θ P) (op : Op S τ D K κ G H) :
    HeapStep (fun r => ∃ fc i, w.fcs[i]? = some fc ∧ op.target = some i ∧ fc.cfg.trend = .object r)
      w.heap (w.step np horizon op).heap := by
  cases op with
  | new cfg => exact HeapStep.refl _ _
  | fit i y X =>
    cases hi : w.fcs[i]? with
    | none =>
      simp only [World.step, fit_none np hi]
      exact HeapStep.refl _ _
    | some fc =>
      obtain ⟨fc', h⟩ := fit_step np hi y X
      refine ⟨h.heap.len, h.heap.kind, fun r hr hn => h.heap.same r hr fun ht => hn ?_⟩
      exact ⟨fc, i, hi, rfl, ht⟩
  | predict i q X fh =>
    simp only [World.step, (predict_step np horizon w i q X fh).1]
    exact HeapStep.refl _ _

/-! ## C25 -/

/-- **C25.** After any history of calls — constructing, fitting and predicting with any number of
forecasters, successfully or not — an object that existed before and is not used as a *trend* by any
forecaster is exactly as it was: in particular every effect given in `exogenous_effects` or as
`default_effect`. -/
theorem C25_effects_untouched (np : Numpyro κ G (ModelArgs D K) K Θ P (Draws K))
    (horizon : List τ → H → List τ) (ops : List (Op S τ D K κ G H)) {r : Nat} :
    ∀ {w : World S τ D K F κ G Θ P}, r < w.heap.length →
      (∀ fc ∈ w.fcs, fc.cfg.trend ≠ .object r) →
      (∀ cfg, Op.new cfg ∈ ops → cfg.trend ≠ .object r) →
      (w.run np horizon ops).heap[r]? = w.heap[r]? := by
  induction ops with
  | nil => exact fun _ _ _ => rfl
  | cons op ops ih =>
    intro w hr hw hops
    have hstep := heap_step np horizon w op
    rw [run_cons]
    have hcfg := cfgs_step np horizon w op
    rw [ih (w := w.step np horizon op) (hr.trans_le hstep.len) ?_
      fun cfg hc => hops cfg (by simp [hc])]
    · have := hstep.same r hr fun ⟨fc, i, hi, _, ht⟩ => hw fc (List.mem_of_getElem? hi) ht
      unfold deref at this
      rw [List.getElem?_eq_getElem hr, List.getElem?_eq_getElem (hr.trans_le hstep.len)] at this ⊢
      simp only [Except.ok.injEq] at this
      rw [this]
    · intro fc hfc
      have : fc.cfg ∈ (w.step np horizon op).fcs.map Fc.cfg := List.mem_map_of_mem hfc
      rw [hcfg] at this
      rcases List.mem_append.1 this with h | h
      · obtain ⟨fc0, h0, h1⟩ := List.mem_map.1 h
        rw [← h1]
        exact hw fc0 h0
      · cases op with
        | new cfg =>
          simp [newConfigs] at h
          rw [h]
          exact hops cfg (by simp)
        | fit i y X => simp [newConfigs] at h
        | predict i q X fh => simp [newConfigs] at h

/-! ## C63 -/

theorem run_predicts (np : Numpyro κ G (ModelArgs D K) K Θ P (Draws K))
    (horizon : List τ → H → List τ) (ops : List (Op S τ D K κ G H)) :
    ∀ (w : World S τ D K F κ G Θ P), (∀ op ∈ ops, ∃ i q X fh, op = .predict i q X fh) →
      (w.run np horizon ops).heap = w.heap ∧ (w.run np horizon ops).feats = w.feats ∧
        (w.run np horizon ops).fcs.map Fc.forget = w.fcs.map Fc.forget := by
  induction ops with
  | nil => exact fun _ _ => ⟨rfl, rfl, rfl⟩
  | cons op ops ih =>
    intro w hops
    obtain ⟨i, q, X, fh, rfl⟩ := hops op (by simp)
    rw [run_cons]
    obtain ⟨h1, h2, h3⟩ := predict_step np horizon w i q X fh
    obtain ⟨h4, h5, h6⟩ := ih (w.step np horizon (.predict i q X fh)) fun o ho => hops o (by simp [ho])
    exact ⟨h4.trans h1, h5.trans h2, h6.trans h3⟩

theorem getElem?_forget {l l' : List (Fc S τ D K κ G Θ P)} (h : l.map Fc.forget = l'.map Fc.forget)
    (i : Nat) : (l[i]?).map Fc.forget = (l'[i]?).map Fc.forget := by
  rw [← List.getElem?_map, ← List.getElem?_map, h]

/-- **C63.** However many prediction calls (of any kind, on any forecasters, successful or not) are
made, every prediction call returns what it would have returned before them. -/
theorem C63_repeatable (np : Numpyro κ G (ModelArgs D K) K Θ P (Draws K))
    (horizon : List τ → H → List τ) (w : World S τ D K F κ G Θ P)
    (ops : List (Op S τ D K κ G H)) (hops : ∀ op ∈ ops, ∃ i q X fh, op = .predict i q X fh)
    (i : Nat) (q : Query K) (X : Option (Frame String τ K)) (fh : H) :
    ((w.run np horizon ops).predict np horizon i q X fh).1 = (w.predict np horizon i q X fh).1 := by
  obtain ⟨h1, h2, h3⟩ := run_predicts np horizon ops w hops
  refine predict_congr np horizon (getElem?_forget h3.symm i) (fun fc p _ _ => ?_) q X fh
  rw [h1, h2]
  exact ⟨rfl, fun _ _ => rfl, fun _ _ => rfl, fun _ _ => rfl⟩

/-- **C63**, the objects: prediction calls change no effect, trend or transformer. -/
theorem C63_readonly (np : Numpyro κ G (ModelArgs D K) K Θ P (Draws K))
    (horizon : List τ → H → List τ) (w : World S τ D K F κ G Θ P)
    (ops : List (Op S τ D K κ G H)) (hops : ∀ op ∈ ops, ∃ i q X fh, op = .predict i q X fh) :
    (w.run np horizon ops).heap = w.heap ∧ (w.run np horizon ops).feats = w.feats :=
  ⟨(run_predicts np horizon ops w hops).1, (run_predicts np horizon ops w hops).2.1⟩

/-! ## C26 -/

/-- The two configurations were given neither the same trend object nor the same feature
transformer. -/
def NoShare (a b : FcConfig S τ D K κ G) : Prop :=
  (∀ r, a.trend = .object r → b.trend ≠ .object r) ∧
    ∀ r, a.features = some r → b.features ≠ some r

/-- References of forecasters in a world whose user objects are the first `n` ones. -/
def Inv (n : Nat) (w : World S τ D K F κ G Θ P) : Prop :=
  n ≤ w.heap.length ∧ ∀ fc ∈ w.fcs, (∀ r, fc.cfg.trend = .object r → r < n) ∧
    ∀ p, fc.prepared = some p →
      (p.trend < w.heap.length ∧ (fc.cfg.trend = .object p.trend ∨ n ≤ p.trend)) ∧
      (∀ e ∈ p.fitted, n ≤ e.2.1 ∧ e.2.1 < w.heap.length) ∧
      ∀ e ∈ p.objs, n ≤ e.2 ∧ e.2 < w.heap.length

theorem inv_forget {n : Nat} {w w' : World S τ D K F κ G Θ P} (h : Inv n w)
    (hl : w.heap.length ≤ w'.heap.length) (hf : w'.fcs.map Fc.forget = w.fcs.map Fc.forget) :
    Inv n w' := by
  refine ⟨h.1.trans hl, fun fc hfc => ?_⟩
  have : fc.forget ∈ w.fcs.map Fc.forget := by
    rw [← hf]
    exact List.mem_map_of_mem hfc
  obtain ⟨fc0, h0, h1⟩ := List.mem_map.1 this
  obtain ⟨hc, hp, -, -⟩ := forget_fields h1
  obtain ⟨h2, h3⟩ := h.2 fc0 h0
  rw [← hc, ← hp]
  refine ⟨h2, fun p hp => ?_⟩
  obtain ⟨⟨h4, h5⟩, h6, h7⟩ := h3 p hp
  exact ⟨⟨h4.trans_le hl, h5⟩, fun e he => ⟨(h6 e he).1, (h6 e he).2.trans_le hl⟩,
    fun e he => ⟨(h7 e he).1, (h7 e he).2.trans_le hl⟩⟩

theorem inv_step (np : Numpyro κ G (ModelArgs D K) K Θ P (Draws K))
    (horizon : List τ → H → List τ) {n : Nat} {w : World S τ D K F κ G Θ P} (hw : Inv n w)
    {op : Op S τ D K κ G H} (hop : ∀ cfg r, op = .new cfg → cfg.trend = .object r → r < n) :
    Inv n (w.step np horizon op) := by
  cases op with
  | new cfg =>
    refine ⟨hw.1, fun fc hfc => ?_⟩
    simp only [World.step] at hfc
    rcases List.mem_append.1 hfc with h | h
    · exact hw.2 fc h
    · simp only [List.mem_singleton] at h
      rw [h]
      exact ⟨fun r hr => hop cfg r rfl hr, fun p hp => by cases hp⟩
  | fit i y X =>
    cases hi : w.fcs[i]? with
    | none =>
      simp only [World.step, fit_none np hi]
      exact hw
    | some fc =>
      obtain ⟨fc', h⟩ := fit_step np hi y X
      refine ⟨hw.1.trans h.heap.len, fun fc1 hfc1 => ?_⟩
      simp only [World.step] at hfc1
      rw [h.fcs] at hfc1
      rcases List.mem_or_eq_of_mem_set hfc1 with h1 | h1
      · obtain ⟨h2, h3⟩ := hw.2 fc1 h1
        refine ⟨h2, fun p hp => ?_⟩
        obtain ⟨⟨h4, h5⟩, h6, h7⟩ := h3 p hp
        have hl := h.heap.len
        exact ⟨⟨h4.trans_le hl, h5⟩, fun e he => ⟨(h6 e he).1, (h6 e he).2.trans_le hl⟩,
          fun e he => ⟨(h7 e he).1, (h7 e he).2.trans_le hl⟩⟩
      · subst h1
        rw [h.cfg]
        refine ⟨(hw.2 fc (List.mem_of_getElem? hi)).1, fun p hp => ?_⟩
        obtain ⟨⟨h4, h5⟩, h6, h7⟩ := h.refs p hp
        refine ⟨⟨h4, ?_⟩, fun e he => ⟨hw.1.trans (h6 e he).1, (h6 e he).2⟩,
          fun e he => ⟨hw.1.trans (h7 e he).1, (h7 e he).2⟩⟩
        rcases h5 with h5 | h5
        · exact .inl h5
        · exact .inr (hw.1.trans h5)
  | predict i q X fh =>
    obtain ⟨h1, -, h3⟩ := predict_step np horizon w i q X fh
    exact inv_forget hw (by simp only [World.step]; rw [h1]) h3

theorem inv_run (np : Numpyro κ G (ModelArgs D K) K Θ P (Draws K))
    (horizon : List τ → H → List τ) {n : Nat} (ops : List (Op S τ D K κ G H)) :
    ∀ {w : World S τ D K F κ G Θ P}, Inv n w →
      (∀ cfg r, Op.new cfg ∈ ops → cfg.trend = .object r → r < n) → Inv n (w.run np horizon ops) := by
  induction ops with
  | nil => exact fun h _ => h
  | cons op ops ih =>
    intro w hw hops
    rw [run_cons]
    exact ih (inv_step np horizon hw fun cfg r h ht => hops cfg r (by simp [h]) ht)
      fun cfg r h ht => hops cfg r (by simp [h]) ht

/-- One call on another forecaster that shares neither trend object nor transformer. -/
theorem no_interference_step (np : Numpyro κ G (ModelArgs D K) K Θ P (Draws K))
    (horizon : List τ → H → List τ) {n : Nat} {w : World S τ D K F κ G Θ P} (hw : Inv n w)
    {op : Op S τ D K κ G H} {i : Nat} {fc : Fc S τ D K κ G Θ P} (hi : w.fcs[i]? = some fc)
    (hne : op.target ≠ some i)
    (hsh : ∀ j fc', j ≠ i → w.fcs[j]? = some fc' → NoShare fc'.cfg fc.cfg) :
    ((w.step np horizon op).fcs[i]?).map Fc.forget = some fc.forget ∧
      ∀ p, fc.prepared = some p →
        deref (w.step np horizon op).heap p.trend = deref w.heap p.trend ∧
        (∀ e ∈ p.fitted, deref (w.step np horizon op).heap e.2.1 = deref w.heap e.2.1) ∧
        (∀ e ∈ p.objs, deref (w.step np horizon op).heap e.2 = deref w.heap e.2) ∧
        ∀ r, fc.cfg.features = some r → (w.step np horizon op).feats[r]? = w.feats[r]? := by
  have hmem := List.mem_of_getElem? hi
  cases op with
  | new cfg =>
    have hlen := (List.getElem?_eq_some_iff.1 hi).1
    refine ⟨?_, fun p _ => ⟨rfl, fun _ _ => rfl, fun _ _ => rfl, fun _ _ => rfl⟩⟩
    simp only [World.step]
    rw [List.getElem?_append_left hlen, hi]
    rfl
  | predict j q X fh =>
    obtain ⟨h1, h2, h3⟩ := predict_step np horizon w j q X fh
    refine ⟨?_, fun p _ => ?_⟩
    · rw [show (w.step np horizon (.predict j q X fh)) = (w.predict np horizon j q X fh).2 from rfl,
        getElem?_forget h3 i, hi]
      rfl
    · simp only [World.step, h1, h2]
      exact ⟨trivial, fun _ _ => trivial, fun _ _ => trivial, fun _ _ => trivial⟩
  | fit j y X =>
    have hji : j ≠ i := fun h => hne (by rw [h]; rfl)
    cases hj : w.fcs[j]? with
    | none =>
      simp only [World.step, fit_none np hj]
      exact ⟨by rw [hi]; rfl, fun p _ => ⟨trivial, fun _ _ => trivial, fun _ _ => trivial,
        fun _ _ => trivial⟩⟩
    | some fj =>
      obtain ⟨fc', h⟩ := fit_step np hj y X
      obtain ⟨hs1, hs2⟩ := hsh j fj hji hj
      simp only [World.step]
      refine ⟨?_, fun p hp => ?_⟩
      · rw [h.fcs, List.getElem?_set_ne hji, hi]
        rfl
      · obtain ⟨⟨p1, p2⟩, p3, p4⟩ := (hw.2 fc hmem).2 p hp
        have hjn := (hw.2 fj (List.mem_of_getElem? hj)).1
        refine ⟨h.heap.same _ p1 fun ht => ?_, fun e he => h.heap.same _ (p3 e he).2 fun ht => ?_,
          fun e he => h.heap.same _ (p4 e he).2 fun ht => ?_, fun r hr => h.feats r fun hr' => ?_⟩
        · rcases p2 with p2 | p2
          · exact hs1 _ ht p2
          · have := hjn _ ht
            omega
        · have := hjn _ ht
          have := (p3 e he).1
          omega
        · have := hjn _ ht
          have := (p4 e he).1
          omega
        · exact hs2 r hr' hr

theorem forget_forget_cfg {o : Option (Fc S τ D K κ G Θ P)} {fc : Fc S τ D K κ G Θ P}
    (h : o.map Fc.forget = some fc.forget) : ∃ fc', o = some fc' ∧ fc'.cfg = fc.cfg ∧
      fc'.prepared = fc.prepared ∧ fc'.forget = fc.forget := by
  cases o with
  | none => cases h
  | some fc' =>
    simp only [Option.map_some, Option.some.injEq] at h
    obtain ⟨h1, h2, -, -⟩ := forget_fields h
    exact ⟨fc', rfl, h1, h2, h⟩

theorem no_interference (np : Numpyro κ G (ModelArgs D K) K Θ P (Draws K))
    (horizon : List τ → H → List τ) {n i : Nat} (ops : List (Op S τ D K κ G H)) :
    ∀ {w : World S τ D K F κ G Θ P} {fc : Fc S τ D K κ G Θ P}, Inv n w → w.fcs[i]? = some fc →
      (∀ cfg r, Op.new cfg ∈ ops → cfg.trend = .object r → r < n) →
      (∀ op ∈ ops, op.target ≠ some i) →
      (∀ j cfg, j ≠ i → ((w.run np horizon ops).fcs.map Fc.cfg)[j]? = some cfg →
        NoShare cfg fc.cfg) →
      ∀ q X fh, ((w.run np horizon ops).predict np horizon i q X fh).1
        = (w.predict np horizon i q X fh).1 := by
  induction ops with
  | nil => exact fun _ _ _ _ _ _ _ _ => rfl
  | cons op ops ih =>
    intro w fc hw hi hops hne hsh q X fh
    rw [run_cons]
    have hshw : ∀ j fc', j ≠ i → w.fcs[j]? = some fc' → NoShare fc'.cfg fc.cfg := by
      intro j fc' hji hj
      refine hsh j fc'.cfg hji ?_
      rw [cfgs_run, List.getElem?_append_left]
      · rw [List.getElem?_map, hj]
        rfl
      · rw [List.length_map]
        exact (List.getElem?_eq_some_iff.1 hj).1
    obtain ⟨h1, h2⟩ := no_interference_step np horizon hw (op := op) hi (hne op (by simp)) hshw
    obtain ⟨fc1, hi1, hc1, hp1, hf1⟩ := forget_forget_cfg h1
    rw [ih (w := w.step np horizon op) (fc := fc1)
      (inv_step np horizon hw fun cfg r h ht => hops cfg r (by simp [h]) ht) hi1
      (fun cfg r h ht => hops cfg r (by simp [h]) ht) (fun o ho => hne o (by simp [ho]))
      (fun j cfg hji hj => by rw [hc1]; exact hsh j cfg hji hj)]
    refine predict_congr np horizon (by rw [hi, hi1]; simp [hf1]) (fun fc0 p h0 hp => ?_) q X fh
    rw [hi] at h0
    cases h0
    exact h2 p hp

/-- **C26** where it holds.  Take any initial objects, any history `before`, and then any history
`after` of calls on *other* forecasters (old and new).  If none of those was given the trend object
or the feature transformer object of the `i`-th forecaster, then every prediction of the `i`-th
forecaster is the same after as before.  Effect objects may be shared freely.

Missing: shared trend objects (`C26_trend_refuted`) and shared transformers
(`C26_transformer_refuted`).

`hrefs`: constructor arguments refer to objects that the user made (not to the clones a forecaster
keeps). -/
theorem C26_no_sharing_partial (np : Numpyro κ G (ModelArgs D K) K Θ P (Draws K))
    (horizon : List τ → H → List τ) {w : World S τ D K F κ G Θ P} (hw : w.fcs = [])
    (before after : List (Op S τ D K κ G H))
    (hrefs : ∀ cfg r, Op.new cfg ∈ before ++ after → cfg.trend = .object r → r < w.heap.length)
    {i : Nat} {fc : Fc S τ D K κ G Θ P} (hi : (w.run np horizon before).fcs[i]? = some fc)
    (hother : ∀ op ∈ after, op.target ≠ some i)
    (hshare : ∀ j cfg, j ≠ i → (newConfigs (before ++ after))[j]? = some cfg → NoShare cfg fc.cfg)
    (q : Query K) (X : Option (Frame String τ K)) (fh : H) :
    ((w.run np horizon (before ++ after)).predict np horizon i q X fh).1
      = ((w.run np horizon before).predict np horizon i q X fh).1 := by
  rw [run_append]
  refine no_interference np horizon (n := w.heap.length) after ?_ hi
    (fun cfg r h ht => hrefs cfg r (by simp [h]) ht) hother (fun j cfg hji hj => ?_) q X fh
  · refine inv_run np horizon before ⟨le_refl _, ?_⟩ fun cfg r h ht => hrefs cfg r (by simp [h]) ht
    rw [hw]
    simp
  · refine hshare j cfg hji ?_
    rw [← run_append, cfgs_run, hw] at hj
    simpa using hj

/-! ## C64, C65 -/

/-- Fitting does not look at the attributes left by an earlier fit. -/
def Forgets (c : EffectClass S (Frame String τ K) (Scale K) τ K D K) : Prop :=
  ∀ s s' y X sc, c.fit s y X sc = c.fit s' y X sc

/-- The piecewise trends and the flat trend of the package forget. -/
theorem C64_builtin_trends (days : τ → K) (suggest : List K → Tensor K → PyM (List K × List K))
    (predict : Bool → Nat → EffectCall (Tensor K) K) (p : PiecewiseParams K τ) :
    Forgets (piecewiseClass days suggest predict p) ∧
      Forgets (τ := τ) (K := K) flatClass :=
  ⟨fun _ _ _ _ _ => rfl, fun _ _ _ _ _ => rfl⟩

/-- The configuration has the contents `c`; a trend object given by the user and a transformer forget
earlier fits (for transformers this is sktime's contract). -/
structure HasContents (h : List (Obj S τ D K)) (feats : List (FeatureObj F τ K))
    (cfg : FcConfig S τ D K κ G) (c : Contents S τ D K F κ G) : Prop where
  compile : cfg.compile = c.compile
  trend : match cfg.trend with
    | .named o => o = c.trend
    | .object r => ∃ o, deref h r = .ok o ∧ o.clone = c.trend.clone ∧ Forgets c.trend.cls
  effects : List.Forall₂ (SpecOf h) cfg.effects c.effects
  default : DefaultOf h cfg.default cfg.linear c.default
  features : match cfg.features, c.features with
    | none, none => True
    | some r, some f => ∃ st, feats[r]? = some { f with st := st } ∧
        ∀ s s' x, f.fitTransform s x = f.fitTransform s' x
    | _, _ => False
  hier : cfg.hier = c.hier
  discrete : cfg.discrete = c.discrete
  scale : cfg.scale = c.scale
  rngKey : cfg.rngKey = c.rngKey
  method : cfg.method = c.method
  settings : cfg.settings = c.settings

theorem fitsLike_of_forgets {o o' : Obj S τ D K} (hc : o.clone = o'.clone)
    (hf : Forgets o'.cls) : FitsLike o o' := by
  obtain ⟨cls, made, st⟩ := o
  obtain ⟨cls', made', st'⟩ := o'
  simp only [EffectObj.clone, EffectObj.mk.injEq] at hc
  obtain ⟨rfl, rfl, -⟩ := hc
  intro y X s
  unfold EffectObj.fit baseFit
  simp only at hf ⊢
  rw [hf st.2 st'.2 y X s]

theorem HasContents.resolves {h : List (Obj S τ D K)} {feats : List (FeatureObj F τ K)}
    {cfg : FcConfig S τ D K κ G} {c : Contents S τ D K F κ G} (hc : HasContents h feats cfg c) :
    Resolves h feats cfg c := by
  refine ⟨hc.compile, ?_, hc.effects, hc.default, ?_, hc.hier, hc.discrete, hc.scale, hc.rngKey,
    hc.method, hc.settings⟩
  · have := hc.trend
    unfold TrendOf
    cases ht : cfg.trend with
    | named o => rw [ht] at this; exact this
    | object r =>
      rw [ht] at this
      obtain ⟨o, h1, h2, h3⟩ := this
      exact ⟨o, h1, fitsLike_of_forgets h2 h3⟩
  · have := hc.features
    unfold FeatOf
    cases hr : cfg.features with
    | none =>
      cases hf : c.features with
      | none => trivial
      | some f => rw [hr, hf] at this; exact this
    | some r =>
      cases hf : c.features with
      | none => rw [hr, hf] at this; exact this
      | some f =>
        rw [hr, hf] at this
        obtain ⟨st, h1, h2⟩ := this
        exact ⟨_, h1, rfl, fun x => h2 _ _ _⟩

/-- Contents are not affected by any call. -/
theorem HasContents.step (np : Numpyro κ G (ModelArgs D K) K Θ P (Draws K))
    (horizon : List τ → H → List τ) {w : World S τ D K F κ G Θ P}
    {cfg : FcConfig S τ D K κ G} {c : Contents S τ D K F κ G}
    (hc : HasContents w.heap w.feats cfg c) (op : Op S τ D K κ G H) :
    HasContents (w.step np horizon op).heap (w.step np horizon op).feats cfg c := by
  have hk := (heap_step np horizon w op).kind
  have hfeat : ∀ (r : Nat) f, w.feats[r]? = some f →
      ∃ st, (w.step np horizon op).feats[r]? = some { f with st := st } := by
    intro r f hf
    cases op with
    | new cfg => exact ⟨f.st, hf⟩
    | predict i q X fh =>
      simp only [World.step, (predict_step np horizon w i q X fh).2.1]
      exact ⟨f.st, hf⟩
    | fit i y X =>
      cases hi : w.fcs[i]? with
      | none => simp only [World.step, fit_none np hi]; exact ⟨f.st, hf⟩
      | some fc =>
        obtain ⟨fc', h⟩ := fit_step np hi y X
        exact h.kind r f hf
  refine ⟨hc.compile, ?_, hc.effects.imp fun _ _ h => h.kind hk, hc.default.kind hk, ?_,
    hc.hier, hc.discrete, hc.scale, hc.rngKey, hc.method, hc.settings⟩
  · have := hc.trend
    cases ht : cfg.trend with
    | named o => rw [ht] at this; exact this
    | object r =>
      rw [ht] at this
      obtain ⟨o, h1, h2, h3⟩ := this
      obtain ⟨o', h4, h5⟩ := hk r o h1
      exact ⟨o', h4, h5.trans h2, h3⟩
  · have := hc.features
    cases hr : cfg.features with
    | none =>
      cases hf : c.features with
      | none => trivial
      | some f => rw [hr, hf] at this; exact this
    | some r =>
      cases hf : c.features with
      | none => rw [hr, hf] at this; exact this
      | some f =>
        rw [hr, hf] at this
        obtain ⟨st, h1, h2⟩ := this
        obtain ⟨st', h3⟩ := hfeat r _ h1
        exact ⟨st', h3, h2⟩

theorem HasContents.run (np : Numpyro κ G (ModelArgs D K) K Θ P (Draws K))
    (horizon : List τ → H → List τ) {cfg : FcConfig S τ D K κ G} {c : Contents S τ D K F κ G}
    (ops : List (Op S τ D K κ G H)) :
    ∀ {w : World S τ D K F κ G Θ P}, HasContents w.heap w.feats cfg c →
      HasContents (w.run np horizon ops).heap (w.run np horizon ops).feats cfg c := by
  induction ops with
  | nil => exact fun h => h
  | cons op ops ih => exact fun h => ih (h.step np horizon op)

/-- The objects implement the value-level description: `fit` and the predictions after it are
functions of the contents of the configuration and of the data. -/
theorem fit_predict_value (np : Numpyro κ G (ModelArgs D K) K Θ P (Draws K))
    (horizon : List τ → H → List τ) {w : World S τ D K F κ G Θ P} {i : Nat}
    {fc : Fc S τ D K κ G Θ P} (hi : w.fcs[i]? = some fc) {c : Contents S τ D K F κ G}
    (hc : Resolves w.heap w.feats fc.cfg c) (y : Frame String τ K)
    (X : Option (Frame String τ K)) :
    (w.fit np i y X).1 = valFit np c y X ∧
      ∀ q X' fh, ((w.fit np i y X).2.predict np horizon i q X' fh).1
        = valPredict np horizon c y X q X' fh := by
  obtain ⟨h1, fc', h2, h3, h4⟩ := fit_sim np hi hc y X
  exact ⟨h1, fun q X' fh => predict_sim np horizon h2 (by rw [h3]; exact hc.discrete)
    (by rw [h3]; exact hc.hier) h4 q X' fh⟩

/-- **C65.** Two forecasters in any two programs, with the same configuration contents, fitted on
the same data: `fit` has the same outcome and every prediction is the same. -/
theorem C65_reproducible (np : Numpyro κ G (ModelArgs D K) K Θ P (Draws K))
    (horizon : List τ → H → List τ) {w w' : World S τ D K F κ G Θ P} {i i' : Nat}
    {fc fc' : Fc S τ D K κ G Θ P} (hi : w.fcs[i]? = some fc) (hi' : w'.fcs[i']? = some fc')
    {c : Contents S τ D K F κ G} (hc : Resolves w.heap w.feats fc.cfg c)
    (hc' : Resolves w'.heap w'.feats fc'.cfg c) (y : Frame String τ K)
    (X : Option (Frame String τ K)) :
    (w.fit np i y X).1 = (w'.fit np i' y X).1 ∧
      ∀ q X' fh, ((w.fit np i y X).2.predict np horizon i q X' fh).1
        = ((w'.fit np i' y X).2.predict np horizon i' q X' fh).1 := by
  obtain ⟨h1, h2⟩ := fit_predict_value np horizon hi hc y X
  obtain ⟨h3, h4⟩ := fit_predict_value np horizon hi' hc' y X
  exact ⟨h1.trans h3.symm, fun q X' fh => (h2 q X' fh).trans (h4 q X' fh).symm⟩

/-- **C65**, the key: a forecaster without `rng_key` behaves as one with `PRNGKey(24)`, in inference
and in prediction. -/
theorem C65_default_key (np : Numpyro κ G (ModelArgs D K) K Θ P (Draws K))
    (horizon : List τ → H → List τ) {w w' : World S τ D K F κ G Θ P} {i i' : Nat}
    {fc fc' : Fc S τ D K κ G Θ P} (hi : w.fcs[i]? = some fc) (hi' : w'.fcs[i']? = some fc')
    {c : Contents S τ D K F κ G} (hc : Resolves w.heap w.feats fc.cfg c) (hn : c.rngKey = none)
    (hc' : Resolves w'.heap w'.feats fc'.cfg { c with rngKey := some (np.prngKey 24) })
    (y : Frame String τ K) (X : Option (Frame String τ K)) :
    (w.fit np i y X).1 = (w'.fit np i' y X).1 ∧
      ∀ q X' fh, ((w.fit np i y X).2.predict np horizon i q X' fh).1
        = ((w'.fit np i' y X).2.predict np horizon i' q X' fh).1 := by
  obtain ⟨h1, h2⟩ := fit_predict_value np horizon hi hc y X
  obtain ⟨h3, h4⟩ := fit_predict_value np horizon hi' hc' y X
  have hinf : ∀ a, valInfer np c a = valInfer np { c with rngKey := some (np.prngKey 24) } a := by
    intro a
    unfold valInfer
    rw [hn]
    rfl
  have hprep : valPrepare { c with rngKey := some (np.prngKey 24) } y X = valPrepare c y X := rfl
  have hfit : valFit np c y X = valFit np { c with rngKey := some (np.prngKey 24) } y X := by
    unfold valFit
    rw [hprep]
    simp only [hinf]
  refine ⟨by rw [h1, h3, hfit], fun q X' fh => ?_⟩
  rw [h2, h4]
  unfold valPredict
  rw [hprep, hfit]
  simp only [hinf]

/-- Two versions of numpyro that behave alike with the key `k`. -/
structure AgreeAt (np np' : Numpyro κ G (ModelArgs D K) K Θ P (Draws K)) (k : κ) : Prop where
  svi : np.svi k = np'.svi k
  samplePosterior : np.samplePosterior k = np'.samplePosterior k
  nuts : np.nuts k = np'.nuts k
  predictiveGuide : np.predictiveGuide k = np'.predictiveGuide k
  predictiveSamples : np.predictiveSamples k = np'.predictiveSamples k

/-- **C65**, the key: inference and prediction use the key of the user, or `PRNGKey(24)`, and no
other.  (What numpyro would do with another key does not matter.) -/
theorem C65_only_key (np np' : Numpyro κ G (ModelArgs D K) K Θ P (Draws K))
    (horizon : List τ → H → List τ) {w : World S τ D K F κ G Θ P} {i : Nat}
    {fc : Fc S τ D K κ G Θ P} (hi : w.fcs[i]? = some fc)
    {c : Contents S τ D K F κ G} (hc : Resolves w.heap w.feats fc.cfg c) {k : κ}
    (hk : c.rngKey = some k ∨ c.rngKey = none ∧ np.prngKey 24 = k ∧ np'.prngKey 24 = k)
    (hag : AgreeAt np np' k) (y : Frame String τ K) (X : Option (Frame String τ K)) :
    (w.fit np i y X).1 = (w.fit np' i y X).1 ∧
      ∀ q X' fh, ((w.fit np i y X).2.predict np horizon i q X' fh).1
        = ((w.fit np' i y X).2.predict np' horizon i q X' fh).1 := by
  obtain ⟨h1, h2⟩ := fit_predict_value np horizon hi hc y X
  obtain ⟨h3, h4⟩ := fit_predict_value np' horizon hi hc y X
  have hk1 : c.rngKey.getD (np.prngKey 24) = k := by
    rcases hk with h | ⟨h, h', -⟩ <;> rw [h]
    · rfl
    · exact h'
  have hk2 : c.rngKey.getD (np'.prngKey 24) = k := by
    rcases hk with h | ⟨h, -, h'⟩ <;> rw [h]
    · rfl
    · exact h'
  have hinf : ∀ a, valInfer np c a = valInfer np' c a ∧
      ∀ eng, (valInfer np' c a).2 = some eng → eng.rngKey = k := by
    intro a
    unfold valInfer
    rw [hk1, hk2]
    cases selectEngine c.method with
    | error e => exact ⟨rfl, fun eng h => by cases h⟩
    | ok kind =>
      cases kind with
      | map =>
        simp only [Engine.infer, Engine.new, Engine.inferMap, Option.getD_some, hag.svi,
          hag.samplePosterior]
        refine ⟨trivial, fun eng h => ?_⟩
        cases hs : np'.svi k c.settings a with
        | error e => rw [hs] at h; cases h; rfl
        | ok r =>
          rw [hs] at h
          simp only at h
          cases hr : raiseIfNanLoss r with
          | error e => rw [hr] at h; cases h; rfl
          | ok u =>
            rw [hr] at h
            simp only at h
            cases hp : np'.samplePosterior k c.settings r.params a with
            | error e => rw [hp] at h; cases h; rfl
            | ok p => rw [hp] at h; cases h; rfl
      | mcmc =>
        simp only [Engine.infer, Engine.new, Engine.inferMcmc, Option.getD_some, hag.nuts]
        refine ⟨trivial, fun eng h => ?_⟩
        cases hs : np'.nuts k c.settings a with
        | error e => rw [hs] at h; cases h; rfl
        | ok r => rw [hs] at h; cases h; rfl
  have hfit : valFit np c y X = valFit np' c y X := by
    unfold valFit
    cases valPrepare c y X with
    | error e => rfl
    | ok v => simp only [(hinf _).1]
  refine ⟨by rw [h1, h3, hfit], fun q X' fh => ?_⟩
  rw [h2, h4]
  unfold valPredict
  rw [hfit]
  split
  · rfl
  · cases valPrepare c y X with
    | error e => rfl
    | ok v =>
      obtain ⟨e1, e2⟩ := hinf v.fitArgs
      simp only [e1]
      cases he : (valInfer np' c v.fitArgs).2 with
      | none => rfl
      | some eng =>
        have hd : ∀ a, eng.draws np a = eng.draws np' a := by
          intro a
          unfold Engine.draws
          rw [e2 eng he, hag.predictiveGuide, hag.predictiveSamples]
        simp only [hd]

/-- **C64.** After any history, `fit(y, X)` has the outcome, and the predictions after it are, as for
a forecaster freshly constructed with the same arguments before that history. -/
theorem C64_refit (np : Numpyro κ G (ModelArgs D K) K Θ P (Draws K))
    (horizon : List τ → H → List τ) (w : World S τ D K F κ G Θ P)
    (ops : List (Op S τ D K κ G H)) {i : Nat} {fc : Fc S τ D K κ G Θ P}
    (hi : (w.run np horizon ops).fcs[i]? = some fc) {c : Contents S τ D K F κ G}
    (hc : HasContents w.heap w.feats fc.cfg c) (y : Frame String τ K)
    (X : Option (Frame String τ K)) :
    let old := w.run np horizon ops
    let fresh := w.step np horizon (.new fc.cfg)
    (old.fit np i y X).1 = (fresh.fit np w.fcs.length y X).1 ∧
      ∀ q X' fh, ((old.fit np i y X).2.predict np horizon i q X' fh).1
        = ((fresh.fit np w.fcs.length y X).2.predict np horizon w.fcs.length q X' fh).1 := by
  refine C65_reproducible np horizon (c := c) (w' := w.step np horizon (.new fc.cfg)) hi
    (fc' := ⟨fc.cfg, none, none, none, false⟩) ?_ (hc.run np horizon ops).resolves hc.resolves y X
  simp [World.step]

end

/-! ## A concrete world -/

/-- Parameters of a piecewise linear trend with a changepoint at every time. -/
def exPiecewise : PiecewiseParams ℚ ℤ := ⟨.scalar 1, .scalar (9 / 10), .scalar 1, true, none⟩

abbrev ExState := Option (PiecewiseState ℚ ℤ)

def exTrendObj : Obj ExState ℤ (Tensor ℚ) ℚ :=
  (piecewiseClass (fun n : ℤ => (n : ℚ)) suggestLinear piecewisePredict exPiecewise).new

def exLinearObj : Obj ExState ℤ (Tensor ℚ) ℚ := (linearClass "additive").new

/-- Subtract the first value of `x` seen in `fit`. -/
def exCenter : FeatureObj ℚ ℤ ℚ :=
  { fitTransform := fun _ x =>
      let m := (x.rows.head?.map fun r => r.val "x").getD 0
      (.ok (x.mapVals fun _ v => v - m), m)
    transform := fun m x => .ok (x.mapVals fun _ v => v - m)
    st := 0 }

/-- Values of the sites, for one series and for two. -/
def exSiteValues (kw : ModelKwargs ℚ) : SiteEnv ℚ := fun s =>
  match kw with
  | .univariate _ =>
    if s = "offset" then ⟨[1], [10]⟩
    else if s = "changepoint_coefficients" then ⟨[3], [1, 2, 3]⟩
    else ⟨[1], [1]⟩
  | .hierarchical _ =>
    if s = "offset" then ⟨[2], [10, 20]⟩
    else if s = "changepoint_coefficients" then ⟨[2], [1, 2]⟩
    else ⟨[1], [1]⟩

/-- A numpyro that always arrives at the same parameters and draws the mean. -/
def exNumpyro : Numpyro Nat Unit (ModelArgs (Tensor ℚ) ℚ) ℚ Unit Unit (Draws ℚ) :=
  { prngKey := id
    svi := fun _ _ _ => .ok ⟨(), [some 1, some 0]⟩
    samplePosterior := fun _ _ _ _ => .ok ()
    nuts := fun _ _ _ => .ok ()
    predictiveGuide := fun _ _ _ a => do
      let m ← computeMean a.trend a.trendData a.data a.effects (exSiteValues a.kwargs)
      pure [("obs", ⟨1 :: m.mean.shape, m.mean.data⟩)]
    predictiveSamples := fun _ _ _ _ => .error .attributeError }

/-- A numpyro that fails with any key but 24 agrees with the other one at that key. -/
example : AgreeAt exNumpyro { exNumpyro with
    svi := fun k => if k = 24 then exNumpyro.svi k else fun _ _ => .error .valueError } 24 :=
  ⟨rfl, rfl, rfl, rfl, rfl⟩

def exConfigW (trend : TrendSrc (Obj ExState ℤ (Tensor ℚ) ℚ)) (features : Option Nat) :
    FcConfig ExState ℤ (Tensor ℚ) ℚ Nat Unit :=
  { compile := fun _ => .ok fun _ => false, trend := trend, effects := [], default := none,
    linear := exLinearObj, features := features, hier := none, discrete := false, scale := none,
    rngKey := none, method := "map", settings := () }

/-- The user's objects: one trend, one transformer. -/
def exWorld : World ExState ℤ (Tensor ℚ) ℚ ℚ Nat Unit Unit Unit :=
  { heap := [exTrendObj], feats := [exCenter], fcs := [], samples := none }

def exTarget (times : List ℤ) : Frame String ℤ ℚ :=
  ⟨1, ["y"], times.zipIdx.map fun p => ⟨[], p.1, fun _ => (p.2 : ℚ) + 1⟩⟩

def exRegressor (times : List ℤ) (v : ℤ → ℚ) : Frame String ℤ ℚ :=
  ⟨1, ["x"], times.map fun t => ⟨[], t, fun _ => v t⟩⟩

/-- Horizons are lists of times. -/
def exHorizon : List ℤ → List ℤ → List ℤ := fun _ fh => fh

/-- The samples as a table. -/
def exTable (r : PyM (Answer ℤ ℚ)) : Option (List (ℤ × ℚ)) :=
  match r with
  | .ok (.samples f) => some (f.rows.map fun r => (r.time, r.val 0))
  | _ => none

abbrev ExOp := Op ExState ℤ (Tensor ℚ) ℚ Nat Unit (List ℤ)

/-- Two forecasters are made, the first is fitted. -/
def exBefore (trend : TrendSrc (Obj ExState ℤ (Tensor ℚ) ℚ)) (features : Option Nat) :
    List ExOp :=
  [.new (exConfigW trend features), .new (exConfigW trend features),
   .fit 0 (exTarget [0, 1, 2, 3]) (some (exRegressor [0, 1, 2, 3] fun t => t))]

/-- The second is fitted on other data. -/
def exAfter : List ExOp :=
  [.fit 1 (exTarget [10, 12, 14, 16]) (some (exRegressor [10, 12, 14, 16] fun t => t))]

/-- The first predicts. -/
def exPredict (ops : List ExOp) : Option (List (ℤ × ℚ)) :=
  exTable ((exWorld.run exNumpyro exHorizon ops).predict exNumpyro exHorizon 0 .samples
    (some (exRegressor [4] fun t => t)) [4]).1

/-- **C26 is false for a shared trend object.**  Two forecasters are given the same
`PiecewiseLinearTrend` object; the first is fitted; fitting the second on other data changes what the
first predicts for time 4 from 144 to 60. -/
theorem C26_trend_refuted :
    exPredict (exBefore (.object 0) none) = some [(4, 144)] ∧
      exPredict (exBefore (.object 0) none ++ exAfter) = some [(4, 60)] := by
  decide +kernel

/-- **C26 is false for a shared feature transformer**, even with separate trends. -/
theorem C26_transformer_refuted :
    exPredict (exBefore (.named exTrendObj) (some 0)) = some [(4, 144)] ∧
      exPredict (exBefore (.named exTrendObj) (some 0) ++ exAfter) = some [(4, 104)] := by
  decide +kernel

/-! ## Non-vacuity -/

/-- Without shared objects `C26_no_sharing_partial` applies to the same history. -/
example : exPredict (exBefore (.named exTrendObj) none ++ exAfter)
    = exPredict (exBefore (.named exTrendObj) none) ∧
    exPredict (exBefore (.named exTrendObj) none) = some [(4, 144)] := by
  refine ⟨?_, by decide +kernel⟩
  unfold exPredict
  congr 1
  cases hi : (exWorld.run exNumpyro exHorizon (exBefore (.named exTrendObj) none)).fcs[0]? with
  | none =>
    have : ((exWorld.run exNumpyro exHorizon (exBefore (.named exTrendObj) none)).fcs[0]?).isSome
        = true := by decide +kernel
    rw [hi] at this
    cases this
  | some fc =>
    refine C26_no_sharing_partial exNumpyro exHorizon rfl _ _ ?_ hi ?_ ?_ _ _ _
    · intro cfg r h ht
      simp only [exBefore, exAfter, List.cons_append, List.nil_append, List.mem_cons,
        Op.new.injEq, reduceCtorEq, or_false, List.not_mem_nil] at h
      rcases h with h | h <;> · rw [h] at ht; cases ht
    · intro op hop
      simp only [exAfter, List.mem_singleton] at hop
      rw [hop]
      simp [Op.target]
    · intro j cfg _ hj
      have hm := List.mem_of_getElem? hj
      simp only [newConfigs, exBefore, exAfter, List.cons_append, List.nil_append,
        List.filterMap_cons, List.filterMap_nil, List.mem_cons, List.not_mem_nil, or_false,
        or_self] at hm
      rw [hm]
      exact ⟨fun r h => (by cases h), fun r h => (by cases h)⟩

/-- The user's effect object (here the trend, not used as a trend by these forecasters) is
untouched. -/
example : (exWorld.run exNumpyro exHorizon (exBefore (.named exTrendObj) none ++ exAfter)).heap[0]?
    = some exTrendObj := by
  rw [C25_effects_untouched exNumpyro exHorizon _ (by decide) (by simp [exWorld]) ?_]
  · rfl
  · intro cfg h
    simp only [exBefore, exAfter, List.cons_append, List.nil_append, List.mem_cons,
      Op.new.injEq, reduceCtorEq, or_false, List.not_mem_nil] at h
    rcases h with h | h <;> · rw [h]; exact fun h => by cases h

/-- Contents of a configuration. -/
def exContents (features : Option (FeatureObj ℚ ℤ ℚ)) :
    Contents ExState ℤ (Tensor ℚ) ℚ ℚ Nat Unit :=
  { compile := fun _ => .ok fun _ => false, trend := exTrendObj, effects := [],
    default := exLinearObj, features := features, hier := none, discrete := false, scale := none,
    rngKey := none, method := "map", settings := () }

/-- The hypotheses of `C64_refit` hold with a user's trend object and transformer. -/
example : HasContents exWorld.heap exWorld.feats (exConfigW (.object 0) (some 0))
    (exContents (some exCenter)) :=
  ⟨rfl, ⟨exTrendObj, rfl, rfl, fun _ _ _ _ _ => rfl⟩, .nil, rfl,
    ⟨0, rfl, fun _ _ _ => rfl⟩, rfl, rfl, rfl, rfl, rfl, rfl⟩

/-- Refitting the first forecaster after a history with shared objects. -/
example : exPredict (exBefore (.object 0) (some 0) ++ exAfter ++
      [.fit 0 (exTarget [0, 1, 2, 3]) (some (exRegressor [0, 1, 2, 3] fun t => t))])
    = some [(4, 144)] := by
  decide +kernel

/-! A world with a univariate and a hierarchical forecaster. -/

def exHierOpts : HierOpts ℤ ℚ :=
  { order := id, keep := fun _ => true, shared := ["x"], levels := fun _ => [["a", "b"]] }

def exConfigH (trend : TrendSrc (Obj ExState ℤ (Tensor ℚ) ℚ)) :
    FcConfig ExState ℤ (Tensor ℚ) ℚ Nat Unit :=
  { exConfigW trend none with hier := some exHierOpts }

def exPanelW (u v : ℚ) : Frame String ℤ ℚ :=
  ⟨2, ["y"], [⟨["a"], 0, fun _ => 1⟩, ⟨["a"], 1, fun _ => u⟩, ⟨["b"], 0, fun _ => 4⟩,
    ⟨["b"], 1, fun _ => v⟩]⟩

def exMixed (trend : TrendSrc (Obj ExState ℤ (Tensor ℚ) ℚ)) : List ExOp :=
  [.new (exConfigW trend none), .new (exConfigH trend),
   .fit 0 (exTarget [0, 1, 2, 3]) none]

def exMixedAfter : List ExOp := [.fit 1 (exPanelW 3 5) none]

/-- The second, hierarchical, forecaster predicts all series. -/
def exPredictH (ops : List ExOp) : Option (List (List String × ℤ × ℚ)) :=
  match ((exWorld.run exNumpyro exHorizon ops).predict exNumpyro exHorizon 1 .samples none [4]).1 with
  | .ok (.samples f) => some (f.rows.map fun r => (r.sid, r.time, r.val 0))
  | _ => none

/-- **C26 is false across kinds of forecasters**: after a hierarchical forecaster that was given the
same trend object is fitted, the univariate forecaster no longer predicts at all. -/
theorem C26_mixed_refuted :
    exPredict (exMixed (.object 0)) = some [(4, 128)] ∧
      exPredict (exMixed (.object 0) ++ exMixedAfter) = none := by
  decide +kernel

/-- With separate trend objects both keep their forecasts. -/
example : exPredict (exMixed (.named exTrendObj) ++ exMixedAfter) = some [(4, 128)] ∧
    exPredictH (exMixed (.named exTrendObj) ++ exMixedAfter)
      = some [(["__total"], 4, 195), (["a"], 4, 45), (["b"], 4, 150)] ∧
    exPredictH (exMixed (.named exTrendObj) ++ exMixedAfter ++ [.fit 0 (exTarget [7, 8, 9]) none])
      = some [(["__total"], 4, 195), (["a"], 4, 45), (["b"], 4, 150)] := by
  decide +kernel

/-- The hypotheses of `C64_refit` hold for the hierarchical forecaster with a user's trend
object. -/
example : HasContents exWorld.heap exWorld.feats (exConfigH (.object 0))
    { exContents none with hier := some exHierOpts } :=
  ⟨rfl, ⟨exTrendObj, rfl, rfl, fun _ _ _ _ _ => rfl⟩, .nil, rfl, trivial, rfl, rfl, rfl, rfl, rfl,
    rfl⟩

/-- Refitting the hierarchical forecaster after a history with a shared trend object. -/
example : exPredictH (exMixed (.object 0) ++ [.fit 1 (exPanelW 8 9) none,
      .fit 0 (exTarget [7, 8, 9]) none] ++ exMixedAfter)
    = exPredictH (exMixed (.named exTrendObj) ++ exMixedAfter) := by
  decide +kernel

end PV
