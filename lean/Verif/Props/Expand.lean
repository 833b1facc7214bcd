import Mathlib.Algebra.BigOperators.Group.List.Basic
import Verif.Lemmas.Expand
import Verif.Props.Regex

/-!
# C48, C49, C50, C51: per-level expansion of columns
-/

namespace PV
variable {τ V : Type}

/-! ## C50: generated names -/

/-- The pairs (feature, series) get different columns. -/
def DistinctNames (features : List String) (series : List (List String)) : Prop :=
  ∀ c ∈ features, ∀ c' ∈ features, ∀ s ∈ series, ∀ s' ∈ series,
    colName c s = colName c' s' → c = c' ∧ s = s'

theorem append_cons_inj {α : Type} {x : α} : ∀ {a a' b b' : List α}, x ∉ a → x ∉ a' →
    a ++ x :: b = a' ++ x :: b' → a = a' ∧ b = b'
  | [], [], _, _, _, _, h => by simpa using h
  | [], y :: a', _, _, _, h2, h => by
    simp only [List.nil_append, List.cons_append, List.cons.injEq] at h
    exact absurd (List.mem_cons.2 (Or.inl h.1)) h2
  | y :: a, [], _, _, h1, _, h => by
    simp only [List.nil_append, List.cons_append, List.cons.injEq] at h
    exact absurd (List.mem_cons.2 (Or.inl h.1.symm)) h1
  | y :: a, y' :: a', _, _, h1, h2, h => by
    simp only [List.cons_append, List.cons.injEq] at h
    obtain ⟨e1, e2⟩ := append_cons_inj (fun hx => h1 (List.mem_cons_of_mem _ hx))
      (fun hx => h2 (List.mem_cons_of_mem _ hx)) h.2
    exact ⟨by rw [h.1, e1], e2⟩

/-- No label of the tuple but the last contains the separator. -/
def NoDash (s : List String) : Prop := ∀ l ∈ s.dropLast, '-' ∉ l.toList

instance (s : List String) : Decidable (NoDash s) := by unfold NoDash; infer_instance

theorem pyJoin_inj : ∀ {s s' : List String}, s.length = s'.length → NoDash s → NoDash s' →
    (pyJoin "-" s).toList = (pyJoin "-" s').toList → s = s'
  | [], [], _, _, _, _ => rfl
  | [], _ :: _, h, _, _, _ => by simp at h
  | _ :: _, [], h, _, _, _ => by simp at h
  | [a], [b], _, _, _, h => by
    rw [String.toList_inj.1 (show a.toList = b.toList from h)]
  | [_], _ :: _ :: _, h, _, _, _ => by simp at h
  | _ :: _ :: _, [_], h, _, _, _ => by simp at h
  | a :: a2 :: s, b :: b2 :: s', h, h1, h2, he => by
    simp only [pyJoin, String.toList_append, List.append_assoc] at he
    have hd : ("-" : String).toList = ['-'] := rfl
    rw [hd, List.singleton_append, List.singleton_append] at he
    obtain ⟨e1, e2⟩ := append_cons_inj (h1 a (by simp [List.dropLast])) (h2 b (by simp [List.dropLast])) he
    rw [String.toList_inj.1 e1, pyJoin_inj (s := a2 :: s) (s' := b2 :: s') (by simpa using h)
      (fun l hl => h1 l (by simp [List.dropLast, hl])) (fun l hl => h2 l (by simp [List.dropLast, hl])) e2]

/-- **C50** for one feature: two series of a panel get different columns if no label but the last
contains `-` (in particular always if series have one label).
Missing from C50: labels with `-` and different features, for which it is false
(`C50_dash_refuted`, `C50_feature_refuted`). -/
theorem C50_series_partial {c : String} {s s' : List String} (hl : s.length = s'.length)
    (hs : NoDash s) (hs' : NoDash s') (h : colName c s = colName c s') : s = s' := by
  unfold colName at h
  have := String.toList_inj.2 h
  simp only [String.toList_append, List.append_assoc, List.append_cancel_left_eq] at this
  exact pyJoin_inj hl hs hs' this

theorem toList_pyJoin_notMem {ch : Char} (hch : ch ≠ '-') : ∀ {s : List String},
    (∀ l ∈ s, ch ∉ l.toList) → ch ∉ (pyJoin "-" s).toList
  | [], _ => by simp [pyJoin]
  | [a], h => by simpa [pyJoin] using h
  | a :: b :: s, h => by
    have ih := toList_pyJoin_notMem hch (s := b :: s) fun l hl => h l (by simp [hl])
    simp only [pyJoin, String.toList_append, List.mem_append, not_or]
    exact ⟨⟨h a (by simp), by simpa using hch⟩, ih⟩

/-- **C50** for all features: pairs (feature, series) get different columns if moreover no label
contains `_` — the feature names are arbitrary. -/
theorem C50_pairs_partial {c c' : String} {s s' : List String} (hl : s.length = s'.length)
    (hs : NoDash s) (hs' : NoDash s') (hu : ∀ l ∈ s, '_' ∉ l.toList)
    (hu' : ∀ l ∈ s', '_' ∉ l.toList) (h : colName c s = colName c' s') : c = c' ∧ s = s' := by
  have h0 := h
  unfold colName at h
  have := congrArg List.reverse (String.toList_inj.2 h)
  simp only [String.toList_append] at this
  have hd : ("_dup_" : String).toList = ['_', 'd', 'u', 'p', '_'] := rfl
  simp only [hd, List.reverse_append, List.reverse_cons, List.reverse_nil, List.nil_append,
    List.cons_append, List.append_assoc] at this
  have hn : '_' ∉ ((pyJoin "-" s).toList).reverse := by
    rw [List.mem_reverse]; exact toList_pyJoin_notMem (by decide) hu
  have hn' : '_' ∉ ((pyJoin "-" s').toList).reverse := by
    rw [List.mem_reverse]; exact toList_pyJoin_notMem (by decide) hu'
  obtain ⟨e1, e2⟩ := append_cons_inj hn hn' this
  refine ⟨?_, pyJoin_inj hl hs hs' (List.reverse_injective e1)⟩
  simp only [List.cons.injEq, true_and] at e2
  exact String.toList_inj.1 (List.reverse_injective e2)

/-- **C50** is false: two series of a panel share a column when labels contain the separator. -/
theorem C50_dash_refuted : ∃ (c : String) (s s' : List String), s ≠ s' ∧ s.length = s'.length ∧
    colName c s = colName c s' :=
  ⟨"price", ["north-a", "b"], ["north", "a-b"], by decide, by decide, by decide⟩

/-- **C50** is false: different features of different series share a column, even with one label
per series. -/
theorem C50_feature_refuted : ∃ (c c' s s' : String), c ≠ c' ∧ s ≠ s' ∧
    colName c [s] = colName c' [s'] :=
  ⟨"price", "price_dup_a", "a_dup_b", "b", by decide, by decide, by decide⟩

/-! ## C48: the expanded frame -/

theorem sum_ite_series [AddCommMonoid V] {v : V} {s : List String} : ∀ {l : List (List String)},
    l.Nodup → s ∈ l → (l.map fun t => if s = t then v else 0).sum = v
  | [], _, h => by simp at h
  | t :: l, hn, h => by
    rw [List.map_cons, List.sum_cons]
    obtain ⟨hnt, hn⟩ := List.nodup_cons.1 hn
    by_cases hst : s = t
    · have : (l.map fun t => if s = t then v else 0).sum = 0 := by
        apply List.sum_eq_zero
        intro x hx
        obtain ⟨u, hu, rfl⟩ := List.mem_map.1 hx
        rw [if_neg]
        rintro rfl
        exact hnt (hst ▸ hu)
      rw [if_pos hst, this, add_zero]
    · rw [if_neg hst, zero_add]
      exact sum_ite_series hn ((List.mem_cons.1 h).resolve_left hst)

/-- What the expanded frame `g` of `x` must be, for the expanded `features`. -/
structure Expanded [AddCommMonoid V] (features : List String) (x g : Frame String τ V) : Prop where
  levels : g.nlevels = x.nlevels
  /-- the columns are the other columns in their order, and then one per feature and series -/
  columns : ∀ n, n ∈ g.cols ↔ (n ∈ x.cols ∧ n ∉ features) ∨
    ∃ c ∈ features, ∃ s ∈ x.series, n = colName c s
  others : (x.cols.filter (· ∉ features)) <+: g.cols
  index : g.index = x.index
  /-- row by row -/
  rows : List.Forall₂ (fun r r' : Row String τ V =>
    (∀ n ∈ x.cols, n ∉ features → r'.val n = r.val n) ∧
    (∀ c ∈ features, r'.val (colName c r.sid) = r.val c) ∧
    (∀ c ∈ features, ∀ s ∈ x.series, s ≠ r.sid → r'.val (colName c s) = 0) ∧
    (∀ c ∈ features, (x.series.map fun s => r'.val (colName c s)).sum = r.val c)) x.rows g.rows

/-- **C48**: if the generated names are distinct and new, the column of feature `f` and series
`i` is `f` on the rows of series `i` and 0 elsewhere, the expanded columns of `f` sum to `f`, the
other columns and the rows are unchanged and the original `f` is gone. -/
theorem C48_expansion [AddCommMonoid V] {st : ExpandState} {x g : Frame String τ V}
    (hs : st.skip = false) (h : expandTransform st x = .ok g)
    (hd : DistinctNames st.matched x.series)
    (hnew : ∀ c ∈ st.matched, ∀ s ∈ x.series, colName c s ∉ x.cols)
    (hm : ∀ c ∈ st.matched, c ∈ x.cols) : Expanded st.matched x g := by
  obtain ⟨-, h1, h2, h3, v, hrows, hv⟩ := expandTransform_ok hs h
  refine ⟨h1, ?_, h3, ?_, ?_⟩
  · intro n
    rw [h2]
    constructor
    · rintro ⟨hn, h | h⟩
      · exact Or.inl ⟨h, hn⟩
      · exact Or.inr h
    · rintro (⟨h, hn⟩ | ⟨c, hc, s, hs', rfl⟩)
      · exact ⟨hn, Or.inl h⟩
      · exact ⟨fun hx => hnew c hc s hs' (hm _ hx), Or.inr ⟨c, hc, s, hs', rfl⟩⟩
  · unfold Frame.index
    rw [hrows, List.map_map]
    rfl
  · rw [hrows, List.forall₂_map_right_iff, List.forall₂_same]
    intro r hr
    have hrs : r.sid ∈ x.series := mem_unique.2 (List.mem_map.2 ⟨r, hr, rfl⟩)
    have hown : ∀ c ∈ st.matched, v r (colName c r.sid) = r.val c :=
      fun c hc => (hv r hr _).1 c hc rfl
    have hother : ∀ c ∈ st.matched, ∀ s ∈ x.series, s ≠ r.sid → v r (colName c s) = 0 := by
      intro c hc s hs' hne
      refine (hv r hr _).2.1 ?_ ⟨c, hc, s, hs', rfl⟩
      intro c' hc' he
      exact hne (hd c hc c' hc' s hs' _ hrs he).2
    refine ⟨?_, hown, hother, ?_⟩
    · intro n hn _
      refine (hv r hr n).2.2 ?_
      rintro c hc s hs' rfl
      exact hnew c hc s hs' hn
    · intro c hc
      have : (x.series.map fun s => v r (colName c s))
          = x.series.map fun s => if r.sid = s then r.val c else 0 := by
        apply List.map_congr_left
        intro s hs'
        by_cases he : r.sid = s
        · rw [if_pos he, ← he, hown c hc]
        · rw [if_neg he, hother c hc s hs' (Ne.symm he)]
      rw [this]
      exact sum_ite_series (nodup_unique _) hrs

theorem compileAll_ok {compile : String → PyM (String → Bool)} {ps : List String}
    {ms : List (String → Bool)} (h : compileAll compile ps = .ok ms) (c : String) :
    (ms.any fun m => m c) = true ↔ ∃ p ∈ ps, ∃ m, compile p = .ok m ∧ m c = true := by
  induction ps generalizing ms with
  | nil => cases h; simp
  | cons p ps ih =>
    simp only [compileAll, bind, Except.bind] at h
    cases h1 : compile p with
    | error e => rw [h1] at h; cases h
    | ok m =>
      rw [h1] at h
      simp only at h
      cases h2 : compileAll compile ps with
      | error e => rw [h2] at h; cases h
      | ok ms' =>
        rw [h2] at h
        cases h
        rw [List.any_cons, Bool.or_eq_true, ih h2]
        simp only [List.mem_cons, exists_eq_or_imp, h1, Except.ok.injEq, exists_eq_left']

theorem expandFit_ok {compile : String → PyM (String → Bool)} {order : List String → List String}
    (ho : ∀ l, (order l).Perm l) {ps : List String} {x : Frame String τ V} {st : ExpandState}
    (h : expandFit compile order ps x = .ok st) :
    st.skip = (x.nlevels == 1) ∧ ∀ c, c ∈ st.matched ↔ c ∈ x.cols ∧
      ∃ p ∈ ps, ∃ m, compile p = .ok m ∧ m c = true := by
  unfold expandFit at h
  cases h1 : compileAll compile ps with
  | error e => rw [h1] at h; cases h
  | ok ms =>
    rw [h1] at h
    cases h
    refine ⟨rfl, fun c => ?_⟩
    rw [(ho _).mem_iff, List.mem_filter, compileAll_ok h1]

/-- **C48** for a fit and a transform of the same panel: with label tuples free of `-` and `_`
the generated names are distinct, so that the frame is expanded as described as soon as no column
already has a generated name. -/
theorem C48_fit_transform [AddCommMonoid V] {compile : String → PyM (String → Bool)}
    {order : List String → List String} (ho : ∀ l, (order l).Perm l) {ps : List String}
    {x g : Frame String τ V} {st : ExpandState} (hwf : x.WF) (hlev : x.nlevels ≠ 1)
    (hlabels : ∀ s ∈ x.series, ∀ l ∈ s, '-' ∉ l.toList ∧ '_' ∉ l.toList)
    (hnew : ∀ c ∈ x.cols, ∀ s ∈ x.series, colName c s ∉ x.cols)
    (hf : expandFit compile order ps x = .ok st) (h : expandTransform st x = .ok g) :
    ∃ features, (∀ c, c ∈ features ↔ c ∈ x.cols ∧ ∃ p ∈ ps, ∃ m, compile p = .ok m ∧ m c = true) ∧
      Expanded features x g := by
  obtain ⟨hs, hm⟩ := expandFit_ok ho hf
  have hlen : ∀ s ∈ x.series, s.length + 1 = x.nlevels := by
    intro s hs'
    obtain ⟨r, hr, rfl⟩ := List.mem_map.1 (mem_unique.1 hs')
    exact hwf r hr
  refine ⟨st.matched, hm, C48_expansion (by rw [hs]; simpa using hlev) h ?_ ?_ ?_⟩
  · intro c _ c' _ s hs1 s' hs2 he
    refine C50_pairs_partial ?_ (fun l hl => (hlabels s hs1 l (List.dropLast_subset _ hl)).1)
      (fun l hl => (hlabels s' hs2 l (List.dropLast_subset _ hl)).1)
      (fun l hl => (hlabels s hs1 l hl).2) (fun l hl => (hlabels s' hs2 l hl).2) he
    have := hlen s hs1
    have := hlen s' hs2
    omega
  · exact fun c hc s hs' => hnew c ((hm c).1 hc).1 s hs'
  · exact fun c hc => ((hm c).1 hc).1

/-- **C48**: a frame with a time index only is not changed. -/
theorem C48_flat_unchanged [Zero V] {compile : String → PyM (String → Bool)}
    {order : List String → List String} (ho : ∀ l, (order l).Perm l) {ps : List String}
    {x x' : Frame String τ V} {st : ExpandState} (hlev : x.nlevels = 1)
    (hf : expandFit compile order ps x = .ok st) : expandTransform st x' = .ok x' := by
  obtain ⟨hs, -⟩ := expandFit_ok ho hf
  unfold expandTransform
  rw [hs]
  simp [hlev]

/-! ## C49: shared features -/

theorem compile_plain {p : String} (hp : Plain p) :
    ∃ m, reCompile p = some (.ok m) ∧ ∀ t, m t = true ↔ p.toList <+: t.toList := by
  have hparse : parseRe p = .ok (seqOf (p.toList.map fun c => (Re.chr c, true)).reverse) := by
    unfold parseRe
    have := parseGo_literals (stack := []) [] p.toList PFrame.new hp
    rw [List.append_nil] at this
    rw [this, parseGo.eq_def]
    simp [PFrame.close, PFrame.new]
  refine ⟨reMatch _, by unfold reCompile; rw [hparse], ?_⟩
  intro t
  rw [reMatch_iff]
  simp only [seqOf_literals, List.drop_zero]
  constructor
  · rintro ⟨j, -, h⟩; exact h
  · intro h; exact ⟨_, rfl, h⟩

theorem mem_nonShared {cols shared : List String} {c : String} :
    c ∈ nonShared cols shared ↔ c ∈ cols ∧ c ∉ shared := by
  unfold nonShared
  rw [(List.perm_insertionSort _ _).mem_iff, mem_unique, List.mem_filter]
  simp

/-- **C49** for column names without special characters such that no column outside
`shared_features` is a prefix of one inside: exactly the columns outside are expanded.
Missing from C49: other names, for which it is false (`C49_prefix_refuted`,
`C49_special_refuted`). -/
theorem C49_shared_partial {compile : String → PyM (String → Bool)}
    (hcomp : ∀ p c, reCompile p = some c → compile p = c)
    {order : List String → List String} (ho : ∀ l, (order l).Perm l) {shared : List String}
    {x : Frame String τ V} (hplain : ∀ c ∈ x.cols, c ∉ shared → Plain c)
    (hpre : ∀ c ∈ x.cols, c ∉ shared → ∀ d ∈ x.cols, d ∈ shared → ¬ c.toList <+: d.toList) :
    ∃ st, expandFit compile order (nonShared x.cols shared) x = .ok st ∧
      ∀ c, c ∈ st.matched ↔ c ∈ x.cols ∧ c ∉ shared := by
  have hall : ∀ ps : List String, (∀ p ∈ ps, p ∈ nonShared x.cols shared) →
      ∃ ms, compileAll compile ps = .ok ms := by
    intro ps
    induction ps with
    | nil => intro _; exact ⟨[], rfl⟩
    | cons p ps ih =>
      intro hps
      obtain ⟨hp1, hp2⟩ := mem_nonShared.1 (hps p (by simp))
      obtain ⟨m, hm, -⟩ := compile_plain (hplain p hp1 hp2)
      obtain ⟨ms, hms⟩ := ih fun q hq => hps q (by simp [hq])
      exact ⟨m :: ms, by simp [compileAll, hcomp p _ hm, hms, bind, Except.bind, pure, Except.pure]⟩
  obtain ⟨ms, hms⟩ := hall _ fun p hp => hp
  have hfit : expandFit compile order (nonShared x.cols shared) x
      = .ok ⟨x.nlevels == 1, order (x.cols.filter fun c => ms.any fun m => m c)⟩ := by
    unfold expandFit
    rw [hms]
    rfl
  refine ⟨_, hfit, fun c => ?_⟩
  rw [(expandFit_ok ho hfit).2 c]
  constructor
  · rintro ⟨hc, p, hp, m, hm, hmc⟩
    refine ⟨hc, fun hsh => ?_⟩
    obtain ⟨hp1, hp2⟩ := mem_nonShared.1 hp
    obtain ⟨m', hm', hmt⟩ := compile_plain (hplain p hp1 hp2)
    rw [hcomp p _ hm'] at hm
    cases hm
    exact hpre p hp1 hp2 c hc hsh ((hmt c).1 hmc)
  · rintro ⟨hc, hsh⟩
    obtain ⟨m, hm, hmt⟩ := compile_plain (hplain c hc hsh)
    exact ⟨hc, c, mem_nonShared.2 ⟨hc, hsh⟩, m, hcomp c _ hm, (hmt c).2 (List.prefix_refl _)⟩

/-- A compiler of patterns agreeing with `reCompile` where this is defined. -/
def someCompile (p : String) : PyM (String → Bool) := (reCompile p).getD (.error .reError)

/-- Two series with the columns given and all values 1. -/
def exPanel49 (cols : List String) : Frame String Nat ℤ :=
  ⟨2, cols, [⟨["a"], 0, fun _ => 1⟩, ⟨["b"], 0, fun _ => 1⟩]⟩

/-- **C49** is false: a shared feature is expanded when the name of another feature is a prefix
of its name. -/
theorem C49_prefix_refuted :
    (hierExpand someCompile id ["price_index"] (exPanel49 ["price", "price_index"])).map Frame.cols
      = .ok ["price_dup_a", "price_dup_b", "price_index_dup_a", "price_index_dup_b"] := by
  decide +kernel

/-- **C49** is false: a feature whose name has special characters is not expanded. -/
theorem C49_special_refuted :
    (hierExpand someCompile id [] (exPanel49 ["spend ($)"])).map Frame.cols
      = .ok ["spend ($)"] := by
  decide +kernel

/-- **C49** is false: a feature whose name is not a regular expression cannot be used at all. -/
theorem C49_invalid_refuted :
    (hierExpand someCompile id [] (exPanel49 ["spend (gross"])).map Frame.cols = .error .reError := by
  decide +kernel

/-- **C49**, the frame: under the hypotheses of `C49_shared_partial` and with distinct new names
every shared column stays a single, unchanged column, and every other one is replaced by one
column per series. -/
theorem C49_frame_partial [AddCommMonoid V] {compile : String → PyM (String → Bool)}
    (hcomp : ∀ p c, reCompile p = some c → compile p = c)
    {order : List String → List String} (ho : ∀ l, (order l).Perm l) {shared : List String}
    {x g : Frame String τ V} (hlev : x.nlevels ≠ 1)
    (hplain : ∀ c ∈ x.cols, c ∉ shared → Plain c)
    (hpre : ∀ c ∈ x.cols, c ∉ shared → ∀ d ∈ x.cols, d ∈ shared → ¬ c.toList <+: d.toList)
    (hd : DistinctNames x.cols x.series)
    (hnew : ∀ c ∈ x.cols, ∀ s ∈ x.series, colName c s ∉ x.cols)
    (h : hierExpand compile order shared x = .ok g) :
    ∃ features, (∀ c, c ∈ features ↔ c ∈ x.cols ∧ c ∉ shared) ∧ Expanded features x g := by
  obtain ⟨st, hf, hm⟩ := C49_shared_partial hcomp ho hplain hpre
  unfold hierExpand at h
  rw [hf] at h
  refine ⟨st.matched, hm, C48_expansion ?_ h ?_ ?_ fun c hc => ((hm c).1 hc).1⟩
  · rw [(expandFit_ok ho hf).1]; simpa using hlev
  · exact fun c hc c' hc' => hd c ((hm c).1 hc).1 c' ((hm c').1 hc').1
  · exact fun c hc => hnew c ((hm c).1 hc).1

/-! ## C51: iteration order -/

theorem foldl_cols_nodup (P : List (String × List String)) : ∀ cols : List String, cols.Nodup →
    (P.foldl (fun cs p => if colName p.1 p.2 ∈ cs then cs else cs ++ [colName p.1 p.2]) cols).Nodup := by
  induction P with
  | nil => intro cols h; exact h
  | cons p P ih =>
    intro cols h
    rw [List.foldl_cons]
    apply ih
    split
    · exact h
    · rename_i hn
      rw [List.nodup_append]
      refine ⟨h, by simp, ?_⟩
      rintro a ha b hb rfl
      exact hn (List.mem_singleton.1 hb ▸ ha)

theorem expandTransform_nodup [Zero V] {st : ExpandState} {x g : Frame String τ V}
    (hx : x.cols.Nodup) (h : expandTransform st x = .ok g) : g.cols.Nodup := by
  unfold expandTransform at h
  split at h
  · cases h; exact hx
  split at h
  · cases h
  split at h
  · cases h
  have he : x = x.withVals x.cols fun r => r.val := by unfold Frame.withVals; simp
  have hx1 := fold_setCol x (product st.matched x.series) x.cols fun r => r.val
  rw [← he] at hx1
  simp only at h
  rw [hx1, fold_setLoc] at h
  split at h
  swap
  · cases h
  cases h
  exact (foldl_cols_nodup _ _ hx).filter _

/-- When expanding fails. -/
theorem expandTransform_error [Zero V] {st : ExpandState} {x : Frame String τ V} {e : PyErr}
    (h : expandTransform st x = .error e) : st.skip = false ∧
      ((x.nlevels = 1 ∧ e = .valueError) ∨
        (x.nlevels ≠ 1 ∧ e = .keyError ∧ ∃ c ∈ st.matched, c ∉ x.cols)) := by
  unfold expandTransform at h
  split at h
  · cases h
  rename_i hs
  refine ⟨by simpa using hs, ?_⟩
  split at h
  · cases h; exact Or.inl ⟨by assumption, rfl⟩
  rename_i hl
  refine Or.inr ⟨hl, ?_⟩
  split at h
  · rename_i hc
    cases h
    obtain ⟨-, hc⟩ := hc
    simp only [not_forall] at hc
    obtain ⟨c, h1, h2⟩ := hc
    exact ⟨rfl, c, h1, h2⟩
  have he : x = x.withVals x.cols fun r => r.val := by unfold Frame.withVals; simp
  have hx1 := fold_setCol x (product st.matched x.series) x.cols fun r => r.val
  rw [← he] at hx1
  simp only at h
  rw [hx1, fold_setLoc] at h
  split at h
  · cases h
  · rename_i hc
    cases h
    simp only [Frame.withVals, not_forall] at hc
    obtain ⟨c, h1, h2⟩ := hc
    refine ⟨rfl, c, h1, fun h3 => h2 ?_⟩
    exact ((foldl_cols _ _).2 c).2 (Or.inl h3)

/-- **C51**: whatever the iteration order of the set of matched columns, the expanded frame has
the same rows with the same value under every name, and the same columns up to their order.
Missing from C51: the order of the columns, and with it the assignment of coefficients to columns,
does depend on the iteration order (`C51_column_order_refuted`). -/
theorem C51_order_partial [Zero V] {st st' : ExpandState} (hskip : st.skip = st'.skip)
    (hperm : st.matched.Perm st'.matched) {x g g' : Frame String τ V}
    (h : expandTransform st x = .ok g) (h' : expandTransform st' x = .ok g') :
    g.rows = g'.rows ∧ g.nlevels = g'.nlevels ∧ (∀ n, n ∈ g.cols ↔ n ∈ g'.cols) ∧
      (x.cols.Nodup → g.cols.Perm g'.cols) := by
  by_cases hs : st.skip = true
  · unfold expandTransform at h h'
    rw [← hskip] at h'
    rw [if_pos hs] at h h'
    cases h; cases h'
    exact ⟨rfl, rfl, fun _ => Iff.rfl, fun _ => List.Perm.refl _⟩
  · have hs1 : st.skip = false := by simpa using hs
    obtain ⟨-, h1, h2, -, v, hr, hv⟩ := expandTransform_ok hs1 h
    obtain ⟨-, h1', h2', -, v', hr', hv'⟩ := expandTransform_ok (hskip ▸ hs1) h'
    have hcols : ∀ n, n ∈ g.cols ↔ n ∈ g'.cols := by
      intro n
      rw [h2, h2']
      simp only [hperm.mem_iff]
    refine ⟨?_, h1.trans h1'.symm, hcols, fun hnd => ?_⟩
    · rw [hr, hr']
      apply List.map_congr_left
      intro r hrm
      have : v r = v' r := by
        funext n
        obtain ⟨a1, a2, a3⟩ := hv r hrm n
        obtain ⟨b1, b2, b3⟩ := hv' r hrm n
        by_cases ho : ∃ c ∈ st.matched, n = colName c r.sid
        · obtain ⟨c, hc, hn⟩ := ho
          rw [a1 c hc hn, b1 c (hperm.mem_iff.1 hc) hn]
        · have hno : ∀ c ∈ st.matched, n ≠ colName c r.sid := fun c hc hn => ho ⟨c, hc, hn⟩
          by_cases hg : ∃ c ∈ st.matched, ∃ s ∈ x.series, n = colName c s
          · rw [a2 hno hg, b2 (fun c hc => hno c (hperm.mem_iff.2 hc))]
            obtain ⟨c, hc, hrest⟩ := hg
            exact ⟨c, hperm.mem_iff.1 hc, hrest⟩
          · rw [a3 fun c hc s hs' hn => hg ⟨c, hc, s, hs', hn⟩,
              b3 fun c hc s hs' hn => hg ⟨c, hperm.mem_iff.2 hc, s, hs', hn⟩]
      rw [this]
    · exact (List.perm_ext_iff_of_nodup (expandTransform_nodup hnd h)
        (expandTransform_nodup hnd h')).2 hcols

/-- **C51**: expanding succeeds for one iteration order iff it does for any other. -/
theorem C51_success [Zero V] {st st' : ExpandState} (hskip : st.skip = st'.skip)
    (hperm : st.matched.Perm st'.matched) {x : Frame String τ V} (hm : ∀ c ∈ st.matched, c ∈ x.cols) :
    (∃ g, expandTransform st x = .ok g) ↔ ∃ g, expandTransform st' x = .ok g := by
  have key : ∀ st : ExpandState, (∀ c ∈ st.matched, c ∈ x.cols) →
      ((∃ g, expandTransform st x = .ok g) ↔ st.skip = true ∨ x.nlevels ≠ 1) := by
    intro st hm
    constructor
    · rintro ⟨g, hg⟩
      by_cases hs : st.skip = true
      · exact Or.inl hs
      · exact Or.inr (expandTransform_ok (by simpa using hs) hg).1
    · intro hcase
      cases h : expandTransform st x with
      | ok g => exact ⟨g, rfl⟩
      | error e =>
        obtain ⟨h1, h2 | ⟨-, -, c, h3, h4⟩⟩ := expandTransform_error h
        · rcases hcase with h5 | h5
          · rw [h1] at h5; cases h5
          · exact absurd h2.1 h5
        · exact absurd (hm c h3) h4
  rw [key st hm, key st' fun c hc => hm c (hperm.mem_iff.2 hc), hskip]

/-- **C51** is false for the columns as a list: their order, hence which coefficient belongs to
which column, follows the iteration order of the set. -/
theorem C51_column_order_refuted : ∃ order order' : List String → List String,
    (∀ l, (order l).Perm l) ∧ (∀ l, (order' l).Perm l) ∧
    (hierExpand someCompile order [] (exPanel49 ["x", "y"])).map Frame.cols
      ≠ (hierExpand someCompile order' [] (exPanel49 ["x", "y"])).map Frame.cols :=
  ⟨id, List.reverse, fun _ => List.Perm.refl _, fun l => List.reverse_perm l, by decide +kernel⟩

/-! ## Non-vacuity -/

/-- Two features of two series over two days. -/
def exPanel48 : Frame String Nat ℤ :=
  ⟨3, ["promo", "price"], [⟨["north", "a"], 0, fun c => if c = "price" then 5 else 1⟩,
    ⟨["north", "a"], 1, fun c => if c = "price" then 6 else 1⟩,
    ⟨["south", "b"], 0, fun c => if c = "price" then 7 else 1⟩]⟩

example : (hierExpand someCompile id ["promo"] exPanel48).map (fun g => (g.cols, g.values))
    = .ok (["promo", "price_dup_north-a", "price_dup_south-b"],
        [[1, 5, 0], [1, 6, 0], [1, 0, 7]]) := by decide +kernel

example : exPanel48.WF ∧ (∀ s ∈ exPanel48.series, ∀ l ∈ s, '-' ∉ l.toList ∧ '_' ∉ l.toList) ∧
    (∀ c ∈ exPanel48.cols, ∀ s ∈ exPanel48.series, colName c s ∉ exPanel48.cols) ∧
    DistinctNames exPanel48.cols exPanel48.series := by
  refine ⟨?_, ?_, ?_, ?_⟩
  · unfold Frame.WF; decide
  · decide
  · decide
  · unfold DistinctNames; decide

example : (∀ c ∈ exPanel48.cols, c ∉ ["promo"] → Plain c) ∧
    (∀ c ∈ exPanel48.cols, c ∉ ["promo"] → ∀ d ∈ exPanel48.cols, d ∈ ["promo"] →
      ¬ c.toList <+: d.toList) := by
  decide

end PV
