import Mathlib.Data.List.Basic
import Mathlib.Data.List.Sublists
import Mathlib.Data.List.ProdSigma
import Verif.Model.Expand
import Verif.Lemmas.Frame

/-! # The expanded frame in closed form -/

namespace PV
variable {τ V : Type}

theorem colName_inj_left {c c' : String} {s : List String} (h : colName c s = colName c' s) :
    c = c' := by
  unfold colName at h
  have := String.toList_inj.2 h
  simp only [String.toList_append] at this
  exact String.toList_inj.1 (List.append_cancel_right (List.append_cancel_right this))

/-- A frame with the rows of `x` and new values. -/
def Frame.withVals (x : Frame String τ V) (cols : List String)
    (h : Row String τ V → String → V) : Frame String τ V :=
  { nlevels := x.nlevels, cols := cols, rows := x.rows.map fun r => { r with val := h r } }

theorem setCol_withVals (x : Frame String τ V) (cols : List String)
    (h : Row String τ V → String → V) (name : String) (v : V) :
    (x.withVals cols h).setCol name (fun _ => v)
      = x.withVals (if name ∈ cols then cols else cols ++ [name])
          fun r c => if c = name then v else h r c := by
  unfold Frame.setCol Frame.withVals
  simp

theorem setLoc_go (s : List String) (name c : String) (h : Row String τ V → String → V) :
    ∀ rows : List (Row String τ V),
    Frame.setLoc.go s name (rows.map fun r => { r with val := h r })
      ((rows.filter fun r => r.sid = s).map fun r => r.val c)
      = rows.map fun r => { r with val := fun n => if r.sid = s ∧ n = name then r.val c else h r n }
  | [] => rfl
  | r :: rows => by
    have ih := setLoc_go s name c h rows
    by_cases hr : r.sid = s
    · rw [List.filter_cons_of_pos (by simpa using hr), List.map_cons, List.map_cons,
        Frame.setLoc.go.eq_def]
      simp only [hr, if_true, true_and]
      rw [ih, List.map_cons]
      simp [hr]
    · rw [List.filter_cons_of_neg (by simpa using hr), List.map_cons,
        Frame.setLoc.go.eq_def]
      simp only [hr, if_false, false_and]
      rw [ih, List.map_cons]
      simp [hr]

theorem setLoc_withVals (x : Frame String τ V) (cols : List String)
    (h : Row String τ V → String → V) (s : List String) (name c : String) :
    (x.withVals cols h).setLoc s name ((x.rowsOf s).map fun r => r.val c)
      = x.withVals cols fun r n => if r.sid = s ∧ n = name then r.val c else h r n := by
  unfold Frame.setLoc Frame.withVals Frame.rowsOf
  simp only
  rw [setLoc_go]

theorem fold_setCol (x : Frame String τ V) [Zero V] : ∀ (P : List (String × List String))
    (cols : List String) (h : Row String τ V → String → V),
    P.foldl (fun f p => f.setCol (colName p.1 p.2) fun _ => 0) (x.withVals cols h)
      = x.withVals (P.foldl (fun cs p => if colName p.1 p.2 ∈ cs then cs
            else cs ++ [colName p.1 p.2]) cols)
          fun r n => if n ∈ P.map (fun p => colName p.1 p.2) then 0 else h r n
  | [], cols, h => by simp
  | p :: P, cols, h => by
    rw [List.foldl_cons, setCol_withVals, fold_setCol x P, List.foldl_cons]
    congr 1
    funext r n
    by_cases h1 : n ∈ P.map fun p => colName p.1 p.2
    · rw [if_pos h1, if_pos (by simp only [List.map_cons, List.mem_cons]; exact Or.inr h1)]
    · rw [if_neg h1]
      by_cases h2 : n = colName p.1 p.2
      · rw [if_pos h2, if_pos (by simp only [List.map_cons, List.mem_cons]; exact Or.inl h2)]
      · rw [if_neg h2, if_neg (by simp only [List.map_cons, List.mem_cons, not_or]; exact ⟨h2, h1⟩)]

theorem fold_setLoc (x : Frame String τ V) (cols : List String) :
    ∀ (P : List (List String × String)) (h : Row String τ V → String → V),
    P.foldl (fun f p => f.setLoc p.1 (colName p.2 p.1) ((x.rowsOf p.1).map fun r => r.val p.2))
        (x.withVals cols h)
      = x.withVals cols fun r n => P.foldl (fun v p =>
          if r.sid = p.1 ∧ n = colName p.2 p.1 then r.val p.2 else v) (h r n)
  | [], h => rfl
  | p :: P, h => by
    rw [List.foldl_cons, setLoc_withVals, fold_setLoc x cols P]
    rfl

theorem foldl_if {α W : Type} (cond : α → Prop) [DecidablePred cond] (f : α → W) (w : W) :
    ∀ (P : List α) (v : W), (∀ p ∈ P, cond p → f p = w) →
    P.foldl (fun v p => if cond p then f p else v) v = if ∃ p ∈ P, cond p then w else v
  | [], v, _ => by simp
  | p :: P, v, h => by
    rw [List.foldl_cons, foldl_if cond f w P _ fun q hq => h q (by simp [hq])]
    by_cases hp : cond p
    · rw [if_pos hp, h p (by simp) hp]
      have : ∃ q ∈ p :: P, cond q := ⟨p, by simp, hp⟩
      rw [if_pos this, ite_self]
    · rw [if_neg hp]
      simp [hp]

/-- Column names after the first loop. -/
theorem foldl_cols (P : List (String × List String)) : ∀ cols : List String,
    cols <+: P.foldl (fun cs p => if colName p.1 p.2 ∈ cs then cs else cs ++ [colName p.1 p.2]) cols ∧
    ∀ n, n ∈ P.foldl (fun cs p => if colName p.1 p.2 ∈ cs then cs
        else cs ++ [colName p.1 p.2]) cols ↔ n ∈ cols ∨ n ∈ P.map fun p => colName p.1 p.2 := by
  induction P with
  | nil => intro cols; simp
  | cons p P ih =>
    intro cols
    rw [List.foldl_cons]
    obtain ⟨h1, h2⟩ := ih (if colName p.1 p.2 ∈ cols then cols else cols ++ [colName p.1 p.2])
    constructor
    · refine List.IsPrefix.trans ?_ h1
      split
      · exact List.prefix_refl _
      · exact List.prefix_append _ _
    · intro n
      rw [h2]
      split
      · rename_i hm
        simp only [List.map_cons, List.mem_cons]
        constructor
        · rintro (h | h)
          · exact Or.inl h
          · exact Or.inr (Or.inr h)
        · rintro (h | rfl | h)
          · exact Or.inl h
          · exact Or.inl hm
          · exact Or.inr h
      · simp only [List.map_cons, List.mem_cons, List.mem_append, List.not_mem_nil, or_false]
        tauto

/-- The value of row `r` under name `n` in the expanded frame, in terms of which names are
generated (not of any order). -/
theorem expandTransform_ok [Zero V] {st : ExpandState} {x g : Frame String τ V}
    (hs : st.skip = false) (h : expandTransform st x = .ok g) :
    x.nlevels ≠ 1 ∧ g.nlevels = x.nlevels ∧
    (∀ n, n ∈ g.cols ↔ n ∉ st.matched ∧
      (n ∈ x.cols ∨ ∃ c ∈ st.matched, ∃ s ∈ x.series, n = colName c s)) ∧
    (x.cols.filter (· ∉ st.matched)) <+: g.cols ∧
    ∃ h : Row String τ V → String → V, g.rows = x.rows.map (fun r => { r with val := h r }) ∧
      ∀ r ∈ x.rows, ∀ n,
        (∀ c ∈ st.matched, n = colName c r.sid → h r n = r.val c) ∧
        ((∀ c ∈ st.matched, n ≠ colName c r.sid) →
          (∃ c ∈ st.matched, ∃ s ∈ x.series, n = colName c s) → h r n = 0) ∧
        ((∀ c ∈ st.matched, ∀ s ∈ x.series, n ≠ colName c s) → h r n = r.val n) := by
  unfold expandTransform at h
  simp only [hs, Bool.false_eq_true, if_false] at h
  split at h
  · cases h
  rename_i hlv
  split at h
  · cases h
  have hx : x = x.withVals x.cols fun r => r.val := by
    unfold Frame.withVals
    simp
  have hx1 := fold_setCol x (product st.matched x.series) x.cols fun r => r.val
  rw [← hx] at hx1
  rw [hx1, fold_setLoc] at h
  split at h
  swap
  · cases h
  cases h
  obtain ⟨hpre, hmem⟩ := foldl_cols (product st.matched x.series) x.cols
  have hgen : ∀ n, n ∈ (product st.matched x.series).map (fun p => colName p.1 p.2) ↔
      ∃ c ∈ st.matched, ∃ s ∈ x.series, n = colName c s := by
    intro n
    simp only [List.mem_map, mem_product]
    constructor
    · rintro ⟨p, ⟨h1, h2⟩, rfl⟩; exact ⟨p.1, h1, p.2, h2, rfl⟩
    · rintro ⟨c, h1, s, h2, rfl⟩; exact ⟨(c, s), ⟨h1, h2⟩, rfl⟩
  refine ⟨hlv, rfl, ?_, ?_, ?_⟩
  · intro n
    simp only [Frame.withVals, List.mem_filter, hmem, hgen, decide_not, Bool.not_eq_true',
      decide_eq_false_iff_not]
    tauto
  · exact hpre.filter _
  · refine ⟨_, rfl, ?_⟩
    intro r hr n
    have hrs : r.sid ∈ x.series := mem_unique.2 (List.mem_map.2 ⟨r, hr, rfl⟩)
    have hval : ∀ c ∈ st.matched, n = colName c r.sid →
        (product x.series st.matched).foldl (fun v p =>
          if r.sid = p.1 ∧ n = colName p.2 p.1 then r.val p.2 else v)
          (if n ∈ (product st.matched x.series).map (fun p => colName p.1 p.2) then 0 else r.val n)
          = r.val c := by
      intro c hc hn
      rw [foldl_if (fun p : List String × String => r.sid = p.1 ∧ n = colName p.2 p.1)
        (fun p => r.val p.2) (r.val c)]
      · rw [if_pos ⟨(r.sid, c), mem_product.2 ⟨hrs, hc⟩, rfl, hn⟩]
      · rintro ⟨s, c'⟩ - ⟨h1, h2⟩
        simp only at h1 h2 ⊢
        subst h1
        rw [colName_inj_left (h2.symm.trans hn)]
    have hnone : (∀ c ∈ st.matched, n ≠ colName c r.sid) →
        (product x.series st.matched).foldl (fun v p =>
          if r.sid = p.1 ∧ n = colName p.2 p.1 then r.val p.2 else v)
          (if n ∈ (product st.matched x.series).map (fun p => colName p.1 p.2) then 0 else r.val n)
          = if n ∈ (product st.matched x.series).map (fun p => colName p.1 p.2) then 0
            else r.val n := by
      intro hno
      have hcond : ∀ p ∈ product x.series st.matched,
          ¬ (r.sid = p.1 ∧ n = colName p.2 p.1) := by
        rintro ⟨s, c⟩ hp ⟨h1, h2⟩
        simp only at h1 h2
        subst h1
        exact hno c (mem_product.1 hp).2 h2
      rw [foldl_if (fun p : List String × String => r.sid = p.1 ∧ n = colName p.2 p.1)
        (fun p => r.val p.2) (r.val n) _ _ fun p hp hc => absurd hc (hcond p hp)]
      rw [if_neg]
      rintro ⟨p, hp, hc⟩
      exact hcond p hp hc
    refine ⟨hval, ?_, ?_⟩
    · intro hno hg
      rw [hnone hno, if_pos ((hgen n).2 hg)]
    · intro hno
      rw [hnone fun c hc => hno c hc _ hrs, if_neg]
      intro hg
      obtain ⟨c, hc, s, hs', he⟩ := (hgen n).1 hg
      exact hno c hc s hs' he

end PV
