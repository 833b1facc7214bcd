import Verif.Model.Params

/-! Lemmas on binding arguments and reading attributes. -/

namespace PV

section
variable {V : Type}

theorem lookup_of_not_mem {d : PyDict V} {n : String} (h : n ∉ d.map Prod.fst) :
    PyDict.get? d n = none := by
  induction d with
  | nil => rfl
  | cons p d ih =>
    obtain ⟨k, v⟩ := p
    simp only [List.map_cons, List.mem_cons, not_or] at h
    simp only [PyDict.get?]
    rw [if_neg (fun e => h.1 e.symm)]
    exact ih h.2

theorem lookup_of_mem {d : PyDict V} {n : String} (h : n ∈ d.map Prod.fst) :
    ∃ v, PyDict.get? d n = some v := by
  induction d with
  | nil => simp at h
  | cons p d ih =>
    obtain ⟨k, v⟩ := p
    simp only [PyDict.get?]
    by_cases hk : k = n
    · exact ⟨v, by rw [if_pos hk]⟩
    · rw [if_neg hk]
      apply ih
      rcases List.mem_cons.1 h with e | e
      · exact absurd e.symm hk
      · exact e

theorem lookup_append {d e : PyDict V} {n : String} :
    PyDict.get? (d ++ e) n = (PyDict.get? d n).or (PyDict.get? e n) := by
  induction d with
  | nil => simp [PyDict.get?]
  | cons p d ih =>
    obtain ⟨k, v⟩ := p
    simp only [List.cons_append, PyDict.get?]
    by_cases hk : k = n
    · simp [hk]
    · simp only [if_neg hk]
      exact ih

theorem lookup_set (d : PyDict V) (k : String) (v : V) (n : String) :
    PyDict.get? (PyDict.set d k v) n = if n = k then some v else PyDict.get? d n := by
  induction d with
  | nil =>
    simp only [PyDict.set, PyDict.get?]
    by_cases h : k = n
    · simp [h]
    · rw [if_neg h, if_neg (Ne.symm h)]
  | cons p d ih =>
    obtain ⟨k', v'⟩ := p
    simp only [PyDict.set]
    by_cases hk : k' = k
    · subst hk
      simp only [if_true, PyDict.get?]
      by_cases h : k' = n
      · simp [h]
      · rw [if_neg h, if_neg (Ne.symm h), if_neg h]
    · simp only [if_neg hk, PyDict.get?, ih]
      by_cases h : k' = n
      · subst h
        simp [hk]
      · simp [h]

theorem mapM_ok_of {α β : Type} {f : α → PyM β} {g : α → β} {l : List α}
    (h : ∀ x ∈ l, f x = .ok (g x)) : l.mapM f = .ok (l.map g) := by
  induction l with
  | nil => rfl
  | cons a l ih =>
    rw [List.mapM_cons, h a (by simp), ih fun x hx => h x (by simp [hx])]
    rfl

theorem mapM_bindParam {args : PyDict V} : ∀ {l : List (String × Option V)} {b : PyDict V},
    l.mapM (bindParam args) = .ok b → b.map Prod.fst = l.map Prod.fst ∧
      (l.map Prod.fst).Nodup →
        ∀ p ∈ l, PyDict.get? b p.1 = (PyDict.get? args p.1).or p.2 := by
  intro l b h hh
  induction l generalizing b with
  | nil => intro p hp; simp at hp
  | cons q l ih =>
    rw [List.mapM_cons] at h
    cases hq : bindParam args q with
    | error e => rw [hq] at h; cases h
    | ok v =>
      rw [hq] at h
      cases hl : l.mapM (bindParam args) with
      | error e => rw [hl] at h; cases h
      | ok b' =>
        rw [hl] at h
        obtain rfl : v :: b' = b := Except.ok.inj h
        obtain ⟨h1, h2⟩ := hh
        simp only [List.map_cons, List.cons.injEq] at h1
        rw [List.map_cons, List.nodup_cons] at h2
        have hv : v = (q.1, v.2) ∧ some v.2 = (PyDict.get? args q.1).or q.2 := by
          unfold bindParam at hq
          cases h3 : PyDict.get? args q.1 with
          | some w => rw [h3] at hq; obtain rfl := Except.ok.inj hq; simp
          | none =>
            rw [h3] at hq
            cases h4 : q.2 with
            | some w => rw [h4] at hq; obtain rfl := Except.ok.inj hq; simp
            | none => rw [h4] at hq; cases hq
        intro p hp
        rcases List.mem_cons.1 hp with rfl | hp
        · rw [hv.1]
          simp only [PyDict.get?, if_true]
          exact hv.2
        · rw [hv.1]
          simp only [PyDict.get?]
          rw [if_neg, ih hl ⟨h1.2, h2.2⟩ p hp]
          intro e
          exact h2.1 (List.mem_map.2 ⟨p, hp, e.symm⟩)

theorem mapM_bindParam_names {args : PyDict V} : ∀ {l : List (String × Option V)} {b : PyDict V},
    l.mapM (bindParam args) = .ok b → b.map Prod.fst = l.map Prod.fst := by
  intro l
  induction l with
  | nil => intro b h; obtain rfl : [] = b := Except.ok.inj h; rfl
  | cons q l ih =>
    intro b h
    rw [List.mapM_cons] at h
    cases hq : bindParam args q with
    | error e => rw [hq] at h; cases h
    | ok v =>
      rw [hq] at h
      cases hl : l.mapM (bindParam args) with
      | error e => rw [hl] at h; cases h
      | ok b' =>
        rw [hl] at h
        obtain rfl : v :: b' = b := Except.ok.inj h
        have : v.1 = q.1 := by
          unfold bindParam at hq
          cases h3 : PyDict.get? args q.1 with
          | some w => rw [h3] at hq; obtain rfl := Except.ok.inj hq; rfl
          | none =>
            rw [h3] at hq
            cases h4 : q.2 with
            | some w => rw [h4] at hq; obtain rfl := Except.ok.inj hq; rfl
            | none => rw [h4] at hq; cases hq
        simp [this, ih hl]

/-- What binding gives: every name once, with the argument or the default, and the rest. -/
theorem bindArgs_ok {s : Signature V} {args b kw : PyDict V} (hs : s.names.Nodup)
    (h : bindArgs s args = .ok (b, kw)) :
    b.map Prod.fst = s.names ∧
    (∀ p ∈ s.params, PyDict.get? b p.1 = (PyDict.get? args p.1).or p.2) ∧
    kw = args.filter (fun a => a.1 ∉ s.names) ∧ (s.varKw = false → kw = []) := by
  unfold bindArgs at h
  simp only at h
  split at h
  · cases h
  · rename_i hc
    cases hm : s.params.mapM (bindParam args) with
    | error e => rw [hm] at h; cases h
    | ok b' =>
      rw [hm] at h
      have h' := Except.ok.inj h
      simp only [Prod.mk.injEq] at h'
      obtain ⟨rfl, rfl⟩ := h'
      refine ⟨mapM_bindParam_names hm, mapM_bindParam hm ⟨mapM_bindParam_names hm, hs⟩, rfl, ?_⟩
      intro hv
      by_contra hne
      exact hc ⟨hv, hne⟩

theorem getAttr_ok {attrs : PyDict V} {n : String} {v : V} (h : PyDict.get? attrs n = some v) :
    getAttr attrs n = .ok (n, v) := by
  unfold getAttr
  rw [h]

end

section
variable {K O : Type}

theorem get?_pass_mem {b : PyDict (PVal K O)} {l : List String} {n : String} (h : n ∈ l) :
    PyDict.get? (pass b l) n = some (arg b n) := by
  induction l with
  | nil => simp at h
  | cons m l ih =>
    simp only [pass, List.map_cons, PyDict.get?]
    by_cases hm : m = n
    · rw [if_pos hm, hm]
    · rw [if_neg hm]
      rcases List.mem_cons.1 h with e | e
      · exact absurd e.symm hm
      · exact ih e

theorem names_pass (b : PyDict (PVal K O)) (l : List String) : (pass b l).map Prod.fst = l := by
  simp [pass, Function.comp_def]

theorem get?_pass_not_mem {b : PyDict (PVal K O)} {l : List String} {n : String} (h : n ∉ l) :
    PyDict.get? (pass b l) n = none := lookup_of_not_mem (by rwa [names_pass])

theorem arg_pass {b : PyDict (PVal K O)} {l : List String} {n : String} (h : n ∈ l) :
    arg (pass b l) n = arg b n := by
  unfold arg
  rw [get?_pass_mem h]
  rfl

theorem pass_pass {b : PyDict (PVal K O)} {l l' : List String} (h : ∀ n ∈ l', n ∈ l) :
    pass (pass b l) l' = pass b l' := by
  unfold pass
  apply List.map_congr_left
  intro n hn
  rw [← pass, arg_pass (h n hn)]

theorem pass_congr {b b' : PyDict (PVal K O)} {l : List String} (h : ∀ n ∈ l, arg b n = arg b' n) :
    pass b l = pass b' l := by
  unfold pass
  exact List.map_congr_left fun n hn => by rw [h n hn]

theorem pass_self : ∀ {b : PyDict (PVal K O)}, (b.map Prod.fst).Nodup → pass b (b.map Prod.fst) = b := by
  intro b
  induction b with
  | nil => intro _; rfl
  | cons p b ih =>
    obtain ⟨k, v⟩ := p
    intro h
    rw [List.map_cons, List.nodup_cons] at h
    have h2 : ∀ n ∈ b.map Prod.fst, arg ((k, v) :: b) n = arg b n := by
      intro n hn
      unfold arg
      simp only [PyDict.get?]
      rw [if_neg]
      rintro rfl
      exact h.1 hn
    rw [List.map_cons]
    have : pass ((k, v) :: b) (k :: b.map Prod.fst)
        = (k, arg ((k, v) :: b) k) :: pass ((k, v) :: b) (b.map Prod.fst) := rfl
    rw [this, pass_congr h2, ih h.2]
    simp [arg, PyDict.get?]

/-- Binding when every name is passed, or has the default that `b` gives for it. -/
theorem bindArgs_of {s : Signature (PVal K O)} {args b : PyDict (PVal K O)}
    (hv : s.varKw = true ∨ ∀ a ∈ args, a.1 ∈ s.names)
    (h : ∀ p ∈ s.params, PyDict.get? args p.1 = some (arg b p.1) ∨
      (PyDict.get? args p.1 = none ∧ p.2 = some (arg b p.1))) :
    bindArgs s args = .ok (pass b s.names, args.filter (fun a => a.1 ∉ s.names)) := by
  unfold bindArgs
  simp only
  rw [if_neg]
  · have : s.params.mapM (bindParam args) = .ok (s.params.map fun p => (p.1, arg b p.1)) := by
      apply mapM_ok_of
      intro p hp
      unfold bindParam
      rcases h p hp with h1 | ⟨h1, h2⟩
      · rw [h1]
      · rw [h1, h2]
    rw [this]
    show Except.ok _ = _
    congr 2
    simp [pass, Signature.names, Function.comp_def]
  · rintro ⟨h1, h2⟩
    rcases hv with hv | hv
    · rw [hv] at h1; cases h1
    · apply h2
      rw [List.filter_eq_nil_iff]
      intro a ha
      simpa using hv a ha

/-- Setting an attribute is setting the parameter. -/
theorem getParams_set {V : Type} {c : PyClass V} (hs : c.sig.names.Nodup) {attrs p : PyDict V}
    (h : c.getParams attrs = .ok p) {n : String} (hn : n ∈ c.sig.names) (v : V) :
    c.getParams (PyDict.set attrs n v) = .ok (PyDict.set p n v) := by
  unfold PyClass.getParams at h ⊢
  generalize c.sig.names = l at *
  induction l generalizing p with
  | nil => simp at hn
  | cons m l ih =>
    rw [List.mapM_cons] at h ⊢
    rw [List.nodup_cons] at hs
    cases hm : PyDict.get? attrs m with
    | none => simp only [getAttr, hm] at h; cases h
    | some w =>
      rw [getAttr_ok hm] at h
      cases hl : l.mapM (getAttr attrs) with
      | error e => rw [hl] at h; cases h
      | ok q =>
        rw [hl] at h
        obtain rfl : (m, w) :: q = p := Except.ok.inj h
        by_cases e : m = n
        · subst e
          have h1 : getAttr (PyDict.set attrs m v) m = .ok (m, v) :=
            getAttr_ok (by rw [lookup_set, if_pos rfl])
          have h2 : l.mapM (getAttr (PyDict.set attrs m v)) = l.mapM (getAttr attrs) := by
            clear h hl ih hn
            induction l with
            | nil => rfl
            | cons k l ih =>
              rw [List.mapM_cons, List.mapM_cons, ih ⟨fun h => hs.1 (by simp [h]),
                (List.nodup_cons.1 hs.2).2⟩]
              congr 1
              unfold getAttr
              rw [lookup_set, if_neg]
              rintro rfl
              exact hs.1 (by simp)
          rw [h1, h2, hl]
          simp [PyDict.set]
          rfl
        · rcases List.mem_cons.1 hn with e' | hn
          · exact absurd e'.symm e
          have h1 : getAttr (PyDict.set attrs n v) m = .ok (m, w) :=
            getAttr_ok (by rw [lookup_set, if_neg e, hm])
          rw [h1, ih hs.2 hl hn]
          simp [PyDict.set, e]
          rfl

theorem getParams_of {V : Type} {c : PyClass V} (hs : c.sig.names.Nodup) {o r : PyDict V}
    (hr : r.map Prod.fst = c.sig.names)
    (hread : ∀ n ∈ c.sig.names, PyDict.get? o n = PyDict.get? r n) : c.getParams o = .ok r := by
  · unfold PyClass.getParams
    rw [← hr] at hread hs ⊢
    clear hr
    have : ∀ (d l : PyDict V), (l.map Prod.fst).Nodup →
        (∀ n ∈ l.map Prod.fst, PyDict.get? d n = PyDict.get? l n) →
        (l.map Prod.fst).mapM (getAttr d) = .ok l := by
      intro d l
      induction l with
      | nil => intro _ _; rfl
      | cons p l ih =>
        obtain ⟨k, v⟩ := p
        intro h1 h2
        rw [List.map_cons, List.nodup_cons] at h1
        have h3 : PyDict.get? d k = some v := by
          rw [h2 k (by simp)]
          simp [PyDict.get?]
        have h4 : (l.map Prod.fst).mapM (getAttr d) = .ok l := by
          apply ih h1.2
          intro n hn
          rw [h2 n (by simp [hn] : n ∈ ((k, v) :: l).map Prod.fst)]
          simp only [PyDict.get?]
          rw [if_neg]
          rintro rfl
          exact h1.1 hn
        rw [List.map_cons, List.mapM_cons, getAttr_ok h3, h4]
        rfl
    exact this o r hs hread

/-- A class whose attributes give arguments that build the same attributes. -/
theorem clone_of {V : Type} {c : PyClass V} (hs : c.sig.names.Nodup) {o r : PyDict V}
    (hr : r.map Prod.fst = c.sig.names) (hread : ∀ n ∈ c.sig.names, PyDict.get? o n = PyDict.get? r n)
    (hbody : c.body r [] = .ok o) : c.getParams o = .ok r ∧ c.call r = .ok o := by
  refine ⟨getParams_of hs hr hread, ?_⟩
  · unfold PyClass.call
    have : bindArgs c.sig r = .ok (r, []) := by
      have hf : r.filter (fun a => a.1 ∉ c.sig.names) = [] := by
        rw [List.filter_eq_nil_iff]
        intro a ha
        rw [← hr]
        simp only [decide_not, Bool.not_eq_true', decide_eq_false_iff_not, not_not]
        exact List.mem_map.2 ⟨a, ha, rfl⟩
      unfold bindArgs
      simp only [hf]
      rw [if_neg (by simp)]
      have h1 : ∀ (d : PyDict V) (ps : List (String × Option V)) (l : PyDict V),
          (l.map Prod.fst).Nodup → l.map Prod.fst = ps.map Prod.fst →
          (∀ n ∈ l.map Prod.fst, PyDict.get? d n = PyDict.get? l n) →
          ps.mapM (bindParam d) = .ok l := by
        intro d ps
        induction ps with
        | nil =>
          intro l _ h2 _
          cases l with
          | nil => rfl
          | cons a l => simp at h2
        | cons p ps ih =>
          intro l h1 h2 h3
          cases l with
          | nil => simp at h2
          | cons a l =>
            obtain ⟨k, v⟩ := a
            simp only [List.map_cons, List.cons.injEq] at h2
            rw [List.map_cons, List.nodup_cons] at h1
            have h4 : bindParam d p = .ok (k, v) := by
              unfold bindParam
              rw [← h2.1, h3 k (by simp)]
              simp [PyDict.get?]
            have h5 : ps.mapM (bindParam d) = .ok l := by
              apply ih l h1.2 h2.2
              intro n hn
              rw [h3 n (by simp [hn] : n ∈ ((k, v) :: l).map Prod.fst)]
              simp only [PyDict.get?]
              rw [if_neg]
              rintro rfl
              exact h1.1 hn
            rw [List.mapM_cons, h4, h5]
            rfl
      rw [h1 r c.sig.params r (hr ▸ hs) hr fun _ _ => rfl]
      rfl
    rw [this]
    exact hbody

end
end PV
