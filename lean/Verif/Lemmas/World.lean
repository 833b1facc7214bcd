import Verif.Spec.World

/-!
# Lemmas on the heap of effect objects
-/

namespace PV
section
variable {S τ D K : Type}

theorem OnHeap.bind_eq {α β : Type} (m : OnHeap S τ D K α) (f : α → OnHeap S τ D K β)
    (h : List (Obj S τ D K)) :
    (m >>= f) h = match m h with
      | (.error e, h) => (.error e, h)
      | (.ok a, h) => f a h := rfl

theorem OnHeap.bind_ok {α β : Type} {m : OnHeap S τ D K α} {f : α → OnHeap S τ D K β}
    {h h' : List (Obj S τ D K)} {a : α} (hm : m h = (.ok a, h')) : (m >>= f) h = f a h' := by
  rw [OnHeap.bind_eq, hm]

theorem OnHeap.bind_error {α β : Type} {m : OnHeap S τ D K α} {f : α → OnHeap S τ D K β}
    {h h' : List (Obj S τ D K)} {e : PyErr} (hm : m h = (.error e, h')) :
    (m >>= f) h = (.error e, h') := by
  rw [OnHeap.bind_eq, hm]

@[simp] theorem OnHeap.pure_apply {α : Type} (a : α) (h : List (Obj S τ D K)) :
    (pure a : OnHeap S τ D K α) h = (.ok a, h) := rfl

@[simp] theorem OnHeap.lift_apply {α : Type} (x : PyM α) (h : List (Obj S τ D K)) :
    (OnHeap.lift x : OnHeap S τ D K α) h = (x, h) := rfl

@[simp] theorem OnHeap.read_apply {α : Type} (f : List (Obj S τ D K) → PyM α)
    (h : List (Obj S τ D K)) : (OnHeap.read f : OnHeap S τ D K α) h = (f h, h) := rfl

theorem OnHeap.lift_bind {α β : Type} (x : PyM α) (f : α → OnHeap S τ D K β)
    (h : List (Obj S τ D K)) :
    (OnHeap.lift x >>= f) h = match x with
      | .error e => (.error e, h)
      | .ok a => f a h := by
  rw [OnHeap.bind_eq]
  cases x <;> rfl

theorem OnHeap.read_bind {α β : Type} (g : List (Obj S τ D K) → PyM α)
    (f : α → OnHeap S τ D K β) (h : List (Obj S τ D K)) :
    (OnHeap.read g >>= f) h = match g h with
      | .error e => (.error e, h)
      | .ok a => f a h := by
  rw [OnHeap.bind_eq, OnHeap.read_apply]
  cases g h <;> rfl

theorem clone_clone (o : Obj S τ D K) : o.clone.clone = o.clone := rfl

theorem fit_clone {o o' : Obj S τ D K} {y : Frame String τ K} {X : Option (Frame String τ K)}
    {s : Scale K} (h : o.fit y X s = .ok o') : o'.clone = o.clone := by
  unfold EffectObj.fit at h
  cases hb : baseFit o.cls.toHooks o.st y X s with
  | error e => rw [hb] at h; simp [bind, Except.bind] at h
  | ok st =>
    rw [hb] at h
    simp [bind, Except.bind, pure, Except.pure] at h
    rw [← h]
    rfl

theorem deref_ok {h : List (Obj S τ D K)} {r : Nat} {o : Obj S τ D K} :
    deref h r = .ok o ↔ h[r]? = some o := by
  unfold deref
  cases h[r]? <;> simp

theorem deref_append {h : List (Obj S τ D K)} {r : Nat} {o : Obj S τ D K}
    (hr : deref h r = .ok o) (ext : List (Obj S τ D K)) : deref (h ++ ext) r = .ok o := by
  rw [deref_ok] at hr ⊢
  rw [List.getElem?_append_left (List.getElem?_eq_some_iff.1 hr).1]
  exact hr

/-! ## Steps that only add objects -/

/-- The computation only adds objects at the end of the heap. -/
def Extends {α : Type} (m : OnHeap S τ D K α) : Prop :=
  ∀ h, ∃ ext, (m h).2 = h ++ ext

theorem Extends.pure {α : Type} (a : α) : Extends (pure a : OnHeap S τ D K α) :=
  fun h => ⟨[], by simp⟩

theorem Extends.lift {α : Type} (a : PyM α) : Extends (OnHeap.lift a : OnHeap S τ D K α) :=
  fun h => ⟨[], by simp⟩

theorem Extends.read {α : Type} (f : List (Obj S τ D K) → PyM α) : Extends (OnHeap.read f) :=
  fun h => ⟨[], by simp⟩

theorem Extends.alloc (o : Obj S τ D K) : Extends (alloc o) := fun h => ⟨[o], rfl⟩

theorem Extends.bind {α β : Type} {m : OnHeap S τ D K α} {f : α → OnHeap S τ D K β}
    (hm : Extends m) (hf : ∀ a, Extends (f a)) : Extends (m >>= f) := by
  intro h
  obtain ⟨e1, h1⟩ := hm h
  rcases hr : m h with ⟨r, h'⟩
  rw [hr] at h1
  subst h1
  cases r with
  | error e => exact ⟨e1, by rw [OnHeap.bind_error hr]⟩
  | ok a =>
    obtain ⟨e2, h2⟩ := hf a (h ++ e1)
    exact ⟨e1 ++ e2, by rw [OnHeap.bind_ok hr, h2, List.append_assoc]⟩

theorem Extends.foldlM {α β : Type} {f : β → α → OnHeap S τ D K β} (hf : ∀ b a, Extends (f b a))
    (l : List α) : ∀ b, Extends (l.foldlM f b) := by
  induction l with
  | nil => exact fun b => Extends.pure b
  | cons a l ih => exact fun b => Extends.bind (hf b a) fun b' => ih b'

/-- Cloning an object and fitting the clone: what it returns and what it leaves behind. -/
theorem cloneFit_eq {α : Type} (r : Nat) (y : Frame String τ K) (X : Option (Frame String τ K))
    (s : Scale K) (k : Nat → OnHeap S τ D K α) (h : List (Obj S τ D K)) :
    (do let r' ← cloneRef r
        fitRef r' y X s
        k r') h
      = match deref h r with
        | .error e => (.error e, h)
        | .ok o =>
          match o.clone.fit y X s with
          | .error e => (.error e, h ++ [o.clone])
          | .ok o' => k h.length (h ++ [o']) := by
  cases hd : deref h r with
  | error e =>
    have : (cloneRef r : OnHeap S τ D K Nat) h = (.error e, h) := by
      unfold cloneRef
      rw [OnHeap.bind_error (e := e) (h' := h)]
      simp [hd]
    rw [OnHeap.bind_error this]
  | ok o =>
    have h1 : (cloneRef r : OnHeap S τ D K Nat) h = (.ok h.length, h ++ [o.clone]) := by
      unfold cloneRef
      rw [OnHeap.bind_ok (a := o) (h' := h) (by simp [hd])]
      rfl
    rw [OnHeap.bind_ok h1]
    have h2 : deref (h ++ [o.clone]) h.length = .ok o.clone := by
      rw [deref_ok]
      simp
    cases hf : o.clone.fit y X s with
    | error e =>
      have h3 : fitRef h.length y X s (h ++ [o.clone]) = (.error e, h ++ [o.clone]) := by
        unfold fitRef
        simp only [h2, hf]
      rw [OnHeap.bind_error h3]
      simp [hf]
    | ok o' =>
      have h3 : fitRef h.length y X s (h ++ [o.clone]) = (.ok (), h ++ [o']) := by
        unfold fitRef
        simp only [h2, hf]
        simp
      rw [OnHeap.bind_ok h3]
      simp [hf]

theorem Extends.cloneFit {α : Type} (r : Nat) (y : Frame String τ K)
    (X : Option (Frame String τ K)) (s : Scale K) {k : Nat → OnHeap S τ D K α}
    (hk : ∀ r, Extends (k r)) :
    Extends (do let r' ← cloneRef r
                fitRef r' y X s
                k r') := by
  intro h
  rw [cloneFit_eq]
  cases deref h r with
  | error e => exact ⟨[], by simp⟩
  | ok o =>
    cases hf : o.clone.fit y X s with
    | error e => exact ⟨[o.clone], by simp [hf]⟩
    | ok o' =>
      obtain ⟨ext, he⟩ := hk h.length (h ++ [o'])
      exact ⟨o' :: ext, by simp [hf, he]⟩

theorem fitStepRef_extends (compile : String → PyM (String → Bool)) (x : Frame String τ K)
    (y : Frame String τ K) (s : Scale K) (acc : FitRefs) (e : String × Nat × Option String) :
    Extends (fitStepRef (S := S) (D := D) compile x y s acc e) :=
  Extends.bind (Extends.lift _) fun _ => Extends.bind (Extends.lift _) fun _ =>
    Extends.cloneFit _ _ _ _ fun _ => Extends.pure _

theorem defaultRef_extends (d : Option Nat) (o : Obj S τ D K) : Extends (defaultRef d o) := by
  cases d with
  | none => exact Extends.alloc o
  | some r => exact Extends.pure r

theorem fitDefaultRef_extends (d : Option Nat) (o : Obj S τ D K) (x : Frame String τ K)
    (y : Frame String τ K) (s : Scale K) (acc : FitRefs) :
    Extends (fitDefaultRef d o x y s acc) := by
  unfold fitDefaultRef
  split
  · exact Extends.pure _
  · exact Extends.bind (Extends.lift _) fun _ => Extends.bind (defaultRef_extends _ _) fun _ =>
      Extends.cloneFit _ _ _ _ fun _ => Extends.pure _

theorem fitEffectsRef_extends (compile : String → PyM (String → Bool))
    (effects : List (String × Nat × Option String)) (d : Option Nat) (o : Obj S τ D K)
    (x : Frame String τ K) (y : Frame String τ K) (s : Scale K) :
    Extends (fitEffectsRef compile effects d o x y s) :=
  Extends.bind (Extends.foldlM (fitStepRef_extends compile x y s) _ _) fun _ =>
    fitDefaultRef_extends _ _ _ _ _ _

/-! ## The effects behind the references -/

theorem derefFitted_nil (h : List (Obj S τ D K)) : derefFitted h [] = .ok [] := rfl

theorem derefFitted_cons (h : List (Obj S τ D K)) (e : String × Nat × List String)
    (l : List (String × Nat × List String)) :
    derefFitted h (e :: l) = (do
      let o ← deref h e.2.1
      let r ← derefFitted h l
      pure (⟨e.1, o, e.2.2⟩ :: r)) := by
  unfold derefFitted
  rw [List.mapM_cons]
  cases deref h e.2.1 <;> rfl

theorem derefFitted_mono {h h' : List (Obj S τ D K)}
    {l : List (String × Nat × List String)}
    {v : List (FittedEffect S (Frame String τ K) (Scale K) τ K D K)}
    (hk : ∀ e ∈ l, deref h' e.2.1 = deref h e.2.1) (hl : derefFitted h l = .ok v) :
    derefFitted h' l = .ok v := by
  induction l generalizing v with
  | nil => exact hl
  | cons e l ih =>
    rw [derefFitted_cons] at hl ⊢
    rw [hk e (by simp)]
    cases hd : deref h e.2.1 with
    | error err => rw [hd] at hl; cases hl
    | ok o =>
      rw [hd] at hl
      cases hr : derefFitted h l with
      | error err => rw [hr] at hl; cases hl
      | ok v' =>
        rw [hr] at hl
        rw [ih (fun e he => hk e (by simp [he])) hr]
        exact hl

theorem derefFitted_valid {h : List (Obj S τ D K)} {l : List (String × Nat × List String)}
    {v : List (FittedEffect S (Frame String τ K) (Scale K) τ K D K)}
    (hl : derefFitted h l = .ok v) : ∀ e ∈ l, ∃ o, deref h e.2.1 = .ok o := by
  induction l generalizing v with
  | nil => simp
  | cons e l ih =>
    rw [derefFitted_cons] at hl
    cases hd : deref h e.2.1 with
    | error err => rw [hd] at hl; cases hl
    | ok o =>
      rw [hd] at hl
      cases hr : derefFitted h l with
      | error err => rw [hr] at hl; cases hl
      | ok v' =>
        intro e' he'
        rcases List.mem_cons.1 he' with rfl | he'
        · exact ⟨o, hd⟩
        · exact ih hr e' he'

theorem derefFitted_append {h : List (Obj S τ D K)} {l : List (String × Nat × List String)}
    {v : List (FittedEffect S (Frame String τ K) (Scale K) τ K D K)}
    (hl : derefFitted h l = .ok v) (ext : List (Obj S τ D K)) :
    derefFitted (h ++ ext) l = .ok v := by
  refine derefFitted_mono (fun e he => ?_) hl
  obtain ⟨o, ho⟩ := derefFitted_valid hl e he
  rw [ho, deref_append ho]

theorem derefFitted_snoc {h : List (Obj S τ D K)} {l : List (String × Nat × List String)}
    {v : List (FittedEffect S (Frame String τ K) (Scale K) τ K D K)}
    (hl : derefFitted h l = .ok v) {e : String × Nat × List String} {o : Obj S τ D K}
    (ho : deref h e.2.1 = .ok o) : derefFitted h (l ++ [e]) = .ok (v ++ [⟨e.1, o, e.2.2⟩]) := by
  induction l generalizing v with
  | nil =>
    cases hl
    rw [List.nil_append, derefFitted_cons, ho]
    rfl
  | cons e' l ih =>
    rw [derefFitted_cons] at hl
    rw [List.cons_append, derefFitted_cons]
    cases hd : deref h e'.2.1 with
    | error err => rw [hd] at hl; cases hl
    | ok o' =>
      rw [hd] at hl
      cases hr : derefFitted h l with
      | error err => rw [hr] at hl; cases hl
      | ok v' =>
        rw [hr] at hl
        cases hl
        rw [ih hr]
        rfl

/-- The references and the list of effects describe the same specification. -/
def SpecOf (h : List (Obj S τ D K)) (e : String × Nat × Option String)
    (s : EffectSpec S (Frame String τ K) (Scale K) τ K D K) : Prop :=
  s.name = e.1 ∧ s.regex = e.2.2 ∧ ∃ o, deref h e.2.1 = .ok o ∧ o.clone = s.effect.clone

theorem SpecOf.append {h : List (Obj S τ D K)} {e : String × Nat × Option String}
    {s : EffectSpec S (Frame String τ K) (Scale K) τ K D K} (hs : SpecOf h e s)
    (ext : List (Obj S τ D K)) : SpecOf (h ++ ext) e s := by
  obtain ⟨h1, h2, o, h3, h4⟩ := hs
  exact ⟨h1, h2, o, deref_append h3 ext, h4⟩

/-- Loop states that describe the same effects. -/
def AccOf (n : Nat) (h : List (Obj S τ D K)) (a : FitRefs)
    (v : FitState S (Frame String τ K) (Scale K) τ K D K) : Prop :=
  derefFitted h a.fitted = .ok v.fitted ∧ a.taken = v.taken ∧ ∀ e ∈ a.fitted, n ≤ e.2.1

theorem fitStepRef_eq (compile : String → PyM (String → Bool)) (x : Frame String τ K)
    (y : Frame String τ K) (s : Scale K) (a : FitRefs) (e : String × Nat × Option String)
    (h : List (Obj S τ D K)) :
    fitStepRef compile x y s a e h
      = match matchColumns compile x.cols e.2.2 with
        | .error err => (.error err, h)
        | .ok columns =>
          match x.select columns with
          | .error err => (.error err, h)
          | .ok xc =>
            match deref h e.2.1 with
            | .error err => (.error err, h)
            | .ok o =>
              match o.clone.fit y (some xc) s with
              | .error err => (.error err, h ++ [o.clone])
              | .ok o' => (.ok { fitted := a.fitted ++ [(e.1, h.length, columns)],
                                 taken := a.taken ++ columns }, h ++ [o']) := by
  unfold fitStepRef
  rw [OnHeap.lift_bind]
  cases matchColumns compile x.cols e.2.2 with
  | error err => rfl
  | ok columns =>
    simp only
    rw [OnHeap.lift_bind]
    cases x.select columns with
    | error err => rfl
    | ok xc =>
      simp only
      rw [cloneFit_eq]
      rfl

theorem fitStep_eq (compile : String → PyM (String → Bool)) (x : Frame String τ K)
    (y : Frame String τ K) (s : Scale K) (v : FitState S (Frame String τ K) (Scale K) τ K D K)
    (sp : EffectSpec S (Frame String τ K) (Scale K) τ K D K) :
    ∃ w : List String → List EffectWarning, fitStep compile (some x) y s v sp
      = match matchColumns compile x.cols sp.regex with
        | .error err => .error err
        | .ok columns =>
          match x.select columns with
          | .error err => .error err
          | .ok xc =>
            match sp.effect.clone.fit y (some xc) s with
            | .error err => .error err
            | .ok o' => .ok { fitted := v.fitted ++ [⟨sp.name, o', columns⟩],
                              taken := v.taken ++ columns, warnings := w columns } := by
  refine ⟨fun columns => v.warnings ++
    (if columns.any (v.taken.contains ·) then [EffectWarning.alreadySet sp.name] else []) ++
    (if columns.isEmpty then [EffectWarning.noMatch sp.name] else []), ?_⟩
  unfold fitStep
  simp only [bind, Except.bind, pure, Except.pure]
  cases matchColumns compile x.cols sp.regex with
  | error err => rfl
  | ok columns =>
    simp only
    cases x.select columns with
    | error err => rfl
    | ok xc =>
      simp only
      cases sp.effect.clone.fit y (some xc) s <;> rfl

theorem fitStepRef_sim {n : Nat} {h : List (Obj S τ D K)} (hn : n ≤ h.length)
    (compile : String → PyM (String → Bool))
    (x : Frame String τ K) (y : Frame String τ K) (s : Scale K) {a : FitRefs}
    {v : FitState S (Frame String τ K) (Scale K) τ K D K} (ha : AccOf n h a v)
    {e : String × Nat × Option String} {sp : EffectSpec S (Frame String τ K) (Scale K) τ K D K}
    (he : SpecOf h e sp) :
    match fitStep compile (some x) y s v sp with
    | .error err => (fitStepRef compile x y s a e h).1 = .error err
    | .ok v' => ∃ a' ext, fitStepRef compile x y s a e h = (.ok a', h ++ ext) ∧
        AccOf n (h ++ ext) a' v' := by
  obtain ⟨h1, h2, o, h3, h4⟩ := he
  obtain ⟨ha1, ha2, ha3⟩ := ha
  obtain ⟨w, hw⟩ := fitStep_eq compile x y s v sp
  rw [hw, fitStepRef_eq, h1, h2]
  simp only [h3, h4]
  cases matchColumns compile x.cols e.2.2 with
  | error err => rfl
  | ok columns =>
    simp only
    cases x.select columns with
    | error err => rfl
    | ok xc =>
      simp only
      cases sp.effect.clone.fit y (some xc) s with
      | error err => rfl
      | ok o' =>
        refine ⟨_, [o'], rfl, ?_, by simp [ha2], ?_⟩
        · exact derefFitted_snoc (e := (e.1, h.length, columns)) (derefFitted_append ha1 [o'])
            (by rw [deref_ok]; simp)
        · intro e' he'
          rcases List.mem_append.1 he' with he' | he'
          · exact ha3 e' he'
          · simp only [List.mem_singleton] at he'
            rw [he']
            exact hn

theorem fitLoopRef_sim (n : Nat) (compile : String → PyM (String → Bool))
    (x : Frame String τ K) (y : Frame String τ K) (s : Scale K)
    {es : List (String × Nat × Option String)}
    {sps : List (EffectSpec S (Frame String τ K) (Scale K) τ K D K)} :
    ∀ {h : List (Obj S τ D K)} {a : FitRefs}
      {v : FitState S (Frame String τ K) (Scale K) τ K D K}, n ≤ h.length → AccOf n h a v →
      List.Forall₂ (SpecOf h) es sps →
      match sps.foldlM (fitStep compile (some x) y s) v with
      | .error err => (es.foldlM (fitStepRef compile x y s) a h).1 = .error err
      | .ok v' => ∃ a' ext, es.foldlM (fitStepRef compile x y s) a h = (.ok a', h ++ ext) ∧
          AccOf n (h ++ ext) a' v' := by
  induction es generalizing sps with
  | nil =>
    intro h a v hn ha hs
    cases hs
    exact ⟨a, [], by simp, by simpa using ha⟩
  | cons e es ih =>
    intro h a v hn ha hs
    cases hs with
    | cons he hs =>
      rename_i sp sps
      have hstep := fitStepRef_sim hn compile x y s ha he
      rw [List.foldlM_cons, List.foldlM_cons]
      cases hv : fitStep compile (some x) y s v sp with
      | error err =>
        rw [hv] at hstep
        simp only at hstep
        rcases hr : fitStepRef compile x y s a e h with ⟨r, h'⟩
        rw [hr] at hstep
        simp only at hstep
        subst hstep
        rw [OnHeap.bind_error hr]
        rfl
      | ok v' =>
        rw [hv] at hstep
        obtain ⟨a', ext, hr, ha'⟩ := hstep
        rw [OnHeap.bind_ok hr]
        have := ih (sps := sps) (h := h ++ ext) (a := a') (v := v') (by simp; omega) ha'
          (hs.imp fun _ _ h => h.append ext)
        simp only [bind, Except.bind]
        cases hf : sps.foldlM (fitStep compile (some x) y s) v' with
        | error err => rw [hf] at this; exact this
        | ok v'' =>
          rw [hf] at this
          obtain ⟨a'', ext', hr', ha''⟩ := this
          exact ⟨a'', ext ++ ext', by rw [hr', List.append_assoc],
            by rw [← List.append_assoc]; exact ha''⟩

/-! ## Fitting the effects -/

theorem fitDefaultRef_eq (d : Option Nat) (l : Obj S τ D K) (x : Frame String τ K)
    (y : Frame String τ K) (s : Scale K) (a : FitRefs) (h : List (Obj S τ D K)) :
    fitDefaultRef d l x y s a h
      = if (remainingColumns x.cols a.taken).isEmpty then (.ok a.fitted, h)
        else
          match x.select (remainingColumns x.cols a.taken) with
          | .error err => (.error err, h)
          | .ok xc =>
            match defaultRef d l h with
            | (.error err, h) => (.error err, h)
            | (.ok r, h) =>
              match deref h r with
              | .error err => (.error err, h)
              | .ok o =>
                match o.clone.fit y (some xc) s with
                | .error err => (.error err, h ++ [o.clone])
                | .ok o' => (.ok (a.fitted ++
                    [(defaultEffectName, h.length, remainingColumns x.cols a.taken)]), h ++ [o']) := by
  unfold fitDefaultRef
  by_cases hr : (remainingColumns x.cols a.taken).isEmpty = true
  · rw [if_pos hr, if_pos hr]
    rfl
  · rw [if_neg hr, if_neg hr, OnHeap.lift_bind]
    cases x.select (remainingColumns x.cols a.taken) with
    | error err => rfl
    | ok xc =>
      simp only
      rcases hd : defaultRef d l h with ⟨r, h'⟩
      cases r with
      | error err => rw [OnHeap.bind_error hd]
      | ok r =>
        rw [OnHeap.bind_ok hd, cloneFit_eq]
        rfl

/-- The reference of the default effect leads to an object with the given configuration. -/
def DefaultOf (h : List (Obj S τ D K)) (d : Option Nat) (l o : Obj S τ D K) : Prop :=
  match d with
  | none => l.clone = o.clone
  | some r => ∃ o', deref h r = .ok o' ∧ o'.clone = o.clone

theorem DefaultOf.append {h : List (Obj S τ D K)} {d : Option Nat} {l o : Obj S τ D K}
    (hd : DefaultOf h d l o) (ext : List (Obj S τ D K)) : DefaultOf (h ++ ext) d l o := by
  cases d with
  | none => exact hd
  | some r =>
    obtain ⟨o', h1, h2⟩ := hd
    exact ⟨o', deref_append h1 ext, h2⟩

theorem defaultRef_sim {h : List (Obj S τ D K)} {d : Option Nat} {l o : Obj S τ D K}
    (hd : DefaultOf h d l o) :
    ∃ r ext o', defaultRef d l h = (.ok r, h ++ ext) ∧ deref (h ++ ext) r = .ok o' ∧
      o'.clone = o.clone := by
  cases d with
  | none => exact ⟨h.length, [l], l, rfl, by rw [deref_ok]; simp, hd⟩
  | some r =>
    obtain ⟨o', h1, h2⟩ := hd
    exact ⟨r, [], o', by rw [List.append_nil]; rfl, by rw [List.append_nil]; exact h1, h2⟩

theorem fitEffectsRef_sim {n : Nat} {h : List (Obj S τ D K)} (hn : n ≤ h.length)
    (compile : String → PyM (String → Bool)) {es : List (String × Nat × Option String)}
    {sps : List (EffectSpec S (Frame String τ K) (Scale K) τ K D K)} {d : Option Nat}
    {l o : Obj S τ D K} (hs : List.Forall₂ (SpecOf h) es sps) (hd : DefaultOf h d l o)
    (x : Frame String τ K) (y : Frame String τ K) (s : Scale K) :
    match fitEffects compile sps o (some x) y s with
    | .error err => (fitEffectsRef compile es d l x y s h).1 = .error err
    | .ok v => ∃ a ext, fitEffectsRef compile es d l x y s h = (.ok a, h ++ ext) ∧
        derefFitted (h ++ ext) a = .ok v.1 ∧ ∀ e ∈ a, n ≤ e.2.1 := by
  have hloop := fitLoopRef_sim n compile x y s (es := es) (sps := sps) (h := h) (a := ⟨[], []⟩)
    (v := ⟨[], [], []⟩) hn ⟨rfl, rfl, by simp⟩ hs
  unfold fitEffects fitEffectsRef
  cases hv : sps.foldlM (fitStep compile (some x) y s) ⟨[], [], []⟩ with
  | error err =>
    rw [hv] at hloop
    simp only at hloop
    rcases hr : es.foldlM (fitStepRef (S := S) (D := D) compile x y s) ⟨[], []⟩ h with ⟨r, h'⟩
    rw [hr] at hloop
    simp only at hloop
    subst hloop
    rw [OnHeap.bind_error hr]
    rfl
  | ok v =>
    rw [hv] at hloop
    obtain ⟨a, ext, hr, ha1, ha2, ha3⟩ := hloop
    rw [OnHeap.bind_ok hr, fitDefaultRef_eq, ha2]
    simp only [bind, Except.bind, pure, Except.pure]
    by_cases hrest : (remainingColumns x.cols v.taken).isEmpty = true
    · rw [if_pos hrest, if_pos hrest]
      exact ⟨a.fitted, ext, rfl, ha1, ha3⟩
    · rw [if_neg hrest, if_neg hrest]
      cases x.select (remainingColumns x.cols v.taken) with
      | error err => rfl
      | ok xc =>
        obtain ⟨r, ext', o', h1, h2, h3⟩ := defaultRef_sim (hd.append ext)
        simp only [h1, h2, h3]
        cases o.clone.fit y (some xc) s with
        | error err => rfl
        | ok o'' =>
          refine ⟨_, ext ++ ext' ++ [o''], by simp only [List.append_assoc]; rfl, ?_, ?_⟩
          · rw [← List.append_assoc, ← List.append_assoc]
            exact derefFitted_snoc
              (e := (defaultEffectName, (h ++ ext ++ ext').length, remainingColumns x.cols v.taken))
              (derefFitted_append (derefFitted_append ha1 ext') [o''])
              (by rw [deref_ok]; simp)
          · intro e he
            rcases List.mem_append.1 he with he | he
            · exact ha3 e he
            · simp only [List.mem_singleton] at he
              rw [he]
              simp
              omega

/-! ## Dictionaries of references -/

theorem derefDict_cons (h : List (Obj S τ D K)) (e : String × Nat) (d : PyDict Nat) :
    derefDict h (e :: d) = (do
      let o ← deref h e.2
      let r ← derefDict h d
      pure ((e.1, o) :: r)) := by
  unfold derefDict
  rw [List.mapM_cons]
  cases deref h e.2 <;> rfl

theorem derefDict_cons_ok {h : List (Obj S τ D K)} {e : String × Nat} {d : PyDict Nat}
    {v : PyDict (Obj S τ D K)} :
    derefDict h (e :: d) = .ok v ↔
      ∃ o r, deref h e.2 = .ok o ∧ derefDict h d = .ok r ∧ v = (e.1, o) :: r := by
  rw [derefDict_cons]
  cases deref h e.2 with
  | error err => simp [bind, Except.bind]
  | ok o =>
    cases derefDict h d with
    | error err => simp [bind, Except.bind]
    | ok r => simp [bind, Except.bind, pure, Except.pure, eq_comm]

theorem derefDict_mono {h h' : List (Obj S τ D K)} {d : PyDict Nat}
    {v : PyDict (Obj S τ D K)} (hk : ∀ e ∈ d, deref h' e.2 = deref h e.2)
    (hd : derefDict h d = .ok v) : derefDict h' d = .ok v := by
  induction d generalizing v with
  | nil => exact hd
  | cons e d ih =>
    rw [derefDict_cons_ok] at hd ⊢
    obtain ⟨o, r, h1, h2, h3⟩ := hd
    exact ⟨o, r, by rw [hk e (by simp)]; exact h1, ih (fun e he => hk e (by simp [he])) h2, h3⟩

theorem derefDict_set {h : List (Obj S τ D K)} {d : PyDict Nat} {v : PyDict (Obj S τ D K)}
    (hd : derefDict h d = .ok v) (k : String) {r : Nat} {o : Obj S τ D K}
    (ho : deref h r = .ok o) : derefDict h (d.set k r) = .ok (v.set k o) := by
  induction d generalizing v with
  | nil =>
    cases hd
    exact derefDict_cons_ok.2 ⟨o, [], ho, rfl, rfl⟩
  | cons e d ih =>
    obtain ⟨o', r', h1, h2, h3⟩ := derefDict_cons_ok.1 hd
    subst h3
    obtain ⟨k', r0⟩ := e
    unfold PyDict.set
    by_cases hk : k' = k
    · rw [if_pos hk, if_pos hk]
      exact derefDict_cons_ok.2 ⟨o, r', ho, h2, rfl⟩
    · rw [if_neg hk, if_neg hk]
      exact derefDict_cons_ok.2 ⟨o', _, h1, ih h2, rfl⟩

theorem derefDict_ofList {h : List (Obj S τ D K)} {l : List (String × Nat)}
    {v : List (String × Obj S τ D K)} (hl : derefDict h l = .ok v) :
    ∀ {d : PyDict Nat} {w : PyDict (Obj S τ D K)}, derefDict h d = .ok w →
      derefDict h (l.foldl (fun d p => PyDict.set d p.1 p.2) d)
        = .ok (v.foldl (fun d p => PyDict.set d p.1 p.2) w) := by
  induction l generalizing v with
  | nil =>
    intro d w hd
    cases hl
    exact hd
  | cons e l ih =>
    intro d w hd
    obtain ⟨o, r, h1, h2, h3⟩ := derefDict_cons_ok.1 hl
    subst h3
    exact ih h2 (derefDict_set hd e.1 h1)

theorem mem_set_ref {d : PyDict Nat} {k : String} {r : Nat} {e : String × Nat}
    (he : e ∈ d.set k r) : e.2 = r ∨ e ∈ d := by
  induction d with
  | nil => simp [PyDict.set] at he; left; rw [he]
  | cons p d ih =>
    obtain ⟨k', v'⟩ := p
    unfold PyDict.set at he
    by_cases hk : k' = k
    · rw [if_pos hk] at he
      rcases List.mem_cons.1 he with he | he
      · left; rw [he]
      · right; simp [he]
    · rw [if_neg hk] at he
      rcases List.mem_cons.1 he with he | he
      · right; simp [he]
      · rcases ih he with h | h
        · exact .inl h
        · right; simp [h]

theorem mem_ofList_ref {l : List (String × Nat)} {e : String × Nat} :
    ∀ {d : PyDict Nat}, e ∈ l.foldl (fun d p => PyDict.set d p.1 p.2) d →
      (∃ p ∈ l, p.2 = e.2) ∨ e ∈ d := by
  induction l with
  | nil => exact fun h => .inr h
  | cons p l ih =>
    intro d h
    rcases ih h with ⟨q, hq, hqe⟩ | h
    · exact .inl ⟨q, by simp [hq], hqe⟩
    · rcases mem_set_ref h with h | h
      · exact .inl ⟨p, by simp, h.symm⟩
      · exact .inr h

theorem keepRefs_sim {h : List (Obj S τ D K)} {l : List (String × Nat × List String)}
    {v : List (FittedEffect S (Frame String τ K) (Scale K) τ K D K)}
    (hl : derefFitted h l = .ok v) :
    match keepNonSkipped v with
    | .error err => keepRefs h l = .error err
    | .ok kept => ∃ r, keepRefs h l = .ok r ∧
        derefDict h r = .ok (kept.map fun e => (e.name, e.effect)) ∧
        ∀ p ∈ r, ∃ e ∈ l, e.2.1 = p.2 := by
  induction l generalizing v with
  | nil =>
    cases hl
    exact ⟨[], rfl, rfl, by simp⟩
  | cons e l ih =>
    rw [derefFitted_cons] at hl
    cases hd : deref h e.2.1 with
    | error err => rw [hd] at hl; cases hl
    | ok o =>
      rw [hd] at hl
      cases hr : derefFitted h l with
      | error err => rw [hr] at hl; cases hl
      | ok v' =>
        rw [hr] at hl
        cases hl
        have := ih hr
        unfold keepNonSkipped keepRefs
        simp only [hd, bind, Except.bind, pure, Except.pure]
        cases hb : o.skip with
        | error err => rfl
        | ok b =>
          simp only
          cases hk : keepNonSkipped v' with
          | error err =>
            rw [hk] at this
            simp only at this
            rw [this]
          | ok kept =>
            rw [hk] at this
            obtain ⟨r, h1, h2, h3⟩ := this
            simp only [h1]
            cases b with
            | true => exact ⟨r, rfl, h2, fun p hp => by
                obtain ⟨e', he', hp'⟩ := h3 p hp
                exact ⟨e', by simp [he'], hp'⟩⟩
            | false =>
              refine ⟨_, rfl, derefDict_cons_ok.2 ⟨o, _, hd, h2, rfl⟩, fun p hp => ?_⟩
              rcases List.mem_cons.1 hp with hp | hp
              · exact ⟨e, by simp, by rw [hp]⟩
              · obtain ⟨e', he', hp'⟩ := h3 p hp
                exact ⟨e', by simp [he'], hp'⟩

theorem nonSkippedRefs_sim {h : List (Obj S τ D K)} {l : List (String × Nat × List String)}
    {v : List (FittedEffect S (Frame String τ K) (Scale K) τ K D K)}
    (hl : derefFitted h l = .ok v) :
    match nonSkipped v with
    | .error err => nonSkippedRefs h l = .error err
    | .ok objs => ∃ r, nonSkippedRefs h l = .ok r ∧ derefDict h r = .ok objs ∧
        ∀ p ∈ r, ∃ e ∈ l, e.2.1 = p.2 := by
  have := keepRefs_sim hl
  unfold nonSkipped nonSkippedRefs
  cases hk : keepNonSkipped v with
  | error err =>
    rw [hk] at this
    simp only at this
    rw [this]
    rfl
  | ok kept =>
    rw [hk] at this
    obtain ⟨r, h1, h2, h3⟩ := this
    rw [h1]
    refine ⟨_, rfl, derefDict_ofList h2 rfl, fun p hp => ?_⟩
    rcases mem_ofList_ref hp with ⟨q, hq, hqp⟩ | hp
    · obtain ⟨e, he, heq⟩ := h3 q hq
      exact ⟨e, he, heq.trans hqp⟩
    · cases hp

end
end PV
