import Verif.Model.SeasonalMode
import Verif.Props.Params

/-!
# C22: constructors and wrong effect modes

Linear, logarithmic and Hill effects reject a wrong mode when they are made.  The constructor of a
seasonality takes anything; its `fit` raises.
-/

namespace PV
section
variable {K O : Type} [Field K] [DecidableEq K]

/-- Specification: the two modes there are. -/
def IsMode (m : PVal K O) : Prop := m = .str "additive" ∨ m = .str "multiplicative"

omit [Field K] [DecidableEq K] in
theorem arg_first {ps : List (String × Option (PVal K O))} {kwf : Bool} {n : String} {d : PVal K O}
    {args b kw : PyDict (PVal K O)} (h : bindArgs ⟨(n, some d) :: ps, kwf⟩ args = .ok (b, kw)) :
    arg b n = (PyDict.get? args n).getD d := by
  unfold bindArgs at h
  simp only at h
  split at h
  · cases h
  · rw [List.mapM_cons] at h
    have hb : bindParam args (n, some d) = .ok (n, (PyDict.get? args n).getD d) := by
      unfold bindParam
      cases hg : PyDict.get? args n <;> simp
    rw [hb] at h
    obtain ⟨l, hl, h2⟩ := bind_ok h
    obtain ⟨l', _, h3⟩ := bind_ok (m := ps.mapM (bindParam args)) (f := fun l' => pure (_ :: l')) hl
    obtain rfl := Except.ok.inj h3
    have h4 := Except.ok.inj h2
    have h5 : _ = b := congrArg Prod.fst h4
    subst h5
    simp [arg, PyDict.get?, List.lookup]

omit [Field K] [DecidableEq K] in
theorem modeEffectInit_mode {m : PVal K O} {o : PyDict (PVal K O)} (h : modeEffectInit m = .ok o) :
    IsMode m := by
  cases m with
  | str s =>
    by_cases hs : s = "additive" ∨ s = "multiplicative"
    · exact hs.imp (fun h => by rw [h]) (fun h => by rw [h])
    · rw [modeEffectInit, if_neg hs] at h
      cases h
  | _ => cases h

omit [Field K] [DecidableEq K] in
theorem modeEffectInit_wrong {m : PVal K O} (h : ¬ IsMode m) :
    modeEffectInit m = .error .valueError := by
  cases m with
  | str s =>
    have hs : ¬ (s = "additive" ∨ s = "multiplicative") := fun hs =>
      h (hs.imp (fun h => by rw [h]) (fun h => by rw [h]))
    rw [modeEffectInit, if_neg hs]
  | _ => rfl

/-- A linear, logarithmic or Hill effect that could be made has one of the two modes: the one
given, else multiplicative.  It is the one the object has. -/
theorem C22_made (d : DefaultPriors O) {c : PyClass (PVal K O)}
    (hc : c = linearCtor d.normal ∨ c = logCtor d.gamma ∨ c = hillCtor d.gamma d.halfNormal)
    {args o : PyDict (PVal K O)} (h : c.call args = .ok o) :
    ∃ m, IsMode m ∧ m = (PyDict.get? args "effect_mode").getD (.str "multiplicative") ∧
      PyDict.get? o "effect_mode" = some m := by
  obtain ⟨b, kw, hb, hbody⟩ := call_ok h
  rcases hc with rfl | rfl | rfl <;>
  · obtain ⟨base, h1, h2⟩ := bind_ok hbody
    refine ⟨_, modeEffectInit_mode h1, arg_first hb, ?_⟩
    obtain rfl := modeEffectInit_ok h1
    obtain rfl := Except.ok.inj h2
    rfl

/-- A linear, logarithmic or Hill effect with any other mode is a `ValueError`, whatever the
other (documented) arguments are. -/
theorem C22_not_made (d : DefaultPriors O) {c : PyClass (PVal K O)}
    (hc : c = linearCtor d.normal ∨ c = logCtor d.gamma ∨ c = hillCtor d.gamma d.halfNormal)
    {args : PyDict (PVal K O)} {m : PVal K O} (hm : PyDict.get? args "effect_mode" = some m)
    (hbad : ¬ IsMode m) (hdoc : ∀ a ∈ args, a.1 ∈ c.sig.names) :
    c.call args = .error .valueError := by
  have key : ∀ c : PyClass (PVal K O), (∀ a ∈ args, a.1 ∈ c.sig.names) →
      (∀ q ∈ c.sig.params, q.2 ≠ none) → ∃ b, bindArgs c.sig args = .ok (b, []) := by
    intro c hdoc hdef
    have hex : args.filter (fun a => a.1 ∉ c.sig.names) = [] :=
      List.filter_eq_nil_iff.2 fun a ha => by simp [hdoc a ha]
    have hall : ∀ l : List (String × Option (PVal K O)), (∀ q ∈ l, q.2 ≠ none) →
        ∃ b, l.mapM (bindParam args) = .ok b := by
      intro l hl
      induction l with
      | nil => exact ⟨[], rfl⟩
      | cons q l ih =>
        obtain ⟨b, hb⟩ := ih fun q hq => hl q (List.mem_cons_of_mem _ hq)
        have : ∃ r, bindParam args q = .ok r := by
          unfold bindParam
          cases PyDict.get? args q.1 with
          | some v => exact ⟨_, rfl⟩
          | none =>
            cases hq : q.2 with
            | none => exact absurd hq (hl q List.mem_cons_self)
            | some v => exact ⟨_, rfl⟩
        obtain ⟨r, hr⟩ := this
        exact ⟨r :: b, by rw [List.mapM_cons, hr, hb]; rfl⟩
    obtain ⟨b, hb⟩ := hall _ hdef
    refine ⟨b, ?_⟩
    unfold bindArgs
    simp only [hex, ne_eq, not_true_eq_false, and_false, if_false]
    rw [hb]
    rfl
  rcases hc with rfl | rfl | rfl <;>
  · obtain ⟨b, hb⟩ := key _ hdoc (by
      intro q hq
      simp only [linearCtor, logCtor, hillCtor, List.mem_cons, List.not_mem_nil, or_false] at hq
      rcases hq with rfl | rfl | rfl | rfl <;> simp)
    have ha := arg_first hb
    rw [hm] at ha
    unfold PyClass.call
    rw [hb]
    show (modeEffectInit (arg b "effect_mode") >>= _) = _
    rw [ha, Option.getD_some, modeEffectInit_wrong hbad]
    rfl

/-- The constructor of a seasonality takes any mode and keeps it. -/
theorem C22_seasonal_made (sp terms freq m : PVal K O) :
    ∃ o, (fourierCtor (K := K) (O := O)).call [("sp_list", sp), ("fourier_terms_list", terms),
      ("freq", freq), ("effect_mode", m)] = .ok o ∧ PyDict.get? o "effect_mode" = some m :=
  ⟨_, rfl, rfl⟩

end

section
variable {F Y Sc τ V K O : Type} [Zero V] [DecidableEq τ] [Field K] [DecidableEq K]
  {lib : FourierLib F τ V} {compile : String → PyM (String → Bool)}
  {order : List String → List String} {normal : O}

/-- Fitting a seasonality never succeeds with a wrong mode; where a right mode would be
fitted it is a `ValueError`.  With a right mode it is the fit the other theorems are about. -/
theorem C22_seasonal_fit (mode : PVal K O) (s : FourierState F) (y : Y)
    (X : Option (Frame String τ V)) (scale : Sc) :
    (IsMode mode → fourierFitAny lib compile order normal mode s y X scale
      = (fourierHooks lib compile order).fit s y X scale) ∧
    (¬ IsMode mode → ∀ s', fourierFitAny lib compile order normal mode s y X scale ≠ .ok s') ∧
    (¬ IsMode mode → ∀ s', (fourierHooks lib compile order).fit s y X scale = .ok s' →
      fourierFitAny lib compile order normal mode s y X scale = .error .valueError) := by
  have hgood : IsMode mode → ∃ o, (linearCtor normal).call
      [("prior", .obj normal), ("effect_mode", mode)] = .ok o := by
    rintro (rfl | rfl) <;> exact ⟨_, rfl⟩
  have hbad : ¬ IsMode mode → (linearCtor normal).call
      [("prior", .obj normal), ("effect_mode", mode)] = .error .valueError := by
    intro h
    show (modeEffectInit mode >>= _) = _
    rw [modeEffectInit_wrong h]
    rfl
  cases X with
  | none => exact ⟨fun _ => rfl, (fun _ s' h => by cases h), (fun _ s' h => by cases h)⟩
  | some x =>
    refine ⟨fun h => ?_, fun h s' hs => ?_, fun h s' hs => ?_⟩
    · obtain ⟨o, ho⟩ := hgood h
      unfold fourierFitAny fourierHooks
      simp only [ho]
      rfl
    · unfold fourierFitAny at hs
      obtain ⟨φ, _, hs⟩ := bind_ok hs
      obtain ⟨x', _, hs⟩ := bind_ok hs
      obtain ⟨ex, _, hs⟩ := bind_ok hs
      rw [hbad h] at hs
      cases hs
    · obtain ⟨φ, h1, hs⟩ := bind_ok hs
      obtain ⟨x', h2, hs⟩ := bind_ok hs
      obtain ⟨ex, h3, hs⟩ := bind_ok hs
      unfold fourierFitAny
      simp only [h1]
      show (lib.transform φ x >>= _) = _
      rw [h2]
      show (fourierExpand compile order s.expand x' >>= _) = _
      rw [h3]
      show ((linearCtor normal).call _ >>= _) = _
      rw [hbad h]
      rfl

/-- A misspelled mode of a linear effect, with a prior given. -/
example : (linearCtor (K := ℚ) "Normal(0, 0.1)").call
    [("effect_mode", .str "aditive"), ("prior", .obj "p")] = .error .valueError :=
  C22_not_made ⟨"Normal(0, 0.1)", "", "", ""⟩ (.inl rfl) rfl
    (by rintro (h | h) <;> exact absurd (PVal.str.inj h) (by decide)) (by simp [linearCtor, Signature.names])

/-- And of a seasonality: a fit that succeeds with a right mode. -/
example : (fourierFitAny (K := ℚ) (Y := Unit) (Sc := Unit) (F := Unit) (τ := ℕ) (V := ℚ)
      ⟨fun _ => .ok (), fun _ x => .ok x⟩ (fun _ => .ok fun _ => true) id "p" (.str "aditive")
      ⟨none, none, none⟩ () (some ⟨1, ["sin"], []⟩) () = .error .valueError) ∧
    ∃ s', fourierFitAny (K := ℚ) (Y := Unit) (Sc := Unit) (F := Unit) (τ := ℕ) (V := ℚ)
      ⟨fun _ => .ok (), fun _ x => .ok x⟩ (fun _ => .ok fun _ => true) id "p" (.str "additive")
      ⟨none, none, none⟩ () (some ⟨1, ["sin"], []⟩) () = .ok s' := by
  constructor
  · rfl
  · exact ⟨_, rfl⟩

end
end PV
