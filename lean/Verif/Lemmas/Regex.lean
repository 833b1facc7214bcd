import Mathlib.Data.List.Basic
import Mathlib.Logic.Relation
import Verif.Spec.Regex

/-! # The matcher computes the declarative semantics -/

namespace PV

theorem ReMatches.bounds {s : List Char} {r : Re} {i j : Nat} (h : ReMatches s r i j) :
    i ≤ j ∧ (j ≤ s.length ∨ j = i) := by
  have hlt : ∀ {i : Nat} {c : Char}, s[i]? = some c → i < s.length := by
    intro i c h
    exact (List.getElem?_eq_some_iff.1 h).1
  induction h with
  | eps i => omega
  | chr i c h => have := hlt h; omega
  | any i c h _ => have := hlt h; omega
  | bol => omega
  | eol => omega
  | eolNewline i h _ => omega
  | seq _ _ ih1 ih2 => omega
  | altLeft _ ih => exact ih
  | altRight _ ih => exact ih
  | starNil i => omega
  | starStep _ _ ih1 ih2 => omega

theorem mem_iterEnds {step : Nat → List Nat} {j : Nat} : ∀ (k : Nat) (S : List Nat),
    j ∈ iterEnds step k S → ∃ i ∈ S, Relation.ReflTransGen (fun a b => b ∈ step a) i j
  | 0, S, h => ⟨j, h, .refl⟩
  | k + 1, S, h => by
    rw [iterEnds, List.mem_append] at h
    rcases h with h | h
    · exact ⟨j, h, .refl⟩
    · obtain ⟨i, hi, hij⟩ := mem_iterEnds k _ h
      obtain ⟨i0, hi0, hs⟩ := List.mem_flatMap.1 hi
      exact ⟨i0, hi0, .head hs hij⟩

theorem iterEnds_mono {step : Nat → List Nat} {j : Nat} : ∀ {k k' : Nat} {S : List Nat},
    k ≤ k' → j ∈ iterEnds step k S → j ∈ iterEnds step k' S
  | 0, 0, S, _, h => h
  | 0, k' + 1, S, _, h => by
    rw [iterEnds]
    exact List.mem_append_left _ h
  | k + 1, 0, S, hk, h => absurd hk (by omega)
  | k + 1, k' + 1, S, hk, h => by
    rw [iterEnds, List.mem_append] at h ⊢
    rcases h with h | h
    · exact Or.inl h
    · exact Or.inr (iterEnds_mono (by omega) h)

theorem iterEnds_subset {step : Nat → List Nat} {j : Nat} : ∀ {k : Nat} {S S' : List Nat},
    (∀ x ∈ S, x ∈ S') → j ∈ iterEnds step k S → j ∈ iterEnds step k S'
  | 0, S, S', hs, h => hs _ h
  | k + 1, S, S', hs, h => by
    rw [iterEnds, List.mem_append] at h ⊢
    rcases h with h | h
    · exact Or.inl (hs _ h)
    · refine Or.inr (iterEnds_subset ?_ h)
      intro x hx
      obtain ⟨y, hy, hxy⟩ := List.mem_flatMap.1 hx
      exact List.mem_flatMap.2 ⟨y, hs y hy, hxy⟩

theorem star_iter {s : List Char} {a r : Re} {i j : Nat} {step : Nat → List Nat}
    (hstep : ∀ i j, ReMatches s a i j → j ∈ step i) (hr : r = .star a)
    (h : ReMatches s r i j) : j ∈ iterEnds step (j - i) [i] := by
  induction h with
  | starNil i => simp [iterEnds]
  | @starStep a' i k j h1 h2 _ ih2 =>
    cases hr
    have hb := h1.bounds
    have hb2 := h2.bounds
    have ih := ih2 rfl
    by_cases hik : k = i
    · subst hik; exact ih
    · obtain ⟨m, hm⟩ : ∃ m, j - i = m + 1 := ⟨j - i - 1, by omega⟩
      rw [hm, iterEnds]
      refine List.mem_append_right _ (iterEnds_subset ?_ (iterEnds_mono (by omega) ih))
      intro x hx
      rw [List.mem_singleton] at hx
      subst hx
      simp [hstep _ _ h1]
  | _ => cases hr

theorem star_of_rtg {s : List Char} {a : Re} {i j : Nat} {R : Nat → Nat → Prop}
    (hR : ∀ i j, R i j → ReMatches s a i j) (h : Relation.ReflTransGen R i j) :
    ReMatches s (.star a) i j := by
  induction h using Relation.ReflTransGen.head_induction_on with
  | refl => exact .starNil _
  | head h1 _ ih => exact .starStep (hR _ _ h1) ih

/-- The matcher is correct and complete. -/
theorem mem_ends {s : List Char} {r : Re} : ∀ {i j : Nat},
    j ∈ ends s r i ↔ ReMatches s r i j := by
  induction r with
  | eps =>
    intro i j
    simp only [ends, List.mem_singleton]
    exact ⟨fun h => h ▸ .eps _, fun h => by cases h; rfl⟩
  | chr c =>
    intro i j
    simp only [ends]
    constructor
    · intro h
      split at h
      · rename_i hc; rw [List.mem_singleton] at h; subst h; exact .chr _ _ hc
      · cases h
    · intro h; cases h with | chr _ _ hc => rw [if_pos hc]; simp
  | any =>
    intro i j
    simp only [ends]
    constructor
    · intro h
      split at h
      · rename_i hc
        rw [List.mem_singleton] at h; subst h
        cases hs : s[i]? with
        | none => rw [hs] at hc; simp at hc
        | some c => rw [hs] at hc; exact .any _ c hs (by simpa using hc)
      · cases h
    · intro h; cases h with | any _ c hc hn => rw [if_pos (by simp [hc, hn])]; simp
  | bol =>
    intro i j
    simp only [ends]
    constructor
    · intro h
      split at h
      · rename_i hc; rw [List.mem_singleton] at h; subst h; subst hc; exact .bol
      · cases h
    · intro h; cases h; simp
  | eol =>
    intro i j
    simp only [ends]
    constructor
    · intro h
      split at h
      · rename_i hc
        rw [List.mem_singleton] at h; subst h
        rcases hc with hc | ⟨h1, h2⟩
        · subst hc; exact .eol
        · exact .eolNewline _ h1 h2
      · cases h
    · intro h
      cases h with
      | eol => rw [if_pos (Or.inl rfl)]; simp
      | eolNewline _ h1 h2 => rw [if_pos (Or.inr ⟨h1, h2⟩)]; simp
  | seq a b iha ihb =>
    intro i j
    simp only [ends, List.mem_flatMap]
    constructor
    · rintro ⟨k, h1, h2⟩; exact .seq (iha.1 h1) (ihb.1 h2)
    · intro h; cases h with | seq h1 h2 => exact ⟨_, iha.2 h1, ihb.2 h2⟩
  | alt a b iha ihb =>
    intro i j
    simp only [ends, List.mem_append]
    constructor
    · rintro (h | h)
      · exact .altLeft (iha.1 h)
      · exact .altRight (ihb.1 h)
    · intro h
      cases h with
      | altLeft h => exact Or.inl (iha.2 h)
      | altRight h => exact Or.inr (ihb.2 h)
  | star a iha =>
    intro i j
    simp only [ends]
    constructor
    · intro h
      obtain ⟨i', hi', hrt⟩ := mem_iterEnds _ _ h
      rw [List.mem_singleton] at hi'
      subst hi'
      exact star_of_rtg (fun _ _ hab => iha.1 hab) hrt
    · intro h
      have hb := h.bounds
      exact iterEnds_mono (by omega) (star_iter (fun i j hij => iha.2 hij) rfl h)

theorem reMatch_iff {r : Re} {s : String} :
    reMatch r s = true ↔ ∃ j, ReMatches s.toList r 0 j := by
  unfold reMatch
  rw [Bool.not_eq_true', List.isEmpty_eq_false_iff_exists_mem]
  simp only [mem_ends]

end PV
