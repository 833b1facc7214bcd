import Mathlib.Data.String.Basic
import Verif.Lemmas.Regex
import Verif.Model.FitEffects

/-!
# C56, C57, C58: the column patterns
-/

namespace PV

/-- A string without characters that are special in patterns. -/
def Plain (s : String) : Prop := ∀ c ∈ s.toList, c ∉ metaChars

instance (s : String) : Decidable (Plain s) := by unfold Plain; infer_instance

/-! ## Parsing -/

theorem parseGo_literal {stack : List PFrame} {cur : PFrame} {c : Char} {rest : List Char}
    (h : c ∉ metaChars) :
    parseGo stack cur (c :: rest) = parseGo stack (cur.push (.chr c) true) rest := by
  simp only [metaChars, List.mem_cons, List.not_mem_nil, or_false, not_or] at h
  rw [parseGo.eq_def]
  simp only [h, if_false, or_false]

theorem parseGo_literals {stack : List PFrame} (rest : List Char) : ∀ (l : List Char) (cur : PFrame),
    (∀ c ∈ l, c ∉ metaChars) →
    parseGo stack cur (l ++ rest)
      = parseGo stack { cur with items := (l.map fun c => (Re.chr c, true)).reverse ++ cur.items } rest
  | [], cur, _ => rfl
  | c :: l, cur, h => by
    rw [List.cons_append, parseGo_literal (h c (by simp)),
      parseGo_literals rest l _ fun c' hc' => h c' (by simp [hc'])]
    simp [PFrame.push]

theorem parseGo_bol {stack : List PFrame} {cur : PFrame} {rest : List Char} :
    parseGo stack cur ('^' :: rest) = parseGo stack (cur.push .bol false) rest := by
  rw [parseGo.eq_def]; simp

theorem parseGo_eol {stack : List PFrame} {cur : PFrame} {rest : List Char} :
    parseGo stack cur ('$' :: rest) = parseGo stack (cur.push .eol false) rest := by
  rw [parseGo.eq_def]; simp

theorem parseGo_alt {stack : List PFrame} {cur : PFrame} {rest : List Char} :
    parseGo stack cur ('|' :: rest) = parseGo stack ⟨seqOf cur.items :: cur.alts, []⟩ rest := by
  rw [parseGo.eq_def]; simp

theorem parseGo_open {stack : List PFrame} {cur : PFrame} {rest : List Char} :
    parseGo stack cur ('(' :: '?' :: ':' :: rest) = parseGo (cur :: stack) .new rest := by
  rw [parseGo.eq_def]; simp

theorem parseGo_close {f : PFrame} {stack : List PFrame} {cur : PFrame} {rest : List Char} :
    parseGo (f :: stack) cur (')' :: rest) = parseGo stack (f.push cur.close true) rest := by
  rw [parseGo.eq_def]; simp

/-! ## Matching literals -/

theorem seqOf_foldl (items : List (Re × Bool)) (acc : Re) (s : List Char) (i j : Nat) :
    ReMatches s (items.foldl (fun acc r => .seq r.1 acc) acc) i j ↔
      ∃ k, ReMatches s (seqOf items) i k ∧ ReMatches s acc k j := by
  unfold seqOf
  induction items generalizing acc j with
  | nil =>
    simp only [List.foldl_nil]
    constructor
    · intro h; exact ⟨i, .eps i, h⟩
    · rintro ⟨k, h, h'⟩; cases h; exact h'
  | cons a items ih =>
    simp only [List.foldl_cons]
    rw [ih]
    constructor
    · rintro ⟨k, h1, h2⟩
      cases h2 with
      | seq h2 h3 => exact ⟨_, (ih _ _).2 ⟨k, h1, .seq h2 (.eps _)⟩, h3⟩
    · rintro ⟨k, h1, h2⟩
      obtain ⟨m, h3, h4⟩ := (ih _ _).1 h1
      cases h4 with
      | seq h5 h6 => cases h6; exact ⟨m, h3, .seq h5 h2⟩

theorem seqOf_append (a b : List (Re × Bool)) (s : List Char) (i j : Nat) :
    ReMatches s (seqOf (a ++ b)) i j ↔
      ∃ k, ReMatches s (seqOf b) i k ∧ ReMatches s (seqOf a) k j := by
  have : seqOf (a ++ b) = b.foldl (fun acc r => .seq r.1 acc) (seqOf a) := by
    simp [seqOf]
  rw [this, seqOf_foldl]

theorem seqOf_single (r : Re) (b : Bool) (s : List Char) (i j : Nat) :
    ReMatches s (seqOf [(r, b)]) i j ↔ ReMatches s r i j := by
  simp only [seqOf, List.foldl_cons, List.foldl_nil]
  constructor
  · intro h; cases h with | seq h1 h2 => cases h2; exact h1
  · intro h; exact .seq h (.eps _)

/-- A literal string matches exactly where it occurs. -/
theorem seqOf_literals (s : List Char) : ∀ (l : List Char) (i j : Nat),
    ReMatches s (seqOf (l.map fun c => (Re.chr c, true)).reverse) i j ↔
      j = i + l.length ∧ l <+: s.drop i
  | [], i, j => by
    simp only [List.map_nil, List.reverse_nil, seqOf, List.foldl_nil, List.length_nil,
      Nat.add_zero, List.nil_prefix, and_true]
    exact ⟨fun h => by cases h; rfl, fun h => h ▸ .eps _⟩
  | c :: l, i, j => by
    rw [List.map_cons, List.reverse_cons, seqOf_append]
    simp only [seqOf_single, seqOf_literals s l]
    constructor
    · rintro ⟨k, h1, h2, h3⟩
      cases h1 with
      | chr _ _ hc =>
        obtain ⟨hi, hc'⟩ := List.getElem?_eq_some_iff.1 hc
        refine ⟨by simp; omega, ?_⟩
        rw [List.drop_eq_getElem_cons hi, hc']
        exact List.cons_prefix_cons.2 ⟨rfl, h3⟩
    · rintro ⟨h1, h2⟩
      have hi : i < s.length := by
        by_contra hn
        rw [List.drop_eq_nil_of_le (by omega)] at h2
        simp at h2
      rw [List.drop_eq_getElem_cons hi] at h2
      obtain ⟨hc, h3⟩ := List.cons_prefix_cons.1 h2
      refine ⟨i + 1, .chr _ _ ?_, by simp at h1; omega, h3⟩
      rw [List.getElem?_eq_getElem hi, hc]

theorem bol_iff {s : List Char} {i j : Nat} : ReMatches s .bol i j ↔ i = 0 ∧ j = 0 :=
  ⟨fun h => by cases h; exact ⟨rfl, rfl⟩, by rintro ⟨rfl, rfl⟩; exact .bol⟩

theorem eol_iff {s : List Char} {i j : Nat} : ReMatches s .eol i j ↔
    j = i ∧ (i = s.length ∨ (i + 1 = s.length ∧ s[i]? = some '\n')) := by
  constructor
  · intro h
    cases h with
    | eol => exact ⟨rfl, Or.inl rfl⟩
    | eolNewline _ h1 h2 => exact ⟨rfl, Or.inr ⟨h1, h2⟩⟩
  · rintro ⟨rfl, rfl | ⟨h1, h2⟩⟩
    · exact .eol
    · exact .eolNewline _ h1 h2

/-! ## C56 -/

theorem parse_exact {s : String} (hs : Plain s) :
    parseRe (exact s) = .ok (seqOf ([(Re.eol, false)] ++
      ((s.toList.map fun c => (Re.chr c, true)).reverse ++ [(Re.bol, false)]))) := by
  unfold parseRe exact
  rw [String.toList_append, String.toList_append]
  show parseGo [] PFrame.new ('^' :: (s.toList ++ ['$'])) = _
  rw [parseGo_bol, parseGo_literals _ _ _ hs, parseGo_eol]
  rfl

/-- For a plain name the pattern `exact(s)` compiles and accepts a column name iff it is `s`
or `s` followed by a newline (Python's `$` also matches before a final newline).
Missing from C56: names with special characters and column names ending in a newline, for
which it is false (`C56_special_refuted`, `C56_newline_refuted`). -/
theorem C56_exact_partial {s : String} (hs : Plain s) : ∃ m, reCompile (exact s) = some (.ok m) ∧
    (∀ t, m t = true ↔ t = s ∨ t = s ++ "\n") ∧
    ∀ t : String, t.toList.getLast? ≠ some '\n' → (m t = true ↔ t = s) := by
  have key : ∀ t, reMatch (seqOf ([(Re.eol, false)] ++
      ((s.toList.map fun c => (Re.chr c, true)).reverse ++ [(Re.bol, false)]))) t = true ↔
      t = s ∨ t = s ++ "\n" := by
    intro t
    rw [reMatch_iff]
    simp only [seqOf_append, seqOf_single, seqOf_literals, bol_iff, eol_iff]
    constructor
    · rintro ⟨j, k, ⟨k', ⟨-, rfl⟩, hk, hp⟩, rfl, h⟩
      rw [List.drop_zero] at hp
      obtain ⟨u, hu⟩ := hp
      rw [Nat.zero_add] at hk
      subst hk
      rw [← hu] at h
      rcases h with h | ⟨h1, h2⟩
      · left
        rw [List.length_append] at h
        have : u = [] := List.eq_nil_of_length_eq_zero (by omega)
        rw [this, List.append_nil] at hu
        exact (String.toList_inj.1 hu).symm
      · right
        rw [List.length_append] at h1
        rw [List.getElem?_append_right (le_refl _), Nat.sub_self] at h2
        obtain ⟨c, rfl⟩ := List.length_eq_one_iff.1 (show u.length = 1 by omega)
        simp only [List.getElem?_cons_zero, Option.some.injEq] at h2
        subst h2
        apply String.toList_inj.1
        rw [String.toList_append, ← hu]
        rfl
    · rintro (rfl | rfl)
      · exact ⟨_, _, ⟨0, ⟨trivial, rfl⟩, rfl, by simp⟩, rfl, Or.inl (by simp)⟩
      · refine ⟨_, _, ⟨0, ⟨trivial, rfl⟩, rfl, by simp [String.toList_append]⟩, rfl, Or.inr ⟨?_, ?_⟩⟩
        · simp [String.toList_append]
        · simp [String.toList_append]
  refine ⟨_, ?_, key, ?_⟩
  · unfold reCompile
    rw [parse_exact hs]
  · intro t ht
    rw [key t]
    constructor
    · rintro (h | rfl)
      · exact h
      · exact absurd (by simp [String.toList_append]) ht
    · exact Or.inl

/-- **C56** is false for names with special characters: `exact("a|b")` selects the column
`apple` and `exact("cost (usd)")` does not select its own column; `exact("a(")` does not even
compile. -/
theorem C56_special_refuted :
    (reCompile (exact "a|b")).map (·.map fun m => m "apple") = some (.ok true) ∧
    (reCompile (exact "cost (usd)")).map (·.map fun m => m "cost (usd)") = some (.ok false) ∧
    (reCompile (exact "a(")).map (·.map fun m => m "a(") = some (.error .reError) := by
  decide +kernel

theorem C56_newline_refuted :
    (reCompile (exact "a")).map (·.map fun m => m "a\n") = some (.ok true) := by decide +kernel

/-! ## C57 -/

theorem toList_pyJoin (sep : String) : ∀ (s : String) (l : List String),
    (pyJoin sep (s :: l)).toList = s.toList ++ (l.flatMap fun t => sep.toList ++ t.toList)
  | s, [] => by simp [pyJoin]
  | s, t :: l => by
    rw [pyJoin, String.toList_append, String.toList_append, toList_pyJoin sep t l]
    simp

/-- Parsing of the alternatives of `starts_with`. -/
theorem parse_alternatives {f : PFrame} : ∀ (ps : List String) (cur : PFrame),
    (∀ p ∈ ps, Plain p) →
    ∃ r, parseGo [f] cur ((ps.flatMap fun p => '|' :: p.toList) ++ [')'])
        = .ok (PFrame.close (f.push r true)) ∧
      ∀ s i j, ReMatches s r i j ↔ ReMatches s cur.close i j ∨
        ∃ p ∈ ps, j = i + p.toList.length ∧ p.toList <+: s.drop i := by
  intro ps
  induction ps with
  | nil =>
    intro cur _
    refine ⟨cur.close, ?_, by simp⟩
    rw [List.flatMap_nil, List.nil_append, parseGo_close, parseGo]
    simp
  | cons p ps ih =>
    intro cur hps
    rw [List.flatMap_cons, List.append_assoc, List.cons_append, parseGo_alt,
      parseGo_literals _ _ _ (hps p (by simp))]
    obtain ⟨r, hr, hm⟩ := ih _ fun q hq => hps q (by simp [hq])
    refine ⟨r, hr, ?_⟩
    intro s i j
    rw [hm]
    have hclose : ReMatches s (PFrame.close ⟨seqOf cur.items :: cur.alts,
          (p.toList.map fun c => (Re.chr c, true)).reverse ++ []⟩) i j ↔
        ReMatches s cur.close i j ∨ (j = i + p.toList.length ∧ p.toList <+: s.drop i) := by
      have hgen : ∀ (alts : List Re) (a b : Re),
          ReMatches s (alts.foldl (fun acc r => .alt r acc) (.alt a b)) i j ↔
          ReMatches s (alts.foldl (fun acc r => .alt r acc) a) i j ∨ ReMatches s b i j := by
        intro alts
        induction alts with
        | nil =>
          intro a b
          exact ⟨fun h => by cases h with
            | altLeft h => exact Or.inl h
            | altRight h => exact Or.inr h, fun h => h.elim .altLeft .altRight⟩
        | cons x alts ih =>
          intro a b
          rw [List.foldl_cons, List.foldl_cons]
          have hcongr : ∀ (alts : List Re) (a b : Re),
              (ReMatches s a i j ↔ ReMatches s b i j) →
              (ReMatches s (alts.foldl (fun acc r => .alt r acc) a) i j ↔
               ReMatches s (alts.foldl (fun acc r => .alt r acc) b) i j) := by
            intro alts
            induction alts with
            | nil => intro a b h; exact h
            | cons y alts ih =>
              intro a b h
              rw [List.foldl_cons, List.foldl_cons]
              apply ih
              constructor
              · intro h'
                cases h' with
                | altLeft h' => exact .altLeft h'
                | altRight h' => exact .altRight (h.1 h')
              · intro h'
                cases h' with
                | altLeft h' => exact .altLeft h'
                | altRight h' => exact .altRight (h.2 h')
          rw [hcongr alts (.alt x (.alt a b)) (.alt (.alt x a) b), ih]
          constructor
          · intro h
            cases h with
            | altLeft h => exact .altLeft (.altLeft h)
            | altRight h =>
              cases h with
              | altLeft h => exact .altLeft (.altRight h)
              | altRight h => exact .altRight h
          · intro h
            cases h with
            | altLeft h =>
              cases h with
              | altLeft h => exact .altLeft h
              | altRight h => exact .altRight (.altLeft h)
            | altRight h => exact .altRight (.altRight h)
      unfold PFrame.close
      rw [List.append_nil, List.foldl_cons, hgen, seqOf_literals]
    rw [hclose]
    simp only [List.mem_cons, exists_eq_or_imp]
    rw [or_assoc]

/-- **C57** for a non-empty list of plain prefixes: the pattern compiles and accepts exactly
the names starting with one of them.
Missing from C57: the empty list and prefixes with special characters, for which it is false
(`C57_empty_refuted`, `C57_special_refuted`). -/
theorem C57_starts_with_partial {ps : List String} (hne : ps ≠ []) (hps : ∀ p ∈ ps, Plain p) :
    ∃ m, reCompile (startsWith ps) = some (.ok m) ∧
      ∀ t, m t = true ↔ ∃ p ∈ ps, p.toList <+: t.toList := by
  obtain ⟨p, ps, rfl⟩ := List.exists_cons_of_ne_nil hne
  have hstr : (startsWith (p :: ps)).toList = '^' :: '(' :: '?' :: ':' ::
      (p.toList ++ ((ps.flatMap fun q => '|' :: q.toList) ++ [')'])) := by
    unfold startsWith
    rw [String.toList_append, String.toList_append, toList_pyJoin]
    simp
  obtain ⟨r, hr, hm⟩ := parse_alternatives (f := PFrame.new.push .bol false) ps
    { PFrame.new with items := (p.toList.map fun c => (Re.chr c, true)).reverse ++ [] }
    fun q hq => hps q (by simp [hq])
  have hparse : parseRe (startsWith (p :: ps))
      = .ok (PFrame.close ((PFrame.new.push .bol false).push r true)) := by
    unfold parseRe
    rw [hstr, parseGo_bol, parseGo_open, parseGo_literals _ _ _ (hps p (by simp)), ← hr]
    rfl
  refine ⟨reMatch _, by unfold reCompile; rw [hparse], ?_⟩
  intro t
  rw [reMatch_iff]
  have hc : ∀ i j, ReMatches t.toList (PFrame.close ((PFrame.new.push .bol false).push r true)) i j
      ↔ i = 0 ∧ ReMatches t.toList r 0 j := by
    intro i j
    have : PFrame.close ((PFrame.new.push .bol false).push r true)
        = seqOf ([(r, true)] ++ [(Re.bol, false)]) := rfl
    rw [this, seqOf_append]
    simp only [seqOf_single, bol_iff]
    constructor
    · rintro ⟨k, ⟨rfl, rfl⟩, h⟩; exact ⟨rfl, h⟩
    · rintro ⟨rfl, h⟩; exact ⟨0, ⟨rfl, rfl⟩, h⟩
  simp only [hc, true_and, hm, List.drop_zero]
  have hp : ∀ j, ReMatches t.toList (PFrame.close
      { PFrame.new with items := (p.toList.map fun c => (Re.chr c, true)).reverse ++ [] }) 0 j ↔
      j = 0 + p.toList.length ∧ p.toList <+: t.toList := by
    intro j
    have : PFrame.close
      { PFrame.new with items := (p.toList.map fun c => (Re.chr c, true)).reverse ++ [] }
      = seqOf (p.toList.map fun c => (Re.chr c, true)).reverse := by
      simp [PFrame.close, PFrame.new]
    rw [this, seqOf_literals, List.drop_zero]
  simp only [hp]
  constructor
  · rintro ⟨j, ⟨-, h⟩ | ⟨q, hq, -, h⟩⟩
    · exact ⟨p, by simp, h⟩
    · exact ⟨q, by simp [hq], h⟩
  · rintro ⟨q, hq, h⟩
    rcases List.mem_cons.1 hq with rfl | hq
    · exact ⟨_, Or.inl ⟨rfl, h⟩⟩
    · exact ⟨_, Or.inr ⟨q, hq, rfl, h⟩⟩

/-- **C57**: a single string means the list with this string. -/
theorem C57_single_string {p : String} (hp : Plain p) :
    ∃ m, reCompile (startsWithStr p) = some (.ok m) ∧
      ∀ t, m t = true ↔ p.toList <+: t.toList := by
  obtain ⟨m, hm, h⟩ := C57_starts_with_partial (ps := [p]) (by simp) (by simpa using hp)
  exact ⟨m, hm, by simpa using h⟩

/-- **C57** is false for the empty list: no prefix is given but every name is accepted. -/
theorem C57_empty_refuted :
    ∃ m, reCompile (startsWith []) = some (.ok m) ∧ ∀ t, m t = true := by
  refine ⟨_, rfl, ?_⟩
  intro t
  rw [reMatch_iff]
  exact ⟨0, .seq .bol (.seq (.eps 0) (.eps 0))⟩

/-- **C57** is false for prefixes with special characters. -/
theorem C57_special_refuted :
    (reCompile (startsWith ["a.b"])).map (·.map fun m => m "axb") = some (.ok true) ∧
    (reCompile (startsWith ["a+b"])).map (·.map fun m => m "a+b_1") = some (.ok false) := by
  decide +kernel

/-! ## C58 -/

/-- **C58**: `no_input_columns` accepts no non-empty name, the name consisting of a single
newline excepted (`C58_newline_refuted`). -/
theorem C58_no_input_columns_partial : ∃ m, reCompile noInputColumns = some (.ok m) ∧
    ∀ t, m t = true ↔ t = "" ∨ t = "\n" := by
  obtain ⟨m, hm, h, -⟩ := C56_exact_partial (s := "") (by decide)
  refine ⟨m, by rw [← hm]; rfl, ?_⟩
  intro t
  rw [h t]
  rfl

theorem C58_newline_refuted :
    (reCompile noInputColumns).map (·.map fun m => m "\n") = some (.ok true) := by decide +kernel

/-- **C58**: an effect with regex `None` gets no column, an effect with `no_input_columns`
gets no column out of named columns. -/
theorem C58_no_columns {cols : List String} (hc : "" ∉ cols) (hn : "\n" ∉ cols)
    {compile : String → PyM (String → Bool)}
    (hcomp : ∀ p c, reCompile p = some c → compile p = c) :
    matchColumns compile cols none = .ok [] ∧
      matchColumns compile cols (some noInputColumns) = .ok [] := by
  refine ⟨rfl, ?_⟩
  obtain ⟨m, hm, h⟩ := C58_no_input_columns_partial
  unfold matchColumns
  simp only [hcomp _ _ hm, bind, Except.bind, pure, Except.pure, Except.ok.injEq]
  rw [List.filter_eq_nil_iff]
  intro t ht hmt
  rcases (h t).1 hmt with rfl | rfl
  · exact hc ht
  · exact hn ht

/-! Examples. -/
example : Plain "price_eur" := by decide
example : (reCompile (exact "price")).map (·.map fun m => (m "price", m "price2", m "xprice"))
    = some (.ok (true, false, false)) := by decide +kernel
example : (reCompile (startsWith ["ad_", "tv"])).map (·.map fun m => (m "ad_1", m "tv", m "xtv"))
    = some (.ok (true, true, false)) := by decide +kernel
example : (reCompile "(a|b)+c*").map (·.map fun m => (m "ababcc", m "cab"))
    = some (.ok (true, false)) := by decide +kernel
example : (reCompile "*a").map (·.map fun m => m "a") = some (.error .reError) := by decide +kernel

end PV
