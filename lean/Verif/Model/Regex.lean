import Verif.Model.Py

/-!
# Regular expressions

Python's `re` (library code, trusted) as used by `sktime/base.py` 1108-1115 and
`sktime/_expand_column_per_level.py` 57-63: `re.compile(p)` and `pattern.match(s) is not None`,
i.e. is there a match that starts at the beginning of `s`.

Modelled: literals, `.`, `^`, `$`, alternation, groups `(...)` and `(?:...)`, `*`, `+`, `?`
(and their lazy variants, which accept the same strings), escaped punctuation.  Everything
else (classes, counted or possessive repeats, `\d`, look-around, flags, ...) is reported as
`unsupported`, a value outside of the model, and nothing is claimed about it.
-/

namespace PV

/-- Regular expressions of the `re` module (`sktime/_expand_column_per_level.py` 57-62, `sktime/base.py` 1115). -/
inductive Re where
  | eps
  | chr (c : Char)
  | any
  | bol
  | eol
  | seq (a b : Re)
  | alt (a b : Re)
  | star (a : Re)
  deriving DecidableEq, Repr

/-- Characters with a special meaning in a pattern.
`re` module; used by `sktime/_expand_column_per_level.py` 57, `sktime/base.py` 1115. -/
def metaChars : List Char := ['\\', '.', '^', '$', '*', '+', '?', '{', '}', '[', ']', '|', '(', ')']

/-- `re.error`, or outside of the model (`sktime/_expand_column_per_level.py` 57, `sktime/base.py` 1115). -/
inductive ReErr where
  /-- `re.error` -/
  | syntax
  /-- not modelled -/
  | unsupported
  deriving DecidableEq, Repr

/-- An open group: finished alternatives and the items of the current one, both last first.
The flag tells whether an item may be repeated.
`re` module; used by `sktime/_expand_column_per_level.py` 57, `sktime/base.py` 1115. -/
structure PFrame where
  alts : List Re
  items : List (Re × Bool)

/-- A group that was just opened (`re` module; `sktime/_expand_column_per_level.py` 57, `sktime/base.py` 1115). -/
def PFrame.new : PFrame := ⟨[], []⟩

/-- Concatenation of items given last first.
`re` module; `sktime/_expand_column_per_level.py` 57, `sktime/base.py` 1115. -/
def seqOf (items : List (Re × Bool)) : Re := items.foldl (fun acc r => .seq r.1 acc) .eps

/-- The expression of a group. `re` module; `sktime/_expand_column_per_level.py` 57, `sktime/base.py` 1115. -/
def PFrame.close (f : PFrame) : Re := f.alts.foldl (fun acc r => .alt r acc) (seqOf f.items)

/-- Add an item (`re` module; `sktime/_expand_column_per_level.py` 57, `sktime/base.py` 1115). -/
def PFrame.push (f : PFrame) (r : Re) (repeatable : Bool) : PFrame :=
  { f with items := (r, repeatable) :: f.items }

/-- The parser, one character at a time; `stack` holds the enclosing groups.
`re` module; `sktime/_expand_column_per_level.py` 57, `sktime/base.py` 1115. -/
def parseGo : List PFrame → PFrame → List Char → Except ReErr Re
  | stack, cur, [] => if stack = [] then .ok cur.close else .error .syntax
  | stack, cur, c :: rest =>
    if c = '(' then
      match rest with
      | '?' :: ':' :: rest' => parseGo (cur :: stack) .new rest'
      | '?' :: _ => .error .unsupported
      | rest => parseGo (cur :: stack) .new rest
    else if c = ')' then
      match stack with
      | [] => .error .syntax
      | f :: stack => parseGo stack (f.push cur.close true) rest
    else if c = '|' then parseGo stack ⟨seqOf cur.items :: cur.alts, []⟩ rest
    else if c = '*' ∨ c = '+' ∨ c = '?' then
      match cur.items with
      | (r, true) :: items =>
        let r' := if c = '*' then Re.star r else if c = '+' then .seq r (.star r) else .alt r .eps
        let cur' : PFrame := ⟨cur.alts, (r', false) :: items⟩
        match rest with
        | '?' :: rest' => parseGo stack cur' rest'
        | '+' :: _ => .error .unsupported
        | rest => parseGo stack cur' rest
      | _ => .error .syntax
    else if c = '.' then parseGo stack (cur.push .any true) rest
    else if c = '^' then parseGo stack (cur.push .bol false) rest
    else if c = '$' then parseGo stack (cur.push .eol false) rest
    else if c = '\\' then
      match rest with
      | [] => .error .syntax
      | d :: rest' =>
        if d.isAlphanum ∨ 128 ≤ d.toNat then .error .unsupported
        else parseGo stack (cur.push (.chr d) true) rest'
    else if c = '[' ∨ c = '{' then .error .unsupported
    else parseGo stack (cur.push (.chr c) true) rest

/-- `re.compile(p)`. (`sktime/_expand_column_per_level.py` 57, `sktime/base.py` 1115.) -/
def parseRe (p : String) : Except ReErr Re := parseGo [] .new p.toList

/-- `step` zero to `k` times. `re` module; `sktime/_expand_column_per_level.py` 62, `sktime/base.py` 1115. -/
def iterEnds (step : Nat → List Nat) : Nat → List Nat → List Nat
  | 0, S => S
  | k + 1, S => S ++ iterEnds step k (S.flatMap step)

/-- Positions at which a match of the expression starting at position `i` of `s` can end.
`.` does not match a newline; `$` matches at the end and before a final newline; `^` only at
the beginning (no flags). `re` module; `sktime/_expand_column_per_level.py` 62, `sktime/base.py` 1115. -/
def ends (s : List Char) : Re → Nat → List Nat
  | .eps, i => [i]
  | .chr c, i => if s[i]? = some c then [i + 1] else []
  | .any, i => if s[i]?.any (· ≠ '\n') then [i + 1] else []
  | .bol, i => if i = 0 then [i] else []
  | .eol, i => if i = s.length ∨ (i + 1 = s.length ∧ s[i]? = some '\n') then [i] else []
  | .seq a b, i => (ends s a i).flatMap (ends s b)
  | .alt a b, i => ends s a i ++ ends s b i
  | .star a, i => iterEnds (ends s a) (s.length + 1 - i) [i]

/-- `pattern.match(s) is not None`. (`sktime/_expand_column_per_level.py` 62, `sktime/base.py` 1115.) -/
def reMatch (r : Re) (s : String) : Bool := !(ends s.toList r 0).isEmpty

/-- `re.compile(p)` followed by `.match` on demand; `none`: `p` is outside of the model.
(`sktime/_expand_column_per_level.py` 57-62, `sktime/base.py` 1115.) -/
def reCompile (p : String) : Option (PyM (String → Bool)) :=
  match parseRe p with
  | .ok r => some (.ok (reMatch r))
  | .error .syntax => some (.error .reError)
  | .error .unsupported => none

/-- `sep.join(l)`. (`utils/regex.py` 25, `sktime/_expand_column_per_level.py` 100.) -/
def pyJoin (sep : String) : List String → String
  | [] => ""
  | [s] => s
  | s :: t :: l => s ++ sep ++ pyJoin sep (t :: l)

/-- `no_input_columns` (`utils/regex.py` 5). -/
def noInputColumns : String := "^$"

/-- `starts_with` (`utils/regex.py` 8-25) for a list of prefixes. -/
def startsWith (prefixes : List String) : String :=
  "^(?:" ++ pyJoin "|" prefixes ++ ")"

/-- `starts_with` for a single string (`utils/regex.py` 23-24). -/
def startsWithStr (p : String) : String := startsWith [p]

/-- `exact` (`utils/regex.py` 28-42). -/
def exact (s : String) : String := "^" ++ s ++ "$"

end PV
