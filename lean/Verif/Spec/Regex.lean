import Verif.Model.Regex

/-! # What it means for a regular expression to match (declarative) -/

namespace PV

/-- `r` matches the characters of `s` from position `i` to position `j`. -/
inductive ReMatches (s : List Char) : Re → Nat → Nat → Prop
  | eps (i) : ReMatches s .eps i i
  | chr (i c) : s[i]? = some c → ReMatches s (.chr c) i (i + 1)
  | any (i c) : s[i]? = some c → c ≠ '\n' → ReMatches s .any i (i + 1)
  | bol : ReMatches s .bol 0 0
  | eol : ReMatches s .eol s.length s.length
  | eolNewline (i) : i + 1 = s.length → s[i]? = some '\n' → ReMatches s .eol i i
  | seq {a b i j k} : ReMatches s a i j → ReMatches s b j k → ReMatches s (.seq a b) i k
  | altLeft {a b i j} : ReMatches s a i j → ReMatches s (.alt a b) i j
  | altRight {a b i j} : ReMatches s b i j → ReMatches s (.alt a b) i j
  | starNil {a} (i) : ReMatches s (.star a) i i
  | starStep {a i j k} : ReMatches s a i j → ReMatches s (.star a) j k → ReMatches s (.star a) i k

end PV
