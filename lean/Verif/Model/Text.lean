import Verif.Model.Py

/-!
# The text of a model file before YAML reads it (parser.py:653-660)

Texts are lists of characters.  What YAML makes of the result is not modelled, except for comments (`yamlView`).
-/

set_option autoImplicit false

namespace Pydsge.Text

abbrev Txt := List Char

/-- `s.replace(pat, rep)` for a pattern that is not empty: occurrences are replaced from left to right, a character belongs to one
occurrence at most. -/
def replace (pat rep : Txt) : Txt → Txt
  | [] => []
  | c :: cs =>
    if pat.isPrefixOf (c :: cs) then rep ++ replace pat rep (cs.drop (pat.length - 1))
    else c :: replace pat rep cs
termination_by s => s.length
decreasing_by all_goals simp <;> omega

/-- `re.sub(r"@ ?\n", " ", s)` (parser.py:655). -/
def joinLines : Txt → Txt
  | [] => []
  | '@' :: '\n' :: cs => ' ' :: joinLines cs
  | '@' :: ' ' :: '\n' :: cs => ' ' :: joinLines cs
  | c :: cs => c :: joinLines cs

/-- parser.py:653: `^` becomes `**`. -/
def caret (s : Txt) : Txt := replace ['^'] ['*', '*'] s

/-- parser.py:654: semicolons are removed. -/
def semi (s : Txt) : Txt := replace [';'] [] s

/-- parser.py:657-659: a `~` that wants to be a `-`. -/
def tilde (s : Txt) : Txt :=
  replace "   ~ ".toList "   - ".toList (replace "\n  ~ ".toList "\n  - ".toList (replace "\n ~ ".toList "\n - ".toList s))

/-- parser.py:653-659. -/
def prep (s : Txt) : Txt := tilde (joinLines (semi (caret s)))

/-- YAML's comments (contract of `yaml.safe_load`, l.660): a `#` at the start of a line or after a blank starts a comment, which ends with
the line.  `cm`: within a comment; `bl`: at the start of a line or after a blank.  Quoted texts, in which there are no comments, are
not modelled. -/
def dropComments (cm bl : Bool) : Txt → Txt
  | [] => []
  | c :: cs =>
    if c = '\n' then c :: dropComments false true cs
    else if cm then dropComments true bl cs
    else if c = '#' && bl then dropComments true bl cs
    else c :: dropComments false (c = ' ' || c = '\t') cs

/-- The text without its comments. -/
def yamlView (s : Txt) : Txt := dropComments false true s

end Pydsge.Text
