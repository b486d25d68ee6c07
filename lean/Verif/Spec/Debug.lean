import Verif.Model.Debug
/-!
# Vocabulary of the properties: printed text
-/
namespace Statig

/-- A text consisting of the lines `ls`, each ended by a newline, each indented by `by`. -/
def indentedLines («by» : String) (ls : List (List Char)) : List Char :=
  ls.flatMap fun l => «by».toList ++ l ++ ['\n']

/-- `Printed.Full p t`: the printing succeeded with exactly the text `t`. -/
def Printed.Full (p : Printed) (t : List Char) : Prop := p.ok = true ∧ p.text = t

/-- `ls` and `last` are the lines of the text `t`: all but the last are followed by a newline. -/
structure LinesOf (t : List Char) (ls : List (List Char)) (last : List Char) : Prop where
  text : t = indentedLines "" ls ++ last
  noNewline : ∀ l ∈ ls, '\n' ∉ l
  noNewlineLast : '\n' ∉ last

/-- Printing with `d` always succeeds, and no printed text is a proper beginning of another. -/
structure PrefixFree {A : Type} (d : A → Printed) : Prop where
  ok : ∀ a, (d a).ok = true
  free : ∀ a b, (d a).text <+: (d b).text → (d a).text = (d b).text

end Statig
