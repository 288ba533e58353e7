import Verif.Model.Substitute

/-!
Specification: text in which nothing is to be interpreted.
-/
namespace Verif
namespace PlainText
open Subs (Sub)
open Walk (Any)

/-- What has to be in a text for a substitution to do something (besides the special characters, see `pieces`). -/
def marks : Sub → List String
  | .attributes => ["{"]
  | .passthroughs => ["+", "pass:"]
  | .quotes => ["*", "_", "`", "#", "^", "~"]
  | .replacements => ["'", "`\"", "\"`", "(C)", "(R)", "(TM)", "...", "--", "->", "<-", "=>", "<="]
  | .macros => ["[", "<<", "((", "@", "http://", "https://", "ftp://", "irc://", "mailto:"]
  | .postReplacements => ["+"]
  | .callouts => ["<0", "<1", "<2", "<3", "<4", "<5", "<6", "<7", "<8", "<9"]
  | .specialchars => []

/-- What is interpreted whatever the substitutions: an escaped apostrophe, and the character that marks places in the parser's own texts. -/
def always : List String := ["\\'", "\uFFFD"]

/-- Nothing in `t` is for one of the substitutions. -/
def Plain (E : List Sub) (t : Text) : Prop :=
  (∀ m ∈ always, ¬ m.toList <:+: t) ∧ ∀ s ∈ E, ∀ m ∈ marks s, ¬ m.toList <:+: t

/-- `<`, `>` and `&`. -/
def isSpecial (c : Char) : Bool := c == '<' || c == '>' || c == '&'

/-- The text as elements: the special characters, if they are to be replaced, and the text between them. -/
def pieces (special : Bool) : Text → List Any
  | [] => []
  | c :: t => if special && isSpecial c then .special [c] :: pieces special t else match pieces special t with
    | .str u :: es => .str (c :: u) :: es
    | es => .str [c] :: es

end PlainText
end Verif
