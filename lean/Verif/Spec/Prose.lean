import Verif.Spec.Paragraphs
import Verif.Model.Ids

/-!
Specification: the page for a document of plain prose.
-/
namespace Verif
namespace Prose
open Paragraphs

/-- A character as it is written: `<`, `>` and `&` as entities; without the attribute `unicode`, or if it is true, all others as they are; if it is
false, those which are not ASCII by their number. -/
def char (unicode : Bool) (c : Char) : Text :=
  if c = '<' then "&lt;".toList
  else if c = '>' then "&gt;".toList
  else if c = '&' then "&amp;".toList
  else if unicode ∨ (32 ≤ c.toNat ∧ c.toNat ≤ 126) ∨ (9 ≤ c.toNat ∧ c.toNat ≤ 13) then [c]
  else "&#".toList ++ itoa c.toNat ++ ";".toList

/-- The text of lines, without the spaces at their ends. -/
def text (ls : List Line) : Text := joinLF (ls.map Line.text)

/-- A paragraph in HTML; nothing for a blank line. -/
def Block.html (unicode : Bool) : Block → Text
  | .para l ls => "<div class=\"paragraph\">\n<p>".toList ++ (text (l :: ls)).flatMap (char unicode) ++ "</p>\n</div>\n".toList
  | .blank _ => []

/-- The whole page, without head. -/
def page (unicode : Bool) (bs : List Block) : Text := bs.flatMap (Block.html unicode)

end Prose
end Verif
