import Verif.Props.Documents

/-!
Specification: documents with conditions, nested to any depth, and the lines that are chosen.
-/
namespace Verif
namespace Chosen
open C50 (Blanks Untouched Resets SimpleDeclaration)

/-- What is written: lines; declarations and resets of an attribute; parts between `ifdef::name[]` (or `ifndef::name[]`, not `positive`) and `endif::[]`; and
`ifdef::name[content]` on a single line. `gap` are blanks at the end of a line, and `again` is what is written after `endif::`. -/
inductive Part where
  | line (l : Text)
  | declare (name l : Text)
  | reset (name l : Text)
  | when (positive : Bool) (name gap : Text) (parts : List Part) (again gap' : Text)
  | short (positive : Bool) (name content gap : Text)

/-- The keyword of a condition upon an attribute. -/
def keyword : Bool → Text
  | true => "ifdef::".toList
  | false => "ifndef::".toList

/-- The line of a directive. -/
def directive (kw name content gap : Text) : Text := kw ++ name ++ ['['] ++ content ++ [']'] ++ gap

mutual
/-- The lines as they are written. -/
def Part.written : Part → List Text
  | .line l => [l]
  | .declare _ l => [l]
  | .reset _ l => [l]
  | .when p n g ps a g' => directive (keyword p) n [] g :: (written ps ++ [directive "endif::".toList a [] g'])
  | .short p n c g => [directive (keyword p) n c g]
def written : List Part → List Text
  | [] => []
  | p :: ps => p.written ++ written ps
end

mutual
/-- The attributes that are set after a part, if those in `set` are before it. -/
def Part.after (set : List Text) : Part → List Text
  | .line _ => set
  | .declare n _ => n :: set
  | .reset n _ => set.filter (· ≠ n)
  | .when _ _ _ ps _ _ => after set ps
  | .short _ _ _ _ => set
def after (set : List Text) : List Part → List Text
  | [] => set
  | p :: ps => after (p.after set) ps
end

/-- The condition: is the attribute given by the caller or set by the document? -/
def holds (given : Text → Bool) (set : List Text) (positive : Bool) (name : Text) : Bool := (given name || set.contains name) == positive

mutual
/-- The lines that are chosen, if the attributes `given` are given by the caller and those in `set` are set by the lines before. -/
def Part.chosen (given : Text → Bool) (set : List Text) : Part → List Text
  | .line l => [l]
  | .declare _ l => [l]
  | .reset _ l => [l]
  | .when p n _ ps _ _ => if holds given set p n then chosen given set ps else []
  | .short p n c _ => if holds given set p n then [c] else []
def chosen (given : Text → Bool) (set : List Text) : List Part → List Text
  | [] => []
  | p :: ps => p.chosen given set ++ chosen given (p.after set) ps
end

/-- A directive can be written: no spaces and brackets in the name, one line of content, and lines of at most 65535 bytes. -/
structure DirectiveOk (kw nm ct gp : Text) : Prop where
  name : ∀ c ∈ nm, c ∉ ['\r', '\n', ' ', '[']
  content : ∀ c ∈ ct, c ∉ ['\r', '\n', ']']
  gap : Blanks gp
  short : utf8Len (directive kw nm ct gp) ≤ 65535

mutual
/-- Lines are no directives, and only those that say so are declarations and resets. -/
def Part.Ok (alnum : Char → Bool) : Part → Prop
  | .line l => Untouched l ∧ l.head? ≠ some ':'
  | .declare n l => Untouched l ∧ SimpleDeclaration alnum n l
  | .reset n l => Untouched l ∧ Resets alnum n l
  | .when p n g ps a g' => n ≠ [] ∧ DirectiveOk (keyword p) n [] g ∧ Ok alnum ps ∧ DirectiveOk "endif::".toList a [] g'
  | .short p n c g => n ≠ [] ∧ c ≠ [] ∧ DirectiveOk (keyword p) n c g
def Ok (alnum : Char → Bool) : List Part → Prop
  | [] => True
  | p :: ps => p.Ok alnum ∧ Ok alnum ps
end

end Chosen
end Verif
