import Verif.Model.Preprocess
/-!
Model of the grammar rule `Ifeval` (pkg/parser/parser.peg lines 82-117, with `AttributeName`
318-320, `AttributeReferenceValue` 643-654, `Integer` 2844-2846 and `Space` 2852) as ordered-choice
recognisers: a failing later element never makes an earlier choice be reconsidered, as in PEG.
-/
namespace Verif.Ifeval

/-- The Unicode class `[\pL\pN]` is a parameter. -/
abbrev Class := Char → Bool

/-- parser.peg:2852 `Space <- [\t ]`. -/
def isSpace (c : Char) : Bool := c = ' ' || c = '\t'

/-- parser.peg:318-320 `AttributeName <- [\pL\pN_] ([\pL\pN-])*`. -/
def pName (alnum : Class) : Text → Option (Text × Text)
  | [] => none
  | c :: cs =>
    if alnum c || c = '_' then
      some (c :: cs.takeWhile (fun c => alnum c || c = '-'), cs.dropWhile (fun c => alnum c || c = '-'))
    else none

/-- parser.peg:643-654 `AttributeReferenceValue`: the escaped form is a plain string element (a value
that compares to nothing), the unescaped form a reference. -/
def pRef (alnum : Class) : Text → Option (Operand × Text)
  | '\\' :: '{' :: r =>
    match pName alnum r with
    | some (_, '}' :: r') => some (.lit (.other 1), r')
    | _ => none
  | '{' :: r =>
    match pName alnum r with
    | some (n, '}' :: r') => some (.ref (String.ofList n), r')
    | _ => none
  | _ => none

/-- parser.peg:95 the class `[\pL\pN,?!;_-]`. -/
def isWord (alnum : Class) (c : Char) : Bool :=
  alnum c || c = ',' || c = '?' || c = '!' || c = ';' || c = '_' || c = '-'

/-- parser.peg:92-93: a reference between two quote characters. -/
def pQuotedRef (alnum : Class) (q : Char) : Text → Option (Operand × Text)
  | [] => none
  | c :: r =>
    if c = q then
      match pRef alnum r with
      | some (o, c' :: r') => if c' = q then some (o, r') else none
      | _ => none
    else none

/-- parser.peg:95-96: a word between two quote characters. -/
def pQuotedWord (alnum : Class) (q : Char) : Text → Option (Operand × Text)
  | [] => none
  | c :: r =>
    if c = q then
      let w := r.takeWhile (isWord alnum)
      if w = [] then none
      else match r.dropWhile (isWord alnum) with
        | c' :: r' => if c' = q then some (.lit (.str w), r') else none
        | [] => none
    else none

/-- parser.peg:91-97 `IfevalExpressionMember`: ordered choice. -/
def pMember (alnum : Class) (t : Text) : Option (Operand × Text) :=
  (pQuotedRef alnum '"' t).or <| (pQuotedRef alnum '\'' t).or <| (pRef alnum t).or <|
  (pQuotedWord alnum '"' t).or <| (pQuotedWord alnum '\'' t).or <|
  (pInteger t).map (fun p => (Operand.lit (.int p.1), p.2))

/-- A literal of the grammar. -/
def pLit (s : Text) (t : Text) : Option Text := if s.isPrefixOf t then some (t.drop s.length) else none

/-- parser.peg:99-117 `IfevalExpressionOperand`: the alternatives in the order of the grammar. -/
def operators : List (Text × CmpOp) :=
  [("==".toList, .eq), ("!=".toList, .ne), ("<".toList, .lt), ("<=".toList, .le), (">".toList, .gt), (">=".toList, .ge)]

/-- First alternative that matches. -/
def pFirst : List (Text × CmpOp) → Text → Option (CmpOp × Text)
  | [], _ => none
  | (s, op) :: alts, t =>
    match pLit s t with
    | some r => some (op, r)
    | none => pFirst alts t

/-- parser.peg:99-117. -/
def pOperator (t : Text) : Option (CmpOp × Text) := pFirst operators t

/-- parser.peg:86-87: the closing bracket, trailing spaces, end of the line. -/
def pClose (t : Text) : Bool :=
  match t with
  | ']' :: t => (t.dropWhile isSpace).isEmpty
  | _ => false

/-- parser.peg:85-89: what follows the operator. -/
def pRight (alnum : Class) (l : Operand) (op : CmpOp) (t : Text) : Option Cond :=
  match pMember alnum (t.dropWhile isSpace) with
  | none => none
  | some (r, t) => if pClose t then some (.ifeval l op r) else none

/-- parser.peg:82-89 `Ifeval`, up to the end of the line. -/
def pIfeval (alnum : Class) (t : Text) : Option Cond :=
  match pLit "ifeval::[".toList t with
  | none => none
  | some t =>
    match pMember alnum t with
    | none => none
    | some (l, t) =>
      match pOperator (t.dropWhile isSpace) with
      | none => none
      | some (op, t) => pRight alnum l op t

end Verif.Ifeval
