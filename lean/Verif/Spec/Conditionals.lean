import Verif.Model.Preprocess
/-!
Specification of conditional inclusion (C01): which lines of a file are visible, stated by looking
at positions in the file, without any stack.
-/
namespace Verif.C01

/-- What the lines of a file amount to, conditionals aside: a text to emit, the opening of a
conditional with the truth value it has *at that point*, an `endif`, or nothing. -/
inductive Ev where
  | emit (t : Text)
  | opn (b : Bool)
  | cls
  | skip
deriving DecidableEq, Repr

/-- Is a conditional, opened just before these events, still open after them? Scan forward keeping
the nesting depth `d` of conditionals opened since; an `endif` at depth 0 closes it. -/
def stillOpen : Nat → List Ev → Bool
  | _, [] => true
  | d, .opn _ :: r => stillOpen (d + 1) r
  | 0, .cls :: _ => false
  | d + 1, .cls :: r => stillOpen d r
  | d, .emit _ :: r => stillOpen d r
  | d, .skip :: r => stillOpen d r

/-- The truth values of the conditionals that are open after the given events. -/
def openConds : List Ev → List Bool
  | [] => []
  | .opn b :: r => if stillOpen 0 r then b :: openConds r else openConds r
  | .emit _ :: r => openConds r
  | .cls :: r => openConds r
  | .skip :: r => openConds r

/-- What an event contributes to the output after the events `pre`: its text, provided that every
conditional open there was true when it was opened. -/
def shownAfter (pre : List Ev) : Ev → Option Text
  | .emit t => if ∀ b ∈ openConds pre, b = true then some t else none
  | _ => none

/-- The texts emitted at positions where every open conditional was true when opened. -/
def visible (evs : List Ev) : List Text :=
  (List.range evs.length).filterMap (fun i => evs[i]?.bind (shownAfter (evs.take i)))

/-- The attributes in force after the given (classified) lines: every declaration and reset takes
effect, in order. -/
def attrsAfter (a : CtxAttrs) : List (Option RawElem) → CtxAttrs
  | [] => a
  | some (.decl n v _) :: r => attrsAfter (a.set n v) r
  | some (.reset n _) :: r => attrsAfter (a.unset n) r
  | _ :: r => attrsAfter a r

/-- The event of one line, given the attributes in force there. -/
def evOf (a : CtxAttrs) (line : Text) : Option RawElem → Ev
  | none => .emit line
  | some (.decl _ _ raw) => .emit raw
  | some (.reset _ raw) => .emit raw
  | some (.delim _ _ raw) => .emit raw
  | some (.sect _ raw) => .emit raw
  | some (.incl _) => .skip
  | some .endif => .cls
  | some (.cond c) =>
    match c.single with
    | some t => if c.eval a.all then .emit t else .skip
    | none => .opn (c.eval a.all)

/-- The events of a file without include directives and without level offsets in force, when the
classification of a line does not depend on the surrounding lines. -/
def eventsOf (a : CtxAttrs) (cls : Text → Option RawElem) (lines : List Text) : List Ev :=
  (List.range lines.length).map (fun i =>
    let line := lines.getD i []
    evOf (attrsAfter a ((lines.take i).map cls)) line (cls line))

end Verif.C01
