import Verif.Model.Grammar
import Verif.Model.Substitute

/-!
The interpreter of the generated parser (parser.go:73147-73497) with the values it builds. `Verif.Peg.run` leaves them out; here every
expression gives the values of its parts as well, and the code of the actions gives the value of an action.

A Go value is a `Walk.Any`; a `[]byte` (the value of a literal or of a character class) is `.text`, as a string. The predicates of the grammar
are given by `Sem`, as in `Peg.run`: what they see of the values of labels follows from the text.
-/
namespace Verif
namespace Peg
open Walk (Any)

/-- The meaning of the actions, for their values: number of the action, state, value of the parts of its expression, text that was
matched. -/
abbrev Code (σ : Type) := Nat → σ → List Any → Text → Any

/-- `p.sliceFrom(start)`: the text from the beginning of `t` to the remaining text `r`. -/
def span (t r : Text) : Text := t.take (t.length - r.length)

/-- The result of an expression: failure, or success with the values of its parts and the remaining text. -/
inductive ResV (σ : Type) where
  | fail (s : σ)
  | ok (s : σ) (vals : List Any) (rest : Text)

/-- The result without the values. -/
def ResV.erase {σ : Type} : ResV σ → Res σ
  | .fail s => .fail s
  | .ok s _ r => .ok s r

/-- `vals = append(vals, val)` of the loops (parser.go:73388-73404, 73456-73468): the values of a first iteration before those of the others. -/
def consVals (v : List Any) : List Any → List Any
  | [.slice vs] => [.slice (v ++ vs)]
  | _ => [.slice v]

/-- The values of the iterations before the result of the rest of the loop. -/
def ResV.cons {σ : Type} (v : List Any) : ResV σ → ResV σ
  | .fail s => .fail s
  | .ok s vs r => .ok s (consVals v vs) r

/-- The interpreter, as `Peg.run`, with values. A sequence (`scope`) has the slice of the values of its parts
(parser.go:73426-73442); a loop has the slice of the values of its iterations; `e?` has the value of `e` or nil (73470-73476);
assertions and code blocks have nil (73214-73238, 73372-73386, 73444-73450); a literal, a class or `.` have the text they match
(73240-73322, 73353-73370). -/
def runV {σ : Type} (G : Nat → Exp) (S : Sem σ) (A : Code σ) : Nat → Exp → Text → σ → Text → Option (ResV σ)
  | 0, _, _, _, _ => none
  | _ + 1, .eps, _, s, t => some (.ok s [] t)
  | _ + 1, .any, _, s, t => match t with
    | [] => some (.fail s)
    | c :: r => some (.ok s [.text [c]] r)
  | _ + 1, .lit l, _, s, t => match matchLit l t with
    | none => some (.fail s)
    | some r => some (.ok s [.text (span t r)] r)
  | _ + 1, .litI l, _, s, t => match matchLitI l t with
    | none => some (.fail s)
    | some r => some (.ok s [.text (span t r)] r)
  | _ + 1, .cls c, _, s, t => match t with
    | [] => some (.fail s)
    | x :: r => if c.has S.letter S.number x then some (.ok s [.text [x]] r) else some (.fail s)
  | n + 1, .seq a b, st, s, t => match runV G S A n a st s t with
    | none => none
    | some (.fail s') => some (.fail s')
    | some (.ok s' v r) => match runV G S A n b st s' r with
      | none => none
      | some (.fail s') => some (.fail s')
      | some (.ok s' w r') => some (.ok s' (v ++ w) r')
  | n + 1, .alt a b, st, s, t => match runV G S A n a st s t with
    | none => none
    | some (.fail s') => runV G S A n b st (S.restore s s') t
    | some (.ok s' v r) => some (.ok s' v r)
  | n + 1, .star e, st, s, t => match runV G S A n e st s t with
    | none => none
    | some (.fail s') => some (.ok s' [.slice []] t)
    | some (.ok s' v r) => (runV G S A n (.star e) st s' r).map (ResV.cons v)
  | n + 1, .plus e, st, s, t => match runV G S A n e st s t with
    | none => none
    | some (.fail s') => some (.fail s')
    | some (.ok s' v r) => (runV G S A n (.star e) st s' r).map (ResV.cons v)
  | n + 1, .opt e, st, s, t => match runV G S A n e st s t with
    | none => none
    | some (.fail s') => some (.ok s' [.nil] t)
    | some (.ok s' v r) => some (.ok s' v r)
  | n + 1, .andP e, st, s, t => match runV G S A n e st s t with
    | none => none
    | some (.fail s') => some (.fail (S.restore s s'))
    | some (.ok s' _ _) => some (.ok (S.restore s s') [.nil] t)
  | n + 1, .notP e, st, s, t => match runV G S A n e st s t with
    | none => none
    | some (.fail s') => some (.ok (S.restore s s') [.nil] t)
    | some (.ok s' _ _) => some (.fail (S.restore s s'))
  | n + 1, .rule i, _, s, t => runV G S A n (G i) t s t
  | _ + 1, .pred id, st, s, t => match S.pred id s st t with
    | (true, s') => some (.ok s' [.nil] t)
    | (false, s') => some (.fail s')
  | _ + 1, .state id, st, s, t => some (.ok (S.state id s st t) [.nil] t)
  | n + 1, .act id e, st, s, t => match runV G S A n e st s t with
    | none => none
    | some (.fail s') => some (.fail s')
    | some (.ok s' v r) => some (.ok (S.act id s' t r) [A id s' v (span t r)] r)
  | n + 1, .scope e, _, s, t => match runV G S A n e t s t with
    | none => none
    | some (.fail s') => some (.fail (S.restore s s'))
    | some (.ok s' v r) => some (.ok s' [.slice v] r)

end Peg
end Verif
