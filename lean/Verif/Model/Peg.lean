import Verif.Model.Basic

/-!
Parsing expression grammars as the generated parser runs them: `pkg/parser/parser.go` is generated from
`pkg/parser/parser.peg` by pigeon; its interpreter (parser.go:73147-73497) works on the expressions below.

Values are not modelled: code that looks at them (predicates) or uses them (actions) is given by a
semantics on an arbitrary state; all theorems that do not say otherwise hold for all of them.
-/
namespace Verif
namespace Peg

/-- A character class: negated or not, single characters, ranges, and the Unicode classes `\pL`, `\pN`. -/
structure Cls where
  neg : Bool
  chars : List Char
  ranges : List (Char × Char)
  letters : Bool
  numbers : Bool
deriving DecidableEq, Repr

/-- Expressions. -/
inductive Exp where
  /-- the empty sequence -/
  | eps
  /-- `.` -/
  | any
  /-- a literal -/
  | lit (s : List Char)
  /-- a literal with the flag `i` (ASCII letters only in the grammar) -/
  | litI (s : List Char)
  /-- `[…]` -/
  | cls (c : Cls)
  /-- two consecutive expressions of a sequence -/
  | seq (a b : Exp)
  /-- `a / b` -/
  | alt (a b : Exp)
  /-- `e*` -/
  | star (e : Exp)
  /-- `e+` -/
  | plus (e : Exp)
  /-- `e?` -/
  | opt (e : Exp)
  /-- `&e` -/
  | andP (e : Exp)
  /-- `!e` -/
  | notP (e : Exp)
  /-- a reference to a rule -/
  | rule (i : Nat)
  /-- `&{ code }` -/
  | pred (id : Nat)
  /-- `#{ code }` -/
  | state (id : Nat)
  /-- `e { code }` -/
  | act (id : Nat) (e : Exp)
  /-- a whole sequence: predicates see what was parsed since its beginning -/
  | scope (e : Exp)
deriving DecidableEq, Repr

/-- The meaning of the code in the grammar, on an arbitrary state (`c.state`, `c.globalStore`, the values
of the labels, …). Predicates and actions see the text at the beginning of the sequence and the current
one. `restore saved current` is what remains of the state when the parser goes back. -/
structure Sem (σ : Type) where
  letter : Char → Bool
  number : Char → Bool
  pred : Nat → σ → Text → Text → Bool × σ
  state : Nat → σ → Text → Text → σ
  act : Nat → σ → Text → Text → σ
  restore : σ → σ → σ

/-- The result of an expression: failure, or success with the remaining text. -/
inductive Res (σ : Type) where
  | fail (s : σ)
  | ok (s : σ) (rest : Text)

/-- Membership in a class (parser.go:73262-73322 `parseCharClassMatcher`). -/
def Cls.has (c : Cls) (letter number : Char → Bool) (x : Char) : Bool :=
  (c.chars.contains x || c.ranges.any (fun r => decide (r.1 ≤ x) && decide (x ≤ r.2)) ||
    (c.letters && letter x) || (c.numbers && number x)) != c.neg

/-- `unicode.ToLower` on ASCII. -/
def lower (c : Char) : Char := if 'A' ≤ c ∧ c ≤ 'Z' then Char.ofNat (c.toNat + 32) else c

/-- A literal at the beginning of the text (parser.go:73353-73370 `parseLitMatcher`). At the end of the text
the current rune is U+FFFD (`utf8.RuneError`), of width 0: a literal U+FFFD matches there. -/
def matchLit : List Char → Text → Option Text
  | [], t => some t
  | a :: s, [] => if a = '\uFFFD' then matchLit s [] else none
  | a :: s, c :: t => if a = c then matchLit s t else none

/-- The same, ignoring case. -/
def matchLitI : List Char → Text → Option Text
  | [], t => some t
  | _ :: _, [] => none
  | a :: s, c :: t => if lower a = lower c then matchLitI s t else none

/-- parser.go:73147-73497, the interpreter (`parseRule`, `parseExpr`, `parseActionExpr`, `parseAndCodeExpr`,
`parseAndExpr`, `parseAnyMatcher`, `parseChoiceExpr`, `parseNotExpr`, `parseOneOrMoreExpr`, `parseSeqExpr`,
`parseStateCodeExpr`, `parseZeroOrMoreExpr`, `parseZeroOrOneExpr`), with a bound on the depth of calls (`none`: the bound is reached). `start` is the text
at the beginning of the current sequence. -/
def run {σ : Type} (G : Nat → Exp) (S : Sem σ) : Nat → Exp → Text → σ → Text → Option (Res σ)
  | 0, _, _, _, _ => none
  | _ + 1, .eps, _, s, t => some (.ok s t)
  | _ + 1, .any, _, s, t => match t with
    | [] => some (.fail s)
    | _ :: r => some (.ok s r)
  | _ + 1, .lit l, _, s, t => match matchLit l t with
    | none => some (.fail s)
    | some r => some (.ok s r)
  | _ + 1, .litI l, _, s, t => match matchLitI l t with
    | none => some (.fail s)
    | some r => some (.ok s r)
  | _ + 1, .cls c, _, s, t => match t with
    | [] => some (.fail s)
    | x :: r => if c.has S.letter S.number x then some (.ok s r) else some (.fail s)
  | n + 1, .seq a b, st, s, t => match run G S n a st s t with
    | none => none
    | some (.fail s') => some (.fail s')
    | some (.ok s' r) => run G S n b st s' r
  | n + 1, .alt a b, st, s, t => match run G S n a st s t with
    | none => none
    | some (.fail s') => run G S n b st (S.restore s s') t
    | some (.ok s' r) => some (.ok s' r)
  | n + 1, .star e, st, s, t => match run G S n e st s t with
    | none => none
    | some (.fail s') => some (.ok s' t)
    | some (.ok s' r) => run G S n (.star e) st s' r
  | n + 1, .plus e, st, s, t => match run G S n e st s t with
    | none => none
    | some (.fail s') => some (.fail s')
    | some (.ok s' r) => run G S n (.star e) st s' r
  | n + 1, .opt e, st, s, t => match run G S n e st s t with
    | none => none
    | some (.fail s') => some (.ok s' t)
    | some (.ok s' r) => some (.ok s' r)
  | n + 1, .andP e, st, s, t => match run G S n e st s t with
    | none => none
    | some (.fail s') => some (.fail (S.restore s s'))
    | some (.ok s' _) => some (.ok (S.restore s s') t)
  | n + 1, .notP e, st, s, t => match run G S n e st s t with
    | none => none
    | some (.fail s') => some (.ok (S.restore s s') t)
    | some (.ok s' _) => some (.fail (S.restore s s'))
  | n + 1, .rule i, _, s, t => run G S n (G i) t s t
  | _ + 1, .pred id, st, s, t => match S.pred id s st t with
    | (true, s') => some (.ok s' t)
    | (false, s') => some (.fail s')
  | _ + 1, .state id, st, s, t => some (.ok (S.state id s st t) t)
  | n + 1, .act id e, st, s, t => match run G S n e st s t with
    | none => none
    | some (.fail s') => some (.fail s')
    | some (.ok s' r) => some (.ok (S.act id s' t r) r)
  | n + 1, .scope e, _, s, t => match run G S n e t s t with
    | none => none
    | some (.fail s') => some (.fail (S.restore s s'))
    | some (.ok s' r) => some (.ok s' r)

end Peg
end Verif
