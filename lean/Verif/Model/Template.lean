import Verif.Model.Basic
/-!
The templates of the renderer: the part of Go's `text/template` which the templates of
`pkg/renderer/sgml/html5` and `pkg/renderer/sgml/xhtml5` use.
-/
namespace Verif
namespace Tmpl

/-- The value of a field of the data given to a template. -/
inductive Val where
  | str (t : Text)
  | num (n : Int)
  | flag (b : Bool)
  | strs (l : List Text)
deriving DecidableEq, Repr

/-- Go template: "false, 0, and any array, slice, map, or string of length zero" is false. -/
def Val.truth : Val → Bool
  | .str t => !t.isEmpty
  | .num n => n != 0
  | .flag b => b
  | .strs l => !l.isEmpty

/-- How `{{ .X }}` writes a value. A list of strings is never written by the templates. -/
def Val.shown : Val → Option Text
  | .str t => some t
  | .num n => some (toString n).toList
  | .flag b => some (if b then "true".toList else "false".toList)
  | .strs _ => none

/-- The functions available in the templates (sgml.go:22-31), those that are used. -/
inductive Fn where
  | asIs
  | toLower
  | halign
  | valign
  | trimLineFeedSuffix
deriving DecidableEq, Repr

/-- `strings.TrimSuffix`. -/
def trimSuffix (suf t : Text) : Text := if suf.isSuffixOf t then t.take (t.length - suf.length) else t

/-- sgml.go:179-190 `halign`; the alignments are `<`, `^` and `>` (types.go `HAlignLeft`…). -/
def halign (v : Text) : Text :=
  if v = "<".toList then "halign-left".toList else if v = "^".toList then "halign-center".toList
  else if v = ">".toList then "halign-right".toList else v

/-- sgml.go:192-203 `valign`. -/
def valign (v : Text) : Text :=
  if v = "<".toList then "valign-top".toList else if v = "^".toList then "valign-middle".toList
  else if v = ">".toList then "valign-bottom".toList else v

/-- The call of a function; `lower` is `strings.ToLower`. -/
def Fn.call (lower : Text → Text) : Fn → Text → Text
  | .asIs, t => t
  | .toLower, t => lower t
  | .halign, t => Tmpl.halign t
  | .valign, t => Tmpl.valign t
  | .trimLineFeedSuffix, t => trimSuffix "\n".toList t

/-- The conditions of `{{ if … }}`. -/
inductive Cond where
  /-- `{{ if .X }}` -/
  | is (f : String)
  /-- `{{ if not .X }}` -/
  | isNot (f : String)
  /-- `{{ if ne .X "" }}` -/
  | nonEmpty (f : String)
  /-- `{{ if eq .X n }}` -/
  | equals (f : String) (n : Nat)
  /-- `{{ if or .X .Y }}` -/
  | any (fs : List String)
deriving DecidableEq, Repr

/-- A template: what to write, in order.  In `cond c a b k` and in `loop f body k`, `k` is what follows `{{ end }}`. -/
inductive Tm where
  | done
  | text (s : String) (k : Tm)
  | out (fn : Fn) (f : String) (k : Tm)
  | cond (c : Cond) (a b k : Tm)
  | loop (f : String) (body k : Tm)
deriving Repr

/-- The data given to a template. -/
abbrev Env := AMap Val

/-- The field of a range variable: `{{ range $x := .F }}… {{ $x }}`. -/
def elemField : String := "$"

/-- A condition; an unknown field is an error. -/
def Cond.eval (env : Env) : Cond → Option Bool
  | .is f => (env.get f).map Val.truth
  | .isNot f => (env.get f).map (fun v => !v.truth)
  | .nonEmpty f => match env.get f with
    | some (.str t) => some (!t.isEmpty)
    | _ => none
  | .equals f n => match env.get f with
    | some (.num m) => some (m == (n : Int))
    | _ => none
  | .any fs => fs.foldr (fun f r => (env.get f).bind (fun v => r.map (fun b => v.truth || b))) (some false)

/-- Writes each of the given elements, with `f`. -/
def eachOf (f : Text → Option Text) : List Text → Option Text
  | [] => some []
  | x :: l => (f x).bind (fun t => (eachOf f l).map (t ++ ·))

/-- sgml_renderer.go:244-254 `execute`: the text written by a template, or an error. -/
def Tm.render (lower : Text → Text) : Tm → Env → Option Text
  | .done, _ => some []
  | .text s k, env => (k.render lower env).map (s.toList ++ ·)
  | .out fn f k, env =>
    ((env.get f).bind Val.shown).bind (fun v => (k.render lower env).map (fn.call lower v ++ ·))
  | .cond c a b k, env =>
    (c.eval env).bind (fun r =>
      (if r then a.render lower env else b.render lower env).bind (fun t => (k.render lower env).map (t ++ ·)))
  | .loop f body k, env =>
    match env.get f with
    | some (.strs l) =>
      (eachOf (fun x => body.render lower ((elemField, .str x) :: env)) l).bind
        (fun t => (k.render lower env).map (t ++ ·))
    | _ => none

end Tmpl
end Verif
