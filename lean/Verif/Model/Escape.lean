import Verif.Model.Ids
/-!
Model of the escaping of text: pkg/renderer/sgml/html_escape.go and pkg/renderer/sgml/string.go.
-/
namespace Verif.Escape

/-- Go's `strings.NewReplacer(pairs...).Replace`: at each position the first pair (in argument order) whose old string matches is
applied, and the search continues after the match; `skip` characters of a match remain to be skipped. -/
def replaceGo (pairs : List (Text × Text)) : Nat → Text → Text
  | _, [] => []
  | k + 1, _ :: t => replaceGo pairs k t
  | 0, c :: t => match pairs.find? (fun p => p.1.isPrefixOf (c :: t)) with
    | some p => p.2 ++ replaceGo pairs (p.1.length - 1) t
    | none => c :: replaceGo pairs 0 t

/-- html_escape.go:18-29 `htmlEscaper`. -/
def htmlPairs : List (Text × Text) :=
  [("&lt;".toList, "&lt;".toList), ("&gt;".toList, "&gt;".toList), ("&amp;".toList, "&amp;".toList), ("&#".toList, "&#".toList),
   ("&".toList, "&amp;".toList), ("<".toList, "&lt;".toList), (">".toList, "&gt;".toList), ("'".toList, "&#39;".toList), ("\"".toList, "&#34;".toList)]

/-- html_escape.go:10-12 `escapeString`. -/
def escapeString (s : Text) : Text := replaceGo htmlPairs 0 s

/-- string.go:29: a printable ASCII character (`unicode.IsPrint`: 32 to 126), or ASCII white space (`unicode.IsSpace`). -/
def plainASCII (c : Char) : Bool :=
  decide (c.toNat < 128) && ((decide (32 ≤ c.toNat) && decide (c.toNat ≤ 126)) || (decide (9 ≤ c.toNat) && decide (c.toNat ≤ 13)))

/-- string.go:23-37 `asciiEntify`. -/
def asciiEntify : Text → Text
  | [] => []
  | c :: t => (if plainASCII c then [c] else "&#".toList ++ itoa c.toNat ++ ";".toList) ++ asciiEntify t

/-- string.go:11-20 `renderStringElement`. -/
def renderString (useUnicode : Bool) (s : Text) : Text := if useUnicode then s else asciiEntify s

end Verif.Escape
